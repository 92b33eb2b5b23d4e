import Verif.Lemmas.Sampling
import Verif.Lemmas.Logs

/-! Properties of latency samples: C37, C38, C39, C86, C87, C88. -/

namespace Distbench.Sampling
open Spec

/-! ### C37: which samples are reported -/

/-- At the end of a run that keeps at most `cap > 0` samples, the report consists of the surviving
samples, each once: `min cap total` of them, each describing the RPC it was taken from. -/
theorem C37_retained {cap : Nat} (hcap : 0 < cap) {s : State} (h : Reachable cap s)
    (hw : s.workers = []) {report : List (Key × Sample)} (hu : Unpacked cap s report) :
    ∃ ns : List Nat, ns.Nodup ∧ (∀ n, n ∈ ns ↔ Survives cap s.draws s.recorded.length n) ∧
      ns.length = min cap s.recorded.length ∧
      DescribesAll s.dict.contents s.recorded ns report := by
  have hi := inv_reachable hcap h
  have hl := log_empty hcap h
  rw [← hi.number]
  cases hu with
  | @few ps hle hps =>
    rw [hl, List.nil_append]
    rw [show s.number = min cap s.number from by omega] at hps
    obtain ⟨a, b, c, d⟩ := report_ok hi hw hps (.refl ps)
    exact ⟨_, a, b, by simpa using c, d⟩
  | @many ps qs hlt hps hperm _ =>
    rw [hl, List.nil_append]
    rw [show cap = min cap s.number from by omega] at hps
    obtain ⟨a, b, c, d⟩ := report_ok hi hw hps hperm
    exact ⟨_, a, b, by simpa using c, d⟩

/-- If there are no more RPCs than may be kept, every RPC is reported, in the order of the numbers. -/
theorem C37_all_when_few {cap : Nat} (hcap : 0 < cap) {s : State} (h : Reachable cap s)
    (hw : s.workers = []) (hfew : s.recorded.length ≤ cap) {report : List (Key × Sample)}
    (hu : Unpacked cap s report) :
    DescribesAll s.dict.contents s.recorded (List.range s.recorded.length) report := by
  have hi := inv_reachable hcap h
  have hl := log_empty hcap h
  have hn := hi.number
  cases hu with
  | @many ps qs hlt => omega
  | @few ps hle hps =>
    rw [hl, List.nil_append]
    have hps' := hps
    rw [show s.number = min cap s.number from by omega] at hps'
    obtain ⟨a, b, c, d⟩ := report_ok hi hw hps' (.refl ps)
    have hns : ps.map Packed.sampleNumber = List.range s.recorded.length := by
      obtain ⟨g1, g2⟩ := mapM_range s.slots _ hps
      refine List.ext_getElem (by simp; omega) ?_
      intro i h1 h2
      rw [List.length_map] at h1
      rw [List.getElem_map, List.getElem_range]
      have := g2 i (by omega)
      rw [List.getElem?_eq_getElem h1] at this
      have hs := (hi.holds i _ this.symm).1
      have hlt := number_lt hi this.symm
      unfold slotOf at hs
      rw [if_pos (by omega)] at hs
      injection hs
    rw [← hns]
    exact d

/-- Without a limit (`max_rpc_samples` not positive) every RPC is reported, in order. -/
theorem C37_unlimited {maxRpcSamples : Int} (hmax : maxRpcSamples ≤ 0) {s : State}
    (h : Reachable (capacity maxRpcSamples) s) {report : List (Key × Sample)}
    (hu : Unpacked (capacity maxRpcSamples) s report) :
    DescribesAll s.dict.contents s.recorded (List.range s.recorded.length) report := by
  have hc : capacity maxRpcSamples = 0 := by unfold capacity; split <;> omega
  rw [hc] at h hu
  obtain ⟨h1, h2, h3, h4, h5⟩ := direct_reachable h
  have hrep : report = s.log := by
    cases hu with
    | few hle hps => rw [h2] at hps; simp at hps; subst hps; simp
    | many hlt => omega
  subst hrep
  refine ⟨by simp [h4], ?_⟩
  intro j k x hj
  obtain ⟨r, a, b⟩ := h5 j k x hj
  refine ⟨j, r, ?_, a, b⟩
  rw [List.getElem?_range]
  rcases Nat.lt_or_ge j s.log.length with h' | h'
  · omega
  · rw [List.getElem?_eq_none h'] at hj; simp at hj

theorem sorted_exists (ps : List Packed) : ∃ qs : List Packed, qs.Perm ps ∧ qs.Pairwise NotAfter := by
  refine ⟨ps.mergeSort (fun p q => decide (p.start + p.latency ≤ q.start + q.latency)),
    List.mergeSort_perm _ _, ?_⟩
  have := List.pairwise_mergeSort
    (le := fun (p q : Packed) => decide (p.start + p.latency ≤ q.start + q.latency))
    (by intro a b c; simp only [decide_eq_true_eq]; omega)
    (by intro a b; simp only [Bool.or_eq_true, decide_eq_true_eq]; omega) ps
  exact this.imp (by intro a b h; simpa [NotAfter] using h)

/-- A slot is never read before it was written, threads never wait for ever, and when all have
finished there is a report. -/
theorem C37_completes {cap : Nat} (hcap : 0 < cap) {s : State} (h : Reachable cap s) :
    s.invalid = false ∧
    (∃ s', Later cap s s' ∧ s'.workers = [] ∧ s'.recorded = s.recorded ∧ s'.draws = s.draws) ∧
    (s.workers = [] → ∃ report, Unpacked cap s report) := by
  have hi := inv_reachable hcap h
  refine ⟨hi.valid, can_finish hcap _ h (Nat.le_refl _), ?_⟩
  intro hw
  rcases Nat.lt_or_ge cap s.number with hlt | hge
  · obtain ⟨ps, hps⟩ := mapM_range_some s.slots cap (fun i hi' =>
      slots_filled hi hw i hi' (by omega))
    obtain ⟨qs, a, b⟩ := sorted_exists ps
    exact ⟨_, .many hlt hps a b⟩
  · obtain ⟨ps, hps⟩ := mapM_range_some s.slots s.number (fun i hi' =>
      slots_filled hi hw i (by omega) hi')
    exact ⟨_, .few hge hps⟩

/-! ### C38: order independence -/

/-- Two runs that record the same RPCs with the same draws report the same samples, whatever the
threads do in between. -/
theorem C38_order_independent {cap : Nat} (hcap : 0 < cap) {s1 s2 : State}
    (h1 : Reachable cap s1) (h2 : Reachable cap s2) (hw1 : s1.workers = []) (hw2 : s2.workers = [])
    (hr : s1.recorded = s2.recorded) (hd : s1.draws = s2.draws)
    {report1 report2 : List (Key × Sample)}
    (hu1 : Unpacked cap s1 report1) (hu2 : Unpacked cap s2 report2) :
    ∃ ns1 ns2 : List Nat, ns1.Perm ns2 ∧
      DescribesAll s1.dict.contents s1.recorded ns1 report1 ∧
      DescribesAll s2.dict.contents s2.recorded ns2 report2 := by
  obtain ⟨ns1, a1, b1, -, d1⟩ := C37_retained hcap h1 hw1 hu1
  obtain ⟨ns2, a2, b2, -, d2⟩ := C37_retained hcap h2 hw2 hu2
  refine ⟨ns1, ns2, ?_, d1, d2⟩
  rw [List.perm_ext_iff_of_nodup a1 a2]
  intro n
  rw [b1, b2, hr, hd]

/-! ### C39: the error dictionary -/

/-- The dictionary after a sequence of lookups. -/
def after (texts : List Str) : Dictionary :=
  texts.foldl (fun d t => (d.getIndex t).1) .empty

theorem after_ok (texts : List Str) : DictOk (after texts) := dictOk_foldl texts dictOk_empty

theorem after_snoc (texts : List Str) (t : Str) : after (texts ++ [t]) = ((after texts).getIndex t).1 := by
  unfold after; rw [List.foldl_append]; rfl

/-- Index 0 is the empty message; the index returned for a message denotes it, then and after any
further lookups. -/
theorem C39_value (texts later : List Str) (t : Str) :
    (after texts).getValue 0 = some [] ∧ ((after texts).getIndex []).2 = 0 ∧
    (after (texts ++ t :: later)).getValue ((after texts).getIndex t).2 = some t := by
  refine ⟨(after_ok texts).zero, ?_, ?_⟩
  · unfold Dictionary.getIndex
    rw [(after_ok texts).bwd 0 [] (after_ok texts).zero]
  · have h1 := getIndex_value (after_ok texts) t
    rw [← after_snoc] at h1
    obtain ⟨rest, hr⟩ := foldl_prefix later (after (texts ++ [t]))
    have he : after (texts ++ t :: later) =
        later.foldl (fun d t => (d.getIndex t).1) (after (texts ++ [t])) := by
      unfold after
      rw [← List.foldl_append, List.append_assoc]; rfl
    unfold Dictionary.getValue
    rw [he, hr]
    exact getElem?_append_some _ h1

/-- Asking again, at any later time, gives the same index; another message gets another index. -/
theorem C39_stable (texts later : List Str) (t t' : Str) :
    ((after (texts ++ t :: later)).getIndex t').2 = ((after texts).getIndex t).2 ↔ t' = t := by
  have hv := (C39_value texts later t).2.2
  constructor
  · intro h
    have hv' := getIndex_value (after_ok (texts ++ t :: later)) t'
    obtain ⟨rest, hr⟩ := getIndex_prefix (after (texts ++ t :: later)) t'
    rw [h, hr, getElem?_append_some _ hv] at hv'
    injection hv' with hv'
    exact hv'.symm
  · intro h
    subst h
    conv => lhs; unfold Dictionary.getIndex
    rw [(after_ok (texts ++ t' :: later)).bwd _ _ hv]

/-- The dictionary that is reported lists the empty message and the messages that were looked up,
each once. -/
theorem C39_contents (texts : List Str) :
    (after texts).contents.Nodup ∧
    ∀ x, x ∈ (after texts).contents ↔ x = [] ∨ x ∈ texts := by
  constructor
  · rw [List.nodup_iff_pairwise_ne, List.pairwise_iff_getElem]
    intro i j hi hj hij he
    have a := (after_ok texts).bwd i _ (List.getElem?_eq_getElem hi)
    have b := (after_ok texts).bwd j _ (List.getElem?_eq_getElem hj)
    rw [he, b] at a
    injection a with a
    omega
  · intro x
    have key : ∀ (l : List Str) (d : Dictionary), DictOk d →
        (x ∈ (l.foldl (fun d t => (d.getIndex t).1) d).contents ↔ x ∈ d.contents ∨ x ∈ l) := by
      intro l
      induction l with
      | nil => intro d _; simp
      | cons t l ih =>
        intro d hd
        rw [List.foldl_cons, ih _ (dictOk_getIndex hd t)]
        have : x ∈ (d.getIndex t).1.contents ↔ x ∈ d.contents ∨ x = t := by
          unfold Dictionary.getIndex
          split
          · rename_i i hi
            have := List.mem_of_getElem? (hd.fwd t i hi)
            constructor
            · exact .inl
            · rintro (h | rfl)
              · exact h
              · exact this
          · simp
        rw [this, List.mem_cons, or_assoc]
    unfold after
    rw [key texts .empty dictOk_empty]
    simp [Dictionary.empty]

/-! ### C86: both ways of recording tell the same -/

/-- The sample of an RPC that went through the packed form and the one recorded directly agree in
every field; an absent field counts as its default value. -/
theorem C86_same_sample (texts : List Str) (n : Nat) (r : Rpc) :
    let packed := unpack (pack (after texts) n r).2
    let plain := (direct (after texts) r).2
    (pack (after texts) n r).1.contents = (direct (after texts) r).1.contents ∧
    packed.1 = plain.1 ∧
    Describes (pack (after texts) n r).1.contents r packed.1 packed.2 ∧
    Describes (direct (after texts) r).1.contents r plain.1 plain.2 ∧
    packed.2.errorIndex.getD 0 = plain.2.errorIndex.getD 0 := by
  intro packed plain
  obtain ⟨-, -, -, h1⟩ := pack_ok (after_ok texts) n r
  obtain ⟨-, -, h2⟩ := direct_ok (after_ok texts) r
  refine ⟨?_, ?_, h1, h2, ?_⟩
  · unfold pack direct
    by_cases he : r.error ≠ []
    · simp only [if_pos he]
    · simp only [if_neg he]
  · unfold packed plain unpack pack direct
    by_cases he : r.error ≠ []
    · simp only [if_pos he]
    · simp only [if_neg he]
  · unfold packed plain unpack pack direct
    by_cases he : r.error ≠ []
    · simp only [if_pos he]
      split
      · simp
      · rename_i h; simp at h; simp [h]
    · simp only [if_neg he]; simp

/-! ### C87: every RPC has the same chance -/

/-- With `cap + m` RPCs, among all the possible draws every RPC is kept in the same number of cases,
the fraction `cap / (cap + m)`.  The draws of a run are among them. -/
theorem C87_uniform (cap m n : Nat) (hn : n < cap + m) :
    (allDraws cap m).countP (fun v => decide (Survives cap v (cap + m) n)) * (cap + m)
      = cap * (allDraws cap m).length := uniform cap m n hn

theorem C87_draws_possible {cap : Nat} (hcap : 0 < cap) {s : State} (h : Reachable cap s) :
    s.draws ∈ allDraws cap (s.recorded.length - cap) := by
  rw [← (inv_reachable hcap h).number]
  exact draws_mem hcap h

/-- The possible draws: one number for each RPC after the first `cap`, up to the RPC's own number,
each combination once. -/
theorem C87_all_draws (cap m : Nat) : (allDraws cap m).Nodup ∧
    ∀ v, v ∈ allDraws cap m ↔ v.length = m ∧ ∀ (j d : Nat), v[j]? = some d → d ≤ cap + j := by
  induction m with
  | zero =>
    refine ⟨by simp [allDraws], fun v => ?_⟩
    simp only [allDraws, List.mem_singleton]
    constructor
    · rintro rfl; simp
    · intro h; exact List.length_eq_zero_iff.1 h.1
  | succ m ih =>
    constructor
    · unfold allDraws
      rw [List.nodup_iff_pairwise_ne, List.flatMap, List.pairwise_flatten]
      refine ⟨?_, ?_⟩
      · intro l hl
        obtain ⟨v, -, rfl⟩ := List.mem_map.1 hl
        rw [List.pairwise_map]
        exact (List.nodup_iff_pairwise_ne.1 List.nodup_range).imp (by
          intro a b hab he
          have := List.append_cancel_left he
          exact hab (by simpa using this))
      · rw [List.pairwise_map]
        refine (List.nodup_iff_pairwise_ne.1 ih.1).imp ?_
        intro v w hvw x hx y hy hxy
        obtain ⟨d, -, rfl⟩ := List.mem_map.1 hx
        obtain ⟨e, -, rfl⟩ := List.mem_map.1 hy
        exact hvw (List.append_inj' hxy rfl).1
    · intro v
      unfold allDraws
      simp only [List.mem_flatMap, List.mem_map, List.mem_range]
      constructor
      · rintro ⟨w, hw, d, hd, rfl⟩
        obtain ⟨a, b⟩ := (ih.2 w).1 hw
        refine ⟨by simp [a], ?_⟩
        intro j e he
        rcases Nat.lt_or_ge j w.length with h' | h'
        · rw [List.getElem?_append_left h'] at he; exact b j e he
        · rw [List.getElem?_append_right h'] at he
          have : j - w.length = 0 := by
            rcases Nat.eq_zero_or_pos (j - w.length) with h | h
            · exact h
            · rw [List.getElem?_eq_none (by simp; omega)] at he; simp at he
          rw [this] at he
          simp at he
          omega
      · rintro ⟨hl, hb⟩
        have hne : v ≠ [] := by intro h; rw [h] at hl; simp at hl
        have hv := List.dropLast_concat_getLast hne
        refine ⟨v.dropLast, (ih.2 _).2 ⟨by simp [hl], ?_⟩, v.getLast hne, ?_, hv⟩
        · intro j d hj
          refine hb j d ?_
          rw [← hv]
          exact getElem?_append_some _ hj
        · have := hb m (v.getLast hne) (by
            rw [List.getLast_eq_getElem, List.getElem?_eq_getElem (by omega)]
            congr 1
            congr 1
            omega)
          omega

/-! ### examples -/

def sampleRpc (t : Int) (e : Str) : Rpc :=
  { rpcIndex := 1, service := 0, instance_ := 2, success := e.isEmpty, warmup := false
    requestSize := 10, responseSize := 20, startTime := t, endTime := t + 5, priorStart := some 3
    trace := none, error := e }

def demo1 : State := release [] [] (writeInitial [] [] 0 (sampleRpc 100 [])
  (arrive 2 (sampleRpc 100 []) 0 (start 2 (after []))))

def demo2 : State := arrive 2 (sampleRpc 150 []) 0 (arrive 2 (sampleRpc 200 "timeout".toList) 0 demo1)

def demo3 : State :=
  release [] [.waiting 2 0 (sampleRpc 150 [])]
    (writeInitial [] [.waiting 2 0 (sampleRpc 150 [])] 1 (sampleRpc 200 "timeout".toList) demo2)

/-- Two samples may be kept and three RPCs are made; the third replaces the first. -/
def demo : State := replace [] [] 2 0 (sampleRpc 150 []) demo3

theorem demo_reachable : Reachable 2 demo := by
  have h1 : Reachable 2 demo1 := by
    refine .step (.step (.step (.start []) (.arrive (sampleRpc 100 []) 0 (by omega) (by decide)))
      (.writeInitial (l1 := []) (l2 := []) (n := 0) rfl)) (.release (l1 := []) (l2 := []) (n := 0) rfl)
  have h2 : Reachable 2 demo2 :=
    .step (.step h1 (.arrive _ 0 (by omega) (by decide))) (.arrive _ 0 (by omega) (by decide))
  have h3 : Reachable 2 demo3 :=
    .step (.step h2 (.writeInitial (l1 := []) (l2 := [.waiting 2 0 (sampleRpc 150 [])]) rfl))
      (.release (l1 := []) (l2 := [.waiting 2 0 (sampleRpc 150 [])]) (n := 1) rfl)
  exact .step h3 (Step.replace (l1 := []) (l2 := []) rfl rfl)

example : demo.workers = [] ∧ demo.recorded.length = 3 ∧ demo.draws = [0] ∧
    (demo.slots 0).map Packed.start = some 150 ∧ (demo.slots 1).map Packed.errorIndex = some 1 ∧
    demo.dict.contents = [[], "timeout".toList] := by
  refine ⟨rfl, rfl, rfl, rfl, rfl, rfl⟩

example : ∃ report, Unpacked 2 demo report :=
  (C37_completes (by omega) demo_reachable).2.2 rfl

example : Survives 2 [0] 3 1 ∧ Survives 2 [0] 3 2 ∧ ¬ Survives 2 [0] 3 0 := by decide

example : Reachable 0 (recordDirect (sampleRpc 1 "x".toList) (start 0 (after []))) :=
  .step (.start []) (.direct _ rfl)

example : (allDraws 2 1) = [[0], [1], [2]] ∧
    (allDraws 2 1).countP (fun v => decide (Survives 2 v 3 0)) = 2 := by decide

example : ((after ["a".toList, "b".toList, "a".toList]).getIndex "b".toList).2 = 2 := by decide

/-! The theorems above for these cases. -/

example : ∃ report, DescribesAll demo.dict.contents demo.recorded [1, 2] report ∨
    DescribesAll demo.dict.contents demo.recorded [2, 1] report := by
  obtain ⟨report, hu⟩ := (C37_completes (by omega) demo_reachable).2.2 rfl
  obtain ⟨ns, hnd, hmem, hlen, hd⟩ := C37_retained (by omega) demo_reachable rfl hu
  have hs : ∀ n, n ∈ ns ↔ Survives 2 [0] 3 n := hmem
  have h1 : (1 : Nat) ∈ ns := (hs 1).2 (by decide)
  have h2 : (2 : Nat) ∈ ns := (hs 2).2 (by decide)
  have hl : ns.length = 2 := hlen
  match ns, hl with
  | [a, b], _ =>
    simp at h1 h2
    rcases h1 with rfl | rfl
    · have : b = 2 := by omega
      subst this
      exact ⟨report, .inl hd⟩
    · have : a = 2 := by omega
      subst this
      exact ⟨report, .inr hd⟩
/-- With room for all that was recorded everything is retained. -/
example : ∃ s report, Reachable 2 s ∧ s.recorded.length = 1 ∧
    DescribesAll s.dict.contents s.recorded [0] report := by
  have h1 : Reachable 2 demo1 := by
    refine .step (.step (.step (.start []) (.arrive (sampleRpc 100 []) 0 (by omega) (by decide)))
      (.writeInitial (l1 := []) (l2 := []) (n := 0) rfl)) (.release (l1 := []) (l2 := []) (n := 0) rfl)
  obtain ⟨report, hu⟩ := (C37_completes (by omega) h1).2.2 rfl
  exact ⟨demo1, report, h1, rfl, C37_all_when_few (by omega) h1 rfl (by decide) hu⟩

end Distbench.Sampling

namespace Distbench.Logs
open Sampling Spec

/-! ### C88: the log of a service instance -/

/-- When the peers have distinct names, the log lists under the name of a peer, for each RPC and
outcome, exactly the samples that the runs of action lists took of RPCs to that peer, run by run. -/
theorem C88_logs_complete (names : List (List Str)) (hu : UniqueNames names)
    (reports : List (List (Key × Sample))) {i j : Nat} {row : List Str} {x : Str}
    (hi : names[i]? = some row) (hj : row[j]? = some x) (rpc : Nat) (success : Bool) :
    found (getLogs names (reports.foldl mergeRun (fun _ _ => []))) x rpc success =
      reports.flatMap (fun r => filed r ⟨i, j, rpc, success⟩) := by
  obtain ⟨g1, g2⟩ := mergeRuns_ok reports (fun _ _ => []) (by simp)
  rw [found_getLogs names _ g1]
  have hi' : i < names.length := by
    rcases Nat.lt_or_ge i names.length with h | h
    · exact h
    · rw [List.getElem?_eq_none h] at hi; simp at hi
  have hj' : j < row.length := by
    rcases Nat.lt_or_ge j row.length with h | h
    · exact h
    · rw [List.getElem?_eq_none h] at hj; simp at hj
  rw [flatMap_single _ (row, i) names.zipIdx (nodup_zipIdx _)
    (List.mem_zipIdx_iff_getElem?.2 hi)]
  · simp only []
    rw [flatMap_single _ (x, j) row.zipIdx (nodup_zipIdx _) (List.mem_zipIdx_iff_getElem?.2 hj)]
    · rw [if_pos rfl, g2]; simp [allIn]
    · intro b hb hne
      rw [if_neg]
      intro he
      have hb' := List.mem_zipIdx_iff_getElem?.1 hb
      rw [he] at hb'
      have := hu i j i b.2 row row x hi hj hi hb'
      exact hne (Prod.ext he this.2.symm)
  · intro b hb hne
    rw [List.flatMap_eq_nil_iff]
    intro c hc
    rw [if_neg]
    intro he
    have hb' := List.mem_zipIdx_iff_getElem?.1 hb
    have hc' := List.mem_zipIdx_iff_getElem?.1 hc
    rw [he] at hc'
    have := hu i j b.2 c.2 row b.1 x hi hj hb' hc'
    rw [← this.1, hi] at hb'
    injection hb' with hb'
    exact hne (Prod.ext hb'.symm this.1.symm)

/-- Under any other name there is nothing. -/
theorem C88_nothing_else (names : List (List Str)) (reports : List (List (Key × Sample))) {x : Str}
    (hx : ∀ row ∈ names, x ∉ row) (rpc : Nat) (success : Bool) :
    found (getLogs names (reports.foldl mergeRun (fun _ _ => []))) x rpc success = [] := by
  obtain ⟨g1, -⟩ := mergeRuns_ok reports (fun _ _ => []) (by simp)
  rw [found_getLogs names _ g1, List.flatMap_eq_nil_iff]
  intro row hrow
  rw [List.flatMap_eq_nil_iff]
  intro p hp
  rw [if_neg]
  intro he
  have h1 := List.mem_zipIdx_iff_getElem?.1 hrow
  have h2 := List.mem_zipIdx_iff_getElem?.1 hp
  exact hx row.1 (List.mem_of_getElem? h1) (he ▸ List.mem_of_getElem? h2)

example : UniqueNames [["a/0".toList], ["b/0".toList, "b/1".toList]] := by
  intro i j i' j' row row' x h1 h2 h3 h4
  match i, i' with
  | 0, 0 =>
    simp at h1 h3; subst h1; subst h3
    match j, j' with
    | 0, 0 => exact ⟨rfl, rfl⟩
    | 0, _ + 1 => simp at h4
    | _ + 1, _ => simp at h2
  | 0, 1 =>
    simp at h1 h3; subst h1; subst h3
    match j, j' with
    | 0, 0 => simp at h2 h4; subst h2; simp at h4
    | 0, 1 => simp at h2 h4; subst h2; simp at h4
    | 0, _ + 2 => simp at h4
    | _ + 1, _ => simp at h2
  | 1, 0 =>
    simp at h1 h3; subst h1; subst h3
    match j', j with
    | 0, 0 => simp at h2 h4; subst h2; simp at h4
    | 0, 1 => simp at h2 h4; subst h2; simp at h4
    | 0, _ + 2 => simp at h2
    | _ + 1, _ => simp at h4
  | 1, 1 =>
    simp at h1 h3; subst h1; subst h3
    match j, j' with
    | 0, 0 => exact ⟨rfl, rfl⟩
    | 1, 1 => exact ⟨rfl, rfl⟩
    | 0, 1 => simp at h2 h4; subst h2; simp at h4
    | 1, 0 => simp at h2 h4; subst h2; simp at h4
    | _ + 2, _ => simp at h2
    | _, _ + 2 => simp at h4
  | _ + 2, _ => simp at h1
  | _, _ + 2 => simp at h3

end Distbench.Logs
