import Verif.Lemmas.Report
import Verif.Props.Traffic
import Verif.Props.TrafficCancel
import Verif.Props.Summary

/-! From the configuration of a test to its results and their summary. -/

namespace Distbench.Report
open Traffic Spec

/-! ### Examples -/

/-- Where the engines of the example of Props/Traffic.lean are. -/
def exSetup : Setup :=
  { place := fun e => if e = 0 then (0, 0) else if e = 3 then (2, 0) else (1, e - 1)
    names := [["root/0".toList], ["mid/0".toList, "mid/1".toList], ["leaf/0".toList]]
    limit := fun _ => 0
    failed := fun _ => false
    warmup := fun _ => false }

theorem ex_names : UniqueNames exSetup.names :=
  uniqueNames_small (n := 3) (m := 2) (by decide) (by decide) (by decide +kernel)

theorem ex_deployed : Deployed exCfg exSetup [2, 0, 3, 1] := by
  refine ⟨ex_names, by decide, ?_, by decide, ?_⟩
  · intro e he
    simp only [List.mem_cons, List.not_mem_nil, or_false] at he
    rcases he with rfl | rfl | rfl | rfl <;> exact ⟨_, rfl⟩
  · rintro e (⟨l, h⟩ | ⟨q, h⟩)
    · simp [exCfg] at h
      simp [h.1]
    · simp only [exCfg] at h
      split at h <;> simp at h
      · rcases h with rfl | rfl <;> decide
      · subst h; decide

/-- The RPCs of the run `j` are recorded one after the other. -/
def records (S : Setup) (s : State) (j : Nat) : Sampling.State :=
  ((doneIn s j).map fun x => rpcLike (gistOf S x)).foldl (fun st r => Sampling.recordDirect r st)
    (Sampling.start 0 .empty)

theorem records_reachable (l : List Sampling.Rpc) {st : Sampling.State} (h : Sampling.Reachable 0 st) :
    Sampling.Reachable 0 (l.foldl (fun st r => Sampling.recordDirect r st) st) ∧
    (l.foldl (fun st r => Sampling.recordDirect r st) st).recorded = st.recorded ++ l := by
  induction l generalizing st with
  | nil => exact ⟨h, (List.append_nil _).symm⟩
  | cons r l ih =>
    obtain ⟨h1, h2⟩ := ih (.step h (.direct r rfl))
    exact ⟨h1, h2.trans (by rw [show (Sampling.recordDirect r st).recorded = st.recorded ++ [r] from rfl, List.append_assoc]; rfl)⟩

/-- The results if all is recorded one after the other. -/
def resultOf (S : Setup) (rpcNames : List Str) (engines : List Nat) (s : State) : Summary.Result :=
  result S rpcNames engines fun e => engineLog S (fun j => (records S s j).log) (overAt s e)

theorem collected_of {S : Setup} (rpcNames : List Str) (engines : List Nat) (s : State) (hS : ∀ l, S.limit l = 0) :
    Collected S rpcNames engines s (resultOf S rpcNames engines s) := by
  refine ⟨_, _, fun j k hk => ?_, fun e => .refl _, rfl⟩
  obtain ⟨h1, h2⟩ := records_reachable ((doneIn s j).map fun x => rpcLike (gistOf S x)) (.start [])
  obtain ⟨_, g2, g3, _⟩ := Sampling.direct_reachable h1
  rw [JobReport, hS]
  refine ⟨_, h1, g3, ?_, ?_⟩
  · rw [h2]
    show (((doneIn s j).map fun x => rpcLike (gistOf S x)).map gist).Perm _
    rw [List.map_map]
    exact .refl _
  · have := Sampling.Unpacked.few (ps := []) (cap := 0) (Nat.le_of_eq g2) (by rw [g2]; rfl)
    rwa [List.map_nil, List.append_nil] at this

/-- Results of the example. -/
def exResult : Summary.Result := resultOf exSetup ["get".toList, "put".toList] [2, 0, 3, 1] exEnd

theorem ex_collected : Collected exSetup ["get".toList, "put".toList] [2, 0, 3, 1] exEnd exResult :=
  collected_of _ _ _ fun _ => rfl

theorem sum_pos {α : Type} {l : List α} {f : α → Nat} (h : 0 < (l.map f).sum) : ∃ a ∈ l, 0 < f a := by
  induction l with
  | nil => cases h
  | cons a l ih =>
    rw [List.map_cons, List.sum_cons] at h
    rcases Nat.eq_zero_or_pos (f a) with h0 | h0
    · obtain ⟨b, h1, h2⟩ := ih (by omega)
      exact ⟨b, List.mem_cons_of_mem _ h1, h2⟩
    · exact ⟨a, List.mem_cons_self, h0⟩

def exLines : List Summary.Line :=
  match Summary.summarize exResult with
  | .ok lines => lines
  | _ => []

theorem ex_lines : Summary.summarize exResult = .ok exLines ∧
    .totalSamples 8 ∈ exLines ∧
    .latency "put".toList 6 (some ⟨1, 1, 1, 1, 1, 1⟩) ∈ exLines ∧
    .communication "mid/1".toList "leaf/0".toList 3 48 48 1 ∈ exLines := by
  decide +kernel

/-! ### Results have a sample for each RPC (C236) -/

/-- For every way the samples may be recorded, there are results. -/
theorem C236_exists (S : Setup) (rpcNames : List Str) (engines : List Nat) (s : State) :
    ∃ r, Collected S rpcNames engines s r := by
  have h : ∀ j : Nat, ∃ report, ∀ k : Job, s.jobs[j]? = some k → JobReport S s j k.list report := by
    intro j
    cases hk : s.jobs[j]? with
    | none => exact ⟨[], fun k h => by cases h⟩
    | some k =>
      let l := (doneIn s j).map fun x => rpcLike (gistOf S x)
      obtain ⟨st, h1, h2, h3, report, h4⟩ := recorded_exists (Sampling.capacity (S.limit k.list)) l
      refine ⟨report, fun k' hk' => ?_⟩
      cases hk'
      refine ⟨st, h1, h2, ?_, h4⟩
      rw [h3, List.map_map]
      exact .refl _
  exact ⟨_, fun j => (h j).choose, fun e => overAt s e, fun j k hk => (h j).choose_spec k hk, fun e => .refl _, rfl⟩

theorem between {S : Setup} {rpcNames : List Str} {engines : List Nat} {s : State} {r : Summary.Result}
    (hd : Placed S engines s) (ho : TrafficOver s) (hm : ∀ c ∈ s.calls, ∃ k, s.jobs[c.job]? = some k)
    (hl : NoLimit S s) (h : Collected S rpcNames engines s r) {e t : Nat} (he : e ∈ engines) (ht : t ∈ engines)
    (q : Nat) : samplesIn r (S.nameOf e) (S.nameOf t) q = madeBetween s e t q := by
  rw [← total_between, total_collected hd ho hm hl h, madeBetween]
  have h1 : s.calls = s.calls.zipIdx.map Prod.fst := (List.zipIdx_map_fst ..).symm
  conv => rhs; rw [h1]
  rw [List.countP_map, ← sum_countP]
  refine sum_congr fun x hx => ?_
  have hx := List.mem_of_getElem? (List.mem_zipIdx_iff_getElem?.1 hx)
  obtain ⟨k, hk⟩ := hm _ hx
  have hc : clientOf s x.1 = some k.engine := by unfold clientOf; rw [hk]; rfl
  have hke := hd.clients k (List.mem_of_getElem? hk)
  simp only [hc, Option.getD_some, Function.comp]
  have e1 : S.nameOf k.engine = S.nameOf e ↔ k.engine = e :=
    ⟨nameOf_inj hd hke he, fun h => by rw [h]⟩
  have e2 : S.nameOf x.1.target = S.nameOf t ↔ x.1.target = t :=
    ⟨nameOf_inj hd (hd.servers _ hx) ht, fun h => by rw [h]⟩
  simp only [e1, e2, Option.some.injEq, Bool.and_eq_true, decide_eq_true_eq, and_assoc]

/-- When a test is over and no list limits the samples, its results have, for each client, server and
RPC, as many samples as this client made such RPCs to this server. -/
theorem C236_samples {cfg : Config} {ops : List Op} {s : State} {S : Setup} {rpcNames : List Str}
    {engines : List Nat} {r : Summary.Result} (hd : Deployed cfg S engines) (h : TrafficRun cfg ops s)
    (ho : TrafficOver s) (hl : NoLimit S s) (hr : Collected S rpcNames engines s r) {e t : Nat}
    (he : e ∈ engines) (ht : t ∈ engines) (q : Nat) :
    samplesIn r (S.nameOf e) (S.nameOf t) q = madeBetween s e t q :=
  between (placed hd (inv_run h)) ho (has_job (inv_run h)) hl hr he ht q

example {r : Summary.Result} (h : Collected exSetup ["a".toList, "b".toList] [2, 0, 3, 1] exEnd r) :
    samplesIn r "mid/1".toList "leaf/0".toList 1 = 3 ∧ samplesIn r "root/0".toList "mid/1".toList 0 = 1 ∧
    samplesIn r "root/0".toList "leaf/0".toList 1 = 0 := by
  have hl : NoLimit exSetup exEnd := fun k _ => Int.le_refl 0
  refine ⟨?_, ?_, ?_⟩
  · exact (C236_samples ex_deployed ex_run ex_over hl h (e := 2) (t := 3) (by decide) (by decide) 1).trans
      (by decide +kernel)
  · exact (C236_samples ex_deployed ex_run ex_over hl h (e := 0) (t := 2) (by decide) (by decide) 0).trans
      (by decide +kernel)
  · exact (C236_samples ex_deployed ex_run ex_over hl h (e := 0) (t := 3) (by decide) (by decide) 1).trans
      (by decide +kernel)

/-- The same for a test that is cancelled, once the traffic has ended. -/
theorem C236_cancelled {cfg : Config} {ops : List COp} {s : CState} {S : Setup} {rpcNames : List Str}
    {engines : List Nat} {r : Summary.Result} (hd : Deployed cfg S engines) (h : CancelRun cfg ops s)
    (ho : TrafficOver s.base) (hl : NoLimit S s.base) (hr : Collected S rpcNames engines s.base r) {e t : Nat}
    (he : e ∈ engines) (ht : t ∈ engines) (q : Nat) :
    samplesIn r (S.nameOf e) (S.nameOf t) q = madeBetween s.base e t q :=
  between (placed hd (inv_cancel h)) ho (has_job (inv_cancel h)) hl hr he ht q

def ringSetup : Setup := { exSetup with place := fun e => (1, e) }

theorem ring_deployed : Deployed ringCfg ringSetup [0, 1] := by
  refine ⟨ex_names, by decide, ?_, by decide, ?_⟩
  · intro e he
    simp only [List.mem_cons, List.not_mem_nil, or_false] at he
    rcases he with rfl | rfl <;> exact ⟨_, rfl⟩
  · rintro e (⟨l, h⟩ | ⟨q, h⟩)
    · simp [ringCfg] at h
      simp [h.1]
    · simp [ringCfg] at h
      simp [h]

example {r : Summary.Result} (h : Collected ringSetup ["a".toList] [0, 1] ringEnd.base r) :
    samplesIn r "mid/1".toList "mid/1".toList 0 = 2 :=
  (C236_cancelled ring_deployed ring_run ring_over (fun k _ => Int.le_refl 0) h (e := 1) (t := 1) (by decide)
    (by decide) 0).trans (by decide +kernel)

/-! ### The number of samples in the summary (C237) -/

/-- The number of samples that the summary gives is, when the test is over, that of all runs of lists
together: for each the number of its RPCs, but not more than `max_rpc_samples` of its list. -/
theorem C237_limits {cfg : Config} {ops : List Op} {s : State} {S : Setup} {rpcNames : List Str}
    {engines : List Nat} {r : Summary.Result} {lines : List Summary.Line} (hd : Deployed cfg S engines)
    (h : TrafficRun cfg ops s) (ho : TrafficOver s) (hr : Collected S rpcNames engines s r)
    (hs : Summary.summarize r = .ok lines) {n : Int} (hn : .totalSamples n ∈ lines) :
    n = ((s.jobs.zipIdx.map fun x => keptOf (S.limit x.1.list) (madeBy s x.2)).sum : Nat) := by
  have hp := placed hd (inv_run h)
  rw [(Summary.C129_counts (keyed_collected hp hr) hs n).1 hn, ← kept_collected hp ho hr]
  omega

example : (8 : Int) = ((exEnd.jobs.zipIdx.map fun x => keptOf 0 (madeBy exEnd x.2)).sum : Nat) :=
  C237_limits ex_deployed ex_run ex_over ex_collected ex_lines.1 ex_lines.2.1

/-- The same for a test that is cancelled, once the traffic has ended. -/
theorem C237_cancelled {cfg : Config} {ops : List COp} {s : CState} {S : Setup} {rpcNames : List Str}
    {engines : List Nat} {r : Summary.Result} {lines : List Summary.Line} (hd : Deployed cfg S engines)
    (h : CancelRun cfg ops s) (ho : TrafficOver s.base) (hr : Collected S rpcNames engines s.base r)
    (hs : Summary.summarize r = .ok lines) {n : Int} (hn : .totalSamples n ∈ lines) :
    n = ((s.base.jobs.zipIdx.map fun x => keptOf (S.limit x.1.list) (madeBy s.base x.2)).sum : Nat) := by
  have hp := placed hd (inv_cancel h)
  rw [(Summary.C129_counts (keyed_collected hp hr) hs n).1 hn, ← kept_collected hp ho hr]
  omega

example : (4 : Int) = ((ringEnd.base.jobs.zipIdx.map fun x => keptOf 0 (madeBy ringEnd.base x.2)).sum : Nat) := by
  have h : ∃ lines, Summary.summarize (resultOf ringSetup ["a".toList] [0, 1] ringEnd.base) = .ok lines ∧
      .totalSamples 4 ∈ lines := by
    refine ⟨_, rfl, ?_⟩
    decide +kernel
  obtain ⟨lines, h1, h2⟩ := h
  exact C237_cancelled ring_deployed ring_run ring_over (collected_of _ _ _ fun _ => rfl) h1 h2

/-- Without limits it is the number of RPCs that the configuration predicts. -/
theorem C237_predicted {cfg : Config} {predicted : Nat → Nat → Nat} {kinds : List Nat} {ops : List Op} {s : State}
    {S : Setup} {rpcNames : List Str} {engines : List Nat} {r : Summary.Result} {lines : List Summary.Line}
    (hk : AllKinds cfg kinds) (hp : ∀ q ∈ kinds, Predicts cfg q (predicted q)) (hu : Unconditional cfg)
    (hd : Deployed cfg S engines) (h : TrafficRun cfg ops s) (ho : TrafficOver s) (hl : NoLimit S s)
    (hr : Collected S rpcNames engines s r) (hs : Summary.summarize r = .ok lines) {n : Int}
    (hn : .totalSamples n ∈ lines) :
    n = ((kinds.map fun q => (cfg.roots.map fun x => predicted q x.2).sum).sum : Nat) := by
  have hpl := placed hd (inv_run h)
  rw [(Summary.C129_counts (keyed_collected hpl hr) hs n).1 hn]
  have h1 := total_samples r
  rw [total_collected hpl ho (has_job (inv_run h)) hl hr, sum_ones, List.length_zipIdx,
    calls_kinds hk.1 (kind_known (inv_run h) hk),
    sum_congr fun q hq => C226_rpcs (hp q hq) hu h ho] at h1
  omega

def exKinds : Nat → Nat → Nat
  | 0, 0 => 2
  | 0, _ => 0
  | _, l => exPredicted l

theorem ex_kinds : AllKinds exCfg [0, 1] ∧ ∀ q ∈ [0, 1], Predicts exCfg q (exKinds q) := by
  refine ⟨⟨by decide, ?_⟩, ?_⟩
  · intro l x hx q fan hw
    match l with
    | 0 | 1 | 2 =>
      simp [exCfg] at hx
      rcases hx with rfl | rfl <;> simp at hw <;> simp [← hw.1]
    | n + 3 => cases hx
  · intro q hq l
    simp only [List.mem_cons, List.not_mem_nil, or_false] at hq
    rcases hq with rfl | rfl
    · match l with
      | 0 => decide +kernel
      | 1 => decide +kernel
      | 2 => decide +kernel
      | n + 3 => rfl
    · exact ex_predicts l

example : (8 : Int) = ((([0, 1] : List Nat).map fun q => (exCfg.roots.map fun x => exKinds q x.2).sum).sum : Nat) :=
  C237_predicted ex_kinds.1 ex_kinds.2 ex_unconditional ex_deployed ex_run ex_over (fun k _ => Int.le_refl 0)
    ex_collected ex_lines.1 ex_lines.2.1

/-! ### The number of samples of an RPC (C238) -/

/-- The number in the latency line of an RPC is the number of its RPCs that succeeded and were not for
warmup. -/
theorem C238_measured {cfg : Config} {ops : List Op} {s : State} {S : Setup} {rpcNames : List Str}
    {engines : List Nat} {r : Summary.Result} {lines : List Summary.Line} (hd : Deployed cfg S engines)
    (h : TrafficRun cfg ops s) (ho : TrafficOver s) (hl : NoLimit S s) (hr : Collected S rpcNames engines s r)
    (hs : Summary.summarize r = .ok lines) {name : Str} {n : Nat} {stats : Option Summary.Stats}
    (hn : .latency name n stats ∈ lines) : n = measuredRpcs S rpcNames s name := by
  have hpl := placed hd (inv_run h)
  have hrn : r.rpcNames = rpcNames := by obtain ⟨_, _, _, _, rfl⟩ := hr; rfl
  rw [(Summary.latency_mem hs hn).1, ← total_latencies, total_collected hpl ho (has_job (inv_run h)) hl hr,
    measuredRpcs, ← sum_countP, hrn]

/-- If nothing fails and there is no warmup, it is the number that the configuration predicts for the RPC
of this name. -/
theorem C238_predicted {cfg : Config} {q : Nat} {predicted : Nat → Nat} {kinds : List Nat} {ops : List Op} {s : State}
    {S : Setup} {rpcNames : List Str} {engines : List Nat} {r : Summary.Result} {lines : List Summary.Line}
    (hk : AllKinds cfg kinds) (hp : Predicts cfg q predicted) (hu : Unconditional cfg)
    (hd : Deployed cfg S engines) (h : TrafficRun cfg ops s) (ho : TrafficOver s) (hl : NoLimit S s)
    (hr : Collected S rpcNames engines s r) (hs : Summary.summarize r = .ok lines)
    (hf : ∀ c, S.failed c = false) (hw : ∀ c, S.warmup c = false)
    (hq : ∀ q' ∈ kinds, rpcNames.getD q' [] = rpcNames.getD q [] → q' = q)
    {n : Nat} {stats : Option Summary.Stats} (hn : .latency (rpcNames.getD q []) n stats ∈ lines) :
    n = (cfg.roots.map fun x => predicted x.2).sum := by
  rw [C238_measured hd h ho hl hr hs hn, ← C226_rpcs hp hu h ho, measuredRpcs, rpcsMade]
  have h1 : s.calls = s.calls.zipIdx.map Prod.fst := (List.zipIdx_map_fst ..).symm
  conv => rhs; rw [h1]
  rw [List.countP_map]
  refine List.countP_congr fun x hx => ?_
  have hx := List.mem_of_getElem? (List.mem_zipIdx_iff_getElem?.1 hx)
  have := hq x.1.rpc (kind_known (inv_run h) hk _ hx)
  simp only [hf, hw, Function.comp, Bool.not_false, Bool.and_true, decide_eq_true_eq]
  exact ⟨this, fun e => by rw [e]⟩

example : 6 = (exCfg.roots.map fun x => exPredicted x.2).sum :=
  C238_predicted ex_kinds.1 ex_predicts ex_unconditional ex_deployed ex_run ex_over (fun k _ => Int.le_refl 0)
    ex_collected ex_lines.1 (fun _ => rfl) (fun _ => rfl) (by decide +kernel) (q := 1) ex_lines.2.2.1

/-- A summary that is not empty has exactly one such line for each name of an RPC that was made. -/
theorem C238_line {cfg : Config} {ops : List Op} {s : State} {S : Setup} {rpcNames : List Str}
    {engines : List Nat} {r : Summary.Result} {lines : List Summary.Line} (hd : Deployed cfg S engines)
    (h : TrafficRun cfg ops s) (ho : TrafficOver s) (hl : NoLimit S s) (hr : Collected S rpcNames engines s r)
    (hs : Summary.summarize r = .ok lines) (hne : lines ≠ []) {q : Nat} (hq : 0 < rpcsMade s q) :
    lines.countP (Summary.isLatencyOf (rpcNames.getD q [])) = 1 := by
  have hpl := placed hd (inv_run h)
  have hrn : r.rpcNames = rpcNames := by obtain ⟨_, _, _, _, rfl⟩ := hr; rfl
  rw [Summary.C125_one_line hs hne, if_pos]
  obtain ⟨c, hc, hcq⟩ := List.countP_pos_iff.1 hq
  obtain ⟨k, hk⟩ := has_job (inv_run h) c hc
  have h1 := between hpl ho (has_job (inv_run h)) hl hr (hpl.clients k (List.mem_of_getElem? hk)) (hpl.servers c hc) q
  have h2 : 0 < madeBetween s k.engine c.target q := by
    refine List.countP_pos_iff.2 ⟨c, hc, ?_⟩
    unfold clientOf
    rw [hk]
    simpa using hcq
  rw [← h1] at h2
  obtain ⟨p, hp, h3⟩ := sum_pos h2
  split at h3
  · obtain ⟨l, hl', h4⟩ := sum_pos h3
    split at h4
    · rename_i hlq
      refine ⟨(r.rpcNames.getD l.1 [], l.2), ?_, by rw [hlq, hrn]⟩
      exact List.mem_flatMap.2 ⟨p, hp, List.mem_map.2 ⟨l, hl', rfl⟩⟩
    · cases h4
  · cases h3

example : exLines.countP (Summary.isLatencyOf "put".toList) = 1 :=
  C238_line ex_deployed ex_run ex_over (fun k _ => Int.le_refl 0) ex_collected ex_lines.1 (by decide +kernel)
    (q := 1) (by decide +kernel)

/-! ### The number of RPCs between two instances (C239) -/

/-- The number in the line for a client and a server is the number of RPCs from this client to this
server that succeeded. -/
theorem C239_pairs {cfg : Config} {ops : List Op} {s : State} {S : Setup} {rpcNames : List Str}
    {engines : List Nat} {r : Summary.Result} {lines : List Summary.Line} (hd : Deployed cfg S engines)
    (h : TrafficRun cfg ops s) (ho : TrafficOver s) (hl : NoLimit S s) (hr : Collected S rpcNames engines s r)
    (hs : Summary.summarize r = .ok lines) {e t : Nat} (he : e ∈ engines) (ht : t ∈ engines)
    {n req resp time : Int} (hn : .communication (S.nameOf e) (S.nameOf t) n req resp time ∈ lines) :
    n = succeededBetween S s e t := by
  have hpl := placed hd (inv_run h)
  have hm := has_job (inv_run h)
  have hkey := keyed_collected hpl hr
  obtain ⟨logs, h1, h2, _⟩ := Summary.C126_traffic hkey hs hn
  have h3 := sum_pair (Summary.nodup_peers hkey) h1 fun l => (l.map fun x => x.2.successful.length).sum
  rw [← total_successes, total_collected hpl ho hm hl hr] at h3
  rw [h2]
  have h4 : (s.calls.zipIdx.map fun x => if S.nameOf ((clientOf s x.1).getD 0) = S.nameOf e ∧
      S.nameOf x.1.target = S.nameOf t ∧ (!S.failed x.2) = true then 1 else 0).sum = succeededBetween S s e t := by
    rw [succeededBetween, ← sum_countP]
    refine sum_congr fun x hx => ?_
    have hx := List.mem_of_getElem? (List.mem_zipIdx_iff_getElem?.1 hx)
    obtain ⟨k, hk⟩ := hm _ hx
    have hc : clientOf s x.1 = some k.engine := by unfold clientOf; rw [hk]; rfl
    have hke := hpl.clients k (List.mem_of_getElem? hk)
    have e1 : S.nameOf k.engine = S.nameOf e ↔ k.engine = e :=
      ⟨nameOf_inj hpl hke he, fun h => by rw [h]⟩
    have e2 : S.nameOf x.1.target = S.nameOf t ↔ x.1.target = t :=
      ⟨nameOf_inj hpl (hpl.servers _ hx) ht, fun h => by rw [h]⟩
    simp only [hc, Option.getD_some, e1, e2, Option.some.injEq, Bool.and_eq_true, decide_eq_true_eq, and_assoc]
  omega

/-- A summary that is not empty has such a line for each client and server between which there was an
RPC. -/
theorem C239_line {cfg : Config} {ops : List Op} {s : State} {S : Setup} {rpcNames : List Str}
    {engines : List Nat} {r : Summary.Result} {lines : List Summary.Line} (hd : Deployed cfg S engines)
    (h : TrafficRun cfg ops s) (ho : TrafficOver s) (hl : NoLimit S s) (hr : Collected S rpcNames engines s r)
    (hs : Summary.summarize r = .ok lines) (hne : lines ≠ []) {e t q : Nat} (he : e ∈ engines) (ht : t ∈ engines)
    (hq : 0 < madeBetween s e t q) :
    ∃ n req resp time, .communication (S.nameOf e) (S.nameOf t) n req resp time ∈ lines := by
  have hpl := placed hd (inv_run h)
  rw [← between hpl ho (has_job (inv_run h)) hl hr he ht q] at hq
  obtain ⟨p, hp, h3⟩ := sum_pos hq
  split at h3
  · rename_i hc
    have := (Summary.C126_every_pair (keyed_collected hpl hr) hs hne).1 p hp
    rwa [hc.1, hc.2] at this
  · cases h3

example : ∃ n req resp time, .communication "mid/1".toList "leaf/0".toList n req resp time ∈ exLines :=
  C239_line ex_deployed ex_run ex_over (fun k _ => Int.le_refl 0) ex_collected ex_lines.1 (by decide +kernel)
    (e := 2) (t := 3) (q := 1) (by decide) (by decide) (by decide +kernel)

example : (3 : Int) = succeededBetween exSetup exEnd 2 3 :=
  C239_pairs ex_deployed ex_run ex_over (fun k _ => Int.le_refl 0) ex_collected ex_lines.1 (e := 2) (t := 3)
    (by decide) (by decide) ex_lines.2.2.2

end Distbench.Report
