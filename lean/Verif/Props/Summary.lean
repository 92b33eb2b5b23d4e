import Verif.Lemmas.SummaryCollect

/-! Properties of the summary of a test result. -/

namespace Distbench.Summary
open Spec

/-! ### Form of the summary -/

/-- The statistics of an ascending list. -/
def statsOf (l : List Int) : Option Stats :=
  if l = [] then none
  else some
    { min := l.getD 0 0
      median := l.getD (indexOf l.length c500) 0
      p90 := l.getD (indexOf l.length c900) 0
      p99 := l.getD (indexOf l.length c990) 0
      p999 := l.getD (indexOf l.length c999) 0
      max := l.getD (l.length - 1) 0 }

theorem element_ok {l : List Int} {i : Nat} (h : i < l.length) : element l i = .ok (l.getD i 0) := by
  simp [element, List.getElem?_eq_getElem h, List.getD_eq_getElem?_getD]

theorem latencySummary_ok (l : List Int) : latencySummary l = .ok (l.length, statsOf l) := by
  unfold latencySummary statsOf
  by_cases hl : l = []
  · subst hl; rfl
  · have hN : 0 < l.length := List.length_pos_iff.2 hl
    have h0 : l.length - 1 < l.length := by omega
    have h1 := indexOf_lt (m := c500) hN (by decide) (by decide)
    have h2 := indexOf_lt (m := c900) hN (by decide) (by decide)
    have h3 := indexOf_lt (m := c990) hN (by decide) (by decide)
    have h4 := indexOf_lt (m := c999) hN (by decide) (by decide)
    simp only [gt_iff_lt, hN, if_true, hl, if_false, bind, element_ok hN, element_ok h0, element_ok h1, element_ok h2,
      element_ok h3, element_ok h4, Outcome.bind]

theorem latencyLines_ok (m : List (Str × List Int)) :
    latencyLines m = .ok (m.map (fun e => Line.latency e.1 e.2.length (statsOf (sort e.2)))) := by
  induction m with
  | nil => rfl
  | cons e m ih =>
    simp only [latencyLines, latencySummary_ok, ih, bind, Outcome.bind, List.map_cons, (sort_perm e.2).length_eq]

/-- A summary is empty or has this form. -/
theorem summarize_form {r : Result} {lines : List Line} (h : summarize r = .ok lines) :
    ((collect r).testTime = 0 ∧ lines = []) ∨
    ((collect r).testTime ≠ 0 ∧ lines = .latencyHeader ::
      (collect r).latencies.map (fun e => Line.latency e.1 e.2.length (statsOf (sort e.2))) ++
      communicationLines (collect r).testTime (collect r).perf ++
      instanceLines (collect r).testTime (collect r).perf (collect r).samples (collect r).warmups (collect r).failures) := by
  unfold summarize at h
  split at h
  · dsimp only at h
    split at h
    · rename_i ht
      cases h
      exact Or.inl ⟨ht, rfl⟩
    · rename_i ht
      rw [latencyLines_ok] at h
      simp only [bind, Outcome.bind] at h
      cases h
      exact Or.inr ⟨ht, rfl⟩
  · cases h

/-! ### A result to try the theorems on -/

/-- Two clients, two RPCs, warmup and failures. -/
def sample : Result :=
  { rpcNames := ["get".toList, "put".toList]
    logs :=
      [("b".toList, [("s".toList, [(1, ⟨[⟨10, 20, 100, 7, false⟩], []⟩)])]),
       ("a".toList,
        [("s".toList,
          [(0, ⟨[⟨1, 2, 90, 9, true⟩, ⟨1, 2, 103, 5, false⟩, ⟨1, 2, 101, 3, false⟩], [⟨1, 0, 104, 1, false⟩]⟩),
           (1, ⟨[⟨4, 5, 100, 12, false⟩], []⟩)]),
         ("b".toList, [(0, ⟨[⟨1, 2, 200, 4, false⟩, ⟨1, 2, 203, 2, false⟩], []⟩)])])] }

/-- Its summary. -/
def sampleLines : List Line :=
  [.latencyHeader,
   .latency "get".toList 4 (some ⟨2, 4, 5, 5, 5, 5⟩),
   .latency "put".toList 2 (some ⟨7, 12, 12, 12, 12, 12⟩),
   .communicationHeader,
   .communication "a".toList "b".toList 2 2 4 12,
   .communication "a".toList "s".toList 4 6 9 12,
   .communication "b".toList "s".toList 1 10 20 12,
   .instanceHeader,
   .instance_ "a".toList 8 13 12,
   .instance_ "b".toList 14 22 12,
   .instance_ "s".toList 29 16 12,
   .globalHeader,
   .totalSamples 8, .failedSamples 1, .warmupSamples 1, .totalTime 12, .total 51 7 12]

theorem summarize_sample : summarize sample = .ok sampleLines := by decide +kernel

theorem sample_keyed : KeyedLogs sample := by
  unfold KeyedLogs Keyed
  decide +kernel

theorem sample_clock : ClockOk sample := by
  unfold ClockOk
  decide +kernel

/-! ### C54: the percentiles -/

theorem latency_mem {r : Result} {lines : List Line} (h : summarize r = .ok lines) {name : Str} {n : Nat}
    {stats : Option Stats} (hm : Line.latency name n stats ∈ lines) :
    n = (latenciesOf r name).length ∧ stats = statsOf (sort (latenciesOf r name)) := by
  rcases summarize_form h with ⟨_, rfl⟩ | ⟨_, rfl⟩
  · simp at hm
  · have hm' : Line.latency name n stats ∈
        (collect r).latencies.map (fun e => Line.latency e.1 e.2.length (statsOf (sort e.2))) := by
      simp only [List.mem_append, List.mem_cons, communicationLines, instanceLines] at hm
      rcases hm with ((hm | hm) | hm) | hm
      · cases hm
      · exact hm
      · rcases hm with hm | hm
        · cases hm
        · simp at hm
      · split at hm
        · simp at hm
        · simp at hm
    obtain ⟨e, he, heq⟩ := List.mem_map.1 hm'
    simp only [Line.latency.injEq] at heq
    obtain ⟨rfl, rfl, rfl⟩ := heq
    have hf := mem_find strLt_total (ascending_latencies r) (k := e.1) (v := e.2) he
    rw [find_latencies] at hf
    split at hf
    · simp only [Option.some.injEq] at hf
      rw [hf]
      exact ⟨rfl, rfl⟩
    · cases hf

theorem rank_sort {l : List Int} {k : Nat} (hk : k < l.length) : HasRank l k ((sort l).getD k 0) := by
  have hk' : k < (sort l).length := by rw [(sort_perm l).length_eq]; exact hk
  have := hasRank_perm (sort_perm l) (rank_of_sorted (sort_sorted l) hk')
  simpa [List.getD_eq_getElem?_getD, List.getElem?_eq_getElem hk'] using this

/-- C54.  The line of an RPC gives the number of its measured latencies and, unless there are none, the
elements of ranks 0, ⌊n/2⌋, ⌊9n/10⌋, ⌊99n/100⌋, ⌊999n/1000⌋ and n-1 among them.  For up to 2^42
samples. -/
theorem C54_ranks {r : Result} {lines : List Line} (h : summarize r = .ok lines) {name : Str} {n : Nat}
    {stats : Option Stats} (hm : Line.latency name n stats ∈ lines) (hn : n ≤ 2 ^ 42) :
    n = (latenciesOf r name).length ∧
    match stats with
    | none => n = 0
    | some st => 0 < n ∧
      HasRank (latenciesOf r name) 0 st.min ∧
      HasRank (latenciesOf r name) (n / 2) st.median ∧
      HasRank (latenciesOf r name) (n * 9 / 10) st.p90 ∧
      HasRank (latenciesOf r name) (n * 99 / 100) st.p99 ∧
      HasRank (latenciesOf r name) (n * 999 / 1000) st.p999 ∧
      HasRank (latenciesOf r name) (n - 1) st.max := by
  obtain ⟨h1, h2⟩ := latency_mem h hm
  refine ⟨h1, ?_⟩
  generalize latenciesOf r name = l at *
  subst h2
  unfold statsOf
  by_cases hl : l = []
  · subst hl
    simp [sort, h1]
  · have hl' : sort l ≠ [] := by
      intro e
      have := (sort_perm l).length_eq
      rw [e] at this
      exact hl (List.length_eq_zero_iff.1 this.symm)
    have hN : 0 < l.length := List.length_pos_iff.2 hl
    simp only [if_neg hl', (sort_perm l).length_eq]
    rw [h1] at hn ⊢
    rw [indexOf_exact (p := 1) (q := 2) hN hn (by decide) (by decide) (by decide) (by decide) (by decide),
      indexOf_exact (p := 9) (q := 10) hN hn (by decide) (by decide) (by decide) (by decide) (by decide),
      indexOf_exact (p := 99) (q := 100) hN hn (by decide) (by decide) (by decide) (by decide) (by decide),
      indexOf_exact (p := 999) (q := 1000) hN hn (by decide) (by decide) (by decide) (by decide) (by decide),
      Nat.mul_one]
    exact ⟨hN, rank_sort hN, rank_sort (by omega), rank_sort (by omega), rank_sort (by omega), rank_sort (by omega),
      rank_sort (by omega)⟩

/-- C54.  For any number of samples the statistics are latencies of the RPC in ascending order. -/
theorem C54_in_order {r : Result} {lines : List Line} (h : summarize r = .ok lines) {name : Str} {n : Nat}
    {st : Stats} (hm : Line.latency name n (some st) ∈ lines) :
    (∀ v ∈ [st.min, st.median, st.p90, st.p99, st.p999, st.max], v ∈ latenciesOf r name) ∧
    [st.min, st.median, st.p90, st.p99, st.p999, st.max].Pairwise (· ≤ ·) := by
  obtain ⟨h1, h2⟩ := latency_mem h hm
  generalize latenciesOf r name = l at *
  unfold statsOf at h2
  split at h2
  · cases h2
  · rename_i hl'
    simp only [Option.some.injEq] at h2
    subst h2
    have hN : 0 < (sort l).length := List.length_pos_iff.2 hl'
    have hlen := (sort_perm l).length_eq
    have i1 := indexOf_lt (m := c500) hN (by decide) (by decide)
    have i2 := indexOf_lt (m := c900) hN (by decide) (by decide)
    have i3 := indexOf_lt (m := c990) hN (by decide) (by decide)
    have i4 := indexOf_lt (m := c999) hN (by decide) (by decide)
    have m1 := indexOf_mono (m := c500) (m' := c900) hN (by decide) (by decide) (by decide)
    have m2 := indexOf_mono (m := c900) (m' := c990) hN (by decide) (by decide) (by decide)
    have m3 := indexOf_mono (m := c990) (m' := c999) hN (by decide) (by decide) (by decide)
    generalize indexOf (sort l).length c500 = a at *
    generalize indexOf (sort l).length c900 = b at *
    generalize indexOf (sort l).length c990 = c at *
    generalize indexOf (sort l).length c999 = d at *
    have mem : ∀ i, i < (sort l).length → (sort l).getD i 0 ∈ l := by
      intro i hi
      exact (rank_sort (by omega)).1
    have le : ∀ i j, i ≤ j → j < (sort l).length → (sort l).getD i 0 ≤ (sort l).getD j 0 := by
      intro i j hij hj
      simp only [List.getD_eq_getElem?_getD, List.getElem?_eq_getElem hj,
        List.getElem?_eq_getElem (show i < (sort l).length by omega), Option.getD_some]
      rcases Nat.eq_or_lt_of_le hij with e | e
      · subst e; exact Int.le_refl _
      · exact List.pairwise_iff_getElem.1 (sort_sorted l) i j (by omega) hj e
    constructor
    · intro v hv
      simp only [List.mem_cons, List.not_mem_nil, or_false] at hv
      rcases hv with rfl | rfl | rfl | rfl | rfl | rfl
      · exact mem _ hN
      · exact mem _ i1
      · exact mem _ i2
      · exact mem _ i3
      · exact mem _ i4
      · exact mem _ (by omega)
    · have s1 := le 0 a (by omega) i1
      have s2 := le a b m1 i2
      have s3 := le b c m2 i3
      have s4 := le c d m3 i4
      have s5 := le d ((sort l).length - 1) (by omega) (by omega)
      simp only [List.pairwise_cons, List.mem_cons, List.not_mem_nil, or_false, forall_eq_or_imp, forall_eq,
        List.Pairwise.nil, and_true, false_imp_iff, implies_true]
      omega

example : Line.latency "get".toList 4 (some ⟨2, 4, 5, 5, 5, 5⟩) ∈ sampleLines ∧
    latenciesOf sample "get".toList = [5, 3, 4, 2] := by decide +kernel

/-! ### C125: one line for each RPC -/

/-- Is this the latency line of the RPC? -/
def isLatencyOf (name : Str) : Line → Bool
  | .latency name' _ _ => name' = name
  | _ => false

theorem countP_lines (p : Line → Bool) {r : Result} {lines : List Line} (h : summarize r = .ok lines) (hne : lines ≠ [])
    (hp : ∀ l, p l = true → ∃ name n st, l = .latency name n st) :
    lines.countP p =
      ((collect r).latencies.map (fun e => Line.latency e.1 e.2.length (statsOf (sort e.2)))).countP p := by
  have no : ∀ l : List Line, (∀ x ∈ l, ∀ name n st, x ≠ .latency name n st) → l.countP p = 0 := by
    intro l hl
    apply List.countP_eq_zero.2
    intro x hx hpx
    obtain ⟨name, n, st, e⟩ := hp x hpx
    exact hl x hx name n st e
  rcases summarize_form h with ⟨_, rfl⟩ | ⟨_, rfl⟩
  · exact absurd rfl hne
  · rw [List.countP_append, List.countP_append, List.countP_cons]
    rw [no (communicationLines _ _), no (instanceLines _ _ _ _ _)]
    · have : p .latencyHeader = false := by
        cases hh : p .latencyHeader with
        | false => rfl
        | true => obtain ⟨_, _, _, e⟩ := hp _ hh; cases e
      simp [this]
    · intro x hx
      unfold instanceLines at hx
      simp only at hx
      split at hx
      · simp at hx
      · simp only [List.mem_append, List.mem_cons, List.mem_map, List.not_mem_nil, or_false] at hx
        rintro name n st rfl
        simp at hx
    · intro x hx
      unfold communicationLines at hx
      simp only [List.mem_cons, List.mem_map] at hx
      rintro name n st rfl
      simp at hx

/-- C125.  A summary that is not empty has exactly one latency line for each RPC name that has logs, and
none for any other name. -/
theorem C125_one_line {r : Result} {lines : List Line} (h : summarize r = .ok lines) (hne : lines ≠ []) (name : Str) :
    lines.countP (isLatencyOf name) = if (∃ e ∈ rpcLogsOf r, e.1 = name) then 1 else 0 := by
  rw [countP_lines _ h hne]
  · rw [List.countP_map]
    have hf := find_latencies r name
    have hasc := ascending_latencies r
    have hfun : (isLatencyOf name ∘ fun e : Str × List Int => Line.latency e.1 e.2.length (statsOf (sort e.2))) =
        fun e => decide (e.1 = name) := by
      funext e; simp [isLatencyOf]
    rw [hfun]
    have gen : ∀ m : List (Str × List Int), Ascending strLt m →
        m.countP (fun e => decide (e.1 = name)) = if (find name m).isSome then 1 else 0 := by
      intro m
      induction m with
      | nil => intro _; rfl
      | cons e m ih =>
        intro hm
        obtain ⟨k, v⟩ := e
        have hm' := List.pairwise_cons.1 hm
        rw [List.countP_cons]
        simp only [find]
        by_cases hk : k = name
        · subst hk
          have : m.countP (fun e => decide (e.1 = k)) = 0 := by
            apply List.countP_eq_zero.2
            intro x hx hd
            have hlt := hm'.1 x hx
            simp only [decide_eq_true_eq] at hd
            rw [hd, strLt_total.irrefl] at hlt
            cases hlt
          simp [this]
        · rw [ih hm'.2]
          have hk' : ¬ name = k := fun h => hk h.symm
          simp [hk, hk']
    rw [gen _ hasc, hf]
    by_cases hx : ∃ e ∈ rpcLogsOf r, e.1 = name
    · simp only [if_pos hx]; rfl
    · simp only [if_neg hx]; rfl
  · intro l hl
    cases l with
    | latency name' n st => exact ⟨_, _, _, rfl⟩
    | _ => simp [isLatencyOf] at hl

example : sampleLines.countP (isLatencyOf "put".toList) = 1 := by decide +kernel

/-! ### C126: one line for each pair -/

/-- Is this a communication line? -/
def isCommunication : Line → Bool
  | .communication .. => true
  | _ => false

theorem communication_mem {r : Result} {lines : List Line} (h : summarize r = .ok lines) {x : Line}
    (hx : isCommunication x = true) (hm : x ∈ lines) :
    ∃ e ∈ (collect r).perf, x = .communication e.1.1 e.1.2 e.2.nbRpcs e.2.requestSize e.2.responseSize (collect r).testTime := by
  rcases summarize_form h with ⟨_, rfl⟩ | ⟨_, rfl⟩
  · simp at hm
  · simp only [List.mem_append, List.mem_cons, communicationLines, instanceLines] at hm
    rcases hm with ((rfl | hm) | hm) | hm
    · simp [isCommunication] at hx
    · obtain ⟨e, _, rfl⟩ := List.mem_map.1 hm
      simp [isCommunication] at hx
    · rcases hm with rfl | hm
      · simp [isCommunication] at hx
      · obtain ⟨e, he, rfl⟩ := List.mem_map.1 hm
        exact ⟨e, he, rfl⟩
    · exfalso
      split at hm
      · simp at hm
      · simp only [List.mem_append, List.mem_cons, List.mem_map, List.not_mem_nil, or_false] at hm
        cases x with
        | communication => simp at hm
        | _ => simp [isCommunication] at hx

/-- C126.  The line of a pair of initiator and target gives the number of successful samples in their
logs and the sums of the request and response sizes of the measured ones. -/
theorem C126_traffic {r : Result} (hu : KeyedLogs r) {lines : List Line} (h : summarize r = .ok lines)
    {i t : Str} {n req resp time : Int} (hm : Line.communication i t n req resp time ∈ lines) :
    ∃ logs, (i, t, logs) ∈ peersOf r ∧
      n = ((logs.map (fun e => e.2.successful.length)).sum : Nat) ∧
      req = sumOf (·.requestSize) (measuredOf logs) ∧ resp = sumOf (·.responseSize) (measuredOf logs) := by
  obtain ⟨e, he, heq⟩ := communication_mem h rfl hm
  simp only [Line.communication.injEq] at heq
  have := (perf_perm hu).mem_iff.1 he
  obtain ⟨p, hp, hpe⟩ := List.mem_map.1 this
  obtain ⟨h1, h2, h3, h4, h5, _⟩ := heq
  subst hpe
  refine ⟨p.2.2, ?_, ?_, h4, h5⟩
  · rw [h1, h2]; exact hp
  · rw [h3, sum_natCast, List.map_map]
    rfl

/-- C126.  Unless the summary is empty, every pair that has logs has a line, and there are no more
lines than pairs. -/
theorem C126_every_pair {r : Result} (hu : KeyedLogs r) {lines : List Line} (h : summarize r = .ok lines)
    (hne : lines ≠ []) :
    (∀ p ∈ peersOf r, ∃ n req resp time, Line.communication p.1 p.2.1 n req resp time ∈ lines) ∧
    lines.countP isCommunication = (peersOf r).length := by
  have hperm := perf_perm hu
  constructor
  · intro p hp
    have he := hperm.mem_iff.2 (List.mem_map.2 ⟨p, hp, rfl⟩)
    rcases summarize_form h with ⟨_, rfl⟩ | ⟨_, rfl⟩
    · exact absurd rfl hne
    · refine ⟨(recordOf p.2.2).nbRpcs, (recordOf p.2.2).requestSize, (recordOf p.2.2).responseSize, (collect r).testTime,
        List.mem_append_left _ (List.mem_append_right _ ?_)⟩
      unfold communicationLines
      exact List.mem_cons_of_mem _ (List.mem_map.2 ⟨_, he, rfl⟩)
  · rcases summarize_form h with ⟨_, rfl⟩ | ⟨_, rfl⟩
    · exact absurd rfl hne
    · have e1 : ((collect r).latencies.map (fun e => Line.latency e.1 e.2.length (statsOf (sort e.2)))).countP
          isCommunication = 0 := by
        apply List.countP_eq_zero.2
        intro x hx
        obtain ⟨e, _, rfl⟩ := List.mem_map.1 hx
        simp [isCommunication]
      have e2 : ∀ t s w f, (instanceLines t (collect r).perf s w f).countP isCommunication = 0 := by
        intro t s w f
        apply List.countP_eq_zero.2
        intro x hx
        unfold instanceLines at hx
        simp only at hx
        split at hx
        · simp at hx
        · simp only [List.mem_append, List.mem_cons, List.mem_map, List.not_mem_nil, or_false] at hx
          cases x with
          | communication => simp at hx
          | _ => simp [isCommunication]
      have e3 : (communicationLines (collect r).testTime (collect r).perf).countP isCommunication =
          (collect r).perf.length := by
        unfold communicationLines
        rw [List.countP_cons, List.countP_map]
        simp [isCommunication, Function.comp_def]
      rw [List.countP_append, List.countP_append, List.countP_cons, e1, e2, e3, hperm.length_eq]
      simp [isCommunication]

example : sampleLines.countP isCommunication = 3 ∧ (peersOf sample).length = 3 := by decide +kernel

/-! ### C127: warmup RPCs are left out of the rates -/

/-- Missing from the full property ("always"): logs with warmup samples, see `C127_counts_warmup`.  If a
pair's logs have none, its line counts the RPCs whose sizes it adds up. -/
theorem C127_measured_partial {r : Result} (hu : KeyedLogs r) {lines : List Line} (h : summarize r = .ok lines)
    {i t : Str} {n req resp time : Int} (hm : Line.communication i t n req resp time ∈ lines) :
    ∃ logs, (i, t, logs) ∈ peersOf r ∧
      ((∀ e ∈ logs, e.2.successful.countP (·.warmup) = 0) → n = (measuredOf logs).length) := by
  obtain ⟨logs, hp, hn, _⟩ := C126_traffic hu h hm
  refine ⟨logs, hp, ?_⟩
  intro hz
  rw [hn]
  have : ∀ l : List (Nat × RpcLog), (∀ e ∈ l, e.2.successful.countP (·.warmup) = 0) →
      (l.map (fun e => e.2.successful.length)).sum = (measuredOf l).length := by
    intro l
    induction l with
    | nil => intro _; rfl
    | cons e l ih =>
      intro hl
      have hf : measured e.2 = e.2.successful := by
        unfold measured
        apply List.filter_eq_self.2
        intro s hs
        have := List.countP_eq_zero.1 (hl e (by simp)) s hs
        simpa using this
      have e1 : measuredOf (e :: l) = measured e.2 ++ measuredOf l := rfl
      rw [e1, List.length_append, hf, List.map_cons, List.sum_cons, ih (fun x hx => hl x (by simp [hx]))]
  rw [this logs hz]

/-- The line for a and s counts the warmup RPC, whose sizes are left out. -/
theorem C127_counts_warmup : ∃ (r : Result) (lines : List Line) (i t : Str) (n req resp time : Int)
    (logs : List (Nat × RpcLog)), KeyedLogs r ∧ summarize r = .ok lines ∧
    Line.communication i t n req resp time ∈ lines ∧ peersOf r = [(i, t, logs)] ∧ n ≠ (measuredOf logs).length := by
  refine ⟨{ rpcNames := ["get".toList],
            logs := [("a".toList, [("s".toList, [(0, ⟨[⟨1, 2, 90, 9, true⟩, ⟨1, 2, 103, 5, false⟩], []⟩)])])] },
    _, "a".toList, "s".toList, 2, 1, 2, 5, _, ?_, rfl, ?_, rfl, ?_⟩
  · unfold KeyedLogs Keyed; decide +kernel
  · decide +kernel
  · decide +kernel

example : ∃ logs, ("a".toList, "b".toList, logs) ∈ peersOf sample ∧
    (∀ e ∈ logs, e.2.successful.countP (·.warmup) = 0) ∧ (measuredOf logs).length = 2 := by
  refine ⟨_, List.mem_cons_of_mem _ (List.mem_cons_of_mem _ (List.mem_cons_self ..)), ?_, ?_⟩
  · decide +kernel
  · decide +kernel

/-! ### C128: bytes sent and received balance -/

/-- Adding pairs to the table of instances. -/
def instFold (l : List ((Str × Str) × Perf)) (m : List (Str × Inst)) : List (Str × Inst) :=
  l.foldl (fun m e =>
    update strLt e.1.2 {} (fun i => { tx := i.tx + e.2.responseSize, rx := i.rx + e.2.requestSize })
      (update strLt e.1.1 {} (fun i => { tx := i.tx + e.2.requestSize, rx := i.rx + e.2.responseSize }) m)) m

theorem addInsts (l : List ((Str × Str) × Perf)) (a : List (Str × Inst) × Int × Int) :
    l.foldl addInst a = (instFold l a.1, a.2.1 + (l.map (·.2.nbRpcs)).sum,
      a.2.2 + (l.map (fun e => e.2.requestSize + e.2.responseSize)).sum) := by
  induction l generalizing a with
  | nil => simp [instFold]
  | cons e l ih =>
    rw [List.foldl_cons, ih]
    simp [addInst, instFold, Int.add_assoc]

theorem ascending_instFold (l : List ((Str × Str) × Perf)) {m : List (Str × Inst)} (h : Ascending strLt m) :
    Ascending strLt (instFold l m) := by
  induction l generalizing m with
  | nil => exact h
  | cons e l ih => exact ih (ascending_update strLt_total (ascending_update strLt_total h))

/-- What an instance's entry has gained, and when there is one. -/
theorem find_instFold (l : List ((Str × Str) × Perf)) {m : List (Str × Inst)} (h : Ascending strLt m) (name : Str) :
    find name (instFold l m) =
      if (find name m).isSome ∨ ∃ e ∈ l, e.1.1 = name ∨ e.1.2 = name then
        some
          { tx := ((find name m).getD {}).tx + (l.map (fun e =>
              (if e.1.1 = name then e.2.requestSize else 0) + (if e.1.2 = name then e.2.responseSize else 0))).sum
            rx := ((find name m).getD {}).rx + (l.map (fun e =>
              (if e.1.1 = name then e.2.responseSize else 0) + (if e.1.2 = name then e.2.requestSize else 0))).sum }
      else none := by
  induction l generalizing m with
  | nil =>
    simp only [instFold, List.foldl_nil, List.not_mem_nil, false_and, exists_const, or_false, List.map_nil, List.sum_nil]
    cases find name m <;> simp
  | cons e l ih =>
    have h1 := ascending_update strLt_total (k := e.1.1) (new := ({} : Inst))
      (f := fun i => { tx := i.tx + e.2.requestSize, rx := i.rx + e.2.responseSize }) h
    have h2 := ascending_update strLt_total (k := e.1.2) (new := ({} : Inst))
      (f := fun i => { tx := i.tx + e.2.responseSize, rx := i.rx + e.2.requestSize }) h1
    have hstep : instFold (e :: l) m = instFold l (update strLt e.1.2 {}
        (fun i => { tx := i.tx + e.2.responseSize, rx := i.rx + e.2.requestSize })
        (update strLt e.1.1 {} (fun i => { tx := i.tx + e.2.requestSize, rx := i.rx + e.2.responseSize }) m)) := rfl
    have hv := find_update strLt_total (k := e.1.2) (k2 := name) (new := ({} : Inst))
      (f := fun i => { tx := i.tx + e.2.responseSize, rx := i.rx + e.2.requestSize }) h1
    rw [find_update strLt_total h, find_update strLt_total h] at hv
    rw [hstep, ih h2]
    generalize find name (update strLt e.1.2 ({} : Inst) _ _) = v at hv ⊢
    by_cases e1 : name = e.1.1
    · by_cases e2 : name = e.1.2
      · simp only [← e1, ← e2, if_true] at hv
        subst hv
        simp [← e1, ← e2, Int.add_assoc]
      · have e2' : ¬ e.1.2 = name := fun h => e2 h.symm
        simp only [← e1, e2, if_true, if_false] at hv
        subst hv
        simp [← e1, e2', Int.add_assoc]
    · have e1' : ¬ e.1.1 = name := fun h => e1 h.symm
      by_cases e2 : name = e.1.2
      · simp only [← e2, e1, if_true, if_false] at hv
        subst hv
        simp [← e2, e1', Int.add_assoc]
      · have e2' : ¬ e.1.2 = name := fun h => e2 h.symm
        simp only [e1, e2, if_false] at hv
        subst hv
        by_cases hc : (find name m).isSome = true ∨ ∃ e ∈ l, e.1.1 = name ∨ e.1.2 = name
        · rw [if_pos hc, if_pos (by simpa [e1', e2'] using hc)]
          simp [e1', e2']
        · rw [if_neg hc, if_neg (by simpa [e1', e2'] using hc)]

/-- The sum of a quantity over the instances. -/
theorem sum_update (f : Inst → Inst) (d : Int) (g : Inst → Int) (hg : ∀ i, g (f i) = g i + d) (h0 : g {} = 0)
    (k : Str) (m : List (Str × Inst)) :
    ((update strLt k {} f m).map (fun e => g e.2)).sum = (m.map (fun e => g e.2)).sum + d := by
  induction m with
  | nil => simp [update, hg, h0]
  | cons a m ih =>
    simp only [update]
    split
    · simp [hg]; omega
    · split
      · simp [hg, h0]; omega
      · simp [ih]; omega

theorem sum_instFold (l : List ((Str × Str) × Perf)) (m : List (Str × Inst)) :
    ((instFold l m).map (fun e => e.2.tx)).sum =
      (m.map (fun e => e.2.tx)).sum + (l.map (fun e => e.2.requestSize + e.2.responseSize)).sum ∧
    ((instFold l m).map (fun e => e.2.rx)).sum =
      (m.map (fun e => e.2.rx)).sum + (l.map (fun e => e.2.requestSize + e.2.responseSize)).sum := by
  induction l generalizing m with
  | nil => simp [instFold]
  | cons e l ih =>
    have hstep : instFold (e :: l) m = instFold l (update strLt e.1.2 {}
        (fun i => { tx := i.tx + e.2.responseSize, rx := i.rx + e.2.requestSize })
        (update strLt e.1.1 {} (fun i => { tx := i.tx + e.2.requestSize, rx := i.rx + e.2.responseSize }) m)) := rfl
    rw [hstep]
    have := ih (update strLt e.1.2 {}
        (fun i => { tx := i.tx + e.2.responseSize, rx := i.rx + e.2.requestSize })
        (update strLt e.1.1 {} (fun i => { tx := i.tx + e.2.requestSize, rx := i.rx + e.2.responseSize }) m))
    rw [this.1, this.2]
    rw [sum_update _ e.2.responseSize (fun i => i.tx) (fun _ => rfl) rfl,
      sum_update _ e.2.requestSize (fun i => i.tx) (fun _ => rfl) rfl,
      sum_update _ e.2.requestSize (fun i => i.rx) (fun _ => rfl) rfl,
      sum_update _ e.2.responseSize (fun i => i.rx) (fun _ => rfl) rfl]
    simp only [List.map_cons, List.sum_cons]
    omega

theorem instances_eq (r : Result) :
    ((collect r).perf.foldl addInst ([], 0, 0)).1 = instFold (collect r).perf [] := by
  rw [addInsts]

/-- The instance lines of a summary. -/
theorem instance_mem {r : Result} {lines : List Line} (h : summarize r = .ok lines) {name : Str} {tx rx time : Int}
    (hm : Line.instance_ name tx rx time ∈ lines) :
    (name, { tx := tx, rx := rx }) ∈ instFold (collect r).perf [] := by
  rcases summarize_form h with ⟨_, rfl⟩ | ⟨_, rfl⟩
  · simp at hm
  · simp only [List.mem_append, List.mem_cons, communicationLines, instanceLines] at hm
    rcases hm with ((hm | hm) | hm) | hm
    · cases hm
    · simp at hm
    · simp at hm
    · split at hm
      · simp at hm
      · simp only [List.cons_append, List.mem_cons, List.mem_append, List.mem_map, List.not_mem_nil, or_false, reduceCtorEq, false_or] at hm
        obtain ⟨e, he, heq⟩ := hm
        rw [instances_eq] at he
        simp only [Line.instance_.injEq] at heq
        obtain ⟨rfl, rfl, rfl, _⟩ := heq
        exact he

theorem sum_perm {l l' : List Int} (h : l.Perm l') : l.sum = l'.sum := by
  induction h with
  | nil => rfl
  | cons x _ ih => simp [ih]
  | swap x y l => simp; omega
  | trans _ _ ih1 ih2 => rw [ih1, ih2]

/-- C128.  The line of an instance gives the bytes it sent and received in all measured RPCs, as initiator
and as target. -/
theorem C128_instance {r : Result} (hu : KeyedLogs r) {lines : List Line} (h : summarize r = .ok lines) {name : Str}
    {tx rx time : Int} (hm : Line.instance_ name tx rx time ∈ lines) :
    tx = sentBy r name ∧ rx = receivedBy r name := by
  have hm := instance_mem h hm
  have hf := mem_find strLt_total (ascending_instFold _ (by simp [Ascending])) hm
  rw [find_instFold _ (by simp [Ascending])] at hf
  split at hf
  · simp only [find, Option.getD_none, Int.zero_add, Option.some.injEq, Inst.mk.injEq] at hf
    obtain ⟨rfl, rfl⟩ := hf
    have hp := perf_perm hu
    constructor
    · rw [sum_perm (hp.map _), List.map_map]
      rfl
    · rw [sum_perm (hp.map _), List.map_map]
      rfl
  · cases hf

/-- The bytes in an instance line. -/
def txOf : Line → Int
  | .instance_ _ tx _ _ => tx
  | _ => 0
def rxOf : Line → Int
  | .instance_ _ _ rx _ => rx
  | _ => 0

theorem sum_zero {α : Type} (f : α → Int) (l : List α) (h : ∀ x ∈ l, f x = 0) : (l.map f).sum = 0 := by
  induction l with
  | nil => rfl
  | cons x l ih => simp [h x (by simp), ih (fun y hy => h y (by simp [hy]))]

theorem total_mem {r : Result} {lines : List Line} (h : summarize r = .ok lines) {bytes rpcs time : Int}
    (hm : Line.total bytes rpcs time ∈ lines) :
    (lines.map txOf).sum = bytes ∧ (lines.map rxOf).sum = bytes ∧
    bytes = ((collect r).perf.map (fun e => e.2.requestSize + e.2.responseSize)).sum ∧
    rpcs = ((collect r).perf.map (·.2.nbRpcs)).sum ∧ time = (collect r).testTime := by
  rcases summarize_form h with ⟨_, rfl⟩ | ⟨_, rfl⟩
  · simp at hm
  · simp only [List.mem_append, List.mem_cons, communicationLines, instanceLines] at hm
    rcases hm with ((hm | hm) | hm) | hm
    · cases hm
    · simp at hm
    · simp at hm
    · split at hm
      · simp at hm
      · rename_i hz
        simp only [List.cons_append, List.mem_cons, List.mem_append, List.mem_map, List.not_mem_nil, or_false, reduceCtorEq, false_or,
          Line.total.injEq, and_false, exists_false] at hm
        obtain ⟨rfl, rfl, rfl⟩ := hm
        have hs := sum_instFold (collect r).perf []
        have z1 : ∀ (f : Line → Int), f .latencyHeader = 0 → (∀ n c s, f (.latency n c s) = 0) →
            f .communicationHeader = 0 → (∀ i t n a b c, f (.communication i t n a b c) = 0) →
            ((Line.latencyHeader :: (collect r).latencies.map (fun e => Line.latency e.1 e.2.length (statsOf (sort e.2))) ++
              communicationLines (collect r).testTime (collect r).perf).map f).sum = 0 := by
          intro f f1 f2 f3 f4
          apply sum_zero
          intro x hx
          simp only [List.mem_append, List.mem_cons, communicationLines, List.mem_map] at hx
          rcases hx with (rfl | ⟨e, _, rfl⟩) | (rfl | ⟨e, _, rfl⟩)
          · exact f1
          · exact f2 _ _ _
          · exact f3
          · exact f4 _ _ _ _ _ _
        rw [List.map_append (f := txOf), List.map_append (f := rxOf), List.sum_append, List.sum_append]
        rw [z1 txOf rfl (fun _ _ _ => rfl) rfl (fun _ _ _ _ _ _ => rfl),
          z1 rxOf rfl (fun _ _ _ => rfl) rfl (fun _ _ _ _ _ _ => rfl)]
        unfold instanceLines
        simp only [if_neg hz]
        rw [addInsts]
        simp only [List.cons_append, List.map_cons, List.map_append, List.map_map, List.sum_cons, List.sum_append, List.map_nil, List.sum_nil, Int.zero_add]
        have t1 : ((instFold (collect r).perf []).map (txOf ∘ fun e => Line.instance_ e.1 e.2.tx e.2.rx (collect r).testTime)).sum =
            ((instFold (collect r).perf []).map (fun e => e.2.tx)).sum := rfl
        have t2 : ((instFold (collect r).perf []).map (rxOf ∘ fun e => Line.instance_ e.1 e.2.tx e.2.rx (collect r).testTime)).sum =
            ((instFold (collect r).perf []).map (fun e => e.2.rx)).sum := rfl
        rw [t1, t2, hs.1, hs.2]
        simp [txOf, rxOf]

/-- C128.  The bytes sent by all instances, the bytes received by all instances and the total are equal, and
are the bytes of all measured RPCs. -/
theorem C128_balance {r : Result} (hu : KeyedLogs r) {lines : List Line} (h : summarize r = .ok lines)
    {bytes rpcs time : Int} (hm : Line.total bytes rpcs time ∈ lines) :
    (lines.map txOf).sum = bytes ∧ (lines.map rxOf).sum = bytes ∧ bytes = bytesSent r := by
  obtain ⟨h1, h2, h3, _⟩ := total_mem h hm
  refine ⟨h1, h2, ?_⟩
  rw [h3, sum_perm ((perf_perm hu).map _), List.map_map]
  rfl

example : Line.total 51 7 12 ∈ sampleLines ∧ (sampleLines.map txOf).sum = 51 ∧
    Line.instance_ "b".toList 14 22 12 ∈ sampleLines ∧ sentBy sample "b".toList = 14 := by decide +kernel

/-! ### C129: the global counts -/

/-- C129.  The total number of samples, failed samples and RPCs. -/
theorem C129_counts {r : Result} (hu : KeyedLogs r) {lines : List Line} (h : summarize r = .ok lines) (n : Int) :
    (.totalSamples n ∈ lines → n = successes r + failuresOf r) ∧
    (.failedSamples n ∈ lines → n = failuresOf r) ∧
    (∀ bytes time, .total bytes n time ∈ lines → n = successes r) := by
  have hform := summarize_form h
  refine ⟨?_, ?_, ?_⟩
  · intro hm
    rcases hform with ⟨_, rfl⟩ | ⟨_, rfl⟩
    · simp at hm
    · simp only [List.mem_append, List.mem_cons, communicationLines, instanceLines] at hm
      rcases hm with ((hm | hm) | hm) | hm
      · cases hm
      · simp at hm
      · simp at hm
      · split at hm
        · simp at hm
        · simp at hm
          rw [hm, collect_samples]
  · intro hm
    rcases hform with ⟨_, rfl⟩ | ⟨_, rfl⟩
    · simp at hm
    · simp only [List.mem_append, List.mem_cons, communicationLines, instanceLines] at hm
      rcases hm with ((hm | hm) | hm) | hm
      · cases hm
      · simp at hm
      · simp at hm
      · split at hm
        · simp at hm
        · simp at hm
          rw [hm, collect_failures]
  · intro bytes time hm
    obtain ⟨_, _, _, h4, _⟩ := total_mem h hm
    rw [h4, sum_perm ((perf_perm hu).map _), List.map_map]
    unfold successes
    rw [sum_logs r (fun l => l.successful.length)]
    rfl

example : Line.totalSamples 8 ∈ sampleLines ∧ successes sample = 7 ∧ failuresOf sample = 1 := by decide +kernel

/-! ### C130: warmup samples are counted -/

/-- Missing from the full property ("all warmup samples"): those that failed, see `C130_failed_warmup`.  The
warmup line counts the successful warmup samples. -/
theorem C130_warmups_partial {r : Result} {lines : List Line} (h : summarize r = .ok lines) {n : Int}
    (hm : .warmupSamples n ∈ lines) : n = warmupsOf r := by
  rcases summarize_form h with ⟨_, rfl⟩ | ⟨_, rfl⟩
  · simp at hm
  · simp only [List.mem_append, List.mem_cons, communicationLines, instanceLines] at hm
    rcases hm with ((hm | hm) | hm) | hm
    · cases hm
    · simp at hm
    · simp at hm
    · split at hm
      · simp at hm
      · simp at hm
        rw [hm, collect_warmups]

/-- A failed warmup sample is not counted. -/
theorem C130_failed_warmup : ∃ (r : Result) (lines : List Line), KeyedLogs r ∧ summarize r = .ok lines ∧
    .warmupSamples 0 ∈ lines ∧ ∃ e ∈ rpcLogsOf r, ∃ s ∈ e.2.failed, s.warmup = true := by
  refine ⟨{ rpcNames := ["get".toList],
            logs := [("a".toList, [("s".toList, [(0, ⟨[⟨1, 2, 103, 5, false⟩], [⟨1, 0, 90, 9, true⟩]⟩)])])] },
    _, ?_, rfl, ?_, ?_⟩
  · unfold KeyedLogs Keyed; decide +kernel
  · decide +kernel
  · decide +kernel

example : Line.warmupSamples 1 ∈ sampleLines ∧ warmupsOf sample = 1 := by decide +kernel

/-! ### C131: the time -/

/-- The time in a line. -/
def timeOf : Line → Option Int
  | .communication _ _ _ _ _ t => some t
  | .instance_ _ _ _ t => some t
  | .totalTime t => some t
  | .total _ _ t => some t
  | _ => none

/-- C131.  All rates are over the same time: the longest time from the first start to the last end of the
measured samples of a pair. -/
theorem C131_time {r : Result} (hc : ClockOk r) {lines : List Line} (h : summarize r = .ok lines) {x : Line} {t : Int}
    (hm : x ∈ lines) (ht : timeOf x = some t) :
    0 < t ∧ (∃ p ∈ peersOf r, SpanOf (measuredOf p.2.2) t) ∧
    ∀ p ∈ peersOf r, ∀ d, SpanOf (measuredOf p.2.2) d → d ≤ t := by
  have htime := timeFold (l := peersOf r) 0 hc
  rw [← collect_time] at htime
  obtain ⟨h1, h2, h3⟩ := htime
  rcases summarize_form h with ⟨_, rfl⟩ | ⟨hz, rfl⟩
  · simp at hm
  · have he : t = (collect r).testTime := by
      simp only [List.mem_append, List.mem_cons, communicationLines, instanceLines] at hm
      rcases hm with ((rfl | hm) | hm) | hm
      · cases ht
      · obtain ⟨e, _, rfl⟩ := List.mem_map.1 hm
        cases ht
      · rcases hm with rfl | hm
        · cases ht
        · obtain ⟨e, _, rfl⟩ := List.mem_map.1 hm
          cases ht
          rfl
      · split at hm
        · simp at hm
        · simp only [List.cons_append, List.mem_cons, List.mem_append, List.mem_map, List.not_mem_nil, or_false] at hm
          rcases hm with rfl | ⟨e, _, rfl⟩ | rfl | rfl | rfl | rfl | rfl | rfl <;> cases ht <;> rfl
    rw [he]
    refine ⟨by omega, ?_, h3⟩
    rcases h1 with h1 | h1
    · exact absurd h1 hz
    · exact h1

/-- C131.  The summary is empty exactly if no pair's measured samples span a positive time. -/
theorem C131_empty {r : Result} (hc : ClockOk r) {lines : List Line} (h : summarize r = .ok lines) :
    lines = [] ↔ ∀ p ∈ peersOf r, ∀ d, SpanOf (measuredOf p.2.2) d → d ≤ 0 := by
  have htime := timeFold (l := peersOf r) 0 hc
  rw [← collect_time] at htime
  obtain ⟨h1, h2, h3⟩ := htime
  rcases summarize_form h with ⟨hz, rfl⟩ | ⟨hz, rfl⟩
  · simp only [true_iff]
    rw [hz] at h3
    exact h3
  · constructor
    · intro e; simp at e
    · intro hall
      rcases h1 with h1 | ⟨p, hp, h1⟩
      · exact absurd h1 hz
      · have := hall p hp _ h1
        omega

example : Line.totalTime 12 ∈ sampleLines ∧ ClockOk sample ∧ sampleLines ≠ [] :=
  ⟨by decide +kernel, sample_clock, by decide +kernel⟩

/-! ### C132: a test with samples has a summary -/

/-- Missing from the full property ("all tests with samples"): tests whose samples are all failures or
warmup, see `C132_no_summary`.  A test with a measured sample that took time has a summary, with all sample
counts. -/
theorem C132_summary_partial {r : Result} (hc : ClockOk r) (hu : KeyedLogs r) {lines : List Line}
    (h : summarize r = .ok lines) (hs : ∃ p ∈ peersOf r, ∃ s ∈ measuredOf p.2.2, 0 < s.latency) :
    lines ≠ [] ∧ .totalSamples (successes r + failuresOf r) ∈ lines := by
  have htime := timeFold (l := peersOf r) 0 hc
  rw [← collect_time] at htime
  obtain ⟨h1, h2, h3⟩ := htime
  obtain ⟨p, hp, s, hs, hlat⟩ := hs
  have hspan : ∃ d, SpanOf (measuredOf p.2.2) d := by
    rcases peerTime_eq (hc p hp) 0 with ⟨hz, _⟩ | ⟨d, hd, _⟩
    · rw [hz] at hs; simp at hs
    · exact ⟨d, hd⟩
  obtain ⟨d, hd⟩ := hspan
  have hpos : 0 < d := by
    obtain ⟨f, _, e, _, ha, hb, hd⟩ := hd
    have := ha s hs
    have := hb s hs
    omega
  have htpos := h3 p hp d hd
  rcases summarize_form h with ⟨hz, rfl⟩ | ⟨hz, rfl⟩
  · omega
  · refine ⟨by simp, ?_⟩
    apply List.mem_append_right
    unfold instanceLines
    have hn : ((collect r).perf.foldl addInst ([], 0, 0)).2.1 ≠ 0 := by
      rw [addInsts]
      simp only [Int.zero_add]
      rw [sum_perm ((perf_perm hu).map _), List.map_map]
      have hsucc : ((peersOf r).map ((fun e : (Str × Str) × Perf => e.2.nbRpcs) ∘
          fun p => ((p.1, p.2.1), recordOf p.2.2))).sum = (successes r : Int) := by
        unfold successes
        rw [sum_logs r (fun l => l.successful.length)]
        rfl
      rw [hsucc]
      unfold measuredOf at hs
      obtain ⟨e, he, hse⟩ := List.mem_flatMap.1 hs
      have hmem : (r.rpcNames.getD e.1 [], e.2) ∈ rpcLogsOf r :=
        List.mem_flatMap.2 ⟨_, hp, List.mem_map.2 ⟨e, he, rfl⟩⟩
      have hlen : 0 < e.2.successful.length := List.length_pos_of_mem (List.mem_filter.1 hse).1
      have : successes r ≠ 0 := by
        intro hzero
        have hz0 : e.2.successful.length = 0 :=
          List.sum_eq_zero_iff_forall_eq_nat.1 hzero _ (List.mem_map.2 ⟨_, hmem, rfl⟩)
        omega
      omega
    simp only [if_neg hn, collect_samples]
    simp

/-- A test in which all RPCs failed has an empty summary: nothing tells of the failures. -/
theorem C132_no_summary : ∃ r : Result, KeyedLogs r ∧ summarize r = .ok [] ∧ failuresOf r = 2 := by
  refine ⟨{ rpcNames := ["get".toList],
            logs := [("a".toList, [("s".toList, [(0, ⟨[], [⟨1, 0, 90, 9, false⟩, ⟨1, 0, 95, 9, false⟩]⟩)])])] },
    ?_, rfl, ?_⟩
  · unfold KeyedLogs Keyed; decide +kernel
  · decide +kernel

example : ∃ p ∈ peersOf sample, ∃ s ∈ measuredOf p.2.2, 0 < s.latency := by decide +kernel

/-! ### C133: the order of iteration does not matter -/

theorem sameKeys_eq {κ α : Type} {m m' : List (κ × α)} (h : SameKeys Eq m m') : m = m' := by
  induction h with
  | nil => rfl
  | cons hab _ ih => rw [hab, ih]

theorem sameMap_perm {κ α : Type} {m m' : List (κ × α)} (h : SameMap Eq m m') : m.Perm m' := by
  obtain ⟨m'', h1, h2⟩ := h
  rw [← sameKeys_eq h2]
  exact h1

theorem sameKeys_append {κ α : Type} {R : α → α → Prop} {a b c d : List (κ × α)} (h1 : SameKeys R a b)
    (h2 : SameKeys R c d) : SameKeys R (a ++ c) (b ++ d) := by
  induction h1 with
  | nil => exact h2
  | cons hr _ ih => exact .cons hr ih

theorem sameMap_append {κ α : Type} {R : α → α → Prop} {a b c d : List (κ × α)} (h1 : SameMap R a b)
    (h2 : SameMap R c d) : SameMap R (a ++ c) (b ++ d) := by
  obtain ⟨x, p1, k1⟩ := h1
  obtain ⟨y, p2, k2⟩ := h2
  exact ⟨x ++ y, p1.append p2, sameKeys_append k1 k2⟩

/-- The peers' logs by pair. -/
def pairs (logs : List (Str × List (Str × List (Nat × RpcLog)))) : List ((Str × Str) × List (Nat × RpcLog)) :=
  logs.flatMap (fun e => e.2.map (fun p => ((e.1, p.1), p.2)))

theorem peersOf_pairs (r : Result) : peersOf r = (pairs r.logs).map (fun p => (p.1.1, p.1.2, p.2)) := by
  unfold peersOf pairs
  rw [List.map_flatMap]
  simp [Function.comp_def]

theorem pairs_same {logs logs' : List (Str × List (Str × List (Nat × RpcLog)))}
    (h : SameMap (SameMap (SameMap Eq)) logs logs') : SameMap List.Perm (pairs logs) (pairs logs') := by
  obtain ⟨m, hp, hk⟩ := h
  have h1 : SameMap List.Perm (pairs m) (pairs logs') := by
    clear hp
    induction hk with
    | nil => exact ⟨[], .refl _, .nil⟩
    | @cons k a b m m' hab _ ih =>
      have hone : SameMap List.Perm (a.map (fun p => ((k, p.1), p.2))) (b.map (fun p => ((k, p.1), p.2))) := by
        obtain ⟨a', hp, hk⟩ := hab
        refine ⟨a'.map (fun p => ((k, p.1), p.2)), hp.map _, ?_⟩
        clear hp
        induction hk with
        | nil => exact .nil
        | cons hr _ ih => exact .cons (sameMap_perm hr) ih
      exact sameMap_append hone ih
  obtain ⟨m', hp', hk'⟩ := h1
  exact ⟨m', (hp.flatMap_right _).trans hp', hk'⟩

/-- Folding related pairs gives the same. -/
theorem fold_same {β : Type} (f : β → (Str × Str) × List (Nat × RpcLog) → β)
    (hcomm : ∀ b x y, f (f b x) y = f (f b y) x)
    (hrel : ∀ b k l l', l.Perm l' → f b (k, l) = f b (k, l'))
    {m m' : List ((Str × Str) × List (Nat × RpcLog))} (h : SameMap List.Perm m m') (b : β) :
    m.foldl f b = m'.foldl f b := by
  obtain ⟨m'', hp, hk⟩ := h
  have : m.foldl f b = m''.foldl f b := hp.foldl_eq' (fun x _ y _ z => hcomm z x y) b
  rw [this]
  clear this hp
  induction hk generalizing b with
  | nil => rfl
  | cons hr _ ih => rw [List.foldl_cons, List.foldl_cons, hrel _ _ _ _ hr, ih]

theorem measuredOf_perm {l l' : List (Nat × RpcLog)} (h : l.Perm l') : (measuredOf l).Perm (measuredOf l') :=
  h.flatMap_right _

theorem starts_perm {l l' : List Sample} (h : l.Perm l') (b : Int) : starts b l = starts b l' :=
  h.foldl_eq' (fun x _ y _ z => by omega) b

theorem stops_perm {l l' : List Sample} (h : l.Perm l') (b : Int) : stops b l = stops b l' :=
  h.foldl_eq' (fun x _ y _ z => by omega) b

theorem peerTime_perm {l l' : List (Nat × RpcLog)} (h : l.Perm l') (t : Int) : peerTime t l = peerTime t l' := by
  unfold peerTime
  rw [starts_perm (measuredOf_perm h), stops_perm (measuredOf_perm h)]

theorem peerTime_comm (t : Int) (l l' : List (Nat × RpcLog)) :
    peerTime (peerTime t l) l' = peerTime (peerTime t l') l := by
  unfold peerTime
  split <;> split <;> first | rfl | omega

theorem recordOf_perm {l l' : List (Nat × RpcLog)} (h : l.Perm l') : recordOf l = recordOf l' := by
  unfold recordOf sumOf
  rw [sum_perm (h.map _), sum_perm ((measuredOf_perm h).map _),
    sum_perm ((measuredOf_perm h).map (fun s : Sample => s.responseSize))]

theorem flat_same {β : Type} (f : (Str × Str) × List (Nat × RpcLog) → List β)
    (hrel : ∀ k l l', l.Perm l' → (f (k, l)).Perm (f (k, l')))
    {m m' : List ((Str × Str) × List (Nat × RpcLog))} (h : SameMap List.Perm m m') :
    (m.flatMap f).Perm (m'.flatMap f) := by
  obtain ⟨m'', hp, hk⟩ := h
  refine (hp.flatMap_right f).trans ?_
  clear hp
  induction hk with
  | nil => exact .refl _
  | cons hr _ ih => exact (hrel _ _ _ hr).append ih

theorem rpcLogs_same {r r' : Result} (h : SameResult r r') : (rpcLogsOf r).Perm (rpcLogsOf r') := by
  obtain ⟨hn, hs⟩ := h
  unfold rpcLogsOf
  rw [peersOf_pairs, peersOf_pairs, List.flatMap_map, List.flatMap_map, hn]
  exact flat_same (fun p => p.2.map (fun l => (r'.rpcNames.getD l.1 [], l.2))) (fun _ _ _ hp => hp.map _) (pairs_same hs)

theorem collect_same {r r' : Result} (hu : KeyedLogs r) (hu' : KeyedLogs r') (h : SameResult r r') :
    (collect r).perf = (collect r').perf ∧ (collect r).testTime = (collect r').testTime ∧
    (collect r).samples = (collect r').samples ∧ (collect r).failures = (collect r').failures ∧
    (collect r).warmups = (collect r').warmups := by
  have hp := pairs_same h.2
  have hl := rpcLogs_same h
  refine ⟨?_, ?_, ?_, ?_, ?_⟩
  · have hperm : (collect r).perf.Perm (collect r').perf := by
      refine (perf_perm hu).trans (.trans ?_ (perf_perm hu').symm)
      rw [peersOf_pairs, peersOf_pairs, List.map_map, List.map_map]
      obtain ⟨m, hp1, hk⟩ := hp
      refine (hp1.map _).trans ?_
      clear hp1
      generalize pairs r'.logs = m' at hk
      induction hk with
      | nil => exact .refl _
      | cons hr _ ih =>
        simp only [List.map_cons, Function.comp_apply, recordOf_perm hr]
        exact ih.cons _
    refine hperm.eq_of_pairwise ?_ (ascending_perf r) (ascending_perf r')
    intro a b _ _ h1 h2
    have := pairLt_total.trans _ _ _ h1 h2
    rw [pairLt_total.irrefl] at this
    cases this
  · rw [collect_time, collect_time, peersOf_pairs, peersOf_pairs, List.foldl_map, List.foldl_map]
    exact fold_same _ (fun b x y => peerTime_comm _ _ _) (fun b k l l' hll => peerTime_perm hll _) hp 0
  · rw [collect_samples, collect_samples]
    unfold successes failuresOf
    rw [(hl.map _).sum_nat, (hl.map (fun e => e.2.failed.length)).sum_nat]
  · rw [collect_failures, collect_failures]
    unfold failuresOf
    rw [(hl.map _).sum_nat]
  · rw [collect_warmups, collect_warmups]
    unfold warmupsOf
    rw [(hl.map _).sum_nat]

theorem latencies_same {r r' : Result} (h : SameResult r r') :
    (collect r).latencies.map (fun e => Line.latency e.1 e.2.length (statsOf (sort e.2))) =
    (collect r').latencies.map (fun e => Line.latency e.1 e.2.length (statsOf (sort e.2))) := by
  have hl := rpcLogs_same h
  have key : (collect r).latencies.map (fun e => (e.1, sort e.2)) = (collect r').latencies.map (fun e => (e.1, sort e.2)) := by
    have hasc : ∀ r, Ascending strLt ((collect r).latencies.map (fun e => (e.1, sort e.2))) := by
      intro r
      unfold Ascending
      rw [List.pairwise_map]
      exact ascending_latencies r
    have hfind : ∀ (m : List (Str × List Int)) (name : Str), find name (m.map (fun e => (e.1, sort e.2))) =
        (find name m).map sort := by
      intro m name
      induction m with
      | nil => rfl
      | cons e m ih =>
        obtain ⟨k, v⟩ := e
        simp only [List.map_cons, find]
        split
        · rfl
        · exact ih
    apply ascending_ext strLt_total (hasc r) (hasc r')
    intro name
    rw [hfind, hfind, find_latencies, find_latencies]
    have hiff : (∃ e ∈ rpcLogsOf r, e.1 = name) ↔ (∃ e ∈ rpcLogsOf r', e.1 = name) := by
      constructor
      · rintro ⟨e, he, hn⟩; exact ⟨e, hl.mem_iff.1 he, hn⟩
      · rintro ⟨e, he, hn⟩; exact ⟨e, hl.mem_iff.2 he, hn⟩
    by_cases hx : ∃ e ∈ rpcLogsOf r, e.1 = name
    · rw [if_pos hx, if_pos (hiff.1 hx)]
      simp only [Option.map_some]
      rw [sort_eq]
      unfold latenciesOf
      exact (hl.filter _).flatMap_right _
    · rw [if_neg hx, if_neg (fun h => hx (hiff.2 h))]
  have hline : ∀ r, (collect r).latencies.map (fun e => Line.latency e.1 e.2.length (statsOf (sort e.2))) =
      ((collect r).latencies.map (fun e => (e.1, sort e.2))).map (fun e => Line.latency e.1 e.2.length (statsOf e.2)) := by
    intro r
    rw [List.map_map]
    congr 1
    funext e
    simp [(sort_perm e.2).length_eq]
  rw [hline, hline, key]

theorem inRange_iff (r : Result) :
    (∀ e ∈ r.logs, ∀ p ∈ e.2, ∀ l ∈ p.2, l.1 < r.rpcNames.length) ↔
    ∀ x ∈ (pairs r.logs).flatMap (fun p => p.2.map (·.1)), x < r.rpcNames.length := by
  unfold pairs
  constructor
  · intro h x hx
    obtain ⟨p, hp, hx⟩ := List.mem_flatMap.1 hx
    obtain ⟨e, he, hp⟩ := List.mem_flatMap.1 hp
    obtain ⟨q, hq, rfl⟩ := List.mem_map.1 hp
    obtain ⟨l, hl, rfl⟩ := List.mem_map.1 hx
    exact h e he q hq l hl
  · intro h e he p hp l hl
    exact h l.1 (List.mem_flatMap.2 ⟨((e.1, p.1), p.2), List.mem_flatMap.2 ⟨e, he, List.mem_map.2 ⟨p, hp, rfl⟩⟩,
      List.mem_map.2 ⟨l, hl, rfl⟩⟩)

/-- C133.  The summary does not depend on the order in which the maps of the result are iterated
over. -/
theorem C133_order {r r' : Result} (hu : KeyedLogs r) (hu' : KeyedLogs r') (h : SameResult r r') :
    summarize r = summarize r' := by
  obtain ⟨h1, h2, h3, h4, h5⟩ := collect_same hu hu' h
  have hlat := latencies_same h
  unfold summarize
  have hrange : (∀ e ∈ r.logs, ∀ p ∈ e.2, ∀ l ∈ p.2, l.1 < r.rpcNames.length) ↔
      (∀ e ∈ r'.logs, ∀ p ∈ e.2, ∀ l ∈ p.2, l.1 < r'.rpcNames.length) := by
    rw [inRange_iff, inRange_iff, h.1]
    have hp := flat_same (fun p => p.2.map (·.1)) (fun _ _ _ hp => hp.map _) (pairs_same h.2)
    constructor
    · intro hx x hm; exact hx x (hp.mem_iff.2 hm)
    · intro hx x hm; exact hx x (hp.mem_iff.1 hm)
  by_cases hin : ∀ e ∈ r.logs, ∀ p ∈ e.2, ∀ l ∈ p.2, l.1 < r.rpcNames.length
  · rw [if_pos hin, if_pos (hrange.1 hin)]
    dsimp only
    rw [latencyLines_ok, latencyLines_ok, hlat, h1, h2, h3, h4, h5]
  · rw [if_neg hin, if_neg (fun hx => hin (hrange.2 hx))]

/-- `sample` with its maps in another order. -/
def sample' : Result :=
  { rpcNames := ["get".toList, "put".toList]
    logs :=
      [("a".toList,
        [("b".toList, [(0, ⟨[⟨1, 2, 200, 4, false⟩, ⟨1, 2, 203, 2, false⟩], []⟩)]),
         ("s".toList,
          [(1, ⟨[⟨4, 5, 100, 12, false⟩], []⟩),
           (0, ⟨[⟨1, 2, 90, 9, true⟩, ⟨1, 2, 103, 5, false⟩, ⟨1, 2, 101, 3, false⟩], [⟨1, 0, 104, 1, false⟩]⟩)])]),
       ("b".toList, [("s".toList, [(1, ⟨[⟨10, 20, 100, 7, false⟩], []⟩)])])] }

theorem sameKeys_refl {κ α : Type} {R : α → α → Prop} (hR : ∀ a, R a a) (m : List (κ × α)) : SameKeys R m m := by
  induction m with
  | nil => exact .nil
  | cons e m ih => obtain ⟨k, v⟩ := e; exact .cons (hR v) ih

theorem sameMap_refl {κ α : Type} {R : α → α → Prop} (hR : ∀ a, R a a) (m : List (κ × α)) : SameMap R m m :=
  ⟨m, .refl _, sameKeys_refl hR m⟩

example : SameResult sample sample' := by
  refine ⟨rfl, _, List.Perm.swap .., .cons ?_ (.cons ?_ .nil)⟩
  · refine ⟨_, List.Perm.swap .., .cons ?_ (.cons ?_ .nil)⟩
    · exact sameMap_refl (fun _ => rfl) _
    · exact ⟨_, List.Perm.swap .., sameKeys_refl (fun _ => rfl) _⟩
  · exact sameMap_refl (sameMap_refl (fun _ => rfl)) _

/-! ### C134: a summary is always made -/

/-- C134.  If the RPC indices in the logs are those of RPC descriptions, the summary is made: there is no
undefined behaviour, error or crash. -/
theorem C134_defined {r : Result} (h : ∀ p ∈ peersOf r, ∀ l ∈ p.2.2, l.1 < r.rpcNames.length) :
    ∃ lines, summarize r = .ok lines := by
  have hin : ∀ e ∈ r.logs, ∀ p ∈ e.2, ∀ l ∈ p.2, l.1 < r.rpcNames.length := by
    intro e he p hp l hl
    exact h (e.1, p.1, p.2) (List.mem_flatMap.2 ⟨e, he, List.mem_map.2 ⟨p, hp, rfl⟩⟩) l hl
  unfold summarize
  rw [if_pos hin]
  dsimp only
  split
  · exact ⟨_, rfl⟩
  · rw [latencyLines_ok]
    exact ⟨_, rfl⟩

example : ∀ p ∈ peersOf sample, ∀ l ∈ p.2.2, l.1 < sample.rpcNames.length := by decide +kernel

end Distbench.Summary
