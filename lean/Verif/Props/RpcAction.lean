import Verif.Lemmas.RpcAction
import Verif.Lemmas.Logs
import Verif.Props.Fanout

/-! Properties of actions that run an RPC, from the first iteration to the log: C199 and C200. -/

namespace Distbench
open Spec RpcAction

/-- The parameters of a run. -/
def setupOf (a : Tables.Action) (now : Int) (w : Bool) (cap rpc service : Nat)
    (pick : Int → List Nat → Prop) : Setup where
  params := Iterations.params a now w
  capacity := cap
  rpc := rpc
  service := service
  pick := pick

theorem rpcAction_inv {a : Tables.Action}
    (h : (∃ par, ClosedLoop a par) ∨ ∃ period n, OpenLoop a period n)
    {now : Int} {w b : Bool} {cap rpc service : Nat} {pick : Int → List Nat → Prop} {m : Nat}
    {s : RpcAction.State} (he : RpcAction.Executes a now w b cap rpc service pick m s) :
    ∃ it0 i, Inv (setupOf a now w cap rpc service pick) it0 m s ∧
      Iterations.Executes a now w b i s.it ∧
      (∀ j it, Iterations.Run (Iterations.params a now w) it0 j it →
        Iterations.Executes a now w b j it) ∧ ∀ k, starts k s.it.log ≤ 1 := by
  obtain ⟨spread, it0, texts, hi, hr⟩ := he
  have hex : ∀ j it, Iterations.Run (Iterations.params a now w) it0 j it →
      Iterations.Executes a now w b j it := fun j it hj => ⟨spread, it0, hi, hj⟩
  have hone : ∀ j it, Iterations.Run (Iterations.params a now w) it0 j it →
      ∀ k, starts k it.log ≤ 1 := by
    intro j it hj k
    rcases h with ⟨par, h⟩ | ⟨period, n, h⟩
    · have := (closed_executes h (hex j it hj)).1.num k
      split at this <;> split at this <;> omega
    · have := ((C81_never_more a period n h now w b j it (hex j it hj)).1 k).2
      split at this <;> omega
  have hinv := inv_run (u := setupOf a now w cap rpc service pick) (it0 := it0) hone
    (inv_begin texts (Iterations.begin_log hi).1) hr
  obtain ⟨i, y, g1, -⟩ := hinv.steps
  exact ⟨it0, i, hinv, hex i _ g1, hex, hone i _ g1⟩

/-! ### C199 -/

/-- C199, the RPCs of an iteration that has ended: exactly one RPC was initiated for each of the
instances the iteration fans out to, and the callback of each was called exactly once. -/
theorem C199_ended (a : Tables.Action)
    (h : (∃ par, ClosedLoop a par) ∨ ∃ period n, OpenLoop a period n)
    (now : Int) (w b : Bool) (cap rpc service : Nat) (pick : Int → List Nat → Prop) (m : Nat)
    (s : RpcAction.State) (he : RpcAction.Executes a now w b cap rpc service pick m s) (k : Int)
    (hk : 0 < ends k s.it.log) :
    pick k (s.targets k) ∧ (peersIn k s.calls).Perm (s.targets k) ∧
    (peersIn k s.answered).Perm (s.targets k) := by
  obtain ⟨it0, i, hinv, -, -, hone⟩ := rpcAction_inv h he
  have hf := hinv.fin k
  have hb : starts k s.it.log = 1 ∧ s.remaining k = 0 := by
    rcases Classical.em (starts k s.it.log = 1 ∧ s.remaining k = 0) with hb | hb
    · exact hb
    · rw [toCount_neg hb] at hf; omega
  have hrem := hinv.rem k
  have hz1 : ∀ t, s.toSend.count ⟨k, t⟩ = 0 := by
    intro t
    rw [List.count_eq_zero]
    intro hm
    have : 0 < s.toSend.countP (fun c => c.iteration = k) :=
      List.countP_pos_iff.2 ⟨_, hm, by simp⟩
    omega
  have hz2 : ∀ t, s.inFlight.count ⟨k, t⟩ = 0 := by
    intro t
    rw [List.count_eq_zero]
    intro hm
    have : 0 < s.inFlight.countP (fun c => c.iteration = k) :=
      List.countP_pos_iff.2 ⟨_, hm, by simp⟩
    omega
  refine ⟨hinv.picked k hb.1, ?_, ?_⟩
  · rw [List.perm_iff_count]
    intro t
    have := hinv.sent ⟨k, t⟩
    have := hz1 t
    rw [count_peersIn]; dsimp only at *; omega
  · rw [List.perm_iff_count]
    intro t
    have := hinv.sent ⟨k, t⟩
    have := hinv.back ⟨k, t⟩
    have := hz1 t
    have := hz2 t
    rw [count_peersIn]; dsimp only at *; omega

/-- C199, at any time: an iteration ends at most once; a callback is called at most once for each
RPC, for each instance at most one RPC is initiated, and none before the iteration has started. -/
theorem C199_never_more (a : Tables.Action)
    (h : (∃ par, ClosedLoop a par) ∨ ∃ period n, OpenLoop a period n)
    (now : Int) (w b : Bool) (cap rpc service : Nat) (pick : Int → List Nat → Prop) (m : Nat)
    (s : RpcAction.State) (he : RpcAction.Executes a now w b cap rpc service pick m s) (k : Int) :
    ends k s.it.log ≤ 1 ∧
    (starts k s.it.log = 0 → peersIn k s.calls = []) ∧
    ∀ t, (peersIn k s.answered).count t ≤ (peersIn k s.calls).count t ∧
      (peersIn k s.calls).count t ≤ (s.targets k).count t := by
  obtain ⟨it0, i, hinv, -, -, hone⟩ := rpcAction_inv h he
  refine ⟨?_, ?_, ?_⟩
  · have hf := hinv.fin k
    rcases Classical.em (starts k s.it.log = 1 ∧ s.remaining k = 0) with hb | hb
    · rw [toCount_pos hb] at hf; omega
    · rw [toCount_neg hb] at hf; omega
  · intro hz
    have h1 := hinv.sentAll k
    rw [(hinv.fresh k hz).1] at h1
    rw [← List.length_eq_zero_iff, length_peersIn]
    simp only [List.length_nil] at h1
    omega
  · intro t
    have := hinv.sent ⟨k, t⟩
    have := hinv.back ⟨k, t⟩
    rw [count_peersIn, count_peersIn]; dsimp only at *; omega

theorem iterations_bounded {a : Tables.Action} {par n : Int} (h : ClosedLoop a par)
    (hn : limitOf a = some n) {now : Int} {w b : Bool} {cap rpc service : Nat}
    {pick : Int → List Nat → Prop} {m : Nat} {s : RpcAction.State}
    (he : RpcAction.Executes a now w b cap rpc service pick m s) :
    ∀ c ∈ s.calls, 0 ≤ c.iteration ∧ c.iteration < (n.toNat : Int) := by
  obtain ⟨it0, i, hinv, hex, -, hone⟩ := rpcAction_inv (.inl ⟨par, h⟩) he
  intro c hc
  have h1 := ((C33_never_more a par n h hn now w b i s.it hex).1 c.iteration).2
  have h2 := hinv.fresh c.iteration
  have h3 := hinv.sentAll c.iteration
  have h4 : 0 < s.calls.countP (fun d => d.iteration = c.iteration) :=
    List.countP_pos_iff.2 ⟨c, hc, by simp⟩
  rcases Decidable.em (0 ≤ c.iteration ∧ c.iteration < n) with hb | hb
  · omega
  · rw [if_neg hb] at h1
    have := (h2 (by omega)).1
    rw [this, List.length_nil] at h3
    omega

theorem answered_subset {u : Setup} {it0 : Iterations.State} {m : Nat} {s : RpcAction.State}
    (h : Inv u it0 m s) : ∀ c ∈ s.answered, c ∈ s.calls := by
  intro c hc
  have := h.back c
  have := List.count_pos_iff.2 hc
  exact List.count_pos_iff.1 (by omega)

theorem sampling_can_step {cap : Nat} {s : Sampling.State} (hr : Sampling.Reachable cap s)
    (hw : s.workers ≠ []) : ∃ x, Sampling.Step cap s x ∧ x.recorded = s.recorded ∧
      x.workers ≠ s.workers := by
  rcases Nat.eq_zero_or_pos cap with hc | hc
  · subst hc; exact absurd (Sampling.direct_reachable hr).workers hw
  · obtain ⟨x, h1, h2, h3, -⟩ := Sampling.can_step hc hr hw
    exact ⟨x, h1, h3, fun e => by rw [e] at h2; omega⟩

theorem sampling_can_record (cap : Nat) (s : Sampling.State) (r : Sampling.Rpc) :
    ∃ x, Sampling.Step cap s x ∧ x.recorded = s.recorded ++ [r] := by
  rcases Nat.eq_zero_or_pos cap with hc | hc
  · exact ⟨_, .direct r hc, rfl⟩
  · refine ⟨_, .arrive r 0 hc (Nat.zero_le _), ?_⟩
    unfold Sampling.arrive
    dsimp only
    split
    · rfl
    · split <;> rfl

/-- A sample about a call. -/
private def someSample (u : Setup) (c : Call) : Sampling.Rpc where
  rpcIndex := u.rpc
  service := u.service
  instance_ := c.peer
  success := true
  warmup := Iterations.warmupOf u.params c.iteration
  requestSize := 0
  responseSize := 0
  startTime := 0
  endTime := 0
  priorStart := none
  trace := none
  error := []

theorem runsOf_of_mem {k : Int} {l : List Iterations.Thread} (h : .running k ∈ l) :
    0 < Iterations.runsOf k l := by
  induction l with
  | nil => simp at h
  | cons t l ih =>
    rcases List.mem_cons.1 h with e | h
    · subst e; simp only [Iterations.runsOf, if_true]; omega
    · have := ih h
      cases t <;> simp only [Iterations.runsOf] <;> omega

/-- While an RPC is to be sent or answered, or an iteration to be finished, there is a step. -/
theorem rpcAction_can_step {u : Setup} {it0 : Iterations.State} {m : Nat} {s : RpcAction.State}
    (h : Inv u it0 m s) (hbook : Iterations.Book s.it) (hu : s.it.overflow = false)
    (hone : ∀ k, starts k s.it.log ≤ 1) (hrun : ∃ k, .running k ∈ s.it.threads) :
    ∃ s', RpcAction.Work u s s' := by
  obtain ⟨k, hk⟩ := hrun
  have h1 := hbook.runOf k
  have h2 := runsOf_of_mem hk
  have h3 := hone k
  have hfin := h.fin k
  by_cases hr : s.remaining k = 0
  · rw [toCount_pos ⟨by omega, hr⟩] at hfin
    have hmem : k ∈ s.finishing := List.count_pos_iff.1 (by omega)
    obtain ⟨l1, l2, e⟩ := List.append_of_mem hk
    exact ⟨_, .finish hmem (.complete hu e) rfl⟩
  · have hrem := h.rem k
    by_cases hs : s.toSend = []
    · by_cases hf : s.inFlight = []
      · by_cases hw : s.sampling.workers = []
        · have : 0 < s.ending.countP (fun e => e.1.iteration = k) := by
            rw [hs, hf] at hrem; simp only [List.countP_nil] at hrem; omega
          obtain ⟨⟨c, n⟩, hc, -⟩ := List.countP_pos_iff.1 this
          exact ⟨_, .count c n hc (by rw [hw]; simp)⟩
        · obtain ⟨x, a1, a2, a3⟩ := sampling_can_step h.samp hw
          exact ⟨_, .sample a1 a2 a3⟩
      · obtain ⟨c, l, hc⟩ := List.exists_cons_of_ne_nil hf
        obtain ⟨x, a1, a2⟩ := sampling_can_record u.capacity s.sampling (someSample u c)
        exact ⟨_, .record c (by rw [hc]; exact List.mem_cons_self) a1 a2 ⟨rfl, rfl, rfl, rfl⟩⟩
    · obtain ⟨c, l, hc⟩ := List.exists_cons_of_ne_nil hs
      exact ⟨_, .send c (by rw [hc]; exact List.mem_cons_self)⟩

/-- C199, it comes to an end: as long as the action has not reported that it is done some step is
possible, where an RPC in flight may come back; and there are at most 3n + 1 steps, and five for each
RPC, whatever the order. -/
theorem C199_ends (a : Tables.Action) (par n : Int) (h : ClosedLoop a par) (hn : limitOf a = some n)
    (now : Int) (w b : Bool) (cap rpc service : Nat) (pick : Int → List Nat → Prop)
    (hpick : ∀ k, ∃ ts, pick k ts) (m : Nat) (s : RpcAction.State)
    (he : RpcAction.Executes a now w b cap rpc service pick m s) :
    (m : Int) ≤ 3 * n + 1 + 5 * fanOutTotal s.targets n.toNat ∧
    (.allDone ∉ s.it.log → ∃ s', RpcAction.Work (setupOf a now w cap rpc service pick) s s') := by
  obtain ⟨it0, i, hinv, hex, hall, hone⟩ := rpcAction_inv (.inl ⟨par, h⟩) he
  constructor
  · obtain ⟨j, y, g1, g2, g3⟩ := hinv.steps
    have hj := (C33_ends a par n h hn now w b j s.it (hall j _ g1)).1
    have hle := hinv.endLe
    have hback := hinv.backAll
    have hc := countP_iterations (iterations_bounded h hn he) (fun _ => true)
    rw [List.countP_true] at hc
    have : ((List.range n.toNat).map (fun (k : Nat) =>
        s.calls.countP (fun c => true && decide (c.iteration = (k : Int))))).sum ≤
        fanOutTotal s.targets n.toNat := by
      unfold fanOutTotal
      apply sum_range_le
      intro k _
      have := hinv.sentAll k
      simp only [Bool.true_and]
      omega
    omega
  · intro hnd
    have hu := (C33_never_more a par n h hn now w b i s.it hex).2.2
    obtain ⟨hcl, -⟩ := closed_executes h hex
    have hp := closed_params h now w
    have hq : ¬ Quiet (Iterations.params a now w) s.it := by
      intro hq
      have := (quiet_iff hcl hp.positive).1 hq
      rw [Iterations.reports_zero hnd] at this
      omega
    by_cases hr : ∃ k, Iterations.Thread.running k ∈ s.it.threads
    · exact rpcAction_can_step hinv hcl.book hu hone hr
    · obtain ⟨it', hw⟩ := (C33_ends a par n h hn now w b i s.it hex).2 hq
      have hw' := hw
      cases hw with
      | issue =>
        obtain ⟨ts, hts⟩ := hpick s.it.issued
        exact ⟨_, .start hw' rfl hts⟩
      | @complete l1 l2 k _ e => exact absurd ⟨k, by rw [e]; simp⟩ hr
      | @locked l1 l2 k b next finished d =>
        exact ⟨_, .inner hw' (.inl (by cases d <;> rfl))⟩
      | overflow => exact ⟨_, .inner hw' (.inl rfl)⟩
      | @restart l1 l2 k =>
        obtain ⟨ts, hts⟩ := hpick k
        exact ⟨_, .start hw' rfl hts⟩
      | allDone => exact ⟨_, .inner hw' (.inr rfl)⟩
      | run _ ha => rw [show (Iterations.params a now w).activity = false from hp.activity] at ha; cases ha
      | tick _ _ ho => rw [show (Iterations.params a now w).openLoop = false from hp.openLoop] at ho; cases ho
      | tickOverflow _ _ ho => rw [show (Iterations.params a now w).openLoop = false from hp.openLoop] at ho; cases ho

/-! ### C200 -/

/-- The samples of a run, when all are kept, one for each recorded RPC. -/
theorem report_keys {dict : List Str} {recorded : List Sampling.Rpc}
    {report : List (Sampling.Key × Sampling.Sample)}
    (h : DescribesAll dict recorded (List.range recorded.length) report) :
    report.map (fun e => (e.1.rpcIndex, e.1.service, e.1.instance_, e.2.warmup.getD false)) =
      recorded.map keyOf := by
  obtain ⟨h1, h2⟩ := h
  rw [List.length_range] at h1
  apply List.ext_getElem?
  intro j
  rw [List.getElem?_map, List.getElem?_map]
  rcases Nat.lt_or_ge j report.length with hj | hj
  · obtain ⟨⟨k, x⟩, hx⟩ : ∃ e, report[j]? = some e := ⟨_, List.getElem?_eq_getElem hj⟩
    obtain ⟨n, r, hn, hr, hd⟩ := h2 j k x hx
    rw [List.getElem?_range (by omega)] at hn
    injection hn with hn
    subst hn
    rw [hx, hr]
    simp [keyOf, hd.service, hd.instance_, hd.rpc, hd.warmup]
  · rw [List.getElem?_eq_none hj, List.getElem?_eq_none (by omega)]
    rfl

/-- Successful and failed samples under a peer and an RPC, together. -/
theorem filed_both (report : List (Sampling.Key × Sampling.Sample)) (i j r : Nat)
    (P : Sampling.Sample → Bool) :
    (filed report ⟨i, j, r, true⟩).countP P + (filed report ⟨i, j, r, false⟩).countP P =
    (report.map (fun e => (e.1.rpcIndex, e.1.service, e.1.instance_, P e.2))).countP
      (fun x => x = (r, i, j, true)) := by
  induction report with
  | nil => rfl
  | cons e l ih =>
    unfold filed at ih ⊢
    obtain ⟨⟨a, b, c, d⟩, x⟩ := e
    rw [List.map_cons, List.countP_cons, ← ih]
    by_cases h : a = i ∧ b = j ∧ c = r
    · obtain ⟨rfl, rfl, rfl⟩ := h
      cases d <;> cases hp : P x <;> simp [hp] <;> omega
    · have hne : ∀ d', (⟨a, b, c, d⟩ : Sampling.Key) ≠ ⟨i, j, r, d'⟩ := by
        intro d' e
        injection e with e1 e2 e3
        exact h ⟨e1, e2, e3⟩
      have hne2 : ¬ (c, a, b, P x) = (r, i, j, true) := by
        intro e
        injection e with e1 e
        injection e with e2 e
        injection e with e3 e
        exact h ⟨e2, e3, e1⟩
      simp [hne, hne2]

/-- All samples of a run. -/
theorem all_kept {cap : Nat} {s : Sampling.State} (h : Sampling.Reachable cap s)
    (hw : s.workers = []) (hc : cap = 0 ∨ s.recorded.length ≤ cap)
    {report : List (Sampling.Key × Sampling.Sample)} (hu : Sampling.Unpacked cap s report) :
    DescribesAll s.dict.contents s.recorded (List.range s.recorded.length) report := by
  rcases Nat.eq_zero_or_pos cap with h0 | h0
  · subst h0
    exact Sampling.C37_unlimited (maxRpcSamples := 0) (Int.le_refl _) h hu
  · exact Sampling.C37_all_when_few h0 h hw (by omega) hu

/-- The number of RPCs to an instance in the first iterations, once all have ended. -/
theorem answered_count {a : Tables.Action} {par n : Int} (h : ClosedLoop a par)
    (hn : limitOf a = some n) (ht : NoTimeLimit a) {now : Int} {w b : Bool} {cap rpc service : Nat}
    {pick : Int → List Nat → Prop} {m : Nat} {s : RpcAction.State}
    (he : RpcAction.Executes a now w b cap rpc service pick m s) (hc : s.it.canceled = false)
    (hd : .allDone ∈ s.it.log) (t : Nat) (q : Nat) (hq : q ≤ n.toNat) :
    s.answered.countP (fun c => decide (c.peer = t) && decide (c.iteration < (q : Int))) =
      timesTargeted s.targets t q := by
  obtain ⟨it0, i, hinv, hex, -, hone⟩ := rpcAction_inv (.inl ⟨par, h⟩) he
  have hb : ∀ c ∈ s.answered, 0 ≤ c.iteration ∧ c.iteration < (n.toNat : Int) := fun c hc =>
    iterations_bounded h hn he c (answered_subset hinv c hc)
  rw [countP_iterations hb]
  have hl := C33_report_last a par n h hn ht now w b i s.it hex hc hd
  have key : ∀ k < n.toNat, s.answered.countP (fun c => (decide (c.peer = t) &&
      decide (c.iteration < (q : Int))) && decide (c.iteration = (k : Int))) =
      if k < q then (s.targets k).count t else 0 := by
    intro k hk
    by_cases hkq : k < q
    · rw [if_pos hkq, ← (C199_ended a (.inl ⟨par, h⟩) now w b cap rpc service pick m s he k
        (by rw [hl k (by omega) (by omega)]; omega)).2.2.count_eq t, count_peersIn, List.count]
      apply List.countP_congr
      intro c _
      obtain ⟨x, y⟩ := c
      simp only [Bool.and_eq_true, decide_eq_true_eq, beq_iff_eq, Call.mk.injEq]
      omega
    · rw [if_neg hkq, List.countP_eq_zero]
      intro c _
      simp only [Bool.and_eq_true, decide_eq_true_eq]
      omega
  rw [sum_range_congr key]
  unfold timesTargeted
  obtain ⟨d, hd⟩ : ∃ d, n.toNat = q + d := ⟨n.toNat - q, by omega⟩
  rw [hd]
  clear hd key hl hb hq
  induction d with
  | zero => exact sum_range_congr (fun k hk => by rw [if_pos (by omega)])
  | succ d ih =>
    rw [← Nat.add_assoc, List.range_succ, List.map_append, List.sum_append, ih]
    simp only [List.map_cons, List.map_nil, List.sum_cons, List.sum_nil]
    rw [if_neg (by omega), Nat.add_zero, Nat.add_zero]

/-- C200, from the configuration to the log.  An action that runs an RPC `n` times, in a list of its
own, has been done and was not cancelled; the number of samples is not limited, or the limit was not
reached.  Then the log has, for each peer, as many samples for the RPC as there were iterations that
fan out to it, each iteration counted as often as it does; and those that come from the first
`warmup_iterations` iterations are marked as warmup, and only those. -/
theorem C200_log (a : Tables.Action) (par n : Int) (h : ClosedLoop a par) (hn : limitOf a = some n)
    (ht : NoTimeLimit a) (now : Int) (b : Bool) (cap rpc service : Nat)
    (pick : Int → List Nat → Prop) (m : Nat) (s : RpcAction.State)
    (he : RpcAction.Executes a now false b cap rpc service pick m s) (hc : s.it.canceled = false)
    (hd : .allDone ∈ s.it.log) (hcap : cap = 0 ∨ s.sampling.recorded.length ≤ cap)
    (report : List (Sampling.Key × Sampling.Sample)) (hu : Sampling.Unpacked cap s.sampling report)
    (names : List (List Str)) (hnames : UniqueNames names) (row : List Str) (t : Nat) (x : Str)
    (hrow : names[service]? = some row) (hx : row[t]? = some x) :
    samplesFound (logOf names report) x rpc = timesTargeted s.targets t n.toNat ∧
    warmupsFound (logOf names report) x rpc = timesTargeted s.targets t
      (min (a.iterations.getD {}).warmupIterations.toNat n.toNat) := by
  obtain ⟨it0, i, hinv, hex, -, hone⟩ := rpcAction_inv (.inl ⟨par, h⟩) he
  have hl := C33_report_last a par n h hn ht now false b i s.it hex hc hd
  have hb : ∀ c ∈ s.answered, 0 ≤ c.iteration ∧ c.iteration < (n.toNat : Int) := fun c hc =>
    iterations_bounded h hn he c (answered_subset hinv c hc)
  have hpos : 1 ≤ n := (h.count n hn).1
  -- no thread is recording a sample
  have hw : s.sampling.workers = [] := by
    cases hx : s.sampling.workers with
    | nil => rfl
    | cons w l =>
      exfalso
      obtain ⟨c, hc⟩ := hinv.workers w (by rw [hx]; exact List.mem_cons_self)
      have h1 : 0 < s.ending.countP (fun e => e.1.iteration = c.iteration) :=
        List.countP_pos_iff.2 ⟨_, hc, by simp⟩
      have h2 := hinv.rem c.iteration
      have h3 := hinv.fresh c.iteration
      have h4 := ((C33_never_more a par n h hn now false b i s.it hex).1 c.iteration).2
      have h5 := hinv.fin c.iteration
      rw [toCount_neg (by omega)] at h5
      rcases Decidable.em (0 ≤ c.iteration ∧ c.iteration < n) with hi | hi
      · have := hl c.iteration hi.1 hi.2
        omega
      · rw [if_neg hi] at h4
        have := (h3 (by omega)).2
        omega
  have hkeys := report_keys (all_kept hinv.samp hw hcap hu)
  rw [hinv.same] at hkeys
  have hfound : ∀ success, found (logOf names report) x rpc success =
      filed report ⟨service, t, rpc, success⟩ := by
    intro success
    have := Logs.C88_logs_complete names hnames [report] hrow hx rpc success
    simpa [logOf] using this
  constructor
  · unfold samplesFound
    rw [hfound, hfound]
    have h1 := filed_both report service t rpc (fun _ => true)
    rw [List.countP_true] at h1
    rw [h1]
    have h2 := congrArg (List.map (fun e : Nat × Nat × Nat × Bool => (e.1, e.2.1, e.2.2.1, true))) hkeys
    rw [List.map_map, List.map_map] at h2
    rw [show (fun e : Sampling.Key × Sampling.Sample => (e.1.rpcIndex, e.1.service, e.1.instance_, true)) =
      (fun e : Nat × Nat × Nat × Bool => (e.1, e.2.1, e.2.2.1, true)) ∘
      (fun e : Sampling.Key × Sampling.Sample =>
        (e.1.rpcIndex, e.1.service, e.1.instance_, e.2.warmup.getD false)) from rfl, h2,
      List.countP_map, ← answered_count h hn ht he hc hd t n.toNat (Nat.le_refl _)]
    apply List.countP_congr
    intro c hc
    have := (hb c hc).2
    simp [keyOfCall, setupOf]
    intro _
    omega
  · unfold warmupsFound
    rw [hfound, hfound, filed_both report service t rpc (fun x => x.warmup.getD false), hkeys,
      List.countP_map, ← answered_count h hn ht he hc hd t _ (Nat.min_le_right _ _)]
    apply List.countP_congr
    intro c hc
    have := hb c hc
    have e1 : (setupOf a now false cap rpc service pick).params.listWarmup = false := rfl
    have e2 : (setupOf a now false cap rpc service pick).params.warmupIterations =
      (a.iterations.getD {}).warmupIterations := rfl
    have e3 : keyOfCall (setupOf a now false cap rpc service pick) c = (rpc, service, c.peer,
        decide (c.iteration < (a.iterations.getD {}).warmupIterations)) := by
      unfold keyOfCall Iterations.warmupOf
      rw [e1, e2]
      rfl
    simp only [Function.comp_apply, e3, Prod.mk.injEq, true_and, decide_eq_true_eq,
      Bool.and_eq_true]
    constructor
    · rintro ⟨h1, h2⟩; exact ⟨h1, by omega⟩
    · rintro ⟨h1, h2⟩; exact ⟨h1, by omega⟩

/-- C200, fan-out to all.  If the action fans out to all instances of a service with `size` instances,
the log has exactly `n` samples for each of them, except, inside one service, for the sender itself,
for which it has none. -/
theorem C200_all (a : Tables.Action) (par n : Int) (h : ClosedLoop a par) (hn : limitOf a = some n)
    (ht : NoTimeLimit a) (now : Int) (b : Bool) (cap rpc service : Nat) (size : Int)
    (sender : Option Int) (m : Nat) (s : RpcAction.State)
    (he : RpcAction.Executes a now false b cap rpc service (ToAll size sender) m s)
    (hc : s.it.canceled = false)
    (hd : .allDone ∈ s.it.log) (hcap : cap = 0 ∨ s.sampling.recorded.length ≤ cap)
    (report : List (Sampling.Key × Sampling.Sample)) (hu : Sampling.Unpacked cap s.sampling report)
    (names : List (List Str)) (hnames : UniqueNames names) (row : List Str) (t : Nat) (x : Str)
    (hrow : names[service]? = some row) (hsize : (row.length : Int) = size) (hx : row[t]? = some x) :
    (samplesFound (logOf names report) x rpc : Int) = if sender = some (t : Int) then 0 else n := by
  have h1 := (C200_log a par n h hn ht now b cap rpc service _ m s he hc hd hcap report hu names
    hnames row t x hrow hx).1
  obtain ⟨it0, i, hinv, hex, -, hone⟩ := rpcAction_inv (.inl ⟨par, h⟩) he
  have hl := C33_report_last a par n h hn ht now false b i s.it hex hc hd
  have hpos : 1 ≤ n := (h.count n hn).1
  have hlt : t < row.length := by
    rcases Nat.lt_or_ge t row.length with hlt | hge
    · exact hlt
    · rw [List.getElem?_eq_none hge] at hx; cases hx
  have hcount : ∀ k < n.toNat, (s.targets (k : Nat)).count t = if sender = some (t : Int) then 0 else 1 := by
    intro k hk
    have hp := (C199_ended a (.inl ⟨par, h⟩) now false b cap rpc service _ m s he k
      (by rw [hl k (by omega) (by omega)]; omega)).1
    obtain ⟨c, hv, hf, hs, hse, hpick⟩ := hp
    obtain ⟨ts, k1, k2, k3⟩ := C21_all_once c hv hf
    rw [hpick] at k1
    injection k1 with k1
    have hmem : t ∈ s.targets k ↔ Eligible c t := by
      rw [← k3, ← k1, List.mem_map]
      constructor
      · intro hm; exact ⟨t, hm, rfl⟩
      · rintro ⟨t', hm, e⟩
        have : t' = t := by
          have e : (t' : Int) = t := e
          omega
        rw [← this]; exact hm
    have hnd : (s.targets k).Nodup := by
      rw [← k1] at k2
      have : ∀ l : List Nat, (l.map (fun j : Nat => (j : Int))).Nodup → l.Nodup := by
        intro l hl
        induction l with
        | nil => exact List.nodup_nil
        | cons y l ih =>
          rw [List.map_cons, List.nodup_cons] at hl
          rw [List.nodup_cons]
          exact ⟨fun hm => hl.1 (List.mem_map.2 ⟨y, hm, rfl⟩), ih hl.2⟩
      exact this _ k2
    have hel : Eligible c t ↔ sender ≠ some (t : Int) := by
      unfold Eligible
      subst hse
      unfold senderOf
      cases hx : c.excludeSelf with
      | false => simp; omega
      | true => simp; omega
    split
    · rename_i hs'
      rw [List.count_eq_zero, hmem, hel]
      exact fun h => h hs'
    · rename_i hs'
      have h2 := List.nodup_iff_count.1 hnd t
      have h3 := List.count_pos_iff.2 (hmem.2 (hel.2 hs'))
      omega
  rw [h1]
  unfold timesTargeted
  rw [sum_range_congr hcount, sum_range_const]
  split <;> simp <;> omega

/-- C199, the end is reached: if an iteration fans out to at most `most` instances, every execution
can be continued, without cancelling, to one in which the action has reported that it is done. -/
theorem C199_reaches (a : Tables.Action) (par n : Int) (h : ClosedLoop a par)
    (hn : limitOf a = some n) (now : Int) (w b : Bool) (cap rpc service : Nat)
    (pick : Int → List Nat → Prop) (hpick : ∀ k, ∃ ts, pick k ts) (most : Nat)
    (hmost : ∀ k ts, pick k ts → ts.length ≤ most) (m : Nat) (s : RpcAction.State)
    (he : RpcAction.Executes a now w b cap rpc service pick m s) :
    ∃ m' s', RpcAction.Executes a now w b cap rpc service pick m' s' ∧
      s'.it.canceled = s.it.canceled ∧ .allDone ∈ s'.it.log := by
  obtain ⟨bound, hbound⟩ : ∃ N : Nat, ∀ m s,
      RpcAction.Executes a now w b cap rpc service pick m s → m ≤ N := by
    refine ⟨(3 * n + 1).toNat + 5 * (n.toNat * most), fun m s he => ?_⟩
    have h1 := (C199_ends a par n h hn now w b cap rpc service pick hpick m s he).1
    obtain ⟨it0, i, hinv, hex, -, hone⟩ := rpcAction_inv (.inl ⟨par, h⟩) he
    have h2 : fanOutTotal s.targets n.toNat ≤ n.toNat * most := by
      rw [← sum_range_const]
      unfold fanOutTotal
      apply sum_range_le
      intro k _
      have := hone k
      rcases Nat.eq_zero_or_pos (starts (k : Int) s.it.log) with hz | hz
      · rw [(hinv.fresh k hz).1]; exact Nat.zero_le _
      · exact hmost k _ (hinv.picked k (by omega))
    have := (h.count n hn).1
    omega
  obtain ⟨d, hd⟩ : ∃ d, d + m = bound + 1 := ⟨bound + 1 - m, by have := hbound m s he; omega⟩
  induction d generalizing m s with
  | zero => have := hbound m s he; omega
  | succ d ih =>
    by_cases hdone : .allDone ∈ s.it.log
    · exact ⟨m, s, he, rfl, hdone⟩
    · obtain ⟨s', hw⟩ := (C199_ends a par n h hn now w b cap rpc service pick hpick m s he).2 hdone
      have he' : RpcAction.Executes a now w b cap rpc service pick (m + 1) s' := by
        obtain ⟨spread, it0, texts, g1, g2⟩ := he
        exact ⟨spread, it0, texts, g1, .work g2 hw⟩
      obtain ⟨m'', s'', k1, k2, k3⟩ := ih (m + 1) s' he' (by omega)
      refine ⟨m'', s'', k1, k2.trans ?_, k3⟩
      cases hw with
      | start hw =>
        unfold fanOut
        split <;> exact Iterations.work_canceled hw
      | finish _ hw => exact Iterations.work_canceled hw
      | inner hw => exact Iterations.work_canceled hw
      | _ => rfl

/-! ### examples -/

theorem toAll_sample (k : Int) : ToAll 6 (some 4) k [5, 0, 1, 2, 3] :=
  ⟨sampleCtx (.grid false false false) grid32 true 4 ⟨1, 1, 0⟩, sampleValid4 _, rfl, rfl, rfl, by
    rw [C21_order _ (sampleValid4 _) rfl rfl]; rfl⟩

theorem toAll_length {size : Int} {sender : Option Int} {k : Int} {ts : List Nat}
    (h : ToAll size sender k ts) : ts.length ≤ size.toNat := by
  obtain ⟨c, hv, hf, hs, hse, hpick⟩ := h
  obtain ⟨us, k1, k2, k3⟩ := C21_all_once c hv hf
  rw [hpick] at k1
  injection k1 with k1
  have hsub : ∀ x ∈ us, x ∈ Fanout.intRange 0 size := by
    intro x hx
    have := (k3 x).1 hx
    rw [Fanout.mem_intRange]
    unfold Eligible at this
    omega
  have h1 := k2.length_le_of_subset hsub
  rw [← k1, List.length_map] at h1
  have h2 : (Fanout.intRange 0 size).length = size.toNat := by
    simp [Fanout.intRange]
  omega

/-- Three iterations to all six instances from number four, and the report there is at the end. -/
example : ∃ m s report,
    RpcAction.Executes threeAction 5 false false 0 0 0 (ToAll 6 (some 4)) m s ∧
    s.it.canceled = false ∧ .allDone ∈ s.it.log ∧ Sampling.Unpacked 0 s.sampling report := by
  obtain ⟨it0, hit⟩ := closed_initiate threeAction_closed 5 false false 0
  obtain ⟨m, s, h1, h2, h3⟩ := C199_reaches threeAction 2 3 threeAction_closed rfl 5 false false 0 0 0
    (ToAll 6 (some 4)) (fun k => ⟨_, toAll_sample k⟩) 6 (fun k ts h => toAll_length h) 0 _
    ⟨0, it0, [], hit, .start⟩
  obtain ⟨it1, i, hinv, -⟩ := rpcAction_inv (.inl ⟨2, threeAction_closed⟩) h1
  have hd := Sampling.direct_reachable hinv.samp
  refine ⟨m, s, s.sampling.log ++ [], h1, h2.trans (Iterations.begin_log hit).2.1, h3, ?_⟩
  exact .few (ps := []) (by rw [hd.number]; exact Nat.le_refl _) (by rw [hd.number]; rfl)

/-- A state in which iterations have ended while others run. -/
example : ∃ m s, RpcAction.Executes threeAction 5 false false 0 0 0 (ToAll 6 (some 4)) m s ∧
    0 < ends 0 s.it.log := by
  obtain ⟨it0, hit⟩ := closed_initiate threeAction_closed 5 false false 0
  obtain ⟨m, s, h1, h2, h3⟩ := C199_reaches threeAction 2 3 threeAction_closed rfl 5 false false 0 0 0
    (ToAll 6 (some 4)) (fun k => ⟨_, toAll_sample k⟩) 6 (fun k ts h => toAll_length h) 0 _
    ⟨0, it0, [], hit, .start⟩
  obtain ⟨it1, i, hinv, hex, -⟩ := rpcAction_inv (.inl ⟨2, threeAction_closed⟩) h1
  refine ⟨m, s, h1, ?_⟩
  rw [C33_report_last threeAction 2 3 threeAction_closed rfl rfl 5 false false i s.it hex
    (h2.trans (Iterations.begin_log hit).2.1) h3 0 (by decide) (by decide)]
  exact Nat.one_pos

example : UniqueNames [["s/0".toList, "s/1".toList, "s/2".toList, "s/3".toList, "s/4".toList, "s/5".toList]] := by
  intro i j i' j' row row' x h1 h2 h3 h4
  have e1 : i = 0 := by rcases i with _ | i; rfl; simp at h1
  have e2 : i' = 0 := by rcases i' with _ | i; rfl; simp at h3
  subst e1 e2
  simp at h1 h3
  subst h1 h3
  refine ⟨rfl, ?_⟩
  have hj : j < 6 := by
    rcases Nat.lt_or_ge j 6 with h | h
    · exact h
    · rw [List.getElem?_eq_none h] at h2; cases h2
  have hj' : j' < 6 := by
    rcases Nat.lt_or_ge j' 6 with h | h
    · exact h
    · rw [List.getElem?_eq_none h] at h4; cases h4
  have key : ∀ j < 6, ∀ j' < 6, (["s/0".toList, "s/1".toList, "s/2".toList, "s/3".toList, "s/4".toList,
      "s/5".toList] : List Str)[j]? = ["s/0".toList, "s/1".toList, "s/2".toList, "s/3".toList,
      "s/4".toList, "s/5".toList][j']? → j = j' := by decide
  exact key j hj j' hj' (h2.trans h4.symm)

end Distbench
