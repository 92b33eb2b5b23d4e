import Verif.Lemmas.Summary

/-! Lemmas about what the loops of the summary collect. -/

namespace Distbench.Summary
open Spec

/-- The earliest start and the latest end, beginning with given values. -/
def starts (b : Int) (l : List Sample) : Int := l.foldl (fun b s => min s.start b) b
def stops (b : Int) (l : List Sample) : Int := l.foldl (fun b s => max (s.start + s.latency) b) b

/-- The effect of the samples of one RPC log. -/
theorem addSamples_eq (name : Str) (l : List Sample) (a : Acc) (f : List Int → List Int)
    (m : List (Str × List Int)) (hl : a.latencies = update strLt name [] f m) :
    l.foldl (addSample name) a =
      { a with
        warmups := a.warmups + l.countP (·.warmup)
        start := starts a.start (l.filter (fun s => !s.warmup))
        stop := stops a.stop (l.filter (fun s => !s.warmup))
        record :=
          { a.record with
            requestSize := a.record.requestSize + sumOf (·.requestSize) (l.filter (fun s => !s.warmup))
            responseSize := a.record.responseSize + sumOf (·.responseSize) (l.filter (fun s => !s.warmup)) }
        latencies := update strLt name []
          (fun v => f v ++ (l.filter (fun s => !s.warmup)).map (·.latency)) m } := by
  induction l generalizing a f with
  | nil => simp [starts, stops, sumOf, hl.symm]
  | cons s l ih =>
    rw [List.foldl_cons]
    cases hw : s.warmup
    · rw [show addSample name a s = { a with
          start := min s.start a.start
          stop := max (s.start + s.latency) a.stop
          record := { a.record with
            requestSize := a.record.requestSize + s.requestSize
            responseSize := a.record.responseSize + s.responseSize }
          latencies := update strLt name [] (fun l => l ++ [s.latency]) a.latencies } by simp [addSample, hw]]
      rw [ih _ (fun v => f v ++ [s.latency])]
      · simp [hw, starts, stops, sumOf, Int.add_assoc]
      · simp only [hl, update_update]
    · rw [show addSample name a s = { a with warmups := a.warmups + 1 } by simp [addSample, hw]]
      rw [ih { a with warmups := a.warmups + 1 } f hl]
      simp [hw]
      omega

/-- The effect of one RPC log. -/
theorem addRpcLog_eq (names : List Str) (a : Acc) (e : Nat × RpcLog) :
    addRpcLog names a e =
      { a with
        latencies := update strLt (names.getD e.1 []) [] (fun v => v ++ (measured e.2).map (·.latency)) a.latencies
        record :=
          { nbRpcs := a.record.nbRpcs + e.2.successful.length
            requestSize := a.record.requestSize + sumOf (·.requestSize) (measured e.2)
            responseSize := a.record.responseSize + sumOf (·.responseSize) (measured e.2) }
        failures := a.failures + e.2.failed.length
        samples := a.samples + (e.2.failed.length + e.2.successful.length)
        warmups := a.warmups + e.2.successful.countP (·.warmup)
        start := starts a.start (measured e.2)
        stop := stops a.stop (measured e.2) } := by
  simp only [addRpcLog]
  rw [addSamples_eq _ _ _ id a.latencies rfl]
  simp [measured, Int.add_assoc]

/-- Adding latencies to the map. -/
def latStep (m : List (Str × List Int)) (e : Str × RpcLog) : List (Str × List Int) :=
  update strLt e.1 [] (fun v => v ++ (measured e.2).map (·.latency)) m

/-- What a peer's logs add to a record. -/
def recordOf (logs : List (Nat × RpcLog)) : Perf :=
  { nbRpcs := (logs.map (fun e => (e.2.successful.length : Int))).sum
    requestSize := sumOf (·.requestSize) (measuredOf logs)
    responseSize := sumOf (·.responseSize) (measuredOf logs) }

theorem sumOf_append (f : Sample → Int) (l l' : List Sample) : sumOf f (l ++ l') = sumOf f l + sumOf f l' := by
  simp [sumOf]

/-- The effect of the logs of a peer before they are filed. -/
theorem addRpcLogs_eq (names : List Str) (logs : List (Nat × RpcLog)) (a : Acc) :
    logs.foldl (addRpcLog names) a =
      { a with
        latencies := (logs.map (fun l => (names.getD l.1 [], l.2))).foldl latStep a.latencies
        record :=
          { nbRpcs := a.record.nbRpcs + (recordOf logs).nbRpcs
            requestSize := a.record.requestSize + (recordOf logs).requestSize
            responseSize := a.record.responseSize + (recordOf logs).responseSize }
        failures := a.failures + (logs.map (fun e => (e.2.failed.length : Int))).sum
        samples := a.samples + (logs.map (fun e => (e.2.failed.length : Int) + e.2.successful.length)).sum
        warmups := a.warmups + (logs.map (fun e => (e.2.successful.countP (·.warmup) : Int))).sum
        start := starts a.start (measuredOf logs)
        stop := stops a.stop (measuredOf logs) } := by
  induction logs generalizing a with
  | nil => simp [recordOf, measuredOf, sumOf, starts, stops]
  | cons e logs ih =>
    rw [List.foldl_cons, addRpcLog_eq, ih]
    simp [recordOf, measuredOf, sumOf_append, starts, stops, latStep, Int.add_assoc]

/-- The time taken by a peer's samples, as the code computes it. -/
def peerTime (t : Int) (logs : List (Nat × RpcLog)) : Int :=
  if starts maxI64 (measuredOf logs) ≠ maxI64 then
    max t (stops minI64 (measuredOf logs) - starts maxI64 (measuredOf logs))
  else t

theorem addPeer_eq (names : List Str) (i : Str) (a : Acc) (e : Str × List (Nat × RpcLog)) :
    addPeer names i a e =
      { a with
        latencies := (e.2.map (fun l => (names.getD l.1 [], l.2))).foldl latStep a.latencies
        record := recordOf e.2
        perf := update pairLt (i, e.1) {} (fun _ => recordOf e.2) a.perf
        failures := a.failures + (e.2.map (fun e => (e.2.failed.length : Int))).sum
        samples := a.samples + (e.2.map (fun e => (e.2.failed.length : Int) + e.2.successful.length)).sum
        warmups := a.warmups + (e.2.map (fun e => (e.2.successful.countP (·.warmup) : Int))).sum
        testTime := peerTime a.testTime e.2
        start := starts maxI64 (measuredOf e.2)
        stop := stops minI64 (measuredOf e.2) } := by
  simp only [addPeer]
  rw [addRpcLogs_eq]
  simp only [Int.zero_add, peerTime]
  split <;> rfl

/-- The collected values of a list of peers. -/
theorem addPeers (names : List Str) (peers : List (Str × Str × List (Nat × RpcLog))) (a : Acc) :
    let b := peers.foldl (fun a p => addPeer names p.1 a p.2) a
    b.latencies = (peers.flatMap (fun p => p.2.2.map (fun l => (names.getD l.1 [], l.2)))).foldl latStep a.latencies ∧
    b.perf = peers.foldl (fun m p => update pairLt (p.1, p.2.1) {} (fun _ => recordOf p.2.2) m) a.perf ∧
    b.testTime = peers.foldl (fun t p => peerTime t p.2.2) a.testTime ∧
    b.failures = a.failures + (peers.map (fun p => (p.2.2.map (fun e => (e.2.failed.length : Int))).sum)).sum ∧
    b.samples = a.samples +
      (peers.map (fun p => (p.2.2.map (fun e => (e.2.failed.length : Int) + e.2.successful.length)).sum)).sum ∧
    b.warmups = a.warmups +
      (peers.map (fun p => (p.2.2.map (fun e => (e.2.successful.countP (·.warmup) : Int))).sum)).sum := by
  induction peers generalizing a with
  | nil => simp
  | cons p peers ih =>
    simp only [List.foldl_cons]
    have := ih (addPeer names p.1 a p.2)
    simp only at this
    obtain ⟨h1, h2, h3, h4, h5, h6⟩ := this
    rw [addPeer_eq] at h1 h2 h3 h4 h5 h6
    rw [addPeer_eq]
    refine ⟨?_, h2, h3, ?_, ?_, ?_⟩
    · rw [h1]; simp
    · rw [h4]; simp [Int.add_assoc]
    · rw [h5]; simp [Int.add_assoc]
    · rw [h6]; simp [Int.add_assoc]

theorem collect_peers (r : Result) :
    collect r = (peersOf r).foldl (fun a p => addPeer r.rpcNames p.1 a p.2) {} := by
  unfold collect peersOf
  rw [List.foldl_flatMap]
  congr 1
  funext a e
  simp only [addInstance, List.foldl_map]

theorem collect_latencies (r : Result) : (collect r).latencies = (rpcLogsOf r).foldl latStep [] := by
  rw [collect_peers]
  exact (addPeers r.rpcNames (peersOf r) {}).1

theorem collect_perf (r : Result) : (collect r).perf =
    (peersOf r).foldl (fun m p => update pairLt (p.1, p.2.1) {} (fun _ => recordOf p.2.2) m) [] := by
  rw [collect_peers]
  exact (addPeers r.rpcNames (peersOf r) {}).2.1

theorem collect_time (r : Result) : (collect r).testTime = (peersOf r).foldl (fun t p => peerTime t p.2.2) 0 := by
  rw [collect_peers]
  exact (addPeers r.rpcNames (peersOf r) {}).2.2.1

theorem sum_natCast (l : List Nat) : ((l.sum : Nat) : Int) = (l.map (fun n : Nat => (n : Int))).sum := by
  induction l with
  | nil => rfl
  | cons n l ih => simp [ih]

theorem sum_flat {α : Type} (f : α → Nat) (peers : List (List α)) :
    (((peers.flatMap id).map f).sum : Int) = (peers.map (fun p => (p.map (fun e => (f e : Int))).sum)).sum := by
  induction peers with
  | nil => rfl
  | cons p peers ih =>
    simp only [List.flatMap_cons, id, List.map_append, List.sum_append, List.map_cons, List.sum_cons, Int.natCast_add]
    rw [ih, sum_natCast, List.map_map]
    rfl

theorem sum_logs (r : Result) (f : RpcLog → Nat) :
    (((rpcLogsOf r).map (fun e => f e.2)).sum : Int) =
      ((peersOf r).map (fun p => (p.2.2.map (fun e => (f e.2 : Int))).sum)).sum := by
  have h := sum_flat (fun e : Str × RpcLog => f e.2)
    ((peersOf r).map (fun p => p.2.2.map (fun l => (r.rpcNames.getD l.1 [], l.2))))
  rw [List.flatMap_map] at h
  simp only [id] at h
  unfold rpcLogsOf
  rw [h]
  simp [Function.comp_def]

theorem collect_failures (r : Result) : (collect r).failures = failuresOf r := by
  rw [collect_peers]
  rw [(addPeers r.rpcNames (peersOf r) {}).2.2.2.1]
  unfold failuresOf
  rw [sum_logs r (fun l => l.failed.length)]
  simp

theorem collect_warmups (r : Result) : (collect r).warmups = warmupsOf r := by
  rw [collect_peers]
  rw [(addPeers r.rpcNames (peersOf r) {}).2.2.2.2.2]
  unfold warmupsOf
  rw [sum_logs r (fun l => l.successful.countP (·.warmup))]
  simp

theorem sum_add {α : Type} (f g : α → Int) (l : List α) :
    (l.map (fun x => f x + g x)).sum = (l.map f).sum + (l.map g).sum := by
  induction l with
  | nil => rfl
  | cons x l ih => simp [ih]; omega

theorem collect_samples (r : Result) : (collect r).samples = successes r + failuresOf r := by
  rw [collect_peers]
  rw [(addPeers r.rpcNames (peersOf r) {}).2.2.2.2.1]
  unfold failuresOf successes
  rw [sum_logs r (fun l => l.failed.length), sum_logs r (fun l => l.successful.length)]
  simp only [Int.zero_add, sum_add]
  omega

/-! ### Latencies -/

theorem ascending_latStep {m : List (Str × List Int)} (h : Ascending strLt m) (l : List (Str × RpcLog)) :
    Ascending strLt (l.foldl latStep m) := by
  induction l generalizing m with
  | nil => exact h
  | cons e l ih => exact ih (ascending_update strLt_total h)

theorem find_latStep {m : List (Str × List Int)} (h : Ascending strLt m) (l : List (Str × RpcLog)) (name : Str) :
    find name (l.foldl latStep m) =
      if (∃ e ∈ l, e.1 = name) then
        some ((find name m).getD [] ++
          (l.filter (fun e => e.1 = name)).flatMap (fun e => (measured e.2).map (·.latency)))
      else find name m := by
  induction l generalizing m with
  | nil => simp
  | cons e l ih =>
    rw [List.foldl_cons, ih (m := latStep m e) (ascending_update strLt_total h)]
    simp only [latStep]
    rw [find_update strLt_total h]
    by_cases he : name = e.1
    · subst he
      simp only [if_true, Option.getD_some, List.mem_cons, exists_eq_or_imp, true_or,
        List.filter_cons, decide_true, List.flatMap_cons, List.append_assoc]
      by_cases hx : ∃ a ∈ l, a.1 = e.1
      · simp only [if_pos hx]
      · simp only [if_neg hx]
        have : l.filter (fun x => decide (x.1 = e.1)) = [] := by
          apply List.filter_eq_nil_iff.2
          intro x hxl hd
          exact hx ⟨x, hxl, by simpa using hd⟩
        simp [this]
    · have he' : ¬ e.1 = name := fun h => he h.symm
      simp only [if_neg he, List.mem_cons, exists_eq_or_imp, he', false_or, List.filter_cons, decide_false,
        Bool.false_eq_true, if_false]

/-- What is collected for an RPC. -/
theorem find_latencies (r : Result) (name : Str) :
    find name (collect r).latencies =
      if (∃ e ∈ rpcLogsOf r, e.1 = name) then some (latenciesOf r name) else none := by
  rw [collect_latencies, find_latStep (by simp [Ascending])]
  simp [find, latenciesOf]

theorem ascending_latencies (r : Result) : Ascending strLt (collect r).latencies := by
  rw [collect_latencies]
  exact ascending_latStep (by simp [Ascending]) _

/-! ### Traffic of the pairs -/

theorem ascending_perfFold {m : List ((Str × Str) × Perf)} (h : Ascending pairLt m)
    (l : List (Str × Str × List (Nat × RpcLog))) :
    Ascending pairLt (l.foldl (fun m p => update pairLt (p.1, p.2.1) {} (fun _ => recordOf p.2.2) m) m) := by
  induction l generalizing m with
  | nil => exact h
  | cons e l ih => exact ih (ascending_update pairLt_total h)

theorem ascending_perf (r : Result) : Ascending pairLt (collect r).perf := by
  rw [collect_perf]
  exact ascending_perfFold (by simp [Ascending]) _

theorem find_perfFold {m : List ((Str × Str) × Perf)} (h : Ascending pairLt m)
    (l : List (Str × Str × List (Nat × RpcLog))) (hu : (l.map (fun p => (p.1, p.2.1))).Nodup) (k : Str × Str) :
    find k (l.foldl (fun m p => update pairLt (p.1, p.2.1) {} (fun _ => recordOf p.2.2) m) m) =
      match l.find? (fun p => (p.1, p.2.1) = k) with
      | some p => some (recordOf p.2.2)
      | none => find k m := by
  induction l generalizing m with
  | nil => simp
  | cons e l ih =>
    simp only [List.map_cons, List.nodup_cons] at hu
    rw [List.foldl_cons, ih (ascending_update pairLt_total h) hu.2, find_update pairLt_total h, List.find?_cons]
    by_cases he : (e.1, e.2.1) = k
    · simp only [he, decide_true]
      have : l.find? (fun p => decide ((p.1, p.2.1) = k)) = none := by
        apply List.find?_eq_none.2
        intro x hx hd
        apply hu.1
        rw [he]
        exact List.mem_map.2 ⟨x, hx, by simpa using hd⟩
      rw [this]
      simp
    · have hk : ¬ k = (e.1, e.2.1) := fun h => he h.symm
      simp [he, hk]

theorem nodup_peers {r : Result} (hu : KeyedLogs r) : ((peersOf r).map (fun p => (p.1, p.2.1))).Nodup := by
  obtain ⟨h1, h2⟩ := hu
  unfold peersOf Keyed at *
  generalize r.logs = logs at *
  induction logs with
  | nil => simp
  | cons e logs ih =>
    simp only [List.map_cons, List.nodup_cons] at h1
    simp only [List.flatMap_cons, List.map_append, List.map_map]
    rw [List.nodup_append]
    refine ⟨?_, ?_, ?_⟩
    · have h := h2 e (by simp)
      unfold List.Nodup at h ⊢
      rw [List.pairwise_map] at h ⊢
      refine h.imp ?_
      intro a b hab heq
      simp at heq
      exact hab heq
    · exact ih h1.2 (fun x hx => h2 x (by simp [hx]))
    · intro a ha b hb heq
      subst heq
      apply h1.1
      simp only [List.mem_map, List.mem_flatMap, Function.comp_def] at ha hb ⊢
      obtain ⟨x, hx, rfl⟩ := ha
      obtain ⟨y, ⟨z, hz, w, hw, rfl⟩, hy⟩ := hb
      simp at hy
      exact ⟨z, hz, hy.1⟩

/-- What is filed for a pair. -/
theorem find_perf {r : Result} (hu : KeyedLogs r) (k : Str × Str) :
    find k (collect r).perf =
      match (peersOf r).find? (fun p => (p.1, p.2.1) = k) with
      | some p => some (recordOf p.2.2)
      | none => none := by
  rw [collect_perf, find_perfFold (by simp [Ascending]) _ (nodup_peers hu)]
  simp [find]

/-- The pairs filed are a reordering of the peers' logs. -/
theorem perf_perm {r : Result} (hu : KeyedLogs r) :
    (collect r).perf.Perm ((peersOf r).map (fun p => ((p.1, p.2.1), recordOf p.2.2))) := by
  have hk := nodup_peers hu
  have hk' : ((peersOf r).map (fun p => ((p.1, p.2.1), recordOf p.2.2))).Nodup := by
    unfold List.Nodup at hk ⊢
    rw [List.pairwise_map] at hk ⊢
    refine hk.imp ?_
    intro a b hab heq
    exact hab (Prod.mk.inj heq).1
  have hn : (collect r).perf.Nodup := by
    refine (ascending_perf r).imp ?_
    intro a b hab heq
    subst heq
    rw [pairLt_total.irrefl] at hab
    cases hab
  refine (List.perm_ext_iff_of_nodup hn hk').2 ?_
  rintro ⟨k, v⟩
  constructor
  · intro h
    have := mem_find pairLt_total (ascending_perf r) h
    rw [find_perf hu] at this
    split at this
    · rename_i p hp
      simp at this
      subst this
      have h1 := List.mem_of_find?_eq_some hp
      have h2 := List.find?_some hp
      simp at h2
      exact List.mem_map.2 ⟨p, h1, by simp [h2]⟩
    · cases this
  · intro h
    apply find_mem
    rw [find_perf hu]
    obtain ⟨p, hp, he⟩ := List.mem_map.1 h
    simp at he
    obtain ⟨rfl, rfl⟩ := he
    have : (peersOf r).find? (fun q => decide ((q.1, q.2.1) = (p.1, p.2.1))) = some p := by
      generalize peersOf r = l at *
      induction l with
      | nil => simp at hp
      | cons q l ih =>
        simp only [List.map_cons, List.nodup_cons] at hk hk'
        rw [List.find?_cons]
        by_cases he : (q.1, q.2.1) = (p.1, p.2.1)
        · simp only [he, decide_true]
          rcases List.mem_cons.1 hp with hp | hp
          · rw [hp]
          · exact absurd (by rw [he]; exact List.mem_map.2 ⟨p, hp, rfl⟩) hk.1
        · simp only [he, decide_false]
          rcases List.mem_cons.1 hp with hp | hp
          · exact absurd (by rw [hp]) he
          · exact ih hk.2 hk'.2 hp (List.mem_map.2 ⟨p, hp, rfl⟩)
    rw [this]

/-! ### Time -/

theorem starts_eq (b : Int) (l : List Sample) :
    (starts b l = b ∨ ∃ s ∈ l, starts b l = s.start) ∧ starts b l ≤ b ∧ ∀ s ∈ l, starts b l ≤ s.start := by
  induction l generalizing b with
  | nil => simp [starts]
  | cons s l ih =>
    have h := ih (min s.start b)
    have e : starts b (s :: l) = starts (min s.start b) l := rfl
    rw [e]
    obtain ⟨h1, h2, h3⟩ := h
    refine ⟨?_, ?_, ?_⟩
    · rcases h1 with h1 | ⟨x, hx, h1⟩
      · rw [h1]
        rcases Int.le_total s.start b with hle | hle
        · right; exact ⟨s, by simp, by omega⟩
        · left; omega
      · right; exact ⟨x, by simp [hx], h1⟩
    · omega
    · intro x hx
      rcases List.mem_cons.1 hx with hx | hx
      · subst hx; omega
      · exact h3 x hx

theorem stops_eq (b : Int) (l : List Sample) :
    (stops b l = b ∨ ∃ s ∈ l, stops b l = s.start + s.latency) ∧ b ≤ stops b l ∧
      ∀ s ∈ l, s.start + s.latency ≤ stops b l := by
  induction l generalizing b with
  | nil => simp [stops]
  | cons s l ih =>
    have h := ih (max (s.start + s.latency) b)
    have e : stops b (s :: l) = stops (max (s.start + s.latency) b) l := rfl
    rw [e]
    obtain ⟨h1, h2, h3⟩ := h
    refine ⟨?_, ?_, ?_⟩
    · rcases h1 with h1 | ⟨x, hx, h1⟩
      · rw [h1]
        rcases Int.le_total (s.start + s.latency) b with hle | hle
        · left; omega
        · right; exact ⟨s, by simp, by omega⟩
      · right; exact ⟨x, by simp [hx], h1⟩
    · omega
    · intro x hx
      rcases List.mem_cons.1 hx with hx | hx
      · subst hx; omega
      · exact h3 x hx

theorem peerTime_eq {logs : List (Nat × RpcLog)}
    (hc : ∀ s ∈ measuredOf logs, s.start < 2 ^ 63 - 1 ∧ -2 ^ 63 ≤ s.start + s.latency) (t : Int) :
    (measuredOf logs = [] ∧ peerTime t logs = t) ∨
    ∃ d, SpanOf (measuredOf logs) d ∧ peerTime t logs = max t d := by
  unfold peerTime
  obtain ⟨a1, a2, a3⟩ := starts_eq maxI64 (measuredOf logs)
  obtain ⟨b1, b2, b3⟩ := stops_eq minI64 (measuredOf logs)
  generalize starts maxI64 (measuredOf logs) = a at *
  generalize stops minI64 (measuredOf logs) = b at *
  cases hl : measuredOf logs with
  | nil =>
    left
    rw [hl] at a1
    simp at a1
    rw [if_neg (by simp [a1])]
    exact ⟨rfl, rfl⟩
  | cons x l =>
    rw [← hl]
    have hx : x ∈ measuredOf logs := by simp [hl]
    right
    have ha : a ≠ maxI64 := by
      have := hc x hx
      have := a3 x hx
      unfold maxI64
      omega
    rw [if_pos ha]
    refine ⟨b - a, ?_, rfl⟩
    rcases a1 with a1 | ⟨first, hf, a1⟩
    · exact absurd a1 ha
    · have : ∃ last ∈ measuredOf logs, b = last.start + last.latency := by
        rcases b1 with b1 | b1
        · refine ⟨x, hx, ?_⟩
          have h1 := b3 x hx
          have h2 := (hc x hx).2
          unfold minI64 at b1
          omega
        · exact b1
      obtain ⟨last, hla, hb⟩ := this
      refine ⟨first, hf, last, hla, ?_, ?_, ?_⟩
      · intro s hs; rw [← a1]; exact a3 s hs
      · intro s hs; rw [← hb]; exact b3 s hs
      · omega

/-- The test time is the largest of 0 and the spans of the peers. -/
theorem timeFold {l : List (Str × Str × List (Nat × RpcLog))} (t : Int)
    (hc : ∀ p ∈ l, ∀ s ∈ measuredOf p.2.2, s.start < 2 ^ 63 - 1 ∧ -2 ^ 63 ≤ s.start + s.latency) :
    (l.foldl (fun t p => peerTime t p.2.2) t = t ∨
      ∃ p ∈ l, SpanOf (measuredOf p.2.2) (l.foldl (fun t p => peerTime t p.2.2) t)) ∧
    t ≤ l.foldl (fun t p => peerTime t p.2.2) t ∧
    ∀ p ∈ l, ∀ d, SpanOf (measuredOf p.2.2) d → d ≤ l.foldl (fun t p => peerTime t p.2.2) t := by
  induction l generalizing t with
  | nil => simp
  | cons p l ih =>
    rw [List.foldl_cons]
    obtain ⟨h1, h2, h3⟩ := ih (peerTime t p.2.2) (fun q hq => hc q (by simp [hq]))
    have hspan : ∀ {d d'}, SpanOf (measuredOf p.2.2) d → SpanOf (measuredOf p.2.2) d' → d = d' := by
      rintro d d' ⟨f, hf, e, he, h1, h2, h3⟩ ⟨f', hf', e', he', h1', h2', h3'⟩
      have := h1 f' hf'
      have := h1' f hf
      have := h2 e' he'
      have := h2' e he
      omega
    rcases peerTime_eq (hc p (by simp)) t with ⟨hz, hp⟩ | ⟨d, hd, hp⟩
    · rw [hp] at h1 h2 h3 ⊢
      refine ⟨?_, h2, ?_⟩
      · rcases h1 with h1 | ⟨q, hq, h1⟩
        · exact Or.inl h1
        · exact Or.inr ⟨q, by simp [hq], h1⟩
      · intro q hq d hd
        rcases List.mem_cons.1 hq with hq | hq
        · subst hq
          obtain ⟨f, hf, _⟩ := hd
          rw [hz] at hf
          simp at hf
        · exact h3 q hq d hd
    · rw [hp] at h1 h2 h3 ⊢
      refine ⟨?_, by omega, ?_⟩
      · rcases h1 with h1 | ⟨q, hq, h1⟩
        · rcases Int.le_total d t with hle | hle
          · left; omega
          · right
            refine ⟨p, by simp, ?_⟩
            rw [h1, show max t d = d by omega]
            exact hd
        · exact Or.inr ⟨q, by simp [hq], h1⟩
      · intro q hq d' hd'
        rcases List.mem_cons.1 hq with hq | hq
        · subst hq
          have := hspan hd hd'
          omega
        · exact h3 q hq d' hd'

end Distbench.Summary
