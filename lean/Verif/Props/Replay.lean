import Verif.Lemmas.ReplayProgress

/-! C40, C41, C89-C92: replaying a trace of RPCs. -/

namespace Distbench.Replay
open Spec

variable {e : Env} {p : Plan} {s : State}

/-! ### C40 -/

/-- A record is issued at most once, only by the clients it belongs to, and to the server it
names. -/
theorem C40_at_most_once (hp : setup e = .ok p) (h : Reachable e p s) (i : Nat) :
    timesIssued i s.log ≤ 1 ∧ timesSampled i s.log ≤ timesIssued i s.log ∧
      ∀ t w, Event.issued i t w ∈ s.log → Belongs e i ∧ RightTarget e i w := by
  have hi := inv_reachable hp h
  refine ⟨?_, ?_, ?_⟩
  · have := places_le hi i
    unfold places at this
    omega
  · have := hi.flight i; omega
  · intro t w hm
    obtain ⟨l1, l2, hl⟩ := List.append_of_mem hm
    obtain ⟨hb, hs, -⟩ := hi.log l1 l2 i t w hl
    refine ⟨hb, ?_⟩
    unfold send at hs
    constructor
    · intro c hc
      simp only [hc] at hs
      split at hs
      · simp at hs
      · simp only [Outcome.ok.injEq] at hs
        subst hs
        exact ⟨by omega, by omega, rfl, rfl⟩
    · intro hc
      simp only [hc] at hs
      split at hs
      · simp at hs
      · rename_i hlt
        split at hs
        · simp at hs
        · simp only [Outcome.ok.injEq] at hs
          subst hs
          refine ⟨by omega, by omega, ?_, rfl⟩
          have : ((e.record i).serverInstance.getD 0).toNat < e.pdIds.length := by omega
          simp [List.getElem?_eq_getElem this]

/-- What a record leaves out is taken from the defaults of the trace; distances add up. -/
theorem C40_defaults {i : Nat} {r : Record} (hr : e.records[i]? = some r) :
    Inherits (e.record i).timingNs r.timingNs e.defaults.timingNs ∧
    Inherits (e.record i).timingMode r.timingMode e.defaults.timingMode ∧
    Inherits (e.record i).clientInstance r.clientInstance e.defaults.clientInstance ∧
    Inherits (e.record i).serverInstance r.serverInstance e.defaults.serverInstance ∧
    Inherits (e.record i).channelIndex r.channelIndex e.defaults.channelIndex ∧
    Inherits (e.record i).requestSize r.requestSize e.defaults.requestSize ∧
    Inherits (e.record i).responseSize r.responseSize e.defaults.responseSize ∧
    (e.record i).priorRpcDistances = e.defaults.priorRpcDistances ++ r.priorRpcDistances := by
  have h : ∀ {α : Type} (a b : Option α), Inherits (a.or b) a b := by
    intro α a b
    cases a <;> simp [Inherits]
  simp only [Env.record, hr, Option.getD_some, Record.merge]
  exact ⟨h _ _, h _ _, h _ _, h _ _, h _ _, h _ _, h _ _, trivial⟩

/-- When the run has ended, every record of this client was issued and sampled exactly once, none
of the others was, and nothing is in flight. -/
theorem C40_done (hp : setup e = .ok p) (h : Reachable e p s) (hd : s.main = .done) :
    (∀ i, Belongs e i → timesIssued i s.log = 1 ∧ timesSampled i s.log = 1) ∧
    (∀ i, ¬ Belongs e i → timesIssued i s.log = 0 ∧ timesSampled i s.log = 0) ∧
    s.running = [] ∧ s.ending = [] := by
  have hi := inv_reachable hp h
  have hb : ∀ i, Belongs e i → timesIssued i s.log = 1 ∧ timesSampled i s.log = 1 := by
    intro i hb
    have h1 := (C40_at_most_once hp h i)
    have h2 : timesSampled i s.log ≠ 0 := by
      intro h0
      have hr := hi.remaining
      rw [hi.done hd] at hr
      have hr : (List.range e.records.length).countP
          (fun i => e.mine i && timesSampled i s.log == 0) = 0 := by omega
      rw [List.countP_eq_zero] at hr
      have := hr i (by simpa using hb.1)
      simp [(belongs_iff.1 hb).2, h0] at this
    omega
  have hn : ∀ i, ¬ Belongs e i → timesIssued i s.log = 0 ∧ timesSampled i s.log = 0 := by
    intro i hb
    have h1 := (C40_at_most_once hp h i)
    have := hi.never i (.inl hb)
    unfold places at this
    omega
  have hz : ∀ i, (s.running.map (·.1)).count i = 0 ∧ (s.ending.map (·.1)).count i = 0 := by
    intro i
    have := hi.flight i
    by_cases hbi : Belongs e i
    · have := hb i hbi; omega
    · have := hn i hbi; omega
  refine ⟨hb, hn, ?_, ?_⟩
  · rcases hr : s.running with _ | ⟨a, l⟩
    · rfl
    · have := (hz a.1).1; rw [hr] at this; simp at this
  · rcases hr : s.ending with _ | ⟨a, l⟩
    · rfl
    · have := (hz a.1).2; rw [hr] at this; simp at this

/-- A sample tells when its RPC was issued, relative to the start of the trace, and how long it
took. -/
theorem C40_samples (hp : setup e = .ok p) (h : Reachable e p s) {i : Nat} {a b : Int}
    (hm : Event.sampled i a b ∈ s.log) :
    (∃ w, Event.issued i (e.traceStart + a) w ∈ s.log) ∧
      Event.ended i (e.traceStart + a + b) ∈ s.log := by
  obtain ⟨st, et, w, h1, h2, rfl, rfl⟩ := (inv_reachable hp h).sampled i a b hm
  have e1 : e.traceStart + (st - e.traceStart) = st := by omega
  have e2 : st + (et - st) = et := by omega
  rw [e1, e2]
  exact ⟨⟨w, h1⟩, h2⟩

/-- The run starts unless a distance is out of range, which ends the program. -/
theorem C40_starts (e : Env) : (∃ p, setup e = .ok p) ↔ GoodDistances e := setup_iff e

/-- A run comes to its end from wherever it is, if the records that refer to others are timed
relative to them and all name a server. -/
theorem C40_ends (hp : setup e = .ok p) (hm : GoodModes e) (hs : GoodServers e)
    (h : Reachable e p s) : ∃ s', Continues e p s s' ∧ s'.main = .done :=
  continues_done hp hm hs _ s (Nat.le_refl _) h

/-- And it cannot go on for ever: apart from the passing of time, the number of steps is bounded. -/
theorem C40_bounded (hp : setup e = .ok p) {n : Nat} (h : Moves e p n s) :
    n ≤ 8 * e.records.length + 3 := by
  have := (moves_measure hp h).2
  have hle : (List.range e.records.length).countP e.mine ≤ (List.range e.records.length).length :=
    List.countP_le_length
  rw [List.length_range] at hle
  omega

theorem C40_moves (hp : setup e = .ok p) : Reachable e p s ↔ ∃ n, Moves e p n s := by
  constructor
  · intro h
    induction h with
    | start now => exact ⟨0, .start now⟩
    | @step s s' hr hs ih =>
      obtain ⟨n, hn⟩ := ih
      by_cases hx : ∃ t, s.now ≤ t ∧ s' = { s with now := t }
      · obtain ⟨t, ht, rfl⟩ := hx
        exact ⟨n, .wait t hn ht⟩
      · refine ⟨n + 1, .move hn hs ?_⟩
        rcases step_measure (inv_reachable hp hr) hs with ⟨t, ht, hq⟩ | hlt
        · exact absurd ⟨t, ht, hq⟩ hx
        · intro t hq
          subst hq
          exact absurd hlt (Nat.lt_irrefl _)
  · rintro ⟨n, h⟩
    exact (moves_measure hp h).1

/-! ### C41 -/

/-- Relative to the start of prior RPCs: each of them was issued before, and the delay has
passed since. -/
theorem C41_after_starts (hp : setup e = .ok p) (h : Reachable e p s) {l1 l2 : List Event}
    {i j : Nat} {t : Int} {w : Sent} (hl : s.log = l1 ++ .issued i t w :: l2)
    (hm : e.mode i = .priorStart) (hr : RefersTo e i j) :
    ∃ tj wj, Event.issued j tj wj ∈ l1 ∧ tj + e.timing i ≤ t := by
  obtain ⟨hb, -, t0, ht0, hok⟩ := (inv_reachable hp h).log l1 l2 i t w hl
  have hg := (setup_iff e).1 ⟨p, hp⟩
  obtain ⟨tj, wj, h1, h2⟩ := hok.start hm j ((mem_depsOf hg hb).2 hr)
  exact ⟨tj, wj, h1, by omega⟩

/-- Relative to the end of prior RPCs: each of them has ended before, and the delay has passed since
the end of one of them. -/
theorem C41_after_ends (hp : setup e = .ok p) (h : Reachable e p s) {l1 l2 : List Event}
    {i j : Nat} {t : Int} {w : Sent} (hl : s.log = l1 ++ .issued i t w :: l2)
    (hm : e.mode i = .priorEnd) (hr : RefersTo e i j) :
    (∃ ej, Event.ended j ej ∈ l1) ∧
    ∃ k ek, RefersTo e i k ∧ Event.ended k ek ∈ l1 ∧ ek + e.timing i ≤ t := by
  obtain ⟨hb, -, t0, ht0, hok⟩ := (inv_reachable hp h).log l1 l2 i t w hl
  have hg := (setup_iff e).1 ⟨p, hp⟩
  obtain ⟨s0, hr0, hl0⟩ := prefix_reachable h l1 _ hl
  have hj := (mem_depsOf hg hb).2 hr
  obtain ⟨m1, m2, k, a, b, hL, hk, ht, hall⟩ := hok.ends hm (fun h => by rw [h] at hj; simp at hj)
  constructor
  · rcases hall j hj with rfl | hne
    · have := C40_samples hp hr0 (i := j) (a := a) (b := b) (by rw [hl0, hL]; simp)
      rw [hl0] at this
      exact ⟨_, this.2⟩
    · obtain ⟨a', b', hm'⟩ := mem_of_timesSampled hne
      have := C40_samples hp hr0 (i := j) (a := a') (b := b')
        (by rw [hl0, hL]; exact List.mem_append_left _ hm')
      rw [hl0] at this
      exact ⟨_, this.2⟩
  · have := C40_samples hp hr0 (i := k) (a := a) (b := b) (by rw [hl0, hL]; simp)
    rw [hl0] at this
    exact ⟨k, _, (mem_depsOf hg hb).1 hk, this.2, by omega⟩

/-- A record that refers to none is not issued before its time, counted from the start of the trace
or of traffic. -/
theorem C41_absolute (hp : setup e = .ok p) (h : Reachable e p s) {l1 l2 : List Event}
    {i : Nat} {t : Int} {w : Sent} (hl : s.log = l1 ++ .issued i t w :: l2)
    (hr : ∀ j, ¬ RefersTo e i j) :
    (e.mode i = .traceStart → e.traceStart + e.timing i ≤ t) ∧
    (e.mode i ≠ .traceStart → e.trafficStart + e.timing i ≤ t) := by
  obtain ⟨hb, -, t0, ht0, hok⟩ := (inv_reachable hp h).log l1 l2 i t w hl
  have hg := (setup_iff e).1 ⟨p, hp⟩
  have hd : depsOf e i = [] := by
    rcases hx : depsOf e i with _ | ⟨a, l⟩
    · rfl
    · exact absurd ((mem_depsOf hg hb).1 (by rw [hx]; simp)) (hr a)
  have := hok.none hd
  unfold base at this
  constructor
  · intro hm; rw [if_pos hm] at this; omega
  · intro hm; rw [if_neg hm] at this; omega

/-! ### C89: the delay counts from the latest end -/

/-- If the callbacks took the lock in the order of the ends, the delay counts from the end of each
RPC referred to.  Not so in general: see `C89_latest_false`. -/
theorem C89_latest_partial (hp : setup e = .ok p) (h : Reachable e p s) {l1 l2 : List Event}
    {i j : Nat} {t : Int} {w : Sent} (hl : s.log = l1 ++ .issued i t w :: l2)
    (ho : InOrder l1) (hm : e.mode i = .priorEnd) (hr : RefersTo e i j) :
    ∃ ej, Event.ended j ej ∈ l1 ∧ ej + e.timing i ≤ t := by
  obtain ⟨hb, -, t0, ht0, hok⟩ := (inv_reachable hp h).log l1 l2 i t w hl
  have hg := (setup_iff e).1 ⟨p, hp⟩
  obtain ⟨s0, hr0, hl0⟩ := prefix_reachable h l1 _ hl
  have hj := (mem_depsOf hg hb).2 hr
  obtain ⟨m1, m2, k, a, b, hL, hk, ht, hall⟩ := hok.ends hm (fun h => by rw [h] at hj; simp at hj)
  rcases hall j hj with rfl | hne
  · have := C40_samples hp hr0 (i := j) (a := a) (b := b) (by rw [hl0, hL]; simp)
    rw [hl0] at this
    exact ⟨_, this.2, by omega⟩
  · obtain ⟨a', b', hm'⟩ := mem_of_timesSampled hne
    obtain ⟨n1, n2, hn⟩ := List.append_of_mem hm'
    have := C40_samples hp hr0 (i := j) (a := a') (b := b')
      (by rw [hl0, hL]; exact List.mem_append_left _ hm')
    rw [hl0] at this
    have hle := ho n1 n2 m2 j k a' b' a b (by rw [hL, hn])
    exact ⟨_, this.2, by omega⟩

/-! ### C90: every accepted trace is replayed to its end -/

/-- A record that refers to another and has an absolute timing mode is never issued, and the run
never ends. -/
theorem C90_stuck (hp : setup e = .ok p) {i j : Nat} (hr : RefersTo e i j)
    (hm : e.mode i ≠ .priorStart ∧ e.mode i ≠ .priorEnd) (h : Reachable e p s) :
    timesIssued i s.log = 0 ∧ s.main ≠ .done := by
  have hg := (setup_iff e).1 ⟨p, hp⟩
  have h0 : timesIssued i s.log = 0 := by
    by_cases h0 : timesIssued i s.log = 0
    · exact h0
    · exfalso
      obtain ⟨t, w, hmem⟩ := mem_of_timesIssued h0
      obtain ⟨l1, l2, hl⟩ := List.append_of_mem hmem
      obtain ⟨hb, -, t0, ht0, hok⟩ := (inv_reachable hp h).log l1 l2 i t w hl
      have hj := (mem_depsOf hg hb).2 hr
      rcases hok.mode (fun h => by rw [h] at hj; simp at hj) with h | h
      · exact hm.1 h
      · exact hm.2 h
  refine ⟨h0, ?_⟩
  intro hd
  have := ((C40_done hp h hd).1 i hr.1).1
  omega

/-- When a run ends for every continuation: exactly when no record is stuck this way and, from the
start, each RPC has a server. -/
theorem C90_ends_partial (hp : setup e = .ok p) (hs : GoodServers e) (now : Int) :
    (∃ s', Continues e p (start p now) s' ∧ s'.main = .done) ↔ GoodModes e := by
  constructor
  · rintro ⟨s', hc, hd⟩ i j hr
    have hreach : Reachable e p s' := by
      clear hd
      induction hc with
      | refl => exact .start now
      | step _ hx ih => exact .step ih hx
    by_cases h1 : e.mode i = .priorStart
    · exact .inl h1
    · by_cases h2 : e.mode i = .priorEnd
      · exact .inr h2
      · exact absurd hd (C90_stuck hp hr ⟨h1, h2⟩ hreach).2
  · intro hm
    exact C40_ends hp hm hs (.start now)

/-! ### C91: without distances the preceding RPC counts -/

/-- A record that refers to none is in the queue from the start, whatever its timing mode: one that
is relative to the prior RPC and lists no distance does not wait for it. -/
theorem C91_no_distances (hp : setup e = .ok p) {i : Nat} (hb : Belongs e i)
    (hr : ∀ j, ¬ RefersTo e i j) (now : Int) :
    (start p now).deps i = 0 ∧ ((start p now).ready.map (·.2)).count i = 1 := by
  have hi := inv_start hp now
  have hg := (setup_iff e).1 ⟨p, hp⟩
  have hd : depsOf e i = [] := by
    rcases hx : depsOf e i with _ | ⟨a, l⟩
    · rfl
    · exact absurd ((mem_depsOf hg hb).1 (by rw [hx]; simp)) (hr a)
  have h0 : (start p now).deps i = 0 := by
    rw [hi.deps i hb, hd]; rfl
  refine ⟨h0, ?_⟩
  have := hi.once i hb h0
  simpa [places, popCount, timesIssued, Replay.start] using this

/-- With an explicit distance 0 the record does wait for the preceding one. -/
theorem C91_explicit_partial (hp : setup e = .ok p) (h : Reachable e p s) {l1 l2 : List Event}
    {i : Nat} {t : Int} {w : Sent} (hl : s.log = l1 ++ .issued (i + 1) t w :: l2)
    (hd : 0 ∈ (e.record (i + 1)).priorRpcDistances) (hb : Belongs e i) :
    (e.mode (i + 1) = .priorStart → ∃ tj wj, Event.issued i tj wj ∈ l1 ∧ tj + e.timing (i + 1) ≤ t) ∧
    (e.mode (i + 1) = .priorEnd → ∃ ej, Event.ended i ej ∈ l1) := by
  obtain ⟨hb', -, -⟩ := (inv_reachable hp h).log l1 l2 (i + 1) t w hl
  have hr : RefersTo e (i + 1) i := ⟨hb', hb, 0, hd, by omega⟩
  exact ⟨fun hm => C41_after_starts hp h hl hm hr, fun hm => (C41_after_ends hp h hl hm hr).1⟩

/-! ### C92: a replayed RPC has the recorded sizes -/

/-- An RPC to a server instance has the sizes of its record. -/
theorem C92_sizes_partial (hp : setup e = .ok p) (h : Reachable e p s) {i : Nat} {t : Int}
    {w : Sent} (hm : Event.issued i t w ∈ s.log) (hc : (e.record i).channelIndex = none) :
    RightSizes e i w := by
  obtain ⟨l1, l2, hl⟩ := List.append_of_mem hm
  obtain ⟨-, hs, -⟩ := (inv_reachable hp h).log l1 l2 i t w hl
  unfold send at hs
  simp only [hc] at hs
  split at hs
  · simp at hs
  · split at hs
    · simp at hs
    · simp only [Outcome.ok.injEq] at hs
      subst hs
      exact ⟨rfl, rfl⟩

/-- One over a multi-server channel never has. -/
theorem C92_channel (hp : setup e = .ok p) (h : Reachable e p s) {i : Nat} {t : Int}
    {w : Sent} (hm : Event.issued i t w ∈ s.log) (hc : (e.record i).channelIndex ≠ none) :
    w.requestSize = none ∧ w.responseSize = none := by
  obtain ⟨l1, l2, hl⟩ := List.append_of_mem hm
  obtain ⟨-, hs, -⟩ := (inv_reachable hp h).log l1 l2 i t w hl
  unfold send at hs
  rcases hx : (e.record i).channelIndex with _ | c
  · exact absurd hx hc
  · simp only [hx] at hs
    split at hs
    · simp at hs
    · simp only [Outcome.ok.injEq] at hs
      subst hs
      exact ⟨rfl, rfl⟩

/-! ### a concrete trace

Three RPCs to two servers; the last waits 3 ns after the end of the first two. -/

def demo : Env :=
  { defaults := { requestSize := some 100, responseSize := some 7 }
    records := [{ timingMode := some .traceStart }, { serverInstance := some 1 },
      { timingMode := some .priorEnd, timingNs := some 3, priorRpcDistances := [0, 1] }]
    localInstance := 0, trafficStart := 0, traceStart := 0, pdIds := [4, 5], channels := [] }

def demoPlan : Plan := match setup demo with | .ok p => p | _ => .empty

example : demo.records[1]? = some { serverInstance := some 1 } ∧
    (demo.record 1).requestSize = some 100 ∧ (demo.record 1).serverInstance = some 1 := by decide

theorem demo_setup : setup demo = .ok demoPlan := by rfl

/-- What happens before the third RPC is issued, when the callbacks take the lock out of order. -/
def demoBefore : List Event :=
  [.issued 0 0 ⟨some 4, none, some 100, some 7⟩, .told 0,
   .issued 1 0 ⟨some 5, none, some 100, some 7⟩, .told 1,
   .ended 1 5, .ended 0 10, .sampled 0 0 10, .sampled 1 0 5]

/-- The first two RPCs are issued; the second ends at 5, the first at 10; the callback of the first
gets the lock first; then the third is issued, at once. -/
theorem demo_race : ∃ s, Reachable demo demoPlan s ∧ s.log =
    demoBefore ++ [.issued 2 10 ⟨some 4, none, some 100, some 7⟩] := by
  have h0 : Reachable demo demoPlan _ := .start 0
  have h1 := h0.step (.pop (l1 := []) (t := 0) (i := 0) rfl (by decide) rfl rfl (by decide) (by decide))
  have h2 := h1.step (.send rfl rfl)
  have h3 := h2.step (.told rfl)
  have h4 := h3.step (.pop (l1 := []) (t := 0) (i := 1) rfl (by decide) rfl rfl (by decide) (by decide))
  have h5 := h4.step (.send rfl rfl)
  have h6 := h5.step (.told rfl)
  have h7 := h6.step (.tick 5 (by decide))
  have h8 := h7.step (.finish (l1 := [(0, 0)]) (i := 1) rfl)
  have h9 := h8.step (.tick 10 (by decide))
  have h10 := h9.step (.finish (l1 := []) (i := 0) rfl)
  have h11 := h10.step (.sample (l1 := [(1, 0, 5)]) (i := 0) rfl)
  have h12 := h11.step (.sample (l1 := []) (i := 1) rfl)
  have h13 := h12.step (.awake rfl (by decide) rfl)
  have h14 := h13.step (.pop (l1 := []) (t := 8) (i := 2) rfl (by decide) rfl rfl (by decide) (by decide))
  have h15 := h14.step (.send rfl rfl)
  exact ⟨_, h15, rfl⟩

theorem demo_refers : RefersTo demo 2 0 ∧ RefersTo demo 2 1 := by
  have hb : ∀ i, i < 3 → Belongs demo i := by
    intro i hi
    refine belongs_iff.2 ⟨hi, ?_⟩
    have : ∀ i, i < 3 → demo.mine i = true := by decide
    exact this i hi
  exact ⟨⟨hb 2 (by omega), hb 0 (by omega), 1, by decide, by decide⟩,
    ⟨hb 2 (by omega), hb 1 (by omega), 0, by decide, by decide⟩⟩

theorem demo_good : GoodDistances demo ∧ GoodModes demo ∧ GoodServers demo := by
  refine ⟨(setup_iff demo).1 ⟨_, demo_setup⟩, ?_, ?_⟩
  · rintro i j ⟨⟨hi, -⟩, -, d, hd, -⟩
    have hi : i < 3 := hi
    match i, hi with
    | 0, _ => simp [demo, Env.record, Record.merge] at hd
    | 1, _ => simp [demo, Env.record, Record.merge] at hd
    | 2, _ => exact .inr rfl
  · rintro i ⟨hi, -⟩
    have hi : i < 3 := hi
    match i, hi with
    | 0, _ => exact ⟨nofun, fun _ => ⟨by decide, _, rfl, by decide⟩⟩
    | 1, _ => exact ⟨nofun, fun _ => ⟨by decide, _, rfl, by decide⟩⟩
    | 2, _ => exact ⟨nofun, fun _ => ⟨by decide, _, rfl, by decide⟩⟩

example : ∃ s', Continues demo demoPlan (start demoPlan 0) s' ∧ s'.main = .done :=
  C40_ends demo_setup demo_good.2.1 demo_good.2.2 (.start 0)

example : ∃ s, Reachable demo demoPlan s ∧ s.main = .done ∧ timesSampled 2 s.log = 1 := by
  obtain ⟨s, hc, hd⟩ := C40_ends demo_setup demo_good.2.1 demo_good.2.2 (.start (0 : Int))
  have hr : Reachable demo demoPlan s := by
    clear hd
    induction hc with
    | refl => exact .start 0
    | step _ hx ih => exact .step ih hx
  exact ⟨s, hr, hd, ((C40_done demo_setup hr hd).1 2 demo_refers.1.1).2⟩

/-- C41 applied to the third RPC of the demonstration. -/
example : ∃ s l1 t w, Reachable demo demoPlan s ∧ s.log = l1 ++ [.issued 2 t w] ∧
    demo.mode 2 = .priorEnd ∧ RefersTo demo 2 0 ∧ Event.ended 0 10 ∈ l1 := by
  obtain ⟨s, hr, hl⟩ := demo_race
  exact ⟨s, demoBefore, 10, _, hr, hl, rfl, demo_refers.1, by decide⟩

/-- The delay does not always count from the latest end: the third RPC is to wait for 3 ns after
the end of the first, at 10, and is issued at 10. -/
theorem C89_latest_false : ¬ ∀ (e : Env) (p : Plan) (s : State), setup e = .ok p →
    Reachable e p s → ∀ l1 l2 i j t w, s.log = l1 ++ .issued i t w :: l2 → e.mode i = .priorEnd →
      RefersTo e i j → ∃ ej, Event.ended j ej ∈ l1 ∧ ej + e.timing i ≤ t := by
  intro h
  obtain ⟨s, hr, hl⟩ := demo_race
  obtain ⟨ej, hm, hle⟩ := h demo demoPlan s demo_setup hr
    demoBefore [] 2 0 10 _ hl rfl demo_refers.1
  have hej : ej = 10 := by
    simp [demoBefore] at hm
    exact hm
  subst hej
  exact absurd hle (by decide)

/-! A trace whose second record gives a distance and a time relative to the start of traffic. -/

def demoStuck : Env :=
  { demo with records := [{}, { timingMode := some .trafficStart, priorRpcDistances := [0] }] }

def demoStuckPlan : Plan := match setup demoStuck with | .ok p => p | _ => .empty

theorem C90_ends_false : ¬ ∀ (e : Env) (p : Plan), setup e = .ok p → GoodServers e →
    ∀ now, ∃ s', Continues e p (start p now) s' ∧ s'.main = .done := by
  intro h
  have hp : setup demoStuck = .ok demoStuckPlan := rfl
  have hs : GoodServers demoStuck := by
    rintro i ⟨hi, -⟩
    have hi : i < 2 := hi
    match i, hi with
    | 0, _ => exact ⟨nofun, fun _ => ⟨by decide, _, rfl, by decide⟩⟩
    | 1, _ => exact ⟨nofun, fun _ => ⟨by decide, _, rfl, by decide⟩⟩
  have hm := (C90_ends_partial hp hs 0).1 (h _ _ hp hs 0)
  have hb : ∀ i, i < 2 → Belongs demoStuck i := by
    intro i hi
    refine belongs_iff.2 ⟨hi, ?_⟩
    have : ∀ i, i < 2 → demoStuck.mine i = true := by decide
    exact this i hi
  have hr : RefersTo demoStuck 1 0 := ⟨hb 1 (by omega), hb 0 (by omega), 0, by decide, by decide⟩
  rcases hm 1 0 hr with h | h
  · exact absurd h (by decide)
  · exact absurd h (by decide)

/-! A trace whose second record is relative to the end of the prior RPC and gives no distance. -/

def demoNext : Env :=
  { demo with records := [{}, { timingMode := some .priorEnd }] }

def demoNextPlan : Plan := match setup demoNext with | .ok p => p | _ => .empty

/-- Such a record may be issued while the preceding RPC is in flight. -/
theorem C91_preceding_false : ¬ ∀ (e : Env) (p : Plan) (s : State), setup e = .ok p →
    Reachable e p s → ∀ l1 l2 i t w, s.log = l1 ++ .issued (i + 1) t w :: l2 →
      e.mode (i + 1) = .priorEnd → (e.record (i + 1)).priorRpcDistances = [] → Belongs e i →
      ∃ ej, Event.ended i ej ∈ l1 := by
  intro h
  have hp : setup demoNext = .ok demoNextPlan := rfl
  have h0 : Reachable demoNext demoNextPlan _ := .start 0
  have h1 := h0.step (.pop (l1 := []) (t := 0) (i := 0) rfl (by decide) rfl rfl (by decide) (by decide))
  have h2 := h1.step (.send rfl rfl)
  have h3 := h2.step (.told rfl)
  have h4 := h3.step (.pop (l1 := []) (t := 0) (i := 1) rfl (by decide) rfl rfl (by decide) (by decide))
  have h5 := h4.step (.send rfl rfl)
  obtain ⟨ej, hm⟩ := h _ _ _ hp h5
    [.issued 0 0 ⟨some 4, none, some 100, some 7⟩, .told 0] [] 0 0
    ⟨some 4, none, some 100, some 7⟩ rfl rfl rfl (belongs_iff.2 ⟨by decide, by decide⟩)
  simp at hm

/-! A trace with one RPC over a multi-server channel. -/

def demoChannel : Env :=
  { demo with records := [{ channelIndex := some 0 }], channels := [2] }

def demoChannelPlan : Plan := match setup demoChannel with | .ok p => p | _ => .empty

theorem C92_sizes_false : ¬ ∀ (e : Env) (p : Plan) (s : State), setup e = .ok p →
    Reachable e p s → ∀ i t w, Event.issued i t w ∈ s.log → RightSizes e i w := by
  intro h
  have hp : setup demoChannel = .ok demoChannelPlan := rfl
  have h0 : Reachable demoChannel demoChannelPlan _ := .start 0
  have h1 := h0.step (.pop (l1 := []) (t := 0) (i := 0) rfl (by decide) rfl rfl (by decide) (by decide))
  have h2 := h1.step (.send rfl rfl)
  have := h _ _ _ hp h2 0 0 ⟨none, some 2, none, none⟩ (List.mem_singleton.2 rfl)
  simp [RightSizes] at this

/-! The theorems above for these traces. -/

theorem demo_belongs : ∀ i, i < 3 → Belongs demo i := by
  intro i hi
  refine belongs_iff.2 ⟨hi, ?_⟩
  have : ∀ i, i < 3 → demo.mine i = true := by decide
  exact this i hi

example : ∃ s, Reachable demo demoPlan s ∧ timesIssued 2 s.log = 1 ∧ timesSampled 0 s.log = 1 ∧
    ∀ i, timesIssued i s.log ≤ 1 := by
  obtain ⟨s, hr, hl⟩ := demo_race
  exact ⟨s, hr, by rw [hl]; decide, by rw [hl]; decide, fun i => (C40_at_most_once demo_setup hr i).1⟩
example := C40_defaults (e := demo) (i := 1) rfl
example : ∃ s w, Reachable demo demoPlan s ∧ Event.sampled 0 0 10 ∈ s.log ∧ Event.issued 0 (0 + 0) w ∈ s.log := by
  obtain ⟨s, hr, hl⟩ := demo_race
  have hm : Event.sampled 0 0 10 ∈ s.log := by rw [hl]; decide
  obtain ⟨⟨w, hw⟩, _⟩ := C40_samples demo_setup hr hm
  exact ⟨s, w, hr, hm, hw⟩
example : ∃ p, setup demo = .ok p := (C40_starts demo).2 demo_good.1
example : ∃ s n, Moves demo demoPlan n s ∧ n ≤ 8 * 3 + 3 ∧ timesIssued 2 s.log = 1 := by
  obtain ⟨s, hr, hl⟩ := demo_race
  obtain ⟨n, hn⟩ := (C40_moves demo_setup).1 hr
  exact ⟨s, n, hn, C40_bounded demo_setup hn, by rw [hl]; decide⟩
/-- The third RPC waits for the first two (C41, C91); the first has a time of its own. -/
example : ∃ s, Reachable demo demoPlan s ∧ (∃ ej, Event.ended 1 ej ∈ demoBefore) ∧ s.log ≠ [] := by
  obtain ⟨s, hr, hl⟩ := demo_race
  exact ⟨s, hr, (C41_after_ends demo_setup hr hl rfl demo_refers.2).1, by rw [hl]; simp⟩
example : ∃ ej, Event.ended 1 ej ∈ demoBefore := by
  obtain ⟨s, hr, hl⟩ := demo_race
  exact (C91_explicit_partial (i := 1) demo_setup hr hl (by decide) (demo_belongs 1 (by decide))).2 rfl
example : ∃ s, Reachable demo demoPlan s ∧ (0 : Int) + demo.timing 0 ≤ 0 := by
  obtain ⟨s, hr, hl⟩ := demo_race
  refine ⟨s, hr, (C41_absolute demo_setup hr (l1 := []) (i := 0) (t := 0) (hl.trans rfl) ?_).1 rfl⟩
  rintro j ⟨-, -, d, hd, -⟩
  simp [demo, Env.record, Record.merge] at hd
example : (start demoPlan 0).deps 1 = 0 := by
  refine (C91_no_distances demo_setup (demo_belongs 1 (by decide)) ?_ 0).1
  rintro j ⟨-, -, d, hd, -⟩
  simp [demo, Env.record, Record.merge] at hd
example : ∃ s', Continues demo demoPlan (start demoPlan 0) s' ∧ s'.main = .done :=
  (C90_ends_partial demo_setup demo_good.2.2 0).2 demo_good.2.1
/-- The record of `demoStuck` that is never issued. -/
example (s : State) (h : Reachable demoStuck demoStuckPlan s) : timesIssued 1 s.log = 0 := by
  have hb : ∀ i, i < 2 → Belongs demoStuck i := by
    intro i hi
    refine belongs_iff.2 ⟨hi, ?_⟩
    have : ∀ i, i < 2 → demoStuck.mine i = true := by decide
    exact this i hi
  exact (C90_stuck (i := 1) (j := 0) rfl ⟨hb 1 (by omega), hb 0 (by omega), 0, by decide, by decide⟩
    ⟨by decide, by decide⟩ h).1

/-! A trace whose second RPC is relative to the start of the first, and whose third to the end of the
second, with the callbacks in order. -/

def demoOrder : Env :=
  { demo with records := [{}, { timingMode := some .priorStart, timingNs := some 2, priorRpcDistances := [0] },
      { timingMode := some .priorEnd, timingNs := some 1, priorRpcDistances := [0] }] }

def demoOrderPlan : Plan := match setup demoOrder with | .ok p => p | _ => .empty

def demoOrderBefore : List Event :=
  [.issued 0 0 ⟨some 4, none, some 100, some 7⟩, .told 0,
   .issued 1 2 ⟨some 4, none, some 100, some 7⟩, .told 1, .ended 1 5, .sampled 1 2 3]

theorem demoOrder_run : ∃ s, Reachable demoOrder demoOrderPlan s ∧ s.log =
    demoOrderBefore ++ [.issued 2 6 ⟨some 4, none, some 100, some 7⟩] := by
  have h0 : Reachable demoOrder demoOrderPlan _ := .start 0
  have h1 := h0.step (.pop (l1 := []) (t := 0) (i := 0) rfl (by decide) rfl rfl (by decide) (by decide))
  have h2 := h1.step (.send rfl rfl)
  have h3 := h2.step (.told rfl)
  have h4 := h3.step (.tick 2 (by decide))
  have h5 := h4.step (.pop (l1 := []) (t := 2) (i := 1) rfl (by decide) rfl rfl (by decide) (by decide))
  have h6 := h5.step (.send rfl rfl)
  have h7 := h6.step (.told rfl)
  have h8 := h7.step (.tick 5 (by decide))
  have h9 := h8.step (.finish (l1 := [(0, 0)]) (i := 1) rfl)
  have h10 := h9.step (.sample (l1 := []) (i := 1) rfl)
  have h11 := h10.step (.tick 6 (by decide))
  have h12 := h11.step (.awake rfl (by decide) rfl)
  have h13 := h12.step (.pop (l1 := []) (t := 6) (i := 2) rfl (by decide) rfl rfl (by decide) (by decide))
  have h14 := h13.step (.send rfl rfl)
  exact ⟨_, h14, rfl⟩

theorem demoOrder_belongs : ∀ i, i < 3 → Belongs demoOrder i := by
  intro i hi
  refine belongs_iff.2 ⟨hi, ?_⟩
  have : ∀ i, i < 3 → demoOrder.mine i = true := by decide
  exact this i hi

example : ∃ tj wj, Event.issued 0 tj wj ∈ [Event.issued 0 0 ⟨some 4, none, some 100, some 7⟩, .told 0] ∧ tj + 2 ≤ 2 := by
  obtain ⟨s, hr, hl⟩ := demoOrder_run
  exact C41_after_starts (i := 1) (j := 0) rfl hr (l1 := [.issued 0 0 ⟨some 4, none, some 100, some 7⟩, .told 0])
    (hl.trans rfl) rfl ⟨demoOrder_belongs 1 (by decide), demoOrder_belongs 0 (by decide), 0, by decide, by decide⟩
example : ∃ ej, Event.ended 1 ej ∈ demoOrderBefore ∧ ej + 1 ≤ 6 := by
  have ho : InOrder demoOrderBefore := by
    intro l1 l2 l3 i j si li sj lj h
    have hc := congrArg (List.countP (fun | Event.sampled .. => true | _ => false)) h
    have h1 : demoOrderBefore.countP (fun | Event.sampled .. => true | _ => false) = 1 := by decide
    rw [h1] at hc
    simp only [List.countP_append, List.countP_cons, ↓reduceIte] at hc
    omega
  obtain ⟨s, hr, hl⟩ := demoOrder_run
  exact C89_latest_partial (i := 2) (j := 1) rfl hr hl ho rfl
    ⟨demoOrder_belongs 2 (by decide), demoOrder_belongs 1 (by decide), 0, by decide, by decide⟩

end Distbench.Replay
