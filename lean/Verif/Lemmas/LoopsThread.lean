import Verif.Lemmas.ActionListTables

/-! The thread of a list whose started actions are all over can always go on. -/

namespace Distbench.ActionList
open Tables

inductive MainSteps (c : Ctx) : State → State → Prop where
  | refl {m} : MainSteps c m m
  | head {m m1 m'} : MainStep c m m1 → MainSteps c m1 m' → MainSteps c m m'

theorem MainSteps.trans {c : Ctx} {m m1 m' : State} (h : MainSteps c m m1) (h' : MainSteps c m1 m') :
    MainSteps c m m' := by
  induction h with
  | refl => exact h'
  | head h _ ih => exact .head h (ih h')

/-- Every action that the thread starts gets under way. -/
def AllRun (c : Ctx) : Prop :=
  ∀ (i : Nat) a, c.entry.listActions[i]? = some a → ∃ o, initiate c.rpcTable c.hasPeers a = .runs o

/-- An action was started or skipped, or the list ended. -/
def Moved (m m' : State) : Prop :=
  m'.phase = .done ∨ ∃ i, (m.acts i).started = false ∧ (m'.acts i).started = true

/-- What visits leave alone. -/
structure Keep (m m' : State) : Prop where
  started : ∀ i, (m'.acts i).started = (m.acts i).started
  finished : ∀ i, (m'.acts i).finished = (m.acts i).finished
  closed : ∀ i, (m'.acts i).closed = (m.acts i).closed
  waiting : ∀ i, (m.acts i).waiting = true → (m'.acts i).waiting = true ∧ (m'.acts i).wakeAt = (m.acts i).wakeAt
  now : m'.now = m.now
  pending : m'.pending = m.pending
  list : m'.finishedList = m.finishedList
  canceled : m'.canceled = m.canceled

theorem Keep.refl (m : State) : Keep m m :=
  ⟨fun _ => rfl, fun _ => rfl, fun _ => rfl, fun _ h => ⟨h, rfl⟩, rfl, rfl, rfl, rfl⟩

theorem Keep.trans {m m1 m' : State} (h : Keep m m1) (h' : Keep m1 m') : Keep m m' := by
  refine ⟨fun i => (h'.started i).trans (h.started i), fun i => (h'.finished i).trans (h.finished i),
    fun i => (h'.closed i).trans (h.closed i), ?_, h'.now.trans h.now, h'.pending.trans h.pending,
    h'.list.trans h.list, h'.canceled.trans h.canceled⟩
  intro i hi
  obtain ⟨h1, h2⟩ := h.waiting i hi
  obtain ⟨h3, h4⟩ := h'.waiting i h1
  exact ⟨h3, h4.trans h2⟩

theorem start_moves {c : Ctx} {a : ActionEntry} {i : Nat} {m : State} {o : Int}
    (ho : initiate c.rpcTable c.hasPeers a = .runs o) :
    ((start c a i m).acts i).started = true ∧ (start c a i m).phase = m.phase := by
  unfold start
  dsimp only
  split
  · refine ⟨?_, ?_⟩
    · rw [finish_acts, if_pos rfl, callback_acts]
      simp [setAct]
    · rw [finish_phase, callback_phase]
      rfl
  · rw [ho]
    dsimp only
    exact ⟨by simp [setAct], rfl⟩

/-- One visit starts the action, or leaves all but its waiting alone. -/
theorem visit_moves {c : Ctx} {i : Nat} {m : State} (delay : Int) (hr : AllRun c) (hi : i < c.size) :
    (visit c delay i m).phase = m.phase ∧
    (((m.acts i).started = false ∧ ((visit c delay i m).acts i).started = true) ∨
      (Keep m (visit c delay i m) ∧ ((m.acts i).started = false → (∀ d ∈ c.deps i, (m.acts d).finished = true) →
        ((visit c delay i m).acts i).waiting = true ∧ ((m.acts i).waiting = true → m.now < (m.acts i).wakeAt)))) := by
  have hget : c.entry.listActions[i]? = some (c.entry.listActions[i]'hi) := List.getElem?_eq_getElem hi
  obtain ⟨o, ho⟩ := hr i _ hget
  unfold visit
  rw [hget]
  dsimp only
  split
  · rename_i hs
    exact ⟨rfl, .inr ⟨Keep.refl m, fun h => by rw [hs] at h; cases h⟩⟩
  · rename_i hs
    split
    · rename_i hw
      exact ⟨rfl, .inr ⟨Keep.refl m, fun _ _ => ⟨hw.1, fun _ => hw.2⟩⟩⟩
    · rename_i hw
      split
      · rename_i hd
        refine ⟨rfl, .inr ⟨Keep.refl m, fun _ h => ?_⟩⟩
        obtain ⟨d, hd1, hd2⟩ := List.any_eq_true.1 hd
        rw [h d hd1] at hd2
        cases hd2
      · split
        · rename_i hdel
          refine ⟨rfl, .inr ⟨⟨?_, ?_, ?_, ?_, rfl, rfl, rfl, rfl⟩, fun _ _ => ⟨by simp [setAct], fun h => absurd h hdel.1⟩⟩⟩
          · intro j
            by_cases hj : j = i <;> simp [setAct, hj]
          · intro j
            by_cases hj : j = i <;> simp [setAct, hj]
          · intro j
            by_cases hj : j = i <;> simp [setAct, hj]
          · intro j hjw
            by_cases hj : j = i
            · subst hj; exact absurd hjw hdel.1
            · simp [setAct, hj, hjw]
        · obtain ⟨h1, h2⟩ := start_moves (i := i) (m := m) ho
          exact ⟨h2, .inl ⟨by simpa using hs, h1⟩⟩

/-- A pass over the actions. -/
theorem sweep {c : Ctx} (hr : AllRun c) (n : Nat) : ∀ (k : Nat) (m : State), k + n = c.size → m.phase = .scan k →
    ∃ m', MainSteps c m m' ∧ (Moved m m' ∨ (m'.phase = .scan c.size ∧ Keep m m' ∧
      ∀ i, k ≤ i → i < c.size → (m.acts i).started = false → (∀ d ∈ c.deps i, (m.acts d).finished = true) →
        (m'.acts i).waiting = true ∧ ((m.acts i).waiting = true → m.now < (m.acts i).wakeAt))) := by
  induction n with
  | zero =>
    intro k m hk hp
    refine ⟨m, .refl, .inr ⟨by rw [hp, ← hk]; rfl, Keep.refl m, ?_⟩⟩
    intro i h1 h2
    omega
  | succ n ih =>
    intro k m hk hp
    have hlt : k < c.size := by omega
    obtain ⟨hph, hv⟩ := visit_moves (m := m) 0 hr hlt
    have hadv : advance k (visit c 0 k m) = { visit c 0 k m with phase := .scan (k + 1) } := by
      unfold advance
      rw [hph, hp, if_neg (by simp)]
    have hstep := MainStep.visit (c := c) (s := m) k 0 hp hlt
    rw [hadv] at hstep
    rcases hv with ⟨h1, h2⟩ | ⟨h1, h2⟩
    · exact ⟨_, .head hstep .refl, .inl (.inr ⟨k, h1, h2⟩)⟩
    · have hkeep : Keep m { visit c 0 k m with phase := .scan (k + 1) } :=
        ⟨h1.started, h1.finished, h1.closed, h1.waiting, h1.now, h1.pending, h1.list, h1.canceled⟩
      obtain ⟨m', g1, g2⟩ := ih (k + 1) { visit c 0 k m with phase := .scan (k + 1) } (by omega) rfl
      refine ⟨m', .head hstep g1, ?_⟩
      rcases g2 with g2 | ⟨g2, g3, g4⟩
      · left
        rcases g2 with g2 | ⟨i, g2, g3⟩
        · exact .inl g2
        · exact .inr ⟨i, by rw [← hkeep.started i]; exact g2, g3⟩
      · refine .inr ⟨g2, hkeep.trans g3, ?_⟩
        intro i hi1 hi2 hs hd
        by_cases hik : i = k
        · subst hik
          obtain ⟨q1, q2⟩ := h2 hs hd
          exact ⟨(g3.waiting i q1).1, q2⟩
        · obtain ⟨q1, q2⟩ := g4 i (by omega) hi2 (by rw [hkeep.started]; exact hs)
            (fun d hd' => by rw [hkeep.finished]; exact hd d hd')
          refine ⟨q1, fun hw => ?_⟩
          obtain ⟨w1, w2⟩ := hkeep.waiting i hw
          have := q2 w1
          rw [w2, hkeep.now] at this
          exact this

/-- All started actions are over. -/
structure Halted (m : State) : Prop where
  closed : ∀ i, (m.acts i).started = true → (m.acts i).closed = true
  pending : m.pending = 0
  list : ∀ i, (m.acts i).closed = true → (m.acts i).finished = true ∨ i ∈ m.finishedList
  live : m.canceled = false

theorem Keep.halted {m m' : State} (h : Keep m m') (hh : Halted m) : Halted m' := by
  refine ⟨fun i hi => ?_, by rw [h.pending]; exact hh.pending, fun i hi => ?_, by rw [h.canceled]; exact hh.live⟩
  · rw [h.started] at hi
    rw [h.closed]
    exact hh.closed i hi
  · rw [h.closed] at hi
    rw [h.finished, h.list]
    exact hh.list i hi

/-- The list takes note of everything. -/
structure Settled (m m' : State) : Prop where
  phase : m'.phase = .checkCancel
  halted : Halted m'
  started : ∀ i, (m'.acts i).started = (m.acts i).started
  finished : ∀ i, (m.acts i).finished = true → (m'.acts i).finished = true
  all : ∀ i, (m'.acts i).started = true → (m'.acts i).finished = true
  waiting : ∀ i, (m.acts i).waiting = true → (m'.acts i).waiting = true ∧ (m'.acts i).wakeAt = (m.acts i).wakeAt

theorem settle_wait {c : Ctx} {m : State} (hh : Halted m) (hp : m.phase = .wait) :
    ∃ m', MainSteps c m m' ∧ Settled m m' := by
  have hfin : ∀ i, ((handle m).acts i).started = (m.acts i).started ∧ ((handle m).acts i).closed = (m.acts i).closed ∧
      ((handle m).acts i).waiting = (m.acts i).waiting ∧ ((handle m).acts i).wakeAt = (m.acts i).wakeAt ∧
      ((m.acts i).finished = true → ((handle m).acts i).finished = true) ∧
      ((m.acts i).closed = true → ((handle m).acts i).finished = true) := by
    intro i
    rw [handle_acts]
    split
    · exact ⟨rfl, rfl, rfl, rfl, fun _ => rfl, fun _ => rfl⟩
    · rename_i hn
      refine ⟨rfl, rfl, rfl, rfl, id, fun hc => ?_⟩
      rcases hh.list i hc with h | h
      · exact h
      · exact absurd h hn
  refine ⟨_, .head (.wake hp (.inl hh.pending)) .refl, rfl, ⟨?_, hh.pending, ?_, hh.live⟩, fun i => (hfin i).1,
    fun i h => (hfin i).2.2.2.2.1 h, ?_, ?_⟩
  · intro i hi
    have hi : ((handle m).acts i).started = true := hi
    show ((handle m).acts i).closed = true
    rw [(hfin i).1] at hi
    rw [(hfin i).2.1]
    exact hh.closed i hi
  · intro i hi
    have hi : ((handle m).acts i).closed = true := hi
    rw [(hfin i).2.1] at hi
    exact .inl ((hfin i).2.2.2.2.2 hi)
  · intro i hi
    have hi : ((handle m).acts i).started = true := hi
    rw [(hfin i).1] at hi
    exact (hfin i).2.2.2.2.2 (hh.closed i hi)
  · intro i hi
    show ((handle m).acts i).waiting = true ∧ ((handle m).acts i).wakeAt = _
    rw [(hfin i).2.2.1, (hfin i).2.2.2.1]
    exact ⟨hi, rfl⟩

/-- From the end of a pass. -/
theorem settle_scanned {c : Ctx} {m : State} (hh : Halted m) (hp : m.phase = .scan c.size) :
    ∃ m', MainSteps c m m' ∧ (m'.phase = .done ∨ (Settled m m' ∧ ∃ i < c.size, (m.acts i).finished = false)) := by
  by_cases hall : ∀ i < c.size, (m.acts i).finished = true
  · have h1 := MainStep.scanned (c := c) (s := m) hp
    rw [if_pos hall] at h1
    exact ⟨_, .head h1 (.head (.exit rfl) .refl), .inl rfl⟩
  · have h1 := MainStep.scanned (c := c) (s := m) hp
    rw [if_neg hall] at h1
    have hh' : Halted { m with phase := .wait } := ⟨hh.closed, hh.pending, hh.list, hh.live⟩
    obtain ⟨m', g1, g2⟩ := settle_wait (c := c) hh' rfl
    refine ⟨m', .head h1 g1, .inr ⟨⟨g2.phase, g2.halted, g2.started, g2.finished, g2.all, g2.waiting⟩, ?_⟩⟩
    apply Classical.byContradiction
    intro hno
    apply hall
    intro i hi
    cases hf : (m.acts i).finished with
    | true => rfl
    | false => exact absurd ⟨i, hi, hf⟩ hno

theorem Moved.mono {m m1 m' : State} (h : Moved m1 m') (hs : ∀ i, (m1.acts i).started = (m.acts i).started) :
    Moved m m' := by
  rcases h with h | ⟨i, h1, h2⟩
  · exact .inl h
  · exact .inr ⟨i, by rw [← hs i]; exact h1, h2⟩

/-- From a visit. -/
theorem settle_scan {c : Ctx} {m : State} {k : Nat} (hr : AllRun c) (hh : Halted m) (hp : m.phase = .scan k)
    (hk : k ≤ c.size) : ∃ m', MainSteps c m m' ∧ (Moved m m' ∨ (Settled m m' ∧
      (∃ i < c.size, (m.acts i).finished = false) ∧
      ∀ i, k ≤ i → i < c.size → (m.acts i).started = false → (∀ d ∈ c.deps i, (m.acts d).finished = true) →
        (m'.acts i).waiting = true ∧ ((m.acts i).waiting = true → m.now < (m.acts i).wakeAt))) := by
  obtain ⟨m1, g1, g2⟩ := sweep hr (c.size - k) k m (by omega) hp
  rcases g2 with g2 | ⟨g2, g3, g4⟩
  · exact ⟨m1, g1, .inl g2⟩
  · obtain ⟨m2, h1, h2⟩ := settle_scanned (g3.halted hh) g2
    refine ⟨m2, g1.trans h1, ?_⟩
    rcases h2 with h2 | ⟨h2, i, hi, hf⟩
    · exact .inl (.inl h2)
    · refine .inr ⟨⟨h2.phase, h2.halted, fun i => (h2.started i).trans (g3.started i), ?_, h2.all, ?_⟩, ?_, ?_⟩
      · intro i hi
        exact h2.finished i (by rw [g3.finished]; exact hi)
      · intro i hi
        obtain ⟨w1, w2⟩ := g3.waiting i hi
        obtain ⟨w3, w4⟩ := h2.waiting i w1
        exact ⟨w3, w4.trans w2⟩
      · exact ⟨i, hi, by rw [← g3.finished]; exact hf⟩
      · intro i hi1 hi2 hs hd
        obtain ⟨q1, q2⟩ := g4 i hi1 hi2 hs hd
        exact ⟨(h2.waiting i q1).1, q2⟩

/-- A whole round of the loop. -/
theorem round {c : Ctx} {m : State} (hr : AllRun c) (hh : Halted m) (hp : m.phase = .checkCancel) (now : Int) :
    ∃ m', MainSteps c m m' ∧ (Moved m m' ∨ (Settled m m' ∧ (∃ i < c.size, (m.acts i).finished = false) ∧
      ∀ i, i < c.size → (m.acts i).started = false → (∀ d ∈ c.deps i, (m.acts d).finished = true) →
        (m'.acts i).waiting = true ∧ ((m.acts i).waiting = true → now < (m.acts i).wakeAt))) := by
  have h1 := MainStep.resume (c := c) (s := m) now hp hh.live
  have hh' : Halted { m with phase := .scan 0, now := now } := ⟨hh.closed, hh.pending, hh.list, hh.live⟩
  obtain ⟨m', g1, g2⟩ := settle_scan hr hh' rfl (Nat.zero_le _)
  refine ⟨m', .head h1 g1, ?_⟩
  rcases g2 with g2 | ⟨g2, g3, g4⟩
  · exact .inl g2
  · exact .inr ⟨⟨g2.phase, g2.halted, g2.started, g2.finished, g2.all, g2.waiting⟩, g3,
      fun i hi => g4 i (Nat.zero_le _) hi⟩

theorem least_open {c : Ctx} {m : State} (h : ¬ ∀ i < c.size, (m.acts i).started = true) :
    ∃ i < c.size, (m.acts i).started = false ∧ ∀ d < i, (m.acts d).started = true := by
  have : ∀ n, (∃ i < n, (m.acts i).started = false) →
      ∃ i < n, (m.acts i).started = false ∧ ∀ d < i, (m.acts d).started = true := by
    intro n
    induction n with
    | zero => rintro ⟨i, hi, -⟩; omega
    | succ n ih =>
      rintro ⟨i, hi, hf⟩
      by_cases hex : ∃ i < n, (m.acts i).started = false
      · obtain ⟨j, h1, h2, h3⟩ := ih hex
        exact ⟨j, by omega, h2, h3⟩
      · have hin : i = n := by
          apply Classical.byContradiction
          intro hne
          exact hex ⟨i, by omega, hf⟩
        subst hin
        refine ⟨i, hi, hf, fun d hd => ?_⟩
        cases hs : (m.acts d).started with
        | true => rfl
        | false => exact absurd ⟨d, hd, hs⟩ hex
  apply this
  apply Classical.byContradiction
  intro hno
  apply h
  intro i hi
  cases hs : (m.acts i).started with
  | true => rfl
  | false => exact absurd ⟨i, hi, hs⟩ hno

/-- The thread starts or skips an action, or ends the list, after a few rounds. -/
theorem thread_moves {c : Ctx} {m : State} (hr : AllRun c) (hback : Spec.Backwards c) (hh : Halted m)
    (hp : m.phase = .wait ∨ m.phase = .checkCancel ∨ m.phase = .exit ∨ ∃ k, m.phase = .scan k ∧ k ≤ c.size) :
    ∃ m', MainSteps c m m' ∧ Moved m m' := by
  have first : ∃ m', MainSteps c m m' ∧ (Moved m m' ∨ (m'.phase = .checkCancel ∧ Halted m' ∧
      ∀ i, (m'.acts i).started = (m.acts i).started)) := by
    rcases hp with hp | hp | hp | ⟨k, hp, hk⟩
    · obtain ⟨m', h1, h2⟩ := settle_wait (c := c) hh hp
      exact ⟨m', h1, .inr ⟨h2.phase, h2.halted, h2.started⟩⟩
    · exact ⟨m, .refl, .inr ⟨hp, hh, fun _ => rfl⟩⟩
    · exact ⟨_, .head (.exit hp) .refl, .inl (.inl rfl)⟩
    · obtain ⟨m', h1, h2⟩ := settle_scan hr hh hp hk
      refine ⟨m', h1, ?_⟩
      rcases h2 with h2 | ⟨h2, -⟩
      · exact .inl h2
      · exact .inr ⟨h2.phase, h2.halted, h2.started⟩
  obtain ⟨m1, p1, q1⟩ := first
  rcases q1 with q1 | ⟨q1, q2, q3⟩
  · exact ⟨m1, p1, q1⟩
  obtain ⟨m2, p2, r1⟩ := round hr q2 q1 0
  rcases r1 with r1 | ⟨r1, -, -⟩
  · exact ⟨m2, p1.trans p2, r1.mono q3⟩
  have e2 : ∀ i, (m2.acts i).started = (m.acts i).started := fun i => (r1.started i).trans (q3 i)
  obtain ⟨m3, p3, r2⟩ := round hr r1.halted r1.phase 0
  rcases r2 with r2 | ⟨r2, ⟨j, hj, hf⟩, r3⟩
  · exact ⟨m3, (p1.trans p2).trans p3, r2.mono e2⟩
  have hopen : ¬ ∀ i < c.size, (m2.acts i).started = true := by
    intro hall
    rw [r1.all j (hall j hj)] at hf
    cases hf
  obtain ⟨i, hi, his, hless⟩ := least_open hopen
  have hdeps : ∀ d ∈ c.deps i, (m2.acts d).finished = true := fun d hd => r1.all d (hless d (hback i d hd))
  obtain ⟨hw, -⟩ := r3 i hi his hdeps
  obtain ⟨m4, p4, r4⟩ := round hr r2.halted r2.phase (m3.acts i).wakeAt
  rcases r4 with r4 | ⟨r4, -, r5⟩
  · exact ⟨m4, ((p1.trans p2).trans p3).trans p4, r4.mono fun i => (r2.started i).trans (e2 i)⟩
  · obtain ⟨-, h⟩ := r5 i hi (by rw [r2.started]; exact his) fun d hd => r2.finished d (hdeps d hd)
    have := h hw
    omega

end Distbench.ActionList
