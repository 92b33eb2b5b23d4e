import Verif.Lemmas.ActionList
import Verif.Model.Loops

/-! What the thread of a list does, as seen from outside. -/

namespace Distbench.ActionList
open Spec Loops

/-- Nothing that can be seen from outside has changed. -/
structure Same (m m' : State) : Prop where
  acts : ∀ i, (m'.acts i).started = (m.acts i).started ∧ (m'.acts i).skipped = (m.acts i).skipped ∧
    (m'.acts i).called = (m.acts i).called ∧ (m'.acts i).sender = (m.acts i).sender ∧
    (m'.acts i).stuck = (m.acts i).stuck
  done : m'.phase = .done ↔ m.phase = .done
  log : responses m'.log = responses m.log

/-- Action `i` has been started or skipped. -/
structure Begun (c : Ctx) (m m' : State) (i : Nat) (x : Tables.ActionEntry) (A : Act) : Prop where
  entry : c.entry.listActions[i]? = some x
  fresh : (m.acts i).started = false
  open_ : m.phase ≠ .done ∧ m'.phase ≠ .done
  deps : ∀ d ∈ c.deps i, d < c.size ∧ (m.acts d).started = true ∧ (m.acts d).called = true
  acts : ∀ j, m'.acts j = if j = i then A else m.acts j
  started : A.started = true
  sender : A.sender = (!m.sentEarly && (c.size == 1 || x.proto.sendResponseWhenDone))
  how : (A.skipped = false ∧ A.called = false ∧ responses m'.log = responses m.log ∧
      (∀ d ∈ c.deps i, (m.acts d).skipped = false)) ∨
    (A.skipped = true ∧ A.called = true ∧
      responses m'.log = responses m.log + (if A.sender then 1 else 0) ∧
      ((∃ d ∈ c.deps i, (m.acts d).skipped = true) ∨ x.proto.predicates ≠ []))

/-- The list is over. -/
structure Ended (c : Ctx) (m m' : State) : Prop where
  phase : m.phase = .exit
  done : m'.phase = .done
  acts : m'.acts = m.acts
  called : ∀ i < c.size, (m.acts i).started = true ∧ (m.acts i).called = true
  log : responses m'.log = responses m.log + (if m.sentEarly then 0 else 1)

theorem Same.refl (m : State) : Same m m := ⟨fun _ => ⟨rfl, rfl, rfl, rfl, rfl⟩, Iff.rfl, rfl⟩

theorem inv_core {c : Ctx} {m : State} (h : Inv c m) (hd : m.phase ≠ .done) : CoreS c m ∧ Side c m := by
  rw [Inv, if_neg hd] at h
  exact h

theorem callback_log (c : Ctx) (i : Nat) (s : State) :
    responses (callback c i s).log = responses s.log + if (s.acts i).sender then 1 else 0 := by
  simp only [callback, setAct]
  cases hx : (s.acts i).sender <;> simp [responses]

theorem responses_cons_other {e : Event} {log : List Event} (h : ∀ b o, e ≠ .response b o) :
    responses (e :: log) = responses log := by
  unfold responses
  rw [List.countP_cons]
  cases e <;> simp_all

theorem callback_live (c : Ctx) (i : Nat) (s : State) (h : s.canceled = false) (h2 : c.cancelsAt i = false) :
    (callback c i s).canceled = false := by
  simp only [callback, setAct]
  cases hx : (s.acts i).sender <;> simp [h, h2]

theorem start_effect {c : Ctx} {m : State} {i k : Nat} {x : Tables.ActionEntry} (hC : CoreS c m)
    (hlive : m.canceled = false) (hcan : ∀ i, c.cancelsAt i = false) (hph : m.phase = .scan k)
    (hx : c.entry.listActions[i]? = some x) (hns : (m.acts i).started = false)
    (hd : ∀ d ∈ c.deps i, (m.acts d).finished = true) :
    (start c x i m).canceled = false ∧
      (Same m (start c x i m) ∨ ∃ A, Begun c m (start c x i m) i x A) := by
  have hdeps : ∀ d ∈ c.deps i, d < c.size ∧ (m.acts d).started = true ∧ (m.acts d).called = true := by
    intro d hd'
    have h1 := hC.closed_called _ (hC.fin_closed _ (hd d hd'))
    have h2 := hC.called_started _ h1
    exact ⟨hC.started_lt _ h2, h2, h1⟩
  have hself : (m.acts i).called = false ∧ (m.acts i).skipped = false := by
    constructor
    · cases hc : (m.acts i).called with
      | false => rfl
      | true => rw [hC.called_started _ hc] at hns; cases hns
    · cases hc : (m.acts i).skipped with
      | false => rfl
      | true => rw [hC.skip_started _ hc] at hns; cases hns
  have hopen : m.phase ≠ .done := by rw [hph]; simp
  unfold start
  dsimp only
  split
  · rename_i hsk
    rw [Bool.or_eq_true] at hsk
    have hsk' : (∃ d ∈ c.deps i, (m.acts d).skipped = true) ∨ x.proto.predicates ≠ [] := by
      rcases hsk with h | h
      · left
        obtain ⟨d, h1, h2⟩ := List.any_eq_true.1 h
        exact ⟨d, h1, h2⟩
      · right
        intro h0
        rw [h0] at h
        simp at h
    refine ⟨?_, .inr ⟨{ m.acts i with
        started := true, waiting := false,
        sender := !m.sentEarly && (c.size == 1 || x.proto.sendResponseWhenDone), skipped := true,
        called := true, closed := true }, ?_⟩⟩
    · rw [finish_canceled]
      exact callback_live c i _ hlive (hcan i)
    · refine ⟨hx, hns, ⟨hopen, ?_⟩, hdeps, ?_, rfl, rfl, .inr ⟨rfl, rfl, ?_, hsk'⟩⟩
      · rw [finish_phase, callback_phase]
        exact hopen
      · intro j
        rw [finish_acts]
        by_cases hj : j = i
        · subst hj
          simp [callback_acts, setAct]
        · rw [if_neg hj, if_neg hj, callback_acts, if_neg hj]
          simp [setAct, hj]
      · show responses (.finished i :: _) = _
        rw [responses_cons_other (by simp), callback_log]
        simp only [setAct, if_true]
        rw [responses_cons_other (by simp)]
  · rename_i hsk
    rw [Bool.not_eq_true, Bool.or_eq_false_iff] at hsk
    have hskd : ∀ d ∈ c.deps i, (m.acts d).skipped = false := by
      intro d hd'
      have := List.any_eq_false.1 hsk.1 d hd'
      simpa using this
    cases hi : initiate c.rpcTable c.hasPeers x with
    | crash =>
      refine ⟨hlive, .inl ⟨fun _ => ⟨rfl, rfl, rfl, rfl, rfl⟩, ?_, rfl⟩⟩
      rw [hph]; simp
    | stuck =>
      refine ⟨hlive, .inr ⟨{ m.acts i with
          started := true, waiting := false,
          sender := !m.sentEarly && (c.size == 1 || x.proto.sendResponseWhenDone), stuck := true }, ?_⟩⟩
      refine ⟨hx, hns, ⟨hopen, hopen⟩, hdeps, fun j => rfl, rfl, rfl, .inl ⟨hself.2, hself.1, ?_, hskd⟩⟩
      exact responses_cons_other (by simp)
    | runs o =>
      refine ⟨hlive, .inr ⟨{ m.acts i with
          started := true, waiting := false,
          sender := !m.sentEarly && (c.size == 1 || x.proto.sendResponseWhenDone), override := o }, ?_⟩⟩
      refine ⟨hx, hns, ⟨hopen, hopen⟩, hdeps, fun j => rfl, rfl, rfl, .inl ⟨hself.2, hself.1, ?_, hskd⟩⟩
      exact responses_cons_other (by simp)

theorem same_phase {m m' : State} {p : Phase} (h : Same m m') (h1 : m.phase ≠ .done) (h2 : p ≠ .done) :
    Same m { m' with phase := p } :=
  ⟨h.acts, ⟨fun h => absurd h h2, fun h => absurd h h1⟩, h.log⟩

theorem begun_phase {c : Ctx} {m m' : State} {i : Nat} {x : Tables.ActionEntry} {A : Act} {p : Phase}
    (h : Begun c m m' i x A) (h2 : p ≠ .done) : Begun c m { m' with phase := p } i x A :=
  ⟨h.entry, h.fresh, ⟨h.open_.1, h2⟩, h.deps, h.acts, h.started, h.sender, h.how⟩

theorem visit_effect {c : Ctx} {m : State} {i : Nat} {delay : Int} (hC : CoreS c m)
    (hlive : m.canceled = false) (hcan : ∀ i, c.cancelsAt i = false) (hph : m.phase = .scan i) :
    (visit c delay i m).canceled = false ∧
      (Same m (visit c delay i m) ∨ ∃ x A, Begun c m (visit c delay i m) i x A) := by
  unfold visit
  cases hx : c.entry.listActions[i]? with
  | none => exact ⟨hlive, .inl (Same.refl m)⟩
  | some x =>
    dsimp only
    split
    · exact ⟨hlive, .inl (Same.refl m)⟩
    · rename_i hns
      split
      · exact ⟨hlive, .inl (Same.refl m)⟩
      · split
        · exact ⟨hlive, .inl (Same.refl m)⟩
        · rename_i hdep
          split
          · refine ⟨hlive, .inl ⟨?_, Iff.rfl, responses_cons_other (by simp)⟩⟩
            intro j
            simp only [setAct]
            by_cases hj : j = i
            · subst hj; simp
            · simp [hj]
          · obtain ⟨h1, h2⟩ := start_effect hC hlive hcan hph hx (by simpa using hns) (any_false_deps hdep)
            refine ⟨h1, ?_⟩
            rcases h2 with h2 | ⟨A, h2⟩
            · exact .inl h2
            · exact .inr ⟨x, A, h2⟩

theorem same_handle {m : State} : Same m (handle m) := by
  refine ⟨fun i => ?_, Iff.rfl, rfl⟩
  rw [handle_acts]
  split <;> exact ⟨rfl, rfl, rfl, rfl, rfl⟩

/-- What a step of the thread of a list does. -/
theorem main_effect {c : Ctx} {m m' : State} (hI : Inv c m) (hlive : m.canceled = false)
    (hcan : ∀ i, c.cancelsAt i = false) (h : MainStep c m m') : m'.canceled = false ∧
      (Same m m' ∨ (∃ i x A, Begun c m m' i x A) ∨ Ended c m m') := by
  have hopen : m.phase ≠ .done := by
    intro hd
    cases h <;> simp_all
  obtain ⟨hC, hS⟩ := inv_core hI hopen
  cases h with
  | visit i delay hph hi =>
    obtain ⟨h1, h2⟩ := visit_effect (delay := delay) hC hlive hcan hph
    unfold advance
    split
    · refine ⟨h1, ?_⟩
      rcases h2 with h2 | ⟨x, A, h2⟩
      · exact .inl h2
      · exact .inr (.inl ⟨i, x, A, h2⟩)
    · refine ⟨h1, ?_⟩
      rcases h2 with h2 | ⟨x, A, h2⟩
      · exact .inl (same_phase h2 hopen (by simp))
      · exact .inr (.inl ⟨i, x, A, begun_phase h2 (by simp)⟩)
  | scanned hph => exact ⟨hlive, .inl (same_phase (Same.refl m) hopen (by split <;> simp))⟩
  | wake hph => exact ⟨hlive, .inl (same_phase same_handle hopen (by simp))⟩
  | timeout hph => exact ⟨hlive, .inl (same_phase (Same.refl m) hopen (by simp))⟩
  | resume now hph =>
    exact ⟨hlive, .inl ⟨fun _ => ⟨rfl, rfl, rfl, rfl, rfl⟩, by simp [hopen], rfl⟩⟩
  | cancel hph hc => rw [hlive] at hc; cases hc
  | drain hph =>
    have := hS.drain hph
    rw [hlive] at this
    cases this
  | exit hph =>
    refine ⟨hlive, .inr (.inr ⟨hph, rfl, rfl, ?_, ?_⟩)⟩
    · intro i hi
      rcases (hS.exit hph).2 with hx | hx
      · rw [hlive] at hx; cases hx
      · have h1 := hC.closed_called _ (hC.fin_closed _ (hx i hi))
        exact ⟨hC.called_started _ h1, h1⟩
    · show responses (.freed :: _) = _
      rw [responses_cons_other (by simp)]
      cases m.sentEarly <;> simp [responses]

end Distbench.ActionList
