import Verif.Spec.Teardown
import Verif.Props.Homa

/-! Properties of the destruction of engines: C191 and C192. -/

namespace Distbench.Teardown
open Spec
open Homa (total total_set total_ge total_zero)

/-! ### the invariant -/

private def counted : Place → Nat
  | .listed | .answered => 1
  | _ => 0

/-- The server of the driver was shut down. -/
private def Closed : Phase → Prop
  | .waitingLists | .closingClient | .destroyed => True
  | _ => False

private def Joined : Phase → Prop
  | .alive | .joining => False
  | _ => True

private def SetupClosed : Phase → Prop
  | .alive | .joining | .closingSetup => False
  | _ => True

private def ListsOver : Phase → Prop
  | .closingClient | .destroyed => True
  | _ => False

private structure Ok (k : Kind) (s : Engine) : Prop where
  detached : k = .handoff → s.detached = total counted s.calls
  closed : Closed s.phase → ∀ p ∈ s.calls, over k p = true
  main : Joined s.phase → s.main = false
  setups : SetupClosed s.phase → s.setups = 0
  lists : ListsOver s.phase → s.detached = 0
  inline : k = .inline → s.detached = 0

private theorem over_set {k : Kind} {l : List Place} {i : Nat} {p q : Place} (hi : l[i]? = some p)
    (h : ∀ p ∈ l, over k p = true) (hq : over k p = true → over k q = true) :
    ∀ p ∈ l.set i q, over k p = true := by
  intro r hr
  rcases List.mem_or_eq_of_mem_set hr with hr | hr
  · exact h r hr
  · subst hr
    exact hq (h p (List.mem_of_getElem? hi))

private theorem ok_call {k : Kind} {s : Engine} {i d : Nat} {p : Place} (q : Place) (ok : Ok k s)
    (hi : s.calls[i]? = some p) (hq : over k p = true → over k q = true)
    (hd : k = .handoff → d + counted p = s.detached + counted q)
    (hl : ListsOver s.phase → d = 0) (hin : k = .inline → d = 0) :
    Ok k { s with calls := s.calls.set i q, detached := d } := by
  refine ⟨fun hk => ?_, fun hc => over_set hi (ok.closed hc) hq, ok.main, ok.setups, hl, hin⟩
  have h1 := total_set counted q hi
  have h2 := ok.detached hk
  have h3 := hd hk
  dsimp only
  omega

private theorem ok_step {k s e s'} (ok : Ok k s) (hs : Step k s e s') : Ok k s' := by
  cases hs with
  | setHandler _ => exact ⟨ok.detached, ok.closed, ok.main, ok.setups, ok.lists, ok.inline⟩
  | startMain hp _ =>
    refine ⟨ok.detached, ok.closed, fun hj => ?_, ok.setups, ok.lists, ok.inline⟩
    dsimp only at hj
    rw [hp] at hj
    cases hj
  | endMain _ => exact ⟨ok.detached, ok.closed, fun _ => rfl, ok.setups, ok.lists, ok.inline⟩
  | setup hp =>
    refine ⟨ok.detached, ok.closed, ok.main, fun hj => ?_, ok.lists, ok.inline⟩
    dsimp only at hj
    rcases hp with hp | hp <;> rw [hp] at hj <;> cases hj
  | setupDone hz =>
    refine ⟨ok.detached, ok.closed, ok.main, fun hj => ?_, ok.lists, ok.inline⟩
    exact absurd (ok.setups hj) hz
  | arrive hp =>
    refine ⟨fun hk => ?_, fun hc => ?_, ok.main, ok.setups, ok.lists, ok.inline⟩
    · have := ok.detached hk
      simp only [total, List.map_cons, List.sum_cons, counted] at *
      omega
    · dsimp only at hc
      rcases hp with hp | hp | hp <;> rw [hp] at hc <;> cases hc
  | enter hi _ =>
    exact ok_call _ ok hi (fun h => by cases k <;> cases h) (fun _ => rfl) ok.lists ok.inline
  | short hi =>
    exact ok_call _ ok hi (fun h => by cases k <;> cases h) (fun _ => rfl) ok.lists ok.inline
  | list hi =>
    refine ok_call _ ok hi (fun h => by cases k <;> cases h) (fun hk => ?_) (fun hl => ?_)
      (fun hk => ?_)
    · rw [if_pos hk]; rfl
    · have hc : Closed s.phase := by
        revert hl
        cases s.phase <;> intro h <;> first | trivial | cases h
      have := ok.closed hc _ (List.mem_of_getElem? hi)
      cases k <;> cases this
    · rw [if_neg (by rw [hk]; decide)]
      exact ok.inline hk
  | pause hi =>
    exact ok_call _ ok hi (fun h => by cases k <;> cases h) (fun _ => rfl) ok.lists ok.inline
  | wake hi =>
    refine ok_call _ ok hi (fun h => by cases k <;> cases h) (fun hk => ?_) ok.lists ok.inline
    rw [if_pos hk]
    rfl
  | respond hi =>
    exact ok_call _ ok hi (fun h => by cases k <;> cases h) (fun _ => rfl) ok.lists ok.inline
  | endList hi =>
    refine ok_call _ ok hi (fun h => by cases k <;> rfl) (fun hk => ?_) (fun hl => ?_) (fun hk => ?_)
    · have h1 := total_ge counted hi
      have h2 := ok.detached hk
      rw [if_pos hk]
      simp only [counted] at *
      omega
    · have := ok.lists hl
      split <;> omega
    · rw [if_neg (by rw [hk]; decide)]
      exact ok.inline hk
  | return_ hi =>
    exact ok_call _ ok hi (fun h => by cases k <;> rfl) (fun _ => rfl) ok.lists ok.inline
  | destroy hp =>
    exact ⟨ok.detached, (fun h => by cases h), (fun h => by cases h), (fun h => by cases h),
      (fun h => by cases h), ok.inline⟩
  | joined hp hm =>
    exact ⟨ok.detached, (fun h => by cases h), fun _ => hm, (fun h => by cases h),
      (fun h => by cases h), ok.inline⟩
  | setupClosed hp hz =>
    exact ⟨ok.detached, (fun h => by cases h), fun _ => ok.main (by rw [hp]; trivial), fun _ => hz,
      (fun h => by cases h), ok.inline⟩
  | serverClosed hp ho =>
    exact ⟨ok.detached, fun _ => ho, fun _ => ok.main (by rw [hp]; trivial),
      fun _ => ok.setups (by rw [hp]; trivial), (fun h => by cases h), ok.inline⟩
  | listsOver hp hz =>
    exact ⟨ok.detached, fun _ => ok.closed (by rw [hp]; trivial),
      fun _ => ok.main (by rw [hp]; trivial), fun _ => ok.setups (by rw [hp]; trivial), fun _ => hz,
      ok.inline⟩
  | destroyed hp =>
    exact ⟨ok.detached, fun _ => ok.closed (by rw [hp]; trivial),
      fun _ => ok.main (by rw [hp]; trivial), fun _ => ok.setups (by rw [hp]; trivial),
      fun _ => ok.lists (by rw [hp]; trivial), ok.inline⟩

private theorem ok_reachable {k s} (r : Reachable k s) : Ok k s := by
  induction r with
  | start =>
    exact ⟨fun _ => rfl, (fun h => by cases h), (fun h => by cases h), (fun h => by cases h),
      (fun h => by cases h), fun _ => rfl⟩
  | step _ hs ih => exact ok_step ih hs

/-! ### C191: nothing uses a destroyed engine -/

/-- C191: when the destructor of an engine has returned, no thread uses the engine or will. -/
theorem C191_unused (k : Kind) (s : Engine) (r : Reachable k s) (hd : s.phase = .destroyed) :
    Unused s := by
  have ok := ok_reachable r
  refine ⟨fun p hp hu => ?_, ok.main (by rw [hd]; trivial), ok.setups (by rw [hd]; trivial)⟩
  have ho := ok.closed (by rw [hd]; trivial) p hp
  have hz := ok.lists (by rw [hd]; trivial)
  cases k with
  | inline =>
    cases p <;> first | exact hu.elim | exact absurd ho (by decide)
  | handoff =>
    obtain ⟨i, hi⟩ := List.getElem?_of_mem hp
    have h1 := total_ge counted hi
    have h2 := ok.detached rfl
    cases p <;> first | exact hu.elim | exact absurd ho (by decide) | (simp only [counted] at h1; omega)

/-- C191: from the moment the server was shut down, no new request is handed to the engine. -/
theorem C191_no_new (k : Kind) (s : Engine) (r : Reachable k s)
    (hd : s.phase = .waitingLists ∨ s.phase = .closingClient ∨ s.phase = .destroyed) :
    .waiting ∉ s.calls ∧ .handling ∉ s.calls := by
  have hc : Closed s.phase := by
    rcases hd with h | h | h <;> rw [h] <;> trivial
  have ok := (ok_reachable r).closed hc
  constructor
  · intro h
    have := ok _ h
    cases k <;> cases this
  · intro h
    have := ok _ h
    cases k <;> cases this

/-- A request is answered early by its action list, and the destructor waits for the list. -/
example : ∃ s, Reachable .handoff s ∧ s.phase = .destroyed ∧ s.calls = [.gone] := by
  have r := Reachable.start (k := .handoff)
  have r := Reachable.step r (.setHandler rfl)
  have r := Reachable.step r (.arrive (Or.inl rfl))
  have r := Reachable.step r (.enter (i := 0) rfl rfl)
  have r := Reachable.step r (.list (i := 0) rfl)
  have r := Reachable.step r (.destroy rfl)
  have r := Reachable.step r (.joined rfl rfl)
  have r := Reachable.step r (.setupClosed rfl rfl)
  have r := Reachable.step r (.respond (i := 0) rfl)
  have r := Reachable.step r (.serverClosed rfl (by decide))
  have r := Reachable.step r (.endList (i := 0) rfl)
  have r := Reachable.step r (.listsOver rfl rfl)
  have r := Reachable.step r (.destroyed rfl)
  exact ⟨_, r, rfl, rfl⟩

/-! ### C192: destroying an engine ends -/

private def weight : Place → Nat
  | .waiting => 6
  | .handling => 5
  | .listed => 4
  | .answered => 3
  | .sleeping => 3
  | .returning => 2
  | .silent => 1
  | .gone => 0

private def phaseWeight : Phase → Nat
  | .alive => 6
  | .joining => 5
  | .closingSetup => 4
  | .closingServer => 3
  | .waitingLists => 2
  | .closingClient => 1
  | .destroyed => 0

private def work (s : Engine) : Nat :=
  total weight s.calls + s.setups + (if s.main then 1 else 0) + phaseWeight s.phase

private theorem work_call {s : Engine} {i d : Nat} {p : Place} (q : Place)
    (hi : s.calls[i]? = some p) (hw : weight q < weight p) :
    work { s with calls := s.calls.set i q, detached := d } < work s := by
  have h1 := total_set weight q hi
  have h2 := total_ge weight hi
  unfold work
  dsimp only
  omega

private theorem work_step {k s s'} (hs : Step k s .other s') (hp : s.phase ≠ .alive) :
    work s' < work s ∧ s'.phase ≠ .alive := by
  generalize he : Event.other = e at hs
  cases hs with
  | setHandler h => exact absurd h hp
  | startMain h _ => exact absurd h hp
  | endMain hm => exact ⟨by unfold work; rw [hm]; simp, hp⟩
  | setup _ => cases he
  | setupDone hz => exact ⟨by unfold work; dsimp only; omega, hp⟩
  | arrive _ => cases he
  | enter hi _ => exact ⟨work_call _ hi (by decide), hp⟩
  | short hi => exact ⟨work_call _ hi (by decide), hp⟩
  | list hi => exact ⟨work_call _ hi (by decide), hp⟩
  | pause hi => exact ⟨work_call _ hi (by decide), hp⟩
  | wake hi => exact ⟨work_call _ hi (by split <;> decide), hp⟩
  | respond hi => exact ⟨work_call _ hi (by decide), hp⟩
  | endList hi => exact ⟨work_call _ hi (by decide), hp⟩
  | return_ hi => exact ⟨work_call _ hi (by decide), hp⟩
  | destroy h => exact absurd h hp
  | joined h _ => exact ⟨by unfold work; rw [h]; simp only [phaseWeight]; omega, fun h => (by cases h)⟩
  | setupClosed h _ =>
    exact ⟨by unfold work; rw [h]; simp only [phaseWeight]; omega, fun h => (by cases h)⟩
  | serverClosed h _ =>
    exact ⟨by unfold work; rw [h]; simp only [phaseWeight]; omega, fun h => (by cases h)⟩
  | listsOver h _ =>
    exact ⟨by unfold work; rw [h]; simp only [phaseWeight]; omega, fun h => (by cases h)⟩
  | destroyed h => exact ⟨by unfold work; rw [h]; simp only [phaseWeight]; omega, fun h => (by cases h)⟩

/-- C192, without calls that are never answered: while an engine is being destroyed, something other
than a new call can happen. -/
theorem C192_progress_partial (k : Kind) (s : Engine) (r : Reachable k s) (hd : BeingDestroyed s)
    (hn : ¬ NeverAnswered s) : ∃ s', Step k s .other s' := by
  by_cases hc : ∃ (i : Nat) (s' : Engine) (p : Place), s.calls[i]? = some p ∧ Step k s .other s'
  · obtain ⟨_, s', _, _, hs⟩ := hc
    exact ⟨s', hs⟩
  have hc' : ∀ (i : Nat) (p : Place), s.calls[i]? = some p → ¬ ∃ s', Step k s .other s' :=
    fun i p hi ⟨s', hs⟩ => hc ⟨i, s', p, hi, hs⟩
  have hgone : ∀ p ∈ s.calls, p = .gone := by
    intro p hp
    obtain ⟨i, hi⟩ := List.getElem?_of_mem hp
    have hno := hc' i p hi
    cases p with
    | waiting =>
      refine absurd ⟨_, .enter hi ?_⟩ hno
      cases hh : s.handler
      · exact absurd (Or.inl ⟨hp, hh⟩) hn
      · rfl
    | handling => exact absurd ⟨_, .short hi⟩ hno
    | returning => exact absurd ⟨_, .return_ hi⟩ hno
    | listed => exact absurd ⟨_, .respond hi⟩ hno
    | answered => exact absurd ⟨_, .endList hi⟩ hno
    | sleeping => exact absurd ⟨_, .wake hi⟩ hno
    | silent => exact absurd (Or.inr hp) hn
    | gone => rfl
  have ok := ok_reachable r
  match hph : s.phase with
  | .alive => exact absurd hph hd.1
  | .destroyed => exact absurd hph hd.2
  | .joining =>
    cases hm : s.main
    · exact ⟨_, .joined hph hm⟩
    · exact ⟨_, .endMain hm⟩
  | .closingSetup =>
    by_cases hz : s.setups = 0
    · exact ⟨_, .setupClosed hph hz⟩
    · exact ⟨_, .setupDone hz⟩
  | .closingServer =>
    refine ⟨_, .serverClosed hph (fun p hp => ?_)⟩
    rw [hgone p hp]
    cases k <;> rfl
  | .waitingLists =>
    refine ⟨_, .listsOver hph ?_⟩
    cases k with
    | inline => exact ok.inline rfl
    | handoff =>
      rw [ok.detached rfl]
      exact total_zero (fun p hp => by rw [hgone p hp]; rfl)
  | .closingClient => exact ⟨_, .destroyed hph⟩

private theorem weight_le (p : Place) : weight p ≤ 6 := by cases p <;> decide

private theorem total_weight_le (l : List Place) : total weight l ≤ 6 * l.length := by
  induction l with
  | nil => exact Nat.le_refl 0
  | cons x l ih =>
    have := weight_le x
    simp only [total, List.map_cons, List.sum_cons, List.length_cons] at *
    omega

/-- C192: and only a bounded number of things can happen until it was destroyed, so the destructor
returns. -/
theorem C192_bounded (k : Kind) (s s' : Engine) (h : List Event) (hd : s.phase ≠ .alive)
    (hs : Steps k s h s') (hn : .newCall ∉ h) :
    h.length ≤ 6 * s.calls.length + s.setups + 6 := by
  have main : ∀ {s h s'}, Steps k s h s' → s.phase ≠ .alive → Event.newCall ∉ h →
      h.length ≤ work s := by
    intro s h s' hs
    induction hs with
    | done => intros; exact Nat.zero_le _
    | @step s e s1 h s2 hs _ ih =>
      intro hp hn
      have he : e = .other := by
        cases e with
        | newCall => exact absurd List.mem_cons_self hn
        | other => rfl
      subst he
      obtain ⟨h1, h2⟩ := work_step hs hp
      have := ih h2 (fun hm => hn (List.mem_cons_of_mem _ hm))
      rw [List.length_cons]
      omega
  have h1 := main hs hd hn
  have h2 := total_weight_le s.calls
  have h3 : phaseWeight s.phase ≤ 5 := by
    revert hd
    cases s.phase <;> intro hd <;> first | exact absurd rfl hd | decide
  have h4 : (if s.main = true then 1 else 0) ≤ 1 := by split <;> omega
  unfold work at h1
  omega

example : ∃ s, Reachable .inline s ∧ BeingDestroyed s ∧ ¬ NeverAnswered s ∧ .sleeping ∈ s.calls := by
  have r := Reachable.start (k := .inline)
  have r := Reachable.step r (.setHandler rfl)
  have r := Reachable.step r (.arrive (Or.inl rfl))
  have r := Reachable.step r (.enter (i := 0) rfl rfl)
  have r := Reachable.step r (.pause (i := 0) rfl)
  have r := Reachable.step r (.destroy rfl)
  exact ⟨_, r, ⟨by decide, by decide⟩, (by unfold NeverAnswered; decide), by decide⟩

/-! ### never -/

private def Stuck (k : Kind) (s : Engine) : Prop :=
  s.phase ≠ .alive ∧ s.phase ≠ .destroyed ∧ ¬ Closed s.phase ∧
    ((∃ i : Nat, s.calls[i]? = some .waiting) ∧ s.handler = false ∨
      k = .handoff ∧ ∃ i : Nat, s.calls[i]? = some .silent)

private theorem keep {l : List Place} {i j : Nat} {p q r : Place} (hi : l[i]? = some p)
    (hj : l[j]? = some q) (hne : p ≠ q) : (l.set j r)[i]? = some p := by
  have : j ≠ i := fun h => hne (Option.some.inj (by rw [← hi, ← h, hj]))
  rw [List.getElem?_set_ne this]
  exact hi

private theorem stuck_call {k : Kind} {s : Engine} {j d : Nat} {q : Place} (r : Place)
    (h : Stuck k s) (hj : s.calls[j]? = some q) (hw : q = .waiting → s.handler = true)
    (hq : q ≠ .silent) : Stuck k { s with calls := s.calls.set j r, detached := d } := by
  obtain ⟨h1, h2, h3, h4⟩ := h
  refine ⟨h1, h2, h3, ?_⟩
  rcases h4 with ⟨⟨i, hi⟩, hh⟩ | ⟨hk, i, hi⟩
  · refine Or.inl ⟨⟨i, keep hi hj (fun he => ?_)⟩, hh⟩
    rw [hw he.symm] at hh
    cases hh
  · exact Or.inr ⟨hk, i, keep hi hj (Ne.symm hq)⟩

private theorem stuck_step {k s e s'} (h : Stuck k s) (hs : Step k s e s') : Stuck k s' := by
  cases hs with
  | setHandler hp => exact absurd hp h.1
  | startMain hp _ => exact absurd hp h.1
  | endMain _ => exact ⟨h.1, h.2.1, h.2.2.1, h.2.2.2⟩
  | setup _ => exact ⟨h.1, h.2.1, h.2.2.1, h.2.2.2⟩
  | setupDone _ => exact ⟨h.1, h.2.1, h.2.2.1, h.2.2.2⟩
  | arrive _ =>
    obtain ⟨h1, h2, h3, h4⟩ := h
    refine ⟨h1, h2, h3, ?_⟩
    rcases h4 with ⟨⟨i, hi⟩, hh⟩ | ⟨hk, i, hi⟩
    · exact Or.inl ⟨⟨i + 1, hi⟩, hh⟩
    · exact Or.inr ⟨hk, i + 1, hi⟩
  | enter hi hh => exact stuck_call _ h hi (fun _ => hh) (by decide)
  | short hi => exact stuck_call _ h hi (fun h => by cases h) (by decide)
  | list hi => exact stuck_call _ h hi (fun h => by cases h) (by decide)
  | pause hi => exact stuck_call _ h hi (fun h => by cases h) (by decide)
  | wake hi => exact stuck_call _ h hi (fun h => by cases h) (by decide)
  | respond hi => exact stuck_call _ h hi (fun h => by cases h) (by decide)
  | endList hi => exact stuck_call _ h hi (fun h => by cases h) (by decide)
  | return_ hi => exact stuck_call _ h hi (fun h => by cases h) (by decide)
  | destroy hp => exact absurd hp h.1
  | joined _ _ => exact ⟨(fun h => by cases h), (fun h => by cases h), fun h => h, h.2.2.2⟩
  | setupClosed _ _ => exact ⟨(fun h => by cases h), (fun h => by cases h), fun h => h, h.2.2.2⟩
  | serverClosed hp ho =>
    exfalso
    rcases h.2.2.2 with ⟨⟨i, hi⟩, _⟩ | ⟨hk, i, hi⟩
    · have := ho _ (List.mem_of_getElem? hi)
      cases k <;> cases this
    · have := ho _ (List.mem_of_getElem? hi)
      cases k <;> cases this
  | listsOver hp _ => exact absurd (by rw [hp]; trivial) h.2.2.1
  | destroyed hp => exact absurd (by rw [hp]; trivial) h.2.2.1

/-- C192 does not hold: with the handoff server, once a replayed RPC was received the destructor never
returns; and with both servers neither does it if a request came before the handler was set. -/
theorem C192_negation :
    (∃ s, Reachable .handoff s ∧ s.handler = true ∧ BeingDestroyed s ∧
      ∀ h s', Steps .handoff s h s' → s'.phase ≠ .destroyed) ∧
    ∀ k, ∃ s, Reachable k s ∧ BeingDestroyed s ∧ ∀ h s', Steps k s h s' → s'.phase ≠ .destroyed := by
  have never : ∀ {k s}, Stuck k s → ∀ h s', Steps k s h s' → s'.phase ≠ .destroyed := by
    intro k s hst h s' hs
    induction hs with
    | done => exact hst.2.1
    | step hs _ ih => exact ih (stuck_step hst hs)
  constructor
  · have r := Reachable.start (k := .handoff)
    have r := Reachable.step r (.setHandler rfl)
    have r := Reachable.step r (.arrive (Or.inl rfl))
    have r := Reachable.step r (.enter (i := 0) rfl rfl)
    have r := Reachable.step r (.pause (i := 0) rfl)
    have r := Reachable.step r (.wake (i := 0) rfl)
    have r := Reachable.step r (.destroy rfl)
    exact ⟨_, r, rfl, ⟨by decide, by decide⟩,
      never ⟨by decide, by decide, fun h => h, Or.inr ⟨rfl, 0, rfl⟩⟩⟩
  · intro k
    have r := Reachable.start (k := k)
    have r := Reachable.step r (.arrive (Or.inl rfl))
    have r := Reachable.step r (.destroy rfl)
    exact ⟨_, r, ⟨by decide, by decide⟩,
      never ⟨by decide, by decide, fun h => h, Or.inl ⟨⟨0, rfl⟩, rfl⟩⟩⟩

end Distbench.Teardown
