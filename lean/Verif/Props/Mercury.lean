import Verif.Spec.Mercury
import Verif.Props.Homa

/-! Properties of the Mercury protocol driver: C187 to C190. -/

namespace Distbench.Mercury
open Spec
open Homa (count_cons' count_erase' length_erase')

/-! ### the invariant -/

private def isGivenUp (id : Nat) : Event → Bool
  | .notForwarded i | .noOutput i => i == id
  | _ => false

private structure ClientOk (h : List Event) (s : Client) : Prop where
  places : ∀ id, s.sending.count id + s.inflight.count id + callbackRuns id h +
    h.countP (isGivenUp id) = if id < s.next then 1 else 0
  once : ∀ id, h.count (.initiated id) = if id < s.next then 1 else 0
  pending : s.pending = s.sending.length + s.inflight.length + s.completing.toList.length

private theorem ok_step {h s e s'} (ok : ClientOk h s) (hs : Step s e s') :
    ClientOk (h ++ [e]) s' := by
  have aux : ∀ {e : Event}, (∀ id, e ≠ .calledBack id) → (∀ id, isGivenUp id e = false) →
      ∀ id, callbackRuns id (h ++ [e]) = callbackRuns id h ∧
        (h ++ [e]).countP (isGivenUp id) = h.countP (isGivenUp id) := by
    intro e h1 h2 id
    constructor
    · simp [callbackRuns, h1 id]
    · simp [List.countP_append, h2 id]
  have once : ∀ {e : Event}, (∀ id, e ≠ .initiated id) → ∀ id,
      (h ++ [e]).count (.initiated id) = if id < s.next then 1 else 0 := by
    intro e h1 id
    rw [List.count_append, ok.once id]
    simp [h1 id]
  cases hs with
  | initiate =>
    refine ⟨fun id => ?_, fun id => ?_, ?_⟩
    · obtain ⟨h1, h2⟩ := aux (e := .initiated s.next) (by simp) (by simp [isGivenUp]) id
      have h3 := ok.places id
      rw [h1, h2, count_cons']
      dsimp only
      by_cases hi : s.next = id
      · subst hi
        rw [if_neg (Nat.lt_irrefl _)] at h3
        rw [if_pos rfl, if_pos (Nat.lt_succ_self _)]
        omega
      · have : (id < s.next + 1) = (id < s.next) := by apply propext; omega
        simp only [hi, this, if_false]
        omega
    · have h1 := ok.once id
      rw [List.count_append, h1]
      by_cases hi : s.next = id
      · simp [hi]
      · have : (id < s.next + 1) = (id < s.next) := by apply propext; omega
        simp [hi, this]
    · have := ok.pending
      simp only [List.length_cons]
      omega
  | @notForward id hm =>
    refine ⟨fun i => ?_, once (by simp), ?_⟩
    · have h3 := ok.places i
      have h4 := count_erase' hm i
      rw [List.countP_append]
      simp only [callbackRuns, List.count_append] at *
      by_cases he : id = i <;> simp [isGivenUp, he] at * <;> omega
    · have := ok.pending
      have := length_erase' hm
      dsimp only
      omega
  | @forward id hm =>
    refine ⟨fun i => ?_, once (by simp), ?_⟩
    · obtain ⟨h1, h2⟩ := aux (e := .forwarded id) (by simp) (by simp [isGivenUp]) i
      have h3 := ok.places i
      have h4 := count_erase' hm i
      rw [h1, h2, count_cons']
      dsimp only
      omega
    · have := ok.pending
      have := length_erase' hm
      simp only [List.length_cons]
      omega
  | @noOutput id _ hc hm =>
    refine ⟨fun i => ?_, once (by simp), ?_⟩
    · have h3 := ok.places i
      have h4 := count_erase' hm i
      rw [List.countP_append]
      simp only [callbackRuns, List.count_append] at *
      by_cases he : id = i <;> simp [isGivenUp, he] at * <;> omega
    · have := ok.pending
      have := length_erase' hm
      dsimp only
      omega
  | @callBack id _ hc hm =>
    refine ⟨fun i => ?_, once (by simp), ?_⟩
    · have h3 := ok.places i
      have h4 := count_erase' hm i
      rw [List.countP_append]
      simp only [callbackRuns, List.count_append] at *
      by_cases he : id = i <;> simp [isGivenUp, he] at * <;> omega
    · have h1 := ok.pending
      have := length_erase' hm
      rw [hc] at h1
      simp only [Option.toList, List.length_cons, List.length_nil] at h1 ⊢
      omega
  | @complete id hc =>
    refine ⟨fun i => ?_, once (by simp), ?_⟩
    · obtain ⟨h1, h2⟩ := aux (e := .silent) (by simp) (by simp [isGivenUp]) i
      rw [h1, h2]
      exact ok.places i
    · have h1 := ok.pending
      rw [hc] at h1
      simp only [Option.toList, List.length_cons, List.length_nil] at h1 ⊢
      omega
  | shutdown _ =>
    refine ⟨fun i => ?_, once (by simp), ok.pending⟩
    obtain ⟨h1, h2⟩ := aux (e := .shutdownCalled) (by simp) (by simp [isGivenUp]) i
    rw [h1, h2]
    exact ok.places i
  | notify _ _ =>
    refine ⟨fun i => ?_, once (by simp), ok.pending⟩
    obtain ⟨h1, h2⟩ := aux (e := .silent) (by simp) (by simp [isGivenUp]) i
    rw [h1, h2]
    exact ok.places i
  | end_ _ _ _ =>
    refine ⟨fun i => ?_, once (by simp), ok.pending⟩
    obtain ⟨h1, h2⟩ := aux (e := .silent) (by simp) (by simp [isGivenUp]) i
    rw [h1, h2]
    exact ok.places i
  | return_ _ _ =>
    refine ⟨fun i => ?_, once (by simp), ok.pending⟩
    obtain ⟨h1, h2⟩ := aux (e := .shutdownReturned) (by simp) (by simp [isGivenUp]) i
    rw [h1, h2]
    exact ok.places i

private theorem ok_run {h s} (r : Run h s) : ClientOk h s := by
  induction r with
  | start => exact ⟨fun id => rfl, fun id => rfl, rfl⟩
  | step _ hs ih => exact ok_step ih hs

private theorem run_last {h e s} (r : Run (h ++ [e]) s) : ∃ s0, Run h s0 ∧ Step s0 e s := by
  generalize hg : h ++ [e] = g at r
  cases r with
  | start => simp at hg
  | step r hs =>
    obtain ⟨rfl, h2⟩ := List.append_inj' hg rfl
    cases h2
    exact ⟨_, r, hs⟩

private theorem run_split {h h' s} (r : Run (h ++ h') s) : ∃ s0, Run h s0 ∧ Steps s0 h' s := by
  induction h' generalizing h with
  | nil => exact ⟨s, by rw [List.append_nil] at r; exact r, .done⟩
  | cons e t ih =>
    obtain ⟨s1, r1, hs⟩ := ih (h := h ++ [e]) (by rw [List.append_assoc]; exact r)
    obtain ⟨s0, r0, he⟩ := run_last r1
    exact ⟨s0, r0, .step he hs⟩

/-! ### C187: callbacks -/

/-- C187: an RPC is initiated once, and its callback runs at most once and only if it was initiated. -/
theorem C187_once {h : List Event} {s : Client} (r : Run h s) (id : Nat) :
    callbackRuns id h ≤ h.count (.initiated id) ∧ h.count (.initiated id) ≤ 1 := by
  have h1 := (ok_run r).places id
  have h2 := (ok_run r).once id
  constructor
  · omega
  · rw [h2]; split <;> omega

private theorem givenUp_iff {id : Nat} {h : List Event} :
    GivenUp id h ↔ 0 < h.countP (isGivenUp id) := by
  rw [List.countP_pos_iff]
  constructor
  · rintro (hm | hm)
    · exact ⟨_, hm, by simp [isGivenUp]⟩
    · exact ⟨_, hm, by simp [isGivenUp]⟩
  · rintro ⟨e, hm, he⟩
    cases e <;> simp [isGivenUp] at he
    · subst he; exact Or.inl hm
    · subst he; exact Or.inr hm

/-- C187: the callback of an RPC that was given up never runs. -/
theorem C187_given_up {h : List Event} {s : Client} (r : Run h s) (id : Nat) (hg : GivenUp id h) :
    callbackRuns id h = 0 := by
  have h1 := (ok_run r).places id
  have h2 := givenUp_iff.1 hg
  have : (if id < s.next then 1 else 0) ≤ 1 := by split <;> omega
  omega

/-- C187 does not hold: an RPC that Mercury does not take, or that it reports no output for, is never
called back; `ShutdownClient` returns all the same. -/
theorem C187_negation : ∃ h s, Run (h ++ [.shutdownReturned]) s ∧ .initiated 0 ∈ h ∧
    .initiated 1 ∈ h ∧ .forwarded 1 ∈ h ∧ callbackRuns 0 h = 0 ∧ callbackRuns 1 h = 0 := by
  have r := Run.start
  have r := Run.step r .initiate
  have r := Run.step r (.notForward (id := 0) (by simp))
  have r := Run.step r .initiate
  have r := Run.step r (.forward (id := 1) (by simp))
  have r := Run.step r (.noOutput (id := 1) rfl rfl (by simp))
  have r := Run.step r (.shutdown rfl)
  have r := Run.step r (.notify rfl rfl)
  have r := Run.step r (.end_ rfl rfl rfl)
  have r := Run.step r (.return_ rfl rfl)
  exact ⟨_, _, r, by simp, by simp, by simp, by decide, by decide⟩

/-- Below `k`, no RPC is under way. -/
private def Clear (k : Nat) (s : Client) : Prop :=
  ∀ id, id < k → s.sending.count id = 0 ∧ s.inflight.count id = 0

private theorem clear_step {k s e s'} (hk : k ≤ s.next) (hc : Clear k s) (hs : Step s e s') :
    k ≤ s'.next ∧ Clear k s' := by
  cases hs with
  | initiate =>
    refine ⟨Nat.le_succ_of_le hk, fun id hid => ?_⟩
    obtain ⟨h1, h2⟩ := hc id hid
    refine ⟨?_, h2⟩
    rw [count_cons', h1, if_neg (by omega)]
  | @notForward id hm =>
    refine ⟨hk, fun i hi => ?_⟩
    have := count_erase' hm i
    obtain ⟨h1, h2⟩ := hc i hi
    exact ⟨by dsimp only; omega, h2⟩
  | @forward id hm =>
    refine ⟨hk, fun i hi => ?_⟩
    have := count_erase' hm i
    obtain ⟨h1, h2⟩ := hc i hi
    have h3 : id ≠ i := by
      intro he
      subst he
      have := List.count_pos_iff.2 hm
      omega
    refine ⟨by dsimp only; omega, ?_⟩
    rw [count_cons', h2, if_neg h3]
  | @noOutput id _ _ hm =>
    refine ⟨hk, fun i hi => ?_⟩
    have := count_erase' hm i
    obtain ⟨h1, h2⟩ := hc i hi
    exact ⟨h1, by dsimp only; omega⟩
  | @callBack id _ _ hm =>
    refine ⟨hk, fun i hi => ?_⟩
    have := count_erase' hm i
    obtain ⟨h1, h2⟩ := hc i hi
    exact ⟨h1, by dsimp only; omega⟩
  | complete _ => exact ⟨hk, hc⟩
  | shutdown _ => exact ⟨hk, hc⟩
  | notify _ _ => exact ⟨hk, hc⟩
  | end_ _ _ _ => exact ⟨hk, hc⟩
  | return_ _ _ => exact ⟨hk, hc⟩

private def Closed : Phase → Prop
  | .notified | .returned => True
  | _ => False

private theorem clear_steps {k : Nat} : ∀ {s h s'}, Steps s h s' → ∀ {g : List Event},
    ClientOk g s → k ≤ s.next → (Closed s.phase → Clear k s) →
    k ≤ s'.next ∧ (Closed s'.phase → Clear k s') := by
  intro s h s' hst
  induction hst with
  | done => intro g _ hk hc; exact ⟨hk, hc⟩
  | @step s e s1 h s2 hs _ ih =>
    intro g ok hk hc
    have hnext : k ≤ s1.next := by
      cases hs <;> first | exact hk | exact Nat.le_succ_of_le hk
    refine ih (ok_step ok hs) hnext (fun hcl => ?_)
    by_cases hcs : Closed s.phase
    · exact (clear_step hk (hc hcs) hs).2
    · cases hs with
      | notify hp hz =>
        intro id hid
        have h1 := ok.pending
        have h2 : s.sending.count id ≤ s.sending.length := List.count_le_length
        have h3 : s.inflight.count id ≤ s.inflight.length := List.count_le_length
        exact ⟨by dsimp only; omega, by dsimp only; omega⟩
      | shutdown hp => cases hcl
      | return_ hp _ => exact absurd (by rw [hp]; trivial) hcs
      | initiate => exact absurd hcl hcs
      | notForward _ => exact absurd hcl hcs
      | forward _ => exact absurd hcl hcs
      | noOutput _ _ _ => exact absurd hcl hcs
      | callBack _ _ _ => exact absurd hcl hcs
      | complete _ => exact absurd hcl hcs
      | end_ _ _ _ => exact absurd hcl hcs

private theorem phase_called {h s} (r : Run h s) : s.phase = .running ∨ .shutdownCalled ∈ h := by
  induction r with
  | start => exact Or.inl rfl
  | @step h s e s' _ hs ih =>
    rcases ih with ih | ih
    · cases hs with
      | shutdown _ => exact Or.inr (by simp)
      | notify hp _ => rw [ih] at hp; cases hp
      | return_ hp _ => rw [ih] at hp; cases hp
      | _ => exact Or.inl ih
    · exact Or.inr (List.mem_append_left _ ih)

/-- C187: when `ShutdownClient` returns, the callback of every RPC that was initiated before it was
called has run exactly once, except for the RPCs that were given up. -/
theorem C187_all_partial {h1 h2 : List Event} {s : Client}
    (r : Run (h1 ++ .shutdownCalled :: (h2 ++ [.shutdownReturned])) s) (id : Nat)
    (hi : .initiated id ∈ h1) :
    callbackRuns id (h1 ++ .shutdownCalled :: h2) = 1 ∨ GivenUp id (h1 ++ .shutdownCalled :: h2) := by
  have r' : Run ((h1 ++ .shutdownCalled :: h2) ++ [.shutdownReturned]) s := by
    simpa [List.append_assoc] using r
  obtain ⟨s2, r2, hs2⟩ := run_last r'
  obtain ⟨s0, r0, hst⟩ := run_split r2
  have o0 := ok_run r0
  have hlt : id < s0.next := by
    have h1 := o0.once id
    have h2 := List.count_pos_iff.2 hi
    apply Decidable.byContradiction
    intro hn
    rw [if_neg hn] at h1
    omega
  have hph : ¬ Closed s0.phase := by
    cases hst with
    | step hs _ =>
      cases hs with
      | shutdown hp => rw [hp]; exact fun h => h
  obtain ⟨c1, c2⟩ := clear_steps (k := s0.next) hst o0 (Nat.le_refl _) (fun h => absurd h hph)
  have hcl : Closed s2.phase := by
    cases hs2 with
    | return_ hp _ => rw [hp]; trivial
  obtain ⟨e1, e2⟩ := c2 hcl id hlt
  have h3 := (ok_run r2).places id
  rw [if_pos (by omega)] at h3
  by_cases hz : (h1 ++ Event.shutdownCalled :: h2).countP (isGivenUp id) = 0
  · left; omega
  · right; exact givenUp_iff.2 (Nat.pos_of_ne_zero hz)

example : ∃ h1 h2 s, Run (h1 ++ .shutdownCalled :: (h2 ++ [.shutdownReturned])) s ∧
    .initiated 0 ∈ h1 ∧ .calledBack 0 ∈ h2 := by
  have r := Run.start
  have r := Run.step r .initiate
  have r := Run.step r (.forward (id := 0) (by simp))
  have r := Run.step r (.shutdown rfl)
  have r := Run.step r (.callBack (id := 0) rfl rfl (by simp))
  have r := Run.step r (.complete (id := 0) rfl)
  have r := Run.step r (.notify rfl rfl)
  have r := Run.step r (.end_ rfl rfl rfl)
  have r := Run.step r (.return_ rfl rfl)
  exact ⟨[.initiated 0, .forwarded 0], [.calledBack 0, .silent, .silent, .silent], _, r,
    by simp, by simp⟩

/-! ### C188: the end of the client -/

private def phaseWeight : Phase → Nat
  | .running => 0
  | .waiting => 3
  | .notified => 1
  | .returned => 0

private def work (s : Client) : Nat :=
  3 * s.sending.length + 2 * s.inflight.length + s.completing.toList.length + phaseWeight s.phase +
    (if s.ended then 0 else 1)

private theorem work_step {s e s'} (hs : Step s e s') (he : ∀ id, e ≠ .initiated id)
    (hp : s.phase ≠ .running) : work s' < work s ∧ s'.phase ≠ .running := by
  cases hs with
  | initiate => exact absurd rfl (he _)
  | notForward hm =>
    have := length_erase' hm
    exact ⟨by unfold work; dsimp only; omega, hp⟩
  | forward hm =>
    have := length_erase' hm
    exact ⟨by unfold work; simp only [List.length_cons]; omega, hp⟩
  | noOutput _ _ hm =>
    have := length_erase' hm
    exact ⟨by unfold work; dsimp only; omega, hp⟩
  | callBack _ hc hm =>
    have := length_erase' hm
    refine ⟨?_, hp⟩
    unfold work
    rw [hc]
    simp only [Option.toList, List.length_cons, List.length_nil]
    omega
  | complete hc =>
    refine ⟨?_, hp⟩
    unfold work
    rw [hc]
    simp only [Option.toList, List.length_cons, List.length_nil]
    omega
  | shutdown hr => exact absurd hr hp
  | notify hw _ =>
    refine ⟨?_, fun h => (by cases h)⟩
    unfold work
    rw [hw]
    simp only [phaseWeight]
    omega
  | end_ _ hen _ =>
    refine ⟨?_, hp⟩
    unfold work
    rw [hen]
    simp
  | return_ hn _ =>
    refine ⟨?_, fun h => (by cases h)⟩
    unfold work
    rw [hn]
    simp only [phaseWeight]
    omega

private theorem work_steps {s h s'} (hs : Steps s h s') (he : NoNewRpc h) (hp : s.phase ≠ .running) :
    work s' + h.length ≤ work s ∧ s'.phase ≠ .running ∧
      (s'.phase = .returned → s.phase = .returned ∨ .shutdownReturned ∈ h) := by
  induction hs with
  | done => exact ⟨Nat.le_refl _, hp, Or.inl⟩
  | @step s e s1 h s2 hs _ ih =>
    obtain ⟨h1, h2⟩ := work_step hs (fun id hid => he id (hid ▸ List.mem_cons_self)) hp
    obtain ⟨h3, h4, h5⟩ := ih (fun id hid => he id (List.mem_cons_of_mem _ hid)) h2
    refine ⟨by rw [List.length_cons]; omega, h4, fun hr => ?_⟩
    rcases h5 hr with h5 | h5
    · cases hs with
      | shutdown _ => cases h5
      | notify _ _ => cases h5
      | return_ _ _ => exact Or.inr List.mem_cons_self
      | _ => exact Or.inl h5
    · exact Or.inr (List.mem_cons_of_mem _ h5)

private theorem pending_le {h s} (r : Run h s) : s.pending ≤ h.length ∧
    (s.ended = true → Closed s.phase) := by
  induction r with
  | start => exact ⟨Nat.le_refl 0, fun h => (by cases h)⟩
  | @step h s e s' _ hs ih =>
    obtain ⟨i1, i2⟩ := ih
    have hl : (h ++ [e]).length = h.length + 1 := by simp
    cases hs with
    | shutdown hp =>
      refine ⟨by dsimp only; omega, fun he => ?_⟩
      have := i2 he
      rw [hp] at this
      cases this
    | notify _ _ => exact ⟨by dsimp only; omega, fun _ => trivial⟩
    | end_ hp _ _ => exact ⟨by dsimp only; omega, fun _ => by dsimp only; rw [hp]; trivial⟩
    | return_ _ _ => exact ⟨by dsimp only; omega, fun _ => trivial⟩
    | _ => exact ⟨by dsimp only; omega, i2⟩

/-- C188: after `ShutdownClient` is called and until it returns, something other than a new RPC can
happen: Mercury answers an RPC, or a thread gets on. -/
theorem C188_progress {h1 h2 : List Event} {s : Client} (r : Run (h1 ++ .shutdownCalled :: h2) s)
    (hn : NoNewRpc h2) :
    .shutdownReturned ∈ h2 ∨ ∃ e s', Step s e s' ∧ ∀ id, e ≠ .initiated id := by
  obtain ⟨s0, r0, hst⟩ := run_split r
  have hend := (pending_le r).2
  cases hst with
  | step hs hst =>
    cases hs with
    | shutdown hp =>
      obtain ⟨_, w2, w3⟩ := work_steps hst hn (fun h => (by cases h))
      have hpend := (ok_run r).pending
      match hph : s.phase with
      | .running => exact absurd hph w2
      | .returned =>
        rcases w3 hph with h | h
        · cases h
        · exact Or.inl h
      | .notified =>
        refine Or.inr ?_
        match hc : s.completing with
        | some id => exact ⟨_, _, .complete hc, fun _ h => (by cases h)⟩
        | none =>
          cases he : s.ended
          · exact ⟨_, _, .end_ hph he hc, fun _ h => (by cases h)⟩
          · exact ⟨_, _, .return_ hph he, fun _ h => (by cases h)⟩
      | .waiting =>
        refine Or.inr ?_
        have hne : s.ended = false := by
          cases he : s.ended
          · rfl
          · have := hend he
            rw [hph] at this
            cases this
        match hc : s.completing with
        | some id => exact ⟨_, _, .complete hc, fun _ h => (by cases h)⟩
        | none =>
          match hsd : s.sending with
          | id :: rest =>
            exact ⟨_, _, .forward (id := id) (by rw [hsd]; exact List.mem_cons_self),
              fun _ h => (by cases h)⟩
          | [] =>
            match hin : s.inflight with
            | id :: rest =>
              exact ⟨_, _, .callBack (id := id) hne hc (by rw [hin]; exact List.mem_cons_self),
                fun _ h => (by cases h)⟩
            | [] =>
              refine ⟨_, _, .notify hph ?_, fun _ h => (by cases h)⟩
              rw [hpend, hsd, hin, hc]
              rfl

/-- C188: and only a bounded number of things can happen, so it returns. -/
theorem C188_bounded {h1 h2 : List Event} {s : Client} (r : Run (h1 ++ .shutdownCalled :: h2) s)
    (hn : NoNewRpc h2) : h2.length ≤ 3 * h1.length + 4 := by
  obtain ⟨s0, r0, hst⟩ := run_split r
  cases hst with
  | step hs hst =>
    cases hs with
    | shutdown hp =>
      obtain ⟨w1, _, _⟩ := work_steps hst hn (fun h => (by cases h))
      have hpend := (ok_run r0).pending
      have hle := (pending_le r0).1
      unfold work at w1
      dsimp only [phaseWeight] at w1
      have : (if s0.ended = true then 0 else 1) ≤ 1 := by split <;> omega
      omega

/-! ### C189: the state of an RPC -/

/-- C189, for RPCs that succeed: when the callback runs, the state holds the request that was sent and
the response that came. -/
theorem C189_success_partial (s s' : RpcState) (output : Output)
    (h : finishState (initiateState s).1 (initiateState s).2 output = some s')
    (hs : s'.success = true) :
    s'.request = s.request ∧ ∃ response, output = .parsed response ∧ s'.response = some response := by
  cases output with
  | failed => cases h
  | unparsable => cases h; cases hs
  | parsed response => cases h; exact ⟨rfl, response, rfl, rfl⟩

/-- C189: the RPC is reported as a success exactly if there is a response that can be parsed. -/
theorem C189_failure (s s' : RpcState) (output : Output)
    (h : finishState (initiateState s).1 (initiateState s).2 output = some s') :
    s'.success = true ↔ ∃ response, output = .parsed response := by
  cases output with
  | failed => cases h
  | unparsable =>
    cases h
    exact ⟨fun h => (by cases h), fun ⟨_, h⟩ => (by cases h)⟩
  | parsed response => cases h; exact ⟨fun _ => ⟨response, rfl⟩, fun _ => rfl⟩

example : ∃ s', finishState (initiateState { request := { size := 16, warmup := true } }).1
    (initiateState { request := { size := 16, warmup := true } }).2 (.parsed [1]) = some s' ∧
    s'.success = true := ⟨_, rfl, rfl⟩

/-- C189 does not hold: the request of an RPC whose response cannot be parsed is lost, so that a warmup
RPC is counted as if it were none. -/
theorem C189_negation : ∃ s s' : RpcState, s.request.warmup = true ∧
    finishState (initiateState s).1 (initiateState s).2 .unparsable = some s' ∧
    s'.request.warmup = false ∧ s'.request.size = 0 :=
  ⟨{ request := { size := 16, warmup := true } }, _, rfl, rfl, rfl, rfl⟩

/-! ### C190: messages -/

private theorem decodeInt64_encode : ∀ (k n : Nat) (rest : List Nat), n < 256 ^ k →
    decodeInt64 k (encodeInt64 n k ++ rest) = some (n, rest) := by
  intro k
  induction k with
  | zero =>
    intro n rest h
    have : n = 0 := by rw [Nat.pow_zero] at h; omega
    subst this
    rfl
  | succ k ih =>
    intro n rest h
    have h' : n / 256 < 256 ^ k := by
      rw [Nat.pow_succ] at h
      omega
    rw [encodeInt64, List.cons_append, decodeInt64, ih _ _ h']
    simp only [Option.some.injEq, Prod.mk.injEq, and_true]
    omega

/-- C190: a message that was encoded is decoded to the same string, whatever follows it. -/
theorem C190_roundtrip (string rest : List Nat) (h : string.length < 2 ^ 64) :
    decode (encode string ++ rest) = some (string, rest) := by
  have h' : string.length < 256 ^ 8 := by simpa using h
  have h1 : readSize 0 (encode string ++ rest) =
      (string.length, encodeInt64 string.length 8 ++ (string ++ rest)) := by
    unfold readSize encode
    rw [List.append_assoc, List.append_assoc, decodeInt64_encode 8 _ _ h']
  have h2 : readSize string.length (encodeInt64 string.length 8 ++ (string ++ rest)) =
      (string.length, string ++ rest) := by
    unfold readSize
    rw [decodeInt64_encode 8 _ _ h']
  unfold decode
  rw [h1]
  dsimp only
  rw [h2]
  simp

/-- C190: the encoding is 16 bytes longer than the string, and consists of bytes if the string does. -/
theorem C190_size (string : List Nat) : (encode string).length = string.length + 16 ∧
    ((∀ b ∈ string, b < 256) → ∀ b ∈ encode string, b < 256) := by
  have hl : ∀ k n, (encodeInt64 n k).length = k := by
    intro k
    induction k with
    | zero => intro n; rfl
    | succ k ih => intro n; rw [encodeInt64, List.length_cons, ih]
  have hb : ∀ k n, ∀ b ∈ encodeInt64 n k, b < 256 := by
    intro k
    induction k with
    | zero => intro n b hb; cases hb
    | succ k ih =>
      intro n b hb
      rw [encodeInt64] at hb
      rcases List.mem_cons.1 hb with h | h
      · subst h; exact Nat.mod_lt _ (by decide)
      · exact ih _ b h
  constructor
  · unfold encode
    rw [List.length_append, List.length_append, hl]
    omega
  · intro hs b hm
    unfold encode at hm
    rw [List.mem_append, List.mem_append] at hm
    rcases hm with (h | h) | h
    · exact hb _ _ b h
    · exact hb _ _ b h
    · exact hs b h

example : decode (encode [7, 8, 9] ++ [1]) = some ([7, 8, 9], [1]) :=
  C190_roundtrip [7, 8, 9] [1] (by decide)

end Distbench.Mercury
