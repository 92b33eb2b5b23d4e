import Verif.Spec.GrpcServer

/-! The invariant of the polling server. -/

namespace Distbench.GrpcServer
open Spec

/-- An object that waits for a request, or whose request (or refusal) the thread has not taken. -/
def Fresh (b : Bool) (x : Fsm) : Prop :=
  x.alive = true ∧ x.refs = 1 ∧ x.state = .processing ∧ x.job = .none ∧ b = false ∧
    (x.pending = .requested ∨ ∃ ok, x.pending = .tag ok)

/-- An object whose request was given to the handler; `b`: the thread is still there. -/
def Used (b : Bool) (x : Fsm) : Prop :=
  x.alive = true ∧ x.state = (if b then .processing else .finished) ∧
    ((x.job = .working ∧ x.pending = .idle ∧ x.refs = 2) ∨
     (x.job = .answered ∧ (x.pending = .sending ∨ ∃ ok, x.pending = .tag ok) ∧ x.refs = 2) ∨
     (x.job = .answered ∧ x.pending = .idle ∧ x.refs = 1 ∧ b = false) ∨
     (x.job = .none ∧ (x.pending = .sending ∨ ∃ ok, x.pending = .tag ok) ∧ x.refs = 1))

/-- A deleted object, or one not made yet. -/
def Gone (b : Bool) (x : Fsm) : Prop :=
  x.alive = false ∧ x.pending = .idle ∧ x.job = .none ∧ b = false

/-- What holds of each object. -/
def Good (b : Bool) (x : Fsm) : Prop := Fresh b x ∨ Used b x ∨ Gone b x

/-- Whether the thread is in the handler of this object. -/
def at_ (s : Server) (f : Nat) : Bool := decide (s.busy = some f)

/-- The effect of a step, in a state that satisfies the invariant. -/
def Effect (s : Server) (op : Op) (s' : Server) : Prop :=
  match op with
  | .arrive f => (s.fsm f).pending = .requested ∧ s.closing = false ∧
      s' = s.set f { s.fsm f with pending := .tag true }
  | .refuse f => (s.fsm f).pending = .requested ∧ s.closing = true ∧
      s' = s.set f { s.fsm f with pending := .tag false }
  | .take f => s.busy = none ∧ s.exited = false ∧
      ((Fresh false (s.fsm f) ∧ (s.fsm f).pending = .tag true ∧
          s' = { s with
            fsm := fun g => if g = f then { s.fsm f with pending := .idle, refs := 2, job := .working }
              else if g = s.made ∧ s.postNew then
                { alive := true, refs := 1, state := .processing, pending := .requested }
              else s.fsm g
            made := if s.postNew then s.made + 1 else s.made
            busy := some f
            log := s.log ++ [.handled f] }) ∨
       (Used false (s.fsm f) ∧ (s.fsm f).pending = .tag true ∧
          s' = s.set f { s.fsm f with pending := .idle, refs := (s.fsm f).refs - 1
                                      alive := (s.fsm f).refs ≠ 1 }) ∨
       (Good false (s.fsm f) ∧ (s.fsm f).pending = .tag false ∧
          s' = { s.set f { s.fsm f with pending := .idle, refs := (s.fsm f).refs - 1
                                        alive := (s.fsm f).refs ≠ 1 } with
                 detected := true, postNew := false }))
  | .settle => ∃ f, s.busy = some f ∧
      s' = { s.set f { s.fsm f with state := .finished } with busy := none }
  | .send f => (s.fsm f).job = .working ∧
      s' = { s.set f { s.fsm f with pending := .sending, job := .answered } with
        log := s.log ++ [.answered f] }
  | .sent f ok => (s.fsm f).pending = .sending ∧
      s' = s.set f { s.fsm f with pending := .tag ok }
  | .free f => (s.fsm f).job = .answered ∧
      s' = s.set f { s.fsm f with job := .none, refs := (s.fsm f).refs - 1
                                  alive := (s.fsm f).refs ≠ 1 }
  | .close => s.closing = false ∧ s' = { s with closing := true }
  | .shutQueue => s.closing = true ∧ s.detected = true ∧ callsOver s = true ∧ s.queueShut = false ∧
      s' = { s with queueShut := true }
  | .exit => s.queueShut = true ∧ s.busy = none ∧ drained s = true ∧ s.exited = false ∧
      s' = { s with exited := true }

/-- An object that waits for a request, or whose request was not taken yet. -/
def Accepting (s : Server) (f : Nat) : Prop := Fresh (at_ s f) (s.fsm f)

/-- What holds in every state that can be reached. -/
structure Inv (s : Server) : Prop where
  good : ∀ f, Good (at_ s f) (s.fsm f)
  unmade : ∀ f, s.made ≤ f → s.fsm f = {}
  post : s.postNew = !s.detected
  shut : s.queueShut = true → s.closing = true ∧ s.detected = true ∧
    ∀ f, (s.fsm f).job ≠ .working ∧ (s.fsm f).pending ≠ .sending ∧
      ¬ (Accepting s f ∧ (s.fsm f).pending = .tag true)
  exited : s.exited = true → s.queueShut = true ∧ s.busy = none ∧ ∀ f, (s.fsm f).pending = .idle
  unique : ∀ f g, Accepting s f → Accepting s g → f = g
  some_ : s.detected = false → ∃ f, Accepting s f

theorem fresh_made {s : Server} (h : Inv s) {f : Nat} (hf : (s.fsm f).pending ≠ .idle) :
    f < s.made := by
  by_cases hm : s.made ≤ f
  · rw [h.unmade f hm] at hf; simp at hf
  · omega

theorem bind_ok {α β : Type} (a : α) (f : α → Outcome β) : (Outcome.ok a).bind f = f a := rfl

theorem access_ok {s : Server} {f : Nat} (h : (s.fsm f).alive = true) :
    access s f = .ok (s.fsm f) := by simp [access, h]

theorem set_fsm (s : Server) (f : Nat) (x : Fsm) (g : Nat) :
    (s.set f x).fsm g = if g = f then x else s.fsm g := rfl

theorem set_self (s : Server) (f : Nat) (x : Fsm) : (s.set f x).fsm f = x := by simp [Server.set]

theorem set_set (s : Server) (f : Nat) (x y : Fsm) : (s.set f x).set f y = s.set f y := by
  simp only [Server.set, Server.mk.injEq, and_true]
  funext g
  split <;> rfl

theorem set_other (s : Server) (f : Nat) (x : Fsm) :
    (s.set f x).made = s.made ∧ (s.set f x).busy = s.busy ∧ (s.set f x).postNew = s.postNew ∧
    (s.set f x).detected = s.detected ∧ (s.set f x).closing = s.closing ∧
    (s.set f x).queueShut = s.queueShut ∧ (s.set f x).exited = s.exited ∧
    (s.set f x).log = s.log := ⟨rfl, rfl, rfl, rfl, rfl, rfl, rfl, rfl⟩

/-- A server with one more object, which waits for a request. -/
def withNew (s : Server) : Server :=
  { s with
    fsm := fun g => if g = s.made then
      { alive := true, refs := 1, state := .processing, pending := .requested } else s.fsm g
    made := s.made + 1 }

theorem create_ok {s : Server} (h : s.queueShut = false) : create s = .ok (withNew s) := by
  unfold create submit
  simp only [access, Server.set, if_true, bind_ok, h, and_self]
  simp only [withNew, Outcome.ok.injEq, Server.mk.injEq, and_true, true_and]
  refine ⟨?_, h.symm⟩
  funext g
  split <;> rfl

/-- In a state that satisfies the invariant no step goes wrong, and it has the effect above. -/
theorem step_effect {s : Server} (h : Inv s) {op : Op} {o : Outcome Server}
    (hs : step s op = some o) : ∃ s', o = .ok s' ∧ Effect s op s' := by
  cases op with
  | arrive f =>
    simp only [step] at hs
    split at hs
    · rename_i hc; cases hs; exact ⟨_, rfl, hc.1, hc.2, rfl⟩
    · simp at hs
  | refuse f =>
    simp only [step] at hs
    split at hs
    · rename_i hc; cases hs; exact ⟨_, rfl, hc.1, hc.2, rfl⟩
    · simp at hs
  | take f =>
    simp only [step] at hs
    split at hs
    · rename_i hc
      split at hs
      · rename_i ok hp
        have hb : at_ s f = false := by simp [at_, hc.1]
        have hg := h.good f
        rw [hb] at hg
        have hal : (s.fsm f).alive = true := by
          rcases hg with hg | hg | hg
          · exact hg.1
          · exact hg.1
          · rw [hg.2.1] at hp; simp at hp
        cases ok with
        | false =>
          simp only [Bool.false_eq_true, if_false, Option.some.injEq] at hs
          subst hs
          refine ⟨_, by
            unfold decRef access
            simp only [set_self, hal, if_true, bind_ok]; rfl, hc.1, hc.2, Or.inr (Or.inr ⟨hg, hp, ?_⟩)⟩
          simp only [Server.set, Server.mk.injEq, and_true]
          funext g
          split <;> rfl
        | true =>
          simp only [if_true, Option.some.injEq] at hs
          subst hs
          rcases hg with hg | hg | hg
          · have hq : s.postNew = true → s.queueShut = false := by
              intro hpn
              cases hqs : s.queueShut with
              | false => rfl
              | true =>
                have := (h.shut hqs).2.1
                rw [h.post, this] at hpn
                simp at hpn
            have hlt : f < s.made := fresh_made h (by rw [hp]; simp)
            have hst := hg.2.2.1
            have hre := hg.2.1
            refine ⟨_, ?_, hc.1, hc.2, Or.inl ⟨hg, hp, rfl⟩⟩
            unfold rpcHandlerFsm
            rw [access_ok (by rw [set_self]; exact hal), bind_ok, set_self]
            simp only [hst]
            cases hpn : s.postNew with
            | false =>
              simp only [(set_other s f _).2.2.1, hpn, Bool.false_eq_true, if_false, bind_ok,
                handleRpc, access, set_self, hal, if_true, and_false]
              simp only [Server.set, hre, Outcome.ok.injEq, Server.mk.injEq, and_true, hpn, hst]
              funext g
              split <;> simp_all
            | true =>
              simp only [(set_other s f _).2.2.1, hpn, if_true]
              rw [create_ok (by rw [(set_other s f _).2.2.2.2.2.1]; exact hq hpn), bind_ok]
              have hne : f ≠ s.made := by omega
              simp only [handleRpc, access, withNew, Server.set, hne, if_false, if_true, hal, bind_ok]
              simp only [hre, Outcome.ok.injEq, Server.mk.injEq, and_true, hpn, hst]
              funext g
              by_cases h1 : g = f
              · subst h1; simp
              · simp [h1]
          · have hst : (s.fsm f).state = .finished := hg.2.1
            refine ⟨_, ?_, hc.1, hc.2, Or.inr (Or.inl ⟨hg, hp, rfl⟩)⟩
            unfold rpcHandlerFsm
            rw [access_ok (by rw [set_self]; exact hal), bind_ok, set_self]
            simp only [hst]
            unfold decRef
            rw [access_ok (by rw [set_self]; exact hal), bind_ok, set_self, set_set]
          · rw [hg.2.1] at hp; simp at hp
      · simp at hs
    · simp at hs
  | settle =>
    simp only [step] at hs
    split at hs
    · rename_i f hf
      simp only [Option.some.injEq] at hs
      subst hs
      have hal : (s.fsm f).alive = true := by
        rcases h.good f with hg | hg | hg
        · exact hg.1
        · exact hg.1
        · have := hg.2.2.2; simp [at_, hf] at this
      refine ⟨_, by rw [access_ok hal, bind_ok], f, hf, rfl⟩
    · simp at hs
  | send f =>
    simp only [step] at hs
    split at hs
    · rename_i hj
      simp only [Option.some.injEq] at hs
      subst hs
      have hu : (s.fsm f).alive = true ∧ (s.fsm f).pending = .idle := by
        rcases h.good f with hg | hg | hg
        · rw [hg.2.2.2.1] at hj; simp at hj
        · refine ⟨hg.1, ?_⟩
          rcases hg.2.2 with hw | hw | hw | hw
          · exact hw.2.1
          · rw [hw.1] at hj; simp at hj
          · rw [hw.1] at hj; simp at hj
          · rw [hw.1] at hj; simp at hj
        · rw [hg.2.2.1] at hj; simp at hj
      have hq : s.queueShut = false := by
        cases hqs : s.queueShut with
        | false => rfl
        | true => exact absurd hj ((h.shut hqs).2.2 f).1
      refine ⟨_, ?_, hj, rfl⟩
      unfold submit
      rw [access_ok hu.1, bind_ok, if_pos ⟨hu.2, hq⟩, bind_ok,
        access_ok (by rw [set_self]; exact hu.1), bind_ok, set_self, set_set]
      rfl
    · simp at hs
  | sent f ok =>
    simp only [step] at hs
    split at hs
    · rename_i hc; cases hs; exact ⟨_, rfl, hc, rfl⟩
    · simp at hs
  | free f =>
    simp only [step] at hs
    split at hs
    · rename_i hj
      simp only [Option.some.injEq] at hs
      subst hs
      have hal : (s.fsm f).alive = true := by
        rcases h.good f with hg | hg | hg
        · exact hg.1
        · exact hg.1
        · rw [hg.2.2.1] at hj; simp at hj
      refine ⟨_, ?_, hj, rfl⟩
      unfold decRef
      rw [access_ok (by rw [set_self]; exact hal), bind_ok, set_self, set_set]
    · simp at hs
  | close =>
    simp only [step] at hs
    split at hs
    · simp at hs
    · rename_i hc; cases hs; exact ⟨_, rfl, by simpa using hc, rfl⟩
  | shutQueue =>
    simp only [step] at hs
    split at hs
    · rename_i hc; cases hs; exact ⟨_, rfl, hc.1, hc.2.1, hc.2.2.1, hc.2.2.2, rfl⟩
    · simp at hs
  | exit =>
    simp only [step] at hs
    split at hs
    · rename_i hc; cases hs; exact ⟨_, rfl, hc.1, hc.2.1, hc.2.2.1, hc.2.2.2, rfl⟩
    · simp at hs

/-! ### the invariant is kept -/

theorem at_set (s : Server) (f g : Nat) (x : Fsm) : at_ (s.set f x) g = at_ s g := rfl

theorem not_fresh_used {b : Bool} {x : Fsm} (h : Used b x) : ¬ Fresh b x := by
  intro hf
  have h1 := h.2.1
  rw [hf.2.2.2.2.1, hf.2.2.1] at h1
  simp at h1

theorem not_fresh_gone {b : Bool} {x : Fsm} (h : Gone b x) : ¬ Fresh b x := by
  intro hf
  have h1 := h.1
  rw [hf.1] at h1
  simp at h1

/-- Changing one object that stays as fresh as it was. -/
theorem inv_set {s : Server} (h : Inv s) {f : Nat} {x : Fsm} (hf : f < s.made)
    (hg : Good (at_ s f) x) (hx : Fresh (at_ s f) x ↔ Fresh (at_ s f) (s.fsm f))
    (hq : s.queueShut = true → x.job ≠ .working ∧ x.pending ≠ .sending ∧
      ¬ (Fresh (at_ s f) x ∧ x.pending = .tag true))
    (he : s.exited = true → x.pending = .idle) : Inv (s.set f x) := by
  have hacc : ∀ g, Accepting (s.set f x) g ↔ Accepting s g := by
    intro g
    unfold Accepting
    rw [at_set, set_fsm]
    split
    · rename_i hgf; subst hgf; exact hx
    · exact Iff.rfl
  constructor
  · intro g
    rw [at_set, set_fsm]
    split
    · rename_i hgf; subst hgf; exact hg
    · exact h.good g
  · intro g hgm
    rw [set_fsm, if_neg]
    · exact h.unmade g hgm
    · intro hgf; subst hgf; exact absurd hgm (by show ¬ s.made ≤ g; omega)
  · exact h.post
  · intro hqs
    obtain ⟨h1, h2, h3⟩ := h.shut hqs
    refine ⟨h1, h2, fun g => ?_⟩
    rw [hacc, set_fsm]
    split
    · rename_i hgf
      subst hgf
      have := hq hqs
      rw [hx] at this
      exact this
    · exact h3 g
  · intro hex
    obtain ⟨h1, h2, h3⟩ := h.exited hex
    refine ⟨h1, h2, fun g => ?_⟩
    rw [set_fsm]
    split
    · exact he hex
    · exact h3 g
  · intro a b ha hb
    exact h.unique a b ((hacc a).1 ha) ((hacc b).1 hb)
  · intro hd
    obtain ⟨g, hg⟩ := h.some_ hd
    exact ⟨g, (hacc g).2 hg⟩

theorem made_of {s : Server} (h : Inv s) {f : Nat} (hf : s.fsm f ≠ {}) : f < s.made := by
  by_cases hm : s.made ≤ f
  · exact absurd (h.unmade f hm) hf
  · omega

/-- Dropping a reference of a used object whose operation was taken. -/
theorem good_taken {x : Fsm} (h : Used false x) {ok : Bool} (hp : x.pending = .tag ok) :
    Used false { x with pending := .idle, refs := x.refs - 1, alive := decide (x.refs ≠ 1) } ∨
    Gone false { x with pending := .idle, refs := x.refs - 1, alive := decide (x.refs ≠ 1) } := by
  rcases h.2.2 with hw | hw | hw | hw
  · rw [hw.2.1] at hp; simp at hp
  · left
    refine ⟨by simp [hw.2.2], h.2.1, Or.inr (Or.inr (Or.inl ⟨hw.1, rfl, by simp [hw.2.2], rfl⟩))⟩
  · rw [hw.2.1] at hp; simp at hp
  · right
    exact ⟨by simp [hw.2.2], rfl, hw.1, rfl⟩

theorem inv_step {s s' : Server} (h : Inv s) {op : Op} (hs : step s op = some (.ok s')) :
    Inv s' := by
  obtain ⟨s'', h1, he⟩ := step_effect h hs
  simp only [Outcome.ok.injEq] at h1
  subst h1
  cases op with
  | arrive f =>
    obtain ⟨hp, hc, rfl⟩ := he
    have hfr : Fresh (at_ s f) (s.fsm f) := by
      rcases h.good f with hg | hg | hg
      · exact hg
      · rcases hg.2.2 with hw | hw | hw | hw <;> simp [hp] at hw
      · simp [hg.2.1] at hp
    have hfr' : Fresh (at_ s f) { s.fsm f with pending := .tag true } :=
      ⟨hfr.1, hfr.2.1, hfr.2.2.1, hfr.2.2.2.1, hfr.2.2.2.2.1, Or.inr ⟨true, rfl⟩⟩
    have hq : s.queueShut ≠ true := fun hq => by have := (h.shut hq).1; rw [hc] at this; simp at this
    exact inv_set h (fresh_made h (by simp [hp])) (Or.inl hfr') ⟨fun _ => hfr, fun _ => hfr'⟩
      (fun hq' => absurd hq' hq) (fun hex => absurd (h.exited hex).1 hq)
  | refuse f =>
    obtain ⟨hp, hc, rfl⟩ := he
    have hfr : Fresh (at_ s f) (s.fsm f) := by
      rcases h.good f with hg | hg | hg
      · exact hg
      · rcases hg.2.2 with hw | hw | hw | hw <;> simp [hp] at hw
      · simp [hg.2.1] at hp
    have hfr' : Fresh (at_ s f) { s.fsm f with pending := .tag false } :=
      ⟨hfr.1, hfr.2.1, hfr.2.2.1, hfr.2.2.2.1, hfr.2.2.2.2.1, Or.inr ⟨false, rfl⟩⟩
    refine inv_set h (fresh_made h (by simp [hp])) (Or.inl hfr') ⟨fun _ => hfr, fun _ => hfr'⟩
      (fun _ => ⟨?_, by simp, by simp⟩) (fun hex => ?_)
    · simp [hfr.2.2.2.1]
    · have := (h.exited hex).2.2 f; simp [hp] at this
  | take f =>
    obtain ⟨hb, hx, hcase⟩ := he
    have hat : ∀ g, at_ s g = false := fun g => by simp [at_, hb]
    rcases hcase with ⟨hfr, hp, rfl⟩ | ⟨hu, hp, rfl⟩ | ⟨hg, hp, rfl⟩
    · have hlt : f < s.made := fresh_made h (by simp [hp])
      have hacc : Accepting s f := by unfold Accepting; rw [hat]; exact hfr
      have hq : s.queueShut = false := by
        cases hqs : s.queueShut with
        | false => rfl
        | true => exact absurd ⟨hacc, hp⟩ ((h.shut hqs).2.2 f).2.2
      have hused : Used true { s.fsm f with pending := .idle, refs := 2, job := .working } :=
        ⟨hfr.1, by simp [hfr.2.2.1], Or.inl ⟨rfl, rfl, rfl⟩⟩
      have hnew : Fresh false
          { alive := true, refs := 1, state := .processing, pending := .requested } :=
        ⟨rfl, rfl, rfl, rfl, rfl, Or.inl rfl⟩
      have only : ∀ g, g ≠ f → ¬ Fresh false (s.fsm g) := by
        intro g hg hfg
        exact hg (h.unique g f (by unfold Accepting; rw [hat]; exact hfg) hacc)
      constructor
      · intro g
        by_cases h1 : g = f
        · subst h1
          simp only [at_, decide_true, if_true]
          exact Or.inr (Or.inl hused)
        · have h2 : ¬ f = g := fun e => h1 e.symm
          simp only [at_, Option.some.injEq, h2, decide_false, h1, if_false]
          split
          · exact Or.inl hnew
          · have := h.good g; rw [hat] at this; exact this
      · intro g hg
        have hle : s.made ≤ g := by
          dsimp only at hg; split at hg <;> omega
        have h1 : g ≠ f := by omega
        simp only [h1, if_false]
        rw [if_neg]
        · exact h.unmade g hle
        · rintro ⟨rfl, hpn⟩
          dsimp only at hg
          rw [if_pos hpn] at hg
          omega
      · exact h.post
      · intro hqs; dsimp only at hqs; rw [hq] at hqs; simp at hqs
      · intro hex; dsimp only at hex; rw [hx] at hex; simp at hex
      · have key : ∀ a, Accepting { s with
            fsm := fun g => if g = f then { s.fsm f with pending := .idle, refs := 2, job := .working }
              else if g = s.made ∧ s.postNew then
                { alive := true, refs := 1, state := .processing, pending := .requested }
              else s.fsm g
            made := if s.postNew then s.made + 1 else s.made
            busy := some f
            log := s.log ++ [.handled f] } a → a = s.made := by
          intro a ha
          by_cases h1 : a = f
          · subst h1
            simp only [Accepting, at_, decide_true, if_true] at ha
            exact absurd ha (not_fresh_used hused)
          · have h2 : ¬ f = a := fun e => h1 e.symm
            simp only [Accepting, at_, Option.some.injEq, h2, decide_false, h1, if_false] at ha
            split at ha
            · rename_i hm; exact hm.1
            · exact absurd ha (only a h1)
        intro a b ha hb'
        rw [key a ha, key b hb']
      · intro hd
        refine ⟨s.made, ?_⟩
        have hpn : s.postNew = true := by rw [h.post]; dsimp only at hd; simp [hd]
        have h1 : s.made ≠ f := by omega
        have h2 : ¬ f = s.made := by omega
        simp only [Accepting, at_, Option.some.injEq, h2, decide_false, h1, if_false]
        rw [if_pos ⟨trivial, hpn⟩]
        exact hnew
    · have hgood := good_taken hu hp
      refine inv_set h (fresh_made h (by simp [hp])) (by rw [hat]; exact Or.inr hgood) ?_ ?_
        (fun _ => rfl)
      · rw [hat]
        refine ⟨fun hf => ?_, fun hf => absurd hf (not_fresh_used hu)⟩
        rcases hgood with hg | hg
        · exact absurd hf (not_fresh_used hg)
        · exact absurd hf (not_fresh_gone hg)
      · intro hqs
        exact ⟨((h.shut hqs).2.2 f).1, by simp, by simp⟩
    · have hlt := fresh_made h (f := f) (by simp [hp])
      have hgood : Used false { s.fsm f with
            pending := .idle, refs := (s.fsm f).refs - 1, alive := decide ((s.fsm f).refs ≠ 1) } ∨
          Gone false { s.fsm f with
            pending := .idle, refs := (s.fsm f).refs - 1, alive := decide ((s.fsm f).refs ≠ 1) } := by
        rcases hg with hg | hg | hg
        · right
          exact ⟨by simp [hg.2.1], rfl, hg.2.2.2.1, rfl⟩
        · exact good_taken hg hp
        · rw [hg.2.1] at hp; simp at hp
      have hjob : s.queueShut = true → (s.fsm f).job ≠ .working := fun hqs => ((h.shut hqs).2.2 f).1
      generalize hxx : ({ s.fsm f with
          pending := .idle, refs := (s.fsm f).refs - 1
          alive := decide ((s.fsm f).refs ≠ 1) } : Fsm) = x at hgood
      have hxj : x.job = (s.fsm f).job := by rw [← hxx]
      have hxp : x.pending = .idle := by rw [← hxx]
      have hnf : ¬ Fresh false x := by
        rcases hgood with hg | hg
        · exact not_fresh_used hg
        · exact not_fresh_gone hg
      have hat' : ∀ g, at_ { s.set f x with detected := true, postNew := false } g = false := hat
      have hacc : ∀ g, Accepting { s.set f x with detected := true, postNew := false } g →
          g ≠ f ∧ Accepting s g := by
        intro g hg
        unfold Accepting at hg ⊢
        rw [hat'] at hg
        rw [hat]
        by_cases h1 : g = f
        · subst h1
          simp only [Server.set, if_true] at hg
          exact absurd hg hnf
        · simp only [Server.set, h1, if_false] at hg
          exact ⟨h1, hg⟩
      constructor
      · intro g
        rw [hat']
        by_cases h1 : g = f
        · simp only [Server.set, h1, if_true]
          exact Or.inr hgood
        · simp only [Server.set, h1, if_false]
          have := h.good g; rw [hat] at this; exact this
      · intro g hgm
        have h1 : g ≠ f := fun e => by subst e; exact absurd hgm (by show ¬ s.made ≤ g; omega)
        simp only [Server.set, h1, if_false]
        exact h.unmade g hgm
      · rfl
      · intro hqs
        obtain ⟨a1, a2, a3⟩ := h.shut hqs
        refine ⟨a1, rfl, fun g => ?_⟩
        by_cases h1 : g = f
        · subst h1
          simp only [Server.set, if_true]
          exact ⟨by rw [hxj]; exact hjob hqs, by simp [hxp], by simp [hxp]⟩
        · simp only [Server.set, h1, if_false]
          refine ⟨(a3 g).1, (a3 g).2.1, fun hh => (a3 g).2.2 ⟨(hacc g hh.1).2, hh.2⟩⟩
      · intro hex
        have : s.exited = true := hex
        rw [hx] at this
        simp at this
      · intro a b ha hb'
        exact h.unique a b (hacc a ha).2 (hacc b hb').2
      · intro hd; simp at hd
  | settle =>
    obtain ⟨f, hf, rfl⟩ := he
    have hused : Used true (s.fsm f) := by
      have hg := h.good f
      have : at_ s f = true := by simp [at_, hf]
      rw [this] at hg
      rcases hg with hg | hg | hg
      · have := hg.2.2.2.2.1; simp at this
      · exact hg
      · have := hg.2.2.2; simp at this
    have hother : ∀ g, g ≠ f → at_ s g = false := fun g hg => by
      simp only [at_, hf, Option.some.injEq, decide_eq_false_iff_not]
      exact fun e => hg e.symm
    have hnew : Used false { s.fsm f with state := .finished } := by
      refine ⟨hused.1, rfl, ?_⟩
      rcases hused.2.2 with hw | hw | hw | hw
      · exact Or.inl hw
      · exact Or.inr (Or.inl hw)
      · have := hw.2.2.2; simp at this
      · exact Or.inr (Or.inr (Or.inr hw))
    have hlt : f < s.made := made_of h (fun e => by have := hused.1; rw [e] at this; simp at this)
    have hacc : ∀ g, Accepting { s.set f { s.fsm f with state := .finished } with busy := none } g ↔
        Accepting s g := by
      intro g
      unfold Accepting
      by_cases h1 : g = f
      · subst h1
        simp only [at_, Server.set, if_true, hf, decide_true]
        exact ⟨fun hh => absurd hh (not_fresh_used hnew), fun hh => absurd hh (not_fresh_used hused)⟩
      · rw [hother g h1]
        simp only [at_, Server.set, h1, if_false]
        exact Iff.rfl
    constructor
    · intro g
      by_cases h1 : g = f
      · subst h1
        simp only [at_, Server.set, if_true]
        exact Or.inr (Or.inl hnew)
      · have := h.good g
        rw [hother g h1] at this
        simp only [at_, Server.set, h1, if_false]
        exact this
    · intro g hgm
      have h1 : g ≠ f := fun e => by subst e; exact absurd hgm (by show ¬ s.made ≤ g; omega)
      simp only [Server.set, h1, if_false]
      exact h.unmade g hgm
    · exact h.post
    · intro hqs
      obtain ⟨a1, a2, a3⟩ := h.shut hqs
      refine ⟨a1, a2, fun g => ?_⟩
      rw [hacc]
      by_cases h1 : g = f
      · subst h1
        simp only [Server.set, if_true]
        exact a3 g
      · simp only [Server.set, h1, if_false]
        exact a3 g
    · intro hex
      have := (h.exited hex).2.1
      rw [hf] at this
      simp at this
    · intro a b ha hb
      exact h.unique a b ((hacc a).1 ha) ((hacc b).1 hb)
    · intro hd
      obtain ⟨g, hg⟩ := h.some_ hd
      exact ⟨g, (hacc g).2 hg⟩
  | send f =>
    obtain ⟨hj, rfl⟩ := he
    have hu : Used (at_ s f) (s.fsm f) := by
      rcases h.good f with hg | hg | hg
      · rw [hg.2.2.2.1] at hj; simp at hj
      · exact hg
      · rw [hg.2.2.1] at hj; simp at hj
    have hr : (s.fsm f).refs = 2 := by
      rcases hu.2.2 with hw | hw | hw | hw
      · exact hw.2.2
      all_goals (rw [hw.1] at hj; simp at hj)
    have hnew : Used (at_ s f) { s.fsm f with pending := .sending, job := .answered } :=
      ⟨hu.1, hu.2.1, Or.inr (Or.inl ⟨rfl, Or.inl rfl, hr⟩)⟩
    have hq : s.queueShut ≠ true := fun hqs => ((h.shut hqs).2.2 f).1 hj
    have := inv_set h (f := f) (x := { s.fsm f with pending := .sending, job := .answered })
      (made_of h (fun e => by rw [e] at hj; simp at hj)) (Or.inr (Or.inl hnew))
      ⟨fun hh => absurd hh (not_fresh_used hnew), fun hh => absurd hh (not_fresh_used hu)⟩
      (fun hqs => absurd hqs hq) (fun hex => absurd (h.exited hex).1 hq)
    exact ⟨this.good, this.unmade, this.post, this.shut, this.exited, this.unique, this.some_⟩
  | sent f ok =>
    obtain ⟨hp, rfl⟩ := he
    have hu : Used (at_ s f) (s.fsm f) := by
      rcases h.good f with hg | hg | hg
      · have := hg.2.2.2.2.2; simp [hp] at this
      · exact hg
      · rw [hg.2.1] at hp; simp at hp
    have hnew : Used (at_ s f) { s.fsm f with pending := .tag ok } := by
      refine ⟨hu.1, hu.2.1, ?_⟩
      rcases hu.2.2 with hw | hw | hw | hw
      · simp [hp] at hw
      · exact Or.inr (Or.inl ⟨hw.1, Or.inr ⟨ok, rfl⟩, hw.2.2⟩)
      · simp [hp] at hw
      · exact Or.inr (Or.inr (Or.inr ⟨hw.1, Or.inr ⟨ok, rfl⟩, hw.2.2⟩))
    have hq : s.queueShut ≠ true := fun hqs => ((h.shut hqs).2.2 f).2.1 hp
    exact inv_set h (fresh_made h (by simp [hp])) (Or.inr (Or.inl hnew))
      ⟨fun hh => absurd hh (not_fresh_used hnew), fun hh => absurd hh (not_fresh_used hu)⟩
      (fun hqs => absurd hqs hq) (fun hex => absurd (h.exited hex).1 hq)
  | free f =>
    obtain ⟨hj, rfl⟩ := he
    have hu : Used (at_ s f) (s.fsm f) := by
      rcases h.good f with hg | hg | hg
      · rw [hg.2.2.2.1] at hj; simp at hj
      · exact hg
      · rw [hg.2.2.1] at hj; simp at hj
    have hnew : Used (at_ s f) { s.fsm f with
          job := .none, refs := (s.fsm f).refs - 1, alive := decide ((s.fsm f).refs ≠ 1) } ∨
        Gone (at_ s f) { s.fsm f with
          job := .none, refs := (s.fsm f).refs - 1, alive := decide ((s.fsm f).refs ≠ 1) } := by
      rcases hu.2.2 with hw | hw | hw | hw
      · rw [hw.1] at hj; simp at hj
      · left
        exact ⟨by simp [hw.2.2], hu.2.1, Or.inr (Or.inr (Or.inr ⟨rfl, hw.2.1, by simp [hw.2.2]⟩))⟩
      · right
        exact ⟨by simp [hw.2.2.1], hw.2.1, rfl, hw.2.2.2⟩
      · rw [hw.1] at hj; simp at hj
    have hnf : ¬ Fresh (at_ s f) { s.fsm f with
          job := .none, refs := (s.fsm f).refs - 1, alive := decide ((s.fsm f).refs ≠ 1) } := by
      rcases hnew with hg | hg
      · exact not_fresh_used hg
      · exact not_fresh_gone hg
    refine inv_set h (made_of h (fun e => by rw [e] at hj; simp at hj)) (Or.inr hnew)
      ⟨fun hh => absurd hh hnf, fun hh => absurd hh (not_fresh_used hu)⟩
      (fun hqs => ⟨by simp, ((h.shut hqs).2.2 f).2.1, fun hh => hnf hh.1⟩)
      (fun hex => (h.exited hex).2.2 f)
  | close =>
    obtain ⟨hc, rfl⟩ := he
    refine ⟨h.good, h.unmade, h.post, fun hqs => ?_, h.exited, h.unique, h.some_⟩
    exact ⟨rfl, (h.shut hqs).2⟩
  | shutQueue =>
    obtain ⟨h1, h2, h3, h4, rfl⟩ := he
    refine ⟨h.good, h.unmade, h.post, fun _ => ⟨h1, h2, fun f => ?_⟩, fun hex => ?_, h.unique,
      h.some_⟩
    · by_cases hm : f < s.made
      · have := List.all_eq_true.1 h3 f (List.mem_range.2 hm)
        simp only [decide_eq_true_eq] at this
        refine ⟨this.2.1, this.1, fun hh => this.2.2 ⟨hh.2, ?_, ?_, ?_⟩⟩
        · exact hh.1.2.2.1
        · exact hh.1.2.2.2.1
        · have := hh.1.2.2.2.2.1
          simpa [at_] using this
      · have := h.unmade f (by omega)
        dsimp only
        rw [this]
        simp
    · have := (h.exited hex).1
      rw [h4] at this
      simp at this
  | exit =>
    obtain ⟨h1, h2, h3, h4, rfl⟩ := he
    refine ⟨h.good, h.unmade, h.post, h.shut, fun _ => ⟨h1, h2, fun f => ?_⟩, h.unique, h.some_⟩
    by_cases hm : f < s.made
    · have := List.all_eq_true.1 h3 f (List.mem_range.2 hm)
      simpa using this
    · have := h.unmade f (by omega)
      dsimp only
      rw [this]

/-- The server after its start. -/
def first : Server := withNew {}

theorem start_eq : start = .ok first := create_ok rfl

theorem inv_first : Inv first := by
  have hfr : Fresh false
      { alive := true, refs := 1, state := .processing, pending := .requested } :=
    ⟨rfl, rfl, rfl, rfl, rfl, Or.inl rfl⟩
  have hgone : Gone false {} := ⟨rfl, rfl, rfl, rfl⟩
  have hat : ∀ g, at_ first g = false := fun g => by simp [at_, first, withNew]
  have hfsm : ∀ g, first.fsm g = if g = 0 then
      { alive := true, refs := 1, state := .processing, pending := .requested } else {} :=
    fun g => rfl
  have hacc : ∀ g, Accepting first g ↔ g = 0 := by
    intro g
    unfold Accepting
    rw [hat, hfsm]
    split
    · rename_i e; exact ⟨fun _ => e, fun _ => hfr⟩
    · rename_i e; exact ⟨fun hh => absurd hh (not_fresh_gone hgone), fun hh => absurd hh e⟩
  constructor
  · intro g
    rw [hat, hfsm]
    split
    · exact Or.inl hfr
    · exact Or.inr (Or.inr hgone)
  · intro g hg
    rw [hfsm, if_neg]
    have : 0 + 1 ≤ g := hg
    omega
  · rfl
  · intro hq; simp [first, withNew] at hq
  · intro hq; simp [first, withNew] at hq
  · intro a b ha hb
    rw [(hacc a).1 ha, (hacc b).1 hb]
  · intro _
    exact ⟨0, (hacc 0).2 rfl⟩

/-! ### runs -/

/-- A property of histories and states that holds at the start and is kept by every step of states
that satisfy the invariant, holds always; and no run goes wrong. -/
theorem run_induction {P : List Op → Server → Prop} (h0 : P [] first)
    (hstep : ∀ ops s op s', Inv s → P ops s → Effect s op s' → P (ops ++ [op]) s') :
    ∀ ops o, run first ops = some o → ∃ s, o = .ok s ∧ Inv s ∧ P ops s := by
  have main : ∀ (ops pre : List Op) (s : Server) (o : Outcome Server), Inv s → P pre s →
      run s ops = some o → ∃ s', o = .ok s' ∧ Inv s' ∧ P (pre ++ ops) s' := by
    intro ops
    induction ops with
    | nil =>
      intro pre s o hi hp hr
      simp only [run, Option.some.injEq] at hr
      exact ⟨s, hr.symm, hi, by simpa using hp⟩
    | cons op ops ih =>
      intro pre s o hi hp hr
      cases hso : step s op with
      | none => simp [run, hso] at hr
      | some o1 =>
        obtain ⟨s1, rfl, he⟩ := step_effect hi hso
        simp only [run, hso] at hr
        have := ih (pre ++ [op]) s1 o (inv_step hi hso) (hstep pre s op s1 hi hp he) hr
        simpa using this
  intro ops o hr
  have := main ops [] first o inv_first h0 hr
  simpa using this

theorem leadsTo_iff {ops : List Op} {s : Server} :
    LeadsTo ops s ↔ run first ops = some (.ok s) := by
  unfold LeadsTo
  rw [start_eq]
  constructor
  · rintro ⟨s0, h1, h2⟩
    simp only [Outcome.ok.injEq] at h1
    rw [h1]; exact h2
  · intro h; exact ⟨first, rfl, h⟩

end Distbench.GrpcServer
