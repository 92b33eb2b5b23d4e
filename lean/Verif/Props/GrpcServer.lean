import Verif.Lemmas.GrpcServer

/-! Property theorems C161–C164: the polling server of the gRPC driver. -/

namespace Distbench
open GrpcServer Spec

namespace GrpcServer

/-! ### what each step does to the requests -/

/-- No request has been given to the handler by this object. -/
def New (s : Server) (g : Nat) : Prop := Accepting s g ∨ s.made ≤ g

/-- The object has a request that the thread has not taken. -/
def Wait (s : Server) (g : Nat) : Prop := Accepting s g ∧ (s.fsm g).pending = .tag true

theorem acc_set (s : Server) (f g : Nat) (x : Fsm) :
    Accepting (s.set f x) g ↔ (if g = f then Fresh (at_ s f) x else Accepting s g) := by
  unfold Accepting
  rw [at_set, set_fsm]
  split
  · rename_i e; subst e; exact Iff.rfl
  · exact Iff.rfl

theorem new_not_working {s : Server} (h : Inv s) {g : Nat} (hn : New s g) :
    (s.fsm g).job ≠ .working := by
  rcases hn with hn | hn
  · rw [hn.2.2.2.1]; simp
  · rw [h.unmade g hn]; simp

/-- What a step does to the objects that have not given a request to the handler, to the requests
waiting for the thread, to the handlers at work and to the log. -/
structure Change (s : Server) (op : Op) (s' : Server) : Prop where
  new : ∀ g, New s' g → New s g ∧ ¬ (op = .take g ∧ Wait s g)
  wait : ∀ g, Wait s' g ↔ (Wait s g ∧ op ≠ .take g) ∨ op = .arrive g
  arrive : ∀ g, op = .arrive g → New s g ∧ ¬ Wait s g
  working : ∀ g, (s'.fsm g).job = .working ↔
    ((s.fsm g).job = .working ∧ op ≠ .send g) ∨ (op = .take g ∧ Wait s g)
  log : (s'.log = s.log ∧ (∀ g, op = .take g → ¬ Wait s g) ∧ ∀ g, op ≠ .send g) ∨
    (∃ f, op = .take f ∧ Wait s f ∧ s'.log = s.log ++ [.handled f]) ∨
    (∃ f, op = .send f ∧ (s.fsm f).job = .working ∧ s'.log = s.log ++ [.answered f])

/-- A step that changes an object that is fresh neither before nor after. -/
theorem change_used {s s' : Server} {op : Op} {f : Nat} {x : Fsm} (h : Inv s)
    (hs : ∀ g, s'.fsm g = if g = f then x else s.fsm g) (hm : s'.made = s.made)
    (hb : ∀ g, g ≠ f → at_ s' g = at_ s g)
    (h1 : ¬ Fresh (at_ s' f) x) (h2 : ¬ Wait s f) (hf : f < s.made)
    (hop : ∀ g, op ≠ .arrive g) (htake : ∀ g, op = .take g → g = f)
    (hj : x.job = .working ↔ (s.fsm f).job = .working ∧ op ≠ .send f)
    (hsend : ∀ g, op = .send g → g = f)
    (hlog : (s'.log = s.log ∧ ∀ g, op ≠ .send g) ∨
      (op = .send f ∧ (s.fsm f).job = .working ∧ s'.log = s.log ++ [.answered f])) :
    Change s op s' := by
  have hacc : ∀ g, Accepting s' g ↔ g ≠ f ∧ Accepting s g := by
    intro g
    unfold Accepting
    rw [hs]
    by_cases e : g = f
    · subst e; simp [h1]
    · simp [e, hb g e]
  have hw : ∀ g, Wait s' g ↔ g ≠ f ∧ Wait s g := by
    intro g
    unfold Wait
    rw [hacc, hs]
    by_cases e : g = f <;> simp [e]
  constructor
  · intro g hn
    refine ⟨?_, ?_⟩
    · rcases hn with hn | hn
      · exact Or.inl ((hacc g).1 hn).2
      · exact Or.inr (hm ▸ hn)
    · rintro ⟨e, hw'⟩
      rw [htake g e] at hw'
      exact h2 hw'
  · intro g
    rw [hw]
    constructor
    · rintro ⟨e, hw'⟩
      exact Or.inl ⟨hw', fun e' => e (htake g e')⟩
    · rintro (⟨hw', e⟩ | e)
      · exact ⟨fun e' => h2 (e' ▸ hw'), hw'⟩
      · exact absurd e (hop g)
  · intro g e
    exact absurd e (hop g)
  · intro g
    rw [hs]
    by_cases e : g = f
    · subst e
      rw [if_pos rfl, hj]
      constructor
      · exact Or.inl
      · rintro (hh | hh)
        · exact hh
        · exact absurd hh.2 h2
    · rw [if_neg e]
      constructor
      · intro hh; exact Or.inl ⟨hh, fun e' => e (hsend g e')⟩
      · rintro (hh | hh)
        · exact hh.1
        · exact absurd (htake g hh.1) e
  · rcases hlog with hl | hl
    · exact Or.inl ⟨hl.1, fun g e hw' => h2 (htake g e ▸ hw'), hl.2⟩
    · exact Or.inr (Or.inr ⟨f, hl⟩)

theorem change_flags {s s' : Server} {op : Op} (hs : s'.fsm = s.fsm) (hm : s'.made = s.made)
    (hb : s'.busy = s.busy) (hl : s'.log = s.log)
    (h1 : ∀ g, op ≠ .arrive g) (h2 : ∀ g, op ≠ .take g) (h3 : ∀ g, op ≠ .send g) :
    Change s op s' := by
  have hacc : ∀ g, Accepting s' g ↔ Accepting s g := by
    intro g; unfold Accepting at_; rw [hs, hb]
  have hw : ∀ g, Wait s' g ↔ Wait s g := by intro g; unfold Wait; rw [hacc, hs]
  constructor
  · intro g hn
    refine ⟨?_, fun hh => absurd hh.1 (h2 g)⟩
    rcases hn with hn | hn
    · exact Or.inl ((hacc g).1 hn)
    · exact Or.inr (hm ▸ hn)
  · intro g
    rw [hw]
    simp [h1 g, h2 g]
  · intro g e
    exact absurd e (h1 g)
  · intro g
    rw [hs]
    simp [h2 g, h3 g]
  · exact Or.inl ⟨hl, fun g e => absurd e (h2 g), h3⟩

theorem used_of_job {s : Server} (h : Inv s) {f : Nat} (hj : (s.fsm f).job ≠ .none) :
    Used (at_ s f) (s.fsm f) ∧ f < s.made := by
  refine ⟨?_, made_of h (fun e => by rw [e] at hj; simp at hj)⟩
  rcases h.good f with hg | hg | hg
  · exact absurd hg.2.2.2.1 hj
  · exact hg
  · exact absurd hg.2.2.1 hj

theorem not_wait_used {s : Server} {f : Nat} (h : Used (at_ s f) (s.fsm f)) : ¬ Wait s f :=
  fun hw => not_fresh_used h hw.1

theorem change {s s' : Server} (h : Inv s) {op : Op} (he : Effect s op s') : Change s op s' := by
  cases op with
  | arrive f =>
    obtain ⟨hp, hc, rfl⟩ := he
    have hfr : Fresh (at_ s f) (s.fsm f) := by
      rcases h.good f with hg | hg | hg
      · exact hg
      · rcases hg.2.2 with hw | hw | hw | hw <;> simp [hp] at hw
      · simp [hg.2.1] at hp
    have hfr' : Fresh (at_ s f) { s.fsm f with pending := .tag true } :=
      ⟨hfr.1, hfr.2.1, hfr.2.2.1, hfr.2.2.2.1, hfr.2.2.2.2.1, Or.inr ⟨true, rfl⟩⟩
    have hacc : ∀ g, Accepting (s.set f { s.fsm f with pending := .tag true }) g ↔
        Accepting s g := by
      intro g
      rw [acc_set]
      split
      · rename_i e; subst e; exact ⟨fun _ => hfr, fun _ => hfr'⟩
      · exact Iff.rfl
    constructor
    · intro g hn
      refine ⟨?_, by simp⟩
      rcases hn with hn | hn
      · exact Or.inl ((hacc g).1 hn)
      · exact Or.inr hn
    · intro g
      unfold Wait
      rw [hacc, set_fsm]
      by_cases e : g = f
      · subst e
        simp only [if_true, and_true]
        exact ⟨fun _ => Or.inr trivial, fun _ => hfr⟩
      · have e' : ¬ f = g := fun x => e x.symm
        simp [e, e']
    · intro g e
      simp only [Op.arrive.injEq] at e
      subst e
      exact ⟨Or.inl hfr, fun hw => by have := hw.2; rw [hp] at this; simp at this⟩
    · intro g
      rw [set_fsm]
      by_cases e : g = f
      · subst e; simp
      · simp [e]
    · exact Or.inl ⟨rfl, by simp, by simp⟩
  | refuse f =>
    obtain ⟨hp, hc, rfl⟩ := he
    have hfr : Fresh (at_ s f) (s.fsm f) := by
      rcases h.good f with hg | hg | hg
      · exact hg
      · rcases hg.2.2 with hw | hw | hw | hw <;> simp [hp] at hw
      · simp [hg.2.1] at hp
    have hfr' : Fresh (at_ s f) { s.fsm f with pending := .tag false } :=
      ⟨hfr.1, hfr.2.1, hfr.2.2.1, hfr.2.2.2.1, hfr.2.2.2.2.1, Or.inr ⟨false, rfl⟩⟩
    have hacc : ∀ g, Accepting (s.set f { s.fsm f with pending := .tag false }) g ↔
        Accepting s g := by
      intro g
      rw [acc_set]
      split
      · rename_i e; subst e; exact ⟨fun _ => hfr, fun _ => hfr'⟩
      · exact Iff.rfl
    constructor
    · intro g hn
      refine ⟨?_, by simp⟩
      rcases hn with hn | hn
      · exact Or.inl ((hacc g).1 hn)
      · exact Or.inr hn
    · intro g
      unfold Wait
      rw [hacc, set_fsm]
      by_cases e : g = f
      · subst e; simp [hp]
      · simp [e]
    · intro g e; simp at e
    · intro g
      rw [set_fsm]
      by_cases e : g = f
      · subst e; simp
      · simp [e]
    · exact Or.inl ⟨rfl, by simp, by simp⟩
  | take f =>
    obtain ⟨hb, hx, hcase⟩ := he
    have hat : ∀ g, at_ s g = false := fun g => by simp [at_, hb]
    rcases hcase with ⟨hfr, hp, rfl⟩ | ⟨hu, hp, rfl⟩ | ⟨hg, hp, rfl⟩
    · have hlt : f < s.made := fresh_made h (by simp [hp])
      have hacc : Accepting s f := by unfold Accepting; rw [hat]; exact hfr
      have hused : Used true { s.fsm f with pending := .idle, refs := 2, job := .working } :=
        ⟨hfr.1, by simp [hfr.2.2.1], Or.inl ⟨rfl, rfl, rfl⟩⟩
      have hne : ¬ s.made = f := by omega
      have hother : ∀ g, g ≠ f → g ≠ s.made ∨ s.postNew = false →
          (Accepting { s with
            fsm := fun g => if g = f then { s.fsm f with pending := .idle, refs := 2, job := .working }
              else if g = s.made ∧ s.postNew then
                { alive := true, refs := 1, state := .processing, pending := .requested }
              else s.fsm g
            made := if s.postNew then s.made + 1 else s.made
            busy := some f
            log := s.log ++ [.handled f] } g ↔ Accepting s g) := by
        intro g h1 h3
        have h2 : ¬ f = g := fun e => h1 e.symm
        have h4 : ¬ (g = s.made ∧ s.postNew = true) := by
          rintro ⟨e1, e2⟩
          rcases h3 with h3 | h3
          · exact h3 e1
          · rw [e2] at h3; simp at h3
        simp only [Accepting, at_, Option.some.injEq, h2, decide_false, h1, if_false, if_neg h4, hb]
        simp
      have hself : ¬ Accepting { s with
            fsm := fun g => if g = f then { s.fsm f with pending := .idle, refs := 2, job := .working }
              else if g = s.made ∧ s.postNew then
                { alive := true, refs := 1, state := .processing, pending := .requested }
              else s.fsm g
            made := if s.postNew then s.made + 1 else s.made
            busy := some f
            log := s.log ++ [.handled f] } f := by
        simp only [Accepting, at_, decide_true, if_true]
        exact not_fresh_used hused
      constructor
      · intro g hn
        by_cases h1 : g = f
        · subst h1
          rcases hn with hn | hn
          · exact absurd hn hself
          · exfalso; dsimp only at hn; split at hn <;> omega
        · refine ⟨?_, fun hh => h1 (by simpa using hh.1.symm)⟩
          by_cases h3 : g ≠ s.made ∨ s.postNew = false
          · rcases hn with hn | hn
            · exact Or.inl ((hother g h1 h3).1 hn)
            · right; dsimp only at hn; split at hn <;> omega
          · simp only [not_or, Decidable.not_not] at h3
            exact Or.inr (by omega)
      · intro g
        by_cases h1 : g = f
        · subst h1
          simp only [ne_eq, not_true_eq_false, and_false, false_or]
          exact ⟨fun hw => absurd hw.1 hself, fun e => by simp at e⟩
        · have h2 : ¬ f = g := fun e => h1 e.symm
          by_cases h3 : g ≠ s.made ∨ s.postNew = false
          · have h4 : ¬ (g = s.made ∧ s.postNew = true) := by
              rintro ⟨e1, e2⟩
              rcases h3 with h3 | h3
              · exact h3 e1
              · rw [e2] at h3; simp at h3
            unfold Wait
            rw [hother g h1 h3]
            simp only [h1, if_false, if_neg h4]
            simp [h2]
          · simp only [not_or, Decidable.not_not, Bool.not_eq_false] at h3
            unfold Wait
            simp only [h1, if_false]
            rw [if_pos h3]
            have : (s.fsm g).pending = .idle := by rw [h.unmade g (by omega)]
            simp [this]
      · intro g e; simp at e
      · intro g
        by_cases h1 : g = f
        · subst h1
          simp only [if_true, true_iff]
          exact Or.inr ⟨trivial, hacc, hp⟩
        · have h2 : ¬ f = g := fun e => h1 e.symm
          simp only [h1, if_false]
          by_cases h3 : g = s.made ∧ s.postNew = true
          · rw [if_pos h3]
            have : (s.fsm g).job = .none := by rw [h.unmade g (by omega)]
            simp [this, h2]
          · rw [if_neg h3]
            simp [h2]
      · exact Or.inr (Or.inl ⟨f, rfl, ⟨hacc, hp⟩, rfl⟩)
    · have hgood := good_taken hu hp
      have hlt := fresh_made h (f := f) (by simp [hp])
      refine change_used h (f := f) (fun g => set_fsm s f _ g) rfl (fun g _ => rfl) ?_ ?_ hlt (by simp)
        (fun g e => by simpa using e.symm) (by simp) (by simp) (Or.inl ⟨rfl, by simp⟩)
      · rw [at_set, hat]
        rcases hgood with hg | hg
        · exact not_fresh_used hg
        · exact not_fresh_gone hg
      · exact not_wait_used (by rw [hat]; exact hu)
    · have hlt := fresh_made h (f := f) (by simp [hp])
      refine change_used h (f := f) (fun g => set_fsm s f _ g) rfl (fun g _ => rfl) ?_ ?_ hlt (by simp)
        (fun g e => by simpa using e.symm) (by simp) (by simp) (Or.inl ⟨rfl, by simp⟩)
      · intro hf
        have := hf.2.2.2.2.2
        simp at this
      · intro hw
        have := hw.2
        rw [hp] at this
        simp at this
  | settle =>
    obtain ⟨f, hf, rfl⟩ := he
    have hat : at_ s f = true := by simp [at_, hf]
    have hused : Used (at_ s f) (s.fsm f) := by
      rcases h.good f with hg | hg | hg
      · have := hg.2.2.2.2.1; simp [hat] at this
      · exact hg
      · have := hg.2.2.2; simp [hat] at this
    have hlt : f < s.made := made_of h (fun e => by have := hused.1; rw [e] at this; simp at this)
    refine change_used h (f := f) (fun g => set_fsm s f _ g) rfl ?_ ?_ (not_wait_used hused) hlt
      (by simp) (by simp) (by simp) (by simp) (Or.inl ⟨rfl, by simp⟩)
    · intro g hg
      have : ¬ f = g := fun e => hg e.symm
      simp [at_, hf, this]
    · intro hfr
      have := hfr.2.2.1
      simp at this
  | send f =>
    obtain ⟨hj, rfl⟩ := he
    obtain ⟨hu, hlt⟩ := used_of_job h (f := f) (by simp [hj])
    refine change_used h (f := f) (fun g => set_fsm s f _ g) rfl (fun g _ => rfl) ?_ (not_wait_used hu)
      hlt (by simp) (by simp) (by simp) (fun g e => by simpa using e.symm) (Or.inr ⟨rfl, hj, rfl⟩)
    intro hfr
    have := hfr.2.2.2.1
    simp at this
  | sent f ok =>
    obtain ⟨hp, rfl⟩ := he
    have hu : Used (at_ s f) (s.fsm f) := by
      rcases h.good f with hg | hg | hg
      · have := hg.2.2.2.2.2; simp [hp] at this
      · exact hg
      · rw [hg.2.1] at hp; simp at hp
    refine change_used h (f := f) (fun g => set_fsm s f _ g) rfl (fun g _ => rfl) ?_ (not_wait_used hu)
      (fresh_made h (by simp [hp])) (by simp) (by simp) (by simp) (by simp) (Or.inl ⟨rfl, by simp⟩)
    intro hfr
    have h1 := hfr.2.2.2.2.1
    rw [at_set] at h1
    have h2 := hu.2.1
    have h3 : (s.fsm f).state = .processing := hfr.2.2.1
    rw [h1, h3] at h2
    simp at h2
  | free f =>
    obtain ⟨hj, rfl⟩ := he
    obtain ⟨hu, hlt⟩ := used_of_job h (f := f) (by simp [hj])
    refine change_used h (f := f) (fun g => set_fsm s f _ g) rfl (fun g _ => rfl) ?_ (not_wait_used hu)
      hlt (by simp) (by simp) (by simp [hj]) (by simp) (Or.inl ⟨rfl, by simp⟩)
    intro hfr
    have h1 := hfr.2.2.2.2.1
    rw [at_set] at h1
    have h2 := hu.2.1
    have h3 : (s.fsm f).state = .processing := hfr.2.2.1
    rw [h1, h3] at h2
    simp at h2
  | close =>
    obtain ⟨-, rfl⟩ := he
    exact change_flags rfl rfl rfl rfl (by simp) (by simp) (by simp)
  | shutQueue =>
    obtain ⟨-, -, -, -, rfl⟩ := he
    exact change_flags rfl rfl rfl rfl (by simp) (by simp) (by simp)
  | exit =>
    obtain ⟨-, -, -, -, rfl⟩ := he
    exact change_flags rfl rfl rfl rfl (by simp) (by simp) (by simp)

/-! ### the history of the requests -/

/-- How the log and the arrivals belong together. -/
structure Hist (ops : List Op) (s : Server) : Prop where
  new : ∀ g, New s g → Event.handled g ∉ s.log ∧ Event.answered g ∉ s.log
  working : ∀ g, (s.fsm g).job = .working → Event.handled g ∈ s.log ∧ Event.answered g ∉ s.log
  nodup : s.log.Nodup
  answered : ∀ g, Event.handled g ∈ s.log → Event.answered g ∈ s.log ∨ (s.fsm g).job = .working
  before : ∀ pre g post, s.log = pre ++ Event.answered g :: post → Event.handled g ∈ pre
  arrivals : ∀ g, g ∈ arrived ops ↔ Event.handled g ∈ s.log ∨ Wait s g
  once : (arrived ops).Nodup

theorem arrived_snoc (ops : List Op) (op : Op) (g : Nat) :
    g ∈ arrived (ops ++ [op]) ↔ g ∈ arrived ops ∨ op = .arrive g := by
  cases op <;> simp [arrived, eq_comm]

theorem not_new_of_job {s : Server} (h : Inv s) {g : Nat} (hj : (s.fsm g).job = .working) :
    ¬ New s g := fun hn => new_not_working h hn hj

theorem hist_step {ops : List Op} {s s' : Server} {op : Op} (h : Inv s) (hh : Hist ops s)
    (he : Effect s op s') : Hist (ops ++ [op]) s' := by
  have hc := change h he
  have honce : (arrived (ops ++ [op])).Nodup := by
    cases op with
    | arrive f =>
      have e : arrived (ops ++ [.arrive f]) = arrived ops ++ [f] := by simp [arrived]
      rw [e, List.nodup_append]
      refine ⟨hh.once, by simp, ?_⟩
      intro a ha b hb
      simp only [List.mem_singleton] at hb
      subst hb
      intro e'
      subst e'
      obtain ⟨h1, h2⟩ := hc.arrive a rfl
      rcases (hh.arrivals a).1 ha with h3 | h3
      · exact (hh.new a h1).1 h3
      · exact h2 h3
    | _ => simpa [arrived] using hh.once
  rcases hc.log with ⟨hl, ht, hsd⟩ | ⟨f, rfl, hw, hl⟩ | ⟨f, rfl, hj, hl⟩
  · have hwork : ∀ g, (s'.fsm g).job = .working ↔ (s.fsm g).job = .working := by
      intro g
      rw [hc.working]
      constructor
      · rintro (hx | hx)
        · exact hx.1
        · exact absurd hx.2 (ht g hx.1)
      · intro hx; exact Or.inl ⟨hx, hsd g⟩
    refine ⟨?_, ?_, ?_, ?_, ?_, ?_, honce⟩
    · intro g hn; rw [hl]; exact hh.new g (hc.new g hn).1
    · intro g hj; rw [hl]; exact hh.working g ((hwork g).1 hj)
    · rw [hl]; exact hh.nodup
    · intro g hg; rw [hwork]; rw [hl] at hg ⊢; exact hh.answered g hg
    · intro pre g post hp; rw [hl] at hp; exact hh.before pre g post hp
    · intro g
      rw [arrived_snoc, hh.arrivals, hl, hc.wait, or_assoc]
      constructor
      · rintro (hx | hx | hx)
        · exact Or.inl hx
        · exact Or.inr (Or.inl ⟨hx, fun e => ht g e hx⟩)
        · exact Or.inr (Or.inr hx)
      · rintro (hx | hx | hx)
        · exact Or.inl hx
        · exact Or.inr (Or.inl hx.1)
        · exact Or.inr (Or.inr hx)
  · have hnew := hh.new f (Or.inl hw.1)
    refine ⟨?_, ?_, ?_, ?_, ?_, ?_, honce⟩
    · intro g hn
      obtain ⟨h1, h2⟩ := hc.new g hn
      have hne : g ≠ f := fun e => h2 ⟨by rw [e], e ▸ hw⟩
      have := hh.new g h1
      simp [hl, this, hne]
    · intro g hj
      rw [hc.working] at hj
      rcases hj with hj | hj
      · have := hh.working g hj.1
        simp [hl, this]
      · have hg : f = g := by simpa using hj.1
        subst hg
        simp [hl, hnew.2]
    · rw [hl, List.nodup_append]
      refine ⟨hh.nodup, by simp, ?_⟩
      intro a ha b hb
      simp only [List.mem_singleton] at hb
      subst hb
      intro e; subst e
      exact hnew.1 ha
    · intro g hg
      rw [hl] at hg ⊢
      rw [hc.working]
      simp only [List.mem_append, List.mem_singleton, Event.handled.injEq] at hg
      rcases hg with hg | hg
      · rcases hh.answered g hg with h1 | h1
        · left; simp [h1]
        · exact Or.inr (Or.inl ⟨h1, by simp⟩)
      · subst hg
        exact Or.inr (Or.inr ⟨rfl, hw⟩)
    · intro pre g post hp
      rw [hl] at hp
      rcases List.append_eq_append_iff.1 hp with ⟨a, h1, h2⟩ | ⟨a, h1, h2⟩
      · cases a with
        | nil => simp at h2
        | cons y a => simp at h2
      · cases a with
        | nil => simp at h2
        | cons y a =>
          simp only [List.cons_append, List.cons.injEq] at h2
          rw [← h2.1] at h1
          exact hh.before pre g a h1
    · intro g
      rw [arrived_snoc, hh.arrivals, hl, hc.wait]
      simp only [List.mem_append, List.mem_singleton, Event.handled.injEq, reduceCtorEq, or_false,
        ne_eq, Op.take.injEq]
      constructor
      · rintro (hx | hx)
        · exact Or.inl (Or.inl hx)
        · by_cases e : g = f
          · exact Or.inl (Or.inr e)
          · exact Or.inr ⟨hx, fun e' => e e'.symm⟩
      · rintro ((hx | hx) | hx)
        · exact Or.inl hx
        · exact Or.inr (hx ▸ hw)
        · exact Or.inr hx.1
  · have hwk := hh.working f hj
    refine ⟨?_, ?_, ?_, ?_, ?_, ?_, honce⟩
    · intro g hn
      have hn := (hc.new g hn).1
      have hne : g ≠ f := fun e => not_new_of_job h (e ▸ hj) hn
      have := hh.new g hn
      simp [hl, this, hne]
    · intro g hg
      rw [hc.working] at hg
      rcases hg with hg | hg
      · have hne : g ≠ f := fun e => hg.2 (by rw [e])
        have := hh.working g hg.1
        simp [hl, this, hne]
      · simp at hg
    · rw [hl, List.nodup_append]
      refine ⟨hh.nodup, by simp, ?_⟩
      intro a ha b hb
      simp only [List.mem_singleton] at hb
      subst hb
      intro e; subst e
      exact hwk.2 ha
    · intro g hg
      rw [hl] at hg ⊢
      rw [hc.working]
      have hg : Event.handled g ∈ s.log := by simpa using hg
      by_cases e : g = f
      · subst e; left; simp
      · rcases hh.answered g hg with h1 | h1
        · left; simp [h1]
        · exact Or.inr (Or.inl ⟨h1, by simp only [ne_eq, Op.send.injEq]; exact fun e' => e e'.symm⟩)
    · intro pre g post hp
      rw [hl] at hp
      rcases List.append_eq_append_iff.1 hp with ⟨a, h1, h2⟩ | ⟨a, h1, h2⟩
      · cases a with
        | nil =>
          simp only [List.nil_append, List.cons.injEq, Event.answered.injEq] at h2
          rw [h1, ← h2.1]
          simpa using hwk.1
        | cons y a => simp at h2
      · cases a with
        | nil =>
          simp only [List.nil_append, List.cons.injEq, Event.answered.injEq] at h2
          simp only [List.append_nil] at h1
          rw [← h1, h2.1]
          exact hwk.1
        | cons y a =>
          simp only [List.cons_append, List.cons.injEq] at h2
          rw [← h2.1] at h1
          exact hh.before pre g a h1
    · intro g
      rw [arrived_snoc, hh.arrivals, hl, hc.wait]
      simp

theorem hist_first : Hist [] first := by
  refine ⟨?_, ?_, ?_, ?_, ?_, ?_, ?_⟩
  · intro g _; simp [first, withNew]
  · intro g hj
    simp only [first, withNew] at hj
    split at hj <;> simp at hj
  · simp [first, withNew]
  · intro g hg; simp [first, withNew] at hg
  · intro pre g post hp; simp [first, withNew] at hp
  · intro g
    simp only [arrived, List.filterMap_nil, List.not_mem_nil, first, withNew, false_or, false_iff]
    rintro ⟨-, hp⟩
    dsimp only at hp
    split at hp <;> simp at hp
  · simp [arrived]

theorem hist_run {ops : List Op} {s : Server} (hr : LeadsTo ops s) : Inv s ∧ Hist ops s := by
  obtain ⟨s', h1, h2, h3⟩ := run_induction (P := Hist) hist_first
    (fun ops s op s' h hh he => hist_step h hh he) ops _ (leadsTo_iff.1 hr)
  simp only [Outcome.ok.injEq] at h1
  subst h1
  exact ⟨h2, h3⟩

/-! ### states in which nothing is left to happen -/

theorem nothingLeft {s : Server} (h : Inv s) (hn : NothingLeft s) :
    s.busy = none ∧ (∀ f, (s.fsm f).job = .none) ∧
    ∀ f, (s.fsm f).pending = .idle ∨ ((s.fsm f).pending = .requested ∧ s.closing = false) := by
  have hb : s.busy = none := by
    cases hb : s.busy with
    | none => rfl
    | some f =>
      have := hn .settle (by simp) (by simp)
      simp [step, hb] at this
  refine ⟨hb, ?_, ?_⟩
  · intro f
    cases hj : (s.fsm f).job with
    | none => rfl
    | working =>
      have := hn (.send f) (by simp) (by simp)
      simp [step, hj] at this
    | answered =>
      have := hn (.free f) (by simp) (by simp)
      simp [step, hj] at this
  · intro f
    cases hp : (s.fsm f).pending with
    | idle => exact Or.inl rfl
    | sending =>
      have := hn (.sent f true) (by simp) (by simp)
      simp [step, hp] at this
    | requested =>
      refine Or.inr ⟨rfl, ?_⟩
      have := hn (.refuse f) (by simp) (by simp)
      simp only [step, hp, true_and] at this
      cases hc : s.closing with
      | false => rfl
      | true => simp [hc] at this
    | tag ok =>
      have hx : s.exited = false := by
        cases hx : s.exited with
        | false => rfl
        | true => have := (h.exited hx).2.2 f; rw [hp] at this; simp at this
      have := hn (.take f) (by simp) (by simp)
      simp only [step, hb, hx, and_self, if_true, hp] at this
      cases ok <;> simp at this

/-- The steps of a server that serves two requests, one of them at the end of the queue, and is
then shut down. -/
def someOps : List Op :=
  [.arrive 0, .take 0, .send 0, .settle, .arrive 1, .sent 0 true, .take 1, .free 0, .settle, .take 0,
   .send 1, .sent 1 true, .close, .take 1, .refuse 2, .free 1, .take 2, .shutQueue, .exit]

/-- What a run shows of its end: which of the first four objects are alive, and the log. -/
def shown (r : Option (Outcome Server)) : Option (List Bool × List Event) :=
  match r with
  | some (.ok s) => some ((List.range 4).map (fun f => (s.fsm f).alive), s.log)
  | _ => none

example : shown (run first someOps) = some ([false, false, false, false],
    [.handled 0, .answered 0, .handled 1, .answered 1]) := by decide +kernel

/-! ### C161: memory -/

/-- C161.  Whatever happens, and in whatever order, the server does not use an object that was
deleted and does not misuse gRPC's queue; and when nothing is left to happen but new requests, it
has at most one object, which waits for a request. -/
theorem C161_memory :
    (∃ s0, start = .ok s0 ∧ ∀ ops o, run s0 ops = some o → ∃ s, o = .ok s) ∧
    (∀ ops s, LeadsTo ops s → NothingLeft s →
      (∀ f, (s.fsm f).alive = true → (s.fsm f).pending = .requested) ∧
      ∀ f g, (s.fsm f).alive = true → (s.fsm g).alive = true → f = g) := by
  refine ⟨⟨first, start_eq, ?_⟩, ?_⟩
  · intro ops o hr
    obtain ⟨s, h1, -⟩ := run_induction hist_first
      (fun ops s op s' h hh he => hist_step h hh he) ops o hr
    exact ⟨s, h1⟩
  · intro ops s hr hn
    obtain ⟨h, -⟩ := hist_run hr
    obtain ⟨hb, hj, hp⟩ := nothingLeft h hn
    have key : ∀ f, (s.fsm f).alive = true → Accepting s f ∧ (s.fsm f).pending = .requested := by
      intro f ha
      rcases h.good f with hg | hg | hg
      · refine ⟨hg, ?_⟩
        rcases hp f with hq | hq
        · have := hg.2.2.2.2.2; simp [hq] at this
        · exact hq.1
      · exfalso
        have hj := hj f
        rcases hg.2.2 with hw | hw | hw | hw
        · simp [hj] at hw
        · simp [hj] at hw
        · simp [hj] at hw
        · rcases hp f with hq | hq <;> simp [hq] at hw
      · rw [hg.1] at ha; simp at ha
    exact ⟨fun f ha => (key f ha).2, fun f g hf hg => h.unique f g (key f hf).1 (key g hg).1⟩

example : shown (run first (someOps.take 12)) = some ([false, true, true, false],
    [.handled 0, .answered 0, .handled 1, .answered 1]) := by decide +kernel

/-! ### C162: every request is handled and answered once -/

/-- C162.  The handler gets only requests that arrived, each at most once; a response is sent only
to a request that the handler got before, at most once; and when nothing is left to happen but new
requests, every request that arrived was given to the handler and was answered. -/
theorem C162_requests (ops : List Op) (s : Server) (hr : LeadsTo ops s) :
    (arrived ops).Nodup ∧ (givenToHandler s).Nodup ∧ (responded s).Nodup ∧
    (∀ f ∈ givenToHandler s, f ∈ arrived ops) ∧
    (∀ pre f post, s.log = pre ++ .answered f :: post → Event.handled f ∈ pre) ∧
    (NothingLeft s → ∀ f ∈ arrived ops, f ∈ givenToHandler s ∧ f ∈ responded s) := by
  obtain ⟨h, hh⟩ := hist_run hr
  have e1 : ∀ f, f ∈ givenToHandler s ↔ Event.handled f ∈ s.log := by
    intro f
    simp only [givenToHandler, List.mem_filterMap]
    constructor
    · rintro ⟨e, he, hf⟩
      cases e with
      | handled g => simp at hf; rw [← hf]; exact he
      | answered g => simp at hf
    · intro hf; exact ⟨_, hf, rfl⟩
  have e2 : ∀ f, f ∈ responded s ↔ Event.answered f ∈ s.log := by
    intro f
    simp only [responded, List.mem_filterMap]
    constructor
    · rintro ⟨e, he, hf⟩
      cases e with
      | handled g => simp at hf
      | answered g => simp at hf; rw [← hf]; exact he
    · intro hf; exact ⟨_, hf, rfl⟩
  have nd : ∀ (l : List Event) (p : Event → Option Nat),
      (∀ a b x, p a = some x → p b = some x → a = b) → l.Nodup → (l.filterMap p).Nodup := by
    intro l p hp
    induction l with
    | nil => simp
    | cons a l ih =>
      intro hn
      simp only [List.nodup_cons] at hn
      rw [List.filterMap_cons]
      split
      · exact ih hn.2
      · rename_i x hx
        rw [List.nodup_cons]
        refine ⟨?_, ih hn.2⟩
        intro hm
        obtain ⟨b, hb, hbx⟩ := List.mem_filterMap.1 hm
        exact hn.1 (hp a b x hx hbx ▸ hb)
  refine ⟨hh.once, ?_, ?_, ?_, hh.before, ?_⟩
  · refine nd _ _ ?_ hh.nodup
    intro a b x ha hb
    cases a <;> cases b <;> simp_all
  · refine nd _ _ ?_ hh.nodup
    intro a b x ha hb
    cases a <;> cases b <;> simp_all
  · intro f hf
    exact (hh.arrivals f).2 (Or.inl ((e1 f).1 hf))
  · intro hn f hf
    obtain ⟨-, hj, hp⟩ := nothingLeft h hn
    have hhd : Event.handled f ∈ s.log := by
      rcases (hh.arrivals f).1 hf with h1 | h1
      · exact h1
      · have := h1.2
        rcases hp f with hq | hq <;> simp [hq] at this
    refine ⟨(e1 f).2 hhd, (e2 f).2 ?_⟩
    rcases hh.answered f hhd with h1 | h1
    · exact h1
    · rw [hj f] at h1; simp at h1

example : arrived someOps = [0, 1] := by decide +kernel

/-! ### C163: the server goes on accepting requests -/

theorem closing_run {ops : List Op} {s : Server} (hr : LeadsTo ops s) :
    (s.closing = true ↔ ShutdownCalled ops) ∧ (s.exited = true ↔ ShutdownReturned ops) ∧
    (¬ SendFailed ops → ((∃ f, (s.fsm f).pending = .tag false) → s.closing = true) ∧
      (s.detected = true → s.closing = true)) := by
  obtain ⟨s', h1, -, h3⟩ := run_induction (P := fun ops s =>
      (s.closing = true ↔ ShutdownCalled ops) ∧ (s.exited = true ↔ ShutdownReturned ops) ∧
      (¬ SendFailed ops → ((∃ f, (s.fsm f).pending = .tag false) → s.closing = true) ∧
        (s.detected = true → s.closing = true))) (by
      refine ⟨by simp [first, withNew, ShutdownCalled], by simp [first, withNew, ShutdownReturned],
        fun _ => ⟨?_, by simp [first, withNew]⟩⟩
      rintro ⟨f, hf⟩
      simp only [first, withNew] at hf
      split at hf <;> simp at hf)
    (by
      intro ops s op s' h ⟨p1, p2, p3⟩ he
      have hsf : ¬ SendFailed (ops ++ [op]) → ¬ SendFailed ops := by
        rintro hn ⟨f, hf⟩
        exact hn ⟨f, by simp [hf]⟩
      cases op with
      | arrive f =>
        obtain ⟨hp, hc, rfl⟩ := he
        refine ⟨by simpa [ShutdownCalled, Server.set] using p1, by simpa [ShutdownReturned, Server.set] using p2, ?_⟩
        intro hn
        obtain ⟨q1, q2⟩ := p3 (hsf hn)
        refine ⟨?_, q2⟩
        rintro ⟨g, hg⟩
        rw [set_fsm] at hg
        split at hg
        · simp at hg
        · exact q1 ⟨g, hg⟩
      | refuse f =>
        obtain ⟨hp, hc, rfl⟩ := he
        refine ⟨by simpa [ShutdownCalled, Server.set] using p1, by simpa [ShutdownReturned, Server.set] using p2, ?_⟩
        intro hn
        exact ⟨fun _ => hc, fun _ => hc⟩
      | take f =>
        obtain ⟨hb, hx, hcase⟩ := he
        rcases hcase with ⟨hfr, hp, rfl⟩ | ⟨hu, hp, rfl⟩ | ⟨hg, hp, rfl⟩
        · refine ⟨by simpa [ShutdownCalled, Server.set] using p1, by simpa [ShutdownReturned, Server.set] using p2, ?_⟩
          intro hn
          obtain ⟨q1, q2⟩ := p3 (hsf hn)
          refine ⟨?_, q2⟩
          rintro ⟨g, hg⟩
          dsimp only at hg
          split at hg
          · simp at hg
          · split at hg
            · simp at hg
            · exact q1 ⟨g, hg⟩
        · refine ⟨by simpa [ShutdownCalled, Server.set] using p1, by simpa [ShutdownReturned, Server.set] using p2, ?_⟩
          intro hn
          obtain ⟨q1, q2⟩ := p3 (hsf hn)
          refine ⟨?_, q2⟩
          rintro ⟨g, hg⟩
          rw [set_fsm] at hg
          split at hg
          · simp at hg
          · exact q1 ⟨g, hg⟩
        · refine ⟨by simpa [ShutdownCalled, Server.set] using p1, by simpa [ShutdownReturned, Server.set] using p2, ?_⟩
          intro hn
          obtain ⟨q1, q2⟩ := p3 (hsf hn)
          exact ⟨fun _ => q1 ⟨f, hp⟩, fun _ => q1 ⟨f, hp⟩⟩
      | settle =>
        obtain ⟨f, hf, rfl⟩ := he
        refine ⟨by simpa [ShutdownCalled, Server.set] using p1, by simpa [ShutdownReturned, Server.set] using p2, ?_⟩
        intro hn
        obtain ⟨q1, q2⟩ := p3 (hsf hn)
        refine ⟨?_, q2⟩
        rintro ⟨g, hg⟩
        simp only [Server.set] at hg
        split at hg
        · exact q1 ⟨f, hg⟩
        · exact q1 ⟨g, hg⟩
      | send f =>
        obtain ⟨hj, rfl⟩ := he
        refine ⟨by simpa [ShutdownCalled, Server.set] using p1, by simpa [ShutdownReturned, Server.set] using p2, ?_⟩
        intro hn
        obtain ⟨q1, q2⟩ := p3 (hsf hn)
        refine ⟨?_, q2⟩
        rintro ⟨g, hg⟩
        simp only [Server.set] at hg
        split at hg
        · simp at hg
        · exact q1 ⟨g, hg⟩
      | sent f ok =>
        obtain ⟨hp, rfl⟩ := he
        refine ⟨by simpa [ShutdownCalled, Server.set] using p1, by simpa [ShutdownReturned, Server.set] using p2, ?_⟩
        intro hn
        obtain ⟨q1, q2⟩ := p3 (hsf hn)
        refine ⟨?_, q2⟩
        rintro ⟨g, hg⟩
        rw [set_fsm] at hg
        split at hg
        · simp only [Pending.tag.injEq] at hg
          exact absurd ⟨f, by simp [hg]⟩ hn
        · exact q1 ⟨g, hg⟩
      | free f =>
        obtain ⟨hj, rfl⟩ := he
        refine ⟨by simpa [ShutdownCalled, Server.set] using p1, by simpa [ShutdownReturned, Server.set] using p2, ?_⟩
        intro hn
        obtain ⟨q1, q2⟩ := p3 (hsf hn)
        refine ⟨?_, q2⟩
        rintro ⟨g, hg⟩
        rw [set_fsm] at hg
        split at hg
        · exact q1 ⟨f, hg⟩
        · exact q1 ⟨g, hg⟩
      | close =>
        obtain ⟨hc, rfl⟩ := he
        exact ⟨by simp [ShutdownCalled], by simpa [ShutdownReturned, Server.set] using p2,
          fun _ => ⟨fun _ => rfl, fun _ => rfl⟩⟩
      | shutQueue =>
        obtain ⟨-, -, -, -, rfl⟩ := he
        exact ⟨by simpa [ShutdownCalled, Server.set] using p1, by simpa [ShutdownReturned, Server.set] using p2,
          fun hn => p3 (hsf hn)⟩
      | exit =>
        obtain ⟨-, -, -, -, rfl⟩ := he
        exact ⟨by simpa [ShutdownCalled, Server.set] using p1, by simp [ShutdownReturned],
          fun hn => p3 (hsf hn)⟩) ops _ (leadsTo_iff.1 hr)
  simp only [Outcome.ok.injEq] at h1
  subst h1
  exact h3

/-- C163, full statement: until `ShutdownServer` is called, whenever the server's thread has nothing
to do, the server can receive a request, however many requests are still being worked on. -/
def GoesOnAccepting : Prop :=
  ∀ ops s, LeadsTo ops s → ¬ ShutdownCalled ops → ThreadWaits s →
    ∃ f s', step s (.arrive f) = some (.ok s')

/-- A response that cannot be sent, then one more request. -/
def badOps : List Op :=
  [.arrive 0, .take 0, .send 0, .settle, .free 0, .sent 0 false, .take 0, .arrive 1, .take 1, .send 1,
   .settle, .free 1, .sent 1 true, .take 1]

/-- The end of a run. -/
def endOf (r : Option (Outcome Server)) : Server :=
  match r with
  | some (.ok s) => s
  | _ => {}

/-- It does not hold: one response that gRPC could not send (a client that went away) makes the
server act as if it were shut down, and it accepts one more request only. -/
theorem C163_negation : ¬ GoesOnAccepting := by
  intro h
  have hr : LeadsTo badOps (endOf (run first badOps)) := leadsTo_iff.2 rfl
  have hinv := (hist_run hr).1
  have hm : (endOf (run first badOps)).made = 2 := by decide +kernel
  have hidle : ∀ f, ((endOf (run first badOps)).fsm f).pending = .idle := by
    intro f
    by_cases hf : 2 ≤ f
    · rw [hinv.unmade f (by rw [hm]; exact hf)]
    · have : f = 0 ∨ f = 1 := by omega
      rcases this with rfl | rfl <;> decide +kernel
  obtain ⟨f, s', hs⟩ := h badOps _ hr (by simp [ShutdownCalled, badOps]) ⟨rfl, by
    intro f
    simp only [step]
    split
    · rw [hidle f]
    · rfl⟩
  simp [step, hidle f] at hs

/-- C163, partial: it holds as long as gRPC can send every response.  Missing: failed responses. -/
theorem C163_accepts_partial (ops : List Op) (s : Server) (hr : LeadsTo ops s)
    (hf : ¬ SendFailed ops) (hc : ¬ ShutdownCalled ops) (hw : ThreadWaits s) :
    ∃ f s', step s (.arrive f) = some (.ok s') := by
  obtain ⟨h, -⟩ := hist_run hr
  obtain ⟨c1, -, c2⟩ := closing_run hr
  have hcl : s.closing = false := by
    cases hx : s.closing with
    | false => rfl
    | true => exact absurd (c1.1 hx) hc
  have hd : s.detected = false := by
    cases hx : s.detected with
    | false => rfl
    | true => have := (c2 hf).2 hx; rw [hcl] at this; simp at this
  have hb : s.busy = none := by
    cases hb : s.busy with
    | none => rfl
    | some f => have := hw.1; simp [step, hb] at this
  have hx : s.exited = false := by
    cases hx : s.exited with
    | false => rfl
    | true => have := (h.shut (h.exited hx).1).1; rw [hcl] at this; simp at this
  obtain ⟨f, hfr⟩ := h.some_ hd
  refine ⟨f, s.set f { s.fsm f with pending := .tag true }, ?_⟩
  rcases hfr.2.2.2.2.2 with hp | ⟨ok, hp⟩
  · simp only [step]
    rw [if_pos ⟨hp, hcl⟩]
  · have := hw.2 f
    simp only [step, hb, hx, and_self, if_true, hp] at this
    cases ok <;> simp at this

example : shown (run first [.arrive 0, .take 0, .settle]) =
    some ([true, true, false, false], [.handled 0]) := by decide +kernel

/-! ### C164: shutting the server down -/

/-- How many steps are left for an object. -/
def weight (b : Bool) (x : Fsm) : Nat :=
  match x.pending with
  | .requested => 2
  | .tag ok =>
    if x.state = .processing ∧ x.job = .none ∧ b = false then (if ok then 8 else 1)
    else (if b then 1 else 0) + (if x.job = .none then 0 else 1) + 1
  | .sending => (if b then 1 else 0) + (if x.job = .none then 0 else 1) + 2
  | .idle => (if b then 1 else 0) + (match x.job with | .none => 0 | .working => 4 | .answered => 1)

def sumTo (g : Nat → Nat) : Nat → Nat
  | 0 => 0
  | n + 1 => sumTo g n + g n

theorem sumTo_congr {g h : Nat → Nat} {n : Nat} (e : ∀ i < n, g i = h i) : sumTo g n = sumTo h n := by
  induction n with
  | zero => rfl
  | succ n ih => rw [sumTo, sumTo, ih (fun i hi => e i (by omega)), e n (by omega)]

theorem sumTo_change {g h : Nat → Nat} {n f : Nat} (hf : f < n) (e : ∀ i, i ≠ f → g i = h i) :
    sumTo g n + h f = sumTo h n + g f := by
  induction n with
  | zero => omega
  | succ n ih =>
    rw [sumTo, sumTo]
    by_cases hn : f = n
    · subst hn
      rw [sumTo_congr (g := g) (h := h) (fun i hi => e i (by omega))]
      omega
    · have := ih (by omega)
      have := e n (fun x => hn x.symm)
      omega

/-- How many steps are left, if no request arrives. -/
def left_ (s : Server) : Nat :=
  sumTo (fun f => weight (at_ s f) (s.fsm f)) s.made + (if s.closing then 0 else 1) +
    (if s.queueShut then 0 else 1) + (if s.exited then 0 else 1)

theorem left_one {s s' : Server} {f : Nat} (hf : f < s.made) (hm : s'.made = s.made)
    (ho : ∀ g, g ≠ f → weight (at_ s' g) (s'.fsm g) = weight (at_ s g) (s.fsm g))
    (h1 : s'.closing = s.closing) (h2 : s'.queueShut = s.queueShut) (h3 : s'.exited = s.exited) :
    left_ s' + weight (at_ s f) (s.fsm f) = left_ s + weight (at_ s' f) (s'.fsm f) := by
  unfold left_
  rw [hm, h1, h2, h3]
  have := sumTo_change (g := fun g => weight (at_ s' g) (s'.fsm g))
    (h := fun g => weight (at_ s g) (s.fsm g)) hf ho
  omega

theorem weight_used {b : Bool} {x : Fsm} (h : Used b x) :
    weight b x = (if b then 1 else 0) +
      (match x.job with | .none => 0 | .working => 4 | .answered => 1) +
      (match x.pending with | .sending => 2 | .tag _ => 1 | _ => 0) := by
  have hst := h.2.1
  unfold weight
  rcases h.2.2 with hw | hw | hw | hw
  · simp [hw.1, hw.2.1]
  · rcases hw.2.1 with hp | ⟨ok, hp⟩
    · simp [hp, hw.1]
    · simp [hp, hw.1]
  · simp [hw.1, hw.2.1]
  · rcases hw.2.1 with hp | ⟨ok, hp⟩
    · simp [hp, hw.1]
    · cases b
      · simp [hp, hw.1, hst]
      · simp [hp, hw.1]

theorem left_step {s s' : Server} (h : Inv s) {op : Op} (he : Effect s op s') :
    left_ s' + 1 ≤ left_ s + (match op with | .arrive _ => 7 | _ => 0) := by
  cases op with
  | arrive f =>
    obtain ⟨hp, hc, rfl⟩ := he
    have := left_one (f := f) (s := s) (s' := s.set f { s.fsm f with pending := .tag true })
      (fresh_made h (by simp [hp])) rfl (fun g hg => by rw [at_set, set_fsm, if_neg hg]) rfl rfl rfl
    rw [at_set, set_self] at this
    have h1 : weight (at_ s f) (s.fsm f) = 2 := by simp [weight, hp]
    have h2 : weight (at_ s f) { s.fsm f with pending := .tag true } ≤ 8 := by
      simp only [weight]
      repeat' split
      all_goals omega
    dsimp only at *
    omega
  | refuse f =>
    obtain ⟨hp, hc, rfl⟩ := he
    have := left_one (f := f) (s := s) (s' := s.set f { s.fsm f with pending := .tag false })
      (fresh_made h (by simp [hp])) rfl (fun g hg => by rw [at_set, set_fsm, if_neg hg]) rfl rfl rfl
    rw [at_set, set_self] at this
    have hfr : Fresh (at_ s f) (s.fsm f) := by
      rcases h.good f with hg | hg | hg
      · exact hg
      · rcases hg.2.2 with hw | hw | hw | hw <;> simp [hp] at hw
      · simp [hg.2.1] at hp
    have h1 : weight (at_ s f) (s.fsm f) = 2 := by simp [weight, hp]
    have h2 : weight (at_ s f) { s.fsm f with pending := .tag false } = 1 := by
      simp [weight, hfr.2.2.1, hfr.2.2.2.1, hfr.2.2.2.2.1]
    dsimp only at *
    omega
  | take f =>
    obtain ⟨hb, hx, hcase⟩ := he
    have hat : ∀ g, at_ s g = false := fun g => by simp [at_, hb]
    rcases hcase with ⟨hfr, hp, rfl⟩ | ⟨hu, hp, rfl⟩ | ⟨hg, hp, rfl⟩
    · have hlt : f < s.made := fresh_made h (by simp [hp])
      have h1 : weight (at_ s f) (s.fsm f) = 8 := by
        simp [weight, hat, hp, hfr.2.2.1, hfr.2.2.2.1]
      have h2 : weight true { s.fsm f with pending := .idle, refs := 2, job := .working } = 5 := by
        simp [weight]
      -- the sum without the new object
      have key := sumTo_change (n := s.made) (f := f)
        (g := fun g => if g = f then 5 else weight (at_ s g) (s.fsm g))
        (h := fun g => weight (at_ s g) (s.fsm g)) hlt (fun i hi => by simp [hi])
      simp only [if_true, h1] at key
      have hsum : ∀ g, g < s.made →
          weight (decide (some f = some g)) (if g = f then
              { s.fsm f with pending := .idle, refs := 2, job := .working }
            else if g = s.made ∧ s.postNew = true then
              { alive := true, refs := 1, state := .processing, pending := .requested }
            else s.fsm g) = if g = f then 5 else weight (at_ s g) (s.fsm g) := by
        intro g hg
        by_cases e : g = f
        · subst e; simp [h2]
        · have e' : ¬ f = g := fun x => e x.symm
          have e2 : ¬ (g = s.made ∧ s.postNew = true) := by omega
          simp only [Option.some.injEq, e', decide_false, e, if_false]
          rw [if_neg e2, hat]
      unfold left_
      simp only [at_]
      cases hpn : s.postNew with
      | false =>
        simp only [hpn, Bool.false_eq_true, and_false, if_false] at hsum ⊢
        rw [sumTo_congr hsum]
        simp only [at_] at key ⊢
        omega
      | true =>
        simp only [hpn, and_true, if_true] at hsum ⊢
        rw [sumTo, sumTo_congr hsum]
        have e1 : ¬ s.made = f := by omega
        have e2 : ¬ f = s.made := by omega
        have h3 : weight false { alive := true, refs := 1, state := .processing, pending := .requested } = 2 := rfl
        simp only [Option.some.injEq, e1, e2, decide_false, if_false, if_true, h3]
        simp only [at_] at key ⊢
        omega
    · have hgood := good_taken hu hp
      have := left_one (f := f) (s := s) (s' := s.set f { s.fsm f with
            pending := .idle, refs := (s.fsm f).refs - 1, alive := decide ((s.fsm f).refs ≠ 1) })
        (fresh_made h (by simp [hp])) rfl (fun g hg => by rw [at_set, set_fsm, if_neg hg]) rfl rfl rfl
      rw [at_set, set_self, hat, weight_used hu] at this
      simp only [hp] at this
      simp only [weight] at this
      dsimp only at *
      omega
    · have := left_one (f := f) (s := s) (s' := { s.set f { s.fsm f with
            pending := .idle, refs := (s.fsm f).refs - 1, alive := decide ((s.fsm f).refs ≠ 1) } with
            detected := true, postNew := false })
        (fresh_made h (by simp [hp])) rfl (fun g hg => by
          show weight (at_ s g) (if g = f then _ else s.fsm g) = _
          rw [if_neg hg]) rfl rfl rfl
      have e : weight (at_ { s.set f { s.fsm f with
            pending := .idle, refs := (s.fsm f).refs - 1, alive := decide ((s.fsm f).refs ≠ 1) } with
            detected := true, postNew := false } f) ({ s.set f { s.fsm f with
            pending := .idle, refs := (s.fsm f).refs - 1, alive := decide ((s.fsm f).refs ≠ 1) } with
            detected := true, postNew := false }.fsm f) + 1 ≤ weight (at_ s f) (s.fsm f) := by
        show weight (at_ s f) (if f = f then _ else s.fsm f) + 1 ≤ _
        rw [if_pos rfl, hat]
        rcases hg with hg | hg | hg
        · simp [weight, hp, hg.2.2.1, hg.2.2.2.1]
        · rw [weight_used hg]
          simp only [hp, weight]
          omega
        · rw [hg.2.1] at hp; simp at hp
      dsimp only at *
      omega
  | settle =>
    obtain ⟨f, hf, rfl⟩ := he
    have hat : at_ s f = true := by simp [at_, hf]
    have hused : Used true (s.fsm f) := by
      have hg := h.good f
      rw [hat] at hg
      rcases hg with hg | hg | hg
      · have := hg.2.2.2.2.1; simp at this
      · exact hg
      · have := hg.2.2.2; simp at this
    have hnew : Used false { s.fsm f with state := .finished } := by
      refine ⟨hused.1, rfl, ?_⟩
      rcases hused.2.2 with hw | hw | hw | hw
      · exact Or.inl hw
      · exact Or.inr (Or.inl hw)
      · have := hw.2.2.2; simp at this
      · exact Or.inr (Or.inr (Or.inr hw))
    have hlt : f < s.made := made_of h (fun e => by have := hused.1; rw [e] at this; simp at this)
    have := left_one (f := f) (s := s)
      (s' := { s.set f { s.fsm f with state := .finished } with busy := none }) hlt rfl (fun g hg => by
        have : ¬ f = g := fun e => hg e.symm
        simp [at_, hf, this, Server.set, hg]) rfl rfl rfl
    have e : weight (at_ { s.set f { s.fsm f with state := .finished } with busy := none } f)
        ({ s.set f { s.fsm f with state := .finished } with busy := none }.fsm f) =
        weight false { s.fsm f with state := .finished } := by
      simp [at_, Server.set]
    rw [e, hat, weight_used hused, weight_used hnew] at this
    simp only [if_true, Bool.false_eq_true, if_false] at this
    dsimp only at *
    omega
  | send f =>
    obtain ⟨hj, rfl⟩ := he
    obtain ⟨hu, hlt⟩ := used_of_job h (f := f) (by simp [hj])
    have := left_one (f := f) (s := s) (s' := { s.set f { s.fsm f with pending := .sending, job := .answered } with
        log := s.log ++ [Event.answered f] }) hlt rfl (fun g hg => by
          show weight (at_ s g) (if g = f then _ else s.fsm g) = _
          rw [if_neg hg]) rfl rfl rfl
    have e : weight (at_ { s.set f { s.fsm f with pending := .sending, job := .answered } with
        log := s.log ++ [Event.answered f] } f) ({ s.set f { s.fsm f with pending := .sending, job := .answered } with
        log := s.log ++ [Event.answered f] }.fsm f) =
        weight (at_ s f) { s.fsm f with pending := .sending, job := .answered } := by
      show weight (at_ s f) (if f = f then _ else s.fsm f) = _
      rw [if_pos rfl]
    have e2 : weight (at_ s f) { s.fsm f with pending := .sending, job := .answered } =
        (if at_ s f then 1 else 0) + 1 + 2 := by simp [weight]
    rw [e, e2, weight_used hu] at this
    simp only [hj] at this
    dsimp only at *
    omega
  | sent f ok =>
    obtain ⟨hp, rfl⟩ := he
    have hu : Used (at_ s f) (s.fsm f) := by
      rcases h.good f with hg | hg | hg
      · have := hg.2.2.2.2.2; simp [hp] at this
      · exact hg
      · rw [hg.2.1] at hp; simp at hp
    have hnew : Used (at_ s f) { s.fsm f with pending := .tag ok } := by
      refine ⟨hu.1, hu.2.1, ?_⟩
      rcases hu.2.2 with hw | hw | hw | hw
      · simp [hp] at hw
      · exact Or.inr (Or.inl ⟨hw.1, Or.inr ⟨ok, rfl⟩, hw.2.2⟩)
      · simp [hp] at hw
      · exact Or.inr (Or.inr (Or.inr ⟨hw.1, Or.inr ⟨ok, rfl⟩, hw.2.2⟩))
    have := left_one (f := f) (s := s) (s' := s.set f { s.fsm f with pending := .tag ok })
      (fresh_made h (by simp [hp])) rfl (fun g hg => by rw [at_set, set_fsm, if_neg hg]) rfl rfl rfl
    rw [at_set, set_self, weight_used hu, weight_used hnew] at this
    simp only [hp] at this
    dsimp only at *
    omega
  | free f =>
    obtain ⟨hj, rfl⟩ := he
    obtain ⟨hu, hlt⟩ := used_of_job h (f := f) (by simp [hj])
    have := left_one (f := f) (s := s) (s' := s.set f { s.fsm f with
          job := .none, refs := (s.fsm f).refs - 1, alive := decide ((s.fsm f).refs ≠ 1) }) hlt rfl
      (fun g hg => by rw [at_set, set_fsm, if_neg hg]) rfl rfl rfl
    rw [at_set, set_self, weight_used hu] at this
    simp only [hj] at this
    have e : weight (at_ s f) { s.fsm f with
          job := .none, refs := (s.fsm f).refs - 1, alive := decide ((s.fsm f).refs ≠ 1) } =
        (if at_ s f then 1 else 0) + (match (s.fsm f).pending with | .sending => 2 | .tag _ => 1 | _ => 0) := by
      have hst := hu.2.1
      rcases hu.2.2 with hw | hw | hw | hw
      · simp [hj] at hw
      · rcases hw.2.1 with hp | ⟨ok, hp⟩
        · simp [weight, hp]
        · simp only [weight, hp]
          cases hb : at_ s f
          · simp [hst, hb]
          · simp
      · simp [weight, hw.2.1]
      · simp [hj] at hw
    rw [e] at this
    dsimp only at *
    omega
  | close =>
    obtain ⟨hc, rfl⟩ := he
    simp only [left_, hc]
    show sumTo (fun f => weight (at_ s f) (s.fsm f)) s.made + _ + _ + _ + 1 ≤ _
    simp only [Bool.false_eq_true, if_false, if_true]
    omega
  | shutQueue =>
    obtain ⟨-, -, -, hq, rfl⟩ := he
    simp only [left_, hq]
    show sumTo (fun f => weight (at_ s f) (s.fsm f)) s.made + _ + _ + _ + 1 ≤ _
    simp only [Bool.false_eq_true, if_false, if_true]
    omega
  | exit =>
    obtain ⟨-, -, -, hq, rfl⟩ := he
    simp only [left_, hq]
    show sumTo (fun f => weight (at_ s f) (s.fsm f)) s.made + _ + _ + _ + 1 ≤ _
    simp only [Bool.false_eq_true, if_false, if_true]
    omega

/-- C164.  A server that receives `n` requests takes at most `5 + 7 n` steps in all, so it always
comes to a state in which nothing is left to happen; and if `ShutdownServer` was called, then it has
returned in that state, and every object was deleted. -/
theorem C164_shutdown (ops : List Op) (s : Server) (hr : LeadsTo ops s) :
    ops.length ≤ 5 + 7 * (arrived ops).length ∧
    (ShutdownCalled ops → NothingLeft s →
      ShutdownReturned ops ∧ ∀ f, (s.fsm f).alive = false) := by
  refine ⟨?_, ?_⟩
  · obtain ⟨s', -, -, h3⟩ := run_induction
      (P := fun ops s => ops.length + left_ s ≤ 5 + 7 * (arrived ops).length)
      (by decide +kernel)
      (by
        intro ops s op s' h hp he
        have := left_step h he
        cases op with
        | arrive f =>
          have e : arrived (ops ++ [.arrive f]) = arrived ops ++ [f] := by simp [arrived]
          rw [e]
          simp only [List.length_append, List.length_singleton]
          dsimp only at this
          omega
        | _ =>
          have e : ∀ op : Op, (∀ f, op ≠ .arrive f) → arrived (ops ++ [op]) = arrived ops := by
            intro op hop
            cases op <;> simp_all [arrived]
          rw [e _ (by simp)]
          simp only [List.length_append, List.length_singleton]
          dsimp only at this
          omega) ops _ (leadsTo_iff.1 hr)
    omega
  · intro hcl hn
    obtain ⟨h, -⟩ := hist_run hr
    obtain ⟨c1, c2, -⟩ := closing_run hr
    have hc := c1.2 hcl
    obtain ⟨hb, hj, hp⟩ := nothingLeft h hn
    have hidle : ∀ f, (s.fsm f).pending = .idle := by
      intro f
      rcases hp f with hq | hq
      · exact hq
      · rw [hc] at hq; simp at hq
    have hdead : ∀ f, (s.fsm f).alive = false := by
      intro f
      rcases h.good f with hg | hg | hg
      · have := hg.2.2.2.2.2; simp [hidle f] at this
      · rcases hg.2.2 with hw | hw | hw | hw <;> simp [hidle f, hj f] at hw
      · exact hg.1
    refine ⟨c2.1 ?_, hdead⟩
    have hd : s.detected = true := by
      cases hd : s.detected with
      | true => rfl
      | false =>
        obtain ⟨f, hf⟩ := h.some_ hd
        have := hf.1
        rw [hdead f] at this
        simp at this
    have hover : callsOver s = true := by
      simp [callsOver, hidle, hj]
    have hq : s.queueShut = true := by
      cases hq : s.queueShut with
      | true => rfl
      | false =>
        have := hn .shutQueue (by simp) (by simp)
        simp [step, hc, hd, hover, hq] at this
    cases hx : s.exited with
    | true => rfl
    | false =>
      have := hn .exit (by simp) (by simp)
      simp [step, hq, hb, drained, hidle, hx] at this

example : ShutdownCalled someOps ∧ ShutdownReturned someOps ∧ someOps.length = 5 + 7 * 2 := by
  refine ⟨by simp [ShutdownCalled, someOps], by simp [ShutdownReturned, someOps], by decide⟩

end GrpcServer

end Distbench
