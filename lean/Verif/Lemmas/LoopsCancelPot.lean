import Verif.Lemmas.LoopsCancelRun
import Verif.Lemmas.LoopsTidy

/-! Runs of lists on cancelled engines: how much each of them has still to do. -/

namespace Distbench.Iterations
open Spec

/-- What the threads of an action have still to do. -/
def cost : List Thread → Nat
  | [] => 0
  | .running _ :: r => 2 + cost r
  | .read _ true :: r => 1 + cost r
  | .read _ false :: r => 4 + cost r
  | .restart _ :: r => 3 + cost r
  | .calling :: r => cost r

theorem cost_append (l1 l2 : List Thread) : cost (l1 ++ l2) = cost l1 + cost l2 := by
  induction l1 with
  | nil => simp [cost]
  | cons t l ih =>
    cases t with
    | read k b => cases b <;> simp only [List.cons_append, cost, ih] <;> omega
    | _ => simp only [List.cons_append, cost, ih] <;> omega

/-- What an action has still to do. -/
def left (copies : Int) (s : State) : Nat := 3 * (copies - s.issued).toNat + cost s.threads

theorem fits_some {p : Params} {s : State} {b : Bool} (h : Steady p s) (hr : 0 < reads s.threads)
    (hroom : b = false → s.next ≠ p.limit → s.next + 1 < 2 ^ 31) : finishLocked p b s ≠ none := by
  have h1 := h.counts.pend
  have h2 := h.counts.issued
  have h3 := h.small
  have h4 := h.window.pend
  have h5 := h.begun
  have h6 := h.some
  unfold finishLocked
  dsimp only
  have hfin : InI32 (s.finished + 1) := by unfold InI32; omega
  rw [if_neg]
  · simp
  · rintro (hh | hh)
    · exact hh hfin
    · apply hh
      unfold InI32
      split
      · rename_i hd
        rw [Bool.and_eq_true, Bool.not_eq_true'] at hd
        have hd1 := hd.1
        unfold isDone at hd1
        rw [Bool.or_eq_false_iff] at hd1
        have hne : s.next ≠ p.limit := by
          intro hl
          rw [if_pos hl] at hd1
          cases hd1.2
        have := hroom hd1.1 hne
        omega
      · omega

/-- What an action can do next, once it is cancelled. -/
theorem moves {p : Params} {s : State} (h : Steady p s) (ho : s.overflow = false) (hc : s.canceled = true)
    (hr : reports s.log = 0) (hroom : s.next ≠ p.limit → 0 < readsNo s.threads → s.next + 1 < 2 ^ 31) :
    ∃ s', Work p s s' ∧
      (((∃ n b t, s'.log = .started n b t :: s.log) ∧ left p.copies s' < left p.copies s) ∨
       (s'.log = s.log ∧ left p.copies s' < left p.copies s) ∨
       (s'.log = .allDone :: s.log) ∨
       ∃ n, s'.log = .ended n :: s.log ∧ left p.copies s' < left p.copies s) := by
  have hcl := h.counts
  by_cases hi : s.issued < p.copies
  · refine ⟨_, .issue ho h.single hi (fun ha => by rw [h.quiet] at ha; cases ha), .inl ⟨⟨_, _, _, rfl⟩, ?_⟩⟩
    simp only [left, startIteration, cost_append, cost]
    omega
  · have h1 := hcl.pend
    have h2 := hcl.issued
    obtain ⟨h3, h4⟩ := hcl.call h.some
    cases ht : s.threads with
    | nil =>
      exfalso
      rw [ht] at h1 h3 h4
      simp only [runs, reads, restarts, calls] at h1 h3 h4
      have := h3 (by omega)
      omega
    | cons t r =>
      cases t with
      | running n =>
        refine ⟨_, .complete (l1 := []) (l2 := r) (k := n) ho ht, .inr (.inr (.inr ⟨n, rfl, ?_⟩))⟩
        simp only [left, ht, hc, List.nil_append, cost]
        omega
      | restart n =>
        refine ⟨_, .restart (l1 := []) (l2 := r) (k := n) ho ht, .inl ⟨⟨_, _, _, rfl⟩, ?_⟩⟩
        simp only [left, ht, startIteration, List.nil_append, cost]
        omega
      | calling => exact ⟨_, .allDone (l1 := []) (l2 := r) ho ht, .inr (.inr (.inl rfl))⟩
      | read n b =>
        cases hf : finishLocked p b s with
        | none =>
          refine absurd hf (fits_some h (by rw [ht]; simp only [reads]; omega) ?_)
          intro hb hne
          refine hroom hne ?_
          rw [ht, hb]
          simp only [readsNo]
          omega
        | some d =>
          obtain ⟨next, finished, d⟩ := d
          refine ⟨_, .locked (l1 := []) (l2 := r) (k := n) ho ht hf, .inr (.inl ?_)⟩
          obtain ⟨e1, -, -, -, e5⟩ := finishLocked_some hf
          cases d with
          | allDone =>
            refine ⟨rfl, ?_⟩
            cases b <;> simp only [left, leave, ht, List.nil_append, cost] <;> omega
          | free =>
            refine ⟨rfl, ?_⟩
            cases b <;> simp only [left, leave, ht, List.nil_append, cost] <;> omega
          | restart k =>
            refine ⟨rfl, ?_⟩
            cases b with
            | false => simp only [left, leave, ht, List.nil_append, cost]; omega
            | true =>
              have hd : isDone p true s.now s = true := by simp [isDone]
              rw [hd] at e5
              split at e5
              · cases e5
              · simp at e5

end Distbench.Iterations

namespace Distbench.Loops
open Tables Services Whole Spec

variable {w : Test} {s s' : State} {j a : Nat} {k k' : Job}

/-- How far the thread of a list is. -/
def phaseRank (size : Nat) : ActionList.Phase → Nat
  | .done => 0
  | .crashed => 0
  | .exit => 1
  | .drain => 2
  | .checkCancel => 3
  | .wait => 4
  | .scan i => 5 + (size - i)

/-- How many iterations an action begins at once. -/
def copiesAt (k : Job) (a : Nat) : Int :=
  match k.entry.listActions[a]? with
  | none => 0
  | some x => (Iterations.params x.proto 0 false).copies

/-- What an action of a run has still to do. -/
def actLeft (k : Job) (a : Nat) : Nat :=
  if (k.main.acts a).closed then 0
  else if (k.main.acts a).called then 1
  else match k.under a with
    | none => 3 + 3 * (copiesAt k a).toNat
    | some u => 2 + Iterations.left (copiesAt k a) u.state

/-- What a run has still to do itself. -/
def jobLeft (k : Job) : Nat :=
  phaseRank k.entry.listActions.length k.main.phase +
    ((List.range k.entry.listActions.length).map (actLeft k)).sum

theorem sum_le {f g : Nat → Nat} (l : List Nat) (h : ∀ a ∈ l, f a ≤ g a) : (l.map f).sum ≤ (l.map g).sum := by
  induction l with
  | nil => simp
  | cons x l ih =>
    have h1 := h x (by simp)
    have h2 := ih fun a ha => h a (by simp [ha])
    simp only [List.map_cons, List.sum_cons]
    omega

theorem sum_lt {f g : Nat → Nat} (l : List Nat) (h : ∀ a ∈ l, f a ≤ g a) {b : Nat} (hb : b ∈ l) (hlt : f b < g b) :
    (l.map f).sum < (l.map g).sum := by
  induction l with
  | nil => simp at hb
  | cons x l ih =>
    have h1 := h x (by simp)
    have h2 := sum_le l fun a ha => h a (by simp [ha])
    simp only [List.map_cons, List.sum_cons]
    rcases List.mem_cons.1 hb with rfl | hb
    · omega
    · have := ih (fun a ha => h a (by simp [ha])) hb
      omega

theorem left_rank (he : k'.entry = k.entry) (hle : ∀ b, actLeft k' b ≤ actLeft k b)
    (hlt : phaseRank k.entry.listActions.length k'.main.phase < phaseRank k.entry.listActions.length k.main.phase) :
    jobLeft k' < jobLeft k := by
  unfold jobLeft
  rw [he]
  have := sum_le (List.range k.entry.listActions.length) fun a _ => hle a
  omega

theorem left_act (he : k'.entry = k.entry) (hp : k'.main.phase = k.main.phase)
    (hle : ∀ b, b ≠ a → actLeft k' b = actLeft k b) (ha : a < k.entry.listActions.length)
    (hlt : actLeft k' a < actLeft k a) : jobLeft k' < jobLeft k := by
  unfold jobLeft
  rw [he, hp]
  have := sum_lt (f := actLeft k') (g := actLeft k) (List.range k.entry.listActions.length) (fun b _ => by
    by_cases hb : b = a
    · subst hb; omega
    · rw [hle b hb]
      exact Nat.le_refl _) (List.mem_range.2 ha) hlt
  omega

theorem left_tell : jobLeft (LoopsCancel.tell k) = jobLeft k := by
  unfold jobLeft
  have : ∀ b, actLeft (LoopsCancel.tell k) b = actLeft k b := by
    intro b
    unfold actLeft
    show (if (k.main.acts b).closed then 0 else if (k.main.acts b).called then 1 else
      match (k.under b).map fun u => { u with state := { u.state with canceled := true } } with
      | none => 3 + 3 * (copiesAt k b).toNat
      | some u => 2 + Iterations.left (copiesAt k b) u.state) = _
    cases k.under b <;> rfl
  have he : actLeft (LoopsCancel.tell k) = actLeft k := funext this
  rw [he]
  rfl

/-- The acts of a run whose flags are the same. -/
theorem actLeft_congr {m : ActionList.State} {b : Nat} (h1 : (m.acts b).closed = (k.main.acts b).closed)
    (h2 : (m.acts b).called = (k.main.acts b).called) : actLeft { k with main := m } b = actLeft k b := by
  unfold actLeft
  show (if (m.acts b).closed then 0 else if (m.acts b).called then 1 else
      match k.under b with
      | none => 3 + 3 * (copiesAt k b).toNat
      | some u => 2 + Iterations.left (copiesAt k b) u.state) = _
  rw [h1, h2]

theorem actLeft_none {m : ActionList.State} {b : Nat} (h1 : (k.main.acts b).closed = false)
    (h2 : (k.main.acts b).called = false) (h3 : k.under b = none) :
    actLeft { k with main := m } b ≤ actLeft k b := by
  unfold actLeft
  show (if (m.acts b).closed then 0 else if (m.acts b).called then 1 else
      match k.under b with
      | none => 3 + 3 * (copiesAt k b).toNat
      | some u => 2 + Iterations.left (copiesAt k b) u.state) ≤ _
  rw [h1, h2, h3]
  dsimp only
  split
  · simp
  · split
    · simp; omega
    · simp

theorem visit_other {c : ActionList.Ctx} {delay : Int} {i b : Nat} {m : ActionList.State} (hb : b ≠ i) :
    (ActionList.visit c delay i m).acts b = m.acts b := by
  unfold ActionList.visit
  split
  · rfl
  · dsimp only
    split
    · rfl
    · split
      · rfl
      · split
        · rfl
        · split
          · simp [ActionList.setAct, hb]
          · unfold ActionList.start
            dsimp only
            split
            · rw [ActionList.finish_acts, if_neg hb, ActionList.callback_acts, if_neg hb]
              simp [ActionList.setAct, hb]
            · split <;> simp [ActionList.setAct, hb]

theorem visit_started {c : ActionList.Ctx} {delay : Int} {i : Nat} {m : ActionList.State}
    (h : (m.acts i).started = true) : ActionList.visit c delay i m = m := by
  unfold ActionList.visit
  split
  · rfl
  · dsimp only
    rw [if_pos h]

/-- What the thread of a cancelled list does next, unless it waits for actions to end. -/
theorem thread_moves (hk : Fine w k) (hrun : ActionList.AllRun (k.ctx w)) (ht : Tidy w k)
    (hq : ∀ i, (k.ctx w).activityAt i = false) (hc : k.main.canceled = true) (hd : k.main.phase ≠ .done)
    (hw : k.main.phase ≠ .drain ∨ k.main.pending = 0) :
    ∃ m, ActionList.MainStep (k.ctx w) k.main m ∧ jobLeft { k with main := m } < jobLeft k := by
  obtain ⟨hC, hS⟩ := ActionList.inv_core hk.main hd
  have hsame : ∀ (m : ActionList.State), (∀ b, (m.acts b).closed = (k.main.acts b).closed ∧
      (m.acts b).called = (k.main.acts b).called) → ∀ b, actLeft { k with main := m } b ≤ actLeft k b :=
    fun m h b => Nat.le_of_eq (actLeft_congr (h b).1 (h b).2)
  have hhandle : ∀ b, ((ActionList.handle k.main).acts b).closed = (k.main.acts b).closed ∧
      ((ActionList.handle k.main).acts b).called = (k.main.acts b).called := by
    intro b
    rw [ActionList.handle_acts]
    split <;> exact ⟨rfl, rfl⟩
  cases hph : k.main.phase with
  | done => exact absurd hph hd
  | crashed => exact absurd hph ht.crash
  | exit =>
    refine ⟨_, .exit hph, left_rank rfl (hsame _ fun b => ⟨rfl, rfl⟩) ?_⟩
    rw [hph]
    simp [phaseRank, ActionList.respondAndFree]
  | checkCancel =>
    refine ⟨_, .cancel hph hc, left_rank rfl (hsame _ fun b => ?_) ?_⟩
    · rw [ActionList.cancelActivities_none hq]
      exact ⟨rfl, rfl⟩
    · rw [hph]
      simp [phaseRank]
  | wait =>
    by_cases hr : ActionList.ready k.main
    · refine ⟨_, .wake hph hr, left_rank rfl (hsame _ hhandle) ?_⟩
      rw [hph]
      simp [phaseRank]
    · refine ⟨_, .timeout hph hr, left_rank rfl (hsame _ fun b => ⟨rfl, rfl⟩) ?_⟩
      rw [hph]
      simp [phaseRank]
  | drain =>
    have h0 : k.main.pending = 0 := by
      rcases hw with hw | hw
      · exact absurd hph hw
      · exact hw
    refine ⟨_, .drain hph (.inl h0), left_rank rfl (hsame _ hhandle) ?_⟩
    have hpd := hC.pend
    rw [h0] at hpd
    rw [if_pos, hph]
    · simp [phaseRank]
    · intro i hi hst
      have hcl : (k.main.acts i).closed = true := by
        have h1 : List.countP (fun i => (k.main.acts i).started && !(k.main.acts i).closed)
            (List.range (k.ctx w).size) = 0 := by omega
        rw [List.countP_eq_zero] at h1
        have := h1 i (List.mem_range.2 hi)
        simpa [hst] using this
      rw [ActionList.handle_acts]
      split
      · rfl
      · rename_i hm
        cases hf : (k.main.acts i).finished with
        | true => rfl
        | false => exact absurd ((hC.fl_mem i).2 ⟨hcl, hf⟩) hm
  | scan i =>
    have hi := ht.scan i hph
    by_cases hlt : i < (k.ctx w).size
    · refine ⟨_, .visit i 0 hph hlt, left_rank rfl ?_ ?_⟩
      · intro b
        have hadv : ∀ m : ActionList.State, (ActionList.advance i m).acts = m.acts := by
          intro m
          unfold ActionList.advance
          split <;> rfl
        by_cases hb : b = i
        · subst hb
          cases hst : (k.main.acts b).started with
          | true =>
            rw [visit_started hst]
            exact Nat.le_of_eq (actLeft_congr (by rw [hadv]) (by rw [hadv]))
          | false =>
            have h2 : (k.main.acts b).called = false := by
              cases h : (k.main.acts b).called with
              | false => rfl
              | true => rw [hC.called_started b h] at hst; cases hst
            have h1 : (k.main.acts b).closed = false := by
              cases h : (k.main.acts b).closed with
              | false => rfl
              | true => rw [hC.closed_called b h] at h2; cases h2
            refine actLeft_none h1 h2 ?_
            cases hu : k.under b with
            | none => rfl
            | some u =>
              obtain ⟨x, -, -, h3, -⟩ := hk.under b u hu
              rw [hst] at h3
              cases h3
        · refine Nat.le_of_eq (actLeft_congr ?_ ?_) <;> rw [hadv, visit_other hb]
      · have hvp := (ActionList.visit_moves (m := k.main) 0 hrun hlt).1
        have hlt : i < k.entry.listActions.length := hlt
        show phaseRank _ (ActionList.advance i (ActionList.visit (k.ctx w) 0 i k.main)).phase < _
        unfold ActionList.advance
        rw [if_neg (by rw [hvp, hph]; simp), hph]
        simp only [phaseRank]
        omega
    · have hi2 : i = (k.ctx w).size := by omega
      subst hi2
      refine ⟨_, .scanned hph, left_rank rfl (hsame _ fun b => ⟨rfl, rfl⟩) ?_⟩
      rw [hph]
      dsimp only
      split <;> simp only [phaseRank] <;> omega

end Distbench.Loops
