import Verif.Lemmas.Threadpool

/-! Invariants of simple and null pools. -/

namespace Distbench.Threadpool
open Spec

theorem number_zero (p : Th → Prop) [DecidablePred p] {l : List Th} (h : number p l = 0) {i : Nat} {t : Th}
    (ht : l[i]? = some t) : ¬ p t := by
  intro hp
  have := (number_pos p).2 ⟨i, t, ht, hp⟩
  omega

/-- The tasks that run when no thread is live. -/
theorem beingRun_none {l : List Th} (h : number Live l = 0) : beingRun l = [] := by
  induction l with
  | nil => rfl
  | cons t l ih =>
    rw [number_cons] at h
    cases t <;> simp [Live, beingRun] at h ⊢
    exact ih h

/-- The invariant of simple pools. -/
structure SInv (s : Simple) : Prop where
  order : s.added = s.begun ++ s.queue
  once : s.begun.Perm (s.finished ++ beingRun s.threads)
  active : s.active = number Live s.threads
  taker : s.queue ≠ [] → 0 < s.active
  alive : s.shutdown = false → 0 < s.active
  kinds : ∀ (i : Nat) (t : Th), s.threads[i]? = some t → t = .exited ∨ t = .waiting false ∨ ∃ k, t = .running k

theorem number_replicate (p : Th → Prop) [DecidablePred p] (n : Nat) (t : Th) :
    number p (List.replicate n t) = if p t then n else 0 := by
  unfold number
  rw [List.countP_replicate]
  by_cases h : p t <;> simp [h]

theorem beingRun_replicate (n : Nat) (b : Bool) : beingRun (List.replicate n (.waiting b)) = [] := by
  induction n with
  | zero => rfl
  | succ n ih => simp [List.replicate_succ, beingRun, ih]

theorem sinv_new {size : Nat} (h : 1 ≤ size) : SInv (.new size) := by
  have hl : number Live (List.replicate size (Th.waiting false)) = size := by
    rw [number_replicate, if_pos (by unfold Live; simp)]
  constructor
  · rfl
  · simp [Simple.new, beingRun_replicate]
  · simp [Simple.new, hl]
  · simp [Simple.new]
  · intro _; exact h
  · intro i t ht
    simp only [Simple.new, List.getElem?_replicate] at ht
    split at ht
    · cases ht; simp
    · cases ht

theorem kinds_set {l : List Th} {i : Nat} {u : Th}
    (h : ∀ (i : Nat) (t : Th), l[i]? = some t → t = .exited ∨ t = .waiting false ∨ ∃ k, t = .running k)
    (hu : u = .exited ∨ u = .waiting false ∨ ∃ k, u = .running k) :
    ∀ (j : Nat) (t : Th), (l.set i u)[j]? = some t → t = .exited ∨ t = .waiting false ∨ ∃ k, t = .running k := by
  intro j t ht
  rw [List.getElem?_set] at ht
  split at ht
  · split at ht
    · cases ht; exact hu
    · cases ht
  · exact h j t ht

theorem sinv_add {s : Simple} (h : SInv s) (hpos : 0 < s.active) (task : Nat) :
    SInv { s with queue := s.queue ++ [task], added := s.added ++ [task] } := by
  refine ⟨?_, h.once, h.active, fun _ => hpos, h.alive, h.kinds⟩
  simp [h.order]

theorem sinv_step {s s' : Simple} {op : Op} (h : SInv s) (hstep : s.step op = some s') : SInv s' := by
  cases op with
  | add task =>
    simp only [Simple.step] at hstep
    split at hstep
    · rename_i hg; cases hstep; exact sinv_add h (h.alive hg) task
    · cases hstep
  | addFrom i task =>
    simp only [Simple.step] at hstep
    split at hstep
    · rename_i k hk
      cases hstep
      refine sinv_add h ?_ task
      rw [h.active, number_pos]
      exact ⟨i, _, hk, by unfold Live; simp⟩
    · cases hstep
  | finish i =>
    simp only [Simple.step] at hstep
    split at hstep
    · rename_i task ht
      cases hstep
      have n2 := number_set Live (.waiting false) ht
      rw [if_pos (by unfold Live; simp), if_pos (by unfold Live; simp)] at n2
      have e1 := beingRun_perm (perm_get ht)
      have e2 := beingRun_perm (perm_set (.waiting false) ht)
      simp only [beingRun] at e1 e2
      refine ⟨h.order, ?_, ?_, h.taker, h.alive, kinds_set h.kinds (by simp)⟩
      · refine h.once.trans ((e1.append_left _).trans ?_)
        dsimp only
        rw [List.append_assoc]
        exact List.Perm.append_left _ (List.Perm.cons task e2.symm)
      · dsimp only; rw [h.active]; omega
    · cases hstep
  | wait i => simp [Simple.step] at hstep
  | timeout i => simp [Simple.step] at hstep
  | wake i =>
    simp only [Simple.step] at hstep
    split at hstep
    · rename_i timed ht
      split at hstep
      · rename_i hcond
        cases hstep
        have hapos : 0 < s.active := by
          rw [h.active, number_pos]
          exact ⟨i, _, ht, by unfold Live; simp⟩
        have e1 := beingRun_perm (perm_get ht)
        simp only [beingRun] at e1
        unfold Simple.wake
        cases hq : s.queue with
        | nil =>
          dsimp only
          have n2 := number_set Live .exited ht
          rw [if_pos (by unfold Live; simp), if_neg (by unfold Live; simp)] at n2
          have e2 := beingRun_perm (perm_set .exited ht)
          simp only [beingRun] at e2
          refine ⟨?_, h.once.trans ((e1.trans e2.symm).append_left _), ?_, ?_, ?_, kinds_set h.kinds (by simp)⟩
          · have := h.order; rw [hq] at this; exact this
          · have := h.active; dsimp only; omega
          · intro hh; exact absurd rfl hh
          · intro hsd
            rw [hq] at hcond
            simp at hcond hsd
            rw [hcond] at hsd
            cases hsd
        | cons task rest =>
          dsimp only
          have n2 := number_set Live (.running task) ht
          rw [if_pos (by unfold Live; simp), if_pos (by unfold Live; simp)] at n2
          have e2 := beingRun_perm (perm_set (.running task) ht)
          simp only [beingRun] at e2
          refine ⟨?_, ?_, ?_, fun _ => hapos, h.alive, kinds_set h.kinds (by simp)⟩
          · have := h.order; rw [hq] at this; simp [this]
          · have h1 : (s.begun ++ [task]).Perm (task :: s.begun) := by
              simpa using List.perm_append_comm (l₁ := s.begun) (l₂ := [task])
            refine h1.trans ?_
            refine (h.once.cons task).trans ?_
            refine List.perm_middle.symm.trans (List.Perm.append_left _ ?_)
            exact (e1.cons task).trans e2.symm
          · have := h.active; dsimp only; omega
      · cases hstep
    · cases hstep
  | shutdown =>
    simp only [Simple.step] at hstep
    split at hstep
    · cases hstep
      exact ⟨h.order, h.once, h.active, h.taker, by simp, h.kinds⟩
    · cases hstep
  | destroyed =>
    simp only [Simple.step] at hstep
    split at hstep
    · cases hstep
      exact ⟨h.order, h.once, h.active, h.taker, h.alive, h.kinds⟩
    · cases hstep

theorem sinv_run {s s' : Simple} {ops : List Op} (h : SInv s) (hrun : s.run ops = some s') : SInv s' := by
  induction ops generalizing s with
  | nil => simp only [Simple.run] at hrun; cases hrun; exact h
  | cons op ops ih =>
    simp only [Simple.run] at hrun
    split at hrun
    · rename_i s1 h1
      exact ih (sinv_step h h1) hrun
    · cases hrun

/-- The invariant of null pools. -/
structure NInv (s : Null) : Prop where
  order : s.added = s.begun
  once : s.begun.Perm (s.finished ++ beingRun s.threads)
  active : s.active = number Live s.threads
  kinds : ∀ (i : Nat) (t : Th), s.threads[i]? = some t → ¬ Idle t

theorem ninv_add {s : Null} (h : NInv s) (task : Nat) : NInv (s.addTask task) := by
  unfold Null.addTask
  refine ⟨by simp [h.order], ?_, ?_, ?_⟩
  · simp only [beingRun_append, beingRun]
    rw [← List.append_assoc]
    exact h.once.append_right [task]
  · simp only [number_append, number_cons, number_nil, h.active]
    rw [if_pos (by unfold Live; simp)]
  · intro i t ht
    dsimp only at ht
    rw [List.getElem?_append] at ht
    split at ht
    · exact h.kinds i t ht
    · have := List.mem_of_getElem? ht
      simp at this
      subst this
      rintro ⟨_, hh⟩
      cases hh

theorem ninv_step {s s' : Null} {op : Op} (h : NInv s) (hstep : s.step op = some s') : NInv s' := by
  have kset : ∀ (i : Nat) (u : Th), ¬ Idle u → ∀ (j : Nat) (t : Th), (s.threads.set i u)[j]? = some t → ¬ Idle t := by
    intro i u hu j t ht
    rw [List.getElem?_set] at ht
    split at ht
    · split at ht
      · cases ht; exact hu
      · cases ht
    · exact h.kinds j t ht
  cases op with
  | add task =>
    simp only [Null.step] at hstep
    split at hstep
    · cases hstep; exact ninv_add h task
    · cases hstep
  | addFrom i task =>
    simp only [Null.step] at hstep
    split at hstep
    · cases hstep; exact ninv_add h task
    · cases hstep
  | finish i =>
    simp only [Null.step] at hstep
    split at hstep
    · rename_i task ht
      cases hstep
      have n2 := number_set Live (.between true) ht
      rw [if_pos (by unfold Live; simp), if_pos (by unfold Live; simp)] at n2
      have e1 := beingRun_perm (perm_get ht)
      have e2 := beingRun_perm (perm_set (.between true) ht)
      simp only [beingRun] at e1 e2
      refine ⟨h.order, ?_, ?_, kset i _ (by rintro ⟨_, hh⟩; cases hh)⟩
      · refine h.once.trans ((e1.append_left _).trans ?_)
        dsimp only
        rw [List.append_assoc]
        exact List.Perm.append_left _ (List.Perm.cons task e2.symm)
      · dsimp only; rw [h.active]; omega
    · cases hstep
  | wait i =>
    simp only [Null.step] at hstep
    split at hstep
    · rename_i did ht
      cases hstep
      have n2 := number_set Live .exited ht
      rw [if_pos (by unfold Live; simp), if_neg (by unfold Live; simp)] at n2
      have e1 := beingRun_perm (perm_get ht)
      have e2 := beingRun_perm (perm_set .exited ht)
      simp only [beingRun] at e1 e2
      refine ⟨h.order, h.once.trans ((e1.trans e2.symm).append_left _), ?_, kset i _ (by rintro ⟨_, hh⟩; cases hh)⟩
      dsimp only; rw [h.active]; omega
    · cases hstep
  | wake i => simp [Null.step] at hstep
  | timeout i => simp [Null.step] at hstep
  | shutdown =>
    simp only [Null.step] at hstep
    split at hstep
    · cases hstep; exact ⟨h.order, h.once, h.active, h.kinds⟩
    · cases hstep
  | destroyed =>
    simp only [Null.step] at hstep
    split at hstep
    · cases hstep; exact ⟨h.order, h.once, h.active, h.kinds⟩
    · cases hstep

theorem ninv_run {s s' : Null} {ops : List Op} (h : NInv s) (hrun : s.run ops = some s') : NInv s' := by
  induction ops generalizing s with
  | nil => simp only [Null.run] at hrun; cases hrun; exact h
  | cons op ops ih =>
    simp only [Null.run] at hrun
    split at hrun
    · rename_i s1 h1
      exact ih (ninv_step h h1) hrun
    · cases hrun

theorem ninv_new : NInv {} := by
  constructor <;> simp [beingRun, number]

end Distbench.Threadpool
