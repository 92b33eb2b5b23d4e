import Verif.Spec.Threadpool

/-! Lemmas about threads of a pool, and the invariant of elastic pools. -/

namespace Distbench.Threadpool
open Spec

theorem perm_get {α : Type} {l : List α} {i : Nat} {a : α} (h : l[i]? = some a) :
    l.Perm (a :: l.eraseIdx i) := by
  induction l generalizing i with
  | nil => simp at h
  | cons x l ih =>
    cases i with
    | zero => simp at h; subst h; simp
    | succ i =>
      simp at h
      rw [List.eraseIdx_cons_succ]
      exact ((ih h).cons x).trans (List.Perm.swap a x _)

theorem perm_set {α : Type} {l : List α} {i : Nat} {a : α} (b : α) (h : l[i]? = some a) :
    (l.set i b).Perm (b :: l.eraseIdx i) := by
  induction l generalizing i with
  | nil => simp at h
  | cons x l ih =>
    cases i with
    | zero => simp at h; simp
    | succ i =>
      simp at h
      rw [List.eraseIdx_cons_succ, List.set_cons_succ]
      exact ((ih h).cons x).trans (List.Perm.swap b x _)

theorem beingRun_filterMap (l : List Th) :
    beingRun l = l.filterMap (fun t => match t with | .running task => some task | _ => none) := by
  induction l with
  | nil => rfl
  | cons t l ih => cases t <;> simp [beingRun, ih]

theorem beingRun_perm {l l' : List Th} (h : l.Perm l') : (beingRun l).Perm (beingRun l') := by
  rw [beingRun_filterMap, beingRun_filterMap]
  exact h.filterMap _

theorem beingRun_append (l l' : List Th) : beingRun (l ++ l') = beingRun l ++ beingRun l' := by
  rw [beingRun_filterMap, beingRun_filterMap, beingRun_filterMap, List.filterMap_append]

theorem number_perm (p : Th → Prop) [DecidablePred p] {l l' : List Th} (h : l.Perm l') :
    number p l = number p l' := h.countP_eq _

theorem number_cons (p : Th → Prop) [DecidablePred p] (t : Th) (l : List Th) :
    number p (t :: l) = (if p t then 1 else 0) + number p l := by
  unfold number
  rw [List.countP_cons]
  by_cases h : p t <;> simp [h] <;> omega

theorem number_append (p : Th → Prop) [DecidablePred p] (l l' : List Th) :
    number p (l ++ l') = number p l + number p l' := List.countP_append

theorem number_nil (p : Th → Prop) [DecidablePred p] : number p [] = 0 := rfl

/-- What a change of one thread does to the numbers. -/
theorem number_set (p : Th → Prop) [DecidablePred p] {l : List Th} {i : Nat} {a : Th} (b : Th)
    (h : l[i]? = some a) :
    number p (l.set i b) + (if p a then 1 else 0) = number p l + (if p b then 1 else 0) := by
  rw [number_perm p (perm_set b h), number_perm p (perm_get h), number_cons, number_cons]
  omega

/-- A thread that has a property counts. -/
theorem number_pos (p : Th → Prop) [DecidablePred p] {l : List Th} :
    0 < number p l ↔ ∃ (i : Nat) (t : Th), l[i]? = some t ∧ p t := by
  unfold number
  rw [List.countP_pos_iff]
  constructor
  · rintro ⟨t, hm, ht⟩
    obtain ⟨i, hi, rfl⟩ := List.getElem_of_mem hm
    exact ⟨i, _, List.getElem?_eq_getElem hi, of_decide_eq_true ht⟩
  · rintro ⟨i, t, hi, ht⟩
    exact ⟨t, List.mem_of_getElem? hi, decide_eq_true ht⟩

/-- The threads waiting without a time limit. -/
abbrev Untimed (t : Th) : Prop := t = .waiting false

/-- The threads that have run a task that is not counted yet. -/
abbrev Uncounted (t : Th) : Prop := t = .between true

/-- The invariant of elastic pools. -/
structure EInv (s : Elastic) : Prop where
  order : s.added = s.begun ++ s.queue
  once : s.begun.Perm (s.finished ++ beingRun s.threads)
  idle : s.idle = number Idle s.threads
  active : s.active = number Live s.threads
  launched : s.launched = s.threads.length
  count : s.count + number Uncounted s.threads = s.finished.length
  untimed : number Untimed s.threads ≤ s.max
  room : s.queue.length ≤ s.max
  served : s.queue ≠ [] → s.queue.length ≤ s.idle ∨ s.max ≤ s.active
  taker : s.queue ≠ [] → 0 < s.active
  small : s.max ≤ 2 → s.queue ≠ [] → 0 < s.idle

theorem einv_new (size : Nat) : EInv (.new size) := by
  constructor <;> simp [Elastic.new, beingRun, number]

theorem einv_launch {s : Elastic} (hne : s.queue ≠ [])
    (order : s.added = s.begun ++ s.queue)
    (once : s.begun.Perm (s.finished ++ beingRun s.threads))
    (idle : s.idle = number Idle s.threads)
    (active : s.active = number Live s.threads)
    (launched : s.launched = s.threads.length)
    (count : s.count + number Uncounted s.threads = s.finished.length)
    (untimed : number Untimed s.threads ≤ s.max)
    (room : s.queue.length ≤ s.max)
    (served : 2 ≤ s.queue.length → s.queue.length ≤ s.idle + 1 ∨ s.max ≤ s.active + 1)
    (small : s.max ≤ 2 → 2 ≤ s.queue.length → 0 < s.idle) : EInv s.launch := by
  unfold Elastic.launch
  cases hq : s.queue with
  | nil => exact absurd hq hne
  | cons task rest =>
    rw [hq] at order room served small
    simp only [List.length_cons] at room served small
    have hrest : rest ≠ [] → 2 ≤ rest.length + 1 := by
      intro h
      have := List.length_pos_iff.2 h
      omega
    constructor
    · simp [order]
    · simp only [beingRun_append, beingRun]
      rw [← List.append_assoc]
      exact once.append_right [task]
    · simp only [number_append, number_cons, number_nil, idle]
      rw [if_neg (by rintro ⟨_, h⟩; cases h)]
      omega
    · simp only [number_append, number_cons, number_nil, active]
      rw [if_pos (by unfold Live; simp)]
    · simp [launched]
    · simp only [number_append, number_cons, number_nil]
      rw [if_neg (by simp)]
      omega
    · simp only [number_append, number_cons, number_nil]
      rw [if_neg (by simp)]
      omega
    · dsimp only; omega
    · intro h
      have := served (hrest h)
      dsimp only at *
      omega
    · intro h
      dsimp only
      omega
    · intro hm h
      exact small hm (hrest h)

theorem einv_addTask {s : Elastic} (h : EInv s) (hroom : s.queue.length + 1 ≤ s.max) (task : Nat) :
    EInv (s.addTask task) := by
  unfold Elastic.addTask
  dsimp only
  have hlen : (s.queue ++ [task]).length = s.queue.length + 1 := by simp
  have hq : s.queue.length = 0 ∨ s.queue ≠ [] := by
    cases s.queue <;> simp
  split
  · rename_i hgrow
    apply einv_launch
    · simp
    · simp [h.order]
    · exact h.once
    · exact h.idle
    · exact h.active
    · exact h.launched
    · exact h.count
    · exact h.untimed
    · dsimp only; omega
    · dsimp only
      rw [hlen]
      intro h2
      have := h.served (hq.resolve_left (by omega))
      omega
    · dsimp only
      rw [hlen]
      intro hm h2
      have := h.small hm (hq.resolve_left (by omega))
      omega
  · rename_i hgrow
    rw [hlen] at hgrow
    constructor
    · simp [h.order]
    · exact h.once
    · exact h.idle
    · exact h.active
    · exact h.launched
    · exact h.count
    · exact h.untimed
    · dsimp only; omega
    · intro _
      dsimp only
      rw [hlen]
      omega
    · intro _
      have hi : 0 < number Idle s.threads := by rw [← h.idle]; omega
      dsimp only
      rw [h.active, number_pos]
      obtain ⟨i, t, h1, h2⟩ := (number_pos Idle).1 hi
      obtain ⟨b, rfl⟩ := h2
      exact ⟨i, _, h1, by unfold Live; simp⟩
    · intro _ _
      dsimp only
      omega

theorem einv_step {s s' : Elastic} {op : Op} (h : EInv s) (hstep : s.step op = some s') : EInv s' := by
  have hnotidle : ∀ t, ¬ Idle (.running t) := by rintro t ⟨_, h⟩; cases h
  cases op with
  | add task =>
    simp only [Elastic.step] at hstep
    split at hstep
    · rename_i hg; cases hstep; exact einv_addTask h hg.2 task
    · cases hstep
  | addFrom i task =>
    simp only [Elastic.step] at hstep
    split at hstep
    · split at hstep
      · rename_i hg; cases hstep; exact einv_addTask h hg task
      · cases hstep
    · cases hstep
  | finish i =>
    simp only [Elastic.step] at hstep
    split at hstep
    · rename_i task ht
      cases hstep
      have n1 := number_set Idle (.between true) ht
      have n2 := number_set Live (.between true) ht
      have n3 := number_set Uncounted (.between true) ht
      have n4 := number_set Untimed (.between true) ht
      rw [if_neg (hnotidle _), if_neg (by rintro ⟨_, h⟩; cases h)] at n1
      rw [if_pos (by unfold Live; simp), if_pos (by unfold Live; simp)] at n2
      rw [if_neg (by simp), if_pos rfl] at n3
      rw [if_neg (by simp), if_neg (by simp)] at n4
      unfold Elastic.finish
      constructor
      · exact h.order
      · have e1 := beingRun_perm (perm_get ht)
        have e2 := beingRun_perm (perm_set (.between true) ht)
        simp only [beingRun] at e1 e2
        refine h.once.trans ((e1.append_left _).trans ?_)
        dsimp only
        rw [List.append_assoc]
        refine List.Perm.append_left _ ?_
        exact (List.Perm.cons task e2.symm)
      · dsimp only; rw [h.idle]; omega
      · dsimp only; rw [h.active]; omega
      · simp [h.launched]
      · have := h.count; simp only [List.length_append, List.length_singleton]; omega
      · have := h.untimed; dsimp only; omega
      · exact h.room
      · exact h.served
      · exact h.taker
      · exact h.small
    · cases hstep
  | wait i =>
    simp only [Elastic.step] at hstep
    split at hstep
    · rename_i did ht
      cases hstep
      unfold Elastic.wait
      generalize hb : decide (s.idle + 1 > s.max) = timed
      have n1 := number_set Idle (.waiting timed) ht
      have n2 := number_set Live (.waiting timed) ht
      have n3 := number_set Uncounted (.waiting timed) ht
      have n4 := number_set Untimed (.waiting timed) ht
      rw [if_neg (by rintro ⟨_, h⟩; cases h), if_pos ⟨_, rfl⟩] at n1
      rw [if_pos (by unfold Live; simp), if_pos (by unfold Live; simp)] at n2
      rw [if_neg (c := Uncounted (.waiting timed)) (by simp)] at n3
      rw [if_neg (c := Untimed (.between did)) (by simp)] at n4
      constructor
      · exact h.order
      · have e1 := beingRun_perm (perm_get ht)
        have e2 := beingRun_perm (perm_set (.waiting timed) ht)
        simp only [beingRun] at e1 e2
        exact h.once.trans ((e1.trans e2.symm).append_left _)
      · dsimp only; rw [h.idle]; omega
      · dsimp only; rw [h.active]; omega
      · simp [h.launched]
      · have := h.count
        cases did with
        | false => simp at n3 ⊢; omega
        | true => simp at n3 ⊢; omega
      · have hu := h.untimed
        have hi := h.idle
        have hle : ∀ l : List Th, number Untimed l ≤ number Idle l := by
          intro l
          unfold number
          apply List.countP_mono_left
          intro t _ htu
          simp only [decide_eq_true_eq] at htu ⊢
          exact ⟨_, htu⟩
        have hu2 := hle (s.threads.set i (.waiting timed))
        dsimp only
        cases timed with
        | true => simp at n4; omega
        | false =>
          have : ¬ (s.idle + 1 > s.max) := of_decide_eq_false hb
          omega
      · exact h.room
      · intro hq; have := h.served hq; dsimp only at *; omega
      · exact h.taker
      · intro hm hq; dsimp only; omega
    · cases hstep
  | wake i =>
    simp only [Elastic.step] at hstep
    split at hstep
    · rename_i timed ht
      split at hstep
      · rename_i hcond
        cases hstep
        have hpos : 0 < s.idle := by
          rw [h.idle, number_pos]
          exact ⟨i, _, ht, ⟨_, rfl⟩⟩
        have hapos : 0 < s.active := by
          rw [h.active, number_pos]
          exact ⟨i, _, ht, by unfold Live; simp⟩
        have e1 := beingRun_perm (perm_get ht)
        simp only [beingRun] at e1
        unfold Elastic.wake
        cases hq : s.queue with
        | nil =>
          dsimp only
          have n1 := number_set Idle .exited ht
          have n2 := number_set Live .exited ht
          have n3 := number_set Uncounted .exited ht
          have n4 := number_set Untimed .exited ht
          rw [if_pos ⟨_, rfl⟩, if_neg (by rintro ⟨_, h⟩; cases h)] at n1
          rw [if_pos (by unfold Live; simp), if_neg (by unfold Live; simp)] at n2
          rw [if_neg (by simp), if_neg (by simp)] at n3
          rw [if_neg (c := Untimed .exited) (by simp)] at n4
          have e2 := beingRun_perm (perm_set .exited ht)
          simp only [beingRun] at e2
          have ho := h.order
          rw [hq] at ho
          constructor
          · simpa [hq] using ho
          · exact h.once.trans ((e1.trans e2.symm).append_left _)
          · have := h.idle; dsimp only; omega
          · have := h.active; dsimp only; omega
          · simp [h.launched]
          · have := h.count; dsimp only; omega
          · have := h.untimed; dsimp only; omega
          · simp
          · intro hh; exact absurd rfl hh
          · intro hh; exact absurd rfl hh
          · intro _ hh; exact absurd rfl hh
        | cons task rest =>
          dsimp only
          have n1 := number_set Idle (.running task) ht
          have n2 := number_set Live (.running task) ht
          have n3 := number_set Uncounted (.running task) ht
          have n4 := number_set Untimed (.running task) ht
          rw [if_pos ⟨_, rfl⟩, if_neg (hnotidle _)] at n1
          rw [if_pos (by unfold Live; simp), if_pos (by unfold Live; simp)] at n2
          rw [if_neg (by simp), if_neg (by simp)] at n3
          rw [if_neg (c := Untimed (.running task)) (by simp)] at n4
          have e2 := beingRun_perm (perm_set (.running task) ht)
          simp only [beingRun] at e2
          have ho := h.order
          have hr := h.room
          have hs := h.served (by rw [hq]; simp)
          rw [hq] at ho hr hs
          simp only [List.length_cons] at hr hs
          have honce : (s.begun ++ [task]).Perm (s.finished ++ beingRun (s.threads.set i (.running task))) := by
            have h1 : (s.begun ++ [task]).Perm (task :: s.begun) := by simpa using List.perm_append_comm (l₁ := s.begun) (l₂ := [task])
            refine h1.trans ?_
            refine (h.once.cons task).trans ?_
            refine List.perm_middle.symm.trans (List.Perm.append_left _ ?_)
            exact (e1.cons task).trans e2.symm
          have hidle := h.idle
          have hactive := h.active
          have hcount := h.count
          have hun := h.untimed
          split
          · rename_i hg
            apply einv_launch
            · exact hg.2
            · simp [ho]
            · exact honce
            · dsimp only; omega
            · dsimp only; omega
            · simp [h.launched]
            · dsimp only; omega
            · dsimp only; omega
            · dsimp only; omega
            · dsimp only; intro _; omega
            · dsimp only; intro hm h2; omega
          · rename_i hg
            have hg' : rest ≠ [] → s.idle - 1 ≠ 0 := fun hr h0 => hg ⟨h0, hr⟩
            constructor
            · simp [ho]
            · exact honce
            · dsimp only; omega
            · dsimp only; omega
            · simp [h.launched]
            · dsimp only; omega
            · dsimp only; omega
            · dsimp only; omega
            · intro _; dsimp only; omega
            · intro _; dsimp only; omega
            · intro _ hr; have := hg' hr; dsimp only; omega
      · cases hstep
    · cases hstep
  | timeout i =>
    simp only [Elastic.step] at hstep
    split at hstep
    · rename_i ht
      split at hstep
      · rename_i hcond
        cases hstep
        have hpos : 0 < s.idle := by
          rw [h.idle, number_pos]
          exact ⟨i, _, ht, ⟨_, rfl⟩⟩
        have hapos : 0 < s.active := by
          rw [h.active, number_pos]
          exact ⟨i, _, ht, by unfold Live; simp⟩
        have e1 := beingRun_perm (perm_get ht)
        simp only [beingRun] at e1
        have key : ∀ t : Th, (¬ Idle t) → (beingRun [t] = []) → t ≠ .between true → t ≠ .waiting false →
            EInv { s with idle := s.idle - 1, active := if Live t then s.active else s.active - 1, threads := s.threads.set i t } := by
          intro t ht1 ht2 ht3 ht4
          have n1 := number_set Idle t ht
          have n2 := number_set Live t ht
          have n3 := number_set Uncounted t ht
          have n4 := number_set Untimed t ht
          rw [if_pos ⟨_, rfl⟩, if_neg ht1] at n1
          rw [if_pos (c := Live (.waiting true)) (by unfold Live; simp)] at n2
          rw [if_neg (by simp), if_neg ht3] at n3
          rw [if_neg (by simp), if_neg ht4] at n4
          have e2 := beingRun_perm (perm_set t ht)
          have e3 : beingRun (t :: s.threads.eraseIdx i) = beingRun (s.threads.eraseIdx i) := by
            rw [← List.singleton_append, beingRun_append, ht2]; rfl
          rw [e3] at e2
          constructor
          · exact h.order
          · exact h.once.trans ((e1.trans e2.symm).append_left _)
          · have := h.idle; dsimp only; omega
          · have := h.active
            dsimp only
            by_cases hl : Live t <;> simp only [hl, if_true, if_false] at n2 ⊢ <;> omega
          · simp [h.launched]
          · have := h.count; dsimp only; omega
          · have := h.untimed; dsimp only; omega
          · exact h.room
          · intro hh; exact absurd hcond.1 hh
          · intro hh; exact absurd hcond.1 hh
          · intro _ hh; exact absurd hcond.1 hh
        unfold Elastic.timeout
        dsimp only
        split
        · have := key .exited (by rintro ⟨_, h⟩; cases h) rfl (by simp) (by simp)
          rw [if_neg (by unfold Live; simp)] at this
          exact this
        · have := key (.between false) (by rintro ⟨_, h⟩; cases h) rfl (by simp) (by simp)
          rw [if_pos (by unfold Live; simp)] at this
          exact this
      · cases hstep
    · cases hstep
  | shutdown =>
    simp only [Elastic.step] at hstep
    split at hstep
    · cases hstep
      exact ⟨h.order, h.once, h.idle, h.active, h.launched, h.count, h.untimed, h.room, h.served, h.taker, h.small⟩
    · cases hstep
  | destroyed =>
    simp only [Elastic.step] at hstep
    split at hstep
    · cases hstep
      exact ⟨h.order, h.once, h.idle, h.active, h.launched, h.count, h.untimed, h.room, h.served, h.taker, h.small⟩
    · cases hstep

theorem einv_run {s s' : Elastic} {ops : List Op} (h : EInv s) (hrun : s.run ops = some s') : EInv s' := by
  induction ops generalizing s with
  | nil => simp only [Elastic.run] at hrun; cases hrun; exact h
  | cons op ops ih =>
    simp only [Elastic.run] at hrun
    split at hrun
    · rename_i s1 h1
      exact ih (einv_step h h1) hrun
    · cases hrun

end Distbench.Threadpool
