import Verif.Spec.RpcAction
import Verif.Props.Sampling
import Verif.Props.OpenLoop

/-! Lemmas about actions that run an RPC. -/

namespace Distbench.RpcAction
open Spec

/-! ### lists -/

theorem count_erase_add {α : Type} [DecidableEq α] {l : List α} {a : α} (h : a ∈ l) (b : α) :
    (l.erase a).count b + (if a = b then 1 else 0) = l.count b := by
  have hp := List.perm_cons_erase h
  have := hp.count_eq b
  rw [List.count_cons] at this
  by_cases he : a = b
  · subst he; simp at this ⊢; omega
  · have hne : (a == b) = false := by simp [he]
    rw [hne] at this
    simp [he] at this ⊢; omega

theorem countP_erase_add {α : Type} [BEq α] [LawfulBEq α] {l : List α} {a : α} (h : a ∈ l)
    (P : α → Bool) : (l.erase a).countP P + (if P a then 1 else 0) = l.countP P := by
  have hp := List.perm_cons_erase h
  have := hp.countP_eq P
  rw [List.countP_cons] at this
  omega

theorem length_erase_add {α : Type} [BEq α] [LawfulBEq α] {l : List α} {a : α} (h : a ∈ l) :
    (l.erase a).length + 1 = l.length := by
  have hp := List.perm_cons_erase h
  have := hp.length_eq
  simp at this; omega

theorem count_peersIn (k : Int) (t : Nat) (l : List Call) : (peersIn k l).count t = l.count ⟨k, t⟩ := by
  induction l with
  | nil => rfl
  | cons c l ih =>
    unfold peersIn at ih ⊢
    rw [List.filter_cons, List.count_cons]
    obtain ⟨i, p⟩ := c
    by_cases h : i = k
    · subst h
      simp only [decide_true, if_true, List.map_cons, List.count_cons, ih]
      congr 1
      by_cases hp : p = t <;> simp [hp]
    · simp [h, ih]

theorem length_peersIn (k : Int) (l : List Call) :
    (peersIn k l).length = l.countP (fun c => c.iteration = k) := by
  unfold peersIn
  rw [List.length_map, List.countP_eq_length_filter]

theorem sum_range_zero (n : Nat) : ((List.range n).map (fun _ => 0)).sum = 0 := by
  induction n with
  | zero => rfl
  | succ n ih => rw [List.range_succ, List.map_append, List.sum_append, ih]; rfl

theorem sum_range_add (f g : Nat → Nat) (n : Nat) :
    ((List.range n).map (fun k => f k + g k)).sum =
      ((List.range n).map f).sum + ((List.range n).map g).sum := by
  induction n with
  | zero => rfl
  | succ n ih => simp only [List.range_succ, List.map_append, List.sum_append, ih, List.map_cons,
      List.map_nil, List.sum_cons, List.sum_nil]; omega

theorem sum_range_le {f g : Nat → Nat} {n : Nat} (h : ∀ k < n, f k ≤ g k) :
    ((List.range n).map f).sum ≤ ((List.range n).map g).sum := by
  induction n with
  | zero => exact Nat.le_refl _
  | succ n ih =>
    simp only [List.range_succ, List.map_append, List.sum_append, List.map_cons, List.map_nil,
      List.sum_cons, List.sum_nil]
    have := ih (fun k hk => h k (by omega))
    have := h n (by omega)
    omega

theorem sum_range_congr {f g : Nat → Nat} {n : Nat} (h : ∀ k < n, f k = g k) :
    ((List.range n).map f).sum = ((List.range n).map g).sum :=
  Nat.le_antisymm (sum_range_le fun k hk => Nat.le_of_eq (h k hk))
    (sum_range_le fun k hk => Nat.le_of_eq (h k hk).symm)

theorem sum_range_const (c n : Nat) : ((List.range n).map (fun _ => c)).sum = n * c := by
  induction n with
  | zero => simp
  | succ n ih =>
    simp only [List.range_succ, List.map_append, List.sum_append, List.map_cons, List.map_nil,
      List.sum_cons, List.sum_nil, ih, Nat.succ_mul]
    omega

theorem sum_range_single (x : Int) (b : Nat) (n : Nat) :
    ((List.range n).map (fun (k : Nat) => if x = (k : Int) then b else 0)).sum =
      if 0 ≤ x ∧ x < n then b else 0 := by
  induction n with
  | zero => simp only [List.range_zero, List.map_nil, List.sum_nil]; split <;> omega
  | succ n ih =>
    simp only [List.range_succ, List.map_append, List.sum_append, List.map_cons, List.map_nil,
      List.sum_cons, List.sum_nil, ih]
    split <;> split <;> split <;> omega

theorem countP_iterations {l : List Call} {n : Nat}
    (h : ∀ c ∈ l, 0 ≤ c.iteration ∧ c.iteration < (n : Int)) (P : Call → Bool) :
    l.countP P = ((List.range n).map
      (fun (k : Nat) => l.countP (fun c => P c && decide (c.iteration = (k : Int))))).sum := by
  induction l with
  | nil => simp only [List.countP_nil]; rw [sum_range_zero]
  | cons c l ih =>
    rw [List.countP_cons, ih (fun c hc => h c (List.mem_cons_of_mem _ hc))]
    have hc := h c List.mem_cons_self
    have := sum_range_single c.iteration (if P c then 1 else 0) n
    rw [if_pos hc] at this
    rw [← this, ← sum_range_add]
    apply sum_range_congr
    intro k _
    rw [List.countP_cons]
    by_cases hk : c.iteration = (k : Int) <;> simp [hk]

/-! ### samples -/

open Sampling (Worker weight weight_append) in
theorem step_same {cap : Nat} {s x : Sampling.State} (h : Sampling.Step cap s x)
    (hr : x.recorded = s.recorded) :
    (∀ w ∈ x.workers, ∃ w' ∈ s.workers, sampleNumber w' = sampleNumber w) ∧
    x.number = s.number ∧
    (x.workers ≠ s.workers → weight x.workers < weight s.workers) := by
  cases h with
  | arrive r draw hc hd =>
    exfalso
    unfold Sampling.arrive at hr
    dsimp only at hr
    split at hr
    · have := congrArg List.length hr; simp at this
    · split at hr <;> (have := congrArg List.length hr; simp at this)
  | @writeInitial l1 l2 n r e =>
    refine ⟨?_, rfl, fun _ => ?_⟩
    · intro w hw
      simp only [Sampling.writeInitial, List.mem_append, List.mem_cons] at hw
      rcases hw with hw | rfl | hw
      · exact ⟨w, by rw [e]; simp [hw], rfl⟩
      · exact ⟨.initial n r, by rw [e]; simp, rfl⟩
      · exact ⟨w, by rw [e]; simp [hw], rfl⟩
    · rw [e]; simp only [Sampling.writeInitial, weight_append, weight]; omega
  | @release l1 l2 n e =>
    refine ⟨?_, rfl, fun _ => ?_⟩
    · intro w hw
      simp only [Sampling.release, List.mem_append] at hw
      exact ⟨w, by rw [e]; rcases hw with hw | hw <;> simp [hw], rfl⟩
    · rw [e]; simp only [Sampling.release, weight_append, weight]; omega
  | @replace l1 l2 n slot r e hz =>
    have hws : (Sampling.replace l1 l2 n slot r s).workers = l1 ++ l2 := by
      unfold Sampling.replace
      split
      · rfl
      · split <;> rfl
    have hnum : (Sampling.replace l1 l2 n slot r s).number = s.number := by
      unfold Sampling.replace
      split
      · rfl
      · split <;> rfl
    rw [hws, hnum]
    refine ⟨?_, rfl, fun _ => ?_⟩
    · intro w hw
      simp only [List.mem_append] at hw
      exact ⟨w, by rw [e]; rcases hw with hw | hw <;> simp [hw], rfl⟩
    · rw [e]; simp only [weight_append, weight]; omega
  | direct r hc =>
    have := congrArg List.length hr
    simp [Sampling.recordDirect] at this
  | lookup t => exact ⟨fun w hw => ⟨w, hw, rfl⟩, rfl, fun h => absurd rfl h⟩

open Sampling (Worker weight weight_append) in
theorem step_more {cap : Nat} {s x : Sampling.State} {r : Sampling.Rpc} (h : Sampling.Step cap s x)
    (hr : x.recorded = s.recorded ++ [r]) :
    (∀ w ∈ x.workers, w ∈ s.workers ∨ sampleNumber w = s.number) ∧
    weight x.workers ≤ weight s.workers + 2 := by
  cases h with
  | arrive r draw hc hd =>
    unfold Sampling.arrive
    dsimp only
    split
    · refine ⟨fun w hw => ?_, by simp only [weight_append, weight]; omega⟩
      simp only [List.mem_append, List.mem_singleton] at hw
      rcases hw with hw | rfl
      · exact .inl hw
      · exact .inr rfl
    · split
      · exact ⟨fun w hw => .inl hw, by dsimp only; omega⟩
      · refine ⟨fun w hw => ?_, by simp only [weight_append, weight]; omega⟩
        simp only [List.mem_append, List.mem_singleton] at hw
        rcases hw with hw | rfl
        · exact .inl hw
        · exact .inr rfl
  | @writeInitial l1 l2 n r e => have := congrArg List.length hr; simp [Sampling.writeInitial] at this
  | @release l1 l2 n e => have := congrArg List.length hr; simp [Sampling.release] at this
  | @replace l1 l2 n slot r' e hz =>
    have hws : (Sampling.replace l1 l2 n slot r' s).recorded = s.recorded := by
      unfold Sampling.replace
      split
      · rfl
      · split <;> rfl
    rw [hws] at hr
    have := congrArg List.length hr
    simp at this
  | direct r hc => exact ⟨fun w hw => .inl hw, by simp [Sampling.recordDirect]⟩
  | lookup t => have := congrArg List.length hr; simp at this

/-! ### the invariant -/

/-- What all samples of an action have in common, and the instance and the warmup flag. -/
def keyOf (r : Sampling.Rpc) : Nat × Nat × Nat × Bool := (r.rpcIndex, r.service, r.instance_, r.warmup)

def keyOfCall (u : Setup) (c : Call) : Nat × Nat × Nat × Bool :=
  (u.rpc, u.service, c.peer, Iterations.warmupOf u.params c.iteration)

/-- 1 if the proposition holds, else 0. -/
noncomputable def toCount (b : Prop) : Nat := open Classical in if b then 1 else 0

theorem toCount_pos {b : Prop} (h : b) : toCount b = 1 := by unfold toCount; exact if_pos h

theorem toCount_neg {b : Prop} (h : ¬ b) : toCount b = 0 := by unfold toCount; exact if_neg h

structure Inv (u : Setup) (it0 : Iterations.State) (m : Nat) (s : State) : Prop where
  samp : Sampling.Reachable u.capacity s.sampling
  same : s.sampling.recorded.map keyOf = s.answered.map (keyOfCall u)
  sent : ∀ c : Call, s.toSend.count c + s.calls.count c = (s.targets c.iteration).count c.peer
  sentAll : ∀ k, s.toSend.countP (fun c => c.iteration = k) +
    s.calls.countP (fun c => c.iteration = k) = (s.targets k).length
  back : ∀ c : Call, s.inFlight.count c + s.answered.count c = s.calls.count c
  backAll : s.inFlight.length + s.answered.length = s.calls.length
  rem : ∀ k, s.toSend.countP (fun c => c.iteration = k) +
    s.inFlight.countP (fun c => c.iteration = k) +
    s.ending.countP (fun e => e.1.iteration = k) = s.remaining k
  fresh : ∀ k, starts k s.it.log = 0 → s.targets k = [] ∧ s.remaining k = 0
  picked : ∀ k, starts k s.it.log = 1 → u.pick k (s.targets k)
  fin : ∀ k, s.finishing.count k + ends k s.it.log =
    toCount (starts k s.it.log = 1 ∧ s.remaining k = 0)
  workers : ∀ w ∈ s.sampling.workers, ∃ c, (c, sampleNumber w) ∈ s.ending
  steps : ∃ i y, Iterations.Run u.params it0 i s.it ∧
    m + s.ending.length = i + s.calls.length + 2 * s.answered.length + y ∧
    y + Sampling.weight s.sampling.workers ≤ 2 * s.answered.length
  endLe : s.ending.length ≤ s.answered.length

theorem inv_begin {u : Setup} {it0 : Iterations.State} (texts : List Str) (hl : it0.log = []) :
    Inv u it0 0 (begin it0 (Sampling.start u.capacity
      (texts.foldl (fun d t => (d.getIndex t).1) .empty))) where
  samp := .start texts
  same := rfl
  sent := fun c => by simp [begin]
  sentAll := fun k => by simp [begin]
  back := fun c => by simp [begin]
  backAll := rfl
  rem := fun k => by simp [begin]
  fresh := fun k _ => ⟨rfl, rfl⟩
  picked := fun k h => by rw [show (begin it0 _).it = it0 from rfl, hl] at h; simp [starts] at h
  fin := fun k => by
    rw [show (begin it0 _).it = it0 from rfl, hl, toCount_neg (by simp [starts])]
    simp [ends, begin]
  workers := fun w hw => by simp [begin, Sampling.start] at hw
  steps := ⟨0, 0, .start, rfl, by simp [begin, Sampling.start, Sampling.weight]⟩
  endLe := Nat.le_refl _

theorem inv_idle {u : Setup} {it0 : Iterations.State} {m : Nat} {s s' : State} (h : Inv u it0 m s)
    (hi : Idle u s s') : Inv u it0 m s' := by
  cases hi with
  | iterations hi =>
    obtain ⟨-, hl, -⟩ := Iterations.idle_frame hi
    obtain ⟨i, y, h1, h2, h3⟩ := h.steps
    exact { h with
      fresh := fun k hk => h.fresh k (by rw [← hl]; exact hk)
      picked := fun k hk => h.picked k (by rw [← hl]; exact hk)
      fin := fun k => by have := h.fin k; dsimp only; rw [hl]; exact this
      steps := ⟨i, y, .idle h1 hi, h2, h3⟩ }
  | lookup t =>
    exact { h with
      samp := .step h.samp (.lookup t)
      same := h.same
      workers := h.workers
      steps := h.steps }

theorem inv_work {u : Setup} {it0 : Iterations.State} {m : Nat} {s s' : State}
    (hone : ∀ i it, Iterations.Run u.params it0 i it → ∀ k, starts k it.log ≤ 1)
    (h : Inv u it0 m s) (hw : Work u s s') : Inv u it0 (m + 1) s' := by
  obtain ⟨i, y, hrun, hm, hy⟩ := h.steps
  cases hw with
  | @start it' k w now ts hwork hlog hpick =>
    have hrun' := Iterations.Run.work hrun hwork
    have h1 := hone _ _ hrun' k
    rw [hlog] at h1
    simp only [starts, if_true] at h1
    have hz : starts k s.it.log = 0 := by omega
    obtain ⟨ht, hr⟩ := h.fresh k hz
    have hst : ∀ j, starts j it'.log = (if k = j then 1 else 0) + starts j s.it.log := by
      intro j; rw [hlog]; rfl
    have hen : ∀ j, ends j it'.log = ends j s.it.log := by intro j; rw [hlog]; rfl
    have hfin := h.fin k
    rw [toCount_neg (by omega)] at hfin
    have hrem := h.rem k
    unfold fanOut
    split
    · rename_i hts
      have hts : ts = [] := List.isEmpty_iff.1 hts
      subst hts
      have htar : set s.targets k [] = s.targets := by
        funext j; unfold set; split
        · rename_i e; rw [e, ht]
        · rfl
      rw [htar]
      exact { h with
        fresh := fun j hj => by dsimp only at hj ⊢; rw [hst] at hj; exact h.fresh j (by omega)
        picked := fun j hj => by
          dsimp only at hj ⊢
          rw [hst] at hj
          by_cases e : k = j
          · subst e; rw [ht]; exact hpick
          · rw [if_neg e] at hj; exact h.picked j (by omega)
        fin := fun j => by
          dsimp only
          rw [hst, hen, List.count_cons]
          have hj := h.fin j
          by_cases e : k = j
          · subst e
            simp only [beq_self_eq_true, if_true]
            rw [toCount_pos ⟨by omega, hr⟩]; omega
          · rw [if_neg e, if_neg (by simpa using e), Nat.zero_add, Nat.add_zero]; exact hj
        steps := ⟨i + 1, y, hrun', by dsimp only; omega, hy⟩ }
    · rename_i hts
      have hpos : 0 < ts.length := by
        cases ts with
        | nil => simp at hts
        | cons a l => simp
      have hcnt : ∀ c : Call, (ts.map (fun t => (⟨k, t⟩ : Call))).count c =
          if k = c.iteration then ts.count c.peer else 0 := by
        intro c
        clear hpick hts hpos
        induction ts with
        | nil => simp
        | cons t ts ih =>
          rw [List.map_cons, List.count_cons, ih, List.count_cons]
          obtain ⟨a, b⟩ := c
          by_cases e : k = a
          · subst e
            by_cases e2 : t = b <;> simp [e2]
          · simp [e]
      have hcntP : ∀ j, (ts.map (fun t => (⟨k, t⟩ : Call))).countP (fun c => c.iteration = j) =
          if k = j then ts.length else 0 := by
        intro j
        clear hpick hts hpos hcnt
        induction ts with
        | nil => simp
        | cons t ts ih =>
          rw [List.map_cons, List.countP_cons, ih, List.length_cons]
          by_cases e : k = j <;> simp [e]
      exact { h with
        sent := fun c => by
          have := h.sent c
          dsimp only
          rw [List.count_append, hcnt]
          unfold set
          by_cases e : k = c.iteration
          · rw [if_pos e, if_pos e.symm]
            rw [← e, ht] at this
            simp at this; omega
          · rw [if_neg e, if_neg (fun x => e x.symm)]; omega
        sentAll := fun j => by
          have := h.sentAll j
          dsimp only
          rw [List.countP_append, hcntP]
          unfold set
          by_cases e : k = j
          · rw [if_pos e, if_pos e.symm]
            rw [← e, ht] at this
            rw [← e]
            simp only [List.length_nil] at this; omega
          · rw [if_neg e, if_neg (fun x => e x.symm)]; omega
        rem := fun j => by
          have := h.rem j
          dsimp only
          rw [List.countP_append, hcntP]
          unfold set
          by_cases e : k = j
          · rw [if_pos e, if_pos e.symm]
            rw [← e, hr] at this
            rw [← e]; omega
          · rw [if_neg e, if_neg (fun x => e x.symm)]; omega
        fresh := fun j hj => by
          dsimp only at hj ⊢
          rw [hst] at hj
          have e : k ≠ j := by intro e; rw [if_pos e] at hj; omega
          unfold set
          rw [if_neg (fun x => e x.symm), if_neg (fun x => e x.symm)]
          exact h.fresh j (by omega)
        picked := fun j hj => by
          dsimp only at hj ⊢
          rw [hst] at hj
          unfold set
          by_cases e : k = j
          · subst e; rw [if_pos rfl]; exact hpick
          · rw [if_neg e] at hj; rw [if_neg (fun x => e x.symm)]; exact h.picked j (by omega)
        fin := fun j => by
          dsimp only
          rw [hst, hen]
          have hj := h.fin j
          unfold set
          by_cases e : k = j
          · subst e
            rw [if_pos rfl, if_pos rfl, toCount_neg (by omega)]; omega
          · rw [if_neg e, if_neg (fun x => e x.symm), Nat.zero_add]; exact hj
        steps := ⟨i + 1, y, hrun', by dsimp only; omega, hy⟩ }
  | send c hc =>
    exact { h with
      sent := fun d => by
        have := h.sent d
        have := count_erase_add hc d
        dsimp only
        rw [List.count_append, List.count_singleton]
        by_cases e : c = d
        · subst e; simp at this ⊢; omega
        · simp [e] at this ⊢; omega
      sentAll := fun k => by
        have := h.sentAll k
        have := countP_erase_add hc (fun c => decide (c.iteration = k))
        dsimp only
        rw [List.countP_append, List.countP_singleton]
        omega
      back := fun d => by
        have := h.back d
        dsimp only
        rw [List.count_append, List.count_singleton, List.count_cons]
        omega
      backAll := by
        have := h.backAll
        simp; omega
      rem := fun k => by
        have := h.rem k
        have := countP_erase_add hc (fun c => decide (c.iteration = k))
        dsimp only
        rw [List.countP_cons]
        omega
      steps := ⟨i, y, hrun, by simp; omega, hy⟩ }
  | @record x r c hc hstep hrec habout =>
    obtain ⟨g1, g2⟩ := step_more hstep hrec
    exact { h with
      samp := .step h.samp hstep
      same := by
        dsimp only
        rw [hrec, List.map_append, List.map_append, h.same]
        obtain ⟨a1, a2, a3, a4⟩ := habout
        simp [keyOf, keyOfCall, a1, a2, a3, a4]
      back := fun d => by
        have := h.back d
        have := count_erase_add hc d
        dsimp only
        rw [List.count_append, List.count_singleton]
        by_cases e : c = d
        · subst e; simp at this ⊢; omega
        · simp [e] at this ⊢; omega
      backAll := by
        have := h.backAll
        have := length_erase_add hc
        simp only [List.length_append, List.length_singleton]; omega
      rem := fun k => by
        have := h.rem k
        have := countP_erase_add hc (fun c => decide (c.iteration = k))
        dsimp only
        rw [List.countP_cons]
        dsimp only
        omega
      workers := fun w hw => by
        rcases g1 w hw with hw | hw
        · obtain ⟨c', hc'⟩ := h.workers w hw
          exact ⟨c', List.mem_cons_of_mem _ hc'⟩
        · exact ⟨c, by rw [hw]; exact List.mem_cons_self⟩
      steps := ⟨i, y, hrun, by simp only [List.length_append, List.length_cons, List.length_nil]; omega,
        by simp only [List.length_append, List.length_singleton]; omega⟩
      endLe := by
        have := h.endLe
        simp only [List.length_append, List.length_cons, List.length_nil]; omega }
  | @sample x hstep hrec hne =>
    obtain ⟨g1, g2, g3⟩ := step_same hstep hrec
    exact { h with
      samp := .step h.samp hstep
      same := by dsimp only; rw [hrec]; exact h.same
      workers := fun w hw => by
        obtain ⟨w', hw', e⟩ := g1 w hw
        rw [← e]; exact h.workers w' hw'
      steps := ⟨i, y + 1, hrun, by dsimp only; omega, by have := g3 hne; dsimp only; omega⟩ }
  | count c n hmem hfree =>
    have hrem := h.rem c.iteration
    have her := countP_erase_add hmem (fun e => decide (e.1.iteration = c.iteration))
    simp only [decide_true, if_true] at her
    unfold countDown
    exact { h with
      rem := fun k => by
        have h1 := h.rem k
        have h2 := countP_erase_add hmem (fun e => decide (e.1.iteration = k))
        dsimp only
        unfold set
        by_cases e : c.iteration = k
        · subst e
          rw [if_pos rfl]
          simp only [decide_true, if_true] at h2
          omega
        · rw [if_neg (fun x => e x.symm)]
          simp only [e, decide_false, Bool.false_eq_true, if_false] at h2
          omega
      fresh := fun k hk => by
        dsimp only
        obtain ⟨a, b⟩ := h.fresh k hk
        refine ⟨a, ?_⟩
        unfold set
        split
        · rename_i e; rw [← e, b]
        · exact b
      fin := fun k => by
        have h1 := h.fin k
        dsimp only
        unfold set
        by_cases e : k = c.iteration
        · subst e
          have hst : starts c.iteration s.it.log = 1 := by
            have := hone _ _ hrun c.iteration
            rcases Nat.lt_or_ge (starts c.iteration s.it.log) 1 with hlt | hge
            · have := (h.fresh c.iteration (by omega)).2
              omega
            · omega
          rw [if_pos rfl]
          rw [toCount_neg (by omega)] at h1
          by_cases hz : s.remaining c.iteration - 1 = 0
          · rw [if_pos hz, toCount_pos ⟨hst, hz⟩, List.count_cons_self]; omega
          · rw [if_neg hz, toCount_neg (fun x => hz x.2)]; exact h1
        · rw [if_neg e]
          by_cases hz : s.remaining c.iteration - 1 = 0
          · rw [if_pos hz, List.count_cons_of_ne (fun x => e x.symm)]; exact h1
          · rw [if_neg hz]; exact h1
      workers := fun w hw => by
        obtain ⟨c', hc'⟩ := h.workers w hw
        refine ⟨c', ?_⟩
        dsimp only
        rw [List.mem_erase_of_ne]
        · exact hc'
        · intro e
          injection e with _ e
          exact hfree w hw e
      steps := ⟨i, y, hrun, by have := length_erase_add hmem; dsimp only; omega, hy⟩
      endLe := by have := length_erase_add hmem; have := h.endLe; dsimp only; omega }
  | @finish it' k hk hwork hlog =>
    have hrun' := Iterations.Run.work hrun hwork
    have hst : ∀ j, starts j it'.log = starts j s.it.log := by intro j; rw [hlog]; rfl
    have hen : ∀ j, ends j it'.log = (if k = j then 1 else 0) + ends j s.it.log := by
      intro j; rw [hlog]; rfl
    exact { h with
      fresh := fun j hj => h.fresh j (by rw [← hst]; exact hj)
      picked := fun j hj => h.picked j (by rw [← hst]; exact hj)
      fin := fun j => by
        have h1 := h.fin j
        have h2 := count_erase_add hk j
        dsimp only
        rw [hst, hen]; omega
      steps := ⟨i + 1, y, hrun', by dsimp only; omega, hy⟩ }
  | @inner it' hwork hlog =>
    have hrun' := Iterations.Run.work hrun hwork
    have hst : ∀ j, starts j it'.log = starts j s.it.log := by
      intro j; rcases hlog with e | e <;> rw [e] <;> rfl
    have hen : ∀ j, ends j it'.log = ends j s.it.log := by
      intro j; rcases hlog with e | e <;> rw [e] <;> rfl
    exact { h with
      fresh := fun j hj => h.fresh j (by rw [← hst]; exact hj)
      picked := fun j hj => h.picked j (by rw [← hst]; exact hj)
      fin := fun j => by
        have h1 := h.fin j
        dsimp only
        rw [hst, hen]; exact h1
      steps := ⟨i + 1, y, hrun', by dsimp only; omega, hy⟩ }

theorem inv_run {u : Setup} {it0 : Iterations.State} {s0 : State} {m : Nat} {s : State}
    (hone : ∀ i it, Iterations.Run u.params it0 i it → ∀ k, starts k it.log ≤ 1)
    (h0 : Inv u it0 0 s0) (h : Run u s0 m s) : Inv u it0 m s := by
  induction h with
  | start => exact h0
  | work _ hw ih => exact inv_work hone ih hw
  | idle _ hi ih => exact inv_idle ih hi

end Distbench.RpcAction
