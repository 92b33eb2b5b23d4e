import Verif.Spec.Grpc

/-! The invariant of the gRPC clients. -/

namespace Distbench.Grpc
open Services Spec

/-! ### runs -/

theorem run_append (k : ClientKind) (c : Client) (a b : List Op) :
    run k c (a ++ b) =
      match run k c a with
      | some (.ok c') => run k c' b
      | r => r := by
  induction a generalizing c with
  | nil => simp [run]
  | cons op a ih =>
    simp only [List.cons_append, run]
    cases h : step k c op with
    | none => rfl
    | some o => cases o <;> simp [ih]

theorem run_append_ok {k : ClientKind} {c d : Client} {a b : List Op}
    (h : run k c (a ++ b) = some (.ok d)) :
    ∃ m, run k c a = some (.ok m) ∧ run k m b = some (.ok d) := by
  rw [run_append] at h
  cases ha : run k c a with
  | none => simp [ha] at h
  | some o =>
    cases o with
    | ok m => exact ⟨m, rfl, by simpa [ha] using h⟩
    | error e => simp [ha] at h
    | ub => simp [ha] at h
    | crash => simp [ha] at h

theorem run_one {k : ClientKind} {c d : Client} {op : Op} (h : run k c [op] = some (.ok d)) :
    step k c op = some (.ok d) := by
  simp only [run] at h
  split at h <;> simp_all

/-! ### taking one element out of a list -/

theorem perm_take {α : Type} (f : α → Nat) (id : Nat) (x : α) :
    ∀ l : List α, (l.map f).Nodup → l.find? (fun y => f y == id) = some x →
      l.Perm (x :: l.filter (fun y => f y != id)) ∧ f x = id := by
  intro l
  induction l with
  | nil => simp
  | cons a l ih =>
    intro hn hf
    simp only [List.map_cons, List.nodup_cons] at hn
    by_cases ha : f a = id
    · simp only [List.find?_cons, ha, beq_self_eq_true, Option.some.injEq] at hf
      subst hf
      have : l.filter (fun y => f y != id) = l := by
        rw [List.filter_eq_self]
        intro y hy
        simp only [bne_iff_ne, ne_eq]
        intro h
        exact hn.1 (List.mem_map.2 ⟨y, hy, by omega⟩)
      simp [ha, this]
    · have ha' : (f a == id) = false := by simp [ha]
      simp only [List.find?_cons, ha'] at hf
      obtain ⟨h1, h2⟩ := ih hn.2 hf
      refine ⟨?_, h2⟩
      have : (f a != id) = true := by simp [ha]
      rw [List.filter_cons, if_pos this]
      exact (h1.cons a).trans (.swap x a _)

/-! ### the invariant -/

/-- The numbers of the RPCs that are in progress, ended, running their callback, or over. -/
def numbers (ops : List Op) (c : Client) : List Nat :=
  c.calls.map Call.id ++ (c.ended.map (fun e => e.1.id) ++ (c.running ++ cameBack ops))

/-- The callers whose state the driver will still write. -/
def inUse (c : Client) : List Nat :=
  c.calls.map Call.caller ++ c.ended.map (fun e => e.1.caller)

/-- What holds after the steps `ops` of a new client. -/
structure Inv (ops : List Op) (c : Client) : Prop where
  next : c.next = (started ops).length
  numbers : (numbers ops c).Perm (List.range c.next)
  calledBack : (calledBack ops).Perm (c.running ++ cameBack ops)
  ended : ((endedBy ops).map Prod.fst).Perm
    (c.ended.map (fun e => e.1.id) ++ (c.running ++ cameBack ops))
  pending : c.pending = (c.calls.length + c.ended.length + c.running.length : Nat)
  calls : ∀ x ∈ c.calls, (started ops)[x.id]? = some (x.caller, x.request)
  endings : ∀ x ∈ c.ended, (started ops)[x.1.id]? = some (x.1.caller, x.1.request) ∧
    (x.1.id, x.2) ∈ endedBy ops
  inUse : (inUse c).Nodup

theorem Inv.nodup {ops : List Op} {c : Client} (h : Inv ops c) : (Grpc.numbers ops c).Nodup :=
  h.numbers.symm.nodup List.nodup_range

theorem inv_new (peers channels : List Bool) : Inv [] (newClient peers channels) := by
  constructor <;> simp [newClient, started, Grpc.numbers, Spec.calledBack, cameBack, endedBy,
    Grpc.inUse]

theorem inv_step {k : ClientKind} {ops : List Op} {c d : Client} {op : Op} (h : Inv ops c)
    (hs : step k c op = some (.ok d)) : Inv (ops ++ [op]) d := by
  have hnd := h.nodup
  have h2 := h.numbers
  have h3 := h.calledBack
  have h4 := h.ended
  have h8 := h.inUse
  cases op with
  | start t i r =>
    simp only [step] at hs
    split at hs
    · simp at hs
    rename_i hfree
    cases ht : useTarget k c t <;> simp [ht, Outcome.bind] at hs
    subst hs
    constructor
    · simp [started, h.next]
    · simp only [Grpc.numbers, cameBack, List.map_cons, List.filterMap_append, List.filterMap_cons,
        List.filterMap_nil, List.append_nil, List.cons_append, List.range_succ]
      exact (h2.cons _).trans (List.perm_append_comm (l₁ := [c.next]))
    · simpa [Spec.calledBack, cameBack] using h3
    · simpa [endedBy, cameBack] using h4
    · simp only [h.pending, List.length_cons]; omega
    · intro x hx
      simp only [List.mem_cons] at hx
      rcases hx with rfl | hx
      · simp [started, h.next]
      · have := h.calls x hx
        simp only [started, List.filterMap_append] at this ⊢
        rw [List.getElem?_append_left (List.getElem?_eq_some_iff.1 this).1]
        exact this
    · intro x hx
      have := h.endings x hx
      refine ⟨?_, by simpa [endedBy] using this.2⟩
      have := this.1
      simp only [started, List.filterMap_append] at this ⊢
      rw [List.getElem?_append_left (List.getElem?_eq_some_iff.1 this).1]
      exact this
    · simp only [Grpc.inUse, List.map_cons, List.cons_append, List.nodup_cons, List.mem_append]
      exact ⟨hfree, h8⟩
  | finish id e =>
    simp only [step] at hs
    split at hs
    · simp at hs
    rename_i x hx
    simp only [Option.some.injEq, Outcome.ok.injEq] at hs
    subst hs
    obtain ⟨hp, hid⟩ := perm_take Call.id id x c.calls (List.nodup_append.1 hnd).1 hx
    constructor
    · simpa [started] using h.next
    · simp only [Grpc.numbers, cameBack, List.map_cons, List.filterMap_append, List.filterMap_cons,
        List.filterMap_nil, List.append_nil, List.cons_append]
      refine List.Perm.trans ?_ h2
      refine List.perm_middle.trans ?_
      exact ((hp.map Call.id).append_right _).symm
    · simpa [Spec.calledBack, cameBack] using h3
    · simp only [endedBy, cameBack, List.map_cons, List.filterMap_append, List.filterMap_cons,
        List.filterMap_nil, List.append_nil, List.cons_append, List.map_append, List.map_nil, hid]
      exact (List.perm_append_comm (l₂ := [id])).trans (h4.cons id)
    · have := hp.length_eq
      simp only [List.length_cons] at this ⊢
      rw [h.pending]
      omega
    · intro y hy
      simpa [started] using h.calls y (List.mem_filter.1 hy).1
    · intro y hy
      simp only [List.mem_cons] at hy
      rcases hy with rfl | hy
      · refine ⟨by simpa [started] using h.calls x (List.mem_of_find?_eq_some hx), ?_⟩
        simp [endedBy, hid]
      · have := h.endings y hy
        refine ⟨by simpa [started] using this.1, ?_⟩
        simp only [endedBy, List.filterMap_append, List.mem_append]
        exact Or.inl this.2
    · simp only [Grpc.inUse, List.map_cons] at h8 ⊢
      refine List.Perm.nodup ?_ h8
      refine List.Perm.trans ?_ List.perm_middle.symm
      exact (hp.map Call.caller).append_right _
  | callback id =>
    simp only [step] at hs
    split at hs
    · simp at hs
    split at hs
    · simp at hs
    rename_i x hx
    simp only [Option.some.injEq, Outcome.ok.injEq] at hs
    subst hs
    obtain ⟨hp, hid⟩ := perm_take (fun y : Call × Ending => y.1.id) id x c.ended
      (List.nodup_append.1 (List.nodup_append.1 hnd).2.1).1 hx
    have hm := hp.map (fun y : Call × Ending => y.1.id)
    simp only [List.map_cons, hid] at hm
    have hmid : ∀ rest : List Nat,
        ((c.ended.filter (fun y => y.1.id != id)).map (fun y => y.1.id) ++ id :: rest).Perm
          (c.ended.map (fun y => y.1.id) ++ rest) := fun rest =>
      List.perm_middle.trans (hm.append_right rest).symm
    constructor
    · simpa [started] using h.next
    · simp only [Grpc.numbers, cameBack, List.filterMap_append, List.filterMap_cons,
        List.filterMap_nil, List.append_nil, List.cons_append]
      exact ((hmid _).append_left _).trans h2
    · simp only [Spec.calledBack, cameBack, List.filterMap_append, List.filterMap_cons,
        List.filterMap_nil, List.append_nil, List.cons_append]
      exact (List.perm_append_comm (l₂ := [id])).trans (h3.cons id)
    · simp only [endedBy, cameBack, List.filterMap_append, List.filterMap_cons,
        List.filterMap_nil, List.append_nil, List.cons_append]
      exact h4.trans (hmid _).symm
    · have := hp.length_eq
      simp only [List.length_cons] at this ⊢
      rw [h.pending]
      omega
    · intro y hy
      simpa [started] using h.calls y hy
    · intro y hy
      simpa [started, endedBy] using h.endings y (List.mem_filter.1 hy).1
    · simp only [Grpc.inUse] at h8 ⊢
      rw [List.nodup_append] at h8 ⊢
      refine ⟨h8.1, ?_, ?_⟩
      · exact List.Nodup.sublist (List.filter_sublist.map _) h8.2.1
      · intro a ha b hb
        exact h8.2.2 a ha b ((List.filter_sublist.map _).subset hb)
  | returned id =>
    simp only [step] at hs
    split at hs
    · rename_i hr
      simp only [Option.some.injEq, Outcome.ok.injEq] at hs
      subst hs
      have hrn : c.running.Nodup :=
        (List.nodup_append.1 (List.nodup_append.1 (List.nodup_append.1 hnd).2.1).2.1).1
      have hf : c.running.find? (fun y => y == id) = some id := by
        cases hq : c.running.find? (fun y => y == id) with
        | none => have := List.find?_eq_none.1 hq id hr; simp at this
        | some y => have := List.find?_some hq; simp at this; rw [this]
      obtain ⟨hp, -⟩ := perm_take (fun y : Nat => y) id id c.running (by simpa using hrn) hf
      have hmid : ((c.running.filter (· != id)) ++ (cameBack ops ++ [id])).Perm
          (c.running ++ cameBack ops) := by
        rw [← List.append_assoc]
        exact List.perm_append_comm.trans (hp.append_right _).symm
      constructor
      · simpa [started] using h.next
      · simp only [Grpc.numbers, cameBack, List.filterMap_append, List.filterMap_cons,
          List.filterMap_nil]
        exact ((hmid.append_left _).append_left _).trans h2
      · simp only [Spec.calledBack, cameBack, List.filterMap_append, List.filterMap_cons,
          List.filterMap_nil, List.append_nil]
        exact h3.trans hmid.symm
      · simp only [endedBy, cameBack, List.filterMap_append, List.filterMap_cons,
          List.filterMap_nil, List.append_nil]
        exact h4.trans (hmid.symm.append_left _)
      · have := hp.length_eq
        simp only [List.length_cons] at this ⊢
        rw [h.pending]
        omega
      · intro y hy
        simpa [started] using h.calls y hy
      · intro y hy
        simpa [started, endedBy] using h.endings y hy
      · exact h8
    · simp at hs
  | shutdown =>
    simp only [step] at hs
    split at hs
    · simp only [Option.some.injEq, Outcome.ok.injEq] at hs
      subst hs
      constructor
      · simpa [started] using h.next
      · simpa [Grpc.numbers, cameBack] using h2
      · simpa [Spec.calledBack, cameBack] using h3
      · simpa [endedBy, cameBack] using h4
      · exact h.pending
      · simpa [started] using h.calls
      · simpa [started, endedBy] using h.endings
      · exact h8
    · simp at hs

theorem inv_run {k : ClientKind} {pre : List Op} {c d : Client} (h : Inv pre c) :
    ∀ {ops : List Op}, run k c ops = some (.ok d) → Inv (pre ++ ops) d := by
  intro ops
  induction ops generalizing pre c with
  | nil => intro hr; simp only [run, Option.some.injEq, Outcome.ok.injEq] at hr; subst hr; simpa using h
  | cons op ops ih =>
    intro hr
    simp only [run] at hr
    split at hr <;> try simp at hr
    rename_i c' hc'
    have := ih (inv_step h hc') hr
    simpa using this

end Distbench.Grpc
