import Verif.Lemmas.LoopsCancelFit
import Mathlib.Data.Multiset.DershowitzManna
import Mathlib.Data.Prod.Lex

/-! Whole tests that are cancelled: what is left to do becomes less. -/

namespace Distbench.Loops
open Tables Services Whole Spec

variable {w : Test} {s b : State} {j c : Nat} {k k' : Job} {r : Traffic.Call}

/-- What is left of one run, or of one RPC: the level of what it leads to, and how far it is itself. -/
abbrev Mark := Nat ×ₗ Nat

/-- What is left of a run, if `left` says how far runs are. -/
def jobMark (left : Job → Nat) (lev : Nat → Nat) (k : Job) : Mark := toLex (2 * lev k.list + 2, left k)

/-- The level of an RPC. -/
def callLevel (lev : Nat → Nat) (handler : Nat → Option Nat) (q : Nat) : Nat :=
  match handler q with
  | none => 1
  | some l => 2 * lev l + 3

/-- What is left of an RPC. -/
def callMark (lev : Nat → Nat) (handler : Nat → Option Nat) (r : Traffic.Call) : Mark :=
  toLex (callLevel lev handler r.rpc, 4 - stageNumber r.stage)

/-- What is left of all runs and all RPCs. -/
def marks (left : Job → Nat) (lev : Nat → Nat) (handler : Nat → Option Nat) (s : State) : Multiset Mark :=
  (s.jobs.map (jobMark left lev) : Multiset Mark) + (s.calls.map (callMark lev handler) : Multiset Mark)

/-- Less is left. -/
def Less (M N : Multiset Mark) : Prop := Multiset.IsDershowitzMannaLT M N

theorem mark_level {a b c d : Nat} (h : a < c) : (toLex (a, b) : Mark) < toLex (c, d) :=
  Prod.Lex.toLex_lt_toLex.2 (.inl h)

theorem mark_left {a b d : Nat} (h : b < d) : (toLex (a, b) : Mark) < toLex (a, d) :=
  Prod.Lex.toLex_lt_toLex.2 (.inr ⟨rfl, h⟩)

/-- One element of a list is replaced. -/
theorem map_set {α : Type} (f : α → Mark) (l : List α) : ∀ (i : Nat) (x : α), l[i]? = some x →
    ∃ X : Multiset Mark, (l.map f : Multiset Mark) = X + {f x} ∧
      ∀ y, ((l.set i y).map f : Multiset Mark) = X + {f y} := by
  induction l with
  | nil => intro i x h; simp at h
  | cons z l ih =>
    intro i x h
    cases i with
    | zero =>
      simp only [List.getElem?_cons_zero, Option.some.injEq] at h
      subst h
      refine ⟨(l.map f : Multiset Mark), ?_, fun y => ?_⟩
      · rw [List.map_cons, ← Multiset.cons_coe, add_comm, Multiset.singleton_add]
      · rw [List.set_cons_zero, List.map_cons, ← Multiset.cons_coe, add_comm, Multiset.singleton_add]
    | succ i =>
      simp only [List.getElem?_cons_succ] at h
      obtain ⟨X, h1, h2⟩ := ih i x h
      refine ⟨f z ::ₘ X, ?_, fun y => ?_⟩
      · rw [List.map_cons, ← Multiset.cons_coe, h1, Multiset.cons_add]
      · rw [List.set_cons_succ, List.map_cons, ← Multiset.cons_coe, h2, Multiset.cons_add]

variable {left : Job → Nat} {lev : Nat → Nat} {handler : Nat → Option Nat}

/-- A run goes on. -/
theorem turn_less {xs : List Job} {rs : List Traffic.Call} (hj : s.jobs[j]? = some k)
    (hjobs : b.jobs = s.jobs.set j k' ++ xs) (hcalls : b.calls = respond k.main k'.main k.parent s.calls ++ rs)
    (hl : k'.list = k.list) (hlt : left k' < left k) (hxs : ∀ x ∈ xs, lev x.list < lev k.list)
    (hrs : ∀ r ∈ rs, callLevel lev handler r.rpc < 2 * lev k.list + 2)
    (hresp : ∀ c r, k.parent = .call c → s.calls[c]? = some r → responses k.main.log < responses k'.main.log →
      r.stage = .running) :
    Less (marks left lev handler b) (marks left lev handler s) := by
  obtain ⟨X, h1, h2⟩ := map_set (jobMark left lev) s.jobs j k hj
  have hk' : jobMark left lev k' < jobMark left lev k := by
    unfold jobMark
    rw [hl]
    exact mark_left hlt
  have hbj : (b.jobs.map (jobMark left lev) : Multiset Mark) = X + {jobMark left lev k'} + (xs.map (jobMark left lev) : Multiset Mark) := by
    rw [hjobs, List.map_append, ← Multiset.coe_add, h2]
  have hx : ∀ y ∈ (xs.map (jobMark left lev) : Multiset Mark), y < jobMark left lev k := by
    intro y hy
    obtain ⟨x, hx, rfl⟩ := List.mem_map.1 (Multiset.mem_coe.1 hy)
    have := hxs x hx
    exact mark_level (by omega)
  have hr : ∀ y ∈ (rs.map (callMark lev handler) : Multiset Mark), y < jobMark left lev k := by
    intro y hy
    obtain ⟨r, hr, rfl⟩ := List.mem_map.1 (Multiset.mem_coe.1 hy)
    exact mark_level (hrs r hr)
  have hplain : (respond k.main k'.main k.parent s.calls = s.calls) → Less (marks left lev handler b) (marks left lev handler s) := by
    intro hsame
    refine ⟨X + (s.calls.map (callMark lev handler) : Multiset Mark), {jobMark left lev k'} + (xs.map (jobMark left lev) : Multiset Mark) +
      (rs.map (callMark lev handler) : Multiset Mark), {jobMark left lev k}, by simp, ?_, ?_, ?_⟩
    · unfold marks
      rw [hbj, hcalls, hsame, List.map_append, ← Multiset.coe_add]
      ac_rfl
    · unfold marks
      rw [h1]
      ac_rfl
    · intro y hy
      refine ⟨_, Multiset.mem_singleton_self _, ?_⟩
      rcases Multiset.mem_add.1 hy with hy | hy
      · rcases Multiset.mem_add.1 hy with hy | hy
        · rw [Multiset.mem_singleton.1 hy]
          exact hk'
        · exact hx y hy
      · exact hr y hy
  by_cases hre : responses k.main.log < responses k'.main.log
  · cases hp : k.parent with
    | root => exact hplain (by unfold respond; rw [if_pos hre, hp]; rfl)
    | action _ _ _ => exact hplain (by unfold respond; rw [if_pos hre, hp]; rfl)
    | call c =>
      cases hc : s.calls[c]? with
      | none =>
        refine hplain ?_
        unfold respond
        rw [if_pos hre, hp]
        simp only [Traffic.answer]
        exact List.modify_eq_self (by simpa using hc)
      | some r =>
        have hst := hresp c r hp hc hre
        have hset : respond k.main k'.main k.parent s.calls = s.calls.set c { r with stage := .answered } := by
          apply List.ext_getElem?
          intro i
          by_cases hi : i < s.calls.length
          · have := List.getElem?_eq_getElem hi
            rw [respond_get this, hp]
            by_cases hic : i = c
            · subst hic
              rw [List.getElem?_set_self hi, if_pos ⟨hre, rfl⟩]
              rw [hc] at this
              cases this
              rfl
            · rw [List.getElem?_set_ne (Ne.symm hic), if_neg, this]
              rintro ⟨-, hh⟩
              cases hh
              exact hic rfl
          · rw [List.getElem?_eq_none (by rw [respond_length]; omega), List.getElem?_eq_none (by simp; omega)]
        obtain ⟨Y, g1, g2⟩ := map_set (callMark lev handler) s.calls c r hc
        refine ⟨X + Y, {jobMark left lev k'} + (xs.map (jobMark left lev) : Multiset Mark) +
          {callMark lev handler { r with stage := .answered }} + (rs.map (callMark lev handler) : Multiset Mark),
          {jobMark left lev k} + {callMark lev handler r}, by simp, ?_, ?_, ?_⟩
        · unfold marks
          rw [hbj, hcalls, hset, List.map_append, ← Multiset.coe_add, g2]
          ac_rfl
        · unfold marks
          rw [h1, g1]
          ac_rfl
        · intro y hy
          have hself : jobMark left lev k ∈ ({jobMark left lev k} + {callMark lev handler r} : Multiset Mark) := by simp
          rcases Multiset.mem_add.1 hy with hy | hy
          · rcases Multiset.mem_add.1 hy with hy | hy
            · rcases Multiset.mem_add.1 hy with hy | hy
              · rw [Multiset.mem_singleton.1 hy]
                exact ⟨_, hself, hk'⟩
              · exact ⟨_, hself, hx y hy⟩
            · rw [Multiset.mem_singleton.1 hy]
              refine ⟨callMark lev handler r, by simp, ?_⟩
              unfold callMark
              refine mark_left ?_
              rw [hst]
              simp [stageNumber]
          · exact ⟨_, hself, hr y hy⟩
  · exact hplain (by unfold respond; rw [if_neg hre])

/-- An RPC goes on. -/
theorem call_less {st : Traffic.Stage} {xs : List Job} (hc : s.calls[c]? = some r) (hjobs : b.jobs = s.jobs ++ xs)
    (hcalls : b.calls = s.calls.set c { r with stage := st })
    (hlt : stageNumber r.stage < stageNumber st)
    (hxs : ∀ x ∈ xs, 2 * lev x.list + 2 < callLevel lev handler r.rpc) :
    Less (marks left lev handler b) (marks left lev handler s) := by
  obtain ⟨Y, g1, g2⟩ := map_set (callMark lev handler) s.calls c r hc
  refine ⟨(s.jobs.map (jobMark left lev) : Multiset Mark) + Y, (xs.map (jobMark left lev) : Multiset Mark) +
    {callMark lev handler { r with stage := st }}, {callMark lev handler r}, by simp, ?_, ?_, ?_⟩
  · unfold marks
    rw [hjobs, hcalls, g2, List.map_append, ← Multiset.coe_add]
    ac_rfl
  · unfold marks
    rw [g1]
    ac_rfl
  · intro y hy
    refine ⟨_, Multiset.mem_singleton_self _, ?_⟩
    rcases Multiset.mem_add.1 hy with hy | hy
    · obtain ⟨x, hx, rfl⟩ := List.mem_map.1 (Multiset.mem_coe.1 hy)
      exact mark_level (hxs x hx)
    · rw [Multiset.mem_singleton.1 hy]
      unfold callMark
      refine mark_left ?_
      have : stageNumber st ≤ 4 := by cases st <;> simp [stageNumber]
      dsimp only
      omega

theorem less_wf : WellFounded Less := Multiset.wellFounded_isDershowitzMannaLT

/-- Telling runs does not change what is left. -/
theorem marks_told {s' : State} (htell : ∀ k, left (LoopsCancel.tell k) = left k) (h : Told s s') : marks left lev handler s' = marks left lev handler s := by
  obtain ⟨h1, f, h2⟩ := h
  unfold marks
  rw [h1, h2, List.map_map]
  congr 2
  apply List.map_congr_left
  intro k _
  simp only [Function.comp]
  split
  · unfold jobMark
    rw [htell]
    rfl
  · rfl

end Distbench.Loops
