import Verif.Lemmas.Iterations

/-! An interpreter that turns a list of commands into an execution, for concrete cases. -/

namespace Distbench.Iterations
open Tables Spec

inductive Cmd where
  | issue
  | complete (i : Nat)
  | locked (i : Nat)
  | restart (i : Nat)
  | allDone (i : Nat)
  | run
  | tick (gap : Int)
  | idle (gap : Int)
  | cancel
  | time (t : Int)

/-- A possible interval between two iterations. -/
def GapOk (p : Params) (gap : Int) : Prop :=
  (p.exponential = true ∧ gap ≥ 0) ∨ (p.exponential = false ∧ gap = p.periodNs)

instance (p : Params) (gap : Int) : Decidable (GapOk p gap) := by
  unfold GapOk; exact inferInstance

theorem gapOk {p : Params} {gap : Int} (h : GapOk p gap) :
    if p.exponential then gap ≥ 0 else gap = p.periodNs := by
  rcases h with ⟨h1, h2⟩ | ⟨h1, h2⟩
  · rw [if_pos h1]; exact h2
  · rw [if_neg (by simp [h1])]; exact h2

/-- The state after a command, if it is possible. -/
def exec1 (p : Params) (s : State) : Cmd → Option State
  | .issue =>
    if s.overflow = false ∧ p.openLoop = false ∧ s.issued < p.copies ∧
        (p.activity = true → s.threads = []) then
      some (startIteration p s.issued
        { s with issued := s.issued + 1, threads := s.threads ++ [.running s.issued] })
    else none
  | .complete i =>
    match s.threads[i]? with
    | some (.running k) =>
      if s.overflow = false then
        some { s with threads := s.threads.take i ++ .read k s.canceled :: s.threads.drop (i + 1)
                      log := .ended k :: s.log }
      else none
    | _ => none
  | .locked i =>
    match s.threads[i]? with
    | some (.read _ b) =>
      if s.overflow = false then
        match finishLocked p b s with
        | some (next, finished, d) =>
          some (leave { s with next := next, finished := finished } (s.threads.take i)
            (s.threads.drop (i + 1)) d)
        | none => some { s with overflow := true }
      else none
    | _ => none
  | .restart i =>
    match s.threads[i]? with
    | some (.restart k) =>
      if s.overflow = false then
        some (startIteration p k
          { s with threads := s.threads.take i ++ .running k :: s.threads.drop (i + 1) })
      else none
    | _ => none
  | .allDone i =>
    match s.threads[i]? with
    | some .calling =>
      if s.overflow = false then
        some { s with threads := s.threads.take i ++ s.threads.drop (i + 1), log := .allDone :: s.log }
      else none
    | _ => none
  | .run =>
    if s.overflow = false ∧ p.activity = true ∧ p.openLoop = false ∧ s.issued = p.copies ∧
        s.threads = [] ∧ .allDone ∉ s.log then
      some (startIteration p 0 { s with threads := [.running 0] })
    else none
  | .tick gap =>
    match (openTick p gap s).2 with
    | some k =>
      if s.overflow = false ∧ p.openLoop = true ∧ Time.lt s.nextTime (.at s.now) = true ∧
          GapOk p gap ∧ InI32 (s.next + 1) then
        some (startIteration p k
          { s with nextTime := (openTick p gap s).1, next := s.next + 1
                   threads := s.threads ++ [.running k] })
      else none
    | none => none
  | .idle gap =>
    if s.overflow = false ∧ p.openLoop = true ∧ Time.lt s.nextTime (.at s.now) = true ∧
        GapOk p gap ∧ (openTick p gap s).2 = none then
      some { s with nextTime := (openTick p gap s).1 }
    else none
  | .cancel => some { s with canceled := true }
  | .time t => if s.now ≤ t then some { s with now := t } else none

def exec (p : Params) : State → List Cmd → Option State
  | s, [] => some s
  | s, c :: rest => match exec1 p s c with
    | some s' => exec p s' rest
    | none => none

theorem getElem?_split {α : Type} {l : List α} {i : Nat} {x : α} (h : l[i]? = some x) :
    l = l.take i ++ x :: l.drop (i + 1) := by
  have hlt : i < l.length := by
    rcases Nat.lt_or_ge i l.length with h' | h'
    · exact h'
    · rw [List.getElem?_eq_none h'] at h; simp at h
  rw [List.getElem?_eq_getElem hlt] at h
  injection h with h
  rw [← h]
  rw [List.getElem_cons_drop, List.take_append_drop]

theorem exec1_run {p : Params} {s s' : State} {c : Cmd} (h : exec1 p s c = some s') :
    Work p s s' ∨ Idle p s s' := by
  cases c with
  | issue =>
    simp only [exec1] at h
    split at h
    · rename_i hc; injection h with h; subst h
      exact .inl (.issue hc.1 hc.2.1 hc.2.2.1 hc.2.2.2)
    · simp at h
  | complete i =>
    simp only [exec1] at h
    split at h
    · rename_i k hk
      split at h
      · rename_i hc; injection h with h; subst h
        exact .inl (.complete hc (getElem?_split hk))
      · simp at h
    · simp at h
  | locked i =>
    simp only [exec1] at h
    split at h
    · rename_i k b hk
      split at h
      · rename_i hc
        split at h
        · rename_i hf; injection h with h; subst h
          exact .inl (.locked hc (getElem?_split hk) hf)
        · rename_i hf; injection h with h; subst h
          exact .inl (.overflow hc (getElem?_split hk) hf)
      · simp at h
    · simp at h
  | restart i =>
    simp only [exec1] at h
    split at h
    · rename_i k hk
      split at h
      · rename_i hc; injection h with h; subst h
        exact .inl (.restart hc (getElem?_split hk))
      · simp at h
    · simp at h
  | allDone i =>
    simp only [exec1] at h
    split at h
    · rename_i hk
      split at h
      · rename_i hc; injection h with h; subst h
        exact .inl (.allDone hc (getElem?_split hk))
      · simp at h
    · simp at h
  | run =>
    simp only [exec1] at h
    split at h
    · rename_i hc; injection h with h; subst h
      exact .inl (.run hc.1 hc.2.1 hc.2.2.1 hc.2.2.2.1 hc.2.2.2.2.1 hc.2.2.2.2.2)
    · simp at h
  | tick gap =>
    simp only [exec1] at h
    split at h
    · rename_i k hk
      split at h
      · rename_i hc; injection h with h; subst h
        exact .inl (.tick gap hc.1 hc.2.1 hc.2.2.1 (gapOk hc.2.2.2.1) hk hc.2.2.2.2)
      · simp at h
    · simp at h
  | idle gap =>
    simp only [exec1] at h
    split at h
    · rename_i hc; injection h with h; subst h
      exact .inr (.tick gap hc.1 hc.2.1 hc.2.2.1 (gapOk hc.2.2.2.1) hc.2.2.2.2)
    · simp at h
  | cancel => simp only [exec1, Option.some.injEq] at h; subst h; exact .inr .cancel
  | time t =>
    simp only [exec1] at h
    split at h
    · rename_i hc; injection h with h; subst h; exact .inr (.time t hc)
    · simp at h

theorem exec_run {p : Params} {s0 s s' : State} {n : Nat} {cmds : List Cmd} (hr : Run p s0 n s)
    (h : exec p s cmds = some s') : ∃ m, Run p s0 m s' := by
  induction cmds generalizing s n with
  | nil => simp only [exec, Option.some.injEq] at h; subst h; exact ⟨n, hr⟩
  | cons c rest ih =>
    simp only [exec] at h
    split at h
    · rename_i s1 h1
      rcases exec1_run h1 with hw | hi
      · exact ih (.work hr hw) h
      · exact ih (.idle hr hi) h
    · simp at h

/-- A concrete execution that ends in a state with the property `q`. -/
def Shows (a : Action) (now : Int) (listWarmup canceled : Bool) (cmds : List Cmd)
    (q : State → Bool) : Bool :=
  match initiate a now listWarmup canceled 0 with
  | .ok s0 => match exec (params a now listWarmup) s0 cmds with
    | some s => q s
    | none => false
  | _ => false

theorem shows_executes {a : Action} {now : Int} {w b : Bool} {cmds : List Cmd} {q : State → Bool}
    (h : Shows a now w b cmds q = true) : ∃ n s, Executes a now w b n s ∧ q s = true := by
  unfold Shows at h
  split at h
  · rename_i s0 h0
    split at h
    · rename_i s hs
      obtain ⟨m, hm⟩ := exec_run .start hs
      exact ⟨m, s, ⟨0, s0, h0, hm⟩, h⟩
    · simp at h
  · simp at h

end Distbench.Iterations
