import Verif.Spec.Setup

/-! Property theorems C308: interrupted installations of libfabric and Mercury. -/

namespace Distbench
open Setup Spec

namespace Setup

/-- What a link leads to is all there, and was built with a version that `A` allows. -/
def Inv (A : Lib → Str → Prop) (d : Disk) : Prop :=
  ∀ l u, d.link l = some u → ∃ a, A l a ∧ d.dir l u = .whole a

theorem apply_removing (d : Disk) (lib : Lib) (v : Str) :
    (apply d (.removing lib v)).link = d.link ∧
    ∀ l u, ¬ (l = lib ∧ u = v) → (apply d (.removing lib v)).dir l u = d.dir l u := by
  unfold apply
  simp only
  split
  · exact ⟨rfl, fun _ _ _ => rfl⟩
  · exact ⟨rfl, fun l u h => by simp only [Disk.setDir]; rw [if_neg h]⟩

theorem inv_install {A : Lib → Str → Prop} {d : Disk} (h : Inv A d) (lib : Lib) (v a : Str) (ha : A lib a)
    (n : Nat) (h1 : n ≠ 1) (h2 : n ≠ 2) : Inv A (runSteps d ((installSteps lib v a).take n)) := by
  obtain ⟨r1, r2⟩ := apply_removing d lib v
  generalize hd' : apply d (.removing lib v) = d' at r1 r2
  have other : ∀ l u, l ≠ lib → d'.link l = some u → ∃ a, A l a ∧ d'.dir l u = .whole a := by
    intro l u hl hu
    rw [r1] at hu
    rw [r2 l u fun e => hl e.1]
    exact h l u hu
  match n, h1, h2 with
  | 0, _, _ => exact h
  | 3, _, _ =>
    simp only [installSteps, runSteps, List.take, List.foldl, hd']
    intro l u hu
    by_cases hl : l = lib
    · subst hl; simp [apply, Disk.setLink] at hu
    · simp only [apply, Disk.setLink, Disk.setDir, if_neg hl, hl, false_and, if_false] at hu ⊢
      exact other l u hl hu
  | 4, _, _ =>
    simp only [installSteps, runSteps, List.take, List.foldl, hd']
    intro l u hu
    by_cases hl : l = lib
    · subst hl; simp [apply, Disk.setLink, Disk.setDir] at hu
    · simp only [apply, Disk.setLink, Disk.setDir, if_neg hl, hl, false_and, if_false] at hu ⊢
      exact other l u hl hu
  | 5, _, _ =>
    simp only [installSteps, runSteps, List.take, List.foldl, hd']
    intro l u hu
    by_cases hl : l = lib
    · subst hl; simp [apply, Disk.setLink, Disk.setDir] at hu
    · simp only [apply, Disk.setLink, Disk.setDir, if_neg hl, hl, false_and, if_false] at hu ⊢
      exact other l u hl hu
  | n + 6, _, _ =>
    simp only [installSteps, runSteps, List.take, List.take_nil, List.foldl, hd']
    intro l u hu
    by_cases hl : l = lib
    · subst hl
      simp [apply, Disk.setLink, Disk.setDir] at hu
      subst hu
      exact ⟨a, ha, by simp [apply, Disk.setLink, Disk.setDir]⟩
    · simp only [apply, Disk.setLink, Disk.setDir, if_neg hl, hl, false_and, if_false] at hu ⊢
      exact other l u hl hu

theorem inv_setup {A : Lib → Str → Prop} {d : Disk} (h : Inv A d) (v w : Str) (h1 : A .fabric [])
    (h2 : A .mercury v) (n : Nat) (hn : NotInRemoval (v, w, n)) :
    Inv A (runSteps d ((setup v w).take n)) := by
  obtain ⟨n1, n2, n7, n8⟩ := hn
  simp only at n1 n2 n7 n8
  unfold setup runSteps
  rw [List.take_append, List.foldl_append]
  have hl : (installSteps .fabric v []).length = 6 := rfl
  rw [hl]
  exact inv_install (inv_install h .fabric v [] h1 n n1 n2) .mercury w v h2 (n - 6) (by omega) (by omega)

theorem inv_history {A : Lib → Str → Prop} (h1 : A .fabric []) (calls : List (Str × Str × Nat))
    (hc : ∀ c ∈ calls, NotInRemoval c) (h2 : ∀ c ∈ calls, A .mercury c.1) : Inv A (history calls) := by
  unfold history
  have start : Inv A fresh := by intro l u hu; cases hu
  revert start
  generalize fresh = d
  intro start
  induction calls generalizing d with
  | nil => exact start
  | cons c calls ih =>
    rw [List.foldl_cons]
    exact ih (fun x hx => hc x (List.mem_cons_of_mem _ hx)) (fun x hx => h2 x (List.mem_cons_of_mem _ hx)) _
      (inv_setup start c.1 c.2.1 h1 (h2 c (List.mem_cons_self ..)) c.2.2 (hc c (List.mem_cons_self ..)))

theorem not_needed {v w : Str} (hv : v ≠ []) (hw : w ≠ []) {d : Disk} (h : needed v w d = false) :
    d.link .fabric = some v ∧ d.link .mercury = some w := by
  unfold needed at h
  simp at h
  obtain ⟨h1, h2⟩ := h
  constructor
  · cases hl : d.link .fabric with
    | none => rw [hl] at h1; exact absurd h1.symm hv
    | some x => rw [hl] at h1; exact congrArg some h1
  · cases hl : d.link .mercury with
    | none => rw [hl] at h2; exact absurd h2.symm hw
    | some x => rw [hl] at h2; exact congrArg some h2

/-- C308: whatever was there before, once the script comes to its end both libraries are there in the
versions asked for, Mercury was built with this libfabric, and the deployment does not run it again. -/
theorem C308_completed (d : Disk) (v w : Str) :
    LibrariesReady (runSteps d (setup v w)) v w ∧ needed v w (runSteps d (setup v w)) = false := by
  obtain ⟨r1, r2⟩ := apply_removing d .fabric v
  have key : ∀ d : Disk, (runSteps d (installSteps .mercury w v)).link .fabric = d.link .fabric ∧
      (runSteps d (installSteps .mercury w v)).dir .fabric = d.dir .fabric ∧
      LinkedWhole (runSteps d (installSteps .mercury w v)) .mercury w v := by
    intro d
    obtain ⟨r1, r2⟩ := apply_removing d .mercury w
    simp only [runSteps, installSteps, List.foldl]
    generalize apply d (.removing .mercury w) = d' at r1 r2
    refine ⟨by simp [apply, Disk.setLink, Disk.setDir, r1], ?_, ?_⟩
    · funext u
      simp [apply, Disk.setLink, Disk.setDir, r2 .fabric u (by simp)]
    · exact ⟨by simp [apply, Disk.setLink, Disk.setDir], by simp [apply, Disk.setLink, Disk.setDir]⟩
  have first : ∀ d : Disk, LinkedWhole (runSteps d (installSteps .fabric v [])) .fabric v [] := by
    intro d
    simp only [runSteps, installSteps, List.foldl]
    exact ⟨by simp [apply, Disk.setLink, Disk.setDir], by simp [apply, Disk.setLink, Disk.setDir]⟩
  have hs : runSteps d (setup v w) =
      runSteps (runSteps d (installSteps .fabric v [])) (installSteps .mercury w v) := by
    unfold setup runSteps
    rw [List.foldl_append]
  rw [hs]
  obtain ⟨k1, k2, k3⟩ := key (runSteps d (installSteps .fabric v []))
  obtain ⟨f1, f2⟩ := first d
  refine ⟨⟨⟨by rw [k1, f1], by rw [k2, f2]⟩, k3⟩, ?_⟩
  unfold needed
  rw [k1, f1, k3.1]
  simp

/-- C308, as far as it holds: after any calls of the script, with any versions, each of which ended at any
point except during a removal, a deployment that does not run the script finds both libraries complete in
the versions it wants. -/
theorem C308_whole_partial (calls : List (Str × Str × Nat)) (hc : ∀ c ∈ calls, NotInRemoval c)
    {v w : Str} (hv : v ≠ []) (hw : w ≠ []) (h : needed v w (history calls) = false) :
    LinkedWhole (history calls) .fabric v [] ∧
      ∃ b, b ∈ calls.map (·.1) ∧ LinkedWhole (history calls) .mercury w b := by
  obtain ⟨h1, h2⟩ := not_needed hv hw h
  have inv := inv_history
    (A := fun l a => (l = .fabric → a = []) ∧ (l = .mercury → a ∈ calls.map (·.1)))
    ⟨fun _ => rfl, fun e => by cases e⟩ calls hc
    (fun c hc => ⟨fun e => (by cases e), fun _ => List.mem_map.2 ⟨c, hc, rfl⟩⟩)
  obtain ⟨a, ha, h3⟩ := inv _ _ h1
  obtain ⟨b, hb, h4⟩ := inv _ _ h2
  rw [ha.1 rfl] at h3
  exact ⟨⟨h1, h3⟩, b, hb.2 rfl, h2, h4⟩

/-- C308, as far as it holds: if also all calls were for the same version of libfabric, then Mercury was
built with it. -/
theorem C308_ready_partial (calls : List (Str × Str × Nat)) (hc : ∀ c ∈ calls, NotInRemoval c)
    {v w : Str} (hv : v ≠ []) (hw : w ≠ []) (same : ∀ c ∈ calls, c.1 = v)
    (h : needed v w (history calls) = false) : LibrariesReady (history calls) v w := by
  obtain ⟨h1, b, hb, h2⟩ := C308_whole_partial calls hc hv hw h
  obtain ⟨c, hc', rfl⟩ := List.mem_map.1 hb
  rw [same c hc'] at h2
  exact ⟨h1, h2⟩

example : let calls := [("1.17.0".toList, "2.1.0".toList, 12), ("1.17.0".toList, "2.2.0".toList, 10),
      ("1.17.0".toList, "2.2.0".toList, 4), ("1.17.0".toList, "2.2.0".toList, 12)]
    (∀ c ∈ calls, NotInRemoval c) ∧ needed "1.17.0".toList "2.2.0".toList (history calls) = false ∧
    needed "1.17.0".toList "2.2.0".toList (history (calls.take 3)) = true := by
  unfold NotInRemoval
  decide

/-- C308 is false of the code: if a repeated call ends after it has removed the directory and before it has
removed the link, then the deployment takes the library for installed. -/
theorem C308_removal_negation (v w : Str) :
    needed v w (history [(v, w, 12), (v, w, 2)]) = false ∧
    (history [(v, w, 12), (v, w, 2)]).dir .fabric v = .absent := by
  constructor
  · simp [needed, history, runSteps, setup, installSteps, apply, fresh, Disk.setLink, Disk.setDir]
  · simp [history, runSteps, setup, installSteps, apply, fresh, Disk.setLink, Disk.setDir]

/-- C308 is false of the code: so it does if the call ends while it removes the directory, with a part of the
files left. -/
theorem C308_removing_negation (v w : Str) :
    needed v w (history [(v, w, 12), (v, w, 1)]) = false ∧
    (history [(v, w, 12), (v, w, 1)]).dir .fabric v = .partly ∧
    needed v w (history [(v, w, 12), (v, w, 7)]) = false ∧
    (history [(v, w, 12), (v, w, 7)]).dir .mercury w = .partly := by
  refine ⟨?_, ?_, ?_, ?_⟩
  · simp [needed, history, runSteps, setup, installSteps, apply, fresh, Disk.setLink, Disk.setDir]
  · simp [history, runSteps, setup, installSteps, apply, fresh, Disk.setLink, Disk.setDir]
  · simp [needed, history, runSteps, setup, installSteps, apply, fresh, Disk.setLink, Disk.setDir]
  · simp [history, runSteps, setup, installSteps, apply, fresh, Disk.setLink, Disk.setDir]

/-- C308: a first call can end anywhere, also in a removal: without links the script is run again. -/
theorem C308_first {v w : Str} (hv : v ≠ []) (hw : w ≠ []) {n : Nat}
    (h : needed v w (history [(v, w, n)]) = false) : LibrariesReady (history [(v, w, n)]) v w := by
  by_cases hn : NotInRemoval (v, w, n)
  · exact C308_ready_partial [(v, w, n)] (by simpa using hn) hv hw (by simp) h
  · have h' : n = 1 ∨ n = 2 ∨ n = 7 ∨ n = 8 := by unfold NotInRemoval at hn; simp only at hn; omega
    rcases h' with rfl | rfl | rfl | rfl <;>
      simp [needed, history, runSteps, setup, installSteps, apply, fresh, Disk.setLink, Disk.setDir,
        hv.symm, hw.symm] at h

example : needed "1".toList "2".toList (history [("1".toList, "2".toList, 12)]) = false := by decide

/-- C308 is false of the code: if a call with another version of libfabric ends before it comes to Mercury,
then the deployment takes the Mercury that is there, which was built with the earlier libfabric. -/
theorem C308_against_negation {v v' : Str} (h : v ≠ v') (w : Str) :
    needed v' w (history [(v, w, 12), (v', w, 6)]) = false ∧
    ¬ LibrariesReady (history [(v, w, 12), (v', w, 6)]) v' w := by
  constructor
  · simp [needed, history, runSteps, setup, installSteps, apply, fresh, Disk.setLink, Disk.setDir, h.symm]
  · rintro ⟨_, _, h2⟩
    simp [history, runSteps, setup, installSteps, apply, fresh, Disk.setLink, Disk.setDir, h.symm] at h2
    exact h h2

end Setup
end Distbench
