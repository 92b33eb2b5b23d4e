import Verif.Spec.Checkout

/-! Property theorems C301–C303: fetching a version of a repository into a working tree and bringing
it up to date. -/

namespace Distbench
open Checkout Spec

namespace Checkout

theorem content_iff (fs : Files) (p c : Str) : content fs p = some c ↔ HasFile fs p c := by
  induction fs with
  | nil => simp [content, HasFile]
  | cons e rest ih =>
    obtain ⟨q, d⟩ := e
    rw [content]
    by_cases h : q = p
    · subst h
      rw [if_pos rfl]
      constructor
      · intro h; injection h with h; subst h; exact ⟨[], rest, rfl, by simp⟩
      · rintro ⟨before, after, h1, h2⟩
        cases before with
        | nil => injection h1 with h1 _; injection h1 with _ h1; rw [h1]
        | cons b before =>
          injection h1 with h1 _; subst h1
          exact absurd rfl (h2 _ (List.mem_cons_self ..))
    · rw [if_neg h, ih]
      constructor
      · rintro ⟨before, after, h1, h2⟩
        refine ⟨(q, d) :: before, after, by rw [h1]; rfl, ?_⟩
        intro e he
        rcases List.mem_cons.1 he with rfl | he
        · exact h
        · exact h2 e he
      · rintro ⟨before, after, h1, h2⟩
        cases before with
        | nil => injection h1 with h1 _; injection h1 with h1 _; exact absurd h1 h
        | cons b before =>
          injection h1 with h1 h3; subst h1
          exact ⟨before, after, h3, fun e he => h2 e (List.mem_cons_of_mem _ he)⟩

theorem content_none (fs : Files) (p : Str) : content fs p = none ↔ Absent fs p := by
  induction fs with
  | nil => simp [content, Absent]
  | cons e rest ih =>
    obtain ⟨q, d⟩ := e
    rw [content]
    by_cases h : q = p
    · simp [h, Absent]
    · rw [if_neg h, ih]; simp [Absent, h]

theorem content_mem (fs : Files) (p : Str) : p ∈ fs.map (·.1) ↔ ∃ c, HasFile fs p c := by
  cases h : content fs p with
  | none =>
    have h1 := (content_none fs p).1 h
    constructor
    · intro hp
      obtain ⟨e, he, rfl⟩ := List.mem_map.1 hp
      exact absurd rfl (h1 e he)
    · rintro ⟨c, hc⟩
      rw [← content_iff, h] at hc; simp at hc
  | some c =>
    have h1 := (content_iff fs p c).1 h
    refine ⟨fun _ => ⟨c, h1⟩, fun _ => ?_⟩
    obtain ⟨a, b, rfl, -⟩ := h1
    simp

theorem content_append (a b : Files) (p : Str) :
    content (a ++ b) p = match content a p with | some c => some c | none => content b p := by
  induction a with
  | nil => rfl
  | cons e a ih =>
    obtain ⟨q, d⟩ := e
    rw [List.cons_append, content, content]
    split
    · rfl
    · exact ih

theorem content_filter (fs : Files) (tracked : List Str) (p : Str) :
    content (fs.filter fun e => !tracked.contains e.1) p
      = if p ∈ tracked then none else content fs p := by
  induction fs with
  | nil => simp [content]
  | cons e fs ih =>
    obtain ⟨q, d⟩ := e
    by_cases hq : q ∈ tracked
    · rw [List.filter_cons_of_neg (by simpa using hq), ih]
      by_cases hp : p ∈ tracked
      · simp [hp]
      · have : q ≠ p := fun h => hp (h ▸ hq)
        simp [hp, content, this]
    · rw [List.filter_cons_of_pos (by simpa using hq), content, ih, content]
      by_cases h : q = p
      · subst h; simp [hq]
      · simp [h]

theorem reset_content (v : Files) (t : Tree) (p : Str) :
    content (reset v t).files p
      = match content v p with
        | some c => some c
        | none => if p ∈ t.tracked then none else content t.files p := by
  simp only [reset]
  rw [content_append, content_filter]

theorem differs_iff (t : Tree) :
    differs t = false ↔ ∃ h, t.head = some h ∧
      (∀ p ∈ t.tracked, content h p = content t.files p) ∧ ∀ e ∈ h, e.1 ∈ t.tracked := by
  unfold differs
  cases hh : t.head with
  | none => simp
  | some h =>
    simp [List.any_eq_false]

theorem check_iff (version : Str) (t : Tree) :
    checkTree version t = none ↔
      t.name = some version ∧ differs t = false ∧ t.upstream = true := by
  unfold checkTree
  by_cases h1 : t.name = some version
  · cases h2 : differs t with
    | true => simp [h1]
    | false =>
      obtain ⟨h, hh, -⟩ := (differs_iff t).1 h2
      cases h3 : t.upstream <;> simp [h1, hh]
  · simp [h1]

theorem within_iff (dir path : Str) : within dir path = true ↔ ∃ x, path = dir ++ '/' :: x := by
  unfold within
  rw [List.isPrefixOf_iff_prefix]
  constructor
  · rintro ⟨x, h⟩
    exact ⟨x, by rw [← h]; simp⟩
  · rintro ⟨x, rfl⟩
    exact ⟨x, by simp⟩

theorem bringUp_end (r : Remote) (a : Args) (w : World) (h : (bringUp r a w).1 ≠ .done) :
    (bringUp r a w).2 = w := by
  unfold bringUp at *
  split
  · rfl
  · rename_i hf
    rw [if_neg hf] at h
    split
    · rename_i hv
      rw [hv] at h
      split
      · rfl
      · rename_i ht; simp [ht] at h
    · rename_i hv; simp [hv] at h

theorem switch_done {a : Args} {w w' : World} (h : switch a w = (.done, w'))
    (htop : ¬ (w.oldUrl ≠ [] ∧ w.top = false)) :
    w'.tree = w.tree ∧ w'.topUrl = w.topUrl ∧ w'.oldUrl = a.remote ∧
      (a.remote = [] ∨ w'.top = true) := by
  unfold switch at h
  split at h
  · rename_i e
    injection h with _ h
    subst h
    refine ⟨rfl, rfl, e, ?_⟩
    by_cases h2 : a.remote = []
    · exact Or.inl h2
    · refine Or.inr ?_
      cases h3 : w.top with
      | true => rfl
      | false => exact absurd ⟨by rw [e]; exact h2, h3⟩ htop
  · split at h
    · simp at h
    · split at h
      · simp at h
      · rename_i h2
        injection h with _ h
        subst h
        refine ⟨rfl, rfl, rfl, Or.inr ?_⟩
        cases h3 : w.top with
        | true => simp [h3]
        | false => exact absurd ⟨h2, h3⟩ htop
    · injection h with _ h
      subst h
      exact ⟨rfl, rfl, rfl, Or.inr rfl⟩

theorem switch_tree (a : Args) (w : World) : (switch a w).2.tree = w.tree := by
  unfold switch
  split
  · rfl
  · split
    · rfl
    · split <;> rfl
    · rfl

/-- How a call ends: without success and with the tree as it was, or by bringing up a tree that
passed all checks. -/
theorem update_end (r : Remote) (a : Args) (w : World) :
    ((update r a w).1 ≠ .done ∧ (update r a w).2.tree = w.tree) ∨
      ((update r a w).1 = .done ∧ ∃ w1, w1.tree = w.tree ∧ InPlace a w1 ∧
        (∀ t, w.tree = some t → checkTree a.version t = none) ∧
        update r a w = bringUp r a w1 ∧ r.fetches = true) := by
  by_cases hd : (update r a w).1 = .done
  · refine Or.inr ⟨hd, ?_⟩
    unfold update at hd ⊢
    split at hd
    · simp at hd
    rename_i c1
    split at hd
    · simp at hd
    rename_i c2
    split at hd
    · simp at hd
    rename_i c3
    split at hd
    · simp at hd
    rename_i c4
    split at hd
    · simp at hd
    rename_i c5
    rw [if_neg c1, if_neg c2, if_neg c3, if_neg c4, if_neg c5]
    split at hd
    · rename_i w' hsw
      obtain ⟨e1, e2, e3, e4⟩ := switch_done hsw (by simpa using c5)
      split at hd
      · simp at hd
      · rename_i hc
        rw [e1] at hc
        refine ⟨w', e1, ⟨(within_iff _ _).1 (by simpa using c2), (within_iff _ _).1 (by simpa using c3),
          by rw [e2]; exact c4, e3, e4⟩, ?_, ?_, ?_⟩
        · intro t ht
          rw [ht] at hc
          exact hc
        · simp only [e1, hc]
        · unfold bringUp at hd
          split at hd
          · simp at hd
          · rename_i hf; simpa using hf
    · rename_i hother
      exact absurd (show switch a w = (.done, (switch a w).2) from Prod.ext hd rfl)
        (hother (switch a w).2)
  · refine Or.inl ⟨hd, ?_⟩
    unfold update at hd ⊢
    split
    · rfl
    rename_i c1
    rw [if_neg c1] at hd
    split
    · rfl
    rename_i c2
    rw [if_neg c2] at hd
    split
    · rfl
    rename_i c3
    rw [if_neg c3] at hd
    split
    · rfl
    rename_i c4
    rw [if_neg c4] at hd
    split
    · rfl
    rename_i c5
    rw [if_neg c5] at hd
    have hs := switch_tree a w
    split
    · rename_i w' hsw
      rw [hsw] at hd hs
      simp only at hd
      split
      · exact hs
      · rename_i hc
        rw [hc] at hd
        rw [bringUp_end r a w' hd]
        exact hs
    · exact hs

theorem update_done {r : Remote} {a : Args} {w : World} (hi : InPlace a w) (hr : r.answers = true)
    (hc : ∀ t, w.tree = some t → checkTree a.version t = none) :
    update r a w = bringUp r a w := by
  obtain ⟨h1, h2, h3, h4, h5⟩ := hi
  have hsw : switch a w = (.done, w) := by unfold switch; rw [if_pos h4]
  unfold update
  rw [if_neg (by simp [hr]), if_neg (by simp [(within_iff _ _).2 h1]),
    if_neg (by simp [(within_iff _ _).2 h2]), if_neg h3, if_neg ?_, hsw]
  · have : w.tree.bind (checkTree a.version) = none := by
      cases ht : w.tree with
      | none => rfl
      | some t => exact hc t ht
    simp only [this]
  · rcases h5 with h5 | h5
    · simp [h4, h5]
    · simp [h5]

theorem untouched_differs {t : Tree} (h : Untouched t) : differs t = false := by
  obtain ⟨v, hv, h1, h2⟩ := h
  refine (differs_iff t).2 ⟨v, hv, fun p hp => ?_, fun e he => ?_⟩
  · cases hc : content v p with
    | none =>
      cases hf : content t.files p with
      | none => rfl
      | some c =>
        have := (h2 p c hp).1 ((content_iff _ _ _).1 hf)
        rw [← content_iff, hc] at this
        simp at this
    | some c => exact ((content_iff _ _ _).2 ((h2 p c hp).2 ((content_iff _ _ _).1 hc))).symm
  · rw [h1, ← content_mem]
    exact List.mem_map_of_mem he

/-! ### C301: nothing that exists nowhere else is lost -/

/-- C301.  Whatever the arguments, the remote and the working tree: the tree is still there after the
call, and a file whose content is not there any more either has that content in a version that is
upstream, or is a file that git was never told about and that the new version has, with another
content.

Missing: the second case is a loss; see `C301_untracked_negation`. -/
theorem C301_lost_partial (r : Remote) (a : Args) (w : World) (t : Tree) (ht : w.tree = some t) :
    ∃ t', (update r a w).2.tree = some t' ∧
      ∀ p c, HasFile t.files p c → ¬ HasFile t'.files p c →
        Published t p c ∨
          (p ∉ t.tracked ∧ ∃ v c', r.version = some v ∧ HasFile v p c' ∧ c' ≠ c) := by
  rcases update_end r a w with ⟨-, h⟩ | ⟨-, w1, h1, -, hc, h2, hf⟩
  · exact ⟨t, h.trans ht, fun p c a b => absurd a b⟩
  · obtain ⟨-, hd, hup⟩ := (check_iff _ _).1 (hc t ht)
    obtain ⟨h, hh, hsame, hin⟩ := (differs_iff t).1 hd
    have ht1 : w1.tree = some t := h1.trans ht
    rw [h2]
    unfold bringUp
    rw [if_neg (by simp [hf])]
    have key : ∀ p c, HasFile t.files p c → p ∈ t.tracked → Published t p c := by
      intro p c hp hpt
      refine ⟨hup, h, hh, ?_⟩
      rw [← content_iff, hsame p hpt, content_iff]
      exact hp
    split
    · rw [ht1]
      refine ⟨_, rfl, fun p c hp hn => Or.inl ?_⟩
      by_cases hpt : p ∈ t.tracked
      · exact key p c hp hpt
      · refine absurd ?_ hn
        rw [← content_iff]
        show content (reset (t.head.getD []) t).files p = some c
        have : content h p = none := (content_none _ _).2 fun e he hep => hpt (hep ▸ hin e he)
        rw [reset_content, hh, Option.getD_some, this, if_neg hpt]
        exact (content_iff _ _ _).2 hp
    · rename_i v hv
      rw [ht1]
      refine ⟨_, rfl, fun p c hp hn => ?_⟩
      by_cases hpt : p ∈ t.tracked
      · exact Or.inl (key p c hp hpt)
      · refine Or.inr ⟨hpt, v, ?_⟩
        rw [← content_iff] at hn
        rw [Option.getD_some, reset_content] at hn
        cases hcv : content v p with
        | none =>
          rw [hcv, if_neg hpt] at hn
          exact absurd ((content_iff _ _ _).2 hp) hn
        | some c' =>
          rw [hcv] at hn
          exact ⟨c', hv, (content_iff _ _ _).1 hcv, fun e => hn (by rw [e])⟩

/-- C301, local changes and local commits.  If a tracked file differs from the version that the tree
stands on, or if that version is in no remote branch and no tag, then the call does not succeed and
the tree stays as it is. -/
theorem C301_refused (r : Remote) (a : Args) (w : World) (t : Tree) (ht : w.tree = some t)
    (h : (∃ p c, p ∈ t.tracked ∧ HasFile t.files p c ∧
        ∀ v, t.head = some v → ¬ HasFile v p c) ∨ t.upstream = false) :
    (update r a w).1 ≠ .done ∧ (update r a w).2.tree = some t := by
  rcases update_end r a w with ⟨h1, h2⟩ | ⟨-, w1, -, -, hc, -⟩
  · exact ⟨h1, h2.trans ht⟩
  · exfalso
    obtain ⟨-, hd, hup⟩ := (check_iff _ _).1 (hc t ht)
    obtain ⟨v, hv, hsame, -⟩ := (differs_iff t).1 hd
    rcases h with ⟨p, c, hp, hpc, hn⟩ | h
    · refine hn v hv ?_
      rw [← content_iff, hsame p hp, content_iff]
      exact hpc
    · rw [hup] at h; simp at h

/-- C301, calls that do not succeed.  The tree is as it was, also if the call got as far as switching
to another remote. -/
theorem C301_unchanged (r : Remote) (a : Args) (w : World) (h : (update r a w).1 ≠ .done) :
    (update r a w).2.tree = w.tree := by
  rcases update_end r a w with ⟨-, h1⟩ | ⟨h1, -⟩
  · exact h1
  · exact absurd h1 h

/-- C301, what is taken over.  Success is only possible inside the current directory, with the tree
inside GITDIR, for another repository than the one around, and if GITDIR is the top of a repository
that has a remote, or did not exist; whatever else lies there is not taken over. -/
theorem C301_guard (r : Remote) (a : Args) (w : World) (hd : (update r a w).1 = .done) :
    (∃ x, a.gitdir = a.pwd ++ '/' :: x) ∧ (∃ x, a.worktree = a.gitdir ++ '/' :: x) ∧
      w.topUrl ≠ a.remote ∧ (w.oldUrl ≠ [] → w.top = true) ∧
      (w.oldUrl = a.remote ∨ w.gitdir = .nothing ∨ (w.gitdir = .directory ∧ w.oldUrl ≠ [])) := by
  unfold update at hd
  split at hd
  · simp at hd
  split at hd
  · simp at hd
  rename_i c2
  split at hd
  · simp at hd
  rename_i c3
  split at hd
  · simp at hd
  rename_i c4
  split at hd
  · simp at hd
  rename_i c5
  refine ⟨(within_iff _ _).1 (by simpa using c2), (within_iff _ _).1 (by simpa using c3), c4,
    fun h => ?_, ?_⟩
  · cases h3 : w.top with
    | true => rfl
    | false => exact absurd (by simp [h, h3]) c5
  · have hsw : (switch a w).1 = .done := by
      split at hd
      · rename_i w' h; rw [h]
      · exact hd
    unfold switch at hsw
    split at hsw
    · rename_i h; exact Or.inl h
    · split at hsw
      · simp at hsw
      · rename_i hg
        split at hsw
        · simp at hsw
        · rename_i h; exact Or.inr (Or.inr ⟨hg, h⟩)
      · rename_i hg; exact Or.inr (Or.inl hg)

/-- A directory with something else in it. -/
example : (update ⟨true, true, some [], false⟩
    ⟨['u'], ['m'], "/h/g".toList, "/h/g/m".toList, "/h".toList⟩ { gitdir := .directory }).1 ≠ .done := by
  intro h
  obtain ⟨-, -, -, -, h | h | ⟨-, h⟩⟩ := C301_guard _ _ _ h
  · exact absurd h (by decide)
  · exact absurd h (by decide)
  · exact h rfl

/-- C301 is false in general: a file of the user that git was never told about is overwritten, with
success reported, whenever the new version has a file at the same place with another content. -/
theorem C301_untracked_negation (r : Remote) (a : Args) (w : World) (t : Tree) (v : Files)
    (p c c' : Str) (hw : InPlace a w) (hr : Offers r v) (ht : w.tree = some t)
    (hn : t.name = some a.version) (hu : Untouched t) (hup : t.upstream = true)
    (hp : p ∉ t.tracked) (hc : HasFile t.files p c) (hv : HasFile v p c') (hcc : c' ≠ c) :
    (update r a w).1 = .done ∧
      (∃ t', (update r a w).2.tree = some t' ∧ ¬ HasFile t'.files p c) ∧ ¬ Published t p c := by
  have hd := untouched_differs hu
  have hck : checkTree a.version t = none := (check_iff _ _).2 ⟨hn, hd, hup⟩
  rw [update_done hw hr.1 (fun t2 h2 => by rw [ht] at h2; injection h2 with h2; rw [← h2]; exact hck)]
  unfold bringUp
  rw [if_neg (by simp [hr.2.1]), hr.2.2]
  refine ⟨rfl, ⟨_, rfl, ?_⟩, ?_⟩
  · rw [← content_iff, ht, Option.getD_some, reset_content, (content_iff _ _ _).2 hv]
    intro e; injection e with e; exact hcc e
  · rintro ⟨-, h, hh, hhas⟩
    obtain ⟨h', hh', ht', -⟩ := hu
    rw [hh] at hh'; injection hh' with hh'; subst hh'
    exact hp ((ht' p).2 ⟨c, hhas⟩)

/-! ### C302: success means that the version is there -/

/-- C302.  If the call succeeds and the remote has the version, then all files of the version are on
disk, files of the version before that are not in the new one are gone, and all other files are as
they were; nothing differs from the version.

Missing: success is also reported if the remote has no such version any more; see
`C302_gone_negation`. -/
theorem C302_version_partial (r : Remote) (a : Args) (w : World) (v : Files)
    (hd : (update r a w).1 = .done) (hv : r.version = some v) :
    ∃ t', (update r a w).2.tree = some t' ∧ t'.head = some v ∧ t'.upstream = true ∧
      Untouched t' ∧ (∀ p c, HasFile v p c → HasFile t'.files p c) ∧
      ∀ p, Absent v p →
        (w.tree = none → Absent t'.files p) ∧
        ∀ t, w.tree = some t →
          (p ∈ t.tracked → Absent t'.files p) ∧
          (p ∉ t.tracked → ∀ c, HasFile t'.files p c ↔ HasFile t.files p c) := by
  rcases update_end r a w with ⟨h, -⟩ | ⟨-, w1, h1, -, -, h2, hf⟩
  · exact absurd hd h
  have hup : ∀ t : Tree, Untouched (reset v t) := by
    intro t
    refine ⟨v, rfl, fun p => content_mem v p, fun p c hp => ?_⟩
    obtain ⟨c2, hc2⟩ := (content_mem v p).1 hp
    rw [← content_iff, ← content_iff, reset_content, (content_iff _ _ _).2 hc2]
  rw [h2]
  unfold bringUp
  rw [if_neg (by simp [hf]), hv]
  refine ⟨_, rfl, rfl, rfl, hup _, fun p c hp => ?_, fun p hp => ⟨fun hn => ?_, fun t ht => ⟨fun hpt => ?_,
    fun hpt c => ?_⟩⟩⟩
  · rw [← content_iff, reset_content, (content_iff _ _ _).2 hp]
  · rw [← content_none, reset_content, (content_none _ _).2 hp, h1, hn]
    simp [(content_none _ _).2 hp]
  · rw [← content_none, reset_content, (content_none _ _).2 hp, h1, ht]
    simp [hpt]
  · rw [← content_iff, ← content_iff, reset_content, (content_none _ _).2 hp, h1, ht]
    simp [hpt]

/-- C302, nothing to fetch.  Without a version on the remote and without a tree, the call does not
succeed; nor does it without an answer of the remote or without a fetch. -/
theorem C302_missing (r : Remote) (a : Args) (w : World)
    (h : (r.version = none ∧ w.tree = none) ∨ r.answers = false ∨ r.fetches = false) :
    (update r a w).1 ≠ .done := by
  intro hd
  rcases update_end r a w with ⟨h1, -⟩ | ⟨-, w1, h1, -, -, h2, hf⟩
  · exact h1 hd
  rcases h with ⟨hv, hw⟩ | h | h
  · rw [h2] at hd
    unfold bringUp at hd
    rw [if_neg (by simp [hf]), hv, h1, hw] at hd
    simp at hd
  · unfold update at hd
    rw [if_pos (by simp [h])] at hd
    simp at hd
  · rw [hf] at h; simp at h

example : (update ⟨true, true, none, false⟩ ⟨['u'], ['m'], "/h/g".toList, "/h/g/m".toList, "/h".toList⟩ {}).1
    ≠ .done :=
  C302_missing _ _ _ (Or.inl ⟨rfl, rfl⟩)

/-- C302 is false in general: if the branch is not on the remote any more, then an existing tree stays
at the old version and the call succeeds. -/
theorem C302_gone_negation (r : Remote) (a : Args) (w : World) (t : Tree) (hw : InPlace a w)
    (hr : r.answers = true ∧ r.fetches = true ∧ r.version = none) (ht : w.tree = some t)
    (hn : t.name = some a.version) (hu : Untouched t) (hup : t.upstream = true) :
    (update r a w).1 = .done ∧ ∃ t', (update r a w).2.tree = some t' ∧ t'.head = t.head ∧
      ∀ p c, HasFile t'.files p c ↔ HasFile t.files p c := by
  have hd := untouched_differs hu
  have hck : checkTree a.version t = none := (check_iff _ _).2 ⟨hn, hd, hup⟩
  obtain ⟨h, hh, hsame, hin⟩ := (differs_iff t).1 hd
  rw [update_done hw hr.1 (fun t2 h2 => by rw [ht] at h2; injection h2 with h2; rw [← h2]; exact hck)]
  unfold bringUp
  rw [if_neg (by simp [hr.2.1]), hr.2.2, ht]
  refine ⟨rfl, _, rfl, by simp [reset, hh], fun p c => ?_⟩
  rw [← content_iff, ← content_iff]
  show content (reset (t.head.getD []) t).files p = some c ↔ _
  rw [reset_content, hh, Option.getD_some]
  by_cases hpt : p ∈ t.tracked
  · rw [hsame p hpt]
    cases content t.files p <;> simp [hpt]
  · have : content h p = none := (content_none _ _).2 fun e he hep => hpt (hep ▸ hin e he)
    rw [this, if_neg hpt]

/-! ### C303: calls after the first -/

theorem bringUp_place {r : Remote} {a : Args} {w : World} (h : InPlace a w) :
    InPlace a (bringUp r a w).2 := by
  unfold bringUp
  split
  · exact h
  · split
    · split
      · exact h
      · exact h
    · exact h

/-- The state after a success, as the checks of the next call see it. -/
theorem ready_step {r : Remote} {a : Args} {w : World} {v : Files} (hv : r.version = some v)
    (hd : (update r a w).1 = .done)
    (hname : ∀ t, w.tree = some t → t.name = some a.version)
    (hbase : baseName a.worktree = a.version) :
    InPlace a (update r a w).2 ∧ ∃ t', (update r a w).2.tree = some t' ∧
      t'.name = some a.version ∧ checkTree a.version t' = none := by
  obtain ⟨t', ht', hh, hup, hun, -⟩ := C302_version_partial r a w v hd hv
  rcases update_end r a w with ⟨h, -⟩ | ⟨-, w1, h1, hp, -, h2, hf⟩
  · exact absurd hd h
  have hn : t'.name = some a.version := by
    rw [h2] at ht'
    unfold bringUp at ht'
    rw [if_neg (by simp [hf]), hv] at ht'
    simp only [Option.some.injEq] at ht'
    rw [← ht', h1]
    cases hw : w.tree with
    | none => simp [reset, hbase]
    | some t => simp [reset, hname t hw]
  refine ⟨by rw [h2]; exact bringUp_place hp, t', ht', hn, (check_iff _ _).2 ⟨hn, ?_, hup⟩⟩
  exact untouched_differs hun

theorem update_name {r : Remote} {a : Args} {w : World} {v : Files} (hd : (update r a w).1 = .done)
    (hv : r.version = some v) (t : Tree) (ht : w.tree = some t) : t.name = some a.version := by
  rcases update_end r a w with ⟨h, -⟩ | ⟨-, -, -, -, hc, -⟩
  · exact absurd hd h
  · exact ((check_iff _ _).1 (hc t ht)).1

/-- C303.  If the last component of the path of the working tree is the version that is asked for,
then after a call that succeeded every further call with the same arguments succeeds, any number of
times, whatever the version is on the remote by then, as long as the remote has it and can be
reached.

Missing: versions whose name has a slash; see `C303_slash_negation`. -/
theorem C303_again_partial (r : Remote) (a : Args) (w : World) (v : Files)
    (hv : r.version = some v) (hd : (update r a w).1 = .done)
    (hbase : ∃ dir, a.worktree = dir ++ '/' :: a.version ∧ '/' ∉ a.version)
    (rs : List Remote) (hrs : ∀ r' ∈ rs, ∃ v', Offers r' v') (last : Remote) (v' : Files)
    (hl : Offers last v') :
    (update last a (afterCalls a (update r a w).2 rs)).1 = .done := by
  have hb : baseName a.worktree = a.version := by
    obtain ⟨dir, he, hs⟩ := hbase
    rw [he]
    clear he
    induction dir with
    | nil => simp [baseName, hs]
    | cons c dir ih =>
      rw [List.cons_append, baseName, if_pos (by simp)]
      exact ih
  have step : ∀ (r : Remote) (w : World) (v : Files), Offers r v → InPlace a w →
      (∃ t, w.tree = some t ∧ t.name = some a.version ∧ checkTree a.version t = none) →
      (update r a w).1 = .done := by
    rintro r w v ⟨h1, h2, h3⟩ hp ⟨t, ht, -, hc⟩
    rw [update_done hp h1 (fun t2 e => by rw [ht] at e; injection e with e; rw [← e]; exact hc)]
    unfold bringUp
    rw [if_neg (by simp [h2]), h3]
  have main : ∀ (rs : List Remote) (w : World), (∀ r' ∈ rs, ∃ v', Offers r' v') → InPlace a w →
      (∃ t, w.tree = some t ∧ t.name = some a.version ∧ checkTree a.version t = none) →
      (update last a (afterCalls a w rs)).1 = .done := by
    intro rs
    induction rs with
    | nil => intro w _ hp ht; exact step last w v' hl hp ht
    | cons r rs ih =>
      intro w hrs hp ht
      obtain ⟨v2, hv2⟩ := hrs r (List.mem_cons_self ..)
      have hdone := step r w v2 hv2 hp ht
      obtain ⟨p2, t2⟩ := ready_step hv2.2.2 hdone (update_name hdone hv2.2.2) hb
      exact ih _ (fun r' h' => hrs r' (List.mem_cons_of_mem _ h')) p2 t2
  obtain ⟨p1, t1⟩ := ready_step hv hd (update_name hd hv) hb
  exact main rs _ hrs p1 t1

theorem baseName_slash (s : Str) : '/' ∉ baseName s := by
  induction s with
  | nil => simp [baseName]
  | cons c s ih =>
    rw [baseName]
    split
    · exact ih
    · rename_i h
      split
      · exact h
      · rename_i hc
        simp only [List.mem_cons, not_or]
        exact ⟨fun e => hc e.symm, h⟩

/-- C303 is false in general: the deployment script puts a branch whose name has a slash into a
working tree that every further deployment refuses, whatever is on the remote. -/
theorem C303_slash_negation (pwd repo branch top : Str) (r r' : Remote) (v : Files)
    (hr : Offers r v) (hr' : r'.answers = true) (htop : top ≠ repo) (hrepo : repo ≠ [])
    (hs : '/' ∈ branch) :
    (update r (deployArgs pwd repo branch) { topUrl := top }).1 = .done ∧
      (update r' (deployArgs pwd repo branch)
        (update r (deployArgs pwd repo branch) { topUrl := top }).2).1 = .refused 7 := by
  have w1 : within pwd (deployArgs pwd repo branch).gitdir = true :=
    (within_iff _ _).2 ⟨"distbench_repo".toList, by simp [deployArgs]⟩
  have w2 : within (deployArgs pwd repo branch).gitdir (deployArgs pwd repo branch).worktree = true :=
    (within_iff _ _).2 ⟨branch, by simp [deployArgs]⟩
  have e : update r (deployArgs pwd repo branch) { topUrl := top }
      = (.done, { topUrl := top, oldUrl := repo, top := true, gitdir := .directory,
                  tree := some (reset v ⟨some v, v.map (·.1), v, true,
                    some (baseName (deployArgs pwd repo branch).worktree)⟩) }) := by
    unfold update
    rw [if_neg (by simp [hr.1]), if_neg (by rw [show (deployArgs pwd repo branch).pwd = pwd from rfl, w1]; simp),
      if_neg (by rw [w2]; simp), if_neg (by exact htop), if_neg (by simp)]
    have : switch (deployArgs pwd repo branch) { topUrl := top }
        = (.done, { topUrl := top, oldUrl := repo, top := true, gitdir := .directory }) := by
      unfold switch
      rw [if_neg (by exact fun h => hrepo h.symm)]
      rfl
    rw [this]
    show bringUp r (deployArgs pwd repo branch) _ = _
    unfold bringUp
    rw [if_neg (by simp [hr.2.1]), hr.2.2]
    rfl
  rw [e]
  refine ⟨rfl, ?_⟩
  unfold update
  rw [if_neg (by simp [hr']), if_neg (by rw [show (deployArgs pwd repo branch).pwd = pwd from rfl, w1]; simp),
    if_neg (by rw [w2]; simp), if_neg (by exact htop), if_neg (by simp)]
  have hsw : ∀ w : World, w.oldUrl = repo → switch (deployArgs pwd repo branch) w = (.done, w) := by
    intro w h
    unfold switch
    rw [if_pos (by exact h)]
  rw [hsw _ rfl]
  have hne : some (baseName (deployArgs pwd repo branch).worktree) ≠ some branch := by
    intro h
    injection h with h
    have := baseName_slash (deployArgs pwd repo branch).worktree
    rw [h] at this
    exact this hs
  have hck : checkTree (deployArgs pwd repo branch).version (reset v ⟨some v, v.map (·.1), v, true,
      some (baseName (deployArgs pwd repo branch).worktree)⟩) = some 7 := by
    unfold checkTree
    rw [if_pos]
    exact hne
  simp only [Option.bind_some, hck]

/-! ### examples -/

/-- A remote that has the version with the given files. -/
def sampleRemote (v : Files) : Remote := ⟨true, true, some v, false⟩

/-- The arguments of the examples: branch `m` in `/h/g/m`. -/
def sampleArgs : Args := ⟨['u'], ['m'], "/h/g".toList, "/h/g/m".toList, "/h".toList⟩

/-- A tree with the file `a` of its version and the file `b` that git was not told about. -/
def sampleTree : Tree := ⟨some [(['a'], ['1'])], [['a']], [(['a'], ['1']), (['b'], ['2'])], true, some ['m']⟩

/-- The machine with this tree. -/
def sampleWorld : World := { oldUrl := ['u'], gitdir := .directory, tree := some sampleTree }

theorem sample_place : InPlace sampleArgs sampleWorld :=
  ⟨⟨['g'], rfl⟩, ⟨['m'], rfl⟩, by decide, rfl, Or.inr rfl⟩

theorem sample_untouched : Untouched sampleTree := by
  refine ⟨[(['a'], ['1'])], rfl, fun p => ?_, fun p c hp => ?_⟩
  · exact content_mem [(['a'], ['1'])] p
  · have : p = ['a'] := by simpa [sampleTree] using hp
    subst this
    rw [← content_iff, ← content_iff]
    simp [sampleTree, content]

/-- An update that changes `a` and adds `c` leaves `b` alone; the old `a` is upstream. -/
example : ∃ t', (update (sampleRemote [(['a'], ['9']), (['c'], ['3'])]) sampleArgs sampleWorld).2.tree
    = some t' ∧ (∀ p c, HasFile [(['a'], ['9']), (['c'], ['3'])] p c → HasFile t'.files p c) ∧
    HasFile t'.files ['b'] ['2'] := by
  obtain ⟨t', h1, -, -, -, h2, h3⟩ := C302_version_partial
    (sampleRemote [(['a'], ['9']), (['c'], ['3'])]) sampleArgs sampleWorld _ (by decide +kernel) rfl
  refine ⟨t', h1, h2, ((h3 ['b'] (by simp [Absent])).2 sampleTree rfl).2 (by simp [sampleTree]) _ |>.2 ?_⟩
  exact ⟨[(['a'], ['1'])], [], rfl, by simp⟩

example : ∃ t', (update (sampleRemote [(['a'], ['9'])]) sampleArgs sampleWorld).2.tree = some t' ∧
    ∀ p c, HasFile sampleTree.files p c → ¬ HasFile t'.files p c → Published sampleTree p c ∨
      (p ∉ sampleTree.tracked ∧ ∃ v c', some [(['a'], ['9'])] = some v ∧ HasFile v p c' ∧ c' ≠ c) :=
  C301_lost_partial _ sampleArgs sampleWorld sampleTree rfl

/-- With `a` changed on disk. -/
example : (update (sampleRemote [(['a'], ['9'])]) sampleArgs
    { sampleWorld with tree := some { sampleTree with files := [(['a'], ['7'])] } }).1 ≠ .done :=
  (C301_refused _ _ _ { sampleTree with files := [(['a'], ['7'])] } rfl
    (Or.inl ⟨['a'], ['7'], by simp [sampleTree], ⟨[], [], rfl, by simp⟩, by
      intro v hv
      injection hv with hv
      subst hv
      rw [← content_iff]
      simp [content]⟩)).1

example : (update ⟨true, false, none, false⟩ sampleArgs sampleWorld).2.tree = some sampleTree :=
  C301_unchanged ⟨true, false, none, false⟩ sampleArgs sampleWorld (by decide +kernel)

/-- `b` comes with the new version, and the user's `b` is gone. -/
example : (update (sampleRemote [(['a'], ['1']), (['b'], ['5'])]) sampleArgs sampleWorld).1 = .done ∧
    (∃ t', (update (sampleRemote [(['a'], ['1']), (['b'], ['5'])]) sampleArgs sampleWorld).2.tree
      = some t' ∧ ¬ HasFile t'.files ['b'] ['2']) ∧ ¬ Published sampleTree ['b'] ['2'] :=
  C301_untracked_negation _ _ _ sampleTree _ ['b'] ['2'] ['5'] sample_place ⟨rfl, rfl, rfl⟩ rfl rfl
    sample_untouched rfl (by simp [sampleTree]) ⟨[(['a'], ['1'])], [], rfl, by simp⟩
    ⟨[(['a'], ['1'])], [], rfl, by simp⟩ (by decide)

example : (update ⟨true, true, none, false⟩ sampleArgs sampleWorld).1 = .done :=
  (C302_gone_negation _ _ _ sampleTree sample_place ⟨rfl, rfl, rfl⟩ rfl rfl sample_untouched rfl).1

example : (update (sampleRemote [(['z'], [])]) sampleArgs
    (afterCalls sampleArgs (update (sampleRemote [(['a'], ['9'])]) sampleArgs {}).2
      [sampleRemote [], sampleRemote [(['b'], ['5'])]])).1 = .done :=
  C303_again_partial _ _ _ _ rfl (by decide +kernel) ⟨"/h/g".toList, rfl, by decide⟩ _
    (by intro r hr
        rcases List.mem_cons.1 hr with rfl | hr
        · exact ⟨_, rfl, rfl, rfl⟩
        · rw [List.mem_singleton] at hr
          subst hr
          exact ⟨_, rfl, rfl, rfl⟩) _ _ ⟨rfl, rfl, rfl⟩

example : (update (sampleRemote []) (deployArgs "/h".toList ['u'] "f/x".toList)
    (update (sampleRemote []) (deployArgs "/h".toList ['u'] "f/x".toList) {}).2).1 = .refused 7 :=
  (C303_slash_negation "/h".toList ['u'] "f/x".toList [] _ (sampleRemote []) [] ⟨rfl, rfl, rfl⟩ rfl
    (by decide) (by decide) (by decide)).2

end Checkout
end Distbench
