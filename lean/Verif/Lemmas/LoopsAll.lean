import Verif.Lemmas.LoopsCancelRest

/-! Whole tests whose loops have maximal numbers of iterations: what is left to do becomes less, cancelled or not. -/

namespace Distbench.Iterations
open Spec

/-- What the threads of an action have still to do. -/
def costAll : List Thread → Nat
  | [] => 0
  | .running _ :: r => 2 + costAll r
  | .read _ _ :: r => 1 + costAll r
  | .restart _ :: r => 3 + costAll r
  | .calling :: r => costAll r

theorem costAll_append (l1 l2 : List Thread) : costAll (l1 ++ l2) = costAll l1 + costAll l2 := by
  induction l1 with
  | nil => simp [costAll]
  | cons t l ih => cases t <;> simp only [List.cons_append, costAll, ih] <;> omega

/-- What an action has still to do. -/
def allLeft (copies limit : Int) (s : State) : Nat :=
  3 * (limit - s.next).toNat + 3 * (copies - s.issued).toNat + costAll s.threads

/-- What an action does. -/
theorem work_all {p : Params} {s s' : State} (h : Steady p s) (hlim : p.limit < 2 ^ 31) (hw : Work p s s') :
    s'.log = .allDone :: s.log ∨ allLeft p.copies p.limit s' < allLeft p.copies p.limit s := by
  have hle := h.counts.lim
  cases hw with
  | issue ho _ hi _ =>
    right
    simp only [allLeft, startIteration, costAll_append, costAll]
    omega
  | @complete l1 l2 k ho ht =>
    right
    simp only [allLeft, ht, costAll_append, costAll]
    omega
  | @locked l1 l2 k b next finished d ho ht hf =>
    right
    obtain ⟨e1, -, -, e4, e5⟩ := finishLocked_some hf
    have hnx : s.next ≤ next := by
      rw [e4]
      split <;> omega
    cases d with
    | allDone => simp only [allLeft, leave, ht, costAll_append, costAll]; omega
    | free => simp only [allLeft, leave, ht, costAll_append, costAll]; omega
    | restart k =>
      have hd : isDone p b s.now s = false := by
        cases hd : isDone p b s.now s with
        | false => rfl
        | true =>
          rw [hd] at e5
          split at e5
          · cases e5
          · simp at e5
      have hne : s.next ≠ p.limit := by
        intro hl
        unfold isDone at hd
        rw [if_pos hl, Bool.or_true] at hd
        cases hd
      rw [hd, h.single] at e4
      have e4 : next = s.next + 1 := e4
      simp only [allLeft, leave, ht, costAll_append, costAll]
      omega
  | @overflow l1 l2 k b ho ht hf =>
    exfalso
    refine fits_some h ?_ ?_ hf
    · rw [ht, reads_append]
      simp only [reads]
      omega
    · intro hb hne
      omega
  | @restart l1 l2 k ho ht =>
    right
    simp only [allLeft, ht, startIteration, costAll_append, costAll]
    omega
  | allDone _ _ => exact .inl rfl
  | run _ ha _ _ _ _ => rw [h.quiet] at ha; cases ha
  | tick _ _ ha _ _ _ _ => rw [h.single] at ha; cases ha
  | tickOverflow _ _ ha _ _ _ => rw [h.single] at ha; cases ha

/-- An action that reported does nothing more. -/
theorem steady_reported_quiet {p : Params} {s s' : State} (h : Steady p s) (hr : 0 < reports s.log)
    (hw : Work p s s') : False := by
  have hp := h.counts.pend
  have hc := h.counts.call h.some
  have hi := h.counts.issued
  have heq : s.next = s.finished := by
    apply Classical.byContradiction
    intro hne
    have := hc.2 hne
    omega
  have hc := hc.1 heq
  cases hw with
  | issue ho _ hi2 _ => omega
  | complete ho ht => rw [ht] at hp; simp only [runs_append, runs] at hp; omega
  | locked ho ht hf => rw [ht] at hp; simp only [reads_append, reads] at hp; omega
  | overflow ho ht hf => rw [ht] at hp; simp only [reads_append, reads] at hp; omega
  | restart ho ht => rw [ht] at hp; simp only [restarts_append, restarts] at hp; omega
  | allDone ho ht => rw [ht] at hc; simp only [calls_append, calls] at hc; omega
  | run _ ha _ _ _ _ => rw [h.quiet] at ha; cases ha
  | tick _ _ ha _ _ _ _ => rw [h.single] at ha; cases ha
  | tickOverflow _ _ ha _ _ _ => rw [h.single] at ha; cases ha

end Distbench.Iterations

namespace Distbench.Loops
open Tables Services Whole Spec

variable {w : Test} {s s' : State} {j a : Nat} {k k' : Job}

/-- How many iterations an action makes at most. -/
def limitAt (k : Job) (a : Nat) : Int :=
  match k.entry.listActions[a]? with
  | none => 0
  | some x => (Iterations.params x.proto 0 false).limit

/-- Whether an action has still to start. -/
def startLeft (x : ActionList.Act) : Nat := if x.started then 0 else if x.waiting then 1 else 2

/-- What an action of a run has still to do. -/
def actAll (k : Job) (a : Nat) : Nat :=
  startLeft (k.main.acts a) +
  if (k.main.acts a).closed then 0
  else if (k.main.acts a).called then 1
  else match k.under a with
    | none => 3 + 3 * (limitAt k a).toNat
    | some u => 2 + Iterations.allLeft (copiesAt k a) (limitAt k a) u.state

/-- What a run has still to do itself. -/
def jobAll (k : Job) : Nat :=
  (4 - roundsMade k.main.phase) + ((List.range k.entry.listActions.length).map (actAll k)).sum

theorem all_rank (he : k'.entry = k.entry) (hle : ∀ b, actAll k' b ≤ actAll k b)
    (hlt : 4 - roundsMade k'.main.phase < 4 - roundsMade k.main.phase) : jobAll k' < jobAll k := by
  unfold jobAll
  rw [he]
  have := sum_le (List.range k.entry.listActions.length) fun a _ => hle a
  omega

theorem all_act (he : k'.entry = k.entry) (hp : roundsMade k'.main.phase = roundsMade k.main.phase)
    (hle : ∀ b, b ≠ a → actAll k' b = actAll k b) (ha : a < k.entry.listActions.length)
    (hlt : actAll k' a < actAll k a) : jobAll k' < jobAll k := by
  unfold jobAll
  rw [he, hp]
  have := sum_lt (f := actAll k') (g := actAll k) (List.range k.entry.listActions.length) (fun b _ => by
    by_cases hb : b = a
    · subst hb; omega
    · exact Nat.le_of_eq (hle b hb)) (List.mem_range.2 ha) hlt
  omega

theorem all_tell (k : Job) : jobAll (LoopsCancel.tell k) = jobAll k := by
  unfold jobAll
  have he : actAll (LoopsCancel.tell k) = actAll k := by
    funext b
    unfold actAll
    show startLeft (k.main.acts b) + (if (k.main.acts b).closed then 0 else if (k.main.acts b).called then 1 else
      match (k.under b).map fun u => { u with state := { u.state with canceled := true } } with
      | none => 3 + 3 * (limitAt k b).toNat
      | some u => 2 + Iterations.allLeft (copiesAt k b) (limitAt k b) u.state) = _
    cases k.under b <;> rfl
  rw [he]
  rfl

/-- The flags of an action that count. -/
def SameFlags (x y : ActionList.Act) : Prop :=
  x.started = y.started ∧ x.waiting = y.waiting ∧ x.called = y.called ∧ x.closed = y.closed

theorem all_congr {m : ActionList.State} {b : Nat} (h : SameFlags (m.acts b) (k.main.acts b)) :
    actAll { k with main := m } b = actAll k b := by
  obtain ⟨h1, h2, h3, h4⟩ := h
  unfold actAll startLeft
  show (if (m.acts b).started then 0 else if (m.acts b).waiting then 1 else 2) +
    (if (m.acts b).closed then 0 else if (m.acts b).called then 1 else
      match k.under b with
      | none => 3 + 3 * (limitAt k b).toNat
      | some u => 2 + Iterations.allLeft (copiesAt k b) (limitAt k b) u.state) = _
  rw [h1, h2, h3, h4]

theorem flags_refl (x : ActionList.Act) : SameFlags x x := ⟨rfl, rfl, rfl, rfl⟩

/-- What a visit of an action does. -/
theorem visit_does {c : ActionList.Ctx} {i : Nat} {m : ActionList.State} (delay : Int) (hr : ActionList.AllRun c)
    (hi : i < c.size) :
    ActionList.visit c delay i m = m ∨ (m.acts i).started = false ∧
      (((ActionList.visit c delay i m).acts i).started = true ∨
        (m.acts i).waiting = false ∧
          ActionList.visit c delay i m = { ActionList.setAct m i { m.acts i with waiting := true, wakeAt := m.now + delay } with
            log := .armed i m.now delay :: m.log }) := by
  have hget : c.entry.listActions[i]? = some (c.entry.listActions[i]'hi) := List.getElem?_eq_getElem hi
  obtain ⟨o, ho⟩ := hr i _ hget
  unfold ActionList.visit
  rw [hget]
  dsimp only
  split
  · exact .inl rfl
  · rename_i hs
    have hs : (m.acts i).started = false := by simpa using hs
    split
    · exact .inl rfl
    · split
      · exact .inl rfl
      · split
        · rename_i hw
          exact .inr ⟨hs, .inr ⟨by simpa using hw.1, rfl⟩⟩
        · refine .inr ⟨hs, .inl ?_⟩
          unfold ActionList.start
          dsimp only
          split
          · rw [ActionList.finish_acts, if_pos rfl, ActionList.callback_acts, if_pos rfl]
            simp [ActionList.setAct]
          · rw [ho]
            simp [ActionList.setAct]

/-- What the thread of a list does: it gets on, or it makes its rounds. -/
theorem thread_all (hk : Fine w k) (hrun : ActionList.AllRun (k.ctx w))
    (hq : ∀ i, (k.ctx w).activityAt i = false) {m : ActionList.State}
    (hm : ActionList.MainStep (k.ctx w) k.main m) :
    jobAll { k with main := m } < jobAll k ∨
      (jobAll { k with main := m } = jobAll k ∧ roundsMade m.phase = roundsMade k.main.phase ∧ m.log = k.main.log ∧
        ∀ b, SameFlags (m.acts b) (k.main.acts b)) := by
  have hd := ActionList.main_open hm
  obtain ⟨hC, hS⟩ := ActionList.inv_core hk.main hd
  have hhandle : ∀ b, SameFlags ((ActionList.handle k.main).acts b) (k.main.acts b) := by
    intro b
    rw [ActionList.handle_acts]
    split <;> exact ⟨rfl, rfl, rfl, rfl⟩
  have hsame : ∀ (m : ActionList.State), (∀ b, SameFlags (m.acts b) (k.main.acts b)) →
      ∀ b, actAll { k with main := m } b ≤ actAll k b := fun m h b => Nat.le_of_eq (all_congr (h b))
  have hround : ∀ (m : ActionList.State), roundsMade m.phase = roundsMade k.main.phase → m.log = k.main.log →
      (∀ b, SameFlags (m.acts b) (k.main.acts b)) →
      jobAll { k with main := m } = jobAll k ∧ roundsMade m.phase = roundsMade k.main.phase ∧ m.log = k.main.log ∧
        ∀ b, SameFlags (m.acts b) (k.main.acts b) := by
    intro m h1 h2 h3
    refine ⟨?_, h1, h2, h3⟩
    unfold jobAll
    have : actAll { k with main := m } = actAll k := funext fun b => all_congr (h3 b)
    rw [this]
    show 4 - roundsMade m.phase + _ = _
    rw [h1]
  cases hm with
  | exit hph =>
    refine .inl (all_rank rfl (hsame _ fun b => flags_refl _) ?_)
    rw [hph]
    simp [roundsMade, ActionList.respondAndFree]
  | resume now hph hn =>
    refine .inr (hround _ ?_ rfl fun b => flags_refl _)
    rw [hph]
    rfl
  | cancel hph _ =>
    refine .inl (all_rank rfl (hsame _ fun b => ?_) ?_)
    · rw [ActionList.cancelActivities_none hq]
      exact flags_refl _
    · rw [hph]
      simp [roundsMade]
  | wake hph hr =>
    refine .inr (hround _ ?_ rfl hhandle)
    rw [hph]
    rfl
  | timeout hph hr =>
    refine .inr (hround _ ?_ rfl fun b => flags_refl _)
    rw [hph]
    rfl
  | drain hph hr =>
    by_cases hall : ∀ i < (k.ctx w).size, (k.main.acts i).started = true →
        ((ActionList.handle k.main).acts i).finished = true
    · rw [if_pos hall]
      refine .inl (all_rank rfl (hsame _ hhandle) ?_)
      rw [hph]
      simp [roundsMade]
    · rw [if_neg hall]
      refine .inr (hround _ ?_ rfl hhandle)
      rw [hph]
  | scanned hph =>
    by_cases hall : ∀ i < (k.ctx w).size, (k.main.acts i).finished = true
    · rw [if_pos hall]
      refine .inl (all_rank rfl (hsame _ fun b => flags_refl _) ?_)
      rw [hph]
      simp [roundsMade]
    · rw [if_neg hall]
      refine .inr (hround _ ?_ rfl fun b => flags_refl _)
      rw [hph]
      rfl
  | visit i delay hph hlt =>
    have hadv : ActionList.advance i (ActionList.visit (k.ctx w) delay i k.main) =
        { ActionList.visit (k.ctx w) delay i k.main with phase := .scan (i + 1) } := by
      have hvp := (ActionList.visit_moves (m := k.main) delay hrun hlt).1
      unfold ActionList.advance
      rw [if_neg (by rw [hvp, hph]; simp)]
    rw [hadv]
    have hother : ∀ b, b ≠ i → actAll { k with main := { ActionList.visit (k.ctx w) delay i k.main with
        phase := .scan (i + 1) } } b = actAll k b := by
      intro b hb
      refine all_congr ?_
      dsimp only
      rw [visit_other hb]
      exact flags_refl _
    rcases visit_does (m := k.main) delay hrun hlt with hv | ⟨hst, hv⟩
    · rw [hv]
      refine .inr (hround _ ?_ rfl fun b => flags_refl _)
      rw [hph]
      rfl
    · have h2 : (k.main.acts i).called = false := by
        cases h : (k.main.acts i).called with
        | false => rfl
        | true => rw [hC.called_started i h] at hst; cases hst
      have h1 : (k.main.acts i).closed = false := by
        cases h : (k.main.acts i).closed with
        | false => rfl
        | true => rw [hC.closed_called i h] at h2; cases h2
      have hu : k.under i = none := by
        cases hu : k.under i with
        | none => rfl
        | some u =>
          obtain ⟨x, -, -, h3, -⟩ := hk.under i u hu
          rw [hst] at h3
          cases h3
      have hbefore : actAll k i = startLeft (k.main.acts i) + (3 + 3 * (limitAt k i).toNat) := by
        unfold actAll
        rw [h1, h2, hu]
        rfl
      refine .inl (all_act (a := i) rfl (by rw [hph]; rfl) hother hlt ?_)
      rw [hbefore]
      rcases hv with hv | ⟨hw, hv⟩
      · have hpos : 1 ≤ startLeft (k.main.acts i) := by
          unfold startLeft
          rw [hst]
          cases (k.main.acts i).waiting <;> decide
        have hafter : actAll { k with main := { ActionList.visit (k.ctx w) delay i k.main with
            phase := .scan (i + 1) } } i ≤ 3 + 3 * (limitAt k i).toNat := by
          unfold actAll startLeft
          dsimp only
          rw [hv, hu]
          dsimp only
          rw [if_pos rfl, Nat.zero_add]
          split
          · omega
          · split
            · omega
            · exact Nat.le_refl _
        omega
      · have hpos : startLeft (k.main.acts i) = 2 := by
          unfold startLeft
          rw [hst, hw]
          rfl
        have hafter : actAll { k with main := { ActionList.visit (k.ctx w) delay i k.main with
            phase := .scan (i + 1) } } i = 1 + (3 + 3 * (limitAt k i).toNat) := by
          unfold actAll startLeft
          dsimp only
          rw [hv, hu]
          simp only [ActionList.setAct, if_true]
          rw [hst, h1, h2]
          rfl
        omega

end Distbench.Loops

namespace Distbench.LoopsCancel
open Tables Services Whole Spec Loops

variable {e : Env} {w : Test} {fan level layer : Str → Nat} {s s' : State} {j a : Nat} {k k' : Job}

/-- Telling runs does not count. -/
theorem done_settle {b0 b : Loops.State} (h : EquallyDone b0 b) : EquallyDone b0 (settle s b).base := by
  obtain ⟨h1, h2, h3⟩ := h
  refine ⟨h1, by simpa [settle] using h2, ?_⟩
  intro j k k' hj hj'
  obtain ⟨y, g1, rfl | rfl⟩ := (settle_told s b).get hj'
  · exact h3 j k k' hj g1
  · obtain ⟨f1, f2, f3, f4⟩ := h3 j k y hj g1
    refine ⟨f1, f2, f3, fun a => ⟨(f4 a).1, (f4 a).2.1, (f4 a).2.2.1, (f4 a).2.2.2.1, ?_⟩⟩
    rw [← (f4 a).2.2.2.2]
    show ((y.under a).map _).map _ = _
    cases y.under a <;> rfl

theorem done_refl (b : Loops.State) : EquallyDone b b := by
  refine ⟨rfl, rfl, ?_⟩
  intro j k k' hj hj'
  rw [hj] at hj'
  cases hj'
  exact ⟨rfl, rfl, rfl, fun _ => ⟨rfl, rfl, rfl, rfl, rfl⟩⟩

theorem done_trans {b1 b2 b3 : Loops.State} (h : EquallyDone b1 b2) (h' : EquallyDone b2 b3) : EquallyDone b1 b3 := by
  obtain ⟨h1, h2, h3⟩ := h
  obtain ⟨g1, g2, g3⟩ := h'
  refine ⟨g1.trans h1, g2.trans h2, ?_⟩
  intro j k k' hj hj'
  have hlt := (List.getElem?_eq_some_iff.1 hj).1
  have hy := List.getElem?_eq_getElem (l := b2.jobs) (i := j) (by omega)
  obtain ⟨e1, e2, e3, e4⟩ := h3 j k _ hj hy
  obtain ⟨f1, f2, f3, f4⟩ := g3 j _ k' hy hj'
  exact ⟨f1.trans e1, f2.trans e2, f3.trans e3, fun a => ⟨(f4 a).1.trans (e4 a).1, (f4 a).2.1.trans (e4 a).2.1,
    (f4 a).2.2.1.trans (e4 a).2.2.1, (f4 a).2.2.2.1.trans (e4 a).2.2.2.1, (f4 a).2.2.2.2.trans (e4 a).2.2.2.2⟩⟩

/-- One run is replaced by one that has done as much. -/
theorem done_put {b0 b : Loops.State} (hj : b0.jobs[j]? = some k) (hjobs : b.jobs = b0.jobs.set j k')
    (hcalls : b.calls = b0.calls) (h0 : k'.list = k.list ∧ k'.entry = k.entry)
    (h1 : roundsMade k'.main.phase = roundsMade k.main.phase)
    (h2 : ∀ a, SameFlags (k'.main.acts a) (k.main.acts a) ∧
      (k'.under a).map doneSoFar = (k.under a).map doneSoFar) : EquallyDone b0 b := by
  refine ⟨hcalls, by rw [hjobs, List.length_set], ?_⟩
  intro i x x' hi hi'
  rw [hjobs] at hi'
  rcases set_get hi' with ⟨rfl, rfl⟩ | ⟨-, g⟩
  · rw [hj] at hi
    cases hi
    exact ⟨h0.1, h0.2, h1, fun a => ⟨(h2 a).1.1, (h2 a).1.2.1, (h2 a).1.2.2.1, (h2 a).1.2.2.2, (h2 a).2⟩⟩
  · rw [hi] at g
    cases g
    exact ⟨rfl, rfl, rfl, fun _ => ⟨rfl, rfl, rfl, rfl, rfl⟩⟩

theorem all_put {lev : Nat → Nat} {hd : Nat → Option Nat} {b0 b : Loops.State} (hj : b0.jobs[j]? = some k)
    (hjobs : b.jobs = b0.jobs.set j k') (hcalls : b.calls = b0.calls) (hl : k'.list = k.list)
    (hleft : jobAll k' = jobAll k) : marks jobAll lev hd b = marks jobAll lev hd b0 := by
  obtain ⟨X, h1, h2⟩ := map_set (jobMark jobAll lev) b0.jobs j k hj
  unfold marks
  rw [hjobs, hcalls, h2, h1]
  unfold jobMark
  rw [hl, hleft]

/-- The run is the same but for one action. -/
theorem all_goes {u : Under} {st : Iterations.State} {since : Int} (ha : a < k.entry.listActions.length)
    (hc : (k.main.acts a).called = false) (hcl : (k.main.acts a).closed = false) (hu : k.under a = some u)
    (hlt : Iterations.allLeft (copiesAt k a) (limitAt k a) st < Iterations.allLeft (copiesAt k a) (limitAt k a) u.state) :
    jobAll (k.goes a ⟨since, st⟩) < jobAll k := by
  refine all_act (a := a) rfl rfl (fun b hb => ?_) ha ?_
  · unfold actAll
    have : (k.goes a ⟨since, st⟩).under b = k.under b := if_neg hb
    rw [this]
    rfl
  · have h1 : actAll (k.goes a ⟨since, st⟩) a = startLeft (k.main.acts a) +
        (2 + Iterations.allLeft (copiesAt k a) (limitAt k a) st) := by
      unfold actAll
      have : (k.goes a ⟨since, st⟩).under a = some ⟨since, st⟩ := if_pos rfl
      rw [this]
      show startLeft (k.main.acts a) + (if (k.main.acts a).closed then 0 else if (k.main.acts a).called then 1 else _) = _
      rw [hc, hcl]
      rfl
    have h2 : actAll k a = startLeft (k.main.acts a) +
        (2 + Iterations.allLeft (copiesAt k a) (limitAt k a) u.state) := by
      unfold actAll
      rw [hc, hcl, hu]
      rfl
    omega

theorem counted_limit {cfg : Config} (hp : CancelTest cfg) (hn : CountedLoops cfg) {x : Action} (hm : x ∈ cfg.actions) :
    (Iterations.params x 0 false).limit < 2 ^ 31 := by
  show (match x.iterations with | none => 1 | some i => i.maxIterationCount.getD (2 ^ 63 - 1)) < 2 ^ 31
  cases hi : x.iterations with
  | none => exact show (1 : Int) < 2 ^ 31 by decide
  | some it =>
    have h2 := (hp.limited _ hm it hi).2
    cases hcn : it.maxIterationCount with
    | none => exact absurd hcn (hn _ hm it hi)
    | some n =>
      rw [hcn] at h2
      dsimp only
      rw [hcn]
      exact h2.2

/-- Each step does nothing, or leaves less to do. -/
theorem base_all (hE : Rests e w fan level) (hn : CountedLoops w.cfg) (hr : Reach w s) {b : Loops.State} (h : Loops.Step w s.base b) :
    (EquallyDone s.base b ∧
      marks jobAll (levelAt w level) (handlerAt w fan) b = marks jobAll (levelAt w level) (handlerAt w fan) s.base) ∨
    Less (marks jobAll (levelAt w level) (handlerAt w fan) b) (marks jobAll (levelAt w level) (handlerAt w fan) s.base) := by
  obtain ⟨hs, hp, hkd, hf, hlv, hc⟩ := hE
  have hE : Rests e w fan level := ⟨hs, hp, hkd, hf, hlv, hc⟩
  obtain ⟨hP, hAc⟩ := reach_inv hs hp hr
  have hnot : ∀ {j a : Nat} {k : Job} {x : ActionEntry} {u : Under} {st : Iterations.State},
      UnderWay s.base j a k x u → Iterations.Work (k.params x u) u.state st →
      (k.main.acts a).called = false ∧ (k.main.acts a).closed = false ∧ k.main.phase ≠ .done := by
    intro j a k x u st ⟨hj, hx, hun⟩ hw
    have hk := hAc.fine j k hj
    obtain ⟨x', g1, g2, g3, g4, g5, g6⟩ := hk.under a u hun
    rw [hx] at g1
    cases g1
    have hnc : (k.main.acts a).called = false := by
      cases hcl : (k.main.acts a).called with
      | false => rfl
      | true =>
        exfalso
        exact Iterations.steady_reported_quiet g2 (g6.1 hcl) hw
    have hnd : k.main.phase ≠ .done := by
      intro hd
      rw [done_reported hAc hj hd a g3] at hnc
      cases hnc
    refine ⟨hnc, ?_, hnd⟩
    cases hcl : (k.main.acts a).closed with
    | false => rfl
    | true =>
      rw [(ActionList.inv_core hk.main hnd).1.closed_called a hcl] at hnc
      cases hnc
  -- an iteration gets on
  have hwork : ∀ {j a : Nat} {k : Job} {x : ActionEntry} {u : Under} {st : Iterations.State},
      UnderWay s.base j a k x u → Iterations.Work (k.params x u) u.state st → st.log ≠ .allDone :: u.state.log →
      jobAll (k.goes a ⟨u.since, st⟩) < jobAll k := by
    intro j a k x u st ⟨hj, hx, hun⟩ hw hne
    have hk := hAc.fine j k hj
    obtain ⟨x', g1, g2, g3, g4, g5, g6⟩ := hk.under a u hun
    rw [hx] at g1
    cases g1
    have hcp : copiesAt k a = (Iterations.params x.proto 0 false).copies := by
      unfold copiesAt
      rw [hx]
    have hlp : limitAt k a = (Iterations.params x.proto 0 false).limit := by
      unfold limitAt
      rw [hx]
    have hlt : Iterations.allLeft (copiesAt k a) (limitAt k a) st <
        Iterations.allLeft (copiesAt k a) (limitAt k a) u.state := by
      have hlim : (k.params x u).limit < 2 ^ 31 := counted_limit hp hn (proto_mem hs hk.entry hx)
      rcases Iterations.work_all g2 hlim hw with h | h
      · exact absurd h hne
      · rw [hcp, hlp]
        exact h
    obtain ⟨hnc, hncl, -⟩ := hnot ⟨hj, hx, hun⟩ hw
    exact all_goes (List.getElem?_eq_some_iff.1 hx).1 hnc hncl hun hlt
  have hnil : ∀ (k : Job), respond k.main k.main k.parent s.base.calls = s.base.calls := fun k => respond_same _ _ _
  have hput : ∀ {j a : Nat} {k : Job} {x : ActionEntry} {u : Under} {st : Iterations.State},
      UnderWay s.base j a k x u → Iterations.Work (k.params x u) u.state st → st.log ≠ .allDone :: u.state.log →
      Less (marks jobAll (levelAt w level) (handlerAt w fan) (s.base.put j (k.goes a ⟨u.since, st⟩)))
        (marks jobAll (levelAt w level) (handlerAt w fan) s.base) := by
    intro j a k x u st huw hw hne
    refine (less_turn (k' := k.goes a ⟨u.since, st⟩) (xs := []) (rs := []) hE hr huw.1 (List.append_nil _).symm ?_ rfl
      (hwork huw hw hne) (.inl rfl) (fun x hx => absurd hx List.not_mem_nil)
      (fun x hx => absurd hx List.not_mem_nil)).2
    show s.base.calls = respond k.main k.main k.parent s.base.calls ++ []
    rw [hnil, List.append_nil]
  cases h with
  | @main j k m hj hm =>
    have hk := hAc.fine j k hj
    have hq := quiet_list hs hp hk.entry
    rcases thread_all hk (reach_all_run hs hp hkd hf hc hr hj) hq hm with h | ⟨h1, h2, h3, h4⟩
    · right
      exact (less_turn (k' := { k with main := m }) (xs := []) (rs := []) hE hr hj (List.append_nil _).symm
        (List.append_nil _).symm rfl h (ActionList.main_frame hk.main hq hm).resp
        (fun x hx => absurd hx List.not_mem_nil) (fun x hx => absurd hx List.not_mem_nil)).2
    · left
      have hcalls : respond k.main m k.parent s.base.calls = s.base.calls := by
        unfold respond
        rw [h3, if_neg (by omega)]
      exact ⟨done_put hj rfl hcalls ⟨rfl, rfl⟩ h2 fun a => ⟨h4 a, rfl⟩, all_put hj rfl hcalls rfl h1⟩
  | @setUp j a k x st now spread hj hx h1 h2 h3 h4 h5 =>
    right
    have hk := hAc.fine j k hj
    have ha := (List.getElem?_eq_some_iff.1 hx).1
    have hcall : (k.main.acts a).called = false := by
      cases h : (k.main.acts a).called with
      | false => rfl
      | true =>
        rcases hk.called a h with h | h
        · rw [h2] at h; cases h
        · exact absurd h4 h
    have hcl : (k.main.acts a).closed = false := by
      cases h : (k.main.acts a).closed with
      | false => rfl
      | true =>
        by_cases hd : k.main.phase = .done
        · rw [done_reported hAc hj hd a h1] at hcall; cases hcall
        · rw [(ActionList.inv_core hk.main hd).1.closed_called a h] at hcall; cases hcall
    obtain ⟨-, -, -, g2, g3, g4, -⟩ := steady_initiate hp (proto_mem hs hk.entry hx) h5
    refine (less_turn (k' := k.goes a ⟨now, st⟩) (xs := []) (rs := []) hE hr hj (List.append_nil _).symm ?_ rfl ?_
      (.inl rfl) (fun x hx => absurd hx List.not_mem_nil) (fun x hx => absurd hx List.not_mem_nil)).2
    · show s.base.calls = respond k.main k.main k.parent s.base.calls ++ []
      rw [hnil, List.append_nil]
    · refine all_act (a := a) rfl rfl (fun i hi => ?_) ha ?_
      · unfold actAll
        have : (k.goes a ⟨now, st⟩).under i = k.under i := if_neg hi
        rw [this]
        rfl
      · have e1 : actAll (k.goes a ⟨now, st⟩) a = startLeft (k.main.acts a) +
            (2 + Iterations.allLeft (copiesAt k a) (limitAt k a) st) := by
          unfold actAll
          have : (k.goes a ⟨now, st⟩).under a = some ⟨now, st⟩ := if_pos rfl
          rw [this]
          show startLeft (k.main.acts a) +
            (if (k.main.acts a).closed then 0 else if (k.main.acts a).called then 1 else _) = _
          rw [hcall, hcl]
          rfl
        have e2 : actAll k a = startLeft (k.main.acts a) + (3 + 3 * (limitAt k a).toNat) := by
          unfold actAll
          rw [hcall, hcl, h4]
          rfl
        have hcp : copiesAt k a = (Iterations.params x.proto 0 false).copies := by
          unfold copiesAt
          rw [hx]
        have hlp : limitAt k a = (Iterations.params x.proto 0 false).limit := by
          unfold limitAt
          rw [hx]
        have hnext : st.next = copiesAt k a := by
          rw [hcp]
          exact g4
        obtain ⟨c1, c2, -⟩ := closed_params 0 false (hp.closedLoops _ (proto_mem hs hk.entry hx))
          (hp.limited _ (proto_mem hs hk.entry hx))
        rw [← hcp] at c1
        rw [← hcp, ← hlp] at c2
        have e3 : Iterations.allLeft (copiesAt k a) (limitAt k a) st = 3 * (limitAt k a).toNat := by
          unfold Iterations.allLeft
          rw [g2, g3, hnext]
          simp only [Iterations.costAll]
          omega
        omega
  | @rpcs j a k x u st n b t q f targets huw hw hl hwk hpick =>
    right
    refine (less_turn (k' := k.goes a ⟨u.since, st⟩) (xs := []) (rs := Traffic.newCalls q j a n.toNat targets) hE hr
      huw.1 (List.append_nil _).symm ?_ rfl (hwork huw hw (by rw [hl]; simp)) (.inl rfl)
      (fun x hx => absurd hx List.not_mem_nil) ?_).2
    · show s.base.calls ++ _ = respond k.main k.main k.parent s.base.calls ++ _
      rw [hnil]
    · intro r hr
      unfold Traffic.newCalls at hr
      obtain ⟨t, ht, rfl⟩ := List.mem_map.1 hr
      exact ⟨a, x, _, huw.2.1, hwk⟩
  | @list j a k x u st n b t l k3 huw hw hl hwk hop =>
    right
    refine (less_turn (k' := k.goes a ⟨u.since, st⟩) (xs := [k3]) (rs := []) hE hr huw.1 rfl ?_ rfl
      (hwork huw hw (by rw [hl]; simp)) (.inl rfl) ?_ (fun x hx => absurd hx List.not_mem_nil)).2
    · show s.base.calls = respond k.main k.main k.parent s.base.calls ++ []
      rw [hnil, List.append_nil]
    · intro y hy
      rw [List.mem_singleton] at hy
      subst hy
      exact ⟨a, x, huw.2.1, by rw [(opens_same hop).2.1]; exact hwk⟩
  | other huw hw hl _ => exact .inr (hput huw hw (by rw [hl]; simp))
  | ended huw hw hl _ => exact .inr (hput huw hw (by rw [hl]; simp))
  | quiet huw hw hl => exact .inr (hput huw hw (by rw [hl]; simp))
  | @idle j a k x u st huw hi _ =>
    left
    obtain ⟨hj, hx, hun⟩ := huw
    obtain ⟨-, f2, f3, f4, f5, f6⟩ := Iterations.idle_frame hi
    have hg : ∀ b, b ≠ a → (k.goes a ⟨u.since, st⟩).under b = k.under b := fun b hb => if_neg hb
    have hga : (k.goes a ⟨u.since, st⟩).under a = some ⟨u.since, st⟩ := if_pos rfl
    refine ⟨done_put (k' := k.goes a ⟨u.since, st⟩) hj rfl rfl ⟨rfl, rfl⟩ rfl fun b => ⟨flags_refl _, ?_⟩,
      all_put (k' := k.goes a ⟨u.since, st⟩) hj rfl rfl rfl ?_⟩
    · by_cases hb : b = a
      · rw [hb, hga, hun]
        simp [doneSoFar, f2, f3, f4, f5, f6.1]
      · rw [hg b hb]
    · unfold jobAll
      have : actAll (k.goes a ⟨u.since, st⟩) = actAll k := by
        funext b
        unfold actAll
        by_cases hb : b = a
        · rw [hb, hga, hun]
          have : Iterations.allLeft (copiesAt k a) (limitAt k a) st =
              Iterations.allLeft (copiesAt k a) (limitAt k a) u.state := by
            unfold Iterations.allLeft
            rw [f4, f5, f6.1]
          dsimp only
          show startLeft (k.main.acts a) + (if (k.main.acts a).closed then 0 else if (k.main.acts a).called then 1 else
            2 + Iterations.allLeft (copiesAt k a) (limitAt k a) st) = _
          rw [this]
        · rw [hg b hb]
          rfl
      rw [this]
      rfl
  | @allDone j a k x u st huw hw hl =>
    right
    obtain ⟨hj, hx, hun⟩ := huw
    obtain ⟨hcall, hcl, hd⟩ := hnot ⟨hj, hx, hun⟩ hw
    have hk := hAc.fine j k hj
    obtain ⟨hC, hS⟩ := ActionList.inv_core hk.main hd
    refine (less_turn (k' := { k.goes a ⟨u.since, st⟩ with main := ActionList.callback (k.ctx w) a k.main })
      (xs := []) (rs := []) hE hr hj (List.append_nil _).symm (List.append_nil _).symm rfl ?_
      (ActionList.callback_resp hC hcall)
      (fun x hx => absurd hx List.not_mem_nil) (fun x hx => absurd hx List.not_mem_nil)).2
    refine all_act (a := a) rfl (congrArg roundsMade (ActionList.callback_phase _ _ _)) (fun i hi => ?_)
      (List.getElem?_eq_some_iff.1 hx).1 ?_
    · unfold actAll
      have h1 : ({ k.goes a ⟨u.since, st⟩ with main := ActionList.callback (k.ctx w) a k.main } : Job).under i =
          k.under i := if_neg hi
      rw [h1]
      dsimp only
      rw [ActionList.callback_acts, if_neg hi]
      rfl
    · have h1 : actAll { k.goes a ⟨u.since, st⟩ with main := ActionList.callback (k.ctx w) a k.main } a =
          startLeft (k.main.acts a) + 1 := by
        unfold actAll
        dsimp only
        rw [ActionList.callback_acts, if_pos rfl]
        dsimp only
        rw [hcl]
        rfl
      have h2 : actAll k a = startLeft (k.main.acts a) +
          (2 + Iterations.allLeft (copiesAt k a) (limitAt k a) u.state) := by
        unfold actAll
        rw [hcall, hcl, hun]
        rfl
      omega
  | @finish j a k hj ha h1 h2 =>
    right
    refine (less_turn (k' := { k with main := ActionList.finishAction a k.main }) (xs := []) (rs := []) hE hr
      hj (List.append_nil _).symm ?_ rfl ?_ (.inl (ActionList.responses_cons_other (by simp)))
      (fun x hx => absurd hx List.not_mem_nil) (fun x hx => absurd hx List.not_mem_nil)).2
    · show s.base.calls = respond k.main (ActionList.finishAction a k.main) k.parent s.base.calls ++ []
      have : responses (ActionList.finishAction a k.main).log = responses k.main.log :=
        ActionList.responses_cons_other (by simp)
      unfold respond
      rw [this, if_neg (by omega), List.append_nil]
    · refine all_act (a := a) rfl rfl (fun i hi => ?_) ha ?_
      · refine all_congr ?_
        rw [ActionList.finish_acts, if_neg hi]
        exact flags_refl _
      · have e1 : actAll { k with main := ActionList.finishAction a k.main } a =
            startLeft (k.main.acts a) := by
          unfold actAll
          dsimp only
          rw [ActionList.finish_acts, if_pos rfl]
          rfl
        have e2 : actAll k a = startLeft (k.main.acts a) + 1 := by
          unfold actAll
          rw [h2, h1]
          rfl
        omega
  | @deliver c r hcl hst =>
    right
    refine call_less (r := r) (c := c) (xs := []) hcl (List.append_nil _).symm rfl ?_
      (fun x hx => absurd hx List.not_mem_nil)
    rw [hst]
    split <;> simp [stageNumber]
  | @dispatch c r l k3 hcl hst hh _ hop =>
    right
    refine call_less (st := .running) (xs := [k3]) hcl rfl rfl ?_ ?_
    · rw [hst]
      simp [stageNumber]
    · intro x hx
      rw [List.mem_singleton] at hx
      subst hx
      rw [(opens_same hop).2.1]
      rw [call_handler hs hf hP hAc hcl] at hh
      unfold callLevel
      rw [show handlerAt w fan r.rpc = some l from hh]
      dsimp only
      omega
  | @complete c r hcl hst =>
    right
    refine call_less (st := .completed) (xs := []) hcl (List.append_nil _).symm rfl ?_
      (fun x hx => absurd hx List.not_mem_nil)
    rw [hst]
    simp [stageNumber]

theorem step_all (hE : Rests e w fan level) (hn : CountedLoops w.cfg) (hr : Reach w s) (h : Step w s s') :
    (EquallyDone s.base s'.base ∧
      marks jobAll (levelAt w level) (handlerAt w fan) s'.base = marks jobAll (levelAt w level) (handlerAt w fan) s.base) ∨
    Less (marks jobAll (levelAt w level) (handlerAt w fan) s'.base) (marks jobAll (levelAt w level) (handlerAt w fan) s.base) := by
  cases h with
  | run h _ =>
    rw [marks_told (fun _ => all_tell _) (settle_told s _)]
    rcases base_all hE hn hr h with ⟨h1, h2⟩ | h
    · exact .inl ⟨done_settle h1, h2⟩
    · exact .inr h
  | cancel g =>
    left
    exact ⟨done_settle (done_refl _), marks_told (fun _ => all_tell _) (settle_told _ _)⟩
  | expire _ => exact .inl ⟨done_refl _, rfl⟩
  | @refuse c r hc hst _ =>
    right
    refine call_less (st := .answered) (xs := []) hc (List.append_nil _).symm rfl ?_
      (fun x hx => absurd hx List.not_mem_nil)
    rw [hst]
    simp [stageNumber]

theorem done_symm {s s' : Loops.State} (h : EquallyDone s s') : EquallyDone s' s := by
  obtain ⟨h1, h2, h3⟩ := h
  refine ⟨h1.symm, h2.symm, fun j k k' hj hj' => ?_⟩
  obtain ⟨g1, g2, g3, g4⟩ := h3 j k' k hj' hj
  exact ⟨g1.symm, g2.symm, g3.symm, fun a => ⟨(g4 a).1.symm, (g4 a).2.1.symm, (g4 a).2.2.1.symm,
    (g4 a).2.2.2.1.symm, (g4 a).2.2.2.2.symm⟩⟩

/-- States that follow each other, or stay, do only so much. -/
theorem rests_all (hE : Rests e w fan level) (hn : CountedLoops w.cfg) {f : Nat → State} (h0 : Reach w (f 0))
    (hstep : ∀ n, f (n + 1) = f n ∨ Step w (f n) (f (n + 1))) :
    ∃ N, ∀ n, N ≤ n → EquallyDone (f N).base (f n).base := by
  have hR : ∀ n, Reach w (f n) := by
    intro n
    induction n with
    | zero => exact h0
    | succ n ih =>
      rcases hstep n with h | h
      · rw [h]; exact ih
      · exact .step ih h
  obtain ⟨M, ⟨N, hN⟩, hmin⟩ : ∃ M, (∃ N, marks jobAll (levelAt w level) (handlerAt w fan) (f N).base = M) ∧
      ∀ n, ¬ Less (marks jobAll (levelAt w level) (handlerAt w fan) (f n).base) M := by
    have : ∀ M, (∃ N, marks jobAll (levelAt w level) (handlerAt w fan) (f N).base = M) →
        ∃ M, (∃ N, marks jobAll (levelAt w level) (handlerAt w fan) (f N).base = M) ∧
          ∀ n, ¬ Less (marks jobAll (levelAt w level) (handlerAt w fan) (f n).base) M := by
      intro M
      induction M using less_wf.induction with
      | h M ih =>
        intro hM
        by_cases hlow : ∃ n, Less (marks jobAll (levelAt w level) (handlerAt w fan) (f n).base) M
        · obtain ⟨n, hn⟩ := hlow
          exact ih _ hn ⟨n, rfl⟩
        · exact ⟨M, hM, fun n hn => hlow ⟨n, hn⟩⟩
    exact this _ ⟨0, rfl⟩
  have hrest : ∀ d, EquallyDone (f N).base (f (N + d)).base ∧
      marks jobAll (levelAt w level) (handlerAt w fan) (f (N + d)).base = M := by
    intro d
    induction d with
    | zero => exact ⟨done_refl _, hN⟩
    | succ d ih =>
      obtain ⟨i1, i2⟩ := ih
      rcases hstep (N + d) with h | h
      · rw [← Nat.add_assoc, h]
        exact ⟨i1, i2⟩
      · rcases step_all hE hn (hR (N + d)) h with ⟨h1, h2⟩ | h
        · exact ⟨done_trans i1 h1, by rw [← i2]; exact h2⟩
        · exact absurd (by rw [i2] at h; exact h) (hmin (N + d + 1))
  refine ⟨N, fun n hn => ?_⟩
  obtain ⟨d, rfl⟩ := Nat.exists_eq_add_of_le hn
  exact (hrest d).1

/-- What is as far as a state in which all is over is over. -/
theorem over_done {s s' : Loops.State} (h : EquallyDone s s') (ho : LoopsOver s) : LoopsOver s' := by
  refine ⟨fun k' hk' => ?_, fun c hc => ho.2 c (by rw [← h.1]; exact hc)⟩
  obtain ⟨j, hj'⟩ := List.getElem?_of_mem hk'
  have hlt : j < s.jobs.length := by rw [← h.2.1]; exact (List.getElem?_eq_some_iff.1 hj').1
  have hj := List.getElem?_eq_getElem hlt
  have h3 := (h.2.2 j _ k' hj hj').2.2.1
  rw [ho.1 _ (List.getElem_mem hlt)] at h3
  cases hp : k'.main.phase <;> rw [hp] at h3 <;> first | rfl | (simp [roundsMade] at h3)

/-- With no flag set, nothing is told to any run. -/
theorem settle_quiet {s : State} {b : Loops.State} (h1 : s.cancelled = fun _ => false)
    (h2 : s.refusing = fun _ => false) (h : ∀ k ∈ b.jobs, k.main.canceled = false) :
    settle s b = { base := b } := by
  have hflag : ∀ e, (s.cancelled e || b.jobs.any fun k => k.engine = e && k.main.canceled) = false := by
    intro e
    rw [h1, Bool.false_or, List.any_eq_false]
    intro k hk
    rw [h k hk]
    simp
  unfold settle
  simp only [hflag, h2]
  congr 1
  have : (b.jobs.map fun k : Job => if false = true then tell k else k) = b.jobs := by
    simp
  rw [this]

/-- What happens without cancellation can happen. -/
theorem step_uncancelled (hs : SoundTest e w) (hp : LoopTest w.cfg) (hf : FanOuts w.cfg fan) {b b' : Loops.State}
    (hr : Loops.Reach w b) (h : Loops.Step w b b') : Step w { base := b } { base := b' } := by
  obtain ⟨ops, t, hsim⟩ := sim hs hp hf (.step hr h)
  have hq : settle { base := b } b' = { base := b' } := settle_quiet rfl rfl fun k hk => by
    obtain ⟨j, hj⟩ := List.getElem?_of_mem hk
    exact (hsim.inv.jobs j k hj).live
  rw [← hq]
  exact .run h fun c call _ _ hc => absurd hc (by simp)

theorem reach_uncancelled (hs : SoundTest e w) (hp : LoopTest w.cfg) (hf : FanOuts w.cfg fan) {b : Loops.State}
    (hr : Loops.Reach w b) : Reach w { base := b } := by
  induction hr with
  | start h => exact .start h
  | step hr h ih => exact .step ih (step_uncancelled hs hp hf hr h)

theorem leads_all (hE : Rests e w fan level) (hp : LoopTest w.cfg) (hn : CountedLoops w.cfg) {b b' : Loops.State}
    (hr : Loops.Reach w b) (h : Leads w b b') :
    (EquallyDone b b' ∧ marks jobAll (levelAt w level) (handlerAt w fan) b' =
      marks jobAll (levelAt w level) (handlerAt w fan) b) ∨
    Less (marks jobAll (levelAt w level) (handlerAt w fan) b') (marks jobAll (levelAt w level) (handlerAt w fan) b) := by
  induction h with
  | refl => exact .inl ⟨done_refl _, rfl⟩
  | step h1 h2 ih =>
    have hr1 := h1.reach hr
    have h3 := step_all hE hn (reach_uncancelled hE.sound hp hE.fans hr1) (step_uncancelled hE.sound hp hE.fans hr1 h2)
    rcases ih with ⟨i1, i2⟩ | ih
    · rcases h3 with ⟨g1, g2⟩ | h3
      · exact .inl ⟨done_trans i1 g1, g2.trans i2⟩
      · right
        rw [← i2]
        exact h3
    · right
      rcases h3 with ⟨g1, g2⟩ | h3
      · dsimp only at g2
        rw [g2]
        exact ih
      · exact Multiset.IsDershowitzMannaLT.trans h3 ih

/-- Every state can be brought to one from which on nothing more can be brought about. -/
theorem can_settle (hE : Rests e w fan level) (hp : LoopTest w.cfg) (hn : CountedLoops w.cfg) {b : Loops.State}
    (hr : Loops.Reach w b) : ∃ b', Leads w b b' ∧ ∀ c, Leads w b' c → EquallyDone b' c := by
  have : ∀ M b, marks jobAll (levelAt w level) (handlerAt w fan) b = M → Loops.Reach w b →
      ∃ b', Leads w b b' ∧ ∀ c, Leads w b' c → EquallyDone b' c := by
    intro M
    induction M using less_wf.induction with
    | h M ih =>
      intro b hM hr
      by_cases hq : ∀ c, Leads w b c → EquallyDone b c
      · exact ⟨b, .refl, hq⟩
      · obtain ⟨c, hc⟩ := Classical.not_forall.1 hq
        obtain ⟨h1, h2⟩ := Classical.not_imp.1 hc
        rcases leads_all hE hp hn hr h1 with ⟨h3, -⟩ | h3
        · exact absurd h3 h2
        · obtain ⟨b', g1, g2⟩ := ih _ (by rw [← hM]; exact h3) c rfl (h1.reach hr)
          exact ⟨b', h1.trans g1, g2⟩
  exact this _ b rfl hr

/-- The way from one state to another, as a schedule that stays there. -/
theorem leads_schedule {b b' : Loops.State} (h : Leads w b b') :
    ∃ f L, LoopSchedule w b f ∧ ∀ n, L ≤ n → f n = b' := by
  induction h with
  | refl => exact ⟨fun _ => b, 0, ⟨rfl, fun _ => .inl rfl⟩, fun _ _ => rfl⟩
  | @step s1 s2 _ h2 ih =>
    obtain ⟨f, L, ⟨h3, h4⟩, h5⟩ := ih
    refine ⟨fun n => if n ≤ L then f n else s2, L + 1, ⟨?_, fun n => ?_⟩, fun n hn => if_neg (by omega)⟩
    · show (if 0 ≤ L then f 0 else s2) = b
      rw [if_pos (Nat.zero_le _), h3]
    · show (if n + 1 ≤ L then f (n + 1) else s2) = (if n ≤ L then f n else s2) ∨
        Loops.Step w (if n ≤ L then f n else s2) (if n + 1 ≤ L then f (n + 1) else s2)
      by_cases h6 : n + 1 ≤ L
      · rw [if_pos h6, if_pos (by omega)]
        exact h4 n
      · rw [if_neg h6]
        by_cases h7 : n ≤ L
        · rw [if_pos h7, h5 n (by omega)]
          exact .inr h2
        · rw [if_neg h7]
          exact .inl rfl

/-- From every state there is a schedule in which things go on. -/
theorem schedule_exists (hE : Rests e w fan level) (hp : LoopTest w.cfg) (hn : CountedLoops w.cfg) {b : Loops.State}
    (hr : Loops.Reach w b) : ∃ f, LoopSchedule w b f ∧ KeepsOn w f := by
  obtain ⟨b', h1, h2⟩ := can_settle hE hp hn hr
  obtain ⟨f, L, h3, h4⟩ := leads_schedule h1
  refine ⟨f, h3, fun N hN => ?_⟩
  obtain ⟨c, h5, h6⟩ := hN (max N L) (Nat.le_max_left _ _)
  rw [h4 _ (Nat.le_max_right _ _)] at h5 h6
  exact absurd (h2 c h5) h6

end Distbench.LoopsCancel
