import Verif.Lemmas.LoopsCancelInv
import Verif.Lemmas.LoopsText

/-! Whole tests that may be cancelled: RPCs that come back, and iterations after cancellation. -/

namespace Distbench.Iterations

theorem runsOf_runs (k : Int) (l : List Thread) : runsOf k l ≤ runs l := by
  induction l with
  | nil => simp [runsOf, runs]
  | cons t r ih =>
    cases t with
    | running m => simp only [runsOf, runs]; split <;> omega
    | _ => simpa [runsOf, runs] using ih

end Distbench.Iterations

namespace Distbench.Loops
open Tables Services Whole Spec

variable {w : Test} {s s' : State} {j a c l : Nat} {k k' : Job}

/-! ### What is done for an RPC -/

/-- All actions of a run that were started have reported. -/
def Reported (k : Job) : Prop := ∀ a, (k.main.acts a).started = true → (k.main.acts a).called = true

/-- Nothing of an iteration is under way once its action has reported. -/
theorem reported_over (hA : Active w s) (hj : s.jobs[j]? = some k) (hr : Reported k) {n : Nat} {p : Prop}
    (ho : Owned s j a n p) : p := by
  apply Classical.byContradiction
  intro hp
  have h1 := ho.2 hp
  rw [logAt_get hj] at h1
  unfold logOf at h1
  cases hu : k.under a with
  | none => rw [hu] at h1; simp [ends, starts] at h1
  | some u =>
    rw [hu] at h1
    dsimp only at h1
    obtain ⟨x, g1, g2, g3, g4, g5, g6⟩ := (hA.fine j k hj).under a u hu
    have h2 := g6.1 (hr a g3)
    have h3 := (Iterations.steady_reported g2 h2).1
    have h4 := g2.counts.book.runOf n
    have h5 := Iterations.runsOf_runs n u.state.threads
    omega

theorem served_reported {e : Env} (hs : SoundTest e w) (hl : RespondsLast w.cfg) (hA : Active w s)
    (hj : s.jobs[j]? = some k) (hr : responses k.main.log ≠ 0) : Reported k := by
  intro a ha
  have hk := hA.fine j k hj
  exact ActionList.responded_called hk.main (fun i x hx => hl _ (proto_mem hs hk.entry hx)) hr ha

theorem done_reported (hA : Active w s) (hj : s.jobs[j]? = some k) (hd : k.main.phase = .done) : Reported k :=
  fun _ ha => (ActionList.ended_closed (hA.fine j k hj).main (.inl hd) ha).1

/-- What was done for the sake of an RPC that was answered has ended. -/
theorem below_reported {e : Env} (hs : SoundTest e w) (hl : RespondsLast w.cfg) (hP : Placed w s) (hA : Active w s)
    {r : Traffic.Call} (hc : s.calls[c]? = some r) (hst : r.stage ≠ .running) :
    (∀ j, RunBelow s c j → ∀ k, s.jobs[j]? = some k → Reported k) ∧
    ∀ c', RpcBelow s c c' → ∀ r', s.calls[c']? = some r' → r'.stage = .completed := by
  have hcall : ∀ (c' j : Nat) (k : Job) (r' : Traffic.Call), s.jobs[j]? = some k → k.parent = .call c' → s.calls[c']? = some r' →
      r'.stage ≠ .running → Reported k := by
    intro c' j k r' hj hp hc' hst'
    refine served_reported hs hl hA hj fun h0 => hst' ?_
    exact (hA.stage j k hj c' r' hp hc').2.2 h0
  have hJ : ∀ j, (hb : RunBelow s c j) → ∀ k, s.jobs[j]? = some k → Reported k := by
    intro j hb
    refine RunBelow.rec (s := s) (c := c)
      (motive_1 := fun j _ => ∀ k, s.jobs[j]? = some k → Reported k)
      (motive_2 := fun c' _ => ∀ r', s.calls[c']? = some r' → r'.stage = .completed)
      ?_ ?_ ?_ ?_ hb
    · intro j k hj hp k' hk'
      rw [hj] at hk'
      cases hk'
      exact hcall c j k r hj hp hc hst
    · intro j c' k hj hp _ ih k' hk'
      rw [hj] at hk'
      cases hk'
      obtain ⟨r', h1, -⟩ := hP.served j k hj c' hp
      exact hcall c' j k r' hj hp h1 (by rw [ih r' h1]; simp)
    · intro j j' a n k hj hp _ ih k' hk'
      rw [hj] at hk'
      cases hk'
      have ho := hA.parents j k hj j' a n hp
      obtain ⟨k0, h0⟩ := owned_job ho
      exact done_reported hA hj (reported_over hA h0 (ih k0 h0) ho)
    · intro c' r' hc' _ ih r'' hr''
      rw [hc'] at hr''
      cases hr''
      have ho := hA.calls c' r' hc'
      obtain ⟨k0, h0⟩ := owned_job ho
      exact reported_over hA h0 (ih k0 h0) ho
  refine ⟨hJ, ?_⟩
  intro c' hb r' hr'
  cases hb with
  | made h1 h2 =>
    rw [h1] at hr'
    cases hr'
    have ho := hA.calls c' r' h1
    obtain ⟨k0, h0⟩ := owned_job ho
    exact reported_over hA h0 (hJ _ h2 k0 h0) ho

/-! ### Where an RPC goes -/

theorem call_server {e : Env} {fan : Str → Nat} (hs : SoundTest e w) (hf : FanOuts w.cfg fan) (hP : Placed w s)
    (hA : Active w s) {r : Traffic.Call} (hc : s.calls[c]? = some r) :
    (globalConfig w (fanAt w.cfg fan)).servers r.rpc r.target = true := by
  obtain ⟨k, y, f, targets, h1, h2, h3, h4, h5⟩ := hP.made c r hc
  exact (picks_global hs hf (entry_zero hs (hA.fine _ k h1).entry h2) h3 h4).2 _ h5

theorem call_handler {e : Env} {fan : Str → Nat} (hs : SoundTest e w) (hf : FanOuts w.cfg fan) (hP : Placed w s)
    (hA : Active w s) {r : Traffic.Call} (hc : s.calls[c]? = some r) :
    handlerOf (tablesOf w r.target) r.rpc = (globalConfig w (fanAt w.cfg fan)).handler r.rpc := by
  have hsv := call_server hs hf hP hA hc
  obtain ⟨i, hi, -⟩ := servers_service hsv
  obtain ⟨sv, hsv2⟩ := service_exists hi
  unfold tablesOf
  rw [hi, Option.getD_some]
  exact same_handler hs _ hsv2 hi hsv

/-! ### What may still begin -/

/-- The iterations that an action has begun and those it may still begin once it is cancelled. -/
def allot (k : Job) (a : Nat) (x : ActionEntry) : Int :=
  match k.under a with
  | none => (Iterations.params x.proto 0 false).copies
  | some u => allStarts u.state.log + ((Iterations.params x.proto 0 false).copies - u.state.issued) +
      Iterations.restarts u.state.threads + Iterations.readsNo u.state.threads

theorem copies_params (k : Job) (x : ActionEntry) (u : Under) :
    (k.params x u).copies = (Iterations.params x.proto 0 false).copies := rfl

theorem allot_le (hk : Fine w k) {x : ActionEntry} (hx : k.entry.listActions[a]? = some x) :
    allot k a x ≤ loopIterations k a + (Iterations.params x.proto 0 false).copies := by
  unfold allot loopIterations
  cases hu : k.under a with
  | none => simp
  | some u =>
    dsimp only
    obtain ⟨x', g1, g2, -⟩ := hk.under a u hu
    rw [hx] at g1
    cases g1
    have h1 := g2.counts.pend
    have h2 := g2.window.pend
    have h3 := Iterations.readsNo_le u.state.threads
    rw [copies_params] at h1 h2
    omega

theorem le_allot (hk : Fine w k) {x : ActionEntry} (hx : k.entry.listActions[a]? = some x)
    (hpos : 0 < (Iterations.params x.proto 0 false).copies) :
    (loopIterations k a : Int) ≤ allot k a x := by
  unfold allot loopIterations
  cases hu : k.under a with
  | none =>
    dsimp only
    omega
  | some u =>
    dsimp only
    obtain ⟨x', g1, g2, -⟩ := hk.under a u hu
    rw [hx] at g1
    cases g1
    have h1 := g2.counts.issued.2
    rw [copies_params] at h1
    omega

/-- Cancelled, an action begins what it may and no more. -/
theorem allot_went {e : Env} (hs : SoundTest e w) (hp : CancelTest w.cfg) (hk : Fine w k)
    (hc : ∀ u, k.under a = some u → u.state.canceled = true) {x : ActionEntry}
    (hx : k.entry.listActions[a]? = some x) (h : Went k k' a) : allot k' a x ≤ allot k a x := by
  rcases h with h | ⟨x', hx', ⟨h1, now, spread, st, h2, h3⟩ | ⟨u, st, h1, h2, h3⟩⟩
  · unfold allot
    rw [h]
    exact Int.le_refl _
  · rw [hx] at hx'
    cases hx'
    obtain ⟨-, g1, -, g2, g3, -⟩ := steady_initiate hp (proto_mem hs hk.entry hx) h2
    unfold allot
    rw [h1, h3]
    dsimp only
    rw [g1, g2, g3]
    simp [allStarts, Iterations.restarts, Iterations.readsNo]
  · rw [hx] at hx'
    cases hx'
    obtain ⟨x', g1, g2, -⟩ := hk.under a u h1
    rw [hx] at g1
    cases g1
    unfold allot
    rw [h1, h2]
    dsimp only
    rcases h3 with h3 | h3
    · have := Iterations.cancel_work g2.single g2.quiet (hc u h1) h3
      rw [copies_params] at this
      exact this
    · obtain ⟨-, e1, -, -, e2, e3, -⟩ := Iterations.idle_frame h3
      rw [e1, e2, e3]
      exact Int.le_refl _

theorem allot_tell {x : ActionEntry} : allot (LoopsCancel.tell k) a x = allot k a x := by
  unfold allot LoopsCancel.tell
  dsimp only
  cases k.under a <;> rfl

theorem allot_none {x : ActionEntry} (h : k.under a = none) :
    allot k a x = (Iterations.params x.proto 0 false).copies := by
  unfold allot
  rw [h]

end Distbench.Loops

namespace Distbench.LoopsCancel
open Tables Services Whole Spec Loops

variable {w : Test}

/-- A cancelled engine has told all its runs, and a run that was told is on a cancelled engine. -/
structure Flags (s : State) : Prop where
  told : ∀ (j : Nat) k, s.base.jobs[j]? = some k → s.cancelled k.engine = true →
    k.main.canceled = true ∧ ∀ a u, k.under a = some u → u.state.canceled = true
  flag : ∀ (j : Nat) k, s.base.jobs[j]? = some k → k.main.canceled = true → s.cancelled k.engine = true

theorem settle_flags (s : State) (b : Loops.State) : Flags (settle s b) := by
  have hget : ∀ (j : Nat) k, (settle s b).base.jobs[j]? = some k → ∃ k0, b.jobs[j]? = some k0 ∧
      k0.engine = k.engine ∧ k = if (settle s b).cancelled k0.engine then tell k0 else k0 := by
    intro j k hj
    have hj : (b.jobs.map fun k => if (settle s b).cancelled k.engine then tell k else k)[j]? = some k := hj
    rw [List.getElem?_map] at hj
    obtain ⟨k0, h1, h2⟩ := Option.map_eq_some_iff.1 hj
    refine ⟨k0, h1, ?_, h2.symm⟩
    rw [← h2]
    split <;> rfl
  constructor
  · intro j k hj hc
    obtain ⟨k0, h1, h2, h3⟩ := hget j k hj
    rw [← h2] at hc
    rw [if_pos hc] at h3
    subst h3
    refine ⟨rfl, fun a u hu => ?_⟩
    obtain ⟨v, -, rfl⟩ := Option.map_eq_some_iff.1 hu
    rfl
  · intro j k hj hc
    obtain ⟨k0, h1, h2, h3⟩ := hget j k hj
    rw [← h2]
    split at h3
    · assumption
    · subst h3
      show (s.cancelled k.engine || b.jobs.any fun k' => k'.engine = k.engine && k'.main.canceled) = true
      rw [Bool.or_eq_true]
      right
      rw [List.any_eq_true]
      exact ⟨k, List.mem_of_getElem? h1, by simp [hc]⟩

theorem reach_flags {s : State} (h : Reach w s) : Flags s := by
  induction h with
  | @start b h =>
    constructor
    · intro j k _ hc
      cases hc
    · intro j k hj hc
      obtain ⟨h1, h2, h3⟩ := h
      have hlt : j < (Whole.roots w.cfg).length := by rw [← h2]; exact (List.getElem?_eq_some_iff.1 hj).1
      obtain ⟨k', g1, g2⟩ := h3 j _ (List.getElem?_eq_getElem hlt)
      rw [hj] at g1
      cases g1
      obtain ⟨entry, draw, now, warmup, -, rfl⟩ := g2
      cases hc
  | step _ h2 ih =>
    cases h2 with
    | run _ _ => exact settle_flags _ _
    | cancel e => exact settle_flags _ _
    | expire _ => exact ⟨ih.told, ih.flag⟩
    | refuse _ _ _ => exact ⟨ih.told, ih.flag⟩

theorem step_cancelled {s s' : State} (h : Step w s s') {e : Nat} (hc : s.cancelled e = true) :
    s'.cancelled e = true := by
  cases h with
  | run _ _ => simp [settle, hc]
  | cancel e => simp [settle, hc]
  | expire _ => exact hc
  | refuse _ _ _ => exact hc

theorem step_refusing {s s' : State} (h : Step w s s') {e : Nat} (hc : s.refusing e = true) :
    s'.refusing e = true := by
  cases h with
  | run _ _ => exact hc
  | cancel e => exact hc
  | expire _ => simp [hc]
  | refuse _ _ _ => exact hc

theorem _root_.Distbench.Spec.CLeads.reach {s s' : State} (h : CLeads w s s') (hr : Reach w s) : Reach w s' := by
  induction h with
  | refl => exact hr
  | step _ h2 ih => exact .step ih h2

theorem _root_.Distbench.Spec.CLeads.trans {s s' s'' : State} (h : CLeads w s s') (h' : CLeads w s' s'') :
    CLeads w s s'' := by
  induction h' with
  | refl => exact h
  | step _ h2 ih => exact .step ih h2

/-- An RPC that is back was handled, or there was nothing to run, or its target does not handle RPCs any
more. -/
def Back (w : Test) (s : State) : Prop :=
  ∀ (c : Nat) r, s.base.calls[c]? = some r → 3 ≤ stageNumber r.stage →
    (∃ k ∈ s.base.jobs, k.parent = .call c) ∨ handlerOf (tablesOf w r.target) r.rpc = none ∨
      s.refusing r.target = true

theorem change_parent {s s' : Loops.State} (h : Change w s s') {c : Nat}
    (hk : ∃ k ∈ s.jobs, k.parent = .call c) : ∃ k ∈ s'.jobs, k.parent = .call c := by
  obtain ⟨k, h1, h2⟩ := hk
  obtain ⟨j, hj⟩ := List.getElem?_of_mem h1
  obtain ⟨k', g1, -, -, g2, -⟩ := h.job j k hj
  exact ⟨k', List.mem_of_getElem? g1, by rw [g2]; exact h2⟩

theorem back_base {s : Loops.State} {s' : Loops.State} {f : Nat → Bool} (hP : Placed w s)
    (hA : Active w s)
    (hB : ∀ (c : Nat) r, s.calls[c]? = some r → 3 ≤ stageNumber r.stage →
      (∃ k ∈ s.jobs, k.parent = .call c) ∨ handlerOf (tablesOf w r.target) r.rpc = none ∨ f r.target = true)
    (h : (∃ j k k' ext new, Turn w s s' j k k' ext new) ∨ (∃ c r st, Pass w s s' c r st ∧
        (st = .answered → handlerOf (tablesOf w r.target) r.rpc = none ∨ f r.target = true)) ∨
      ∃ c r l k', Serve w s s' c r l k') :
    ∀ (c : Nat) r, s'.calls[c]? = some r → 3 ≤ stageNumber r.stage →
      (∃ k ∈ s'.jobs, k.parent = .call c) ∨ handlerOf (tablesOf w r.target) r.rpc = none ∨ f r.target = true := by
  rcases h with ⟨j, k, k', xs, rs, h⟩ | ⟨c0, r0, st, h, ha⟩ | ⟨c0, r0, l, k', h⟩
  · intro c r' hc hst
    have hch := change_turn h
    rcases h.callGet hc with ⟨r, h1, h2⟩ | ⟨-, h1⟩
    · split at h2
      · rename_i hh
        exact .inl (change_parent hch ⟨k, List.mem_of_getElem? h.old, hh.2⟩)
      · subst h2
        rcases hB c r' h1 hst with h3 | h3
        · exact .inl (change_parent hch h3)
        · exact .inr h3
    · rw [(h.new r' h1).2.1] at hst
      simp [stageNumber] at hst
  · intro c r' hc hst
    rw [h.jobs]
    rw [h.calls] at hc
    rcases set_get hc with ⟨rfl, rfl⟩ | ⟨-, h1⟩
    · dsimp only at hst ⊢
      rcases h.how with ⟨-, h2, -⟩ | ⟨-, h2⟩ | ⟨h1, h2⟩
      · rw [h2] at hst
        simp [stageNumber] at hst
      · exact .inr (ha h2)
      · exact hB c r0 h.old (by rw [h1]; simp [stageNumber])
    · exact hB c r' h1 hst
  · intro c r' hc hst
    have hch := change_serve hP h
    rw [h.calls] at hc
    rcases set_get hc with ⟨rfl, rfl⟩ | ⟨-, h1⟩
    · simp [stageNumber] at hst
    · rcases hB c r' h1 hst with h3 | h3
      · exact .inl (change_parent hch h3)
      · exact .inr h3

theorem back_told {s : State} {b : Loops.State} (hB : ∀ (c : Nat) r, b.calls[c]? = some r → 3 ≤ stageNumber r.stage →
      (∃ k ∈ b.jobs, k.parent = .call c) ∨ handlerOf (tablesOf w r.target) r.rpc = none ∨
        s.refusing r.target = true) : Back w (settle s b) := by
  intro c r hc hst
  rcases hB c r hc hst with h | h
  · exact .inl (change_parent (w := w) (change_told (settle_told s b)) h)
  · exact .inr h

theorem reach_back {e : Env} {s : State} (hs : SoundTest e w) (hp : CancelTest w.cfg) (h : Reach w s) : Back w s := by
  induction h with
  | @start b h =>
    intro c r hc
    have hc : b.calls[c]? = some r := hc
    rw [h.1] at hc
    simp at hc
  | @step s s' h1 h2 ih =>
    obtain ⟨hP, hA⟩ := reach_inv hs hp h1
    cases h2 with
    | @run b g1 g2 =>
      refine back_told (back_base hP hA ih ?_)
      rcases step_shape hs hp hA.fine g1 with h | ⟨c, r, st, h3, h4⟩ | h
      · exact .inl h
      · exact .inr (.inl ⟨c, r, st, h3, fun hh => .inl (h4 hh)⟩)
      · exact .inr (.inr h)
    | cancel e => exact back_told ih
    | expire hc =>
      intro c r hc hst
      rcases ih c r hc hst with h | h | h
      · exact .inl h
      · exact .inr (.inl h)
      · exact .inr (.inr (by simp [h]))
    | @refuse c call hc hst hr =>
      exact back_base (s' := { s.base with calls := s.base.calls.set c { call with stage := .answered } }) hP hA ih
        (.inr (.inl ⟨c, call, .answered, ⟨hc, rfl, rfl, .inr (.inl ⟨hst, rfl⟩)⟩, fun _ => .inr hr⟩))

/-- How many further iterations an action may begin. -/
theorem leads_allot {e : Env} {s0 s : State} (hs : SoundTest e w) (hp : CancelTest w.cfg) (hr : Reach w s0)
    (h : CLeads w s0 s) : ∀ (j : Nat) k, s.base.jobs[j]? = some k → s0.cancelled k.engine = true →
      ∀ a x, k.entry.listActions[a]? = some x →
        allot k a x ≤ iterationsOf s0.base j a + (Iterations.params x.proto 0 false).copies := by
  induction h with
  | refl =>
    intro j k hj _ a x hx
    have := allot_le ((reach_inv hs hp hr).2.fine j k hj) hx
    unfold iterationsOf
    rw [hj]
    exact this
  | @step s1 s2 h1 h2 ih =>
    have hr1 := h1.reach hr
    obtain ⟨hP, hA⟩ := reach_inv hs hp hr1
    have hF := reach_flags hr1
    have hcan : ∀ e, s0.cancelled e = true → s1.cancelled e = true := by
      intro e he
      clear ih h2 hr1 hP hA hF
      induction h1 with
      | refl => exact he
      | step _ h4 ih => exact step_cancelled h4 ih
    have hmove : ∀ b, Move w s1.base b → ∀ (j : Nat) k, b.jobs[j]? = some k → s0.cancelled k.engine = true →
        ∀ a x, k.entry.listActions[a]? = some x →
          allot k a x ≤ iterationsOf s0.base j a + (Iterations.params x.proto 0 false).copies := by
      intro b hm j k hj hc a x hx
      have hpos : ∀ y : Job, y.under a = none →
          allot y a x ≤ iterationsOf s0.base j a + (Iterations.params x.proto 0 false).copies := by
        intro y hy
        rw [allot_none hy]
        omega
      cases hm with
      | @turn j0 k0 k1 xs rs h =>
        rcases h.get hj with ⟨rfl, rfl⟩ | ⟨-, g1⟩ | ⟨rfl, g1⟩
        · rw [h.engine] at hc
          rw [h.entry] at hx
          have g1 := ih j k0 h.old hc a x hx
          have g2 := allot_went hs hp (hA.fine j k0 h.old)
            ((hF.told j k0 h.old (hcan _ hc)).2 a) hx (h.went a)
          omega
        · exact ih j k g1 hc a x hx
        · obtain ⟨-, a', n', l, y, g2, -⟩ := h.ext k g1
          obtain ⟨entry, draw, now, warmup, -, rfl⟩ := g2
          exact hpos _ rfl
      | @pass c r st h =>
        rw [h.jobs] at hj
        exact ih j k hj hc a x hx
      | @serve c r l k1 h =>
        rw [h.jobs] at hj
        rcases add_get hj with g1 | ⟨-, rfl⟩
        · exact ih j k g1 hc a x hx
        · obtain ⟨entry, draw, now, warmup, -, rfl⟩ := h.opens
          exact hpos _ rfl
      | told h =>
        obtain ⟨y, g1, rfl | rfl⟩ := h.get hj
        · exact ih j k g1 hc a x hx
        · rw [allot_tell]
          exact ih j y g1 hc a x hx
    rcases step_moves hs hp hA h2 with g | ⟨b, g1, g2 | g2⟩
    · rw [g]
      exact ih
    · rw [g2]
      exact hmove b g1
    · intro j k hj hc a x hx
      obtain ⟨y, f1, rfl | rfl⟩ := g2.get hj
      · exact hmove b g1 j k f1 hc a x hx
      · rw [allot_tell]
        exact hmove b g1 j y f1 hc a x hx

end Distbench.LoopsCancel

namespace Distbench.LoopsCancel
open Tables Services Whole Spec Loops

theorem count_le_one {α : Type} {p : α → Bool} {l : List α}
    (h : ∀ (i i' : Nat) (x y : α), l[i]? = some x → l[i']? = some y → p x = true → p y = true → i = i') :
    l.countP p ≤ 1 := by
  induction l with
  | nil => simp
  | cons x l ih =>
    have ih := ih (fun i i' y z hy hz hpy hpz => by
      have := h (i + 1) (i' + 1) y z hy hz hpy hpz
      omega)
    rw [List.countP_cons]
    split
    · rename_i hpx
      have : l.countP p = 0 := by
        rw [List.countP_eq_zero]
        intro y hy hpy
        obtain ⟨i, hi⟩ := List.getElem?_of_mem hy
        have := h 0 (i + 1) x y rfl hi hpx hpy
        omega
      omega
    · omega

/-- An engine refuses RPCs only if it was cancelled. -/
theorem refusing_cancelled {w : Test} {s : State} (h : Reach w s) {e : Nat} (hr : s.refusing e = true) :
    s.cancelled e = true := by
  induction h with
  | start _ => cases hr
  | step _ h2 ih =>
    cases h2 with
    | run _ _ => exact (show (_ || _) = true by rw [ih hr]; rfl)
    | cancel e' => exact (show (_ || _) = true by simp [ih hr])
    | @expire e' hc =>
      simp only [Bool.or_eq_true, beq_iff_eq] at hr
      rcases hr with rfl | hr
      · exact hc
      · exact ih hr
    | refuse _ _ _ => exact ih hr

end Distbench.LoopsCancel
