import Verif.Lemmas.LoopsCancelPot
import Verif.Lemmas.WholeText

/-! Whole tests that are cancelled: what they never run into. -/

namespace Distbench.Loops
open Tables Services Whole Spec

variable {w : Test} {s s' : State} {j a : Nat} {k k' : Job} {e : Env} {fan : Str → Nat}

theorem list_work {f g : Nat → Nat} {x : ActionEntry} {l : Nat} (h : toWork f x = .list l) : toWork g x = .list l := by
  unfold toWork at h ⊢
  split at h
  · cases h
  · split at h
    · rename_i h1 h2
      rw [if_neg h1, if_pos h2]
      exact h
    · split at h <;> cases h

/-- Engines run only lists that they may run. -/
theorem may_run (hs : SoundTest e w) (hf : FanOuts w.cfg fan) (hP : Placed w s) (hA : Active w s) (n : Nat) :
    ∀ (i : Nat) (k : Job), i < n → s.jobs[i]? = some k →
      MayRun (globalConfig w (fanAt w.cfg fan)) k.engine k.list := by
  induction n with
  | zero => exact fun i k hi => absurd hi (by omega)
  | succ n ih =>
    intro i k hi hk
    cases hp : k.parent with
    | root => exact .root (hP.roots i k hk hp)
    | call c =>
      obtain ⟨r, h1, -, h2, h3⟩ := hP.served i k hk c hp
      rw [call_handler hs hf hP hA h1] at h3
      rw [h2]
      exact .handler (call_server hs hf hP hA h1) h3
    | action j' a n' =>
      obtain ⟨h1, k0, y, h2, h3, h4, h5⟩ := hP.nested i k hk j' a n' hp
      have hm := ih j' k0 (by omega) h2
      rw [h3] at hm
      refine .nested (x := toAction (fanAt w.cfg fan) y) hm ?_ (list_work h5)
      exact List.mem_map_of_mem (List.mem_of_getElem? (entry_zero hs (hA.fine j' k0 h2).entry h4))

theorem may_run_job (hs : SoundTest e w) (hf : FanOuts w.cfg fan) (hP : Placed w s) (hA : Active w s)
    (hj : s.jobs[j]? = some k) : MayRun (globalConfig w (fanAt w.cfg fan)) k.engine k.list :=
  may_run hs hf hP hA (j + 1) j k (by omega) hj

end Distbench.Loops

namespace Distbench.LoopsCancel
open Tables Services Whole Spec Loops

variable {w : Test} {s s' s0 : State} {j a : Nat} {k k' : Job} {e : Env} {fan : Str → Nat}

/-- Each action does something. -/
def Kinds (cfg : Config) : Prop := ∀ a ∈ cfg.actions, a.kind = .none → a.responsePayloadOverride.isSome

theorem reach_all_run (hs : SoundTest e w) (hp : CancelTest w.cfg) (hkd : Kinds w.cfg) (hf : FanOuts w.cfg fan)
    (hc : ClientsDeclared w.cfg) (h : Reach w s) (hj : s.base.jobs[j]? = some k) :
    ActionList.AllRun (k.ctx w) := by
  obtain ⟨hP, hA⟩ := reach_inv hs hp h
  exact all_run_of hs hp.activities hkd hf hc (hA.fine j k hj).entry (may_run_job hs hf hP hA hj)

theorem tidy_tell (h : Tidy w k) : Tidy w (tell k) := ⟨h.scan, h.crash, h.stuck⟩

theorem settle_tidy {b : Loops.State} (h : ∀ k ∈ b.jobs, Tidy w k) : ∀ k ∈ (settle s b).base.jobs, Tidy w k := by
  intro k hk
  obtain ⟨y, hy, rfl⟩ := List.mem_map.1 hk
  split
  · exact tidy_tell (h y hy)
  · exact h y hy

theorem reach_tidy (hs : SoundTest e w) (hp : CancelTest w.cfg) (hkd : Kinds w.cfg) (hf : FanOuts w.cfg fan)
    (hc : ClientsDeclared w.cfg) (h : Reach w s) : ∀ k ∈ s.base.jobs, Tidy w k := by
  induction h with
  | start h =>
    intro k hk
    obtain ⟨h1, h2, h3⟩ := h
    obtain ⟨i, hi⟩ := List.getElem?_of_mem hk
    have hlt := (List.getElem?_eq_some_iff.1 hi).1
    dsimp only at hlt hi
    obtain ⟨k', h4, h5⟩ := h3 i _ (List.getElem?_eq_getElem (by omega))
    rw [hi] at h4
    cases h4
    exact tidy_opens h5
  | step hr hst ih =>
    cases hst with
    | run g1 g2 => exact settle_tidy (tidy_step (fun j k hj => reach_all_run hs hp hkd hf hc hr hj) ih g1)
    | cancel e => exact settle_tidy ih
    | expire _ => exact ih
    | refuse _ _ _ => exact ih

/-- Engines that run lists belong to instances. -/
theorem reach_service (hs : SoundTest e w) (hp : CancelTest w.cfg) (hf : FanOuts w.cfg fan) (h : Reach w s)
    (hj : s.base.jobs[j]? = some k) : ∃ i, serviceOf w.cfg k.engine = some i := by
  obtain ⟨hP, hA⟩ := reach_inv hs hp h
  obtain ⟨i, sv, al, h1, -⟩ := mayRun_names hs (may_run_job hs hf hP hA hj)
  exact ⟨i, h1⟩

theorem step_same (hs : SoundTest e w) (hp : CancelTest w.cfg) (h : Reach w s) (hst : Step w s s')
    (hj : s.base.jobs[j]? = some k) : ∃ k', s'.base.jobs[j]? = some k' ∧ SameJob k k' := by
  obtain ⟨hP, hA⟩ := reach_inv hs hp h
  have hmove : ∀ {s s' : Loops.State} {k : Job}, Placed w s → Move w s s' → s.jobs[j]? = some k →
      ∃ k', s'.jobs[j]? = some k' ∧ SameJob k k' := by
    intro s s' k hP h hj
    cases h with
    | turn h => exact (change_turn h).job j k hj
    | pass h => exact (change_pass h).job j k hj
    | serve h => exact (change_serve hP h).job j k hj
    | told h => exact (change_told (w := w) h).job j k hj
  rcases step_moves hs hp hA hst with h1 | ⟨b, h1, h2⟩
  · rw [h1]
    exact ⟨k, hj, SameJob.refl k⟩
  · obtain ⟨k1, g1, g2, g3, g4, g5⟩ := hmove hP h1 hj
    rcases h2 with h2 | h2
    · rw [h2]
      exact ⟨k1, g1, g2, g3, g4, g5⟩
    · obtain ⟨k2, f1, f2, f3, f4, f5⟩ := hmove (move_keeps hP hA h1).1 (.told h2) g1
      exact ⟨k2, f1, f2.trans g2, f3.trans g3, f4.trans g4, f5.trans g5⟩

theorem leads_same (hs : SoundTest e w) (hp : CancelTest w.cfg) (hr : Reach w s0) (h : CLeads w s0 s)
    (hj : s0.base.jobs[j]? = some k) : ∃ k', s.base.jobs[j]? = some k' ∧ SameJob k k' := by
  induction h with
  | refl => exact ⟨k, hj, SameJob.refl k⟩
  | step h1 h2 ih =>
    obtain ⟨k1, g1, g2, g3, g4, g5⟩ := ih
    obtain ⟨k2, f1, f2, f3, f4, f5⟩ := step_same hs hp (h1.reach hr) h2 g1
    exact ⟨k2, f1, f2.trans g2, f3.trans g3, f4.trans g4, f5.trans g5⟩

theorem leads_cancelled (h : CLeads w s s') {i : Nat} (hc : s.cancelled i = true) : s'.cancelled i = true := by
  induction h with
  | refl => exact hc
  | step _ h2 ih => exact step_cancelled h2 ih

/-- Cancelled, no number of iterations gets to its end. -/
theorem leads_room (hs : SoundTest e w) (hp : CancelTest w.cfg) (hf : FanOuts w.cfg fan) (hr : Reach w s0)
    (hcan : AllCancelled w.cfg s0) (hroom : RoomLeft w.cfg s0.base) (h : CLeads w s0 s)
    (hj : s.base.jobs[j]? = some k) {u : Under} {x : ActionEntry} (hu : k.under a = some u)
    (hx : k.entry.listActions[a]? = some x) :
    u.state.next ≠ (k.params x u).limit → 0 < Iterations.readsNo u.state.threads → u.state.next + 1 < 2 ^ 31 := by
  intro hne hno
  have hA := (reach_inv hs hp (h.reach hr)).2
  have hk := hA.fine j k hj
  obtain ⟨x', g1, g2, -⟩ := hk.under a u hu
  rw [hx] at g1
  cases g1
  have hm := proto_mem hs hk.entry hx
  have hlim : u.state.next ≤ (k.params x u).limit := g2.counts.lim
  have hl : (k.params x u).limit = match x.proto.iterations with
    | none => 1
    | some i => i.maxIterationCount.getD (2 ^ 63 - 1) := rfl
  have hbig : (∃ it, x.proto.iterations = some it ∧ it.maxIterationCount = none) ∨ (k.params x u).limit < 2 ^ 31 := by
    rw [hl]
    cases hi : x.proto.iterations with
    | none => right; exact show (1 : Int) < 2 ^ 31 by decide
    | some it =>
      obtain ⟨-, h2⟩ := hp.limited _ hm it hi
      cases hc : it.maxIterationCount with
      | none => exact .inl ⟨it, rfl, hc⟩
      | some n =>
        rw [hc] at h2
        right
        dsimp only
        rw [hc]
        exact h2.2
  rcases hbig with hbig | hbig
  · obtain ⟨i, hi⟩ := reach_service hs hp hf (h.reach hr) hj
    have h1 := leads_allot hs hp hr h j k hj (hcan _ i hi) a x hx
    obtain ⟨-, -, q2, -⟩ := closed_params 0 false (hp.closedLoops _ hm) (hp.limited _ hm)
    have h2 : (iterationsOf s0.base j a : Int) + parallelOf x.proto < 2 ^ 31 := by
      have hpar : (parallelOf x.proto : Int) < 2 ^ 31 := by
        obtain ⟨it, h3, h4⟩ := hbig
        obtain ⟨h5, h6⟩ := hp.limited _ hm it h3
        rw [h4] at h6
        unfold parallelOf
        rw [h3]
        dsimp only at h6 ⊢
        omega
      unfold iterationsOf
      cases h0 : s0.base.jobs[j]? with
      | none => simpa using hpar
      | some k0 =>
        dsimp only
        cases hu0 : k0.under a with
        | none =>
          unfold loopIterations
          rw [hu0]
          simpa using hpar
        | some u0 =>
          obtain ⟨k1, f1, f2, f3, f4, f5⟩ := leads_same hs hp hr h h0
          rw [hj] at f1
          cases f1
          obtain ⟨-, al, name, b1, b2, b3⟩ := entry_action hs hk.entry hx
          have := (hroom k0 (List.mem_of_getElem? h0) a x.proto u0 ⟨al, name, by rw [← f3]; exact b1, b2, b3⟩ hu0).2 hbig
          omega
    have h3 := g2.counts.total
    unfold allot at h1
    rw [hu] at h1
    dsimp only at h1
    rw [copies_params] at h3
    omega
  · omega

theorem leads_fit (hs : SoundTest e w) (hp : CancelTest w.cfg) (hf : FanOuts w.cfg fan) (hr : Reach w s0)
    (hcan : AllCancelled w.cfg s0) (hroom : RoomLeft w.cfg s0.base) (h : CLeads w s0 s) : NumbersFit s.base := by
  induction h with
  | refl =>
    intro k hk a u hu
    obtain ⟨j, hj⟩ := List.getElem?_of_mem hk
    obtain ⟨x, hx, -⟩ := ((reach_inv hs hp hr).2.fine j k hj).under a u hu
    exact (hroom k hk a x.proto u (entry_action hs ((reach_inv hs hp hr).2.fine j k hj).entry hx).2 hu).1
  | @step s1 s2 h1 h2 ih =>
    obtain ⟨hP, hA⟩ := reach_inv hs hp (h1.reach hr)
    have htell : ∀ {y : Job}, (∀ a u, y.under a = some u → u.state.overflow = false) →
        ∀ a u, (tell y).under a = some u → u.state.overflow = false := by
      intro y hy a u hu
      obtain ⟨v, hv, rfl⟩ := Option.map_eq_some_iff.1 hu
      exact hy a v hv
    have hmove : ∀ b, Move w s1.base b → NumbersFit b := by
      intro b hm k hk a u hu
      obtain ⟨j, hj⟩ := List.getElem?_of_mem hk
      cases hm with
      | @turn j0 k0 k1 xs rs h =>
        rcases h.get hj with ⟨rfl, rfl⟩ | ⟨-, g1⟩ | ⟨rfl, g1⟩
        · have hold := ih k0 (List.mem_of_getElem? h.old)
          rcases h.went a with hw | ⟨x, hx, ⟨g1, now, spread, st, g2, g3⟩ | ⟨v, st, g1, g2, g3⟩⟩
          · rw [hw] at hu
            exact hold a u hu
          · rw [g3] at hu
            cases hu
            exact (steady_initiate hp (proto_mem hs (hA.fine _ _ h.old).entry hx) g2).2.2.2.2.2.2
          · rw [g2] at hu
            cases hu
            dsimp only
            have hov := hold a v g1
            rcases g3 with g3 | g3
            · obtain ⟨x', f1, f2, -⟩ := (hA.fine _ _ h.old).under a v g1
              rw [hx] at f1
              cases f1
              have hrm := leads_room hs hp hf hr hcan hroom h1 h.old g1 hx
              cases g3 with
              | overflow q1 q2 q3 =>
                exfalso
                rename_i l1 l2 m b
                refine Iterations.fits_some f2 ?_ ?_ q3
                · rw [q2, Iterations.reads_append]
                  simp only [Iterations.reads]
                  omega
                · intro hb hne
                  refine hrm hne ?_
                  rw [q2, hb, Iterations.readsNo_append]
                  simp only [Iterations.readsNo]
                  omega
              | tickOverflow gap _ q2 => rw [f2.single] at q2; cases q2
              | @locked l1 l2 n b next finished d q1 q2 q3 => cases d <;> exact hov
              | _ => exact hov
            · rw [(Iterations.idle_frame g3).1]
              exact hov
        · exact ih k (List.mem_of_getElem? g1) a u hu
        · obtain ⟨-, a', n', l, y, g2, -⟩ := h.ext k g1
          obtain ⟨entry, draw, now, warmup, -, rfl⟩ := g2
          cases hu
      | @pass c r st h =>
        rw [h.jobs] at hk
        exact ih k hk a u hu
      | @serve c r l k1 h =>
        rw [h.jobs] at hj
        rcases add_get hj with g1 | ⟨-, rfl⟩
        · exact ih k (List.mem_of_getElem? g1) a u hu
        · obtain ⟨entry, draw, now, warmup, -, rfl⟩ := h.opens
          cases hu
      | told h =>
        obtain ⟨y, g1, rfl | rfl⟩ := h.get hj
        · exact ih k (List.mem_of_getElem? g1) a u hu
        · exact htell (ih y (List.mem_of_getElem? g1)) a u hu
    rcases step_moves hs hp hA h2 with g | ⟨b, g1, g2 | g2⟩
    · rw [g]
      exact ih
    · rw [g2]
      exact hmove b g1
    · intro k hk a u hu
      obtain ⟨j, hj⟩ := List.getElem?_of_mem hk
      obtain ⟨y, f1, rfl | rfl⟩ := g2.get hj
      · exact hmove b g1 k (List.mem_of_getElem? f1) a u hu
      · exact htell (hmove b g1 y (List.mem_of_getElem? f1)) a u hu

end Distbench.LoopsCancel
