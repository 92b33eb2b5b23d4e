import Verif.Lemmas.LoopsText
import Verif.Lemmas.LoopsGlide
import Verif.Lemmas.LoopsThread
import Verif.Lemmas.Progress

/-! What a test with sensible parts never runs into. -/

namespace Distbench.Loops
open Tables Services Whole Spec

variable {w : Test} {s s' : State} {j : Nat} {k : Job} {ops : List Traffic.TOp} {t : Traffic.TState}

theorem _root_.Distbench.Spec.Leads.trans {s1 : State} (h : Leads w s s1) (h' : Leads w s1 s') : Leads w s s' := by
  induction h' with
  | refl => exact h
  | step _ hs ih => exact .step ih hs

theorem _root_.Distbench.Spec.Leads.reach (hr : Reach w s) (h : Leads w s s') : Reach w s' := by
  induction h with
  | refl => exact hr
  | step _ hs ih => exact .step ih hs

theorem leads_next {e : Env} {fan : Str → Nat} (hs : SoundTest e w) (hp : LoopTest w.cfg) (hf : FanOuts w.cfg fan)
    (h : Sim w s ops t) (hl : Leads w s s') : Next w s ops s' := by
  induction hl with
  | refl => exact ⟨ops, t, h, .inl ⟨rfl, rfl⟩⟩
  | step _ hst ih =>
    obtain ⟨ops1, t1, h1, h2⟩ := ih
    obtain ⟨ops2, t2, h3, h4⟩ := sim_step hs hp hf h1 hst
    refine ⟨ops2, t2, h3, ?_⟩
    rcases h2 with ⟨rfl, e1⟩ | h2
    · rcases h4 with ⟨rfl, e2⟩ | h4
      · exact .inl ⟨rfl, e2.trans e1⟩
      · exact .inr h4
    · rcases h4 with ⟨rfl, e2⟩ | h4
      · exact .inr h2
      · exact .inr (Nat.lt_trans h2 h4)

theorem global_inv {e : Env} {fan : Str → Nat} (hs : SoundTest e w) (hf : FanOuts w.cfg fan) (h : Sim w s ops t) :
    Traffic.Inv (globalConfig w (fanAt w.cfg fan)) (fun _ => False) (abs s) := by
  have := Traffic.inv_timed (truns_global hs hf h.runs)
  rw [h.base] at this
  exact this

/-- Every action of a list that an engine runs gets under way. -/
theorem all_run_of {e : Env} {F : Nat → Nat} {fan : Str → Nat} (hs : SoundTest e w)
    (hact : ∀ a ∈ w.cfg.actions, ∀ n, a.kind ≠ .activity n)
    (hkinds : ∀ a ∈ w.cfg.actions, a.kind = .none → a.responsePayloadOverride.isSome)
    (hf : FanOuts w.cfg fan) (hc : ClientsDeclared w.cfg)
    (hent : (tablesOf w k.engine).actionLists[k.list]? = some k.entry)
    (hm : MayRun (globalConfig w F) k.engine k.list) : ActionList.AllRun (k.ctx w) := by
  intro i x hx
  have hx : k.entry.listActions[i]? = some x := hx
  obtain ⟨svc, ht⟩ := tables_loaded hs k.engine
  have hld : Spec.Loaded w.cfg svc (k.ctx w) := ⟨e, _, k.list, ht, hent, rfl⟩
  have hz := entry_zero hs hent hx
  obtain ⟨al, a1, a2, a3, -, a5, -⟩ := entry_at hs hz
  rw [ActionList.loaded_initiate hld hx]
  cases hk : x.proto.kind with
  | none =>
    dsimp only
    obtain ⟨-, -, -, h4⟩ := ActionList.loaded_entry ht hent hx
    rw [if_pos (h4 (hkinds _ a3 hk))]
    exact ⟨_, rfl⟩
  | actionList n => exact ⟨_, rfl⟩
  | replay n => exact ⟨_, rfl⟩
  | activity n => exact absurd hk (hact _ a3 n)
  | rpc n =>
    dsimp only
    obtain ⟨q, si, r, sv, b1, b2, b3, b4, b5, b6⟩ := a5 n hk
    obtain ⟨i', s0, al', m1, m2, m3, m4⟩ := mayRun_names hs hm
    rw [a1] at m3
    cases m3
    have hcl := hc s0.name al x.proto r m4 (List.mem_of_getElem? a1) a3 (List.mem_of_getElem? a2)
      (List.mem_of_getElem? b3) (by rw [hk, b4])
    have htab : tablesOf w k.engine = w.tables i' := by
      unfold tablesOf
      rw [m1, Option.getD_some]
    have hlt : q < (w.tables i').rpcTable.length := by
      rw [rpcTable_length (hs.tables i' s0 m2)]
      exact (List.getElem?_eq_some_iff.1 b3).1
    have hent' := List.getElem?_eq_getElem hlt
    obtain ⟨spec, c1, -, -, c4, -⟩ := rpc_entry hs m2 hent'
    rw [b3] at c1
    cases c1
    rw [if_pos]
    · exact ⟨_, rfl⟩
    · refine ⟨⟨_, ?_, c4.2 hcl⟩, ?_⟩
      · show (tablesOf w k.engine).rpcTable[x.rpcIndex.toNat]? = _
        rw [htab, b1, Int.toNat_natCast]
        exact hent'
      · show decide (0 < serverCount w.cfg x.rpcServiceIndex) = true
        obtain ⟨s1, d1, d2, d3, -⟩ := hf r (List.mem_of_getElem? b3)
        obtain ⟨m, hmm⟩ := List.getElem?_of_mem d1
        have := names_inj hs.distinct.services hmm b5 (d2.trans b6.symm)
        subst this
        rw [hmm] at b5
        cases b5
        unfold serverCount
        rw [b2, Int.toNat_natCast, hmm]
        exact decide_eq_true d3

theorem all_run {e : Env} {F : Nat → Nat} {fan : Str → Nat} (hs : SoundTest e w) (hp : LoopTest w.cfg) (he : EndableTest w.cfg)
    (hf : FanOuts w.cfg fan) (hc : ClientsDeclared w.cfg)
    (hent : (tablesOf w k.engine).actionLists[k.list]? = some k.entry)
    (hm : MayRun (globalConfig w F) k.engine k.list) : ActionList.AllRun (k.ctx w) :=
  all_run_of hs hp.activities he.kinds hf hc hent hm

/-- The thread of the list is at a sensible place, and no action is stuck. -/
structure Tidy (w : Test) (k : Job) : Prop where
  scan : ∀ i, k.main.phase = .scan i → i ≤ (k.ctx w).size
  crash : k.main.phase ≠ .crashed
  stuck : ∀ i, (k.main.acts i).stuck = false

theorem tidy_main {m : ActionList.State} (h : Tidy w k) (hr : ActionList.AllRun (k.ctx w))
    (hm : ActionList.MainStep (k.ctx w) k.main m) : Tidy w { k with main := m } := by
  have hst : ∀ i, (m.acts i).stuck = false := by
    intro i
    rcases ActionList.stuck_main (.main hm) i with h1 | ⟨-, x, hx, hi⟩
    · rw [h1]; exact h.stuck i
    · obtain ⟨o, ho⟩ := hr i x hx
      rw [ho] at hi
      cases hi
  refine ⟨?_, ?_, hst⟩
  · intro i hi
    have hi : m.phase = .scan i := hi
    show i ≤ (k.ctx w).size
    cases hm with
    | visit n delay hp hn =>
      unfold ActionList.advance at hi
      split at hi
      · rename_i hc; rw [hc] at hi; cases hi
      · injection hi with hi
        omega
    | scanned hp =>
      dsimp only at hi
      split at hi <;> cases hi
    | resume now hp hc => injection hi with hi; omega
    | drain hp hr =>
      dsimp only at hi
      split at hi <;> cases hi
    | _ => cases hi
  · intro hc
    have hc : m.phase = .crashed := hc
    cases hm with
    | visit n delay hp hn =>
      have := (ActionList.visit_moves (m := k.main) delay hr hn).1
      unfold ActionList.advance at hc
      rw [this, if_neg h.crash] at hc
      cases hc
    | scanned hp =>
      dsimp only at hc
      split at hc <;> cases hc
    | drain hp hr =>
      dsimp only at hc
      split at hc <;> cases hc
    | _ => cases hc

theorem tidy_opens {eng l : Nat} {p : Traffic.Parent} (h : Opens w eng l p k) : Tidy w k := by
  obtain ⟨entry, draw, now, warmup, h1, rfl⟩ := h
  refine ⟨fun i hi => ?_, (fun h => by cases h), fun i => rfl⟩
  have hi : ActionList.Phase.scan 0 = .scan i := hi
  injection hi with hi
  omega

theorem tidy_same {m : ActionList.State} (h : Tidy w k) (hp : m.phase = k.main.phase)
    (hs : ∀ i, (m.acts i).stuck = (k.main.acts i).stuck) : Tidy w { k with main := m } :=
  ⟨fun i hi => h.scan i (hp ▸ hi), fun hc => h.crash (hp ▸ hc), fun i => (hs i).trans (h.stuck i)⟩

theorem tidy_goes {a : Nat} {u : Under} (h : Tidy w k) : Tidy w (k.goes a u) := ⟨h.scan, h.crash, h.stuck⟩

theorem mem_set {l : List Job} {i : Nat} {x y : Job} (h : y ∈ l.set i x) : y = x ∨ y ∈ l :=
  (List.mem_or_eq_of_mem_set h).symm

theorem tidy_step (hrun : ∀ (j : Nat) k, s.jobs[j]? = some k → ActionList.AllRun (k.ctx w))
    (ht : ∀ k ∈ s.jobs, Tidy w k) (hst : Step w s s') : ∀ k ∈ s'.jobs, Tidy w k := by
  have hold : ∀ {j k}, s.jobs[j]? = some k → Tidy w k := fun hj => ht _ (List.mem_of_getElem? hj)
  intro y hy
  cases hst with
  | main hj hm =>
    rcases mem_set hy with rfl | hy
    · exact tidy_main (hold hj) (hrun _ _ hj) hm
    · exact ht y hy
  | setUp now spread hj _ _ _ _ _ _ =>
    rcases mem_set hy with rfl | hy
    · exact tidy_goes (hold hj)
    · exact ht y hy
  | rpcs targets hu _ _ _ _ =>
    rcases mem_set hy with rfl | hy
    · exact tidy_goes (hold hu.1)
    · exact ht y hy
  | list hu _ _ _ ho =>
    rcases List.mem_append.1 hy with hy | hy
    · rcases mem_set hy with rfl | hy
      · exact tidy_goes (hold hu.1)
      · exact ht y hy
    · rw [List.mem_singleton.1 hy]
      exact tidy_opens ho
  | other hu _ _ _ =>
    rcases mem_set hy with rfl | hy
    · exact tidy_goes (hold hu.1)
    · exact ht y hy
  | ended hu _ _ _ =>
    rcases mem_set hy with rfl | hy
    · exact tidy_goes (hold hu.1)
    · exact ht y hy
  | quiet hu _ _ =>
    rcases mem_set hy with rfl | hy
    · exact tidy_goes (hold hu.1)
    · exact ht y hy
  | idle hu _ _ =>
    rcases mem_set hy with rfl | hy
    · exact tidy_goes (hold hu.1)
    · exact ht y hy
  | allDone hu _ _ =>
    rcases mem_set hy with rfl | hy
    · exact tidy_same (tidy_goes (hold hu.1)) (ActionList.callback_phase _ _ _)
        fun i => ActionList.stuck_callback _ _ i _
    · exact ht y hy
  | finish hj _ _ _ =>
    rcases mem_set hy with rfl | hy
    · exact tidy_same (hold hj) (ActionList.finish_phase _ _) fun i => ActionList.stuck_finish _ i _
    · exact ht y hy
  | deliver _ _ => exact ht y hy
  | dispatch _ _ _ _ ho =>
    rcases List.mem_append.1 hy with hy | hy
    · exact ht y hy
    · rw [List.mem_singleton.1 hy]
      exact tidy_opens ho
  | complete _ _ => exact ht y hy

theorem tidy {e : Env} {fan : Str → Nat} (hs : SoundTest e w) (hp : LoopTest w.cfg) (he : EndableTest w.cfg)
    (hf : FanOuts w.cfg fan) (hc : ClientsDeclared w.cfg) (h : Reach w s) : ∀ k ∈ s.jobs, Tidy w k := by
  induction h with
  | start h =>
    intro k hk
    obtain ⟨h1, h2, h3⟩ := h
    obtain ⟨i, hi⟩ := List.getElem?_of_mem hk
    have hlt := (List.getElem?_eq_some_iff.1 hi).1
    obtain ⟨k', h4, h5⟩ := h3 i _ (List.getElem?_eq_getElem (by omega))
    rw [hi] at h4
    cases h4
    exact tidy_opens h5
  | step hr hst ih =>
    obtain ⟨ops, t, h⟩ := sim hs hp hf hr
    have hT := global_inv hs hf h
    exact tidy_step (fun j k hj => all_run hs hp he hf hc (h.inv.jobs _ _ hj).entry (hT.may _ _ (abs_get hj))) ih hst

end Distbench.Loops
