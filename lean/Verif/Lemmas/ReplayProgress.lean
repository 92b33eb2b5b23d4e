import Verif.Lemmas.ReplayInv

/-! Trace replay comes to an end. -/

namespace Distbench.Replay
open Spec

/-! ### beginnings of the log -/

theorem step_log {e : Env} {p : Plan} {s s' : State} (h : Step e p s s') :
    s'.log = s.log ∨ ∃ ev, s'.log = s.log ++ [ev] := by
  cases h with
  | tick t ht => exact .inl rfl
  | exit _ _ => exact .inl rfl
  | awake _ _ _ => exact .inl rfl
  | pop _ _ _ _ _ _ => exact .inl rfl
  | send _ _ => exact .inr ⟨_, rfl⟩
  | abort _ _ => exact .inl rfl
  | told _ => exact .inr ⟨_, rfl⟩
  | finish _ => exact .inr ⟨_, rfl⟩
  | sample _ => exact .inr ⟨_, rfl⟩

theorem prefix_reachable {e : Env} {p : Plan} {s : State} (h : Reachable e p s) :
    ∀ l1 l2, s.log = l1 ++ l2 → ∃ s0, Reachable e p s0 ∧ s0.log = l1 := by
  induction h with
  | start now =>
    intro l1 l2 hl
    have hl : ([] : List Event) = l1 ++ l2 := hl
    have := List.append_eq_nil_iff.1 hl.symm
    exact ⟨_, .start now, this.1.symm⟩
  | @step s s' hr hs ih =>
    intro l1 l2 hl
    rcases step_log hs with hq | ⟨ev, hq⟩
    · exact ih l1 l2 (by rw [← hq, hl])
    · rcases List.eq_nil_or_concat l2 with rfl | ⟨l2', y, rfl⟩
      · exact ⟨s', .step hr hs, by simpa using hl⟩
      · have h' : s.log ++ [ev] = (l1 ++ l2') ++ [y] := by rw [← hq, hl]; simp
        exact ih l1 l2' (List.append_inj' h' rfl).1

theorem good_send {e : Env} (hg : GoodServers e) {i : Nat} (hb : Belongs e i) : ∃ what, send e i = .ok what := by
  obtain ⟨h1, h2⟩ := hg i hb
  unfold send
  dsimp only
  cases hc : (e.record i).channelIndex with
  | some c =>
    obtain ⟨h3, h4⟩ := h1 c hc
    dsimp only
    rw [if_neg (by omega)]
    exact ⟨_, rfl⟩
  | none =>
    obtain ⟨h3, id, h4, h5⟩ := h2 hc
    have hlt := (List.getElem?_eq_some_iff.1 h4).1
    dsimp only
    rw [if_neg (by omega), h4, if_neg (by rw [Option.getD_some]; omega)]
    exact ⟨_, rfl⟩

theorem not_aborted {e : Env} {p : Plan} (hp : setup e = .ok p) (hg : GoodServers e) {s : State}
    (h : Reachable e p s) (i : Nat) : s.main ≠ .aborted i := by
  induction h with
  | start now => intro h; simp [Replay.start] at h
  | step hr hs ih =>
    intro hm
    cases hs with
    | tick t ht => exact ih hm
    | exit _ _ => simp at hm
    | awake _ _ _ => exact ih hm
    | pop _ _ _ _ _ _ => simp at hm
    | send _ _ => simp at hm
    | @abort t j h1 h2 =>
      have hi := inv_reachable hp hr
      have hb : Belongs e j := by
        by_cases hb : Belongs e j
        · exact hb
        · have := hi.never j (.inl hb)
          simp [places, h1, popCount] at this
      obtain ⟨w, hw⟩ := good_send hg hb
      rw [hw] at h2
      simp at h2
    | told _ => simp [activateStart] at hm
    | finish _ => exact ih hm
    | sample _ => exact ih hm

/-! ### the measure -/

def weight : Main → Nat
  | .loop => 3
  | .popped _ _ => 2
  | .sent _ _ => 4
  | .done => 0
  | .aborted _ => 0

def unissued (e : Env) (L : List Event) : Nat :=
  (List.range e.records.length).countP (fun i => e.mine i && timesIssued i L == 0)

def measure (e : Env) (s : State) : Nat :=
  8 * unissued e s.log + 3 * s.running.length + 2 * s.ending.length +
    (if s.finished then 1 else 0) + weight s.main

theorem unissued_append {e : Env} {L : List Event} {ev : Event}
    (h : ∀ i t w, ev ≠ .issued i t w) : unissued e (L ++ [ev]) = unissued e L := by
  unfold unissued
  apply countP_range_eq
  intro k _
  rw [timesIssued_append]
  have : timesIssued k [ev] = 0 := by
    cases ev with
    | issued i t w => exact absurd rfl (h i t w)
    | told _ => simp [timesIssued]
    | ended _ _ => simp [timesIssued]
    | sampled _ _ _ => simp [timesIssued]
  rw [this, Nat.add_zero]

theorem step_measure {e : Env} {p : Plan} {s s' : State} (hi : Inv e s) (h : Step e p s s') :
    (∃ t, s.now ≤ t ∧ s' = { s with now := t }) ∨ measure e s' < measure e s := by
  cases h with
  | tick t ht => exact .inl ⟨t, ht, rfl⟩
  | exit hm _ => right; simp only [measure, hm, weight]; omega
  | awake hm _ hf => right; simp only [measure, hf, if_true]; simp
  | pop hm _ _ _ _ _ => right; simp only [measure, hm, weight]; omega
  | @send t i w hm hs =>
    right
    simp only [measure, hm, weight, List.length_append, List.length_singleton]
    have hb : Belongs e i := by
      by_cases hb : Belongs e i
      · exact hb
      · have := hi.never i (.inl hb)
        simp [places, hm, popCount] at this
    have h0 : timesIssued i s.log = 0 := by
      have := places_le hi i
      simp only [places, hm, popCount, if_true] at this
      omega
    have hne : ∀ k, timesIssued k (s.log ++ [.issued i s.now w]) =
        timesIssued k s.log + if i = k then 1 else 0 := by
      intro k; rw [timesIssued_append]; simp [timesIssued, List.countP_singleton]
    have := countP_range_single (x := i) (p := fun k => e.mine k && timesIssued k s.log == 0)
      (q := fun k => e.mine k && timesIssued k (s.log ++ [.issued i s.now w]) == 0)
      (by simp [(belongs_iff.1 hb).2, h0]) (by simp [hne])
      (by
        intro k hk
        have : ¬ i = k := fun h => hk h.symm
        simp only [hne, if_neg this, Nat.add_zero])
      e.records.length hb.1
    unfold unissued
    omega
  | abort hm _ => right; simp only [measure, hm, weight]; omega
  | @told i st hm =>
    right
    have : measure e (activateStart e p i st s) = 8 * unissued e (s.log ++ [.told i]) +
        3 * s.running.length + 2 * s.ending.length + (if s.finished then 1 else 0) + 3 := rfl
    rw [this, unissued_append (by intro _ _ _ h; cases h)]
    simp only [measure, hm, weight]
    omega
  | @finish l1 l2 i st hr =>
    right
    simp only [measure, hr]
    rw [unissued_append (by intro _ _ _ h; cases h)]
    simp only [List.length_append, List.length_cons, List.length_nil]
    omega
  | @sample l1 l2 i st et hr =>
    right
    simp only [measure, activateEnd, hr]
    rw [unissued_append (by intro _ _ _ h; cases h)]
    simp only [List.length_append, List.length_cons, if_true]
    omega

/-! ### some step is possible -/

theorem exists_min : ∀ l : List (Int × Nat), l ≠ [] →
    ∃ l1 l2 t i, l = l1 ++ (t, i) :: l2 ∧ ∀ x ∈ l, t ≤ x.1
  | [], h => absurd rfl h
  | [a], _ => ⟨[], [], a.1, a.2, rfl, by simp⟩
  | a :: b :: l, _ => by
    obtain ⟨l1, l2, t, i, he, hm⟩ := exists_min (b :: l) (by simp)
    by_cases h : a.1 ≤ t
    · refine ⟨[], b :: l, a.1, a.2, rfl, ?_⟩
      intro x hx
      rcases List.mem_cons.1 hx with rfl | hx
      · exact Int.le_refl _
      · have := hm x hx; omega
    · refine ⟨a :: l1, l2, t, i, by rw [he]; rfl, ?_⟩
      intro x hx
      rcases List.mem_cons.1 hx with rfl | hx
      · omega
      · exact hm x hx

theorem least {P : Nat → Prop} : ∀ n, P n → ∃ k, P k ∧ ∀ j, j < k → ¬ P j := by
  intro n
  induction n using Nat.strongRecOn with
  | ind n ih =>
    intro h
    by_cases hx : ∃ j, j < n ∧ P j
    · obtain ⟨j, hj, hp⟩ := hx
      exact ih j hj hp
    · exact ⟨n, h, fun j hj hp => hx ⟨j, hj, hp⟩⟩

theorem advance {e : Env} {p : Plan} (hp : setup e = .ok p) (hm : GoodModes e)
    (hs : GoodServers e) {s : State} (h : Reachable e p s) (hd : s.main ≠ .done) :
    ∃ t, s.now ≤ t ∧ ∃ s', Step e p { s with now := t } s' ∧
      measure e s' < measure e { s with now := t } := by
  have hi := inv_reachable hp h
  have hg : GoodDistances e := (setup_iff e).1 ⟨p, hp⟩
  suffices hx : ∃ t, s.now ≤ t ∧ ∃ s', Step e p { s with now := t } s' ∧
      ∀ t', s' ≠ { s with now := t' } by
    obtain ⟨t, ht, s', hs', hne⟩ := hx
    refine ⟨t, ht, s', hs', ?_⟩
    have hi' := inv_reachable hp (.step h (.tick t ht))
    rcases step_measure hi' hs' with ⟨t', -, rfl⟩ | h
    · exact absurd rfl (hne t')
    · exact h
  obtain ⟨m, hmain⟩ : ∃ m, s.main = m := ⟨_, rfl⟩
  cases m with
  | done => exact absurd hmain hd
  | aborted i => exact absurd hmain (not_aborted hp hs h i)
  | sent i st =>
    refine ⟨s.now, Int.le_refl _, _, .told hmain, ?_⟩
    intro t' h
    have := congrArg State.main h
    simp [activateStart, hmain] at this
  | popped t i =>
    have hb : Belongs e i := by
      by_cases hb : Belongs e i
      · exact hb
      · have := hi.never i (.inl hb)
        simp [places, hmain, popCount] at this
    obtain ⟨w, hw⟩ := good_send hs hb
    refine ⟨s.now, Int.le_refl _, _, .send hmain hw, ?_⟩
    intro t' h
    have := congrArg State.main h
    simp [hmain] at this
  | loop =>
    by_cases h0 : s.remaining = 0
    · refine ⟨s.now, Int.le_refl _, _, .exit hmain h0, ?_⟩
      intro t' h
      have := congrArg State.main h
      simp [hmain] at this
    by_cases hf : s.finished = true
    · refine ⟨s.now, Int.le_refl _, _, .awake hmain h0 hf, ?_⟩
      intro t' h
      have := congrArg State.finished h
      simp [hf] at this
    have hf : s.finished = false := by simpa using hf
    by_cases hr : s.ready = []
    · by_cases hrun : s.running = []
      · by_cases hend : s.ending = []
        · exfalso
          have hfl : ∀ i, timesSampled i s.log = timesIssued i s.log := by
            intro i
            have := hi.flight i
            rw [hrun, hend] at this
            simpa using this
          have htl : ∀ i, timesTold i s.log = timesIssued i s.log := by
            intro i
            have := hi.told i
            rw [hmain] at this
            simpa [sentCount] using this
          have hne : (List.range e.records.length).countP
              (fun i => e.mine i && timesSampled i s.log == 0) ≠ 0 := by
            intro h; apply h0; rw [hi.remaining, h]; rfl
          obtain ⟨n, hn, hn'⟩ := exists_of_countP_range hne
          have hPn : Belongs e n ∧ timesIssued n s.log = 0 := by
            simp only [Bool.and_eq_true, beq_iff_eq] at hn'
            exact ⟨belongs_iff.2 ⟨hn, hn'.1⟩, by rw [← hfl]; exact hn'.2⟩
          obtain ⟨k, ⟨hbk, hik⟩, hmin⟩ :=
            least (P := fun n => Belongs e n ∧ timesIssued n s.log = 0) n hPn
          have hdk : s.deps k = 0 := by
            rw [hi.deps k hbk]
            have : (depsOf e k).countP (fun j => !act e s.log k j) = 0 := by
              rw [List.countP_eq_zero]
              intro j hj
              have hrj := (mem_depsOf hg hbk).1 hj
              have hlt := refersTo_lt hg hrj
              have hij : timesIssued j s.log ≠ 0 := fun h => hmin j hlt ⟨hrj.2.1, h⟩
              simp only [Bool.not_eq_true', Bool.not_eq_false]
              unfold act
              rcases hm k j hrj with hmo | hmo
              · rw [hmo]; simp [htl, hij]
              · rw [hmo]; simp [hfl, hij]
            rw [this]; rfl
          have := hi.once k hbk hdk
          simp [places, hr, hmain, popCount, hik] at this
        · obtain ⟨⟨i, st, et⟩, l, hl⟩ := List.exists_cons_of_ne_nil hend
          refine ⟨s.now, Int.le_refl _, _, .sample (l1 := []) (l2 := l) hl, ?_⟩
          intro t' h
          have := congrArg State.ending h
          simp [hl] at this
      · obtain ⟨⟨i, st⟩, l, hl⟩ := List.exists_cons_of_ne_nil hrun
        refine ⟨s.now, Int.le_refl _, _, .finish (l1 := []) (l2 := l) hl, ?_⟩
        intro t' h
        have := congrArg State.running h
        simp [hl] at this
    · obtain ⟨l1, l2, t, i, hl, hmin⟩ := exists_min _ hr
      refine ⟨max s.now t, by omega, _, .pop hmain h0 hf hl hmin (by
        show t ≤ max s.now t
        omega), ?_⟩
      intro t' h
      have := congrArg State.main h
      simp [hmain] at this

theorem continues_done {e : Env} {p : Plan} (hp : setup e = .ok p) (hm : GoodModes e)
    (hs : GoodServers e) : ∀ (n : Nat) (s : State), measure e s ≤ n → Reachable e p s →
      ∃ s', Continues e p s s' ∧ s'.main = .done := by
  intro n
  induction n with
  | zero =>
    intro s hn h
    by_cases hd : s.main = .done
    · exact ⟨s, .refl, hd⟩
    · obtain ⟨t, -, s', -, hlt⟩ := advance hp hm hs h hd
      have : measure e { s with now := t } = measure e s := rfl
      omega
  | succ n ih =>
    intro s hn h
    by_cases hd : s.main = .done
    · exact ⟨s, .refl, hd⟩
    · obtain ⟨t, ht, s', hs', hlt⟩ := advance hp hm hs h hd
      have : measure e { s with now := t } = measure e s := rfl
      have h1 : Step e p s { s with now := t } := .tick t ht
      obtain ⟨s'', hc, hd'⟩ := ih s' (by omega) (.step (.step h h1) hs')
      refine ⟨s'', ?_, hd'⟩
      have base : Continues e p s s' := .step (.step .refl h1) hs'
      clear hd' 
      induction hc with
      | refl => exact base
      | step _ hx ih => exact .step ih hx

theorem moves_measure {e : Env} {p : Plan} (hp : setup e = .ok p) {n : Nat} {s : State}
    (h : Moves e p n s) :
    Reachable e p s ∧ n + measure e s ≤ 8 * (List.range e.records.length).countP e.mine + 3 := by
  induction h with
  | start now =>
    refine ⟨.start now, ?_⟩
    simp [measure, Replay.start, weight, unissued, timesIssued]
  | wait t _ ht ih => exact ⟨.step ih.1 (.tick t ht), ih.2⟩
  | move _ hs hne ih =>
    refine ⟨.step ih.1 hs, ?_⟩
    rcases step_measure (inv_reachable hp ih.1) hs with ⟨t, -, rfl⟩ | h
    · exact absurd rfl (hne t)
    · have := ih.2; omega

end Distbench.Replay
