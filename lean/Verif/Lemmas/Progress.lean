import Verif.Lemmas.ActionList

/-! Lemmas for the progress of action lists. -/

namespace Distbench.ActionList
open Tables Spec

/-! ### what a step can change -/

/-- `s'` has everything of `s` that never goes back. -/
def Later (s s' : State) : Prop :=
  ∀ i, ((s.acts i).started = true → (s'.acts i).started = true) ∧
    ((s.acts i).closed = true → (s'.acts i).closed = true) ∧
    ((s.acts i).finished = true → (s'.acts i).finished = true) ∧
    ((s.acts i).waiting = true → (s'.acts i).started = false →
      (s'.acts i).waiting = true ∧ (s'.acts i).wakeAt = (s.acts i).wakeAt)

theorem Later.refl (s : State) : Later s s := fun _ => ⟨id, id, id, fun h _ => ⟨h, rfl⟩⟩

theorem later_callback (c : Ctx) (i : Nat) (s : State) : Later s (callback c i s) := by
  intro j
  rw [callback_acts]
  split
  · rename_i h; subst h; exact ⟨id, id, id, fun h _ => ⟨h, rfl⟩⟩
  · exact ⟨id, id, id, fun h _ => ⟨h, rfl⟩⟩

theorem later_finish (i : Nat) (s : State) : Later s (finishAction i s) := by
  intro j
  rw [finish_acts]
  split
  · rename_i h; subst h; exact ⟨id, fun _ => rfl, id, fun h _ => ⟨h, rfl⟩⟩
  · exact ⟨id, id, id, fun h _ => ⟨h, rfl⟩⟩

theorem later_handle (s : State) : Later s (handle s) := by
  intro j
  rw [handle_acts]
  split
  · exact ⟨id, id, fun _ => rfl, fun h _ => ⟨h, rfl⟩⟩
  · exact ⟨id, id, id, fun h _ => ⟨h, rfl⟩⟩

theorem Later.trans {s1 s2 s3 : State} (h1 : Later s1 s2) (h2 : Later s2 s3) : Later s1 s3 := by
  intro i
  obtain ⟨a1, a2, a3, a4⟩ := h1 i
  obtain ⟨b1, b2, b3, b4⟩ := h2 i
  refine ⟨b1 ∘ a1, b2 ∘ a2, b3 ∘ a3, ?_⟩
  intro hw hs
  have hs2 : (s2.acts i).started = false := by
    cases hx : (s2.acts i).started with
    | false => rfl
    | true => rw [b1 hx] at hs; simp at hs
  obtain ⟨c1, c2⟩ := a4 hw hs2
  obtain ⟨d1, d2⟩ := b4 c1 hs
  exact ⟨d1, by rw [d2, c2]⟩

theorem later_start {c : Ctx} {a : ActionEntry} {i : Nat} {s : State} : Later s (start c a i s) := by
  unfold start
  simp only []
  split
  · refine Later.trans ?_ ((later_callback c i _).trans (later_finish i _))
    intro j
    simp only [setAct]
    split
    · rename_i h; subst h; exact ⟨fun _ => rfl, id, id, fun _ h => by simp at h⟩
    · exact ⟨id, id, id, fun h _ => ⟨h, rfl⟩⟩
  · split
    · exact Later.refl s
    · intro j
      simp only [setAct]
      split
      · rename_i h; subst h; exact ⟨fun _ => rfl, id, id, fun _ h => by simp at h⟩
      · exact ⟨id, id, id, fun h _ => ⟨h, rfl⟩⟩
    · intro j
      simp only [setAct]
      split
      · rename_i h; subst h; exact ⟨fun _ => rfl, id, id, fun _ h => by simp at h⟩
      · exact ⟨id, id, id, fun h _ => ⟨h, rfl⟩⟩

theorem later_visit {c : Ctx} {delay : Int} {i : Nat} {s : State} : Later s (visit c delay i s) := by
  unfold visit
  split
  · exact Later.refl s
  · simp only []
    split
    · exact Later.refl s
    · split
      · exact Later.refl s
      · split
        · exact Later.refl s
        · split
          · rename_i harm
            intro j
            simp only [setAct]
            split
            · rename_i h
              subst h
              exact ⟨id, id, id, fun h _ => absurd h harm.1⟩
            · exact ⟨id, id, id, fun h _ => ⟨h, rfl⟩⟩
          · exact later_start

theorem later_cancelLoop {c : Ctx} (l : List Nat) (s : State) : Later s (cancelLoop c l s) := by
  induction l generalizing s with
  | nil => exact Later.refl s
  | cons i rest ih =>
    unfold cancelLoop
    simp only []
    split
    · exact ih s
    · split
      · exact ((later_callback c i s).trans (later_finish i _)).trans (ih _)
      · exact ih s

theorem later_step {c : Ctx} {s s' : State} (h : Step c s s') : Later s s' := by
  cases h with
  | main h =>
    cases h with
    | visit i delay =>
      unfold advance
      split
      · exact later_visit
      · exact later_visit
    | scanned => exact Later.refl s
    | wake => exact later_handle s
    | timeout => exact Later.refl s
    | resume => exact Later.refl s
    | cancel =>
      unfold cancelActivities
      simp only []
      split
      · exact (later_cancelLoop _ s).trans (later_handle _)
      · exact later_cancelLoop _ s
    | drain => exact later_handle s
    | exit => exact Later.refl s
  | env h =>
    cases h with
    | callback i => exact later_callback c i s
    | finish i => exact later_finish i s
    | activity i k => exact (later_callback c i s).trans (later_finish i _)
    | cancel => exact Later.refl s

theorem env_phase {c : Ctx} {s s' : State} (h : EnvStep c s s') : s'.phase = s.phase := by
  cases h with
  | callback i => exact callback_phase c i s
  | finish i => rfl
  | activity i k => exact callback_phase c i s
  | cancel => rfl

theorem env_started {c : Ctx} {s s' : State} (h : EnvStep c s s') (j : Nat) :
    (s'.acts j).started = (s.acts j).started := by
  cases h with
  | callback i => rw [callback_acts]; split <;> simp_all
  | finish i => rw [finish_acts]; split <;> simp_all
  | activity i k =>
    rw [finish_acts, callback_acts, callback_acts]
    split <;> simp_all
  | cancel => rfl

/-! ### actions that start nothing -/

theorem stuck_callback (c : Ctx) (i j : Nat) (s : State) :
    ((callback c i s).acts j).stuck = (s.acts j).stuck := by
  rw [callback_acts]; split <;> simp_all

theorem stuck_finish (i j : Nat) (s : State) :
    ((finishAction i s).acts j).stuck = (s.acts j).stuck := by
  rw [finish_acts]; split <;> simp_all

theorem stuck_handle (j : Nat) (s : State) : ((handle s).acts j).stuck = (s.acts j).stuck := by
  rw [handle_acts]; split <;> simp_all

theorem stuck_cancelLoop (c : Ctx) (l : List Nat) (j : Nat) (s : State) :
    ((cancelLoop c l s).acts j).stuck = (s.acts j).stuck := by
  induction l generalizing s with
  | nil => rfl
  | cons i rest ih =>
    unfold cancelLoop
    simp only []
    split
    · exact ih s
    · split
      · rw [ih, stuck_finish, stuck_callback]
      · exact ih s

/-- Only starting an action can change whether it is stuck. -/
theorem stuck_start {c : Ctx} {a : ActionEntry} {i j : Nat} {s : State} :
    ((start c a i s).acts j).stuck = (s.acts j).stuck ∨
    (j = i ∧ ((start c a i s).acts j).stuck = true ∧ initiate c.rpcTable c.hasPeers a = .stuck) := by
  unfold start
  simp only []
  split
  · left
    rw [stuck_finish, stuck_callback]
    simp only [setAct]
    split <;> simp_all
  · split
    · exact .inl rfl
    · rename_i hx
      simp only [setAct]
      split
      · rename_i hj; exact .inr ⟨hj, rfl, hx⟩
      · exact .inl rfl
    · left
      simp only [setAct]
      split <;> simp_all

theorem stuck_visit {c : Ctx} {delay : Int} {i j : Nat} {s : State} :
    ((visit c delay i s).acts j).stuck = (s.acts j).stuck ∨
    (j = i ∧ ((visit c delay i s).acts j).stuck = true ∧
      ∃ a, c.entry.listActions[i]? = some a ∧ initiate c.rpcTable c.hasPeers a = .stuck) := by
  unfold visit
  split
  · exact .inl rfl
  · rename_i a ha
    simp only []
    split
    · exact .inl rfl
    · split
      · exact .inl rfl
      · split
        · exact .inl rfl
        · split
          · left
            simp only [setAct]
            split <;> simp_all
          · rcases stuck_start (c := c) (a := a) (i := i) (j := j) (s := s) with h | ⟨h1, h2, h3⟩
            · exact .inl h
            · exact .inr ⟨h1, h2, a, ha, h3⟩

theorem stuck_main {c : Ctx} {s s' : State} (h : Step c s s') (j : Nat) :
    (s'.acts j).stuck = (s.acts j).stuck ∨ ((s'.acts j).stuck = true ∧
      ∃ a, c.entry.listActions[j]? = some a ∧ initiate c.rpcTable c.hasPeers a = .stuck) := by
  cases h with
  | main h =>
    cases h with
    | visit i delay =>
      have hacts : (advance i (visit c delay i s)).acts = (visit c delay i s).acts := by
        unfold advance; split <;> rfl
      rw [hacts]
      rcases stuck_visit (c := c) (delay := delay) (i := i) (j := j) (s := s) with h | ⟨h1, h2, h3⟩
      · exact .inl h
      · subst h1; exact .inr ⟨h2, h3⟩
    | scanned => exact .inl rfl
    | wake => exact .inl (stuck_handle j s)
    | timeout => exact .inl rfl
    | resume => exact .inl rfl
    | cancel =>
      left
      simp only [cancelActivities]
      split
      · rw [stuck_handle, stuck_cancelLoop]
      · rw [stuck_cancelLoop]
    | drain => exact .inl (stuck_handle j s)
    | exit => exact .inl rfl
  | env h =>
    left
    cases h with
    | callback i => exact stuck_callback c i j s
    | finish i => exact stuck_finish i j s
    | activity i k => rw [stuck_finish, stuck_callback]
    | cancel => rfl

theorem stuck_stays {c : Ctx} {s s' : State} (h : Step c s s') {j : Nat}
    (hs : (s.acts j).stuck = true) : (s'.acts j).stuck = true := by
  rcases stuck_main h j with h | h
  · rw [h, hs]
  · exact h.1

theorem stuck_step {c : Ctx} {s s' : State} {j : Nat} {a : ActionEntry}
    (ha : c.entry.listActions[j]? = some a) (hi : initiate c.rpcTable c.hasPeers a ≠ .stuck)
    (h : Step c s s') (hs : (s.acts j).stuck = false) : (s'.acts j).stuck = false := by
  rcases stuck_main h j with h | ⟨-, b, hb, h⟩
  · rw [h, hs]
  · rw [ha] at hb
    injection hb with hb
    subst hb
    exact absurd h hi

theorem stuck_not_done {c : Ctx} (hc : Sane c) {s : State} (hr : Reachable c s) {j : Nat}
    (hs : (s.acts j).stuck = true) : s.phase ≠ .done := by
  intro hd
  have h := inv_reachable hc hr
  rw [Inv, if_pos hd] at h
  obtain ⟨s0, hp, h0, hside, hacts, -, -⟩ := h
  rw [hacts] at hs
  obtain ⟨h1, h2⟩ := h0.stuck_started j hs
  have := h0.closed_called j (h0.fin_closed j ((hside.exit hp).1 j h1))
  rw [h2] at this
  simp at this

/-- The loop variable stays in range. -/
theorem scan_le {c : Ctx} {s : State} (h : Reachable c s) :
    ∀ k, s.phase = .scan k → k ≤ c.size := by
  induction h with
  | init now b => intro k hk; simp [init] at hk; omega
  | @step s s' _ hst ih =>
    intro k hk
    cases hst with
    | main hm =>
      cases hm with
      | visit i delay hp hi =>
        unfold advance at hk
        split at hk
        · rename_i hc; rw [hc] at hk; simp at hk
        · simp at hk; omega
      | scanned hp => simp only [] at hk; split at hk <;> simp at hk
      | wake hp hr => simp at hk
      | timeout hp hr => simp at hk
      | resume now hp hc => simp at hk; omega
      | cancel hp hc => simp at hk
      | drain hp hr => simp only [] at hk; split at hk <;> simp at hk
      | exit hp => simp [respondAndFree] at hk
    | env he => rw [env_phase he] at hk; exact ih k hk

/-- Visiting an action that could start makes it start, unless its delay has to be drawn first. -/
theorem visit_ready {c : Ctx} {delay : Int} {i : Nat} {s : State} (hi : i < c.size)
    (hs : (s.acts i).started = false) (hd : ∀ d ∈ c.deps i, (s.acts d).finished = true)
    (hp : s.phase ≠ .crashed) :
    ((visit c delay i s).acts i).started = true ∨ (visit c delay i s).phase = .crashed ∨
    (((visit c delay i s).acts i).waiting = true ∧
      ((s.acts i).waiting = true → (s.acts i).wakeAt > s.now)) := by
  have ha : c.entry.listActions[i]? = some (c.entry.listActions[i]'hi) :=
    List.getElem?_eq_getElem hi
  unfold visit
  rw [ha]
  simp only []
  rw [if_neg (by rw [hs]; simp)]
  split
  · rename_i hw
    exact .inr (.inr ⟨hw.1, fun _ => hw.2⟩)
  · rename_i hw
    rw [if_neg (by
      simp only [List.any_eq_true, not_exists, not_and]
      intro d hdm
      rw [hd d hdm]; simp)]
    split
    · rename_i harm
      refine .inr (.inr ⟨by simp [setAct], fun h => absurd h harm.1⟩)
    · unfold start
      simp only []
      split
      · refine .inl ?_
        rw [finish_acts, if_pos rfl, callback_acts, if_pos rfl]
        simp [setAct]
      · split
        · exact .inr (.inl rfl)
        · exact .inl (by simp [setAct])
        · exact .inl (by simp [setAct])

theorem main_enabled {c : Ctx} {s : State} (hr : Reachable c s)
    (h : (∃ k, s.phase = .scan k) ∨ s.phase = .wait ∨ s.phase = .checkCancel ∨ s.phase = .exit) :
    ∃ s', MainStep c s s' := by
  rcases h with ⟨k, h⟩ | h | h | h
  · have := scan_le hr k h
    by_cases hk : k < c.size
    · exact ⟨_, .visit k 0 h hk⟩
    · have : k = c.size := by omega
      subst this
      exact ⟨_, .scanned h⟩
  · by_cases hrd : ready s
    · exact ⟨_, .wake h hrd⟩
    · exact ⟨_, .timeout h hrd⟩
  · cases hc : s.canceled with
    | false => exact ⟨_, .resume 0 h hc⟩
    | true => exact ⟨_, .cancel h hc⟩
  · exact ⟨_, .exit h⟩

/-! ### infinite executions -/

theorem least_nat {P : Nat → Prop} (h : ∃ n, P n) : ∃ n, P n ∧ ∀ m < n, ¬ P m := by
  obtain ⟨n, hn⟩ := h
  induction n using Nat.strongRecOn with
  | _ n ih =>
    by_cases hx : ∃ m < n, P m
    · obtain ⟨m, hm, hp⟩ := hx
      exact ih m hm hp
    · exact ⟨n, hn, fun m hm hp => hx ⟨m, hm, hp⟩⟩

theorem eventually_all (k : Nat) (Q : Nat → Nat → Prop)
    (h : ∀ i < k, ∃ N, ∀ m ≥ N, Q i m) : ∃ N, ∀ i < k, ∀ m ≥ N, Q i m := by
  induction k with
  | zero => exact ⟨0, by intro i hi; omega⟩
  | succ k ih =>
    obtain ⟨N1, h1⟩ := ih (fun i hi => h i (by omega))
    obtain ⟨N2, h2⟩ := h k (by omega)
    refine ⟨N1 + N2, ?_⟩
    intro i hi m hm
    by_cases hik : i = k
    · subst hik; exact h2 m (by omega)
    · exact h1 i (by omega) m (by omega)

section
variable {c : Ctx} {σ : Nat → State} (hf : Fair c σ)
include hf

theorem fair_reachable (n : Nat) : Reachable c (σ n) := by
  induction n with
  | zero =>
    obtain ⟨now, b, h⟩ := hf.start
    rw [h]
    exact .init now b
  | succ n ih =>
    rcases hf.step n with h | h
    · exact .step ih h
    · rw [h]; exact ih

theorem fair_later {n m : Nat} (h : n ≤ m) : Later (σ n) (σ m) := by
  induction m with
  | zero =>
    have : n = 0 := by omega
    subst this
    exact Later.refl _
  | succ m ih =>
    by_cases hn : n ≤ m
    · refine (ih hn).trans ?_
      rcases hf.step m with h | h
      · exact later_step h
      · rw [h]; exact Later.refl _
    · have : n = m + 1 := by omega
      subst this
      exact Later.refl _

theorem fair_now {n m : Nat} (h : n ≤ m) : (σ n).now ≤ (σ m).now := by
  induction m with
  | zero =>
    have : n = 0 := by omega
    subst this
    omega
  | succ m ih =>
    by_cases hn : n ≤ m
    · have := ih hn
      have := hf.forwards m
      omega
    · have : n = m + 1 := by omega
      subst this
      omega

/-- While no step of the list's thread is taken the phase stays. -/
theorem phase_stays {n m : Nat} (hnm : n ≤ m)
    (h : ∀ k, n ≤ k → k < m → ¬ MainStep c (σ k) (σ (k + 1))) : (σ m).phase = (σ n).phase := by
  induction m with
  | zero =>
    have : n = 0 := by omega
    subst this
    rfl
  | succ m ih =>
    by_cases hn : n ≤ m
    · rw [← ih hn (fun k h1 h2 => h k h1 (by omega))]
      rcases hf.step m with hs | hs
      · cases hs with
        | main hm => exact absurd hm (h m hn (by omega))
        | env he => exact env_phase he
      · rw [hs]
    · have : n = m + 1 := by omega
      subst this
      rfl

/-- The next step of the list's thread. -/
theorem next_main {n : Nat}
    (hen : ∀ m ≥ n, (σ m).phase = (σ n).phase → ∃ s', MainStep c (σ m) s') :
    ∃ m ≥ n, MainStep c (σ m) (σ (m + 1)) ∧ (σ m).phase = (σ n).phase := by
  have hex : ∃ m, m ≥ n ∧ MainStep c (σ m) (σ (m + 1)) := by
    by_cases hx : ∃ m, m ≥ n ∧ MainStep c (σ m) (σ (m + 1))
    · exact hx
    · refine hf.turns n ?_
      intro m hm
      refine hen m hm (phase_stays hf hm ?_)
      intro k h1 _ h2
      exact hx ⟨k, h1, h2⟩
  obtain ⟨m, ⟨hm, hs⟩, hmin⟩ := least_nat hex
  refine ⟨m, hm, hs, phase_stays hf hm ?_⟩
  intro k h1 h2 h3
  exact hmin k h2 ⟨h1, h3⟩

theorem next_main' {n : Nat}
    (h : (∃ k, (σ n).phase = .scan k) ∨ (σ n).phase = .wait ∨ (σ n).phase = .checkCancel ∨
      (σ n).phase = .exit) :
    ∃ m ≥ n, MainStep c (σ m) (σ (m + 1)) ∧ (σ m).phase = (σ n).phase := by
  refine next_main hf ?_
  intro m _ hp
  refine main_enabled (fair_reachable hf m) ?_
  rw [hp]; exact h

theorem exit_done {n : Nat} (h : (σ n).phase = .exit) : ∃ m, (σ m).phase = .done := by
  obtain ⟨m, -, hs, hp⟩ := next_main' hf (n := n) (.inr (.inr (.inr h)))
  rw [h] at hp
  refine ⟨m + 1, ?_⟩
  generalize σ (m + 1) = s' at hs
  cases hs with
  | exit => rfl
  | _ => simp_all

/-- Every action that is ever started is eventually closed, and stays so. -/
theorem closes (hc : Sane c) {n i : Nat} (hs : ((σ n).acts i).started = true)
    (hnd : ∀ m, (σ m).phase ≠ .done) : ∃ N, ∀ m ≥ N, ((σ m).acts i).closed = true := by
  have h := inv_reachable hc (fair_reachable hf n)
  rw [Inv, if_neg (hnd n)] at h
  obtain ⟨N, hN⟩ := hf.ends n i ((startedIn_iff h.1 i).2 hs)
  have h' := inv_reachable hc (fair_reachable hf N)
  rw [Inv, if_neg (hnd N)] at h'
  exact ⟨N, fun m hm => (fair_later hf hm i).2.1 ((h'.1.log_fin i).1 hN)⟩

theorem drain_exit (hc : Sane c) {n : Nat} (h : (σ n).phase = .drain) :
    ∃ m, (σ m).phase = .done := by
  by_cases hdone : ∃ m, (σ m).phase = .done
  · exact hdone
  have hnd : ∀ m, (σ m).phase ≠ .done := fun m hm => hdone ⟨m, hm⟩
  -- either some later state is in phase `exit`, or all are in `drain`
  by_cases hex : ∃ m, (σ m).phase = .exit
  · obtain ⟨m, hm⟩ := hex
    exact exit_done hf hm
  exfalso
  have hdr : ∀ m ≥ n, (σ m).phase = .drain ∧ ∀ i, ((σ m).acts i).started = ((σ n).acts i).started := by
    intro m hm
    induction m with
    | zero =>
      have : n = 0 := by omega
      subst this
      exact ⟨h, fun _ => rfl⟩
    | succ m ih =>
      by_cases hn : n ≤ m
      · obtain ⟨h1, h2⟩ := ih hn
        rcases hf.step m with hs | hs
        · have hne : (σ (m + 1)).phase ≠ .exit := fun hx => hex ⟨_, hx⟩
          generalize σ (m + 1) = s' at hs hne
          cases hs with
          | main hs =>
            cases hs with
            | drain hp hr =>
              simp only [] at hne ⊢
              split at hne
              · exact absurd rfl hne
              · rename_i hall
                rw [if_neg hall]
                refine ⟨rfl, fun i => ?_⟩
                rw [handle_acts, ← h2 i]
                split <;> rfl
            | _ => simp_all
          | env he => exact ⟨by rw [env_phase he, h1], fun i => by rw [env_started he i, h2 i]⟩
        · rw [hs]; exact ⟨h1, h2⟩
      · have : n = m + 1 := by omega
        subst this
        exact ⟨h, fun _ => rfl⟩
  obtain ⟨N, hN⟩ := eventually_all c.size
    (fun i m => ((σ n).acts i).started = true → ((σ m).acts i).closed = true) (by
      intro i _
      by_cases hs : ((σ n).acts i).started = true
      · obtain ⟨N, hN⟩ := closes hf hc hs hnd
        exact ⟨N, fun m hm _ => hN m hm⟩
      · exact ⟨0, fun m _ h => absurd h hs⟩)
  have hcore : ∀ m, CoreS c (σ m) := by
    intro m
    have := inv_reachable hc (fair_reachable hf m)
    rw [Inv, if_neg (hnd m)] at this
    exact this.1
  have hready : ∀ m ≥ n + N, ready (σ m) := by
    intro m hm
    left
    rw [(hcore m).pend]
    have : (List.range c.size).countP
        (fun i => ((σ m).acts i).started && !((σ m).acts i).closed) = 0 := by
      rw [List.countP_eq_zero]
      intro i hi
      have hi := List.mem_range.1 hi
      rw [(hdr m (by omega)).2 i]
      have := hN i hi m (by omega)
      cases hx : ((σ n).acts i).started with
      | false => simp
      | true => rw [this hx]; simp
    rw [this]; rfl
  obtain ⟨m, hm, hs, -⟩ := next_main hf (n := n + N) (by
    intro m hm _
    exact ⟨_, .drain (hdr m (by omega)).1 (hready m hm)⟩)
  have hph := (hdr m (by omega)).1
  have hst := (hdr m (by omega)).2
  have hne : (σ (m + 1)).phase ≠ .exit := fun hx => hex ⟨_, hx⟩
  generalize σ (m + 1) = s' at hs hne
  cases hs with
  | drain hp hr =>
    apply hne
    simp only []
    rw [if_pos]
    intro i hi hstart
    rw [hst i] at hstart
    have hcl := hN i hi m (by omega) hstart
    rw [handle_acts]
    split
    · rfl
    · rename_i hmem
      rw [(hcore m).fl_mem i] at hmem
      cases hx : ((σ m).acts i).finished with
      | true => rfl
      | false => exact absurd ⟨hcl, hx⟩ hmem
  | _ => simp_all

/-- The thread comes back to the start of a pass. -/
theorem next_pass (hgo : ∀ m, (∃ k, (σ m).phase = .scan k) ∨ (σ m).phase = .wait ∨
      (σ m).phase = .checkCancel) (n : Nat) : ∃ m ≥ n, (σ m).phase = .scan 0 := by
  have hen := fun n => next_main' hf (n := n) (by
    rcases hgo n with h | h | h
    · exact .inl h
    · exact .inr (.inl h)
    · exact .inr (.inr (.inl h)))
  have hcheck : ∀ n, (σ n).phase = .checkCancel → ∃ m ≥ n, (σ m).phase = .scan 0 := by
    intro n hn
    obtain ⟨m, hm, hs, hp⟩ := hen n
    rw [hn] at hp
    refine ⟨m + 1, by omega, ?_⟩
    have hg := hgo (m + 1)
    generalize σ (m + 1) = s' at hs hg
    cases hs with
    | resume => rfl
    | cancel => simp at hg
    | _ => simp_all
  have hwait : ∀ n, (σ n).phase = .wait → ∃ m ≥ n, (σ m).phase = .scan 0 := by
    intro n hn
    obtain ⟨m, hm, hs, hp⟩ := hen n
    rw [hn] at hp
    have : (σ (m + 1)).phase = .checkCancel := by
      generalize σ (m + 1) = s' at hs
      cases hs with
      | wake => rfl
      | timeout => rfl
      | _ => simp_all
    obtain ⟨m', hm', h⟩ := hcheck _ this
    exact ⟨m', by omega, h⟩
  have hscan : ∀ k n, (σ n).phase = .scan (c.size - k) → k ≤ c.size →
      ∃ m ≥ n, (σ m).phase = .scan 0 := by
    intro k
    induction k with
    | zero =>
      intro n hn _
      obtain ⟨m, hm, hs, hp⟩ := hen n
      rw [hn] at hp
      have : (σ (m + 1)).phase = .wait := by
        have hg := hgo (m + 1)
        generalize σ (m + 1) = s' at hs hg
        cases hs with
        | visit i delay hp' hi => rw [hp] at hp'; injection hp' with hp'; omega
        | scanned hp' =>
          simp only [] at hg ⊢
          split at hg
          · simp at hg
          · rename_i hx; rw [if_neg hx]
        | _ => simp_all
      obtain ⟨m', hm', h⟩ := hwait _ this
      exact ⟨m', by omega, h⟩
    | succ k ih =>
      intro n hn hk
      obtain ⟨m, hm, hs, hp⟩ := hen n
      rw [hn] at hp
      have : (σ (m + 1)).phase = .scan (c.size - k) := by
        have hg := hgo (m + 1)
        generalize σ (m + 1) = s' at hs hg
        cases hs with
        | visit i delay hp' hi =>
          rw [hp] at hp'
          injection hp' with hp'
          unfold advance at hg ⊢
          split at hg
          · rename_i hcr; rw [hcr] at hg; simp at hg
          · rename_i hcr
            rw [if_neg hcr]
            simp only
            congr 1
            omega
        | scanned hp' => rw [hp] at hp'; injection hp' with hp'; omega
        | _ => simp_all
      obtain ⟨m', hm', h⟩ := ih _ this (by omega)
      exact ⟨m', by omega, h⟩
  rcases hgo n with ⟨k, h⟩ | h | h
  · have hk := scan_le (fair_reachable hf n) k h
    exact hscan (c.size - k) n (by rw [h]; congr 1; omega) (by omega)
  · exact hwait n h
  · exact hcheck n h

/-- The thread visits every action again and again. -/
theorem next_visit (hgo : ∀ m, (∃ k, (σ m).phase = .scan k) ∨ (σ m).phase = .wait ∨
      (σ m).phase = .checkCancel) (n i : Nat) (hi : i ≤ c.size) :
    ∃ m ≥ n, (σ m).phase = .scan i ∧ MainStep c (σ m) (σ (m + 1)) := by
  have key : ∀ i ≤ c.size, ∃ m ≥ n, (σ m).phase = .scan i := by
    intro i
    induction i with
    | zero => intro _; exact next_pass hf hgo n
    | succ i ih =>
      intro hi
      obtain ⟨m, hm, hp⟩ := ih (by omega)
      obtain ⟨m', hm', hs, hp'⟩ := next_main' hf (n := m) (.inl ⟨i, hp⟩)
      rw [hp] at hp'
      refine ⟨m' + 1, by omega, ?_⟩
      have hg := hgo (m' + 1)
      generalize σ (m' + 1) = s' at hs hg
      cases hs with
      | visit j delay hpj hj =>
        rw [hp'] at hpj
        injection hpj with hpj
        subst hpj
        unfold advance at hg ⊢
        split at hg
        · rename_i hcr; rw [hcr] at hg; simp at hg
        · rename_i hcr
          rw [if_neg hcr]
      | scanned hpj => rw [hp'] at hpj; injection hpj with hpj; omega
      | _ => simp_all
  obtain ⟨m, hm, hp⟩ := key i hi
  obtain ⟨m', hm', hs, hp'⟩ := next_main' hf (n := m) (.inl ⟨i, hp⟩)
  exact ⟨m', by omega, by rw [hp', hp], hs⟩

theorem progress (hc : Sane c) (hb : Backwards c) :
    ∃ n, (σ n).phase = .done ∨ (σ n).phase = .crashed := by
  by_cases hne : ∃ n, (σ n).phase = .done ∨ (σ n).phase = .crashed
  · exact hne
  exfalso
  have hnd : ∀ n, (σ n).phase ≠ .done := fun n h => hne ⟨n, .inl h⟩
  have hncr : ∀ n, (σ n).phase ≠ .crashed := fun n h => hne ⟨n, .inr h⟩
  have hnex : ∀ n, (σ n).phase ≠ .exit := fun n h => by
    obtain ⟨m, hm⟩ := exit_done hf h
    exact hnd m hm
  have hndr : ∀ n, (σ n).phase ≠ .drain := fun n h => by
    obtain ⟨m, hm⟩ := drain_exit hf hc h
    exact hnd m hm
  have hgo : ∀ m, (∃ k, (σ m).phase = .scan k) ∨ (σ m).phase = .wait ∨
      (σ m).phase = .checkCancel := by
    intro m
    cases hp : (σ m).phase with
    | scan k => exact .inl ⟨k, rfl⟩
    | wait => exact .inr (.inl rfl)
    | checkCancel => exact .inr (.inr rfl)
    | drain => exact absurd hp (hndr m)
    | exit => exact absurd hp (hnex m)
    | done => exact absurd hp (hnd m)
    | crashed => exact absurd hp (hncr m)
  have hcore : ∀ m, CoreS c (σ m) := by
    intro m
    have := inv_reachable hc (fair_reachable hf m)
    rw [Inv, if_neg (hnd m)] at this
    exact this.1
  -- every action that is ever started ends up finished
  have hfin : ∀ i, (∃ n, ((σ n).acts i).started = true) →
      ∃ N, ∀ m ≥ N, ((σ m).acts i).finished = true := by
    rintro i ⟨n, hs⟩
    obtain ⟨N, hN⟩ := closes hf hc hs hnd
    obtain ⟨m, hm, hp, hst⟩ := next_visit hf hgo N c.size (Nat.le_refl _)
    have hw : (σ (m + 1)).phase = .wait := by
      have hg := hgo (m + 1)
      generalize σ (m + 1) = s' at hst hg
      cases hst with
      | visit j delay hpj hj => rw [hp] at hpj; injection hpj with hpj; omega
      | scanned hpj =>
        simp only [] at hg ⊢
        split at hg
        · simp at hg
        · rename_i hx; rw [if_neg hx]
      | _ => simp_all
    obtain ⟨m', hm', hst', hp'⟩ := next_main' hf (n := m + 1) (.inr (.inl hw))
    rw [hw] at hp'
    have hcl := hN m' (by omega)
    have hfl := (hcore m').fl_mem i
    have : ((σ (m' + 1)).acts i).finished = true := by
      generalize σ (m' + 1) = s' at hst'
      cases hst' with
      | wake hp2 hr =>
        simp only []
        rw [handle_acts]
        split
        · rfl
        · rename_i hmem
          cases hx : ((σ m').acts i).finished with
          | true => rfl
          | false => exact absurd (hfl.2 ⟨hcl, hx⟩) hmem
      | timeout hp2 hr =>
        simp only []
        cases hx : ((σ m').acts i).finished with
        | true => rfl
        | false =>
          have := hfl.2 ⟨hcl, hx⟩
          exact absurd (.inr (List.ne_nil_of_mem this)) hr
      | _ => simp_all
    exact ⟨m' + 1, fun k hk => (fair_later hf hk i).2.2.1 this⟩
  by_cases hall : ∀ i < c.size, ∃ n, ((σ n).acts i).started = true
  · -- all finish: the next pass ends the list
    obtain ⟨N, hN⟩ := eventually_all c.size (fun i m => ((σ m).acts i).finished = true)
      (fun i hi => hfin i (hall i hi))
    obtain ⟨m, hm, hp, hst⟩ := next_visit hf hgo N c.size (Nat.le_refl _)
    have hx := hnex (m + 1)
    generalize σ (m + 1) = s' at hst hx
    cases hst with
    | visit j delay hpj hj => rw [hp] at hpj; injection hpj with hpj; omega
    | scanned hpj =>
      apply hx
      simp only []
      rw [if_pos]
      intro i hi
      exact hN i hi m (by omega)
    | _ => simp_all
  · -- the first action that is never started
    have hex : ∃ i, i < c.size ∧ ¬ ∃ n, ((σ n).acts i).started = true := by
      simp only [Classical.not_forall] at hall
      obtain ⟨i, hi, h⟩ := hall
      exact ⟨i, hi, h⟩
    obtain ⟨i, ⟨hi, hns⟩, hmin⟩ := least_nat hex
    have hns : ∀ n, ((σ n).acts i).started = false := by
      intro n
      cases hx : ((σ n).acts i).started with
      | false => rfl
      | true => exact absurd ⟨n, hx⟩ hns
    obtain ⟨N, hN⟩ := eventually_all i (fun d m => ((σ m).acts d).finished = true) (by
      intro d hd
      refine hfin d ?_
      by_cases hx : ∃ n, ((σ n).acts d).started = true
      · exact hx
      · exact absurd ⟨by omega, hx⟩ (hmin d hd))
    have hvisit : ∀ n ≥ N, ∃ m ≥ n, ((σ (m + 1)).acts i).waiting = true ∧
        (((σ m).acts i).waiting = true → ((σ m).acts i).wakeAt > (σ m).now) := by
      intro n hn
      obtain ⟨m, hm, hp, hst⟩ := next_visit hf hgo n i (by omega)
      refine ⟨m, hm, ?_⟩
      have h1 := hns (m + 1)
      have h2 := hncr (m + 1)
      generalize σ (m + 1) = s' at hst h1 h2
      cases hst with
      | visit j delay hpj hj =>
        rw [hp] at hpj
        injection hpj with hpj
        subst hpj
        have hv := visit_ready (delay := delay) hi (hns m)
          (fun d hd => hN d (hb i d hd) m (by omega)) (hncr m)
        unfold advance at h1 h2 ⊢
        split at h2
        · rename_i hcr; exact absurd hcr h2
        · rename_i hcr
          rw [if_neg hcr] at h1 ⊢
          rcases hv with hv | hv | hv
          · simp only at h1; rw [hv] at h1; simp at h1
          · exact absurd hv hcr
          · exact hv
      | scanned hpj => rw [hp] at hpj; injection hpj with hpj; omega
      | _ => simp_all
    obtain ⟨m1, hm1, hw1, -⟩ := hvisit N (Nat.le_refl _)
    obtain ⟨m2, hm2, hclk⟩ := hf.clock ((σ (m1 + 1)).acts i).wakeAt (m1 + 1)
    have hclk : ((σ (m1 + 1)).acts i).wakeAt ≤ (σ m2).now := by
      rcases hclk with h | h | h | h | h
      · exact h
      · exact absurd h (hndr m2)
      · exact absurd h (hnex m2)
      · exact absurd h (hnd m2)
      · exact absurd h (hncr m2)
    obtain ⟨m3, hm3, -, hk3⟩ := hvisit m2 (by omega)
    obtain ⟨g1, g2⟩ := (fair_later hf (show m1 + 1 ≤ m3 by omega) i).2.2.2 hw1 (hns m3)
    have := hk3 g1
    have := fair_now hf hm3
    omega

end

end Distbench.ActionList
