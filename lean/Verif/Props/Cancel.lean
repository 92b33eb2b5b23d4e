import Verif.Spec.Cancel
import Verif.Props.Sequencer

/-! Properties of cancelling and of shutting down: C179, C180. -/

namespace Distbench.Cancel
open Spec

/-! ### histories -/

theorem lastTest_snoc (h : List Event) (e : Event) :
    lastTest (h ++ [e]) = if e = .configured then [] else lastTest h ++ [e] := by
  induction h with
  | nil =>
    simp [lastTest]
  | cons x h ih =>
    rw [List.cons_append, lastTest, ih]
    by_cases he : e = .configured
    · subst he
      simp
    · have h1 : (Event.configured ∈ h ++ [e]) ↔ Event.configured ∈ h := by
        rw [List.mem_append, List.mem_singleton]
        exact ⟨fun h => h.resolve_right (fun h' => he h'.symm), Or.inl⟩
      rw [if_neg he, if_neg he, lastTest]
      by_cases h2 : Event.configured ∈ h
      · rw [if_pos (h1.2 h2), if_pos h2]
      · rw [if_neg (fun h' => h2 (h1.1 h')), if_neg h2]
        split <;> simp

theorem lastTest_append {h h' : List Event} (hc : .configured ∉ h') :
    lastTest (h ++ h') = lastTest h ++ h' := by
  induction h' generalizing h with
  | nil => simp
  | cons e h' ih =>
    have h1 : e ≠ .configured := fun he => hc (by rw [he]; exact List.mem_cons_self)
    have := ih (h := h ++ [e]) (fun hm => hc (List.mem_cons_of_mem _ hm))
    rw [List.append_assoc, List.singleton_append] at this
    rw [this, lastTest_snoc, if_neg h1, List.append_assoc, List.singleton_append]

theorem trafficOn_snoc (h : List Event) (e : Event) (n : Nat) :
    TrafficOn (h ++ [e]) n ↔ e = .runSent n ∨ (TrafficOn h n ∧ e ≠ .runAnswered n) := by
  constructor
  · rintro ⟨b, a, he, ha⟩
    rcases List.eq_nil_or_concat a with rfl | ⟨a', x, rfl⟩
    · have := List.append_inj_right' he rfl
      left
      cases this
      rfl
    · rw [List.concat_eq_append, ← List.cons_append, ← List.append_assoc] at he
      have h1 := List.append_inj_left' he rfl
      have h2 := List.append_inj_right' he rfl
      cases h2
      rw [List.concat_eq_append, List.mem_append, not_or, List.mem_singleton] at ha
      exact Or.inr ⟨⟨b, a', h1, ha.1⟩, fun h => ha.2 h.symm⟩
  · rintro (rfl | ⟨⟨b, a, rfl, ha⟩, hne⟩)
    · exact ⟨h, [], rfl, by simp⟩
    · refine ⟨b, a ++ [e], by simp, ?_⟩
      rw [List.mem_append, List.mem_singleton, not_or]
      exact ⟨ha, fun h => hne h.symm⟩

theorem told_snoc {h : List Event} {e : Event} {n : Nat} (he : e ≠ .configured)
    (ht : ToldToStop h n) : ToldToStop (h ++ [e]) n := by
  obtain ⟨i, hi⟩ := ht
  refine ⟨i, ?_⟩
  rw [lastTest_snoc, if_neg he]
  exact List.mem_append_left _ hi

/-! ### the invariant -/

/-- The nodes for which the loop of `RunTraffic` waits. -/
private def pendingOf : Phase → List Nat
  | .sending _ _ _ pending => pending
  | _ => []

/-- The node that was marked but has not been sent anything. -/
private def markedOf : Phase → Option Nat
  | .sending _ _ marked _ => marked
  | _ => none

/-- What holds after every history. -/
private structure Inv (h : List Event) (s : State) : Prop where
  traffic : ∀ n, TrafficOn h n ↔ n ∈ pendingOf s.phase
  live : ∀ n, n ∈ pendingOf s.phase ∨ markedOf s.phase = some n → n ∈ s.active ∨ ToldToStop h n
  waiting : ∀ c ∈ s.calls, ∀ n ∈ c.waiting, ToldToStop h n
  begun : ∀ c ∈ s.calls, ∃ before after, h = before ++ .cancelBegins c.id :: after ∧
    .configured ∉ after ∧ .cancelBegins c.id ∉ after ∧
    ∀ n, TrafficOn before n → n ∈ c.todo ∨ ToldToStop h n
  distinct : (s.calls.map (·.id)).Nodup

private theorem mem_markActive {a : List Nat} {n m : Nat} : m ∈ markActive a n ↔ m ∈ a ∨ m = n := by
  unfold markActive
  split
  · rename_i h
    exact ⟨Or.inl, fun h' => h'.elim id (fun e => e ▸ h)⟩
  · simp

private theorem mem_markInactive {a : List Nat} {n m : Nat} :
    m ∈ markInactive a n ↔ m ∈ a ∧ m ≠ n := by
  simp [markInactive]

/-- The parts of the invariant about calls survive a step that leaves the calls alone. -/
private theorem calls_keep {h : List Event} {s s' : State} {e : Event} (inv : Inv h s)
    (hc : s'.calls = s.calls) (he : e ≠ .configured) (hr : ∀ c ∈ s.calls, e ≠ .cancelBegins c.id) :
    (∀ c ∈ s'.calls, ∀ n ∈ c.waiting, ToldToStop (h ++ [e]) n) ∧
    (∀ c ∈ s'.calls, ∃ before after, h ++ [e] = before ++ .cancelBegins c.id :: after ∧
      .configured ∉ after ∧ .cancelBegins c.id ∉ after ∧
      ∀ n, TrafficOn before n → n ∈ c.todo ∨ ToldToStop (h ++ [e]) n) ∧
    (s'.calls.map (·.id)).Nodup := by
  rw [hc]
  refine ⟨fun c hm n hn => told_snoc he (inv.waiting c hm n hn), fun c hm => ?_, inv.distinct⟩
  obtain ⟨b, a, h1, h2, h3, h4⟩ := inv.begun c hm
  refine ⟨b, a ++ [e], by rw [h1]; simp, ?_, ?_, fun n hn => (h4 n hn).imp id (told_snoc he)⟩
  · rw [List.mem_append, List.mem_singleton, not_or]
    exact ⟨h2, fun h => he h.symm⟩
  · rw [List.mem_append, List.mem_singleton, not_or]
    exact ⟨h3, fun h => hr c hm h.symm⟩

/-- An event that is not about traffic on a node. -/
private theorem traffic_keep {h : List Event} {e : Event} (n : Nat) (h1 : ∀ n, e ≠ .runSent n)
    (h2 : ∀ n, e ≠ .runAnswered n) : TrafficOn (h ++ [e]) n ↔ TrafficOn h n := by
  rw [trafficOn_snoc]
  constructor
  · rintro (h | h)
    · exact absurd h (h1 n)
    · exact h.1
  · exact fun h => Or.inr ⟨h, h2 n⟩

private theorem inv_step {h : List Event} {s s' : State} {e : Event} (inv : Inv h s)
    (hs : Step s e s') : Inv (h ++ [e]) s' := by
  cases hs with
  | configure h1 h2 =>
    refine ⟨fun n => ?_, ?_, ?_, ?_, ?_⟩
    · rw [traffic_keep n (by simp) (by simp), inv.traffic, h1]
      rfl
    · rintro n (hn | hn) <;> cases hn
    · intro c hc; rw [h2] at hc; cases hc
    · intro c hc; rw [h2] at hc; cases hc
    · exact inv.distinct
  | giveUp h1 =>
    obtain ⟨k1, k2, k3⟩ := calls_keep (e := .trafficEnded) (s' := { s with phase := .idle }) inv rfl
      (by simp) (by simp)
    refine ⟨fun n => ?_, ?_, k1, k2, k3⟩
    · rw [traffic_keep n (by simp) (by simp), inv.traffic, h1]
      rfl
    · rintro n (hn | hn) <;> cases hn
  | enter nodes h1 hnd =>
    obtain ⟨k1, k2, k3⟩ := calls_keep (e := .silent)
      (s' := { s with phase := .sending nodes nodes none [] }) inv rfl (by simp) (by simp)
    refine ⟨fun n => ?_, ?_, k1, k2, k3⟩
    · rw [traffic_keep n (by simp) (by simp), inv.traffic, h1]
      rfl
    · rintro n (hn | hn) <;> cases hn
  | @mark nodes node todo pending h1 =>
    obtain ⟨k1, k2, k3⟩ := calls_keep (e := .silent)
      (s' := { s with active := markActive s.active node,
                      phase := .sending nodes todo (some node) pending }) inv rfl (by simp) (by simp)
    refine ⟨fun n => ?_, ?_, k1, k2, k3⟩
    · rw [traffic_keep n (by simp) (by simp), inv.traffic, h1]
      rfl
    · rintro n (hn | hn)
      · rcases inv.live n (Or.inl (by rw [h1]; exact hn)) with h | h
        · exact Or.inl (mem_markActive.2 (Or.inl h))
        · exact Or.inr (told_snoc (by simp) h)
      · cases hn
        exact Or.inl (mem_markActive.2 (Or.inr rfl))
  | @send nodes todo node pending h1 =>
    obtain ⟨k1, k2, k3⟩ := calls_keep (e := .runSent node)
      (s' := { s with phase := .sending nodes todo none (node :: pending) }) inv rfl (by simp) (by simp)
    refine ⟨fun n => ?_, ?_, k1, k2, k3⟩
    · rw [trafficOn_snoc, inv.traffic, h1]
      simp only [pendingOf, List.mem_cons, Event.runSent.injEq, ne_eq, reduceCtorEq,
        not_false_eq_true, and_true]
      exact or_congr_left eq_comm
    · rintro n (hn | hn)
      · simp only [pendingOf, List.mem_cons] at hn
        rcases inv.live n (by
          rw [h1]
          rcases hn with rfl | hn
          · exact Or.inr rfl
          · exact Or.inl hn) with h | h
        · exact Or.inl h
        · exact Or.inr (told_snoc (by simp) h)
      · cases hn
  | @answer nodes todo marked pending node h1 hmem =>
    obtain ⟨k1, k2, k3⟩ := calls_keep (e := .runAnswered node)
      (s' := { s with phase := .sending nodes todo marked (pending.filter (· ≠ node)) }) inv rfl
      (by simp) (by simp)
    refine ⟨fun n => ?_, ?_, k1, k2, k3⟩
    · rw [trafficOn_snoc, inv.traffic, h1]
      simp only [pendingOf, List.mem_filter, decide_eq_true_eq, Event.runAnswered.injEq, ne_eq,
        reduceCtorEq, false_or]
      exact and_congr_right (fun _ => not_congr eq_comm)
    · rintro n hn
      rcases inv.live n (by
        rw [h1]
        rcases hn with hn | hn
        · exact Or.inl (List.mem_filter.1 hn).1
        · exact Or.inr hn) with h | h
      · exact Or.inl h
      · exact Or.inr (told_snoc (by simp) h)
  | @fail nodes h1 =>
    obtain ⟨k1, k2, k3⟩ := calls_keep (e := .trafficEnded) (s' := { s with phase := .idle }) inv rfl
      (by simp) (by simp)
    refine ⟨fun n => ?_, ?_, k1, k2, k3⟩
    · rw [traffic_keep n (by simp) (by simp), inv.traffic, h1]
      rfl
    · rintro n (hn | hn) <;> cases hn
  | @collect nodes h1 =>
    obtain ⟨k1, k2, k3⟩ := calls_keep (e := .trafficEnded) (s' := { s with phase := .collecting nodes })
      inv rfl (by simp) (by simp)
    refine ⟨fun n => ?_, ?_, k1, k2, k3⟩
    · rw [traffic_keep n (by simp) (by simp), inv.traffic, h1]
      rfl
    · rintro n (hn | hn) <;> cases hn
  | @collected left node h1 hmem =>
    obtain ⟨k1, k2, k3⟩ := calls_keep (e := .silent)
      (s' := { s with active := markInactive s.active node,
                      phase := .collecting (left.filter (· ≠ node)) }) inv rfl (by simp) (by simp)
    refine ⟨fun n => ?_, ?_, k1, k2, k3⟩
    · rw [traffic_keep n (by simp) (by simp), inv.traffic, h1]
      rfl
    · rintro n (hn | hn) <;> cases hn
  | finish h1 =>
    obtain ⟨k1, k2, k3⟩ := calls_keep (e := .silent) (s' := { s with phase := .idle }) inv rfl
      (by simp) (by simp)
    refine ⟨fun n => ?_, ?_, k1, k2, k3⟩
    · rw [traffic_keep n (by simp) (by simp), inv.traffic, h1]
      rfl
    · rintro n (hn | hn) <;> cases hn
  | cancel i hnew =>
    obtain ⟨k1, k2, k3⟩ := calls_keep (e := .cancelBegins i) (s' := s) inv rfl (by simp)
      (fun c hc he => hnew c hc (by simpa using he.symm))
    refine ⟨fun n => ?_, ?_, ?_, ?_, ?_⟩
    · rw [traffic_keep n (by simp) (by simp), inv.traffic]
    · intro n hn
      exact (inv.live n hn).imp id (told_snoc (by simp))
    · intro c hc n hn
      rcases List.mem_append.1 hc with hc | hc
      · exact k1 c hc n hn
      · rw [List.mem_singleton] at hc
        subst hc
        cases hn
    · intro c hc
      rcases List.mem_append.1 hc with hc | hc
      · exact k2 c hc
      · rw [List.mem_singleton] at hc
        subst hc
        refine ⟨h, [], rfl, by simp, by simp, fun n hn => ?_⟩
        exact (inv.live n (Or.inl ((inv.traffic n).1 hn))).imp id (told_snoc (by simp))
    · rw [List.map_append, List.nodup_append]
      refine ⟨inv.distinct, by simp, ?_⟩
      intro x hx y hy
      obtain ⟨c, hc, rfl⟩ := List.mem_map.1 hx
      simp only [List.map_cons, List.map_nil, List.mem_singleton] at hy
      subst hy
      exact hnew c hc
  | @tell bf af i node todo waiting h1 =>
    obtain ⟨k1, k2, k3⟩ := calls_keep (e := .cancelSent i node) (s' := s) inv rfl (by simp) (by simp)
    have htold : ToldToStop (h ++ [.cancelSent i node]) node := by
      refine ⟨i, ?_⟩
      rw [lastTest_snoc, if_neg (by simp)]
      simp
    rw [h1] at k1 k2 k3
    refine ⟨fun n => ?_, ?_, ?_, ?_, ?_⟩
    · rw [traffic_keep n (by simp) (by simp), inv.traffic]
    · intro n hn
      exact (inv.live n hn).imp id (told_snoc (by simp))
    · intro c hc n hn
      simp only [List.mem_append, List.mem_cons] at hc
      rcases hc with hc | rfl | hc
      · exact k1 c (by simp [hc]) n hn
      · rcases List.mem_cons.1 hn with rfl | hn
        · exact htold
        · exact k1 ⟨i, node :: todo, waiting⟩ (by simp) n hn
      · exact k1 c (by simp [hc]) n hn
    · intro c hc
      simp only [List.mem_append, List.mem_cons] at hc
      rcases hc with hc | rfl | hc
      · exact k2 c (by simp [hc])
      · obtain ⟨b, a, e1, e2, e3, e4⟩ := k2 ⟨i, node :: todo, waiting⟩ (by simp)
        refine ⟨b, a, e1, e2, e3, fun n hn => ?_⟩
        rcases e4 n hn with h | h
        · rcases List.mem_cons.1 h with rfl | h
          · exact Or.inr htold
          · exact Or.inl h
        · exact Or.inr h
      · exact k2 c (by simp [hc])
    · simpa using k3
  | @told bf af i node waiting h1 hmem =>
    obtain ⟨k1, k2, k3⟩ := calls_keep (e := .silent) (s' := s) inv rfl (by simp) (by simp)
    rw [h1] at k1 k2 k3
    have htold : ToldToStop (h ++ [.silent]) node := k1 ⟨i, [], waiting⟩ (by simp) node hmem
    refine ⟨fun n => ?_, ?_, ?_, ?_, ?_⟩
    · rw [traffic_keep n (by simp) (by simp), inv.traffic]
    · intro n hn
      rcases inv.live n hn with h | h
      · by_cases hne : n = node
        · subst hne; exact Or.inr htold
        · exact Or.inl (mem_markInactive.2 ⟨h, hne⟩)
      · exact Or.inr (told_snoc (by simp) h)
    · intro c hc n hn
      simp only [List.mem_append, List.mem_cons] at hc
      rcases hc with hc | rfl | hc
      · exact k1 c (by simp [hc]) n hn
      · exact k1 ⟨i, [], waiting⟩ (by simp) n (List.mem_filter.1 hn).1
      · exact k1 c (by simp [hc]) n hn
    · intro c hc
      simp only [List.mem_append, List.mem_cons] at hc
      rcases hc with hc | rfl | hc
      · exact k2 c (by simp [hc])
      · exact k2 ⟨i, [], waiting⟩ (by simp)
      · exact k2 c (by simp [hc])
    · simpa using k3
  | @cancelled bf af i h1 =>
    have hd := inv.distinct
    rw [h1] at hd
    have hne : ∀ c, c ∈ bf ∨ c ∈ af → c.id ≠ i := by
      intro c hc he
      simp only [List.map_append, List.map_cons] at hd
      rw [List.nodup_append] at hd
      obtain ⟨_, h2, h3⟩ := hd
      rcases hc with hc | hc
      · exact h3 c.id (List.mem_map_of_mem hc) i List.mem_cons_self he
      · rw [List.nodup_cons] at h2
        exact h2.1 (he ▸ List.mem_map_of_mem hc)
    have hmem : ∀ c, c ∈ bf ++ af → c ∈ s.calls ∧ c.id ≠ i := by
      intro c hc
      rw [List.mem_append] at hc
      refine ⟨?_, hne c hc⟩
      rw [h1]
      rcases hc with hc | hc <;> simp [hc]
    refine ⟨fun n => ?_, ?_, ?_, ?_, ?_⟩
    · rw [traffic_keep n (by simp) (by simp), inv.traffic]
    · intro n hn
      exact (inv.live n hn).imp id (told_snoc (by simp))
    · intro c hc n hn
      exact told_snoc (by simp) (inv.waiting c (hmem c hc).1 n hn)
    · intro c hc
      obtain ⟨hc1, hc2⟩ := hmem c hc
      obtain ⟨b, a, e1, e2, e3, e4⟩ := inv.begun c hc1
      refine ⟨b, a ++ [.cancelReturns i], by rw [e1]; simp, by simp [e2], ?_,
        fun n hn => (e4 n hn).imp id (told_snoc (by simp))⟩
      simpa using e3
    · simp only [List.map_append, List.map_cons] at hd ⊢
      exact hd.sublist (List.Sublist.append (List.Sublist.refl _) (List.sublist_cons_self _ _))

private theorem inv_run {h : List Event} {s : State} (hr : Run h s) : Inv h s := by
  induction hr with
  | start =>
    refine ⟨fun n => ⟨?_, fun h => by cases h⟩, ?_, ?_, ?_, List.nodup_nil⟩
    · rintro ⟨b, a, h, -⟩
      simp at h
    · rintro n (hn | hn) <;> cases hn
    · intro c hc; cases hc
    · intro c hc; cases hc
  | step _ hs ih => exact inv_step ih hs

/-! ### C179: a new request stops the traffic of the running one -/

/-- A history in which a request cancels while the running test is about to start its traffic. -/
def lateHistory : List Event :=
  [.configured, .silent, .cancelBegins 0, .cancelReturns 0, .silent, .runSent 7]

theorem late_run : ∃ s, Run lateHistory s := by
  have h1 := Run.start.step (.configure rfl rfl)
  have h2 := h1.step (.enter [7] rfl (by decide))
  have h3 := h2.step (.cancel 0 (by simp))
  have h4 := h3.step (.cancelled (before := []) (after := []) rfl)
  have h5 := h4.step (.mark rfl)
  exact ⟨_, h5.step (.send rfl)⟩

/-- The property fails: a request that comes after the test was configured and before its traffic
starts tells nobody to stop. -/
theorem C179_negation : ¬ ∀ (h : List Event) (s : State), Run h s → SomeoneCancelled h →
    ∀ n, TrafficOn h n → ToldToStop h n := by
  intro hall
  obtain ⟨s, hr⟩ := late_run
  obtain ⟨i, hi⟩ := hall lateHistory s hr ⟨0, by decide, by decide⟩ 7
    ⟨[.configured, .silent, .cancelBegins 0, .cancelReturns 0, .silent], [], rfl, by simp⟩
  have : Event.cancelSent i 7 ∈ [Event.silent, .cancelBegins 0, .cancelReturns 0, .silent, .runSent 7] := hi
  simp at this

private theorem split_last_eq {α : Type} {x : α} {b a b' a' : List α} (h : b ++ x :: a = b' ++ x :: a')
    (ha : x ∉ a) (ha' : x ∉ a') : b = b' := by
  rcases List.append_eq_append_iff.1 h with ⟨c, h1, h2⟩ | ⟨c, h1, h2⟩
  · cases c with
    | nil => simpa using h1.symm
    | cons y c =>
      rw [List.cons_append] at h2
      injection h2 with h3 h4
      exact absurd (by rw [h4]; simp) ha
  · cases c with
    | nil => simpa using h1
    | cons y c =>
      rw [List.cons_append] at h2
      injection h2 with h3 h4
      exact absurd (by rw [h4]; simp) ha'

/-- Missing from the full property: nodes that are sent traffic after the request has read which
nodes are active.  All nodes that have traffic when a request begins to cancel have been told to stop,
for this test, when it is done. -/
theorem C179_stopped_partial (before after : List Event) (i : Nat) (s : State)
    (hr : Run (before ++ .cancelBegins i :: after ++ [.cancelReturns i]) s)
    (honce : .cancelBegins i ∉ after) (n : Nat) (hn : TrafficOn before n) :
    ToldToStop (before ++ .cancelBegins i :: after ++ [.cancelReturns i]) n := by
  generalize hh : before ++ .cancelBegins i :: after ++ [.cancelReturns i] = h at hr
  cases hr with
  | start => simp at hh
  | @step h' s0 e _ hr hs =>
    have h1 := List.append_inj_left' hh rfl
    have h2 := List.append_inj_right' hh rfl
    simp only [List.cons.injEq, and_true] at h2
    subst h1 h2
    have inv := inv_run hr
    cases hs with
    | @cancelled bf af _ hcalls =>
      obtain ⟨b, a, e1, e2, e3, e4⟩ := inv.begun ⟨i, [], []⟩ (by rw [hcalls]; simp)
      obtain rfl := split_last_eq e1 honce e3
      rcases e4 n hn with h | h
      · cases h
      · exact told_snoc (by simp) h

/-- A history in which a request cancels while node 7 has traffic. -/
def timelyHistory : List Event :=
  [.configured, .silent, .silent, .runSent 7] ++ .cancelBegins 0 :: [.cancelSent 0 7, .silent] ++
    [.cancelReturns 0]

theorem timely_run : ∃ s, Run timelyHistory s := by
  have h1 := Run.start.step (.configure rfl rfl)
  have h2 := h1.step (.enter [7] rfl (by decide))
  have h3 := h2.step (.mark rfl)
  have h4 := h3.step (.send rfl)
  have h5 := h4.step (.cancel 0 (by simp))
  have h6 := h5.step (.tell (before := []) (after := []) rfl)
  have h7 := h6.step (.told (before := []) (after := []) (node := 7) rfl (by simp))
  exact ⟨_, h7.step (.cancelled (before := []) (after := []) rfl)⟩

example (s : State) (h : Run timelyHistory s) : ToldToStop timelyHistory 7 :=
  C179_stopped_partial _ _ 0 s h (by decide) 7 ⟨[.configured, .silent, .silent], [], rfl, by simp⟩

/-! ### C294: a test cleans up after itself -/

/-- Some steps, of whatever kind. -/
inductive Later : State → List Event → State → Prop
  | here {s} : Later s [] s
  | step {s e m h s'} : Step s e m → Later m h s' → Later s (e :: h) s'

/-- While results are collected, every node is marked or has been collected. -/
theorem collecting_step {s s' : State} {e : Event} {left all : List Nat} (hs : Step s e s')
    (hp : s.phase = .collecting left) (ha : ∀ n ∈ all, n ∈ left ∨ n ∉ s.active) :
    (s'.phase = .idle ∧ ∀ n ∈ all, n ∉ s'.active) ∨
    ∃ left', s'.phase = .collecting left' ∧ ∀ n ∈ all, n ∈ left' ∨ n ∉ s'.active := by
  have hinact : ∀ {n node : Nat}, n ∉ s.active → n ∉ markInactive s.active node :=
    fun h h' => h (List.mem_filter.1 h').1
  cases hs with
  | configure h => rw [hp] at h; cases h
  | giveUp h => rw [hp] at h; cases h
  | enter _ h => rw [hp] at h; cases h
  | mark h => rw [hp] at h; cases h
  | send h => rw [hp] at h; cases h
  | answer h => rw [hp] at h; cases h
  | fail h => rw [hp] at h; cases h
  | collect h => rw [hp] at h; cases h
  | @collected left' node h hn =>
    rw [hp] at h
    cases h
    refine Or.inr ⟨_, rfl, fun n hna => ?_⟩
    by_cases he : n = node
    · exact Or.inr (by rw [he]; simp [markInactive])
    · rcases ha n hna with h1 | h1
      · exact Or.inl (List.mem_filter.2 ⟨h1, by simpa using he⟩)
      · exact Or.inr (hinact h1)
  | finish h =>
    rw [hp] at h
    cases h
    refine Or.inl ⟨rfl, fun n hna => ?_⟩
    rcases ha n hna with h1 | h1
    · cases h1
    · exact h1
  | cancel => exact Or.inr ⟨left, hp, ha⟩
  | tell => exact Or.inr ⟨left, hp, ha⟩
  | told =>
    refine Or.inr ⟨left, hp, fun n hna => ?_⟩
    exact (ha n hna).imp id hinact
  | cancelled => exact Or.inr ⟨left, hp, ha⟩

/-- Missing from the full property: tests that fail.  When the results of the nodes `left` have been collected
and the test is over, none of them is marked any more: whatever requests cancelled meanwhile, the next
request that cancels has none of them on its list. -/
theorem C294_clean_partial {s s' : State} {left : List Nat} {h : List Event} (hp : s.phase = .collecting left)
    (hl : Later s h s') (hc : .configured ∉ h) (hi : s'.phase = .idle) : ∀ n ∈ left, n ∉ s'.active := by
  suffices key : ∀ {s s' : State} {h : List Event}, Later s h s' → .configured ∉ h → s'.phase = .idle →
      ((s.phase = .idle ∧ ∀ n ∈ left, n ∉ s.active) ∨
        ∃ left', s.phase = .collecting left' ∧ ∀ n ∈ left, n ∈ left' ∨ n ∉ s.active) →
      ∀ n ∈ left, n ∉ s'.active from key hl hc hi (Or.inr ⟨left, hp, fun n hn => Or.inl hn⟩)
  intro s s' h hl
  induction hl with
  | here =>
    intro _ hi h0
    rcases h0 with ⟨-, h0⟩ | ⟨left', h0, -⟩
    · exact h0
    · rw [hi] at h0; cases h0
  | @step s e m h s' hs _ ih =>
    intro hc hi h0
    refine ih (fun h => hc (List.mem_cons_of_mem _ h)) hi ?_
    rcases h0 with ⟨h1, h2⟩ | ⟨left', h1, h2⟩
    · have hinact : ∀ {n node : Nat}, n ∉ s.active → n ∉ markInactive s.active node :=
        fun h h' => h (List.mem_filter.1 h').1
      cases hs with
      | configure => exact absurd List.mem_cons_self hc
      | giveUp h => rw [h1] at h; cases h
      | enter _ h => rw [h1] at h; cases h
      | mark h => rw [h1] at h; cases h
      | send h => rw [h1] at h; cases h
      | answer h => rw [h1] at h; cases h
      | fail h => rw [h1] at h; cases h
      | collect h => rw [h1] at h; cases h
      | collected h => rw [h1] at h; cases h
      | finish h => rw [h1] at h; cases h
      | cancel => exact Or.inl ⟨h1, h2⟩
      | tell => exact Or.inl ⟨h1, h2⟩
      | told => exact Or.inl ⟨h1, fun n hn => hinact (h2 n hn)⟩
      | cancelled => exact Or.inl ⟨h1, h2⟩
    · exact collecting_step hs h1 h2

/-- Missing from the full property: tests that fail.  Once the results of the nodes `left` have been collected,
the test is over and no request is cancelling, no request tells any of them to stop before the next test. -/
theorem C294_not_told_partial {s s' s'' : State} {left : List Nat} {h h' : List Event}
    (hp : s.phase = .collecting left) (hl : Later s h s') (hc : .configured ∉ h) (hi : s'.phase = .idle)
    (hq : s'.calls = []) (hl' : Later s' h' s'') (hc' : .configured ∉ h') :
    ∀ n ∈ left, ∀ i, .cancelSent i n ∉ h' := by
  intro n hn i
  have h0 := C294_clean_partial hp hl hc hi n hn
  have h1 : ∀ c ∈ s'.calls, n ∉ c.todo := by rw [hq]; intro c hc; cases hc
  clear hl hq hp hc
  induction hl' with
  | here => intro h; cases h
  | @step s e m h s' hs _ ih =>
    have hrest : .configured ∉ h := fun h => hc' (List.mem_cons_of_mem _ h)
    have go : e ≠ .cancelSent i n → m.phase = .idle → n ∉ m.active → (∀ c ∈ m.calls, n ∉ c.todo) →
        .cancelSent i n ∉ e :: h := by
      intro h1 h2 h3 h4 h5
      rcases List.mem_cons.1 h5 with h5 | h5
      · exact h1 h5.symm
      · exact ih h2 hrest h3 h4 h5
    cases hs with
    | configure => exact absurd List.mem_cons_self hc'
    | giveUp h => rw [hi] at h; cases h
    | enter _ h => rw [hi] at h; cases h
    | mark h => rw [hi] at h; cases h
    | send h => rw [hi] at h; cases h
    | answer h => rw [hi] at h; cases h
    | fail h => rw [hi] at h; cases h
    | collect h => rw [hi] at h; cases h
    | collected h => rw [hi] at h; cases h
    | finish h => rw [hi] at h; cases h
    | cancel j =>
      refine go (by simp) hi h0 fun c hc => ?_
      rcases List.mem_append.1 hc with hc | hc
      · exact h1 c hc
      · rw [List.mem_singleton.1 hc]
        exact h0
    | @tell before after j node todo waiting hcs =>
      rw [hcs] at h1
      have hself := h1 ⟨j, node :: todo, waiting⟩ (by simp)
      refine go ?_ hi h0 fun c hc => ?_
      · intro he
        injection he with _ he
        exact hself (by rw [he]; exact List.mem_cons_self)
      · rcases List.mem_append.1 hc with hc | hc
        · exact h1 c (List.mem_append_left _ hc)
        · rcases List.mem_cons.1 hc with rfl | hc
          · exact fun h => hself (List.mem_cons_of_mem _ h)
          · exact h1 c (List.mem_append_right _ (List.mem_cons_of_mem _ hc))
    | @told before after j node waiting hcs _ =>
      rw [hcs] at h1
      refine go (by simp) hi (fun h => h0 (List.mem_filter.1 h).1) fun c hc => ?_
      rcases List.mem_append.1 hc with hc | hc
      · exact h1 c (List.mem_append_left _ hc)
      · rcases List.mem_cons.1 hc with rfl | hc
        · exact List.not_mem_nil
        · exact h1 c (List.mem_append_right _ (List.mem_cons_of_mem _ hc))
    | @cancelled before after j hcs =>
      rw [hcs] at h1
      refine go (by simp) hi h0 fun c hc => h1 c ?_
      rcases List.mem_append.1 hc with hc | hc
      · exact List.mem_append_left _ hc
      · exact List.mem_append_right _ (List.mem_cons_of_mem _ hc)

/-- C294: a test whose results are being collected can always be brought to its end, with nobody else's help. -/
theorem C294_ends {s : State} {left : List Nat} (hp : s.phase = .collecting left) :
    ∃ h s', Later s h s' ∧ (∀ e ∈ h, e = .silent) ∧ s'.phase = .idle ∧ s'.calls = s.calls := by
  generalize hn : left.length = n
  induction n using Nat.strongRecOn generalizing s left with
  | _ n ih =>
    cases left with
    | nil => exact ⟨_, _, .step (.finish hp) .here, by simp, rfl, rfl⟩
    | cons node rest =>
      have hlt : ((node :: rest).filter (· ≠ node)).length < n := by
        rw [← hn, List.filter_cons_of_neg (by simp)]
        exact Nat.lt_of_le_of_lt (List.length_filter_le _ _) (by simp)
      obtain ⟨h, s', h1, h2, h3, h4⟩ := ih _ hlt
        (s := { s with active := markInactive s.active node,
                       phase := .collecting ((node :: rest).filter (· ≠ node)) }) rfl rfl
      exact ⟨_, s', .step (.collected hp List.mem_cons_self) h1, by
        intro e he
        rcases List.mem_cons.1 he with rfl | he
        · rfl
        · exact h2 e he, h3, h4⟩

/-- A run in which the results of node 7 are being collected while a request cancels. -/
example : ∃ h s, Run h s ∧ s.phase = .collecting [7] ∧ s.active = [7] ∧ s.calls ≠ [] := by
  have h1 := Run.start.step (.configure rfl rfl)
  have h2 := h1.step (.enter [7] rfl (by decide))
  have h3 := h2.step (.mark rfl)
  have h4 := h3.step (.send rfl)
  have h5 := h4.step (.answer (node := 7) rfl (by simp))
  have h6 := h5.step (.collect rfl)
  exact ⟨_, _, h6.step (.cancel 0 (by simp)), rfl, rfl, by simp⟩

/-- C294 is false of a test that fails: its nodes stay marked, and the next request tells a node to stop that
has no traffic, while no test is running. -/
theorem C294_negation : ∃ h s, Run h s ∧ s.phase = .idle ∧ ¬ TrafficOn h 7 ∧ .trafficEnded ∈ h ∧
    h.getLast? = some (.cancelSent 0 7) := by
  have h1 := Run.start.step (.configure rfl rfl)
  have h2 := h1.step (.enter [7] rfl (by decide))
  have h3 := h2.step (.mark rfl)
  have h4 := h3.step (.send rfl)
  have h5 := h4.step (.answer (node := 7) rfl (by simp))
  have h6 := h5.step (.fail rfl)
  have h7 := h6.step (.cancel 0 (by simp))
  have h8 := h7.step (.tell (before := []) (after := []) rfl)
  refine ⟨_, _, h8, rfl, ?_, by simp, by simp⟩
  intro ht
  have := ((inv_run h8).traffic 7).1 ht
  revert this
  decide

/-! ### C180: everybody is asked to shut down -/

private theorem mem_targets {s : Sequencer.Registry} {i : Nat} :
    i ∈ shutdownTargets s ↔ ∃ n, RegisteredAs s n i := by
  unfold shutdownTargets RegisteredAs
  rw [List.mem_filter, List.mem_range]
  constructor
  · rintro ⟨h1, h2⟩
    rw [List.getElem?_eq_getElem h1] at h2 ⊢
    exact ⟨_, _, rfl, by simpa using h2, rfl⟩
  · rintro ⟨n, slot, h1, h2, h3⟩
    refine ⟨(List.getElem?_eq_some_iff.1 h1).1, ?_⟩
    rw [h1]
    simp [h2]

private theorem grows_history {s s' : Sequencer.Registry} (hg : Grows s s') {h} (hh : Sequencer.History s h) :
    ∃ more, Sequencer.History s' (h ++ more) := by
  induction hg with
  | refl => exact ⟨[], by simpa using hh⟩
  | step _ hr ih =>
    obtain ⟨more, hm⟩ := ih
    exact ⟨more ++ [_], by rw [← List.append_assoc]; exact hm.step hr⟩

/-- C180.  Each shutdown asks exactly the nodes that were accepted by then, each once. -/
theorem C180_each {s : Sequencer.Registry} {h} (hh : Sequencer.History s h) :
    (∀ id, id ∈ shutdownTargets s ↔ ∃ r n, Accepted h r id n) ∧ (shutdownTargets s).Nodup := by
  constructor
  · intro id
    rw [mem_targets]
    constructor
    · rintro ⟨n, hn⟩
      obtain ⟨r, hr⟩ := ((Sequencer.C43_table hh n id).1).1 hn
      exact ⟨r, n, hr⟩
    · rintro ⟨r, n, hr⟩
      exact ⟨n, ((Sequencer.C43_table hh n id).1).2 ⟨r, hr⟩⟩
  · exact List.Nodup.sublist List.filter_sublist List.nodup_range

/-- C180.  By the time the test sequencer is gone, exactly the nodes it ever accepted have been
asked to shut down, including those that registered while it was shutting down. -/
theorem C180_everybody {first last : Sequencer.Registry} {h h'} (hh : Sequencer.History first h)
    (hg : Grows first last) (hh' : Sequencer.History last h') (id : Nat) :
    id ∈ shutdownsSent first last ↔ ∃ r n, Accepted h' r id n := by
  unfold shutdownsSent
  rw [List.mem_append, (C180_each hh').1]
  constructor
  · rintro (h1 | h1)
    · obtain ⟨more, hm⟩ := grows_history hg hh
      obtain ⟨r, n, hacc⟩ := ((C180_each hh).1 id).1 h1
      obtain ⟨r', hr'⟩ := ((Sequencer.C43_table hh' n id).1).1
        (((Sequencer.C43_table hm n id).1).2 ⟨r, List.mem_append_left _ hacc⟩)
      exact ⟨r', n, hr'⟩
    · exact h1
  · exact Or.inr

example : shutdownTargets Sequencer.sampleRegistry = [0, 5, 6] := by decide +kernel
example := C180_each Sequencer.sample_history

end Distbench.Cancel
