import Verif.Lemmas.Replay

/-! The invariant of trace replay. -/

namespace Distbench.Replay
open Spec

def timesTold (i : Nat) (log : List Event) : Nat :=
  log.countP (fun ev => match ev with | .told k => k == i | _ => false)

/-- `j` has told those that depend on it, in the way `i` waits for. -/
def act (e : Env) (L : List Event) (i j : Nat) : Bool :=
  match e.mode i with
  | .priorStart => timesTold j L != 0
  | .priorEnd => timesSampled j L != 0
  | _ => false

/-- How the time at which `i` becomes due came about. -/
structure TimeOk (e : Env) (L : List Event) (i : Nat) (t : Int) : Prop where
  none : depsOf e i = [] → t = base e i + e.timing i
  start : e.mode i = .priorStart → ∀ j ∈ depsOf e i,
    ∃ tj w, Event.issued j tj w ∈ L ∧ tj + e.timing i ≤ t
  ends : e.mode i = .priorEnd → depsOf e i ≠ [] → ∃ l1 l2 j a b,
    L = l1 ++ Event.sampled j a b :: l2 ∧ j ∈ depsOf e i ∧ t = e.traceStart + a + b + e.timing i ∧
      ∀ k ∈ depsOf e i, k = j ∨ timesSampled k l1 ≠ 0
  mode : depsOf e i ≠ [] → e.mode i = .priorStart ∨ e.mode i = .priorEnd

theorem TimeOk.mono {e : Env} {L : List Event} {i : Nat} {t : Int} (h : TimeOk e L i t)
    (M : List Event) : TimeOk e (L ++ M) i t := by
  obtain ⟨h1, h2, h3, h4⟩ := h
  refine ⟨h1, ?_, ?_, h4⟩
  · intro hm j hj
    obtain ⟨tj, w, a, b⟩ := h2 hm j hj
    exact ⟨tj, w, List.mem_append_left _ a, b⟩
  · intro hm hd
    obtain ⟨l1, l2, j, a, b, c, d⟩ := h3 hm hd
    exact ⟨l1, l2 ++ M, j, a, b, by rw [c]; simp, d⟩

def popCount (m : Main) (i : Nat) : Nat :=
  match m with
  | .popped _ k => if k = i then 1 else 0
  | .aborted k => if k = i then 1 else 0
  | _ => 0

def sentCount (m : Main) (i : Nat) : Nat :=
  match m with
  | .sent k _ => if k = i then 1 else 0
  | _ => 0

/-- Where `i` is: in the queue, taken from it, or issued. -/
def places (s : State) (i : Nat) : Nat :=
  (s.ready.map (·.2)).count i + popCount s.main i + timesIssued i s.log

structure Inv (e : Env) (s : State) : Prop where
  deps : ∀ i, Belongs e i → s.deps i = ((depsOf e i).countP (fun j => !act e s.log i j) : Int)
  others : ∀ i, ¬ Belongs e i → s.deps i = 0
  once : ∀ i, Belongs e i → s.deps i = 0 → places s i = 1
  never : ∀ i, ¬ Belongs e i ∨ s.deps i ≠ 0 → places s i = 0
  told : ∀ i, timesTold i s.log + sentCount s.main i = timesIssued i s.log
  flight : ∀ i, (s.running.map (·.1)).count i + (s.ending.map (·.1)).count i +
    timesSampled i s.log = timesIssued i s.log
  remaining : s.remaining =
    ((List.range e.records.length).countP (fun i => e.mine i && timesSampled i s.log == 0) : Int)
  ready : ∀ t i, (t, i) ∈ s.ready → TimeOk e s.log i t
  popped : ∀ t i, s.main = .popped t i → TimeOk e s.log i t ∧ t ≤ s.now
  past : (∀ i t w, Event.issued i t w ∈ s.log → t ≤ s.now) ∧
    (∀ i t, Event.ended i t ∈ s.log → t ≤ s.now)
  sent : ∀ i st, s.main = .sent i st → (∃ w, Event.issued i st w ∈ s.log) ∧
    ∀ j tj w, Event.issued j tj w ∈ s.log → tj ≤ st
  running : ∀ i st, (i, st) ∈ s.running → ∃ w, Event.issued i st w ∈ s.log
  ending : ∀ i st et, (i, st, et) ∈ s.ending →
    (∃ w, Event.issued i st w ∈ s.log) ∧ Event.ended i et ∈ s.log
  sampled : ∀ i a b, Event.sampled i a b ∈ s.log → ∃ st et w, Event.issued i st w ∈ s.log ∧
    Event.ended i et ∈ s.log ∧ a = st - e.traceStart ∧ b = et - st
  log : ∀ l1 l2 i t w, s.log = l1 ++ Event.issued i t w :: l2 →
    Belongs e i ∧ send e i = .ok w ∧ ∃ t0, t0 ≤ t ∧ TimeOk e l1 i t0
  done : s.main = .done → s.remaining = 0

theorem places_le {e : Env} {s : State} (h : Inv e s) (i : Nat) :
    places s i ≤ 1 := by
  by_cases hb : Belongs e i
  · by_cases hd : s.deps i = 0
    · have := h.once i hb hd; omega
    · have := h.never i (.inr hd); omega
  · have := h.never i (.inl hb); omega

/-! ### appending to the log -/

theorem append_split {L l1 l2 : List Event} {ev x : Event} (h : L ++ [ev] = l1 ++ x :: l2) :
    (l2 = [] ∧ L = l1 ∧ ev = x) ∨ ∃ l2', l2 = l2' ++ [ev] ∧ L = l1 ++ x :: l2' := by
  rcases List.eq_nil_or_concat l2 with rfl | ⟨l2', y, rfl⟩
  · left
    have := List.append_inj' h rfl
    exact ⟨rfl, this.1, by simpa using this.2⟩
  · right
    have h' : L ++ [ev] = (l1 ++ x :: l2') ++ [y] := by rw [h]; simp
    have := List.append_inj' h' rfl
    refine ⟨l2', ?_, this.1⟩
    have e2 : ev = y := by simpa using this.2
    rw [e2]
    simp

theorem log_append {e : Env} {L : List Event} {ev : Event}
    (h : ∀ l1 l2 i t w, L = l1 ++ Event.issued i t w :: l2 →
      Belongs e i ∧ send e i = .ok w ∧ ∃ t0, t0 ≤ t ∧ TimeOk e l1 i t0)
    (hev : ∀ i t w, ev = .issued i t w →
      Belongs e i ∧ send e i = .ok w ∧ ∃ t0, t0 ≤ t ∧ TimeOk e L i t0) :
    ∀ l1 l2 i t w, L ++ [ev] = l1 ++ Event.issued i t w :: l2 →
      Belongs e i ∧ send e i = .ok w ∧ ∃ t0, t0 ≤ t ∧ TimeOk e l1 i t0 := by
  intro l1 l2 i t w hs
  rcases append_split hs with ⟨-, rfl, he⟩ | ⟨l2', -, hL⟩
  · exact hev i t w he
  · exact h l1 l2' i t w hL

theorem countP_split {p q : Nat → Bool} {x : Nat} (hx : p x = false)
    (h : ∀ j, q j = (p j || j == x)) (l : List Nat) :
    l.countP (fun j => !p j) = l.countP (fun j => !q j) + l.count x := by
  induction l with
  | nil => rfl
  | cons a l ih =>
    rw [List.countP_cons, List.countP_cons, List.count_cons, ih, h a]
    by_cases ha : a = x
    · subst ha; simp [hx]; omega
    · have : (a == x) = false := by simp [ha]
      rw [this]; simp; omega

theorem mem_of_timesIssued {i : Nat} {L : List Event} (h : timesIssued i L ≠ 0) :
    ∃ t w, Event.issued i t w ∈ L := by
  obtain ⟨ev, hm, hp⟩ := List.countP_pos_iff.1 (Nat.pos_of_ne_zero h)
  cases ev with
  | issued k t w => simp at hp; subst hp; exact ⟨t, w, hm⟩
  | told k => simp at hp
  | ended k t => simp at hp
  | sampled k a b => simp at hp

theorem timesIssued_of_mem {i : Nat} {t : Int} {w : Sent} {L : List Event}
    (h : Event.issued i t w ∈ L) : timesIssued i L ≠ 0 :=
  Nat.ne_of_gt (List.countP_pos_iff.2 ⟨_, h, by simp⟩)

theorem mem_of_timesSampled {i : Nat} {L : List Event} (h : timesSampled i L ≠ 0) :
    ∃ a b, Event.sampled i a b ∈ L := by
  obtain ⟨ev, hm, hp⟩ := List.countP_pos_iff.1 (Nat.pos_of_ne_zero h)
  cases ev with
  | sampled k a b => simp at hp; subst hp; exact ⟨a, b, hm⟩
  | told k => simp at hp
  | ended k t => simp at hp
  | issued k t w => simp at hp

theorem act_congr {e : Env} {L M : List Event} (h1 : ∀ j, timesTold j M = timesTold j L)
    (h2 : ∀ j, timesSampled j M = timesSampled j L) (i j : Nat) : act e M i j = act e L i j := by
  unfold act
  rw [h1, h2]

theorem timesIssued_append (i : Nat) (L M : List Event) :
    timesIssued i (L ++ M) = timesIssued i L + timesIssued i M := List.countP_append ..
theorem timesTold_append (i : Nat) (L M : List Event) :
    timesTold i (L ++ M) = timesTold i L + timesTold i M := List.countP_append ..
theorem timesSampled_append (i : Nat) (L M : List Event) :
    timesSampled i (L ++ M) = timesSampled i L + timesSampled i M := List.countP_append ..

/-! ### preservation -/

theorem inv_start {e : Env} {p : Plan} (hp : setup e = .ok p) (now : Int) : Inv e (start p now) := by
  obtain ⟨h0, h1, h2, h3, h4, h5, h6⟩ := setup_planOk hp
  have hact : ∀ i j, act e [] i j = false := by
    intro i j; unfold act; split <;> simp [timesTold, timesSampled]
  refine ⟨?_, ?_, ?_, ?_, ?_, ?_, ?_, ?_, ?_, ?_, ?_, ?_, ?_, ?_, ?_, ?_⟩
  · intro i hi
    show p.remainingDeps i = _
    rw [h1, if_pos (belongs_iff.1 hi)]
    simp [start, hact]
  · intro i hi
    show p.remainingDeps i = 0
    rw [h1, if_neg (fun h => hi (belongs_iff.2 h))]
  · intro i hi hd
    have hd : p.remainingDeps i = 0 := hd
    obtain ⟨a, b⟩ := belongs_iff.1 hi
    rw [h1, if_pos ⟨a, b⟩] at hd
    have : depsOf e i = [] := List.length_eq_zero_iff.1 (by omega)
    simp [places, start, h4, a, b, this, popCount, timesIssued]
  · intro i hi
    have : ¬ (i < e.records.length ∧ e.mine i = true ∧ depsOf e i = []) := by
      rintro ⟨a, b, c⟩
      rcases hi with hi | hi
      · exact hi (belongs_iff.2 ⟨a, b⟩)
      · apply hi
        show p.remainingDeps i = 0
        rw [h1, if_pos ⟨a, b⟩, c]; rfl
    simp [places, start, h4, this, popCount, timesIssued]
  · intro i; simp [start, timesTold, sentCount, timesIssued]
  · intro i; simp [start, timesSampled, timesIssued]
  · show p.remaining = _
    rw [h6]
    simp [start, timesSampled]
  · intro t i hm
    have hm : (t, i) ∈ p.ready := hm
    have hc : depsOf e i = [] := by
      have : (p.ready.map (·.2)).count i ≠ 0 := by
        rw [Ne, List.count_eq_zero]
        exact fun h => h (List.mem_map.2 ⟨_, hm, rfl⟩)
      rw [h4] at this
      split at this
      · rename_i h; exact h.2.2
      · exact absurd rfl this
    refine ⟨fun _ => h5 t i hm, ?_, ?_, ?_⟩
    · intro _ j hj; rw [hc] at hj; simp at hj
    · intro _ h; exact absurd hc h
    · intro h; exact absurd hc h
  · intro t i h; simp [start] at h
  · simp [start]
  · intro i st h; simp [start] at h
  · intro i st h; simp [start] at h
  · intro i st et h; simp [start] at h
  · intro i a b h; simp [start] at h
  · intro l1 l2 i t w h; simp [start] at h
  · intro h; simp [start] at h

theorem inv_tick {e : Env} {s : State} (h : Inv e s) {t : Int} (ht : s.now ≤ t) :
    Inv e { s with now := t } := by
  obtain ⟨h1, h2, h3, h4, h5, h6, h7, h8, h9, h10, h11, h12, h13, h14, h15, h16⟩ := h
  refine ⟨h1, h2, h3, h4, h5, h6, h7, h8, ?_, ?_, h11, h12, h13, h14, h15, h16⟩
  · intro t' i hm
    obtain ⟨a, b⟩ := h9 t' i hm
    exact ⟨a, Int.le_trans b ht⟩
  · exact ⟨fun i t' w hm => Int.le_trans (h10.1 i t' w hm) ht,
      fun i t' hm => Int.le_trans (h10.2 i t' hm) ht⟩

theorem inv_step {e : Env} {p : Plan} (hp : setup e = .ok p) {s s' : State} (h : Inv e s)
    (hs : Step e p s s') : Inv e s' := by
  have hplan := setup_planOk hp
  cases hs with
  | tick t ht => exact inv_tick h ht
  | exit hm hr =>
    obtain ⟨h1, h2, h3, h4, h5, h6, h7, h8, h9, h10, h11, h12, h13, h14, h15, h16⟩ := h
    refine ⟨h1, h2, ?_, ?_, ?_, h6, h7, h8, ?_, h10, ?_, h12, h13, h14, h15, fun _ => hr⟩
    · intro i hb hd
      have := h3 i hb hd
      simpa [places, hm, popCount] using this
    · intro i hi; have := h4 i hi; simpa [places, hm, popCount] using this
    · intro i; have := h5 i; simpa [hm, sentCount] using this
    · intro t i hx; simp at hx
    · intro i st hx; simp at hx
  | awake hm hr hf =>
    obtain ⟨h1, h2, h3, h4, h5, h6, h7, h8, h9, h10, h11, h12, h13, h14, h15, h16⟩ := h
    exact ⟨h1, h2, h3, h4, h5, h6, h7, h8, h9, h10, h11, h12, h13, h14, h15, h16⟩
  | @pop l1 l2 t i hm hr hf hq hmin hnow =>
    obtain ⟨h1, h2, h3, h4, h5, h6, h7, h8, h9, h10, h11, h12, h13, h14, h15, h16⟩ := h
    have hpl : ∀ k, ((l1 ++ l2).map (·.2)).count k + (if i = k then 1 else 0) =
        (s.ready.map (·.2)).count k := by
      intro k
      rw [hq]
      simp only [List.map_append, List.map_cons, List.count_append, List.count_cons]
      by_cases hk : i = k
      · simp [hk]; omega
      · simp [hk]
    refine ⟨h1, h2, ?_, ?_, ?_, h6, h7, ?_, ?_, h10, ?_, h12, h13, h14, h15, ?_⟩
    · intro k hb hd
      have h := h3 k hb hd
      rw [← h]
      unfold places
      simp only [popCount, hm]
      have := hpl k
      omega
    · intro k hk
      rw [← h4 k hk]
      unfold places
      simp only [popCount, hm]
      have := hpl k
      omega
    · intro k; have := h5 k; simpa [hm, sentCount] using this
    · intro t' k hx
      refine h8 t' k ?_
      rw [hq]
      simp only [List.mem_append, List.mem_cons] at hx ⊢
      rcases hx with hx | hx
      · exact .inl hx
      · exact .inr (.inr hx)
    · intro t' k hx
      simp only [Main.popped.injEq] at hx
      obtain ⟨rfl, rfl⟩ := hx
      exact ⟨h8 _ _ (by rw [hq]; simp), hnow⟩
    · intro k st hx; simp at hx
    · intro hx; simp at hx
  | @send t i what hm hw =>
    obtain ⟨h1, h2, h3, h4, h5, h6, h7, h8, h9, h10, h11, h12, h13, h14, h15, h16⟩ := h
    obtain ⟨htime, hnow⟩ := h9 t i hm
    have hb : Belongs e i := by
      by_cases hb : Belongs e i
      · exact hb
      · have := h4 i (.inl hb)
        simp [places, hm, popCount] at this
    have htold : ∀ j, timesTold j (s.log ++ [.issued i s.now what]) = timesTold j s.log := by
      intro j; rw [timesTold_append]; simp [timesTold]
    have hsamp : ∀ j, timesSampled j (s.log ++ [.issued i s.now what]) = timesSampled j s.log := by
      intro j; rw [timesSampled_append]; simp [timesSampled]
    have hiss : ∀ j, timesIssued j (s.log ++ [.issued i s.now what]) =
        timesIssued j s.log + if i = j then 1 else 0 := by
      intro j; rw [timesIssued_append]; simp [timesIssued, List.countP_singleton]
    have hpl : ∀ k, places { s with main := .sent i s.now, running := s.running ++ [(i, s.now)], log := s.log ++ [.issued i s.now what] } k = places s k := by
      intro k
      unfold places
      simp only [popCount, hm, hiss]
      omega
    refine ⟨?_, h2, ?_, ?_, ?_, ?_, ?_, ?_, ?_, ?_, ?_, ?_, ?_, ?_, ?_, ?_⟩
    · intro k hk
      show s.deps k = _
      rw [h1 k hk]
      simp only [act_congr htold hsamp]
    · intro k hb hd
      rw [hpl]
      exact h3 k hb hd
    · intro k hk; rw [hpl]; exact h4 k hk
    · intro k
      have := h5 k
      simp only [hm, sentCount, htold, hiss] at this ⊢
      omega
    · intro k
      have := h6 k
      simp only [hsamp, hiss, List.map_append, List.map_cons, List.map_nil, List.count_append,
        List.count_singleton] at this ⊢
      by_cases hk : i = k
      · simp [hk]; omega
      · simp [hk]; omega
    · show s.remaining = _
      rw [h7]; simp only [hsamp]
    · intro t' k hx; exact (h8 t' k hx).mono _
    · intro t' k hx; simp at hx
    · constructor
      · intro k t' w hx
        simp only [List.mem_append, List.mem_singleton, Event.issued.injEq] at hx
        rcases hx with hx | ⟨-, rfl, -⟩
        · exact h10.1 k t' w hx
        · exact Int.le_refl _
      · intro k t' hx
        simp only [List.mem_append, List.mem_singleton, reduceCtorEq, or_false] at hx
        exact h10.2 k t' hx
    · intro k st hx
      simp only [Main.sent.injEq] at hx
      obtain ⟨rfl, rfl⟩ := hx
      refine ⟨⟨what, by simp⟩, ?_⟩
      intro j tj w hx
      simp only [List.mem_append, List.mem_singleton, Event.issued.injEq] at hx
      rcases hx with hx | ⟨-, rfl, -⟩
      · exact h10.1 j tj w hx
      · exact Int.le_refl _
    · intro k st hx
      simp only [List.mem_append, List.mem_singleton, Prod.mk.injEq] at hx
      rcases hx with hx | ⟨rfl, rfl⟩
      · obtain ⟨w, hw⟩ := h12 k st hx
        exact ⟨w, List.mem_append_left _ hw⟩
      · exact ⟨what, by simp⟩
    · intro k st et hx
      obtain ⟨⟨w, a⟩, b⟩ := h13 k st et hx
      exact ⟨⟨w, List.mem_append_left _ a⟩, List.mem_append_left _ b⟩
    · intro k a b hx
      simp only [List.mem_append, List.mem_singleton, reduceCtorEq, or_false] at hx
      obtain ⟨st, et, w, c, d, f⟩ := h14 k a b hx
      exact ⟨st, et, w, List.mem_append_left _ c, List.mem_append_left _ d, f⟩
    · refine log_append h15 ?_
      intro k t' w hx
      injection hx with hx1 hx2 hx3
      subst hx1; subst hx2; subst hx3
      exact ⟨hb, hw, t, hnow, htime⟩
    · intro hx; simp at hx
  | @abort t j hm hc =>
    obtain ⟨h1, h2, h3, h4, h5, h6, h7, h8, h9, h10, h11, h12, h13, h14, h15, h16⟩ := h
    refine ⟨h1, h2, ?_, ?_, ?_, h6, h7, h8, ?_, h10, ?_, h12, h13, h14, h15, ?_⟩
    · intro i hb hd; have := h3 i hb hd; simpa [places, hm, popCount] using this
    · intro i hi; have := h4 i hi; simpa [places, hm, popCount] using this
    · intro i; have := h5 i; simpa [hm, sentCount] using this
    · intro t i hx; simp at hx
    · intro i st hx; simp at hx
    · intro hx; simp at hx
  | @told i st hm =>
    obtain ⟨h1, h2, h3, h4, h5, h6, h7, h8, h9, h10, h11, h12, h13, h14, h15, h16⟩ := h
    have hcnt : ∀ k, (p.startDependents i).count k =
        if Belongs e k ∧ e.mode k = .priorStart then (depsOf e k).count i else 0 := by
      intro k
      rw [hplan.starts]
      congr 1
      rw [belongs_iff, and_assoc]
    have hti : timesTold i s.log = 0 := by
      have a := h5 i
      have b := places_le ⟨h1, h2, h3, h4, h5, h6, h7, h8, h9, h10, h11, h12, h13, h14, h15, h16⟩ i
      simp only [hm, sentCount, if_true] at a
      unfold places at b
      omega
    have hact : ∀ k j, act e (s.log ++ [.told i]) k j =
        if e.mode k = .priorStart then (act e s.log k j || j == i) else act e s.log k j := by
      intro k j
      unfold act
      have a : timesTold j (s.log ++ [.told i]) = timesTold j s.log + if i = j then 1 else 0 := by
        rw [timesTold_append]; simp [timesTold, List.countP_singleton]
      have b : timesSampled j (s.log ++ [.told i]) = timesSampled j s.log := by
        rw [timesSampled_append]; simp [timesSampled]
      rw [a, b]
      cases hmode : e.mode k <;> simp
      by_cases hij : i = j
      · subst hij; simp
      · have : ¬ j = i := fun h => hij h.symm
        simp [hij, this]
    have hcount : ∀ k, Belongs e k → s.deps k =
        ((depsOf e k).countP (fun j => !act e (s.log ++ [.told i]) k j) : Int) +
          (p.startDependents i).count k := by
      intro k hk
      rw [h1 k hk, hcnt]
      by_cases hmode : e.mode k = .priorStart
      · rw [if_pos ⟨hk, hmode⟩]
        have hai : act e s.log k i = false := by unfold act; rw [hmode]; simp [hti]
        have := countP_split (p := act e s.log k) (q := act e (s.log ++ [.told i]) k) hai
          (by intro j; rw [hact, if_pos hmode]) (depsOf e k)
        omega
      · rw [if_neg (fun h => hmode h.2)]
        simp only [hact, if_neg hmode]
        simp
    have hle : ∀ k, ((p.startDependents i).count k : Int) ≤ s.deps k := by
      intro k
      by_cases hk : Belongs e k
      · rw [hcount k hk]; omega
      · rw [h2 k hk, hcnt, if_neg (fun h => hk h.1)]; simp
    obtain ⟨g1, g2, g3, g4⟩ := activate_ok e st (p.startDependents i) s.deps s.ready hle
    unfold activateStart
    generalize activate e st (p.startDependents i) (s.deps, s.ready) = x at *
    obtain ⟨deps', ready'⟩ := x
    simp only [] at g1 g2 g3 g4 ⊢
    have hiss : ∀ j, timesIssued j (s.log ++ [.told i]) = timesIssued j s.log := by
      intro j; rw [timesIssued_append]; simp [timesIssued]
    have hsamp : ∀ j, timesSampled j (s.log ++ [.told i]) = timesSampled j s.log := by
      intro j; rw [timesSampled_append]; simp [timesSampled]
    have htold : ∀ j, timesTold j (s.log ++ [.told i]) = timesTold j s.log + if i = j then 1 else 0 := by
      intro j; rw [timesTold_append]; simp [timesTold, List.countP_singleton]
    have hmem : ∀ k, k ∈ p.startDependents i → 0 < (p.startDependents i).count k := by
      intro k hk; exact List.count_pos_iff.2 hk
    refine ⟨?_, ?_, ?_, ?_, ?_, ?_, ?_, ?_, ?_, ?_, ?_, ?_, ?_, ?_, ?_, ?_⟩
    · intro k hk
      simp only []
      rw [g1, hcount k hk]; omega
    · intro k hk
      simp only []
      rw [g1, h2 k hk, hcnt, if_neg (fun h => hk h.1)]; simp
    · intro k hk hd
      have hd : deps' k = 0 := hd
      rw [g1] at hd
      have hd : s.deps k = (p.startDependents i).count k := by omega
      unfold places
      simp only [g2, hiss, popCount]
      by_cases hkm : k ∈ p.startDependents i
      · rw [if_pos ⟨hkm, hd⟩]
        have := h4 k (.inr (by have := hmem k hkm; omega))
        simp only [places, hm, popCount] at this
        omega
      · rw [if_neg (fun h => hkm h.1)]
        rw [List.count_eq_zero.2 hkm] at hd
        have h := h3 k hk hd
        simp only [places, hm, popCount] at h
        omega
    · intro k hk
      unfold places
      simp only [g2, hiss, popCount]
      rcases hk with hk | hk
      · rw [if_neg]
        · have := h4 k (.inl hk)
          simp only [places, hm, popCount] at this
          omega
        · rintro ⟨hkm, -⟩
          have := hmem k hkm
          rw [hcnt, if_neg (fun h => hk h.1)] at this
          omega
      · have hk : deps' k ≠ 0 := hk
        rw [g1] at hk
        rw [if_neg (fun h => hk (by omega))]
        have hle := hle k
        have := h4 k (.inr (by omega))
        simp only [places, hm, popCount] at this
        omega
    · intro k
      have := h5 k
      simp only [hm, sentCount] at this
      simp only [htold, hiss, sentCount]
      omega
    · intro k
      simp only [hsamp, hiss]
      exact h6 k
    · simp only [hsamp]; exact h7
    · intro t k hx
      rcases g3 t k hx with hx | ⟨ht, hkm, hd⟩
      · exact (h8 t k hx).mono _
      · have hpos := hmem k hkm
        have hkk : Belongs e k ∧ e.mode k = .priorStart := by
          rw [hcnt] at hpos
          split at hpos
          · rename_i h; exact h
          · omega
        have hdi : i ∈ depsOf e k := by
          rw [hcnt, if_pos hkk] at hpos
          exact List.count_pos_iff.1 hpos
        have hne : depsOf e k ≠ [] := fun h => by rw [h] at hdi; simp at hdi
        refine ⟨fun h => absurd h hne, ?_, ?_, fun _ => .inl hkk.2⟩
        · intro _ j hj
          have hz : (depsOf e k).countP (fun j => !act e (s.log ++ [.told i]) k j) = 0 := by
            have := hcount k hkk.1
            omega
          rw [List.countP_eq_zero] at hz
          have haj := hz j hj
          simp only [Bool.not_eq_true', Bool.not_eq_false] at haj
          unfold act at haj
          rw [hkk.2] at haj
          simp only [htold, bne_iff_ne, ne_eq] at haj
          have hij : timesIssued j s.log ≠ 0 := by
            have := h5 j
            simp only [hm, sentCount] at this
            omega
          obtain ⟨tj, w, hx⟩ := mem_of_timesIssued hij
          refine ⟨tj, w, List.mem_append_left _ hx, ?_⟩
          have := (h11 i st hm).2 j tj w hx
          omega
        · intro h; rw [hkk.2] at h; simp at h
    · intro t k hx; simp at hx
    · constructor
      · intro k t w hx
        simp only [List.mem_append, List.mem_singleton, reduceCtorEq, or_false] at hx
        exact h10.1 k t w hx
      · intro k t hx
        simp only [List.mem_append, List.mem_singleton, reduceCtorEq, or_false] at hx
        exact h10.2 k t hx
    · intro k st hx; simp at hx
    · intro k st' hx
      obtain ⟨w, hw⟩ := h12 k st' hx
      exact ⟨w, List.mem_append_left _ hw⟩
    · intro k st' et hx
      obtain ⟨⟨w, a⟩, b⟩ := h13 k st' et hx
      exact ⟨⟨w, List.mem_append_left _ a⟩, List.mem_append_left _ b⟩
    · intro k a b hx
      simp only [List.mem_append, List.mem_singleton, reduceCtorEq, or_false] at hx
      obtain ⟨st', et, w, c, d, f⟩ := h14 k a b hx
      exact ⟨st', et, w, List.mem_append_left _ c, List.mem_append_left _ d, f⟩
    · refine log_append h15 ?_
      intro k t' w hx; simp at hx
    · intro hx; simp at hx
  | @finish l1 l2 i st hr =>
    obtain ⟨h1, h2, h3, h4, h5, h6, h7, h8, h9, h10, h11, h12, h13, h14, h15, h16⟩ := h
    have htold : ∀ j, timesTold j (s.log ++ [.ended i s.now]) = timesTold j s.log := by
      intro j; rw [timesTold_append]; simp [timesTold]
    have hsamp : ∀ j, timesSampled j (s.log ++ [.ended i s.now]) = timesSampled j s.log := by
      intro j; rw [timesSampled_append]; simp [timesSampled]
    have hiss : ∀ j, timesIssued j (s.log ++ [.ended i s.now]) = timesIssued j s.log := by
      intro j; rw [timesIssued_append]; simp [timesIssued]
    have hpl : ∀ k, places { s with running := l1 ++ l2, ending := s.ending ++ [(i, st, s.now)], log := s.log ++ [.ended i s.now] } k = places s k := by
      intro k; unfold places; simp only [hiss]
    refine ⟨?_, h2, ?_, ?_, ?_, ?_, ?_, ?_, ?_, ?_, ?_, ?_, ?_, ?_, ?_, h16⟩
    · intro k hk
      show s.deps k = _
      rw [h1 k hk]
      simp only [act_congr htold hsamp]
    · intro k hb hd; rw [hpl]; exact h3 k hb hd
    · intro k hk; rw [hpl]; exact h4 k hk
    · intro k; simp only [htold, hiss]; exact h5 k
    · intro k
      have := h6 k
      rw [hr] at this
      simp only [hsamp, hiss, List.map_append, List.map_cons, List.map_nil, List.count_append,
        List.count_singleton, List.count_cons] at this ⊢
      by_cases hk : i = k
      · simp [hk] at this ⊢; omega
      · simp [hk] at this ⊢; omega
    · simp only [hsamp]; exact h7
    · intro t' k hx; exact (h8 t' k hx).mono _
    · intro t' k hx; exact ⟨(h9 t' k hx).1.mono _, (h9 t' k hx).2⟩
    · constructor
      · intro k t' w hx
        simp only [List.mem_append, List.mem_singleton, reduceCtorEq, or_false] at hx
        exact h10.1 k t' w hx
      · intro k t' hx
        simp only [List.mem_append, List.mem_singleton, Event.ended.injEq] at hx
        rcases hx with hx | ⟨-, rfl⟩
        · exact h10.2 k t' hx
        · exact Int.le_refl _
    · intro k st' hx
      obtain ⟨⟨w, a⟩, b⟩ := h11 k st' hx
      refine ⟨⟨w, List.mem_append_left _ a⟩, ?_⟩
      intro j tj w hx
      simp only [List.mem_append, List.mem_singleton, reduceCtorEq, or_false] at hx
      exact b j tj w hx
    · intro k st' hx
      obtain ⟨w, hw⟩ := h12 k st' (by
        rw [hr]
        simp only [List.mem_append, List.mem_cons] at hx ⊢
        rcases hx with hx | hx
        · exact .inl hx
        · exact .inr (.inr hx))
      exact ⟨w, List.mem_append_left _ hw⟩
    · intro k st' et hx
      simp only [List.mem_append, List.mem_singleton, Prod.mk.injEq] at hx
      rcases hx with hx | ⟨rfl, rfl, rfl⟩
      · obtain ⟨⟨w, a⟩, b⟩ := h13 k st' et hx
        exact ⟨⟨w, List.mem_append_left _ a⟩, List.mem_append_left _ b⟩
      · obtain ⟨w, hw⟩ := h12 k st' (by rw [hr]; simp)
        exact ⟨⟨w, List.mem_append_left _ hw⟩, by simp⟩
    · intro k a b hx
      simp only [List.mem_append, List.mem_singleton, reduceCtorEq, or_false] at hx
      obtain ⟨st', et, w, c, d, f⟩ := h14 k a b hx
      exact ⟨st', et, w, List.mem_append_left _ c, List.mem_append_left _ d, f⟩
    · refine log_append h15 ?_
      intro k t' w hx; simp at hx
  | @sample l1 l2 i st et hr =>
    obtain ⟨h1, h2, h3, h4, h5, h6, h7, h8, h9, h10, h11, h12, h13, h14, h15, h16⟩ := h
    have hcnt : ∀ k, (p.endDependents i).count k =
        if Belongs e k ∧ e.mode k = .priorEnd then (depsOf e k).count i else 0 := by
      intro k
      rw [hplan.ends]
      congr 1
      rw [belongs_iff, and_assoc]
    have hissued : 0 < timesIssued i s.log := by
      have := h6 i
      rw [hr] at this
      simp only [List.map_append, List.map_cons, List.count_append, List.count_cons_self] at this
      omega
    have hle1 : timesIssued i s.log ≤ 1 := by
      have b := places_le ⟨h1, h2, h3, h4, h5, h6, h7, h8, h9, h10, h11, h12, h13, h14, h15, h16⟩ i
      unfold places at b
      omega
    have hbi : Belongs e i := by
      by_cases hb : Belongs e i
      · exact hb
      · have := h4 i (.inl hb)
        unfold places at this
        omega
    have hti : timesSampled i s.log = 0 := by
      have := h6 i
      rw [hr] at this
      simp only [List.map_append, List.map_cons, List.count_append, List.count_cons_self] at this
      omega
    have htime : e.traceStart + (st - e.traceStart) + (et - st) = et := by omega
    have hact : ∀ k j, act e (s.log ++ [.sampled i (st - e.traceStart) (et - st)]) k j =
        if e.mode k = .priorEnd then (act e s.log k j || j == i) else act e s.log k j := by
      intro k j
      unfold act
      have a : timesSampled j (s.log ++ [.sampled i (st - e.traceStart) (et - st)]) =
          timesSampled j s.log + if i = j then 1 else 0 := by
        rw [timesSampled_append]; simp [timesSampled, List.countP_singleton]
      have b : timesTold j (s.log ++ [.sampled i (st - e.traceStart) (et - st)]) =
          timesTold j s.log := by
        rw [timesTold_append]; simp [timesTold]
      rw [a, b]
      cases hmode : e.mode k <;> simp
      by_cases hij : i = j
      · subst hij; simp
      · have : ¬ j = i := fun h => hij h.symm
        simp [hij, this]
    have hcount : ∀ k, Belongs e k → s.deps k =
        ((depsOf e k).countP (fun j =>
          !act e (s.log ++ [.sampled i (st - e.traceStart) (et - st)]) k j) : Int) +
          (p.endDependents i).count k := by
      intro k hk
      rw [h1 k hk, hcnt]
      by_cases hmode : e.mode k = .priorEnd
      · rw [if_pos ⟨hk, hmode⟩]
        have hai : act e s.log k i = false := by unfold act; rw [hmode]; simp [hti]
        have := countP_split (p := act e s.log k)
          (q := act e (s.log ++ [.sampled i (st - e.traceStart) (et - st)]) k) hai
          (by intro j; rw [hact, if_pos hmode]) (depsOf e k)
        omega
      · rw [if_neg (fun h => hmode h.2)]
        simp only [hact, if_neg hmode]
        simp
    have hle : ∀ k, ((p.endDependents i).count k : Int) ≤ s.deps k := by
      intro k
      by_cases hk : Belongs e k
      · rw [hcount k hk]; omega
      · rw [h2 k hk, hcnt, if_neg (fun h => hk h.1)]; simp
    obtain ⟨g1, g2, g3, g4⟩ := activate_ok e
      (e.traceStart + (st - e.traceStart) + (et - st)) (p.endDependents i) s.deps s.ready hle
    unfold activateEnd
    generalize hax : activate e (e.traceStart + (st - e.traceStart) + (et - st))
      (p.endDependents i) (s.deps, s.ready) = x at *
    obtain ⟨deps', ready'⟩ := x
    simp only [hax] at g1 g2 g3 g4 ⊢
    have hiss : ∀ j, timesIssued j (s.log ++ [.sampled i (st - e.traceStart) (et - st)]) =
        timesIssued j s.log := by
      intro j; rw [timesIssued_append]; simp [timesIssued]
    have htold : ∀ j, timesTold j (s.log ++ [.sampled i (st - e.traceStart) (et - st)]) =
        timesTold j s.log := by
      intro j; rw [timesTold_append]; simp [timesTold]
    have hsamp : ∀ j, timesSampled j (s.log ++ [.sampled i (st - e.traceStart) (et - st)]) =
        timesSampled j s.log + if i = j then 1 else 0 := by
      intro j; rw [timesSampled_append]; simp [timesSampled, List.countP_singleton]
    have hmem : ∀ k, k ∈ p.endDependents i → 0 < (p.endDependents i).count k := by
      intro k hk; exact List.count_pos_iff.2 hk
    have hendi : (i, st, et) ∈ s.ending := by rw [hr]; simp
    have hrem : s.remaining - 1 = ((List.range e.records.length).countP (fun k => e.mine k &&
        timesSampled k (s.log ++ [.sampled i (st - e.traceStart) (et - st)]) == 0) : Int) := by
      rw [h7]
      have := countP_range_single (x := i) (p := fun k => e.mine k && timesSampled k s.log == 0)
        (q := fun k => e.mine k &&
          timesSampled k (s.log ++ [.sampled i (st - e.traceStart) (et - st)]) == 0)
        (by simp [(belongs_iff.1 hbi).2, hti])
        (by simp [hsamp])
        (by
          intro k hk
          have : ¬ i = k := fun h => hk h.symm
          simp only [hsamp, if_neg this, Nat.add_zero])
        e.records.length hbi.1
      omega
    refine ⟨?_, ?_, ?_, ?_, ?_, ?_, hrem, ?_, ?_, ?_, ?_, ?_, ?_, ?_, ?_, ?_⟩
    · intro k hk
      simp only []
      rw [g1, hcount k hk]; omega
    · intro k hk
      simp only []
      rw [g1, h2 k hk, hcnt, if_neg (fun h => hk h.1)]; simp
    · intro k hk hd
      have hd : deps' k = 0 := hd
      rw [g1] at hd
      have hd : s.deps k = (p.endDependents i).count k := by omega
      unfold places
      simp only [g2, hiss]
      by_cases hkm : k ∈ p.endDependents i
      · rw [if_pos ⟨hkm, hd⟩]
        have := h4 k (.inr (by have := hmem k hkm; omega))
        unfold places at this
        omega
      · rw [if_neg (fun h => hkm h.1)]
        rw [List.count_eq_zero.2 hkm] at hd
        have h := h3 k hk hd
        unfold places at h
        omega
    · intro k hk
      unfold places
      simp only [g2, hiss]
      rcases hk with hk | hk
      · rw [if_neg]
        · have := h4 k (.inl hk)
          unfold places at this
          omega
        · rintro ⟨hkm, -⟩
          have := hmem k hkm
          rw [hcnt, if_neg (fun h => hk h.1)] at this
          omega
      · have hk : deps' k ≠ 0 := hk
        rw [g1] at hk
        rw [if_neg (fun h => hk (by omega))]
        have hle := hle k
        have := h4 k (.inr (by omega))
        unfold places at this
        omega
    · intro k
      simp only [htold, hiss]
      exact h5 k
    · intro k
      have := h6 k
      rw [hr] at this
      simp only [hsamp, hiss, List.map_append, List.map_cons, List.count_append,
        List.count_cons] at this ⊢
      by_cases hk : i = k
      · simp [hk] at this ⊢; omega
      · simp [hk] at this ⊢; omega
    · intro t k hx
      rcases g3 t k hx with hx | ⟨ht, hkm, hd⟩
      · exact (h8 t k hx).mono _
      · have hpos := hmem k hkm
        have hkk : Belongs e k ∧ e.mode k = .priorEnd := by
          rw [hcnt] at hpos
          split at hpos
          · rename_i h; exact h
          · omega
        have hdi : i ∈ depsOf e k := by
          rw [hcnt, if_pos hkk] at hpos
          exact List.count_pos_iff.1 hpos
        have hne : depsOf e k ≠ [] := fun h => by rw [h] at hdi; simp at hdi
        refine ⟨fun h => absurd h hne, ?_, ?_, fun _ => .inr hkk.2⟩
        · intro h; rw [hkk.2] at h; simp at h
        · intro _ _
          refine ⟨s.log, [], i, st - e.traceStart, et - st, rfl, hdi, ht, ?_⟩
          intro j hj
          have hz : (depsOf e k).countP (fun j =>
              !act e (s.log ++ [.sampled i (st - e.traceStart) (et - st)]) k j) = 0 := by
            have := hcount k hkk.1
            omega
          rw [List.countP_eq_zero] at hz
          have haj := hz j hj
          simp only [Bool.not_eq_true', Bool.not_eq_false] at haj
          unfold act at haj
          rw [hkk.2] at haj
          simp only [hsamp, bne_iff_ne, ne_eq] at haj
          by_cases hij : i = j
          · exact .inl hij.symm
          · right
            rw [if_neg hij] at haj
            exact haj
    · intro t k hx; exact ⟨(h9 t k hx).1.mono _, (h9 t k hx).2⟩
    · constructor
      · intro k t w hx
        simp only [List.mem_append, List.mem_singleton, reduceCtorEq, or_false] at hx
        exact h10.1 k t w hx
      · intro k t hx
        simp only [List.mem_append, List.mem_singleton, reduceCtorEq, or_false] at hx
        exact h10.2 k t hx
    · intro k st' hx
      obtain ⟨⟨w, a⟩, b⟩ := h11 k st' hx
      refine ⟨⟨w, List.mem_append_left _ a⟩, ?_⟩
      intro j tj w hx
      simp only [List.mem_append, List.mem_singleton, reduceCtorEq, or_false] at hx
      exact b j tj w hx
    · intro k st' hx
      obtain ⟨w, hw⟩ := h12 k st' hx
      exact ⟨w, List.mem_append_left _ hw⟩
    · intro k st' et' hx
      obtain ⟨⟨w, a⟩, b⟩ := h13 k st' et' (by
        rw [hr]
        simp only [List.mem_append, List.mem_cons] at hx ⊢
        rcases hx with hx | hx
        · exact .inl hx
        · exact .inr (.inr hx))
      exact ⟨⟨w, List.mem_append_left _ a⟩, List.mem_append_left _ b⟩
    · intro k a b hx
      simp only [List.mem_append, List.mem_singleton, Event.sampled.injEq] at hx
      rcases hx with hx | ⟨rfl, rfl, rfl⟩
      · obtain ⟨st', et', w, c, d, f⟩ := h14 k a b hx
        exact ⟨st', et', w, List.mem_append_left _ c, List.mem_append_left _ d, f⟩
      · obtain ⟨⟨w, c⟩, d⟩ := h13 k st et hendi
        exact ⟨st, et, w, List.mem_append_left _ c, List.mem_append_left _ d, rfl, rfl⟩
    · refine log_append h15 ?_
      intro k t' w hx; simp at hx
    · intro hx
      have := h16 hx
      have hpos : s.remaining ≠ 0 := by
        have : (0:Int) ≤ s.remaining - 1 := by rw [hrem]; omega
        omega
      exact absurd this hpos

theorem inv_reachable {e : Env} {p : Plan} (hp : setup e = .ok p) {s : State}
    (h : Reachable e p s) : Inv e s := by
  induction h with
  | start now => exact inv_start hp now
  | step _ hs ih => exact inv_step hp ih hs

end Distbench.Replay
