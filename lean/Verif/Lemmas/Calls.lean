import Verif.Spec.Sequencer

/-! Invariant of concurrent `RunTestSequence` calls. -/

namespace Distbench.Sequencer
open Spec

/-- Between taking over and clearing the context. -/
def Place.active : Place → Bool
  | .between _ | .testing _ | .ended _ | .notified _ => true
  | _ => false

/-- Has taken over. -/
def Place.started : Place → Bool
  | .arriving | .waiting _ => false
  | _ => true

/-- Has been notified. -/
def Place.over : Place → Bool
  | .notified _ | .returned _ => true
  | _ => false

theorem get_move (s : Calls) (i j : Nat) (p : Place) : (s.move i p).calls[j]? =
    (s.calls[j]?).map fun c => if i = j then { c with place := p } else c := by
  unfold Calls.move
  rw [List.getElem?_modify]
  by_cases h : i = j
  · subst h; simp
  · simp [h]

theorem get_tryCancel (s : Calls) (j : Nat) : s.tryCancel.calls[j]? =
    (s.calls[j]?).map fun c => if s.context = some j then { c with cancelled := true } else c := by
  unfold Calls.tryCancel
  cases h : s.context with
  | none => simp
  | some i =>
    simp only [List.getElem?_modify, Option.some.injEq]
    by_cases h1 : i = j
    · subst h1; simp
    · simp [h1]

theorem tryCancel_rest (s : Calls) : s.tryCancel.context = s.context ∧
    s.tryCancel.notification = s.notification ∧ s.tryCancel.notified = s.notified := by
  unfold Calls.tryCancel
  cases h : s.context <;> simp [h]

/-- What is known of one call. -/
def GoodCall (p : Call) (c : CallState) : Prop :=
  match c.place with
  | .arriving => c.results = []
  | .waiting _ => c.results = []
  | .between k => k ≤ p.tests ∧ ReportsFirst p k c.results
  | .testing k => k < p.tests ∧ ReportsFirst p k c.results
  | .ended e => EndsAs p c.cancelled e
  | .notified e => EndsAs p c.cancelled e
  | .returned e => EndsAs p c.cancelled e

structure CallsOk (prog : List Call) (s : Calls) : Prop where
  len : s.calls.length = prog.length
  ctx : ∀ i, s.context = some i ↔ ∃ c, s.calls[i]? = some c ∧ c.place.active = true
  note : ∀ k, s.notification = some k → ∃ c, s.calls[k]? = some c ∧ c.place.started = true
  ctxNote : ∀ i, s.context = some i → s.notification = some i
  notified : ∀ k, k ∈ s.notified ↔ ∃ c, s.calls[k]? = some c ∧ c.place.over = true
  waits : ∀ (j : Nat) c k, s.calls[j]? = some c → c.place = .waiting (some k) →
    ∃ d, s.calls[k]? = some d ∧ d.place.started = true ∧ (d.place.active = true → d.cancelled = true)
  good : ∀ (i : Nat) c p, s.calls[i]? = some c → prog[i]? = some p → GoodCall p c
  cause : ∀ (i : Nat) c, s.calls[i]? = some c → c.cancelled = true →
    ∃ j d, j ≠ i ∧ s.calls[j]? = some d ∧ d.place ≠ .arriving

theorem endsAs_mono {p : Call} {b : Bool} {e : Ended} (h : EndsAs p b e) : EndsAs p true e := by
  cases h with
  | ok h1 h2 => exact .ok h1 h2
  | tooBig h1 h2 => exact .tooBig h1 h2
  | failed h1 h2 h3 => exact .failed h1 h2 h3
  | cancelled h1 h2 h3 => exact .cancelled rfl h2 h3

theorem goodCall_cancel {p : Call} {c : CallState} (h : GoodCall p c) :
    GoodCall p { c with cancelled := true } := by
  unfold GoodCall at h ⊢
  cases hp : c.place <;> simp only [hp] at h ⊢
  all_goals first | exact h | exact endsAs_mono h

theorem callsOk_init (prog : List Call) : CallsOk prog { calls := prog.map fun _ => {} } := by
  have hp : ∀ (i : Nat) c, (prog.map fun _ => ({} : CallState))[i]? = some c → c = {} := by
    intro i c h
    rw [List.getElem?_map] at h
    cases hh : prog[i]? <;> simp_all
  constructor
  · simp
  · intro i
    constructor
    · intro h; cases h
    · rintro ⟨c, h1, h2⟩
      rw [hp i c h1] at h2; cases h2
  · intro k h; cases h
  · intro k h; cases h
  · intro k
    constructor
    · intro h; cases h
    · rintro ⟨c, h1, h2⟩
      rw [hp k c h1] at h2; cases h2
  · intro j c k h1 h2
    rw [hp j c h1] at h2; cases h2
  · intro i c p h1 _
    rw [hp i c h1]; rfl
  · intro i c h1 h2
    rw [hp i c h1] at h2; cases h2

/-- A step that changes only call `i`, which stays where it is with respect to starting, holding the
context and being notified. -/
theorem callsOk_local {prog : List Call} {s s' : Calls} {i : Nat} {c c' : CallState}
    (hs : CallsOk prog s) (hc : s.calls[i]? = some c)
    (hget : ∀ j, s'.calls[j]? = if i = j then some c' else s.calls[j]?)
    (hctx : s'.context = s.context) (hnote : s'.notification = s.notification)
    (hnot : s'.notified = s.notified)
    (ha : c'.place.active = c.place.active) (hst : c'.place.started = c.place.started)
    (hov : c'.place.over = c.place.over) (hca : c'.cancelled = c.cancelled)
    (hw : c'.place.started = true)
    (hg : ∀ p, prog[i]? = some p → GoodCall p c') : CallsOk prog s' := by
  have hlen : s'.calls.length = s.calls.length := by
    have h1 : ∀ j : Nat, j < s'.calls.length ↔ j < s.calls.length := by
      intro j
      have hlt : ∀ l : List CallState, j < l.length ↔ l[j]? ≠ none := by
        intro l
        rw [ne_eq, List.getElem?_eq_none_iff]
        omega
      rw [hlt, hlt, hget]
      by_cases h : i = j
      · subst h; simp [hc]
      · simp [h]
    exact Nat.le_antisymm
      (Nat.le_of_not_lt fun h => Nat.lt_irrefl _ ((h1 _).1 h))
      (Nat.le_of_not_lt fun h => Nat.lt_irrefl _ ((h1 _).2 h))
  have hfw : ∀ (j : Nat) d, s.calls[j]? = some d → ∃ d', s'.calls[j]? = some d' ∧
      d'.place.active = d.place.active ∧ d'.place.started = d.place.started ∧
      d'.place.over = d.place.over ∧ d'.cancelled = d.cancelled := by
    intro j d hj
    rw [hget]
    by_cases h : i = j
    · subst h
      rw [hc] at hj
      cases hj
      exact ⟨c', by simp, ha, hst, hov, hca⟩
    · exact ⟨d, by simp [h, hj], rfl, rfl, rfl, rfl⟩
  have hbw : ∀ (j : Nat) d', s'.calls[j]? = some d' → ∃ d, s.calls[j]? = some d ∧
      d'.place.active = d.place.active ∧ d'.place.started = d.place.started ∧
      d'.place.over = d.place.over ∧ d'.cancelled = d.cancelled ∧ (d' = d ∨ (j = i ∧ d' = c')) := by
    intro j d' hj
    rw [hget] at hj
    by_cases h : i = j
    · subst h
      simp only [if_true, Option.some.injEq] at hj
      subst hj
      exact ⟨c, hc, ha, hst, hov, hca, Or.inr ⟨rfl, rfl⟩⟩
    · rw [if_neg h] at hj
      exact ⟨d', hj, rfl, rfl, rfl, rfl, Or.inl rfl⟩
  constructor
  · rw [hlen, hs.len]
  · intro k
    rw [hctx, hs.ctx]
    constructor
    · rintro ⟨d, h1, h2⟩
      obtain ⟨d', h3, h4, _⟩ := hfw k d h1
      exact ⟨d', h3, by rw [h4, h2]⟩
    · rintro ⟨d', h1, h2⟩
      obtain ⟨d, h3, h4, _⟩ := hbw k d' h1
      exact ⟨d, h3, by rw [← h4, h2]⟩
  · intro k hk
    rw [hnote] at hk
    obtain ⟨d, h1, h2⟩ := hs.note k hk
    obtain ⟨d', h3, _, h4, _⟩ := hfw k d h1
    exact ⟨d', h3, by rw [h4, h2]⟩
  · intro k hk
    rw [hctx] at hk
    rw [hnote]
    exact hs.ctxNote k hk
  · intro k
    rw [hnot, hs.notified]
    constructor
    · rintro ⟨d, h1, h2⟩
      obtain ⟨d', h3, _, _, h4, _⟩ := hfw k d h1
      exact ⟨d', h3, by rw [h4, h2]⟩
    · rintro ⟨d', h1, h2⟩
      obtain ⟨d, h3, _, _, h4, _⟩ := hbw k d' h1
      exact ⟨d, h3, by rw [← h4, h2]⟩
  · intro j d' k hj hk
    obtain ⟨d, h1, _, h2, _, _, h3⟩ := hbw j d' hj
    rcases h3 with rfl | ⟨rfl, rfl⟩
    · obtain ⟨e, h4, h5, h6⟩ := hs.waits j d' k h1 hk
      obtain ⟨e', h7, h8, h9, _, h10⟩ := hfw k e h4
      exact ⟨e', h7, by rw [h9, h5], fun h => by rw [h10]; exact h6 (by rw [← h8, h])⟩
    · rw [hk] at hw; cases hw
  · intro j d' p hj hp
    obtain ⟨d, h1, _, _, _, _, h3⟩ := hbw j d' hj
    rcases h3 with rfl | ⟨rfl, rfl⟩
    · exact hs.good j d' p h1 hp
    · exact hg p hp
  · intro j d' hj hd
    obtain ⟨d, h1, _, _, _, h2, _⟩ := hbw j d' hj
    obtain ⟨k, e, h3, h4, h5⟩ := hs.cause j d h1 (by rw [← h2, hd])
    by_cases hk : k = i
    · subst hk
      exact ⟨k, c', h3, by rw [hget, if_pos rfl], by intro h; rw [h] at hw; cases hw⟩
    · exact ⟨k, e, h3, by rw [hget, if_neg (fun h => hk h.symm), h4], h5⟩

/-- A call looks at the running one: cancels it and waits for its notification. -/
theorem callsOk_look {prog : List Call} {s : Calls} {i : Nat} {c : CallState}
    (hs : CallsOk prog s) (hc : s.calls[i]? = some c) (hp : c.place.started = false) :
    CallsOk prog (s.tryCancel.move i (.waiting s.notification)) := by
  obtain ⟨t1, t2, t3⟩ := tryCancel_rest s
  have hi : s.context ≠ some i := by
    intro h
    obtain ⟨d, h1, h2⟩ := (hs.ctx i).1 h
    rw [hc] at h1
    cases h1
    cases hcp : c.place <;> rw [hcp] at hp h2 <;> simp [Place.active, Place.started] at hp h2
  have hact : c.place.active = false := by
    cases hcp : c.place <;> rw [hcp] at hp <;> simp [Place.active, Place.started] at hp ⊢
  have hover : c.place.over = false := by
    cases hcp : c.place <;> rw [hcp] at hp <;> simp [Place.over, Place.started] at hp ⊢
  have hcres : ∀ p, prog[i]? = some p → c.results = [] := by
    intro p h
    have := hs.good i c p hc h
    unfold GoodCall at this
    cases hcp : c.place <;> rw [hcp] at hp this <;> simp [Place.started] at hp <;> exact this
  have hget : ∀ j, (s.tryCancel.move i (.waiting s.notification)).calls[j]? =
      if i = j then some { c with place := .waiting s.notification } else
      (s.calls[j]?).map fun d => if s.context = some j then { d with cancelled := true } else d := by
    intro j
    rw [get_move, get_tryCancel]
    by_cases h : i = j
    · subst h
      simp [hc, hi]
    · cases s.calls[j]? <;> simp [h]
  have hbw : ∀ (j : Nat) d', (s.tryCancel.move i (.waiting s.notification)).calls[j]? = some d' →
      (j = i ∧ d' = { c with place := .waiting s.notification }) ∨
      (j ≠ i ∧ ∃ d, s.calls[j]? = some d ∧ d'.place = d.place ∧ d'.results = d.results ∧
        d'.cancelled = (d.cancelled || s.context == some j)) := by
    intro j d' hj
    rw [hget] at hj
    by_cases h : i = j
    · subst h
      simp only [if_true, Option.some.injEq] at hj
      exact Or.inl ⟨rfl, hj.symm⟩
    · rw [if_neg h] at hj
      refine Or.inr ⟨fun e => h e.symm, ?_⟩
      cases hd : s.calls[j]? with
      | none => rw [hd] at hj; cases hj
      | some d =>
        rw [hd] at hj
        simp only [Option.map_some, Option.some.injEq] at hj
        subst hj
        refine ⟨d, rfl, ?_⟩
        by_cases hx : s.context = some j
        · simp [hx]
        · have : (s.context == some j) = false := by simpa using hx
          simp [hx]
  have hfw : ∀ (j : Nat) d, s.calls[j]? = some d → j ≠ i →
      ∃ d', (s.tryCancel.move i (.waiting s.notification)).calls[j]? = some d' ∧
        d'.place = d.place ∧ (d.cancelled = true → d'.cancelled = true) ∧
        (s.context = some j → d'.cancelled = true) := by
    intro j d hj hne
    rw [hget, if_neg (fun h => hne h.symm), hj]
    refine ⟨_, rfl, ?_⟩
    by_cases hx : s.context = some j <;> simp [hx]
  have hctx' : (s.tryCancel.move i (.waiting s.notification)).context = s.context := t1
  have hnote' : (s.tryCancel.move i (.waiting s.notification)).notification = s.notification := t2
  have hnot' : (s.tryCancel.move i (.waiting s.notification)).notified = s.notified := t3
  constructor
  · have h1 : (s.tryCancel.move i (.waiting s.notification)).calls.length = s.calls.length := by
      unfold Calls.move Calls.tryCancel
      cases s.context <;> simp
    rw [h1, hs.len]
  · intro k
    rw [hctx', hs.ctx]
    constructor
    · rintro ⟨d, h1, h2⟩
      have hne : k ≠ i := by
        rintro rfl
        rw [hc] at h1
        cases h1
        rw [hact] at h2; cases h2
      obtain ⟨d', h3, h4, _⟩ := hfw k d h1 hne
      exact ⟨d', h3, by rw [h4, h2]⟩
    · rintro ⟨d', h1, h2⟩
      rcases hbw k d' h1 with ⟨rfl, rfl⟩ | ⟨_, d, h3, h4, _⟩
      · cases h2
      · exact ⟨d, h3, by rw [← h4, h2]⟩
  · intro k hk
    rw [hnote'] at hk
    obtain ⟨d, h1, h2⟩ := hs.note k hk
    have hne : k ≠ i := by
      rintro rfl
      rw [hc] at h1
      cases h1
      rw [hp] at h2; cases h2
    obtain ⟨d', h3, h4, _⟩ := hfw k d h1 hne
    exact ⟨d', h3, by rw [h4, h2]⟩
  · intro k hk
    rw [hctx'] at hk
    rw [hnote']
    exact hs.ctxNote k hk
  · intro k
    rw [hnot', hs.notified]
    constructor
    · rintro ⟨d, h1, h2⟩
      have hne : k ≠ i := by
        rintro rfl
        rw [hc] at h1
        cases h1
        rw [hover] at h2; cases h2
      obtain ⟨d', h3, h4, _⟩ := hfw k d h1 hne
      exact ⟨d', h3, by rw [h4, h2]⟩
    · rintro ⟨d', h1, h2⟩
      rcases hbw k d' h1 with ⟨rfl, rfl⟩ | ⟨_, d, h3, h4, _⟩
      · cases h2
      · exact ⟨d, h3, by rw [← h4, h2]⟩
  · intro j d' k hj hk
    have key : ∃ e, s.calls[k]? = some e ∧ e.place.started = true ∧
        (e.place.active = true → e.cancelled = true ∨ s.context = some k) := by
      rcases hbw j d' hj with ⟨rfl, rfl⟩ | ⟨_, d, h3, h4, _⟩
      · simp only [Place.waiting.injEq] at hk
        obtain ⟨e, h1, h2⟩ := hs.note k hk
        exact ⟨e, h1, h2, fun h => Or.inr ((hs.ctx k).2 ⟨e, h1, h⟩)⟩
      · obtain ⟨e, h5, h6, h7⟩ := hs.waits j d k h3 (by rw [← h4, hk])
        exact ⟨e, h5, h6, fun h => Or.inl (h7 h)⟩
    obtain ⟨e, h1, h2, h3⟩ := key
    have hne : k ≠ i := by
      rintro rfl
      rw [hc] at h1
      cases h1
      rw [hp] at h2; cases h2
    obtain ⟨e', h4, h5, h6, h7⟩ := hfw k e h1 hne
    refine ⟨e', h4, by rw [h5, h2], fun h => ?_⟩
    rcases h3 (by rw [← h5, h]) with h8 | h8
    · exact h6 h8
    · exact h7 h8
  · intro j d' p hj hpj
    rcases hbw j d' hj with ⟨rfl, rfl⟩ | ⟨_, d, h3, h4, h5, h6⟩
    · exact hcres p hpj
    · have hg := hs.good j d p h3 hpj
      have : d' = d ∨ d' = { d with cancelled := true } := by
        obtain ⟨a, b, x⟩ := d'
        obtain ⟨a', b', x'⟩ := d
        simp only at h4 h5 h6
        subst h4 h5 h6
        cases s.context == some j <;> simp
      rcases this with rfl | rfl
      · exact hg
      · exact goodCall_cancel hg
  · intro j d' hj hd
    by_cases hji : j = i
    · subst hji
      rcases hbw j d' hj with ⟨_, rfl⟩ | ⟨h, _⟩
      · obtain ⟨k, e, h1, h2, h3⟩ := hs.cause j c hc hd
        obtain ⟨e', h4, h5, _⟩ := hfw k e h2 h1
        exact ⟨k, e', h1, h4, by rw [h5]; exact h3⟩
      · exact absurd rfl h
    · exact ⟨i, { c with place := .waiting s.notification }, fun h => hji h.symm,
        by rw [hget, if_pos rfl], by simp⟩

theorem reports_reported (c : SequenceSettings) (r : TestResult) : Reports c r (reported c r) := by
  unfold Reports reported
  refine ⟨rfl, rfl, rfl, ?_, ?_⟩
  · intro h; simp [h]
  · intro h; simp [h]

theorem endsAs_finish {p : Call} {b : Bool} {results : List TestResult}
    (h : ReportsFirst p p.tests results) : EndsAs p b (finishSequence p.settings results) := by
  unfold finishSequence
  split
  · rename_i h1
    exact .tooBig h (by unfold maxResponseSize at h1; exact h1)
  · rename_i h1
    exact .ok h (by unfold maxResponseSize at h1; omega)

theorem callsOk_step {prog : List Call} {s s' : Calls} (hs : CallsOk prog s)
    (h : CallStep prog s s') : CallsOk prog s' := by
  have hmoved : ∀ {i : Nat} {c : CallState} (p : Place), s.calls[i]? = some c → ∀ j,
      (s.move i p).calls[j]? = if i = j then some { c with place := p } else s.calls[j]? := by
    intro i c p hc j
    rw [get_move]
    by_cases hj : i = j
    · subst hj; simp [hc]
    · cases s.calls[j]? <;> simp [hj]
  cases h with
  | look hc hp => exact callsOk_look hs hc (by rw [hp]; rfl)
  | again hc hp _ _ => exact callsOk_look hs hc (by rw [hp]; rfl)
  | @start i c n hc hp hn hctx =>
    have hget := hmoved (.between 0) hc
    have hna : ∀ (j : Nat) d, s.calls[j]? = some d → d.place.active = false := by
      intro j d hj
      cases ha : d.place.active with
      | false => rfl
      | true =>
        have := (hs.ctx j).2 ⟨d, hj, ha⟩
        rw [hctx] at this; cases this
    have hfw : ∀ (j : Nat) d, s.calls[j]? = some d → j ≠ i → (s.move i (.between 0)).calls[j]? = some d := by
      intro j d hj hne
      rw [hget, if_neg (fun e => hne e.symm), hj]
    have hself : (s.move i (.between 0)).calls[i]? = some { c with place := .between 0 } := by
      rw [hget, if_pos rfl]
    have hbw : ∀ (j : Nat) d, (s.move i (.between 0)).calls[j]? = some d →
        (j = i ∧ d = { c with place := .between 0 }) ∨ (j ≠ i ∧ s.calls[j]? = some d) := by
      intro j d hj
      rw [hget] at hj
      by_cases hji : i = j
      · subst hji
        simp only [if_true, Option.some.injEq] at hj
        exact Or.inl ⟨rfl, hj.symm⟩
      · rw [if_neg hji] at hj
        exact Or.inr ⟨fun e => hji e.symm, hj⟩
    constructor
    · show (s.move i (.between 0)).calls.length = _
      unfold Calls.move
      simp [hs.len]
    · intro k
      show some i = some k ↔ _
      constructor
      · intro hk
        simp only [Option.some.injEq] at hk
        subst hk
        exact ⟨_, hself, rfl⟩
      · rintro ⟨d, h1, h2⟩
        rcases hbw k d h1 with ⟨rfl, _⟩ | ⟨_, h3⟩
        · rfl
        · rw [hna k d h3] at h2; cases h2
    · intro k hk
      have hk : some i = some k := hk
      simp only [Option.some.injEq] at hk
      subst hk
      exact ⟨_, hself, rfl⟩
    · intro k hk
      exact hk
    · intro k
      show k ∈ s.notified ↔ _
      rw [hs.notified]
      constructor
      · rintro ⟨d, h1, h2⟩
        have hne : k ≠ i := by
          rintro rfl
          rw [hc] at h1; cases h1
          rw [hp] at h2; cases h2
        exact ⟨d, hfw k d h1 hne, h2⟩
      · rintro ⟨d, h1, h2⟩
        rcases hbw k d h1 with ⟨rfl, rfl⟩ | ⟨_, h3⟩
        · cases h2
        · exact ⟨d, h3, h2⟩
    · intro j d k hj hk
      rcases hbw j d hj with ⟨rfl, rfl⟩ | ⟨_, h3⟩
      · cases hk
      · obtain ⟨e, h4, h5, h6⟩ := hs.waits j d k h3 hk
        have hne : k ≠ i := by
          rintro rfl
          rw [hc] at h4; cases h4
          rw [hp] at h5; cases h5
        exact ⟨e, hfw k e h4 hne, h5, h6⟩
    · intro j d p hj hpj
      rcases hbw j d hj with ⟨rfl, rfl⟩ | ⟨_, h3⟩
      · have hg := hs.good j c p hc hpj
        unfold GoodCall at hg ⊢
        rw [hp] at hg
        have hg : c.results = [] := hg
        refine ⟨Nat.zero_le _, ?_⟩
        unfold ReportsFirst
        simp [hg]
      · exact hs.good j d p h3 hpj
    · intro j d hj hd
      have : ∃ e, s.calls[j]? = some e ∧ e.cancelled = true := by
        rcases hbw j d hj with ⟨rfl, rfl⟩ | ⟨_, h3⟩
        · exact ⟨c, hc, hd⟩
        · exact ⟨d, h3, hd⟩
      obtain ⟨e, h1, h2⟩ := this
      obtain ⟨k, f, h3, h4, h5⟩ := hs.cause j e h1 h2
      by_cases hk : k = i
      · subst hk
        exact ⟨k, _, h3, hself, by simp⟩
      · exact ⟨k, f, h3, hfw k f h4 hk, h5⟩
  | @test i c k p hc hp hprog hk hca =>
    refine callsOk_local hs hc (hmoved (.testing k) hc) rfl rfl rfl ?_ ?_ ?_ rfl rfl ?_
    · rw [hp]; rfl
    · rw [hp]; rfl
    · rw [hp]; rfl
    · intro q hq
      rw [hprog] at hq; cases hq
      have hg := hs.good _ c p hc hprog
      unfold GoodCall at hg ⊢
      rw [hp] at hg
      exact ⟨hk, hg.2⟩
  | @cancelled i c k p hc hp hprog hk hca =>
    refine callsOk_local hs hc (hmoved _ hc) rfl rfl rfl ?_ ?_ ?_ rfl rfl ?_
    · rw [hp]; rfl
    · rw [hp]; rfl
    · rw [hp]; rfl
    · intro q hq
      rw [hprog] at hq; cases hq
      have hg := hs.good _ c p hc hprog
      unfold GoodCall at hg ⊢
      rw [hp] at hg
      exact EndsAs.cancelled hca hk hg.2
  | @failed i c k p e hc hp hprog he =>
    refine callsOk_local hs hc (hmoved _ hc) rfl rfl rfl ?_ ?_ ?_ rfl rfl ?_
    · rw [hp]; rfl
    · rw [hp]; rfl
    · rw [hp]; rfl
    · intro q hq
      rw [hprog] at hq; cases hq
      have hg := hs.good _ c p hc hprog
      unfold GoodCall at hg ⊢
      rw [hp] at hg
      exact EndsAs.failed hg.1 he hg.2
  | @passed i c k p r hc hp hprog he =>
    refine callsOk_local
      (c' := { c with place := .between (k + 1), results := c.results ++ [reported p.settings r] })
      hs hc ?_ rfl rfl rfl ?_ ?_ ?_ rfl rfl ?_
    · intro j
      show (s.calls.modify i _)[j]? = _
      rw [List.getElem?_modify]
      by_cases hj : i = j
      · subst hj; simp [hc]
      · simp [hj]
    · rw [hp]; rfl
    · rw [hp]; rfl
    · rw [hp]; rfl
    · intro q hq
      rw [hprog] at hq; cases hq
      have hg := hs.good _ c p hc hprog
      unfold GoodCall at hg ⊢
      rw [hp] at hg
      obtain ⟨h1, h2, h3⟩ := hg
      refine ⟨h1, by simp [h2], ?_⟩
      intro m r' hm
      rw [List.getElem?_append] at hm
      split at hm
      · exact h3 m r' hm
      · rename_i hlt
        have : m = k := by
          have := (List.getElem?_eq_some_iff.1 hm).1
          simp at this
          omega
        subst this
        rw [h2, Nat.sub_self] at hm
        simp only [List.getElem?_cons_zero, Option.some.injEq] at hm
        subst hm
        exact ⟨r, he, reports_reported _ _⟩
  | @finish i c k p hc hp hprog hk =>
    refine callsOk_local hs hc (hmoved _ hc) rfl rfl rfl ?_ ?_ ?_ rfl rfl ?_
    · rw [hp]; rfl
    · rw [hp]; rfl
    · rw [hp]; rfl
    · intro q hq
      rw [hprog] at hq; cases hq
      have hg := hs.good _ c p hc hprog
      unfold GoodCall at hg ⊢
      rw [hp] at hg
      have : k = p.tests := Nat.le_antisymm hg.1 hk
      subst this
      exact endsAs_finish hg.2
  | @notify i c e hc hp =>
    have hget := hmoved (.notified e) hc
    have hbw : ∀ (j : Nat) d, (s.move i (.notified e)).calls[j]? = some d →
        (j = i ∧ d = { c with place := .notified e }) ∨ (j ≠ i ∧ s.calls[j]? = some d) := by
      intro j d hj
      rw [hget] at hj
      by_cases hji : i = j
      · subst hji
        simp only [if_true, Option.some.injEq] at hj
        exact Or.inl ⟨rfl, hj.symm⟩
      · rw [if_neg hji] at hj
        exact Or.inr ⟨fun h => hji h.symm, hj⟩
    have hself : (s.move i (.notified e)).calls[i]? = some { c with place := .notified e } := by
      rw [hget, if_pos rfl]
    have hfw : ∀ (j : Nat) d, s.calls[j]? = some d → j ≠ i → (s.move i (.notified e)).calls[j]? = some d := by
      intro j d hj hne
      rw [hget, if_neg (fun e => hne e.symm), hj]
    constructor
    · show (s.move i _).calls.length = _
      unfold Calls.move
      simp [hs.len]
    · intro k
      show s.context = some k ↔ _
      rw [hs.ctx]
      constructor
      · rintro ⟨d, h1, h2⟩
        by_cases hk : k = i
        · subst hk; exact ⟨_, hself, rfl⟩
        · exact ⟨d, hfw k d h1 hk, h2⟩
      · rintro ⟨d, h1, h2⟩
        rcases hbw k d h1 with ⟨rfl, _⟩ | ⟨_, h3⟩
        · exact ⟨c, hc, by rw [hp]; rfl⟩
        · exact ⟨d, h3, h2⟩
    · intro k hk
      obtain ⟨d, h1, h2⟩ := hs.note k hk
      by_cases hk : k = i
      · subst hk; exact ⟨_, hself, rfl⟩
      · exact ⟨d, hfw k d h1 hk, h2⟩
    · exact hs.ctxNote
    · intro k
      show k ∈ i :: s.notified ↔ _
      rw [List.mem_cons, hs.notified]
      constructor
      · rintro (rfl | ⟨d, h1, h2⟩)
        · exact ⟨_, hself, rfl⟩
        · by_cases hk : k = i
          · subst hk; exact ⟨_, hself, rfl⟩
          · exact ⟨d, hfw k d h1 hk, h2⟩
      · rintro ⟨d, h1, h2⟩
        rcases hbw k d h1 with ⟨rfl, _⟩ | ⟨_, h3⟩
        · exact Or.inl rfl
        · exact Or.inr ⟨d, h3, h2⟩
    · intro j d k hj hk
      rcases hbw j d hj with ⟨rfl, rfl⟩ | ⟨_, h3⟩
      · cases hk
      · obtain ⟨f, h4, h5, h6⟩ := hs.waits j d k h3 hk
        by_cases hki : k = i
        · subst hki
          rw [hc] at h4; cases h4
          exact ⟨_, hself, rfl, fun _ => h6 (by rw [hp]; rfl)⟩
        · exact ⟨f, hfw k f h4 hki, h5, h6⟩
    · intro j d p hj hpj
      rcases hbw j d hj with ⟨rfl, rfl⟩ | ⟨_, h3⟩
      · have hg := hs.good j c p hc hpj
        unfold GoodCall at hg ⊢
        rw [hp] at hg
        exact hg
      · exact hs.good j d p h3 hpj
    · intro j d hj hd
      have : ∃ f, s.calls[j]? = some f ∧ f.cancelled = true := by
        rcases hbw j d hj with ⟨rfl, rfl⟩ | ⟨_, h3⟩
        · exact ⟨c, hc, hd⟩
        · exact ⟨d, h3, hd⟩
      obtain ⟨f, h1, h2⟩ := this
      obtain ⟨k, g, h3, h4, h5⟩ := hs.cause j f h1 h2
      by_cases hk : k = i
      · subst hk
        exact ⟨k, _, h3, hself, by simp⟩
      · exact ⟨k, g, h3, hfw k g h4 hk, h5⟩
  | @clear i c e hc hp =>
    have hget := hmoved (.returned e) hc
    have hbw : ∀ (j : Nat) d, (s.move i (.returned e)).calls[j]? = some d →
        (j = i ∧ d = { c with place := .returned e }) ∨ (j ≠ i ∧ s.calls[j]? = some d) := by
      intro j d hj
      rw [hget] at hj
      by_cases hji : i = j
      · subst hji
        simp only [if_true, Option.some.injEq] at hj
        exact Or.inl ⟨rfl, hj.symm⟩
      · rw [if_neg hji] at hj
        exact Or.inr ⟨fun h => hji h.symm, hj⟩
    have hself : (s.move i (.returned e)).calls[i]? = some { c with place := .returned e } := by
      rw [hget, if_pos rfl]
    have hfw : ∀ (j : Nat) d, s.calls[j]? = some d → j ≠ i → (s.move i (.returned e)).calls[j]? = some d := by
      intro j d hj hne
      rw [hget, if_neg (fun e => hne e.symm), hj]
    have hctxi : s.context = some i := (hs.ctx i).2 ⟨c, hc, by rw [hp]; rfl⟩
    constructor
    · show (s.move i _).calls.length = _
      unfold Calls.move
      simp [hs.len]
    · intro k
      show none = some k ↔ _
      constructor
      · intro h; cases h
      · rintro ⟨d, h1, h2⟩
        rcases hbw k d h1 with ⟨rfl, rfl⟩ | ⟨hne, h3⟩
        · cases h2
        · have := (hs.ctx k).2 ⟨d, h3, h2⟩
          rw [hctxi] at this
          cases this
          exact absurd rfl hne
    · intro k hk
      obtain ⟨d, h1, h2⟩ := hs.note k hk
      by_cases hk : k = i
      · subst hk; exact ⟨_, hself, rfl⟩
      · exact ⟨d, hfw k d h1 hk, h2⟩
    · intro k hk; cases hk
    · intro k
      show k ∈ s.notified ↔ _
      rw [hs.notified]
      constructor
      · rintro ⟨d, h1, h2⟩
        by_cases hk : k = i
        · subst hk; exact ⟨_, hself, rfl⟩
        · exact ⟨d, hfw k d h1 hk, h2⟩
      · rintro ⟨d, h1, h2⟩
        rcases hbw k d h1 with ⟨rfl, _⟩ | ⟨_, h3⟩
        · exact ⟨c, hc, by rw [hp]; rfl⟩
        · exact ⟨d, h3, h2⟩
    · intro j d k hj hk
      rcases hbw j d hj with ⟨rfl, rfl⟩ | ⟨_, h3⟩
      · cases hk
      · obtain ⟨f, h4, h5, h6⟩ := hs.waits j d k h3 hk
        by_cases hki : k = i
        · subst hki
          exact ⟨_, hself, rfl, fun h => by cases h⟩
        · exact ⟨f, hfw k f h4 hki, h5, h6⟩
    · intro j d p hj hpj
      rcases hbw j d hj with ⟨rfl, rfl⟩ | ⟨_, h3⟩
      · have hg := hs.good j c p hc hpj
        unfold GoodCall at hg ⊢
        rw [hp] at hg
        exact hg
      · exact hs.good j d p h3 hpj
    · intro j d hj hd
      have : ∃ f, s.calls[j]? = some f ∧ f.cancelled = true := by
        rcases hbw j d hj with ⟨rfl, rfl⟩ | ⟨_, h3⟩
        · exact ⟨c, hc, hd⟩
        · exact ⟨d, h3, hd⟩
      obtain ⟨f, h1, h2⟩ := this
      obtain ⟨k, g, h3, h4, h5⟩ := hs.cause j f h1 h2
      by_cases hk : k = i
      · subst hk
        exact ⟨k, _, h3, hself, by simp⟩
      · exact ⟨k, g, h3, hfw k g h4 hk, h5⟩

theorem callsOk {prog : List Call} {s : Calls} (h : CallRun prog s) : CallsOk prog s := by
  induction h with
  | init => exact callsOk_init prog
  | step _ hstep ih => exact callsOk_step ih hstep

end Distbench.Sequencer
