import Verif.Spec.Serving

/-! Lemmas for Props/Serving.lean: what the state of a server has to do with what has happened. -/

namespace Distbench.Serving
open Spec

/-! ### Runs -/

theorem run_append (k : Kind) (s : Server) (a b : List Op) :
    run k s (a ++ b) = match run k s a with
      | none => none
      | some (.ok s') => run k s' b
      | some o => some o := by
  induction a generalizing s with
  | nil => rfl
  | cons op a ih =>
    rw [List.cons_append, run, run]
    cases h : step k s op with
    | none => rfl
    | some o =>
      cases o with
      | ok s' => exact ih s'
      | error m => rfl
      | ub => rfl
      | crash => rfl

/-- The last step of a run. -/
theorem served_snoc {k : Kind} {ops : List Op} {op : Op} {s : Server} :
    Served k (ops ++ [op]) s ↔ ∃ s0, Served k ops s0 ∧ step k s0 op = some (.ok s) := by
  unfold Served
  rw [run_append]
  constructor
  · intro h
    cases h0 : run k {} ops with
    | none => rw [h0] at h; cases h
    | some o =>
      rw [h0] at h
      cases o with
      | ok s0 =>
        refine ⟨s0, rfl, ?_⟩
        dsimp only at h
        rw [run] at h
        cases h1 : step k s0 op with
        | none => rw [h1] at h; cases h
        | some o =>
          rw [h1] at h
          cases o with
          | ok s' => exact h
          | error m => cases h
          | ub => cases h
          | crash => cases h
      | error m => cases h
      | ub => cases h
      | crash => cases h
  · rintro ⟨s0, h0, h1⟩
    rw [h0]
    dsimp only
    rw [run, h1]
    rfl

theorem served_prefix {k : Kind} {a b : List Op} {s : Server} (h : Served k (a ++ b) s) :
    ∃ s0, Served k a s0 ∧ run k s0 b = some (.ok s) := by
  unfold Served at h ⊢
  rw [run_append] at h
  cases h0 : run k {} a with
  | none => rw [h0] at h; cases h
  | some o =>
    rw [h0] at h
    cases o with
    | ok s0 => exact ⟨s0, rfl, h⟩
    | error m => cases h
    | ub => cases h
    | crash => cases h

/-- Induction from the end. -/
theorem snoc_induction {α : Type} {P : List α → Prop} (h0 : P []) (h1 : ∀ l a, P l → P (l ++ [a])) :
    ∀ l, P l := by
  intro l
  have : ∀ r : List α, P r.reverse := by
    intro r
    induction r with
    | nil => exact h0
    | cons a r ih => rw [List.reverse_cons]; exact h1 _ _ ih
  have h := this l.reverse
  rwa [List.reverse_reverse] at h

/-- A run that fails does so at some step, after a run that does not. -/
theorem run_fails {k : Kind} {ops : List Op} {o : Outcome Server} (h : run k {} ops = some o)
    (ho : ∀ s, o ≠ .ok s) :
    ∃ pre op post s, ops = pre ++ op :: post ∧ Served k pre s ∧ step k s op = some o := by
  have : ∀ (ops pre : List Op) (s : Server), Served k pre s → run k s ops = some o →
      ∃ pre' op post s', pre ++ ops = pre' ++ op :: post ∧ Served k pre' s' ∧ step k s' op = some o := by
    intro ops
    induction ops with
    | nil => intro pre s _ h; rw [run] at h; cases h; exact absurd rfl (ho s)
    | cons op ops ih =>
      intro pre s hs h
      rw [run] at h
      cases h1 : step k s op with
      | none => rw [h1] at h; cases h
      | some o' =>
        rw [h1] at h
        cases o' with
        | ok s' =>
          obtain ⟨a, b, c, d, he, h2⟩ := ih (pre ++ [op]) s' (served_snoc.2 ⟨s, hs, h1⟩) h
          exact ⟨a, b, c, d, by rw [← he]; simp, h2⟩
        | error m => cases h; exact ⟨pre, op, ops, s, rfl, hs, h1⟩
        | ub => cases h; exact ⟨pre, op, ops, s, rfl, hs, h1⟩
        | crash => cases h; exact ⟨pre, op, ops, s, rfl, hs, h1⟩
  obtain ⟨a, b, c, d, he, h2⟩ := this ops [] {} rfl h
  exact ⟨a, b, c, d, he, h2⟩

/-! ### The invariant -/

/-- What the state has to do with the steps so far. -/
structure Inv (k : Kind) (ops : List Op) (s : Server) : Prop where
  made : s.made = requestsArrived ops
  handler : s.handler = true ↔ Op.setEnd ∈ ops
  setting : s.setting = true → ∃ pre mid, ops = pre ++ .setBegin :: mid ∧ Op.setEnd ∉ mid
  begun : s.setting = false → ops.count .setBegin = ops.count .setEnd
  begun' : s.setting = true → ops.count .setBegin = ops.count .setEnd + 1
  notified : s.notified = true → s.handler = true ∨ (s.shutting = true ∧ (k = .polling ∨ k = .homa))
  told : s.handler = true → s.notified = true
  shutting : s.shutting = true ↔ Op.shutdown ∈ ops
  calm : s.shutting = true → s.setting = false
  closed : s.closed = true → s.shutting = true
  returned : s.returned = true ↔ Op.return ∈ ops
  later : ∀ id, s.made ≤ id → s.calls id = {}
  handled : ∀ id, id ∈ s.handled ↔ (s.calls id).phase = .handling ∨ (s.calls id).phase = .working ∨
    (s.calls id).phase = .over
  nodup : s.handled.Nodup
  over : ∀ id, (s.calls id).phase = .over ↔ Op.done id ∈ ops
  forgotten : ∀ id, (s.calls id).phase = .forgotten → s.shutting = true ∧ s.handler = false ∧ k = .polling
  sent : ∀ id r, (s.calls id).sent = some r ↔ Op.send id r ∈ ops
  sentPhase : ∀ id r, (s.calls id).sent = some r → id ∈ s.handled
  delivered : ∀ id a, (id, a) ∈ s.delivered ↔
    (if k = .inline then Op.done id ∈ ops ∧ a = .ok (s.calls id).sent
     else ∃ r, a = .ok (some r) ∧ Op.send id r ∈ ops)
  once : (s.delivered.map (·.1)).Nodup

/-- A step that leaves the requests that came alone. -/
theorem inv_quiet {k : Kind} {ops : List Op} {op : Op} {s s' : Server} (h : Inv k ops s)
    (hd : ∀ i, op ≠ .done i) (hs : ∀ i r, op ≠ .send i r)
    (ec : s'.calls = s.calls) (eh : s'.handled = s.handled) (ed : s'.delivered = s.delivered)
    (em : s.made ≤ s'.made) (es : s.shutting = true → s'.shutting = true ∧ s'.handler = s.handler)
    (made : s'.made = requestsArrived (ops ++ [op]))
    (handler : s'.handler = true ↔ Op.setEnd ∈ ops ++ [op])
    (setting : s'.setting = true → ∃ pre mid, ops ++ [op] = pre ++ .setBegin :: mid ∧ Op.setEnd ∉ mid)
    (begun : s'.setting = false → (ops ++ [op]).count .setBegin = (ops ++ [op]).count .setEnd)
    (begun' : s'.setting = true → (ops ++ [op]).count .setBegin = (ops ++ [op]).count .setEnd + 1)
    (notified : s'.notified = true →
      s'.handler = true ∨ (s'.shutting = true ∧ (k = .polling ∨ k = .homa)))
    (told : s'.handler = true → s'.notified = true)
    (shutting : s'.shutting = true ↔ Op.shutdown ∈ ops ++ [op])
    (calm : s'.shutting = true → s'.setting = false)
    (closed : s'.closed = true → s'.shutting = true)
    (returned : s'.returned = true ↔ Op.return ∈ ops ++ [op]) : Inv k (ops ++ [op]) s' := by
  have hm : ∀ x : Op, x ≠ op → (x ∈ ops ++ [op] ↔ x ∈ ops) := by
    intro x hx
    simp [hx]
  refine ⟨made, handler, setting, begun, begun', notified, told, shutting, calm, closed, returned,
    ?_, ?_, ?_, ?_, ?_, ?_, ?_, ?_, ?_⟩
  · intro id hid
    rw [ec]
    exact h.later id (Nat.le_trans em hid)
  · intro id; rw [eh, ec]; exact h.handled id
  · rw [eh]; exact h.nodup
  · intro id; rw [ec, hm _ (hd id).symm]; exact h.over id
  · intro id hf
    rw [ec] at hf
    obtain ⟨h1, h2, h3⟩ := h.forgotten id hf
    obtain ⟨h4, h5⟩ := es h1
    exact ⟨h4, h5.trans h2, h3⟩
  · intro id r; rw [ec, hm _ (hs id r).symm]; exact h.sent id r
  · intro id r; rw [ec, eh]; exact h.sentPhase id r
  · intro id a
    rw [ed, ec, hm _ (hd id).symm, h.delivered id a]
    split
    · exact Iff.rfl
    · constructor
      · rintro ⟨r, h1, h2⟩; exact ⟨r, h1, (hm _ (hs id r).symm).2 h2⟩
      · rintro ⟨r, h1, h2⟩; exact ⟨r, h1, (hm _ (hs id r).symm).1 h2⟩
  · rw [ed]; exact h.once

theorem inv_arrive {k : Kind} {ops : List Op} {s s' : Server} (h : Inv k ops s)
    (hs : step k s .arrive = some (.ok s')) : Inv k (ops ++ [.arrive]) s' := by
  have made := h.made
  have handler := h.handler
  have setting := h.setting
  have begun := h.begun
  have begun' := h.begun'
  have notified := h.notified
  have told := h.told
  have shutting := h.shutting
  have calm := h.calm
  have closed := h.closed
  have returned := h.returned
  simp only [step] at hs
  split at hs
  · cases hs
  · cases hs
    refine inv_quiet h (by simp) (by simp) rfl rfl rfl ?_ ?_ ?_ ?_ ?_ ?_ ?_ ?_ ?_ ?_ ?_ ?_ ?_ <;>
      clear h <;> simp_all [requestsArrived] <;> grind

theorem inv_setBegin {k : Kind} {ops : List Op} {s s' : Server} (h : Inv k ops s)
    (hs : step k s .setBegin = some (.ok s')) : Inv k (ops ++ [.setBegin]) s' := by
  have made := h.made
  have handler := h.handler
  have setting := h.setting
  have begun := h.begun
  have begun' := h.begun'
  have notified := h.notified
  have told := h.told
  have shutting := h.shutting
  have calm := h.calm
  have closed := h.closed
  have returned := h.returned
  simp only [step] at hs
  split at hs
  · cases hs
  · cases hs
    refine inv_quiet h (by simp) (by simp) rfl rfl rfl ?_ ?_ ?_ ?_ ?_ ?_ ?_ ?_ ?_ ?_ ?_ ?_ ?_ <;>
      clear h <;> simp_all [requestsArrived] <;> grind

theorem inv_setEnd {k : Kind} {ops : List Op} {s s' : Server} (h : Inv k ops s)
    (hs : step k s .setEnd = some (.ok s')) : Inv k (ops ++ [.setEnd]) s' := by
  have made := h.made
  have handler := h.handler
  have setting := h.setting
  have begun := h.begun
  have begun' := h.begun'
  have notified := h.notified
  have told := h.told
  have shutting := h.shutting
  have calm := h.calm
  have closed := h.closed
  have returned := h.returned
  simp only [step] at hs
  split at hs
  · cases hs
    refine inv_quiet h (by simp) (by simp) rfl rfl rfl ?_ ?_ ?_ ?_ ?_ ?_ ?_ ?_ ?_ ?_ ?_ ?_ ?_ <;>
      clear h <;> simp_all [requestsArrived] <;> grind
  · cases hs

theorem inv_take {k : Kind} {ops : List Op} (id : Nat) {s s' : Server} (h : Inv k ops s)
    (hs : step k s (.take id) = some (.ok s')) : Inv k (ops ++ [(.take id)]) s' := by
  obtain ⟨made, handler, setting, begun, begun', notified, told, shutting, calm, closed, returned,
    later, handled, nodup, over, forgotten, sent, sentPhase, delivered, once⟩ := h
  simp only [step] at hs
  split at hs
  · rename_i hg
    rw [Option.some.injEq] at hs
    unfold take at hs
    split at hs
    · cases hs
    · split at hs
      · cases hs
        refine ⟨?_, ?_, ?_, ?_, ?_, ?_, ?_, ?_, ?_, ?_, ?_, ?_, ?_, ?_, ?_, ?_, ?_, ?_, ?_, ?_⟩ <;>
          simp_all [requestsArrived, Server.set] <;> grind
      · rename_i h1 h2
        unfold takes at hg
        cases k with
        | polling =>
          cases hs
          refine ⟨?_, ?_, ?_, ?_, ?_, ?_, ?_, ?_, ?_, ?_, ?_, ?_, ?_, ?_, ?_, ?_, ?_, ?_, ?_, ?_⟩ <;>
            simp_all [requestsArrived, Server.set] <;> grind
        | inline => have := notified; simp_all
        | handoff => have := notified; simp_all
        | homa => cases hs
        | mercury => cases hs
  · cases hs

theorem inv_send {k : Kind} {ops : List Op} (id r : Nat) {s s' : Server} (h : Inv k ops s)
    (hs : step k s (.send id r) = some (.ok s')) : Inv k (ops ++ [.send id r]) s' := by
  obtain ⟨made, handler, setting, begun, begun', notified, told, shutting, calm, closed, returned,
    later, handled, nodup, over, forgotten, sent, sentPhase, delivered, once⟩ := h
  simp only [step] at hs
  split at hs
  · rename_i hg
    cases hs
    have hp : ∀ i, ((send k s id r).calls i).phase = (s.calls i).phase := by
      intro i
      have : (send k s id r).calls i = if i = id then { s.calls id with sent := some r } else s.calls i := by
        unfold send Server.set
        cases k <;> rfl
      rw [this]
      split
      · next he => rw [he]
      · rfl
    have hq : ∀ i, ((send k s id r).calls i).sent = if i = id then some r else (s.calls i).sent := by
      intro i
      have : (send k s id r).calls i = if i = id then { s.calls id with sent := some r } else s.calls i := by
        unfold send Server.set
        cases k <;> rfl
      rw [this]
      split <;> rfl
    have hm : ∀ op, op ≠ Op.send id r → (op ∈ ops ++ [Op.send id r] ↔ op ∈ ops) := by
      intro op hop
      simp [hop]
    have hc : ∀ op, op ≠ Op.send id r → (ops ++ [Op.send id r]).count op = ops.count op := by
      intro op hop
      rw [List.count_append, (List.count_eq_zero (a := op) (l := [Op.send id r])).2 (by simpa using hop), Nat.add_zero]
    have hold : ∀ r', Op.send id r' ∉ ops := by
      intro r' hr
      have := (sent id r').2 hr
      rw [hg.2] at this
      cases this
    have hsame : (send k s id r).made = s.made ∧ (send k s id r).handler = s.handler ∧
        (send k s id r).setting = s.setting ∧ (send k s id r).notified = s.notified ∧
        (send k s id r).shutting = s.shutting ∧ (send k s id r).closed = s.closed ∧
        (send k s id r).returned = s.returned ∧ (send k s id r).handled = s.handled := by
      unfold send Server.set
      cases k <;> exact ⟨rfl, rfl, rfl, rfl, rfl, rfl, rfl, rfl⟩
    obtain ⟨e1, e2, e3, e4, e5, e6, e7, e8⟩ := hsame
    have hid : id < s.made := by
      rcases Nat.lt_or_ge id s.made with h | h
      · exact h
      · rw [later id h] at hg
        exact absurd hg.1 (by decide)
    refine ⟨?_, ?_, ?_, ?_, ?_, ?_, ?_, ?_, ?_, ?_, ?_, ?_, ?_, ?_, ?_, ?_, ?_, ?_, ?_, ?_⟩
    · rw [e1, made, requestsArrived, requestsArrived, hc _ (by simp)]
    · rw [e2, hm _ (by simp)]; exact handler
    · intro h
      obtain ⟨pre, mid, rfl, h2⟩ := setting (e3 ▸ h)
      exact ⟨pre, mid ++ [.send id r], by simp, by simpa using h2⟩
    · rw [e3, hc _ (by simp), hc _ (by simp)]; exact begun
    · rw [e3, hc _ (by simp), hc _ (by simp)]; exact begun'
    · rw [e4, e2, e5]; exact notified
    · rw [e2, e4]; exact told
    · rw [e5, hm _ (by simp)]; exact shutting
    · rw [e5, e3]; exact calm
    · rw [e6, e5]; exact closed
    · rw [e7, hm _ (by simp)]; exact returned
    · intro i hi
      rw [e1] at hi
      have := later i hi
      have hne : i ≠ id := by omega
      have h1 := hp i
      have h2 := hq i
      rw [if_neg hne] at h2
      rw [this] at h1 h2
      cases hcall : (send k s id r).calls i with
      | mk p q =>
        rw [hcall] at h1 h2
        dsimp only at h1 h2
        rw [h1, h2]
    · intro i; rw [e8, hp]; exact handled i
    · rw [e8]; exact nodup
    · intro i; rw [hp, hm _ (by simp)]; exact over i
    · intro i; rw [hp, e5, e2]; exact forgotten i
    · intro i r'
      rw [hq]
      split
      · next he =>
        subst he
        simp only [Option.some.injEq, List.mem_append, List.mem_singleton, Op.send.injEq, true_and]
        constructor
        · intro h; exact .inr h.symm
        · rintro (h | h)
          · exact absurd h (hold r')
          · exact h.symm
      · next he => rw [hm _ (by simp [he])]; exact sent i r'
    · intro i r'
      rw [hq, e8]
      split
      · next he =>
        intro _
        subst he
        exact (handled i).2 (by rcases hg.1 with h | h <;> simp [h])
      · exact sentPhase i r'
    · intro i a
      by_cases hk : k = .inline
      · subst hk
        have hd : (send .inline s id r).delivered = s.delivered := rfl
        have := delivered i a
        rw [if_pos rfl] at this ⊢
        rw [hd, this, hm _ (by simp), hq]
        constructor
        · rintro ⟨h1, h2⟩
          refine ⟨h1, ?_⟩
          rw [if_neg]
          · exact h2
          · intro he
            subst he
            have := (over i).2 h1
            rcases hg.1 with h | h <;> rw [h] at this <;> cases this
        · rintro ⟨h1, h2⟩
          refine ⟨h1, ?_⟩
          rw [if_neg] at h2
          · exact h2
          · intro he
            subst he
            have := (over i).2 h1
            rcases hg.1 with h | h <;> rw [h] at this <;> cases this
      · have hd : (send k s id r).delivered = (id, .ok (some r)) :: s.delivered := by
          unfold send
          cases k <;> first | rfl | exact absurd rfl hk
        have := delivered i a
        rw [if_neg hk] at this ⊢
        rw [hd, List.mem_cons, this]
        simp only [List.mem_append, List.mem_singleton, Prod.mk.injEq, Op.send.injEq]
        constructor
        · rintro (⟨rfl, rfl⟩ | ⟨r', rfl, h⟩)
          · exact ⟨r, rfl, .inr ⟨rfl, rfl⟩⟩
          · exact ⟨r', rfl, .inl h⟩
        · rintro ⟨r', rfl, h | ⟨rfl, rfl⟩⟩
          · exact .inr ⟨r', rfl, h⟩
          · exact .inl ⟨rfl, rfl⟩
    · by_cases hk : k = .inline
      · subst hk; exact once
      · have hd : (send k s id r).delivered = (id, .ok (some r)) :: s.delivered := by
          unfold send
          cases k <;> first | rfl | exact absurd rfl hk
        rw [hd, List.map_cons, List.nodup_cons]
        refine ⟨?_, once⟩
        intro hin
        obtain ⟨⟨i, a⟩, hia, he⟩ := List.mem_map.1 hin
        have := (delivered i a).1 hia
        rw [if_neg hk] at this
        obtain ⟨r', _, hr⟩ := this
        dsimp only at he
        rw [he] at hr
        exact hold r' hr
  · cases hs

theorem inv_defer {k : Kind} {ops : List Op} (id : Nat) {s s' : Server} (h : Inv k ops s)
    (hs : step k s (.defer id) = some (.ok s')) : Inv k (ops ++ [(.defer id)]) s' := by
  obtain ⟨made, handler, setting, begun, begun', notified, told, shutting, calm, closed, returned,
    later, handled, nodup, over, forgotten, sent, sentPhase, delivered, once⟩ := h
  simp only [step] at hs
  split at hs
  · cases hs
    refine ⟨?_, ?_, ?_, ?_, ?_, ?_, ?_, ?_, ?_, ?_, ?_, ?_, ?_, ?_, ?_, ?_, ?_, ?_, ?_, ?_⟩ <;>
      simp_all [requestsArrived, Server.set] <;> grind
  · cases hs

theorem inv_done {k : Kind} {ops : List Op} (id : Nat) {s s' : Server} (h : Inv k ops s)
    (hs : step k s (.done id) = some (.ok s')) : Inv k (ops ++ [.done id]) s' := by
  obtain ⟨made, handler, setting, begun, begun', notified, told, shutting, calm, closed, returned,
    later, handled, nodup, over, forgotten, sent, sentPhase, delivered, once⟩ := h
  simp only [step] at hs
  split at hs
  · rename_i hg
    cases hs
    have hcalls : ∀ i, (finish k s id).calls i =
        if i = id then { s.calls id with phase := .over } else s.calls i := by
      intro i
      unfold finish Server.set
      cases k <;> rfl
    have hp : ∀ i, ((finish k s id).calls i).phase = if i = id then .over else (s.calls i).phase := by
      intro i
      rw [hcalls]
      split <;> rfl
    have hq : ∀ i, ((finish k s id).calls i).sent = (s.calls i).sent := by
      intro i
      rw [hcalls]
      split
      · next he => rw [he]
      · rfl
    have hm : ∀ op, op ≠ Op.done id → (op ∈ ops ++ [Op.done id] ↔ op ∈ ops) := by
      intro op hop
      simp [hop]
    have hc : ∀ op, op ≠ Op.done id → (ops ++ [Op.done id]).count op = ops.count op := by
      intro op hop
      rw [List.count_append, (List.count_eq_zero (a := op) (l := [Op.done id])).2 (by simpa using hop), Nat.add_zero]
    have hold : Op.done id ∉ ops := by
      intro hr
      have := (over id).2 hr
      rcases hg with h | h <;> rw [h] at this <;> cases this
    have hsame : (finish k s id).made = s.made ∧ (finish k s id).handler = s.handler ∧
        (finish k s id).setting = s.setting ∧ (finish k s id).notified = s.notified ∧
        (finish k s id).shutting = s.shutting ∧ (finish k s id).closed = s.closed ∧
        (finish k s id).returned = s.returned ∧ (finish k s id).handled = s.handled := by
      unfold finish Server.set
      cases k <;> exact ⟨rfl, rfl, rfl, rfl, rfl, rfl, rfl, rfl⟩
    obtain ⟨e1, e2, e3, e4, e5, e6, e7, e8⟩ := hsame
    have hid : id < s.made := by
      rcases Nat.lt_or_ge id s.made with h | h
      · exact h
      · rw [later id h] at hg
        exact absurd hg (by decide)
    refine ⟨?_, ?_, ?_, ?_, ?_, ?_, ?_, ?_, ?_, ?_, ?_, ?_, ?_, ?_, ?_, ?_, ?_, ?_, ?_, ?_⟩
    · rw [e1, made, requestsArrived, requestsArrived, hc _ (by simp)]
    · rw [e2, hm _ (by simp)]; exact handler
    · intro h
      obtain ⟨pre, mid, rfl, h2⟩ := setting (e3 ▸ h)
      exact ⟨pre, mid ++ [.done id], by simp, by simpa using h2⟩
    · rw [e3, hc _ (by simp), hc _ (by simp)]; exact begun
    · rw [e3, hc _ (by simp), hc _ (by simp)]; exact begun'
    · rw [e4, e2, e5]; exact notified
    · rw [e2, e4]; exact told
    · rw [e5, hm _ (by simp)]; exact shutting
    · rw [e5, e3]; exact calm
    · rw [e6, e5]; exact closed
    · rw [e7, hm _ (by simp)]; exact returned
    · intro i hi
      rw [e1] at hi
      rw [hcalls, if_neg (by omega)]
      exact later i hi
    · intro i
      rw [e8, hp]
      split
      · next he =>
        subst he
        simp only [or_true, iff_true]
        exact (handled i).2 (by rcases hg with h | h <;> simp [h])
      · exact handled i
    · rw [e8]; exact nodup
    · intro i
      rw [hp]
      split
      · next he => subst he; simp
      · next he => rw [hm _ (by simp [he])]; exact over i
    · intro i
      rw [hp, e5, e2]
      split
      · intro h; cases h
      · exact forgotten i
    · intro i r'; rw [hq, hm _ (by simp)]; exact sent i r'
    · intro i r'; rw [hq, e8]; exact sentPhase i r'
    · intro i a
      by_cases hk : k = .inline
      · subst hk
        have hd : (finish .inline s id).delivered = (id, .ok (s.calls id).sent) :: s.delivered := rfl
        have := delivered i a
        rw [if_pos rfl] at this ⊢
        rw [hd, List.mem_cons, this, hq]
        simp only [List.mem_append, List.mem_singleton, Prod.mk.injEq, Op.done.injEq]
        constructor
        · rintro (⟨rfl, rfl⟩ | ⟨h1, h2⟩)
          · exact ⟨.inr rfl, rfl⟩
          · exact ⟨.inl h1, h2⟩
        · rintro ⟨h1 | rfl, h2⟩
          · exact .inr ⟨h1, h2⟩
          · exact .inl ⟨rfl, h2⟩
      · have hd : (finish k s id).delivered = s.delivered := by
          unfold finish
          cases k <;> first | rfl | exact absurd rfl hk
        have := delivered i a
        rw [if_neg hk] at this ⊢
        rw [hd, this]
        constructor
        · rintro ⟨r', rfl, h⟩
          exact ⟨r', rfl, by simp [h]⟩
        · rintro ⟨r', rfl, h⟩
          exact ⟨r', rfl, by simpa using h⟩
    · by_cases hk : k = .inline
      · subst hk
        have hd : (finish .inline s id).delivered = (id, .ok (s.calls id).sent) :: s.delivered := rfl
        rw [hd, List.map_cons, List.nodup_cons]
        refine ⟨?_, once⟩
        intro hin
        obtain ⟨⟨i, a⟩, hia, he⟩ := List.mem_map.1 hin
        have := (delivered i a).1 hia
        rw [if_pos rfl] at this
        dsimp only at he
        rw [he] at this
        exact hold this.1
      · have hd : (finish k s id).delivered = s.delivered := by
          unfold finish
          cases k <;> first | rfl | exact absurd rfl hk
        rw [hd]; exact once
  · cases hs

theorem inv_shutdown {k : Kind} {ops : List Op} {s s' : Server} (h : Inv k ops s)
    (hs : step k s .shutdown = some (.ok s')) : Inv k (ops ++ [.shutdown]) s' := by
  have made := h.made
  have handler := h.handler
  have setting := h.setting
  have begun := h.begun
  have begun' := h.begun'
  have notified := h.notified
  have told := h.told
  have shutting := h.shutting
  have calm := h.calm
  have closed := h.closed
  have returned := h.returned
  simp only [step] at hs
  split at hs
  · cases hs
  · cases k <;> cases hs <;> refine inv_quiet h (by simp) (by simp) rfl rfl rfl ?_ ?_ ?_ ?_ ?_ ?_ ?_ ?_ ?_ ?_ ?_ ?_ ?_ <;>
      clear h <;> simp_all [requestsArrived] <;> grind

theorem inv_close {k : Kind} {ops : List Op} {s s' : Server} (h : Inv k ops s)
    (hs : step k s .close = some (.ok s')) : Inv k (ops ++ [.close]) s' := by
  have made := h.made
  have handler := h.handler
  have setting := h.setting
  have begun := h.begun
  have begun' := h.begun'
  have notified := h.notified
  have told := h.told
  have shutting := h.shutting
  have calm := h.calm
  have closed := h.closed
  have returned := h.returned
  simp only [step] at hs
  split at hs
  · cases hs
    refine inv_quiet h (by simp) (by simp) rfl rfl rfl ?_ ?_ ?_ ?_ ?_ ?_ ?_ ?_ ?_ ?_ ?_ ?_ ?_ <;>
      clear h <;> simp_all [requestsArrived] <;> grind
  · cases hs

theorem inv_return {k : Kind} {ops : List Op} {s s' : Server} (h : Inv k ops s)
    (hs : step k s .return = some (.ok s')) : Inv k (ops ++ [.return]) s' := by
  have made := h.made
  have handler := h.handler
  have setting := h.setting
  have begun := h.begun
  have begun' := h.begun'
  have notified := h.notified
  have told := h.told
  have shutting := h.shutting
  have calm := h.calm
  have closed := h.closed
  have returned := h.returned
  simp only [step] at hs
  split at hs
  · cases hs
    refine inv_quiet h (by simp) (by simp) rfl rfl rfl ?_ ?_ ?_ ?_ ?_ ?_ ?_ ?_ ?_ ?_ ?_ ?_ ?_ <;>
      clear h <;> simp_all [requestsArrived] <;> grind
  · cases hs

theorem inv_step {k : Kind} {ops : List Op} {op : Op} {s s' : Server} (h : Inv k ops s)
    (hs : step k s op = some (.ok s')) : Inv k (ops ++ [op]) s' := by
  cases op with
  | arrive => exact inv_arrive h hs
  | setBegin => exact inv_setBegin h hs
  | setEnd => exact inv_setEnd h hs
  | take id => exact inv_take id h hs
  | send id r => exact inv_send id r h hs
  | defer id => exact inv_defer id h hs
  | done id => exact inv_done id h hs
  | shutdown => exact inv_shutdown h hs
  | close => exact inv_close h hs
  | «return» => exact inv_return h hs

theorem served_inv {k : Kind} {ops : List Op} {s : Server} (h : Served k ops s) : Inv k ops s := by
  have : ∀ ops : List Op, ∀ s, Served k ops s → Inv k ops s := by
    apply snoc_induction
    · intro s h
      have h : some (Outcome.ok ({} : Server)) = some (.ok s) := h
      cases h
      constructor <;> simp [requestsArrived]
    · intro l op ih s h
      obtain ⟨s0, h0, h1⟩ := served_snoc.1 h
      exact inv_step (ih s0 h0) h1
  exact this ops s h

end Distbench.Serving
