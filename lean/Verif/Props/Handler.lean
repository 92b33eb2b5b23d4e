import Verif.Spec.Handler

/-! C55, C56, C93-C100: requests, their handling, and cancellation. -/

namespace Distbench.Handler
open Spec

/-! ### requests -/

theorem requests_ok {incoming : Request} {it : Iteration} :
    ∀ {l : List (Int × Nat)} {rs : List (Int × Request)},
      l.foldr (fun (x : Int × Nat) acc =>
        match requestTo incoming it x.2 with
        | none => Outcome.ub
        | some r => acc.bind fun rs => .ok ((x.1, r) :: rs)) (.ok []) = .ok rs →
      rs.length = l.length ∧ ∀ (k : Nat) t r, rs[k]? = some (t, r) →
        ∃ i, l[k]? = some (t, i) ∧ requestTo incoming it i = some r
  | [], rs, h => by
    simp only [List.foldr_nil, Outcome.ok.injEq] at h
    subst h
    simp
  | x :: l, rs, h => by
    rw [List.foldr_cons] at h
    split at h
    · simp at h
    · rename_i r hr
      generalize hacc : (l.foldr _ (Outcome.ok [])) = acc at h
      cases acc with
      | ok rs' =>
        simp only [Outcome.bind, Outcome.ok.injEq] at h
        subst h
        obtain ⟨h1, h2⟩ := requests_ok hacc
        refine ⟨by simp [h1], ?_⟩
        intro k t r' hk
        cases k with
        | zero =>
          simp only [List.getElem?_cons_zero, Option.some.injEq, Prod.mk.injEq] at hk
          obtain ⟨rfl, rfl⟩ := hk
          exact ⟨x.2, by simp, hr⟩
        | succ k =>
          simp only [List.getElem?_cons_succ] at hk
          obtain ⟨i, a, b⟩ := h2 k t r' hk
          exact ⟨i, by simpa using a, b⟩
      | error m => simp [Outcome.bind] at h
      | ub => simp [Outcome.bind] at h
      | crash => simp [Outcome.bind] at h

/-- The request at position `k` goes to the target at that position. -/
theorem requests_get {incoming : Request} {it : Iteration} {rs : List (Int × Request)}
    (h : requests incoming it = .ok rs) :
    rs.length = it.targets.length ∧ ∀ (k : Nat) t r, rs[k]? = some (t, r) →
      it.targets[k]? = some t ∧ requestTo incoming it k = some r := by
  obtain ⟨h1, h2⟩ := requests_ok h
  refine ⟨by simpa using h1, ?_⟩
  intro k t r hk
  obtain ⟨i, a, b⟩ := h2 k t r hk
  rw [List.getElem?_zipIdx] at a
  cases hg : it.targets[k]? with
  | none => rw [hg] at a; simp at a
  | some y =>
    rw [hg] at a
    simp only [Option.map_some, Option.some.injEq, Prod.mk.injEq, Nat.zero_add] at a
    obtain ⟨rfl, rfl⟩ := a
    exact ⟨rfl, b⟩

theorem due_iff {it : Iteration} (h0 : 0 ≤ it.traceCounter) (h1 : it.traceCounter < 2 ^ 31) :
    dueForTrace it = true ↔ StartsTrace it := by
  have hn : narrow it.traceCounter = it.traceCounter := by unfold narrow; omega
  unfold dueForTrace StartsTrace
  rw [hn]
  simp only [gt_iff_lt, Bool.and_eq_true, decide_eq_true_eq, beq_iff_eq]
  rw [← Int.dvd_iff_tmod_eq_zero]

/-! ### C55: the trace context -/

/-- What a request says about the hops, `none` if there is nothing to say. -/
def saying (hops : List (Iteration × Nat)) : Option TraceContext :=
  match hops with
  | [] => none
  | _ => some (contextOf hops)

theorem tracedPart_append (hops : List (Iteration × Nat)) (h : Iteration × Nat) :
    tracedPart (hops ++ [h]) =
      if tracedPart hops ≠ [] then tracedPart hops ++ [h]
      else if StartsTrace h.1 then [h] else [] := by
  induction hops with
  | nil => simp [tracedPart]
  | cons a l ih =>
    simp only [List.cons_append, tracedPart]
    split
    · simp
    · exact ih

/-- The trace context of a request lists the hops that led to it, from the first one that was due to
be traced, in every array; there is none if no hop was. -/
theorem C55_path {hops : List (Iteration × Nat)} {r : Request} (h : Chain hops r)
    (hc : ∀ x ∈ hops, 0 ≤ x.1.traceCounter ∧ x.1.traceCounter < 2 ^ 31) :
    (tracedPart hops = [] → r.trace = none) ∧
    (tracedPart hops ≠ [] → r.trace = some (contextOf (tracedPart hops))) := by
  induction h with
  | start => exact ⟨fun _ => rfl, fun h => absurd rfl h⟩
  | @hop hops r it i rs t r' hch hrs hget ih =>
    obtain ⟨ih1, ih2⟩ := ih (fun x hx => hc x (List.mem_append_left _ hx))
    have hit := hc (it, i) (by simp)
    obtain ⟨-, hreq⟩ := (requests_get hrs).2 i t r' hget
    unfold requestTo at hreq
    cases hs : sizesOf it.sizes with
    | none => rw [hs] at hreq; simp at hreq
    | some x =>
      rw [hs] at hreq
      simp only [Option.map_some, Option.some.injEq] at hreq
      subst hreq
      simp only [commonTrace]
      rw [tracedPart_append]
      by_cases ht : tracedPart hops = []
      · rw [ih1 ht]
        simp only [ht, ne_eq, not_true_eq_false, if_false, Option.isSome_none, Bool.or_false]
        by_cases hst : StartsTrace it
        · rw [(due_iff hit.1 hit.2).2 hst]
          simp [hst, contextOf]
        · have : dueForTrace it = false := by
            cases hd : dueForTrace it
            · rfl
            · exact absurd ((due_iff hit.1 hit.2).1 hd) hst
          rw [this]
          simp [hst]
      · rw [ih2 ht]
        simp [ht, contextOf]

/-- All arrays have the same length. -/
theorem C55_lengths {hops : List (Iteration × Nat)} {r : Request} {c : TraceContext}
    (h : Chain hops r) (hc : ∀ x ∈ hops, 0 ≤ x.1.traceCounter ∧ x.1.traceCounter < 2 ^ 31)
    (ht : r.trace = some c) :
    c.engineIds.length = (tracedPart hops).length ∧
    c.listInvocations.length = c.engineIds.length ∧ c.listIndices.length = c.engineIds.length ∧
    c.actionIndices.length = c.engineIds.length ∧ c.iterations.length = c.engineIds.length ∧
    c.fanouts.length = c.engineIds.length := by
  obtain ⟨h1, h2⟩ := C55_path h hc
  by_cases hp : tracedPart hops = []
  · rw [h1 hp] at ht; simp at ht
  · rw [h2 hp] at ht
    simp only [Option.some.injEq] at ht
    subst ht
    simp [contextOf]

/-! ### C93: which iterations start a trace -/

/-- For the first 2^31 iterations of an RPC: iteration `n` (from 0) starts a trace iff
`tracing_interval` is positive and divides `n`. -/
theorem C93_interval_partial {it : Iteration} (h0 : 0 ≤ it.traceCounter)
    (h1 : it.traceCounter < 2 ^ 31) (incoming : Request) (hi : incoming.trace = none) :
    (commonTrace incoming it).isSome = true ↔ StartsTrace it := by
  rw [← due_iff h0 h1]
  unfold commonTrace
  rw [hi]
  cases dueForTrace it <;> simp

/-- Not for later ones. -/
theorem C93_interval_false : ¬ ∀ (it : Iteration), 0 ≤ it.traceCounter → it.traceCounter < 2 ^ 63 →
    ((commonTrace {} it).isSome = true ↔ StartsTrace it) := by
  intro h
  have := h { place := ⟨0, 0, 0, 0, 0⟩, rpcIndex := 0, warmup := false, tracingInterval := 3
              traceCounter := 2 ^ 31 + 1, sizes := ⟨none, none, none, 16⟩, targets := [0] }
    (by decide) (by decide)
  revert this
  decide

/-! ### C94: the contents of requests -/

/-- An iteration makes one RPC to each target, with the index of the RPC, the warmup flag of the
iteration, and one size for all of them. -/
theorem C94_requests {incoming : Request} {it : Iteration} {rs : List (Int × Request)}
    (h : requests incoming it = .ok rs) :
    rs.map (·.1) = it.targets ∧
    ∀ x ∈ rs, x.2.rpcIndex = some it.rpcIndex ∧ x.2.warmup = some it.warmup ∧
      x.2.processingNs = none ∧
      (∀ a b l, it.sizes.joint = some (a :: b :: l) →
        x.2.padTo = some a ∧ x.2.responseSize = some b) ∧
      (∀ a, it.sizes.joint = some [a] → x.2.padTo = some a ∧ x.2.responseSize = some a) ∧
      (it.sizes.joint = none → x.2.responseSize = none ∧
        (∀ d, it.sizes.overrideDraw = some d → x.2.padTo = some d) ∧
        (it.sizes.overrideDraw = none →
          (∀ d, it.sizes.payloadDraw = some d → x.2.padTo = some d) ∧
          (it.sizes.payloadDraw = none → x.2.padTo = some (max it.sizes.fixed 0)))) := by
  obtain ⟨hlen, hget⟩ := requests_get h
  constructor
  · apply List.ext_getElem?
    intro k
    rw [List.getElem?_map]
    cases hk : rs[k]? with
    | none =>
      have : it.targets.length ≤ k := by rw [← hlen]; exact List.getElem?_eq_none_iff.1 hk
      simp [List.getElem?_eq_none this]
    | some x => simp [(hget k x.1 x.2 (by rw [hk])).1]
  · intro x hx
    obtain ⟨k, hk⟩ := List.getElem?_of_mem hx
    have hreq := (hget k x.1 x.2 (by rw [hk])).2
    unfold requestTo at hreq
    cases hs : sizesOf it.sizes with
    | none => rw [hs] at hreq; simp at hreq
    | some y =>
      rw [hs] at hreq
      simp only [Option.map_some, Option.some.injEq] at hreq
      rw [← hreq]
      refine ⟨rfl, rfl, rfl, ?_, ?_, ?_⟩
      · intro a b l hj
        simp only [sizesOf, hj, Option.some.injEq] at hs
        subst hs
        exact ⟨rfl, rfl⟩
      · intro a hj
        simp only [sizesOf, hj, Option.some.injEq] at hs
        subst hs
        exact ⟨rfl, rfl⟩
      · intro hj
        simp only [sizesOf, hj] at hs
        cases ho : it.sizes.overrideDraw with
        | some d =>
          simp only [ho, Option.some.injEq] at hs
          subst hs
          exact ⟨rfl, by simp, by simp⟩
        | none =>
          cases hp : it.sizes.payloadDraw with
          | some d =>
            simp only [ho, hp, Option.some.injEq] at hs
            subst hs
            exact ⟨rfl, by simp, by simp⟩
          | none =>
            simp only [ho, hp, Option.some.injEq] at hs
            subst hs
            refine ⟨rfl, by simp, ?_⟩
            intro _
            refine ⟨by simp, ?_⟩
            intro _
            simp only [Option.some.injEq]
            split <;> omega

/-- The requests are made unless a joint sample is empty. -/
theorem C94_made (incoming : Request) (it : Iteration) (h : it.sizes.joint ≠ some []) :
    ∃ rs, requests incoming it = .ok rs := by
  have hs : ∃ y, sizesOf it.sizes = some y := by
    unfold sizesOf
    cases hj : it.sizes.joint with
    | none =>
      cases ho : it.sizes.overrideDraw with
      | some d => exact ⟨_, rfl⟩
      | none =>
        cases hp : it.sizes.payloadDraw with
        | some d => exact ⟨_, rfl⟩
        | none => exact ⟨_, rfl⟩
    | some l =>
      match l with
      | [] => exact absurd hj h
      | [a] => exact ⟨_, rfl⟩
      | a :: b :: l => exact ⟨_, rfl⟩
  obtain ⟨y, hy⟩ := hs
  unfold requests
  generalize it.targets.zipIdx = l
  induction l with
  | nil => exact ⟨[], rfl⟩
  | cons x l ih =>
    obtain ⟨rs, hrs⟩ := ih
    rw [List.foldr_cons, hrs]
    simp only [requestTo, hy, Option.map_some, Outcome.bind]
    exact ⟨_, rfl⟩

/-! ### handling -/

variable {s : Server} {now : Int} {draw : Int → Int} {r : Request}

theorem late_none (h : ¬ TooLate s now) :
    late s now = none := by
  unfold late
  cases hc : s.canceled with
  | none => rfl
  | some c =>
    simp only
    rw [if_neg]
    intro h'
    exact h ⟨c, hc, h'⟩

theorem entry_of_lt {i : Int} (h0 : 0 ≤ i) (h1 : i < s.table.length) : ∃ d, IsEntry s i d := by
  have : i.toNat < s.table.length := by omega
  exact ⟨s.table[i.toNat], h0, List.getElem?_eq_getElem this⟩

theorem entry_lt {i : Int} {d : ServerRpc} (h : IsEntry s i d) : i < s.table.length := by
  have := (List.getElem?_eq_some_iff.1 h.2).1
  have := h.1
  omega

/-! C95: how requests are answered. -/

/-- After the grace period of a cancellation every request is answered with its reason. -/
theorem C95_cancelled {c : Cancel} (hc : s.canceled = some c) (ht : c.time < now) (b : Bool) :
    handle s now b draw r = .ok (answer { error := "Traffic cancelled: ".toList ++ c.reason }) := by
  have : late s now = some c.reason := by
    unfold late
    rw [hc]
    exact if_pos ht
  unfold handle
  rw [this]
  rfl

/-- A request with an index the server does not have, or must not get, is answered with an error
that says so. -/
theorem C95_rejected (h : ¬ TooLate s now) (b : Bool) {i : Int} (hi : r.rpcIndex = some i) :
    ((i < 0 ∨ s.table.length ≤ i) → handle s now b draw r =
      .ok (answer { error := "rpc_index out of range: ".toList ++ (toString i).toList })) ∧
    (∀ d, IsEntry s i d → d.allowed = false → handle s now b draw r =
      .ok (answer { error := "rpc_index should never be sent to this service: ".toList ++
        (toString i).toList })) := by
  unfold handle
  simp only [late_none h, hi]
  constructor
  · intro hx
    rw [if_pos (by omega)]
    rfl
  · intro d hd ha
    rw [if_neg (by have := entry_lt hd; have := hd.1; omega), hd.2]
    simp only [ha]
    rfl

/-- An allowed request without a handler is answered at once, with the size it asks for or else that
of the RPC; one with a handler starts the action list.  The response names the instance if the RPC
goes over a multi-server channel. -/
theorem C95_handled (h : ¬ TooLate s now) (b : Bool) {i : Int} (hi : r.rpcIndex = some i)
    {d : ServerRpc} (hd : IsEntry s i d) (ha : d.allowed = true) (hr : -1 ≤ d.responseIndex) :
    (d.handler = -1 → handle s now b draw r = .ok (answer
      { serverInstance := if d.hasChannel then some s.instance_ else none
        padTo := some (responseSizeOf d draw r) })) ∧
    (d.handler ≠ -1 → handle s now b draw r = .ok
      { effects := [], rest := .list d.handler b
        response := { serverInstance := if d.hasChannel then some s.instance_ else none } }) := by
  unfold handle
  simp only [late_none h, hi]
  rw [if_neg (by have := entry_lt hd; have := hd.1; omega), hd.2]
  simp only [ha, Bool.not_true, Bool.false_eq_true, if_false]
  constructor
  · intro hh
    rw [if_pos hh]
    have hc : computeResponseSize s r d.responseIndex draw = .ok (responseSizeOf d draw r) := by
      unfold computeResponseSize responseSizeOf
      cases r.responseSize with
      | some n => rfl
      | none =>
        simp only [hi, Option.getD_some]
        rw [if_neg (by have := hd.1; omega), hd.2]
        simp only
        by_cases h1 : d.responseIndex = -1
        · simp [h1]
        · have : 0 ≤ d.responseIndex := by omega
          rw [if_neg (fun h => h1 h.1), if_neg h1, if_pos this]
    rw [hc]
    rfl
  · intro hh
    rw [if_neg hh]

/-- The size of a response sent by an action list: what the request asks for; else drawn from the
distribution an action chose (`override`), else that of the RPC. -/
theorem C95_list_size {i : Int} (hi : r.rpcIndex = some i) {d : ServerRpc} (hd : IsEntry s i d)
    (override : Int) :
    (∀ n, r.responseSize = some n → computeResponseSize s r override draw = .ok n) ∧
    (r.responseSize = none → override ≠ -1 →
      computeResponseSize s r override draw = .ok (draw override)) ∧
    computeResponseSize s r (-1) draw = .ok (responseSizeOf d draw r) := by
  unfold computeResponseSize responseSizeOf
  refine ⟨?_, ?_, ?_⟩
  · intro n hn; rw [hn]
  · intro hn ho
    rw [hn]
    simp only [hi, Option.getD_some]
    rw [if_neg (by have := hd.1; omega), hd.2]
    simp only
    rw [if_neg (fun h => ho h.1), if_neg ho]
  · cases r.responseSize with
    | some n => rfl
    | none =>
      simp only [hi, Option.getD_some]
      rw [if_neg (by have := hd.1; omega), hd.2]
      simp only [true_and, if_true]
      split <;> rfl

/-- Every request that is not a replayed one gets exactly one response, by any driver, and then its
state is freed, once. -/
theorem C95_once (b : Driver) {ofList : Int → List Effect} (hl : AnswersOnce ofList)
    (hr : r.rpcIndex ≠ none ∨ r.responseSize = none ∨ TooLate s now) :
    ∃ h, handle s now b.dedicated draw r = .ok h ∧ ∃ resp,
      allEffects h ofList = [.respond resp, .free] ∧
      received b (allEffects h ofList) = [resp] := by
  have key : ∀ h, handle s now b.dedicated draw r = .ok h →
      (∃ resp, allEffects h ofList = [.respond resp, .free]) →
      ∃ h, handle s now b.dedicated draw r = .ok h ∧ ∃ resp,
        allEffects h ofList = [.respond resp, .free] ∧
        received b (allEffects h ofList) = [resp] := by
    intro h hh hx
    obtain ⟨resp, hx⟩ := hx
    refine ⟨h, hh, resp, hx, ?_⟩
    rw [hx]
    cases b <;> rfl
  by_cases ht : TooLate s now
  · obtain ⟨c, hc, hlt⟩ := ht
    exact key _ (C95_cancelled hc hlt _) ⟨_, rfl⟩
  · cases hi : r.rpcIndex with
    | none =>
      have hrs : r.responseSize = none := by
        rcases hr with h | h | h
        · exact absurd hi h
        · exact h
        · exact absurd h ht
      refine key (answer { error := "rpc has no index, and no response size: ".toList }) ?_ ⟨_, rfl⟩
      unfold handle
      simp only [late_none ht, hi, hrs]
    | some i =>
      by_cases hx : i < 0 ∨ s.table.length ≤ i
      · exact key _ ((C95_rejected ht _ hi).1 hx) ⟨_, rfl⟩
      · obtain ⟨d, hd⟩ := entry_of_lt (s := s) (i := i) (by omega) (by omega)
        cases ha : d.allowed with
        | false => exact key _ ((C95_rejected ht _ hi).2 d hd ha) ⟨_, rfl⟩
        | true =>
          by_cases hh : d.handler = -1
          · -- the size is some number
            have : ∃ n, computeResponseSize s r d.responseIndex draw = .ok n := by
              unfold computeResponseSize
              cases r.responseSize with
              | some n => exact ⟨n, rfl⟩
              | none =>
                simp only [hi, Option.getD_some]
                rw [if_neg (by have := hd.1; omega), hd.2]
                simp only
                split
                · exact ⟨_, rfl⟩
                · split <;> exact ⟨_, rfl⟩
            obtain ⟨n, hn⟩ := this
            refine key (answer { serverInstance := if d.hasChannel then some s.instance_ else none
                                 padTo := some n }) ?_ ⟨_, rfl⟩
            unfold handle
            simp only [late_none ht, hi]
            rw [if_neg (by have := entry_lt hd; have := hd.1; omega), hd.2]
            simp only [ha, Bool.not_true, Bool.false_eq_true, if_false]
            rw [if_pos hh, hn]
            rfl
          · obtain ⟨resp, hresp⟩ := hl d.handler
            refine key { effects := [], rest := .list d.handler b.dedicated
                         response := { serverInstance :=
                          if d.hasChannel then some s.instance_ else none } } ?_ ⟨resp, ?_⟩
            · unfold handle
              simp only [late_none ht, hi]
              rw [if_neg (by have := entry_lt hd; have := hd.1; omega), hd.2]
              simp only [ha, Bool.not_true, Bool.false_eq_true, if_false]
              rw [if_neg hh]
            · simp [allEffects, hresp]

/-- End to end: an RPC with a joint distribution of sizes that is handled without an action list
gets a response of the size drawn with its request. -/
theorem C95_joint {incoming : Request} {it : Iteration} {rs : List (Int × Request)}
    (h : requests incoming it = .ok rs) {x : Int × Request} (hx : x ∈ rs) {a c : Int} {l : List Int}
    (hj : it.sizes.joint = some (a :: c :: l)) (ht : ¬ TooLate s now) (b : Bool) {d : ServerRpc}
    (hd : IsEntry s it.rpcIndex d) (ha : d.allowed = true) (hh : d.handler = -1)
    (hr : -1 ≤ d.responseIndex) :
    ∃ resp, handle s now b draw x.2 = .ok (answer resp) ∧ resp.padTo = some c ∧ resp.error = [] := by
  obtain ⟨h1, -, -, h4, -⟩ := (C94_requests h).2 x hx
  have := (C95_handled (draw := draw) ht b h1 hd ha hr).1 hh
  refine ⟨_, this, ?_, rfl⟩
  simp only [responseSizeOf, (h4 a c l hj).2]

/-! ### C96: replayed RPCs are answered -/

/-- A replayed RPC to a server instance, after the grace period of a cancellation, is answered; so
is one over a multi-server channel, with an error. -/
theorem C96_answered_partial (b : Driver) (channel : Bool) (n m : Int) {ofList : Int → List Effect}
    (hl : AnswersOnce ofList) (hx : channel = true ∨ TooLate s now) :
    ∃ h, handle s now b.dedicated draw (replayRequest channel n m) = .ok h ∧ ∃ resp,
      allEffects h ofList = [.respond resp, .free] ∧
      received b (allEffects h ofList) = [resp] ∧ resp.error ≠ [] := by
  have hr : (replayRequest channel n m).rpcIndex ≠ none ∨
      (replayRequest channel n m).responseSize = none ∨ TooLate s now := by
    rcases hx with rfl | hx
    · exact .inr (.inl rfl)
    · exact .inr (.inr hx)
  obtain ⟨h, h1, resp, h2, h3⟩ := C95_once (draw := draw) b hl hr
  refine ⟨h, h1, resp, h2, h3, ?_⟩
  by_cases ht : TooLate s now
  · obtain ⟨c, hc, hlt⟩ := ht
    rw [C95_cancelled hc hlt] at h1
    simp only [Outcome.ok.injEq] at h1
    subst h1
    simp only [allEffects, answer, List.cons.injEq, Effect.respond.injEq, and_true] at h2
    subst h2
    simp
  · have hc : channel = true := by rcases hx with h | h; exact h; exact absurd h ht
    subst hc
    unfold handle replayRequest at h1
    simp only [late_none ht, if_true, Outcome.ok.injEq] at h1
    subst h1
    simp only [allEffects, answer, List.cons.injEq, Effect.respond.injEq, and_true] at h2
    subst h2
    simp

/-- A replayed RPC to a server instance is not answered at all by the servers that hand work to a
thread pool, and its state is never freed; the inline server returns an empty response, whatever size
was asked for. -/
theorem C96_unanswered (h : ¬ TooLate s now) (b : Driver) (n m : Int)
    (ofList : Int → List Effect) :
    ∃ hd, handle s now b.dedicated draw (replayRequest false n m) = .ok hd ∧
      allEffects hd ofList = [] ∧
      received .handoff (allEffects hd ofList) = [] ∧
      received .inline (allEffects hd ofList) = [{}] := by
  refine ⟨{ effects := [], response := { serverInstance := some s.instance_ }, rest := .sleep 0 },
    ?_, rfl, rfl, rfl⟩
  unfold handle replayRequest
  simp only [late_none h, Bool.false_eq_true, if_false]
  rfl

theorem C96_answered_false : ¬ ∀ (s : Server) (now n m : Int) (draw : Int → Int) (h : Handled)
    (ofList : Int → List Effect), AnswersOnce ofList →
    handle s now Driver.handoff.dedicated draw (replayRequest false n m) = .ok h →
    (received .handoff (allEffects h ofList)).length = 1 := by
  intro h
  obtain ⟨hd, h1, -, h3, -⟩ := C96_unanswered (s := ⟨[], 0, none⟩) (now := 0) (draw := id)
    (by rintro ⟨c, hc, -⟩; simp at hc) .handoff 10 20 (fun _ => [.respond {}, .free])
  have := h _ _ _ _ _ hd _ (fun _ => ⟨{}, rfl⟩) h1
  rw [h3] at this
  simp at this

/-! ### C97: what the log of a replay says -/

/-- The trace context of a replay log ends with the place the replay was started from. -/
theorem C97_place_partial (incoming : Request) (p : Place) (w : Bool) :
    let c := (replayLog incoming p w).trace
    c.engineIds.getLast? = some p.engine ∧ c.listInvocations.getLast? = some p.invocation ∧
    c.listIndices.getLast? = some p.list ∧ c.actionIndices.getLast? = some p.action ∧
    c.iterations.getLast? = some p.iteration := by
  simp [replayLog, replayTrace]

/-- But its arrays differ in length, whatever chain of RPCs led there. -/
theorem C97_lengths_false {hops : List (Iteration × Nat)} {r : Request} (h : Chain hops r)
    (hc : ∀ x ∈ hops, 0 ≤ x.1.traceCounter ∧ x.1.traceCounter < 2 ^ 31) (p : Place) (w : Bool) :
    (replayLog r p w).trace.engineIds.length = (replayLog r p w).trace.fanouts.length + 1 := by
  show (replayTrace r p).engineIds.length = (replayTrace r p).fanouts.length + 1
  cases ht : r.trace with
  | none => simp [replayTrace, ht]
  | some c =>
    obtain ⟨-, -, -, -, -, h6⟩ := C55_lengths h hc ht
    simp [replayTrace, ht, h6]

/-- Nor does it say that it was made during warmup. -/
theorem C97_warmup_false : ¬ ∀ (incoming : Request) (p : Place) (w : Bool),
    (replayLog incoming p w).warmup.getD false = w := by
  intro h
  have := h {} ⟨0, 0, 0, 0, 0⟩ true
  revert this
  decide

/-! ### C56: the first reason is kept -/

/-- After any number of cancellations the reason and the time are those of the first. -/
theorem C56_first (status : Status) (now grace : Int) (later : List (Status × Int × Int)) :
    later.foldl (fun c x => cancel c x.1 x.2.1 x.2.2) (cancel none status now grace) =
      some { reason := status.code ++ ": ".toList ++ status.message, time := now + grace } := by
  induction later with
  | nil => rfl
  | cons x l ih => rw [List.foldl_cons]; exact ih

/-- Nor do responses of peers change it. -/
theorem C56_peers (c : Cancel) (error : Str) (now : Int) : onError (some c) error now = some c := by
  unfold onError cancel
  split <;> rfl

/-! ### C98: overload spreads to the clients of an engine -/

theorem prefix_colon : ∀ (w code rest : Str), ':' ∉ w → ':' ∉ code →
    (w ++ [':']).isPrefixOf (code ++ ':' :: rest) = true → w = code
  | [], [], _, _, _, _ => rfl
  | [], c :: code, rest, _, hc, h => by
    simp only [List.nil_append, List.cons_append, List.isPrefixOf, Bool.and_true, beq_iff_eq] at h
    exact absurd (by rw [h]; simp) hc
  | w :: ws, [], rest, hw, _, h => by
    simp only [List.nil_append, List.cons_append, List.isPrefixOf, Bool.and_eq_true,
      beq_iff_eq] at h
    exact absurd (by rw [h.1]; simp) hw
  | w :: ws, c :: code, rest, hw, hc, h => by
    simp only [List.cons_append, List.isPrefixOf, Bool.and_eq_true, beq_iff_eq] at h
    rw [h.1, prefix_colon ws code rest (fun hx => hw (by simp [hx])) (fun hx => hc (by simp [hx])) h.2]

theorem isPrefixOf_append (a b c : Str) : (a ++ b).isPrefixOf (a ++ c) = b.isPrefixOf c := by
  induction a with
  | nil => rfl
  | cons x a ih => simp [ih]

theorem exhausted_iff {status : Status} (hc : ':' ∉ status.code) :
    "Traffic cancelled: RESOURCE_EXHAUSTED:".toList.isPrefixOf
      ("Traffic cancelled: ".toList ++ status.text) = true ↔
      status.code = "RESOURCE_EXHAUSTED".toList := by
  have e1 : "Traffic cancelled: RESOURCE_EXHAUSTED:".toList =
      "Traffic cancelled: ".toList ++ ("RESOURCE_EXHAUSTED".toList ++ [':']) := by decide
  have e2 : status.text = status.code ++ ':' :: (' ' :: status.message) := by
    unfold Status.text
    have : ": ".toList = [':', ' '] := by decide
    rw [this]; simp
  rw [e1, isPrefixOf_append, e2]
  constructor
  · intro h
    exact (prefix_colon _ _ _ (by decide) hc h).symm
  · intro h
    rw [h]
    simp

/-- A client that gets a response from an engine whose traffic was cancelled (for more than the grace
period) cancels its own traffic if and only if the reason is exhaustion of resources; its reason
then names the peer's. -/
theorem C98_spreads {status : Status} (hc : ':' ∉ status.code) (t0 grace : Int) {s : Server}
    (hs : s.canceled = cancel none status t0 grace) (hnow : t0 + grace < now) (b : Bool) {h : Handled}
    (hh : handle s now b draw r = .ok h) (t1 : Int) :
    onError none h.response.error t1 =
      if status.code = "RESOURCE_EXHAUSTED".toList then
        some { reason := "UNKNOWN: Peer reported Traffic cancelled: ".toList ++ status.text
               time := t1 }
      else none := by
  rw [C95_cancelled hs hnow] at hh
  simp only [Outcome.ok.injEq] at hh
  subst hh
  show onError none ("Traffic cancelled: ".toList ++ status.text) t1 = _
  unfold onError
  by_cases hx : status.code = "RESOURCE_EXHAUSTED".toList
  · rw [if_pos ((exhausted_iff hc).2 hx), if_pos hx]
    unfold cancel
    simp only [Int.add_zero, Option.some.injEq, Cancel.mk.injEq, and_true]
    have : "UNKNOWN: Peer reported Traffic cancelled: ".toList = "UNKNOWN".toList ++ ": ".toList ++
      "Peer reported ".toList ++ "Traffic cancelled: ".toList := by decide
    rw [this]
    simp [Status.text]
  · rw [if_neg (fun h => hx ((exhausted_iff hc).1 h)), if_neg hx]

/-- It goes no further: a client of that client goes on. -/
theorem C98_one_hop {c : Cancel} {peer : Str}
    (hs : s.canceled = some c) (hr : c.reason = "UNKNOWN: Peer reported ".toList ++ peer)
    (hnow : c.time < now) (b : Bool) {h : Handled} (hh : handle s now b draw r = .ok h) (t1 : Int) :
    onError none h.response.error t1 = none := by
  rw [C95_cancelled hs hnow] at hh
  simp only [Outcome.ok.injEq] at hh
  subst hh
  have e : "Traffic cancelled: ".toList ++ c.reason = "Traffic cancelled: ".toList ++
      Status.text ⟨"UNKNOWN".toList, "Peer reported ".toList ++ peer⟩ := by
    rw [hr]
    have : "UNKNOWN: Peer reported ".toList =
      "UNKNOWN".toList ++ ": ".toList ++ "Peer reported ".toList := by decide
    rw [this]
    simp [Status.text]
  show onError none ("Traffic cancelled: ".toList ++ c.reason) t1 = none
  unfold onError
  rw [e, if_neg]
  intro h
  have := (exhausted_iff (status := ⟨"UNKNOWN".toList, "Peer reported ".toList ++ peer⟩)
    (show ':' ∉ "UNKNOWN".toList by decide)).1 h
  exact absurd this (show ¬ "UNKNOWN".toList = "RESOURCE_EXHAUSTED".toList by decide)

/-! ### C99: the limit on pending RPCs -/

variable {limit : Int}

theorem pending_count {l : List Pending} (h : PendingRun limit l) :
    ∀ p ∈ l, p.counter = p.inFlight + p.callbacks := by
  induction h with
  | start => intro p hp; simp at hp; subst hp; rfl
  | @step p q l _ hs ih =>
    intro x hx
    rcases List.mem_cons.1 hx with rfl | hx
    · have := ih p (by simp)
      cases hs with
      | initiate => simp only; omega
      | check => exact this
      | complete h => simp only; omega
      | «return» h => simp only; omega
    · exact ih x hx

/-- Traffic is cancelled for this reason only if the RPCs in flight together with the callbacks
running were more than the limit at some time. -/
theorem C99_limit_partial {p : Pending} {l : List Pending} (h : PendingRun limit (p :: l))
    (he : p.exceeded = true) :
    ∃ q ∈ p :: l, limit < ((q.inFlight + q.callbacks : Nat) : Int) := by
  have key : ∀ {l'}, PendingRun limit l' → ∀ p ∈ l', p.exceeded = true →
      ∃ q ∈ l', limit < ((q.inFlight + q.callbacks : Nat) : Int) := by
    intro l' h'
    induction h' with
    | start => intro p hp he; simp at hp; subst hp; simp [Pending.start] at he
    | @step p q l hr hs ih =>
      intro x hx he
      rcases List.mem_cons.1 hx with rfl | hx
      · have hp : p.exceeded = true ∨ limit < (p.counter : Int) := by
          cases hs with
          | initiate => exact .inl he
          | check => simpa using he
          | complete _ => exact .inl he
          | «return» _ => exact .inl he
        rcases hp with hp | hp
        · obtain ⟨y, hy, hlt⟩ := ih p (by simp) hp
          exact ⟨y, List.mem_cons_of_mem _ hy, hlt⟩
        · refine ⟨p, by simp, ?_⟩
          rw [← pending_count hr p (by simp)]
          exact hp
      · obtain ⟨y, hy, hlt⟩ := ih x hx he
        exact ⟨y, List.mem_cons_of_mem _ hy, hlt⟩
  exact key h p (by simp) he

/-- If there are more RPCs in flight than the limit when a thread checks, it is cancelled. -/
theorem C99_enforced {p : Pending} {l : List Pending} (h : PendingRun limit (p :: l))
    (hp : limit < (p.inFlight : Int)) :
    PendingRun limit ({ p with exceeded := true } :: p :: l) := by
  have hc := pending_count h p (by simp)
  have := PendingRun.step h (.check)
  have hx : (p.exceeded || decide ((p.counter : Int) > limit)) = true := by
    have : (p.counter : Int) > limit := by omega
    simp [this]
  rw [hx] at this
  exact this

/-- It may be cancelled although there never were more RPCs in flight than the limit: the callback
of one is running while the next is started. -/
theorem C99_limit_false : ¬ ∀ (limit : Int) (p : Pending) (l : List Pending),
    PendingRun limit (p :: l) → p.exceeded = true → ∃ q ∈ p :: l, limit < (q.inFlight : Int) := by
  intro h
  have h0 : PendingRun 1 _ := .start
  have h1 := h0.step .initiate
  have h2 := h1.step .check
  have h3 := h2.step (.complete (n := 0) rfl)
  have h4 := h3.step .initiate
  have h5 := h4.step .check
  obtain ⟨q, hq, hlt⟩ := h 1 _ _ h5 rfl
  revert hlt
  revert q
  decide

/-! ### concrete cases -/

def demoIteration : Iteration :=
  { place := ⟨3, 0, 1, 0, 0⟩, rpcIndex := 0, warmup := false, tracingInterval := 2
    traceCounter := 4, sizes := ⟨some [100, 50], none, none, 16⟩, targets := [0, 2] }

def demoSecond : Iteration :=
  { demoIteration with place := ⟨5, 7, 0, 2, 1⟩, tracingInterval := 0, targets := [1] }

def demoServer : Server :=
  { table := [{ allowed := true, handler := -1, hasChannel := true, responseIndex := -1
                responseSize := 32 },
              { allowed := false, handler := 0, hasChannel := false, responseIndex := -1
                responseSize := 32 }]
    instance_ := 4, canceled := none }

/-- A chain of two RPCs, traced from the first on. -/
example : ∃ r, Chain [(demoIteration, 1), (demoSecond, 0)] r ∧
    r.trace = some (contextOf [(demoIteration, 1), (demoSecond, 0)]) ∧
    tracedPart [(demoIteration, 1), (demoSecond, 0)] ≠ [] := by
  have h1 : Chain ([] ++ [(demoIteration, 1)]) _ := .hop (i := 1) .start rfl rfl
  have h2 := Chain.hop (it := demoSecond) (i := 0) h1 rfl rfl
  exact ⟨_, h2, by decide, by decide⟩

example : demoIteration.sizes.joint ≠ some [] ∧ demoIteration.sizes.joint = some (100 :: 50 :: []) ∧
    0 ≤ demoIteration.traceCounter ∧ demoIteration.traceCounter < 2 ^ 31 := by decide

example : ¬ TooLate demoServer 10 ∧ (∃ d, IsEntry demoServer 0 d ∧ d.allowed = true ∧
    d.handler = -1 ∧ -1 ≤ d.responseIndex) ∧ (∃ d, IsEntry demoServer 1 d ∧ d.allowed = false) := by
  refine ⟨?_, ⟨_, ⟨by decide, rfl⟩, rfl, rfl, by decide⟩, ⟨_, ⟨by decide, rfl⟩, rfl⟩⟩
  rintro ⟨c, hc, -⟩
  simp [demoServer] at hc

example : AnswersOnce (fun _ => [.respond { padTo := some 3 }, .free]) := fun _ => ⟨_, rfl⟩

/-- A server that ran out of threads at time 5, asked at time 6. -/
def demoCancelled : Server :=
  { demoServer with
    canceled := cancel none ⟨"RESOURCE_EXHAUSTED".toList, "Too many RPCs pending".toList⟩ 5 0 }

example : ∃ h, handle demoCancelled 6 true id { rpcIndex := some 0 } = .ok h ∧
    (onError none h.response.error 7).isSome = true := ⟨_, rfl, by decide⟩

example : PendingRun 3 [.start] := .start

/-! The theorems above for these cases. -/

theorem demo_chain : ∃ r, Chain [(demoIteration, 1), (demoSecond, 0)] r :=
  ⟨_, .hop (it := demoSecond) (i := 0) (Chain.hop (hops := []) (it := demoIteration) (i := 1) .start rfl rfl) rfl rfl⟩
theorem demo_counters : ∀ x ∈ [(demoIteration, 1), (demoSecond, 0)],
    0 ≤ x.1.traceCounter ∧ x.1.traceCounter < 2 ^ 31 := by decide
theorem demo_not_late : ¬ TooLate demoServer 10 := by
  rintro ⟨c, hc, -⟩
  simp [demoServer] at hc
theorem demo_late : TooLate demoCancelled 6 := ⟨_, rfl, by decide⟩
theorem demo_entry : IsEntry demoServer 0 ⟨true, -1, true, -1, 32⟩ := ⟨by decide, rfl⟩
def demoList : Int → List Effect := fun _ => [.respond { padTo := some 3 }, .free]
theorem demo_answers : AnswersOnce demoList := fun _ => ⟨_, rfl⟩

example : ∃ r : Request, r.trace = some (contextOf [(demoIteration, 1), (demoSecond, 0)]) :=
  demo_chain.imp fun _ h => (C55_path h demo_counters).2 (by decide)
example : ∃ (r : Request) (c : TraceContext), r.trace = some c ∧ c.engineIds.length = 2 := by
  obtain ⟨r, h⟩ := demo_chain
  have ht := (C55_path h demo_counters).2 (by decide)
  exact ⟨r, _, ht, (C55_lengths h demo_counters ht).1⟩
example : (commonTrace {} demoIteration).isSome = true ↔ StartsTrace demoIteration :=
  C93_interval_partial (by decide) (by decide) {} rfl
example : ∃ rs, requests {} demoIteration = .ok rs ∧ rs.map (·.1) = [0, 2] := by
  obtain ⟨rs, h⟩ := C94_made {} demoIteration (by decide)
  exact ⟨rs, h, (C94_requests h).1⟩
example := C95_cancelled (s := demoCancelled) (now := 6) (draw := id) (r := { rpcIndex := some 0 }) rfl (by decide) true
example := (C95_rejected (s := demoServer) (draw := id) demo_not_late true (r := { rpcIndex := some 7 }) rfl).1 (.inr (by decide))
example := C95_handled (s := demoServer) (draw := id) demo_not_late true (r := { rpcIndex := some 0 }) rfl demo_entry rfl (by decide)
example := C95_list_size (s := demoServer) (draw := id) (r := { rpcIndex := some 0 }) rfl demo_entry 3
example := C95_once (s := demoServer) (now := 10) (draw := id) (r := { rpcIndex := some 0 }) .handoff demo_answers (.inl (by simp))
example : ∃ rs x resp, requests {} demoIteration = .ok rs ∧ x ∈ rs ∧
    handle demoServer 10 true id x.2 = .ok (answer resp) ∧ resp.padTo = some 50 := by
  obtain ⟨rs, h⟩ := C94_made {} demoIteration (by decide)
  have hm := (C94_requests h).1
  cases rs with
  | nil => cases hm
  | cons x rs =>
    obtain ⟨resp, h1, h2, _⟩ := C95_joint (s := demoServer) (draw := id) h List.mem_cons_self
      (by rfl : demoIteration.sizes.joint = some (100 :: 50 :: [])) demo_not_late true demo_entry rfl rfl (by decide)
    exact ⟨_, x, resp, h, List.mem_cons_self, h1, h2⟩
example := C96_answered_partial (s := demoCancelled) (now := 6) (draw := id) .handoff false 3 4 demo_answers (.inr demo_late)
example := C96_unanswered (s := demoServer) (draw := id) demo_not_late .handoff 3 4 demoList
example := C56_first ⟨"INTERNAL".toList, "x".toList⟩ 5 2 [(⟨"UNKNOWN".toList, "y".toList⟩, 6, 0)]
example := C98_spreads (s := demoCancelled) (now := 6) (draw := id) (r := { rpcIndex := some 0 })
  (status := ⟨"RESOURCE_EXHAUSTED".toList, "Too many RPCs pending".toList⟩) (by decide) 5 0 rfl (by decide) true rfl 7
/-- A server that was cancelled because a peer had reported an error. -/
example : ∃ h, handle { demoServer with canceled := some ⟨"UNKNOWN: Peer reported X".toList, 5⟩ } 6 true id
      { rpcIndex := some 0 } = .ok h ∧ onError none h.response.error 7 = none :=
  ⟨_, rfl, C98_one_hop (s := { demoServer with canceled := some ⟨"UNKNOWN: Peer reported X".toList, 5⟩ })
    (now := 6) (draw := id) (r := { rpcIndex := some 0 }) (peer := "X".toList) rfl rfl (by decide) true rfl 7⟩

end Distbench.Handler
