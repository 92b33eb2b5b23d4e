import Verif.Spec.ServerState
import Verif.Spec.Handler
import Verif.Props.ActionList
import Verif.Props.Handler
import Verif.Props.Replay

/-! C296: answering an RPC and freeing its state.  C297: a second response. -/

namespace Distbench.ServerState
open Spec

/-! ### C296 -/

/-- A response and then the end, by any server and in both builds. -/
theorem send_free (debug : Bool) (k : Maker) {ops : List Op} (h : Seen k [.send, .free] ops) :
    WentWell k (run debug k k.make ops) := by
  cases h with
  | plain hk =>
    cases k <;> cases debug <;> first
      | exact absurd rfl hk
      | exact ⟨_, rfl, fun _ => rfl, fun h => absurd trivial h, rfl, .inl rfl⟩
      | exact ⟨_, rfl, fun _ => rfl, fun h => absurd trivial h, rfl, .inr rfl⟩
      | exact ⟨_, rfl, fun h => h.elim, fun _ => rfl, rfl, .inl rfl⟩
  | @polling a b c hk he =>
    subst hk
    cases a with
    | cons x a =>
      simp only [List.cons_append, List.cons.injEq] at he
      cases a with
      | nil => simp at he
      | cons y a => simp at he
    | nil =>
      simp only [List.nil_append, List.cons.injEq, true_and] at he
      cases b with
      | nil =>
        simp only [List.nil_append] at he
        subst he
        cases debug <;> exact ⟨_, rfl, fun _ => rfl, fun h => absurd trivial h, rfl, .inl rfl⟩
      | cons y b =>
        simp only [List.cons_append, List.cons.injEq] at he
        obtain ⟨rfl, he⟩ := he
        have := List.append_eq_nil_iff.1 he.symm
        obtain ⟨rfl, rfl⟩ := this
        cases debug <;> exact ⟨_, rfl, fun _ => rfl, fun h => absurd trivial h, rfl, .inl rfl⟩

/-- Every run of an action list for an RPC, or for `RunTraffic` or another list, in a debug and in a
release build. -/
theorem C296_list_partial (cfg : Tables.Config) (svc : Str) (c : ActionList.Ctx)
    (hl : Loaded cfg svc c) (s : ActionList.State) (hr : ActionList.Reachable c s)
    (hd : s.phase = .done) (debug : Bool) (k : Maker) {ops : List Op}
    (h : Seen k (callsOf s.log) ops) : WentWell k (run debug k k.make ops) := by
  obtain ⟨mid, before, b, o, hlog, hno, -⟩ := C31_once cfg svc c hl s hr hd
  have hnone : ∀ l : List ActionList.Event, (∀ e ∈ l, ¬ IsResponse e ∧ e ≠ .freed) →
      l.filterMap callOf = [] := by
    intro l hl
    rw [List.filterMap_eq_nil_iff]
    intro e he
    have := hl e he
    cases e with
    | response b o => exact absurd ⟨b, o, rfl⟩ this.1
    | freed => exact absurd rfl this.2
    | _ => rfl
  have : callsOf s.log = [.send, .free] := by
    unfold callsOf
    rw [hlog]
    simp only [List.reverse_cons, List.reverse_append, List.filterMap_append, List.append_assoc]
    rw [hnone before.reverse (fun e he => hno e (List.mem_append_right _ (List.mem_reverse.1 he))),
      hnone mid.reverse (fun e he => hno e (List.mem_append_left _ (List.mem_reverse.1 he)))]
    rfl
  rw [this] at h
  exact send_free debug k h

/-- Every request to the handler of an engine that is not a replayed one. -/
theorem C296_handler_partial {s : Handler.Server} {now : Int} {draw : Int → Int}
    {r : Handler.Request} (hr : r.rpcIndex ≠ none ∨ r.responseSize = none ∨ TooLate s now)
    (d : Handler.Driver) {ofList : Int → List Handler.Effect} (hl : AnswersOnce ofList) :
    ∃ h, Handler.handle s now d.dedicated draw r = .ok h ∧ ∀ (debug : Bool) (k : Maker) (ops : List Op),
      Seen k ((Handler.allEffects h ofList).map ofEffect) ops →
      WentWell k (run debug k k.make ops) := by
  obtain ⟨h, h1, resp, h2, -⟩ := Handler.C95_once (draw := draw) d hl hr
  refine ⟨h, h1, ?_⟩
  intro debug k ops hs
  rw [h2] at hs
  exact send_free debug k hs

/-- A replay that made RPCs: the state that was made for it is freed. -/
theorem C296_trace_partial {e : Replay.Env} {p : Replay.Plan} {s : Replay.State}
    (hp : Replay.setup e = .ok p) (h : Replay.Reachable e p s) (hd : s.main = .done)
    {i : Nat} (hi : Belongs e i) (debug : Bool) :
    WentWell .trace (run debug .trace Maker.trace.make (ofTrace s.log)) := by
  have hpos : 0 < samples s.log := by
    have h1 := ((Replay.C40_done hp h hd).1 i hi).2
    have h2 : timesSampled i s.log ≤ samples s.log := by
      unfold timesSampled samples
      apply List.countP_mono_left
      intro x _ hx
      cases x <;> simp_all
    omega
  unfold ofTrace
  rw [if_neg (by omega)]
  cases debug <;> exact ⟨_, rfl, fun h => h.elim, fun _ => rfl, rfl, .inl rfl⟩

/-- A replay without records for this instance: the state that was made for it is never freed. -/
theorem C296_trace_negation {e : Replay.Env} {p : Replay.Plan} {s : Replay.State}
    (hp : Replay.setup e = .ok p) (h : Replay.Reachable e p s) (hd : s.main = .done)
    (hi : ∀ i, ¬ Belongs e i) (debug : Bool) :
    ¬ WentWell .trace (run debug .trace Maker.trace.make (ofTrace s.log)) := by
  have hz : samples s.log = 0 := by
    unfold samples
    rw [List.countP_eq_zero]
    intro x hx hs
    cases x with
    | sampled i a b =>
      have h1 := ((Replay.C40_done hp h hd).2.1 i (hi i)).2
      unfold timesSampled at h1
      rw [List.countP_eq_zero] at h1
      have := h1 _ hx
      simp at this
    | _ => simp at hs
  unfold ofTrace
  rw [if_pos hz]
  rintro ⟨s', h1, -, -, h2⟩
  unfold run at h1
  simp only [Outcome.ok.injEq] at h1
  subst h1
  rcases h2.2 with h2 | h2
  · simp [Maker.make] at h2
  · cases h2

/-- A replayed RPC: no response and, but for the inline server, nothing is freed. -/
theorem C296_handler_negation {s : Handler.Server} {now : Int} {draw : Int → Int}
    (ht : ¬ TooLate s now) (n m : Int) (d : Handler.Driver) (ofList : Int → List Handler.Effect)
    (debug : Bool) (k : Maker) (hk : FromClient k) :
    ∃ h, Handler.handle s now d.dedicated draw (Handler.replayRequest false n m) = .ok h ∧
      ¬ WentWell k (run debug k k.make ((Handler.allEffects h ofList).map ofEffect)) := by
  obtain ⟨h, h1, h2, -⟩ := Handler.C96_unanswered (draw := draw) ht d n m ofList
  refine ⟨h, h1, ?_⟩
  rw [h2]
  rintro ⟨s', h3, h4, -⟩
  simp only [List.map_nil, run, Outcome.ok.injEq] at h3
  subst h3
  have := h4 hk
  simp [Maker.make] at this

/-- What the builds differ in: the places of functions that have been called. -/
structure Close (s t : State) (sends frees : Nat) : Prop where
  sent : s.sent = t.sent
  alive : s.alive = t.alive
  request : s.request = t.request
  refs : s.refs = t.refs
  sendSlot : s.sends = t.sends ∨ sends = 0
  freeSlot : s.frees = t.frees ∨ frees = 0
  noSend : t.sends ≠ .fatal
  noFree : t.frees ≠ .fatal

theorem close_free (k : Maker) {s t : State} {a : Nat} (h : Close s t a 1) :
    (∃ s' t', free true k s = .ok s' ∧ free false k t = .ok t' ∧ Close s' t' a 0) ∨
    (free true k s = .ub ∧ free false k t = .ub) := by
  obtain ⟨s1, s2, s3, s4, s5, s6⟩ := s
  obtain ⟨t1, t2, t3, t4, t5, t6⟩ := t
  obtain ⟨h1, h2, h3, h4, h5, h6, h7, h8⟩ := h
  simp only at h1 h2 h3 h4 h5 h6 h7 h8
  subst h1 h2 h3 h4
  have h6 : s5 = t5 := by rcases h6 with h | h; exact h; omega
  subst h6
  cases s1 with
  | false => exact .inr ⟨rfl, rfl⟩
  | true =>
    cases s5 with
    | fatal => exact absurd rfl h8
    | empty => exact .inl ⟨_, _, rfl, rfl, ⟨rfl, rfl, rfl, rfl, h5, .inr rfl, h7, h8⟩⟩
    | set =>
      have hs : Slot.set ≠ .fatal := by decide
      cases k with
      | polling =>
        rcases s3 with _ | _ | n
        · exact .inr ⟨rfl, rfl⟩
        · exact .inl ⟨_, _, rfl, rfl, ⟨rfl, rfl, rfl, rfl, h5, .inr rfl, h7, hs⟩⟩
        · exact .inl ⟨_, _, rfl, rfl, ⟨rfl, rfl, rfl, rfl, h5, .inr rfl, h7, hs⟩⟩
      | _ =>
        cases s2 <;> first
          | exact .inr ⟨rfl, rfl⟩
          | exact .inl ⟨_, _, rfl, rfl, ⟨rfl, rfl, rfl, rfl, h5, .inr rfl, h7, hs⟩⟩

theorem close_send {s t : State} {b : Nat} (h : Close s t 1 b) :
    (∃ s' t', send true s = .ok s' ∧ send false t = .ok t' ∧ Close s' t' 0 b) ∨
    (send true s = .ub ∧ send false t = .ub) := by
  obtain ⟨s1, s2, s3, s4, s5, s6⟩ := s
  obtain ⟨t1, t2, t3, t4, t5, t6⟩ := t
  obtain ⟨h1, h2, h3, h4, h5, h6, h7, h8⟩ := h
  simp only at h1 h2 h3 h4 h5 h6 h7 h8
  subst h1 h2 h3 h4
  have h5 : s4 = t4 := by rcases h5 with h | h; exact h; omega
  subst h5
  cases s1 with
  | false => exact .inr ⟨rfl, rfl⟩
  | true =>
    cases s4 with
    | fatal => exact absurd rfl h7
    | empty => exact .inl ⟨_, _, rfl, rfl, ⟨rfl, rfl, rfl, rfl, .inr rfl, h6, h7, h8⟩⟩
    | set => exact .inl ⟨_, _, rfl, rfl, ⟨rfl, rfl, rfl, rfl, .inr rfl, h6, (by decide : Slot.set ≠ .fatal), h8⟩⟩

theorem close_gone {s t : State} {a b : Nat} (h : Close s t a b) :
    (∃ s' t', decRef s = .ok s' ∧ decRef t = .ok t' ∧ Close s' t' a b) ∨
    (decRef s = .ub ∧ decRef t = .ub) := by
  obtain ⟨s1, s2, s3, s4, s5, s6⟩ := s
  obtain ⟨t1, t2, t3, t4, t5, t6⟩ := t
  obtain ⟨h1, h2, h3, h4, h5, h6, h7, h8⟩ := h
  simp only at h1 h2 h3 h4 h5 h6 h7 h8
  subst h1 h2 h3 h4
  rcases s3 with _ | _ | n
  · exact .inr ⟨rfl, rfl⟩
  · exact .inl ⟨_, _, rfl, rfl, ⟨rfl, rfl, rfl, rfl, h5, h6, h7, h8⟩⟩
  · exact .inl ⟨_, _, rfl, rfl, ⟨rfl, rfl, rfl, rfl, h5, h6, h7, h8⟩⟩

theorem close_run (k : Maker) : ∀ (ops : List Op) (s t : State), ops.count .send ≤ 1 →
    ops.count .free ≤ 1 → Close s t (ops.count .send) (ops.count .free) →
    Alike (run true k s ops) (run false k t ops)
  | [], s, t, _, _, h => ⟨h.sent, h.alive, h.request, h.refs⟩
  | .send :: ops, s, t, h1, h2, h => by
    rw [List.count_cons_self] at h1 h
    rw [List.count_cons_of_ne (by decide)] at h2 h
    have h0 : ops.count .send = 0 := by omega
    rw [h0] at h
    simp only [run, step]
    rcases close_send h with ⟨s', t', e1, e2, h'⟩ | ⟨e1, e2⟩
    · rw [e1, e2]
      exact close_run k ops s' t' (by omega) h2 (by rw [h0]; exact h')
    · rw [e1, e2]; trivial
  | .free :: ops, s, t, h1, h2, h => by
    rw [List.count_cons_self] at h2 h
    rw [List.count_cons_of_ne (by decide)] at h1 h
    have h0 : ops.count .free = 0 := by omega
    rw [h0] at h
    simp only [run, step]
    rcases close_free k h with ⟨s', t', e1, e2, h'⟩ | ⟨e1, e2⟩
    · rw [e1, e2]
      exact close_run k ops s' t' h1 (by omega) (by rw [h0]; exact h')
    · rw [e1, e2]; trivial
  | .gone :: ops, s, t, h1, h2, h => by
    rw [List.count_cons_of_ne (by decide)] at h1 h2
    rw [List.count_cons_of_ne (by decide), List.count_cons_of_ne (by decide)] at h
    simp only [run, step]
    rcases close_gone h with ⟨s', t', e1, e2, h'⟩ | ⟨e1, e2⟩
    · rw [e1, e2]
      exact close_run k ops s' t' h1 h2 h'
    · rw [e1, e2]; trivial

/-- Whatever is called, as long as neither function is called twice: a debug and a release build do
the same. -/
theorem C296_builds (k : Maker) (ops : List Op) (h1 : ops.count .send ≤ 1) (h2 : ops.count .free ≤ 1) :
    Alike (run true k k.make ops) (run false k k.make ops) :=
  close_run k ops _ _ h1 h2 ⟨rfl, rfl, rfl, rfl, .inl rfl, .inl rfl,
    by cases k <;> decide, by cases k <;> decide⟩

/-! ### C297 -/

/-- A free function touches neither what was sent nor the function that sends. -/
theorem execAll_sends (debug : Bool) : ∀ (l : List Stmt) (s s' : State),
    execAll debug s l = .ok s' → s'.sends = s.sends ∧ s'.sent = s.sent
  | [], s, s', h => by
    simp only [execAll, Outcome.ok.injEq] at h
    subst h
    exact ⟨rfl, rfl⟩
  | x :: l, s, s', h => by
    unfold execAll at h
    have key : ∀ t, exec (debug || s.alive) s x = .ok t → t.sends = s.sends ∧ t.sent = s.sent := by
      intro t ht
      cases x <;> simp only [exec] at ht <;> split at ht <;> try cases ht
      · exact ⟨rfl, rfl⟩
      · exact ⟨rfl, rfl⟩
      · exact ⟨rfl, rfl⟩
      · unfold decRef at ht
        split at ht <;> cases ht <;> exact ⟨rfl, rfl⟩
    cases hx : exec (debug || s.alive) s x with
    | ok t =>
      rw [hx] at h
      obtain ⟨h1, h2⟩ := execAll_sends debug l t s' h
      obtain ⟨h3, h4⟩ := key t hx
      exact ⟨h1.trans h3, h2.trans h4⟩
    | error e => rw [hx] at h; cases h
    | ub => rw [hx] at h; cases h
    | crash => rw [hx] at h; cases h

/-- What a debug build keeps: the function that sends is there only before the first response. -/
def Kept (s : State) : Prop := s.sent ≤ 1 ∧ (s.sends = .set → s.sent = 0) ∧ (s.sent = 1 → s.sends = .fatal)

theorem kept_step (k : Maker) {s s' : State} (op : Op) (h : Kept s)
    (hs : step true k s op = .ok s') : Kept s' := by
  obtain ⟨h1, h2, h3⟩ := h
  cases op with
  | send =>
    simp only [step, send] at hs
    split at hs
    · split at hs
      · cases hs; exact ⟨h1, h2, h3⟩
      · rename_i hset
        cases hs
        have := h2 hset
        exact ⟨by simp only; omega, fun h => by simp at h, fun _ => rfl⟩
      · cases hs
    · cases hs
  | free =>
    simp only [step, free] at hs
    split at hs
    · split at hs
      · cases hs; exact ⟨h1, h2, h3⟩
      · obtain ⟨e1, e2⟩ := execAll_sends _ _ _ _ hs
        simp only at e1 e2
        unfold Kept
        rw [e1, e2]
        exact ⟨h1, h2, h3⟩
      · cases hs
    · cases hs
  | gone =>
    simp only [step, decRef] at hs
    split at hs <;> cases hs <;> exact ⟨h1, h2, h3⟩

theorem kept_run (k : Maker) : ∀ (ops : List Op) (s s' : State), Kept s →
    run true k s ops = .ok s' → Kept s'
  | [], s, s', h, hr => by
    simp only [run, Outcome.ok.injEq] at hr
    subst hr
    exact h
  | op :: ops, s, s', h, hr => by
    unfold run at hr
    cases hx : step true k s op with
    | ok t =>
      rw [hx] at hr
      exact kept_run k ops t s' (kept_step k op h hx) hr
    | error e => rw [hx] at hr; cases hr
    | ub => rw [hx] at hr; cases hr
    | crash => rw [hx] at hr; cases hr

/-- In a debug build, whatever is called: at most one response is sent; and if one was and the state
still exists, a further attempt ends the process. -/
theorem C297_debug_partial (k : Maker) (ops : List Op) (s : State)
    (h : run true k k.make ops = .ok s) :
    s.sent ≤ 1 ∧ (s.sent = 1 → s.alive = true → step true k s .send = .crash) := by
  have hk := kept_run k ops _ s (by cases k <;> exact ⟨by decide, by decide, by decide⟩) h
  refine ⟨hk.1, ?_⟩
  intro h1 ha
  simp only [step, send]
  rw [if_pos ha, hk.2.2 h1]

/-- In a release build, a handler that answers an RPC as often as it likes sends as many responses,
whichever server made the state. -/
theorem C297_release_negation (k : Maker) (hk : FromClient k) (n : Nat) :
    ∃ s, run false k k.make (List.replicate n .send) = .ok s ∧ s.sent = n := by
  have key : ∀ (n : Nat) (s : State), s.alive = true → s.sends = .set →
      ∃ s', run false k s (List.replicate n .send) = .ok s' ∧ s'.sent = s.sent + n := by
    intro n
    induction n with
    | zero => intro s _ _; exact ⟨s, rfl, rfl⟩
    | succ n ih =>
      intro s ha hs
      obtain ⟨s', h1, h2⟩ := ih { s with sends := .set, sent := s.sent + 1 } ha rfl
      refine ⟨s', ?_, by simp only at h2; omega⟩
      rw [List.replicate_succ]
      simp only [run, step, send]
      rw [if_pos ha, hs]
      exact h1
  obtain ⟨s, h1, h2⟩ := key n k.make rfl (by cases k <;> first | rfl | exact hk.elim)
  refine ⟨s, h1, ?_⟩
  rw [h2]
  show 0 + n = n
  omega

/-- The message that debug builds have for a state that is freed twice is not to be seen: but for the
polling server, there is nothing left that could hold it, and the second call is undefined. -/
theorem C297_free_negation (debug : Bool) (k : Maker) (h1 : k ≠ .inline) (h2 : k ≠ .polling) :
    run debug k k.make [.send, .free, .free] = .ub := by
  cases k <;> cases debug <;> first | rfl | exact absurd rfl h1 | exact absurd rfl h2

/-- C296, what "well" rules out.  A statement of a free function that is carried out finds what it
uses: its captured variables, and the request or the state that it deletes or counts down; the
request or the state that it deletes is gone afterwards, and nothing else changes. -/
theorem C296_touches {captures : Bool} {s s' : State} {x : Stmt} (h : exec captures s x = .ok s') :
    captures = true ∧
      (x = .deleteCaptured → s.request = true ∧ s' = { s with request := false }) ∧
      (x = .deleteRequest → s.alive = true ∧ s.request = true ∧ s' = { s with request := false }) ∧
      (x = .deleteState → s.alive = true ∧ s' = { s with alive := false }) ∧
      (x = .decRef → s.alive = true ∧ s'.refs + 1 = s.refs ∧ (s'.alive = true ↔ s'.refs ≠ 0) ∧
        s'.request = s.request) := by
  cases x with
  | decRef =>
    simp only [exec] at h
    split at h
    · rename_i hc
      simp only [Bool.and_eq_true] at hc
      refine ⟨hc.1, by simp, by simp, by simp, fun _ => ⟨hc.2, ?_⟩⟩
      unfold decRef at h
      split at h
      · cases h
      · rename_i hr; cases h; simp [hr]
      · rename_i n hr; cases h; simp [hr, hc.2]
    · cases h
  | _ =>
    simp only [exec] at h
    split at h
    · rename_i hc
      simp only [Bool.and_eq_true] at hc
      cases h
      simp [hc]
    · cases h

example : exec true { Maker.handoff.make with alive := false } .deleteState = .ub := rfl

example : ∃ s', exec true Maker.polling.make .decRef = .ok s' ∧ s'.refs = 1 ∧ s'.alive = true := by
  obtain ⟨-, -, -, -, h⟩ := C296_touches (captures := true) (s := Maker.polling.make) (x := .decRef) rfl
  obtain ⟨-, h2, h3, -⟩ := h rfl
  exact ⟨_, rfl, Nat.succ.inj h2, h3.2 (by rw [Nat.succ.inj h2]; decide)⟩

/-! ### examples -/

example : WentWell .polling (run true .polling Maker.polling.make [.send, .gone, .free]) :=
  send_free true .polling (.polling (a := []) (b := []) (c := [.free]) rfl rfl)

example : Seen .polling [.send, .free] [.send, .free, .gone] :=
  .polling (a := []) (b := [.free]) (c := []) rfl rfl

/-- A list that really ran. -/
example : ∃ c s, Loaded gatedConfig "client".toList c ∧ ActionList.Reachable c s ∧
    WentWell .homa (run false .homa Maker.homa.make (callsOf s.log)) := by
  obtain ⟨c, s, h1, -, h3, h4, -, -, -⟩ := gated_run
  exact ⟨c, s, h1, h3, C296_list_partial _ _ c h1 s h3 h4 false .homa (.plain (by decide))⟩

example := C296_handler_partial (s := Handler.demoServer) (now := 10) (draw := id)
  (r := { rpcIndex := some 0 }) (.inl (by simp)) .handoff Handler.demo_answers

example := C296_handler_negation (s := Handler.demoServer) (draw := id) Handler.demo_not_late 3 4
  .handoff Handler.demoList true .mercury trivial

/-- A trace whose only record is for another instance. -/
def demoOther : Replay.Env := { Replay.demo with records := [{ clientInstance := some 7 }] }

example : ∃ p s, Replay.setup demoOther = .ok p ∧ Replay.Reachable demoOther p s ∧ s.main = .done ∧
    ∀ i, ¬ Belongs demoOther i := by
  refine ⟨.empty, _, rfl, .step (.start 0) (.exit rfl rfl), rfl, ?_⟩
  rintro i ⟨h1, h2⟩
  have h1 : i < 1 := h1
  have : i = 0 := by omega
  subst this
  exact absurd (h2 7 rfl) (by decide)

/-- A trace with a record of this instance comes to its end. -/
example : ∃ p s, Replay.setup Replay.demo = .ok p ∧ Replay.Reachable Replay.demo p s ∧
    s.main = .done ∧ Belongs Replay.demo 0 ∧
    WentWell .trace (run true .trace Maker.trace.make (ofTrace s.log)) := by
  obtain ⟨s, h1, h2⟩ := Replay.C40_ends Replay.demo_setup Replay.demo_good.2.1 Replay.demo_good.2.2
    (Replay.Reachable.start 0)
  have hr : Replay.Reachable Replay.demo Replay.demoPlan s := by
    clear h2
    induction h1 with
    | refl => exact .start 0
    | step _ hs ih => exact .step ih hs
  have hb := Replay.demo_belongs 0 (by decide)
  exact ⟨_, s, Replay.demo_setup, hr, h2, hb, C296_trace_partial Replay.demo_setup hr h2 hb true⟩

/-- Two calls that are one too many. -/
example : run true .handoff Maker.handoff.make [.send, .send] = .crash := rfl

example : ∃ s, run true .handoff Maker.handoff.make [.send] = .ok s ∧ s.sent = 1 ∧ s.alive = true :=
  ⟨_, rfl, rfl, rfl⟩

end Distbench.ServerState
