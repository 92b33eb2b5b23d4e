import Verif.Lemmas.Serving

/-! Property theorems C221-C225: requests and the servers of the protocol drivers. -/

namespace Distbench.Serving
open Spec

/-! ### C221: requests that come before the handler is set -/

/-- Only the call of the handler can fail. -/
theorem fails_at_take {k : Kind} {s : Server} {op : Op} {o : Outcome Server}
    (h : step k s op = some o) (ho : ∀ s, o ≠ .ok s) :
    ∃ id, op = .take id ∧ (s.setting = true ∨ s.handler = false) := by
  cases op with
  | take id =>
    refine ⟨id, rfl, ?_⟩
    simp only [step] at h
    split at h
    · rw [Option.some.injEq] at h
      unfold take at h
      split at h
      · next hs => exact .inl hs
      · split at h
        · exact absurd h.symm (ho _)
        · next hh => exact .inr (by simpa using hh)
    · cases h
  | shutdown =>
    simp only [step] at h
    split at h
    · cases h
    · cases k <;> cases h <;> exact absurd rfl (ho _)
  | _ =>
    simp only [step] at h
    split at h <;> cases h <;> exact absurd rfl (ho _)

/-- `ShutdownServer` did not return before it was called. -/
theorem returned_shutdown {k : Kind} {ops : List Op} {s : Server} (h : Served k ops s)
    (hr : s.returned = true) : Op.shutdown ∈ ops := by
  obtain ⟨pre, post, rfl⟩ := List.append_of_mem ((served_inv h).returned.1 hr)
  obtain ⟨s0, h0, h1⟩ := served_prefix h
  have hi := served_inv h0
  rw [run] at h1
  simp only [step] at h1
  split at h1
  · cases h1
  · next he =>
    split at he
    · next hg =>
      simp only [Bool.and_eq_true] at hg
      exact List.mem_append_left _ (hi.shutting.1 (hi.closed hg.1.1))
    · cases he
  · next hne he =>
    split at he
    · cases he
      exact (hne _ rfl).elim
    · cases he

/-- The handler is called only after it was set. -/
theorem take_after_set {k : Kind} {ops : List Op} {s : Server} {id : Nat} (h : Served k ops s)
    (hk : k ≠ .mercury ∨ OnlyAfterSet ops) (hq : Op.shutdown ∉ ops)
    {o : Outcome Server} (ht : step k s (.take id) = some o) : SetBefore ops := by
  have hi := served_inv h
  simp only [step] at ht
  split at ht
  · next hg =>
    have hsh : s.shutting = false := by
      cases hb : s.shutting with
      | false => rfl
      | true => exact absurd (hi.shutting.1 hb) hq
    have hnot : s.notified = true → SetBefore ops := by
      intro hn
      rcases hi.notified hn with h | h
      · exact hi.handler.1 h
      · rw [hsh] at h; cases h.1
    rcases hk with hk | hk
    · apply hnot
      have := hg.2.2.1
      unfold takes at this
      cases k with
      | inline => exact this
      | handoff => exact this
      | polling => exact this
      | homa => simp only [Bool.and_eq_true] at this; exact this.1
      | mercury => exact absurd rfl hk
    · have hm : 0 < ops.count Op.arrive := by
        have := hi.made
        unfold requestsArrived at this
        omega
      obtain ⟨pre, post, he⟩ := List.append_of_mem (List.count_pos_iff.1 hm)
      have := hk pre post he
      rw [he]
      exact List.mem_append_left _ this
  · cases ht

/-- C221, for the servers other than Mercury's, and for Mercury's if no request comes before the handler
is set.  Let the handler be set at most once, and the server not be shut down.  Then nothing fails,
whatever the order of the requests and of `SetHandler`; no request goes to the handler before it is
set; the handler is called at most once for each request that came, and for nothing else; and once
nothing more can happen after it is set, it was called for every request.
Missing, and false: the same for Mercury (`C221_false`). -/
theorem C221_early_requests_partial {k : Kind} {ops : List Op} {o : Outcome Server}
    (hk : k ≠ .mercury ∨ OnlyAfterSet ops) (h1 : ops.count .setBegin ≤ 1) (h2 : Op.shutdown ∉ ops)
    (h : run k {} ops = some o) :
    ∃ s, o = .ok s ∧ s.handled.Nodup ∧ (∀ id ∈ s.handled, id < requestsArrived ops) ∧
      (∀ pre id post, ops = pre ++ .take id :: post → SetBefore pre) ∧
      (SetBefore ops → ServerIdle k s → ∀ id, id < requestsArrived ops → id ∈ s.handled) := by
  have hpre : ∀ {pre : List Op} {x : Op} {post : List Op}, ops = pre ++ x :: post →
      k ≠ .mercury ∨ OnlyAfterSet pre := by
    intro pre x post he
    rcases hk with hk | hk
    · exact .inl hk
    · right
      intro a b hab
      exact hk a (b ++ x :: post) (by rw [he, hab]; simp)
  have hnosd : ∀ {pre : List Op} {x : Op} {post : List Op}, ops = pre ++ x :: post →
      Op.shutdown ∉ pre := by
    intro pre x post he hin
    exact h2 (by rw [he]; exact List.mem_append_left _ hin)
  have hok : ∃ s, o = .ok s := by
    apply Classical.byContradiction
    intro hno
    obtain ⟨pre, op, post, s, he, hs, hf⟩ := run_fails h (fun s hs => hno ⟨s, hs⟩)
    obtain ⟨id, rfl, hw⟩ := fails_at_take hf (fun s hs => hno ⟨s, hs⟩)
    have hset := take_after_set hs (hpre he) (hnosd he) hf
    have hi := served_inv hs
    rcases hw with hw | hw
    · have h3 := hi.begun' hw
      have h4 : 0 < pre.count Op.setEnd := List.count_pos_iff.2 hset
      rw [he, List.count_append] at h1
      omega
    · have := hi.handler.2 hset
      rw [hw] at this
      cases this
  obtain ⟨s, rfl⟩ := hok
  have hi := served_inv h
  refine ⟨s, rfl, hi.nodup, ?_, ?_, ?_⟩
  · intro id hid
    rw [← hi.made]
    apply Classical.byContradiction
    intro hge
    have h3 := hi.later id (by omega)
    have h4 := (hi.handled id).1 hid
    rw [h3] at h4
    simp at h4
  · intro pre id post he
    rw [he] at h
    obtain ⟨s0, h0, h3⟩ := served_prefix h
    cases h4 : step k s0 (.take id) with
    | none => rw [run, h4] at h3; cases h3
    | some o' => exact take_after_set h0 (hpre he) (hnosd he) h4
  · intro hset hidle id hid
    rw [← hi.made] at hid
    have hsh : s.shutting = false := by
      cases hb : s.shutting with
      | false => rfl
      | true => exact absurd (hi.shutting.1 hb) h2
    have hcl : s.closed = false := by
      cases hb : s.closed with
      | false => rfl
      | true => exact absurd (hi.closed hb) (by rw [hsh]; decide)
    have hre : s.returned = false := by
      cases hb : s.returned with
      | false => rfl
      | true => exact absurd (returned_shutdown h hb) h2
    have hn : s.notified = true := hi.told (hi.handler.2 hset)
    have ht := hidle (.take id) (by simp) (by simp) (by simp)
    have htakes : takes k s = true := by
      unfold takes
      rw [hn, hcl]
      cases k <;> rfl
    simp only [step] at ht
    split at ht
    · cases ht
    · next hg =>
      rw [hi.handled]
      cases hp : (s.calls id).phase with
      | waiting => exact absurd ⟨hid, hp, htakes, hre⟩ hg
      | handling => exact .inl rfl
      | working => exact .inr (.inl rfl)
      | over => exact .inr (.inr rfl)
      | forgotten =>
        have := (hi.forgotten id hp).1
        rw [hsh] at this
        cases this

/-- Two requests come before the handler is set to the handoff server, and both are handled. -/
example : (run .handoff {} [.arrive, .setBegin, .arrive, .setEnd, .take 1, .take 0]).map
    (fun o => match o with | .ok s => s.handled | _ => []) = some [0, 1] := by decide +kernel

/-- With its handler set afterwards, and the request handled, nothing more can happen. -/
example : ∃ s, Served .inline [.arrive, .setBegin, .setEnd, .take 0, .send 0 7, .done 0] s ∧
    ServerIdle .inline s := by
  refine ⟨_, rfl, ?_⟩
  intro op h1 h2 h3
  cases op <;> simp_all [step, takes, take, send, finish, Server.set] <;> grind

/-- C221 is false of Mercury: it does not wait, and calls an empty function. -/
theorem C221_false : run .mercury {} [.arrive, .take 0] = some .crash := rfl

/-! ### C222: setting the handler again -/

/-- C222, what is true of it: a data race on the handler comes only from a request that is taken while
`SetHandler` assigns it, and, for every server but Mercury's, this is not the first time the handler is
set.  Missing, and false: there are no data races (`C222_false`). -/
theorem C222_set_again_partial {k : Kind} {ops : List Op} (h : run k {} ops = some .ub) :
    ∃ pre mid id post, ops = pre ++ .setBegin :: mid ++ .take id :: post ∧ Op.setEnd ∉ mid ∧
      (k ≠ .mercury → SetBefore pre) := by
  obtain ⟨pre0, op, post, s, he, hs, hf⟩ := run_fails h (by intro s hs; cases hs)
  obtain ⟨id, rfl, hw⟩ := fails_at_take hf (by intro s hs; cases hs)
  have hi := served_inv hs
  simp only [step] at hf
  split at hf
  · next hg =>
    have hset : s.setting = true := by
      cases hb : s.setting with
      | true => rfl
      | false =>
        rw [Option.some.injEq] at hf
        unfold take at hf
        rw [hb] at hf
        cases hh : s.handler with
        | true => rw [hh] at hf; simp at hf
        | false =>
          rw [hh] at hf
          cases k <;> simp at hf
    obtain ⟨pre, mid, rfl, hmid⟩ := hi.setting hset
    refine ⟨pre, mid, id, post, he, hmid, ?_⟩
    intro hk
    have hn : s.notified = true := by
      have := hg.2.2.1
      unfold takes at this
      cases k with
      | inline => exact this
      | handoff => exact this
      | polling => exact this
      | homa => simp only [Bool.and_eq_true] at this; exact this.1
      | mercury => exact absurd rfl hk
    rcases hi.notified hn with hh | hh
    · have := hi.handler.1 hh
      rcases List.mem_append.1 this with h1 | h1
      · exact h1
      · rcases List.mem_cons.1 h1 with h2 | h2
        · cases h2
        · exact absurd h2 hmid
    · have := hi.calm hh.1
      rw [hset] at this
      cases this
  · cases hf

/-- So there are none if no request is taken while the handler is being set. -/
theorem C222_no_overlap_partial {k : Kind} {ops : List Op} (h : NoOverlap ops) :
    run k {} ops ≠ some .ub := by
  intro hu
  obtain ⟨pre, mid, id, post, he, hmid, _⟩ := C222_set_again_partial hu
  exact hmid (h pre mid id post he)

/-- The handler is set twice, with a request handled between. -/
example : NoOverlap [.setBegin, .setEnd, .arrive, .take 0, .setBegin, .setEnd] ∧
    (run .inline {} [.setBegin, .setEnd, .arrive, .take 0, .setBegin, .setEnd]).isSome = true := by
  refine ⟨?_, by decide +kernel⟩
  intro pre mid id post he
  have hlen := congrArg List.length he
  match pre, he with
  | [], he =>
    match mid, he with
    | [], he => simp at he
    | a :: mid, he => simp at he; rw [← he.1]; simp
  | [_], he => simp at he
  | [_, _], he => simp at he
  | [_, _, _], he => simp at he
  | [_, _, _, _], he =>
    match mid, he with
    | [], he => simp at he
    | [_], he => simp at he
    | _ :: _ :: mid, he => simp at hlen
  | [_, _, _, _, _], he => simp at he
  | _ :: _ :: _ :: _ :: _ :: _ :: _, he => simp at hlen

/-- C222 is false of every server: `SetHandler` assigns the handler without a lock. -/
theorem C222_false (k : Kind) :
    run k {} [.setBegin, .setEnd, .arrive, .setBegin, .take 0] = some .ub := by
  cases k <;> rfl

/-! ### C223: the shutdown ends -/

/-- C223, what is true of it: after `ShutdownServer` was called, and once nothing more can happen, it
has returned, if no request came, or if the handler had been set and the engine answers each request
it handles.  Missing, and false: the same if the handler was never set (`C223_false`). -/
theorem C223_shutdown_partial {k : Kind} {ops : List Op} {s : Server} (h : Served k ops s)
    (hsd : Op.shutdown ∈ ops) (hidle : ServerIdle k s)
    (hc : requestsArrived ops = 0 ∨ (SetBefore ops ∧ AlwaysAnswers ops)) : Op.return ∈ ops := by
  have hi := served_inv h
  rw [← hi.returned]
  apply Classical.byContradiction
  intro hret
  have hre : s.returned = false := by
    cases hb : s.returned with
    | false => rfl
    | true => exact absurd hb hret
  have hsh := hi.shutting.2 hsd
  have hcl : s.closed = true := by
    have := hidle .close (by simp) (by simp) (by simp)
    simp only [step, hsh] at this
    cases hb : s.closed with
    | true => rfl
    | false => rw [hb] at this; simp at this
  have hno : mayReturn k s = false := by
    have := hidle .return (by simp) (by simp) (by simp)
    simp only [step, hcl, hre] at this
    cases hb : mayReturn k s with
    | false => rfl
    | true => rw [hb] at this; simp at this
  have hyes : mayReturn k s = true := by
    unfold mayReturn
    rw [List.all_eq_true]
    intro id hid
    rw [List.mem_range] at hid
    rcases hc with hc | ⟨hset, hans⟩
    · rw [hi.made, hc] at hid
      omega
    · have hn : s.notified = true := hi.told (hi.handler.2 hset)
      have hd := hidle (.done id) (by simp) (by simp) (by simp)
      have ht := hidle (.take id) (by simp) (by simp) (by simp)
      simp only [step] at hd ht
      have hover : Op.done id ∈ ops → ∃ r, Op.send id r ∈ ops := by
        intro hin
        obtain ⟨a, b, he⟩ := List.append_of_mem hin
        obtain ⟨r, hr⟩ := hans a id b he
        exact ⟨r, by rw [he]; exact List.mem_append_left _ hr⟩
      have hdel : Op.done id ∈ ops → (s.delivered.any fun d => d.1 = id) = true := by
        intro hin
        rw [List.any_eq_true]
        by_cases hk : k = .inline
        · refine ⟨(id, .ok (s.calls id).sent), (hi.delivered _ _).2 ?_, by simp⟩
          rw [if_pos hk]
          exact ⟨hin, rfl⟩
        · obtain ⟨r, hr⟩ := hover hin
          refine ⟨(id, .ok (some r)), (hi.delivered _ _).2 ?_, by simp⟩
          rw [if_neg hk]
          exact ⟨r, rfl, hr⟩
      cases hp : (s.calls id).phase with
      | waiting =>
        cases k with
        | inline => rw [if_pos ⟨hid, hp, hn, hre⟩] at ht; cases ht
        | handoff => rw [if_pos ⟨hid, hp, hn, hre⟩] at ht; cases ht
        | polling => rw [if_pos ⟨hid, hp, hn, hre⟩] at ht; cases ht
        | homa => simp [hp]
        | mercury => simp [hp]
      | handling => rw [if_pos (.inl hp)] at hd; cases hd
      | working => rw [if_pos (.inr hp)] at hd; cases hd
      | forgotten =>
        have := (hi.forgotten id hp).2.1
        rw [hi.handler.2 hset] at this
        cases this
      | over =>
        have hin := (hi.over id).1 hp
        cases k with
        | inline => exact hdel hin
        | handoff => exact hdel hin
        | polling => exact hdel hin
        | homa =>
          obtain ⟨r, hr⟩ := hover hin
          rw [← hi.sent] at hr
          simp [hr]
        | mercury => simp [hp]
  rw [hno] at hyes
  cases hyes

/-- A request is answered and the server shut down. -/
example : (run .polling {} [.arrive, .setBegin, .setEnd, .shutdown, .take 0, .defer 0, .send 0 7, .done 0,
    .close, .return]).isSome = true := by decide +kernel

/-- This is so for the inline server. -/
example : ∃ s, Served .inline [.arrive, .setBegin, .setEnd, .shutdown, .take 0, .send 0 7, .done 0,
    .close, .return] s ∧ ServerIdle .inline s := by
  refine ⟨_, rfl, ?_⟩
  intro op h1 h2 h3
  cases op <;> simp_all [step, takes, take, send, finish, Server.set] <;> grind

/-- It answers the request. -/
example : AlwaysAnswers [.arrive, .setBegin, .setEnd, .shutdown, .take 0, .send 0 7, .done 0,
    .close, .return] := by
  intro pre id post he
  simp [List.cons_eq_append_iff] at he
  obtain ⟨_, rfl, _, rfl, _, rfl, _, rfl, _, rfl, _, rfl, rfl, rfl, rfl⟩ := he
  exact ⟨7, by simp⟩

/-- C223 is false: a request that came before the handler was set keeps `ShutdownServer` of the gRPC
servers from returning for ever, and that of Homa ends the process. -/
theorem C223_false :
    (∀ k, k = .inline ∨ k = .handoff → ∃ s, Served k [.arrive, .shutdown, .close] s ∧ ServerIdle k s) ∧
    (∃ s, Served .polling [.arrive, .shutdown, .take 0, .close] s ∧ ServerIdle .polling s) ∧
    run .homa {} [.arrive, .shutdown, .take 0] = some .crash := by
  refine ⟨?_, ?_, rfl⟩
  · rintro k (rfl | rfl)
    · refine ⟨_, rfl, ?_⟩
      intro op h1 h2 h3
      cases op <;> simp_all [step, takes, mayReturn]
    · refine ⟨_, rfl, ?_⟩
      intro op h1 h2 h3
      cases op <;> simp_all [step, takes, mayReturn]
  · refine ⟨_, rfl, ?_⟩
    intro op h1 h2 h3
    cases op <;> simp_all [step, takes, mayReturn, Server.set] <;> grind

/-! ### C224: when the response goes out -/

/-- C224, for every server but the inline one, and for that one once the engine is done with the
request: a response that the engine has sent has gone to the client of this request, and nothing else
has.  Missing, and false: the inline server sends it when the engine sends it (`C224_false`). -/
theorem C224_sent_partial {k : Kind} {ops : List Op} {s : Server} (h : Served k ops s) {id r : Nat}
    (hs : Op.send id r ∈ ops) (hk : k ≠ .inline ∨ Op.done id ∈ ops) (a : Answer) :
    (id, a) ∈ s.delivered ↔ a = .ok (some r) := by
  have hi := served_inv h
  rw [hi.delivered]
  have hr := (hi.sent id r).2 hs
  by_cases hin : k = .inline
  · rw [if_pos hin, hr]
    rcases hk with hk | hk
    · exact absurd hin hk
    · exact ⟨fun h => h.2, fun h => ⟨hk, h⟩⟩
  · rw [if_neg hin]
    constructor
    · rintro ⟨r', rfl, h'⟩
      have := (hi.sent id r').2 h'
      rw [hr, Option.some.injEq] at this
      rw [this]
    · rintro rfl
      exact ⟨r, rfl, hs⟩

/-- The handoff server answers while the engine is still working. -/
example : (run .handoff {} [.arrive, .setBegin, .setEnd, .take 0, .defer 0, .send 0 7]).map
    (fun o => match o with | .ok s => s.delivered | _ => []) = some [(0, .ok (some 7))] := by decide +kernel

/-- C224 is false of the inline server, which answers when the engine is done. -/
theorem C224_false : ∃ s, Served .inline [.setBegin, .setEnd, .arrive, .take 0, .send 0 7] s ∧
    s.delivered = [] := ⟨_, rfl, rfl⟩

/-! ### C225: success means an answer -/

/-- C225, for every server but the inline one, and for that one if the engine answers each request it
is done with: what a client gets is a response that the engine sent for its request, and it gets at
most one.  Missing, and false: the same for the inline server (`C225_false`). -/
theorem C225_success_partial {k : Kind} {ops : List Op} {s : Server} (h : Served k ops s)
    (hk : k ≠ .inline ∨ AlwaysAnswers ops) :
    (∀ id a, (id, a) ∈ s.delivered → ∃ r, a = .ok (some r) ∧ Op.send id r ∈ ops) ∧
      (s.delivered.map (·.1)).Nodup := by
  have hi := served_inv h
  refine ⟨?_, hi.once⟩
  intro id a hin
  rw [hi.delivered] at hin
  by_cases hk' : k = .inline
  · rw [if_pos hk'] at hin
    rcases hk with hk | hk
    · exact absurd hk' hk
    · obtain ⟨pre, post, he⟩ := List.append_of_mem hin.1
      obtain ⟨r, hr⟩ := hk pre id post he
      have hr' : Op.send id r ∈ ops := by rw [he]; exact List.mem_append_left _ hr
      have := (hi.sent id r).2 hr'
      exact ⟨r, by rw [hin.2, this], hr'⟩
  · rw [if_neg hk'] at hin
    exact hin

/-- Two requests, answered in the other order. -/
example : (run .mercury {} [.setBegin, .setEnd, .arrive, .arrive, .take 0, .take 1, .send 1 8, .send 0 7,
    .done 0, .done 1]).map (fun o => match o with | .ok s => s.delivered | _ => []) =
    some [(0, .ok (some 7)), (1, .ok (some 8))] := by decide +kernel

/-- C225 is false of the inline server: it reports success for a request that the engine did not
answer. -/
theorem C225_false : ∃ s, Served .inline [.setBegin, .setEnd, .arrive, .take 0, .done 0] s ∧
    s.delivered = [(0, .ok none)] := ⟨_, rfl, rfl⟩

end Distbench.Serving
