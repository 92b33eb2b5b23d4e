import Verif.Spec.HomaWire
import Verif.Props.Payload

/-! Property theorems C243 and C244: messages of the Homa driver. -/

namespace Distbench.HomaWire
open Payload Spec

theorem parse_nil : parse [] = some ({} : Msg) := by decide

theorem wire_parse {m : Msg} (hm : m.WF) (s : Bool) :
    (wire s m = [7] ∧ m = {}) ∨ (parse (wire s m) = some m ∧ 2 ≤ (wire s m).length ∧ m ≠ {}) := by
  have hparse := (C04_serializeToCord_faithful m hm s).1
  have hlen := (C04_serializeToCord_faithful m hm s).2
  unfold wire
  split
  · next h =>
    left
    rw [h, parse_nil] at hparse
    exact ⟨rfl, (Option.some.inj hparse).symm⟩
  · next h =>
    right
    have hpos : 0 < (serializeToCord m s).length := List.length_pos_iff.2 h
    refine ⟨hparse, ?_, ?_⟩
    · rw [hlen]
      rw [hlen] at hpos
      unfold serialize at hpos ⊢
      cases hfs : fieldsOf m with
      | nil => rw [hfs] at hpos; simp at hpos
      | cons f fs =>
        rw [List.flatMap_cons, List.length_append]
        have := encodeField_two_le f
        omega
    · rintro rfl
      cases s <;> exact h (by decide)

/-- Reading with a copy gives the message. -/
theorem slow_wire {m : Msg} (hm : m.WF) (s : Bool) (hlen : (wire s m).length ≤ 1048576) :
    slowParse (wire s m) = .parsed true m := by
  unfold slowParse
  rw [if_neg (by omega)]
  rcases wire_parse hm s with ⟨h, rfl⟩ | ⟨h, h2, _⟩
  · dsimp only
    rw [h, if_pos rfl, parse_nil]
    rfl
  · dsimp only
    rw [if_neg (by intro e; rw [e] at h2; exact absurd h2 (by decide)), h]
    rfl

/-- **C243**: whatever the `nocopy` settings of the two drivers, the receiver gets exactly the message that
was sent, if it fits Homa and, for a receiver that avoids copies, (a) the message is not empty or the
object that it is read into is, and (b) it is short, or its payload begins in the first page and is the
last field. -/
theorem C243_delivered_partial {m : Msg} (hm : m.WF) (sender receiver : Bool) {page maxPages : Nat} (old : Msg)
    (hpage : 4096 ≤ page) (hfit : (wire sender m).length ≤ maxPages * page) (hmax : (wire sender m).length ≤ homaMax)
    (hold : receiver = true → m ≠ {} ∨ old = {})
    (hcase : receiver = true → (wire sender m).length ≤ 4096 ∨
      (sender = true ∨ (m.afterPayload32 = none ∧ m.afterPayload64 = none)) ∧
      ∃ p, m.payload = some p ∧ (serialize { m with payload := none }).length + 1 + varIntSize p.length ≤ page) :
    Delivers receiver page maxPages old (wire sender m) m := by
  intro r
  unfold homaMax at hmax
  unfold Receive
  cases hr : receiver with
  | false =>
    rw [if_neg (by decide), slow_wire hm sender (by omega)]
  | true =>
    rw [if_pos rfl]
    dsimp only
    have hc : ∀ n, contiguous page n 0 = min page n := by
      intro n
      unfold contiguous
      simp
    rcases wire_parse hm sender with ⟨h, rfl⟩ | ⟨h, h2, hne⟩
    · have ho : old = {} := by
        rcases hold hr with h | h
        · exact absurd rfl h
        · exact h
      rw [h, hc]
      rw [if_pos (by
        have : min page [7].length = 1 := by simp; omega
        rw [this]
        exact ⟨rfl, rfl⟩), ho]
    · rw [if_neg (by
        intro e
        have := e.1
        rw [hc, List.length_take] at this
        omega)]
      have key : ∀ r0, FastParse page maxPages (wire sender m) r0 ↔ r0 = .parsed true m := by
        intro r0
        by_cases hsmall : (wire sender m).length ≤ 4096
        · unfold FastParse
          simp only [hc, List.length_take]
          rw [if_neg (by intro e; omega), if_pos ⟨hsmall, by omega⟩, List.take_of_length_le (by omega), h]
          simp
        · rcases hcase hr with h | ⟨hs, hp⟩
          · exact absurd h hsmall
          have heq : wire sender m = homaWire m := by
            have e : serializeToCord m sender = serializeToCord m true := by
              rcases hs with rfl | ⟨h1, h2⟩
              · rfl
              · rw [C04_zeroCopy_identical m h1 h2, C04_zeroCopy_identical m h1 h2]
            unfold wire homaWire
            rw [e]
            by_cases he : serializeToCord m true = []
            · rw [if_pos he, he]; rfl
            · rw [if_neg he, if_neg (by simpa using he)]
          rw [heq] at hfit ⊢
          exact C05_homa_fastParse_partial m hm page maxPages hpage hfit (.inr hp) r0
      constructor
      · rintro ⟨r0, h1, h2⟩
        rw [(key r0).1 h1] at h2
        simpa using h2
      · rintro rfl
        exact ⟨.parsed true m, (key _).2 rfl, by simp⟩

/-- A request with a payload over several pages, sent with copying and received without, into an object that
held something else. -/
example (p : List Nat) (hp : p.length = 200000) (hb : ∀ x ∈ p, x < 256) :
    Delivers true homaPage homaPages { errorMessage := some [65] }
      (wire false { rpcIndex := some 3, warmup := some true, payload := some p })
      { rpcIndex := some 3, warmup := some true, payload := some p } := by
  have hwf : ({ rpcIndex := some 3, warmup := some true, payload := some p } : Msg).WF := by
    unfold Msg.WF
    simp only [reduceCtorEq, false_implies, implies_true, true_and, and_true, Option.some.injEq]
    refine ⟨by rintro i rfl; decide, ?_⟩
    rintro b rfl
    exact ⟨by omega, hb⟩
  have hn : (serialize { rpcIndex := some 3, warmup := some true }).length = 4 := by
    simp [serialize, fieldsOf, encodeField, ofInt64, makeVarInt_lt, boolVal]
  have hv : varIntSize p.length ≤ 10 := varIntSize_le_ten (by omega)
  have hl : (wire false { rpcIndex := some 3, warmup := some true, payload := some p }).length ≤ 300000 := by
    unfold wire
    split
    · simp
    · rw [C04_zeroCopy_identical _ rfl rfl, ← C04_zeroCopy_identical _ rfl rfl true]
      unfold serializeToCord
      simp only [List.length_append, makeVarInt_length]
      have h1 := hn
      rw [h1]
      have : varIntSize (15 * 8 + 2) ≤ 10 := varIntSize_le_ten (by decide)
      omega
  have hg : homaPage = 65536 := rfl
  have hm : homaMax = 1000000 := rfl
  refine C243_delivered_partial hwf false true _ (by decide) ?_ (by omega) (fun _ => .inl (by intro e; cases e))
    (fun _ => .inr ⟨.inr ⟨rfl, rfl⟩, _, rfl, ?_⟩)
  · exact Nat.le_trans hl (by decide)
  · have h1 := hn
    dsimp only
    rw [h1]
    omega

/-- The full **C243**: every message that fits is delivered as it is. -/
def HomaDelivers : Prop :=
  ∀ (m old : Msg) (sender receiver : Bool), m.WF → (wire sender m).length ≤ homaMax →
    Delivers receiver homaPage homaPages old (wire sender m) m

/-- It is false: an empty response that is read without a copy into an object that has held an earlier
response leaves the earlier response there. -/
theorem C243_stale : ¬ HomaDelivers ∧
    ∀ (old : Msg) (sender : Bool), Delivers true homaPage homaPages old (wire sender {}) old := by
  have h2 : ∀ (old : Msg) (sender : Bool), Delivers true homaPage homaPages old (wire sender {}) old := by
    intro old sender r
    have hw : wire sender {} = [7] := by cases sender <;> decide
    rw [hw]
    unfold Receive
    rw [if_pos rfl]
    dsimp only
    rw [if_pos (by decide)]
  refine ⟨fun h => ?_, h2⟩
  have h1 := (h {} { errorMessage := some [65] } true true (by unfold Msg.WF; simp) (by decide) _).1
    ((h2 { errorMessage := some [65] } true _).2 rfl)
  cases h1

theorem receive_aborts {m : Msg} (hm : m.WF) (hp : m.payload = none) (sender : Bool) (old : Msg) (page maxPages : Nat)
    (hbig : 4096 < (serialize m).length) (hpage : (serialize m).length ≤ page) (hmax : page ≤ 1048576) :
    Receive true page maxPages old (wire sender m) .crash ∧
    Delivers false page maxPages old (wire sender m) m := by
  have hs : ∀ b, serializeToCord m b = serialize m := by
    intro b; unfold serializeToCord; rw [hp]; cases b <;> rfl
  have hne : serialize m ≠ [] := by
    intro e; rw [e] at hbig; simp at hbig
  have hw : wire sender m = serialize m := by
    unfold wire; rw [hs, if_neg hne]
  have hw' : homaWire m = serialize m := by
    unfold homaWire; rw [hs, if_neg (by simpa using hne)]
  have ha := C05_homa_large_metadata_aborts m hm hp page maxPages hbig hpage
  rw [hw'] at ha
  refine ⟨?_, fun r => ?_⟩
  · rw [hw]
    unfold Receive
    rw [if_pos rfl]
    dsimp only
    rw [if_neg (by
      intro e
      have := e.1
      rw [List.length_take, contiguous, Nat.zero_mod, Nat.sub_zero, Nat.sub_zero, Nat.min_eq_right hpage,
        Nat.min_self] at this
      omega)]
    exact ⟨_, ha, rfl⟩
  · unfold Receive
    rw [if_neg (by decide), slow_wire hm sender (by rw [hw]; exact Nat.le_trans hpage hmax)]

/-- And a receiver that avoids copies aborts on every message of one page that is longer than 4096 bytes
and has no payload, whereas one that copies reads it. -/
theorem C243_aborts {m : Msg} (hm : m.WF) (hp : m.payload = none) (sender : Bool) (old : Msg)
    (hbig : 4096 < (serialize m).length) (hpage : (serialize m).length ≤ homaPage) :
    Receive true homaPage homaPages old (wire sender m) .crash ∧
    Delivers false homaPage homaPages old (wire sender m) m :=
  receive_aborts hm hp sender old homaPage homaPages hbig hpage (by decide)

example : ∃ m : Msg, m.WF ∧ m.payload = none ∧ 4096 < (serialize m).length ∧ (serialize m).length ≤ homaPage := by
  refine ⟨{ errorMessage := some (List.replicate 5000 65) }, wf_errorOnly _ (by decide), rfl, ?_, ?_⟩
  · have h := serialize_errorOnly_length 5000
    omega
  · have h : ∀ n, n < 2 ^ 64 → (serialize { errorMessage := some (List.replicate n 65) }).length ≤ n + 20 := by
      intro n hn
      simp only [serialize, fieldsOf, Option.map_some, Option.map_none, Option.toList,
        List.flatMap_append, List.flatMap_cons, List.flatMap_nil, List.length_append, encodeField,
        List.length_replicate, List.length_nil, makeVarInt_length]
      have := varIntSize_le_ten hn
      have : varIntSize (9 * 8 + 2) ≤ 10 := varIntSize_le_ten (by decide)
      omega
    exact Nat.le_trans (h 5000 (by decide)) (by decide)

/-! ### C244 -/

/-- **C244**: in ping-pong mode the server replies to every request with the request's own bytes, and never
aborts. -/
theorem C244_echo (msg : List Nat) {page maxPages : Nat} (hpage : 0 < page) (hne : msg ≠ [])
    (hfit : msg.length ≤ maxPages * page) : pingPong page maxPages msg = .ok msg := by
  unfold pingPong
  have hn : 1 ≤ maxPages := by
    rcases Nat.eq_zero_or_pos maxPages with h | h
    · rw [h] at hfit
      exact absurd (List.length_eq_zero_iff.1 (by omega)) hne
    · exact h
  rw [collectChunks_spec page msg [] maxPages 0 hpage (Nat.zero_le _) hn (by simpa using hfit)]
  simp

/-- With Homa's own limits: every message that Homa carries is echoed. -/
theorem C244_homa (msg : List Nat) (hne : msg ≠ []) (hmax : msg.length ≤ homaMax) :
    pingPong homaPage homaPages msg = .ok msg :=
  C244_echo msg (by decide) hne (Nat.le_trans hmax (by decide))

/-- The largest message. -/
example (msg : List Nat) (h : msg.length = homaMax) : pingPong homaPage homaPages msg = .ok msg :=
  C244_homa _ (by intro e; rw [e] at h; exact absurd h (by decide)) (by omega)

/-- The client of a ping-pong server gets its own request as the response, with a copy always, and without
one if the request is not empty (or the response object is) and short or with a payload that begins in
the first page. -/
theorem C244_response {m : Msg} (hm : m.WF) (client : Bool) (old : Msg) (hmax : (wire client m).length ≤ homaMax)
    (hold : client = true → m ≠ {} ∨ old = {})
    (hcase : client = true → (wire client m).length ≤ 4096 ∨ ∃ p, m.payload = some p ∧
      (serialize { m with payload := none }).length + 1 + varIntSize p.length ≤ homaPage) :
    ∃ reply, pingPong homaPage homaPages (wire client m) = .ok reply ∧ Delivers client homaPage homaPages old reply m := by
  refine ⟨_, C244_homa _ ?_ hmax, C243_delivered_partial hm client client old (by decide)
    (Nat.le_trans hmax (by decide)) hmax hold fun h => ?_⟩
  · rcases wire_parse hm client with ⟨h, _⟩ | ⟨_, h, _⟩
    · rw [h]; simp
    · intro e; rw [e] at h; simp at h
  · rcases hcase h with h1 | h1
    · exact .inl h1
    · exact .inr ⟨.inl h, h1⟩

end Distbench.HomaWire
