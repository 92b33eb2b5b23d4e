import Verif.Lemmas.Connect

/-! Property theorems C240–C242: clients are connected to the servers. -/

namespace Distbench.Connect
open Spec Netutils

/-! ### The characters of addresses -/

theorem digits_mem {base : Nat} {digit : Char → Option Nat} {t : Str} {n v : Nat}
    (h : digitsAfter base digit n t = some v) : ∀ c ∈ t, digit c ≠ none := by
  induction t generalizing n with
  | nil => simp
  | cons x t ih =>
    simp only [digitsAfter] at h
    cases hx : digit x with
    | none => rw [hx] at h; cases h
    | some d =>
      rw [hx] at h
      intro c hc
      rcases List.mem_cons.1 hc with rfl | hc
      · rw [hx]; simp
      · exact ih h c hc

theorem octets_chars {t : Str} {l : List Nat} (h : Octets t l) : ∀ c ∈ t, decDigit c ≠ none ∨ c = '.' := by
  induction h with
  | one h => exact fun c hc => .inl (digits_mem h.2.1 c hc)
  | more h _ ih =>
    intro c hc
    rcases List.mem_append.1 hc with hc | hc
    · exact .inl (digits_mem h.2.1 c hc)
    · rcases List.mem_cons.1 hc with rfl | hc
      · exact .inr rfl
      · exact ih c hc

theorem dec_hexDigit {c : Char} (h : decDigit c ≠ none) : hexDigit c ≠ none := by
  cases hc : decDigit c with
  | none => exact absurd hc h
  | some d =>
    obtain ⟨e, he⟩ := dec_hex hc
    rw [hexDigit_eq, he]
    simp

theorem last_chars {t : Str} {l : List Nat} (h : LastGroups t l) :
    (∀ c ∈ t, hexDigit c ≠ none ∨ c = '.' ∨ c = ':') ∧ (3 ≤ l.length → ':' ∈ t) := by
  induction h with
  | one h => exact ⟨fun c hc => .inl (digits_mem h.2.2 c hc), by simp⟩
  | dotted h =>
    refine ⟨fun c hc => ?_, by simp⟩
    rcases octets_chars h.1 c hc with h | h
    · exact .inl (dec_hexDigit h)
    · exact .inr (.inl h)
  | more h _ ih =>
    refine ⟨fun c hc => ?_, fun _ => by simp⟩
    rcases List.mem_append.1 hc with hc | hc
    · exact .inl (digits_mem h.2.2 c hc)
    · rcases List.mem_cons.1 hc with rfl | hc
      · exact .inr (.inr rfl)
      · exact ih.1 c hc

theorem groups_chars {t : Str} {l : List Nat} (h : Groups t l) : ∀ c ∈ t, hexDigit c ≠ none ∨ c = ':' := by
  induction h with
  | one h => exact fun c hc => .inl (digits_mem h.2.2 c hc)
  | more h _ ih =>
    intro c hc
    rcases List.mem_append.1 hc with hc | hc
    · exact .inl (digits_mem h.2.2 c hc)
    · rcases List.mem_cons.1 hc with rfl | hc
      · exact .inr rfl
      · exact ih c hc

theorem v6_chars {t : Str} {l : List Nat} (h : V6Text t l) :
    (∀ c ∈ t, hexDigit c ≠ none ∨ c = '.' ∨ c = ':') ∧ ':' ∈ t := by
  cases h with
  | full h h8 => exact ⟨(last_chars h).1, (last_chars h).2 (by omega)⟩
  | @gap t1 l1 t2 l2 h1 h2 _ =>
    refine ⟨fun c hc => ?_, by rw [show "::".toList = [':', ':'] from rfl]; simp⟩
    rcases List.mem_append.1 hc with hc | hc
    · rcases List.mem_append.1 hc with hc | hc
      · rcases h1 with ⟨rfl, _⟩ | h1
        · simp at hc
        · rcases groups_chars h1 c hc with h | h
          · exact .inl h
          · exact .inr (.inr h)
      · rw [show "::".toList = [':', ':'] from rfl] at hc
        simp at hc
        exact .inr (.inr hc)
    · rcases h2 with ⟨rfl, _⟩ | h2
      · simp at hc
      · exact (last_chars h2).1 c hc

theorem cstr_eq {s : Str} (h : ∀ c ∈ s, c ≠ Char.ofNat 0) : cstr s = s := by
  unfold cstr
  induction s with
  | nil => rfl
  | cons c s ih =>
    rw [List.takeWhile_cons, if_pos (decide_eq_true (h c (by simp))), ih fun x hx => h x (List.mem_cons_of_mem _ hx)]

theorem v4_plain {t : Str} {a : List Nat} (h : V4Text t a) : cstr t = t ∧ ':' ∉ t := by
  refine ⟨cstr_eq fun c hc e => ?_, fun hc => ?_⟩
  · subst e
    rcases octets_chars h.1 _ hc with h | h
    · exact h (by decide)
    · exact absurd h (by decide)
  · rcases octets_chars h.1 _ hc with h | h
    · exact h (by decide)
    · exact absurd h (by decide)

theorem v6_plain {t : Str} {a : List Nat} (h : V6Text t a) : cstr t = t ∧ ':' ∈ t := by
  refine ⟨cstr_eq fun c hc e => ?_, (v6_chars h).2⟩
  subst e
  rcases (v6_chars h).1 _ hc with h | h | h
  · exact h (by decide)
  · exact absurd h (by decide)
  · exact absurd h (by decide)

/-! ### Writing the address of a peer -/

theorem write_good {old : SockAddr} {i : ServerAddress} {e : Endpoint} (h : InfoNames i e)
    (hw : e.v4 = false → old.word = [0, 0, 0, 0]) : (writeAddr old i).2 = true ∧ Names (writeAddr old i).1 e := by
  obtain ⟨h1, h2, h3⟩ := h
  have hp : portBits i.port = e.port := by
    unfold portBits
    rw [h1]
    omega
  unfold writeAddr Names
  cases hv : e.v4 with
  | true =>
    rw [hv, if_pos rfl] at h3
    obtain ⟨g1, g2⟩ := v4_plain h3
    dsimp only
    rw [g1, if_pos g2, pton4_iff.2 h3]
    exact ⟨rfl, rfl, hp, rfl⟩
  | false =>
    rw [hv, if_neg (by decide)] at h3
    obtain ⟨g1, g2⟩ := v6_plain h3
    dsimp only
    rw [g1, if_neg (by simpa using g2), pton6_iff.2 h3]
    exact ⟨rfl, rfl, hp, rfl, hw hv⟩

/-- What the Homa driver accepts. -/
theorem write_accepts {old : SockAddr} {i : ServerAddress} (h : (writeAddr old i).2 = true) :
    (∃ a, V4Text (cstr i.ip) a ∧ (writeAddr old i).1 = { old with v4 := some true, port := portBits i.port, word := a }) ∨
    (∃ a, V6Text (cstr i.ip) a ∧ (writeAddr old i).1 = { old with v4 := some false, port := portBits i.port, groups := a }) := by
  unfold writeAddr at h ⊢
  dsimp only at h ⊢
  split at h
  · next hc =>
    left
    rw [if_pos hc]
    split at h
    · next a ha =>
      exact ⟨a, pton4_iff.1 ha, rfl⟩
    · cases h
  · next hc =>
    right
    rw [if_neg hc]
    split at h
    · next a ha =>
      exact ⟨a, pton6_iff.1 ha, rfl⟩
    · cases h

theorem homa_ok {peers : List SockAddr} {i : ServerAddress} {k : Nat} {r : List SockAddr × Bool}
    (h : homaConnect peers (some i) (k : Nat) = .ok r) : ∃ old, peers[k]? = some old ∧
      r = (peers.set k (writeAddr old i).1, (writeAddr old i).2) := by
  unfold homaConnect at h
  rw [if_neg (by omega), Int.toNat_natCast] at h
  split at h
  · cases h
  · next old ho => exact ⟨old, ho, by cases h; rfl⟩

theorem homa_eq {peers : List SockAddr} (i : ServerAddress) {k : Nat} {old : SockAddr} (h : peers[k]? = some old) :
    homaConnect peers (some i) (k : Nat) = .ok (peers.set k (writeAddr old i).1, (writeAddr old i).2) := by
  unfold homaConnect
  rw [if_neg (by omega), Int.toNat_natCast, h]

theorem showInt_nat (n : Nat) : Services.showInt (n : Nat) = Services.digits n := by
  unfold Services.showInt
  split
  · next h => omega
  · rw [Int.natAbs_natCast]

/-! ### C240 -/

/-- **C240**, gRPC: when a server has been initialised on any address of its host and bound to any port,
a client that is given what the server tells about itself opens its channel for that peer with a target
that names the address and the port of the server; the channels to the other peers stay. -/
theorem C240_grpc {ip : Option DeviceIp} {requested : Int} {os : Answers} {s : Server} {a : List Nat}
    (hs : initServer .grpc ip requested os = some s) (ha : DeviceAddress s.ip a) {n : Nat}
    (targets : List (Option Str)) (k : Nat) (hn : targets.length = n) (hk : k < n) :
    os.bound = some s.bound ∧ some s.ip = ip ∧ s.told = s.bound ∧
    ∃ targets' target, grpcConnect targets (some (handlePreConnect s)) (k : Nat) = .ok targets' ∧
      targets'[k]? = some (some target) ∧
      TargetNames target { v4 := s.ip.isV4, address := a, port := s.bound } ∧
      targets'.length = n ∧ ∀ j : Nat, j ≠ k → targets'[j]? = targets[j]? := by
  subst hn
  have hb : os.bound = some s.bound ∧ some s.ip = ip ∧ s.told = s.bound ∧
      s.socketAddress = socketAddressForIp s.ip s.bound := by
    unfold initServer at hs
    split at hs
    · cases hs
    · split at hs
      · cases hs
      · split at hs
        · cases hs
        · next hb =>
          cases hs
          exact ⟨hb, rfl, rfl, rfl⟩
  refine ⟨hb.1, hb.2.1, hb.2.2.1, ?_⟩
  unfold grpcConnect
  rw [if_neg (by omega), Int.toNat_natCast, if_neg (by omega)]
  refine ⟨_, _, rfl, by rw [List.getElem?_set_self hk], ?_, by simp, fun j hj => List.getElem?_set_ne (Ne.symm hj)⟩
  show TargetNames (Grpc.addGrpcProtocol s.socketAddress) _
  rw [hb.2.2.2]
  refine ⟨s.ip.ip, ?_⟩
  unfold socketAddressForIp
  unfold DeviceAddress at ha
  rw [showInt_nat]
  cases hv : s.ip.isV4 with
  | true =>
    rw [hv, if_pos rfl] at ha
    dsimp only
    rw [if_pos rfl, if_pos rfl]
    refine ⟨ha, ?_⟩
    have hne : s.ip.ip ≠ [] := by
      intro e
      rw [e] at ha
      have := pton4_iff.2 ha
      simp [pton4, pton4Loop] at this
    cases hi : s.ip.ip with
    | nil => exact absurd hi hne
    | cons c t =>
      have hc : c ≠ '[' := by
        rintro rfl
        rcases octets_chars ha.1 '[' (by rw [hi]; simp) with h | h
        · exact h (by decide)
        · exact absurd h (by decide)
      rw [List.cons_append, Grpc.addGrpcProtocol, if_neg hc, List.append_assoc]
      rfl
  | false =>
    rw [hv, if_neg (by decide)] at ha
    dsimp only
    rw [if_neg (by decide), if_neg (by decide)]
    refine ⟨ha, ?_⟩
    rw [List.cons_append, List.cons_append, Grpc.addGrpcProtocol, if_pos rfl]
    simp

/-- **C240**, Homa, for addresses without the name of an interface: the address to which the client sends
the requests for that peer is the address and the port of the server. -/
theorem C240_homa_partial {ip : Option DeviceIp} {requested : Int} {os : Answers} {s : Server} {a : List Nat}
    (hs : initServer .homa ip requested os = some s) (ha : DeviceAddress s.ip a) (hp : s.bound < 65536) {n : Nat}
    (peers : List SockAddr) (k : Nat) (hn : peers.length = n) (hk : peers[k]? = some freshAddr) :
    os.bound = some s.bound ∧ some s.ip = ip ∧ s.told = s.bound ∧
    ∃ peers' addr, homaConnect peers (some (handlePreConnect s)) (k : Nat) = .ok (peers', true) ∧
      peers'[k]? = some addr ∧ Names addr { v4 := s.ip.isV4, address := a, port := s.bound } ∧
      peers'.length = n ∧ ∀ j : Nat, j ≠ k → peers'[j]? = peers[j]? := by
  subst hn
  have hb : os.bound = some s.bound ∧ some s.ip = ip ∧ s.told = s.bound ∧ s.serverPort = s.bound := by
    unfold initServer at hs
    split at hs
    · cases hs
    · split at hs
      · cases hs
      · split at hs
        · cases hs
        · next hb =>
          cases hs
          exact ⟨hb, rfl, rfl, rfl⟩
  refine ⟨hb.1, hb.2.1, hb.2.2.1, ?_⟩
  have hi : InfoNames (handlePreConnect s) { v4 := s.ip.isV4, address := a, port := s.bound } :=
    ⟨hb.2.2.2, hp, ha⟩
  obtain ⟨h1, h2⟩ := write_good (old := freshAddr) hi (fun _ => rfl)
  have hlt : k < peers.length := by
    rcases Nat.lt_or_ge k peers.length with h | h
    · exact h
    · rw [List.getElem?_eq_none h] at hk
      cases hk
  refine ⟨_, _, by rw [homa_eq _ hk, h1], by rw [List.getElem?_set_self hlt], h2, by simp,
    fun j hj => List.getElem?_set_ne (Ne.symm hj)⟩

/-- A host with an IPv4 address and an IPv6 address. -/
def exHost : List Interface :=
  [ { device := "lo".toList, family := some .inet, text := some "127.0.0.1".toList },
    { device := "eth0".toList, family := some .inet, text := some "10.0.42.7".toList },
    { device := "eth0".toList, family := some .inet6, text := some "2001:db8::f00:7".toList } ]

/-- The hypotheses of `C240_grpc` and `C240_homa_partial` are met by both addresses of `exHost`. -/
example : ∃ s, initServer .homa (ipAddressForDevice true exHost "eth0".toList 4) 0
      { resources := true, bound := some 40123 } = some s ∧
    DeviceAddress s.ip [10, 0, 42, 7] ∧ s.bound < 65536 :=
  ⟨{ ip := ⟨"10.0.42.7".toList, "eth0".toList, true⟩, bound := 40123, serverPort := 40123,
     socketAddress := "10.0.42.7:40123".toList, told := 40123 }, by decide +kernel, by
    unfold DeviceAddress
    rw [if_pos rfl]
    exact pton4_iff.1 (by decide +kernel), by decide⟩

example : ∃ s, initServer .grpc (ipAddressForDevice true exHost "eth0".toList 6) 0
      { resources := true, bound := some 40123 } = some s ∧
    DeviceAddress s.ip [0x2001, 0xdb8, 0, 0, 0, 0, 0xf00, 7] ∧
    grpcConnect [none, none] (some (handlePreConnect s)) 1 = .ok [none, some "ipv6:[2001:db8::f00:7]:40123".toList] :=
  ⟨{ ip := ⟨"2001:db8::f00:7".toList, "eth0".toList, false⟩, bound := 40123, serverPort := 40123,
     socketAddress := "[2001:db8::f00:7]:40123".toList, told := 40123 }, by decide +kernel, by
    unfold DeviceAddress
    rw [if_neg (by decide)]
    exact pton6_iff.1 (by decide +kernel), by rfl⟩

/-- The full **C240** for the Homa driver: every server that is initialised can be connected to. -/
def HomaServersConnectable : Prop :=
  ∀ (flag : Bool) (host : List Interface) (netdev : Str) (version requested : Int) (os : Answers) (s : Server)
    (a : List Nat) (peers : List SockAddr) (k : Nat),
    initServer .homa (ipAddressForDevice flag host netdev version) requested os = some s → DeviceText s.ip a →
    s.bound < 65536 → peers[k]? = some freshAddr →
    ∃ peers' addr, homaConnect peers (some (handlePreConnect s)) (k : Nat) = .ok (peers', true) ∧
      peers'[k]? = some addr ∧ Names addr { v4 := s.ip.isV4, address := a, port := s.bound }

/-- It is false: an address of the link outside `fe80:` is chosen, its text ends with the name of the
interface, and the client refuses that text. -/
theorem C240_false : ¬ HomaServersConnectable := by
  intro h
  have h1 : ∃ s, initServer .homa (ipAddressForDevice false
      [{ device := "eth0".toList, family := some .inet6, text := some "fe90::1%eth0".toList }] [] 6) 0
      { resources := true, bound := some 40123 } = some s ∧ s.ip = ⟨"fe90::1%eth0".toList, "eth0".toList, false⟩ ∧
      s.bound = 40123 ∧ homaConnect [freshAddr] (some (handlePreConnect s)) 0 =
        .ok ([{ freshAddr with v4 := some false, port := 40123 }], false) :=
    ⟨{ ip := ⟨"fe90::1%eth0".toList, "eth0".toList, false⟩, bound := 40123, serverPort := 40123,
       socketAddress := "[fe90::1%eth0]:40123".toList, told := 40123 }, by decide +kernel, rfl, rfl, by rfl⟩
  obtain ⟨s, h1, h2, h3, h4⟩ := h1
  obtain ⟨peers', addr, h5, _⟩ := h _ _ _ _ _ _ _ [0xfe90, 0, 0, 0, 0, 0, 0, 1] [freshAddr] 0 h1
    (.inr ⟨by rw [h2], "fe90::1".toList, "eth0".toList, by rw [h2]; rfl, pton6_iff.1 (by decide +kernel)⟩)
    (by rw [h3]; decide) rfl
  rw [show ((0 : Nat) : Int) = 0 from rfl, h4] at h5
  cases h5

/-! ### C241 -/

/-- The full **C241**: connection data that names no place is refused. -/
def BadDataRefused : Prop :=
  (∀ (targets targets' : List (Option Str)) (info : Option ServerAddress) (k : Nat),
    grpcConnect targets info (k : Nat) = .ok targets' → ∃ i e, info = some i ∧ InfoNames i e) ∧
  (∀ (peers peers' : List SockAddr) (info : Option ServerAddress) (k : Nat),
    homaConnect peers info (k : Nat) = .ok (peers', true) → ∃ i e, info = some i ∧ InfoNames i e)

/-- It is false of the gRPC drivers: data that does not parse is accepted, with an empty target. -/
theorem C241_false : ¬ BadDataRefused := by
  intro h
  obtain ⟨i, e, h1, _⟩ := h.1 [none] [some []] none 0 rfl
  cases h1

/-- It is false of the Homa driver as well: a port that is no port is accepted. -/
theorem C241_port_false : ∃ i peers', ¬ (∃ e, InfoNames i e) ∧
    homaConnect [freshAddr] (some i) 0 = .ok (peers', true) ∧
    peers' = [{ freshAddr with v4 := some true, port := 4464, word := [10, 0, 0, 1] }] := by
  refine ⟨{ ip := "10.0.0.1".toList, port := 70000, socketAddress := [] }, _, ?_, rfl, rfl⟩
  rintro ⟨e, h1, h2, _⟩
  dsimp only at h1
  omega

/-- **C241**, Homa: connection data is accepted only if it parses and its text, up to the first zero
byte, is that of an IPv4 or IPv6 address; and whether or not it is accepted, the addresses of the other
peers stay. -/
theorem C241_homa_partial {peers peers' : List SockAddr} {info : Option ServerAddress} {k : Nat} {ok : Bool}
    (h : homaConnect peers info (k : Nat) = .ok (peers', ok)) :
    (ok = true → ∃ i a, info = some i ∧ (V4Text (cstr i.ip) a ∨ V6Text (cstr i.ip) a)) ∧
    peers'.length = peers.length ∧ ∀ j : Nat, j ≠ k → peers'[j]? = peers[j]? := by
  cases info with
  | none =>
    unfold homaConnect at h
    rw [if_neg (by omega)] at h
    split at h
    · cases h
    · cases h
      exact ⟨fun e => (by cases e), rfl, fun _ _ => rfl⟩
  | some i =>
    obtain ⟨old, h1, h2⟩ := homa_ok h
    rw [Prod.mk.injEq] at h2
    refine ⟨fun e => ?_, by rw [h2.1]; simp, fun j hj => by rw [h2.1]; exact List.getElem?_set_ne (Ne.symm hj)⟩
    rw [h2.2] at e
    rcases write_accepts e with ⟨a, ha, _⟩ | ⟨a, ha, _⟩
    · exact ⟨i, a, rfl, .inl ha⟩
    · exact ⟨i, a, rfl, .inr ha⟩

/-- An accepted address, and texts that are refused: too few octets, an octet with a needless zero, two
gaps, too many groups. -/
example : (homaConnect [freshAddr] (some ⟨"::ffff:10.0.0.1".toList, 80, []⟩) 0 = .ok
      ([{ v4 := some false, port := 80, word := [0, 0, 0, 0], groups := [0, 0, 0, 0, 0, 0xffff, 0xa00, 1] }], true)) ∧
    (["10.0.1".toList, "10.0.0.01".toList, "10.0.0.256".toList, "1::2::3".toList, "1:2:3:4:5:6:7:8:9".toList,
      "12345::".toList, "fe80::1%eth0".toList].all fun t =>
        !(writeAddr freshAddr ⟨t, 80, []⟩).2) = true := by
  constructor
  · rfl
  · decide +kernel

/-! ### C242 -/

/-- The full **C242**, Homa: after any calls that connect peers, again and again, each peer's address is
that of the last call for it. -/
def LastCallCounts : Prop :=
  ∀ (n : Nat) (calls : List (ServerAddress × Nat)) (peers : List SockAddr) (k : Nat) (i : ServerAddress) (e : Endpoint),
    HomaCalls n calls peers → lastCall calls k = some i → InfoNames i e → ∃ a, peers[k]? = some a ∧ Names a e

theorem last_snoc (calls : List (ServerAddress × Nat)) (i : ServerAddress) (j k : Nat) :
    lastCall (calls ++ [(i, j)]) k = if j = k then some i else lastCall calls k := by
  unfold lastCall
  rw [List.filter_append]
  by_cases h : j = k
  · rw [if_pos h]
    simp [h]
  · rw [if_neg h]
    simp [h]

theorem getLast_mem {calls : List (ServerAddress × Nat)} {k : Nat} {i : ServerAddress} (h : lastCall calls k = some i) :
    (i, k) ∈ calls := by
  unfold lastCall at h
  rw [Option.map_eq_some_iff] at h
  obtain ⟨⟨i', k'⟩, h1, h2⟩ := h
  have h3 := List.mem_of_getLast? h1
  rw [List.mem_filter] at h3
  have h4 : k' = k := of_decide_eq_true h3.2
  cases h2
  rw [← h4]
  exact h3.1

/-- **C242**, gRPC: after any calls that connect peers, the target of each peer is made of the data of the
last call for it, and a peer without a call has none. -/
theorem C242_grpc {n : Nat} {calls : List (ServerAddress × Nat)} {targets : List (Option Str)}
    (h : GrpcCalls n calls targets) (k : Nat) (hk : k < n) :
    targets[k]? = some ((lastCall calls k).map fun i => Grpc.addGrpcProtocol i.socketAddress) := by
  suffices targets.length = n ∧ ∀ k : Nat, k < n →
      targets[k]? = some ((lastCall calls k).map fun i => Grpc.addGrpcProtocol i.socketAddress) from this.2 k hk
  clear hk k
  induction h with
  | fresh => exact ⟨by simp, fun k hk => by simp [hk, lastCall]⟩
  | @call calls targets i j targets' h1 h2 ih =>
    unfold grpcConnect at h2
    rw [if_neg (by omega)] at h2
    split at h2
    · cases h2
    · next hj =>
      rw [Int.toNat_natCast] at hj
      cases h2
      refine ⟨by simpa using ih.1, fun k hk => ?_⟩
      rw [last_snoc, Int.toNat_natCast]
      by_cases he : j = k
      · subst he
        rw [if_pos rfl, List.getElem?_set_self (by omega)]
        rfl
      · rw [if_neg he, List.getElem?_set_ne he]
        exact ih.2 k hk

/-- **C242**, Homa, for peers whose servers all have the same IP version: the address of each peer is that of
the last call for it, and a peer without a call has none. -/
theorem C242_homa_partial {n : Nat} {calls : List (ServerAddress × Nat)} {peers : List SockAddr}
    (h : HomaCalls n calls peers) (k : Nat) (hk : k < n) :
    (lastCall calls k = none → peers[k]? = some freshAddr) ∧
    ∀ i e, lastCall calls k = some i → InfoNames i e →
      (∀ j, (j, k) ∈ calls → ∃ e', InfoNames j e' ∧ e'.v4 = e.v4) → ∃ a, peers[k]? = some a ∧ Names a e := by
  suffices peers.length = n ∧ ∀ k : Nat, k < n → ∃ a, peers[k]? = some a ∧
      (lastCall calls k = none → a = freshAddr) ∧
      ((∀ j, (j, k) ∈ calls → ∃ e', InfoNames j e' ∧ e'.v4 = false) → a.word = [0, 0, 0, 0]) ∧
      ∀ i e, lastCall calls k = some i → InfoNames i e →
        (∀ j, (j, k) ∈ calls → ∃ e', InfoNames j e' ∧ e'.v4 = e.v4) → Names a e by
    obtain ⟨a, h1, h2, _, h3⟩ := this.2 k hk
    exact ⟨fun hn => by rw [h1, h2 hn], fun i e hi he hf => ⟨a, h1, h3 i e hi he hf⟩⟩
  clear hk k
  induction h with
  | fresh =>
    refine ⟨by simp, fun k hk => ⟨freshAddr, by simp [hk], fun _ => rfl, fun _ => rfl, fun i e hi => ?_⟩⟩
    simp [lastCall] at hi
  | @call calls peers i j peers' h1 h2 ih =>
    obtain ⟨old, h3, h4⟩ := homa_ok h2
    rw [Prod.mk.injEq] at h4
    have hj : j < peers.length := by
      rcases Nat.lt_or_ge j peers.length with h | h
      · exact h
      · rw [List.getElem?_eq_none h] at h3
        cases h3
    refine ⟨by rw [h4.1]; simpa using ih.1, fun k hk => ?_⟩
    rw [h4.1]
    by_cases he : j = k
    · subst he
      obtain ⟨a, g1, g2, g3, g4⟩ := ih.2 j (by omega)
      rw [h3] at g1
      cases g1
      refine ⟨_, List.getElem?_set_self hj, fun hn => ?_, fun hf => ?_, fun i' e hi he hf => ?_⟩
      · rw [last_snoc, if_pos rfl] at hn
        cases hn
      · have hw := g3 fun j' hj' => hf j' (List.mem_append_left _ hj')
        obtain ⟨e', he', hv⟩ := hf i (by simp)
        have := (write_good (old := old) he' fun _ => hw).2.2.2
        rw [hv, if_neg (by decide)] at this
        exact this.2
      · rw [last_snoc, if_pos rfl] at hi
        cases hi
        exact (write_good he fun hv => g3 fun j' hj' => by
          rw [← hv]
          exact hf j' (List.mem_append_left _ hj')).2
    · obtain ⟨a, g1, g2, g3, g4⟩ := ih.2 k hk
      refine ⟨a, by rw [List.getElem?_set_ne he]; exact g1, fun hn => ?_, fun hf => ?_, fun i' e hi he' hf => ?_⟩
      · rw [last_snoc, if_neg he] at hn
        exact g2 hn
      · exact g3 fun j' hj' => hf j' (List.mem_append_left _ hj')
      · rw [last_snoc, if_neg he] at hi
        exact g4 i' e hi he' (fun j' hj' => hf j' (List.mem_append_left _ hj'))

/-- Three calls for two peers, the first peer being connected again. -/
def exCalls : List (ServerAddress × Nat) :=
  [(⟨"10.0.0.1".toList, 80, "10.0.0.1:80".toList⟩, 0), (⟨"::1".toList, 81, "[::1]:81".toList⟩, 1),
    (⟨"10.0.0.2".toList, 82, "10.0.0.2:82".toList⟩, 0)]

example : HomaCalls 2 exCalls [{ freshAddr with v4 := some true, port := 82, word := [10, 0, 0, 2] },
      { freshAddr with v4 := some false, port := 81, groups := [0, 0, 0, 0, 0, 0, 0, 1] }] ∧
    lastCall exCalls 0 = some ⟨"10.0.0.2".toList, 82, "10.0.0.2:82".toList⟩ ∧
    InfoNames ⟨"10.0.0.2".toList, 82, "10.0.0.2:82".toList⟩ ⟨true, [10, 0, 0, 2], 82⟩ ∧
    (∀ j, (j, 0) ∈ exCalls → ∃ e', InfoNames j e' ∧ e'.v4 = true) := by
  refine ⟨.call (.call (.call .fresh rfl) rfl) rfl, by decide +kernel,
    ⟨rfl, by decide, pton4_iff.1 (by decide +kernel)⟩, fun j hj => ?_⟩
  unfold exCalls at hj
  simp only [List.mem_cons, Prod.mk.injEq, List.not_mem_nil, or_false] at hj
  rcases hj with ⟨rfl, _⟩ | ⟨_, h⟩ | ⟨rfl, _⟩
  · exact ⟨⟨true, [10, 0, 0, 1], 80⟩, ⟨rfl, by decide, pton4_iff.1 (by decide +kernel)⟩, rfl⟩
  · cases h
  · exact ⟨⟨true, [10, 0, 0, 2], 82⟩, ⟨rfl, by decide, pton4_iff.1 (by decide +kernel)⟩, rfl⟩

example : GrpcCalls 2 exCalls [some "ipv4:10.0.0.2:82".toList, some "ipv6:[::1]:81".toList] :=
  .call (.call (.call .fresh rfl) rfl) rfl

/-- The full C242 is false: when a peer changes from IPv4 to IPv6, the bytes of the IPv4 address stay as
the flow information of the IPv6 address. -/
theorem C242_false : ¬ LastCallCounts := by
  intro h
  obtain ⟨a, h1, h2⟩ := h 1
    [(⟨"10.0.0.1".toList, 80, []⟩, 0), (⟨"::1".toList, 81, []⟩, 0)]
    [{ v4 := some false, port := 81, word := [10, 0, 0, 1], groups := [0, 0, 0, 0, 0, 0, 0, 1] }] 0
    ⟨"::1".toList, 81, []⟩ ⟨false, [0, 0, 0, 0, 0, 0, 0, 1], 81⟩ (.call (.call .fresh rfl) rfl) (by decide +kernel)
    ⟨rfl, by decide, pton6_iff.1 (by decide +kernel)⟩
  cases h1
  have := h2.2.2
  rw [if_neg (by decide)] at this
  exact absurd this.2 (by decide)

end Distbench.Connect
