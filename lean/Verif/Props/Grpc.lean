import Verif.Lemmas.Grpc
import Verif.Props.Services

/-! Property theorems C151–C160: the gRPC driver's choice of client and server, its targets and
channel arguments, and its clients. -/

namespace Distbench
open Services Grpc Spec

namespace Grpc

/-! ### C151: the choice of client and server -/

theorem textOf_iff (settings : List NamedSetting) (n d r : Str) :
    TextOf settings n d r ↔ getNamedSettingString settings n d = r :=
  (C10_string_setting settings n d r).symm

theorem numberOf_iff (settings : List NamedSetting) (n : Str) (d r : Int) :
    NumberOf settings n d r ↔ getNamedSettingInt64 settings n d = r :=
  (C10_int_setting settings n d r).symm

theorem pool_iff (cpus : Int) (o : Options) :
    PoolSettings cpus o.serverSettings ↔ ∃ p, serverPool cpus o = .ok p := by
  simp only [PoolSettings, numberOf_iff, textOf_iff, serverPool]
  generalize getNamedSettingInt64 o.serverSettings "threadpool_size".toList cpus = size
  generalize getNamedSettingString o.serverSettings "threadpool_type".toList [] = type
  constructor
  · rintro ⟨_, _, rfl, rfl, hs, ht⟩
    unfold Threadpool.createThreadpool
    rw [if_neg (by omega)]
    simp only [List.mem_cons, List.not_mem_nil, or_false] at ht
    split
    · exact ⟨_, rfl⟩
    · split
      · exact ⟨_, rfl⟩
      · split
        · exact ⟨_, rfl⟩
        · rename_i h1 h2 h3
          rcases ht with h | h | h | h
          · exact absurd (Or.inl h) h2
          · exact absurd h h1
          · exact absurd (Or.inr h) h2
          · exact absurd h h3
  · rintro ⟨p, hp⟩
    refine ⟨size, type, rfl, rfl, ?_⟩
    unfold Threadpool.createThreadpool at hp
    split at hp
    · simp at hp
    rename_i hs
    refine ⟨by omega, ?_⟩
    simp only [List.mem_cons, List.not_mem_nil, or_false]
    split at hp
    · rename_i h; exact Or.inr (Or.inl h)
    split at hp
    · rename_i h; rcases h with h | h
      · exact Or.inl h
      · exact Or.inr (Or.inr (Or.inl h))
    split at hp
    · rename_i h; exact Or.inr (Or.inr (Or.inr h))
    · simp at hp

theorem clientKind_iff (o : Options) (c : ClientKind) :
    clientKind o = .ok c ↔ TextOf o.clientSettings "client_type".toList
      (if o.name = "grpc_async".toList then "callback".toList else "polling".toList)
      (clientName c) := by
  rw [textOf_iff]
  unfold clientKind isAsync
  simp only [decide_eq_true_eq]
  generalize getNamedSettingString o.clientSettings "client_type".toList _ = t
  constructor
  · intro h
    split at h
    · cases h; assumption
    split at h
    · cases h; assumption
    · simp at h
  · rintro rfl
    cases c <;> decide

theorem serverKind_iff (cpus : Int) (o : Options) (s : ServerKind) :
    serverKind cpus o = .ok s ↔ TextOf o.serverSettings "server_type".toList
      (if o.name = "grpc_async".toList then "handoff".toList else "inline".toList)
      (serverName s) ∧ (s = .inline ∨ PoolSettings cpus o.serverSettings) := by
  rw [textOf_iff, pool_iff]
  unfold serverKind isAsync
  simp only [decide_eq_true_eq]
  generalize getNamedSettingString o.serverSettings "server_type".toList _ = t
  cases hp : serverPool cpus o with
  | ok p =>
    simp only [Outcome.bind]
    constructor
    · intro h
      split at h
      · cases h; exact ⟨by assumption, Or.inl rfl⟩
      split at h
      · cases h; exact ⟨by assumption, Or.inr ⟨p, rfl⟩⟩
      split at h
      · cases h; exact ⟨by assumption, Or.inr ⟨p, rfl⟩⟩
      · simp at h
    · rintro ⟨rfl, -⟩
      cases s <;> decide
  | error _ | ub | crash =>
    simp only [Outcome.bind]
    constructor
    · intro h
      split at h
      · cases h; exact ⟨by assumption, Or.inl rfl⟩
      split at h
      · simp at h
      split at h <;> simp at h
    · rintro ⟨rfl, rfl | ⟨p, hp⟩⟩
      · rfl
      · simp at hp

theorem serverPool_defined (cpus : Int) (o : Options) :
    serverPool cpus o ≠ .ub ∧ serverPool cpus o ≠ .crash := by
  unfold serverPool Threadpool.createThreadpool
  repeat' split
  all_goals simp

/-- C151.  The driver starts exactly when the settings name a known client, a known server (with a
proper pool unless it is inline) and a transport that was compiled in; it then has the client and
the server that they name; otherwise it reports an error. -/
theorem C151_driver_kind (homa : Bool) (cpus : Int) (o : Options) :
    (∀ c s, initDriver homa cpus o = .ok (c, s) ↔
      TextOf o.clientSettings "client_type".toList
        (if o.name = "grpc_async".toList then "callback".toList else "polling".toList)
        (clientName c) ∧
      TextOf o.serverSettings "server_type".toList
        (if o.name = "grpc_async".toList then "handoff".toList else "inline".toList)
        (serverName s) ∧
      (s = .inline ∨ PoolSettings cpus o.serverSettings) ∧
      (TextOf o.serverSettings "transport".toList "tcp".toList "tcp".toList ∨
        homa = true ∧ TextOf o.serverSettings "transport".toList "tcp".toList "homa".toList)) ∧
    initDriver homa cpus o ≠ .ub ∧ initDriver homa cpus o ≠ .crash := by
  have ht : transport homa o = .ok () ↔
      (TextOf o.serverSettings "transport".toList "tcp".toList "tcp".toList ∨
        homa = true ∧ TextOf o.serverSettings "transport".toList "tcp".toList "homa".toList) := by
    simp only [textOf_iff, transport]
    generalize getNamedSettingString o.serverSettings "transport".toList "tcp".toList = t
    by_cases h1 : t = "homa".toList
    · subst h1; cases homa <;> decide
    · by_cases h2 : t = "tcp".toList
      · subst h2; cases homa <;> decide
      · rw [if_neg h1, if_neg h2]
        refine ⟨fun h => by simp at h, fun h => ?_⟩
        rcases h with h | ⟨-, h⟩
        · exact absurd h h2
        · exact absurd h h1
  have hd : transport homa o ≠ .ub ∧ transport homa o ≠ .crash := by
    unfold transport; dsimp only; repeat' split
    all_goals simp
  have hcd : clientKind o ≠ .ub ∧ clientKind o ≠ .crash := by
    unfold clientKind; dsimp only; repeat' split
    all_goals simp
  have hsd : serverKind cpus o ≠ .ub ∧ serverKind cpus o ≠ .crash := by
    have := serverPool_defined cpus o
    unfold serverKind; dsimp only
    cases hp : serverPool cpus o <;> simp [hp] at this <;> simp only [Outcome.bind] <;>
      (repeat' split) <;> simp
  refine ⟨fun c s => ?_, ?_⟩
  · rw [← ht, ← and_assoc, ← and_assoc, ← clientKind_iff, and_assoc (c := _ ∨ _),
      ← serverKind_iff]
    unfold initDriver
    cases clientKind o <;> cases serverKind cpus o <;> cases transport homa o <;>
      simp [Outcome.bind]
  · unfold initDriver
    cases h1 : clientKind o <;> cases h2 : serverKind cpus o <;> cases h3 : transport homa o <;>
      simp_all [Outcome.bind]

/-- Settings that name the callback client and the polling server with three threads. -/
def someOptions : Options where
  clientSettings := [{ name := some "x".toList, stringValue := some [] },
    { name := some "client_type".toList, stringValue := some "callback".toList }]
  serverSettings := [{ name := some "server_type".toList, stringValue := some "polling".toList },
    { name := some "threadpool_size".toList, int64Value := some 3 }]

example : initDriver false 8 someOptions = .ok (.callback, .polling) := by decide +kernel

example : ∃ e, initDriver false 8 { clientSettings :=
    [{ name := some "client_type".toList, stringValue := some "pollling".toList }] } = .error e :=
  ⟨"Invalid GRPC client_type", by decide +kernel⟩

/-! ### C152: `grpc_async_callback` -/

/-- C152, full statement: the driver for the protocol `grpc_async_callback` without further
settings has the callback client and the handoff server. -/
def AsyncCallbackIsAsync : Prop :=
  ∀ (cpus : Int) (o : Options), o.protocol = "grpc_async_callback".toList → 1 ≤ cpus →
    o.clientSettings = [] → o.serverSettings = [] →
    initDriver false cpus o = .ok (.callback, .handoff)

/-- It does not hold: the driver looks at the name of the options, not at the protocol. -/
theorem C152_negation : ¬ AsyncCallbackIsAsync := by
  intro h
  have := h 8 { protocol := "grpc_async_callback".toList } rfl (by decide) rfl rfl
  revert this
  decide +kernel

/-- C152, partial: it holds if the options are also named `grpc_async`.  Missing: any other name. -/
theorem C152_async_partial (cpus : Int) (o : Options) (hn : o.name = "grpc_async".toList)
    (hc : 1 ≤ cpus) (h1 : o.clientSettings = []) (h2 : o.serverSettings = []) :
    initDriver false cpus o = .ok (.callback, .handoff) := by
  rw [(C151_driver_kind false cpus o).1]
  have e : ∀ n d r, TextOf [] n d r ↔ r = d := by simp [TextOf]
  simp only [h1, h2, e, hn, if_true]
  refine ⟨rfl, rfl, Or.inr ⟨cpus, [], by simp [NumberOf], by simp [TextOf], hc, by simp⟩, by simp⟩

example : initDriver false 4 { name := "grpc_async".toList } = .ok (.callback, .handoff) :=
  C152_async_partial 4 _ rfl (by decide) rfl rfl

/-! ### C153: targets -/

theorem join_eq (acc : Str) : ∀ l : List Str, acc ≠ [] → (∀ a ∈ l, a ≠ []) →
    joinAddresses acc l = acc ++ l.flatMap (fun a => ',' :: a) := by
  intro l
  induction l generalizing acc with
  | nil => simp [joinAddresses]
  | cons a l ih =>
    intro h hl
    rw [joinAddresses, if_neg h, ih _ (by simp) (fun b hb => hl b (by simp [hb]))]
    simp

theorem commaParts_plain (a : Str) (h : ',' ∉ a) : commaParts a = [a] := by
  induction a with
  | nil => rfl
  | cons c s ih =>
    simp only [List.mem_cons, not_or] at h
    rw [commaParts, if_neg (Ne.symm h.1), ih h.2]

theorem commaParts_comma (a rest : Str) (h : ',' ∉ a) :
    commaParts (a ++ ',' :: rest) = a :: commaParts rest := by
  induction a with
  | nil => simp [commaParts]
  | cons c s ih =>
    simp only [List.mem_cons, not_or] at h
    rw [List.cons_append, commaParts, if_neg (Ne.symm h.1), ih h.2]

theorem commaParts_join (a : Str) (l : List Str) (h : ∀ b ∈ a :: l, ',' ∉ b) :
    commaParts (a ++ l.flatMap (fun b => ',' :: b)) = a :: l := by
  induction l generalizing a with
  | nil => simpa using commaParts_plain a (h a (by simp))
  | cons b l ih =>
    simp only [List.flatMap_cons, List.cons_append]
    rw [commaParts_comma a _ (h a (by simp)), ih b (fun x hx => h x (List.mem_cons_of_mem _ hx))]

/-- C153, full statement: the target of a channel tells gRPC to connect to its servers. -/
def TargetsRight : Prop :=
  ∀ addresses : List Str, addresses ≠ [] → (∀ a ∈ addresses, a ≠ [] ∧ ',' ∉ a) →
    Addresses (channelTarget addresses) addresses

/-- It does not hold if servers have addresses of both versions: the target has the scheme of the
first. -/
theorem C153_negation : ¬ TargetsRight := by
  intro h
  have := h ["1.2.3.4:5".toList, "[::1]:5".toList] (by decide) (by decide)
  rcases this with ⟨rest, -, -, h⟩ | ⟨rest, -, -, h⟩
  · exact h "[::1]:5".toList (by decide) (by unfold IsV6; decide)
  · exact absurd (h "1.2.3.4:5".toList (by decide)) (by unfold IsV6; decide)

/-- C153, partial: it holds if the addresses are of one version.  Missing: mixed addresses. -/
theorem C153_targets_partial (addresses : List Str) (hne : addresses ≠ [])
    (h : ∀ a ∈ addresses, a ≠ [] ∧ ',' ∉ a)
    (hv : (∀ a ∈ addresses, IsV6 a) ∨ (∀ a ∈ addresses, ¬ IsV6 a)) :
    Addresses (channelTarget addresses) addresses := by
  cases addresses with
  | nil => exact absurd rfl hne
  | cons a l =>
    have hj : joinAddresses [] (a :: l) = a ++ l.flatMap (fun b => ',' :: b) := by
      rw [joinAddresses, if_pos rfl, List.nil_append]
      exact join_eq a l (h a (by simp)).1 (fun b hb => (h b (by simp [hb])).1)
    have hp := commaParts_join a l (fun b hb => (h b hb).2)
    unfold channelTarget Addresses
    rw [hj]
    cases a with
    | nil => exact absurd rfl (h [] (by simp)).1
    | cons c s =>
      rcases hv with hv | hv
      · right
        have : c = '[' := by simpa [IsV6] using hv (c :: s) (by simp)
        subst this
        exact ⟨_, by simp [addGrpcProtocol], hp, hv⟩
      · left
        have : c ≠ '[' := by simpa [IsV6] using hv (c :: s) (by simp)
        exact ⟨_, by simp [addGrpcProtocol, this], hp, hv⟩

example : Addresses "ipv6:[::1]:5,[::2]:6".toList ["[::1]:5".toList, "[::2]:6".toList] :=
  C153_targets_partial ["[::1]:5".toList, "[::2]:6".toList] (by decide) (by decide)
    (Or.inl (by unfold IsV6; decide))

/-! ### C154: channel arguments -/

/-- C154, full statement: gRPC is given every named setting of the server, with its value. -/
def ArgumentsPassed : Prop :=
  ∀ settings : List NamedSetting, (∀ s ∈ settings, ∀ v ∈ s.int64Value, InI64 v) →
    serverArguments settings = settings.filterMap argumentOf

/-- It does not hold: numbers are cut to 32 bits. -/
theorem C154_negation : ¬ ArgumentsPassed := by
  intro h
  have := h [{ name := some ['m'], int64Value := some (2 ^ 32) }] (by decide +kernel)
  revert this
  decide +kernel

theorem toInt32_of_in {n : Int} (h : InI32 n) : toInt32 n = n := by
  unfold InI32 at h
  unfold toInt32
  omega

/-- C154, partial: it holds if the numbers fit in 32 bits.  Missing: larger numbers. -/
theorem C154_arguments_partial (settings : List NamedSetting)
    (h : ∀ s ∈ settings, ∀ v ∈ s.int64Value, InI32 v) :
    serverArguments settings = settings.filterMap argumentOf := by
  induction settings with
  | nil => rfl
  | cons s rest ih =>
    have ih := ih (fun x hx => h x (by simp [hx]))
    have hs := h s (by simp)
    rw [serverArguments, ih, List.filterMap_cons]
    cases hn : s.name <;> cases hv : s.stringValue <;> cases hi : s.int64Value <;>
      simp [argumentOf, hn, hv, hi]
    exact toInt32_of_in (hs _ (by simp [hi]))

example : serverArguments [{ name := some ['m'], int64Value := some (-5) }, { name := none },
    { name := some ['n'], stringValue := some ['v'] }] = [(['m'], .int (-5)), (['n'], .text ['v'])] :=
  C154_arguments_partial _ (by decide +kernel)

/-! ### C155: one callback for each RPC -/

theorem atRest_empty {k : ClientKind} {c : Client} (h : AtRest k c) :
    c.calls = [] ∧ c.ended = [] ∧ c.running = [] := by
  have hr : c.running = [] := by
    cases hc : c.running with
    | nil => rfl
    | cons id l =>
      have := h (.returned id) (by simp) (by simp)
      simp [step, hc] at this
  refine ⟨?_, ?_, hr⟩
  · cases hc : c.calls with
    | nil => rfl
    | cons x l =>
      have := h (.finish x.id (.failure [])) (by simp) (by simp)
      simp [step, hc] at this
  · cases hc : c.ended with
    | nil => rfl
    | cons x l =>
      have := h (.callback x.1.id) (by simp) (by simp)
      simp [step, hc, hr] at this

/-- C155.  No done callback is called twice, or for an RPC that was not started or has not ended;
and when nothing is left to happen but new RPCs, that of every RPC was called and has returned. -/
theorem C155_one_callback (k : ClientKind) (peers channels : List Bool) (ops : List Op) (c : Client)
    (hr : run k (newClient peers channels) ops = some (.ok c)) :
    (calledBack ops).Nodup ∧
    (∀ id ∈ calledBack ops, id < (started ops).length ∧ ∃ e, (id, e) ∈ endedBy ops) ∧
    (AtRest k c → (calledBack ops).Perm (List.range (started ops).length) ∧
      (cameBack ops).Perm (List.range (started ops).length)) := by
  have h := inv_run (inv_new peers channels) hr
  rw [List.nil_append] at h
  have hnd := h.nodup
  have hcb := h.calledBack
  refine ⟨?_, ?_, ?_⟩
  · exact hcb.symm.nodup (List.nodup_append.1 (List.nodup_append.1 hnd).2.1).2.1
  · intro id hid
    have hm := hcb.mem_iff.1 hid
    refine ⟨?_, ?_⟩
    · rw [← h.next]
      exact List.mem_range.1 (h.numbers.mem_iff.1
        (List.mem_append_right _ (List.mem_append_right _ hm)))
    · have := h.ended.symm.mem_iff.1 (List.mem_append_right _ hm)
      obtain ⟨⟨i, e⟩, he, rfl⟩ := List.mem_map.1 this
      exact ⟨e, he⟩
  · intro ha
    obtain ⟨h1, h2, h3⟩ := atRest_empty ha
    have hn := h.numbers
    simp only [numbers, h1, h2, h3, List.map_nil, List.nil_append, h.next] at hn
    rw [h3, List.nil_append] at hcb
    exact ⟨hcb.trans hn, hn⟩

/-- Two RPCs of one caller, the second failing, and one of another caller. -/
def someOps : List Op :=
  [.start (.peer 0) 7 ⟨100, true⟩, .start (.channel 0) 8 ⟨200, false⟩, .finish 1 (.failure ['x']),
   .finish 0 (.response ⟨5, []⟩), .callback 0, .start (.peer 0) 7 ⟨300, true⟩, .returned 0,
   .callback 1, .returned 1, .finish 2 (.failure ['y']), .callback 2, .returned 2]

/-- The outcome of a run, without the callers. -/
def endOf (r : Option (Outcome Client)) : Option (List Bool × List Bool × Int × Nat × Bool) :=
  match r with
  | some (.ok c) => some (c.peers, c.channels, c.pending, c.next, c.stopped)
  | _ => none

example : endOf (run .polling (newClient [true] [true]) someOps) =
    some ([true], [true], 0, 3, false) := by decide +kernel

/-! ### C156: what the callback sees -/

/-- A step that does not start an RPC of this caller leaves the state of a caller alone that the
driver is done with. -/
theorem callers_step {k : ClientKind} {c d : Client} {op : Op} {i : Nat}
    (hs : step k c op = some (.ok d)) (hi : i ∉ inUse c) (hop : ∀ t r, op ≠ .start t i r) :
    d.callers i = c.callers i ∧ i ∉ inUse d := by
  cases op with
  | start t j r =>
    simp only [step] at hs
    split at hs
    · simp at hs
    cases ht : useTarget k c t <;> simp [ht, Outcome.bind] at hs
    subst hs
    have hij : i ≠ j := fun h => hop t r (by rw [h])
    refine ⟨by simp [hij], ?_⟩
    simp only [inUse, List.map_cons, List.cons_append, List.mem_cons, not_or]
    exact ⟨hij, hi⟩
  | finish id e =>
    simp only [step] at hs
    split at hs
    · simp at hs
    rename_i x hx
    simp only [Option.some.injEq, Outcome.ok.injEq] at hs
    subst hs
    refine ⟨rfl, ?_⟩
    simp only [inUse, List.mem_append, List.map_cons, List.mem_cons, not_or] at hi ⊢
    refine ⟨fun h => hi.1 ((List.filter_sublist.map _).subset h), ?_, hi.2⟩
    intro h
    exact hi.1 (h ▸ List.mem_map.2 ⟨x, List.mem_of_find?_eq_some hx, rfl⟩)
  | callback id =>
    simp only [step] at hs
    split at hs
    · simp at hs
    split at hs
    · simp at hs
    rename_i x hx
    simp only [Option.some.injEq, Outcome.ok.injEq] at hs
    subst hs
    simp only [inUse, List.mem_append, not_or] at hi ⊢
    refine ⟨?_, hi.1, fun h => hi.2 ((List.filter_sublist.map _).subset h)⟩
    rw [if_neg]
    intro h
    exact hi.2 (h ▸ List.mem_map.2 ⟨x, List.mem_of_find?_eq_some hx, rfl⟩)
  | returned id =>
    simp only [step] at hs
    split at hs
    · simp only [Option.some.injEq, Outcome.ok.injEq] at hs
      subst hs
      exact ⟨rfl, hi⟩
    · simp at hs
  | shutdown =>
    simp only [step] at hs
    split at hs
    · simp only [Option.some.injEq, Outcome.ok.injEq] at hs
      subst hs
      exact ⟨rfl, hi⟩
    · simp at hs

theorem callers_run {k : ClientKind} {i : Nat} {d : Client} :
    ∀ {ops : List Op} {c : Client}, run k c ops = some (.ok d) → i ∉ inUse c →
      (∀ t r, Op.start t i r ∉ ops) → d.callers i = c.callers i := by
  intro ops
  induction ops with
  | nil =>
    intro c hr _ _
    simp only [run, Option.some.injEq, Outcome.ok.injEq] at hr
    rw [hr]
  | cons op ops ih =>
    intro c hr hi hop
    simp only [run] at hr
    split at hr <;> try simp at hr
    rename_i c' hc'
    obtain ⟨h1, h2⟩ := callers_step hc' hi (fun t r h => hop t r (by simp [h]))
    rw [ih hr h2 (fun t r h => hop t r (List.mem_cons_of_mem _ h)), h1]

theorem callback_state {k : ClientKind} {ops : List Op} {m d : Client} {id : Nat} (h : Inv ops m)
    (hs : step k m (.callback id) = some (.ok d)) :
    ∃ caller request e, (started ops)[id]? = some (caller, request) ∧ (id, e) ∈ endedBy ops ∧
      d.callers caller = deliver (m.callers caller) request e ∧ caller ∉ inUse d := by
  have hnd := h.nodup
  simp only [step] at hs
  split at hs
  · simp at hs
  split at hs
  · simp at hs
  rename_i x hx
  simp only [Option.some.injEq, Outcome.ok.injEq] at hs
  subst hs
  obtain ⟨hp, hid⟩ := perm_take (fun y : Call × Ending => y.1.id) id x m.ended
    (List.nodup_append.1 (List.nodup_append.1 hnd).2.1).1 hx
  have hx' := h.endings x (List.mem_of_find?_eq_some hx)
  rw [hid] at hx'
  refine ⟨x.1.caller, x.1.request, x.2, hx'.1, hx'.2, by simp, ?_⟩
  have hu := h.inUse
  have hq := (hp.map (fun e : Call × Ending => e.1.caller)).append_left (m.calls.map Call.caller)
  have := hq.nodup hu
  rw [List.map_cons] at this
  have := (List.perm_middle.nodup this)
  simp only [List.nodup_cons] at this
  exact this.1

/-- C156.  When the done callback of an RPC is called, and until the engine starts another RPC with
that state, the state shows how the RPC ended (in the one way in which it did): for a response,
success, the request that was sent and that response; for a failure, no success and its message. -/
theorem C156_callback_sees (k : ClientKind) (peers channels : List Bool) (ops later : List Op)
    (id : Nat) (c : Client)
    (hr : run k (newClient peers channels) (ops ++ .callback id :: later) = some (.ok c)) :
    ∃ caller request e, (started ops)[id]? = some (caller, request) ∧ (id, e) ∈ endedBy ops ∧
      (∀ e', (id, e') ∈ endedBy (ops ++ .callback id :: later) → e' = e) ∧
      ((∀ t r, Op.start t caller r ∉ later) → Shows request e (c.callers caller)) := by
  have hall := inv_run (inv_new peers channels) hr
  rw [List.nil_append] at hall
  rw [← List.singleton_append, ← List.append_assoc] at hr
  obtain ⟨d, hd, hl⟩ := run_append_ok hr
  obtain ⟨m, hm, hs⟩ := run_append_ok hd
  have h := inv_run (inv_new peers channels) hm
  rw [List.nil_append] at h
  obtain ⟨caller, request, e, h1, h2, h3, h4⟩ := callback_state h (run_one hs)
  refine ⟨caller, request, e, h1, h2, ?_, ?_⟩
  · intro e' he'
    have hn : ((endedBy (ops ++ .callback id :: later)).map Prod.fst).Nodup :=
      hall.ended.symm.nodup (List.nodup_append.1 hall.nodup).2.1
    have he : (id, e) ∈ endedBy (ops ++ .callback id :: later) := by
      simp only [endedBy, List.filterMap_append, List.mem_append]
      exact Or.inl h2
    generalize endedBy (ops ++ .callback id :: later) = l at hn he he'
    clear hall
    induction l with
    | nil => simp at he
    | cons y l ih =>
      simp only [List.map_cons, List.nodup_cons] at hn
      simp only [List.mem_cons] at he he'
      rcases he with rfl | he <;> rcases he' with he' | he'
      · exact (Prod.mk.inj he').2
      · exact absurd (List.mem_map.2 ⟨_, he', rfl⟩) hn.1
      · subst he'; exact absurd (List.mem_map.2 ⟨_, he, rfl⟩) hn.1
      · exact ih hn.2 he he'
  · intro hfree
    rw [callers_run hl h4 hfree, h3]
    cases e <;> simp [deliver, Shows]

/-- The state of one caller after a run. -/
def callerAfter (r : Option (Outcome Client)) (i : Nat) : Option Caller :=
  match r with
  | some (.ok c) => some (c.callers i)
  | _ => none

example : callerAfter (run .polling (newClient [true] [true]) (someOps.take 5)) 7 =
    some ⟨some ⟨100, true⟩, ⟨5, []⟩, some true⟩ := by decide +kernel

/-! ### C157: shutting a client down -/

theorem peers_gone {k : ClientKind} {d : Client} :
    ∀ {ops : List Op} {c : Client}, run k c ops = some (.ok d) → c.peers = [] → d.peers = [] := by
  intro ops
  induction ops with
  | nil =>
    intro c hr h
    simp only [run, Option.some.injEq, Outcome.ok.injEq] at hr
    rw [← hr, h]
  | cons op ops ih =>
    intro c hr h
    simp only [run] at hr
    split at hr <;> try simp at hr
    rename_i c' hc'
    refine ih hr ?_
    cases op with
    | start t j r =>
      simp only [step] at hc'
      split at hc'
      · simp at hc'
      cases ht : useTarget k c t <;> simp [ht, Outcome.bind] at hc'
      subst hc'
      exact h
    | finish id e =>
      simp only [step] at hc'
      split at hc' <;> simp at hc'
      subst hc'
      exact h
    | callback id =>
      simp only [step] at hc'
      split at hc'
      · simp at hc'
      split at hc' <;> simp at hc'
      subst hc'
      exact h
    | returned id =>
      simp only [step] at hc'
      split at hc' <;> simp at hc'
      subst hc'
      exact h
    | shutdown =>
      simp only [step] at hc'
      split at hc' <;> simp at hc'
      subst hc'
      rfl

/-- C157.  When `ShutdownClient` returns, every RPC started has ended and its callback has
returned; nothing happens to those RPCs afterwards, and RPCs to peers cannot be started any more.
It can return whenever nothing else is left to happen. -/
theorem C157_shutdown (k : ClientKind) (peers channels : List Bool) (ops : List Op) :
    (∀ later c, run k (newClient peers channels) (ops ++ .shutdown :: later) = some (.ok c) →
      (cameBack ops).Perm (List.range (started ops).length) ∧
      (∀ id ∈ calledBack later, (started ops).length ≤ id) ∧
      (∀ id ∈ cameBack later, (started ops).length ≤ id) ∧
      (∀ i j r, step k c (.start (.peer i) j r) = none ∨
        step k c (.start (.peer i) j r) = some .crash)) ∧
    (∀ c, run k (newClient peers channels) ops = some (.ok c) → AtRest k c →
      ∃ d, step k c .shutdown = some (.ok d)) := by
  refine ⟨?_, ?_⟩
  · intro later c hr
    have hall := inv_run (inv_new peers channels) hr
    rw [List.nil_append] at hall
    have hr' := hr
    rw [← List.singleton_append, ← List.append_assoc] at hr'
    obtain ⟨d, hd, hl⟩ := run_append_ok hr'
    obtain ⟨m, hm, hs⟩ := run_append_ok hd
    have h := inv_run (inv_new peers channels) hm
    rw [List.nil_append] at h
    have hs := run_one hs
    simp only [step] at hs
    split at hs
    · rename_i hp
      simp only [Option.some.injEq, Outcome.ok.injEq] at hs
      have hz := h.pending
      rw [hp] at hz
      have h1 : m.calls = [] := List.length_eq_zero_iff.1 (by omega)
      have h2 : m.ended = [] := List.length_eq_zero_iff.1 (by omega)
      have h3 : m.running = [] := List.length_eq_zero_iff.1 (by omega)
      have hn := h.numbers
      simp only [numbers, h1, h2, h3, List.map_nil, List.nil_append, h.next] at hn
      have hcb := h.calledBack
      rw [h3, List.nil_append] at hcb
      have hcb := hcb.trans hn
      have hsplit : ∀ x : Nat, x < (started ops).length → x ∈ cameBack ops ∧ x ∈ calledBack ops :=
        fun x hx => ⟨hn.symm.mem_iff.1 (List.mem_range.2 hx), hcb.symm.mem_iff.1 (List.mem_range.2 hx)⟩
      have hnd := (List.nodup_append.1 (List.nodup_append.1 hall.nodup).2.1).2.1
      have hnd1 := hall.calledBack.symm.nodup hnd
      have hnd2 := (List.nodup_append.1 hnd).2.1
      have e1 : calledBack (ops ++ .shutdown :: later) = calledBack ops ++ calledBack later := by
        simp [calledBack]
      have e2 : cameBack (ops ++ .shutdown :: later) = cameBack ops ++ cameBack later := by
        simp [cameBack]
      rw [e1] at hnd1
      rw [e2] at hnd2
      refine ⟨hn, ?_, ?_, ?_⟩
      · intro id hid
        by_cases hlt : id < (started ops).length
        · exact absurd rfl ((List.nodup_append.1 hnd1).2.2 id (hsplit id hlt).2 id hid)
        · omega
      · intro id hid
        by_cases hlt : id < (started ops).length
        · exact absurd rfl ((List.nodup_append.1 hnd2).2.2 id (hsplit id hlt).1 id hid)
        · omega
      · intro i j r
        have hpg := peers_gone hl (by rw [← hs])
        simp only [step]
        split
        · exact Or.inl rfl
        · right
          simp only [useTarget, stub, hpg, List.getElem?_nil]
          split <;> rfl
    · simp at hs
  · intro c hr ha
    have h := inv_run (inv_new peers channels) hr
    obtain ⟨h1, h2, h3⟩ := atRest_empty ha
    have hz := h.pending
    simp only [h1, h2, h3, List.length_nil] at hz
    exact ⟨_, by simp only [step]; rw [if_pos (by omega)]⟩

example : endOf (run .callback (newClient [true] [true])
    (someOps ++ [.shutdown, .start (.channel 0) 1 ⟨1, false⟩])) =
    some ([], [true], 1, 4, true) := by decide +kernel

/-! ### C158, C159: what is logged about failed RPCs -/

/-- C158, full statement: the sample of an RPC, taken in its callback, has the size and the warmup
flag of its request. -/
def SamplesDescribeRequest : Prop :=
  ∀ (k : ClientKind) (peers channels : List Bool) (ops : List Op) (id : Nat) (c : Client)
    (caller : Nat) (request : Request),
    run k (newClient peers channels) (ops ++ [.callback id]) = some (.ok c) →
    (started ops)[id]? = some (caller, request) →
    (sampleOf (c.callers caller)).requestSize = some request.size ∧
      (sampleOf (c.callers caller)).warmup = some request.warmup

/-- It does not hold for an RPC that fails: its request was moved out of the state and is not put
back. -/
theorem C158_negation : ¬ SamplesDescribeRequest := by
  intro h
  have := h .polling [true] [] [.start (.peer 0) 0 ⟨100, true⟩, .finish 0 (.failure ['x'])] 0 _ 0
    ⟨100, true⟩ rfl rfl
  simp [sampleOf, deliver] at this

/-- C158, partial: it holds for an RPC that succeeds.  Missing: failed RPCs. -/
theorem C158_request_partial (k : ClientKind) (peers channels : List Bool) (ops : List Op)
    (id : Nat) (c : Client) (caller : Nat) (request : Request)
    (hr : run k (newClient peers channels) (ops ++ [.callback id]) = some (.ok c))
    (hq : (started ops)[id]? = some (caller, request))
    (hok : (sampleOf (c.callers caller)).successful = some true) :
    (sampleOf (c.callers caller)).requestSize = some request.size ∧
      (sampleOf (c.callers caller)).warmup = some request.warmup := by
  obtain ⟨caller', request', e, h1, -, -, h4⟩ :=
    C156_callback_sees k peers channels ops [] id c hr
  rw [hq] at h1
  simp only [Option.some.injEq, Prod.mk.injEq] at h1
  obtain ⟨rfl, rfl⟩ := h1
  have h4 := h4 (by simp)
  cases e with
  | response r => simp [Shows] at h4; simp [sampleOf, h4]
  | failure m => simp [Shows] at h4; simp [sampleOf, h4] at hok

example : sampleOf ⟨some ⟨100, true⟩, ⟨5, []⟩, some true⟩ =
    ⟨some true, some 100, some true, ⟨5, []⟩⟩ := rfl

/-- C159, full statement: the response in the sample of a failed RPC has nothing but the error
message. -/
def FailuresCarryNoResponse : Prop :=
  ∀ (k : ClientKind) (peers channels : List Bool) (ops : List Op) (id : Nat) (c : Client)
    (caller : Nat) (request : Request) (m : Str),
    run k (newClient peers channels) (ops ++ [.callback id]) = some (.ok c) →
    (started ops)[id]? = some (caller, request) → (id, Ending.failure m) ∈ endedBy ops →
    (sampleOf (c.callers caller)).response = ⟨0, m⟩

/-- It does not hold: the response of an earlier RPC with the same state is still there. -/
theorem C159_negation : ¬ FailuresCarryNoResponse := by
  intro h
  have := h .polling [true] [true] (someOps.take 10) 2 _ 7 ⟨300, true⟩ ['y'] rfl rfl (by decide +kernel)
  simp [sampleOf, deliver] at this

theorem snoc_induction {P : List Op → Prop} (nil : P []) (snoc : ∀ l x, P l → P (l ++ [x])) :
    ∀ l, P l := by
  have : ∀ l : List Op, P l.reverse := by
    intro l
    induction l with
    | nil => exact nil
    | cons x l ih => rw [List.reverse_cons]; exact snoc _ x ih
  intro l
  rw [← List.reverse_reverse l]
  exact this _

theorem body_run (k : ClientKind) (peers channels : List Bool) (i : Nat) :
    ∀ (ops : List Op) (c : Client), run k (newClient peers channels) ops = some (.ok c) →
      (∀ id request r, (started ops)[id]? = some (i, request) → (id, Ending.response r) ∉ endedBy ops) →
      (c.callers i).response.body = 0 := by
  intro ops
  induction ops using snoc_induction with
  | nil =>
    intro c hr _
    simp only [run, Option.some.injEq, Outcome.ok.injEq] at hr
    rw [← hr]; rfl
  | snoc ops op ih =>
    intro c hr hno
    obtain ⟨m, hm, hs⟩ := run_append_ok hr
    have h := inv_run (inv_new peers channels) hm
    rw [List.nil_append] at h
    have hs := run_one hs
    have hbefore := ih m hm (fun id q r hq he => by
      refine hno id q r ?_ (by
        simp only [endedBy, List.filterMap_append, List.mem_append]; exact Or.inl he)
      simp only [started, List.filterMap_append] at hq ⊢
      rw [List.getElem?_append_left (List.getElem?_eq_some_iff.1 hq).1]
      exact hq)
    cases op with
    | start t j r =>
      simp only [step] at hs
      split at hs
      · simp at hs
      cases ht : useTarget k m t <;> simp [ht, Outcome.bind] at hs
      subst hs
      dsimp only
      split <;> exact hbefore
    | finish id e =>
      simp only [step] at hs
      split at hs <;> simp at hs
      subst hs
      exact hbefore
    | callback id =>
      obtain ⟨caller, request, e, h1, h2, h3, -⟩ := callback_state h hs
      by_cases hi : i = caller
      · subst hi
        rw [h3]
        cases e with
        | failure msg => exact hbefore
        | response r =>
          refine absurd ?_ (hno id request r (by simpa [started] using h1))
          simpa [endedBy] using h2
      · simp only [step] at hs
        split at hs
        · simp at hs
        split at hs
        · simp at hs
        rename_i x hx
        simp only [Option.some.injEq, Outcome.ok.injEq] at hs
        have hx' := h.endings x (List.mem_of_find?_eq_some hx)
        have hid : x.1.id = id := by simpa using List.find?_some hx
        rw [hid, h1] at hx'
        simp only [Option.some.injEq, Prod.mk.injEq] at hx'
        subst hs
        dsimp only
        rw [if_neg (by rw [← hx'.1.1]; exact hi)]
        exact hbefore
    | returned id =>
      simp only [step] at hs
      split at hs <;> simp at hs
      subst hs
      exact hbefore
    | shutdown =>
      simp only [step] at hs
      split at hs <;> simp at hs
      subst hs
      exact hbefore

/-- C159, partial: it holds if no RPC with the same state was answered.  Missing: states used
again. -/
theorem C159_failure_partial (k : ClientKind) (peers channels : List Bool) (ops : List Op)
    (id : Nat) (c : Client) (caller : Nat) (request : Request) (m : Str)
    (hr : run k (newClient peers channels) (ops ++ [.callback id]) = some (.ok c))
    (hq : (started ops)[id]? = some (caller, request)) (hf : (id, Ending.failure m) ∈ endedBy ops)
    (hno : ∀ id' request' r, (started ops)[id']? = some (caller, request') →
      (id', Ending.response r) ∉ endedBy ops) :
    (sampleOf (c.callers caller)).response = ⟨0, m⟩ := by
  have hb := body_run k peers channels caller (ops ++ [.callback id]) c hr
    (by simpa [started, endedBy] using hno)
  obtain ⟨caller', request', e, h1, h2, h3, h4⟩ :=
    C156_callback_sees k peers channels ops [] id c hr
  rw [hq] at h1
  simp only [Option.some.injEq, Prod.mk.injEq] at h1
  obtain ⟨rfl, rfl⟩ := h1
  have he := h3 (.failure m) (by
    simp only [endedBy, List.filterMap_append, List.mem_append]; exact Or.inl hf)
  subst he
  have h4 := h4 (by simp)
  simp only [Shows] at h4
  simp only [sampleOf]
  cases hresp : (c.callers caller).response with
  | mk body error => rw [hresp] at hb h4; simp_all

example : callerAfter (run .callback (newClient [true] [true]) (someOps.take 8)) 8 =
    some ⟨none, ⟨0, ['x']⟩, some false⟩ := by decide +kernel

/-! ### C160: no abort -/

/-- C160.  If every RPC goes to a connected peer or channel, and none is started after
`ShutdownClient`, then the client neither aborts nor has undefined behaviour. -/
theorem C160_no_abort (k : ClientKind) (peers channels : List Bool) (ops : List Op)
    (hc : ∀ t i r, Op.start t i r ∈ ops → Connected peers channels t)
    (hs : ∀ pre post, ops = pre ++ .shutdown :: post → started post = [])
    (o : Outcome Client) (hr : run k (newClient peers channels) ops = some o) : ∃ c, o = .ok c := by
  have main : ∀ (ops : List Op) (c : Client), run k c ops = some o →
      (started ops ≠ [] → c.peers = peers ∧ c.channels = channels ∧ c.stopped = false) →
      (∀ t i r, Op.start t i r ∈ ops → Connected peers channels t) →
      (∀ pre post, ops = pre ++ .shutdown :: post → started post = []) → ∃ c, o = .ok c := by
    intro ops
    induction ops with
    | nil => intro c hr _ _ _; simp only [run, Option.some.injEq] at hr; exact ⟨c, hr.symm⟩
    | cons op ops ih =>
      intro c hr hst hc hs
      have next : ∀ c', step k c op = some (.ok c') →
          (started ops ≠ [] → c'.peers = peers ∧ c'.channels = channels ∧ c'.stopped = false) →
          ∃ c, o = .ok c := by
        intro c' hc' hst'
        simp only [run, hc'] at hr
        exact ih c' hr hst' (fun t i r h => hc t i r (List.mem_cons_of_mem _ h))
          (fun pre post h => hs (op :: pre) post (by simp [h]))
      cases op with
      | start t i r =>
        have hst0 := hst (by simp [started])
        clear hst
        have hu : useTarget k c t = .ok () := by
          have := hc t i r (by simp)
          cases t with
          | peer j =>
            obtain ⟨n, rfl, hn⟩ := this
            simp only [useTarget, stub, hst0.1]
            rw [if_neg (by omega)]
            simp [hn]
          | channel j =>
            obtain ⟨n, rfl, hn⟩ := this
            simp only [useTarget, stub, hst0.2.1]
            rw [if_neg (by omega)]
            simp [hn, Outcome.bind, hst0.2.2]
        by_cases hfree : i ∈ c.calls.map Call.caller ∨ i ∈ c.ended.map (fun e => e.1.caller)
        · simp only [run, step] at hr
          rw [if_pos hfree] at hr
          simp at hr
        · refine next _ (by simp only [step]; rw [if_neg hfree, hu]; exact rfl) ?_
          exact fun _ => hst0
      | finish id e =>
        cases hx : c.calls.find? (fun x => x.id == id) with
        | none => simp [run, step, hx] at hr
        | some x =>
          refine next _ (by simp only [step, hx]; exact rfl) ?_
          exact fun h => hst (by simpa [started] using h)
      | callback id =>
        by_cases hk : k = .polling ∧ c.running ≠ []
        · simp only [run, step] at hr
          rw [if_pos hk] at hr
          simp at hr
        · cases hx : c.ended.find? (fun x => x.1.id == id) with
          | none =>
            simp only [run, step] at hr
            rw [if_neg hk] at hr
            simp [hx] at hr
          | some x =>
            refine next _ (by simp only [step]; rw [if_neg hk, hx]) ?_
            exact fun h => hst (by simpa [started] using h)
      | returned id =>
        by_cases hk : id ∈ c.running
        · refine next _ (by simp only [step]; rw [if_pos hk]) ?_
          exact fun h => hst (by simpa [started] using h)
        · simp [run, step, hk] at hr
      | shutdown =>
        by_cases hk : c.pending = 0
        · refine next _ (by simp only [step]; rw [if_pos hk]) ?_
          exact fun h => absurd (hs [] ops rfl) h
        · simp [run, step, hk] at hr
  exact main ops _ hr (fun _ => ⟨rfl, rfl, rfl⟩) hc hs

example : ∀ t i r, Op.start t i r ∈ someOps → Connected [true] [true] t := by
  simp only [someOps, List.mem_cons, List.not_mem_nil, Op.start.injEq]
  rintro t i r h
  have : t = .peer 0 ∨ t = .channel 0 := by
    rcases h with h | h | h | h | h | h | h | h | h | h | h | h | h <;> simp_all
  rcases this with rfl | rfl
  · exact ⟨0, rfl, rfl⟩
  · exact ⟨0, rfl, rfl⟩

/-- The lists of stubs of the channels never change. -/
theorem run_channels {k : ClientKind} {c d : Client} {ops : List Op} (h : run k c ops = some (.ok d)) :
    d.channels = c.channels := by
  induction ops generalizing c with
  | nil => cases h; rfl
  | cons op ops ih =>
    rw [run] at h
    split at h
    · next c' hs =>
      rw [ih h]
      cases op with
      | start t i r =>
        simp only [step] at hs
        split at hs
        · cases hs
        · cases ht : useTarget k c t <;> simp [ht, Outcome.bind] at hs
          subst hs
          rfl
      | finish id e =>
        simp only [step] at hs
        split at hs <;> cases hs
        rfl
      | callback id =>
        simp only [step] at hs
        split at hs
        · cases hs
        · split at hs <;> cases hs
          rfl
      | returned id =>
        simp only [step] at hs
        split at hs <;> cases hs
        rfl
      | shutdown =>
        simp only [step] at hs
        split at hs <;> cases hs
        rfl
    all_goals cases h

/-- What the second condition is for: right after `ShutdownClient` an RPC to a peer that was connected aborts
the process, and one over a channel is undefined with the polling client; the callback client still sends
it. -/
theorem C160_after_shutdown (k : ClientKind) (peers channels : List Bool) (ops : List Op) (c : Client)
    (h : run k (newClient peers channels) (ops ++ [.shutdown]) = some (.ok c)) (i : Nat) (r : Request) :
    (∀ j : Int, run k (newClient peers channels) (ops ++ [.shutdown] ++ [.start (.peer j) i r]) = some .crash) ∧
    (∀ j : Int, Connected peers channels (.channel j) →
      (k = .polling → run k (newClient peers channels) (ops ++ [.shutdown] ++ [.start (.channel j) i r]) = some .ub) ∧
      (k = .callback → ∃ d, run k (newClient peers channels) (ops ++ [.shutdown] ++ [.start (.channel j) i r])
        = some (.ok d))) := by
  have hch : c.channels = channels := run_channels h
  obtain ⟨m, hm, hs⟩ := run_append_ok h
  have hi := inv_run (inv_new peers channels) hm
  have hpend : m.pending = 0 ∧ c = { m with peers := [], stopped := true } := by
    rw [run, step] at hs
    by_cases hk : m.pending = 0
    · rw [if_pos hk] at hs
      simp only [run] at hs
      cases hs
      exact ⟨hk, rfl⟩
    · rw [if_neg hk] at hs; cases hs
  have hp := hi.pending
  have hcalls : m.calls = [] := List.length_eq_zero_iff.1 (by omega)
  have hended : m.ended = [] := List.length_eq_zero_iff.1 (by omega)
  obtain ⟨_, hc⟩ := hpend
  have hfree : ¬ (i ∈ c.calls.map Call.caller ∨ i ∈ c.ended.map (fun e => e.1.caller)) := by
    rw [hc]
    simp [hcalls, hended]
  refine ⟨fun j => ?_, fun j hj => ⟨fun hk => ?_, fun hk => ?_⟩⟩
  · rw [run_append, h]
    dsimp only
    rw [run, step, if_neg hfree]
    have : useTarget k c (.peer j) = .crash := by
      rw [hc]
      simp only [useTarget, stub]
      split <;> simp
    rw [this]
    rfl
  all_goals
    obtain ⟨n, rfl, hn⟩ := hj
    rw [run_append, h]
    dsimp only
    rw [run, step, if_neg hfree]
    have hst : stub c.channels n = .ok () := by
      rw [hch]
      simp only [stub]
      rw [if_neg (by omega), Int.toNat_natCast, hn]
      rfl
  · have : useTarget k c (.channel n) = .ub := by
      simp only [useTarget, hst, Outcome.bind]
      rw [if_pos ⟨hk, by rw [hc]⟩]
    rw [this]
    rfl
  · have : useTarget k c (.channel n) = .ok () := by
      simp only [useTarget, hst, Outcome.bind]
      rw [if_neg (by rw [hk]; simp)]
    rw [this]
    exact ⟨_, rfl⟩

example : run .polling (newClient [true] [true]) ([.shutdown] ++ [.start (.channel 0) 3 ⟨0, true⟩]) = some .ub :=
  ((C160_after_shutdown .polling [true] [true] [] _ rfl 3 ⟨0, true⟩).2 0 ⟨0, rfl, rfl⟩).1 rfl

end Grpc

end Distbench
