import Verif.Lemmas.NodeHistory
import Verif.Props.Drivers

/-! Properties of the node manager. -/

namespace Distbench.Node
open Distbench.Drivers Distbench.Services Distbench.Spec

/-! ### Concrete histories -/

/-- Makes the calls one after the other, if each of them returns. -/
def play (p : Process) : List Op → Option (List Reply × Process)
  | [] => some ([], p)
  | op :: rest =>
    match step p op with
    | some (.ok (r, p')) => (play p' rest).map fun q => (r :: q.1, q.2)
    | _ => none

theorem play_from {h : List (Op × Reply)} {ops : List Op} : ∀ {p : Process} {rs : List Reply} {p' : Process},
    Reached h p → play p ops = some (rs, p') → Reached (h ++ ops.zip rs) p' := by
  induction ops generalizing h with
  | nil =>
    intro p rs p' hr hp
    simp only [play] at hp
    cases hp
    simpa using hr
  | cons op rest ih =>
    intro p rs p' hr hp
    simp only [play] at hp
    split at hp
    · rename_i r p1 hs
      cases hq : play p1 rest with
      | none => rw [hq] at hp; cases hp
      | some q =>
        rw [hq] at hp
        simp only [Option.map, Option.some.injEq, Prod.mk.injEq] at hp
        obtain ⟨rfl, rfl⟩ := hp
        have := ih (.step hr hs) (rs := q.1) (p' := q.2) (by rw [hq])
        simpa [List.append_assoc] using this
    · cases hp

theorem play_reached {ops : List Op} {rs : List Reply} {p' : Process} (h : play {} ops = some (rs, p')) :
    Reached (ops.zip rs) p' := by
  simpa using play_from .start h

/-- A call found in a history was made in some state and returned that reply. -/
theorem reached_call {h : List (Op × Reply)} {p : Process} (hr : Reached h p) :
    ∀ x ∈ h, ∃ q q', step q x.1 = some (.ok (x.2, q')) := by
  induction hr with
  | start => intro x hx; cases hx
  | step _ hs ih =>
    intro x hx
    rcases List.mem_append.1 hx with hx | hx
    · exact ih x hx
    · simp only [List.mem_singleton] at hx; subst hx; exact ⟨_, _, hs⟩

/-- Everything outside succeeds. -/
def sampleWorld : World where
  extra := []
  init := fun _ _ => .ok ()
  netdev := "eth0".toList
  start := fun _ => .ok ()
  socket := fun _ => .ok ()

/-- Two service types over grpc, the first with an action list. -/
def sampleConfig : Config where
  drivers := { services := [⟨"client".toList, none⟩, ⟨"server".toList, none⟩], table := [] }
  protocol := "grpc".toList
  maxThreads := 10
  lists := ["client".toList]

def sampleServices : List Str := ["client/0".toList, "server/0".toList]

/-- `ConnectToPeers` succeeds. -/
def connects : Str → Outcome Unit := fun _ => .ok ()

def samplePeers : List (Str × Str) := [("client/0".toList, "h:1".toList), ("server/0".toList, "h:2".toList)]

/-! ### C166: the services of a node are those of its last configuration -/

/-- Whatever calls were made, a node's service instances have distinct names, all come from the
last configuration request that was not turned down for its thread limit, run with that
configuration and no other, and nothing has ended the services since. -/
theorem C166_services {h : List (Op × Reply)} {p : Process} (hr : Reached h p) {i : Nat} {nd : Node}
    (hn : p.node i = some nd) :
    (nd.engines.map (·.1)).Nodup ∧
      ∀ name e, (name, e) ∈ nd.engines → ∃ pre w c s r post, h = pre ++ (.configure i w c s, r) :: post ∧
        0 < c.maxThreads ∧ (∀ x ∈ post, ¬ EndsServices i x.1) ∧
        name ∈ s ∧ e.config = c ∧ IsTypeOf name e.serviceType := by
  refine ⟨((reached_inv hr).1 i nd hn).1, ?_⟩
  intro name e he
  obtain ⟨start, post, ha⟩ := after_exists i h
  obtain ⟨w, c, s, r, rfl, h1, h2, h3⟩ := (fact_of hr hn he ha).made
  obtain ⟨hno, hend, pre, hh⟩ := ha
  refine ⟨pre, w, c, s, r, post, hh, ?_, hno, h1, h2, h3⟩
  rcases hend with ⟨_, _, _, heq, hc⟩ | heq
  · cases heq; exact hc
  · cases heq

/-- After a configuration request that succeeded, and as long as nothing ends the services, every
service instance of the request is there. -/
theorem C166_all {pre post : List (Op × Reply)} {i : Nat} {w : World} {c : Config} {s : List Str} {r : Reply}
    {p : Process} (hr : Reached (pre ++ (.configure i w c s, r) :: post) p) (hok : r.error = none)
    (hno : ∀ x ∈ post, ¬ EndsServices i x.1) {nd : Node} (hn : p.node i = some nd) :
    ∀ name ∈ s, ∃ e, (name, e) ∈ nd.engines := by
  obtain ⟨q, q', hs⟩ := reached_call hr (.configure i w c s, r) (by simp)
  have hc : 0 < c.maxThreads := by
    by_cases hc : 0 < c.maxThreads
    · exact hc
    · obtain ⟨n, hn⟩ := step_exists hs i (fun h => h rfl)
      simp only [step, hn, Option.map, Option.some.injEq] at hs
      rw [(configure_rejected hs hc).1] at hok
      cases hok
  have ha : After i (pre ++ (.configure i w c s, r) :: post) (some (.configure i w c s, r)) post :=
    ⟨hno, .inl ⟨w, c, s, rfl, hc⟩, pre, rfl⟩
  intro name hname
  have := (((reached_inv hr).1 i nd hn).2 _ _ ha).2.1 w c s r rfl hok name hname
  obtain ⟨x, hx, rfl⟩ := List.mem_map.1 this
  exact ⟨x.2, hx⟩

/-- A request turned down for its thread limit leaves the services as they are. -/
theorem C166_rejected {p p' : Process} {i : Nat} {w : World} {c : Config} {s : List Str} {r : Reply}
    (hs : step p (.configure i w c s) = some (.ok (r, p'))) (hc : c.maxThreads ≤ 0) :
    r.error ≠ none ∧ ∀ j, (p'.node j).map (·.engines) = (p.node j).map (·.engines) := by
  obtain ⟨n, hn⟩ := step_exists hs i (fun h => h rfl)
  simp only [step, hn, Option.map, Option.some.injEq] at hs
  obtain ⟨rfl, rfl⟩ := configure_rejected hs (by omega)
  refine ⟨(fun h => by cases h), ?_⟩
  intro j
  rw [node_set hn]
  by_cases hj : j = i
  · subst hj; simp [hn]
  · rw [if_neg hj]

theorem configureLoop_failed {resolve : Option (Str → Outcome Options)} {w : World} {c : Config} {m : String} :
    ∀ {s : List Str} {es es' : List (Str × Engine)}, configureLoop resolve w c s es = .ok (some m, es') →
      ∃ before name after, s = before ++ name :: after ∧
        (∀ k, k ∈ es'.map (·.1) → k ∈ es.map (·.1) ∨ k ∈ before ∨ k = name) ∧
        (∀ k ∈ es.map (·.1), k ∈ es'.map (·.1)) ∧ ∀ k ∈ before, k ∈ es'.map (·.1) := by
  intro s
  induction s with
  | nil => intro es es' h; simp only [configureLoop] at h; cases h
  | cons name rest ih =>
    intro es es' h
    have keep : ∀ (e : Engine), ∀ n ∈ es.map (·.1), n ∈ (put es name e).map (·.1) := by
      intro e n hm
      obtain ⟨x, hx, rfl⟩ := List.mem_map.1 hm
      by_cases hxn : x.1 = name
      · exact List.mem_map.2 ⟨(name, e), mem_put.2 (.inl rfl), hxn.symm⟩
      · exact List.mem_map.2 ⟨x, mem_put.2 (.inr ⟨hx, hxn⟩), rfl⟩
    have back : ∀ (e : Engine), ∀ k ∈ (put es name e).map (·.1), k ∈ es.map (·.1) ∨ k = name := by
      intro e k hk
      obtain ⟨x, hx, rfl⟩ := List.mem_map.1 hk
      rcases mem_put.1 hx with rfl | hx
      · exact .inr rfl
      · exact .inl (List.mem_map.2 ⟨x, hx.1, rfl⟩)
    simp only [configureLoop] at h
    split at h
    · cases h
    · split at h
      · split at h
        · rename_i e _
          split at h
          · obtain ⟨before, bad, after, rfl, h1, h2, h3⟩ := ih h
            refine ⟨name :: before, bad, after, rfl, ?_, fun k hk => h2 k (keep e k hk), ?_⟩
            · intro k hk
              rcases h1 k hk with hk | hk | hk
              · rcases back e k hk with hk | hk
                · exact .inl hk
                · exact .inr (.inl (by simp [hk]))
              · exact .inr (.inl (by simp [hk]))
              · exact .inr (.inr hk)
            · intro k hk
              rcases List.mem_cons.1 hk with rfl | hk
              · exact h2 _ (List.mem_map.2 ⟨(_, e), mem_put.2 (.inl rfl), rfl⟩)
              · exact h3 k hk
          · cases h
            refine ⟨[], name, rest, rfl, ?_, keep e, fun k hk => by cases hk⟩
            intro k hk
            rcases back e k hk with hk | hk
            · exact .inl hk
            · exact .inr (.inr hk)
          · cases h
          · cases h
        · cases h
          exact ⟨[], name, rest, rfl, fun k hk => .inl hk, fun k hk => hk, fun k hk => by cases hk⟩
        · cases h
        · cases h
      · cases h
      · cases h
      · cases h

/-- A request that fails at one of its services leaves those before it running, none after it,
and none of the earlier configuration. -/
theorem C166_failed {p p' : Process} {i : Nat} {w : World} {c : Config} {s : List Str} {r : Reply} {nd : Node}
    (hs : step p (.configure i w c s) = some (.ok (r, p'))) (hc : 0 < c.maxThreads) (he : r.error ≠ none)
    (hn : p'.node i = some nd) :
    ∃ before name after, s = before ++ name :: after ∧
      (∀ k ∈ nd.engines.map (·.1), k ∈ before ∨ k = name) ∧ ∀ k ∈ before, k ∈ nd.engines.map (·.1) := by
  obtain ⟨n, hn0⟩ := step_exists hs i (fun h => h rfl)
  simp only [step, hn0, Option.map, Option.some.injEq] at hs
  obtain ⟨es, hl, rfl⟩ := configure_reply hs hc
  rw [node_set hn0] at hn
  simp only [if_true, Option.some.injEq] at hn
  subst hn
  cases hm : r.error with
  | none => exact absurd hm he
  | some m =>
    rw [hm] at hl
    obtain ⟨before, name, after, h1, h2, _, h4⟩ := configureLoop_failed hl
    refine ⟨before, name, after, h1, ?_, h4⟩
    intro k hk
    rcases h2 k hk with hk | hk
    · simp at hk
    · exact hk

def sampleOps : List Op :=
  [.create, .configure 0 sampleWorld sampleConfig sampleServices, .introduce 0 connects samplePeers, .run 0]

example : (play {} sampleOps).map (fun q => (q.1.map (fun r => (r.error, r.started)),
      (q.2.node 0).map fun n => n.engines.map (·.1))) =
    some ([(none, []), (none, []), (none, []), (none, ["client/0".toList])], some sampleServices) := by
  decide +kernel

/-! ### C167: aliases are resolved with the configuration of the node -/

/-- Every driver made for a service of the request is the one that the request's own options
describe. -/
def OwnAliases (w : World) (c : Config) (nd : Node) : Prop :=
  ∀ name e, (name, e) ∈ nd.engines → ∃ t o, IsTypeOf name t ∧
    optionsFor c.drivers t c.protocol w.netdev = .ok o ∧
    Built ⟨w.extra, some (resolveAlias c.drivers.table), w.init⟩ o e.driver

/-- A configuration in which the services use the alias `fast`, which stands for grpc on a device. -/
def aliasConfig (device : Str) : Config where
  drivers := { services := [⟨"client".toList, none⟩],
               table := [{ name := some "fast".toList, protocol := some "grpc".toList, netdev := some device }] }
  protocol := "fast".toList
  maxThreads := 10
  lists := []

def aliasOps : List Op :=
  [.create, .create, .configure 1 sampleWorld (aliasConfig "eth1".toList) ["client/1".toList],
   .configure 0 sampleWorld (aliasConfig "eth2".toList) ["client/0".toList]]

/-- The driver that node 0 gets: the device of the other node's configuration. -/
theorem alias_run : (play {} aliasOps).map (fun q => (q.1.map (·.error),
      (q.2.node 0).map fun n => n.engines.map fun x => (x.1, x.2.driver))) =
    some ([none, none, none, none], some [("client/0".toList,
      .leaf { name := some "fast".toList, protocol := some "grpc".toList, netdev := some "eth1".toList })]) := by
  decide +kernel

theorem aliasOptions : optionsFor (aliasConfig "eth2".toList).drivers "client".toList "fast".toList "eth0".toList =
    .ok { name := some "generated_default".toList, protocol := some "fast".toList, netdev := some "eth0".toList } := by
  decide +kernel

/-- The options behind the alias in each configuration. -/
def fastOptions (device : Str) : Options where
  name := some "fast".toList
  protocol := some "grpc".toList
  netdev := some device

/-- The full property: right after a request, whatever happened before, the drivers are those of
the request. -/
def AliasesAreOwn : Prop :=
  ∀ h i w c s r p nd, Reached (h ++ [(.configure i w c s, r)]) p → 0 < c.maxThreads → p.node i = some nd →
    OwnAliases w c nd

/-- Of two node managers in a process, configured one after the other with success, the first gets
drivers that its own configuration does not describe. -/
theorem C167_negation : ¬ AliasesAreOwn := by
  intro hall
  have hrun := alias_run
  cases hp : play {} aliasOps with
  | none => rw [hp] at hrun; cases hrun
  | some q =>
    rw [hp] at hrun
    simp only [Option.map, Option.some.injEq, Prod.mk.injEq] at hrun
    obtain ⟨herr, hnode⟩ := hrun
    cases hnd : q.2.node 0 with
    | none => rw [hnd] at hnode; cases hnode
    | some nd =>
      rw [hnd] at hnode
      simp only [Option.some.injEq] at hnode
      have hex : ∃ e, ("client/0".toList, e) ∈ nd.engines ∧ e.driver = .leaf (fastOptions "eth1".toList) := by
        have : ("client/0".toList, Driver.leaf (fastOptions "eth1".toList)) ∈
            nd.engines.map fun x => (x.1, x.2.driver) := by rw [hnode]; exact List.mem_singleton.2 rfl
        obtain ⟨x, hx, hxe⟩ := List.mem_map.1 this
        simp only [Prod.mk.injEq] at hxe
        exact ⟨x.2, by rw [← hxe.1]; exact hx, hxe.2⟩
      have hre := play_reached hp
      have hl : q.1.length = 4 := by simpa using congrArg List.length herr
      have hown : OwnAliases sampleWorld (aliasConfig "eth2".toList) nd := by
        match hq1 : q.1, hl with
        | [a, b, c, d], _ =>
          rw [hq1] at hre
          exact hall [(.create, a), (.create, b),
            (.configure 1 sampleWorld (aliasConfig "eth1".toList) ["client/1".toList], c)] 0 sampleWorld
            (aliasConfig "eth2".toList) ["client/0".toList] d q.2 nd hre (by decide) hnd
      obtain ⟨e, he, hd⟩ := hex
      obtain ⟨t, o, ht, ho, hb⟩ := hown _ e he
      have ht' : t = "client".toList := by rw [isTypeOf_firstPart ht]; decide
      subst ht'
      have : optionsFor (aliasConfig "eth2".toList).drivers "client".toList "fast".toList "eth0".toList = .ok o := ho
      rw [aliasOptions] at this
      cases this
      rw [hd] at hb
      have hb2 : Built ⟨sampleWorld.extra, some (resolveAlias (aliasConfig "eth2".toList).drivers.table), sampleWorld.init⟩
          { name := some "generated_default".toList, protocol := some "fast".toList, netdev := some "eth0".toList }
          (.leaf (fastOptions "eth2".toList)) := by
        refine C135_built _ _ _ 5 ?_
        decide +kernel
      have heq := C135_unique _ _ _ _ hb hb2
      exact absurd heq (by decide)

theorem newest_resolver {h : List (Op × Reply)} {p : Process} (hr : Reached h p) :
    (h.filter fun x => match x.1 with | .create => true | _ => false).length = p.nodes.length ∧
      ∀ i, Newest i h → p.resolver = some i := by
  induction hr with
  | start =>
    refine ⟨rfl, ?_⟩
    rintro i ⟨before, r, after, h, _⟩
    cases before <;> cases h
  | @step h p op r p' _ hs ih =>
    obtain ⟨hlen, hres⟩ := step_length hs
    refine ⟨?_, ?_⟩
    · rw [List.filter_append, List.length_append, ih.1, hlen, Nat.add_comm]
      congr 1
      cases op <;> rfl
    · rintro i ⟨before, r0, after, heq, hcount, hno⟩
      rcases split_last heq with ⟨rfl, hx, rfl⟩ | ⟨after', rfl, rfl⟩
      · cases hx
        simp only at hres
        rw [hres, ← ih.1]; exact congrArg some hcount
      · have hop := hno (op, r) (by simp)
        have hp := ih.2 i ⟨before, r0, after', rfl, hcount, fun y hy => hno y (by simp [hy])⟩
        rw [hres]
        cases op with
        | create => exact absurd rfl hop.1
        | destroy j => exact absurd rfl (hop.2 j)
        | _ => exact hp

/-- For the node manager created last in the process, with none destroyed since, the drivers are
those of the request.  Missing: a process with several node managers. -/
theorem C167_aliases_partial {h : List (Op × Reply)} {i : Nat} {w : World} {c : Config} {s : List Str} {r : Reply}
    {p : Process} {nd : Node} (hr : Reached (h ++ [(.configure i w c s, r)]) p) (hc : 0 < c.maxThreads)
    (hn : p.node i = some nd) (hnew : Newest i h) : OwnAliases w c nd := by
  generalize hh : h ++ [(Op.configure i w c s, r)] = hist at hr
  cases hr with
  | start => cases h <;> cases hh
  | @step h' q op r' p' hq hs =>
    have := List.append_inj' hh rfl
    obtain ⟨rfl, hx⟩ := this
    simp only [List.cons.injEq, and_true, Prod.mk.injEq] at hx
    obtain ⟨rfl, rfl⟩ := hx
    have hres := (newest_resolver hq).2 i hnew
    obtain ⟨n, hn0⟩ := step_exists hs i (fun h => h rfl)
    simp only [step, hn0, Option.map, Option.some.injEq] at hs
    obtain ⟨es, hl, rfl⟩ := configure_reply hs hc
    rw [node_set hn0] at hn
    simp only [if_true, Option.some.injEq] at hn
    subst hn
    have hrs : (q.set i { n with config := c }).resolve = some (resolveAlias c.drivers.table) := by
      unfold Process.resolve
      rw [show (q.set i { n with config := c }).resolver = some i from hres]
      simp only [Option.map, node_set hn0, if_true]
    rw [hrs] at hl
    intro name e he
    rcases (configureLoop_ok hl (by simp)).2.2.1 (name, e) he with hm | ⟨_, hsl, hal⟩
    · cases hm
    · obtain ⟨o, d, ho, ha, hd⟩ := allocService_ok hal
      refine ⟨firstPart name, o, firstPart_spec hsl, ho, ?_⟩
      dsimp only at hd
      rw [hd]
      exact C135_built _ _ _ 5 ha

example : (play {} [.create, .configure 0 sampleWorld (aliasConfig "eth2".toList) ["client/0".toList]]).map
    (fun q => (q.2.node 0).map fun n => n.engines.map fun x => (x.1, x.2.driver)) =
    some (some [("client/0".toList, .leaf (fastOptions "eth2".toList))]) := by decide +kernel

/-! ### C168: traffic starts on all services of a node or on none -/

/-- The full property. -/
def AllOrNothing : Prop :=
  ∀ h p i r p', Reached h p → step p (.run i) = some (.ok (r, p')) → r.error = none ∨ r.started = []

/-- The first service cannot connect to its peers. -/
def refuses : Str → Outcome Unit := fun name =>
  if name = "client/0".toList then .error "unreachable" else .ok ()

def halfOps : List Op :=
  [.create, .configure 0 sampleWorld sampleConfig sampleServices, .introduce 0 refuses samplePeers]

theorem half_run : (play {} (halfOps ++ [.run 0])).map (fun q => q.1.map fun r => (r.error, r.started)) =
    some [(none, []), (none, []), (some "unreachable", []), (some runFailure, ["client/0".toList])] := by
  decide +kernel

theorem play_last {ops : List Op} {op : Op} {rs : List Reply} {p' : Process} :
    ∀ {p : Process}, play p (ops ++ [op]) = some (rs, p') →
      ∃ rs' r q, play p ops = some (rs', q) ∧ step q op = some (.ok (r, p')) ∧ rs = rs' ++ [r] := by
  induction ops generalizing rs with
  | nil =>
    intro p h
    simp only [List.nil_append, play] at h
    split at h
    · rename_i r p1 hs
      simp only [play, Option.map, Option.some.injEq, Prod.mk.injEq] at h
      obtain ⟨rfl, rfl⟩ := h
      exact ⟨[], r, p, rfl, hs, rfl⟩
    · cases h
  | cons a rest ih =>
    intro p h
    simp only [List.cons_append, play] at h
    split at h
    · rename_i r p1 hs
      cases hq : play p1 (rest ++ [op]) with
      | none => rw [hq] at h; cases h
      | some q =>
        rw [hq] at h
        simp only [Option.map, Option.some.injEq, Prod.mk.injEq] at h
        obtain ⟨rfl, rfl⟩ := h
        obtain ⟨rs', r', q', h1, h2, h3⟩ := ih (rs := q.1) (p := p1) (by rw [hq])
        refine ⟨r :: rs', r', q', ?_, h2, by rw [h3]; rfl⟩
        simp only [play, hs, h1, Option.map]
    · cases h

/-- After an introduction of peers that failed, traffic starts on one service and not on another. -/
theorem C168_negation : ¬ AllOrNothing := by
  intro hall
  have hrun := half_run
  cases hp : play {} (halfOps ++ [.run 0]) with
  | none => rw [hp] at hrun; cases hrun
  | some q =>
    rw [hp] at hrun
    simp only [Option.map, Option.some.injEq] at hrun
    obtain ⟨rs', r, q', h1, h2, h3⟩ := play_last (rs := q.1) (p' := q.2) hp
    rw [h3, List.map_append, List.map_cons, List.map_nil] at hrun
    have hl := (List.append_inj' (t₁ := [(r.error, r.started)])
      (s₂ := [(none, []), (none, []), (some "unreachable", [])])
      (t₂ := [(some runFailure, ["client/0".toList])]) hrun rfl).2
    simp only [List.cons.injEq, Prod.mk.injEq, and_true] at hl
    rcases hall _ _ _ _ _ (play_reached h1) h2 with h | h
    · rw [hl.1] at h; cases h
    · rw [hl.2] at h; cases h

/-- If the last introduction of peers succeeded and no earlier attempt to run traffic failed, since
the node was configured, then running traffic succeeds, starts each service of the configuration
that has an action list of its name exactly once, and starts nothing else.  Missing: what happens
after a failure. -/
theorem C168_run_partial {h : List (Op × Reply)} {p : Process} (hr : Reached h p) {i : Nat} {nd : Node}
    (hn : p.node i = some nd) {w : World} {c : Config} {s : List Str} {r0 : Reply} {post : List (Op × Reply)}
    (ha : After i h (some (.configure i w c s, r0)) post) (hok : r0.error = none)
    (hk : KnowsPeers i post) (hf : ¬ RunFailed i post) :
    ∃ r p', step p (.run i) = some (.ok (r, p')) ∧ r.error = none ∧ r.started.Nodup ∧
      ∀ name, name ∈ r.started ↔ name ∈ s ∧ ∃ t ∈ c.lists, IsTypeOf name t := by
  have hjoin : ∀ x ∈ nd.engines, x.2.joinable = false := by
    intro x hx
    cases hj : x.2.joinable with
    | false => rfl
    | true => exact absurd ((fact_of hr hn (n := x.1) (e := x.2) hx ha).join hj) hf
  have hpeers : ∀ x ∈ nd.engines, x.2.peers ≠ [] :=
    fun x hx => (fact_of hr hn (n := x.1) (e := x.2) hx ha).peers hk
  obtain ⟨es', hl⟩ := startLoop_all hjoin hpeers
  have hrun : runTraffic nd = .ok ({ started := (nd.engines.filter fun x =>
      decide (x.2.serviceType ∈ x.2.config.lists)).map (·.1) }, { nd with engines := finish es' }) := by
    simp only [runTraffic, hl, Outcome.bind, if_true]
  refine ⟨_, _, by simp only [step, hn, Option.map, hrun, Outcome.bind]; rfl, rfl, ?_, ?_⟩
  · exact List.Nodup.sublist (List.Sublist.map _ List.filter_sublist) ((reached_inv hr).1 i nd hn).1
  · intro name
    dsimp only
    constructor
    · intro hm
      obtain ⟨x, hx, rfl⟩ := List.mem_map.1 hm
      obtain ⟨hx1, hx2⟩ := List.mem_filter.1 hx
      obtain ⟨w', c', s', r', hst, h1, h2, h3⟩ := (fact_of hr hn (n := x.1) (e := x.2) hx1 ha).made
      simp only [Option.some.injEq, Prod.mk.injEq, Op.configure.injEq] at hst
      obtain ⟨⟨_, _, rfl, rfl⟩, _⟩ := hst
      refine ⟨h1, x.2.serviceType, ?_, h3⟩
      rw [← h2]
      simpa using hx2
    · rintro ⟨hs, t, ht, htype⟩
      have := (((reached_inv hr).1 i nd hn).2 _ _ ha).2.1 w c s r0 rfl hok name hs
      obtain ⟨x, hx, rfl⟩ := List.mem_map.1 this
      obtain ⟨w', c', s', r', hst, h1, h2, h3⟩ := (fact_of hr hn (n := x.1) (e := x.2) hx ha).made
      simp only [Option.some.injEq, Prod.mk.injEq, Op.configure.injEq] at hst
      obtain ⟨⟨_, _, rfl, rfl⟩, _⟩ := hst
      refine List.mem_map.2 ⟨x, List.mem_filter.2 ⟨hx, ?_⟩, rfl⟩
      rw [h2, isTypeOf_firstPart h3, ← isTypeOf_firstPart htype]
      simpa using ht

/-! ### C169: running traffic does not abort the process -/

/-- The full property. -/
def NeverAborts : Prop := ∀ h p i, Reached h p → step p (.run i) ≠ some .crash

theorem abort_run : ((play {} (halfOps ++ [.run 0])).bind fun q =>
    (step q.2 (.run 0)).map fun o => o.bind fun r => .ok r.1) = some .crash := by
  decide +kernel

/-- Asking again to run traffic, after it failed because peers were not introduced everywhere,
ends the whole process. -/
theorem C169_negation : ¬ NeverAborts := by
  intro hall
  have hrun := abort_run
  cases hp : play {} (halfOps ++ [.run 0]) with
  | none => rw [hp] at hrun; cases hrun
  | some q =>
    rw [hp] at hrun
    simp only [Option.bind] at hrun
    have := hall _ _ 0 (play_reached (rs := q.1) (p' := q.2) hp)
    cases hs : step q.2 (.run 0) with
    | none => rw [hs] at hrun; cases hrun
    | some o =>
      rw [hs] at hrun this
      cases o with
      | crash => exact this rfl
      | ok r => simp [Option.map, Outcome.bind] at hrun
      | error m => simp [Option.map, Outcome.bind] at hrun
      | ub => simp [Option.map, Outcome.bind] at hrun

/-- If no attempt to run traffic failed since the services were made, the request returns, with or
without an error.  Missing: a request after one that failed. -/
theorem C169_returns_partial {h : List (Op × Reply)} {p : Process} (hr : Reached h p) {i : Nat} {nd : Node}
    (hn : p.node i = some nd) {start : Option (Op × Reply)} {post : List (Op × Reply)} (ha : After i h start post)
    (hf : ¬ RunFailed i post) : ∃ r p', step p (.run i) = some (.ok (r, p')) := by
  have hjoin : ∀ x ∈ nd.engines, x.2.joinable = false := by
    intro x hx
    cases hj : x.2.joinable with
    | false => rfl
    | true => exact absurd ((fact_of hr hn (n := x.1) (e := x.2) hx ha).join hj) hf
  obtain ⟨r, hl⟩ := startLoop_runs hjoin
  have hrun : ∃ q, runTraffic nd = .ok q := by
    simp only [runTraffic, hl, Outcome.bind]
    split
    · exact ⟨_, rfl⟩
    · exact ⟨_, rfl⟩
  obtain ⟨q, hq⟩ := hrun
  exact ⟨q.1, p.set i q.2, by simp only [step, hn, Option.map, hq, Outcome.bind]⟩

example : (play {} (sampleOps ++ [.run 0, .run 0])).isSome = true := by decide +kernel

/-! ### C170: the results hold everything that was recorded -/

/-- The full property: a collection returns, for each service instance that recorded something
since it was made, an entry with all of it, and no other entries. -/
def ResultsComplete : Prop :=
  ∀ h p i clear r p' start post, Reached h p → step p (.collect i clear) = some (.ok (r, p')) →
    After i h start post → ∀ name records,
      (∃ l, (name, l) ∈ r.logs ∧ l.records = records) ↔
        records ≠ [] ∧ records = recordedBy i name post

def traceOps : List Op :=
  [.create, .configure 0 sampleWorld sampleConfig sampleServices, .record 0 "client/0".toList (.replay (some 7)),
   .collect 0 false]

theorem trace_run : (play {} (traceOps ++ [.collect 0 true])).map (fun q => q.1.map (·.logs)) =
    some [[], [], [], [("client/0".toList, ⟨none, [.replay (some 7)]⟩)],
      [("client/0".toList, ⟨none, [.replay none]⟩)]] := by decide +kernel

theorem recorded_iff {i : Nat} {name : Str} {r : Record} {post : List (Op × Reply)} :
    r ∈ recordedBy i name post ↔ ∃ x ∈ post, x.1 = .record i name r := by
  simp only [recordedBy, List.mem_filterMap]
  constructor
  · rintro ⟨⟨op, rep⟩, hx, he⟩
    refine ⟨(op, rep), hx, ?_⟩
    cases op with
    | record j n r' =>
      simp only at he
      split at he
      · rename_i hc; obtain ⟨rfl, rfl⟩ := hc; cases he; rfl
      · cases he
    | _ => cases he
  · rintro ⟨⟨op, rep⟩, hx, rfl⟩
    exact ⟨_, hx, by simp⟩

/-- A second collection returns replay traces with nothing in them. -/
theorem C170_negation : ¬ ResultsComplete := by
  intro hall
  have hrun := trace_run
  cases hp : play {} (traceOps ++ [.collect 0 true]) with
  | none => rw [hp] at hrun; cases hrun
  | some q =>
    rw [hp] at hrun
    simp only [Option.map, Option.some.injEq] at hrun
    obtain ⟨rs', r, q', h1, h2, h3⟩ := play_last (rs := q.1) (p' := q.2) hp
    rw [h3, List.map_append, List.map_cons, List.map_nil] at hrun
    have hl := (List.append_inj' (t₁ := [r.logs])
      (s₂ := [[], [], [], [("client/0".toList, ⟨none, [.replay (some 7)]⟩)]])
      (t₂ := [[("client/0".toList, ⟨none, [.replay none]⟩)]]) hrun rfl).2
    simp only [List.cons.injEq, and_true] at hl
    obtain ⟨start, post, ha⟩ := after_exists 0 (traceOps.zip rs')
    have hre := play_reached h1
    have := ((hall _ _ _ _ _ _ start post hre h2 ha "client/0".toList [.replay none]).1
      ⟨⟨none, [.replay none]⟩, by rw [hl]; exact List.mem_singleton.2 rfl, rfl⟩).2
    have hm : Record.replay none ∈ recordedBy 0 "client/0".toList post := by rw [← this]; simp
    obtain ⟨x, hx, hxe⟩ := recorded_iff.1 hm
    have hxh : x ∈ traceOps.zip rs' := by
      obtain ⟨_, hs⟩ := ha
      cases start with
      | none => rw [hs]; exact hx
      | some y =>
        obtain ⟨_, pre, heq⟩ := hs
        rw [heq]; simp [hx]
    obtain ⟨op, rep⟩ := x
    have := (List.of_mem_zip hxh).1
    simp only at hxe
    subst hxe
    simp [traceOps] at this

theorem mem_collectLogs {es : List (Str × Engine)} {name : Str} {l : Log} :
    (name, l) ∈ collectLogs es ↔ ∃ e, (name, e) ∈ es ∧ e.records ≠ [] ∧ l = getLog e := by
  simp only [collectLogs, List.mem_filterMap]
  constructor
  · rintro ⟨⟨n, e⟩, hx, he⟩
    dsimp only at he
    split at he
    · cases he
    · rename_i hne
      simp only [Option.some.injEq, Prod.mk.injEq] at he
      obtain ⟨rfl, rfl⟩ := he
      exact ⟨e, hx, hne, rfl⟩
  · rintro ⟨e, hx, hne, rfl⟩
    exact ⟨(name, e), hx, by dsimp only; exact if_neg hne⟩

theorem collectLogs_keys : ∀ es : List (Str × Engine),
    List.Sublist ((collectLogs es).map (·.1)) (es.map (·.1))
  | [] => .slnil
  | x :: rest => by
    have ih := collectLogs_keys rest
    unfold collectLogs at ih ⊢
    rw [List.filterMap_cons]
    split
    · exact .cons _ ih
    · rename_i y hy
      split at hy
      · cases hy
      · cases hy
        exact .cons_cons _ ih

/-- Every collection returns one entry for each service instance that recorded something since it
was made, and no others; the entry holds everything but the contents of replay traces.  If results
were not collected before, traces are included.  Missing: the traces of a second collection. -/
theorem C170_results_partial {h : List (Op × Reply)} {p p' : Process} (hr : Reached h p) {i : Nat} {clear : Bool}
    {r : Reply} (hs : step p (.collect i clear) = some (.ok (r, p'))) {start : Option (Op × Reply)}
    {post : List (Op × Reply)} (ha : After i h start post) :
    (r.logs.map (·.1)).Nodup ∧
    (∀ name l, (name, l) ∈ r.logs → l.records.length = (recordedBy i name post).length ∧
      l.records.filter (fun x => !isTrace x) = (recordedBy i name post).filter (fun x => !isTrace x)) ∧
    (∀ name, (∃ l, (name, l) ∈ r.logs) ↔ recordedBy i name post ≠ []) ∧
    ((∀ y ∈ post, y.1 ≠ .collect i false) → ∀ name l, (name, l) ∈ r.logs → l.records = recordedBy i name post) := by
  obtain ⟨nd, hn⟩ := step_exists hs i (fun h => h rfl)
  simp only [step, hn, Option.map, Option.some.injEq, Outcome.ok.injEq, Prod.mk.injEq] at hs
  obtain ⟨rfl, rfl⟩ := hs
  obtain ⟨hnd, hinv⟩ := (reached_inv hr).1 i nd hn
  obtain ⟨hf, _, hrec⟩ := hinv start post ha
  simp only [getTrafficResult]
  refine ⟨List.Nodup.sublist (collectLogs_keys _) hnd, ?_, ?_, ?_⟩
  · intro name l hm
    obtain ⟨e, he, _, rfl⟩ := mem_collectLogs.1 hm
    exact ⟨(hf name e he).count, (hf name e he).kept⟩
  · intro name
    constructor
    · rintro ⟨l, hm⟩
      obtain ⟨e, he, hne, rfl⟩ := mem_collectLogs.1 hm
      have := (hf name e he).count
      intro hnil
      rw [hnil] at this
      exact hne (List.length_eq_zero_iff.1 this)
    · intro hne
      obtain ⟨x, hx, rfl⟩ := List.mem_map.1 (hrec name hne)
      refine ⟨getLog x.2, mem_collectLogs.2 ⟨x.2, hx, ?_, rfl⟩⟩
      intro hnil
      have := (hf x.1 x.2 hx).count
      rw [hnil] at this
      exact hne (List.length_eq_zero_iff.1 this.symm)
  · intro hno name l hm
    obtain ⟨e, he, _, rfl⟩ := mem_collectLogs.1 hm
    exact (hf name e he).all hno

example : (play {} (sampleOps ++ [.record 0 "client/0".toList (.rpc "server/0".toList 5),
      .record 0 "server/0".toList (.activity "work".toList 3), .record 0 "client/0".toList (.replay (some 1)),
      .collect 0 true, .collect 0 true])).map (fun q => (q.1.map (·.logs)).drop 7) =
    some [[("client/0".toList, ⟨none, [.rpc "server/0".toList 5, .replay (some 1)]⟩),
           ("server/0".toList, ⟨none, [.activity "work".toList 3]⟩)], []] := by decide +kernel

/-! ### C171: the reason for which traffic was cancelled is in the results -/

/-- The full property: if traffic was cancelled on a node, the results of each of its service
instances give the reason, the first one if there were several. -/
def ReasonsReported : Prop :=
  ∀ h p i clear r p' nd start post, Reached h p → p.node i = some nd →
    step p (.collect i clear) = some (.ok (r, p')) → After i h start post → reasonsGiven i post ≠ [] →
    ∀ name ∈ nd.engines.map (·.1), ∃ l, (name, l) ∈ r.logs ∧ l.error = (reasonsGiven i post).head?

def cancelOps : List Op := sampleOps ++ [.cancel 0 "overload".toList]

theorem cancel_run : (play {} (cancelOps ++ [.collect 0 true])).map (fun q => (q.1.map (·.logs)).drop 5) =
    some [[]] := by decide +kernel

theorem cancel_before : (play {} cancelOps).map (fun q => (q.2.node 0).map fun n =>
    (n.engines.map (·.1), n.engines.map (·.2.reason))) =
    some (some (sampleServices, [some "overload".toList, some "overload".toList])) := by decide +kernel

/-- A service instance that recorded nothing does not appear in the results, and the reason for
which it was cancelled is lost with it. -/
theorem C171_negation : ¬ ReasonsReported := by
  intro hall
  have hrun := cancel_run
  have hbefore := cancel_before
  cases hp : play {} (cancelOps ++ [.collect 0 true]) with
  | none => rw [hp] at hrun; cases hrun
  | some q =>
    rw [hp] at hrun
    simp only [Option.map, Option.some.injEq] at hrun
    obtain ⟨rs', r, q', h1, h2, h3⟩ := play_last (rs := q.1) (p' := q.2) hp
    rw [h1] at hbefore
    simp only [Option.map, Option.some.injEq] at hbefore
    have hl : r.logs = [] := by
      have hm : r.logs ∈ (q.1.map (·.logs)).drop 5 := by
        have hlen : (q.1.map (·.logs)).length = 6 := by
          have := congrArg List.length hrun
          simp at this ⊢
          omega
        rw [h3] at hlen ⊢
        simp only [List.length_map, List.length_append, List.length_cons, List.length_nil] at hlen
        rw [List.map_append, List.drop_append_of_le_length (by simp; omega)]
        simp
      rw [hrun] at hm
      simpa using hm
    cases hnd : q'.node 0 with
    | none => rw [hnd] at hbefore; cases hbefore
    | some nd =>
      rw [hnd] at hbefore
      simp only [Option.some.injEq, Prod.mk.injEq] at hbefore
      obtain ⟨start, post, ha⟩ := after_exists 0 (cancelOps.zip rs')
      have hre := play_reached h1
      have hname : "client/0".toList ∈ nd.engines.map (·.1) := by rw [hbefore.1]; simp [sampleServices]
      obtain ⟨x, hx, hxn⟩ := List.mem_map.1 hname
      have hrea : reasonsGiven 0 post ≠ [] := by
        have hf := (fact_of hre hnd (n := x.1) (e := x.2) hx ha).reason
        have hm : x.2.reason ∈ nd.engines.map (·.2.reason) := List.mem_map.2 ⟨x, hx, rfl⟩
        rw [hbefore.2] at hm
        intro hnil
        rw [hf, hnil] at hm
        simp at hm
      obtain ⟨l, hl', _⟩ := hall _ _ _ _ _ _ nd start post hre hnd h2 ha hrea _ hname
      rw [hl] at hl'
      cases hl'

/-- Every entry of the results gives the first reason for which traffic on the node was cancelled
since the service instance was made, and none if it was not.  With `C170`, each instance that
recorded something has an entry.  Missing: instances that recorded nothing. -/
theorem C171_reason_partial {h : List (Op × Reply)} {p p' : Process} (hr : Reached h p) {i : Nat} {clear : Bool}
    {r : Reply} (hs : step p (.collect i clear) = some (.ok (r, p'))) {start : Option (Op × Reply)}
    {post : List (Op × Reply)} (ha : After i h start post) :
    ∀ name l, (name, l) ∈ r.logs → l.error = (reasonsGiven i post).head? := by
  obtain ⟨nd, hn⟩ := step_exists hs i (fun h => h rfl)
  simp only [step, hn, Option.map, Option.some.injEq, Outcome.ok.injEq, Prod.mk.injEq] at hs
  obtain ⟨rfl, rfl⟩ := hs
  intro name l hm
  simp only [getTrafficResult] at hm
  obtain ⟨e, he, _, rfl⟩ := mem_collectLogs.1 hm
  exact (fact_of hr hn he ha).reason

example : (play {} (sampleOps ++ [.record 0 "client/0".toList (.rpc "server/0".toList 5),
      .cancel 0 "overload".toList, .cancel 0 "late".toList, .collect 0 true])).map (fun q => (q.1.map (·.logs)).drop 7) =
    some [[("client/0".toList, ⟨some "overload".toList, [.rpc "server/0".toList 5]⟩)]] := by decide +kernel

end Distbench.Node
