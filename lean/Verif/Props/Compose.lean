import Verif.Spec.Compose

/-! Properties of the composite drivers. -/

namespace Distbench.Compose
open Spec

/-! ### C197: calls reach the real drivers -/

/-- C197: a call that concerns every real driver is made once to each of them. -/
theorem C197_all (status : Nat → Call → Outcome Unit) (t : Tree) (c : Call) (hc : ForAll c) :
    realDrivers (t.call status c).tree = (realDrivers t).map (fun d => (d.1, d.2 ++ [c])) := by
  induction t with
  | leaf id calls => rfl
  | doubleBarrel use a b iha ihb =>
    have h : (Tree.doubleBarrel use a b).call status c =
        { tree := .doubleBarrel use (a.call status c).tree (b.call status c).tree } := by
      cases c <;> first | rfl | exact hc.elim
    rw [h]
    simp only [realDrivers, iha, ihb, List.map_append]
  | counter n a ih =>
    have h : (Tree.counter n a).call status c =
        { tree := .counter n (a.call status c).tree, status := (a.call status c).status } := by
      cases c <;> first | rfl | exact hc.elim
    rw [h]
    exact ih

/-- C197: an RPC is handed to exactly one real driver, with its peer and its callback, and the others
get no call. -/
theorem C197_one (status : Nat → Call → Outcome Unit) (t : Tree) (peer : Int) (rpc : Nat) :
    ∃ before id calls after, realDrivers t = before ++ (id, calls) :: after ∧
      realDrivers (t.call status (.initiate peer rpc)).tree =
        before ++ (id, calls ++ [.initiate peer rpc]) :: after := by
  induction t with
  | leaf id calls => exact ⟨[], id, calls, [], rfl, rfl⟩
  | doubleBarrel use a b iha ihb =>
    by_cases hu : use % 2 = 1
    · have h : (Tree.doubleBarrel use a b).call status (.initiate peer rpc) =
          { tree := .doubleBarrel (Drivers.wrap32 (use + 1))
              (a.call status (.initiate peer rpc)).tree b } := if_pos hu
      obtain ⟨l, id, calls, r, h1, h2⟩ := iha
      rw [h]
      refine ⟨l, id, calls, r ++ realDrivers b, ?_, ?_⟩
      · simp only [realDrivers, h1, List.append_assoc, List.cons_append]
      · simp only [realDrivers, h2, List.append_assoc, List.cons_append]
    · have h : (Tree.doubleBarrel use a b).call status (.initiate peer rpc) =
          { tree := .doubleBarrel (Drivers.wrap32 (use + 1)) a
              (b.call status (.initiate peer rpc)).tree } := if_neg hu
      obtain ⟨l, id, calls, r, h1, h2⟩ := ihb
      rw [h]
      refine ⟨realDrivers a ++ l, id, calls, r, ?_, ?_⟩
      · simp only [realDrivers, h1, List.append_assoc]
      · simp only [realDrivers, h2, List.append_assoc]
  | counter n a ih => exact ih

/-- C197: a connection is made exactly if every real driver makes it, and then each of them was asked
once. -/
theorem C197_connect (status : Nat → Call → Outcome Unit) (t : Tree) (info : Str) (peer : Int) :
    ((t.call status (.connect info peer)).status = .ok () ↔
      ∀ d ∈ realDrivers t, status d.1 (.connect info peer) = .ok ()) ∧
    ((t.call status (.connect info peer)).status = .ok () →
      realDrivers (t.call status (.connect info peer)).tree =
        (realDrivers t).map (fun d => (d.1, d.2 ++ [.connect info peer]))) := by
  induction t with
  | leaf id calls =>
    refine ⟨⟨fun h d hd => ?_, fun h => h _ List.mem_cons_self⟩, fun _ => rfl⟩
    cases hd with
    | head => exact h
    | tail _ hd => cases hd
  | doubleBarrel use a b iha ihb =>
    rw [Tree.call]
    simp only [realDrivers, List.mem_append]
    cases ha : (a.call status (.connect info peer)).status with
    | ok u =>
      dsimp only
      refine ⟨⟨fun h d hd => ?_, fun h => ihb.1.2 fun d hd => h d (Or.inr hd)⟩, fun h => ?_⟩
      · rcases hd with hd | hd
        · exact iha.1.1 ha d hd
        · exact ihb.1.1 h d hd
      · simp only [realDrivers, List.map_append]
        rw [iha.2 ha, ihb.2 h]
    | error m =>
      dsimp only
      refine ⟨⟨(fun h => by cases h), fun h => ?_⟩, (fun h => by cases h)⟩
      rw [iha.1.2 fun d hd => h d (Or.inl hd)] at ha
      cases ha
    | ub =>
      dsimp only
      refine ⟨⟨(fun h => by cases h), fun h => ?_⟩, (fun h => by cases h)⟩
      rw [iha.1.2 fun d hd => h d (Or.inl hd)] at ha
      cases ha
    | crash =>
      dsimp only
      refine ⟨⟨(fun h => by cases h), fun h => ?_⟩, (fun h => by cases h)⟩
      rw [iha.1.2 fun d hd => h d (Or.inl hd)] at ha
      cases ha
  | counter n a ih => exact ih

private theorem rpcsTo_append (l m : List Call) : rpcsTo (l ++ m) = rpcsTo l ++ rpcsTo m :=
  List.filterMap_append

private def allRpcs (t : Tree) : List (Int × Nat) := (realDrivers t).flatMap fun d => rpcsTo d.2

private theorem rpcs_call (status : Nat → Call → Outcome Unit) (t : Tree) (c : Call) :
    (allRpcs (t.call status c).tree).Perm (allRpcs t ++ rpcsTo [c]) := by
  have other : ∀ c, rpcsTo [c] = [] → allRpcs (t.call status c).tree = allRpcs t := by
    intro c hc
    induction t with
    | leaf id calls =>
      simp only [Tree.call, callLeaf, allRpcs, realDrivers, List.flatMap_cons, List.flatMap_nil,
        rpcsTo_append, hc, List.append_nil]
    | doubleBarrel use a b iha ihb =>
      have iha := iha
      have ihb := ihb
      have key : allRpcs (.doubleBarrel use (a.call status c).tree (b.call status c).tree) =
          allRpcs (.doubleBarrel use a b) ∧
          allRpcs (.doubleBarrel use (a.call status c).tree b) =
            allRpcs (.doubleBarrel use a b) := by
        simp only [allRpcs, realDrivers, List.flatMap_append] at iha ihb ⊢
        rw [iha, ihb]
        exact ⟨rfl, rfl⟩
      cases c with
      | connect info peer =>
        rw [Tree.call]
        split
        · exact key.1
        · exact key.2
      | initiate peer rpc => cases hc
      | setNumChannels n => rfl
      | setupChannel ps ch => rfl
      | initiateToChannel ch rpc => rfl
      | setHandler => exact key.1
      | setNumPeers n => exact key.1
      | connectFailure info => exact key.1
      | churn peer => exact key.1
      | shutdownClient => exact key.1
      | shutdownServer => exact key.1
    | counter n a ih => cases c <;> first | exact ih | rfl
  cases c with
  | initiate peer rpc =>
    obtain ⟨l, id, calls, r, h1, h2⟩ := C197_one status t peer rpc
    unfold allRpcs
    rw [h1, h2]
    simp only [List.flatMap_append, List.flatMap_cons, rpcsTo_append]
    rw [List.append_assoc, List.append_assoc, List.append_assoc]
    refine List.Perm.append_left _ (List.Perm.append_left _ ?_)
    exact List.perm_append_comm
  | _ => rw [other _ rfl]; simp [rpcsTo]

/-- C197: after any calls, the real drivers together got each RPC as often as it was initiated. -/
theorem C197_rpcs (status : Nat → Call → Outcome Unit) (t : Tree) (calls : List Call)
    (ht : ∀ d ∈ realDrivers t, d.2 = []) :
    ((realDrivers (t.run status calls)).flatMap (fun d => rpcsTo d.2)).Perm (rpcsTo calls) := by
  have main : ∀ calls t, (allRpcs (Tree.run status t calls)).Perm (allRpcs t ++ rpcsTo calls) := by
    intro calls
    induction calls with
    | nil => intro t; rw [Tree.run]; simp [rpcsTo]
    | cons c rest ih =>
      intro t
      rw [Tree.run]
      refine (ih _).trans (((rpcs_call status t c).append_right _).trans ?_)
      rw [List.append_assoc, ← rpcsTo_append]
      exact List.Perm.refl _
  have h := main calls t
  have h0 : allRpcs t = [] := by
    unfold allRpcs
    rw [List.flatMap_eq_nil_iff]
    intro d hd
    rw [ht d hd]
    rfl
  rw [h0] at h
  exact h

/-- C197: a counter, at any place in the composition, counts each RPC it is given once, and nothing
else. -/
theorem C197_counted (status : Nat → Call → Outcome Unit) (n : Nat) (t : Tree) (calls : List Call) :
    ∃ t', (Tree.counter n t).run status calls = .counter (n + (rpcsTo calls).length) t' := by
  induction calls generalizing n t with
  | nil => exact ⟨t, rfl⟩
  | cons c rest ih =>
    rw [Tree.run]
    cases c with
    | initiate peer rpc =>
      obtain ⟨t', h⟩ := ih (n + 1) (t.call status (.initiate peer rpc)).tree
      refine ⟨t', h.trans ?_⟩
      have : rpcsTo (.initiate peer rpc :: rest) = (peer, rpc) :: rpcsTo rest := rfl
      rw [this, List.length_cons, Nat.add_assoc, Nat.add_comm 1]
    | setNumChannels m => exact ih n t
    | setupChannel ps ch => exact ih n t
    | initiateToChannel ch rpc => exact ih n t
    | setHandler => exact ih n _
    | setNumPeers m => exact ih n _
    | connect info peer => exact ih n _
    | connectFailure info => exact ih n _
    | churn peer => exact ih n _
    | shutdownClient => exact ih n _
    | shutdownServer => exact ih n _

private def two : Tree := .counter 0 (.doubleBarrel 1 (.leaf 1 []) (.leaf 2 []))

example : realDrivers (two.run (fun _ _ => .ok ())
      [.setNumPeers 2, .connect [] 0, .initiate 0 7, .initiate 0 8, .initiate 0 9]) =
    [(1, [.setNumPeers 2, .connect [] 0, .initiate 0 7, .initiate 0 9]),
     (2, [.setNumPeers 2, .connect [] 0, .initiate 0 8])] := by decide +kernel

example : ∃ t', two.run (fun _ _ => .ok ()) [.setNumPeers 2, .initiate 0 7, .initiate 0 8] =
    .counter 2 t' := C197_counted _ 0 _ _

/-- C197: the server that peers are told to connect to is that of one of the real drivers, and that
driver has the handler once the handler was set. -/
theorem C197_server (status : Nat → Call → Outcome Unit) (t : Tree) :
    ∃ calls, (t.server, calls ++ [.setHandler]) ∈ realDrivers (t.call status .setHandler).tree := by
  rw [C197_all status t .setHandler trivial]
  have main : ∃ calls, (t.server, calls) ∈ realDrivers t := by
    induction t with
    | leaf id calls => exact ⟨calls, List.mem_cons_self⟩
    | doubleBarrel use a b iha _ =>
      obtain ⟨calls, h⟩ := iha
      exact ⟨calls, List.mem_append_left _ h⟩
    | counter n a ih => exact ih
  obtain ⟨calls, h⟩ := main
  exact ⟨calls, List.mem_map.2 ⟨_, h, rfl⟩⟩

/-! ### C198: multi-server channels are handed to a real driver or refused -/

/-- C198: a composite driver refuses to set up a channel, ends an RPC to one at once with an error,
calling its done callback once, and hands neither to a real driver. -/
theorem C198_refused (status : Nat → Call → Outcome Unit) (t : Tree) (hc : IsComposite t)
    (peers : List Int) (channel : Int) (rpc : Nat) :
    (t.call status (.setupChannel peers channel)).status =
      .error "This protocol driver does not support multi-server channels." ∧
    (t.call status (.initiateToChannel channel rpc)).failed = [rpc] ∧
    ∀ c, AboutChannels c → realDrivers (t.call status c).tree = realDrivers t := by
  cases t with
  | leaf id calls => exact hc.elim
  | doubleBarrel use a b =>
    refine ⟨rfl, rfl, fun c h => ?_⟩
    cases c <;> first | rfl | exact h.elim
  | counter n a =>
    refine ⟨rfl, rfl, fun c h => ?_⟩
    cases c <;> first | rfl | exact h.elim

/-- C198: no other call ends an RPC in this way. -/
theorem C198_only (status : Nat → Call → Outcome Unit) (t : Tree) (c : Call) (rpc : Nat)
    (h : rpc ∈ (t.call status c).failed) :
    IsComposite t ∧ ∃ channel, c = .initiateToChannel channel rpc := by
  cases t with
  | leaf id calls => cases h
  | doubleBarrel use a b =>
    refine ⟨trivial, ?_⟩
    cases c with
    | initiateToChannel channel rpc' =>
      cases List.mem_singleton.1 h
      exact ⟨channel, rfl⟩
    | connect info peer =>
      rw [Tree.call] at h
      split at h <;> cases h
    | initiate peer rpc' =>
      rw [Tree.call] at h
      split at h <;> cases h
    | _ => cases h
  | counter n a =>
    refine ⟨trivial, ?_⟩
    cases c with
    | initiateToChannel channel rpc' =>
      cases List.mem_singleton.1 h
      exact ⟨channel, rfl⟩
    | _ => cases h

/-- C198: a real driver gets the calls about channels itself, and what it says is returned. -/
theorem C198_real (status : Nat → Call → Outcome Unit) (id : Nat) (calls : List Call)
    (peers : List Int) (channel : Int) (rpc : Nat) :
    ((Tree.leaf id calls).call status (.setupChannel peers channel)).status =
      status id (.setupChannel peers channel) ∧
    realDrivers ((Tree.leaf id calls).call status (.initiateToChannel channel rpc)).tree =
      [(id, calls ++ [.initiateToChannel channel rpc])] := ⟨rfl, rfl⟩

example : IsComposite two := trivial

end Distbench.Compose
