import Verif.Spec.Lifetime
import Verif.Props.ActionList

/-! Property theorem C165: an action list and the request it was called with. -/

namespace Distbench
open ActionList Lifetime Spec

namespace Lifetime

/-- C165, full statement: as long as an action of a list that handles an RPC may read the request of
that RPC, the request exists, whichever server received it. -/
def RequestOutlives : Prop :=
  ∀ (k : Grpc.ServerKind) (cfg : Tables.Config) (svc : Str) (c : Ctx), Loaded cfg svc c →
    ∀ s, Reachable c s → ∀ i, MayRead c s.log i → requestExists k s.log = true

/-- The sample configuration with two RPCs, the first of which sends the response. -/
def earlyConfig : Tables.Config :=
  { sampleConfig with
    actions := [{ name := "first".toList, kind := .rpc "query".toList, sendResponseWhenDone := true },
                { name := "second".toList, kind := .rpc "query".toList }]
    actionLists := [{ name := "client".toList, actionNames := ["first".toList, "second".toList] },
                    { name := "query".toList }] }

/-- C165: the actions that read the request are those that run RPCs, another list or a replay. -/
theorem C165_readers (c : Ctx) (i : Nat) : readsRequest c i = true ↔
    ∃ a, c.entry.listActions[i]? = some a ∧ ((∃ name, a.proto.kind = .rpc name) ∨
      (∃ name, a.proto.kind = .actionList name) ∨ ∃ name, a.proto.kind = .replay name) := by
  unfold readsRequest
  cases c.entry.listActions[i]? with
  | none => simp
  | some a =>
    cases h : a.proto.kind <;> simp [h]

/-- The first RPC of that list has completed, the second has not. -/
theorem early_run : ∃ c s, Loaded earlyConfig "client".toList c ∧ Reachable c s ∧
    MayRead c s.log 1 ∧
    s.log = [.finished 0, .response (some 0) (-1), .initiated 1 0, .initiated 0 0] := by
  obtain ⟨c, s, h1, -, -, h3, h4⟩ := exists_reachable (e := sampleEnv) (cfg := earlyConfig)
    (svc := "client".toList) (k := 0) (hasPeers := fun _ => true) (predicates := [])
    [.visit 0, .visit 0, .scanned, .callback 0, .finish 0] 0
    (fun c s => readsRequest c 1 && decide (s.log =
      [.finished 0, .response (some 0) (-1), .initiated 1 0, .initiated 0 0])) (by decide +kernel)
  simp only [Bool.and_eq_true, decide_eq_true_eq] at h4
  refine ⟨c, s, h1, h3, ⟨(C165_readers c 1).1 h4.1, ?_⟩, h4.2⟩
  rw [h4.2]
  exact ⟨⟨0, by simp⟩, by simp, by simp⟩

/-- It does not hold for the handoff server: after `send_response_when_done` the other actions of the
list read a request that gRPC has freed. -/
theorem C165_negation : ¬ RequestOutlives := by
  intro h
  obtain ⟨c, s, h1, h2, h3, h4⟩ := early_run
  have := h .handoff _ _ c h1 s h2 1 h3
  rw [h4] at this
  simp [requestExists] at this

/-- Once the state was freed, nothing is running. -/
theorem freed_finished {cfg : Tables.Config} {svc : Str} {c : Ctx} (hl : Loaded cfg svc c) {s : State}
    (hr : Reachable c s) (hf : .freed ∈ s.log) : ∀ i, StartedIn i s.log → .finished i ∈ s.log := by
  by_cases hd : s.phase = .done
  · obtain ⟨-, -, -, -, -, -, h⟩ := C31_once cfg svc c hl s hr hd
    exact h
  · have h := inv_reachable (loaded_sane hl) hr
    rw [ActionList.Inv, if_neg hd] at h
    exact absurd hf h.1.log_freed

/-- C165, partial: it holds for the inline and the polling server; and for the handoff server if no
action of the list is marked `send_response_when_done`.  Missing: the handoff server with such
actions. -/
theorem C165_request_partial (k : Grpc.ServerKind) (cfg : Tables.Config) (svc : Str) (c : Ctx)
    (hl : Loaded cfg svc c)
    (hk : k ≠ .handoff ∨ ∀ a ∈ c.entry.listActions, a.proto.sendResponseWhenDone = false)
    (s : State) (hr : Reachable c s) (i : Nat) (hm : MayRead c s.log i) :
    requestExists k s.log = true := by
  obtain ⟨-, ⟨t, ht⟩, hnf, hnr⟩ := hm
  have hst : StartedIn i s.log := ⟨_, ht, Or.inr ⟨t, rfl⟩⟩
  have hfr : .freed ∉ s.log := fun hf => hnf (freed_finished hl hr hf i hst)
  have hnotfreed : (!s.log.contains .freed) = true := by simpa using hfr
  cases k with
  | inline => exact hnotfreed
  | polling => exact hnotfreed
  | handoff =>
    have hk : ∀ a ∈ c.entry.listActions, a.proto.sendResponseWhenDone = false := by
      rcases hk with hk | hk
      · exact absurd rfl hk
      · exact hk
    have hphase : s.phase ≠ .done := by
      intro hd
      obtain ⟨mid, before, b', o', h1, -⟩ := C31_once cfg svc c hl s hr hd
      exact hfr (by rw [h1]; simp)
    have h := inv_reachable (loaded_sane hl) hr
    rw [ActionList.Inv, if_neg hphase] at h
    have hno : ∀ e ∈ s.log, ¬ IsResponse e := by
      rintro e he ⟨b, o, rfl⟩
      obtain ⟨later, earlier, hlog⟩ := List.mem_iff_append.1 he
      have hw := C31_when cfg svc c hl s hr later earlier b o hlog
      cases b with
      | some j =>
        obtain ⟨⟨a, ha, hor⟩, -⟩ := hw.1 j rfl
        have hone : c.entry.listActions.length = 1 := by
          rcases hor with h1 | h1
          · rw [hk a (List.mem_of_getElem? ha)] at h1; simp at h1
          · exact h1
        have hj : j < c.entry.listActions.length := by
          obtain ⟨hj, -⟩ := List.getElem?_eq_some_iff.1 ha; exact hj
        have hi : i < c.entry.listActions.length :=
          h.1.started_lt i ((startedIn_iff h.1 i).1 hst)
        have hij : i = j := by omega
        exact hnr o (hij ▸ he)
      | none => exact h.1.log_none o he
    simp only [requestExists, Bool.not_eq_true', List.any_eq_false]
    intro e he
    have := hno e he
    cases e with
    | response b o => exact absurd ⟨b, o, rfl⟩ this
    | _ => simp

example : ∃ c s, Loaded earlyConfig "client".toList c ∧ Reachable c s ∧
    requestExists .polling s.log = true ∧ MayRead c s.log 1 := by
  obtain ⟨c, s, h1, h2, h3, -⟩ := early_run
  exact ⟨c, s, h1, h2, C165_request_partial .polling _ _ c h1 (Or.inl (by simp)) s h2 1 h3, h3⟩

end Lifetime

end Distbench
