import Verif.Lemmas.Progress
import Verif.Props.ActionList

/-! Progress of action lists: C30 and the property about actions that start nothing. -/

namespace Distbench
open ActionList Tables Spec

/-- C30.  In every fair execution of an accepted action list, in which every started action
finishes, the list comes to its end (unless the process aborts, see C77); and a list that was not
cancelled has then finished all its actions. -/
theorem C30_progress (cfg : Tables.Config) (svc : Str) (c : Ctx) (hl : Loaded cfg svc c)
    (σ : Nat → State) (hf : Fair c σ) (habort : ∀ n, (σ n).phase ≠ .crashed) :
    ∃ n, (σ n).phase = .done ∧
      ((σ n).canceled = false → ∀ i < c.size, .finished i ∈ (σ n).log) := by
  obtain ⟨n, hn | hn⟩ := progress hf (loaded_sane hl) (loaded_backwards hl)
  · exact ⟨n, hn, fun hc i hi => (C32_all cfg svc c hl _ (fair_reachable hf n) hn hc i hi).1⟩
  · exact absurd hn (habort n)

/-- C30, deadlock freedom.  When nothing is running and the list has not ended, its thread can take
a step, without waiting for the other threads. -/
theorem C30_not_stuck (cfg : Tables.Config) (svc : Str) (c : Ctx) (hl : Loaded cfg svc c) (s : State)
    (hr : Reachable c s) (hidle : ∀ i, StartedIn i s.log → .finished i ∈ s.log)
    (hphase : s.phase ≠ .done ∧ s.phase ≠ .crashed) : ∃ s', MainStep c s s' := by
  have h := inv_reachable (loaded_sane hl) hr
  rw [ActionList.Inv, if_neg hphase.1] at h
  cases hp : s.phase with
  | scan k => exact main_enabled hr (.inl ⟨k, hp⟩)
  | wait => exact main_enabled hr (.inr (.inl hp))
  | checkCancel => exact main_enabled hr (.inr (.inr (.inl hp)))
  | exit => exact main_enabled hr (.inr (.inr (.inr hp)))
  | done => exact absurd hp hphase.1
  | crashed => exact absurd hp hphase.2
  | drain =>
    refine ⟨_, .drain hp (.inl ?_)⟩
    rw [h.1.pend]
    have : (List.range c.size).countP
        (fun i => (s.acts i).started && !(s.acts i).closed) = 0 := by
      rw [List.countP_eq_zero]
      intro i _
      cases hx : (s.acts i).started with
      | false => simp
      | true =>
        have := (h.1.log_fin i).1 (hidle i ((startedIn_iff h.1 i).2 hx))
        rw [this]; simp
    rw [this]; rfl

/-! ### C79 -/

/-- C79, the part that holds.  An RPC action that was started can still finish, whatever the state
of the list, if its RPC may be sent by this service and its server has instances. -/
theorem C79_can_finish_partial (cfg : Tables.Config) (svc : Str) (c : Ctx) (hl : Loaded cfg svc c)
    (s : State) (hr : Reachable c s) (i : Nat) (a : ActionEntry) (name : Str)
    (ha : c.entry.listActions[i]? = some a) (hk : a.proto.kind = .rpc name)
    (hrpc : ∃ r, c.rpcTable[a.rpcIndex.toNat]? = some r ∧ r.definition.allowedFromThisClient = true)
    (hpeers : c.hasPeers a.rpcServiceIndex = true) (hs : StartedIn i s.log) :
    ∃ s', Steps c s s' ∧ .finished i ∈ s'.log := by
  by_cases hd : s.phase = .done
  · obtain ⟨_, _, _, _, -, -, h⟩ := C31_once cfg svc c hl s hr hd
    exact ⟨s, .refl, h i hs⟩
  have h := inv_reachable (loaded_sane hl) hr
  rw [ActionList.Inv, if_neg hd] at h
  have hst := (startedIn_iff h.1 i).1 hs
  have hlt := h.1.started_lt i hst
  have hact : c.activityAt i = false := by
    rw [activityAt_some ha, isActivity, hk]
  have hini := loaded_initiate hl ha
  rw [hk] at hini
  simp only [if_pos (And.intro hrpc hpeers)] at hini
  have hnst : (s.acts i).stuck = false := by
    have hkey : ∀ {s}, Reachable c s → (s.acts i).stuck = false := by
      intro s hr
      induction hr with
      | init now b => rfl
      | @step s s' _ hst ih => exact stuck_step ha (by rw [hini]; simp) hst ih
    exact hkey hr
  cases hcl : (s.acts i).closed with
  | true => exact ⟨s, .refl, (h.1.log_fin i).2 hcl⟩
  | false =>
    cases hca : (s.acts i).called with
    | true => exact ⟨_, .step .refl (.env (.finish i hlt hca hcl)), List.mem_cons_self⟩
    | false =>
      refine ⟨_, .step (.step .refl (.env (.callback i hlt hst hnst hca hact)))
        (.env (.finish i hlt ?_ ?_)), List.mem_cons_self⟩
      · rw [callback_acts, if_pos rfl]
      · rw [callback_acts, if_pos rfl]; exact hcl

/-- A configuration in which the list of the service `client` sends an RPC that only the service
`server` may send. -/
def wrongClientConfig : Tables.Config :=
  { sampleConfig with
    rpcs := [{ name := "query".toList, client := ["server".toList], server := "server".toList,
               requestPayloadName := some "small".toList }]
    actions := [{ name := "first".toList, kind := .rpc "query".toList }]
    actionLists := [{ name := "client".toList, actionNames := ["first".toList] },
                    { name := "query".toList }] }

/-- C79 is false: an accepted list with an RPC of another client starts that action, sends nothing,
and never ends, whatever happens afterwards. -/
theorem C79_wrong_client_hangs : ∃ c s, Loaded wrongClientConfig "client".toList c ∧
    (∀ x, c.hasPeers x = true) ∧ Reachable c s ∧ StartedIn 0 s.log ∧
    ∀ s', Steps c s s' → s'.phase ≠ .done := by
  obtain ⟨c, s, h1, hp, -, h3, h4⟩ := exists_reachable (e := sampleEnv) (cfg := wrongClientConfig)
    (svc := "client".toList) (k := 0) (hasPeers := fun _ => true) (predicates := []) [.visit 0] 0
    (fun c s => decide ((s.acts 0).stuck = true) && decide (s.log = [.initiated 0 0]))
    (by decide +kernel)
  simp only [Bool.and_eq_true, decide_eq_true_eq] at h4
  refine ⟨c, s, h1, fun x => by rw [hp], h3, ⟨_, by rw [h4.2]; exact List.mem_cons_self, .inr ⟨0, rfl⟩⟩, ?_⟩
  intro s' hs
  have key : Reachable c s' ∧ (s'.acts 0).stuck = true := by
    induction hs with
    | refl => exact ⟨h3, h4.1⟩
    | step _ hst ih => exact ⟨.step ih.1 hst, stuck_stays hst ih.2⟩
  exact stuck_not_done (loaded_sane h1) key.1 key.2

/-- The same with the sample configuration and no instances of the server. -/
theorem C79_no_peers_hangs : ∃ c s, Loaded sampleConfig "client".toList c ∧
    (∀ x, c.hasPeers x = false) ∧ Reachable c s ∧ StartedIn 0 s.log ∧
    ∀ s', Steps c s s' → s'.phase ≠ .done := by
  obtain ⟨c, s, h1, hp, -, h3, h4⟩ := exists_reachable (e := sampleEnv) (cfg := sampleConfig)
    (svc := "client".toList) (k := 0) (hasPeers := fun _ => false) (predicates := []) [.visit 0] 0
    (fun c s => decide ((s.acts 0).stuck = true) && decide (s.log = [.initiated 0 0]))
    (by decide +kernel)
  simp only [Bool.and_eq_true, decide_eq_true_eq] at h4
  refine ⟨c, s, h1, fun x => by rw [hp], h3, ⟨_, by rw [h4.2]; exact List.mem_cons_self, .inr ⟨0, rfl⟩⟩, ?_⟩
  intro s' hs
  have key : Reachable c s' ∧ (s'.acts 0).stuck = true := by
    induction hs with
    | refl => exact ⟨h3, h4.1⟩
    | step _ hst ih => exact ⟨.step ih.1 hst, stuck_stays hst ih.2⟩
  exact stuck_not_done (loaded_sane h1) key.1 key.2

/-! ### a fair execution -/

/-- Schedules that end the list give fair executions. -/
theorem fair_of_schedule {cfg : Tables.Config} {svc : Str} {c : Ctx} (hl : Loaded cfg svc c)
    (l : List Cmd) (now : Int) (s : State)
    (h : exec c l (ActionList.init now false) = some s) (hd : s.phase = .done)
    (hall : ∀ i < c.size, .finished i ∈ s.log)
    (hnow : ∀ n < l.length,
      ((exec c (l.take n) (ActionList.init now false)).getD s).now ≤
      ((exec c (l.take (n + 1)) (ActionList.init now false)).getD s).now) :
    Fair c (fun n => (exec c (l.take n) (ActionList.init now false)).getD s) := by
  have hlast : ∀ m ≥ l.length, (exec c (l.take m) (ActionList.init now false)).getD s = s := by
    intro m hm
    rw [List.take_of_length_le hm, h]; rfl
  have hstep : ∀ n, Step c ((exec c (l.take n) (ActionList.init now false)).getD s)
      ((exec c (l.take (n + 1)) (ActionList.init now false)).getD s) ∨
      (exec c (l.take (n + 1)) (ActionList.init now false)).getD s =
      (exec c (l.take n) (ActionList.init now false)).getD s := by
    intro n
    by_cases hn : n < l.length
    · left
      obtain ⟨s1, h1, h2⟩ := exec_take (by rw [h]; rfl) n (by omega)
      obtain ⟨s2, h3, h4⟩ := exec_take (by rw [h]; rfl) (n + 1) (by omega)
      rw [h1, h3]
      simp only [Option.getD_some]
      rw [List.take_succ_eq_append_getElem hn, exec_append, h1] at h3
      simp only [Option.bind_some, exec, Option.bind_eq_some_iff] at h3
      obtain ⟨s3, h5, h6⟩ := h3
      injection h6 with h6
      subst h6
      exact exec1_step h5
    · right
      rw [hlast _ (by omega), hlast _ (by omega)]
  have hreach : ∀ n, Reachable c ((exec c (l.take n) (ActionList.init now false)).getD s) := by
    intro n
    induction n with
    | zero => exact .init now false
    | succ n ih =>
      rcases hstep n with h | h
      · exact .step ih h
      · rw [h]; exact ih
  refine ⟨⟨now, false, rfl⟩, hstep, ?_, ?_, ?_, ?_⟩
  · intro n hen
    exfalso
    obtain ⟨s', hs'⟩ := hen (n + l.length) (by omega)
    rw [hlast _ (by omega)] at hs'
    cases hs' <;> simp_all
  · intro n i hi
    by_cases hdn : ((exec c (l.take n) (ActionList.init now false)).getD s).phase = .done
    · obtain ⟨_, _, _, _, -, -, h⟩ := C31_once cfg svc c hl _ (hreach n) hdn
      exact ⟨n, h i hi⟩
    · have hinv := inv_reachable (loaded_sane hl) (hreach n)
      rw [ActionList.Inv, if_neg hdn] at hinv
      refine ⟨l.length, ?_⟩
      rw [hlast _ (Nat.le_refl _)]
      exact hall i (hinv.1.started_lt i ((startedIn_iff hinv.1 i).1 hi))
  · intro n
    by_cases hn : n < l.length
    · exact hnow n hn
    · rw [hlast _ (by omega), hlast _ (by omega)]
      exact Int.le_refl _
  · intro time n
    refine ⟨n + l.length, by omega, ?_⟩
    rw [hlast _ (by omega)]
    exact .inr (.inr (.inr (.inl hd)))

/-- A fair execution of the gated list, with early response, overridden size and skipped actions. -/
example : ∃ c σ, Loaded gatedConfig "client".toList c ∧ Fair c σ ∧ c.size = 5 ∧
    ∀ n, (σ n).phase ≠ .crashed := by
  have h : ((loadList sampleEnv gatedConfig "client".toList 0 (fun _ => true) ["!p".toList]).bind
      fun c => (exec c gatedSchedule (ActionList.init 0 false)).map fun s =>
        decide (c.size = 5) && (decide (s.phase = .done) &&
        (decide (∀ i < 5, Event.finished i ∈ s.log) &&
        (decide (∀ n < gatedSchedule.length,
          ((exec c (gatedSchedule.take n) (ActionList.init 0 false)).getD s).now ≤
          ((exec c (gatedSchedule.take (n + 1)) (ActionList.init 0 false)).getD s).now) &&
        decide (∀ n < gatedSchedule.length,
          ((exec c (gatedSchedule.take n) (ActionList.init 0 false)).getD s).phase ≠ .crashed)))))
      = some true := by decide +kernel
  cases hc : loadList sampleEnv gatedConfig "client".toList 0 (fun _ => true) ["!p".toList] with
  | none => rw [hc] at h; simp at h
  | some c =>
    rw [hc] at h
    simp only [Option.bind_some, Option.map_eq_some_iff] at h
    obtain ⟨s, h1, h2⟩ := h
    simp only [Bool.and_eq_true, decide_eq_true_eq] at h2
    obtain ⟨g1, g2, g3, g4, g5⟩ := h2
    refine ⟨c, _, loadList_loaded hc, fair_of_schedule (loadList_loaded hc) gatedSchedule 0 s h1 g2
      (by rw [g1]; exact g3) g4, g1, ?_⟩
    intro n
    by_cases hn : n < gatedSchedule.length
    · exact g5 n hn
    · rw [List.take_of_length_le (by omega), h1]
      simp [g2]

end Distbench
