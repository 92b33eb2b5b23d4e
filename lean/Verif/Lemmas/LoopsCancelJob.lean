import Verif.Lemmas.Loops
import Verif.Lemmas.LoopsThread
import Verif.Spec.LoopsCancel

/-! Runs of lists that may be cancelled: the thread of the list and the iterations of its actions. -/

namespace Distbench.ActionList
open Spec Loops Tables

theorem start_shape {c : Ctx} {m : State} {i k : Nat} {x : ActionEntry} (hC : CoreS c m) (hph : m.phase = .scan k)
    (hx : c.entry.listActions[i]? = some x) (hns : (m.acts i).started = false)
    (hd : ∀ d ∈ c.deps i, (m.acts d).finished = true) :
    Same m (start c x i m) ∨ ∃ A, Begun c m (start c x i m) i x A := by
  have hdeps : ∀ d ∈ c.deps i, d < c.size ∧ (m.acts d).started = true ∧ (m.acts d).called = true := by
    intro d hd'
    have h1 := hC.closed_called _ (hC.fin_closed _ (hd d hd'))
    have h2 := hC.called_started _ h1
    exact ⟨hC.started_lt _ h2, h2, h1⟩
  have hself : (m.acts i).called = false ∧ (m.acts i).skipped = false := by
    constructor
    · cases hc : (m.acts i).called with
      | false => rfl
      | true => rw [hC.called_started _ hc] at hns; cases hns
    · cases hc : (m.acts i).skipped with
      | false => rfl
      | true => rw [hC.skip_started _ hc] at hns; cases hns
  have hopen : m.phase ≠ .done := by rw [hph]; simp
  unfold start
  dsimp only
  split
  · rename_i hsk
    rw [Bool.or_eq_true] at hsk
    have hsk' : (∃ d ∈ c.deps i, (m.acts d).skipped = true) ∨ x.proto.predicates ≠ [] := by
      rcases hsk with h | h
      · left
        obtain ⟨d, h1, h2⟩ := List.any_eq_true.1 h
        exact ⟨d, h1, h2⟩
      · right
        intro h0
        rw [h0] at h
        simp at h
    refine .inr ⟨{ m.acts i with
        started := true, waiting := false,
        sender := !m.sentEarly && (c.size == 1 || x.proto.sendResponseWhenDone), skipped := true,
        called := true, closed := true }, hx, hns, ⟨hopen, ?_⟩, hdeps, ?_, rfl, rfl, .inr ⟨rfl, rfl, ?_, hsk'⟩⟩
    · rw [finish_phase, callback_phase]
      exact hopen
    · intro j
      rw [finish_acts]
      by_cases hj : j = i
      · subst hj
        simp [callback_acts, setAct]
      · rw [if_neg hj, if_neg hj, callback_acts, if_neg hj]
        simp [setAct, hj]
    · show responses (.finished i :: _) = _
      rw [responses_cons_other (by simp), callback_log]
      simp only [setAct, if_true]
      rw [responses_cons_other (by simp)]
  · rename_i hsk
    rw [Bool.not_eq_true, Bool.or_eq_false_iff] at hsk
    have hskd : ∀ d ∈ c.deps i, (m.acts d).skipped = false := by
      intro d hd'
      have := List.any_eq_false.1 hsk.1 d hd'
      simpa using this
    cases hi : initiate c.rpcTable c.hasPeers x with
    | crash =>
      refine .inl ⟨fun _ => ⟨rfl, rfl, rfl, rfl, rfl⟩, ?_, rfl⟩
      rw [hph]; simp
    | stuck =>
      refine .inr ⟨{ m.acts i with
          started := true, waiting := false,
          sender := !m.sentEarly && (c.size == 1 || x.proto.sendResponseWhenDone), stuck := true }, ?_⟩
      refine ⟨hx, hns, ⟨hopen, hopen⟩, hdeps, fun j => rfl, rfl, rfl, .inl ⟨hself.2, hself.1, ?_, hskd⟩⟩
      exact responses_cons_other (by simp)
    | runs o =>
      refine .inr ⟨{ m.acts i with
          started := true, waiting := false,
          sender := !m.sentEarly && (c.size == 1 || x.proto.sendResponseWhenDone), override := o }, ?_⟩
      refine ⟨hx, hns, ⟨hopen, hopen⟩, hdeps, fun j => rfl, rfl, rfl, .inl ⟨hself.2, hself.1, ?_, hskd⟩⟩
      exact responses_cons_other (by simp)

theorem visit_shape {c : Ctx} {m : State} {i : Nat} {delay : Int} (hC : CoreS c m) (hph : m.phase = .scan i) :
    Same m (visit c delay i m) ∨ ∃ x A, Begun c m (visit c delay i m) i x A := by
  unfold visit
  cases hx : c.entry.listActions[i]? with
  | none => exact .inl (Same.refl m)
  | some x =>
    dsimp only
    split
    · exact .inl (Same.refl m)
    · rename_i hns
      split
      · exact .inl (Same.refl m)
      · split
        · exact .inl (Same.refl m)
        · rename_i hdep
          split
          · refine .inl ⟨?_, Iff.rfl, responses_cons_other (by simp)⟩
            intro j
            simp only [setAct]
            by_cases hj : j = i
            · subst hj; simp
            · simp [hj]
          · rcases start_shape hC hph hx (by simpa using hns) (any_false_deps hdep) with h2 | ⟨A, h2⟩
            · exact .inl h2
            · exact .inr ⟨x, A, h2⟩

theorem responses_pos {log : List Event} (h : responses log ≠ 0) : ∃ b o, .response b o ∈ log := by
  unfold responses at h
  obtain ⟨e, h1, h2⟩ := List.countP_pos_iff.1 (Nat.pos_of_ne_zero h)
  cases e with
  | response b o => exact ⟨b, o, h1⟩
  | _ => simp at h2

theorem no_response {c : Ctx} {m : State} (hC : CoreS c m)
    (h : ∀ i, (m.acts i).sender = true → (m.acts i).called = false) : responses m.log = 0 := by
  apply Classical.byContradiction
  intro h0
  obtain ⟨b, o, h1⟩ := responses_pos h0
  cases b with
  | none => exact hC.log_none o h1
  | some i =>
    obtain ⟨h2, h3⟩ := (hC.log_resp i).1 ⟨o, h1⟩
    rw [h i h2] at h3
    cases h3

theorem early_response {c : Ctx} {m : State} (hC : CoreS c m) (h : m.sentEarly = false) : responses m.log = 0 :=
  no_response hC fun i hi => by
    have := (hC.sender_started i hi).2.1
    rw [h] at this
    cases this

/-- What a step of the thread of a list leaves alone. -/
structure Frame (m m' : State) : Prop where
  kept : ∀ i, (m.acts i).started = true → (m'.acts i).started = true ∧ (m'.acts i).skipped = (m.acts i).skipped ∧
    (m'.acts i).stuck = (m.acts i).stuck ∧ (m'.acts i).called = (m.acts i).called
  fresh : ∀ i, (m'.acts i).called = true → (m.acts i).called = true ∨
    (m.acts i).started = false ∧ (m'.acts i).skipped = true
  resp : responses m'.log = responses m.log ∨ responses m.log = 0 ∧ responses m'.log = 1

theorem Same.frame {m m' : State} (h : Same m m') : Frame m m' := by
  refine ⟨fun i hi => ?_, fun i hi => ?_, .inl h.log⟩
  · obtain ⟨h1, h2, h3, -, h5⟩ := h.acts i
    exact ⟨by rw [h1]; exact hi, h2, h5, h3⟩
  · rw [(h.acts i).2.2.1] at hi
    exact .inl hi

theorem Begun.frame {c : Ctx} {m m' : State} {i : Nat} {x : ActionEntry} {A : Act} (hC : CoreS c m)
    (h : Begun c m m' i x A) : Frame m m' := by
  refine ⟨fun j hj => ?_, fun j hj => ?_, ?_⟩
  · have : j ≠ i := by rintro rfl; rw [h.fresh] at hj; cases hj
    rw [h.acts j, if_neg this]
    exact ⟨hj, rfl, rfl, rfl⟩
  · rw [h.acts j] at hj ⊢
    by_cases hji : j = i
    · subst hji
      rw [if_pos rfl] at hj ⊢
      rcases h.how with ⟨-, h2, -⟩ | ⟨h1, -⟩
      · rw [hj] at h2; cases h2
      · exact .inr ⟨h.fresh, h1⟩
    · rw [if_neg hji] at hj
      exact .inl hj
  · rcases h.how with ⟨-, -, h3, -⟩ | ⟨-, -, h3, -⟩
    · exact .inl h3
    · cases hA : A.sender with
      | false => rw [hA] at h3; exact .inl h3
      | true =>
        rw [hA] at h3
        have := h.sender
        rw [hA] at this
        have hse : m.sentEarly = false := by
          cases hse : m.sentEarly with
          | false => rfl
          | true => rw [hse] at this; cases this
        have h0 := early_response hC hse
        rw [h0] at h3
        exact .inr ⟨h0, h3⟩

theorem cancelLoop_none {c : Ctx} (ha : ∀ i, c.activityAt i = false) (l : List Nat) (s : State) :
    cancelLoop c l s = s := by
  induction l with
  | nil => rfl
  | cons i l ih =>
    unfold cancelLoop
    rw [ha i]
    simp only [ih, Bool.false_eq_true, if_false, ite_self]

theorem cancelActivities_none {c : Ctx} (ha : ∀ i, c.activityAt i = false) (s : State) :
    cancelActivities c s = s := by
  unfold cancelActivities
  rw [cancelLoop_none ha]
  dsimp only
  rw [if_neg]
  simp [ha]

theorem frame_phase {m m' : State} (h : Frame m m') (p : Phase) : Frame m { m' with phase := p } :=
  ⟨h.kept, h.fresh, h.resp⟩

theorem frame_refl (m : State) : Frame m m := (Same.refl m).frame

theorem main_open {c : Ctx} {m m' : State} (h : MainStep c m m') : m.phase ≠ .done := by
  intro hd
  cases h <;> simp_all

/-- What a step of the thread of a list without activities does. -/
theorem main_frame {c : Ctx} {m m' : State} (hI : Inv c m) (ha : ∀ i, c.activityAt i = false)
    (h : MainStep c m m') : Frame m m' := by
  have hopen := main_open h
  obtain ⟨hC, hS⟩ := inv_core hI hopen
  cases h with
  | visit i delay hph hi =>
    have hv : Frame m (visit c delay i m) := by
      rcases visit_shape (delay := delay) hC hph with h2 | ⟨x, A, h2⟩
      · exact h2.frame
      · exact h2.frame hC
    unfold advance
    split
    · exact hv
    · exact frame_phase hv _
  | scanned hph => exact frame_phase (frame_refl m) _
  | wake hph => exact frame_phase same_handle.frame _
  | timeout hph => exact frame_phase (frame_refl m) _
  | resume now hph => exact ⟨(frame_refl m).kept, (frame_refl m).fresh, .inl rfl⟩
  | cancel hph hc =>
    rw [cancelActivities_none ha]
    exact frame_phase (frame_refl m) _
  | drain hph => exact frame_phase same_handle.frame _
  | exit hph =>
    refine ⟨(frame_refl m).kept, (frame_refl m).fresh, ?_⟩
    show responses (.freed :: _) = _ ∨ _ ∧ responses (.freed :: _) = _
    rw [responses_cons_other (by simp)]
    cases hse : m.sentEarly with
    | true => exact .inl rfl
    | false =>
      right
      have h0 := early_response hC hse
      refine ⟨h0, ?_⟩
      show responses (.response none m.listOverride :: m.log) = 1
      unfold responses at h0 ⊢
      rw [List.countP_cons, h0]
      rfl

theorem callback_resp {c : Ctx} {m : State} {i : Nat} (hC : CoreS c m) (hc : (m.acts i).called = false) :
    responses (callback c i m).log = responses m.log ∨
      responses m.log = 0 ∧ responses (callback c i m).log = 1 := by
  rw [callback_log]
  cases hx : (m.acts i).sender with
  | false => exact .inl rfl
  | true =>
    right
    have h0 : responses m.log = 0 := no_response hC fun j hj => by rw [hC.sender_unique j i hj hx]; exact hc
    rw [h0]
    exact ⟨rfl, rfl⟩

/-- A list that is over, or about to be, has seen the end of every action that it started. -/
theorem ended_closed {c : Ctx} {m : State} (hI : Inv c m) (hd : m.phase = .done ∨ m.phase = .exit) {i : Nat}
    (hi : (m.acts i).started = true) : (m.acts i).called = true ∧ (m.acts i).closed = true := by
  rcases hd with hd | hd
  · rw [Inv, if_pos hd] at hI
    obtain ⟨s0, h1, hC, hS, h2, -⟩ := hI
    rw [h2] at hi ⊢
    have := hC.fin_closed _ ((hS.exit h1).1 i hi)
    exact ⟨hC.closed_called _ this, this⟩
  · obtain ⟨hC, hS⟩ := inv_core hI (by rw [hd]; simp)
    have := hC.fin_closed _ ((hS.exit hd).1 i hi)
    exact ⟨hC.closed_called _ this, this⟩

/-- A list that is over has sent its response. -/
theorem done_responded {c : Ctx} {m : State} (hI : Inv c m) (hd : m.phase = .done) : 0 < responses m.log := by
  have hI' := hI
  rw [Inv, if_pos hd] at hI'
  obtain ⟨s0, h1, hC, hS, h2, h3, -⟩ := hI'
  rw [h3]
  show 0 < responses (.freed :: _)
  rw [responses_cons_other (by simp)]
  cases hse : s0.sentEarly with
  | false =>
    show 0 < responses (.response none s0.listOverride :: s0.log)
    unfold responses
    rw [List.countP_cons]
    simp
  | true =>
    obtain ⟨i, hi⟩ := hC.sent_sender hse
    have h4 := (hC.sender_started i hi).1
    have h5 := hC.closed_called _ (hC.fin_closed _ ((hS.exit h1).1 i h4))
    obtain ⟨o, ho⟩ := (hC.log_resp i).2 ⟨hi, h5⟩
    simp only [if_true]
    unfold responses
    exact List.countP_pos_iff.2 ⟨_, ho, rfl⟩

/-- If only the end of the list, or of its single action, sends the response, then once it is sent every action
that was started has reported its end. -/
theorem responded_called {c : Ctx} {m : State} (hI : Inv c m)
    (hl : ∀ (i : Nat) x, c.entry.listActions[i]? = some x → x.proto.sendResponseWhenDone = false)
    (hr : responses m.log ≠ 0) {i : Nat} (hi : (m.acts i).started = true) : (m.acts i).called = true := by
  by_cases hd : m.phase = .done
  · exact (ended_closed hI (.inl hd) hi).1
  · obtain ⟨hC, hS⟩ := inv_core hI hd
    obtain ⟨b, o, h1⟩ := responses_pos hr
    cases b with
    | none => exact absurd h1 (hC.log_none o)
    | some j =>
      obtain ⟨h2, h3⟩ := (hC.log_resp j).1 ⟨o, h1⟩
      obtain ⟨h4, -, h5⟩ := hC.sender_started j h2
      have hi' := hC.started_lt i hi
      have hj' := hC.started_lt j h4
      have : i = j := by
        obtain ⟨x, hx, h5⟩ := h5
        rcases h5 with h5 | h5
        · rw [hl j x hx] at h5
          cases h5
        · unfold Ctx.size at hi' hj'
          omega
      rw [this]
      exact h3

end Distbench.ActionList

namespace Distbench.Iterations
open Spec

/-- The invariant of a closed loop that is not an activity. -/
structure Steady (p : Params) (s : State) : Prop where
  quiet : p.activity = false
  single : p.openLoop = false
  counts : Closed p s
  window : Window p s
  begun : p.copies ≤ s.next
  some : 0 < p.copies
  small : s.next < 2 ^ 31

theorem steady_work {p : Params} {s s' : State} (h : Steady p s) (hw : Work p s s') : Steady p s' :=
  ⟨h.quiet, h.single, closed_work h.single h.quiet h.counts hw, window_work h.single h.quiet h.window hw,
    copies_work hw h.begun, h.some, small_work hw h.small⟩

theorem steady_idle {p : Params} {s s' : State} (h : Steady p s) (hw : Idle p s s') : Steady p s' :=
  ⟨h.quiet, h.single, closed_idle h.single h.counts hw, window_idle h.single h.window hw,
    by rw [(idle_frame hw).2.2.2.1]; exact h.begun, h.some, by rw [(idle_frame hw).2.2.2.1]; exact h.small⟩

theorem steady_started {p : Params} {s s' : State} {n t : Int} {b : Bool} (h : Steady p s) (hw : Work p s s')
    (hl : s'.log = .started n b t :: s.log) : 0 ≤ n ∧ starts n s.log = 0 ∧ reports s.log = 0 := by
  have h' := steady_work h hw
  have e1 : starts n s'.log = starts n s.log + 1 := by rw [hl]; simp [starts]; omega
  have e2 : allStarts s'.log = allStarts s.log + 1 := by rw [hl]; simp [allStarts]; omega
  have e3 : reports s'.log = reports s.log := by rw [hl]; simp [reports]
  have e4 : allEnds s'.log = allEnds s.log := by rw [hl]; simp [allEnds]
  have hn := h'.counts.num n
  have hp := h'.counts.pend
  have ht := h'.counts.total
  have hc := (h'.counts.call h.some).2
  have hi := h'.counts.issued
  have r1 := h.counts.book.run
  have r2 := h'.counts.book.run
  refine ⟨?_, ?_, ?_⟩
  · split at hn <;> split at hn <;> omega
  · split at hn <;> split at hn <;> omega
  · have := hc (by omega)
    omega

theorem steady_reported {p : Params} {s : State} (h : Steady p s) (hr : 0 < reports s.log) :
    runs s.threads = 0 ∧ reports s.log = 1 ∧ calls s.threads = 0 := by
  have hp := h.counts.pend
  have hc := h.counts.call h.some
  have hi := h.counts.issued
  have heq : s.next = s.finished := by
    apply Classical.byContradiction
    intro hne
    have := hc.2 hne
    omega
  have := hc.1 heq
  omega

theorem steady_done {p : Params} {s s' : State} (h : Steady p s) (hw : Work p s s')
    (hl : s'.log = .allDone :: s.log) : reports s.log = 0 := by
  have e3 : reports s'.log = reports s.log + 1 := by rw [hl]; simp [reports]; omega
  have := (steady_reported (steady_work h hw) (by omega)).2.1
  omega

end Distbench.Iterations

namespace Distbench.Loops
open Tables Services Whole Spec

theorem closed_params {a : Action} (now : Int) (b : Bool)
    (hc : ∀ it, a.iterations = some it → it.openLoopIntervalNs = none)
    (h : ∀ it, a.iterations = some it → 1 ≤ it.maxParallelIterations ∧
      match it.maxIterationCount with
      | some n => 1 ≤ n ∧ n < 2 ^ 31
      | none => it.maxParallelIterations < 2 ^ 31) :
    0 < (Iterations.params a now b).copies ∧
    (Iterations.params a now b).copies ≤ (Iterations.params a now b).limit ∧
    (Iterations.params a now b).copies ≤ parallelOf a ∧ (Iterations.params a now b).openLoop = false := by
  unfold Iterations.params parallelOf
  cases hi : a.iterations with
  | none => simp [Iterations.narrow]
  | some it =>
    obtain ⟨h1, h2⟩ := h it hi
    dsimp only [Option.getD_some]
    cases hm : it.maxIterationCount with
    | none =>
      rw [hm] at h2
      dsimp only [Option.getD_none] at h2 ⊢
      rw [narrow_small (by omega) (by omega), hc it hi]
      exact ⟨by omega, by omega, by omega, rfl⟩
    | some n =>
      rw [hm] at h2
      dsimp only [Option.getD_some] at h2 ⊢
      rw [narrow_small (by omega) (by omega), hc it hi]
      exact ⟨by omega, by omega, by omega, rfl⟩

theorem steady_initiate {cfg : Config} (hp : CancelTest cfg) {a : Action} (ham : a ∈ cfg.actions) {now spread : Int}
    {b canceled : Bool} {st : Iterations.State} (hi : Iterations.initiate a now b canceled spread = .ok st) :
    Iterations.Steady (Iterations.params a now b) st ∧ st.log = [] ∧ st.canceled = canceled ∧ st.issued = 0 ∧
      st.threads = [] ∧ st.next = (Iterations.params a now b).copies ∧ st.overflow = false := by
  obtain ⟨h1, h2, h3, h4⟩ := closed_params now b (hp.closedLoops a ham) (hp.limited a ham)
  have hact : (Iterations.params a now b).activity = false := by
    unfold Iterations.params
    cases hk : a.kind with
    | activity n => exact absurd hk (hp.activities a ham n)
    | _ => rfl
  unfold Iterations.initiate at hi
  dsimp only at hi
  have hlog := Iterations.begin_log hi
  have hnar : (Iterations.params a now b).copies < 2 ^ 31 := by
    unfold Iterations.params Iterations.narrow
    dsimp only
    omega
  have hcl := Iterations.closed_begin h4 h2 hi
  have hw := Iterations.window_begin h4 hi
  unfold Iterations.begin at hi
  rw [h4] at hi
  simp only [Bool.false_eq_true, if_false] at hi
  split at hi
  · cases hi
  · injection hi with hi
    rw [← hi] at hcl hw ⊢
    exact ⟨⟨hact, h4, hcl, hw, Int.le_refl _, h1, hnar⟩, rfl, rfl, rfl, rfl, rfl, rfl⟩

end Distbench.Loops
