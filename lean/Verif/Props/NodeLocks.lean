import Verif.Spec.NodeLocks

/-! Properties of the locks of a node manager. -/

namespace Distbench.NodeLocks
open Distbench.Spec

theorem Run.append {o s es t fs u} (h : Run o s es t) (h' : Run o t fs u) : Run o s (es ++ fs) u := by
  induction h with
  | here => exact h'
  | step hs _ ih => exact .step hs (ih h')

/-! ### C210 -/

/-- A call that has the mutex alone excludes traffic. -/
theorem alone_idle {o s es t} (h : Run o s es t) (hs : s.alone = true → s.running = 0) :
    t.alone = true → t.running = 0 := by
  induction h with
  | here => exact hs
  | step hst _ ih =>
    refine ih ?_
    cases hst with
    | callRun => exact hs
    | callCancel => exact hs
    | callAlone => exact hs
    | run _ hsh => intro h; rw [hsh.1] at h; cases h
    | over hr _ => intro h; have := hs h; omega
    | stop hr _ => intro h; have := hs h; omega
    | alone _ _ hr => intro _; exact hr
    | leave _ _ _ => intro h; cases h
    | cancel _ hsh => intro h; rw [hsh.1] at h; cases h

/-- Missing from the full property: states in which other calls wait to have the mutex alone while
traffic is running, if such calls hold off `CancelTraffic`, as they do with `absl::Mutex`.
In all other states that a node gets into, a waiting `CancelTraffic` can be carried out at once, or
after a call that has the mutex alone. -/
theorem C210_cancel_partial {overtake : Bool} {es s} (h : Run overtake {} es s)
    (hw : s.waitingCancels ≠ 0) (hn : overtake = true ∨ s.waitingAlone = 0 ∨ s.running = 0) :
    CancelGetsThrough overtake s := by
  obtain ⟨c, hc⟩ := Nat.exists_eq_succ_of_ne_zero hw
  -- a call that has the mutex alone leaves
  have free : ∃ fs s', Run overtake s fs s' ∧ .over ∉ fs ∧ s'.alone = false ∧
      s'.waitingCancels = s.waitingCancels ∧ s'.waitingAlone = s.waitingAlone ∧
      s'.running = s.running := by
    cases ha : s.alone with
    | false => exact ⟨[], s, .here, by simp, ha, rfl, rfl, rfl⟩
    | true =>
      exact ⟨[.leave], _, .step (.leave false ha (by simp)) .here, by simp, rfl, rfl, rfl, rfl⟩
  obtain ⟨fs, s', hr, hno, ha, hcs, hws, hrs⟩ := free
  -- with no traffic, the calls that wait to have it alone come and go
  have drain : ∀ n (u : Calls), u.waitingAlone = n → u.alone = false → u.running = 0 →
      ∃ fs v, Run overtake u fs v ∧ .over ∉ fs ∧ v.alone = false ∧ v.waitingAlone = 0 ∧
        v.waitingCancels = u.waitingCancels := by
    intro n
    induction n with
    | zero => intro u hn ha _; exact ⟨[], u, .here, by simp, ha, hn, rfl⟩
    | succ n ih =>
      intro u hn ha hru
      have h1 : Step overtake u .enter { u with waitingAlone := n, alone := true } :=
        .alone hn ha hru
      have h2 : Step overtake { u with waitingAlone := n, alone := true } .leave
          { u with waitingAlone := n, alone := false, cancelled := false } :=
        .leave false rfl (by simp)
      obtain ⟨fs, v, hv, hno, h3, h4, h5⟩ :=
        ih { u with waitingAlone := n, alone := false, cancelled := false } rfl rfl hru
      exact ⟨_, v, .step h1 (.step h2 hv), by simp [hno], h3, h4, h5⟩
  have fin : ∃ gs v, Run overtake s' gs v ∧ .over ∉ gs ∧ v.shareable overtake ∧
      v.waitingCancels = s.waitingCancels := by
    rcases hn with h | h | h
    · exact ⟨[], s', .here, by simp, ⟨ha, .inl h⟩, hcs⟩
    · exact ⟨[], s', .here, by simp, ⟨ha, .inr (hws.trans h)⟩, hcs⟩
    · obtain ⟨gs, v, h1, h2, h3, h4, h5⟩ := drain _ s' rfl ha (hrs.trans h)
      exact ⟨gs, v, h1, h2, ⟨h3, .inr h4⟩, h5.trans hcs⟩
  obtain ⟨gs, v, hv, hno2, hsh, hcv⟩ := fin
  refine ⟨fs ++ gs ++ [.cancel], _, ((hr.append hv).append (.step (.cancel (hcv.trans hc) hsh) .here)),
    ?_, by simp⟩
  simp [hno, hno2]

/-- Nothing gets through while traffic runs that nobody told to stop and another call waits to have
the mutex alone. -/
theorem blocked {s es t} (h : Run false s es t) (hr : s.running ≠ 0) (hw : s.waitingAlone ≠ 0)
    (hc : s.cancelled = false) (ha : s.alone = false) (hno : .over ∉ es) :
    .cancel ∉ es ∧ .stop ∉ es ∧ t.running ≠ 0 := by
  induction h with
  | here => exact ⟨by simp, by simp, hr⟩
  | step hst _ ih =>
    rw [List.mem_cons, not_or] at hno
    have next : ∀ {e : Event} {b c : Prop} {es : List Event}, e ≠ .cancel → e ≠ .stop →
        (.cancel ∉ es ∧ .stop ∉ es ∧ b) → (.cancel ∉ e :: es ∧ .stop ∉ e :: es ∧ b) := by
      rintro e b c es h1 h2 ⟨h3, h4, h5⟩
      exact ⟨by simp [h3, h1.symm], by simp [h4, h2.symm], h5⟩
    cases hst with
    | callRun => exact next (c := True) (by simp) (by simp) (ih hr hw hc ha hno.2)
    | callCancel => exact next (c := True) (by simp) (by simp) (ih hr hw hc ha hno.2)
    | callAlone => exact next (c := True) (by simp) (by simp) (ih hr (by simp) hc ha hno.2)
    | run _ hsh =>
      rcases hsh.2 with h | h
      · cases h
      · exact absurd h hw
    | over _ _ => exact absurd rfl hno.1
    | stop _ h => rw [hc] at h; cases h
    | alone _ _ h => exact absurd h hr
    | leave _ h _ => rw [ha] at h; cases h
    | cancel _ hsh =>
      rcases hsh.2 with h | h
      · cases h
      · exact absurd h hw

/-- A node runs traffic, `ConfigureNode` and then `CancelTraffic` are called. -/
def overtaken : Calls := { running := 1, waitingAlone := 1, waitingCancels := 1 }

theorem overtaken_reached (o : Bool) : Run o {} [.call, .enter, .call, .call] overtaken :=
  .step .callRun (.step (.run rfl ⟨rfl, .inr rfl⟩) (.step .callAlone (.step .callCancel .here)))

/-- The property fails: with a mutex that lets a call that wants to have it alone go first, a call of
`ConfigureNode` (or `GetTrafficResult`) during the traffic keeps out each later `CancelTraffic`.  If the
traffic does not end by itself, neither of them is ever carried out. -/
theorem C210_false :
    (∃ es s, Run false {} es s ∧ s.waitingCancels ≠ 0 ∧ ¬ CancelGetsThrough false s) ∧
    ∀ es t, Run false overtaken es t → .over ∉ es → .cancel ∉ es ∧ .stop ∉ es ∧ t.running ≠ 0 := by
  have h : ∀ es t, Run false overtaken es t → .over ∉ es →
      .cancel ∉ es ∧ .stop ∉ es ∧ t.running ≠ 0 :=
    fun es t h hno => blocked h (by simp [overtaken]) (by simp [overtaken]) rfl rfl hno
  refine ⟨⟨_, overtaken, overtaken_reached false, by simp [overtaken], ?_⟩, h⟩
  rintro ⟨es, t, hr, hno, hc⟩
  exact (h es t hr hno).1 hc

/-- Traffic that runs, and a call to cancel it. -/
example : CancelGetsThrough false { running := 1, waitingCancels := 1 } :=
  C210_cancel_partial (es := [.call, .enter, .call])
    (.step .callRun (.step (.run rfl ⟨rfl, .inr rfl⟩) (.step .callCancel .here)))
    (by simp) (.inr (.inl rfl))

/-! ### C211 -/

theorem finish_others (n : Nat) : ∀ s : Startup, s.others = n →
    StartRun s { s with others := 0 } := by
  induction n with
  | zero => intro s h; cases s; cases h; exact .here
  | succ n ih =>
    intro s h
    exact .step (.finish h) (ih { s with others := n } rfl)

/-- Missing from the full property: states in which the registration has failed while a call waits for
the name of the node.  From all other states the start-up can get to its end. -/
theorem C211_startup_partial {s : Startup} (_h : StartRun {} s)
    (hn : s.phase = .closing → s.naming = 0) : ∃ t, StartRun s t ∧ StartupReturned t := by
  cases hp : s.phase with
  | registering => exact ⟨_, .step (.accepted hp) .here, .inl rfl⟩
  | serves => exact ⟨s, .here, .inl hp⟩
  | failed => exact ⟨s, .here, .inr hp⟩
  | closing =>
    have h1 := finish_others _ s rfl
    have app : ∀ {a b c}, StartRun a b → StartRun b c → StartRun a c := by
      intro a b c h h'
      induction h with
      | here => exact h'
      | step hs _ ih => exact .step hs (ih h')
    exact ⟨_, app h1 (.step (.closed hp (hn hp) rfl) .here), .inr rfl⟩

theorem closing_stays {s t : Startup} (h : StartRun s t) (hp : s.phase = .closing)
    (hn : s.naming ≠ 0) : t.phase = .closing ∧ t.naming ≠ 0 := by
  induction h with
  | here => exact ⟨hp, hn⟩
  | step hst _ ih =>
    cases hst with
    | named h => rw [hp] at h; rcases h with h | h <;> cases h
    | other h => rw [hp] at h; rcases h with h | h <;> cases h
    | name _ h => rw [hp] at h; rcases h with h | h <;> cases h
    | finish _ => exact ih hp hn
    | accepted h => rw [hp] at h; cases h
    | refused h => rw [hp] at h; cases h
    | closed _ h _ => exact absurd h hn

/-- The property fails: when `CancelTraffic`, `GetTrafficResult` or `ShutdownNode` is called while the
node registers, and the registration fails, the start-up waits for the call and the call for the
start-up, for ever. -/
theorem C211_false : ∃ s, StartRun {} s ∧ ∀ t, StartRun s t → ¬ StartupReturned t := by
  refine ⟨{ phase := .closing, naming := 1 }, .step (.named (.inl rfl)) (.step (.refused rfl) .here),
    fun t ht hr => ?_⟩
  have := (closing_stays ht rfl (by simp)).1
  rcases hr with h | h <;> rw [this] at h <;> cases h

/-- A registration that fails while another call is being served. -/
example : ∃ t, StartRun { phase := .closing, others := 1 } t ∧ StartupReturned t :=
  C211_startup_partial (.step (.other (.inl rfl)) (.step (.refused rfl) .here)) (fun _ => rfl)

end Distbench.NodeLocks
