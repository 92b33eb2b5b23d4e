import Verif.Lemmas.Rounds

/-! The course of a test, round by round. -/

namespace Distbench.Sequencer
open Placement Services Spec
open Handler (Status)

/-- The RPCs of one round. -/
def roundMsgs (to : List (Str × Nat)) (f : Str → Msg) : List (Str × Nat × Msg) :=
  to.map fun n => (n.1, n.2, f n.1)

/-- The course of a test: which rounds took place, and how it ended. -/
inductive TestView (w : World) (t : Test) (ran : Ran) : Prop
  | nothing (e) : ran.sent = [] → ran.result = .error e → TestView w t ran
  | rounds (instances m to) (rest : List (List (Str × Nat × Msg)))
      (hi : problemServices t.services = some instances)
      (hm : placeServices w.glob (problemOf (w.registry 0) t instances) = .ok m)
      (hkeys : to.map (·.1) = m.map (·.1)) (hnd : (to.map (·.1)).Nodup)
      (hall : ∀ n, n ∈ to.map (·.1) ↔ n ∈ (activeNodes (w.registry 0)).map (·.1))
      (hfind : ∀ n id, (n, id) ∈ to → (w.registry 0).byAlias.find n = some id)
      (peers : EndpointMap)
      (hpeers : peers = mergeAnswers
        ((w.order 1 to).map fun n => (n.1, w.configure n.2 (servicesOf m n.1))))
      (timeout : Int)
      (hrest : [roundMsgs to fun n => .configure (servicesOf m n), roundMsgs to fun _ => .introduce peers,
          roundMsgs to fun _ => .run w.now (toInt32 timeout), roundMsgs to fun _ => .collect] = rest)
      (k : Nat) (hk : k < 4) (hsent : ran.sent = (rest.take (k + 1)).flatten)
      (hbefore : ∀ x ∈ (rest.take k).flatten, Succeeded w x.2.1 x.2.2)
      (htime : 2 ≤ k → namedAttributeInt64 t.attributes "test_timeout".toList 3600 = .ok timeout)
      (hend :
        (∃ x ∈ (rest.drop k).head!, ∃ e, FailedWith w x.2.1 x.2.2 e ∧ ran.result =
          .error (rpcName x.2.2 ++ " to ".toList ++ x.1 ++ " failed: ".toList ++ e.message)) ∨
        ((∀ x ∈ ran.sent, Succeeded w x.2.1 x.2.2) ∧
          ((k = 1 ∧ ∃ e, namedAttributeInt64 t.attributes "test_timeout".toList 3600 = .error e ∧
            ran.result = .error e) ∨
          (k = 3 ∧ ran.result = .ok
            { placement := peers
              logs := mergeAnswers (((w.order 4 to).map fun n => (n.1, w.collect n.2)).map
                fun a => (a.1, a.2.map (·.logs)))
              usages := mergeAnswers (((w.order 4 to).map fun n => (n.1, w.collect n.2)).map
                fun a => (a.1, a.2.map (·.usages))) })))) :
      TestView w t ran

theorem round_ok {α : Type} {rpc : Str} {to ord : List (Str × Nat)} {g : Str × Nat → Except Status α}
    (hp : ord.Perm to) (h : roundStatus rpc (ord.map fun n => (n.1, g n)) = none) :
    ∀ n ∈ to, ∃ v, g n = .ok v := by
  intro n hn
  rw [round_none] at h
  exact h (n.1, g n) (List.mem_map.2 ⟨n, hp.mem_iff.2 hn, rfl⟩)

theorem round_err {α : Type} {rpc : Str} {e : Status} {to ord : List (Str × Nat)}
    {g : Str × Nat → Except Status α} (hp : ord.Perm to)
    (h : roundStatus rpc (ord.map fun n => (n.1, g n)) = some e) :
    ∃ n ∈ to, ∃ e', g n = .error e' ∧
      e.message = rpc ++ " to ".toList ++ n.1 ++ " failed: ".toList ++ e'.message := by
  obtain ⟨a, h1, e', h2, rfl⟩ := round_some _ h
  obtain ⟨n, h3, rfl⟩ := List.mem_map.1 h1
  exact ⟨n, hp.mem_iff.1 h3, e', h2, rfl⟩

theorem doRunTest_view {w : World} (hw : Orderly w) {t : Test} {ran : Ran}
    (h : doRunTest w t = .ok ran) : TestView w t ran := by
  unfold doRunTest at h
  split at h
  · simp only [Outcome.ok.injEq] at h
    subst h
    exact .nothing _ rfl rfl
  · split at h
    · cases h
    · rename_i instances hi
      split at h
      · cases h
      · cases h
      · simp only [Outcome.ok.injEq] at h
        subst h
        exact .nothing _ rfl rfl
      · rename_i m hm
        obtain ⟨to, a1, a2, a3, _, hkeys, hnd, hall, hfind⟩ := same_addressees hw rfl hm
        simp only [a1, a2, Outcome.bind] at h
        generalize hpeers : mergeAnswers
          ((w.order 1 to).map fun n => (n.1, w.configure n.2 (servicesOf m n.1))) = peers at h
        split at h
        · rename_i e he
          simp only [Outcome.ok.injEq] at h
          subst h
          obtain ⟨n, hn, e', h1, h2⟩ := round_err (hw.order 1 to) he
          refine .rounds instances m to _ hi hm hkeys hnd hall hfind peers hpeers.symm 0 rfl 0
            (by decide) (by simp [roundMsgs]) (by simp) (by omega) (Or.inl ?_)
          refine ⟨(n.1, n.2, .configure (servicesOf m n.1)), ?_, e', h1, ?_⟩
          · exact List.mem_map.2 ⟨n, hn, rfl⟩
          · rw [h2]; rfl
        · rename_i he
          have s1 := round_ok (hw.order 1 to) he
          have ok1 : ∀ x ∈ roundMsgs to fun n => .configure (servicesOf m n), Succeeded w x.2.1 x.2.2 := by
            intro x hx
            obtain ⟨n, hn, rfl⟩ := List.mem_map.1 hx
            exact s1 n hn
          split at h
          · rename_i e he2
            simp only [Outcome.ok.injEq] at h
            subst h
            obtain ⟨n, hn, e', h1, h2⟩ := round_err (hw.order 2 to) he2
            refine .rounds instances m to _ hi hm hkeys hnd hall hfind peers hpeers.symm 0 rfl 1
              (by decide) (by simp [roundMsgs]) (by simpa using ok1) (by omega) (Or.inl ?_)
            refine ⟨(n.1, n.2, .introduce peers), ?_, e', h1, ?_⟩
            · exact List.mem_map.2 ⟨n, hn, rfl⟩
            · rw [h2]; rfl
          · rename_i he2
            have s2 := round_ok (hw.order 2 to) he2
            have ok2 : ∀ x ∈ roundMsgs to fun _ => .introduce peers, Succeeded w x.2.1 x.2.2 := by
              intro x hx
              obtain ⟨n, hn, rfl⟩ := List.mem_map.1 hx
              exact s2 n hn
            split at h
            · rename_i e hte
              simp only [Outcome.ok.injEq] at h
              subst h
              refine .rounds instances m to _ hi hm hkeys hnd hall hfind peers hpeers.symm 0 rfl 1
                (by decide) (by simp [roundMsgs]) (by simpa using ok1) (by omega) (Or.inr ⟨?_, Or.inl ⟨rfl, e, hte, rfl⟩⟩)
              intro x hx
              rcases List.mem_append.1 hx with hx | hx
              · exact ok1 x hx
              · exact ok2 x hx
            · rename_i timeout hte
              unfold runTraffic at h
              simp only [a3, Outcome.bind] at h
              split at h
              · rename_i e he3
                simp only [Outcome.ok.injEq] at h
                subst h
                obtain ⟨n, hn, e', h1, h2⟩ := round_err (hw.order 3 to) he3
                refine .rounds instances m to _ hi hm hkeys hnd hall hfind peers hpeers.symm timeout rfl 2
                  (by decide) (by simp [roundMsgs]) ?_ (fun _ => hte) (Or.inl ?_)
                · intro x hx
                  simp only [List.take_succ_cons, List.take_zero, List.flatten_cons, List.flatten_nil,
                    List.append_nil] at hx
                  rcases List.mem_append.1 hx with hx | hx
                  · exact ok1 x hx
                  · exact ok2 x hx
                · refine ⟨(n.1, n.2, .run w.now (toInt32 timeout)), ?_, e', h1, ?_⟩
                  · exact List.mem_map.2 ⟨n, hn, rfl⟩
                  · rw [h2]; rfl
              · rename_i he3
                have s3 := round_ok (hw.order 3 to) he3
                have ok3 : ∀ x ∈ roundMsgs to fun _ => .run w.now (toInt32 timeout), Succeeded w x.2.1 x.2.2 := by
                  intro x hx
                  obtain ⟨n, hn, rfl⟩ := List.mem_map.1 hx
                  exact s3 n hn
                have okb : ∀ x ∈ (List.take 3 [roundMsgs to fun n => .configure (servicesOf m n),
                    roundMsgs to fun _ => .introduce peers,
                    roundMsgs to fun _ => .run w.now (toInt32 timeout),
                    roundMsgs to fun _ => .collect]).flatten, Succeeded w x.2.1 x.2.2 := by
                  intro x hx
                  simp only [List.take_succ_cons, List.take_zero, List.flatten_cons, List.flatten_nil,
                    List.append_nil] at hx
                  rcases List.mem_append.1 hx with hx | hx
                  · exact ok1 x hx
                  · rcases List.mem_append.1 hx with hx | hx
                    · exact ok2 x hx
                    · exact ok3 x hx
                split at h
                · rename_i e he4
                  simp only [Outcome.ok.injEq] at h
                  subst h
                  obtain ⟨n, hn, e', h1, h2⟩ := round_err (hw.order 4 to) he4
                  refine .rounds instances m to _ hi hm hkeys hnd hall hfind peers hpeers.symm timeout rfl 3
                    (by decide) (by simp [roundMsgs]) okb (fun _ => hte) (Or.inl ?_)
                  refine ⟨(n.1, n.2, .collect), ?_, e', h1, ?_⟩
                  · exact List.mem_map.2 ⟨n, hn, rfl⟩
                  · rw [h2]; rfl
                · rename_i he4
                  simp only [Outcome.ok.injEq] at h
                  subst h
                  have s4 := round_ok (hw.order 4 to) he4
                  refine .rounds instances m to _ hi hm hkeys hnd hall hfind peers hpeers.symm timeout rfl 3
                    (by decide) (by simp [roundMsgs]) okb (fun _ => hte) (Or.inr ⟨?_, Or.inr ⟨rfl, rfl⟩⟩)
                  intro x hx
                  rcases List.mem_append.1 hx with hx | hx
                  · exact okb x (by simpa [roundMsgs] using hx)
                  · obtain ⟨n, hn, rfl⟩ := List.mem_map.1 hx
                    exact s4 n hn

end Distbench.Sequencer
