import Verif.Lemmas.Node

/-! What a service instance of a node has to do with the history of the process. -/

namespace Distbench.Node
open Distbench.Drivers Distbench.Services Distbench.Spec

/-- What the history says about an engine. -/
structure Fact (i : Nat) (start : Option (Op × Reply)) (post : List (Op × Reply)) (n : Str) (e : Engine) : Prop where
  made : ∃ w c s r, start = some (.configure i w c s, r) ∧ n ∈ s ∧ e.config = c ∧ IsTypeOf n e.serviceType
  reason : e.reason = (reasonsGiven i post).head?
  kept : e.records.filter (fun r => !isTrace r) = (recordedBy i n post).filter (fun r => !isTrace r)
  count : e.records.length = (recordedBy i n post).length
  all : (∀ y ∈ post, y.1 ≠ .collect i false) → e.records = recordedBy i n post
  join : e.joinable = true → RunFailed i post
  peers : KnowsPeers i post → e.peers ≠ []

theorem fact_snoc {i : Nat} {start : Option (Op × Reply)} {post : List (Op × Reply)} {n : Str} {e e' : Engine}
    (hf : Fact i start post n e) (x : Op × Reply)
    (hc : e'.config = e.config) (ht : e'.serviceType = e.serviceType)
    (hreason : e'.reason = e.reason.or (reasonsGiven i [x]).head?)
    (hkept : e'.records.filter (fun r => !isTrace r) =
      e.records.filter (fun r => !isTrace r) ++ (recordedBy i n [x]).filter (fun r => !isTrace r))
    (hcount : e'.records.length = e.records.length + (recordedBy i n [x]).length)
    (hall : x.1 ≠ .collect i false → e'.records = e.records ++ recordedBy i n [x])
    (hj : e'.joinable = true → e.joinable = true ∨ RunFailed i [x])
    (hp : ∀ c p, x.1 = .introduce i c p → x.2.error = none → e'.peers ≠ [])
    (hp' : (∀ c p, x.1 ≠ .introduce i c p) → e'.peers = e.peers) :
    Fact i start (post ++ [x]) n e' := by
  have hrs : recordedBy i n (post ++ [x]) = recordedBy i n post ++ recordedBy i n [x] := by
    unfold recordedBy; exact List.filterMap_append
  have hgs : reasonsGiven i (post ++ [x]) = reasonsGiven i post ++ reasonsGiven i [x] := by
    unfold reasonsGiven; exact List.filterMap_append
  refine ⟨?_, ?_, ?_, ?_, ?_, ?_, ?_⟩
  · obtain ⟨w, c, s, r, h1, h2, h3, h4⟩ := hf.made
    exact ⟨w, c, s, r, h1, h2, by rw [hc, h3], by rw [ht]; exact h4⟩
  · rw [hreason, hf.reason, hgs, List.head?_append]
  · rw [hkept, hf.kept, hrs, List.filter_append]
  · rw [hcount, hf.count, hrs, List.length_append]
  · intro h
    rw [hall (h x (by simp)), hf.all (fun y hy => h y (by simp [hy])), hrs]
  · intro h
    rcases hj h with h | ⟨r, hr, he⟩
    · obtain ⟨r, hr, he⟩ := hf.join h
      exact ⟨r, by simp [hr], he⟩
    · exact ⟨r, by simp at hr; simp [hr], he⟩
  · intro h
    rcases knowsPeers_snoc h with ⟨c, p, hx, hr⟩ | ⟨hno, hk⟩
    · exact hp c p hx hr
    · rw [hp' hno]; exact hf.peers hk

/-- What the history says about a node. -/
def Inv (i : Nat) (h : List (Op × Reply)) (nd : Node) : Prop :=
  (nd.engines.map (·.1)).Nodup ∧ ∀ start post, After i h start post →
    (∀ n e, (n, e) ∈ nd.engines → Fact i start post n e) ∧
    (∀ w c s r, start = some (.configure i w c s, r) → r.error = none → ∀ n ∈ s, n ∈ nd.engines.map (·.1)) ∧
    (∀ n, recordedBy i n post ≠ [] → n ∈ nd.engines.map (·.1))

theorem recordedBy_snoc (i : Nat) (n : Str) (post : List (Op × Reply)) (x : Op × Reply) :
    recordedBy i n (post ++ [x]) = recordedBy i n post ++ recordedBy i n [x] := by
  unfold recordedBy; exact List.filterMap_append

/-- The call is not to node `i`. -/
def Elsewhere (i : Nat) : Op → Prop
  | .create => True
  | .destroy j => j ≠ i
  | .configure j _ _ _ => j ≠ i
  | .introduce j _ _ => j ≠ i
  | .run j => j ≠ i
  | .record j _ _ => j ≠ i
  | .cancel j _ => j ≠ i
  | .collect j _ => j ≠ i

theorem elsewhere_not_ends {i : Nat} {op : Op} (h : Elsewhere i op) : ¬ EndsServices i op := by
  rintro (⟨w, c, s, rfl, _⟩ | rfl)
  · exact h rfl
  · exact h rfl

/-- A call that leaves the services of the node in place. -/
theorem inv_snoc {i : Nat} {h : List (Op × Reply)} {nd nd' : Node} (hi : Inv i h nd) (x : Op × Reply)
    (hx : ¬ EndsServices i x.1) (hrec : ∀ n, recordedBy i n [x] = []) {R : Engine → Engine → Prop} (hf : Follows R nd.engines nd'.engines)
    (step : ∀ start post n e e', (n, e') ∈ nd'.engines → Fact i start post n e → R e e' →
      Fact i start (post ++ [x]) n e') :
    Inv i (h ++ [x]) nd' := by
  refine ⟨by rw [hf.keys]; exact hi.1, ?_⟩
  intro start post ha
  rcases after_snoc ha with ⟨hc, _⟩ | ⟨_, post', rfl, ha'⟩
  · exact absurd hc hx
  · obtain ⟨h1, h2, h3⟩ := hi.2 start post' ha'
    refine ⟨?_, ?_, ?_⟩
    · intro n e' hm
      obtain ⟨e, he, hr⟩ := hf.mem n e' hm
      exact step start post' n e e' hm (h1 n e he) hr
    · rw [hf.keys]; exact h2
    · intro n hn
      rw [recordedBy_snoc, hrec, List.append_nil] at hn
      rw [hf.keys]; exact h3 n hn

/-- A call elsewhere. -/
theorem inv_elsewhere {i : Nat} {h : List (Op × Reply)} {nd : Node} (hi : Inv i h nd) (x : Op × Reply)
    (hx : Elsewhere i x.1) : Inv i (h ++ [x]) nd := by
  obtain ⟨op, r⟩ := x
  have hrec : ∀ n, recordedBy i n [(op, r)] = [] := by
    intro n
    cases op with
    | record j m r => simp only [Elsewhere] at hx; simp [recordedBy, hx]
    | _ => simp [recordedBy]
  have hrea : reasonsGiven i [(op, r)] = [] := by
    cases op with
    | cancel j m => simp only [Elsewhere] at hx; simp [reasonsGiven, hx]
    | _ => simp [reasonsGiven]
  refine inv_snoc hi (op, r) (elsewhere_not_ends hx) hrec (Follows.refl (R := fun e e' => e' = e) (fun _ => rfl) _) ?_
  intro start post n e e' _ hf he
  subst he
  refine fact_snoc hf (op, r) rfl rfl ?_ ?_ (by simp [hrec]) ?_ (fun h => .inl h) ?_ (fun _ => rfl)
  · simp [hrea]
  · simp [hrec]
  · simp [hrec]
  · rintro c p rfl
    exact absurd rfl hx

/-- Calls that do not touch what the facts are about. -/
theorem fact_keep {i : Nat} {start : Option (Op × Reply)} {post : List (Op × Reply)} {n : Str} {e e' : Engine}
    (hf : Fact i start post n e) (x : Op × Reply) (hrec : recordedBy i n [x] = []) (hrea : reasonsGiven i [x] = [])
    (hc : e'.config = e.config) (ht : e'.serviceType = e.serviceType) (hr : e'.reason = e.reason)
    (hre : e'.records = e.records)
    (hj : e'.joinable = true → e.joinable = true ∨ RunFailed i [x])
    (hp : ∀ c p, x.1 = .introduce i c p → x.2.error = none → e'.peers ≠ [])
    (hp' : (∀ c p, x.1 ≠ .introduce i c p) → e'.peers = e.peers) :
    Fact i start (post ++ [x]) n e' := by
  refine fact_snoc hf x hc ht ?_ ?_ (by simp [hrec, hre]) ?_ hj hp hp'
  · simp [hrea, hr]
  · simp [hrec, hre]
  · simp [hrec, hre]

theorem configure_reply {p p' : Process} {i : Nat} {w : World} {c : Config} {s : List Str} {n : Node} {r : Reply}
    (h : configure p i w c s n = .ok (r, p')) (hc : 0 < c.maxThreads) :
    ∃ es, configureLoop (p.set i { n with config := c }).resolve w c s [] = .ok (r.error, es) ∧
      p' = p.set i { config := c, engines := es } := by
  unfold configure at h
  rw [if_neg (by omega)] at h
  cases hl : configureLoop (p.set i { n with config := c }).resolve w c s [] with
  | ok q =>
    rw [hl] at h
    simp only [Outcome.bind] at h
    cases h
    exact ⟨q.2, rfl, rfl⟩
  | _ => rw [hl] at h; cases h

theorem configure_rejected {p p' : Process} {i : Nat} {w : World} {c : Config} {s : List Str} {n : Node} {r : Reply}
    (h : configure p i w c s n = .ok (r, p')) (hc : ¬ 0 < c.maxThreads) :
    r = { error := some badThreads } ∧ p' = p.set i { n with config := c } := by
  unfold configure at h
  rw [if_pos (by omega)] at h
  cases h
  exact ⟨rfl, rfl⟩

theorem runTraffic_ok {n n' : Node} {r : Reply} (h : runTraffic n = .ok (r, n')) :
    ∃ all es, startLoop n.engines = .ok (r.started, all, es) ∧
      ((all = true ∧ r.error = none ∧ n' = { n with engines := finish es }) ∨
        (all = false ∧ r.error = some runFailure ∧ n' = { n with engines := es })) := by
  unfold runTraffic at h
  cases hl : startLoop n.engines with
  | ok q =>
    obtain ⟨q1, all, es⟩ := q
    rw [hl] at h
    simp only [Outcome.bind] at h
    cases all with
    | true => simp only [if_true] at h; cases h; exact ⟨true, es, rfl, .inl ⟨rfl, rfl, rfl⟩⟩
    | false => simp only [Bool.false_eq_true, if_false] at h; cases h; exact ⟨false, es, rfl, .inr ⟨rfl, rfl, rfl⟩⟩
  | _ => rw [hl] at h; cases h

theorem follows_trans_map {R S : Engine → Engine → Prop} {f : Engine → Engine} (h : ∀ e e', R e e' → S e (f e')) :
    ∀ {l l' : List (Str × Engine)}, Follows R l l' → Follows S l (l'.map fun x => (x.1, f x.2))
  | _, _, .nil => .nil
  | _, _, .cons r t => .cons (h _ _ r) (follows_trans_map h t)

/-- The facts about a node after a call to it. -/
theorem inv_own {h : List (Op × Reply)} {p p' : Process} {i : Nat} {nd : Node} {op : Op} {r : Reply}
    (hn : p.node i = some nd) (hi : Inv i h nd) (hop : ¬ Elsewhere i op)
    (hs : step p op = some (.ok (r, p'))) (nd' : Node) (hn' : p'.node i = some nd') : Inv i (h ++ [(op, r)]) nd' := by
  cases op with
  | create => exact absurd trivial hop
  | destroy j =>
    have hj : j = i := Classical.not_not.1 hop
    subst hj
    simp only [step, hn, Option.map, Option.some.injEq, Outcome.ok.injEq, Prod.mk.injEq] at hs
    obtain ⟨_, rfl⟩ := hs
    simp [Process.node, List.getElem?_set, node_lt hn] at hn'
  | configure j w c s =>
    have hj : j = i := Classical.not_not.1 hop
    subst hj
    simp only [step, hn, Option.map, Option.some.injEq] at hs
    by_cases hc : 0 < c.maxThreads
    · obtain ⟨es, hl, rfl⟩ := configure_reply hs hc
      rw [node_set hn] at hn'
      simp only [if_true, Option.some.injEq] at hn'
      subst hn'
      obtain ⟨h1, _, h3, h4⟩ := configureLoop_ok hl (by simp)
      refine ⟨h1, ?_⟩
      intro start post ha
      have he : EndsServices j (Op.configure j w c s) := .inl ⟨w, c, s, rfl, hc⟩
      rcases after_snoc ha with ⟨_, rfl, rfl⟩ | ⟨hne, _⟩
      · refine ⟨?_, ?_, fun n hn => absurd rfl hn⟩
        · intro n e hm
          rcases h3 (n, e) hm with hm | ⟨hns, hsl, hal⟩
          · cases hm
          · dsimp only at hns hsl hal
            obtain ⟨o, d, _, _, rfl⟩ := allocService_ok hal
            refine ⟨⟨w, c, s, r, rfl, hns, rfl, firstPart_spec hsl⟩, rfl, rfl, rfl, fun _ => rfl, (fun h => by cases h), ?_⟩
            rintro ⟨a, _, _, _, b, hab, _⟩
            cases a <;> cases hab
        · intro w' c' s' r' hst hr n hns
          simp only [Option.some.injEq, Prod.mk.injEq, Op.configure.injEq] at hst
          obtain ⟨⟨_, _, _, rfl⟩, rfl⟩ := hst
          exact h4 hr n hns
      · exact absurd he hne
    · obtain ⟨_, rfl⟩ := configure_rejected hs hc
      rw [node_set hn] at hn'
      simp only [if_true, Option.some.injEq] at hn'
      subst hn'
      refine inv_snoc hi _ ?_ (fun _ => by simp [recordedBy]) (Follows.refl (R := fun e e' => e' = e) (fun _ => rfl) _) ?_
      · rintro (⟨_, _, _, he, hc'⟩ | he)
        · cases he; exact hc hc'
        · cases he
      · intro start post n e e' _ hf he
        subst he
        exact fact_keep hf _ (by simp [recordedBy]) (by simp [reasonsGiven]) rfl rfl rfl rfl (fun h => .inl h)
          (fun _ _ h => by cases h) (fun _ => rfl)
  | introduce j connect peers =>
    have hj : j = i := Classical.not_not.1 hop
    subst hj
    simp only [step, hn, Option.map, Option.some.injEq] at hs
    cases hl : introduceLoop connect peers nd.engines with
    | ok q =>
      obtain ⟨err, es⟩ := q
      rw [hl] at hs
      simp only [Outcome.bind, Outcome.ok.injEq, Prod.mk.injEq] at hs
      obtain ⟨rfl, rfl⟩ := hs
      rw [node_set hn] at hn'
      simp only [if_true, Option.some.injEq] at hn'
      subst hn'
      refine inv_snoc hi _ ?_ (fun _ => by simp [recordedBy]) (introduceLoop_follows hl) ?_
      · rintro (⟨_, _, _, he, _⟩ | he) <;> cases he
      · intro start post n e e' hm hf he
        refine fact_keep hf _ (by simp [recordedBy]) (by simp [reasonsGiven]) ?_ ?_ ?_ ?_ ?_ ?_ ?_
        · rcases he with rfl | rfl <;> rfl
        · rcases he with rfl | rfl <;> rfl
        · rcases he with rfl | rfl <;> rfl
        · rcases he with rfl | rfl <;> rfl
        · rcases he with rfl | rfl <;> exact fun h => .inl h
        · intro _ _ _ herr
          simp only at herr
          subst herr
          exact introduceLoop_done hl (n, e') hm
        · intro hno
          exact absurd rfl (hno connect peers)
    | _ => rw [hl] at hs; simp only [Outcome.bind] at hs; cases hs
  | run j =>
    have hj : j = i := Classical.not_not.1 hop
    subst hj
    simp only [step, hn, Option.map, Option.some.injEq] at hs
    cases hl : runTraffic nd with
    | ok q =>
      obtain ⟨r', n'⟩ := q
      rw [hl] at hs
      simp only [Outcome.bind, Outcome.ok.injEq, Prod.mk.injEq] at hs
      obtain ⟨rfl, rfl⟩ := hs
      rw [node_set hn] at hn'
      simp only [if_true, Option.some.injEq] at hn'
      subst hn'
      have hne : ¬ EndsServices j (Op.run j) := by
        rintro (⟨_, _, _, he, _⟩ | he) <;> cases he
      obtain ⟨all, es, hst, hcase⟩ := runTraffic_ok hl
      rcases hcase with ⟨_, _, rfl⟩ | ⟨_, herr, rfl⟩
      · have hfo : Follows (fun e e' => e' = { e with joinable := false }) nd.engines (finish es) := by
          unfold finish
          refine follows_trans_map (f := fun e => { e with joinable := false }) ?_ (startLoop_follows hst)
          rintro e e' (rfl | rfl) <;> rfl
        refine inv_snoc hi _ hne (fun _ => by simp [recordedBy]) hfo ?_
        intro start post n e e' _ hf he
        subst he
        exact fact_keep hf _ (by simp [recordedBy]) (by simp [reasonsGiven]) rfl rfl rfl rfl (fun h => by cases h)
          (fun _ _ h => by cases h) (fun _ => rfl)
      · refine inv_snoc hi _ hne (fun _ => by simp [recordedBy]) (startLoop_follows hst) ?_
        intro start post n e e' _ hf he
        refine fact_keep hf _ (by simp [recordedBy]) (by simp [reasonsGiven]) ?_ ?_ ?_ ?_ ?_
          (fun _ _ h => by cases h) ?_
        · rcases he with rfl | rfl <;> rfl
        · rcases he with rfl | rfl <;> rfl
        · rcases he with rfl | rfl <;> rfl
        · rcases he with rfl | rfl <;> rfl
        · exact fun _ => .inr ⟨r', by simp, by rw [herr]; exact fun h => by cases h⟩
        · rcases he with rfl | rfl <;> exact fun _ => rfl
    | _ => rw [hl] at hs; simp only [Outcome.bind] at hs; cases hs
  | record j name rec =>
    have hj : j = i := Classical.not_not.1 hop
    subst hj
    simp only [step, hn, Option.bind] at hs
    split at hs
    · simp only [Option.some.injEq, Outcome.ok.injEq, Prod.mk.injEq] at hs
      obtain ⟨rfl, rfl⟩ := hs
      rw [node_set hn] at hn'
      simp only [if_true, Option.some.injEq] at hn'
      subst hn'
      have hne : ¬ EndsServices j (Op.record j name rec) := by
        rintro (⟨_, _, _, he, _⟩ | he) <;> cases he
      -- the change depends on the name, so the lemma is not enough
      have hk : (addRecord nd name rec).engines.map (·.1) = nd.engines.map (·.1) := by
        simp only [addRecord, List.map_map]
        apply List.map_congr_left
        intro x _
        simp only [Function.comp]
        split <;> rfl
      refine ⟨by rw [hk]; exact hi.1, ?_⟩
      intro start post ha
      rcases after_snoc ha with ⟨hc, _⟩ | ⟨_, post', rfl, ha'⟩
      · exact absurd hc hne
      · obtain ⟨h1, h2, h3⟩ := hi.2 start post' ha'
        refine ⟨?_, by rw [hk]; exact h2, ?_⟩
        case refine_2 =>
          intro n hn
          rw [hk]
          rw [recordedBy_snoc] at hn
          by_cases hnn : n = name
          · subst hnn; assumption
          · refine h3 n ?_
            have : recordedBy j n [(Op.record j name rec, ({} : Reply))] = [] := by
              simp [recordedBy]; exact fun h => hnn h.symm
            rwa [this, List.append_nil] at hn
        intro n e' hm
        simp only [addRecord, List.mem_map] at hm
        obtain ⟨⟨m, e⟩, hx, hxe⟩ := hm
        by_cases hmn : m = name
        · subst hmn
          simp only [if_true, Prod.mk.injEq] at hxe
          obtain ⟨rfl, rfl⟩ := hxe
          refine fact_snoc (h1 m e hx) _ rfl rfl ?_ ?_ (by simp [recordedBy]) ?_ (fun h => .inl h) (fun _ _ h => by cases h) (fun _ => rfl)
          · simp [reasonsGiven]
          · simp [recordedBy, List.filter_append]
          · simp [recordedBy]
        · simp only [hmn, if_false, Prod.mk.injEq] at hxe
          obtain ⟨rfl, rfl⟩ := hxe
          exact fact_keep (h1 m e hx) _ (by simp [recordedBy]; exact fun h => hmn h.symm) (by simp [reasonsGiven])
            rfl rfl rfl rfl (fun h => .inl h) (fun _ _ h => by cases h) (fun _ => rfl)
    · cases hs
  | cancel j reason =>
    have hj : j = i := Classical.not_not.1 hop
    subst hj
    simp only [step, hn, Option.map, Option.some.injEq, Outcome.ok.injEq, Prod.mk.injEq] at hs
    obtain ⟨rfl, rfl⟩ := hs
    rw [node_set hn] at hn'
    simp only [if_true, Option.some.injEq] at hn'
    subst hn'
    refine inv_snoc (R := fun e e' => e' = { e with reason := e.reason.or (some reason) }) hi _ ?_ (fun _ => by simp [recordedBy])
      (Follows.map (R := fun e e' => e' = { e with reason := e.reason.or (some reason) }) (fun _ e => { e with reason := e.reason.or (some reason) }) (fun _ _ => rfl) _) ?_
    · rintro (⟨_, _, _, he, _⟩ | he) <;> cases he
    · intro start post n e e' _ hf he
      subst he
      refine fact_snoc hf _ rfl rfl ?_ ?_ (by simp [recordedBy]) ?_ (fun h => .inl h) (fun _ _ h => by cases h) (fun _ => rfl)
      · simp [reasonsGiven]
      · simp [recordedBy]
      · simp [recordedBy]
  | collect j clear =>
    have hj : j = i := Classical.not_not.1 hop
    subst hj
    simp only [step, hn, Option.map, Option.some.injEq, Outcome.ok.injEq, Prod.mk.injEq] at hs
    obtain ⟨rfl, rfl⟩ := hs
    rw [node_set hn] at hn'
    simp only [if_true, Option.some.injEq] at hn'
    subst hn'
    cases clear with
    | true =>
      refine ⟨by simp [getTrafficResult], ?_⟩
      intro start post ha
      rcases after_snoc ha with ⟨_, rfl, rfl⟩ | ⟨hne, _⟩
      · refine ⟨fun n e h => by simp [getTrafficResult] at h, ?_, fun n hn => absurd rfl hn⟩
        intro w c s r hst
        simp at hst
      · exact absurd (.inr rfl) hne
    | false =>
      refine inv_snoc (R := fun e e' => e' = { e with records := e.records.map moveOut }) hi _ ?_ (fun _ => by simp [recordedBy])
        (Follows.map (R := fun e e' => e' = { e with records := e.records.map moveOut }) (fun _ e => { e with records := e.records.map moveOut }) (fun _ _ => rfl) _) ?_
      · rintro (⟨_, _, _, he, _⟩ | he) <;> cases he
      · intro start post n e e' _ hf he
        subst he
        refine fact_snoc hf _ rfl rfl ?_ ?_ (by simp [recordedBy]) ?_ (fun h => .inl h) (fun _ _ h => by cases h) (fun _ => rfl)
        · simp [reasonsGiven]
        · simp only [recordedBy, List.filterMap_cons, List.filterMap_nil, List.filter_nil, List.append_nil]
          induction e.records with
          | nil => rfl
          | cons a l ih =>
            have hk : isTrace (moveOut a) = isTrace a := by cases a <;> rfl
            rw [List.map_cons, List.filter_cons, List.filter_cons, ih, hk]
            cases ht : isTrace a with
            | true => rfl
            | false =>
              have : moveOut a = a := by cases a <;> first | rfl | cases ht
              rw [this]
        · intro h; exact absurd rfl h

theorem step_nodes {p p' : Process} {op : Op} {r : Reply} (hs : step p op = some (.ok (r, p'))) (i : Nat)
    (he : Elsewhere i op) (hc : op = .create → i ≠ p.nodes.length) : p'.node i = p.node i := by
  cases op with
  | create =>
    simp only [step, Option.some.injEq, Outcome.ok.injEq, Prod.mk.injEq] at hs
    obtain ⟨_, rfl⟩ := hs
    have := hc rfl
    simp only [Process.node]
    by_cases hi : i < p.nodes.length
    · rw [List.getElem?_append_left hi]
    · rw [List.getElem?_eq_none (by simp; omega), List.getElem?_eq_none (by omega)]
  | destroy j =>
    simp only [Elsewhere] at he
    simp only [step] at hs
    cases hn : p.node j with
    | none => rw [hn] at hs; cases hs
    | some n =>
      rw [hn] at hs
      simp only [Option.map, Option.some.injEq, Outcome.ok.injEq, Prod.mk.injEq] at hs
      obtain ⟨_, rfl⟩ := hs
      simp [Process.node, List.getElem?_set, he]
  | configure j w c s =>
    simp only [Elsewhere] at he
    simp only [step] at hs
    cases hn : p.node j with
    | none => rw [hn] at hs; cases hs
    | some n =>
      rw [hn] at hs
      simp only [Option.map, Option.some.injEq] at hs
      by_cases hc : 0 < c.maxThreads
      · obtain ⟨es, _, rfl⟩ := configure_reply hs hc
        rw [node_set hn, if_neg (fun h => he h.symm)]
      · obtain ⟨_, rfl⟩ := configure_rejected hs hc
        rw [node_set hn, if_neg (fun h => he h.symm)]
  | introduce j c s =>
    simp only [Elsewhere] at he
    simp only [step] at hs
    cases hn : p.node j with
    | none => rw [hn] at hs; cases hs
    | some n =>
      rw [hn] at hs
      simp only [Option.map, Option.some.injEq] at hs
      cases hl : introduceLoop c s n.engines with
      | ok q =>
        rw [hl] at hs
        simp only [Outcome.bind, Outcome.ok.injEq, Prod.mk.injEq] at hs
        obtain ⟨_, rfl⟩ := hs
        rw [node_set hn, if_neg (fun h => he h.symm)]
      | _ => rw [hl] at hs; cases hs
  | run j =>
    simp only [Elsewhere] at he
    simp only [step] at hs
    cases hn : p.node j with
    | none => rw [hn] at hs; cases hs
    | some n =>
      rw [hn] at hs
      simp only [Option.map, Option.some.injEq] at hs
      cases hl : runTraffic n with
      | ok q =>
        rw [hl] at hs
        simp only [Outcome.bind, Outcome.ok.injEq, Prod.mk.injEq] at hs
        obtain ⟨_, rfl⟩ := hs
        rw [node_set hn, if_neg (fun h => he h.symm)]
      | _ => rw [hl] at hs; cases hs
  | record j name rec =>
    simp only [Elsewhere] at he
    simp only [step] at hs
    cases hn : p.node j with
    | none => rw [hn] at hs; cases hs
    | some n =>
      rw [hn] at hs
      simp only [Option.bind] at hs
      split at hs
      · simp only [Option.some.injEq, Outcome.ok.injEq, Prod.mk.injEq] at hs
        obtain ⟨_, rfl⟩ := hs
        rw [node_set hn, if_neg (fun h => he h.symm)]
      · cases hs
  | cancel j reason =>
    simp only [Elsewhere] at he
    simp only [step] at hs
    cases hn : p.node j with
    | none => rw [hn] at hs; cases hs
    | some n =>
      rw [hn] at hs
      simp only [Option.map, Option.some.injEq, Outcome.ok.injEq, Prod.mk.injEq] at hs
      obtain ⟨_, rfl⟩ := hs
      rw [node_set hn, if_neg (fun h => he h.symm)]
  | collect j clear =>
    simp only [Elsewhere] at he
    simp only [step] at hs
    cases hn : p.node j with
    | none => rw [hn] at hs; cases hs
    | some n =>
      rw [hn] at hs
      simp only [Option.map, Option.some.injEq, Outcome.ok.injEq, Prod.mk.injEq] at hs
      obtain ⟨_, rfl⟩ := hs
      rw [node_set hn, if_neg (fun h => he h.symm)]

/-- A call is made to a node manager that exists. -/
theorem step_exists {p p' : Process} {op : Op} {r : Reply} (hs : step p op = some (.ok (r, p'))) (i : Nat)
    (he : ¬ Elsewhere i op) : ∃ n, p.node i = some n := by
  cases op with
  | create => exact absurd trivial he
  | destroy j =>
    have hj : j = i := Classical.not_not.1 he
    subst hj
    cases hn : p.node j with
    | none => simp only [step, hn] at hs; cases hs
    | some n => exact ⟨n, rfl⟩
  | configure j w c s =>
    have hj : j = i := Classical.not_not.1 he
    subst hj
    cases hn : p.node j with
    | none => simp only [step, hn] at hs; cases hs
    | some n => exact ⟨n, rfl⟩
  | introduce j c s =>
    have hj : j = i := Classical.not_not.1 he
    subst hj
    cases hn : p.node j with
    | none => simp only [step, hn] at hs; cases hs
    | some n => exact ⟨n, rfl⟩
  | run j =>
    have hj : j = i := Classical.not_not.1 he
    subst hj
    cases hn : p.node j with
    | none => simp only [step, hn] at hs; cases hs
    | some n => exact ⟨n, rfl⟩
  | record j name rec =>
    have hj : j = i := Classical.not_not.1 he
    subst hj
    cases hn : p.node j with
    | none => simp only [step, hn] at hs; cases hs
    | some n => exact ⟨n, rfl⟩
  | cancel j reason =>
    have hj : j = i := Classical.not_not.1 he
    subst hj
    cases hn : p.node j with
    | none => simp only [step, hn] at hs; cases hs
    | some n => exact ⟨n, rfl⟩
  | collect j clear =>
    have hj : j = i := Classical.not_not.1 he
    subst hj
    cases hn : p.node j with
    | none => simp only [step, hn] at hs; cases hs
    | some n => exact ⟨n, rfl⟩

theorem set_length (p : Process) (i : Nat) (n : Node) : (p.set i n).nodes.length = p.nodes.length := by
  simp [Process.set]

theorem step_length {p p' : Process} {op : Op} {r : Reply} (hs : step p op = some (.ok (r, p'))) :
    p'.nodes.length = (match op with | .create => 1 | _ => 0) + p.nodes.length ∧
      p'.resolver = (match op with | .create => some p.nodes.length | .destroy _ => none | _ => p.resolver) := by
  cases op with
  | create =>
    simp only [step, Option.some.injEq, Outcome.ok.injEq, Prod.mk.injEq] at hs
    obtain ⟨_, rfl⟩ := hs
    simp; omega
  | destroy j =>
    obtain ⟨n, hn⟩ := step_exists hs j (fun h => h rfl)
    simp only [step, hn, Option.map, Option.some.injEq, Outcome.ok.injEq, Prod.mk.injEq] at hs
    obtain ⟨_, rfl⟩ := hs
    simp
  | configure j w c s =>
    obtain ⟨n, hn⟩ := step_exists hs j (fun h => h rfl)
    simp only [step, hn, Option.map, Option.some.injEq] at hs
    by_cases hc : 0 < c.maxThreads
    · obtain ⟨es, _, rfl⟩ := configure_reply hs hc
      simp [Process.set]
    · obtain ⟨_, rfl⟩ := configure_rejected hs hc
      simp [Process.set]
  | introduce j c s =>
    obtain ⟨n, hn⟩ := step_exists hs j (fun h => h rfl)
    simp only [step, hn, Option.map, Option.some.injEq] at hs
    cases hl : introduceLoop c s n.engines with
    | ok q =>
      rw [hl] at hs
      simp only [Outcome.bind, Outcome.ok.injEq, Prod.mk.injEq] at hs
      obtain ⟨_, rfl⟩ := hs
      simp [Process.set]
    | _ => rw [hl] at hs; cases hs
  | run j =>
    obtain ⟨n, hn⟩ := step_exists hs j (fun h => h rfl)
    simp only [step, hn, Option.map, Option.some.injEq] at hs
    cases hl : runTraffic n with
    | ok q =>
      rw [hl] at hs
      simp only [Outcome.bind, Outcome.ok.injEq, Prod.mk.injEq] at hs
      obtain ⟨_, rfl⟩ := hs
      simp [Process.set]
    | _ => rw [hl] at hs; cases hs
  | record j name rec =>
    obtain ⟨n, hn⟩ := step_exists hs j (fun h => h rfl)
    simp only [step, hn, Option.bind] at hs
    split at hs
    · simp only [Option.some.injEq, Outcome.ok.injEq, Prod.mk.injEq] at hs
      obtain ⟨_, rfl⟩ := hs
      simp [Process.set]
    · cases hs
  | cancel j reason =>
    obtain ⟨n, hn⟩ := step_exists hs j (fun h => h rfl)
    simp only [step, hn, Option.map, Option.some.injEq, Outcome.ok.injEq, Prod.mk.injEq] at hs
    obtain ⟨_, rfl⟩ := hs
    simp [Process.set]
  | collect j clear =>
    obtain ⟨n, hn⟩ := step_exists hs j (fun h => h rfl)
    simp only [step, hn, Option.map, Option.some.injEq, Outcome.ok.injEq, Prod.mk.injEq] at hs
    obtain ⟨_, rfl⟩ := hs
    simp [Process.set]

/-- The invariant. -/
theorem reached_inv {h : List (Op × Reply)} {p : Process} (hr : Reached h p) :
    (∀ i n, p.node i = some n → Inv i h n) ∧ (∀ i, p.nodes.length ≤ i → ∀ x ∈ h, Elsewhere i x.1) := by
  induction hr with
  | start => exact ⟨fun i n h => by simp [Process.node] at h, fun _ _ x hx => by cases hx⟩
  | @step h p op r p' _ hs ih =>
    have hlen := (step_length hs).1
    have far : ∀ i, p.nodes.length ≤ i → Elsewhere i op := by
      intro i hi
      by_cases he : Elsewhere i op
      · exact he
      · obtain ⟨n, hn⟩ := step_exists hs i he
        exact absurd (node_lt hn) (by omega)
    refine ⟨?_, ?_⟩
    · intro i n hn
      by_cases he : Elsewhere i op
      · by_cases hc : op = .create ∧ i = p.nodes.length
        · obtain ⟨rfl, rfl⟩ := hc
          simp only [step, Option.some.injEq, Outcome.ok.injEq, Prod.mk.injEq] at hs
          obtain ⟨_, rfl⟩ := hs
          simp only [Process.node, List.getElem?_append_right (Nat.le_refl _), Nat.sub_self,
            List.getElem?_cons_zero, Option.join, Option.bind, id, Option.some.injEq] at hn
          subst hn
          refine ⟨by simp, ?_⟩
          intro start post ha
          refine ⟨fun n e h => by simp at h, ?_, ?_⟩
          case refine_2 =>
            intro n hn
            refine absurd ?_ hn
            unfold recordedBy
            rw [List.filterMap_eq_nil_iff]
            intro x hx
            have hxh : x ∈ h ++ [(Op.create, r)] := by
              obtain ⟨_, hst⟩ := ha
              cases start with
              | none => rw [hst]; exact hx
              | some y => obtain ⟨_, pre, heq⟩ := hst; rw [heq]; simp [hx]
            have hel : Elsewhere p.nodes.length x.1 := by
              rcases List.mem_append.1 hxh with hm | hm
              · exact ih.2 _ (Nat.le_refl _) _ hm
              · simp only [List.mem_singleton] at hm; subst hm; trivial
            obtain ⟨op, rep⟩ := x
            cases op with
            | record j m rec => simp only [Elsewhere] at hel; simp [hel]
            | _ => rfl
          intro w c s r' hst
          subst hst
          obtain ⟨_, hend, pre, heq⟩ := ha
          have hm : (Op.configure p.nodes.length w c s, r') ∈ h ++ [(Op.create, r)] := by rw [heq]; simp
          rcases List.mem_append.1 hm with hm | hm
          · exact absurd rfl (ih.2 _ (Nat.le_refl _) _ hm)
          · simp at hm
        · have hsame := step_nodes hs i he (fun h1 h2 => hc ⟨h1, h2⟩)
          rw [hsame] at hn
          exact inv_elsewhere (ih.1 i n hn) (op, r) he
      · obtain ⟨n0, hn0⟩ := step_exists hs i he
        exact inv_own hn0 (ih.1 i n0 hn0) he hs n hn
    · intro i hi x hx
      rcases List.mem_append.1 hx with hx | hx
      · exact ih.2 i (by omega) x hx
      · simp only [List.mem_singleton] at hx
        subst hx
        exact far i (by omega)

/-- The facts about an engine. -/
theorem fact_of {h : List (Op × Reply)} {p : Process} (hr : Reached h p) {i : Nat} {nd : Node}
    (hn : p.node i = some nd) {n : Str} {e : Engine} (he : (n, e) ∈ nd.engines)
    {start : Option (Op × Reply)} {post : List (Op × Reply)} (ha : After i h start post) : Fact i start post n e :=
  (((reached_inv hr).1 i nd hn).2 start post ha).1 n e he

end Distbench.Node
