import Verif.Spec.Drivers

/-! Properties of the protocol drivers. -/

namespace Distbench.Drivers
open Spec

/-! ### Lemmas: the options handed down -/

theorem scan_cases (key : Str) (l : List Setting) (i : Nat) (kept : Option Nat) (p : Option Str) :
    (∃ before s after, l = before ++ s :: after ∧ s.name = key ∧ (∀ t ∈ after, t.name ≠ key) ∧
      scanSettings key l i kept p = (some (i + before.length), some s.value)) ∨
    ((∀ t ∈ l, t.name ≠ key) ∧ scanSettings key l i kept p = (kept, p)) := by
  induction l generalizing i kept p with
  | nil => right; simp [scanSettings]
  | cons x l ih =>
    simp only [scanSettings]
    by_cases hx : x.name = key
    · rw [if_pos hx]
      rcases ih (i + 1) (some i) (some x.value) with ⟨b, s, a, h1, h2, h3, h4⟩ | ⟨h1, h2⟩
      · left
        refine ⟨x :: b, s, a, by simp [h1], h2, h3, ?_⟩
        rw [h4]
        simp
        omega
      · left
        exact ⟨[], x, l, rfl, hx, h1, by rw [h2]; simp⟩
    · rw [if_neg hx]
      rcases ih (i + 1) kept p with ⟨b, s, a, h1, h2, h3, h4⟩ | ⟨h1, h2⟩
      · left
        refine ⟨x :: b, s, a, by simp [h1], h2, h3, ?_⟩
        rw [h4]
        simp
        omega
      · right
        refine ⟨?_, h2⟩
        intro t ht
        rcases List.mem_cons.1 ht with rfl | ht
        · exact hx
        · exact h1 t ht

theorem eraseIdx_middle {α : Type} (b a : List α) (s : α) : (b ++ s :: a).eraseIdx b.length = b ++ a := by
  induction b with
  | nil => rfl
  | cons x b ih => simp [ih]

theorem inner_handsDown (key : Str) (o : Options) : HandsDown key o (innerOptions key o) := by
  unfold innerOptions
  rcases scan_cases key o.serverSettings 0 none o.protocol with ⟨b, s, a, h1, h2, h3, h4⟩ | ⟨h1, h2⟩
  · rw [h4]
    simp only [Nat.zero_add]
    have := HandsDown.named b a s h1 h2 h3
    rw [h1, eraseIdx_middle]
    exact this
  · rw [h2]
    exact HandsDown.unnamed h1

theorem split_last_unique {key : Str} {b a b' a' : List Setting} {s s' : Setting}
    (h : b ++ s :: a = b' ++ s' :: a') (hs : s.name = key) (hs' : s'.name = key)
    (ha : ∀ t ∈ a, t.name ≠ key) (ha' : ∀ t ∈ a', t.name ≠ key) : b = b' ∧ s = s' ∧ a = a' := by
  induction b generalizing b' with
  | nil =>
    cases b' with
    | nil => simp at h; exact ⟨rfl, h⟩
    | cons x b' =>
      simp at h
      exact absurd hs' (ha s' (by rw [h.2]; simp))
  | cons x b ih =>
    cases b' with
    | nil =>
      simp at h
      exact absurd hs (ha' s (by rw [← h.2]; simp))
    | cons y b' =>
      simp at h
      obtain ⟨r1, r2, r3⟩ := ih h.2
      exact ⟨by rw [h.1, r1], r2, r3⟩

theorem handsDown_unique {key : Str} {o o1 o2 : Options} (h1 : HandsDown key o o1) (h2 : HandsDown key o o2) :
    o1 = o2 := by
  cases h1 with
  | named b a s hs hk hl =>
    cases h2 with
    | named b' a' s' hs' hk' hl' =>
      obtain ⟨e1, e2, e3⟩ := split_last_unique (hs ▸ hs') hk hk' hl hl'
      rw [e1, e2, e3]
    | unnamed ha => exact absurd hk (ha s (by rw [hs]; simp))
  | unnamed ha =>
    cases h2 with
    | named b' a' s' hs' hk' hl' => exact absurd hk' (ha s' (by rw [hs']; simp))
    | unnamed => rfl

/-! ### Lemmas: one call of the allocation -/

theorem key_cases {p key : Str} (h : compositeKey p = some key) :
    (p = "double_barrel".toList ∧ key = "next_protocol_driver".toList) ∨
    (p = "composable_rpc_counter".toList ∧ key = "driver_under_test".toList) := by
  unfold compositeKey at h
  split at h
  · left; rename_i hp; simp at h; exact ⟨hp, h.symm⟩
  · split at h
    · right; rename_i hp; simp at h; exact ⟨hp, h.symm⟩
    · cases h

theorem real_not_composite {extra : List Str} {p : Str} (h : IsRealDriver extra p) : compositeKey p = none := by
  unfold compositeKey
  rcases h with h | h | ⟨_, h1, h2⟩
  · subst h; decide
  · subst h; decide
  · rw [if_neg h1, if_neg h2]

theorem kinds (extra : List Str) (p : Str) : IsRealDriver extra p ∨ p = "double_barrel".toList ∨
    p = "composable_rpc_counter".toList ∨ IsAlias extra p := by
  by_cases h : IsRealDriver extra p
  · exact .inl h
  · by_cases h1 : p = "double_barrel".toList
    · exact .inr (.inl h1)
    · by_cases h2 : p = "composable_rpc_counter".toList
      · exact .inr (.inr (.inl h2))
      · refine .inr (.inr (.inr ⟨h, ?_⟩))
        unfold compositeKey
        rw [if_neg h1, if_neg h2]

theorem barrel_not_real (extra : List Str) : ¬ IsRealDriver extra "double_barrel".toList := by
  rintro (h | h | ⟨_, h, _⟩)
  · exact absurd h (by decide)
  · exact absurd h (by decide)
  · exact h rfl

theorem counter_not_real (extra : List Str) : ¬ IsRealDriver extra "composable_rpc_counter".toList := by
  rintro (h | h | ⟨_, _, h⟩)
  · exact absurd h (by decide)
  · exact absurd h (by decide)
  · exact h rfl

theorem call_deep (env : Env) (fuel : Nat) (place : List Nat) (o : Options) :
    allocate env (fuel + 1) 4 place o = some (.error tooDeep) := by
  rw [allocate]; rfl

theorem call_real {env : Env} {o : Options} (fuel : Nat) {depth : Int} (place : List Nat) (hd : depth ≠ 4)
    (h : IsRealDriver env.extra o.protocolName) :
    allocate env (fuel + 1) depth place o = some ((env.init place o).bind fun _ => .ok (.leaf o)) := by
  rw [allocate, if_neg hd]
  unfold IsRealDriver at h
  rw [if_pos h]

theorem call_barrel {env : Env} {o : Options} (fuel : Nat) {depth : Int} (place : List Nat) (hd : depth ≠ 4)
    (h : o.protocolName = "double_barrel".toList) :
    allocate env (fuel + 1) depth place o =
      match allocate env fuel (depth + 1) (place ++ [1]) (innerOptions "next_protocol_driver".toList o) with
      | none => none
      | some (.ok d1) =>
        match allocate env fuel (depth + 1) (place ++ [2]) (innerOptions "next_protocol_driver".toList o) with
        | none => none
        | some r2 => some (r2.bind fun d2 => .ok (.doubleBarrel d1 d2))
      | some r1 => some r1 := by
  have hr := barrel_not_real env.extra
  rw [← h] at hr
  unfold IsRealDriver at hr
  rw [allocate, if_neg hd, if_neg hr, if_pos h]
  rfl

theorem call_counter {env : Env} {o : Options} (fuel : Nat) {depth : Int} (place : List Nat) (hd : depth ≠ 4)
    (h : o.protocolName = "composable_rpc_counter".toList) :
    allocate env (fuel + 1) depth place o =
      match allocate env fuel (depth + 1) (place ++ [1]) (innerOptions "driver_under_test".toList o) with
      | none => none
      | some r => some (r.bind fun d => .ok (.counter d)) := by
  have hr := counter_not_real env.extra
  rw [← h] at hr
  unfold IsRealDriver at hr
  rw [allocate, if_neg hd, if_neg hr, if_neg (by rw [h]; decide), if_pos h]
  rfl

theorem call_alias {env : Env} {o : Options} (fuel : Nat) {depth : Int} (place : List Nat) (hd : depth ≠ 4)
    (h : IsAlias env.extra o.protocolName) :
    allocate env (fuel + 1) depth place o =
      match env.resolver with
      | none => some (.error noResolver)
      | some resolve =>
        match resolve o.protocolName with
        | .ok o' => allocate env fuel (depth + 1) place o'
        | .error m => some (.error m)
        | .ub => some .ub
        | .crash => some .crash := by
  obtain ⟨hr, hc⟩ := h
  have h1 : o.protocolName ≠ "double_barrel".toList := by
    intro h; rw [h] at hc; exact absurd hc (by decide)
  have h2 : o.protocolName ≠ "composable_rpc_counter".toList := by
    intro h; rw [h] at hc; exact absurd hc (by decide)
  unfold IsRealDriver at hr
  rw [allocate, if_neg hd, if_neg hr, if_neg h1, if_neg h2]
  rfl

theorem under_barrel {env : Env} {o o' : Options} (h : o.protocolName = "double_barrel".toList) (hu : Under env o o') :
    o' = innerOptions "next_protocol_driver".toList o := by
  cases hu with
  | alias r o' is _ _ => rw [h] at is; exact absurd is.2 (by decide)
  | composite key o' is hin =>
    rcases key_cases is with ⟨_, rfl⟩ | ⟨h', _⟩
    · exact handsDown_unique hin (inner_handsDown _ _)
    · rw [h] at h'; exact absurd h' (by decide)

theorem under_counter {env : Env} {o o' : Options} (h : o.protocolName = "composable_rpc_counter".toList)
    (hu : Under env o o') : o' = innerOptions "driver_under_test".toList o := by
  cases hu with
  | alias r o' is _ _ => rw [h] at is; exact absurd is.2 (by decide)
  | composite key o' is hin =>
    rcases key_cases is with ⟨h', _⟩ | ⟨_, rfl⟩
    · rw [h] at h'; exact absurd h' (by decide)
    · exact handsDown_unique hin (inner_handsDown _ _)

theorem under_alias {env : Env} {o o' : Options} (h : IsAlias env.extra o.protocolName) (hu : Under env o o') :
    ∃ resolve, env.resolver = some resolve ∧ resolve o.protocolName = .ok o' := by
  cases hu with
  | alias r o' is hr hf => exact ⟨r, hr, hf⟩
  | composite key o' is hin => rw [h.2] at is; cases is

theorem real_not_under {env : Env} {o o' : Options} (h : IsRealDriver env.extra o.protocolName) (hu : Under env o o') :
    False := by
  cases hu with
  | alias r o' is _ _ => exact is.1 h
  | composite key o' is hin => rw [real_not_composite h] at is; cases is

/-- From depth `4 - n` a call returns, with any fuel above `n`, and always the same result. -/
theorem terminates_from (env : Env) (n : Nat) (hn : n ≤ 4) : ∀ (place : List Nat) (o : Options),
    ∃ r, ∀ fuel, n < fuel → allocate env fuel (4 - (n : Int)) place o = some r := by
  induction n with
  | zero =>
    intro place o
    refine ⟨.error tooDeep, ?_⟩
    intro fuel hf
    obtain ⟨f, rfl⟩ : ∃ f, fuel = f + 1 := ⟨fuel - 1, by omega⟩
    exact call_deep env f place o
  | succ n ih =>
    intro place o
    have ih := ih (by omega)
    have hd : (4 - ((n + 1 : Nat) : Int)) ≠ 4 := by omega
    have he : (4 - ((n + 1 : Nat) : Int)) + 1 = 4 - (n : Int) := by omega
    have fuels : ∀ fuel, n + 1 < fuel → ∃ f, fuel = f + 1 ∧ n < f := fun fuel h => ⟨fuel - 1, by omega, by omega⟩
    rcases kinds env.extra o.protocolName with h | h | h | h
    · refine ⟨(env.init place o).bind fun _ => .ok (.leaf o), fun fuel hf => ?_⟩
      obtain ⟨f, rfl, _⟩ := fuels fuel hf
      exact call_real f place hd h
    · obtain ⟨r1, h1⟩ := ih (place ++ [1]) (innerOptions "next_protocol_driver".toList o)
      obtain ⟨r2, h2⟩ := ih (place ++ [2]) (innerOptions "next_protocol_driver".toList o)
      cases hr : r1 with
      | ok d1 =>
        refine ⟨r2.bind fun d2 => .ok (.doubleBarrel d1 d2), fun fuel hf => ?_⟩
        obtain ⟨f, rfl, hf⟩ := fuels fuel hf
        rw [call_barrel f place hd h, he, h1 f (by omega), h2 f (by omega), hr]
      | _ =>
        refine ⟨r1, fun fuel hf => ?_⟩
        obtain ⟨f, rfl, hf⟩ := fuels fuel hf
        rw [call_barrel f place hd h, he, h1 f (by omega), hr]
    · obtain ⟨r1, h1⟩ := ih (place ++ [1]) (innerOptions "driver_under_test".toList o)
      refine ⟨r1.bind fun d => .ok (.counter d), fun fuel hf => ?_⟩
      obtain ⟨f, rfl, hf⟩ := fuels fuel hf
      rw [call_counter f place hd h, he, h1 f (by omega)]
    · cases hres : env.resolver with
      | none =>
        refine ⟨.error noResolver, fun fuel hf => ?_⟩
        obtain ⟨f, rfl, hf⟩ := fuels fuel hf
        rw [call_alias f place hd h, hres]
      | some resolve =>
        cases hp : resolve o.protocolName with
        | ok o' =>
          obtain ⟨r1, h1⟩ := ih place o'
          refine ⟨r1, fun fuel hf => ?_⟩
          obtain ⟨f, rfl, hf⟩ := fuels fuel hf
          rw [call_alias f place hd h, hres]
          simp only [hp]
          rw [he, h1 f (by omega)]
        | error m =>
          refine ⟨.error m, fun fuel hf => ?_⟩
          obtain ⟨f, rfl, hf⟩ := fuels fuel hf
          rw [call_alias f place hd h, hres]
          simp only [hp]
        | ub =>
          refine ⟨.ub, fun fuel hf => ?_⟩
          obtain ⟨f, rfl, hf⟩ := fuels fuel hf
          rw [call_alias f place hd h, hres]
          simp only [hp]
        | crash =>
          refine ⟨.crash, fun fuel hf => ?_⟩
          obtain ⟨f, rfl, hf⟩ := fuels fuel hf
          rw [call_alias f place hd h, hres]
          simp only [hp]

theorem deep_from (env : Env) (n : Nat) (hn : n ≤ 4) : ∀ (place : List Nat) (o o' : Options) (fuel : Nat),
    n < fuel → LevelsDown env n o o' → allocate env fuel (4 - (n : Int)) place o = some (.error tooDeep) := by
  induction n with
  | zero =>
    intro place o o' fuel hf _
    obtain ⟨f, rfl⟩ : ∃ f, fuel = f + 1 := ⟨fuel - 1, by omega⟩
    exact call_deep env f place o
  | succ n ih =>
    intro place o o'' fuel hf hl
    cases hl with
    | down _ _ o' _ hu hrest =>
      have ih := ih (by omega)
      have hd : (4 - ((n + 1 : Nat) : Int)) ≠ 4 := by omega
      have he : (4 - ((n + 1 : Nat) : Int)) + 1 = 4 - (n : Int) := by omega
      obtain ⟨f, rfl, hf⟩ : ∃ f, fuel = f + 1 ∧ n < f := ⟨fuel - 1, by omega, by omega⟩
      rcases kinds env.extra o.protocolName with h | h | h | h
      · exact (real_not_under h hu).elim
      · have := under_barrel h hu
        subst this
        rw [call_barrel f place hd h, he, ih _ _ _ f (by omega) hrest]
      · have := under_counter h hu
        subst this
        rw [call_counter f place hd h, he, ih _ _ _ f (by omega) hrest]
        rfl
      · obtain ⟨resolve, hr, hp⟩ := under_alias h hu
        rw [call_alias f place hd h, hr]
        simp only [hp]
        rw [he, ih _ _ _ f (by omega) hrest]

theorem within_from (env : Env) (n : Nat) (hn : n ≤ 4) (leaf : Options) (hleaf : IsRealDriver env.extra leaf.protocolName)
    (hinit : ∀ place, env.init place leaf = .ok ()) :
    ∀ (k : Nat) (place : List Nat) (o : Options) (fuel : Nat), k < n → n < fuel → LevelsDown env k o leaf →
    ∃ d, allocate env fuel (4 - (n : Int)) place o = some (.ok d) := by
  induction n with
  | zero => intro k place o fuel hk; omega
  | succ n ih =>
    intro k place o fuel hk hf hl
    have ih := ih (by omega)
    have hd : (4 - ((n + 1 : Nat) : Int)) ≠ 4 := by omega
    have he : (4 - ((n + 1 : Nat) : Int)) + 1 = 4 - (n : Int) := by omega
    obtain ⟨f, rfl, hf⟩ : ∃ f, fuel = f + 1 ∧ n < f := ⟨fuel - 1, by omega, by omega⟩
    cases hl with
    | here =>
      refine ⟨.leaf leaf, ?_⟩
      rw [call_real f place hd hleaf, hinit]
      rfl
    | down k _ o' _ hu hrest =>
      have hk : k < n := by omega
      rcases kinds env.extra o.protocolName with h | h | h | h
      · exact (real_not_under h hu).elim
      · have := under_barrel h hu
        subst this
        obtain ⟨d1, h1⟩ := ih k (place ++ [1]) _ f hk (by omega) hrest
        obtain ⟨d2, h2⟩ := ih k (place ++ [2]) _ f hk (by omega) hrest
        refine ⟨.doubleBarrel d1 d2, ?_⟩
        rw [call_barrel f place hd h, he, h1, h2]
        rfl
      · have := under_counter h hu
        subst this
        obtain ⟨d1, h1⟩ := ih k (place ++ [1]) _ f hk (by omega) hrest
        refine ⟨.counter d1, ?_⟩
        rw [call_counter f place hd h, he, h1]
        rfl
      · obtain ⟨resolve, hr, hp⟩ := under_alias h hu
        obtain ⟨d1, h1⟩ := ih k place _ f hk (by omega) hrest
        refine ⟨d1, ?_⟩
        rw [call_alias f place hd h, hr]
        simp only [hp]
        rw [he, h1]

theorem built_of_allocate (env : Env) (fuel : Nat) : ∀ (depth : Int) (place : List Nat) (o : Options) (d : Driver),
    allocate env fuel depth place o = some (.ok d) → Built env o d := by
  induction fuel with
  | zero => intro depth place o d h; rw [allocate] at h; cases h
  | succ f ih =>
    intro depth place o d h
    by_cases hd : depth = 4
    · subst hd
      rw [call_deep] at h
      cases h
    · rcases kinds env.extra o.protocolName with hk | hk | hk | hk
      · rw [call_real f place hd hk] at h
        cases hi : env.init place o with
        | ok u =>
          rw [hi] at h
          simp only [Outcome.bind] at h
          cases h
          exact .leaf o hk
        | _ => rw [hi] at h; simp only [Outcome.bind] at h; cases h
      · rw [call_barrel f place hd hk] at h
        split at h
        · cases h
        · rename_i d1 h1
          split at h
          · cases h
          · rename_i r2 h2
            cases r2 with
            | ok d2 =>
              simp only [Outcome.bind] at h
              cases h
              exact .doubleBarrel o _ d1 d2 hk (inner_handsDown _ _) (ih _ _ _ _ h1) (ih _ _ _ _ h2)
            | _ => simp only [Outcome.bind] at h; cases h
        · rename_i r1 hne h1
          cases h
          exact (hne _ rfl).elim
      · rw [call_counter f place hd hk] at h
        split at h
        · cases h
        · rename_i r h1
          cases r with
          | ok d1 =>
            simp only [Outcome.bind] at h
            cases h
            exact .counter o _ d1 hk (inner_handsDown _ _) (ih _ _ _ _ h1)
          | _ => simp only [Outcome.bind] at h; cases h
      · rw [call_alias f place hd hk] at h
        cases hr : env.resolver with
        | none => rw [hr] at h; cases h
        | some resolve =>
          rw [hr] at h
          dsimp only at h
          cases hp : resolve o.protocolName with
          | ok o' =>
            rw [hp] at h
            exact .alias o o' d hk (.alias resolve o' hk hr hp) (ih _ _ _ _ h)
          | _ => rw [hp] at h; cases h

/-! ### C50: allocation terminates -/

/-- Allocation returns after at most five nested calls, whatever the options, the aliases and the
drivers under it do: there is a result, and every amount of fuel from five on gives it. -/
theorem C50_terminates (env : Env) (o : Options) :
    ∃ r, ∀ fuel, 5 ≤ fuel → allocate env fuel 0 [] o = some r := by
  obtain ⟨r, h⟩ := terminates_from env 4 (Nat.le_refl _) [] o
  exact ⟨r, fun fuel hf => h fuel (by omega)⟩

/-- Options from which one can go down four levels give an error. -/
theorem C50_too_deep (env : Env) (o o' : Options) (h : LevelsDown env 4 o o') (fuel : Nat) (hf : 5 ≤ fuel) :
    allocate env fuel 0 [] o = some (.error "Tree cannot be deeper than max depth of: 4.") :=
  deep_from env 4 (Nat.le_refl _) [] o o' fuel (by omega) h

theorem levels_of_cycle {env : Env} {loop : Options → Prop} (h : ∀ o, loop o → ∃ o', Under env o o' ∧ loop o') :
    ∀ (n : Nat) (o : Options), loop o → ∃ o', LevelsDown env n o o' := by
  intro n
  induction n with
  | zero => exact fun o _ => ⟨o, .here o⟩
  | succ n ih =>
    intro o ho
    obtain ⟨o', hu, ho'⟩ := h o ho
    obtain ⟨o'', hl⟩ := ih o' ho'
    exact ⟨o'', .down n o o' o'' hu hl⟩

/-- Options that lead round in a loop, through aliases or composite drivers, give an error. -/
theorem C50_cycle (env : Env) (loop : Options → Prop) (h : ∀ o, loop o → ∃ o', Under env o o' ∧ loop o')
    (o : Options) (ho : loop o) (fuel : Nat) (hf : 5 ≤ fuel) :
    allocate env fuel 0 [] o = some (.error "Tree cannot be deeper than max depth of: 4.") := by
  obtain ⟨o', hl⟩ := levels_of_cycle h 4 o ho
  exact C50_too_deep env o o' hl fuel hf

/-- The limit is not stricter than that: options that reach a real driver within three levels
give a driver, if that real driver can be initialised. -/
theorem C50_within (env : Env) (k : Nat) (o leaf : Options) (hk : k ≤ 3) (h : LevelsDown env k o leaf)
    (hleaf : IsRealDriver env.extra leaf.protocolName) (hinit : ∀ place, env.init place leaf = .ok ())
    (fuel : Nat) (hf : 5 ≤ fuel) : ∃ d, allocate env fuel 0 [] o = some (.ok d) :=
  within_from env 4 (Nat.le_refl _) leaf hleaf hinit k [] o fuel (by omega) (by omega) h

/-! ### C135: the driver is the one described -/

/-- An allocated driver is the one that the options describe. -/
theorem C135_built (env : Env) (o : Options) (d : Driver) (fuel : Nat)
    (h : allocate env fuel 0 [] o = some (.ok d)) : Built env o d :=
  built_of_allocate env fuel 0 [] o d h

theorem alias_ne_real {extra : List Str} {p : Str} (h : IsAlias extra p) (h' : IsRealDriver extra p) : False := h.1 h'

/-- The options describe only one driver. -/
theorem C135_unique (env : Env) (o : Options) (d d' : Driver) (h : Built env o d) (h' : Built env o d') : d = d' := by
  induction h generalizing d' with
  | leaf o is =>
    cases h' with
    | leaf => rfl
    | alias _ o' _ is' => exact (is'.1 is).elim
    | doubleBarrel _ _ _ _ is' => rw [is'] at is; exact (barrel_not_real _ is).elim
    | counter _ _ _ is' => rw [is'] at is; exact (counter_not_real _ is).elim
  | alias o o1 d is hu _ ih =>
    cases h' with
    | leaf _ is' => exact (is.1 is').elim
    | alias _ o2 _ is' hu' hb' =>
      obtain ⟨r1, e1, f1⟩ := under_alias is hu
      obtain ⟨r2, e2, f2⟩ := under_alias is hu'
      rw [e1] at e2
      cases e2
      rw [f1] at f2
      cases f2
      exact ih _ hb'
    | doubleBarrel _ _ _ _ is' => rw [is'] at is; exact absurd is.2 (by decide)
    | counter _ _ _ is' => rw [is'] at is; exact absurd is.2 (by decide)
  | doubleBarrel o o1 d1 d2 is hu _ _ ih1 ih2 =>
    cases h' with
    | leaf _ is' => rw [is] at is'; exact (barrel_not_real _ is').elim
    | alias _ o2 _ is' => rw [is] at is'; exact absurd is'.2 (by decide)
    | doubleBarrel _ o2 e1 e2 _ hu' hb1 hb2 =>
      have := handsDown_unique hu hu'
      subst this
      rw [ih1 _ hb1, ih2 _ hb2]
    | counter _ _ _ is' => rw [is] at is'; exact absurd is' (by decide)
  | counter o o1 d1 is hu _ ih =>
    cases h' with
    | leaf _ is' => rw [is] at is'; exact (counter_not_real _ is').elim
    | alias _ o2 _ is' => rw [is] at is'; exact absurd is'.2 (by decide)
    | doubleBarrel _ _ _ _ is' => rw [is] at is'; exact absurd is' (by decide)
    | counter _ o2 e1 _ hu' hb =>
      have := handsDown_unique hu hu'
      subst this
      rw [ih _ hb]

/-- A table with a loop of two aliases, and an environment where everything initialises. -/
def loopTable : List Options :=
  [{ name := some "a".toList, protocol := some "b".toList },
   { name := some "b".toList, protocol := some "a".toList },
   { name := some "x".toList, protocol := some "double_barrel".toList,
     serverSettings := [⟨"next_protocol_driver".toList, "y".toList⟩] },
   { name := some "y".toList, protocol := some "grpc".toList }]

def testEnv (table : List Options) : Env := ⟨[], some (resolveAlias table), fun _ _ => .ok ()⟩

example : allocate (testEnv loopTable) 5 0 [] { protocol := some "a".toList } = some (.error tooDeep) := by
  decide +kernel

example : ∃ d, allocate (testEnv loopTable) 5 0 [] { protocol := some "x".toList } = some (.ok d) ∧
    leaves d = [{ name := some "y".toList, protocol := some "grpc".toList },
      { name := some "y".toList, protocol := some "grpc".toList }] := ⟨_, rfl, by decide +kernel⟩

/-- A double barrel without a setting for the driver under it stands on itself, without end. -/
example (fuel : Nat) (hf : 5 ≤ fuel) :
    allocate (testEnv []) fuel 0 [] { protocol := some "double_barrel".toList } = some (.error tooDeep) := by
  refine C50_cycle _ (fun o => o = { protocol := some "double_barrel".toList }) ?_ _ rfl fuel hf
  rintro o rfl
  exact ⟨_, .composite "next_protocol_driver".toList _ (by decide) (.unnamed (by simp)), rfl⟩

/-! ### C136: what the real drivers under composite drivers are given -/

theorem handsDown_keeps {key : Str} {o o' : Options} (h : HandsDown key o o') :
    o'.netdev = o.netdev ∧ o'.clientSettings = o.clientSettings ∧ o'.ipVersion = o.ipVersion ∧ o'.name = o.name := by
  cases h with
  | named => exact ⟨rfl, rfl, rfl, rfl⟩
  | unnamed => exact ⟨rfl, rfl, rfl, rfl⟩

theorem handsDown_settings {key : Str} {o o' : Options} (h : HandsDown key o o') (hk : compositeKey o.protocolName = some key)
    (s : Setting) (hs : s ∈ o.serverSettings) (h1 : s.name ≠ "next_protocol_driver".toList)
    (h2 : s.name ≠ "driver_under_test".toList) : s ∈ o'.serverSettings := by
  cases h with
  | named b a t ht hkey _ =>
    rw [ht] at hs
    simp at hs ⊢
    rcases hs with h | h | h
    · exact .inl h
    · subst h
      rcases key_cases hk with ⟨_, rfl⟩ | ⟨_, rfl⟩
      · exact absurd hkey h1
      · exact absurd hkey h2
    · exact .inr h
  | unnamed => exact hs

/-- No alias is met on the way down from these options. -/
def NoAlias (env : Env) (o : Options) : Prop := ∀ k o', LevelsDown env k o o' → ¬ IsAlias env.extra o'.protocolName

theorem noAlias_under {env : Env} {o o' : Options} (h : NoAlias env o) (hu : Under env o o') : NoAlias env o' :=
  fun k o'' hl => h (k + 1) o'' (.down k o o' o'' hu hl)

/-- The real drivers under composite drivers get the device, client settings, IP version, name and
all server settings of the options, apart from the settings that name the drivers. -/
theorem C136_composites (env : Env) (o : Options) (d : Driver) (fuel : Nat) (hna : NoAlias env o)
    (h : allocate env fuel 0 [] o = some (.ok d)) (leaf : Options) (hl : leaf ∈ leaves d) :
    leaf.netdev = o.netdev ∧ leaf.clientSettings = o.clientSettings ∧ leaf.ipVersion = o.ipVersion ∧
    leaf.name = o.name ∧
    ∀ s ∈ o.serverSettings, s.name ≠ "next_protocol_driver".toList → s.name ≠ "driver_under_test".toList →
      s ∈ leaf.serverSettings := by
  have hb := C135_built env o d fuel h
  clear h
  induction hb with
  | leaf o is =>
    simp [leaves] at hl
    subst hl
    exact ⟨rfl, rfl, rfl, rfl, fun s hs _ _ => hs⟩
  | alias o o' d is hu _ _ => exact absurd is (hna 0 o (.here o))
  | doubleBarrel o o' d1 d2 is hu _ _ ih1 ih2 =>
    have hkey : compositeKey o.protocolName = some "next_protocol_driver".toList := by rw [is]; decide
    have hn' := noAlias_under hna (.composite _ o' hkey hu)
    obtain ⟨k1, k2, k3, k4⟩ := handsDown_keeps hu
    have : leaf ∈ leaves d1 ∨ leaf ∈ leaves d2 := by simpa [leaves] using hl
    have hr : leaf.netdev = o'.netdev ∧ leaf.clientSettings = o'.clientSettings ∧ leaf.ipVersion = o'.ipVersion ∧
        leaf.name = o'.name ∧ ∀ s ∈ o'.serverSettings, s.name ≠ "next_protocol_driver".toList →
          s.name ≠ "driver_under_test".toList → s ∈ leaf.serverSettings := by
      rcases this with h | h
      · exact ih1 hn' h
      · exact ih2 hn' h
    obtain ⟨r1, r2, r3, r4, r5⟩ := hr
    exact ⟨r1.trans k1, r2.trans k2, r3.trans k3, r4.trans k4,
      fun s hs h1 h2 => r5 s (handsDown_settings hu hkey s hs h1 h2) h1 h2⟩
  | counter o o' d1 is hu _ ih =>
    have hkey : compositeKey o.protocolName = some "driver_under_test".toList := by rw [is]; decide
    have hn' := noAlias_under hna (.composite _ o' hkey hu)
    obtain ⟨k1, k2, k3, k4⟩ := handsDown_keeps hu
    obtain ⟨r1, r2, r3, r4, r5⟩ := ih hn' (by simpa [leaves] using hl)
    exact ⟨r1.trans k1, r2.trans k2, r3.trans k3, r4.trans k4,
      fun s hs h1 h2 => r5 s (handsDown_settings hu hkey s hs h1 h2) h1 h2⟩

def countedGrpc : Options where
  protocol := some "composable_rpc_counter".toList
  netdev := some "eth0".toList
  serverSettings := [⟨"driver_under_test".toList, "grpc".toList⟩, ⟨"server_type".toList, "inline".toList⟩]

example : NoAlias (testEnv []) countedGrpc := by
  intro k o' hl
  cases hl with
  | here => exact fun h => absurd h.2 (by decide)
  | down k _ o1 _ hu hrest =>
    have := under_counter (o := countedGrpc) rfl hu
    subst this
    have hreal : IsRealDriver (testEnv []).extra (innerOptions "driver_under_test".toList countedGrpc).protocolName :=
      .inl (by decide +kernel)
    cases hrest with
    | here => exact fun h => h.1 hreal
    | down _ _ _ _ hu' _ => exact (real_not_under hreal hu').elim

/-! ### C137, C138: the options of a service -/

theorem optionsName_chosen {t n : Str} (hn : n ≠ []) : ∀ (services : List ServiceOptions) (acc : Str),
    (∀ s ∈ services, s.name = t → s.optionsName = some n) →
    optionsName services t acc = .ok (if ∃ s ∈ services, s.name = t then n else acc) := by
  intro services
  induction services with
  | nil => intro acc _; simp [optionsName]
  | cons s rest ih =>
    intro acc h
    have ih := fun acc => ih acc (fun s' hs' => h s' (List.mem_cons_of_mem _ hs'))
    by_cases hs : s.name = t
    · have hsn := h s (by simp) hs
      rw [optionsName]
      simp only [ne_eq, hs, not_true, if_false, hsn, hn, ih n, List.mem_cons, exists_eq_or_imp]
      split <;> simp
    · rw [optionsName]
      simp only [ne_eq, hs, not_false_iff, if_true, ih acc, List.mem_cons, exists_eq_or_imp, false_or]

theorem optionsName_none {t : Str} : ∀ (services : List ServiceOptions) (acc : Str),
    ChoosesNone services t → optionsName services t acc = .ok acc := by
  intro services
  induction services with
  | nil => intro acc _; rfl
  | cons s rest ih =>
    intro acc h
    have ih := ih acc (fun s' hs' => h s' (List.mem_cons_of_mem _ hs'))
    rw [optionsName]
    by_cases hs : s.name = t
    · have hsn := h s (by simp) hs
      simp only [ne_eq, hs, not_true, if_false, hsn, ih]
    · simp only [ne_eq, hs, not_false_iff, if_true, ih]

theorem resolve_first {n : Str} (hn : n ≠ []) : ∀ (table : List Options) (o : Options),
    FirstEntry table n o → resolveAlias table n = .ok o := by
  intro table o ⟨b, a, ht, ho, hb⟩
  subst ht
  induction b with
  | nil => simp [resolveAlias, ho]
  | cons x b ih =>
    have hx := hb x (by simp)
    have : ¬ (x.name.getD [] = n ∨ n = [] ∧ x.name.getD [] = "default_protocol_driver_options".toList) := by
      rintro (h | ⟨h, _⟩)
      · cases hxn : x.name with
        | none => rw [hxn] at h; exact hn h.symm
        | some m => rw [hxn] at h; exact hx (by rw [hxn]; simp at h; rw [h])
      · exact hn h
    rw [List.cons_append, resolveAlias, if_neg this]
    exact ih (fun e he => hb e (by simp [he]))

theorem resolve_none {n : Str} : ∀ (table : List Options),
    (∀ e ∈ table, e.name.getD [] ≠ n ∧ ¬ (n = [] ∧ e.name.getD [] = "default_protocol_driver_options".toList)) →
    resolveAlias table n = .error unresolved := by
  intro table
  induction table with
  | nil => intro _; rfl
  | cons x rest ih =>
    intro h
    have hx := h x (by simp)
    rw [resolveAlias, if_neg (by rintro (h | h); exact hx.1 h; exact hx.2 h)]
    exact ih (fun e he => h e (by simp [he]))

theorem resolve_default : ∀ (table : List Options) (o : Options), (∀ e ∈ table, e.name.getD [] ≠ []) →
    FirstEntry table "default_protocol_driver_options".toList o → resolveAlias table [] = .ok o := by
  intro table o hne ⟨b, a, ht, ho, hb⟩
  subst ht
  induction b with
  | nil => rw [List.nil_append, resolveAlias, if_pos (.inr ⟨rfl, by rw [ho]; rfl⟩)]
  | cons x b ih =>
    have hx := hb x (by simp)
    have hx' := hne x (by simp)
    rw [List.cons_append, resolveAlias, if_neg]
    · exact ih (fun e he => hb e (by simp [he])) (fun e he => hne e (List.mem_cons_of_mem _ he))
    · rintro (h | ⟨_, h⟩)
      · exact hx' h
      · apply hx
        cases hxn : x.name with
        | none => rw [hxn] at h; exact absurd h (by decide)
        | some m => rw [hxn] at h; simp only [Option.getD_some] at h; rw [h]

theorem complete_eq (o : Options) (protocol netdev : Str) :
    (let withProtocol : Options := if o.protocol = none then { o with protocol := some protocol } else o
     if withProtocol.netdev = none then { withProtocol with netdev := some netdev } else withProtocol) =
    completed o protocol netdev := by
  obtain ⟨n, p, d, s, c, i⟩ := o
  cases p <;> cases d <;> simp [completed]

/-- A service that names driver options present in the table gets the first entry with that name,
completed with the default protocol and device. -/
theorem C138_named (config : DriverConfig) (t n protocol netdev : Str) (o : Options) (hn : n ≠ [])
    (hc : ChoosesOptions config.services t n) (ho : FirstEntry config.table n o) :
    optionsFor config t protocol netdev = .ok (completed o protocol netdev) := by
  unfold optionsFor
  rw [optionsName_chosen hn _ _ hc.2, if_pos hc.1]
  simp only [Outcome.bind, resolve_first hn _ _ ho, if_neg hn]
  rw [← complete_eq o protocol netdev]

/-- A service that names no driver options gets the entry `default_protocol_driver_options`,
completed with the default protocol and device, its name replaced. -/
theorem C138_default (config : DriverConfig) (t protocol netdev : Str) (o : Options)
    (hc : ChoosesNone config.services t) (hnames : ∀ e ∈ config.table, e.name.getD [] ≠ [])
    (ho : FirstEntry config.table "default_protocol_driver_options".toList o) :
    optionsFor config t protocol netdev =
      .ok (completed { o with name := some "generated_default".toList } protocol netdev) := by
  unfold optionsFor
  rw [optionsName_none _ _ hc]
  simp only [Outcome.bind, resolve_default _ _ hnames ho, if_true]
  rw [← complete_eq _ protocol netdev]

/-- Without such an entry, it gets the default protocol on the default device, and no settings. -/
theorem C138_generated (config : DriverConfig) (t protocol netdev : Str)
    (hc : ChoosesNone config.services t) (hnames : ∀ e ∈ config.table, e.name.getD [] ≠ [])
    (ho : ∀ e ∈ config.table, e.name ≠ some "default_protocol_driver_options".toList) :
    optionsFor config t protocol netdev =
      .ok { name := some "generated_default".toList, protocol := some protocol, netdev := some netdev } := by
  unfold optionsFor
  have : resolveAlias config.table [] = .error unresolved := by
    refine resolve_none _ (fun e he => ⟨hnames e he, ?_⟩)
    rintro ⟨_, h⟩
    apply ho e he
    cases hen : e.name with
    | none => rw [hen] at h; exact absurd h (by decide)
    | some m => rw [hen] at h; simp only [Option.getD_some] at h; rw [h]
  rw [optionsName_none _ _ hc]
  simp [Outcome.bind, this]

/-- An empty name is refused. -/
theorem C138_empty (config : DriverConfig) (t protocol netdev : Str) (hc : ChoosesOptions config.services t []) :
    optionsFor config t protocol netdev = .error "An empty name cannot be specified" := by
  have : ∀ (services : List ServiceOptions) (acc : Str), (∃ s ∈ services, s.name = t) →
      (∀ s ∈ services, s.name = t → s.optionsName = some []) →
      optionsName services t acc = .error emptyName := by
    intro services
    induction services with
    | nil => rintro acc ⟨s, hs, _⟩; cases hs
    | cons s rest ih =>
      intro acc he h
      rw [optionsName]
      by_cases hs : s.name = t
      · simp only [ne_eq, hs, not_true, if_false, h s (by simp) hs, if_true]
      · simp only [ne_eq, hs, not_false_iff, if_true]
        refine ih acc ?_ (fun s' hs' => h s' (List.mem_cons_of_mem _ hs'))
        obtain ⟨s', hs', he'⟩ := he
        rcases List.mem_cons.1 hs' with rfl | hs'
        · exact absurd he' hs
        · exact ⟨s', hs', he'⟩
  unfold optionsFor
  rw [this _ _ hc.1 hc.2]
  rfl

def namedConfig : DriverConfig where
  services := [⟨"client".toList, none⟩, ⟨"server".toList, some "fast".toList⟩]
  table := [{ name := some "default_protocol_driver_options".toList, netdev := some "eth1".toList },
    { name := some "fast".toList, protocol := some "homa".toList, ipVersion := 6 }]

example : optionsFor namedConfig "server".toList "grpc".toList "eth0".toList =
    .ok { name := some "fast".toList, protocol := some "homa".toList, netdev := some "eth0".toList, ipVersion := 6 } := by
  decide +kernel

example : optionsFor namedConfig "client".toList "grpc".toList "eth0".toList =
    .ok { name := some "generated_default".toList, protocol := some "grpc".toList, netdev := some "eth1".toList } := by
  decide +kernel

/-- C137, the claim: a service naming options that no entry of the table has is refused.  The code
does not: it gives the default protocol without any settings. -/
theorem C137_negation : ∃ (config : DriverConfig) (t n : Str), ChoosesOptions config.services t n ∧ n ≠ [] ∧
    (∀ e ∈ config.table, e.name ≠ some n) ∧
    ∀ protocol netdev, optionsFor config t protocol netdev =
      .ok { protocol := some protocol, netdev := some netdev } := by
  refine ⟨⟨[⟨"server".toList, some "tsat".toList⟩], [{ name := some "fast".toList, protocol := some "homa".toList }]⟩,
    "server".toList, "tsat".toList, ⟨⟨_, List.mem_singleton.2 rfl, rfl⟩, by simp⟩, by decide, by simp, ?_⟩
  intro protocol netdev
  unfold optionsFor
  have h1 : optionsName [⟨"server".toList, some "tsat".toList⟩] "server".toList [] = .ok "tsat".toList := by decide
  have h2 : resolveAlias [{ name := some "fast".toList, protocol := some "homa".toList }] "tsat".toList = .error unresolved := by
    decide +kernel
  have h3 : ("tsat".toList = []) = False := by simp
  simp only [h1, Outcome.bind, h2, h3, if_false, if_true]

/-- What holds of C137: a name used as a protocol (in the options of a service, or under a
composite driver) that is neither a driver nor an entry of the table is refused. -/
theorem C137_partial (config : DriverConfig) (extra : List Str) (init : List Nat → Options → Outcome Unit)
    (t protocol netdev : Str) (o : Options) (fuel : Nat) (hf : 5 ≤ fuel)
    (ho : optionsFor config t protocol netdev = .ok o) (k : Nat) (hk : k ≤ 3) (o' : Options)
    (hl : LevelsDown ⟨extra, some (resolveAlias config.table), init⟩ k o o')
    (ha : IsAlias extra o'.protocolName) (hne : o'.protocolName ≠ [])
    (hn : ∀ e ∈ config.table, e.name ≠ some o'.protocolName) :
    serviceDriver config extra init t protocol netdev fuel = some (.error "Could not resolve protocol driver alias") := by
  have hres : resolveAlias config.table o'.protocolName = .error unresolved := by
    refine resolve_none _ (fun e he => ⟨?_, fun h => hne h.1⟩)
    intro h
    cases hen : e.name with
    | none => rw [hen] at h; exact hne h.symm
    | some m => rw [hen] at h; simp only [Option.getD_some] at h; exact hn e he (by rw [hen, h])
  unfold serviceDriver
  rw [ho]
  show allocate _ fuel 0 [] o = _
  have key : ∀ (n : Nat), n ≤ 4 → ∀ (k : Nat) (place : List Nat) (o : Options) (fuel : Nat), k < n → n < fuel →
      LevelsDown ⟨extra, some (resolveAlias config.table), init⟩ k o o' →
      allocate ⟨extra, some (resolveAlias config.table), init⟩ fuel (4 - (n : Int)) place o = some (.error unresolved) := by
    intro n
    induction n with
    | zero => intro _ k _ _ _ hk; omega
    | succ n ih =>
      intro hn4 k place o fuel hk hf hl
      have ih := ih (by omega)
      have hd : (4 - ((n + 1 : Nat) : Int)) ≠ 4 := by omega
      have he : (4 - ((n + 1 : Nat) : Int)) + 1 = 4 - (n : Int) := by omega
      obtain ⟨f, rfl, hf⟩ : ∃ f, fuel = f + 1 ∧ n < f := ⟨fuel - 1, by omega, by omega⟩
      cases hl with
      | here =>
        rw [call_alias f place hd ha]
        simp only [hres]
      | down k _ o1 _ hu hrest =>
        have hk : k < n := by omega
        rcases kinds extra o.protocolName with h | h | h | h
        · exact (real_not_under (env := ⟨extra, some (resolveAlias config.table), init⟩) h hu).elim
        · have := under_barrel h hu
          subst this
          rw [call_barrel f place hd h, he, ih k _ _ f hk (by omega) hrest]
        · have := under_counter h hu
          subst this
          rw [call_counter f place hd h, he, ih k _ _ f hk (by omega) hrest]
          rfl
        · obtain ⟨resolve, hr, hp⟩ := under_alias (env := ⟨extra, some (resolveAlias config.table), init⟩) h hu
          rw [call_alias f place hd h]
          cases hr
          simp only [hp]
          rw [he, ih k _ _ f hk (by omega) hrest]
  exact key 4 (Nat.le_refl _) k [] o fuel (by omega) (by omega) hl

example : serviceDriver ⟨[⟨"server".toList, some "fast".toList⟩],
      [{ name := some "fast".toList, protocol := some "tsat".toList }]⟩ [] (fun _ _ => .ok ()) "server".toList
      "grpc".toList "eth0".toList 5 = some (.error unresolved) := by decide +kernel

/-! ### C139: the network device -/

/-- C139, the claim: every real driver of a service has a network device, that of its options or
the node's.  The code violates it when the options of the service stand for other options: those
are not completed. -/
theorem C139_negation : ∃ (config : DriverConfig) (t : Str) (d : Driver),
    serviceDriver config [] (fun _ _ => .ok ()) t "grpc".toList "eth0".toList 5 = some (.ok d) ∧
    ∃ leaf ∈ leaves d, leaf.netdev = none := by
  refine ⟨⟨[⟨"server".toList, some "fast".toList⟩],
    [{ name := some "fast".toList, protocol := some "plain".toList },
     { name := some "plain".toList, protocol := some "grpc".toList }]⟩, "server".toList,
    .leaf { name := some "plain".toList, protocol := some "grpc".toList }, by decide +kernel,
    { name := some "plain".toList, protocol := some "grpc".toList }, by simp [leaves], rfl⟩

theorem optionsFor_netdev {config : DriverConfig} {t protocol netdev : Str} {o : Options}
    (h : optionsFor config t protocol netdev = .ok o) : o.netdev ≠ none := by
  unfold optionsFor at h
  cases hn : optionsName config.services t [] with
  | ok n =>
    rw [hn] at h
    simp only [Outcome.bind] at h
    generalize (if n = [] then _ else _ : Options) = named at h
    generalize (if named.protocol = none then _ else _ : Options) = wp at h
    cases h
    split
    · simp
    · assumption
  | _ => rw [hn] at h; simp only [Outcome.bind] at h; cases h

/-- What holds of C139: it is so when the options stand for no other options, and also when every
entry of the table names a device. -/
theorem C139_partial (config : DriverConfig) (extra : List Str) (init : List Nat → Options → Outcome Unit)
    (t protocol netdev : Str) (o : Options) (d : Driver) (fuel : Nat)
    (ho : optionsFor config t protocol netdev = .ok o)
    (hd : serviceDriver config extra init t protocol netdev fuel = some (.ok d))
    (hna : NoAlias ⟨extra, some (resolveAlias config.table), init⟩ o ∨ ∀ e ∈ config.table, e.netdev ≠ none) :
    ∀ leaf ∈ leaves d, leaf.netdev ≠ none := by
  unfold serviceDriver at hd
  rw [ho] at hd
  dsimp only at hd
  intro leaf hl
  rcases hna with hna | htab
  · obtain ⟨h1, _⟩ := C136_composites _ o d fuel hna hd leaf hl
    rw [h1]
    exact optionsFor_netdev ho
  · have hb := C135_built _ o d fuel hd
    have ho' := optionsFor_netdev ho
    clear ho hd
    have mem : ∀ (table : List Options) (n : Str) (o : Options), resolveAlias table n = .ok o → o ∈ table := by
      intro table n
      induction table with
      | nil => intro o h; cases h
      | cons x rest ih =>
        intro o h
        rw [resolveAlias] at h
        split at h
        · cases h; simp
        · exact List.mem_cons_of_mem _ (ih o h)
    induction hb with
    | leaf o is => simp [leaves] at hl; subst hl; exact ho'
    | alias o o1 d is hu _ ih =>
      obtain ⟨r, hr, hp⟩ := under_alias is hu
      cases hr
      exact ih hl (htab _ (mem _ _ _ hp))
    | doubleBarrel o o1 d1 d2 is hu _ _ ih1 ih2 =>
      have : leaf ∈ leaves d1 ∨ leaf ∈ leaves d2 := by simpa [leaves] using hl
      have hk := (handsDown_keeps hu).1
      rcases this with h | h
      · exact ih1 h (by rw [hk]; exact ho')
      · exact ih2 h (by rw [hk]; exact ho')
    | counter o o1 d1 is hu _ ih =>
      have hk := (handsDown_keeps hu).1
      exact ih (by simpa [leaves] using hl) (by rw [hk]; exact ho')

/-! ### C51, C140: the double barrel -/

theorem wrap_parity (n : Int) : wrap32 n % 2 = n % 2 := by
  unfold wrap32
  omega

theorem everyOther_cons {α : Type} (a : α) (l : List α) : everyOther (a :: l) = a :: everyOther l.tail := by
  cases l with
  | nil => rfl
  | cons b l => rfl

theorem barrel_run (peers : List Int) : ∀ (s : Barrel),
    (s.useInstance1 % 2 = 1 → (s.run peers).first = s.first ++ everyOther peers ∧
      (s.run peers).second = s.second ++ everyOther peers.tail) ∧
    (s.useInstance1 % 2 = 0 → (s.run peers).first = s.first ++ everyOther peers.tail ∧
      (s.run peers).second = s.second ++ everyOther peers) := by
  induction peers with
  | nil => intro s; simp [Barrel.run, everyOther]
  | cons p rest ih =>
    intro s
    have hw := wrap_parity (s.useInstance1 + 1)
    constructor
    · intro h
      have hi : s.initiate p = { s with useInstance1 := wrap32 (s.useInstance1 + 1), first := s.first ++ [p] } := by
        simp only [Barrel.initiate, if_pos h]
      obtain ⟨h1, h2⟩ := (ih (s.initiate p)).2 (by rw [hi]; dsimp only; omega)
      rw [Barrel.run, h1, h2, hi, everyOther_cons]
      simp
    · intro h
      have hi : s.initiate p = { s with useInstance1 := wrap32 (s.useInstance1 + 1), second := s.second ++ [p] } := by
        simp only [Barrel.initiate]
        rw [if_neg (by omega)]
      obtain ⟨h1, h2⟩ := (ih (s.initiate p)).1 (by rw [hi]; dsimp only; omega)
      rw [Barrel.run, h1, h2, hi, everyOther_cons]
      simp

/-- The RPCs go alternately to the first and to the second instance. -/
theorem C51_alternates (peers : List Int) :
    (({} : Barrel).run peers).first = everyOther peers ∧ (({} : Barrel).run peers).second = everyOther peers.tail := by
  have := (barrel_run peers {}).1 (by decide)
  simpa using this

theorem everyOther_length {α : Type} : ∀ (l : List α), (everyOther l).length = (l.length + 1) / 2
  | [] => by simp [everyOther]
  | [a] => by simp [everyOther]
  | a :: b :: rest => by
    rw [everyOther, List.length_cons, everyOther_length rest, List.length_cons, List.length_cons]
    omega

/-- However many RPCs are made, every one goes to one of the two instances, and the numbers differ
by at most one. -/
theorem C51_balance (peers : List Int) :
    let s := ({} : Barrel).run peers
    s.first.length + s.second.length = peers.length ∧
    s.second.length ≤ s.first.length ∧ s.first.length ≤ s.second.length + 1 := by
  obtain ⟨h1, h2⟩ := C51_alternates peers
  dsimp only
  rw [h1, h2, everyOther_length, everyOther_length, List.length_tail]
  omega

example : (({} : Barrel).run [4, 5, 6]).first = [4, 6] ∧ (({} : Barrel).run [4, 5, 6]).second = [5] := by decide

/-- C140, the claim: the connections to one peer are used equally.  The code alternates over all
RPCs, so with RPCs going to two peers in turn each peer is always reached through the same
instance, however many RPCs are made. -/
theorem C140_negation (n : Nat) : ∃ peers : List Int, let s := ({} : Barrel).run peers
    s.first.count 0 = n ∧ s.second.count 0 = 0 := by
  have key : ∀ n : Nat, everyOther ((List.replicate n [(0 : Int), 1]).flatten) = List.replicate n 0 ∧
      everyOther ((List.replicate n [(0 : Int), 1]).flatten).tail = List.replicate n 1 := by
    intro n
    induction n with
    | zero => exact ⟨rfl, rfl⟩
    | succ n ih =>
      simp only [List.replicate_succ, List.flatten_cons, List.cons_append, List.nil_append, List.tail_cons]
      rw [everyOther, ih.1, everyOther_cons, ih.2]
      exact ⟨rfl, rfl⟩
  refine ⟨(List.replicate n [(0 : Int), 1]).flatten, ?_⟩
  obtain ⟨h1, h2⟩ := C51_alternates (List.replicate n [(0 : Int), 1]).flatten
  dsimp only
  rw [h1, h2, (key n).1, (key n).2]
  constructor
  · simp
  · rw [List.count_replicate]; simp

/-- What holds of C140: with a single peer the connections to it are used equally. -/
theorem C140_partial (p : Int) (peers : List Int) (h : ∀ q ∈ peers, q = p) :
    let s := ({} : Barrel).run peers
    s.second.count p ≤ s.first.count p ∧ s.first.count p ≤ s.second.count p + 1 := by
  have mem : ∀ (l : List Int), ∀ a ∈ everyOther l, a ∈ l := by
    intro l
    fun_induction everyOther l with
    | case1 => simp
    | case2 a => simp
    | case3 a b rest ih =>
      intro x hx
      rcases List.mem_cons.1 hx with rfl | hx
      · simp
      · simp [ih x hx]
  have hc : ∀ (l : List Int), (∀ q ∈ l, q = p) → l.count p = l.length :=
    fun l hl => List.count_eq_length.2 (fun b hb => (hl b hb).symm)
  obtain ⟨h1, h2⟩ := C51_alternates peers
  have b := C51_balance peers
  dsimp only at b ⊢
  rw [hc (({} : Barrel).run peers).first (by rw [h1]; exact fun q hq => h q (mem _ q hq)),
    hc (({} : Barrel).run peers).second (by rw [h2]; exact fun q hq => h q (List.mem_of_mem_tail (mem _ q hq)))]
  exact b.2

/-! ### C52, C141: the counting driver -/

structure CInv (s : Counter) : Prop where
  client : s.client = s.returned.length
  server : s.server = s.received.length
  entered : s.entered.Nodup
  returned : s.returned.Nodup
  received : s.received.Nodup
  handled : s.handled.Nodup
  sub : ∀ r ∈ s.returned, r ∈ s.entered
  sub' : ∀ r ∈ s.handled, r ∈ s.received

theorem nodup_snoc {l : List Nat} {r : Nat} (h : l.Nodup) (hr : r ∉ l) : (l ++ [r]).Nodup := by
  rw [List.nodup_append]
  refine ⟨h, by simp, ?_⟩
  intro a ha b hb
  simp at hb
  subst hb
  exact fun e => hr (e ▸ ha)

theorem cinv_step {s s' : Counter} {op : CounterOp} (h : CInv s) (hs : s.step op = some s') : CInv s' := by
  obtain ⟨h1, h2, h3, h4, h5, h6, h7, h8⟩ := h
  cases op with
  | enter r =>
    simp only [Counter.step] at hs
    split at hs
    · cases hs
    · rename_i hr
      cases hs
      exact ⟨h1, h2, nodup_snoc h3 hr, h4, h5, h6, fun r hr => List.mem_append_left _ (h7 r hr), h8⟩
  | complete r =>
    simp only [Counter.step] at hs
    split at hs
    · cases hs; exact ⟨h1, h2, h3, h4, h5, h6, h7, h8⟩
    · cases hs
  | leave r =>
    simp only [Counter.step] at hs
    split at hs
    · rename_i hr
      cases hs
      refine ⟨by simp [h1], h2, h3, nodup_snoc h4 hr.2, h5, h6, ?_, h8⟩
      intro q hq
      rcases List.mem_append.1 hq with hq | hq
      · exact h7 q hq
      · simp at hq; subst hq; exact hr.1
    · cases hs
  | receive r =>
    simp only [Counter.step] at hs
    split at hs
    · cases hs
    · rename_i hr
      cases hs
      exact ⟨h1, by simp [h2], h3, h4, nodup_snoc h5 hr, h6, h7, fun r hr => List.mem_append_left _ (h8 r hr)⟩
  | handle r =>
    simp only [Counter.step] at hs
    split at hs
    · rename_i hr
      cases hs
      refine ⟨h1, h2, h3, h4, h5, nodup_snoc h6 hr.2, h7, ?_⟩
      intro q hq
      rcases List.mem_append.1 hq with hq | hq
      · exact h8 q hq
      · simp at hq; subst hq; exact hr.1
    · cases hs

theorem cinv_run {ops : List CounterOp} : ∀ {s s' : Counter}, CInv s → s.run ops = some s' → CInv s' := by
  induction ops with
  | nil => intro s s' h hs; cases hs; exact h
  | cons op rest ih =>
    intro s s' h hs
    rw [Counter.run] at hs
    cases hst : s.step op with
    | none => rw [hst] at hs; cases hs
    | some s1 => rw [hst] at hs; exact ih (cinv_step h hst) hs

theorem cinv_reach {ops : List CounterOp} {s : Counter} (h : ({} : Counter).run ops = some s) : CInv s :=
  cinv_run (s := {}) ⟨rfl, rfl, by simp, by simp, by simp, by simp, by simp, by simp⟩ h

theorem length_le_of_nodup_subset {l m : List Nat} (hl : l.Nodup) (h : ∀ x ∈ l, x ∈ m) : l.length ≤ m.length := by
  induction l generalizing m with
  | nil => simp
  | cons a l ih =>
    have ha := h a (by simp)
    have hn := List.nodup_cons.1 hl
    have := ih (m := m.erase a) hn.2 (fun x hx => by
      have hxa : x ≠ a := by rintro rfl; exact hn.1 hx
      rw [List.mem_erase_of_ne hxa]
      exact h x (by simp [hx]))
    rw [List.length_erase_of_mem ha] at this
    have := List.length_pos_of_mem ha
    simp
    omega

/-- The calls of a run that initiate an RPC, and those that return. -/
def initiated (ops : List CounterOp) : Nat := ops.countP (fun op => match op with | .enter _ => true | _ => false)
def finished (ops : List CounterOp) : Nat := ops.countP (fun op => match op with | .leave _ => true | _ => false)
def arrived (ops : List CounterOp) : Nat := ops.countP (fun op => match op with | .receive _ => true | _ => false)
def passedOn (ops : List CounterOp) : Nat := ops.countP (fun op => match op with | .handle _ => true | _ => false)

theorem run_counts {ops : List CounterOp} : ∀ {s s' : Counter}, s.run ops = some s' →
    s'.entered.length = s.entered.length + initiated ops ∧ s'.returned.length = s.returned.length + finished ops ∧
    s'.received.length = s.received.length + arrived ops ∧ s'.handled.length = s.handled.length + passedOn ops := by
  induction ops with
  | nil => intro s s' hs; cases hs; simp [initiated, finished, arrived, passedOn]
  | cons op rest ih =>
    intro s s' hs
    rw [Counter.run] at hs
    cases hst : s.step op with
    | none => rw [hst] at hs; cases hs
    | some s1 =>
      rw [hst] at hs
      obtain ⟨i1, i2, i3, i4⟩ := ih hs
      simp only [initiated, finished, arrived, passedOn, List.countP_cons] at i1 i2 i3 i4 ⊢
      cases op <;> simp only [Counter.step] at hst <;> split at hst <;> cases hst <;>
        simp at i1 i2 i3 i4 ⊢ <;> omega

/-- At any moment the client counter is the number of calls of `InitiateRpc` that have returned,
and the server counter the number of RPCs received; so when no call is under way, they are the
numbers of RPCs initiated and handled. -/
theorem C52_counts (ops : List CounterOp) (s : Counter) (h : ({} : Counter).run ops = some s) :
    s.client = finished ops ∧ s.server = arrived ops ∧ s.client ≤ initiated ops ∧ passedOn ops ≤ s.server ∧
    ((∀ r, .enter r ∈ ops → .leave r ∈ ops) → s.client = initiated ops) ∧
    ((∀ r, .receive r ∈ ops → .handle r ∈ ops) → s.server = passedOn ops) := by
  have hi := cinv_reach h
  obtain ⟨c1, c2, c3, c4⟩ := run_counts h
  simp at c1 c2 c3 c4
  have mems : ∀ (ops : List CounterOp) (s s' : Counter), s.run ops = some s' →
      (∀ r, .leave r ∈ ops → r ∈ s'.returned) ∧ (∀ r ∈ s.returned, r ∈ s'.returned) ∧
      (∀ r ∈ s'.entered, r ∈ s.entered ∨ .enter r ∈ ops) ∧
      (∀ r, .handle r ∈ ops → r ∈ s'.handled) ∧ (∀ r ∈ s.handled, r ∈ s'.handled) ∧
      (∀ r ∈ s'.received, r ∈ s.received ∨ .receive r ∈ ops) := by
    intro ops
    induction ops with
    | nil => intro s s' hs; cases hs; simp
    | cons op rest ih =>
      intro s s' hs
      rw [Counter.run] at hs
      cases hst : s.step op with
      | none => rw [hst] at hs; cases hs
      | some s1 =>
        rw [hst] at hs
        obtain ⟨i1, i2, i3, i4, i5, i6⟩ := ih s1 s' hs
        cases op <;> simp only [Counter.step] at hst <;> split at hst <;> cases hst <;> simp at i1 i2 i3 i4 i5 i6 ⊢ <;>
          grind
  obtain ⟨m1, _, m3, m4, _, m6⟩ := mems ops {} s h
  refine ⟨by rw [hi.client, c2], by rw [hi.server, c3], ?_, ?_, ?_, ?_⟩
  · rw [hi.client, ← c1]; exact length_le_of_nodup_subset hi.returned hi.sub
  · rw [hi.server, ← c4]; exact length_le_of_nodup_subset hi.handled hi.sub'
  · intro hq
    have l1 := length_le_of_nodup_subset hi.returned hi.sub
    have l2 := length_le_of_nodup_subset hi.entered (m := s.returned) (fun r hr => by
      rcases m3 r hr with h | h
      · cases h
      · exact m1 r (hq r h))
    rw [hi.client, ← c1]
    omega
  · intro hq
    have l1 := length_le_of_nodup_subset hi.handled hi.sub'
    have l2 := length_le_of_nodup_subset hi.received (m := s.handled) (fun r hr => by
      rcases m6 r hr with h | h
      · cases h
      · exact m4 r (hq r h))
    rw [hi.server, ← c4]
    omega

/-- The statistics of the driver under test are reported unchanged, in the same order, followed by
the two counters. -/
theorem C52_stats (s : Counter) (inner : List Stat) :
    (counterStats s inner).take inner.length = inner ∧
    (counterStats s inner).drop inner.length =
      [("client_rpc_cnt".toList, (s.client : Int)), ("server_rpc_cnt".toList, (s.server : Int))] := by
  constructor
  · simp [counterStats]
  · simp [counterStats]

example : ∃ s, ({} : Counter).run [.enter 0, .receive 0, .handle 0, .complete 0, .leave 0, .enter 1] = some s ∧
    s.client = 1 ∧ s.server = 1 := ⟨_, rfl, by decide⟩

/-- C141, the claim: an RPC whose completion has been reported is included in the client counter.
The counter is incremented after the call of the driver under test returns, and the completion
may be reported before. -/
theorem C141_negation : ∃ (ops : List CounterOp) (s : Counter), ({} : Counter).run ops = some s ∧
    s.completed.length = 1 ∧ s.client = 0 := ⟨[.enter 0, .complete 0], _, rfl, by decide⟩

/-- What holds of C141: the counter is short by no more than the calls under way. -/
theorem C141_partial (ops : List CounterOp) (s : Counter) (h : ({} : Counter).run ops = some s) :
    s.completed.length ≤ s.client + (s.entered.filter (fun r => r ∉ s.returned)).length := by
  have hi := cinv_reach h
  have sub : ∀ (ops : List CounterOp) (s s' : Counter), s.run ops = some s' →
      (∀ r ∈ s.completed, r ∈ s.entered) → s.completed.Nodup → (∀ r ∈ s'.completed, r ∈ s'.entered) ∧ s'.completed.Nodup := by
    intro ops
    induction ops with
    | nil => intro s s' hs h1 h2; cases hs; exact ⟨h1, h2⟩
    | cons op rest ih =>
      intro s s' hs h1 h2
      rw [Counter.run] at hs
      cases hst : s.step op with
      | none => rw [hst] at hs; cases hs
      | some s1 =>
        rw [hst] at hs
        refine ih s1 s' hs ?_ ?_
        · cases op <;> simp only [Counter.step] at hst <;> split at hst <;> cases hst <;> simp <;> grind
        · cases op <;> simp only [Counter.step] at hst <;> split at hst <;> cases hst <;> first | exact h2 | (rename_i hr; exact nodup_snoc h2 hr.2)
  obtain ⟨h1, h2⟩ := sub ops {} s h (by simp) .nil
  have := length_le_of_nodup_subset h2 (m := s.returned ++ s.entered.filter (fun r => r ∉ s.returned)) (fun r hr => by
    simp
    by_cases hq : r ∈ s.returned
    · exact .inl hq
    · exact .inr ⟨h1 r hr, hq⟩)
  rw [hi.client]
  simpa using this

/-! ### C142: statistics of the double barrel -/

/-- Each statistic of either instance is reported once, under a name that tells the instance; the
names of the two instances never meet, and are distinct if they were distinct in each. -/
theorem C142_stats (inner1 inner2 : List Stat) :
    (∀ n v, (n, v) ∈ barrelStats inner1 inner2 ↔
      (∃ m, n = "instance_1/".toList ++ m ∧ (m, v) ∈ inner1) ∨ (∃ m, n = "instance_2/".toList ++ m ∧ (m, v) ∈ inner2)) ∧
    (barrelStats inner1 inner2).length = inner1.length + inner2.length ∧
    ((inner1.map Prod.fst).Nodup → (inner2.map Prod.fst).Nodup → ((barrelStats inner1 inner2).map Prod.fst).Nodup) := by
  refine ⟨?_, by simp [barrelStats], ?_⟩
  · intro n v
    simp only [barrelStats, List.mem_append, List.mem_map, Prod.exists, Prod.mk.injEq]
    constructor
    · rintro (⟨m, w, h, rfl, rfl⟩ | ⟨m, w, h, rfl, rfl⟩)
      · exact .inl ⟨m, rfl, h⟩
      · exact .inr ⟨m, rfl, h⟩
    · rintro (⟨m, rfl, h⟩ | ⟨m, rfl, h⟩)
      · exact .inl ⟨m, v, h, rfl, rfl⟩
      · exact .inr ⟨m, v, h, rfl, rfl⟩
  · intro h1 h2
    have e1 : (inner1.map (fun s => ("instance_1/".toList ++ s.1, s.2))).map Prod.fst =
        (inner1.map Prod.fst).map ("instance_1/".toList ++ ·) := by simp
    have e2 : (inner2.map (fun s => ("instance_2/".toList ++ s.1, s.2))).map Prod.fst =
        (inner2.map Prod.fst).map ("instance_2/".toList ++ ·) := by simp
    unfold barrelStats
    rw [List.map_append, e1, e2, List.nodup_append]
    refine ⟨?_, ?_, ?_⟩
    · rw [List.nodup_iff_pairwise_ne] at h1 ⊢
      exact List.Pairwise.map _ (fun a b hab he => hab (List.append_cancel_left he)) h1
    · rw [List.nodup_iff_pairwise_ne] at h2 ⊢
      exact List.Pairwise.map _ (fun a b hab he => hab (List.append_cancel_left he)) h2
    · intro a ha b hb
      rw [List.mem_map] at ha hb
      obtain ⟨x, _, rfl⟩ := ha
      obtain ⟨y, _, rfl⟩ := hb
      intro he
      have := congrArg (fun l => l[9]?) he
      simp at this

example : barrelStats [("a".toList, 1)] [("a".toList, 2)] =
    [("instance_1/a".toList, 1), ("instance_2/a".toList, 2)] := by decide

/-! The theorems above for these cases. -/

example (fuel : Nat) (hf : 5 ≤ fuel) : ∃ d, allocate (testEnv []) fuel 0 [] countedGrpc = some (.ok d) :=
  C50_within (testEnv []) 1 countedGrpc _ (by decide)
    (.down 0 _ _ _ (.composite "driver_under_test".toList _ (by decide)
      (.named [] [⟨"server_type".toList, "inline".toList⟩] ⟨"driver_under_test".toList, "grpc".toList⟩ rfl rfl
        (by decide))) (.here _))
    (.inl (by decide +kernel)) (fun _ => rfl) fuel hf

end Distbench.Drivers
