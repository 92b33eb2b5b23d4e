import Verif.Spec.Node

/-! Lemmas about the node manager. -/

namespace Distbench.Node
open Distbench.Drivers Distbench.Services Distbench.Spec

/-! ### the map of engines -/

theorem mem_place {α : Type} {n : Str} {e : α} {x : Str × α} {l : List (Str × α)} :
    x ∈ place n e l ↔ x = (n, e) ∨ x ∈ l := by
  induction l with
  | nil => simp [place]
  | cons y l ih =>
    unfold place
    split
    · simp
    · simp only [List.mem_cons, ih]
      constructor
      · rintro (h | h | h) <;> simp [h]
      · rintro (h | h | h) <;> simp [h]

theorem mem_put {α : Type} {n : Str} {e : α} {x : Str × α} {l : List (Str × α)} :
    x ∈ put l n e ↔ x = (n, e) ∨ (x ∈ l ∧ x.1 ≠ n) := by
  simp [put, mem_place]

theorem place_nodup {α : Type} {n : Str} {e : α} {l : List (Str × α)} (h : (l.map (·.1)).Nodup)
    (hn : ∀ x ∈ l, x.1 ≠ n) : ((place n e l).map (·.1)).Nodup := by
  induction l with
  | nil => simp [place]
  | cons y l ih =>
    have hy : y.1 ≠ n := hn y (by simp)
    simp only [List.map_cons, List.nodup_cons] at h
    unfold place
    split
    · simp only [List.map_cons, List.nodup_cons]
      refine ⟨?_, h⟩
      intro hc
      rw [← List.map_cons, List.mem_map] at hc
      obtain ⟨x, hx, hxn⟩ := hc
      exact hn x hx hxn
    · simp only [List.map_cons, List.nodup_cons]
      refine ⟨?_, ih h.2 (fun x hx => hn x (List.mem_cons_of_mem _ hx))⟩
      intro hc
      rw [List.mem_map] at hc
      obtain ⟨x, hx, hxn⟩ := hc
      rcases mem_place.1 hx with rfl | hx
      · exact hy hxn.symm
      · exact h.1 (List.mem_map.2 ⟨x, hx, hxn⟩)

theorem put_nodup {α : Type} {n : Str} {e : α} {l : List (Str × α)} (h : (l.map (·.1)).Nodup) :
    ((put l n e).map (·.1)).Nodup := by
  refine place_nodup ?_ (fun x hx => by simpa using (List.mem_filter.1 hx).2)
  exact List.Nodup.sublist (List.Sublist.map _ List.filter_sublist) h

theorem node_set {p : Process} {i j : Nat} {n n' : Node} (h : p.node i = some n) :
    (p.set i n').node j = if j = i then some n' else p.node j := by
  have hi : i < p.nodes.length := by
    unfold Process.node at h
    by_cases hi : i < p.nodes.length
    · exact hi
    · rw [List.getElem?_eq_none (by omega)] at h; cases h
  unfold Process.node Process.set
  simp only [List.getElem?_set]
  by_cases hj : j = i
  · subst hj; simp [hi]
  · rw [if_neg (fun h => hj h.symm), if_neg hj]

theorem node_lt {p : Process} {i : Nat} {n : Node} (h : p.node i = some n) : i < p.nodes.length := by
  unfold Process.node at h
  by_cases hi : i < p.nodes.length
  · exact hi
  · rw [List.getElem?_eq_none (by omega)] at h; cases h

theorem firstPart_spec {name : Str} (h : '/' ∈ name) : IsTypeOf name (firstPart name) := by
  unfold firstPart IsTypeOf
  induction name with
  | nil => cases h
  | cons c s ih =>
    by_cases hc : c = '/'
    · subst hc; simp
    · have h' : '/' ∈ s := by
        rcases List.mem_cons.1 h with h | h
        · exact absurd h.symm hc
        · exact h
      obtain ⟨hn, rest, hr⟩ := ih h'
      rw [List.takeWhile_cons_of_pos (by simpa using hc)]
      refine ⟨?_, rest, ?_⟩
      · intro hm
        rcases List.mem_cons.1 hm with hm | hm
        · exact hc hm.symm
        · exact hn hm
      · simp only [List.cons_append, List.cons.injEq, true_and]; exact hr

theorem isTypeOf_firstPart {name t : Str} (h : IsTypeOf name t) : t = firstPart name := by
  obtain ⟨hn, rest, rfl⟩ := h
  unfold firstPart
  induction t with
  | nil => simp
  | cons c s ih =>
    have hc : c ≠ '/' := fun h => hn (by simp [h])
    rw [List.cons_append, List.takeWhile_cons_of_pos (by simpa using hc)]
    congr 1
    exact ih (fun h => hn (List.mem_cons_of_mem _ h))

/-! ### the loops -/

theorem allocService_ok {resolve : Option (Str → Outcome Options)} {w : World} {config : Config} {name : Str} {e : Engine}
    (h : allocService resolve w config name = .ok e) :
    ∃ o d, optionsFor config.drivers (firstPart name) config.protocol w.netdev = .ok o ∧
      allocate ⟨w.extra, resolve, w.init⟩ 5 0 [] o = some (.ok d) ∧
      e = { config := config, serviceType := firstPart name, driver := d } := by
  unfold allocService at h
  cases ho : optionsFor config.drivers (firstPart name) config.protocol w.netdev with
  | ok o =>
    rw [ho] at h
    cases hd : allocate ⟨w.extra, resolve, w.init⟩ 5 0 [] o with
    | none => simp only [Outcome.bind, hd, Option.getD] at h; cases h
    | some r =>
      cases r with
      | ok d =>
        cases hs : w.start name with
        | ok u =>
          simp only [Outcome.bind, hd, Option.getD, hs] at h
          cases h
          exact ⟨o, d, rfl, hd, rfl⟩
        | _ => simp only [Outcome.bind, hd, Option.getD, hs] at h; cases h
      | _ => simp only [Outcome.bind, hd, Option.getD] at h; cases h
  | _ => rw [ho] at h; cases h

theorem configureLoop_ok {resolve : Option (Str → Outcome Options)} {w : World} {config : Config} :
    ∀ {names : List Str} {es es' : List (Str × Engine)} {err : Option String},
      configureLoop resolve w config names es = .ok (err, es') →
      (es.map (·.1)).Nodup →
      (es'.map (·.1)).Nodup ∧ (∀ n ∈ es.map (·.1), n ∈ es'.map (·.1)) ∧
      (∀ x ∈ es', x ∈ es ∨ (x.1 ∈ names ∧ '/' ∈ x.1 ∧ allocService resolve w config x.1 = .ok x.2)) ∧
      (err = none → ∀ n ∈ names, n ∈ es'.map (·.1)) := by
  intro names
  induction names with
  | nil =>
    intro es es' err h hn
    simp only [configureLoop] at h
    cases h
    exact ⟨hn, fun _ h => h, fun _ h => .inl h, fun _ _ h => by cases h⟩
  | cons name rest ih =>
    intro es es' err h hn
    simp only [configureLoop] at h
    split at h
    · cases h
    · rename_i hslash
      have hslash : '/' ∈ name := Classical.not_not.1 hslash
      have keep : ∀ (e : Engine), ∀ n ∈ es.map (·.1), n ∈ (put es name e).map (·.1) := by
        intro e n hm
        obtain ⟨x, hx, rfl⟩ := List.mem_map.1 hm
        by_cases hxn : x.1 = name
        · exact List.mem_map.2 ⟨(name, e), mem_put.2 (.inl rfl), hxn.symm⟩
        · exact List.mem_map.2 ⟨x, mem_put.2 (.inr ⟨hx, hxn⟩), rfl⟩
      have new : ∀ (e : Engine), name ∈ (put es name e).map (·.1) :=
        fun e => List.mem_map.2 ⟨(name, e), mem_put.2 (.inl rfl), rfl⟩
      split at h
      · split at h
        · rename_i e he
          have fresh : ∀ x ∈ put es name e, x ∈ es ∨ (x.1 ∈ name :: rest ∧ '/' ∈ x.1 ∧
              allocService resolve w config x.1 = .ok x.2) := by
            intro x hx
            rcases mem_put.1 hx with rfl | hx
            · exact .inr ⟨by simp, hslash, he⟩
            · exact .inl hx.1
          split at h
          · obtain ⟨h1, h2, h3, h4⟩ := ih h (put_nodup hn)
            refine ⟨h1, fun n hm => h2 n (keep e n hm), ?_, ?_⟩
            · intro x hx
              rcases h3 x hx with hx | ⟨a, b, c⟩
              · exact fresh x hx
              · exact .inr ⟨List.mem_cons_of_mem _ a, b, c⟩
            · intro herr n hm
              rcases List.mem_cons.1 hm with rfl | hm
              · exact h2 _ (new e)
              · exact h4 herr n hm
          · cases h
            exact ⟨put_nodup hn, keep e, fresh, fun h => by cases h⟩
          · cases h
          · cases h
        · cases h
          exact ⟨hn, fun _ h => h, fun _ h => .inl h, fun h => by cases h⟩
        · cases h
        · cases h
      · cases h
      · cases h
      · cases h

/-- The engines of the second list are those of the first, each changed as `R` allows. -/
inductive Follows (R : Engine → Engine → Prop) : List (Str × Engine) → List (Str × Engine) → Prop
  | nil : Follows R [] []
  | cons {n e e' l l'} : R e e' → Follows R l l' → Follows R ((n, e) :: l) ((n, e') :: l')

theorem Follows.keys {R : Engine → Engine → Prop} {l l' : List (Str × Engine)} (h : Follows R l l') :
    l'.map (·.1) = l.map (·.1) := by
  induction h with
  | nil => rfl
  | cons _ _ ih => simp [ih]

theorem Follows.mem {R : Engine → Engine → Prop} {l l' : List (Str × Engine)} (h : Follows R l l') :
    ∀ n e', (n, e') ∈ l' → ∃ e, (n, e) ∈ l ∧ R e e' := by
  induction h with
  | nil => intro n e' h; cases h
  | cons r _ ih =>
    intro n e' h
    rcases List.mem_cons.1 h with h | h
    · cases h; exact ⟨_, by simp, r⟩
    · obtain ⟨e, he, hr⟩ := ih n e' h
      exact ⟨e, List.mem_cons_of_mem _ he, hr⟩

theorem Follows.refl {R : Engine → Engine → Prop} (hR : ∀ e, R e e) : ∀ l : List (Str × Engine), Follows R l l
  | [] => .nil
  | (_, e) :: rest => .cons (hR e) (Follows.refl hR rest)

theorem Follows.map {R : Engine → Engine → Prop} (f : Str → Engine → Engine) (hR : ∀ n e, R e (f n e)) :
    ∀ l : List (Str × Engine), Follows R l (l.map fun x => (x.1, f x.1 x.2))
  | [] => .nil
  | (n, e) :: rest => .cons (hR n e) (Follows.map f hR rest)

theorem introduceLoop_follows {connect : Str → Outcome Unit} {peers : List (Str × Str)} :
    ∀ {es es' : List (Str × Engine)} {err : Option String}, introduceLoop connect peers es = .ok (err, es') →
      Follows (fun e e' => e' = e ∨ e' = { e with peers := peers }) es es' := by
  intro es
  induction es with
  | nil => intro es' err h; simp only [introduceLoop] at h; cases h; exact .nil
  | cons x rest ih =>
    intro es' err h
    obtain ⟨name, e⟩ := x
    simp only [introduceLoop] at h
    split at h
    · cases h; exact .cons (.inr rfl) (Follows.refl (fun _ => .inl rfl) _)
    · split at h
      · cases hr : introduceLoop connect peers rest with
        | ok r => simp only [hr, Outcome.bind] at h; cases h; exact .cons (.inr rfl) (ih hr)
        | _ => simp only [hr, Outcome.bind] at h; cases h
      · cases h; exact .cons (.inr rfl) (Follows.refl (fun _ => .inl rfl) _)
      · cases h
      · cases h

theorem introduceLoop_done {connect : Str → Outcome Unit} {peers : List (Str × Str)} :
    ∀ {es es' : List (Str × Engine)}, introduceLoop connect peers es = .ok (none, es') →
      ∀ x ∈ es', x.2.peers ≠ [] := by
  intro es
  induction es with
  | nil => intro es' h; simp only [introduceLoop] at h; cases h; intro x hx; cases hx
  | cons x rest ih =>
    intro es' h
    obtain ⟨name, e⟩ := x
    simp only [introduceLoop] at h
    split at h
    · cases h
    · rename_i hp
      split at h
      · cases hr : introduceLoop connect peers rest with
        | ok r =>
          obtain ⟨r1, r2⟩ := r
          simp only [hr, Outcome.bind] at h
          cases h
          intro x hx
          rcases List.mem_cons.1 hx with rfl | hx
          · exact hp
          · exact ih hr x hx
        | _ => simp only [hr, Outcome.bind] at h; cases h
      · cases h
      · cases h
      · cases h

theorem startLoop_follows :
    ∀ {es es' : List (Str × Engine)} {started : List Str} {all : Bool}, startLoop es = .ok (started, all, es') →
      Follows (fun e e' => e' = e ∨ e' = { e with joinable := true }) es es' := by
  intro es
  induction es with
  | nil => intro es' started all h; simp only [startLoop] at h; cases h; exact .nil
  | cons x rest ih =>
    intro es' started all h
    obtain ⟨name, e⟩ := x
    simp only [startLoop] at h
    split at h
    · cases h; exact .cons (.inl rfl) (Follows.refl (fun _ => .inl rfl) _)
    · split at h
      · split at h
        · cases h
        · cases hr : startLoop rest with
          | ok r => simp only [hr, Outcome.bind] at h; cases h; exact .cons (.inr rfl) (ih hr)
          | _ => simp only [hr, Outcome.bind] at h; cases h
      · cases hr : startLoop rest with
        | ok r => simp only [hr, Outcome.bind] at h; cases h; exact .cons (.inl rfl) (ih hr)
        | _ => simp only [hr, Outcome.bind] at h; cases h

/-- No engine with a running thread: the loop does not abort. -/
theorem startLoop_runs : ∀ {es : List (Str × Engine)}, (∀ x ∈ es, x.2.joinable = false) →
    ∃ r, startLoop es = .ok r := by
  intro es
  induction es with
  | nil => intro _; exact ⟨_, rfl⟩
  | cons x rest ih =>
    intro h
    obtain ⟨name, e⟩ := x
    obtain ⟨r, hr⟩ := ih fun x hx => h x (List.mem_cons_of_mem _ hx)
    have he : e.joinable = false := h (name, e) (by simp)
    simp only [startLoop, he, hr, Outcome.bind]
    split
    · exact ⟨_, rfl⟩
    · split
      · exact ⟨_, if_neg (by simp)⟩
      · exact ⟨_, rfl⟩

/-- Every engine knows peers: all those with an action list are started. -/
theorem startLoop_all : ∀ {es : List (Str × Engine)}, (∀ x ∈ es, x.2.joinable = false) →
    (∀ x ∈ es, x.2.peers ≠ []) →
    ∃ es', startLoop es =
      .ok ((es.filter fun x => decide (x.2.serviceType ∈ x.2.config.lists)).map (·.1), true, es') := by
  intro es
  induction es with
  | nil => intro _ _; exact ⟨_, rfl⟩
  | cons x rest ih =>
    intro h hp
    obtain ⟨name, e⟩ := x
    obtain ⟨es', hr⟩ := ih (fun x hx => h x (List.mem_cons_of_mem _ hx)) (fun x hx => hp x (List.mem_cons_of_mem _ hx))
    have he : e.joinable = false := h (name, e) (by simp)
    have hpe : e.peers ≠ [] := hp (name, e) (by simp)
    simp only [startLoop, he, hr, Outcome.bind, if_neg hpe]
    by_cases hl : e.serviceType ∈ e.config.lists
    · exact ⟨(name, { e with joinable := true }) :: es', by simp [hl, List.filter_cons]⟩
    · exact ⟨(name, e) :: es', by simp [hl, List.filter_cons]⟩

/-! ### the history since the services were made -/

theorem after_exists (i : Nat) (h : List (Op × Reply)) : ∃ start post, After i h start post := by
  induction h with
  | nil => exact ⟨none, [], by simp, rfl⟩
  | cons x h ih =>
    obtain ⟨start, post, hno, hs⟩ := ih
    cases start with
    | some y =>
      obtain ⟨hy, pre, rfl⟩ := hs
      exact ⟨some y, post, hno, hy, x :: pre, rfl⟩
    | none =>
      subst hs
      by_cases hx : EndsServices i x.1
      · exact ⟨some x, h, hno, hx, [], rfl⟩
      · refine ⟨none, x :: h, ?_, rfl⟩
        intro y hy
        rcases List.mem_cons.1 hy with rfl | hy
        · exact hx
        · exact hno y hy

theorem split_last {α : Type} {h : List α} {x y : α} {pre post : List α} (e : h ++ [x] = pre ++ y :: post) :
    (post = [] ∧ y = x ∧ pre = h) ∨ ∃ post', post = post' ++ [x] ∧ h = pre ++ y :: post' := by
  rcases List.eq_nil_or_concat post with rfl | ⟨post', z, rfl⟩
  · have := List.append_inj' e rfl
    exact .inl ⟨rfl, (List.cons.inj this.2).1.symm, this.1.symm⟩
  · rw [List.concat_eq_append] at e ⊢
    have e' : h ++ [x] = (pre ++ y :: post') ++ [z] := by simpa using e
    have := List.append_inj' e' rfl
    refine .inr ⟨post', ?_, this.1⟩
    rw [(List.cons.inj this.2).1]

theorem after_snoc {i : Nat} {h : List (Op × Reply)} {x : Op × Reply} {start : Option (Op × Reply)}
    {post : List (Op × Reply)} (ha : After i (h ++ [x]) start post) :
    (EndsServices i x.1 ∧ start = some x ∧ post = []) ∨
      (¬ EndsServices i x.1 ∧ ∃ post', post = post' ++ [x] ∧ After i h start post') := by
  obtain ⟨hno, hs⟩ := ha
  cases start with
  | none =>
    subst hs
    exact .inr ⟨hno x (by simp), h, rfl, fun y hy => hno y (by simp [hy]), rfl⟩
  | some y =>
    obtain ⟨hy, pre, e⟩ := hs
    rcases split_last e with ⟨rfl, rfl, rfl⟩ | ⟨post', rfl, rfl⟩
    · exact .inl ⟨hy, rfl, rfl⟩
    · exact .inr ⟨hno x (by simp), post', rfl, fun z hz => hno z (by simp [hz]), hy, pre, rfl⟩

theorem knowsPeers_snoc {i : Nat} {post : List (Op × Reply)} {x : Op × Reply}
    (h : KnowsPeers i (post ++ [x])) :
    (∃ connect peers, x.1 = .introduce i connect peers ∧ x.2.error = none) ∨
      ((∀ connect peers, x.1 ≠ .introduce i connect peers) ∧ KnowsPeers i post) := by
  obtain ⟨before, connect, peers, r, after, e, hr, hno⟩ := h
  rcases split_last e with ⟨rfl, rfl, rfl⟩ | ⟨after', rfl, rfl⟩
  · exact .inl ⟨connect, peers, rfl, hr⟩
  · exact .inr ⟨hno x (by simp), before, connect, peers, r, after', rfl, hr, fun y hy => hno y (by simp [hy])⟩

end Distbench.Node
