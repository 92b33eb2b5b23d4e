import Verif.Lemmas.WholeRun

/-! Lemmas for Props/Whole.lean: what the text of a configuration says is what the tables say. -/

namespace Distbench.Whole
open Tables Services Spec

/-! ### Names and numbers -/

theorem actionsOf_length {e : Env} {w : Test} (hs : SoundTest e w) {l : Nat} {al : ActionList}
    (hl : w.cfg.actionLists[l]? = some al) : (actionsOf (w.tables 0) l).length = al.actionNames.length := by
  obtain ⟨s0, h0⟩ := first_service hs
  obtain ⟨entry, g1, g2, g3, -⟩ := C28_accepted _ _ _ _ (hs.tables 0 s0 h0) l _ hl
  unfold actionsOf
  rw [g1]
  simpa using g3

theorem actionsOf_none {e : Env} {w : Test} (hs : SoundTest e w) {l : Nat}
    (hl : w.cfg.actionLists[l]? = none) : actionsOf (w.tables 0) l = [] := by
  obtain ⟨s0, h0⟩ := first_service hs
  unfold actionsOf
  have := lists_length (hs.tables 0 s0 h0)
  rw [List.getElem?_eq_none (by rw [List.getElem?_eq_none_iff] at hl; omega)]
  rfl

theorem find_named {α : Type} {f : α → Str} {l : List α} (h : (l.map f).Nodup) {a : α} (ha : a ∈ l) {n : Str}
    (hn : f a = n) : l.find? (fun b => decide (f b = n)) = some a := by
  obtain ⟨i, hi⟩ := List.getElem?_of_mem ha
  cases hf : l.find? (fun b => decide (f b = n)) with
  | none =>
    have := List.find?_eq_none.1 hf a ha
    simp [hn] at this
  | some b =>
    have hb := List.find?_some hf
    simp only [decide_eq_true_eq] at hb
    obtain ⟨j, hj⟩ := List.getElem?_of_mem (List.mem_of_find?_eq_some hf)
    have := names_inj h hi hj (hn.trans hb.symm)
    subst this
    rw [hi] at hj
    exact hj.symm

/-- The list with a number has a name, and the other way round. -/
def Named (cfg : Config) (pn : Nat → Nat) (ps : Str → Nat) : Prop :=
  (∀ (l : Nat) (al : ActionList), cfg.actionLists[l]? = some al → pn l = ps al.name) ∧
  ∀ l : Nat, cfg.actionLists[l]? = none → pn l = 0

theorem limit_count {cfg : Config} (hp : PlainTest cfg) {a : Action} (ha : a ∈ cfg.actions) :
    (Iterations.params a 0 false).limit.toNat = iterationCount a := by
  unfold Iterations.params iterationCount
  dsimp only
  cases hi : a.iterations with
  | none => rfl
  | some it =>
    obtain ⟨-, ⟨n, h1, -, -⟩, -⟩ := hp.counted a ha it hi
    simp [h1]

/-- The list that handles an RPC, by the tables: none if it is empty. -/
theorem handler_list {e : Env} {w : Test} (hs : SoundTest e w) (F : Nat → Nat) {q : Nat} {r : RpcSpec}
    (hr : w.cfg.rpcs[q]? = some r) : ∃ (k : Nat) (al : ActionList), w.cfg.actionLists[k]? = some al ∧
      al.name = r.name ∧ ((al.actionNames = [] ∧ (globalConfig w F).handler q = none) ∨
        (al.actionNames ≠ [] ∧ (globalConfig w F).handler q = some k)) := by
  obtain ⟨s0, h0⟩ := first_service hs
  have hlt : q < (w.tables 0).rpcTable.length := by
    rw [rpcTable_length (hs.tables 0 s0 h0)]
    exact (List.getElem?_eq_some_iff.1 hr).1
  have hq := List.getElem?_eq_getElem hlt
  obtain ⟨spec, a1, -, -, -, -, -, k, al, a2, a3, a4⟩ := rpc_entry hs h0 hq
  rw [hr] at a1
  cases a1
  refine ⟨k, al, a2, a3, ?_⟩
  simp only [globalConfig, hq]
  rcases a4 with ⟨h1, h2⟩ | ⟨h1, h2⟩
  · exact .inl ⟨h1, by rw [if_neg (by omega)]⟩
  · exact .inr ⟨h1, by rw [if_pos (by omega), h2, Int.toNat_natCast]⟩

/-- What one iteration of an action leads to, by its entry and by its text. -/
theorem entry_worth {e : Env} {w : Test} {fan ps : Str → Nat} {pn : Nat → Nat} {q : Nat} {r : RpcSpec}
    (hs : SoundTest e w) (hn : Named w.cfg pn ps)
    (hempty : ∀ al ∈ w.cfg.actionLists, al.actionNames = [] → ps al.name = 0)
    (hr : w.cfg.rpcs[q]? = some r) {l a : Nat} {x : ActionEntry} (hx : (actionsOf (w.tables 0) l)[a]? = some x) :
    (match (toAction (fanAt w.cfg fan) x).work with
      | .rpc q' f => f * ((if q' = q then 1 else 0) +
          match (globalConfig w (fanAt w.cfg fan)).handler q' with
          | none => 0
          | some l' => pn l')
      | .list l' => pn l'
      | .other => 0) = match x.proto.kind with
        | .rpc q => fan q * ((if q = r.name then 1 else 0) + ps q)
        | .actionList l => ps l
        | _ => 0 := by
  obtain ⟨al, h1, h2, h3, -, h5, h6⟩ := entry_at hs hx
  have hwk : (toAction (fanAt w.cfg fan) x).work = toWork (fanAt w.cfg fan) x := rfl
  rw [hwk]
  cases hk : x.proto.kind with
  | rpc n =>
    rw [work_rpc hs hx hk]
    obtain ⟨k, i, r', sv, g1, g2, g3, g4, -⟩ := h5 n hk
    rw [g1, Int.toNat_natCast]
    dsimp only
    have hfan : fanAt w.cfg fan k = fan n := by
      rw [fanAt, g3, ← g4]
      rfl
    have hq : k = q ↔ n = r.name := by
      constructor
      · rintro rfl
        rw [hr] at g3
        cases g3
        exact g4.symm
      · intro h
        exact names_inj hs.distinct.rpcs g3 hr (g4.trans h)
    obtain ⟨m, al', b1, b2, b3⟩ := handler_list hs (fanAt w.cfg fan) g3
    have hnm : pn m = ps n := by rw [hn.1 m al' b1, b2, g4]
    rw [hfan]
    congr 1
    congr 1
    · by_cases h : k = q
      · rw [if_pos h, if_pos (hq.1 h)]
      · rw [if_neg h, if_neg (fun h' => h (hq.2 h'))]
    · rcases b3 with ⟨b3, b4⟩ | ⟨b3, b4⟩
      · rw [b4]
        dsimp only
        rw [← g4, ← b2, hempty al' (List.mem_of_getElem? b1) b3]
      · rw [b4]
        exact hnm
  | actionList n =>
    rw [work_list hs hx hk]
    obtain ⟨k, al', g1, g2, g3⟩ := h6 n hk
    rw [g1, Int.toNat_natCast]
    dsimp only
    rw [hn.1 k al' g2, g3]
  | none => rw [work_other hs hx (by rw [hk]; simp) (by rw [hk]; simp)]
  | activity n => rw [work_other hs hx (by rw [hk]; simp) (by rw [hk]; simp)]
  | replay n => rw [work_other hs hx (by rw [hk]; simp) (by rw [hk]; simp)]

/-- What an action leads to, by its entry and by its text. -/
theorem entry_rpcs {e : Env} {w : Test} {fan ps : Str → Nat} {pn : Nat → Nat} {q : Nat} {r : RpcSpec}
    (hs : SoundTest e w) (hp : PlainTest w.cfg) (hn : Named w.cfg pn ps)
    (hempty : ∀ al ∈ w.cfg.actionLists, al.actionNames = [] → ps al.name = 0)
    (hr : w.cfg.rpcs[q]? = some r) {l a : Nat} {x : ActionEntry} (hx : (actionsOf (w.tables 0) l)[a]? = some x) :
    ((toAction (fanAt w.cfg fan) x).iters * match (toAction (fanAt w.cfg fan) x).work with
      | .rpc q' f => f * ((if q' = q then 1 else 0) +
          match (globalConfig w (fanAt w.cfg fan)).handler q' with
          | none => 0
          | some l' => pn l')
      | .list l' => pn l'
      | .other => 0) = actionRpcs fan ps r.name x.proto := by
  obtain ⟨al, h1, h2, h3, -⟩ := entry_at hs hx
  have hi : (toAction (fanAt w.cfg fan) x).iters = iterationCount x.proto := limit_count hp h3
  unfold actionRpcs
  rw [hi, entry_worth hs hn hempty hr hx]
  cases x.proto.kind <;> rfl

/-- The same for a list. -/
theorem list_rpcs {e : Env} {w : Test} {fan ps : Str → Nat} {pn : Nat → Nat} {q : Nat} {r : RpcSpec}
    (hs : SoundTest e w) (hp : PlainTest w.cfg) (hn : Named w.cfg pn ps)
    (hempty : ∀ al ∈ w.cfg.actionLists, al.actionNames = [] → ps al.name = 0)
    (hr : w.cfg.rpcs[q]? = some r) {l : Nat} {al : ActionList} (hl : w.cfg.actionLists[l]? = some al) :
    ((globalConfig w (fanAt w.cfg fan)).actions l).map (fun x => x.iters * match x.work with
      | .rpc q' f => f * ((if q' = q then 1 else 0) +
          match (globalConfig w (fanAt w.cfg fan)).handler q' with
          | none => 0
          | some l' => pn l')
      | .list l' => pn l'
      | .other => 0) =
    al.actionNames.map fun n => ((actionNamed w.cfg n).map (actionRpcs fan ps r.name)).getD 0 := by
  have hlen := actionsOf_length hs hl
  show ((actionsOf (w.tables 0) l).map (toAction (fanAt w.cfg fan))).map _ = _
  rw [List.map_map]
  apply List.ext_getElem?
  intro a
  rw [List.getElem?_map, List.getElem?_map]
  cases hx : (actionsOf (w.tables 0) l)[a]? with
  | none =>
    rw [List.getElem?_eq_none_iff] at hx
    rw [List.getElem?_eq_none (by omega)]
    rfl
  | some x =>
    obtain ⟨al', h1, h2, h3, -⟩ := entry_at hs hx
    rw [hl] at h1
    cases h1
    rw [h2, Option.map_some, Option.map_some]
    congr 1
    have hfind : actionNamed w.cfg x.proto.name = some x.proto := find_named hs.distinct.actions h3 rfl
    rw [hfind, Option.map_some, Option.getD_some]
    exact entry_rpcs hs hp hn hempty hr hx

theorem predicts_global {e : Env} {w : Test} {fan ps : Str → Nat} {pn : Nat → Nat} {q : Nat} {r : RpcSpec}
    (hs : SoundTest e w) (hp : PlainTest w.cfg) (hn : Named w.cfg pn ps)
    (h : PredictsNames w.cfg fan r.name ps) (hr : w.cfg.rpcs[q]? = some r) :
    Predicts (globalConfig w (fanAt w.cfg fan)) q pn := by
  intro l
  cases hl : w.cfg.actionLists[l]? with
  | none =>
    rw [hn.2 l hl]
    show 0 = (((actionsOf (w.tables 0) l).map (toAction (fanAt w.cfg fan))).map _).sum
    rw [actionsOf_none hs hl]
    rfl
  | some al =>
    have hempty : ∀ al ∈ w.cfg.actionLists, al.actionNames = [] → ps al.name = 0 := by
      intro al hal he
      rw [h al hal, he]
      rfl
    exact (hn.1 l al hl).trans ((h al (List.mem_of_getElem? hl)).trans
      (congrArg List.sum (list_rpcs hs hp hn hempty hr hl).symm))

theorem predicts_names {e : Env} {w : Test} {fan ps : Str → Nat} {pn : Nat → Nat} {q : Nat} {r : RpcSpec}
    (hs : SoundTest e w) (hp : PlainTest w.cfg) (hn : Named w.cfg pn ps)
    (h : Predicts (globalConfig w (fanAt w.cfg fan)) q pn) (hr : w.cfg.rpcs[q]? = some r) :
    PredictsNames w.cfg fan r.name ps := by
  have hempty : ∀ al ∈ w.cfg.actionLists, al.actionNames = [] → ps al.name = 0 := by
    intro al hal he
    obtain ⟨l, hl⟩ := List.getElem?_of_mem hal
    rw [← hn.1 l al hl, h l]
    have : actionsOf (w.tables 0) l = [] := by
      apply List.length_eq_zero_iff.1
      rw [actionsOf_length hs hl, he]
      rfl
    show (((actionsOf (w.tables 0) l).map (toAction (fanAt w.cfg fan))).map _).sum = 0
    rw [this]
    rfl
  intro al hal
  obtain ⟨l, hl⟩ := List.getElem?_of_mem hal
  exact (hn.1 l al hl).symm.trans ((h l).trans (congrArg List.sum (list_rpcs hs hp hn hempty hr hl)))

/-- Numbers by position, from numbers by name. -/
def byPlace (cfg : Config) (ps : Str → Nat) (l : Nat) : Nat :=
  ((cfg.actionLists[l]?).map fun al => ps al.name).getD 0

theorem named_byPlace (cfg : Config) (ps : Str → Nat) : Named cfg (byPlace cfg ps) ps :=
  ⟨fun l al h => by rw [byPlace, h]; rfl, fun l h => by rw [byPlace, h]; rfl⟩

/-- Numbers by name, from numbers by position. -/
def byName (cfg : Config) (pn : Nat → Nat) (n : Str) : Nat :=
  ((cfg.actionLists.findIdx? fun l => n = l.name).map pn).getD 0

theorem findIdx_named {cfg : Config} (hd : DistinctNames cfg) {l : Nat} {al : ActionList}
    (hl : cfg.actionLists[l]? = some al) : (cfg.actionLists.findIdx? fun l => al.name = l.name) = some l := by
  cases h : cfg.actionLists.findIdx? fun l => al.name = l.name with
  | none =>
    have := List.findIdx?_eq_none_iff.1 h al (List.mem_of_getElem? hl)
    simp at this
  | some k =>
    rw [List.findIdx?_eq_some_iff_getElem] at h
    obtain ⟨hlt, h1, -⟩ := h
    simp only [decide_eq_true_eq] at h1
    have := names_inj hd.lists hl (List.getElem?_eq_getElem hlt) h1
    rw [this]

theorem named_byName {cfg : Config} (hd : DistinctNames cfg) {pn : Nat → Nat}
    (h0 : ∀ l : Nat, cfg.actionLists[l]? = none → pn l = 0) : Named cfg pn (byName cfg pn) :=
  ⟨fun l al h => by rw [byName, findIdx_named hd h]; rfl, h0⟩

/-! ### The start of the traffic -/

theorem sum_filterMap {α β : Type} (f : α → Option β) (g : β → Nat) (l : List α) :
    ((l.filterMap f).map g).sum = (l.map fun x => ((f x).map g).getD 0).sum := by
  induction l with
  | nil => rfl
  | cons a l ih =>
    rw [List.filterMap_cons, List.map_cons, List.sum_cons]
    cases h : f a with
    | none => simpa using ih
    | some b => simp [ih]

theorem sum_flatMap {α β : Type} (f : α → List β) (g : β → Nat) (l : List α) :
    ((l.flatMap f).map g).sum = (l.map fun x => ((f x).map g).sum).sum := by
  induction l with
  | nil => rfl
  | cons a l ih => simp [List.flatMap_cons, ih]

theorem map_zipIdx_congr {α β : Type} {l : List α} {f : α × Nat → β} {g : α → β}
    (h : ∀ (i : Nat) a, l[i]? = some a → f (a, i) = g a) : l.zipIdx.map f = l.map g := by
  apply List.ext_getElem?
  intro i
  rw [List.getElem?_map, List.getElem?_map, List.getElem?_zipIdx]
  cases hi : l[i]? with
  | none => rfl
  | some a => simp [h i a hi]

theorem sum_const {α : Type} (l : List α) (n : Nat) : (l.map fun _ => n).sum = l.length * n := by
  induction l with
  | nil => simp
  | cons a l ih => simp [ih, Nat.succ_mul, Nat.add_comm]

theorem roots_sum {cfg : Config} (ps : Str → Nat) :
    ((roots cfg).map fun x => byPlace cfg ps x.2).sum = predictedTotal cfg ps := by
  unfold roots predictedTotal
  rw [sum_filterMap]
  have h1 : ((places cfg).zipIdx.map fun p => ((((rootList cfg p.1.1).map fun l => (p.2, l))).map
      fun x => byPlace cfg ps x.2).getD 0) =
      (places cfg).map fun p => ((rootList cfg p.1).map (byPlace cfg ps)).getD 0 := by
    apply map_zipIdx_congr
    intro i p _
    dsimp only
    rw [Option.map_map]
    rfl
  rw [h1]
  unfold places
  rw [sum_flatMap]
  congr 1
  apply map_zipIdx_congr
  intro i s hi
  dsimp only
  rw [List.map_map]
  have h2 : ((fun p : Nat × Nat => ((rootList cfg p.1).map (byPlace cfg ps)).getD 0) ∘ fun n => (i, n)) =
      fun _ => ((rootList cfg i).map (byPlace cfg ps)).getD 0 := rfl
  rw [h2, sum_const, List.length_range]
  have h3 : rootList cfg i = cfg.actionLists.findIdx? fun l => s.name = l.name := by
    unfold rootList
    rw [hi]
  rw [h3]
  cases hf : cfg.actionLists.findIdx? fun l => s.name = l.name with
  | none =>
    have := List.findIdx?_eq_none_iff.1 hf
    rw [if_neg]
    · simp
    · intro hm
      obtain ⟨l, hl, hn⟩ := List.mem_map.1 hm
      have := this l hl
      simp [hn] at this
  | some k =>
    rw [List.findIdx?_eq_some_iff_getElem] at hf
    obtain ⟨hlt, h4, -⟩ := hf
    simp only [decide_eq_true_eq] at h4
    rw [if_pos (by rw [h4]; exact List.mem_map_of_mem (List.getElem_mem hlt)), Option.map_some, Option.getD_some,
      byPlace, List.getElem?_eq_getElem hlt, h4]
    rfl

theorem made_named {cfg : Config} (hd : DistinctNames cfg) {q : Nat} {r : RpcSpec} (hr : cfg.rpcs[q]? = some r)
    (s : Traffic.State) : madeNamed cfg s r.name = rpcsMade s q := by
  unfold madeNamed rpcsMade
  congr 1
  funext c
  rw [Bool.eq_iff_iff, decide_eq_true_eq]
  constructor
  · intro h
    cases h1 : cfg.rpcs[c.rpc]? with
    | none => simp [h1] at h
    | some r' => exact names_inj hd.rpcs h1 hr (by simpa [h1] using h)
  · intro h
    rw [h, hr]
    simp

theorem unconditional {e : Env} {w : Test} (hs : SoundTest e w) (hp : ∀ a ∈ w.cfg.actions, a.predicates = [])
    (F : Nat → Nat) :
    Unconditional (globalConfig w F) := by
  intro l x hx
  obtain ⟨y, hy, rfl⟩ := List.mem_map.1 hx
  obtain ⟨a, ha⟩ := List.getElem?_of_mem hy
  obtain ⟨al, -, -, h3, -⟩ := entry_at hs ha
  show (!y.proto.predicates.isEmpty) = false
  rw [hp _ h3]
  rfl

/-! ### Ends -/

theorem levels_global {e : Env} {w : Test} (hs : SoundTest e w) {level : Str → Nat} (hl : NameLevels w.cfg level)
    (F : Nat → Nat) : Levels (globalConfig w F) (byPlace w.cfg level) := by
  rintro l l' ⟨x, hx, hw⟩
  obtain ⟨y, hy, rfl⟩ := List.mem_map.1 hx
  obtain ⟨a, ha⟩ := List.getElem?_of_mem hy
  obtain ⟨al, h1, h2, h3, -, h5, h6⟩ := entry_at hs ha
  have hwk : (toAction F y).work = toWork F y := rfl
  rw [hwk] at hw
  have key : ∀ n, (y.proto.kind = .rpc n ∨ y.proto.kind = .actionList n) → level n < level al.name :=
    fun n hk => hl _ _ ⟨al, List.mem_of_getElem? h1, rfl, _, List.mem_of_getElem? h2, _, h3, rfl, hk⟩
  have hb : byPlace w.cfg level l = level al.name := (named_byPlace _ _).1 l al h1
  rw [hb]
  rcases hw with hw | ⟨q, f, hw, hh⟩
  · cases hk : y.proto.kind with
    | actionList n =>
      rw [work_list hs ha hk] at hw
      obtain ⟨k, al', g1, g2, g3⟩ := h6 n hk
      rw [g1, Int.toNat_natCast] at hw
      cases hw
      rw [(named_byPlace _ _).1 _ al' g2, g3]
      exact key n (.inr hk)
    | rpc n => rw [work_rpc hs ha hk] at hw; cases hw
    | none => rw [work_other hs ha (by rw [hk]; simp) (by rw [hk]; simp)] at hw; cases hw
    | activity n => rw [work_other hs ha (by rw [hk]; simp) (by rw [hk]; simp)] at hw; cases hw
    | replay n => rw [work_other hs ha (by rw [hk]; simp) (by rw [hk]; simp)] at hw; cases hw
  · obtain ⟨i, r, sv, g1, g2, g3, g4, -⟩ := rpc_work hs ha hw
    obtain ⟨k, al', b1, b2, b3⟩ := handler_list hs F g4
    rcases b3 with ⟨b3, b4⟩ | ⟨b3, b4⟩
    · rw [b4] at hh
      cases hh
    · rw [b4] at hh
      cases hh
      rw [(named_byPlace _ _).1 _ al' b1, b2]
      exact key _ (.inl g1)

theorem mayRun_names {e : Env} {w : Test} (hs : SoundTest e w) {F : Nat → Nat} {eng l : Nat}
    (h : MayRun (globalConfig w F) eng l) : ∃ i s al, serviceOf w.cfg eng = some i ∧
      w.cfg.services[i]? = some s ∧ w.cfg.actionLists[l]? = some al ∧ MayRunName w.cfg s.name al.name := by
  induction h with
  | root hr =>
    obtain ⟨i, hi, hl⟩ := mem_roots hr
    obtain ⟨s, hsv⟩ := service_exists hi
    unfold rootList at hl
    rw [hsv] at hl
    dsimp only at hl
    rw [List.findIdx?_eq_some_iff_getElem] at hl
    obtain ⟨hlt, h1, -⟩ := hl
    simp only [decide_eq_true_eq] at h1
    refine ⟨i, s, _, hi, hsv, List.getElem?_eq_getElem hlt, ?_⟩
    rw [← h1]
    exact .own (List.mem_of_getElem? hsv)
  | @handler l' q hq hh =>
    obtain ⟨i, hi, hso⟩ := servers_service hq
    obtain ⟨s, hsv⟩ := service_exists hi
    obtain ⟨s0, h0⟩ := first_service hs
    unfold serverOf at hso
    obtain ⟨re, hre, hre2⟩ := Option.map_eq_some_iff.1 hso
    obtain ⟨spec, a1, -, -, -, ⟨k', sv', a5, a6, a7, -⟩, -⟩ := rpc_entry hs h0 hre
    rw [a5, Int.toNat_natCast] at hre2
    subst hre2
    rw [hsv] at a6
    cases a6
    obtain ⟨k, al', b1, b2, b3⟩ := handler_list hs F a1
    rcases b3 with ⟨b3, b4⟩ | ⟨b3, b4⟩
    · rw [b4] at hh
      cases hh
    · rw [b4] at hh
      cases hh
      refine ⟨_, s, al', hi, hsv, b1, ?_⟩
      rw [b2, a7]
      exact .serves (List.mem_of_getElem? a1)
  | @nested l1 l2 x _ hx hw ih =>
    obtain ⟨i, s, al, h1, h2, h3, h4⟩ := ih
    obtain ⟨y, hy, rfl⟩ := List.mem_map.1 hx
    obtain ⟨a, ha⟩ := List.getElem?_of_mem hy
    obtain ⟨al', k1, k2, k3, -, k5, k6⟩ := entry_at hs ha
    rw [h3] at k1
    cases k1
    have hw : toWork F y = .list l2 := hw
    cases hk : y.proto.kind with
    | actionList n =>
      rw [work_list hs ha hk] at hw
      obtain ⟨k, al', g1, g2, g3⟩ := k6 n hk
      rw [g1, Int.toNat_natCast] at hw
      cases hw
      refine ⟨i, s, al', h1, h2, g2, ?_⟩
      exact .nested h4 (List.mem_of_getElem? h3) k3 (List.mem_of_getElem? k2) (by rw [g3]; exact hk)
    | rpc n => rw [work_rpc hs ha hk] at hw; cases hw
    | none => rw [work_other hs ha (by rw [hk]; simp) (by rw [hk]; simp)] at hw; cases hw
    | activity n => rw [work_other hs ha (by rw [hk]; simp) (by rw [hk]; simp)] at hw; cases hw
    | replay n => rw [work_other hs ha (by rw [hk]; simp) (by rw [hk]; simp)] at hw; cases hw

theorem narrow_pos {m n : Int} (h1 : 1 ≤ m) (h2 : 1 ≤ n) (h3 : n < 2 ^ 31) : 1 ≤ Iterations.narrow (min m n) := by
  unfold Iterations.narrow
  rw [Int.emod_eq_of_lt] <;> omega

theorem parallel_pos {cfg : Config} (hp : PlainTest cfg) (F : Nat → Nat) {x : ActionEntry}
    (hx : x.proto ∈ cfg.actions) : 1 ≤ (toAction F x).parallel := by
  have hl := limit_count hp hx
  show 1 ≤ if (Iterations.params x.proto 0 false).openLoop then (Iterations.params x.proto 0 false).limit.toNat
    else (Iterations.params x.proto 0 false).copies.toNat
  cases hi : x.proto.iterations with
  | none =>
    have h1 : iterationCount x.proto = 1 := by unfold iterationCount; rw [hi]
    have h2 : (Iterations.params x.proto 0 false).copies.toNat = 1 := by
      simp [Iterations.params, hi, Iterations.narrow]
    rw [hl, h1, h2]
    split <;> omega
  | some it =>
    obtain ⟨-, ⟨n, h1, h2, h3⟩, h4⟩ := hp.counted _ hx it hi
    have h5 : iterationCount x.proto = n.toNat := by
      unfold iterationCount
      rw [hi]
      simp [h1]
    have h6 : 1 ≤ (Iterations.params x.proto 0 false).copies := by
      unfold Iterations.params
      rw [hi]
      simp only [Option.getD_some, h1]
      exact narrow_pos h4 h2 h3
    rw [hl, h5]
    split <;> omega

theorem sensible_global {e : Env} {w : Test} {fan : Str → Nat} {F : Nat → Nat} (hs : SoundTest e w)
    (hp : ∀ x : ActionEntry, x.proto ∈ w.cfg.actions → 1 ≤ (toAction F x).parallel)
    (hf : FanOuts w.cfg fan) : Sensible (globalConfig w F) := by
  intro l a x hx
  have hx : ((actionsOf (w.tables 0) l).map (toAction F))[a]? = some x := hx
  rw [List.getElem?_map] at hx
  obtain ⟨y, hy, rfl⟩ := Option.map_eq_some_iff.1 hx
  obtain ⟨al, h1, h2, h3, h4, h5, -⟩ := entry_at hs hy
  refine ⟨?_, hp y h3, ?_⟩
  · intro d hd
    obtain ⟨d', hd', rfl⟩ := List.mem_map.1 hd
    have := h4 d' hd'
    omega
  · intro q f hw
    obtain ⟨i, r, sv, g1, g2, g3, g4, g5, g6, -⟩ := rpc_work hs hy hw
    obtain ⟨s', m1, m2, m3, -⟩ := hf r (List.mem_of_getElem? g4)
    obtain ⟨m, hm⟩ := List.getElem?_of_mem m1
    have := names_inj hs.distinct.services hm g5 (m2.trans g6.symm)
    subst this
    rw [hm] at g5
    cases g5
    obtain ⟨t, ht⟩ := engineAt_exists (n := 0) hm (by unfold ServiceSpec.getCount; omega)
    have hso := serviceOf_some.2 ⟨0, engineAt_place ht⟩
    obtain ⟨s0, h0⟩ := first_service hs
    have hlt : q < (w.tables 0).rpcTable.length := by
      rw [rpcTable_length (hs.tables 0 s0 h0)]
      exact (List.getElem?_eq_some_iff.1 g4).1
    have hq := List.getElem?_eq_getElem hlt
    obtain ⟨spec, a1, -, -, -, ⟨k', sv', a5, a6, a7, -⟩, -⟩ := rpc_entry hs h0 hq
    rw [g4] at a1
    cases a1
    have := names_inj hs.distinct.services hm a6 (g6.trans a7.symm)
    subst this
    refine ⟨t, ?_⟩
    have hso2 : serverOf (w.tables 0) q = some m := by
      unfold serverOf
      rw [hq]
      simp only [Option.map_some, a5, Int.toNat_natCast]
    simp only [globalConfig, hso2, hso]
    rfl

/-- The layer of an engine is that of its service. -/
def layerAt (cfg : Config) (layer : Str → Nat) (e : Nat) : Nat :=
  (((serviceOf cfg e).bind fun i => cfg.services[i]?).map fun s => layer s.name).getD 0

theorem layered_global {e : Env} {w : Test} {layer : Str → Nat} (hs : SoundTest e w)
    (hc : ClientsDeclared w.cfg) (hl : LayeredServices w layer) (F : Nat → Nat) :
    Layered (globalConfig w F) (layerAt w.cfg layer) := by
  intro eng l hm x hx q f hw t ht
  obtain ⟨i, s, al, h1, h2, h3, h4⟩ := mayRun_names hs hm
  obtain ⟨y, hy, rfl⟩ := List.mem_map.1 hx
  obtain ⟨a, ha⟩ := List.getElem?_of_mem hy
  obtain ⟨al', k1, k2, k3, -⟩ := entry_at hs ha
  rw [h3] at k1
  cases k1
  obtain ⟨i', r, sv, g1, g2, g3, g4, g5, g6, -⟩ := rpc_work hs ha hw
  obtain ⟨m, hm1, hm2⟩ := servers_service ht
  obtain ⟨s', hs'⟩ := service_exists hm1
  obtain ⟨s0, h0⟩ := first_service hs
  unfold serverOf at hm2
  obtain ⟨re, hre, hre2⟩ := Option.map_eq_some_iff.1 hm2
  obtain ⟨spec, a1, -, -, -, ⟨k', sv', a5, a6, a7, -⟩, -⟩ := rpc_entry hs h0 hre
  rw [a5, Int.toNat_natCast] at hre2
  subst hre2
  rw [hs'] at a6
  cases a6
  rw [g4] at a1
  cases a1
  have hr := List.mem_of_getElem? g4
  have hcl := hc s.name al y.proto r h4 (List.mem_of_getElem? h3) k3 (List.mem_of_getElem? k2) hr g1
  obtain ⟨l1, l2⟩ := hl r hr s.name hcl
  have e1 : layerAt w.cfg layer t = layer r.server := by
    unfold layerAt
    rw [hm1, Option.bind_some, hs', Option.map_some, Option.getD_some, a7]
  have e2 : layerAt w.cfg layer eng = layer s.name := by
    unfold layerAt
    rw [h1, Option.bind_some, h2, Option.map_some, Option.getD_some]
  rw [e1, e2]
  exact ⟨l1, fun hn => l2 t _ s' hm1 hs' a7 hn⟩

/-- Whenever the test as a whole can take a step, so can some engine. -/
theorem step_engine {e : Env} {w : Test} {fan : Str → Nat} (hs : SoundTest e w) (hf : FanOuts w.cfg fan)
    (hc : ClientsDeclared w.cfg) {R : Nat → Prop} {s s' : Traffic.State} {op : Traffic.Op}
    (hinv : Traffic.Inv (globalConfig w (fanAt w.cfg fan)) R s)
    (h : Traffic.step (globalConfig w (fanAt w.cfg fan)) s op = some s') : ∃ op' s'', Step w s op' s'' ∧
      (op' = op ∨ ∃ j a t t', op = .iterate j a t ∧ op' = .iterate j a t') := by
  have same : ∀ op s', Traffic.step (globalConfig w (fanAt w.cfg fan)) s op = some s' → Chosen w s op →
      (∀ j a targets job x q, op = .iterate j a targets → s.jobs[j]? = some job →
        (actionsOf (w.tables 0) job.list)[a]? = some x → toWork (fun _ => 0) x = .rpc q 0 →
        targets.length = fanAt w.cfg fan q) → Step w s op s' := by
    intro op s' h hch hi
    obtain ⟨x1, x2⟩ := step_exists h
    have hp := engineOf_service hinv x1 x2
    refine ⟨hch, ?_⟩
    rw [step_same hs hinv hp hi]
    exact h
  cases op with
  | start j a => exact ⟨_, _, same _ _ h trivial (fun _ _ _ _ _ _ h => by cases h), .inl rfl⟩
  | skip j a => exact ⟨_, _, same _ _ h trivial (fun _ _ _ _ _ _ h => by cases h), .inl rfl⟩
  | finish j a => exact ⟨_, _, same _ _ h trivial (fun _ _ _ _ _ _ h => by cases h), .inl rfl⟩
  | deliver c => exact ⟨_, _, same _ _ h trivial (fun _ _ _ _ _ _ h => by cases h), .inl rfl⟩
  | dispatch c => exact ⟨_, _, same _ _ h trivial (fun _ _ _ _ _ _ h => by cases h), .inl rfl⟩
  | endJob j => exact ⟨_, _, same _ _ h trivial (fun _ _ _ _ _ _ h => by cases h), .inl rfl⟩
  | complete c => exact ⟨_, _, same _ _ h trivial (fun _ _ _ _ _ _ h => by cases h), .inl rfl⟩
  | iterate j a targets =>
    cases hj : s.jobs[j]? with
    | none => simp [Traffic.step, hj] at h
    | some job =>
      obtain ⟨i, sv, al, m1, m2, m3, m4⟩ := mayRun_names hs (hinv.may j job hj)
      cases hx : (actionsOf (w.tables 0) job.list)[a]? with
      | none =>
        simp [Traffic.step, hj, globalConfig, hx] at h
      | some x =>
        have hsame : actionsOf (w.tables ((serviceOf w.cfg job.engine).getD 0)) job.list =
            actionsOf (w.tables 0) job.list := by
          rw [m1, Option.getD_some, same_actions hs m2]
        by_cases hw : ∃ q, toWork (fun _ => 0) x = .rpc q 0
        · obtain ⟨q, hw⟩ := hw
          obtain ⟨al', k1, k2, k3, -⟩ := entry_at hs hx
          rw [m3] at k1
          cases k1
          obtain ⟨i', r, sv', g1, g2, g3, g4, g5, g6, -⟩ := rpc_work hs hx hw
          have hr := List.mem_of_getElem? g4
          have hcl := hc sv.name al x.proto r m4 (List.mem_of_getElem? m3) k3 (List.mem_of_getElem? k2) hr g1
          obtain ⟨n, hpl⟩ := serviceOf_some.1 m1
          obtain ⟨targets', ht⟩ := picks_exists hs g2 g3 g4 g5 g6 (hf r hr) hpl m2 hcl
          obtain ⟨f1, f2⟩ := picks_global hs hf hx hw ht
          have hex : ∃ s'', Traffic.step (globalConfig w (fanAt w.cfg fan)) s (.iterate j a targets') = some s'' := by
            have hq := work_rpc hs hx g1
            rw [g2, Int.toNat_natCast] at hq
            have hget : ((globalConfig w (fanAt w.cfg fan)).actions job.list)[a]? =
                some (toAction (fanAt w.cfg fan) x) := by
              show ((actionsOf (w.tables 0) job.list).map _)[a]? = _
              rw [List.getElem?_map, hx]
              rfl
            have hwk : (toAction (fanAt w.cfg fan) x).work = .rpc q (fanAt w.cfg fan q) := hq _
            rw [Traffic.step] at h ⊢
            rw [hj] at h ⊢
            dsimp only at h ⊢
            rw [hget] at h ⊢
            split at h
            · next x' left hx' hact =>
              cases hx'
              split at h
              · next hlt =>
                rw [if_pos hlt, hwk]
                dsimp only
                rw [if_pos ⟨f1, List.all_eq_true.2 f2⟩]
                exact ⟨_, rfl⟩
              · cases h
            · cases h
          obtain ⟨s'', hs''⟩ := hex
          refine ⟨_, _, same _ _ hs'' ?_ ?_, .inr ⟨_, _, _, _, rfl, rfl⟩⟩
          · intro job' x' hj' hx' _
            rw [hj] at hj'
            cases hj'
            rw [hsame, hx] at hx'
            cases hx'
            exact ht
          · intro j' a' t' job' x' q' hop hj' hx' hw'
            cases hop
            rw [hj] at hj'
            cases hj'
            rw [hx] at hx'
            cases hx'
            rw [hw] at hw'
            cases hw'
            exact f1
        · refine ⟨_, _, same _ _ h ?_ ?_, .inl rfl⟩
          · rintro job' x' hj' hx' ⟨q, k, hq⟩
            rw [hj] at hj'
            cases hj'
            rw [hsame, hx] at hx'
            cases hx'
            obtain ⟨_, _, _, _, _, _, _, _, _, hk⟩ := rpc_work hs hx hq
            rw [hk] at hq
            exact absurd ⟨q, hq⟩ hw
          · intro j' a' t' job' x' q' hop hj' hx' hw'
            cases hop
            rw [hj] at hj'
            cases hj'
            rw [hx] at hx'
            cases hx'
            exact absurd ⟨q', hw'⟩ hw

/-! ### An RPC that is not allowed -/

/-- The action `a` of the run `j` of the list `l` by `eng` has not come further than the start of its first
iteration. -/
def Held (j a eng l : Nat) (s : Traffic.State) : Prop :=
  ∃ job, s.jobs[j]? = some job ∧ job.engine = eng ∧ job.list = l ∧
    (job.acts[a]? = some .waiting ∨ ∃ n, job.acts[a]? = some (.running (n + 1)))

theorem held_set {j a eng l : Nat} {s : Traffic.State} (h : Held j a eng l s) {j' b : Nat} {job : Traffic.Job}
    (hj : s.jobs[j']? = some job) (y : Traffic.Act) (early : Option Nat) (calls : List Traffic.Call)
    (hne : ¬ (j' = j ∧ b = a)) :
    Held j a eng l ⟨s.jobs.set j' { job with acts := job.acts.set b y, early := early }, calls⟩ := by
  obtain ⟨k, h1, h2, h3, h4⟩ := h
  by_cases hjj : j' = j
  · subst hjj
    rw [hj] at h1
    cases h1
    have hb : b ≠ a := fun h => hne ⟨rfl, h⟩
    refine ⟨_, List.getElem?_set_self (List.getElem?_eq_some_iff.1 hj).1, h2, h3, ?_⟩
    show (job.acts.set b y)[a]? = _ ∨ ∃ n, (job.acts.set b y)[a]? = _
    rw [List.getElem?_set_ne hb]
    exact h4
  · exact ⟨k, by show (s.jobs.set j' _)[j]? = _; rw [List.getElem?_set_ne hjj]; exact h1, h2, h3, h4⟩

theorem held_append {j a eng l : Nat} {s : Traffic.State} (h : Held j a eng l s) (k : Traffic.Job)
    (calls : List Traffic.Call) : Held j a eng l ⟨s.jobs ++ [k], calls⟩ := by
  obtain ⟨k', h1, h2⟩ := h
  exact ⟨k', by show (s.jobs ++ [k])[j]? = _; rw [List.getElem?_append_left (List.getElem?_eq_some_iff.1 h1).1]; exact h1, h2⟩

theorem held_step {c : Traffic.Config} {j a eng l : Nat} {s s' : Traffic.State} {op : Traffic.Op}
    (h : Held j a eng l s) (hs : Traffic.step c s op = some s') (h1 : op ≠ .skip j a)
    (h2 : ∀ t, op ≠ .iterate j a t) (h3 : ∀ x, (c.actions l)[a]? = some x → 1 ≤ x.iters) :
    Held j a eng l s' := by
  cases op with
  | start j' b =>
    obtain ⟨job, x, g1, g2, g3, g4, g5, g6, rfl⟩ := Traffic.step_start hs
    by_cases hne : j' = j ∧ b = a
    · obtain ⟨rfl, rfl⟩ := hne
      obtain ⟨k, k1, k2, k3, k4⟩ := h
      rw [g1] at k1
      cases k1
      refine ⟨_, List.getElem?_set_self (List.getElem?_eq_some_iff.1 g1).1, k2, k3, .inr ?_⟩
      rw [k3] at g2
      have := h3 x g2
      refine ⟨x.iters - 1, ?_⟩
      show (job.acts.set b _)[b]? = _
      rw [List.getElem?_set_self (List.getElem?_eq_some_iff.1 g3).1]
      congr 2
      omega
    · exact held_set h g1 _ _ _ hne
  | skip j' b =>
    obtain ⟨job, x, g1, g2, g3, g4, g5, g6, rfl⟩ := Traffic.step_skip hs
    exact held_set h g1 _ _ _ (fun ⟨e1, e2⟩ => h1 (by rw [e1, e2]))
  | iterate j' b t =>
    obtain ⟨job, x, left, g1, g2, g3, g4⟩ := Traffic.step_iterate hs
    have hne : ¬ (j' = j ∧ b = a) := fun ⟨e1, e2⟩ => h2 t (by rw [e1, e2])
    rcases g4 with ⟨q, g4, g5, rfl⟩ | ⟨l', g4, g5, rfl⟩ | ⟨g4, g5, rfl⟩
    · exact held_set h g1 _ _ _ hne
    · exact held_append (held_set h g1 _ _ s.calls hne) _ _
    · exact held_set h g1 _ _ _ hne
  | finish j' b =>
    obtain ⟨job, x, g1, g2, g3, g4, rfl⟩ := Traffic.step_finish hs
    refine held_set h g1 _ _ _ ?_
    rintro ⟨rfl, rfl⟩
    obtain ⟨k, k1, k2, k3, k4⟩ := h
    rw [g1] at k1
    cases k1
    rw [g3] at k4
    rcases k4 with k4 | ⟨n, k4⟩
    · cases k4
    · injection k4 with k4
      injection k4 with k4
      omega
  | deliver c' =>
    obtain ⟨r, g1, g2, rfl⟩ := Traffic.step_deliver hs
    exact h
  | complete c' =>
    obtain ⟨r, g1, g2, rfl⟩ := Traffic.step_complete hs
    exact h
  | dispatch c' =>
    obtain ⟨r, l', g1, g2, g3, g4, rfl⟩ := Traffic.step_dispatch hs
    exact held_append h _ _
  | endJob j' =>
    obtain ⟨job, g1, g2, g3, rfl⟩ := Traffic.step_endJob hs
    obtain ⟨k, k1, k2, k3, k4⟩ := h
    by_cases hjj : j' = j
    · subst hjj
      rw [g1] at k1
      cases k1
      exact ⟨_, List.getElem?_set_self (List.getElem?_eq_some_iff.1 g1).1, k2, k3, k4⟩
    · exact ⟨k, by show (s.jobs.set j' _)[j]? = _; rw [List.getElem?_set_ne hjj]; exact k1, k2, k3, k4⟩

theorem held_not_over {j a eng l : Nat} {s : Traffic.State} {c : Traffic.Config} {R : Nat → Prop}
    (hi : Traffic.Inv c R s) (h : Held j a eng l s) : ¬ TrafficOver s := by
  intro ho
  obtain ⟨k, k1, -, -, k4⟩ := h
  have hover := ho.1 k (List.mem_of_getElem? k1)
  rcases k4 with k4 | ⟨n, k4⟩
  · exact absurd (hi.over j k k1 hover a _ k4) (by simp [Traffic.Act.ended])
  · exact absurd (hi.over j k k1 hover a _ k4) (by simp [Traffic.Act.ended])

/-- The engines of a service that is not a client of an RPC do not choose targets for it. -/
theorem picks_client {e : Env} {w : Test} (hs : SoundTest e w) {eng q i : Nat} {x : ActionEntry} {r : RpcSpec}
    {sv : ServiceSpec} {targets : List Nat} (hq : x.rpcIndex = q) (hr : w.cfg.rpcs[q]? = some r)
    (hi : serviceOf w.cfg eng = some i) (hsv : w.cfg.services[i]? = some sv) (hp : Picks w eng x targets) :
    sv.name ∈ r.client := by
  obtain ⟨place, own, grid, re, d, ts, h1, h2, h3, h4, h5, -⟩ := hp
  obtain ⟨n, hn⟩ := serviceOf_some.1 hi
  rw [hn] at h1
  cases h1
  rw [hsv] at h2
  cases h2
  rw [hq, Int.toNat_natCast] at h4
  obtain ⟨spec, a1, -, -, a4, -⟩ := rpc_entry hs hsv h4
  rw [hr] at a1
  cases a1
  exact a4.1 h5

theorem roots_mem {cfg : Config} {e i l : Nat} (h1 : serviceOf cfg e = some i) (h2 : rootList cfg i = some l) :
    (e, l) ∈ roots cfg := by
  obtain ⟨n, hn⟩ := serviceOf_some.1 h1
  unfold roots
  refine List.mem_filterMap.2 ⟨((i, n), e), List.mem_zipIdx_iff_getElem?.2 hn, ?_⟩
  simp only [h2]
  rfl

end Distbench.Whole
