import Verif.Lemmas.Fanout
import Verif.Lemmas.Names
import Verif.Lemmas.Constraints

/-! Property theorems C20–C27, C64–C66: fan-out filters. -/

namespace Distbench
open Services Fanout Spec

theorem canon_of_valid {c : Ctx} (hv : Valid c) : Canon c.peer := by
  obtain ⟨raw, h1, h2⟩ := hv.accepted
  exact canon_of_ok h1 h2

theorem count_of_valid {c : Ctx} (hv : Valid c) : c.peer.getCount = c.numServers := hv.count.symm

theorem self_of_valid {c : Ctx} (hv : Valid c) (he : c.excludeSelf = true) :
    0 ≤ c.instance_ ∧ c.instance_ < c.numServers := by
  rw [← count_of_valid hv]
  exact at_bounds (canon_of_valid hv) (hv.self_in he)

theorem at_inServers {c : Ctx} (hv : Valid c) {g : GridIndex} {t : Int} (h : At c.peer g t) :
    0 ≤ t ∧ t < c.numServers := by
  rw [← count_of_valid hv]
  exact at_bounds (canon_of_valid hv) h

theorem inGrid_of_valid {c : Ctx} (hv : Valid c) (he : c.excludeSelf = true) :
    InGrid c.peer c.grid := (hv.self_in he).1

/-! ### C27 same-coordinate filters -/

/-- The targets of the `same_...` filters are exactly the instances that agree with the sender in
the named coordinates, without the sender inside one service, each once. -/
theorem C27_same_coordinates (c : Ctx) (hv : Valid c) (sx sy sz : Bool)
    (hf : c.parsed.filter = .grid sx sy sz) (hg : InGrid c.peer c.grid) :
    ∃ ts, pickRpcFanoutTargets c = some ts ∧ ts.Nodup ∧
      ∀ t, t ∈ ts ↔ (∃ g, At c.peer g t ∧ (sx = true → g.x = c.grid.x) ∧
        (sy = true → g.y = c.grid.y) ∧ (sz = true → g.z = c.grid.z)) ∧
        (c.excludeSelf = true → t ≠ c.instance_) := by
  unfold InGrid at hg
  obtain ⟨raw, h1, h2, h3⟩ := pickGrid_spec (canon_of_valid hv) (self := c.grid) (sx := sx) (sy := sy)
    (sz := sz) ⟨fun _ => by omega, fun _ => by omega, fun _ => by omega⟩
  obtain ⟨ts, k1, k2, k3⟩ := pick_mem hv (raw := raw) (by unfold rawTargets; rw [hf]; exact h1) (by
    intro t ht
    obtain ⟨g, hg, _⟩ := (h3 t).1 ht
    exact at_inServers hv hg)
  exact ⟨ts, k1, k2 h2, fun t => by rw [k3, h3]⟩

/-! ### C21 all -/

theorem raw_all {c : Ctx} (hv : Valid c) (hf : c.parsed.filter = .grid false false false) :
    ∃ raw, rawTargets c = some raw ∧ raw.Nodup ∧ ∀ t, t ∈ raw ↔ 0 ≤ t ∧ t < c.numServers := by
  obtain ⟨raw, h1, h2, h3⟩ := pickGrid_spec (canon_of_valid hv) (self := c.grid) (sx := false)
    (sy := false) (sz := false) (by simp)
  refine ⟨raw, by unfold rawTargets; rw [hf]; exact h1, h2, ?_⟩
  intro t
  rw [h3]
  constructor
  · rintro ⟨g, hg, _⟩; exact at_inServers hv hg
  · rintro ⟨k1, k2⟩
    rw [← count_of_valid hv] at k2
    obtain ⟨g, hg⟩ := exists_at (canon_of_valid hv) k1 k2
    exact ⟨g, hg, by simp⟩

/-- With filter `all` every eligible instance gets exactly one RPC. -/
theorem C21_all_once (c : Ctx) (hv : Valid c) (hf : c.parsed.filter = .grid false false false) :
    ∃ ts, pickRpcFanoutTargets c = some ts ∧ ts.Nodup ∧ ∀ t, t ∈ ts ↔ Eligible c t := by
  obtain ⟨raw, h1, h2, h3⟩ := raw_all hv hf
  obtain ⟨ts, k1, k2, k3⟩ := pick_mem hv h1 (fun t ht => (h3 t).1 ht)
  refine ⟨ts, k1, k2 h2, ?_⟩
  intro t
  rw [k3, h3]
  unfold Eligible
  exact and_assoc

/-- Inside one service the order is: the instances after the sender, then those before it. -/
theorem C21_order (c : Ctx) (hv : Valid c) (hf : c.parsed.filter = .grid false false false)
    (he : c.excludeSelf = true) :
    pickRpcFanoutTargets c
      = some (intRange (c.instance_ + 1) c.numServers ++ intRange 0 c.instance_) := by
  obtain ⟨hi0, hin⟩ := self_of_valid hv he
  by_cases h1 : c.excludeSelf = true ∧ c.numServers = 1
  · unfold pickRpcFanoutTargets
    rw [if_pos h1]
    have e1 : intRange (c.instance_ + 1) c.numServers = [] := by
      apply List.eq_nil_iff_forall_not_mem.2
      intro x hx; rw [mem_intRange] at hx; omega
    have e2 : intRange 0 c.instance_ = [] := by
      apply List.eq_nil_iff_forall_not_mem.2
      intro x hx; rw [mem_intRange] at hx; omega
    rw [e1, e2]; rfl
  · obtain ⟨raw, r1, r2, r3⟩ := raw_all hv hf
    unfold pickRpcFanoutTargets
    rw [if_neg h1, r1]
    simp only [he, ↓reduceIte, hf, reduceCtorEq]
    congr 1
    have keyval : ∀ x, 0 ≤ x → x < c.numServers → sortKey c.numServers c.instance_ x
        = if x < c.instance_ then x - c.instance_ + c.numServers else x - c.instance_ := by
      intro x h0 h2
      unfold sortKey
      split
      · rw [Int.emod_eq_of_lt (by omega) (by omega)]; omega
      · rw [show x + (c.numServers - c.instance_) = x - c.instance_ + c.numServers by omega,
          Int.add_emod_right, Int.emod_eq_of_lt (by omega) (by omega)]
    have hmem : ∀ x, x ∈ sortBy (sortKey c.numServers c.instance_) (eraseValue c.instance_ raw) ↔
        0 ≤ x ∧ x < c.numServers ∧ x ≠ c.instance_ := by
      intro x
      rw [(sortBy_perm _ _).mem_iff, mem_eraseValue, r3]
      exact and_assoc
    apply eq_of_sorted (key := sortKey c.numServers c.instance_)
    · have hs := sortBy_sorted (sortKey c.numServers c.instance_) (eraseValue c.instance_ raw)
      have hn : (sortBy (sortKey c.numServers c.instance_) (eraseValue c.instance_ raw)).Nodup :=
        ((sortBy_perm _ _).nodup_iff).2 (nodup_eraseValue r2)
      refine List.Pairwise.imp_of_mem ?_ (hs.and hn)
      intro a b ha hb hab
      rw [hmem] at ha hb
      obtain ⟨hle, hne⟩ := hab
      rw [keyval a ha.1 ha.2.1, keyval b hb.1 hb.2.1] at hle ⊢
      split at hle <;> split at hle <;> simp only [*, ↓reduceIte] <;> omega
    · rw [List.pairwise_append]
      refine ⟨?_, ?_, ?_⟩
      · refine List.Pairwise.imp_of_mem ?_ (pairwise_intRange _ _)
        intro a b ha hb hab
        rw [mem_intRange] at ha hb
        rw [keyval a (by omega) (by omega), keyval b (by omega) (by omega), if_neg (by omega),
          if_neg (by omega)]
        omega
      · refine List.Pairwise.imp_of_mem ?_ (pairwise_intRange _ _)
        intro a b ha hb hab
        rw [mem_intRange] at ha hb
        rw [keyval a (by omega) (by omega), keyval b (by omega) (by omega), if_pos (by omega),
          if_pos (by omega)]
        omega
      · intro a ha b hb
        rw [mem_intRange] at ha hb
        rw [keyval a (by omega) (by omega), keyval b (by omega) (by omega), if_neg (by omega),
          if_pos (by omega)]
        omega
    · intro x
      rw [hmem, List.mem_append, mem_intRange, mem_intRange]
      omega

/-! ### C22, C64 round robin -/

/-- The target a round-robin iteration chooses when it reads a counter value. -/
theorem roundRobin_target (c : Ctx) (hv : Valid c) (hf : c.parsed.filter = .roundRobin)
    (h1 : ¬ (c.excludeSelf = true ∧ c.numServers = 1)) :
    pickRpcFanoutTargets c = some [if c.excludeSelf
      then skip c.numServers c.instance_ (c.counter % (c.numServers - 1))
      else c.counter % c.numServers] := by
  have hs := hv.some_server
  have hcn := hv.counter
  apply pick_single hv h1
  · unfold rawTargets
    rw [hf]
    simp only
    by_cases he : c.excludeSelf = true
    · simp only [he, ↓reduceIte]
      rw [if_neg (by simp only [he, true_and] at h1; omega), Int.tmod_eq_emod_of_nonneg hcn]
      rfl
    · simp only [he, Bool.false_eq_true, ↓reduceIte]
      rw [if_neg (by omega), Int.tmod_eq_emod_of_nonneg hcn]
  · intro he
    rw [if_pos he]
    obtain ⟨a, b⟩ := self_of_valid hv he
    simp only [he, true_and] at h1
    exact (skip_spec a b (Int.emod_nonneg _ (by omega)) (Int.emod_lt_of_pos _ (by omega))).2.2

/-- Any run of consecutive counter values, as long as there are eligible instances, sends exactly one
RPC to each of them. -/
theorem C22_round_robin_fair (c : Ctx) (hv : Valid c) (hf : c.parsed.filter = .roundRobin)
    (start : Int) (h0 : 0 ≤ start) :
    ∃ seq : List Int,
      (List.range (eligibleCount c)).map
        (fun (j : Nat) => pickRpcFanoutTargets { c with counter := start + j })
        = seq.map (fun t => some [t]) ∧
      seq.Nodup ∧ ∀ t, t ∈ seq ↔ Eligible c t := by
  by_cases h1 : c.excludeSelf = true ∧ c.numServers = 1
  · refine ⟨[], ?_, by simp, ?_⟩
    · simp [eligibleCount, h1]
    · intro t
      obtain ⟨a, b⟩ := self_of_valid hv h1.1
      simp only [List.not_mem_nil, false_iff, Eligible]
      rintro ⟨h2, h3, h4⟩
      exact h4 h1.1 (by omega)
  · have hs := hv.some_server
    have hval : ∀ j : Nat, Valid { c with counter := start + j } := by
      intro j
      exact { accepted := hv.accepted, count := hv.count, some_server := hv.some_server,
              self_in := hv.self_in, grid := hv.grid, counter := by simp only; omega,
              draw := hv.draw, shuffle := hv.shuffle }
    let f : Nat → Int := fun j => if c.excludeSelf
      then skip c.numServers c.instance_ ((start + j) % (c.numServers - 1))
      else (start + j) % c.numServers
    refine ⟨(List.range (eligibleCount c)).map f, ?_, ?_, ?_⟩
    · rw [List.map_map]
      apply List.map_congr_left
      intro j _
      exact roundRobin_target _ (hval j) hf h1
    · apply nodup_map_on List.nodup_range
      intro a ha b hb e
      rw [List.mem_range] at ha hb
      unfold eligibleCount at ha hb
      simp only [f] at e
      by_cases he : c.excludeSelf = true
      · simp only [he, ↓reduceIte, true_and] at ha hb e h1
        have := window_inj (by omega) (by omega) (by omega) (by omega)
          (skip_inj (Int.emod_lt_of_pos _ (by omega)) (Int.emod_lt_of_pos _ (by omega)) e)
        omega
      · simp only [he, Bool.false_eq_true, ↓reduceIte] at ha hb e
        have := window_inj (by omega) (by omega) (by omega) (by omega) e
        omega
    · intro t
      rw [List.mem_map]
      unfold Eligible eligibleCount
      by_cases he : c.excludeSelf = true
      · obtain ⟨a, b⟩ := self_of_valid hv he
        simp only [f, he, ↓reduceIte, true_and, forall_const] at h1 ⊢
        constructor
        · rintro ⟨j, hj, rfl⟩
          exact skip_spec a b (Int.emod_nonneg _ (by omega)) (Int.emod_lt_of_pos _ (by omega))
        · rintro ⟨k1, k2, k3⟩
          obtain ⟨v, v1, v2, v3⟩ := skip_surj a k1 k2 k3 b
          obtain ⟨j, j1, j2, j3⟩ := window_surj (s := start) v1 v2
          refine ⟨j.toNat, by rw [List.mem_range]; omega, ?_⟩
          rw [show ((j.toNat : Nat) : Int) = j by omega, j3, v3]
      · simp only [f, he, Bool.false_eq_true, ↓reduceIte, false_implies, and_true]
        constructor
        · rintro ⟨j, hj, rfl⟩
          exact ⟨Int.emod_nonneg _ (by omega), Int.emod_lt_of_pos _ (by omega)⟩
        · rintro ⟨k1, k2⟩
          obtain ⟨j, j1, j2, j3⟩ := window_surj (s := start) k1 k2
          refine ⟨j.toNat, by rw [List.mem_range]; omega, ?_⟩
          rw [show ((j.toNat : Nat) : Int) = j by omega, j3]

/-- Iterations that run one after the other read consecutive counter values.  Missing from the full
property (fairness under any interleaving): overlapping iterations, see
`C64_overlapping_iterations_collide`. -/
theorem C64_sequential_partial (start : Int) (n : Nat) :
    countersRead start ((List.range n).flatMap (fun _ => [.choose, .count]))
      = (List.range n).map (fun (j : Nat) => start + j) := by
  have key : ∀ (n : Nat) (start : Int),
      countersRead start ((List.replicate n [CounterEvent.choose, .count]).flatten)
      = (List.range n).map (fun (j : Nat) => start + j) := by
    intro n
    induction n with
    | zero => intro start; rfl
    | succ n ih =>
      intro start
      rw [List.replicate_succ, List.flatten_cons, List.cons_append, List.cons_append,
        List.nil_append, countersRead, countersRead, ih, List.range_succ_eq_map, List.map_cons,
        List.map_map]
      congr 1
      · simp
      · apply List.map_congr_left
        intro j _
        simp only [Function.comp]
        omega
  have e : (List.range n).flatMap (fun _ => [CounterEvent.choose, .count])
      = (List.replicate n [CounterEvent.choose, .count]).flatten := by
    rw [List.flatMap_def, List.map_const', List.length_range]
  rw [e, key]

/-- C22.  Iterations that follow one another, each counted before the next chooses, read consecutive
counter values: together with `C22_round_robin_fair` they are fair. -/
theorem C22_sequential (start : Int) (n : Nat) :
    countersRead start ((List.range n).flatMap (fun _ => [.choose, .count]))
      = (List.range n).map (fun (j : Nat) => start + j) := C64_sequential_partial start n

/-- Two iterations that overlap can both choose before either counts; they send to the same
instance. -/
theorem C64_overlapping_iterations_collide (start : Int) :
    countersRead start [.choose, .choose, .count, .count] = [start, start] := rfl

/-! ### C23 random -/

/-- Every draw selects one eligible instance, and every eligible instance is selected by exactly one
value of the draw. -/
theorem C23_random_uniform (c : Ctx) (hv : Valid c) (hf : c.parsed.filter = .randomSingle)
    (h1 : ¬ (c.excludeSelf = true ∧ c.numServers = 1)) :
    (∀ v, InDraw c v → ∃ t, Eligible c t ∧
      pickRpcFanoutTargets (drawing c v) = some [t]) ∧
    (∀ t, Eligible c t → ∃ v, InDraw c v ∧
      pickRpcFanoutTargets (drawing c v) = some [t] ∧
      ∀ w, InDraw c w → pickRpcFanoutTargets (drawing c w) = some [t] → w = v) := by
  have hs := hv.some_server
  have hpick : ∀ v, InDraw c v → pickRpcFanoutTargets (drawing c v)
      = some [if c.excludeSelf then skip c.numServers c.instance_ v else v] := by
    intro v hvv
    unfold InDraw eligibleCount at hvv
    unfold pickRpcFanoutTargets drawing
    rw [if_neg h1]
    unfold rawTargets eligibleCount
    simp only [hf]
    by_cases he : c.excludeSelf = true
    · obtain ⟨a, b⟩ := self_of_valid hv he
      simp only [he, ↓reduceIte, true_and] at hvv h1
      simp only [he, ↓reduceIte, reduceCtorEq]
      have e : c.numServers - 2 = ((c.numServers - 1).toNat : Int) - 1 := by omega
      rw [if_pos e]
      have := skip_spec a b hvv.1 (by omega)
      show some (sortBy _ (eraseValue c.instance_ [skip c.numServers c.instance_ v])) = _
      rw [eraseValue_singleton this.2.2]
      rfl
    · simp only [he, Bool.false_eq_true, ↓reduceIte, reduceCtorEq]
      have e : c.numServers - 1 = (c.numServers.toNat : Int) - 1 := by omega
      rw [if_pos e, perm_singleton' (hv.shuffle [v])]
  have hdraw : ∀ v, InDraw c v ↔ 0 ≤ v ∧ v < (if c.excludeSelf then c.numServers - 1 else c.numServers) := by
    intro v
    unfold InDraw eligibleCount
    split <;> omega
  by_cases he : c.excludeSelf = true
  · obtain ⟨a, b⟩ := self_of_valid hv he
    simp only [he, ↓reduceIte, true_and] at hpick hdraw h1
    constructor
    · intro v hvv
      have hd := (hdraw v).1 hvv
      have := skip_spec a b hd.1 hd.2
      exact ⟨_, ⟨this.1, this.2.1, fun _ => this.2.2⟩, hpick v hvv⟩
    · rintro t ⟨k1, k2, k3⟩
      obtain ⟨v, v1, v2, v3⟩ := skip_surj a k1 k2 (k3 he) b
      refine ⟨v, (hdraw v).2 ⟨v1, v2⟩, by rw [hpick v ((hdraw v).2 ⟨v1, v2⟩), v3], ?_⟩
      intro w hw hw2
      rw [hpick w hw] at hw2
      have hwd := (hdraw w).1 hw
      have e : skip c.numServers c.instance_ w = t := by simpa using hw2
      exact skip_inj hwd.2 v2 (e.trans v3.symm)
  · simp only [he, Bool.false_eq_true, ↓reduceIte] at hpick hdraw
    constructor
    · intro v hvv
      have hd := (hdraw v).1 hvv
      exact ⟨v, ⟨hd.1, hd.2, fun h => absurd h he⟩, hpick v hvv⟩
    · rintro t ⟨k1, k2, k3⟩
      refine ⟨t, (hdraw t).2 ⟨k1, k2⟩, hpick t ((hdraw t).2 ⟨k1, k2⟩), ?_⟩
      intro w hw hw2
      rw [hpick w hw] at hw2
      simpa using hw2

/-! ### C25 rings -/

/-- The raw ring target of a sender inside the server's grid. -/
theorem ring_raw {c : Ctx} (hv : Valid c) (alt : Bool) (a : Axis) (hg : InGrid c.peer c.grid)
    (hm : ModerateSize c.peer) :
    ∃ t, pickRingTargets alt a c.grid c.peer = some [t] ∧
      At c.peer (setCoord a c.grid
        ((coord a c.grid + ringOffset alt a c.grid) % extent a c.peer)) t := by
  have hg' := hg
  have hm' := hm
  unfold InGrid at hg'
  unfold ModerateSize at hm'
  obtain ⟨t, h1, h2⟩ := pickRing_spec (canon_of_valid hv)
    (by rw [count_of_valid hv]; exact hv.some_server) hm (self := c.grid) (alt := alt) (a := a)
    hv.grid (by omega)
  refine ⟨t, h1, ?_⟩
  rw [Int.emod_eq_of_lt hg'.1 hg'.2.1, Int.emod_eq_of_lt hg'.2.2.1 hg'.2.2.2.1,
    Int.emod_eq_of_lt hg'.2.2.2.2.1 hg'.2.2.2.2.2] at h2
  exact h2

theorem coord_setCoord (a : Axis) (g : GridIndex) (v : Int) : coord a (setCoord a g v) = v := by
  cases a <;> rfl

theorem setCoord_coord (a : Axis) (g : GridIndex) : setCoord a g (coord a g) = g := by
  cases a <;> rfl

theorem setCoord_setCoord (a : Axis) (g : GridIndex) (u v : Int) :
    setCoord a (setCoord a g u) v = setCoord a g v := by
  cases a <;> rfl

theorem coord_bounds {s : ServiceSpec} {g : GridIndex} (h : InGrid s g) (a : Axis) :
    0 ≤ coord a g ∧ coord a g < extent a s := by
  unfold InGrid at h
  cases a <;> simp only [coord, extent] <;> omega

theorem inGrid_setCoord {s : ServiceSpec} {g : GridIndex} (h : InGrid s g) (a : Axis) {v : Int}
    (h0 : 0 ≤ v) (h1 : v < extent a s) : InGrid s (setCoord a g v) := by
  unfold InGrid at h
  cases a <;> simp only [extent] at h1 <;> unfold InGrid <;> simp only [setCoord] <;> omega

theorem numServers_gt_one {c : Ctx} (hv : Valid c) {g g' : GridIndex} (hg : InGrid c.peer g)
    (hg' : InGrid c.peer g') (hne : g ≠ g') : c.numServers ≠ 1 := by
  intro h
  have h1 := at_inServers hv (t := cellNum c.peer g) ⟨hg, rfl⟩
  have h2 := at_inServers hv (t := cellNum c.peer g') ⟨hg', rfl⟩
  exact hne (cellNum_inj (canon_of_valid hv) hg hg' (by omega))

/-- Moving by one on an axis of length at least two changes the coordinate. -/
theorem step_ne {n v off : Int} (hn : 2 ≤ n) (h0 : 0 ≤ v) (h1 : v < n) (ho : off = 1 ∨ off = -1) :
    (v + off) % n ≠ v := by
  intro h
  rcases ho with rfl | rfl
  · by_cases e : v + 1 = n
    · rw [e, Int.emod_self] at h; omega
    · rw [Int.emod_eq_of_lt (by omega) (by omega)] at h; omega
  · by_cases e : v = 0
    · subst e
      rw [← Int.add_emod_right, Int.emod_eq_of_lt (by omega) (by omega)] at h; omega
    · rw [Int.emod_eq_of_lt (by omega) (by omega)] at h; omega

/-- The ring target of a sender inside its own service, for both families. -/
theorem ring_pick {c : Ctx} (hv : Valid c) (alt : Bool) (a : Axis)
    (hf : c.parsed.filter = if alt then .alternatingRing a else .ring a)
    (he : c.excludeSelf = true) (hm : ModerateSize c.peer) (h2 : 2 ≤ extent a c.peer) (off : Int)
    (ho : ringOffset alt a c.grid = off) (ho' : off = 1 ∨ off = -1) :
    ∃ t, pickRpcFanoutTargets c = some [t] ∧
      At c.peer (setCoord a c.grid ((coord a c.grid + off) % extent a c.peer)) t := by
  have hg := inGrid_of_valid hv he
  obtain ⟨t, k1, k2⟩ := ring_raw hv alt a hg hm
  rw [ho] at k2
  have hb := coord_bounds hg a
  have hne : setCoord a c.grid ((coord a c.grid + off) % extent a c.peer) ≠ c.grid := by
    intro e
    have := congrArg (coord a) e
    rw [coord_setCoord] at this
    exact step_ne h2 hb.1 hb.2 ho' this
  refine ⟨t, pick_single hv ?_ ?_ ?_, k2⟩
  · rintro ⟨_, h⟩
    exact numServers_gt_one hv k2.1 hg hne h
  · unfold rawTargets
    rw [hf]
    cases alt <;> exact k1
  · intro _ e
    subst e
    exact hne (at_unique (canon_of_valid hv) k2 (hv.self_in he))

/-- Inside one service, a ring filter sends to exactly the next instance on the axis (nobody if the
axis has length one). -/
theorem C25_ring_target (c : Ctx) (hv : Valid c) (a : Axis) (hf : c.parsed.filter = .ring a)
    (he : c.excludeSelf = true) (hm : ModerateSize c.peer) :
    (2 ≤ extent a c.peer → ∃ t, pickRpcFanoutTargets c = some [t] ∧
      At c.peer (ringNext a c.peer c.grid) t) ∧
    (extent a c.peer = 1 → pickRpcFanoutTargets c = some []) := by
  constructor
  · intro h2
    exact ring_pick hv false a (by rw [hf]; rfl) he hm h2 1 rfl (Or.inl rfl)
  · intro h1
    obtain ⟨t, k1, k2⟩ := ring_raw hv false a (inGrid_of_valid hv he) hm
    have hb := coord_bounds (inGrid_of_valid hv he) a
    rw [h1] at hb k2
    rw [Int.emod_one, show (0 : Int) = coord a c.grid by omega, setCoord_coord] at k2
    have ht : t = c.instance_ := k2.2.trans (hv.self_in he).2.symm
    subst ht
    obtain ⟨ts, j1, _, j3⟩ := pick_mem hv (raw := [c.instance_])
      (by unfold rawTargets; rw [hf]; exact k1)
      (by intro t ht; rw [List.mem_singleton] at ht; subst ht; exact at_inServers hv k2)
    have hnil : ts = [] := by
      apply List.eq_nil_iff_forall_not_mem.2
      intro x hx
      rw [j3, List.mem_singleton] at hx
      exact hx.2 he hx.1
    rw [j1, hnil]

/-- Alternating rings send to the next instance in even rows and to the previous one in odd rows. -/
theorem C25_alternating_target (c : Ctx) (hv : Valid c) (a : Axis)
    (hf : c.parsed.filter = .alternatingRing a) (he : c.excludeSelf = true)
    (hm : ModerateSize c.peer) (h2 : 2 ≤ extent a c.peer) :
    (¬ OddRow a c.grid → ∃ t, pickRpcFanoutTargets c = some [t] ∧
      At c.peer (ringNext a c.peer c.grid) t) ∧
    (OddRow a c.grid → ∃ t, pickRpcFanoutTargets c = some [t] ∧
      At c.peer (ringPrev a c.peer c.grid) t) := by
  constructor
  · intro ho
    refine ring_pick hv true a (by rw [hf]; rfl) he hm h2 1 ?_ (Or.inl rfl)
    cases a <;> simp only [OddRow] at ho <;> simp [ringOffset, isOdd, ho]
  · intro ho
    refine ring_pick hv true a (by rw [hf]; rfl) he hm h2 (-1) ?_ (Or.inr rfl)
    cases a <;> simp only [OddRow] at ho <;> simp [ringOffset, isOdd, ho]

theorem ringNext_inGrid {s : ServiceSpec} {g : GridIndex} (h : InGrid s g) (a : Axis) :
    InGrid s (ringNext a s g) := by
  have hb := coord_bounds h a
  exact inGrid_setCoord h a (Int.emod_nonneg _ (by omega)) (Int.emod_lt_of_pos _ (by omega))

theorem ring_iterate {s : ServiceSpec} {g : GridIndex} (h : InGrid s g) (a : Axis) (k : Nat) :
    Nat.repeat (ringNext a s) k g = setCoord a g ((coord a g + k) % extent a s) := by
  have hb := coord_bounds h a
  induction k with
  | zero =>
    show g = _
    rw [Int.natCast_zero, Int.add_zero, Int.emod_eq_of_lt hb.1 hb.2, setCoord_coord]
  | succ k ih =>
    show ringNext a s (Nat.repeat (ringNext a s) k g) = _
    rw [ih]
    unfold ringNext
    rw [coord_setCoord, setCoord_setCoord, Int.emod_add_emod]
    congr 2
    omega

/-- Following ring targets visits a cycle of exactly the axis length. -/
theorem C25_cycle (s : ServiceSpec) (g : GridIndex) (h : InGrid s g) (a : Axis) (k : Nat) :
    Nat.repeat (ringNext a s) k g = g ↔ extent a s ∣ (k : Int) := by
  have hb := coord_bounds h a
  rw [ring_iterate h]
  constructor
  · intro e
    have e' := congrArg (coord a) e
    rw [coord_setCoord] at e'
    have h1 : (coord a g + k) % extent a s = coord a g % extent a s := by
      rw [e', Int.emod_eq_of_lt hb.1 hb.2]
    have h2 := Int.emod_eq_emod_iff_emod_sub_eq_zero.1 h1
    rw [show coord a g + k - coord a g = (k : Int) by omega] at h2
    exact Int.dvd_of_emod_eq_zero h2
  · rintro ⟨q, hq⟩
    rw [hq, Int.add_mul_emod_self_left, Int.emod_eq_of_lt hb.1 hb.2, setCoord_coord]

/-- Every instance is the ring target of exactly one sender. -/
theorem C25_unique_sender (c : Ctx) (hv : Valid c) (a : Axis) (hf : c.parsed.filter = .ring a)
    (he : c.excludeSelf = true) (hm : ModerateSize c.peer) (h2 : 2 ≤ extent a c.peer)
    (t : Int) (h0 : 0 ≤ t) (h1 : t < c.numServers) :
    ∃ i g, At c.peer g i ∧ pickRpcFanoutTargets { c with instance_ := i, grid := g } = some [t] ∧
      ∀ i' g', At c.peer g' i' →
        pickRpcFanoutTargets { c with instance_ := i', grid := g' } = some [t] → i' = i := by
  have hc := canon_of_valid hv
  obtain ⟨gt, hgt⟩ := exists_at hc h0 (by rw [count_of_valid hv]; exact h1)
  have hval : ∀ i g, At c.peer g i → Valid { c with instance_ := i, grid := g } := by
    intro i g hat
    have hgg := hat.1
    unfold InGrid at hgg
    exact { accepted := hv.accepted, count := hv.count, some_server := hv.some_server,
            self_in := fun _ => hat, grid := by simp only; omega, counter := hv.counter,
            draw := hv.draw, shuffle := hv.shuffle }
  have hsend : ∀ i g, At c.peer g i → ∃ t, pickRpcFanoutTargets { c with instance_ := i, grid := g }
      = some [t] ∧ At c.peer (ringNext a c.peer g) t := fun i g hat =>
    (C25_ring_target _ (hval i g hat) a hf he hm).1 h2
  have hb := coord_bounds hgt.1 a
  have hpg : InGrid c.peer (ringPrev a c.peer gt) :=
    inGrid_setCoord hgt.1 a (Int.emod_nonneg _ (by omega)) (Int.emod_lt_of_pos _ (by omega))
  have hnp : ringNext a c.peer (ringPrev a c.peer gt) = gt := by
    unfold ringNext ringPrev
    rw [coord_setCoord, setCoord_setCoord, Int.emod_add_emod,
      show coord a gt - 1 + 1 = coord a gt by omega, Int.emod_eq_of_lt hb.1 hb.2, setCoord_coord]
  refine ⟨cellNum c.peer (ringPrev a c.peer gt), ringPrev a c.peer gt, ⟨hpg, rfl⟩, ?_, ?_⟩
  · obtain ⟨t', k1, k2⟩ := hsend _ _ ⟨hpg, rfl⟩
    rw [hnp] at k2
    exact k1.trans (by rw [k2.2, hgt.2])
  · intro i' g' hat' hp'
    obtain ⟨t', k1, k2⟩ := hsend i' g' hat'
    rw [hp'] at k1
    have e : t' = t := by simpa using k1.symm
    subst e
    have e2 := at_unique hc k2 hgt
    have hgg : g' = ringPrev a c.peer gt := by
      have hb' := coord_bounds hat'.1 a
      rw [← e2]
      unfold ringPrev ringNext
      rw [coord_setCoord, setCoord_setCoord, Int.emod_sub_emod,
        show coord a g' + 1 - 1 = coord a g' by omega, Int.emod_eq_of_lt hb'.1 hb'.2, setCoord_coord]
    rw [hat'.2, hgg]
    rfl

/-! ### C26 linear -/

/-- A linear filter sends to exactly the instance at the given distance along the axis, or to nobody
if that is outside the server's grid (or the sender itself). -/
theorem C26_linear_target (c : Ctx) (hv : Valid c) (a : Axis) (hf : c.parsed.filter = .linear a)
    (hd : InI32 (coord a c.grid + c.parsed.distance)) :
    ∃ ts, pickRpcFanoutTargets c = some ts ∧ ts.Nodup ∧
      ∀ t, t ∈ ts ↔ At c.peer (setCoord a c.grid (coord a c.grid + c.parsed.distance)) t ∧
        (c.excludeSelf = true → c.parsed.distance ≠ 0) := by
  obtain ⟨raw, h1, h2, h3⟩ := pickLinear_spec (canon_of_valid hv) (self := c.grid) hv.grid hd
  obtain ⟨ts, k1, k2, k3⟩ := pick_mem hv (raw := raw) (by unfold rawTargets; rw [hf]; exact h1)
    (fun t ht => at_inServers hv ((h3 t).1 ht))
  refine ⟨ts, k1, k2 h2, ?_⟩
  intro t
  rw [k3, h3]
  constructor
  · rintro ⟨j1, j2⟩
    refine ⟨j1, fun he hz => ?_⟩
    rw [hz, Int.add_zero, setCoord_coord] at j1
    exact j2 he (j1.2.trans (hv.self_in he).2.symm)
  · rintro ⟨j1, j2⟩
    refine ⟨j1, fun he e => ?_⟩
    subst e
    have := congrArg (coord a) (at_unique (canon_of_valid hv) j1 (hv.self_in he))
    rw [coord_setCoord] at this
    exact j2 he (by omega)

/-! ### C20 -/

/-- The filters whose targets depend on the sender's coordinate need it to be usable: inside the
server's grid for `same_...`, without overflow for rings and linear filters. -/
def CoordinateUsable (c : Ctx) : Prop :=
  match c.parsed.filter with
  | .grid sx sy sz => (sx = true → c.grid.x < extent .x c.peer) ∧
      (sy = true → c.grid.y < extent .y c.peer) ∧ (sz = true → c.grid.z < extent .z c.peer)
  | .ring _ => ModerateSize c.peer ∧ c.grid.x < 2 ^ 30 ∧ c.grid.y < 2 ^ 30 ∧ c.grid.z < 2 ^ 30
  | .alternatingRing _ =>
      ModerateSize c.peer ∧ c.grid.x < 2 ^ 30 ∧ c.grid.y < 2 ^ 30 ∧ c.grid.z < 2 ^ 30
  | .linear a => InI32 (coord a c.grid + c.parsed.distance)
  | _ => True

/-- Targets are always instances of the server service, and never the sender itself. -/
theorem C20_targets_eligible (c : Ctx) (hv : Valid c) (hu : CoordinateUsable c) :
    ∃ ts, pickRpcFanoutTargets c = some ts ∧ ∀ t ∈ ts, Eligible c t := by
  have fin : ∀ raw, rawTargets c = some raw → (∀ t ∈ raw, 0 ≤ t ∧ t < c.numServers) →
      ∃ ts, pickRpcFanoutTargets c = some ts ∧ ∀ t ∈ ts, Eligible c t := by
    intro raw h1 h2
    obtain ⟨ts, k1, _, k3⟩ := pick_mem hv h1 h2
    refine ⟨ts, k1, ?_⟩
    intro t ht
    have := (k3 t).1 ht
    exact ⟨(h2 t this.1).1, (h2 t this.1).2, this.2⟩
  have hs := hv.some_server
  unfold CoordinateUsable at hu
  cases hf : c.parsed.filter with
  | grid sx sy sz =>
    rw [hf] at hu
    simp only [extent] at hu
    obtain ⟨raw, h1, _, h3⟩ := pickGrid_spec (canon_of_valid hv) (self := c.grid) (sx := sx)
      (sy := sy) (sz := sz) ⟨fun h => ⟨hv.grid.1, hu.1 h⟩, fun h => ⟨hv.grid.2.1, hu.2.1 h⟩,
        fun h => ⟨hv.grid.2.2, hu.2.2 h⟩⟩
    refine fin raw (by unfold rawTargets; rw [hf]; exact h1) ?_
    intro t ht
    obtain ⟨g, hg, _⟩ := (h3 t).1 ht
    exact at_inServers hv hg
  | ring a =>
    rw [hf] at hu
    obtain ⟨t, h1, h2⟩ := pickRing_spec (canon_of_valid hv)
      (by rw [count_of_valid hv]; exact hs) hu.1 (self := c.grid) (alt := false) (a := a) hv.grid hu.2
    refine fin [t] (by unfold rawTargets; rw [hf]; exact h1) ?_
    intro t' ht'
    rw [List.mem_singleton] at ht'
    subst ht'
    exact at_inServers hv h2
  | alternatingRing a =>
    rw [hf] at hu
    obtain ⟨t, h1, h2⟩ := pickRing_spec (canon_of_valid hv)
      (by rw [count_of_valid hv]; exact hs) hu.1 (self := c.grid) (alt := true) (a := a) hv.grid hu.2
    refine fin [t] (by unfold rawTargets; rw [hf]; exact h1) ?_
    intro t' ht'
    rw [List.mem_singleton] at ht'
    subst ht'
    exact at_inServers hv h2
  | linear a =>
    rw [hf] at hu
    obtain ⟨raw, h1, _, h3⟩ := pickLinear_spec (canon_of_valid hv) (self := c.grid) hv.grid hu
    refine fin raw (by unfold rawTargets; rw [hf]; exact h1) ?_
    intro t ht
    exact at_inServers hv ((h3 t).1 ht)
  | randomSingle =>
    by_cases h1 : c.excludeSelf = true ∧ c.numServers = 1
    · exact ⟨[], by unfold pickRpcFanoutTargets; rw [if_pos h1], by simp⟩
    · refine fin _ (by unfold rawTargets; rw [hf]; simp only; rw [← apply_ite some]) ?_
      intro t ht
      by_cases he : c.excludeSelf = true
      · simp only [he, true_and] at h1
        obtain ⟨a, b⟩ := self_of_valid hv he
        have hd := hv.draw (c.numServers - 2) (by omega)
        rw [if_pos he, List.mem_singleton] at ht
        have := skip_spec a b hd.1 (by omega)
        unfold skip at this
        subst ht
        exact ⟨this.1, this.2.1⟩
      · have hd := hv.draw (c.numServers - 1) (by omega)
        rw [if_neg he, List.mem_singleton] at ht
        subst ht
        omega
  | roundRobin =>
    by_cases h1 : c.excludeSelf = true ∧ c.numServers = 1
    · exact ⟨[], by unfold pickRpcFanoutTargets; rw [if_pos h1], by simp⟩
    · refine ⟨_, roundRobin_target c hv hf h1, ?_⟩
      intro t ht
      rw [List.mem_singleton] at ht
      subst ht
      unfold Eligible
      by_cases he : c.excludeSelf = true
      · simp only [he, true_and] at h1
        obtain ⟨a, b⟩ := self_of_valid hv he
        have := skip_spec a b (Int.emod_nonneg c.counter (b := c.numServers - 1) (by omega))
          (Int.emod_lt_of_pos _ (by omega))
        simp only [he, ↓reduceIte]
        exact ⟨this.1, this.2.1, fun _ => this.2.2⟩
      · simp only [he, Bool.false_eq_true, ↓reduceIte]
        exact ⟨Int.emod_nonneg _ (by omega), Int.emod_lt_of_pos _ (by omega), fun h => h.elim⟩
  | stochastic =>
    refine fin _ (by unfold rawTargets; rw [hf]) ?_
    intro t ht
    have hsh : c.shuffle (if c.excludeSelf then eraseValue c.instance_ (iota []) else iota []) = [] := by
      have e : (if c.excludeSelf then eraseValue c.instance_ (iota []) else iota []) = [] := by
        split <;> rfl
      rw [e]
      exact (hv.shuffle []).eq_nil
    rw [hsh] at ht
    simp only [resize, List.take_nil, List.nil_append, List.mem_replicate] at ht
    omega

/-! ### C65: same-coordinate filters between services of different shapes -/

/-- Missing from the full property ("targets are always instances of the server service"): senders
outside the server's grid, see `C65_out_of_range_target`. -/
theorem C65_same_filters_in_range_partial (c : Ctx) (hv : Valid c) (sx sy sz : Bool)
    (hf : c.parsed.filter = .grid sx sy sz) (hg : InGrid c.peer c.grid) :
    ∃ ts, pickRpcFanoutTargets c = some ts ∧ ∀ t ∈ ts, Eligible c t := by
  refine C20_targets_eligible c hv ?_
  unfold InGrid at hg
  unfold CoordinateUsable
  rw [hf]
  simp only [extent]
  exact ⟨fun _ => by omega, fun _ => by omega, fun _ => by omega⟩

/-- A context with everything but the filter and the place of the sender fixed. -/
def sampleCtx (f : Filter) (peer : ServiceSpec) (same : Bool) (i : Int) (g : GridIndex) : Ctx :=
  { parsed := { filter := f }, peer := peer, excludeSelf := same, numServers := peer.getCount,
    instance_ := i, grid := g, counter := 0, draw := fun _ => 0, uniform := 0, shuffle := id }

/-- The service `s` with three instances in a row, and one with a 3x2 grid. -/
def row3 : ServiceSpec := { name := "s".toList, count := some 3, xSize := some 3 }
def grid32 : ServiceSpec :=
  { name := "s".toList, count := some 6, xSize := some 3, ySize := some 2 }

theorem sample_valid (f : Filter) (peer : ServiceSpec) (same : Bool) (i : Int) (g : GridIndex)
    (hfit : FieldsFit peer) (hc : getCanonicalServiceSpec peer = .ok peer) (h1 : 1 ≤ peer.getCount)
    (hat : same = true → At peer g i) (hg : 0 ≤ g.x ∧ 0 ≤ g.y ∧ 0 ≤ g.z) :
    Valid (sampleCtx f peer same i g) :=
  { accepted := ⟨peer, hfit, hc⟩, count := rfl, some_server := h1, self_in := hat, grid := hg,
    counter := by simp [sampleCtx], draw := fun hi h => ⟨by simp [sampleCtx], h⟩,
    shuffle := fun l => List.Perm.refl _ }

theorem fits32 : FieldsFit grid32 := by
  refine ⟨?_, ?_, ?_, ?_⟩ <;> intro c h <;> simp [grid32] at h <;> subst h <;> decide

theorem fits3 : FieldsFit row3 := by
  refine ⟨?_, ?_, ?_, ?_⟩ <;> intro c h <;> simp [row3] at h <;> subst h <;> decide

/-- Filter `same_x`, a sender with x = 5 and a server service of three instances: the target is
instance 5, which does not exist. -/
theorem C65_out_of_range_target : ∃ c : Ctx, Valid c ∧ c.parsed.filter = .grid true false false ∧
    c.numServers = 3 ∧ pickRpcFanoutTargets c = some [5] :=
  ⟨sampleCtx (.grid true false false) row3 false 5 ⟨5, 0, 0⟩,
   sample_valid _ _ _ _ _ fits3 (by decide +kernel) (by decide) (by simp) (by decide), rfl, rfl,
   by decide +kernel⟩

theorem sampleValid4 (f : Filter) : Valid (sampleCtx f grid32 true 4 ⟨1, 1, 0⟩) :=
  sample_valid _ _ _ _ _ fits32 (by decide +kernel) (by decide)
    (fun _ => ⟨by unfold InGrid; decide, by decide⟩) (by decide)

example : ∃ ts, pickRpcFanoutTargets (sampleCtx (.grid true false false) grid32 true 4 ⟨1, 1, 0⟩)
      = some ts ∧ ∀ t ∈ ts, Eligible (sampleCtx (.grid true false false) grid32 true 4 ⟨1, 1, 0⟩) t :=
  C20_targets_eligible _ (sampleValid4 _) (by simp [CoordinateUsable, sampleCtx, extent, grid32])

example : pickRpcFanoutTargets (sampleCtx (.grid false false false) grid32 true 4 ⟨1, 1, 0⟩)
    = some [5, 0, 1, 2, 3] := by
  rw [C21_order _ (sampleValid4 _) rfl rfl]; rfl

example := C22_round_robin_fair (sampleCtx .roundRobin grid32 true 4 ⟨1, 1, 0⟩) (sampleValid4 _) rfl
  7 (by decide)
example := C23_random_uniform (sampleCtx .randomSingle grid32 true 4 ⟨1, 1, 0⟩) (sampleValid4 _) rfl
  (by decide)
example := (C25_ring_target (sampleCtx (.ring .x) grid32 true 4 ⟨1, 1, 0⟩) (sampleValid4 _) .x rfl rfl
  (by unfold ModerateSize; decide)).1 (by decide)
example : pickRpcFanoutTargets (sampleCtx (.ring .x) grid32 true 4 ⟨1, 1, 0⟩) = some [5] := by
  decide +kernel
example : pickRpcFanoutTargets (sampleCtx (.alternatingRing .x) grid32 true 4 ⟨1, 1, 0⟩)
    = some [3] := by decide +kernel

/-! ### C24 stochastic -/

/-- The entry of the specification selected by a uniform draw: the first whose cumulated probability
reaches the draw. -/
inductive Selects : Rat → Rat → List StochasticDist → Int → Prop where
  | none (u acc) : Selects u acc [] 0
  | here (u acc d ds) (h : u ≤ acc + d.probability) : Selects u acc (d :: ds) d.nbTargets
  | later (u acc d ds n) (h : acc + d.probability < u) (t : Selects u (acc + d.probability) ds n) :
      Selects u acc (d :: ds) n

theorem selects_iff (u acc : Rat) (ds : List StochasticDist) (n : Int) :
    Selects u acc ds n ↔ stochasticCount u acc ds = n := by
  induction ds generalizing acc with
  | nil =>
    constructor
    · intro h; cases h; rfl
    · intro h; rw [stochasticCount] at h; subst h; exact .none _ _
  | cons d ds ih =>
    rw [stochasticCount]
    constructor
    · intro h
      cases h with
      | here _ _ _ h => rw [if_pos h]
      | later _ _ _ _ h t => rw [if_neg (by grind)]; exact (ih _).1 t
    · intro h
      by_cases hc : u ≤ acc + d.probability
      · rw [if_pos hc] at h; subst h; exact .here _ _ _ _ hc
      · rw [if_neg hc] at h; exact .later _ _ _ _ _ (by grind) ((ih _).2 h)

/-- Between services the number of RPCs is the selected number, at most the number of servers.
Missing from the full property: that the targets are distinct and random; they are all instance 0,
see `C24_all_to_instance_zero`. -/
theorem C24_stochastic_count_partial (c : Ctx) (hv : Valid c) (hf : c.parsed.filter = .stochastic)
    (he : c.excludeSelf = false) (n : Int) (hs : Selects c.uniform 0 c.parsed.dist n) :
    ∃ ts, pickRpcFanoutTargets c = some ts ∧ ts.length = (min n c.numServers).toNat := by
  rw [selects_iff] at hs
  unfold pickRpcFanoutTargets rawTargets
  rw [hf]
  simp only [he, Bool.false_eq_true, false_and, ↓reduceIte]
  refine ⟨_, rfl, ?_⟩
  rw [hs]
  have : c.shuffle (iota []) = [] := (hv.shuffle []).eq_nil
  rw [this]
  simp only [resize, List.take_nil, List.nil_append, List.length_nil, Nat.sub_zero,
    List.length_replicate]
  omega

/-- Whatever is drawn, a stochastic filter sends every RPC to instance 0. -/
theorem C24_all_to_instance_zero (c : Ctx) (hv : Valid c) (hf : c.parsed.filter = .stochastic)
    (ts : List Int) (h : pickRpcFanoutTargets c = some ts) : ∀ t ∈ ts, t = 0 := by
  intro t ht
  unfold pickRpcFanoutTargets rawTargets at h
  rw [hf] at h
  by_cases h1 : c.excludeSelf = true ∧ c.numServers = 1
  · rw [if_pos h1] at h
    have := Option.some.inj h
    subst this
    simp at ht
  · rw [if_neg h1] at h
    simp only [↓reduceIte, Option.some.injEq] at h
    have e : ∀ b : Bool, (if b then eraseValue c.instance_ (iota []) else iota []) = [] := by
      intro b; cases b <;> rfl
    have hsh : c.shuffle (if c.excludeSelf then eraseValue c.instance_ (iota []) else iota []) = [] := by
      rw [e]; exact (hv.shuffle []).eq_nil
    rw [hsh] at h
    simp only [resize, List.take_nil, List.nil_append] at h
    subst h
    split at ht
    · rw [mem_eraseValue, List.mem_replicate] at ht; exact ht.1.2
    · rw [List.mem_replicate] at ht; exact ht.2

/-- Concretely: `stochastic{1:2}` to a service of six sends two RPCs to instance 0. -/
theorem C24_duplicate_targets : ∃ c : Ctx, Valid c ∧ c.parsed.filter = .stochastic ∧
    c.parsed.dist = [⟨1, 2⟩] ∧ c.numServers = 6 ∧ pickRpcFanoutTargets c = some [0, 0] := by
  let c := { sampleCtx .stochastic grid32 false 0 ⟨0, 0, 0⟩ with
    parsed := { filter := .stochastic, dist := [⟨1, 2⟩] } }
  have hv := sample_valid .stochastic grid32 false 0 ⟨0, 0, 0⟩ fits32 (by decide +kernel) (by decide)
    (by simp) (by decide)
  have hv' : Valid c :=
    { accepted := hv.accepted, count := hv.count, some_server := hv.some_server,
      self_in := hv.self_in, grid := hv.grid, counter := hv.counter, draw := hv.draw,
      shuffle := hv.shuffle }
  exact ⟨c, hv', rfl, rfl, rfl, by decide +kernel⟩

/-! ### C66 parsing the filter -/

theorem parseItems_ok {atof : Str → Option Rat} {items : List Str} {ds : List StochasticDist}
    (h : parseStochasticItems atof items = .ok ds) :
    ds.length = items.length ∧ ∀ d ∈ ds, 0 ≤ d.probability ∧ d.probability ≤ 1 ∧ 0 ≤ d.nbTargets := by
  induction items generalizing ds with
  | nil => simp only [parseStochasticItems, Outcome.ok.injEq] at h; subst h; simp
  | cons s items ih =>
    rw [parseStochasticItems] at h
    cases hi : parseStochasticItem atof s with
    | ok d =>
      rw [hi] at h
      cases hr : parseStochasticItems atof items with
      | ok ds' =>
        rw [hr] at h
        simp only [Outcome.ok.injEq] at h
        subst h
        obtain ⟨h1, h2⟩ := ih hr
        refine ⟨by simp [h1], ?_⟩
        intro x hx
        rcases List.mem_cons.1 hx with rfl | hx
        · unfold parseStochasticItem at hi
          split at hi
          · rename_i p n _
            split at hi
            · cases hi
            · rename_i pr _
              split at hi
              · cases hi
              · rename_i hpr
                split at hi
                · cases hi
                · split at hi
                  · cases hi
                  · rename_i k _ hk
                    simp only [Outcome.ok.injEq] at hi
                    subst hi
                    grind
          · cases hi
        · exact h2 x hx
      | error m => rw [hr] at h; cases h
      | ub => rw [hr] at h; cases h
      | crash => rw [hr] at h; cases h
    | error m => rw [hi] at h; cases h
    | ub => rw [hi] at h; cases h
    | crash => rw [hi] at h; cases h

/-- Accepted stochastic filters have at least one entry, every probability within [0, 1] and no
negative number of targets. -/
theorem C66_stochastic_wellformed (atof : Str → Option Rat) (text : Str) (p : Parsed)
    (h : initializeRpcFanoutFilter atof text = .ok p) (hf : p.filter = .stochastic) :
    p.dist ≠ [] ∧ ∀ d ∈ p.dist, 0 ≤ d.probability ∧ d.probability ≤ 1 ∧ 0 ≤ d.nbTargets := by
  unfold initializeRpcFanoutFilter at h
  split at h
  · rename_i f hfind
    simp only [Outcome.ok.injEq] at h
    subst h
    simp only at hf
    subst hf
    exfalso
    have key : ∀ (l : List (Str × Filter)) (name : Str), findFilter l name = some .stochastic →
        Filter.stochastic ∈ l.map (·.2) := by
      intro l
      induction l with
      | nil => intro name h; cases h
      | cons e l ih =>
        intro name h
        rw [findFilter] at h
        split at h
        · simp only [Option.some.injEq] at h; simp [h]
        · simp [ih name h]
    have := key _ _ hfind
    revert this
    decide
  · split at h
    · simp only at h
      split at h
      · cases h
      · split at h
        · rename_i ds hds
          simp only [Outcome.ok.injEq] at h
          subst h
          unfold parseStochastic at hds
          split at hds
          · split at hds
            · cases hp : parseStochasticItems atof (strSplit ',' (List.dropLast ‹_›)) with
              | ok ds' =>
                rw [hp] at hds
                cases ds' with
                | nil => cases hds
                | cons d ds' =>
                  simp only [Outcome.ok.injEq] at hds
                  subst hds
                  exact ⟨by simp, (parseItems_ok hp).2⟩
              | error m => rw [hp] at hds; cases hds
              | ub => rw [hp] at hds; cases hds
              | crash => rw [hp] at hds; cases hds
            · cases hds
          · cases hds
        · cases h
        · cases h
        · cases h
      · rename_i f hns hfind
        split at h
        · simp only [Outcome.ok.injEq] at h
          subst h
          exact absurd hf hns
        · cases h
        · cases h
        · cases h
    · cases h

theorem strSplit_ne_nil (c : Char) (s : Str) : strSplit c s ≠ [] := by
  cases s with
  | nil => simp [strSplit]
  | cons d ds =>
    rw [strSplit]
    split
    · simp
    · split <;> simp

theorem separated_split (c : Char) (s : Str) : separated c (strSplit c s) = s := by
  induction s with
  | nil => rfl
  | cons d ds ih =>
    rw [strSplit]
    have hne := strSplit_ne_nil c ds
    split
    · next h =>
      cases hs : strSplit c ds with
      | nil => exact absurd hs hne
      | cons w ws => rw [separated, ← hs, ih, h]; rfl
    · cases hs : strSplit c ds with
      | nil => exact absurd hs hne
      | cons w ws =>
        rw [hs] at ih
        cases ws with
        | nil => rw [separated] at ih ⊢; rw [ih]
        | cons v ws => rw [separated] at ih ⊢; rw [List.cons_append, ih]

theorem split_no_sep (c : Char) (s : Str) : ∀ w ∈ strSplit c s, c ∉ w := by
  induction s with
  | nil => intro w hw; simp [strSplit] at hw; simp [hw]
  | cons d ds ih =>
    rw [strSplit]
    split
    · intro w hw
      rcases List.mem_cons.1 hw with rfl | hw
      · simp
      · exact ih w hw
    · next h =>
      cases hs : strSplit c ds with
      | nil => exact absurd hs (strSplit_ne_nil c ds)
      | cons w ws =>
        rw [hs] at ih
        intro v hv
        rcases List.mem_cons.1 hv with rfl | hv
        · rw [List.mem_cons]
          rintro (hc | hc)
          · exact h hc.symm
          · exact ih w (by simp) hc
        · exact ih v (by simp [hv])

theorem split_plain {c : Char} {a : Str} (h : c ∉ a) (s : Str) :
    strSplit c (a ++ c :: s) = a :: strSplit c s ∧ strSplit c a = [a] := by
  induction a with
  | nil => simp [strSplit]
  | cons d a ih =>
    rw [List.mem_cons, not_or] at h
    obtain ⟨h1, h2⟩ := ih h.2
    have hd : d ≠ c := fun e => h.1 e.symm
    rw [List.cons_append, strSplit, if_neg hd, h1, strSplit, if_neg hd, h2]
    exact ⟨rfl, rfl⟩

theorem split_separated {c : Char} {l : List Str} (hl : l ≠ []) (h : ∀ w ∈ l, c ∉ w) :
    strSplit c (separated c l) = l := by
  induction l with
  | nil => exact absurd rfl hl
  | cons a l ih =>
    cases l with
    | nil => exact (split_plain (h a (by simp)) []).2
    | cons b l =>
      rw [separated, (split_plain (h a (by simp)) _).1, ih (by simp) (fun w hw => h w (by simp [hw]))]

theorem parseItem_iff {atof : Str → Option Rat} {s : Str} (hs : ',' ∉ s) {d : StochasticDist} :
    parseStochasticItem atof s = .ok d ↔ EntryText atof s d := by
  constructor
  · intro h
    unfold parseStochasticItem at h
    split at h
    · next p n hpn =>
      have hsep := separated_split ':' s
      have hno := split_no_sep ':' s
      rw [hpn] at hsep hno
      split at h
      · cases h
      · next pr hpr =>
        split at h
        · cases h
        · next hin =>
          split at h
          · cases h
          · next k hk =>
            split at h
            · cases h
            · next hk0 =>
              injection h with h
              subst h
              unfold simpleAtoi32 at hk
              split at hk
              · next v hv =>
                split at hk
                · next h32 =>
                  cases hk
                  unfold InI32 at h32
                  refine ⟨p, n, hsep.symm, hno p (by simp), hno n (by simp), hs, hpr, by grind, by grind,
                    (Placement.simpleAtoi64_iff _ _).1 hv, by dsimp only; omega, by dsimp only; omega⟩
                · cases hk
              · cases hk
    · cases h
  · rintro ⟨p, n, rfl, h1, h2, _, h4, h5, h6, h7, h8, h9⟩
    unfold parseStochasticItem
    rw [(split_plain h1 n).1, (split_plain h2 []).2]
    dsimp only
    rw [h4]
    dsimp only
    rw [if_neg (by grind)]
    unfold simpleAtoi32
    rw [(Placement.simpleAtoi64_iff _ _).2 h7]
    dsimp only
    rw [if_pos (by unfold InI32; omega)]
    dsimp only
    rw [if_neg (by omega)]

theorem parseItems_iff {atof : Str → Option Rat} {l : List Str} (hl : ∀ s ∈ l, ',' ∉ s)
    {ds : List StochasticDist} : parseStochasticItems atof l = .ok ds ↔ EntriesText atof l ds := by
  induction l generalizing ds with
  | nil =>
    rw [parseStochasticItems]
    constructor
    · intro h; injection h with h; subst h; trivial
    · intro h
      cases ds with
      | nil => rfl
      | cons d ds => exact h.elim
  | cons s l ih =>
    have ih := @ih (fun s' hs' => hl s' (by simp [hs']))
    have hi := @parseItem_iff atof s (hl s (by simp))
    rw [parseStochasticItems]
    constructor
    · intro h
      cases h1 : parseStochasticItem atof s with
      | ok d =>
        rw [h1] at h
        cases h2 : parseStochasticItems atof l with
        | ok ds' =>
          rw [h2] at h
          injection h with h
          subst h
          exact ⟨hi.1 h1, ih.1 h2⟩
        | error m => rw [h2] at h; cases h
        | ub => rw [h2] at h; cases h
        | crash => rw [h2] at h; cases h
      | error m => rw [h1] at h; cases h
      | ub => rw [h1] at h; cases h
      | crash => rw [h1] at h; cases h
    · intro h
      cases ds with
      | nil => exact h.elim
      | cons d ds => rw [hi.2 h.1, ih.2 h.2]

theorem parseStochastic_brace (atof : Str → Option Rat) (rest : Str) : parseStochastic atof ('{' :: rest) =
    if rest.getLast? = some '}' then
      match parseStochasticItems atof (strSplit ',' rest.dropLast) with
      | .ok [] => .error "need at least a value pair"
      | r => r
    else .error "should ends with }" := rfl

theorem parseStochastic_iff {atof : Str → Option Rat} {params : Str} {ds : List StochasticDist} :
    parseStochastic atof params = .ok ds ↔
      ∃ entries, params = '{' :: (separated ',' entries ++ ['}']) ∧ ds ≠ [] ∧ EntriesText atof entries ds := by
  constructor
  · intro h
    unfold parseStochastic at h
    split at h
    · next rest =>
      split at h
      · next hlast =>
        have hrest : rest = rest.dropLast ++ ['}'] := by
          have hne : rest ≠ [] := by rintro rfl; cases hlast
          rw [List.getLast?_eq_some_getLast hne, Option.some.injEq] at hlast
          rw [← hlast, List.dropLast_concat_getLast]
        split at h
        · cases h
        · next hnil =>
          refine ⟨strSplit ',' rest.dropLast, ?_, ?_, (parseItems_iff (split_no_sep ',' _)).1 h⟩
          · rw [separated_split, ← hrest]
          · rintro rfl
            exact hnil h
      · cases h
    · cases h
  · rintro ⟨entries, rfl, hne, hall⟩
    have hcomma : ∀ (l : List Str) (ds : List StochasticDist), EntriesText atof l ds → ∀ s ∈ l, ',' ∉ s := by
      intro l
      induction l with
      | nil => intro _ _ s hs; cases hs
      | cons e l ih =>
        intro ds h s hs
        cases ds with
        | nil => exact h.elim
        | cons d ds =>
          rcases List.mem_cons.1 hs with rfl | hs
          · obtain ⟨_, _, _, _, _, hc, _⟩ := h.1
            exact hc
          · exact ih ds h.2 s hs
    have he : entries ≠ [] := by
      rintro rfl
      cases ds with
      | nil => exact hne rfl
      | cons d ds => exact hall.elim
    have hp := (parseItems_iff (hcomma _ _ hall)).2 hall
    rw [parseStochastic_brace, if_pos (by simp), List.dropLast_concat, split_separated he (hcomma _ _ hall), hp]
    cases ds with
    | nil => exact absurd rfl hne
    | cons d ds => rfl

theorem findFilter_mem {l : List (Str × Filter)} {name : Str} {f : Filter} (h : findFilter l name = some f) :
    (name, f) ∈ l := by
  induction l with
  | nil => cases h
  | cons e l ih =>
    obtain ⟨k, v⟩ := e
    rw [findFilter] at h
    split at h
    · next hk => cases h; subst hk; simp
    · exact List.mem_cons_of_mem _ (ih h)

/-- A text is accepted as a stochastic filter if and only if it is `stochastic{`, a comma-separated list of
entries and `}`; the entries are those of the text, in its order. -/
theorem C66_stochastic_text (atof : Str → Option Rat) (text : Str) (p : Parsed) :
    (initializeRpcFanoutFilter atof text = .ok p ∧ p.filter = .stochastic) ↔
      ∃ ds, p = { filter := .stochastic, dist := ds } ∧ StochasticText atof text ds := by
  constructor
  · rintro ⟨h, hf⟩
    unfold initializeRpcFanoutFilter at h
    split at h
    · next f hfind =>
      injection h with h
      subst h
      dsimp only at hf
      subst hf
      have := findFilter_mem hfind
      have hno : ∀ e ∈ plainFilters, e.2 ≠ .stochastic := by decide
      exact absurd rfl (hno _ this)
    · split at h
      · dsimp only at h
        split at h
        · cases h
        · next hfind =>
          have hname : text.takeWhile (· ≠ '{') = "stochastic".toList := by
            have hall : ∀ e ∈ paramFilters, e.2 = .stochastic → e.1 = "stochastic".toList := by decide
            exact hall _ (findFilter_mem hfind) rfl
          split at h
          · next ds hds =>
            injection h with h
            obtain ⟨entries, h1, h2, h3⟩ := parseStochastic_iff.1 hds
            refine ⟨ds, h.symm, entries, ?_, h2, h3⟩
            have hsplit := List.takeWhile_append_dropWhile (p := fun c => decide (c ≠ '{')) (l := text)
            rw [hname, h1] at hsplit
            rw [← hsplit]
            rfl
          · cases h
          · cases h
          · cases h
        · next f hns hfind =>
          split at h
          · injection h with h; subst h; exact absurd hf hns
          · cases h
          · cases h
          · cases h
      · cases h
  · rintro ⟨ds, rfl, entries, rfl, hne, hall⟩
    refine ⟨?_, rfl⟩
    have hp := parseStochastic_iff.2 ⟨entries, rfl, hne, hall⟩
    have hmem : '{' ∈ "stochastic{".toList ++ separated ',' entries ++ ['}'] := by simp
    have hplain : findFilter plainFilters ("stochastic{".toList ++ separated ',' entries ++ ['}']) = none := by
      cases hfp : findFilter plainFilters ("stochastic{".toList ++ separated ',' entries ++ ['}']) with
      | none => rfl
      | some f =>
        have hno : ∀ e ∈ plainFilters, '{' ∉ e.1 := by decide
        exact absurd hmem (hno _ (findFilter_mem hfp))
    have hsplit := takeWhile_all_append (p := fun c => decide (c ≠ '{'))
      (a := "stochastic".toList) (b := '{' :: (separated ',' entries ++ ['}']))
      (by decide) (by intro c hc; simp at hc; subst hc; decide)
    have htext : "stochastic{".toList ++ separated ',' entries ++ ['}'] =
        "stochastic".toList ++ '{' :: (separated ',' entries ++ ['}']) := by simp
    unfold initializeRpcFanoutFilter
    rw [hplain]
    dsimp only
    rw [if_pos hmem, htext, hsplit.1, hsplit.2, hp]
    rfl

/-- Half the time one target, otherwise three. -/
def halves : Str → Option Rat := fun s => if s = "0.5".toList then some (1 / 2) else none

theorem halves_text : StochasticText halves "stochastic{0.5:1,0.5: 3}".toList [⟨1 / 2, 1⟩, ⟨1 / 2, 3⟩] :=
  ⟨["0.5:1".toList, "0.5: 3".toList], by decide +kernel, by simp,
    ⟨"0.5".toList, "1".toList, by decide, by decide, by decide, by decide, by decide +kernel, by decide +kernel,
      by decide +kernel, (Placement.simpleAtoi64_iff _ _).1 (by decide +kernel), by decide, by decide⟩,
    ⟨"0.5".toList, " 3".toList, by decide, by decide, by decide, by decide, by decide +kernel, by decide +kernel,
      by decide +kernel, (Placement.simpleAtoi64_iff _ _).1 (by decide +kernel), by decide, by decide⟩, trivial⟩

example : initializeRpcFanoutFilter halves "stochastic{0.5:1,0.5: 3}".toList =
    .ok { filter := .stochastic, dist := [⟨1 / 2, 1⟩, ⟨1 / 2, 3⟩] } :=
  ((C66_stochastic_text _ _ _).2 ⟨_, rfl, halves_text⟩).1

/-- A name that is neither in the documented list nor followed by parameters is rejected. -/
theorem C66_unknown_rejected (atof : Str → Option Rat) (text : Str)
    (h1 : ∀ e ∈ plainFilters, e.1 ≠ text) (h2 : ∀ e ∈ paramFilters, ¬ (e.1 ++ ['{']) <+: text) :
    ∃ m, initializeRpcFanoutFilter atof text = .error m := by
  have key : ∀ (l : List (Str × Filter)) (name : Str), (∀ e ∈ l, e.1 ≠ name) →
      findFilter l name = none := by
    intro l
    induction l with
    | nil => intro name _; rfl
    | cons e l ih =>
      intro name h
      rw [findFilter, if_neg (h e (by simp)), ih name (fun x hx => h x (by simp [hx]))]
  unfold initializeRpcFanoutFilter
  rw [key _ _ h1]
  simp only
  by_cases hb : '{' ∈ text
  · rw [if_pos hb, key _ _ ?_]
    · exact ⟨_, rfl⟩
    · intro e he hname
      refine h2 e he ?_
      have hsplit := List.takeWhile_append_dropWhile (p := fun c => decide (c ≠ '{')) (l := text)
      cases hd : text.dropWhile (fun c => decide (c ≠ '{')) with
      | nil =>
        exfalso
        rw [hd, List.append_nil] at hsplit
        rw [← hsplit] at hb
        have := Placement.mem_takeWhile_imp hb
        simp at this
      | cons d ds =>
        have hdd : d = '{' := by
          have := List.head?_dropWhile_not (fun c => decide (c ≠ '{')) text
          rw [hd] at this
          simpa using this
        subst hdd
        rw [hd] at hsplit
        exact ⟨ds, by rw [hname]; simpa using hsplit⟩
  · rw [if_neg hb]; exact ⟨_, rfl⟩

/-- Letter of an axis. -/
def axisLetter : Axis → Char
  | .x => 'x' | .y => 'y' | .z => 'z'

/-- The names of the filters without parameters denote what they say: `same_` with the letters of
the coordinates, rings with the letter of the axis. -/
theorem C66_plain_names (atof : Str → Option Rat) :
    (∀ t ∈ ["", "all"], initializeRpcFanoutFilter atof t.toList
      = .ok { filter := .grid false false false }) ∧
    (∀ t ∈ ["random", "random_single"], initializeRpcFanoutFilter atof t.toList
      = .ok { filter := .randomSingle }) ∧
    initializeRpcFanoutFilter atof "round_robin".toList = .ok { filter := .roundRobin } ∧
    (∀ sx sy sz : Bool, (sx || sy || sz) = true → initializeRpcFanoutFilter atof
      ("same_".toList ++ (if sx then ['x'] else []) ++ (if sy then ['y'] else []) ++
        (if sz then ['z'] else [])) = .ok { filter := .grid sx sy sz }) ∧
    (∀ a, initializeRpcFanoutFilter atof ("ring_".toList ++ [axisLetter a])
      = .ok { filter := .ring a }) ∧
    (∀ a, initializeRpcFanoutFilter atof ("alternating_ring_".toList ++ [axisLetter a])
      = .ok { filter := .alternatingRing a }) := by
  have key : ∀ (t : Str) (f : Filter), findFilter plainFilters t = some f →
      initializeRpcFanoutFilter atof t = .ok { filter := f } := by
    intro t f h
    unfold initializeRpcFanoutFilter
    rw [h]
  refine ⟨?_, ?_, ?_, ?_, ?_, ?_⟩
  · intro t ht; apply key; revert t; decide
  · intro t ht; apply key; revert t; decide
  · apply key; decide
  · intro sx sy sz h; apply key; revert sx sy sz; decide
  · intro a; apply key; cases a <;> decide
  · intro a; apply key; cases a <;> decide

theorem scanInt_shown {n : Int} (hn : InI32 n) {rest : Str}
    (hrest : ∀ c ∈ rest.head?, isCDigit c = false) : scanInt (showInt n ++ rest) = .value n rest := by
  by_cases h0 : 0 ≤ n
  · exact scanInt_show h0 hn hrest
  · have hd := digits_isDigit n.natAbs
    have htw := takeWhile_all_append (a := digits n.natAbs) (b := rest) hd hrest
    unfold showInt
    rw [if_pos (by omega), List.cons_append]
    unfold scanInt
    have hsp : isCSpace '-' = false := by decide
    simp only [List.dropWhile_cons, hsp, Bool.false_eq_true, ↓reduceIte, true_or, decide_true]
    rw [htw.1, htw.2, if_neg (digits_ne_nil _), digitsValue_digits]
    have e : -((n.natAbs : Nat) : Int) = n := by omega
    rw [e, if_pos hn]

theorem no_nul_of_digits {l : Str} (h : ∀ c ∈ l, isCDigit c = true) : ∀ c ∈ l, c ≠ Char.ofNat 0 :=
  fun c hc => (isCDigit_facts (h c hc)).2.2.2.2

/-- The distance of a linear filter is the number written between the braces. -/
theorem C66_linear_distance (atof : Str → Option Rat) (a : Axis) (n : Int) (hn : InI32 n) :
    initializeRpcFanoutFilter atof
      ("linear_".toList ++ axisLetter a :: '{' :: (showInt n ++ ['}']))
      = .ok { filter := .linear a, distance := n } := by
  have hnul : ∀ c ∈ ('{' :: (showInt n ++ ['}']) : Str), c ≠ Char.ofNat 0 := by
    intro c hc
    rw [List.mem_cons, List.mem_append, List.mem_singleton] at hc
    rcases hc with rfl | hc | rfl
    · decide
    · unfold showInt at hc
      split at hc
      · rcases List.mem_cons.1 hc with rfl | hc
        · decide
        · exact no_nul_of_digits (digits_isDigit _) c hc
      · exact no_nul_of_digits (digits_isDigit _) c hc
    · decide
  have htake : ('{' :: (showInt n ++ ['}']) : Str).takeWhile (· ≠ Char.ofNat 0)
      = '{' :: (showInt n ++ ['}']) := by
    have h := (takeWhile_all_append (p := fun c => decide (c ≠ Char.ofNat 0))
      (a := '{' :: (showInt n ++ ['}'])) (b := []) (by simpa using hnul) (by simp)).1
    rwa [List.append_nil] at h
  have hdist : parseDistance ('{' :: (showInt n ++ ['}'])) = .ok n := by
    unfold parseDistance
    rw [htake]
    simp only
    rw [scanInt_shown hn (by intro c hc; simp at hc; subst hc; decide)]
  have hplain : findFilter plainFilters
      ("linear_".toList ++ axisLetter a :: '{' :: (showInt n ++ ['}'])) = none := by
    have hne : ∀ e ∈ plainFilters, '{' ∉ e.1 := by decide
    have key : ∀ (l : List (Str × Filter)) (name : Str), (∀ e ∈ l, e.1 ≠ name) →
        findFilter l name = none := by
      intro l
      induction l with
      | nil => intro name _; rfl
      | cons e l ih =>
        intro name h
        rw [findFilter, if_neg (h e (by simp)), ih name (fun x hx => h x (by simp [hx]))]
    apply key
    intro e he h
    apply hne e he
    rw [h]
    simp
  have hsplit := takeWhile_all_append (p := fun c => decide (c ≠ '{'))
    (a := "linear_".toList ++ [axisLetter a]) (b := '{' :: (showInt n ++ ['}']))
    (by cases a <;> decide) (by intro c hc; simp at hc; subst hc; decide)
  rw [List.append_assoc, List.singleton_append] at hsplit
  unfold initializeRpcFanoutFilter
  rw [hplain]
  simp only
  rw [if_pos (by simp), hsplit.1, hsplit.2, hdist]
  cases a <;> rfl

/-! ### C67 malformed distances -/

/-- A distance that starts with something that is not a number is rejected.  Missing from the full
property ("every malformed distance is rejected"): see `C67_missing_distance_accepted`. -/
theorem C67_bad_distance_rejected_partial (d : Char) (rest : Str) (h1 : isCSpace d = false)
    (h2 : isCDigit d = false) (h3 : d ≠ '-') (h4 : d ≠ '+') (h5 : d ≠ Char.ofNat 0) :
    ∃ m, parseDistance ('{' :: d :: rest) = .error m := by
  unfold parseDistance
  have e1 : ('{' :: d :: rest).takeWhile (· ≠ Char.ofNat 0)
      = '{' :: d :: rest.takeWhile (· ≠ Char.ofNat 0) := by
    rw [List.takeWhile_cons, if_pos (by decide), List.takeWhile_cons, if_pos (by simp [h5])]
  rw [e1]
  simp only
  unfold scanInt
  rw [List.dropWhile_cons, if_neg (by simp [h1])]
  simp only
  have hs : ¬ (d = '-' ∨ d = '+') := by simp [h3, h4]
  have ht : ∀ r : Str, (d :: r).takeWhile isCDigit = [] := by
    intro r
    rw [List.takeWhile_cons, h2]
    rfl
  simp only [hs, ↓reduceIte, ht]
  exact ⟨_, rfl⟩

/-- A linear filter whose parameter stops after the brace is accepted with distance 0, and text after
the number is ignored. -/
theorem C67_missing_distance_accepted (atof : Str → Option Rat) :
    initializeRpcFanoutFilter atof "linear_x{".toList = .ok { filter := .linear .x, distance := 0 } ∧
    initializeRpcFanoutFilter atof "linear_x{3 apples".toList
      = .ok { filter := .linear .x, distance := 3 } := by
  constructor <;> rfl

example : ∃ m, parseDistance "{z}".toList = .error m :=
  C67_bad_distance_rejected_partial 'z' ['}'] (by decide) (by decide) (by decide) (by decide) (by decide)

/-! ### Concrete cases for the theorems above -/

/-- Sender 4 of a 3x2 grid, at (1, 1). -/
theorem in32 : InGrid grid32 ⟨1, 1, 0⟩ := by unfold InGrid; decide

example := C27_same_coordinates (sampleCtx (.grid true false false) grid32 true 4 ⟨1, 1, 0⟩) (sampleValid4 _)
  true false false rfl in32
example : pickRpcFanoutTargets (sampleCtx (.grid true false false) grid32 true 4 ⟨1, 1, 0⟩) = some [1] := by
  decide +kernel
example := C21_all_once (sampleCtx (.grid false false false) grid32 true 4 ⟨1, 1, 0⟩) (sampleValid4 _) rfl
example : countersRead 5 ((List.range 3).flatMap (fun _ => [.choose, .count])) = [5, 6, 7] :=
  C64_sequential_partial 5 3
example : countersRead 5 ((List.range 3).flatMap (fun _ => [.choose, .count])) = [5, 6, 7] :=
  C22_sequential 5 3
example : countersRead 5 [.choose, .choose, .count, .count] = [5, 5] := C64_overlapping_iterations_collide 5
example := (C25_alternating_target (sampleCtx (.alternatingRing .x) grid32 true 4 ⟨1, 1, 0⟩) (sampleValid4 _) .x
  rfl rfl (by unfold ModerateSize; decide) (by decide)).2 (by unfold OddRow; decide)
example : Nat.repeat (ringNext .x grid32) 3 ⟨1, 1, 0⟩ = ⟨1, 1, 0⟩ := (C25_cycle grid32 _ in32 .x 3).2 (by decide)
example := C25_unique_sender (sampleCtx (.ring .x) grid32 true 4 ⟨1, 1, 0⟩) (sampleValid4 _) .x rfl rfl
  (by unfold ModerateSize; decide) (by decide) 5 (by decide) (by decide)
/-- A linear filter whose target exists. -/
def linearCtx : Ctx :=
  { sampleCtx (.linear .x) grid32 true 4 ⟨1, 1, 0⟩ with parsed := { filter := .linear .x, distance := 1 } }
theorem linear_valid : Valid linearCtx :=
  { accepted := (sampleValid4 (.linear .x)).accepted, count := rfl, some_server := by decide,
    self_in := (sampleValid4 (.linear .x)).self_in, grid := by decide, counter := by decide,
    draw := (sampleValid4 (.linear .x)).draw, shuffle := (sampleValid4 (.linear .x)).shuffle }
example := C26_linear_target linearCtx linear_valid .x rfl (by decide)
example : pickRpcFanoutTargets linearCtx = some [5] := by decide +kernel
/-- A stochastic filter: with probability 1/2 one target, otherwise three. -/
def stochasticCtx : Ctx :=
  { sampleCtx .stochastic grid32 false 4 ⟨1, 1, 0⟩ with
    parsed := { filter := .stochastic, dist := [⟨1/2, 1⟩, ⟨1/2, 3⟩] }, uniform := 3/4 }
theorem stochastic_valid : Valid stochasticCtx :=
  { accepted := (sampleValid4 .stochastic).accepted, count := rfl, some_server := by decide,
    self_in := (by intro h; cases h), grid := by decide, counter := by decide,
    draw := (sampleValid4 .stochastic).draw, shuffle := (sampleValid4 .stochastic).shuffle }
example := C24_stochastic_count_partial stochasticCtx stochastic_valid rfl rfl 3
  (.later _ _ _ _ _ (by decide +kernel) (.here _ _ _ _ (by decide +kernel)))
example := C24_all_to_instance_zero stochasticCtx stochastic_valid rfl [0, 0, 0] (by decide +kernel)
/-- A way to read `0.5`, enough for the text below. -/
def halfAtof (t : Str) : Option Rat := if t = "0.5".toList then some (1/2) else none
example : ∃ p, initializeRpcFanoutFilter halfAtof "stochastic{0.5:1,0.5:3}".toList = .ok p ∧ p.filter = .stochastic ∧
    p.dist = [⟨1/2, 1⟩, ⟨1/2, 3⟩] := ⟨{ filter := .stochastic, dist := [⟨1/2, 1⟩, ⟨1/2, 3⟩] }, by decide +kernel, rfl, rfl⟩
example := C66_stochastic_wellformed halfAtof "stochastic{0.5:1,0.5:3}".toList
  { filter := .stochastic, dist := [⟨1/2, 1⟩, ⟨1/2, 3⟩] } (by decide +kernel) rfl
example := C66_unknown_rejected halfAtof "same_w".toList (by decide +kernel) (by decide +kernel)
example : initializeRpcFanoutFilter halfAtof "linear_y{-12}".toList = .ok { filter := .linear .y, distance := -12 } := by
  have h := C66_linear_distance halfAtof .y (-12) (by decide)
  have e : showInt (-12) = "-12".toList := by decide +kernel
  rw [e] at h
  exact h
example := C66_plain_names halfAtof

end Distbench
