import Verif.Spec.Collect

/-! Properties of collecting results. -/

namespace Distbench.Collect
open Distbench.Spec

theorem run_append {p : Nat} {s : State} {a b : List Op} :
    run p s (a ++ b) = match run p s a with
      | some (.ok s') => run p s' b
      | x => x := by
  induction a generalizing s with
  | nil => simp [run]
  | cons op rest ih =>
    simp only [List.cons_append, run]
    cases h : step p s op with
    | none => rfl
    | some o => cases o <;> simp only [ih]

theorem run_split {p : Nat} {s s' : State} {a b : List Op} (h : run p s (a ++ b) = some (.ok s')) :
    ∃ m, run p s a = some (.ok m) ∧ run p m b = some (.ok s') := by
  rw [run_append] at h
  split at h
  · rename_i m hm; exact ⟨m, hm, h⟩
  · rename_i hx; exact absurd h (hx s')

theorem run_cons {p : Nat} {s s' : State} {op : Op} {b : List Op} (h : run p s (op :: b) = some (.ok s')) :
    ∃ m, step p s op = some (.ok m) ∧ run p m b = some (.ok s') := by
  simp only [run] at h
  split at h
  · cases h
  · rename_i m hm; exact ⟨m, hm, h⟩
  all_goals cases h

theorem ended_append (a b : List Op) : rpcsEnded (a ++ b) = rpcsEnded a ++ rpcsEnded b := by
  induction a with
  | nil => rfl
  | cons op rest ih => cases op <;> simp [rpcsEnded, ih]

theorem started_append (a b : List Op) : listsStarted (a ++ b) = listsStarted a ++ listsStarted b := by
  induction a with
  | nil => rfl
  | cons op rest ih => cases op <;> simp [listsStarted, ih]

/-- What a run has recorded and not moved. -/
def pend (s : State) (l : Nat) : List Entry := (s.runs[l]?).elim [] (·.pending)

/-- The run is over. -/
def Over (s : State) (l : Nat) : Prop := ∃ r, s.runs[l]? = some r ∧ r.ended = true

theorem pend_set {s : State} {l k : Nat} {r r' : Run} (h : s.runs[l]? = some r) :
    pend (setRun s l r') k = if k = l then r'.pending else pend s k := by
  unfold pend setRun
  obtain ⟨hl, _⟩ := List.getElem?_eq_some_iff.1 h
  simp only [List.getElem?_set]
  by_cases hk : l = k
  · subst hk; simp [hl]
  · rw [if_neg hk, if_neg (fun h => hk h.symm)]

/-- What holds of every state. -/
structure Inv (p : Nat) (ops : List Op) (s : State) : Prop where
  own : ∀ l, ∀ e ∈ pend s l, e.list = l
  sum : ∀ e, s.merged.count e + (pend s e.list).count e = (rpcsEnded ops).count e
  low : ∀ e ∈ rpcsEnded ops, e.peer < p
  over : ∀ l, Over s l → pend s l = []
  done : ∀ l, Over s l ↔ .finish l ∈ ops
  acts : s.runs.map (·.activities) = listsStarted ops

theorem inv_init (p : Nat) : Inv p [] {} := by
  refine ⟨?_, ?_, ?_, ?_, ?_, rfl⟩
  · intro l e he; simp [pend] at he
  · intro e; simp [pend, rpcsEnded]
  · intro e he; simp [rpcsEnded] at he
  · intro l _; rfl
  · intro l
    refine ⟨?_, fun h => by cases h⟩
    rintro ⟨r, hr, _⟩; simp at hr

theorem over_set {s : State} {l k : Nat} {r r' : Run} (h : s.runs[l]? = some r) :
    Over (setRun s l r') k ↔ if k = l then r'.ended = true else Over s k := by
  unfold Over setRun
  obtain ⟨hl, _⟩ := List.getElem?_eq_some_iff.1 h
  simp only [List.getElem?_set]
  by_cases hk : l = k
  · subst hk; simp [hl]
  · rw [if_neg hk, if_neg (fun h => hk h.symm)]

theorem over_self {s : State} {l : Nat} {r : Run} (h : s.runs[l]? = some r) : Over s l ↔ r.ended = true := by
  unfold Over
  rw [h]
  simp

theorem acts_set {s : State} {l : Nat} {r r' : Run} (h : s.runs[l]? = some r) (ha : r'.activities = r.activities) :
    (setRun s l r').runs.map (·.activities) = s.runs.map (·.activities) := by
  unfold setRun
  obtain ⟨hl, hr⟩ := List.getElem?_eq_some_iff.1 h
  apply List.ext_getElem?
  intro k
  simp only [List.getElem?_map, List.getElem?_set]
  by_cases hk : l = k
  · subst hk; simp [hl, ha, hr]
  · rw [if_neg hk]

theorem count_split {l : List Entry} {q : Entry → Bool} {e : Entry} :
    (l.filter q).count e + (l.filter (fun x => !q x)).count e = l.count e := by
  induction l with
  | nil => rfl
  | cons x rest ih =>
    by_cases h : q x = true <;> simp only [List.filter_cons, h, Bool.not_true, Bool.not_false, if_true, if_false,
      Bool.false_eq_true, List.count_cons] <;> omega

theorem inv_step {p : Nat} {ops : List Op} {s s' : State} {op : Op} (hi : Inv p ops s)
    (h : step p s op = some (.ok s')) : Inv p (ops ++ [op]) s' := by
  obtain ⟨hown, hsum, hlow, hover, hdone, hacts⟩ := hi
  have same : ∀ {t : State} {o : Op}, t.runs = s.runs → t.merged = s.merged → rpcsEnded [o] = [] → listsStarted [o] = [] →
      (∀ l, Op.finish l ≠ o) → Inv p (ops ++ [o]) t := by
    intro t o h1 h2 h3 h4 h5
    have hp : ∀ l, pend t l = pend s l := fun l => by unfold pend; rw [h1]
    have ho : ∀ l, Over t l ↔ Over s l := fun l => by unfold Over; rw [h1]
    refine ⟨?_, ?_, ?_, ?_, ?_, ?_⟩
    · intro l; rw [hp]; exact hown l
    · intro e; rw [hp, h2, ended_append, h3, List.append_nil]; exact hsum e
    · rw [ended_append, h3, List.append_nil]; exact hlow
    · intro l hl; rw [hp]; exact hover l ((ho l).1 hl)
    · intro l; rw [ho, hdone]; simp [h5 l]
    · rw [h1, started_append, h4, List.append_nil]; exact hacts
  cases op with
  | start main activities =>
    simp only [step] at h
    cases h
    have hp : ∀ l, pend { s with runs := s.runs ++ [{ main := main, activities := activities }] } l = pend s l := by
      intro l
      unfold pend
      simp only [List.getElem?_append]
      split
      · rfl
      · rename_i hl
        have hnone : s.runs[l]? = none := List.getElem?_eq_none (by omega)
        rw [hnone]
        generalize l - s.runs.length = d
        cases d <;> simp
    have ho : ∀ l, Over { s with runs := s.runs ++ [{ main := main, activities := activities }] } l ↔ Over s l := by
      intro l
      unfold Over
      simp only [List.getElem?_append]
      split
      · rfl
      · rename_i hl
        have hnone : s.runs[l]? = none := List.getElem?_eq_none (by omega)
        rw [hnone]
        generalize l - s.runs.length = d
        cases d <;> simp
    refine ⟨?_, ?_, ?_, ?_, ?_, ?_⟩
    · intro l; rw [hp]; exact hown l
    · intro e; rw [hp, ended_append]; simp only [rpcsEnded, List.append_nil]; exact hsum e
    · rw [ended_append]; simp only [rpcsEnded, List.append_nil]; exact hlow
    · intro l hl; rw [hp]; exact hover l ((ho l).1 hl)
    · intro l; rw [ho, hdone]; simp
    · rw [started_append]; simp [hacts, listsStarted]
  | complete l peer sample server =>
    simp only [step] at h
    split at h
    · cases h
    · rename_i r hr
      split at h
      · cases h
      · rename_i hg
        cases h
        have hpl : peer < p := Classical.byContradiction fun hc => hg (Or.inr (Or.inr (Or.inl hc)))
        have hne : r.ended ≠ true := fun hc => hg (Or.inr (Or.inl hc))
        have hpr : pend s l = r.pending := by unfold pend; rw [hr]; rfl
        refine ⟨?_, ?_, ?_, ?_, ?_, ?_⟩
        · intro k e he
          rw [pend_set hr] at he
          split at he
          · rename_i hk
            subst hk
            rcases List.mem_append.1 he with he | he
            · exact hown k e (by rw [hpr]; exact he)
            · rw [List.mem_singleton.1 he]
          · exact hown k e he
        · intro e
          rw [pend_set hr, ended_append, List.count_append, ← hsum e]
          show s.merged.count e + _ = _
          by_cases hk : e.list = l
          · rw [if_pos hk, hk, hpr, List.count_append]; simp only [rpcsEnded]; omega
          · rw [if_neg hk]
            have : (rpcsEnded [Op.complete l peer sample server]).count e = 0 := by
              apply List.count_eq_zero.2
              simp only [rpcsEnded, List.mem_singleton]
              rintro rfl; exact hk rfl
            omega
        · intro e he
          rw [ended_append] at he
          rcases List.mem_append.1 he with he | he
          · exact hlow e he
          · simp only [rpcsEnded, List.mem_singleton] at he; subst he; exact hpl
        · intro k hk
          rw [over_set hr] at hk
          split at hk
          · exact absurd hk hne
          · rename_i hkl; rw [pend_set hr, if_neg hkl]; exact hover k hk
        · intro k
          rw [over_set hr]
          split
          · rename_i hk; subst hk
            simp only [List.mem_append, List.mem_singleton, reduceCtorEq, or_false]
            rw [← hdone, over_self hr]
          · rw [hdone]; simp
        · rw [acts_set hr (by rfl), started_append]; simp [listsStarted, hacts]
  | respond l =>
    simp only [step] at h
    split at h
    · cases h
    · rename_i r hr
      split at h
      · cases h
      · cases h
        have hpr : pend s l = r.pending := by unfold pend; rw [hr]; rfl
        have hp : ∀ k, pend (setRun s l { r with responded := true }) k = pend s k := by
          intro k; rw [pend_set hr]; split
          · rename_i hk; rw [hk, hpr]
          · rfl
        have ho : ∀ k, Over (setRun s l { r with responded := true }) k ↔ Over s k := by
          intro k; rw [over_set hr]; split
          · rename_i hk; rw [hk, over_self hr]
          · rfl
        refine ⟨?_, ?_, ?_, ?_, ?_, ?_⟩
        · intro k; rw [hp]; exact hown k
        · intro e; rw [hp, ended_append]; simp only [rpcsEnded, List.append_nil]; exact hsum e
        · rw [ended_append]; simp only [rpcsEnded, List.append_nil]; exact hlow
        · intro k hk; rw [hp]; exact hover k ((ho k).1 hk)
        · intro k; rw [ho, hdone]; simp
        · rw [acts_set hr (by rfl), started_append]; simp [listsStarted, hacts]
  | merge l peer =>
    simp only [step] at h
    split at h
    · cases h
    · rename_i r hr
      split at h
      · cases h
      · rename_i hg
        cases h
        have hne : r.ended ≠ true := fun hc => hg (Or.inl hc)
        have hpr : pend s l = r.pending := by unfold pend; rw [hr]; rfl
        have hp : ∀ k, pend { setRun s l { r with pending := r.pending.filter (fun e => e.peer ≠ peer), merging := true } with
            merged := s.merged ++ r.pending.filter (fun e => e.peer = peer) } k =
            if k = l then r.pending.filter (fun e => e.peer ≠ peer) else pend s k := fun k => pend_set hr
        have ho : ∀ k, Over { setRun s l { r with pending := r.pending.filter (fun e => e.peer ≠ peer), merging := true } with
            merged := s.merged ++ r.pending.filter (fun e => e.peer = peer) } k ↔ if k = l then r.ended = true else Over s k :=
          fun k => over_set hr
        refine ⟨?_, ?_, ?_, ?_, ?_, ?_⟩
        · intro k e he
          rw [hp] at he
          split at he
          · rename_i hk; subst hk
            exact hown k e (by rw [hpr]; exact (List.mem_filter.1 he).1)
          · exact hown k e he
        · intro e
          rw [hp, ended_append]
          simp only [rpcsEnded, List.append_nil, List.count_append]
          rw [← hsum e]
          by_cases hk : e.list = l
          · rw [if_pos hk, hk, hpr]
            have := count_split (l := r.pending) (q := fun x => decide (x.peer = peer)) (e := e)
            simp only [ne_eq, decide_not] at this ⊢
            omega
          · rw [if_neg hk]
            have : (r.pending.filter (fun e => e.peer = peer)).count e = 0 := by
              apply List.count_eq_zero.2
              intro hm
              exact hk (hown l e (by rw [hpr]; exact (List.mem_filter.1 hm).1))
            omega
        · rw [ended_append]; simp only [rpcsEnded, List.append_nil]; exact hlow
        · intro k hk
          rw [ho] at hk
          split at hk
          · exact absurd hk hne
          · rename_i hkl; rw [hp, if_neg hkl]; exact hover k hk
        · intro k
          rw [ho]
          split
          · rename_i hk; subst hk
            simp only [List.mem_append, List.mem_singleton, reduceCtorEq, or_false]
            rw [← hdone, over_self hr]
          · rw [hdone]; simp
        · rw [started_append]
          simp only [listsStarted, List.append_nil]
          rw [← hacts]
          exact acts_set hr (by rfl)
  | finish l =>
    simp only [step] at h
    split at h
    · cases h
    · rename_i r hr
      split at h
      · cases h
      · rename_i hg
        have hpe : r.pending = [] := Classical.byContradiction fun hc => hg (Or.inr (Or.inr hc))
        have hpr : pend s l = r.pending := by unfold pend; rw [hr]; rfl
        have key : s' = setRun s l { r with ended := true } := by
          split at h
          · split at h
            · cases h
            · cases h; rfl
          · cases h; rfl
        subst key
        have hp : ∀ k, pend (setRun s l { r with ended := true }) k = pend s k := by
          intro k; rw [pend_set hr]; split
          · rename_i hk; rw [hk, hpr]
          · rfl
        refine ⟨?_, ?_, ?_, ?_, ?_, ?_⟩
        · intro k; rw [hp]; exact hown k
        · intro e; rw [hp, ended_append]; simp only [rpcsEnded, List.append_nil]; exact hsum e
        · rw [ended_append]; simp only [rpcsEnded, List.append_nil]; exact hlow
        · intro k hk
          rw [hp]
          rw [over_set hr] at hk
          split at hk
          · rename_i hkl; rw [hkl, hpr, hpe]
          · exact hover k hk
        · intro k
          rw [over_set hr]
          by_cases hk : k = l
          · subst hk; simp
          · rw [if_neg hk, hdone]; simp [hk]
        · rw [acts_set hr (by rfl), started_append]; simp [listsStarted, hacts]
  | beginCollect =>
    simp only [step] at h
    split at h
    · cases h; exact same rfl rfl rfl rfl (fun _ hc => by cases hc)
    · cases h
  | readPeer =>
    simp only [step] at h
    split at h
    · split at h
      · cases h; exact same rfl rfl rfl rfl (fun _ hc => by cases hc)
      · cases h
    · cases h
  | readActivities =>
    simp only [step] at h
    split at h
    · split at h
      · cases h; exact same rfl rfl rfl rfl (fun _ hc => by cases hc)
      · cases h
    · cases h
  | endCollect =>
    simp only [step] at h
    split at h
    · cases h; exact same rfl rfl rfl rfl (fun _ hc => by cases hc)
    · cases h

theorem inv_run {p : Nat} {more : List Op} : ∀ {ops : List Op} {s s' : State}, Inv p ops s →
    run p s more = some (.ok s') → Inv p (ops ++ more) s' := by
  induction more with
  | nil => intro ops s s' hi h; simp only [run] at h; cases h; simpa using hi
  | cons op rest ih =>
    intro ops s s' hi h
    obtain ⟨m, h1, h2⟩ := run_cons h
    have := ih (inv_step hi h1) h2
    simpa using this

/-- What is known of a collection under way that began in state `s0`. -/
structure Mid (p : Nat) (s0 s : State) : Prop where
  mono : ∀ e, s0.merged.count e ≤ s.merged.count e
  still : ∀ l, Over s0 l → Over s l
  fixed : ∀ e, Over s0 e.list → s.merged.count e = s0.merged.count e
  read : ∀ next found, s.reader = .peers next found → ∀ e,
    (e.peer < next → found.count e ≤ s.merged.count e ∧ (Over s0 e.list → found.count e = s0.merged.count e)) ∧
    (¬ e.peer < next → found.count e = 0)
  last : ∀ found, s.reader = .activities found → ∀ e,
    found.count e ≤ s.merged.count e ∧ (e.peer < p → Over s0 e.list → found.count e = s0.merged.count e)
  busy : s.reader ≠ .idle

theorem count_filter_peer {l : List Entry} {k : Nat} {e : Entry} :
    (l.filter (fun x => x.peer = k)).count e = if e.peer = k then l.count e else 0 := by
  split
  · rename_i h; exact List.count_filter (by simpa using h)
  · rename_i h
    apply List.count_eq_zero.2
    intro hm
    exact h (by simpa using (List.mem_filter.1 hm).2)

theorem mid_step {p : Nat} {ops : List Op} {s0 s s' : State} {op : Op} (hi : Inv p ops s) (hm : Mid p s0 s)
    (hne : op ≠ .endCollect) (h : step p s op = some (.ok s')) : Mid p s0 s' := by
  obtain ⟨hmono, hstill, hfixed, hread, hlast, hbusy⟩ := hm
  have same : ∀ {t : State}, t.merged = s.merged → t.reader = s.reader → (∀ l, Over s l → Over t l) → Mid p s0 t := by
    intro t h1 h2 h3
    refine ⟨by rw [h1]; exact hmono, fun l hl => h3 l (hstill l hl), by rw [h1]; exact hfixed, ?_, ?_, by rw [h2]; exact hbusy⟩
    · rw [h1, h2]; exact hread
    · rw [h1, h2]; exact hlast
  cases op with
  | start main activities =>
    simp only [step] at h
    cases h
    refine same rfl rfl ?_
    rintro l ⟨r, hr, he⟩
    refine ⟨r, ?_, he⟩
    obtain ⟨hl, _⟩ := List.getElem?_eq_some_iff.1 hr
    show (s.runs ++ _)[l]? = _
    rw [List.getElem?_append_left hl]; exact hr
  | complete l peer sample server =>
    simp only [step] at h
    split at h
    · cases h
    · rename_i r hr
      split at h
      · cases h
      · cases h
        refine same rfl rfl ?_
        intro k hk
        rw [over_set hr]
        split
        · rename_i hkl; subst hkl; exact (over_self hr).1 hk
        · exact hk
  | respond l =>
    simp only [step] at h
    split at h
    · cases h
    · rename_i r hr
      split at h
      · cases h
      · cases h
        refine same rfl rfl ?_
        intro k hk
        rw [over_set hr]
        split
        · rename_i hkl; subst hkl; exact (over_self hr).1 hk
        · exact hk
  | finish l =>
    simp only [step] at h
    split at h
    · cases h
    · rename_i r hr
      split at h
      · cases h
      · have key : s' = setRun s l { r with ended := true } := by
          split at h
          · split at h
            · cases h
            · cases h; rfl
          · cases h; rfl
        subst key
        refine same rfl rfl ?_
        intro k hk
        rw [over_set hr]
        split
        · rfl
        · exact hk
  | merge l peer =>
    simp only [step] at h
    split at h
    · cases h
    · rename_i r hr
      split at h
      · cases h
      · rename_i hg
        cases h
        have hne : r.ended ≠ true := fun hc => hg (Or.inl hc)
        have hpr : pend s l = r.pending := by unfold pend; rw [hr]; rfl
        have hz : ∀ e, Over s0 e.list → (r.pending.filter (fun x => x.peer = peer)).count e = 0 := by
          intro e he
          apply List.count_eq_zero.2
          intro hm
          have : e.list = l := hi.own l e (by rw [hpr]; exact (List.mem_filter.1 hm).1)
          rw [this] at he
          exact hne ((over_self hr).1 (hstill l he))
        refine ⟨?_, ?_, ?_, ?_, ?_, hbusy⟩
        · intro e; have := hmono e; simp only [List.count_append]; omega
        · intro k hk
          have hk := hstill k hk
          show Over (setRun s l _) k
          rw [over_set hr]
          split
          · rename_i hkl; subst hkl; exact (over_self hr).1 hk
          · exact hk
        · intro e he
          simp only [List.count_append, hz e he]
          exact hfixed e he
        · intro next found hf e
          obtain ⟨h1, h2⟩ := hread next found hf e
          refine ⟨fun hp => ?_, h2⟩
          have := (h1 hp).1
          simp only [List.count_append]
          exact ⟨by omega, (h1 hp).2⟩
        · intro found hf e
          obtain ⟨h1, h2⟩ := hlast found hf e
          simp only [List.count_append]
          exact ⟨by omega, h2⟩
  | beginCollect =>
    simp only [step] at h
    split at h
    · rename_i hc; exact absurd hc.1 hbusy
    · cases h
  | readPeer =>
    simp only [step] at h
    split at h
    · rename_i next found hf
      split at h
      · cases h
        refine ⟨hmono, hstill, hfixed, ?_, ?_, by intro hc; cases hc⟩
        · intro next' found' hf' e
          cases hf'
          simp only [List.count_append, count_filter_peer]
          obtain ⟨h1, h2⟩ := hread next found hf e
          refine ⟨fun hp => ?_, fun hp => ?_⟩
          · by_cases hpe : e.peer = next
            · rw [if_pos hpe, h2 (by omega)]
              exact ⟨by omega, fun ho => by rw [hfixed e ho]; omega⟩
            · rw [if_neg hpe, Nat.add_zero]
              exact h1 (by omega)
          · rw [if_neg (by omega), Nat.add_zero]
            exact h2 (by omega)
        · intro found' hf'; cases hf'
      · cases h
    · cases h
  | readActivities =>
    simp only [step] at h
    split at h
    · rename_i next found hf
      split at h
      · rename_i hn
        cases h
        refine ⟨hmono, hstill, hfixed, ?_, ?_, by intro hc; cases hc⟩
        · intro next' found' hf'; cases hf'
        · intro found' hf' e
          cases hf'
          obtain ⟨h1, h2⟩ := hread next found hf e
          by_cases hp : e.peer < next
          · exact ⟨(h1 hp).1, fun _ => (h1 hp).2⟩
          · exact ⟨by rw [h2 hp]; omega, fun hc => absurd (hn ▸ hc) hp⟩
      · cases h
    · cases h
  | endCollect => exact absurd rfl hne

theorem mid_run {p : Nat} {s0 : State} {more : List Op} : ∀ {ops : List Op} {s s' : State}, Inv p ops s → Mid p s0 s →
    .endCollect ∉ more → run p s more = some (.ok s') → Mid p s0 s' := by
  induction more with
  | nil => intro ops s s' _ hm _ h; simp only [run] at h; cases h; exact hm
  | cons op rest ih =>
    intro ops s s' hi hm hn h
    obtain ⟨m, h1, h2⟩ := run_cons h
    exact ih (inv_step hi h1) (mid_step hi hm (fun hc => hn (by simp [hc])) h1) (fun hc => hn (by simp [hc])) h2

theorem collected {p : Nat} {before meanwhile : List Op} {s : State} (hn : .endCollect ∉ meanwhile)
    (h : run p {} (collecting before meanwhile) = some (.ok s)) :
    ∃ r rest s0 s1, s.results = r :: rest ∧ Inv p before s0 ∧ Inv p (before ++ .beginCollect :: meanwhile) s1 ∧
      ∀ e, r.count e ≤ s1.merged.count e ∧ (e.peer < p → Over s0 e.list → r.count e = s0.merged.count e) := by
  unfold collecting at h
  rw [List.append_assoc] at h
  obtain ⟨s0, h0, h⟩ := run_split h
  obtain ⟨sb, hb, h⟩ := run_cons (by simpa using h)
  obtain ⟨s1, h1, h⟩ := run_split h
  obtain ⟨s2, h2, h⟩ := run_cons h
  simp only [run] at h
  cases h
  have i0 : Inv p before s0 := by simpa using inv_run (inv_init p) h0
  have ib := inv_step i0 hb
  have i1 := inv_run ib h1
  have hbs : sb = { s0 with reader := .peers 0 [] } := by
    simp only [step] at hb
    split at hb
    · cases hb; rfl
    · cases hb
  subst hbs
  have m1 := mid_run (s0 := s0) ib ⟨fun _ => Nat.le_refl _, fun _ h => h, fun _ _ => rfl,
    (fun next found hf e => by cases hf; simp), (fun found hf => by cases hf), by intro hc; cases hc⟩ hn h1
  simp only [step] at h2
  split at h2
  · rename_i found hf
    cases h2
    exact ⟨found, _, s0, s1, rfl, i0, by simpa using i1, m1.last found hf⟩
  · cases h2

/-! ### C174: all RPCs that have ended are in the results -/

/-- The full property: results that are collected have every RPC that ended before. -/
def HasAll : Prop :=
  ∀ (peers : Nat) (before meanwhile : List Op) (s : State), .endCollect ∉ meanwhile →
    run peers {} (collecting before meanwhile) = some (.ok s) →
    ∃ r rest, s.results = r :: rest ∧ ∀ e, (rpcsEnded before).count e ≤ r.count e

/-- A client sends one RPC, to a service that answers it after an RPC of its own to a third.  All
RPCs have ended, but the service has not moved its sample yet. -/
theorem C174_negation : ¬ HasAll := by
  intro h
  obtain ⟨r, rest, hr, hc⟩ := h 2
    [.start true false, .start false false, .complete 1 1 200 none, .respond 1, .complete 0 0 100 (some 1),
      .merge 0 0, .finish 0]
    [.readPeer, .readPeer, .readActivities] _ (by decide) rfl
  have := hc ⟨1, 1, 200⟩
  cases hr
  revert this
  decide

/-- Whenever the results are collected: of the RPCs of the lists that were over before, they have
each exactly as often as it occurred; of the others no RPC more often than it occurred.  Missing:
that the others are there, too. -/
theorem C174_all_partial (peers : Nat) (before meanwhile : List Op) (s : State) (hn : .endCollect ∉ meanwhile)
    (h : run peers {} (collecting before meanwhile) = some (.ok s)) :
    ∃ r rest, s.results = r :: rest ∧
      (∀ e, .finish e.list ∈ before → r.count e = (rpcsEnded before).count e) ∧
      (∀ e, r.count e ≤ (rpcsEnded (before ++ meanwhile)).count e) := by
  obtain ⟨r, rest, s0, s1, hr, i0, i1, hc⟩ := collected hn h
  refine ⟨r, rest, hr, ?_, ?_⟩
  · intro e he
    have ho := (i0.done e.list).2 he
    have hs := i0.sum e
    rw [i0.over _ ho] at hs
    by_cases hp : e.peer < peers
    · rw [(hc e).2 hp ho]; simpa using hs
    · have hz : (rpcsEnded before).count e = 0 := List.count_eq_zero.2 (fun hm => hp (i0.low e hm))
      have hz1 : (rpcsEnded (before ++ .beginCollect :: meanwhile)).count e = 0 :=
        List.count_eq_zero.2 (fun hm => hp (i1.low e hm))
      have := (hc e).1
      have := i1.sum e
      omega
  · intro e
    have := (hc e).1
    have hs := i1.sum e
    rw [ended_append] at hs ⊢
    simp only [rpcsEnded] at hs
    omega

/-- If all lists that were started are over before, the results have exactly the RPCs that ended. -/
theorem C174_quiet_partial (peers : Nat) (before meanwhile : List Op) (s : State) (hn : .endCollect ∉ meanwhile)
    (h : run peers {} (collecting before meanwhile) = some (.ok s))
    (hq : ∀ l < (listsStarted before).length, .finish l ∈ before) :
    ∃ r rest, s.results = r :: rest ∧ ∀ e, e.list < (listsStarted before).length → r.count e = (rpcsEnded before).count e := by
  obtain ⟨r, rest, hr, h1, _⟩ := C174_all_partial peers before meanwhile s hn h
  exact ⟨r, rest, hr, fun e he => h1 e (hq _ he)⟩

example : (run 2 {} (collecting
    [.start true false, .start false false, .complete 1 1 200 none, .respond 1, .complete 0 0 100 (some 1),
      .merge 0 0, .finish 0, .merge 1 1, .finish 1]
    [.readPeer, .readPeer, .readActivities])).map (fun | .ok s => s.results | _ => []) =
    some [[⟨0, 0, 100⟩, ⟨1, 1, 200⟩]] := by decide

/-! ### C175: collecting is defined -/

/-- The full property: nothing that happens while results are collected makes a data race. -/
def NeverRaces : Prop := ∀ (peers : Nat) (ops : List Op), run peers {} ops ≠ some .ub

/-- A service has answered an RPC with an activity in the list that handles it; that list ends while
the results are collected. -/
theorem C175_negation : ¬ NeverRaces := by
  intro h
  exact h 0 [.start true false, .start false true, .respond 1, .finish 0, .beginCollect, .readActivities, .finish 1]
    (by decide)

theorem reader_acts {p : Nat} {ops : List Op} : ∀ {pre : List Op} {s s' : State},
    (∀ found, s.reader = .activities found → ∃ a b, pre = a ++ .readActivities :: b ∧ .endCollect ∉ b) →
    run p s ops = some (.ok s') →
    ∀ found, s'.reader = .activities found → ∃ a b, pre ++ ops = a ++ .readActivities :: b ∧ .endCollect ∉ b := by
  induction ops with
  | nil => intro pre s s' h0 h; simp only [run] at h; cases h; simpa using h0
  | cons op rest ih =>
    intro pre s s' h0 h
    obtain ⟨m, h1, h2⟩ := run_cons h
    have := ih (pre := pre ++ [op]) (s := m) ?_ h2
    · simpa using this
    · intro found hf
      have keep : m.reader = s.reader → op ≠ .endCollect →
          ∃ a b, pre ++ [op] = a ++ .readActivities :: b ∧ .endCollect ∉ b := by
        intro hr hop
        obtain ⟨a, b, hab, hb⟩ := h0 found (by rw [← hr]; exact hf)
        refine ⟨a, b ++ [op], by rw [hab]; simp, ?_⟩
        simp only [List.mem_append, List.mem_singleton, not_or]
        exact ⟨hb, fun hc => hop hc.symm⟩
      cases op with
      | readActivities => exact ⟨pre, [], by simp, by simp⟩
      | beginCollect =>
        simp only [step] at h1
        split at h1
        · cases h1; cases hf
        · cases h1
      | readPeer =>
        simp only [step] at h1
        split at h1
        · split at h1
          · cases h1; cases hf
          · cases h1
        · cases h1
      | endCollect =>
        simp only [step] at h1
        split at h1
        · cases h1; cases hf
        · cases h1
      | start _ _ => simp only [step] at h1; cases h1; exact keep rfl (by intro hc; cases hc)
      | complete _ _ _ _ =>
        simp only [step] at h1
        split at h1
        · cases h1
        · split at h1
          · cases h1
          · cases h1; exact keep rfl (by intro hc; cases hc)
      | respond _ =>
        simp only [step] at h1
        split at h1
        · cases h1
        · split at h1
          · cases h1
          · cases h1; exact keep rfl (by intro hc; cases hc)
      | merge _ _ =>
        simp only [step] at h1
        split at h1
        · cases h1
        · split at h1
          · cases h1
          · cases h1; exact keep rfl (by intro hc; cases hc)
      | finish _ =>
        simp only [step] at h1
        split at h1
        · cases h1
        · split at h1
          · cases h1
          · split at h1
            · split at h1
              · cases h1
              · cases h1; exact keep rfl (by intro hc; cases hc)
            · cases h1; exact keep rfl (by intro hc; cases hc)

theorem ub_split {p : Nat} {ops : List Op} : ∀ {s : State}, run p s ops = some .ub →
    ∃ a op b m, ops = a ++ op :: b ∧ run p s a = some (.ok m) ∧ step p m op = some .ub := by
  induction ops with
  | nil => intro s h; simp [run] at h
  | cons op rest ih =>
    intro s h
    simp only [run] at h
    split at h
    · cases h
    · rename_i m hm
      obtain ⟨a, op', b, m', h1, h2, h3⟩ := ih h
      refine ⟨op :: a, op', b, m', by rw [h1]; rfl, ?_, h3⟩
      simp only [run, hm]; exact h2
    · cases h
    · rename_i hm; exact ⟨[], op, rest, s, rfl, rfl, hm⟩
    · cases h

/-- The only data race: a list with activities ends after the collection began to read the logs of
the activities and before it ended.  Missing: that this does not happen. -/
theorem C175_races_partial (peers : Nat) (ops : List Op) (h : run peers {} ops = some .ub) :
    ∃ a b l rest, ops = a ++ .readActivities :: b ++ .finish l :: rest ∧ .endCollect ∉ b ∧
      (listsStarted (a ++ .readActivities :: b))[l]? = some true := by
  obtain ⟨pre, op, rest, m, h1, h2, h3⟩ := ub_split h
  have hi : Inv peers pre m := by simpa using inv_run (inv_init peers) h2
  have hr := reader_acts (pre := []) (s := {}) (fun found hf => by cases hf) h2
  have key : ∃ l r found, op = .finish l ∧ m.runs[l]? = some r ∧ r.activities = true ∧ m.reader = .activities found := by
    cases op <;> simp only [step] at h3
    case finish l =>
      split at h3
      · cases h3
      · rename_i r hr
        split at h3
        · cases h3
        · split at h3
          · rename_i found hf
            split at h3
            · rename_i ha; exact ⟨l, r, found, rfl, hr, ha, hf⟩
            · cases h3
          · cases h3
    all_goals repeat' split at h3
    all_goals cases h3
  obtain ⟨l, r, found, rfl, hl, ha, hf⟩ := key
  obtain ⟨a, b, hab, hb⟩ := hr found hf
  simp only [List.nil_append] at hab
  refine ⟨a, b, l, rest, by rw [h1, hab], hb, ?_⟩
  rw [← hab, ← hi.acts, List.getElem?_map, hl]
  simp [ha]

/-! ### C293: a collection comes to its end -/

/-- The steps that a collection still has to take. -/
def stepsLeft (p : Nat) : Reader → Nat
  | .idle => 0
  | .peers next _ => p - next + 2
  | .activities _ => 1

/-- A collection does not read beyond the last peer. -/
def InRange (p : Nat) : Reader → Prop
  | .peers next _ => next ≤ p
  | _ => True

theorem step_reader {p : Nat} {s s' : State} {op : Op} (h : step p s op = some (.ok s')) (hi : InRange p s.reader) :
    InRange p s'.reader ∧ (ofCollection op = true → stepsLeft p s'.reader + 1 = stepsLeft p s.reader) ∧
      (ofCollection op = false → op ≠ .beginCollect → s'.reader = s.reader) ∧
      (op = .beginCollect → s'.reader = .peers 0 []) := by
  have same : s'.reader = s.reader → ofCollection op = false → op ≠ .beginCollect →
      InRange p s'.reader ∧ (ofCollection op = true → stepsLeft p s'.reader + 1 = stepsLeft p s.reader) ∧
      (ofCollection op = false → op ≠ .beginCollect → s'.reader = s.reader) ∧
      (op = .beginCollect → s'.reader = .peers 0 []) := by
    intro h1 h2 h3
    exact ⟨by rw [h1]; exact hi, (fun h => by rw [h2] at h; cases h), fun _ _ => h1, fun h => absurd h h3⟩
  cases op with
  | start m a =>
    simp only [step] at h
    cases h
    exact same rfl rfl (by simp)
  | complete l peer sample server =>
    simp only [step] at h
    split at h
    · cases h
    · split at h
      · cases h
      · cases h
        exact same rfl rfl (by simp)
  | respond l =>
    simp only [step] at h
    split at h
    · cases h
    · split at h
      · cases h
      · cases h
        exact same rfl rfl (by simp)
  | merge l peer =>
    simp only [step] at h
    split at h
    · cases h
    · split at h
      · cases h
      · cases h
        exact same rfl rfl (by simp)
  | finish l =>
    simp only [step] at h
    split at h
    · cases h
    · split at h
      · cases h
      · split at h
        · split at h
          · cases h
          · cases h
            exact same rfl rfl (by simp)
        · cases h
          exact same rfl rfl (by simp)
  | beginCollect =>
    simp only [step] at h
    split at h
    · cases h
      exact ⟨Nat.zero_le _, (fun h => by cases h), (fun _ h => absurd rfl h), fun _ => rfl⟩
    · cases h
  | readPeer =>
    simp only [step] at h
    split at h
    · next next found hr =>
      split at h
      · next hn =>
        cases h
        refine ⟨hn, fun _ => ?_, (fun h => by cases h), fun h => by cases h⟩
        rw [hr]
        simp only [stepsLeft]
        omega
      · cases h
    · cases h
  | readActivities =>
    simp only [step] at h
    split at h
    · next next found hr =>
      split at h
      · next hn =>
        cases h
        refine ⟨trivial, fun _ => ?_, (fun h => by cases h), fun h => by cases h⟩
        rw [hr]
        simp only [stepsLeft]
        omega
      · cases h
    · cases h
  | endCollect =>
    simp only [step] at h
    split at h
    · next found hr =>
      cases h
      refine ⟨trivial, fun _ => ?_, (fun h => by cases h), fun h => by cases h⟩
      rw [hr]
      rfl
    · cases h

theorem run_inRange {p : Nat} {ops : List Op} : ∀ {s s' : State}, InRange p s.reader → run p s ops = some (.ok s') →
    InRange p s'.reader := by
  induction ops with
  | nil => intro s s' hi h; simp only [run] at h; cases h; exact hi
  | cons op rest ih =>
    intro s s' hi h
    obtain ⟨m, h1, h2⟩ := run_cons h
    exact ih (step_reader h1 hi).1 h2

/-- C293: a collection under way can always take its next step, whatever the action lists do. -/
theorem C293_goes_on (peers : Nat) (ops : List Op) (s : State) (h : run peers {} ops = some (.ok s))
    (hc : s.reader ≠ .idle) : ∃ op s', ofCollection op = true ∧ step peers s op = some (.ok s') := by
  have hi := run_inRange (p := peers) (s := {}) trivial h
  cases hr : s.reader with
  | idle => exact absurd hr hc
  | peers next found =>
    rw [hr] at hi
    by_cases hn : next < peers
    · exact ⟨.readPeer, _, rfl, by simp only [step, hr, if_pos hn]; rfl⟩
    · exact ⟨.readActivities, _, rfl, by
        simp only [step, hr, if_pos (show next = peers from Nat.le_antisymm hi (Nat.le_of_not_lt hn))]; rfl⟩
  | activities found => exact ⟨.endCollect, _, rfl, by simp only [step, hr]; rfl⟩

theorem run_left {p : Nat} {ops : List Op} : ∀ {s s' : State}, InRange p s.reader → s.reader ≠ .idle →
    .endCollect ∉ ops → run p s ops = some (.ok s') →
    s'.reader ≠ .idle ∧ (ops.filter ofCollection).length + stepsLeft p s'.reader = stepsLeft p s.reader := by
  induction ops with
  | nil => intro s s' hi hn _ h; simp only [run] at h; cases h; exact ⟨hn, by simp⟩
  | cons op rest ih =>
    intro s s' hi hn he h
    obtain ⟨m, h1, h2⟩ := run_cons h
    obtain ⟨g1, g2, g3, -⟩ := step_reader h1 hi
    have hb : op ≠ .beginCollect := by
      rintro rfl
      simp only [step] at h1
      rw [if_neg (fun h => hn h.1)] at h1
      cases h1
    have hm : m.reader ≠ .idle := by
      cases ho : ofCollection op with
      | false => rw [g3 ho hb]; exact hn
      | true =>
        cases op with
        | readPeer =>
          simp only [step] at h1
          split at h1
          · split at h1
            · cases h1; simp
            · cases h1
          · cases h1
        | readActivities =>
          simp only [step] at h1
          split at h1
          · split at h1
            · cases h1; simp
            · cases h1
          · cases h1
        | endCollect => exact absurd List.mem_cons_self he
        | _ => cases ho
    obtain ⟨k1, k2⟩ := ih g1 hm (fun h => he (List.mem_cons_of_mem _ h)) h2
    refine ⟨k1, ?_⟩
    cases ho : ofCollection op with
    | false =>
      rw [List.filter_cons_of_neg (by rw [ho]; simp), k2, g3 ho hb]
    | true =>
      rw [List.filter_cons_of_pos ho, List.length_cons]
      have := g2 ho
      omega

/-- C293: a collection takes one step for every peer, one for the activities, and is over with the next,
however many steps of action lists come in between. -/
theorem C293_bound (peers : Nat) (before meanwhile : List Op) (s : State) (hn : .endCollect ∉ meanwhile)
    (h : run peers {} (before ++ .beginCollect :: meanwhile) = some (.ok s)) :
    (meanwhile.filter ofCollection).length ≤ peers + 1 ∧
    ((meanwhile.filter ofCollection).length = peers + 1 → ∃ s', step peers s .endCollect = some (.ok s')) := by
  obtain ⟨m, h1, h2⟩ := run_split h
  obtain ⟨m', h3, h4⟩ := run_cons h2
  obtain ⟨g1, -, -, g4⟩ := step_reader h3 (run_inRange (s := {}) trivial h1)
  have hr := g4 rfl
  obtain ⟨k1, k2⟩ := run_left g1 (by rw [hr]; simp) hn h4
  rw [hr] at k2
  have hl : stepsLeft peers (.peers 0 []) = peers + 2 := rfl
  rw [hl] at k2
  have hp : 0 < stepsLeft peers s.reader := by
    cases hs : s.reader with
    | idle => exact absurd hs k1
    | peers n f => simp only [stepsLeft]; omega
    | activities f => simp only [stepsLeft]; omega
  refine ⟨by omega, fun he => ?_⟩
  cases hs : s.reader with
  | idle => exact absurd hs k1
  | peers n f =>
    rw [hs] at k2
    simp only [stepsLeft] at k2
    omega
  | activities f => exact ⟨_, by simp only [step, hs]; rfl⟩

/-- A collection of two peers with an action list that ends meanwhile. -/
example : (run 2 {} ([.start false false, .respond 0] ++ .beginCollect :: [.readPeer, .finish 0, .readPeer,
    .readActivities])).isSome = true ∧
    (List.filter ofCollection [.readPeer, .finish 0, .readPeer, .readActivities]).length = 2 + 1 := by decide

end Distbench.Collect
