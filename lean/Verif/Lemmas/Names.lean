import Verif.Lemmas.Services

namespace Distbench.Services
open Spec

theorem digitChar_facts : ∀ d : Fin 10,
    isCDigit (Char.ofNat (48 + d.val)) = true ∧ (Char.ofNat (48 + d.val)).toNat - 48 = d.val := by
  decide

theorem isCDigit_facts {c : Char} (h : isCDigit c = true) :
    isCSpace c = false ∧ c ≠ '-' ∧ c ≠ '+' ∧ c ≠ '/' ∧ c ≠ Char.ofNat 0 := by
  unfold isCDigit at h
  simp only [Bool.and_eq_true, decide_eq_true_eq] at h
  obtain ⟨h1, h2⟩ := h
  have hne : ∀ d : Char, ¬ ('0' ≤ d ∧ d ≤ '9') → c ≠ d := by
    rintro d hd rfl
    exact hd ⟨h1, h2⟩
  refine ⟨?_, hne _ (by decide), hne _ (by decide), hne _ (by decide), hne _ (by decide)⟩
  unfold isCSpace
  simp only [Bool.or_eq_false_iff, decide_eq_false_iff_not]
  refine ⟨⟨⟨⟨⟨hne _ (by decide), hne _ (by decide)⟩, hne _ (by decide)⟩, hne _ (by decide)⟩,
    hne _ (by decide)⟩, hne _ (by decide)⟩

theorem digits_lt {n : Nat} (h : n < 10) : digits n = [Char.ofNat (48 + n)] := by
  rw [digits, if_pos h]

theorem digits_ge {n : Nat} (h : 10 ≤ n) :
    digits n = digits (n / 10) ++ [Char.ofNat (48 + n % 10)] := by
  rw [digits, if_neg (by omega)]

theorem digits_isDigit (n : Nat) : ∀ c ∈ digits n, isCDigit c = true := by
  induction n using Nat.strongRecOn with
  | ind n ih =>
    by_cases h : n < 10
    · rw [digits_lt h]
      intro c hc
      rw [List.mem_singleton] at hc
      subst hc
      exact (digitChar_facts ⟨n, h⟩).1
    · rw [digits_ge (by omega)]
      intro c hc
      rw [List.mem_append, List.mem_singleton] at hc
      rcases hc with hc | rfl
      · exact ih _ (by omega) c hc
      · exact (digitChar_facts ⟨n % 10, by omega⟩).1

theorem digits_ne_nil (n : Nat) : digits n ≠ [] := by
  by_cases h : n < 10
  · rw [digits_lt h]; simp
  · rw [digits_ge (by omega)]; simp

theorem digitsValue_append (acc : Nat) (a b : Str) :
    digitsValue acc (a ++ b) = digitsValue (digitsValue acc a) b := by
  unfold digitsValue
  exact List.foldl_append

theorem digitsValue_single (acc d : Nat) (h : d < 10) :
    digitsValue acc [Char.ofNat (48 + d)] = acc * 10 + d := by
  have := (digitChar_facts ⟨d, h⟩).2
  simp only at this
  unfold digitsValue
  rw [List.foldl_cons, List.foldl_nil, this]

theorem digitsValue_digits (n : Nat) : digitsValue 0 (digits n) = n := by
  induction n using Nat.strongRecOn with
  | ind n ih =>
    by_cases h : n < 10
    · rw [digits_lt h, digitsValue_single _ _ h]
      omega
    · rw [digits_ge (by omega), digitsValue_append, ih _ (by omega), digitsValue_single _ _ (by omega)]
      omega

theorem digits_inj {m n : Nat} (h : digits m = digits n) : m = n := by
  rw [← digitsValue_digits m, h, digitsValue_digits]

/-- Decimal digits are the standard decimal text. -/
theorem digits_toString (n : Nat) : digits n = (toString n).toList := by
  show digits n = (Nat.repr n).toList
  rw [Nat.repr_eq_ofList_toDigits, String.toList_ofList]
  induction n using Nat.strongRecOn with
  | ind n ih =>
    have hc : ∀ k : Fin 10, Char.ofNat (48 + k) = Nat.digitChar k := by decide
    by_cases h : n < 10
    · rw [digits_lt h, Nat.toDigits_of_lt_base h, hc ⟨n, h⟩]
    · rw [digits_ge (by omega), Nat.toDigits_of_base_le (by decide) (by omega), ih _ (by omega),
        hc ⟨n % 10, Nat.mod_lt _ (by decide)⟩]

theorem takeWhile_all_append {p : Char → Bool} {a b : Str} (ha : ∀ c ∈ a, p c = true)
    (hb : ∀ c ∈ b.head?, p c = false) : (a ++ b).takeWhile p = a ∧ (a ++ b).dropWhile p = b := by
  induction a with
  | nil =>
    cases b with
    | nil => simp
    | cons c b =>
      have := hb c (by simp)
      simp [this]
  | cons c a ih =>
    have h1 := ha c (by simp)
    have ih := ih (fun c hc => ha c (by simp [hc]))
    simp [h1, ih.1, ih.2]

theorem scanInt_digits {n : Nat} {rest : Str} (hn : n < 2 ^ 31)
    (hrest : ∀ c ∈ rest.head?, isCDigit c = false) :
    scanInt (digits n ++ rest) = .value n rest := by
  have hd := digits_isDigit n
  have htw := takeWhile_all_append (a := digits n) (b := rest) hd hrest
  unfold scanInt
  cases hdg : digits n with
  | nil => exact absurd hdg (digits_ne_nil n)
  | cons c cs =>
    rw [hdg] at hd htw
    have hc := isCDigit_facts (hd c (by simp))
    have hdrop : List.dropWhile isCSpace (c :: cs ++ rest) = c :: (cs ++ rest) := by
      simp [hc.1]
    rw [hdrop]
    simp only
    have hsign : ¬ (c = '-' ∨ c = '+') := by
      rintro (h | h)
      · exact hc.2.1 h
      · exact hc.2.2.1 h
    rw [if_neg hsign]
    rw [List.cons_append] at htw
    rw [htw.1, htw.2, if_neg (by simp), if_neg hc.2.1, ← hdg, digitsValue_digits, if_pos]
    unfold InI32
    omega

theorem showInt_nonneg {n : Int} (h : 0 ≤ n) : showInt n = digits n.toNat := by
  unfold showInt
  rw [if_neg (by omega)]
  congr 1
  omega

theorem scanInt_show {n : Int} {rest : Str} (h0 : 0 ≤ n) (hn : InI32 n)
    (hrest : ∀ c ∈ rest.head?, isCDigit c = false) :
    scanInt (showInt n ++ rest) = .value n rest := by
  rw [showInt_nonneg h0, scanInt_digits (by unfold InI32 at hn; omega) hrest]
  congr 1
  omega

theorem showInt_inj {m n : Int} (hm : 0 ≤ m) (hn : 0 ≤ n) (h : showInt m = showInt n) : m = n := by
  rw [showInt_nonneg hm, showInt_nonneg hn] at h
  have := digits_inj h
  omega

theorem showInt_ne_slash {n : Int} (h0 : 0 ≤ n) : ∀ c ∈ showInt n, c ≠ '/' ∧ c ≠ Char.ofNat 0 := by
  rw [showInt_nonneg h0]
  intro c hc
  have := isCDigit_facts (digits_isDigit _ c hc)
  exact ⟨this.2.2.2.1, this.2.2.2.2⟩

/-- The text after the service name: coordinates joined by slashes. -/
def coordText (l : List Int) : Str := l.flatMap (fun n => '/' :: showInt n)

theorem strip_name {nm : Str} (h : '/' ∉ nm) (rest : Str) :
    (nm ++ '/' :: rest).dropWhile (· ≠ '/') = '/' :: rest := by
  have := takeWhile_all_append (p := fun c => decide (c ≠ '/')) (a := nm) (b := '/' :: rest)
    (by intro c hc; simp; rintro rfl; exact h hc) (by simp)
  exact this.2

theorem takeWhile_true {p : Char → Bool} {a : Str} (ha : ∀ c ∈ a, p c = true) :
    a.takeWhile p = a := by
  have := (takeWhile_all_append (b := []) ha (by simp)).1
  simpa using this

theorem gridIndexFromName_one {nm : Str} (h : '/' ∉ nm) {x : Int} (hx : 0 ≤ x) (rx : InI32 x) :
    getGridIndexFromName (nm ++ '/' :: showInt x) = .ok ⟨x, 0, 0⟩ := by
  unfold getGridIndexFromName
  rw [strip_name h]
  simp only
  rw [takeWhile_true (by intro c hc; simpa using (showInt_ne_slash hx c hc).2)]
  have := scanInt_show (rest := []) hx rx (by simp)
  rw [List.append_nil] at this
  rw [this]

theorem gridIndexFromName_two {nm : Str} (h : '/' ∉ nm) {x y : Int} (hx : 0 ≤ x) (rx : InI32 x)
    (hy : 0 ≤ y) (ry : InI32 y) :
    getGridIndexFromName (nm ++ '/' :: showInt x ++ '/' :: showInt y) = .ok ⟨x, y, 0⟩ := by
  unfold getGridIndexFromName
  rw [List.append_assoc, List.cons_append, strip_name h]
  simp only
  rw [takeWhile_true (by
    intro c hc
    simp only [List.mem_append, List.mem_cons] at hc
    rcases hc with hc | rfl | hc
    · simpa using (showInt_ne_slash hx c hc).2
    · decide
    · simpa using (showInt_ne_slash hy c hc).2)]
  rw [scanInt_show hx rx (by simp; decide)]
  have := scanInt_show (rest := []) hy ry (by simp)
  rw [List.append_nil] at this
  simp only [this]

theorem gridIndexFromName_three {nm : Str} (h : '/' ∉ nm) {x y z : Int} (hx : 0 ≤ x)
    (rx : InI32 x) (hy : 0 ≤ y) (ry : InI32 y) (hz : 0 ≤ z) (rz : InI32 z) :
    getGridIndexFromName (nm ++ '/' :: showInt x ++ '/' :: showInt y ++ '/' :: showInt z)
      = .ok ⟨x, y, z⟩ := by
  unfold getGridIndexFromName
  have : nm ++ '/' :: showInt x ++ '/' :: showInt y ++ '/' :: showInt z
      = nm ++ '/' :: (showInt x ++ '/' :: (showInt y ++ '/' :: showInt z)) := by
    simp [List.append_assoc]
  rw [this, strip_name h]
  simp only
  rw [takeWhile_true (by
    intro c hc
    simp only [List.mem_append, List.mem_cons] at hc
    rcases hc with hc | rfl | hc | rfl | hc
    · simpa using (showInt_ne_slash hx c hc).2
    · decide
    · simpa using (showInt_ne_slash hy c hc).2
    · decide
    · simpa using (showInt_ne_slash hz c hc).2)]
  rw [scanInt_show hx rx (by simp; decide)]
  simp only
  rw [scanInt_show hy ry (by simp; decide)]
  have := scanInt_show (rest := []) hz rz (by simp)
  rw [List.append_nil] at this
  simp only [this]

/-- Parsing an instance name gives the coordinates the name was made from. -/
theorem name_roundtrip {s : ServiceSpec} (h : Canon s) (hn : '/' ∉ s.name) {i : Int} (h0 : 0 ≤ i)
    (hi : i < s.getCount) :
    ∃ nm g rest, getInstanceName s i = some nm ∧ getServiceIndex s i = some g ∧
      getGridIndexFromName nm = .ok g ∧ nm = s.name ++ '/' :: rest := by
  obtain ⟨g, hg, hin, hinst⟩ := getServiceIndex_spec h h0 hi
  obtain ⟨gx, gy, gz⟩ := g
  cases h with
  | one x hx hy hz hc hr =>
    simp only [InGrid, hx, hy, hz, Option.getD_some, Option.getD_none] at hin
    have hy0 : gy = 0 := by omega
    have hz0 : gz = 0 := by omega
    subst hy0; subst hz0
    refine ⟨s.name ++ '/' :: showInt gx, ⟨gx, 0, 0⟩, _, ?_, hg, ?_, rfl⟩
    · simp [getInstanceName, hx, hy, hz, hg]
    · exact gridIndexFromName_one hn (by omega) (by unfold InI32 at *; omega)
  | two x y hx hy hz hc px py hr =>
    simp only [InGrid, hx, hy, hz, Option.getD_some, Option.getD_none] at hin
    have hz0 : gz = 0 := by omega
    subst hz0
    have hb : x ≤ x * y := by
      have := Int.mul_le_mul_of_nonneg_left (show (1 : Int) ≤ y by omega) (show 0 ≤ x by omega)
      omega
    have hb2 : y ≤ x * y := by
      have := Int.mul_le_mul_of_nonneg_right (show (1 : Int) ≤ x by omega) (show 0 ≤ y by omega)
      omega
    refine ⟨s.name ++ '/' :: showInt gx ++ '/' :: showInt gy, ⟨gx, gy, 0⟩,
      showInt gx ++ '/' :: showInt gy, ?_, hg, ?_, by simp⟩
    · simp [getInstanceName, hx, hy, hz, hg]
    · exact gridIndexFromName_two hn (by omega) (by unfold InI32 at *; omega) (by omega)
        (by unfold InI32 at *; omega)
  | three x y z hx hy hz hc px py pz hr hr2 =>
    simp only [InGrid, hx, hy, hz, Option.getD_some, Option.getD_none] at hin
    have hb : x ≤ x * y := by
      have := Int.mul_le_mul_of_nonneg_left (show (1 : Int) ≤ y by omega) (show 0 ≤ x by omega)
      omega
    have hb2 : y ≤ x * y := by
      have := Int.mul_le_mul_of_nonneg_right (show (1 : Int) ≤ x by omega) (show 0 ≤ y by omega)
      omega
    have hb3 : z ≤ x * y * z := by
      have := Int.mul_le_mul_of_nonneg_right (show (1 : Int) ≤ x * y by omega) (show 0 ≤ z by omega)
      omega
    refine ⟨s.name ++ '/' :: showInt gx ++ '/' :: showInt gy ++ '/' :: showInt gz, ⟨gx, gy, gz⟩,
      showInt gx ++ '/' :: showInt gy ++ '/' :: showInt gz, ?_, hg, ?_, by simp⟩
    · simp [getInstanceName, hx, hz, hg]
    · exact gridIndexFromName_three hn (by omega) (by unfold InI32 at *; omega) (by omega)
        (by unfold InI32 at *; omega) (by omega) (by unfold InI32 at *; omega)

theorem prefix_name_unique {a b ra rb : Str} (ha : '/' ∉ a) (hb : '/' ∉ b)
    (h : a ++ '/' :: ra = b ++ '/' :: rb) : a = b := by
  have e1 := takeWhile_all_append (p := fun c => decide (c ≠ '/')) (a := a) (b := '/' :: ra)
    (by intro c hc; simp; rintro rfl; exact ha hc) (by simp)
  have e2 := takeWhile_all_append (p := fun c => decide (c ≠ '/')) (a := b) (b := '/' :: rb)
    (by intro c hc; simp; rintro rfl; exact hb hc) (by simp)
  rw [← e1.1, h, e2.1]

/-! #### name tables -/

theorem NameMap.find_set_self (m : NameMap) (k : Str) (v : Int) : (m.set k v).find k = some v := by
  induction m with
  | nil => simp [NameMap.set, NameMap.find]
  | cons p m ih =>
    obtain ⟨a, b⟩ := p
    unfold NameMap.set
    split
    · rename_i h; simp [NameMap.find, h]
    · rename_i h; simp [NameMap.find, h, ih]

theorem NameMap.find_set_ne (m : NameMap) {k k' : Str} (v : Int) (h : k' ≠ k) :
    (m.set k v).find k' = m.find k' := by
  induction m with
  | nil => simp [NameMap.set, NameMap.find, h.symm]
  | cons p m ih =>
    obtain ⟨a, b⟩ := p
    unfold NameMap.set
    split
    · rename_i h'; subst h'; simp [NameMap.find, h.symm]
    · simp only [NameMap.find, ih]

theorem NameMap.length_set_new (m : NameMap) {k : Str} (v : Int) (h : m.find k = none) :
    (m.set k v).length = m.length + 1 := by
  induction m with
  | nil => simp [NameMap.set]
  | cons p m ih =>
    obtain ⟨a, b⟩ := p
    unfold NameMap.find at h
    split at h
    · cases h
    · rename_i h'
      simp [NameMap.set, h', ih h]

theorem enumerate_spec_aux (names : List Str) (hnd : names.Nodup) (m : NameMap)
    (hnew : ∀ n ∈ names, m.find n = none) :
    let r := names.foldl (fun ret name => ret.set name (ret.length : Int)) m
    r.length = m.length + names.length ∧
    (∀ i (hi : i < names.length), r.find names[i] = some ((m.length + i : Nat) : Int)) ∧
    (∀ n, n ∉ names → r.find n = m.find n) := by
  induction names generalizing m with
  | nil => simp
  | cons a names ih =>
    rw [List.nodup_cons] at hnd
    have hm := hnew a (by simp)
    have hlen := NameMap.length_set_new m (m.length : Int) hm
    have := ih hnd.2 (m.set a (m.length : Int)) (by
      intro n hn
      rw [NameMap.find_set_ne _ _ (by rintro rfl; exact hnd.1 hn)]
      exact hnew n (by simp [hn]))
    obtain ⟨h1, h2, h3⟩ := this
    simp only [List.foldl_cons]
    refine ⟨by simp only [h1, hlen, List.length_cons]; omega, ?_, ?_⟩
    · intro i hi
      cases i with
      | zero =>
        simp only [List.getElem_cons_zero]
        rw [h3 a hnd.1, NameMap.find_set_self]
        rfl
      | succ i =>
        simp only [List.getElem_cons_succ]
        rw [h2 i (by simpa using hi), hlen]
        congr 2; omega
    · intro n hn
      simp only [List.mem_cons, not_or] at hn
      rw [h3 n hn.2, NameMap.find_set_ne _ _ hn.1]

theorem enumerate_spec (names : List Str) (hnd : names.Nodup) :
    (enumerate names).length = names.length ∧
    (∀ i (hi : i < names.length), (enumerate names).find names[i] = some (i : Int)) ∧
    (∀ n, n ∉ names → (enumerate names).find n = none) := by
  have := enumerate_spec_aux names hnd [] (by intro n _; rfl)
  obtain ⟨h1, h2, h3⟩ := this
  refine ⟨by simpa [enumerate] using h1, ?_, h3⟩
  intro i hi
  have := h2 i hi
  simpa [enumerate] using this

end Distbench.Services

namespace Distbench.Services
open Spec

theorem mapM_some {α β : Type} {f : α → Option β} {g : α → β} {l : List α}
    (h : ∀ x ∈ l, f x = some (g x)) : l.mapM f = some (l.map g) := by
  induction l with
  | nil => rfl
  | cons a l ih =>
    rw [List.mapM_cons, h a (by simp), ih (fun x hx => h x (by simp [hx]))]
    rfl

/-- Names of the instances of a canonical service. -/
theorem serviceInstanceNames_spec {s : ServiceSpec} (h : Canon s) (hn : '/' ∉ s.name) :
    ∃ l, serviceInstanceNames s = some l ∧ l.length = s.getCount.toNat ∧ l.Nodup ∧
      (∀ (j : Nat) (hj : j < l.length), getInstanceName s j = some l[j]) ∧
      ∀ nm ∈ l, ∃ rest, nm = s.name ++ '/' :: rest := by
  have hex : ∀ j : Nat, j < s.getCount.toNat → ∃ nm g rest, getInstanceName s j = some nm ∧
      getServiceIndex s j = some g ∧ getGridIndexFromName nm = .ok g ∧
      nm = s.name ++ '/' :: rest := by
    intro j hj
    exact name_roundtrip h hn (Int.natCast_nonneg j) (by omega)
  have hg : ∀ j ∈ List.range s.getCount.toNat,
      (fun i : Nat => getInstanceName s i) j = some ((getInstanceName s (j : Int)).getD []) := by
    intro j hj
    obtain ⟨nm, g, rest, h1, _⟩ := hex j (by simpa using hj)
    simp only [h1, Option.getD_some]
  refine ⟨_, mapM_some hg, by simp, ?_, ?_, ?_⟩
  · rw [List.Nodup, List.pairwise_map]
    refine List.Pairwise.imp_of_mem ?_ (List.nodup_range (n := s.getCount.toNat))
    intro a b ha hb hab heq
    obtain ⟨n1, g1, r1, a1, a2, a3, a4⟩ := hex a (by simpa using ha)
    obtain ⟨n2, g2, r2, b1, b2, b3, b4⟩ := hex b (by simpa using hb)
    rw [a1, b1] at heq
    simp only [Option.getD_some] at heq
    subst heq
    rw [a3] at b3
    have hgg : g1 = g2 := by injection b3
    subst hgg
    obtain ⟨_, c1, _, c3⟩ := getServiceIndex_spec h (Int.natCast_nonneg a)
      (by have := List.mem_range.1 ha; omega)
    obtain ⟨_, d1, _, d3⟩ := getServiceIndex_spec h (Int.natCast_nonneg b)
      (by have := List.mem_range.1 hb; omega)
    rw [a2] at c1
    rw [b2] at d1
    have e1 := Option.some.inj c1
    have e2 := Option.some.inj d1
    subst e1
    subst e2
    rw [c3] at d3
    have := Option.some.inj d3
    omega
  · intro j hj
    simp only [List.length_map, List.length_range] at hj
    obtain ⟨nm, g, rest, h1, _⟩ := hex j hj
    simp [h1]
  · intro nm hnm
    rw [List.mem_map] at hnm
    obtain ⟨j, hj, rfl⟩ := hnm
    obtain ⟨nm, g, rest, h1, _, _, h4⟩ := hex j (by simpa using hj)
    exact ⟨rest, by simp [h1, h4]⟩

theorem allServiceInstances_spec {services : List ServiceSpec} (hc : ∀ s ∈ services, Canon s)
    (hsl : ∀ s ∈ services, '/' ∉ s.name) (hnd : (services.map (·.name)).Nodup) :
    ∃ L : List (List Str), services.mapM serviceInstanceNames = some L ∧ L.flatten.Nodup ∧
      L.flatten.length = totalCount services ∧
      (∀ nm ∈ L.flatten, ∃ s ∈ services, ∃ rest, nm = s.name ++ '/' :: rest) ∧
      ∀ (k : Nat) (hk : k < services.length) (j : Nat), (j : Int) < services[k].getCount →
        ∃ h : totalCount (services.take k) + j < L.flatten.length,
          getInstanceName services[k] j = some L.flatten[totalCount (services.take k) + j] := by
  induction services with
  | nil => exact ⟨[], rfl, by simp, rfl, by simp, fun k hk => by simp at hk⟩
  | cons s services ih =>
    rw [List.map_cons, List.nodup_cons] at hnd
    obtain ⟨L, h1, h2, h3, h4, h5⟩ := ih (fun x hx => hc x (by simp [hx]))
      (fun x hx => hsl x (by simp [hx])) hnd.2
    obtain ⟨l, e1, e2, e3, e4, e5⟩ := serviceInstanceNames_spec (hc s (by simp)) (hsl s (by simp))
    have htot : totalCount (s :: services) = s.getCount.toNat + totalCount services := rfl
    refine ⟨l :: L, ?_, ?_, ?_, ?_, ?_⟩
    · rw [List.mapM_cons, e1, h1]; rfl
    · rw [List.flatten_cons, List.nodup_append]
      refine ⟨e3, h2, ?_⟩
      intro a ha b hb hab
      subst hab
      obtain ⟨r1, q1⟩ := e5 a ha
      obtain ⟨s', hs', r2, q2⟩ := h4 a hb
      have := prefix_name_unique (hsl s (by simp)) (hsl s' (by simp [hs'])) (q1.symm.trans q2)
      exact hnd.1 (by rw [this]; exact List.mem_map.2 ⟨s', hs', rfl⟩)
    · rw [List.flatten_cons, List.length_append, e2, h3, htot]
    · intro nm hnm
      rw [List.flatten_cons, List.mem_append] at hnm
      rcases hnm with hnm | hnm
      · exact ⟨s, by simp, e5 nm hnm⟩
      · obtain ⟨s', hs', r⟩ := h4 nm hnm
        exact ⟨s', by simp [hs'], r⟩
    · intro k hk j hj
      cases k with
      | zero =>
        simp only [List.getElem_cons_zero] at hj ⊢
        have hjl : j < l.length := by omega
        have h0 : totalCount (List.take 0 (s :: services)) + j = j := by
          simp [totalCount]
        simp only [h0, List.flatten_cons]
        refine ⟨by rw [List.length_append]; omega, ?_⟩
        rw [List.getElem_append_left hjl]
        exact e4 j hjl
      | succ k =>
        simp only [List.getElem_cons_succ] at hj ⊢
        obtain ⟨hh, hv⟩ := h5 k (by simpa using hk) j hj
        have h0 : totalCount (List.take (k + 1) (s :: services)) + j
            = l.length + (totalCount (services.take k) + j) := by
          simp only [List.take_succ_cons, totalCount]
          unfold ServiceSpec.getCount at e2
          omega
        simp only [h0, List.flatten_cons]
        refine ⟨by rw [List.length_append]; omega, ?_⟩
        rw [List.getElem_append_right (by omega)]
        simp only [Nat.add_sub_cancel_left]
        exact hv

end Distbench.Services
