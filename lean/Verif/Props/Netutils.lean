import Verif.Spec.Netutils
import Verif.Lemmas.Names

/-! Properties of the choice of network addresses. -/

namespace Distbench.Netutils
open Services Spec

/-! ### Lemmas -/

theorem mem_getAllAddresses (host : List Interface) (netdev : Str) (a : DeviceIp) :
    a ∈ getAllAddresses host netdev ↔ IsAddressOf host netdev a := by
  have key : ∀ host : List Interface, a ∈ getAllAddresses host netdev ↔
      ∃ i ∈ host, i.device = a.device ∧ i.text = some a.ip ∧
        i.family = some (if a.isV4 then .inet else .inet6) ∧ (netdev = [] ∨ a.device = netdev) := by
    intro host
    induction host with
    | nil => simp [getAllAddresses]
    | cons i rest ih =>
      obtain ⟨dev, fam, text⟩ := i
      obtain ⟨ip, adev, v4⟩ := a
      have hex : (∃ j ∈ (⟨dev, fam, text⟩ : Interface) :: rest, j.device = adev ∧ j.text = some ip ∧
          j.family = some (if v4 then .inet else .inet6) ∧ (netdev = [] ∨ adev = netdev)) ↔
          (dev = adev ∧ text = some ip ∧ fam = some (if v4 then .inet else .inet6) ∧
            (netdev = [] ∨ adev = netdev)) ∨
          ∃ j ∈ rest, j.device = adev ∧ j.text = some ip ∧
            j.family = some (if v4 then .inet else .inet6) ∧ (netdev = [] ∨ adev = netdev) := by
        simp
      dsimp only at ih ⊢
      rw [hex, ← ih]
      rw [getAllAddresses]
      cases fam with
      | none => simp
      | some f =>
        dsimp only
        cases text with
        | none => cases f <;> simp
        | some t =>
          dsimp only
          cases f <;> cases v4 <;> simp <;> split <;> simp <;> grind
  rw [key]
  unfold IsAddressOf
  grind

theorem begins_iff (a : DeviceIp) (t : String) : t.toList.isPrefixOf a.ip = true ↔ Begins a t := by
  rw [List.isPrefixOf_iff_prefix]
  unfold Begins
  exact ⟨fun ⟨r, h⟩ => ⟨r, h.symm⟩, fun ⟨r, h⟩ => ⟨r, h.symm⟩⟩

theorem isLinkLocal_iff (a : DeviceIp) : isLinkLocal a = true ↔ Skipped a := by
  unfold isLinkLocal Skipped
  rw [Bool.or_eq_true, begins_iff, begins_iff]

theorem isLinkLocal_false (a : DeviceIp) : isLinkLocal a = false ↔ ¬ Skipped a := by
  rw [← isLinkLocal_iff]
  simp

theorem usable_iff (host : List Interface) (netdev : Str) (a : DeviceIp) :
    Usable host netdev a ↔ a ∈ getAllAddresses host netdev ∧ isLinkLocal a = false := by
  rw [mem_getAllAddresses, isLinkLocal_false]
  exact Iff.rfl

theorem bestLoop_spec (pref : Bool) : ∀ (l : List DeviceIp) (best : Int × Option DeviceIp),
    (bestLoop pref l best = best ∧ ∀ x ∈ l, isLinkLocal x = false → score pref x ≤ best.1) ∨
    ∃ pre a post, l = pre ++ a :: post ∧ bestLoop pref l best = (score pref a, some a) ∧
      isLinkLocal a = false ∧ best.1 < score pref a ∧
      (∀ x ∈ pre, isLinkLocal x = false → score pref x < score pref a) ∧
      (∀ x ∈ post, isLinkLocal x = false → score pref x ≤ score pref a) := by
  intro l
  induction l with
  | nil => intro best; left; simp [bestLoop]
  | cons y l ih =>
    intro best
    rw [bestLoop]
    split
    · rename_i hy
      rcases ih best with ⟨h1, h2⟩ | ⟨pre, a, post, h1, h2, h3, h4, h5, h6⟩
      · left; exact ⟨h1, by simpa [hy] using h2⟩
      · right
        exact ⟨y :: pre, a, post, by rw [h1]; rfl, h2, h3, h4, by simpa [hy] using h5, h6⟩
    · rename_i hy
      simp only [Bool.not_eq_true] at hy
      split
      · rename_i hgt
        rcases ih (score pref y, some y) with ⟨h1, h2⟩ | ⟨pre, a, post, h1, h2, h3, h4, h5, h6⟩
        · right
          exact ⟨[], y, l, rfl, h1, hy, hgt, by simp, h2⟩
        · right
          refine ⟨y :: pre, a, post, by rw [h1]; rfl, h2, h3, Int.lt_trans hgt h4, ?_, h6⟩
          intro x hx hxl
          rcases List.mem_cons.1 hx with rfl | hx
          · exact h4
          · exact h5 x hx hxl
      · rename_i hle
        rcases ih best with ⟨h1, h2⟩ | ⟨pre, a, post, h1, h2, h3, h4, h5, h6⟩
        · left
          refine ⟨h1, ?_⟩
          intro x hx hxl
          rcases List.mem_cons.1 hx with rfl | hx
          · omega
          · exact h2 x hx hxl
        · right
          refine ⟨y :: pre, a, post, by rw [h1]; rfl, h2, h3, h4, ?_, h6⟩
          intro x hx hxl
          rcases List.mem_cons.1 hx with rfl | hx
          · omega
          · exact h5 x hx hxl

theorem score_nonneg (pref : Bool) (a : DeviceIp) : 0 ≤ score pref a := by
  unfold score
  repeat' split
  all_goals omega

/-- The choice when no device is named. -/
theorem best_any (host : List Interface) (pref : Bool) (a : DeviceIp)
    (h : getBestAddress host [] pref = some a) :
    ∃ pre post, getAllAddresses host [] = pre ++ a :: post ∧ isLinkLocal a = false ∧
      (∀ x ∈ pre, isLinkLocal x = false → score pref x < score pref a) ∧
      (∀ x ∈ post, isLinkLocal x = false → score pref x ≤ score pref a) := by
  unfold getBestAddress at h
  simp only [ne_eq, not_true_eq_false, if_false] at h
  rcases bestLoop_spec pref (getAllAddresses host []) (-1, none) with
    ⟨h1, h2⟩ | ⟨pre, b, post, h1, h2, h3, h4, h5, h6⟩
  · rw [h1] at h; simp at h
  · rw [h2] at h
    have := score_nonneg pref b
    simp only [show ¬ score pref b < 0 by omega, if_false, Option.some.injEq] at h
    subst h
    exact ⟨pre, post, h1, h3, h5, h6⟩

/-! ### C53 -/

/-- C53.  The chosen address is a usable address of the device (of any device if none is named). -/
theorem C53_usable (host : List Interface) (netdev : Str) (pref : Bool) (a : DeviceIp)
    (h : getBestAddress host netdev pref = some a) : Usable host netdev a := by
  rw [usable_iff]
  cases netdev with
  | nil =>
    obtain ⟨pre, post, h1, h2, _⟩ := best_any host pref a h
    exact ⟨by rw [h1]; simp, h2⟩
  | cons c cs =>
    unfold getBestAddress at h
    simp only [ne_eq, reduceCtorEq, not_false_eq_true, if_true] at h
    split at h
    · rename_i b hb
      cases h
      have := List.find?_some hb
      simp at this
      exact ⟨List.mem_of_find?_eq_some hb, this.1⟩
    · have := List.find?_some h
      simp at this
      exact ⟨List.mem_of_find?_eq_some h, this⟩

/-- C53.  The choice fails exactly if there is no usable address. -/
theorem C53_fails_iff (host : List Interface) (netdev : Str) (pref : Bool) :
    getBestAddress host netdev pref = none ↔ ¬ ∃ a, Usable host netdev a := by
  constructor
  · rintro h ⟨a, ha⟩
    rw [usable_iff] at ha
    cases netdev with
    | nil =>
      unfold getBestAddress at h
      simp only [ne_eq, not_true_eq_false, if_false] at h
      rcases bestLoop_spec pref (getAllAddresses host []) (-1, none) with
        ⟨h1, h2⟩ | ⟨pre, b, post, h1, h2, h3, h4, h5, h6⟩
      · have := h2 a ha.1 ha.2
        have := score_nonneg pref a
        simp only at *
        omega
      · rw [h2] at h
        have := score_nonneg pref b
        simp [show ¬ score pref b < 0 by omega] at h
    | cons c cs =>
      unfold getBestAddress at h
      simp only [ne_eq, reduceCtorEq, not_false_eq_true, if_true] at h
      split at h
      · cases h
      · have := List.find?_eq_none.1 h a ha.1
        simp [ha.2] at this
  · intro hno
    cases hb : getBestAddress host netdev pref with
    | none => rfl
    | some a => exact absurd ⟨a, C53_usable host netdev pref a hb⟩ hno

/-- C53.  On a named device an address of the preferred family is chosen whenever there is a usable
one. -/
theorem C53_family (host : List Interface) (netdev : Str) (pref : Bool) (a b : DeviceIp)
    (hdev : netdev ≠ []) (h : getBestAddress host netdev pref = some a) (hb : Usable host netdev b)
    (hfam : b.isV4 = pref) : a.isV4 = pref := by
  rw [usable_iff] at hb
  unfold getBestAddress at h
  simp only [hdev, ne_eq, not_false_eq_true, if_true] at h
  split at h
  · rename_i c hc
    cases h
    have := List.find?_some hc
    simp at this
    exact this.2
  · rename_i hn
    have := List.find?_eq_none.1 hn b hb.1
    simp [hb.2, hfam] at this

/-- C53.  When IP version 4 or 6 is demanded, the chosen address is a usable address of that
version. -/
theorem C53_version (flag : Bool) (host : List Interface) (netdev : Str) (version : Int) (a : DeviceIp)
    (hv : version = 4 ∨ version = 6) (h : ipAddressForDevice flag host netdev version = some a) :
    Usable host netdev a ∧ a.isV4 = decide (version = 4) := by
  unfold ipAddressForDevice at h
  rcases hv with rfl | rfl
  · simp only [if_true] at h
    split at h
    · rename_i b hb
      have hu := C53_usable _ _ _ _ hb
      split at h
      · cases h
      · cases h
        rename_i h4
        simp at h4
        exact ⟨hu, by simp [h4]⟩
    · cases h
  · simp only [show ¬ (6 : Int) = 4 by decide, if_false, if_true] at h
    split at h
    · rename_i b hb
      have hu := C53_usable _ _ _ _ hb
      split at h
      · cases h
      · cases h
        rename_i h4
        simp at h4
        exact ⟨hu, by simp [h4]⟩
    · cases h

/-- A host with a loopback device and two others. -/
def sampleHost : List Interface :=
  [⟨"lo".toList, some .other, some "00:00".toList⟩,
   ⟨"lo".toList, some .inet, some "127.0.0.1".toList⟩,
   ⟨"eth0".toList, some .inet, some "169.254.255.3".toList⟩,
   ⟨"eth0".toList, some .inet, some "8.8.4.4".toList⟩,
   ⟨"eth1".toList, none, none⟩,
   ⟨"eth1".toList, some .inet, some "10.10.1.2".toList⟩,
   ⟨"lo".toList, some .inet6, some "::1".toList⟩,
   ⟨"eth0".toList, some .inet6, some "fe80::1%eth0".toList⟩,
   ⟨"eth0".toList, some .inet6, some "2001:db8::5".toList⟩]

example : getBestAddress sampleHost "eth0".toList false =
    some ⟨"2001:db8::5".toList, "eth0".toList, false⟩ := by decide +kernel
example : getBestAddress sampleHost "eth0".toList true =
    some ⟨"8.8.4.4".toList, "eth0".toList, true⟩ := by decide +kernel
example : Usable sampleHost "eth0".toList ⟨"8.8.4.4".toList, "eth0".toList, true⟩ :=
  C53_usable sampleHost "eth0".toList true _ (by decide +kernel)
example : getBestAddress sampleHost "eth2".toList true = none := by decide +kernel
example : ipAddressForDevice false sampleHost "eth1".toList 6 = none := by decide +kernel
example : ipAddressForDevice false sampleHost "eth0".toList 4 =
    some ⟨"8.8.4.4".toList, "eth0".toList, true⟩ := by decide +kernel

/-! ### C112: link-local addresses are never chosen -/

theorem digits_dot {p q x y : Str} (hp : ∀ c ∈ p, isCDigit c = true) (hq : ∀ c ∈ q, isCDigit c = true)
    (h : p ++ '.' :: x = q ++ '.' :: y) : p = q ∧ x = y := by
  induction p generalizing q with
  | nil =>
    cases q with
    | nil => simp at h; exact ⟨rfl, h⟩
    | cons d q =>
      simp at h
      have := hq d (by simp)
      rw [← h.1] at this
      exact absurd this (by decide)
  | cons d p ih =>
    cases q with
    | nil =>
      simp at h
      have := hp d (by simp)
      rw [h.1] at this
      exact absurd this (by decide)
    | cons e q =>
      simp at h
      obtain ⟨h1, h2⟩ := ih (q := q) (fun c hc => hp c (by simp [hc])) (fun c hc => hq c (by simp [hc])) h.2
      exact ⟨by rw [h.1, h1], h2⟩

theorem quad_begins {a : DeviceIp} {o1 o2 o3 o4 : Nat} (h : IsQuad a o1 o2 o3 o4) (n : Nat) (x : Str) :
    (∃ rest, a.ip = digits n ++ '.' :: x ++ rest) ↔
      n = o1 ∧ ∃ rest, digits o2 ++ '.' :: digits o3 ++ '.' :: digits o4 = x ++ rest := by
  obtain ⟨_, _, _, _, _, hip⟩ := h
  constructor
  · rintro ⟨rest, hr⟩
    rw [hip] at hr
    simp only [List.append_assoc, List.cons_append] at hr
    obtain ⟨h1, h2⟩ := digits_dot (digits_isDigit _) (digits_isDigit _) hr
    exact ⟨(digits_inj h1).symm, rest, by simpa using h2⟩
  · rintro ⟨rfl, rest, hr⟩
    exact ⟨rest, by rw [hip]; simp only [List.append_assoc, List.cons_append] at hr ⊢; rw [hr]⟩

/-- Missing from the full property: the rest of 169.254.0.0/16, see `C112_chosen`.  Proved: no address
of 169.254.255.0/24 and no IPv6 address printed with the prefix fe80: is chosen. -/
theorem C112_never_partial (host : List Interface) (netdev : Str) (pref : Bool) (a : DeviceIp)
    (h : getBestAddress host netdev pref = some a) :
    ¬ Begins a "fe80:" ∧ ∀ o4, ¬ IsQuad a 169 254 255 o4 := by
  have hu := (C53_usable host netdev pref a h).2
  unfold Skipped at hu
  refine ⟨fun hb => hu (Or.inl hb), fun o4 hq => hu (Or.inr ?_)⟩
  refine ⟨'.' :: digits o4, ?_⟩
  rw [hq.2.2.2.2.2]
  have h1 : digits 169 = "169".toList := by decide +kernel
  have h2 : digits 254 = "254".toList := by decide +kernel
  have h3 : digits 255 = "255".toList := by decide +kernel
  rw [h1, h2, h3]
  rfl

/-- The link-local address 169.254.10.1 is preferred to all others here. -/
theorem C112_chosen : ∃ (host : List Interface) (a b : DeviceIp), LinkLocalQuad 169 254 ∧ IsQuad a 169 254 10 1 ∧
    Usable host [] b ∧ IsQuad b 8 8 4 4 ∧ getBestAddress host [] true = some a ∧
    getBestAddress host "eth0".toList true = some a := by
  refine ⟨[⟨"eth0".toList, some .inet, some "169.254.10.1".toList⟩,
    ⟨"eth0".toList, some .inet, some "8.8.4.4".toList⟩],
    ⟨"169.254.10.1".toList, "eth0".toList, true⟩, ⟨"8.8.4.4".toList, "eth0".toList, true⟩, ⟨rfl, rfl⟩, ?_, ?_, ?_,
    by decide +kernel, by decide +kernel⟩
  · exact ⟨rfl, by decide, by decide, by decide, by decide, by decide +kernel⟩
  · rw [usable_iff]
    decide +kernel
  · exact ⟨rfl, by decide, by decide, by decide, by decide, by decide +kernel⟩

/-! ### C113: an address of the demanded version is found whenever there is one -/

/-- Missing from the full property: the choice without a device, see `C113_not_found`. -/
theorem C113_found_partial (flag : Bool) (host : List Interface) (netdev : Str) (version : Int)
    (hdev : netdev ≠ []) (hv : version = 4 ∨ version = 6) :
    (∃ a, ipAddressForDevice flag host netdev version = some a) ↔
      ∃ b, Usable host netdev b ∧ b.isV4 = decide (version = 4) := by
  constructor
  · rintro ⟨a, ha⟩
    exact ⟨a, C53_version flag host netdev version a hv ha⟩
  · rintro ⟨b, hb, hfam⟩
    have hsome : ∀ pref, b.isV4 = pref → ∃ a, getBestAddress host netdev pref = some a ∧ a.isV4 = pref := by
      intro pref hp
      cases hg : getBestAddress host netdev pref with
      | none => exact absurd ⟨b, hb⟩ ((C53_fails_iff host netdev pref).1 hg)
      | some a => exact ⟨a, rfl, C53_family host netdev pref a b hdev hg hb hp⟩
    unfold ipAddressForDevice
    rcases hv with rfl | rfl
    · obtain ⟨a, h1, h2⟩ := hsome true (by simpa using hfam)
      exact ⟨a, by simp [h1, h2]⟩
    · obtain ⟨a, h1, h2⟩ := hsome false (by simpa using hfam)
      exact ⟨a, by simp [h1, h2]⟩

example : ∃ a, ipAddressForDevice true sampleHost "eth0".toList 6 = some a :=
  (C113_found_partial true sampleHost "eth0".toList 6 (by decide) (Or.inr rfl)).2
    ⟨⟨"2001:db8::5".toList, "eth0".toList, false⟩, (usable_iff _ _ _).2 (by decide +kernel), rfl⟩

/-- A private IPv4 address hides an IPv6 address of the same host. -/
theorem C113_not_found (flag : Bool) : ∃ (host : List Interface) (b : DeviceIp), Usable host [] b ∧ b.isV4 = false ∧
    ¬ OnLoopback b ∧ ipAddressForDevice flag host [] 6 = none := by
  refine ⟨[⟨"eth0".toList, some .inet, some "10.0.0.1".toList⟩,
    ⟨"eth0".toList, some .inet6, some "2001:db8::5".toList⟩],
    ⟨"2001:db8::5".toList, "eth0".toList, false⟩, ?_, rfl, by unfold OnLoopback; decide, ?_⟩
  · rw [usable_iff]
    decide +kernel
  · cases flag <;> decide +kernel

/-! ### C114: private addresses are preferred -/

/-- Which IPv4 addresses are taken for private. -/
theorem isPrivate_quad {a : DeviceIp} {o1 o2 o3 o4 : Nat} (h : IsQuad a o1 o2 o3 o4) :
    isPrivate a = true ↔
      o1 = 10 ∨ (o1 = 172 ∧ (o2 = 16 ∨ 160 ≤ o2 ∧ o2 ≤ 169)) ∨ (o1 = 192 ∧ o2 = 168) := by
  have hip := h.2.2.2.2.2
  have hlt := h.2.2.1
  -- the first character of the text is a digit, the second is not a hexadecimal letter
  have hcolon : ':' ∉ a.ip := by
    have hd : ∀ n, ':' ∉ digits n := fun n hc => absurd (digits_isDigit n ':' hc) (by decide)
    rw [hip]
    simp [hd]
  have hno : ∀ t : String, ':' ∈ t.toList → t.toList.isPrefixOf a.ip = false := by
    intro t ht
    cases hp : t.toList.isPrefixOf a.ip with
    | false => rfl
    | true =>
      obtain ⟨r, hr⟩ := (begins_iff a t).1 hp
      exact absurd (by rw [hr]; simp [ht]) hcolon
  have hscan : scan6to4 a.ip = none := by
    unfold scan6to4
    rw [hno "2002:" (by decide)]
    simp
  unfold isPrivate
  rw [hscan]
  dsimp only
  rw [hno "fc00:" (by decide), hno "fd00:" (by decide)]
  simp only [Bool.or_false, Bool.or_eq_true, begins_iff]
  have d10 : digits 10 = "10".toList := by decide +kernel
  have d172 : digits 172 = "172".toList := by decide +kernel
  have d192 : digits 192 = "192".toList := by decide +kernel
  have h10 : Begins a "10." ↔ o1 = 10 := by
    have := quad_begins h 10 []
    rw [d10] at this
    have e : Begins a "10." ↔ ∃ rest, a.ip = "10".toList ++ ['.'] ++ rest := Iff.rfl
    rw [e, this]
    simp [eq_comm]
  have hpre : ∀ (n : Nat) (p : String), (∀ c ∈ p.toList, isCDigit c = true) → 
      ((∃ rest, digits n ++ '.' :: digits o3 ++ '.' :: digits o4 = p.toList ++ rest) ↔
        p.toList <+: digits n) := by
    intro n p hpd
    constructor
    · rintro ⟨rest, hr⟩
      have key : ∀ (u v : Str), (∀ c ∈ v, isCDigit c = true) → ∀ x r, u ++ '.' :: x = v ++ r → v <+: u := by
        intro u
        induction u with
        | nil =>
          intro v hv x r hh
          cases v with
          | nil => simp
          | cons c v =>
            simp at hh
            have := hv c (by simp)
            rw [← hh.1] at this
            exact absurd this (by decide)
        | cons d u ih =>
          intro v hv x r hh
          cases v with
          | nil => simp
          | cons c v =>
            simp at hh
            rw [hh.1, List.cons_prefix_cons]
            exact ⟨rfl, ih v (fun c hc => hv c (by simp [hc])) x r hh.2⟩
      simp only [List.append_assoc, List.cons_append] at hr
      exact key _ _ hpd _ _ hr
    · rintro ⟨r, hr⟩
      exact ⟨r ++ '.' :: digits o3 ++ '.' :: digits o4, by rw [← hr]; simp⟩
  have h16 : ∀ n, n < 256 → ("16".toList <+: digits n ↔ (n = 16 ∨ 160 ≤ n ∧ n ≤ 169)) := by
    have : ∀ n, n < 256 → ("16".toList.isPrefixOf (digits n) = true ↔ (n = 16 ∨ 160 ≤ n ∧ n ≤ 169)) := by
      decide +kernel
    intro n hn
    rw [← List.isPrefixOf_iff_prefix]
    exact this n hn
  have h168 : ∀ n, n < 256 → ("168".toList <+: digits n ↔ n = 168) := by
    have : ∀ n, n < 256 → ("168".toList.isPrefixOf (digits n) = true ↔ n = 168) := by
      decide +kernel
    intro n hn
    rw [← List.isPrefixOf_iff_prefix]
    exact this n hn
  have h172 : Begins a "172.16" ↔ o1 = 172 ∧ (o2 = 16 ∨ 160 ≤ o2 ∧ o2 ≤ 169) := by
    have := quad_begins h 172 "16".toList
    rw [d172] at this
    have e : Begins a "172.16" ↔ ∃ rest, a.ip = "172".toList ++ '.' :: "16".toList ++ rest := Iff.rfl
    rw [e, this, hpre o2 "16" (by decide), h16 o2 hlt]
    simp [eq_comm]
  have h192 : Begins a "192.168" ↔ o1 = 192 ∧ o2 = 168 := by
    have := quad_begins h 192 "168".toList
    rw [d192] at this
    have e : Begins a "192.168" ↔ ∃ rest, a.ip = "192".toList ++ '.' :: "168".toList ++ rest := Iff.rfl
    rw [e, this, hpre o2 "168" (by decide), h168 o2 hlt]
    simp [eq_comm]
  rw [h10, h172, h192]
  constructor
  · rintro ((h | h) | h)
    · exact Or.inl h
    · exact Or.inr (Or.inl h)
    · exact Or.inr (Or.inr h)
  · rintro (h | h | h)
    · exact Or.inl (Or.inl h)
    · exact Or.inl (Or.inr h)
    · exact Or.inr h

/-- Missing from the full property: the private networks 172.17.0.0 to 172.31.0.0 and the public
networks 172.160.0.0 to 172.169.0.0, see `C114_private_missed` and `C114_public_preferred`.  If no device
is named and the chosen IPv4 address is public, then no usable IPv4 address as far from loopback is
private. -/
theorem C114_private_partial {host : List Interface} {pref : Bool} {a b : DeviceIp} {a1 a2 a3 a4 b1 b2 b3 b4 : Nat}
    (h : getBestAddress host [] pref = some a) (hb : Usable host [] b)
    (ha4 : IsQuad a a1 a2 a3 a4) (hb4 : IsQuad b b1 b2 b3 b4)
    (ha : a1 ≠ 172) (hb172 : b1 = 172 → b2 = 16) (hlo : OnLoopback a ↔ OnLoopback b)
    (hpriv : PrivateQuad b1 b2) : PrivateQuad a1 a2 := by
  obtain ⟨pre, post, hl, hll, h1, h2⟩ := best_any host pref a h
  rw [usable_iff, hl] at hb
  have hle : score pref b ≤ score pref a := by
    rcases List.mem_append.1 hb.1 with hm | hm
    · have := h1 b hm hb.2; omega
    · rcases List.mem_cons.1 hm with rfl | hm
      · omega
      · exact h2 b hm hb.2
  have hbp : isPrivate b = true := by
    rw [isPrivate_quad hb4]
    unfold PrivateQuad at hpriv
    omega
  have hlo' : isLoopback a = isLoopback b := by
    unfold isLoopback
    unfold OnLoopback at hlo
    exact decide_eq_decide.2 hlo
  have hap : isPrivate a = true := by
    cases hp : isPrivate a with
    | true => rfl
    | false =>
      unfold score at hle
      rw [hbp, hp, hlo', ha4.1, hb4.1] at hle
      simp at hle
      omega
  rw [isPrivate_quad ha4] at hap
  unfold PrivateQuad
  omega

/-- The private address 172.17.0.1 is not preferred. -/
theorem C114_private_missed : ∃ (host : List Interface) (a b : DeviceIp), IsQuad a 8 8 4 4 ∧ IsQuad b 172 17 0 1 ∧
    PrivateQuad 172 17 ∧ ¬ PrivateQuad 8 8 ∧ Usable host [] b ∧ getBestAddress host [] true = some a := by
  refine ⟨[⟨"eth0".toList, some .inet, some "8.8.4.4".toList⟩,
    ⟨"eth1".toList, some .inet, some "172.17.0.1".toList⟩],
    ⟨"8.8.4.4".toList, "eth0".toList, true⟩, ⟨"172.17.0.1".toList, "eth1".toList, true⟩, ?_, ?_,
    by unfold PrivateQuad; omega, by unfold PrivateQuad; omega, ?_, by decide +kernel⟩
  · exact ⟨rfl, by decide, by decide, by decide, by decide, by decide +kernel⟩
  · exact ⟨rfl, by decide, by decide, by decide, by decide, by decide +kernel⟩
  · rw [usable_iff]
    decide +kernel

/-- The public address 172.160.0.1 is preferred to another public one before it. -/
theorem C114_public_preferred : ∃ (host : List Interface) (a b : DeviceIp), IsQuad a 172 160 0 1 ∧
    ¬ PrivateQuad 172 160 ∧ IsQuad b 192 168 0 1 ∧ PrivateQuad 192 168 ∧ Usable host [] b ∧
    getBestAddress host [] true = some a := by
  refine ⟨[⟨"eth0".toList, some .inet, some "172.160.0.1".toList⟩,
    ⟨"eth1".toList, some .inet, some "192.168.0.1".toList⟩],
    ⟨"172.160.0.1".toList, "eth0".toList, true⟩, ⟨"192.168.0.1".toList, "eth1".toList, true⟩, ?_,
    by unfold PrivateQuad; omega, ?_, by unfold PrivateQuad; omega, ?_, by decide +kernel⟩
  · exact ⟨rfl, by decide, by decide, by decide, by decide, by decide +kernel⟩
  · exact ⟨rfl, by decide, by decide, by decide, by decide, by decide +kernel⟩
  · rw [usable_iff]
    decide +kernel

example : getBestAddress sampleHost [] true = some ⟨"10.10.1.2".toList, "eth1".toList, true⟩ := by
  decide +kernel

/-! ### C115: loopback addresses come last -/

/-- Missing from the full property: loopback addresses that are taken for private, see
`C115_loopback_chosen`. -/
theorem C115_loopback_last_partial {host : List Interface} {pref : Bool} {a b : DeviceIp}
    (h : getBestAddress host [] pref = some a) (hlo : OnLoopback a) (hpub : isPrivate a = false)
    (hb : Usable host [] b) : OnLoopback b := by
  obtain ⟨pre, post, hl, hll, h1, h2⟩ := best_any host pref a h
  rw [usable_iff, hl] at hb
  have hle : score pref b ≤ score pref a := by
    rcases List.mem_append.1 hb.1 with hm | hm
    · have := h1 b hm hb.2; omega
    · rcases List.mem_cons.1 hm with rfl | hm
      · omega
      · exact h2 b hm hb.2
  have hla : isLoopback a = true := decide_eq_true hlo
  cases hlb : isLoopback b with
  | true => exact of_decide_eq_true (p := b.device = "lo".toList) hlb
  | false =>
    unfold score at hle
    rw [hla, hlb, hpub] at hle
    simp only [Bool.false_eq_true, if_false, if_true] at hle
    repeat' split at hle
    all_goals omega

example : OnLoopback ⟨"127.0.0.1".toList, "lo".toList, true⟩ ∧
    getBestAddress (sampleHost.filter (fun i => i.device = "lo".toList)) [] true =
      some ⟨"127.0.0.1".toList, "lo".toList, true⟩ ∧
    isPrivate ⟨"127.0.0.1".toList, "lo".toList, true⟩ = false := by
  refine ⟨rfl, ?_, ?_⟩ <;> decide +kernel

/-- A private address on the loopback device is chosen although another device has an address. -/
theorem C115_loopback_chosen : ∃ (host : List Interface) (a b : DeviceIp), OnLoopback a ∧ Usable host [] b ∧
    ¬ OnLoopback b ∧ getBestAddress host [] true = some a := by
  refine ⟨[⟨"lo".toList, some .inet, some "10.0.0.1".toList⟩,
    ⟨"eth0".toList, some .inet6, some "2001:db8::5".toList⟩],
    ⟨"10.0.0.1".toList, "lo".toList, true⟩, ⟨"2001:db8::5".toList, "eth0".toList, false⟩, rfl, ?_,
    by show ¬ ("eth0".toList = "lo".toList); decide, by decide +kernel⟩
  rw [usable_iff]
  decide +kernel

/-! ### C116: the text of a socket address determines it -/

/-- C116. -/
theorem C116_determined {a b : DeviceIp} {p q : Int} (hp : 0 ≤ p) (hq : 0 ≤ q)
    (ha : a.isV4 = true → ∀ c ∈ a.ip, c ≠ '[') (hb : b.isV4 = true → ∀ c ∈ b.ip, c ≠ '[')
    (hane : a.ip ≠ []) (hbne : b.ip ≠ [])
    (h : socketAddressForIp a p = socketAddressForIp b q) :
    a.ip = b.ip ∧ a.isV4 = b.isV4 ∧ p = q := by
  have hnd : ∀ n : Int, 0 ≤ n → ∀ c ∈ showInt n, c ≠ ':' := by
    intro n hn c hc
    rw [showInt_nonneg hn] at hc
    have := digits_isDigit _ c hc
    rintro rfl
    exact absurd this (by decide)
  -- the last colon separates the port
  have key : ∀ (u v : Str), (∀ c ∈ u, c ≠ ':') → (∀ c ∈ v, c ≠ ':') → ∀ x y : Str,
      x ++ ':' :: u = y ++ ':' :: v → x = y ∧ u = v := by
    intro u v hu hv x
    induction x with
    | nil =>
      intro y hh
      cases y with
      | nil => simp at hh; exact ⟨rfl, hh⟩
      | cons c y =>
        simp at hh
        exact absurd rfl (hu ':' (by rw [hh.2]; simp))
    | cons c x ih =>
      intro y hh
      cases y with
      | nil =>
        simp at hh
        exact absurd rfl (hv ':' (by rw [← hh.2]; simp))
      | cons d y =>
        simp at hh
        obtain ⟨h1, h2⟩ := ih y hh.2
        exact ⟨by rw [hh.1, h1], h2⟩
  unfold socketAddressForIp at h
  cases hva : a.isV4 <;> cases hvb : b.isV4 <;> rw [hva, hvb] at h <;>
    simp only [Bool.false_eq_true, if_false, if_true] at h
  · have h' : ('[' :: a.ip ++ [']']) ++ ':' :: showInt p = ('[' :: b.ip ++ [']']) ++ ':' :: showInt q := by
      simpa using h
    obtain ⟨h1, h2⟩ := key _ _ (hnd p hp) (hnd q hq) _ _ h'
    simp at h1
    exact ⟨h1, rfl, showInt_inj hp hq h2⟩
  · exfalso
    cases hip : b.ip with
    | nil => exact hbne hip
    | cons c r =>
      rw [hip] at h
      simp at h
      exact hb hvb c (by rw [hip]; simp) h.1.symm
  · exfalso
    cases hip : a.ip with
    | nil => exact hane hip
    | cons c r =>
      rw [hip] at h
      simp at h
      exact ha hva c (by rw [hip]; simp) h.1
  · obtain ⟨h1, h2⟩ := key _ _ (hnd p hp) (hnd q hq) _ _ h
    exact ⟨h1, rfl, showInt_inj hp hq h2⟩

example : socketAddressForIp ⟨"::1".toList, "lo".toList, false⟩ 80 = "[::1]:80".toList := by decide +kernel
example : socketAddressForIp ⟨"10.0.0.1".toList, "lo".toList, true⟩ 0 = "10.0.0.1:0".toList := by decide +kernel

/-! ### C117: bind addresses -/

/-- C117.  The address to bind is the chosen address of the named device if it has a usable one.
Otherwise it is a wildcard: the IPv6 one exactly if IPv4 is not preferred and some usable address
is an IPv6 address. -/
theorem C117_bind (flag : Bool) (host : List Interface) (netdev : Str) (port : Int) :
    (netdev ≠ [] → ∀ a, getBestAddress host netdev flag = some a →
      getBindAddressFromPort flag host netdev port = socketAddressForIp a port) ∧
    (netdev = [] ∨ (¬ ∃ a, Usable host netdev a) →
      getBindAddressFromPort flag host netdev port =
        socketAddressForIp ⟨"0.0.0.0".toList, netdev, true⟩ port ∨
      getBindAddressFromPort flag host netdev port =
        socketAddressForIp ⟨"::".toList, netdev, false⟩ port ∧ flag = false ∧
          ∃ a, Usable host netdev a ∧ a.isV4 = false) ∧
    (netdev = [] → flag = false → (∃ a, Usable host netdev a ∧ a.isV4 = false) →
      getBindAddressFromPort flag host netdev port =
        socketAddressForIp ⟨"::".toList, netdev, false⟩ port) := by
  have honly : hasOnlyV4 host netdev = false ↔ ∃ a, Usable host netdev a ∧ a.isV4 = false := by
    unfold hasOnlyV4
    simp only [List.all_eq_false, Bool.not_eq_true, Bool.or_eq_false_iff]
    constructor
    · rintro ⟨a, h1, h2, h3⟩
      exact ⟨a, (usable_iff _ _ _).2 ⟨h1, h3⟩, h2⟩
    · rintro ⟨a, h1, h2⟩
      rw [usable_iff] at h1
      exact ⟨a, h1.1, h2, h1.2⟩
  refine ⟨?_, ?_, ?_⟩
  · intro hdev a ha
    unfold getBindAddressFromPort
    cases netdev with
    | nil => exact absurd rfl hdev
    | cons c cs => rw [ha]
  · intro hno
    have hw : getBindAddressFromPort flag host netdev port =
        if hasOnlyV4 host netdev || flag then "0.0.0.0:".toList ++ showInt port
        else "[::]:".toList ++ showInt port := by
      unfold getBindAddressFromPort
      cases netdev with
      | nil => rfl
      | cons c cs =>
        rcases hno with hno | hno
        · cases hno
        · rw [(C53_fails_iff _ _ _).2 hno]
    rw [hw]
    cases ho : hasOnlyV4 host netdev
    · cases flag
      · right
        exact ⟨rfl, rfl, honly.1 ho⟩
      · left; rfl
    · left; rfl
  · intro hnil hflag hex
    unfold getBindAddressFromPort
    subst hnil hflag
    rw [honly.2 hex]
    rfl

/-- C117, the address that is announced.  Announcing fails exactly if the device has no usable address; the
text is that of a usable address, of the preferred version if the named device has one; and on a named device
it is the address that is bound. -/
theorem C117_announced (flag : Bool) (host : List Interface) (netdev : Str) (port : Int) :
    (socketAddressForDevice flag host netdev port = none ↔ ¬ ∃ a, Usable host netdev a) ∧
    (∀ text, socketAddressForDevice flag host netdev port = some text →
      ∃ a, Usable host netdev a ∧ text = socketAddressForIp a port ∧
        (netdev ≠ [] → (∃ b, Usable host netdev b ∧ b.isV4 = flag) → a.isV4 = flag)) ∧
    (∀ text, netdev ≠ [] → socketAddressForDevice flag host netdev port = some text →
      getBindAddressFromPort flag host netdev port = text) := by
  unfold socketAddressForDevice
  refine ⟨?_, ?_, ?_⟩
  · rw [Option.map_eq_none_iff]
    exact C53_fails_iff _ _ _
  · intro text h
    obtain ⟨a, ha, rfl⟩ := Option.map_eq_some_iff.1 h
    exact ⟨a, C53_usable _ _ _ _ ha, rfl, fun hdev ⟨b, hb, hv⟩ => C53_family _ _ _ _ _ hdev ha hb hv⟩
  · intro text hdev h
    obtain ⟨a, ha, rfl⟩ := Option.map_eq_some_iff.1 h
    exact (C117_bind flag host netdev port).1 hdev a ha

example : (socketAddressForDevice false sampleHost [] 10000).isSome := by decide +kernel
example : getBindAddressFromPort false sampleHost [] 10000 = "[::]:10000".toList := by decide +kernel
example : getBindAddressFromPort true sampleHost [] 10000 = "0.0.0.0:10000".toList := by decide +kernel
example : getBindAddressFromPort true sampleHost "eth1".toList 10000 = "10.10.1.2:10000".toList := by decide +kernel

/-! ### C118: 6to4 addresses count like the IPv4 addresses in them -/

theorem hexRun_append (acc count : Nat) (u v : Str) (h : ∀ c ∈ u, (hexValue c).isSome) :
    hexRun acc count (u ++ v) =
      hexRun (u.foldl (fun acc c => acc * 16 + (hexValue c).getD 0) acc) (count + u.length) v := by
  induction u generalizing acc count with
  | nil => simp
  | cons c u ih =>
    have hc := h c (by simp)
    obtain ⟨d, hd⟩ := Option.isSome_iff_exists.1 hc
    rw [List.cons_append, hexRun, hd]
    simp only
    rw [ih _ _ (fun c hc => h c (by simp [hc]))]
    simp only [List.foldl_cons, hd, Option.getD_some, List.length_cons]
    congr 1
    omega

theorem hexChar_value : ∀ d, d < 16 → hexValue (hexChar d) = some d := by decide +kernel

theorem hexText_lt {n : Nat} (h : n < 16) : hexText n = [hexChar n] := by
  rw [hexText]; simp [h]

theorem hexText_ge {n : Nat} (h : 16 ≤ n) : hexText n = hexText (n / 16) ++ [hexChar (n % 16)] := by
  rw [hexText]; simp [show ¬ n < 16 by omega]

theorem hexText_spec (n : Nat) : (∀ c ∈ hexText n, (hexValue c).isSome) ∧
    (hexText n).foldl (fun acc c => acc * 16 + (hexValue c).getD 0) 0 = n ∧ 0 < (hexText n).length := by
  induction n using Nat.strongRecOn with
  | ind n ih =>
    by_cases h : n < 16
    · rw [hexText_lt h]
      simp [hexChar_value n h]
    · obtain ⟨h1, h2, h3⟩ := ih (n / 16) (by omega)
      have hc := hexChar_value (n % 16) (by omega)
      rw [hexText_ge (by omega)]
      refine ⟨?_, ?_, by simp⟩
      · intro c hcm
        rcases List.mem_append.1 hcm with hm | hm
        · exact h1 c hm
        · simp at hm
          rw [hm, hc]
          rfl
      · rw [List.foldl_append, h2]
        simp [hc]
        omega

theorem scanHex_hexText {n : Nat} (hn : n < 65536) (rest : Str) :
    scanHex (hexText n ++ ':' :: rest) = some (n, ':' :: rest) := by
  obtain ⟨h1, h2, h3⟩ := hexText_spec n
  unfold scanHex
  rw [hexRun_append _ _ _ _ h1, h2, hexRun]
  have : hexValue ':' = none := by decide
  rw [this]
  simp only
  cases hl : 0 + (hexText n).length with
  | zero => omega
  | succ k => simp only [Nat.mod_eq_of_lt (show n < 2 ^ 32 by omega)]

/-- C118.  A 6to4 address, whose second and third groups hold an IPv4 address, is taken for private
exactly if that IPv4 address is. -/
theorem C118_6to4 {a b : DeviceIp} {o1 o2 o3 o4 : Nat} {rest : Str} (hb : IsQuad b o1 o2 o3 o4)
    (ha : a.ip = "2002:".toList ++ hexText (o1 * 256 + o2) ++ ':' :: hexText (o3 * 256 + o4) ++ ':' :: rest) :
    isPrivate a = true ↔
      o1 = 10 ∨ (o1 = 172 ∧ (o2 = 16 ∨ 160 ≤ o2 ∧ o2 ≤ 169)) ∨ (o1 = 192 ∧ o2 = 168) := by
  rw [← isPrivate_quad hb]
  obtain ⟨_, l1, l2, l3, l4, hip⟩ := hb
  have hscan : scan6to4 a.ip = some (o1 * 256 + o2, o3 * 256 + o4) := by
    unfold scan6to4
    have hp : "2002:".toList.isPrefixOf a.ip = true := by
      rw [begins_iff]
      exact ⟨hexText (o1 * 256 + o2) ++ ':' :: hexText (o3 * 256 + o4) ++ ':' :: rest, by rw [ha]; simp only [List.append_assoc, List.cons_append]⟩
    have hd : a.ip.drop 5 = hexText (o1 * 256 + o2) ++ ':' :: (hexText (o3 * 256 + o4) ++ ':' :: rest) := by
      rw [ha]
      simp only [List.append_assoc, List.cons_append]
      rfl
    rw [hp, hd, scanHex_hexText (by omega)]
    simp only [if_true]
    rw [scanHex_hexText (by omega)]
  have hq : scan6to4 b.ip = none := by
    unfold scan6to4
    have : "2002:".toList.isPrefixOf b.ip = false := by
      cases hp : "2002:".toList.isPrefixOf b.ip with
      | false => rfl
      | true =>
        obtain ⟨r, hr⟩ := (begins_iff b "2002:").1 hp
        have hd : ∀ n, ':' ∉ digits n := fun n hc => absurd (digits_isDigit n ':' hc) (by decide)
        have : ':' ∉ b.ip := by rw [hip]; simp [hd]
        exact absurd (by rw [hr]; simp) this
    rw [this]
    simp
  have hdot : dotted ((o1 * 256 + o2) / 256) ((o1 * 256 + o2) % 256) ((o3 * 256 + o4) / 256)
      ((o3 * 256 + o4) % 256) = b.ip := by
    rw [hip, show (o1 * 256 + o2) / 256 = o1 by omega, show (o1 * 256 + o2) % 256 = o2 by omega,
      show (o3 * 256 + o4) / 256 = o3 by omega, show (o3 * 256 + o4) % 256 = o4 by omega]
    rfl
  unfold isPrivate
  rw [hscan, hq]
  dsimp only
  rw [hdot]

example : isPrivate ⟨"2002:c0a8:501::1".toList, "eth0".toList, false⟩ = true ∧
    "2002:c0a8:501::1".toList = "2002:".toList ++ hexText (192 * 256 + 168) ++ ':' :: hexText (5 * 256 + 1) ++
      ':' :: ":1".toList := by
  constructor <;> decide +kernel

end Distbench.Netutils
