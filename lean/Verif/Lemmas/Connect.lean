import Verif.Spec.Connect

/-! Lemmas for connections: the C library reads exactly the texts of addresses. -/

namespace Distbench.Connect
open Spec Netutils

/-! ### Digits -/

theorem le_iff {a b : Char} : a ≤ b ↔ a.toNat ≤ b.toNat := by
  rw [Char.le_def]
  exact UInt32.le_iff_toNat_le

theorem dec_iff {c : Char} : (48 ≤ c.toNat ∧ c.toNat ≤ 57) ↔ ('0' ≤ c ∧ c ≤ '9') := by
  rw [le_iff, le_iff]; rfl

theorem decDigit_some {c : Char} {d : Nat} : decDigit c = some d ↔ (48 ≤ c.toNat ∧ c.toNat ≤ 57) ∧ d = c.toNat - 48 := by
  unfold decDigit
  split
  · next h =>
    have h' := dec_iff.2 h
    exact ⟨fun e => ⟨h', (Option.some.inj e).symm⟩, fun e => by rw [e.2]⟩
  · next h =>
    have h' := mt dec_iff.1 h
    exact ⟨fun e => (by cases e), fun e => absurd e.1 h'⟩

theorem hexDigit_eq (c : Char) : hexDigit c = hexValue c := by
  unfold hexDigit hexValue
  simp only [le_iff]
  rfl

theorem dec_hex {c : Char} {d : Nat} (h : decDigit c = some d) : ∃ e, hexValue c = some e := by
  obtain ⟨h1, rfl⟩ := decDigit_some.1 h
  exact ⟨_, by unfold hexValue; rw [if_pos h1]⟩

theorem digits_append {base : Nat} {digit : Char → Option Nat} (t u : Str) (n : Nat) :
    digitsAfter base digit n (t ++ u) = (digitsAfter base digit n t).bind fun m => digitsAfter base digit m u := by
  induction t generalizing n with
  | nil => rfl
  | cons c t ih =>
    simp only [List.cons_append, digitsAfter]
    cases digit c with
    | none => rfl
    | some d => exact ih _

theorem digits_ge {digit : Char → Option Nat} {t : Str} {n v : Nat} (h : digitsAfter 10 digit n t = some v) : n ≤ v := by
  induction t generalizing n with
  | nil => cases h; exact Nat.le_refl _
  | cons c t ih =>
    simp only [digitsAfter] at h
    cases hc : digit c with
    | none => rw [hc] at h; cases h
    | some d => rw [hc] at h; have := ih h; omega

/-! ### IPv4 -/

theorem octet_rest {t : Str} {v w : Nat} (hv : v ≠ 0) (h : digitsAfter 10 decDigit v t = some w) (hw : w < 256)
    (done : List Nat) (u : Str) : pton4Loop done (some v) (t ++ u) = pton4Loop done (some w) u := by
  induction t generalizing v with
  | nil => cases h; rfl
  | cons c t ih =>
    simp only [digitsAfter] at h
    cases hc : decDigit c with
    | none => rw [hc] at h; cases h
    | some d =>
      rw [hc] at h
      dsimp only at h
      obtain ⟨h1, rfl⟩ := decDigit_some.1 hc
      have := digits_ge h
      rw [List.cons_append, pton4Loop, if_pos h1]
      rw [if_neg hv, if_neg (by omega)]
      exact ih (by omega) h

theorem octet_read {t : Str} {v : Nat} (h : OctetText t v) {done : List Nat} (hd : done.length ≠ 4) (u : Str) :
    pton4Loop done none (t ++ u) = pton4Loop done (some v) u := by
  obtain ⟨h1, h2, h3, h4⟩ := h
  cases t with
  | nil => exact absurd rfl h1
  | cons c t =>
    simp only [digitsAfter] at h2
    cases hc : decDigit c with
    | none => rw [hc] at h2; cases h2
    | some d =>
      rw [hc] at h2
      dsimp only at h2
      obtain ⟨h5, rfl⟩ := decDigit_some.1 hc
      rw [List.cons_append, pton4Loop, if_pos h5]
      rw [if_neg hd]
      rw [show 0 * 10 + (c.toNat - 48) = c.toNat - 48 by omega] at h2
      by_cases h0 : c.toNat - 48 = 0
      · have hc0 : c = '0' := by
          apply Char.toNat_inj.1
          show c.toNat = 48
          omega
        have := h4 (by rw [hc0]; rfl)
        rw [List.cons.injEq] at this
        rw [this.2] at h2 ⊢
        cases h2
        rfl
      · exact octet_rest h0 h2 h3 done u

theorem octets_ne {t : Str} {l : List Nat} (h : Octets t l) : 1 ≤ l.length := by
  cases h <;> simp

theorem octets_read {s : Str} {l : List Nat} (h : Octets s l) {done : List Nat} (hd : done.length + l.length = 4) :
    pton4Loop done none s = some (done ++ l) := by
  induction h generalizing done with
  | @one t v h =>
    rw [← List.append_nil t, octet_read h (by simp at hd; omega), pton4Loop]
    rw [if_pos (by simpa using hd)]
  | @more t v u l h h' ih =>
    have hl := octets_ne h'
    simp only [List.length_cons] at hd
    rw [octet_read h (by omega), pton4Loop, if_neg (by decide), if_pos rfl]
    rw [if_neg (by omega), ih (by simp; omega), List.append_assoc]
    rfl

theorem octet_snoc {t : Str} {v : Nat} (h : OctetText t v) (hv : v ≠ 0) {c : Char} (hc : 48 ≤ c.toNat ∧ c.toNat ≤ 57)
    (hw : v * 10 + (c.toNat - 48) < 256) : OctetText (t ++ [c]) (v * 10 + (c.toNat - 48)) := by
  obtain ⟨h1, h2, h3, h4⟩ := h
  refine ⟨by simp, ?_, hw, ?_⟩
  · rw [digits_append, h2]
    simp only [Option.bind_some, digitsAfter, decDigit_some.2 ⟨hc, rfl⟩]
  · intro hh
    cases t with
    | nil => exact absurd rfl h1
    | cons x t =>
      have := h4 (by simpa using hh)
      rw [this] at h2
      exact absurd (Option.some.inj h2).symm hv

theorem octets_sound (s : Str) : (∀ done a, pton4Loop done none s = some a →
      ∃ l, Octets s l ∧ a = done ++ l ∧ a.length = 4) ∧
    (∀ done t v a, OctetText t v → pton4Loop done (some v) s = some a →
      ∃ l, Octets (t ++ s) l ∧ a = done ++ l ∧ a.length = 4) := by
  induction s with
  | nil =>
    refine ⟨fun done a h => by simp [pton4Loop] at h, fun done t v a ht h => ?_⟩
    simp only [pton4Loop] at h
    split at h
    · next hd =>
      cases h
      exact ⟨[v], by simpa using .one ht, rfl, by simp [hd]⟩
    · cases h
  | cons c s ih =>
    constructor
    · intro done a h
      rw [pton4Loop] at h
      split at h
      · next hc =>
        split at h
        · cases h
        · have ho : OctetText [c] (c.toNat - 48) := by
            refine ⟨by simp, ?_, by omega, fun hh => by simpa using hh⟩
            simp only [digitsAfter, decDigit_some.2 ⟨hc, rfl⟩]
            congr 1; omega
          exact ih.2 _ _ _ _ ho h
      · split at h <;> cases h
    · intro done t v a ht h
      rw [pton4Loop] at h
      split at h
      · next hc =>
        split at h
        · cases h
        · next hv =>
          split at h
          · cases h
          · obtain ⟨l, h1, h2⟩ := ih.2 _ _ _ _ (octet_snoc ht hv hc (by omega)) h
            refine ⟨l, ?_, h2⟩
            rwa [List.append_assoc] at h1
      · split at h
        · next hc =>
          subst hc
          split at h
          · cases h
          · obtain ⟨l, h1, h2, h3⟩ := ih.1 _ _ h
            refine ⟨v :: l, .more ht h1, ?_, h3⟩
            rw [h2, List.append_assoc]
            rfl
        · cases h

/-- `inet_pton` for IPv4 accepts exactly the texts of IPv4 addresses. -/
theorem pton4_iff {s : Str} {a : List Nat} : pton4 s = some a ↔ V4Text s a := by
  constructor
  · intro h
    obtain ⟨l, h1, h2, h3⟩ := (octets_sound s).1 _ _ h
    rw [List.nil_append] at h2
    subst h2
    exact ⟨h1, h3⟩
  · rintro ⟨h1, h2⟩
    exact octets_read h1 (by simpa using h2)

/-! ### IPv6 -/

theorem loop_nil (done : List Nat) (gap : Option Nat) (digits val : Nat) (tok : Str) :
    pton6Loop done gap digits val tok [] =
      if digits = 0 then finish6 done gap
      else if 8 ≤ done.length then none
      else finish6 (done ++ [val]) gap := by
  rw [pton6Loop.eq_def]

theorem loop_hex (done : List Nat) (gap : Option Nat) (digits val : Nat) (tok rest : Str) {c : Char} {d : Nat}
    (h : hexValue c = some d) : pton6Loop done gap digits val tok (c :: rest) =
      if digits = 4 then none else pton6Loop done gap (digits + 1) (val * 16 + d) tok rest := by
  rw [pton6Loop.eq_def]
  dsimp only
  rw [h]

theorem loop_colon (done : List Nat) (gap : Option Nat) (digits val : Nat) (tok rest : Str) :
    pton6Loop done gap digits val tok (':' :: rest) =
      if digits = 0 then
        if gap = none then pton6Loop done (some done.length) 0 0 rest rest else none
      else if rest = [] then none
      else if 8 ≤ done.length then none
      else pton6Loop (done ++ [val]) gap 0 0 rest rest := by
  rw [pton6Loop.eq_def]
  dsimp only
  rw [show hexValue ':' = none by decide]
  dsimp only
  rw [if_pos rfl]
  cases gap <;> rfl

theorem loop_dot (done : List Nat) (gap : Option Nat) (digits val : Nat) (tok rest : Str) :
    pton6Loop done gap digits val tok ('.' :: rest) =
      if done.length ≤ 6 then
        match pton4 tok with
        | some [a, b, c, d] => finish6 (done ++ [a * 256 + b, c * 256 + d]) gap
        | _ => none
      else none := by
  rw [pton6Loop.eq_def]
  dsimp only
  rw [show hexValue '.' = none by decide]
  dsimp only
  rw [if_neg (by decide)]
  simp only [true_and]
  rfl

theorem loop_other (done : List Nat) (gap : Option Nat) (digits val : Nat) (tok rest : Str) {c : Char}
    (h : hexValue c = none) (h1 : c ≠ ':') (h2 : c ≠ '.') : pton6Loop done gap digits val tok (c :: rest) = none := by
  rw [pton6Loop.eq_def]
  dsimp only
  rw [h]
  dsimp only
  rw [if_neg h1, if_neg (fun e => h2 e.1)]

theorem hex_read {t : Str} {n v : Nat} (h : digitsAfter 16 hexDigit n t = some v) {k : Nat} (hk : k + t.length ≤ 4)
    (done : List Nat) (gap : Option Nat) (tok u : Str) :
    pton6Loop done gap k n tok (t ++ u) = pton6Loop done gap (k + t.length) v tok u := by
  induction t generalizing n k with
  | nil => cases h; rfl
  | cons c t ih =>
    simp only [digitsAfter] at h
    rw [hexDigit_eq] at h
    cases hc : hexValue c with
    | none => rw [hc] at h; cases h
    | some d =>
      rw [hc] at h
      dsimp only at h
      simp only [List.length_cons] at hk
      rw [List.cons_append, loop_hex _ _ _ _ _ _ hc, if_neg (by omega), ih h (by omega), List.length_cons]
      congr 1
      omega

theorem group_read {t : Str} {v : Nat} (h : GroupText t v) (done : List Nat) (gap : Option Nat) (tok u : Str) :
    pton6Loop done gap 0 0 tok (t ++ u) = pton6Loop done gap t.length v tok u := by
  rw [hex_read h.2.2 (by have := h.2.1; omega), Nat.zero_add]

/-- An octet is also read as hexadecimal digits. -/
theorem octet_hex {t : Str} {v : Nat} (h : OctetText t v) : 1 ≤ t.length ∧ t.length ≤ 3 ∧
    ∃ w, digitsAfter 16 hexDigit 0 t = some w := by
  obtain ⟨h1, h2, h3, h4⟩ := h
  refine ⟨List.length_pos_iff.2 h1, ?_, ?_⟩
  · match t, h2, h4 with
    | [], _, _ => simp
    | [_], _, _ => simp
    | [_, _], _, _ => simp
    | [_, _, _], _, _ => simp
    | c :: c1 :: c2 :: c3 :: t, h2, h4 =>
      exfalso
      simp only [digitsAfter] at h2
      cases hc : decDigit c with
      | none => rw [hc] at h2; cases h2
      | some d =>
        rw [hc] at h2; dsimp only at h2
        cases hc1 : decDigit c1 with
        | none => rw [hc1] at h2; cases h2
        | some d1 =>
          rw [hc1] at h2; dsimp only at h2
          cases hc2 : decDigit c2 with
          | none => rw [hc2] at h2; cases h2
          | some d2 =>
            rw [hc2] at h2; dsimp only at h2
            cases hc3 : decDigit c3 with
            | none => rw [hc3] at h2; cases h2
            | some d3 =>
              rw [hc3] at h2; dsimp only at h2
              have := digits_ge h2
              obtain ⟨h5, h6⟩ := decDigit_some.1 hc
              have h0 : c.toNat = 48 := by omega
              have hc0 : c = '0' := Char.toNat_inj.1 h0
              have := h4 (by rw [hc0]; rfl)
              simp at this
  · clear h1 h3 h4
    suffices ∀ n m, digitsAfter 10 decDigit n t = some v → ∃ w, digitsAfter 16 hexDigit m t = some w from this _ 0 h2
    clear h2
    induction t with
    | nil => exact fun n m _ => ⟨m, rfl⟩
    | cons c t ih =>
      intro n m h
      simp only [digitsAfter] at h ⊢
      cases hc : decDigit c with
      | none => rw [hc] at h; cases h
      | some d =>
        rw [hc] at h
        obtain ⟨e, he⟩ := dec_hex hc
        rw [hexDigit_eq, he]
        exact ih _ _ h

theorem last_ne {t : Str} {l : List Nat} (h : LastGroups t l) : t ≠ [] ∧ 1 ≤ l.length := by
  cases h with
  | one h => exact ⟨fun e => by subst e; exact absurd h.1 (by decide), by simp⟩
  | dotted h =>
    refine ⟨fun e => ?_, by simp⟩
    subst e
    have := pton4_iff.2 h
    simp [pton4, pton4Loop] at this
  | more h h' => exact ⟨by simp, by simp⟩

theorem last_read {s : Str} {l : List Nat} (h : LastGroups s l) {done : List Nat} (hd : done.length + l.length ≤ 8)
    (gap : Option Nat) : pton6Loop done gap 0 0 s s = finish6 (done ++ l) gap := by
  induction h generalizing done gap with
  | @one t v h =>
    have h1 := group_read h done gap t []
    rw [List.append_nil] at h1
    simp only [List.length_singleton] at hd
    rw [h1, loop_nil, if_neg (by have := h.1; omega), if_neg (by omega)]
  | @dotted t a b c d h =>
    simp only [List.length_cons, List.length_nil] at hd
    have hp := pton4_iff.2 h
    obtain ⟨ho, hlen⟩ := h
    cases ho with
    | @more t1 _ u _ h1 h2 =>
      obtain ⟨g1, g2, w, g3⟩ := octet_hex h1
      rw [hex_read g3 (by omega), loop_dot, if_pos (by omega), hp]
  | @more t v u l h h' ih =>
    obtain ⟨hu, hl⟩ := last_ne h'
    simp only [List.length_cons] at hd
    rw [group_read h, loop_colon, if_neg (by have := h.1; omega), if_neg hu, if_neg (by omega), ih (by simp; omega),
      List.append_assoc]
    rfl

/-- Groups, each followed by a colon. -/
inductive Lead : Str → List Nat → Prop where
  | nil : Lead [] []
  | cons {t v u l} : GroupText t v → Lead u l → Lead (t ++ ':' :: u) (v :: l)

theorem lead_of {t : Str} {l : List Nat} (h : Groups t l) : Lead (t ++ [':']) l := by
  induction h with
  | one h => exact .cons h .nil
  | more h _ ih =>
    have := Lead.cons h ih
    simpa using this

theorem of_lead {t : Str} {l : List Nat} (h : Lead t l) : t = [] ∧ l = [] ∨ ∃ u, t = u ++ [':'] ∧ Groups u l := by
  induction h with
  | nil => exact .inl ⟨rfl, rfl⟩
  | @cons t v u l h h' ih =>
    right
    rcases ih with ⟨rfl, rfl⟩ | ⟨u', rfl, hu⟩
    · exact ⟨t, rfl, .one h⟩
    · exact ⟨t ++ ':' :: u', by simp, .more h hu⟩

theorem gap_read {tl : Str} {pre : List Nat} (h : Lead tl pre) {t2 : Str} {l2 : List Nat}
    (h2 : t2 = [] ∧ l2 = [] ∨ LastGroups t2 l2) {done : List Nat} (hd : done.length + pre.length + l2.length < 8) :
    pton6Loop done none 0 0 (tl ++ ':' :: t2) (tl ++ ':' :: t2) =
      some (done ++ pre ++ List.replicate (8 - (done.length + pre.length + l2.length)) 0 ++ l2) := by
  induction h generalizing done with
  | nil =>
    rw [List.nil_append, loop_colon, if_pos rfl, if_pos rfl]
    have h3 : pton6Loop done (some done.length) 0 0 t2 t2 = finish6 (done ++ l2) (some done.length) := by
      rcases h2 with ⟨rfl, rfl⟩ | h2
      · rw [List.append_nil]; rfl
      · simp only [List.length_nil] at hd
        exact last_read h2 (by omega) _
    rw [h3, finish6]
    simp only [List.length_nil] at hd
    rw [if_neg (by simp; omega), List.take_left, List.drop_left, List.append_nil, List.length_append]
    rfl
  | @cons t v u l h h' ih =>
    simp only [List.length_cons] at hd
    rw [List.append_assoc, List.cons_append, group_read h, loop_colon, if_neg (by have := h.1; omega), if_neg (by simp), if_neg (by omega),
      ih (by simp; omega)]
    simp only [List.append_assoc, List.length_append, List.length_cons, List.length_nil, List.cons_append, List.nil_append]
    congr 6
    omega

/-! Soundness. -/

/-- The hexadecimal digits at the front. -/
theorem hex_span (s : Str) : ∃ t rest, s = t ++ rest ∧ (∀ c ∈ t, ∃ d, hexValue c = some d) ∧
    (∀ c, rest.head? = some c → hexValue c = none) := by
  induction s with
  | nil => exact ⟨[], [], rfl, by simp, by simp⟩
  | cons c s ih =>
    cases hc : hexValue c with
    | none => exact ⟨[], c :: s, rfl, by simp, fun c' h => by cases h; exact hc⟩
    | some d =>
      obtain ⟨t, rest, h1, h2, h3⟩ := ih
      refine ⟨c :: t, rest, by rw [h1]; rfl, fun x hx => ?_, h3⟩
      rcases List.mem_cons.1 hx with rfl | hx
      · exact ⟨d, hc⟩
      · exact h2 x hx

theorem hex_total {t : Str} (h : ∀ c ∈ t, ∃ d, hexValue c = some d) (n : Nat) :
    ∃ v, digitsAfter 16 hexDigit n t = some v := by
  induction t generalizing n with
  | nil => exact ⟨n, rfl⟩
  | cons c t ih =>
    obtain ⟨d, hd⟩ := h c List.mem_cons_self
    simp only [digitsAfter, hexDigit_eq, hd]
    exact ih (fun x hx => h x (List.mem_cons_of_mem _ hx)) _

theorem hex_long {t : Str} (h : ∀ c ∈ t, ∃ d, hexValue c = some d) {k n : Nat} (hk : k ≤ 4) (hl : 4 < k + t.length)
    (done : List Nat) (gap : Option Nat) (tok u : Str) : pton6Loop done gap k n tok (t ++ u) = none := by
  induction t generalizing k n with
  | nil => simp at hl; omega
  | cons c t ih =>
    obtain ⟨d, hd⟩ := h c List.mem_cons_self
    rw [List.cons_append, loop_hex _ _ _ _ _ _ hd]
    split
    · rfl
    · simp only [List.length_cons] at hl
      exact ih (fun x hx => h x (List.mem_cons_of_mem _ hx)) (by omega) (by omega)

theorem finish_len {l a : List Nat} {g : Option Nat} (h : finish6 l g = some a) : l.length ≤ 8 := by
  unfold finish6 at h
  split at h <;> split at h
  · cases h
  · omega
  · omega
  · cases h

theorem sound6 : ∀ (n : Nat) (s : Str), s.length ≤ n → ∀ (done : List Nat) (gap : Option Nat) (a : List Nat),
    pton6Loop done gap 0 0 s s = some a →
    (∃ l, (s = [] ∧ l = [] ∨ LastGroups s l) ∧ finish6 (done ++ l) gap = some a) ∨
    (gap = none ∧ ∃ tl pre t2 l2, Lead tl pre ∧ (t2 = [] ∧ l2 = [] ∨ LastGroups t2 l2) ∧ s = tl ++ ':' :: t2 ∧
      finish6 (done ++ pre ++ l2) (some (done ++ pre).length) = some a) := by
  intro n
  induction n with
  | zero =>
    intro s hs done gap a h
    obtain rfl : s = [] := List.length_eq_zero_iff.1 (by omega)
    left
    exact ⟨[], .inl ⟨rfl, rfl⟩, by rw [List.append_nil]; simpa [pton6Loop] using h⟩
  | succ n ih =>
    intro s hs done gap a h
    obtain ⟨t, rest, rfl, ht, hr⟩ := hex_span s
    obtain ⟨v, hv⟩ := hex_total ht 0
    by_cases hlen : t.length ≤ 4
    · have h0 := h
      rw [hex_read hv (by omega), Nat.zero_add] at h
      have hg : t ≠ [] → GroupText t v := fun hne => ⟨List.length_pos_iff.2 hne, hlen, hv⟩
      cases rest with
      | nil =>
        left
        rw [loop_nil] at h
        split at h
        · next hz =>
          obtain rfl := List.length_eq_zero_iff.1 hz
          exact ⟨[], .inl ⟨rfl, rfl⟩, by rw [List.append_nil]; exact h⟩
        · next hz =>
          split at h
          · cases h
          · refine ⟨[v], .inr ?_, h⟩
            rw [List.append_nil]
            exact .one (hg fun e => hz (by rw [e]; rfl))
      | cons c rest =>
        have hc := hr c rfl
        simp only [List.length_append, List.length_cons] at hs
        by_cases hcc : c = ':'
        · subst hcc
          rw [loop_colon] at h
          split at h
          · next hz =>
            obtain rfl := List.length_eq_zero_iff.1 hz
            split at h
            · next hgap =>
              right
              refine ⟨hgap, ?_⟩
              rcases ih rest (by simp at hs; omega) _ _ _ h with ⟨l, h1, h2⟩ | ⟨h1, _⟩
              · exact ⟨[], [], rest, l, .nil, h1, rfl, by simpa using h2⟩
              · cases h1
            · cases h
          · next hz =>
            split at h
            · cases h
            · next hne =>
              split at h
              · cases h
              · have hgt := hg fun e => hz (by rw [e]; rfl)
                rcases ih rest (by omega) _ _ _ h with ⟨l, h1, h2⟩ | ⟨h1, tl, pre, t2, l2, h2, h3, h4, h5⟩
                · left
                  rcases h1 with ⟨h1, _⟩ | h1
                  · exact absurd h1 hne
                  · exact ⟨v :: l, .inr (.more hgt h1), by simpa using h2⟩
                · right
                  refine ⟨h1, t ++ ':' :: tl, v :: pre, t2, l2, .cons hgt h2, h3, by rw [h4]; simp, ?_⟩
                  simpa using h5
        · by_cases hcd : c = '.'
          · subst hcd
            rw [loop_dot] at h
            split at h
            · left
              split at h
              · next a1 b1 c1 d1 hp =>
                exact ⟨_, .inr (.dotted (pton4_iff.1 hp)), h⟩
              · cases h
            · cases h
          · rw [loop_other _ _ _ _ _ _ hc hcc hcd] at h
            cases h
    · rw [hex_long ht (by omega) (by omega)] at h
      cases h

theorem group_head {t : Str} {v : Nat} (h : GroupText t v) {c : Char} {u : Str} (e : t = c :: u) : c ≠ ':' := by
  subst e
  rintro rfl
  have := h.2.2
  simp only [digitsAfter] at this
  rw [show hexDigit ':' = none by decide] at this
  cases this

theorem last_head {u : Str} {l : List Nat} : ¬ LastGroups (':' :: u) l := by
  intro h
  generalize e : ':' :: u = s at h
  cases h with
  | one h => exact group_head h e.symm rfl
  | dotted h =>
    subst e
    have := pton4_iff.2 h
    simp [pton4, pton4Loop] at this
  | @more t v u' l h h' =>
    cases t with
    | nil => exact absurd h.1 (by decide)
    | cons c t =>
      rw [List.cons_append, List.cons.injEq] at e
      exact group_head h rfl e.1.symm

theorem lead_head {u tl : Str} {pre : List Nat} (h : Lead tl pre) {t2 : Str} (e : ':' :: u = tl ++ ':' :: t2) :
    tl = [] ∧ pre = [] ∧ u = t2 := by
  cases h with
  | nil => simp at e; exact ⟨rfl, rfl, e⟩
  | @cons t v u' l h h' =>
    cases t with
    | nil => exact absurd h.1 (by decide)
    | cons c t =>
      rw [List.cons_append, List.cons_append, List.cons.injEq] at e
      exact absurd e.1.symm (group_head h rfl)

theorem finish_gap {l1 l2 a : List Nat} (h : finish6 (l1 ++ l2) (some l1.length) = some a) :
    l1.length + l2.length < 8 ∧ a = l1 ++ List.replicate (8 - (l1.length + l2.length)) 0 ++ l2 := by
  unfold finish6 at h
  dsimp only at h
  split at h
  · cases h
  · rename_i hlt
    rw [List.length_append] at hlt
    rw [List.take_left, List.drop_left, List.length_append] at h
    exact ⟨by omega, (Option.some.inj h).symm⟩

/-- `inet_pton` for IPv6 accepts exactly the texts of IPv6 addresses. -/
theorem pton6_iff {s : Str} {a : List Nat} : pton6 s = some a ↔ V6Text s a := by
  constructor
  · intro h
    unfold pton6 at h
    split at h
    · cases h
    · rename_i rest
      rcases sound6 _ _ (Nat.le_refl _) _ _ _ h with ⟨l, h1, _⟩ | ⟨_, tl, pre, t2, l2, h1, h2, h3, h4⟩
      · rcases h1 with ⟨h1, _⟩ | h1
        · cases h1
        · exact absurd h1 last_head
      · obtain ⟨rfl, rfl, rfl⟩ := lead_head h1 h3
        obtain ⟨h5, rfl⟩ := finish_gap (l1 := []) h4
        exact .gap (t1 := []) (.inl ⟨rfl, rfl⟩) h2 h5
    · cases h
    · rename_i h1 h2 h3
      rcases sound6 _ _ (Nat.le_refl _) _ _ _ h with ⟨l, h4, h5⟩ | ⟨_, tl, pre, t2, l2, h4, h5, h6, h7⟩
      · rcases h4 with ⟨h4, _⟩ | h4
        · exact absurd h4 h1
        · rw [List.nil_append] at h5
          unfold finish6 at h5
          dsimp only at h5
          split at h5
          · cases h5
            exact .full h4 (by assumption)
          · cases h5
      · rcases of_lead h4 with ⟨rfl, _⟩ | ⟨u, rfl, hu⟩
        · exact absurd h6 (h3 _)
        · rw [List.nil_append] at h7
          obtain ⟨h8, rfl⟩ := finish_gap h7
          subst h6
          have := V6Text.gap (.inr hu) h5 h8
          simpa using this
  · intro h
    have plain : ∀ s : Str, s ≠ [] → s.head? ≠ some ':' → pton6 s = pton6Loop [] none 0 0 s s := by
      intro s h1 h2
      match s, h1, h2 with
      | c :: s, _, h2 =>
        have hc : c ≠ ':' := by simpa using h2
        unfold pton6
        split
        · rename_i h; cases h
        · rename_i h; cases h; exact absurd rfl hc
        · rename_i h; cases h; exact absurd rfl hc
        · rfl
    cases h with
    | full h h8 =>
      rw [plain s (last_ne h).1, last_read h (by simp; omega)]
      · simp [finish6, h8]
      · cases s with
        | nil => simp
        | cons c s =>
          intro e
          simp at e
          subst e
          exact last_head h
    | @gap t1 l1 t2 l2 h1 h2 h8 =>
      rcases h1 with ⟨rfl, rfl⟩ | h1
      · show pton6Loop [] none 0 0 (':' :: t2) (':' :: t2) = _
        have := gap_read .nil h2 (done := []) (by simpa using h8)
        simpa using this
      · have e : t1 ++ "::".toList ++ t2 = (t1 ++ [':']) ++ ':' :: t2 := by
          rw [show "::".toList = [':', ':'] from rfl]
          simp
        rw [e, plain, gap_read (lead_of h1) h2 (by simpa using h8)]
        · simp
        · simp
        · cases h1 with
          | one h =>
            cases t1 with
            | nil => exact absurd h.1 (by decide)
            | cons c t => simpa using group_head h rfl
          | @more t v u l h h' =>
            cases t with
            | nil => exact absurd h.1 (by decide)
            | cons c t => simpa using group_head h rfl

end Distbench.Connect
