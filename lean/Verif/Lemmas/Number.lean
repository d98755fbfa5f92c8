import Verif.Model.Number
import Verif.Spec.Numeral
/-!
# Lemmas about digits and numerals
-/
namespace Utki
open Spec

theorem digitVal_iff (c : Byte) (d : Nat) : digitVal c = some d ↔ Digit c d := by
  constructor
  · intro h
    have hc := c.isLt
    unfold digitVal at h
    have key : ∀ m, m < 256 → c.toNat = m → c = BitVec.ofNat 8 m := by
      intro m hm h; apply BitVec.eq_of_toNat_eq; simp [h, Nat.mod_eq_of_lt hm]
    split at h
    · cases h
      have := Digit.dec (c.toNat - 48) (by omega)
      rwa [← key (0x30 + (c.toNat - 48)) (by omega) (by omega)] at this
    · split at h
      · cases h
        have := Digit.lower (c.toNat - 97) (by omega)
        rwa [← key (0x61 + (c.toNat - 97)) (by omega) (by omega), Nat.add_comm 10] at this
      · split at h
        · cases h
          have := Digit.upper (c.toNat - 65) (by omega)
          rwa [← key (0x41 + (c.toNat - 65)) (by omega) (by omega), Nat.add_comm 10] at this
        · cases h
  · intro h
    cases h with
    | dec d hd =>
      have : (BitVec.ofNat 8 (0x30 + d)).toNat = 48 + d := by simp; omega
      unfold digitVal
      rw [this, if_pos (by omega)]; congr 1; omega
    | lower d hd =>
      have : (BitVec.ofNat 8 (0x61 + d)).toNat = 97 + d := by simp; omega
      unfold digitVal
      rw [this, if_neg (by omega), if_pos (by omega)]; congr 1; omega
    | upper d hd =>
      have : (BitVec.ofNat 8 (0x41 + d)).toNat = 65 + d := by simp; omega
      unfold digitVal
      rw [this, if_neg (by omega), if_neg (by omega), if_pos (by omega)]; congr 1; omega

theorem isDigit_iff (base : Nat) (c : Byte) : isDigit base c = true ↔ IsDigit base c := by
  unfold isDigit IsDigit
  constructor
  · intro h
    split at h
    · rename_i d hd
      exact ⟨d, (digitVal_iff c d).mp hd, by simpa using h⟩
    · cases h
  · rintro ⟨d, hd, hlt⟩
    rw [(digitVal_iff c d).mpr hd]; simpa using hlt

theorem isDigit_false_iff (base : Nat) (c : Byte) : isDigit base c = false ↔ ¬ IsDigit base c := by
  rw [← isDigit_iff]; simp

theorem foldl_digits (base : Nat) (ds : List Byte) (a : Nat) :
    ds.foldl (fun a c => a * base + (digitVal c).getD 0) a = a * base ^ ds.length + accDigits base ds := by
  unfold accDigits
  induction ds generalizing a with
  | nil => simp
  | cons c ds ih =>
    simp only [List.foldl_cons, List.length_cons]
    rw [ih, ih (0 * base + (digitVal c).getD 0)]
    rw [Nat.zero_mul, Nat.zero_add, Nat.add_mul, Nat.pow_succ, Nat.mul_comm (base ^ ds.length) base, ← Nat.mul_assoc,
      Nat.add_assoc]

theorem accDigits_cons (base : Nat) (c : Byte) (ds : List Byte) :
    accDigits base (c :: ds) = (digitVal c).getD 0 * base ^ ds.length + accDigits base ds := by
  conv => lhs; unfold accDigits
  rw [List.foldl_cons, foldl_digits]; simp

theorem numeral_iff (base : Nat) (ds : List Byte) (n : Nat) :
    Numeral base ds n ↔ (∀ c ∈ ds, isDigit base c = true) ∧ accDigits base ds = n := by
  induction ds generalizing n with
  | nil =>
    constructor
    · intro h; cases h; exact ⟨by simp, rfl⟩
    · rintro ⟨_, rfl⟩; exact .nil
  | cons c ds ih =>
    constructor
    · intro h
      cases h with
      | cons c d ds m h1 h2 h3 =>
        obtain ⟨g1, g2⟩ := (ih m).mp h3
        refine ⟨?_, ?_⟩
        · intro x hx
          rcases List.mem_cons.mp hx with h | h
          · subst h; exact (isDigit_iff base x).mpr ⟨d, h1, h2⟩
          · exact g1 x h
        · rw [accDigits_cons, (digitVal_iff c d).mpr h1, g2]; rfl
    · rintro ⟨h1, rfl⟩
      obtain ⟨d, hd, hlt⟩ := (isDigit_iff base c).mp (h1 c (by simp))
      rw [accDigits_cons, (digitVal_iff c d).mpr hd]
      exact .cons c d ds _ hd hlt ((ih _).mpr ⟨fun x hx => h1 x (by simp [hx]), rfl⟩)

theorem Spec.Numeral.lt {base : Nat} {ds : List Byte} {n : Nat} (h : Numeral base ds n) : n < base ^ ds.length := by
  induction h with
  | nil => simp
  | cons c d ds n hd hlt _ ih =>
    rw [List.length_cons, Nat.pow_succ, Nat.mul_comm (base ^ ds.length)]
    have : (d + 1) * base ^ ds.length ≤ base * base ^ ds.length := Nat.mul_le_mul_right _ hlt
    rw [Nat.add_mul, Nat.one_mul] at this
    omega

theorem Spec.Numeral.append_digit {base : Nat} {ds : List Byte} {n : Nat} (h : Numeral base ds n) (c : Byte) (d : Nat)
    (hd : Digit c d) (hlt : d < base) : Numeral base (ds ++ [c]) (n * base + d) := by
  induction h with
  | nil => have := Numeral.cons c d [] 0 hd hlt .nil; simpa using this
  | cons c' d' ds n hd' hlt' h ih =>
    have := Numeral.cons c' d' _ _ hd' hlt' ih
    rw [List.length_append, List.length_singleton] at this
    have e : d' * base ^ (ds.length + 1) + (n * base + d) = (d' * base ^ ds.length + n) * base + d := by
      rw [Nat.add_mul, Nat.pow_succ, ← Nat.mul_assoc]; omega
    rw [e] at this
    exact this

theorem digit_digitChar (d : Nat) (h : d < 36) : Digit (digitChar d) d := by
  unfold digitChar
  by_cases h10 : d < 10
  · rw [if_pos h10]; exact .dec d h10
  · rw [if_neg h10]
    have := Digit.lower (d - 10) (by omega)
    rwa [show 10 + (d - 10) = d by omega] at this

theorem digitChar_zero (d : Nat) (h : d < 36) : digitChar d = ch '0' ↔ d = 0 := by
  have : ∀ d, d < 36 → (digitChar d = ch '0' ↔ d = 0) := by decide +kernel
  exact this d h

/-- `to_chars` succeeds exactly if the number has at most `room` digits. -/
theorem toChars_isSome (base : Nat) (hb : 2 ≤ base) (room n : Nat) (hr : 0 < room) :
    (toChars base room n).isSome = true ↔ n < base ^ room := by
  induction room generalizing n with
  | zero => omega
  | succ room ih =>
    unfold toChars
    by_cases h : n < base
    · rw [if_pos h]
      have : base ≤ base ^ (room + 1) := by
        rw [Nat.pow_succ]; exact Nat.le_mul_of_pos_left _ (Nat.pow_pos (by omega))
      simp; omega
    · rw [if_neg h, Option.isSome_map]
      rcases Nat.eq_zero_or_pos room with hr0 | hr0
      · subst hr0; simp [toChars]; omega
      · rw [ih _ hr0, Nat.pow_succ, Nat.div_lt_iff_lt_mul (by omega)]

/-- What `to_chars` writes: the numeral, without leading zeros. -/
theorem toChars_some (base : Nat) (hb : 2 ≤ base) (hb' : base ≤ 36) (room n : Nat) (ds : List Byte)
    (h : toChars base room n = some ds) :
    Numeral base ds n ∧ ds ≠ [] ∧ ds.length ≤ room ∧ (ds.head? = some (ch '0') → n = 0 ∧ ds = [ch '0']) := by
  induction room generalizing n ds with
  | zero => cases h
  | succ room ih =>
    unfold toChars at h
    by_cases hlt : n < base
    · rw [if_pos hlt] at h
      cases h
      refine ⟨?_, by simp, by simp, ?_⟩
      · have := Numeral.cons (digitChar n) n [] 0 (digit_digitChar n (by omega)) hlt .nil
        simpa using this
      · intro h
        have hz := (digitChar_zero n (by omega)).mp (by simpa using h)
        exact ⟨hz, by rw [hz]; decide⟩
    · rw [if_neg hlt] at h
      obtain ⟨ds', h1, rfl⟩ := Option.map_eq_some_iff.mp h
      obtain ⟨g1, g2, g3, g4⟩ := ih _ _ h1
      refine ⟨?_, by simp, by simp; omega, ?_⟩
      · have := g1.append_digit (digitChar (n % base)) (n % base) (digit_digitChar _ (by have := Nat.mod_lt n (show 0 < base by omega); omega))
          (Nat.mod_lt n (by omega))
        rwa [Nat.div_add_mod'] at this
      · intro h
        exfalso
        have hh : ds'.head? = some (ch '0') := by
          cases ds' with
          | nil => exact absurd rfl g2
          | cons a as => simpa using h
        have := (g4 hh).1
        have : 0 < n / base := Nat.div_pos (by omega) (by omega)
        omega

theorem takeWhile_digits (base : Nat) (ds rest : List Byte) (h : ∀ c ∈ ds, isDigit base c = true) (hr : NoDigitAhead base rest) :
    (ds ++ rest).takeWhile (isDigit base) = ds := by
  rw [List.takeWhile_append_of_pos h]
  cases rest with
  | nil => simp
  | cons r rs =>
    rw [List.takeWhile_cons, (isDigit_false_iff base r).mpr (hr r rfl)]; simp

theorem fromCharsU_eq (w base : Nat) (ds rest : List Byte) (n : Nat) (hne : ds ≠ []) (h : Numeral base ds n)
    (hr : NoDigitAhead base rest) :
    fromCharsU w base (ds ++ rest) = if n < 2 ^ w then .ok n ds.length else .out_of_range ds.length := by
  obtain ⟨h1, h2⟩ := (numeral_iff base ds n).mp h
  unfold fromCharsU
  simp only [takeWhile_digits base ds rest h1 hr, hne, if_false, h2]

theorem fromCharsU_none (w base : Nat) (s : List Byte) (hr : NoDigitAhead base s) :
    fromCharsU w base s = .invalid_argument := by
  have := takeWhile_digits base [] s (by simp) hr
  rw [List.nil_append] at this
  unfold fromCharsU
  simp only [this, if_true]

end Utki
