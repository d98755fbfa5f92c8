import Verif.Spec.DecimalRound
import Verif.Lemmas.RoundErr
import Verif.Props.FloatFrom
import Mathlib.Data.Int.Log
/-!
# C104, C105: floating-point numbers survive the text form

Numbers printed with 17 (`float`: 9) significant digits are read back exactly, texts of up to 15 (6) significant digits are kept apart, and
reading keeps the order of numbers.
-/
namespace Utki

open Spec Spec.BinFmt FastFloat

/-! ## Distances of neighbours -/

theorem gap_up (f : BinFmt) (k : Nat) : f.val k ≤ 2 ^ (f.p + 1) * (f.val (k + 1) - f.val k) := by
  obtain ⟨e, j, rfl, h1, h2⟩ := cell_of f k
  rw [Nat.add_assoc, val_cell f e j h1 h2.le, val_cell f e (j + 1) (by omega) (by omega)]
  have hs : (0 : ℚ) < 2 ^ ((e : ℤ) + 1 - f.bias - f.p) := by positivity
  have hj : (j : ℚ) ≤ 2 ^ (f.p + 1) := by exact_mod_cast h2.le
  push_cast
  nlinarith

theorem gap_down (f : BinFmt) (k : Nat) : f.val (k + 1) ≤ 2 ^ (f.p + 1) * (f.val (k + 1) - f.val k) := by
  obtain ⟨e, j, rfl, h1, h2⟩ := cell_of f k
  rw [Nat.add_assoc, val_cell f e j h1 h2.le, val_cell f e (j + 1) (by omega) (by omega)]
  have hs : (0 : ℚ) < 2 ^ ((e : ℤ) + 1 - f.bias - f.p) := by positivity
  have hj : ((j + 1 : ℕ) : ℚ) ≤ 2 ^ (f.p + 1) := by exact_mod_cast h2
  push_cast at hj ⊢
  nlinarith

/-- A number much nearer to a pattern than the neighbours are. -/
theorem nearest_of_close {f : BinFmt} {x : ℚ} {k : Nat} (hk : k ≤ f.inf) (h : |f.val k - x| * 2 ^ (f.p + 2) < f.val k) : f.Nearest x k := by
  have hp : (0 : ℚ) < 2 ^ (f.p + 1) := by positivity
  rw [pow_succ _ (f.p + 1)] at h
  rcases le_total (f.val k) x with hx | hx
  · rw [abs_of_nonpos (by linarith)] at h
    have g := gap_up f k
    have : x - f.val k < f.val (k + 1) - x := by
      by_contra hc
      nlinarith
    exact nearest_lower f hk hx (by linarith) (.inl this)
  · rw [abs_of_nonneg (by linarith)] at h
    cases k with
    | zero =>
      exfalso
      rw [val_zero] at h hx
      nlinarith
    | succ k =>
      have g := gap_down f k
      have : f.val (k + 1) - x < x - f.val k := by
        by_contra hc
        nlinarith
      exact nearest_upper f hk (by linarith) hx (.inl this)

/-- Enough digits to tell all numbers of the format apart. -/
theorem nearest_of_written {f : BinFmt} {n : Nat} (hn : 10 * 2 ^ (f.p + 1) < 10 ^ n) {x : ℚ} {k : Nat} (hk : k ≤ f.inf)
    (h : WrittenWith n (f.val k) x) : f.Nearest x k := by
  rcases h with ⟨h1, rfl⟩ | ⟨m, e, h1, h2, rfl, h3⟩
  · have := nearest_val f hk
    rwa [h1] at this
  · apply nearest_of_close hk
    have he : (0 : ℚ) < 10 ^ e := by positivity
    have hn' : (10 : ℚ) * 2 ^ (f.p + 1) < 10 ^ n := by exact_mod_cast hn
    rw [pow_succ _ (f.p + 1)]
    have a1 : |f.val k - m * 10 ^ e| * (2 ^ (f.p + 1) * 2) ≤ 10 ^ e / 2 * (2 ^ (f.p + 1) * 2) :=
      mul_le_mul_of_nonneg_right h3 (by positivity)
    have a2 : (10 : ℚ) * 2 ^ (f.p + 1) * 10 ^ e < 10 ^ n * 10 ^ e := mul_lt_mul_of_pos_right hn' he
    linarith

/-- Every number can be written with any number of digits. -/
theorem written_exists (n : Nat) {v : ℚ} (hv : 0 ≤ v) : ∃ x, WrittenWith n v x := by
  rcases hv.eq_or_lt with rfl | hv
  · exact ⟨0, .inl ⟨rfl, rfl⟩⟩
  · have h1 := Int.zpow_log_le_self (b := 10) (by norm_num) hv
    have h2 := Int.lt_zpow_succ_log_self (b := 10) (by norm_num) v
    push_cast at h1 h2
    obtain ⟨e, he⟩ : ∃ e, e = Int.log 10 v + 1 - n := ⟨_, rfl⟩
    have hp : (0 : ℚ) < 10 ^ e := by positivity
    have hc : (10 : ℚ) ^ n * 10 ^ e = 10 ^ (Int.log 10 v + 1) := by
      rw [← zpow_natCast, ← zpow_add₀ (by norm_num), he]
      congr 1
      ring
    obtain ⟨m, hm⟩ : ∃ m : ℕ, |v - m * 10 ^ e| ≤ 10 ^ e / 2 := by
      obtain ⟨q, hq⟩ : ∃ q, q = v / 10 ^ e := ⟨_, rfl⟩
      have hq0 : 0 ≤ q + 1 / 2 := by rw [hq]; positivity
      refine ⟨⌊q + 1 / 2⌋₊, ?_⟩
      have f1 := Nat.floor_le hq0
      have f2 := Nat.lt_floor_add_one (q + 1 / 2)
      have hv' : v = q * 10 ^ e := by rw [hq]; field_simp
      rw [hv', ← sub_mul, abs_mul, abs_of_pos hp]
      have : |q - (⌊q + 1 / 2⌋₊ : ℚ)| ≤ 1 / 2 := abs_le.mpr ⟨by linarith, by linarith⟩
      nlinarith
    refine ⟨_, .inr ⟨m, e, ?_, ?_, rfl, hm⟩⟩
    · rw [hc, zpow_add₀ (by norm_num)]
      linarith
    · rw [hc]; exact h2

/-- The unit is determined by the number. -/
theorem unit_unique {n : Nat} {v : ℚ} {e e' : ℤ} (h1 : (10 : ℚ) ^ n * 10 ^ e ≤ 10 * v) (h2 : v < 10 ^ n * 10 ^ e')  : e ≤ e' := by
  have hp : (0 : ℚ) < 10 ^ n := by positivity
  have h3 : (10 : ℚ) ^ n * 10 ^ e < 10 ^ n * 10 ^ (e' + 1) := by
    rw [zpow_add₀ (by norm_num)]
    linarith
  have h4 : (10 : ℚ) ^ e < 10 ^ (e' + 1) := lt_of_mul_lt_mul_left h3 hp.le
  have := (zpow_lt_zpow_iff_right₀ (by norm_num : (1 : ℚ) < 10)).mp h4
  omega

/-- A number with few digits that is much nearer than half a unit is the only way to write the number. -/
theorem written_back {n : Nat} {v x δ : ℚ} (hx : HasDigits n x) (hv : 0 < v) (hd : |v - x| ≤ δ * x) (hδ : 0 < δ) (hs : δ * 10 ^ n * 4 < 1) :
    WrittenWith n v x ∧ ∀ x', WrittenWith n v x' → x' = x := by
  obtain ⟨y, hy⟩ := written_exists n hv.le
  rcases hy with ⟨h, -⟩ | ⟨m', E, h1, h2, -, -⟩
  · linarith
  have hE : (0 : ℚ) < 10 ^ E := by positivity
  have hn1 : (1 : ℚ) ≤ 10 ^ n := one_le_pow₀ (by norm_num)
  obtain ⟨m, e, hm, rfl⟩ := hx
  have hm' : (m : ℚ) + 1 ≤ 10 ^ n := by exact_mod_cast hm
  have he : (0 : ℚ) < 10 ^ e := by positivity
  have hab := abs_le.mp hd
  have hle : E ≤ e := by
    by_contra hc
    have h3 : (10 : ℚ) ^ (e + 1) ≤ 10 ^ E := zpow_le_zpow_right₀ (by norm_num) (by omega)
    rw [zpow_add₀ (by norm_num)] at h3
    have h4 : (10 : ℚ) ^ n * 10 ^ e ≤ v := by nlinarith
    have h5 : δ * (m * 10 ^ e) * 4 < 10 ^ e := by
      have : δ * m ≤ δ * 10 ^ n := mul_le_mul_of_nonneg_left (by linarith) hδ.le
      nlinarith
    nlinarith
  have hδ4 : δ * 4 < 1 := by nlinarith
  have hx0 : 0 ≤ (m : ℚ) * 10 ^ e := by positivity
  have hxv : (m : ℚ) * 10 ^ e * 3 ≤ 4 * v := by nlinarith
  have hclose : |v - m * 10 ^ e| * 2 < 10 ^ E := by
    have h6 : δ * (m * 10 ^ e) * 3 ≤ δ * (4 * v) := by nlinarith
    have h7 : δ * (4 * v) < 10 ^ E := by
      have : δ * v ≤ δ * (10 ^ n * 10 ^ E) := mul_le_mul_of_nonneg_left h2.le hδ.le
      nlinarith
    linarith
  obtain ⟨M, hM⟩ : ∃ M : ℕ, (m : ℚ) * 10 ^ e = M * 10 ^ E := by
    refine ⟨m * 10 ^ (e - E).toNat, ?_⟩
    push_cast
    rw [mul_assoc, ← zpow_natCast, ← zpow_add₀ (by norm_num)]
    congr 2
    omega
  refine ⟨.inr ⟨M, E, h1, h2, hM, by linarith⟩, ?_⟩
  rintro x' (⟨h, -⟩ | ⟨M', E', k1, k2, rfl, k4⟩)
  · linarith
  have : E' = E := le_antisymm (unit_unique k1 h2) (unit_unique h1 k2)
  subst this
  rw [hM] at hclose ⊢
  have k5 : |(M : ℚ) - M'| * 10 ^ E' < 1 * 10 ^ E' := by
    rw [← abs_of_pos hE, ← abs_mul, abs_of_pos hE, sub_mul]
    have := abs_sub_le ((M : ℚ) * 10 ^ E') v (M' * 10 ^ E')
    rw [abs_sub_comm _ v] at this
    linarith
  have k6 := lt_of_mul_lt_mul_right k5 hE.le
  have k7 : |(M : ℤ) - M'| < 1 := by exact_mod_cast k6
  have : (M : ℤ) = M' := by
    have := Int.abs_lt_one_iff.mp k7
    omega
  have : M = M' := by exact_mod_cast this
  rw [this]

/-! ## C104: number to text to number, text to number to text -/

/-- How many significant digits tell all numbers of the type apart: `std::numeric_limits<T>::max_digits10` (of `double` for `long double`, which
is converted by way of `double`). -/
def FloatType.max_digits10 : FloatType → Nat
  | .float => 9
  | _ => 17

/-- How many significant digits a number of the type can hold: `std::numeric_limits<T>::digits10`. -/
def FloatType.digits10 : FloatType → Nat
  | .float => 6
  | _ => 15

/-- The smallest number of full precision: `std::numeric_limits<T>::min()`. -/
def FloatType.min : FloatType → ℚ
  | .float => 2 ^ (-126 : ℤ)
  | _ => 2 ^ (-1022 : ℤ)

theorem outOfRange_iff (T : FloatType) {d : DecLit} {k : Nat} (h : T.fmt.Nearest d.absVal k) :
    OutOfRange T d.absVal ↔ (k = T.fmt.inf ∨ (k = 0 ∧ d.absVal ≠ 0)) := by
  cases T
  · have := range_iff (f := binary32) (by decide) (by decide) d h
    rw [show (-(binary32.p + 1 : ℤ)) = -24 by decide, show ((binary32.top : ℤ) - binary32.bias - 1) = 127 by decide,
      show (-(binary32.bias + binary32.p : ℤ)) = -150 by decide] at this
    exact this.symm
  all_goals
    have := range_iff (f := binary64) (by decide) (by decide) d h
    rw [show (-(binary64.p + 1 : ℤ)) = -53 by decide, show ((binary64.top : ℤ) - binary64.bias - 1) = 1023 by decide,
      show (-(binary64.bias + binary64.p : ℤ)) = -1075 by decide] at this
    exact this.symm

theorem digits_enough (T : FloatType) : 10 * 2 ^ (T.fmt.p + 1) < 10 ^ T.max_digits10 := by cases T <;> decide

/-- A literal that writes the number `k` with enough digits is read as `k`, and is not out of range. -/
theorem written_nearest (T : FloatType) {d : DecLit} {k : Nat} (hk : k < T.fmt.inf) (h : WrittenWith T.max_digits10 (T.fmt.val k) d.absVal) :
    T.fmt.Nearest d.absVal k ∧ ¬ OutOfRange T d.absVal := by
  have hn := nearest_of_written (digits_enough T) hk.le h
  refine ⟨hn, ?_⟩
  rw [outOfRange_iff T hn]
  rintro (rfl | ⟨rfl, h0⟩)
  · exact absurd hk (lt_irrefl _)
  · rw [val_zero] at h
    rcases h with ⟨-, h⟩ | ⟨m, e, h1, h2, h3, -⟩
    · exact h0 h
    · have : (0 : ℚ) < 10 ^ T.max_digits10 * 10 ^ e := by positivity
      linarith

section
variable [Platform]

/-- C104: a finite number that has been written with 17 (`float`: 9) significant digits is read back by `from_chars` exactly, whatever text
follows, in every rounding mode and on every platform. -/
theorem C104_from_chars (T : FloatType) {mode : RoundMode} {u : Fpu} (I : Ieee T.fmt mode u) {s : List Byte} {fmt : CharsFormat} {d : DecLit}
    (h : LongestLiteral (grammar fmt) s d) (hlen : d.digits.length + 1000 ≤ 2 ^ 28) {k : Nat} (hk : k < T.fmt.inf)
    (hw : WrittenWith T.max_digits10 (T.fmt.val k) d.absVal) :
    T.conv u s fmt = .ok ⟨some (T.fmt.signed d.neg k), d.text.length, .none⟩ := by
  obtain ⟨k', ⟨v, p, e⟩, k1, k2, k3, k4⟩ := conv_literal I h hlen
  obtain ⟨n1, n2⟩ := written_nearest T hk hw
  have : k' = k := k1.unique _ n1
  subst this
  rcases k4 with ⟨k4, -⟩ | ⟨-, k4, k5⟩
  · exact absurd k4 n2
  · simp only at k3 k4 k5
    rw [k2, k3, k4, k5]

/-- C104: the same for `read_number`, after white space. -/
theorem C104_read_number (dbg : Bool) (T : FloatType) {mode : RoundMode} {u : Fpu} (I : Ieee T.fmt mode u) (ws t rest : List Byte) (d : DecLit)
    (hws : ∀ c ∈ ws, IsBlank c) (h : LongestLiteral .general t d) (ht : t = d.text ++ rest) (hlen : d.digits.length + 1000 ≤ 2 ^ 28)
    {k : Nat} (hk : k < T.fmt.inf) (hw : WrittenWith T.max_digits10 (T.fmt.val k) d.absVal) :
    read_number_fp dbg u T (ws ++ t) = (.ok (T.fmt.signed d.neg k), rest) := by
  obtain ⟨k', k1, k2⟩ := C82_literal dbg T I ws t rest d hws h ht hlen
  obtain ⟨n1, n2⟩ := written_nearest T hk hw
  have : k' = k := k1.unique _ n1
  subst this
  rcases k2 with ⟨k2, -⟩ | ⟨-, k2⟩
  · exact absurd k2 n2
  · exact k2

end

/-- C104: every number can be written with any number of significant digits. -/
theorem C104_writable (T : FloatType) (n k : Nat) : ∃ x, WrittenWith n (T.fmt.val k) x := written_exists n (val_nonneg _ k)

section
variable [Platform]

/-- C104, the other way: a literal of at most 15 (`float`: 6) significant digits, neither out of range nor smaller than the smallest number of
full precision, is read as a number that, when written with as many digits, gives the literal's number again and no other. -/
theorem C104_digits (T : FloatType) {mode : RoundMode} {u : Fpu} (I : Ieee T.fmt mode u) {s : List Byte} {fmt : CharsFormat} {d : DecLit}
    (h : LongestLiteral (grammar fmt) s d) (hlen : d.digits.length + 1000 ≤ 2 ^ 28) (hd : HasDigits T.digits10 d.absVal)
    (hmin : T.min ≤ d.absVal) (hr : ¬ OutOfRange T d.absVal) :
    ∃ k, k < T.fmt.inf ∧ T.conv u s fmt = .ok ⟨some (T.fmt.signed d.neg k), d.text.length, .none⟩ ∧
      WrittenWith T.digits10 (T.fmt.val k) d.absVal ∧ ∀ x, WrittenWith T.digits10 (T.fmt.val k) x → x = d.absVal := by
  obtain ⟨k, ⟨v, p, e⟩, k1, k2, k3, k4⟩ := conv_literal I h hlen
  have hr' := hr
  rw [outOfRange_iff T k1, not_or] at hr'
  have hk : k < T.fmt.inf := lt_of_le_of_ne k1.1 hr'.1
  have hpos : 0 < d.absVal := lt_of_lt_of_le (by cases T <;> simp only [FloatType.min] <;> positivity) hmin
  have h0 : k ≠ 0 := fun h => hr'.2 ⟨h, hpos.ne'⟩
  refine ⟨k, hk, ?_, ?_⟩
  · rcases k4 with ⟨k4, -⟩ | ⟨-, k4, k5⟩
    · exact absurd k4 hr
    · simp only at k3 k4 k5
      rw [k2, k3, k4, k5]
  · have hv : 0 < T.fmt.val k := by
      have := val_lt T.fmt (Nat.pos_of_ne_zero h0)
      rwa [val_zero] at this
    have herr : |T.fmt.val k - d.absVal| ≤ 2 ^ (-(T.fmt.p + 1 : ℤ)) * d.absVal := by
      rw [abs_sub_comm]
      rcases nearest_err k1 hk hpos.le with h | h
      · exact h
      · refine h.trans ?_
        have : (2 : ℚ) ^ (-(T.fmt.bias + T.fmt.p : ℤ)) = 2 ^ (-(T.fmt.p + 1 : ℤ)) * T.min := by
          cases T <;> simp only [FloatType.min, FloatType.fmt, binary32, binary64] <;> rw [← zpow_add₀ (by norm_num)] <;> norm_num
        rw [this]
        exact mul_le_mul_of_nonneg_left hmin (by positivity)
    refine written_back hd hv herr (by positivity) ?_
    cases T <;> simp only [FloatType.digits10, FloatType.fmt, binary32, binary64] <;> norm_num

/-- C104: therefore different numbers of at most 15 (`float`: 6) significant digits are read as different numbers. -/
theorem C104_distinct (T : FloatType) {mode : RoundMode} {u : Fpu} (I : Ieee T.fmt mode u) {s s' : List Byte} {fmt fmt' : CharsFormat}
    {d d' : DecLit} (h : LongestLiteral (grammar fmt) s d) (h' : LongestLiteral (grammar fmt') s' d')
    (hlen : d.digits.length + 1000 ≤ 2 ^ 28) (hlen' : d'.digits.length + 1000 ≤ 2 ^ 28)
    (hd : HasDigits T.digits10 d.absVal) (hd' : HasDigits T.digits10 d'.absVal)
    (hmin : T.min ≤ d.absVal) (hmin' : T.min ≤ d'.absVal) (hr : ¬ OutOfRange T d.absVal) (hr' : ¬ OutOfRange T d'.absVal)
    (hne : d.realVal ≠ d'.realVal) :
    ∃ b b' n n', b ≠ b' ∧ T.conv u s fmt = .ok ⟨some b, n, .none⟩ ∧ T.conv u s' fmt' = .ok ⟨some b', n', .none⟩ := by
  obtain ⟨k, k1, k2, k3, -⟩ := C104_digits T I h hlen hd hmin hr
  obtain ⟨k', k1', k2', -, k4'⟩ := C104_digits T I h' hlen' hd' hmin' hr'
  refine ⟨_, _, _, _, fun he => hne ?_, k2, k2'⟩
  have hi : T.fmt.inf ≤ (T.fmt.top + 1) * 2 ^ T.fmt.p := by
    unfold BinFmt.inf
    exact Nat.mul_le_mul_right _ (by omega)
  unfold BinFmt.signed at he
  have hs : d.neg = d'.neg ∧ k = k' := by
    revert he
    cases d.neg <;> cases d'.neg <;> simp <;> omega
  obtain ⟨h1, rfl⟩ := hs
  unfold DecLit.realVal
  rw [h1, k4' _ k3]

end

/-- C104: one digit less is not enough: there are two numbers that are written the same with 16 (`float`: 8) digits. -/
theorem C104_fewer_digits (T : FloatType) :
    ∃ k k' x, k < T.fmt.inf ∧ k' < T.fmt.inf ∧ k ≠ k' ∧ WrittenWith (T.max_digits10 - 1) (T.fmt.val k) x ∧
      WrittenWith (T.max_digits10 - 1) (T.fmt.val k') x := by
  have hd : ∀ T : FloatType, T ≠ .float → ∃ k k' x, k < T.fmt.inf ∧ k' < T.fmt.inf ∧ k ≠ k' ∧ WrittenWith (T.max_digits10 - 1) (T.fmt.val k) x ∧
      WrittenWith (T.max_digits10 - 1) (T.fmt.val k') x := by
    intro T hT
    have e1 : T.fmt = binary64 := by cases T <;> first | rfl | exact absurd rfl hT
    have e2 : T.max_digits10 = 17 := by cases T <;> first | rfl | exact absurd rfl hT
    rw [e1, e2]
    have v0 : binary64.val (1022 * 2 ^ 52 + 2 ^ 52) = 1 := by
      rw [show 2 ^ 52 = 2 ^ binary64.p from rfl, val_cell binary64 1022 (2 ^ binary64.p) (.inl le_rfl) (by decide)]
      simp only [binary64]
      norm_num
    have v1 : binary64.val (1022 * 2 ^ 52 + (2 ^ 52 + 1)) = 1 + 2 ^ (-52 : ℤ) := by
      rw [show 2 ^ 52 = 2 ^ binary64.p from rfl, val_cell binary64 1022 (2 ^ binary64.p + 1) (.inl (by omega)) (by decide)]
      simp only [binary64]
      norm_num
    refine ⟨1022 * 2 ^ 52 + 2 ^ 52, 1022 * 2 ^ 52 + (2 ^ 52 + 1), 1, by decide, by decide, by decide, .inr ⟨10 ^ 15, -15, ?_⟩, .inr ⟨10 ^ 15, -15, ?_⟩⟩
    · rw [v0]; norm_num
    · rw [v1]; norm_num [abs_of_pos]
  by_cases hT : T = .float
  · subst hT
    have v0 : binary32.val (135 * 2 ^ 23 + 16384001) = 1000 + 2 ^ (-13 : ℤ) / 2 := by
      rw [show 2 ^ 23 = 2 ^ binary32.p from rfl, val_cell binary32 135 16384001 (.inl (by decide)) (by decide)]
      simp only [binary32]
      norm_num
    have v1 : binary32.val (135 * 2 ^ 23 + 16384002) = 1000 + 2 ^ (-13 : ℤ) := by
      rw [show 2 ^ 23 = 2 ^ binary32.p from rfl, val_cell binary32 135 16384002 (.inl (by decide)) (by decide)]
      simp only [binary32]
      norm_num
    refine ⟨135 * 2 ^ 23 + 16384001, 135 * 2 ^ 23 + 16384002, 10000001 / 10000, by decide, by decide, by decide,
      .inr ⟨10000001, -4, ?_⟩, .inr ⟨10000001, -4, ?_⟩⟩
    · rw [show FloatType.float.fmt = binary32 from rfl, v0, show FloatType.float.max_digits10 - 1 = 8 from rfl]
      refine ⟨by norm_num, by norm_num, by norm_num, ?_⟩
      rw [abs_le]; constructor <;> norm_num
    · rw [show FloatType.float.fmt = binary32 from rfl, v1, show FloatType.float.max_digits10 - 1 = 8 from rfl]
      refine ⟨by norm_num, by norm_num, by norm_num, ?_⟩
      rw [abs_le]; constructor <;> norm_num
  · exact hd T hT

/-- C104: one digit more is too much: two numbers of 16 (`float`: 7) digits that become the same. -/
theorem C104_more_digits (T : FloatType) :
    ∃ k x x', k < T.fmt.inf ∧ x ≠ x' ∧ HasDigits (T.digits10 + 1) x ∧ HasDigits (T.digits10 + 1) x' ∧ T.fmt.Nearest x k ∧ T.fmt.Nearest x' k := by
  by_cases hT : T = .float
  · subst hT
    rw [show FloatType.float.fmt = binary32 from rfl, show FloatType.float.digits10 + 1 = 7 from rfl]
    have v : ∀ j, 8388645 ≤ j → j ≤ 8388647 → binary32.val (159 * 2 ^ 23 + j) = j * 1024 := by
      intro j h1 h2
      rw [show 2 ^ 23 = 2 ^ binary32.p from rfl, val_cell binary32 159 j (.inl (by simp only [binary32]; omega)) (by simp only [binary32]; omega)]
      simp only [binary32]
      norm_num
    refine ⟨159 * 2 ^ 23 + 8388646, 8589973000, 8589974000, by decide, by norm_num, ⟨8589973, 3, by norm_num, by norm_num⟩,
      ⟨8589974, 3, by norm_num, by norm_num⟩, ?_, ?_⟩
    · have v1 := v 8388645 (by norm_num) (by norm_num)
      have v2 := v 8388646 (by norm_num) (by norm_num)
      have := nearest_upper binary32 (x := 8589973000) (k := 159 * 2 ^ 23 + 8388645) (by decide)
      rw [show 159 * 2 ^ 23 + 8388645 + 1 = 159 * 2 ^ 23 + 8388646 from rfl, v1, v2] at this
      exact this (by norm_num) (by norm_num) (.inl (by norm_num))
    · have v1 := v 8388646 (by norm_num) (by norm_num)
      have v2 := v 8388647 (by norm_num) (by norm_num)
      have := nearest_lower binary32 (x := 8589974000) (k := 159 * 2 ^ 23 + 8388646) (by decide)
      rw [show 159 * 2 ^ 23 + 8388646 + 1 = 159 * 2 ^ 23 + 8388647 from rfl, v1, v2] at this
      exact this (by norm_num) (by norm_num) (.inl (by norm_num))
  · have e1 : T.fmt = binary64 := by cases T <;> first | rfl | exact absurd rfl hT
    have e2 : T.digits10 = 15 := by cases T <;> first | rfl | exact absurd rfl hT
    rw [e1, e2]
    have v : ∀ j, 2 ^ 52 ≤ j → j ≤ 2 ^ 52 + 1 → binary64.val (1075 * 2 ^ 52 + j) = j * 2 := by
      intro j h1 h2
      rw [show 2 ^ 52 = 2 ^ binary64.p from rfl, val_cell binary64 1075 j (.inl (by simp only [binary64]; omega)) (by simp only [binary64]; omega)]
      simp only [binary64]
      norm_num
    have v1 := v (2 ^ 52) (by norm_num) (by norm_num)
    have v2 := v (2 ^ 52 + 1) (by norm_num) (by norm_num)
    refine ⟨1075 * 2 ^ 52 + 2 ^ 52, 9007199254740992, 9007199254740993, by decide, by norm_num, ⟨9007199254740992, 0, by norm_num, by norm_num⟩,
      ⟨9007199254740993, 0, by norm_num, by norm_num⟩, ?_, ?_⟩
    · have := nearest_val binary64 (k := 1075 * 2 ^ 52 + 2 ^ 52) (by decide)
      rw [v1] at this
      norm_num at this ⊢
      exact this
    · have := nearest_lower binary64 (x := 9007199254740993) (k := 1075 * 2 ^ 52 + 2 ^ 52) (by decide)
      rw [show 1075 * 2 ^ 52 + 2 ^ 52 + 1 = 1075 * 2 ^ 52 + (2 ^ 52 + 1) from rfl, v1, v2] at this
      exact this (by norm_num) (by norm_num) (.inr ⟨by norm_num, by decide⟩)

/-! ## C105: order and exact numbers -/

theorem signedVal_signed (f : BinFmt) (neg : Bool) {k : Nat} (hk : k ≤ f.inf) : f.signedVal (f.signed neg k) = if neg then - f.val k else f.val k := by
  have : f.inf < (f.top + 1) * 2 ^ f.p := by
    unfold BinFmt.inf
    exact Nat.mul_lt_mul_of_pos_right (by omega) (Nat.two_pow_pos _)
  unfold BinFmt.signedVal BinFmt.signed
  cases neg
  · simp; omega
  · simp

theorem nearest_zero (f : BinFmt) {k : Nat} (h : f.Nearest 0 k) : k = 0 := by
  have := nearest_val f (Nat.zero_le f.inf)
  rw [val_zero] at this
  exact h.unique _ this

/-- Rounding keeps the order of numbers with a sign. -/
theorem signed_order {f : BinFmt} {d d' : DecLit} {k k' : Nat} (h : f.Nearest d.absVal k) (h' : f.Nearest d'.absVal k') (hle : d.realVal ≤ d'.realVal) :
    f.signedVal (f.signed d.neg k) ≤ f.signedVal (f.signed d'.neg k') := by
  rw [signedVal_signed f _ h.1, signedVal_signed f _ h'.1]
  have a0 := absVal_nonneg d
  have a0' := absVal_nonneg d'
  have v0 := val_nonneg f k
  have v0' := val_nonneg f k'
  unfold DecLit.realVal at hle
  cases hn : d.neg <;> cases hn' : d'.neg <;> rw [hn, hn'] at hle <;> simp only [Bool.false_eq_true, if_false, if_true] at hle ⊢
  · exact val_le f (nearest_mono h h' hle)
  · have e1 : d.absVal = 0 := by linarith
    have e2 : d'.absVal = 0 := by linarith
    rw [e1] at h
    rw [e2] at h'
    rw [nearest_zero f h, nearest_zero f h', val_zero]
    norm_num
  · linarith
  · have := val_le f (nearest_mono h' h (by linarith))
    linarith

section
variable [Platform]

/-- C105: of two literals, the one that denotes the larger number is never read as the smaller number. (Numbers too large are read as
infinity, which `signedVal` takes for the number that would follow the largest one.) -/
theorem C105_order (T : FloatType) {mode : RoundMode} {u : Fpu} (I : Ieee T.fmt mode u) {s s' : List Byte} {fmt fmt' : CharsFormat}
    {d d' : DecLit} (h : LongestLiteral (grammar fmt) s d) (h' : LongestLiteral (grammar fmt') s' d')
    (hlen : d.digits.length + 1000 ≤ 2 ^ 28) (hlen' : d'.digits.length + 1000 ≤ 2 ^ 28) (hle : d.realVal ≤ d'.realVal) :
    ∃ r r', T.conv u s fmt = .ok r ∧ T.conv u s' fmt' = .ok r' ∧
      ∀ b b', r.value = some b → r'.value = some b' → T.fmt.signedVal b ≤ T.fmt.signedVal b' := by
  have key : ∀ {s : List Byte} {fmt : CharsFormat} {d : DecLit}, LongestLiteral (grammar fmt) s d → d.digits.length + 1000 ≤ 2 ^ 28 →
      ∃ k r, T.fmt.Nearest d.absVal k ∧ T.conv u s fmt = .ok r ∧ ∀ b, r.value = some b → b = T.fmt.signed d.neg k := by
    intro s fmt d h hlen
    cases T with
    | float =>
      obtain ⟨k, r, k1, k2, k3⟩ := C79_float I h hlen
      exact ⟨k, r, k1, k2, fun b hb => by rw [k3] at hb; exact (Option.some.inj hb).symm⟩
    | double =>
      obtain ⟨k, r, k1, k2, k3⟩ := C79_double I h hlen
      exact ⟨k, r, k1, k2, fun b hb => by rw [k3] at hb; exact (Option.some.inj hb).symm⟩
    | long_double =>
      obtain ⟨k, r, k1, k2, k3⟩ := C79_long_double I h hlen
      refine ⟨k, r, k1, k2, fun b hb => ?_⟩
      rw [k3] at hb
      split at hb
      · exact (Option.some.inj hb).symm
      · cases hb
  obtain ⟨k, r, k1, k2, k3⟩ := key h hlen
  obtain ⟨k', r', k1', k2', k3'⟩ := key h' hlen'
  refine ⟨r, r', k2, k2', fun b b' hb hb' => ?_⟩
  rw [k3 b hb, k3' b' hb']
  exact signed_order k1 k1' hle

/-- C105: the same for `read_number`, for numbers in range (others are read as 0, C82). -/
theorem C105_read_number (dbg : Bool) (T : FloatType) {mode : RoundMode} {u : Fpu} (I : Ieee T.fmt mode u) {ws t rest ws' t' rest' : List Byte}
    {d d' : DecLit} (hws : ∀ c ∈ ws, IsBlank c) (hws' : ∀ c ∈ ws', IsBlank c) (h : LongestLiteral .general t d) (h' : LongestLiteral .general t' d')
    (ht : t = d.text ++ rest) (ht' : t' = d'.text ++ rest') (hlen : d.digits.length + 1000 ≤ 2 ^ 28) (hlen' : d'.digits.length + 1000 ≤ 2 ^ 28)
    (hr : ¬ OutOfRange T d.absVal) (hr' : ¬ OutOfRange T d'.absVal) (hle : d.realVal ≤ d'.realVal) :
    ∃ b b', read_number_fp dbg u T (ws ++ t) = (.ok b, rest) ∧ read_number_fp dbg u T (ws' ++ t') = (.ok b', rest') ∧
      T.fmt.signedVal b ≤ T.fmt.signedVal b' := by
  obtain ⟨k, k1, k2⟩ := C82_literal dbg T I ws t rest d hws h ht hlen
  obtain ⟨k', k1', k2'⟩ := C82_literal dbg T I ws' t' rest' d' hws' h' ht' hlen'
  rcases k2 with ⟨k2, -⟩ | ⟨-, k2⟩
  · exact absurd k2 hr
  rcases k2' with ⟨k2', -⟩ | ⟨-, k2'⟩
  · exact absurd k2' hr'
  exact ⟨_, _, k2, k2', signed_order k1 k1' hle⟩

/-- C105: a literal that denotes a number of the type is read as exactly this number. -/
theorem C105_exact (T : FloatType) {mode : RoundMode} {u : Fpu} (I : Ieee T.fmt mode u) {s : List Byte} {fmt : CharsFormat} {d : DecLit}
    (h : LongestLiteral (grammar fmt) s d) (hlen : d.digits.length + 1000 ≤ 2 ^ 28) {k : Nat} (hk : k < T.fmt.inf) (hv : d.absVal = T.fmt.val k) :
    T.conv u s fmt = .ok ⟨some (T.fmt.signed d.neg k), d.text.length, .none⟩ ∧ T.fmt.signedVal (T.fmt.signed d.neg k) = d.realVal := by
  have hn : T.fmt.Nearest d.absVal k := by rw [hv]; exact nearest_val _ hk.le
  have hr : ¬ OutOfRange T d.absVal := by
    rw [outOfRange_iff T hn]
    rintro (rfl | ⟨rfl, h0⟩)
    · exact absurd hk (lt_irrefl _)
    · exact h0 (by rw [hv, val_zero])
  obtain ⟨k', ⟨v, p, e⟩, k1, k2, k3, k4⟩ := conv_literal I h hlen
  have : k' = k := k1.unique _ hn
  subst this
  refine ⟨?_, ?_⟩
  · rcases k4 with ⟨k4, -⟩ | ⟨-, k4, k5⟩
    · exact absurd k4 hr
    · simp only at k3 k4 k5
      rw [k2, k3, k4, k5]
  · rw [signedVal_signed _ _ hk.le, ← hv]
    rfl

end

/-! ## Examples -/

/-- `1.0000000000000001e-1` in front of a semicolon: how 0.1 is written with 17 digits. -/
def tenthLit : DecLit :=
  { neg := false, int := str "1", frac := some (str "0000000000000001"), exp := some { letter := ch 'e', sign := some (ch '-'), digits := str "1" } }

theorem tenthLit_longest : LongestLiteral (grammar .general) (str "1.0000000000000001e-1;") tenthLit := by
  have h : LongestLiteral (numFormat (to_fast_float_format .general)) (str "1.0000000000000001e-1;")
      (litOf (to_fast_float_format .general) (str "1.0000000000000001e-1;")) := litOf_longest ⟨by decide, by decide⟩
  exact h

theorem tenthLit_val : tenthLit.absVal = 10000000000000001 * 10 ^ (-17 : ℤ) := by
  unfold DecLit.absVal
  rw [show decVal tenthLit.digits = 10000000000000001 by decide +kernel, show tenthLit.expVal = -1 by decide,
    show tenthLit.fdigits.length = 16 by decide]
  norm_num

theorem tenth_val : binary64.val 0x3FB999999999999A = 0x1999999999999A * 2 ^ (-56 : ℤ) := by
  have := val_cell binary64 1018 0x1999999999999A (.inl (by decide)) (by decide)
  rw [show 1018 * 2 ^ binary64.p + 0x1999999999999A = 0x3FB999999999999A by decide] at this
  rw [this, show ((1018 : ℕ) : ℤ) + 1 - (binary64.bias : ℤ) - (binary64.p : ℤ) = -56 by decide]
  norm_num

/-- The `double` nearest to 0.1 is read back from its 17 digits. -/
example [Platform] {mode : RoundMode} {u : Fpu} (I : Ieee binary64 mode u) :
    from_chars_double u (str "1.0000000000000001e-1;") .general = .ok ⟨some 0x3FB999999999999A, 21, .none⟩ := by
  refine C104_from_chars .double I tenthLit_longest (by decide) (k := 0x3FB999999999999A) (by decide) (.inr ⟨10000000000000001, -17, ?_⟩)
  rw [show FloatType.double.fmt = binary64 from rfl, tenth_val, tenthLit_val, show FloatType.double.max_digits10 = 17 from rfl]
  refine ⟨by norm_num, by norm_num, by norm_num, ?_⟩
  rw [abs_le]; constructor <;> norm_num

/-- `-12.5e1` has three digits and is in range. -/
example : HasDigits FloatType.double.digits10 exampleLit.absVal ∧ FloatType.double.min ≤ exampleLit.absVal ∧ ¬ OutOfRange .double exampleLit.absVal ∧
    exampleLit.realVal ≤ tenthLit.realVal ∧ exampleLit.absVal = binary64.val 0x405F400000000000 := by
  have hv : exampleLit.absVal = 125 := by
    unfold DecLit.absVal
    rw [show decVal exampleLit.digits = 125 by decide, show exampleLit.expVal = 1 by decide, show exampleLit.fdigits.length = 1 by decide]
    norm_num
  have hk : binary64.val 0x405F400000000000 = 125 := by
    have := val_cell binary64 1028 (125 * 2 ^ 46) (.inl (by decide)) (by decide)
    rw [show 1028 * 2 ^ binary64.p + 125 * 2 ^ 46 = 0x405F400000000000 by decide] at this
    rw [this, show ((1028 : ℕ) : ℤ) + 1 - (binary64.bias : ℤ) - (binary64.p : ℤ) = -46 by decide]
    norm_num
  have hr : ¬ OutOfRange .double exampleLit.absVal := by
    have hn : FloatType.double.fmt.Nearest exampleLit.absVal 0x405F400000000000 := by
      rw [hv, ← hk]; exact nearest_val binary64 (by decide)
    rw [outOfRange_iff .double hn]
    decide
  refine ⟨⟨125, 0, by norm_num [FloatType.digits10], by rw [hv]; norm_num⟩, ?_, hr, ?_, by rw [hv, hk]⟩
  · rw [hv]
    exact le_trans (zpow_le_one_of_nonpos₀ (by norm_num) (by norm_num)) (by norm_num)
  · have : (0 : ℚ) ≤ tenthLit.absVal := absVal_nonneg _
    unfold DecLit.realVal
    rw [hv, show exampleLit.neg = true from rfl, show tenthLit.neg = false from rfl]
    simp only [if_true, Bool.false_eq_true, if_false]
    linarith

end Utki
