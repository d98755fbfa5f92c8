import Verif.Lemmas.MathFloat
import Verif.Props.Misc
import Mathlib.Analysis.SpecialFunctions.Log.Deriv
/-!
# Properties of the floating-point mathematics (C85)

The theorems hold for every arithmetic that rounds to nearest as IEEE-754 demands, for `double`, `float` and `long double`.
-/
namespace Utki
open Spec Spec.BinFmt MathF

/-! ## Helper lemmas -/

theorem nearest_of_mid {f : BinFmt} {x : ℚ} {k : Nat} (h0 : 1 ≤ k) (hk : k < f.inf) (lo : f.val (k - 1) + f.val k < 2 * x)
    (hi : 2 * x < f.val k + f.val (k + 1)) : f.Nearest x k := by
  refine ⟨hk.le, fun k' _ hne => Or.inl ?_⟩
  have h1 := val_lt f (show k - 1 < k by omega)
  have h2 := val_lt f (show k < k + 1 by omega)
  rcases Nat.lt_or_gt_of_ne hne with h | h
  · have h3 := val_le f (show k' ≤ k - 1 by omega)
    rw [abs_lt]
    rw [abs_of_pos (by linarith)]
    constructor <;> linarith
  · have h3 := val_le f (show k + 1 ≤ k' by omega)
    rw [abs_lt]
    rw [abs_of_neg (by linarith)]
    constructor <;> linarith

theorem nearest_real_of_mid {f : BinFmt} {x : ℝ} {k : Nat} (h0 : 1 ≤ k) (hk : k < f.inf) (lo : (f.val (k - 1) + f.val k : ℝ) < 2 * x)
    (hi : 2 * x < f.val k + f.val (k + 1)) : f.IsNearestReal x ⟨false, k⟩ := by
  refine ⟨hk, fun b _ hne => ?_⟩
  have h1 : (f.val (k - 1) : ℝ) < f.val k := by exact_mod_cast val_lt f (show k - 1 < k by omega)
  have h2 : (f.val k : ℝ) < f.val (k + 1) := by exact_mod_cast val_lt f (show k < k + 1 by omega)
  have h0' : (0 : ℝ) ≤ f.val (k - 1) := by exact_mod_cast val_nonneg f (k - 1)
  have e : f.real ⟨false, k⟩ = f.val k := by simp [BinFmt.real]
  rw [e]
  have low : f.real b ≤ f.val (k - 1) → |x - f.val k| < |x - f.real b| := by
    intro h3
    rw [abs_lt, abs_of_pos (by linarith)]
    constructor <;> linarith
  obtain ⟨n, m⟩ := b
  cases n
  · have e2 : f.real ⟨false, m⟩ = f.val m := by simp [BinFmt.real]
    rcases Nat.lt_trichotomy m k with h | h | h
    · apply low
      rw [e2]
      exact_mod_cast val_le f (show m ≤ k - 1 by omega)
    · exact absurd (by rw [h]) hne
    · have h3 : (f.val (k + 1) : ℝ) ≤ f.val m := by exact_mod_cast val_le f (show k + 1 ≤ m by omega)
      rw [e2, abs_lt, abs_of_neg (by linarith)]
      constructor <;> linarith
  · apply low
    have e2 : f.real ⟨true, m⟩ = -f.val m := by simp [BinFmt.real]
    have : (0 : ℝ) ≤ f.val m := by exact_mod_cast val_nonneg f m
    rw [e2]; linarith

theorem round_is {R : Rounding} (hR : RoundsToNearest R) {f : BinFmt} (hf : IsFloatType f) {x : ℚ} (hx : 0 ≤ x) {k : Nat} (h0 : 1 ≤ k)
    (hk : k < f.inf) (lo : f.val (k - 1) + f.val k < 2 * x) (hi : 2 * x < f.val k + f.val (k + 1)) : R f x = k :=
  Nearest.unique f (hR f hf x hx) (nearest_of_mid h0 hk lo hi)

theorem log_two_bounds : (693147180559945309 : ℝ) / 10 ^ 18 - 1 / 10 ^ 17 < Real.log 2 ∧ Real.log 2 < 693147180559945309 / 10 ^ 18 + 1 / 10 ^ 17 := by
  have h := Real.abs_log_sub_add_sum_range_le (x := 1 / 2) (by norm_num [abs_lt]) 60
  have e : Real.log (1 - 1 / 2) = -Real.log 2 := by
    rw [show (1 - 1 / 2 : ℝ) = 2⁻¹ by norm_num, Real.log_inv]
  rw [e, abs_le] at h
  norm_num [Finset.sum_range_succ, abs_of_pos] at h
  constructor <;> norm_num <;> linarith [h.1, h.2]

/-! ## The constants -/

/-- C85: `pi`, `two_pi` and `log_2` are the doubles nearest to the numbers they stand for, and `float(pi)` is the `float` nearest to pi. -/
theorem C85_constants {R : Rounding} (hR : RoundsToNearest R) :
    binary64.IsNearestReal Real.pi (fpi R) ∧ binary64.IsNearestReal (2 * Real.pi) (two_pi R) ∧
    binary64.IsNearestReal (Real.log 2) (log_2 R) ∧ binary32.IsNearestReal Real.pi (ofDouble R binary32 (fpi R)) := by
  have h1 := Real.pi_gt_d20
  have h2 := Real.pi_lt_d20
  have hpi : fpi R = ⟨false, 0x400921FB54442D18⟩ := by rw [← pi_mag hR]; rfl
  have hpi32 : ofDouble R binary32 (fpi R) = ⟨false, 0x40490FDB⟩ := by rw [← pi32_mag hR]; rfl
  have h2' : ofInt R binary64 2 = ⟨false, 0x4000000000000000⟩ := by
    have := round_exact hR (FT.of type64) (f := binary64) (k := 0x4000000000000000) (by decide)
    rw [show binary64.val 0x4000000000000000 = 2 by norm_num [val, binary64]] at this
    unfold ofInt
    rw [show (((2 : Int).natAbs : ℕ) : ℚ) = 2 by norm_num, this]
    rfl
  have htwo : two_pi R = ⟨false, 0x401921FB54442D18⟩ := by
    unfold two_pi
    rw [h2', hpi]
    unfold fmul
    have := round_exact hR (FT.of type64) (f := binary64) (k := 0x401921FB54442D18) (by decide)
    rw [show binary64.val 0x401921FB54442D18 = binary64.val 0x4000000000000000 * binary64.val 0x400921FB54442D18 by norm_num [val, binary64]] at this
    simp only [this]
    rw [if_neg (by decide), if_neg (by decide)]
    rfl
  have hlog : log_2 R = ⟨false, 0x3FE62E42FEFA39EF⟩ := by
    unfold log_2
    rw [round_is hR type64 (by norm_num) (k := 0x3FE62E42FEFA39EF) (by decide) (by decide) (by norm_num [val, binary64]) (by norm_num [val, binary64])]
  rw [hpi, htwo, hlog, ← hpi, hpi32, hpi]
  obtain ⟨l1, l2⟩ := log_two_bounds
  norm_num at h1 h2 l1 l2
  refine ⟨?_, ?_, ?_, ?_⟩ <;> refine nearest_real_of_mid (by decide) (by decide) ?_ ?_ <;> norm_num [val, binary64, binary32] <;> linarith

/-! ## The conversions -/

/-- C85: `deg_to_rad`. Unless the angle times pi is too large for the type, the result differs from the exact one by at most three roundings
(plus the smallest number of the type). -/
theorem C85_deg_to_rad {R : Rounding} (hR : RoundsToNearest R) {f : BinFmt} (hf : IsDoubleOrFloat f) {x : FloatNum} (hx : f.Finite x)
    (hrange : |f.real x| * Real.pi ≤ (1 - 2 * f.u) * f.limit) :
    f.Finite (deg_to_rad R f x) ∧
      |f.real (deg_to_rad R f x) - Real.pi / 180 * f.real x| ≤ 3 * f.u * (Real.pi / 180 * |f.real x|) + f.tiny := by
  have F := FT.of (.inl hf)
  obtain ⟨kp, ep, hkp, hkp0, hp3, hp4, hpe, -⟩ := pi_num hR F
  replace hpe := hpe hf
  obtain ⟨kd, ed, hkd, hkd0, hvd⟩ := deg_num hR F
  have hr := pi_ratio hp3 hpe (u_le F) (u_pos f)
  have h180 : (f.val kd : ℝ) = 180 := by rw [hvd]; norm_num
  refine (mul_div_near_u hR F hkp hkd hkd0 (c := Real.pi / 180) (by have := Real.pi_pos; positivity) (by linarith) (by rw [h180]; norm_num)
    (by rw [h180]; exact hr.1) hx (by unfold deg_to_rad; rw [ep, ed])).1 ?_
  rw [abs_real] at hrange
  have hv0 : (0 : ℝ) ≤ f.val x.mag := by exact_mod_cast val_nonneg f x.mag
  have hP : (f.val kp : ℝ) ≤ (1 + f.u / 2) * Real.pi := by have := (abs_le.mp hpe).2; linarith
  have hL := limit_pos f
  have hu := u_pos f
  calc (f.val kp * f.val x.mag : ℝ) ≤ (1 + f.u / 2) * Real.pi * f.val x.mag := by gcongr
    _ = (1 + f.u / 2) * (f.val x.mag * Real.pi) := by ring
    _ ≤ (1 + f.u / 2) * ((1 - 2 * f.u) * f.limit) := by gcongr
    _ = (1 - 3 / 2 * f.u - f.u * f.u) * f.limit := by ring
    _ < (1 - f.u / 2) * f.limit := by
      apply mul_lt_mul_of_pos_right _ hL
      nlinarith

/-- C85: beyond that range `deg_to_rad` gives an infinity, although the exact result is far from being too large. -/
theorem C85_deg_to_rad_overflow {R : Rounding} (hR : RoundsToNearest R) {f : BinFmt} (hf : IsDoubleOrFloat f) {x : FloatNum} (hx : f.Finite x)
    (hrange : f.limit ≤ |f.real x| * Real.pi) : f.IsInfLike x (deg_to_rad R f x) ∧ Real.pi / 180 * |f.real x| < f.limit / 57 := by
  have F := FT.of (.inl hf)
  obtain ⟨kp, ep, hkp, hkp0, hp3, hp4, hpe, -⟩ := pi_num hR F
  replace hpe := hpe hf
  obtain ⟨kd, ed, hkd, hkd0, hvd⟩ := deg_num hR F
  have hr := pi_ratio hp3 hpe (u_le F) (u_pos f)
  have h180 : (f.val kd : ℝ) = 180 := by rw [hvd]; norm_num
  have hlt := val_lt_limit F hx
  rw [abs_real] at hrange ⊢
  have hv0 : (0 : ℝ) ≤ f.val x.mag := by exact_mod_cast val_nonneg f x.mag
  have hL := limit_pos f
  have hu := u_pos f
  refine ⟨(mul_div_near_u hR F hkp hkd hkd0 (c := Real.pi / 180) (by have := Real.pi_pos; positivity) (by linarith) (by rw [h180]; norm_num)
    (by rw [h180]; exact hr.1) hx (by unfold deg_to_rad; rw [ep, ed])).2 ?_, ?_⟩
  · have hP : (1 - f.u / 2) * Real.pi ≤ f.val kp := by have := (abs_le.mp hpe).1; linarith
    have hu1 : f.u ≤ 1 := (u_le F).trans (by norm_num)
    calc (1 - f.u / 2) * f.limit ≤ (1 - f.u / 2) * (f.val x.mag * Real.pi) := by
          apply mul_le_mul_of_nonneg_left hrange; linarith
      _ = (1 - f.u / 2) * Real.pi * f.val x.mag := by ring
      _ ≤ f.val kp * f.val x.mag := by gcongr
  · have := Real.pi_lt_d2
    have hpp := Real.pi_pos
    calc Real.pi / 180 * (f.val x.mag : ℝ) ≤ 3.15 / 180 * f.val x.mag := by gcongr
      _ ≤ 3.15 / 180 * f.limit := by gcongr
      _ < f.limit / 57 := by norm_num; linarith

/-- C85: `rad_to_deg`, likewise. -/
theorem C85_rad_to_deg {R : Rounding} (hR : RoundsToNearest R) {f : BinFmt} (hf : IsDoubleOrFloat f) {x : FloatNum} (hx : f.Finite x)
    (hrange : |f.real x| * 180 < (1 - f.u / 2) * f.limit) :
    f.Finite (rad_to_deg R f x) ∧
      |f.real (rad_to_deg R f x) - 180 / Real.pi * f.real x| ≤ 3 * f.u * (180 / Real.pi * |f.real x|) + f.tiny := by
  have F := FT.of (.inl hf)
  obtain ⟨kp, ep, hkp, hkp0, hp3, hp4, hpe, -⟩ := pi_num hR F
  replace hpe := hpe hf
  obtain ⟨kd, ed, hkd, hkd0, hvd⟩ := deg_num hR F
  have hr := pi_ratio hp3 hpe (u_le F) (u_pos f)
  have h180 : (f.val kd : ℝ) = 180 := by rw [hvd]; norm_num
  refine (mul_div_near_u hR F hkd hkp hkp0 (c := 180 / Real.pi) (by have := Real.pi_pos; positivity) (by rw [h180]; norm_num) hp3.le
    (by rw [h180]; exact hr.2) hx (by unfold rad_to_deg; rw [ep, ed])).1 ?_
  rw [abs_real] at hrange
  rw [h180]; linarith

/-- C85: `rad_to_deg` gives an infinity exactly from where 180 times the angle is too large. -/
theorem C85_rad_to_deg_overflow {R : Rounding} (hR : RoundsToNearest R) {f : BinFmt} (hf : IsFloatType f) {x : FloatNum} (hx : f.Finite x)
    (hrange : (1 - f.u / 2) * f.limit ≤ |f.real x| * 180) : f.IsInfLike x (rad_to_deg R f x) := by
  have F := FT.of hf
  obtain ⟨kp, ep, hkp, hkp0, hp3, hp4, -⟩ := pi_num hR F
  obtain ⟨kd, ed, hkd, hkd0, hvd⟩ := deg_num hR F
  have h180 : (f.val kd : ℝ) = 180 := by rw [hvd]; norm_num
  refine (mul_div_near hR F hkd hkp hkp0 (c := f.val kd / f.val kp) (δ := 0) (by norm_num) (by rw [h180]; positivity) (by rw [h180]; norm_num) hp3.le
    (by simp) hx (by unfold rad_to_deg; rw [ep, ed])).2 ?_
  rw [abs_real] at hrange
  rw [h180]; linarith

/-- C85: converting to radians and back gives nearly the same angle. -/
theorem C85_round_trip {R : Rounding} (hR : RoundsToNearest R) {f : BinFmt} (hf : IsDoubleOrFloat f) {x : FloatNum} (hx : f.Finite x)
    (hrange : |f.real x| * Real.pi ≤ (1 - 8 * f.u) * f.limit) :
    f.Finite (rad_to_deg R f (deg_to_rad R f x)) ∧
      |f.real (rad_to_deg R f (deg_to_rad R f x)) - f.real x| ≤ 7 * f.u * |f.real x| + 60 * f.tiny := by
  have F := FT.of (.inl hf)
  have hu := u_pos f
  have hu2 : f.u ≤ 1 / 16777216 := (u_le F).trans (by norm_num)
  have hL := limit_pos f
  have ht := tiny_pos f
  have hpi := Real.pi_pos
  have hpi3 := Real.pi_gt_three
  have htl : f.tiny ≤ f.u * f.limit / 180 := by
    rcases hf with rfl | rfl
    · norm_num [BinFmt.tiny, BinFmt.u, BinFmt.limit, binary64]
      have a1 : ((2 : ℝ) ^ 1074)⁻¹ ≤ 1 := inv_le_one_of_one_le₀ (one_le_pow₀ (by norm_num))
      have a2 : (2 : ℝ) ^ 100 ≤ 2 ^ 1024 := pow_le_pow_right₀ (by norm_num) (by norm_num)
      have a3 : (9007199254740992 * 180 : ℝ) ≤ 2 ^ 100 := by norm_num
      generalize ((2 : ℝ) ^ 1074)⁻¹ = t at *
      generalize (2 : ℝ) ^ 1024 = L at *
      linarith
    · norm_num [BinFmt.tiny, BinFmt.u, BinFmt.limit, binary32]
  obtain ⟨h1, h2⟩ := C85_deg_to_rad hR hf hx (hrange.trans (by apply mul_le_mul_of_nonneg_right _ hL.le; linarith))
  generalize deg_to_rad R f x = y at *
  have hX0 := abs_nonneg (f.real x)
  have hy : |f.real y| ≤ (1 + 3 * f.u) * (Real.pi / 180 * |f.real x|) + f.tiny := by
    have e : |Real.pi / 180 * f.real x| = Real.pi / 180 * |f.real x| := by rw [abs_mul, abs_of_pos (by positivity)]
    have := abs_sub_abs_le_abs_sub (f.real y) (Real.pi / 180 * f.real x)
    rw [e] at this
    linarith
  have hrange2 : |f.real y| * 180 < (1 - f.u / 2) * f.limit := by
    have a1 : (1 + 3 * f.u) * (|f.real x| * Real.pi) ≤ (1 + 3 * f.u) * ((1 - 8 * f.u) * f.limit) := by gcongr
    have a2 : (1 + 3 * f.u) * ((1 - 8 * f.u) * f.limit) = f.limit - 5 * (f.u * f.limit) - 24 * (f.u * (f.u * f.limit)) := by ring
    have a3 : 0 < f.u * f.limit := by positivity
    have a4 : 0 < f.u * (f.u * f.limit) := by positivity
    have a5 : |f.real y| * 180 ≤ (1 + 3 * f.u) * (|f.real x| * Real.pi) + 180 * f.tiny := by
      calc |f.real y| * 180 ≤ ((1 + 3 * f.u) * (Real.pi / 180 * |f.real x|) + f.tiny) * 180 := by gcongr
        _ = _ := by ring
    linarith
  obtain ⟨h3, h4⟩ := C85_rad_to_deg hR hf h1 hrange2
  refine ⟨h3, ?_⟩
  generalize f.real (rad_to_deg R f y) = Z at *
  generalize f.real y = Y at *
  generalize f.real x = X at *
  have hinv : 180 / Real.pi ≤ 58 := by
    rw [div_le_iff₀ hpi]; have := Real.pi_gt_d2; norm_num at this; linarith
  have hinv0 : 0 < 180 / Real.pi := by positivity
  -- the first error, seen in degrees
  have e1 : |180 / Real.pi * Y - X| ≤ 3 * f.u * |X| + 58 * f.tiny := by
    have : 180 / Real.pi * Y - X = 180 / Real.pi * (Y - Real.pi / 180 * X) := by field_simp
    rw [this, abs_mul, abs_of_pos hinv0]
    calc 180 / Real.pi * |Y - Real.pi / 180 * X| ≤ 180 / Real.pi * (3 * f.u * (Real.pi / 180 * |X|) + f.tiny) := by gcongr
      _ = 3 * f.u * |X| + 180 / Real.pi * f.tiny := by field_simp
      _ ≤ 3 * f.u * |X| + 58 * f.tiny := by gcongr
  have e2 : 180 / Real.pi * |Y| ≤ (1 + 3 * f.u) * |X| + 58 * f.tiny := by
    calc 180 / Real.pi * |Y| ≤ 180 / Real.pi * ((1 + 3 * f.u) * (Real.pi / 180 * |X|) + f.tiny) := by gcongr
      _ = (1 + 3 * f.u) * |X| + 180 / Real.pi * f.tiny := by field_simp
      _ ≤ (1 + 3 * f.u) * |X| + 58 * f.tiny := by gcongr
  have e3 : 3 * f.u * (180 / Real.pi * |Y|) ≤ 3 * f.u * ((1 + 3 * f.u) * |X| + 58 * f.tiny) := by gcongr
  have e4 : 3 * f.u * ((1 + 3 * f.u) * |X| + 58 * f.tiny) = 3 * (f.u * |X|) + 9 * (f.u * (f.u * |X|)) + 174 * (f.u * f.tiny) := by ring
  have e5 : f.u * (f.u * |X|) ≤ 1 / 16777216 * (f.u * |X|) := by gcongr
  have e6 : f.u * f.tiny ≤ 1 / 16777216 * f.tiny := by gcongr
  have e7 := abs_sub_le Z (180 / Real.pi * Y) X
  have e8 : 0 ≤ f.u * |X| := by positivity
  linarith

/-- C85: a larger angle never gives a smaller result. An infinite result counts as larger than all others. -/
theorem C85_monotone {R : Rounding} (hR : RoundsToNearest R) {f : BinFmt} (hf : IsFloatType f) {x y : FloatNum} (hx : f.Finite x) (hy : f.Finite y)
    (hxy : f.real x ≤ f.real y) : f.real (deg_to_rad R f x) ≤ f.real (deg_to_rad R f y) ∧ f.real (rad_to_deg R f x) ≤ f.real (rad_to_deg R f y) := by
  have F := FT.of hf
  obtain ⟨kp, ep, hkp, hkp0, hp3, hp4, -⟩ := pi_num hR F
  obtain ⟨kd, ed, hkd, hkd0, hvd⟩ := deg_num hR F
  have key : ∀ m d : Nat, m < f.inf → d < f.inf → d ≠ 0 →
      f.real (fdiv R f (fmul R f ⟨false, m⟩ x) ⟨false, d⟩) ≤ f.real (fdiv R f (fmul R f ⟨false, m⟩ y) ⟨false, d⟩) := by
    intro m d hm hd hd0
    rw [mul_div_eq hR F hm hd hd0 hx, mul_div_eq hR F hm hd hd0 hy]
    -- the result without sign grows with the argument without sign
    have mono : ∀ a b : Nat, a ≤ b → (if R f (f.val m * f.val a) = f.inf then f.inf else R f (f.val (R f (f.val m * f.val a)) / f.val d)) ≤
        (if R f (f.val m * f.val b) = f.inf then f.inf else R f (f.val (R f (f.val m * f.val b)) / f.val d)) := by
      intro a b hab
      have n0 : ∀ a, 0 ≤ f.val m * f.val a := fun a => mul_nonneg (val_nonneg f m) (val_nonneg f a)
      have h1 : R f (f.val m * f.val a) ≤ R f (f.val m * f.val b) :=
        nearest_mono (hR f hf _ (n0 a)) (hR f hf _ (n0 b)) (mul_le_mul_of_nonneg_left (val_le f hab) (val_nonneg f m))
      have h2 := round_le_inf hR F (n0 b)
      have d0 : ∀ k, 0 ≤ f.val k / f.val d := fun k => div_nonneg (val_nonneg f k) (val_nonneg f d)
      split
      · rw [if_pos (by omega)]
      · split
        · exact round_le_inf hR F (d0 _)
        · exact nearest_mono (hR f hf _ (d0 _)) (hR f hf _ (d0 _)) (div_le_div_of_nonneg_right (val_le f h1) (val_nonneg f d))
    have cmp : ∀ a b : Nat, (f.val a : ℝ) ≤ f.val b → a ≤ b := fun a b h => by
      have : f.val a ≤ f.val b := by exact_mod_cast h
      exact (val_strictMono f).le_iff_le.mp this
    have nn : ∀ a : Nat, (0 : ℝ) ≤ f.val a := fun a => by exact_mod_cast val_nonneg f a
    have vle : ∀ a b : Nat, a ≤ b → (f.val a : ℝ) ≤ f.val b := fun a b h => by exact_mod_cast val_le f h
    obtain ⟨nx, a⟩ := x
    obtain ⟨ny, b⟩ := y
    cases nx <;> cases ny <;> simp only [BinFmt.real, if_true, if_false, Bool.false_eq_true] at hxy ⊢
    · exact vle _ _ (mono a b (cmp a b hxy))
    · have e1 : (f.val a : ℝ) ≤ f.val 0 := by rw [val_zero]; have := nn b; push_cast; linarith
      have e2 : (f.val b : ℝ) ≤ f.val 0 := by rw [val_zero]; have := nn a; push_cast; linarith
      have a0 := cmp a 0 e1
      have b0 := cmp b 0 e2
      obtain rfl : a = 0 := by omega
      obtain rfl : b = 0 := by omega
      have z0 : R f 0 = 0 := by have := round_exact hR F (Nat.zero_le f.inf); rwa [val_zero] at this
      have i0 : (0 : Nat) ≠ f.inf := by omega
      simp [val_zero, z0, i0]
    · exact le_trans (neg_nonpos.mpr (nn _)) (nn _)
    · exact neg_le_neg (vle _ _ (mono b a (cmp b a (by linarith))))
  constructor
  · unfold deg_to_rad; rw [ep, ed]; exact key kp kd hkp hkd hkd0
  · unfold rad_to_deg; rw [ep, ed]; exact key kd kp hkd hkp hkp0

/-- C85: zero, infinity and not-a-number are kept; the sign of the argument is the sign of the result. -/
theorem C85_special {R : Rounding} (hR : RoundsToNearest R) {f : BinFmt} (hf : IsFloatType f) (x : FloatNum) :
    (deg_to_rad R f x).neg = x.neg ∧ (rad_to_deg R f x).neg = x.neg ∧
    (x.mag = 0 → deg_to_rad R f x = x ∧ rad_to_deg R f x = x) ∧
    (x.mag = f.inf → deg_to_rad R f x = x ∧ rad_to_deg R f x = x) ∧
    (f.IsNaN x → f.IsNaN (deg_to_rad R f x) ∧ f.IsNaN (rad_to_deg R f x)) := by
  have F := FT.of hf
  obtain ⟨kp, ep, hkp, hkp0, -⟩ := pi_num hR F
  obtain ⟨kd, ed, hkd, hkd0, hvd⟩ := deg_num hR F
  have z0 : R f 0 = 0 := by have := round_exact hR F (Nat.zero_le f.inf); rwa [val_zero] at this
  have i0 : (0 : Nat) ≠ f.inf := by omega
  have key : ∀ m d : Nat, m < f.inf → d < f.inf → m ≠ 0 → d ≠ 0 → ∀ r, r = fdiv R f (fmul R f ⟨false, m⟩ x) ⟨false, d⟩ →
      r.neg = x.neg ∧ (x.mag = 0 → r = x) ∧ (x.mag = f.inf → r = x) ∧ (f.IsNaN x → f.IsNaN r) := by
    intro m d hm hd hm0 hd0 r hr
    refine ⟨by rw [hr]; simp [fdiv, fmul], ?_, ?_, ?_⟩
    · intro h
      have hfin : f.Finite x := by unfold BinFmt.Finite; omega
      rw [mul_div_eq hR F hm hd hd0 hfin, h] at hr
      simp only [val_zero, mul_zero, z0, if_neg i0, zero_div] at hr
      rw [hr, ← h]
    · intro h
      have e1 : fmul R f ⟨false, m⟩ x = x := by
        unfold fmul
        simp only
        rw [if_neg (by omega), if_pos (by omega), if_neg (by omega), ← h]
        simp
      rw [hr, e1]
      unfold fdiv
      simp only
      rw [if_neg (by omega), if_pos h, if_neg (by omega), ← h]
      simp
    · intro h
      have h' : f.inf < x.mag := h
      have e1 : (fmul R f ⟨false, m⟩ x).mag = nanMag f := by
        unfold fmul
        simp only
        rw [if_pos (by omega)]
      have e2 : r.mag = nanMag f := by
        rw [hr]
        unfold fdiv
        simp only
        rw [if_pos (by rw [e1]; unfold nanMag; omega)]
      unfold BinFmt.IsNaN
      rw [e2]; unfold nanMag; omega
  obtain ⟨a1, a2, a3, a4⟩ := key kp kd hkp hkd hkp0 hkd0 (deg_to_rad R f x) (by unfold deg_to_rad; rw [ep, ed])
  obtain ⟨b1, b2, b3, b4⟩ := key kd kp hkd hkp hkd0 hkp0 (rad_to_deg R f x) (by unfold rad_to_deg; rw [ep, ed])
  exact ⟨a1, b1, fun h => ⟨a2 h, b2 h⟩, fun h => ⟨a3 h, b3 h⟩, fun h => ⟨a4 h, b4 h⟩⟩

/-- C85: half a turn is exactly `number_type(pi)`, in both directions. -/
theorem C85_half_turn {R : Rounding} (hR : RoundsToNearest R) {f : BinFmt} (hf : IsFloatType f) :
    deg_to_rad R f (ofInt R f 180) = ofDouble R f (fpi R) ∧ rad_to_deg R f (ofDouble R f (fpi R)) = ofInt R f 180 := by
  have F := FT.of hf
  have key : ∀ m d a : Nat, m < f.inf → d < f.inf → d ≠ 0 → a < f.inf → R f (f.val m * f.val d) = a → R f (f.val a / f.val d) = m →
      fdiv R f (fmul R f ⟨false, m⟩ ⟨false, d⟩) ⟨false, d⟩ = ⟨false, m⟩ := by
    intro m d a hm hd hd0 ha h1 h2
    rw [mul_div_eq hR F hm hd hd0 (show f.Finite ⟨false, d⟩ from hd)]
    simp only [h1, h2, if_neg (show a ≠ f.inf by omega)]
  change deg_to_rad R f (ofInt R f pi_degrees) = _ ∧ _ = ofInt R f pi_degrees
  unfold deg_to_rad rad_to_deg
  rcases hf with (rfl | rfl) | (rfl | rfl)
  · have ep : ofDouble R binary64 (fpi R) = ⟨false, 0x400921FB54442D18⟩ := by rw [← pi64_mag hR]; rfl
    have ed : ofInt R binary64 pi_degrees = ⟨false, 0x4066800000000000⟩ := by
      have := round_exact hR F (k := 0x4066800000000000) (by decide)
      rw [val_180_64] at this
      unfold ofInt
      rw [show ((pi_degrees.natAbs : ℕ) : ℚ) = 180 by decide +kernel, this]; rfl
    have va : binary64.val 0x4081ABE4B73FEFB5 = 4974073419394997 / 8796093022208 := by norm_num [val, binary64]
    have hm : R binary64 (884279719003555 / 281474976710656 * 180) = 0x4081ABE4B73FEFB5 :=
      round_is hR type64 (by norm_num) (by decide) (by decide) (by norm_num [val, binary64]) (by norm_num [val, binary64])
    rw [ep, ed]
    refine ⟨key 0x400921FB54442D18 0x4066800000000000 0x4081ABE4B73FEFB5 (by decide) (by decide) (by decide) (by decide) ?_ ?_,
      key 0x4066800000000000 0x400921FB54442D18 0x4081ABE4B73FEFB5 (by decide) (by decide) (by decide) (by decide) ?_ ?_⟩
    · rw [val_pi_64, val_180_64, hm]
    · rw [va, val_180_64]
      exact round_is hR type64 (by norm_num) (by decide) (by decide) (by norm_num [val, binary64]) (by norm_num [val, binary64])
    · rw [val_pi_64, val_180_64, mul_comm, hm]
    · rw [va, val_pi_64]
      exact round_is hR type64 (by norm_num) (by decide) (by decide) (by norm_num [val, binary64]) (by norm_num [val, binary64])
  · have ep : ofDouble R binary32 (fpi R) = ⟨false, 0x40490FDB⟩ := by rw [← pi32_mag hR]; rfl
    have ed : ofInt R binary32 pi_degrees = ⟨false, 0x43340000⟩ := by
      have := round_exact hR F (k := 0x43340000) (by decide)
      rw [val_180_32] at this
      unfold ofInt
      rw [show ((pi_degrees.natAbs : ℕ) : ℚ) = 180 by decide +kernel, this]; rfl
    have va : binary32.val 0x440D5F26 = 4632467 / 8192 := by norm_num [val, binary32]
    have hm : R binary32 (13176795 / 4194304 * 180) = 0x440D5F26 :=
      round_is hR type32 (by norm_num) (by decide) (by decide) (by norm_num [val, binary32]) (by norm_num [val, binary32])
    rw [ep, ed]
    refine ⟨key 0x40490FDB 0x43340000 0x440D5F26 (by decide) (by decide) (by decide) (by decide) ?_ ?_,
      key 0x43340000 0x40490FDB 0x440D5F26 (by decide) (by decide) (by decide) (by decide) ?_ ?_⟩
    · rw [val_pi_32, val_180_32, hm]
    · rw [va, val_180_32]
      exact round_is hR type32 (by norm_num) (by decide) (by decide) (by norm_num [val, binary32]) (by norm_num [val, binary32])
    · rw [val_pi_32, val_180_32, mul_comm, hm]
    · rw [va, val_pi_32]
      exact round_is hR type32 (by norm_num) (by decide) (by decide) (by norm_num [val, binary32]) (by norm_num [val, binary32])
  · have ep := pi_mag_exact hR F (by decide) val_pi_80
    have ed : ofInt R extended80 pi_degrees = ⟨false, 0x20033400000000000000⟩ := by
      have := round_exact hR F (k := 0x20033400000000000000) (by decide)
      rw [val_180_80] at this
      unfold ofInt
      rw [show ((pi_degrees.natAbs : ℕ) : ℚ) = 180 by decide +kernel, this]; rfl
    have va : extended80.val 0x20040d5f25b9ff7da700 = 884279719003555 / 281474976710656 * 180 := by norm_num [val, extended80]
    rw [ep, ed]
    refine ⟨key 0x2000490fdaa22168c000 0x20033400000000000000 0x20040d5f25b9ff7da700 (by decide) (by decide) (by decide) (by decide) ?_ ?_,
      key 0x20033400000000000000 0x2000490fdaa22168c000 0x20040d5f25b9ff7da700 (by decide) (by decide) (by decide) (by decide) ?_ ?_⟩
    · rw [val_pi_80, val_180_80, ← va, round_exact hR F (by decide)]
    · rw [va, val_180_80, mul_div_cancel_right₀ _ (by norm_num), ← val_pi_80, round_exact hR F (by decide)]
    · rw [val_pi_80, val_180_80, mul_comm, ← va, round_exact hR F (by decide)]
    · rw [va, val_pi_80, mul_div_cancel_left₀ _ (by norm_num), ← val_180_80, round_exact hR F (by decide)]
  · have ep := pi_mag_exact hR F (by decide) val_pi_128
    have ed : ofInt R binary128 pi_degrees = ⟨false, 0x40066800000000000000000000000000⟩ := by
      have := round_exact hR F (k := 0x40066800000000000000000000000000) (by decide)
      rw [val_180_128] at this
      unfold ofInt
      rw [show ((pi_degrees.natAbs : ℕ) : ℚ) = 180 by decide +kernel, this]; rfl
    have va : binary128.val 0x40081abe4b73fefb4e00000000000000 = 884279719003555 / 281474976710656 * 180 := by norm_num [val, binary128]
    rw [ep, ed]
    refine ⟨key 0x4000921fb54442d18000000000000000 0x40066800000000000000000000000000 0x40081abe4b73fefb4e00000000000000 (by decide) (by decide) (by decide) (by decide) ?_ ?_,
      key 0x40066800000000000000000000000000 0x4000921fb54442d18000000000000000 0x40081abe4b73fefb4e00000000000000 (by decide) (by decide) (by decide) (by decide) ?_ ?_⟩
    · rw [val_pi_128, val_180_128, ← va, round_exact hR F (by decide)]
    · rw [va, val_180_128, mul_div_cancel_right₀ _ (by norm_num), ← val_pi_128, round_exact hR F (by decide)]
    · rw [val_pi_128, val_180_128, mul_comm, ← va, round_exact hR F (by decide)]
    · rw [va, val_pi_128, mul_div_cancel_left₀ _ (by norm_num), ← val_180_128, round_exact hR F (by decide)]

/-! ## Such an arithmetic exists -/

/-- The hypothesis of the theorems above can be met. -/
theorem C85_arithmetic_exists : ∃ R : Rounding, RoundsToNearest R := by
  have h : ∀ (f : BinFmt) (x : ℚ), ∃ k, IsFloatType f → 0 ≤ x → f.Nearest x k := by
    intro f x
    by_cases hf : IsFloatType f
    · by_cases hx : 0 ≤ x
      · have hinf : 0 < f.inf := by rcases hf with (rfl | rfl) | (rfl | rfl) <;> decide
        obtain ⟨k, hk⟩ := FastFloat.rounded_exists f hinf .nearest hx
        exact ⟨k, fun _ _ => hk⟩
      · exact ⟨0, fun _ h => absurd h hx⟩
    · exact ⟨0, fun h => absurd h hf⟩
  choose g hg using h
  exact ⟨g, fun f hf x hx => hg f x hf hx⟩

/-- One degree, as a `double`: the hypotheses of the theorems hold. -/
example : binary64.Finite ⟨false, 0x3FF0000000000000⟩ ∧ binary64.real ⟨false, 0x3FF0000000000000⟩ = 1 ∧
    |binary64.real ⟨false, 0x3FF0000000000000⟩| * Real.pi ≤ (1 - 8 * binary64.u) * binary64.limit := by
  have e : binary64.real ⟨false, 0x3FF0000000000000⟩ = 1 := by norm_num [BinFmt.real, val, binary64]
  refine ⟨by unfold BinFmt.Finite; decide, e, ?_⟩
  rw [e]
  have a2 : (2 : ℝ) ^ 100 ≤ 2 ^ 1024 := pow_le_pow_right₀ (by norm_num) (by norm_num)
  have a3 := Real.pi_lt_four
  norm_num [BinFmt.u, BinFmt.limit, binary64]
  generalize (2 : ℝ) ^ 1024 = L at *
  norm_num at a2
  linarith

/-- `2^1023` degrees, a `double` for which `deg_to_rad` gives infinity. -/
example : binary64.Finite ⟨false, 0x7FE0000000000000⟩ ∧ binary64.limit ≤ |binary64.real ⟨false, 0x7FE0000000000000⟩| * Real.pi := by
  refine ⟨by unfold BinFmt.Finite; decide, ?_⟩
  have e : |binary64.real ⟨false, 0x7FE0000000000000⟩| = 2 ^ (1023 : ℤ) := by
    rw [abs_real]; simp only [val, binary64]
    norm_num
    rw [show (4503599627370496 : ℝ) = 2 ^ 52 by norm_num, ← pow_add]
  have l : binary64.limit = 2 ^ (1023 : ℤ) * 2 := by
    unfold BinFmt.limit
    rw [← zpow_add_one₀ two_ne_zero]
    norm_num [binary64]
  rw [e, l]
  have := Real.pi_gt_three
  apply mul_le_mul_of_nonneg_left (by linarith) (by positivity)

/-! ## Integer types -/

open Misc in
/-- C85: with a signed integer type of at least 32 bits pi is taken to be 3: degrees are divided by 60, radians multiplied by 60, discarding the
fraction; it is undefined exactly when the intermediate product does not fit. -/
theorem C85_integers (t : IntType) (hs : t.signed = true) (hw : 32 ≤ t.w) {x : Int} (hx : t.Mem x) :
    deg_to_rad_int t x = (if t.Mem (3 * x) then .ok (x.tdiv 60) else .ub .overflow) ∧
    rad_to_deg_int t x = (if t.Mem (180 * x) then .ok (60 * x) else .ub .overflow) := by
  obtain ⟨w, s⟩ := t
  simp only at hs hw
  subst hs
  have hp : (⟨w, true⟩ : IntType).promote = ⟨w, true⟩ := by simp only [IntType.promote]; rw [if_neg (by omega)]
  have hbig : (2 : Int) ^ 31 ≤ 2 ^ (w - 1) := by
    have := Nat.pow_le_pow_right (n := 2) (by omega) (show 31 ≤ w - 1 by omega)
    exact_mod_cast this
  have mem : ∀ y, (⟨w, true⟩ : IntType).Mem y ↔ - 2 ^ (w - 1) ≤ y ∧ y < 2 ^ (w - 1) := fun y => by simp [IntType.Mem, IntType.lo, IntType.hi]
  have conv : ∀ y, (⟨w, true⟩ : IntType).Mem y → (⟨w, true⟩ : IntType).conv y = y := fun y hy => IntType.conv_of_mem _ (by simp; omega) hy
  have m3 : (⟨w, true⟩ : IntType).Mem 3 := by rw [mem]; omega
  have m180 : (⟨w, true⟩ : IntType).Mem 180 := by rw [mem]; omega
  have pi180 : pi_degrees = 180 := rfl
  have ar : ∀ y, arith ⟨w, true⟩ y = if (⟨w, true⟩ : IntType).Mem y then .ok y else .ub .overflow := by
    intro y; unfold arith; rw [hp]; simp
  constructor
  · unfold deg_to_rad_int
    rw [pi180, conv 3 m3, conv 180 m180, ar]
    by_cases h : (⟨w, true⟩ : IntType).Mem (3 * x)
    · rw [if_pos h, if_pos h]
      have e : (3 * x).tdiv 180 = x.tdiv 60 := by
        rw [show (180 : Int) = 3 * 60 by norm_num, Int.mul_tdiv_mul_of_pos _ _ (by norm_num)]
      have hm : (⟨w, true⟩ : IntType).Mem (x.tdiv 60) := by
        rw [mem] at hx ⊢
        have h1 := Int.mul_tdiv_add_tmod x 60
        have h2 := Int.tmod_lt_of_pos x (show (0 : Int) < 60 by norm_num)
        have h3 := Int.lt_tmod_of_pos x (show (0 : Int) < 60 by norm_num)
        omega
      simp only [Res.bind_eq, Res.ok_bind, e, ar, if_pos hm, conv _ hm]
    · rw [if_neg h, if_neg h]; rfl
  · unfold rad_to_deg_int
    rw [pi180, conv 3 m3, ar]
    by_cases h : (⟨w, true⟩ : IntType).Mem (180 * x)
    · rw [if_pos h, if_pos h]
      have e : (180 * x).tdiv 3 = 60 * x := by
        rw [show 180 * x = 3 * (60 * x) by ring, Int.mul_tdiv_cancel_left _ (by norm_num)]
      have hm : (⟨w, true⟩ : IntType).Mem (60 * x) := by rw [mem] at h ⊢; omega
      simp only [Res.bind_eq, Res.ok_bind, e, ar, if_pos hm, conv _ hm]
    · rw [if_neg h, if_neg h]; rfl

/-- Half a turn is 3 radians. -/
example : deg_to_rad_int ⟨32, true⟩ 180 = .ok 3 := by decide +kernel
/-- With `int8_t` the divisor 180 becomes -76 and the result has the wrong sign. -/
example : deg_to_rad_int ⟨8, true⟩ 100 = .ok (-3) := by decide +kernel

end Utki
