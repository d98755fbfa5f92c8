import Verif.Props.MathFloat
/-!
# Angle conversions of `long double` (C85)

The constant `pi` is a `double`. Conversions of `long double` numbers are therefore not more precise than those of `double` numbers.
-/
namespace Utki
open Spec Spec.BinFmt MathF

/-! ## Helper lemmas -/

theorem u_le_long {f : BinFmt} (hf : IsLongDouble f) : f.u ≤ 2 ^ (-64 : ℤ) := by
  unfold BinFmt.u
  apply zpow_le_zpow_right₀ (by norm_num)
  rcases hf with rfl | rfl <;> decide

/-- The distance of the constant from pi. -/
theorem pi_gap {P : ℝ} (hP : P = 884279719003555 / 281474976710656) :
    38 / 10 ^ 18 * Real.pi ≤ Real.pi - P ∧ Real.pi - P ≤ 40 / 10 ^ 18 * Real.pi := by
  have h1 := Real.pi_gt_d20
  have h2 := Real.pi_lt_d20
  rw [hP]
  constructor <;> norm_num at h1 h2 ⊢ <;> linarith

/-- Both ratios: too small or too large by a part of about `2^-54.5`. -/
theorem ratio_gap {P : ℝ} (hP : P = 884279719003555 / 281474976710656) :
    (38 / 10 ^ 18 * (Real.pi / 180) ≤ |P / 180 - Real.pi / 180| ∧ |P / 180 - Real.pi / 180| ≤ 41 / 10 ^ 18 * (Real.pi / 180)) ∧
    (38 / 10 ^ 18 * (180 / Real.pi) ≤ |180 / P - 180 / Real.pi| ∧ |180 / P - 180 / Real.pi| ≤ 41 / 10 ^ 18 * (180 / Real.pi)) := by
  have hpi := Real.pi_pos
  have hP3 : 3 < P := by rw [hP]; norm_num
  have hP0 : 0 < P := by linarith
  obtain ⟨g1, g2⟩ := pi_gap hP
  constructor
  · have e : |P / 180 - Real.pi / 180| = (Real.pi - P) / 180 := by
      rw [← sub_div, abs_div, abs_sub_comm, abs_of_pos (by norm_num : (0 : ℝ) < 180), abs_of_nonneg (by nlinarith)]
    rw [e]
    constructor <;> linarith
  · have e : |180 / P - 180 / Real.pi| = 180 / Real.pi * ((Real.pi - P) / P) := by
      have e0 : 180 / P - 180 / Real.pi = 180 / Real.pi * ((Real.pi - P) / P) := by field_simp
      rw [e0, abs_of_nonneg]
      have : 0 ≤ Real.pi - P := by nlinarith
      positivity
    rw [e]
    have k1 : 38 / 10 ^ 18 ≤ (Real.pi - P) / P := by
      rw [le_div_iff₀ hP0]; linarith
    have k2 : (Real.pi - P) / P ≤ 41 / 10 ^ 18 := by
      rw [div_le_iff₀ hP0]; linarith
    have hc : 0 < 180 / Real.pi := by positivity
    constructor
    · rw [mul_comm]; exact mul_le_mul_of_nonneg_left k1 hc.le
    · rw [mul_comm (41 / 10 ^ 18)]; exact mul_le_mul_of_nonneg_left k2 hc.le

/-- From the error against the ratio that is computed with to the error against the exact ratio. -/
theorem long_err {r X c c0 u t : ℝ} (hc : 0 < c) (hu : 0 < u) (hu2 : u ≤ 2 ^ (-64 : ℤ))
    (g1 : 38 / 10 ^ 18 * c ≤ |c0 - c|) (g2 : |c0 - c| ≤ 41 / 10 ^ 18 * c) (h : |r - c0 * X| ≤ (0 + 249 / 100 * u) * (c0 * |X|) + t) :
    |r - c * X| ≤ 2 ^ (-54 : ℤ) * (c * |X|) + t ∧ 2 ^ (-55 : ℤ) * (c * |X|) - t ≤ |r - c * X| := by
  have hu3 : u ≤ 1 / 18446744073709551616 := hu2.trans (by norm_num)
  have hX := abs_nonneg X
  have hc0 : c0 ≤ 11 / 10 * c := by have := (abs_le.mp g2).2; linarith
  have hcX : 0 ≤ c * |X| := by positivity
  have e1 : 249 / 100 * u * (c0 * |X|) ≤ 3 / 10 ^ 19 * (c * |X|) := by
    calc 249 / 100 * u * (c0 * |X|) ≤ 249 / 100 * u * (11 / 10 * c * |X|) := by gcongr
      _ ≤ 249 / 100 * (1 / 18446744073709551616) * (11 / 10 * c * |X|) := by gcongr
      _ = 249 / 100 * (1 / 18446744073709551616) * (11 / 10) * (c * |X|) := by ring
      _ ≤ 3 / 10 ^ 19 * (c * |X|) := by gcongr; norm_num
  have e2 : |c0 * X - c * X| = |c0 - c| * |X| := by rw [← sub_mul, abs_mul]
  have e3 : |c0 - c| * |X| ≤ 41 / 10 ^ 18 * (c * |X|) := by rw [← mul_assoc]; gcongr
  have e4 : 38 / 10 ^ 18 * (c * |X|) ≤ |c0 - c| * |X| := by rw [← mul_assoc]; gcongr
  have a1 := abs_sub_le r (c0 * X) (c * X)
  have a2 := abs_sub_le (c0 * X) r (c * X)
  rw [abs_sub_comm (c0 * X) r] at a2
  rw [e2] at a1 a2
  rw [zero_add] at h
  norm_num at e1 e3 e4 ⊢
  constructor <;> linarith

/-! ## The properties -/

/-- C85: `deg_to_rad` of a `long double`: the result has the precision of a `double`, and never the precision of its type: it is wrong by a part
between `2^-55` and `2^-54`. -/
theorem C85_deg_to_rad_long {R : Rounding} (hR : RoundsToNearest R) {f : BinFmt} (hf : IsLongDouble f) {x : FloatNum} (hx : f.Finite x)
    (hrange : |f.real x| * Real.pi ≤ (1 - f.u / 2) * f.limit) :
    f.Finite (deg_to_rad R f x) ∧
      |f.real (deg_to_rad R f x) - Real.pi / 180 * f.real x| ≤ 2 ^ (-54 : ℤ) * (Real.pi / 180 * |f.real x|) + f.tiny ∧
      2 ^ (-55 : ℤ) * (Real.pi / 180 * |f.real x|) - f.tiny ≤ |f.real (deg_to_rad R f x) - Real.pi / 180 * f.real x| := by
  have F := FT.of (.inr hf)
  obtain ⟨kp, ep, hkp, hkp0, hp3, hp4, -, hpv⟩ := pi_num hR F
  obtain ⟨kd, ed, hkd, hkd0, hvd⟩ := deg_num hR F
  have hpv' : (f.val kp : ℝ) = 884279719003555 / 281474976710656 := by rw [hpv hf]; norm_num
  have h180 : (f.val kd : ℝ) = 180 := by rw [hvd]; norm_num
  have hpi := Real.pi_pos
  have hu2 : f.u ≤ 1 / 2 := (u_le F).trans (by norm_num)
  have key := (mul_div_near hR F hkp hkd hkd0 (c := f.val kp / f.val kd) (δ := 0) (by norm_num) (by rw [h180]; positivity) (by linarith)
    (by rw [h180]; norm_num) (by simp) hx (r := deg_to_rad R f x) (by unfold deg_to_rad; rw [ep, ed])).1 (by
      rw [abs_real] at hrange
      have hv0 : (0 : ℝ) ≤ f.val x.mag := by exact_mod_cast val_nonneg f x.mag
      have hlt : (f.val kp : ℝ) < Real.pi := by have := (pi_gap hpv').1; nlinarith
      rcases hv0.eq_or_lt with h0 | h0
      · rw [← h0, mul_zero]
        have := limit_pos f
        nlinarith
      · calc (f.val kp * f.val x.mag : ℝ) < Real.pi * f.val x.mag := by gcongr
          _ = f.val x.mag * Real.pi := by ring
          _ ≤ _ := hrange)
  refine ⟨key.1, ?_⟩
  obtain ⟨⟨g1, g2⟩, -⟩ := ratio_gap hpv'
  rw [h180] at key
  exact long_err (by positivity) (u_pos f) (u_le_long hf) g1 g2 key.2

/-- C85: where `deg_to_rad` of a `long double` gives an infinity. -/
theorem C85_deg_to_rad_long_overflow {R : Rounding} (hR : RoundsToNearest R) {f : BinFmt} (hf : IsLongDouble f) {x : FloatNum} (hx : f.Finite x)
    (hrange : (1 + 2 ^ (-54 : ℤ)) * f.limit ≤ |f.real x| * Real.pi) : f.IsInfLike x (deg_to_rad R f x) := by
  have F := FT.of (.inr hf)
  obtain ⟨kp, ep, hkp, hkp0, hp3, hp4, -, hpv⟩ := pi_num hR F
  obtain ⟨kd, ed, hkd, hkd0, hvd⟩ := deg_num hR F
  have hpv' : (f.val kp : ℝ) = 884279719003555 / 281474976710656 := by rw [hpv hf]; norm_num
  have h180 : (f.val kd : ℝ) = 180 := by rw [hvd]; norm_num
  refine (mul_div_near hR F hkp hkd hkd0 (c := f.val kp / f.val kd) (δ := 0) (by norm_num) (by rw [h180]; positivity) (by linarith)
    (by rw [h180]; norm_num) (by simp) hx (by unfold deg_to_rad; rw [ep, ed])).2 ?_
  rw [abs_real] at hrange
  have hv0 : (0 : ℝ) ≤ f.val x.mag := by exact_mod_cast val_nonneg f x.mag
  have hL := limit_pos f
  have hu := u_pos f
  have g2 := (pi_gap hpv').2
  have hP : (1 - 40 / 10 ^ 18) * Real.pi ≤ f.val kp := by linarith
  calc (1 - f.u / 2) * f.limit ≤ 1 * f.limit := by gcongr; linarith
    _ ≤ (1 - 40 / 10 ^ 18) * ((1 + 2 ^ (-54 : ℤ)) * f.limit) := by rw [← mul_assoc]; gcongr; norm_num
    _ ≤ (1 - 40 / 10 ^ 18) * (f.val x.mag * Real.pi) := by gcongr
    _ = (1 - 40 / 10 ^ 18) * Real.pi * f.val x.mag := by ring
    _ ≤ f.val kp * f.val x.mag := by gcongr

/-- C85: `rad_to_deg` of a `long double`, likewise. From where it gives an infinity says `C85_rad_to_deg_overflow`. -/
theorem C85_rad_to_deg_long {R : Rounding} (hR : RoundsToNearest R) {f : BinFmt} (hf : IsLongDouble f) {x : FloatNum} (hx : f.Finite x)
    (hrange : |f.real x| * 180 < (1 - f.u / 2) * f.limit) :
    f.Finite (rad_to_deg R f x) ∧
      |f.real (rad_to_deg R f x) - 180 / Real.pi * f.real x| ≤ 2 ^ (-54 : ℤ) * (180 / Real.pi * |f.real x|) + f.tiny ∧
      2 ^ (-55 : ℤ) * (180 / Real.pi * |f.real x|) - f.tiny ≤ |f.real (rad_to_deg R f x) - 180 / Real.pi * f.real x| := by
  have F := FT.of (.inr hf)
  obtain ⟨kp, ep, hkp, hkp0, hp3, hp4, -, hpv⟩ := pi_num hR F
  obtain ⟨kd, ed, hkd, hkd0, hvd⟩ := deg_num hR F
  have hpv' : (f.val kp : ℝ) = 884279719003555 / 281474976710656 := by rw [hpv hf]; norm_num
  have h180 : (f.val kd : ℝ) = 180 := by rw [hvd]; norm_num
  have hpi := Real.pi_pos
  have key := (mul_div_near hR F hkd hkp hkp0 (c := f.val kd / f.val kp) (δ := 0) (by norm_num) (by rw [h180]; positivity)
    (by rw [h180]; norm_num) hp3.le (by simp) hx (r := rad_to_deg R f x) (by unfold rad_to_deg; rw [ep, ed])).1 (by
      rw [abs_real] at hrange
      rw [h180]; linarith)
  refine ⟨key.1, ?_⟩
  obtain ⟨-, g1, g2⟩ := ratio_gap hpv'
  rw [h180] at key
  exact long_err (by positivity) (u_pos f) (u_le_long hf) g1 g2 key.2

/-- C85: in spite of this, converting a `long double` to radians and back gives nearly the same angle, in the precision of the type: the errors of
`pi` cancel. -/
theorem C85_round_trip_long {R : Rounding} (hR : RoundsToNearest R) {f : BinFmt} (hf : IsLongDouble f) {x : FloatNum} (hx : f.Finite x)
    (hrange : |f.real x| * 4 ≤ f.limit) :
    f.Finite (rad_to_deg R f (deg_to_rad R f x)) ∧
      |f.real (rad_to_deg R f (deg_to_rad R f x)) - f.real x| ≤ 7 * f.u * |f.real x| + 60 * f.tiny := by
  have F := FT.of (.inr hf)
  obtain ⟨kp, ep, hkp, hkp0, hp3, hp4, -, hpv⟩ := pi_num hR F
  obtain ⟨kd, ed, hkd, hkd0, hvd⟩ := deg_num hR F
  have hpv' : (f.val kp : ℝ) = 884279719003555 / 281474976710656 := by rw [hpv hf]; norm_num
  have h180 : (f.val kd : ℝ) = 180 := by rw [hvd]; norm_num
  have hu := u_pos f
  have hu2 : f.u ≤ 1 / 16777216 := (u_le F).trans (by norm_num)
  have hL := limit_pos f
  have ht := tiny_pos f
  have hP : (f.val kp : ℝ) < 315 / 100 := by rw [hpv']; norm_num
  have hP2 : (314 / 100 : ℝ) < f.val kp := by rw [hpv']; norm_num
  have hX0 := abs_nonneg (f.real x)
  have htl : f.tiny ≤ f.limit / 1000000 := by
    have t1 : f.tiny ≤ 1 := by
      unfold BinFmt.tiny
      apply zpow_le_one_of_nonpos₀ (by norm_num)
      rcases hf with rfl | rfl <;> decide
    have l1 : (2 : ℝ) ^ (64 : ℤ) ≤ f.limit := by
      unfold BinFmt.limit
      apply zpow_le_zpow_right₀ (by norm_num)
      rcases hf with rfl | rfl <;> decide
    norm_num at l1
    linarith
  have k1 := (mul_div_near hR F hkp hkd hkd0 (c := f.val kp / f.val kd) (δ := 0) (by norm_num) (by rw [h180]; positivity) (by linarith)
    (by rw [h180]; norm_num) (by simp) hx (r := deg_to_rad R f x) (by unfold deg_to_rad; rw [ep, ed])).1 (by
      rw [abs_real] at hrange hX0
      nlinarith)
  have k2 := fun (y : FloatNum) (hy : f.Finite y) => (mul_div_near hR F hkd hkp hkp0 (c := f.val kd / f.val kp) (δ := 0) (by norm_num)
    (by rw [h180]; positivity) (by rw [h180]; norm_num) hp3.le (by simp) hy (r := rad_to_deg R f y) (by unfold rad_to_deg; rw [ep, ed])).1
  obtain ⟨h1, h2⟩ := k1
  generalize deg_to_rad R f x = y at *
  replace k2 := k2 y h1
  rw [h180, zero_add] at h2 k2
  rw [← abs_real f y] at k2
  generalize (f.val kp : ℝ) = P at *
  have hP0 : 0 < P := by linarith
  have hy : |f.real y| ≤ (1 + 249 / 100 * f.u) * (P / 180 * |f.real x|) + f.tiny := by
    have e : |P / 180 * f.real x| = P / 180 * |f.real x| := by rw [abs_mul, abs_of_pos (by positivity)]
    have := abs_sub_abs_le_abs_sub (f.real y) (P / 180 * f.real x)
    rw [e] at this
    linarith
  obtain ⟨h3, h4⟩ := k2 (by
    have a1 : (1 + 249 / 100 * f.u) * (P / 180 * |f.real x|) ≤ (1 + 1 / 1000) * (315 / 100 / 180 * |f.real x|) := by gcongr; linarith
    nlinarith)
  refine ⟨h3, ?_⟩
  generalize f.real (rad_to_deg R f y) = Z at *
  generalize f.real y = Y at *
  generalize f.real x = X at *
  have hinv : 180 / P ≤ 58 := by
    rw [div_le_iff₀ hP0]; linarith
  have hinv0 : 0 < 180 / P := by positivity
  have e1 : |180 / P * Y - X| ≤ 249 / 100 * f.u * |X| + 58 * f.tiny := by
    have : 180 / P * Y - X = 180 / P * (Y - P / 180 * X) := by field_simp
    rw [this, abs_mul, abs_of_pos hinv0]
    calc 180 / P * |Y - P / 180 * X| ≤ 180 / P * (249 / 100 * f.u * (P / 180 * |X|) + f.tiny) := by gcongr
      _ = 249 / 100 * f.u * |X| + 180 / P * f.tiny := by field_simp
      _ ≤ 249 / 100 * f.u * |X| + 58 * f.tiny := by gcongr
  have e2 : 180 / P * |Y| ≤ (1 + 249 / 100 * f.u) * |X| + 58 * f.tiny := by
    calc 180 / P * |Y| ≤ 180 / P * ((1 + 249 / 100 * f.u) * (P / 180 * |X|) + f.tiny) := by gcongr
      _ = (1 + 249 / 100 * f.u) * |X| + 180 / P * f.tiny := by field_simp
      _ ≤ (1 + 249 / 100 * f.u) * |X| + 58 * f.tiny := by gcongr
  have e3 : 249 / 100 * f.u * (180 / P * |Y|) ≤ 249 / 100 * f.u * ((1 + 249 / 100 * f.u) * |X| + 58 * f.tiny) := by gcongr
  have e4 : 249 / 100 * f.u * ((1 + 249 / 100 * f.u) * |X| + 58 * f.tiny) =
      249 / 100 * (f.u * |X|) + 249 / 100 * (249 / 100) * (f.u * (f.u * |X|)) + 249 / 100 * 58 * (f.u * f.tiny) := by ring
  have e5 : f.u * (f.u * |X|) ≤ 1 / 16777216 * (f.u * |X|) := by gcongr
  have e6 : f.u * f.tiny ≤ 1 / 16777216 * f.tiny := by gcongr
  have e7 := abs_sub_le Z (180 / P * Y) X
  have e8 : 0 ≤ f.u * |X| := by positivity
  linarith

/-- One degree, as a `long double`: the hypotheses of the theorems hold, and the error is visible. -/
example : IsLongDouble extended80 ∧ extended80.Finite ⟨false, 0x1fff8000000000000000⟩ ∧ extended80.real ⟨false, 0x1fff8000000000000000⟩ = 1 ∧
    |extended80.real ⟨false, 0x1fff8000000000000000⟩| * 4 ≤ extended80.limit ∧ extended80.tiny < 2 ^ (-55 : ℤ) * (Real.pi / 180) := by
  have e : extended80.real ⟨false, 0x1fff8000000000000000⟩ = 1 := by norm_num [BinFmt.real, val, extended80]
  refine ⟨.inl rfl, by unfold BinFmt.Finite; decide, e, ?_, ?_⟩
  · rw [e]
    have : (2 : ℝ) ^ (64 : ℤ) ≤ extended80.limit := by
      unfold BinFmt.limit
      apply zpow_le_zpow_right₀ (by norm_num)
      decide
    norm_num at this ⊢
    linarith
  · have : extended80.tiny ≤ 2 ^ (-70 : ℤ) := by
      unfold BinFmt.tiny
      apply zpow_le_zpow_right₀ (by norm_num)
      decide
    have h3 := Real.pi_gt_three
    norm_num at this ⊢
    linarith

end Utki
