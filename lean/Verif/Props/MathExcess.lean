import Verif.Lemmas.MathExcessPow
import Verif.Props.MathPow
import Verif.Props.MathFloat
/-!
# Excess precision (C130)

The theorems hold for every arithmetic that rounds to nearest, for `float` computed with in the format of `double`, and `float` and `double` computed with in the
80-bit format. Model: `Model/MathExcess`.
-/
namespace Utki
open Spec Spec.BinFmt MathF

variable {R : Rounding} {f g : BinFmt}

/-- C130: with excess precision `deg_to_rad` never overflows, and is more precise. -/
theorem C130_deg_to_rad (hR : RoundsToNearest R) (he : EvaluatedIn f g) {x : FloatNum} (hx : f.Finite x) :
    f.Finite (deg_to_rad_x R f g x) ∧
      |f.real (deg_to_rad_x R f g x) - Real.pi / 180 * f.real x| ≤ 8 / 5 * f.u * (Real.pi / 180 * |f.real x|) + f.tiny := by
  have W := Wider.of he
  have F := W.F
  have hu := u_pos f
  have hu2 : f.u ≤ 1 / 16777216 := (u_le F).trans (by norm_num)
  obtain ⟨kp, ep, hkp, hkp0, hp3, hp4, hpe, -⟩ := pi_num hR F
  obtain ⟨kd, ed, hkd, hkd0, hvd⟩ := deg_num hR F
  have hr := pi_ratio hp3 (hpe W.df) (u_le F) hu
  have h180 : (f.val kd : ℝ) = 180 := by rw [hvd]; norm_num
  have hpi := Real.pi_lt_four
  have hpi0 := Real.pi_pos
  refine (conv_near hR W hkp hkd (c := Real.pi / 180) (by positivity) (by linarith) (by linarith) (by linarith) (by rw [h180]; norm_num)
    (by rw [h180]; exact hr.1) hx (by unfold deg_to_rad_x; rw [ep, ed])).1 ?_
  rw [abs_real]
  have hX : (f.val x.mag : ℝ) < f.limit := val_lt_limit F hx
  have hX0 : (0 : ℝ) ≤ f.val x.mag := by exact_mod_cast val_nonneg f x.mag
  have hL := limit_pos f
  have h1 : Real.pi / 180 * (f.val x.mag : ℝ) ≤ 1 / 45 * f.limit := by
    apply mul_le_mul _ hX.le hX0 (by norm_num)
    linarith
  nlinarith

/-- C130: `rad_to_deg` gives an infinity only where the exact result is too large, and is more precise, too. -/
theorem C130_rad_to_deg (hR : RoundsToNearest R) (he : EvaluatedIn f g) {x : FloatNum} (hx : f.Finite x) :
    (180 / Real.pi * |f.real x| ≤ (1 - 2 * f.u) * f.limit → f.Finite (rad_to_deg_x R f g x) ∧
      |f.real (rad_to_deg_x R f g x) - 180 / Real.pi * f.real x| ≤ 8 / 5 * f.u * (180 / Real.pi * |f.real x|) + f.tiny) ∧
    ((1 + 2 * f.u) * f.limit ≤ 180 / Real.pi * |f.real x| → f.IsInfLike x (rad_to_deg_x R f g x)) := by
  have W := Wider.of he
  have F := W.F
  have hu := u_pos f
  obtain ⟨kp, ep, hkp, hkp0, hp3, hp4, hpe, -⟩ := pi_num hR F
  obtain ⟨kd, ed, hkd, hkd0, hvd⟩ := deg_num hR F
  have hr := pi_ratio hp3 (hpe W.df) (u_le F) hu
  have h180 : (f.val kd : ℝ) = 180 := by rw [hvd]; norm_num
  have hpi := Real.pi_gt_three
  have hpi0 := Real.pi_pos
  exact conv_near hR W hkd hkp (c := 180 / Real.pi) (by positivity) (by rw [div_le_iff₀ hpi0]; linarith) (by rw [h180]; norm_num) (by rw [h180]; norm_num) hp3.le
    (by rw [h180]; exact hr.2) hx (by unfold rad_to_deg_x; rw [ep, ed])

/-- C130: zero, infinity and not-a-number are kept; the sign of the argument is the sign of the result. -/
theorem C130_special (hR : RoundsToNearest R) (he : EvaluatedIn f g) (x : FloatNum) :
    (deg_to_rad_x R f g x).neg = x.neg ∧ (rad_to_deg_x R f g x).neg = x.neg ∧
    (x.mag = 0 → deg_to_rad_x R f g x = x ∧ rad_to_deg_x R f g x = x) ∧
    (x.mag = f.inf → deg_to_rad_x R f g x = x ∧ rad_to_deg_x R f g x = x) ∧
    (f.IsNaN x → f.IsNaN (deg_to_rad_x R f g x) ∧ f.IsNaN (rad_to_deg_x R f g x)) := by
  have W := Wider.of he
  obtain ⟨kp, ep, hkp, hkp0, -⟩ := pi_num hR W.F
  obtain ⟨kd, ed, hkd, hkd0, hvd⟩ := deg_num hR W.F
  have zf : R f 0 = 0 := by have := round_exact hR W.F (Nat.zero_le f.inf); rwa [val_zero] at this
  have zg : R g 0 = 0 := by have := round_exact hR W.G (Nat.zero_le g.inf); rwa [val_zero] at this
  have g0 : 0 < g.inf := by rcases W.G.ty with (rfl | rfl) | (rfl | rfl) <;> decide
  obtain ⟨x0, x1, x2, x3⟩ := opd_cases hR W x
  have key : ∀ m d : Nat, m < f.inf → d < f.inf → m ≠ 0 → d ≠ 0 → ∀ r,
      r = ret R f g (fdiv R g (fmul R g (opd R f g ⟨false, m⟩) (opd R f g x)) (opd R f g ⟨false, d⟩)) →
      r.neg = x.neg ∧ (x.mag = 0 → r = x) ∧ (x.mag = f.inf → r = x) ∧ (f.IsNaN x → f.IsNaN r) := by
    intro m d hm hd hm0 hd0 r hr
    obtain ⟨m0, m1, m2, m3⟩ := opd_cases hR W ⟨false, m⟩
    obtain ⟨d0, d1, d2, d3⟩ := opd_cases hR W ⟨false, d⟩
    simp only at m0 m1 m2 m3 d0 d1 d2 d3
    have hneg : r.neg = x.neg := by rw [hr]; simp [ret, fconv, fdiv, fmul, m0, d0, x0]
    have ext : ∀ {a b : FloatNum}, a.neg = b.neg → a.mag = b.mag → a = b := by rintro ⟨_, _⟩ ⟨_, _⟩ rfl rfl; rfl
    generalize opd R f g ⟨false, m⟩ = M at *
    generalize opd R f g ⟨false, d⟩ = D at *
    generalize opd R f g x = X at *
    refine ⟨hneg, fun h => ext hneg ?_, fun h => ext hneg ?_, fun h => ?_⟩
    · have e1 : (fmul R g M X).mag = 0 := by
        unfold fmul
        simp only
        rw [if_neg (by omega), if_neg (by omega), show X.mag = 0 by omega, val_zero, mul_zero, zg]
      have e2 : (fdiv R g (fmul R g M X) D).mag = 0 := by
        unfold fdiv
        simp only
        rw [if_neg (by omega), if_neg (by omega), if_neg (by omega), if_neg (by omega), e1, val_zero, zero_div, zg]
      rw [hr, h]
      unfold ret fconv
      simp only
      rw [if_neg (by omega), if_neg (by omega), e2, val_zero, zf]
    · have e1 : (fmul R g M X).mag = g.inf := by
        unfold fmul
        simp only
        rw [if_neg (by omega), if_pos (by omega), if_neg (by omega)]
      have e2 : (fdiv R g (fmul R g M X) D).mag = g.inf := by
        unfold fdiv
        simp only
        rw [if_neg (by omega), if_pos e1, if_neg (by omega)]
      rw [hr, h]
      unfold ret fconv
      simp only
      rw [if_neg (by omega), if_pos e2]
    · have h' : f.inf < x.mag := h
      have e1 : (fmul R g M X).mag = g.inf + 1 := by
        unfold fmul nanMag
        simp only
        rw [if_pos (by omega)]
      have e2 : (fdiv R g (fmul R g M X) D).mag = g.inf + 1 := by
        unfold fdiv nanMag
        simp only
        rw [if_pos (by omega)]
      rw [hr]
      unfold ret fconv nanMag BinFmt.IsNaN
      simp only
      rw [if_pos (by omega)]
      exact Nat.lt_succ_self _
  obtain ⟨a1, a2, a3, a4⟩ := key kp kd hkp hkd hkp0 hkd0 (deg_to_rad_x R f g x) (by unfold deg_to_rad_x; rw [ep, ed])
  obtain ⟨b1, b2, b3, b4⟩ := key kd kp hkd hkp hkd0 hkp0 (rad_to_deg_x R f g x) (by unfold rad_to_deg_x; rw [ep, ed])
  exact ⟨a1, b1, fun h => ⟨a2 h, b2 h⟩, fun h => ⟨a3 h, b3 h⟩, fun h => ⟨a4 h, b4 h⟩⟩

/-- C130: for 2^1023 degrees, a `double`, `deg_to_rad` overflows without excess precision and does not with it. -/
theorem C130_difference (hR : RoundsToNearest R) :
    (deg_to_rad R binary64 ⟨false, 0x7FE0000000000000⟩).mag = binary64.inf ∧
      binary64.Finite (deg_to_rad_x R binary64 extended80 ⟨false, 0x7FE0000000000000⟩) := by
  have hfin : binary64.Finite ⟨false, 0x7FE0000000000000⟩ := by unfold BinFmt.Finite; decide
  refine ⟨?_, (C130_deg_to_rad hR (.inr (.inr ⟨rfl, rfl⟩)) hfin).1⟩
  have e : |binary64.real ⟨false, 0x7FE0000000000000⟩| = 2 ^ (1023 : ℤ) := by
    rw [abs_real]; simp only [val, binary64]
    norm_num
    rw [show (4503599627370496 : ℝ) = 2 ^ 52 by norm_num, ← pow_add]
  have l : binary64.limit = 2 ^ (1023 : ℤ) * 2 := by
    unfold BinFmt.limit
    rw [show (binary64.top - binary64.bias : ℤ) = 1023 + 1 by decide, zpow_add₀ (by norm_num), zpow_one]
  have h := (C85_deg_to_rad_overflow hR (.inl rfl) hfin (by
    rw [e, l]
    have := Real.pi_gt_three
    exact mul_le_mul_of_nonneg_left (by linarith) (by positivity))).1
  rw [h]

/-- An arithmetic as in the theorems exists (`C85_arithmetic_exists`); one radian, as a `float`, meets the hypothesis of `C130_rad_to_deg`. -/
example : EvaluatedIn binary32 binary64 ∧ binary32.Finite ⟨false, 0x3F800000⟩ ∧
    180 / Real.pi * |binary32.real ⟨false, 0x3F800000⟩| ≤ (1 - 2 * binary32.u) * binary32.limit := by
  refine ⟨.inl ⟨rfl, rfl⟩, by unfold BinFmt.Finite; decide, ?_⟩
  have e : |binary32.real ⟨false, 0x3F800000⟩| = 1 := by rw [abs_real]; norm_num [val, binary32]
  have hL := limit_ge (FT.of type32)
  have hu := u_le (FT.of type32)
  have hpi := Real.pi_gt_three
  have : 180 / Real.pi ≤ 60 := by rw [div_le_iff₀ (by linarith)]; linarith
  rw [e]
  norm_num at hL hu
  nlinarith

/-- 2^127 radians, as a `float`: the hypothesis of the second part of `C130_rad_to_deg` holds. -/
example : binary32.Finite ⟨false, 0x7F000000⟩ ∧ (1 + 2 * binary32.u) * binary32.limit ≤ 180 / Real.pi * |binary32.real ⟨false, 0x7F000000⟩| := by
  refine ⟨by unfold BinFmt.Finite; decide, ?_⟩
  have e : |binary32.real ⟨false, 0x7F000000⟩| = 2 ^ (127 : ℤ) := by
    rw [abs_real]; simp only [val, binary32]
    norm_num
  have l : binary32.limit = 2 ^ (127 : ℤ) * 2 := by
    unfold BinFmt.limit
    rw [show (binary32.top - binary32.bias : ℤ) = 127 + 1 by decide, zpow_add₀ (by norm_num), zpow_one]
  have hu := u_le (FT.of type32)
  norm_num at hu
  have hpi := Real.pi_lt_four
  have hpi0 := Real.pi_pos
  have : 45 ≤ 180 / Real.pi := by rw [le_div_iff₀ hpi0]; linarith
  rw [e, l]
  have : (0 : ℝ) < 2 ^ (127 : ℤ) := by positivity
  nlinarith

/-! ### Powers -/

/-- The powers of math.hpp with their exponents. -/
def fpowers_x (R : Rounding) (f g : BinFmt) : List (Nat × (FloatNum → FloatNum)) :=
  [(2, fpow2_x R f g), (3, fpow3_x R f g), (4, fpow4_x R f g), (5, fpow5_x R f g), (6, fpow6_x R f g)]

theorem fpow_neg_x (hR : RoundsToNearest R) (W : Wider f g) {N : Nat} {P : FloatNum → FloatNum} (h : (N, P) ∈ fpowers_x R f g) (x : FloatNum) :
    (P x).neg = (x.neg && N % 2 == 1) := by
  simp only [fpowers_x, List.mem_cons, List.not_mem_nil, or_false, Prod.mk.injEq] at h
  rcases h with ⟨rfl, rfl⟩ | ⟨rfl, rfl⟩ | ⟨rfl, rfl⟩ | ⟨rfl, rfl⟩ | ⟨rfl, rfl⟩ <;>
    simp [fpow6_x, fpow5_x, fpow4_x, fpow3_x, fpow2_x, mul_x_neg hR W]

theorem fpow_small_x (hR : RoundsToNearest R) (W : Wider f g) {N : Nat} {P : FloatNum → FloatNum} (h : (N, P) ∈ fpowers_x R f g)
    {x : FloatNum} (hx : f.Finite x) (h1 : (f.val x.mag : ℝ) ≤ 1) :
    f.Finite (P x) ∧ |(f.val (P x).mag : ℝ) - (f.val x.mag : ℝ) ^ N| ≤ N * f.u * (f.val x.mag : ℝ) ^ N + 3 * f.tiny := by
  have h0 : (0 : ℝ) ≤ f.val x.mag := by exact_mod_cast val_nonneg f x.mag
  have hu := u_pos f
  have ht := tiny_pos f
  have x0 : |(f.val x.mag : ℝ) - f.val x.mag| ≤ 0 * (f.u * f.val x.mag) + 0 * f.tiny := by simp
  set v := (f.val x.mag : ℝ) with hv
  have le1 : ∀ n : Nat, v ^ n ≤ 1 := fun n => pow_le_one₀ h0 h1
  have ge0 : ∀ n : Nat, 0 ≤ v ^ n := fun n => pow_nonneg h0 n
  obtain ⟨f2, e2⟩ := mul_small (goodMul_x hR W) hx hx (α := 0) (β := 0) (c := 0) (d := 0) (by norm_num) (by norm_num) (by norm_num) (by norm_num) (by norm_num)
    (by norm_num) (by norm_num) (by norm_num) h0 h1 h0 h1 x0 x0
  have e2' : v * v = v ^ 2 := by ring
  rw [e2'] at e2
  change f.Finite (fpow2_x R f g x) at f2
  change |(f.val (fpow2_x R f g x).mag : ℝ) - v ^ 2| ≤ _ at e2
  obtain ⟨f3, e3⟩ := mul_small (goodMul_x hR W) f2 hx (β := 0) (d := 0) (by norm_num) (by norm_num) (by norm_num) (by norm_num) (by norm_num)
    (by norm_num) (by norm_num) (by norm_num) (ge0 2) (le1 2) h0 h1 e2 x0
  rw [← pow_succ] at e3
  change f.Finite (fpow3_x R f g x) at f3
  change |(f.val (fpow3_x R f g x).mag : ℝ) - v ^ 3| ≤ _ at e3
  obtain ⟨f4, e4⟩ := mul_small (goodMul_x hR W) f2 f2 (by norm_num) (by norm_num) (by norm_num) (by norm_num) (by norm_num)
    (by norm_num) (by norm_num) (by norm_num) (ge0 2) (le1 2) (ge0 2) (le1 2) e2 e2
  rw [← pow_add] at e4
  change f.Finite (fpow4_x R f g x) at f4
  change |(f.val (fpow4_x R f g x).mag : ℝ) - v ^ 4| ≤ _ at e4
  obtain ⟨f5, e5⟩ := mul_small (goodMul_x hR W) f4 hx (β := 0) (d := 0) (by norm_num) (by norm_num) (by norm_num) (by norm_num) (by norm_num)
    (by norm_num) (by norm_num) (by norm_num) (ge0 4) (le1 4) h0 h1 e4 x0
  rw [← pow_succ] at e5
  change f.Finite (fpow5_x R f g x) at f5
  change |(f.val (fpow5_x R f g x).mag : ℝ) - v ^ 5| ≤ _ at e5
  obtain ⟨f6, e6⟩ := mul_small (goodMul_x hR W) f3 f3 (by norm_num) (by norm_num) (by norm_num) (by norm_num) (by norm_num)
    (by norm_num) (by norm_num) (by norm_num) (ge0 3) (le1 3) (ge0 3) (le1 3) e3 e3
  rw [← pow_add] at e6
  change f.Finite (fpow6_x R f g x) at f6
  change |(f.val (fpow6_x R f g x).mag : ℝ) - v ^ 6| ≤ _ at e6
  have hU : ∀ n : Nat, 0 ≤ f.u * v ^ n := fun n => mul_nonneg hu.le (ge0 n)
  simp only [fpowers_x, List.mem_cons, List.not_mem_nil, or_false, Prod.mk.injEq] at h
  rcases h with ⟨rfl, rfl⟩ | ⟨rfl, rfl⟩ | ⟨rfl, rfl⟩ | ⟨rfl, rfl⟩ | ⟨rfl, rfl⟩
  · exact ⟨f2, e2.trans (by push_cast; linarith [hU 2])⟩
  · exact ⟨f3, e3.trans (by push_cast; linarith [hU 3])⟩
  · exact ⟨f4, e4.trans (by push_cast; norm_num; linarith [hU 4])⟩
  · exact ⟨f5, e5.trans (by push_cast; norm_num; linarith [hU 5])⟩
  · exact ⟨f6, e6.trans (by push_cast; norm_num; linarith [hU 6])⟩

theorem fpow_infOrNear_x (hR : RoundsToNearest R) (W : Wider f g) {N : Nat} {P : FloatNum → FloatNum}
    (h : (N, P) ∈ fpowers_x R f g) {x : FloatNum} (hx : f.Finite x) (h1 : 1 ≤ (f.val x.mag : ℝ)) :
    InfOrNear f (P x) ((f.val x.mag : ℝ) ^ N) (101 / 100 * (N - 1)) := by
  have x0 : InfOrNear f x (f.val x.mag : ℝ) 0 := Or.inr ⟨hx, by simp⟩
  set v := (f.val x.mag : ℝ) with hv
  have ge1 : ∀ n : Nat, 1 ≤ v ^ n := fun n => one_le_pow₀ h1
  have e2 := mul_infOrNear (goodMul_x hR W) (by norm_num) (by norm_num) (by norm_num) (by norm_num) h1 h1 x0 x0
  have e2' : v * v = v ^ 2 := by ring
  rw [e2'] at e2
  have e3 := mul_infOrNear (goodMul_x hR W) (by norm_num) (by norm_num) (by norm_num) (by norm_num) (ge1 2) h1 e2 x0
  rw [← pow_succ] at e3
  have e4 := mul_infOrNear (goodMul_x hR W) (by norm_num) (by norm_num) (by norm_num) (by norm_num) (ge1 2) (ge1 2) e2 e2
  rw [← pow_add] at e4
  have e5 := mul_infOrNear (goodMul_x hR W) (by norm_num) (by norm_num) (by norm_num) (by norm_num) (ge1 4) h1 e4 x0
  rw [← pow_succ] at e5
  have e6 := mul_infOrNear (goodMul_x hR W) (by norm_num) (by norm_num) (by norm_num) (by norm_num) (ge1 3) (ge1 3) e3 e3
  rw [← pow_add] at e6
  simp only [fpowers_x, List.mem_cons, List.not_mem_nil, or_false, Prod.mk.injEq] at h
  rcases h with ⟨rfl, rfl⟩ | ⟨rfl, rfl⟩ | ⟨rfl, rfl⟩ | ⟨rfl, rfl⟩ | ⟨rfl, rfl⟩
  · exact e2.cast (by push_cast; norm_num)
  · exact e3.cast (by push_cast; norm_num)
  · exact e4.cast (by push_cast; norm_num)
  · exact e5.cast (by push_cast; norm_num)
  · exact e6.cast (by push_cast; norm_num)

theorem fpow_exp_x {N : Nat} {P : FloatNum → FloatNum} (h : (N, P) ∈ fpowers_x R f g) : 2 ≤ N ∧ N ≤ 6 := by
  simp only [fpowers_x, List.mem_cons, List.not_mem_nil, or_false, Prod.mk.injEq] at h
  omega

theorem fpow_close_x (hR : RoundsToNearest R) (W : Wider f g) {N : Nat} {P : FloatNum → FloatNum}
    (h : (N, P) ∈ fpowers_x R f g) {x : FloatNum} (hx : f.Finite x) (h1 : 1 ≤ (f.val x.mag : ℝ)) :
    ((P x).mag = f.inf ∧ (1 - N * f.u) * f.limit ≤ (f.val x.mag : ℝ) ^ N) ∨
      (f.Finite (P x) ∧ |(f.val (P x).mag : ℝ) - (f.val x.mag : ℝ) ^ N| ≤ N * f.u * (f.val x.mag : ℝ) ^ N) := by
  have hu := u_pos f
  have hL := limit_pos f
  have hN6 : (N : ℝ) ≤ 6 := by exact_mod_cast (fpow_exp_x h).2
  have hα : 101 / 100 * ((N : ℝ) - 1) ≤ N := by linarith
  rcases fpow_infOrNear_x hR W h hx h1 with ⟨a, b⟩ | ⟨a, b⟩
  · exact .inl ⟨a, le_trans (by gcongr) b⟩
  · right
    refine ⟨a, b.trans ?_⟩
    rw [mul_assoc (N : ℝ)]
    exact mul_le_mul_of_nonneg_right hα (by positivity)


/-- C130: with excess precision the powers are as near to the exact ones as without. -/
theorem C130_powers (hR : RoundsToNearest R) (he : EvaluatedIn f g) {N : Nat} {P : FloatNum → FloatNum} (h : (N, P) ∈ fpowers_x R f g) {x : FloatNum}
    (hx : f.Finite x) :
    (f.Finite (P x) ∧ |f.real (P x) - f.real x ^ N| ≤ N * f.u * |f.real x| ^ N + 3 * f.tiny) ∨
      (P x = ⟨x.neg && N % 2 == 1, f.inf⟩ ∧ (1 - N * f.u) * f.limit ≤ |f.real x| ^ N) := by
  have W := Wider.of he
  have ht := tiny_pos f
  have hn := fpow_neg_x hR W h x
  rw [real_pow_diff f (P x) x N hn, abs_real]
  rcases le_or_gt 1 (f.val x.mag : ℝ) with h1 | h1
  · rcases fpow_close_x hR W h hx h1 with ⟨a, b⟩ | ⟨a, b⟩
    · right
      refine ⟨?_, b⟩
      rw [← hn, ← a]
    · left
      exact ⟨a, by linarith⟩
  · left
    exact fpow_small_x hR W h hx h1.le

/-- C130: the powers of a `float` are the same as without excess precision, in every bit. -/
theorem C130_float_powers (hR : RoundsToNearest R) (he : EvaluatedIn binary32 g) (x : FloatNum) :
    fpow2_x R binary32 g x = fpow2 R binary32 x ∧ fpow3_x R binary32 g x = fpow3 R binary32 x ∧ fpow4_x R binary32 g x = fpow4 R binary32 x ∧
      fpow5_x R binary32 g x = fpow5 R binary32 x ∧ fpow6_x R binary32 g x = fpow6 R binary32 x := by
  have W := Wider.of he
  have h2p : 2 * binary32.p + 1 ≤ g.p := by
    rcases he with ⟨-, rfl⟩ | ⟨-, rfl⟩ | ⟨h, -⟩
    · decide
    · decide
    · exact absurd h (by decide)
  have e : ∀ a b, mul_x R binary32 g a b = fmul R binary32 a b := mul_x_eq hR W h2p
  simp only [fpow2_x, fpow3_x, fpow4_x, fpow5_x, fpow6_x, e, fpow2, fpow3, fpow4, fpow5, fpow6, and_self]

/-- `pow3`, as in the theorems on powers. -/
example (R : Rounding) : EvaluatedIn binary64 extended80 ∧ (3, fpow3_x R binary64 extended80) ∈ fpowers_x R binary64 extended80 ∧
    binary64.Finite ⟨true, 0x4000000000000000⟩ :=
  ⟨.inr (.inr ⟨rfl, rfl⟩), by simp [fpowers_x], by unfold BinFmt.Finite; decide⟩

end Utki
