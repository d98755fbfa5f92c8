import Verif.Spec.MathFloat
import Verif.Lemmas.RoundErr
import Verif.Lemmas.FloatRange
/-!
# Lemmas on floating-point mathematics
-/
namespace Utki
open Spec Spec.BinFmt MathF

/-- What the proofs need to know about the types. -/
structure FT (f : BinFmt) : Prop where
  p1 : 23 ≤ f.p
  top : 2 ≤ f.top
  ty : IsFloatType f

theorem FT.of {f : BinFmt} (h : IsFloatType f) : FT f := by
  refine ⟨?_, ?_, h⟩ <;> rcases h with (rfl | rfl) | (rfl | rfl) <;> decide

theorem type64 : IsFloatType binary64 := .inl (.inl rfl)
theorem type32 : IsFloatType binary32 := .inl (.inr rfl)
theorem type80 : IsFloatType extended80 := .inr (.inl rfl)
theorem type128 : IsFloatType binary128 := .inr (.inr rfl)

theorem u_pos (f : BinFmt) : 0 < f.u := by unfold BinFmt.u; positivity
theorem tiny_pos (f : BinFmt) : 0 < f.tiny := by unfold BinFmt.tiny; positivity
theorem limit_pos (f : BinFmt) : 0 < f.limit := by unfold BinFmt.limit; positivity

theorem u_le {f : BinFmt} (F : FT f) : f.u ≤ 2 ^ (-24 : ℤ) := by
  unfold BinFmt.u
  apply zpow_le_zpow_right₀ (by norm_num)
  have := F.p1
  omega

/-- One rounding. -/
theorem round_err {R : Rounding} (hR : RoundsToNearest R) {f : BinFmt} (F : FT f) {x : ℚ} (hx : 0 ≤ x) (hk : R f x < f.inf) :
    |(f.val (R f x) : ℝ) - x| ≤ f.u * x + f.tiny / 2 := by
  have h := nearest_err (hR f F.ty x hx) hk hx
  have hxr : (0 : ℝ) ≤ x := by exact_mod_cast hx
  have hu := u_pos f
  have ht := tiny_pos f
  rw [abs_sub_comm]
  rcases h with h | h
  · have h' : |(x : ℝ) - f.val (R f x)| ≤ f.u * x := by
      unfold BinFmt.u
      have : ((|x - f.val (R f x)| : ℚ) : ℝ) ≤ ((2 ^ (-(f.p + 1 : ℤ)) * x : ℚ) : ℝ) := by exact_mod_cast h
      push_cast at this
      exact this
    linarith
  · have h' : |(x : ℝ) - f.val (R f x)| ≤ f.tiny / 2 := by
      have e : f.tiny / 2 = ((2 ^ (-(f.bias + f.p : ℤ)) : ℚ) : ℝ) := by
        unfold BinFmt.tiny
        push_cast
        rw [div_eq_mul_inv, ← zpow_neg_one, ← zpow_add₀ two_ne_zero]; congr 1; ring
      rw [e]
      have : ((|x - f.val (R f x)| : ℚ) : ℝ) ≤ ((2 ^ (-(f.bias + f.p : ℤ)) : ℚ) : ℝ) := by exact_mod_cast h
      push_cast at this ⊢
      exact this
    nlinarith

/-- When a result is too large. -/
theorem round_inf_iff {R : Rounding} (hR : RoundsToNearest R) {f : BinFmt} (F : FT f) {x : ℚ} (hx : 0 ≤ x) :
    R f x = f.inf ↔ (1 - f.u / 2) * f.limit ≤ x := by
  rw [nearest_inf_iff (by have := F.p1; omega) F.top (hR f F.ty x hx)]
  have e : (1 - f.u / 2) * f.limit = (((2 - 2 ^ (-(f.p + 1 : ℤ))) * 2 ^ (f.top - f.bias - 1 : ℤ) : ℚ) : ℝ) := by
    unfold BinFmt.u BinFmt.limit
    push_cast
    rw [zpow_sub_one₀ two_ne_zero]
    ring
  rw [e]
  norm_cast

theorem round_le_inf {R : Rounding} (hR : RoundsToNearest R) {f : BinFmt} (F : FT f) {x : ℚ} (hx : 0 ≤ x) : R f x ≤ f.inf :=
  (hR f F.ty x hx).1

theorem round_exact {R : Rounding} (hR : RoundsToNearest R) {f : BinFmt} (F : FT f) {k : Nat} (hk : k ≤ f.inf) : R f (f.val k) = k :=
  Nearest.unique f (hR f F.ty _ (val_nonneg f k)) (nearest_val f hk)

theorem val_180_64 : binary64.val 0x4066800000000000 = 180 := by norm_num [val, binary64]
theorem val_180_32 : binary32.val 0x43340000 = 180 := by norm_num [val, binary32]

theorem val_180_80 : extended80.val 0x20033400000000000000 = 180 := by norm_num [val, extended80]
theorem val_180_128 : binary128.val 0x40066800000000000000000000000000 = 180 := by norm_num [val, binary128]

/-- The `double` nearest to pi. -/
theorem val_pi_64 : binary64.val 0x400921FB54442D18 = 884279719003555 / 281474976710656 := by norm_num [val, binary64]
theorem val_pi_32 : binary32.val 0x40490FDB = 13176795 / 4194304 := by norm_num [val, binary32]

theorem val_pi_80 : extended80.val 0x2000490fdaa22168c000 = 884279719003555 / 281474976710656 := by norm_num [val, extended80]
theorem val_pi_128 : binary128.val 0x4000921fb54442d18000000000000000 = 884279719003555 / 281474976710656 := by norm_num [val, binary128]

theorem pi_mag {R : Rounding} (hR : RoundsToNearest R) : (fpi R).mag = 0x400921FB54442D18 := by
  refine Nearest.unique binary64 (hR _ type64 _ (by norm_num)) ?_
  have h2 : binary64.val (0x400921FB54442D18 + 1) = 7074237752028441 / 2251799813685248 := by norm_num [val, binary64]
  refine nearest_lower _ (by decide) ?_ ?_ (Or.inl ?_) <;> simp only [val_pi_64, h2] <;> norm_num

theorem pi32_mag {R : Rounding} (hR : RoundsToNearest R) : (ofDouble R binary32 (fpi R)).mag = 0x40490FDB := by
  have hm := pi_mag hR
  have e : (ofDouble R binary32 (fpi R)).mag = R binary32 (884279719003555 / 281474976710656) := by
    simp only [ofDouble, hm, val_pi_64]
    rw [if_neg (by decide), if_neg (by decide)]
  rw [e]
  refine Nearest.unique binary32 (hR _ type32 _ (by norm_num)) ?_
  have h2 : binary32.val 0x40490FDA = 6588397 / 2097152 := by norm_num [val, binary32]
  have h3 := val_pi_32
  refine nearest_upper (k := 0x40490FDA) _ (by decide) ?_ ?_ (Or.inl ?_) <;> simp only [h2, h3, Nat.reduceAdd] <;> norm_num

theorem pi64_mag {R : Rounding} (hR : RoundsToNearest R) : (ofDouble R binary64 (fpi R)).mag = 0x400921FB54442D18 := by
  have hm := pi_mag hR
  have e : (ofDouble R binary64 (fpi R)).mag = R binary64 (binary64.val 0x400921FB54442D18) := by
    simp only [ofDouble, hm]
    rw [if_neg (by decide), if_neg (by decide)]
  rw [e, round_exact hR (FT.of type64) (by decide)]

theorem pi_mag_exact {R : Rounding} (hR : RoundsToNearest R) {f : BinFmt} (F : FT f) {k : Nat} (hk : k ≤ f.inf)
    (hv : f.val k = 884279719003555 / 281474976710656) : ofDouble R f (fpi R) = ⟨false, k⟩ := by
  have hm := pi_mag hR
  have e : ofDouble R f (fpi R) = ⟨false, R f (binary64.val 0x400921FB54442D18)⟩ := by
    simp only [ofDouble, hm]
    rw [if_neg (by decide), if_neg (by decide)]
    rfl
  rw [e, val_pi_64, ← hv, round_exact hR F hk]

/-- `number_type(pi)`. -/
theorem pi_num {R : Rounding} (hR : RoundsToNearest R) {f : BinFmt} (F : FT f) :
    ∃ k, ofDouble R f (fpi R) = ⟨false, k⟩ ∧ k < f.inf ∧ k ≠ 0 ∧ 3 < (f.val k : ℝ) ∧ (f.val k : ℝ) < 4 ∧
      (IsDoubleOrFloat f → |(f.val k : ℝ) - Real.pi| ≤ f.u / 2 * Real.pi) ∧
      (IsLongDouble f → f.val k = 884279719003555 / 281474976710656) := by
  have h1 := Real.pi_gt_d20
  have h2 := Real.pi_lt_d20
  have hn : (ofDouble R f (fpi R)).neg = false := rfl
  rcases F.ty with (rfl | rfl) | (rfl | rfl)
  · refine ⟨0x400921FB54442D18, ?_, ?_, ?_, ?_⟩
    · rw [← pi64_mag hR, ← hn]
    · decide
    · decide
    · rw [val_pi_64]
      have hu : binary64.u = 1 / 9007199254740992 := by norm_num [BinFmt.u, binary64]
      rw [hu]
      refine ⟨by norm_num, by norm_num, fun _ => ?_, fun h => absurd h (by unfold IsLongDouble; decide)⟩
      rw [abs_le]; push_cast; constructor <;> norm_num at h1 h2 ⊢ <;> linarith
  · refine ⟨0x40490FDB, ?_, ?_, ?_, ?_⟩
    · rw [← pi32_mag hR, ← hn]
    · decide
    · decide
    · rw [val_pi_32]
      have hu : binary32.u = 1 / 16777216 := by norm_num [BinFmt.u, binary32]
      rw [hu]
      refine ⟨by norm_num, by norm_num, fun _ => ?_, fun h => absurd h (by unfold IsLongDouble; decide)⟩
      rw [abs_le]; push_cast; constructor <;> norm_num at h1 h2 ⊢ <;> linarith
  · refine ⟨0x2000490fdaa22168c000, pi_mag_exact hR F (by decide) val_pi_80, by decide, by decide, ?_⟩
    rw [val_pi_80]
    exact ⟨by norm_num, by norm_num, fun h => absurd h (by unfold IsDoubleOrFloat; decide), fun _ => rfl⟩
  · refine ⟨0x4000921fb54442d18000000000000000, pi_mag_exact hR F (by decide) val_pi_128, by decide, by decide, ?_⟩
    rw [val_pi_128]
    exact ⟨by norm_num, by norm_num, fun h => absurd h (by unfold IsDoubleOrFloat; decide), fun _ => rfl⟩

/-- `number_type(180)`. -/
theorem deg_num {R : Rounding} (hR : RoundsToNearest R) {f : BinFmt} (F : FT f) :
    ∃ k, ofInt R f pi_degrees = ⟨false, k⟩ ∧ k < f.inf ∧ k ≠ 0 ∧ f.val k = 180 := by
  have hx : ((pi_degrees.natAbs : ℕ) : ℚ) = 180 := by decide +kernel
  rcases F.ty with (rfl | rfl) | (rfl | rfl)
  · refine ⟨0x4066800000000000, ?_, by decide, by decide, val_180_64⟩
    have := round_exact hR F (k := 0x4066800000000000) (by decide)
    rw [val_180_64] at this
    simp only [ofInt, hx, this]; rfl
  · refine ⟨0x43340000, ?_, by decide, by decide, val_180_32⟩
    have := round_exact hR F (k := 0x43340000) (by decide)
    rw [val_180_32] at this
    simp only [ofInt, hx, this]; rfl
  · refine ⟨0x20033400000000000000, ?_, by decide, by decide, val_180_80⟩
    have := round_exact hR F (k := 0x20033400000000000000) (by decide)
    rw [val_180_80] at this
    simp only [ofInt, hx, this]; rfl
  · refine ⟨0x40066800000000000000000000000000, ?_, by decide, by decide, val_180_128⟩
    have := round_exact hR F (k := 0x40066800000000000000000000000000) (by decide)
    rw [val_180_128] at this
    simp only [ofInt, hx, this]; rfl

/-- Multiplication followed by division, with rounded results. -/
theorem two_step {x m d c u η a b δ : ℝ} (hδ : δ ≤ 1 / 1000000) (hx : 0 ≤ x) (hm : 0 < m) (hd : 3 ≤ d) (hc : 0 < c) (hu : 0 < u) (hu' : u ≤ 2 ^ (-24 : ℤ)) (hη : 0 < η)
    (hr : |m / d - c| ≤ δ * c) (ha : |a - m * x| ≤ u * (m * x) + η) (hb : |b - a / d| ≤ u * (a / d) + η) :
    |b - c * x| ≤ (δ + 249 / 100 * u) * (c * x) + 2 * η := by
  have hd0 : 0 < d := by linarith
  have hu2 : u ≤ 1 / 16777216 := hu'.trans (by norm_num)
  have hy0 : 0 ≤ m / d * x := by positivity
  have hz0 : 0 ≤ c * x := by positivity
  -- the rounded product
  have e1 : |a / d - m / d * x| ≤ u * (m / d * x) + η / 3 := by
    have : a / d - m / d * x = (a - m * x) / d := by field_simp
    rw [this, abs_div, abs_of_pos hd0]
    calc |a - m * x| / d ≤ (u * (m * x) + η) / d := by gcongr
      _ = u * (m / d * x) + η / d := by field_simp
      _ ≤ u * (m / d * x) + η / 3 := by gcongr
  have e2 : |m / d * x - c * x| ≤ δ * (c * x) := by
    rw [← sub_mul, abs_mul, abs_of_nonneg hx]
    calc |m / d - c| * x ≤ δ * c * x := by gcongr
      _ = δ * (c * x) := by ring
  clear hr ha
  generalize m / d * x = y at *
  generalize c * x = z at *
  generalize a / d = q at *
  rw [abs_le] at e1 e2 hb ⊢
  have t1 : 0 ≤ u * z := by positivity
  have t2 : 0 ≤ u * y := by positivity
  have t3 : u * (u * z) ≤ 1 / 16777216 * (u * z) := mul_le_mul_of_nonneg_right hu2 t1
  have t4 : u * (u * y) ≤ 1 / 16777216 * (u * y) := mul_le_mul_of_nonneg_right hu2 t2
  have t5 : u * η ≤ 1 / 16777216 * η := mul_le_mul_of_nonneg_right hu2 hη.le
  have t0 : δ * (u * z) ≤ 1 / 1000000 * (u * z) := mul_le_mul_of_nonneg_right hδ t1
  have t6 : u * y ≤ u * (z + δ * z) := mul_le_mul_of_nonneg_left (by linarith [e2.2]) hu.le
  have t7 : u * q ≤ u * (y + u * y + η / 3) := mul_le_mul_of_nonneg_left (by linarith [e1.2]) hu.le
  have t6' : u * (z + δ * z) = u * z + δ * (u * z) := by ring
  have t8 : (δ + 249 / 100 * u) * z = δ * z + 249 / 100 * (u * z) := by ring
  have t7' : u * (y + u * y + η / 3) = u * y + u * (u * y) + u * η / 3 := by ring
  rw [t8]
  constructor <;> linarith [hb.1, hb.2, e1.1, e1.2, e2.1, e2.2]

theorem val_inf (f : BinFmt) (ht : 2 ≤ f.top) : (f.val f.inf : ℝ) = f.limit := by
  have h0 : f.inf / 2 ^ f.p = f.top := by unfold BinFmt.inf; exact Nat.mul_div_cancel _ (Nat.two_pow_pos _)
  have h1 : f.inf % 2 ^ f.p = 0 := by unfold BinFmt.inf; exact Nat.mul_mod_left _ _
  unfold BinFmt.val BinFmt.limit
  rw [h0, h1, if_neg (by omega)]
  push_cast
  rw [add_zero, ← zpow_natCast, ← zpow_add₀ two_ne_zero]
  congr 1; ring

theorem val_lt_limit {f : BinFmt} (F : FT f) {k : Nat} (hk : k < f.inf) : (f.val k : ℝ) < f.limit := by
  rw [← val_inf f F.top]
  exact_mod_cast val_lt f hk

/-- `m * x / d` with a finite `x`. -/
theorem mul_div_eq {R : Rounding} (hR : RoundsToNearest R) {f : BinFmt} (F : FT f) {m d : Nat} (hm : m < f.inf) (hd : d < f.inf) (hd0 : d ≠ 0)
    {x : FloatNum} (hx : f.Finite x) : fdiv R f (fmul R f ⟨false, m⟩ x) ⟨false, d⟩ =
      ⟨x.neg, if R f (f.val m * f.val x.mag) = f.inf then f.inf else R f (f.val (R f (f.val m * f.val x.mag)) / f.val d)⟩ := by
  have hx' : x.mag < f.inf := hx
  have ha := round_le_inf hR F (mul_nonneg (val_nonneg f m) (val_nonneg f x.mag))
  have e1 : fmul R f ⟨false, m⟩ x = ⟨x.neg, R f (f.val m * f.val x.mag)⟩ := by
    unfold fmul
    simp only
    rw [if_neg (by omega), if_neg (by omega)]
    simp
  rw [e1]
  unfold fdiv
  simp only
  rw [if_neg (by omega)]
  congr 1
  · simp
  · by_cases h : R f (f.val m * f.val x.mag) = f.inf
    · rw [if_pos h, if_pos h, if_neg (by omega)]
    · rw [if_neg h, if_neg h, if_neg (by omega), if_neg hd0]

theorem real_eq (f : BinFmt) (a : FloatNum) : f.real a = (if a.neg then -1 else 1) * (f.val a.mag : ℝ) := by
  unfold BinFmt.real; split <;> simp

theorem abs_real (f : BinFmt) (a : FloatNum) : |f.real a| = (f.val a.mag : ℝ) := by
  have : (0 : ℝ) ≤ f.val a.mag := by exact_mod_cast val_nonneg f a.mag
  rw [real_eq]; split <;> simp [abs_of_nonneg this]

theorem real_diff (f : BinFmt) (a b : FloatNum) (h : a.neg = b.neg) (c : ℝ) :
    |f.real a - c * f.real b| = |(f.val a.mag : ℝ) - c * f.val b.mag| := by
  rw [real_eq, real_eq, h]
  split
  · rw [show (-1 * (f.val a.mag : ℝ) - c * (-1 * (f.val b.mag : ℝ))) = -((f.val a.mag : ℝ) - c * f.val b.mag) by ring, abs_neg]
  · rw [one_mul, one_mul]

/-- The result of `m * x / d` is finite and near `c * x`, unless the product is too large. -/
theorem mul_div_near {R : Rounding} (hR : RoundsToNearest R) {f : BinFmt} (F : FT f) {m d : Nat} (hm : m < f.inf) (hd : d < f.inf) (hd0 : d ≠ 0)
    {c δ : ℝ} (hδ : δ ≤ 1 / 1000000) (hc : 0 < c) (hm0 : (0 : ℝ) < f.val m) (hd3 : (3 : ℝ) ≤ f.val d)
    (hr : |(f.val m / f.val d : ℝ) - c| ≤ δ * c) {x : FloatNum} (hx : f.Finite x) {r : FloatNum}
    (hres : r = fdiv R f (fmul R f ⟨false, m⟩ x) ⟨false, d⟩) :
    (f.val m * f.val x.mag < (1 - f.u / 2) * f.limit →
      f.Finite r ∧ |f.real r - c * f.real x| ≤ (δ + 249 / 100 * f.u) * (c * |f.real x|) + f.tiny) ∧
    ((1 - f.u / 2) * f.limit ≤ f.val m * f.val x.mag → f.IsInfLike x r) := by
  rw [mul_div_eq hR F hm hd hd0 hx] at hres
  have hmx := mul_nonneg (val_nonneg f m) (val_nonneg f x.mag)
  have hiff := round_inf_iff hR F hmx
  push_cast at hiff
  constructor
  · intro hlt
    have hne : ¬ R f (f.val m * f.val x.mag) = f.inf := by rw [hiff]; exact not_le.mpr hlt
    rw [if_neg hne] at hres
    have hle := round_le_inf hR F hmx
    have hlt' : R f (f.val m * f.val x.mag) < f.inf := by omega
    have ha := round_err hR F hmx hlt'
    have hal := val_lt_limit F hlt'
    have hav0 : (0 : ℚ) ≤ f.val (R f (f.val m * f.val x.mag)) := val_nonneg f _
    generalize R f (f.val m * f.val x.mag) = a at *
    have had : (0 : ℚ) ≤ f.val a / f.val d := div_nonneg hav0 (val_nonneg f d)
    have hav0' : (0 : ℝ) ≤ f.val a := by exact_mod_cast hav0
    have hu := u_pos f
    have hu' := u_le F
    have hL := limit_pos f
    have hfin : R f (f.val a / f.val d) < f.inf := by
      have h1 := round_le_inf hR F had
      have h2 := (round_inf_iff hR F had).not
      have h3 : (((f.val a / f.val d : ℚ)) : ℝ) < (1 - f.u / 2) * f.limit := by
        push_cast
        have h4 : (f.val a / f.val d : ℝ) ≤ f.val a / 3 := by gcongr
        have h5 : f.u ≤ 1 / 2 := hu'.trans (by norm_num)
        nlinarith
      have := h2.mpr (not_le.mpr h3)
      omega
    have hb := round_err hR F had hfin
    push_cast at ha hb
    refine ⟨by rw [hres]; exact hfin, ?_⟩
    rw [real_diff f r x (by rw [hres]), abs_real, hres]
    have hx0 : (0 : ℝ) ≤ f.val x.mag := by exact_mod_cast val_nonneg f x.mag
    have := two_step hδ hx0 hm0 hd3 hc hu hu' (by have := tiny_pos f; linarith : 0 < f.tiny / 2) hr ha hb
    refine this.trans (le_of_eq ?_)
    ring
  · intro hge
    rw [if_pos (hiff.mpr hge)] at hres
    exact hres

/-- The same for `double` and `float`, in terms of the rounding error. -/
theorem mul_div_near_u {R : Rounding} (hR : RoundsToNearest R) {f : BinFmt} (F : FT f) {m d : Nat} (hm : m < f.inf) (hd : d < f.inf) (hd0 : d ≠ 0)
    {c : ℝ} (hc : 0 < c) (hm0 : (0 : ℝ) < f.val m) (hd3 : (3 : ℝ) ≤ f.val d)
    (hr : |(f.val m / f.val d : ℝ) - c| ≤ 51 / 100 * f.u * c) {x : FloatNum} (hx : f.Finite x) {r : FloatNum}
    (hres : r = fdiv R f (fmul R f ⟨false, m⟩ x) ⟨false, d⟩) :
    (f.val m * f.val x.mag < (1 - f.u / 2) * f.limit →
      f.Finite r ∧ |f.real r - c * f.real x| ≤ 3 * f.u * (c * |f.real x|) + f.tiny) ∧
    ((1 - f.u / 2) * f.limit ≤ f.val m * f.val x.mag → f.IsInfLike x r) := by
  have hu := u_pos f
  have hu2 : f.u ≤ 1 / 16777216 := (u_le F).trans (by norm_num)
  have := mul_div_near hR F hm hd hd0 (by linarith) hc hm0 hd3 hr hx hres
  rwa [show 51 / 100 * f.u + 249 / 100 * f.u = 3 * f.u by ring] at this

theorem pi_ratio {u P : ℝ} (hP : 3 < P) (h : |P - Real.pi| ≤ u / 2 * Real.pi) (hu : u ≤ 2 ^ (-24 : ℤ)) (hu0 : 0 < u) :
    |P / 180 - Real.pi / 180| ≤ 51 / 100 * u * (Real.pi / 180) ∧ |180 / P - 180 / Real.pi| ≤ 51 / 100 * u * (180 / Real.pi) := by
  have hpi := Real.pi_pos
  have hu2 : u ≤ 1 / 16777216 := hu.trans (by norm_num)
  constructor
  · rw [← sub_div, abs_div, abs_of_pos (by norm_num : (0 : ℝ) < 180), div_le_iff₀ (by norm_num)]
    have : 51 / 100 * u * (Real.pi / 180) * 180 = 51 / 100 * (u * Real.pi) := by ring
    rw [this]
    have := mul_pos hu0 hpi
    linarith
  · have hP0 : 0 < P := by linarith
    have e : 180 / P - 180 / Real.pi = 180 * (Real.pi - P) / (P * Real.pi) := by field_simp
    rw [e, abs_div, abs_mul, abs_of_pos (mul_pos hP0 hpi), abs_sub_comm, abs_of_pos (by norm_num : (0 : ℝ) < 180), div_le_iff₀ (mul_pos hP0 hpi)]
    have e2 : 51 / 100 * u * (180 / Real.pi) * (P * Real.pi) = 180 * (51 / 100 * (u * P)) := by field_simp
    rw [e2]
    have h1 := (abs_le.mp h).1
    have h2 : u * (Real.pi - u / 2 * Real.pi) ≤ u * P := mul_le_mul_of_nonneg_left (by linarith) hu0.le
    have h3 := mul_pos hu0 hpi
    have h4 : u * (u * Real.pi) ≤ 1 / 16777216 * (u * Real.pi) := mul_le_mul_of_nonneg_right hu2 h3.le
    have h5 : u * (Real.pi - u / 2 * Real.pi) = u * Real.pi - u * (u * Real.pi) / 2 := by ring
    linarith

end Utki
