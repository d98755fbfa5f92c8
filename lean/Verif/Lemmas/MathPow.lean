import Verif.Lemmas.MathFloat
/-!
# The error of products

Helper lemmas for the powers.
-/
namespace Utki
open Spec Spec.BinFmt MathF

/-- A result that is not among the smallest numbers: only a relative error. -/
theorem round_rel {R : Rounding} (hR : RoundsToNearest R) {f : BinFmt} (F : FT f) {x : ℚ} (hx : (1 : ℝ) / 2 ≤ x) (hk : R f x < f.inf) :
    |(f.val (R f x) : ℝ) - x| ≤ f.u * x := by
  have hx0 : (0 : ℚ) ≤ x := by
    have : (0 : ℝ) ≤ x := by linarith
    exact_mod_cast this
  have h := nearest_err (hR f F.ty x hx0) hk hx0
  rw [abs_sub_comm]
  have h' : |x - f.val (R f x)| ≤ 2 ^ (-(f.p + 1 : ℤ)) * x := by
    rcases h with h | h
    · exact h
    · refine h.trans ?_
      have hq : (1 : ℚ) / 2 ≤ x := by
        have : (((1 / 2 : ℚ)) : ℝ) ≤ x := by push_cast; exact hx
        exact_mod_cast this
      have hb : 2 ≤ f.bias := by rcases F.ty with (rfl | rfl) | (rfl | rfl) <;> decide
      calc (2 : ℚ) ^ (-(f.bias + f.p : ℤ)) ≤ 2 ^ (-(f.p + 1 : ℤ) + (-1)) := by
            apply zpow_le_zpow_right₀ (by norm_num); omega
        _ = 2 ^ (-(f.p + 1 : ℤ)) * (1 / 2) := by rw [zpow_add₀ two_ne_zero]; norm_num
        _ ≤ 2 ^ (-(f.p + 1 : ℤ)) * x := by gcongr
  unfold BinFmt.u
  have : ((|x - f.val (R f x)| : ℚ) : ℝ) ≤ ((2 ^ (-(f.p + 1 : ℤ)) * x : ℚ) : ℝ) := by exact_mod_cast h'
  push_cast at this
  exact this

theorem tiny_le {f : BinFmt} (F : FT f) : f.tiny ≤ 1 / 16777216 := by
  have h : f.tiny ≤ 2 ^ (-24 : ℤ) := by
    unfold BinFmt.tiny
    apply zpow_le_zpow_right₀ (by norm_num)
    rcases F.ty with (rfl | rfl) | (rfl | rfl) <;> decide
  exact h.trans (by norm_num)

theorem limit_ge {f : BinFmt} (F : FT f) : 2 ^ 64 ≤ f.limit := by
  have h : (2 : ℝ) ^ (64 : ℤ) ≤ f.limit := by
    unfold BinFmt.limit
    apply zpow_le_zpow_right₀ (by norm_num)
    rcases F.ty with (rfl | rfl) | (rfl | rfl) <;> decide
  exact_mod_cast h

/-- The exact product of two approximate numbers. -/
theorem near_prod_big {u a b e g α β : ℝ} (hu : 0 < u) (hu2 : u ≤ 1 / 16777216) (hα : 0 ≤ α) (hα6 : α ≤ 6) (hβ : 0 ≤ β) (hβ6 : β ≤ 6)
    (he : 0 ≤ e) (hg : 0 ≤ g) (ha : |a - e| ≤ α * (u * e)) (hb : |b - g| ≤ β * (u * g)) :
    |a * b - e * g| ≤ (α + β + 1 / 1000) * (u * (e * g)) := by
  have h1 : a * b - e * g = e * (b - g) + (a - e) * g + (a - e) * (b - g) := by ring
  have h2 : |a * b - e * g| ≤ e * |b - g| + |a - e| * g + |a - e| * |b - g| := by
    rw [h1]
    refine (abs_add_three _ _ _).trans ?_
    rw [abs_mul, abs_mul, abs_mul, abs_of_nonneg he, abs_of_nonneg hg]
  have h3 : e * |b - g| ≤ e * (β * (u * g)) := by gcongr
  have h4 : |a - e| * g ≤ α * (u * e) * g := by gcongr
  have h5 : |a - e| * |b - g| ≤ (α * (u * e)) * (β * (u * g)) := by gcongr
  have h6 : (α * (u * e)) * (β * (u * g)) ≤ 1 / 1000 * (u * (e * g)) := by
    have : (α * (u * e)) * (β * (u * g)) = (α * β * u) * (u * (e * g)) := by ring
    rw [this]
    have h7 : α * β * u ≤ 6 * 6 * (1 / 16777216) := by gcongr
    have : 0 ≤ u * (e * g) := by positivity
    refine mul_le_mul_of_nonneg_right (h7.trans (by norm_num)) this
  have h8 : e * (β * (u * g)) = β * (u * (e * g)) := by ring
  have h9 : α * (u * e) * g = α * (u * (e * g)) := by ring
  have h10 : (α + β + 1 / 1000) * (u * (e * g)) = α * (u * (e * g)) + β * (u * (e * g)) + 1 / 1000 * (u * (e * g)) := by ring
  linarith

/-- The same with absolute errors, for numbers up to 1. -/
theorem near_prod_small {u t a b e g α β c d : ℝ} (hu : 0 < u) (hu2 : u ≤ 1 / 16777216) (ht : 0 < t) (ht2 : t ≤ 1 / 16777216)
    (hα : 0 ≤ α) (hα6 : α ≤ 6) (hβ : 0 ≤ β) (hβ6 : β ≤ 6) (hc : 0 ≤ c) (hc3 : c ≤ 3) (hd : 0 ≤ d) (hd3 : d ≤ 3)
    (he : 0 ≤ e) (he1 : e ≤ 1) (hg : 0 ≤ g) (hg1 : g ≤ 1) (ha : |a - e| ≤ α * (u * e) + c * t) (hb : |b - g| ≤ β * (u * g) + d * t) :
    |a * b - e * g| ≤ (α + β + 1 / 1000) * (u * (e * g)) + (c + d + 1 / 1000) * t := by
  have h1 : a * b - e * g = e * (b - g) + (a - e) * g + (a - e) * (b - g) := by ring
  have h2 : |a * b - e * g| ≤ e * |b - g| + |a - e| * g + |a - e| * |b - g| := by
    rw [h1]
    refine (abs_add_three _ _ _).trans ?_
    rw [abs_mul, abs_mul, abs_mul, abs_of_nonneg he, abs_of_nonneg hg]
  have h3 : e * |b - g| ≤ e * (β * (u * g) + d * t) := by gcongr
  have h4 : |a - e| * g ≤ (α * (u * e) + c * t) * g := by gcongr
  have h5 : |a - e| * |b - g| ≤ (α * (u * e) + c * t) * (β * (u * g) + d * t) := by gcongr
  have hU : 0 ≤ u * (e * g) := by positivity
  have h6 : (α * (u * e)) * (β * (u * g)) ≤ 1 / 1000 * (u * (e * g)) := by
    have : (α * (u * e)) * (β * (u * g)) = (α * β * u) * (u * (e * g)) := by ring
    rw [this]
    have h7 : α * β * u ≤ 6 * 6 * (1 / 16777216) := by gcongr
    refine mul_le_mul_of_nonneg_right (h7.trans (by norm_num)) hU
  have h7 : (α * (u * e)) * (d * t) ≤ 1 / 4000 * t := by
    have : (α * (u * e)) * (d * t) = (α * (u * e) * d) * t := by ring
    rw [this]
    have : α * (u * e) * d ≤ 6 * (1 / 16777216 * 1) * 3 := by gcongr
    exact mul_le_mul_of_nonneg_right (this.trans (by norm_num)) ht.le
  have h8 : (c * t) * (β * (u * g)) ≤ 1 / 4000 * t := by
    have : (c * t) * (β * (u * g)) = (c * (β * (u * g))) * t := by ring
    rw [this]
    have : c * (β * (u * g)) ≤ 3 * (6 * (1 / 16777216 * 1)) := by gcongr
    exact mul_le_mul_of_nonneg_right (this.trans (by norm_num)) ht.le
  have h9 : (c * t) * (d * t) ≤ 1 / 4000 * t := by
    have : (c * t) * (d * t) = (c * t * d) * t := by ring
    rw [this]
    have : c * t * d ≤ 3 * (1 / 16777216) * 3 := by gcongr
    exact mul_le_mul_of_nonneg_right (this.trans (by norm_num)) ht.le
  have h10 : e * (d * t) ≤ 1 * (d * t) := by gcongr
  have h11 : (c * t) * g ≤ (c * t) * 1 := by gcongr
  have h12 : e * (β * (u * g) + d * t) = β * (u * (e * g)) + e * (d * t) := by ring
  have h13 : (α * (u * e) + c * t) * g = α * (u * (e * g)) + (c * t) * g := by ring
  have h14 : (α * (u * e) + c * t) * (β * (u * g) + d * t) =
      (α * (u * e)) * (β * (u * g)) + (α * (u * e)) * (d * t) + (c * t) * (β * (u * g)) + (c * t) * (d * t) := by ring
  have h15 : (α + β + 1 / 1000) * (u * (e * g)) = α * (u * (e * g)) + β * (u * (e * g)) + 1 / 1000 * (u * (e * g)) := by ring
  linarith

/-- What a multiplication of finite numbers gives. -/
theorem fmul_finite {R : Rounding} {f : BinFmt} {a b : FloatNum} (ha : f.Finite a) (hb : f.Finite b) :
    fmul R f a b = ⟨a.neg != b.neg, R f (f.val a.mag * f.val b.mag)⟩ := by
  have ha' : a.mag < f.inf := ha
  have hb' : b.mag < f.inf := hb
  unfold fmul
  rw [if_neg (by omega), if_neg (by omega)]

/-- A multiplication of numbers up to 1. -/
theorem fmul_small {R : Rounding} (hR : RoundsToNearest R) {f : BinFmt} (F : FT f) {a b : FloatNum} (ha : f.Finite a) (hb : f.Finite b)
    {e g α β c d : ℝ} (hα : 0 ≤ α) (hα6 : α ≤ 6) (hβ : 0 ≤ β) (hβ6 : β ≤ 6) (hc : 0 ≤ c) (hc3 : c ≤ 3) (hd : 0 ≤ d) (hd3 : d ≤ 3)
    (he : 0 ≤ e) (he1 : e ≤ 1) (hg : 0 ≤ g) (hg1 : g ≤ 1)
    (hae : |(f.val a.mag : ℝ) - e| ≤ α * (f.u * e) + c * f.tiny) (hbg : |(f.val b.mag : ℝ) - g| ≤ β * (f.u * g) + d * f.tiny) :
    f.Finite (fmul R f a b) ∧
      |(f.val (fmul R f a b).mag : ℝ) - e * g| ≤ (α + β + 101 / 100) * (f.u * (e * g)) + (c + d + 51 / 100) * f.tiny := by
  have hu := u_pos f
  have hu2 : f.u ≤ 1 / 16777216 := (u_le F).trans (by norm_num)
  have ht := tiny_pos f
  have ht2 := tiny_le F
  have hp := near_prod_small hu hu2 ht ht2 hα hα6 hβ hβ6 hc hc3 hd hd3 he he1 hg hg1 hae hbg
  have heg : e * g ≤ 1 := mul_le_one₀ he1 hg hg1
  have heg0 : 0 ≤ e * g := by positivity
  have hL := limit_ge F
  rw [fmul_finite ha hb]
  have hx0 : 0 ≤ f.val a.mag * f.val b.mag := mul_nonneg (val_nonneg f _) (val_nonneg f _)
  have hsmall : (α + β + 1 / 1000) * (f.u * (e * g)) ≤ 1 / 1000 * (e * g) := by
    have h1 : (α + β + 1 / 1000) * f.u ≤ (6 + 6 + 1 / 1000) * (1 / 16777216) := by gcongr
    calc (α + β + 1 / 1000) * (f.u * (e * g)) = (α + β + 1 / 1000) * f.u * (e * g) := by ring
      _ ≤ 1 / 1000 * (e * g) := mul_le_mul_of_nonneg_right (h1.trans (by norm_num)) heg0
  have hct : (c + d + 1 / 1000) * f.tiny ≤ 7 * f.tiny := by gcongr; linarith
  have hp' := abs_le.mp hp
  have hfin : R f (f.val a.mag * f.val b.mag) < f.inf := by
    have h1 := round_le_inf hR F hx0
    have h2 := (round_inf_iff hR F hx0).not
    have h3 : ¬ (1 - f.u / 2) * f.limit ≤ ((f.val a.mag * f.val b.mag : ℚ) : ℝ) := by
      push_cast
      have : (1 - f.u / 2) * f.limit ≥ (1 - 1 / 16777216 / 2) * f.limit := by
        have := limit_pos f
        gcongr
      norm_num at hL
      linarith
    have := h2.mpr h3
    omega
  refine ⟨hfin, ?_⟩
  have hr := round_err hR F (x := f.val a.mag * f.val b.mag) hx0 hfin
  push_cast at hr
  simp only
  have h4 := abs_sub_le (f.val (R f (f.val a.mag * f.val b.mag)) : ℝ) (f.val a.mag * f.val b.mag) (e * g)
  have h5 : f.u * (f.val a.mag * f.val b.mag : ℝ) ≤ f.u * (e * g + 1 / 1000 * (e * g) + 7 * f.tiny) := by
    apply mul_le_mul_of_nonneg_left _ hu.le; linarith
  have h6 : f.u * (e * g + 1 / 1000 * (e * g) + 7 * f.tiny) = (1 + 1 / 1000) * (f.u * (e * g)) + 7 * (f.u * f.tiny) := by ring
  have h7 : (α + β + 101 / 100) * (f.u * (e * g)) = (α + β + 1 / 1000) * (f.u * (e * g)) + (1009 / 1000) * (f.u * (e * g)) := by ring
  have h8 : 0 ≤ f.u * (e * g) := by positivity
  have h9 : f.u * f.tiny ≤ 1 / 16777216 * f.tiny := by gcongr
  have h10 : (c + d + 51 / 100) * f.tiny = (c + d + 1 / 1000) * f.tiny + 509 / 1000 * f.tiny := by ring
  linarith

/-- Infinite, and the exact number is near the limit or beyond; or near a number that is at least 1. -/
def InfOrNear (f : BinFmt) (a : FloatNum) (e α : ℝ) : Prop :=
  (a.mag = f.inf ∧ (1 - α * f.u) * f.limit ≤ e) ∨ (f.Finite a ∧ |(f.val a.mag : ℝ) - e| ≤ α * (f.u * e))

theorem near_pos {f : BinFmt} (F : FT f) {a : FloatNum} {e α : ℝ} (he : 1 ≤ e) (hα6 : α ≤ 6)
    (h : |(f.val a.mag : ℝ) - e| ≤ α * (f.u * e)) : e * (999 / 1000) ≤ f.val a.mag := by
  have hu := u_pos f
  have hu2 : f.u ≤ 1 / 16777216 := (u_le F).trans (by norm_num)
  have h1 : α * (f.u * e) ≤ 6 * (1 / 16777216 * e) := by
    have : 0 ≤ f.u * e := by positivity
    calc α * (f.u * e) ≤ 6 * (f.u * e) := by gcongr
      _ ≤ _ := by gcongr
  have := (abs_le.mp h).1
  linarith

theorem mag_ne_zero {f : BinFmt} {k : Nat} (h : (0 : ℝ) < f.val k) : k ≠ 0 := by
  rintro rfl; rw [val_zero] at h; norm_num at h

/-- A multiplication whose exact result is at least 1 and possibly too large. -/
theorem fmul_infOrNear {R : Rounding} (hR : RoundsToNearest R) {f : BinFmt} (F : FT f) {a b : FloatNum} {e g α β : ℝ} (hα : 0 ≤ α) (hα6 : α ≤ 6)
    (hβ : 0 ≤ β) (hβ6 : β ≤ 6) (he : 1 ≤ e) (hg : 1 ≤ g) (ha : InfOrNear f a e α) (hb : InfOrNear f b g β) :
    InfOrNear f (fmul R f a b) (e * g) (α + β + 101 / 100) := by
  have i0 : f.inf ≠ 0 := by rcases F.ty with (rfl | rfl) | (rfl | rfl) <;> decide
  have pos : ∀ {a : FloatNum} {e α : ℝ}, 1 ≤ e → α ≤ 6 → InfOrNear f a e α → a.mag ≠ 0 ∧ a.mag ≤ f.inf := by
    intro a e α he h6 h
    rcases h with ⟨h, -⟩ | ⟨h1, h2⟩
    · exact ⟨by rw [h]; exact i0, h.le⟩
    · have h1' : a.mag < f.inf := h1
      exact ⟨mag_ne_zero (by have := near_pos F he h6 h2; linarith), h1'.le⟩
  obtain ⟨pa, pa'⟩ := pos he hα6 ha
  obtain ⟨pb, pb'⟩ := pos hg hβ6 hb
  by_cases hinf : a.mag = f.inf ∨ b.mag = f.inf
  · left
    constructor
    · unfold fmul
      simp only
      rw [if_neg (by omega), if_pos hinf, if_neg (by omega)]
    · have hu := u_pos f
      have hL := limit_pos f
      have weaken : ∀ γ δ : ℝ, γ ≤ δ → (1 - δ * f.u) * f.limit ≤ (1 - γ * f.u) * f.limit := by
        intro γ δ hγ; gcongr
      rcases hinf with hi | hi
      · rcases ha with ⟨-, h2⟩ | ⟨h1, -⟩
        · calc (1 - (α + β + 101 / 100) * f.u) * f.limit ≤ (1 - α * f.u) * f.limit := weaken _ _ (by linarith)
            _ ≤ e := h2
            _ ≤ e * g := le_mul_of_one_le_right (by linarith) hg
        · have h1' : a.mag < f.inf := h1
          omega
      · rcases hb with ⟨-, h2⟩ | ⟨h1, -⟩
        · calc (1 - (α + β + 101 / 100) * f.u) * f.limit ≤ (1 - β * f.u) * f.limit := weaken _ _ (by linarith)
            _ ≤ g := h2
            _ ≤ e * g := le_mul_of_one_le_left (by linarith) he
        · have h1' : b.mag < f.inf := h1
          omega
  · push Not at hinf
    have ha1 : f.Finite a := by unfold BinFmt.Finite; omega
    have hb1 : f.Finite b := by unfold BinFmt.Finite; omega
    have ha2 := (ha.resolve_left (fun h => hinf.1 h.1)).2
    have hb2 := (hb.resolve_left (fun h => hinf.2 h.1)).2
    have hu := u_pos f
    have hu2 : f.u ≤ 1 / 16777216 := (u_le F).trans (by norm_num)
    have hp := near_prod_big hu hu2 hα hα6 hβ hβ6 (by linarith) (by linarith) ha2 hb2
    have heg : 1 ≤ e * g := one_le_mul_of_one_le_of_one_le he hg
    have hx0 : 0 ≤ f.val a.mag * f.val b.mag := mul_nonneg (val_nonneg f _) (val_nonneg f _)
    rw [fmul_finite ha1 hb1]
    have h1 := round_le_inf hR F hx0
    by_cases hk : R f (f.val a.mag * f.val b.mag) = f.inf
    · left
      refine ⟨hk, ?_⟩
      have h2 := (round_inf_iff hR F hx0).mp hk
      push_cast at h2
      have hp' := (abs_le.mp hp).2
      have hL := limit_pos f
      -- e * g * (1 + c u) is at least (1 - u / 2) * limit
      have h3 : (1 - f.u / 2) * f.limit ≤ e * g * (1 + (α + β + 1 / 1000) * f.u) := by linarith
      have hc0 : 0 ≤ (α + β + 1 / 1000) * f.u := by positivity
      have h4 : (1 - f.u / 2) * (1 - (α + β + 1 / 1000) * f.u) * f.limit ≤ e * g := by
        by_contra hcon
        push Not at hcon
        have h5 : e * g * (1 + (α + β + 1 / 1000) * f.u) < (1 - f.u / 2) * (1 - (α + β + 1 / 1000) * f.u) * f.limit * (1 + (α + β + 1 / 1000) * f.u) := by
          apply mul_lt_mul_of_pos_right hcon; linarith
        have h6 : (1 - f.u / 2) * (1 - (α + β + 1 / 1000) * f.u) * f.limit * (1 + (α + β + 1 / 1000) * f.u) =
            (1 - f.u / 2) * f.limit - (1 - f.u / 2) * f.limit * ((α + β + 1 / 1000) * f.u) ^ 2 := by ring
        have h7 : 0 ≤ (1 - f.u / 2) * f.limit * ((α + β + 1 / 1000) * f.u) ^ 2 := by
          have : 0 ≤ 1 - f.u / 2 := by linarith
          positivity
        linarith
      have h8 : (1 - (α + β + 101 / 100) * f.u) ≤ (1 - f.u / 2) * (1 - (α + β + 1 / 1000) * f.u) := by
        have h9 : (1 - f.u / 2) * (1 - (α + β + 1 / 1000) * f.u) = 1 - (α + β + 501 / 1000) * f.u + f.u / 2 * ((α + β + 1 / 1000) * f.u) := by ring
        have : 0 ≤ f.u / 2 * ((α + β + 1 / 1000) * f.u) := by positivity
        rw [h9]
        have : (α + β + 101 / 100) * f.u = (α + β + 501 / 1000) * f.u + 509 / 1000 * f.u := by ring
        linarith
      exact (mul_le_mul_of_nonneg_right h8 hL.le).trans h4
    · right
      have hfin : R f (f.val a.mag * f.val b.mag) < f.inf := by omega
      refine ⟨hfin, ?_⟩
      have hsmall : (α + β + 1 / 1000) * (f.u * (e * g)) ≤ 1 / 1000 * (e * g) := by
        have h1 : (α + β + 1 / 1000) * f.u ≤ (6 + 6 + 1 / 1000) * (1 / 16777216) := by gcongr
        calc (α + β + 1 / 1000) * (f.u * (e * g)) = (α + β + 1 / 1000) * f.u * (e * g) := by ring
          _ ≤ 1 / 1000 * (e * g) := mul_le_mul_of_nonneg_right (h1.trans (by norm_num)) (by linarith)
      have hp' := abs_le.mp hp
      have hr := round_rel hR F (x := f.val a.mag * f.val b.mag) (by push_cast; linarith) hfin
      push_cast at hr
      simp only
      have h4 := abs_sub_le (f.val (R f (f.val a.mag * f.val b.mag)) : ℝ) (f.val a.mag * f.val b.mag) (e * g)
      have h5 : f.u * (f.val a.mag * f.val b.mag : ℝ) ≤ f.u * (e * g + 1 / 1000 * (e * g)) := by
        apply mul_le_mul_of_nonneg_left _ hu.le; linarith
      have h6 : f.u * (e * g + 1 / 1000 * (e * g)) = (1 + 1 / 1000) * (f.u * (e * g)) := by ring
      have h7 : (α + β + 101 / 100) * (f.u * (e * g)) = (α + β + 1 / 1000) * (f.u * (e * g)) + (1009 / 1000) * (f.u * (e * g)) := by ring
      have h8 : 0 ≤ f.u * (e * g) := by positivity
      linarith

end Utki
