import Verif.Lemmas.MathExcess
import Verif.Lemmas.MathPow
/-!
# The functions of math.hpp with excess precision

Helper lemmas: `m * x / d` and the powers, with two roundings in each result.
-/
namespace Utki
open Spec Spec.BinFmt MathF

variable {R : Rounding} {f g : BinFmt}

theorem ret_eq {y : FloatNum} (hy : g.Finite y) : ret R f g y = ⟨y.neg, R f (g.val y.mag)⟩ := by
  have : y.mag < g.inf := hy
  unfold ret fconv
  rw [if_neg (by omega), if_neg (by omega)]

theorem wider_u (W : Wider f g) : g.u ≤ f.u / 2048 := by
  unfold BinFmt.u
  have : (2 : ℝ) ^ (-(f.p + 1 : ℤ)) / 2048 = 2 ^ (-(f.p + 1 : ℤ) - 11) := by
    rw [zpow_sub₀ (by norm_num)]; norm_num
  rw [this]
  apply zpow_le_zpow_right₀ (by norm_num)
  have := W.p
  omega

theorem wider_tiny (W : Wider f g) : g.tiny ≤ f.tiny / 1024 := by
  unfold BinFmt.tiny
  have : (2 : ℝ) ^ (1 - f.bias - f.p : ℤ) / 1024 = 2 ^ ((1 - f.bias - f.p : ℤ) - 10) := by
    rw [zpow_sub₀ (by norm_num) (1 - f.bias - f.p : ℤ) 10]; norm_num
  rw [this]
  apply zpow_le_zpow_right₀ (by norm_num)
  have h1 := W.low
  have h2 : (1 - f.bias - f.p : ℤ) ≤ -10 := by rcases W.df with rfl | rfl <;> decide
  omega

theorem wider_limit (W : Wider f g) : 2 ^ 64 * f.limit ≤ g.limit := by
  unfold BinFmt.limit
  have : (2 : ℝ) ^ 64 * 2 ^ (f.top - f.bias : ℤ) = 2 ^ (64 + (f.top - f.bias : ℤ)) := by
    rw [zpow_add₀ (by norm_num)]; norm_num
  rw [this]
  apply zpow_le_zpow_right₀ (by norm_num)
  have h1 := W.high
  have h2 : (64 : ℤ) ≤ f.top - f.bias := by rcases W.df with rfl | rfl <;> decide
  omega

theorem wider_ulim (W : Wider f g) : 1 ≤ f.u * f.limit := by
  unfold BinFmt.u BinFmt.limit
  rw [← zpow_add₀ (by norm_num)]
  apply one_le_zpow₀ (by norm_num)
  rcases W.df with rfl | rfl <;> decide

/-- The numbers of the last rounding. -/
theorem narrow_bound {u v t w z B r : ℝ} (hu : 0 < u) (hu2 : u ≤ 1 / 16777216) (hv : v ≤ u / 2048) (hw0 : 0 < w) (hw : w ≤ t / 1024) (hz : 0 ≤ z)
    (hB : |B - z| ≤ (51 / 100 * u + 249 / 100 * v) * z + w) (hr : |r - B| ≤ u * B + t / 2) : |r - z| ≤ 8 / 5 * u * z + t := by
  have h1 : (51 / 100 * u + 249 / 100 * v) * z ≤ 52 / 100 * (u * z) := by
    have : 249 / 100 * v * z ≤ 249 / 100 * (u / 2048) * z := by gcongr
    have h0 : 0 ≤ u * z := by positivity
    nlinarith
  have ht : 0 ≤ t := by linarith
  have h0 : 0 ≤ u * z := by positivity
  rw [abs_le] at hB hr ⊢
  have h2 : B ≤ z + 52 / 100 * (u * z) + w := by linarith [hB.2]
  have h3 : u * B ≤ u * (z + 52 / 100 * (u * z) + w) := mul_le_mul_of_nonneg_left h2 hu.le
  have h4 : u * (z + 52 / 100 * (u * z) + w) = u * z + 52 / 100 * (u * (u * z)) + u * w := by ring
  have h5 : u * (u * z) ≤ 1 / 16777216 * (u * z) := mul_le_mul_of_nonneg_right hu2 h0
  have h6 : u * w ≤ 1 / 16777216 * w := mul_le_mul_of_nonneg_right hu2 hw0.le
  have h7 : 8 / 5 * u * z = 8 / 5 * (u * z) := by ring
  rw [h7]
  constructor <;> linarith [hB.1, hB.2, hr.1, hr.2]

/-- `m * x / d`, computed with in the wider format. -/
theorem conv_near (hR : RoundsToNearest R) (W : Wider f g) {m d : Nat} (hm : m < f.inf) (hd : d < f.inf) {c : ℝ} (hc : 0 < c) (hc2 : c ≤ 100)
    (hm0 : (0 : ℝ) < f.val m) (hm256 : (f.val m : ℝ) ≤ 256) (hd3 : (3 : ℝ) ≤ f.val d) (hr : |(f.val m / f.val d : ℝ) - c| ≤ 51 / 100 * f.u * c)
    {x : FloatNum} (hx : f.Finite x) {r : FloatNum}
    (hres : r = ret R f g (fdiv R g (fmul R g (opd R f g ⟨false, m⟩) (opd R f g x)) (opd R f g ⟨false, d⟩))) :
    (c * |f.real x| ≤ (1 - 2 * f.u) * f.limit → f.Finite r ∧ |f.real r - c * f.real x| ≤ 8 / 5 * f.u * (c * |f.real x|) + f.tiny) ∧
    ((1 + 2 * f.u) * f.limit ≤ c * |f.real x| → f.IsInfLike x r) := by
  have F := W.F
  have G := W.G
  have hu := u_pos f
  have hu2 : f.u ≤ 1 / 16777216 := (u_le F).trans (by norm_num)
  have hv := u_pos g
  have huv := wider_u W
  have ht := tiny_pos f
  have hw := tiny_pos g
  have htw := wider_tiny W
  have hL := limit_pos f
  have hLL := wider_limit W
  obtain ⟨hxg, hxr, hxn, hxv⟩ := opd_finite hR W hx
  obtain ⟨hmg, -, hmn, hmv⟩ := opd_finite hR W (x := ⟨false, m⟩) hm
  obtain ⟨hdg, -, hdn, hdv⟩ := opd_finite hR W (x := ⟨false, d⟩) hd
  have em : opd R f g ⟨false, m⟩ = ⟨false, (opd R f g ⟨false, m⟩).mag⟩ := by
    rcases h : opd R f g ⟨false, m⟩ with ⟨_, _⟩
    rw [h] at hmn
    simp only at hmn
    rw [hmn]
  have ed : opd R f g ⟨false, d⟩ = ⟨false, (opd R f g ⟨false, d⟩).mag⟩ := by
    rcases h : opd R f g ⟨false, d⟩ with ⟨_, _⟩
    rw [h] at hdn
    simp only at hdn
    rw [hdn]
  generalize opd R f g x = X at *
  generalize (opd R f g ⟨false, m⟩).mag = m' at *
  generalize (opd R f g ⟨false, d⟩).mag = d' at *
  rw [em, ed] at hres
  simp only at hmv hdv
  rw [em] at hmg
  rw [ed] at hdg
  have hd0' : d' ≠ 0 := by
    rintro rfl
    rw [val_zero] at hdv
    rw [← hdv] at hd3
    norm_num at hd3
  have hX : (f.val x.mag : ℝ) < f.limit := val_lt_limit F hx
  have hX0 : (0 : ℝ) ≤ f.val x.mag := by exact_mod_cast val_nonneg f x.mag
  have hrange : (g.val m' : ℝ) * g.val X.mag < (1 - g.u / 2) * g.limit := by
    rw [hmv, hxv]
    have h1 : (f.val m : ℝ) * f.val x.mag ≤ 256 * f.limit := by
      calc (f.val m : ℝ) * f.val x.mag ≤ 256 * f.val x.mag := by gcongr
        _ ≤ 256 * f.limit := by linarith
    have h2 : g.u ≤ 1 := by linarith
    nlinarith
  obtain ⟨hfin, hnear⟩ := (mul_div_near hR G hmg hdg hd0' (c := c) (δ := 51 / 100 * f.u) (by linarith) hc (by rw [hmv]; exact hm0) (by rw [hdv]; exact hd3)
    (by rw [hmv, hdv]; exact hr) hxg rfl).1 hrange
  have hneg : (fdiv R g (fmul R g ⟨false, m'⟩ X) ⟨false, d'⟩).neg = x.neg := by
    simp [fdiv, fmul, hxn]
  generalize fdiv R g (fmul R g ⟨false, m'⟩ X) ⟨false, d'⟩ = Y at *
  rw [real_diff g Y X (by rw [hneg, hxn]), abs_real, hxv] at hnear
  rw [ret_eq hfin] at hres
  have hB0 := val_nonneg g Y.mag
  have hiff := round_inf_iff hR F hB0
  have hle := round_le_inf hR F hB0
  rw [abs_real]
  have hz0 : 0 ≤ c * (f.val x.mag : ℝ) := by positivity
  constructor
  · intro hlim
    have hlt : R f (g.val Y.mag) < f.inf := by
      have : (g.val Y.mag : ℝ) < (1 - f.u / 2) * f.limit := by
        have h1 := (abs_le.mp hnear).2
        have h2 : (51 / 100 * f.u + 249 / 100 * g.u) * (c * f.val x.mag) ≤ 52 / 100 * f.u * ((1 - 2 * f.u) * f.limit) := by
          apply mul_le_mul _ hlim hz0 (by positivity)
          linarith
        have h3 : g.tiny ≤ 1 / 100 * f.u * f.limit := by
          have h4 := tiny_le G
          have h5 := wider_ulim W
          linarith
        have h6 : f.u * f.u * f.limit ≥ 0 := by positivity
        have h7 : 0 < f.u * f.limit := by positivity
        nlinarith
      have := hiff.not.mpr (not_le.mpr this)
      omega
    refine ⟨by rw [hres]; exact hlt, ?_⟩
    rw [real_diff f r x (by rw [hres, hneg]), hres]
    exact narrow_bound hu hu2 huv hw htw hz0 hnear (round_err hR F hB0 hlt)
  · intro hlim
    have : (1 - f.u / 2) * f.limit ≤ (g.val Y.mag : ℝ) := by
      have h1 := (abs_le.mp hnear).1
      have hz : c * (f.val x.mag : ℝ) ≤ 100 * f.limit := by
        calc c * (f.val x.mag : ℝ) ≤ 100 * f.val x.mag := by gcongr
          _ ≤ 100 * f.limit := by linarith
      have h3 : g.tiny ≤ 1 / 100 * f.u * f.limit := by
        have h4 := tiny_le G
        have h5 := wider_ulim W
        linarith
      have h2 : (51 / 100 * f.u + 249 / 100 * g.u) * (c * f.val x.mag) ≤ 52 / 100 * f.u * (c * f.val x.mag) := by
        apply mul_le_mul_of_nonneg_right _ hz0
        linarith
      have h4 : (1 - 52 / 100 * f.u) * ((1 + 2 * f.u) * f.limit) ≤ (1 - 52 / 100 * f.u) * (c * f.val x.mag) :=
        mul_le_mul_of_nonneg_left hlim (by linarith)
      have h7 : 0 < f.u * f.limit := by positivity
      have h8 : f.u * (f.u * f.limit) ≤ 1 / 16777216 * (f.u * f.limit) := mul_le_mul_of_nonneg_right hu2 h7.le
      nlinarith
    rw [hiff.mpr this, hneg] at hres
    exact hres

/-! ### What a product is -/

theorem opd_cases (hR : RoundsToNearest R) (W : Wider f g) (x : FloatNum) :
    (opd R f g x).neg = x.neg ∧ (g.inf < (opd R f g x).mag ↔ f.inf < x.mag) ∧ ((opd R f g x).mag = g.inf ↔ x.mag = f.inf) ∧
      ((opd R f g x).mag = 0 ↔ x.mag = 0) := by
  have g0 : 0 < g.inf := by rcases W.G.ty with (rfl | rfl) | (rfl | rfl) <;> decide
  have f0 : 0 < f.inf := by rcases W.F.ty with (rfl | rfl) | (rfl | rfl) <;> decide
  rcases lt_trichotomy x.mag f.inf with h | h | h
  · obtain ⟨h1, -, h2, h3⟩ := opd_finite hR W (x := x) h
    have h1' : (opd R f g x).mag < g.inf := h1
    refine ⟨h2, by omega, by omega, ?_⟩
    constructor
    · intro e
      rw [e, val_zero] at h3
      by_contra hne
      have := val_lt f (Nat.pos_of_ne_zero hne)
      rw [← h3, val_zero] at this
      exact lt_irrefl _ this
    · intro e
      rw [e, val_zero] at h3
      by_contra hne
      have := val_lt g (Nat.pos_of_ne_zero hne)
      rw [h3, val_zero] at this
      exact lt_irrefl _ this
  · have e : opd R f g x = ⟨x.neg, g.inf⟩ := by
      unfold opd fconv
      rw [if_neg (by omega), if_pos h]
    rw [e]
    exact ⟨rfl, iff_of_false (lt_irrefl _) (by omega), iff_of_true rfl h, iff_of_false (Nat.pos_iff_ne_zero.mp g0) (by omega)⟩
  · have e : opd R f g x = ⟨x.neg, g.inf + 1⟩ := by
      unfold opd fconv nanMag
      rw [if_pos h]
    rw [e]
    exact ⟨rfl, iff_of_true (Nat.lt_succ_self _) h, iff_of_false (Nat.succ_ne_self _) (by omega), iff_of_false (Nat.succ_ne_zero _) (by omega)⟩

theorem mul_x_finite (hR : RoundsToNearest R) (W : Wider f g) {a b : FloatNum} (ha : f.Finite a) (hb : f.Finite b) :
    ∃ k, mul_x R f g a b = ⟨a.neg != b.neg, R f (g.val k)⟩ ∧ k = R g (f.val a.mag * f.val b.mag) ∧ k < g.inf ∧
      |(g.val k : ℝ) - f.val a.mag * f.val b.mag| ≤ g.u * (f.val a.mag * f.val b.mag) + g.tiny / 2 := by
  obtain ⟨a1, -, a2, a3⟩ := opd_finite hR W ha
  obtain ⟨b1, -, b2, b3⟩ := opd_finite hR W hb
  have e : mul_x R f g a b = ret R f g ⟨a.neg != b.neg, R g (f.val a.mag * f.val b.mag)⟩ := by
    unfold mul_x
    rw [fmul_finite a1 b1, a2, b2, a3, b3]
  have h0 : (0 : ℚ) ≤ f.val a.mag * f.val b.mag := mul_nonneg (val_nonneg f _) (val_nonneg f _)
  have hfin : R g (f.val a.mag * f.val b.mag) < g.inf := by
    have h1 := round_le_inf hR W.G h0
    have h2 := (round_inf_iff hR W.G h0).not
    have h3 : ¬ (1 - g.u / 2) * g.limit ≤ ((f.val a.mag * f.val b.mag : ℚ) : ℝ) := by
      push_cast
      have hL : f.limit * f.limit ≤ g.limit / 2 := by
        unfold BinFmt.limit
        have : (2 : ℝ) ^ (g.top - g.bias : ℤ) / 2 = 2 ^ ((g.top - g.bias : ℤ) - 1) := by
          rw [zpow_sub₀ (by norm_num) (g.top - g.bias : ℤ) 1]; norm_num
        rw [this, ← zpow_add₀ (by norm_num)]
        apply zpow_le_zpow_right₀ (by norm_num)
        have h := W.high
        rcases W.df with rfl | rfl <;> rcases W.G.ty with (rfl | rfl) | (rfl | rfl) <;> revert h <;> decide
      have la := val_lt_limit W.F ha
      have lb := val_lt_limit W.F hb
      have a0 : (0 : ℝ) ≤ f.val a.mag := by exact_mod_cast val_nonneg f a.mag
      have b0 : (0 : ℝ) ≤ f.val b.mag := by exact_mod_cast val_nonneg f b.mag
      have lab : (f.val a.mag : ℝ) * f.val b.mag < f.limit * f.limit := mul_lt_mul'' la lb a0 b0
      have gu : g.u ≤ 1 := (u_le W.G).trans (by norm_num)
      have gl := limit_pos g
      nlinarith
    have := h2.mpr h3
    omega
  refine ⟨_, ?_, rfl, hfin, ?_⟩
  · rw [e]; exact ret_eq (y := ⟨_, _⟩) hfin
  · have := round_err hR W.G h0 hfin
    push_cast at this
    exact this

/-- A multiplication with a result as exact as that of a single rounding, nearly. -/
structure GoodMul (f : BinFmt) (mul : FloatNum → FloatNum → FloatNum) : Prop where
  F : FT f
  le : ∀ a b, f.Finite a → f.Finite b → (mul a b).mag ≤ f.inf
  inf : ∀ a b, f.Finite a → f.Finite b → (mul a b).mag = f.inf → (1 - 6 / 10 * f.u) * f.limit ≤ (f.val a.mag : ℝ) * f.val b.mag
  near : ∀ a b, f.Finite a → f.Finite b → f.Finite (mul a b) →
    |(f.val (mul a b).mag : ℝ) - f.val a.mag * f.val b.mag| ≤ 1001 / 1000 * (f.u * (f.val a.mag * f.val b.mag)) + 501 / 1000 * f.tiny
  rel : ∀ a b, f.Finite a → f.Finite b → f.Finite (mul a b) → (99 : ℝ) / 100 ≤ f.val a.mag * f.val b.mag →
    |(f.val (mul a b).mag : ℝ) - f.val a.mag * f.val b.mag| ≤ 1002 / 1000 * (f.u * (f.val a.mag * f.val b.mag))
  infinite : ∀ a b, a.mag ≤ f.inf → b.mag ≤ f.inf → a.mag ≠ 0 → b.mag ≠ 0 → (a.mag = f.inf ∨ b.mag = f.inf) → (mul a b).mag = f.inf

/-- A multiplication of numbers up to 1. -/
theorem mul_small {mul : FloatNum → FloatNum → FloatNum} (M : GoodMul f mul) {a b : FloatNum} (ha : f.Finite a) (hb : f.Finite b)
    {e g α β c d : ℝ} (hα : 0 ≤ α) (hα6 : α ≤ 6) (hβ : 0 ≤ β) (hβ6 : β ≤ 6) (hc : 0 ≤ c) (hc3 : c ≤ 3) (hd : 0 ≤ d) (hd3 : d ≤ 3)
    (he : 0 ≤ e) (he1 : e ≤ 1) (hg : 0 ≤ g) (hg1 : g ≤ 1)
    (hae : |(f.val a.mag : ℝ) - e| ≤ α * (f.u * e) + c * f.tiny) (hbg : |(f.val b.mag : ℝ) - g| ≤ β * (f.u * g) + d * f.tiny) :
    f.Finite (mul a b) ∧
      |(f.val (mul a b).mag : ℝ) - e * g| ≤ (α + β + 101 / 100) * (f.u * (e * g)) + (c + d + 51 / 100) * f.tiny := by
  have F := M.F
  have hu := u_pos f
  have hu2 : f.u ≤ 1 / 16777216 := (u_le F).trans (by norm_num)
  have ht := tiny_pos f
  have ht2 := tiny_le F
  have hp := near_prod_small hu hu2 ht ht2 hα hα6 hβ hβ6 hc hc3 hd hd3 he he1 hg hg1 hae hbg
  have heg : e * g ≤ 1 := mul_le_one₀ he1 hg hg1
  have heg0 : 0 ≤ e * g := by positivity
  have hL := limit_ge F
  have hsmall : (α + β + 1 / 1000) * (f.u * (e * g)) ≤ 1 / 1000 * (e * g) := by
    have h1 : (α + β + 1 / 1000) * f.u ≤ (6 + 6 + 1 / 1000) * (1 / 16777216) := by gcongr
    calc (α + β + 1 / 1000) * (f.u * (e * g)) = (α + β + 1 / 1000) * f.u * (e * g) := by ring
      _ ≤ 1 / 1000 * (e * g) := mul_le_mul_of_nonneg_right (h1.trans (by norm_num)) heg0
  have hct : (c + d + 1 / 1000) * f.tiny ≤ 7 * f.tiny := by gcongr; linarith
  have hp' := abs_le.mp hp
  have hfin : f.Finite (mul a b) := by
    by_contra hcon
    have h1 := M.le a b ha hb
    have h2 : ¬ (mul a b).mag < f.inf := hcon
    have h3 := M.inf a b ha hb (by omega)
    have : (1 - 6 / 10 * f.u) * f.limit ≥ (1 - 6 / 10 * (1 / 16777216)) * f.limit := by
      have := limit_pos f
      gcongr
    norm_num at hL
    linarith
  refine ⟨hfin, ?_⟩
  have hr := M.near a b ha hb hfin
  have h4 := abs_sub_le (f.val (mul a b).mag : ℝ) (f.val a.mag * f.val b.mag) (e * g)
  have h5 : f.u * (f.val a.mag * f.val b.mag : ℝ) ≤ f.u * (e * g + 1 / 1000 * (e * g) + 7 * f.tiny) := by
    apply mul_le_mul_of_nonneg_left _ hu.le; linarith
  have h6 : f.u * (e * g + 1 / 1000 * (e * g) + 7 * f.tiny) = (1 + 1 / 1000) * (f.u * (e * g)) + 7 * (f.u * f.tiny) := by ring
  have h7 : (α + β + 101 / 100) * (f.u * (e * g)) = (α + β + 1 / 1000) * (f.u * (e * g)) + (1009 / 1000) * (f.u * (e * g)) := by ring
  have h8 : 0 ≤ f.u * (e * g) := by positivity
  have h9 : f.u * f.tiny ≤ 1 / 16777216 * f.tiny := by gcongr
  have h10 : (c + d + 51 / 100) * f.tiny = (c + d + 1 / 1000) * f.tiny + 509 / 1000 * f.tiny := by ring
  linarith

/-- A multiplication whose exact result is at least 1 and possibly too large. -/
theorem mul_infOrNear {mul : FloatNum → FloatNum → FloatNum} (M : GoodMul f mul) {a b : FloatNum} {e g α β : ℝ} (hα : 0 ≤ α) (hα6 : α ≤ 6)
    (hβ : 0 ≤ β) (hβ6 : β ≤ 6) (he : 1 ≤ e) (hg : 1 ≤ g) (ha : InfOrNear f a e α) (hb : InfOrNear f b g β) :
    InfOrNear f (mul a b) (e * g) (α + β + 101 / 100) := by
  have F := M.F
  have i0 : f.inf ≠ 0 := by rcases F.ty with (rfl | rfl) | (rfl | rfl) <;> decide
  have pos : ∀ {a : FloatNum} {e α : ℝ}, 1 ≤ e → α ≤ 6 → InfOrNear f a e α → a.mag ≠ 0 ∧ a.mag ≤ f.inf := by
    intro a e α he h6 h
    rcases h with ⟨h, -⟩ | ⟨h1, h2⟩
    · exact ⟨by rw [h]; exact i0, h.le⟩
    · have h1' : a.mag < f.inf := h1
      exact ⟨mag_ne_zero (by have := near_pos F he h6 h2; linarith), h1'.le⟩
  obtain ⟨pa, pa'⟩ := pos he hα6 ha
  obtain ⟨pb, pb'⟩ := pos hg hβ6 hb
  by_cases hinf : a.mag = f.inf ∨ b.mag = f.inf
  · left
    constructor
    · exact M.infinite a b pa' pb' pa pb hinf
    · have hu := u_pos f
      have hL := limit_pos f
      have weaken : ∀ γ δ : ℝ, γ ≤ δ → (1 - δ * f.u) * f.limit ≤ (1 - γ * f.u) * f.limit := by
        intro γ δ hγ; gcongr
      rcases hinf with hi | hi
      · rcases ha with ⟨-, h2⟩ | ⟨h1, -⟩
        · calc (1 - (α + β + 101 / 100) * f.u) * f.limit ≤ (1 - α * f.u) * f.limit := weaken _ _ (by linarith)
            _ ≤ e := h2
            _ ≤ e * g := le_mul_of_one_le_right (by linarith) hg
        · have h1' : a.mag < f.inf := h1
          omega
      · rcases hb with ⟨-, h2⟩ | ⟨h1, -⟩
        · calc (1 - (α + β + 101 / 100) * f.u) * f.limit ≤ (1 - β * f.u) * f.limit := weaken _ _ (by linarith)
            _ ≤ g := h2
            _ ≤ e * g := le_mul_of_one_le_left (by linarith) he
        · have h1' : b.mag < f.inf := h1
          omega
  · push Not at hinf
    have ha1 : f.Finite a := by unfold BinFmt.Finite; omega
    have hb1 : f.Finite b := by unfold BinFmt.Finite; omega
    have ha2 := (ha.resolve_left (fun h => hinf.1 h.1)).2
    have hb2 := (hb.resolve_left (fun h => hinf.2 h.1)).2
    have hu := u_pos f
    have hu2 : f.u ≤ 1 / 16777216 := (u_le F).trans (by norm_num)
    have hp := near_prod_big hu hu2 hα hα6 hβ hβ6 (by linarith) (by linarith) ha2 hb2
    have heg : 1 ≤ e * g := one_le_mul_of_one_le_of_one_le he hg
    have h1 := M.le a b ha1 hb1
    by_cases hk : (mul a b).mag = f.inf
    · left
      refine ⟨hk, ?_⟩
      have h2 := M.inf a b ha1 hb1 hk
      have hp' := (abs_le.mp hp).2
      have hL := limit_pos f
      -- e * g * (1 + c u) is at least (1 - u / 2) * limit
      have h3 : (1 - 6 / 10 * f.u) * f.limit ≤ e * g * (1 + (α + β + 1 / 1000) * f.u) := by linarith
      have hc0 : 0 ≤ (α + β + 1 / 1000) * f.u := by positivity
      have h4 : (1 - 6 / 10 * f.u) * (1 - (α + β + 1 / 1000) * f.u) * f.limit ≤ e * g := by
        by_contra hcon
        push Not at hcon
        have h5 : e * g * (1 + (α + β + 1 / 1000) * f.u) < (1 - 6 / 10 * f.u) * (1 - (α + β + 1 / 1000) * f.u) * f.limit * (1 + (α + β + 1 / 1000) * f.u) := by
          apply mul_lt_mul_of_pos_right hcon; linarith
        have h6 : (1 - 6 / 10 * f.u) * (1 - (α + β + 1 / 1000) * f.u) * f.limit * (1 + (α + β + 1 / 1000) * f.u) =
            (1 - 6 / 10 * f.u) * f.limit - (1 - 6 / 10 * f.u) * f.limit * ((α + β + 1 / 1000) * f.u) ^ 2 := by ring
        have h7 : 0 ≤ (1 - 6 / 10 * f.u) * f.limit * ((α + β + 1 / 1000) * f.u) ^ 2 := by
          have : 0 ≤ 1 - 6 / 10 * f.u := by linarith
          positivity
        linarith
      have h8 : (1 - (α + β + 101 / 100) * f.u) ≤ (1 - 6 / 10 * f.u) * (1 - (α + β + 1 / 1000) * f.u) := by
        have h9 : (1 - 6 / 10 * f.u) * (1 - (α + β + 1 / 1000) * f.u) = 1 - (α + β + 601 / 1000) * f.u + 6 / 10 * f.u * ((α + β + 1 / 1000) * f.u) := by ring
        have : 0 ≤ 6 / 10 * f.u * ((α + β + 1 / 1000) * f.u) := by positivity
        rw [h9]
        have : (α + β + 101 / 100) * f.u = (α + β + 601 / 1000) * f.u + 409 / 1000 * f.u := by ring
        linarith
      exact (mul_le_mul_of_nonneg_right h8 hL.le).trans h4
    · right
      have hfin : f.Finite (mul a b) := by unfold BinFmt.Finite; omega
      refine ⟨hfin, ?_⟩
      have hsmall : (α + β + 1 / 1000) * (f.u * (e * g)) ≤ 1 / 1000 * (e * g) := by
        have h1 : (α + β + 1 / 1000) * f.u ≤ (6 + 6 + 1 / 1000) * (1 / 16777216) := by gcongr
        calc (α + β + 1 / 1000) * (f.u * (e * g)) = (α + β + 1 / 1000) * f.u * (e * g) := by ring
          _ ≤ 1 / 1000 * (e * g) := mul_le_mul_of_nonneg_right (h1.trans (by norm_num)) (by linarith)
      have hp' := abs_le.mp hp
      have hr := M.rel a b ha1 hb1 hfin (by linarith)
      have h4 := abs_sub_le (f.val (mul a b).mag : ℝ) (f.val a.mag * f.val b.mag) (e * g)
      have h5 : f.u * (f.val a.mag * f.val b.mag : ℝ) ≤ f.u * (e * g + 1 / 1000 * (e * g)) := by
        apply mul_le_mul_of_nonneg_left _ hu.le; linarith
      have h6 : f.u * (e * g + 1 / 1000 * (e * g)) = (1 + 1 / 1000) * (f.u * (e * g)) := by ring
      have h7 : (α + β + 101 / 100) * (f.u * (e * g)) = (α + β + 1 / 1000) * (f.u * (e * g)) + (1009 / 1000) * (f.u * (e * g)) := by ring
      have h8 : 0 ≤ f.u * (e * g) := by positivity
      linarith

theorem goodMul_x (hR : RoundsToNearest R) (W : Wider f g) : GoodMul f (mul_x R f g) := by
  have F := W.F
  have hu := u_pos f
  have hu2 : f.u ≤ 1 / 16777216 := (u_le F).trans (by norm_num)
  have huv := wider_u W
  have hv := u_pos g
  have ht := tiny_pos f
  have hw := tiny_pos g
  have htw := wider_tiny W
  have a0 : ∀ a : FloatNum, (0 : ℝ) ≤ f.val a.mag := fun a => by exact_mod_cast val_nonneg f a.mag
  refine ⟨F, ?_, ?_, ?_, ?_, ?_⟩
  · intro a b ha hb
    obtain ⟨k, e, -, hk, -⟩ := mul_x_finite hR W ha hb
    rw [e]
    exact round_le_inf hR F (val_nonneg g k)
  · intro a b ha hb hi
    obtain ⟨k, e, -, hk, h⟩ := mul_x_finite hR W ha hb
    rw [e] at hi
    have h1 := (round_inf_iff hR F (val_nonneg g k)).mp hi
    have h2 := (abs_le.mp h).2
    have hL := limit_pos f
    have h5 := wider_ulim W
    have h6 := tiny_le W.G
    by_contra hcon
    push Not at hcon
    have h7 : g.u * ((f.val a.mag : ℝ) * f.val b.mag) ≤ f.u / 2048 * f.limit := by
      apply mul_le_mul huv _ (mul_nonneg (a0 a) (a0 b)) (by positivity)
      nlinarith
    nlinarith
  · intro a b ha hb hf
    obtain ⟨k, e, -, hk, h⟩ := mul_x_finite hR W ha hb
    rw [e] at hf ⊢
    have h1 := round_err hR F (val_nonneg g k) hf
    have ab := mul_nonneg (a0 a) (a0 b)
    simp only
    generalize (f.val a.mag : ℝ) * f.val b.mag = z at *
    have hz : g.u * z ≤ f.u / 2048 * z := mul_le_mul_of_nonneg_right huv ab
    have h0 : 0 ≤ f.u * z := by positivity
    have h4 : f.u * (g.val k : ℝ) ≤ f.u * (z + f.u / 2048 * z + g.tiny / 2) := by
      apply mul_le_mul_of_nonneg_left _ hu.le
      linarith [(abs_le.mp h).2]
    have h5 : f.u * (z + f.u / 2048 * z + g.tiny / 2) = f.u * z + f.u * (f.u * z) / 2048 + f.u * g.tiny / 2 := by ring
    have h6 : f.u * (f.u * z) ≤ 1 / 16777216 * (f.u * z) := mul_le_mul_of_nonneg_right hu2 h0
    have h7 : f.u * g.tiny ≤ 1 / 16777216 * g.tiny := mul_le_mul_of_nonneg_right hu2 hw.le
    have h8 := abs_sub_le (f.val (R f (g.val k)) : ℝ) (g.val k) z
    have h9 : f.u / 2048 * z = f.u * z / 2048 := by ring
    linarith
  · intro a b ha hb hf hbig
    obtain ⟨k, e, -, hk, h⟩ := mul_x_finite hR W ha hb
    rw [e] at hf ⊢
    have ab := mul_nonneg (a0 a) (a0 b)
    simp only
    generalize (f.val a.mag : ℝ) * f.val b.mag = z at *
    have hz : g.u * z ≤ f.u / 2048 * z := mul_le_mul_of_nonneg_right huv ab
    have h0 : 0 ≤ f.u * z := by positivity
    have ht2 : f.tiny ≤ f.u / 16777216 := by
      unfold BinFmt.tiny BinFmt.u
      have : (2 : ℝ) ^ (-(f.p + 1 : ℤ)) / 16777216 = 2 ^ (-(f.p + 1 : ℤ) - 24) := by
        rw [zpow_sub₀ (by norm_num)]; norm_num
      rw [this]
      apply zpow_le_zpow_right₀ (by norm_num)
      rcases W.df with rfl | rfl <;> decide
    have hwz : g.tiny ≤ 1 / 1024 * (f.u * z) := by nlinarith
    have h9 : f.u / 2048 * z = f.u * z / 2048 := by ring
    have hlow : (1 : ℝ) / 2 ≤ g.val k := by nlinarith [(abs_le.mp h).1]
    have h1 := round_rel hR F hlow hf
    have h4 : f.u * (g.val k : ℝ) ≤ f.u * (z + f.u / 2048 * z + g.tiny / 2) := by
      apply mul_le_mul_of_nonneg_left _ hu.le
      linarith [(abs_le.mp h).2]
    have h5 : f.u * (z + f.u / 2048 * z + g.tiny / 2) = f.u * z + f.u * (f.u * z) / 2048 + f.u * g.tiny / 2 := by ring
    have h6 : f.u * (f.u * z) ≤ 1 / 16777216 * (f.u * z) := mul_le_mul_of_nonneg_right hu2 h0
    have h7 : f.u * g.tiny ≤ 1 / 16777216 * g.tiny := mul_le_mul_of_nonneg_right hu2 hw.le
    have h8 := abs_sub_le (f.val (R f (g.val k)) : ℝ) (g.val k) z
    linarith
  · intro a b ha hb ha0 hb0 hi
    obtain ⟨-, a1, a2, a3⟩ := opd_cases hR W a
    obtain ⟨-, b1, b2, b3⟩ := opd_cases hR W b
    have : (fmul R g (opd R f g a) (opd R f g b)).mag = g.inf := by
      unfold fmul
      simp only
      rw [if_neg (by omega), if_pos (by omega), if_neg (by omega)]
    unfold mul_x ret fconv
    simp only [this, lt_irrefl, if_false, if_true]

theorem mul_x_neg (hR : RoundsToNearest R) (W : Wider f g) (a b : FloatNum) : (mul_x R f g a b).neg = (a.neg != b.neg) := by
  obtain ⟨a1, -⟩ := opd_cases hR W a
  obtain ⟨b1, -⟩ := opd_cases hR W b
  simp [mul_x, ret, fconv, fmul, a1, b1]

/-- Where all products are exact in the wider format, they are rounded once. -/
theorem mul_x_eq (hR : RoundsToNearest R) (W : Wider f g) (h2p : 2 * f.p + 1 ≤ g.p) (a b : FloatNum) : mul_x R f g a b = fmul R f a b := by
  by_cases h : f.Finite a ∧ f.Finite b
  · obtain ⟨k, e, hk, -, -⟩ := mul_x_finite hR W h.1 h.2
    obtain ⟨h1, h2⟩ := product_exact hR W h2p h.1 h.2
    rw [e, hk, h2, fmul_finite h.1 h.2]
  · have h' : ¬ (a.mag < f.inf ∧ b.mag < f.inf) := h
    obtain ⟨a0, a1, a2, a3⟩ := opd_cases hR W a
    obtain ⟨b0, b1, b2, b3⟩ := opd_cases hR W b
    unfold mul_x fmul
    rw [a0, b0]
    by_cases c1 : f.inf < a.mag ∨ f.inf < b.mag
    · rw [if_pos (by omega), if_pos c1]
      unfold ret fconv nanMag
      simp
    · rw [if_neg (by omega), if_neg c1, if_pos (show (opd R f g a).mag = g.inf ∨ (opd R f g b).mag = g.inf by omega), if_pos (show a.mag = f.inf ∨ b.mag = f.inf by omega)]
      by_cases c2 : a.mag = 0 ∨ b.mag = 0
      · rw [if_pos (show (opd R f g a).mag = 0 ∨ (opd R f g b).mag = 0 by omega), if_pos c2]
        unfold ret fconv nanMag
        simp
      · rw [if_neg (show ¬ ((opd R f g a).mag = 0 ∨ (opd R f g b).mag = 0) by omega), if_neg c2]
        unfold ret fconv
        simp

end Utki
