import Verif.Lemmas.MathPow
/-!
# Properties of sign and powers of floating-point numbers (C86)
-/
namespace Utki
open Spec Spec.BinFmt MathF

/-- The powers of math.hpp with their exponents. -/
def fpowers (R : Rounding) (f : BinFmt) : List (Nat × (FloatNum → FloatNum)) :=
  [(2, fpow2 R f), (3, fpow3 R f), (4, fpow4 R f), (5, fpow5 R f), (6, fpow6 R f)]

/-! ## Helper lemmas -/

theorem fpow_neg {R : Rounding} {f : BinFmt} {N : Nat} {g : FloatNum → FloatNum} (h : (N, g) ∈ fpowers R f) (x : FloatNum) :
    (g x).neg = (x.neg && N % 2 == 1) := by
  simp only [fpowers, List.mem_cons, List.not_mem_nil, or_false, Prod.mk.injEq] at h
  rcases h with ⟨rfl, rfl⟩ | ⟨rfl, rfl⟩ | ⟨rfl, rfl⟩ | ⟨rfl, rfl⟩ | ⟨rfl, rfl⟩ <;>
    simp [fpow6, fpow5, fpow4, fpow3, fpow2, fmul]

theorem real_pow_diff (f : BinFmt) (r x : FloatNum) (N : Nat) (h : r.neg = (x.neg && N % 2 == 1)) :
    |f.real r - f.real x ^ N| = |(f.val r.mag : ℝ) - (f.val x.mag : ℝ) ^ N| := by
  rw [real_eq, real_eq, h]
  cases hx : x.neg
  · simp
  · by_cases hN : N % 2 = 1
    · have ho : Odd N := Nat.odd_iff.mpr hN
      simp only [hN, Bool.true_and, beq_self_eq_true, if_true]
      rw [mul_pow, ho.neg_one_pow, ← abs_neg]
      congr 1; ring
    · have he : Even N := Nat.even_iff.mpr (by omega)
      have : (N % 2 == 1) = false := by simp; omega
      simp only [this, Bool.and_false, if_true]
      rw [mul_pow, he.neg_one_pow]
      simp

theorem fpow_small {R : Rounding} (hR : RoundsToNearest R) {f : BinFmt} (F : FT f) {N : Nat} {g : FloatNum → FloatNum} (h : (N, g) ∈ fpowers R f)
    {x : FloatNum} (hx : f.Finite x) (h1 : (f.val x.mag : ℝ) ≤ 1) :
    f.Finite (g x) ∧ |(f.val (g x).mag : ℝ) - (f.val x.mag : ℝ) ^ N| ≤ N * f.u * (f.val x.mag : ℝ) ^ N + 3 * f.tiny := by
  have h0 : (0 : ℝ) ≤ f.val x.mag := by exact_mod_cast val_nonneg f x.mag
  have hu := u_pos f
  have ht := tiny_pos f
  have x0 : |(f.val x.mag : ℝ) - f.val x.mag| ≤ 0 * (f.u * f.val x.mag) + 0 * f.tiny := by simp
  set v := (f.val x.mag : ℝ) with hv
  have le1 : ∀ n : Nat, v ^ n ≤ 1 := fun n => pow_le_one₀ h0 h1
  have ge0 : ∀ n : Nat, 0 ≤ v ^ n := fun n => pow_nonneg h0 n
  obtain ⟨f2, e2⟩ := fmul_small hR F hx hx (α := 0) (β := 0) (c := 0) (d := 0) (by norm_num) (by norm_num) (by norm_num) (by norm_num) (by norm_num)
    (by norm_num) (by norm_num) (by norm_num) h0 h1 h0 h1 x0 x0
  have e2' : v * v = v ^ 2 := by ring
  rw [e2'] at e2
  change f.Finite (fpow2 R f x) at f2
  change |(f.val (fpow2 R f x).mag : ℝ) - v ^ 2| ≤ _ at e2
  obtain ⟨f3, e3⟩ := fmul_small hR F f2 hx (β := 0) (d := 0) (by norm_num) (by norm_num) (by norm_num) (by norm_num) (by norm_num)
    (by norm_num) (by norm_num) (by norm_num) (ge0 2) (le1 2) h0 h1 e2 x0
  rw [← pow_succ] at e3
  change f.Finite (fpow3 R f x) at f3
  change |(f.val (fpow3 R f x).mag : ℝ) - v ^ 3| ≤ _ at e3
  obtain ⟨f4, e4⟩ := fmul_small hR F f2 f2 (by norm_num) (by norm_num) (by norm_num) (by norm_num) (by norm_num)
    (by norm_num) (by norm_num) (by norm_num) (ge0 2) (le1 2) (ge0 2) (le1 2) e2 e2
  rw [← pow_add] at e4
  change f.Finite (fpow4 R f x) at f4
  change |(f.val (fpow4 R f x).mag : ℝ) - v ^ 4| ≤ _ at e4
  obtain ⟨f5, e5⟩ := fmul_small hR F f4 hx (β := 0) (d := 0) (by norm_num) (by norm_num) (by norm_num) (by norm_num) (by norm_num)
    (by norm_num) (by norm_num) (by norm_num) (ge0 4) (le1 4) h0 h1 e4 x0
  rw [← pow_succ] at e5
  change f.Finite (fpow5 R f x) at f5
  change |(f.val (fpow5 R f x).mag : ℝ) - v ^ 5| ≤ _ at e5
  obtain ⟨f6, e6⟩ := fmul_small hR F f3 f3 (by norm_num) (by norm_num) (by norm_num) (by norm_num) (by norm_num)
    (by norm_num) (by norm_num) (by norm_num) (ge0 3) (le1 3) (ge0 3) (le1 3) e3 e3
  rw [← pow_add] at e6
  change f.Finite (fpow6 R f x) at f6
  change |(f.val (fpow6 R f x).mag : ℝ) - v ^ 6| ≤ _ at e6
  have hU : ∀ n : Nat, 0 ≤ f.u * v ^ n := fun n => mul_nonneg hu.le (ge0 n)
  simp only [fpowers, List.mem_cons, List.not_mem_nil, or_false, Prod.mk.injEq] at h
  rcases h with ⟨rfl, rfl⟩ | ⟨rfl, rfl⟩ | ⟨rfl, rfl⟩ | ⟨rfl, rfl⟩ | ⟨rfl, rfl⟩
  · exact ⟨f2, e2.trans (by push_cast; linarith [hU 2])⟩
  · exact ⟨f3, e3.trans (by push_cast; linarith [hU 3])⟩
  · exact ⟨f4, e4.trans (by push_cast; norm_num; linarith [hU 4])⟩
  · exact ⟨f5, e5.trans (by push_cast; norm_num; linarith [hU 5])⟩
  · exact ⟨f6, e6.trans (by push_cast; norm_num; linarith [hU 6])⟩

theorem InfOrNear.cast {f : BinFmt} {a : FloatNum} {e α β : ℝ} (h : InfOrNear f a e α) (hab : α = β) : InfOrNear f a e β := hab ▸ h

theorem fpow_infOrNear {R : Rounding} (hR : RoundsToNearest R) {f : BinFmt} (F : FT f) {N : Nat} {g : FloatNum → FloatNum}
    (h : (N, g) ∈ fpowers R f) {x : FloatNum} (hx : f.Finite x) (h1 : 1 ≤ (f.val x.mag : ℝ)) :
    InfOrNear f (g x) ((f.val x.mag : ℝ) ^ N) (101 / 100 * (N - 1)) := by
  have x0 : InfOrNear f x (f.val x.mag : ℝ) 0 := Or.inr ⟨hx, by simp⟩
  set v := (f.val x.mag : ℝ) with hv
  have ge1 : ∀ n : Nat, 1 ≤ v ^ n := fun n => one_le_pow₀ h1
  have e2 := fmul_infOrNear hR F (by norm_num) (by norm_num) (by norm_num) (by norm_num) h1 h1 x0 x0
  have e2' : v * v = v ^ 2 := by ring
  rw [e2'] at e2
  have e3 := fmul_infOrNear hR F (by norm_num) (by norm_num) (by norm_num) (by norm_num) (ge1 2) h1 e2 x0
  rw [← pow_succ] at e3
  have e4 := fmul_infOrNear hR F (by norm_num) (by norm_num) (by norm_num) (by norm_num) (ge1 2) (ge1 2) e2 e2
  rw [← pow_add] at e4
  have e5 := fmul_infOrNear hR F (by norm_num) (by norm_num) (by norm_num) (by norm_num) (ge1 4) h1 e4 x0
  rw [← pow_succ] at e5
  have e6 := fmul_infOrNear hR F (by norm_num) (by norm_num) (by norm_num) (by norm_num) (ge1 3) (ge1 3) e3 e3
  rw [← pow_add] at e6
  simp only [fpowers, List.mem_cons, List.not_mem_nil, or_false, Prod.mk.injEq] at h
  rcases h with ⟨rfl, rfl⟩ | ⟨rfl, rfl⟩ | ⟨rfl, rfl⟩ | ⟨rfl, rfl⟩ | ⟨rfl, rfl⟩
  · exact e2.cast (by push_cast; norm_num)
  · exact e3.cast (by push_cast; norm_num)
  · exact e4.cast (by push_cast; norm_num)
  · exact e5.cast (by push_cast; norm_num)
  · exact e6.cast (by push_cast; norm_num)

theorem fpow_exp {R : Rounding} {f : BinFmt} {N : Nat} {g : FloatNum → FloatNum} (h : (N, g) ∈ fpowers R f) : 2 ≤ N ∧ N ≤ 6 := by
  simp only [fpowers, List.mem_cons, List.not_mem_nil, or_false, Prod.mk.injEq] at h
  omega

theorem fpow_close {R : Rounding} (hR : RoundsToNearest R) {f : BinFmt} (F : FT f) {N : Nat} {g : FloatNum → FloatNum}
    (h : (N, g) ∈ fpowers R f) {x : FloatNum} (hx : f.Finite x) (h1 : 1 ≤ (f.val x.mag : ℝ)) :
    ((g x).mag = f.inf ∧ (1 - N * f.u) * f.limit ≤ (f.val x.mag : ℝ) ^ N) ∨
      (f.Finite (g x) ∧ |(f.val (g x).mag : ℝ) - (f.val x.mag : ℝ) ^ N| ≤ N * f.u * (f.val x.mag : ℝ) ^ N) := by
  have hu := u_pos f
  have hL := limit_pos f
  have hN6 : (N : ℝ) ≤ 6 := by exact_mod_cast (fpow_exp h).2
  have hα : 101 / 100 * ((N : ℝ) - 1) ≤ N := by linarith
  rcases fpow_infOrNear hR F h hx h1 with ⟨a, b⟩ | ⟨a, b⟩
  · exact .inl ⟨a, le_trans (by gcongr) b⟩
  · right
    refine ⟨a, b.trans ?_⟩
    rw [mul_assoc (N : ℝ)]
    exact mul_le_mul_of_nonneg_right hα (by positivity)

theorem fmul_mono {R : Rounding} (hR : RoundsToNearest R) {f : BinFmt} (hf : IsFloatType f) {a b c d : FloatNum} (hac : a.mag ≤ c.mag)
    (hbd : b.mag ≤ d.mag) (hc : c.mag ≤ f.inf) (hd : d.mag ≤ f.inf)
    (h0 : (a.mag = f.inf ∨ b.mag = f.inf) → a.mag ≠ 0 ∧ b.mag ≠ 0) (h1 : (c.mag = f.inf ∨ d.mag = f.inf) → c.mag ≠ 0 ∧ d.mag ≠ 0) :
    (fmul R f a b).mag ≤ (fmul R f c d).mag ∧ (fmul R f c d).mag ≤ f.inf := by
  have F := FT.of hf
  have nn : ∀ k l : Nat, 0 ≤ f.val k * f.val l := fun k l => mul_nonneg (val_nonneg f k) (val_nonneg f l)
  have le : (fmul R f a b).mag ≤ f.inf := by
    unfold fmul
    simp only
    rw [if_neg (by omega)]
    by_cases h : a.mag = f.inf ∨ b.mag = f.inf
    · rw [if_pos h, if_neg (by have := h0 h; omega)]
    · rw [if_neg h]; exact round_le_inf hR F (nn _ _)
  by_cases h : c.mag = f.inf ∨ d.mag = f.inf
  · have : (fmul R f c d).mag = f.inf := by
      unfold fmul
      simp only
      rw [if_neg (by omega), if_pos h, if_neg (by have := h1 h; omega)]
    rw [this]
    exact ⟨le, le_rfl⟩
  · have e1 : (fmul R f c d).mag = R f (f.val c.mag * f.val d.mag) := by
      unfold fmul
      simp only
      rw [if_neg (by omega), if_neg h]
    have e2 : (fmul R f a b).mag = R f (f.val a.mag * f.val b.mag) := by
      unfold fmul
      simp only
      rw [if_neg (by omega), if_neg (by omega)]
    rw [e1, e2]
    exact ⟨nearest_mono (hR f hf _ (nn _ _)) (hR f hf _ (nn _ _))
      (mul_le_mul (val_le f hac) (val_le f hbd) (val_nonneg f _) (val_nonneg f _)), round_le_inf hR F (nn _ _)⟩

theorem fpow_mag_mono {R : Rounding} (hR : RoundsToNearest R) {f : BinFmt} (hf : IsFloatType f) {N : Nat} {g : FloatNum → FloatNum}
    (h : (N, g) ∈ fpowers R f) {x y : FloatNum} (hxy : x.mag ≤ y.mag) (hy : y.mag ≤ f.inf) :
    (g x).mag ≤ (g y).mag ∧ (g y).mag ≤ f.inf := by
  have i0 : f.inf ≠ 0 := by rcases hf with (rfl | rfl) | (rfl | rfl) <;> decide
  have sq : ∀ {a b : FloatNum}, a.mag ≤ b.mag → b.mag ≤ f.inf → (fpow2 R f a).mag ≤ (fpow2 R f b).mag ∧ (fpow2 R f b).mag ≤ f.inf :=
    fun hab hb => fmul_mono hR hf hab hab hb hb (by omega) (by omega)
  -- a power of zero is zero
  have F := FT.of hf
  have zz : ∀ a b : FloatNum, b.mag = 0 → a.mag = 0 → (fmul R f a b).mag = 0 := by
    intro a b hb ha
    unfold fmul
    simp only
    rw [if_neg (by omega), if_neg (by omega), hb, ha, val_zero, mul_zero, ← val_zero f]
    exact round_exact hR F (Nat.zero_le _)
  have z2 : ∀ a : FloatNum, a.mag = 0 → (fpow2 R f a).mag = 0 := fun a ha => zz a a ha ha
  -- so infinity is never multiplied by zero
  have step : ∀ {k : FloatNum → FloatNum}, (∀ a : FloatNum, a.mag = 0 → (k a).mag = 0) → (∀ a : FloatNum, a.mag = f.inf → (k a).mag = f.inf) →
      ((k x).mag ≤ (k y).mag ∧ (k y).mag ≤ f.inf) →
      (fmul R f (k x) x).mag ≤ (fmul R f (k y) y).mag ∧ (fmul R f (k y) y).mag ≤ f.inf := by
    intro k k0 ki ⟨k1, k2⟩
    have ok : ∀ a : FloatNum, ((k a).mag = f.inf ∨ a.mag = f.inf) → (k a).mag ≠ 0 ∧ a.mag ≠ 0 := by
      intro a ha
      have i1 := k0 a
      have i2 := ki a
      rcases ha with ha | ha
      · exact ⟨by omega, fun hc => by have := i1 hc; omega⟩
      · have := i2 ha
        omega
    exact fmul_mono hR hf k1 hxy k2 hy (ok x) (ok y)
  have inf2 : ∀ a : FloatNum, a.mag = f.inf → (fpow2 R f a).mag = f.inf := by
    intro a ha
    unfold fpow2 fmul
    simp only
    rw [if_neg (by omega), if_pos (by omega), if_neg (by omega)]
  have p2 := sq hxy hy
  have p3 : (fpow3 R f x).mag ≤ (fpow3 R f y).mag ∧ (fpow3 R f y).mag ≤ f.inf := step z2 inf2 p2
  have p4 : (fpow4 R f x).mag ≤ (fpow4 R f y).mag ∧ (fpow4 R f y).mag ≤ f.inf := sq p2.1 p2.2
  have p5 : (fpow5 R f x).mag ≤ (fpow5 R f y).mag ∧ (fpow5 R f y).mag ≤ f.inf :=
    step (k := fpow4 R f) (fun a ha => z2 _ (z2 a ha)) (fun a ha => inf2 _ (inf2 a ha)) p4
  have p6 : (fpow6 R f x).mag ≤ (fpow6 R f y).mag ∧ (fpow6 R f y).mag ≤ f.inf := sq p3.1 p3.2
  simp only [fpowers, List.mem_cons, List.not_mem_nil, or_false, Prod.mk.injEq] at h
  rcases h with ⟨rfl, rfl⟩ | ⟨rfl, rfl⟩ | ⟨rfl, rfl⟩ | ⟨rfl, rfl⟩ | ⟨rfl, rfl⟩ <;> assumption

theorem fpow_mag {R : Rounding} {f : BinFmt} {N : Nat} {g : FloatNum → FloatNum} (h : (N, g) ∈ fpowers R f) {x y : FloatNum}
    (hxy : x.mag = y.mag) : (g x).mag = (g y).mag := by
  have m : ∀ {a b c d : FloatNum}, a.mag = c.mag → b.mag = d.mag → (fmul R f a b).mag = (fmul R f c d).mag := by
    intro a b c d h1 h2
    unfold fmul
    simp only [h1, h2]
  have p2 : (fpow2 R f x).mag = (fpow2 R f y).mag := m hxy hxy
  have p3 : (fpow3 R f x).mag = (fpow3 R f y).mag := m p2 hxy
  have p4 : (fpow4 R f x).mag = (fpow4 R f y).mag := m p2 p2
  have p5 : (fpow5 R f x).mag = (fpow5 R f y).mag := m p4 hxy
  have p6 : (fpow6 R f x).mag = (fpow6 R f y).mag := m p3 p3
  simp only [fpowers, List.mem_cons, List.not_mem_nil, or_false, Prod.mk.injEq] at h
  rcases h with ⟨rfl, rfl⟩ | ⟨rfl, rfl⟩ | ⟨rfl, rfl⟩ | ⟨rfl, rfl⟩ | ⟨rfl, rfl⟩ <;> assumption

theorem abs_real_le {f : BinFmt} {x y : FloatNum} : |f.real x| ≤ |f.real y| ↔ x.mag ≤ y.mag := by
  rw [abs_real, abs_real]
  constructor
  · intro h
    by_contra hc
    have := val_lt f (not_le.mp hc)
    have : (f.val y.mag : ℝ) < f.val x.mag := by exact_mod_cast this
    linarith
  · intro h
    exact_mod_cast val_le f h

theorem real_of_signs {f : BinFmt} {x y : FloatNum} (h : f.real x ≤ f.real y) :
    (x.neg = false ∧ y.neg = false ∧ x.mag ≤ y.mag) ∨ (x.neg = true ∧ y.neg = true ∧ y.mag ≤ x.mag) ∨ (x.neg = true ∧ y.neg = false) ∨
      (x.neg = false ∧ y.neg = true ∧ x.mag = 0 ∧ y.mag = 0) := by
  have nx : (0 : ℝ) ≤ f.val x.mag := by exact_mod_cast val_nonneg f x.mag
  have ny : (0 : ℝ) ≤ f.val y.mag := by exact_mod_cast val_nonneg f y.mag
  have z : ∀ k : Nat, (f.val k : ℝ) ≤ 0 → k = 0 := by
    intro k hk
    by_contra hc
    have := val_lt f (Nat.pos_of_ne_zero hc)
    rw [val_zero] at this
    have : (0 : ℝ) < f.val k := by exact_mod_cast this
    linarith
  have hle := @abs_real_le f
  simp only [abs_real] at hle
  unfold BinFmt.real at h
  cases hxn : x.neg <;> cases hyn : y.neg <;> rw [hxn, hyn] at h <;> simp at h
  · exact .inl ⟨rfl, rfl, hle.mp (by exact_mod_cast h)⟩
  · have h' : (f.val x.mag : ℝ) ≤ -(f.val y.mag : ℝ) := by exact_mod_cast h
    exact .inr (.inr (.inr ⟨rfl, rfl, z _ (by linarith), z _ (by linarith)⟩))
  · exact .inr (.inr (.inl ⟨rfl, rfl⟩))
  · exact .inr (.inl ⟨rfl, rfl, hle.mp (by exact_mod_cast h)⟩)

/-! ## The properties -/

/-- C86: `powN(x)` differs from `x^N` by at most `N` roundings (plus three times the smallest number of the type), unless `x^N` is within `N`
roundings of the end of the range, or beyond it. -/
theorem C86_powers {R : Rounding} (hR : RoundsToNearest R) {f : BinFmt} (hf : IsFloatType f) {N : Nat} {g : FloatNum → FloatNum}
    (h : (N, g) ∈ fpowers R f) {x : FloatNum} (hx : f.Finite x) (hrange : |f.real x| ^ N < (1 - N * f.u) * f.limit) :
    f.Finite (g x) ∧ |f.real (g x) - f.real x ^ N| ≤ N * f.u * |f.real x| ^ N + 3 * f.tiny ∧
      (1 ≤ |f.real x| → |f.real (g x) - f.real x ^ N| ≤ N * f.u * |f.real x| ^ N) := by
  have F := FT.of hf
  have ht := tiny_pos f
  rw [real_pow_diff f (g x) x N (fpow_neg h x), abs_real] at *
  rcases le_or_gt 1 (f.val x.mag : ℝ) with h1 | h1
  · obtain ⟨a, b⟩ := (fpow_close hR F h hx h1).resolve_left (fun h2 => absurd h2.2 (not_le.mpr hrange))
    exact ⟨a, by linarith, fun _ => b⟩
  · obtain ⟨a, b⟩ := fpow_small hR F h hx h1.le
    exact ⟨a, b, fun h2 => absurd h2 (not_le.mpr h1)⟩

/-- C86: near the end of the range `powN(x)` is either as precise as elsewhere or the infinity of its sign; nothing else ever happens. -/
theorem C86_always {R : Rounding} (hR : RoundsToNearest R) {f : BinFmt} (hf : IsFloatType f) {N : Nat} {g : FloatNum → FloatNum}
    (h : (N, g) ∈ fpowers R f) {x : FloatNum} (hx : f.Finite x) :
    (f.Finite (g x) ∧ |f.real (g x) - f.real x ^ N| ≤ N * f.u * |f.real x| ^ N + 3 * f.tiny) ∨
      (g x = ⟨x.neg && N % 2 == 1, f.inf⟩ ∧ (1 - N * f.u) * f.limit ≤ |f.real x| ^ N) := by
  rcases lt_or_ge (|f.real x| ^ N) ((1 - N * f.u) * f.limit) with h1 | h1
  · left
    obtain ⟨a, b, -⟩ := C86_powers hR hf h hx h1
    exact ⟨a, b⟩
  · have F := FT.of hf
    have ht := tiny_pos f
    rw [real_pow_diff f (g x) x N (fpow_neg h x), abs_real] at *
    rcases le_or_gt 1 (f.val x.mag : ℝ) with h2 | h2
    · rcases fpow_close hR F h hx h2 with ⟨a, b⟩ | ⟨a, b⟩
      · right
        exact ⟨by rw [← fpow_neg h x, ← a], b⟩
      · left
        exact ⟨a, by linarith⟩
    · left
      exact fpow_small hR F h hx h2.le

/-- C86: when `x^N` is beyond the range by more than `N` roundings, `powN(x)` is the infinity of its sign. -/
theorem C86_overflow {R : Rounding} (hR : RoundsToNearest R) {f : BinFmt} (hf : IsFloatType f) {N : Nat} {g : FloatNum → FloatNum}
    (h : (N, g) ∈ fpowers R f) {x : FloatNum} (hx : f.Finite x) (hrange : (1 + N * f.u) * f.limit ≤ |f.real x| ^ N) :
    g x = ⟨x.neg && N % 2 == 1, f.inf⟩ := by
  have F := FT.of hf
  have hL := limit_ge F
  have hu := u_pos f
  have hu2 : f.u ≤ 1 / 16777216 := by have := u_le F; norm_num at this ⊢; exact this
  obtain ⟨hN2, hN6⟩ := fpow_exp h
  have hN6' : (N : ℝ) ≤ 6 := by exact_mod_cast hN6
  have hN2' : (2 : ℝ) ≤ N := by exact_mod_cast hN2
  rw [abs_real] at hrange
  have h0 : (0 : ℝ) ≤ f.val x.mag := by exact_mod_cast val_nonneg f x.mag
  have hLle : f.limit ≤ (f.val x.mag : ℝ) ^ N := by
    have : 0 ≤ N * f.u * f.limit := by have := limit_pos f; positivity
    linarith
  have h1 : 1 ≤ (f.val x.mag : ℝ) := by
    by_contra hc
    have : (f.val x.mag : ℝ) ^ N ≤ 1 := pow_le_one₀ h0 (by linarith)
    norm_num at hL
    linarith
  have hmag : (g x).mag = f.inf := by
    rcases fpow_infOrNear hR F h hx h1 with h2 | ⟨h2, h3⟩
    · exact h2.1
    · exfalso
      have h4 := (abs_le.mp h3).1
      have h5 := val_lt_limit F h2
      have hLp := limit_pos f
      set e := (f.val x.mag : ℝ) ^ N
      have h6 : e * (1 - 101 / 100 * (N - 1) * f.u) < f.limit := by linarith
      have h7 : (1 + N * f.u) * f.limit * (1 - 101 / 100 * (N - 1) * f.u) ≤ e * (1 - 101 / 100 * (N - 1) * f.u) :=
        mul_le_mul_of_nonneg_right hrange (by nlinarith)
      have h8 : 1 ≤ (1 + N * f.u) * (1 - 101 / 100 * (N - 1) * f.u) := by
        have h9 : (1 + N * f.u) * (1 - 101 / 100 * (N - 1) * f.u) =
          1 + f.u * (101 / 100 - N / 100 - 101 / 100 * (N - 1) * (N * f.u)) := by ring
        rw [h9]
        have h10 : (N : ℝ) * f.u ≤ 6 * (1 / 16777216) := by nlinarith
        have h11 : 101 / 100 * ((N : ℝ) - 1) * (N * f.u) ≤ 101 / 100 * 5 * (6 * (1 / 16777216)) := by
          apply mul_le_mul _ h10 (by positivity) (by norm_num)
          linarith
        have : 0 ≤ f.u * (101 / 100 - N / 100 - 101 / 100 * (N - 1) * (N * f.u)) := by
          apply mul_nonneg hu.le
          linarith
        linarith
      nlinarith
  rw [← fpow_neg h x, ← hmag]

/-- C86: a number of greater magnitude never has a power of smaller magnitude, and the odd powers keep the order of all numbers. No power of a
number or of an infinity is not-a-number. Infinite results count as larger than all others: `real` of an infinity is `limit` or its opposite. -/
theorem C86_monotone {R : Rounding} (hR : RoundsToNearest R) {f : BinFmt} (hf : IsFloatType f) {N : Nat} {g : FloatNum → FloatNum}
    (h : (N, g) ∈ fpowers R f) {x y : FloatNum} (hx : ¬ f.IsNaN x) (hy : ¬ f.IsNaN y) :
    ¬ f.IsNaN (g y) ∧ (|f.real x| ≤ |f.real y| → |f.real (g x)| ≤ |f.real (g y)|) ∧
      (f.real x ≤ f.real y → N % 2 = 1 → f.real (g x) ≤ f.real (g y)) := by
  have hx' : x.mag ≤ f.inf := not_lt.mp hx
  have hy' : y.mag ≤ f.inf := not_lt.mp hy
  refine ⟨not_lt.mpr (fpow_mag_mono hR hf h le_rfl hy').2, ?_, ?_⟩
  · intro hle
    exact abs_real_le.mpr (fpow_mag_mono hR hf h (abs_real_le.mp hle) hy').1
  · intro hle hN
    have nx := fpow_neg h x
    have ny := fpow_neg h y
    have n0 : ∀ k : Nat, (0 : ℝ) ≤ f.val k := fun k => by exact_mod_cast val_nonneg f k
    have hv : ∀ {k l : Nat}, k ≤ l → (f.val k : ℝ) ≤ f.val l := fun hkl => by exact_mod_cast val_le f hkl
    simp only [hN, beq_self_eq_true, Bool.and_true] at nx ny
    unfold BinFmt.real
    rw [nx, ny]
    rcases real_of_signs hle with ⟨h1, h2, h3⟩ | ⟨h1, h2, h3⟩ | ⟨h1, h2⟩ | ⟨h1, h2, h3, h4⟩ <;> rw [h1, h2]
    · simpa using hv (fpow_mag_mono hR hf h h3 hy').1
    · simpa using hv (fpow_mag_mono hR hf h h3 hx').1
    · have := n0 (g x).mag
      have := n0 (g y).mag
      simp only [if_true, Bool.false_eq_true, if_false]
      linarith
    · have e := fpow_mag h (h3.trans h4.symm)
      have hz : ((g y).mag : ℕ) = 0 := by
        have i0 : 0 < f.inf := Nat.pos_of_ne_zero (by rcases hf with (rfl | rfl) | (rfl | rfl) <;> decide)
        have F := FT.of hf
        have hfin : f.Finite y := by unfold BinFmt.Finite; omega
        have hv0 : (f.val y.mag : ℝ) = 0 := by rw [h4, val_zero]; simp
        have zz : ∀ a b : FloatNum, a.mag = 0 → b.mag = 0 → (fmul R f a b).mag = 0 := by
          intro a b ha hb
          unfold fmul
          simp only
          rw [if_neg (by omega), if_neg (by omega), hb, ha, val_zero, mul_zero, ← val_zero f]
          exact round_exact hR F (Nat.zero_le _)
        have q2 : (fpow2 R f y).mag = 0 := zz _ _ h4 h4
        have q3 : (fpow3 R f y).mag = 0 := zz _ _ q2 h4
        have q4 : (fpow4 R f y).mag = 0 := zz _ _ q2 q2
        have q5 : (fpow5 R f y).mag = 0 := zz _ _ q4 h4
        have q6 : (fpow6 R f y).mag = 0 := zz _ _ q3 q3
        simp only [fpowers, List.mem_cons, List.not_mem_nil, or_false, Prod.mk.injEq] at h
        rcases h with ⟨rfl, rfl⟩ | ⟨rfl, rfl⟩ | ⟨rfl, rfl⟩ | ⟨rfl, rfl⟩ | ⟨rfl, rfl⟩ <;> assumption
      rw [e, hz, val_zero]
      simp

/-- C86: the powers of `-x`: the even ones are those of `x`, the odd ones are those of `x` with the opposite sign. -/
theorem C86_opposite {R : Rounding} {f : BinFmt} {N : Nat} {g : FloatNum → FloatNum} (h : (N, g) ∈ fpowers R f) (x : FloatNum) :
    (N % 2 = 0 → g ⟨!x.neg, x.mag⟩ = g x) ∧ (N % 2 = 1 → g ⟨!x.neg, x.mag⟩ = ⟨!(g x).neg, (g x).mag⟩) := by
  have hm := fpow_mag h (x := ⟨!x.neg, x.mag⟩) (y := x) rfl
  have h1 := fpow_neg h x
  have h2 := fpow_neg h ⟨!x.neg, x.mag⟩
  have ext : ∀ a b : FloatNum, a.neg = b.neg → a.mag = b.mag → a = b := by rintro ⟨_, _⟩ ⟨_, _⟩ rfl rfl; rfl
  constructor <;> intro hN <;> apply ext
  · rw [h1, h2, hN]; simp
  · exact hm
  · simp only [h1, h2, hN, beq_self_eq_true, Bool.and_true]
  · exact hm

/-- C86: infinities and not-a-number. -/
theorem C86_special {R : Rounding} {f : BinFmt} (hf : IsFloatType f) {N : Nat} {g : FloatNum → FloatNum} (h : (N, g) ∈ fpowers R f)
    (x : FloatNum) : (x.mag = f.inf → g x = ⟨x.neg && N % 2 == 1, f.inf⟩) ∧ (f.IsNaN x → f.IsNaN (g x)) := by
  have i0 : f.inf ≠ 0 := by rcases hf with (rfl | rfl) | (rfl | rfl) <;> decide
  have minf : ∀ a b : FloatNum, a.mag = f.inf → b.mag = f.inf → (fmul R f a b).mag = f.inf := by
    intro a b ha hb
    unfold fmul
    simp only
    rw [if_neg (by omega), if_pos (by omega), if_neg (by omega)]
  have mnan : ∀ a b : FloatNum, f.IsNaN a ∨ f.IsNaN b → f.IsNaN (fmul R f a b) := by
    intro a b hab
    unfold fmul BinFmt.IsNaN at *
    simp only
    rw [if_pos hab]; unfold nanMag; omega
  have hn := fpow_neg h x
  simp only [fpowers, List.mem_cons, List.not_mem_nil, or_false, Prod.mk.injEq] at h
  constructor
  · intro hx
    rw [← hn]
    have : (g x).mag = f.inf := by
      rcases h with ⟨rfl, rfl⟩ | ⟨rfl, rfl⟩ | ⟨rfl, rfl⟩ | ⟨rfl, rfl⟩ | ⟨rfl, rfl⟩ <;>
        simp only [fpow6, fpow5, fpow4, fpow3, fpow2] <;> repeat' (first | exact hx | apply minf)
    rw [← this]
  · intro hx
    rcases h with ⟨rfl, rfl⟩ | ⟨rfl, rfl⟩ | ⟨rfl, rfl⟩ | ⟨rfl, rfl⟩ | ⟨rfl, rfl⟩ <;>
      simp only [fpow6, fpow5, fpow4, fpow3, fpow2] <;> repeat' (first | exact hx | (apply mnan; left))

/-- C86: `sign` of a floating-point number is -1 for the numbers below zero and for minus infinity; it is 1 for all others, both zeros and
not-a-number included. -/
theorem C86_sign {R : Rounding} (hR : RoundsToNearest R) {f : BinFmt} (hf : IsFloatType f) (x : FloatNum) :
    ((¬ f.IsNaN x ∧ f.real x < 0) → f.Finite (fsign R f x) ∧ f.real (fsign R f x) = -1) ∧
    (¬ (¬ f.IsNaN x ∧ f.real x < 0) → f.Finite (fsign R f x) ∧ f.real (fsign R f x) = 1) := by
  have F := FT.of hf
  have one : ∃ k, k < f.inf ∧ R f 1 = k ∧ f.val k = 1 := by
    rcases hf with (rfl | rfl) | (rfl | rfl)
    · have v : binary64.val 0x3FF0000000000000 = 1 := by norm_num [val, binary64]
      exact ⟨_, by decide, by rw [← v]; exact round_exact hR F (by decide), v⟩
    · have v : binary32.val 0x3F800000 = 1 := by norm_num [val, binary32]
      exact ⟨_, by decide, by rw [← v]; exact round_exact hR F (by decide), v⟩
    · have v : extended80.val 0x1fff8000000000000000 = 1 := by norm_num [val, extended80]
      exact ⟨_, by decide, by rw [← v]; exact round_exact hR F (by decide), v⟩
    · have v : binary128.val 0x3fff0000000000000000000000000000 = 1 := by norm_num [val, binary128]
      exact ⟨_, by decide, by rw [← v]; exact round_exact hR F (by decide), v⟩
  obtain ⟨k, hk, hRk, hv⟩ := one
  have e1 : ofInt R f 1 = ⟨false, k⟩ := by simp [ofInt, hRk]
  have e2 : ofInt R f (-1) = ⟨true, k⟩ := by simp [ofInt, hRk]
  have hz : fltZero f x = true ↔ (¬ f.IsNaN x ∧ f.real x < 0) := by
    have hnn : (0 : ℝ) ≤ f.val x.mag := by exact_mod_cast val_nonneg f x.mag
    have hpos : x.mag ≠ 0 ↔ (0 : ℝ) < f.val x.mag := by
      constructor
      · intro h
        have := val_lt f (Nat.pos_of_ne_zero h)
        rw [val_zero] at this
        exact_mod_cast this
      · exact mag_ne_zero
    unfold fltZero BinFmt.IsNaN BinFmt.real
    cases hx : x.neg
    · simp only [Bool.false_and, Bool.false_eq_true, if_false, false_iff, not_and, not_lt]
      exact fun _ => hnn
    · simp only [Bool.true_and, Bool.and_eq_true, bne_iff_ne, ne_eq, Bool.not_eq_true', decide_eq_false_iff_not, if_true]
      rw [← ne_eq, hpos]
      constructor
      · rintro ⟨a, b⟩; exact ⟨b, by linarith⟩
      · rintro ⟨a, b⟩; exact ⟨by linarith, a⟩
  constructor
  · intro h
    have : fsign R f x = ⟨true, k⟩ := by unfold fsign; rw [if_pos (hz.mpr h), e2]
    rw [this]
    exact ⟨hk, by simp [BinFmt.real, hv]⟩
  · intro h
    have : fsign R f x = ⟨false, k⟩ := by unfold fsign; rw [if_neg (fun hc => h (hz.mp hc)), e1]
    rw [this]
    exact ⟨hk, by simp [BinFmt.real, hv]⟩

/-- `pow3` of minus two, as a `double`: the hypotheses of `C86_powers` hold. -/
example (R : Rounding) : (3, fpow3 R binary64) ∈ fpowers R binary64 ∧ binary64.Finite ⟨true, 0x4000000000000000⟩ ∧
    |binary64.real ⟨true, 0x4000000000000000⟩| ^ 3 < (1 - (3 : Nat) * binary64.u) * binary64.limit := by
  refine ⟨by simp [fpowers], by unfold BinFmt.Finite; decide, ?_⟩
  have e : |binary64.real ⟨true, 0x4000000000000000⟩| = 2 := by rw [abs_real]; norm_num [val, binary64]
  have := limit_ge (FT.of type64)
  have hu := u_le (FT.of type64)
  rw [e]
  norm_num at this hu ⊢
  nlinarith

/-- `pow2` of `2^513`, as a `double`: the hypotheses of `C86_overflow` hold. -/
example (R : Rounding) : (2, fpow2 R binary64) ∈ fpowers R binary64 ∧ binary64.Finite ⟨false, 0x6000000000000000⟩ ∧
    (1 + (2 : Nat) * binary64.u) * binary64.limit ≤ |binary64.real ⟨false, 0x6000000000000000⟩| ^ 2 := by
  refine ⟨by simp [fpowers], by unfold BinFmt.Finite; decide, ?_⟩
  have e : |binary64.real ⟨false, 0x6000000000000000⟩| = 2 ^ 513 := by
    rw [abs_real]
    norm_num [val, binary64]
    rw [show (4503599627370496 : ℝ) = 2 ^ 52 by norm_num, ← pow_add]
  have l : binary64.limit = 2 ^ 1024 := by
    unfold BinFmt.limit
    rw [show ((binary64.top : ℤ) - binary64.bias) = (1024 : ℕ) by decide, zpow_natCast]
  have hu := u_le (FT.of type64)
  rw [e, l, ← pow_mul, show 513 * 2 = 2 + 1024 by norm_num, pow_add]
  apply mul_le_mul_of_nonneg_right _ (by positivity)
  norm_num at hu ⊢
  linarith

end Utki
