import Verif.Spec.FloatEnv
import Verif.Lemmas.DigitCompNearest
/-!
# The floating-point environment and the fast path

Helper lemmas.
-/
namespace Utki.FastFloat

open Utki Utki.Spec Utki.Spec.BinFmt

/-- A number of the format is not changed by rounding, in any mode. -/
theorem rounded_exact {f : BinFmt} {mode : RoundMode} {k k' : Nat} (hk : k < f.inf) (h : f.Rounded mode (f.val k) k') : k' = k := by
  cases mode with
  | nearest => exact h.unique f (nearest_val f hk.le)
  | upward =>
    obtain ⟨-, h2, h3⟩ := h
    have h4 : ¬ k < k' := fun hc => lt_irrefl _ (h3 k hc)
    rcases h2 with h2 | h2
    · have : ¬ k' < k := fun hc => not_lt.mpr h2 (val_lt f hc)
      omega
    · omega
  | downward =>
    obtain ⟨-, h2, h3⟩ := h
    have h4 := h3 k hk le_rfl
    have : ¬ k < k' := fun hc => not_lt.mpr h2 (val_lt f hc)
    omega
  | towardZero =>
    obtain ⟨-, h2, h3⟩ := h
    have h4 := h3 k hk le_rfl
    have : ¬ k < k' := fun hc => not_lt.mpr h2 (val_lt f hc)
    omega

/-- Every number has a rounding, in every mode. -/
theorem rounded_exists (f : BinFmt) (hinf : 0 < f.inf) (mode : RoundMode) {x : ℚ} (hx : 0 ≤ x) : ∃ k, f.Rounded mode x k := by
  classical
  -- the largest number not above `x`
  have hfloor : ∀ n, ∃ k ≤ n, f.val k ≤ x ∧ ∀ k' ≤ n, f.val k' ≤ x → k' ≤ k := by
    intro n
    refine ⟨Nat.findGreatest (fun k => f.val k ≤ x) n, Nat.findGreatest_le n, ?_, ?_⟩
    · exact Nat.findGreatest_spec (P := fun k => f.val k ≤ x) (Nat.zero_le n) (by rw [val_zero]; exact hx)
    · intro k' h1 h2
      exact Nat.le_findGreatest h1 h2
  have hdown : ∃ k, k < f.inf ∧ f.val k ≤ x ∧ ∀ k' < f.inf, f.val k' ≤ x → k' ≤ k := by
    obtain ⟨k, h1, h2, h3⟩ := hfloor (f.inf - 1)
    exact ⟨k, by omega, h2, fun k' h => h3 k' (by omega)⟩
  obtain ⟨k, h1, h2, h3⟩ := hfloor f.inf
  cases mode with
  | downward => exact hdown
  | towardZero => exact hdown
  | upward =>
    rcases lt_or_eq_of_le h2 with hlt | heq
    · rcases Nat.lt_or_ge k f.inf with hk | hk
      · refine ⟨k + 1, hk, ?_, ?_⟩
        · left
          by_contra hc
          have := h3 (k + 1) hk (not_le.mp hc).le
          omega
        · intro k' hk'
          exact lt_of_le_of_lt (val_le f (by omega)) hlt
      · exact ⟨f.inf, le_rfl, .inr rfl, fun k' hk' => lt_of_le_of_lt (val_le f (by omega)) hlt⟩
    · exact ⟨k, h1, .inl heq.ge, fun k' hk' => by rw [← heq]; exact val_lt f hk'⟩
  | nearest =>
    rcases Nat.lt_or_ge k f.inf with hk | hk
    · have h4 : x ≤ f.val (k + 1) := by
        by_contra hc
        have := h3 (k + 1) hk (not_le.mp hc).le
        omega
      rcases lt_trichotomy (x - f.val k) (f.val (k + 1) - x) with h | h | h
      · exact ⟨k, nearest_lower f h1 h2 h4 (.inl h)⟩
      · rcases Nat.mod_two_eq_zero_or_one k with h0 | h0
        · exact ⟨k, nearest_lower f h1 h2 h4 (.inr ⟨h, h0⟩)⟩
        · exact ⟨k + 1, nearest_upper f hk h2 h4 (.inr ⟨h, by omega⟩)⟩
      · exact ⟨k + 1, nearest_upper f hk h2 h4 (.inl h)⟩
    · exact ⟨f.inf, nearest_inf f ((val_le f hk).trans h2)⟩

/-- A number of the format is not changed by an operation that has it as exact result. -/
theorem computed_exact [Platform] {f : BinFmt} {mode : RoundMode} {k k' : Nat} (hk : k < f.inf) (h : f.Computed mode (f.val k) k') :
    k' = k := by
  unfold BinFmt.Computed at h
  split at h
  · exact h k hk rfl
  · exact rounded_exact hk h

theorem computed_of_rounded [Platform] {f : BinFmt} {mode : RoundMode} {x : ℚ} {k : Nat} (h : f.Rounded mode x k) : f.Computed mode x k := by
  unfold BinFmt.Computed
  split
  · intro k' h1 h2
    rw [← h2] at h
    exact rounded_exact h1 h
  · exact h

theorem rounded_of_computed [Platform] (hx : Platform.excess = false) {f : BinFmt} {mode : RoundMode} {x : ℚ} {k : Nat}
    (h : f.Computed mode x k) : f.Rounded mode x k := by
  unfold BinFmt.Computed at h
  rwa [if_neg (by simp [hx])] at h

/-- There are floating-point units that satisfy the specification, for every platform and mode. -/
theorem ieee_exists [Platform] (f : BinFmt) (hinf : 0 < f.inf) (mode : RoundMode) : ∃ u : Fpu, Ieee f mode u := by
  classical
  have h32 : 0 < sumFmt.inf := by unfold sumFmt; split <;> decide
  let rnd : BinFmt → ℚ → Nat := fun g x => if h : 0 ≤ x ∧ 0 < g.inf then (rounded_exists g h.2 mode h.1).choose else 0
  have hrnd : ∀ g : BinFmt, 0 < g.inf → ∀ x, 0 ≤ x → g.Rounded mode x (rnd g x) := by
    intro g hg x hx
    simp only [rnd, dif_pos (show 0 ≤ x ∧ 0 < g.inf from ⟨hx, hg⟩)]
    exact (rounded_exists g hg mode hx).choose_spec
  refine ⟨⟨fun n => rnd f n, fun x y => rnd f (f.val x * f.val y), fun x y => rnd f (f.val x / f.val y),
    fun x y => rnd sumFmt (binary32.val x + binary32.val y), fun x y => rnd sumFmt (binary32.val x - binary32.val y)⟩, ?_⟩
  constructor
  · intro n _; exact computed_of_rounded (hrnd f hinf _ (by positivity))
  · intro x y _ _; exact computed_of_rounded (hrnd f hinf _ (mul_nonneg (val_nonneg f x) (val_nonneg f y)))
  · intro x y _ _ _; exact computed_of_rounded (hrnd f hinf _ (div_nonneg (val_nonneg f x) (val_nonneg f y)))
  · intro _ x y _ _; exact hrnd sumFmt h32 _ (add_nonneg (val_nonneg _ x) (val_nonneg _ y))
  · intro _ x y _ h; exact hrnd sumFmt h32 _ (sub_nonneg.mpr (val_lt _ h).le)

/-- The numbers next to 1, in the format in which the sums are compared. -/
theorem around_one [Platform] : ∃ (o : Nat) (δ : ℚ), 0 < o ∧ o < sumFmt.inf ∧ o - 1 + 1 = o ∧ 2 ^ (-126 : ℤ) < δ ∧
    sumFmt.val o = 1 ∧ sumFmt.val (o + 1) = 1 + 4 * δ ∧ sumFmt.val (o - 1) = 1 - 2 * δ := by
  have hsm : (2 : ℚ) ^ (-126 : ℤ) < 2 ^ (-54 : ℤ) := zpow_lt_zpow_right₀ (by norm_num) (by norm_num)
  have hsm2 : (2 : ℚ) ^ (-126 : ℤ) < 2 ^ (-25 : ℤ) := zpow_lt_zpow_right₀ (by norm_num) (by norm_num)
  unfold sumFmt
  split
  · have v1 : binary64.val 4607182418800017408 = 1 := by
      have := val_cell binary64 1022 (2 ^ 52) (.inl le_rfl) (by decide)
      rw [show 1022 * 2 ^ binary64.p + 2 ^ 52 = 4607182418800017408 by decide] at this
      rw [this]; norm_num [binary64]
    have v2 : binary64.val (4607182418800017408 + 1) = 1 + 4 * 2 ^ (-54 : ℤ) := by
      have := val_cell binary64 1022 (2 ^ 52 + 1) (.inl (by decide)) (by decide)
      rw [show 1022 * 2 ^ binary64.p + (2 ^ 52 + 1) = 4607182418800017408 + 1 by decide] at this
      rw [this]; norm_num [binary64]
    have v0 : binary64.val (4607182418800017408 - 1) = 1 - 2 * 2 ^ (-54 : ℤ) := by
      have := val_cell binary64 1021 (2 ^ 53 - 1) (.inl (by decide)) (by decide)
      rw [show 1021 * 2 ^ binary64.p + (2 ^ 53 - 1) = 4607182418800017408 - 1 by decide] at this
      rw [this]; norm_num [binary64]
    exact ⟨_, _, by decide, by decide, by decide, hsm, v1, v2, v0⟩
  · have v1 : binary32.val float_one = 1 := by
      have := val_cell binary32 126 (2 ^ 23) (.inl le_rfl) (by decide)
      rw [show 126 * 2 ^ binary32.p + 2 ^ 23 = float_one by decide] at this
      rw [this]; norm_num [binary32]
    have v2 : binary32.val (float_one + 1) = 1 + 4 * 2 ^ (-25 : ℤ) := by
      have := val_cell binary32 126 (2 ^ 23 + 1) (.inl (by decide)) (by decide)
      rw [show 126 * 2 ^ binary32.p + (2 ^ 23 + 1) = float_one + 1 by decide] at this
      rw [this]; norm_num [binary32]
    have v0 : binary32.val (float_one - 1) = 1 - 2 * 2 ^ (-25 : ℤ) := by
      have := val_cell binary32 125 (2 ^ 24 - 1) (.inl (by decide)) (by decide)
      rw [show 125 * 2 ^ binary32.p + (2 ^ 24 - 1) = float_one - 1 by decide] at this
      rw [this]; norm_num [binary32]
    exact ⟨_, _, by decide, by decide, by decide, hsm2, v1, v2, v0⟩

/-- The trick with `fmin + 1.0f == 1.0f - fmin` recognises the rounding mode, where it is used. -/
theorem rounds_to_nearest_iff [Platform] (hx : Platform.excess = false) {f : BinFmt} {mode : RoundMode} {u : Fpu} (I : Ieee f mode u) :
    rounds_to_nearest u = true ↔ mode = .nearest := by
  have w1 : binary32.val float_one = 1 := by
    have := val_cell binary32 126 (2 ^ 23) (.inl le_rfl) (by decide)
    rw [show 126 * 2 ^ binary32.p + 2 ^ 23 = float_one by decide] at this
    rw [this]; norm_num [binary32]
  have vm : binary32.val float_min = 2 ^ (-126 : ℤ) := by
    have := val_cell binary32 0 (2 ^ 23) (.inl le_rfl) (by decide)
    rw [show 0 * 2 ^ binary32.p + 2 ^ 23 = float_min by decide] at this
    rw [this]; norm_num [binary32]
  have hadd := I.add32 hx float_min float_one (by decide) (by decide)
  have hsub := I.sub32 hx float_one float_min (by decide) (by decide)
  rw [vm, w1] at hadd hsub
  have hpos : (0 : ℚ) < 2 ^ (-126 : ℤ) := by positivity
  obtain ⟨o, δ, ho0, one_inf, hone1, hsm, v1, v2, v0⟩ := around_one
  obtain ⟨ε, hε⟩ : ∃ ε : ℚ, ε = 2 ^ (-126 : ℤ) := ⟨_, rfl⟩
  rw [← hε] at hadd hsub hpos hsm
  unfold rounds_to_nearest
  rw [if_neg (by simp [hx]), decide_eq_true_eq]
  generalize sumFmt = g at *
  cases mode with
  | nearest =>
    simp only [iff_true]
    have a1 : u.add32 float_min float_one = o := by
      refine hadd.unique g (nearest_lower g one_inf.le ?_ ?_ (.inl ?_))
      · rw [v1]; linarith
      · rw [v2]; linarith
      · rw [v1, v2]; linarith
    have a2 : u.sub32 float_one float_min = o := by
      have := nearest_upper g (x := 1 - ε) (k := o - 1) (by omega) (by rw [v0]; linarith) (by rw [hone1, v1]; linarith)
        (.inl (by rw [hone1, v0, v1]; linarith))
      rw [hone1] at this
      exact hsub.unique g this
    rw [a1, a2]
  | upward =>
    simp only [reduceCtorEq, iff_false]
    intro heq
    obtain ⟨-, a2, -⟩ := hadd
    obtain ⟨-, -, b3⟩ := hsub
    have hgt : o < u.add32 float_min float_one := by
      rcases a2 with a2 | a2
      · by_contra hc
        have := val_le g (not_lt.mp hc)
        rw [v1] at this
        linarith
      · rw [a2]; exact one_inf
    have := b3 o (by rw [← heq]; exact hgt)
    rw [v1] at this
    linarith
  | downward =>
    simp only [reduceCtorEq, iff_false]
    intro heq
    obtain ⟨-, -, a3⟩ := hadd
    obtain ⟨-, b2, -⟩ := hsub
    have h1 := a3 o one_inf (by rw [v1]; linarith)
    have := val_le g h1
    rw [heq, v1] at this
    linarith
  | towardZero =>
    simp only [reduceCtorEq, iff_false]
    intro heq
    obtain ⟨-, -, a3⟩ := hadd
    obtain ⟨-, b2, -⟩ := hsub
    have h1 := a3 o one_inf (by rw [v1]; linarith)
    have := val_le g h1
    rw [heq, v1] at this
    linarith

/-- The constants of the fast path. -/
structure FmtOK4 (b : Format) (f : BinFmt) : Prop where
  sign : 2 ^ b.sign_index = (f.top + 1) * 2 ^ f.p
  room : 128 + f.bias ≤ f.top
  minfast : b.min_exponent_fast_path = -b.max_exponent_fast_path
  maxfast0 : 0 ≤ b.max_exponent_fast_path
  pow : ∀ i : Nat, (i : ℤ) ≤ b.max_exponent_fast_path → rd b.powers_of_ten i = .ok (10 ^ i)
  pow5 : ∀ i : Nat, (i : ℤ) ≤ b.max_exponent_fast_path → 5 ^ i < 2 ^ (f.p + 1)
  pow2 : ∀ i : Nat, (i : ℤ) ≤ b.max_exponent_fast_path → 2 ^ (f.p + 1) * 10 ^ i < 2 ^ 127
  maxm : ∀ i : Nat, (i : ℤ) ≤ b.max_exponent_fast_path → rd b.max_mantissa i = .ok (b.max_mantissa.getD i 0) ∧
    b.max_mantissa.getD i 0 ≤ 2 ^ (f.p + 1) / 5 ^ i
  small : ∀ i : Nat, (i : ℤ) ≤ b.max_exponent_fast_path → 10 ^ i < 2 ^ 100

theorem forall_le_22 {P : Nat → Prop} {m : Int} {n : Nat} (hm : m ≤ n) (h : ∀ i < n + 1, P i) : ∀ i : Nat, (i : ℤ) ≤ m → P i := by
  intro i hi
  exact h i (by omega)

theorem fmtDouble_ok4 : FmtOK4 fmtDouble binary64 where
  sign := by decide
  room := by decide
  minfast := by decide
  maxfast0 := by decide
  pow := forall_le_22 (n := 22) (by decide) (by decide +kernel)
  pow5 := forall_le_22 (n := 22) (by decide) (by decide +kernel)
  pow2 := forall_le_22 (n := 22) (by decide) (by decide +kernel)
  maxm := forall_le_22 (n := 22) (by decide) (by decide +kernel)
  small := forall_le_22 (n := 22) (by decide) (by decide +kernel)

theorem fmtFloat_ok4 : FmtOK4 fmtFloat binary32 where
  sign := by decide
  room := by decide
  minfast := by decide
  maxfast0 := by decide
  pow := forall_le_22 (n := 10) (by decide) (by decide +kernel)
  pow5 := forall_le_22 (n := 10) (by decide) (by decide +kernel)
  pow2 := forall_le_22 (n := 10) (by decide) (by decide +kernel)
  maxm := forall_le_22 (n := 10) (by decide) (by decide +kernel)
  small := forall_le_22 (n := 10) (by decide) (by decide +kernel)

/-- The pattern of a whole number with few enough bits. -/
theorem literal_val {b : Format} {f : BinFmt} (F : FmtOK b f) (F4 : FmtOK4 b f) {m s : Nat} (hm0 : 0 < m) (hm : m < 2 ^ (f.p + 1))
    (hlt : m * 2 ^ s < 2 ^ 128) : f.val (b.literal (m * 2 ^ s)) = ((m * 2 ^ s : ℕ) : ℚ) ∧ b.literal (m * 2 ^ s) < f.inf := by
  have hbias := F.bias
  have hroom := F4.room
  have hpp : 0 < 2 ^ f.p := by positivity
  have hn0 : m * 2 ^ s ≠ 0 := by positivity
  obtain ⟨n, hn⟩ : ∃ n, n = m * 2 ^ s := ⟨_, rfl⟩
  obtain ⟨L, hL⟩ : ∃ L, L = n.log2 := ⟨_, rfl⟩
  have hlog : m.log2 ≤ f.p := by
    have : m.log2 < f.p + 1 := (Nat.log2_lt (by omega)).mpr hm
    omega
  have hLe : L = m.log2 + s := by
    rw [hL, hn]
    rw [Nat.log2_eq_iff (by positivity)]
    constructor
    · rw [pow_add]; exact Nat.mul_le_mul_right _ (Nat.log2_self_le (by omega))
    · rw [show m.log2 + s + 1 = (m.log2 + 1) + s by ring, pow_add]
      exact Nat.mul_lt_mul_of_pos_right Nat.lt_log2_self (by positivity)
  have hL127 : L < 128 := by rw [hL]; exact (Nat.log2_lt (by rw [hn]; exact hn0)).mpr (by rw [hn]; exact hlt)
  -- the quotient is exact
  have hdiv : n * 2 ^ f.p / 2 ^ L = m * 2 ^ (f.p - m.log2) := by
    apply Nat.div_eq_of_eq_mul_left (by positivity)
    rw [hn, hLe, mul_assoc, mul_assoc, ← pow_add, ← pow_add]
    congr 2
    omega
  have hj1 : 2 ^ f.p ≤ m * 2 ^ (f.p - m.log2) := by
    calc 2 ^ f.p = 2 ^ m.log2 * 2 ^ (f.p - m.log2) := by rw [← pow_add]; congr 1; omega
      _ ≤ _ := Nat.mul_le_mul_right _ (Nat.log2_self_le (by omega))
  have hj2 : m * 2 ^ (f.p - m.log2) < 2 ^ (f.p + 1) := by
    calc m * 2 ^ (f.p - m.log2) < 2 ^ (m.log2 + 1) * 2 ^ (f.p - m.log2) := Nat.mul_lt_mul_of_pos_right Nat.lt_log2_self (by positivity)
      _ = _ := by rw [← pow_add]; congr 1; omega
  have hlit : b.literal (m * 2 ^ s) = (L + f.bias - 1) * 2 ^ f.p + m * 2 ^ (f.p - m.log2) := by
    unfold Format.literal
    rw [if_neg hn0, F.p, F.min, ← hn, ← hL, hdiv]
    congr 2
    omega
  rw [hlit]
  constructor
  · rw [val_cell f _ _ (.inl hj1) hj2.le]
    push_cast
    rw [mul_assoc]
    congr 1
    rw [← zpow_natCast, ← zpow_natCast, ← zpow_add₀ (by norm_num)]
    congr 1
    omega
  · rw [pow_succ] at hj2
    have : (L + f.bias - 1 + 2) * 2 ^ f.p ≤ f.top * 2 ^ f.p := Nat.mul_le_mul_right _ (by omega)
    unfold BinFmt.inf
    rw [Nat.add_mul] at this
    omega

/-- The same with any bit pattern that has the value. -/
theorem representable {b : Format} {f : BinFmt} (F : FmtOK b f) (F4 : FmtOK4 b f) {m s : Nat} (hm : m ≤ 2 ^ (f.p + 1))
    (hlt : m * 2 ^ s < 2 ^ 128) : ∃ k < f.inf, f.val k = ((m * 2 ^ s : ℕ) : ℚ) := by
  rcases Nat.eq_zero_or_pos m with h0 | h0
  · subst h0
    refine ⟨0, ?_, by rw [val_zero]; simp⟩
    have := F.top
    unfold BinFmt.inf
    positivity
  rcases Nat.lt_or_ge m (2 ^ (f.p + 1)) with h | h
  · have := literal_val F F4 h0 h hlt
    exact ⟨_, this.2, this.1⟩
  · have hme : m = 2 ^ (f.p + 1) := by omega
    have e : m * 2 ^ s = 1 * 2 ^ (f.p + 1 + s) := by rw [hme, one_mul, ← pow_add]
    rw [e] at hlt ⊢
    have := literal_val F F4 (m := 1) (by norm_num) (by have : 0 < f.p + 1 := by omega
                                                        exact Nat.one_lt_two_pow (by omega)) hlt
    exact ⟨_, this.2, this.1⟩

theorem exact_power_of_ten_eq {b : Format} {f : BinFmt} (F : FmtOK b f) (F4 : FmtOK4 b f) {i : Nat} (hi : (i : ℤ) ≤ b.max_exponent_fast_path) :
    ∃ k, exact_power_of_ten b i = .ok k ∧ k < f.inf ∧ f.val k = 10 ^ i := by
  unfold exact_power_of_ten
  rw [if_neg (by omega), Int.toNat_natCast, F4.pow i hi]
  simp only [Res.bind_eq, Res.ok_bind, Res.pure_eq]
  have e : (10 : ℕ) ^ i = 5 ^ i * 2 ^ i := by rw [← Nat.mul_pow]
  have h128 : 5 ^ i * 2 ^ i < 2 ^ 128 := by
    rw [← e]
    have := F4.small i hi
    omega
  have := literal_val F F4 (m := 5 ^ i) (s := i) (by positivity) (F4.pow5 i hi) h128
  rw [← e] at this
  exact ⟨_, rfl, this.2, by rw [this.1]; push_cast; ring⟩

/-- A number in the middle of the range is rounded neither to zero nor to infinity. -/
theorem nearest_mid {b : Format} {f : BinFmt} (F : FmtOK b f) (F4 : FmtOK4 b f) {x : ℚ} {k : Nat} (h : f.Nearest x k)
    (h1 : 2 ^ (-100 : ℤ) ≤ x) (h2 : x ≤ 2 ^ 127) : k ≠ 0 ∧ k < f.inf := by
  have hbias := F.bias
  have hp := F.prec
  have htop := F.top
  have hinf2 : 2 ≤ f.inf := by
    unfold BinFmt.inf
    have : 0 < 2 ^ f.p := by positivity
    nlinarith
  constructor
  · rintro rfl
    have v1 := val_cell f 0 1 (.inr rfl) (by have : 0 < 2 ^ (f.p + 1) := by positivity
                                             omega)
    rw [Nat.zero_mul, Nat.zero_add, Nat.cast_one, one_mul] at v1
    have hv1 : f.val 1 ≤ 2 ^ (-100 : ℤ) := by
      rw [v1]; exact zpow_le_zpow_right₀ (by norm_num) (by push_cast; omega)
    have hv1p : 0 < f.val 1 := by rw [v1]; positivity
    have := h.2 1 (by omega) (by norm_num)
    rw [val_zero, abs_of_nonneg (by linarith), abs_of_nonneg (by linarith)] at this
    rcases this with h | ⟨h, _⟩ <;> linarith
  · by_contra hc
    have hk : k = f.inf := le_antisymm h.1 (not_lt.mp hc)
    subst hk
    have hl := literal_val F F4 (m := 1) (s := 127) (by norm_num) (Nat.one_lt_two_pow (by omega)) (by norm_num)
    obtain ⟨k', hk'⟩ : ∃ k', k' = b.literal (1 * 2 ^ 127) := ⟨_, rfl⟩
    rw [← hk'] at hl
    have hv := val_lt f hl.2
    have hv' : f.val k' = 2 ^ 127 := by rw [hl.1]; norm_num
    have := h.2 k' hl.2.le (by omega)
    rw [abs_of_nonpos (by linarith), abs_of_nonpos (by linarith)] at this
    rcases this with h | ⟨h, _⟩ <;> linarith

theorem sign_xor {b : Format} {f : BinFmt} (F4 : FmtOK4 b f) {k : Nat} (hk : k ≤ f.inf) (neg : Bool) :
    negate_if b neg k = f.signed neg k := by
  unfold negate_if BinFmt.signed
  cases neg with
  | false => rfl
  | true =>
    have hlt : k < 2 ^ b.sign_index := by
      rw [F4.sign]
      refine lt_of_le_of_lt hk ?_
      unfold BinFmt.inf
      exact Nat.mul_lt_mul_of_pos_right (by omega) (by positivity)
    rw [if_pos rfl, if_pos rfl, Nat.shiftLeft_eq, one_mul, ← F4.sign]
    have h1 := Nat.two_pow_add_eq_or_of_lt hlt 1
    rw [Nat.mul_one] at h1
    rw [h1]
    apply Nat.eq_of_testBit_eq
    intro i
    rw [Nat.testBit_xor, Nat.testBit_or, Nat.testBit_two_pow]
    by_cases hi : b.sign_index = i
    · subst hi
      rw [Nat.testBit_lt_two_pow hlt]
      simp
    · simp [hi]

theorem sign_or {b : Format} {f : BinFmt} (F : FmtOK b f) (F4 : FmtOK4 b f) {am : adjusted_mantissa} (hk : pat f am ≤ f.inf) (neg : Bool) :
    to_float b neg am = f.signed neg (pat f am) := by
  unfold to_float
  rw [F.p]
  change pat f am ||| neg.toNat <<< b.sign_index = _
  unfold BinFmt.signed
  cases neg with
  | false => simp
  | true =>
    have hlt : pat f am < 2 ^ b.sign_index := by
      rw [F4.sign]
      refine lt_of_le_of_lt hk ?_
      unfold BinFmt.inf
      exact Nat.mul_lt_mul_of_pos_right (by omega) (by positivity)
    rw [if_pos rfl, Bool.toNat_true, Nat.shiftLeft_eq, one_mul, ← F4.sign]
    have h1 := Nat.two_pow_add_eq_or_of_lt hlt 1
    rw [Nat.mul_one] at h1
    rw [h1, Nat.or_comm]

/-- What Clinger's fast path returns, if it returns something. -/
theorem clinger_spec [Platform] {b : Format} {f : BinFmt} (F : FmtOK b f) (F4 : FmtOK4 b f) {mode : RoundMode} {u : Fpu} (I : Ieee f mode u)
    (pns : parsed_number_string) :
    clinger b u pns = .ok none ∨ (pns.too_many_digits = false ∧
      ∃ k, clinger b u pns = .ok (some (f.signed pns.negative k)) ∧ f.Nearest (pns.mantissa * 10 ^ pns.exponent) k ∧
        k < f.inf ∧ (k = 0 → pns.mantissa = 0)) := by
  obtain ⟨m, hm⟩ : ∃ m, m = pns.mantissa := ⟨_, rfl⟩
  obtain ⟨e, he⟩ : ∃ e, e = pns.exponent := ⟨_, rfl⟩
  unfold clinger
  rw [← hm, ← he]
  by_cases hc : b.min_exponent_fast ≤ e ∧ e ≤ b.max_exponent_fast_path ∧ (!pns.too_many_digits) = true
  swap
  · rw [if_neg hc]; exact .inl rfl
  rw [if_pos hc]
  obtain ⟨c1, c2, c3⟩ := hc
  replace c1 : -b.max_exponent_fast_path ≤ e := by
    have := F4.maxfast0
    unfold Format.min_exponent_fast at c1
    rw [F4.minfast] at c1
    split at c1 <;> omega
  have hinf0 : 0 < f.inf := by
    have := F.top
    unfold BinFmt.inf
    positivity
  -- a result of the correct value is neither 0 nor infinite
  have hfin : m ≤ 2 ^ (f.p + 1) → ∀ k, f.Nearest (m * 10 ^ e) k → k < f.inf ∧ (k = 0 → m = 0) := by
    intro hmle k hk
    rcases Nat.eq_zero_or_pos m with h0 | h0
    · rw [h0, Nat.cast_zero, zero_mul] at hk
      have := hk.unique f (by have := nearest_val f (k := 0) (Nat.zero_le _); rwa [val_zero] at this)
      exact ⟨by omega, fun _ => h0⟩
    · have hm1 : (1 : ℚ) ≤ m := by exact_mod_cast h0
      obtain ⟨i, hi⟩ : ∃ i : ℕ, (i : ℤ) = |e| := ⟨e.natAbs, Int.natCast_natAbs e⟩
      have hi' : (i : ℤ) ≤ b.max_exponent_fast_path := by rw [hi, abs_le]; exact ⟨c1, c2⟩
      have hs : (10 : ℚ) ^ i ≤ 2 ^ 100 := by exact_mod_cast (F4.small i hi').le
      have hlow : (2 : ℚ) ^ (-100 : ℤ) ≤ 10 ^ e := by
        have h1 : (10 : ℚ) ^ (-(i : ℤ)) ≤ 10 ^ e := zpow_le_zpow_right₀ (by norm_num) (by rw [hi]; exact neg_abs_le e)
        refine le_trans ?_ h1
        rw [zpow_neg, zpow_neg, zpow_natCast]
        rw [show (2 : ℚ) ^ (100 : ℤ) = 2 ^ 100 by norm_num]
        exact inv_anti₀ (by positivity) hs
      have hup : (m : ℚ) * 10 ^ e ≤ 2 ^ 127 := by
        have h1 : (10 : ℚ) ^ e ≤ 10 ^ (i : ℤ) := zpow_le_zpow_right₀ (by norm_num) (by rw [hi]; exact le_abs_self e)
        rw [zpow_natCast] at h1
        have h2 : (m : ℚ) ≤ 2 ^ (f.p + 1) := by exact_mod_cast hmle
        have h3 : (2 : ℚ) ^ (f.p + 1) * 10 ^ i ≤ 2 ^ 127 := by exact_mod_cast (F4.pow2 i hi').le
        exact (mul_le_mul h2 h1 (by positivity) (by positivity)).trans h3
      have := nearest_mid F F4 hk (by have : (0 : ℚ) < 10 ^ e := by positivity
                                      nlinarith) hup
      exact ⟨this.2, fun h => absurd h this.1⟩
  have hconv : m ≤ 2 ^ (f.p + 1) → (m ≠ 0 ∨ (Platform.clang = false ∧ Platform.bits32 = false) ∨ mode = .nearest) → u.ofU64 m < f.inf ∧ f.val (u.ofU64 m) = m := by
    intro hmle hz
    have hp53 : 2 ^ (f.p + 1) ≤ 2 ^ 53 := Nat.pow_le_pow_right (by norm_num) (by have := F.prec; omega)
    obtain ⟨k, k1, k2⟩ := representable F F4 (m := m) (s := 0) hmle (by omega)
    rw [pow_zero, Nat.mul_one] at k2
    have h1 := I.conv m hz
    rw [← k2] at h1
    have := computed_exact k1 h1
    rw [this]
    exact ⟨k1, k2⟩
  by_cases hr : rounds_to_nearest u = true
  · rw [if_pos hr]
    have hx : Platform.excess = false := by
      by_contra h
      rw [rounds_to_nearest, if_pos (by simpa using h)] at hr
      exact absurd hr (by simp)
    have hmd := (rounds_to_nearest_iff hx I).mp hr
    subst hmd
    have hmax : b.max_mantissa_fast_path = 2 ^ (f.p + 1) := by
      unfold Format.max_mantissa_fast_path
      rw [F.p, Nat.shiftLeft_eq, pow_succ, Nat.mul_comm]
    rw [hmax]
    by_cases hle : m ≤ 2 ^ (f.p + 1)
    swap
    · rw [if_neg hle]; exact .inl rfl
    rw [if_pos hle]
    right
    refine ⟨by simpa using c3, ?_⟩
    obtain ⟨v1, v2⟩ := hconv hle (.inr (.inr rfl))
    have key : ∀ k, f.Nearest (m * 10 ^ e) k →
        ∃ k', Res.ok (some (negate_if b pns.negative k)) = Res.ok (some (f.signed pns.negative k')) ∧ f.Nearest (m * 10 ^ e) k' ∧
          k' < f.inf ∧ (k' = 0 → m = 0) := by
      intro k hk
      exact ⟨k, by rw [sign_xor F4 hk.1], hk, hfin hle k hk⟩
    by_cases hneg : e < 0
    · obtain ⟨i, hi⟩ : ∃ i : ℕ, -e = i := ⟨(-e).toNat, by omega⟩
      obtain ⟨t, t1, t2, t3⟩ := exact_power_of_ten_eq F F4 (i := i) (by omega)
      rw [if_pos hneg, hi, t1]
      simp only [Res.bind_eq, Res.ok_bind, Res.pure_eq]
      apply key
      have ht0 : t ≠ 0 := by
        rintro rfl
        rw [val_zero] at t3
        have : (0 : ℚ) < 10 ^ i := by positivity
        linarith
      have := rounded_of_computed hx (I.div _ _ v1 t2 ht0)
      rw [v2, t3] at this
      rw [show e = -(i : ℤ) by omega, zpow_neg, zpow_natCast, ← div_eq_mul_inv]
      exact this
    · obtain ⟨i, hi⟩ : ∃ i : ℕ, e = i := ⟨e.toNat, by omega⟩
      obtain ⟨t, t1, t2, t3⟩ := exact_power_of_ten_eq F F4 (i := i) (by omega)
      rw [if_neg hneg, hi, t1]
      simp only [Res.bind_eq, Res.ok_bind, Res.pure_eq]
      rw [hi] at key
      apply key
      have := rounded_of_computed hx (I.mul _ _ v1 t2)
      rw [v2, t3] at this
      rw [zpow_natCast]
      exact this
  · rw [if_neg hr]
    by_cases hpos : e ≥ 0
    swap
    · rw [if_neg hpos]; exact .inl rfl
    rw [if_pos hpos]
    obtain ⟨i, hi⟩ : ∃ i : ℕ, e = i := ⟨e.toNat, by omega⟩
    have hi' : (i : ℤ) ≤ b.max_exponent_fast_path := by omega
    obtain ⟨M, hM, hM5⟩ : ∃ M, max_mantissa_fast_path_at b e = .ok M ∧ M ≤ 2 ^ (f.p + 1) / 5 ^ i := by
      unfold max_mantissa_fast_path_at
      rw [if_neg (by omega), hi, Int.toNat_natCast, (F4.maxm i hi').1]
      exact ⟨_, rfl, (F4.maxm i hi').2⟩
    rw [hM]
    simp only [Res.bind_eq, Res.ok_bind, Res.pure_eq]
    by_cases hle : m ≤ M
    swap
    · rw [if_neg hle]; exact .inl rfl
    rw [if_pos hle]
    right
    refine ⟨by simpa using c3, ?_⟩
    have hle5 : m * 5 ^ i ≤ 2 ^ (f.p + 1) := (Nat.le_div_iff_mul_le (by positivity)).mp (hle.trans hM5)
    have hle' : m ≤ 2 ^ (f.p + 1) := (hle.trans hM5).trans (Nat.div_le_self _ _)
    by_cases hz : (Platform.clang ∨ Platform.bits32) ∧ m = 0
    · rw [if_pos hz]
      refine ⟨0, ?_, ?_, hinf0, fun _ => hz.2⟩
      · rw [← sign_xor F4 (Nat.zero_le _)]
        unfold negate_if
        cases pns.negative <;> simp
      · rw [hz.2, Nat.cast_zero, zero_mul]
        have := nearest_val f (k := 0) (Nat.zero_le _)
        rwa [val_zero] at this
    · rw [if_neg hz]
      obtain ⟨t, t1, t2, t3⟩ := exact_power_of_ten_eq F F4 hi'
      rw [hi, t1]
      simp only [Res.ok_bind]
      have hz' : m ≠ 0 ∨ (Platform.clang = false ∧ Platform.bits32 = false) ∨ mode = .nearest := by
        by_cases h : m = 0
        · right; left
          cases hcl : Platform.clang with
          | true => exact absurd ⟨.inl hcl, h⟩ hz
          | false =>
            cases hb : Platform.bits32 with
            | true => exact absurd ⟨.inr hb, h⟩ hz
            | false => exact ⟨rfl, rfl⟩
        · exact .inl h
      obtain ⟨v1, v2⟩ := hconv hle' hz'
      have e10 : m * 10 ^ i = m * 5 ^ i * 2 ^ i := by rw [mul_assoc, ← Nat.mul_pow]
      obtain ⟨k, k1, k2⟩ := representable F F4 (m := m * 5 ^ i) (s := i) hle5 (by
        rw [← e10]
        have h1 : m * 10 ^ i ≤ 2 ^ (f.p + 1) * 10 ^ i := Nat.mul_le_mul_right _ hle'
        have h2 := F4.pow2 i hi'
        omega)
      rw [← e10] at k2
      have hmul := I.mul _ _ v1 t2
      rw [v2, t3, show (m : ℚ) * 10 ^ i = ((m * 10 ^ i : ℕ) : ℚ) by push_cast; rfl, ← k2] at hmul
      have hk := computed_exact k1 hmul
      rw [hk]
      have hn : f.Nearest (m * 10 ^ e) k := by
        rw [hi, zpow_natCast, show (m : ℚ) * 10 ^ i = ((m * 10 ^ i : ℕ) : ℚ) by push_cast; rfl, ← k2]
        exact nearest_val f k1.le
      refine ⟨k, by rw [sign_xor F4 k1.le], ?_, hfin hle' k hn⟩
      rw [← hi]
      exact hn

end Utki.FastFloat
