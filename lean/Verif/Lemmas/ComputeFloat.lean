import Verif.Lemmas.EiselLemire
/-!
# `compute_float` rounds correctly
-/
namespace Utki.FastFloat
open Spec Spec.BinFmt

/-- The sign-less pattern `to_float` stores. -/
def pat (f : BinFmt) (am : adjusted_mantissa) : Nat := am.mantissa ||| (am.power2.toNat <<< f.p)

theorem pat_of_lt {f : BinFmt} {m k : Nat} (h : m < 2 ^ f.p) : pat f ⟨m, k⟩ = k * 2 ^ f.p + m := by
  rw [pat, Nat.or_comm]
  simp only [Int.toNat_natCast]
  rw [← Nat.shiftLeft_add_eq_or_of_lt h, Nat.shiftLeft_eq]

theorem clear_hidden {p n : Nat} (hp : p + 3 = 55 ∨ p + 3 = 26) (h : n < 2 ^ (p + 1)) :
    n &&& ((2 ^ 64 - 1) ^^^ (1 <<< p)) = n % 2 ^ p := by
  have h1 : n &&& ((2 ^ 64 - 1) ^^^ (1 <<< p)) < 2 ^ (p + 1) := lt_of_le_of_lt Nat.and_le_left h
  rw [← Nat.mod_eq_of_lt h1, Nat.and_mod_two_pow, Nat.mod_eq_of_lt h, ← Nat.and_two_pow_sub_one_eq_mod]
  rcases hp with hp | hp
  · obtain rfl : p = 52 := by omega
    rw [show (2 ^ 64 - 1 ^^^ 1 <<< 52) &&& 2 ^ (52 + 1) - 1 = 2 ^ 52 - 1 by decide, Nat.and_two_pow_sub_one_eq_mod]
  · obtain rfl : p = 23 := by omega
    rw [show (2 ^ 64 - 1 ^^^ 1 <<< 23) &&& 2 ^ (23 + 1) - 1 = 2 ^ 23 - 1 by decide, Nat.and_two_pow_sub_one_eq_mod]

/-- Rounding in the normal range yields the pattern of the rounded number, or infinity if that is beyond the range. -/
theorem normal_pat {b : Format} {f : BinFmt} (F : FmtOK b f) {m k : Nat} (hm1 : 2 ^ (f.p + 1) ≤ m) (hm2 : m < 2 ^ (f.p + 2))
    {rdn : Bool} (hrd : rdn = true → m % 4 = 1) :
    let am := compute_float_normal b m ((k : ℤ) + 1) rdn
    am.mantissa < 2 ^ f.p ∧ 0 < am.power2 ∧ am.power2 ≤ f.top ∧
    pat f am = min (k * 2 ^ f.p + rne2 m rdn) f.inf := by
  intro am
  have hp := F.prec
  have hpp : 0 < 2 ^ f.p := by positivity
  have htop := F.top
  rw [pow_succ] at hm1
  rw [pow_add] at hm2
  have hn : am = (let n := rne2 m rdn
      let (mantissa, power2) :=
        if n ≥ 2 <<< b.mantissa_explicit_bits then (1 <<< b.mantissa_explicit_bits, (k : ℤ) + 1 + 1) else (n, (k : ℤ) + 1)
      let mantissa := mantissa &&& ((2 ^ 64 - 1) ^^^ (1 <<< b.mantissa_explicit_bits))
      if power2 ≥ b.infinite_power then ⟨0, b.infinite_power⟩ else ⟨mantissa, power2⟩) := by
    show compute_float_normal b m ((k : ℤ) + 1) rdn = _
    unfold compute_float_normal
    have e : ((if rdn = true then m - (m &&& 1) else m) + ((if rdn = true then m - (m &&& 1) else m) &&& 1)) >>> 1 = rne2 m rdn := by
      rw [Nat.shiftRight_eq_div_pow]
      simp only [Nat.and_one_is_mod]
      unfold rne2
      cases rdn with
      | true => have := hrd rfl; simp [this]; omega
      | false => simp; omega
    simp only [e]
  rw [hn]
  have hr := rne2_bounds m rdn
  have hr1 : 2 ^ f.p ≤ rne2 m rdn := by omega
  have hr2 : rne2 m rdn ≤ 2 ^ f.p * 2 := by omega
  rw [F.p]
  simp only [Nat.shiftLeft_eq, one_mul, F.inf]
  have hc : ∀ n, n < 2 ^ (f.p + 1) → n &&& ((2 ^ 64 - 1) ^^^ 2 ^ f.p) = n % 2 ^ f.p := by
    intro n h; have := clear_hidden hp h; rwa [Nat.shiftLeft_eq, one_mul] at this
  have hinf : f.inf = f.top * 2 ^ f.p := rfl
  split
  · rename_i hge
    have hre : rne2 m rdn = 2 ^ f.p * 2 := by omega
    rw [hc _ (by rw [pow_succ]; omega), Nat.mod_self]
    split
    · rename_i h3
      refine ⟨hpp, by dsimp only; omega, by dsimp only; omega, ?_⟩
      rw [pat_of_lt hpp, hinf, Nat.min_eq_right]
      · omega
      · rw [hre]
        have : f.top ≤ k + 2 := by omega
        calc f.top * 2 ^ f.p ≤ (k + 2) * 2 ^ f.p := Nat.mul_le_mul_right _ this
          _ = k * 2 ^ f.p + 2 ^ f.p * 2 := by ring
    · rename_i h3
      refine ⟨hpp, by dsimp only; omega, by dsimp only; omega, ?_⟩
      rw [show (k : ℤ) + 1 + 1 = ((k + 2 : ℕ) : ℤ) by push_cast; ring, pat_of_lt hpp, hinf, hre, Nat.min_eq_left]
      · ring
      · have : k + 2 ≤ f.top := by omega
        calc k * 2 ^ f.p + 2 ^ f.p * 2 = (k + 2) * 2 ^ f.p := by ring
          _ ≤ _ := Nat.mul_le_mul_right _ this
  · rename_i hlt
    obtain ⟨r, hr3⟩ : ∃ r, rne2 m rdn = 2 ^ f.p + r := ⟨rne2 m rdn - 2 ^ f.p, by omega⟩
    have hr4 : r < 2 ^ f.p := by omega
    rw [hc _ (by rw [pow_succ]; omega), hr3, Nat.add_mod_left, Nat.mod_eq_of_lt hr4]
    split
    · rename_i h3
      refine ⟨hpp, by dsimp only; omega, by dsimp only; omega, ?_⟩
      rw [pat_of_lt hpp, hinf, Nat.min_eq_right]
      · omega
      · have : f.top ≤ k + 1 := by omega
        calc f.top * 2 ^ f.p ≤ (k + 1) * 2 ^ f.p := Nat.mul_le_mul_right _ this
          _ ≤ k * 2 ^ f.p + (2 ^ f.p + r) := by rw [Nat.add_mul]; omega
    · rename_i h3
      refine ⟨hr4, by dsimp only; omega, by dsimp only; omega, ?_⟩
      rw [show (k : ℤ) + 1 = ((k + 1 : ℕ) : ℤ) by push_cast; ring, pat_of_lt hr4, hinf, Nat.min_eq_left]
      · ring
      · have : k + 2 ≤ f.top := by omega
        calc k * 2 ^ f.p + (2 ^ f.p + r) ≤ (k + 2) * 2 ^ f.p := by rw [Nat.add_mul]; omega
          _ ≤ _ := Nat.mul_le_mul_right _ this

/-- Rounding below the normal range. -/
theorem subnormal_pat {b : Format} {f : BinFmt} (F : FmtOK b f) {m k : Nat} (hm2 : m < 2 ^ (f.p + 2)) :
    let am := compute_float_subnormal b m (-(k : ℤ))
    am.mantissa ≤ 2 ^ f.p ∧ (am.mantissa < 2 ^ f.p ∨ am.power2 = 1) ∧ 0 ≤ am.power2 ∧ am.power2 ≤ 1 ∧
    pat f am = rne2 (m / 2 ^ (k + 1)) false := by
  have hp := F.prec
  have hpp : 0 < 2 ^ f.p := by positivity
  have h22 : 2 ^ (f.p + 2) = 2 ^ f.p * 4 := by ring
  have hd : m / 2 ^ (k + 1) < 2 ^ f.p * 2 := by
    rw [pow_succ, Nat.mul_comm, ← Nat.div_div_eq_div_mul]
    have : m / 2 / 2 ^ k ≤ m / 2 := Nat.div_le_self _ _
    omega
  simp only [compute_float_subnormal, F.p, neg_neg]
  by_cases hk : (k : ℤ) + 1 ≥ 64
  · rw [if_pos hk]
    have : m / 2 ^ (k + 1) = 0 := by
      apply Nat.div_eq_of_lt
      calc m < 2 ^ (f.p + 2) := hm2
        _ ≤ 2 ^ (k + 1) := Nat.pow_le_pow_right (by norm_num) (by omega)
    refine ⟨by positivity, .inl hpp, by simp, by simp, ?_⟩
    rw [this]; simp [pat, rne2]
  · rw [if_neg hk]
    rw [show ((k : ℤ) + 1).toNat = k + 1 by omega]
    simp only [Nat.shiftRight_eq_div_pow, Nat.shiftLeft_eq, one_mul, Nat.and_one_is_mod]
    generalize m / 2 ^ (k + 1) = n at hd
    have e : rne2 n false = (n + n % 2) / 2 ^ 1 := by simp [rne2]; omega
    rw [← e]
    have hr := rne2_bounds n false
    split
    · rename_i hlt
      refine ⟨hlt.le, .inl hlt, by simp, by simp, ?_⟩
      have := pat_of_lt (f := f) (k := 0) hlt
      simpa using this
    · rename_i hge
      have : rne2 n false = 2 ^ f.p := by omega
      refine ⟨by omega, .inr rfl, by simp, by simp, ?_⟩
      rw [this]
      simp [pat, Nat.shiftLeft_eq]

/-- No exact result of the subnormal range lies half-way between two numbers of the format. -/
theorem no_tie_below [Platform] {b : Format} {f : BinFmt} (F : FmtOK b f) {q : Int} {w lz w' hi lo : Nat} {pr : value128}
    (L : Lead f q w lz w' hi lo pr) {ub k : Nat} (hpow : power q + ub - lz + f.bias ≤ 0) {m : Nat} (hodd : m % 2 = 1) :
    (w' * tpow q : ℚ) ≠ m * 2 ^ k := by
  intro h
  have hd := exact_dvd hodd h
  have hlz := L.lz_le
  have hb := F.bias
  have hq : q < -27 := by
    by_contra hc
    simp only [power, Int.shiftRight_eq_div_pow] at hpow
    norm_num at hpow
    omega
  have h1 := Nat.le_of_dvd (by have := L.w'_ge; omega) (hd.2 (by omega))
  have h2 : 5 ^ 28 ≤ 5 ^ (-q).toNat := Nat.pow_le_pow_right (by norm_num) (by omega)
  have h3 : 5 ^ (-q).toNat ≤ m * 5 ^ (-q).toNat := Nat.le_mul_of_pos_left _ (by omega)
  have := L.w'_lt
  have : (2 : ℕ) ^ 64 < 5 ^ 28 := by norm_num
  omega

/-- `compute_float(q, w)` returns the double (float) nearest to `w * 10^q`; the implicit bit is left in only where a subnormal
number is rounded up to the first normal one. -/
theorem compute_float_shape [Platform] {b : Format} {f : BinFmt} (F : FmtOK b f) (q : Int) {w : Nat} (hw : w < 2 ^ 64) :
    ∃ am, compute_float b q w = .ok am ∧ am.mantissa ≤ 2 ^ f.p ∧ (am.mantissa < 2 ^ f.p ∨ am.power2 = 1) ∧ 0 ≤ am.power2 ∧ am.power2 ≤ f.top ∧
      f.Nearest (w * 10 ^ q) (pat f am) := by
  have hp := F.prec
  have htop := F.top
  have hpp : 0 < 2 ^ f.p := by positivity
  unfold compute_float
  by_cases h0 : w = 0 ∨ q < b.smallest_power_of_ten
  · rw [if_pos h0]
    refine ⟨_, rfl, by positivity, .inl hpp, le_rfl, by simp, ?_⟩
    have : pat f ⟨0, 0⟩ = 0 := by simp [pat]
    rw [this]
    apply nearest_lower f (Nat.zero_le _)
    · rw [val_zero]; positivity
    all_goals
      have v1 : f.val 1 = 2 ^ (1 - f.bias - f.p : ℤ) := by
        have := val_cell f 0 1 (.inr rfl) (by rw [pow_succ]; omega)
        simpa using this
      have hx : (w : ℚ) * 10 ^ q * 2 < 2 ^ (1 - f.bias - f.p : ℤ) := by
        rcases h0 with h0 | h0
        · rw [h0]; simp; positivity
        · refine lt_of_le_of_lt ?_ F.zero
          have a1 : (w : ℚ) ≤ 2 ^ 64 := by exact_mod_cast hw.le
          have a2 : (10 : ℚ) ^ q ≤ 10 ^ (b.smallest_power_of_ten - 1) := zpow_le_zpow_right₀ (by norm_num) (by omega)
          have := mul_le_mul a1 a2 (by positivity) (by positivity)
          linarith
      have hx0 : 0 ≤ (w : ℚ) * 10 ^ q := by positivity
    · rw [Nat.zero_add, v1]; linarith
    · rw [Nat.zero_add, v1, val_zero]; left; linarith
  rw [if_neg h0]
  push Not at h0
  by_cases h1 : q > b.largest_power_of_ten
  · rw [if_pos h1, F.inf]
    refine ⟨_, rfl, by positivity, .inl hpp, by simp, by simp, ?_⟩
    have : pat f ⟨0, f.top⟩ = f.inf := by rw [pat_of_lt hpp]; simp [BinFmt.inf]
    rw [this]
    apply nearest_inf
    have vi : f.val f.inf = 2 ^ (f.top - f.bias : ℤ) := by
      have := val_cell f (f.top - 1) (2 ^ f.p) (.inl le_rfl) (by rw [pow_succ]; omega)
      rw [show (f.top - 1) * 2 ^ f.p + 2 ^ f.p = f.inf by
        unfold BinFmt.inf
        obtain ⟨t, ht⟩ : ∃ t, f.top = t + 1 := ⟨f.top - 1, by omega⟩
        rw [ht, Nat.add_sub_cancel]; ring] at this
      rw [this]
      push_cast
      rw [← zpow_natCast, ← zpow_add₀ (by norm_num)]
      congr 1
      omega
    rw [vi]
    refine F.infb.trans ?_
    have a1 : (1 : ℚ) ≤ w := by exact_mod_cast Nat.one_le_iff_ne_zero.mpr h0.1
    have a2 : (10 : ℚ) ^ (b.largest_power_of_ten + 1) ≤ 10 ^ q := zpow_le_zpow_right₀ (by norm_num) (by omega)
    have a3 : (0 : ℚ) ≤ 10 ^ q := by positivity
    nlinarith
  rw [if_neg h1]
  obtain ⟨lz, w', hi, lo, pr, L⟩ := leading F h0.2 (by omega) h0.1 hw
  simp only [L.hlz, Res.bind_eq, Res.ok_bind, L.hshl, F.p, L.prod, F.min]
  obtain ⟨ub, hub⟩ : ∃ ub, ub = pr.high >>> 63 := ⟨_, rfl⟩
  obtain ⟨shift, hshift⟩ : ∃ s, s = ub + 64 - f.p - 3 := ⟨_, rfl⟩
  obtain ⟨m, hm⟩ : ∃ m, m = pr.high >>> shift := ⟨_, rfl⟩
  obtain ⟨g1, g2, g3, g4, g5, g6⟩ := lead_mant hp L hub hshift hm
  rw [← hub, ← hshift, ← hm]
  have hval := lead_value L
  -- in units of the last bit of the mantissa
  obtain ⟨y, hy⟩ : ∃ y : ℚ, w' * tpow q = y * 2 ^ (128 + shift) := ⟨w' * tpow q / 2 ^ (128 + shift), by field_simp⟩
  have hupos : (0 : ℚ) < 2 ^ (128 + shift) := by positivity
  have hy1 : (m : ℚ) ≤ y := by rw [hy] at g5; exact le_of_mul_le_mul_right g5 hupos
  have hy2 : y < m + 1 := by rw [hy] at g6; exact lt_of_mul_lt_mul_right g6 hupos.le
  have hx : (w : ℚ) * 10 ^ q = y * 2 ^ (power q + ub - lz + f.bias - 1 - f.bias - f.p : ℤ) := by
    rw [hval, hy, mul_assoc, ← zpow_natCast, ← zpow_add₀ (by norm_num)]
    congr 2
    push_cast
    omega
  rw [sub_neg_eq_add]
  obtain ⟨P, hP⟩ : ∃ P : ℤ, P = power q + ub - lz + f.bias := ⟨_, rfl⟩
  rw [← hP] at hx ⊢
  by_cases hneg : P ≤ 0
  · rw [if_pos hneg]
    obtain ⟨k, hk⟩ : ∃ k : ℕ, P = -(k : ℤ) := ⟨(-P).toNat, by omega⟩
    rw [hk]
    obtain ⟨s1, s0, s2, s3, s4⟩ := subnormal_pat F (m := m) (k := k) g4
    refine ⟨_, rfl, s1, s0, s2, by omega, ?_⟩
    rw [s4]
    have hk2 : (0 : ℚ) < 2 ^ (k + 1) := by positivity
    have := nearest_cell f (by omega) (e := 0) (m := m / 2 ^ (k + 1)) (z := y / 2 ^ (k + 1) / 2) (x := w * 10 ^ q) (tie := false)
      ?_ ?_ ?_ (.inr rfl) ?_ ?_ ?_
    · simpa using this
    · rw [hx, hk]
      rw [div_div, div_mul_eq_mul_div, eq_div_iff (by positivity)]
      rw [mul_assoc, ← pow_succ, ← zpow_natCast, ← zpow_add₀ (by norm_num)]
      congr 2
      push_cast
      omega
    · rw [mul_div_cancel₀ _ (by norm_num), le_div_iff₀ hk2]
      have : m / 2 ^ (k + 1) * 2 ^ (k + 1) ≤ m := Nat.div_mul_le_self _ _
      have : ((m / 2 ^ (k + 1) : ℕ) * 2 ^ (k + 1) : ℚ) ≤ m := by exact_mod_cast this
      linarith
    · rw [mul_div_cancel₀ _ (by norm_num), div_lt_iff₀ hk2]
      have : m < 2 ^ (k + 1) * (m / 2 ^ (k + 1) + 1) := Nat.lt_mul_div_succ _ (by positivity)
      have : m + 1 ≤ (m / 2 ^ (k + 1) + 1) * 2 ^ (k + 1) := by rw [Nat.mul_comm]; omega
      have : (m + 1 : ℚ) ≤ ((m / 2 ^ (k + 1) : ℕ) + 1) * 2 ^ (k + 1) := by exact_mod_cast this
      linarith
    · have h6 : 2 ^ (f.p + 2) = 2 ^ f.p * 4 := by ring
      have : m / 2 ^ (k + 1) ≤ m / 2 := by
        rw [pow_succ, Nat.mul_comm, ← Nat.div_div_eq_div_mul]; exact Nat.div_le_self _ _
      have : 2 ^ (f.p + 1) = 2 ^ f.p * 2 := pow_succ _ _
      omega
    · intro hodd
      simp only [Bool.false_eq_true, false_iff]
      rw [mul_div_cancel₀ _ (by norm_num), div_eq_iff hk2.ne']
      intro hyeq
      refine no_tie_below F L (ub := ub) (k := k + 1 + (128 + shift)) (m := m / 2 ^ (k + 1)) (by omega) (by omega) ?_
      rw [hy, hyeq, mul_assoc, ← pow_add]
    · have h5 := rne2_bounds (m / 2 ^ (k + 1)) false
      have : m / 2 ^ (k + 1) ≤ m / 2 := by
        rw [pow_succ, Nat.mul_comm, ← Nat.div_div_eq_div_mul]; exact Nat.div_le_self _ _
      have h6 : 2 ^ (f.p + 2) = 2 ^ f.p * 4 := by ring
      have h7 : m / 2 ^ (k + 1) < 2 ^ f.p * 2 := by omega
      have : 2 * 2 ^ f.p ≤ f.inf := Nat.mul_le_mul_right _ htop
      omega
  · rw [if_neg hneg]
    obtain ⟨k, hk⟩ : ∃ k : ℕ, P = (k : ℤ) + 1 := ⟨(P - 1).toNat, by omega⟩
    rw [hk]
    obtain ⟨tie, htie⟩ : ∃ t, t = decide (pr.low ≤ 1 ∧ q ≥ b.min_exponent_round_to_even ∧ q ≤ b.max_exponent_round_to_even ∧
        m &&& 3 = 1 ∧ m <<< shift % 2 ^ 64 = pr.high) := ⟨_, rfl⟩
    rw [← htie]
    have hand : m &&& 3 = m % 4 := Nat.and_two_pow_sub_one_eq_mod m 2
    have hsh : m <<< shift % 2 ^ 64 = m * 2 ^ shift := by
      rw [Nat.shiftLeft_eq, Nat.mod_eq_of_lt]
      rw [hm, Nat.shiftRight_eq_div_pow]
      exact lt_of_le_of_lt (Nat.div_mul_le_self _ _) L.high_lt
    rw [hand, hsh] at htie
    have htie1 : tie = true → m % 4 = 1 := by
      rw [htie, decide_eq_true_eq]; exact fun h => h.2.2.2.1
    obtain ⟨s1, s2, s3, s4⟩ := normal_pat F (m := m) (k := k) g3 g4 htie1
    refine ⟨_, rfl, s1.le, .inl s1, s2.le, s3, ?_⟩
    rw [s4]
    have hxk : (w : ℚ) * 10 ^ q = y / 2 * 2 ^ ((k : ℤ) + 1 - f.bias - f.p) := by
      rw [hx, hk, div_mul_eq_mul_div, eq_div_iff (by norm_num), mul_assoc]
      congr 1
      rw [show ((k : ℤ) + 1 - f.bias - f.p) = ((k : ℤ) + 1 - 1 - f.bias - f.p) + 1 by ring, zpow_add₀ (by norm_num), zpow_one]
    by_cases hover : k * 2 ^ f.p + rne2 m tie ≤ f.inf
    · rw [Nat.min_eq_left hover]
      refine nearest_cell f (by omega) hxk ?_ ?_ ?_ ?_ ?_ hover
      · linarith
      · linarith
      · left; rw [pow_succ] at g3; omega
      · rw [pow_succ]; rw [pow_add] at g4; omega
      · intro h4
        have := tie_iff F L.entry (by have := L.w'_ge; omega) L.w'_lt L.low_lt L.cases g2 (show m % 2 = 1 by omega) g3 g4
        rw [htie, decide_eq_true_eq]
        have e1 : (2 * (y / 2) = m) ↔ (w' * tpow q : ℚ) = m * 2 ^ (128 + shift) := by
          rw [hy]
          constructor
          · intro h; rw [show y = m by linarith]
          · intro h; have := mul_right_cancel₀ hupos.ne' h; linarith
        rw [e1, ← this]
        constructor
        · rintro ⟨a, b, c, d, e⟩; exact ⟨a, b, c, e⟩
        · rintro ⟨a, b, c, e⟩; exact ⟨a, b, c, h4, e⟩
    · rw [Nat.min_eq_right (by omega)]
      apply nearest_inf
      -- the exponent alone is already too large
      have hr := rne2_bounds m tie
      have hkt : f.top ≤ k + 1 := by
        by_contra hc
        apply hover
        have : k + 2 ≤ f.top := by omega
        have h6 : 2 ^ (f.p + 2) = 2 ^ f.p * 4 := by ring
        calc k * 2 ^ f.p + rne2 m tie ≤ k * 2 ^ f.p + 2 ^ f.p * 2 := by omega
          _ = (k + 2) * 2 ^ f.p := by ring
          _ ≤ f.inf := Nat.mul_le_mul_right _ this
      have hle : f.inf ≤ k * 2 ^ f.p + 2 ^ f.p := by
        calc f.inf ≤ (k + 1) * 2 ^ f.p := Nat.mul_le_mul_right _ hkt
          _ = _ := by ring
      refine (val_le f hle).trans ?_
      rw [val_cell f k (2 ^ f.p) (.inl le_rfl) (by rw [pow_succ]; omega), hxk]
      apply mul_le_mul_of_nonneg_right _ (by positivity)
      have : (2 ^ (f.p + 1) : ℚ) ≤ m := by exact_mod_cast g3
      rw [pow_succ] at this
      push_cast
      linarith

/-- `compute_float(q, w)` returns the double (float) nearest to `w * 10^q`. -/
theorem compute_float_nearest [Platform] {b : Format} {f : BinFmt} (F : FmtOK b f) (q : Int) {w : Nat} (hw : w < 2 ^ 64) :
    ∃ am, compute_float b q w = .ok am ∧ am.mantissa ≤ 2 ^ f.p ∧ 0 ≤ am.power2 ∧ am.power2 ≤ f.top ∧
      f.Nearest (w * 10 ^ q) (pat f am) := by
  obtain ⟨am, h1, h2, _, h3⟩ := compute_float_shape F q hw
  exact ⟨am, h1, h2, h3⟩

end Utki.FastFloat
