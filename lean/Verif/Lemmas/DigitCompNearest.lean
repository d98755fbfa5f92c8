import Verif.Lemmas.DigitComp
/-!
# Numbers with more than 19 digits are rounded to nearest

Helper lemmas that put the pieces of `digit_comp` together.
-/
namespace Utki.FastFloat

open Utki Utki.Spec Utki.Spec.BinFmt

/-- What the exact comparison needs to know about a format. -/
structure FmtOK3 [Platform] (b : Format) (f : BinFmt) : Prop where
  bias3 : f.bias ≤ 3000
  max0 : 0 < b.max_digits
  cap : 4 * 10 ^ (b.max_digits + 1) < base ^ bigint_limbs
  far : b.largest_power_of_ten + 19 < b.max_digits
  half : 2 ^ (f.p + 2) * 5 ^ (f.p + f.bias) ≤ 10 ^ b.max_digits
  capA : 10 * 2 ^ (f.p + 2) * 5 ^ ((b.max_digits : ℤ) - 18 - b.smallest_power_of_ten).toNat < base ^ bigint_limbs

set_option exponentiation.threshold 5000 in
theorem fmtDouble_ok3 [Platform] : FmtOK3 fmtDouble binary64 where
  bias3 := by decide
  max0 := by decide
  cap := lt_of_lt_of_le (by decide +kernel) base_capacity
  far := by decide
  half := by decide +kernel
  capA := lt_of_lt_of_le (by decide +kernel) base_capacity

set_option exponentiation.threshold 5000 in
theorem fmtFloat_ok3 [Platform] : FmtOK3 fmtFloat binary32 where
  bias3 := by decide
  max0 := by decide
  cap := lt_of_lt_of_le (by decide +kernel) base_capacity
  far := by decide
  half := by decide +kernel
  capA := lt_of_lt_of_le (by decide +kernel) base_capacity

/-- The first digits of a number. -/
theorem take_bounds {S : List Byte} (hS : AllDigits S) (hlow : 10 ^ (S.length - 1) ≤ decVal S) {k : Nat} (hk : 1 ≤ k) (hk' : k ≤ S.length) :
    decVal S = decVal (S.take k) * 10 ^ (S.length - k) + decVal (S.drop k) ∧ decVal (S.drop k) < 10 ^ (S.length - k) ∧
      10 ^ (k - 1) ≤ decVal (S.take k) ∧ decVal (S.take k) < 10 ^ k := by
  have e : decVal S = decVal (S.take k) * 10 ^ (S.length - k) + decVal (S.drop k) := by
    conv_lhs => rw [← List.take_append_drop k S]
    rw [decVal_append, List.length_drop]
  have h1 : decVal (S.drop k) < 10 ^ (S.length - k) := by
    have := decVal_lt (l := S.drop k) (fun c hc => hS c (List.mem_of_mem_drop hc))
    rwa [List.length_drop] at this
  have h2 : decVal (S.take k) < 10 ^ k := by
    have := decVal_lt (l := S.take k) (fun c hc => hS c (List.mem_of_mem_take hc))
    rwa [List.length_take, Nat.min_eq_left hk'] at this
  refine ⟨e, h1, ?_, h2⟩
  have h3 : 10 ^ (k - 1) * 10 ^ (S.length - k) < (decVal (S.take k) + 1) * 10 ^ (S.length - k) := by
    rw [← pow_add, show k - 1 + (S.length - k) = S.length - 1 by omega, Nat.add_mul, Nat.one_mul]
    omega
  have := Nat.lt_of_mul_lt_mul_right h3
  omega

/-- The digits that are kept. -/
theorem mantOf_bounds {S : List Byte} (hS : AllDigits S) (hlow : 10 ^ (S.length - 1) ≤ decVal S) {max : Nat} (hmax : 0 < max) :
    (mantOf max S).2 ≤ max + 1 ∧ 0 < (mantOf max S).1 ∧ (mantOf max S).1 < 10 ^ (mantOf max S).2 := by
  unfold mantOf
  split
  · exact ⟨by dsimp only; omega, by have : 0 < 10 ^ (S.length - 1) := by positivity
                                    dsimp only; omega, decVal_lt hS⟩
  · rename_i hgt
    obtain ⟨-, -, h3, h4⟩ := take_bounds hS hlow (show 1 ≤ max by omega) (by omega)
    have h5 : 0 < 10 ^ (max - 1) := by positivity
    split
    · refine ⟨le_rfl, by dsimp only; omega, ?_⟩
      dsimp only
      rw [pow_succ]
      omega
    · exact ⟨by dsimp only; omega, by dsimp only; omega, h4⟩

/-- Cutting the digits does not change how a number compares with a number half-way between two numbers of the format. -/
theorem mantOf_compare [Platform] {b : Format} {f : BinFmt} (F3 : FmtOK3 b f) {S : List Byte} (hS : AllDigits S) (hlow : 10 ^ (S.length - 1) ≤ decVal S)
    {E : Int} (hE : b.max_digits < S.length → E + S.length - b.max_digits < 0) {H : Nat} (hH : H < 2 ^ (f.p + 2)) {te : Int}
    (hte : -((f.p : ℤ) + f.bias) ≤ te) :
    let x : ℚ := decVal S * 10 ^ E
    let y : ℚ := (mantOf b.max_digits S).1 * 10 ^ (E + S.length - (mantOf b.max_digits S).2)
    let h : ℚ := H * 2 ^ te
    (h < x ↔ h < y) ∧ (x < h ↔ y < h) := by
  intro x y h
  have hmax := F3.max0
  by_cases hle : S.length ≤ b.max_digits
  · have : y = x := by
      simp only [x, y, mantOf, if_pos hle]
      rw [add_sub_cancel_right]
    rw [this]
    exact ⟨Iff.rfl, Iff.rfl⟩
  obtain ⟨t1, t2, t3, t4⟩ := take_bounds hS hlow (show 1 ≤ b.max_digits by omega) (by omega)
  obtain ⟨t, ht⟩ : ∃ t, t = decVal (S.take b.max_digits) := ⟨_, rfl⟩
  obtain ⟨ρ, hρ⟩ : ∃ ρ, ρ = decVal (S.drop b.max_digits) := ⟨_, rfl⟩
  rw [← ht, ← hρ] at t1
  rw [← hρ] at t2
  rw [← ht] at t3 t4
  obtain ⟨e0, he0⟩ : ∃ e0 : ℤ, e0 = E + S.length - b.max_digits := ⟨_, rfl⟩
  have he0n := hE (by omega)
  rw [← he0] at he0n
  have h10 : (0 : ℚ) < 10 ^ e0 := by positivity
  have h10E : (0 : ℚ) < 10 ^ E := by positivity
  have hpow : (10 : ℚ) ^ (S.length - b.max_digits) * 10 ^ E = 10 ^ e0 := by
    rw [← zpow_natCast, ← zpow_add₀ (by norm_num)]
    congr 1
    omega
  have hx : x = t * 10 ^ e0 + ρ * 10 ^ E := by
    simp only [x]
    rw [t1]
    push_cast
    linear_combination (t : ℚ) * hpow
  by_cases hcut : sig (S.drop b.max_digits) = []
  · have hρ0 : ρ = 0 := by rw [hρ]; exact sig_zero hcut
    have : y = x := by
      rw [hx, hρ0]
      simp only [y, mantOf, if_neg hle, hcut, ne_eq, not_true, if_false]
      rw [← ht, ← he0]
      push_cast; ring
    rw [this]
    exact ⟨Iff.rfl, Iff.rfl⟩
  have hρ0 : 0 < ρ := by
    rw [hρ]
    have := (sig_bounds (fun c hc => hS c (List.mem_of_mem_drop hc)) hcut).1
    have h5 : 0 < 10 ^ ((sig (S.drop b.max_digits)).length - 1) := by positivity
    omega
  have hy : y = (t + 1 / 10) * 10 ^ e0 := by
    simp only [y, mantOf, if_neg hle, hcut, ne_eq, not_false_iff, if_true]
    rw [← ht, show E + (S.length : ℤ) - ((b.max_digits + 1 : ℕ) : ℤ) = e0 + (-1) by push_cast; omega, zpow_add₀ (by norm_num)]
    push_cast
    rw [zpow_neg, zpow_one]
    ring
  have hx1 : t * 10 ^ e0 < x := by
    rw [hx]
    have : (0 : ℚ) < ρ * 10 ^ E := by positivity
    linarith
  have hx2 : x < (t + 1) * 10 ^ e0 := by
    rw [hx, ← hpow]
    have : (ρ : ℚ) < 10 ^ (S.length - b.max_digits) := by exact_mod_cast t2
    have := mul_lt_mul_of_pos_right this h10E
    rw [hpow] at this ⊢
    linarith
  have hy1 : t * 10 ^ e0 < y := by rw [hy]; nlinarith
  have hy2 : y < (t + 1) * 10 ^ e0 := by rw [hy]; nlinarith
  -- the half-way point does not lie strictly between
  have hh : h ≤ t * 10 ^ e0 ∨ (t + 1) * 10 ^ e0 ≤ h := by
    by_contra hc
    push Not at hc
    obtain ⟨c1, c2⟩ := hc
    have hten : (10 : ℚ) ^ e0 * 10 ^ (-e0).toNat = 1 := by
      rw [← zpow_natCast, ← zpow_add₀ (by norm_num), show e0 + ((-e0).toNat : ℤ) = 0 by omega, zpow_zero]
    have hpos : (0 : ℚ) < 10 ^ (-e0).toNat := by positivity
    rcases le_or_gt e0 te with hte0 | hte0
    · -- a whole multiple of the unit
      have hint : h * 10 ^ (-e0).toNat = ((H * 2 ^ (te - e0).toNat * 5 ^ (-e0).toNat : ℕ) : ℚ) := by
        simp only [h]
        have h25 : (10 : ℚ) ^ (-e0).toNat = 2 ^ (-e0).toNat * 5 ^ (-e0).toNat := by rw [← mul_pow]; norm_num
        have h2 : (2 : ℚ) ^ te * 2 ^ (-e0).toNat = 2 ^ (te - e0).toNat := by
          rw [← zpow_natCast, ← zpow_natCast, ← zpow_add₀ (by norm_num)]
          congr 1
          omega
        push_cast
        rw [h25]
        linear_combination (H : ℚ) * 5 ^ (-e0).toNat * h2
      have d1 := mul_lt_mul_of_pos_right c1 hpos
      have d2 := mul_lt_mul_of_pos_right c2 hpos
      rw [hint, mul_assoc (t : ℚ), hten, mul_one] at d1
      rw [hint, mul_assoc ((t : ℚ) + 1), hten, mul_one] at d2
      have d1' : t < H * 2 ^ (te - e0).toNat * 5 ^ (-e0).toNat := by exact_mod_cast d1
      have d2' : H * 2 ^ (te - e0).toNat * 5 ^ (-e0).toNat < t + 1 := by exact_mod_cast d2
      omega
    · -- too few bits
      have g1 : (10 : ℚ) ^ (b.max_digits - 1) ≤ t := by exact_mod_cast t3
      have g2 : (10 : ℚ) ^ (te + 1) ≤ 10 ^ e0 := zpow_le_zpow_right₀ (by norm_num) (by omega)
      have g3 : (10 : ℚ) ^ (b.max_digits - 1) * 10 ^ (te + 1) ≤ t * 10 ^ e0 := mul_le_mul g1 g2 (by positivity) (by positivity)
      have g4 : (10 : ℚ) ^ (b.max_digits - 1) * 10 ^ (te + 1) = 10 ^ b.max_digits * (2 ^ te * 5 ^ te) := by
        rw [← mul_zpow, show (2 : ℚ) * 5 = 10 by norm_num, zpow_add₀ (by norm_num), zpow_one]
        have : (10 : ℚ) ^ b.max_digits = 10 ^ (b.max_digits - 1) * 10 := by
          rw [← pow_succ]; congr 1; omega
        rw [this]; ring
      have g5 : (H : ℚ) < 2 ^ (f.p + 2) := by exact_mod_cast hH
      have h2te : (0 : ℚ) < 2 ^ te := by positivity
      have g6 : (10 : ℚ) ^ b.max_digits * 5 ^ te < 2 ^ (f.p + 2) := by
        have : (10 : ℚ) ^ b.max_digits * 5 ^ te * 2 ^ te < 2 ^ (f.p + 2) * 2 ^ te := by
          calc (10 : ℚ) ^ b.max_digits * 5 ^ te * 2 ^ te = 10 ^ b.max_digits * (2 ^ te * 5 ^ te) := by ring
            _ ≤ t * 10 ^ e0 := by rw [← g4]; exact g3
            _ < h := c1
            _ < _ := mul_lt_mul_of_pos_right g5 h2te
        exact lt_of_mul_lt_mul_right this h2te.le
      have h5te : (5 : ℚ) ^ te * 5 ^ (-te).toNat = 1 := by
        rw [← zpow_natCast, ← zpow_add₀ (by norm_num), show te + ((-te).toNat : ℤ) = 0 by omega, zpow_zero]
      have g7 : (10 : ℚ) ^ b.max_digits < 2 ^ (f.p + 2) * 5 ^ (-te).toNat := by
        have := mul_lt_mul_of_pos_right g6 (show (0 : ℚ) < 5 ^ (-te).toNat by positivity)
        rwa [mul_assoc, h5te, mul_one] at this
      have g8 : 10 ^ b.max_digits < 2 ^ (f.p + 2) * 5 ^ (-te).toNat := by exact_mod_cast g7
      have g9 : 2 ^ (f.p + 2) * 5 ^ (-te).toNat ≤ 2 ^ (f.p + 2) * 5 ^ (f.p + f.bias) :=
        Nat.mul_le_mul_left _ (Nat.pow_le_pow_right (by norm_num) (by omega))
      exact absurd F3.half (not_le.mpr (lt_of_lt_of_le g8 g9))
  rcases hh with hh | hh
  · exact ⟨⟨fun _ => by linarith, fun _ => by linarith⟩, ⟨fun _ => by linarith, fun _ => by linarith⟩⟩
  · exact ⟨⟨fun _ => by linarith, fun _ => by linarith⟩, ⟨fun _ => by linarith, fun _ => by linarith⟩⟩

theorem scientific_loop_step {d : Nat} (hd : 2 ≤ d) {k : Int} {m : Nat} {x : Int} (h : d ≤ m) :
    scientific_loop d k m x = scientific_loop d k (m / d) (x + k) := by
  rw [scientific_loop, dif_pos ⟨hd, h⟩]

theorem scientific_loop_stop {d : Nat} {k : Int} {m : Nat} {x : Int} (h : m < d) : scientific_loop d k m x = (m, x) := by
  rw [scientific_loop, dif_neg (by omega)]

/-- The decimal exponent of the first digit, for a mantissa of 19 digits. -/
theorem scientific_exponent_eq {num : parsed_number_string} (h1 : 10 ^ 18 ≤ num.mantissa) (h2 : num.mantissa < 10 ^ 19) :
    scientific_exponent num = num.exponent + 18 := by
  unfold scientific_exponent
  simp only []
  generalize num.mantissa = w at *
  have l1 : scientific_loop 10000 4 w num.exponent = (w / 10000 / 10000 / 10000 / 10000, num.exponent + 4 + 4 + 4 + 4) := by
    rw [scientific_loop_step (by norm_num) (by omega), scientific_loop_step (by norm_num) (by omega),
      scientific_loop_step (by norm_num) (by omega), scientific_loop_step (by norm_num) (by omega), scientific_loop_stop (by omega)]
  rw [l1]
  have l2 : ∀ (v : Nat) (x : Int), 100 ≤ v → v < 1000 → scientific_loop 100 2 v x = (v / 100, x + 2) := by
    intro v x h h'
    rw [scientific_loop_step (by norm_num) h, scientific_loop_stop (by omega)]
  rw [l2 _ _ (by omega) (by omega), scientific_loop_stop (by omega)]
  simp only []
  omega

/-- Two results with the same bit pattern are equal, except for the first normal number. -/
theorem pat_inj {f : BinFmt} {a a' : adjusted_mantissa} (h : GoodAm f a) (h' : GoodAm f a') (he : pat f a = pat f a') :
    a = a' ∨ pat f a = 2 ^ f.p := by
  have hpp : 0 < 2 ^ f.p := by positivity
  have spec : ∀ {a : adjusted_mantissa}, GoodAm f a → pat f a = 2 ^ f.p ∨
      (a.mantissa < 2 ^ f.p ∧ pat f a = a.power2.toNat * 2 ^ f.p + a.mantissa) := by
    intro a h
    rcases Nat.lt_or_ge a.mantissa (2 ^ f.p) with hlt | hge
    · right
      have := pat_of_lt (f := f) (k := a.power2.toNat) hlt
      rw [Int.toNat_of_nonneg h.nonneg] at this
      exact ⟨hlt, by rw [← this]⟩
    · left
      have h1 : a.power2 = 1 := by
        rcases h.shape with hs | hs
        · omega
        · exact hs
      have h2 : a.mantissa = 2 ^ f.p := le_antisymm h.mant hge
      simp [pat, h1, h2, Nat.shiftLeft_eq]
  rcases spec h with hs | ⟨s1, s2⟩
  · exact .inr hs
  rcases spec h' with hs | ⟨s3, s4⟩
  · exact .inr (by rw [he, hs])
  left
  rw [s2, s4] at he
  have hm : a.mantissa = a'.mantissa := by
    have := congrArg (· % 2 ^ f.p) he
    simp only [Nat.add_comm _ a.mantissa, Nat.add_comm _ a'.mantissa, Nat.add_mul_mod_self_right, Nat.mod_eq_of_lt s1, Nat.mod_eq_of_lt s3] at this
    exact this
  have hq : a.power2.toNat = a'.power2.toNat := by
    rw [hm] at he
    exact Nat.eq_of_mul_eq_mul_right hpp (by omega)
  have := h.nonneg
  have := h'.nonneg
  cases a; cases a'
  simp only [adjusted_mantissa.mk.injEq]
  simp only at hm hq this
  refine ⟨hm, ?_⟩
  dsimp only at *
  omega

/-- Where 19 digits do not determine the result, `digit_comp` does. -/
theorem digit_comp_nearest [Platform] {b : Format} {f : BinFmt} (F : FmtOK b f) (F2 : FmtOK2 b f) (F3 : FmtOK3 b f) {d : DecLit} (hd : AllDigits d.digits)
    {r : parsed_number_string} (Pr : Parsed r d) {rest s : List Byte} (hs : s = d.text ++ rest) (hmany : 19 < (sig d.digits).length)
    {a1 a2 : adjusted_mantissa} (ha1 : compute_float b r.exponent r.mantissa = .ok a1)
    (ha2 : compute_float b r.exponent (r.mantissa + 1) = .ok a2) (hne : a1 ≠ a2) :
    ∃ err am, compute_error b r.exponent r.mantissa = .ok err ∧ err.power2 < 0 ∧ digit_comp b s r err = .ok am ∧ GoodAm f am ∧
      f.Nearest (decVal d.digits * 10 ^ (satExpD d - d.fdigits.length)) (pat f am) := by
  have hp := F.prec
  obtain ⟨-, hman, hexp⟩ := Pr.many hmany
  obtain ⟨S, hSe⟩ : ∃ S, S = sig d.digits := ⟨_, rfl⟩
  have hSne : S ≠ [] := by rintro rfl; rw [← hSe] at hmany; simp at hmany
  have hS : AllDigits S := by rw [hSe]; exact allDigits_sig hd
  have hlow : 10 ^ (S.length - 1) ≤ decVal S := by
    have := (sig_bounds hd (by rw [← hSe]; exact hSne)).1
    rwa [← decVal_sig, ← hSe] at this
  have hup : decVal S < 10 ^ S.length := decVal_lt hS
  obtain ⟨E, hEe⟩ : ∃ E, E = satExpD d - d.fdigits.length := ⟨_, rfl⟩
  rw [← hEe, ← decVal_sig, ← hSe]
  rw [← hSe] at hmany hman hexp
  rw [← hEe] at hexp
  obtain ⟨w, hw⟩ : ∃ w, w = r.mantissa := ⟨_, rfl⟩
  obtain ⟨q, hq⟩ : ∃ q, q = r.exponent := ⟨_, rfl⟩
  rw [← hw] at hman
  rw [← hq] at hexp
  obtain ⟨t1, t2, t3, t4⟩ := take_bounds hS hlow (k := 19) (by norm_num) hmany.le
  rw [← hman] at t1 t3 t4
  -- the number lies between `w * 10^q` and `(w + 1) * 10^q`
  obtain ⟨x, hx⟩ : ∃ x : ℚ, x = decVal S * 10 ^ E := ⟨_, rfl⟩
  rw [← hx]
  have hpow : (10 : ℚ) ^ (S.length - 19) * 10 ^ E = 10 ^ q := by
    rw [← zpow_natCast, ← zpow_add₀ (by norm_num), hexp, add_comm]
  have hEp : (0 : ℚ) < 10 ^ E := by positivity
  have hqp : (0 : ℚ) < 10 ^ q := by positivity
  have hx1 : (w : ℚ) * 10 ^ q ≤ x := by
    rw [hx, t1, ← hpow]
    push_cast
    have : (0 : ℚ) ≤ decVal (S.drop 19) * 10 ^ E := by positivity
    linarith
  have hx2 : x < ((w + 1 : ℕ) : ℚ) * 10 ^ q := by
    rw [hx, t1, ← hpow]
    push_cast
    have h1 : (decVal (S.drop 19) : ℚ) < 10 ^ (S.length - 19) := by exact_mod_cast t2
    have := mul_lt_mul_of_pos_right h1 hEp
    linarith
  have hxq : x < 10 ^ (q + 19) := by
    refine lt_of_lt_of_le hx2 ?_
    rw [zpow_add₀ (by norm_num), mul_comm]
    refine mul_le_mul_of_nonneg_left ?_ hqp.le
    exact_mod_cast t4
  rw [← hw, ← hq] at ha1 ha2
  -- the decimal exponent is in the range of the table
  have hq1 : b.smallest_power_of_ten ≤ q := by
    by_contra hc
    have : q < b.smallest_power_of_ten := by omega
    rw [compute_float, if_pos (.inr this)] at ha1 ha2
    rw [Res.ok.injEq] at ha1 ha2
    exact hne (ha1.symm.trans ha2)
  have hw18 : 10 ^ 18 ≤ w := t3
  have hw0 : w ≠ 0 := by omega
  have hq2 : q ≤ b.largest_power_of_ten := by
    by_contra hc
    have h1 : q > b.largest_power_of_ten := by omega
    rw [compute_float, if_neg (by omega), if_pos h1] at ha1
    rw [compute_float, if_neg (by omega), if_pos h1] at ha2
    rw [Res.ok.injEq] at ha1 ha2
    exact hne (ha1.symm.trans ha2)
  have hw64 : w + 1 < 2 ^ 64 := by omega
  obtain ⟨a1', c1, m1, m2, m3, m4, n1⟩ := compute_float_shape F q (show w < 2 ^ 64 by omega)
  obtain ⟨a2', c2, l1, l2, l3, l4, n2⟩ := compute_float_shape F q hw64
  obtain rfl : a1' = a1 := by rw [c1, Res.ok.injEq] at ha1; exact ha1
  obtain rfl : a2' = a2 := by rw [c2, Res.ok.injEq] at ha2; exact ha2
  have hinj := pat_inj (f := f) ⟨m1, m2, m3, m4⟩ ⟨l1, l2, l3, l4⟩
  have hpp : 0 < 2 ^ f.p := by positivity
  have hsame : ∀ k, f.Nearest (w * 10 ^ q) k → f.Nearest (((w + 1 : ℕ) : ℚ) * 10 ^ q) k → k = 2 ^ f.p := by
    intro k h1 h2
    have e1 := n1.unique f h1
    have e2 := n2.unique f h2
    rcases hinj (by rw [e1, e2]) with h | h
    · exact absurd h hne
    · rw [← e1, h]
  obtain ⟨M, P, err, herr, hM2, hM1, hc1, hc2, hf1, hf2⟩ := compute_error_floor F F3.bias3 hq1 hq2 hw0 (show w < 2 ^ 64 by omega)
  obtain ⟨e, he⟩ : ∃ e, cellOf f P = e := ⟨_, rfl⟩
  obtain ⟨j, hj⟩ : ∃ j, M / 2 ^ shiftOf f P = j := ⟨_, rfl⟩
  obtain ⟨u, hu⟩ : ∃ u : ℚ, u = 2 ^ ((e : ℤ) + 1 - f.bias - f.p) := ⟨_, rfl⟩
  have hup0 : 0 < u := by rw [hu]; positivity
  rw [he, hj] at hc1 hf1 hf2
  rw [hj] at hc2
  rw [← hu] at hf1 hf2
  have htop3 := F2.top3
  have v0 := val_cell f e j hc1 hc2.le
  rw [← hu] at v0
  have hwle : (w : ℚ) * 10 ^ q ≤ ((w + 1 : ℕ) : ℚ) * 10 ^ q := by push_cast; nlinarith
  have hlt : e * 2 ^ f.p + j < f.inf := by
    by_contra hc
    have h1 : f.val f.inf ≤ w * 10 ^ q := (val_le f (not_lt.mp hc)).trans (by rw [v0]; exact hf1)
    have := hsame f.inf (nearest_inf f h1) (nearest_inf f (h1.trans hwle))
    have h3 : f.inf = f.top * 2 ^ f.p := rfl
    have h4 : 3 * 2 ^ f.p ≤ f.top * 2 ^ f.p := Nat.mul_le_mul_right _ htop3
    omega
  -- the upper bound for the number
  have hx3 : x < (j + 1) * u + u / 2 := by
    have h1 : (10 : ℚ) ^ 18 ≤ w := by exact_mod_cast hw18
    have h2 : (j + 1 : ℚ) ≤ 2 ^ 53 := by
      have : j + 1 ≤ 2 ^ 53 := (Nat.succ_le_of_lt hc2).trans (Nat.pow_le_pow_right (by norm_num) (by omega))
      exact_mod_cast this
    have h3 : (10 : ℚ) ^ 18 * 10 ^ q ≤ w * 10 ^ q := mul_le_mul_of_nonneg_right h1 hqp.le
    have h4 : (j + 1) * u ≤ 2 ^ 53 * u := mul_le_mul_of_nonneg_right h2 hup0.le
    have h5 : (10 : ℚ) ^ 18 * 10 ^ q < 2 ^ 53 * u := by linarith
    have h6 : (10 : ℚ) ^ q < u / 2 := by
      norm_num at h5
      linarith
    push_cast at hx2
    linarith
  have hcell := nearest_of_halfway f (by omega) hc1 hc2 hlt hu (hf1.trans hx1) hx3
  -- the digits
  have hcap1 : 10 ^ (b.max_digits + 1) < base ^ bigint_limbs := by
    have := F3.cap
    omega
  obtain ⟨v, hv1, hv2⟩ := parse_mantissa_eq F3.max0 hcap1 hd Pr hs
  rw [← hSe] at hv1 hv2
  obtain ⟨hdg, hR0, hRlt⟩ := mantOf_bounds hS hlow F3.max0
  have hfar := F3.far
  have hcmp := mantOf_compare F3 hS hlow (E := E) (by intro h; omega) (H := 2 * j + 1) (te := (e : ℤ) - f.p - f.bias)
    (by rw [pow_succ 2 (f.p + 1)]; omega) (by omega)
  simp only [] at hcmp
  rw [← hx] at hcmp
  refine ⟨⟨M, P + invalid_am_bias⟩, ?_⟩
  rw [← hq, ← hw]
  have hsci : scientific_exponent r = q + 18 := by
    rw [scientific_exponent_eq (by rw [← hw]; exact hw18) (by rw [← hw]; exact t4), hq]
  have hrexp : scientific_exponent r + 1 - ((mantOf b.max_digits S).2 : ℤ) = E + S.length - ((mantOf b.max_digits S).2 : ℤ) := by
    rw [hsci]; omega
  obtain ⟨R, hRe⟩ : ∃ R, R = (mantOf b.max_digits S).1 := ⟨_, rfl⟩
  obtain ⟨dg, hdge⟩ : ∃ dg, dg = (mantOf b.max_digits S).2 := ⟨_, rfl⟩
  obtain ⟨re, hre⟩ : ∃ re : ℤ, re = E + S.length - (dg : ℤ) := ⟨_, rfl⟩
  have hre' : re = q + 19 - dg := by omega
  have hlemax : 0 ≤ re → S.length ≤ b.max_digits := by
    intro h0
    by_contra hc
    have : b.max_digits ≤ dg := by
      rw [hdge]; unfold mantOf; rw [if_neg hc]; split <;> simp
    omega
  have hexact : S.length ≤ b.max_digits → R = decVal S ∧ dg = S.length := by
    intro h; rw [hRe, hdge]; unfold mantOf; rw [if_pos h]; exact ⟨rfl, rfl⟩
  rw [← hRe] at hcmp hR0 hRlt hv2
  rw [← hdge] at hcmp hRlt hdg hv1 hrexp
  rw [← hre] at hcmp hrexp
  clear hRe hdge
  suffices hmain : ∃ am, digit_comp b s r ⟨M, P + invalid_am_bias⟩ = .ok am ∧ GoodAm f am ∧ f.Nearest x (pat f am) by
    obtain ⟨am, z1, z2, z3⟩ := hmain
    exact ⟨am, err, herr, z1, z2, z3⟩
  unfold digit_comp
  simp only [hv1, Res.bind_eq, Res.ok_bind, hrexp, Int.add_sub_cancel]
  by_cases hpos : re ≥ 0
  · rw [if_pos hpos]
    obtain ⟨hR, hdgl⟩ := hexact (hlemax hpos)
    have hN : ((R * 10 ^ re.toNat : ℕ) : ℚ) = x := by
      rw [hx, hR]
      push_cast
      rw [← zpow_natCast, Int.toNat_of_nonneg hpos, show re = E by omega]
    have hb : R * 10 ^ re.toNat < base ^ bigint_limbs := by
      have h1 : ((R * 10 ^ re.toNat : ℕ) : ℚ) < 10 ^ (q + 19) := by rw [hN]; exact hxq
      have h2 : (10 : ℚ) ^ (q + 19) ≤ 10 ^ ((b.max_digits : ℕ) : ℤ) := zpow_le_zpow_right₀ (by norm_num) (by omega)
      rw [zpow_natCast] at h2
      have h3 : R * 10 ^ re.toNat < 10 ^ b.max_digits := by exact_mod_cast lt_of_lt_of_le h1 h2
      have h4 : 10 ^ b.max_digits ≤ 10 ^ (b.max_digits + 1) := Nat.pow_le_pow_right (by norm_num) (by omega)
      omega
    obtain ⟨am, k1, k2, k3⟩ := positive_digit_comp_nearest F hv2 hR0 re hb
    rw [hN] at k3
    exact ⟨am, k1, k2, k3⟩
  · rw [if_neg hpos]
    have hneg : re < 0 := by omega
    obtain ⟨te, hte⟩ : ∃ te : ℤ, te = (e : ℤ) - f.p - f.bias := ⟨_, rfl⟩
    have hu2 : u = 2 * 2 ^ te := by
      rw [hu, hte, show (e : ℤ) + 1 - f.bias - f.p = ((e : ℤ) - f.p - f.bias) + 1 by ring, zpow_add₀ (by norm_num), zpow_one, mul_comm]
    have h2te : (0 : ℚ) < 2 ^ te := by positivity
    have h10n : (10 : ℚ) ^ re * 10 ^ (-re).toNat = 1 := by
      rw [← zpow_natCast, ← zpow_add₀ (by norm_num), show re + ((-re).toNat : ℤ) = 0 by omega, zpow_zero]
    have hH : 2 * j + 1 < 2 ^ (f.p + 2) := by rw [pow_succ 2 (f.p + 1)]; omega
    have hn5 : 5 ^ (-re).toNat ≤ 5 ^ ((b.max_digits : ℤ) - 18 - b.smallest_power_of_ten).toNat :=
      Nat.pow_le_pow_right (by norm_num) (by omega)
    have hcapA : 10 * 2 ^ (f.p + 2) * 5 ^ (-re).toNat < base ^ bigint_limbs :=
      lt_of_le_of_lt (Nat.mul_le_mul_left _ hn5) F3.capA
    -- the half-way point is not much larger than the number
    have hh : ((2 * j + 1 : ℕ) : ℚ) * 2 ^ te ≤ 2 * 10 ^ (q + 19) := by
      have hw1 : ((w + 1 : ℕ) : ℚ) * 10 ^ q ≤ 10 ^ (q + 19) := by
        rw [zpow_add₀ (by norm_num), mul_comm]
        refine mul_le_mul_of_nonneg_left ?_ hqp.le
        exact_mod_cast t4
      rcases Nat.eq_zero_or_pos j with hj0 | hj0
      · have he0 : e = 0 := by omega
        by_contra hc
        push Not at hc
        rw [hj0] at hc
        have v1 := val_cell f 0 1 (.inr rfl) (by rw [pow_succ]; omega)
        rw [show ((0 : ℕ) : ℤ) + 1 - f.bias - f.p = (e : ℤ) + 1 - f.bias - f.p by rw [he0], ← hu, Nat.zero_mul, Nat.zero_add, Nat.cast_one, one_mul] at v1
        push_cast at hc hw1
        have hz : ∀ y : ℚ, 0 ≤ y → 2 * y < u → f.Nearest y 0 := by
          intro y hy hyu
          apply nearest_lower f (Nat.zero_le _)
          · rw [val_zero]; exact hy
          · rw [Nat.zero_add, v1]; linarith
          · left; rw [Nat.zero_add, v1, val_zero]; linarith
        have hwp : (0 : ℚ) ≤ w * 10 ^ q := by positivity
        have h10 : (0 : ℚ) < 10 ^ (q + 19) := by positivity
        have := hsame 0 (hz _ hwp (by rw [hu2]; push_cast at hwle; linarith)) (hz _ (by push_cast; linarith) (by rw [hu2]; push_cast; linarith))
        omega
      · have hj1 : (1 : ℚ) ≤ j := by exact_mod_cast hj0
        have : (2 * j + 1 : ℚ) * 2 ^ te ≤ 2 * (j * u) := by rw [hu2]; nlinarith
        push_cast
        linarith
    have hA : (2 * j + 1) * 5 ^ (-re).toNat * 2 ^ (te - re).toNat < base ^ bigint_limbs := by
      rcases le_or_gt te re with hle | hgt
      · rw [show (te - re).toNat = 0 by omega, pow_zero, Nat.mul_one]
        refine lt_of_le_of_lt ?_ hcapA
        exact Nat.mul_le_mul_right _ (by omega)
      · have h1 : (((2 * j + 1) * 5 ^ (-re).toNat * 2 ^ (te - re).toNat : ℕ) : ℚ) = ((2 * j + 1 : ℕ) : ℚ) * 2 ^ te * 10 ^ (-re).toNat := by
          have h25 : (10 : ℚ) ^ (-re).toNat = 5 ^ (-re).toNat * 2 ^ (-re).toNat := by rw [← mul_pow]; norm_num
          have h2 : (2 : ℚ) ^ te * 2 ^ (-re).toNat = 2 ^ (te - re).toNat := by
            rw [← zpow_natCast, ← zpow_natCast, ← zpow_add₀ (by norm_num)]
            congr 1
            omega
          rw [h25]
          push_cast
          linear_combination -(2 * (j : ℚ) + 1) * 5 ^ (-re).toNat * h2
        have h2 : ((2 * j + 1 : ℕ) : ℚ) * 2 ^ te * 10 ^ (-re).toNat ≤ 2 * 10 ^ (q + 19) * 10 ^ (-re).toNat :=
          mul_le_mul_of_nonneg_right hh (by positivity)
        have h3 : (2 : ℚ) * 10 ^ (q + 19) * 10 ^ (-re).toNat = 2 * 10 ^ dg := by
          rw [mul_assoc, ← zpow_natCast, ← zpow_natCast, ← zpow_add₀ (by norm_num)]
          congr 2
          omega
        rw [← h1, h3] at h2
        have h4 : (2 * j + 1) * 5 ^ (-re).toNat * 2 ^ (te - re).toNat ≤ 2 * 10 ^ dg := by exact_mod_cast h2
        have h5 : 10 ^ dg ≤ 10 ^ (b.max_digits + 1) := Nat.pow_le_pow_right (by norm_num) hdg
        have := F3.cap
        omega
    have hB : R * 2 ^ (re - te).toNat < base ^ bigint_limbs := by
      rcases le_or_gt re te with hle | hgt
      · rw [show (re - te).toNat = 0 by omega, pow_zero, Nat.mul_one]
        have h5 : 10 ^ dg ≤ 10 ^ (b.max_digits + 1) := Nat.pow_le_pow_right (by norm_num) hdg
        omega
      · refine lt_of_le_of_lt ?_ hcapA
        have h1 : ((R * 2 ^ (re - te).toNat : ℕ) : ℚ) * 2 ^ te = R * 10 ^ re * 5 ^ (-re).toNat := by
          have h25 : (10 : ℚ) ^ re = 5 ^ re * 2 ^ re := by rw [← mul_zpow]; norm_num
          have h2 : (2 : ℚ) ^ (re - te).toNat * 2 ^ te = 2 ^ re := by
            rw [← zpow_natCast, ← zpow_add₀ (by norm_num)]
            congr 1
            omega
          have h5 : (5 : ℚ) ^ re * 5 ^ (-re).toNat = 1 := by
            rw [← zpow_natCast, ← zpow_add₀ (by norm_num), show re + ((-re).toNat : ℤ) = 0 by omega, zpow_zero]
          rw [h25]
          push_cast
          linear_combination (R : ℚ) * h2 - (R : ℚ) * 2 ^ re * h5
        have h2 : (R : ℚ) * 10 ^ re ≤ 10 ^ (q + 19) := by
          have : (R : ℚ) ≤ 10 ^ dg := by exact_mod_cast hRlt.le
          have h3 := mul_le_mul_of_nonneg_right this (show (0 : ℚ) ≤ 10 ^ re by positivity)
          rw [← zpow_natCast (10 : ℚ) dg, ← zpow_add₀ (by norm_num), show (dg : ℤ) + re = q + 19 by omega] at h3
          exact h3
        have h3 : (10 : ℚ) ^ (q + 19) ≤ 10 * (w * 10 ^ q) := by
          rw [zpow_add₀ (by norm_num)]
          have : (10 : ℚ) ^ 18 ≤ w := by exact_mod_cast hw18
          have h4 : (10 : ℚ) ^ (19 : ℤ) = 10 * 10 ^ 18 := by norm_num
          rw [h4]
          nlinarith
        have h4 : (j + 1) * u ≤ 2 ^ (f.p + 2) * 2 ^ te := by
          rw [hu2, ← mul_assoc]
          refine mul_le_mul_of_nonneg_right ?_ h2te.le
          have : (j + 1) * 2 ≤ 2 ^ (f.p + 2) := by rw [pow_succ 2 (f.p + 1)]; omega
          exact_mod_cast this
        have h5 : (R : ℚ) * 10 ^ re ≤ 10 * 2 ^ (f.p + 2) * 2 ^ te := by linarith
        have h6 : ((R * 2 ^ (re - te).toNat : ℕ) : ℚ) * 2 ^ te ≤ ((10 * 2 ^ (f.p + 2) * 5 ^ (-re).toNat : ℕ) : ℚ) * 2 ^ te := by
          rw [h1]
          have := mul_le_mul_of_nonneg_right h5 (show (0 : ℚ) ≤ 5 ^ (-re).toNat by positivity)
          push_cast
          linarith
        have h7 := le_of_mul_le_mul_right h6 h2te
        exact_mod_cast h7
    obtain ⟨am, k1, k2, k3⟩ := negative_digit_comp_eq F F2 hv2 hR0 hM2 hM1 he hj hc1 hc2 hlt hneg (by rw [← hte]; exact hA) (by rw [← hte]; exact hB)
    refine ⟨am, k1, k2, ?_⟩
    rw [k3]
    have hmid : (2 * j + 1) * u / 2 = ((2 * j + 1 : ℕ) : ℚ) * 2 ^ ((e : ℤ) - f.p - f.bias) := by
      rw [hu2, hte]; push_cast; ring
    rw [hmid] at hcell
    simp only [hcmp.1, hcmp.2] at hcell
    exact hcell

end Utki.FastFloat
