import Verif.Lemmas.FloatEnv
import Verif.Lemmas.FloatLongest
/-!
# From a scanned number to the nearest floating-point number

Helper lemmas.
-/
namespace Utki.FastFloat

open Utki Utki.Spec Utki.Spec.BinFmt

theorem compute_float_good [Platform] {b : Format} {f : BinFmt} (F : FmtOK b f) (q : Int) {w : Nat} (hw : w < 2 ^ 64) :
    ∃ am, compute_float b q w = .ok am ∧ GoodAm f am ∧ f.Nearest (w * 10 ^ q) (pat f am) := by
  obtain ⟨am, h1, h2, h3, h4, h5, h6⟩ := compute_float_shape F q hw
  exact ⟨am, h1, ⟨h2, h3, h4, h5⟩, h6⟩

/-- The slow path: with 19 digits if these are enough, otherwise with all of them. -/
theorem adjusted_spec [Platform] {b : Format} {f : BinFmt} (F : FmtOK b f) (F2 : FmtOK2 b f) (F3 : FmtOK3 b f) {d : DecLit} (hd : AllDigits d.digits)
    {r : parsed_number_string} (Pr : Parsed r d) {rest s : List Byte} (hs : s = d.text ++ rest) :
    ∃ am, adjusted b s r = .ok am ∧ GoodAm f am ∧ f.Nearest (decVal d.digits * 10 ^ (satExpD d - d.fdigits.length)) (pat f am) := by
  rcases Nat.lt_or_ge 19 (sig d.digits).length with hmany | hfew
  · obtain ⟨hmn, hman, hexp⟩ := Pr.many hmany
    obtain ⟨S, hSe⟩ : ∃ S, S = sig d.digits := ⟨_, rfl⟩
    have hSne : S ≠ [] := by rintro rfl; rw [← hSe] at hmany; simp at hmany
    have hS : AllDigits S := by rw [hSe]; exact allDigits_sig hd
    have hlow : 10 ^ (S.length - 1) ≤ decVal S := by
      have := (sig_bounds hd (by rw [← hSe]; exact hSne)).1
      rw [← hSe] at this
      rw [hSe, decVal_sig, ← hSe]
      exact this
    rw [← hSe] at hmany hman hexp
    obtain ⟨t1, t2, t3, t4⟩ := take_bounds hS hlow (k := 19) (by norm_num) hmany.le
    rw [← hman] at t1 t3 t4
    have hw1 : r.mantissa + 1 < 2 ^ 64 := by
      have : (10 : ℕ) ^ 19 + 1 < 2 ^ 64 := by norm_num
      omega
    obtain ⟨a1, a11, a12, a13⟩ := compute_float_good F r.exponent (w := r.mantissa) (by omega)
    obtain ⟨a2, a21, a22, a23⟩ := compute_float_good F r.exponent (w := r.mantissa + 1) hw1
    by_cases hne : a1 = a2
    · subst hne
      refine ⟨a1, ?_, a12, ?_⟩
      · unfold adjusted
        have := a12.nonneg
        simp only [Res.bind_eq, a11, Res.ok_bind, Res.pure_eq, hmn, true_and, ge_iff_le, this, if_true, Nat.mod_eq_of_lt hw1, a21,
          ne_eq, not_true_eq_false, if_false]
        rw [if_neg (by omega)]
      · refine nearest_between f a13 a23 ?_ ?_
        · have hv : (r.mantissa : ℚ) * 10 ^ (S.length - 19) ≤ decVal d.digits := by
            rw [← decVal_sig, ← hSe]
            have : r.mantissa * 10 ^ (S.length - 19) ≤ decVal S := by omega
            exact_mod_cast this
          rw [hexp, zpow_add₀ (by norm_num), zpow_natCast, mul_comm (10 ^ (satExpD d - (d.fdigits.length : ℤ)) : ℚ), ← mul_assoc]
          exact mul_le_mul_of_nonneg_right hv (by positivity)
        · have hv : (decVal d.digits : ℚ) ≤ ((r.mantissa + 1 : ℕ) : ℚ) * 10 ^ (S.length - 19) := by
            rw [← decVal_sig, ← hSe]
            have : decVal S ≤ (r.mantissa + 1) * 10 ^ (S.length - 19) := by rw [Nat.add_mul]; omega
            exact_mod_cast this
          rw [hexp, zpow_add₀ (by norm_num), zpow_natCast, mul_comm (10 ^ (satExpD d - (d.fdigits.length : ℤ)) : ℚ), ← mul_assoc]
          exact mul_le_mul_of_nonneg_right hv (by positivity)
    · obtain ⟨err, am, e1, e2, e3, e4, e5⟩ := digit_comp_nearest F F2 F3 hd Pr hs (by rw [← hSe]; exact hmany) a11 a21 hne
      refine ⟨am, ?_, e4, e5⟩
      unfold adjusted
      have := a12.nonneg
      simp only [Res.bind_eq, a11, Res.ok_bind, Res.pure_eq, hmn, true_and, ge_iff_le, this, if_true, Nat.mod_eq_of_lt hw1, a21,
        ne_eq, hne, not_false_eq_true, e1]
      rw [if_pos e2, e3]
  · obtain ⟨h1, h2, h3⟩ := Pr.few hfew
    have hw : r.mantissa < 2 ^ 64 := by
      rw [h2, ← decVal_sig]
      have h4 := decVal_lt (allDigits_sig hd)
      have h5 : 10 ^ (sig d.digits).length ≤ 10 ^ 19 := Nat.pow_le_pow_right (by norm_num) hfew
      have : (10 : ℕ) ^ 19 < 2 ^ 64 := by norm_num
      omega
    obtain ⟨am, a1, a2, a3⟩ := compute_float_good F r.exponent hw
    refine ⟨am, ?_, a2, ?_⟩
    · unfold adjusted
      have := a2.nonneg
      simp only [Res.bind_eq, a1, Res.ok_bind, Res.pure_eq, h1, Bool.false_eq_true, false_and, if_false]
      rw [if_neg (by omega)]
    · rw [h2, h3] at a3
      exact a3

/-- How zero and infinity look before the assembly of the pattern. -/
theorem pat_cases {b : Format} {f : BinFmt} (F : FmtOK b f) {am : adjusted_mantissa} (G : GoodAm f am) (hle : pat f am ≤ f.inf) :
    (pat f am = 0 ↔ am.mantissa = 0 ∧ am.power2 = 0) ∧ (pat f am = f.inf ↔ am.power2 = f.top) := by
  have hpp : 0 < 2 ^ f.p := by positivity
  have htop := F.top
  obtain ⟨m, p2⟩ := am
  obtain ⟨g1, g2, g3, g4⟩ := G
  simp only at g1 g2 g3 g4 ⊢
  obtain ⟨k, rfl⟩ : ∃ k : ℕ, p2 = k := ⟨p2.toNat, by omega⟩
  have hinf : f.inf = f.top * 2 ^ f.p := rfl
  rcases Nat.lt_or_ge m (2 ^ f.p) with h | h
  · rw [pat_of_lt h, hinf] at hle ⊢
    refine ⟨⟨fun h0 => ?_, fun h0 => ?_⟩, ⟨fun h0 => ?_, fun h0 => ?_⟩⟩
    · have : k * 2 ^ f.p = 0 := by omega
      rcases Nat.mul_eq_zero.mp this with h1 | h1
      · exact ⟨by omega, by omega⟩
      · omega
    · rw [show k = 0 by omega, h0.1]; simp
    · by_contra hc
      have : k + 1 ≤ f.top := by omega
      have := Nat.mul_le_mul_right (2 ^ f.p) this
      rw [Nat.add_mul] at this
      omega
    · rw [show k = f.top by omega] at hle ⊢
      omega
  · have hm : m = 2 ^ f.p := by omega
    have hk : k = 1 := by rcases g2 with g2 | g2 <;> omega
    subst hm hk
    have hp : pat f ⟨2 ^ f.p, ((1 : ℕ) : ℤ)⟩ = 2 ^ f.p := by
      simp [pat, Nat.shiftLeft_eq]
    rw [hp, hinf]
    have : 2 * 2 ^ f.p ≤ f.top * 2 ^ f.p := Nat.mul_le_mul_right _ htop
    constructor
    · constructor
      · intro h; omega
      · rintro ⟨h, -⟩; omega
    · constructor
      · intro h; omega
      · intro h; omega

/-- The mantissa that the scanner returns is 0 only if all digits are. -/
theorem parsed_zero {d : DecLit} (hd : AllDigits d.digits) {r : parsed_number_string} (Pr : Parsed r d) :
    r.mantissa = 0 ↔ decVal d.digits = 0 := by
  rcases Nat.lt_or_ge 19 (sig d.digits).length with hmany | hfew
  · obtain ⟨-, h2, -⟩ := Pr.many hmany
    have hSne : sig d.digits ≠ [] := by intro h; rw [h] at hmany; simp at hmany
    have hb := (sig_bounds hd hSne).1
    have hb' : 10 ^ ((sig d.digits).length - 1) ≤ decVal (sig d.digits) := by rw [decVal_sig]; exact hb
    have ht := (take_bounds (allDigits_sig hd) hb' (k := 19) (by norm_num) hmany.le).2.2.1
    rw [← h2] at ht
    have h3 : 0 < 10 ^ ((sig d.digits).length - 1) := by positivity
    have h4 : 0 < 10 ^ (19 - 1) := by positivity
    omega
  · rw [(Pr.few hfew).2.1]

/-- A number that has been scanned is converted to the nearest one. -/
theorem from_chars_pns_spec [Platform] {b : Format} {f : BinFmt} (F : FmtOK b f) (F2 : FmtOK2 b f) (F3 : FmtOK3 b f) (F4 : FmtOK4 b f)
    {mode : RoundMode} {u : Fpu} (I : Ieee f mode u) {d : DecLit} (hd : AllDigits d.digits)
    {r : parsed_number_string} (Pr : Parsed r d) {rest s : List Byte} (hs : s = d.text ++ rest) :
    ∃ k, f.Nearest (decVal d.digits * 10 ^ (satExpD d - d.fdigits.length)) k ∧
      from_chars_advanced_pns b u s r = .ok ⟨some (f.signed d.neg k), d.text.length,
        if k = f.inf ∨ (k = 0 ∧ decVal d.digits ≠ 0) then .result_out_of_range else .none⟩ := by
  unfold from_chars_advanced_pns
  rcases clinger_spec F F4 I r with hc | ⟨hm, k, k1, k2, k3, k4⟩
  · obtain ⟨am, a1, a2, a3⟩ := adjusted_spec F F2 F3 hd Pr hs
    refine ⟨pat f am, a3, ?_⟩
    obtain ⟨p1, p2⟩ := pat_cases F a2 a3.1
    simp only [Res.bind_eq, hc, Res.ok_bind, a1, Res.pure_eq]
    rw [sign_or F F4 a3.1, Pr.negative, Pr.lastmatch, F.inf]
    have hiff : ((r.mantissa ≠ 0 ∧ am.mantissa = 0 ∧ am.power2 = 0) ∨ am.power2 = f.top) ↔
        (pat f am = f.inf ∨ (pat f am = 0 ∧ decVal d.digits ≠ 0)) := by
      rw [p1, p2, ne_eq, ne_eq, parsed_zero hd Pr]
      tauto
    simp only [hiff]
  · have hfew : (sig d.digits).length ≤ 19 := by
      by_contra h
      rw [(Pr.many (by omega)).1] at hm
      cases hm
    obtain ⟨-, h2, h3⟩ := Pr.few hfew
    rw [h2, h3] at k2
    refine ⟨k, k2, ?_⟩
    simp only [Res.bind_eq, k1, Res.ok_bind, Res.pure_eq]
    rw [Pr.negative, Pr.lastmatch, if_neg]
    rintro (h | ⟨h, h'⟩)
    · omega
    · exact h' (by rw [← h2]; exact k4 h)

/-! ## The exponent saturates -/

theorem satVal_cases (ds : List Byte) (h : AllDigits ds) :
    satVal ds = decVal ds ∨ (0x10000000 ≤ satVal ds ∧ satVal ds ≤ decVal ds) := by
  suffices H : ∀ ds : List Byte, AllDigits ds → ∀ (e : Int) (v : Nat), (e = v ∨ (0x10000000 ≤ e ∧ e ≤ v)) →
      (ds.foldl satStep e = (ds.foldl (fun v c => 10 * v + (c.toNat - 48)) v : Nat) ∨
        (0x10000000 ≤ ds.foldl satStep e ∧ ds.foldl satStep e ≤ (ds.foldl (fun v c => 10 * v + (c.toNat - 48)) v : Nat))) from
    H ds h 0 0 (.inl rfl)
  intro ds
  induction ds with
  | nil => intro _ e v h; exact h
  | cons c ds ih =>
    intro hd e v hev
    rw [List.foldl_cons, List.foldl_cons]
    refine ih (fun x hx => hd x (List.mem_cons_of_mem _ hx)) _ _ ?_
    have hc : DecDigit c := hd c List.mem_cons_self
    unfold DecDigit at hc
    unfold satStep
    split <;> rename_i hlt
    · left
      rcases hev with hev | hev <;> omega
    · right
      constructor
      · omega
      · rcases hev with hev | hev <;> omega

/-- Numbers of at least `10^(largest+1)` are rounded to infinity. -/
theorem nearest_huge {b : Format} {f : BinFmt} (F : FmtOK b f) {x : ℚ} (h : 10 ^ (b.largest_power_of_ten + 1) ≤ x) : f.Nearest x f.inf := by
  apply nearest_inf
  have htop := F.top
  have hv : f.val f.inf = 2 ^ (f.top - f.bias : ℤ) := by
    have := val_cell f (f.top - 1) (2 ^ f.p) (.inl le_rfl) (Nat.pow_le_pow_right (by norm_num) (by omega))
    have e : (f.top - 1) * 2 ^ f.p + 2 ^ f.p = f.inf := by
      unfold BinFmt.inf
      conv_rhs => rw [show f.top = (f.top - 1) + 1 by omega, Nat.add_mul, one_mul]
    rw [e] at this
    rw [this]
    push_cast
    rw [← zpow_natCast, ← zpow_add₀ (by norm_num)]
    congr 1
    omega
  rw [hv]
  exact F.infb.trans h

/-- Numbers below `2^64 * 10^(smallest-1)` are rounded to zero. -/
theorem nearest_tiny {b : Format} {f : BinFmt} (F : FmtOK b f) {x : ℚ} (h0 : 0 ≤ x) (h : x ≤ 2 ^ 64 * 10 ^ (b.smallest_power_of_ten - 1)) :
    f.Nearest x 0 := by
  have v1 := val_cell f 0 1 (.inr rfl) (by have : 0 < 2 ^ (f.p + 1) := by positivity
                                           omega)
  rw [Nat.zero_mul, Nat.zero_add, Nat.cast_one, one_mul] at v1
  have e : ((0 : ℕ) : ℤ) + 1 - (f.bias : ℤ) - (f.p : ℤ) = 1 - f.bias - f.p := by push_cast; ring
  rw [e] at v1
  have hz := F.zero
  have hx0 : 0 ≤ x * 2 := by linarith
  refine nearest_lower f (Nat.zero_le _) (by rw [val_zero]; exact h0) ?_ (.inl ?_)
  · rw [Nat.zero_add, v1]; linarith
  · rw [Nat.zero_add, v1, val_zero]; linarith

/-- That the exponent saturates does not matter for numbers of less than 2^28 - 1000 digits. -/
theorem saturation_harmless {b : Format} {f : BinFmt} (F : FmtOK b f) {fmt : NumFormat} {d : DecLit} (hw : d.WF fmt)
    (hlen : d.digits.length + 1000 ≤ 0x10000000) {k : Nat}
    (hn : f.Nearest (decVal d.digits * 10 ^ (satExpD d - d.fdigits.length)) k) : f.Nearest d.absVal k := by
  obtain ⟨hd, -, hexp, -⟩ := hw
  unfold DecLit.absVal
  cases he : d.exp with
  | none =>
    unfold satExpD at hn
    unfold DecLit.expVal
    rw [he] at hn ⊢
    exact hn
  | some e =>
    have hew := (hexp e he).1
    obtain ⟨-, -, hed, -⟩ := hew
    rcases satVal_cases e.digits hed with hsat | ⟨hs1, hs2⟩
    · have : satExpD d = d.expVal := by
        unfold satExpD DecLit.expVal
        rw [he]
        simp only [satExp, ExpPart.value, hsat]
      rwa [this] at hn
    · rcases Nat.eq_zero_or_pos (decVal d.digits) with h0 | h0
      · rw [h0, Nat.cast_zero, zero_mul] at hn ⊢
        exact hn
      · have hfl : d.fdigits.length ≤ d.digits.length := by unfold DecLit.digits; rw [List.length_append]; omega
        have h1 : (1 : ℚ) ≤ decVal d.digits := by exact_mod_cast h0
        have h2 : (decVal d.digits : ℚ) ≤ 10 ^ d.digits.length := by exact_mod_cast (decVal_lt hd).le
        have hlg := F.largest
        have hsm := F.smallest
        unfold satExpD at hn
        unfold DecLit.expVal
        rw [he] at hn ⊢
        simp only [satExp, ExpPart.value] at hn ⊢
        by_cases hsg : e.sign = some (ch '-')
        · rw [if_pos hsg] at hn ⊢
          have tiny : ∀ E : Int, 0x10000000 ≤ E → f.Nearest (decVal d.digits * 10 ^ (-E - d.fdigits.length)) 0 := by
            intro E hE
            apply nearest_tiny F (by positivity)
            have s1 : (decVal d.digits : ℚ) * 10 ^ (-E - (d.fdigits.length : ℤ)) ≤ 10 ^ d.digits.length * 10 ^ (-E - (d.fdigits.length : ℤ)) :=
              mul_le_mul_of_nonneg_right h2 (by positivity)
            refine s1.trans ?_
            rw [show (10 : ℚ) ^ d.digits.length = 10 ^ (d.digits.length : ℤ) from (zpow_natCast _ _).symm, ← zpow_add₀ (by norm_num)]
            have s2 : (10 : ℚ) ^ ((d.digits.length : ℤ) + (-E - (d.fdigits.length : ℤ))) ≤ 10 ^ (b.smallest_power_of_ten - 1) :=
              zpow_le_zpow_right₀ (by norm_num) (by omega)
            have s3 : (1 : ℚ) * 10 ^ (b.smallest_power_of_ten - 1) ≤ 2 ^ 64 * 10 ^ (b.smallest_power_of_ten - 1) :=
              mul_le_mul_of_nonneg_right (by norm_num) (by positivity)
            rw [one_mul] at s3
            exact le_trans s2 s3
          have := hn.unique f (tiny _ hs1)
          subst this
          exact tiny _ (by omega)
        · rw [if_neg hsg] at hn ⊢
          have huge : ∀ E : Int, 0x10000000 ≤ E → f.Nearest (decVal d.digits * 10 ^ (E - d.fdigits.length)) f.inf := by
            intro E hE
            apply nearest_huge F
            have s1 : (1 : ℚ) * 10 ^ (E - (d.fdigits.length : ℤ)) ≤ decVal d.digits * 10 ^ (E - (d.fdigits.length : ℤ)) :=
              mul_le_mul_of_nonneg_right h1 (by positivity)
            refine le_trans ?_ s1
            rw [one_mul]
            exact zpow_le_zpow_right₀ (by norm_num) (by omega)
          have := hn.unique f (huge _ hs1)
          subst this
          exact huge _ (by omega)

end Utki.FastFloat
