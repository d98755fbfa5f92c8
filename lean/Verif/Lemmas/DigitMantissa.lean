import Verif.Lemmas.BigintOps
import Verif.Lemmas.FloatGrammar
import Verif.Model.DigitComp
/-!
# Collecting all digits into a big integer
-/
namespace Utki.FastFloat
open Spec

/-! ## Eight characters -/

theorem zero_iff (c : Byte) : c = ch '0' ↔ c.toNat = 48 := by
  constructor
  · rintro rfl; rfl
  · intro h; exact BitVec.eq_of_toNat_eq (by rw [h]; rfl)

theorem zeros_word {a b c d e f g h : Nat} (ha : a < 256) (hb : b < 256) (hc : c < 256) (hd : d < 256) (he : e < 256) (hf : f < 256)
    (hg : g < 256) (_ : h < 256) :
    a + 256 * (b + 256 * (c + 256 * (d + 256 * (e + 256 * (f + 256 * (g + 256 * h)))))) = int_cmp_zeros ↔
      a = 48 ∧ b = 48 ∧ c = 48 ∧ d = 48 ∧ e = 48 ∧ f = 48 ∧ g = 48 ∧ h = 48 := by
  unfold int_cmp_zeros
  omega

/-- All characters are zeroes. -/
def AllZero (l : List Byte) : Prop := ∀ c ∈ l, c = ch '0'

theorem allZero_nil : AllZero [] := by intro c hc; cases hc
theorem allZero_append {a b : List Byte} (ha : AllZero a) (hb : AllZero b) : AllZero (a ++ b) := by
  intro c hc
  rcases List.mem_append.1 hc with h | h
  · exact ha c h
  · exact hb c h

theorem sig_allZero {a : List Byte} (ha : AllZero a) : sig a = [] := by
  induction a with
  | nil => rfl
  | cons c a ih =>
    have : c = ch '0' := ha c List.mem_cons_self
    subst this
    rw [sig_cons_zero]
    exact ih fun x hx => ha x (List.mem_cons_of_mem _ hx)

theorem sig_zero_append {a : List Byte} (ha : AllZero a) (b : List Byte) : sig (a ++ b) = sig b := sig_append_nil (sig_allZero ha) b

theorem sig_ne_of_mem {a : List Byte} {c : Byte} (hc : c ∈ a) (h : c ≠ ch '0') : sig a ≠ [] := by
  induction a with
  | nil => cases hc
  | cons x a ih =>
    by_cases hx : x = ch '0'
    · subst hx
      rw [sig_cons_zero]
      rcases List.mem_cons.1 hc with h' | h'
      · exact absurd h' h
      · exact ih h'
    · rw [sig_cons_ne hx]; simp

variable [Platform]

/-- A word of eight characters of the text and whether they are all zeroes. -/
theorem eight_zero (pre t : List Byte) (h : 8 ≤ t.length) : ∃ v a b, t = a ++ b ∧ a.length = 8 ∧
    read8_to_u64 (pre ++ t) pre.length = .ok v ∧ (v = int_cmp_zeros ↔ AllZero a) := by
  obtain ⟨c0, c1, c2, c3, c4, c5, c6, c7, r, rfl⟩ := split8 t h
  refine ⟨_, [c0, c1, c2, c3, c4, c5, c6, c7], r, rfl, rfl, read8_eq .., ?_⟩
  rw [zeros_word (toNat_lt _) (toNat_lt _) (toNat_lt _) (toNat_lt _) (toNat_lt _) (toNat_lt _) (toNat_lt _) (toNat_lt _)]
  simp only [AllZero, List.mem_cons, List.not_mem_nil, or_false, forall_eq_or_imp, forall_eq, zero_iff]

/-! ## Leading zeroes and truncated digits -/

theorem skip_zeros8_eq : ∀ (n : Nat) (ds : List Byte), ds.length = n → ∀ (pre post : List Byte),
    ∃ a b, ds = a ++ b ∧ AllZero a ∧
      skip_zeros8 (pre ++ (ds ++ post)) pre.length (pre.length + ds.length) = .ok (pre.length + a.length) := by
  intro n
  induction n using Nat.strongRecOn with
  | _ n ih =>
    intro ds hn pre post
    rw [skip_zeros8]
    by_cases h : pre.length + 8 ≤ pre.length + ds.length
    · rw [dif_pos h]
      obtain ⟨v, a, b, rfl, ha, hv, hz⟩ := eight_zero (pre) (ds) (by omega)
      have hv' : read8_to_u64 (pre ++ (a ++ b ++ post)) pre.length = .ok v := by
        obtain ⟨v', a', b', e, ha', hv', hz'⟩ := eight_zero pre (a ++ b ++ post) (by simp only [List.length_append]; omega)
        obtain ⟨c0, c1, c2, c3, c4, c5, c6, c7, r, rfl⟩ := split8 a (by omega)
        have : r = [] := by
          have := ha
          simp only [List.length_cons] at this
          exact List.length_eq_zero_iff.1 (by omega)
        subst this
        rw [List.cons_append, List.cons_append, List.cons_append, List.cons_append, List.cons_append, List.cons_append,
          List.cons_append, List.cons_append, read8_eq] at hv
        simp only [List.cons_append, List.append_assoc]
        rw [read8_eq, hv]
      rw [hv', Res.bind_eq, Res.ok_bind]
      by_cases hvz : v = int_cmp_zeros
      · rw [if_neg (by simpa using hvz)]
        obtain ⟨a2, b2, e2, hz2, hr2⟩ := ih b.length (by rw [← hn, List.length_append]; omega) b rfl (pre ++ a) post
        refine ⟨a ++ a2, b2, by rw [e2, List.append_assoc], allZero_append (hz.1 hvz) hz2, ?_⟩
        have e : pre ++ (a ++ b ++ post) = pre ++ a ++ (b ++ post) := by simp only [List.append_assoc]
        rw [e]
        have e1 : pre.length + 8 = (pre ++ a).length := by rw [List.length_append, ha]
        have e3 : pre.length + (a ++ b).length = (pre ++ a).length + b.length := by simp only [List.length_append]; omega
        rw [e1, e3, hr2]
        simp only [List.length_append]
        rw [Nat.add_assoc]
      · rw [if_pos hvz]
        exact ⟨[], a ++ b, rfl, allZero_nil, rfl⟩
    · rw [dif_neg h]
      exact ⟨[], ds, rfl, allZero_nil, rfl⟩

omit [Platform] in
theorem skip_zeros1_eq (ds : List Byte) : ∀ (pre post : List Byte),
    skip_zeros1 (pre ++ (ds ++ post)) pre.length ds.length = .ok (pre.length + (ds.length - (sig ds).length)) := by
  induction ds with
  | nil => intro pre post; rfl
  | cons c ds ih =>
    intro pre post
    rw [List.length_cons, skip_zeros1, List.cons_append, rd_at, Res.bind_eq, Res.ok_bind]
    by_cases hc : c = ch '0'
    · rw [if_neg (by simpa using hc), append_cons, length_snoc pre c, ih]
      subst hc
      have := sig_length_le ds
      rw [sig_cons_zero, List.length_append, List.length_singleton]
      congr 1
      omega
    · rw [if_pos hc, sig_cons_ne hc]
      simp

theorem skip_zeros_range_eq (ds pre post : List Byte) :
    skip_zeros_range (pre ++ (ds ++ post)) pre.length (pre.length + ds.length) = .ok (pre.length + (ds.length - (sig ds).length)) := by
  unfold skip_zeros_range
  obtain ⟨a, b, rfl, hz, hr⟩ := skip_zeros8_eq ds.length ds rfl pre post
  rw [hr, Res.bind_eq, Res.ok_bind]
  have e : pre ++ (a ++ b ++ post) = pre ++ a ++ (b ++ post) := by simp only [List.append_assoc]
  have e1 : pre.length + a.length = (pre ++ a).length := by rw [List.length_append]
  have e2 : pre.length + (a ++ b).length - (pre ++ a).length = b.length := by simp only [List.length_append]; omega
  rw [e, e1, e2, skip_zeros1_eq, sig_zero_append hz]
  congr 1
  have := sig_length_le b
  simp only [List.length_append]
  omega

theorem is_truncated8_eq : ∀ (n : Nat) (ds : List Byte), ds.length = n → ∀ (pre post : List Byte),
    (∃ a b, ds = a ++ b ∧ AllZero a ∧
      is_truncated8 (pre ++ (ds ++ post)) pre.length (pre.length + ds.length) = .ok (some (pre.length + a.length))) ∨
    (sig ds ≠ [] ∧ is_truncated8 (pre ++ (ds ++ post)) pre.length (pre.length + ds.length) = .ok none) := by
  intro n
  induction n using Nat.strongRecOn with
  | _ n ih =>
    intro ds hn pre post
    rw [is_truncated8]
    by_cases h : pre.length + 8 ≤ pre.length + ds.length
    · rw [dif_pos h]
      obtain ⟨c0, c1, c2, c3, c4, c5, c6, c7, b, e0⟩ := split8 ds (by omega)
      obtain ⟨v, a, b, e1, ha, hv, hz⟩ := eight_zero pre (ds ++ post) (by rw [List.length_append]; omega)
      obtain ⟨d, rfl⟩ : ∃ d, ds = a ++ d := by
        have : a <+: ds ++ post := ⟨b, e1.symm⟩
        exact (List.prefix_of_prefix_length_le this (List.prefix_append ds post) (by omega)).imp fun _ h => h.symm
      rw [hv, Res.bind_eq, Res.ok_bind]
      by_cases hvz : v = int_cmp_zeros
      · rw [if_neg (by simpa using hvz)]
        have e : pre ++ (a ++ d ++ post) = pre ++ a ++ (d ++ post) := by simp only [List.append_assoc]
        have e2 : pre.length + 8 = (pre ++ a).length := by rw [List.length_append, ha]
        have e3 : pre.length + (a ++ d).length = (pre ++ a).length + d.length := by simp only [List.length_append]; omega
        rw [e, e2, e3]
        rcases ih d.length (by rw [← hn, List.length_append]; omega) d rfl (pre ++ a) post with ⟨a2, b2, f1, f2, f3⟩ | ⟨f1, f2⟩
        · refine Or.inl ⟨a ++ a2, b2, by rw [f1, List.append_assoc], allZero_append (hz.1 hvz) f2, ?_⟩
          rw [f3]
          simp only [List.length_append]
          rw [Nat.add_assoc]
        · refine Or.inr ⟨by rw [sig_zero_append (hz.1 hvz)]; exact f1, f2⟩
      · rw [if_pos hvz]
        refine Or.inr ⟨?_, rfl⟩
        have : ¬ AllZero a := fun h => hvz (hz.2 h)
        simp only [AllZero, not_forall] at this
        obtain ⟨c, hc, hc'⟩ := this
        exact sig_ne_of_mem (List.mem_append_left _ hc) hc'
    · rw [dif_neg h]
      exact Or.inl ⟨[], ds, rfl, allZero_nil, rfl⟩

omit [Platform] in
theorem is_truncated1_eq (ds : List Byte) : ∀ (pre post : List Byte),
    is_truncated1 (pre ++ (ds ++ post)) pre.length ds.length = .ok (decide (sig ds ≠ [])) := by
  induction ds with
  | nil => intro pre post; rfl
  | cons c ds ih =>
    intro pre post
    rw [List.length_cons, is_truncated1, List.cons_append, rd_at, Res.bind_eq, Res.ok_bind]
    by_cases hc : c = ch '0'
    · rw [if_neg (by simpa using hc), append_cons, length_snoc pre c, ih]
      subst hc
      rw [sig_cons_zero]
    · rw [if_pos hc, sig_cons_ne hc]
      simp

theorem is_truncated_eq (ds pre post : List Byte) :
    is_truncated (pre ++ (ds ++ post)) pre.length (pre.length + ds.length) = .ok (decide (sig ds ≠ [])) := by
  unfold is_truncated
  rcases is_truncated8_eq ds.length ds rfl pre post with ⟨a, b, rfl, hz, hr⟩ | ⟨h1, h2⟩
  · rw [hr, Res.bind_eq, Res.ok_bind]
    dsimp only
    have e : pre ++ (a ++ b ++ post) = pre ++ a ++ (b ++ post) := by simp only [List.append_assoc]
    have e1 : pre.length + a.length = (pre ++ a).length := by rw [List.length_append]
    have e2 : pre.length + (a ++ b).length - (pre ++ a).length = b.length := by simp only [List.length_append]; omega
    rw [e, e1, e2, is_truncated1_eq, sig_zero_append hz]
  · rw [h2, Res.bind_eq, Res.ok_bind]
    simp [h1]

/-! ## The inner loops -/

omit [Platform] in
theorem digits_value_lt {value counter : Nat} {a : List Byte} (hv : value < 10 ^ counter) (ha : AllDigits a) :
    value * 10 ^ a.length + decVal a < 10 ^ (counter + a.length) := by
  have h1 := decVal_lt ha
  have h2 : (value + 1) * 10 ^ a.length ≤ 10 ^ counter * 10 ^ a.length := Nat.mul_le_mul_right _ hv
  rw [pow_add]
  rw [add_mul, one_mul] at h2
  omega

theorem step_le : 9 ≤ step ∧ step ≤ 19 := by
  unfold step
  split <;> simp

theorem ten_pow_step : 10 ^ step < base := by
  unfold step
  rcases limb_bits_cases with ⟨h, hl⟩ | ⟨h, hl⟩
  · rw [if_pos h, base64 h]; norm_num
  · rw [if_neg (by simp [h]), base32 h]; norm_num

theorem lt_base_of_step {n k : Nat} (h : n < 10 ^ k) (hk : k ≤ step) : n < base := by
  have h1 : (10 : Nat) ^ k ≤ 10 ^ step := Nat.pow_le_pow_right (by norm_num) hk
  have := ten_pow_step
  omega

/-- The difference of two `size_t`, when it is not negative. -/
theorem size_sub {a b : Nat} (h : b ≤ a) (h8 : (a + size_range - b) % size_range ≥ 8) : b + 8 ≤ a := by
  have e : a + size_range - b = (a - b) + size_range := by omega
  rw [e, Nat.add_mod_right] at h8
  have := Nat.mod_le (a - b) size_range
  omega

theorem eight_digits_loop_eq {max : Nat} : ∀ (n : Nat) (ds : List Byte), ds.length = n → AllDigits ds →
    ∀ (pre post : List Byte) (value counter digits : Nat), value < 10 ^ counter → counter ≤ step → digits ≤ max →
    ∃ a b, ds = a ++ b ∧ counter + a.length ≤ step ∧ digits + a.length ≤ max ∧
      eight_digits_loop (pre ++ (ds ++ post)) (pre.length + ds.length) max pre.length value counter digits =
        .ok (pre.length + a.length, value * 10 ^ a.length + decVal a, counter + a.length, digits + a.length) := by
  intro n
  induction n using Nat.strongRecOn with
  | _ n ih =>
    intro ds hn hd pre post value counter digits hv hc hdm
    rw [eight_digits_loop]
    by_cases h : pre.length + 8 ≤ pre.length + ds.length ∧ (step + size_range - counter) % size_range ≥ 8 ∧
        (max + size_range - digits) % size_range ≥ 8
    · rw [dif_pos h]
      obtain ⟨h8, hs, hm⟩ := h
      have hc8 : counter + 8 ≤ step := size_sub hc hs
      have hd8 : digits + 8 ≤ max := size_sub hdm hm
      obtain ⟨c0, c1, c2, c3, c4, c5, c6, c7, r, e0⟩ := split8 ds (by omega)
      obtain ⟨v, hv1, -, hv3⟩ := eight_step pre (r ++ post) c0 c1 c2 c3 c4 c5 c6 c7
      obtain ⟨a, ha, ha8⟩ : ∃ a, a = [c0, c1, c2, c3, c4, c5, c6, c7] ∧ a.length = 8 := ⟨_, rfl, rfl⟩
      have e1 : ds = a ++ r := by rw [e0, ha]; rfl
      have hda : AllDigits a := allDigits_left (e1 ▸ hd)
      have hdr : AllDigits r := allDigits_right (e1 ▸ hd)
      have hv1' : read8_to_u64 (pre ++ (ds ++ post)) pre.length = .ok v := by rw [e0]; exact hv1
      rw [hv1', Res.bind_eq, Res.ok_bind, hv3 (ha ▸ hda), ← ha]
      have hlt := digits_value_lt hv hda
      rw [ha8] at hlt
      have hstep : (value * 100000000 + decVal a) % 2 ^ limb_bits = value * 10 ^ 8 + decVal a :=
        Nat.mod_eq_of_lt (lt_base_of_step hlt hc8)
      rw [hstep]
      obtain ⟨a2, b2, f1, f2, f3, f4⟩ := ih r.length (by rw [← hn, e1, List.length_append]; omega) r rfl hdr (pre ++ a) post
        (value * 10 ^ 8 + decVal a) (counter + 8) (digits + 8) hlt hc8 hd8
      refine ⟨a ++ a2, b2, by rw [e1, f1, List.append_assoc], by rw [List.length_append]; omega,
        by rw [List.length_append]; omega, ?_⟩
      have g1 : pre ++ (ds ++ post) = pre ++ a ++ (r ++ post) := by rw [e1]; simp only [List.append_assoc]
      have g2 : pre.length + 8 = (pre ++ a).length := by rw [List.length_append, ha8]
      have g3 : pre.length + ds.length = (pre ++ a).length + r.length := by rw [e1]; simp only [List.length_append]; omega
      rw [g1, g2, g3, f4]
      simp only [List.length_append, ha8, decVal_append, pow_add]
      rw [Res.ok.injEq, Prod.mk.injEq, Prod.mk.injEq, Prod.mk.injEq]
      exact ⟨by omega, by ring, by omega, by omega⟩
    · rw [dif_neg h]
      exact ⟨[], ds, rfl, by simpa using hc, by simpa using hdm, by simp [decVal_nil]⟩

theorem digit_toInt {c : Byte} (h : DecDigit c) : ((c.toInt - 48) % 2 ^ limb_bits).toNat = c.toNat - 48 := by
  obtain ⟨h1, h2⟩ := h
  have : c.toInt = (c.toNat : Int) := by
    rw [BitVec.toInt_eq_toNat_cond]
    rw [if_pos (by omega)]
  rw [this]
  rcases limb_bits_cases with ⟨_, h⟩ | ⟨_, h⟩ <;> rw [h] <;> omega

theorem one_digit_loop_eq {max : Nat} : ∀ (ds : List Byte), AllDigits ds →
    ∀ (pre post : List Byte) (value counter digits : Nat), value < 10 ^ counter → counter ≤ step → digits ≤ max →
    ∃ a b, ds = a ++ b ∧ counter + a.length ≤ step ∧ digits + a.length ≤ max ∧
      (counter + a.length = step ∨ b = [] ∨ digits + a.length = max) ∧
      one_digit_loop (pre ++ (ds ++ post)) (pre.length + ds.length) max pre.length value counter digits =
        .ok (pre.length + a.length, value * 10 ^ a.length + decVal a, counter + a.length, digits + a.length) := by
  intro ds
  induction ds with
  | nil =>
    intro _ pre post value counter digits hv hc hdm
    refine ⟨[], [], rfl, by simpa using hc, by simpa using hdm, by simp, ?_⟩
    rw [one_digit_loop, dif_neg (by simp)]
    simp [decVal_nil]
  | cons c ds ih =>
    intro hd pre post value counter digits hv hc hdm
    rw [one_digit_loop]
    by_cases h : counter < step ∧ pre.length ≠ pre.length + (c :: ds).length ∧ digits < max
    · rw [dif_pos h, List.cons_append, rd_at, Res.bind_eq, Res.ok_bind]
      have hcd : DecDigit c := hd c List.mem_cons_self
      rw [digit_toInt hcd]
      have hda : AllDigits [c] := by intro x hx; rw [List.mem_singleton.1 hx]; exact hcd
      have hlt := digits_value_lt hv hda
      have e1 : value * 10 ^ [c].length + decVal [c] = value * 10 + (c.toNat - 48) := by simp [decVal_cons, decVal_nil]
      rw [e1, List.length_singleton] at hlt
      rw [← base_eq, Nat.mod_eq_of_lt (lt_base_of_step hlt h.1)]
      obtain ⟨a2, b2, f1, f2, f3, f4, f5⟩ := ih (fun x hx => hd x (List.mem_cons_of_mem _ hx)) (pre ++ [c]) post
        (value * 10 + (c.toNat - 48)) (counter + 1) (digits + 1) hlt h.1 h.2.2
      refine ⟨c :: a2, b2, by rw [f1]; rfl, by rw [List.length_cons]; omega, by rw [List.length_cons]; omega, ?_, ?_⟩
      · rw [List.length_cons]
        rcases f4 with f4 | f4 | f4
        · left; omega
        · right; left; exact f4
        · right; right; omega
      · have g3 : pre.length + (c :: ds).length = (pre ++ [c]).length + ds.length := by
          simp only [List.length_append, List.length_cons, List.length_nil]; omega
        rw [append_cons, length_snoc pre c, g3, f5]
        simp only [List.length_append, List.length_nil, List.length_cons, decVal_cons, pow_succ]
        rw [Res.ok.injEq, Prod.mk.injEq, Prod.mk.injEq, Prod.mk.injEq]
        exact ⟨by omega, by ring, by omega, by omega⟩
    · rw [dif_neg h]
      refine ⟨[], c :: ds, rfl, by simpa using hc, by simpa using hdm, ?_, by simp [decVal_nil]⟩
      simp only [List.length_cons, List.length_nil, Nat.add_zero] at h ⊢
      omega

/-! ## The outer loop -/

theorem ten_get (e : Nat) (he : e ≤ step) : limb_power_of_ten e = .ok (10 ^ e) := by
  have : ∀ e < 20, rd powers_of_ten_uint64 e = .ok (10 ^ e) := by decide +kernel
  unfold limb_power_of_ten
  rw [this e (by have := step_le; omega), Res.bind_eq, Res.ok_bind, ← base_eq, Nat.mod_eq_of_lt, Res.pure_eq]
  have h1 : (10 : Nat) ^ e ≤ 10 ^ step := Nat.pow_le_pow_right (by norm_num) he
  have := ten_pow_step
  omega

theorem add_native_big {v : bigint} {n power value : Nat} (h : Big v n) (hp0 : 0 < power) (hp : power < base) (hv : value < base)
    (hb : n * power + value < base ^ bigint_limbs) : Big (add_native v power value) (n * power + value) := by
  obtain ⟨v1, a1, a2⟩ := small_mul_big h hp0 hp (by omega)
  obtain ⟨v2, b1, b2⟩ := small_add_big a2 hv hb
  unfold add_native
  rw [a1, b1]
  exact b2

/-- What the outer loop does with the digits `ds`, when `digits` have been taken before. -/
theorem mantissa_loop_eq {max : Nat} (hcap : 10 ^ (max + 1) < base ^ bigint_limbs) {m : Bool} :
    ∀ (fuel : Nat) (ds : List Byte), ds.length < fuel → AllDigits ds → ∀ (pre post : List Byte) (digits n : Nat) (result : bigint),
    digits < max → Big result n → n < 10 ^ digits →
    (ds.length < max - digits → ∃ r, Big r (n * 10 ^ ds.length + decVal ds) ∧
      mantissa_loop (pre ++ (ds ++ post)) (pre.length + ds.length) max (.ok m) fuel pre.length 0 0 digits result =
        .ok (.exhausted r (digits + ds.length) 0 0)) ∧
    (max - digits ≤ ds.length → ∃ r k, mantissa_loop (pre ++ (ds ++ post)) (pre.length + ds.length) max (.ok m) fuel pre.length 0 0
        digits result = .ok (.returned r k) ∧
      (if sig (ds.drop (max - digits)) ≠ [] ∨ m = true then
          Big r ((n * 10 ^ (max - digits) + decVal (ds.take (max - digits))) * 10 + 1) ∧ k = max + 1
        else Big r (n * 10 ^ (max - digits) + decVal (ds.take (max - digits))) ∧ k = max)) := by
  intro fuel
  induction fuel with
  | zero => intro ds h; omega
  | succ fuel ih =>
    intro ds hfuel hd pre post digits n result hdig hbig hn
    rw [mantissa_loop]
    by_cases hds : ds = []
    · subst hds
      refine ⟨fun _ => ⟨result, by simpa [decVal_nil] using hbig, ?_⟩, fun h => by simp at h; omega⟩
      rw [if_neg (by simp)]
      rfl
    · have hpos : 0 < ds.length := List.length_pos_iff.2 hds
      rw [if_pos (by omega)]
      obtain ⟨a1, b1, rfl, c1, d1, l1⟩ := eight_digits_loop_eq (max := max) ds.length ds rfl hd pre post 0 0 digits (by norm_num) (by norm_num)
        (by omega)
      simp only [Res.bind_eq, l1, Res.ok_bind]
      have hda1 := allDigits_left hd
      have hdb1 := allDigits_right hd
      have hv1 := digits_value_lt (value := 0) (counter := 0) (by norm_num) hda1
      obtain ⟨a2, b2, rfl, c2, d2, e2, l2⟩ := one_digit_loop_eq (max := max) b1 hdb1 (pre ++ a1) post (0 * 10 ^ a1.length + decVal a1)
        (0 + a1.length) (digits + a1.length) hv1 c1 d1
      have g1 : pre ++ (a1 ++ (a2 ++ b2) ++ post) = pre ++ a1 ++ (a2 ++ b2 ++ post) := by simp only [List.append_assoc]
      have g2 : pre.length + a1.length = (pre ++ a1).length := by rw [List.length_append]
      have g3 : pre.length + (a1 ++ (a2 ++ b2)).length = (pre ++ a1).length + (a2 ++ b2).length := by
        simp only [List.length_append]; omega
      have l2' : one_digit_loop (pre ++ (a1 ++ (a2 ++ b2) ++ post)) (pre.length + (a1 ++ (a2 ++ b2)).length) max
          (pre.length + a1.length) (0 * 10 ^ a1.length + decVal a1) (0 + a1.length) (digits + a1.length) =
          .ok ((pre ++ (a1 ++ a2)).length, decVal (a1 ++ a2), (a1 ++ a2).length, digits + (a1 ++ a2).length) := by
        rw [g1, g3, g2, l2]
        simp only [List.length_append, decVal_append, Nat.zero_mul, Nat.zero_add, Nat.add_assoc]
      rw [l2', Res.ok_bind]
      dsimp only
      -- from here on in terms of the digits taken in this round
      obtain ⟨a, ha⟩ : ∃ a, a = a1 ++ a2 := ⟨_, rfl⟩
      have hall : a1 ++ (a2 ++ b2) = a ++ b2 := by rw [ha, List.append_assoc]
      rw [← ha, hall]
      rw [hall] at hpos hd hfuel
      have ca : a.length ≤ step := by rw [ha, List.length_append]; omega
      have da : digits + a.length ≤ max := by rw [ha, List.length_append]; omega
      have ea : a.length = step ∨ b2 = [] ∨ digits + a.length = max := by
        rw [ha, List.length_append]
        rcases e2 with e2 | e2 | e2
        · left; omega
        · right; left; exact e2
        · right; right; omega
      have hda := allDigits_left hd
      have hdb := allDigits_right hd
      rw [ten_get _ ca, Res.ok_bind]
      have hval := decVal_lt hda
      have hn' : n * 10 ^ a.length + decVal a < 10 ^ (digits + a.length) := digits_value_lt hn hda
      have hpow : (10 : Nat) ^ (digits + a.length) ≤ 10 ^ (max + 1) := Nat.pow_le_pow_right (by norm_num) (by omega)
      have hadd : Big (add_native result (10 ^ a.length) (decVal a)) (n * 10 ^ a.length + decVal a) := by
        refine add_native_big hbig (Nat.pow_pos (by norm_num)) ?_ (lt_base_of_step hval ca) (by omega)
        have : (10 : Nat) ^ a.length ≤ 10 ^ step := Nat.pow_le_pow_right (by norm_num) ca
        have := ten_pow_step
        omega
      by_cases hfull : digits + a.length = max
      · rw [if_pos hfull]
        have hr : max - digits = a.length := by omega
        refine ⟨fun h => by rw [List.length_append] at h; omega, fun _ => ?_⟩
        have t1 := is_truncated_eq b2 (pre ++ a) post
        have t2 : is_truncated (pre ++ (a ++ b2 ++ post)) (pre ++ a).length (pre.length + (a ++ b2).length) =
            .ok (decide (sig b2 ≠ [])) := by
          rw [← t1]
          congr 1
          · simp only [List.append_assoc]
          · simp only [List.length_append]; omega
        rw [t2, Res.ok_bind, hr, List.drop_left, List.take_left]
        have hor : ((decide (sig b2 ≠ []) || m) = true) ↔ (sig b2 ≠ [] ∨ m = true) := by simp
        by_cases htr : sig b2 ≠ [] ∨ m = true
        · rw [if_pos (hor.2 htr)]
          refine ⟨_, _, rfl, ?_⟩
          rw [if_pos htr]
          refine ⟨?_, ?_⟩
          · refine add_native_big hadd (by norm_num) (by have := base_ge; omega) one_lt_base ?_
            have : n * 10 ^ a.length + decVal a < 10 ^ max := by rw [← hfull]; exact hn'
            rw [pow_succ] at hcap
            omega
          · rw [round_up_bigint, hfull]
        · rw [if_neg (fun h => htr (hor.1 h))]
          refine ⟨_, _, rfl, ?_⟩
          rw [if_neg htr]
          exact ⟨hadd, hfull⟩
      · rw [if_neg hfull]
        have ha0 : 0 < a.length := by
          rcases ea with ea | ea | ea
          · have := step_le; omega
          · rw [ea, List.append_nil] at hpos; exact hpos
          · omega
        rw [List.length_append] at hfuel
        obtain ⟨i1, i2⟩ := ih b2 (by omega) hdb (pre ++ a) post (digits + a.length) _ _ (by omega) hadd hn'
        have g1 : pre ++ (a ++ b2 ++ post) = pre ++ a ++ (b2 ++ post) := by simp only [List.append_assoc]
        have g2 : pre.length + (a ++ b2).length = (pre ++ a).length + b2.length := by simp only [List.length_append]; omega
        rw [g1, g2]
        have hcomb : (n * 10 ^ a.length + decVal a) * 10 ^ b2.length + decVal b2 = n * 10 ^ (a ++ b2).length + decVal (a ++ b2) := by
          rw [decVal_append, List.length_append, pow_add]; ring
        constructor
        · intro h
          rw [List.length_append] at h
          obtain ⟨r, j1, j2⟩ := i1 (by omega)
          refine ⟨r, by rw [← hcomb]; exact j1, ?_⟩
          rw [j2, List.length_append, Nat.add_assoc]
        · intro h
          rw [List.length_append] at h
          obtain ⟨r, k, j1, j2⟩ := i2 (by omega)
          refine ⟨r, k, j1, ?_⟩
          have hs : max - digits = a.length + (max - (digits + a.length)) := by omega
          generalize max - (digits + a.length) = u at *
          rw [hs, List.drop_append, List.take_append, List.drop_of_length_le (by omega), List.take_of_length_le (by omega),
            Nat.add_sub_cancel_left, List.nil_append]
          have hcomb2 : (n * 10 ^ a.length + decVal a) * 10 ^ u + decVal (b2.take u) =
              n * 10 ^ (a.length + u) + decVal (a ++ b2.take u) := by
            have : (b2.take u).length = u := by rw [List.length_take]; omega
            rw [decVal_append, pow_add, this]; ring
          rw [← hcomb2]
          exact j2

/-! ## All digits -/

/-- What is made of the significant digits `S`: value and number of digits. At most `max` are taken; one more is added if something other than
zeroes was cut off. -/
def mantOf (max : Nat) (S : List Byte) : Nat × Nat :=
  if S.length ≤ max then (decVal S, S.length)
  else if sig (S.drop max) ≠ [] then (decVal (S.take max) * 10 + 1, max + 1)
  else (decVal (S.take max), max)

omit [Platform] in
theorem sig_append_ne_iff (a b : List Byte) : sig (a ++ b) ≠ [] ↔ sig a ≠ [] ∨ sig b ≠ [] := by
  by_cases h : sig a = []
  · rw [sig_append_nil h]; simp [h]
  · rw [sig_append h]; simp [h]

omit [Platform] in
theorem sig_suffix (l : List Byte) : ∃ z, l = z ++ sig l ∧ z.length = l.length - (sig l).length := by
  refine ⟨l.takeWhile (· == ch '0'), (List.takeWhile_append_dropWhile).symm, ?_⟩
  have h : (l.takeWhile (· == ch '0')).length + (sig l).length = l.length := by
    rw [← List.length_append]
    exact congrArg List.length List.takeWhile_append_dropWhile
  omega

theorem parse_mantissa_eq {max : Nat} (hmax0 : 0 < max) (hcap : 10 ^ (max + 1) < base ^ bigint_limbs)
    {d : DecLit} (hd : AllDigits d.digits) {r : parsed_number_string} (P : Parsed r d) {rest s : List Byte} (hs : s = d.text ++ rest) :
    ∃ v, parse_mantissa s r max = .ok (v, (mantOf max (sig d.digits)).2) ∧ Big v (mantOf max (sig d.digits)).1 := by
  have hdi : AllDigits d.int := allDigits_left hd
  have hdf : AllDigits d.fdigits := allDigits_right hd
  -- the integer part in the text
  obtain ⟨pre, hpre⟩ : ∃ pre, pre = signText d.neg := ⟨_, rfl⟩
  obtain ⟨post, hpost⟩ : ∃ post, post = fracText d.frac ++ (d.exp.elim [] ExpPart.text ++ rest) := ⟨_, rfl⟩
  have hs1 : s = pre ++ (d.int ++ post) := by
    rw [hs, text_eq, hpre, hpost]; simp only [List.append_assoc]
  obtain ⟨z, hz, hzl⟩ := sig_suffix d.int
  have hs2 : s = (pre ++ z) ++ (sig d.int ++ post) := by
    rw [hs1]; conv_lhs => rw [hz]
    simp only [List.append_assoc]
  have hp : pre.length + (d.int.length - (sig d.int).length) = (pre ++ z).length := by rw [List.length_append, hzl]
  have hend : pre.length + d.int.length = (pre ++ z).length + (sig d.int).length := by
    have := sig_length_le d.int
    rw [List.length_append, hzl]; omega
  have hsd : AllDigits (sig d.int) := allDigits_sig hdi
  unfold parse_mantissa
  rw [P.integer, P.fraction]
  dsimp only
  rw [← hpre]
  have hskip : skip_zeros_range s pre.length (pre.length + d.int.length) = .ok (pre ++ z).length := by
    rw [← hp, hs1]; exact skip_zeros_range_eq ..
  rw [hskip, Res.bind_eq, Res.ok_bind]
  -- the fraction in the text
  have hfrac : d.frac.isSome = true → ∃ pre2 post2, s = pre2 ++ (d.fdigits ++ post2) ∧ pre2.length = pre.length + d.int.length + 1 := by
    intro hf
    obtain ⟨f, hf⟩ := Option.isSome_iff_exists.1 hf
    refine ⟨pre ++ d.int ++ [ch '.'], d.exp.elim [] ExpPart.text ++ rest, ?_, by simp [List.length_append]; omega⟩
    rw [hs1, hpost, DecLit.fdigits, hf]
    simp [fracText]
  have hmore : ∃ m, (if (if d.frac.isSome then (pre.length + d.int.length + 1, d.fdigits.length) else (0, 0)).1 ≠ 0 then
      is_truncated s (if d.frac.isSome then (pre.length + d.int.length + 1, d.fdigits.length) else (0, 0)).1
        ((if d.frac.isSome then (pre.length + d.int.length + 1, d.fdigits.length) else (0, 0)).1 +
          (if d.frac.isSome then (pre.length + d.int.length + 1, d.fdigits.length) else (0, 0)).2) else .ok false) = .ok m ∧
      (m = true ↔ sig d.fdigits ≠ []) := by
    by_cases hf : d.frac.isSome = true
    · obtain ⟨pre2, post2, h1, h2⟩ := hfrac hf
      rw [if_pos hf, if_pos (by simp)]
      dsimp only
      rw [← h2, h1, is_truncated_eq]
      exact ⟨_, rfl, by simp⟩
    · rw [if_neg hf]
      have : d.fdigits = [] := by
        rw [DecLit.fdigits]
        cases h : d.frac with
        | none => rfl
        | some f => rw [h] at hf; simp at hf
      exact ⟨false, rfl, by simp [this, sig]⟩
  obtain ⟨m, hm1, hm2⟩ := hmore
  rw [hm1]
  have hfuel : (sig d.int).length < pre.length + d.int.length - (pre ++ z).length + 1 := by omega
  obtain ⟨i1, i2⟩ := mantissa_loop_eq hcap (m := m) _ (sig d.int) hfuel hsd (pre ++ z) post 0 0 [] hmax0 Big.zero (by norm_num)
  rw [← hs2, ← hend, Nat.sub_zero] at i1 i2
  by_cases hlong : (sig d.int).length < max
  · -- all of the integer part is taken
    obtain ⟨r1, b1, l1⟩ := i1 hlong
    rw [Nat.zero_mul, Nat.zero_add] at b1
    rw [l1, Res.bind_eq, Res.ok_bind]
    dsimp only
    unfold parse_mantissa_fraction
    rw [P.fraction, ← hpre, Nat.zero_add]
    by_cases hf : d.frac.isSome = true
    · obtain ⟨pre2, post2, h1, h2⟩ := hfrac hf
      rw [if_pos hf, if_pos (by simp)]
      dsimp only
      rw [← h2]
      -- the digits of the fraction that are left
      obtain ⟨z2, F, e1, e2, e3⟩ : ∃ z2 F, d.fdigits = z2 ++ F ∧ sig d.digits = sig d.int ++ F ∧
          (if (sig d.int).length = 0 then skip_zeros_range s pre2.length (pre2.length + d.fdigits.length) else .ok pre2.length) =
            .ok (pre2 ++ z2).length := by
        by_cases h0 : sig d.int = []
        · obtain ⟨z2, hz2, hz2l⟩ := sig_suffix d.fdigits
          refine ⟨z2, sig d.fdigits, hz2, by rw [DecLit.digits, sig_append_nil h0, h0]; rfl, ?_⟩
          rw [if_pos (by rw [h0]; rfl), h1, skip_zeros_range_eq, List.length_append, hz2l]
        · refine ⟨[], d.fdigits, rfl, by rw [DecLit.digits, sig_append h0], ?_⟩
          rw [if_neg (by rw [List.length_eq_zero_iff]; exact h0), List.append_nil]
      rw [e3, Res.bind_eq, Res.bind_eq, Res.ok_bind]
      have hs3 : s = (pre2 ++ z2) ++ (F ++ post2) := by rw [h1, e1]; simp only [List.append_assoc]
      have hend2 : pre2.length + d.fdigits.length = (pre2 ++ z2).length + F.length := by
        rw [e1]; simp only [List.length_append]; omega
      have hdF : AllDigits F := allDigits_right (e1 ▸ hdf)
      have hfuel2 : F.length < pre2.length + d.fdigits.length - (pre2 ++ z2).length + 1 := by omega
      obtain ⟨j1, j2⟩ := mantissa_loop_eq hcap (m := false) _ F hfuel2 hdF (pre2 ++ z2) post2 (sig d.int).length _ r1 hlong b1
        (decVal_lt hsd)
      rw [← hs3, ← hend2] at j1 j2
      by_cases hl2 : F.length < max - (sig d.int).length
      · obtain ⟨r2, b2, l2⟩ := j1 hl2
        rw [l2, Res.ok_bind]
        refine ⟨r2, ?_, ?_⟩
        · dsimp only
          rw [if_neg (by simp), mantOf, e2, if_pos (by rw [List.length_append]; omega), List.length_append]
          rfl
        · rw [mantOf, e2, if_pos (by rw [List.length_append]; omega), decVal_append]
          exact b2
      · obtain ⟨r2, k2, l2, c2⟩ := j2 (by omega)
        rw [l2, Res.ok_bind]
        have htake : (sig d.int ++ F).take max = sig d.int ++ F.take (max - (sig d.int).length) := by
          rw [List.take_append, List.take_of_length_le (by omega)]
        have hdrop : (sig d.int ++ F).drop max = F.drop (max - (sig d.int).length) := by
          rw [List.drop_append, List.drop_of_length_le (by omega), List.nil_append]
        have hlen : (F.take (max - (sig d.int).length)).length = max - (sig d.int).length := by rw [List.length_take]; omega
        have hval : decVal ((sig d.int ++ F).take max) =
            decVal (sig d.int) * 10 ^ (max - (sig d.int).length) + decVal (F.take (max - (sig d.int).length)) := by
          rw [htake, decVal_append, hlen]
        refine ⟨r2, ?_⟩
        dsimp only
        rw [e2]
        by_cases hcut : sig (F.drop (max - (sig d.int).length)) ≠ []
        · rw [if_pos (Or.inl hcut)] at c2
          have hgt : ¬ (sig d.int ++ F).length ≤ max := by
            intro hle
            rw [List.length_append] at hle
            exact hcut (by rw [List.drop_of_length_le (by omega)]; rfl)
          rw [mantOf, if_neg hgt, if_pos (by rw [hdrop]; exact hcut), hval]
          exact ⟨by rw [c2.2]; rfl, c2.1⟩
        · rw [if_neg (by rintro (h | h); · exact hcut h
                         · exact absurd h (by simp))] at c2
          by_cases hle : (sig d.int ++ F).length ≤ max
          · have hlen2 : (sig d.int ++ F).length = max := by
              rw [List.length_append] at hle ⊢; omega
            rw [List.take_of_length_le hle] at hval
            rw [mantOf, if_pos hle, hval, hlen2]
            exact ⟨by rw [c2.2]; rfl, c2.1⟩
          · rw [mantOf, if_neg hle, if_neg (by rw [hdrop]; exact hcut), hval]
            exact ⟨by rw [c2.2]; rfl, c2.1⟩
    · have hf0 : d.fdigits = [] := by
        rw [DecLit.fdigits]
        cases h : d.frac with
        | none => rfl
        | some f => rw [h] at hf; simp at hf
      rw [if_neg hf]
      refine ⟨r1, ?_⟩
      have hD : sig d.digits = sig d.int := by rw [DecLit.digits, hf0, List.append_nil]
      have hM : mantOf max (sig d.int) = (decVal (sig d.int), (sig d.int).length) := by rw [mantOf, if_pos (by omega)]
      rw [hD, hM]
      exact ⟨rfl, b1⟩
  · -- the integer part alone has enough digits
    obtain ⟨r1, k1, l1, c1⟩ := i2 (by omega)
    rw [Nat.zero_mul, Nat.zero_add] at c1
    rw [l1, Res.bind_eq, Res.ok_bind]
    refine ⟨r1, ?_⟩
    dsimp only
    have hne : sig d.int ≠ [] := by
      intro h; rw [h] at hlong; simp at hlong; omega
    have hD : sig d.digits = sig d.int ++ d.fdigits := by rw [DecLit.digits, sig_append hne]
    have htake : (sig d.int ++ d.fdigits).take max = (sig d.int).take max := by
      rw [List.take_append, Nat.sub_eq_zero_of_le (by omega), List.take_zero, List.append_nil]
    have hdrop : (sig d.int ++ d.fdigits).drop max = (sig d.int).drop max ++ d.fdigits := by
      rw [List.drop_append, Nat.sub_eq_zero_of_le (by omega), List.drop_zero]
    have hcutiff : sig ((sig d.int ++ d.fdigits).drop max) ≠ [] ↔ sig ((sig d.int).drop max) ≠ [] ∨ m = true := by
      rw [hdrop, sig_append_ne_iff, hm2]
    rw [hD]
    by_cases hcut : sig ((sig d.int).drop max) ≠ [] ∨ m = true
    · rw [if_pos hcut] at c1
      have hcut' := hcutiff.2 hcut
      have hgt : ¬ (sig d.int ++ d.fdigits).length ≤ max := by
        intro hle
        exact hcut' (by rw [List.drop_of_length_le hle]; rfl)
      rw [mantOf, if_neg hgt, if_pos hcut', htake]
      exact ⟨by rw [c1.2]; rfl, c1.1⟩
    · rw [if_neg hcut] at c1
      have hcut' : ¬ sig ((sig d.int ++ d.fdigits).drop max) ≠ [] := fun h => hcut (hcutiff.1 h)
      by_cases hle : (sig d.int ++ d.fdigits).length ≤ max
      · have hlen2 : (sig d.int ++ d.fdigits).length = max := by
          rw [List.length_append] at hle ⊢; omega
        have := htake
        rw [List.take_of_length_le hle] at this
        rw [mantOf, if_pos hle, hlen2, this]
        exact ⟨by rw [c1.2]; rfl, c1.1⟩
      · rw [mantOf, if_neg hle, if_neg hcut', htake]
        exact ⟨by rw [c1.2]; rfl, c1.1⟩

end Utki.FastFloat
