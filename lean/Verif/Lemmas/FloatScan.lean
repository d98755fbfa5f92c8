import Verif.Lemmas.Swar
import Verif.Lemmas.Platform
/-!
# The loops of the number scanner

What each loop of the scanner computes, for any text, in terms of the digits it stands before.
-/
namespace Utki.FastFloat
open Spec

/-! ## Digits -/

theorem is_integer_iff (c : Byte) : is_integer c = true ↔ DecDigit c := by
  unfold is_integer DecDigit
  simp only [Bool.not_eq_true', Bool.or_eq_false_iff, decide_eq_false_iff_not, not_lt]
  constructor <;> rintro ⟨h1, h2⟩ <;> constructor <;> omega

/-- The digits at the beginning of a text. -/
abbrev tw (t : List Byte) : List Byte := t.takeWhile is_integer
/-- What follows them. -/
abbrev dw (t : List Byte) : List Byte := t.dropWhile is_integer

theorem tw_dw (t : List Byte) : tw t ++ dw t = t := List.takeWhile_append_dropWhile

theorem tw_digits (t : List Byte) : AllDigits (tw t) := by
  intro c hc
  rw [← is_integer_iff]
  exact List.all_eq_true.1 (List.all_takeWhile (p := is_integer) (l := t)) c hc

theorem tw_cons_pos {c : Byte} {t : List Byte} (h : is_integer c = true) : tw (c :: t) = c :: tw t :=
  List.takeWhile_cons_of_pos h
theorem tw_cons_neg {c : Byte} {t : List Byte} (h : ¬ is_integer c = true) : tw (c :: t) = [] :=
  List.takeWhile_cons_of_neg h

theorem allDigits_nil : AllDigits [] := by intro c hc; cases hc

theorem allDigits_append {a b : List Byte} (ha : AllDigits a) (hb : AllDigits b) : AllDigits (a ++ b) := by
  intro c hc
  rcases List.mem_append.1 hc with h | h
  · exact ha c h
  · exact hb c h

theorem allDigits_left {a b : List Byte} (h : AllDigits (a ++ b)) : AllDigits a :=
  fun c hc => h c (List.mem_append_left _ hc)
theorem allDigits_right {a b : List Byte} (h : AllDigits (a ++ b)) : AllDigits b :=
  fun c hc => h c (List.mem_append_right _ hc)

theorem tw_append {a b : List Byte} (ha : AllDigits a) : tw (a ++ b) = a ++ tw b :=
  List.takeWhile_append_of_pos fun c hc => (is_integer_iff c).2 (ha c hc)

theorem dw_append {a b : List Byte} (ha : AllDigits a) : dw (a ++ b) = dw b :=
  List.dropWhile_append_of_pos fun c hc => (is_integer_iff c).2 (ha c hc)

theorem foldl_dec (l : List Byte) : ∀ v, l.foldl (fun v c => 10 * v + (c.toNat - 48)) v = v * 10 ^ l.length + decVal l := by
  induction l with
  | nil => intro v; simp [decVal]
  | cons c l ih =>
    intro v
    unfold decVal
    simp only [List.foldl_cons, List.length_cons, ih]
    ring

theorem decVal_nil : decVal [] = 0 := rfl

theorem decVal_cons (c : Byte) (l : List Byte) : decVal (c :: l) = (c.toNat - 48) * 10 ^ l.length + decVal l := by
  show List.foldl _ _ _ = _
  simp only [List.foldl_cons, foldl_dec]
  simp

theorem decVal_append (a b : List Byte) : decVal (a ++ b) = decVal a * 10 ^ b.length + decVal b := by
  show List.foldl _ _ _ = _
  rw [List.foldl_append, foldl_dec]; rfl

theorem decVal_lt {l : List Byte} (h : AllDigits l) : decVal l < 10 ^ l.length := by
  induction l with
  | nil => simp [decVal]
  | cons c l ih =>
    rw [decVal_cons, List.length_cons, pow_succ]
    have h1 := ih fun x hx => h x (List.mem_cons_of_mem _ hx)
    have h2 : c.toNat - 48 ≤ 9 := by have := h c (List.mem_cons_self); unfold DecDigit at this; omega
    have := Nat.mul_le_mul_right (10 ^ l.length) h2
    omega

/-- The accumulator of the scanner after the digits `ds`. -/
def acc (i : Nat) (ds : List Byte) : Nat := (i * 10 ^ ds.length + decVal ds) % 2 ^ 64

theorem acc_nil {i : Nat} (h : i < 2 ^ 64) : acc i [] = i := by
  simp only [acc, decVal_nil, List.length_nil, pow_zero, mul_one, add_zero]
  exact Nat.mod_eq_of_lt h

theorem acc_lt (i : Nat) (ds : List Byte) : acc i ds < 2 ^ 64 := Nat.mod_lt _ (by norm_num)

theorem acc_append (i : Nat) (a b : List Byte) : acc (acc i a) b = acc i (a ++ b) := by
  unfold acc
  rw [Nat.add_mod, Nat.mod_mul_mod, ← Nat.add_mod, decVal_append, List.length_append, pow_add]
  congr 1
  ring

theorem acc_single (i : Nat) (c : Byte) : acc i [c] = (10 * i + (c.toNat - 48)) % 2 ^ 64 := by
  unfold acc
  rw [decVal_cons, decVal_nil]
  simp only [List.length_nil, List.length_singleton, pow_zero, pow_one, mul_one, add_zero]
  rw [mul_comm]

theorem rd_at (pre t : List Byte) (c : Byte) : rd (pre ++ c :: t) pre.length = .ok c := by
  simp [rd]

theorem length_snoc (pre : List Byte) (c : Byte) : pre.length + 1 = (pre ++ [c]).length := by simp

theorem append_cons (pre t : List Byte) (c : Byte) : pre ++ c :: t = (pre ++ [c]) ++ t := by simp

/-! ## The loops -/

theorem digit_loop_eq (t : List Byte) : ∀ (pre : List Byte) (i : Nat), i < 2 ^ 64 →
    digit_loop (pre ++ t) pre.length t.length i = .ok (pre.length + (tw t).length, acc i (tw t)) := by
  induction t with
  | nil => intro pre i hi; simp [digit_loop, acc_nil hi]
  | cons c t ih =>
    intro pre i hi
    rw [List.length_cons, digit_loop]
    simp only [Res.bind_eq, rd_at, Res.ok_bind]
    by_cases hc : is_integer c = true
    · rw [if_pos hc, append_cons, length_snoc pre c, ih _ _ (Nat.mod_lt _ (by norm_num))]
      rw [tw_cons_pos hc]
      rw [← acc_single, acc_append]
      simp only [List.length_append, List.length_cons, List.length_nil, List.singleton_append]
      congr 2
      omega
    · rw [if_neg hc, tw_cons_neg hc, acc_nil hi]
      rfl

theorem toNat_lt (c : Byte) : c.toNat < 256 := c.isLt

/-- One step of eight digits. -/
theorem eight_step [Platform] (pre t : List Byte) (c0 c1 c2 c3 c4 c5 c6 c7 : Byte) :
    ∃ v, read8_to_u64 (pre ++ c0 :: c1 :: c2 :: c3 :: c4 :: c5 :: c6 :: c7 :: t) pre.length = .ok v ∧
      (is_made_of_eight_digits_fast v = true ↔ AllDigits [c0, c1, c2, c3, c4, c5, c6, c7]) ∧
      (AllDigits [c0, c1, c2, c3, c4, c5, c6, c7] → parse_eight_digits_unrolled v = decVal [c0, c1, c2, c3, c4, c5, c6, c7]) := by
  refine ⟨_, read8_eq pre t c0 c1 c2 c3 c4 c5 c6 c7, ?_, ?_⟩
  · rw [is_made_iff _ _ _ _ _ _ _ _ (toNat_lt c0) (toNat_lt c1) (toNat_lt c2) (toNat_lt c3) (toNat_lt c4) (toNat_lt c5) (toNat_lt c6)
      (toNat_lt c7) rfl]
    simp [AllDigits, DecDigit]
  · intro h
    simp only [AllDigits, List.mem_cons, List.not_mem_nil, or_false, forall_eq_or_imp, forall_eq, DecDigit] at h
    obtain ⟨g0, g1, g2, g3, g4, g5, g6, g7⟩ := h
    have sub : ∀ c : Byte, 48 ≤ c.toNat ∧ c.toNat ≤ 57 → c.toNat - 48 ≤ 9 ∧ c.toNat = 48 + (c.toNat - 48) := by
      intro c hc; omega
    rw [parse_eight _ _ _ _ _ _ _ _ (sub _ g0).1 (sub _ g1).1 (sub _ g2).1 (sub _ g3).1 (sub _ g4).1 (sub _ g5).1 (sub _ g6).1
      (sub _ g7).1 (by
        rw [← (sub _ g0).2, ← (sub _ g1).2, ← (sub _ g2).2, ← (sub _ g3).2, ← (sub _ g4).2, ← (sub _ g5).2, ← (sub _ g6).2,
          ← (sub _ g7).2])]
    simp only [decVal_cons, decVal_nil, List.length_cons, List.length_nil]
    clear g0 g1 g2 g3 g4 g5 g6 g7 sub
    omega

theorem split8 (t : List Byte) (h : 8 ≤ t.length) :
    ∃ c0 c1 c2 c3 c4 c5 c6 c7 r, t = c0 :: c1 :: c2 :: c3 :: c4 :: c5 :: c6 :: c7 :: r := by
  match t, h with
  | c0 :: c1 :: c2 :: c3 :: c4 :: c5 :: c6 :: c7 :: r, _ => exact ⟨_, _, _, _, _, _, _, _, _, rfl⟩

theorem eight_loop_step [Platform] (s : List Byte) (p n i v : Nat) (hv : read8_to_u64 s p = .ok v) :
    loop_parse_if_eight_digits s p (n + 8) i =
      if is_made_of_eight_digits_fast v then
        loop_parse_if_eight_digits s (p + 8) n ((i * 100000000 + parse_eight_digits_unrolled v) % 2 ^ 64)
      else .ok (p, i) := by
  refine (loop_parse_if_eight_digits.eq_1 s p i n).trans ?_
  rw [hv, Res.bind_eq, Res.ok_bind, Res.pure_eq]

theorem eight_loop_eq [Platform] : ∀ (n : Nat) (t : List Byte), t.length = n → ∀ (pre : List Byte) (i : Nat), i < 2 ^ 64 →
    ∃ a b, t = a ++ b ∧ AllDigits a ∧
      loop_parse_if_eight_digits (pre ++ t) pre.length t.length i = .ok (pre.length + a.length, acc i a) := by
  intro n
  induction n using Nat.strong_induction_on with
  | _ n ih =>
    intro t ht pre i hi
    by_cases h8 : 8 ≤ t.length
    · obtain ⟨c0, c1, c2, c3, c4, c5, c6, c7, r, rfl⟩ := split8 t h8
      have hl : (c0 :: c1 :: c2 :: c3 :: c4 :: c5 :: c6 :: c7 :: r).length = r.length + 8 := by simp
      obtain ⟨v, hv, hm, hp⟩ := eight_step pre r c0 c1 c2 c3 c4 c5 c6 c7
      rw [hl, eight_loop_step _ _ _ _ _ hv]
      by_cases hd : is_made_of_eight_digits_fast v = true
      · rw [if_pos hd]
        have hd' := hm.1 hd
        rw [hp hd']
        obtain ⟨a, b, hab, ha, hb⟩ := ih r.length (by rw [← ht, hl]; omega) r rfl (pre ++ [c0, c1, c2, c3, c4, c5, c6, c7])
          (acc i [c0, c1, c2, c3, c4, c5, c6, c7]) (acc_lt _ _)
        refine ⟨[c0, c1, c2, c3, c4, c5, c6, c7] ++ a, b, by simp [hab], allDigits_append hd' ha, ?_⟩
        rw [acc_append] at hb
        have e1 : pre ++ [c0, c1, c2, c3, c4, c5, c6, c7] ++ r = pre ++ c0 :: c1 :: c2 :: c3 :: c4 :: c5 :: c6 :: c7 :: r := by simp
        have e2 : (pre ++ [c0, c1, c2, c3, c4, c5, c6, c7]).length = pre.length + 8 := by simp
        have e3 : acc i [c0, c1, c2, c3, c4, c5, c6, c7] = (i * 100000000 + decVal [c0, c1, c2, c3, c4, c5, c6, c7]) % 2 ^ 64 := by
          rw [acc, show [c0, c1, c2, c3, c4, c5, c6, c7].length = 8 from rfl, show (10 : Nat) ^ 8 = 100000000 by norm_num]
        have e4 : ([c0, c1, c2, c3, c4, c5, c6, c7] ++ a).length = 8 + a.length := by rw [List.length_append]; rfl
        rw [e1, e2, e3] at hb
        rw [hb, e4, Nat.add_assoc]
      · rw [if_neg hd]
        exact ⟨[], _, rfl, allDigits_nil, by simp [acc_nil hi]⟩
    · refine ⟨[], t, rfl, allDigits_nil, ?_⟩
      have : loop_parse_if_eight_digits (pre ++ t) pre.length t.length i = .ok (pre.length, i) := by
        generalize t.length = m at h8
        match m, h8 with
        | 0, _ | 1, _ | 2, _ | 3, _ | 4, _ | 5, _ | 6, _ | 7, _ => rfl
        | m + 8, h => omega
      rw [this, acc_nil hi]
      rfl

/-- The fraction: eight digits at a time, then one at a time. -/
theorem fraction_digits [Platform] (pre t : List Byte) (i : Nat) (hi : i < 2 ^ 64) :
    ((loop_parse_if_eight_digits (pre ++ t) pre.length t.length i).bind fun r =>
      digit_loop (pre ++ t) r.1 ((pre ++ t).length - r.1) r.2) = .ok (pre.length + (tw t).length, acc i (tw t)) := by
  obtain ⟨a, b, rfl, ha, h⟩ := eight_loop_eq _ t rfl pre i hi
  rw [h, Res.ok_bind]
  have e : (pre ++ (a ++ b)).length - (pre.length + a.length) = b.length := by simp only [List.length_append]; omega
  dsimp only
  rw [e, ← List.append_assoc, ← List.length_append, digit_loop_eq _ _ _ (acc_lt _ _), acc_append, tw_append ha, List.length_append,
    List.length_append]
  congr 2
  omega

/-- The exponent accumulator: it stops growing when it has reached 2^28. -/
def satStep (e : Int) (c : Byte) : Int := if e < 0x10000000 then 10 * e + (c.toNat - 48) else e

/-- The value the exponent loop computes. -/
def satVal (ds : List Byte) : Int := ds.foldl satStep 0

theorem exponent_loop_eq (t : List Byte) : ∀ (pre : List Byte) (e : Int),
    exponent_loop (pre ++ t) pre.length t.length e = .ok (pre.length + (tw t).length, (tw t).foldl satStep e) := by
  induction t with
  | nil => intro pre i; simp [exponent_loop]
  | cons c t ih =>
    intro pre e
    rw [List.length_cons, exponent_loop]
    simp only [Res.bind_eq, rd_at, Res.ok_bind]
    by_cases hc : is_integer c = true
    · rw [if_pos hc, append_cons, length_snoc pre c, ih]
      rw [tw_cons_pos hc]
      simp only [List.length_append, List.length_cons, List.length_nil, List.foldl_cons]
      congr 2
      omega
    · rw [if_neg hc, tw_cons_neg hc]
      rfl

theorem sat_fold (ds : List Byte) (h : AllDigits ds) : ∀ (e : Int) (v : Nat), 0 ≤ e →
    (e < 2 ^ 28 ∧ e = v ∨ 2 ^ 28 ≤ e ∧ e ≤ v) →
    0 ≤ ds.foldl satStep e ∧
    (ds.foldl satStep e < 2 ^ 28 ∧ ds.foldl satStep e = ((ds.foldl (fun v c => 10 * v + (c.toNat - 48)) v : Nat) : Int) ∨
      2 ^ 28 ≤ ds.foldl satStep e ∧ ds.foldl satStep e ≤ ((ds.foldl (fun v c => 10 * v + (c.toNat - 48)) v : Nat) : Int)) := by
  induction ds with
  | nil => intro e v h0 h; exact ⟨h0, h⟩
  | cons c ds ih =>
    intro e v h0 hv
    simp only [List.foldl_cons]
    have hc := h c List.mem_cons_self
    unfold DecDigit at hc
    apply ih (fun x hx => h x (List.mem_cons_of_mem _ hx))
    · unfold satStep; split <;> omega
    · unfold satStep; split <;> omega

/-- Small exponents are exact, large ones remain large. -/
theorem satVal_spec {ds : List Byte} (h : AllDigits ds) :
    0 ≤ satVal ds ∧ (satVal ds < 2 ^ 28 ∧ satVal ds = decVal ds ∨ 2 ^ 28 ≤ satVal ds ∧ satVal ds ≤ decVal ds) :=
  sat_fold ds h 0 0 le_rfl (Or.inl ⟨by norm_num, rfl⟩)

end Utki.FastFloat
