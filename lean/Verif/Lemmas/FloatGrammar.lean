import Verif.Lemmas.FloatScan
/-!
# What the scanner returns

The outcome of the whole scan, for any text, in terms of the parts of the literal the text begins with.
-/
namespace Utki.FastFloat
open Spec

/-! ## Fraction and exponent -/

/-- The fraction a text begins with, if it begins with a decimal point. -/
def scanFrac : List Byte → Option (List Byte)
  | [] => none
  | c :: t => if c = ch '.' then some (tw t) else none

def restFrac : List Byte → List Byte
  | [] => []
  | c :: t => if c = ch '.' then dw t else c :: t

def fracText : Option (List Byte) → List Byte
  | none => []
  | some f => ch '.' :: f

theorem scanFrac_text (t : List Byte) : fracText (scanFrac t) ++ restFrac t = t := by
  cases t with
  | nil => rfl
  | cons c t =>
    simp only [scanFrac, restFrac]
    by_cases h : c = ch '.'
    · rw [if_pos h, if_pos h, fracText, h, List.cons_append, tw_dw]
    · rw [if_neg h, if_neg h]; rfl

theorem parse_fraction_eq [Platform] (pre t : List Byte) (i : Nat) (hi : i < 2 ^ 64) :
    parse_fraction (pre ++ t) pre.length i =
      .ok ((scanFrac t).isSome, pre.length + (fracText (scanFrac t)).length, acc i ((scanFrac t).getD [])) := by
  unfold parse_fraction
  cases t with
  | nil => simp [scanFrac, fracText, acc_nil hi]
  | cons c t =>
    have hne : pre.length ≠ (pre ++ c :: t).length := by simp
    rw [if_pos hne, rd_at]
    simp only [Res.bind_eq, Res.ok_bind, Res.pure_eq]
    by_cases h : c = ch '.'
    · have := fraction_digits (pre ++ [c]) t i hi
      rw [← append_cons, ← length_snoc] at this
      have e : (pre ++ c :: t).length - (pre.length + 1) = t.length := by
        rw [List.length_append, List.length_cons]; omega
      rw [if_pos h, e]
      obtain ⟨⟨p1, i1⟩, h1, h2⟩ := Res.bind_eq_ok.1 this
      rw [h1, Res.ok_bind]
      dsimp only at h2 ⊢
      rw [h2, Res.ok_bind]
      simp only [scanFrac, if_pos h, Option.isSome_some, fracText, List.length_cons, Option.getD_some]
      congr 3
      omega
    · rw [if_neg h]
      simp [scanFrac, h, fracText, acc_nil hi]

/-- The sign an exponent begins with. -/
def scanSign : List Byte → Option Byte
  | [] => none
  | c :: _ => if c = ch '-' ∨ c = ch '+' then some c else none

def restSign : List Byte → List Byte
  | [] => []
  | c :: t => if c = ch '-' ∨ c = ch '+' then t else c :: t

/-- The exponent part a text begins with. -/
def scanExp : List Byte → Option ExpPart
  | [] => none
  | c :: t => if c = ch 'e' ∨ c = ch 'E' then
      if tw (restSign t) = [] then none else some ⟨c, scanSign t, tw (restSign t)⟩
    else none

/-- The value of an exponent as the scanner computes it. -/
def satExp (e : ExpPart) : Int := if e.sign = some (ch '-') then -satVal e.digits else satVal e.digits

theorem scanSign_text (t : List Byte) : (scanSign t).toList ++ restSign t = t := by
  cases t with
  | nil => rfl
  | cons c t =>
    simp only [scanSign, restSign]
    by_cases h : c = ch '-' ∨ c = ch '+'
    · rw [if_pos h, if_pos h]; rfl
    · rw [if_neg h, if_neg h]; rfl

theorem parse_exponent_sign_eq (pre t : List Byte) :
    parse_exponent_sign (pre ++ t) pre.length =
      .ok (pre.length + (scanSign t).toList.length, decide (scanSign t = some (ch '-'))) := by
  unfold parse_exponent_sign
  cases t with
  | nil => simp [scanSign]
  | cons c t =>
    have hne : pre.length ≠ (pre ++ c :: t).length := by simp
    rw [if_pos hne, rd_at]
    simp only [Res.bind_eq, Res.ok_bind, Res.pure_eq, scanSign]
    by_cases h : c = ch '-'
    · simp [h]
    · by_cases h' : c = ch '+'
      · subst h'
        have hne : ch '+' ≠ ch '-' := by decide
        simp [hne]
      · simp [h, h']

theorem digit_at_eq (pre t : List Byte) : digit_at (pre ++ t) pre.length = .ok (decide (tw t ≠ [])) := by
  unfold digit_at
  cases t with
  | nil => simp
  | cons c t =>
    have hne : pre.length ≠ (pre ++ c :: t).length := by simp
    rw [if_neg hne, rd_at]
    simp only [Res.bind_eq, Res.ok_bind, Res.pure_eq]
    by_cases h : is_integer c = true
    · rw [tw_cons_pos h]; simp [h]
    · rw [tw_cons_neg h]; simpa using h

theorem e_at_eq (pre t : List Byte) :
    e_at (pre ++ t) pre.length = .ok (match t with | [] => false | c :: _ => c = ch 'e' || c = ch 'E') := by
  unfold e_at
  cases t with
  | nil => simp
  | cons c t =>
    have hne : pre.length ≠ (pre ++ c :: t).length := by simp
    rw [if_neg hne, rd_at]
    rfl

/-- What the exponent part comes to. -/
def expResult (fmt : chars_format) (p : Nat) (e : Option ExpPart) : Option (Nat × Int) :=
  match e with
  | some e => some (p + e.text.length, satExp e)
  | none => if fmt &&& chars_format.scientific ≠ 0 ∧ fmt &&& chars_format.fixed = 0 then none else some (p, 0)

/-- The exponent part, if the format allows one. -/
def scanExpF (fmt : chars_format) (t : List Byte) : Option ExpPart :=
  if fmt &&& chars_format.scientific ≠ 0 then scanExp t else none

theorem parse_exponent_eq (fmt : chars_format) (pre t : List Byte) :
    parse_exponent (pre ++ t) fmt pre.length = .ok (expResult fmt pre.length (scanExpF fmt t)) := by
  unfold parse_exponent scanExpF
  by_cases hs : fmt &&& chars_format.scientific ≠ 0
  · rw [if_pos hs, if_pos hs, e_at_eq]
    simp only [Res.bind_eq, Res.ok_bind]
    cases t with
    | nil =>
      simp only [Bool.false_eq_true, if_false, scanExp, expResult, Res.pure_eq]
      split <;> rfl
    | cons c t =>
      dsimp only
      by_cases he : c = ch 'e' ∨ c = ch 'E'
      · rw [if_pos (by simpa using he), append_cons, length_snoc pre c, parse_exponent_sign_eq]
        simp only [Res.ok_bind]
        have e1 : pre ++ [c] ++ t = (pre ++ [c] ++ (scanSign t).toList) ++ restSign t := by
          rw [List.append_assoc (pre ++ [c]), scanSign_text]
        have e2 : (pre ++ [c]).length + (scanSign t).toList.length = (pre ++ [c] ++ (scanSign t).toList).length := by
          rw [List.length_append (as := pre ++ [c])]
        rw [e1, e2, digit_at_eq]
        simp only [Res.ok_bind, scanExp, if_pos he]
        by_cases hd : tw (restSign t) = []
        · rw [if_pos hd]
          simp only [hd, ne_eq, not_true_eq_false, decide_false, Bool.not_false, if_true, expResult, true_and, hs, not_false_eq_true,
            Res.pure_eq]
          split <;> rfl
        · rw [if_neg hd]
          simp only [hd, ne_eq, not_false_eq_true, decide_true, Bool.not_true, if_false, Bool.false_eq_true]
          have e3 : (pre ++ [c] ++ (scanSign t).toList ++ restSign t).length - (pre ++ [c] ++ (scanSign t).toList).length =
              (restSign t).length := by rw [List.length_append (bs := restSign t)]; omega
          rw [e3, exponent_loop_eq]
          simp only [Res.ok_bind, Res.pure_eq, expResult, ExpPart.text, satExp, decide_eq_true_eq, satVal]
          congr 3
          simp only [List.length_append, List.length_cons, List.length_nil]
          omega
      · rw [if_neg (by simpa using he)]
        simp only [scanExp, if_neg he, expResult, hs, ne_eq, not_false_eq_true, true_and, Res.pure_eq]
        split <;> rfl
  · rw [if_neg hs, if_neg hs]
    simp only [Res.bind_eq, Res.ok_bind, Bool.false_eq_true, if_false, expResult, Res.pure_eq, hs, false_and]

/-! ## Leading zeroes -/

/-- The significant digits: what is left without leading zeroes. -/
def sig (l : List Byte) : List Byte := l.dropWhile (· == ch '0')

theorem sig_cons_zero (l : List Byte) : sig (ch '0' :: l) = sig l := by simp [sig]

theorem sig_cons_ne {c : Byte} (h : c ≠ ch '0') (l : List Byte) : sig (c :: l) = c :: l := by
  unfold sig; rw [List.dropWhile_cons_of_neg (by simpa using h)]

theorem sig_length_le (l : List Byte) : (sig l).length ≤ l.length := by
  unfold sig
  exact (List.dropWhile_sublist _).length_le

theorem decVal_sig (l : List Byte) : decVal (sig l) = decVal l := by
  induction l with
  | nil => rfl
  | cons c l ih =>
    by_cases h : c = ch '0'
    · subst h
      rw [sig_cons_zero, ih, decVal_cons]
      have : (ch '0').toNat = 48 := by decide
      rw [this]; simp
    · rw [sig_cons_ne h]

theorem allDigits_sig {l : List Byte} (h : AllDigits l) : AllDigits (sig l) :=
  fun c hc => h c ((List.dropWhile_sublist _).subset hc)

theorem sig_append {a : List Byte} (h : sig a ≠ []) (b : List Byte) : sig (a ++ b) = sig a ++ b := by
  induction a with
  | nil => exact absurd rfl h
  | cons c a ih =>
    rw [List.cons_append]
    by_cases hc : c = ch '0'
    · subst hc
      rw [sig_cons_zero] at h
      rw [sig_cons_zero, sig_cons_zero, ih h]
    · rw [sig_cons_ne hc, sig_cons_ne hc, List.cons_append]

theorem sig_append_nil {a : List Byte} (h : sig a = []) (b : List Byte) : sig (a ++ b) = sig b := by
  induction a with
  | nil => rfl
  | cons c a ih =>
    rw [List.cons_append]
    by_cases hc : c = ch '0'
    · subst hc
      rw [sig_cons_zero] at h
      rw [sig_cons_zero, ih h]
    · rw [sig_cons_ne hc] at h; exact absurd h (by simp)

/-- A number of `l` significant digits is at least `10^(l-1)`. -/
theorem sig_bounds {l : List Byte} (h : AllDigits l) (hs : sig l ≠ []) :
    10 ^ ((sig l).length - 1) ≤ decVal l ∧ decVal l < 10 ^ (sig l).length := by
  rw [← decVal_sig]
  refine ⟨?_, decVal_lt (allDigits_sig h)⟩
  have hd := allDigits_sig h
  have hh : ∀ c ∈ (sig l).head?, c ≠ ch '0' := by
    intro c hc
    have := List.head?_dropWhile_not (· == ch '0') l
    unfold sig at hc
    rw [Option.mem_def] at hc
    rw [hc] at this
    simpa using this
  cases hl : sig l with
  | nil => exact absurd hl hs
  | cons c t =>
    rw [hl] at hh hd
    rw [decVal_cons]
    have h1 := hh c rfl
    have h2 := hd c List.mem_cons_self
    have h3 : 1 ≤ c.toNat - 48 := by
      unfold DecDigit at h2
      have : c.toNat ≠ 48 := by
        intro h48
        apply h1
        apply BitVec.eq_of_toNat_eq
        rw [h48]; decide
      omega
    have := Nat.mul_le_mul_right (10 ^ t.length) h3
    simp only [List.length_cons, Nat.add_sub_cancel]
    omega

theorem sig_zero {l : List Byte} (h : sig l = []) : decVal l = 0 := by
  rw [← decVal_sig, h]; rfl

/-! ## The second pass over long numbers -/

theorem skip_zeros_total (t : List Byte) : ∀ (pre : List Byte) (dc : Int),
    ∃ r, skip_zeros (pre ++ t) pre.length t.length dc = .ok r ∧ r ≤ dc := by
  induction t with
  | nil => intro pre dc; exact ⟨dc, rfl, le_rfl⟩
  | cons c t ih =>
    intro pre dc
    rw [List.length_cons, skip_zeros]
    simp only [Res.bind_eq, rd_at, Res.ok_bind, Res.pure_eq]
    rw [append_cons, length_snoc pre c]
    split
    · obtain ⟨r, h1, h2⟩ := ih (pre ++ [c]) (dc - 1)
      exact ⟨r, h1, by omega⟩
    · split
      · exact ih (pre ++ [c]) dc
      · exact ⟨dc, rfl, le_rfl⟩

theorem digit_ne_dot {c : Byte} (h : DecDigit c) : c ≠ ch '.' := by
  rintro rfl; revert h; decide

theorem skip_zeros_digits (a : List Byte) : AllDigits a → ∀ (t pre : List Byte) (dc : Int),
    skip_zeros (pre ++ (a ++ t)) pre.length (a ++ t).length dc =
      if sig a ≠ [] then .ok (dc - (a.length - (sig a).length : Nat))
      else skip_zeros (pre ++ (a ++ t)) (pre ++ a).length t.length (dc - a.length) := by
  induction a with
  | nil => intro _ t pre dc; simp [sig]
  | cons c a ih =>
    intro hd t pre dc
    rw [List.cons_append, List.length_cons, skip_zeros]
    simp only [Res.bind_eq, rd_at, Res.ok_bind, Res.pure_eq]
    by_cases hc : c = ch '0'
    · rw [if_pos hc, append_cons, length_snoc pre c, ih (fun x hx => hd x (List.mem_cons_of_mem _ hx))]
      subst hc
      rw [sig_cons_zero]
      have := sig_length_le a
      split
      · congr 1
        simp only [List.length_cons]
        omega
      · congr 1
        · simp
        · simp only [List.length_cons]; omega
    · rw [if_neg hc, if_neg (digit_ne_dot (hd c List.mem_cons_self)), sig_cons_ne hc]
      simp

/-- The count of significant digits. -/
theorem skip_zeros_eq {int : List Byte} {frac : Option (List Byte)} (hd : AllDigits (int ++ frac.getD [])) (pre rest : List Byte) :
    ∃ r : Int, skip_zeros (pre ++ (int ++ (fracText frac ++ rest))) pre.length (int ++ (fracText frac ++ rest)).length
        ((int ++ frac.getD []).length : Nat) = .ok r ∧
      (sig (int ++ frac.getD []) ≠ [] → r = (sig (int ++ frac.getD [])).length) ∧ (sig (int ++ frac.getD []) = [] → r ≤ 0) := by
  rw [skip_zeros_digits int (allDigits_left hd)]
  have hle := sig_length_le int
  by_cases hi : sig int ≠ []
  · rw [if_pos hi]
    refine ⟨_, rfl, ?_, ?_⟩
    · intro _
      rw [sig_append hi, List.length_append, List.length_append]
      omega
    · intro h
      rw [sig_append hi] at h
      exact absurd (List.append_eq_nil_iff.1 h).1 hi
  · rw [if_neg hi]
    have hi' : sig int = [] := by simpa using hi
    rw [sig_append_nil hi']
    cases frac with
    | none =>
      obtain ⟨r, h1, h2⟩ := skip_zeros_total rest (pre ++ int) ((int ++ Option.getD none []).length - int.length)
      refine ⟨r, ?_, ?_, ?_⟩
      · simp only [fracText, List.nil_append]
        rw [← List.append_assoc]
        exact h1
      · intro h; exact absurd rfl h
      · intro _; simpa using h2
    | some f =>
      simp only [fracText, Option.getD_some, List.cons_append, List.length_cons]
      rw [skip_zeros]
      have e1 : pre ++ (int ++ ch '.' :: (f ++ rest)) = (pre ++ int) ++ ch '.' :: (f ++ rest) := by simp
      rw [e1, rd_at]
      simp only [Res.bind_eq, Res.ok_bind]
      rw [if_neg (by decide), if_pos trivial, append_cons, length_snoc (pre ++ int) (ch '.'),
        skip_zeros_digits f (allDigits_right hd)]
      have hlf := sig_length_le f
      by_cases hf : sig f ≠ []
      · rw [if_pos hf]
        refine ⟨_, rfl, ?_, fun h => absurd h hf⟩
        intro _
        rw [List.length_append]
        omega
      · rw [if_neg hf]
        have e2 : pre ++ int ++ [ch '.'] ++ (f ++ rest) = (pre ++ int ++ [ch '.'] ++ f) ++ rest := by simp
        rw [e2]
        obtain ⟨r, h1, h2⟩ := skip_zeros_total rest (pre ++ int ++ [ch '.'] ++ f) (((int ++ f).length : Nat) - (int.length : Int) - f.length)
        refine ⟨r, h1, fun h => absurd h hf, fun _ => ?_⟩
        rw [List.length_append] at h2
        omega

/-- The loop that collects 19 digits. -/
theorem nineteen_loop_eq (ds : List Byte) : AllDigits ds → ∀ (pre post : List Byte) (i : Nat), i < 10 ^ 19 →
    ∃ a b, ds = a ++ b ∧
      nineteen_loop (pre ++ (ds ++ post)) pre.length ds.length i = .ok (pre.length + a.length, i * 10 ^ a.length + decVal a) ∧
      i * 10 ^ a.length + decVal a < 10 ^ 19 ∧ (b = [] ∨ 10 ^ 18 ≤ i * 10 ^ a.length + decVal a) := by
  induction ds with
  | nil =>
    intro _ pre post i hi
    exact ⟨[], [], rfl, by simp [nineteen_loop, decVal_nil], by simpa [decVal_nil] using hi, Or.inl rfl⟩
  | cons c ds ih =>
    intro hd pre post i hi
    rw [List.length_cons, nineteen_loop]
    by_cases h : i < 1000000000000000000
    · have hc := hd c List.mem_cons_self
      unfold DecDigit at hc
      have h1 : i * 10 + (c.toNat - 48) < 10 ^ 19 := by omega
      have h2 : (i * 10 + (c.toNat - 48)) % 2 ^ 64 = i * 10 + (c.toNat - 48) := Nat.mod_eq_of_lt (by omega)
      rw [if_pos h, List.cons_append, rd_at]
      simp only [Res.bind_eq, Res.ok_bind]
      rw [h2, append_cons, length_snoc pre c]
      obtain ⟨a, b, hab, h3, h4, h5⟩ := ih (fun x hx => hd x (List.mem_cons_of_mem _ hx)) (pre ++ [c]) post _ h1
      have e : (i * 10 + (c.toNat - 48)) * 10 ^ a.length + decVal a = i * 10 ^ (c :: a).length + decVal (c :: a) := by
        rw [decVal_cons, List.length_cons, pow_succ]; ring
      rw [e] at h3 h4 h5
      refine ⟨c :: a, b, by rw [hab, List.cons_append], ?_, h4, h5⟩
      rw [h3]
      congr 2
      simp only [List.length_append, List.length_cons, List.length_nil]
      omega
    · rw [if_neg h]
      refine ⟨[], c :: ds, rfl, by simp [decVal_nil], by simpa [decVal_nil] using hi, Or.inr ?_⟩
      simp only [List.length_nil, pow_zero, mul_one, decVal_nil, add_zero]
      omega

/-- Digits whose value lies between 10^18 and 10^19 have 19 significant ones. -/
theorem nineteen {a b : List Byte} (h : AllDigits (a ++ b)) (h1 : 10 ^ 18 ≤ decVal a) (h2 : decVal a < 10 ^ 19) :
    (sig (a ++ b)).length = 19 + b.length ∧ decVal ((sig (a ++ b)).take 19) = decVal a := by
  have hs : sig a ≠ [] := by
    intro h0
    rw [sig_zero h0] at h1
    norm_num at h1
  obtain ⟨g1, g2⟩ := sig_bounds (allDigits_left h) hs
  have g3 : (sig a).length - 1 < 19 := (Nat.pow_lt_pow_iff_right (by norm_num : 1 < 10)).1 (lt_of_le_of_lt g1 h2)
  have g4 : 18 < (sig a).length := (Nat.pow_lt_pow_iff_right (by norm_num : 1 < 10)).1 (lt_of_le_of_lt h1 g2)
  have g5 : (sig a).length = 19 := by omega
  rw [sig_append hs, List.length_append, g5]
  refine ⟨rfl, ?_⟩
  rw [← g5, List.take_left, decVal_sig]

theorem rescan_eq {int : List Byte} {frac : Option (List Byte)} (hd : AllDigits (int ++ frac.getD [])) (pre rest : List Byte)
    (e : Int) (hs : 19 < (sig (int ++ frac.getD [])).length) :
    rescan (pre ++ (int ++ (fracText frac ++ rest))) (pre.length, int.length)
        (if frac.isSome then (pre.length + int.length + 1, (frac.getD []).length) else (0, 0)) e =
      .ok (decVal ((sig (int ++ frac.getD [])).take 19),
        e - (frac.getD []).length + ((sig (int ++ frac.getD [])).length - 19 : Nat)) := by
  unfold rescan
  obtain ⟨a, b, hab, h1, h2, h3⟩ := nineteen_loop_eq int (allDigits_left hd) pre (fracText frac ++ rest) 0 (by norm_num)
  dsimp only
  rw [h1]
  simp only [zero_mul, zero_add, Res.bind_eq, Res.ok_bind] at h2 h3 ⊢
  by_cases hbig : 10 ^ 18 ≤ decVal a
  · rw [if_pos (by simpa using hbig)]
    rw [hab, List.append_assoc] at hd ⊢
    obtain ⟨n1, n2⟩ := nineteen hd hbig h2
    rw [n2, n1]
    simp only [Res.pure_eq]
    congr 2
    simp only [List.length_append]
    omega
  · rw [if_neg (by simpa using hbig)]
    have hb : b = [] := by tauto
    subst hb
    rw [List.append_nil] at hab
    subst hab
    have hex : ∃ f, frac = some f := by
      cases frac with
      | some f => exact ⟨f, rfl⟩
      | none =>
        exfalso
        simp only [Option.getD_none, List.append_nil] at hs hd
        have hne : sig int ≠ [] := by intro h0; rw [h0] at hs; simp at hs
        have := (sig_bounds hd hne).1
        have h4 : 10 ^ 19 ≤ 10 ^ ((sig int).length - 1) := Nat.pow_le_pow_right (by norm_num) (by omega)
        omega
    obtain ⟨f, rfl⟩ := hex
    simp only [Option.getD_some, Option.isSome_some, if_true, fracText] at hd hs ⊢
    have e1 : pre ++ (int ++ (ch '.' :: f ++ rest)) = (pre ++ int ++ [ch '.']) ++ (f ++ rest) := by simp
    have e2 : pre.length + int.length + 1 = (pre ++ int ++ [ch '.']).length := by simp [Nat.add_assoc]
    obtain ⟨a', b', hab', h1', h2', h3'⟩ := nineteen_loop_eq f (allDigits_right hd) (pre ++ int ++ [ch '.']) rest (decVal int) h2
    rw [e1, e2, h1']
    rw [← decVal_append] at h2' h3' ⊢
    simp only [Res.ok_bind, Res.pure_eq]
    have hbig' : 10 ^ 18 ≤ decVal (int ++ a') := by
      rcases h3' with h3' | h3'
      · subst h3'
        rw [List.append_nil] at hab'
        subst hab'
        have hne : sig (int ++ f) ≠ [] := by intro h0; rw [h0] at hs; simp at hs
        have := (sig_bounds hd hne).1
        have h4 : 10 ^ 19 ≤ 10 ^ ((sig (int ++ f)).length - 1) := Nat.pow_le_pow_right (by norm_num) (by omega)
        omega
      · exact h3'
    rw [hab', ← List.append_assoc] at hd ⊢
    obtain ⟨n1, n2⟩ := nineteen hd hbig' h2'
    rw [n2, n1]
    congr 2
    simp only [List.length_append]
    omega

/-! ## The whole scan -/

/-- The text without the minus sign. -/
def body : List Byte → List Byte
  | [] => []
  | c :: t => if c = ch '-' then t else c :: t

/-- The literal a text begins with, as far as there is one. -/
def litOf (fmt : chars_format) (s : List Byte) : DecLit where
  neg := decide (s.head? = some (ch '-'))
  int := tw (body s)
  frac := scanFrac (dw (body s))
  exp := scanExpF fmt (restFrac (dw (body s)))

/-- The minus sign. -/
def signText (neg : Bool) : List Byte := if neg then [ch '-'] else []

theorem body_text (s : List Byte) : signText (decide (s.head? = some (ch '-'))) ++ body s = s := by
  cases s with
  | nil => rfl
  | cons c t =>
    simp only [List.head?_cons, Option.some.injEq, body, signText, decide_eq_true_eq]
    by_cases h : c = ch '-'
    · rw [if_pos h, if_pos h, h]; rfl
    · rw [if_neg h, if_neg h]; rfl

theorem text_eq (d : DecLit) : d.text = signText d.neg ++ d.int ++ fracText d.frac ++ d.exp.elim [] ExpPart.text := by
  obtain ⟨n, i, f, e⟩ := d
  cases f <;> cases e <;> rfl

/-- The exponent of a literal as the scanner computes it. -/
def satExpD (d : DecLit) : Int := match d.exp with | none => 0 | some e => satExp e

/-- What the scanner returns for a literal. -/
structure Parsed (r : parsed_number_string) (d : DecLit) : Prop where
  valid : r.valid = true
  lastmatch : r.lastmatch = d.text.length
  negative : r.negative = d.neg
  integer : r.integer = ((signText d.neg).length, d.int.length)
  fraction : r.fraction = if d.frac.isSome then ((signText d.neg).length + d.int.length + 1, d.fdigits.length) else (0, 0)
  few : (sig d.digits).length ≤ 19 → r.too_many_digits = false ∧ r.mantissa = decVal d.digits ∧
    r.exponent = satExpD d - d.fdigits.length
  many : 19 < (sig d.digits).length → r.too_many_digits = true ∧ r.mantissa = decVal ((sig d.digits).take 19) ∧
    r.exponent = satExpD d - d.fdigits.length + ((sig d.digits).length - 19 : Nat)

/-- There are digits, and an exponent if the format requires one. -/
def Accept (fmt : chars_format) (d : DecLit) : Prop :=
  d.digits ≠ [] ∧ (fmt &&& chars_format.scientific ≠ 0 ∧ fmt &&& chars_format.fixed = 0 → d.exp ≠ none)

theorem parse_sign_eq (s : List Byte) (h : s ≠ []) (hm : decide (s.head? = some (ch '-')) = false ∨
      (tw (body s) ++ ((scanFrac (dw (body s))).getD []) ≠ [])) :
    parse_sign s = .ok (some (decide (s.head? = some (ch '-')), (signText (decide (s.head? = some (ch '-')))).length)) := by
  cases s with
  | nil => exact absurd rfl h
  | cons c t =>
    unfold parse_sign
    have h0 : rd (c :: t) 0 = .ok c := rfl
    rw [h0]
    simp only [Res.bind_eq, Res.ok_bind, Res.pure_eq, List.head?_cons, Option.some.injEq]
    by_cases hc : c = ch '-'
    · subst hc
      simp only [if_true, decide_true, signText, List.length_singleton]
      have hm' : tw t ++ ((scanFrac (dw t)).getD []) ≠ [] := by simpa [body] using hm
      cases t with
      | nil => exact absurd rfl hm'
      | cons c1 t =>
        have h1 : rd (ch '-' :: c1 :: t) 1 = .ok c1 := rfl
        rw [if_neg (by simp), h1]
        simp only [Res.ok_bind]
        rw [if_neg]
        simp only [ne_eq, Bool.and_eq_true, Bool.not_eq_true', decide_eq_true_eq, not_and, not_not]
        intro hi
        by_contra hdot
        apply hm'
        have hi' : ¬ is_integer c1 = true := by rw [hi]; simp
        rw [tw_cons_neg hi', dw, List.dropWhile_cons_of_neg hi']
        simp only [scanFrac, if_neg hdot, Option.getD_none, List.append_nil]
    · rw [if_neg hc]
      simp [hc, signText]

theorem parse_sign_total (s : List Byte) (h : s ≠ []) : ∃ r, parse_sign s = .ok r := by
  cases s with
  | nil => exact absurd rfl h
  | cons c t =>
    unfold parse_sign
    have h0 : rd (c :: t) 0 = .ok c := rfl
    rw [h0]
    simp only [Res.bind_eq, Res.ok_bind, Res.pure_eq]
    split
    · split
      · exact ⟨_, rfl⟩
      · cases t with
        | nil => rename_i h1; exact absurd rfl h1
        | cons c1 t =>
          have h1 : rd (c :: c1 :: t) 1 = .ok c1 := rfl
          rw [h1]
          simp only [Res.ok_bind]
          split <;> exact ⟨_, rfl⟩
    · exact ⟨_, rfl⟩

theorem frac_digits (t : List Byte) : AllDigits ((scanFrac t).getD []) := by
  cases t with
  | nil => exact allDigits_nil
  | cons c t =>
    simp only [scanFrac]
    split
    · exact tw_digits t
    · exact allDigits_nil

theorem fracText_length (f : Option (List Byte)) : (fracText f).length = (f.getD []).length + (if f.isSome then 1 else 0) := by
  cases f <;> simp [fracText]

theorem pow_10_19 : (10 : Nat) ^ 19 < 2 ^ 64 := by norm_num

/-- The outcome of the scan of any text. -/
theorem parse_number_string_eq [Platform] (fmt : chars_format) (s : List Byte) (hs : s ≠ []) :
    ∃ r, parse_number_string s fmt = .ok r ∧ (Accept fmt (litOf fmt s) → Parsed r (litOf fmt s)) ∧
      (¬ Accept fmt (litOf fmt s) → r.valid = false) := by
  by_cases hm : decide (s.head? = some (ch '-')) = false ∨ (tw (body s) ++ ((scanFrac (dw (body s))).getD []) ≠ [])
  · have e0 := body_text s
    have hlit : (litOf fmt s).text = signText (decide (s.head? = some (ch '-'))) ++ tw (body s) ++
        fracText (scanFrac (dw (body s))) ++ ((scanExpF fmt (restFrac (dw (body s)))).elim [] ExpPart.text) := by
      exact text_eq _
    have hpos : litOf fmt s = ⟨decide (s.head? = some (ch '-')), tw (body s), scanFrac (dw (body s)),
      scanExpF fmt (restFrac (dw (body s)))⟩ := rfl
    have hsign := parse_sign_eq s hs hm
    have hfd := frac_digits (dw (body s))
    have hid := tw_digits (body s)
    have hbody : body s = tw (body s) ++ (fracText (scanFrac (dw (body s))) ++ restFrac (dw (body s))) := by
      rw [scanFrac_text, tw_dw]
    have hdw : dw (body s) = fracText (scanFrac (dw (body s))) ++ restFrac (dw (body s)) := (scanFrac_text _).symm
    generalize hneg : decide (s.head? = some (ch '-')) = neg at *
    have hdl := digit_loop_eq (body s) (signText neg) 0 (by norm_num)
    have hpf := parse_fraction_eq (signText neg ++ tw (body s)) (dw (body s)) (acc 0 (tw (body s))) (acc_lt _ _)
    have hpe := parse_exponent_eq fmt (signText neg ++ tw (body s) ++ fracText (scanFrac (dw (body s)))) (restFrac (dw (body s)))
    have hskip := skip_zeros_eq (int := tw (body s)) (frac := scanFrac (dw (body s))) (allDigits_append hid hfd) (signText neg)
      (restFrac (dw (body s)))
    have hresc := fun e => rescan_eq (int := tw (body s)) (frac := scanFrac (dw (body s))) (allDigits_append hid hfd) (signText neg)
      (restFrac (dw (body s))) e
    rw [← hbody, e0] at hskip hresc
    rw [List.append_assoc, tw_dw, e0, acc_append, List.length_append] at hpf
    rw [List.append_assoc (signText neg ++ tw (body s)), ← hdw, List.append_assoc, tw_dw, e0, List.length_append,
      List.length_append] at hpe
    rw [e0] at hdl
    have hlen : s.length - (signText neg).length = (body s).length := by
      conv_lhs => rw [← e0, List.length_append]
      omega
    generalize tw (body s) = int at *
    generalize scanFrac (dw (body s)) = frac at *
    generalize scanExpF fmt (restFrac (dw (body s))) = ex at *
    clear hbody hdw
    unfold parse_number_string
    rw [hsign]
    simp only [Res.bind_eq, Res.ok_bind, hlen, hdl, hpf]
    have hdc : ((signText neg).length + int.length : Nat) - ((signText neg).length : Nat) -
        (if frac.isSome = true then (((signText neg).length + int.length + 1 : Nat) : Int) -
          ((signText neg).length + int.length + (fracText frac).length : Nat) else 0) = ((int ++ frac.getD []).length : Nat) := by
      have := fracText_length frac
      rw [List.length_append]
      cases frac with
      | none => simp
      | some f => simp only [Option.isSome_some, if_true] at this ⊢; omega
    have hexp : (if frac.isSome = true then (((signText neg).length + int.length + 1 : Nat) : Int) -
          ((signText neg).length + int.length + (fracText frac).length : Nat) else 0) = -((frac.getD []).length : Int) := by
      have := fracText_length frac
      cases frac with
      | none => simp
      | some f => simp only [Option.isSome_some, if_true] at this ⊢; omega
    have hint : (signText neg).length + int.length - (signText neg).length = int.length := by omega
    have hfr : (if frac.isSome = true then ((signText neg).length + int.length + 1,
        (signText neg).length + int.length + (fracText frac).length - ((signText neg).length + int.length + 1)) else (0, 0)) =
        (if frac.isSome = true then ((signText neg).length + int.length + 1, (frac.getD []).length) else (0, 0)) := by
      have := fracText_length frac
      cases frac with
      | none => simp
      | some f =>
        simp only [Option.isSome_some, if_true] at this ⊢
        congr 1
        omega
    rw [hdc, hexp, hint, hfr, hpos, hpe]
    have hdd : (litOf fmt s).digits = int ++ frac.getD [] := by rw [hpos]; rfl
    rw [hpos] at hdd hlit
    by_cases hz : int ++ frac.getD [] = []
    · rw [if_pos (by rw [hz]; rfl)]
      refine ⟨_, rfl, ?_, fun _ => rfl⟩
      rintro ⟨h1, -⟩
      exact absurd (hdd.trans hz) h1
    · rw [if_neg (by
        intro h0
        apply hz
        exact List.length_eq_zero_iff.1 (by exact_mod_cast h0))]
      simp only [Res.ok_bind, Res.pure_eq]
      by_cases hnone : expResult fmt ((signText neg).length + int.length + (fracText frac).length) ex = none
      · rw [hnone]
        refine ⟨_, rfl, ?_, fun _ => rfl⟩
        rintro ⟨-, h2⟩
        dsimp only at h2
        unfold expResult at hnone
        cases ex with
        | some e => cases hnone
        | none =>
          dsimp only at hnone
          split at hnone
          · rename_i hc; exact absurd rfl (h2 hc)
          · cases hnone
      · have hacc : Accept fmt ⟨neg, int, frac, ex⟩ := by
          refine ⟨by rw [hdd]; exact hz, ?_⟩
          rintro hc hex
          apply hnone
          dsimp only at hex
          rw [hex, expResult, if_pos hc]
        have hres : expResult fmt ((signText neg).length + int.length + (fracText frac).length) ex =
            some ((DecLit.text ⟨neg, int, frac, ex⟩).length, satExpD ⟨neg, int, frac, ex⟩) := by
          rw [hlit]
          unfold expResult at hnone ⊢
          cases ex with
          | some e => simp only [satExpD, Option.elim, List.length_append]
          | none =>
            dsimp only at hnone ⊢
            split at hnone
            · exact absurd rfl hnone
            · rename_i hc
              rw [if_neg hc]
              simp only [satExpD, Option.elim, List.length_append, List.length_nil, Nat.add_zero]
        rw [hres]
        dsimp only
        have hfd' : DecLit.fdigits ⟨neg, int, frac, ex⟩ = frac.getD [] := rfl
        -- the number of significant digits, if it matters
        have hcount : ∃ r : Int, (if ((int ++ frac.getD []).length : Int) > 19 then
              skip_zeros s (signText neg).length (body s).length ((int ++ frac.getD []).length : Nat)
            else Res.ok ((int ++ frac.getD []).length : Int)) = .ok r ∧
            (r > 19 ↔ 19 < (sig (int ++ frac.getD [])).length) := by
          have hle := sig_length_le (int ++ frac.getD [])
          split
          · obtain ⟨r, h1, h2, h3⟩ := hskip
            refine ⟨r, h1, ?_⟩
            by_cases hsg : sig (int ++ frac.getD []) = []
            · have := h3 hsg
              rw [hsg, List.length_nil]
              constructor <;> intro h <;> omega
            · have := h2 hsg
              omega
          · exact ⟨_, rfl, by omega⟩
        obtain ⟨dc, hdc1, hdc2⟩ := hcount
        rw [hdc1, Res.ok_bind]
        by_cases hmany : dc > 19
        · have hm19 := hdc2.1 hmany
          rw [if_pos hmany, hresc _ hm19, Res.ok_bind]
          refine ⟨_, rfl, fun _ => ?_, fun h => absurd hacc h⟩
          refine ⟨rfl, rfl, rfl, rfl, rfl, fun h => ?_, fun _ => ⟨rfl, by rw [hdd], by rw [hdd, hfd']⟩⟩
          rw [hdd] at h
          omega
        · have hm19 : (sig (int ++ frac.getD [])).length ≤ 19 := by
            by_contra h
            exact hmany (hdc2.2 (by omega))
          rw [if_neg hmany]
          refine ⟨_, rfl, fun _ => ?_, fun h => absurd hacc h⟩
          refine ⟨rfl, rfl, rfl, rfl, rfl, fun h => ⟨rfl, ?_, ?_⟩, fun h => ?_⟩
          · rw [hdd, acc, zero_mul, zero_add]
            apply Nat.mod_eq_of_lt
            rw [← decVal_sig]
            calc decVal (sig (int ++ frac.getD [])) < 10 ^ (sig (int ++ frac.getD [])).length :=
                  decVal_lt (allDigits_sig (allDigits_append hid hfd))
              _ ≤ 10 ^ 19 := Nat.pow_le_pow_right (by norm_num) hm19
              _ < 2 ^ 64 := pow_10_19
          · rw [hfd']
            dsimp only
            ring
          · rw [hdd] at h
            omega
  · simp only [not_or, ne_eq, not_not, Bool.not_eq_false, decide_eq_true_eq] at hm
    have hna : ¬ Accept fmt (litOf fmt s) := by
      rintro ⟨h1, -⟩
      exact h1 hm.2
    -- a minus sign and nothing that could be a number
    cases s with
    | nil => exact absurd rfl hs
    | cons c t =>
      have hc : c = ch '-' := by simpa using hm.1
      subst hc
      have hm2 : tw t ++ (scanFrac (dw t)).getD [] = [] := by simpa [body] using hm.2
      unfold parse_number_string
      cases t with
      | nil => exact ⟨_, rfl, fun h => absurd h hna, fun _ => rfl⟩
      | cons c1 t =>
        have h1 : parse_sign (ch '-' :: c1 :: t) = if !is_integer c1 && c1 ≠ ch '.' then .ok none else .ok (some (true, 1)) := rfl
        rw [h1]
        by_cases hbad : (!is_integer c1 && decide (c1 ≠ ch '.')) = true
        · rw [if_pos hbad]
          exact ⟨_, rfl, fun h => absurd h hna, fun _ => rfl⟩
        · rw [if_neg hbad]
          -- a lone decimal point
          have hi' : ¬ is_integer c1 = true := by
            intro h
            rw [tw_cons_pos h] at hm2
            cases hm2
          have hdot : c1 = ch '.' := by
            by_contra h
            apply hbad
            simp [h, hi']
          subst hdot
          have htw : tw (ch '.' :: t) = [] := tw_cons_neg hi'
          have hdwt : dw (ch '.' :: t) = ch '.' :: t := List.dropWhile_cons_of_neg hi'
          rw [htw, hdwt] at hm2
          have htt : tw t = [] := by simpa [scanFrac] using hm2
          have hdl := digit_loop_eq (ch '.' :: t) [ch '-'] 0 (by norm_num)
          have hpf := parse_fraction_eq [ch '-'] (ch '.' :: t) 0 (by norm_num)
          rw [htw, acc_nil (by norm_num)] at hdl
          simp only [scanFrac, if_true, htt, fracText, Option.getD_some, acc_nil (show 0 < 2 ^ 64 by norm_num)] at hpf
          simp only [List.singleton_append, List.length_nil, Nat.add_zero, List.length_cons,
            Option.isSome_some, Nat.zero_add] at hdl hpf
          simp only [Res.bind_eq, Res.ok_bind, List.length_cons, Nat.add_sub_cancel, hdl, hpf, if_true]
          exact ⟨_, rfl, fun h => absurd h hna, fun _ => rfl⟩

end Utki.FastFloat
