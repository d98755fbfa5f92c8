import Verif.Lemmas.FloatRange
import Verif.Props.Parser
/-!
# C78-C82, C84: text to floating-point numbers

`utki::from_chars` for `float`, `double` and `long double`, and `string_parser::read_number` for these types. A floating-point number is
its bit pattern; `BinFmt.val` is the number a pattern denotes, `BinFmt.Nearest` says which pattern is the correctly rounded one and
`BinFmt.signed` adds the sign bit. `Ieee f mode u` says that the floating-point unit `u` works in the rounding mode `mode`.

`[Platform]` stands for every combination of what the code asks the preprocessor: width of the words, byte order, compiler, excess precision.
-/
namespace Utki

open Spec Spec.BinFmt FastFloat

/-! ## C78: what is consumed -/

/-- What part of the text `s` has been used: the longest literal; or, if there is none, the longest text for infinity or not-a-number; or
else nothing, and that is an error. -/
def Extent (g : NumFormat) (s : List Byte) (r : from_chars_result) : Prop :=
  (∃ d, LongestLiteral g s d ∧ r.ptr = d.text.length ∧ r.ec ≠ .invalid_argument) ∨
  ((∀ d : DecLit, d.WF g → ¬ d.text <+: s) ∧ ∃ neg v t, LongestSpecial s neg v t ∧ r.ptr = t.length ∧ r.ec = .none) ∨
  ((∀ d : DecLit, d.WF g → ¬ d.text <+: s) ∧ (∀ neg v t, IsSignedSpecial neg v t → ¬ t <+: s) ∧
    r = ⟨none, 0, .invalid_argument⟩)

variable [Platform]

theorem extent_aux {b : Format} {f : BinFmt} (F : FmtAll b f) {mode : RoundMode} {u : Fpu} (I : Ieee f mode u) (s : List Byte)
    (fmt : CharsFormat) : ∃ r, from_chars_advanced b u s (to_fast_float_format fmt) = .ok r ∧ Extent (grammar fmt) s r := by
  unfold Extent
  rw [← numFormat_grammar]
  rcases from_chars_cases s (to_fast_float_format fmt) with ⟨d, h⟩ | ⟨neg, v, t, h⟩ | ⟨h1, h2⟩
  · obtain ⟨k, -, k2⟩ := from_chars_literal F I h
    refine ⟨_, k2, .inl ⟨d, h, rfl, ?_⟩⟩
    simp only
    split <;> simp
  · exact ⟨_, from_chars_special b u h, .inr (.inl ⟨fun d hd => special_not_literal h.1 h.2.1 d hd, neg, v, t, h, rfl, rfl⟩)⟩
  · exact ⟨_, from_chars_invalid b u h1 h2, .inr (.inr ⟨h1, h2, rfl⟩)⟩

/-- C78: for every text and every format `from_chars(double)` returns, without reading outside the text, and the part of the text that it
reports as used is the longest literal (or the longest text for infinity or not-a-number, or nothing and an error). -/
theorem C78_double {mode : RoundMode} {u : Fpu} (I : Ieee binary64 mode u) (s : List Byte) (fmt : CharsFormat) :
    ∃ r, from_chars_double u s fmt = .ok r ∧ Extent (grammar fmt) s r := extent_aux fmtDouble_all I s fmt

/-- C78 for `float`. -/
theorem C78_float {mode : RoundMode} {u : Fpu} (I : Ieee binary32 mode u) (s : List Byte) (fmt : CharsFormat) :
    ∃ r, from_chars_float u s fmt = .ok r ∧ Extent (grammar fmt) s r := extent_aux fmtFloat_all I s fmt

/-- C78 for `long double`. -/
theorem C78_long_double {mode : RoundMode} {u : Fpu} (I : Ieee binary64 mode u) (s : List Byte) (fmt : CharsFormat) :
    ∃ r, from_chars_long_double u s fmt = .ok r ∧ Extent (grammar fmt) s r := by
  obtain ⟨r, h1, h2⟩ := C78_double I s fmt
  refine ⟨_, by unfold from_chars_long_double; rw [h1]; rfl, ?_⟩
  rcases h2 with ⟨d, h3, h4, h5⟩ | ⟨h3, neg, v, t, h4, h5, h6⟩ | ⟨h3, h4, rfl⟩
  · exact .inl ⟨d, h3, h4, h5⟩
  · exact .inr (.inl ⟨h3, neg, v, t, h4, h5, h6⟩)
  · exact .inr (.inr ⟨h3, h4, rfl⟩)

omit [Platform] in
/-- C78: at most one of the three cases applies, and there is at most one longest literal. -/
theorem C78_unambiguous (g : NumFormat) (s : List Byte) :
    (∀ d d', LongestLiteral g s d → LongestLiteral g s d' → d = d') ∧
    (∀ neg v t neg' v' t', LongestSpecial s neg v t → LongestSpecial s neg' v' t' → neg = neg' ∧ v = v' ∧ t = t') ∧
    (∀ d neg v t, LongestLiteral g s d → ¬ LongestSpecial s neg v t) :=
  ⟨fun _ _ => longest_unique, fun _ _ _ _ _ _ => longest_special_unique,
    fun d _ _ _ h h' => special_not_literal h'.1 h'.2.1 d h.1 h.2.1⟩

/-! ## C79: the value is correctly rounded -/

/-- C79: the value `from_chars(double)` stores is, whatever the rounding mode of the floating-point unit, the `double` nearest to the number
that the literal denotes, the one with an even last bit if there are two, with the sign of the literal. -/
theorem C79_double {mode : RoundMode} {u : Fpu} (I : Ieee binary64 mode u) {s : List Byte} {fmt : CharsFormat} {d : DecLit}
    (h : LongestLiteral (grammar fmt) s d) (hlen : d.digits.length + 1000 ≤ 2 ^ 28) :
    ∃ k r, binary64.Nearest d.absVal k ∧ from_chars_double u s fmt = .ok r ∧ r.value = some (binary64.signed d.neg k) := by
  obtain ⟨k, k1, k2⟩ := float_literal fmtDouble_all I h hlen
  exact ⟨k, _, k1, k2, rfl⟩

/-- C79 for `float`: the nearest `float`, not the nearest `float` to the nearest `double`. -/
theorem C79_float {mode : RoundMode} {u : Fpu} (I : Ieee binary32 mode u) {s : List Byte} {fmt : CharsFormat} {d : DecLit}
    (h : LongestLiteral (grammar fmt) s d) (hlen : d.digits.length + 1000 ≤ 2 ^ 28) :
    ∃ k r, binary32.Nearest d.absVal k ∧ from_chars_float u s fmt = .ok r ∧ r.value = some (binary32.signed d.neg k) := by
  obtain ⟨k, k1, k2⟩ := float_literal fmtFloat_all I h hlen
  exact ⟨k, _, k1, k2, rfl⟩

/-- C79 for `long double`: the nearest `double`; in range it is stored, out of range nothing is. -/
theorem C79_long_double {mode : RoundMode} {u : Fpu} (I : Ieee binary64 mode u) {s : List Byte} {fmt : CharsFormat} {d : DecLit}
    (h : LongestLiteral (grammar fmt) s d) (hlen : d.digits.length + 1000 ≤ 2 ^ 28) :
    ∃ k r, binary64.Nearest d.absVal k ∧ from_chars_long_double u s fmt = .ok r ∧
      r.value = if r.ec = .none then some (binary64.signed d.neg k) else none := by
  obtain ⟨k, k1, k2⟩ := float_literal fmtDouble_all I h hlen
  refine ⟨k, _, k1, by unfold from_chars_long_double from_chars_double; rw [k2]; rfl, ?_⟩
  simp only

omit [Platform] in
/-- C79: the rounded value is unique, so the theorems above determine the result. -/
theorem C79_unique (f : BinFmt) {x : ℚ} {k k' : Nat} (h : f.Nearest x k) (h' : f.Nearest x k') : k = k' := h.unique f h'

/-- The text `0.00...01e2684354560` with `n` zeros after the point. -/
def hugeLit (n : Nat) : DecLit :=
  { neg := false, int := [ch '0'], frac := some (List.replicate n (ch '0') ++ [ch '1'])
    exp := some { letter := ch 'e', sign := none, digits := str "2684354560" } }

omit [Platform] in
theorem decVal_zeros (n : Nat) : decVal (List.replicate n (ch '0')) = 0 := by
  induction n with
  | zero => rfl
  | succ n ih =>
    rw [List.replicate_succ, decVal_cons, ih]
    rw [show (ch '0').toNat = 48 by decide]
    simp

/-- C79: the limit on the number of digits is needed. For some text of 2.7 gigabytes that denotes 1 the result is 0: the scanner does not
collect exponents above 2^28. -/
theorem C79_limit_needed {mode : RoundMode} {u : Fpu} (I : Ieee binary64 mode u) :
    ∃ (s : List Byte) (d : DecLit), LongestLiteral (grammar .general) s d ∧ d.absVal = 1 ∧
      from_chars_double u s .general = .ok ⟨some 0, s.length, .result_out_of_range⟩ := by
  obtain ⟨n, hn⟩ : ∃ n, n = 2684354559 := ⟨_, rfl⟩
  have hexp : (hugeLit n).expVal = 2684354560 := by
    change (ExpPart.value { letter := ch 'e', sign := none, digits := str "2684354560" }) = 2684354560
    decide
  have hsat : satExpD (hugeLit n) = 268435456 := by
    change (satExp { letter := ch 'e', sign := none, digits := str "2684354560" }) = 268435456
    decide
  have hfd : (hugeLit n).fdigits = List.replicate n (ch '0') ++ [ch '1'] := rfl
  have hfl : (hugeLit n).fdigits.length = n + 1 := by
    rw [hfd, List.length_append, List.length_replicate, List.length_singleton]
  have hdig : (hugeLit n).digits = List.replicate (1 + n) (ch '0') ++ [ch '1'] := by
    unfold DecLit.digits
    rw [hfd, show (hugeLit n).int = List.replicate 1 (ch '0') from rfl, ← List.append_assoc, List.replicate_append_replicate]
  have hval : decVal (hugeLit n).digits = 1 := by
    rw [hdig, decVal_append, decVal_zeros]
    rfl
  have hwf : (hugeLit n).WF (grammar .general) := by
    refine ⟨?_, ?_, ?_, fun h => by cases h⟩
    · rw [hdig]
      intro c hc
      rcases List.mem_append.mp hc with hc | hc
      · rw [(List.mem_replicate.mp hc).2]; decide
      · rw [List.mem_singleton.mp hc]; decide
    · rw [hdig]; exact List.append_ne_nil_of_right_ne_nil _ (List.cons_ne_nil _ _)
    · intro e he
      have : e = { letter := ch 'e', sign := none, digits := str "2684354560" } := (Option.some.inj he).symm
      subst this
      refine ⟨⟨.inl rfl, fun c hc => (by cases hc), by unfold AllDigits; decide, by decide⟩, rfl⟩
  have hL : LongestLiteral (grammar .general) (hugeLit n).text (hugeLit n) := ⟨hwf, List.prefix_rfl, fun d' _ hp => hp.length_le⟩
  refine ⟨(hugeLit n).text, (hugeLit n), hL, ?_, ?_⟩
  · unfold DecLit.absVal
    rw [hval, hfl, show (hugeLit n).expVal = 2684354560 from hexp, hn]
    norm_num
  · rw [← numFormat_grammar] at hL
    obtain ⟨k, k1, k2⟩ := from_chars_literal fmtDouble_all I hL
    have h0 : k = 0 := by
      refine k1.unique _ (nearest_tiny fmtDouble_ok (by positivity) ?_)
      rw [hval, hsat, hfl, hn, Nat.cast_one, one_mul]
      have s2 : (10 : ℚ) ^ ((268435456 : ℤ) - ((2684354559 + 1 : ℕ) : ℤ)) ≤ 10 ^ (fmtDouble.smallest_power_of_ten - 1) :=
        zpow_le_zpow_right₀ (by norm_num) (by decide)
      have s3 : (1 : ℚ) * 10 ^ (fmtDouble.smallest_power_of_ten - 1) ≤ 2 ^ 64 * 10 ^ (fmtDouble.smallest_power_of_ten - 1) :=
        mul_le_mul_of_nonneg_right (by norm_num) (by positivity)
      rw [one_mul] at s3
      exact le_trans s2 s3
    subst h0
    unfold from_chars_double
    rw [k2, if_pos (.inr ⟨rfl, by rw [hval]; decide⟩)]
    rfl

/-! ## C80: numbers out of range -/

/-- C80: `from_chars(double)` reports `result_out_of_range` exactly for the numbers of at least the middle between the largest `double` and
2^1024, and for the numbers other than 0 of at most half of the smallest `double`; otherwise it reports success. -/
theorem C80_double {mode : RoundMode} {u : Fpu} (I : Ieee binary64 mode u) {s : List Byte} {fmt : CharsFormat} {d : DecLit}
    (h : LongestLiteral (grammar fmt) s d) (hlen : d.digits.length + 1000 ≤ 2 ^ 28) :
    ∃ r, from_chars_double u s fmt = .ok r ∧ r.ec ≠ .invalid_argument ∧
      (r.ec = .result_out_of_range ↔
        ((2 - 2 ^ (-53 : ℤ)) * 2 ^ (1023 : ℤ) ≤ d.absVal ∨ (0 < d.absVal ∧ d.absVal ≤ 2 ^ (-1075 : ℤ)))) := by
  obtain ⟨k, k1, k2⟩ := float_literal fmtDouble_all I h hlen
  refine ⟨_, k2, ?_, ?_⟩
  · simp only; split <;> simp
  · have := range_iff (f := binary64) (by decide) (by decide) d k1
    simp only
    rw [show (-(binary64.p + 1 : ℤ)) = -53 by decide, show ((binary64.top : ℤ) - binary64.bias - 1) = 1023 by decide,
      show (-(binary64.bias + binary64.p : ℤ)) = -1075 by decide] at this
    rw [← this]
    split <;> simp_all

/-- C80 for `float`. -/
theorem C80_float {mode : RoundMode} {u : Fpu} (I : Ieee binary32 mode u) {s : List Byte} {fmt : CharsFormat} {d : DecLit}
    (h : LongestLiteral (grammar fmt) s d) (hlen : d.digits.length + 1000 ≤ 2 ^ 28) :
    ∃ r, from_chars_float u s fmt = .ok r ∧ r.ec ≠ .invalid_argument ∧
      (r.ec = .result_out_of_range ↔
        ((2 - 2 ^ (-24 : ℤ)) * 2 ^ (127 : ℤ) ≤ d.absVal ∨ (0 < d.absVal ∧ d.absVal ≤ 2 ^ (-150 : ℤ)))) := by
  obtain ⟨k, k1, k2⟩ := float_literal fmtFloat_all I h hlen
  refine ⟨_, k2, ?_, ?_⟩
  · simp only; split <;> simp
  · have := range_iff (f := binary32) (by decide) (by decide) d k1
    simp only
    rw [show (-(binary32.p + 1 : ℤ)) = -24 by decide, show ((binary32.top : ℤ) - binary32.bias - 1) = 127 by decide,
      show (-(binary32.bias + binary32.p : ℤ)) = -150 by decide] at this
    rw [← this]
    split <;> simp_all

/-- C80 for `long double`: the range is that of `double`, and out of range nothing is stored. -/
theorem C80_long_double {mode : RoundMode} {u : Fpu} (I : Ieee binary64 mode u) {s : List Byte} {fmt : CharsFormat} {d : DecLit}
    (h : LongestLiteral (grammar fmt) s d) (hlen : d.digits.length + 1000 ≤ 2 ^ 28) :
    ∃ r, from_chars_long_double u s fmt = .ok r ∧ r.ec ≠ .invalid_argument ∧ (r.ec = .result_out_of_range → r.value = none) ∧
      (r.ec = .result_out_of_range ↔
        ((2 - 2 ^ (-53 : ℤ)) * 2 ^ (1023 : ℤ) ≤ d.absVal ∨ (0 < d.absVal ∧ d.absVal ≤ 2 ^ (-1075 : ℤ)))) := by
  obtain ⟨r, h1, h2, h3⟩ := C80_double I h hlen
  refine ⟨{ r with value := if r.ec = .none then r.value else none }, by unfold from_chars_long_double; rw [h1]; rfl, h2, ?_, h3⟩
  intro he
  simp only at he ⊢
  rw [he]
  rfl

/-! ## C81: infinity and not-a-number -/

/-- A pattern above that of infinity is not a number. -/
def IsNaN (f : BinFmt) (neg : Bool) (v : Nat) : Prop := ∃ k, f.inf < k ∧ k < (f.top + 1) * 2 ^ f.p ∧ v = f.signed neg k

/-- The value of a text for infinity or not-a-number. -/
def SpecialValue (f : BinFmt) (neg : Bool) (v : Nat) : Special → Prop
  | .inf => v = f.signed neg f.inf
  | .nan => IsNaN f neg v

theorem special_aux_double (neg : Bool) (v : Special) : SpecialValue binary64 neg (special_value fmtDouble (toInfNan neg v)) v := by
  cases v with
  | inf => exact special_inf_eq fmtDouble_all neg
  | nan =>
    refine ⟨0x7FF8000000000000, by decide, by decide, ?_⟩
    cases neg <;> decide

theorem special_aux_float (neg : Bool) (v : Special) : SpecialValue binary32 neg (special_value fmtFloat (toInfNan neg v)) v := by
  cases v with
  | inf => exact special_inf_eq fmtFloat_all neg
  | nan =>
    refine ⟨0x7FC00000, by decide, by decide, ?_⟩
    cases neg <;> decide

/-- C81: a text for infinity or not-a-number, in upper or lower case, is converted to that value, with the sign, whatever the format. -/
theorem C81_double (u : Fpu) {s : List Byte} (fmt : CharsFormat) {neg : Bool} {v : Special} {t : List Byte} (h : LongestSpecial s neg v t) :
    ∃ x, from_chars_double u s fmt = .ok ⟨some x, t.length, .none⟩ ∧ SpecialValue binary64 neg x v :=
  ⟨_, from_chars_special fmtDouble u h, special_aux_double neg v⟩

/-- C81 for `float`. -/
theorem C81_float (u : Fpu) {s : List Byte} (fmt : CharsFormat) {neg : Bool} {v : Special} {t : List Byte} (h : LongestSpecial s neg v t) :
    ∃ x, from_chars_float u s fmt = .ok ⟨some x, t.length, .none⟩ ∧ SpecialValue binary32 neg x v :=
  ⟨_, from_chars_special fmtFloat u h, special_aux_float neg v⟩

/-- C81 for `long double`. -/
theorem C81_long_double (u : Fpu) {s : List Byte} (fmt : CharsFormat) {neg : Bool} {v : Special} {t : List Byte} (h : LongestSpecial s neg v t) :
    ∃ x, from_chars_long_double u s fmt = .ok ⟨some x, t.length, .none⟩ ∧ SpecialValue binary64 neg x v := by
  obtain ⟨x, h1, h2⟩ := C81_double u fmt h
  exact ⟨x, by unfold from_chars_long_double; rw [h1]; rfl, h2⟩

/-! ## C82: `read_number` -/

omit [Platform] in
theorem read_number_float_eq (dbg : Bool) {conv : List Byte → CharsFormat → Res from_chars_result} {ws t : List Byte} {r : from_chars_result}
    (hws : ∀ c ∈ ws, IsBlank c) (ht : ∀ c, t.head? = some c → ¬ IsBlank c) (hr : conv t .general = .ok r) :
    Parser.read_number_float dbg conv (ws ++ t) = Parser.finishNumber dbg 0 (toFromChars r) t := by
  unfold Parser.read_number_float
  rw [Meth.bind_ok (Parser.skip_whitespaces_eq _), Meth.get_bind, dropWhile_blank ws t hws ht, hr, Meth.lift_ok_bind]

omit [Platform] in
theorem finishNumber_value (dbg : Bool) (v : Nat) (a rest : List Byte) (ha : a ≠ []) :
    Parser.finishNumber dbg 0 (.ok v a.length) (a ++ rest) = (.ok v, rest) ∧
    Parser.finishNumber dbg 0 (.out_of_range a.length : FromChars Nat) (a ++ rest) = (.ok 0, rest) := by
  have hpos : 0 < a.length := List.length_pos_iff.mpr ha
  have hadv := Parser.advance_eq a.length (a ++ rest) (by rw [List.length_append]; omega)
  rw [List.drop_left] at hadv
  constructor <;>
  · simp only [Parser.finishNumber, ASSERT, hpos, decide_true, Bool.not_true, Bool.and_false, if_false, Bool.false_eq_true, Meth.lift_ok_bind]
    rw [Meth.bind_ok hadv]
    rfl

omit [Platform] in
theorem not_blank_of_literal {g : NumFormat} {t : List Byte} {d : DecLit} (h : LongestLiteral g t d) : ∀ c, t.head? = some c → ¬ IsBlank c := by
  obtain ⟨c, r, h1, h2⟩ := literal_head h.1
  obtain ⟨z, hz⟩ := h.2.1
  intro x hx
  rw [← hz, h1] at hx
  rcases hn : d.neg with _ | _
  · rw [hn] at hx
    simp [signText] at hx
    subst hx
    rcases h2 with h2 | h2
    · unfold DecDigit at h2
      unfold IsBlank
      intro hb
      simp at hb
      rcases hb with rfl | rfl | rfl | rfl | rfl | rfl <;> revert h2 <;> decide
    · rw [h2]; unfold IsBlank; decide
  · rw [hn] at hx
    simp [signText] at hx
    subst hx
    unfold IsBlank
    decide

/-- The types for which `read_number` uses these conversions. -/
inductive FloatType where
  | float | double | long_double
  deriving DecidableEq

/-- The format the conversion works with; that of `double` for `long double`. -/
def FloatType.fmt : FloatType → BinFmt
  | .float => binary32
  | _ => binary64

def FloatType.conv (u : Fpu) : FloatType → List Byte → CharsFormat → Res from_chars_result
  | .float => from_chars_float u
  | .double => from_chars_double u
  | .long_double => from_chars_long_double u

/-- `read_number<T>()`. -/
def read_number_fp (dbg : Bool) (u : Fpu) (T : FloatType) : Meth Parser Nat := Parser.read_number_float dbg (T.conv u)

/-- Too large or, without being 0, too small for the type. -/
def OutOfRange : FloatType → ℚ → Prop
  | .float, x => (2 - 2 ^ (-24 : ℤ)) * 2 ^ (127 : ℤ) ≤ x ∨ (0 < x ∧ x ≤ 2 ^ (-150 : ℤ))
  | _, x => (2 - 2 ^ (-53 : ℤ)) * 2 ^ (1023 : ℤ) ≤ x ∨ (0 < x ∧ x ≤ 2 ^ (-1075 : ℤ))

theorem conv_literal {T : FloatType} {mode : RoundMode} {u : Fpu} (I : Ieee T.fmt mode u) {s : List Byte} {fmt : CharsFormat} {d : DecLit}
    (h : LongestLiteral (grammar fmt) s d) (hlen : d.digits.length + 1000 ≤ 2 ^ 28) :
    ∃ k r, T.fmt.Nearest d.absVal k ∧ T.conv u s fmt = .ok r ∧ r.ptr = d.text.length ∧
      ((OutOfRange T d.absVal ∧ r.ec = .result_out_of_range) ∨
        (¬ OutOfRange T d.absVal ∧ r.ec = .none ∧ r.value = some (T.fmt.signed d.neg k))) := by
  cases T with
  | float =>
    obtain ⟨k, k1, k2⟩ := float_literal fmtFloat_all I h hlen
    obtain ⟨r, r1, -, r3⟩ := C80_float I h hlen
    have : from_chars_float u s fmt = _ := k2
    rw [r1] at this
    obtain rfl := Res.ok.inj this
    refine ⟨k, _, k1, r1, rfl, ?_⟩
    by_cases hc : OutOfRange .float d.absVal
    · exact .inl ⟨hc, r3.mpr hc⟩
    · refine .inr ⟨hc, ?_, rfl⟩
      have := mt r3.mp hc
      simp only at this ⊢
      split at this
      · exact absurd rfl this
      · rename_i h; rw [if_neg h]
  | double =>
    obtain ⟨k, k1, k2⟩ := float_literal fmtDouble_all I h hlen
    obtain ⟨r, r1, -, r3⟩ := C80_double I h hlen
    have : from_chars_double u s fmt = _ := k2
    rw [r1] at this
    obtain rfl := Res.ok.inj this
    refine ⟨k, _, k1, r1, rfl, ?_⟩
    by_cases hc : OutOfRange .double d.absVal
    · exact .inl ⟨hc, r3.mpr hc⟩
    · refine .inr ⟨hc, ?_, rfl⟩
      have := mt r3.mp hc
      simp only at this ⊢
      split at this
      · exact absurd rfl this
      · rename_i h; rw [if_neg h]
  | long_double =>
    obtain ⟨k, k1, k2⟩ := float_literal fmtDouble_all I h hlen
    obtain ⟨r, r1, -, r3⟩ := C80_double I h hlen
    have hk : from_chars_double u s fmt = _ := k2
    rw [r1] at hk
    obtain rfl := Res.ok.inj hk
    refine ⟨k, _, k1, by simp only [FloatType.conv]; unfold from_chars_long_double; rw [r1]; rfl, rfl, ?_⟩
    by_cases hc : OutOfRange .long_double d.absVal
    · exact .inl ⟨hc, r3.mpr hc⟩
    · have := mt r3.mp hc
      simp only at this ⊢
      split at this
      · exact absurd rfl this
      · rename_i h
        exact .inr ⟨hc, by rw [if_neg h], by rw [if_neg h]; rfl⟩

theorem conv_extent {T : FloatType} {mode : RoundMode} {u : Fpu} (I : Ieee T.fmt mode u) (s : List Byte) (fmt : CharsFormat) :
    ∃ r, T.conv u s fmt = .ok r ∧ Extent (grammar fmt) s r := by
  cases T with
  | float => exact C78_float I s fmt
  | double => exact C78_double I s fmt
  | long_double => exact C78_long_double I s fmt

theorem conv_special {T : FloatType} (u : Fpu) {s : List Byte} (fmt : CharsFormat) {neg : Bool} {v : Special} {t : List Byte}
    (h : LongestSpecial s neg v t) : ∃ x, T.conv u s fmt = .ok ⟨some x, t.length, .none⟩ ∧ SpecialValue T.fmt neg x v := by
  cases T with
  | float => exact C81_float u fmt h
  | double => exact C81_double u fmt h
  | long_double => exact C81_long_double u fmt h

omit [Platform] in
theorem not_blank_of_special {t : List Byte} {neg : Bool} {v : Special} {w : List Byte} (h : LongestSpecial t neg v w) :
    ∀ c, t.head? = some c → ¬ IsBlank c := by
  obtain ⟨x, hx, rfl⟩ := h.1
  obtain ⟨h3, hw⟩ := special_head hx
  obtain ⟨z, rfl⟩ := h.2.1
  intro c hc
  cases neg with
  | true =>
    simp at hc
    subst hc
    unfold IsBlank
    decide
  | false =>
    cases x with
    | nil => simp at h3
    | cons y x =>
      simp at hc
      subst hc
      intro hb
      unfold IsWord at hw
      rw [List.take_succ_cons, List.map_cons] at hw
      have h4 := congrArg List.head? hw
      rw [List.head?_cons] at h4
      unfold IsBlank at hb
      simp at hb
      rcases hb with rfl | rfl | rfl | rfl | rfl | rfl <;> cases v <;> revert h4 <;> decide

/-- C82: after white space, `read_number` for a floating-point type reads the longest literal. It returns the nearest number of the type
(of `double` for `long double`), or 0 if the literal is out of range, and leaves the text after the literal. -/
theorem C82_literal (dbg : Bool) (T : FloatType) {mode : RoundMode} {u : Fpu} (I : Ieee T.fmt mode u) (ws t rest : List Byte) (d : DecLit)
    (hws : ∀ c ∈ ws, IsBlank c) (h : LongestLiteral .general t d) (ht : t = d.text ++ rest) (hlen : d.digits.length + 1000 ≤ 2 ^ 28) :
    ∃ k, T.fmt.Nearest d.absVal k ∧
      ((OutOfRange T d.absVal ∧ read_number_fp dbg u T (ws ++ t) = (.ok 0, rest)) ∨
       (¬ OutOfRange T d.absVal ∧ read_number_fp dbg u T (ws ++ t) = (.ok (T.fmt.signed d.neg k), rest))) := by
  obtain ⟨k, r, k1, k2, k3, k4⟩ := conv_literal I (fmt := .general) h hlen
  have hne : d.text ≠ [] := by
    obtain ⟨c, r, h1, -⟩ := literal_head h.1
    rw [h1]
    simp
  obtain ⟨r, p, e⟩ := r
  simp only at k3 k4
  subst k3
  refine ⟨k, k1, ?_⟩
  unfold read_number_fp
  rw [read_number_float_eq dbg hws (not_blank_of_literal h) k2]
  rcases k4 with ⟨k4, rfl⟩ | ⟨k4, rfl, rfl⟩
  · refine .inl ⟨k4, ?_⟩
    rw [ht]
    exact (finishNumber_value dbg 0 d.text rest hne).2
  · refine .inr ⟨k4, ?_⟩
    rw [ht]
    exact (finishNumber_value dbg _ d.text rest hne).1

/-- C82: after white space, a text for infinity or not-a-number is read as that value. -/
theorem C82_special (dbg : Bool) (T : FloatType) (u : Fpu) (ws t rest w : List Byte) (neg : Bool) (v : Special)
    (hws : ∀ c ∈ ws, IsBlank c) (h : LongestSpecial t neg v w) (ht : t = w ++ rest) :
    ∃ x, SpecialValue T.fmt neg x v ∧ read_number_fp dbg u T (ws ++ t) = (.ok x, rest) := by
  obtain ⟨x, h1, h2⟩ := conv_special (T := T) u .general h
  refine ⟨x, h2, ?_⟩
  unfold read_number_fp
  rw [read_number_float_eq dbg hws (not_blank_of_special h) h1, ht]
  refine (finishNumber_value dbg x w rest ?_).1
  obtain ⟨y, hy, rfl⟩ := h.1
  have := (special_head hy).1
  intro h0
  simp at h0
  simp [h0.2] at this

/-- C82: `read_number` throws `std::invalid_argument`, and consumes only the white space, exactly if neither a literal nor a text for infinity
or not-a-number follows; otherwise it consumes at least one character more. No assertion fires and nothing outside the text is read. -/
theorem C82_throws_iff (dbg : Bool) (T : FloatType) {mode : RoundMode} {u : Fpu} (I : Ieee T.fmt mode u) (ws t : List Byte)
    (hws : ∀ c ∈ ws, IsBlank c) (ht : ∀ c, t.head? = some c → ¬ IsBlank c) :
    (((∀ d : DecLit, d.WF .general → ¬ d.text <+: t) ∧ (∀ neg v w, IsSignedSpecial neg v w → ¬ w <+: t)) ∧
      read_number_fp dbg u T (ws ++ t) = (.throw .invalid_argument, t)) ∨
    (((∃ d : DecLit, d.WF .general ∧ d.text <+: t) ∨ (∃ neg v w, IsSignedSpecial neg v w ∧ w <+: t)) ∧
      ∃ x a rest, t = a ++ rest ∧ a ≠ [] ∧ read_number_fp dbg u T (ws ++ t) = (.ok x, rest)) := by
  obtain ⟨r, h1, h2⟩ := conv_extent I t .general
  unfold read_number_fp
  rw [read_number_float_eq dbg hws ht h1]
  rcases h2 with ⟨d, h3, h4, h5⟩ | ⟨-, neg, v, w, h4, h5, h6⟩ | ⟨h3, h4, rfl⟩
  · right
    obtain ⟨rest, hz⟩ := h3.2.1
    have hne : d.text ≠ [] := by
      obtain ⟨c, r, h1, -⟩ := literal_head h3.1
      rw [h1]
      simp
    refine ⟨.inl ⟨d, h3.1, h3.2.1⟩, ?_⟩
    obtain ⟨x, p, e⟩ := r
    simp only at h4 h5
    subst h4
    cases e with
    | invalid_argument => exact absurd rfl h5
    | result_out_of_range =>
      exact ⟨0, d.text, rest, hz.symm, hne, by rw [← hz]; exact (finishNumber_value dbg 0 d.text rest hne).2⟩
    | none =>
      exact ⟨x.getD 0, d.text, rest, hz.symm, hne, by rw [← hz]; exact (finishNumber_value dbg _ d.text rest hne).1⟩
  · right
    obtain ⟨rest, hz⟩ := h4.2.1
    refine ⟨.inr ⟨neg, v, w, h4.1, h4.2.1⟩, ?_⟩
    have hne : w ≠ [] := by
      obtain ⟨y, hy, rfl⟩ := h4.1
      have := (special_head hy).1
      intro h0
      simp at h0
      simp [h0.2] at this
    obtain ⟨x, p, e⟩ := r
    simp only at h5 h6
    subst h5 h6
    exact ⟨x.getD 0, w, rest, hz.symm, hne, by rw [← hz]; exact (finishNumber_value dbg _ w rest hne).1⟩
  · left
    exact ⟨⟨h3, h4⟩, rfl⟩

/-! ## C84: no difference between platforms -/

omit [Platform] in
theorem platform_aux {b : Format} {f : BinFmt} (P Q : Platform) (FP : @FmtAll P b f) (FQ : @FmtAll Q b f) {mode mode' : RoundMode} {u u' : Fpu}
    (I : @Ieee P f mode u) (J : @Ieee Q f mode' u') (s : List Byte) (fmt : chars_format) :
    @from_chars_advanced P b u s fmt = @from_chars_advanced Q b u' s fmt := by
  rcases from_chars_cases s fmt with ⟨d, h⟩ | ⟨neg, v, t, h⟩ | ⟨h1, h2⟩
  · obtain ⟨k, k1, k2⟩ := @from_chars_literal P _ _ FP _ _ I _ _ _ h
    obtain ⟨k', l1, l2⟩ := @from_chars_literal Q _ _ FQ _ _ J _ _ _ h
    obtain rfl := k1.unique f l1
    rw [k2, l2]
  · rw [@from_chars_special P b u _ _ _ _ _ h, @from_chars_special Q b u' _ _ _ _ _ h]
  · rw [@from_chars_invalid P b u _ _ h1 h2, @from_chars_invalid Q b u' _ _ h1 h2]

omit [Platform] in
/-- C84: `from_chars(double)` gives the same result - value, end of the used text and error code - on every two platforms and in every two
rounding modes, for every text and every format. -/
theorem C84_double (P Q : Platform) {mode mode' : RoundMode} {u u' : Fpu} (I : @Ieee P binary64 mode u) (J : @Ieee Q binary64 mode' u')
    (s : List Byte) (fmt : CharsFormat) : @from_chars_double P u s fmt = @from_chars_double Q u' s fmt :=
  platform_aux P Q (@fmtDouble_all P) (@fmtDouble_all Q) I J s _

omit [Platform] in
/-- C84 for `float`. -/
theorem C84_float (P Q : Platform) {mode mode' : RoundMode} {u u' : Fpu} (I : @Ieee P binary32 mode u) (J : @Ieee Q binary32 mode' u')
    (s : List Byte) (fmt : CharsFormat) : @from_chars_float P u s fmt = @from_chars_float Q u' s fmt :=
  platform_aux P Q (@fmtFloat_all P) (@fmtFloat_all Q) I J s _

omit [Platform] in
/-- C84 for `long double`: the value stored is the same `double`. -/
theorem C84_long_double (P Q : Platform) {mode mode' : RoundMode} {u u' : Fpu} (I : @Ieee P binary64 mode u) (J : @Ieee Q binary64 mode' u')
    (s : List Byte) (fmt : CharsFormat) : @from_chars_long_double P u s fmt = @from_chars_long_double Q u' s fmt := by
  unfold from_chars_long_double
  rw [C84_double P Q I J]

omit [Platform] in
/-- C84 for `read_number`: also what is left of the text is the same. -/
theorem C84_read_number (dbg : Bool) (T : FloatType) (P Q : Platform) {mode mode' : RoundMode} {u u' : Fpu} (I : @Ieee P T.fmt mode u)
    (J : @Ieee Q T.fmt mode' u') (p : List Byte) : @read_number_fp P dbg u T p = @read_number_fp Q dbg u' T p := by
  have : @FloatType.conv P u T = @FloatType.conv Q u' T := by
    cases T with
    | float => funext s fmt; exact C84_float P Q I J s fmt
    | double => funext s fmt; exact C84_double P Q I J s fmt
    | long_double => funext s fmt; exact C84_long_double P Q I J s fmt
  unfold read_number_fp
  rw [this]

/-! ## Examples: the hypotheses are met -/

/-- There are floating-point units of every kind. -/
example (mode : RoundMode) : (∃ u, Ieee binary64 mode u) ∧ ∃ u, Ieee binary32 mode u :=
  ⟨ieee_exists binary64 (by decide) mode, ieee_exists binary32 (by decide) mode⟩

omit [Platform] in
/-- Two very different platforms, in two rounding modes. -/
example : ∃ u u', @Ieee Platform.gcc_x86_64 binary64 .nearest u ∧ @Ieee Platform.gcc_x87 binary64 .upward u' ∧
    @from_chars_double Platform.gcc_x86_64 u (str "0.1") .general = @from_chars_double Platform.gcc_x87 u' (str "0.1") .general := by
  obtain ⟨u, hu⟩ := @ieee_exists Platform.gcc_x86_64 binary64 (by decide) .nearest
  obtain ⟨u', hu'⟩ := @ieee_exists Platform.gcc_x87 binary64 (by decide) .upward
  exact ⟨u, u', hu, hu', C84_double _ _ hu hu' _ _⟩

/-- `-12.5e1` in `-12.5e1x`. -/
def exampleLit : DecLit := { neg := true, int := str "12", frac := some (str "5"), exp := some { letter := ch 'e', sign := none, digits := str "1" } }

omit [Platform] in
theorem exampleLit_longest : LongestLiteral .general (str "-12.5e1x") exampleLit := by
  have h : LongestLiteral (numFormat (to_fast_float_format .general)) (str "-12.5e1x") (litOf (to_fast_float_format .general) (str "-12.5e1x")) :=
    litOf_longest ⟨by decide, by decide⟩
  exact h

example {mode : RoundMode} {u : Fpu} (I : Ieee binary64 mode u) :
    from_chars_double u (str "-12.5e1x") .general = .ok ⟨some 0xC05F400000000000, 7, .none⟩ := by
  obtain ⟨k, k1, k2⟩ := float_literal (fmt := .general) fmtDouble_all I exampleLit_longest (by decide)
  have hv : exampleLit.absVal = 125 := by
    unfold DecLit.absVal
    rw [show decVal exampleLit.digits = 125 by decide, show exampleLit.expVal = 1 by decide, show exampleLit.fdigits.length = 1 by decide]
    norm_num
  have hk : binary64.val 0x405F400000000000 = 125 := by
    have := val_cell binary64 1028 (125 * 2 ^ 46) (.inl (by decide)) (by decide)
    rw [show 1028 * 2 ^ binary64.p + 125 * 2 ^ 46 = 0x405F400000000000 by decide] at this
    rw [this, show ((1028 : ℕ) : ℤ) + 1 - (binary64.bias : ℤ) - (binary64.p : ℤ) = -46 by decide]
    norm_num
  have : k = 0x405F400000000000 := by
    rw [hv, ← hk] at k1
    exact k1.unique _ (nearest_val _ (by decide))
  subst this
  have k3 : from_chars_double u (str "-12.5e1x") .general = _ := k2
  rw [k3, if_neg]
  · rfl
  · rintro (h | ⟨h, -⟩) <;> revert h <;> decide

omit [Platform] in
example : LongestSpecial (str "-NaN(ab_1)x") true .nan (str "-NaN(ab_1)") := by
  have hp : str "-NaN(ab_1)" <+: str "-NaN(ab_1)x" := ⟨str "x", by decide⟩
  have hs : IsSignedSpecial true .nan (str "-NaN(ab_1)") :=
    ⟨str "NaN(ab_1)", .inr ⟨str "NaN", str "ab_1", by decide, by unfold NanChar; decide, by decide⟩, by decide⟩
  rcases parse_infnan_spec (str "-NaN(ab_1)x") (by decide) with ⟨neg, v, t, h1, h2⟩ | ⟨-, h2⟩
  · have h3 : parse_infnan (str "-NaN(ab_1)x") = .ok (some (.nan true, 10)) := by decide
    rw [h3] at h2
    have h4 := Option.some.inj (Res.ok.inj h2)
    have h5 : t.length = 10 := (congrArg Prod.snd h4).symm
    have h6 : toInfNan neg v = .nan true := (congrArg Prod.fst h4).symm
    obtain ⟨z, hz⟩ := h1.2.1
    obtain ⟨z', hz'⟩ := hp
    have e := (List.append_inj (hz.trans hz'.symm) (by rw [h5]; decide)).1
    refine ⟨hs, ⟨z', hz'⟩, ?_⟩
    rw [← e]
    exact h1.2.2
  · exact absurd hp (h2 _ _ _ hs)

end Utki
