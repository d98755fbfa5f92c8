import Verif.Props.FloatFrom
/-!
# C29: histories of calls of `string_parser`
-/
namespace Utki
open Spec Spec.BinFmt Utki.Parser FastFloat

/-- A call of a member function of `string_parser`. `read_float` is `read_number` for a floating-point type, executed by the
floating-point unit `u`. -/
inductive PCall where
  | skip_whitespaces
  | skip_whitespaces_and_comma
  | skip_inclusive_until (c : Byte)
  | skip_inclusive_until_one_of (cs : List Byte)
  | read_word
  | read_word_until (c : Byte)
  | read_chars_until (c : Byte)
  | read_char
  | peek_char
  | peek_char_at (n : Nat)
  | read_chars (n : Nat)
  | read_unsigned (w : Nat)
  | read_signed (w : Nat)
  | read_float (T : FloatType) (u : Fpu)

/-- What a call returns. -/
inductive PVal where
  | unit
  | char (c : Byte)
  | chars (s : List Byte)
  | number (n : Int)
deriving DecidableEq, Repr

/-- Run a member function and wrap its result. -/
def wrap {α : Type} (f : α → PVal) (m : Meth Parser α) : Meth Parser PVal := do
  let a ← m
  return f a

variable [Platform]

/-- Perform a call. -/
def PCall.run (dbg : Bool) : PCall → Meth Parser PVal
  | .skip_whitespaces => wrap (fun _ => .unit) Parser.skip_whitespaces
  | .skip_whitespaces_and_comma => wrap (fun _ => .unit) Parser.skip_whitespaces_and_comma
  | .skip_inclusive_until c => wrap (fun _ => .unit) (Parser.skip_inclusive_until c)
  | .skip_inclusive_until_one_of cs => wrap .char (Parser.skip_inclusive_until_one_of cs)
  | .read_word => wrap .chars Parser.read_word
  | .read_word_until c => wrap .chars (Parser.read_word_until c)
  | .read_chars_until c => wrap .chars (Parser.read_chars_until c)
  | .read_char => wrap .char Parser.read_char
  | .peek_char => wrap .char Parser.peek_char
  | .peek_char_at n => wrap .char (Parser.peek_char_at n)
  | .read_chars n => wrap .chars (Parser.read_chars n)
  | .read_unsigned w => wrap (fun n : Nat => .number n) (read_numberU dbg w)
  | .read_signed w => wrap .number (read_numberS dbg w)
  | .read_float T u => wrap (fun n : Nat => .number n) (read_number_fp dbg u T)

/-- The floating-point unit follows the standard, in some rounding mode; the mode may be another one in every call. -/
def PCall.Sane : PCall → Prop
  | .read_float T u => ∃ mode, Ieee T.fmt mode u
  | _ => True

/-- Perform calls one after another; exceptions are caught by the caller. -/
def runParser (dbg : Bool) : List PCall → Parser → List (Res PVal) × Parser
  | [], p => ([], p)
  | c :: cs, p =>
    let (r, p') := c.run dbg p
    let (rs, q) := runParser dbg cs p'
    (r :: rs, q)

/-- Some end of the text is left, and the call returned or threw `std::invalid_argument`. -/
def Fine {α : Type} (p : Parser) (r : Res α × Parser) : Prop :=
  r.2 <:+ p ∧ ((∃ v, r.1 = .ok v) ∨ r.1 = .throw .invalid_argument)

omit [Platform] in
theorem Fine.wrap {α : Type} {m : Meth Parser α} {p : Parser} (h : Fine p (m p)) (f : α → PVal) : Fine p (wrap f m p) := by
  obtain ⟨h1, h2⟩ := h
  generalize hm : m p = r at h1 h2
  obtain ⟨r, p'⟩ := r
  rcases h2 with ⟨v, hv⟩ | hv
  · simp only at hv; subst hv
    unfold Utki.wrap
    rw [Meth.bind_ok hm]
    exact ⟨h1, .inl ⟨_, rfl⟩⟩
  · simp only at hv; subst hv
    unfold Utki.wrap
    rw [Meth.bind_throw hm]
    exact ⟨h1, .inr rfl⟩

omit [Platform] in
theorem suffix_of_lit (s : List Byte) (o : Read) (h : UnsignedLit s o) : ∀ n rest, o = .value n rest → rest <:+ s := by
  intro n rest ho
  cases h with
  | hex ds r m => cases ho; exact ⟨ch '0' :: ch 'x' :: ds, by simp⟩
  | bin ds r m => cases ho; exact ⟨ch '0' :: ch 'b' :: ds, by simp⟩
  | oct ds r m => cases ho; exact ⟨ch '0' :: ds, by simp⟩
  | dec ds r m => cases ho; exact ⟨ds, by simp⟩
  | zero r => cases ho; exact ⟨[ch '0'], by simp⟩
  | none => cases ho

theorem PCall.fine (dbg : Bool) (c : PCall) (hc : c.Sane) (p : Parser) : Fine p (c.run dbg p) := by
  cases c with
  | skip_whitespaces =>
    refine Fine.wrap ?_ _
    rw [skip_whitespaces_eq]; exact ⟨List.dropWhile_suffix _, .inl ⟨_, rfl⟩⟩
  | skip_whitespaces_and_comma =>
    refine Fine.wrap ?_ _
    have := skipWsCommaLoop_bounds p 0 false
    rw [Parser.skip_whitespaces_and_comma, Meth.get_bind, advance_eq _ _ (by omega)]
    exact ⟨List.drop_suffix _ _, .inl ⟨_, rfl⟩⟩
  | skip_inclusive_until c =>
    refine Fine.wrap ?_ _
    rw [Parser.skip_inclusive_until, Meth.get_bind, skipUntilLoop_eq c _ p (by omega)]
    exact ⟨(List.drop_suffix _ _).trans (List.dropWhile_suffix _), .inl ⟨_, rfl⟩⟩
  | skip_inclusive_until_one_of cs =>
    refine Fine.wrap ?_ _
    rw [Parser.skip_inclusive_until_one_of, Meth.get_bind, skipUntilOneOfLoop_eq cs _ p (by omega)]
    have hs := List.dropWhile_suffix (fun x => !cs.contains x) (l := p)
    split
    · exact ⟨List.nil_suffix, .inl ⟨_, rfl⟩⟩
    · rename_i x r he
      rw [he] at hs
      exact ⟨(List.suffix_cons x r).trans hs, .inl ⟨_, rfl⟩⟩
  | read_word =>
    refine Fine.wrap ?_ _
    rw [Parser.read_word, readUntil_eq]; exact ⟨List.dropWhile_suffix _, .inl ⟨_, rfl⟩⟩
  | read_word_until c =>
    refine Fine.wrap ?_ _
    rw [Parser.read_word_until, readUntil_eq]; exact ⟨List.dropWhile_suffix _, .inl ⟨_, rfl⟩⟩
  | read_chars_until c =>
    refine Fine.wrap ?_ _
    rw [Parser.read_chars_until, readUntil_eq]; exact ⟨List.dropWhile_suffix _, .inl ⟨_, rfl⟩⟩
  | read_char =>
    refine Fine.wrap ?_ _
    cases p with
    | nil => rw [read_char_nil]; exact ⟨List.suffix_rfl, .inr rfl⟩
    | cons c r => rw [read_char_cons]; exact ⟨List.suffix_cons c r, .inl ⟨_, rfl⟩⟩
  | peek_char =>
    refine Fine.wrap ?_ _
    cases p with
    | nil => rw [peek_char_nil]; exact ⟨List.suffix_rfl, .inr rfl⟩
    | cons c r => rw [peek_char_cons]; exact ⟨List.suffix_rfl, .inl ⟨_, rfl⟩⟩
  | peek_char_at n =>
    refine Fine.wrap ?_ _
    rw [peek_char_at_eq]
    refine ⟨List.suffix_rfl, ?_⟩
    simp only
    split
    · exact .inl ⟨_, rfl⟩
    · exact .inr rfl
  | read_chars n =>
    refine Fine.wrap ?_ _
    rw [read_chars_eq]; exact ⟨List.drop_suffix _ _, .inl ⟨_, rfl⟩⟩
  | read_unsigned w =>
    refine Fine.wrap ?_ _
    obtain ⟨o, ho⟩ := unsignedLit_total (p.dropWhile is_space)
    rw [read_numberU_eq, unsignedBody_lit dbg w _ o ho]
    cases o with
    | value n rest =>
      exact ⟨(suffix_of_lit _ _ ho n rest rfl).trans (List.dropWhile_suffix _), .inl ⟨_, rfl⟩⟩
    | none => exact ⟨List.dropWhile_suffix _, .inr rfl⟩
  | read_signed w =>
    refine Fine.wrap ?_ _
    obtain ⟨o, ho⟩ := signedLit_total (p.dropWhile is_space)
    rw [read_numberS_lit dbg w p o ho]
    have hs := List.dropWhile_suffix is_space (l := p)
    generalize p.dropWhile is_space = t at ho hs
    cases ho with
    | pos ds rest n => exact ⟨(List.suffix_append _ _).trans hs, .inl ⟨_, rfl⟩⟩
    | neg ds rest n => exact ⟨(List.suffix_append _ _).trans hs, .inl ⟨_, rfl⟩⟩
    | none => exact ⟨hs, .inr rfl⟩
  | read_float T u =>
    refine Fine.wrap ?_ _
    obtain ⟨mode, I⟩ := hc
    have hs := List.dropWhile_suffix is_space (l := p)
    have hp : p.takeWhile is_space ++ p.dropWhile is_space = p := List.takeWhile_append_dropWhile
    have h := C82_throws_iff dbg T I (p.takeWhile is_space) (p.dropWhile is_space)
      (fun c hc => (space_iff c).mp (List.all_eq_true.mp List.all_takeWhile c hc))
      (fun c hc hb => by
        have := List.head?_dropWhile_not is_space p
        rw [hc] at this
        simp only at this
        rw [(space_iff c).mpr hb] at this; cases this)
    rw [hp] at h
    rcases h with ⟨_, h⟩ | ⟨_, x, a, rest, h1, _, h⟩
    · rw [h]; exact ⟨hs, .inr rfl⟩
    · rw [h]
      rw [h1] at hs
      exact ⟨(List.suffix_append _ _).trans hs, .inl ⟨_, rfl⟩⟩

/-- C29: after any history of calls what is left is an end of the original text; every call returned normally or threw
`std::invalid_argument`: nothing outside the text is read and no assertion fires. This includes `read_number` for integer and for
floating-point types. -/
theorem C29_suffix (dbg : Bool) (calls : List PCall) (hc : ∀ c ∈ calls, c.Sane) (text : List Byte) :
    (∃ consumed, text = consumed ++ (runParser dbg calls text).2) ∧
    (runParser dbg calls text).1.length = calls.length ∧
    ∀ r ∈ (runParser dbg calls text).1, (∃ v, r = .ok v) ∨ r = .throw .invalid_argument := by
  suffices h : ∀ p : Parser, (runParser dbg calls p).2 <:+ p ∧ (runParser dbg calls p).1.length = calls.length ∧
      ∀ r ∈ (runParser dbg calls p).1, (∃ v, r = .ok v) ∨ r = .throw .invalid_argument by
    obtain ⟨⟨c, hc⟩, h2, h3⟩ := h text
    exact ⟨⟨c, hc.symm⟩, h2, h3⟩
  induction calls with
  | nil => intro p; exact ⟨List.suffix_rfl, rfl, by simp [runParser]⟩
  | cons c cs ih =>
    intro p
    obtain ⟨h1, h2⟩ := c.fine dbg (hc c (by simp)) p
    obtain ⟨g1, g2, g3⟩ := ih (fun d hd => hc d (by simp [hd])) (c.run dbg p).2
    unfold runParser
    refine ⟨g1.trans h1, by simp [g2], ?_⟩
    intro r hr
    rcases List.mem_cons.mp hr with h | h
    · subst h; exact h2
    · exact g3 r h

omit [Platform] in
/-- C29: `size()` and `empty()` describe what is left. -/
theorem C29_size (p : Parser) : size p = p.length ∧ (empty p = true ↔ size p = 0) := by
  refine ⟨rfl, ?_⟩
  cases p <;> simp [empty, size]

omit [Platform] in
example : @runParser Platform.gcc_x86_64 true [.read_word, .read_unsigned 32, .peek_char, .read_unsigned 8, .read_signed 8, .read_chars 9, .read_char]
      (str "ab 0x1Fz 300 -128,x") =
    ([.ok (.chars (str "ab")), .ok (.number 31), .ok (.char (ch 'z')), .throw .invalid_argument, .throw .invalid_argument,
      .ok (.chars (str "z 300 -12")), .ok (.char (ch '8'))], str ",x") := by
  decide +kernel

/-- The hypothesis is met in every rounding mode; a history with a floating-point number. -/
example (mode : RoundMode) : ∃ u, (∀ c ∈ [PCall.read_word, .read_float .double u, .read_char], c.Sane) ∧
    runParser true [.read_word, .read_float .double u, .read_char] (str "ab inf,") =
      ([.ok (.chars (str "ab")), .ok (.number 0x7FF0000000000000), .ok (.char (ch ','))], []) := by
  obtain ⟨u, hu⟩ := ieee_exists binary64 (by decide) mode
  refine ⟨u, ?_, ?_⟩
  · intro c hc
    simp only [List.mem_cons, List.not_mem_nil, or_false] at hc
    rcases hc with rfl | rfl | rfl
    · trivial
    · exact ⟨mode, hu⟩
    · trivial
  · rfl

end Utki
