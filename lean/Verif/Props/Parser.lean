import Verif.Lemmas.Parser
/-!
# Properties of `string_parser` and number conversion (C30 – C36)
-/
namespace Utki
open Spec Parser

theorem skipWsCommaLoop_bounds (v : List Byte) (pos : Nat) (b : Bool) :
    pos ≤ skipWsCommaLoop v pos b ∧ skipWsCommaLoop v pos b ≤ pos + v.length := by
  induction v generalizing pos b with
  | nil => simp [skipWsCommaLoop]
  | cons c cs ih =>
    unfold skipWsCommaLoop
    simp only [List.length_cons]
    split
    · have := ih (pos + 1) b; omega
    · split
      · split
        · omega
        · have := ih (pos + 1) true; omega
      · omega

/-! ## C30: reading -/

theorem space_iff (c : Byte) : is_space c = true ↔ IsBlank c := by
  simp only [is_space, IsBlank, Bool.or_eq_true, beq_iff_eq, List.map_cons, List.map_nil, List.mem_cons, List.not_mem_nil, or_false]
  constructor
  · rintro (((((h | h) | h) | h) | h) | h) <;> subst h <;> decide
  · rintro (h | h | h | h | h | h) <;> subst h <;> decide

/-- What is read is the longest prefix without a stop character. -/
theorem readUntil_spec (stop : Byte → Bool) (P : Byte → Prop) (hP : ∀ c, stop c = true ↔ P c) (p : Parser) :
    ∃ w rest, readUntil stop p = (.ok w, rest) ∧ p = w ++ rest ∧ (∀ c ∈ w, ¬ P c) ∧ (∀ c, rest.head? = some c → P c) := by
  refine ⟨_, _, readUntil_eq stop p, by simp, ?_, ?_⟩
  · intro c hc
    have := List.all_eq_true.mp (List.all_takeWhile (p := fun c => !stop c) (l := p)) c hc
    rw [← hP]; simpa using this
  · intro c hc
    have := List.head?_dropWhile_not (fun c => !stop c) p
    rw [hc] at this
    rw [← hP]; simpa using this

/-- C30: `read_word` reads up to the first white space. -/
theorem C30_read_word (p : Parser) :
    ∃ w rest, read_word p = (.ok w, rest) ∧ p = w ++ rest ∧ (∀ c ∈ w, ¬ IsBlank c) ∧ (∀ c, rest.head? = some c → IsBlank c) :=
  readUntil_spec _ _ space_iff p

/-- C30: `read_word_until(c)` reads up to the first white space or `c`. -/
theorem C30_read_word_until (u : Byte) (p : Parser) :
    ∃ w rest, read_word_until u p = (.ok w, rest) ∧ p = w ++ rest ∧ (∀ c ∈ w, ¬ (IsBlank c ∨ c = u)) ∧
      (∀ c, rest.head? = some c → IsBlank c ∨ c = u) :=
  readUntil_spec _ _ (fun c => by rw [Bool.or_eq_true, space_iff, beq_iff_eq]) p

/-- C30: `read_chars_until(c)` reads up to the first `c`. -/
theorem C30_read_chars_until (u : Byte) (p : Parser) :
    ∃ w rest, read_chars_until u p = (.ok w, rest) ∧ p = w ++ rest ∧ u ∉ w ∧ (∀ c, rest.head? = some c → c = u) := by
  obtain ⟨w, rest, h1, h2, h3, h4⟩ := readUntil_spec (fun x => x == u) (fun c => c = u) (fun c => by simp) p
  exact ⟨w, rest, h1, h2, fun hu => h3 u hu rfl, h4⟩

/-- C30: `read_chars(n)` reads the first `min(n, size())` characters. -/
theorem C30_read_chars (n : Nat) (p : Parser) :
    ∃ w rest, read_chars n p = (.ok w, rest) ∧ p = w ++ rest ∧ w.length = min n p.length :=
  ⟨_, _, read_chars_eq n p, by simp, by simp⟩

example : read_word_until (ch '=') (str "key=value x") = (.ok (str "key"), str "=value x") ∧
    read_word (str "key=value x") = (.ok (str "key=value"), str " x") ∧ read_chars 20 (str "abc") = (.ok (str "abc"), []) ∧
    read_chars_until (ch ';') (str "a b;c") = (.ok (str "a b"), str ";c") := by
  decide +kernel

/-! ## C31: skipping -/

/-- C31: `skip_whitespaces` drops the longest white space prefix. -/
theorem C31_skip_whitespaces (p : Parser) :
    ∃ ws rest, skip_whitespaces p = (.ok (), rest) ∧ p = ws ++ rest ∧ (∀ c ∈ ws, IsBlank c) ∧
      (∀ c, rest.head? = some c → ¬ IsBlank c) := by
  refine ⟨p.takeWhile is_space, _, skip_whitespaces_eq p, by simp, ?_, ?_⟩
  · intro c hc
    rw [← space_iff]; exact List.all_eq_true.mp (List.all_takeWhile (p := is_space) (l := p)) c hc
  · intro c hc
    have := List.head?_dropWhile_not is_space p
    rw [hc] at this
    rw [← space_iff]; simpa using this

theorem skipWsCommaLoop_eq (v : List Byte) (pos : Nat) (b : Bool) : skipWsCommaLoop v pos b = pos + skipWsCommaLoop v 0 b := by
  induction v generalizing pos b with
  | nil => simp [skipWsCommaLoop]
  | cons c cs ih =>
    unfold skipWsCommaLoop
    split
    · rw [ih (pos + 1), ih (0 + 1)]; omega
    · split
      · split
        · omega
        · rw [ih (pos + 1), ih (0 + 1)]; omega
      · omega

theorem skipWsComma_spec (v : List Byte) (b : Bool) :
    ∃ pre rest, v = pre ++ rest ∧ pre.length = skipWsCommaLoop v 0 b ∧ (∀ c ∈ pre, IsBlank c ∨ c = ch ',') ∧
      pre.count (ch ',') ≤ (if b then 0 else 1) ∧
      ∀ q r, v = q ++ r → (∀ c ∈ q, IsBlank c ∨ c = ch ',') → q.count (ch ',') ≤ (if b then 0 else 1) → q.length ≤ pre.length := by
  have hsc : ¬ IsBlank (ch ',') := by rw [← space_iff]; decide
  induction v generalizing b with
  | nil =>
    refine ⟨[], [], rfl, rfl, by simp, by simp, ?_⟩
    intro q r h _ _; have := congrArg List.length h; simp only [List.length_append, List.length_nil] at this ⊢; omega
  | cons c cs ih =>
    by_cases hs : is_space c = true
    · have hb : IsBlank c := (space_iff c).mp hs
      have hne : c ≠ ch ',' := by intro h; subst h; exact hsc hb
      obtain ⟨pre, rest, h1, h2, h3, h4, h5⟩ := ih b
      refine ⟨c :: pre, rest, by rw [h1]; rfl, ?_, ?_, ?_, ?_⟩
      · unfold skipWsCommaLoop
        rw [if_pos hs, skipWsCommaLoop_eq, ← h2]; simp; omega
      · intro x hx
        rcases List.mem_cons.mp hx with h | h
        · subst h; exact .inl hb
        · exact h3 x h
      · rw [List.count_cons_of_ne hne]; exact h4
      · intro q r hq hall hcnt
        cases q with
        | nil => simp
        | cons y q =>
          simp at hq
          have := h5 q r hq.2 (fun x hx => hall x (by simp [hx])) (by
            rw [← hq.1, List.count_cons_of_ne hne] at hcnt; exact hcnt)
          simp; exact this
    · by_cases hc : c = ch ','
      · cases b with
        | true =>
          refine ⟨[], c :: cs, rfl, ?_, by simp, by simp, ?_⟩
          · unfold skipWsCommaLoop; rw [if_neg hs, if_pos (by simpa using hc), if_pos rfl]; rfl
          · intro q r hq _ hcnt
            cases q with
            | nil => simp
            | cons y q =>
              simp at hq
              rw [← hq.1, hc, List.count_cons_self] at hcnt
              simp at hcnt
        | false =>
          obtain ⟨pre, rest, h1, h2, h3, h4, h5⟩ := ih true
          refine ⟨c :: pre, rest, by rw [h1]; rfl, ?_, ?_, ?_, ?_⟩
          · unfold skipWsCommaLoop
            rw [if_neg hs, if_pos (by simpa using hc), if_neg Bool.false_ne_true, skipWsCommaLoop_eq, ← h2]; simp; omega
          · intro x hx
            rcases List.mem_cons.mp hx with h | h
            · subst h; exact .inr hc
            · exact h3 x h
          · rw [hc, List.count_cons_self]
            rw [if_pos rfl] at h4
            simp; omega
          · intro q r hq hall hcnt
            cases q with
            | nil => simp
            | cons y q =>
              simp at hq
              have := h5 q r hq.2 (fun x hx => hall x (by simp [hx])) (by
                rw [← hq.1, hc, List.count_cons_self] at hcnt
                simp at hcnt ⊢; exact hcnt)
              simp; exact this
      · refine ⟨[], c :: cs, rfl, ?_, by simp, by simp, ?_⟩
        · unfold skipWsCommaLoop; rw [if_neg hs, if_neg (by simpa using hc)]; rfl
        · intro q r hq hall _
          cases q with
          | nil => simp
          | cons y q =>
            simp at hq
            rcases hall y (by simp) with h | h
            · rw [← hq.1] at h; exact absurd ((space_iff c).mpr h) hs
            · rw [← hq.1] at h; exact absurd h hc

/-- C31: `skip_whitespaces_and_comma` drops the longest prefix made of white space and at most one comma. -/
theorem C31_skip_whitespaces_and_comma (p : Parser) :
    ∃ pre rest, skip_whitespaces_and_comma p = (.ok (), rest) ∧ p = pre ++ rest ∧ (∀ c ∈ pre, IsBlank c ∨ c = ch ',') ∧
      pre.count (ch ',') ≤ 1 ∧
      ∀ q r, p = q ++ r → (∀ c ∈ q, IsBlank c ∨ c = ch ',') → q.count (ch ',') ≤ 1 → q.length ≤ pre.length := by
  obtain ⟨pre, rest, h1, h2, h3, h4, h5⟩ := skipWsComma_spec p false
  refine ⟨pre, rest, ?_, h1, h3, h4, h5⟩
  have := skipWsCommaLoop_bounds p 0 false
  rw [skip_whitespaces_and_comma, Meth.get_bind, advance_eq _ _ (by omega), ← h2]
  conv => lhs; rw [h1]
  rw [List.drop_left]

/-- C31: `skip_inclusive_until(c)` drops everything through the first `c`, or everything. -/
theorem C31_skip_inclusive_until (c : Byte) (p : Parser) :
    ∃ pre rest, skip_inclusive_until c p = (.ok (), rest) ∧ c ∉ pre ∧ (p = pre ++ [c] ++ rest ∨ (p = pre ∧ rest = [])) := by
  refine ⟨p.takeWhile (fun x => x != c), _, by
    rw [skip_inclusive_until, Meth.get_bind, skipUntilLoop_eq c _ p (by omega)], ?_, ?_⟩
  · intro hm
    have := List.all_eq_true.mp (List.all_takeWhile (p := fun x => x != c) (l := p)) c hm
    simp at this
  · have e := List.takeWhile_append_dropWhile (p := fun x => x != c) (l := p)
    have hh := List.head?_dropWhile_not (fun x => x != c) p
    generalize p.takeWhile (fun x => x != c) = t at e
    generalize p.dropWhile (fun x => x != c) = d at e hh
    cases d with
    | nil => right; exact ⟨by rw [← e]; simp, rfl⟩
    | cons x r =>
      have hx : x = c := by simpa using hh
      subst hx
      left; rw [← e]; simp

/-- C31: `skip_inclusive_until_one_of(cs)` drops everything through the first character of `cs` and returns it, or drops
everything and returns NUL. -/
theorem C31_skip_inclusive_until_one_of (cs : List Byte) (p : Parser) :
    ∃ pre rest x, skip_inclusive_until_one_of cs p = (.ok x, rest) ∧ (∀ c ∈ pre, c ∉ cs) ∧
      ((p = pre ++ [x] ++ rest ∧ x ∈ cs) ∨ (p = pre ∧ rest = [] ∧ x = 0)) := by
  have e := List.takeWhile_append_dropWhile (p := fun x => !cs.contains x) (l := p)
  have hh := List.head?_dropWhile_not (fun x => !cs.contains x) p
  have hpre : ∀ c ∈ p.takeWhile (fun x => !cs.contains x), c ∉ cs := by
    intro c hc
    have := List.all_eq_true.mp (List.all_takeWhile (p := fun x => !cs.contains x) (l := p)) c hc
    simpa using this
  rw [skip_inclusive_until_one_of, Meth.get_bind, skipUntilOneOfLoop_eq cs _ p (by omega)]
  generalize p.takeWhile (fun x => !cs.contains x) = t at e hpre
  generalize p.dropWhile (fun x => !cs.contains x) = d at e hh
  cases d with
  | nil => exact ⟨t, [], 0, rfl, hpre, .inr ⟨by rw [← e]; simp, rfl, rfl⟩⟩
  | cons x r =>
    have hx : x ∈ cs := by simpa using hh
    exact ⟨t, r, x, rfl, hpre, .inl ⟨by rw [← e]; simp, hx⟩⟩

example : skip_whitespaces_and_comma (str " , ,x") = (.ok (), str ",x") ∧
    skip_inclusive_until_one_of (str ";,") (str "ab,c;d") = (.ok (ch ','), str "c;d") ∧
    skip_inclusive_until_one_of (str ";,") (str "ab") = (.ok 0, []) ∧ skip_inclusive_until (ch 'b') (str "abc") = (.ok (), str "c") := by
  decide +kernel

/-! ## C32: single characters -/

/-- C32: `read_char` returns the first character and drops it; it throws exactly at the end. -/
theorem C32_read_char (p : Parser) :
    (∀ c r, p = c :: r → read_char p = (.ok c, r)) ∧ (p = [] → read_char p = (.throw .invalid_argument, p)) :=
  ⟨fun c r h => by rw [h, read_char_cons], fun h => by rw [h, read_char_nil]⟩

/-- C32: `peek_char()` and `peek_char(n)` never change the parser; they return the character, or throw exactly if it does
not exist. -/
theorem C32_peek (n : Nat) (p : Parser) :
    (∀ c, p[n]? = some c → peek_char_at n p = (.ok c, p)) ∧ (p.length ≤ n → peek_char_at n p = (.throw .invalid_argument, p)) ∧
    peek_char p = peek_char_at 0 p := by
  refine ⟨fun c h => by rw [peek_char_at_eq, h], fun h => by rw [peek_char_at_eq, List.getElem?_eq_none h], ?_⟩
  cases p with
  | nil => rw [peek_char_nil, peek_char_at_eq]; rfl
  | cons c r => rw [peek_char_cons, peek_char_at_eq]; rfl

example : peek_char_at 2 (str "abc") = (.ok (ch 'c'), str "abc") ∧ peek_char_at 3 (str "abc") = (.throw .invalid_argument, str "abc") := by
  decide +kernel

/-! ## C33, C34: numbers -/

theorem dropWhile_blank (ws t : List Byte) (hws : ∀ c ∈ ws, IsBlank c) (ht : ∀ c, t.head? = some c → ¬ IsBlank c) :
    (ws ++ t).dropWhile is_space = t := by
  rw [List.dropWhile_append_of_pos (fun c hc => (space_iff c).mpr (hws c hc))]
  cases t with
  | nil => rfl
  | cons c r =>
    have : is_space c = false := by
      have := ht c rfl
      rw [← space_iff] at this; simpa using this
    rw [List.dropWhile_cons, this]; rfl

/-- C33: after white space, an unsigned literal is read: its value is returned (0 if it does not fit the type), and the
text after the literal is left. -/
theorem C33_value (dbg : Bool) (w : Nat) (ws t rest : List Byte) (n : Nat) (hws : ∀ c ∈ ws, IsBlank c)
    (ht : ∀ c, t.head? = some c → ¬ IsBlank c) (h : UnsignedLit t (.value n rest)) :
    read_numberU dbg w (ws ++ t) = (.ok (if n < 2 ^ w then n else 0), rest) := by
  rw [read_numberU_eq, dropWhile_blank ws t hws ht, unsignedBody_lit dbg w t _ h]; rfl

/-- C33: it throws `std::invalid_argument` exactly if no decimal digit follows the white space. -/
theorem C33_throws_iff (dbg : Bool) (w : Nat) (ws t : List Byte) (hws : ∀ c ∈ ws, IsBlank c)
    (ht : ∀ c, t.head? = some c → ¬ IsBlank c) :
    (read_numberU dbg w (ws ++ t) = (.throw .invalid_argument, t) ↔ NoDigitAhead 10 t) ∧
    (NoDigitAhead 10 t ∨ ∃ n rest, UnsignedLit t (.value n rest)) := by
  obtain ⟨o, ho⟩ := unsignedLit_total t
  rw [read_numberU_eq, dropWhile_blank ws t hws ht, unsignedBody_lit dbg w t _ ho]
  cases o with
  | value n rest =>
    refine ⟨⟨fun h => (by cases h), fun hno => ?_⟩, .inr ⟨n, rest, ho⟩⟩
    have h1 := unsignedBody_lit dbg w t _ (.none t hno)
    rw [unsignedBody_lit dbg w t _ ho] at h1
    exact h1
  | none =>
    cases ho with
    | none _ hno => exact ⟨⟨fun _ => hno, fun _ => rfl⟩, .inl hno⟩

/-- C33: the specified reading of a text is unique. -/
theorem C33_unique (t : List Byte) (o o' : Read) (h : UnsignedLit t o) (h' : UnsignedLit t o') : o = o' := by
  have key : ∀ w, unsignedOutcome w t o = unsignedOutcome w t o' := fun w => by
    rw [← unsignedBody_lit true w t o h, unsignedBody_lit true w t o' h']
  cases o with
  | none =>
    cases o' with
    | none => rfl
    | value n' r' => have := key 0; cases this
  | value n r =>
    cases o' with
    | none => have := key 0; cases this
    | value n' r' =>
      have := key (n + n')
      simp only [unsignedOutcome] at this
      have hb : n + n' < 2 ^ (n + n') := Nat.lt_two_pow_self
      rw [if_pos (show n < 2 ^ (n + n') by omega), if_pos (show n' < 2 ^ (n + n') by omega)] at this
      cases this; rfl

/-- C34: after white space, an optional minus sign and decimal digits are read. -/
theorem C34_value (dbg : Bool) (w : Nat) (ws t rest : List Byte) (n : Int) (hws : ∀ c ∈ ws, IsBlank c)
    (ht : ∀ c, t.head? = some c → ¬ IsBlank c) (h : SignedLit t (.value n rest)) :
    read_numberS dbg w (ws ++ t) = (.ok (if -(2 : Int) ^ (w - 1) ≤ n ∧ n < 2 ^ (w - 1) then n else 0), rest) := by
  rw [read_numberS_lit dbg w _ _ (by rw [dropWhile_blank ws t hws ht]; exact h)]; rfl

/-- C34: it throws `std::invalid_argument` exactly if neither a digit nor a minus sign and a digit follow. -/
theorem C34_throws_iff (dbg : Bool) (w : Nat) (ws t : List Byte) (hws : ∀ c ∈ ws, IsBlank c)
    (ht : ∀ c, t.head? = some c → ¬ IsBlank c) :
    (read_numberS dbg w (ws ++ t) = (.throw .invalid_argument, t) ↔ (NoDigitAhead 10 t ∧ ∀ r, t = ch '-' :: r → NoDigitAhead 10 r)) ∧
    ((NoDigitAhead 10 t ∧ ∀ r, t = ch '-' :: r → NoDigitAhead 10 r) ∨ ∃ n rest, SignedLit t (.value n rest)) := by
  have he := dropWhile_blank ws t hws ht
  obtain ⟨o, ho⟩ := signedLit_total t
  rw [read_numberS_lit dbg w _ o (by rw [he]; exact ho), he]
  cases o with
  | value n rest =>
    refine ⟨⟨fun h => (by cases h), fun hno => ?_⟩, .inr ⟨n, rest, ho⟩⟩
    have h1 := read_numberS_lit dbg w (ws ++ t) .none (by rw [he]; exact .none t hno.1 hno.2)
    rw [read_numberS_lit dbg w _ _ (by rw [he]; exact ho), he] at h1
    exact h1
  | none =>
    cases ho with
    | none _ h1 h2 => exact ⟨⟨fun _ => ⟨h1, h2⟩, fun _ => rfl⟩, .inl ⟨h1, h2⟩⟩

example : read_numberU true 32 (str " \t0x1Fg") = (.ok 31, str "g") ∧ read_numberU true 32 (str "0b102") = (.ok 2, str "2") ∧
    read_numberU true 32 (str "0178") = (.ok 15, str "8") ∧ read_numberU true 32 (str "098") = (.ok 98, []) ∧
    read_numberU true 8 (str "256,") = (.ok 0, str ",") ∧ read_numberU true 32 (str "0xg") = (.ok 0, str "xg") ∧
    read_numberU true 32 (str "-1") = (.throw .invalid_argument, str "-1") ∧
    read_numberS true 8 (str " -128") = (.ok (-128), []) ∧ read_numberS true 8 (str "128") = (.ok 0, []) := by
  decide +kernel

/-- A literal that meets the hypotheses of `C33_value`. -/
example : UnsignedLit (str "0x1Fg") (.value 31 (str "g")) := by
  have h : Numeral 16 (str "1F") 31 := by
    rw [numeral_iff]; exact ⟨by decide, by decide⟩
  exact .hex (str "1F") (str "g") 31 (by decide) h (by
    intro c hc; rw [← isDigit_iff]
    have : c = ch 'g' := by simpa [str] using hc.symm
    subst this; decide)

/-! ## C36: to_string -/

/-- The bases. -/
def radix : Base → Nat
  | .bin => 2
  | .oct => 8
  | .dec => 10
  | .hex => 16

/-- What marks a base in a literal. -/
def mark : Base → List Byte
  | .bin => str "0b"
  | .oct => str "0"
  | .dec => []
  | .hex => str "0x"

/-- C36: the text of an unsigned number is the prefix of the base and the numeral, without superfluous zeros; it is never
empty (types of at most 126 bits). -/
theorem C36_unsigned (w : Nat) (hw : w ≤ 126) (n : Nat) (hn : n < 2 ^ w) (b : Base) :
    ∃ ds, to_stringU n b = mark b ++ ds ∧ ds ≠ [] ∧
      Numeral (radix b) ds n ∧
      (ds.head? = some (ch '0') → n = 0 ∧ ds = [ch '0']) := by
  have h1 : 2 ≤ to_int b := by cases b <;> decide
  have h2 : to_int b ≤ 36 := by cases b <;> decide
  have hr : 126 ≤ 128 - (basePrefix b).length := by cases b <;> decide
  have hfit : n < to_int b ^ (128 - (basePrefix b).length) := by
    calc n < 2 ^ w := hn
      _ ≤ 2 ^ 126 := Nat.pow_le_pow_right (by omega) hw
      _ ≤ to_int b ^ 126 := Nat.pow_le_pow_left h1 _
      _ ≤ _ := Nat.pow_le_pow_right (by omega) hr
  have hs := (toChars_isSome (to_int b) h1 _ n (by omega)).mpr hfit
  obtain ⟨ds, hds⟩ := Option.isSome_iff_exists.mp hs
  obtain ⟨g1, g2, _, g4⟩ := toChars_some (to_int b) h1 h2 _ n ds hds
  refine ⟨ds, ?_, g2, ?_, g4⟩
  · unfold to_stringU; rw [hds]; cases b <;> rfl
  · cases b <;> exact g1

/-- C36: the text of a signed number is an optional minus sign and the numeral of its absolute value. -/
theorem C36_signed (w : Nat) (hw : w ≤ 127) (v : Int) (hv : -(2 : Int) ^ (w - 1) ≤ v ∧ v < 2 ^ (w - 1)) (b : Base) :
    ∃ ds, to_stringS v b = (if v < 0 then str "-" else []) ++ ds ∧ ds ≠ [] ∧
      Numeral (radix b) ds v.natAbs ∧
      (ds.head? = some (ch '0') → v = 0 ∧ ds = [ch '0']) := by
  have h1 : 2 ≤ to_int b := by cases b <;> decide
  have h2 : to_int b ≤ 36 := by cases b <;> decide
  have hcast : ((2 ^ (w - 1) : Nat) : Int) = (2 : Int) ^ (w - 1) := by simp
  have hfit : ∀ room, 126 < room → v.natAbs < to_int b ^ room := by
    intro room hroom
    calc v.natAbs < 2 ^ (w - 1) + 1 := by omega
      _ ≤ 2 ^ 126 + 1 := Nat.succ_le_succ (Nat.pow_le_pow_right (by omega) (by omega))
      _ ≤ 2 ^ 127 := by decide
      _ ≤ to_int b ^ 127 := Nat.pow_le_pow_left h1 _
      _ ≤ _ := Nat.pow_le_pow_right (by omega) (by omega)
  have conv : ∀ ds : List Byte, Numeral (to_int b) ds v.natAbs →
      Numeral (radix b) ds v.natAbs := by
    intro ds h; cases b <;> exact h
  by_cases hneg : v < 0
  · have hs := (toChars_isSome (to_int b) h1 127 v.natAbs (by omega)).mpr (hfit 127 (by omega))
    obtain ⟨ds, hds⟩ := Option.isSome_iff_exists.mp hs
    obtain ⟨g1, g2, _, g4⟩ := toChars_some (to_int b) h1 h2 _ _ ds hds
    refine ⟨ds, ?_, g2, conv ds g1, ?_⟩
    · unfold to_stringS toCharsInt
      rw [if_pos hneg, if_pos hneg]; simp only [hds, Option.map_some]; rfl
    · intro h; have := g4 h; exact ⟨by omega, this.2⟩
  · have hs := (toChars_isSome (to_int b) h1 128 v.natAbs (by omega)).mpr (hfit 128 (by omega))
    obtain ⟨ds, hds⟩ := Option.isSome_iff_exists.mp hs
    obtain ⟨g1, g2, _, g4⟩ := toChars_some (to_int b) h1 h2 _ _ ds hds
    refine ⟨ds, ?_, g2, conv ds g1, ?_⟩
    · unfold to_stringS toCharsInt
      rw [if_neg hneg, if_neg hneg]; simp only [hds]; rfl
    · intro h; have := g4 h; exact ⟨by omega, this.2⟩

example : to_stringU 255 .hex = str "0xff" ∧ to_stringU 0 .oct = str "00" ∧ to_stringU 5 .bin = str "0b101" ∧
    to_stringU 18446744073709551615 .dec = str "18446744073709551615" ∧ to_stringS (-128) .dec = str "-128" ∧
    to_stringS (-255) .hex = str "-ff" := by
  decide +kernel

/-! ## C35: round trip -/

/-- C35: an unsigned number written with `to_string` in any base and followed by any text that does not continue the
literal is read back, and exactly that text is left. -/
theorem C35_unsigned (dbg : Bool) (w : Nat) (hw : w ≤ 126) (n : Nat) (hn : n < 2 ^ w) (b : Base) (rest : List Byte)
    (hr : NoDigitAhead (radix b) rest)
    (hz : b = .dec → n = 0 → (∀ c r, rest = ch 'x' :: c :: r → ¬ IsDigit 16 c) ∧ (∀ c r, rest = ch 'b' :: c :: r → ¬ IsDigit 2 c)) :
    read_numberU dbg w (to_stringU n b ++ rest) = (.ok n, rest) := by
  obtain ⟨ds, h1, h2, h3, h4⟩ := C36_unsigned w hw n hn b
  have hblank0 : ¬ IsBlank (ch '0') := by rw [← space_iff]; decide
  suffices hl : UnsignedLit (to_stringU n b ++ rest) (.value n rest) by
    have hhead : ∀ c, (to_stringU n b ++ rest).head? = some c → ¬ IsBlank c := by
      rw [h1]
      cases b with
      | bin => intro c hc; simp [mark, str] at hc; subst hc; exact hblank0
      | oct => intro c hc; simp [mark, str] at hc; subst hc; exact hblank0
      | hex => intro c hc; simp [mark, str] at hc; subst hc; exact hblank0
      | dec =>
        intro c hc hb
        cases ds with
        | nil => exact h2 rfl
        | cons d ds =>
          simp [mark] at hc; subst hc
          have hd := ((numeral_iff _ _ _).mp h3).1 d (by simp)
          rw [← space_iff] at hb
          have : ∀ k, k < 256 → is_space (BitVec.ofNat 8 k) = true → isDigit 10 (BitVec.ofNat 8 k) = true → False := by decide +kernel
          have := this d.toNat d.isLt
          rw [BitVec.ofNat_toNat, BitVec.setWidth_eq] at this
          exact this hb hd
    have := C33_value dbg w [] _ rest n (by simp) hhead hl
    rw [List.nil_append, if_pos hn] at this
    exact this
  rw [h1]
  cases b with
  | bin => exact .bin ds rest n h2 h3 hr
  | oct => exact .oct ds rest n h2 h3 hr
  | hex => exact .hex ds rest n h2 h3 hr
  | dec =>
    rw [mark, List.nil_append]
    by_cases hh : ds.head? = some (ch '0')
    · obtain ⟨rfl, rfl⟩ := h4 hh
      obtain ⟨z1, z2⟩ := hz rfl rfl
      exact .zero rest hr z1 z2
    · exact .dec ds rest n h2 h3 hr (.inl hh)

/-- C35: a signed number written in decimal and followed by any text that does not start with a digit is read back. -/
theorem C35_signed (dbg : Bool) (w : Nat) (hw : w ≤ 127) (v : Int) (hv : -(2 : Int) ^ (w - 1) ≤ v ∧ v < 2 ^ (w - 1))
    (rest : List Byte) (hr : NoDigitAhead 10 rest) :
    read_numberS dbg w (to_stringS v .dec ++ rest) = (.ok v, rest) := by
  obtain ⟨ds, h1, h2, h3, h4⟩ := C36_signed w hw v hv .dec
  have hdig : ∀ c, ds.head? = some c → ¬ IsBlank c := by
    intro c hc hb
    cases ds with
    | nil => cases hc
    | cons d ds =>
      simp at hc; subst hc
      have hd := ((numeral_iff _ _ _).mp h3).1 d (by simp)
      rw [← space_iff] at hb
      have : ∀ k, k < 256 → is_space (BitVec.ofNat 8 k) = true → isDigit 10 (BitVec.ofNat 8 k) = true → False := by decide +kernel
      have := this d.toNat d.isLt
      rw [BitVec.ofNat_toNat, BitVec.setWidth_eq] at this
      exact this hb hd
  have hmin : ¬ IsBlank (ch '-') := by rw [← space_iff]; decide
  by_cases hneg : v < 0
  · rw [if_pos hneg] at h1
    have hl : SignedLit (to_stringS v .dec ++ rest) (.value (-(v.natAbs : Int)) rest) := by
      rw [h1]; exact .neg ds rest _ h2 h3 hr
    rw [show -(v.natAbs : Int) = v by omega] at hl
    have := C34_value dbg w [] _ rest v (by simp) (by
      intro c hc; rw [h1] at hc; simp [str] at hc; subst hc; exact hmin) hl
    rw [List.nil_append, if_pos hv] at this
    exact this
  · rw [if_neg hneg, List.nil_append] at h1
    have hl : SignedLit (to_stringS v .dec ++ rest) (.value (v.natAbs : Int) rest) := by
      rw [h1]; exact .pos ds rest _ h2 h3 hr
    rw [show (v.natAbs : Int) = v by omega] at hl
    have := C34_value dbg w [] _ rest v (by simp) (by
      intro c hc; rw [h1] at hc
      cases ds with
      | nil => exact absurd rfl h2
      | cons d ds => simp at hc; subst hc; exact hdig d rfl) hl
    rw [List.nil_append, if_pos hv] at this
    exact this

example : read_numberU true 64 (to_stringU 18446744073709551615 .oct ++ str "9 rest") = (.ok 18446744073709551615, str "9 rest") ∧
    read_numberS true 64 (to_stringS (-9223372036854775808) .dec ++ str "xyz") = (.ok (-9223372036854775808), str "xyz") := by
  decide +kernel

/-- The condition on the following text in `C35_unsigned` is needed: a decimal zero followed by `x1` is read as 1. -/
example : read_numberU true 32 (to_stringU 0 .dec ++ str "x1") = (.ok 1, []) := by decide +kernel

end Utki
