import Verif.Lemmas.String
/-!
# Properties of the string utilities (C15 – C23)
-/
namespace Utki
open Spec

variable {α : Type} [DecidableEq α]

/-! ## C15, C16, C17: split and join -/

/-- C15: `join(split(s, d), d) == s`. -/
theorem C15_join_split (s : List α) (d : α) : ∃ fs, split s d = .ok fs ∧ join fs d = s :=
  ⟨_, split_eq s d, join_fields d s⟩

/-- C16: `split` succeeds with one field more than there are delimiters, and no field contains the delimiter. -/
theorem C16_fields (s : List α) (d : α) :
    ∃ fs, split s d = .ok fs ∧ fs.length = s.count d + 1 ∧ ∀ f ∈ fs, d ∉ f :=
  ⟨_, split_eq s d, length_fields d s, not_mem_fields d s⟩

/-- C17: a non-empty collection of delimiter-free strings survives `join` and `split`. -/
theorem C17_split_join (xs : List (List α)) (d : α) (hne : xs ≠ []) (h : ∀ x ∈ xs, d ∉ x) :
    split (join xs d) d = .ok xs := by
  rw [split_eq, fields_join d xs hne h]

omit [DecidableEq α] in
/-- C17: `join` of nothing is empty, and `join` writes exactly one delimiter between neighbours. -/
theorem C17_join_shape (d : α) (x y : List α) (xs : List (List α)) :
    join ([] : List (List α)) d = [] ∧ join [x] d = x ∧ join (x :: y :: xs) d = x ++ [d] ++ join (y :: xs) d := by
  refine ⟨rfl, rfl, ?_⟩
  rw [join_cons_cons]; simp

example : split (str ",a,,b,") (ch ',') = .ok [[], str "a", [], str "b", []] ∧
    join [[], str "a", [], str "b", []] (ch ',') = str ",a,,b," ∧ split (str "") (ch ',') = .ok [[]] := by
  decide +kernel

example : ∃ xs : List (List Byte), xs ≠ [] ∧ (∀ x ∈ xs, ch ' ' ∉ x) ∧ xs.length = 3 ∧ split (join xs (ch ' ')) (ch ' ') = .ok xs :=
  ⟨[str "a", [], str "bc"], by decide, by decide, by decide, by decide⟩

/-! ## C18: words -/

/-- C18: `split(s)` returns the words of `s`, for every string on which `std::isspace` is defined: any string if `char` is
unsigned, otherwise strings without the bytes 0x80–0xfe. -/
theorem C18_words (sgn : Bool) (s : List Byte) (hdom : ∀ c ∈ s, sgn = true → c.toNat < 128 ∨ c = 0xff) :
    ∃ ws, splitWs sgn s = .ok ws ∧ Words IsSpace s ws := by
  obtain ⟨ret, buf, h1, h2, done, h3, h4, h5⟩ := splitWsLoop_words sgn s [] [] [] hdom (.none [] (by simp)) (by simp) (by simp)
  simp only [List.nil_append] at h3
  unfold splitWs
  simp only [h1, Res.bind_eq, Res.ok_bind, Res.pure_eq, addStr]
  refine ⟨_, rfl, ?_⟩
  by_cases hb : buf = []
  · subst hb
    simp only [List.isEmpty_nil, if_true]
    rw [h3]; simpa using h4
  · have hemp : buf.isEmpty = false := by simpa using hb
    simp only [hemp, Bool.false_eq_true, if_false]
    rw [h3]
    simpa using h4.append_word [] buf (by simp) hb h2 (.inr h5)

/-- C18: the words of a text are uniquely determined, non-empty and free of separators, so the specification leaves no
choice. -/
theorem C18_words_unique (s : List Byte) (ws ws' : List (List Byte)) (h : Words IsSpace s ws) (h' : Words IsSpace s ws') :
    ws = ws' ∧ ∀ w ∈ ws, w ≠ [] ∧ ∀ c ∈ w, ¬ IsSpace c := by
  have split1 : ∀ (gap w rest : List Byte), (∀ c ∈ gap, IsSpace c) → w ≠ [] → (∀ c ∈ w, ¬ IsSpace c) →
      (∀ c, rest.head? = some c → IsSpace c) →
      gap = (gap ++ w ++ rest).takeWhile (fun c => decide (IsSpace c)) ∧
      w = ((gap ++ w ++ rest).dropWhile (fun c => decide (IsSpace c))).takeWhile (fun c => decide (¬ IsSpace c)) := by
    intro gap w rest hg hw hws hr
    obtain ⟨x, w, rfl⟩ : ∃ x w', w = x :: w' := by
      cases w with
      | nil => exact absurd rfl hw
      | cons x w' => exact ⟨x, w', rfl⟩
    have hx : decide (IsSpace x) = false := by simpa using hws x (by simp)
    rw [List.append_assoc, List.takeWhile_append_of_pos (by simpa using hg), List.dropWhile_append_of_pos (by simpa using hg)]
    simp only [List.cons_append, List.takeWhile_cons, List.dropWhile_cons, hx, Bool.false_eq_true, if_false, List.append_nil,
      true_and]
    rw [if_pos (by simpa using hx)]
    congr 1
    rw [List.takeWhile_append_of_pos (by intro c hc; simpa using hws c (by simp [hc]))]
    cases rest with
    | nil => simp
    | cons r rs => rw [List.takeWhile_cons, if_neg (by simpa using hr r rfl)]; simp
  have nospace : ∀ s ws, Words IsSpace s ws → ∀ w ∈ ws, w ≠ [] ∧ ∀ c ∈ w, ¬ IsSpace c := by
    intro s ws h
    induction h with
    | none => simp
    | word gap w rest ws hg hw hws hr hrest ih =>
      intro v hv
      rcases List.mem_cons.mp hv with h | h
      · subst h; exact ⟨hw, hws⟩
      · exact ih v h
  refine ⟨?_, nospace s ws h⟩
  induction h generalizing ws' with
  | none s hs =>
    cases h' with
    | none => rfl
    | word gap w rest ws hg hw hws hr hrest =>
      exfalso
      cases w with
      | nil => exact hw rfl
      | cons x w => exact hws x (by simp) (hs x (by simp))
  | word gap w rest ws hg hw hws hr hrest ih =>
    generalize hs : gap ++ w ++ rest = s at h'
    cases h' with
    | none _ hs' =>
      exfalso
      cases w with
      | nil => exact hw rfl
      | cons x w => exact hws x (by simp) (hs' x (by rw [← hs]; simp))
    | word gap' w' rest' ws'' hg' hw' hws' hr' hrest' =>
      obtain ⟨e1, e2⟩ := split1 gap w rest hg hw hws hr
      obtain ⟨e1', e2'⟩ := split1 gap' w' rest' hg' hw' hws' hr'
      rw [hs] at e1 e2
      have eg : gap = gap' := e1.trans e1'.symm
      have ew : w = w' := e2.trans e2'.symm
      subst eg; subst ew
      have er : rest = rest' := List.append_cancel_left hs
      subst er
      rw [ih ws'' hrest']

example : splitWs true (str " ab\t\tcd e\n") = .ok [str "ab", str "cd", str "e"] ∧
    splitWs true [0x61, 0xe9] = .ub .bad_argument ∧ splitWs false [0x61, 0xe9, 0x20, 0x62] = .ok [[0x61, 0xe9], [0x62]] := by
  decide +kernel

/-! ## C19: trim -/

omit [DecidableEq α] in
theorem trim_front_eq (sp : α → Bool) (s : List α) : trim_front sp s = .ok (s.dropWhile sp) := by
  unfold trim_front substr
  have := List.findIdx_le_length (xs := s) (p := fun c => !sp c)
  simp only
  rw [if_neg (by omega), List.take_of_length_le (by simp), List.dropWhile_eq_drop_findIdx_not]

omit [DecidableEq α] in
theorem trim_back_eq (sp : α → Bool) (s : List α) : trim_back sp s = .ok (s.reverse.dropWhile sp).reverse := by
  unfold trim_back substr
  simp only [List.drop_zero, Nat.not_lt_zero, if_false]
  rw [List.dropWhile_eq_drop_findIdx_not, List.drop_reverse, List.reverse_reverse]

omit [DecidableEq α] in
/-- C19, front: the removed prefix is all whitespace and the rest does not start with whitespace. -/
theorem C19_trim_front (sp : α → Bool) (s : List α) :
    ∃ pre r, trim_front sp s = .ok r ∧ s = pre ++ r ∧ (∀ c ∈ pre, sp c = true) ∧ (∀ c, r.head? = some c → sp c = false) := by
  refine ⟨s.takeWhile sp, s.dropWhile sp, trim_front_eq sp s, by simp, ?_, ?_⟩
  · intro c hc
    exact List.all_eq_true.mp (List.all_takeWhile (p := sp) (l := s)) c hc
  · intro c hc
    have := List.head?_dropWhile_not sp s
    rw [hc] at this
    simpa using this

omit [DecidableEq α] in
/-- C19, back. -/
theorem C19_trim_back (sp : α → Bool) (s : List α) :
    ∃ r post, trim_back sp s = .ok r ∧ s = r ++ post ∧ (∀ c ∈ post, sp c = true) ∧ (∀ c, r.getLast? = some c → sp c = false) := by
  obtain ⟨pre, r, h1, h2, h3, h4⟩ := C19_trim_front sp s.reverse
  rw [trim_front_eq] at h1
  refine ⟨r.reverse, pre.reverse, ?_, ?_, ?_, ?_⟩
  · rw [trim_back_eq]; cases h1; rfl
  · have := congrArg List.reverse h2; simpa using this
  · simpa using h3
  · simpa using h4

omit [DecidableEq α] in
/-- C19, both sides: what is removed is whitespace, what remains neither starts nor ends with whitespace, and trimming
it again gives the same. -/
theorem C19_trim (sp : α → Bool) (s : List α) :
    ∃ pre r post, trim sp s = .ok r ∧ s = pre ++ r ++ post ∧ (∀ c ∈ pre ++ post, sp c = true) ∧
      (∀ c, r.head? = some c → sp c = false) ∧ (∀ c, r.getLast? = some c → sp c = false) ∧ trim sp r = .ok r := by
  obtain ⟨t, post, h1, h2, h3, h4⟩ := C19_trim_back sp s
  obtain ⟨pre, r, g1, g2, g3, g4⟩ := C19_trim_front sp t
  have hlast : ∀ c, r.getLast? = some c → sp c = false := by
    intro c hc; apply h4; rw [g2, List.getLast?_append, hc]; rfl
  have hstable : ∀ u : List α, (∀ c, u.head? = some c → sp c = false) → u.dropWhile sp = u := by
    intro u hu
    cases u with
    | nil => rfl
    | cons a u => rw [List.dropWhile_cons, hu a rfl]; rfl
  refine ⟨pre, r, post, ?_, ?_, ?_, g4, hlast, ?_⟩
  · unfold trim; rw [Res.bind_eq, h1, Res.ok_bind, g1]
  · rw [h2, g2]
  · intro c hc; rcases List.mem_append.mp hc with h | h
    · exact g3 c h
    · exact h3 c h
  · unfold trim
    rw [Res.bind_eq, trim_back_eq, Res.ok_bind, trim_front_eq, hstable r.reverse (by simpa using hlast), List.reverse_reverse,
      hstable r g4]

/-- C19 for text in the classic locale: the characters removed are spaces, horizontal tabs, line feeds, vertical tabs, form feeds and carriage returns,
and what remains has none of them at its ends. -/
theorem C19_trim_classic (s : List Byte) :
    ∃ pre r post, trim classicSpace s = .ok r ∧ s = pre ++ r ++ post ∧ (∀ c ∈ pre ++ post, c ∈ [32#8, 9#8, 10#8, 11#8, 12#8, 13#8]) ∧
      (∀ c, r.head? = some c → c ∉ [32#8, 9#8, 10#8, 11#8, 12#8, 13#8]) ∧ (∀ c, r.getLast? = some c → c ∉ [32#8, 9#8, 10#8, 11#8, 12#8, 13#8]) := by
  have hs : ∀ c : Byte, classicSpace c = true ↔ c ∈ [32#8, 9#8, 10#8, 11#8, 12#8, 13#8] := by decide +kernel
  have hf : ∀ c : Byte, classicSpace c = false → c ∉ [32#8, 9#8, 10#8, 11#8, 12#8, 13#8] := by
    intro c h1 h2
    rw [(hs c).mpr h2] at h1
    cases h1
  obtain ⟨pre, r, post, h1, h2, h3, h4, h5, _⟩ := C19_trim classicSpace s
  exact ⟨pre, r, post, h1, h2, fun c hc => (hs c).mp (h3 c hc), fun c hc => hf c (h4 c hc), fun c hc => hf c (h5 c hc)⟩

example : trim classicSpace (str " \t a b\n ") = .ok (str "a b") ∧ trim_front classicSpace (str "  a ") = .ok (str "a ") ∧
    trim_back classicSpace (str "  a ") = .ok (str "  a") ∧ trim classicSpace (str " \n ") = .ok [] := by
  decide +kernel

/-! ## C20, C21: starts_with, ends_with -/

/-- C20: `starts_with` decides the prefix relation, in both builds. -/
theorem C20_starts_with (cpp20 : Bool) (s p : List α) : starts_with cpp20 s p = true ↔ ∃ rest, s = p ++ rest := by
  have h17 : starts_with false s p = true ↔ ∃ rest, s = p ++ rest := by
    simp only [starts_with, Bool.false_eq_true, if_false, beq_iff_eq]
    rw [findStr_some_zero]
    constructor
    · rintro ⟨r, h⟩; exact ⟨r, h.symm⟩
    · rintro ⟨r, h⟩; exact ⟨r, h.symm⟩
  cases cpp20 with
  | false => exact h17
  | true =>
    simp only [starts_with, if_true, beq_iff_eq]
    constructor
    · intro h; exact ⟨s.drop p.length, by conv => lhs; rw [← List.take_append_drop p.length s, h]⟩
    · rintro ⟨r, rfl⟩; simp

/-- C21 in the C++20 build: `ends_with` decides the suffix relation. -/
theorem C21_ends_with_cpp20 (s t : List α) : ends_with true s t = true ↔ ∃ pre, s = pre ++ t := by
  simp only [ends_with, if_true, Bool.and_eq_true, decide_eq_true_eq, beq_iff_eq]
  constructor
  · rintro ⟨_, h⟩; exact ⟨s.take (s.length - t.length), by conv => lhs; rw [← List.take_append_drop (s.length - t.length) s, h]⟩
  · rintro ⟨pre, rfl⟩; simp

/-- C21 in the C++17 build, what holds: the answer `true` is right, and the exact condition for it. Missing: the answer
`false` is wrong when the suffix also occurs earlier in the string (see `C21_ends_with_cpp17_wrong`). -/
theorem C21_ends_with_cpp17_partial (s t : List α) :
    (ends_with false s t = true → ∃ pre, s = pre ++ t) ∧
    (ends_with false s t = true ↔ t = [] ∨ (∃ pre, s = pre ++ t ∧ ∀ u v, s = u ++ t ++ v → pre.length ≤ u.length)) := by
  have key : ends_with false s t = true ↔ t = [] ∨ (∃ pre, s = pre ++ t ∧ ∀ u v, s = u ++ t ++ v → pre.length ≤ u.length) := by
    unfold ends_with
    simp only [Bool.false_eq_true, if_false]
    by_cases ht : t = []
    · subst ht; simp
    · have hemp : t.isEmpty = false := by simpa using ht
      simp only [hemp, Bool.false_eq_true, if_false, ht, false_or]
      by_cases hl : t.length > s.length
      · rw [if_pos hl]
        simp only [Bool.false_eq_true, false_iff]
        rintro ⟨pre, rfl, _⟩; simp at hl; omega
      · rw [if_neg hl]
        simp only [beq_iff_eq]
        rw [findStr_some]
        constructor
        · rintro ⟨⟨r, h1⟩, h2, h3⟩
          have hr : r = [] := by
            have := congrArg List.length h1
            simp at this
            exact List.length_eq_zero_iff.mp (by omega)
          subst hr
          rw [List.append_nil] at h1
          refine ⟨s.take (s.length - t.length), ?_, ?_⟩
          · conv => lhs; rw [← List.take_append_drop (s.length - t.length) s, ← h1]
          · intro u v huv
            apply Classical.byContradiction
            intro hlt
            simp only [List.length_take] at hlt
            refine h3 u.length (by omega) ⟨v, ?_⟩
            rw [huv]; simp
        · rintro ⟨pre, rfl, h⟩
          have e : (pre ++ t).length - t.length = pre.length := by simp
          rw [e]
          refine ⟨by simp, by simp, ?_⟩
          rintro i hi ⟨v, hv⟩
          have := h ((pre ++ t).take i) v (by rw [List.append_assoc, hv, List.take_append_drop])
          simp at this; omega
  refine ⟨?_, key⟩
  intro h
  rcases key.mp h with h | ⟨pre, h, _⟩
  · exact ⟨s, by simp [h]⟩
  · exact ⟨pre, h⟩

/-- C21 is false of the C++17 build: "abab" ends with "ab", but `ends_with` says no. -/
theorem C21_ends_with_cpp17_wrong :
    ends_with false (str "abab") (str "ab") = false ∧ str "abab" = str "ab" ++ str "ab" := by
  decide +kernel

example : ends_with false (str "hello.txt") (str ".txt") = true ∧ ends_with true (str "abab") (str "ab") = true ∧
    starts_with false (str "abab") (str "ab") = true ∧ starts_with false (str "a") (str "ab") = false := by
  decide +kernel

/-! ## C22: make_indentation -/

/-- C22, with tabs. -/
theorem C22_tabs (depth : BitVec 32) : make_indentation depth 0 = List.replicate depth.toNat (ch '\t') := by
  simp [make_indentation]

/-- C22, with spaces, as long as the product fits in 32 bits. Missing: larger products wrap
(`C22_wraps`, `C22_wrong`). -/
theorem C22_spaces_partial (depth size : BitVec 32) (h : size ≠ 0) (hfit : depth.toNat * size.toNat < 2 ^ 32) :
    make_indentation depth size = List.replicate (depth.toNat * size.toNat) (ch ' ') := by
  have h' : (size = 0#32) = False := by simpa using h
  simp [make_indentation, h', Nat.mod_eq_of_lt hfit]

/-- C22, in general: the number of spaces is the product modulo 2^32. -/
theorem C22_wraps (depth size : BitVec 32) (h : size ≠ 0) :
    make_indentation depth size = List.replicate (depth.toNat * size.toNat % 2 ^ 32) (ch ' ') := by
  have h' : (size = 0#32) = False := by simpa using h
  simp [make_indentation, h']

/-- C22 is false for products that do not fit: no indentation at all for depth 65536 and step 65536. -/
theorem C22_wrong : make_indentation 65536 65536 = [] := by decide +kernel

example : make_indentation 3 2 = str "      " ∧ make_indentation 2 0 = str "\t\t" := by decide +kernel

/-! ## C23: make_string -/

/-- C23: if `vsnprintf` formats the same text each time it is called, `make_string` returns that text, with one or two
calls, in debug and release builds and whatever the uninitialised buffer contained; nothing is written or read outside
the buffers. -/
theorem C23_text (dbg : Bool) (junk : List Byte) (hj : junk.length = 1024) (t : List Byte) (vs : Nat → Vs)
    (h : ∀ i, vs i = .text t) :
    make_string_va_list dbg junk vs = (.ok t, if t.length < 1024 then 1 else 2) := by
  unfold make_string_va_list makeStringLoop
  simp only [h, vsWrite, hj, Nat.lt_irrefl, if_false]
  simp only [show ((1024 : Nat) = 0) = False by simp, if_false]
  by_cases hl : t.length < 1024
  · rw [if_neg (by omega), if_pos hl]
    rw [List.take_of_length_le (by omega : t.length ≤ 1024 - 1)]
    simp
  · rw [if_pos (by omega), if_neg hl]
    simp only [show decide ((0 : Nat) < 1) = true by simp, ASSERT_true]
    unfold makeStringLoop
    simp only [h, vsWrite, List.length_replicate, Nat.lt_irrefl, if_false]
    simp [show ¬ (t.length + 1 ≤ t.length) by omega, show ¬ (t.length + 1 < t.length) by omega]

/-- C23, errors: `std::logic_error` if the first call fails. -/
theorem C23_error_first (dbg : Bool) (junk : List Byte) (vs : Nat → Vs) (h : vs 0 = .error) :
    make_string_va_list dbg junk vs = (.throw .logic_error, 1) := by
  simp [make_string_va_list, makeStringLoop, h]

/-- C23, errors: `std::logic_error` if the text is long and the second call fails. -/
theorem C23_error_second (dbg : Bool) (junk : List Byte) (hj : junk.length = 1024) (t : List Byte) (vs : Nat → Vs)
    (h0 : vs 0 = .text t) (hl : 1024 ≤ t.length) (h1 : vs 1 = .error) :
    make_string_va_list dbg junk vs = (.throw .logic_error, 2) := by
  simp [make_string_va_list, makeStringLoop, h0, h1, vsWrite, hj, hl]

/-- C23: an exception is thrown exactly if one of the calls made fails. -/
theorem C23_throws_iff (dbg : Bool) (junk : List Byte) (hj : junk.length = 1024) (vs : Nat → Vs) (t : List Byte)
    (h : ∀ i, vs i = .error ∨ vs i = .text t) (e : Err) :
    (make_string_va_list dbg junk vs).1 = .throw e ↔
      e = .logic_error ∧ (vs 0 = .error ∨ (1024 ≤ t.length ∧ vs 1 = .error)) := by
  rcases h 0 with h0 | h0
  · rw [C23_error_first dbg junk vs h0]
    constructor
    · intro he; cases he; exact ⟨rfl, .inl h0⟩
    · rintro ⟨rfl, _⟩; rfl
  · by_cases hl : 1024 ≤ t.length
    · rcases h 1 with h1 | h1
      · rw [C23_error_second dbg junk hj t vs h0 hl h1]
        constructor
        · intro he; cases he; exact ⟨rfl, .inr ⟨hl, h1⟩⟩
        · rintro ⟨rfl, _⟩; rfl
      · simp [make_string_va_list, makeStringLoop, h0, h1, vsWrite, hj, hl, show ¬ (t.length + 1 ≤ t.length) by omega,
          show ¬ (t.length + 1 < t.length) by omega]
    · have hlt : ¬ (1024 ≤ t.length) := hl
      have hlt' : ¬ (1023 < t.length) := by omega
      simp only [make_string_va_list, makeStringLoop, h0, vsWrite, hj, Nat.lt_irrefl, if_false]
      simp only [show ((1024 : Nat) = 0) = False by simp, if_false]
      rw [if_neg (by omega)]
      have : ¬ (t.take (1024 - 1) ++ [0] ++ junk.drop (min (1024 - 1) t.length + 1)).length < t.length := by
        simp; omega
      rw [if_neg this]
      simp [hl]

theorem makeStringLoop_safe (dbg : Bool) (vs : Nat → Vs) (fuel i : Nat) (buf : List Byte) (n : Nat) (h : n ≤ buf.length) (h0 : 0 < n) :
    ∀ u, (makeStringLoop dbg vs fuel i buf n).1 ≠ .ub u := by
  induction fuel generalizing i buf n with
  | zero => intro u; simp [makeStringLoop]
  | succ fuel ih =>
    intro u
    unfold makeStringLoop
    split
    · simp
    · rename_i t _
      rw [vsWrite, if_neg (by omega), if_neg (by omega)]
      simp only
      split
      · split
        · exact ih _ _ _ (by simp) (by omega) u
        · simp
      · rename_i hn
        rw [if_neg (by simp; omega)]
        simp

/-- C23: nothing is written or read outside the buffers, whatever `vsnprintf` formats each time (another thread might change the text meanwhile). -/
theorem C23_safe (dbg : Bool) (junk : List Byte) (hj : junk.length = 1024) (vs : Nat → Vs) (u : UB) :
    (make_string_va_list dbg junk vs).1 ≠ .ub u :=
  makeStringLoop_safe dbg vs 3 0 junk 1024 (by omega) (by omega) u

/-- C23, limit: a text that grows between the two calls of `vsnprintf` aborts debug builds. -/
theorem C23_grows (junk : List Byte) (hj : junk.length = 1024) (vs : Nat → Vs) (t t' : List Byte) (h0 : vs 0 = .text t) (h1 : vs 1 = .text t')
    (hl : 1024 ≤ t.length) (hg : t.length < t'.length) : make_string_va_list true junk vs = (.abort, 2) := by
  simp [make_string_va_list, makeStringLoop, h0, h1, vsWrite, hj, hl, show t.length + 1 ≤ t'.length by omega]

example (n : Nat) (hn : n = 5000) : make_string_va_list true (List.replicate 1024 7) (fun _ => .text (List.replicate n 65)) =
    (.ok (List.replicate n 65), 2) := by
  rw [C23_text true _ List.length_replicate (List.replicate n 65) _ (fun _ => rfl), List.length_replicate, hn]; rfl

example : make_string_va_list true (List.replicate 1024 7) (fun _ => .text (str "x = 1")) = (.ok (str "x = 1"), 1) :=
  C23_text true _ List.length_replicate _ _ (fun _ => rfl)

end Utki
