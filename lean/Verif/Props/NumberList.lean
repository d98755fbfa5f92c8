import Verif.Props.FloatFrom
import Verif.Props.String
import Verif.Spec.NumberList
/-!
# C100: lists of numbers in text form
-/
namespace Utki
open Spec Spec.BinFmt Utki.Parser FastFloat
variable {α : Type}

/-- The loop by which clients read a list of numbers with a `string_parser`: until the parser is `empty()`, read a number, then
`skip_whitespaces_and_comma()`. -/
def readLoop (read : Meth Parser α) : (fuel : Nat) → Meth Parser (List α)
  | 0 => Meth.lift .diverge
  | fuel + 1 => do
    if empty (← Meth.get) then return []
    let v ← read
    skip_whitespaces_and_comma
    let vs ← readLoop read fuel
    return v :: vs

/-- The whole client: white space before the first number is skipped. -/
def readList (read : Meth Parser α) (fuel : Nat) : Meth Parser (List α) := do
  skip_whitespaces
  readLoop read fuel

/-- A text that neither white space nor a comma begins. -/
def Solid (t : List Byte) : Prop := ∃ c r, t = c :: r ∧ ¬ IsBlank c ∧ c ≠ ch ','

theorem skip_whitespaces_and_comma_sep (s t : List Byte) (hs : IsSeparator s) (ht : t = [] ∨ Solid t) :
    skip_whitespaces_and_comma (s ++ t) = (.ok (), t) := by
  obtain ⟨pre, rest, h1, h2, h3, h4, h5⟩ := C31_skip_whitespaces_and_comma (s ++ t)
  have hl := h5 s t rfl hs.1 hs.2
  have : pre = s := by
    rcases List.append_eq_append_iff.mp h2 with ⟨a, ha, hb⟩ | ⟨a, ha, hb⟩
    · -- pre = s ++ a
      cases a with
      | nil => simpa using ha
      | cons c a =>
        exfalso
        rcases ht with rfl | ⟨d, r, rfl, hd1, hd2⟩
        · simp at hb
        · simp only [List.cons_append, List.cons.injEq] at hb
          have := h3 c (by rw [ha]; simp)
          rw [← hb.1] at this
          exact this.elim hd1 hd2
    · have := congrArg List.length ha
      simp only [List.length_append] at this
      have : a = [] := List.eq_nil_of_length_eq_zero (by omega)
      subst this; simpa using ha.symm
  subst this
  rw [h1, List.append_cancel_left h2]

theorem skip_whitespaces_blank (s t : List Byte) (hs : ∀ c ∈ s, IsBlank c) (ht : t = [] ∨ Solid t) :
    skip_whitespaces (s ++ t) = (.ok (), t) := by
  obtain ⟨pre, rest, h1, h2, h3, h4⟩ := C31_skip_whitespaces (s ++ t)
  have : pre = s := by
    rcases List.append_eq_append_iff.mp h2 with ⟨a, ha, hb⟩ | ⟨a, ha, hb⟩
    · cases a with
      | nil => simpa using ha
      | cons c a =>
        exfalso
        rcases ht with rfl | ⟨d, r, rfl, hd1, hd2⟩
        · simp at hb
        · simp only [List.cons_append, List.cons.injEq] at hb
          have := h3 c (by rw [ha]; simp)
          rw [← hb.1] at this
          exact hd1 this
    · cases a with
      | nil => simpa using ha.symm
      | cons c a =>
        exfalso
        exact h4 c (by rw [hb]; rfl) (hs c (by rw [ha]; simp))
  subst this
  rw [h1, List.append_cancel_left h2]

/-- Each number is read where it stands. -/
def Each (read : Meth Parser α) : List (Item α) → Prop
  | [] => True
  | i :: r => Solid i.text ∧ IsSeparator i.sep ∧ read (i.text ++ (i.sep ++ listText r)) = (.ok i.value, i.sep ++ listText r) ∧ Each read r

theorem Each.solid {read : Meth Parser α} {items : List (Item α)} (h : Each read items) : listText items = [] ∨ Solid (listText items) := by
  cases items with
  | nil => exact .inl rfl
  | cons i r =>
    obtain ⟨⟨c, t, h1, h2⟩, -⟩ := h
    exact .inr ⟨c, t ++ i.sep ++ listText r, by simp [listText, h1], h2⟩

theorem readLoop_each (read : Meth Parser α) (items : List (Item α)) (h : Each read items) (fuel : Nat) (hf : items.length < fuel) :
    readLoop read fuel (listText items) = (.ok (items.map (·.value)), []) := by
  induction items generalizing fuel with
  | nil =>
    obtain ⟨f, rfl⟩ : ∃ f, fuel = f + 1 := ⟨fuel - 1, by simp at hf; omega⟩
    rfl
  | cons i r ih =>
    obtain ⟨f, rfl⟩ : ∃ f, fuel = f + 1 := ⟨fuel - 1, by simp at hf; omega⟩
    obtain ⟨⟨c, t, h1, h2⟩, h3, h4, h5⟩ := h
    have e : listText (i :: r) = i.text ++ (i.sep ++ listText r) := by simp [listText]
    have hne : empty (listText (i :: r)) = false := by rw [e, h1]; rfl
    rw [readLoop, Meth.get_bind, if_neg (by rw [hne]; decide), e, Meth.bind_ok h4,
      Meth.bind_ok (skip_whitespaces_and_comma_sep _ _ h3 h5.solid), Meth.bind_ok (ih h5 f (by simp at hf; omega))]
    rfl

theorem readList_each (read : Meth Parser α) (items : List (Item α)) (h : Each read items) (ws : List Byte) (hws : ∀ c ∈ ws, IsBlank c)
    (fuel : Nat) (hf : items.length < fuel) :
    readList read fuel (ws ++ listText items) = (.ok (items.map (·.value)), []) := by
  rw [readList, Meth.bind_ok (skip_whitespaces_blank _ _ hws h.solid), readLoop_each read items h fuel hf]

/-- The text ends, or white space or a comma follows. -/
def Boundary (t : List Byte) : Prop := ∀ c, t.head? = some c → IsBlank c ∨ c = ch ','

instance (c : Byte) : Decidable (IsBlank c) := by unfold IsBlank; infer_instance

theorem boundary_noDigit {t : List Byte} (h : Boundary t) (b : Base) : NoDigitAhead (radix b) t := by
  intro c hc hd
  rw [← isDigit_iff] at hd
  have key : ∀ b : Base, ∀ k, k < 256 → (IsBlank (BitVec.ofNat 8 k) ∨ BitVec.ofNat 8 k = ch ',') → isDigit (radix b) (BitVec.ofNat 8 k) = false := by
    intro b; cases b <;> decide +kernel
  have k := key b c.toNat c.isLt
  rw [BitVec.ofNat_toNat, BitVec.setWidth_eq] at k
  rw [k (h c hc)] at hd
  cases hd

theorem solid_of_digit (c : Byte) (hc : isDigit 10 c = true ∨ c = ch '-') : ¬ IsBlank c ∧ c ≠ ch ',' := by
  have key : ∀ k, k < 256 → (isDigit 10 (BitVec.ofNat 8 k) = true ∨ BitVec.ofNat 8 k = ch '-') →
      ¬ IsBlank (BitVec.ofNat 8 k) ∧ BitVec.ofNat 8 k ≠ ch ',' := by decide +kernel
  have k := key c.toNat c.isLt
  rw [BitVec.ofNat_toNat, BitVec.setWidth_eq] at k
  exact k hc

theorem boundary_append {s t : List Byte} (hs : IsSeparator s) (h : s ≠ [] ∨ t = []) : Boundary (s ++ t) := by
  intro c hc
  cases s with
  | nil => rcases h with h | h
           · exact absurd rfl h
           · subst h; simp at hc
  | cons d s =>
    simp only [List.cons_append, List.head?_cons, Option.some.injEq] at hc
    subst hc; exact hs.1 _ (by simp)

theorem apart_tail {i : Item α} {r : List (Item α)} (h : Apart (i :: r)) : Apart r ∧ IsSeparator i.sep ∧ (i.sep ≠ [] ∨ listText r = []) := by
  refine ⟨⟨fun j hj => h.1 j (by simp [hj]), fun k a b ha hb => h.2 (k + 1) a b (by simpa using ha) (by simpa using hb)⟩, h.1 i (by simp), ?_⟩
  cases r with
  | nil => exact .inr rfl
  | cons j r => exact .inl (h.2 0 i j rfl rfl)

theorem apart_each {read : Meth Parser α} {items : List (Item α)} (h : Apart items) (hs : ∀ i ∈ items, Solid i.text)
    (hr : ∀ i ∈ items, ∀ rest, Boundary rest → read (i.text ++ rest) = (.ok i.value, rest)) : Each read items := by
  induction items with
  | nil => trivial
  | cons i r ih =>
    obtain ⟨h1, h2, h3⟩ := apart_tail h
    exact ⟨hs i (by simp), h2, hr i (by simp) _ (boundary_append h2 h3), ih h1 (fun j hj => hs j (by simp [hj])) (fun j hj => hr j (by simp [hj]))⟩

theorem to_stringU_solid (w : Nat) (hw : w ≤ 126) (n : Nat) (hn : n < 2 ^ w) (b : Base) : Solid (to_stringU n b) := by
  obtain ⟨ds, h1, h2, h3, -⟩ := C36_unsigned w hw n hn b
  rw [h1]
  have h0 := solid_of_digit (ch '0') (by decide)
  cases b with
  | bin => exact ⟨ch '0', ch 'b' :: ds, rfl, h0⟩
  | oct => exact ⟨ch '0', ds, rfl, h0⟩
  | hex => exact ⟨ch '0', ch 'x' :: ds, rfl, h0⟩
  | dec =>
    cases ds with
    | nil => exact absurd rfl h2
    | cons d ds => exact ⟨d, ds, rfl, solid_of_digit d (.inl (((numeral_iff _ _ _).mp h3).1 d (by simp)))⟩

theorem to_stringS_solid (w : Nat) (hw : w ≤ 127) (v : Int) (hv : -(2 : Int) ^ (w - 1) ≤ v ∧ v < 2 ^ (w - 1)) :
    Solid (to_stringS v .dec) ∧ (v < 0 → (to_stringS v .dec).head? = some (ch '-')) := by
  obtain ⟨ds, h1, h2, h3, -⟩ := C36_signed w hw v hv .dec
  rw [h1]
  by_cases hneg : v < 0
  · rw [if_pos hneg]
    exact ⟨⟨ch '-', ds, rfl, solid_of_digit _ (.inr rfl)⟩, fun _ => rfl⟩
  · rw [if_neg hneg]
    refine ⟨?_, fun h => absurd h hneg⟩
    cases ds with
    | nil => exact absurd rfl h2
    | cons d ds => exact ⟨d, ds, rfl, solid_of_digit d (.inl (((numeral_iff _ _ _).mp h3).1 d (by simp)))⟩

/-- C100: a list of unsigned numbers, each written by `to_string` in a base of its own, separated by white space and commas, is read back
completely. -/
theorem C100_unsigned (dbg : Bool) (w : Nat) (hw : w ≤ 126) (items : List (Item Nat))
    (hi : ∀ i ∈ items, i.value < 2 ^ w ∧ ∃ b, i.text = to_stringU i.value b) (hs : Apart items)
    (ws : List Byte) (hws : ∀ c ∈ ws, IsBlank c) (fuel : Nat) (hf : items.length < fuel) :
    readList (read_numberU dbg w) fuel (ws ++ listText items) = (.ok (items.map (·.value)), []) := by
  refine readList_each _ _ (apart_each hs ?_ ?_) ws hws fuel hf
  · intro i h
    obtain ⟨h1, b, h2⟩ := hi i h
    rw [h2]; exact to_stringU_solid w hw _ h1 b
  · intro i h rest hr
    obtain ⟨h1, b, h2⟩ := hi i h
    rw [h2]
    refine C35_unsigned dbg w hw _ h1 b rest (boundary_noDigit hr b) (fun _ _ => ⟨?_, ?_⟩)
    · intro c r h; have := hr (ch 'x') (by rw [h]; rfl); exact absurd this (by decide)
    · intro c r h; have := hr (ch 'b') (by rw [h]; rfl); exact absurd this (by decide)

theorem apartNeg_tail {i : Item Int} {r : List (Item Int)} (h : ApartOrNegative (i :: r)) :
    ApartOrNegative r ∧ IsSeparator i.sep ∧ (i.sep ≠ [] ∨ listText r = [] ∨ ∃ j r', r = j :: r' ∧ j.value < 0) := by
  refine ⟨⟨fun j hj => h.1 j (by simp [hj]), fun k a b ha hb => h.2 (k + 1) a b (by simpa using ha) (by simpa using hb)⟩, h.1 i (by simp), ?_⟩
  cases r with
  | nil => exact .inr (.inl rfl)
  | cons j r =>
    rcases h.2 0 i j rfl rfl with h | h
    · exact .inl h
    · exact .inr (.inr ⟨j, r, rfl, h⟩)

/-- C100: the same for signed numbers in decimal; before a minus sign nothing need separate the numbers. -/
theorem C100_signed (dbg : Bool) (w : Nat) (hw : w ≤ 127) (items : List (Item Int))
    (hi : ∀ i ∈ items, (-(2 : Int) ^ (w - 1) ≤ i.value ∧ i.value < 2 ^ (w - 1)) ∧ i.text = to_stringS i.value .dec) (hs : ApartOrNegative items)
    (ws : List Byte) (hws : ∀ c ∈ ws, IsBlank c) (fuel : Nat) (hf : items.length < fuel) :
    readList (read_numberS dbg w) fuel (ws ++ listText items) = (.ok (items.map (·.value)), []) := by
  refine readList_each _ _ ?_ ws hws fuel hf
  clear hf
  induction items with
  | nil => trivial
  | cons i r ih =>
    obtain ⟨h1, h2, h3⟩ := apartNeg_tail hs
    obtain ⟨hv, ht⟩ := hi i (by simp)
    refine ⟨by rw [ht]; exact (to_stringS_solid w hw _ hv).1, h2, ?_, ih (fun j hj => hi j (by simp [hj])) h1⟩
    rw [ht]
    refine C35_signed dbg w hw _ hv _ ?_
    rcases h3 with h3 | h3 | ⟨j, r', rfl, hj⟩
    · exact boundary_noDigit (boundary_append h2 (.inl h3)) .dec
    · exact boundary_noDigit (boundary_append h2 (.inr h3)) .dec
    · by_cases hsep : i.sep = []
      · obtain ⟨hv', ht'⟩ := hi j (by simp)
        have hh := (to_stringS_solid w hw _ hv').2 hj
        intro c hc hd
        have : c = ch '-' := by
          rw [hsep, List.nil_append] at hc
          have e : listText (j :: r') = to_stringS j.value .dec ++ (j.sep ++ listText r') := by simp [listText, ht']
          rw [e, List.head?_append, hh] at hc
          simpa using hc.symm
        subst this
        rw [← isDigit_iff] at hd
        revert hd; decide
      · exact boundary_noDigit (boundary_append h2 (.inl hsep)) .dec

/-- The characters of a literal. -/
theorem declit_chars {fmt : NumFormat} {d : DecLit} (h : d.WF fmt) : ∀ c ∈ d.text, DecDigit c ∨ c ∈ [ch '-', ch '+', ch '.', ch 'e', ch 'E'] := by
  obtain ⟨h1, -, h3, -⟩ := h
  have hi : ∀ c ∈ d.int, DecDigit c := fun c hc => h1 c (by simp [DecLit.digits, hc])
  have hfr : ∀ f, d.frac = some f → ∀ c ∈ f, DecDigit c := fun f hf c hc => h1 c (by simp [DecLit.digits, DecLit.fdigits, hf, hc])
  intro c hc
  simp only [DecLit.text, List.mem_append] at hc
  rcases hc with ((hc | hc) | hc) | hc
  · split at hc <;> simp_all
  · exact .inl (hi c hc)
  · split at hc
    · simp at hc
    · rename_i f hf
      rcases List.mem_cons.mp hc with rfl | hc
      · right; simp
      · exact .inl (hfr f hf c hc)
  · split at hc
    · simp at hc
    · rename_i e he
      obtain ⟨⟨e1, e2, e3, -⟩, -⟩ := h3 e he
      simp only [ExpPart.text, List.mem_cons, List.mem_append, Option.mem_toList] at hc
      rcases hc with rfl | hc | hc
      · right; rcases e1 with e1 | e1 <;> simp [e1]
      · right; rcases e2 c hc with e2 | e2 <;> simp [e2]
      · exact .inl (e3 c hc)

theorem declit_char_solid {c : Byte} (h : DecDigit c ∨ c ∈ [ch '-', ch '+', ch '.', ch 'e', ch 'E']) : ¬ IsBlank c ∧ c ≠ ch ',' := by
  have key : ∀ k, k < 256 → (DecDigit (BitVec.ofNat 8 k) ∨ BitVec.ofNat 8 k ∈ [ch '-', ch '+', ch '.', ch 'e', ch 'E']) →
      ¬ IsBlank (BitVec.ofNat 8 k) ∧ BitVec.ofNat 8 k ≠ ch ',' := by decide +kernel
  have k := key c.toNat c.isLt
  rw [BitVec.ofNat_toNat, BitVec.setWidth_eq] at k
  exact k h

theorem declit_text_ne {fmt : NumFormat} {d : DecLit} (h : d.WF fmt) : d.text ≠ [] := by
  intro e
  apply h.2.1
  simp only [DecLit.text, List.append_eq_nil_iff] at e
  obtain ⟨⟨⟨-, e1⟩, e2⟩, -⟩ := e
  cases hf : d.frac with
  | none => simp [DecLit.digits, DecLit.fdigits, hf, e1]
  | some f => rw [hf] at e2; cases e2

/-- White space or a comma ends a literal. -/
theorem longest_at_boundary {fmt : NumFormat} {d : DecLit} (h : d.WF fmt) {rest : List Byte} (hr : Boundary rest) :
    LongestLiteral fmt (d.text ++ rest) d := by
  refine ⟨h, List.prefix_append _ _, fun d' h' hp => ?_⟩
  by_contra hl
  obtain ⟨t, ht⟩ := hp
  rcases List.append_eq_append_iff.mp ht with ⟨a, ha, hb⟩ | ⟨a, ha, hb⟩
  · have := congrArg List.length ha
    simp only [List.length_append] at this
    omega
  · cases a with
    | nil => simp only [List.append_nil] at ha; rw [ha] at hl; omega
    | cons c a =>
      have hc := hr c (by rw [hb]; rfl)
      have := declit_char_solid (declit_chars h' c (by rw [ha]; simp))
      exact hc.elim this.1 this.2

/-- What `read_number` should give for a literal: the nearest number of the type, with the sign; 0 if out of range. -/
def Rounds (T : FloatType) (d : DecLit) (x : Nat) : Prop :=
  ∃ k, T.fmt.Nearest d.absVal k ∧ ((OutOfRange T d.absVal ∧ x = 0) ∨ (¬ OutOfRange T d.absVal ∧ x = T.fmt.signed d.neg k))

variable [Platform]

/-- C100: a list of decimal literals, separated by white space and commas, is read as the list of the numbers nearest to them. -/
theorem C100_float (dbg : Bool) (T : FloatType) {mode : RoundMode} {u : Fpu} (I : Ieee T.fmt mode u) (items : List (Item DecLit))
    (hi : ∀ i ∈ items, i.value.WF .general ∧ i.text = i.value.text ∧ i.value.digits.length + 1000 ≤ 2 ^ 28) (hs : Apart items)
    (ws : List Byte) (hws : ∀ c ∈ ws, IsBlank c) (fuel : Nat) (hf : items.length < fuel) :
    ∃ xs, readList (read_number_fp dbg u T) fuel (ws ++ listText items) = (.ok xs, []) ∧
      List.Forall₂ (fun i x => Rounds T i.value x) items xs := by
  suffices h : ∃ js : List (Item Nat), listText js = listText items ∧ Each (read_number_fp dbg u T) js ∧
      List.Forall₂ (fun i x => Rounds T i.value x) items (js.map (·.value)) ∧ js.length = items.length by
    obtain ⟨js, h1, h2, h3, h4⟩ := h
    exact ⟨_, by rw [← h1]; exact readList_each _ js h2 ws hws fuel (by omega), h3⟩
  clear hf
  induction items with
  | nil => exact ⟨[], rfl, trivial, .nil, rfl⟩
  | cons i r ih =>
    obtain ⟨h1, h2, h3⟩ := apart_tail hs
    obtain ⟨js, j1, j2, j3, j4⟩ := ih (fun j hj => hi j (by simp [hj])) h1
    obtain ⟨w1, w2, w3⟩ := hi i (by simp)
    have hb := boundary_append h2 h3
    have hl := longest_at_boundary w1 hb
    have hsol : Solid i.text := by
      rw [w2]
      cases ht : i.value.text with
      | nil => exact absurd ht (declit_text_ne w1)
      | cons c t => exact ⟨c, t, rfl, declit_char_solid (declit_chars w1 c (by rw [ht]; simp))⟩
    obtain ⟨k, k1, k2⟩ := C82_literal dbg T I [] _ (i.sep ++ listText r) i.value (by simp) hl rfl w3
    simp only [List.nil_append] at k2
    obtain ⟨x, hx, hr⟩ : ∃ x, read_number_fp dbg u T (i.value.text ++ (i.sep ++ listText r)) = (.ok x, i.sep ++ listText r) ∧ Rounds T i.value x := by
      rcases k2 with ⟨a, b⟩ | ⟨a, b⟩
      · exact ⟨_, b, k, k1, .inl ⟨a, rfl⟩⟩
      · exact ⟨_, b, k, k1, .inr ⟨a, rfl⟩⟩
    refine ⟨⟨x, i.text, i.sep⟩ :: js, ?_, ⟨hsol, h2, ?_, j2⟩, .cons hr j3, by simp [j4]⟩
    · have : ∀ (β : Type) (a : Item β) (l : List (Item β)), listText (a :: l) = a.text ++ a.sep ++ listText l := by intros; simp [listText]
      rw [this, this, j1]
    · rw [w2, j1]; exact hx

omit [Platform] in
/-- C100: numbers joined by a separator character with `join` are taken apart again by `split` and read back. -/
theorem C100_split (dbg : Bool) (w : Nat) (hw : w ≤ 126) (xs : List Nat) (hx : ∀ x ∈ xs, x < 2 ^ w) (hne : xs ≠ []) (b : Base) (d : Byte)
    (hd : IsBlank d ∨ d = ch ',') :
    ∃ fs, split (join (xs.map (to_stringU · b)) d) d = .ok fs ∧
      fs.map (fun f => read_numberU dbg w f) = xs.map (fun x => (.ok x, [])) := by
  have hnot : ∀ x ∈ xs, d ∉ to_stringU x b := by
    intro x h hmem
    obtain ⟨ds, h1, -, h3, -⟩ := C36_unsigned w hw x (hx x h) b
    rw [h1] at hmem
    have key : ∀ b : Base, ∀ k, k < 256 → (isDigit (radix b) (BitVec.ofNat 8 k) = true ∨ BitVec.ofNat 8 k ∈ mark b) →
        ¬ IsBlank (BitVec.ofNat 8 k) ∧ BitVec.ofNat 8 k ≠ ch ',' := by intro b; cases b <;> decide +kernel
    have k := key b d.toNat d.isLt
    rw [BitVec.ofNat_toNat, BitVec.setWidth_eq] at k
    have : ¬ IsBlank d ∧ d ≠ ch ',' := k (by
      rcases List.mem_append.mp hmem with h | h
      · exact .inr h
      · exact .inl (((numeral_iff _ _ _).mp h3).1 d h))
    exact hd.elim this.1 this.2
  refine ⟨_, C17_split_join _ d (by simpa using hne) ?_, ?_⟩
  · intro f hf
    obtain ⟨x, h1, rfl⟩ := List.mem_map.mp hf
    exact hnot x h1
  · rw [List.map_map]
    refine List.map_congr_left fun x h => ?_
    have := C35_unsigned dbg w hw x (hx x h) b [] (by intro c hc; simp at hc) (fun _ _ => ⟨by intro c r h; simp at h, by intro c r h; simp at h⟩)
    simpa using this

/-- Three numbers in three bases, with different separators. -/
example : readList (read_numberU true 32) 4 (str " 0x1f , 017\n\t0") = (.ok [31, 15, 0], []) ∧
    Apart [(⟨31, str "0x1f", str " , "⟩ : Item Nat), ⟨15, str "017", str "\n\t"⟩, ⟨0, str "0", []⟩] := by
  refine ⟨by decide +kernel, ?_, ?_⟩
  · unfold IsSeparator; decide +kernel
  · intro k a b ha hb
    match k with
    | 0 => simp only [List.getElem?_cons_zero, Option.some.injEq] at ha; subst ha; decide
    | 1 => simp only [List.getElem?_cons_succ, List.getElem?_cons_zero, Option.some.injEq] at ha; subst ha; decide
    | k + 2 => simp at hb

/-- The list of a path as in SVG: numbers separated by the minus sign only. -/
example : readList (read_numberS true 32) 5 (str "1-2,3 -4") = (.ok [1, -2, 3, -4], []) := by decide +kernel

/-- A second comma is an error. -/
example : readList (read_numberU true 32) 4 (str "1,,2") = (.throw .invalid_argument, str ",2") := by decide +kernel

/-- The hypotheses of `C100_float` are met: `1.5, -2e3`, in any rounding mode. -/
example (mode : RoundMode) : ∃ (u : Fpu) (xs : List Nat), Ieee binary64 mode u ∧
    readList (read_number_fp true u .double) 3 (str "1.5, -2e3") = (.ok xs, []) ∧ xs.length = 2 := by
  obtain ⟨u, hu⟩ := ieee_exists binary64 (by decide) mode
  let items : List (Item DecLit) := [⟨⟨false, str "1", some (str "5"), none⟩, str "1.5", str ", "⟩,
    ⟨⟨true, str "2", none, some ⟨ch 'e', none, str "3"⟩⟩, str "-2e3", []⟩]
  obtain ⟨xs, h1, h2⟩ := C100_float true .double hu items (by
      intro i hi
      simp only [items, List.mem_cons, List.not_mem_nil, or_false] at hi
      rcases hi with rfl | rfl
      · exact ⟨⟨by unfold AllDigits; decide, by decide, by simp, by decide⟩, by decide, by decide⟩
      · refine ⟨⟨by unfold AllDigits; decide, by decide, ?_, by decide⟩, by decide, by decide⟩
        intro e he
        simp only [Option.mem_def, Option.some.injEq] at he
        subst he
        exact ⟨⟨by decide, by decide, by unfold AllDigits; decide, by decide⟩, by decide⟩)
    ⟨by
      intro i hi
      simp only [items, List.mem_cons, List.not_mem_nil, or_false] at hi
      rcases hi with rfl | rfl <;> (unfold IsSeparator; decide), by
      intro k a b ha hb
      match k with
      | 0 => simp only [items, List.getElem?_cons_zero, Option.some.injEq] at ha; subst ha; decide
      | k + 1 => simp [items] at hb⟩ [] (by simp) 3 (by decide)
  exact ⟨u, xs, hu, h1, h2.length_eq.symm⟩

end Utki
