import Verif.Model.Parser
import Verif.Lemmas.Number
/-!
# Lemmas about `string_parser`
-/
namespace Utki
open Spec
namespace Parser

theorem take_takeWhile {α : Type} (p : α → Bool) (v : List α) : v.take (v.takeWhile p).length = v.takeWhile p := by
  induction v with
  | nil => simp
  | cons a v ih => cases h : p a <;> simp [h, ih]

theorem drop_takeWhile {α : Type} (p : α → Bool) (v : List α) : v.drop (v.takeWhile p).length = v.dropWhile p := by
  induction v with
  | nil => simp
  | cons a v ih => cases h : p a <;> simp [h, ih]

theorem advance_eq (pos : Nat) (v : Parser) (h : pos ≤ v.length) : advance pos v = (.ok (), v.drop pos) := by
  simp only [advance, Meth.get_bind, substr, if_neg (show ¬ v.length < pos by omega), Meth.lift_ok_bind, Meth.set_eval]
  rw [List.take_of_length_le (by simp)]

theorem skipWsLoop_eq (v : List Byte) (pos : Nat) : skipWsLoop v pos = pos + (v.takeWhile is_space).length := by
  induction v generalizing pos with
  | nil => simp [skipWsLoop]
  | cons c cs ih =>
    unfold skipWsLoop
    cases h : is_space c with
    | false => simp [h]
    | true => simp [h, ih]; omega

theorem skip_whitespaces_eq (v : Parser) : skip_whitespaces v = (.ok (), v.dropWhile is_space) := by
  have e := List.takeWhile_append_dropWhile (p := is_space) (l := v)
  simp only [skip_whitespaces, Meth.get_bind, skipWsLoop_eq, Nat.zero_add]
  have hl := congrArg List.length e
  rw [List.length_append] at hl
  rw [advance_eq _ _ (by omega)]
  rw [drop_takeWhile]

theorem scanLoop_eq (stop : Byte → Bool) (v : List Byte) (d : Nat) :
    scanLoop stop v d = if v.dropWhile (fun c => !stop c) = [] then none else some (d + (v.takeWhile (fun c => !stop c)).length) := by
  induction v generalizing d with
  | nil => simp [scanLoop]
  | cons c cs ih =>
    unfold scanLoop
    cases h : stop c with
    | true => simp [h]
    | false =>
      simp only [Bool.false_eq_true, if_false, ih, List.dropWhile_cons, List.takeWhile_cons, h, Bool.not_false, if_true, List.length_cons]
      split
      · rfl
      · congr 1; omega

theorem readUntil_eq (stop : Byte → Bool) (v : Parser) :
    readUntil stop v = (.ok (v.takeWhile (fun c => !stop c)), v.dropWhile (fun c => !stop c)) := by
  have e := List.takeWhile_append_dropWhile (p := fun c => !stop c) (l := v)
  have hl := congrArg List.length e
  rw [List.length_append] at hl
  simp only [readUntil, Meth.get_bind, scanLoop_eq]
  by_cases h : v.dropWhile (fun c => !stop c) = []
  · rw [if_pos h, h]
    rw [h, List.append_nil] at e
    simp only [Meth.set_bind, Meth.pure_eval, e]
  · rw [if_neg h]
    simp only [Nat.zero_add, substr, Nat.not_lt_zero, if_false, Meth.lift_ok_bind, List.drop_zero]
    rw [Meth.bind_ok (advance_eq _ _ (by omega)), Meth.pure_eval]
    rw [take_takeWhile, drop_takeWhile]

theorem skipUntilLoop_eq (c : Byte) (fuel : Nat) (v : Parser) (h : v.length < fuel) :
    skipUntilLoop c fuel v = (.ok (), (v.dropWhile (fun x => x != c)).drop 1) := by
  induction fuel generalizing v with
  | zero => omega
  | succ fuel ih =>
    unfold skipUntilLoop
    simp only [Meth.get_bind]
    cases v with
    | nil => simp
    | cons x r =>
      simp only [List.isEmpty_cons, Bool.false_eq_true, if_false, rd, List.getElem?_cons_zero, Meth.lift_ok_bind]
      by_cases hx : x = c
      · rw [if_pos hx, advance_eq _ _ (by simp)]
        simp [hx]
      · rw [if_neg hx, Meth.bind_ok (advance_eq _ _ (by simp))]
        simp only [List.drop_succ_cons, List.drop_zero]
        rw [ih r (by simp at h; omega), List.dropWhile_cons, if_pos (by simpa using hx)]

theorem skipUntilOneOfLoop_eq (cs : List Byte) (fuel : Nat) (v : Parser) (h : v.length < fuel) :
    skipUntilOneOfLoop cs fuel v =
      (match v.dropWhile (fun x => !cs.contains x) with
       | [] => (.ok 0, [])
       | x :: r => (.ok x, r)) := by
  induction fuel generalizing v with
  | zero => omega
  | succ fuel ih =>
    unfold skipUntilOneOfLoop
    simp only [Meth.get_bind]
    cases v with
    | nil => simp
    | cons x r =>
      simp only [List.isEmpty_cons, Bool.false_eq_true, if_false, rd, List.getElem?_cons_zero, Meth.lift_ok_bind]
      cases hf : cs.find? (fun y => y == x) with
      | none =>
        have hx : x ∉ cs := by
          intro hm; have := List.find?_eq_none.mp hf x hm; simp at this
        simp only
        rw [Meth.bind_ok (advance_eq _ _ (by simp))]
        simp only [List.drop_succ_cons, List.drop_zero]
        rw [ih r (by simp at h; omega), List.dropWhile_cons, if_pos (by simpa using hx)]
      | some y =>
        have hy : y = x := by simpa using List.find?_some hf
        have hm : x ∈ cs := by rw [← hy]; exact List.mem_of_find?_eq_some hf
        simp only
        rw [Meth.bind_ok (advance_eq _ _ (by simp)), List.dropWhile_cons, if_neg (by simpa using hm)]
        simp [hy]

theorem read_char_cons (c : Byte) (r : List Byte) : read_char (c :: r) = (.ok c, r) := by
  simp [read_char, throw_if_empty, Meth.bind_apply, Meth.bind, rd, advance_eq]
theorem read_char_nil : read_char [] = (.throw .invalid_argument, []) := by
  simp [read_char, throw_if_empty, Meth.bind_apply, Meth.bind]
theorem peek_char_cons (c : Byte) (r : List Byte) : peek_char (c :: r) = (.ok c, c :: r) := by
  simp [peek_char, throw_if_empty, Meth.bind_apply, Meth.bind, rd]
theorem peek_char_nil : peek_char [] = (.throw .invalid_argument, []) := by
  simp [peek_char, throw_if_empty, Meth.bind_apply, Meth.bind]
theorem peek_char_at_eq (n : Nat) (v : Parser) :
    peek_char_at n v = (match v[n]? with | some c => .ok c | none => .throw .invalid_argument, v) := by
  simp only [peek_char_at, Meth.get_bind]
  by_cases h : v.length ≤ n
  · rw [if_pos h, List.getElem?_eq_none h]; rfl
  · rw [if_neg h, List.getElem?_eq_getElem (by omega), rd_eq_ok (by omega)]; rfl
theorem read_chars_eq (n : Nat) (v : Parser) : read_chars n v = (.ok (v.take n), v.drop n) := by
  simp only [read_chars, Meth.get_bind]
  rw [if_neg (by omega), Meth.bind_ok (advance_eq _ _ (by omega)), Meth.pure_eval]
  rcases Nat.le_total n v.length with h | h
  · rw [Nat.min_eq_left h]
  · rw [Nat.min_eq_right h, List.drop_of_length_le h, List.take_of_length_le h, List.drop_of_length_le (Nat.le_refl _),
      List.take_of_length_le (Nat.le_refl _)]

/-! ## Numbers -/

theorem isHexChar_iff (c : Byte) : isHexChar c = true ↔ IsDigit 16 c := by
  rw [← isDigit_iff]
  have : ∀ n, n < 256 → (isHexChar (BitVec.ofNat 8 n) = isDigit 16 (BitVec.ofNat 8 n)) := by decide +kernel
  have hc := this c.toNat c.isLt
  rw [BitVec.ofNat_toNat, BitVec.setWidth_eq] at hc
  rw [hc]

theorem isBinChar_iff (c : Byte) : (c = ch '0' ∨ c = ch '1') ↔ IsDigit 2 c := by
  rw [← isDigit_iff]
  have : ∀ n, n < 256 → ((BitVec.ofNat 8 n = ch '0' ∨ BitVec.ofNat 8 n = ch '1') ↔ isDigit 2 (BitVec.ofNat 8 n) = true) := by
    decide +kernel
  have hc := this c.toNat c.isLt
  rwa [BitVec.ofNat_toNat, BitVec.setWidth_eq] at hc

theorem isOctChar_iff (c : Byte) : (48 ≤ c.toNat ∧ c.toNat ≤ 55) ↔ IsDigit 8 c := by
  rw [← isDigit_iff]
  have : ∀ n, n < 256 → ((48 ≤ n ∧ n ≤ 55) ↔ isDigit 8 (BitVec.ofNat 8 n) = true) := by decide +kernel
  have hc := this c.toNat c.isLt
  rwa [BitVec.ofNat_toNat, BitVec.setWidth_eq] at hc

theorem notDecChar_iff (c : Byte) : (c.toNat < 48 ∨ 57 < c.toNat) ↔ ¬ IsDigit 10 c := by
  rw [← isDigit_iff]
  have : ∀ n, n < 256 → ((n < 48 ∨ 57 < n) ↔ ¬ isDigit 10 (BitVec.ofNat 8 n) = true) := by decide +kernel
  have hc := this c.toNat c.isLt
  rwa [BitVec.ofNat_toNat, BitVec.setWidth_eq] at hc

theorem isDigit_mono {b b' : Nat} (h : b ≤ b') {c : Byte} (hc : IsDigit b c) : IsDigit b' c := by
  obtain ⟨d, h1, h2⟩ := hc; exact ⟨d, h1, by omega⟩

theorem isDigit_zero (b : Nat) (hb : 0 < b) : IsDigit b (ch '0') := ⟨0, .dec 0 (by omega), hb⟩

theorem not_isDigit10_x : ¬ IsDigit 10 (ch 'x') := by rw [← isDigit_iff]; decide
theorem not_isDigit10_b : ¬ IsDigit 10 (ch 'b') := by rw [← isDigit_iff]; decide

theorem detectBase_nil : detectBase [] = (.throw .invalid_argument, []) := by
  rw [detectBase, Meth.bind_throw peek_char_nil]

theorem detectBase_other (c : Byte) (r : List Byte) (h : c ≠ ch '0') : detectBase (c :: r) = (.ok (some .dec), c :: r) := by
  rw [detectBase, Meth.bind_ok (peek_char_cons c r), if_neg h, Meth.pure_eval]

theorem detectBase_zero (r : List Byte) : detectBase (ch '0' :: r) =
    (match r with
     | [] => (.ok none, [])
     | c :: r' =>
       if c = ch 'x' then
         (match r' with
          | [] => (.ok none, c :: r')
          | d :: _ => if isHexChar d then (.ok (some .hex), r') else (.ok none, c :: r'))
       else if c = ch 'b' then
         (match r' with
          | [] => (.ok none, c :: r')
          | d :: _ => if d = ch '0' ∨ d = ch '1' then (.ok (some .bin), r') else (.ok none, c :: r'))
       else if 48 ≤ c.toNat ∧ c.toNat ≤ 55 then (.ok (some .oct), c :: r')
       else if c.toNat < 48 ∨ 57 < c.toNat then (.ok none, c :: r')
       else (.ok (some .dec), c :: r')) := by
  rw [detectBase, Meth.bind_ok (peek_char_cons _ r), if_pos rfl, Meth.bind_ok (read_char_cons _ r), Meth.get_bind]
  cases r with
  | nil => simp [empty]
  | cons c r' =>
    rw [show empty (c :: r') = false from rfl, if_neg Bool.false_ne_true, Meth.bind_ok (peek_char_cons c r')]
    simp only
    by_cases hx : c = ch 'x'
    · rw [if_pos hx, if_pos hx]
      cases r' with
      | nil => simp [size]
      | cons d r'' =>
        rw [if_neg (by simp [size]), Meth.bind_ok (peek_char_at_eq 1 _)]
        cases hd : isHexChar d with
        | true => simp only [hd, if_true]; rw [Meth.bind_ok (read_char_cons c _), Meth.pure_eval]
        | false => simp [hd]
    · rw [if_neg hx, if_neg hx]
      by_cases hb : c = ch 'b'
      · rw [if_pos hb, if_pos hb]
        cases r' with
        | nil => simp [size]
        | cons d r'' =>
          rw [if_neg (by simp [size]), Meth.bind_ok (peek_char_at_eq 1 _)]
          by_cases hd : d = ch '0' ∨ d = ch '1'
          · rw [if_pos hd]; simp only [if_pos hd]; rw [Meth.bind_ok (read_char_cons c _), Meth.pure_eval]
          · rw [if_neg hd]; simp only [if_neg hd]; rfl
      · rw [if_neg hb, if_neg hb]
        split
        · rfl
        · split <;> rfl

theorem finishNumber_ok {α : Type} (dbg : Bool) (zero v : α) (n : Nat) (p : Parser) (h0 : 0 < n) (hn : n ≤ p.length) :
    finishNumber dbg zero (.ok v n) p = (.ok v, p.drop n) := by
  simp only [finishNumber, show decide (0 < n) = true by simpa using h0, ASSERT_true, Meth.lift_ok_bind]
  rw [Meth.bind_ok (advance_eq n p hn), Meth.pure_eval]

theorem finishNumber_range {α : Type} (dbg : Bool) (zero : α) (n : Nat) (p : Parser) (h0 : 0 < n) (hn : n ≤ p.length) :
    finishNumber dbg zero (.out_of_range n) p = (.ok zero, p.drop n) := by
  simp only [finishNumber, show decide (0 < n) = true by simpa using h0, ASSERT_true, Meth.lift_ok_bind]
  rw [Meth.bind_ok (advance_eq n p hn), Meth.pure_eval]

theorem finishNumber_invalid {α : Type} (dbg : Bool) (zero : α) (p : Parser) :
    finishNumber dbg zero .invalid_argument p = (.throw .invalid_argument, p) := rfl

/-- Reading a numeral of a known base. -/
theorem finish_numeral (dbg : Bool) (w base : Nat) (ds rest : List Byte) (n : Nat) (hne : ds ≠ []) (h : Numeral base ds n)
    (hr : NoDigitAhead base rest) :
    finishNumber dbg 0 (fromCharsU w base (ds ++ rest)) (ds ++ rest) = (.ok (if n < 2 ^ w then n else 0), rest) := by
  have hpos : 0 < ds.length := List.length_pos_iff.mpr hne
  rw [fromCharsU_eq w base ds rest n hne h hr]
  by_cases hn : n < 2 ^ w
  · rw [if_pos hn, if_pos hn, finishNumber_ok dbg _ _ _ _ hpos (by simp), List.drop_left]
  · rw [if_neg hn, if_neg hn, finishNumber_range dbg _ _ _ hpos (by simp), List.drop_left]

/-- `read_number` after the white space. -/
def unsignedBody (dbg : Bool) (w : Nat) : Meth Parser Nat := do
  let b ← detectBase
  match b with
  | none => return 0
  | some base => do
    let v ← Meth.get
    finishNumber dbg 0 (fromCharsU w (to_int base) v)

theorem read_numberU_eq (dbg : Bool) (w : Nat) (v : Parser) : read_numberU dbg w v = unsignedBody dbg w (v.dropWhile is_space) := by
  rw [read_numberU, Meth.bind_ok (skip_whitespaces_eq v)]; rfl

/-- What the specified reading means for the call. -/
def unsignedOutcome (w : Nat) (s : List Byte) : Read → Res Nat × Parser
  | .value n rest => (.ok (if n < 2 ^ w then n else 0), rest)
  | .none => (.throw .invalid_argument, s)

/-- The same for signed numbers. -/
def signedOutcome (w : Nat) (s : List Byte) : ReadS → Res Int × Parser
  | .value n rest => (.ok (if -(2 : Int) ^ (w - 1) ≤ n ∧ n < 2 ^ (w - 1) then n else 0), rest)
  | .none => (.throw .invalid_argument, s)

theorem unsignedBody_lit (dbg : Bool) (w : Nat) (s : List Byte) (o : Read) (h : UnsignedLit s o) :
    unsignedBody dbg w s = unsignedOutcome w s o := by
  unfold unsignedBody
  cases h with
  | hex ds rest n hne hn hr =>
    obtain ⟨d, ds', rfl⟩ : ∃ d ds', ds = d :: ds' := by
      cases ds with
      | nil => exact absurd rfl hne
      | cons d ds' => exact ⟨d, ds', rfl⟩
    have hd : isHexChar d = true := by
      rw [isHexChar_iff, ← isDigit_iff]; exact ((numeral_iff _ _ _).mp hn).1 d (by simp)
    have hdet := detectBase_zero (ch 'x' :: (d :: ds') ++ rest)
    simp only [List.cons_append, if_true, hd] at hdet
    simp only [List.cons_append]
    rw [Meth.bind_ok hdet]
    simp only [Meth.get_bind]
    exact finish_numeral dbg w 16 (d :: ds') rest n hne hn hr
  | bin ds rest n hne hn hr =>
    obtain ⟨d, ds', rfl⟩ : ∃ d ds', ds = d :: ds' := by
      cases ds with
      | nil => exact absurd rfl hne
      | cons d ds' => exact ⟨d, ds', rfl⟩
    have hd : d = ch '0' ∨ d = ch '1' := by
      rw [isBinChar_iff, ← isDigit_iff]; exact ((numeral_iff _ _ _).mp hn).1 d (by simp)
    have hdet := detectBase_zero (ch 'b' :: (d :: ds') ++ rest)
    simp only [List.cons_append, if_true, if_pos hd, if_neg (show ¬ ch 'b' = ch 'x' by decide)] at hdet
    simp only [List.cons_append]
    rw [Meth.bind_ok hdet]
    simp only [Meth.get_bind]
    exact finish_numeral dbg w 2 (d :: ds') rest n hne hn hr
  | oct ds rest n hne hn hr =>
    obtain ⟨d, ds', rfl⟩ : ∃ d ds', ds = d :: ds' := by
      cases ds with
      | nil => exact absurd rfl hne
      | cons d ds' => exact ⟨d, ds', rfl⟩
    have hd8 : IsDigit 8 d := by rw [← isDigit_iff]; exact ((numeral_iff _ _ _).mp hn).1 d (by simp)
    have hx : ¬ d = ch 'x' := by
      intro h; subst h; exact not_isDigit10_x (isDigit_mono (by omega) hd8)
    have hb : ¬ d = ch 'b' := by
      intro h; subst h; exact not_isDigit10_b (isDigit_mono (by omega) hd8)
    have hdet := detectBase_zero ((d :: ds') ++ rest)
    simp only [List.cons_append, if_neg hx, if_neg hb, if_pos ((isOctChar_iff d).mpr hd8)] at hdet
    rw [List.cons_append, List.cons_append, Meth.bind_ok hdet]
    simp only [Meth.get_bind]
    exact finish_numeral dbg w 8 (d :: ds') rest n hne hn hr
  | dec ds rest n hne hn hr hform =>
    rcases hform with hform | ⟨c, r, rfl, hc⟩
    · obtain ⟨d, ds', rfl⟩ : ∃ d ds', ds = d :: ds' := by
        cases ds with
        | nil => exact absurd rfl hne
        | cons d ds' => exact ⟨d, ds', rfl⟩
      have hd0 : d ≠ ch '0' := by simpa using hform
      rw [List.cons_append, Meth.bind_ok (detectBase_other d _ hd0)]
      simp only [Meth.get_bind]
      exact finish_numeral dbg w 10 (d :: ds') rest n hne hn hr
    · have hc10 : IsDigit 10 c := by rw [← isDigit_iff]; exact ((numeral_iff _ _ _).mp hn).1 c (by simp)
      have hx : ¬ c = ch 'x' := by intro h; subst h; exact not_isDigit10_x hc10
      have hb : ¬ c = ch 'b' := by intro h; subst h; exact not_isDigit10_b hc10
      have hdet := detectBase_zero ((c :: r) ++ rest)
      simp only [List.cons_append, if_neg hx, if_neg hb, if_neg (fun h => hc ((isOctChar_iff c).mp h)),
        if_neg (fun h => (notDecChar_iff c).mp h hc10)] at hdet
      rw [List.cons_append, List.cons_append, Meth.bind_ok hdet]
      simp only [Meth.get_bind]
      refine finish_numeral dbg w 10 (c :: r) rest n (by simp) ?_ hr
      rw [numeral_iff] at hn ⊢
      refine ⟨fun x hx => hn.1 x (by simp [hx]), ?_⟩
      rw [← hn.2, accDigits_cons _ (ch '0')]
      simp [show digitVal (ch '0') = some 0 by decide]
  | zero rest hr hx hb =>
    have hdet := detectBase_zero rest
    cases rest with
    | nil => rw [Meth.bind_ok hdet]; simp [unsignedOutcome]
    | cons c r =>
      have hc10 : ¬ IsDigit 10 c := hr c rfl
      have hfin : detectBase (ch '0' :: c :: r) = (.ok none, c :: r) := by
        rw [hdet]
        simp only
        by_cases h1 : c = ch 'x'
        · rw [if_pos h1]
          cases r with
          | nil => rfl
          | cons d r' =>
            simp only
            rw [if_neg]
            rw [isHexChar_iff]; exact hx d r' (by rw [h1])
        · rw [if_neg h1]
          by_cases h2 : c = ch 'b'
          · rw [if_pos h2]
            cases r with
            | nil => rfl
            | cons d r' =>
              simp only
              rw [if_neg]
              rw [isBinChar_iff]; exact hb d r' (by rw [h2])
          · rw [if_neg h2, if_neg (fun h => hc10 (isDigit_mono (by omega) ((isOctChar_iff c).mp h))), if_pos ((notDecChar_iff c).mpr hc10)]
      rw [Meth.bind_ok hfin]; simp [unsignedOutcome]
  | none s hr =>
    cases s with
    | nil => rw [Meth.bind_throw detectBase_nil]; rfl
    | cons c r =>
      have hc : c ≠ ch '0' := by intro h; subst h; exact hr _ rfl (isDigit_zero 10 (by omega))
      rw [Meth.bind_ok (detectBase_other c r hc)]
      simp only [Meth.get_bind, to_int]
      rw [fromCharsU_none w 10 _ hr, finishNumber_invalid]; rfl

/-- Split a text after its leading digits. -/
theorem digits_split (base : Nat) (s : List Byte) : ∃ ds rest n, s = ds ++ rest ∧ Numeral base ds n ∧ NoDigitAhead base rest := by
  refine ⟨s.takeWhile (isDigit base), s.dropWhile (isDigit base), _, by simp, (numeral_iff _ _ _).mpr ⟨?_, rfl⟩, ?_⟩
  · intro c hc; exact List.all_eq_true.mp (List.all_takeWhile (p := isDigit base) (l := s)) c hc
  · intro c hc
    have := List.head?_dropWhile_not (isDigit base) s
    rw [hc] at this
    exact (isDigit_false_iff base c).mp (by simpa using this)

theorem digits_split_ne (base : Nat) (c : Byte) (s : List Byte) (hc : IsDigit base c) :
    ∃ ds rest n, s = ds ++ rest ∧ Numeral base (c :: ds) n ∧ NoDigitAhead base rest := by
  obtain ⟨ds, rest, n, h1, h2, h3⟩ := digits_split base s
  obtain ⟨d, hd, hlt⟩ := hc
  exact ⟨ds, rest, _, h1, .cons c d ds n hd hlt h2, h3⟩

/-- Every text is one of the cases. -/
theorem unsignedLit_total (s : List Byte) : ∃ o, UnsignedLit s o := by
  cases s with
  | nil => exact ⟨.none, .none [] (by intro c hc; cases hc)⟩
  | cons c r =>
    by_cases hc : IsDigit 10 c
    · by_cases hz : c = ch '0'
      · subst hz
        cases r with
        | nil => exact ⟨_, .zero [] (by intro c hc; cases hc) (by intro c r h; cases h) (by intro c r h; cases h)⟩
        | cons d r =>
          by_cases h8 : IsDigit 8 d
          · obtain ⟨ds, rest, n, rfl, h2, h3⟩ := digits_split_ne 8 d r h8
            exact ⟨_, .oct (d :: ds) rest n (by simp) h2 h3⟩
          · by_cases h10 : IsDigit 10 d
            · obtain ⟨ds, rest, n, rfl, h2, h3⟩ := digits_split_ne 10 d r h10
              refine ⟨_, .dec (ch '0' :: d :: ds) rest (0 * 10 ^ (d :: ds).length + n) (by simp)
                (.cons _ 0 _ _ (.dec 0 (by omega)) (by omega) h2) h3 (.inr ⟨d, ds, rfl, h8⟩)⟩
            · have hno : NoDigitAhead 10 (d :: r) := by intro c hc; simp at hc; subst hc; exact h10
              by_cases hx : ∃ e t, d :: r = ch 'x' :: e :: t ∧ IsDigit 16 e
              · obtain ⟨e, t, he, h16⟩ := hx
                obtain ⟨ds, rest, n, rfl, h2, h3⟩ := digits_split_ne 16 e t h16
                rw [he]
                exact ⟨_, .hex (e :: ds) rest n (by simp) h2 h3⟩
              · by_cases hb : ∃ e t, d :: r = ch 'b' :: e :: t ∧ IsDigit 2 e
                · obtain ⟨e, t, he, h16⟩ := hb
                  obtain ⟨ds, rest, n, rfl, h2, h3⟩ := digits_split_ne 2 e t h16
                  rw [he]
                  exact ⟨_, .bin (e :: ds) rest n (by simp) h2 h3⟩
                · exact ⟨_, .zero (d :: r) hno (fun c r h h' => hx ⟨c, r, h, h'⟩) (fun c r h h' => hb ⟨c, r, h, h'⟩)⟩
      · obtain ⟨ds, rest, n, rfl, h2, h3⟩ := digits_split_ne 10 c r hc
        exact ⟨_, .dec (c :: ds) rest n (by simp) h2 h3 (.inl (by simpa using hz))⟩
    · exact ⟨.none, .none _ (by intro d hd; simp at hd; subst hd; exact hc)⟩

theorem not_isDigit_minus (b : Nat) : ¬ IsDigit b (ch '-') := by
  rintro ⟨d, hd, _⟩
  rw [← digitVal_iff] at hd
  revert hd
  rw [show digitVal (ch '-') = Option.none by decide]
  intro h; cases h

theorem read_numberS_lit (dbg : Bool) (w : Nat) (v : Parser) (o : ReadS) (h : SignedLit (v.dropWhile is_space) o) :
    read_numberS dbg w v = signedOutcome w (v.dropWhile is_space) o := by
  rw [read_numberS, Meth.bind_ok (skip_whitespaces_eq v), Meth.get_bind]
  generalize v.dropWhile is_space = s at h
  cases h with
  | pos ds rest n hne hn hr =>
    have hpos : 0 < ds.length := List.length_pos_iff.mpr hne
    have hd := (numeral_iff 10 ds n).mp hn
    have hneg : (ds ++ rest).head? = some (ch '-') ↔ False := by
      refine ⟨fun h => ?_, False.elim⟩
      cases ds with
      | nil => exact hne rfl
      | cons d ds =>
        simp at h; subst h
        exact not_isDigit_minus 10 ((isDigit_iff _ _).mp (hd.1 _ (by simp)))
    unfold fromCharsS signedOutcome
    simp only [to_int, hneg, if_false, takeWhile_digits 10 ds rest hd.1 hr, hne, hd.2, Nat.zero_add]
    by_cases hf : -(2 : Int) ^ (w - 1) ≤ n ∧ (n : Int) < 2 ^ (w - 1)
    · rw [if_pos hf, if_pos hf, finishNumber_ok dbg _ _ _ _ hpos (by simp), List.drop_left]
    · rw [if_neg hf, if_neg hf, finishNumber_range dbg _ _ _ hpos (by simp), List.drop_left]
  | neg ds rest n hne hn hr =>
    have hpos : 0 < ds.length := List.length_pos_iff.mpr hne
    have hd := (numeral_iff 10 ds n).mp hn
    unfold fromCharsS signedOutcome
    simp only [List.cons_append, List.head?_cons, if_true, List.drop_succ_cons, List.drop_zero, to_int, takeWhile_digits 10 ds rest hd.1 hr,
      hne, if_false, hd.2]
    by_cases hf : -(2 : Int) ^ (w - 1) ≤ -(n : Int) ∧ -(n : Int) < 2 ^ (w - 1)
    · rw [if_pos hf, if_pos hf, finishNumber_ok dbg _ _ _ _ (by omega) (by simp; omega), Nat.add_comm, List.drop_succ_cons, List.drop_left]
    · rw [if_neg hf, if_neg hf, finishNumber_range dbg _ _ _ (by omega) (by simp; omega), Nat.add_comm, List.drop_succ_cons, List.drop_left]
  | none s hr hm =>
    have hinv : fromCharsS w 10 s = .invalid_argument := by
      unfold fromCharsS
      by_cases hneg : s.head? = some (ch '-')
      · obtain ⟨r, rfl⟩ : ∃ r, s = ch '-' :: r := by
          cases s with
          | nil => cases hneg
          | cons a r => simp at hneg; subst hneg; exact ⟨r, rfl⟩
        have := takeWhile_digits 10 [] r (by simp) (hm r rfl)
        rw [List.nil_append] at this
        simp [this]
      · have := takeWhile_digits 10 [] s (by simp) hr
        rw [List.nil_append] at this
        simp [hneg, this]
    simp only [to_int, hinv]
    rfl

theorem signedLit_total (s : List Byte) : ∃ o, SignedLit s o := by
  obtain ⟨ds, rest, n, h1, h2, h3⟩ := digits_split 10 s
  by_cases hne : ds = []
  · subst hne
    rw [List.nil_append] at h1
    subst h1
    by_cases hm : ∃ r, s = ch '-' :: r
    · obtain ⟨r, rfl⟩ := hm
      obtain ⟨ds', rest', n', g1, g2, g3⟩ := digits_split 10 r
      by_cases hne' : ds' = []
      · subst hne'
        rw [List.nil_append] at g1; subst g1
        exact ⟨.none, .none _ h3 (by intro r' h; cases h; exact g3)⟩
      · subst g1
        exact ⟨_, .neg ds' rest' n' hne' g2 g3⟩
    · exact ⟨.none, .none _ h3 (by intro r h; exact absurd ⟨r, h⟩ hm)⟩
  · subst h1; exact ⟨_, .pos ds rest n hne h2 h3⟩

end Parser
end Utki
