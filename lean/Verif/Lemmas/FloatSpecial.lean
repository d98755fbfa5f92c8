import Verif.Spec.Special
import Verif.Model.FloatParse
import Verif.Lemmas.FloatScan
/-!
# The texts for infinity and not-a-number

Helper lemmas.
-/
namespace Utki.FastFloat

open Utki Utki.Spec

/-- The two values of a difference that mean "the same letter". -/
def okDiff (d : Byte) : Bool := d = 0 || d = 32

theorem okDiff_mask (d : Byte) : okDiff d = decide (d &&& 0xDF#8 = 0#8) := by
  cases d with | ofFin n => revert n; decide +kernel

theorem okDiff_or (d e : Byte) : okDiff (d ||| e) = (okDiff d && okDiff e) := by
  rw [okDiff_mask, okDiff_mask, okDiff_mask, ← Bool.decide_and]
  congr 1
  rw [eq_iff_iff]
  constructor
  · intro h
    constructor
    · apply BitVec.eq_of_getLsbD_eq
      intro i hi
      have := congrArg (fun x : Byte => x.getLsbD i) h
      simp only [BitVec.getLsbD_and, BitVec.getLsbD_or, BitVec.getLsbD_zero, Bool.and_eq_false_iff, Bool.or_eq_false_iff] at this ⊢
      tauto
    · apply BitVec.eq_of_getLsbD_eq
      intro i hi
      have := congrArg (fun x : Byte => x.getLsbD i) h
      simp only [BitVec.getLsbD_and, BitVec.getLsbD_or, BitVec.getLsbD_zero, Bool.and_eq_false_iff, Bool.or_eq_false_iff] at this ⊢
      tauto
  · rintro ⟨h1, h2⟩
    apply BitVec.eq_of_getLsbD_eq
    intro i hi
    have e1 := congrArg (fun x : Byte => x.getLsbD i) h1
    have e2 := congrArg (fun x : Byte => x.getLsbD i) h2
    simp only [BitVec.getLsbD_and, BitVec.getLsbD_or, BitVec.getLsbD_zero, Bool.and_eq_false_iff, Bool.or_eq_false_iff] at e1 e2 ⊢
    tauto

/-- The letters that occur: n, a, i, f, t, y. -/
def letters : List Byte := [110, 97, 105, 102, 116, 121]

theorem okDiff_letter (x : Byte) (hx : x ∈ letters) (c : Byte) : okDiff (c ^^^ x) = decide (asciiLower c = x) := by
  have key : ∀ x ∈ letters, ∀ n : Fin 256, okDiff (BitVec.ofFin n ^^^ x) = decide (asciiLower (BitVec.ofFin n) = x) := by decide +kernel
  cases c with | ofFin n => exact key x hx n

theorem rd_app {s : List Byte} {pre t : List Byte} {c : Byte} (hs : s = pre ++ c :: t) : rd s pre.length = .ok c := by
  subst hs
  rw [rd_eq_ok (by rw [List.length_append, List.length_cons]; omega)]
  simp

theorem strncasecmp_go_eq (s : List Byte) : ∀ (lit pre a rest : List Byte) (d : Byte), s = pre ++ a ++ rest → a.length = lit.length →
    (∀ x ∈ lit, x ∈ letters) → strncasecmp.go s pre.length lit d = .ok (okDiff d && decide (a.map asciiLower = lit)) := by
  intro lit
  induction lit with
  | nil =>
    intro pre a rest d hs ha _
    have : a = [] := by simpa using ha
    subst this
    simp [strncasecmp.go, okDiff]
  | cons x xs ih =>
    intro pre a rest d hs ha hl
    cases a with
    | nil => simp at ha
    | cons c a =>
      rw [strncasecmp.go, rd_app (t := a ++ rest) (c := c) (by rw [hs]; simp)]
      simp only [Res.bind_eq, Res.ok_bind]
      have := ih (pre ++ [c]) a rest (d ||| (c ^^^ x)) (by rw [hs]; simp) (by simpa using ha) (fun y hy => hl y (List.mem_cons_of_mem _ hy))
      rw [List.length_append, List.length_singleton] at this
      rw [this, okDiff_or, okDiff_letter x (hl x List.mem_cons_self)]
      simp [Bool.and_assoc]

theorem strncasecmp_eq {s pre a rest : List Byte} {w : String} (hs : s = pre ++ a ++ rest) (ha : a.length = (str w).length)
    (hl : ∀ x ∈ str w, x ∈ letters) : strncasecmp s pre.length (str w) = .ok (decide (IsWord w a)) := by
  unfold strncasecmp
  rw [strncasecmp_go_eq s (str w) pre a rest 0 hs ha hl]
  simp [okDiff, IsWord]

theorem nanChar_iff (c : Byte) : ((97 ≤ c.toNat && c.toNat ≤ 122) || (65 ≤ c.toNat && c.toNat ≤ 90) || (48 ≤ c.toNat && c.toNat ≤ 57) ||
    c = ch '_') = true ↔ NanChar c := by
  unfold NanChar
  simp [or_assoc]

theorem not_nanChar_close : ¬ NanChar (ch ')') := by
  unfold NanChar
  decide

/-- What the loop over the characters in the parentheses returns. -/
theorem nan_payload_spec (s : List Byte) (stop : Nat) : ∀ (rest pre : List Byte), s = pre ++ rest →
    (∃ q r, rest = q ++ ch ')' :: r ∧ (∀ c ∈ q, NanChar c) ∧ nan_payload s pre.length rest.length stop = .ok (pre.length + q.length + 1)) ∨
    (nan_payload s pre.length rest.length stop = .ok stop ∧ ∀ q r, (∀ c ∈ q, NanChar c) → rest ≠ q ++ ch ')' :: r) := by
  intro rest
  induction rest with
  | nil =>
    intro pre _
    right
    exact ⟨rfl, fun q r _ => by simp⟩
  | cons c rest ih =>
    intro pre hs
    rw [List.length_cons, nan_payload, rd_app hs]
    simp only [Res.bind_eq, Res.ok_bind, Res.pure_eq]
    by_cases hc : c = ch ')'
    · left
      subst hc
      exact ⟨[], rest, rfl, by simp, by simp⟩
    rw [if_neg hc]
    by_cases hn : NanChar c
    · rw [(nanChar_iff c).mpr hn]
      simp only [Bool.not_true, Bool.false_eq_true, if_false]
      have := ih (pre ++ [c]) (by rw [hs]; simp)
      rw [List.length_append, List.length_singleton] at this
      rcases this with ⟨q, r, h1, h2, h3⟩ | ⟨h1, h2⟩
      · left
        refine ⟨c :: q, r, by rw [h1]; rfl, ?_, ?_⟩
        · intro x hx
          rcases List.mem_cons.mp hx with rfl | hx
          · exact hn
          · exact h2 x hx
        · rw [h3, List.length_cons]
          congr 1
          omega
      · right
        refine ⟨h1, ?_⟩
        intro q r hq he
        cases q with
        | nil => simp at he; exact hc he.1
        | cons x q =>
          simp only [List.cons_append, List.cons.injEq] at he
          exact h2 q r (fun y hy => hq y (List.mem_cons_of_mem _ hy)) he.2
    · have : ((97 ≤ c.toNat && c.toNat ≤ 122) || (65 ≤ c.toNat && c.toNat ≤ 90) || (48 ≤ c.toNat && c.toNat ≤ 57) || c = ch '_') = false := by
        rw [Bool.eq_false_iff, ne_eq, nanChar_iff]; exact hn
      rw [this]
      simp only [Bool.not_false, if_true]
      right
      refine ⟨trivial, ?_⟩
      intro q r hq he
      cases q with
      | nil => simp at he; exact hc he.1
      | cons x q =>
        simp only [List.cons_append, List.cons.injEq] at he
        exact hn (he.1 ▸ hq x List.mem_cons_self)

theorem payload_unique : ∀ {q q' r r' : List Byte}, (∀ c ∈ q, NanChar c) → (∀ c ∈ q', NanChar c) → q ++ ch ')' :: r = q' ++ ch ')' :: r' →
    q.length = q'.length := by
  intro q
  induction q with
  | nil =>
    intro q' r r' _ h' he
    cases q' with
    | nil => rfl
    | cons x q' =>
      simp only [List.nil_append, List.cons_append, List.cons.injEq] at he
      exact absurd (he.1 ▸ h' x List.mem_cons_self) not_nanChar_close
  | cons x q ih =>
    intro q' r r' h h' he
    cases q' with
    | nil =>
      simp only [List.nil_append, List.cons_append, List.cons.injEq] at he
      exact absurd (he.1 ▸ h x List.mem_cons_self) not_nanChar_close
    | cons y q' =>
      simp only [List.cons_append, List.cons.injEq] at he
      rw [List.length_cons, List.length_cons, ih (fun c hc => h c (List.mem_cons_of_mem _ hc)) (fun c hc => h' c (List.mem_cons_of_mem _ hc)) he.2]

theorem word_length {w : String} {t : List Byte} (h : IsWord w t) : t.length = (str w).length := by
  unfold IsWord at h
  rw [← h, List.length_map]

/-- The letters it begins with. -/
def specialWord : Special → String
  | .inf => "inf"
  | .nan => "nan"

/-- The first three letters of every such text. -/
theorem special_head {v : Special} {w : List Byte} (h : IsSpecial v w) :
    3 ≤ w.length ∧ IsWord (specialWord v) (w.take 3) := by
  have long : ∀ {w : List Byte}, IsWord "infinity" w → IsWord "inf" (w.take 3) := by
    intro w h
    unfold IsWord at h ⊢
    rw [List.map_take, h]
    decide
  cases v with
  | inf =>
    rcases h with h | h
    · have hl := (word_length h)
      rw [show (str "inf").length = 3 by decide] at hl
      exact ⟨hl.ge, by rw [List.take_of_length_le hl.le]; exact h⟩
    · have hl := (word_length h)
      rw [show (str "infinity").length = 8 by decide] at hl
      exact ⟨by omega, long h⟩
  | nan =>
    rcases h with h | ⟨x, q, h1, -, rfl⟩
    · have hl := (word_length h)
      rw [show (str "nan").length = 3 by decide] at hl
      exact ⟨hl.ge, by rw [List.take_of_length_le hl.le]; exact h⟩
    · have hl := (word_length h1)
      rw [show (str "nan").length = 3 by decide] at hl
      refine ⟨by simp; omega, ?_⟩
      simp only [List.append_assoc]
      rw [List.take_append_of_le_length (by omega), List.take_of_length_le hl.le]
      exact h1

theorem special_ne_minus {v : Special} {w : List Byte} (h : IsSpecial v w) : w.head? ≠ some (ch '-') := by
  obtain ⟨h1, h2⟩ := special_head h
  intro hc
  cases w with
  | nil => simp at h1
  | cons c w =>
    simp only [List.head?_cons, Option.some.injEq] at hc
    subst hc
    unfold IsWord at h2
    rw [List.take_succ_cons, List.map_cons] at h2
    have h3 := congrArg List.head? h2
    rw [List.head?_cons] at h3
    cases v <;> revert h3 <;> decide

/-- What is found, without the sign. -/
def toInfNan (neg : Bool) : Special → InfNan
  | .inf => .inf neg
  | .nan => .nan neg

/-- `parse_infnan` after the sign. -/
def infnan_body (s : List Byte) (neg : Bool) (first : Nat) : Res (Option (InfNan × Nat)) := do
  if s.length - first ≥ 3 then
    let isnan ← strncasecmp s first (str "nan")
    if isnan then
      let first := first + 3
      let paren ← char_at s first (ch '(')
      let ptr ← (if paren then nan_payload s (first + 1) (s.length - (first + 1)) first else .ok first : Res Nat)
      return some (.nan neg, ptr)
    else
      let isinf ← strncasecmp s first (str "inf")
      if isinf then
        let long ← (if s.length - first ≥ 8 then strncasecmp s (first + 3) (str "inity") else .ok false : Res Bool)
        return some (.inf neg, if long then first + 8 else first + 3)
      else return none
  else return none

theorem infnan_body_spec (s pre t : List Byte) (neg : Bool) (hs : s = pre ++ t) :
    (∃ v w, IsSpecial v w ∧ w <+: t ∧ (∀ v' w', IsSpecial v' w' → w' <+: t → w'.length ≤ w.length) ∧
      infnan_body s neg pre.length = .ok (some (toInfNan neg v, pre.length + w.length))) ∨
    (infnan_body s neg pre.length = .ok none ∧ ∀ v' w', IsSpecial v' w' → ¬ w' <+: t) := by
  have hlen : s.length - pre.length = t.length := by rw [hs, List.length_append]; omega
  unfold infnan_body
  rw [hlen]
  rcases Nat.lt_or_ge t.length 3 with h3 | h3
  · rw [if_neg (by omega)]
    right
    refine ⟨rfl, ?_⟩
    intro v' w' h hp
    have := (special_head h).1
    have := hp.length_le
    omega
  rw [if_pos h3]
  obtain ⟨a, r, hta, ha3⟩ : ∃ a r, t = a ++ r ∧ a.length = 3 := ⟨t.take 3, t.drop 3, (List.take_append_drop 3 t).symm, by rw [List.length_take]; omega⟩
  have hsa : s = pre ++ a ++ r := by rw [hs, hta, List.append_assoc]
  have head : ∀ {v' w'}, IsSpecial v' w' → w' <+: t → IsWord (specialWord v') a := by
    intro v' w' h hp
    obtain ⟨g1, g2⟩ := special_head h
    obtain ⟨z, hz⟩ := hp
    have : w'.take 3 = a := by
      have e1 : t.take 3 = a := by rw [hta, List.take_append_of_le_length (by omega), List.take_of_length_le (by omega)]
      rw [← e1, ← hz, List.take_append_of_le_length g1]
    rwa [this] at g2
  rw [strncasecmp_eq hsa (by rw [ha3]; decide) (by decide)]
  simp only [Res.bind_eq, Res.ok_bind, Res.pure_eq]
  by_cases hnan : IsWord "nan" a
  · rw [if_pos (by simpa using hnan)]
    left
    have hninf : ¬ IsWord "inf" a := by
      intro h
      unfold IsWord at h hnan
      rw [hnan] at h
      revert h
      decide
    -- the candidates are those for not-a-number
    have cand : ∀ v' w', IsSpecial v' w' → w' <+: t → w'.length = 3 ∨ ∃ q r', (∀ c ∈ q, NanChar c) ∧ r = ch '(' :: (q ++ ch ')' :: r') ∧
        w'.length = 3 + q.length + 2 := by
      intro v' w' h hp
      have hh := head h hp
      cases v' with
      | inf => exact absurd hh hninf
      | nan =>
        rcases h with h | ⟨x, q, h1, h2, rfl⟩
        · left; rw [(word_length h)]; decide
        · right
          obtain ⟨z, hz⟩ := hp
          have hx : x.length = 3 := by rw [(word_length h1)]; decide
          rw [hta] at hz
          simp only [List.append_assoc] at hz
          have := List.append_inj hz (by rw [hx, ha3])
          refine ⟨q, z, h2, by rw [← this.2]; simp, ?_⟩
          simp only [List.length_append, List.length_singleton, hx]
          omega
    unfold char_at
    have hl3 : pre.length + 3 = (pre ++ a).length := by rw [List.length_append, ha3]
    cases r with
    | nil =>
      rw [if_pos (by rw [hsa]; simp; omega)]
      simp only [Res.pure_eq, Res.ok_bind, Bool.false_eq_true, if_false]
      refine ⟨.nan, a, .inl hnan, by rw [hta]; exact List.prefix_append _ _, ?_, by rw [ha3]; rfl⟩
      intro v' w' h hp
      have := hp.length_le
      rw [hta] at this
      simpa using this
    | cons c r =>
      rw [if_neg (by rw [hsa]; simp; omega), hl3, rd_app hsa]
      simp only [Res.bind_eq, Res.pure_eq, Res.ok_bind]
      by_cases hc : c = ch '('
      · subst hc
        simp only [decide_true, if_true]
        have hsp : s = (pre ++ a ++ [ch '(']) ++ r := by rw [hsa]; simp
        have e1 : (pre ++ a).length + 1 = (pre ++ a ++ [ch '(']).length := by simp; omega
        have e2 : s.length - (pre ++ a ++ [ch '(']).length = r.length := by rw [hsp, List.length_append]; omega
        rw [e1, e2]
        rcases nan_payload_spec s (pre ++ a).length r (pre ++ a ++ [ch '(']) hsp with ⟨q, r', h1, h2, h3⟩ | ⟨h1, h2⟩
        · rw [h3]
          simp only [Res.ok_bind]
          refine ⟨.nan, a ++ [ch '('] ++ q ++ [ch ')'], .inr ⟨a, q, hnan, h2, rfl⟩, ?_, ?_, ?_⟩
          · rw [hta, h1]
            exact ⟨r', by simp⟩
          · intro v' w' h hp
            simp only [List.length_append, List.length_singleton, ha3]
            rcases cand v' w' h hp with h | ⟨q', r'', g1, g2, g3⟩
            · omega
            · rw [g3]
              simp only [List.cons.injEq, true_and] at g2
              have := payload_unique h2 g1 (h1.symm.trans g2)
              omega
          · simp only [List.length_append, List.length_singleton, ha3, toInfNan]
            congr 3
            omega
        · rw [h1]
          simp only [Res.ok_bind]
          refine ⟨.nan, a, .inl hnan, by rw [hta]; exact List.prefix_append _ _, ?_, by rw [ha3, ← hl3]; rfl⟩
          intro v' w' h hp
          rcases cand v' w' h hp with h | ⟨q', r'', g1, g2, g3⟩
          · omega
          · simp only [List.cons.injEq, true_and] at g2
            exact absurd g2 (h2 q' r'' g1)
      · simp only [hc, decide_false, Bool.false_eq_true, if_false, Res.ok_bind]
        refine ⟨.nan, a, .inl hnan, by rw [hta]; exact List.prefix_append _ _, ?_, by rw [ha3, ← hl3]; rfl⟩
        intro v' w' h hp
        rcases cand v' w' h hp with h | ⟨q', r'', g1, g2, g3⟩
        · omega
        · simp only [List.cons.injEq] at g2
          exact absurd g2.1 hc
  rw [if_neg (by simpa using hnan), strncasecmp_eq hsa (by rw [ha3]; decide) (by decide)]
  simp only [Res.ok_bind]
  by_cases hinf : IsWord "inf" a
  · rw [if_pos (by simpa using hinf)]
    left
    have cand : ∀ v' w', IsSpecial v' w' → w' <+: t → w'.length = 3 ∨ (w'.length = 8 ∧ IsWord "infinity" w') := by
      intro v' w' h hp
      have hh := head h hp
      cases v' with
      | nan => exact absurd hh hnan
      | inf =>
        rcases h with h | h
        · left; rw [(word_length h)]; decide
        · right; exact ⟨by rw [(word_length h)]; decide, h⟩
    have short : ∀ l : Bool, l = false → (∀ w', w' <+: t → ¬ IsWord "infinity" w') →
        ∃ v w, IsSpecial v w ∧ w <+: t ∧ (∀ v' w', IsSpecial v' w' → w' <+: t → w'.length ≤ w.length) ∧
          Res.ok (some (InfNan.inf neg, if l = true then pre.length + 8 else pre.length + 3)) =
            Res.ok (some (toInfNan neg v, pre.length + w.length)) := by
      rintro l rfl hno
      refine ⟨.inf, a, .inl hinf, by rw [hta]; exact List.prefix_append _ _, ?_, by rw [ha3]; rfl⟩
      intro v' w' h hp
      rcases cand v' w' h hp with h | ⟨-, h⟩
      · omega
      · exact absurd h (hno w' hp)
    rcases Nat.lt_or_ge t.length 8 with h8 | h8
    · rw [if_neg (by omega)]
      simp only [Res.ok_bind]
      apply short _ rfl
      intro w' hp h
      have h1 := (word_length h)
      rw [show (str "infinity").length = 8 by decide] at h1
      have := hp.length_le
      omega
    · rw [if_pos h8]
      obtain ⟨c, r', hr, hc5⟩ : ∃ c r', r = c ++ r' ∧ c.length = 5 := ⟨r.take 5, r.drop 5, (List.take_append_drop 5 r).symm, by
        rw [List.length_take]
        rw [hta, List.length_append] at h8
        omega⟩
      have hl3 : pre.length + 3 = (pre ++ a).length := by rw [List.length_append, ha3]
      have hsc : s = pre ++ a ++ c ++ r' := by rw [hsa, hr, List.append_assoc (pre ++ a)]
      have e8 : IsWord "infinity" (a ++ c) ↔ IsWord "inity" c := by
        unfold IsWord at hinf ⊢
        rw [List.map_append, hinf, show str "infinity" = str "inf" ++ str "inity" by decide, List.append_cancel_left_eq]
      rw [hl3, strncasecmp_eq hsc (by rw [hc5]; decide) (by decide), ← hl3]
      simp only [Res.ok_bind]
      by_cases hy : IsWord "inity" c
      · rw [if_pos (by simpa using hy)]
        refine ⟨.inf, a ++ c, .inr (e8.mpr hy), by rw [hta, hr, ← List.append_assoc]; exact List.prefix_append _ _, ?_, ?_⟩
        · intro v' w' h hp
          rw [List.length_append, ha3, hc5]
          rcases cand v' w' h hp with h | ⟨h, -⟩ <;> omega
        · rw [List.length_append, ha3, hc5]; rfl
      · apply short _ (by simpa using hy)
        intro w' hp h
        have h1 := (word_length h)
        rw [show (str "infinity").length = 8 by decide] at h1
        obtain ⟨z, hz⟩ := hp
        have : w' = a ++ c := by
          have h2 : w' ++ z = (a ++ c) ++ r' := by rw [hz, hta, hr, List.append_assoc]
          exact (List.append_inj h2 (by rw [h1, List.length_append, ha3, hc5])).1
        rw [this] at h
        exact hy (e8.mp h)
  · rw [if_neg (by simpa using hinf)]
    right
    refine ⟨rfl, ?_⟩
    intro v' w' h hp
    have := head h hp
    cases v' with
    | inf => exact hinf this
    | nan => exact hnan this

/-- The signed texts at the beginning of a text are the unsigned ones after the sign. -/
theorem signed_special_prefix {c : Byte} {tl : List Byte} {neg : Bool} {v : Special} {t : List Byte} (h : IsSignedSpecial neg v t) :
    t <+: c :: tl → neg = decide (c = ch '-') ∧ ∃ w, IsSpecial v w ∧ t = (if neg then [ch '-'] else []) ++ w ∧
      w <+: (if c = ch '-' then tl else c :: tl) := by
  obtain ⟨w, hw, rfl⟩ := h
  intro hp
  have hm := special_ne_minus hw
  cases neg with
  | true =>
    simp only [if_true, List.cons_append, List.nil_append, List.cons_prefix_cons] at hp
    obtain ⟨rfl, hp⟩ := hp
    refine ⟨by simp, w, hw, rfl, ?_⟩
    rw [if_pos rfl]
    exact hp
  | false =>
    simp only [Bool.false_eq_true, if_false, List.nil_append] at hp
    have hc : c ≠ ch '-' := by
      rintro rfl
      cases w with
      | nil => have := (special_head hw).1; simp at this
      | cons x w =>
        rw [List.cons_prefix_cons] at hp
        rw [hp.1] at hm
        exact hm rfl
    refine ⟨by simp [hc], w, hw, rfl, ?_⟩
    rw [if_neg hc]
    exact hp

/-- `parse_infnan` finds the longest text for infinity or not-a-number, if there is one. -/
theorem parse_infnan_spec (s : List Byte) (hs : s ≠ []) :
    (∃ neg v t, LongestSpecial s neg v t ∧ parse_infnan s = .ok (some (toInfNan neg v, t.length))) ∨
    (parse_infnan s = .ok none ∧ ∀ neg v t, IsSignedSpecial neg v t → ¬ t <+: s) := by
  cases s with
  | nil => exact absurd rfl hs
  | cons c tl =>
    have hbody : parse_infnan (c :: tl) =
        infnan_body (c :: tl) (decide (c = ch '-')) (if c = ch '-' then [ch '-'] else ([] : List Byte)).length := by
      unfold parse_infnan infnan_body
      have h0 : rd (c :: tl) 0 = .ok c := rfl
      rw [h0]
      by_cases hc : c = ch '-' <;> simp [hc]
    have happ : c :: tl = (if c = ch '-' then [ch '-'] else ([] : List Byte)) ++ (if c = ch '-' then tl else c :: tl) := by
      by_cases hc : c = ch '-' <;> simp [hc]
    rw [hbody]
    rcases infnan_body_spec (c :: tl) _ _ (decide (c = ch '-')) happ with ⟨v, w, h1, h2, h3, h4⟩ | ⟨h1, h2⟩
    · left
      refine ⟨decide (c = ch '-'), v, (if c = ch '-' then [ch '-'] else []) ++ w, ⟨⟨w, h1, by simp⟩, ?_, ?_⟩, ?_⟩
      · conv_rhs => rw [happ]
        exact (List.prefix_append_right_inj _).mpr h2
      · intro neg' v' t' ht hp
        obtain ⟨e1, w', e2, e3, e4⟩ := signed_special_prefix ht hp
        have := h3 v' w' e2 e4
        rw [e3, e1, List.length_append, List.length_append]
        simp only [decide_eq_true_eq]
        omega
      · rw [h4, List.length_append]
    · right
      refine ⟨h1, ?_⟩
      intro neg' v' t' ht hp
      obtain ⟨e1, w', e2, e3, e4⟩ := signed_special_prefix ht hp
      exact h2 v' w' e2 e4

end Utki.FastFloat
