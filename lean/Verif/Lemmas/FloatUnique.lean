import Verif.Lemmas.FloatFrom
import Verif.Lemmas.FloatSpecial
/-!
# A text is read in one way only

Helper lemmas.
-/
namespace Utki.FastFloat

open Utki Utki.Spec Utki.Spec.BinFmt

theorem digits_split {a a' r r' : List Byte} (ha : AllDigits a) (ha' : AllDigits a') (hr : ∀ c ∈ r.head?, ¬ DecDigit c)
    (hr' : ∀ c ∈ r'.head?, ¬ DecDigit c) (h : a ++ r = a' ++ r') : a = a' ∧ r = r' := by
  have stop : ∀ {r : List Byte}, (∀ c ∈ r.head?, ¬ DecDigit c) → tw r = [] := by
    intro r hr
    cases r with
    | nil => rfl
    | cons c r =>
      have : ¬ is_integer c = true := fun hc => hr c rfl ((is_integer_iff c).1 hc)
      unfold tw
      rw [List.takeWhile_cons, if_neg this]
  have e1 := tw_append (b := r) ha
  have e2 := tw_append (b := r') ha'
  rw [stop hr, List.append_nil] at e1
  rw [stop hr', List.append_nil] at e2
  have : a = a' := by rw [← e1, ← e2, h]
  subst this
  exact ⟨rfl, List.append_cancel_left h⟩

theorem exp_text_head {o : Option ExpPart} (hw : ∀ e ∈ o, e.WF) : ∀ c ∈ (o.elim [] ExpPart.text).head?, ¬ DecDigit c ∧ c ≠ ch '.' ∧ c ≠ ch '-' := by
  intro c hc
  cases o with
  | none => cases hc
  | some e =>
    simp only [Option.elim, ExpPart.text, List.head?_cons, Option.mem_some_iff] at hc
    subst hc
    rcases (hw e rfl).1 with h | h <;> rw [h] <;> decide

theorem exp_text_inj {o o' : Option ExpPart} (hw : ∀ e ∈ o, e.WF) (hw' : ∀ e ∈ o', e.WF)
    (h : o.elim [] ExpPart.text = o'.elim [] ExpPart.text) : o = o' := by
  have dig : ∀ {e : ExpPart}, e.WF → ∀ x, e.sign = some x → ¬ DecDigit x := by
    intro e he x hx
    rcases he.2.1 x hx with h | h <;> rw [h] <;> decide
  have head : ∀ {e : ExpPart}, e.WF → ∃ x t, e.digits = x :: t ∧ DecDigit x := by
    intro e he
    cases hd : e.digits with
    | nil => exact absurd hd he.2.2.2
    | cons x t => exact ⟨x, t, rfl, he.2.2.1 x (by rw [hd]; exact List.mem_cons_self)⟩
  cases o with
  | none =>
    cases o' with
    | none => rfl
    | some e' => simp [ExpPart.text] at h
  | some e =>
    cases o' with
    | none => simp [ExpPart.text] at h
    | some e' =>
      have we := hw e rfl
      have we' := hw' e' rfl
      obtain ⟨x, t, hx, hxd⟩ := head we
      obtain ⟨x', t', hx', hxd'⟩ := head we'
      have ds := dig we
      have ds' := dig we'
      obtain ⟨l, s, d⟩ := e
      obtain ⟨l', s', d'⟩ := e'
      simp only at hx hx' ds ds'
      subst hx hx'
      simp only [Option.elim, ExpPart.text, List.cons.injEq] at h
      obtain ⟨rfl, h⟩ := h
      cases s with
      | none =>
        cases s' with
        | none =>
          simp only [Option.toList_none, List.nil_append] at h
          rw [h]
        | some y =>
          simp only [Option.toList_none, Option.toList_some, List.nil_append, List.cons_append, List.cons.injEq] at h
          exact absurd (h.1 ▸ hxd) (ds' y rfl)
      | some y =>
        cases s' with
        | none =>
          simp only [Option.toList_none, Option.toList_some, List.nil_append, List.cons_append, List.cons.injEq] at h
          exact absurd (h.1 ▸ hxd') (ds y rfl)
        | some y' =>
          simp only [Option.toList_some, List.nil_append, List.cons_append, List.cons.injEq] at h
          obtain ⟨rfl, h1, h2⟩ := h
          rw [h1, h2]

/-- The character a literal begins with. -/
theorem literal_head {fmt : NumFormat} {d : DecLit} (hw : d.WF fmt) :
    ∃ c t, d.text = signText d.neg ++ c :: t ∧ (DecDigit c ∨ c = ch '.') := by
  obtain ⟨hd, hne, -, -⟩ := hw
  rw [text_eq]
  cases hi : d.int with
  | cons c t =>
    refine ⟨c, t ++ (fracText d.frac ++ d.exp.elim [] ExpPart.text), by simp, .inl ?_⟩
    apply hd
    unfold DecLit.digits
    rw [hi]
    simp
  | nil =>
    cases hf : d.frac with
    | none =>
      exfalso
      apply hne
      unfold DecLit.digits DecLit.fdigits
      rw [hi, hf]
      rfl
    | some f => exact ⟨ch '.', f ++ d.exp.elim [] ExpPart.text, by simp [fracText], .inr rfl⟩

theorem digit_ne_minus {c : Byte} (h : DecDigit c ∨ c = ch '.') : c ≠ ch '-' := by
  rintro rfl
  revert h
  decide

/-- Two literals written in the same way are the same. -/
theorem text_inj {fmt : NumFormat} {d d' : DecLit} (hw : d.WF fmt) (hw' : d'.WF fmt) (h : d.text = d'.text) : d = d' := by
  obtain ⟨c, t, h1, h2⟩ := literal_head hw
  obtain ⟨c', t', h1', h2'⟩ := literal_head hw'
  have hneg : d.neg = d'.neg := by
    rw [h1, h1'] at h
    have m1 := digit_ne_minus h2
    have m2 := digit_ne_minus h2'
    cases hn : d.neg <;> cases hn' : d'.neg <;> rw [hn, hn'] at h <;> (try rfl)
    · simp [signText] at h
      exact absurd h.1 m1
    · simp [signText] at h
      exact absurd h.1.symm m2
  rw [text_eq, text_eq, hneg] at h
  simp only [List.append_assoc] at h
  replace h := List.append_cancel_left h
  obtain ⟨hd, -, he, -⟩ := hw
  obtain ⟨hd', -, he', -⟩ := hw'
  have ew : ∀ e ∈ d.exp, e.WF := fun e h => (he e h).1
  have ew' : ∀ e ∈ d'.exp, e.WF := fun e h => (he' e h).1
  have xh := exp_text_head ew
  have xh' := exp_text_head ew'
  have fh : ∀ (f : Option (List Byte)) (o : Option ExpPart), (∀ c ∈ (o.elim [] ExpPart.text).head?, ¬ DecDigit c ∧ c ≠ ch '.' ∧ c ≠ ch '-') →
      ∀ c ∈ (fracText f ++ o.elim [] ExpPart.text).head?, ¬ DecDigit c := by
    intro f o ho c hc
    cases f with
    | none => exact (ho c hc).1
    | some f =>
      simp only [fracText, List.cons_append, List.head?_cons, Option.mem_some_iff] at hc
      subst hc
      decide
  have hi : AllDigits d.int := fun c hc => hd c (List.mem_append_left _ hc)
  have hi' : AllDigits d'.int := fun c hc => hd' c (List.mem_append_left _ hc)
  have hf : AllDigits d.fdigits := fun c hc => hd c (List.mem_append_right _ hc)
  have hf' : AllDigits d'.fdigits := fun c hc => hd' c (List.mem_append_right _ hc)
  obtain ⟨hint, h'⟩ := digits_split hi hi' (fh _ _ xh) (fh _ _ xh') h
  clear h
  rename' h' => h
  obtain ⟨n, i, f, e⟩ := d
  obtain ⟨n', i', f', e'⟩ := d'
  simp only [DecLit.fdigits] at *
  subst hneg hint
  cases f with
  | none =>
    cases f' with
    | none =>
      simp only [fracText, List.nil_append] at h
      rw [exp_text_inj ew ew' h]
    | some g =>
      simp only [fracText, List.nil_append, List.cons_append] at h
      exact absurd rfl (xh (ch '.') (by rw [h]; rfl)).2.1
  | some g =>
    cases f' with
    | none =>
      simp only [fracText, List.nil_append, List.cons_append] at h
      exact absurd rfl (xh' (ch '.') (by rw [← h]; rfl)).2.1
    | some g' =>
      simp only [fracText, List.cons_append, List.cons.injEq, true_and, Option.getD_some] at h hf hf'
      obtain ⟨rfl, h'⟩ := digits_split hf hf' (fun c hc => (xh c hc).1) (fun c hc => (xh' c hc).1) h
      rw [exp_text_inj ew ew' h']

/-- The longest literal is unique. -/
theorem longest_unique {fmt : NumFormat} {s : List Byte} {d d' : DecLit} (h : LongestLiteral fmt s d) (h' : LongestLiteral fmt s d') : d = d' := by
  have e : d.text.length = d'.text.length := le_antisymm (h'.2.2 d h.1 h.2.1) (h.2.2 d' h'.1 h'.2.1)
  obtain ⟨z, hz⟩ := h.2.1
  obtain ⟨z', hz'⟩ := h'.2.1
  exact text_inj h.1 h'.1 (List.append_inj (hz.trans hz'.symm) e).1

/-- The letter it begins with. -/
def specialLetter : Special → Byte
  | .inf => ch 'i'
  | .nan => ch 'n'

theorem special_head_letter {v : Special} {w : List Byte} (h : IsSpecial v w) :
    ∃ c t, w = c :: t ∧ ¬ (DecDigit c ∨ c = ch '.') ∧ c ≠ ch '-' ∧ (asciiLower c = ch 'i' ↔ v = .inf) := by
  have hm := special_ne_minus h
  obtain ⟨h1, h2⟩ := special_head h
  cases w with
  | nil => simp at h1
  | cons c t =>
    have h3 : asciiLower c = specialLetter v := by
      unfold IsWord at h2
      rw [List.take_succ_cons, List.map_cons] at h2
      have h3 := congrArg List.head? h2
      rw [List.head?_cons] at h3
      cases v
      · rw [show (str (specialWord .inf)).head? = some (ch 'i') by decide] at h3
        exact Option.some.inj h3
      · rw [show (str (specialWord .nan)).head? = some (ch 'n') by decide] at h3
        exact Option.some.inj h3
    refine ⟨c, t, rfl, ?_, fun hc => hm (by rw [hc]; rfl), ?_⟩
    · rintro (hd | rfl)
      · unfold DecDigit at hd
        have : asciiLower c = c := by unfold asciiLower; rw [if_neg (by omega)]
        rw [this] at h3
        rw [h3] at hd
        cases v <;> revert hd <;> decide
      · cases v <;> revert h3 <;> decide
    · rw [h3]
      cases v <;> decide

/-- What begins like infinity or not-a-number is not a literal. -/
theorem special_not_literal {fmt : NumFormat} {s : List Byte} {neg : Bool} {v : Special} {t : List Byte} (h : IsSignedSpecial neg v t)
    (hp : t <+: s) (d : DecLit) (hd : d.WF fmt) : ¬ d.text <+: s := by
  intro hq
  obtain ⟨w, hw, rfl⟩ := h
  obtain ⟨c, t, h1, h2, h3, -⟩ := special_head_letter hw
  obtain ⟨c', t', h1', h2'⟩ := literal_head hd
  have h3' := digit_ne_minus h2'
  obtain ⟨z, rfl⟩ := hp
  obtain ⟨z', hz⟩ := hq
  rw [h1, h1'] at hz
  cases neg <;> cases hn : d.neg <;> rw [hn] at hz <;> simp [signText] at hz
  · exact h2 (hz.1 ▸ h2')
  · exact h3 hz.1.symm
  · exact h3' hz.1
  · exact h2 (hz.1 ▸ h2')

theorem longest_special_unique {s : List Byte} {neg neg' : Bool} {v v' : Special} {t t' : List Byte} (h : LongestSpecial s neg v t)
    (h' : LongestSpecial s neg' v' t') : neg = neg' ∧ v = v' ∧ t = t' := by
  have e : t.length = t'.length := le_antisymm (h'.2.2 _ _ _ h.1 h.2.1) (h.2.2 _ _ _ h'.1 h'.2.1)
  obtain ⟨z, hz⟩ := h.2.1
  obtain ⟨z', hz'⟩ := h'.2.1
  have ht := (List.append_inj (hz.trans hz'.symm) e).1
  obtain ⟨w, hw, e1⟩ := h.1
  obtain ⟨w', hw', e1'⟩ := h'.1
  obtain ⟨c, r, h1, h2, h3, h4⟩ := special_head_letter hw
  obtain ⟨c', r', h1', h2', h3', h4'⟩ := special_head_letter hw'
  have hcc : neg = neg' ∧ c = c' := by
    rw [e1, e1', h1, h1'] at ht
    cases neg <;> cases neg' <;> simp at ht
    · exact ⟨rfl, ht.1⟩
    · exact absurd ht.1 h3
    · exact absurd ht.1.symm h3'
    · exact ⟨rfl, ht.1⟩
  refine ⟨hcc.1, ?_, ht⟩
  obtain ⟨-, rfl⟩ := hcc
  have : v = .inf ↔ v' = .inf := h4.symm.trans h4'
  cases v <;> cases v' <;> simp_all

/-- The constants of a format, all together. -/
structure FmtAll [Platform] (b : Format) (f : BinFmt) : Prop where
  ok : FmtOK b f
  ok2 : FmtOK2 b f
  ok3 : FmtOK3 b f
  ok4 : FmtOK4 b f

theorem fmtDouble_all [Platform] : FmtAll fmtDouble binary64 := ⟨fmtDouble_ok, fmtDouble_ok2, fmtDouble_ok3, fmtDouble_ok4⟩
theorem fmtFloat_all [Platform] : FmtAll fmtFloat binary32 := ⟨fmtFloat_ok, fmtFloat_ok2, fmtFloat_ok3, fmtFloat_ok4⟩

/-- A literal at the beginning. -/
theorem from_chars_literal [Platform] {b : Format} {f : BinFmt} (F : FmtAll b f) {mode : RoundMode} {u : Fpu} (I : Ieee f mode u) {s : List Byte}
    {fmt : chars_format} {d : DecLit} (h : LongestLiteral (numFormat fmt) s d) :
    ∃ k, f.Nearest (decVal d.digits * 10 ^ (satExpD d - d.fdigits.length)) k ∧
      from_chars_advanced b u s fmt = .ok ⟨some (f.signed d.neg k), d.text.length,
        if k = f.inf ∨ (k = 0 ∧ decVal d.digits ≠ 0) then .result_out_of_range else .none⟩ := by
  obtain ⟨c, t, h1, -⟩ := literal_head h.1
  have hne : s ≠ [] := by
    rintro rfl
    have := h.2.1.length_le
    rw [h1] at this
    simp at this
  obtain ⟨r, hr, hcase⟩ := scan_spec fmt s hne
  rcases hcase with ⟨d', hd', Pr⟩ | ⟨-, hno⟩
  · have := longest_unique hd' h
    subst this
    obtain ⟨z, hz⟩ := hd'.2.1
    obtain ⟨k, k1, k2⟩ := from_chars_pns_spec F.ok F.ok2 F.ok3 F.ok4 I hd'.1.1 Pr hz.symm
    refine ⟨k, k1, ?_⟩
    unfold from_chars_advanced
    rw [if_neg (by simpa using hne), hr]
    simp only [Res.bind_eq, Res.ok_bind, Pr.valid, Bool.not_true, Bool.false_eq_true, if_false]
    exact k2
  · exact absurd h.2.1 (hno d h.1)

/-- A text for infinity or not-a-number at the beginning. -/
theorem from_chars_special [Platform] (b : Format) (u : Fpu) {s : List Byte} {fmt : chars_format} {neg : Bool} {v : Special} {t : List Byte}
    (h : LongestSpecial s neg v t) :
    from_chars_advanced b u s fmt = .ok ⟨some (special_value b (toInfNan neg v)), t.length, .none⟩ := by
  have hne : s ≠ [] := by
    rintro rfl
    have hl := h.2.1.length_le
    obtain ⟨w, hw, e⟩ := h.1
    have := (special_head hw).1
    rw [e, List.length_append] at hl
    simp at hl
    simp [hl.2] at this
  obtain ⟨r, hr, hcase⟩ := scan_spec fmt s hne
  rcases hcase with ⟨d', hd', Pr⟩ | ⟨hv, -⟩
  · exact absurd hd'.2.1 (special_not_literal h.1 h.2.1 d' hd'.1)
  · unfold from_chars_advanced
    rw [if_neg (by simpa using hne), hr]
    simp only [Res.bind_eq, Res.ok_bind, hv, Bool.not_false, if_true]
    rcases parse_infnan_spec s hne with ⟨neg', v', t', h1, h2⟩ | ⟨-, h2⟩
    · obtain ⟨rfl, rfl, rfl⟩ := longest_special_unique h h1
      rw [h2]
      rfl
    · exact absurd h.2.1 (h2 _ _ _ h.1)

/-- Neither of them. -/
theorem from_chars_invalid [Platform] (b : Format) (u : Fpu) {s : List Byte} {fmt : chars_format}
    (h1 : ∀ d : DecLit, d.WF (numFormat fmt) → ¬ d.text <+: s) (h2 : ∀ neg v t, IsSignedSpecial neg v t → ¬ t <+: s) :
    from_chars_advanced b u s fmt = .ok ⟨none, 0, .invalid_argument⟩ := by
  unfold from_chars_advanced
  by_cases hne : s = []
  · rw [hne]; rfl
  rw [if_neg (by simpa using hne)]
  obtain ⟨r, hr, hcase⟩ := scan_spec fmt s hne
  rcases hcase with ⟨d', hd', Pr⟩ | ⟨hv, -⟩
  · exact absurd hd'.2.1 (h1 d' hd'.1)
  · rw [hr]
    simp only [Res.bind_eq, Res.ok_bind, hv, Bool.not_false, if_true]
    rcases parse_infnan_spec s hne with ⟨neg', v', t', h3, -⟩ | ⟨h3, -⟩
    · exact absurd h3.2.1 (h2 _ _ _ h3.1)
    · rw [h3]
      rfl

/-- One of the three cases applies. -/
theorem from_chars_cases [Platform] (s : List Byte) (fmt : chars_format) :
    (∃ d, LongestLiteral (numFormat fmt) s d) ∨ (∃ neg v t, LongestSpecial s neg v t) ∨
    ((∀ d : DecLit, d.WF (numFormat fmt) → ¬ d.text <+: s) ∧ (∀ neg v t, IsSignedSpecial neg v t → ¬ t <+: s)) := by
  by_cases hne : s = []
  · subst hne
    right; right
    constructor
    · intro d hd hp
      obtain ⟨c, t, h, -⟩ := literal_head hd
      have := hp.length_le
      rw [h] at this
      simp at this
    · intro neg v t ht hp
      have hl := hp.length_le
      obtain ⟨w, hw, e⟩ := ht
      have := (special_head hw).1
      rw [e, List.length_append] at hl
      simp at hl
      simp [hl.2] at this
  obtain ⟨r, hr, hcase⟩ := scan_spec fmt s hne
  rcases hcase with ⟨d', hd', -⟩ | ⟨-, hno⟩
  · exact .inl ⟨d', hd'⟩
  · rcases parse_infnan_spec s hne with ⟨neg', v', t', h3, -⟩ | ⟨-, h3⟩
    · exact .inr (.inl ⟨_, _, _, h3⟩)
    · exact .inr (.inr ⟨hno, h3⟩)

theorem special_inf_eq [Platform] {b : Format} {f : BinFmt} (F : FmtAll b f) (neg : Bool) : special_value b (.inf neg) = f.signed neg f.inf := by
  simp only [special_value]
  rw [sign_xor (f := f) F.ok4 (by rw [F.ok2.emask]), F.ok2.emask]

end Utki.FastFloat
