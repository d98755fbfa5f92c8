import Verif.Lemmas.FloatGrammar
/-!
# The scanner takes the longest literal

The literal the scanner recognises is the longest beginning of the text that is a literal of the requested format, and it reports an error
only if no beginning is one.
-/
namespace Utki.FastFloat
open Spec

/-- What the format bits say about the exponent. -/
def numFormat (fmt : chars_format) : NumFormat :=
  ⟨decide (fmt &&& chars_format.scientific ≠ 0), decide (fmt &&& chars_format.scientific ≠ 0 ∧ fmt &&& chars_format.fixed = 0)⟩

theorem prefix_cases {a r t : List Byte} (ha : AllDigits a) (h : a ++ r <+: t) (hr : ∀ c ∈ r.head?, ¬ DecDigit c) :
    (a = tw t ∧ r <+: dw t) ∨ (r = [] ∧ a <+: tw t) := by
  obtain ⟨u, rfl⟩ := h
  cases r with
  | nil => exact Or.inr ⟨rfl, by rw [List.append_nil, tw_append ha]; exact List.prefix_append _ _⟩
  | cons c r =>
    left
    have hc : ¬ is_integer c = true := by rw [is_integer_iff]; exact hr c rfl
    rw [List.append_assoc, List.cons_append, tw_append ha, dw_append ha, tw_cons_neg hc, dw, List.dropWhile_cons_of_neg hc]
    exact ⟨(List.append_nil a).symm, List.prefix_append (c :: r) u⟩

theorem digits_prefix {a t : List Byte} (ha : AllDigits a) (h : a <+: t) : a <+: tw t := by
  obtain ⟨u, rfl⟩ := h
  rw [tw_append ha]
  exact List.prefix_append _ _

theorem exp_head {e : Option ExpPart} (he : ∀ x ∈ e, x.WF) : ∀ c ∈ (e.elim [] ExpPart.text).head?, c = ch 'e' ∨ c = ch 'E' := by
  cases e with
  | none => intro c hc; cases hc
  | some e =>
    intro c hc
    simp only [Option.elim, ExpPart.text, List.head?_cons, Option.mem_def, Option.some.injEq] at hc
    subst hc
    exact (he e rfl).1

theorem e_not_digit {c : Byte} (h : c = ch 'e' ∨ c = ch 'E') : ¬ DecDigit c := by
  rcases h with rfl | rfl <;> decide

theorem e_not_dot {c : Byte} (h : c = ch 'e' ∨ c = ch 'E') : c ≠ ch '.' := by
  rcases h with rfl | rfl <;> decide

/-- Any exponent part at the beginning of a text is at most as long as the one found. -/
theorem exp_le {e' : ExpPart} (he : e'.WF) {t : List Byte} (h : e'.text <+: t) :
    ∃ e, scanExp t = some e ∧ e'.text.length ≤ e.text.length := by
  obtain ⟨hl, hs, hd, hne⟩ := he
  obtain ⟨u, rfl⟩ := h
  have hkey : scanSign (e'.sign.toList ++ e'.digits ++ u) = e'.sign ∧ restSign (e'.sign.toList ++ e'.digits ++ u) = e'.digits ++ u := by
    cases hsg : e'.sign with
    | none =>
      simp only [Option.toList_none, List.nil_append]
      cases hdg : e'.digits with
      | nil => exact absurd hdg hne
      | cons c ds =>
        have hc : DecDigit c := hd c (by rw [hdg]; exact List.mem_cons_self)
        have : ¬ (c = ch '-' ∨ c = ch '+') := by
          rintro (rfl | rfl) <;> revert hc <;> decide
        simp [scanSign, restSign, this]
    | some c =>
      have hc : c = ch '-' ∨ c = ch '+' := (hs c hsg).symm
      simp [scanSign, restSign, hc]
  have htw : tw (e'.digits ++ u) ≠ [] := by
    rw [tw_append hd]
    intro h
    exact hne (List.append_eq_nil_iff.1 h).1
  refine ⟨⟨e'.letter, e'.sign, tw (e'.digits ++ u)⟩, ?_, ?_⟩
  · simp only [ExpPart.text, List.cons_append, scanExp, hkey.1, hkey.2, if_pos hl, if_neg htw]
  · simp only [ExpPart.text, List.length_cons, List.length_append]
    rw [tw_append hd, List.length_append]
    omega

theorem scanExp_wf {t : List Byte} {e : ExpPart} (h : scanExp t = some e) : e.WF ∧ e.text <+: t := by
  cases t with
  | nil => cases h
  | cons c t =>
    simp only [scanExp] at h
    split at h
    · rename_i hc
      split at h
      · cases h
      · rename_i hne
        cases h
        refine ⟨⟨hc, ?_, tw_digits _, hne⟩, ?_⟩
        · intro x hx
          cases t with
          | nil => cases hx
          | cons y t =>
            simp only [scanSign] at hx
            split at hx
            · rename_i hy
              simp only [Option.mem_def, Option.some.injEq] at hx
              subst hx
              exact hy.symm
            · cases hx
        · simp only [ExpPart.text]
          conv_rhs => rw [← scanSign_text t, ← tw_dw (restSign t)]
          rw [List.cons_prefix_cons]
          refine ⟨rfl, ?_⟩
          rw [← List.append_assoc]
          exact List.prefix_append _ _
    · cases h

/-- The literal found is written at the beginning of the text. -/
theorem litOf_prefix (fmt : chars_format) (s : List Byte) : (litOf fmt s).text <+: s := by
  rw [text_eq]
  conv_rhs => rw [← body_text s, ← tw_dw (body s), ← scanFrac_text (dw (body s))]
  simp only [litOf, List.append_assoc]
  rw [List.prefix_append_right_inj, List.prefix_append_right_inj, List.prefix_append_right_inj]
  unfold scanExpF
  split
  · cases h : scanExp (restFrac (dw (body s))) with
    | none => exact List.nil_prefix
    | some e => exact (scanExp_wf h).2
  · exact List.nil_prefix

theorem litOf_wf {fmt : chars_format} {s : List Byte} (h : Accept fmt (litOf fmt s)) : (litOf fmt s).WF (numFormat fmt) := by
  refine ⟨allDigits_append (tw_digits _) (frac_digits _), h.1, ?_, ?_⟩
  · intro e he
    simp only [litOf, scanExpF, Option.mem_def] at he
    split at he
    · rename_i hs
      exact ⟨(scanExp_wf he).1, by simpa [numFormat] using hs⟩
    · cases he
  · intro hm
    apply h.2
    simpa [numFormat] using hm

/-- Any literal of the format at the beginning of the text is at most as long as the one found. -/
theorem literal_le {fmt : chars_format} {s : List Byte} {d : DecLit} (hw : d.WF (numFormat fmt)) (hp : d.text <+: s) :
    Accept fmt (litOf fmt s) ∧ d.text.length ≤ (litOf fmt s).text.length := by
  obtain ⟨hdig, hne, hexp, hmust⟩ := hw
  have hew : ∀ x ∈ d.exp, x.WF := fun x hx => (hexp x hx).1
  rw [text_eq] at hp
  have hmust' : d.exp = none → ¬ (fmt &&& chars_format.scientific ≠ 0 ∧ fmt &&& chars_format.fixed = 0) := by
    intro h0 hc
    exact hmust (by simpa [numFormat] using hc) h0
  -- the sign
  have hsign : decide (s.head? = some (ch '-')) = d.neg ∧ d.int ++ (fracText d.frac ++ d.exp.elim [] ExpPart.text) <+: body s := by
    cases hn : d.neg with
    | true =>
      rw [hn] at hp
      simp only [signText, if_true, List.append_assoc, List.singleton_append] at hp
      obtain ⟨u, rfl⟩ := hp
      refine ⟨by simp, ?_⟩
      simp only [List.cons_append, body, if_true]
      exact List.prefix_append _ _
    | false =>
      rw [hn] at hp
      simp only [signText, Bool.false_eq_true, if_false, List.nil_append, List.append_assoc] at hp
      have hfirst : ∃ c t, d.int ++ (fracText d.frac ++ d.exp.elim [] ExpPart.text) = c :: t ∧ c ≠ ch '-' := by
        cases hi : d.int with
        | cons c t =>
          refine ⟨c, _, rfl, ?_⟩
          have : DecDigit c := hdig c (by unfold DecLit.digits; rw [hi]; exact List.mem_append_left _ List.mem_cons_self)
          rintro rfl
          revert this; decide
        | nil =>
          cases hf : d.frac with
          | none => exact absurd (by unfold DecLit.digits DecLit.fdigits; rw [hi, hf]; rfl) hne
          | some f => exact ⟨ch '.', _, rfl, by decide⟩
      obtain ⟨c, t, hct, hc⟩ := hfirst
      have hb : body s = s ∧ s.head? ≠ some (ch '-') := by
        rw [hct] at hp
        obtain ⟨u, rfl⟩ := hp
        simp [body, hc]
      rw [hb.1]
      exact ⟨by simpa using hb.2, hp⟩
  obtain ⟨hneg, hb⟩ := hsign
  have hnd : ∀ c ∈ (fracText d.frac ++ d.exp.elim [] ExpPart.text).head?, ¬ DecDigit c := by
    intro c hc
    cases hf : d.frac with
    | none => rw [hf] at hc; exact e_not_digit (exp_head hew c hc)
    | some f =>
      rw [hf] at hc
      simp only [fracText, List.cons_append, List.head?_cons, Option.mem_def, Option.some.injEq] at hc
      subst hc; decide
  -- it suffices to compare the parts
  suffices hparts : (tw (body s) ++ (scanFrac (dw (body s))).getD [] ≠ []) ∧
      (d.exp ≠ none → scanExpF fmt (restFrac (dw (body s))) ≠ none) ∧
      d.int.length + ((fracText d.frac).length + (d.exp.elim [] ExpPart.text).length) ≤
        (tw (body s)).length + ((fracText (scanFrac (dw (body s)))).length +
          ((scanExpF fmt (restFrac (dw (body s)))).elim [] ExpPart.text).length) by
    obtain ⟨p1, p2, p3⟩ := hparts
    refine ⟨⟨p1, ?_⟩, ?_⟩
    · intro hc
      exact p2 fun h0 => hmust' h0 hc
    · rw [text_eq, text_eq]
      simp only [litOf, hneg, List.length_append]
      omega
  have hmayexp : ∀ e, d.exp = some e → ∀ t, scanExpF fmt t = scanExp t := by
    intro e he t
    have := (hexp e he).2
    simp only [numFormat, decide_eq_true_eq] at this
    rw [scanExpF, if_pos this]
  -- the exponent, once the digits before it agree
  have hexpcase : ∀ t, d.exp.elim [] ExpPart.text <+: t → (d.exp ≠ none → scanExpF fmt t ≠ none) ∧
      (d.exp.elim [] ExpPart.text).length ≤ ((scanExpF fmt t).elim [] ExpPart.text).length := by
    intro t ht
    cases he : d.exp with
    | none => exact ⟨fun h => absurd rfl h, Nat.zero_le _⟩
    | some e =>
      rw [he] at ht
      obtain ⟨e1, h1, h2⟩ := exp_le (hew e he) ht
      rw [hmayexp e he, h1]
      exact ⟨fun _ => Option.some_ne_none _, h2⟩
  rcases prefix_cases (allDigits_left hdig) hb hnd with ⟨hi, hr⟩ | ⟨hr, hi⟩
  · cases hf : d.frac with
    | some f =>
      rw [hf] at hr
      have hfd : AllDigits f := by
        have := allDigits_right hdig
        unfold DecLit.fdigits at this
        rwa [hf] at this
      have hdf : d.fdigits = f := by unfold DecLit.fdigits; rw [hf]; rfl
      simp only [fracText, List.cons_append] at hr
      -- the decimal point
      obtain ⟨T, hT⟩ : ∃ T, dw (body s) = ch '.' :: T := by
        obtain ⟨u, hu⟩ := hr
        exact ⟨_, hu.symm⟩
      rw [hT, List.cons_prefix_cons] at hr
      rw [hT]
      simp only [scanFrac, restFrac, if_true, Option.getD_some, fracText, List.length_cons]
      have hne' : tw (body s) ++ f ≠ [] := by
        intro h0
        apply hne
        unfold DecLit.digits
        rw [hi, hdf]; exact h0
      rcases prefix_cases hfd hr.2 (fun c hc => e_not_digit (exp_head hew c hc)) with ⟨hf2, hr2⟩ | ⟨hr2, hf2⟩
      · obtain ⟨x1, x2⟩ := hexpcase _ hr2
        refine ⟨by rw [← hf2]; exact hne', x1, ?_⟩
        rw [hi, hf2]
        omega
      · have hl := hf2.length_le
        have hx : d.exp = none := by
          cases hx : d.exp with
          | none => rfl
          | some e => rw [hx] at hr2; simp [ExpPart.text] at hr2
        refine ⟨?_, fun h => absurd hx h, ?_⟩
        · intro h0
          obtain ⟨h1, h2⟩ := List.append_eq_nil_iff.1 h0
          rw [h2] at hf2
          exact hne' (by rw [h1, List.prefix_nil.1 hf2]; rfl)
        · rw [hi, hr2]
          simp only [List.length_nil]
          omega
    | none =>
      rw [hf] at hr
      simp only [fracText, List.nil_append, List.length_nil] at hr ⊢
      have hne' : d.int ≠ [] := by
        intro h0
        apply hne
        unfold DecLit.digits DecLit.fdigits
        rw [h0, hf]; rfl
      have p1 : ∀ x, tw (body s) ++ x ≠ [] := by
        intro x h0
        rw [hi] at hne'
        exact hne' (List.append_eq_nil_iff.1 h0).1
      cases he : d.exp with
      | none =>
        refine ⟨p1 _, fun h => absurd rfl h, ?_⟩
        rw [hi]
        simp only [Option.elim, List.length_nil]
        omega
      | some e =>
        obtain ⟨c, T, hT, hc⟩ : ∃ c T, dw (body s) = c :: T ∧ (c = ch 'e' ∨ c = ch 'E') := by
          rw [he] at hr
          obtain ⟨u, hu⟩ := hr
          exact ⟨e.letter, _, hu.symm, (hew e he).1⟩
        have hs1 : scanFrac (dw (body s)) = none := by
          rw [hT]; simp only [scanFrac, if_neg (e_not_dot hc)]
        have hs2 : restFrac (dw (body s)) = dw (body s) := by
          rw [hT]; simp only [restFrac, if_neg (e_not_dot hc)]
        rw [hs1, hs2]
        obtain ⟨x1, x2⟩ := hexpcase _ hr
        rw [he] at x1 x2
        refine ⟨p1 _, x1, ?_⟩
        rw [hi]
        simp only [List.length_nil]
        omega
  · obtain ⟨hr1, hr2⟩ := List.append_eq_nil_iff.1 hr
    have hf : d.frac = none := by
      cases hf : d.frac with
      | none => rfl
      | some f => rw [hf] at hr1; cases hr1
    have hx : d.exp = none := by
      cases hx : d.exp with
      | none => rfl
      | some e => rw [hx] at hr2; simp [ExpPart.text] at hr2
    have hl := hi.length_le
    refine ⟨?_, fun h => absurd hx h, ?_⟩
    · intro h0
      rw [(List.append_eq_nil_iff.1 h0).1] at hi
      apply hne
      unfold DecLit.digits DecLit.fdigits
      rw [List.prefix_nil.1 hi, hf]; rfl
    · rw [hr1, hr2]
      simp only [List.length_nil]
      omega

/-- The scan of any text: it ends without a read outside of it; it finds the longest literal, or reports an error if there is none. -/
theorem scan_spec [Platform] (fmt : chars_format) (s : List Byte) (hs : s ≠ []) :
    ∃ r, parse_number_string s fmt = .ok r ∧
      ((∃ d, LongestLiteral (numFormat fmt) s d ∧ Parsed r d) ∨
       (r.valid = false ∧ ∀ d : DecLit, d.WF (numFormat fmt) → ¬ d.text <+: s)) := by
  obtain ⟨r, h1, h2, h3⟩ := parse_number_string_eq fmt s hs
  refine ⟨r, h1, ?_⟩
  by_cases ha : Accept fmt (litOf fmt s)
  · exact Or.inl ⟨litOf fmt s, ⟨litOf_wf ha, litOf_prefix fmt s, fun d' hd hp => (literal_le hd hp).2⟩, h2 ha⟩
  · exact Or.inr ⟨h3 ha, fun d hd hp => ha (literal_le hd hp).1⟩

end Utki.FastFloat
