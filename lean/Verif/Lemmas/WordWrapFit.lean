import Verif.Lemmas.WordWrap
import Verif.Spec.Strings
/-!
# Lemmas about `word_wrap`: paragraphs that fit, and texts whose words are not divided
-/
namespace Utki
open Spec

theorem pos_of_ne {w : BitVec 32} (h : w ≠ 0) : 0 < w.toNat := by
  rcases Nat.eq_zero_or_pos w.toNat with h' | h'
  · exact absurd (BitVec.eq_of_toNat_eq (by simpa using h')) h
  · exact h'

/-! ## The builds agree -/

theorem wwBreak_builds (dbg : Bool) (width : BitVec 32) (hw0 : 0 < width.toNat) (s : List Byte) (i : Nat) (hi : i < s.length) (st : Ww)
    (h : WwInv width.toNat s i st) (hd : i - st.lb = width.toNat) : wwBreak dbg s i st = wwBreak false s i st := by
  cases dbg with
  | false => rfl
  | true =>
    have hlt : st.sb < i := by
      rcases Nat.lt_or_ge st.sb i with h' | h'
      · exact h'
      · have := h.fresh (by have := h.hsb; omega); omega
    have hg : s[st.sb]? = some s[st.sb] := List.getElem?_eq_getElem (by omega)
    unfold wwBreak
    simp only [Res.bind_eq, rd_get? s st.sb _ hg, Res.ok_bind]
    by_cases hc : s[st.sb] = ch ' '
    · rw [if_pos hc, if_pos hc]
    · rw [if_neg hc, if_neg hc]
      have hns : s[st.sb]? ≠ some (ch ' ') := by rw [hg]; simpa using hc
      obtain ⟨a1, a2, a3⟩ := h.word hlt hns
      cases hwe : st.we with
      | false => rfl
      | true =>
        obtain ⟨b1, b2⟩ := a3 hwe
        simp only [if_true]
        rw [show decide ((st.sb : Int) - st.lb ≥ 1) = true by simp; omega, ASSERT_true, ASSERT_true]

theorem wwStep_builds (cpp20 dbg : Bool) (width : BitVec 32) (hw0 : 0 < width.toNat) (s : List Byte) (i : Nat) (hi : i < s.length)
    (st : Ww) (h : WwInv width.toNat s i st) : wwStep cpp20 dbg width s i st = wwStep true false width s i st := by
  unfold wwStep
  have hlb := h.hlb
  simp only [show decide ((i : Int) - st.lb ≥ 0) = true by simp; omega, ASSERT_true, Res.bind_eq, Res.ok_bind, rd_eq_ok hi]
  have hde := distEq_iff cpp20 i st.lb width h.hlb h.hw
  have hdt := distEq_iff true i st.lb width h.hlb h.hw
  by_cases hb : s[i] ≠ ch '\n' ∧ i - st.lb = width.toNat
  · rw [if_pos (by exact ⟨hb.1, hde.mpr hb.2⟩), if_pos (by exact ⟨hb.1, hdt.mpr hb.2⟩), wwBreak_builds dbg width hw0 s i hi st h hb.2]
  · rw [if_neg (fun h' => hb ⟨h'.1, hde.mp h'.2⟩), if_neg (fun h' => hb ⟨h'.1, hdt.mp h'.2⟩)]

theorem wwLoop_builds (cpp20 dbg : Bool) (width : BitVec 32) (hw0 : 0 < width.toNat) (s : List Byte) (fuel i : Nat)
    (hi : i + fuel = s.length) (st : Ww) (h : WwInv width.toNat s i st) :
    wwLoop cpp20 dbg width s fuel i st = wwLoop true false width s fuel i st := by
  induction fuel generalizing i st with
  | zero => unfold wwLoop; rw [if_pos (by omega)]
  | succ fuel ih =>
    unfold wwLoop
    rw [if_neg (by omega), if_neg (by omega)]
    obtain ⟨st', e1, e2⟩ := wwStep_inv cpp20 dbg width hw0 s i (by omega) st h
    have e3 := wwStep_builds cpp20 dbg width hw0 s i (by omega) st h
    simp only [Res.bind_eq, ← e3, e1, Res.ok_bind]
    exact ih (i + 1) (by omega) st' e2

theorem word_wrap_builds (cpp20 dbg : Bool) (s : List Byte) (width : BitVec 32) :
    word_wrap cpp20 dbg s width = word_wrap true false s width := by
  unfold word_wrap
  by_cases h : width = 0
  · rw [if_pos h, if_pos h]
  · rw [if_neg h, if_neg h, wwLoop_builds cpp20 dbg width (pos_of_ne h) s s.length 0 (by omega) _ (wwInv_init _ s)]

/-! ## Paragraphs that fit -/

/-- Without a newline and without reaching the width the line goes on. -/
theorem wwStep_stay (cpp20 dbg : Bool) (width : BitVec 32) (s : List Byte) (i : Nat) (hi : i < s.length) (st st' : Ww)
    (h : WwInv width.toNat s i st) (hn : s[i] ≠ ch '\n') (hd : i - st.lb < width.toNat)
    (he : wwStep cpp20 dbg width s i st = .ok st') : st'.lb = st.lb ∧ st'.ret = st.ret := by
  unfold wwStep at he
  have hlb := h.hlb
  have hsb := h.hsb
  have hde := distEq_iff cpp20 i st.lb width h.hlb h.hw
  rw [show decide ((i : Int) - st.lb ≥ 0) = true by simp; omega, ASSERT_true, Res.bind_eq, Res.ok_bind, Res.bind_eq,
    rd_eq_ok hi, Res.ok_bind, if_neg (fun hb => by have := hde.mp hb.2; omega), Res.bind_eq, Res.pure_eq, Res.ok_bind] at he
  have hg : s[st.sb]? = some s[st.sb] := List.getElem?_eq_getElem (by omega)
  change wwChar s i s[i] st = .ok st' at he
  unfold wwChar at he
  by_cases hc : s[i] = ch ' '
  · rw [if_pos hc, Res.bind_eq, rd_get? s st.sb _ hg, Res.ok_bind] at he
    split at he <;> (cases he; exact ⟨rfl, rfl⟩)
  · rw [if_neg hc, if_neg hn, Res.bind_eq, rd_get? s st.sb _ hg, Res.ok_bind] at he
    split at he <;> (cases he; exact ⟨rfl, rfl⟩)

theorem wwLoop_par (cpp20 dbg : Bool) (width : BitVec 32) (hw0 : 0 < width.toNat) (s : List Byte) (n i : Nat)
    (hb : i + n ≤ s.length) (st : Ww) (h : WwInv width.toNat s i st)
    (hn : ∀ k, i ≤ k → k < i + n → s[k]? ≠ some (ch '\n')) (hfit : i + n - st.lb ≤ width.toNat)
    (hf : st.lb = i → st.sb = i) :
    ∃ st', wwLoop cpp20 dbg width s (s.length - i) i st = wwLoop cpp20 dbg width s (s.length - (i + n)) (i + n) st' ∧
      WwInv width.toNat s (i + n) st' ∧ st'.lb = st.lb ∧ st'.ret = st.ret ∧ (st'.lb = i + n → st'.sb = i + n) := by
  induction n generalizing i st with
  | zero => exact ⟨st, rfl, h, rfl, rfl, hf⟩
  | succ n ih =>
    obtain ⟨st1, e1, e2⟩ := wwStep_inv cpp20 dbg width hw0 s i (by omega) st h
    have hlb := h.hlb
    obtain ⟨e3, e4⟩ := wwStep_stay cpp20 dbg width s i (by omega) st st1 h
      (by intro hc; exact hn i (by omega) (by omega) (by rw [List.getElem?_eq_getElem (by omega), hc])) (by omega) e1
    obtain ⟨st2, f1, f2, f3, f4, _⟩ := ih (i + 1) (by omega) st1 e2 (fun k hk hk' => hn k (by omega) (by omega)) (by omega) (by omega)
    rw [show i + 1 + n = i + (n + 1) by omega] at f1 f2
    refine ⟨st2, ?_, f2, by omega, by rw [f4, e4], by omega⟩
    rw [← f1, show s.length - i = (s.length - (i + 1)) + 1 by omega]
    conv => lhs; unfold wwLoop
    rw [if_neg (by omega)]
    simp only [Res.bind_eq, e1, Res.ok_bind]

/-- At a newline the line is emitted. -/
theorem wwStep_nl (cpp20 dbg : Bool) (width : BitVec 32) (s : List Byte) (i : Nat) (hi : i < s.length) (st : Ww)
    (h : WwInv width.toNat s i st) (hn : s[i] = ch '\n') :
    wwStep cpp20 dbg width s i st =
      .ok { lb := i + 1, sb := i + 1, we := false, ret := st.ret ++ [(s.drop st.lb).take (i - st.lb)] } := by
  have hlb := h.hlb
  have hw := h.hw
  have hW := width.isLt
  unfold wwStep
  rw [show decide ((i : Int) - st.lb ≥ 0) = true by simp; omega, ASSERT_true, Res.bind_eq, Res.ok_bind, Res.bind_eq,
    rd_eq_ok hi, Res.ok_bind, if_neg (fun hb => hb.1 hn), Res.bind_eq, Res.pure_eq, Res.ok_bind]
  change wwChar s i s[i] st = _
  unfold wwChar
  rw [if_neg (by rw [hn]; exact nl_ne_space), if_pos hn, Res.bind_eq, substr_piece s st.lb i (by omega) (by omega) (by omega), Res.ok_bind,
    Res.pure_eq]

theorem wwLoop_pars (cpp20 dbg : Bool) (width : BitVec 32) (hw0 : 0 < width.toNat) (s : List Byte) (ps : List (List Byte))
    (last : List Byte) (i : Nat) (st : Ww) (h : WwInv width.toNat s i st) (hlb : st.lb = i) (hf : st.sb = i) (hi : i ≤ s.length)
    (hs : s.drop i = (ps.flatMap fun p => p ++ [ch '\n']) ++ last)
    (hps : ∀ p ∈ ps, ch '\n' ∉ p ∧ p.length ≤ width.toNat) (hl : ch '\n' ∉ last ∧ last.length ≤ width.toNat) :
    ∃ st', wwLoop cpp20 dbg width s (s.length - i) i st = .ok st' ∧ WwInv width.toNat s s.length st' ∧
      s.drop st'.lb = last ∧ st'.ret = st.ret ++ ps ∧ (st'.lb = s.length → st'.sb = s.length) := by
  induction ps generalizing i st with
  | nil =>
    simp only [List.flatMap_nil, List.nil_append] at hs
    have hlen := congrArg List.length hs
    simp only [List.length_drop] at hlen
    obtain ⟨st', e1, e2, e3, e4, e5⟩ := wwLoop_par cpp20 dbg width hw0 s last.length i (by omega) st h
      (by
        intro k hk hk' hc
        have : (s.drop i)[k - i]? = some (ch '\n') := by rw [List.getElem?_drop, ← hc]; congr 1; omega
        rw [hs] at this
        exact hl.1 (List.mem_of_getElem? this)) (by omega) (fun _ => hf)
    have hend : i + last.length = s.length := by omega
    rw [hend] at e1 e2 e5
    refine ⟨st', ?_, e2, by rw [e3, hlb, hs], by rw [e4]; simp, e5⟩
    rw [e1]; unfold wwLoop; rw [if_pos rfl]
  | cons p ps ih =>
    have hp := hps p (by simp)
    simp only [List.flatMap_cons, List.append_assoc] at hs
    have hlen := congrArg List.length hs
    simp only [List.length_drop, List.length_append, List.length_cons, List.length_nil] at hlen
    have hget : ∀ k, s[i + k]? = (p ++ ([ch '\n'] ++ ((ps.flatMap fun p => p ++ [ch '\n']) ++ last)))[k]? := by
      intro k; rw [← hs, List.getElem?_drop]
    obtain ⟨st1, e1, e2, e3, e4, _⟩ := wwLoop_par cpp20 dbg width hw0 s p.length i (by omega) st h
      (by
        intro k hk hk' hc
        have := hget (k - i)
        rw [show i + (k - i) = k by omega, hc, List.getElem?_append_left (by omega)] at this
        exact hp.1 (List.mem_of_getElem? this.symm)) (by omega) (fun _ => hf)
    have hnl : s[i + p.length]'(by omega) = ch '\n' := by
      have := hget p.length
      rw [List.getElem?_append_right (by omega), Nat.sub_self, List.getElem?_eq_getElem (by omega)] at this
      simpa using this
    have hstep := wwStep_nl cpp20 dbg width s (i + p.length) (by omega) st1 e2 hnl
    obtain ⟨st2, f1, f2⟩ := wwStep_inv cpp20 dbg width hw0 s (i + p.length) (by omega) st1 e2
    rw [hstep] at f1
    cases f1
    have hdrop : s.drop (i + p.length + 1) = (ps.flatMap fun p => p ++ [ch '\n']) ++ last := by
      rw [show i + p.length + 1 = i + (p.length + 1) by omega, ← List.drop_drop, hs, List.drop_append]
      simp
    obtain ⟨st3, g1, g2, g3, g4, g5⟩ := ih (i + p.length + 1) _ f2 rfl rfl (by omega) hdrop (fun q hq => hps q (by simp [hq]))
    refine ⟨st3, ?_, g2, g3, ?_, g5⟩
    · rw [e1, ← g1, show s.length - (i + p.length) = (s.length - (i + p.length + 1)) + 1 by omega]
      conv => lhs; unfold wwLoop
      rw [if_neg (by omega)]
      simp only [Res.bind_eq, hstep, Res.ok_bind]
    · rw [g4]
      simp only [List.append_assoc, e4, e3, hlb]
      congr 2
      rw [hs, show i + p.length - i = p.length by omega]
      simp

theorem wwLast_fits (width : BitVec 32) (s : List Byte) (st : Ww) (h : WwInv width.toNat s s.length st) (t : List Byte) (k : Nat)
    (hs : s.drop st.lb = t ++ List.replicate k (ch ' ')) (hlast : t.getLast? ≠ some (ch ' '))
    (hf : st.lb = s.length → st.sb = s.length) :
    wwLast s st = .ok (if t = [] ∧ 0 < k then st.ret else st.ret ++ [t]) := by
  have hW := width.isLt
  have hlb := h.hlb
  have hsb := h.hsb
  have hw := h.hw
  have hlen := congrArg List.length hs
  simp only [List.length_drop, List.length_append, List.length_replicate] at hlen
  have hget : ∀ j, s[st.lb + j]? = (t ++ List.replicate k (ch ' '))[j]? := by
    intro j; rw [← hs, List.getElem?_drop]
  have hgap : ∀ j, t.length ≤ j → j < t.length + k → s[st.lb + j]? = some (ch ' ') := by
    intro j h1 h2
    rw [hget, List.getElem?_append_right h1, List.getElem?_replicate, if_pos (by omega)]
  have hend : t ≠ [] → s[st.lb + (t.length - 1)]? ≠ some (ch ' ') := by
    intro hne
    have : 0 < t.length := List.length_pos_iff.mpr hne
    rw [hget, List.getElem?_append_left (by omega), ← List.getLast?_eq_getElem?]
    exact hlast
  have whole : k = 0 → (do
      let l ← substr s st.lb (sizeT ((s.length : Int) - st.lb))
      return st.ret ++ [l] : Res (List (List Byte))) = .ok (if t = [] ∧ 0 < k then st.ret else st.ret ++ [t]) := by
    intro hk
    subst hk
    rw [Res.bind_eq, substr_piece s st.lb s.length hlb (Nat.le_refl _) (by omega), Res.ok_bind, Res.pure_eq, hs]
    simp only [Nat.lt_irrefl, and_false, if_false, List.replicate_zero, List.append_nil]
    rw [List.take_of_length_le (by omega)]
  unfold wwLast
  by_cases he : st.sb = s.length
  · obtain ⟨f1, _⟩ := h.fresh he
    simp only [he, ne_eq, not_true_eq_false, if_false, Res.pure_eq, Res.bind_eq, Res.ok_bind, Bool.false_eq_true]
    exact whole (by omega)
  · have hg : s[st.sb]? = some s[st.sb] := List.getElem?_eq_getElem (by omega)
    simp only [he, ne_eq, not_false_eq_true, if_true, rd_get? s st.sb _ hg, Res.pure_eq, Res.bind_eq, Res.ok_bind]
    by_cases hc : s[st.sb] = ch ' '
    · rw [hc] at hg
      obtain ⟨a1, a2, a3, a4⟩ := h.space (by omega) hg
      simp only [hc, decide_true, if_true]
      cases hwe : st.we with
      | true =>
        obtain ⟨b1, b2⟩ := a3 hwe
        simp only [if_true]
        rw [substr_piece s st.lb st.sb (by omega) (by omega) (by omega), Res.ok_bind]
        have hne : t ≠ [] := by
          intro ht
          subst ht
          simp only [List.length_nil, Nat.zero_add] at hgap hlen
          have := hgap (st.sb - 1 - st.lb) (by omega) (by omega)
          rw [show st.lb + (st.sb - 1 - st.lb) = st.sb - 1 by omega] at this
          exact b2 this
        have hpos : 0 < t.length := List.length_pos_iff.mpr hne
        have heq : st.sb = st.lb + t.length := by
          rcases Nat.lt_trichotomy st.sb (st.lb + t.length) with h' | h' | h'
          · exact absurd (a2 _ (by omega) (by omega)) (hend hne)
          · exact h'
          · have := hgap (st.sb - 1 - st.lb) (by omega) (by omega)
            rw [show st.lb + (st.sb - 1 - st.lb) = st.sb - 1 by omega] at this
            exact absurd this b2
        rw [if_neg (fun h' => hne h'.1), hs, heq, show st.lb + t.length - st.lb = t.length by omega]
        simp
      | false =>
        simp only [Bool.false_eq_true, if_false]
        have hall := a4 hwe
        have ht : t = [] := by
          apply Classical.byContradiction
          intro hne
          have hpos : 0 < t.length := List.length_pos_iff.mpr hne
          exact hend hne (hall _ (by omega) (by omega))
        subst ht
        simp only [List.length_nil, Nat.zero_add] at hlen
        by_cases hk : 0 < k
        · rw [if_pos ⟨rfl, hk⟩]
        · exfalso
          have hk0 : st.lb = s.length := by omega
          exact he (hf hk0)
    · simp only [hc, decide_false, Bool.false_eq_true, if_false]
      have hns : s[st.sb]? ≠ some (ch ' ') := by rw [hg]; simpa using hc
      obtain ⟨a1, a2, a3⟩ := h.word (by omega) hns
      apply whole
      rcases Nat.eq_zero_or_pos k with hk | hk
      · exact hk
      · have := hgap (t.length + k - 1) (by omega) (by omega)
        exact absurd this (a2 _ (by omega) (by omega))

theorem word_wrap_fits (cpp20 dbg : Bool) (ps : List (List Byte)) (t : List Byte) (k : Nat) (width : BitVec 32) (hw0 : 0 < width.toNat)
    (hps : ∀ p ∈ ps, ch '\n' ∉ p ∧ p.length ≤ width.toNat)
    (ht : ch '\n' ∉ t) (htl : t.length + k ≤ width.toNat) (hlast : t.getLast? ≠ some (ch ' ')) :
    word_wrap cpp20 dbg ((ps.flatMap fun p => p ++ [ch '\n']) ++ t ++ List.replicate k (ch ' ')) width =
      .ok (if t = [] ∧ 0 < k then ps else ps ++ [t]) := by
  generalize hs : (ps.flatMap fun p => p ++ [ch '\n']) ++ t ++ List.replicate k (ch ' ') = s
  unfold word_wrap
  rw [if_neg (by intro h; subst h; simp at hw0)]
  obtain ⟨st, e1, e2, e3, e4, e5⟩ := wwLoop_pars cpp20 dbg width hw0 s ps (t ++ List.replicate k (ch ' ')) 0
    { lb := 0, sb := 0, we := false, ret := [] } (wwInv_init _ s) rfl rfl (by omega) (by rw [← hs]; simp) hps
    ⟨by
      intro hc
      rcases List.mem_append.mp hc with h | h
      · exact ht h
      · exact nl_ne_space (List.eq_of_mem_replicate h), by simpa using htl⟩
  rw [Nat.sub_zero] at e1
  rw [Res.bind_eq, e1, Res.ok_bind, wwLast_fits width s st e2 t k e3 hlast e5, e4]
  simp

/-! ## Texts whose words are not divided -/

theorem Spec.Words.cons_gap {α : Type} {sp : α → Prop} {s : List α} {ws : List (List α)} (h : Words sp s ws) (gap : List α)
    (hg : ∀ c ∈ gap, sp c) : Words sp (gap ++ s) ws := by
  cases h with
  | none s hs =>
    refine .none _ ?_
    intro c hc; rcases List.mem_append.mp hc with h | h
    · exact hg c h
    · exact hs c h
  | word g w rest ws h1 h2 h3 h4 h5 =>
    have := Words.word (gap ++ g) w rest ws (by
      intro c hc; rcases List.mem_append.mp hc with h | h
      · exact hg c h
      · exact h1 c h) h2 h3 h4 h5
    simpa [List.append_assoc] using this

/-- Texts separated by a blank have their words one after another. -/
theorem Spec.Words.append_sep {α : Type} {sp : α → Prop} {s t : List α} {ws vs : List (List α)} (h : Words sp s ws) (h' : Words sp t vs)
    (gap : List α) (hne : gap ≠ []) (hg : ∀ c ∈ gap, sp c) : Words sp (s ++ gap ++ t) (ws ++ vs) := by
  induction h with
  | none s hs =>
    refine h'.cons_gap (s ++ gap) ?_
    intro c hc; rcases List.mem_append.mp hc with h | h
    · exact hs c h
    · exact hg c h
  | word g w rest ws h1 h2 h3 h4 h5 ih =>
    have := Words.word g w _ _ h1 h2 h3 (by
      intro c hc
      cases rest with
      | nil =>
        cases gap with
        | nil => exact absurd rfl hne
        | cons x xs => simp at hc; subst hc; exact hg x (by simp)
      | cons r rs => simp at hc; subst hc; exact h4 r rfl) ih
    simpa [List.append_assoc] using this

/-- Every text has words. -/
theorem Spec.Words.exists {α : Type} (sp : α → Prop) (s : List α) : ∃ ws, Words sp s ws := by
  classical
  suffices h : ∀ n (s : List α), s.length ≤ n → ∃ ws, Words sp s ws from h s.length s (Nat.le_refl _)
  intro n
  induction n with
  | zero => intro s hs; exact ⟨[], .none s (by have := List.length_eq_zero_iff.mp (Nat.le_zero.mp hs); subst this; simp)⟩
  | succ n ih =>
    intro s hs
    have e1 := List.takeWhile_append_dropWhile (p := fun c => decide (sp c)) (l := s)
    generalize hg : s.takeWhile (fun c => decide (sp c)) = gap at e1
    generalize hr : s.dropWhile (fun c => decide (sp c)) = r at e1
    have hgap : ∀ c ∈ gap, sp c := by
      intro c hc
      have := List.all_eq_true.mp (List.all_takeWhile (p := fun c => decide (sp c)) (l := s)) c (by rw [hg]; exact hc)
      simpa using this
    cases r with
    | nil => rw [List.append_nil] at e1; subst e1; exact ⟨[], .none _ hgap⟩
    | cons x r =>
      have hx : ¬ sp x := by
        have := List.head?_dropWhile_not (fun c => decide (sp c)) s
        rw [hr] at this
        simpa using this
      have e2 := List.takeWhile_append_dropWhile (p := fun c => !decide (sp c)) (l := r)
      obtain ⟨ws, hws⟩ := ih (r.dropWhile (fun c => !decide (sp c))) (by
        have := congrArg List.length e1
        have h2 := congrArg List.length e2
        simp only [List.length_append, List.length_cons] at this h2; omega)
      refine ⟨(x :: r.takeWhile (fun c => !decide (sp c))) :: ws, ?_⟩
      have := Words.word gap (x :: r.takeWhile (fun c => !decide (sp c))) (r.dropWhile (fun c => !decide (sp c))) ws hgap (by simp) ?_ ?_ hws
      · rw [List.append_assoc, List.cons_append, e2, e1] at this
        exact this
      · intro c hc
        rcases List.mem_cons.mp hc with h | h
        · subst h; exact hx
        · have := List.all_eq_true.mp (List.all_takeWhile (p := fun c => !decide (sp c)) (l := r)) c h
          simpa using this
      · intro c hc
        have := List.head?_dropWhile_not (fun c => !decide (sp c)) r
        rw [hc] at this
        simpa using this

/-- The lines emitted so far, each followed by a blank. -/
inductive Ended : List Byte → List (List Byte) → Prop
  | nil : Ended [] []
  | snoc {t ls} (line gap : List Byte) : Ended t ls → gap ≠ [] → (∀ c ∈ gap, Blank c) → Ended (t ++ line ++ gap) (ls ++ [line])

/-- The words of the lines are the words of the text. -/
def SameWords (s : List Byte) (lines : List (List Byte)) : Prop :=
  ∃ words : List (List (List Byte)), words.length = lines.length ∧
    (∀ (i : Nat) l ws, lines[i]? = some l → words[i]? = some ws → Words Blank l ws) ∧ Words Blank s words.flatten

theorem sameWords_snoc (lines : List (List Byte)) (words : List (List (List Byte))) (line : List Byte)
    (ws : List (List Byte)) (hl : words.length = lines.length)
    (h : ∀ (i : Nat) l ws, lines[i]? = some l → words[i]? = some ws → Words Blank l ws) (h' : Words Blank line ws) :
    (words ++ [ws]).length = (lines ++ [line]).length ∧
    (∀ (i : Nat) l v, (lines ++ [line])[i]? = some l → (words ++ [ws])[i]? = some v → Words Blank l v) := by
  refine ⟨by simp [hl], ?_⟩
  intro i l v h1 h2
  rcases Nat.lt_trichotomy i lines.length with hi | hi | hi
  · rw [List.getElem?_append_left hi] at h1
    rw [List.getElem?_append_left (by omega)] at h2
    exact h i l v h1 h2
  · rw [List.getElem?_append_right (by omega)] at h1
    rw [List.getElem?_append_right (by omega)] at h2
    subst hi
    simp at h1; simp [hl] at h2
    subst h1; subst h2; exact h'
  · rw [List.getElem?_append_right (by omega), List.getElem?_eq_none (by simp; omega)] at h1
    cases h1

theorem Ended.sameWords {t : List Byte} {ls : List (List Byte)} (h : Ended t ls) :
    SameWords t ls ∧ ∀ line, SameWords (t ++ line) (ls ++ [line]) := by
  suffices hs : ∃ words : List (List (List Byte)), words.length = ls.length ∧
      (∀ (i : Nat) l ws, ls[i]? = some l → words[i]? = some ws → Words Blank l ws) ∧
      ∀ line ws, Words Blank line ws → Words Blank (t ++ line) (words.flatten ++ ws) by
    obtain ⟨words, h1, h2, h3⟩ := hs
    refine ⟨⟨words, h1, h2, by simpa using h3 [] [] (.none [] (by simp))⟩, ?_⟩
    intro line
    obtain ⟨ws, hws⟩ := Words.exists Blank line
    obtain ⟨g1, g2⟩ := sameWords_snoc ls words line ws h1 h2 hws
    exact ⟨words ++ [ws], g1, g2, by simpa using h3 line ws hws⟩
  induction h with
  | nil => exact ⟨[], rfl, by simp, by intro line ws h; simpa using h⟩
  | @snoc t ls line gap _ hne hg ih =>
    obtain ⟨words, h1, h2, h3⟩ := ih
    obtain ⟨ws, hws⟩ := Words.exists Blank line
    obtain ⟨g1, g2⟩ := sameWords_snoc ls words line ws h1 h2 hws
    refine ⟨words ++ [ws], g1, g2, ?_⟩
    intro l v hv
    have := (h3 line ws hws).append_sep hv gap hne hg
    simpa using this

/-- The texts of `C28_words_whole_partial`. -/
structure Neat (w : Nat) (s : List Byte) : Prop where
  sp : ∀ k : Nat, s[k]? = some (ch ' ') → ∃ c, 0 < k ∧ s[k - 1]? = some c ∧ c ≠ ch ' ' ∧ c ≠ ch '\n'
  short : ∀ u v r : List Byte, s = u ++ v ++ r → (∀ c ∈ v, c ≠ ch ' ' ∧ c ≠ ch '\n') → v.length < w

/-- Additional invariant for such texts. -/
structure Whole (s : List Byte) (i : Nat) (st : Ww) : Prop where
  start : st.lb = 0 ∨ ∃ c, s[st.lb - 1]? = some c ∧ Blank c
  noSpace : st.we = false → ∀ k, st.lb ≤ k → k < i → s[k]? ≠ some (ch ' ')
  ended : Ended (s.take st.lb) st.ret

theorem Neat.start {w : Nat} {s : List Byte} (h : Neat w s) (b : Nat) (hb : b = 0 ∨ ∃ c, s[b - 1]? = some c ∧ Blank c) :
    s[b]? ≠ some (ch ' ') := by
  intro hc
  obtain ⟨c, h1, h2, h3, h4⟩ := h.sp b hc
  rcases hb with hb | ⟨d, hd, hd'⟩
  · omega
  · rw [h2] at hd; cases hd
    rcases hd' with h | h
    · exact h3 h
    · exact h4 h

theorem ended_emit (s : List Byte) (lb e b : Nat) (ret : List (List Byte)) (h1 : lb ≤ e) (h2 : e < b) (hb : b ≤ s.length)
    (h : Ended (s.take lb) ret) (hgap : ∀ k c, e ≤ k → k < b → s[k]? = some c → Blank c) :
    Ended (s.take b) (ret ++ [(s.drop lb).take (e - lb)]) := by
  obtain ⟨e1, _, _⟩ := piece_facts s lb e h1 (by omega) (fun _ => True) (by intros; trivial)
  obtain ⟨f1, f2, f3⟩ := piece_facts s e b (by omega) hb Blank hgap
  rw [f1, e1]
  refine .snoc _ _ h ?_ f2
  intro h0; rw [h0] at f3; simp at f3; omega

theorem wwBreak_whole (dbg : Bool) (width : BitVec 32) (hw0 : 0 < width.toNat) (s : List Byte) (hs : Neat width.toNat s) (i : Nat)
    (hi : i < s.length) (st st' : Ww)
    (h : WwInv width.toNat s i st) (hJ : Whole s i st) (hd : i - st.lb = width.toNat) (he : wwBreak dbg s i st = .ok st') :
    Whole s i st' := by
  have hW := width.isLt
  have hlt : st.sb < i := by
    rcases Nat.lt_or_ge st.sb i with h' | h'
    · exact h'
    · have := h.fresh (by have := h.hsb; omega); omega
  have hg : s[st.sb]? = some s[st.sb] := List.getElem?_eq_getElem (by omega)
  have hlb := h.hlb
  unfold wwBreak at he
  rw [Res.bind_eq, rd_get? s st.sb _ hg, Res.ok_bind] at he
  by_cases hc : s[st.sb] = ch ' '
  · rw [hc] at hg
    obtain ⟨a1, a2, a3, a4⟩ := h.space hlt hg
    rw [if_pos hc] at he
    cases hwe : st.we with
    | true =>
      obtain ⟨b1, b2⟩ := a3 hwe
      simp only [hwe, if_true] at he
      rw [Res.bind_eq, substr_piece s st.lb st.sb (by omega) (by omega) (by omega), Res.ok_bind, Res.pure_eq] at he
      cases he
      refine ⟨.inr ⟨ch ' ', by simpa using hg, .inl rfl⟩, ?_, ?_⟩
      · intro _ k hk hk' hck
        simp only at hk
        have h1 := hs.sp (st.sb + 1) (a2 _ (by omega) (by omega))
        obtain ⟨c, _, hc1, hc2, _⟩ := h1
        rw [Nat.add_sub_cancel, hg] at hc1
        cases hc1; exact hc2 rfl
      · refine ended_emit s st.lb st.sb (st.sb + 1) st.ret (by omega) (by omega) (by omega) hJ.ended ?_
        intro k c hk hk' hc'; obtain rfl : k = st.sb := by omega
        rw [hg] at hc'; cases hc'; exact .inl rfl
    | false =>
      exact absurd (a4 hwe st.lb (Nat.le_refl _) (by omega)) (hJ.noSpace hwe st.lb (Nat.le_refl _) (by omega))
  · have hns : s[st.sb]? ≠ some (ch ' ') := by rw [hg]; simpa using hc
    obtain ⟨a1, a2, a3⟩ := h.word hlt hns
    rw [if_neg hc] at he
    cases hwe : st.we with
    | true =>
      obtain ⟨b1, b2⟩ := a3 hwe
      simp only [hwe, if_true] at he
      rw [show decide ((st.sb : Int) - st.lb ≥ 1) = true by simp; omega, ASSERT_true, Res.bind_eq, Res.ok_bind,
        if_neg (by omega), Res.bind_eq, substr_piece s st.lb (st.sb - 1) (by omega) (by omega) (by omega), Res.ok_bind,
        Res.pure_eq] at he
      cases he
      refine ⟨.inr ⟨ch ' ', b2, .inl rfl⟩, fun _ k hk hk' => a2 k hk hk', ?_⟩
      refine ended_emit s st.lb (st.sb - 1) st.sb st.ret (by omega) (by omega) (by omega) hJ.ended ?_
      intro k c hk hk' hc'; obtain rfl : k = st.sb - 1 := by omega
      rw [b2] at hc'; cases hc'; exact .inl rfl
    | false =>
      exfalso
      obtain ⟨e1, e2, e3⟩ := piece_facts s st.lb i hlb (by omega) (fun c => c ≠ ch ' ' ∧ c ≠ ch '\n') (by
        intro k c hk hk' hck
        refine ⟨?_, ?_⟩
        · intro hc'; subst hc'; exact hJ.noSpace hwe k hk hk' hck
        · intro hc'; subst hc'; exact h.hnl k hk hk' hck)
      have := hs.short (s.take st.lb) ((s.drop st.lb).take (i - st.lb)) (s.drop i) (by rw [← e1, List.take_append_drop]) e2
      omega

theorem wwChar_whole (width : BitVec 32) (s : List Byte) (hs : Neat width.toNat s) (i : Nat) (hi : i < s.length) (st st' : Ww)
    (h : WwInv width.toNat s i st) (hJ : Whole s i st) (he : wwChar s i s[i] st = .ok st') : Whole s (i + 1) st' := by
  have hW := width.isLt
  have hlb := h.hlb
  have hsb := h.hsb
  have hw := h.hw
  have hg : s[st.sb]? = some s[st.sb] := List.getElem?_eq_getElem (by omega)
  have hgi : s[i]? = some s[i] := List.getElem?_eq_getElem (by omega)
  unfold wwChar at he
  by_cases hc : s[i] = ch ' '
  · rw [if_pos hc, Res.bind_eq, rd_get? s st.sb _ hg, Res.ok_bind] at he
    rw [hc] at hgi
    by_cases hsp : s[st.sb] = ch ' '
    · exfalso
      rw [hsp] at hg
      rcases Nat.lt_or_ge st.sb i with h' | h'
      · obtain ⟨a1, a2, a3, a4⟩ := h.space h' hg
        obtain ⟨c, c1, c2, c3, c4⟩ := hs.sp i hgi
        rw [a2 (i - 1) (by omega) (by omega)] at c2
        cases c2; exact c3 rfl
      · obtain ⟨f1, f2⟩ := h.fresh (by omega)
        exact hs.start st.lb hJ.start (by rw [f1]; exact hgi)
    · rw [if_pos hsp, Res.pure_eq] at he
      cases he
      exact ⟨hJ.start, by simp, hJ.ended⟩
  · rw [if_neg hc] at he
    by_cases hn : s[i] = ch '\n'
    · rw [if_pos hn, Res.bind_eq, substr_piece s st.lb i (by omega) (by omega) (by omega), Res.ok_bind, Res.pure_eq] at he
      cases he
      refine ⟨.inr ⟨ch '\n', by simpa using hgi.trans (by rw [hn]), .inr rfl⟩, ?_, ?_⟩
      · intro _ k hk hk'; simp only at hk; omega
      · refine ended_emit s st.lb i (i + 1) st.ret (by omega) (by omega) (by omega) hJ.ended ?_
        intro k c hk hk' hc'; obtain rfl : k = i := by omega
        rw [hgi, hn] at hc'; cases hc'; exact .inr rfl
    · rw [if_neg hn, Res.bind_eq, rd_get? s st.sb _ hg, Res.ok_bind] at he
      have hnsi : s[i]? ≠ some (ch ' ') := by rw [hgi]; simpa using hc
      have hno : st.we = false → ∀ k, st.lb ≤ k → k < i + 1 → s[k]? ≠ some (ch ' ') := by
        intro hwe k hk hk'
        rcases Nat.lt_or_ge k i with h' | h'
        · exact hJ.noSpace hwe k hk h'
        · obtain rfl : k = i := by omega
          exact hnsi
      split at he <;> (cases he; exact ⟨hJ.start, hno, hJ.ended⟩)

theorem wwLoop_whole (cpp20 dbg : Bool) (width : BitVec 32) (hw0 : 0 < width.toNat) (s : List Byte) (hs : Neat width.toNat s)
    (fuel i : Nat) (hi : i + fuel = s.length) (st : Ww) (h : WwInv width.toNat s i st) (hJ : Whole s i st) :
    ∃ st', wwLoop cpp20 dbg width s fuel i st = .ok st' ∧ WwInv width.toNat s s.length st' ∧ Whole s s.length st' := by
  induction fuel generalizing i st with
  | zero =>
    unfold wwLoop
    rw [if_pos (by omega)]
    obtain rfl : i = s.length := by omega
    exact ⟨st, rfl, h, hJ⟩
  | succ fuel ih =>
    unfold wwLoop
    rw [if_neg (by omega)]
    obtain ⟨st', e1, e2⟩ := wwStep_inv cpp20 dbg width hw0 s i (by omega) st h
    have hi' : i < s.length := by omega
    have hJ' : Whole s (i + 1) st' := by
      have he := e1
      unfold wwStep at he
      have hlb := h.hlb
      rw [show decide ((i : Int) - st.lb ≥ 0) = true by simp; omega, ASSERT_true, Res.bind_eq, Res.ok_bind, Res.bind_eq,
        rd_eq_ok hi', Res.ok_bind] at he
      have hde := distEq_iff cpp20 i st.lb width h.hlb h.hw
      by_cases hb : s[i] ≠ ch '\n' ∧ distEq cpp20 ((i : Int) - st.lb) width = true
      · rw [if_pos hb] at he
        obtain ⟨st1, f1, f2, f3⟩ := wwBreak_inv dbg width hw0 s i hi' st h (hde.mp hb.2)
        rw [Res.bind_eq, f1, Res.ok_bind] at he
        exact wwChar_whole width s hs i hi' st1 st' f2
          (wwBreak_whole dbg width hw0 s hs i hi' st st1 h hJ (hde.mp hb.2) f1) he
      · rw [if_neg hb, Res.bind_eq, Res.pure_eq, Res.ok_bind] at he
        exact wwChar_whole width s hs i hi' st st' h hJ he
    simp only [Res.bind_eq, e1, Res.ok_bind]
    exact ih (i + 1) (by omega) st' e2 hJ'

theorem wwLast_whole (width : BitVec 32) (s : List Byte) (st : Ww) (h : WwInv width.toNat s s.length st) (hJ : Whole s s.length st) :
    ∃ lines, wwLast s st = .ok lines ∧ SameWords s lines := by
  have hW := width.isLt
  have hlb := h.hlb
  have hsb := h.hsb
  have hw := h.hw
  have whole : ∃ lines, (do
      let l ← substr s st.lb (sizeT ((s.length : Int) - st.lb))
      return st.ret ++ [l] : Res (List (List Byte))) = .ok lines ∧ SameWords s lines := by
    rw [Res.bind_eq, substr_piece s st.lb s.length hlb (Nat.le_refl _) (by omega), Res.ok_bind, Res.pure_eq]
    refine ⟨_, rfl, ?_⟩
    have := hJ.ended.sameWords.2 (s.drop st.lb)
    rw [List.take_append_drop] at this
    rwa [List.take_of_length_le (by simp)]
  unfold wwLast
  by_cases he : st.sb = s.length
  · simp only [he, ne_eq, not_true_eq_false, if_false, Res.pure_eq, Res.bind_eq, Res.ok_bind, Bool.false_eq_true]
    exact whole
  · have hg : s[st.sb]? = some s[st.sb] := List.getElem?_eq_getElem (by omega)
    simp only [he, ne_eq, not_false_eq_true, if_true, rd_get? s st.sb _ hg, Res.pure_eq, Res.bind_eq, Res.ok_bind]
    by_cases hc : s[st.sb] = ch ' '
    · rw [hc] at hg
      obtain ⟨a1, a2, a3, a4⟩ := h.space (by omega) hg
      simp only [hc, decide_true, if_true]
      cases hwe : st.we with
      | true =>
        obtain ⟨b1, b2⟩ := a3 hwe
        simp only [if_true]
        rw [substr_piece s st.lb st.sb (by omega) (by omega) (by omega), Res.ok_bind]
        refine ⟨_, rfl, ?_⟩
        have := (ended_emit s st.lb st.sb s.length st.ret (by omega) (by omega) (by omega) hJ.ended
          (by intro k c hk hk' hc'; rw [a2 k hk hk'] at hc'; cases hc'; exact .inl rfl)).sameWords.1
        rwa [List.take_length] at this
      | false =>
        simp only [Bool.false_eq_true, if_false]
        refine ⟨_, rfl, ?_⟩
        have hend : st.lb = s.length := by
          rcases Nat.lt_or_ge st.lb s.length with h' | h'
          · exact absurd (a4 hwe st.lb (Nat.le_refl _) h') (hJ.noSpace hwe st.lb (Nat.le_refl _) h')
          · omega
        have := hJ.ended.sameWords.1
        rwa [hend, List.take_length] at this
    · simp only [hc, decide_false, Bool.false_eq_true, if_false]
      exact whole

theorem word_wrap_words (cpp20 dbg : Bool) (s : List Byte) (width : BitVec 32) (hw0 : 0 < width.toNat)
    (hsp : ∀ k : Nat, s[k]? = some (ch ' ') → ∃ c, 0 < k ∧ s[k - 1]? = some c ∧ c ≠ ch ' ' ∧ c ≠ ch '\n')
    (hshort : ∀ u v r : List Byte, s = u ++ v ++ r → (∀ c ∈ v, c ≠ ch ' ' ∧ c ≠ ch '\n') → v.length < width.toNat) :
    ∃ (lines : List (List Byte)) (words : List (List (List Byte))), word_wrap cpp20 dbg s width = .ok lines ∧
      words.length = lines.length ∧
      (∀ (i : Nat) l ws, lines[i]? = some l → words[i]? = some ws → Words Blank l ws) ∧
      Words Blank s words.flatten := by
  obtain ⟨st, e1, e2, e3⟩ := wwLoop_whole cpp20 dbg width hw0 s ⟨hsp, hshort⟩ s.length 0 (by omega) _ (wwInv_init _ s)
    ⟨.inl rfl, by intro _ k _ h; omega, by simpa using Ended.nil⟩
  obtain ⟨lines, f1, words, f2, f3, f4⟩ := wwLast_whole width s st e2 e3
  refine ⟨lines, words, ?_, f2, f3, f4⟩
  unfold word_wrap
  rw [if_neg (by intro h; subst h; simp at hw0), Res.bind_eq, e1, Res.ok_bind, f1]

end Utki
