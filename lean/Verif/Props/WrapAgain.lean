import Verif.Props.WordWrap
/-!
# C102: wrapping wrapped text again changes nothing
-/
namespace Utki
open Spec

/-- A list of characters is a part that does not end with a space, followed by spaces. -/
theorem trailing_spaces (l : List Byte) : ∃ t k, l = t ++ List.replicate k (ch ' ') ∧ t.getLast? ≠ some (ch ' ') := by
  obtain ⟨n, hn⟩ : ∃ n, n = l.length := ⟨_, rfl⟩
  induction n generalizing l with
  | zero => exact ⟨[], 0, by simp [List.length_eq_zero_iff.mp hn.symm], by simp⟩
  | succ n ih =>
    rcases List.eq_nil_or_concat l with rfl | ⟨l', c, rfl⟩
    · simp at hn
    · rw [List.concat_eq_append]
      by_cases hc : c = ch ' '
      · obtain ⟨t, k, h1, h2⟩ := ih l' (by simpa using hn)
        refine ⟨t, k + 1, ?_, h2⟩
        rw [h1, hc, List.replicate_succ', List.append_assoc]
      · exact ⟨l' ++ [c], 0, by simp, by simpa using hc⟩

theorem intercalate_snoc (ls : List (List Byte)) (l : List Byte) :
    List.intercalate [ch '\n'] (ls ++ [l]) = (ls.flatMap fun p => p ++ [ch '\n']) ++ l := by
  induction ls with
  | nil => simp [List.intercalate]
  | cons a ls ih =>
    have : List.intercalate [ch '\n'] (a :: (ls ++ [l])) = a ++ [ch '\n'] ++ List.intercalate [ch '\n'] (ls ++ [l]) := by
      cases ls <;> simp [List.intercalate, List.intersperse]
    rw [List.cons_append, this, ih]
    simp

/-- If the text does not end with a space, neither does the last line, and there is one. -/
theorem word_wrap_end (cpp20 dbg : Bool) (s : List Byte) (width : BitVec 32) (hw : width ≠ 0) (hs : s.getLast? ≠ some (ch ' ')) :
    ∃ ls l, word_wrap cpp20 dbg s width = .ok (ls ++ [l]) ∧ l.getLast? ≠ some (ch ' ') := by
  have hw0 := pos_of_ne hw
  have hW := width.isLt
  unfold word_wrap
  rw [if_neg hw]
  obtain ⟨st, e1, h⟩ := wwLoop_inv cpp20 dbg width hw0 s s.length 0 (by omega) _ (wwInv_init _ s)
  rw [Res.bind_eq, e1, Res.ok_bind]
  have hlb := h.hlb
  have hsb := h.hsb
  have hwd := h.hw
  refine ⟨st.ret, s.drop st.lb, ?_, ?_⟩
  · have whole : (do
        let l ← substr s st.lb (sizeT ((s.length : Int) - st.lb))
        return st.ret ++ [l] : Res (List (List Byte))) = .ok (st.ret ++ [s.drop st.lb]) := by
      rw [Res.bind_eq, substr_piece s st.lb s.length hlb (Nat.le_refl _) (by omega), Res.ok_bind, Res.pure_eq]
      rw [List.take_of_length_le (by simp)]
    unfold wwLast
    by_cases he : st.sb = s.length
    · simp only [he, ne_eq, not_true_eq_false, if_false, Res.pure_eq, Res.bind_eq, Res.ok_bind, Bool.false_eq_true]
      exact whole
    · have hg : s[st.sb]? = some s[st.sb] := List.getElem?_eq_getElem (by omega)
      simp only [he, ne_eq, not_false_eq_true, if_true, rd_get? s st.sb _ hg, Res.pure_eq, Res.bind_eq, Res.ok_bind]
      have hc : s[st.sb] ≠ ch ' ' := by
        intro hc
        rw [hc] at hg
        have := (h.space (by omega) hg).2.1 (s.length - 1) (by omega) (by omega)
        rw [← List.getLast?_eq_getElem?] at this
        exact hs this
      simp only [hc, decide_false, Bool.false_eq_true, if_false]
      exact whole
  · rw [List.getLast?_drop]
    split
    · simp
    · exact hs

/-- C102: if a text is wrapped, and the lines, put together with newlines between them, are wrapped again with the same width or a greater one, the lines
are the same; except that, if the last line ends with spaces, these are removed, and the line disappears if it consists of spaces only. -/
theorem C102_again (cpp20 dbg : Bool) (s : List Byte) (width width' : BitVec 32) (hw : width ≠ 0) (hw' : width.toNat ≤ width'.toNat)
    (ls : List (List Byte)) (t : List Byte) (k : Nat)
    (h : word_wrap cpp20 dbg s width = .ok (ls ++ [t ++ List.replicate k (ch ' ')])) (ht : t.getLast? ≠ some (ch ' ')) :
    word_wrap cpp20 dbg (List.intercalate [ch '\n'] (ls ++ [t ++ List.replicate k (ch ' ')])) width' =
      .ok (if t = [] ∧ 0 < k then ls else ls ++ [t]) := by
  obtain ⟨lines, h1, h2⟩ := C24_width cpp20 dbg s width hw
  rw [h] at h1
  cases h1
  have hp := pos_of_ne hw
  rw [intercalate_snoc, ← List.append_assoc]
  refine C27_fits cpp20 dbg ls t k width' (by rintro rfl; simp at hw'; omega) (fun p hp => ?_) ?_ ht
  · have := h2 p (List.mem_append_left _ hp)
    exact ⟨this.2, by omega⟩
  · have := h2 _ (List.mem_append_right _ (List.mem_singleton.mpr rfl))
    simp only [List.length_append, List.length_replicate, List.mem_append, not_or] at this
    exact ⟨this.2.1, by omega⟩

/-- C102: if the text does not end with a space, wrapping the wrapped text again with the same width or a greater one gives the same lines. -/
theorem C102_idempotent (cpp20 dbg : Bool) (s : List Byte) (width width' : BitVec 32) (hw : width ≠ 0) (hw' : width.toNat ≤ width'.toNat)
    (hs : s.getLast? ≠ some (ch ' ')) :
    ∃ lines, word_wrap cpp20 dbg s width = .ok lines ∧ word_wrap cpp20 dbg (List.intercalate [ch '\n'] lines) width' = .ok lines := by
  obtain ⟨ls, l, h1, h2⟩ := word_wrap_end cpp20 dbg s width hw hs
  refine ⟨_, h1, ?_⟩
  have := C102_again cpp20 dbg s width width' hw hw' ls l 0 (by simpa using h1) h2
  simpa using this

/-- C102: the exception occurs: a last line of spaces disappears when it is wrapped again. -/
theorem C102_spaces_at_end :
    word_wrap false true (str "ab  \n  ") 3 = .ok [str "ab", str " "] ∧ word_wrap false true (str "ab\n ") 3 = .ok [str "ab"] := by decide +kernel

/-- C102: each line, wrapped alone with the same or any greater width, is one line again, without its trailing spaces; if it consists of spaces only, it gives
no line. -/
theorem C102_line (cpp20 dbg : Bool) (s : List Byte) (width width' : BitVec 32) (hw : width ≠ 0) (hw' : width.toNat ≤ width'.toNat) :
    ∃ lines, word_wrap cpp20 dbg s width = .ok lines ∧
      ∀ t k, t ++ List.replicate k (ch ' ') ∈ lines → t.getLast? ≠ some (ch ' ') →
        word_wrap cpp20 dbg (t ++ List.replicate k (ch ' ')) width' = .ok (if t = [] ∧ 0 < k then [] else [t]) := by
  obtain ⟨lines, h1, h2⟩ := C24_width cpp20 dbg s width hw
  refine ⟨lines, h1, fun t k hm ht => ?_⟩
  have := h2 _ hm
  simp only [List.length_append, List.length_replicate, List.mem_append, not_or] at this
  have hp := pos_of_ne hw
  have := C27_fits cpp20 dbg [] t k width' (by rintro rfl; simp at hw'; omega) (by simp) ⟨this.2.1, by omega⟩ ht
  simpa using this

example : word_wrap false true (str "the quick brown\nfox   jumps over") 8 =
    .ok ([str "the", str "quick", str "brown", str "fox  ", str "jumps"] ++ [str "over"]) := by decide +kernel
/-- The text above satisfies the hypothesis of `C102_idempotent`, and the wrapped text is not the text itself. -/
example : (str "the quick brown\nfox   jumps over").getLast? ≠ some (ch ' ') ∧
    List.intercalate [ch '\n'] [str "the", str "quick", str "brown", str "fox  ", str "jumps", str "over"] = str "the\nquick\nbrown\nfox  \njumps\nover" := by
  decide +kernel
example : word_wrap false true (str "the\nquick\nbrown\nfox  \njumps\nover") 8 =
    .ok [str "the", str "quick", str "brown", str "fox  ", str "jumps", str "over"] :=
  C102_again false true (str "the quick brown\nfox   jumps over") 8 8 (by decide) (by decide)
    [str "the", str "quick", str "brown", str "fox  ", str "jumps"] (str "over") 0 (by decide +kernel) (by decide +kernel)
example : word_wrap false true (str "fox  ") 8 = .ok [str "fox"] := by
  obtain ⟨lines, h1, h2⟩ := C102_line false true (str "the quick brown\nfox   jumps over") 8 8 (by decide) (by decide)
  have e : word_wrap false true (str "the quick brown\nfox   jumps over") 8 =
    .ok [str "the", str "quick", str "brown", str "fox  ", str "jumps", str "over"] := by decide +kernel
  rw [e] at h1
  cases h1
  exact h2 (str "fox") 2 (by decide +kernel) (by decide +kernel)

end Utki
