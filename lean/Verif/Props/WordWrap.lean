import Verif.Lemmas.WordWrapFit
import Verif.Lemmas.WordWrapCut
/-!
# Properties of `word_wrap` (C24 – C28, C83)
-/
namespace Utki
open Spec

/-- C24: no line is longer than the width, and no line contains a newline. -/
theorem C24_width (cpp20 dbg : Bool) (s : List Byte) (width : BitVec 32) (h : width ≠ 0) :
    ∃ lines, word_wrap cpp20 dbg s width = .ok lines ∧ ∀ l ∈ lines, l.length ≤ width.toNat ∧ ch '\n' ∉ l := by
  obtain ⟨lines, h1, _, h3⟩ := word_wrap_ok cpp20 dbg s width (pos_of_ne h)
  exact ⟨lines, h1, h3⟩

/-- C25: the lines are contiguous pieces of the input, in order, and only spaces and newlines are left out between
them. -/
theorem C25_pieces (cpp20 dbg : Bool) (s : List Byte) (width : BitVec 32) (h : width ≠ 0) :
    ∃ lines, word_wrap cpp20 dbg s width = .ok lines ∧ Pieces (fun c => c = ch ' ' ∨ c = ch '\n') s lines := by
  obtain ⟨lines, h1, h2, _⟩ := word_wrap_ok cpp20 dbg s width (pos_of_ne h)
  exact ⟨lines, h1, h2⟩

/-- C25: apart from spaces and newlines, the characters of the lines are the characters of the input. -/
theorem C25_content (cpp20 dbg : Bool) (s : List Byte) (width : BitVec 32) :
    ∃ lines, word_wrap cpp20 dbg s width = .ok lines ∧
      lines.flatten.filter (fun c => c != ch ' ' && c != ch '\n') = s.filter (fun c => c != ch ' ' && c != ch '\n') := by
  by_cases h : width = 0
  · subst h; exact ⟨[s], by simp [word_wrap], by simp⟩
  · obtain ⟨lines, h1, h2⟩ := C25_pieces cpp20 dbg s width h
    refine ⟨lines, h1, ?_⟩
    clear h1
    have hz : ∀ gap : List Byte, (∀ c ∈ gap, c = ch ' ' ∨ c = ch '\n') → gap.filter (fun c => c != ch ' ' && c != ch '\n') = [] := by
      intro gap hg
      rw [List.filter_eq_nil_iff]
      intro c hc
      rcases hg c hc with h | h <;> simp [h]
    induction h2 with
    | nil gap hg => simp [hz gap hg]
    | cons gap line rest lines hg _ ih => simp only [List.flatten_cons, List.filter_append, hz gap hg, ih, List.nil_append]

/-- C26: no text and no width lead to an out-of-range access, an exception, a failed assertion or an endless loop. -/
theorem C26_total (cpp20 dbg : Bool) (s : List Byte) (width : BitVec 32) : (word_wrap cpp20 dbg s width).isOk = true := by
  by_cases h : width = 0
  · subst h; simp [word_wrap, Res.isOk]
  · obtain ⟨lines, h1, _⟩ := word_wrap_ok cpp20 dbg s width (pos_of_ne h)
    simp [h1, Res.isOk]

/-- C26: the result depends neither on the build (assertions on or off) nor on the language version. -/
theorem C26_same_in_all_builds (cpp20 dbg : Bool) (s : List Byte) (width : BitVec 32) :
    word_wrap cpp20 dbg s width = word_wrap true false s width := word_wrap_builds cpp20 dbg s width

/-- C27: if every paragraph fits, the lines are the paragraphs; the last one loses its trailing spaces, and disappears if
it consists of spaces only. `ps` are the paragraphs ended by a newline, `t` followed by `k` spaces is the last one. -/
theorem C27_fits (cpp20 dbg : Bool) (ps : List (List Byte)) (t : List Byte) (k : Nat) (width : BitVec 32) (hw : width ≠ 0)
    (hps : ∀ p ∈ ps, ch '\n' ∉ p ∧ p.length ≤ width.toNat)
    (ht : ch '\n' ∉ t ∧ t.length + k ≤ width.toNat) (hlast : t.getLast? ≠ some (ch ' ')) :
    word_wrap cpp20 dbg ((ps.flatMap fun p => p ++ [ch '\n']) ++ t ++ List.replicate k (ch ' ')) width =
      .ok (if t = [] ∧ 0 < k then ps else ps ++ [t]) :=
  word_wrap_fits cpp20 dbg ps t k width (pos_of_ne hw) hps ht.1 ht.2 hlast

/-- C27: width 0 means no wrapping. -/
theorem C27_width_zero (cpp20 dbg : Bool) (s : List Byte) : word_wrap cpp20 dbg s 0 = .ok [s] := by simp [word_wrap]

/-- C28, what holds: in a text where every space directly follows a word (no indentation, no double spaces) and every word
is shorter than the width, no word is divided: the words of the lines, in order, are the words of the text.
Missing: other texts; `C28_wrong` shows that words are divided there. -/
theorem C28_words_whole_partial (cpp20 dbg : Bool) (s : List Byte) (width : BitVec 32) (hw : width ≠ 0)
    (hsp : ∀ k : Nat, s[k]? = some (ch ' ') → ∃ c, 0 < k ∧ s[k - 1]? = some c ∧ c ≠ ch ' ' ∧ c ≠ ch '\n')
    (hshort : ∀ u v r : List Byte, s = u ++ v ++ r → (∀ c ∈ v, c ≠ ch ' ' ∧ c ≠ ch '\n') → v.length < width.toNat) :
    ∃ (lines : List (List Byte)) (words : List (List (List Byte))), word_wrap cpp20 dbg s width = .ok lines ∧
      words.length = lines.length ∧
      (∀ (i : Nat) l ws, lines[i]? = some l → words[i]? = some ws → Words (fun c => c = ch ' ' ∨ c = ch '\n') l ws) ∧
      Words (fun c => c = ch ' ' ∨ c = ch '\n') s words.flatten :=
  word_wrap_words cpp20 dbg s width (pos_of_ne hw) hsp hshort

/-- C28 is false: words no longer than the width are divided after a word of exactly the width, and after leading
spaces. -/
theorem C28_wrong :
    word_wrap false true (str "abcde fghij") 5 = .ok [str "abcde", str " fghi", str "j"] ∧
    word_wrap false true (str "   abc") 5 = .ok [str "   ab", str "c"] := by
  decide +kernel

example : word_wrap false true (str "the quick brown\nfox jumps  ") 10 =
    .ok [str "the quick", str "brown", str "fox jumps"] := by decide +kernel

example : word_wrap false true (str "abc\n\nde  ") 5 = .ok [str "abc", [], str "de"] ∧
    word_wrap false true (str "abc\n  ") 5 = .ok [str "abc"] := by decide +kernel

example : word_wrap true true (str "abc\n\nde  ") 5 = .ok [str "abc", [], str "de"] :=
  C27_fits true true [str "abc", []] (str "de") 2 5 (by decide) (by decide) (by decide) (by decide)

/-- The hypotheses of `C28_words_whole_partial` are met by a text that is wrapped into several lines. -/
example : ∃ s : List Byte,
    (∀ k : Nat, s[k]? = some (ch ' ') → ∃ c, 0 < k ∧ s[k - 1]? = some c ∧ c ≠ ch ' ' ∧ c ≠ ch '\n') ∧
    (∀ u v r : List Byte, s = u ++ v ++ r → (∀ c ∈ v, c ≠ ch ' ' ∧ c ≠ ch '\n') → v.length < 4) ∧
    word_wrap false true s 4 = .ok [str "ab", str "cd e"] := by
  refine ⟨str "ab cd e", ?_, ?_, by decide +kernel⟩
  · intro k hk
    have hk7 : k < 7 := by
      obtain ⟨h, _⟩ := List.getElem?_eq_some_iff.mp hk
      simpa [str] using h
    have key : ∀ k, k < 7 → (str "ab cd e")[k]? = some (ch ' ') → k = 2 ∨ k = 5 := by decide +kernel
    rcases key k hk7 hk with rfl | rfl
    · exact ⟨ch 'b', by decide⟩
    · exact ⟨ch 'd', by decide⟩
  · intro u v r h hv
    apply Classical.byContradiction
    intro hlt
    have hlen := congrArg List.length h
    have h7 : (str "ab cd e").length = 7 := by decide
    simp only [List.length_append, h7] at hlen
    have get : ∀ k, k < v.length → (str "ab cd e")[u.length + k]? = v[k]? := by
      intro k hk
      rw [h, List.append_assoc, List.getElem?_append_right (by omega), List.getElem?_append_left (by omega)]
      congr 1; omega
    have bad : ∀ k, k < v.length → (str "ab cd e")[u.length + k]? = some (ch ' ') → False := by
      intro k hk he
      rw [get k hk] at he
      exact (hv _ (List.mem_of_getElem? he)).1 rfl
    have hu : u.length < 4 := by omega
    match hx : u.length, hu with
    | 0, _ => exact bad 2 (by omega) (by rw [hx]; decide)
    | 1, _ => exact bad 1 (by omega) (by rw [hx]; decide)
    | 2, _ => exact bad 0 (by omega) (by rw [hx]; decide)
    | 3, _ => exact bad 2 (by omega) (by rw [hx]; decide)

/-- C28, what holds for every text: a word `[u, v)` that fits the width is put on one line, except if the line it begins on
contains nothing but spaces before it; then that line has exactly the width.
Missing: the exception; `C28_wrong` shows that it occurs. -/
theorem C28_divided_after_indent_partial (cpp20 dbg : Bool) (s : List Byte) (width : BitVec 32) (hw : width ≠ 0) :
    ∃ (lines : List (List Byte)) (bounds : List (Nat × Nat)), word_wrap cpp20 dbg s width = .ok lines ∧
      Layout (fun c => c = ch ' ' ∨ c = ch '\n') s lines bounds ∧
      ∀ u v, WordAt (fun c => c = ch ' ' ∨ c = ch '\n') s u v → v - u ≤ width.toNat →
        (∃ p ∈ bounds, p.1 ≤ u ∧ v ≤ p.2) ∨
        (∃ p ∈ bounds, p.1 < u ∧ u < p.2 ∧ p.2 < v ∧ p.2 = p.1 + width.toNat ∧ ∀ k, p.1 ≤ k → k < u → s[k]? = some (ch ' ')) := by
  obtain ⟨lines, bounds, h1, h2⟩ := word_wrap_laid cpp20 dbg s width (pos_of_ne hw)
  refine ⟨lines, bounds, h1, h2.layout, fun u v hW hfit => ?_⟩
  rcases h2.words u v hW with h | ⟨p, hp, p1, p2, p3, p4, p5⟩
  · exact .inl h
  · exact .inr ⟨p, hp, by omega, p2, p3, p4, p5⟩

/-- C28, words longer than the width: the line such a word begins on is filled with it completely, and before it there are
only spaces on that line. -/
theorem C28_long_words (cpp20 dbg : Bool) (s : List Byte) (width : BitVec 32) (hw : width ≠ 0) :
    ∃ (lines : List (List Byte)) (bounds : List (Nat × Nat)), word_wrap cpp20 dbg s width = .ok lines ∧
      Layout (fun c => c = ch ' ' ∨ c = ch '\n') s lines bounds ∧
      ∀ u v, WordAt (fun c => c = ch ' ' ∨ c = ch '\n') s u v → width.toNat < v - u →
        ∃ p ∈ bounds, p.1 ≤ u ∧ u < p.2 ∧ p.2 < v ∧ p.2 = p.1 + width.toNat ∧ ∀ k, p.1 ≤ k → k < u → s[k]? = some (ch ' ') := by
  obtain ⟨lines, bounds, h1, h2⟩ := word_wrap_laid cpp20 dbg s width (pos_of_ne hw)
  refine ⟨lines, bounds, h1, h2.layout, fun u v hW hlong => ?_⟩
  rcases h2.words u v hW with ⟨p, hp, p1, p2⟩ | h
  · exfalso
    obtain ⟨lines', g1, g2⟩ := C24_width cpp20 dbg s width hw
    rw [h1] at g1; cases g1
    have := (g2 ((s.drop p.1).take (p.2 - p.1)) (by rw [h2.ret]; exact List.mem_map_of_mem hp)).1
    have := (h2.inside p hp).2
    simp only [List.length_take, List.length_drop] at *
    omega
  · exact h

/-- C83, what holds for every text: if a line ends before a word `[u, v)`, with only spaces between, then the word would
have reached or passed the end of the line.
Missing: that it would have passed it; `C83_wrong` shows that a word which would exactly fill the line is moved to the next
line. -/
theorem C83_break_needed_partial (cpp20 dbg : Bool) (s : List Byte) (width : BitVec 32) (hw : width ≠ 0) :
    ∃ (lines : List (List Byte)) (bounds : List (Nat × Nat)), word_wrap cpp20 dbg s width = .ok lines ∧
      Layout (fun c => c = ch ' ' ∨ c = ch '\n') s lines bounds ∧
      ∀ p ∈ bounds, ∀ u v, WordAt (fun c => c = ch ' ' ∨ c = ch '\n') s u v → p.2 < u →
        (∀ k, p.2 ≤ k → k < u → s[k]? = some (ch ' ')) → p.1 + width.toNat ≤ v := by
  obtain ⟨lines, bounds, h1, h2⟩ := word_wrap_laid cpp20 dbg s width (pos_of_ne hw)
  exact ⟨lines, bounds, h1, h2.layout, fun p hp => (h2.good p hp).2⟩

/-- C83 is false: `cd` would fit on the first line, as it does when nothing follows. -/
theorem C83_wrong :
    word_wrap false true (str "ab cd ef") 5 = .ok [str "ab", str "cd ef"] ∧
    word_wrap false true (str "ab cd") 5 = .ok [str "ab cd"] := by
  decide +kernel

/-- A text with a word that fits, a divided word, a long word and a break. -/
example : word_wrap false true (str "ab cde\n  fghi jklmnop") 5 =
    .ok [str "ab", str "cde", str "  fgh", str "i", str "jklmn", str "op"] := by decide +kernel

example : WordAt (fun c => c = ch ' ' ∨ c = ch '\n') (str "ab cde\n  fghi jklmnop") 9 13 ∧
    WordAt (fun c => c = ch ' ' ∨ c = ch '\n') (str "ab cde\n  fghi jklmnop") 14 21 := by
  refine ⟨⟨by decide, by decide, ?_, .inr ⟨ch ' ', by decide⟩, .inr ⟨ch ' ', by decide⟩⟩,
    ⟨by decide, by decide, ?_, .inr ⟨ch ' ', by decide⟩, .inl (by decide)⟩⟩ <;>
  · intro k c h1 h2 hk
    have key : ∀ k, k < 21 → (9 ≤ k ∧ k < 13 ∨ 14 ≤ k) → ((str "ab cde\n  fghi jklmnop")[k]? ≠ some (ch ' ') ∧
        (str "ab cde\n  fghi jklmnop")[k]? ≠ some (ch '\n')) := by decide +kernel
    obtain ⟨k1, k2⟩ := key k (by omega) (by omega)
    rintro (rfl | rfl)
    · exact k1 hk
    · exact k2 hk

end Utki
