import Verif.Model.StreamTypes
import Verif.Props.StreamFormat
import Verif.Props.VersionText
/-! # C148: printing versions, flags and spans to streams with a format, and `cat` -/
namespace Utki
open StreamFormat Misc Spec
namespace Spec

/-- A text filled up to `n` characters on the side that the format says. -/
inductive Filled (f : Fmt) (n : Nat) (t : List Byte) : List Byte → Prop
  | longer : n ≤ t.length → Filled f n t t
  | right {k} : t.length + k = n → f.left = false → Filled f n t (List.replicate k f.fill ++ t)
  | left {k} : t.length + k = n → f.left = true → Filled f n t (t ++ List.replicate k f.fill)

/-- The elements of a span are characters or numbers, which are printed one by one. -/
def elementText (b : Nat) : Item → List Byte
  | .text t => t
  | .num n => StreamFormat.digits b n
  | _ => []

end Spec
namespace StreamFormat

theorem pad_filled (f : Fmt) (t : List Byte) : Filled f f.width t (pad f t) := by
  by_cases h : f.width ≤ t.length
  · have : pad f t = t := by simp [pad, Nat.sub_eq_zero_of_le h]
    rw [this]
    exact .longer h
  · cases hl : f.left with
    | false => simp only [pad, hl]; exact .right (by omega) hl
    | true => simp only [pad, hl]; exact .left (by omega) hl

theorem ch_digitChar : ∀ d, d < 16 → ch (Nat.digitChar d) = Utki.digitChar d := by decide

theorem toChars_toDigits (b : Nat) (hb : 2 ≤ b) (hb' : b ≤ 16) : ∀ (room n : Nat), 0 < room → n < b ^ room → toChars b room n = some ((Nat.toDigits b n).map ch)
  | room + 1, n, _, hn => by
    rw [Nat.toDigits_eq_if (by omega), toChars]
    split
    · next h => simp [ch_digitChar n (by omega)]
    · next h =>
      have hr : 0 < room := by
        rcases room with _ | room
        · simp at hn; omega
        · omega
      have hd : n / b < b ^ room := Nat.div_lt_of_lt_mul (by rw [Nat.mul_comm, ← Nat.pow_succ]; exact hn)
      rw [toChars_toDigits b hb hb' room (n / b) hr hd]
      have hm : n % b < 16 := Nat.lt_of_lt_of_le (Nat.mod_lt _ (by omega)) hb'
      simp [ch_digitChar _ hm]

theorem digits_eq (b n : Nat) : digits b n = (Nat.toDigits b n).map ch := by
  unfold digits
  split
  · next h => subst h; simp [str]
  · simp [str]

theorem digits_streamU16 (n : BitVec 16) : digits 10 n.toNat = streamU16 n := by
  have hn : n.toNat < 10 ^ 128 := Nat.lt_of_lt_of_le n.isLt (by decide)
  rw [digits_eq, streamU16, toChars_toDigits 10 (by omega) (by omega) 128 _ (by omega) hn]
  rfl

theorem putSpanLoop_eq (es : List Item) (acc : List Byte) (f : Fmt) : putSpanLoop es (acc, f) = (acc ++ (puts f es).1, (puts f es).2) := by
  induction es generalizing acc f with
  | nil => simp [putSpanLoop, puts]
  | cons e es ih => simp [putSpanLoop, puts, ih]

theorem plainText_append (b : Nat) (s t : List Item) : plainText b (s ++ t) = plainText b s ++ plainText b t := by
  induction s with
  | nil => rfl
  | cons i s ih => cases i <;> simp [plainText, ih]

theorem plainText_flatMap (b : Nat) (s : List Item) : plainText b s = s.flatMap (elementText b) := by
  induction s with
  | nil => rfl
  | cons i s ih => cases i <;> simp [plainText, elementText, ih]

end StreamFormat

/-- C148: a version is printed as its text by streams with the base ten and no width, which are as before. -/
theorem C148_version (v : Version) (f : Fmt) (hb : f.base = 10) (hw : f.width = 0) : putVersion f v = (v.text, f) := by
  rw [putVersion, puts_plain _ (by simp [IsPrinted]) f hw]
  simp [plainText, hb, digits_streamU16, Version.text]

/-- C148: a width applies to the major number alone; what follows it is not filled, so the text is longer than the width. The width is used up. -/
theorem C148_version_width (v : Version) (f : Fmt) (hb : f.base = 10) :
    ∃ major, Filled f f.width (streamU16 v.major) major ∧ putVersion f v = (major ++ [ch '.'] ++ streamU16 v.minor, { f with width := 0 }) ∧
      f.width < (putVersion f v).1.length := by
  have e : putVersion f v = (pad f (streamU16 v.major) ++ [ch '.'] ++ streamU16 v.minor, { f with width := 0 }) := by
    simp [putVersion, puts, put, pad_zero, hb, digits_streamU16]
  refine ⟨_, pad_filled f _, e, ?_⟩
  rw [e]
  have := pad_length f (streamU16 v.major)
  simp only [List.length_append, this, List.length_singleton]
  omega

/-- C148: versions do not line up: with the same width two versions may have texts of different lengths, both shorter than the width. -/
theorem C148_version_columns : ∃ (a b : Version) (f : Fmt), a.text.length ≤ f.width ∧ b.text.length ≤ f.width ∧ (putVersion f a).1.length ≠ (putVersion f b).1.length :=
  ⟨⟨1, 2⟩, ⟨1, 20⟩, ⟨10, 8, 0x20#8, false⟩, by decide +kernel⟩

/-- C148: a stream with another base prints the numbers in that base, so that the text may be that of another version. -/
theorem C148_version_base : ∃ (a b : Version), a ≠ b ∧ (putVersion { Fmt.new with base := 16 } a).1 = b.text :=
  ⟨⟨16, 0⟩, ⟨10, 0⟩, by decide, by decide +kernel⟩

/-- C148: flags are printed as zeros and ones whatever the base is, and a width applies to all of them together. -/
theorem C148_flags {N : Nat} (fl : Flags N) (f : Fmt) :
    Filled f f.width fl.print (putFlags f fl).1 ∧ (putFlags f fl).2 = { f with width := 0 } ∧ (putFlags f fl).1.length = max f.width N := by
  refine ⟨pad_filled f _, rfl, ?_⟩
  simp [putFlags, put, pad_length, Flags.print]

/-- C148: the elements of a span are printed in order, without anything between them, in the base of the stream, and the stream is as before. -/
theorem C148_span (es : List Item) (hs : ∀ e ∈ es, IsPrinted e) (f : Fmt) (hw : f.width = 0) : putSpan f es = (es.flatMap (elementText f.base), f) := by
  rw [putSpan, putSpanLoop_eq, puts_plain es hs f hw]
  simp [plainText_flatMap]

/-- C148: a width applies to the first element of a span alone; an empty span prints nothing and leaves the width to what is printed next. -/
theorem C148_span_width (es : List Item) (hs : ∀ e ∈ es, IsPrinted e) (f : Fmt) :
    (es = [] → putSpan f es = ([], f)) ∧
    (∀ e es', es = e :: es' → ∃ first, Filled f f.width (elementText f.base e) first ∧ putSpan f es = (first ++ es'.flatMap (elementText f.base), { f with width := 0 })) := by
  refine ⟨by rintro rfl; rfl, ?_⟩
  rintro e es' rfl
  have h1 := hs e (by simp)
  have h2 := puts_plain es' (fun i hi => hs i (by simp [hi])) { f with width := 0 } rfl
  refine ⟨pad f (elementText f.base e), pad_filled f _, ?_⟩
  rw [putSpan, putSpanLoop_eq]
  cases e with
  | text t => simp [puts, put, h2, elementText, plainText_flatMap]
  | num n => simp [puts, put, h2, elementText, plainText_flatMap]
  | _ => exact absurd h1 (by simp [IsPrinted])

/-- C148: `cat` of arguments that are no manipulators is their concatenation, with numbers in decimal. -/
theorem C148_cat (s : List Item) (hs : ∀ i ∈ s, IsPrinted i) : cat s = s.flatMap (elementText 10) := by
  rw [cat, puts_plain s hs .new rfl, plainText_flatMap]
  rfl

/-- C148: so `cat` can be split and nested: `cat(a..., b...)` is `cat(a...) + cat(b...)` and `cat(cat(a...), cat(b...))`. Manipulators in `b` do not matter for the first. -/
theorem C148_cat_split (a b : List Item) (ha : ∀ i ∈ a, IsPrinted i) : cat (a ++ b) = cat a ++ cat b ∧ cat [.text (cat a), .text (cat b)] = cat (a ++ b) := by
  have h : cat (a ++ b) = cat a ++ cat b := by
    simp [cat, puts_append, puts_plain a ha .new rfl]
  refine ⟨h, ?_⟩
  rw [h, C148_cat [.text (cat a), .text (cat b)] (by simp [IsPrinted])]
  simp [elementText]

/-- C148: `cat` does not depend on what was logged before, while `logcat` of the same arguments does; it prints the same as `logcat` of them to a standard stream with the format of a new one. -/
theorem C148_cat_log (s : List Item) (w : StreamFormat.World) (h : w.outFmt = .new) : (StreamFormat.log false s w).out = w.out ++ cat s := by
  simp [StreamFormat.log, cat, h]

/-- C148: manipulators apply to the later arguments of the same call, and not to the next call. -/
theorem C148_cat_base (n : Nat) (b : Nat) : cat [.base b, .num n] = StreamFormat.digits b n ∧ cat [.num n] = StreamFormat.digits 10 n := by
  simp [cat, puts, put, pad, Fmt.new]

example : (putVersion { Fmt.new with width := 6 } ⟨3, 14⟩).1 = str "     3.14" := by decide +kernel
example : putVersion Fmt.new ⟨3, 14⟩ = (str "3.14", Fmt.new) := by decide +kernel
example : (putFlags { Fmt.new with width := 5, left := true } (⟨5#3⟩ : Flags 3)).1 = str "101  " := by decide +kernel
example : (putSpan ⟨16, 3, 0x30#8, false⟩ [.num 10, .num 255, .text (str "x")]).1 = str "00affx" := by decide +kernel
example : cat [.text (str "a"), .num 12, .base 16, .num 12] = str "a12c" ∧ cat [.num 12] = str "12" := by decide +kernel

end Utki
