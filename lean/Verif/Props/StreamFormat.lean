import Verif.Model.StreamFormat
import Verif.Props.Assert
/-! # C147: the format of the standard streams -/
namespace Utki
open StreamFormat
namespace Spec

/-- An argument that is printed: it is no manipulator. -/
def IsPrinted : Item → Prop
  | .text _ | .num _ => True
  | _ => False

/-- The text of arguments that are printed to a stream with the base `b` and no width. -/
def plainText (b : Nat) : List Item → List Byte
  | [] => []
  | .text t :: is => t ++ plainText b is
  | .num n :: is => StreamFormat.digits b n ++ plainText b is
  | _ :: is => plainText b is

end Spec
open Spec
namespace StreamFormat

theorem puts_append (f : Fmt) (a b : List Item) : puts f (a ++ b) = ((puts f a).1 ++ (puts (puts f a).2 b).1, (puts (puts f a).2 b).2) := by
  induction a generalizing f with
  | nil => simp [puts]
  | cons i a ih => simp [puts, ih]

theorem pad_zero (f : Fmt) (h : f.width = 0) (t : List Byte) : pad f t = t := by
  simp [pad, h]

theorem pad_length (f : Fmt) (t : List Byte) : (pad f t).length = max f.width t.length := by
  unfold pad
  dsimp only
  split <;> simp <;> omega

theorem puts_plain (s : List Item) (hs : ∀ i ∈ s, IsPrinted i) (f : Fmt) (h : f.width = 0) : puts f s = (plainText f.base s, f) := by
  have hf : ({ f with width := 0 } : Fmt) = f := by cases f; simp_all
  induction s with
  | nil => rfl
  | cons i s ih =>
    have ih := ih fun j hj => hs j (by simp [hj])
    have hi := hs i (by simp)
    cases i with
    | text t => simp only [puts, put, pad_zero f h, hf, ih, plainText]
    | num n => simp only [puts, put, pad_zero f h, hf, ih, plainText]
    | _ => exact absurd hi (by simp [IsPrinted])

end StreamFormat

/-- C147: arguments that are no manipulators are printed in the base of `std::cout`, one after the other, and leave its format as it is, so that calls of `logcat` do not influence each other. -/
theorem C147_plain (s : List Item) (hs : ∀ i ∈ s, IsPrinted i) (w : StreamFormat.World) (hw : w.outFmt.width = 0) :
    StreamFormat.log false s w = { w with out := w.out ++ plainText w.outFmt.base s } := by
  simp [StreamFormat.log, puts_plain s hs w.outFmt hw]

/-- C147: a text with a width is filled up on the left or on the right, a longer one is printed as it is; the width is used once. -/
theorem C147_width (n : Nat) (t : List Byte) (w : StreamFormat.World) :
    (StreamFormat.log false [.setw n, .text t] w).out = w.out ++ (if w.outFmt.left then t ++ List.replicate (n - t.length) w.outFmt.fill else List.replicate (n - t.length) w.outFmt.fill ++ t) ∧
    (StreamFormat.log false [.setw n, .text t] w).outFmt = { w.outFmt with width := 0 } := by
  cases hl : w.outFmt.left <;> simp [StreamFormat.log, puts, put, pad, hl]

/-- C147: the format that the arguments of one call set applies to those of the next calls: two calls are the same as one call with all arguments. -/
theorem C147_kept (a b : List Item) (w : StreamFormat.World) : StreamFormat.log false b (StreamFormat.log false a w) = StreamFormat.log false (a ++ b) w := by
  simp [StreamFormat.log, puts_append]

/-- C147: on Android it does not: every call starts with the format of a new stream. -/
theorem C147_android (s : List Item) (w : StreamFormat.World) :
    (StreamFormat.log true s w).outFmt = w.outFmt ∧ (StreamFormat.log true s w).out = w.out ++ (StreamFormat.log false s ⟨[], .new, [], .new⟩).out := by
  simp [StreamFormat.log]

/-- C147: so programs may log different texts on different platforms. -/
theorem C147_differs : ∃ (a b : List Item), (StreamFormat.log true b (StreamFormat.log true a ⟨[], .new, [], .new⟩)).out ≠ (StreamFormat.log false b (StreamFormat.log false a ⟨[], .new, [], .new⟩)).out :=
  ⟨[.base 16, .num 255], [.num 255], by decide +kernel⟩

/-- C147: the message of a failed assertion does not depend on the formats of the streams: line numbers are decimal, and what the user's function prints begins with the format of a new stream. Only the
width of `std::cerr` applies, to the message as a whole. `std::cout` is as before. -/
theorem C147_assert (tty : Bool) (line : Nat) (file : List Byte) (print : Option (List Item)) (w : StreamFormat.World) :
    ∃ message, message ++ [10#8] = assertMessage tty file line (print.map fun s => (StreamFormat.log false s ⟨[], .new, [], .new⟩).out) ∧
      StreamFormat.assertAlways tty print line file w = { w with err := w.err ++ pad w.errFmt message ++ [10#8], errFmt := { w.errFmt with width := 0 } } ∧
      (pad w.errFmt message).length = max w.errFmt.width message.length ∧
      (w.errFmt.width = 0 → (StreamFormat.assertAlways tty print line file w).err = w.err ++ (message ++ [10#8])) := by
  cases print with
  | none =>
    refine ⟨_, ?_, by rw [StreamFormat.assertAlways]; rfl, pad_length _ _, fun h => ?_⟩
    · cases tty <;> simp [assertMessage, puts, put, pad, Fmt.new, digits, str]
    · simp [StreamFormat.assertAlways, put, pad_zero _ h]
  | some s =>
    refine ⟨_, ?_, by rw [StreamFormat.assertAlways]; rfl, pad_length _ _, fun h => ?_⟩
    · cases tty <;> simp [assertMessage, puts, put, pad, Fmt.new, digits, str, StreamFormat.log]
    · simp [StreamFormat.assertAlways, put, pad_zero _ h]

/-- The number is printed in hexadecimal by the second call too, and the width is used once. -/
example : (StreamFormat.log false [.num 255, .text (str " "), .num 16] (StreamFormat.log false [.base 16, .setw 4, .num 10] ⟨[], .new, [], .new⟩)).out = str "   aff 10" := by decide +kernel
/-- `std::cerr` and `std::cout` in hexadecimal: the line is printed in decimal. -/
example : (StreamFormat.assertAlways false (some [.num 255]) 42 (str "f.cpp") ⟨[], ⟨16, 0, 0x20#8, false⟩, [], ⟨16, 0, 0x20#8, false⟩⟩).err = str "f.cpp:42: error: assertion failed:\n  255\n" := by
  decide +kernel

end Utki
