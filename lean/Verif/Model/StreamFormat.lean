import Verif.Model.Assert
/-!
# The format of the standard streams, /repo/src/utki/log.hpp, log.cpp, debug.cpp

Output streams have a format: the base of integers, the width of the next output, the fill character and the side on which it is put. Manipulators such as `std::hex` and `std::setw` change it, and the
width is forgotten after the next output. `log` gives `std::cout` itself to the printing function (on Android a new stream); a failed assertion prints to a new stream and its text to `std::cerr`.
Modelled: these parts of the format; texts and unsigned integers as arguments, manipulators for the format. Streams do not fail (see `Model/StreamFail`) and printing functions do not throw.
-/
namespace Utki
namespace StreamFormat
open Assert (Location)

/-- The format of a stream. -/
structure Fmt where
  base : Nat
  width : Nat
  fill : Byte
  left : Bool
deriving DecidableEq, Repr

/-- The format of a new stream. -/
def Fmt.new : Fmt := ⟨10, 0, 0x20#8, false⟩

/-- An argument of `<<`. -/
inductive Item where
  | text (t : List Byte)
  | num (n : Nat)
  /-- `std::dec`, `std::hex`, `std::oct` -/
  | base (b : Nat)
  /-- `std::setw(n)` -/
  | setw (n : Nat)
  /-- `std::setfill(c)` -/
  | setfill (c : Byte)
  /-- `std::left`, `std::right` -/
  | left (b : Bool)
deriving DecidableEq, Repr

/-- The digits of a number. -/
def digits (b n : Nat) : List Byte := if b = 10 then str (toString n) else str (String.ofList (Nat.toDigits b n))

/-- A text is filled up to the width. -/
def pad (f : Fmt) (t : List Byte) : List Byte :=
  let fill := List.replicate (f.width - t.length) f.fill
  if f.left then t ++ fill else fill ++ t

/-- `o << item`: what is written and the format after that. -/
def put (f : Fmt) : Item → List Byte × Fmt
  | .text t => (pad f t, { f with width := 0 })
  | .num n => (pad f (digits f.base n), { f with width := 0 })
  | .base b => ([], { f with base := b })
  | .setw n => ([], { f with width := n })
  | .setfill c => ([], { f with fill := c })
  | .left b => ([], { f with left := b })

/-- `(o << ... << s)`. -/
def puts (f : Fmt) : List Item → List Byte × Fmt
  | [] => ([], f)
  | i :: is => ((put f i).1 ++ (puts (put f i).2 is).1, (puts (put f i).2 is).2)

/-- What was written to the standard streams, and their formats. -/
structure World where
  out : List Byte
  outFmt : Fmt
  err : List Byte
  errFmt : Fmt
deriving DecidableEq, Repr

/-- `logcat(s...)`, log.hpp 49-56, and `log(print)`, log.cpp 45-61, with a function that prints `s...`. `android`: the platform, log.cpp 51-54; what is passed to the log of the system is appended to
`out` (simplified: there are no zero bytes in it). -/
def log (android : Bool) (s : List Item) (w : World) : World :=
  if android then { w with out := w.out ++ (puts .new s).1 }
  else { w with out := w.out ++ (puts w.outFmt s).1, outFmt := (puts w.outFmt s).2 }

/-- What `assert_always`, debug.cpp 57-100, writes before it aborts if its condition is false; other platforms than Android. `print`: what the user's function prints. -/
def assertAlways (tty : Bool) (print : Option (List Item)) (line : Nat) (file : List Byte) (w : World) : World :=
  let error := if tty then [0x1b#8] ++ str "[1;31merror" ++ [0x1b#8] ++ str "[0m" else str "error"
  let ss := puts .new [.text file, .text (str ":"), .num line, .text (str ": "), .text error, .text (str ": assertion failed")]
  let ss := match print with
    | none => ss
    | some s =>
      let more := puts ss.2 (.text (str ":") :: .text [0x0a#8] :: .text (str "  ") :: s)
      (ss.1 ++ more.1, more.2)
  let t := put w.errFmt (.text ss.1)
  { w with err := w.err ++ t.1 ++ [0x0a#8], errFmt := t.2 }

end StreamFormat
end Utki
