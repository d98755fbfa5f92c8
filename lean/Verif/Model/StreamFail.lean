import Verif.Model.Assert
/-!
# Logging and assertions when the standard streams fail, /repo/src/utki/log.hpp, log.cpp, debug.cpp

`Model/Assert` assumes that `std::cout` and `std::cerr` do not fail. Here the device behind a stream (a full disk, a closed pipe) can fail at any transfer, after any number of bytes. A stream that
has failed ignores output until the program clears its state. If the program asked for it by `exceptions(badbit | failbit)` failures throw `std::ios_base::failure`. Simplified: the mask has both
of these bits or none; the functions that print do not catch exceptions of the stream and do not change its state otherwise; their effects on the rest of the program happen before the output;
`std::stringstream` does not fail.
-/
namespace Utki
namespace StreamFail
open Assert (Location)

/-- A stream and what is behind it. -/
structure Stream where
  /-- what has reached the device -/
  done : List Byte
  /-- what is in the buffer -/
  pending : List Byte
  /-- the state is not `goodbit` -/
  bad : Bool
  /-- `exceptions()` is `badbit | failbit` -/
  mask : Bool
  /-- `unitbuf`, as `std::cerr` has it: output is transferred at once -/
  unit : Bool
  /-- whether the next outputs are transferred at once as the buffer is full; the others are not -/
  spill : List Bool
  /-- what happens at the next transfers: all is well, or the device takes so many bytes and fails; all others are well -/
  plan : List (Option Nat)
deriving DecidableEq, Repr

/-- `std::ios_base::failure`. -/
def failure : Err := .user 7

/-- What a failed stream does at any output: nothing, or throw. -/
def refuse : Meth Stream Unit := fun s => (if s.mask then .throw failure else .ok (), s)

/-- The buffer is written to the device. -/
def transfer : Meth Stream Unit := fun s =>
  match s.plan with
  | [] => (.ok (), { s with done := s.done ++ s.pending, pending := [] })
  | none :: p => (.ok (), { s with done := s.done ++ s.pending, pending := [], plan := p })
  | some k :: p => refuse { s with done := s.done ++ s.pending.take k, pending := s.pending.drop k, plan := p, bad := true }

/-- `o << text`. -/
def put (text : List Byte) : Meth Stream Unit := fun s =>
  if s.bad then refuse s
  else
    let s' := { s with pending := s.pending ++ text, spill := s.spill.tail }
    if s.unit || s.spill.headD false then transfer s' else (.ok (), s')

/-- `o.flush()`. -/
def flush : Meth Stream Unit := fun s => if s.bad then refuse s else transfer s

/-- What functions do with a stream. -/
inductive Op where
  | put (text : List Byte)
  | flush
deriving DecidableEq, Repr

/-- The operations one after the other. -/
def run : List Op → Meth Stream Unit
  | [] => pure ()
  | .put t :: ops => do put t; run ops
  | .flush :: ops => do flush; run ops

/-- The standard streams, and everything else that user functions may change. -/
structure World (σ : Type) where
  out : Stream
  err : Stream
  user : σ

variable {σ : Type}

/-- Something done with `std::cout`. -/
def onOut (m : Meth Stream Unit) : Meth (World σ) Unit := fun w => ((m w.out).1, { w with out := (m w.out).2 })
/-- Something done with `std::cerr`. -/
def onErr (m : Meth Stream Unit) : Meth (World σ) Unit := fun w => ((m w.err).1, { w with err := (m w.err).2 })

/-- A `std::function<void(std::ostream&)>` that is not empty: what it does with the stream, the exception it throws in the end if any, and its effect on the rest of the program. -/
abbrev Printer (σ : Type) := σ → List Op × Option Err × σ

/-- `log(print)`, log.cpp 45-61. -/
def log (print : Option (Printer σ)) : Meth (World σ) Unit := fun w =>
  match print with
  | none => (.ok (), w)
  | some p =>
    match p w.user with
    | (ops, ex, u) =>
      (do
        onOut (run ops)
        Meth.lift (match ex with | some e => .throw e | none => .ok ())
        onOut flush) { w with user := u }

/-- `logcat(s...)`, log.hpp 49-56. -/
def logcat (s : List (List Byte)) : Meth (World σ) Unit := log (some fun u => (s.map .put ++ [.flush], none, u))

/-- The end of `assert_always`, debug.cpp 94-99: `std::cerr << ss.str() << std::endl; std::cerr.flush(); abort();`. -/
def report (ss : List Byte) : Meth (World σ) Unit := do
  onErr (run [.put ss, .put [0x0a#8], .flush])
  onErr flush
  Meth.lift .abort

/-- `assert_always(condition, print, source_location)`, debug.cpp 57-100; see `Assert.assertAlways`. -/
def assertAlways (tty : Bool) (condition : Bool) (print : Option (Assert.Printer σ)) (loc : Location) : Meth (World σ) Unit := fun w =>
  if condition then (.ok (), w)
  else
    match loc.file with
    | none => (.ub .null_deref, w)
    | some file =>
      let ss := file ++ str ":" ++ str (toString loc.line.toNat) ++ str ": "
      let ss := if tty then ss ++ ([0x1b#8] ++ str "[1;31merror" ++ [0x1b#8] ++ str "[0m") else ss ++ str "error"
      let ss := ss ++ str ": assertion failed"
      match print with
      | none => report ss w
      | some p =>
        let ss := ss ++ str ":" ++ [0x0a#8] ++ str "  "
        match p w.user with
        | (text, none, u) => report (ss ++ text) { w with user := u }
        | (_, some e, u) => (.throw e, { w with user := u })

end StreamFail
end Utki
