import Verif.Core
/-!
# Assertions and logging: `debug.hpp`, `debug.cpp`, `log.hpp`, `log.cpp`

Simplified: `<<` of an integer is its decimal form (the stream has the "C" locale); `std::cout` and `std::cerr` do not fail; other
builds than Android.
-/
namespace Utki
namespace Assert

/-- The standard streams, and everything else that user functions may change. -/
structure World (σ : Type) where
  out : List Byte
  err : List Byte
  user : σ

/-- A `std::function<void(std::ostream&)>` that is not empty: what it writes to the stream, the exception it throws if any, and its effect on
the rest of the program. -/
abbrev Printer (σ : Type) := σ → List Byte × Option Err × σ

/-- `utki::source_location`, debug.hpp 151-197. The file name may be `nullptr` (it is by default). -/
structure Location where
  line : BitVec 32
  column : BitVec 32
  file : Option (List Byte)

variable {σ : Type}

/-- `assert_always(condition, print, source_location)`, debug.cpp 57-100. `tty`: what `is_terminal_cerr()` (utility.cpp 41-49) returns.
Streaming a null `const char*` is undefined. -/
def assertAlways (tty : Bool) (condition : Bool) (print : Option (Printer σ)) (loc : Location) : Meth (World σ) Unit := fun w =>
  if condition then (.ok (), w)
  else
    match loc.file with
    | none => (.ub .null_deref, w)
    | some file =>
      let ss := file ++ str ":" ++ str (toString loc.line.toNat) ++ str ": "
      let ss := if tty then ss ++ ([0x1b#8] ++ str "[1;31merror" ++ [0x1b#8] ++ str "[0m") else ss ++ str "error"
      let ss := ss ++ str ": assertion failed"
      match print with
      | none => (.abort, { w with err := w.err ++ ss ++ [0x0a#8] })
      | some p =>
        let ss := ss ++ str ":" ++ [0x0a#8] ++ str "  "
        match p w.user with
        | (text, none, u) => (.abort, { w with err := w.err ++ (ss ++ text) ++ [0x0a#8], user := u })
        | (_, some e, u) => (.throw e, { w with user := u })

/-- `assert_always(condition, source_location)`, debug.hpp 238-251. -/
def assertAlways' (tty : Bool) (condition : Bool) (loc : Location) : Meth (World σ) Unit := assertAlways tty condition none loc

/-- `assert(bool condition, print, source_location)`, debug.hpp 261-290. -/
def assertBool (dbg tty : Bool) (condition : Bool) (print : Option (Printer σ)) (loc : Location) : Meth (World σ) Unit :=
  if dbg then assertAlways tty condition print loc else pure ()

/-- A `std::function<bool()>` that is not empty. -/
abbrev Checker (σ : Type) := σ → Res Bool × σ

/-- Call of a `std::function<bool()>`; calling an empty one throws `std::bad_function_call`, here `.user 0`. -/
def callChecker (c : Option (Checker σ)) : Meth (World σ) Bool := fun w =>
  match c with
  | none => (.throw (.user 0), w)
  | some f => match f w.user with | (r, u) => (r, { w with user := u })

/-- `assert(condition_checker, print, source_location)`, debug.hpp 300-326. In release builds the checker is not called. -/
def assertChecker (dbg tty : Bool) (c : Option (Checker σ)) (print : Option (Printer σ)) (loc : Location) : Meth (World σ) Unit :=
  if dbg then do
    let b ← callChecker c
    assertBool dbg tty b print loc
  else pure ()

/-- `assert(p, print, source_location)` of a pointer, `std::shared_ptr`, `std::unique_ptr` or `std::function`, debug.hpp 373-515: `p != nullptr`.
`none` is null. -/
def assertPtr {α : Type} (dbg tty : Bool) (p : Option α) (print : Option (Printer σ)) (loc : Location) : Meth (World σ) Unit :=
  assertBool dbg tty p.isSome print loc

/-- `log(print)`, log.cpp 45-61. -/
def log (print : Option (Printer σ)) : Meth (World σ) Unit := fun w =>
  match print with
  | none => (.ok (), w)
  | some p =>
    match p w.user with
    | (text, none, u) => (.ok (), { w with out := w.out ++ text, user := u })
    | (text, some e, u) => (.throw e, { w with out := w.out ++ text, user := u })

/-- The function that `logcat(s...)`, log.hpp 49-56, passes to `log`: `(o << ... << s)`. The arguments are given as the characters that `<<`
of each writes. -/
def catPrinter (s : List (List Byte)) : Printer σ := fun u => (s.foldl (· ++ ·) [], none, u)

/-- `logcat(s...)`, log.hpp 49-56. -/
def logcat (s : List (List Byte)) : Meth (World σ) Unit := log (some (catPrinter s))

/-- `log_debug(print)`, debug.hpp 89-98. -/
def logDebug (dbg : Bool) (print : Option (Printer σ)) : Meth (World σ) Unit := if dbg then log print else pure ()

/-- `logcat_debug(s...)`, debug.hpp 106-118. -/
def logcatDebug (dbg : Bool) (s : List (List Byte)) : Meth (World σ) Unit := if dbg then logcat s else pure ()

/-- `run_debug(proc)`, debug.hpp 126-139. -/
def runDebug (dbg : Bool) (proc : Option (Meth σ Unit)) : Meth (World σ) Unit := fun w =>
  if dbg then
    match proc with
    | none => (.ok (), w)
    | some f => match f w.user with | (r, u) => (r, { w with user := u })
  else (.ok (), w)

end Assert
end Utki
