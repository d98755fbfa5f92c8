import Verif.Model.Assert
/-!
# Failed assertions on Android, /repo/src/utki/debug.cpp 57-100

On Android the message of a failed assertion is passed to `__android_log_assert(cond, "utki", nullptr)`. As there is no format, this function writes `Assertion failed: ` and the string `cond` to the log
of the system and aborts. Simplified: the system keeps messages of any length, and what it writes to the standard error stream of the process is not modelled.
-/
namespace Utki
namespace Assert

variable {σ : Type}

/-- The log of the system: messages with a tag; and everything else that user functions may change. -/
structure AndroidWorld (σ : Type) where
  log : List (List Byte × List Byte)
  user : σ
deriving DecidableEq, Repr

/-- A string as functions of C see it: it ends before the first zero byte. -/
def cString : List Byte → List Byte
  | [] => []
  | c :: cs => if c = 0#8 then [] else c :: cString cs

/-- `__android_log_assert(cond, tag, nullptr)`, called in debug.cpp 92; it does not return. -/
def androidLogAssert (cond tag : List Byte) (w : AndroidWorld σ) : Res Unit × AndroidWorld σ :=
  (.abort, { w with log := w.log ++ [(cString tag, str "Assertion failed: " ++ cString cond)] })

/-- `assert_always(condition, print, source_location)` on Android, debug.cpp 57-92 and 99. `tty`: what `is_terminal_cerr()` returns. -/
def assertAlwaysAndroid (tty : Bool) (condition : Bool) (print : Option (Printer σ)) (loc : Location) : Meth (AndroidWorld σ) Unit := fun w =>
  if condition then (.ok (), w)
  else
    match loc.file with
    | none => (.ub .null_deref, w)
    | some file =>
      let ss := file ++ str ":" ++ str (toString loc.line.toNat) ++ str ": "
      let ss := if tty then ss ++ ([0x1b#8] ++ str "[1;31merror" ++ [0x1b#8] ++ str "[0m") else ss ++ str "error"
      let ss := ss ++ str ": assertion failed"
      match print with
      | none => androidLogAssert ss (str "utki") w
      | some p =>
        let ss := ss ++ str ":" ++ [0x0a#8] ++ str "  "
        match p w.user with
        | (text, none, u) => androidLogAssert (ss ++ text) (str "utki") { w with user := u }
        | (_, some e, u) => (.throw e, { w with user := u })

end Assert
end Utki
