import Verif.Model.Assert
/-!
# Logging from several threads, and on Android

`log`, log.cpp 45-61, lets the given function write to `std::cout` piece by piece; there is no lock and no buffer of the whole message. What the threads write
is given by acts; the threads share the stream and possibly a lock (a `utki::spin_lock`, say, see C58) that the user puts around the calls.
-/
namespace Utki
namespace LogThreads

/-- What a thread does next. -/
inductive Act where
  | acquire
  | write (piece : List Byte)
  | release
  deriving DecidableEq, Repr

/-- The pieces that reach the stream undivided: the arguments of `<<`, if the stream library writes each at once (that of GCC does while the stream is
synchronised with `stdio`), or single characters, which is all that the C++ standard promises. -/
def pieces (whole : Bool) (s : List (List Byte)) : List (List Byte) := if whole then s else s.flatten.map ([·])

/-- A call `logcat(s...)`, log.hpp 49-56 and log.cpp 45-61: `(o << ... << s)` on `std::cout`; `locked`: between locking and unlocking. Flushing does not
change what is written. -/
def callActs (locked whole : Bool) (s : List (List Byte)) : List Act :=
  if locked then .acquire :: (pieces whole s).map .write ++ [.release] else (pieces whole s).map .write

/-- A thread that makes these calls. -/
def threadActs (locked whole : Bool) (calls : List (List (List Byte))) : List Act := (calls.map (callActs locked whole)).flatten

/-- The state: the characters written to the stream, each with the thread that wrote it (for stating properties only), what the threads have still to do, and
who holds the lock. -/
structure St where
  out : List (Nat × Byte)
  todo : Nat → List Act
  holder : Option Nat

/-- Change the value of a function at one point. -/
def upd {β : Type} (f : Nat → β) (k : Nat) (x : β) : Nat → β := fun j => if j = k then x else f j

/-- One step of thread `k`. -/
def step (k : Nat) (s : St) : St :=
  match s.todo k with
  | [] => s
  | .acquire :: as => if s.holder = none then { s with holder := some k, todo := upd s.todo k as } else s
  | .write u :: as => { s with out := s.out ++ u.map (k, ·), todo := upd s.todo k as }
  | .release :: as => { s with holder := none, todo := upd s.todo k as }

/-- The threads take steps in the given order. -/
def run : List Nat → St → St
  | [], s => s
  | k :: ks, s => run ks (step k s)

/-- Thread `k` is to make the calls `calls k`. -/
def start (locked whole : Bool) (calls : Nat → List (List (List Byte))) : St := ⟨[], fun k => threadActs locked whole (calls k), none⟩

/-- The log of Android: a list of messages. -/
structure Android (σ : Type) where
  messages : List (List Byte)
  user : σ

/-- `log(print)` on Android, log.cpp 45-54: the function writes to a string, which is passed to `__android_log_write` as a NUL-terminated string.
Simplified: the system keeps messages of any length. -/
def logAndroid {σ : Type} (print : Option (Assert.Printer σ)) : Meth (Android σ) Unit := fun w =>
  match print with
  | none => (.ok (), w)
  | some p =>
    match p w.user with
    | (text, none, u) => (.ok (), ⟨w.messages ++ [text.takeWhile (· ≠ 0)], u⟩)
    | (_, some e, u) => (.throw e, { w with user := u })

end LogThreads
end Utki
