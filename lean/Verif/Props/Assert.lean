import Verif.Model.Assert
/-!
# Properties of assertions and logging (C76, C77)
-/
namespace Utki
open Assert

namespace Spec

/-- The message of a failed assertion: `file:line: error: assertion failed`, with the word "error" red on a terminal, and with the user's text,
if there is any, indented on the next line. -/
def assertMessage (tty : Bool) (file : List Byte) (line : Nat) (text : Option (List Byte)) : List Byte :=
  let esc : Byte := 27
  let newline : Byte := 10
  let error := if tty then esc :: str "[1;31m" ++ str "error" ++ esc :: str "[0m" else str "error"
  file ++ str ":" ++ str (toString line) ++ str ": " ++ error ++ str ": assertion failed" ++
    (match text with | none => [] | some t => str ":" ++ newline :: str "  " ++ t) ++ [newline]

end Spec

variable {σ : Type}

/-- C76: a true condition has no effect, whatever the other arguments are. -/
theorem C76_true (tty : Bool) (print : Option (Printer σ)) (loc : Location) (w : World σ) :
    assertAlways tty true print loc w = (.ok (), w) := rfl

/-- C76: a false condition writes exactly the message to `std::cerr` and aborts. The user's function is called once. -/
theorem C76_false (tty : Bool) (line column : BitVec 32) (file : List Byte) (w : World σ) (p : Printer σ) (text : List Byte) (u : σ)
    (hp : p w.user = (text, none, u)) :
    assertAlways tty false (some p) ⟨line, column, some file⟩ w =
      (.abort, ⟨w.out, w.err ++ Spec.assertMessage tty file line.toNat (some text), u⟩) := by
  unfold assertAlways
  simp only [Bool.false_eq_true, if_false, hp]
  cases tty <;> simp [Spec.assertMessage, str]

/-- C76: the same without user's text. -/
theorem C76_false_no_text (tty : Bool) (line column : BitVec 32) (file : List Byte) (w : World σ) :
    assertAlways tty false none ⟨line, column, some file⟩ w = (.abort, ⟨w.out, w.err ++ Spec.assertMessage tty file line.toNat none, w.user⟩) ∧
    assertAlways' tty false ⟨line, column, some file⟩ w = assertAlways tty false none ⟨line, column, some file⟩ w := by
  refine ⟨?_, rfl⟩
  unfold assertAlways
  simp only [Bool.false_eq_true, if_false]
  cases tty <;> simp [Spec.assertMessage, str]

/-- C76: if the user's function throws, the exception leaves the assertion: no message and no abort. -/
theorem C76_printer_throws (tty : Bool) (line column : BitVec 32) (file : List Byte) (w : World σ) (p : Printer σ) (text : List Byte) (e : Err) (u : σ)
    (hp : p w.user = (text, some e, u)) :
    assertAlways tty false (some p) ⟨line, column, some file⟩ w = (.throw e, ⟨w.out, w.err, u⟩) := by
  unfold assertAlways
  simp only [Bool.false_eq_true, if_false, hp]

/-- C76: an assertion returns only if its condition is true. -/
theorem C76_returns_iff (tty c : Bool) (print : Option (Printer σ)) (loc : Location) (w : World σ) :
    (assertAlways tty c print loc w).1 = .ok () ↔ c = true := by
  constructor
  · intro h
    cases c with
    | true => rfl
    | false =>
      exfalso
      obtain ⟨l, c, f⟩ := loc
      cases f with
      | none => simp [assertAlways] at h
      | some f =>
        cases print with
        | none => rw [(C76_false_no_text tty l c f w).1] at h; cases h
        | some p =>
          rcases hp : p w.user with ⟨t, _ | e, u⟩
          · rw [C76_false tty l c f w p t u hp] at h; cases h
          · rw [C76_printer_throws tty l c f w p t e u hp] at h; cases h
  · rintro rfl; rfl

/-- C76: in debug builds `utki::assert` is `assert_always`; the condition is the given one, what the checker returned, or that the pointer is not
null. -/
theorem C76_debug (tty c : Bool) (print : Option (Printer σ)) (loc : Location) (w : World σ) :
    assertBool true tty c print loc w = assertAlways tty c print loc w ∧
    (∀ {α : Type} (a : α), assertPtr true tty (some a) print loc w = (.ok (), w)) ∧
    (∀ (α : Type), assertPtr true tty (none : Option α) print loc w = assertAlways tty false print loc w) ∧
    (∀ (f : Checker σ) b u, f w.user = (.ok b, u) →
      assertChecker true tty (some f) print loc w = assertAlways tty b print loc { w with user := u }) := by
  refine ⟨rfl, fun a => rfl, fun α => rfl, ?_⟩
  intro f b u hf
  have : callChecker (some f) w = (.ok b, { w with user := u }) := by simp [callChecker, hf]
  exact Meth.bind_ok this

/-- C76: if the condition checker does not return in a debug build (it throws, for example), that is what happens, and nothing is printed. An empty
checker throws `std::bad_function_call`, here `.user 0`. -/
theorem C76_checker_throws (tty : Bool) (print : Option (Printer σ)) (loc : Location) (w : World σ) :
    (∀ (f : Checker σ) e u, f w.user = (.throw e, u) → assertChecker true tty (some f) print loc w = (.throw e, ⟨w.out, w.err, u⟩)) ∧
    assertChecker true tty none print loc w = (.throw (.user 0), w) := by
  refine ⟨?_, rfl⟩
  intro f e u hf
  have : callChecker (some f) w = (.throw e, { w with user := u }) := by simp [callChecker, hf]
  exact Meth.bind_throw this

/-- C76: in release builds they have no effect, and the condition checker is not called. -/
theorem C76_release (tty c : Bool) (f : Option (Checker σ)) {α : Type} (p : Option α) (print : Option (Printer σ)) (loc : Location) (w : World σ) :
    assertBool false tty c print loc w = (.ok (), w) ∧ assertChecker false tty f print loc w = (.ok (), w) ∧
    assertPtr false tty p print loc w = (.ok (), w) := ⟨rfl, rfl, rfl⟩

/-- A failed assertion in line 42 of f.cpp. -/
example : (assertAlways false false (some fun n => (str "n is wrong", none, n)) ⟨42, 0, some (str "f.cpp")⟩ (⟨[], str "before ", 5⟩ : World Nat)).2.err =
    str "before f.cpp:42: error: assertion failed:\n  n is wrong\n" := by decide

/-- C77: `log` writes exactly what the function writes, once, to `std::cout` only; an empty function is allowed and does nothing. -/
theorem C77_log (w : World σ) (p : Printer σ) : log (none : Option (Printer σ)) w = (.ok (), w) ∧
    (log (some p) w).2 = ⟨w.out ++ (p w.user).1, w.err, (p w.user).2.2⟩ ∧
    (log (some p) w).1 = (match (p w.user).2.1 with | none => .ok () | some e => .throw e) := by
  refine ⟨rfl, ?_⟩
  unfold log
  simp only
  rcases p w.user with ⟨t, _ | e, u⟩ <;> simp

/-- C77: `logcat` writes its arguments one after the other, for any number of them. -/
theorem C77_logcat (w : World σ) (s : List (List Byte)) : logcat s w = (.ok (), { w with out := w.out ++ s.flatten }) := by
  have h : ∀ (s : List (List Byte)) (a : List Byte), s.foldl (· ++ ·) a = a ++ s.flatten := by
    intro s
    induction s with
    | nil => intro a; simp
    | cons x s ih => intro a; rw [List.foldl_cons, ih, List.flatten_cons, List.append_assoc]
  simp [logcat, log, catPrinter, h]

/-- C77: the `_debug` variants do the same in debug builds and nothing in release builds; functions given to them are not called then. -/
theorem C77_debug (w : World σ) (p : Option (Printer σ)) (s : List (List Byte)) (f : Meth σ Unit) :
    logDebug true p w = log p w ∧ logcatDebug true s w = logcat s w ∧ runDebug true none w = (.ok (), w) ∧
    runDebug true (some f) w = ((f w.user).1, { w with user := (f w.user).2 }) ∧
    logDebug false p w = (.ok (), w) ∧ logcatDebug false s w = (.ok (), w) ∧ runDebug false (some f) w = (.ok (), w) :=
  ⟨rfl, rfl, rfl, rfl, rfl, rfl, rfl⟩

example : (logcat [str "n = ", str "5", str "\n"] (⟨str "> ", [], ()⟩ : World Unit)).2.out = str "> n = 5\n" := by decide

end Utki
