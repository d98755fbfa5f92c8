import Verif.Model.AssertAndroid
import Verif.Props.Assert
/-! # C76: assertions on Android -/
namespace Utki
open Assert

variable {σ : Type}

namespace Assert

theorem cString_eq_of_not_mem (t : List Byte) (h : 0#8 ∉ t) : cString t = t := by
  induction t with
  | nil => rfl
  | cons c t ih =>
    simp only [List.mem_cons, not_or] at h
    rw [cString, if_neg (fun e => h.1 e.symm), ih h.2]

theorem cString_append_nul (a b : List Byte) (h : 0#8 ∉ a) : cString (a ++ 0#8 :: b) = a := by
  induction a with
  | nil => simp [cString]
  | cons c a ih =>
    simp only [List.mem_cons, not_or] at h
    rw [List.cons_append, cString, if_neg (fun e => h.1 e.symm), ih h.2]

/-- With a false condition the message is the one of other platforms without the end of the line. -/
theorem assertAlwaysAndroid_false (tty : Bool) (line column : BitVec 32) (file : List Byte) (w : AndroidWorld σ) (p : Printer σ) (text : List Byte) (u : σ)
    (hp : p w.user = (text, none, u)) (message : List Byte) (hm : message ++ [10#8] = Spec.assertMessage tty file line.toNat (some text)) :
    assertAlwaysAndroid tty false (some p) ⟨line, column, some file⟩ w =
      (.abort, ⟨w.log ++ [(str "utki", str "Assertion failed: " ++ cString message)], u⟩) := by
  unfold assertAlwaysAndroid
  simp only [Bool.false_eq_true, if_false, hp, androidLogAssert, cString_eq_of_not_mem (str "utki") (by decide)]
  congr 7
  apply List.append_cancel_right (bs := [10#8])
  rw [hm]
  cases tty <;> simp [Spec.assertMessage, str]

end Assert

/-- C76: on Android too, a true condition has no effect, and an assertion returns only then. -/
theorem C76_android_returns (tty c : Bool) (print : Option (Printer σ)) (loc : Location) (w : AndroidWorld σ) :
    assertAlwaysAndroid tty true print loc w = (.ok (), w) ∧ ((assertAlwaysAndroid tty c print loc w).1 = .ok () ↔ c = true) := by
  refine ⟨rfl, ?_, by rintro rfl; rfl⟩
  intro h
  cases c with
  | true => rfl
  | false =>
    exfalso
    obtain ⟨l, k, f⟩ := loc
    cases f with
    | none => simp [assertAlwaysAndroid] at h
    | some f =>
      cases print with
      | none => simp [assertAlwaysAndroid, androidLogAssert] at h
      | some p =>
        rcases hp : p w.user with ⟨t, _ | e, u⟩ <;> simp [assertAlwaysAndroid, androidLogAssert, hp] at h

/-- C76: on Android a false condition writes one entry to the log of the system and aborts: the message of other platforms, without the end of the line. The user's function is called once. -/
theorem C76_android_false (tty : Bool) (line column : BitVec 32) (file : List Byte) (w : AndroidWorld σ) (p : Printer σ) (text : List Byte) (u : σ)
    (hp : p w.user = (text, none, u)) (message : List Byte) (hm : message ++ [10#8] = Spec.assertMessage tty file line.toNat (some text)) (h0 : 0#8 ∉ message) :
    assertAlwaysAndroid tty false (some p) ⟨line, column, some file⟩ w = (.abort, ⟨w.log ++ [(str "utki", str "Assertion failed: " ++ message)], u⟩) := by
  rw [assertAlwaysAndroid_false tty line column file w p text u hp message hm, cString_eq_of_not_mem message h0]

/-- C76: the same without user's text. -/
theorem C76_android_no_text (tty : Bool) (line column : BitVec 32) (file : List Byte) (w : AndroidWorld σ)
    (message : List Byte) (hm : message ++ [10#8] = Spec.assertMessage tty file line.toNat none) (h0 : 0#8 ∉ message) :
    assertAlwaysAndroid tty false none ⟨line, column, some file⟩ w = (.abort, ⟨w.log ++ [(str "utki", str "Assertion failed: " ++ message)], w.user⟩) := by
  rw [← cString_eq_of_not_mem message h0]
  unfold assertAlwaysAndroid
  simp only [Bool.false_eq_true, if_false, androidLogAssert, cString_eq_of_not_mem (str "utki") (by decide)]
  congr 7
  apply List.append_cancel_right (bs := [10#8])
  rw [hm]
  cases tty <;> simp [Spec.assertMessage, str]

/-- C76: on Android what follows a zero byte in the message is lost; other platforms print it. -/
theorem C76_android_zero (tty : Bool) (line column : BitVec 32) (file : List Byte) (w : AndroidWorld σ) (p : Printer σ) (text : List Byte) (u : σ)
    (hp : p w.user = (text, none, u)) (shown lost : List Byte) (hm : shown ++ 0#8 :: lost ++ [10#8] = Spec.assertMessage tty file line.toNat (some text)) (h0 : 0#8 ∉ shown) :
    assertAlwaysAndroid tty false (some p) ⟨line, column, some file⟩ w = (.abort, ⟨w.log ++ [(str "utki", str "Assertion failed: " ++ shown)], u⟩) := by
  rw [assertAlwaysAndroid_false tty line column file w p text u hp _ hm, cString_append_nul shown lost h0]

/-- C76: as on other platforms, an exception of the user's function leaves the assertion: no entry in the log and no abort. -/
theorem C76_android_throws (tty : Bool) (line column : BitVec 32) (file : List Byte) (w : AndroidWorld σ) (p : Printer σ) (text : List Byte) (e : Err) (u : σ)
    (hp : p w.user = (text, some e, u)) : assertAlwaysAndroid tty false (some p) ⟨line, column, some file⟩ w = (.throw e, ⟨w.log, u⟩) := by
  simp [assertAlwaysAndroid, hp]

/-- A failed assertion in line 42 of f.cpp, whose text contains a zero byte. -/
example : assertAlwaysAndroid false false (some fun n => (str "n" ++ 0#8 :: str "m", none, n + 1)) ⟨42, 0, some (str "f.cpp")⟩ (⟨[], 5⟩ : AndroidWorld Nat) =
    (.abort, ⟨[(str "utki", str "Assertion failed: f.cpp:42: error: assertion failed:\n  n")], 6⟩) :=
  C76_android_zero false 42 0 (str "f.cpp") ⟨[], 5⟩ _ (str "n" ++ 0#8 :: str "m") 6 rfl _ (str "m") (by decide +kernel) (by decide +kernel)
example : assertAlwaysAndroid true false none ⟨42, 0, some (str "f.cpp")⟩ (⟨[], 5⟩ : AndroidWorld Nat) =
    (.abort, ⟨[(str "utki", str "Assertion failed: f.cpp:42: \x1b[1;31merror\x1b[0m: assertion failed")], 5⟩) :=
  C76_android_no_text true 42 0 (str "f.cpp") ⟨[], 5⟩ _ (by decide +kernel) (by decide +kernel)

end Utki
