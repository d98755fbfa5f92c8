import Verif.Spec.AssertOverloads
/-!
# What the condition of an assertion may be (C122)
-/
namespace Utki
open Assert AssertCall Spec.Condition

namespace AssertCall

variable {σ : Type}

theorem message_arguments (print : Option (Option (Printer σ))) (loc : Option Location) : message (arguments print loc) = print.join := by
  cases print <;> cases loc <;> rfl

theorem location_arguments (here : Location) (print : Option (Option (Printer σ))) (loc : Option Location) :
    location here (arguments print loc) = loc.getD here := by
  cases print <;> cases loc <;> rfl

/-- The parameters after the first one. -/
def takes (print : Option (Option (Printer σ))) : List Other := if print.isSome then [.print, .location] else [.location]

/-- The first parameter of the overload that is meant. -/
def pick : Cond σ → Option First
  | .bool _ => some .bool
  | .number _ => some .bool
  | .pointer _ => some .pointer
  | .func _ _ => some .pointer
  | .closure true true _ => some .checker
  | .closure true false _ => none
  | .closure false true _ => none
  | .closure false false _ => some .bool
  | .object (some _) none => some .bool
  | .object none (some _) => some .checker
  | .object _ _ => none
  | .stdFunction .bool _ => some .checker
  | .stdFunction (.other _) _ => some .function
  | .shared _ => some .shared
  | .unique true _ => some .unique
  | .unique false _ => none
  | .null => some .checker

/-- The overload that is meant. -/
theorem resolve_arguments (cpp20 : Bool) (c : Cond σ) (print : Option (Option (Printer σ))) (loc : Option Location) (h : loc.isSome ∨ cpp20 = true) :
    resolve cpp20 c (arguments print loc) = (pick c).map (fun f => ⟨f, takes print⟩) := by
  have key : ∀ (cpp20 : Bool) (print : Option (Option (Printer σ))) (loc : Option Location), loc.isSome ∨ cpp20 = true →
      resolve cpp20 c (arguments print loc) = (pick c).map (fun f => ⟨f, takes print⟩) := by
    intro cpp20 print loc h
    rcases c with _ | _ | _ | ⟨_ | _, _⟩ | ⟨_ | _, _ | _, _⟩ | ⟨_ | _, _ | _⟩ | ⟨_ | ⟨_ | _⟩, _⟩ | _ | ⟨_ | _, _⟩ | _ <;>
      cases print <;> cases loc <;> cases cpp20 <;> first | rfl | (exfalso; revert h; simp)
  exact key cpp20 print loc h

theorem call_arguments (cpp20 dbg tty : Bool) (here : Location) (c : Cond σ) (print : Option (Option (Printer σ))) (loc : Option Location)
    (h : loc.isSome ∨ cpp20 = true) :
    call cpp20 dbg tty here c (arguments print loc) = (pick c).map fun f => match f with
      | .bool => assertBool dbg tty (asBool c) print.join (loc.getD here)
      | .checker => assertChecker dbg tty (asChecker c) print.join (loc.getD here)
      | _ => assertBool dbg tty (notNull c) print.join (loc.getD here) := by
  unfold call
  rw [resolve_arguments cpp20 c print loc h, message_arguments, location_arguments]
  cases pick c with
  | none => rfl
  | some f => rfl

theorem checker_expected (tty : Bool) (f : Checker σ) (print : Option (Printer σ)) (loc : Location) (w : World σ) :
    assertChecker true tty (some f) print loc w = expected tty print loc (.ask f) w := by
  unfold assertChecker expected
  simp only [if_true]
  have hcall : callChecker (some f) w = ((f w.user).1, { w with user := (f w.user).2 }) := rfl
  rcases hf : f w.user with ⟨r, u⟩
  rw [hf] at hcall
  cases r with
  | ok b => exact Meth.bind_ok hcall
  | throw e => exact Meth.bind_throw hcall
  | _ => simp [Bind.bind, Meth.bind, hcall, Res.bind]

end AssertCall

variable {σ : Type}

/-- C122, in full this would be so for all conditions that mean something: the call compiles, with or without a message, and (C++20) with or without a place,
and does in a debug build what is expected, in a release build nothing. It is so for all conditions but those named in `Trap`. -/
theorem C122_condition_partial (cpp20 dbg tty : Bool) (here : Location) (c : Cond σ) (m : Meaning σ) (hm : meant c = some m) (ht : ¬ Trap c)
    (print : Option (Option (Printer σ))) (loc : Option Location) (h : loc.isSome ∨ cpp20 = true) :
    ∃ run, call cpp20 dbg tty here c (arguments print loc) = some run ∧
      ∀ w, run w = if dbg then expected tty print.join (loc.getD here) m w else (.ok (), w) := by
  rw [call_arguments cpp20 dbg tty here c print loc h]
  cases dbg with
  | false =>
    rcases c with _ | _ | _ | ⟨_ | _, _ | _⟩ | ⟨_ | _, _ | _, _⟩ | ⟨_ | _, _ | _⟩ | ⟨_ | ⟨_ | _⟩, _ | _⟩ | _ | ⟨_ | _, _⟩ | _ <;>
      first
      | exact absurd (by constructor) ht
      | (exfalso; revert hm; simp [meant]; done)
      | exact ⟨_, rfl, fun _ => rfl⟩
  | true =>
    rcases c with _ | _ | _ | ⟨_ | _, _ | _⟩ | ⟨_ | _, _ | _, _⟩ | ⟨_ | _, _ | _⟩ | ⟨_ | ⟨_ | _⟩, _ | _⟩ | _ | ⟨_ | _, _⟩ | _ <;>
      first
      | exact absurd (by constructor) ht
      | (exfalso; revert hm; simp [meant]; done)
      | (cases hm; exact ⟨_, rfl, fun w => checker_expected _ _ _ _ w⟩)
      | (cases hm; exact ⟨_, rfl, fun _ => rfl⟩)

/-- C122, the traps: a function, a pointer to one, and a `std::function` with another signature than `bool()` are not called: that they are not null is all
that is checked. An empty `std::function<bool()>`, and `nullptr`, are called: `std::bad_function_call` (here `.user 0`) is thrown where a failed assertion is
expected. Lambda expressions without captures and smart pointers with deleters of their own do not compile. -/
theorem C122_traps (cpp20 tty : Bool) (here : Location) (f : Checker σ) (p : Option Nat)
    (print : Option (Option (Printer σ))) (loc : Option Location) (h : loc.isSome ∨ cpp20 = true) :
    (∃ run, call cpp20 true tty here (.func true (some f)) (arguments print loc) = some run ∧ ∀ w, run w = (.ok (), w)) ∧
    (∃ run, call cpp20 true tty here (.stdFunction (.other true) (some f)) (arguments print loc) = some run ∧ ∀ w, run w = (.ok (), w)) ∧
    (∃ run, call cpp20 true tty here (.stdFunction .bool none) (arguments print loc) = some run ∧ ∀ w, run w = (.throw (.user 0), w)) ∧
    (∃ run, call cpp20 true tty here .null (arguments print loc) = some run ∧ ∀ w, run w = (.throw (.user 0), w)) ∧
    (∀ dbg, call cpp20 dbg tty here (.closure false true f) (arguments print loc) = none) ∧
    (∀ dbg, call cpp20 dbg tty here (.unique false p) (arguments print loc) = none) := by
  simp only [call_arguments cpp20 _ tty here _ print loc h]
  exact ⟨⟨_, rfl, fun _ => rfl⟩, ⟨_, rfl, fun _ => rfl⟩, ⟨_, rfl, fun _ => rfl⟩, ⟨_, rfl, fun _ => rfl⟩, fun _ => rfl, fun _ => rfl⟩

/-- C122: the full statement is false: `utki::assert(is_ready, SL)`, with a function `bool is_ready()` that returns false, lets the program go on. -/
theorem C122_condition_refuted :
    ∃ (c : Cond Unit) (m : Meaning Unit) (loc : Location) (run : Meth (World Unit) Unit), meant c = some m ∧
      call false true false loc c (arguments none (some loc)) = some run ∧
      ∀ w, (run w).1 = .ok () ∧ (expected false none loc m w).1 = .abort :=
  ⟨.func true (some fun u => (.ok false, u)), _, ⟨42, 0, some (str "f.cpp")⟩, _, rfl, rfl, fun _ => ⟨rfl, rfl⟩⟩

/-- C122: exactly the named conditions are traps: for each of them the call does not compile, or differs in some state from what is expected. (A function
that always returns `true` and has no effect makes no difference; the message does not throw.) -/
theorem C122_traps_exact (cpp20 tty : Bool) (here : Location) (c : Cond σ) (m : Meaning σ) (hm : meant c = some m) (ht : Trap c)
    (hf : ∀ f, m = .ask f → ∃ s, f s ≠ (.ok true, s)) (print : Option (Option (Printer σ))) (loc : Option Location) (h : loc.isSome ∨ cpp20 = true)
    (hp : ∀ p, print.join = some p → ∀ s, (p s).2.1 = none) (hs : Nonempty σ) (run : Meth (World σ) Unit) (hr : call cpp20 true tty here c (arguments print loc) = some run) :
    ∃ w, run w ≠ expected tty print.join (loc.getD here) m w := by
  have hne : ∀ (b : Bool) (u : σ) (w : World σ), (b, u) ≠ (true, w.user) →
      assertAlways tty b print.join (loc.getD here) { w with user := u } ≠ (.ok (), w) := by
    intro b u w hb he
    cases b with
    | true =>
      have hu : ({ w with user := u } : World σ) = w := congrArg Prod.snd he
      exact hb (by rw [← hu])
    | false =>
      unfold assertAlways at he
      simp only [Bool.false_eq_true, if_false] at he
      revert he
      cases (loc.getD here).file with
      | none => intro he; exact absurd (congrArg Prod.fst he) (by simp)
      | some file =>
        cases print.join with
        | none => intro he; exact absurd (congrArg Prod.fst he) (by simp)
        | some p =>
          simp only
          rcases p u with ⟨t, _ | e, v⟩ <;> intro he <;> exact absurd (congrArg Prod.fst he) (by simp)
  have hask : ∀ f : Checker σ, (∃ s, f s ≠ (.ok true, s)) → ∃ w : World σ, (.ok (), w) ≠ expected tty print.join (loc.getD here) (.ask f) w := by
    rintro f ⟨s, hs⟩
    refine ⟨⟨[], [], s⟩, fun he => ?_⟩
    have he := he.symm
    unfold expected at he
    simp only at he
    rcases hfs : f s with ⟨r, u⟩
    rw [hfs] at he hs
    cases r with
    | ok b => exact hne b u ⟨[], [], s⟩ (fun hb => hs (by cases hb; rfl)) he
    | _ => exact absurd (congrArg Prod.fst he) (by simp [Res.bind])
  rw [call_arguments cpp20 true tty here c print loc h] at hr
  obtain ⟨s⟩ := hs
  have hfail : ((.throw (.user 0), ⟨[], [], s⟩) : Res Unit × World σ) ≠ assertAlways tty false print.join (loc.getD here) ⟨[], [], s⟩ := by
    unfold assertAlways
    simp only [Bool.false_eq_true, if_false]
    cases (loc.getD here).file with
    | none => intro he; exact absurd (congrArg Prod.fst he) (by simp)
    | some file =>
      cases hj : print.join with
      | none => intro he; exact absurd (congrArg Prod.fst he) (by simp)
      | some p =>
        have := hp p hj s
        simp only
        rcases hps : p s with ⟨t, _ | e, v⟩
        · intro he; exact absurd (congrArg Prod.fst he) (by simp)
        · rw [hps] at this; cases this
  cases ht with
  | func f => cases hm; cases hr; exact hask f (hf f rfl)
  | signature f => cases hm; cases hr; exact hask f (hf f rfl)
  | empty => cases hm; cases hr; exact ⟨_, hfail⟩
  | null => cases hm; cases hr; exact ⟨_, hfail⟩
  | closure f => cases hr
  | deleter p => cases hr

/-- C122: a number given where a message or a place belongs is taken for a place, of which the file is unknown: if the assertion fails, the behaviour is
undefined. -/
theorem C122_number (cpp20 tty : Bool) (here : Location) (b : Bool) (n : BitVec 32) :
    ∃ run, call cpp20 true tty here (.bool b) [.number n] = some (run : Meth (World σ) Unit) ∧
      ∀ w, run w = if b then (.ok (), w) else (.ub .null_deref, w) := by
  refine ⟨assertBool true tty b none ⟨n, 0, none⟩, by cases cpp20 <;> rfl, fun w => ?_⟩
  cases b <;> rfl

/-- C122: without a place the call compiles only with C++20. -/
theorem C122_no_place (dbg tty : Bool) (here : Location) (c : Cond σ) (print : Option (Option (Printer σ))) :
    call false dbg tty here c (arguments print none) = none := by
  have : resolve false c (arguments print none) = none := by
    rcases c with _ | _ | _ | ⟨_ | _, _⟩ | ⟨_ | _, _ | _, _⟩ | ⟨_ | _, _ | _⟩ | ⟨_ | ⟨_ | _⟩, _⟩ | _ | ⟨_ | _, _⟩ | _ <;> cases print <;> rfl
  unfold call
  rw [this]
  rfl

/-- A closure that captures a counter is called once, and the assertion fails with a message. -/
example : ∃ run, call false true false ⟨0, 0, none⟩ (.closure true true fun n : Nat => (.ok (decide (n = 3)), n + 1))
      (arguments (some (some fun n => (str "now " ++ str (toString n), none, n))) (some ⟨7, 0, some (str "a.cpp")⟩)) = some run ∧
    run ⟨[], [], 2⟩ = (.abort, ⟨[], str "a.cpp:7: error: assertion failed:\n  now 3\n", 3⟩) := ⟨_, rfl, by rfl⟩

/-- It means something and is no trap. -/
example : meant (.closure true true fun n : Nat => (.ok (decide (n = 3)), n + 1)) = some (.ask fun n : Nat => (.ok (decide (n = 3)), n + 1)) ∧
    ¬ Trap (.closure true true fun n : Nat => (.ok (decide (n = 3)), n + 1)) := ⟨rfl, fun h => nomatch h⟩

/-- A null `std::unique_ptr`, with the place of the call itself (C++20). -/
example : ∃ run, call true true true ⟨9, 4, some (str "b.cpp")⟩ (.unique true none) (arguments none none) = some run ∧
    (run (⟨[], [], ()⟩ : World Unit)).1 = .abort := ⟨_, rfl, by rfl⟩

end Utki
