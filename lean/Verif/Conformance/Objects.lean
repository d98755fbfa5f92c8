import Verif.Model.SharedRef
import Verif.Model.UniqueRef
import Verif.Model.Signal
import Verif.Model.Singleton
import Verif.Model.Exception
import Verif.Model.ScopeExit
/-!
# The unit tests of references, signals, singletons, exceptions and scope_exit on the model

The checks of /repo/tests/unit/src/shared_ref.cpp, shared.cpp, unique_ref.cpp, signal.cpp, singleton.cpp, exception.cpp and the `scope_exit` tests
of utility.cpp, run on the model. These are tests of the model, not proofs of properties. Left out: what overload resolution and
`static_assert` decide, and the use in `std::set` (C40 has the comparisons).
-/
namespace Utki.Conformance

/-! ## shared_ref.cpp, shared.cpp. Types: 0 is `a0`, 1 is `a1`, 2 is `std::string`. -/

/-- `a1` derives from `a0`. -/
def casts (dyn dst : Nat) : Bool := dyn == dst || (dyn == 1 && dst == 0)
/-- To which object each variable points after the steps, and how many references each object has. -/
def sharedAfter (dbg : Bool) (ops : List SharedRef.Op) : Option (List (Option Nat) × List Nat × List Nat) :=
  (SharedRef.run dbg casts ops SharedRef.init).map (fun s => (s.vars.map (fun v => v.bind (·.p)), s.objs.map (·.count), s.destroyed))
/-- The outcome of the last step. -/
def sharedOutcome (dbg : Bool) (ops : List SharedRef.Op) (last : SharedRef.Op) : Option (Res Unit) :=
  (SharedRef.run dbg casts ops SharedRef.init).map (fun s => (SharedRef.step dbg casts last s).1)

/-- `constructor__shared_ptr`: the pointer is variable 1, `shared_ref(sp)` is 2. -/
example : ∀ dbg, sharedAfter dbg [.makeShared 1 false none, .toPtr 0 none, .destroy 0, .fromPtr 1 none] =
    some ([none, some 0, some 0], [2], []) := by decide +kernel
/-- `copy_constructor` -/
example : ∀ dbg, sharedAfter dbg [.makeShared 1 false none, .copy 0 none] = some ([some 0, some 0], [2], []) := by decide +kernel
/-- `operator_assignment`: the object 4 was destroyed by the assignment. -/
example : ∀ dbg, sharedAfter dbg [.makeShared 1 false none, .makeShared 1 false none, .copyAssign 1 0] = some ([some 0, some 0], [2, 0], [1]) := by
  decide +kernel
/-- `downcast`, `const_autocast` -/
example : ∀ dbg, sharedAfter dbg [.makeShared 1 false none, .convert 0 none, .destroy 0] = some ([none, some 0], [1], []) := by decide +kernel
/-- `dynamic_reference_cast` -/
example : ∀ dbg, sharedAfter dbg [.makeShared 1 false none, .cast 0 1 none] = some ([some 0, some 0], [2], []) := by decide +kernel
/-- `dynamic_reference_cast_bad_cast` -/
example : ∀ dbg, sharedOutcome dbg [.makeShared 1 false none] (.cast 0 2 none) = some (.throw .bad_cast) := by decide +kernel
/-- `move_constructor` -/
example : ∀ dbg, sharedAfter dbg [.makeShared 1 false none, .move 0 none] = some ([none, some 0], [1], []) := by decide +kernel
/-- `move_assignment` -/
example : ∀ dbg, sharedAfter dbg [.makeShared 1 false none, .makeShared 1 false none, .moveAssign 1 0] = some ([none, some 0], [1, 0], [1]) := by
  decide +kernel
/-- `move_constructible_and_move_assignable`: rotation by moves through a temporary, variable 3. -/
example : ∀ dbg, sharedAfter dbg [.makeShared 1 false none, .makeShared 1 false none, .makeShared 1 false none,
    .move 0 none, .moveAssign 0 1, .moveAssign 1 2, .moveAssign 2 3, .destroy 3] = some ([some 1, some 2, some 0, none], [1, 1, 1], []) := by
  decide +kernel
/-- `operator_convert_to_shared_ptr` -/
example : ∀ dbg, sharedAfter dbg [.makeShared 1 false none, .convert 0 none, .toPtr 0 none, .toPtr 0 none, .toPtr 1 none] =
    some ([some 0, some 0, some 0, some 0, some 0], [5], []) := by decide +kernel
/-- `operator_convert_to_weak_ptr`: the results of `lock` are variables 5 to 7. -/
example : ∀ dbg, sharedAfter dbg [.makeShared 1 false none, .convert 0 none, .makeWeak 0 none, .makeWeak 0 none, .makeWeak 1 none,
    .lock 2 none, .lock 3 none, .lock 4 none] =
    some ([some 0, some 0, some 0, some 0, some 0, some 0, some 0, some 0], [5], []) := by decide +kernel
/-- `make_weak_from_shared_ptr`: variable 1 is the pointer, 2 the weak one, 3 what `lock` gives. -/
example : ∀ dbg, sharedAfter dbg [.makeShared 1 false none, .toPtr 0 none, .destroy 0, .makeWeakPtr 1 none, .lock 2 none] =
    some ([none, some 0, some 0, some 0], [2], []) := by decide +kernel
/-- `basic`, `make_shared_from__shared`, `make_shared_from__enable_shared_from_this` -/
example : ∀ dbg, sharedAfter dbg [.makeShared 1 false none, .makeSharedFrom 0 none] = some ([some 0, some 0], [2], []) := by decide +kernel
/-- `make_weak_from__shared`, `make_weak_from__enable_shared_from_this` -/
example : ∀ dbg, sharedAfter dbg [.makeShared 1 false none, .makeWeakFrom 0 none, .lock 1 none] = some ([some 0, some 0, some 0], [2], []) := by
  decide +kernel

/-! ## unique_ref.cpp -/

/-- To which object each variable points after the steps, and which objects were destroyed. -/
def uniqueAfter (dbg : Bool) (ops : List UniqueRef.Op) : Option (List (Option Nat) × List Nat) :=
  (UniqueRef.run dbg ops UniqueRef.init).map (fun s => (s.vars.map (fun v => v.bind (·.p)), s.destroyed))

/-- `constructor__unique_ptr`: variable 1 is the pointer. -/
example : ∀ dbg, uniqueAfter dbg [.makeUnique false none, .toPtr 0 none, .fromPtr 1 none] = some ([none, none, some 0], []) := by decide +kernel
/-- `downcast`, `const_autocast` -/
example : ∀ dbg, uniqueAfter dbg [.makeUnique false none, .convert 0 none] = some ([none, some 0], []) := by decide +kernel
/-- `move_constructor` -/
example : ∀ dbg, uniqueAfter dbg [.makeUnique false none, .move .ref 0 none] = some ([none, some 0], []) := by decide +kernel
/-- `move_assignment` -/
example : ∀ dbg, uniqueAfter dbg [.makeUnique false none, .makeUnique false none, .moveAssign 1 0] = some ([none, some 0], [1]) := by decide +kernel
/-- `move_constructible_and_move_assignable` -/
example : ∀ dbg, uniqueAfter dbg [.makeUnique false none, .makeUnique false none, .makeUnique false none,
    .move .ref 0 none, .moveAssign 0 1, .moveAssign 1 2, .moveAssign 2 3, .destroy 3] = some ([some 1, some 2, some 0, none], []) := by decide +kernel
/-- `to_unique_ptr` -/
example : ∀ dbg, uniqueAfter dbg [.makeUnique false none, .get 0, .toPtr 0 none] = some ([none, some 0], []) := by decide +kernel

/-! ## signal.cpp. A callback is the number it adds to `num`, which is the user's state. -/

/-- The callbacks of the test. -/
def adds (n : Nat) (_ : Unit) : Signal.Prog Nat Unit Nat := .upd (· + n) .ret

/-- The script: size, empty and `num` at each check, and the two ids. -/
def signalScript : Meth (Signal.World Nat Unit Nat) (List (Nat × Bool × Nat) × Nat × Nat) := do
  let check : Meth (Signal.World Nat Unit Nat) (Nat × Bool × Nat) := do
    let w ← Meth.get
    pure (Signal.size w, Signal.empty w, w.user)
  let c0 ← check
  Signal.emit adds id 10 ()
  let c1 ← check
  let id1 ← Signal.connect 1
  let c2 ← check
  Signal.emit adds id 10 ()
  let c3 ← check
  let id2 ← Signal.connect 3
  let c4 ← check
  Signal.emit adds id 10 ()
  let c5 ← check
  Signal.disconnect id1
  let c6 ← check
  Signal.disconnect id2
  let c7 ← check
  pure ([c0, c1, c2, c3, c4, c5, c6, c7], id1, id2)

/-- `basic__no_arguments` -/
example : ∃ id1 id2, (signalScript (Signal.new 0)).1 = .ok ([(0, true, 0), (0, true, 0), (1, false, 0), (1, false, 1), (2, false, 1), (2, false, 5), (1, false, 5),
      (0, true, 5)], id1, id2) ∧ id1 ≠ id2 ∧ ∀ dbg, Signal.destroy dbg (signalScript (Signal.new 0)).2 = .ok () :=
  ⟨0, 1, by decide +kernel, by decide, by decide +kernel⟩

/-! ## singleton.cpp -/

/-- `only_one_singleton_instance_can_exist_at_a_time` -/
example : ∀ dbg, ((do Singleton.ctor 1; Singleton.ctor 2 : Meth Singleton.Instance Unit) none).1 = .throw .logic_error ∧
    (do Singleton.ctor 1; Singleton.dtor dbg 1 : Meth Singleton.Instance Unit) none = (.ok (), none) := by decide +kernel

/-! ## exception.cpp -/

open Exception

/-- The exceptions of the tests. -/
def logicError : Exc := .plain .std (str "std::logic_error") (str "some logic error")
def unknownError : Exc := .plain .other (str "(anonymous namespace)::some_unknown_error") []

/-- `to_string__std_exception` -/
example : Exception.toString logicError [] = .ok (str "std::logic_error: some logic error") := by
  simp [logicError, Exception.toString, what, typeName, bind, pure, Res.bind, Pure.pure]
  decide +kernel

/-- `to_string__std_nested_exception`; the names of the classes made by `std::throw_with_nested` are those of libstdc++. -/
def nestedError : Exc :=
  .nest .std (str "std::_Nested_exception<std::invalid_argument>") (str "some argument is invalid")
    (.nest .other (str "std::_Nested_exception<(anonymous namespace)::some_unknown_error>") []
      (.nest .std (str "std::_Nested_exception<std::runtime_error>") (str "some_runtime_error") logicError))
example : Exception.toString nestedError (str "  ") = .ok (str "  std::_Nested_exception<std::invalid_argument>: some argument is invalid\n" ++
    str "  std::_Nested_exception<(anonymous namespace)::some_unknown_error>\n" ++
    str "  std::_Nested_exception<std::runtime_error>: some_runtime_error\n" ++
    str "  std::logic_error: some logic error") := by
  simp [nestedError, logicError, Exception.toString, current, what, typeName, isStd, bind, pure, Res.bind, Pure.pure]
  decide +kernel

/-- `current_exception_to_string` -/
example : currentToString (some unknownError) (str "  ") = .ok (str "  (anonymous namespace)::some_unknown_error") := by
  simp [unknownError, currentToString, current, typeName]
  decide +kernel

/-- The exception of `stacked_exception_to_string` and `stacked_exception_what`, made by three calls of `throw_with_nested`. -/
def stackedError (dbg : Bool) : Res Exc := do
  let e1 ← throwWithNested dbg (some unknownError) (str "S1") logicError
  let e2 ← throwWithNested dbg (some e1) (str "S2") (.plain .std (str "std::runtime_error") (str "some_runtime_error"))
  throwWithNested dbg (some e2) (str "S3") (.plain .std (str "std::invalid_argument") (str "some argument is invalid"))

/-- `stacked_exception_to_string` -/
example : ∀ dbg, (stackedError dbg >>= fun e => member e (str "  ")) = .ok (str "  std::invalid_argument: some argument is invalid\n" ++
    str "  std::runtime_error: some_runtime_error\n" ++
    str "  std::logic_error: some logic error\n" ++
    str "  (anonymous namespace)::some_unknown_error") := by
  intro dbg
  simp [stackedError, throwWithNested, ASSERT, logicError, unknownError, member, Exception.toString, current, what, typeName, isStd, isUtki, bind, pure, Res.bind, Pure.pure]
  decide +kernel

/-- `stacked_exception_what` -/
example : ∀ dbg, (stackedError dbg >>= what) = .ok (str "exception stack:\n" ++ str "- std::invalid_argument: some argument is invalid\n" ++
    str "- std::runtime_error: some_runtime_error\n" ++
    str "- std::logic_error: some logic error\n" ++
    str "- (anonymous namespace)::some_unknown_error") := by
  intro dbg
  simp [stackedError, throwWithNested, ASSERT, logicError, unknownError, member, Exception.toString, current, what, typeName, isStd, isUtki, bind, pure, Res.bind, Pure.pure]
  decide +kernel

/-! ## utility.cpp: `scope_exit`, `scope_exit_release` -/

/-- `flag = true` -/
def setFlag : ScopeExit.Prog Bool := .act 0 (Meth.set true)
/-- The flag after the program. -/
def flagAfter (p : ScopeExit.Prog Bool) : Res Unit × Bool := let out := ScopeExit.exec 10 p ⟨false, [], 0, []⟩; (out.1, out.2.user)
example : flagAfter (.guard (some setFlag) .skip) = (.ok (), true) ∧ flagAfter (.guard (some setFlag) (.release 0 false)) = (.ok (), false) := by
  decide +kernel

end Utki.Conformance
