/-!
# Outcomes and checked memory

The common vocabulary of the model: what a call can result in, and checked access to
contiguous memory.  Nothing here models a function of the repository; it fixes how
C++ notions (undefined behaviour, exceptions, `ASSERT`, `noexcept`) appear in the model.
-/

namespace Utki

/-- A byte: `uint8_t`, and also `char` (its bit pattern). -/
abbrev Byte := BitVec 8

/-- Exception classes thrown by the modelled code. -/
inductive Err where
  | invalid_argument
  | out_of_range
  | logic_error
  | length_error
  | bad_cast
  | bad_alloc
  | user (code : Nat)
  deriving DecidableEq, Repr

/-- Kinds of undefined behaviour that the model distinguishes. -/
inductive UB where
  | oob_read
  | oob_write
  | bad_pointer
  | bad_shift
  | overflow
  | bad_iterator
  | use_after_free
  | null_deref
  | bad_argument
  deriving DecidableEq, Repr

/-- The outcome of running a piece of C++ code. -/
inductive Res (α : Type) where
  /-- returned normally -/
  | ok (a : α)
  /-- an exception left the function -/
  | throw (e : Err)
  /-- undefined behaviour -/
  | ub (u : UB)
  /-- an `ASSERT` failed (debug build) or `std::abort()` was called -/
  | abort
  /-- `std::terminate()`: an exception left a `noexcept` function -/
  | terminate
  /-- does not return -/
  | diverge
  deriving DecidableEq, Repr

namespace Res

/-- Sequencing: anything but `ok` ends the computation. -/
protected def bind {α : Type} {β : Type} : Res α → (α → Res β) → Res β
  | ok a, f => f a
  | throw e, _ => throw e
  | ub u, _ => ub u
  | abort, _ => abort
  | terminate, _ => terminate
  | diverge, _ => diverge

instance : Monad Res where
  pure := Res.ok
  bind := Res.bind

@[simp] theorem pure_eq {α} (a : α) : (pure a : Res α) = .ok a := rfl
@[simp] theorem bind_eq {α β} (r : Res α) (f : α → Res β) : (r >>= f) = r.bind f := rfl
@[simp] theorem ok_bind {α : Type} {β : Type} (a : α) (f : α → Res β) : (Res.ok a).bind f = f a := rfl
@[simp] theorem throw_bind {α : Type} {β : Type} (e) (f : α → Res β) : (Res.throw e : Res α).bind f = .throw e := rfl
@[simp] theorem ub_bind {α : Type} {β : Type} (u) (f : α → Res β) : (Res.ub u : Res α).bind f = .ub u := rfl
@[simp] theorem abort_bind {α : Type} {β : Type} (f : α → Res β) : (Res.abort : Res α).bind f = .abort := rfl
@[simp] theorem terminate_bind {α : Type} {β : Type} (f : α → Res β) : (Res.terminate : Res α).bind f = .terminate := rfl
@[simp] theorem diverge_bind {α : Type} {β : Type} (f : α → Res β) : (Res.diverge : Res α).bind f = .diverge := rfl
@[simp] theorem map_eq {α β} (f : α → β) (r : Res α) : (f <$> r) = r.bind (fun a => .ok (f a)) := rfl

theorem bind_assoc {α β γ} (r : Res α) (f : α → Res β) (g : β → Res γ) :
    (r.bind f).bind g = r.bind (fun a => (f a).bind g) := by
  cases r <;> rfl

instance : LawfulMonad Res := LawfulMonad.mk'
  (id_map := by intro α x; cases x <;> rfl)
  (pure_bind := by intros; rfl)
  (bind_assoc := by intro α β γ x f g; cases x <;> rfl)

theorem bind_eq_ok {α β} {r : Res α} {f : α → Res β} {b : β} :
    r.bind f = .ok b ↔ ∃ a, r = .ok a ∧ f a = .ok b := by
  cases r <;> simp

/-- The call returned normally. -/
def isOk {α} : Res α → Bool
  | ok _ => true
  | _ => false

/-- The call had undefined behaviour. -/
def isUB {α} : Res α → Bool
  | ub _ => true
  | _ => false

end Res

/-- `ASSERT(c)` / `utki::assert(c)`: in a debug build (`dbg`) a false condition aborts, in a
release build the macro expands to nothing. /repo/src/utki/debug.hpp -/
def ASSERT (dbg : Bool) (c : Bool) : Res Unit :=
  if dbg && !c then .abort else .ok ()

@[simp] theorem ASSERT_true (dbg) : ASSERT dbg true = .ok () := by simp [ASSERT]
@[simp] theorem ASSERT_false_false (c) : ASSERT false c = .ok () := by simp [ASSERT]
@[simp] theorem ASSERT_true_false : ASSERT true false = .abort := by simp [ASSERT]
theorem ASSERT_of {dbg c} (h : c = true) : ASSERT dbg c = .ok () := by simp [h]

/-- Read of element `i` of a contiguous object. -/
def rd {α : Type} (mem : List α) (i : Nat) : Res α :=
  match mem[i]? with
  | some a => .ok a
  | none => .ub .oob_read

/-- Write of element `i` of a contiguous object. -/
def wr {α : Type} (mem : List α) (i : Nat) (v : α) : Res (List α) :=
  if i < mem.length then .ok (mem.set i v) else .ub .oob_write

theorem rd_eq_ok {α : Type} {mem : List α} {i : Nat} (h : i < mem.length) : rd mem i = .ok mem[i] := by
  simp [rd, h]
theorem rd_oob {α : Type} {mem : List α} {i : Nat} (h : mem.length ≤ i) : rd mem i = .ub .oob_read := by
  simp [rd, h]
theorem wr_eq_ok {α : Type} {mem : List α} {i : Nat} {v : α} (h : i < mem.length) : wr mem i v = .ok (mem.set i v) := by
  simp [wr, h]

/-- The byte of an ASCII character literal. -/
def ch (c : Char) : Byte := BitVec.ofNat 8 c.toNat

/-- The bytes of an ASCII string literal (used in examples and specifications). -/
def str (s : String) : List Byte := s.toList.map ch

end Utki

namespace Utki

/-- A member function of an object with state `σ`: outcome and the state it leaves behind.
The state is also there after an exception, so "strong exception guarantee" is expressible. -/
def Meth (σ : Type) (α : Type) := σ → Res α × σ

namespace Meth

@[simp] protected def pure {σ : Type} {α : Type} (a : α) : Meth σ α := fun s => (.ok a, s)

/-- Sequencing of statements in a member function. -/
protected def bind {σ : Type} {α : Type} {β : Type} (m : Meth σ α) (f : α → Meth σ β) : Meth σ β := fun s =>
  match m s with
  | (.ok a, s') => f a s'
  | (.throw e, s') => (.throw e, s')
  | (.ub u, s') => (.ub u, s')
  | (.abort, s') => (.abort, s')
  | (.terminate, s') => (.terminate, s')
  | (.diverge, s') => (.diverge, s')

instance {σ : Type} : Monad (Meth σ) where
  pure := Meth.pure
  bind := Meth.bind

/-- read the object's fields -/
def get {σ : Type} : Meth σ σ := fun s => (.ok s, s)
/-- assign the object's fields -/
def set {σ : Type} (s : σ) : Meth σ Unit := fun _ => (.ok (), s)
/-- a computation that does not touch the object -/
def lift {σ : Type} {α : Type} (r : Res α) : Meth σ α := fun s => (r, s)
/-- `throw e` -/
def throw {σ : Type} {α : Type} (e : Err) : Meth σ α := fun s => (.throw e, s)

theorem bind_apply {σ : Type} {α β : Type} (m : Meth σ α) (f : α → Meth σ β) (s : σ) :
    (m >>= f) s = Meth.bind m f s := rfl
theorem pure_apply {σ : Type} {α : Type} (a : α) (s : σ) : (pure a : Meth σ α) s = (.ok a, s) := rfl
theorem bind_ok {σ : Type} {α β : Type} {m : Meth σ α} {f : α → Meth σ β} {s s' : σ} {a : α}
    (h : m s = (.ok a, s')) : (m >>= f) s = f a s' := by
  rw [bind_apply, Meth.bind, h]
theorem bind_throw {σ : Type} {α β : Type} {m : Meth σ α} {f : α → Meth σ β} {s s' : σ} {e : Err}
    (h : m s = (.throw e, s')) : (m >>= f) s = (.throw e, s') := by
  rw [bind_apply, Meth.bind, h]
theorem bind_ub {σ : Type} {α β : Type} {m : Meth σ α} {f : α → Meth σ β} {s s' : σ} {e : UB}
    (h : m s = (.ub e, s')) : (m >>= f) s = (.ub e, s') := by
  rw [bind_apply, Meth.bind, h]
@[simp] theorem get_bind {σ : Type} {β : Type} (f : σ → Meth σ β) (s : σ) : (get >>= f) s = f s s := rfl
@[simp] theorem set_bind {σ : Type} {β : Type} (t : σ) (f : Unit → Meth σ β) (s : σ) : (set t >>= f) s = f () t := rfl
@[simp] theorem lift_ok_bind {σ : Type} {α β : Type} (a : α) (f : α → Meth σ β) (s : σ) :
    (lift (.ok a) >>= f) s = f a s := rfl
@[simp] theorem pure_bind {σ : Type} {α β : Type} (a : α) (f : α → Meth σ β) (s : σ) :
    ((pure a : Meth σ α) >>= f) s = f a s := rfl
@[simp] theorem pure_eval {σ : Type} {α : Type} (a : α) (s : σ) : (pure a : Meth σ α) s = (.ok a, s) := rfl
@[simp] theorem throw_eval {σ : Type} {α : Type} (e) (s : σ) : (throw e : Meth σ α) s = (.throw e, s) := rfl
@[simp] theorem set_eval {σ : Type} (t s : σ) : (set t) s = (.ok (), t) := rfl
@[simp] theorem get_eval {σ : Type} (s : σ) : (get) s = (.ok s, s) := rfl
@[simp] theorem lift_eval {σ : Type} {α : Type} (r : Res α) (s : σ) : (lift r : Meth σ α) s = (r, s) := rfl

end Meth
end Utki
