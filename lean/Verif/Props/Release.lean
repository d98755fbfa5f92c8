import Verif.Spec.Release
import Verif.Model.Serialize
import Verif.Model.Deserializer
import Verif.Model.Base64
import Verif.Model.Span
import Verif.Model.String
import Verif.Model.WordWrap
import Verif.Model.Parser
import Verif.Model.FloatFrom
import Verif.Model.Tree
import Verif.Model.Flags
import Verif.Model.Enum
import Verif.Model.Views
import Verif.Model.Singleton
import Verif.Model.SharedRef
import Verif.Model.UniqueRef
import Verif.Model.Exception
import Verif.Model.Signal
/-!
# Debug and release builds (C91)

`dbg` is `true` in debug builds and `false` in release builds, in which `ASSERT` and `utki::assert` do nothing.
-/
namespace Utki
open Spec

variable {α β σ : Type}

namespace Release

theorem refl (r : Res α) : SameResult r r := fun _ => rfl
theorem reflM (m : Meth σ α) : SameBehaviour m m := fun _ _ => rfl

theorem bind {d r : Res α} {f g : α → Res β} (h : SameResult d r) (hk : ∀ a, SameResult (f a) (g a)) : SameResult (d.bind f) (r.bind g) := by
  intro hf
  cases d with
  | ok a => rw [h (by simp [Fine])]; exact hk a hf
  | throw e => rw [h (by simp [Fine])]; rfl
  | ub u => exact absurd rfl (hf.2 u)
  | abort => exact absurd rfl hf.1
  | terminate => rw [h (by simp [Fine])]; rfl
  | diverge => rw [h (by simp [Fine])]; rfl

theorem bind' {d r : Res α} {f g : α → Res β} (h : SameResult d r) (hk : ∀ a, SameResult (f a) (g a)) : SameResult (d >>= f) (r >>= g) := bind h hk

theorem assert (c : Bool) : SameResult (ASSERT true c) (ASSERT false c) := by
  intro h
  cases c
  · exact absurd rfl h.1
  · rfl

theorem bindM {d r : Meth σ α} {f g : α → Meth σ β} (h : SameBehaviour d r) (hk : ∀ a, SameBehaviour (f a) (g a)) :
    SameBehaviour (d >>= f) (r >>= g) := by
  intro s hf
  have hs := h s
  rw [Meth.bind_apply] at hf ⊢
  rw [Meth.bind_apply]
  unfold Meth.bind at hf ⊢
  rcases hd : d s with ⟨x, t⟩
  rw [hd] at hs hf
  cases x with
  | ok a => rw [hs (by simp [Fine])]; exact hk a t hf
  | ub u => exact absurd rfl (hf.2 u)
  | abort => exact absurd rfl hf.1
  | _ => rw [hs (by simp [Fine])]

theorem lift {d r : Res α} (h : SameResult d r) : SameBehaviour (Meth.lift d : Meth σ α) (Meth.lift r) := by
  intro s hf
  simp only [Meth.lift_eval] at hf ⊢
  rw [h hf]

/-- Computations in debug-only code: they return or stop the program. -/
def Guard (d : Res α) : Prop := (∃ a, d = .ok a) ∨ d = .abort ∨ ∃ u, d = .ub u

theorem guard {d : Res α} {f : α → Res β} {r : Res β} (hd : Guard d) (hk : ∀ a, SameResult (f a) r) : SameResult (d >>= f) r := by
  intro hf
  rcases hd with ⟨a, rfl⟩ | rfl | ⟨u, rfl⟩
  · exact hk a hf
  · exact absurd rfl hf.1
  · exact absurd rfl (hf.2 u)

theorem guard_assert (b c : Bool) : Guard (ASSERT b c) := by
  unfold ASSERT
  split
  · exact .inr (.inl rfl)
  · exact .inl ⟨_, rfl⟩

theorem guard_bind {d : Res α} {f : α → Res β} (hd : Guard d) (hf : ∀ a, Guard (f a)) : Guard (d >>= f) := by
  rcases hd with ⟨a, rfl⟩ | rfl | ⟨u, rfl⟩
  · exact hf a
  · exact .inr (.inl rfl)
  · exact .inr (.inr ⟨u, rfl⟩)

end Release

/-- Take calls apart. -/
macro "same" : tactic => `(tactic| repeat' first
  | exact Release.refl _
  | exact Release.reflM _
  | assumption
  | exact Release.assert _
  | refine Release.lift ?_
  | refine Release.bind ?_ (fun _ => ?_)
  | refine Release.bind' ?_ (fun _ => ?_)
  | refine Release.bindM ?_ (fun _ => ?_)
  | split)

namespace Release

theorem serializeBeLoop_same {n : Nat} (v : BitVec (8 * n)) (todo index p : Nat) (mem : List Byte) :
    SameResult (serializeBeLoop true v todo index p mem) (serializeBeLoop false v todo index p mem) := by
  induction todo generalizing index p mem with
  | zero => exact refl _
  | succ todo ih =>
    unfold serializeBeLoop
    refine bind' (assert _) (fun _ => bind' (assert _) (fun _ => bind' (refl _) (fun _ => bind' (refl _) (fun _ => ih _ _ _))))

theorem deserializeBeLoop_same {n : Nat} (mem : List Byte) (todo index p : Nat) (ret : BitVec (8 * n)) :
    SameResult (deserializeBeLoop true mem todo index p ret) (deserializeBeLoop false mem todo index p ret) := by
  induction todo generalizing index p ret with
  | zero => exact refl _
  | succ todo ih =>
    unfold deserializeBeLoop
    refine bind' (refl _) (fun _ => bind' (assert _) (fun _ => bind' (refl _) (fun _ => ih _ _ _)))

end Release

/-- C91: big-endian serialization. (The other serialization functions have no assertions.) -/
theorem C91_serialize {n : Nat} (v : BitVec (8 * n)) (f : CFloat) (mem : List Byte) (p : Nat) :
    SameResult (serialize_be true v mem p) (serialize_be false v mem p) ∧
    SameResult (deserialize_be true n mem p) (deserialize_be false n mem p) ∧
    SameResult (serialize_float_be true f mem p) (serialize_float_be false f mem p) ∧
    SameResult (deserialize_float_be true mem p) (deserialize_float_be false mem p) := by
  refine ⟨Release.serializeBeLoop_same _ _ _ _ _, Release.deserializeBeLoop_same _ _ _ _ _, Release.serializeBeLoop_same _ _ _ _ _, ?_⟩
  exact Release.bind' (Release.deserializeBeLoop_same _ _ _ _ _) (fun _ => Release.refl _)

theorem Release.guard_ptrAdd (mem : List α) (p n : Nat) : Release.Guard (Span.ptrAdd mem p n) := by
  unfold Span.ptrAdd
  split
  · exact .inl ⟨_, rfl⟩
  · exact .inr (.inr ⟨_, rfl⟩)

/-- C91: spans. -/
theorem C91_span (s : Span α) (i n : Nat) :
    SameResult (s.get true i) (s.get false i) ∧ SameResult (s.front true) (s.front false) ∧ SameResult (s.back true) (s.back false) ∧
    SameResult (s.subspan true i n) (s.subspan false i n) := by
  have hg : ∀ i, SameResult (s.get true i) (s.get false i) := by
    intro i
    unfold Span.get
    same
  refine ⟨hg i, ?_, ?_, ?_⟩
  · exact Release.bind' (Release.assert _) (fun _ => hg _)
  · exact Release.bind' (Release.assert _) (fun _ => hg _)
  · unfold Span.subspan
    refine Release.bind' (Release.refl _) (fun _ => Release.bind' (Release.refl _) (fun _ => Release.bind' (Release.assert _) (fun _ => ?_)))
    simp only [if_true, Bool.false_eq_true, if_false]
    refine Release.guard ?_ (fun _ => Release.guard (Release.guard_assert _ _) (fun _ => Release.refl _))
    exact Release.guard_ptrAdd _ _ _

namespace Release

theorem call_same (c : DCall) : SameBehaviour (c.run true) (c.run false) := by
  have h1 : ∀ s : Span Byte, ∀ i n, SameResult (s.subspan true i n) (s.subspan false i n) := fun s i n => (C91_span s i n).2.2.2
  have h2 : ∀ s : Span Byte, SameResult (s.front true) (s.front false) := fun s => (C91_span s 0 0).2.1
  have h3 : ∀ mem p, SameResult (deserialize16be true mem p) (deserialize16be false mem p) := fun mem p => deserializeBeLoop_same _ _ _ _ _
  have h4 : ∀ mem p, SameResult (deserialize32be true mem p) (deserialize32be false mem p) := fun mem p => deserializeBeLoop_same _ _ _ _ _
  have h5 : ∀ mem p, SameResult (deserialize64be true mem p) (deserialize64be false mem p) := fun mem p => deserializeBeLoop_same _ _ _ _ _
  have h6 : ∀ mem p, SameResult (deserialize_float_be true mem p) (deserialize_float_be false mem p) := fun mem p => bind' (h4 mem p) (fun _ => refl _)
  cases c <;> simp only [DCall.run, Deserializer.read_uint8, Deserializer.read_uint16_le, Deserializer.read_uint32_le, Deserializer.read_uint64_le,
    Deserializer.read_float_le, Deserializer.read_uint16_be, Deserializer.read_uint32_be, Deserializer.read_uint64_be, Deserializer.read_float_be,
    Deserializer.read_string, Deserializer.read_span, Deserializer.skip] <;>
  (repeat' first
    | exact refl _
    | exact reflM _
    | exact h1 _ _ _
    | exact h2 _
    | exact h3 _ _
    | exact h4 _ _
    | exact h5 _ _
    | exact h6 _ _
    | refine lift ?_
    | refine bindM ?_ (fun _ => ?_)
    | split)

end Release

/-- C91: a deserializer, in any history of calls. -/
theorem C91_deserializer (calls : List DCall) (d : Deserializer) (h : ∀ r ∈ (runCalls true calls d).1, Fine r) :
    runCalls false calls d = runCalls true calls d := by
  induction calls generalizing d with
  | nil => rfl
  | cons c cs ih =>
    simp only [runCalls] at h ⊢
    have h1 := Release.call_same c d (h _ (by simp))
    rw [h1]
    rw [ih _ (fun r hr => h r (by simp [hr]))]

namespace Release

theorem quadLoop_same (sgn : Bool) (s : List Byte) (counter i : Nat) (ret : List Byte) :
    SameResult (Base64.quadLoop true sgn s counter i ret) (Base64.quadLoop false sgn s counter i ret) := by
  induction counter generalizing i ret with
  | zero => exact refl _
  | succ counter ih =>
    unfold Base64.quadLoop
    same
    exact ih _ _

theorem decodeStripped_same (sgn : Bool) (s : List Byte) (n : Nat) :
    SameResult (Base64.decodeStripped true sgn s n) (Base64.decodeStripped false sgn s n) := by
  unfold Base64.decodeStripped
  refine bind' (quadLoop_same _ _ _ _ _) (fun _ => ?_)
  same

end Release

/-- C91: base64. -/
theorem C91_base64 (sgn : Bool) (s : List Byte) : SameResult (Base64.base64_decode true sgn s) (Base64.base64_decode false sgn s) := by
  have h := Release.decodeStripped_same sgn
  unfold Base64.base64_decode
  repeat' first
    | exact Release.refl _
    | exact h _ _
    | refine Release.bind' ?_ (fun _ => ?_)
    | split

namespace Release

theorem wwBreak_same (s : List Byte) (i : Nat) (st : Ww) : SameResult (wwBreak true s i st) (wwBreak false s i st) := by
  unfold wwBreak
  same

theorem wwLoop_same (cpp20 : Bool) (width : BitVec 32) (s : List Byte) (fuel i : Nat) (st : Ww) :
    SameResult (wwLoop cpp20 true width s fuel i st) (wwLoop cpp20 false width s fuel i st) := by
  induction fuel generalizing i st with
  | zero => unfold wwLoop; same
  | succ fuel ih =>
    unfold wwLoop
    split
    · exact refl _
    · refine bind' ?_ (fun _ => ih _ _)
      unfold wwStep
      have := wwBreak_same s i
      repeat' first
        | exact refl _
        | exact this _
        | exact assert _
        | refine bind' ?_ (fun _ => ?_)
        | split

theorem makeStringLoop_same (vs : Nat → Vs) (fuel i : Nat) (buf : List Byte) (n : Nat)
    (h : Fine (makeStringLoop true vs fuel i buf n).1) : makeStringLoop false vs fuel i buf n = makeStringLoop true vs fuel i buf n := by
  induction fuel generalizing i buf n with
  | zero => rfl
  | succ fuel ih =>
    unfold makeStringLoop at h ⊢
    cases hv : vs i with
    | error => rfl
    | text t =>
      simp only [hv] at h ⊢
      cases hw : vsWrite buf n t with
      | ok b =>
        simp only [hw] at h ⊢
        split
        · rename_i hl
          rw [if_pos hl] at h
          by_cases hi : i < 1
          · simp only [hi, decide_true, ASSERT_true] at h ⊢
            exact ih _ _ _ h
          · simp only [hi, decide_false, ASSERT_true_false] at h
            exact absurd rfl h.1
        · rfl
      | _ => rfl

end Release

/-- C91: `word_wrap` and `make_string`, in which a text that grows while it is being formatted fails an assertion. -/
theorem C91_string (cpp20 : Bool) (s : List Byte) (width : BitVec 32) (junk : List Byte) (vs : Nat → Vs) :
    SameResult (word_wrap cpp20 true s width) (word_wrap cpp20 false s width) ∧
    (Fine (make_string_va_list true junk vs).1 → make_string_va_list false junk vs = make_string_va_list true junk vs) := by
  constructor
  · unfold word_wrap
    split
    · exact Release.refl _
    · exact Release.bind' (Release.wwLoop_same _ _ _ _ _ _) (fun _ => Release.refl _)
  · exact Release.makeStringLoop_same _ _ _ _ _

namespace Release

theorem finishNumber_same (zero : α) (res : FromChars α) : SameBehaviour (Parser.finishNumber true zero res) (Parser.finishNumber false zero res) := by
  unfold Parser.finishNumber
  same

end Release

/-- C91: `read_number` of all number types. -/
theorem C91_read_number (w : Nat) (conv : List Byte → CharsFormat → Res FastFloat.from_chars_result) :
    SameBehaviour (Parser.read_numberU true w) (Parser.read_numberU false w) ∧ SameBehaviour (Parser.read_numberS true w) (Parser.read_numberS false w) ∧
    SameBehaviour (Parser.read_number_float true conv) (Parser.read_number_float false conv) := by
  refine ⟨?_, ?_, ?_⟩
  · unfold Parser.read_numberU
    refine Release.bindM (Release.reflM _) (fun _ => Release.bindM (Release.reflM _) (fun b => ?_))
    cases b with
    | none => exact Release.reflM _
    | some base => exact Release.bindM (Release.reflM _) (fun _ => Release.finishNumber_same _ _)
  · unfold Parser.read_numberS
    exact Release.bindM (Release.reflM _) (fun _ => Release.bindM (Release.reflM _) (fun _ => Release.finishNumber_same _ _))
  · unfold Parser.read_number_float
    exact Release.bindM (Release.reflM _) (fun _ => Release.bindM (Release.reflM _) (fun _ => Release.bindM (Release.reflM _)
      (fun _ => Release.finishNumber_same _ _)))

namespace Release
open Trav

theorem guard_getList (f : List (Tree α)) (p : Path) : Guard (getList f p) := by
  unfold getList
  split
  · exact .inl ⟨_, rfl⟩
  · exact .inr (.inr ⟨_, rfl⟩)

theorem guard_endOf (f : List (Tree α)) (p : Path) : Guard (endOf f p) := guard_bind (guard_getList f p) (fun _ => .inl ⟨_, rfl⟩)

theorem guard_back {β : Type} (v : List β) : Guard (back v) := by
  unfold back
  split
  · exact .inl ⟨_, rfl⟩
  · exact .inr (.inr ⟨_, rfl⟩)

theorem guard_iterEq (a b : LIter) : Guard (iterEq a b) := by
  unfold iterEq
  split
  · exact .inl ⟨_, rfl⟩
  · exact .inr (.inr ⟨_, rfl⟩)

theorem guard_validLoop (f : List (Tree α)) (idx : List Nat) (li : Path) : Guard (validLoop f idx li) := by
  induction idx generalizing li with
  | nil => exact .inl ⟨_, rfl⟩
  | cons i rest ih =>
    unfold validLoop
    refine guard_bind (guard_getList f li) (fun l => ?_)
    split
    · exact .inl ⟨_, rfl⟩
    · exact ih _

theorem incr_same (f : List (Tree α)) (it : Iter) : SameResult (incr true f it) (incr false f it) := by
  unfold incr
  refine bind' (assert _) (fun _ => bind' (assert _) (fun _ => bind' (refl _) (fun _ => ?_)))
  simp only [if_true, Bool.false_eq_true, if_false]
  refine guard (guard_back _) (fun _ => guard (guard_endOf _ _) (fun _ => guard (guard_iterEq _ _) (fun _ => guard (guard_assert _ _) (fun _ => ?_))))
  same

theorem descendLoop_same (f : List (Tree α)) (fuel : Nat) (it : Iter) : SameResult (descendLoop true f fuel it) (descendLoop false f fuel it) := by
  induction fuel generalizing it with
  | zero => exact refl _
  | succ fuel ih =>
    unfold descendLoop
    refine bind' (refl _) (fun _ => ?_)
    simp only [if_true, Bool.false_eq_true, if_false]
    refine guard (guard_back _) (fun _ => guard (guard_iterEq _ _) (fun _ => guard (guard_assert _ _) (fun _ => ?_)))
    refine bind' (refl _) (fun _ => bind' (refl _) (fun _ => bind' (refl _) (fun _ => ?_)))
    split
    · exact bind' (refl _) (fun _ => ih _)
    · exact refl _

theorem eraseLoop_same (f : List (Tree α)) (fuel : Nat) (it : Iter) : SameResult (eraseLoop true f fuel it) (eraseLoop false f fuel it) := by
  induction fuel generalizing it with
  | zero => exact refl _
  | succ fuel ih =>
    unfold eraseLoop
    repeat' first
      | exact refl _
      | exact ih _
      | exact assert _
      | refine bind' ?_ (fun _ => ?_)
      | split

end Release

/-- C91: iterators of trees and the functions that use them. -/
theorem C91_tree (f : List (Tree α)) (it : Trav.Iter) (idx : List Nat) :
    SameResult (Trav.incr true f it) (Trav.incr false f it) ∧ SameResult (Trav.decr true f it) (Trav.decr false f it) ∧
    SameResult (Trav.index true it) (Trav.index false it) ∧ SameResult (Trav.at_index true f idx) (Trav.at_index false f idx) ∧
    SameResult (Trav.erase true f it) (Trav.erase false f it) := by
  refine ⟨Release.incr_same f it, ?_, ?_, ?_, ?_⟩
  · unfold Trav.decr
    have := fun n => Release.descendLoop_same f n it
    repeat' first
      | exact Release.refl _
      | exact this _
      | exact Release.assert _
      | refine Release.bind' ?_ (fun _ => ?_)
      | split
  · exact Release.bind' (Release.assert _) (fun _ => Release.refl _)
  · unfold Trav.at_index
    simp only [if_true, Bool.false_eq_true, if_false]
    refine Release.guard ?_ (fun _ => Release.guard (Release.guard_assert _ _) (fun _ => Release.refl _))
    unfold Trav.is_valid
    split
    · exact .inl ⟨_, rfl⟩
    · exact Release.guard_validLoop _ _ _
  · unfold Trav.erase
    have := Release.eraseLoop_same (α := α)
    repeat' first
      | exact Release.refl _
      | exact this _ _ _
      | refine Release.bind' ?_ (fun _ => ?_)
      | split

namespace Release

theorem flags_step_same {N : Nat} (f : Flags N) (o : Flags.Op N) : SameResult (Flags.step true f o) (Flags.step false f o) := by
  cases o <;> simp only [Flags.step, Flags.set, Flags.clear] <;> same

end Release

/-- C91: flags, in any history of operations. -/
theorem C91_flags {N : Nat} (f : Flags N) (e : Int) (ops : List (Flags.Op N)) :
    SameResult (Flags.get true f e) (Flags.get false f e) ∧ SameResult (Flags.orEnum true f e) (Flags.orEnum false f e) ∧
    SameResult (Flags.run true f ops) (Flags.run false f ops) := by
  refine ⟨Release.bind' (Release.assert _) (fun _ => Release.refl _), Release.flags_step_same f (.set e true), ?_⟩
  induction ops generalizing f with
  | nil => exact Release.refl _
  | cons o os ih => exact Release.bind' (Release.flags_step_same f o) (fun f => ih f)

/-- C91: arrays indexed by enumerators, and `skip_front`. -/
theorem C91_arrays (a : List α) (i : Nat) (x : α) (n : Nat) (g : α → α) :
    SameResult (Enum.get true a i) (Enum.get false a i) ∧ SameResult (Enum.set true a i x) (Enum.set false a i x) ∧
    SameResult (Views.skipFront true n g a) (Views.skipFront false n g a) :=
  ⟨Release.bind' (Release.assert _) (fun _ => Release.refl _), Release.bind' (Release.assert _) (fun _ => Release.refl _),
    Release.bind' (Release.assert _) (fun _ => Release.refl _)⟩

/-- C91: singletons. -/
theorem C91_singleton (o : Singleton.Op) : SameBehaviour (Singleton.exec true o) (Singleton.exec false o) := by
  cases o <;> simp only [Singleton.exec, Singleton.dtor, Singleton.inst]
  · exact Release.reflM _
  · same
  · exact Release.reflM _
  · same

namespace Release

theorem shared_step_same (derives : Nat → Nat → Bool) (o : SharedRef.Op) : SameBehaviour (SharedRef.step true derives o) (SharedRef.step false derives o) := by
  cases o <;> simp only [SharedRef.step, SharedRef.convert, SharedRef.fromPtr, SharedRef.cast, SharedRef.get, SharedRef.assertNotNull] <;> same

theorem unique_step_same (o : UniqueRef.Op) : SameBehaviour (UniqueRef.step true o) (UniqueRef.step false o) := by
  cases o <;> simp only [UniqueRef.step, UniqueRef.convert, UniqueRef.fromPtr, UniqueRef.get, UniqueRef.assertNotNull] <;> same

end Release

/-- C91: shared references, in any history: if the debug build gets to the end of it, so does the release build, with the same objects and
references. -/
theorem C91_shared_ref (derives : Nat → Nat → Bool) (ops : List SharedRef.Op) (s t : SharedRef.St) (h : SharedRef.run true derives ops s = some t) :
    SharedRef.run false derives ops s = some t := by
  induction ops generalizing s with
  | nil => exact h
  | cons o os ih =>
    have hs := Release.shared_step_same derives o s
    simp only [SharedRef.run] at h ⊢
    rcases hd : SharedRef.step true derives o s with ⟨r, s'⟩
    rw [hd] at h hs
    cases r with
    | ok a => rw [hs (by simp [Fine])]; exact ih s' h
    | throw e => rw [hs (by simp [Fine])]; exact ih s' h
    | _ => simp at h

/-- C91: unique references likewise. -/
theorem C91_unique_ref (ops : List UniqueRef.Op) (s t : UniqueRef.St) (h : UniqueRef.run true ops s = some t) : UniqueRef.run false ops s = some t := by
  induction ops generalizing s with
  | nil => exact h
  | cons o os ih =>
    have hs := Release.unique_step_same o s
    simp only [UniqueRef.run] at h ⊢
    rcases hd : UniqueRef.step true o s with ⟨r, s'⟩
    rw [hd] at h hs
    cases r with
    | ok a => rw [hs (by simp [Fine])]; exact ih s' h
    | throw e => rw [hs (by simp [Fine])]; exact ih s' h
    | _ => simp at h

/-- C91: `throw_with_nested` and the destructor of `signal`. -/
theorem C91_others {γ α σ : Type} (cur : Option Exception.Exc) (type : List Byte) (e : Exception.Exc) (w : Signal.World γ α σ) :
    SameResult (Exception.throwWithNested true cur type e) (Exception.throwWithNested false cur type e) ∧
    SameResult (Signal.destroy true w) (Signal.destroy false w) :=
  ⟨Release.bind' (Release.assert _) (fun _ => Release.refl _), Release.assert _⟩

/-- C91: so a program composed of such calls behaves in the release build as in the debug build, up to the first failing assertion. -/
theorem C91_compose {d r : Meth σ α} {f g : α → Meth σ β} (h : SameBehaviour d r) (hk : ∀ a, SameBehaviour (f a) (g a)) :
    SameBehaviour (do let a ← d; f a) (do let a ← r; g a) := Release.bindM h hk

/-! The builds do differ when an assertion fails, so the condition is needed; and there are defined debug runs to which the theorems apply. -/

example : Flags.run true (⟨0#3⟩ : Flags 3) [.set 7 true] = .abort ∧ Flags.run false (⟨0#3⟩ : Flags 3) [.set 7 true] = .ok ⟨0#3⟩ := by decide
example : Fine (Flags.run true (⟨0#3⟩ : Flags 3) [.set 1 true, .invert, .clear 0]) := by
  have : Flags.run true (⟨0#3⟩ : Flags 3) [.set 1 true, .invert, .clear 0] = .ok ⟨4#3⟩ := by decide
  rw [this]; simp [Fine]
example : Fine (word_wrap true true (str "one two") 4) := by
  have : word_wrap true true (str "one two") 4 = .ok [str "one", str "two"] := by decide +kernel
  rw [this]; simp [Fine]
example : (SharedRef.run true (fun _ _ => true) [.makeShared 0 false none, .copy 0 none, .get 1] SharedRef.init).isSome = true := by decide

end Utki
