import Verif.Model.Enum
import Verif.Props.Views
/-!
# Properties of `enum_iterable` and `enum_array` (C70)
-/
namespace Utki
open Enum

variable {α : Type}

theorem iterate_from (w size : Nat) (hw : size < 2 ^ w) (fuel e : Nat) (h : e + fuel = size) : iterate w size fuel e = .ok (List.range' e fuel) := by
  induction fuel generalizing e with
  | zero => unfold iterate; simp at h; simp [h]
  | succ fuel ih =>
    unfold iterate
    rw [if_neg (by omega)]
    have : incr w e = e + 1 := Nat.mod_eq_of_lt (by omega)
    simp [this, ih (e + 1) (by omega), List.range'_succ]

/-- C70: iteration visits `0, ..., enum_size - 1`, each once, in this order, if `enum_size` is a value of the underlying type. -/
theorem C70_iterate (w size : Nat) (hw : size < 2 ^ w) : iterate w size size 0 = .ok (List.range size) := by
  rw [iterate_from w size hw size 0 (by omega), List.range_eq_range']

/-- An operation on an `enum_array`. -/
abbrev EnumWrite (α : Type) := Nat × α

/-- A history of writes. -/
def setAll (dbg : Bool) : List (EnumWrite α) → List α → Res (List α)
  | [], a => .ok a
  | (e, x) :: ws, a => do
    let a ← Enum.set dbg a e x
    setAll dbg ws a

/-- The value last written with the enumerator. -/
def lastWritten (e : Nat) (d : Option α) : List (EnumWrite α) → Option α
  | [] => d
  | (e', x) :: ws => lastWritten e (if e' = e then some x else d) ws

/-- C70: after any history of writes with enumerators the array has the same size and reading with an enumerator gives what was last
written with this enumerator, or what was there before. -/
theorem C70_history (dbg : Bool) (ws : List (EnumWrite α)) (a : List α) (hws : ∀ w ∈ ws, w.1 < a.length) :
    ∃ a', setAll dbg ws a = .ok a' ∧ a'.length = a.length ∧
      ∀ e, e < a.length → ∃ x, Enum.get dbg a' e = .ok x ∧ lastWritten e a[e]? ws = some x := by
  induction ws generalizing a with
  | nil =>
    refine ⟨a, rfl, rfl, ?_⟩
    intro e he
    exact ⟨a[e], by simp [Enum.get, he, rd_eq_ok], by simp [lastWritten, he]⟩
  | cons w ws ih =>
    obtain ⟨e0, x0⟩ := w
    have he0 := hws (e0, x0) (by simp)
    have hset : Enum.set dbg a e0 x0 = .ok (a.set e0 x0) := by simp at he0; simp [Enum.set, he0, wr_eq_ok]
    obtain ⟨a', h1, h2, h3⟩ := ih (a.set e0 x0) (fun w hw => by simpa using hws w (by simp [hw]))
    refine ⟨a', by simp [setAll, hset, h1], by simpa using h2, ?_⟩
    intro e he
    obtain ⟨x, h4, h5⟩ := h3 e (by simpa using he)
    refine ⟨x, h4, ?_⟩
    rw [lastWritten, ← h5]
    congr 1
    rw [List.getElem?_set]
    by_cases hh : e0 = e
    · subst hh; simp [he]
    · simp [hh]

/-- C70: with a value that is no enumerator (`enum_size`, for example), debug builds abort and in release builds it is undefined. -/
theorem C70_outside (dbg : Bool) (a : List α) (e : Nat) (x : α) (h : a.length ≤ e) :
    Enum.get dbg a e = (if dbg then .abort else .ub .oob_read) ∧ Enum.set dbg a e x = (if dbg then .abort else .ub .oob_write) := by
  have hd : decide (e < a.length) = false := by simpa using h
  cases dbg
  · simp [Enum.get, Enum.set, rd_oob h, wr, Nat.not_lt.mpr h]
  · simp [Enum.get, Enum.set, hd]

theorem zipLoop_from (w : Nat) (f : α → Nat → α) (b : List α) : ∀ (a : List α) (fuel : Nat), (a.length + b.length < 2 ^ w) → b.length ≤ fuel →
    Enum.zipLoop w f (a.length + b.length) fuel a.length a.length (a ++ b) =
      .ok (b.zipIdx a.length, a ++ (b.zipIdx a.length).map (fun p => f p.1 p.2)) := by
  induction b with
  | nil => intro a fuel _ _; unfold Enum.zipLoop; simp
  | cons x b ih =>
    intro a fuel hw hf
    obtain ⟨fuel, rfl⟩ : ∃ k, fuel = k + 1 := ⟨fuel - 1, by simp at hf; omega⟩
    unfold Enum.zipLoop
    rw [if_neg (by simp)]
    have h1 : rd (a ++ x :: b) a.length = .ok x := by rw [rd_eq_ok (by simp)]; simp
    have h2 : wr (a ++ x :: b) a.length (f x a.length) = .ok (a ++ f x a.length :: b) := by rw [wr_eq_ok (by simp)]; simp
    have h3 : Views.advance 64 (a ++ f x a.length :: b).length a.length 1 = .ok (a.length + 1) := advance_ok (by omega) (by omega) (by simp) (by simp)
    have h5 : incr w a.length = a.length + 1 := Nat.mod_eq_of_lt (by simp at hw; omega)
    have h4 := ih (a ++ [f x a.length]) fuel (by simp at hw ⊢; omega) (by simp at hf; omega)
    simp only [List.length_append, List.length_cons, List.length_nil, Nat.zero_add, List.append_assoc, List.singleton_append] at h4
    simp only [h1, h2, h3, h5, Res.bind_eq, Res.ok_bind]
    rw [show a.length + (x :: b).length = a.length + 1 + b.length by simp; omega, h4]
    simp

/-- C70: `zip_with_enum()` visits every element, by reference, together with its enumerator, in order. `w ≥ 2`: the underlying type is
not `bool`, which has no signed counterpart. -/
theorem C70_zip_with_enum (w : Nat) (hw2 : 2 ≤ w) (f : α → Nat → α) (a : List α) (hw : a.length < 2 ^ w) (h64 : a.length < 2 ^ 64) :
    zipWithEnum w f a = .ok (a.zipIdx, a.zipIdx.map (fun p => f p.1 p.2)) := by
  obtain ⟨s1, h1, -⟩ := C65_next 64 a.length 0 a.length (by omega) h64 (by omega)
  obtain ⟨s2, h2, -⟩ := C65_next w a.length 0 a.length hw2 h64 (by omega)
  have h3 := zipLoop_from w f a [] a.length (by simpa using hw) (Nat.le_refl _)
  simp only [List.length_nil, Nat.zero_add, List.nil_append] at h3
  simp only [zipWithEnum, Nat.min_self, h1, h2, Res.bind_eq, Res.ok_bind, Nat.zero_add, h3]

/-- 200 enumerators with underlying type `uint8_t`. -/
example : iterate 8 200 200 0 = .ok (List.range 200) := C70_iterate 8 200 (by omega)
example : zipWithEnum 8 (fun x e => x + e) [10, 20, 30] = .ok ([(10, 0), (20, 1), (30, 2)], [10, 21, 32]) := by decide
example : setAll true [(1, 5), (2, 6), (1, 7)] [0, 0, 0] = .ok [0, 7, 6] := by decide

end Utki
