import Verif.Model.TreeNowhere
import Verif.Props.TreeMemory
/-! # C144: iterators of traversals that point nowhere -/
namespace Utki
open Trav Spec
variable {α : Type}

theorem at_stack {f : List (Tree α)} {n : Nat} {it : Iter} (h : At f n it) : ∃ i is, it.iter_stack = i :: is := by
  obtain ⟨p, hp, rfl⟩ := h
  have hne : p ≠ [] := by
    rcases positions_cases hp with ⟨_, t, ht⟩ | ⟨_, rfl⟩
    · rintro rfl; simp [subtree] at ht
    · simp
  have : (canon p).iter_stack.length = p.length := by simp [canon, canonI_length]
  cases hs : (canon p).iter_stack with
  | nil => rw [hs] at this; exact absurd (List.length_eq_zero_iff.mp this.symm) hne
  | cons i is => exact ⟨i, is, rfl⟩

/-- C144: a default-constructed iterator has depth zero and an empty index; it is the one `make_iterator` gives for an empty index, and no other index gives it. -/
theorem C144_made (dbg : Bool) (f : List (Tree α)) : depth nowhere = 0 ∧ index dbg nowhere = .ok [] ∧ ∀ idx, make_iterator f idx = .ok nowhere ↔ idx = [] := by
  refine ⟨rfl, by simp [nowhere, index, indexLoop], fun idx => ⟨fun h => ?_, ?_⟩⟩
  · rcases ((C39_throws_iff f idx).2.mp ⟨_, h⟩) with h' | ⟨t, ht⟩
    · exact h'
    · obtain ⟨it, n, h1, _, h3, _⟩ := C39_make_iterator dbg f idx t ht
      rw [h] at h1
      cases h1
      obtain ⟨i, is, h⟩ := at_stack h3
      simp [nowhere] at h
  · rintro rfl; rfl

/-- C144: it is equal to itself, different from every position of every traversal, and precedes them all; no comparison is undefined. -/
theorem C144_compare (f : List (Tree α)) (n : Nat) (it : Iter) (h : At f n it) :
    (eq nowhere nowhere = .ok true ∧ ne nowhere nowhere = .ok false ∧ lt nowhere nowhere = .ok false ∧ le nowhere nowhere = .ok true) ∧
    (eq nowhere it = .ok false ∧ eq it nowhere = .ok false ∧ ne nowhere it = .ok true ∧ ne it nowhere = .ok true) ∧
    (lt nowhere it = .ok true ∧ le nowhere it = .ok true ∧ gt nowhere it = .ok false ∧ ge nowhere it = .ok false) ∧
    (lt it nowhere = .ok false ∧ le it nowhere = .ok false ∧ gt it nowhere = .ok true ∧ ge it nowhere = .ok true) := by
  obtain ⟨i, is, hi⟩ := at_stack h
  simp [eq, ne, lt, le, gt, ge, nowhere, hi, vecEq, vecLt]

/-- C144: it is what `--` gives at `begin()`, and nowhere else. -/
theorem C144_before_begin (dbg : Bool) (f : List (Tree α)) (n : Nat) (it : Iter) (h : At f n it) : decr dbg f it = .ok nowhere ↔ n = 0 := by
  constructor
  · intro hd
    cases n with
    | zero => rfl
    | succ n =>
      obtain ⟨it', h1, h2⟩ := C38_prev dbg f n it h
      rw [hd] at h1
      cases h1
      obtain ⟨i, is, h⟩ := at_stack h2
      simp [nowhere] at h
  · rintro rfl
    have : it = begin_ := by
      obtain ⟨p, hp, rfl⟩ := h
      obtain ⟨q, hq, e⟩ := (C37_begin_end f).1
      rw [hp] at hq
      cases hq
      exact e.symm
    subst this
    have b1 : back [beginOf []] = .ok (beginOf []) := rfl
    have b2 : back [([] : Path)] = .ok [] := rfl
    have b3 : iterEq (beginOf []) (beginOf []) = .ok true := by simp [iterEq]
    have b4 : pop [beginOf []] = .ok [] := rfl
    have b5 : pop [([] : Path)] = .ok [] := rfl
    simp [decr, begin_, b1, b2, b3, b4, b5, ASSERT, nowhere]

/-- C144: moving it aborts in a debug build and is undefined in a release build, and asks for no memory; using what it points to is undefined, and `at_level` terminates. -/
theorem C144_use (dbg : Bool) (f : List (Tree α)) (t : Tree α) (d : Nat) (plan : List Bool) :
    (incr true f nowhere = .abort ∧ decr true f nowhere = .abort ∧ incr false f nowhere = .ub .oob_read ∧ decr false f nowhere = .ub .oob_read) ∧
    (incrM true f ⟨nowhere, plan⟩ = (.abort, ⟨nowhere, plan⟩) ∧ decrM true f ⟨nowhere, plan⟩ = (.abort, ⟨nowhere, plan⟩) ∧
      incrM false f ⟨nowhere, plan⟩ = (.ub .oob_read, ⟨nowhere, plan⟩) ∧ decrM false f ⟨nowhere, plan⟩ = (.ub .oob_read, ⟨nowhere, plan⟩)) ∧
    star f nowhere = .ub .oob_read ∧ at_level f nowhere d = .terminate ∧ is_last_child f nowhere = .ub .oob_read ∧
    Trav.insert f nowhere t = .ub .oob_read ∧ insert_after f nowhere t = .ub .oob_read ∧ erase dbg f nowhere = .ub .oob_read := by
  have b : ∀ β, back ([] : List β) = .ub .oob_read := fun _ => rfl
  refine ⟨⟨?_, ?_, ?_, ?_⟩, ⟨?_, ?_, ?_, ?_⟩, ?_, ?_, ?_, ?_, ?_, ?_⟩
  · simp [incr, nowhere, ASSERT]
  · simp [decr, nowhere, ASSERT]
  · simp [incr, nowhere, ASSERT, b]
  · simp [decr, nowhere, ASSERT, b]
  · simp [incrM, nowhere, ASSERT, Meth.bind_apply, Meth.bind]
  · simp [decrM, nowhere, ASSERT, Meth.bind_apply, Meth.bind]
  · simp [incrM, nowhere, ASSERT, b, Meth.bind_apply, Meth.bind]
  · simp [decrM, nowhere, ASSERT, b, Meth.bind_apply, Meth.bind]
  · simp [star, nowhere, b]
  · simp [at_level, nowhere]
  · simp [is_last_child, nowhere, b]
  · simp [Trav.insert, nowhere, b]
  · simp [insert_after, nowhere, b]
  · simp [erase, nowhere, b]

/-- Non-vacuity: the last position of a forest with nodes. -/
example : At forest1 (nodes forest1).length (end_ forest1) ∧ (nodes forest1).length = 7 := ⟨(C37_begin_end _).2, by decide +kernel⟩

example : decr true forest1 begin_ = .ok nowhere ∧ lt nowhere (end_ forest1) = .ok true ∧ eq nowhere begin_ = .ok false := by decide +kernel

end Utki
