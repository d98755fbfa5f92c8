import Verif.Props.Linq
/-! # C50: how many elements a chain of `linq` operations copies, exactly -/
namespace Utki
open Spec Linq
namespace Spec

/-- `Copies lvalue ch c n`: the chain on the collection `c` is expected to copy `n` elements. The first operation on an lvalue copies the elements it keeps (`where`, `group_by`, `order_by`) and those it
passes by value; operations on own collections move elements instead, except that `group_by` copies an element to pass it by value, as it needs it afterwards. -/
inductive Copies : {α γ : Type} → Bool → Chain α γ → List α → Nat → Prop
  | get {α : Type} {lvalue : Bool} (c : List α) : Copies lvalue .get c 0
  | select {α β γ : Type} {lvalue : Bool} {f : Fn α β} {next : Chain β γ} {c : List α} {n : Nat} :
      Copies false next (c.map f.app) n → Copies lvalue (.select f next) c ((if lvalue ∧ f.takes then c.length else 0) + n)
  | select2 {α β γ : Type} {lvalue t : Bool} {f : α → Nat → β} {next : Chain β γ} {c : List α} {n : Nat} :
      Copies false next (c.mapIdx fun i x => f x i) n → Copies lvalue (.select2 t f next) c ((if lvalue ∧ t then c.length else 0) + n)
  | where_ {α γ : Type} {lvalue : Bool} {f : Fn α Bool} {next : Chain α γ} {c : List α} {n : Nat} :
      Copies false next (c.filter f.app) n → Copies lvalue (.where_ f next) c ((if lvalue then (c.filter f.app).length else 0) + n)
  | groupBy {α κ γ : Type} {lvalue : Bool} {lt : κ → κ → Bool} {f : Fn α κ} {next : Chain (κ × List α) γ} {c : List α} {m : List (κ × List α)} {n : Nat} :
      IsGrouping lt f.app c m → Copies false next m n →
      Copies lvalue (.groupBy lt f next) c ((if lvalue then c.length else 0) + (if f.takes then c.length else 0) + n)
  | orderBy {α κ γ : Type} {lvalue : Bool} {lt : κ → κ → Bool} {key : α → κ} {sort : List α → List α} {next : Chain α γ} {c s : List α} {n : Nat} :
      IsOrdering lt key c s → Copies false next s n → Copies lvalue (.orderBy lt key sort next) c ((if lvalue then c.length else 0) + n)

theorem Copies.of_eq {α γ : Type} {lvalue : Bool} {ch : Chain α γ} {c : List α} {m n : Nat} (h : Copies lvalue ch c n) (e : m = n) : Copies lvalue ch c m := e ▸ h

end Spec

/-- C50: the number of elements that a chain copies, whatever way its functions take their arguments (predicates of `where` by reference, see C47). -/
theorem C50_copies (moved : (α : Type) → α → α) {α γ : Type} (ch : Chain α γ) (h : Documented ch) (lvalue : Bool) (c : List α) :
    Copies lvalue ch c (Linq.run moved ch lvalue c).copies := by
  induction ch generalizing lvalue with
  | get => exact .get c
  | select f next ih =>
    have := Copies.select (lvalue := lvalue) (f := f) (c := c) (by rw [← C47_select lvalue (moved _) f c]; exact ih h false _)
    refine this.of_eq ?_
    simp only [Linq.run]
    congr 1
    simp only [Linq.select, selectLoop_eq, passedCopies]
    cases lvalue <;> cases f.takes <;> simp
  | select2 t f next ih =>
    have e : (Linq.select2 lvalue (moved _) t f c).ret = c.mapIdx (fun i x => f x i) := by simp [Linq.select2, select2Loop_eq]
    have := Copies.select2 (lvalue := lvalue) (t := t) (f := f) (c := c) (by rw [← e]; exact ih h false _)
    refine this.of_eq ?_
    simp only [Linq.run]
    congr 1
    simp only [Linq.select2, select2Loop_eq, passedCopies]
    cases lvalue <;> cases t <;> simp
  | where_ f next ih =>
    have := Copies.where_ (lvalue := lvalue) (f := f) (c := c) (by rw [← C47_where lvalue (moved _) f (.inr h.1) c]; exact ih h.2 false _)
    refine this.of_eq ?_
    simp only [Linq.run]
    cases lvalue
    · simp [Linq.where_, whereLoop_copies]
    · simp [Linq.where_, whereLoop_copies_lvalue, h.1]
  | groupBy lt f next ih =>
    have := Copies.groupBy (lvalue := lvalue) (C48_group_by h.1 lvalue (moved _) f c) (ih h.2 false _)
    refine this.of_eq ?_
    simp only [Linq.run]
    congr 1
    rw [Linq.groupBy, groupByLoop_copies]
    cases lvalue <;> cases f.takes <;> simp <;> omega
  | orderBy lt key sort next ih =>
    have := Copies.orderBy (lvalue := lvalue) (sort := sort) (C49_order_by h.1 key sort h.2.1 lvalue c) (ih h.2.2 false _)
    refine this.of_eq ?_
    simp only [Linq.run]
    cases lvalue <;> simp [Linq.orderBy]

/-- A key function that takes elements by value, after another operation: three elements of the temporary collection are copied. -/
def keysByValue : Chain Nat (Nat × List Nat) := .select ⟨fun n => n + 1, false⟩ (.groupBy (fun a b => decide (a < b)) ⟨fun n => n % 2, true⟩ .get)

theorem keysByValue_documented : Documented keysByValue :=
  ⟨⟨by simp, by simp only [decide_eq_true_eq]; intros; omega, by intro a b; simp only [decide_eq_true_eq]; omega⟩, trivial⟩

example : (Linq.run (fun _ a => a) keysByValue false [4, 5, 6]).copies = 3 ∧ (Linq.run (fun _ a => a) keysByValue true [4, 5, 6]).copies = 3 := by decide

example : Copies true keysByValue [4, 5, 6] 3 := C50_copies (fun _ a => a) keysByValue keysByValue_documented true [4, 5, 6]

end Utki
