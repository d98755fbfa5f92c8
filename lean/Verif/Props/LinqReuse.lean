import Verif.Spec.LinqReuse
/-!
# Using one aggregator of `linq` several times (C124)
-/
namespace Utki
open Spec Linq

variable {α : Type}

theorem use_konst (moved : (α : Type) → α → α) {γ : Type} (ch : Chain α γ) (c o : List α) :
    Agg.use moved ⟨true, some c, o⟩ ch = some ((run moved ch true c).ret, ⟨true, some c, o⟩) := by
  simp [Agg.use, C50_source_unchanged]

theorem whereLoop_left (moved : α → α) (f : Fn α Bool) (hf : f.takes = false) (ins : α → List α → List α) (c : List α) (o : Out α α) :
    (whereLoop false moved ins f c o).src = o.src ++ c.map fun a => if f.app a then moved a else a := by
  induction c generalizing o with
  | nil => simp [whereLoop]
  | cons e es ih =>
    rw [whereLoop]
    cases h : f.app e <;> simp [ih, passed, hf, h]

theorem groupByLoop_left {κ : Type} (lt : κ → κ → Bool) (moved : α → α) (f : Fn α κ) (c : List α) (o : Out α (κ × List α)) :
    (groupByLoop false moved lt f c o).src = o.src ++ c.map moved := by
  induction c generalizing o with
  | nil => simp [groupByLoop]
  | cons e es ih => rw [groupByLoop, ih]; simp [passed]

theorem run_left (moved : (α : Type) → α → α) {γ : Type} (ch : Chain α γ) (h : Documented ch) (c : List α) :
    (run moved ch false c).src = left (moved α) ch c := by
  have hp : ∀ (t : Bool), c.map (passed false t (moved α)) = if t then c.map (moved α) else c := by
    intro t
    cases t
    · have : passed false false (moved α) = id := by funext a; simp [passed]
      simp [this]
    · have : passed false true (moved α) = moved α := by funext a; simp [passed]
      simp [this]
  cases ch with
  | get => simp [run, left]
  | select f next => simp [run, Linq.select, selectLoop_eq, left, hp]
  | select2 t f next => simp [run, Linq.select2, select2Loop_eq, left, hp]
  | where_ f next => simp [run, Linq.where_, whereLoop_left _ _ h.1, left]
  | groupBy lt f next => simp [run, Linq.groupBy, groupByLoop_left, left]
  | orderBy lt key sort next => simp [run, Linq.orderBy, left]

/-- C124: an aggregator made from an lvalue can be used any number of times: each chain gives what it should for the contents of the variable at
that time, and the chains do not change the variable. -/
theorem C124_lvalue (moved : (α : Type) → α → α) (v : List α) (ss : List (Step α)) (hd : AllDocumented ss) (hl : NoLeave ss) :
    ∃ rs v', steps moved ss (make true v) = some (rs, make true v') ∧ View v ss rs v' := by
  induction ss generalizing v with
  | nil => exact ⟨[], v, rfl, .nil v⟩
  | cons s ss ih =>
    have hd' : AllDocumented ss := fun γ ch h => hd γ ch (List.mem_cons_of_mem _ h)
    have hl' : NoLeave ss := fun x h => hl x (List.mem_cons_of_mem _ h)
    cases s with
    | use ch =>
      obtain ⟨rs, v', h1, h2⟩ := ih v hd' hl'
      refine ⟨⟨_, (run moved ch true v).ret⟩ :: rs, v', ?_, .use (C50_result moved ch (hd _ ch (by simp)) true v) h2⟩
      simp only [make, if_true] at h1 ⊢
      simp [steps, use_konst, h1]
    | write g =>
      obtain ⟨rs, v', h1, h2⟩ := ih (g v) hd' hl'
      exact ⟨rs, v', h1, .write h2⟩
    | leave => exact (hl .leave (List.mem_cons_self ..)).elim

/-- C124: using an aggregator made from an lvalue after the variable is gone is undefined behaviour. -/
theorem C124_dangling (moved : (α : Type) → α → α) (v : List α) (ss ss' : List (Step α)) {γ : Type} (ch : Chain α γ) :
    steps moved (ss ++ .leave :: .use ch :: ss') (make true v) = none := by
  have key : ∀ (ss : List (Step α)) (a : Agg α), a.konst = true → steps moved (ss ++ .leave :: .use ch :: ss') a = none := by
    intro ss
    induction ss with
    | nil => intro a ha; simp [steps, Agg.use, ha]
    | cons s ss ih =>
      intro a ha
      cases s with
      | use ch' =>
        obtain ⟨k, var, o⟩ := a
        simp only at ha
        subst ha
        cases var with
        | none => simp [steps, Agg.use]
        | some c => simp [steps, use_konst, ih]
      | write g =>
        cases hv : a.var with
        | none => simp [steps, hv]
        | some c => simp only [List.cons_append, steps, hv, Option.bind_some]; exact ih _ ha
      | leave => simp only [List.cons_append, steps]; exact ih _ ha
  exact key ss _ rfl

/-- C124: `linq(std::move(v))` leaves the variable empty, and whatever happens to it afterwards does not matter; each chain gives what it should for
what the chains before it left of the collection. -/
theorem C124_owned (moved : (α : Type) → α → α) (v : List α) (ss : List (Step α)) (hd : AllDocumented ss) (hw : WritesAlive ss) :
    (make false v).var = some [] ∧ ∃ rs a, steps moved ss (make false v) = some (rs, a) ∧ Owned (moved α) v ss rs := by
  refine ⟨rfl, ?_⟩
  have key : ∀ (ss : List (Step α)) (var : Option (List α)) (c : List α), AllDocumented ss → (var = none → NoWrite ss) → WritesAlive ss →
      ∃ rs a, steps moved ss ⟨false, var, c⟩ = some (rs, a) ∧ Owned (moved α) c ss rs := by
    intro ss
    induction ss with
    | nil => intro var c _ _ _; exact ⟨[], _, rfl, .nil c⟩
    | cons s ss ih =>
      intro var c hd hn hw
      have hd' : AllDocumented ss := fun γ ch h => hd γ ch (List.mem_cons_of_mem _ h)
      have hn' : var = none → NoWrite ss := fun h x hx => hn h x (List.mem_cons_of_mem _ hx)
      cases s with
      | use ch =>
        have hdc := hd _ ch (by simp)
        obtain ⟨rs, a, h1, h2⟩ := ih var (left (moved α) ch c) hd' hn' hw
        refine ⟨⟨_, (run moved ch false c).ret⟩ :: rs, a, ?_, .use (C50_result moved ch hdc false c) h2⟩
        rw [← run_left moved ch hdc c] at h1
        simp [steps, Agg.use, h1]
      | write g =>
        cases var with
        | none => exact (hn rfl (.write g) (List.mem_cons_self ..)).elim
        | some w =>
          obtain ⟨rs, a, h1, h2⟩ := ih (some (g w)) c hd' (by simp) hw
          exact ⟨rs, a, h1, .write h2⟩
      | leave =>
        have halive : ∀ (l : List (Step α)), NoWrite l → WritesAlive l := by
          intro l
          induction l with
          | nil => intro _; trivial
          | cons x l ihl =>
            intro h
            have h' : NoWrite l := fun y hy => h y (List.mem_cons_of_mem _ hy)
            cases x with
            | use ch => exact ihl h'
            | write g => exact (h (.write g) (List.mem_cons_self ..)).elim
            | leave => exact h'
        obtain ⟨rs, a, h1, h2⟩ := ih none c hd' (fun _ => hw) (halive ss hw)
        exact ⟨rs, a, h1, .leave h2⟩
  exact key ss _ v hd (by simp) hw

/-- C124: as long as the chains start with `select` with functions that take const references, every chain on an aggregator made from an rvalue
gives what it should for the original collection. -/
theorem C124_owned_reading (moved : (α : Type) → α → α) (v : List α) (ss : List (Step α)) (hd : AllDocumented ss) (hw : WritesAlive ss)
    (hr : ∀ (γ : Type) (ch : Chain α γ), Step.use ch ∈ ss → StartsReading ch) :
    ∃ rs a, steps moved ss (make false v) = some (rs, a) ∧ EachGives v ss rs := by
  obtain ⟨rs, a, h1, h2⟩ := (C124_owned moved v ss hd hw).2
  refine ⟨rs, a, h1, ?_⟩
  clear h1 hd hw
  induction h2 with
  | nil c => exact .nil
  | @use γ ch c r ss rs hg _ ih =>
    have hl : left (moved α) ch c = c := by
      have := hr _ ch (by simp)
      cases ch <;> simp_all [StartsReading, left]
    rw [hl] at ih
    exact .use hg (ih fun γ ch h => hr γ ch (List.mem_cons_of_mem _ h))
  | write _ ih => exact .write (ih fun γ ch h => hr γ ch (List.mem_cons_of_mem _ h))
  | leave _ ih => exact .leave (ih fun γ ch h => hr γ ch (List.mem_cons_of_mem _ h))

/-- C124: otherwise it does not: after `get` or `order_by` the collection is empty, after `group_by` all its elements are moved-from, after
`where` those it took. -/
theorem C124_owned_again (moved : (α : Type) → α → α) (v : List α) :
    (∃ a, steps moved [.use .get, .use .get] (make false v) = some ([⟨α, v⟩, ⟨α, []⟩], a)) ∧
    (∀ (κ : Type) (lt : κ → κ → Bool) (key : α → κ) (sort : List α → List α),
      ∃ a, steps moved [.use (.orderBy lt key sort .get), .use .get] (make false v) = some ([⟨α, sort v⟩, ⟨α, []⟩], a)) ∧
    (∀ (κ : Type) (lt : κ → κ → Bool) (f : Fn α κ), StrictTotalOrder lt →
      ∃ m a, steps moved [.use (.groupBy lt f .get), .use .get] (make false v) = some ([⟨κ × List α, m⟩, ⟨α, v.map (moved α)⟩], a) ∧
        IsGrouping lt f.app v m) ∧
    (∀ f : α → Bool, ∃ a, steps moved [.use (.where_ ⟨f, false⟩ .get), .use .get] (make false v) =
      some ([⟨α, v.filter f⟩, ⟨α, v.map fun x => if f x then moved α x else x⟩], a)) := by
  refine ⟨⟨_, rfl⟩, fun κ lt key sort => ⟨_, rfl⟩, fun κ lt f ho => ?_, fun f => ?_⟩
  · refine ⟨(Linq.groupBy false (moved α) lt f v).ret, ⟨false, some [], []⟩, ?_, C48_group_by ho false (moved α) f v⟩
    have := groupByLoop_left lt (moved α) f v ⟨[], [], 0⟩
    simp only [List.nil_append] at this
    simp [steps, Agg.use, make, run, Linq.groupBy, this]
  · have h1 := C47_where false (moved α) ⟨f, false⟩ (.inr rfl) v
    have h2 := whereLoop_left (moved α) ⟨f, false⟩ rfl (fun a l => l ++ [a]) v ⟨[], [], 0⟩
    simp only [List.nil_append] at h2
    refine ⟨⟨false, some [], []⟩, ?_⟩
    simp only [Linq.where_] at h1
    simp [steps, Agg.use, make, run, Linq.where_, h1, h2]

/-- Two queries on one aggregator of an lvalue, with a change of the variable between them. -/
example (moved : (α : Type) → α → α) :
    steps moved [.use (.where_ ⟨fun n : Nat => n % 2 == 0, false⟩ .get), .write (fun l => l ++ [8]),
      .use (.where_ ⟨fun n : Nat => n % 2 == 0, false⟩ .get)] (make true [1, 2, 3, 4]) =
      some ([⟨Nat, [2, 4]⟩, ⟨Nat, [2, 4, 8]⟩], make true [1, 2, 3, 4, 8]) := by
  simp [steps, Agg.use, make, run, Linq.where_, whereLoop, passed]

/-- The same with an aggregator of an rvalue whose elements are left 0 by moving: the second query finds zeros, which are even. -/
example (moved : (α : Type) → α → α) (hm : ∀ n : Nat, moved Nat n = 0) : ∃ a, steps moved
    [.use (.where_ ⟨fun n : Nat => n % 2 == 0, false⟩ .get), .leave, .use (.where_ ⟨fun n : Nat => n % 2 == 0, false⟩ .get)]
      (make false [1, 2, 3, 4]) = some ([⟨Nat, [2, 4]⟩, ⟨Nat, [0, 0]⟩], a) :=
  ⟨⟨false, none, [1, 0, 3, 0]⟩, by simp [steps, Agg.use, make, run, Linq.where_, whereLoop, passed, hm]⟩

/-- The hypotheses of the theorems can be met. -/
example : AllDocumented [.use (.where_ ⟨fun n : Nat => n % 2 == 0, false⟩ .get), .write (fun l => l ++ [8]),
    .use (.select ⟨fun n : Nat => n + 1, true⟩ .get)] ∧
    NoLeave (α := Nat) [.use (.where_ ⟨fun n : Nat => n % 2 == 0, false⟩ .get), .write (fun l => l ++ [8]),
      .use (.select ⟨fun n : Nat => n + 1, true⟩ .get)] ∧
    WritesAlive (α := Nat) [.write (fun l => l ++ [8]), .leave, .use (.select ⟨fun n : Nat => n + 1, false⟩ .get)] := by
  refine ⟨?_, ?_, ?_⟩
  · intro γ ch h
    simp only [List.mem_cons, Step.use.injEq, reduceCtorEq, List.not_mem_nil, or_false, false_or] at h
    rcases h with ⟨rfl, h⟩ | ⟨rfl, h⟩ <;> (cases h; simp [Documented])
  · intro s h
    simp only [List.mem_cons, List.not_mem_nil, or_false] at h
    rcases h with rfl | rfl | rfl <;> trivial
  · intro s h
    simp only [List.mem_cons, List.not_mem_nil, or_false] at h
    subst h
    trivial

end Utki
