import Verif.Model.Linq
import Verif.Props.OMap
/-!
# Properties of `linq` (C47 - C50)
-/
namespace Utki
open Spec Linq

namespace Spec

open Classical in
/-- `m` is the map from each key that occurs in `c` to the elements of `c` with this key, in their order in `c`. -/
def IsGrouping {α κ : Type} (lt : κ → κ → Bool) (key : α → κ) (c : List α) (m : List (κ × List α)) : Prop :=
  IsMap lt m ∧ ∀ k g, (k, g) ∈ m ↔ g = c.filter (fun x => decide (key x = k)) ∧ g ≠ []

/-- `s` has the same elements as `c` with non-decreasing keys. -/
def IsOrdering {α κ : Type} (lt : κ → κ → Bool) (key : α → κ) (c s : List α) : Prop :=
  s.Perm c ∧ s.Pairwise (fun a b => lt (key b) (key a) = false)

/-- What the standard requires of `std::sort` with comparator `lt`: it permutes the elements and, if `lt` is a strict weak order, sorts them. -/
def SortContract {α : Type} (lt : α → α → Bool) (sort : List α → List α) : Prop :=
  ∀ l, (sort l).Perm l ∧ (StrictWeakOrder lt → Sorted lt (sort l))

/-- What a chain of operations is expected to give. -/
inductive Gives : {α γ : Type} → Chain α γ → List α → List γ → Prop
  | get {α : Type} (c : List α) : Gives .get c c
  | select {α β γ : Type} {f : Fn α β} {next : Chain β γ} {c : List α} {r : List γ} : Gives next (c.map f.app) r → Gives (.select f next) c r
  | select2 {α β γ : Type} {t : Bool} {f : α → Nat → β} {next : Chain β γ} {c : List α} {r : List γ} :
      Gives next (c.mapIdx (fun i x => f x i)) r → Gives (.select2 t f next) c r
  | where_ {α γ : Type} {f : Fn α Bool} {next : Chain α γ} {c : List α} {r : List γ} : Gives next (c.filter f.app) r → Gives (.where_ f next) c r
  | groupBy {α κ γ : Type} {lt : κ → κ → Bool} {f : Fn α κ} {next : Chain (κ × List α) γ} {c : List α} {m : List (κ × List α)} {r : List γ} :
      IsGrouping lt f.app c m → Gives next m r → Gives (.groupBy lt f next) c r
  | orderBy {α κ γ : Type} {lt : κ → κ → Bool} {key : α → κ} {sort : List α → List α} {next : Chain α γ} {c s : List α} {r : List γ} :
      IsOrdering lt key c s → Gives next s r → Gives (.orderBy lt key sort next) c r

/-- The chain is used as documented: predicates of `where` take const references, keys are totally ordered by `<`, and `std::sort` does what
it should. -/
def Documented : {α γ : Type} → Chain α γ → Prop
  | _, _, .get => True
  | _, _, .select _ next => Documented next
  | _, _, .select2 _ _ next => Documented next
  | _, _, .where_ f next => f.takes = false ∧ Documented next
  | _, _, .groupBy lt _ next => StrictTotalOrder lt ∧ Documented next
  | _, _, .orderBy lt key sort next => StrictTotalOrder lt ∧ SortContract (comparer lt key) sort ∧ Documented next

/-- Key functions of `group_by` in the chain take const references. -/
def KeysByReference : {α γ : Type} → Chain α γ → Prop
  | _, _, .get => True
  | _, _, .select _ next => KeysByReference next
  | _, _, .select2 _ _ next => KeysByReference next
  | _, _, .where_ _ next => KeysByReference next
  | _, _, .groupBy _ f next => f.takes = false ∧ KeysByReference next
  | _, _, .orderBy _ _ _ next => KeysByReference next

end Spec

variable {α β κ ν : Type}

theorem selectLoop_eq (konst : Bool) (moved : α → α) (f : Fn α β) (c : List α) (o : Out α β) :
    selectLoop konst moved f c o = ⟨o.ret ++ c.map f.app, o.src ++ c.map (passed konst f.takes moved), o.copies + c.length * passedCopies konst f.takes⟩ := by
  induction c generalizing o with
  | nil => simp [selectLoop]
  | cons e es ih => rw [selectLoop, ih]; simp [Nat.add_mul]; omega

/-- C47: `select` gives the function's result for each element, in order. -/
theorem C47_select (konst : Bool) (moved : α → α) (f : Fn α β) (c : List α) : (Linq.select konst moved f c).ret = c.map f.app := by
  simp [Linq.select, selectLoop_eq]

theorem select2Loop_eq (konst : Bool) (moved : α → α) (t : Bool) (f : α → Nat → β) (c : List α) (i : Nat) (o : Out α β) :
    select2Loop konst moved t f c i o =
      ⟨o.ret ++ c.mapIdx (fun j x => f x (i + j)), o.src ++ c.map (passed konst t moved), o.copies + c.length * passedCopies konst t⟩ := by
  induction c generalizing o i with
  | nil => simp [select2Loop]
  | cons e es ih =>
    rw [select2Loop, ih]
    simp [Nat.add_mul, List.mapIdx_cons, Nat.add_comm, Nat.add_left_comm]
    omega

/-- C47: with a function of two arguments, also the position of the element is passed. -/
theorem C47_select_index (konst : Bool) (moved : α → α) (t : Bool) (f : α → Nat → β) (c : List α) :
    (Linq.select2 konst moved t f c).ret.length = c.length ∧
    ∀ (i : Nat) (x : α), c[i]? = some x → (Linq.select2 konst moved t f c).ret[i]? = some (f x i) := by
  simp only [Linq.select2, select2Loop_eq, List.nil_append, Nat.zero_add, List.length_mapIdx, true_and]
  intro i x h
  simp [h]

theorem whereLoop_eq (konst : Bool) (moved : α → α) (f : Fn α Bool) (h : konst = true ∨ f.takes = false) (c : List α) (o : Out α α) :
    (whereLoop konst moved (fun a l => l ++ [a]) f c o).ret = o.ret ++ c.filter f.app := by
  induction c generalizing o with
  | nil => simp [whereLoop]
  | cons e es ih =>
    have hp : passed konst f.takes moved e = e := by
      rcases h with h | h <;> simp [passed, h]
    rw [whereLoop]
    cases hc : f.app e with
    | true => simp [ih, hp, hc]
    | false => simp [ih, hc]

/-- C47: `where` gives exactly the elements for which the predicate holds, in order. -/
theorem C47_where (konst : Bool) (moved : α → α) (f : Fn α Bool) (h : konst = true ∨ f.takes = false) (c : List α) :
    (Linq.where_ konst moved f c).ret = c.filter f.app := by simp [Linq.where_, whereLoop_eq _ _ _ h]

theorem insert_last {lt : κ → κ → Bool} {k : κ} {v : ν} {m : List (κ × ν)} (h : ∀ p ∈ m, lt p.1 k = true) :
    OMap.insert lt k v m = m ++ [(k, v)] := by
  induction m with
  | nil => rfl
  | cons p m ih =>
    obtain ⟨k', v'⟩ := p
    rw [OMap.insert, if_pos (h (k', v') (by simp)), ih (fun p hp => h p (by simp [hp]))]
    rfl

/-- C47: the same for `std::map` and `std::set`, whose elements are inserted by key. -/
theorem C47_where_map (konst : Bool) (moved : κ × ν → κ × ν) (lt : κ → κ → Bool) (f : Fn (κ × ν) Bool) (h : konst = true ∨ f.takes = false)
    (c : List (κ × ν)) (hc : IsMap lt c) : (whereMap konst moved lt f c).ret = c.filter f.app := by
  have key : ∀ (c : List (κ × ν)) (o : Out (κ × ν) (κ × ν)), IsMap lt c → (∀ p ∈ o.ret, ∀ q ∈ c, lt p.1 q.1 = true) →
      (whereLoop konst moved (fun p l => OMap.insert lt p.1 p.2 l) f c o).ret = o.ret ++ c.filter f.app := by
    intro c
    induction c with
    | nil => intro o _ _; simp [whereLoop]
    | cons e es ih =>
      intro o hc ho
      obtain ⟨h1, h2⟩ := List.pairwise_cons.mp hc
      have hp : passed konst f.takes moved e = e := by
        rcases h with h | h <;> simp [passed, h]
      rw [whereLoop]
      cases hf : f.app e with
      | true =>
        simp only [if_true, hp]
        have hi : OMap.insert lt e.1 e.2 o.ret = o.ret ++ [e] := insert_last (fun p hp => ho p hp e (by simp))
        rw [ih _ h2, hi]
        · simp [hf]
        · rw [hi]
          intro p hp q hq
          rcases List.mem_append.mp hp with hp | hp
          · exact ho p hp q (by simp [hq])
          · rw [List.mem_singleton] at hp; subst hp; exact h1 q hq
      | false =>
        simp only [Bool.false_eq_true, if_false]
        refine (ih _ h2 ?_).trans ?_
        · exact fun p hp q hq => ho p hp q (by simp [hq])
        · simp [hf]
  simpa [whereMap] using key c ⟨[], [], 0⟩ hc (by simp)

/-- C47, limit: a predicate that takes its argument by value, which the check in `where` lets pass if it is not generic, moves the elements out of
an rvalue collection: the result consists of moved-from elements. -/
theorem C47_where_by_value (moved : α → α) (f : α → Bool) (c : List α) :
    (Linq.where_ false moved ⟨f, true⟩ c).ret = (c.filter f).map moved := by
  have key : ∀ (c : List α) (o : Out α α), (whereLoop false moved (fun a l => l ++ [a]) ⟨f, true⟩ c o).ret = o.ret ++ (c.filter f).map moved := by
    intro c
    induction c with
    | nil => intro o; simp [whereLoop]
    | cons e es ih =>
      intro o
      rw [whereLoop]
      cases hc : f e with
      | true => simp [ih, passed, hc]
      | false => simp [ih, hc]
  simpa [Linq.where_] using key c ⟨[], [], 0⟩

/-- Words longer than two letters; a moved-from string is empty. -/
example : (Linq.where_ false (fun _ => str "") ⟨fun s => decide (2 < s.length), false⟩ [str "ab", str "abc", str "abcd"]).ret = [str "abc", str "abcd"] ∧
    (Linq.where_ false (fun _ => str "") ⟨fun s => decide (2 < s.length), true⟩ [str "ab", str "abc", str "abcd"]).ret = [str "", str ""] := by decide

example : (Linq.select2 true (fun _ => 0) false (fun x i => x * 10 + i) [5, 6, 7]).ret = [50, 61, 72] := by decide

theorem upsert_mem_sub {lt : κ → κ → Bool} {k : κ} {d : ν} {f : ν → ν} {m : List (κ × ν)} {p : κ × ν} (o : StrictTotalOrder lt)
    (h : p ∈ OMap.upsert lt k d f m) : p.1 = k ∨ p ∈ m := by
  induction m with
  | nil => left; simp [OMap.upsert] at h; simp [h]
  | cons q m ih =>
    obtain ⟨k', v'⟩ := q
    rw [OMap.upsert] at h
    split at h
    · rcases List.mem_cons.mp h with rfl | h
      · simp
      · rcases ih h with h | h <;> simp [h]
    · split at h
      · rcases List.mem_cons.mp h with rfl | h
        · simp
        · exact .inr h
      · rcases List.mem_cons.mp h with rfl | h
        · left
          have : k' = k := by rcases o.total k' k with h | h | h <;> simp_all
          exact this
        · right; simp [h]

theorem upsert_isMap {lt : κ → κ → Bool} (o : StrictTotalOrder lt) {k : κ} {d : ν} {f : ν → ν} {m : List (κ × ν)} (h : IsMap lt m) :
    IsMap lt (OMap.upsert lt k d f m) := by
  induction m with
  | nil => simp [OMap.upsert, IsMap]
  | cons q m ih =>
    obtain ⟨k', v'⟩ := q
    have hc := List.pairwise_cons.mp h
    rw [OMap.upsert]
    split
    · rename_i hlt
      refine List.pairwise_cons.mpr ⟨?_, ih hc.2⟩
      intro p hp
      rcases upsert_mem_sub o hp with hp | hp
      · rw [hp]; exact hlt
      · exact hc.1 p hp
    · split
      · rename_i hlt
        refine List.pairwise_cons.mpr ⟨?_, h⟩
        intro p hp
        rcases List.mem_cons.mp hp with rfl | hp
        · exact hlt
        · exact o.trans _ _ _ hlt (hc.1 p hp)
      · exact List.pairwise_cons.mpr ⟨hc.1, hc.2⟩

theorem upsert_mem {lt : κ → κ → Bool} (o : StrictTotalOrder lt) {k : κ} {d : ν} {f : ν → ν} {m : List (κ × ν)} (h : IsMap lt m) (p : κ × ν) :
    p ∈ OMap.upsert lt k d f m ↔ (p.1 ≠ k ∧ p ∈ m) ∨ (p.1 = k ∧ ((∃ g, (k, g) ∈ m ∧ p.2 = f g) ∨ ((∀ q ∈ m, q.1 ≠ k) ∧ p.2 = f d))) := by
  induction m with
  | nil =>
    obtain ⟨a, b⟩ := p
    simp [OMap.upsert]
  | cons q m ih =>
    obtain ⟨k', v'⟩ := q
    obtain ⟨a, b⟩ := p
    have hc := List.pairwise_cons.mp h
    rw [OMap.upsert]
    split
    · rename_i hlt
      have hne : k' ≠ k := by rintro rfl; rw [o.irrefl] at hlt; cases hlt
      rw [List.mem_cons, ih hc.2]
      simp only [List.mem_cons, forall_eq_or_imp, Prod.mk.injEq]
      grind
    · split
      · rename_i hnlt hlt
        have hall : ∀ q ∈ (k', v') :: m, q.1 ≠ k := by
          intro q hq he
          rcases List.mem_cons.mp hq with rfl | hq
          · simp only at he; subst he; rw [o.irrefl] at hlt; cases hlt
          · have := o.trans _ _ _ hlt (hc.1 q hq)
            rw [he, o.irrefl] at this; cases this
        rw [List.mem_cons]
        constructor
        · rintro (he | hm)
          · cases he; exact .inr ⟨rfl, .inr ⟨hall, rfl⟩⟩
          · exact .inl ⟨hall _ hm, hm⟩
        · rintro (⟨_, hm⟩ | ⟨rfl, ⟨g, hg, _⟩ | ⟨_, h2⟩⟩)
          · exact .inr hm
          · exact absurd rfl (hall (_, g) hg)
          · simp only at h2; left; rw [h2]
      · rename_i h1 h2
        have he : k' = k := by rcases o.total k' k with h | h | h <;> simp_all
        subst he
        have hall : ∀ q ∈ m, q.1 ≠ k' := by
          intro q hq he
          have := hc.1 q hq
          rw [he, o.irrefl] at this; cases this
        rw [List.mem_cons]
        constructor
        · rintro (he | hm)
          · cases he; exact .inr ⟨rfl, .inl ⟨v', by simp, rfl⟩⟩
          · exact .inl ⟨hall _ hm, by simp [hm]⟩
        · rintro (⟨hn, hm⟩ | ⟨rfl, ⟨g, hg, hb⟩ | ⟨h1, _⟩⟩)
          · rcases List.mem_cons.mp hm with he | hm
            · cases he; exact absurd rfl hn
            · exact .inr hm
          · simp only at hb hg
            rcases List.mem_cons.mp hg with he | hm
            · cases he; left; rw [hb]
            · exact absurd rfl (hall (_, g) hm)
          · exact absurd rfl (h1 (a, v') (by simp))

open Classical in
theorem groupByLoop_eq {lt : κ → κ → Bool} (o : StrictTotalOrder lt) (konst : Bool) (moved : α → α) (f : Fn α κ) (done c : List α) (p : Out α (κ × List α))
    (h : IsGrouping lt f.app done p.ret) : IsGrouping lt f.app (done ++ c) (groupByLoop konst moved lt f c p).ret := by
  induction c generalizing done p with
  | nil => simpa [groupByLoop] using h
  | cons v vs ih =>
    rw [groupByLoop, show done ++ v :: vs = (done ++ [v]) ++ vs by simp]
    apply ih
    obtain ⟨h1, h2⟩ := h
    refine ⟨upsert_isMap o h1, ?_⟩
    intro k g
    rw [upsert_mem o h1]
    simp only [h2, List.filter_append]
    by_cases hk : k = f.app v
    · subst hk
      have hf : List.filter (fun x => decide (f.app x = f.app v)) [v] = [v] := by simp
      rw [hf]
      constructor
      · rintro (⟨h, _⟩ | ⟨_, ⟨g', ⟨hg, _⟩, rfl⟩ | ⟨hn, rfl⟩⟩)
        · exact absurd rfl h
        · exact ⟨by rw [hg], by simp⟩
        · have : List.filter (fun x => decide (f.app x = f.app v)) done = [] := by
            by_cases he : List.filter (fun x => decide (f.app x = f.app v)) done = []
            · exact he
            · exact absurd rfl (hn (f.app v, _) ⟨rfl, he⟩)
          simp [this]
      · rintro ⟨rfl, _⟩
        refine .inr ⟨rfl, ?_⟩
        by_cases he : List.filter (fun x => decide (f.app x = f.app v)) done = []
        · right
          refine ⟨?_, by rw [he]⟩
          rintro ⟨k', g'⟩ hq hk'
          simp only at hk'
          subst hk'
          exact hq.2 (hq.1.trans he)
        · exact .inl ⟨_, ⟨rfl, he⟩, rfl⟩
    · have hf : List.filter (fun x => decide (f.app x = k)) [v] = [] := by simp [Ne.symm hk]
      rw [hf, List.append_nil]
      simp [hk]

/-- C48: `group_by` gives the map from each key that occurs to the elements with this key, in order. -/
theorem C48_group_by {lt : κ → κ → Bool} (o : StrictTotalOrder lt) (konst : Bool) (moved : α → α) (f : Fn α κ) (c : List α) :
    IsGrouping lt f.app c (Linq.groupBy konst moved lt f c).ret := by
  have := groupByLoop_eq o konst moved f [] c ⟨[], [], 0⟩ ⟨by simp [IsMap], by simp⟩
  rwa [List.nil_append] at this

theorem upsert_flatten {lt : κ → κ → Bool} {k : κ} {v : α} (m : List (κ × List α)) :
    ((OMap.upsert lt k [] (fun g => g ++ [v]) m).map (·.2)).flatten.Perm (v :: (m.map (·.2)).flatten) := by
  induction m with
  | nil => simp [OMap.upsert]
  | cons q m ih =>
    obtain ⟨k', v'⟩ := q
    rw [OMap.upsert]
    split
    · simp only [List.map_cons, List.flatten_cons]
      exact (List.Perm.append_left v' ih).trans List.perm_middle
    · split
      · simp
      · simp only [List.map_cons, List.flatten_cons, List.append_assoc, List.singleton_append]
        exact List.perm_middle

/-- C48: the groups together contain each element exactly once. This holds for any comparator. -/
theorem C48_partition (lt : κ → κ → Bool) (konst : Bool) (moved : α → α) (f : Fn α κ) (c : List α) :
    ((Linq.groupBy konst moved lt f c).ret.map (·.2)).flatten.Perm c := by
  have key : ∀ (c : List α) (o : Out α (κ × List α)),
      ((groupByLoop konst moved lt f c o).ret.map (·.2)).flatten.Perm ((o.ret.map (·.2)).flatten ++ c) := by
    intro c
    induction c with
    | nil => intro o; simp [groupByLoop]
    | cons v vs ih =>
      intro o
      rw [groupByLoop]
      refine (ih _).trans ?_
      refine ((upsert_flatten _).append_right vs).trans ?_
      exact List.perm_middle.symm
  simpa [Linq.groupBy] using key c ⟨[], [], 0⟩

/-- Words by their length. -/
example : (Linq.groupBy true (fun _ => str "") (fun a b => decide (a < b)) ⟨List.length, false⟩ [str "ab", str "c", str "de", str "f"]).ret =
    [(1, [str "c", str "f"]), (2, [str "ab", str "de"])] := by decide

theorem comparer_swo {lt : κ → κ → Bool} (o : StrictTotalOrder lt) (key : α → κ) : StrictWeakOrder (comparer lt key) where
  irrefl a := o.irrefl _
  trans a b c := o.trans _ _ _
  incomparable a b c h1 h2 h3 h4 := by
    unfold comparer at *
    have e1 : key a = key b := by rcases o.total (key a) (key b) with h | h | h <;> simp_all
    have e2 : key b = key c := by rcases o.total (key b) (key c) with h | h | h <;> simp_all
    rw [e1, e2]
    exact ⟨o.irrefl _, o.irrefl _⟩

/-- C49: `order_by` gives a permutation of the collection with non-decreasing keys, whatever correct `std::sort` is used. -/
theorem C49_order_by {lt : κ → κ → Bool} (o : StrictTotalOrder lt) (key : α → κ) (sort : List α → List α) (hs : SortContract (comparer lt key) sort)
    (konst : Bool) (c : List α) : IsOrdering lt key c (Linq.orderBy konst sort c).ret := by
  have hr : (Linq.orderBy konst sort c).ret = sort c := by cases konst <;> rfl
  rw [hr]
  exact ⟨(hs c).1, (hs c).2 (comparer_swo o key)⟩

/-- Insertion sort satisfies the contract, so `C49_order_by` is not vacuous. -/
def insertSorted (lt : α → α → Bool) (x : α) : List α → List α
  | [] => [x]
  | y :: l => if lt x y then x :: y :: l else y :: insertSorted lt x l

theorem insertSorted_perm (lt : α → α → Bool) (x : α) (l : List α) : (insertSorted lt x l).Perm (x :: l) := by
  induction l with
  | nil => simp [insertSorted]
  | cons y l ih =>
    rw [insertSorted]
    split
    · rfl
    · exact (List.Perm.cons y ih).trans (List.Perm.swap x y l)

theorem insertSorted_sorted {lt : α → α → Bool} (o : StrictWeakOrder lt) (x : α) (l : List α) (h : Sorted lt l) : Sorted lt (insertSorted lt x l) := by
  induction l with
  | nil => simp [insertSorted, Sorted]
  | cons y l ih =>
    obtain ⟨h1, h2⟩ := List.pairwise_cons.mp h
    rw [insertSorted]
    split
    · rename_i hlt
      refine List.pairwise_cons.mpr ⟨?_, h⟩
      intro z hz
      have asym : ∀ a b, lt a b = true → lt b a = false := by
        intro a b hab
        cases hba : lt b a with
        | false => rfl
        | true => have := o.trans _ _ _ hab hba; rw [o.irrefl] at this; cases this
      rcases List.mem_cons.mp hz with rfl | hz
      · exact asym _ _ hlt
      · cases hzx : lt z x with
        | false => rfl
        | true => have := o.trans _ _ _ hzx hlt; rw [h1 z hz] at this; cases this
    · rename_i hlt
      refine List.pairwise_cons.mpr ⟨?_, ih h2⟩
      intro z hz
      rcases List.mem_cons.mp ((insertSorted_perm lt x l).mem_iff.mp hz) with rfl | hz
      · simpa using hlt
      · exact h1 z hz

example (lt : α → α → Bool) : SortContract lt (fun l => l.foldl (fun s x => insertSorted lt x s) []) := by
  intro l
  have key : ∀ (l s : List α), (l.foldl (fun s x => insertSorted lt x s) s).Perm (s ++ l) ∧
      (StrictWeakOrder lt → Sorted lt s → Sorted lt (l.foldl (fun s x => insertSorted lt x s) s)) := by
    intro l
    induction l with
    | nil => intro s; simp
    | cons x l ih =>
      intro s
      obtain ⟨h1, h2⟩ := ih (insertSorted lt x s)
      refine ⟨?_, fun o hs => h2 o (insertSorted_sorted o x s hs)⟩
      refine h1.trans (((insertSorted_perm lt x s).append_right l).trans ?_)
      exact List.perm_middle.symm
  obtain ⟨h1, h2⟩ := key l []
  exact ⟨by simpa using h1, fun o => h2 o (by simp [Sorted])⟩

theorem whereLoop_src (moved : α → α) (f : Fn α Bool) (ins : α → List α → List α) (c : List α) (o : Out α α) :
    (whereLoop true moved ins f c o).src = o.src ++ c := by
  induction c generalizing o with
  | nil => simp [whereLoop]
  | cons e es ih =>
    rw [whereLoop]
    cases f.app e <;> simp [ih, passed]

theorem groupByLoop_src (lt : κ → κ → Bool) (moved : α → α) (f : Fn α κ) (c : List α) (o : Out α (κ × List α)) :
    (groupByLoop true moved lt f c o).src = o.src ++ c := by
  induction c generalizing o with
  | nil => simp [groupByLoop]
  | cons e es ih => rw [groupByLoop, ih]; simp [passed]

/-- C50: a chain started from an lvalue leaves the collection as it was, whatever the functions are. -/
theorem C50_source_unchanged (moved : (α : Type) → α → α) {α γ : Type} (ch : Chain α γ) (c : List α) : (Linq.run moved ch true c).src = c := by
  have hp : ∀ (t : Bool) (m : α → α), passed true t m = id := by intro t m; funext a; simp [passed]
  cases ch with
  | get => simp [Linq.run]
  | select f next => simp [Linq.run, Linq.select, selectLoop_eq, hp]
  | select2 t f next => simp [Linq.run, Linq.select2, select2Loop_eq, hp]
  | where_ f next => simp [Linq.run, Linq.where_, whereLoop_src]
  | groupBy lt f next => simp [Linq.run, Linq.groupBy, groupByLoop_src]
  | orderBy lt key sort next => simp [Linq.run, Linq.orderBy]

/-- C50: the result of a chain of any length is the composition of what the operations give (C47, C48, C49), from lvalues and from rvalues alike. -/
theorem C50_result (moved : (α : Type) → α → α) {α γ : Type} (ch : Chain α γ) (h : Documented ch) (konst : Bool) (c : List α) :
    Gives ch c (Linq.run moved ch konst c).ret := by
  induction ch generalizing konst with
  | get => exact .get c
  | select f next ih =>
    apply Gives.select
    rw [← C47_select konst (moved _) f c]
    exact ih h false _
  | select2 t f next ih =>
    apply Gives.select2
    have e : (Linq.select2 konst (moved _) t f c).ret = c.mapIdx (fun i x => f x i) := by simp [Linq.select2, select2Loop_eq]
    rw [← e]
    exact ih h false _
  | where_ f next ih =>
    apply Gives.where_
    rw [← C47_where konst (moved _) f (.inr h.1) c]
    exact ih h.2 false _
  | groupBy lt f next ih => exact Gives.groupBy (C48_group_by h.1 konst (moved _) f c) (ih h.2 false _)
  | orderBy lt key sort next ih => exact Gives.orderBy (C49_order_by h.1 key sort h.2.1 konst c) (ih h.2.2 false _)

theorem whereLoop_copies (moved : α → α) (f : Fn α Bool) (ins : α → List α → List α) (c : List α) (o : Out α α) :
    (whereLoop false moved ins f c o).copies = o.copies := by
  induction c generalizing o with
  | nil => simp [whereLoop]
  | cons e es ih =>
    rw [whereLoop]
    cases f.app e <;> simp [ih, passedCopies]

theorem groupByLoop_copies (konst : Bool) (lt : κ → κ → Bool) (moved : α → α) (f : Fn α κ) (c : List α) (o : Out α (κ × List α)) :
    (groupByLoop konst moved lt f c o).copies = o.copies + c.length * ((if f.takes then 1 else 0) + (if konst then 1 else 0)) := by
  induction c generalizing o with
  | nil => simp [groupByLoop]
  | cons e es ih => rw [groupByLoop, ih]; cases konst <;> cases f.takes <;> simp [passedCopies] <;> omega

/-- C50: a chain started from an rvalue copies no element at all. -/
theorem C50_rvalue_no_copies (moved : (α : Type) → α → α) {α γ : Type} (ch : Chain α γ) (h : KeysByReference ch) (c : List α) :
    (Linq.run moved ch false c).copies = 0 := by
  induction ch with
  | get => simp [Linq.run]
  | select f next ih => simp [Linq.run, Linq.select, selectLoop_eq, passedCopies, ih h]
  | select2 t f next ih => simp [Linq.run, Linq.select2, select2Loop_eq, passedCopies, ih h]
  | where_ f next ih => simp [Linq.run, Linq.where_, whereLoop_copies, ih h]
  | groupBy lt f next ih => simp [Linq.run, Linq.groupBy, groupByLoop_copies, ih h.2, h.1]
  | orderBy lt key sort next ih => simp [Linq.run, Linq.orderBy, ih h]

/-- C50: started from an lvalue, each element is copied at most once into the result of the first operation, and once more if its function takes
elements by value; the operations that follow copy nothing. -/
theorem C50_lvalue_copies (moved : (α : Type) → α → α) {α γ : Type} (ch : Chain α γ) (h : KeysByReference ch) (c : List α) :
    (Linq.run moved ch true c).copies ≤ 2 * c.length := by
  have wl : ∀ (f : Fn α Bool) (m : α → α) (c : List α) (o : Out α α), (whereLoop true m (fun a l => l ++ [a]) f c o).copies ≤ o.copies + 2 * c.length := by
    intro f m c
    induction c with
    | nil => intro o; simp [whereLoop]
    | cons e es ih =>
      intro o
      rw [whereLoop]
      cases f.app e with
      | true =>
        simp only [if_true]
        refine Nat.le_trans (ih _) ?_
        simp only [List.length_cons, passedCopies]
        cases f.takes <;> simp <;> omega
      | false =>
        simp only [Bool.false_eq_true, if_false]
        refine Nat.le_trans (ih _) ?_
        simp only [List.length_cons, passedCopies]
        cases f.takes <;> simp <;> omega
  cases ch with
  | get => simp [Linq.run]
  | select f next =>
    simp only [Linq.run, C50_rvalue_no_copies moved next h, Linq.select, selectLoop_eq, passedCopies]
    cases f.takes <;> simp <;> omega
  | select2 t f next =>
    simp only [Linq.run, C50_rvalue_no_copies moved next h, Linq.select2, select2Loop_eq, passedCopies]
    cases t <;> simp <;> omega
  | where_ f next =>
    simp only [Linq.run, C50_rvalue_no_copies moved next h, Linq.where_]
    have := wl f (moved α) c ⟨[], [], 0⟩
    simpa using this
  | groupBy lt f next =>
    simp only [Linq.run, C50_rvalue_no_copies moved next h.2, Linq.groupBy, groupByLoop_copies, h.1]
    simp; omega
  | orderBy lt key sort next =>
    simp only [Linq.run, C50_rvalue_no_copies moved next h, Linq.orderBy]
    simp; omega

theorem whereLoop_copies_lvalue (moved : α → α) (f : Fn α Bool) (c : List α) (o : Out α α) :
    (whereLoop true moved (fun a l => l ++ [a]) f c o).copies =
      o.copies + (c.filter f.app).length + (if f.takes then c.length else 0) := by
  induction c generalizing o with
  | nil => cases f.takes <;> simp [whereLoop]
  | cons e es ih =>
    rw [whereLoop]
    cases hf : f.app e <;> simp only [Bool.false_eq_true, if_false, if_true, ih, List.filter_cons, hf, passedCopies] <;>
      cases f.takes <;> simp <;> omega

/-- C50: started from an lvalue, `where` copies exactly the elements that it selects, and all elements once more if the predicate takes them by
value; `group_by` copies each element once, and `select` only for a function that takes elements by value. -/
theorem C50_lvalue_exact (moved : α → α) (c : List α) :
    (∀ f : Fn α Bool, (Linq.where_ true moved f c).copies = (c.filter f.app).length + (if f.takes then c.length else 0)) ∧
    (∀ f : Fn α β, (Linq.select true moved f c).copies = if f.takes then c.length else 0) ∧
    (∀ (lt : κ → κ → Bool) (f : Fn α κ), (Linq.groupBy true moved lt f c).copies = c.length + if f.takes then c.length else 0) := by
  refine ⟨fun f => ?_, fun f => ?_, fun lt f => ?_⟩
  · simp [Linq.where_, whereLoop_copies_lvalue]
  · rw [Linq.select, selectLoop_eq]
    cases f.takes <;> simp [passedCopies]
  · rw [Linq.groupBy, groupByLoop_copies]
    cases f.takes <;> simp <;> omega

/-- Example of a chain: even numbers, grouped by their last digit, and the sizes of the groups. -/
def sizesOfGroups : Chain Nat Nat :=
  .where_ ⟨fun n => n % 2 == 0, false⟩ (.groupBy (fun a b => decide (a < b)) ⟨fun n => n % 10, false⟩ (.select ⟨fun p => p.2.length, true⟩ .get))

example : Documented sizesOfGroups ∧ KeysByReference sizesOfGroups :=
  ⟨⟨rfl, natLt_total, trivial⟩, ⟨rfl, trivial⟩⟩
example : (Linq.run (fun _ a => a) sizesOfGroups true [12, 3, 2, 14, 22]).ret = [3, 1] := by decide

end Utki
