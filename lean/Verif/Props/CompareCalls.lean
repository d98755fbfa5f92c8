import Verif.Model.CompareCalls
import Verif.Spec.CompareCalls
import Verif.Props.Span
import Verif.Model.OMap
/-! # C140: comparisons whose operators throw or have effects -/
namespace Utki
open CompareCalls RefCompare Spec
variable {σ α β : Type}

theorem methBindAssoc {α β γ : Type} (m : Meth σ α) (f : α → Meth σ β) (g : β → Meth σ γ) : (m >>= f) >>= g = m >>= fun a => f a >>= g := by
  funext s
  simp only [Meth.bind_apply, Meth.bind]
  rcases m s with ⟨r, s'⟩
  cases r <;> rfl

theorem methPureBind {α β : Type} (a : α) (f : α → Meth σ β) : (pure a : Meth σ α) >>= f = f a := rfl

theorem methBindPure {α : Type} (m : Meth σ α) : (m >>= fun a => pure a) = m := by
  funext s
  simp only [Meth.bind_apply, Meth.bind]
  rcases m s with ⟨r, s'⟩
  cases r <;> rfl

theorem noexc_bind {α β : Type} (m : Meth σ α) (f : α → Meth σ β) : noexc (m >>= f) = noexc m >>= fun a => noexc (f a) := by
  funext s
  simp only [noexc, Meth.bind_apply, Meth.bind]
  rcases m s with ⟨r, s'⟩
  cases r <;> rfl

theorem noexc_pure {α : Type} (a : α) : noexc (pure a : Meth σ α) = pure a := rfl

theorem noexc_noexc {α : Type} (m : Meth σ α) : noexc (noexc m) = noexc m := by
  funext s
  simp only [noexc]
  rcases m s with ⟨r, s'⟩
  cases r <;> rfl

/-- The comparison of a list of pairs with numbers of children. -/
def whileSame (eq : α → α → Meth σ Bool) : List ((α × α) × Bool) → Meth σ Bool
  | [] => pure true
  | ((a, b), same) :: l => do
    if ← eq a b then
      if same then whileSame eq l else pure false
    else pure false

theorem ite_bind {α β : Type} (c : Prop) [Decidable c] (m n : Meth σ α) (f : α → Meth σ β) : (if c then m else n) >>= f = if c then m >>= f else n >>= f := by split <;> rfl

theorem noexc_ite {α : Type} (c : Prop) [Decidable c] (m n : Meth σ α) : noexc (if c then m else n) = if c then noexc m else noexc n := by split <;> rfl

theorem whileSame_eq (eq : α → α → Meth σ Bool) : ∀ l : List ((α × α) × Bool),
    whileSame eq l = (do return (← askUntil false eq (upToDifference l)).isNone && l.all (·.2)) := by
  intro l
  induction l with
  | nil => rfl
  | cons x l ih =>
    obtain ⟨⟨a, b⟩, same⟩ := x
    rw [whileSame]
    cases same
    · simp only [upToDifference, List.takeWhile_cons, List.dropWhile_cons, List.take, List.map, askUntil, methBindAssoc, ite_bind, Bool.false_eq_true, if_false, List.nil_append, List.all_cons,
        Bool.false_and, Bool.and_false]
      congr 1; funext r; cases r <;> rfl
    · have : upToDifference (((a, b), true) :: l) = (a, b) :: upToDifference l := by simp [upToDifference]
      rw [this, askUntil, ih, methBindAssoc]
      congr 1; funext r
      cases r
      · rfl
      · simp only [if_true, Bool.true_eq_false, if_false, methBindAssoc, methPureBind]
        congr 1; funext k
        cases k <;> simp

/-- The tree at a path below a tree. -/
def subAt : Tree α → Path → Option (Tree α)
  | t, [] => some t
  | t, j :: q =>
    match t.children[j]? with
    | some c => subAt c q
    | none => none

theorem subtree_subAt (f : List (Tree α)) (i : Nat) (q : Path) : subtree f (i :: q) = (f[i]?).bind (subAt · q) := by
  induction q generalizing f i with
  | nil => cases h : f[i]? <;> simp [subtree, subAt, h]
  | cons j q ih =>
    rw [subtree]
    cases h : f[i]? with
    | none => rfl
    | some t =>
      simp only [Option.bind_some, subAt]
      rw [ih]
      cases t.children[j]? <;> rfl

/-- The lookup of both nodes. -/
def pairAt (A B : Path → Option (Tree α)) (n : Path × α) : Option ((α × α) × Bool) :=
  match A n.1, B n.1 with
  | some a, some b => some ((a.value, b.value), decide (a.children.length = b.children.length))
  | _, _ => none

theorem noexc_eqTree (eq : α → α → Meth σ Bool) (t u : Tree α) : noexc (eqTreeM eq t u) = eqTreeM eq t u := by
  obtain ⟨v, cs⟩ := t
  obtain ⟨w, ds⟩ := u
  rw [eqTreeM, noexc_noexc]

mutual
theorem whileSame_tree (eq : α → α → Meth σ Bool) (A B : Path → Option (Tree α)) : ∀ (t u : Tree α) (p : Path), (∀ q, A (p ++ q) = subAt t q) → (∀ q, B (p ++ q) = subAt u q) → ∀ rest,
    noexc (whileSame eq ((nodesTree p t).filterMap (pairAt A B) ++ rest)) = (do if ← eqTreeM eq t u then noexc (whileSame eq rest) else pure false) := by
  intro t u p hA hB rest
  obtain ⟨v, cs⟩ := t
  obtain ⟨w, ds⟩ := u
  have hp : pairAt A B (p, v) = some ((v, w), decide (cs.length = ds.length)) := by
    have h1 := hA []
    have h2 := hB []
    simp only [List.append_nil, subAt] at h1 h2
    simp [pairAt, h1, h2, Tree.value, Tree.children]
    rfl
  rw [nodesTree, List.filterMap_cons, hp, List.cons_append, whileSame, eqTreeM, noexc_bind, noexc_bind, methBindAssoc]
  congr 1; funext r
  cases r
  · rfl
  · simp only [if_true, decide_eq_true_eq]
    by_cases hl : cs.length = ds.length
    · rw [if_pos hl, if_pos hl]
      exact whileSame_list eq A B cs ds p 0 hl
        (fun j q => by rw [List.append_assoc, List.singleton_append, hA, subAt, Nat.zero_add]; simp only [Tree.children]; cases cs[j]? <;> rfl)
        (fun j q => by rw [List.append_assoc, List.singleton_append, hB, subAt, Nat.zero_add]; simp only [Tree.children]; cases ds[j]? <;> rfl) rest
    · rw [if_neg hl, if_neg hl]; rfl
theorem whileSame_list (eq : α → α → Meth σ Bool) (A B : Path → Option (Tree α)) : ∀ (ts us : List (Tree α)) (p : Path) (i : Nat), ts.length = us.length →
    (∀ j q, A (p ++ [i + j] ++ q) = (ts[j]?).bind (subAt · q)) → (∀ j q, B (p ++ [i + j] ++ q) = (us[j]?).bind (subAt · q)) → ∀ rest,
    noexc (whileSame eq ((nodesList p i ts).filterMap (pairAt A B) ++ rest)) = (do if ← noexc (eqChildrenM eq ts us) then noexc (whileSame eq rest) else pure false) := by
  intro ts us p i hl hA hB rest
  cases ts with
  | nil =>
    cases us with
    | nil => rfl
    | cons u us => simp at hl
  | cons t ts =>
    cases us with
    | nil => simp at hl
    | cons u us =>
      rw [nodesList, List.filterMap_append, List.append_assoc]
      rw [whileSame_tree eq A B t u (p ++ [i]) (fun q => by have := hA 0 q; simpa using this) (fun q => by have := hB 0 q; simpa using this)]
      rw [eqChildrenM, noexc_bind, methBindAssoc, noexc_eqTree]
      congr 1; funext r
      cases r
      · rfl
      · simp only [if_true]
        exact whileSame_list eq A B ts us p (i + 1) (by simpa using hl)
          (fun j q => by have := hA (j + 1) q; rw [show i + 1 + j = i + (j + 1) by omega]; simpa using this)
          (fun j q => by have := hB (j + 1) q; rw [show i + 1 + j = i + (j + 1) by omega]; simpa using this) rest
end

/-- C140: `==` of trees compares the values of nodes with the same path, in pre-order, up to the first difference: values that are not equal, or a different number of children, which is noticed after
the comparison of the values of these nodes. It is true if there is no difference. If one of the comparisons throws the program is terminated. -/
theorem C140_tree (eq : α → α → Meth σ Bool) (t u : Tree α) (s : σ) :
    eqTreeM eq t u s =
      match (do return (← askUntil false eq (upToDifference (together t u))).isNone && (together t u).all (·.2) : Meth σ Bool) s with
      | (.throw _, s') => (.terminate, s')
      | r => r := by
  rw [← whileSame_eq]
  have h := whileSame_list eq (subtree [t]) (subtree [u]) [t] [u] [] 0 rfl (fun j q => by simpa using subtree_subAt [t] j q) (fun j q => by simpa using subtree_subAt [u] j q) []
  rw [List.append_nil] at h
  have h' : eqTreeM eq t u = noexc (whileSame eq (together t u)) := by
    rw [show together t u = (nodesList [] 0 [t]).filterMap (pairAt (subtree [t]) (subtree [u])) from rfl, h, eqChildrenM, noexc_bind, noexc_eqTree, methBindAssoc]
    conv => lhs; rw [← methBindPure (eqTreeM eq t u)]
    congr 1; funext r
    cases r <;> rfl
  rw [h', noexc]
  rcases whileSame eq (together t u) s with ⟨r, s'⟩
  cases r <;> rfl

/-- C140: if comparing two values only tells whether they are equal, `==` of trees does what it does by C44 and nothing else. -/
theorem C140_tree_pure (eq : α → α → Bool) (t u : Tree α) (s : σ) : eqTreeM (fun a b => pure (eq a b)) t u s = (.ok (Tree.eqTree eq t u), s) := by
  have main : (∀ t u : Tree α, eqTreeM (fun a b => (pure (eq a b) : Meth σ Bool)) t u = pure (Tree.eqTree eq t u)) := by
    intro t
    induction t using Tree.rec (motive_2 := fun cs => ∀ ds : List (Tree α), eqChildrenM (fun a b => (pure (eq a b) : Meth σ Bool)) cs ds = pure (Tree.eqChildren eq cs ds)) with
    | node v cs ih =>
      intro u
      obtain ⟨w, ds⟩ := u
      rw [eqTreeM, Tree.eqTree, methPureBind, ih]
      cases h : eq v w
      · rfl
      · by_cases hl : cs.length = ds.length
        · simp [hl, noexc_pure]
        · simp [hl, noexc_pure, show (cs.length == ds.length) = false by simp [hl]]
    | nil => rename_i ds; cases ds <;> rfl
    | cons c cs h1 h2 =>
      rename_i ds
      cases ds with
      | nil => rfl
      | cons d ds =>
        rw [eqChildrenM, Tree.eqChildren, h1, methPureBind, h2]
        cases Tree.eqTree eq c d <;> rfl
  rw [main]; rfl

theorem equalLoopM_eq (eq : α → β → Meth σ Bool) (m1 : List α) (m2 : List β) : ∀ n p q, p + n ≤ m1.length → q + n ≤ m2.length →
    equalLoopM eq m1 m2 n p q = (do return (← askUntil false eq (((m1.drop p).take n).zip ((m2.drop q).take n))).isNone) := by
  intro n
  induction n with
  | zero => intro p q _ _; simp [equalLoopM, askUntil, methPureBind]
  | succ n ih =>
    intro p q hp hq
    rw [List.drop_eq_getElem_cons (show p < m1.length by omega), List.drop_eq_getElem_cons (show q < m2.length by omega), List.take_succ_cons, List.take_succ_cons, List.zip_cons_cons, askUntil, equalLoopM]
    have r1 : rd m1 p = .ok (m1[p]'(by omega)) := by simp [rd, show p < m1.length by omega]
    have r2 : rd m2 q = .ok (m2[q]'(by omega)) := by simp [rd, show q < m2.length by omega]
    rw [r1, r2, methBindAssoc]
    show (eq _ _ >>= _) = _
    congr 1; funext r
    cases r
    · rfl
    · simp only [if_true, Bool.true_eq_false, if_false, methBindAssoc]
      rw [ih _ _ (by omega) (by omega)]
      congr 1; funext k
      cases k <;> rfl

/-- C140: `deep_equals` of spans of different sizes compares no elements; otherwise it compares those with the same index, in order, up to the first that are not equal. An exception of the comparison
leaves it. -/
theorem C140_deep_equals (eq : α → β → Meth σ Bool) (l : Span α) (r : Span β) (hl : l.Valid) (hr : r.Valid) :
    (l.size ≠ r.size → deep_equalsM eq l r = pure false) ∧
    (l.size = r.size → deep_equalsM eq l r = do return (← askUntil false eq (l.contents.zip r.contents)).isNone) := by
  refine ⟨fun h => by rw [deep_equalsM, if_pos h], fun h => ?_⟩
  rw [deep_equalsM, if_neg (by simpa using h), equalLoopM_eq eq _ _ _ _ _ hl (by rw [h]; exact hr)]
  simp only [Span.contents, h]

theorem lexLoopM_eq (lt : α → α → Meth σ Bool) (m1 m2 : List α) : ∀ n1 n2 p q, p + n1 ≤ m1.length → q + n2 ≤ m2.length →
    lexLoopM lt m1 m2 n1 n2 p q = (do
      match ← askUntil true lt (bothWays ((m1.drop p).take n1) ((m2.drop q).take n2)) with
      | some k => return k % 2 = 0
      | none => return n1 < n2) := by
  intro n1
  induction n1 with
  | zero =>
    intro n2 p q _ _
    simp only [List.take_zero, bothWays, askUntil, lexLoopM, methPureBind]
    congr 1
    simp [Nat.pos_iff_ne_zero]
  | succ n1 ih =>
    intro n2 p q hp hq
    cases n2 with
    | zero =>
      simp only [List.take_zero, lexLoopM]
      rw [show bothWays ((m1.drop p).take (n1 + 1)) ([] : List α) = [] by cases (m1.drop p).take (n1 + 1) <;> rfl]
      simp [askUntil, methPureBind]
    | succ n2 =>
      rw [List.drop_eq_getElem_cons (show p < m1.length by omega), List.drop_eq_getElem_cons (show q < m2.length by omega), List.take_succ_cons, List.take_succ_cons, bothWays, askUntil, askUntil, lexLoopM]
      have r1 : rd m1 p = .ok (m1[p]'(by omega)) := by simp [rd, show p < m1.length by omega]
      have r2 : rd m2 q = .ok (m2[q]'(by omega)) := by simp [rd, show q < m2.length by omega]
      rw [r1, r2, methBindAssoc]
      show (lt _ _ >>= _) = _
      congr 1; funext r
      cases r
      · simp only [Bool.false_eq_true, if_false, methBindAssoc]
        congr 1; funext r'
        cases r'
        · simp only [Bool.false_eq_true, if_false, methBindAssoc, methPureBind]
          rw [ih n2 _ _ (by omega) (by omega)]
          congr 1; funext k
          cases k with
          | none => simp
          | some k => simp [show (k + 1 + 1) % 2 = k % 2 by omega]
        · rfl
      · rfl

/-- C140: `deep_less_than` asks for each index in both spans, in order, whether the left element is less than the right one and then whether it is greater, up to the first question that is answered with
yes; the left span is less if this was one of the former, or if there was no such question and it is shorter. An exception of the comparison leaves it. The other comparisons are made of this one. -/
theorem C140_deep_less_than (lt : α → α → Meth σ Bool) (l r : Span α) (hl : l.Valid) (hr : r.Valid) :
    deep_less_thanM lt l r = (do
      match ← askUntil true lt (bothWays l.contents r.contents) with
      | some k => return k % 2 = 0
      | none => return l.size < r.size) ∧
    deep_greater_or_equalsM lt l r = (do return !(← deep_less_thanM lt l r)) ∧ deep_less_or_equalsM lt l r = (do return !(← deep_less_thanM lt r l)) :=
  ⟨lexLoopM_eq lt _ _ _ _ _ _ hl hr, rfl, rfl⟩

/-- C140: `contains` compares the elements of the container with the value, in order, up to the first that is equal. An exception of the comparison leaves it. -/
theorem C140_contains (eq : α → β → Meth σ Bool) (l : List α) (x : β) : containsM eq l x = do return (← askUntil true eq (l.map fun a => (a, x))).isSome := by
  rw [containsM]
  induction l with
  | nil => rfl
  | cons y l ih =>
    rw [findM, List.map_cons, askUntil]
    simp only [methBindAssoc]
    congr 1; funext r
    cases r
    · simp only [Bool.false_eq_true, if_false, methBindAssoc, methPureBind, List.length_cons]
      have : ∀ k : Option Nat, (k.map (· + 1)).isSome = k.isSome := fun k => by cases k <;> rfl
      simp only [this]
      rw [← ih]
      congr 1; funext k
      congr 1
      simp [bne]
    · rfl

/-- C140: with operators that only tell the result, the comparisons of spans and `contains` do what they do by C69 and C67 and nothing else. -/
theorem C140_pure (op : α → α → Bool) (l r : Span α) (c : List α) (x : α) :
    deep_equalsM (σ := σ) (fun a b => pure (op a b)) l r = Meth.lift (Span.deep_equals op l r) ∧
    deep_less_thanM (σ := σ) (fun a b => pure (op a b)) l r = Meth.lift (Span.deep_less_than op l r) ∧
    deep_greater_or_equalsM (σ := σ) (fun a b => pure (op a b)) l r = Meth.lift (Span.deep_greater_or_equals op l r) ∧
    deep_less_or_equalsM (σ := σ) (fun a b => pure (op a b)) l r = Meth.lift (Span.deep_less_or_equals op l r) ∧
    containsM (σ := σ) (fun a b => pure (op a b)) c x = pure (OMap.contains op c x) := by
  have liftBind : ∀ {α β : Type} (m : Res α) (f : α → Res β), (Meth.lift m >>= fun a => Meth.lift (f a) : Meth σ β) = Meth.lift (m >>= f) := by
    intro α β m f
    funext s
    cases m <;> rfl
  have e1 : ∀ (m1 m2 : List α) (n p q : Nat), equalLoopM (σ := σ) (fun a b => pure (op a b)) m1 m2 n p q = Meth.lift (Span.equalLoop op m1 m2 n p q) := by
    intro m1 m2 n
    induction n with
    | zero => intro p q; rfl
    | succ n ih =>
      intro p q
      rw [equalLoopM, Span.equalLoop, ← liftBind]
      congr 1; funext a
      rw [← liftBind]
      congr 1; funext b
      rw [methPureBind, ih]
      cases op a b <;> rfl
  have e2 : ∀ (m1 m2 : List α) (n1 n2 p q : Nat), lexLoopM (σ := σ) (fun a b => pure (op a b)) m1 m2 n1 n2 p q = Meth.lift (Span.lexLoop op m1 m2 n1 n2 p q) := by
    intro m1 m2 n1
    induction n1 with
    | zero => intro n2 p q; simp only [lexLoopM, Span.lexLoop]; rfl
    | succ n1 ih =>
      intro n2 p q
      cases n2 with
      | zero => rfl
      | succ n2 =>
        rw [lexLoopM, Span.lexLoop, ← liftBind]
        congr 1; funext a
        rw [← liftBind]
        congr 1; funext b
        rw [methPureBind, methPureBind, ih]
        cases op a b <;> cases op b a <;> rfl
  have e3 : ∀ l r : Span α, deep_less_thanM (σ := σ) (fun a b => pure (op a b)) l r = Meth.lift (Span.deep_less_than op l r) := fun l r => e2 _ _ _ _ _ _
  refine ⟨?_, e3 l r, ?_, ?_, ?_⟩
  · rw [deep_equalsM, Span.deep_equals, e1]
    split <;> rfl
  · rw [deep_greater_or_equalsM, Span.deep_greater_or_equals, e3, ← liftBind]; rfl
  · rw [deep_less_or_equalsM, Span.deep_less_or_equals, e3, Span.deep_greater_than, ← liftBind]; rfl
  · have e4 : ∀ c : List α, findM (σ := σ) (fun a b => pure (op a b)) x c = pure (OMap.stdFind op x c) := by
      intro c
      induction c with
      | nil => rfl
      | cons y c ih =>
        rw [findM, OMap.stdFind, methPureBind, ih, methPureBind]
        cases op y x <;> rfl
    rw [containsM, e4]; rfl

/-! ### Examples

A comparison of numbers that notes which numbers it compares, and throws for 13. -/
private def exEq (a b : Nat) : Meth (List (Nat × Nat)) Bool := fun s => (if a = 13 then .throw (.user 0) else .ok (a = b), s ++ [(a, b)])
private def exLt (a b : Nat) : Meth (List (Nat × Nat)) Bool := fun s => (if a = 13 then .throw (.user 0) else .ok (a < b), s ++ [(a, b)])

/-- The third pair of nodes has different numbers of children. -/
example : together (.node 1 [.node 2 [], .node 3 [.node 4 []], .node 13 []]) (.node 1 [.node 2 [], .node 3 [], .node 13 []]) = [((1, 1), true), ((2, 2), true), ((3, 3), false), ((13, 13), true)] := by
  decide +kernel

example : eqTreeM exEq (.node 1 [.node 2 [], .node 3 [.node 4 []], .node 13 []]) (.node 1 [.node 2 [], .node 3 [], .node 13 []]) [] = (.ok false, [(1, 1), (2, 2), (3, 3)]) := by decide +kernel

/-- The exception of a comparison ends the program. -/
example : eqTreeM exEq (.node 1 [.node 2 [], .node 13 []]) (.node 1 [.node 2 [], .node 13 []]) [] = (.terminate, [(1, 1), (2, 2), (13, 13)]) := by decide +kernel

example : deep_equalsM exEq (Span.ofList [1, 2, 13]) (Span.ofList [1, 3, 13]) [] = (.ok false, [(1, 1), (2, 3)]) ∧
    deep_equalsM exEq (Span.ofList [1, 2, 13]) (Span.ofList [1, 2, 13]) [] = (.throw (.user 0), [(1, 1), (2, 2), (13, 13)]) := by decide +kernel

example : deep_less_thanM exLt (Span.ofList [1, 5, 13]) (Span.ofList [1, 3, 13, 4]) [] = (.ok false, [(1, 1), (1, 1), (5, 3), (3, 5)]) ∧
    deep_less_thanM exLt (Span.ofList [1, 5]) (Span.ofList [1, 5, 4]) [] = (.ok true, [(1, 1), (1, 1), (5, 5), (5, 5)]) := by decide +kernel

example : containsM exEq [3, 4, 13] 4 [] = (.ok true, [(3, 4), (4, 4)]) ∧ containsM exEq [3, 13, 4] 4 [] = (.throw (.user 0), [(3, 4), (13, 4)]) := by decide +kernel

end Utki
