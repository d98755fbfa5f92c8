import Verif.Spec.TreeInit
import Mathlib.Tactic.Common
/-!
# Trees from braced lists (C131)

`make T dr i` is the tree that the initializer `i` makes: `none` if it does not compile, otherwise the outcome. `dr` tells whether the compiler takes a list
of one tree for that tree (both kinds of compilers exist). Model: `Model/TreeInit`.
-/
namespace Utki
open Spec TreeInit
variable {α : Type}

/-- `element_type` is a class: every list in braces has initialized nodes. -/
theorem noInit_class {T : ValueType α} (h : T.scalar = false) : T.noInit = some T.default := by simp [ValueType.noInit, h]
theorem noInit_scalar {T : ValueType α} (h : T.scalar = true) : T.noInit = none := by simp [ValueType.noInit, h]

theorem kind_init (T : ValueType α) (dr : Bool) (s : Shape α) : (info T dr s.init).kind = .tree ↔ ∃ t, s = .tree t := by
  cases s <;> simp [Shape.init, info]

theorem copyList_ok {l : List (Node α)} (h : initializedList l = true) : copyList l = .ok l := by simp [copyList, h]
theorem copyTree_ok {t : Node α} (h : initialized t = true) : copyTree t = .ok t := by simp [copyTree, h]

theorem ofList_ok {T : ValueType α} {l : List (Node α)} (h : initializedList l = true) : ofList T (.ok l) = .ok (.node T.noInit l) := by
  simp [ofList, copyList_ok h]
theorem ofList_ub {T : ValueType α} {l : List (Node α)} (h : initializedList l = false) : ofList T (.ok l) = .ub .bad_argument := by
  simp [ofList, copyList, h]

mutual
theorem init_class {T : ValueType α} (hT : T.scalar = false) (dr : Bool) : ∀ s : Shape α, s.Plain →
    (∃ r, (info T dr s.init).toTree = some (r, .ok (s.meaning T.noInit T.default))) ∧ initialized (s.meaning T.noInit T.default) = true
  | .value v, _ => by simp [Shape.init, info, ofValue, Shape.meaning, initialized, initializedList]
  | .tree t, h => by
    have h' : initialized t = true := h
    simp [Shape.init, info, Shape.meaning, copyTree_ok h', h']
  | .container c, h => by
    have h' : initializedList c = true := h
    simp [Shape.init, info, Shape.meaning, copyList_ok h', ofCont, noInit_class hT, initialized, h']
  | .list [], _ => by
    simp [Shape.init, Shape.inits, info, infos, listToTree, ofValue, Shape.meaning, initialized, initializedList]
  | .list (e :: es), h => by
    obtain ⟨hs, hp⟩ := h
    obtain ⟨⟨r, hr⟩, hi⟩ := inits_class hT dr (e :: es) hp
    refine ⟨⟨.user, ?_⟩, ?_⟩
    · have hk : (dr && (infos T dr (Shape.inits es)).isEmpty && (info T dr e.init).kind = .tree) = false := by
        cases es with
        | nil =>
          have : ¬ (info T dr e.init).kind = .tree := by
            rw [kind_init]
            rintro ⟨t, rfl⟩
            simp [Shape.single] at hs
          simp [this]
        | cons e' es => simp [Shape.inits, infos]
      have hl : listToTree T dr (info T dr e.init :: infos T dr (Shape.inits es)) =
          some (.user, ofList T (.ok (Shape.meanings T.noInit T.default (e :: es)))) := by
        unfold listToTree
        simp only [hk, Bool.false_eq_true, if_false]
        simp only [Shape.inits, infos] at hr
        rw [hr]
      simp only [Shape.init, Shape.inits, info, infos]
      rw [hl, ofList_ok hi]
      rfl
    · simp only [Shape.meaning, initialized, noInit_class hT, Option.isSome_some, Bool.true_and]
      rw [noInit_class hT] at hi
      exact hi
theorem inits_class {T : ValueType α} (hT : T.scalar = false) (dr : Bool) : ∀ es : List (Shape α), Shape.AllPlain es →
    (∃ r, elements (infos T dr (Shape.inits es)) = some (r, .ok (Shape.meanings T.noInit T.default es))) ∧
      initializedList (Shape.meanings T.noInit T.default es) = true
  | [], _ => by simp [Shape.inits, infos, elements, Shape.meanings, initializedList]
  | e :: es, h => by
    obtain ⟨⟨r, hr⟩, hi⟩ := init_class hT dr e h.1
    obtain ⟨⟨s, hs⟩, hj⟩ := inits_class hT dr es h.2
    refine ⟨⟨r.worst s, ?_⟩, ?_⟩
    · simp [Shape.inits, infos, elements, hr, hs, Shape.meanings]
    · simp [Shape.meanings, initializedList, hi, hj]
end

/-- C131: nested lists in braces of values of a class type make the tree of that form, on every compiler, as long as no list consists of just one tree. -/
theorem C131_lists {T : ValueType α} (hT : T.scalar = false) (dr : Bool) {s : Shape α} (hs : s.Plain) :
    make T dr s.init = some (.ok (s.meaning (some T.default) T.default)) := by
  obtain ⟨⟨r, hr⟩, -⟩ := init_class hT dr s hs
  unfold make
  rw [hr, noInit_class hT]
  rfl

theorem elements_tree {T : ValueType α} {dr : Bool} {e : Shape α} {es : List (Shape α)} (hs : Shape.single (e :: es) = false) {r : Rank} {l : Res (List (Node α))}
    (hr : elements (infos T dr (Shape.inits (e :: es))) = some (r, l)) : (info T dr (Shape.list (e :: es)).init).toTree = some (.user, ofList T l) := by
  have hk : (dr && (infos T dr (Shape.inits es)).isEmpty && (info T dr e.init).kind = .tree) = false := by
    cases es with
    | nil =>
      have : ¬ (info T dr e.init).kind = .tree := by
        rw [kind_init]
        rintro ⟨t, rfl⟩
        simp [Shape.single] at hs
      simp [this]
    | cons e' es => simp [Shape.inits, infos]
  simp only [Shape.init, Shape.inits, info, infos]
  unfold listToTree
  simp only [hk, Bool.false_eq_true, if_false]
  simp only [Shape.inits, infos] at hr
  rw [hr]

mutual
theorem init_scalar {T : ValueType α} (hT : T.scalar = true) (dr : Bool) : ∀ s : Shape α, s.Plain →
    ∃ r x, (info T dr s.init).toTree = some (r, x) ∧
      ((s.Flat ∧ x = .ok (s.meaning none T.default) ∧ initialized (s.meaning none T.default) = true) ∨
        (¬ s.Flat ∧ (x = .ub .bad_argument ∨ ∃ m, x = .ok m ∧ initialized m = false)))
  | .value v, _ => by simp [Shape.init, info, ofValue, Shape.meaning, initialized, initializedList, Shape.Flat]
  | .tree t, h => by
    have h' : initialized t = true := h
    simp [Shape.init, info, Shape.meaning, copyTree_ok h', h', Shape.Flat]
  | .container c, h => by
    have h' : initializedList c = true := h
    simp [Shape.init, info, copyList_ok h', ofCont, noInit_scalar hT, initialized, Shape.Flat]
  | .list [], _ => by
    simp [Shape.init, Shape.inits, info, infos, listToTree, ofValue, Shape.meaning, initialized, initializedList, Shape.Flat]
  | .list (e :: es), h => by
    obtain ⟨r, x, hr, hx⟩ := inits_scalar hT dr (e :: es) h.2
    refine ⟨.user, ofList T x, elements_tree h.1 hr, .inr ⟨by simp [Shape.Flat], ?_⟩⟩
    rcases hx with ⟨-, rfl, hi⟩ | ⟨-, rfl | ⟨m, rfl, hi⟩⟩
    · exact .inr ⟨_, ofList_ok hi, by simp [initialized, noInit_scalar hT]⟩
    · exact .inl rfl
    · exact .inl (ofList_ub hi)
theorem inits_scalar {T : ValueType α} (hT : T.scalar = true) (dr : Bool) : ∀ es : List (Shape α), Shape.AllPlain es →
    ∃ r x, elements (infos T dr (Shape.inits es)) = some (r, x) ∧
      (((∀ e ∈ es, e.Flat) ∧ x = .ok (Shape.meanings none T.default es) ∧ initializedList (Shape.meanings none T.default es) = true) ∨
        (¬ (∀ e ∈ es, e.Flat) ∧ (x = .ub .bad_argument ∨ ∃ m, x = .ok m ∧ initializedList m = false)))
  | [], _ => by simp [Shape.inits, infos, elements, Shape.meanings, initializedList]
  | e :: es, h => by
    obtain ⟨r, x, hr, hx⟩ := init_scalar hT dr e h.1
    obtain ⟨s, y, hs, hy⟩ := inits_scalar hT dr es h.2
    refine ⟨r.worst s, x.bind fun t => y.bind fun ts => .ok (t :: ts), by simp only [Shape.inits, infos, elements, hr, hs]; rfl, ?_⟩
    rcases hx with ⟨fx, rfl, ix⟩ | ⟨fx, hx⟩
    · rcases hy with ⟨fy, rfl, iy⟩ | ⟨fy, hy⟩
      · left
        refine ⟨by simpa using ⟨fx, fy⟩, by simp [Shape.meanings], by simp [Shape.meanings, initializedList, ix, iy]⟩
      · right
        refine ⟨fun hc => fy fun e he => hc e (by simp [he]), ?_⟩
        rcases hy with rfl | ⟨m, rfl, im⟩
        · simp
        · simp [initializedList, im]
    · right
      refine ⟨fun hc => fx (hc e (by simp)), ?_⟩
      rcases hx with rfl | ⟨m, rfl, im⟩
      · simp
      · rcases hy with ⟨-, rfl, -⟩ | ⟨-, rfl | ⟨m', rfl, -⟩⟩
        · simp [initializedList, im]
        · simp
        · simp [initializedList, im]
end

/-- C131: for values of scalar types a list in braces of values, initialized trees and `{}` makes a node with these children whose value is indeterminate. If the list contains
a container, or a list that is not empty, the behaviour is undefined: an indeterminate value is copied. -/
theorem C131_scalars {T : ValueType α} (hT : T.scalar = true) (dr : Bool) {es : List (Shape α)} (hne : es ≠ []) (hs : (Shape.list es).Plain) :
    ((∀ e ∈ es, e.Flat) → make T dr (Shape.list es).init = some (.ok (.node none (Shape.meanings none T.default es)))) ∧
    (¬ (∀ e ∈ es, e.Flat) → make T dr (Shape.list es).init = some (.ub .bad_argument)) := by
  obtain ⟨e, es, rfl⟩ := List.exists_cons_of_ne_nil hne
  obtain ⟨r, x, hr, hx⟩ := inits_scalar hT dr (e :: es) hs.2
  have ht := elements_tree hs.1 hr
  unfold make
  rw [ht]
  rcases hx with ⟨hf, rfl, hi⟩ | ⟨hf, hx⟩
  · exact ⟨fun _ => by rw [ofList_ok hi, noInit_scalar hT]; rfl, fun h => absurd hf h⟩
  · refine ⟨fun h => absurd h hf, fun _ => ?_⟩
    rcases hx with rfl | ⟨m, rfl, hi⟩
    · rfl
    · rw [ofList_ub hi]; rfl

/-- What `{...}` is as a second argument. -/
theorem second_arg {T : ValueType α} {dr : Bool} {es : List (Shape α)} (hc : dr = true → Shape.singleContainer es = false) {v : α} {r : Rank} {l : List (Node α)}
    (hr : elements (infos T dr (Shape.inits es)) = some (r, .ok l)) (hi : initializedList l = true) (a : Info α) (ha : ∃ q, a.toValue = some (q, v)) :
    pick (candidates2 a (info T dr (Shape.list es).init)) = some (.ok (.node (some v) l)) := by
  obtain ⟨q, ha⟩ := ha
  have hk : listToCont dr (infos T dr (Shape.inits es)) = some (.user, .ok l) := by
    unfold listToCont
    match es, hc, hr with
    | [], _, hr => simp only [Shape.inits, infos] at hr ⊢; simp [hr, copyList_ok hi]
    | [e], hc, hr =>
      simp only [Shape.inits, infos] at hr ⊢
      have : (dr && (info T dr e.init).kind = .cont) = false := by
        cases dr
        · rfl
        · have := hc rfl
          cases e <;> simp [Shape.singleContainer, Shape.init, info] at this ⊢
      simp only [this, Bool.false_eq_true, if_false]
      simp [hr, copyList_ok hi]
    | e :: e' :: es, _, hr => simp only [Shape.inits, infos] at hr ⊢; simp [hr, copyList_ok hi]
  have hl : (info T dr (Shape.list es).init).toList = some (r, .ok l) := by simpa [Shape.init, info] using hr
  have hc' : (info T dr (Shape.list es).init).toCont = some (.user, .ok l) := by simpa [Shape.init, info] using hk
  unfold candidates2
  rw [ha, hl, hc']
  cases r <;> simp [pick, ofValueList, copyList_ok hi]

/-- C131: `tree(v, {...})` makes a node with the value and the children in the list. For scalars the list must not contain nodes made by lists of children. -/
theorem C131_value_and_list (T : ValueType α) (dr : Bool) (v : α) {es : List (Shape α)} (hs : Shape.AllPlain es) (hc : dr = true → Shape.singleContainer es = false)
    (hf : T.scalar = true → ∀ e ∈ es, e.Flat) :
    make T dr (.call2 (.val v) (Shape.list es).init) = some (.ok (.node (some v) (Shape.meanings T.noInit T.default es))) ∧
    make T dr (.call2 (.conv v) (Shape.list es).init) = some (.ok (.node (some v) (Shape.meanings T.noInit T.default es))) := by
  have key : ∃ r, elements (infos T dr (Shape.inits es)) = some (r, .ok (Shape.meanings T.noInit T.default es)) ∧
      initializedList (Shape.meanings T.noInit T.default es) = true := by
    cases hT : T.scalar
    · obtain ⟨⟨r, h⟩, hi⟩ := inits_class hT dr es hs
      exact ⟨r, h, hi⟩
    · obtain ⟨r, x, h, hx⟩ := inits_scalar hT dr es hs
      rcases hx with ⟨-, rfl, hi⟩ | ⟨hn, -⟩
      · rw [noInit_scalar hT]; exact ⟨r, h, hi⟩
      · exact absurd (hf hT) hn
  obtain ⟨r, hr, hi⟩ := key
  unfold make
  constructor
  · have := second_arg hc hr hi (info T dr (.val v)) (v := v) ⟨.exact, rfl⟩
    simp only [info] at this ⊢
    rw [this]; rfl
  · have := second_arg hc hr hi (info T dr (.conv v)) (v := v) ⟨.user, rfl⟩
    simp only [info] at this ⊢
    rw [this]; rfl

/-- C131: a value in braces is a node with that value as a child; something that still has to be converted to the type of the values (a string literal, for
`std::string`) is a leaf with that value. -/
theorem C131_one_value (T : ValueType α) (dr : Bool) (v : α) :
    make T dr (.braces [.val v]) = some (.ok (.node T.noInit [leafOf v])) ∧ make T dr (.braces [.conv v]) = some (.ok (leafOf v)) ∧
    make T dr (.call1 (.val v)) = some (.ok (leafOf v)) ∧ make T dr (.call1 (.conv v)) = some (.ok (leafOf v)) := by
  refine ⟨?_, ?_, ?_, ?_⟩ <;>
    simp [make, info, infos, listToTree, elements, ofList, ofValue, copyList, initialized, initializedList, leafOf, pick, candidates1]

/-- C131: what `{v, {...}}` means depends on the type of `v`, in the same way: a node with the value `v`, or one with the children `v` and `{...}`. -/
theorem C131_value_or_child {T : ValueType α} (hT : T.scalar = false) (dr : Bool) (v : α) {es : List (Shape α)} (hne : es ≠ []) (hs : (Shape.list es).Plain)
    (hc : dr = true → Shape.singleContainer es = false) :
    make T dr (.braces [.conv v, (Shape.list es).init]) = some (.ok (.node (some v) (Shape.meanings (some T.default) T.default es))) ∧
    make T dr (.braces [.val v, (Shape.list es).init]) =
      some (.ok (.node (some T.default) [leafOf v, .node (some T.default) (Shape.meanings (some T.default) T.default es)])) := by
  constructor
  · obtain ⟨⟨r, hr⟩, hi⟩ := inits_class hT dr es hs.2
    have := second_arg hc hr hi (info T dr (.conv v)) (v := v) ⟨.user, rfl⟩
    rw [noInit_class hT] at this
    have e : elements [info T dr (.conv v), info T dr (Shape.list es).init] = none := by simp [elements, info]
    simp only [make, info, infos, listToTree]
    have h1 : (dr && [info T dr (Shape.list es).init].isEmpty && Kind.other = .tree) = false := by simp
    simp only [info] at this e
    simp only [List.isEmpty_cons, Bool.and_false, Bool.false_and, Bool.false_eq_true, if_false, e, this]
    rfl
  · have := C131_lists hT dr (s := .list [.value v, .list es]) ⟨rfl, trivial, hs, trivial⟩
    obtain ⟨e, es, rfl⟩ := List.exists_cons_of_ne_nil hne
    exact this

/-- C131: a list of one tree is that tree or its parent, depending on the compiler. -/
theorem C131_one_tree (T : ValueType α) {t : Node α} (ht : initialized t = true) :
    make T true (.braces [.tree t]) = some (.ok t) ∧ make T false (.braces [.tree t]) = some (.ok (.node T.noInit [t])) := by
  constructor <;>
    simp [make, info, infos, listToTree, elements, ofList, copyTree_ok ht, copyList, initializedList, ht]

theorem elements_values (T : ValueType α) (dr : Bool) : ∀ vs : List α,
    (∃ r, elements (infos T dr (vs.map .val)) = some (r, .ok (vs.map leafOf)) ∧ (vs ≠ [] → r = .user)) ∧ initializedList (vs.map leafOf) = true
  | [] => ⟨⟨.exact, rfl, fun h => absurd rfl h⟩, rfl⟩
  | v :: vs => by
    obtain ⟨⟨r, h, -⟩, hi⟩ := elements_values T dr vs
    refine ⟨⟨.user, ?_, fun _ => rfl⟩, ?_⟩
    · simp [infos, elements, h, info, ofValue, leafOf]
      cases r <;> rfl
    · simp only [List.map_cons, initializedList, hi, leafOf, initialized, Option.isSome_some, Bool.and_self]

/-- C131: in `tree({...})` a list of one value is that value, a list of several ones those children. -/
theorem C131_parentheses (T : ValueType α) (dr : Bool) (v w : α) (vs : List α) :
    make T dr (.call1 (.braces [.val v])) = some (.ok (leafOf v)) ∧
    make T dr (.call1 (.braces ((v :: w :: vs).map .val))) = some (.ok (.node T.noInit ((v :: w :: vs).map leafOf))) := by
  constructor
  · simp [make, info, infos, pick, candidates1, listToValue, listToTree, listToCont, elements, ofValue, ofList, copyList, initialized, initializedList, leafOf, Rank.worst]
  · obtain ⟨⟨r, h, hr⟩, hi⟩ := elements_values T dr (v :: w :: vs)
    obtain rfl := hr (by simp)
    have h1 : listToTree T dr (infos T dr ((v :: w :: vs).map .val)) = some (.user, ofList T (.ok ((v :: w :: vs).map leafOf))) := by
      simp only [List.map_cons, infos] at h ⊢
      unfold listToTree
      simp only [List.isEmpty_cons, Bool.and_false, Bool.false_and, Bool.false_eq_true, if_false, h]
    have h2 : listToCont dr (infos T dr ((v :: w :: vs).map .val)) = some (.user, .ok ((v :: w :: vs).map leafOf)) := by
      simp only [List.map_cons, infos] at h ⊢
      unfold listToCont
      simp only [h, Option.map_some]
      rw [Res.ok_bind]
      simp only [List.map_cons] at hi
      rw [copyList_ok hi]
    have h3 : listToValue T (infos T dr ((v :: w :: vs).map .val)) = none := by
      simp only [List.map_cons, infos, listToValue]
    unfold make
    simp only [info, candidates1, h1, h2, h3, h]
    have h4 := ofList_ok (T := T) hi
    simp only [List.map_cons] at h4
    simp [pick, h4]

theorem elements_none {T : ValueType α} {dr : Bool} {v : α} (fs : List (Init α)) : ∀ es : List (Init α), elements (infos T dr (es ++ .conv v :: fs)) = none
  | [] => by simp [infos, elements, info]
  | e :: es => by
    simp only [List.cons_append, infos, elements, elements_none fs es]
    cases (info T dr e).toTree <;> rfl

theorem infos_length (T : ValueType α) (dr : Bool) : ∀ es : List (Init α), (infos T dr es).length = es.length
  | [] => rfl
  | _ :: es => by simp [infos, infos_length T dr es]

/-- C131: a string literal in a list of several elements, unless it is the first of two, does not compile. -/
theorem C131_literals (T : ValueType α) (dr : Bool) (v : α) (es fs : List (Init α)) (h : 2 ≤ es.length + fs.length ∨ es.length = 1) :
    make T dr (.braces (es ++ .conv v :: fs)) = none := by
  have he := elements_none (T := T) (dr := dr) (v := v) fs es
  unfold make
  simp only [info]
  rw [Option.map_eq_none_iff]
  match es, fs, h, he with
  | [], f :: f' :: fs, _, he =>
    simp only [List.nil_append, infos] at he ⊢
    unfold listToTree
    simp only [List.isEmpty_cons, Bool.and_false, Bool.false_and, Bool.false_eq_true, if_false, he]
  | [e], [], _, he =>
    simp only [List.cons_append, List.nil_append, infos] at he ⊢
    unfold listToTree
    simp only [List.isEmpty_cons, Bool.and_false, Bool.false_and, Bool.false_eq_true, if_false, he]
    have : candidates2 (info T dr e) (info T dr (.conv v)) = [] := by
      unfold candidates2
      simp only [info]
      cases (info T dr e).toValue <;> rfl
    rw [this]
    rfl
  | [e], f :: fs, _, he =>
    simp only [List.cons_append, List.nil_append, infos] at he ⊢
    unfold listToTree
    simp only [List.isEmpty_cons, Bool.and_false, Bool.false_and, Bool.false_eq_true, if_false, he]
  | e :: e' :: es, fs, _, he =>
    obtain ⟨x, xs, hx⟩ : ∃ x xs, infos T dr (es ++ .conv v :: fs) = x :: xs := by
      cases h : infos T dr (es ++ .conv v :: fs) with
      | nil =>
        have := infos_length T dr (es ++ .conv v :: fs)
        rw [h] at this
        simp at this
      | cons x xs => exact ⟨x, xs, rfl⟩
    simp only [List.cons_append, infos, hx] at he ⊢
    unfold listToTree
    simp only [List.isEmpty_cons, Bool.and_false, Bool.false_and, Bool.false_eq_true, if_false, he]
  | [], [], h, _ => simp at h
  | [], [f], h, _ => simp at h

mutual
theorem equal_filled (eq : α → α → Bool) : ∀ t u : Tree α, equal eq (filled t) (filled u) = .ok (Tree.eqTree eq t u)
  | .node v cs, .node w ds => by
    have hl : ∀ l : List (Tree α), (filledList l).length = l.length := by
      intro l; induction l with
      | nil => rfl
      | cons x xs ih => simp [filledList, ih]
    simp only [filled, equal, Tree.eqTree, hl]
    rw [equalList_filled eq cs ds]
    cases eq v w <;> by_cases h : cs.length = ds.length <;> simp [h]
theorem equalList_filled (eq : α → α → Bool) : ∀ t u : List (Tree α), equalList eq (filledList t) (filledList u) = .ok (Tree.eqChildren eq t u)
  | [], _ => by simp [filledList, equalList, Tree.eqChildren]
  | _ :: _, [] => by simp [filledList, equalList, Tree.eqChildren]
  | c :: cs, d :: ds => by
    simp only [filledList, equalList, Tree.eqChildren]
    rw [equal_filled eq c d]
    cases h : Tree.eqTree eq c d
    · simp
    · simp [equalList_filled eq cs ds]
end

mutual
theorem initialized_filled : ∀ t : Tree α, initialized (filled t) = true
  | .node v cs => by simp [filled, initialized, initialized_filledList cs]
theorem initialized_filledList : ∀ ts : List (Tree α), initializedList (filledList ts) = true
  | [] => rfl
  | t :: ts => by simp [filledList, initializedList, initialized_filled t, initialized_filledList ts]
end

mutual
theorem filled_of_initialized : ∀ t : Node α, initialized t = true → ∃ u, t = filled u
  | .node none _, h => by simp [initialized] at h
  | .node (some v) cs, h => by
    simp only [initialized, Option.isSome_some, Bool.true_and] at h
    obtain ⟨us, rfl⟩ := filledList_of_initialized cs h
    exact ⟨.node v us, by simp [filled]⟩
theorem filledList_of_initialized : ∀ ts : List (Node α), initializedList ts = true → ∃ us, ts = filledList us
  | [], _ => ⟨[], rfl⟩
  | t :: ts, h => by
    simp only [initializedList, Bool.and_eq_true] at h
    obtain ⟨u, rfl⟩ := filled_of_initialized t h.1
    obtain ⟨us, rfl⟩ := filledList_of_initialized ts h.2
    exact ⟨u :: us, rfl⟩
end

/-- C131: comparing a tree made by a list of children is undefined for scalars, with whatever; otherwise trees compare as C44 says. -/
theorem C131_compare (eq : α → α → Bool) :
    (∀ (cs : List (Node α)) (u : Node α), equal eq (.node none cs) u = .ub .bad_argument ∧ equal eq u (.node none cs) = .ub .bad_argument) ∧
    (∀ t u : Tree α, equal eq (filled t) (filled u) = .ok (Tree.eqTree eq t u)) := by
  refine ⟨fun cs u => ?_, equal_filled eq⟩
  obtain ⟨v, ds⟩ := u
  cases v <;> simp [equal]

/-- C131: `tree(c)` has the trees of a container as children and no value of its own, `tree(v, c)` has the value `v`, and `tree({}, c)` the default value. -/
theorem C131_containers (T : ValueType α) (dr : Bool) (v : α) (c : List (Tree α)) :
    make T dr (.call1 (.cont (filledList c))) = some (.ok (.node T.noInit (filledList c))) ∧
    make T dr (.call2 (.val v) (.cont (filledList c))) = some (.ok (.node (some v) (filledList c))) ∧
    make T dr (.call2 (.braces []) (.cont (filledList c))) = some (.ok (.node (some T.default) (filledList c))) := by
  have hc := copyList_ok (initialized_filledList c)
  refine ⟨?_, ?_, ?_⟩ <;> simp [make, info, infos, candidates1, candidates2, listToValue, hc, ofCont, ofValueCont, pick]

/-- C131: a tree whose values have all been initialized is copied as it is; copying one with a value that has not been is undefined, wherever in the tree it is. -/
theorem C131_copy (T : ValueType α) (dr : Bool) :
    (∀ t : Tree α, make T dr (.tree (filled t)) = some (.ok (filled t))) ∧
    (∀ (t : Node α), (∀ u, t ≠ filled u) → make T dr (.tree t) = some (.ub .bad_argument)) := by
  refine ⟨fun t => by simp [make, info, copyTree_ok (initialized_filled t)], fun t h => ?_⟩
  have : initialized t = false := by
    cases hi : initialized t
    · rfl
    · obtain ⟨u, hu⟩ := filled_of_initialized t hi
      exact absurd hu (h u)
  simp [make, info, copyTree, this]

/-! ### Examples -/

/-- The type of the values is `int`, `std::string`. -/
def intType : ValueType Nat := ⟨true, 0⟩
def stringType : ValueType String := ⟨false, ""⟩

/-- `tree<std::string>{{a, b}, {{}, c}}` with strings a, b, c: the hypotheses of `C131_lists` hold. -/
example : (Shape.list [.list [.value "a", .value "b"], .list [.list [], .value "c"]]).Plain ∧ stringType.scalar = false := by
  simp [Shape.Plain, Shape.AllPlain, Shape.single, stringType]
/-- `tree<int>{34, 45}` and `tree<int>{{34, 45}, {}}`: the hypotheses of both parts of `C131_scalars` hold. -/
example : (Shape.list [.value 34, .value 45]).Plain ∧ (∀ e ∈ [Shape.value 34, .value 45], e.Flat) ∧
    (Shape.list [.list [.value 34, .value 45], .list []]).Plain ∧ ¬ (∀ e ∈ [Shape.list [.value 34, .value 45], .list []], e.Flat) := by
  simp [Shape.Plain, Shape.AllPlain, Shape.single, Shape.Flat]
/-- The test `tree_node_value_and_initializer_list_constructor`: `utki::tree<int> t(1, {34, 45})`. -/
example : make intType true (.call2 (.val 1) (.braces [.val 34, .val 45])) = some (.ok (.node (some 1) [leafOf 34, leafOf 45])) := by rfl
/-- The test `tree_structure_construction`: the form is as tested, but values of nodes without an own value are copied, which is undefined for `int`. -/
example : make intType true (.braces [.braces [.val 34, .val 45], .braces [.braces [.val 78, .val 89], .call2 (.val 42) (.braces [.val 98])]]) = some (.ub .bad_argument) := by
  rfl
/-- The same with `std::string`. -/
example : make stringType true (.braces [.braces [.val "34", .val "45"], .braces [.braces [.val "78"], .call2 (.val "42") (.braces [.val "98"])]]) =
    some (.ok (.node (some "") [.node (some "") [leafOf "34", leafOf "45"], .node (some "") [.node (some "") [leafOf "78"], .node (some "42") [leafOf "98"]]])) := by
  rfl
/-- `tree<std::string>{{"a"}, {"b"}}`: each is a leaf. -/
example : make stringType true (.braces [.braces [.conv "a"], .braces [.conv "b"]]) = some (.ok (.node (some "") [leafOf "a", leafOf "b"])) := by rfl
/-- `tree<std::string>{"a", "b", "c"}` does not compile. -/
example : make stringType true (.braces [.conv "a", .conv "b", .conv "c"]) = none := by rfl

end Utki
