import Verif.Model.Destructable
/-!
# Ownership through `destructable` (C129)

Model: `Model/Destructable`.
-/
namespace Utki
namespace Spec.Destruct
open Utki.Destructable

/-- The subobject to which an event belongs. -/
def Event.sub : Event → List Nat
  | .body p => p
  | .member p _ => p

/-- There is such a subobject, or such a member of one, in an object of class `c`. -/
def Part (c : Class) : Event → Prop
  | .body p => ∃ b, classAt c p = some b
  | .member p k => ∃ v n bases, classAt c p = some (.mk v n bases) ∧ k < n

/-- The first has to happen before the second: the body of a destructor before the destruction of members, later members before earlier ones, everything of
a class before everything of its bases, later bases before earlier ones. -/
inductive Before : Event → Event → Prop
  | member (p : List Nat) (k : Nat) : Before (.body p) (.member p k)
  | members (p : List Nat) (k l : Nat) : l < k → Before (.member p k) (.member p l)
  | base (e e' : Event) (i : Nat) (q : List Nat) : Event.sub e' = Event.sub e ++ i :: q → Before e e'
  | bases (e e' : Event) (p : List Nat) (i j : Nat) (q r : List Nat) : j < i → Event.sub e = p ++ i :: q → Event.sub e' = p ++ j :: r → Before e e'

end Spec.Destruct
open Utki.Destructable Spec.Destruct

mutual
theorem destroy_sub (c : Class) (p : List Nat) (e : Event) (h : e ∈ destroy p c) : ∃ q, Event.sub e = p ++ q := by
  match c with
  | .mk v n bases =>
    simp only [destroy, List.mem_cons, List.mem_append, List.mem_map] at h
    rcases h with rfl | ⟨k, _, rfl⟩ | h
    · exact ⟨[], by simp [Event.sub]⟩
    · exact ⟨[], by simp [Event.sub]⟩
    · obtain ⟨j, q, _, h⟩ := destroyBases_sub bases p 0 e h
      exact ⟨j :: q, h⟩
theorem destroyBases_sub (bs : List Class) (p : List Nat) (i : Nat) (e : Event) (h : e ∈ destroyBases p i bs) :
    ∃ j q, i ≤ j ∧ Event.sub e = p ++ j :: q := by
  match bs with
  | [] => simp [destroyBases] at h
  | b :: bs =>
    simp only [destroyBases, List.mem_append] at h
    rcases h with h | h
    · obtain ⟨j, q, hj, h⟩ := destroyBases_sub bs p (i + 1) e h
      exact ⟨j, q, by omega, h⟩
    · obtain ⟨q, h⟩ := destroy_sub b (p ++ [i]) e h
      exact ⟨i, q, Nat.le_refl _, by simpa using h⟩
end

mutual
theorem destroy_order (c : Class) (p : List Nat) : (destroy p c).Pairwise Before := by
  match c with
  | .mk v n bases =>
    have hb : ∀ e, Event.sub e = p → ∀ e' ∈ destroyBases p 0 bases, Before e e' := by
      intro e he e' he'
      obtain ⟨j, q, _, h⟩ := destroyBases_sub bases p 0 e' he'
      exact .base e e' j q (by rw [h, he])
    simp only [destroy, List.pairwise_cons, List.pairwise_append]
    refine ⟨fun e he => ?_, ?_, destroyBases_order bases p 0, fun e he e' he' => ?_⟩
    · rcases List.mem_append.mp he with he | he
      · obtain ⟨k, _, rfl⟩ := List.mem_map.mp he
        exact .member p k
      · exact hb _ rfl e he
    · rw [List.pairwise_map, List.pairwise_reverse]
      exact List.pairwise_lt_range.imp (fun h => .members p _ _ h)
    · obtain ⟨k, _, rfl⟩ := List.mem_map.mp he
      exact hb _ rfl e' he'
theorem destroyBases_order (bs : List Class) (p : List Nat) (i : Nat) : (destroyBases p i bs).Pairwise Before := by
  match bs with
  | [] => simp [destroyBases]
  | b :: bs =>
    simp only [destroyBases, List.pairwise_append]
    refine ⟨destroyBases_order bs p (i + 1), destroy_order b (p ++ [i]), fun e he e' he' => ?_⟩
    obtain ⟨j, q, hj, h⟩ := destroyBases_sub bs p (i + 1) e he
    obtain ⟨r, h'⟩ := destroy_sub b (p ++ [i]) e' he'
    exact .bases e e' p j i q r (by omega) h (by simpa using h')
end

/-- The event of the subobject at `q`, for an object that itself is the subobject at `p` of a larger one. -/
def shift (p : List Nat) : Event → Event
  | .body q => .body (p ++ q)
  | .member q k => .member (p ++ q) k

mutual
theorem destroy_mem (c : Class) (p : List Nat) (e : Event) : shift p e ∈ destroy p c ↔ Part c e := by
  match c with
  | .mk v n bases =>
    have hne : ∀ (j : Nat) (q : List Nat), p ≠ p ++ j :: q := fun j q h => by simpa using congrArg List.length h
    have hb : shift p e ∈ destroyBases p 0 bases ↔ ∃ j q, Event.sub e = j :: q ∧ Part (.mk v n bases) e := by
      rw [destroyBases_mem bases p 0 e]
      constructor
      · rintro ⟨j, b, e', hb, hs, hp⟩
        cases e' with
        | body q =>
          subst hs
          exact ⟨j, q, by simp [Event.sub, shift], by obtain ⟨x, hx⟩ := hp; exact ⟨x, by simp [classAt, hb, hx]⟩⟩
        | member q k =>
          subst hs
          refine ⟨j, q, by simp [Event.sub, shift], ?_⟩
          obtain ⟨a, m, bb, hx, hk⟩ := hp
          exact ⟨a, m, bb, by simp [classAt, hb, hx], hk⟩
      · rintro ⟨j, q, hs, hp⟩
        cases e with
        | body q' =>
          simp only [Event.sub] at hs
          subst hs
          obtain ⟨x, hx⟩ := hp
          simp only [classAt] at hx
          cases hbj : bases[j]? with
          | none => rw [hbj] at hx; cases hx
          | some b => rw [hbj] at hx; exact ⟨j, b, .body q, hbj, by simp [shift], x, hx⟩
        | member q' k =>
          simp only [Event.sub] at hs
          subst hs
          obtain ⟨a, m, bb, hx, hk⟩ := hp
          simp only [classAt] at hx
          cases hbj : bases[j]? with
          | none => rw [hbj] at hx; cases hx
          | some b => rw [hbj] at hx; exact ⟨j, b, .member q k, hbj, by simp [shift], a, m, bb, hx, hk⟩
    simp only [destroy, List.mem_cons, List.mem_append, List.mem_map, List.mem_reverse, List.mem_range, hb]
    cases e with
    | body q =>
      cases q with
      | nil => simp [shift, Part, classAt]
      | cons j q => simp [shift, Event.sub]
    | member q k =>
      cases q with
      | nil =>
        have : Part (.mk v n bases) (.member [] k) ↔ k < n := by
          constructor
          · rintro ⟨_, _, _, h, hk⟩
            simp only [classAt, Option.some.injEq, Class.mk.injEq] at h
            rw [h.2.1]; exact hk
          · exact fun h => ⟨v, n, bases, rfl, h⟩
        rw [this]
        simp [shift, Event.sub]
      | cons j q => simp [shift, Event.sub]
theorem destroyBases_mem (bs : List Class) (p : List Nat) (i : Nat) (e : Event) :
    shift p e ∈ destroyBases p i bs ↔ ∃ j b e', bs[j]? = some b ∧ e = shift [i + j] e' ∧ Part b e' := by
  match bs with
  | [] => simp [destroyBases]
  | b :: bs =>
    simp only [destroyBases, List.mem_append]
    rw [destroyBases_mem bs p (i + 1) e]
    have hsh : ∀ e', shift p (shift [i] e') = shift (p ++ [i]) e' := by intro e'; cases e' <;> simp [shift]
    constructor
    · rintro (⟨j, b', e', h1, h2, h3⟩ | h)
      · exact ⟨j + 1, b', e', by simpa using h1, by rw [h2]; congr 2; omega, h3⟩
      · obtain ⟨q, hq⟩ := destroy_sub b (p ++ [i]) _ h
        have : ∃ e', e = shift [i] e' := by
          cases e with
          | body r =>
            simp only [shift, Event.sub, List.append_assoc, List.append_cancel_left_eq] at hq
            exact ⟨.body q, by simp [shift, hq]⟩
          | member r k =>
            simp only [shift, Event.sub, List.append_assoc, List.append_cancel_left_eq] at hq
            exact ⟨.member q k, by simp [shift, hq]⟩
        obtain ⟨e', rfl⟩ := this
        rw [hsh] at h
        exact ⟨0, b, e', rfl, rfl, (destroy_mem b (p ++ [i]) e').mp h⟩
    · rintro ⟨j, b', e', h1, rfl, h3⟩
      cases j with
      | zero =>
        simp only [List.getElem?_cons_zero, Option.some.injEq] at h1
        subst h1
        right
        rw [Nat.add_zero, hsh]
        exact (destroy_mem b (p ++ [i]) e').mpr h3
      | succ j => exact .inl ⟨j, b', e', by simpa using h1, by congr 2; omega, h3⟩
end

theorem before_ne {e e' : Event} (h : Before e e') : e ≠ e' := by
  have len : ∀ {a b : List Nat}, a = b → a.length = b.length := fun h => by rw [h]
  intro he
  cases h with
  | member p k => cases he
  | members p k l hl => cases he; omega
  | base _ _ i q h => subst he; have := len h; simp at this
  | bases _ _ p i j q r hij h1 h2 =>
    subst he
    rw [h1] at h2
    have := List.append_cancel_left h2
    cases this
    omega

/-- C129: the destruction of an object destroys every subobject and every member exactly once, in the order the language demands. -/
theorem C129_all (c : Class) : (∀ e, e ∈ destroy [] c ↔ Part c e) ∧ (destroy [] c).Nodup ∧ (destroy [] c).Pairwise Before := by
  have ho := destroy_order c []
  refine ⟨fun e => ?_, ho.imp before_ne, ho⟩
  have := destroy_mem c [] e
  rwa [show shift [] e = e by cases e <;> rfl] at this

theorem anyVirtual_iff {bs : List Class} : anyVirtual bs = true ↔ ∃ b ∈ bs, isVirtual b = true := by
  induction bs with
  | nil => simp [anyVirtual]
  | cons b bs ih => simp [anyVirtual, ih]

theorem isVirtual_of_base : ∀ (p : List Nat) {c b : Class}, classAt c p = some b → isVirtual b = true → isVirtual c = true := by
  intro p
  induction p with
  | nil => intro c b h hb; simp only [classAt, Option.some.injEq] at h; rw [h]; exact hb
  | cons i p ih =>
    intro c b h hb
    cases c with
    | mk v n bases =>
      simp only [classAt] at h
      cases hi : bases[i]? with
      | none => rw [hi] at h; cases h
      | some x =>
        rw [hi] at h
        simp only [isVirtual, Bool.or_eq_true]
        exact .inr (anyVirtual_iff.mpr ⟨x, List.mem_of_getElem? hi, ih h hb⟩)

/-- C129: deleting an object of any class derived from `destructable`, directly or not and whatever other bases it has, through a pointer to `destructable`,
or to any class between, destroys the whole object. -/
theorem C129_delete {c b : Class} {p q : List Nat} (hp : classAt c p = some b) (hq : classAt b q = some destructable) :
    delete c p = .ok (destroy [] c) := by
  have : isVirtual b = true := isVirtual_of_base q hq rfl
  simp [delete, hp, this]

/-- C129: through a pointer to a base without a virtual destructor it is undefined. -/
theorem C129_undefined {c b : Class} {i : Nat} {p : List Nat} (hp : classAt c (i :: p) = some b) (hb : isVirtual b = false) :
    ∃ u, delete c (i :: p) = .ub u := ⟨_, by simp [delete, hp, hb]; rfl⟩

/-- C129: through a pointer to its own class every object can be deleted. -/
theorem C129_own (c : Class) : delete c [] = .ok (destroy [] c) := by
  cases c
  simp [delete, classAt]

/-- A class with two members and two bases, the second of which has a member and is derived from `destructable`. -/
example : let c : Class := .mk false 2 [.mk false 1 [], .mk false 1 [destructable]]
    classAt c [1, 0] = some destructable ∧
    delete c [1, 0] = .ok [.body [], .member [] 1, .member [] 0, .body [1], .member [1] 0, .body [1, 0], .body [0], .member [0] 0] ∧
    ∃ u, delete c [0] = .ub u := ⟨rfl, rfl, _, rfl⟩

end Utki
