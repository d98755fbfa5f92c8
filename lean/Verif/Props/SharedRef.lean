import Verif.Model.SharedRef
/-!
# Properties of `shared_ref` (C62)
-/
namespace Utki

theorem Meth.bind_abort {σ : Type} {α β : Type} {m : Meth σ α} {f : α → Meth σ β} {s s' : σ} (h : m s = (.abort, s')) :
    (m >>= f) s = (.abort, s') := by
  show Meth.bind m f s = _
  simp only [Meth.bind, h]

namespace SharedRef

/-- Number of variables that hold a counted reference to `o`. -/
def refs (s : St) (o : Nat) : Nat := s.vars.countP (fun v => target v == some o)

/-- The object exists. -/
def Alive (s : St) (o : Nat) : Prop := ∃ ob, s.objs[o]? = some ob ∧ ob.alive = true

/-- Invariant. `pend`: references that are counted, but are not in a variable at the moment. -/
structure Inv (s : St) (pend : List Nat) : Prop where
  count : ∀ (o : Nat) (ob : Obj), s.objs[o]? = some ob → ob.count = refs s o + pend.count o
  alive : ∀ (o : Nat) (ob : Obj), s.objs[o]? = some ob → (ob.alive = true ↔ 0 < ob.count)
  bound : ∀ o, 0 < refs s o + pend.count o → o < s.objs.length
  owner : ∀ x o, some x ∈ s.vars → x.owner = some o → Alive s o
  nodup : s.destroyed.Nodup
  dead : ∀ o, o ∈ s.destroyed ↔ ∃ ob, s.objs[o]? = some ob ∧ ob.alive = false
  notNull : ∀ x, some x ∈ s.vars → x.kind = .ref → x.moved = false → x.p ≠ none

theorem Inv.init : Inv init [] where
  count := by simp [SharedRef.init]
  alive := by simp [SharedRef.init]
  bound := by simp [SharedRef.init, refs]
  owner := by simp [SharedRef.init]
  nodup := by simp [SharedRef.init]
  dead := by simp [SharedRef.init]
  notNull := by simp [SharedRef.init]

theorem Inv.alive_of {s : St} {pend : List Nat} (h : Inv s pend) {o : Nat} (ho : 0 < refs s o + pend.count o) : Alive s o := by
  have hb := h.bound o ho
  refine ⟨s.objs[o], by simp [hb], ?_⟩
  have e : s.objs[o]? = some s.objs[o] := by simp [hb]
  rw [h.alive o _ e, h.count o _ e]
  exact ho

theorem refs_pos {s : St} {w o : Nat} {v : Option Var} (h : s.vars[w]? = some v) (ht : target v = some o) : 0 < refs s o := by
  unfold refs
  rw [List.countP_pos_iff]
  exact ⟨v, List.mem_of_getElem? h, by simp [ht]⟩

/-- One more reference that is counted. -/
theorem Inv.addRef {s : St} {pend : List Nat} (h : Inv s pend) {o : Nat} {ob : Obj} (ho : s.objs[o]? = some ob) (ha : ob.alive = true) :
    Inv { s with objs := s.objs.set o { ob with count := ob.count + 1 } } (o :: pend) := by
  have hlt : o < s.objs.length := by
    rw [List.getElem?_eq_some_iff] at ho; exact ho.1
  have get : ∀ x y, (s.objs.set o { ob with count := ob.count + 1 })[x]? = some y →
      (x = o ∧ y = { ob with count := ob.count + 1 }) ∨ (x ≠ o ∧ s.objs[x]? = some y) := by
    intro x y hy
    by_cases hx : x = o
    · subst hx; rw [List.getElem?_set_self hlt] at hy; exact .inl ⟨rfl, by simpa using hy.symm⟩
    · rw [List.getElem?_set_ne (Ne.symm hx)] at hy; exact .inr ⟨hx, hy⟩
  have put : ∀ x y, x ≠ o → s.objs[x]? = some y → (s.objs.set o { ob with count := ob.count + 1 })[x]? = some y := by
    intro x y hx hy; rw [List.getElem?_set_ne (Ne.symm hx)]; exact hy
  constructor
  · intro x y hy
    show y.count = refs s x + _
    rcases get x y hy with ⟨rfl, rfl⟩ | ⟨hx, hy⟩
    · have := h.count _ _ ho
      simp [this]; omega
    · rw [List.count_cons_of_ne (Ne.symm hx)]
      exact h.count _ _ hy
  · intro x y hy
    rcases get x y hy with ⟨rfl, rfl⟩ | ⟨hx, hy⟩
    · simp [ha]
    · exact h.alive _ _ hy
  · intro x hx
    simp only [List.length_set]
    by_cases hxo : x = o
    · subst hxo; exact hlt
    · rw [List.count_cons_of_ne (Ne.symm hxo)] at hx; exact h.bound x hx
  · intro x p hx hp
    obtain ⟨y, hy, hya⟩ := h.owner x p hx hp
    by_cases hpo : p = o
    · subst hpo
      exact ⟨_, List.getElem?_set_self hlt, ha⟩
    · exact ⟨y, put _ _ hpo hy, hya⟩
  · exact h.nodup
  · intro x
    rw [show (x ∈ s.destroyed ↔ _) from h.dead x]
    constructor
    · rintro ⟨y, hy, hya⟩
      have : x ≠ o := by rintro rfl; rw [ho] at hy; cases hy; rw [ha] at hya; cases hya
      exact ⟨y, put _ _ this hy, hya⟩
    · rintro ⟨y, hy, hya⟩
      rcases get x y hy with ⟨rfl, rfl⟩ | ⟨hx, hy⟩
      · simp [ha] at hya
      · exact ⟨y, hy, hya⟩
  · exact h.notNull

/-- What is required of a new value of a variable. -/
def VarOk (s : St) : Option Var → Prop
  | none => True
  | some x => (∀ o, x.owner = some o → Alive s o) ∧ (x.kind = .ref → x.moved = false → x.p ≠ none)

theorem VarOk.of_mem {s : St} {pend : List Nat} (h : Inv s pend) {w : Nat} {x : Var} (hx : s.vars[w]? = some (some x)) : VarOk s (some x) :=
  ⟨fun o ho => h.owner x o (List.mem_of_getElem? hx) ho, h.notNull x (List.mem_of_getElem? hx)⟩

/-- A reference goes into a new variable. -/
theorem Inv.push {s : St} {pend : List Nat} {v : Option Var} (h : Inv s ((target v).toList ++ pend)) (hv : VarOk s v) :
    Inv { s with vars := s.vars ++ [v] } pend := by
  have e : ∀ o, refs { s with vars := s.vars ++ [v] } o + pend.count o = refs s o + ((target v).toList ++ pend).count o := by
    intro o
    unfold refs
    simp only [List.countP_append, List.count_append]
    rw [List.countP_singleton]
    cases target v with
    | none => simp
    | some t => by_cases ht : t = o <;> simp [ht] <;> omega
  constructor
  · intro o ob ho; rw [e]; exact h.count o ob ho
  · exact h.alive
  · intro o ho; rw [e] at ho; exact h.bound o ho
  · intro x o hx ho
    rcases List.mem_append.mp hx with hx | hx
    · exact h.owner x o hx ho
    · rw [List.mem_singleton] at hx; subst hx; exact hv.1 o ho
  · exact h.nodup
  · exact h.dead
  · intro x hx
    rcases List.mem_append.mp hx with hx | hx
    · exact h.notNull x hx
    · rw [List.mem_singleton] at hx; subst hx; exact hv.2

theorem countP_set_target (l : List (Option Var)) (w : Nat) (v old : Option Var) (hw : l[w]? = some old) (o : Nat) :
    (l.set w v).countP (fun v => target v == some o) + (target old).toList.count o =
      l.countP (fun v => target v == some o) + (target v).toList.count o := by
  have c : ∀ u : Option Var, (target u).toList.count o = if (target u == some o) = true then 1 else 0 := by
    intro u
    cases target u with
    | none => simp
    | some t => by_cases ht : t = o <;> simp [ht]
  rw [c, c]
  induction l generalizing w with
  | nil => simp at hw
  | cons a l ih =>
    cases w with
    | zero =>
      simp only [List.getElem?_cons_zero, Option.some.injEq] at hw
      subst hw
      simp only [List.set_cons_zero, List.countP_cons]
      omega
    | succ w =>
      simp only [List.getElem?_cons_succ] at hw
      simp only [List.set_cons_succ, List.countP_cons]
      have := ih w hw
      omega

/-- The reference in a variable is replaced. -/
theorem Inv.set {s : St} {pend : List Nat} {w : Nat} {old v : Option Var} (hw : s.vars[w]? = some old) (h : Inv s ((target v).toList ++ pend))
    (hv : VarOk s v) : Inv { s with vars := s.vars.set w v } ((target old).toList ++ pend) := by
  have e : ∀ o, refs { s with vars := s.vars.set w v } o + ((target old).toList ++ pend).count o = refs s o + ((target v).toList ++ pend).count o := by
    intro o
    have := countP_set_target s.vars w v old hw o
    unfold refs
    simp only [List.count_append]
    omega
  have m : ∀ x, some x ∈ s.vars.set w v → some x ∈ s.vars ∨ some x = v := fun x hx => List.mem_or_eq_of_mem_set hx
  constructor
  · intro o ob ho; rw [e]; exact h.count o ob ho
  · exact h.alive
  · intro o ho; rw [e] at ho; exact h.bound o ho
  · intro x o hx ho
    rcases m x hx with hx | hx
    · exact h.owner x o hx ho
    · subst hx; exact hv.1 o ho
  · exact h.nodup
  · exact h.dead
  · intro x hx
    rcases m x hx with hx | hx
    · exact h.notNull x hx
    · subst hx; exact hv.2

/-- Number of variables that exist. -/
def existing (vars : List (Option Var)) : Nat := vars.countP (fun v => v.isSome)

theorem members_cons (o : Nat) (v : Option Var) (vars : List (Option Var)) :
    members o (v :: vars) = if ownedBy o v then (target v).toList ++ members o vars else members o vars := by
  unfold members
  by_cases h : ownedBy o v = true
  · rw [List.filter_cons_of_pos h, List.filterMap_cons, if_pos h]
    cases target v <;> simp
  · rw [List.filter_cons_of_neg h, if_neg h]

theorem dispose_refs (o x : Nat) (vars : List (Option Var)) :
    (vars.map (fun v => if ownedBy o v then none else v)).countP (fun v => target v == some x) + (members o vars).count x =
      vars.countP (fun v => target v == some x) := by
  induction vars with
  | nil => rfl
  | cons v vars ih =>
    rw [members_cons]
    simp only [List.map_cons, List.countP_cons]
    by_cases h : ownedBy o v = true
    · simp only [h, if_true]
      rw [List.count_append, ← ih]
      cases ht : target v with
      | none => simp [target]
      | some t => by_cases hx : t = x <;> simp [target, hx] <;> omega
    · simp only [h]
      rw [← ih]
      simp; omega

theorem dispose_existing (o : Nat) (vars : List (Option Var)) :
    existing (vars.map (fun v => if ownedBy o v then none else v)) + (members o vars).length ≤ existing vars := by
  unfold existing
  induction vars with
  | nil => simp [members]
  | cons v vars ih =>
    rw [members_cons]
    simp only [List.map_cons, List.countP_cons]
    by_cases h : ownedBy o v = true
    · cases v with
      | none => simp [ownedBy] at h
      | some v =>
        simp only [h, if_true]
        have : (target (some v)).toList.length ≤ 1 := by cases target (some v) <;> simp
        simp only [List.length_append, Option.isSome_none, Option.isSome_some, Bool.false_eq_true, if_false, if_true]
        omega
    · simp only [h]
      simp only [Bool.false_eq_true, if_false]
      omega

/-- What releasing references may change: objects that lose their last reference are destroyed, with their members; nothing else. -/
structure After (s s' : St) : Prop where
  vars : s'.vars.length = s.vars.length
  objs : s'.objs.length = s.objs.length
  dyn : ∀ (o : Nat) (ob : Obj), s.objs[o]? = some ob → ∃ ob', s'.objs[o]? = some ob' ∧ ob'.dyn = ob.dyn
  kept : ∀ (i : Nat) (x : Var), s.vars[i]? = some (some x) → s'.vars[i]? = some (some x) ∨ (s'.vars[i]? = some none ∧ ∃ o, x.owner = some o ∧ ¬ Alive s' o)
  gone : ∀ i : Nat, s.vars[i]? = some none → s'.vars[i]? = some none
  dead : ∀ o ∈ s.destroyed, o ∈ s'.destroyed

theorem After.refl (s : St) : After s s where
  vars := rfl
  objs := rfl
  dyn := fun _ ob h => ⟨ob, h, rfl⟩
  kept := fun _ _ h => .inl h
  gone := fun _ h => h
  dead := fun _ h => h

theorem After.trans {a b c : St} (h1 : After a b) (h2 : After b c) (hi : ∀ o, ¬ Alive b o → ¬ Alive c o) : After a c where
  vars := h2.vars.trans h1.vars
  objs := h2.objs.trans h1.objs
  dyn := by
    intro o ob h
    obtain ⟨ob1, h1, e1⟩ := h1.dyn o ob h
    obtain ⟨ob2, h2, e2⟩ := h2.dyn o ob1 h1
    exact ⟨ob2, h2, e2.trans e1⟩
  kept := by
    intro i x h
    rcases h1.kept i x h with h | ⟨h, o, ho, hd⟩
    · exact h2.kept i x h
    · exact .inr ⟨h2.gone i h, o, ho, hi o hd⟩
  gone := fun i h => h2.gone i (h1.gone i h)
  dead := fun o h => h2.dead o (h1.dead o h)

/-- `release` succeeds and keeps the invariant. -/
theorem release_ok (fuel : Nat) (s : St) (pend : List Nat) (h : Inv s pend) (hf : existing s.vars + pend.length ≤ fuel) :
    ∃ s', release fuel s pend = .ok s' ∧ Inv s' [] ∧ After s s' ∧ ∀ o, ¬ Alive s o → ¬ Alive s' o := by
  induction fuel generalizing s pend with
  | zero =>
    cases pend with
    | nil => exact ⟨s, by rw [release], h, After.refl s, fun o h => h⟩
    | cons o rest => simp at hf
  | succ fuel ih =>
    cases pend with
    | nil => exact ⟨s, by rw [release], h, After.refl s, fun o h => h⟩
    | cons o rest =>
      obtain ⟨ob, ho, ha⟩ := h.alive_of (o := o) (by simp; omega)
      have hlt : o < s.objs.length := by
        rw [List.getElem?_eq_some_iff] at ho; exact ho.1
      have hc := h.count o ob ho
      have hpos := (h.alive o ob ho).mp ha
      rw [List.count_cons_self] at hc
      have hne : ¬ (ob.alive = false ∨ ob.count = 0) := by simp [ha]; omega
      rw [release]
      simp only [ho]
      rw [if_neg hne]
      by_cases h1 : ob.count = 1
      · rw [if_pos h1]
        have hr : refs s o = 0 := by omega
        have hrest : rest.count o = 0 := by omega
        -- the state after the object is destroyed
        have get : ∀ x y, (s.objs.set o { ob with count := 0, alive := false })[x]? = some y →
            (x = o ∧ y = { ob with count := 0, alive := false }) ∨ (x ≠ o ∧ s.objs[x]? = some y) := by
          intro x y hy
          by_cases hx : x = o
          · subst hx; rw [List.getElem?_set_self hlt] at hy; exact .inl ⟨rfl, by simpa using hy.symm⟩
          · rw [List.getElem?_set_ne (Ne.symm hx)] at hy; exact .inr ⟨hx, hy⟩
        have put : ∀ x y, x ≠ o → s.objs[x]? = some y → (s.objs.set o { ob with count := 0, alive := false })[x]? = some y := by
          intro x y hx hy; rw [List.getElem?_set_ne (Ne.symm hx)]; exact hy
        have hmem : ∀ x, some x ∈ s.vars.map (fun v => if ownedBy o v then none else v) → some x ∈ s.vars ∧ x.owner ≠ some o := by
          intro x hx
          obtain ⟨v, hv, he⟩ := List.mem_map.mp hx
          by_cases hob : ownedBy o v = true
          · rw [if_pos hob] at he; cases he
          · rw [if_neg hob] at he
            subst he
            exact ⟨hv, by simpa [ownedBy] using hob⟩
        have hdis := fun x => dispose_refs o x s.vars
        have inv' : Inv ⟨s.objs.set o { ob with count := 0, alive := false }, s.vars.map (fun v => if ownedBy o v then none else v), s.destroyed ++ [o]⟩
            (members o s.vars ++ rest) := by
          constructor
          · intro x y hy
            have hd := hdis x
            simp only [refs, List.count_append]
            rcases get x y hy with ⟨rfl, rfl⟩ | ⟨hx, hy⟩
            · simp only [refs] at hr
              simp only; omega
            · have hcx := h.count x y hy
              rw [List.count_cons_of_ne (Ne.symm hx)] at hcx
              simp only [refs] at hcx
              omega
          · intro x y hy
            rcases get x y hy with ⟨rfl, rfl⟩ | ⟨hx, hy⟩
            · simp
            · exact h.alive x y hy
          · intro x hx
            simp only [List.length_set]
            by_cases hxo : x = o
            · subst hxo; exact hlt
            · apply h.bound x
              have hd := hdis x
              simp only [refs, List.count_append] at hx ⊢
              rw [List.count_cons_of_ne (Ne.symm hxo)]
              omega
          · intro x p hx hp
            obtain ⟨hx, hno⟩ := hmem x hx
            obtain ⟨y, hy, hya⟩ := h.owner x p hx hp
            have : p ≠ o := by rintro rfl; exact hno hp
            exact ⟨y, put _ _ this hy, hya⟩
          · rw [List.nodup_append]
            refine ⟨h.nodup, by simp, ?_⟩
            intro a ha' b hb
            rw [List.mem_singleton] at hb
            subst hb
            rintro rfl
            obtain ⟨y, hy, hya⟩ := (h.dead a).mp ha'
            rw [ho] at hy; cases hy; rw [ha] at hya; cases hya
          · intro x
            rw [List.mem_append, List.mem_singleton, h.dead x]
            constructor
            · rintro (⟨y, hy, hya⟩ | rfl)
              · have : x ≠ o := by rintro rfl; rw [ho] at hy; cases hy; rw [ha] at hya; cases hya
                exact ⟨y, put _ _ this hy, hya⟩
              · exact ⟨_, List.getElem?_set_self hlt, rfl⟩
            · rintro ⟨y, hy, hya⟩
              rcases get x y hy with ⟨rfl, rfl⟩ | ⟨hx, hy⟩
              · exact .inr rfl
              · exact .inl ⟨y, hy, hya⟩
          · intro x hx
            exact h.notNull x (hmem x hx).1
        have hmeas : existing (s.vars.map (fun v => if ownedBy o v then none else v)) + (members o s.vars ++ rest).length ≤ fuel := by
          have := dispose_existing o s.vars
          simp only [List.length_append, List.length_cons] at hf ⊢
          omega
        obtain ⟨s', e, hi, haf, hal⟩ := ih _ _ inv' hmeas
        have hdead : ∀ x, ¬ Alive s x → ¬ Alive ⟨s.objs.set o { ob with count := 0, alive := false }, s.vars.map (fun v => if ownedBy o v then none else v), s.destroyed ++ [o]⟩ x := by
          rintro x hx ⟨y, hy, hya⟩
          rcases get x y hy with ⟨rfl, rfl⟩ | ⟨_, hy⟩
          · cases hya
          · exact hx ⟨y, hy, hya⟩
        refine ⟨s', e, hi, After.trans ?_ haf hal, fun x hx => hal x (hdead x hx)⟩
        constructor
        · simp
        · simp
        · intro x y hy
          by_cases hx : x = o
          · subst hx
            rw [ho] at hy; cases hy
            exact ⟨_, List.getElem?_set_self hlt, rfl⟩
          · exact ⟨y, put _ _ hx hy, rfl⟩
        · intro i x hx
          by_cases hob : ownedBy o (some x) = true
          · refine .inr ⟨by simp [hx, hob], o, by simpa [ownedBy] using hob, ?_⟩
            rintro ⟨y, hy, hya⟩
            rcases get o y hy with ⟨_, rfl⟩ | ⟨hne, _⟩
            · cases hya
            · exact hne rfl
          · exact .inl (by simp [hx, hob])
        · intro i hi
          simp [hi, ownedBy]
        · intro x hx
          exact List.mem_append_left _ hx
      · rw [if_neg h1]
        have get : ∀ x y, (s.objs.set o { ob with count := ob.count - 1 })[x]? = some y →
            (x = o ∧ y = { ob with count := ob.count - 1 }) ∨ (x ≠ o ∧ s.objs[x]? = some y) := by
          intro x y hy
          by_cases hx : x = o
          · subst hx; rw [List.getElem?_set_self hlt] at hy; exact .inl ⟨rfl, by simpa using hy.symm⟩
          · rw [List.getElem?_set_ne (Ne.symm hx)] at hy; exact .inr ⟨hx, hy⟩
        have put : ∀ x y, x ≠ o → s.objs[x]? = some y → (s.objs.set o { ob with count := ob.count - 1 })[x]? = some y := by
          intro x y hx hy; rw [List.getElem?_set_ne (Ne.symm hx)]; exact hy
        have inv' : Inv { s with objs := s.objs.set o { ob with count := ob.count - 1 } } rest := by
          constructor
          · intro x y hy
            show y.count = refs s x + _
            rcases get x y hy with ⟨rfl, rfl⟩ | ⟨hx, hy⟩
            · simp only; omega
            · have := h.count x y hy
              rwa [List.count_cons_of_ne (Ne.symm hx)] at this
          · intro x y hy
            rcases get x y hy with ⟨rfl, rfl⟩ | ⟨hx, hy⟩
            · simp only [ha, true_iff]; omega
            · exact h.alive x y hy
          · intro x hx
            simp only [List.length_set]
            by_cases hxo : x = o
            · subst hxo; exact hlt
            · apply h.bound x
              rw [List.count_cons_of_ne (Ne.symm hxo)]
              exact hx
          · intro x p hx hp
            obtain ⟨y, hy, hya⟩ := h.owner x p hx hp
            by_cases hpo : p = o
            · subst hpo
              exact ⟨_, List.getElem?_set_self hlt, ha⟩
            · exact ⟨y, put _ _ hpo hy, hya⟩
          · exact h.nodup
          · intro x
            rw [show (x ∈ s.destroyed ↔ _) from h.dead x]
            constructor
            · rintro ⟨y, hy, hya⟩
              have : x ≠ o := by rintro rfl; rw [ho] at hy; cases hy; rw [ha] at hya; cases hya
              exact ⟨y, put _ _ this hy, hya⟩
            · rintro ⟨y, hy, hya⟩
              rcases get x y hy with ⟨rfl, rfl⟩ | ⟨hx, hy⟩
              · simp [ha] at hya
              · exact ⟨y, hy, hya⟩
          · exact h.notNull
        obtain ⟨s', e, hi, haf, hal⟩ := ih _ _ inv' (by simp only [List.length_cons] at hf; show existing s.vars + _ ≤ _; omega)
        have hdead : ∀ x, ¬ Alive s x → ¬ Alive { s with objs := s.objs.set o { ob with count := ob.count - 1 } } x := by
          rintro x hx ⟨y, hy, hya⟩
          rcases get x y hy with ⟨rfl, rfl⟩ | ⟨_, hy⟩
          · exact hx ⟨ob, ho, ha⟩
          · exact hx ⟨y, hy, hya⟩
        refine ⟨s', e, hi, After.trans ?_ haf hal, fun x hx => hal x (hdead x hx)⟩
        constructor
        · rfl
        · simp
        · intro x y hy
          by_cases hx : x = o
          · subst hx
            rw [ho] at hy; cases hy
            exact ⟨_, List.getElem?_set_self hlt, rfl⟩
          · exact ⟨y, put _ _ hx hy, rfl⟩
        · exact fun i x hx => .inl hx
        · exact fun i hi => hi
        · exact fun x hx => hx

theorem existing_le (vars : List (Option Var)) : existing vars ≤ vars.length := List.countP_le_length

theorem releaseM_ok (s : St) (pend : List Nat) (h : Inv s pend) : ∃ s', releaseM pend s = (.ok (), s') ∧ Inv s' [] ∧ After s s' := by
  have := existing_le s.vars
  obtain ⟨s', e, hi, ha, _⟩ := release_ok (s.vars.length + pend.length) s pend h (by omega)
  exact ⟨s', by simp [releaseM, e], hi, ha⟩


/-! ### Primitives -/

theorem var_ok {k : Kind} {w : Nat} {s : St} {r : Var} (h : s.vars[w]? = some (some r)) (hk : r.kind = k) {β : Type} (f : Var → Meth St β) :
    (var k w >>= f) s = f r s :=
  Meth.bind_ok (by simp [var, h, hk])

/-- A variable of that kind exists. -/
def HasVar (s : St) (k : Kind) (w : Nat) : Prop := ∃ r, s.vars[w]? = some (some r) ∧ r.kind = k

theorem var_bad {k : Kind} {w : Nat} {s : St} (h : ¬ HasVar s k w) {β : Type} (f : Var → Meth St β) : ∃ u, ((var k w >>= f) s).1 = .ub u := by
  have : ∃ u, var k w s = (.ub u, s) := by
    unfold var
    split
    · rename_i r hr
      have : r.kind ≠ k := fun e => h ⟨r, hr, e⟩
      exact ⟨_, by rw [if_neg this]⟩
    · exact ⟨_, rfl⟩
  obtain ⟨u, hu⟩ := this
  exact ⟨u, by rw [Meth.bind_ub hu]⟩

/-- The objects are the same, with the same state of life. -/
def SameObjs (s s' : St) : Prop :=
  s'.destroyed = s.destroyed ∧ s'.objs.length = s.objs.length ∧
    ∀ o : Nat, (s'.objs[o]?).map (fun ob => (ob.dyn, ob.alive)) = (s.objs[o]?).map (fun ob => (ob.dyn, ob.alive))

theorem SameObjs.alive {s s' : St} (h : SameObjs s s') (o : Nat) : Alive s' o ↔ Alive s o := by
  have h3 := h.2.2 o
  unfold Alive
  cases h1 : s.objs[o]? <;> cases h2 : s'.objs[o]? <;> simp_all

theorem addRef_ok {s : St} {pend : List Nat} (h : Inv s pend) (p : Option Nat) (hp : ∀ o, p = some o → Alive s o) :
    ∃ s', addRef p s = (.ok (), s') ∧ Inv s' (p.toList ++ pend) ∧ s'.vars = s.vars ∧ SameObjs s s' := by
  cases p with
  | none => exact ⟨s, rfl, h, rfl, rfl, rfl, fun _ => rfl⟩
  | some o =>
    obtain ⟨ob, ho, ha⟩ := hp o rfl
    refine ⟨_, by simp only [addRef, ho, ha, if_true], h.addRef ho ha, rfl, rfl, by simp, ?_⟩
    intro x
    have hlt : o < s.objs.length := by
      rw [List.getElem?_eq_some_iff] at ho; exact ho.1
    by_cases hx : x = o
    · subst hx; simp [List.getElem?_set_self hlt, ho, ha]
    · simp [List.getElem?_set_ne (Ne.symm hx)]

/-- The object in which a variable is to be made exists; or it is not a member. -/
def OwnerOk (s : St) (owner : Option Nat) : Prop := ∀ o, owner = some o → Alive s o

theorem construct_ok {s : St} {pend : List Nat} {v : Var} (h : Inv s ((target (some v)).toList ++ pend)) (ho : OwnerOk s v.owner)
    (hn : v.kind = .ref → v.moved = false → v.p ≠ none) :
    construct v s = (.ok (), { s with vars := s.vars ++ [some v] }) ∧ Inv { s with vars := s.vars ++ [some v] } pend := by
  refine ⟨?_, h.push ⟨ho, hn⟩⟩
  unfold construct
  cases hv : v.owner with
  | none => rfl
  | some o =>
    obtain ⟨ob, h1, h2⟩ := ho o hv
    simp [h1, h2]

theorem construct_bad {s : St} {v : Var} (ho : ¬ OwnerOk s v.owner) : ∃ u, (construct v s).1 = .ub u := by
  unfold construct
  cases hv : v.owner with
  | none => exact absurd (fun o h => by rw [hv] at h; cases h) ho
  | some o =>
    simp only
    cases h1 : s.objs[o]? with
    | none => exact ⟨_, rfl⟩
    | some ob =>
      cases h2 : ob.alive with
      | false => exact ⟨.use_after_free, by simp [h2]⟩
      | true => exact absurd (fun x hx => by rw [hv] at hx; cases hx; exact ⟨ob, h1, h2⟩) ho

/-- The step succeeded, the invariant holds. -/
def Good (x : Res Unit × St) (Q : St → Prop) : Prop := ∃ s', x = (.ok (), s') ∧ Inv s' [] ∧ Q s'

/-- The step was misuse. -/
def Bad (x : Res Unit × St) : Prop := (∃ u, x.1 = .ub u) ∨ x.1 = .abort

/-- A new counted reference. -/
theorem share {s : St} (h : Inv s []) (p : Option Nat) (hp : ∀ o, p = some o → Alive s o) (owner : Option Nat) (k : Kind) (hk : k ≠ .weak) (m : Bool)
    (hn : k = .ref → m = false → p ≠ none) :
    (OwnerOk s owner → Good ((addRef p >>= fun _ => construct ⟨owner, k, p, m⟩) s)
      (fun s' => s'.vars = s.vars ++ [some ⟨owner, k, p, m⟩] ∧ SameObjs s s')) ∧
    (¬ OwnerOk s owner → Bad ((addRef p >>= fun _ => construct ⟨owner, k, p, m⟩) s)) := by
  obtain ⟨s1, e1, i1, v1, o1⟩ := addRef_ok h p hp
  have ht : target (some ⟨owner, k, p, m⟩) = p := by cases k <;> simp_all [target]
  rw [Meth.bind_ok e1]
  have hown : OwnerOk s1 owner ↔ OwnerOk s owner := forall_congr' fun o => imp_congr_right fun _ => o1.alive o
  constructor
  · intro ho
    obtain ⟨e2, i2⟩ := construct_ok (s := s1) (pend := []) (v := ⟨owner, k, p, m⟩) (by rw [ht]; exact i1) (hown.mpr ho) hn
    exact ⟨_, e2, i2, by simp [v1], o1⟩
  · intro ho
    exact .inl (construct_bad (fun h => ho (hown.mp h)))

theorem target_alive {s : St} {pend : List Nat} (h : Inv s pend) {w : Nat} {r : Var} (hr : s.vars[w]? = some (some r)) (hk : r.kind ≠ .weak) :
    ∀ o, r.p = some o → Alive s o := by
  intro o ho
  have : 0 < refs s o := refs_pos hr (by cases hk' : r.kind <;> simp_all [target])
  exact h.alive_of (by omega)


/-! ### Steps -/

/-- Correct use of the operations: the variables exist and are of the right kind; a new member is made in an object that exists; references that
were moved from are only assigned, moved, copied, or destroyed; `shared_ref` is not made of a null pointer; `make_shared_from` and
`make_weak_from` are called with an existing object. -/
def Valid (s : St) : Op → Prop
  | .makeShared _ _ owner => OwnerOk s owner
  | .copy w owner => HasVar s .ref w ∧ OwnerOk s owner
  | .copyAssign v w => HasVar s .ref v ∧ HasVar s .ref w
  | .move w owner => HasVar s .ref w ∧ OwnerOk s owner
  | .moveAssign v w => HasVar s .ref v ∧ HasVar s .ref w
  | .convert w owner => (∃ r, s.vars[w]? = some (some r) ∧ r.kind = .ref ∧ r.moved = false) ∧ OwnerOk s owner
  | .toPtr w owner => HasVar s .ref w ∧ OwnerOk s owner
  | .fromPtr w owner => (∃ r, s.vars[w]? = some (some r) ∧ r.kind = .ptr ∧ r.p ≠ none) ∧ OwnerOk s owner
  | .makeWeak w owner => HasVar s .ref w ∧ OwnerOk s owner
  | .lock w owner => HasVar s .weak w ∧ OwnerOk s owner
  | .makeSharedFrom o owner => Alive s o ∧ OwnerOk s owner
  | .makeWeakPtr w owner => HasVar s .ptr w ∧ OwnerOk s owner
  | .makeWeakFrom o owner => Alive s o ∧ OwnerOk s owner
  | .cast w _ owner => (∃ r, s.vars[w]? = some (some r) ∧ r.kind = .ref ∧ r.moved = false) ∧ OwnerOk s owner
  | .get w => ∃ r, s.vars[w]? = some (some r) ∧ r.kind = .ref ∧ r.moved = false
  | .destroy w => ∃ r, s.vars[w]? = some (some r)

theorem Good.mono {x : Res Unit × St} {Q R : St → Prop} (h : Good x Q) (hq : ∀ s', Q s' → R s') : Good x R := by
  obtain ⟨s', e, i, q⟩ := h
  exact ⟨s', e, i, hq s' q⟩

theorem makeShared_inv {s : St} (h : Inv s []) (dyn : Nat) :
    Inv { s with objs := s.objs ++ [⟨dyn, 1, true⟩] } [s.objs.length] := by
  have fresh : ∀ o, s.objs.length ≤ o → refs s o = 0 := by
    intro o ho
    have := h.bound o
    simp only [List.count_nil, Nat.add_zero] at this
    omega
  have get : ∀ x y, (s.objs ++ [(⟨dyn, 1, true⟩ : Obj)])[x]? = some y → (x = s.objs.length ∧ y = ⟨dyn, 1, true⟩) ∨ (x < s.objs.length ∧ s.objs[x]? = some y) := by
    intro x y hy
    rw [List.getElem?_append] at hy
    split at hy
    · exact .inr ⟨by assumption, hy⟩
    · obtain ⟨hl, e⟩ := List.getElem?_eq_some_iff.mp hy
      simp only [List.length_singleton] at hl
      have : x - s.objs.length = 0 := by omega
      simp only [this, List.getElem_cons_zero] at e
      exact .inl ⟨by omega, e.symm⟩
  have put : ∀ (x : Nat) (y : Obj), s.objs[x]? = some y → (s.objs ++ [(⟨dyn, 1, true⟩ : Obj)])[x]? = some y := by
    intro x y hy
    rw [List.getElem?_append_left (List.getElem?_eq_some_iff.mp hy).1]; exact hy
  constructor
  · intro o ob ho
    show ob.count = refs s o + _
    rcases get o ob ho with ⟨rfl, rfl⟩ | ⟨hlt, ho⟩
    · simp [fresh]
    · have := h.count o ob ho
      rw [List.count_cons_of_ne (by omega)]
      simpa using this
  · intro o ob ho
    rcases get o ob ho with ⟨rfl, rfl⟩ | ⟨hlt, ho⟩
    · simp
    · exact h.alive o ob ho
  · intro o ho
    simp only [List.length_append, List.length_singleton]
    by_cases hlt : s.objs.length < o
    · have h1 : refs s o = 0 := fresh o (by omega)
      have h2 : [s.objs.length].count o = 0 := by rw [List.count_cons_of_ne (by omega)]; rfl
      have : refs { s with objs := s.objs ++ [⟨dyn, 1, true⟩] } o = refs s o := rfl
      omega
    · omega
  · intro x o hx ho
    obtain ⟨y, hy, hya⟩ := h.owner x o hx ho
    exact ⟨y, put _ _ hy, hya⟩
  · exact h.nodup
  · intro o
    rw [show (o ∈ s.destroyed ↔ _) from h.dead o]
    constructor
    · rintro ⟨y, hy, hya⟩
      exact ⟨y, put _ _ hy, hya⟩
    · rintro ⟨y, hy, hya⟩
      rcases get o y hy with ⟨rfl, rfl⟩ | ⟨hlt, ho⟩
      · cases hya
      · exact ⟨y, ho, hya⟩
  · exact h.notNull

theorem copyAssign_good {s : St} (h : Inv s []) {v w : Nat} {l r : Var} (hl : s.vars[v]? = some (some l)) (hlk : l.kind = .ref)
    (hr : s.vars[w]? = some (some r)) (hrk : r.kind = .ref) :
    Good (copyAssign v w s) (fun s' => ∃ s1, SameObjs s s1 ∧ s1.vars = s.vars.set v (some { l with p := r.p, moved := r.moved }) ∧ After s1 s') := by
  unfold copyAssign
  rw [var_ok hl hlk, var_ok hr hrk]
  obtain ⟨s1, e1, i1, v1, o1⟩ := addRef_ok h r.p (target_alive h hr (by simp [hrk]))
  rw [Meth.bind_ok e1]
  have hl1 : s1.vars[v]? = some (some l) := by rw [v1]; exact hl
  have hn : l.kind = .ref → r.moved = false → r.p ≠ none := fun _ hm => (VarOk.of_mem h hr).2 hrk hm
  have t2 : target (some { l with p := r.p, moved := r.moved }) = r.p := by simp [target, hlk]
  have i2 := Inv.set (pend := []) (v := some { l with p := r.p, moved := r.moved }) hl1 (by rw [t2]; exact i1) ⟨(VarOk.of_mem i1 hl1).1, hn⟩
  have t1 : target (some l) = l.p := by simp [target, hlk]
  rw [t1, List.append_nil] at i2
  obtain ⟨s', e3, i3, a3⟩ := releaseM_ok _ _ i2
  refine ⟨s', ?_, i3, _, ?_, ?_, a3⟩
  · rw [Meth.bind_ok (by rfl : assignVar v _ s1 = (.ok (), _))]
    exact e3
  · exact o1
  · simp [v1]

theorem move_good {s : St} (h : Inv s []) {w : Nat} {r : Var} (hr : s.vars[w]? = some (some r)) (hrk : r.kind = .ref) (owner : Option Nat) :
    (OwnerOk s owner → Good (move w owner s)
      (fun s' => s' = { s with vars := s.vars.set w (some { r with p := none, moved := true }) ++ [some ⟨owner, .ref, r.p, r.moved⟩] })) ∧
    (¬ OwnerOk s owner → Bad (move w owner s)) := by
  unfold move
  rw [var_ok hr hrk]
  have i1 := Inv.set (pend := []) (v := some { r with p := none, moved := true }) hr (by simpa [target] using h)
    ⟨(VarOk.of_mem h hr).1, by simp⟩
  have t1 : target (some r) = r.p := by simp [target, hrk]
  rw [t1] at i1
  rw [Meth.bind_ok (by rfl : assignVar w _ s = (.ok (), _))]
  constructor
  · intro ho
    obtain ⟨e2, i2⟩ := construct_ok (v := ⟨owner, .ref, r.p, r.moved⟩) i1 (fun o h => ho o h) (fun _ hm => (VarOk.of_mem h hr).2 hrk hm)
    exact ⟨_, e2, i2, rfl⟩
  · intro ho
    exact .inl (construct_bad ho)

theorem moveAssign_good {s : St} (h : Inv s []) {v w : Nat} {l r : Var} (hl : s.vars[v]? = some (some l)) (hlk : l.kind = .ref)
    (hr : s.vars[w]? = some (some r)) (hrk : r.kind = .ref) :
    Good (moveAssign v w s) (fun s' => if v = w then s' = s else
      ∃ s1, SameObjs s s1 ∧ s1.vars = (s.vars.set w (some { r with p := none, moved := true })).set v (some { l with p := r.p, moved := r.moved }) ∧ After s1 s') := by
  unfold moveAssign
  rw [var_ok hl hlk, var_ok hr hrk]
  by_cases hvw : v = w
  · simp only [hvw, if_true]
    exact ⟨s, rfl, h, rfl⟩
  · simp only [hvw, if_false]
    have i1 := Inv.set (pend := []) (v := some { r with p := none, moved := true }) hr (by simpa [target] using h)
      ⟨(VarOk.of_mem h hr).1, by simp⟩
    have t1 : target (some r) = r.p := by simp [target, hrk]
    rw [t1] at i1
    have hl1 : (s.vars.set w (some { r with p := none, moved := true }))[v]? = some (some l) := by
      rw [List.getElem?_set_ne (Ne.symm hvw)]; exact hl
    have hn : l.kind = .ref → r.moved = false → r.p ≠ none := fun _ hm => (VarOk.of_mem h hr).2 hrk hm
    have t2 : target (some { l with p := r.p, moved := r.moved }) = r.p := by simp [target, hlk]
    have i2 := Inv.set (pend := []) (v := some { l with p := r.p, moved := r.moved }) hl1 (by rw [t2]; exact i1) ⟨(VarOk.of_mem i1 hl1).1, hn⟩
    have t3 : target (some l) = l.p := by simp [target, hlk]
    rw [t3, List.append_nil] at i2
    obtain ⟨s', e3, i3, a3⟩ := releaseM_ok _ _ i2
    refine ⟨s', ?_, i3, _, ?_, rfl, a3⟩
    · rw [Meth.bind_ok (by rfl : assignVar w _ s = (.ok (), _)), Meth.bind_ok (by rfl : assignVar v _ _ = (.ok (), _))]
      exact e3
    · exact ⟨rfl, rfl, fun _ => rfl⟩

theorem destroy_good {s : St} (h : Inv s []) {w : Nat} {r : Var} (hr : s.vars[w]? = some (some r)) :
    Good (destroy w s) (fun s' => After { s with vars := s.vars.set w none } s') := by
  have i1 := Inv.set (pend := []) (v := none) hr (by simpa [target] using h) trivial
  rw [List.append_nil] at i1
  obtain ⟨s', e, i, a⟩ := releaseM_ok _ _ i1
  refine ⟨s', ?_, i, a⟩
  unfold destroy
  simp only [hr]
  rw [Meth.bind_ok (by rfl : assignVar w _ s = (.ok (), _))]
  exact e

/-- The result of `lock`. -/
def lockResult (s : St) : Option Nat → Option Nat
  | none => none
  | some o => match s.objs[o]? with | none => none | some ob => if ob.alive then some o else none

theorem lock_eq {s : St} (h : Inv s []) {w : Nat} {r : Var} (hr : s.vars[w]? = some (some r)) (hrk : r.kind = .weak) (owner : Option Nat) :
    lock w owner s = (addRef (lockResult s r.p) >>= fun _ => construct ⟨owner, .ptr, lockResult s r.p, false⟩) s := by
  unfold lock
  rw [var_ok hr hrk, Meth.get_bind]
  have : lockPtr s r.p = lockResult s r.p := by
    unfold lockResult lockPtr
    cases r.p with
    | none => rfl
    | some o =>
      simp only
      cases ho : s.objs[o]? with
      | none => rfl
      | some ob => simp only [← h.alive o ob ho]
  rw [this]

theorem lock_alive {s : St} (p : Option Nat) : ∀ o, lockResult s p = some o → Alive s o := by
  intro o ho
  unfold lockResult at ho
  cases p with
  | none => cases ho
  | some x =>
    simp only at ho
    cases hx : s.objs[x]? with
    | none => simp [hx] at ho
    | some ob =>
      simp only [hx] at ho
      split at ho
      · cases ho; exact ⟨ob, hx, by assumption⟩
      · cases ho

theorem get_good {s : St} (h : Inv s []) (dbg : Bool) {w o : Nat} {r : Var} (hr : s.vars[w]? = some (some r)) (hrk : r.kind = .ref) (hp : r.p = some o) :
    get dbg w s = (.ok o, s) := by
  obtain ⟨ob, ho, ha⟩ := target_alive h hr (by simp [hrk]) o hp
  unfold get
  rw [var_ok hr hrk]
  simp only [hp]
  rw [Meth.bind_ok (by simp [assertNotNull, ASSERT, Meth.lift] : assertNotNull dbg (some o) s = (.ok (), s))]
  rw [Meth.get_bind]
  simp [ho, ha]

theorem cast_good {s : St} (h : Inv s []) (dbg : Bool) (derives : Nat → Nat → Bool) {w o : Nat} {r : Var} {ob : Obj} (hr : s.vars[w]? = some (some r))
    (hrk : r.kind = .ref) (hp : r.p = some o) (ho : s.objs[o]? = some ob) (dst : Nat) (owner : Option Nat) :
    cast dbg derives w dst owner s = if derives ob.dyn dst then (addRef (some o) >>= fun _ => construct ⟨owner, .ref, some o, false⟩) s
      else (.throw .bad_cast, s) := by
  obtain ⟨ob', ho', ha⟩ := target_alive h hr (by simp [hrk]) o hp
  rw [ho] at ho'; cases ho'
  unfold cast
  rw [var_ok hr hrk]
  simp only [hp]
  rw [Meth.get_bind]
  simp only [ho, ha]
  cases derives ob.dyn dst <;> simp [Meth.throw]


theorem makeWeakFrom_eq {s : St} (h : Inv s []) {o : Nat} (ha : Alive s o) (owner : Option Nat) (ho : OwnerOk s owner) :
    makeWeakFrom o owner s = (.ok (), { s with vars := s.vars ++ [some ⟨owner, .weak, some o, false⟩] }) := by
  obtain ⟨ob, h1, h2⟩ := ha
  have hlt := (List.getElem?_eq_some_iff.mp h1).1
  have hc : 0 < ob.count := (h.alive o ob h1).mp h2
  have e1 : addRef (some o) s = (.ok (), { s with objs := s.objs.set o { ob with count := ob.count + 1 } }) := by simp [addRef, h1, h2]
  have i1 := h.addRef h1 h2
  have ho1 : OwnerOk { s with objs := s.objs.set o { ob with count := ob.count + 1 } } owner := by
    intro x hx
    obtain ⟨y, hy, hya⟩ := ho x hx
    by_cases hxo : x = o
    · subst hxo; rw [h1] at hy; cases hy
      exact ⟨_, List.getElem?_set_self hlt, h2⟩
    · exact ⟨y, by rw [← hy]; exact List.getElem?_set_ne (Ne.symm hxo), hya⟩
  obtain ⟨e2, _⟩ := construct_ok (v := ⟨owner, .weak, some o, false⟩) (pend := [o]) (by simpa [target] using i1) ho1 (by simp)
  have e3 : s.objs.set o ob = s.objs := by
    apply List.ext_getElem?
    intro i
    by_cases hi : i = o
    · subst hi; rw [List.getElem?_set_self hlt, h1]
    · rw [List.getElem?_set_ne (Ne.symm hi)]
  unfold makeWeakFrom
  rw [Meth.bind_ok e1, Meth.bind_ok e2]
  have hc1 : ¬ (ob.count + 1 = 1) := by omega
  simp only [releaseM, List.length_cons, List.length_append, List.length_nil]
  rw [show s.vars.length + (0 + 1) + (0 + 1) = s.vars.length + 1 + 1 by omega]
  have hz : ob.count ≠ 0 := by omega
  simp [release, List.getElem?_set_self hlt, h2, hz]
  obtain ⟨dyn, count, alive⟩ := ob
  simp only at h2
  subst h2
  exact e3

/-- The exceptions: that of the constructor, and that of a cast. -/
def MayThrow : Op → Err → Prop
  | .makeShared _ true _, e => e = .user 1
  | .cast _ _ _, e => e = .bad_cast
  | _, _ => False

/-- Every step: it succeeds and keeps the invariant; or throws and changes nothing; or was misuse. -/
theorem step_cases (dbg : Bool) (derives : Nat → Nat → Bool) (op : Op) (s : St) (h : Inv s []) :
    Good (step dbg derives op s) (fun _ => True) ∨ (∃ e, step dbg derives op s = (.throw e, s) ∧ MayThrow op e) ∨ (Bad (step dbg derives op s) ∧ ¬ Valid s op) := by
  have fin : ∀ {x : Res Unit × St} {owner : Option Nat} {Q : St → Prop} {V : Prop} {T : Err → Prop}, (OwnerOk s owner → Good x Q) ∧ (¬ OwnerOk s owner → Bad x) → (V → OwnerOk s owner) →
      Good x (fun _ => True) ∨ (∃ e, x = (.throw e, s) ∧ T e) ∨ (Bad x ∧ ¬ V) := by
    intro x owner Q V T hx hV
    by_cases ho : OwnerOk s owner
    · exact .inl ((hx.1 ho).mono fun _ _ => trivial)
    · exact .inr (.inr ⟨hx.2 ho, fun v => ho (hV v)⟩)
  have noVar : ∀ {k : Kind} {w : Nat} {f : Var → Meth St Unit} {V : Prop} {T : Err → Prop}, ¬ HasVar s k w → (V → HasVar s k w) →
      Good ((var k w >>= f) s) (fun _ => True) ∨ (∃ e, (var k w >>= f) s = (.throw e, s) ∧ T e) ∨ (Bad ((var k w >>= f) s) ∧ ¬ V) := by
    intro k w f V T hv hV
    exact .inr (.inr ⟨.inl (var_bad hv f), fun v => hv (hV v)⟩)
  have nn : ∀ {w : Nat} {r : Var}, s.vars[w]? = some (some r) → r.kind = .ref → r.moved = false → r.p ≠ none :=
    fun hr => (VarOk.of_mem h hr).2
  cases op with
  | makeShared dyn t owner =>
    simp only [step, makeShared]
    cases t with
    | true => exact .inr (.inl ⟨_, rfl, rfl⟩)
    | false =>
      simp only [Bool.false_eq_true, if_false]
      by_cases ho : OwnerOk { s with objs := s.objs ++ [⟨dyn, 1, true⟩] } owner
      · obtain ⟨e, i⟩ := construct_ok (v := ⟨owner, .ref, some s.objs.length, false⟩) (pend := []) (by simpa [target] using makeShared_inv h dyn) ho (by simp)
        exact .inl ⟨_, e, i, trivial⟩
      · refine .inr (.inr ⟨.inl (construct_bad ho), fun hv => ho ?_⟩)
        intro o e
        obtain ⟨ob, h1, h2⟩ := hv o e
        exact ⟨ob, by simp [List.getElem?_append_left (List.getElem?_eq_some_iff.mp h1).1, h1], h2⟩
  | copy w owner =>
    simp only [step, copy]
    by_cases hv : HasVar s .ref w
    · obtain ⟨r, hr, hk⟩ := hv
      rw [var_ok hr hk]
      exact fin (share h r.p (target_alive h hr (by simp [hk])) owner .ref (by simp) r.moved (fun _ => nn hr hk)) (fun v => v.2)
    · exact noVar hv fun v => v.1
  | copyAssign v w =>
    simp only [step]
    by_cases hv : HasVar s .ref v
    · obtain ⟨l, hl, hlk⟩ := hv
      by_cases hw : HasVar s .ref w
      · obtain ⟨r, hr, hrk⟩ := hw
        exact .inl ((copyAssign_good h hl hlk hr hrk).mono fun _ _ => trivial)
      · unfold copyAssign
        rw [var_ok hl hlk]
        exact noVar hw fun v => v.2
    · exact noVar hv fun v => v.1
  | move w owner =>
    simp only [step]
    by_cases hv : HasVar s .ref w
    · obtain ⟨r, hr, hk⟩ := hv
      exact fin (move_good h hr hk owner) (fun v => v.2)
    · exact noVar hv fun v => v.1
  | moveAssign v w =>
    simp only [step]
    by_cases hv : HasVar s .ref v
    · obtain ⟨l, hl, hlk⟩ := hv
      by_cases hw : HasVar s .ref w
      · obtain ⟨r, hr, hrk⟩ := hw
        exact .inl ((moveAssign_good h hl hlk hr hrk).mono fun _ _ => trivial)
      · unfold moveAssign
        rw [var_ok hl hlk]
        exact noVar hw fun v => v.2
    · exact noVar hv fun v => v.1
  | convert w owner =>
    simp only [step, convert]
    by_cases hv : HasVar s .ref w
    · obtain ⟨r, hr, hk⟩ := hv
      rw [var_ok hr hk]
      by_cases hc : dbg = true ∧ r.p = none
      · refine .inr (.inr ⟨.inr ?_, ?_⟩)
        · rw [Meth.bind_abort (by simp [assertNotNull, ASSERT, Meth.lift, hc] : assertNotNull dbg r.p s = (.abort, s))]
        · rintro ⟨⟨r', hr', _, hm⟩, _⟩
          rw [hr] at hr'; cases hr'
          exact nn hr hk hm hc.2
      · rw [Meth.bind_ok (by cases dbg <;> cases hp : r.p <;> simp_all [assertNotNull, ASSERT, Meth.lift] : assertNotNull dbg r.p s = (.ok (), s))]
        exact fin (share h r.p (target_alive h hr (by simp [hk])) owner .ref (by simp) r.moved (fun _ => nn hr hk)) (fun v => v.2)
    · exact noVar hv fun ⟨⟨r, hr, hk, _⟩, _⟩ => ⟨r, hr, hk⟩
  | toPtr w owner =>
    simp only [step, toPtr]
    by_cases hv : HasVar s .ref w
    · obtain ⟨r, hr, hk⟩ := hv
      rw [var_ok hr hk]
      exact fin (share h r.p (target_alive h hr (by simp [hk])) owner .ptr (by simp) false (by simp)) (fun v => v.2)
    · exact noVar hv fun v => v.1
  | fromPtr w owner =>
    simp only [step, fromPtr]
    by_cases hv : HasVar s .ptr w
    · obtain ⟨r, hr, hk⟩ := hv
      rw [var_ok hr hk]
      cases hp : r.p with
      | none =>
        refine .inr (.inr ⟨?_, ?_⟩)
        · cases dbg with
          | true =>
            right
            rw [Meth.bind_abort (by simp [assertNotNull, ASSERT, Meth.lift] : assertNotNull true none s = (.abort, s))]
          | false =>
            left
            rw [Meth.bind_ok (by simp [assertNotNull, ASSERT, Meth.lift] : assertNotNull false none s = (.ok (), s))]
            exact ⟨_, rfl⟩
        · rintro ⟨⟨r', hr', _, hm⟩, _⟩
          rw [hr] at hr'; cases hr'
          exact hm hp
      | some o =>
        rw [Meth.bind_ok (by simp [assertNotNull, ASSERT, Meth.lift] : assertNotNull dbg (some o) s = (.ok (), s))]
        exact fin (share h (some o) (by rw [← hp]; exact target_alive h hr (by simp [hk])) owner .ref (by simp) false (by simp)) (fun v => v.2)
    · exact noVar hv fun ⟨⟨r, hr, hk, _⟩, _⟩ => ⟨r, hr, hk⟩
  | makeWeak w owner =>
    simp only [step, makeWeak]
    by_cases hv : HasVar s .ref w
    · obtain ⟨r, hr, hk⟩ := hv
      rw [var_ok hr hk]
      by_cases ho : OwnerOk s owner
      · obtain ⟨e, i⟩ := construct_ok (v := ⟨owner, .weak, r.p, false⟩) (pend := []) (by simpa [target] using h) ho (by simp)
        exact .inl ⟨_, e, i, trivial⟩
      · exact .inr (.inr ⟨.inl (construct_bad ho), fun v => ho v.2⟩)
    · exact noVar hv fun v => v.1
  | lock w owner =>
    simp only [step]
    by_cases hv : HasVar s .weak w
    · obtain ⟨r, hr, hk⟩ := hv
      rw [lock_eq h hr hk]
      exact fin (share h _ (lock_alive r.p) owner .ptr (by simp) false (by simp)) (fun v => v.2)
    · exact noVar hv fun v => v.1
  | makeSharedFrom o owner =>
    simp only [step, makeSharedFrom]
    by_cases ha : Alive s o
    · exact fin (share h (some o) (by intro x hx; cases hx; exact ha) owner .ref (by simp) false (by simp)) (fun v => v.2)
    · refine .inr (.inr ⟨.inl ?_, fun v => ha v.1⟩)
      have : ∃ u, addRef (some o) s = (.ub u, s) := by
        simp only [addRef]
        cases ho : s.objs[o]? with
        | none => exact ⟨_, rfl⟩
        | some ob =>
          have : ¬ ob.alive = true := fun hh => ha ⟨ob, ho, hh⟩
          exact ⟨.use_after_free, by simp [this]⟩
      obtain ⟨u, hu⟩ := this
      exact ⟨u, by rw [Meth.bind_ub hu]⟩
  | makeWeakPtr w owner =>
    simp only [step, makeWeakPtr]
    by_cases hv : HasVar s .ptr w
    · obtain ⟨r, hr, hk⟩ := hv
      rw [var_ok hr hk]
      by_cases ho : OwnerOk s owner
      · obtain ⟨e, i⟩ := construct_ok (v := ⟨owner, .weak, r.p, false⟩) (pend := []) (by simpa [target] using h) ho (by simp)
        exact .inl ⟨_, e, i, trivial⟩
      · exact .inr (.inr ⟨.inl (construct_bad ho), fun v => ho v.2⟩)
    · exact noVar hv fun v => v.1
  | makeWeakFrom o owner =>
    simp only [step]
    by_cases ha : Alive s o
    · by_cases ho : OwnerOk s owner
      · obtain ⟨_, i⟩ := construct_ok (v := ⟨owner, .weak, some o, false⟩) (pend := []) (by simpa [target] using h) ho (by simp)
        exact .inl ⟨_, makeWeakFrom_eq h ha owner ho, i, trivial⟩
      · refine .inr (.inr ⟨.inl ?_, fun v => ho v.2⟩)
        obtain ⟨s1, e1, _, _, o1⟩ := addRef_ok h (some o) (by intro x hx; cases hx; exact ha)
        obtain ⟨u, hu⟩ := construct_bad (s := s1) (v := ⟨owner, .weak, some o, false⟩)
          (fun hh => ho (fun x hx => (o1.alive x).mp (hh x hx)))
        unfold makeWeakFrom
        rw [Meth.bind_ok e1]
        exact ⟨u, by rw [Meth.bind_ub (s' := (construct ⟨owner, .weak, some o, false⟩ s1).2) (e := u) (by rw [← hu])]⟩
    · refine .inr (.inr ⟨.inl ?_, fun v => ha v.1⟩)
      have : ∃ u, addRef (some o) s = (.ub u, s) := by
        simp only [addRef]
        cases ho : s.objs[o]? with
        | none => exact ⟨_, rfl⟩
        | some ob =>
          have : ¬ ob.alive = true := fun hh => ha ⟨ob, ho, hh⟩
          exact ⟨.use_after_free, by simp [this]⟩
      obtain ⟨u, hu⟩ := this
      exact ⟨u, by unfold makeWeakFrom; rw [Meth.bind_ub hu]⟩
  | cast w dst owner =>
    simp only [step]
    by_cases hv : HasVar s .ref w
    · obtain ⟨r, hr, hk⟩ := hv
      cases hp : r.p with
      | none =>
        refine .inr (.inr ⟨?_, ?_⟩)
        · unfold cast
          rw [var_ok hr hk]
          simp only [hp]
          cases dbg with
          | true =>
            right
            rw [Meth.bind_abort (by simp [assertNotNull, ASSERT, Meth.lift] : assertNotNull true none s = (.abort, s))]
          | false =>
            left
            rw [Meth.bind_ok (by simp [assertNotNull, ASSERT, Meth.lift] : assertNotNull false none s = (.ok (), s))]
            exact ⟨_, rfl⟩
        · rintro ⟨⟨r', hr', _, hm⟩, _⟩
          rw [hr] at hr'; cases hr'
          exact nn hr hk hm hp
      | some o =>
        have ha := target_alive h hr (by simp [hk]) o hp
        obtain ⟨ob, ho, _⟩ := id ha
        rw [cast_good h dbg derives hr hk hp ho]
        by_cases hd : derives ob.dyn dst = true
        · rw [if_pos hd]
          exact fin (share h (some o) (by intro x hx; cases hx; exact ha) owner .ref (by simp) false (by simp)) (fun v => v.2)
        · rw [if_neg hd]
          exact .inr (.inl ⟨_, rfl, rfl⟩)
    · exact noVar hv fun ⟨⟨r, hr, hk, _⟩, _⟩ => ⟨r, hr, hk⟩
  | get w =>
    simp only [step]
    by_cases hv : HasVar s .ref w
    · obtain ⟨r, hr, hk⟩ := hv
      cases hp : r.p with
      | none =>
        refine .inr (.inr ⟨?_, ?_⟩)
        · cases dbg with
          | true =>
            right
            have : get true w s = (.abort, s) := by
              unfold get
              rw [var_ok hr hk]
              simp only [hp]
              rw [Meth.bind_abort (by simp [assertNotNull, ASSERT, Meth.lift] : assertNotNull true none s = (.abort, s))]
            rw [Meth.bind_abort this]
          | false =>
            left
            have : get false w s = (.ub .null_deref, s) := by
              unfold get
              rw [var_ok hr hk]
              simp only [hp]
              rw [Meth.bind_ok (by simp [assertNotNull, ASSERT, Meth.lift] : assertNotNull false none s = (.ok (), s))]
              rfl
            rw [Meth.bind_ub this]
            exact ⟨_, rfl⟩
        · rintro ⟨r', hr', _, hm⟩
          rw [hr] at hr'; cases hr'
          exact nn hr hk hm hp
      | some o =>
        rw [Meth.bind_ok (get_good h dbg hr hk hp)]
        exact .inl ⟨s, rfl, h, trivial⟩
    · have : ∃ u, (get dbg w s).1 = .ub u := var_bad hv _
      refine .inr (.inr ⟨.inl ?_, fun ⟨r, hr, hk, _⟩ => hv ⟨r, hr, hk⟩⟩)
      obtain ⟨u, hu⟩ := this
      exact ⟨u, by rw [Meth.bind_ub (s' := (get dbg w s).2) (e := u) (by rw [← hu])]⟩
  | destroy w =>
    simp only [step]
    by_cases hv : ∃ r, s.vars[w]? = some (some r)
    · obtain ⟨r, hr⟩ := hv
      exact .inl ((destroy_good h hr).mono fun _ _ => trivial)
    · refine .inr (.inr ⟨.inl ?_, hv⟩)
      unfold destroy
      split
      · rename_i r hr; exact absurd ⟨r, hr⟩ hv
      · exact ⟨_, rfl⟩

/-- The invariant holds after every history. -/
theorem run_inv (dbg : Bool) (derives : Nat → Nat → Bool) (ops : List Op) (s s' : St) (h : Inv s []) (hr : run dbg derives ops s = some s') : Inv s' [] := by
  induction ops generalizing s with
  | nil => rw [run] at hr; cases hr; exact h
  | cons op ops ih =>
    rw [run] at hr
    rcases step_cases dbg derives op s h with ⟨s1, e, i, _⟩ | ⟨e, he, _⟩ | ⟨hb, _⟩
    · rw [e] at hr; exact ih s1 i hr
    · rw [he] at hr; exact ih s h hr
    · rcases hst : step dbg derives op s with ⟨r, s1⟩
      rw [hst] at hr hb
      rcases hb with ⟨u, hu⟩ | hu
      · simp only at hu; subst hu; cases hr
      · simp only at hu; subst hu; cases hr

end SharedRef

open SharedRef

/-! ### C62 -/

/-- After every history: a `shared_ref` that was not moved from (nor made of one that was) refers to an object that exists, and `get` gives that
object, in every build. -/
theorem C62_not_null (dbg : Bool) (derives : Nat → Nat → Bool) (ops : List Op) (s : St) (hs : run dbg derives ops init = some s)
    (w : Nat) (r : Var) (hr : s.vars[w]? = some (some r)) (hk : r.kind = .ref) (hm : r.moved = false) :
    ∃ o ob, r.p = some o ∧ s.objs[o]? = some ob ∧ ob.alive = true ∧ ∀ dbg', get dbg' w s = (.ok o, s) := by
  have h := run_inv dbg derives ops init s Inv.init hs
  have hp := (VarOk.of_mem h hr).2 hk hm
  cases ho : r.p with
  | none => exact absurd ho hp
  | some o =>
    obtain ⟨ob, h1, h2⟩ := target_alive h hr (by simp [hk]) o ho
    exact ⟨o, ob, rfl, h1, h2, fun dbg' => get_good h dbg' hr hk ho⟩

/-- After every history: an object exists if and only if some `shared_ref` or `std::shared_ptr` refers to it. -/
theorem C62_alive_iff (dbg : Bool) (derives : Nat → Nat → Bool) (ops : List Op) (s : St) (hs : run dbg derives ops init = some s)
    (o : Nat) (ob : Obj) (ho : s.objs[o]? = some ob) :
    ob.alive = true ↔ ∃ (w : Nat) (r : Var), s.vars[w]? = some (some r) ∧ r.kind ≠ .weak ∧ r.p = some o := by
  have h := run_inv dbg derives ops init s Inv.init hs
  rw [h.alive o ob ho, h.count o ob ho]
  simp only [List.count_nil, Nat.add_zero, refs]
  rw [List.countP_pos_iff]
  constructor
  · rintro ⟨v, hv, ht⟩
    obtain ⟨w, hw⟩ := List.getElem?_of_mem hv
    cases v with
    | none => simp [target] at ht
    | some r =>
      by_cases hk : r.kind = .weak
      · simp [target, hk] at ht
      · exact ⟨w, r, hw, hk, by simpa [target, hk] using ht⟩
  · rintro ⟨w, r, hr, hk, hp⟩
    exact ⟨some r, List.mem_of_getElem? hr, by simp [target, hk, hp]⟩

/-- After every history: no object was destroyed twice; the destroyed objects are those that do not exist any more. -/
theorem C62_destroyed_once (dbg : Bool) (derives : Nat → Nat → Bool) (ops : List Op) (s : St) (hs : run dbg derives ops init = some s) :
    s.destroyed.Nodup ∧ ∀ o, o ∈ s.destroyed ↔ ∃ ob, s.objs[o]? = some ob ∧ ob.alive = false := by
  have h := run_inv dbg derives ops init s Inv.init hs
  exact ⟨h.nodup, h.dead⟩

/-- After every history: a reference or pointer that is a member of an object exists only as long as the object does. -/
theorem C62_members (dbg : Bool) (derives : Nat → Nat → Bool) (ops : List Op) (s : St) (hs : run dbg derives ops init = some s)
    (w : Nat) (r : Var) (hr : s.vars[w]? = some (some r)) (o : Nat) (ho : r.owner = some o) : ∃ ob, s.objs[o]? = some ob ∧ ob.alive = true :=
  (run_inv dbg derives ops init s Inv.init hs).owner r o (List.mem_of_getElem? hr) ho

/-- After every history, each correctly used operation succeeds or throws: no undefined behaviour, no failed assertion, no endless destruction. It
throws only if the constructor of the object throws or a cast fails, and then nothing changed. -/
theorem C62_valid_use (dbg : Bool) (derives : Nat → Nat → Bool) (ops : List Op) (s : St) (hs : run dbg derives ops init = some s) (op : Op)
    (hv : Valid s op) :
    (∃ s', step dbg derives op s = (.ok (), s')) ∨
    (∃ e, step dbg derives op s = (.throw e, s) ∧
      ((e = .user 1 ∧ ∃ dyn owner, op = .makeShared dyn true owner) ∨ (e = .bad_cast ∧ ∃ w dst owner, op = .cast w dst owner))) := by
  have h := run_inv dbg derives ops init s Inv.init hs
  rcases step_cases dbg derives op s h with ⟨s', e, _⟩ | he | ⟨_, hn⟩
  · exact .inl ⟨s', e⟩
  · obtain ⟨e, he, ht⟩ := he
    refine .inr ⟨e, he, ?_⟩
    cases op with
    | makeShared dyn t owner =>
      cases t with
      | true => exact .inl ⟨ht, dyn, owner, rfl⟩
      | false => cases ht
    | cast w dst owner => exact .inr ⟨ht, w, dst, owner, rfl⟩
    | _ => cases ht
  · exact absurd hv hn

/-- `make_shared`: a new object, with one reference to it; an exception of the constructor is passed on. -/
theorem C62_make_shared (dbg : Bool) (derives : Nat → Nat → Bool) (s : St) (dyn : Nat) :
    step dbg derives (.makeShared dyn true none) s = (.throw (.user 1), s) ∧
    step dbg derives (.makeShared dyn false none) s =
      (.ok (), { s with objs := s.objs ++ [⟨dyn, 1, true⟩], vars := s.vars ++ [some ⟨none, .ref, some s.objs.length, false⟩] }) :=
  ⟨rfl, rfl⟩

/-- Copying and converting to a base, after any history: the new reference refers to the same object as the old one; all other variables are as they
were, and all objects too (but for the count). -/
theorem C62_copy (dbg : Bool) (derives : Nat → Nat → Bool) (ops : List Op) (s : St) (hs : run dbg derives ops init = some s)
    (w : Nat) (r : Var) (hr : s.vars[w]? = some (some r)) (hk : r.kind = .ref) (hm : r.moved = false) (op : Op)
    (hop : op = .copy w none ∨ op = .convert w none) :
    ∃ s', step dbg derives op s = (.ok (), s') ∧ s'.vars = s.vars ++ [some ⟨none, .ref, r.p, false⟩] ∧ s'.destroyed = s.destroyed := by
  have h := run_inv dbg derives ops init s Inv.init hs
  have hp := (VarOk.of_mem h hr).2 hk hm
  have hsh := (share h r.p (target_alive h hr (by simp [hk])) none .ref (by simp) false (fun _ _ => hp)).1 (by intro o ho; cases ho)
  obtain ⟨s', e, _, hv, ho⟩ := hsh
  refine ⟨s', ?_, hv, ho.1⟩
  rcases hop with rfl | rfl
  · simp only [step, copy]
    rw [var_ok hr hk, hm]
    exact e
  · simp only [step, convert]
    rw [var_ok hr hk, hm]
    obtain ⟨o, hpo⟩ := Option.ne_none_iff_exists'.mp hp
    rw [Meth.bind_ok (by simp [assertNotNull, ASSERT, Meth.lift, hpo] : assertNotNull dbg r.p s = (.ok (), s))]
    exact e

/-- Conversion of a reference to `std::shared_ptr` and back, after any history: the same object. -/
theorem C62_ptr (dbg : Bool) (derives : Nat → Nat → Bool) (ops : List Op) (s : St) (hs : run dbg derives ops init = some s)
    (w : Nat) (r : Var) (hr : s.vars[w]? = some (some r)) (hk : r.kind = .ref) (hm : r.moved = false) :
    ∃ s', run dbg derives [.toPtr w none, .fromPtr s.vars.length none] s = some s' ∧
      s'.vars = s.vars ++ [some ⟨none, .ptr, r.p, false⟩, some ⟨none, .ref, r.p, false⟩] ∧ s'.destroyed = s.destroyed := by
  have h := run_inv dbg derives ops init s Inv.init hs
  have hp := (VarOk.of_mem h hr).2 hk hm
  obtain ⟨o, hpo⟩ := Option.ne_none_iff_exists'.mp hp
  obtain ⟨s1, e1, i1, v1, o1⟩ := (share h r.p (target_alive h hr (by simp [hk])) none .ptr (by simp) false (by simp)).1 (by intro o ho; cases ho)
  have hr1 : s1.vars[s.vars.length]? = some (some ⟨none, .ptr, r.p, false⟩) := by rw [v1]; simp
  obtain ⟨s2, e2, i2, v2, o2⟩ := (share i1 r.p (target_alive (r := ⟨none, .ptr, r.p, false⟩) i1 hr1 (by simp)) none .ref (by simp) false (fun _ _ => hp)).1 (by intro o ho; cases ho)
  refine ⟨s2, ?_, ?_, ?_⟩
  · have st1 : step dbg derives (.toPtr w none) s = (.ok (), s1) := by
      simp only [step, toPtr]
      rw [var_ok hr hk]
      exact e1
    have st2 : step dbg derives (.fromPtr s.vars.length none) s1 = (.ok (), s2) := by
      simp only [step, fromPtr]
      rw [var_ok hr1 rfl]
      rw [hpo] at e2 ⊢
      rw [Meth.bind_ok (by simp [assertNotNull, ASSERT, Meth.lift] : assertNotNull dbg (some o) s1 = (.ok (), s1))]
      exact e2
    simp only [run, st1, st2]
  · rw [v2, v1]; simp
  · rw [o2.1, o1.1]

/-- Copy assignment, after any history: the target refers to what the source refers to; the source is unchanged (if it still exists); other variables
that are not members keep their value. The object referred to before goes if this was the last reference to it, by `C62_alive_iff`. -/
theorem C62_copy_assign (dbg : Bool) (derives : Nat → Nat → Bool) (ops : List Op) (s : St) (hs : run dbg derives ops init = some s)
    (v w : Nat) (l r : Var) (hl : s.vars[v]? = some (some l)) (hlk : l.kind = .ref) (hlo : l.owner = none)
    (hr : s.vars[w]? = some (some r)) (hrk : r.kind = .ref) :
    ∃ s', step dbg derives (.copyAssign v w) s = (.ok (), s') ∧
      s'.vars[v]? = some (some { l with p := r.p, moved := r.moved }) ∧
      ∀ (i : Nat) (x : Var), i ≠ v → s.vars[i]? = some (some x) → x.owner = none → s'.vars[i]? = some (some x) := by
  have h := run_inv dbg derives ops init s Inv.init hs
  obtain ⟨s', e, _, s1, _, v1, af⟩ := copyAssign_good h hl hlk hr hrk
  refine ⟨s', e, ?_, ?_⟩
  · rcases af.kept v { l with p := r.p, moved := r.moved } (by rw [v1]; exact List.getElem?_set_self (List.getElem?_eq_some_iff.mp hl).1) with hk | ⟨_, o, ho, _⟩
    · exact hk
    · rw [hlo] at ho; cases ho
  · intro i x hi hx hxo
    rcases af.kept i x (by rw [v1, List.getElem?_set_ne (Ne.symm hi)]; exact hx) with hk | ⟨_, o, ho, _⟩
    · exact hk
    · rw [hxo] at ho; cases ho

/-- Move construction: the new reference refers to the object the source referred to, the source is null; no object is destroyed, nothing else
changes. -/
theorem C62_move (dbg : Bool) (derives : Nat → Nat → Bool) (ops : List Op) (s : St) (hs : run dbg derives ops init = some s)
    (w : Nat) (r : Var) (hr : s.vars[w]? = some (some r)) (hk : r.kind = .ref) :
    step dbg derives (.move w none) s =
      (.ok (), { s with vars := s.vars.set w (some { r with p := none, moved := true }) ++ [some ⟨none, .ref, r.p, r.moved⟩] }) := by
  have h := run_inv dbg derives ops init s Inv.init hs
  obtain ⟨s', e, _, hs'⟩ := (move_good h hr hk none).1 (by intro o ho; cases ho)
  rw [hs'] at e
  exact e

/-- Move assignment: to itself it does nothing; else the target refers to what the source referred to and the source is null; other variables that
are not members keep their value. -/
theorem C62_move_assign (dbg : Bool) (derives : Nat → Nat → Bool) (ops : List Op) (s : St) (hs : run dbg derives ops init = some s)
    (v w : Nat) (l r : Var) (hl : s.vars[v]? = some (some l)) (hlk : l.kind = .ref) (hlo : l.owner = none)
    (hr : s.vars[w]? = some (some r)) (hrk : r.kind = .ref) (hro : r.owner = none) :
    ∃ s', step dbg derives (.moveAssign v w) s = (.ok (), s') ∧ (v = w → s' = s) ∧
      (v ≠ w → s'.vars[v]? = some (some { l with p := r.p, moved := r.moved }) ∧ s'.vars[w]? = some (some { r with p := none, moved := true }) ∧
        ∀ (i : Nat) (x : Var), i ≠ v → i ≠ w → s.vars[i]? = some (some x) → x.owner = none → s'.vars[i]? = some (some x)) := by
  have h := run_inv dbg derives ops init s Inv.init hs
  obtain ⟨s', e, _, hq⟩ := moveAssign_good h hl hlk hr hrk
  refine ⟨s', e, fun hvw => by simpa [hvw] using hq, ?_⟩
  intro hvw
  rw [if_neg hvw] at hq
  obtain ⟨s1, _, v1, af⟩ := hq
  have keep : ∀ (i : Nat) (x : Var), s1.vars[i]? = some (some x) → x.owner = none → s'.vars[i]? = some (some x) := by
    intro i x hi hx
    rcases af.kept i x hi with hk | ⟨_, o, ho, _⟩
    · exact hk
    · rw [hx] at ho; cases ho
  have lv := (List.getElem?_eq_some_iff.mp hl).1
  have lw := (List.getElem?_eq_some_iff.mp hr).1
  refine ⟨keep v _ ?_ hlo, keep w _ ?_ hro, ?_⟩
  · rw [v1]; exact List.getElem?_set_self (by simpa using lv)
  · rw [v1, List.getElem?_set_ne hvw]; exact List.getElem?_set_self lw
  · intro i x h1 h2 hx hxo
    apply keep i x _ hxo
    rw [v1, List.getElem?_set_ne (Ne.symm h1), List.getElem?_set_ne (Ne.symm h2)]
    exact hx

/-- Destruction of a reference, after any history: the variable goes, other variables that are not members keep their value. -/
theorem C62_destroy (dbg : Bool) (derives : Nat → Nat → Bool) (ops : List Op) (s : St) (hs : run dbg derives ops init = some s)
    (w : Nat) (r : Var) (hr : s.vars[w]? = some (some r)) :
    ∃ s', step dbg derives (.destroy w) s = (.ok (), s') ∧ s'.vars[w]? = some none ∧
      ∀ (i : Nat) (x : Var), i ≠ w → s.vars[i]? = some (some x) → x.owner = none → s'.vars[i]? = some (some x) := by
  have h := run_inv dbg derives ops init s Inv.init hs
  obtain ⟨s', e, _, af⟩ := destroy_good h hr
  refine ⟨s', e, af.gone w (List.getElem?_set_self (List.getElem?_eq_some_iff.mp hr).1), ?_⟩
  intro i x hi hx hxo
  rcases af.kept i x (by rw [List.getElem?_set_ne (Ne.symm hi)]; exact hx) with hk | ⟨_, o, ho, _⟩
  · exact hk
  · rw [hxo] at ho; cases ho

/-- `dynamic_reference_cast` of a reference not moved from, after any history: it throws `std::bad_cast`, changing nothing, if the object is not of the
type asked for; otherwise it gives another reference to the same object. -/
theorem C62_cast (dbg : Bool) (derives : Nat → Nat → Bool) (ops : List Op) (s : St) (hs : run dbg derives ops init = some s)
    (w : Nat) (r : Var) (hr : s.vars[w]? = some (some r)) (hk : r.kind = .ref) (hm : r.moved = false) (dst : Nat) :
    ∃ o ob, r.p = some o ∧ s.objs[o]? = some ob ∧
      (derives ob.dyn dst = false → step dbg derives (.cast w dst none) s = (.throw .bad_cast, s)) ∧
      (derives ob.dyn dst = true → ∃ s', step dbg derives (.cast w dst none) s = (.ok (), s') ∧
        s'.vars = s.vars ++ [some ⟨none, .ref, some o, false⟩] ∧ s'.destroyed = s.destroyed) := by
  have h := run_inv dbg derives ops init s Inv.init hs
  obtain ⟨o, hpo⟩ := Option.ne_none_iff_exists'.mp ((VarOk.of_mem h hr).2 hk hm)
  have ha := target_alive h hr (by simp [hk]) o hpo
  obtain ⟨ob, ho, _⟩ := id ha
  refine ⟨o, ob, hpo, ho, ?_, ?_⟩
  · intro hd
    simp only [step]
    rw [cast_good h dbg derives hr hk hpo ho, hd]
    rfl
  · intro hd
    obtain ⟨s', e, _, hv, hso⟩ := (share h (some o) (by intro x hx; cases hx; exact ha) none .ref (by simp) false (by simp)).1 (by intro o ho; cases ho)
    refine ⟨s', ?_, hv, hso.1⟩
    simp only [step]
    rw [cast_good h dbg derives hr hk hpo ho, hd]
    exact e

/-- `make_weak` does not keep the object alive; `lock`, after any history, gives the object if it exists, else null. -/
theorem C62_weak (dbg : Bool) (derives : Nat → Nat → Bool) (ops : List Op) (s : St) (hs : run dbg derives ops init = some s)
    (w o : Nat) (ob : Obj) (ho : s.objs[o]? = some ob) :
    (∀ r, s.vars[w]? = some (some r) → r.kind = .ref → r.p = some o →
      step dbg derives (.makeWeak w none) s = (.ok (), { s with vars := s.vars ++ [some ⟨none, .weak, some o, false⟩] })) ∧
    (∀ r, s.vars[w]? = some (some r) → r.kind = .weak → r.p = some o →
      ∃ s', step dbg derives (.lock w none) s = (.ok (), s') ∧
        s'.vars = s.vars ++ [some ⟨none, .ptr, if ob.alive then some o else none, false⟩]) := by
  have h := run_inv dbg derives ops init s Inv.init hs
  constructor
  · intro r hr hk hp
    simp only [step, makeWeak]
    rw [var_ok hr hk, hp]
    rfl
  · intro r hr hk hp
    obtain ⟨s', e, _, hv, _⟩ := (share h (lockResult s r.p) (lock_alive r.p) none .ptr (by simp) false (by simp)).1 (by intro o ho; cases ho)
    refine ⟨s', ?_, ?_⟩
    · simp only [step]
      rw [lock_eq h hr hk]
      exact e
    · rw [hv, hp]
      simp [lockResult, ho]

/-- `make_shared_from`, after any history: another reference to that object. -/
theorem C62_make_shared_from (dbg : Bool) (derives : Nat → Nat → Bool) (ops : List Op) (s : St) (hs : run dbg derives ops init = some s)
    (o : Nat) (ob : Obj) (ho : s.objs[o]? = some ob) (ha : ob.alive = true) :
    ∃ s', step dbg derives (.makeSharedFrom o none) s = (.ok (), s') ∧
      s'.vars = s.vars ++ [some ⟨none, .ref, some o, false⟩] ∧ s'.destroyed = s.destroyed := by
  have h := run_inv dbg derives ops init s Inv.init hs
  obtain ⟨s', e, _, hv, hso⟩ := (share h (some o) (by intro x hx; cases hx; exact ⟨ob, ho, ha⟩) none .ref (by simp) false (by simp)).1 (by intro o ho; cases ho)
  exact ⟨s', e, hv, hso.1⟩

/-- `make_weak` of a `std::shared_ptr`, and `make_weak_from` an object that exists, after any history: a weak pointer to the same object (null for a
null pointer). Nothing else changes: all counts are as they were. -/
theorem C62_make_weak_from (dbg : Bool) (derives : Nat → Nat → Bool) (ops : List Op) (s : St) (hs : run dbg derives ops init = some s) :
    (∀ (w : Nat) (r : Var), s.vars[w]? = some (some r) → r.kind = .ptr →
      step dbg derives (.makeWeakPtr w none) s = (.ok (), { s with vars := s.vars ++ [some ⟨none, .weak, r.p, false⟩] })) ∧
    (∀ (o : Nat) (ob : Obj), s.objs[o]? = some ob → ob.alive = true →
      step dbg derives (.makeWeakFrom o none) s = (.ok (), { s with vars := s.vars ++ [some ⟨none, .weak, some o, false⟩] })) := by
  have h := run_inv dbg derives ops init s Inv.init hs
  constructor
  · intro w r hr hk
    simp only [step, makeWeakPtr]
    rw [var_ok hr hk]
    rfl
  · intro o ob ho ha
    exact makeWeakFrom_eq h ⟨ob, ho, ha⟩ none (by intro x hx; cases hx)

/-- A weak pointer made of an object and one made of a pointer give null after the object has gone. -/
example : (run true (fun _ _ => true) [.makeShared 5 false none, .makeWeakFrom 0 none, .toPtr 0 none, .makeWeakPtr 2 none, .destroy 0, .lock 1 none,
      .destroy 4, .destroy 2, .lock 1 none, .lock 3 none] init).map (fun s => (s.vars.drop 4, s.destroyed)) =
    some ([none, some ⟨none, .ptr, none, false⟩, some ⟨none, .ptr, none, false⟩], [0]) := by decide

/-- Object 0 has a member that refers to object 1. -/
example : run true (fun a b => a == b) [.makeShared 5 false none, .makeShared 6 false none, .copy 1 (some 0), .destroy 1, .cast 2 6 none, .destroy 3] init =
    some ⟨[⟨5, 1, true⟩, ⟨6, 1, true⟩], [some ⟨none, .ref, some 0, false⟩, none, some ⟨some 0, .ref, some 1, false⟩, none], []⟩ := by decide

/-- Destroying the last reference to object 0 destroys it, its member, and object 1. -/
example : (run true (fun a b => a == b) [.makeShared 5 false none, .makeShared 6 false none, .copy 1 (some 0), .destroy 1, .destroy 0] init).map St.destroyed =
    some [0, 1] := by decide

/-- Two objects that refer to each other are never destroyed. -/
example : (run true (fun a b => a == b) [.makeShared 5 false none, .makeShared 6 false none, .copy 1 (some 0), .copy 0 (some 1), .destroy 1, .destroy 0] init).map
    St.destroyed = some [] := by decide

/-- Misuse: `get` of a reference moved from. -/
example : run true (fun _ _ => true) [.makeShared 5 false none, .move 0 none, .get 0] init = none := by decide

example : (run true (fun _ _ => true) [.makeShared 5 false none, .makeWeak 0 none, .destroy 0, .lock 1 none] init).map St.vars =
    some [none, some ⟨none, .weak, some 0, false⟩, some ⟨none, .ptr, none, false⟩] := by decide

example : run true (fun a b => a == b) [.makeShared 5 false none, .cast 0 6 none] init =
    some ⟨[⟨5, 1, true⟩], [some ⟨none, .ref, some 0, false⟩], []⟩ := by decide

end Utki
