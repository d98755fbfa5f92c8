import Verif.Model.UniqueRef
import Verif.Props.SharedRef
/-!
# Properties of `unique_ref` (C63)
-/
namespace Utki
namespace UniqueRef

/-- Number of variables that point to `o`. -/
def refs (s : St) (o : Nat) : Nat := s.vars.countP (fun v => target v == some o)

/-- The object exists. -/
def Alive (s : St) (o : Nat) : Prop := s.objs[o]? = some true

/-- Invariant. `pend`: pointers that are not in a variable at the moment. -/
structure Inv (s : St) (pend : List Nat) : Prop where
  count : ∀ (o : Nat) (alive : Bool), s.objs[o]? = some alive → refs s o + pend.count o = if alive then 1 else 0
  bound : ∀ o, 0 < refs s o + pend.count o → o < s.objs.length
  owner : ∀ x o, some x ∈ s.vars → x.owner = some o → Alive s o
  nodup : s.destroyed.Nodup
  dead : ∀ o, o ∈ s.destroyed ↔ s.objs[o]? = some false
  notNull : ∀ x, some x ∈ s.vars → x.kind = .ref → x.moved = false → x.p ≠ none

theorem Inv.init : Inv init [] where
  count := by simp [UniqueRef.init]
  bound := by simp [UniqueRef.init, refs]
  owner := by simp [UniqueRef.init]
  nodup := by simp [UniqueRef.init]
  dead := by simp [UniqueRef.init]
  notNull := by simp [UniqueRef.init]

theorem Inv.alive_of {s : St} {pend : List Nat} (h : Inv s pend) {o : Nat} (ho : 0 < refs s o + pend.count o) : Alive s o := by
  have hb := h.bound o ho
  have e : s.objs[o]? = some s.objs[o] := by simp [hb]
  have := h.count o _ e
  cases ha : s.objs[o] with
  | true => rw [ha] at e; exact e
  | false => rw [ha] at this; simp at this; omega

theorem refs_pos {s : St} {w o : Nat} {v : Option Var} (h : s.vars[w]? = some v) (ht : target v = some o) : 0 < refs s o := by
  unfold refs
  rw [List.countP_pos_iff]
  exact ⟨v, List.mem_of_getElem? h, by simp [ht]⟩

/-- What is required of a new value of a variable. -/
def VarOk (s : St) : Option Var → Prop
  | none => True
  | some x => (∀ o, x.owner = some o → Alive s o) ∧ (x.kind = .ref → x.moved = false → x.p ≠ none)

theorem VarOk.of_mem {s : St} {pend : List Nat} (h : Inv s pend) {w : Nat} {x : Var} (hx : s.vars[w]? = some (some x)) : VarOk s (some x) :=
  ⟨fun o ho => h.owner x o (List.mem_of_getElem? hx) ho, h.notNull x (List.mem_of_getElem? hx)⟩

/-- A reference goes into a new variable. -/
theorem Inv.push {s : St} {pend : List Nat} {v : Option Var} (h : Inv s ((target v).toList ++ pend)) (hv : VarOk s v) :
    Inv { s with vars := s.vars ++ [v] } pend := by
  have e : ∀ o, refs { s with vars := s.vars ++ [v] } o + pend.count o = refs s o + ((target v).toList ++ pend).count o := by
    intro o
    unfold refs
    simp only [List.countP_append, List.count_append]
    rw [List.countP_singleton]
    cases target v with
    | none => simp
    | some t => by_cases ht : t = o <;> simp [ht] <;> omega
  constructor
  · intro o ob ho; rw [e]; exact h.count o ob ho
  · intro o ho; rw [e] at ho; exact h.bound o ho
  · intro x o hx ho
    rcases List.mem_append.mp hx with hx | hx
    · exact h.owner x o hx ho
    · rw [List.mem_singleton] at hx; subst hx; exact hv.1 o ho
  · exact h.nodup
  · exact h.dead
  · intro x hx
    rcases List.mem_append.mp hx with hx | hx
    · exact h.notNull x hx
    · rw [List.mem_singleton] at hx; subst hx; exact hv.2

theorem countP_set_target (l : List (Option Var)) (w : Nat) (v old : Option Var) (hw : l[w]? = some old) (o : Nat) :
    (l.set w v).countP (fun v => target v == some o) + (target old).toList.count o =
      l.countP (fun v => target v == some o) + (target v).toList.count o := by
  have c : ∀ u : Option Var, (target u).toList.count o = if (target u == some o) = true then 1 else 0 := by
    intro u
    cases target u with
    | none => simp
    | some t => by_cases ht : t = o <;> simp [ht]
  rw [c, c]
  induction l generalizing w with
  | nil => simp at hw
  | cons a l ih =>
    cases w with
    | zero =>
      simp only [List.getElem?_cons_zero, Option.some.injEq] at hw
      subst hw
      simp only [List.set_cons_zero, List.countP_cons]
      omega
    | succ w =>
      simp only [List.getElem?_cons_succ] at hw
      simp only [List.set_cons_succ, List.countP_cons]
      have := ih w hw
      omega

/-- The reference in a variable is replaced. -/
theorem Inv.set {s : St} {pend : List Nat} {w : Nat} {old v : Option Var} (hw : s.vars[w]? = some old) (h : Inv s ((target v).toList ++ pend))
    (hv : VarOk s v) : Inv { s with vars := s.vars.set w v } ((target old).toList ++ pend) := by
  have e : ∀ o, refs { s with vars := s.vars.set w v } o + ((target old).toList ++ pend).count o = refs s o + ((target v).toList ++ pend).count o := by
    intro o
    have := countP_set_target s.vars w v old hw o
    unfold refs
    simp only [List.count_append]
    omega
  have m : ∀ x, some x ∈ s.vars.set w v → some x ∈ s.vars ∨ some x = v := fun x hx => List.mem_or_eq_of_mem_set hx
  constructor
  · intro o ob ho; rw [e]; exact h.count o ob ho
  · intro o ho; rw [e] at ho; exact h.bound o ho
  · intro x o hx ho
    rcases m x hx with hx | hx
    · exact h.owner x o hx ho
    · subst hx; exact hv.1 o ho
  · exact h.nodup
  · exact h.dead
  · intro x hx
    rcases m x hx with hx | hx
    · exact h.notNull x hx
    · subst hx; exact hv.2

/-- Number of variables that exist. -/
def existing (vars : List (Option Var)) : Nat := vars.countP (fun v => v.isSome)

theorem members_cons (o : Nat) (v : Option Var) (vars : List (Option Var)) :
    members o (v :: vars) = if ownedBy o v then (target v).toList ++ members o vars else members o vars := by
  unfold members
  by_cases h : ownedBy o v = true
  · rw [List.filter_cons_of_pos h, List.filterMap_cons, if_pos h]
    cases target v <;> simp
  · rw [List.filter_cons_of_neg h, if_neg h]

theorem dispose_refs (o x : Nat) (vars : List (Option Var)) :
    (vars.map (fun v => if ownedBy o v then none else v)).countP (fun v => target v == some x) + (members o vars).count x =
      vars.countP (fun v => target v == some x) := by
  induction vars with
  | nil => rfl
  | cons v vars ih =>
    rw [members_cons]
    simp only [List.map_cons, List.countP_cons]
    by_cases h : ownedBy o v = true
    · simp only [h, if_true]
      rw [List.count_append, ← ih]
      cases ht : target v with
      | none => simp [target]
      | some t => by_cases hx : t = x <;> simp [target, hx] <;> omega
    · simp only [h]
      rw [← ih]
      simp; omega

theorem dispose_existing (o : Nat) (vars : List (Option Var)) :
    existing (vars.map (fun v => if ownedBy o v then none else v)) + (members o vars).length ≤ existing vars := by
  unfold existing
  induction vars with
  | nil => simp [members]
  | cons v vars ih =>
    rw [members_cons]
    simp only [List.map_cons, List.countP_cons]
    by_cases h : ownedBy o v = true
    · cases v with
      | none => simp [ownedBy] at h
      | some v =>
        simp only [h, if_true]
        have : (target (some v)).toList.length ≤ 1 := by cases target (some v) <;> simp
        simp only [List.length_append, Option.isSome_none, Option.isSome_some, Bool.false_eq_true, if_false, if_true]
        omega
    · simp only [h]
      simp only [Bool.false_eq_true, if_false]
      omega

/-- What deleting objects may change: they are destroyed, with their members; nothing else. -/
structure After (s s' : St) : Prop where
  vars : s'.vars.length = s.vars.length
  objs : s'.objs.length = s.objs.length
  kept : ∀ (i : Nat) (x : Var), s.vars[i]? = some (some x) → s'.vars[i]? = some (some x) ∨ (s'.vars[i]? = some none ∧ ∃ o, x.owner = some o ∧ ¬ Alive s' o)
  gone : ∀ i : Nat, s.vars[i]? = some none → s'.vars[i]? = some none
  dead : ∀ o ∈ s.destroyed, o ∈ s'.destroyed

theorem After.refl (s : St) : After s s where
  vars := rfl
  objs := rfl
  kept := fun _ _ h => .inl h
  gone := fun _ h => h
  dead := fun _ h => h

theorem After.trans {a b c : St} (h1 : After a b) (h2 : After b c) (hi : ∀ o, ¬ Alive b o → ¬ Alive c o) : After a c where
  vars := h2.vars.trans h1.vars
  objs := h2.objs.trans h1.objs
  kept := by
    intro i x h
    rcases h1.kept i x h with h | ⟨h, o, ho, hd⟩
    · exact h2.kept i x h
    · exact .inr ⟨h2.gone i h, o, ho, hi o hd⟩
  gone := fun i h => h2.gone i (h1.gone i h)
  dead := fun o h => h2.dead o (h1.dead o h)

/-- `delete` succeeds and keeps the invariant. -/
theorem delete_ok (fuel : Nat) (s : St) (pend : List Nat) (h : Inv s pend) (hf : existing s.vars + pend.length ≤ fuel) :
    ∃ s', delete fuel s pend = .ok s' ∧ Inv s' [] ∧ After s s' ∧ ∀ o, ¬ Alive s o → ¬ Alive s' o := by
  induction fuel generalizing s pend with
  | zero =>
    cases pend with
    | nil => exact ⟨s, by rw [delete], h, After.refl s, fun o h => h⟩
    | cons o rest => simp at hf
  | succ fuel ih =>
    cases pend with
    | nil => exact ⟨s, by rw [delete], h, After.refl s, fun o h => h⟩
    | cons o rest =>
      have ho : s.objs[o]? = some true := h.alive_of (o := o) (by simp; omega)
      have hlt : o < s.objs.length := by
        rw [List.getElem?_eq_some_iff] at ho; exact ho.1
      have hc := h.count o true ho
      rw [List.count_cons_self] at hc
      simp only [if_true] at hc
      rw [delete]
      simp only [ho]
      rw [if_neg (by simp)]
      have hr : refs s o = 0 := by omega
      have hrest : rest.count o = 0 := by omega
      have get : ∀ x y, (s.objs.set o false)[x]? = some y → (x = o ∧ y = false) ∨ (x ≠ o ∧ s.objs[x]? = some y) := by
        intro x y hy
        by_cases hx : x = o
        · subst hx; rw [List.getElem?_set_self hlt] at hy; exact .inl ⟨rfl, by simpa using hy.symm⟩
        · rw [List.getElem?_set_ne (Ne.symm hx)] at hy; exact .inr ⟨hx, hy⟩
      have put : ∀ (x : Nat) (y : Bool), x ≠ o → s.objs[x]? = some y → (s.objs.set o false)[x]? = some y := by
        intro x y hx hy; rw [List.getElem?_set_ne (Ne.symm hx)]; exact hy
      have hmem : ∀ x, some x ∈ s.vars.map (fun v => if ownedBy o v then none else v) → some x ∈ s.vars ∧ x.owner ≠ some o := by
        intro x hx
        obtain ⟨v, hv, he⟩ := List.mem_map.mp hx
        by_cases hob : ownedBy o v = true
        · rw [if_pos hob] at he; cases he
        · rw [if_neg hob] at he
          subst he
          exact ⟨hv, by simpa [ownedBy] using hob⟩
      have hdis := fun x => dispose_refs o x s.vars
      have inv' : Inv ⟨s.objs.set o false, s.vars.map (fun v => if ownedBy o v then none else v), s.destroyed ++ [o]⟩ (members o s.vars ++ rest) := by
        constructor
        · intro x y hy
          have hd := hdis x
          simp only [refs, List.count_append]
          rcases get x y hy with ⟨rfl, rfl⟩ | ⟨hx, hy⟩
          · simp only [refs] at hr
            simp only [Bool.false_eq_true, if_false]; omega
          · have hcx := h.count x y hy
            rw [List.count_cons_of_ne (Ne.symm hx)] at hcx
            simp only [refs] at hcx
            omega
        · intro x hx
          simp only [List.length_set]
          by_cases hxo : x = o
          · subst hxo; exact hlt
          · apply h.bound x
            have hd := hdis x
            simp only [refs, List.count_append] at hx ⊢
            rw [List.count_cons_of_ne (Ne.symm hxo)]
            omega
        · intro x p hx hp
          obtain ⟨hx, hno⟩ := hmem x hx
          have hy := h.owner x p hx hp
          have : p ≠ o := by rintro rfl; exact hno hp
          exact put _ _ this hy
        · rw [List.nodup_append]
          refine ⟨h.nodup, by simp, ?_⟩
          intro a ha' b hb
          rw [List.mem_singleton] at hb
          subst hb
          rintro rfl
          have hy := (h.dead a).mp ha'
          rw [ho] at hy; cases hy
        · intro x
          rw [List.mem_append, List.mem_singleton, h.dead x]
          constructor
          · rintro (hy | rfl)
            · have : x ≠ o := by rintro rfl; rw [ho] at hy; cases hy
              exact put _ _ this hy
            · exact List.getElem?_set_self hlt
          · intro hy
            rcases get x _ hy with ⟨rfl, _⟩ | ⟨hx, hy⟩
            · exact .inr rfl
            · exact .inl hy
        · intro x hx
          exact h.notNull x (hmem x hx).1
      have hmeas : existing (s.vars.map (fun v => if ownedBy o v then none else v)) + (members o s.vars ++ rest).length ≤ fuel := by
        have := dispose_existing o s.vars
        simp only [List.length_append, List.length_cons] at hf ⊢
        omega
      obtain ⟨s', e, hi, haf, hal⟩ := ih _ _ inv' hmeas
      have hdead : ∀ x, ¬ Alive s x → ¬ Alive ⟨s.objs.set o false, s.vars.map (fun v => if ownedBy o v then none else v), s.destroyed ++ [o]⟩ x := by
        intro x hx hy
        rcases get x _ hy with ⟨_, hf⟩ | ⟨_, hy⟩
        · cases hf
        · exact hx hy
      refine ⟨s', e, hi, After.trans ?_ haf hal, fun x hx => hal x (hdead x hx)⟩
      constructor
      · simp
      · simp
      · intro i x hx
        by_cases hob : ownedBy o (some x) = true
        · refine .inr ⟨by simp [hx, hob], o, by simpa [ownedBy] using hob, ?_⟩
          intro hy
          rcases get o _ hy with ⟨_, hf⟩ | ⟨hne, _⟩
          · cases hf
          · exact hne rfl
        · exact .inl (by simp [hx, hob])
      · intro i hi
        simp [hi, ownedBy]
      · intro x hx
        exact List.mem_append_left _ hx

theorem existing_le (vars : List (Option Var)) : existing vars ≤ vars.length := List.countP_le_length

theorem deleteM_ok (s : St) (pend : List Nat) (h : Inv s pend) : ∃ s', deleteM pend s = (.ok (), s') ∧ Inv s' [] ∧ After s s' := by
  have := existing_le s.vars
  obtain ⟨s', e, hi, ha, _⟩ := delete_ok (s.vars.length + pend.length) s pend h (by omega)
  exact ⟨s', by simp [deleteM, e], hi, ha⟩

/-! ### Primitives -/

theorem var_ok {k : Kind} {w : Nat} {s : St} {r : Var} (h : s.vars[w]? = some (some r)) (hk : r.kind = k) {β : Type} (f : Var → Meth St β) :
    (var k w >>= f) s = f r s :=
  Meth.bind_ok (by simp [var, h, hk])

/-- A variable of that kind exists. -/
def HasVar (s : St) (k : Kind) (w : Nat) : Prop := ∃ r, s.vars[w]? = some (some r) ∧ r.kind = k

theorem var_bad {k : Kind} {w : Nat} {s : St} (h : ¬ HasVar s k w) {β : Type} (f : Var → Meth St β) : ∃ u, ((var k w >>= f) s).1 = .ub u := by
  have : ∃ u, var k w s = (.ub u, s) := by
    unfold var
    split
    · rename_i r hr
      have : r.kind ≠ k := fun e => h ⟨r, hr, e⟩
      exact ⟨_, by rw [if_neg this]⟩
    · exact ⟨_, rfl⟩
  obtain ⟨u, hu⟩ := this
  exact ⟨u, by rw [Meth.bind_ub hu]⟩

/-- The object in which a variable is to be made exists; or it is not a member. -/
def OwnerOk (s : St) (owner : Option Nat) : Prop := ∀ o, owner = some o → Alive s o

theorem construct_ok {s : St} {pend : List Nat} {v : Var} (h : Inv s ((target (some v)).toList ++ pend)) (ho : OwnerOk s v.owner)
    (hn : v.kind = .ref → v.moved = false → v.p ≠ none) :
    construct v s = (.ok (), { s with vars := s.vars ++ [some v] }) ∧ Inv { s with vars := s.vars ++ [some v] } pend := by
  refine ⟨?_, h.push ⟨ho, hn⟩⟩
  unfold construct
  cases hv : v.owner with
  | none => rfl
  | some o =>
    have h1 : s.objs[o]? = some true := ho o hv
    simp [h1]

theorem construct_bad {s : St} {v : Var} (ho : ¬ OwnerOk s v.owner) : ∃ u, (construct v s).1 = .ub u := by
  unfold construct
  cases hv : v.owner with
  | none => exact absurd (fun o h => by rw [hv] at h; cases h) ho
  | some o =>
    simp only
    cases h1 : s.objs[o]? with
    | none => exact ⟨_, rfl⟩
    | some ob =>
      cases ob with
      | false => exact ⟨.use_after_free, by simp⟩
      | true => exact absurd (fun x hx => by rw [hv] at hx; cases hx; exact h1) ho

/-- The step succeeded, the invariant holds. -/
def Good (x : Res Unit × St) (Q : St → Prop) : Prop := ∃ s', x = (.ok (), s') ∧ Inv s' [] ∧ Q s'

/-- The step was misuse. -/
def Bad (x : Res Unit × St) : Prop := (∃ u, x.1 = .ub u) ∨ x.1 = .abort

theorem target_alive {s : St} {pend : List Nat} (h : Inv s pend) {w : Nat} {r : Var} (hr : s.vars[w]? = some (some r)) :
    ∀ o, r.p = some o → Alive s o := by
  intro o ho
  have : 0 < refs s o := refs_pos hr (by simp [target, ho])
  exact h.alive_of (by omega)

/-! ### Steps -/

/-- Correct use of the operations: the variables exist and are of the right kind; a new member is made in an object that exists; references that
were moved from are only assigned, moved, or destroyed; `unique_ref` is not made of a null pointer. -/
def Valid (s : St) : Op → Prop
  | .makeUnique _ owner => OwnerOk s owner
  | .move k w owner => HasVar s k w ∧ OwnerOk s owner
  | .moveAssign v w => HasVar s .ref v ∧ HasVar s .ref w
  | .convert w owner => (∃ r, s.vars[w]? = some (some r) ∧ r.kind = .ref ∧ r.moved = false) ∧ OwnerOk s owner
  | .toPtr w owner => HasVar s .ref w ∧ OwnerOk s owner
  | .fromPtr w owner => (∃ r, s.vars[w]? = some (some r) ∧ r.kind = .ptr ∧ r.p ≠ none) ∧ OwnerOk s owner
  | .get w => ∃ r, s.vars[w]? = some (some r) ∧ r.kind = .ref ∧ r.moved = false
  | .destroy w => ∃ r, s.vars[w]? = some (some r)

theorem Good.mono {x : Res Unit × St} {Q R : St → Prop} (h : Good x Q) (hq : ∀ s', Q s' → R s') : Good x R := by
  obtain ⟨s', e, i, q⟩ := h
  exact ⟨s', e, i, hq s' q⟩

theorem makeUnique_inv {s : St} (h : Inv s []) : Inv { s with objs := s.objs ++ [true] } [s.objs.length] := by
  have fresh : ∀ o, s.objs.length ≤ o → refs s o = 0 := by
    intro o ho
    have := h.bound o
    simp only [List.count_nil, Nat.add_zero] at this
    omega
  have get : ∀ x y, (s.objs ++ [true])[x]? = some y → (x = s.objs.length ∧ y = true) ∨ (x < s.objs.length ∧ s.objs[x]? = some y) := by
    intro x y hy
    rw [List.getElem?_append] at hy
    split at hy
    · exact .inr ⟨by assumption, hy⟩
    · obtain ⟨hl, e⟩ := List.getElem?_eq_some_iff.mp hy
      simp only [List.length_singleton] at hl
      have : x - s.objs.length = 0 := by omega
      simp only [this, List.getElem_cons_zero] at e
      exact .inl ⟨by omega, e.symm⟩
  have put : ∀ (x : Nat) (y : Bool), s.objs[x]? = some y → (s.objs ++ [true])[x]? = some y := by
    intro x y hy
    rw [List.getElem?_append_left (List.getElem?_eq_some_iff.mp hy).1]; exact hy
  constructor
  · intro o ob ho
    show refs s o + _ = _
    rcases get o ob ho with ⟨rfl, rfl⟩ | ⟨hlt, ho⟩
    · simp [fresh]
    · have := h.count o ob ho
      rw [List.count_cons_of_ne (by omega)]
      exact this
  · intro o ho
    simp only [List.length_append, List.length_singleton]
    by_cases hlt : s.objs.length < o
    · have h1 : refs s o = 0 := fresh o (by omega)
      have h2 : [s.objs.length].count o = 0 := by rw [List.count_cons_of_ne (by omega)]; rfl
      have : refs { s with objs := s.objs ++ [true] } o = refs s o := rfl
      omega
    · omega
  · intro x o hx ho
    exact put _ _ (h.owner x o hx ho)
  · exact h.nodup
  · intro o
    rw [show (o ∈ s.destroyed ↔ _) from h.dead o]
    constructor
    · exact put _ _
    · intro hy
      rcases get o _ hy with ⟨_, hf⟩ | ⟨hlt, ho⟩
      · cases hf
      · exact ho
  · exact h.notNull

/-- The variable `w` is moved to a new one. -/
theorem transfer {s : St} (h : Inv s []) {w : Nat} {r : Var} (hr : s.vars[w]? = some (some r)) (owner : Option Nat) (k : Kind) (m : Bool)
    (hn : k = .ref → m = false → r.p ≠ none) :
    (OwnerOk s owner → Good (construct ⟨owner, k, r.p, m⟩ { s with vars := s.vars.set w (some { r with p := none, moved := true }) })
      (fun s' => s' = { s with vars := s.vars.set w (some { r with p := none, moved := true }) ++ [some ⟨owner, k, r.p, m⟩] })) ∧
    (¬ OwnerOk s owner → Bad (construct ⟨owner, k, r.p, m⟩ { s with vars := s.vars.set w (some { r with p := none, moved := true }) })) := by
  have i1 := Inv.set (pend := []) (v := some { r with p := none, moved := true }) hr (by simpa [target] using h)
    ⟨(VarOk.of_mem h hr).1, by simp⟩
  have t1 : target (some r) = r.p := rfl
  rw [t1] at i1
  constructor
  · intro ho
    obtain ⟨e2, i2⟩ := construct_ok (v := ⟨owner, k, r.p, m⟩) i1 (fun o h => ho o h) hn
    exact ⟨_, e2, i2, rfl⟩
  · intro ho
    exact .inl (construct_bad ho)

theorem moveAssign_good {s : St} (h : Inv s []) {v w : Nat} {l r : Var} (hl : s.vars[v]? = some (some l)) (hlk : l.kind = .ref)
    (hr : s.vars[w]? = some (some r)) (hrk : r.kind = .ref) :
    Good (moveAssign v w s) (fun s' => if v = w then s' = s else
      ∃ s1, s1.objs = s.objs ∧ s1.destroyed = s.destroyed ∧ s1.vars = (s.vars.set w (some { r with p := none, moved := true })).set v (some { l with p := r.p, moved := r.moved }) ∧ After s1 s') := by
  unfold moveAssign
  rw [var_ok hl hlk, var_ok hr hrk]
  by_cases hvw : v = w
  · simp only [hvw, if_true]
    exact ⟨s, rfl, h, rfl⟩
  · simp only [hvw, if_false]
    have i1 := Inv.set (pend := []) (v := some { r with p := none, moved := true }) hr (by simpa [target] using h)
      ⟨(VarOk.of_mem h hr).1, by simp⟩
    have t1 : target (some r) = r.p := rfl
    rw [t1] at i1
    have hl1 : (s.vars.set w (some { r with p := none, moved := true }))[v]? = some (some l) := by
      rw [List.getElem?_set_ne (Ne.symm hvw)]; exact hl
    have hn : l.kind = .ref → r.moved = false → r.p ≠ none := fun _ hm => (VarOk.of_mem h hr).2 hrk hm
    have t2 : target (some { l with p := r.p, moved := r.moved }) = r.p := rfl
    have i2 := Inv.set (pend := []) (v := some { l with p := r.p, moved := r.moved }) hl1 (by rw [t2]; exact i1) ⟨(VarOk.of_mem i1 hl1).1, hn⟩
    have t3 : target (some l) = l.p := rfl
    rw [t3, List.append_nil] at i2
    obtain ⟨s', e3, i3, a3⟩ := deleteM_ok _ _ i2
    refine ⟨s', ?_, i3, _, ?_, ?_, ?_, a3⟩
    · rw [Meth.bind_ok (by rfl : assignVar w _ s = (.ok (), _)), Meth.bind_ok (by rfl : assignVar v _ _ = (.ok (), _))]
      exact e3
    all_goals rfl

theorem destroy_good {s : St} (h : Inv s []) {w : Nat} {r : Var} (hr : s.vars[w]? = some (some r)) :
    Good (destroy w s) (fun s' => After { s with vars := s.vars.set w none } s') := by
  have i1 := Inv.set (pend := []) (v := none) hr (by simpa [target] using h) trivial
  rw [List.append_nil] at i1
  obtain ⟨s', e, i, a⟩ := deleteM_ok _ _ i1
  refine ⟨s', ?_, i, a⟩
  unfold destroy
  simp only [hr]
  rw [Meth.bind_ok (by rfl : assignVar w _ s = (.ok (), _))]
  exact e

theorem get_good {s : St} (h : Inv s []) (dbg : Bool) {w o : Nat} {r : Var} (hr : s.vars[w]? = some (some r)) (hrk : r.kind = .ref) (hp : r.p = some o) :
    get dbg w s = (.ok o, s) := by
  have ho : s.objs[o]? = some true := target_alive h hr o hp
  unfold get
  rw [var_ok hr hrk]
  simp only [hp]
  rw [Meth.bind_ok (by simp [assertNotNull, ASSERT, Meth.lift] : assertNotNull dbg (some o) s = (.ok (), s))]
  rw [Meth.get_bind]
  simp [ho]

/-- The exceptions: that of the constructor. -/
def MayThrow : Op → Err → Prop
  | .makeUnique true _, e => e = .user 1
  | _, _ => False

/-- Every step: it succeeds and keeps the invariant; or throws and changes nothing; or was misuse. -/
theorem step_cases (dbg : Bool) (op : Op) (s : St) (h : Inv s []) :
    Good (step dbg op s) (fun _ => True) ∨ (∃ e, step dbg op s = (.throw e, s) ∧ MayThrow op e) ∨ (Bad (step dbg op s) ∧ ¬ Valid s op) := by
  have fin : ∀ {x : Res Unit × St} {owner : Option Nat} {Q : St → Prop} {V : Prop} {T : Err → Prop}, (OwnerOk s owner → Good x Q) ∧ (¬ OwnerOk s owner → Bad x) → (V → OwnerOk s owner) →
      Good x (fun _ => True) ∨ (∃ e, x = (.throw e, s) ∧ T e) ∨ (Bad x ∧ ¬ V) := by
    intro x owner Q V T hx hV
    by_cases ho : OwnerOk s owner
    · exact .inl ((hx.1 ho).mono fun _ _ => trivial)
    · exact .inr (.inr ⟨hx.2 ho, fun v => ho (hV v)⟩)
  have noVar : ∀ {k : Kind} {w : Nat} {f : Var → Meth St Unit} {V : Prop} {T : Err → Prop}, ¬ HasVar s k w → (V → HasVar s k w) →
      Good ((var k w >>= f) s) (fun _ => True) ∨ (∃ e, (var k w >>= f) s = (.throw e, s) ∧ T e) ∨ (Bad ((var k w >>= f) s) ∧ ¬ V) := by
    intro k w f V T hv hV
    exact .inr (.inr ⟨.inl (var_bad hv f), fun v => hv (hV v)⟩)
  have nn : ∀ {w : Nat} {r : Var}, s.vars[w]? = some (some r) → r.kind = .ref → r.moved = false → r.p ≠ none :=
    fun hr => (VarOk.of_mem h hr).2
  cases op with
  | makeUnique t owner =>
    simp only [step, makeUnique]
    cases t with
    | true => exact .inr (.inl ⟨_, rfl, rfl⟩)
    | false =>
      simp only [Bool.false_eq_true, if_false]
      by_cases ho : OwnerOk { s with objs := s.objs ++ [true] } owner
      · obtain ⟨e, i⟩ := construct_ok (v := ⟨owner, .ref, some s.objs.length, false⟩) (pend := []) (by simpa [target] using makeUnique_inv h) ho (by simp)
        exact .inl ⟨_, e, i, trivial⟩
      · refine .inr (.inr ⟨.inl (construct_bad ho), fun hv => ho ?_⟩)
        intro o e
        have h1 : s.objs[o]? = some true := hv o e
        show (s.objs ++ [true])[o]? = some true
        rw [List.getElem?_append_left (List.getElem?_eq_some_iff.mp h1).1, h1]
  | move k w owner =>
    simp only [step, move]
    by_cases hv : HasVar s k w
    · obtain ⟨r, hr, hk⟩ := hv
      rw [var_ok hr hk, Meth.bind_ok (by rfl : assignVar w _ s = (.ok (), _))]
      exact fin (transfer h hr owner k r.moved (fun hh => nn hr (hk.trans hh))) (fun v => v.2)
    · exact noVar hv fun v => v.1
  | moveAssign v w =>
    simp only [step]
    by_cases hv : HasVar s .ref v
    · obtain ⟨l, hl, hlk⟩ := hv
      by_cases hw : HasVar s .ref w
      · obtain ⟨r, hr, hrk⟩ := hw
        exact .inl ((moveAssign_good h hl hlk hr hrk).mono fun _ _ => trivial)
      · unfold moveAssign
        rw [var_ok hl hlk]
        exact noVar hw fun v => v.2
    · exact noVar hv fun v => v.1
  | convert w owner =>
    simp only [step, convert]
    by_cases hv : HasVar s .ref w
    · obtain ⟨r, hr, hk⟩ := hv
      rw [var_ok hr hk, Meth.bind_ok (by rfl : assignVar w _ s = (.ok (), _))]
      by_cases hc : dbg = true ∧ r.p = none
      · refine .inr (.inr ⟨.inr ?_, ?_⟩)
        · rw [Meth.bind_abort (by simp [assertNotNull, ASSERT, Meth.lift, hc]; rfl)]
        · rintro ⟨⟨r', hr', _, hm⟩, _⟩
          rw [hr] at hr'; cases hr'
          exact nn hr hk hm hc.2
      · rw [Meth.bind_ok (a := ()) (s' := { s with vars := s.vars.set w (some { r with p := none, moved := true }) })
          (by cases dbg <;> cases hp : r.p <;> simp_all [assertNotNull, ASSERT, Meth.lift])]
        exact fin (transfer h hr owner .ref r.moved (fun _ => nn hr hk)) (fun v => v.2)
    · exact noVar hv fun ⟨⟨r, hr, hk, _⟩, _⟩ => ⟨r, hr, hk⟩
  | toPtr w owner =>
    simp only [step, toPtr]
    by_cases hv : HasVar s .ref w
    · obtain ⟨r, hr, hk⟩ := hv
      rw [var_ok hr hk, Meth.bind_ok (by rfl : assignVar w _ s = (.ok (), _))]
      exact fin (transfer h hr owner .ptr false (by simp)) (fun v => v.2)
    · exact noVar hv fun v => v.1
  | fromPtr w owner =>
    simp only [step, fromPtr]
    by_cases hv : HasVar s .ptr w
    · obtain ⟨r, hr, hk⟩ := hv
      rw [var_ok hr hk, Meth.bind_ok (by rfl : assignVar w _ s = (.ok (), _))]
      cases hp : r.p with
      | none =>
        refine .inr (.inr ⟨?_, ?_⟩)
        · cases dbg with
          | true =>
            right
            rw [Meth.bind_abort (by simp [assertNotNull, ASSERT, Meth.lift]; rfl)]
          | false =>
            left
            rw [Meth.bind_ok (a := ()) (s' := { s with vars := s.vars.set w (some { r with p := none, moved := true }) }) (by simp [assertNotNull, ASSERT, Meth.lift])]
            exact ⟨_, rfl⟩
        · rintro ⟨⟨r', hr', _, hm⟩, _⟩
          rw [hr] at hr'; cases hr'
          exact hm hp
      | some o =>
        rw [Meth.bind_ok (a := ()) (s' := { s with vars := s.vars.set w (some { r with p := none, moved := true }) }) (by simp [assertNotNull, ASSERT, Meth.lift])]
        have ht := transfer h hr owner .ref false (by simp [hp])
        rw [hp] at ht
        exact fin ht (fun v => v.2)
    · exact noVar hv fun ⟨⟨r, hr, hk, _⟩, _⟩ => ⟨r, hr, hk⟩
  | get w =>
    simp only [step]
    by_cases hv : HasVar s .ref w
    · obtain ⟨r, hr, hk⟩ := hv
      cases hp : r.p with
      | none =>
        refine .inr (.inr ⟨?_, ?_⟩)
        · cases dbg with
          | true =>
            right
            have : get true w s = (.abort, s) := by
              unfold get
              rw [var_ok hr hk]
              simp only [hp]
              rw [Meth.bind_abort (by simp [assertNotNull, ASSERT, Meth.lift] : assertNotNull true none s = (.abort, s))]
            rw [Meth.bind_abort this]
          | false =>
            left
            have : get false w s = (.ub .null_deref, s) := by
              unfold get
              rw [var_ok hr hk]
              simp only [hp]
              rw [Meth.bind_ok (by simp [assertNotNull, ASSERT, Meth.lift] : assertNotNull false none s = (.ok (), s))]
              rfl
            rw [Meth.bind_ub this]
            exact ⟨_, rfl⟩
        · rintro ⟨r', hr', _, hm⟩
          rw [hr] at hr'; cases hr'
          exact nn hr hk hm hp
      | some o =>
        rw [Meth.bind_ok (get_good h dbg hr hk hp)]
        exact .inl ⟨s, rfl, h, trivial⟩
    · have : ∃ u, (get dbg w s).1 = .ub u := var_bad hv _
      refine .inr (.inr ⟨.inl ?_, fun ⟨r, hr, hk, _⟩ => hv ⟨r, hr, hk⟩⟩)
      obtain ⟨u, hu⟩ := this
      exact ⟨u, by rw [Meth.bind_ub (s' := (get dbg w s).2) (e := u) (by rw [← hu])]⟩
  | destroy w =>
    simp only [step]
    by_cases hv : ∃ r, s.vars[w]? = some (some r)
    · obtain ⟨r, hr⟩ := hv
      exact .inl ((destroy_good h hr).mono fun _ _ => trivial)
    · refine .inr (.inr ⟨.inl ?_, hv⟩)
      unfold destroy
      split
      · rename_i r hr; exact absurd ⟨r, hr⟩ hv
      · exact ⟨_, rfl⟩

/-- The invariant holds after every history. -/
theorem run_inv (dbg : Bool) (ops : List Op) (s s' : St) (h : Inv s []) (hr : run dbg ops s = some s') : Inv s' [] := by
  induction ops generalizing s with
  | nil => rw [run] at hr; cases hr; exact h
  | cons op ops ih =>
    rw [run] at hr
    rcases step_cases dbg op s h with ⟨s1, e, i, _⟩ | ⟨e, he, _⟩ | ⟨hb, _⟩
    · rw [e] at hr; exact ih s1 i hr
    · rw [he] at hr; exact ih s h hr
    · rcases hst : step dbg op s with ⟨r, s1⟩
      rw [hst] at hr hb
      rcases hb with ⟨u, hu⟩ | hu
      · simp only at hu; subst hu; cases hr
      · simp only at hu; subst hu; cases hr

end UniqueRef

open UniqueRef in
/-- After every history: a `unique_ref` that was not moved from (nor made of one that was) refers to an object that exists, and `get` gives that
object, in every build. -/
theorem C63_not_null (dbg : Bool) (ops : List Op) (s : St) (hs : run dbg ops init = some s)
    (w : Nat) (r : Var) (hr : s.vars[w]? = some (some r)) (hk : r.kind = .ref) (hm : r.moved = false) :
    ∃ o, r.p = some o ∧ s.objs[o]? = some true ∧ ∀ dbg', get dbg' w s = (.ok o, s) := by
  have h := run_inv dbg ops init s Inv.init hs
  have hp := (VarOk.of_mem h hr).2 hk hm
  cases ho : r.p with
  | none => exact absurd ho hp
  | some o => exact ⟨o, rfl, target_alive h hr o ho, fun dbg' => get_good h dbg' hr hk ho⟩

theorem countP_one_unique {α : Type} (p : α → Bool) (l : List α) (h : l.countP p = 1) :
    ∃ i, (∃ x, l[i]? = some x ∧ p x = true) ∧ ∀ (j : Nat) (x : α), l[j]? = some x → p x = true → j = i := by
  induction l with
  | nil => simp at h
  | cons a l ih =>
    rw [List.countP_cons] at h
    by_cases ha : p a = true
    · rw [if_pos ha] at h
      have h0 : l.countP p = 0 := by omega
      rw [List.countP_eq_zero] at h0
      refine ⟨0, ⟨a, rfl, ha⟩, ?_⟩
      intro j x hx hp
      cases j with
      | zero => rfl
      | succ j => exact absurd hp (h0 x (List.mem_of_getElem? (by simpa using hx)))
    · rw [if_neg ha] at h
      obtain ⟨i, ⟨x, hx, hp⟩, hu⟩ := ih (by omega)
      refine ⟨i + 1, ⟨x, by simpa using hx, hp⟩, ?_⟩
      intro j y hy hpy
      cases j with
      | zero => simp only [List.getElem?_cons_zero, Option.some.injEq] at hy; subst hy; exact absurd hpy ha
      | succ j => rw [hu j y (by simpa using hy) hpy]

open UniqueRef in
/-- After every history: every object that exists has exactly one owner, and no reference or pointer refers to one that does not exist. -/
theorem C63_one_owner (dbg : Bool) (ops : List Op) (s : St) (hs : run dbg ops init = some s) (o : Nat) :
    (s.objs[o]? = some true → ∃ w, (∃ r, s.vars[w]? = some (some r) ∧ r.p = some o) ∧
      ∀ (w' : Nat) (r' : Var), s.vars[w']? = some (some r') → r'.p = some o → w' = w) ∧
    (s.objs[o]? ≠ some true → ∀ (w : Nat) (r : Var), s.vars[w]? = some (some r) → r.p ≠ some o) := by
  have h := run_inv dbg ops init s Inv.init hs
  constructor
  · intro ho
    have hc := h.count o true ho
    simp only [List.count_nil, Nat.add_zero, refs, if_true] at hc
    obtain ⟨i, ⟨x, hx, hp⟩, hu⟩ := countP_one_unique _ _ hc
    cases x with
    | none => simp [target] at hp
    | some r =>
      refine ⟨i, ⟨r, hx, by simpa [target] using hp⟩, ?_⟩
      intro w' r' hr' hp'
      exact hu w' (some r') hr' (by simp [target, hp'])
  · intro ho w r hr hp
    exact ho (target_alive h hr o hp)

open UniqueRef in
/-- After every history: no object was destroyed twice; the destroyed objects are those that do not exist any more. -/
theorem C63_destroyed_once (dbg : Bool) (ops : List Op) (s : St) (hs : run dbg ops init = some s) :
    s.destroyed.Nodup ∧ ∀ o, o ∈ s.destroyed ↔ s.objs[o]? = some false := by
  have h := run_inv dbg ops init s Inv.init hs
  exact ⟨h.nodup, h.dead⟩

open UniqueRef in
/-- After every history: a reference or pointer that is a member of an object exists only as long as the object does. -/
theorem C63_members (dbg : Bool) (ops : List Op) (s : St) (hs : run dbg ops init = some s)
    (w : Nat) (r : Var) (hr : s.vars[w]? = some (some r)) (o : Nat) (ho : r.owner = some o) : s.objs[o]? = some true :=
  (run_inv dbg ops init s Inv.init hs).owner r o (List.mem_of_getElem? hr) ho

open UniqueRef in
/-- After every history, each correctly used operation succeeds: no undefined behaviour, no failed assertion, no endless destruction. It throws only
if the constructor of the object throws, and then nothing changed. -/
theorem C63_valid_use (dbg : Bool) (ops : List Op) (s : St) (hs : run dbg ops init = some s) (op : Op) (hv : Valid s op) :
    (∃ s', step dbg op s = (.ok (), s')) ∨ (∃ owner, op = .makeUnique true owner ∧ step dbg op s = (.throw (.user 1), s)) := by
  have h := run_inv dbg ops init s Inv.init hs
  rcases step_cases dbg op s h with ⟨s', e, _⟩ | ⟨e, he, ht⟩ | ⟨_, hn⟩
  · exact .inl ⟨s', e⟩
  · right
    cases op with
    | makeUnique t owner =>
      cases t with
      | true => exact ⟨owner, rfl, rfl⟩
      | false => cases ht
    | _ => cases ht
  · exact absurd hv hn

open UniqueRef in
/-- `make_unique`: a new object, owned by the result; an exception of the constructor is passed on. -/
theorem C63_make_unique (dbg : Bool) (s : St) :
    step dbg (.makeUnique true none) s = (.throw (.user 1), s) ∧
    step dbg (.makeUnique false none) s =
      (.ok (), { s with objs := s.objs ++ [true], vars := s.vars ++ [some ⟨none, .ref, some s.objs.length, false⟩] }) :=
  ⟨rfl, rfl⟩

open UniqueRef in
/-- Moving to a new reference of the same or of a base type, and `to_unique_ptr`, after any history, from a reference not moved from: the new owner
refers to the object, the source is null; no object is destroyed, nothing else changes. -/
theorem C63_move (dbg : Bool) (ops : List Op) (s : St) (hs : run dbg ops init = some s)
    (w : Nat) (r : Var) (hr : s.vars[w]? = some (some r)) (hk : r.kind = .ref) (hm : r.moved = false) (op : Op) (k : Kind)
    (hop : op = .move .ref w none ∧ k = .ref ∨ op = .convert w none ∧ k = .ref ∨ op = .toPtr w none ∧ k = .ptr) :
    step dbg op s = (.ok (), { s with vars := s.vars.set w (some { r with p := none, moved := true }) ++ [some ⟨none, k, r.p, false⟩] }) := by
  have h := run_inv dbg ops init s Inv.init hs
  have hp := (VarOk.of_mem h hr).2 hk hm
  obtain ⟨o, hpo⟩ := Option.ne_none_iff_exists'.mp hp
  obtain ⟨s', e, _, hs'⟩ := (transfer h hr none k false (fun _ _ => hp)).1 (by intro o ho; cases ho)
  rw [hs'] at e
  rcases hop with ⟨rfl, rfl⟩ | ⟨rfl, rfl⟩ | ⟨rfl, rfl⟩
  · simp only [step, move]
    rw [var_ok hr hk, Meth.bind_ok (by rfl : assignVar w _ s = (.ok (), _)), hm]
    exact e
  · simp only [step, convert]
    rw [var_ok hr hk, Meth.bind_ok (by rfl : assignVar w _ s = (.ok (), _)),
      Meth.bind_ok (a := ()) (s' := { s with vars := s.vars.set w (some { r with p := none, moved := true }) }) (by simp [assertNotNull, ASSERT, Meth.lift, hpo]), hm]
    exact e
  · simp only [step, toPtr]
    rw [var_ok hr hk, Meth.bind_ok (by rfl : assignVar w _ s = (.ok (), _))]
    exact e

open UniqueRef in
/-- `unique_ref(std::move(ptr))` of a pointer that is not null, after any history: the reference owns the object, the pointer is null. -/
theorem C63_from_ptr (dbg : Bool) (ops : List Op) (s : St) (hs : run dbg ops init = some s)
    (w o : Nat) (r : Var) (hr : s.vars[w]? = some (some r)) (hk : r.kind = .ptr) (hp : r.p = some o) :
    step dbg (.fromPtr w none) s =
      (.ok (), { s with vars := s.vars.set w (some { r with p := none, moved := true }) ++ [some ⟨none, .ref, some o, false⟩] }) := by
  have h := run_inv dbg ops init s Inv.init hs
  obtain ⟨s', e, _, hs'⟩ := (transfer h hr none .ref false (by simp [hp])).1 (by intro o ho; cases ho)
  rw [hs', hp] at e
  simp only [step, fromPtr]
  rw [var_ok hr hk, Meth.bind_ok (by rfl : assignVar w _ s = (.ok (), _)), hp,
    Meth.bind_ok (a := ()) (s' := { s with vars := s.vars.set w (some { r with p := none, moved := true }) }) (by simp [assertNotNull, ASSERT, Meth.lift])]
  exact e

open UniqueRef in
/-- Move assignment: to itself it does nothing; else the target owns what the source owned, the source is null, the object that the target owned
before is destroyed; other variables that are not members keep their value. -/
theorem C63_move_assign (dbg : Bool) (ops : List Op) (s : St) (hs : run dbg ops init = some s)
    (v w : Nat) (l r : Var) (hl : s.vars[v]? = some (some l)) (hlk : l.kind = .ref) (hlo : l.owner = none)
    (hr : s.vars[w]? = some (some r)) (hrk : r.kind = .ref) :
    ∃ s', step dbg (.moveAssign v w) s = (.ok (), s') ∧ (v = w → s' = s) ∧
      (v ≠ w → s'.vars[v]? = some (some { l with p := r.p, moved := r.moved }) ∧
        (r.owner = none → s'.vars[w]? = some (some { r with p := none, moved := true })) ∧
        (∀ o, l.p = some o → s'.objs[o]? = some false) ∧
        ∀ (i : Nat) (x : Var), i ≠ v → i ≠ w → s.vars[i]? = some (some x) → x.owner = none → s'.vars[i]? = some (some x)) := by
  have h := run_inv dbg ops init s Inv.init hs
  obtain ⟨s', e, i', hq⟩ := moveAssign_good h hl hlk hr hrk
  refine ⟨s', e, fun hvw => by simpa [hvw] using hq, ?_⟩
  intro hvw
  rw [if_neg hvw] at hq
  obtain ⟨s1, o1, _, v1, af⟩ := hq
  have keep : ∀ (i : Nat) (x : Var), s1.vars[i]? = some (some x) → x.owner = none → s'.vars[i]? = some (some x) := by
    intro i x hi hx
    rcases af.kept i x hi with hk | ⟨_, o, ho, _⟩
    · exact hk
    · rw [hx] at ho; cases ho
  have lv := (List.getElem?_eq_some_iff.mp hl).1
  have lw := (List.getElem?_eq_some_iff.mp hr).1
  refine ⟨keep v _ ?_ hlo, fun hro => keep w _ ?_ hro, ?_, ?_⟩
  · rw [v1]; exact List.getElem?_set_self (by simpa using lv)
  · rw [v1, List.getElem?_set_ne hvw]; exact List.getElem?_set_self lw
  · intro o ho
    -- no variable points to the object any more
    have hlt : o < s'.objs.length := by
      rw [af.objs, o1]
      exact (List.getElem?_eq_some_iff.mp (target_alive h hl o ho)).1
    have hcnt := i'.count o _ (List.getElem?_eq_getElem hlt)
    have hz : UniqueRef.refs s' o = 0 := by
      unfold UniqueRef.refs
      rw [List.countP_eq_zero]
      intro y hy
      cases y with
      | none => simp [target]
      | some x =>
        obtain ⟨j, hj⟩ := List.getElem?_of_mem hy
        have hj1 : s1.vars[j]? = some (some x) := by
          have hlj : j < s1.vars.length := by rw [← af.vars]; exact (List.getElem?_eq_some_iff.mp hj).1
          cases hx : s1.vars[j] with
          | none =>
            have := af.gone j (by rw [List.getElem?_eq_getElem hlj, hx])
            rw [hj] at this; cases this
          | some x' =>
            rcases af.kept j x' (by rw [List.getElem?_eq_getElem hlj, hx]) with hk | ⟨hk, _⟩
            · rw [hj] at hk; cases hk; rw [List.getElem?_eq_getElem hlj, hx]
            · rw [hj] at hk; cases hk
        have hone := (C63_one_owner dbg ops s hs o).1 (target_alive h hl o ho)
        obtain ⟨w0, _, hu⟩ := hone
        have ev := hu v l hl ho
        intro ht
        have hxo : x.p = some o := by simpa [target] using ht
        rw [v1] at hj1
        by_cases hjv : j = v
        · subst hjv
          rw [List.getElem?_set_self (by simpa using lv)] at hj1
          cases hj1
          exact hvw (ev.trans (hu w r hr hxo).symm)
        · rw [List.getElem?_set_ne (Ne.symm hjv)] at hj1
          by_cases hjw : j = w
          · subst hjw
            rw [List.getElem?_set_self lw] at hj1
            cases hj1
            cases hxo
          · rw [List.getElem?_set_ne (Ne.symm hjw)] at hj1
            exact hjv ((hu j x hj1 hxo).trans ev.symm)
    rw [hz] at hcnt
    rw [List.getElem?_eq_getElem hlt]
    cases hb : s'.objs[o] with
    | false => rfl
    | true => rw [hb] at hcnt; simp at hcnt
  · intro i x h1 h2 hx hxo
    apply keep i x _ hxo
    rw [v1, List.getElem?_set_ne (Ne.symm h1), List.getElem?_set_ne (Ne.symm h2)]
    exact hx

open UniqueRef in
/-- Destruction of a reference or pointer, after any history: its object is destroyed; other variables that are not members keep their value. -/
theorem C63_destroy (dbg : Bool) (ops : List Op) (s : St) (hs : run dbg ops init = some s)
    (w : Nat) (r : Var) (hr : s.vars[w]? = some (some r)) :
    ∃ s', step dbg (.destroy w) s = (.ok (), s') ∧ s'.vars[w]? = some none ∧ (∀ o, r.p = some o → s'.objs[o]? = some false) ∧
      ∀ (i : Nat) (x : Var), i ≠ w → s.vars[i]? = some (some x) → x.owner = none → s'.vars[i]? = some (some x) := by
  have h := run_inv dbg ops init s Inv.init hs
  obtain ⟨s', e, i', af⟩ := destroy_good h hr
  have lw := (List.getElem?_eq_some_iff.mp hr).1
  refine ⟨s', e, af.gone w (List.getElem?_set_self lw), ?_, ?_⟩
  · intro o ho
    have hlt : o < s'.objs.length := by
      rw [af.objs]
      exact (List.getElem?_eq_some_iff.mp (target_alive h hr o ho)).1
    have hcnt := i'.count o _ (List.getElem?_eq_getElem hlt)
    have hz : UniqueRef.refs s' o = 0 := by
      unfold UniqueRef.refs
      rw [List.countP_eq_zero]
      intro y hy
      cases y with
      | none => simp [target]
      | some x =>
        obtain ⟨j, hj⟩ := List.getElem?_of_mem hy
        have hj1 : (s.vars.set w none)[j]? = some (some x) := by
          have hlj : j < (s.vars.set w none).length := by
            have := (List.getElem?_eq_some_iff.mp hj).1
            rw [af.vars] at this; exact this
          cases hx : (s.vars.set w none)[j] with
          | none =>
            have := af.gone j (by show (s.vars.set w none)[j]? = _; rw [List.getElem?_eq_getElem hlj, hx])
            rw [hj] at this; cases this
          | some x' =>
            rcases af.kept j x' (by show (s.vars.set w none)[j]? = _; rw [List.getElem?_eq_getElem hlj, hx]) with hk | ⟨hk, _⟩
            · rw [hj] at hk; cases hk; rw [List.getElem?_eq_getElem hlj, hx]
            · rw [hj] at hk; cases hk
        obtain ⟨w0, _, hu⟩ := (C63_one_owner dbg ops s hs o).1 (target_alive h hr o ho)
        have ew := hu w r hr ho
        intro ht
        have hxo : x.p = some o := by simpa [target] using ht
        by_cases hjw : j = w
        · subst hjw
          rw [List.getElem?_set_self lw] at hj1
          cases hj1
        · rw [List.getElem?_set_ne (Ne.symm hjw)] at hj1
          exact hjw ((hu j x hj1 hxo).trans ew.symm)
    rw [hz] at hcnt
    rw [List.getElem?_eq_getElem hlt]
    cases hb : s'.objs[o] with
    | false => rfl
    | true => rw [hb] at hcnt; simp at hcnt
  · intro i x hi hx hxo
    rcases af.kept i x (by rw [List.getElem?_set_ne (Ne.symm hi)]; exact hx) with hk | ⟨_, o, ho, _⟩
    · exact hk
    · rw [hxo] at ho; cases ho

open UniqueRef in
/-- A list of two objects; its head is removed as in `head = std::move(head.get().next)`: only the old head is destroyed. -/
example : run true [.makeUnique false none, .makeUnique false none, .move .ref 1 (some 0), .moveAssign 0 2] init =
    some ⟨[false, true], [some ⟨none, .ref, some 1, false⟩, some ⟨none, .ref, none, true⟩, none], [0]⟩ := by decide

open UniqueRef in
/-- Destroying the head destroys the list. -/
example : (run true [.makeUnique false none, .makeUnique false none, .move .ref 1 (some 0), .destroy 0] init).map St.destroyed = some [0, 1] := by decide

open UniqueRef in
/-- Misuse: `get` of a reference moved from. -/
example : run false [.makeUnique false none, .toPtr 0 none, .get 0] init = none := by decide

end Utki
