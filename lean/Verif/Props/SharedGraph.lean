import Mathlib.Data.Fintype.Card
import Mathlib.Data.Fintype.EquivFin
import Mathlib.Logic.Relation
import Verif.Props.SharedRef
/-!
# Objects that refer to each other (C126)

Which objects exist, in terms of chains of references. Model: `Model/SharedRef.lean`, /repo/src/utki/shared_ref.hpp 58-258, shared.hpp 69-132.
-/
namespace Utki
namespace Spec.SharedGraph
open SharedRef

/-- A member of object `a` that counts (a `shared_ref` or `std::shared_ptr`, not a `std::weak_ptr`) refers to object `b`. -/
def Refers (s : St) (a b : Nat) : Prop := ∃ (w : Nat) (r : Var), s.vars[w]? = some (some r) ∧ r.kind ≠ .weak ∧ r.owner = some a ∧ r.p = some b

/-- A variable of the program, not a member of an object, refers to object `o`. -/
def Root (s : St) (o : Nat) : Prop := ∃ (w : Nat) (r : Var), s.vars[w]? = some (some r) ∧ r.kind ≠ .weak ∧ r.owner = none ∧ r.p = some o

/-- A chain of references leads from a variable of the program to object `o`. -/
inductive Reachable (s : St) : Nat → Prop
  | root {o : Nat} : Root s o → Reachable s o
  | member {a b : Nat} : Reachable s a → Refers s a b → Reachable s b

/-- Object `o` exists. -/
def Exists (s : St) (o : Nat) : Prop := ∃ ob, s.objs[o]? = some ob ∧ ob.alive = true

/-- No chain of references leads from an object to itself. -/
def Acyclic (s : St) : Prop := ∀ o, ¬ Relation.TransGen (Refers s) o o

end Spec.SharedGraph
open SharedRef Spec.SharedGraph

variable {dbg : Bool} {derives : Nat → Nat → Bool} {ops : List Op} {s : St}

theorem exists_of_reference (hs : run dbg derives ops init = some s) {w o : Nat} {r : Var} (hr : s.vars[w]? = some (some r)) (hk : r.kind ≠ .weak)
    (hp : r.p = some o) : Exists s o :=
  target_alive (run_inv dbg derives ops init s Inv.init hs) hr hk o hp

/-- C126: as long as a chain of references leads from a variable to an object, the object exists. -/
theorem C126_kept (hs : run dbg derives ops init = some s) {o : Nat} (h : Reachable s o) : Exists s o := by
  cases h with
  | root h => obtain ⟨w, r, h1, h2, _, h4⟩ := h; exact exists_of_reference hs h1 h2 h4
  | member _ h => obtain ⟨w, r, h1, h2, _, h4⟩ := h; exact exists_of_reference hs h1 h2 h4

/-- C126: an object that exists although no chain of references leads from a variable to it is one of a ring of objects that refer to each other, or
such a ring refers to it, directly or not; no chain leads from a variable to that ring either. -/
theorem C126_leak (hs : run dbg derives ops init = some s) {o : Nat} (he : Exists s o) (hr : ¬ Reachable s o) :
    ∃ c, Relation.TransGen (Refers s) c c ∧ Relation.ReflTransGen (Refers s) c o ∧ Exists s c ∧ ¬ Reachable s c := by
  have up : ∀ c, Exists s c → ¬ Reachable s c → ∃ b, Refers s b c ∧ Exists s b ∧ ¬ Reachable s b := by
    intro c ⟨ob, h1, h2⟩ hc
    obtain ⟨w, r, hw, hk, hp⟩ := (C62_alive_iff dbg derives ops s hs c ob h1).mp h2
    cases ho : r.owner with
    | none => exact absurd (.root ⟨w, r, hw, hk, ho, hp⟩) hc
    | some b =>
      have hb : Refers s b c := ⟨w, r, hw, hk, ho, hp⟩
      exact ⟨b, hb, C62_members dbg derives ops s hs w r hw b ho, fun h => hc (.member h hb)⟩
  by_contra hn
  have hn' : ∀ c, Relation.ReflTransGen (Refers s) c o → Exists s c → ¬ Reachable s c → ¬ Relation.TransGen (Refers s) c c := by
    intro c h1 h2 h3 h4
    exact hn ⟨c, h4, h1, h2, h3⟩
  let T := { c : Fin s.objs.length // Relation.ReflTransGen (Refers s) c o ∧ Exists s c ∧ ¬ Reachable s c }
  let R : T → T → Prop := fun a b => Relation.TransGen (Refers s) a.1 b.1
  have : IsTrans T R := ⟨fun a b c h1 h2 => Relation.TransGen.trans h1 h2⟩
  have : Std.Irrefl R := ⟨fun a h => hn' a.1 a.2.1 a.2.2.1 a.2.2.2 h⟩
  have : Finite T := Finite.of_injective (fun t : T => t.1) Subtype.val_injective
  have hwf : WellFounded R := Finite.wellFounded_of_trans_of_irrefl R
  have lt : ∀ c, Exists s c → c < s.objs.length := fun c ⟨ob, h, _⟩ => (List.getElem?_eq_some_iff.mp h).1
  let t : T := ⟨⟨o, lt o he⟩, .refl, he, hr⟩
  have key : ∀ t : T, False := by
    intro t
    induction t using hwf.induction with
    | _ t ih =>
      obtain ⟨b, h1, h2, h3⟩ := up t.1 t.2.2.1 t.2.2.2
      exact ih ⟨⟨b, lt b h2⟩, .head h1 t.2.1, h2, h3⟩ (.single h1)
  exact key t

/-- C126: without rings, exactly those objects exist to which a chain of references leads from a variable. -/
theorem C126_acyclic (hs : run dbg derives ops init = some s) (ha : Acyclic s) (o : Nat) : Exists s o ↔ Reachable s o := by
  refine ⟨fun h => ?_, C126_kept hs⟩
  by_contra hn
  obtain ⟨c, hc, _⟩ := C126_leak hs h hn
  exact ha c hc

/-- C126: without rings, when the last variable is gone all objects have been destroyed, each once. -/
theorem C126_end (hs : run dbg derives ops init = some s) (ha : Acyclic s)
    (hv : ∀ (w : Nat) (r : Var), s.vars[w]? = some (some r) → r.kind ≠ .weak → r.owner = none → r.p = none) :
    (∀ o, ¬ Exists s o) ∧ s.destroyed.Nodup ∧ ∀ o, o ∈ s.destroyed ↔ o < s.objs.length := by
  have hne : ∀ o, ¬ Exists s o := by
    intro o h
    have hr := (C126_acyclic hs ha o).mp h
    clear h
    induction hr with
    | root h =>
      obtain ⟨w, r, h1, h2, h3, h4⟩ := h
      rw [hv w r h1 h2 h3] at h4
      cases h4
    | member _ _ ih => exact ih
  obtain ⟨h1, h2⟩ := C62_destroyed_once dbg derives ops s hs
  refine ⟨hne, h1, fun o => ?_⟩
  rw [h2 o]
  constructor
  · rintro ⟨ob, h, _⟩; exact (List.getElem?_eq_some_iff.mp h).1
  · intro h
    refine ⟨s.objs[o], List.getElem?_eq_getElem h, ?_⟩
    cases hb : s.objs[o].alive with
    | false => rfl
    | true => exact absurd ⟨_, List.getElem?_eq_getElem h, hb⟩ (hne o)

/-- C126: weak pointers do not count: if each object refers only to objects made after it by members that count, there are no rings. -/
theorem C126_order (h : ∀ a b, Refers s a b → a < b) : Acyclic s := by
  have key : ∀ a b, Relation.TransGen (Refers s) a b → a < b := by
    intro a b hab
    induction hab with
    | single h' => exact h _ _ h'
    | tail _ h' ih => exact Nat.lt_trans ih (h _ _ h')
  exact fun o ho => Nat.lt_irrefl o (key o o ho)

/-- A parent that refers to its child, which has a weak pointer back: no ring, and after the last variable both are gone. -/
example : ∃ s, run true (fun a b => a == b) [.makeShared 5 false none, .makeShared 6 false none, .copy 1 (some 0), .makeWeak 0 (some 1), .destroy 1] init = some s ∧
    Acyclic s ∧ Exists s 1 ∧ Reachable s 1 := by
  refine ⟨⟨[⟨5, 1, true⟩, ⟨6, 1, true⟩], [some ⟨none, .ref, some 0, false⟩, none, some ⟨some 0, .ref, some 1, false⟩, some ⟨some 1, .weak, some 0, false⟩], []⟩,
    by decide, ?_, ⟨_, rfl, rfl⟩, ?_⟩
  · refine C126_order fun a b ⟨w, r, hw, hk, ho, hp⟩ => ?_
    match w, hw with
    | 0, hw => simp at hw; subst hw; simp at ho
    | 1, hw => simp at hw
    | 2, hw => simp at hw; subst hw; simp at ho hp; omega
    | 3, hw => simp at hw; subst hw; simp at hk
    | n + 4, hw => simp at hw
  · exact .member (.root ⟨0, _, rfl, by simp, rfl, rfl⟩) ⟨2, _, rfl, by simp, rfl, rfl⟩

/-- Two objects that refer to each other, and no variable: they exist, and no chain leads to them. -/
example : ∃ s, run true (fun a b => a == b)
      [.makeShared 5 false none, .makeShared 6 false none, .copy 1 (some 0), .copy 0 (some 1), .destroy 1, .destroy 0] init = some s ∧
    Exists s 0 ∧ ¬ Reachable s 0 ∧ Relation.TransGen (Refers s) 0 0 := by
  refine ⟨⟨[⟨5, 1, true⟩, ⟨6, 1, true⟩], [none, none, some ⟨some 0, .ref, some 1, false⟩, some ⟨some 1, .ref, some 0, false⟩], []⟩,
    by decide, ⟨_, rfl, rfl⟩, ?_, ?_⟩
  · suffices h : ∀ o, ¬ Reachable _ o from h 0
    intro o h
    induction h with
    | root h =>
      obtain ⟨w, r, hw, hk, ho, hp⟩ := h
      match w, hw with
      | 0, hw => simp at hw
      | 1, hw => simp at hw
      | 2, hw => simp at hw; subst hw; simp at ho
      | 3, hw => simp at hw; subst hw; simp at ho
      | n + 4, hw => simp at hw
    | member _ _ ih => exact ih
  · exact .tail (.single (b := 1) ⟨2, _, rfl, by simp, rfl, rfl⟩) ⟨3, _, rfl, by simp, rfl, rfl⟩

end Utki
