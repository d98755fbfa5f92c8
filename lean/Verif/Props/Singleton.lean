import Verif.Model.Singleton
/-!
# Properties of `singleton` (C61)

A history is the list of the operations with their results. Which objects are live is read off the history, not off the state
of the code.
-/
namespace Utki
namespace Spec
open Utki.Singleton

/-- The live objects after a history: those whose construction returned and that have not gone. -/
def liveObjs (h : List (Op × Res Val)) : List Nat :=
  h.foldl (fun l e => match e with | (.construct a, .ok _) => a :: l | (.destroy a, _) => l.erase a | _ => l) []

/-- What a program may do: construct objects where there are none, destroy objects that are live. -/
def Allowed1 (h : List (Op × Res Val)) : Op → Prop
  | .construct a => a ∉ liveObjs h
  | .destroy a => a ∈ liveObjs h
  | _ => True

/-- The histories of the code: `History dbg h s`. -/
inductive History (dbg : Bool) : List (Op × Res Val) → Instance → Prop where
  | nil : History dbg [] none
  | snoc (h : List (Op × Res Val)) (s : Instance) (op : Op) : History dbg h s → Allowed1 h op →
      History dbg (h ++ [(op, (exec dbg op s).1)]) (exec dbg op s).2

end Spec
open Utki.Singleton Spec

theorem liveObjs_snoc (h : List (Op × Res Val)) (e : Op × Res Val) :
    liveObjs (h ++ [e]) = match e with | (.construct a, .ok _) => a :: liveObjs h | (.destroy a, _) => (liveObjs h).erase a | _ => liveObjs h := by
  simp [liveObjs, List.foldl_append]

theorem exec_construct_none (dbg : Bool) (a : Nat) : exec dbg (.construct a) none = (.ok .unit, some a) := rfl
theorem exec_construct_some (dbg : Bool) (a b : Nat) : exec dbg (.construct a) (some b) = (.throw .logic_error, some b) := rfl
theorem exec_isCreated (dbg : Bool) (s : Instance) : exec dbg .isCreated s = (.ok (.bool s.isSome), s) := rfl
theorem exec_inst_some (dbg : Bool) (a : Nat) : exec dbg .inst (some a) = (.ok (.obj a), some a) := by cases dbg <;> rfl
theorem exec_inst_none (dbg : Bool) : exec dbg .inst none = (if dbg then .abort else .ub .null_deref, none) := by cases dbg <;> rfl
theorem exec_destroy_same (dbg : Bool) (a : Nat) : exec dbg (.destroy a) (some a) = (.ok .unit, none) := by
  have h : dtor dbg a (some a) = (.ok (), none) := by
    have : dtor dbg a (some a) = (Meth.lift (ASSERT dbg (some a == some a)) >>= fun _ => Meth.set none : Meth Instance Unit) (some a) := rfl
    rw [this, show (some a == some a) = true by simp, ASSERT_true]
    rfl
  have : exec dbg (.destroy a) (some a) = (dtor dbg a >>= fun _ => pure .unit : Meth Instance Val) (some a) := rfl
  rw [this, Meth.bind_ok h]
  rfl

/-- The state of the code is the live object. -/
theorem history_live {dbg : Bool} {h : List (Op × Res Val)} {s : Instance} (hh : History dbg h s) : liveObjs h = s.toList := by
  induction hh with
  | nil => rfl
  | snoc h s op _ ha ih =>
    rw [liveObjs_snoc]
    cases op with
    | construct a =>
      cases s with
      | none => rw [exec_construct_none]; simp [ih]
      | some b => rw [exec_construct_some]; simp [ih]
    | destroy a =>
      simp only [Allowed1, ih] at ha
      cases s with
      | none => cases ha
      | some b =>
        have : a = b := by simpa using ha
        subst this
        rw [exec_destroy_same]; simp [ih]
    | isCreated => rw [exec_isCreated]; simp [ih]
    | inst =>
      cases s with
      | none => rw [exec_inst_none]; simp [ih]
      | some b => rw [exec_inst_some]; simp [ih]

theorem history_last {dbg : Bool} {h : List (Op × Res Val)} {op : Op} {r : Res Val} {s : Instance} (hh : History dbg (h ++ [(op, r)]) s) :
    ∃ s0, History dbg h s0 ∧ Allowed1 h op ∧ r = (exec dbg op s0).1 ∧ s = (exec dbg op s0).2 := by
  generalize hl : h ++ [(op, r)] = l at hh
  cases hh with
  | nil => simp at hl
  | snoc h' s0 op' h1 h2 =>
    obtain ⟨rfl, he⟩ := List.append_inj' hl rfl
    simp only [List.cons.injEq, Prod.mk.injEq, and_true] at he
    obtain ⟨rfl, rfl⟩ := he
    exact ⟨s0, h1, h2, rfl, rfl⟩

/-- C61: at most one object is live. -/
theorem C61_at_most_one (dbg : Bool) (h : List (Op × Res Val)) (s : Instance) (hh : History dbg h s) : (liveObjs h).length ≤ 1 := by
  rw [history_live hh]
  cases s <;> simp

/-- C61: construction succeeds exactly if no object is live, and otherwise throws `std::logic_error` and leaves the live object as it
is. -/
theorem C61_construct (dbg : Bool) (h : List (Op × Res Val)) (s : Instance) (a : Nat) (r : Res Val)
    (hh : History dbg (h ++ [(.construct a, r)]) s) :
    (liveObjs h = [] → r = .ok .unit ∧ liveObjs (h ++ [(.construct a, r)]) = [a]) ∧
    (liveObjs h ≠ [] → r = .throw .logic_error ∧ liveObjs (h ++ [(.construct a, r)]) = liveObjs h) := by
  obtain ⟨s0, h0, _, rfl, _⟩ := history_last hh
  rw [liveObjs_snoc, history_live h0]
  cases s0 with
  | none => simp [exec_construct_none]
  | some b => simp [exec_construct_some]

/-- C61: `is_created()` is true exactly while an object is live. -/
theorem C61_is_created (dbg : Bool) (h : List (Op × Res Val)) (s : Instance) (r : Res Val) (hh : History dbg (h ++ [(.isCreated, r)]) s) :
    r = .ok (.bool (!(liveObjs h).isEmpty)) := by
  obtain ⟨s0, h0, _, rfl, _⟩ := history_last hh
  rw [history_live h0, exec_isCreated]
  cases s0 <;> rfl

/-- C61: `inst()` is the live object; without one, debug builds abort and release builds have undefined behaviour. -/
theorem C61_inst (dbg : Bool) (h : List (Op × Res Val)) (s : Instance) (r : Res Val) (hh : History dbg (h ++ [(.inst, r)]) s) :
    (∀ a, a ∈ liveObjs h → r = .ok (.obj a)) ∧ (liveObjs h = [] → r = if dbg then .abort else .ub .null_deref) := by
  obtain ⟨s0, h0, _, rfl, _⟩ := history_last hh
  rw [history_live h0]
  cases s0 with
  | none => simp [exec_inst_none]
  | some b => simp [exec_inst_some]

/-- C61: destruction never fails its assertion, and afterwards no object is live, so a new one can be created. -/
theorem C61_destroy (dbg : Bool) (h : List (Op × Res Val)) (s : Instance) (a : Nat) (r : Res Val)
    (hh : History dbg (h ++ [(.destroy a, r)]) s) : r = .ok .unit ∧ liveObjs (h ++ [(.destroy a, r)]) = [] ∧
      ∀ b, (exec dbg (.construct b) s).1 = .ok .unit := by
  obtain ⟨s0, h0, ha, rfl, rfl⟩ := history_last hh
  have hl := history_live h0
  simp only [Allowed1, hl] at ha
  rw [liveObjs_snoc, hl]
  cases s0 with
  | none => cases ha
  | some b =>
    have : a = b := by simpa using ha
    subst this
    simp [exec_destroy_same, exec_construct_none]

/-- Construct, fail to construct a second one, use, destroy, construct another. -/
example : ∃ s, History true [(.construct 1, .ok .unit), (.construct 2, .throw .logic_error), (.inst, .ok (.obj 1)), (.destroy 1, .ok .unit),
    (.isCreated, .ok (.bool false)), (.construct 2, .ok .unit), (.inst, .ok (.obj 2))] s := by
  have h0 : History true [] none := .nil
  have h1 := h0.snoc _ _ (.construct 1) (by simp [Allowed1, liveObjs])
  have h2 := h1.snoc _ _ (.construct 2) (by simp [Allowed1]; decide)
  have h3 := h2.snoc _ _ .inst trivial
  have h4 := h3.snoc _ _ (.destroy 1) (by simp only [Allowed1]; decide)
  have h5 := h4.snoc _ _ .isCreated trivial
  have h6 := h5.snoc _ _ (.construct 2) (by simp [Allowed1]; decide)
  have h7 := h6.snoc _ _ .inst trivial
  exact ⟨_, h7⟩

end Utki
