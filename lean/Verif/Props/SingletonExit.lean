import Verif.Model.SingletonExit
/-!
# C94: the end of the process while a singleton object exists
-/
namespace Utki
namespace Spec
open SingletonExit

/-- When the end of the process is harmless for an object of this storage: an automatic one if `main` returns, a static one if it is destroyed before the
member `instance`, a dynamic one, which is then destroyed by `instance`, unless the build is a debug build and the library sets the pointer to null
first. -/
def SafeEnd (dbg nulls : Bool) (ending : Ending) (before : Nat) : Storage → Prop
  | .automatic => ending = .returns
  | .static => 0 < before
  | .dynamic => ¬ (dbg = true ∧ nulls = true)

end Spec
namespace SingletonExit
open Utki.Singleton

/-- At most one object exists and `instance` points to it. -/
structure Inv (s : St) : Prop where
  one : (s.inst = none ∧ s.live = []) ∨ ∃ a sto, s.inst = some a ∧ s.live = [(a, sto)] ∧ a < s.next ∧ a ∉ s.destroyed
  old : ∀ a ∈ s.destroyed, a < s.next
  nodup : s.destroyed.Nodup

theorem inv_init : Inv init := ⟨.inl ⟨rfl, rfl⟩, by simp [init], by simp [init]⟩

theorem dtor_same (dbg : Bool) (a : Nat) : dtor dbg a (some a) = (.ok (), none) := by
  have : dtor dbg a (some a) = (Meth.lift (ASSERT dbg (some a == some a)) >>= fun _ => Meth.set none : Meth Instance Unit) (some a) := rfl
  rw [this, show (some a == some a) = true by simp, ASSERT_true]
  rfl

theorem dtor_null (dbg : Bool) (a : Nat) : dtor dbg a none = (if dbg then .abort else .ok (), none) := by cases dbg <;> rfl

theorem destroy_same (dbg : Bool) {s : St} {a : Nat} {sto : Storage} (hi : s.inst = some a) (hl : s.live = [(a, sto)]) :
    destroy dbg a s = (.ok (), { s with inst := none, live := [], destroyed := s.destroyed ++ [a] }) := by
  simp [destroy, hi, dtor_same, hl]

theorem create_inv {s : St} (h : Inv s) (sto : Storage) : Inv (create sto s).2 ∧ ((create sto s).1 = .ok () ∨ (create sto s).1 = .throw .logic_error) := by
  rcases h.one with ⟨hi, hl⟩ | ⟨a, st, hi, hl, ha, hd⟩
  · have : create sto s = (.ok (), { s with inst := some s.next, live := (s.next, sto) :: s.live, next := s.next + 1 }) := by
      simp only [create, hi]; rfl
    rw [this]
    refine ⟨⟨.inr ⟨s.next, sto, rfl, by simp [hl], by simp, fun hm => ?_⟩, fun a ha => Nat.lt_succ_of_lt (h.old a ha), h.nodup⟩, .inl rfl⟩
    exact absurd (h.old _ hm) (by omega)
  · have : create sto s = (.throw .logic_error, { s with inst := some a, next := s.next + 1 }) := by
      simp only [create, hi]; rfl
    rw [this]
    exact ⟨⟨.inr ⟨a, st, rfl, hl, by simp only []; omega, hd⟩, fun b hb => Nat.lt_succ_of_lt (h.old b hb), h.nodup⟩, .inr rfl⟩

theorem destroyed_inv {s : St} (h : Inv s) {a : Nat} {sto : Storage} (hi : s.inst = some a) (hl : s.live = [(a, sto)]) :
    Inv { s with inst := none, live := [], destroyed := s.destroyed ++ [a] } := by
  rcases h.one with ⟨hi', _⟩ | ⟨a', st, hi', hl', ha, hd⟩
  · rw [hi] at hi'; cases hi'
  · rw [hi] at hi'; cases hi'
    refine ⟨.inl ⟨rfl, rfl⟩, ?_, ?_⟩
    · intro b hb
      simp only [List.mem_append, List.mem_singleton] at hb
      rcases hb with hb | rfl
      · exact h.old b hb
      · exact ha
    · rw [List.nodup_append]
      refine ⟨h.nodup, by simp, ?_⟩
      rintro x hx y hy rfl
      simp only [List.mem_singleton] at hy
      subst hy
      exact hd hx

theorem run_inv (dbg : Bool) : ∀ (ops : List Op) {s s' : St}, Inv s → run dbg ops s = some s' → Inv s'
  | [], s, s', h, hr => by simp only [run, Option.some.injEq] at hr; exact hr ▸ h
  | .create sto :: ops, s, s', h, hr => by
    obtain ⟨h1, h2⟩ := create_inv h sto
    simp only [run] at hr
    generalize create sto s = out at *
    obtain ⟨r, m⟩ := out
    rcases h2 with h2 | h2 <;> simp only at h2 <;> subst h2 <;> exact run_inv dbg ops h1 hr
  | .destroy a :: ops, s, s', h, hr => by
    simp only [run] at hr
    split at hr
    · rename_i hm
      rcases h.one with ⟨hi, hl⟩ | ⟨b, st, hi, hl, ha, hd⟩
      · rw [hl] at hm; simp at hm
      · have : a = b := by
          rw [hl] at hm
          simp only [List.mem_singleton, Prod.mk.injEq] at hm
          rcases hm with hm | hm <;> exact hm.1
        subst this
        rw [destroy_same dbg hi hl] at hr
        exact run_inv dbg ops (destroyed_inv h hi hl) hr
    · cases hr

theorem finish_eq (dbg nulls : Bool) (ending : Ending) (before : Nat) (s : St) : finish dbg nulls ending before s =
    ((if ending = .returns then destroyAll dbg (ofStorage .automatic s.live) else pure ()) >>= fun _ =>
      destroyAll dbg ((ofStorage .static s.live).take before) >>= fun _ => destroyInstance dbg nulls >>= fun _ =>
        if ((ofStorage .static s.live).drop before).isEmpty then pure () else Meth.lift (.ub .use_after_free) : Meth St Unit) s := by
  cases ending <;> rfl

theorem destroyAll_one (dbg : Bool) {s : St} {a : Nat} {sto : Storage} (hi : s.inst = some a) (hl : s.live = [(a, sto)]) :
    destroyAll dbg [a] s = (.ok (), { s with inst := none, live := [], destroyed := s.destroyed ++ [a] }) := by
  simp only [destroyAll]
  rw [Meth.bind_ok (destroy_same dbg hi hl)]
  rfl

end SingletonExit
open SingletonExit Spec

/-- C94, part: if the object that exists at the end of the process is one for which that is harmless, the process ends without undefined
behaviour, and every object was destroyed exactly once. Missing: automatic objects at `std::exit`, static objects destroyed after `instance`, and in
debug builds dynamic objects with a library that sets the pointer to null first (`C94_end_wrong`). -/
theorem C94_end_partial (dbg nulls : Bool) (ending : Ending) (before : Nat) (h : List SingletonExit.Op) (s : SingletonExit.St)
    (r : SingletonExit.run dbg h SingletonExit.init = some s) (safe : ∀ o ∈ s.live, SafeEnd dbg nulls ending before o.2) :
    ∃ s', finish dbg nulls ending before s = (.ok (), s') ∧ s'.live = [] ∧ s'.destroyed = s.destroyed ++ s.live.map (·.1) ∧ s'.destroyed.Nodup := by
  have inv := SingletonExit.run_inv dbg h SingletonExit.inv_init r
  rw [finish_eq]
  rcases inv.one with ⟨hi, hl⟩ | ⟨a, sto, hi, hl, ha, hd⟩
  · refine ⟨s, ?_, hl, by simp [hl], inv.nodup⟩
    have h0 : ∀ m : Meth SingletonExit.St Unit, (m = pure () ∨ m = destroyAll dbg []) → ∀ f : Unit → Meth SingletonExit.St Unit, (m >>= f) s = f () s := by
      rintro m (rfl | rfl) f <;> rfl
    rw [h0 _ (by by_cases e : ending = .returns <;> simp [e, hl, ofStorage]), h0 _ (by simp [hl, ofStorage]),
      Meth.bind_ok (show destroyInstance dbg nulls s = (.ok (), s) by simp only [destroyInstance, hi])]
    simp [hl, ofStorage]
  · have hs := safe (a, sto) (by simp [hl])
    have nd := (destroyed_inv inv hi hl).nodup
    refine ⟨{ s with inst := none, live := [], destroyed := s.destroyed ++ [a] }, ?_, rfl, by simp [hl], nd⟩
    have last : destroyInstance dbg nulls { s with inst := none, live := [], destroyed := s.destroyed ++ [a] } =
        (.ok (), { s with inst := none, live := [], destroyed := s.destroyed ++ [a] }) := rfl
    cases sto with
    | automatic =>
      simp only [SafeEnd] at hs
      subst hs
      rw [show ofStorage .automatic s.live = [a] by simp [hl, ofStorage], show ofStorage .static s.live = [] by simp [hl, ofStorage]]
      simp only [if_true, List.take_nil, List.drop_nil, List.isEmpty_nil]
      rw [Meth.bind_ok (destroyAll_one dbg hi hl), Meth.bind_ok (show destroyAll dbg [] _ = _ from rfl), Meth.bind_ok last]
      rfl
    | static =>
      simp only [SafeEnd] at hs
      obtain ⟨n, rfl⟩ : ∃ n, before = n + 1 := ⟨before - 1, by omega⟩
      rw [show ofStorage .automatic s.live = [] by simp [hl, ofStorage], show ofStorage .static s.live = [a] by simp [hl, ofStorage]]
      have h0 : ∀ f : Unit → Meth SingletonExit.St Unit, ((if ending = .returns then destroyAll dbg [] else pure ()) >>= f) s = f () s := by
        intro f; split <;> rfl
      rw [h0]
      simp only [List.take_succ_cons, List.take_nil, List.drop_succ_cons, List.drop_nil, List.isEmpty_nil, if_true]
      rw [Meth.bind_ok (destroyAll_one dbg hi hl), Meth.bind_ok last]
      rfl
    | dynamic =>
      rw [show ofStorage .automatic s.live = [] by simp [hl, ofStorage], show ofStorage .static s.live = [] by simp [hl, ofStorage]]
      have h0 : ∀ f : Unit → Meth SingletonExit.St Unit, ((if ending = .returns then destroyAll dbg [] else pure ()) >>= f) s = f () s := by
        intro f; split <;> rfl
      rw [h0]
      simp only [List.take_nil, List.drop_nil, List.isEmpty_nil, if_true]
      rw [Meth.bind_ok (show destroyAll dbg [] s = (.ok (), s) from rfl)]
      have hD : destroyInstance dbg nulls s = (.ok (), { s with inst := none, live := [], destroyed := s.destroyed ++ [a] }) := by
        simp only [destroyInstance, hi]
        rw [if_pos (by simp [hl])]
        cases nulls with
        | false => exact destroy_same dbg hi hl
        | true =>
          have : dbg = false := by simpa [SafeEnd] using hs
          subst this
          simp [destroy, dtor_null, hl]
      rw [Meth.bind_ok hD]
      rfl

/-- C94 fails: for an object for which the end of the process is not harmless, it is undefined, or the program is aborted if the object is dynamic. -/
theorem C94_end_wrong (dbg nulls : Bool) (ending : Ending) (before : Nat) (h : List SingletonExit.Op) (s : SingletonExit.St)
    (r : SingletonExit.run dbg h SingletonExit.init = some s) (a : Nat) (sto : Storage) (hm : (a, sto) ∈ s.live)
    (unsafe_ : ¬ SafeEnd dbg nulls ending before sto) :
    (finish dbg nulls ending before s).1 = if sto = .dynamic then .abort else .ub .bad_pointer := by
  have inv := SingletonExit.run_inv dbg h SingletonExit.inv_init r
  rw [finish_eq]
  rcases inv.one with ⟨hi, hl⟩ | ⟨b, sto', hi, hl, ha, hd⟩
  · rw [hl] at hm; simp at hm
  · rw [hl] at hm
    simp only [List.mem_singleton, Prod.mk.injEq] at hm
    obtain ⟨rfl, rfl⟩ := hm
    have hz : ∀ f : Unit → Meth SingletonExit.St Unit, ((if ending = .returns then destroyAll dbg [] else pure ()) >>= f) s = f () s := by
      intro f; split <;> rfl
    have bad : sto ≠ .dynamic → destroyInstance dbg nulls s = (.ub .bad_pointer, s) := by
      intro hne
      simp only [destroyInstance, hi]
      rw [if_neg (by simp [hl]; exact fun e => hne e.symm)]
    cases sto with
    | automatic =>
      have he : ending ≠ .returns := unsafe_
      rw [if_neg he, show ofStorage .static s.live = [] by simp [hl, ofStorage]]
      simp only [List.take_nil, List.drop_nil]
      rw [Meth.bind_ok (show (pure () : Meth SingletonExit.St Unit) s = (.ok (), s) from rfl), Meth.bind_ok (show destroyAll dbg [] s = (.ok (), s) from rfl),
        Meth.bind_ub (bad (by simp))]
      simp
    | static =>
      have hb : before = 0 := by simpa [SafeEnd] using unsafe_
      subst hb
      rw [show ofStorage .automatic s.live = [] by simp [hl, ofStorage], hz]
      simp only [List.take_zero]
      rw [Meth.bind_ok (show destroyAll dbg [] s = (.ok (), s) from rfl), Meth.bind_ub (bad (by simp))]
      simp
    | dynamic =>
      have hb : dbg = true ∧ nulls = true := Classical.byContradiction unsafe_
      obtain ⟨rfl, rfl⟩ := hb
      rw [show ofStorage .automatic s.live = [] by simp [hl, ofStorage], show ofStorage .static s.live = [] by simp [hl, ofStorage], hz]
      simp only [List.take_nil, List.drop_nil]
      rw [Meth.bind_ok (show destroyAll true [] s = (.ok (), s) from rfl)]
      have hD : destroyInstance true true s = (.abort, { s with inst := none }) := by
        simp only [destroyInstance, hi]
        rw [if_pos (by simp [hl])]
        simp [SingletonExit.destroy, dtor_null]
      rw [Meth.bind_apply, Meth.bind, hD]
      simp

/-- C94, the documented use of a singleton, a variable of `main`: returning from `main` is fine, calling `std::exit` deletes an object that was not made by
`new`. -/
theorem C94_documented_use (dbg nulls : Bool) (before : Nat) : ∃ s, SingletonExit.run dbg [.create .automatic] SingletonExit.init = some s ∧
    (∃ s', finish dbg nulls .returns before s = (.ok (), s') ∧ s'.destroyed = [0]) ∧ (finish dbg nulls .exits before s).1 = .ub .bad_pointer := by
  refine ⟨⟨some 0, [(0, .automatic)], 1, []⟩, rfl, ?_, ?_⟩
  · obtain ⟨s', h1, _, h2, _⟩ := C94_end_partial dbg nulls .returns before [.create .automatic] ⟨some 0, [(0, .automatic)], 1, []⟩ rfl (by simp [SafeEnd])
    exact ⟨s', h1, h2⟩
  · exact C94_end_wrong dbg nulls .exits before [.create .automatic] ⟨some 0, [(0, .automatic)], 1, []⟩ rfl 0 .automatic (by simp) (by simp [SafeEnd])

/-- A longer history: an object comes and goes, a second one is refused while the third exists; at `std::exit` the dynamic one is destroyed by the
library. -/
example : ∃ s, SingletonExit.run true [.create .automatic, .destroy 0, .create .dynamic, .create .automatic] SingletonExit.init = some s ∧
    s.live = [(1, .dynamic)] ∧ SafeEnd true false .exits 0 .dynamic ∧ ¬ SafeEnd true true .exits 0 .dynamic ∧
    (finish true false .exits 0 s).2.destroyed = [0, 1] ∧ (finish true true .exits 0 s).1 = .abort :=
  ⟨⟨some 1, [(1, .dynamic)], 3, [0]⟩, rfl, rfl, by simp [SafeEnd], by simp [SafeEnd], by decide +kernel, by decide +kernel⟩

end Utki
