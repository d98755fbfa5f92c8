import Verif.Model.SingletonLibs
import Verif.Props.Singleton
/-!
# Singletons in several modules (C128)

Model: `Model/SingletonLibs`.
-/
namespace Utki
namespace Spec.Modules
open Utki.Singleton Utki.SingletonLibs

/-- An operation with the module whose code does it and the result. -/
abbrev Event := Nat × Op × Res Val

/-- The history without the modules. -/
def events (h : List Event) : List (Op × Res Val) := h.map (·.2)

/-- The histories of a process of several modules: in each step the code of some module does something allowed. -/
inductive Proc (dbg : Bool) (pl : Platform) (ms : List Module) : List Event → (Nat → Instance) → Prop where
  | nil : Proc dbg pl ms [] (fun _ => none)
  | snoc (h : List Event) (c c' : Nat → Instance) (m : Nat) (op : Op) (r : Res Val) : Proc dbg pl ms h c → Allowed1 (events h) op →
      SingletonLibs.exec dbg pl ms m op c = some (r, c') → Proc dbg pl ms (h ++ [(m, op, r)]) c'

/-- The modules are listed in the order of loading. -/
def InOrder (ms : List Module) : Prop := ∀ (i j : Nat) (a b : Module), i ≤ j → ms[i]? = some a → ms[j]? = some b → a.batch ≤ b.batch

end Spec.Modules
open Utki.Singleton Utki.SingletonLibs Spec Spec.Modules

variable {dbg : Bool} {pl : Platform} {ms : List Module}

/-! ### One copy for all -/

theorem proc_history {v : Nat} (hv : ∀ m i, uses pl ms m = some i → i = v) {h : List Event} {c : Nat → Instance} (hp : Proc dbg pl ms h c) :
    History dbg (events h) (c v) := by
  induction hp with
  | nil => exact .nil
  | snoc h c c' m op r _ ha he ih =>
    unfold SingletonLibs.exec at he
    cases hu : uses pl ms m with
    | none => rw [hu] at he; cases he
    | some i =>
      rw [hu] at he
      obtain rfl := hv m i hu
      simp only [Option.map_some, Option.some.injEq, Prod.mk.injEq] at he
      obtain ⟨rfl, rfl⟩ := he
      simpa [events] using History.snoc (events h) (c i) op ih ha

/-- C128: if the code of all modules uses the same copy of the variable, the process behaves as a program of one module does: at most one object is live,
construction fails while one is, `is_created()` and `inst()` called in any module tell of the object constructed in whatever module. -/
theorem C128_one (hv : ∀ m n i j, uses pl ms m = some i → uses pl ms n = some j → i = j) {h : List Event} {c : Nat → Instance} (hp : Proc dbg pl ms h c) :
    (liveObjs (events h)).length ≤ 1 ∧
    (∀ m op r c', Allowed1 (events h) op → SingletonLibs.exec dbg pl ms m op c = some (r, c') →
      (∀ a, op = .construct a → (liveObjs (events h) = [] → r = .ok .unit) ∧ (liveObjs (events h) ≠ [] → r = .throw .logic_error)) ∧
      (op = .isCreated → r = .ok (.bool (!(liveObjs (events h)).isEmpty))) ∧
      (op = .inst → (∀ a, a ∈ liveObjs (events h) → r = .ok (.obj a)) ∧ (liveObjs (events h) = [] → r = if dbg then .abort else .ub .null_deref)) ∧
      (∀ a, op = .destroy a → r = .ok .unit ∧ liveObjs (events (h ++ [(m, op, r)])) = [])) := by
  by_cases hu : ∃ m i, uses pl ms m = some i
  · obtain ⟨m0, v, hm0⟩ := hu
    have hv' : ∀ m i, uses pl ms m = some i → i = v := fun m i hm => hv m m0 i v hm hm0
    refine ⟨C61_at_most_one dbg _ _ (proc_history hv' hp), fun m op r c' ha he => ?_⟩
    have hn := proc_history hv' (.snoc h c c' m op r hp ha he)
    have hev : events (h ++ [(m, op, r)]) = events h ++ [(op, r)] := by simp [events]
    rw [hev] at hn ⊢
    refine ⟨fun a e => ?_, fun e => ?_, fun e => ?_, fun a e => ?_⟩
    · subst e
      obtain ⟨h1, h2⟩ := C61_construct dbg _ _ a r hn
      exact ⟨fun h => (h1 h).1, fun h => (h2 h).1⟩
    · subst e; exact C61_is_created dbg _ _ r hn
    · subst e; exact C61_inst dbg _ _ r hn
    · subst e
      obtain ⟨h1, h2, _⟩ := C61_destroy dbg _ _ a r hn
      exact ⟨h1, h2⟩
  · have none : ∀ m, uses pl ms m = none := by
      intro m
      cases h : uses pl ms m with
      | none => rfl
      | some i => exact absurd ⟨m, i, h⟩ hu
    have hh : h = [] := by
      cases hp with
      | nil => rfl
      | snoc h c c' m op r _ _ he => simp [SingletonLibs.exec, none m] at he
    subst hh
    refine ⟨by simp [events, liveObjs], fun m op r c' _ he => ?_⟩
    simp [SingletonLibs.exec, none m] at he

theorem mem_scope {unique : Bool} {b i : Nat} : i ∈ scope unique ms b ↔
    ∃ md, ms[i]? = some md ∧ (md.batch ≤ b ∧ (md.global = true ∨ unique = true) ∨ md.batch = b) := by
  have lt : ∀ md, ms[i]? = some md → i < ms.length := fun md h => (List.getElem?_eq_some_iff.mp h).1
  simp only [scope, List.mem_append, List.mem_filter, List.mem_range]
  cases h : ms[i]? with
  | none => simp
  | some md => simp [lt md h]

/-- In order of loading, the first module that offers a copy is found first. -/
theorem uses_first {unique : Bool} (hord : InOrder ms) (hg : unique = true ∨ ∀ md ∈ ms, md.global = true) (hx : ∀ md ∈ ms, md.defines = true → md.exported = true)
    {m i : Nat} (hu : uses (.elf unique) ms m = some i) : offers ms i = true ∧ ∀ j < i, offers ms j = false := by
  unfold uses at hu
  cases hm : ms[m]? with
  | none => rw [hm] at hu; cases hu
  | some md =>
    rw [hm] at hu
    have hmem : md ∈ ms := List.mem_of_getElem? hm
    have : (md.defines && !md.exported) = false := by
      cases hd : md.defines with
      | false => rfl
      | true => simp [hx md hmem hd]
    simp only [this, Bool.false_eq_true, if_false] at hu
    have ho : offers ms i = true := List.find?_some hu
    refine ⟨ho, fun j hj => ?_⟩
    obtain ⟨mi, hmi, hb⟩ := mem_scope.mp (List.mem_of_find?_eq_some hu)
    cases hoj : offers ms j with
    | false => rfl
    | true =>
      exfalso
      have hjm : ∃ mj, ms[j]? = some mj := by
        cases h : ms[j]? with
        | none => simp [offers, h] at hoj
        | some mj => exact ⟨mj, rfl⟩
      obtain ⟨mj, hmj⟩ := hjm
      have hij : mj.batch ≤ md.batch := by
        have := hord j i mj mi (by omega) hmj hmi
        omega
      have glob : ∀ k mk, ms[k]? = some mk → mk.batch ≤ md.batch →
          k ∈ (List.range ms.length).filter (fun i => match ms[i]? with | some x => decide (x.batch ≤ md.batch) && (x.global || unique) | none => false) := by
        intro k mk hk hkb
        rw [List.mem_filter, List.mem_range]
        refine ⟨(List.getElem?_eq_some_iff.mp hk).1, ?_⟩
        have : (mk.global || unique) = true := by
          rcases hg with h | h
          · simp [h]
          · simp [h mk (List.mem_of_getElem? hk)]
        simp [hk, hkb, this]
      unfold scope at hu
      rw [List.find?_append] at hu
      have hmj' := glob j mj hmj hij
      generalize hL : (List.range ms.length).filter (fun i => match ms[i]? with | some x => decide (x.batch ≤ md.batch) && (x.global || unique) | none => false) = L at hu hmj'
      have hs : L.Pairwise (· < ·) := by
        rw [← hL]; exact List.Pairwise.filter _ List.pairwise_lt_range
      cases hf : L.find? (offers ms) with
      | none =>
        exact absurd hoj (by simpa using List.find?_eq_none.mp hf j hmj')
      | some k =>
        rw [hf] at hu
        cases hu
        obtain ⟨_, as, bs, hLs, hbefore⟩ := List.find?_eq_some_iff_append.mp hf
        rw [hLs] at hmj' hs
        rcases List.mem_append.mp hmj' with h | h
        · have := hbefore j h
          rw [hoj] at this; cases this
        · rcases List.mem_cons.mp h with h | h
          · omega
          · have := (List.pairwise_cons.mp (List.pairwise_append.mp hs).2.1).1 j h
            omega

/-- C128: on ELF systems the modules use one copy if all export it (the default) and are loaded with the program or globally, or the symbol is unique. -/
theorem C128_elf {unique : Bool} (hord : InOrder ms) (hx : ∀ md ∈ ms, md.defines = true → md.exported = true)
    (hg : unique = true ∨ ∀ md ∈ ms, md.global = true) (m n i j : Nat) (hi : uses (.elf unique) ms m = some i) (hj : uses (.elf unique) ms n = some j) : i = j := by
  obtain ⟨h1, h2⟩ := uses_first hord hg hx hi
  obtain ⟨h3, h4⟩ := uses_first hord hg hx hj
  rcases Nat.lt_trichotomy i j with h | h | h
  · rw [h4 i h] at h1; cases h1
  · exact h
  · rw [h2 j h] at h3; cases h3

/-- C128: on every platform the modules use one copy if there is only one, as with `intrusive_singleton`. -/
theorem C128_intrusive {d : Nat} (hd : ∀ i md, ms[i]? = some md → (md.defines = true ↔ i = d)) (m n i j : Nat)
    (hi : uses pl ms m = some i) (hj : uses pl ms n = some j) : i = j := by
  have key : ∀ m i, uses pl ms m = some i → i = d := by
    intro m i h
    have off : ∀ k, offers ms k = true → k = d := by
      intro k hk
      unfold offers at hk
      cases hm : ms[k]? with
      | none => rw [hm] at hk; cases hk
      | some md =>
        rw [hm] at hk
        exact (hd k md hm).mp (by simp only [Bool.and_eq_true] at hk; exact hk.1)
    unfold uses at h
    cases hm : ms[m]? with
    | none => rw [hm] at h; cases h
    | some md =>
      rw [hm] at h
      have own : md.defines = true → m = d := (hd m md hm).mp
      cases pl with
      | elf u =>
        simp only at h
        split at h
        · next hc => cases h; exact own (by simp only [Bool.and_eq_true] at hc; exact hc.1)
        · exact off i (List.find?_some h)
      | windows =>
        simp only at h
        split at h
        · next hc => cases h; exact own hc
        · exact off i (List.find?_some h)
  rw [key m i hi, key n j hj]

/-! ### Several copies -/

/-- C128: if the code of two modules uses different copies, then an object constructed in one does not exist for the other: there `is_created()` is false,
`inst()` fails, and a second object can be constructed. -/
theorem C128_separate {m n i j : Nat} (hi : uses pl ms m = some i) (hj : uses pl ms n = some j) (hij : i ≠ j) {a b : Nat} (hab : a ≠ b) :
    ∃ c, Proc dbg pl ms [(m, .construct a, .ok .unit), (n, .isCreated, .ok (.bool false))] c ∧
      (∃ c', SingletonLibs.exec dbg pl ms n .inst c = some (if dbg then .abort else .ub .null_deref, c')) ∧
      (∃ c', Proc dbg pl ms [(m, .construct a, .ok .unit), (n, .isCreated, .ok (.bool false)), (n, .construct b, .ok .unit)] c' ∧
        liveObjs (events [(m, .construct a, .ok .unit), (n, .isCreated, .ok (.bool false)), (n, .construct b, .ok .unit)]) = [b, a]) := by
  let c1 : Nat → Instance := fun k => if k = i then some a else none
  have p1 : Proc dbg pl ms [(m, .construct a, .ok .unit)] c1 := by
    refine .snoc [] (fun _ => none) c1 m (.construct a) _ .nil (by simp [Allowed1, events, liveObjs]) ?_
    simp [SingletonLibs.exec, hi, exec_construct_none, c1]
  have hc : c1 j = none := by simp [c1, hij.symm]
  have p2 : Proc dbg pl ms [(m, .construct a, .ok .unit), (n, .isCreated, .ok (.bool false))] c1 := by
    refine .snoc [(m, .construct a, .ok .unit)] c1 c1 n .isCreated _ p1 trivial ?_
    simp only [SingletonLibs.exec, hj, Option.map_some, exec_isCreated, hc, Option.isSome_none, Option.some.injEq, Prod.mk.injEq, true_and]
    funext k
    split
    · next h => rw [h, hc]
    · rfl
  refine ⟨c1, p2, ⟨fun k => if k = j then none else c1 k, ?_⟩, ⟨fun k => if k = j then some b else c1 k,
    .snoc _ c1 _ n (.construct b) _ p2 ?_ ?_, rfl⟩⟩
  · simp [SingletonLibs.exec, hj, hc, exec_inst_none]
  · simp [Allowed1, events, liveObjs, hab.symm]
  · simp [SingletonLibs.exec, hj, hc, exec_construct_none]

/-- C128: on Windows two modules that both have a copy, as with `singleton`, never use the same. -/
theorem C128_windows {m n : Nat} {x y : Module} (hm : ms[m]? = some x) (hn : ms[n]? = some y) (hx : x.defines = true) (hy : y.defines = true) (hmn : m ≠ n) :
    ∃ i j, uses .windows ms m = some i ∧ uses .windows ms n = some j ∧ i ≠ j :=
  ⟨m, n, by simp [uses, hm, hx], by simp [uses, hn, hy], hmn⟩

/-- C128: on ELF systems a module whose copy is not exported (compiled with hidden visibility) shares it with no other. -/
theorem C128_hidden {unique : Bool} {m n j : Nat} {x : Module} (hm : ms[m]? = some x) (hx : x.defines = true) (he : x.exported = false) (hmn : m ≠ n)
    (hj : uses (.elf unique) ms n = some j) : uses (.elf unique) ms m = some m ∧ j ≠ m := by
  refine ⟨by simp [uses, hm, hx, he], ?_⟩
  rintro rfl
  unfold uses at hj
  cases hn : ms[n]? with
  | none => rw [hn] at hj; cases hj
  | some y =>
    rw [hn] at hj
    simp only at hj
    split at hj
    · cases hj; exact hmn rfl
    · have := List.find?_some hj
      simp [offers, hm, he] at this

/-- C128: on ELF systems, if the symbol is not unique, two modules loaded by different calls of `dlopen` without `RTLD_GLOBAL` that both have an exported
copy do not use the same one, unless a global module has one. -/
theorem C128_local {m n : Nat} {x y : Module} (hm : ms[m]? = some x) (hn : ms[n]? = some y) (hx : x.defines = true) (hy : y.defines = true)
    (hxe : x.exported = true) (hye : y.exported = true) (hb : x.batch ≠ y.batch) (hg : ∀ md ∈ ms, md.defines = true → md.global = false) :
    ∃ i j, uses (.elf false) ms m = some i ∧ uses (.elf false) ms n = some j ∧ i ≠ j := by
  have key : ∀ m (x : Module), ms[m]? = some x → x.defines = true → x.exported = true →
      ∃ i md, uses (.elf false) ms m = some i ∧ ms[i]? = some md ∧ md.batch = x.batch := by
    intro m x hm hx hxe
    have hu : uses (.elf false) ms m = (scope false ms x.batch).find? (offers ms) := by simp [uses, hm, hxe]
    cases hf : (scope false ms x.batch).find? (offers ms) with
    | none =>
      have := List.find?_eq_none.mp hf m (mem_scope.mpr ⟨x, hm, .inr rfl⟩)
      simp [offers, hm, hx, hxe] at this
    | some i =>
      obtain ⟨md, h1, h2⟩ := mem_scope.mp (List.mem_of_find?_eq_some hf)
      have ho : offers ms i = true := List.find?_some hf
      simp only [offers, h1, Bool.and_eq_true] at ho
      refine ⟨i, md, by rw [hu, hf], h1, ?_⟩
      rcases h2 with ⟨_, h | h⟩ | h
      · rw [hg md (List.mem_of_getElem? h1) ho.1] at h; cases h
      · cases h
      · exact h
  obtain ⟨i, a, h1, h2, h3⟩ := key m x hm hx hxe
  obtain ⟨j, b, g1, g2, g3⟩ := key n y hn hy hye
  refine ⟨i, j, h1, g1, ?_⟩
  rintro rfl
  rw [h2] at g2; cases g2
  exact hb (h3.symm.trans g3)

/-- The program of tests/singleton_over_shared_library: executable and library, both with a copy. One copy on ELF, two on Windows. -/
example : let ms : List Module := [⟨true, true, true, 0⟩, ⟨true, true, true, 0⟩]
    InOrder ms ∧ uses (.elf false) ms 0 = some 0 ∧ uses (.elf false) ms 1 = some 0 ∧ uses .windows ms 0 = some 0 ∧ uses .windows ms 1 = some 1 := by
  refine ⟨?_, by decide, by decide, by decide, by decide⟩
  intro i j a b _ ha hb
  have : ∀ (k : Nat) (x : Module), ([⟨true, true, true, 0⟩, ⟨true, true, true, 0⟩] : List Module)[k]? = some x → x.batch = 0 := by
    intro k x h
    have := List.mem_of_getElem? h
    simp at this
    rw [this]
  exact Nat.le_of_eq ((this i a ha).trans (this j b hb).symm)

/-- The variable of an `intrusive_singleton` defined in the library: one copy everywhere. -/
example : let ms : List Module := [⟨false, false, true, 0⟩, ⟨true, true, true, 0⟩]
    (∀ pl, uses pl ms 0 = some 1 ∧ uses pl ms 1 = some 1) ∧ ∀ (i : Nat) (md : Module), ms[i]? = some md → (md.defines = true ↔ i = 1) := by
  refine ⟨fun pl => ?_, ?_⟩
  · cases pl with
    | elf u => cases u <;> decide
    | windows => decide
  · intro i md h
    match i, h with
    | 0, h => cases h; decide
    | 1, h => cases h; decide

/-- Two plugins loaded locally: two copies, unless the symbol is unique. -/
example : let ms : List Module := [⟨false, false, true, 0⟩, ⟨true, true, false, 1⟩, ⟨true, true, false, 2⟩]
    uses (.elf false) ms 1 = some 1 ∧ uses (.elf false) ms 2 = some 2 ∧ uses (.elf true) ms 1 = some 1 ∧ uses (.elf true) ms 2 = some 1 := by decide

end Utki
