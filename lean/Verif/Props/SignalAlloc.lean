import Verif.Spec.SignalAlloc
import Verif.Lemmas.TreeAlloc
/-! # C133: signals when memory runs out -/
namespace Utki
open Utki.Spec TreeAlloc SignalAlloc
variable {γ : Type}

theorem inMemS_eval {β : Type} {m : Meth Mem β} {s : Sig γ} {r : Res β} {mem : Mem} (h : m s.mem = (r, mem)) : inMemS m s = (r, { s with mem := mem }) := by
  simp [inMemS, h]

theorem onFail_okS {σ β : Type} {m : Meth σ β} {c : Meth σ Unit} {s s' : σ} {b : β} (h : m s = (.ok b, s')) : onFail m c s = (.ok b, s') := by
  simp [onFail, h]
theorem onFail_throwS {σ β : Type} {m : Meth σ β} {c : Meth σ Unit} {s s' s'' : σ} {e : Err} (h : m s = (.throw e, s')) (hc : c s' = (.ok (), s'')) :
    onFail m c s = (.throw e, s'') := by
  simp [onFail, h, hc]

theorem copyFn_acquires (f : Fn γ) : Acquires (copyFn f) f.mem.length Fn.mem (fun g => g.val = f.val) := by
  have e : copyFn f = (do let m ← copyValue f.mem; let c ← onFail (pure ()) (freeAll m); return (fun m _ => (⟨f.val, m⟩ : Fn γ)) m c) := rfl
  rw [e]
  exact seq_acquires (n2 := 0) (own2 := fun _ _ => []) (good2 := fun _ _ => True) (copyValue_acquires f.mem) (fun _ _ => pure_acquires _ _ _ rfl trivial)
    (fun b _ => freeAll_releases b) (fun _ _ _ _ => by simp) (fun _ _ _ _ => rfl)

theorem destroySlot_releases (s : Slot γ) : Releases (destroySlot s) (s.node :: s.fn.mem) :=
  releases_perm (bind_releases (freeAll_releases _) (free_releases _)) (List.perm_append_comm (l₁ := s.fn.mem) (l₂ := [s.node]))

theorem destroySlots_releases (l : List (Slot γ)) : Releases (destroySlots l) (blocksSlots l) := by
  induction l with
  | nil => exact pure_releases
  | cons s ss ih => exact bind_releases (destroySlot_releases s) ih

theorem copySlots_acquires (l : List (Slot γ)) : Acquires (copySlots l) (requestsSlots l) blocksSlots (fun l' => callbacksOf l' = callbacksOf l) := by
  induction l with
  | nil => exact pure_acquires _ _ _ rfl rfl
  | cons s ss ih =>
    have hr : requestsSlots (s :: ss) = (1 + s.fn.mem.length) + requestsSlots ss := by simp [requestsSlots]; omega
    rw [hr, copySlots]
    refine seq_acquires (f := fun t ts => t :: ts) (own1 := fun t => t.node :: t.fn.mem) (good1 := fun t => t.fn.val = s.fn.val) ?_ (fun _ _ => ih) (fun t _ => destroySlot_releases t) ?_ ?_
    · exact seq_acquires (f := fun b f => (⟨b, f⟩ : Slot γ)) alloc_acquires (fun _ _ => copyFn_acquires s.fn) (fun b _ => free_releases b)
        (fun b f _ _ => List.perm_append_comm (l₁ := f.mem) (l₂ := [b])) (fun _ _ _ h => h)
    · intro t ts _ _
      exact List.perm_append_comm
    · intro t ts h1 h2
      simp only [callbacksOf, List.map_cons] at h2 ⊢
      rw [h1, h2]

theorem connect_eval (f : Fn γ) (s : Sig γ) {others : List Nat} (hs : InUse s.mem (blocksSlots s.slots ++ (f.mem ++ others))) :
    (granted 1 s.mem.plan → ∃ b mem', connect f s = (.ok b, ⟨mem', s.slots ++ [⟨b, f⟩]⟩) ∧ InUse mem' (blocksSlots (s.slots ++ [⟨b, f⟩]) ++ others) ∧
      mem'.plan = s.mem.plan.drop 1) ∧
    (¬ granted 1 s.mem.plan → ∃ mem', connect f s = (.throw .bad_alloc, ⟨mem', s.slots⟩) ∧ InUse mem' (blocksSlots s.slots ++ others)) := by
  obtain ⟨a1, a2⟩ := alloc_acquires s.mem _ hs
  refine ⟨fun g => ?_, fun g => ?_⟩
  · obtain ⟨b, m1, e1, -, i1, p1⟩ := a1 g
    refine ⟨b, m1, onFail_okS ?_, inUse_perm i1 ?_, p1⟩
    · rw [Meth.bind_ok (inMemS_eval e1)]; rfl
    · rw [List.perm_iff_count]
      intro a
      simp only [blocksSlots, List.flatMap_append, List.count_append, List.flatMap_cons, List.flatMap_nil, List.append_nil, List.count_cons, List.count_nil]
      omega
  · obtain ⟨m1, e1, i1⟩ := a2 g
    have i1' : InUse m1 (f.mem ++ (blocksSlots s.slots ++ others)) := by
      refine inUse_perm i1 ?_
      rw [List.perm_iff_count]
      intro a
      simp only [List.count_append]
      omega
    obtain ⟨m2, e2, i2, -⟩ := freeAll_releases _ m1 _ i1'
    refine ⟨m2, onFail_throwS (s' := { s with mem := m1 }) ?_ (inMemS_eval e2), i2⟩
    rw [Meth.bind_throw (inMemS_eval e1)]

/-- C133: `connect` with a callback that is copied (`keep`) or moved: if all requests for memory succeed, the callback is the last one of the signal, the others have not changed, and the connection returned is that of the new one;
otherwise `std::bad_alloc` is thrown and the signal is as it was. The copy that was made is gone then. -/
theorem C133_connect (keep : Bool) (f : Fn γ) (s : Sig γ) {others : List Nat} (hs : InUse s.mem (blocksSlots s.slots ++ (f.mem ++ others))) :
    let n := if keep then f.mem.length + 1 else 1
    let rest := if keep then f.mem ++ others else others
    (granted n s.mem.plan → ∃ b g mem', connectCall keep f s = (.ok b, ⟨mem', s.slots ++ [⟨b, g⟩]⟩) ∧ g.val = f.val ∧ (∀ t ∈ s.slots, t.node ≠ b) ∧
      InUse mem' (blocksSlots (s.slots ++ [⟨b, g⟩]) ++ rest)) ∧
    (¬ granted n s.mem.plan → ∃ mem', connectCall keep f s = (.throw .bad_alloc, ⟨mem', s.slots⟩) ∧ InUse mem' (blocksSlots s.slots ++ rest)) := by
  have fresh : ∀ (b : Nat) (g : Fn γ) (mem' : Mem) (rest : List Nat), InUse mem' (blocksSlots (s.slots ++ [⟨b, g⟩]) ++ rest) → ∀ t ∈ s.slots, t.node ≠ b := by
    intro b g mem' rest h t ht e
    have hn := (h.2.nodup_iff.mp h.1.nodup)
    simp only [blocksSlots, List.flatMap_append, List.append_assoc] at hn
    have := (List.nodup_append.mp hn).2.2
    exact this b (List.mem_flatMap.mpr ⟨t, ht, by simp [e]⟩) b (by simp) rfl
  cases keep with
  | false =>
    simp only [Bool.false_eq_true, if_false, connectCall]
    obtain ⟨a1, a2⟩ := connect_eval f s hs
    exact ⟨fun g => by obtain ⟨b, m, e, i, -⟩ := a1 g; exact ⟨b, f, m, e, rfl, fresh _ _ _ _ i, i⟩, a2⟩
  | true =>
    simp only [if_true, connectCall]
    obtain ⟨a1, a2⟩ := copyFn_acquires f s.mem _ hs
    rw [granted_add]
    by_cases g1 : granted f.mem.length s.mem.plan
    · obtain ⟨g, m1, e1, hg, i1, p1⟩ := a1 g1
      have i1' : InUse m1 (blocksSlots s.slots ++ (g.mem ++ (f.mem ++ others))) := by
        refine inUse_perm i1 ?_
        rw [List.perm_iff_count]
        intro a
        simp only [List.count_append]
        omega
      obtain ⟨b1, b2⟩ := connect_eval g ⟨m1, s.slots⟩ i1'
      rw [Meth.bind_ok (inMemS_eval e1)]
      simp only [p1] at b1 b2
      refine ⟨fun h => ?_, fun h => b2 (fun h2 => h ⟨g1, h2⟩)⟩
      obtain ⟨b, m, e, i, -⟩ := b1 h.2
      exact ⟨b, g, m, e, hg, fresh _ _ _ _ i, i⟩
    · refine ⟨fun h => absurd h.1 g1, fun _ => ?_⟩
      obtain ⟨m1, e1, i1⟩ := a2 g1
      exact ⟨m1, by rw [Meth.bind_throw (inMemS_eval e1)], i1⟩

theorem count_filter_slots (a : Nat) (l : List (Slot γ)) (t : Slot γ) (ht : t ∈ l) (hn : (blocksSlots l).Nodup) :
    (blocksSlots (l.filter (fun u => u.node != t.node))).count a + (t.node :: t.fn.mem).count a = (blocksSlots l).count a := by
  induction l with
  | nil => simp at ht
  | cons x xs ih =>
    have e : blocksSlots (x :: xs) = (x.node :: x.fn.mem) ++ blocksSlots xs := rfl
    rw [e] at hn ⊢
    obtain ⟨-, n2, n3⟩ := List.nodup_append.mp hn
    rcases List.mem_cons.mp ht with rfl | ht
    · have hf : xs.filter (fun u => u.node != t.node) = xs := by
        rw [List.filter_eq_self]
        intro u hu
        have := n3 t.node (by simp) u.node (List.mem_flatMap.mpr ⟨u, hu, by simp⟩)
        simpa using fun h => this h.symm
      simp only [List.filter_cons, bne_self_eq_false, Bool.false_eq_true, if_false, hf, List.count_append]
      omega
    · have hx : x.node ≠ t.node := n3 x.node (by simp) t.node (List.mem_flatMap.mpr ⟨t, ht, by simp⟩)
      have := ih ht n2
      have hb : (x.node != t.node) = true := by simpa using hx
      simp only [List.filter_cons, hb, if_true]
      have e2 : blocksSlots (x :: xs.filter (fun u => u.node != t.node)) = (x.node :: x.fn.mem) ++ blocksSlots (xs.filter (fun u => u.node != t.node)) := rfl
      rw [e2]
      simp only [List.count_append] at this ⊢
      omega

theorem nodes_unique {l : List (Slot γ)} (hn : (blocksSlots l).Nodup) {t u : Slot γ} (ht : t ∈ l) (hu : u ∈ l) (h : t.node = u.node) : t = u := by
  induction l with
  | nil => simp at ht
  | cons x xs ih =>
    have e : blocksSlots (x :: xs) = (x.node :: x.fn.mem) ++ blocksSlots xs := rfl
    rw [e] at hn
    obtain ⟨-, n2, n3⟩ := List.nodup_append.mp hn
    rcases List.mem_cons.mp ht with h1 | ht <;> rcases List.mem_cons.mp hu with h2 | hu
    · rw [h1, h2]
    · exact absurd h (n3 _ (by simp [h1]) _ (List.mem_flatMap.mpr ⟨u, hu, by simp⟩))
    · exact absurd h.symm (n3 _ (by simp [h2]) _ (List.mem_flatMap.mpr ⟨t, ht, by simp⟩))
    · exact ih n2 ht hu

/-- C133: `disconnect` asks for no memory; it removes just this callback and gives back all that was kept for it. -/
theorem C133_disconnect (s : Sig γ) {a b : List (Slot γ)} {t : Slot γ} (hsl : s.slots = a ++ t :: b) {others : List Nat} (hs : InUse s.mem (blocksSlots s.slots ++ others)) :
    ∃ mem', disconnect t.node s = (.ok (), ⟨mem', a ++ b⟩) ∧ InUse mem' (blocksSlots (a ++ b) ++ others) ∧ mem'.plan = s.mem.plan := by
  have hn : (blocksSlots s.slots).Nodup := (List.nodup_append.mp (hs.2.nodup_iff.mp hs.1.nodup)).1
  have ht : t ∈ s.slots := by simp [hsl]
  have hfil : s.slots.filter (fun u => u.node != t.node) = a ++ b := by
    have e : blocksSlots (a ++ t :: b) = blocksSlots a ++ ((t.node :: t.fn.mem) ++ blocksSlots b) := by simp [blocksSlots]
    rw [hsl, e] at hn
    obtain ⟨-, n2, n3⟩ := List.nodup_append.mp hn
    obtain ⟨-, -, n4⟩ := List.nodup_append.mp n2
    rw [hsl, List.filter_append, List.filter_cons]
    simp only [bne_self_eq_false, Bool.false_eq_true, if_false]
    congr 1
    · rw [List.filter_eq_self]
      intro u hu
      have := n3 u.node (List.mem_flatMap.mpr ⟨u, hu, by simp⟩) t.node (by simp)
      simpa using this
    · rw [List.filter_eq_self]
      intro u hu
      have := n4 t.node (by simp) u.node (List.mem_flatMap.mpr ⟨u, hu, by simp⟩)
      simpa using fun h => this h.symm
  have hfind : s.slots.find? (fun u => u.node == t.node) = some t := by
    cases hf : s.slots.find? (fun u => u.node == t.node) with
    | none => exact absurd (List.find?_eq_none.mp hf t ht) (by simp)
    | some u =>
      have h1 := List.mem_of_find?_eq_some hf
      have h2 := List.find?_some hf
      rw [nodes_unique hn h1 ht (by simpa using h2)]
  have hu : InUse s.mem ((t.node :: t.fn.mem) ++ (blocksSlots (a ++ b) ++ others)) := by
    refine inUse_perm hs ?_
    rw [List.perm_iff_count]
    intro x
    have := count_filter_slots x s.slots t ht hn
    rw [hfil] at this
    simp only [List.count_append] at this ⊢
    omega
  obtain ⟨m1, e1, i1, p1⟩ := destroySlot_releases t s.mem _ hu
  refine ⟨m1, ?_, i1, p1⟩
  unfold disconnect
  simp only [Meth.get_bind, hfind, Meth.set_bind, hfil]
  exact inMemS_eval (s := ⟨s.mem, a ++ b⟩) e1

/-- C133: a copy of a signal has the same callbacks and memory of its own, or `std::bad_alloc` is thrown and all memory requested has been given back. -/
theorem C133_copy (l : List (Slot γ)) {m : Mem} {others : List Nat} (h : InUse m others) :
    (granted (requestsSlots l) m.plan → ∃ l' m', copySlots l m = (.ok l', m') ∧ callbacksOf l' = callbacksOf l ∧ InUse m' (blocksSlots l' ++ others)) ∧
    (¬ granted (requestsSlots l) m.plan → ∃ m', copySlots l m = (.throw .bad_alloc, m') ∧ InUse m' others) := by
  obtain ⟨a1, a2⟩ := copySlots_acquires l m others h
  exact ⟨fun g => by obtain ⟨u, m', h1, h2, h3, _⟩ := a1 g; exact ⟨u, m', h1, h2, h3⟩, a2⟩

/-- C133: the destruction of a signal gives back all it owned; in debug builds it must be empty. -/
theorem C133_destroy (dbg : Bool) (s : Sig γ) {others : List Nat} (hs : InUse s.mem (blocksSlots s.slots ++ others)) :
    (dbg = false ∨ s.slots = [] → ∃ mem', destroy dbg s = (.ok (), ⟨mem', []⟩) ∧ InUse mem' others ∧ mem'.plan = s.mem.plan) ∧
    (dbg = true ∧ s.slots ≠ [] → destroy dbg s = (.abort, s)) := by
  refine ⟨fun h => ?_, fun h => ?_⟩
  · obtain ⟨m1, e1, i1, p1⟩ := destroySlots_releases s.slots s.mem _ hs
    refine ⟨m1, ?_, i1, p1⟩
    unfold destroy
    have : ASSERT dbg s.slots.isEmpty = .ok () := by rcases h with rfl | h <;> simp [ASSERT, *]
    simp only [Meth.get_bind, this, Meth.lift_ok_bind, Meth.set_bind]
    exact inMemS_eval (s := ⟨s.mem, []⟩) e1
  · obtain ⟨rfl, h⟩ := h
    unfold destroy
    have : ASSERT true s.slots.isEmpty = .abort := by simp [ASSERT, h]
    simp only [Meth.get_bind, this]
    rfl

theorem assignLoop_eval (src done rest : List (Slot γ)) (mem : Mem) {others : List Nat} (hs : InUse mem (blocksSlots (done ++ rest) ++ others)) :
    (granted (requestsAssign rest.length src) mem.plan → ∃ mem' l, assignLoop done.length src ⟨mem, done ++ rest⟩ = (.ok (), ⟨mem', done ++ l⟩) ∧
      callbacksOf l = callbacksOf src ∧ (l.map (·.node)).take rest.length = (rest.map (·.node)).take src.length ∧ InUse mem' (blocksSlots (done ++ l) ++ others)) ∧
    (¬ granted (requestsAssign rest.length src) mem.plan → ∃ mem' l k, assignLoop done.length src ⟨mem, done ++ rest⟩ = (.throw .bad_alloc, ⟨mem', done ++ l⟩) ∧
      k < src.length ∧ callbacksOf l = (callbacksOf src).take k ++ (callbacksOf rest).drop k ∧ l.map (·.node) = rest.map (·.node) ∧ InUse mem' (blocksSlots (done ++ l) ++ others)) := by
  induction src generalizing done rest mem with
  | nil =>
    refine ⟨fun _ => ?_, fun g => absurd (by simp [requestsAssign, requestsSlots, granted]) g⟩
    have hu : InUse mem (blocksSlots rest ++ (blocksSlots done ++ others)) := by
      refine inUse_perm hs ?_
      rw [List.perm_iff_count]
      intro a
      simp only [blocksSlots, List.flatMap_append, List.count_append]
      omega
    obtain ⟨m1, e1, i1, -⟩ := destroySlots_releases rest mem _ hu
    refine ⟨m1, [], ?_, rfl, by simp, by simpa using i1⟩
    unfold assignLoop
    simp only [Meth.get_bind, List.take_left', List.drop_left', Meth.set_bind, List.append_nil]
    exact inMemS_eval (s := ⟨mem, done⟩) e1
  | cons t ts ih =>
    unfold assignLoop
    cases rest with
    | nil =>
      simp only [Meth.get_bind, List.append_nil, List.length_nil, List.getElem?_eq_none (Nat.le_refl _)]
      have hr : requestsAssign 0 (t :: ts) = requestsSlots (t :: ts) := by simp [requestsAssign]
      rw [hr]
      rw [List.append_nil] at hs
      obtain ⟨a1, a2⟩ := copySlots_acquires (t :: ts) mem _ hs
      refine ⟨fun g => ?_, fun g => ?_⟩
      · obtain ⟨l, m1, e1, hl, i1, -⟩ := a1 g
        refine ⟨m1, l, ?_, hl, by simp, inUse_perm i1 ?_⟩
        · rw [Meth.bind_ok (inMemS_eval (s := ⟨mem, done⟩) e1)]; rfl
        · rw [List.perm_iff_count]
          intro a
          simp only [blocksSlots, List.flatMap_append, List.count_append]
          omega
      · obtain ⟨m1, e1, i1⟩ := a2 g
        refine ⟨m1, [], 0, ?_, by simp, by simp [callbacksOf], rfl, by simpa using i1⟩
        rw [Meth.bind_throw (inMemS_eval (s := ⟨mem, done⟩) e1)]; simp
    | cons d rest =>
      have hget : (done ++ d :: rest)[done.length]? = some d := by simp
      simp only [Meth.get_bind, hget]
      have hr : requestsAssign (d :: rest).length (t :: ts) = t.fn.mem.length + requestsAssign rest.length ts := by
        simp [requestsAssign]; omega
      rw [hr, granted_add]
      obtain ⟨a1, a2⟩ := copyFn_acquires t.fn mem _ hs
      by_cases g1 : granted t.fn.mem.length mem.plan
      · obtain ⟨f, m1, e1, hf, i1, p1⟩ := a1 g1
        rw [Meth.bind_ok (inMemS_eval (s := ⟨mem, done ++ d :: rest⟩) e1)]
        have hset : (done ++ d :: rest).set done.length ⟨d.node, f⟩ = (done ++ [⟨d.node, f⟩]) ++ rest := by simp
        simp only [Meth.get_bind, Meth.set_bind, hset]
        have i1' : InUse m1 (d.fn.mem ++ (blocksSlots ((done ++ [⟨d.node, f⟩]) ++ rest) ++ others)) := by
          refine inUse_perm i1 ?_
          rw [List.perm_iff_count]
          intro a
          simp only [blocksSlots, List.flatMap_append, List.flatMap_cons, List.flatMap_nil, List.append_nil, List.count_append, List.count_cons]
          omega
        obtain ⟨m2, e2, i2, p2⟩ := freeAll_releases _ m1 _ i1'
        rw [Meth.bind_ok (inMemS_eval (s := ⟨m1, (done ++ [(⟨d.node, f⟩ : Slot γ)]) ++ rest⟩) e2)]
        obtain ⟨b1, b2⟩ := ih (done ++ [⟨d.node, f⟩]) rest m2 i2
        rw [p2, p1] at b1 b2
        simp only [List.length_append, List.length_cons, List.length_nil, Nat.zero_add] at b1 b2
        refine ⟨fun g => ?_, fun g => ?_⟩
        · obtain ⟨m3, l, e3, c1, c2, c3⟩ := b1 g.2
          refine ⟨m3, ⟨d.node, f⟩ :: l, by rw [e3]; simp, ?_, ?_, by simpa using c3⟩
          · simp only [callbacksOf, List.map_cons] at c1 ⊢
            rw [c1, hf]
          · simp only [List.map_cons, List.length_cons, List.take_succ_cons, c2]
        · obtain ⟨m3, l, k, e3, c1, c2, c3, c4⟩ := b2 (fun h => g ⟨g1, h⟩)
          refine ⟨m3, ⟨d.node, f⟩ :: l, k + 1, by rw [e3]; simp, by simpa using c1, ?_, by simp [c3], by simpa using c4⟩
          simp only [callbacksOf, List.map_cons, List.take_succ_cons, List.drop_succ_cons, List.cons_append] at c2 ⊢
          rw [c2, hf]
      · refine ⟨fun g => absurd g.1 g1, fun _ => ?_⟩
        obtain ⟨m1, e1, i1⟩ := a2 g1
        refine ⟨m1, d :: rest, 0, ?_, by simp, by simp, rfl, i1⟩
        rw [Meth.bind_throw (inMemS_eval (s := ⟨mem, done ++ d :: rest⟩) e1)]

/-- C133: assigning to a signal another one gives it the same callbacks if all requests for memory succeed. Otherwise `std::bad_alloc` is thrown, no memory is lost and as many callbacks are connected as before, but the first `k` of them
are those of the other signal. -/
theorem C133_assign (src : List (Slot γ)) (s : Sig γ) {others : List Nat} (hs : InUse s.mem (blocksSlots s.slots ++ others)) :
    (granted (requestsAssign s.slots.length src) s.mem.plan → ∃ mem' l, assign src s = (.ok (), ⟨mem', l⟩) ∧ callbacksOf l = callbacksOf src ∧ InUse mem' (blocksSlots l ++ others)) ∧
    (¬ granted (requestsAssign s.slots.length src) s.mem.plan → ∃ mem' l k, assign src s = (.throw .bad_alloc, ⟨mem', l⟩) ∧ k < src.length ∧
      callbacksOf l = (callbacksOf src).take k ++ (callbacksOf s.slots).drop k ∧ l.map (·.node) = s.slots.map (·.node) ∧ InUse mem' (blocksSlots l ++ others)) := by
  obtain ⟨a1, a2⟩ := assignLoop_eval src [] s.slots s.mem (by simpa using hs)
  simp only [List.nil_append, List.length_nil] at a1 a2
  exact ⟨fun g => by obtain ⟨m, l, e, h1, -, h3⟩ := a1 g; exact ⟨m, l, e, h1, h3⟩, a2⟩

/-- C133: assignment is not all or nothing: here the second of two copies fails, and the signal is left with the first callback of the other signal and the second of its own. -/
theorem C133_assign_mixed : ∃ (src : List (Slot Nat)) (s : Sig Nat), InUse s.mem (blocksSlots s.slots ++ blocksSlots src) ∧ callbacksOf s.slots = [1, 2] ∧ callbacksOf src = [3, 4] ∧
    ∃ mem' l, assign src s = (.throw .bad_alloc, ⟨mem', l⟩) ∧ callbacksOf l = [3, 2] := by
  refine ⟨[⟨4, ⟨3, [5]⟩⟩, ⟨6, ⟨4, [7]⟩⟩], ⟨⟨[true, false], [0, 1, 2, 3, 4, 5, 6, 7], 8⟩, [⟨0, ⟨1, [1]⟩⟩, ⟨2, ⟨2, [3]⟩⟩]⟩, ⟨⟨?_, ?_⟩, ?_⟩, rfl, rfl, ?_⟩
  · show [0, 1, 2, 3, 4, 5, 6, 7].Nodup; decide
  · show ∀ b ∈ [0, 1, 2, 3, 4, 5, 6, 7], b < 8; decide
  · show [0, 1, 2, 3, 4, 5, 6, 7].Perm _; decide
  · exact ⟨_, _, rfl, rfl⟩

/-- The hypotheses hold for a signal with two callbacks, one of which owns memory, and a third one to connect. -/
example (plan : List Bool) : InUse ⟨plan, [0, 1, 2, 3], 4⟩ (blocksSlots [(⟨0, ⟨"a", [1]⟩⟩ : Slot String), ⟨2, ⟨"b", []⟩⟩] ++ ([3] ++ [])) := by
  refine ⟨⟨?_, ?_⟩, ?_⟩
  · show [0, 1, 2, 3].Nodup; decide
  · show ∀ b ∈ [0, 1, 2, 3], b < 4; decide
  · show [0, 1, 2, 3].Perm _; decide

end Utki
