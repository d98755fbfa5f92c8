import Verif.Spec.TreeAlloc
import Verif.Lemmas.Tree
/-! # Lemmas about trees and their memory -/
namespace Utki.TreeAlloc
open Utki.Spec Trav
variable {α : Type}

theorem granted_zero (plan : List Bool) : granted 0 plan := by simp [granted]

theorem granted_add (n k : Nat) (plan : List Bool) : granted (n + k) plan ↔ granted n plan ∧ granted k (plan.drop n) := by
  simp only [granted, List.take_add, List.mem_append]
  constructor
  · intro h
    exact ⟨fun b hb => h b (.inl hb), fun b hb => h b (.inr hb)⟩
  · rintro ⟨h1, h2⟩ b (hb | hb)
    · exact h1 b hb
    · exact h2 b hb

/-- An operation that asks for memory `n` times, and on success has made an object that owns the blocks `own`; on failure nothing is left. -/
def Acquires {β : Type} (m : Meth Mem β) (n : Nat) (own : β → List Nat) (good : β → Prop) : Prop :=
  ∀ s bs, InUse s bs →
    (granted n s.plan → ∃ b s', m s = (.ok b, s') ∧ good b ∧ InUse s' (own b ++ bs) ∧ s'.plan = s.plan.drop n) ∧
    (¬ granted n s.plan → ∃ s', m s = (.throw .bad_alloc, s') ∧ InUse s' bs)

/-- An operation that gives back the blocks `own`. -/
def Releases (m : Meth Mem Unit) (own : List Nat) : Prop :=
  ∀ s bs, InUse s (own ++ bs) → ∃ s', m s = (.ok (), s') ∧ InUse s' bs ∧ s'.plan = s.plan

theorem inUse_perm {m : Mem} {a b : List Nat} (h : InUse m a) (p : a.Perm b) : InUse m b := ⟨h.1, h.2.trans p⟩

theorem alloc_acquires : Acquires alloc 1 (fun b => [b]) (fun _ => True) := by
  intro s bs hs
  obtain ⟨plan, live, next⟩ := s
  have hnew : InUse ⟨plan.tail, next :: live, next + 1⟩ (next :: bs) := by
    refine ⟨⟨List.nodup_cons.mpr ⟨fun h => absurd (hs.1.fresh _ h) (Nat.lt_irrefl _), hs.1.nodup⟩, ?_⟩, hs.2.cons _⟩
    intro b hb
    rcases List.mem_cons.mp hb with rfl | hb
    · exact Nat.lt_succ_self _
    · exact Nat.lt_succ_of_lt (hs.1.fresh _ hb)
  cases plan with
  | nil => exact ⟨fun _ => ⟨next, _, rfl, trivial, hnew, rfl⟩, fun h => absurd (by simp [granted]) h⟩
  | cons a p =>
    cases a with
    | true => exact ⟨fun _ => ⟨next, _, rfl, trivial, hnew, rfl⟩, fun h => absurd (by simp [granted]) h⟩
    | false => exact ⟨fun h => absurd h (by simp [granted]), fun _ => ⟨_, rfl, ⟨hs.1.nodup, hs.1.fresh⟩, hs.2⟩⟩

theorem free_releases (b : Nat) : Releases (free b) [b] := by
  intro s bs hs
  have hm : b ∈ s.live := hs.2.mem_iff.mpr (by simp)
  refine ⟨{ s with live := s.live.erase b }, by simp [free, hm], ⟨⟨hs.1.nodup.erase _, fun c hc => hs.1.fresh c (List.mem_of_mem_erase hc)⟩, ?_⟩, rfl⟩
  have := hs.2.erase b
  simpa using this

theorem pure_releases : Releases (pure ()) [] := fun s bs hs => ⟨s, rfl, by simpa using hs, rfl⟩

theorem bind_releases {m : Meth Mem Unit} {k : Unit → Meth Mem Unit} {a b : List Nat} (h1 : Releases m a) (h2 : Releases (k ()) b) :
    Releases (m >>= k) (a ++ b) := by
  intro s bs hs
  rw [List.append_assoc] at hs
  obtain ⟨s1, e1, i1, p1⟩ := h1 s _ hs
  obtain ⟨s2, e2, i2, p2⟩ := h2 s1 _ i1
  exact ⟨s2, by rw [Meth.bind_ok e1, e2], i2, p2.trans p1⟩

theorem releases_perm {m : Meth Mem Unit} {a b : List Nat} (h : Releases m a) (p : a.Perm b) : Releases m b :=
  fun s bs hs => h s bs (inUse_perm hs (p.symm.append_right _))

theorem freeAll_releases (bs : List Nat) : Releases (freeAll bs) bs := by
  induction bs with
  | nil => exact pure_releases
  | cons b bs ih => exact bind_releases (free_releases b) ih

theorem pure_acquires {β : Type} (b : β) (own : β → List Nat) (good : β → Prop) (h : own b = []) (hg : good b) : Acquires (pure b) 0 own good := by
  intro s bs hs
  exact ⟨fun _ => ⟨b, s, rfl, hg, by simpa [h] using hs, rfl⟩, fun h => absurd (granted_zero _) h⟩

/-- Two acquisitions in a row, the first given back if the second fails. -/
theorem seq_acquires {β γ δ : Type} {m : Meth Mem β} {n1 : Nat} {own1 : β → List Nat} {good1 : β → Prop} (h1 : Acquires m n1 own1 good1)
    {k : β → Meth Mem γ} {n2 : Nat} {own2 : β → γ → List Nat} {good2 : β → γ → Prop} (h2 : ∀ b, good1 b → Acquires (k b) n2 (own2 b) (good2 b))
    {r : β → Meth Mem Unit} (hr : ∀ b, good1 b → Releases (r b) (own1 b)) {f : β → γ → δ} {own : δ → List Nat} {good : δ → Prop}
    (ho : ∀ b c, good1 b → good2 b c → (own2 b c ++ own1 b).Perm (own (f b c))) (hg : ∀ b c, good1 b → good2 b c → good (f b c)) :
    Acquires (do let b ← m; let c ← onFail (k b) (r b); return f b c) (n1 + n2) own good := by
  intro s bs hs
  rw [granted_add]
  obtain ⟨a1, a2⟩ := h1 s bs hs
  by_cases g1 : granted n1 s.plan
  · obtain ⟨b, s1, e1, gb, i1, p1⟩ := a1 g1
    obtain ⟨b1, b2⟩ := h2 b gb s1 _ i1
    rw [p1] at b1 b2
    refine ⟨fun g => ?_, fun g => ?_⟩
    · obtain ⟨c, s2, e2, gc, i2, p2⟩ := b1 g.2
      refine ⟨f b c, s2, ?_, hg b c gb gc, ?_, by rw [p2, List.drop_drop]⟩
      · rw [Meth.bind_ok e1, Meth.bind_ok (a := c) (s' := s2) (by rw [onFail, e2])]; rfl
      · refine inUse_perm i2 ?_
        rw [← List.append_assoc]
        exact (ho b c gb gc).append_right _
    · obtain ⟨s2, e2, i2⟩ := b2 (fun h => g ⟨g1, h⟩)
      obtain ⟨s3, e3, i3, _⟩ := hr b gb s2 bs i2
      exact ⟨s3, by rw [Meth.bind_ok e1, Meth.bind_throw (e := .bad_alloc) (s' := s3) (by simp [onFail, e2, e3])], i3⟩
  · refine ⟨fun g => absurd g.1 g1, fun _ => ?_⟩
    obtain ⟨s1, e1, i1⟩ := a2 g1
    exact ⟨s1, by rw [Meth.bind_throw e1], i1⟩

/-- The same with the last step under the protection. -/
theorem seq_acquires' {β δ : Type} {m : Meth Mem β} {n1 : Nat} {own1 : β → List Nat} {good1 : β → Prop} (h1 : Acquires m n1 own1 good1)
    {k : β → Meth Mem δ} {n2 : Nat} {own2 : β → δ → List Nat} {good2 : β → δ → Prop} (h2 : ∀ b, good1 b → Acquires (k b) n2 (own2 b) (good2 b))
    {r : β → Meth Mem Unit} (hr : ∀ b, good1 b → Releases (r b) (own1 b)) {own : δ → List Nat} {good : δ → Prop}
    (ho : ∀ b c, good1 b → good2 b c → (own2 b c ++ own1 b).Perm (own c)) (hg : ∀ b c, good1 b → good2 b c → good c) :
    Acquires (do let b ← m; onFail (k b) (r b)) (n1 + n2) own good := by
  intro s bs hs
  obtain ⟨a1, a2⟩ := seq_acquires (f := fun _ c => c) h1 h2 hr ho hg s bs hs
  have e : (m >>= fun b => onFail (k b) (r b)) s = (m >>= fun b => onFail (k b) (r b) >>= fun c => pure c) s := by
    simp only [Meth.bind_apply, Meth.bind]
    rcases m s with ⟨r1, s1⟩
    cases r1 <;> simp only
    rename_i b
    rcases onFail (k b) (r b) s1 with ⟨r2, s2⟩
    cases r2 <;> rfl
  rw [e]
  exact ⟨a1, a2⟩

theorem acquires_mono {β : Type} {m : Meth Mem β} {n : Nat} {own own' : β → List Nat} {good good' : β → Prop} (h : Acquires m n own good)
    (ho : ∀ b, good b → (own b).Perm (own' b)) (hg : ∀ b, good b → good' b) : Acquires m n own' good' := by
  intro s bs hs
  refine ⟨fun g => ?_, (h s bs hs).2⟩
  obtain ⟨b, s', e, gb, i, p⟩ := (h s bs hs).1 g
  exact ⟨b, s', e, hg b gb, inUse_perm i ((ho b gb).append_right _), p⟩

theorem copyValue_acquires (m : List Nat) : Acquires (copyValue m) m.length (fun b => b) (fun b => b.length = m.length) := by
  induction m with
  | nil => exact pure_acquires _ _ _ rfl rfl
  | cons a m ih =>
    rw [List.length_cons, Nat.add_comm]
    exact seq_acquires (f := fun b r => b :: r) alloc_acquires (fun _ _ => ih) (fun b _ => free_releases b)
      (fun b c _ _ => by simpa using List.perm_append_comm (l₁ := c) (l₂ := [b])) (fun b c _ hc => by simp [hc]; omega)

mutual
theorem destroyTree_releases : ∀ t : MTree α, Releases (destroyTree t) (blocksTree t)
  | .node c cs => by
    rw [destroyTree, blocksTree]
    refine releases_perm (bind_releases (destroyList_releases cs) (bind_releases (freeAll_releases _) (freeAll_releases _))) ?_
    rw [List.perm_iff_count]
    intro a
    simp only [List.count_append]
    omega
theorem destroyList_releases : ∀ ts : List (MTree α), Releases (destroyList ts) (blocksList ts)
  | [] => pure_releases
  | t :: ts => bind_releases (destroyTree_releases t) (destroyList_releases ts)
end

theorem plainList_length (ts : List (MTree α)) : (plainList ts).length = ts.length := by
  induction ts with
  | nil => rfl
  | cons t ts ih => simp [plainList, ih]

mutual
theorem copyTree_acquires : ∀ t : MTree α, Acquires (copyTree t) (requestsTree t) blocksTree (fun u => plainTree u = plainTree t)
  | .node c [] => by
    rw [copyTree, requestsTree]
    refine seq_acquires' (copyValue_acquires c.mem) (n2 := 0) (own2 := fun _ _ => []) (good2 := fun b u => u = .node ⟨c.val, b, none, 0⟩ []) (fun b _ => ?_) (fun b _ => freeAll_releases b) ?_ ?_
    · exact pure_acquires _ _ _ rfl rfl
    · rintro b _ _ rfl; simp [blocksTree, blocksList]
    · rintro b _ _ rfl; simp [plainTree, plainList]
  | .node c (d :: ds) => by
    rw [copyTree, requestsTree]
    refine seq_acquires' (copyValue_acquires c.mem) (own2 := fun b u => u.value.buf.toList ++ blocksList u.children)
      (good2 := fun b u => u.value.mem = b ∧ u.value.val = c.val ∧ plainList u.children = plainList (d :: ds)) (fun b _ => ?_) (fun b _ => freeAll_releases b) ?_ ?_
    · refine seq_acquires (f := fun b' es => Tree.node ⟨c.val, b, some b', (d :: ds).length⟩ es) alloc_acquires (fun _ _ => copyList_acquires (d :: ds)) (fun b _ => free_releases b) ?_ ?_
      · intro b' c' _ _
        simpa [Tree.value, Tree.children] using List.perm_append_comm (l₁ := blocksList c') (l₂ := [b'])
      · intro b' c' _ h
        exact ⟨rfl, rfl, h⟩
    · rintro b ⟨cell, us⟩ _ ⟨h1, -, -⟩
      simp only [Tree.value, Tree.children] at h1 ⊢
      rw [blocksTree, h1]
      exact List.perm_append_comm
    · rintro b ⟨cell, us⟩ _ ⟨-, h2, h3⟩
      simp only [Tree.value, Tree.children] at h2 h3
      rw [plainTree, plainTree, h2, h3]
theorem copyList_acquires : ∀ ts : List (MTree α), Acquires (copyList ts) (requestsList ts) blocksList (fun us => plainList us = plainList ts)
  | [] => pure_acquires _ _ _ rfl rfl
  | t :: ts => by
    rw [copyList, requestsList]
    refine seq_acquires (f := fun u us => u :: us) (copyTree_acquires t) (fun _ _ => copyList_acquires ts) (fun u _ => destroyTree_releases u) ?_ ?_
    · intro u us _ _
      rw [blocksList]
      exact List.perm_append_comm
    · intro u us h1 h2
      rw [plainList, plainList, h1, h2]
end

theorem copyBuf_acquires {β : Type} (v : List β) (h : v ≠ []) : Acquires (copyBuf v) 1 (fun b => b) (fun _ => True) := by
  have e : copyBuf v = (do let b ← alloc; let c ← onFail (pure ()) (free b); return (fun b _ => [b]) b c) := by
    rw [copyBuf, if_neg (by simpa using h)]; rfl
  rw [e]
  exact seq_acquires (n2 := 0) (own2 := fun _ _ => []) (good2 := fun _ _ => True) alloc_acquires (fun _ _ => pure_acquires _ _ _ rfl trivial) (fun b _ => free_releases b) (fun _ _ _ _ => by simp) (fun _ _ _ _ => trivial)

theorem copyIt_acquires (i : It) (h1 : i.it.list_stack ≠ []) (h2 : i.it.iter_stack ≠ []) : Acquires (copyIt i) 2 It.mem (fun j => j.it = i.it) := by
  exact seq_acquires (f := fun a b => (⟨i.it, a ++ b⟩ : It)) (copyBuf_acquires _ h1) (fun _ _ => copyBuf_acquires _ h2) (fun b _ => freeAll_releases b)
    (fun a b _ _ => List.perm_append_comm) (fun _ _ _ _ => rfl)

/-! ## Vectors in trees -/

theorem plainList_getElem? (ts : List (MTree α)) (i : Nat) : (plainList ts)[i]? = ts[i]?.map plainTree := by
  induction ts generalizing i with
  | nil => simp [plainList]
  | cons t ts ih => cases i <;> simp [plainList, ih]

theorem plainList_set (ts : List (MTree α)) (i : Nat) (t : MTree α) : plainList (ts.set i t) = (plainList ts).set i (plainTree t) := by
  induction ts generalizing i with
  | nil => simp [plainList]
  | cons u ts ih => cases i <;> simp [plainList, ih]

theorem plainList_insertIdx (ts : List (MTree α)) (i : Nat) (t : MTree α) : plainList (ts.insertIdx i t) = (plainList ts).insertIdx i (plainTree t) := by
  induction ts generalizing i with
  | nil => cases i <;> simp [plainList]
  | cons u ts ih => cases i <;> simp [plainList, ih]

theorem plainList_eraseIdx (ts : List (MTree α)) (i : Nat) : plainList (ts.eraseIdx i) = (plainList ts).eraseIdx i := by
  induction ts generalizing i with
  | nil => simp [plainList]
  | cons u ts ih => cases i <;> simp [plainList, ih]

theorem plainTree_children (t : MTree α) : (plainTree t).children = plainList t.children := by
  cases t; simp [plainTree, Tree.children]
theorem plainTree_value (t : MTree α) : (plainTree t).value = t.value.val := by
  cases t; simp [plainTree, Tree.value]

theorem listAt_plain (v : Vec α) (p : Path) : listAt (plainList v.elems) p = (v.at p).map (fun w => plainList w.elems) := by
  induction p generalizing v with
  | nil => simp [listAt, Vec.at]
  | cons i p ih =>
    rw [listAt, Vec.at, plainList_getElem?]
    cases v.elems[i]? with
    | none => simp
    | some t =>
      simp only [Option.map_some]
      rw [plainTree_children, ← ih (vecOf t)]; rfl

theorem modify_plain (g : Vec α → Vec α) (g' : List (Tree α) → List (Tree α)) (v : Vec α) (p : Path) (w : Vec α) (h : v.at p = some w)
    (hg : plainList (g w).elems = g' (plainList w.elems)) :
    plainList (v.modify g p).elems = Trav.modify g' (plainList v.elems) p := by
  induction p generalizing v with
  | nil => simp only [Vec.at, Option.some.injEq] at h; subst h; simpa [Vec.modify, Trav.modify] using hg
  | cons i p ih =>
    rw [Vec.modify, Trav.modify, plainList_getElem?]
    rw [Vec.at] at h
    cases hi : v.elems[i]? with
    | none => simp [hi] at h
    | some t =>
      simp only [hi] at h
      simp only [Option.map_some]
      rw [plainList_set, withVec, plainTree, ih (vecOf t) h, plainTree_value, plainTree_children]; rfl

theorem count_blocksList_set (a : Nat) (ts : List (MTree α)) (i : Nat) (t u : MTree α) (h : ts[i]? = some t) :
    (blocksList (ts.set i u)).count a + (blocksTree t).count a = (blocksList ts).count a + (blocksTree u).count a := by
  induction ts generalizing i with
  | nil => simp at h
  | cons x ts ih =>
    cases i with
    | zero =>
      simp only [List.getElem?_cons_zero, Option.some.injEq] at h
      subst h
      simp only [List.set_cons_zero, blocksList, List.count_append]
      omega
    | succ i =>
      simp only [List.getElem?_cons_succ] at h
      have := ih i h
      simp only [List.set_cons_succ, blocksList, List.count_append]
      omega

theorem count_blocksList_insertIdx (a : Nat) (ts : List (MTree α)) (i : Nat) (t : MTree α) (h : i ≤ ts.length) :
    (blocksList (ts.insertIdx i t)).count a = (blocksList ts).count a + (blocksTree t).count a := by
  induction ts generalizing i with
  | nil =>
    obtain rfl : i = 0 := by simpa using h
    simp [blocksList]
  | cons x ts ih =>
    cases i with
    | zero => simp [blocksList]; omega
    | succ i =>
      have := ih i (by simpa using h)
      simp only [List.insertIdx_succ_cons, blocksList, List.count_append]
      omega

theorem count_blocksList_eraseIdx (a : Nat) (ts : List (MTree α)) (i : Nat) (t : MTree α) (h : ts[i]? = some t) :
    (blocksList (ts.eraseIdx i)).count a + (blocksTree t).count a = (blocksList ts).count a := by
  induction ts generalizing i with
  | nil => simp at h
  | cons x ts ih =>
    cases i with
    | zero =>
      simp only [List.getElem?_cons_zero, Option.some.injEq] at h
      subst h
      simp only [List.eraseIdx_cons_zero, blocksList, List.count_append]
      omega
    | succ i =>
      simp only [List.getElem?_cons_succ] at h
      have := ih i h
      simp only [List.eraseIdx_cons_succ, blocksList, List.count_append]
      omega

theorem count_blocksTree (a : Nat) (t : MTree α) : (blocksTree t).count a = t.value.mem.count a + (blocksVec (vecOf t)).count a := by
  cases t; simp [blocksTree, blocksVec, vecOf, Tree.value, Tree.children]

theorem count_blocks_withVec (a : Nat) (t : MTree α) (v : Vec α) : (blocksTree (withVec t v)).count a = t.value.mem.count a + (blocksVec v).count a := by
  simp [withVec, blocksTree, blocksVec]

theorem count_blocks_modify (a : Nat) (g : Vec α → Vec α) (v : Vec α) (p : Path) (w : Vec α) (h : v.at p = some w) :
    (blocksVec (v.modify g p)).count a + (blocksVec w).count a = (blocksVec v).count a + (blocksVec (g w)).count a := by
  induction p generalizing v with
  | nil => simp only [Vec.at, Option.some.injEq] at h; subst h; simp only [Vec.modify]; omega
  | cons i p ih =>
    rw [Vec.modify]
    rw [Vec.at] at h
    cases hi : v.elems[i]? with
    | none => simp [hi] at h
    | some t =>
      simp only [hi] at h
      simp only
      have h1 := ih (vecOf t) h
      have h2 := count_blocksList_set a v.elems i t (withVec t ((vecOf t).modify g p)) hi
      rw [count_blocks_withVec, count_blocksTree] at h2
      simp only [blocksVec, List.count_append] at h1 h2 ⊢
      omega

end Utki.TreeAlloc
