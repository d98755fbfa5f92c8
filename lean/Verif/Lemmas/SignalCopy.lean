import Verif.Spec.SignalCopy
import Verif.Lemmas.Hoare
import Mathlib.Data.List.Nodup
/-!
# Helper lemmas for copies of signals
-/
namespace Utki
open Spec SignalCopy

variable {γ α σ : Type}

namespace SignalCopy

theorem fresh_snd (n : Nat) (cs : List γ) : (fresh n cs).map (·.2) = cs := by
  induction cs generalizing n with
  | nil => rfl
  | cons c cs ih => simp [fresh, ih]

theorem fresh_fst (n : Nat) (cs : List γ) : (fresh n cs).map (·.1) = List.range' n cs.length := by
  induction cs generalizing n with
  | nil => rfl
  | cons c cs ih => simp [fresh, ih, List.range'_succ]

theorem emitNodes_fst (call : γ → α → σ → Res Unit × γ × σ) (moved : α → α) (l : List (Nat × γ)) (a : α) (u : σ) :
    (emitNodes call moved l a u).2.1.map (·.1) = l.map (·.1) := by
  induction l generalizing a u with
  | nil => rfl
  | cons p rest ih =>
    obtain ⟨i, c⟩ := p
    unfold emitNodes
    rcases call c a u with ⟨r, c', u'⟩
    cases r <;> simp [ih]

theorem emitNodes_eq (call : γ → α → σ → Res Unit × γ × σ) (moved : α → α) (l : List (Nat × γ)) (a : α) (u : σ) :
    (emitNodes call moved l a u).1 = (callEach call moved (l.map (·.2)) a u).1 ∧
    (emitNodes call moved l a u).2.1.map (·.2) = (callEach call moved (l.map (·.2)) a u).2.1 ∧
    (emitNodes call moved l a u).2.2 = (callEach call moved (l.map (·.2)) a u).2.2 := by
  induction l generalizing a u with
  | nil => exact ⟨rfl, rfl, rfl⟩
  | cons p rest ih =>
    obtain ⟨i, c⟩ := p
    simp only [List.map_cons]
    unfold emitNodes callEach
    rcases call c a u with ⟨r, c', u'⟩
    cases r <;> simp [ih]

/-- The node `i` belongs to the signal `t`. -/
def NodeOf (x : Sys γ σ) (t i : Nat) : Prop := ∃ l : List (Nat × γ), x.sigs[t]? = some (some l) ∧ i ∈ l.map (·.1)

structure Inv (x : Sys γ σ) (b : Book) : Prop where
  made : x.conns.length = b.made
  conn_lt : ∀ i ∈ x.conns, i < x.next
  conn_nodup : x.conns.Nodup
  node_lt : ∀ t i, NodeOf x t i → i < x.next
  node_nodup : ∀ (t : Nat) (l : List (Nat × γ)), x.sigs[t]? = some (some l) → (l.map (·.1)).Nodup
  one : ∀ t t' i, NodeOf x t i → NodeOf x t' i → t = t'
  valid : ∀ j t, (j, t) ∈ b.valid ↔ ∃ i, x.conns[j]? = some i ∧ NodeOf x t i

theorem lt_of_sig {x : Sys γ σ} {s : Nat} {l : List (Nat × γ)} (h : x.sigs[s]? = some (some l)) : s < x.sigs.length :=
  (List.getElem?_eq_some_iff.mp h).1

theorem sig_set {x : Sys γ σ} {s : Nat} {l : List (Nat × γ)} (h : x.sigs[s]? = some (some l)) (v : Option (List (Nat × γ))) (t : Nat) :
    (x.sigs.set s v)[t]? = if t = s then some v else x.sigs[t]? := by
  rw [List.getElem?_set]
  by_cases e : t = s
  · subst e; simp [lt_of_sig h]
  · rw [if_neg (Ne.symm e), if_neg e]

theorem sig_append (x : Sys γ σ) (v : Option (List (Nat × γ))) (t : Nat) :
    (x.sigs ++ [v])[t]? = if t = x.sigs.length then some v else x.sigs[t]? := by
  by_cases e : t = x.sigs.length
  · subst e; simp
  · rw [if_neg e, List.getElem?_append]
    split
    · rfl
    · rw [List.getElem?_eq_none (by simp; omega), List.getElem?_eq_none (by omega)]

/-- What each operation does to signals that exist. -/
def StepSpec (dbg : Bool) (call : γ → α → σ → Res Unit × γ × σ) (moved : α → α) (o : Op γ α) (x x' : Sys γ σ) (r : Res Unit) : Prop :=
    match o with
    | .create => r = .ok () ∧ x' = { x with sigs := x.sigs ++ [some []] }
    | .copy s => (∃ l, x.sigs[s]? = some (some l) ∧ r = .ok () ∧
        x' = { x with sigs := x.sigs ++ [some (fresh x.next (l.map (·.2)))], next := x.next + l.length }) ∨ r = .ub .use_after_free
    | .assign s t => (∃ l m, x.sigs[s]? = some (some m) ∧ x.sigs[t]? = some (some l) ∧ r = .ok () ∧
        x' = { x with sigs := x.sigs.set s (some (fresh x.next (l.map (·.2)))), next := x.next + l.length }) ∨ r = .ub .use_after_free
    | .connect s c => (∃ l, x.sigs[s]? = some (some l) ∧ r = .ok () ∧
        x' = { x with sigs := x.sigs.set s (some (l ++ [(x.next, c)])), conns := x.conns ++ [x.next], next := x.next + 1 }) ∨
        r = .ub .use_after_free
    | .disconnect s j => (∃ l i, x.sigs[s]? = some (some l) ∧ x.conns[j]? = some i ∧ i ∈ l.map (·.1) ∧ r = .ok () ∧
        x' = { x with sigs := x.sigs.set s (some (l.filter (fun n => n.1 != i))) }) ∨
        (r = .ub .use_after_free ∧ ¬ ∃ i, x.conns[j]? = some i ∧ NodeOf x s i)
    | .emit s a => (∃ l, x.sigs[s]? = some (some l) ∧ r = (emitNodes call moved l a x.user).1 ∧
        x' = { x with sigs := x.sigs.set s (some (emitNodes call moved l a x.user).2.1), user := (emitNodes call moved l a x.user).2.2 }) ∨
        r = .ub .use_after_free
    | .destroy s => (∃ l, x.sigs[s]? = some (some l) ∧ (dbg = true → l = []) ∧ r = .ok () ∧ x' = { x with sigs := x.sigs.set s none }) ∨
        r = .ub .use_after_free ∨ (∃ l, x.sigs[s]? = some (some l) ∧ dbg = true ∧ l ≠ [] ∧ r = .abort)

theorem step_ok {dbg : Bool} {call : γ → α → σ → Res Unit × γ × σ} {moved : α → α} {o : Op γ α} {x x' : Sys γ σ} {r : Res Unit}
    (h : step dbg call moved o x = (r, x')) : StepSpec dbg call moved o x x' r := by
  have key : ∀ s, (∃ l, x.sigs[s]? = some (some l) ∧ getSig (γ := γ) s x = (.ok l, x)) ∨
      ((∀ l, x.sigs[s]? ≠ some (some l)) ∧ getSig (γ := γ) s x = (.ub .use_after_free, x)) := by
    intro s
    unfold getSig
    rcases hs : x.sigs[s]? with _ | _ | l <;> simp
  unfold StepSpec
  cases o with
  | create => simp [step] at h ⊢; exact ⟨h.1.symm, h.2.symm⟩
  | copy s =>
    simp only [step] at h ⊢
    rcases key s with ⟨l, e, g⟩ | ⟨e, g⟩
    · rw [Meth.bind_ok g] at h
      cases h
      exact .inl ⟨l, e, rfl, rfl⟩
    · rw [Meth.bind_ub g] at h; cases h; exact .inr rfl
  | assign s t =>
    simp only [step] at h ⊢
    rcases key s with ⟨m, es, g⟩ | ⟨e, g⟩
    · rw [Meth.bind_ok g] at h
      rcases key t with ⟨l, e, g⟩ | ⟨e, g⟩
      · rw [Meth.bind_ok g] at h; cases h; exact .inl ⟨l, m, es, e, rfl, rfl⟩
      · rw [Meth.bind_ub g] at h; cases h; exact .inr rfl
    · rw [Meth.bind_ub g] at h; cases h; exact .inr rfl
  | connect s c =>
    simp only [step] at h ⊢
    rcases key s with ⟨l, e, g⟩ | ⟨e, g⟩
    · rw [Meth.bind_ok g] at h; cases h; exact .inl ⟨l, e, rfl, rfl⟩
    · rw [Meth.bind_ub g] at h; cases h; exact .inr rfl
  | disconnect s j =>
    simp only [step] at h ⊢
    rcases key s with ⟨l, e, g⟩ | ⟨e, g⟩
    · rw [Meth.bind_ok g, Meth.get_bind] at h
      rcases hc : x.conns[j]? with _ | i
      · simp only [hc] at h; cases h; exact .inr ⟨rfl, by simp⟩
      · simp only [hc] at h
        by_cases hi : i ∈ l.map (·.1)
        · rw [if_pos (by simpa [List.any_eq_true] using hi)] at h
          cases h; exact .inl ⟨l, i, e, rfl, hi, rfl, rfl⟩
        · rw [if_neg (by simpa [List.any_eq_true] using hi)] at h
          cases h; refine .inr ⟨rfl, ?_⟩
          rintro ⟨i', e', l', e2, h2⟩
          cases e'; rw [e] at e2; cases e2; exact hi h2
    · rw [Meth.bind_ub g] at h; cases h; refine .inr ⟨rfl, ?_⟩
      rintro ⟨i', e', l', e2, h2⟩
      exact e _ e2
  | emit s a =>
    simp only [step] at h ⊢
    rcases key s with ⟨l, e, g⟩ | ⟨e, g⟩
    · rw [Meth.bind_ok g] at h; cases h; exact .inl ⟨l, e, rfl, rfl⟩
    · rw [Meth.bind_ub g] at h; cases h; exact .inr rfl
  | destroy s =>
    simp only [step] at h ⊢
    rcases key s with ⟨l, e, g⟩ | ⟨e, g⟩
    · rw [Meth.bind_ok g] at h
      by_cases hd : dbg = true ∧ l ≠ []
      · obtain ⟨rfl, hl⟩ := hd
        rw [show (l.length == 0) = false by simpa using hl, Meth.get_bind] at h
        cases h; exact .inr (.inr ⟨l, e, rfl, hl, rfl⟩)
      · have : ASSERT dbg (l.length == 0) = .ok () := by
          cases dbg
          · rfl
          · have : l = [] := by simpa using hd
            subst this; rfl
        rw [Meth.get_bind, this] at h
        cases h
        exact .inl ⟨l, e, fun hb => Classical.byContradiction fun hl => hd ⟨hb, hl⟩, rfl, rfl⟩
    · rw [Meth.bind_ub g] at h; cases h; exact .inr (.inl rfl)

theorem Inv.change {x x' : Sys γ σ} {b b' : Book} (h : Inv x b) (s : Nat) (hm : b'.made = b.made) (hc : x'.conns = x.conns) (hle : x.next ≤ x'.next)
    (hn : ∀ t i, NodeOf x' t i → NodeOf x t i ∨ (t = s ∧ x.next ≤ i ∧ i < x'.next))
    (hd : ∀ (t : Nat) (l : List (Nat × γ)), x'.sigs[t]? = some (some l) → (l.map (·.1)).Nodup)
    (hv : ∀ j t, (j, t) ∈ b'.valid ↔ (j, t) ∈ b.valid ∧ ∃ i, x.conns[j]? = some i ∧ NodeOf x' t i) : Inv x' b' where
  made := by rw [hc, h.made, hm]
  conn_lt := by rw [hc]; intro i hi; exact Nat.lt_of_lt_of_le (h.conn_lt i hi) hle
  conn_nodup := by rw [hc]; exact h.conn_nodup
  node_lt := by
    intro t i ht
    rcases hn t i ht with h1 | ⟨_, _, h1⟩
    · exact Nat.lt_of_lt_of_le (h.node_lt t i h1) hle
    · exact h1
  node_nodup := hd
  one := by
    intro t t' i h1 h2
    rcases hn t i h1 with a | ⟨rfl, a, _⟩ <;> rcases hn t' i h2 with c | ⟨rfl, c, _⟩
    · exact h.one t t' i a c
    · exact absurd (h.node_lt _ _ a) (by omega)
    · exact absurd (h.node_lt _ _ c) (by omega)
    · rfl
  valid := by
    intro j t
    rw [hv, hc, h.valid]
    constructor
    · exact fun a => a.2
    · rintro ⟨i, e, n⟩
      refine ⟨⟨i, e, ?_⟩, i, e, n⟩
      rcases hn t i n with a | ⟨_, a, _⟩
      · exact a
      · exact absurd (h.conn_lt i (List.mem_of_getElem? e)) (by omega)

theorem fresh_mem {n i : Nat} {cs : List γ} : i ∈ (fresh n cs).map (·.1) ↔ n ≤ i ∧ i < n + cs.length := by
  rw [fresh_fst, List.mem_range'_1]

theorem fresh_nodup (n : Nat) (cs : List γ) : ((fresh n cs).map (·.1)).Nodup := by
  rw [fresh_fst]; exact List.nodup_range'

/-- Operations that end keep the invariant. -/
theorem step_inv {dbg : Bool} {call : γ → α → σ → Res Unit × γ × σ} {moved : α → α} {o : Op γ α} {x x' : Sys γ σ} {b : Book} {r : Res Unit}
    (hi : Inv x b) (h : step dbg call moved o x = (r, x')) (hr : r = .ok () ∨ ∃ e, r = .throw e) : Inv x' (b.after o) := by
  have hub : ∀ e, r ≠ .ub e := by
    rintro e rfl; rcases hr with h | ⟨_, h⟩ <;> cases h
  have hab : r ≠ .abort := by
    rintro rfl; rcases hr with h | ⟨_, h⟩ <;> cases h
  have h' := step_ok h
  unfold StepSpec at h'
  cases o with
  | create =>
    obtain ⟨-, rfl⟩ := h'
    have hn : ∀ t i, NodeOf { x with sigs := x.sigs ++ [some []] } t i ↔ NodeOf x t i := by
      intro t i
      unfold NodeOf
      simp only [sig_append]
      by_cases e : t = x.sigs.length
      · subst e; simp
      · simp [e]
    refine hi.change 0 rfl rfl (Nat.le_refl _) (fun t i a => .inl ((hn t i).1 a)) ?_ ?_
    · intro t l e
      simp only [sig_append] at e
      split at e
      · cases e; simp
      · exact hi.node_nodup t l e
    · intro j t
      simp only [hn, Book.after]
      rw [← hi.valid]; simp
  | copy s =>
    rcases h' with ⟨l, e, -, rfl⟩ | h'
    · have hn : ∀ t i, NodeOf { x with sigs := x.sigs ++ [some (fresh x.next (l.map (·.2)))], next := x.next + l.length } t i ↔
          NodeOf x t i ∨ (t = x.sigs.length ∧ x.next ≤ i ∧ i < x.next + l.length) := by
        intro t i
        unfold NodeOf
        simp only [sig_append]
        by_cases e : t = x.sigs.length
        · subst e
          simp only [if_true, Option.some.injEq, exists_eq_left', fresh_mem, List.length_map]
          simp
        · simp [e]
      refine hi.change x.sigs.length rfl rfl (by simp) (fun t i a => (hn t i).1 a) ?_ ?_
      · intro t m em
        simp only [sig_append] at em
        split at em
        · cases em; exact fresh_nodup _ _
        · exact hi.node_nodup t m em
      · intro j t
        simp only [hn, Book.after]
        constructor
        · intro hv
          obtain ⟨i, e1, e2⟩ := (hi.valid j t).1 hv
          exact ⟨hv, i, e1, .inl e2⟩
        · exact fun a => a.1
    · exact absurd h' (hub _)
  | assign s t0 =>
    rcases h' with ⟨l, m, em, e, -, rfl⟩ | h'
    · have hn : ∀ t i, NodeOf { x with sigs := x.sigs.set s (some (fresh x.next (l.map (·.2)))), next := x.next + l.length } t i ↔
          (t ≠ s ∧ NodeOf x t i) ∨ (t = s ∧ x.next ≤ i ∧ i < x.next + l.length) := by
        intro t i
        unfold NodeOf
        simp only [sig_set em]
        by_cases e : t = s
        · subst e
          simp only [if_true, Option.some.injEq, exists_eq_left', fresh_mem, List.length_map]
          simp
        · simp [e]
      refine hi.change s rfl rfl (by simp) (fun t i a => ((hn t i).1 a).imp (·.2) id) ?_ ?_
      · intro t m' em'
        simp only [sig_set em] at em'
        split at em'
        · cases em'; exact fresh_nodup _ _
        · exact hi.node_nodup t m' em'
      · intro j t
        simp only [hn, Book.after, List.mem_filter]
        constructor
        · rintro ⟨hv, hts⟩
          obtain ⟨i, e1, e2⟩ := (hi.valid j t).1 hv
          exact ⟨hv, i, e1, .inl ⟨by simpa using hts, e2⟩⟩
        · rintro ⟨hv, i, e1, ⟨a, -⟩ | ⟨rfl, a, -⟩⟩
          · exact ⟨hv, by simpa using a⟩
          · exact absurd (hi.conn_lt i (List.mem_of_getElem? e1)) (by omega)
    · exact absurd h' (hub _)
  | connect s c =>
    rcases h' with ⟨l, e, -, rfl⟩ | h'
    · have hn : ∀ t i, NodeOf { x with sigs := x.sigs.set s (some (l ++ [(x.next, c)])), conns := x.conns ++ [x.next], next := x.next + 1 } t i ↔
          NodeOf x t i ∨ (t = s ∧ i = x.next) := by
        intro t i
        unfold NodeOf
        simp only [sig_set e]
        by_cases et : t = s
        · subst et
          simp only [if_true, Option.some.injEq, exists_eq_left', e, List.map_append, List.mem_append, List.map_cons, List.map_nil,
            List.mem_singleton, true_and]
        · simp [et]
      refine ⟨by simp [Book.after, hi.made], ?_, ?_, ?_, ?_, ?_, ?_⟩
      · intro i hm
        simp only [List.mem_append, List.mem_singleton] at hm
        rcases hm with hm | rfl
        · exact Nat.lt_succ_of_lt (hi.conn_lt i hm)
        · exact Nat.lt_succ_self _
      · rw [List.nodup_append]
        refine ⟨hi.conn_nodup, by simp, ?_⟩
        intro i hm i' hm'
        rw [List.mem_singleton] at hm'
        have := hi.conn_lt i hm
        omega
      · intro t i ht
        rcases (hn t i).1 ht with a | ⟨_, rfl⟩
        · exact Nat.lt_succ_of_lt (hi.node_lt t i a)
        · exact Nat.lt_succ_self _
      · intro t m em
        simp only [sig_set e] at em
        split at em
        · cases em
          rw [List.map_append, List.nodup_append]
          refine ⟨hi.node_nodup s l e, by simp, ?_⟩
          rintro i h1 i' h2 rfl
          simp only [List.map_cons, List.map_nil, List.mem_singleton] at h2
          subst h2
          exact Nat.lt_irrefl _ (hi.node_lt s _ ⟨l, e, h1⟩)
        · exact hi.node_nodup t m em
      · intro t t' i h1 h2
        rcases (hn t i).1 h1 with a | ⟨rfl, h0⟩ <;> rcases (hn t' i).1 h2 with c | ⟨rfl, h3⟩
        · exact hi.one t t' i a c
        · exact absurd (hi.node_lt _ _ a) (by omega)
        · exact absurd (hi.node_lt _ _ c) (by omega)
        · rfl
      · intro j t
        simp only [hn, Book.after, List.mem_append, List.mem_singleton, Prod.mk.injEq, hi.valid, ← hi.made]
        constructor
        · rintro (⟨i, e1, e2⟩ | ⟨rfl, rfl⟩)
          · exact ⟨i, by rw [List.getElem?_append_left (List.getElem?_eq_some_iff.mp e1).1]; exact e1, .inl e2⟩
          · exact ⟨x.next, by simp, .inr ⟨rfl, rfl⟩⟩
        · rintro ⟨i, e1, e2⟩
          by_cases hj : j < x.conns.length
          · rw [List.getElem?_append_left hj] at e1
            rcases e2 with e2 | ⟨rfl, rfl⟩
            · exact .inl ⟨i, e1, e2⟩
            · exact absurd (hi.conn_lt _ (List.mem_of_getElem? e1)) (Nat.lt_irrefl _)
          · have hj' : j = x.conns.length := by
              have := (List.getElem?_eq_some_iff.mp e1).1
              simp at this; omega
            subst hj'
            simp only [List.getElem?_concat_length, Option.some.injEq] at e1
            subst e1
            rcases e2 with e2 | ⟨rfl, -⟩
            · exact absurd (hi.node_lt _ _ e2) (Nat.lt_irrefl _)
            · exact .inr ⟨rfl, rfl⟩
    · exact absurd h' (hub _)
  | disconnect s j0 =>
    rcases h' with ⟨l, i0, e, e0, hm, -, rfl⟩ | h'
    · have hn : ∀ t i, NodeOf { x with sigs := x.sigs.set s (some (l.filter (fun n => n.1 != i0))) } t i ↔ NodeOf x t i ∧ i ≠ i0 := by
        intro t i
        unfold NodeOf
        simp only [sig_set e]
        by_cases et : t = s
        · subst et
          simp only [if_true, Option.some.injEq, exists_eq_left', e, List.mem_map, List.mem_filter, bne_iff_ne, ne_eq]
          constructor
          · rintro ⟨p, ⟨h1, h2⟩, rfl⟩; exact ⟨⟨p, h1, rfl⟩, h2⟩
          · rintro ⟨⟨p, h1, rfl⟩, h2⟩; exact ⟨p, ⟨h1, h2⟩, rfl⟩
        · simp only [if_neg et]
          constructor
          · rintro ⟨m, h1, h2⟩
            refine ⟨⟨m, h1, h2⟩, ?_⟩
            rintro rfl
            exact et (hi.one t s i ⟨m, h1, h2⟩ ⟨l, e, hm⟩)
          · exact fun a => a.1
      refine hi.change 0 rfl rfl (Nat.le_refl _) (fun t i a => .inl ((hn t i).1 a).1) ?_ ?_
      · intro t m em
        simp only [sig_set e] at em
        split at em
        · cases em
          exact List.Nodup.sublist (List.filter_sublist.map _) (hi.node_nodup s l e)
        · exact hi.node_nodup t m em
      · intro j t
        simp only [hn, Book.after, List.mem_filter, bne_iff_ne, ne_eq]
        constructor
        · rintro ⟨hv, hj⟩
          obtain ⟨i, e1, e2⟩ := (hi.valid j t).1 hv
          refine ⟨hv, i, e1, e2, ?_⟩
          rintro rfl
          obtain ⟨l1, q1⟩ := List.getElem?_eq_some_iff.mp e1
          obtain ⟨l2, q2⟩ := List.getElem?_eq_some_iff.mp e0
          exact hj ((List.Nodup.getElem_inj_iff hi.conn_nodup).1 (q1.trans q2.symm))
        · rintro ⟨hv, i, e1, -, hne⟩
          refine ⟨hv, ?_⟩
          rintro rfl
          rw [e0] at e1; cases e1; exact hne rfl
    · exact absurd h'.1 (hub _)
  | emit s a =>
    rcases h' with ⟨l, e, -, rfl⟩ | h'
    · have hn : ∀ t i, NodeOf { x with sigs := x.sigs.set s (some (emitNodes call moved l a x.user).2.1), user := (emitNodes call moved l a x.user).2.2 } t i ↔
          NodeOf x t i := by
        intro t i
        unfold NodeOf
        simp only [sig_set e]
        by_cases et : t = s
        · subst et
          simp only [if_true, Option.some.injEq, exists_eq_left', e, emitNodes_fst]
        · simp [et]
      refine hi.change 0 rfl rfl (Nat.le_refl _) (fun t i a => .inl ((hn t i).1 a)) ?_ ?_
      · intro t m em
        simp only [sig_set e] at em
        split at em
        · cases em
          rw [emitNodes_fst]; exact hi.node_nodup s l e
        · exact hi.node_nodup t m em
      · intro j t
        simp only [hn, Book.after]
        rw [← hi.valid]; simp
    · exact absurd h' (hub _)
  | destroy s =>
    rcases h' with ⟨l, e, -, -, rfl⟩ | h' | ⟨_, _, _, _, h'⟩
    · have hn : ∀ t i, NodeOf { x with sigs := x.sigs.set s none } t i ↔ t ≠ s ∧ NodeOf x t i := by
        intro t i
        unfold NodeOf
        simp only [sig_set e]
        by_cases et : t = s
        · simp [et]
        · simp [et]
      refine hi.change 0 rfl rfl (Nat.le_refl _) (fun t i a => .inl ((hn t i).1 a).2) ?_ ?_
      · intro t m em
        simp only [sig_set e] at em
        split at em
        · cases em
        · exact hi.node_nodup t m em
      · intro j t
        simp only [hn, Book.after, List.mem_filter, bne_iff_ne, ne_eq]
        constructor
        · rintro ⟨hv, hts⟩
          obtain ⟨i, e1, e2⟩ := (hi.valid j t).1 hv
          exact ⟨hv, i, e1, hts, e2⟩
        · rintro ⟨hv, i, e1, hts, -⟩
          exact ⟨hv, hts⟩
    · exact absurd h' (hub _)
    · exact absurd h' hab

/-- A step of a history that goes on. -/
theorem run_cons {dbg : Bool} {call : γ → α → σ → Res Unit × γ × σ} {moved : α → α} {o : Op γ α} {os : List (Op γ α)} {x y : Sys γ σ}
    (h : run dbg call moved (o :: os) x = some y) :
    ∃ r x', step dbg call moved o x = (r, x') ∧ (r = .ok () ∨ ∃ e, r = .throw e) ∧ run dbg call moved os x' = some y := by
  unfold run at h
  rcases hs : step dbg call moved o x with ⟨r, x'⟩
  rw [hs] at h
  cases r with
  | ok u => exact ⟨_, _, rfl, .inl rfl, h⟩
  | throw e => exact ⟨_, _, rfl, .inr ⟨e, rfl⟩, h⟩
  | ub _ => cases h
  | abort => cases h
  | terminate => cases h
  | diverge => cases h

theorem run_inv {dbg : Bool} {call : γ → α → σ → Res Unit × γ × σ} {moved : α → α} {os : List (Op γ α)} {x y : Sys γ σ} {b : Book}
    (hi : Inv x b) (h : run dbg call moved os x = some y) : Inv y (os.foldl Book.after b) := by
  induction os generalizing x b with
  | nil => cases h; exact hi
  | cons o os ih =>
    obtain ⟨r, x', hs, hr, hrun⟩ := run_cons h
    exact ih (step_inv hi hs hr) hrun

theorem init_inv (u : σ) : Inv (init (γ := γ) u) ⟨0, []⟩ where
  made := rfl
  conn_lt := by simp [init]
  conn_nodup := by simp [init]
  node_lt := by rintro t i ⟨l, e, _⟩; simp [init] at e
  node_nodup := by intro t l e; simp [init] at e
  one := by rintro t t' i ⟨l, e, _⟩; simp [init] at e
  valid := by simp [init]

theorem callbacks_some {x : Sys γ σ} {s : Nat} {cs : List γ} (h : callbacks x s = some cs) :
    ∃ l, x.sigs[s]? = some (some l) ∧ l.map (·.2) = cs := by
  unfold callbacks at h
  split at h
  · rename_i l e; exact ⟨l, e, by simpa using h⟩
  · cases h

/-- The copied nodes of a signal: those that belong to no connection. -/
def loose (x : Sys γ σ) (l : List (Nat × γ)) : Nat := (l.filter (fun n => !x.conns.contains n.1)).length

theorem step_loose {dbg : Bool} {call : γ → α → σ → Res Unit × γ × σ} {moved : α → α} {o : Op γ α} {x x' : Sys γ σ} {b : Book} {r : Res Unit}
    (hi : Inv x b) (h : step dbg call moved o x = (r, x')) (hr : r = .ok () ∨ ∃ e, r = .throw e) {t : Nat} {l : List (Nat × γ)}
    (e : x.sigs[t]? = some (some l)) (h1 : ∀ s, o ≠ .assign t s) (h2 : o ≠ .destroy t) :
    ∃ l', x'.sigs[t]? = some (some l') ∧ loose x l ≤ loose x' l' := by
  have hub : ∀ e, r ≠ .ub e := by
    rintro e rfl; rcases hr with h | ⟨_, h⟩ <;> cases h
  have hab : r ≠ .abort := by
    rintro rfl; rcases hr with h | ⟨_, h⟩ <;> cases h
  have hlen := lt_of_sig e
  have h' := step_ok h
  unfold StepSpec at h'
  cases o with
  | create =>
    obtain ⟨-, rfl⟩ := h'
    exact ⟨l, by rw [sig_append, if_neg (by omega), e], Nat.le_refl _⟩
  | copy s =>
    rcases h' with ⟨m, _, -, rfl⟩ | h'
    · exact ⟨l, by rw [sig_append, if_neg (by omega), e], Nat.le_refl _⟩
    · exact absurd h' (hub _)
  | assign s t0 =>
    rcases h' with ⟨m, m', em, _, -, rfl⟩ | h'
    · exact ⟨l, by rw [sig_set em, if_neg (by rintro rfl; exact h1 _ rfl), e], Nat.le_refl _⟩
    · exact absurd h' (hub _)
  | connect s c =>
    rcases h' with ⟨m, em, -, rfl⟩ | h'
    · have hsame : loose { x with sigs := x.sigs.set s (some (m ++ [(x.next, c)])), conns := x.conns ++ [x.next], next := x.next + 1 } l = loose x l := by
        unfold loose
        congr 1
        apply List.filter_congr
        rintro ⟨i, f⟩ hm
        have := hi.node_lt t i ⟨l, e, List.mem_map.2 ⟨_, hm, rfl⟩⟩
        have hne : i ≠ x.next := by omega
        simp [hne]
      by_cases et : t = s
      · subst et
        rw [e] at em; cases em
        refine ⟨_, by rw [sig_set e, if_pos rfl], ?_⟩
        rw [← hsame]
        unfold loose
        rw [List.filter_append, List.length_append]
        omega
      · exact ⟨l, by rw [sig_set em, if_neg et, e], Nat.le_of_eq hsame.symm⟩
    · exact absurd h' (hub _)
  | disconnect s j0 =>
    rcases h' with ⟨m, i0, em, e0, hm, -, rfl⟩ | h'
    · by_cases et : t = s
      · subst et
        rw [e] at em; cases em
        refine ⟨_, by rw [sig_set e, if_pos rfl], ?_⟩
        unfold loose
        rw [List.filter_filter]
        apply Nat.le_of_eq
        congr 1
        apply List.filter_congr
        rintro ⟨i, f⟩ _
        by_cases hc : i ∈ x.conns
        · simp [hc]
        · have : i ≠ i0 := by rintro rfl; exact hc (List.mem_of_getElem? e0)
          simp [hc, this]
      · exact ⟨l, by rw [sig_set em, if_neg et, e], Nat.le_refl _⟩
    · exact absurd h'.1 (hub _)
  | emit s a =>
    rcases h' with ⟨m, em, -, rfl⟩ | h'
    · by_cases et : t = s
      · subst et
        rw [e] at em; cases em
        refine ⟨_, by rw [sig_set e, if_pos rfl], ?_⟩
        have key : ∀ k : List (Nat × γ), loose x k = ((k.map (·.1)).filter (fun i => !x.conns.contains i)).length := by
          intro k
          unfold loose
          rw [List.filter_map, List.length_map]; rfl
        have := emitNodes_fst call moved l a x.user
        rw [key]
        refine Nat.le_of_eq (Eq.trans ?_ (key _).symm)
        rw [this]
      · exact ⟨l, by rw [sig_set em, if_neg et, e], Nat.le_refl _⟩
    · exact absurd h' (hub _)
  | destroy s =>
    rcases h' with ⟨m, em, -, -, rfl⟩ | h' | ⟨_, _, _, _, h'⟩
    · exact ⟨l, by rw [sig_set em, if_neg (by rintro rfl; exact h2 rfl), e], Nat.le_refl _⟩
    · exact absurd h' (hub _)
    · exact absurd h' hab

theorem run_loose {dbg : Bool} {call : γ → α → σ → Res Unit × γ × σ} {moved : α → α} {os : List (Op γ α)} {x y : Sys γ σ} {b : Book}
    (hi : Inv x b) (h : run dbg call moved os x = some y) {t : Nat} {l : List (Nat × γ)}
    (e : x.sigs[t]? = some (some l)) (h1 : ∀ s, Op.assign t s ∉ os) (h2 : Op.destroy t ∉ os) :
    ∃ l', y.sigs[t]? = some (some l') ∧ loose x l ≤ loose y l' := by
  induction os generalizing x b l with
  | nil => cases h; exact ⟨l, e, Nat.le_refl _⟩
  | cons o os ih =>
    obtain ⟨r, x', hs, hr, hrun⟩ := run_cons h
    obtain ⟨l1, e1, q1⟩ := step_loose hi hs hr e (by rintro s rfl; exact h1 s (by simp)) (by rintro rfl; exact h2 (by simp))
    obtain ⟨l2, e2, q2⟩ := ih (step_inv hi hs hr) hrun e1 (fun s hm => h1 s (List.mem_cons_of_mem _ hm)) (fun hm => h2 (List.mem_cons_of_mem _ hm))
    exact ⟨l2, e2, Nat.le_trans q1 q2⟩

theorem run_append {dbg : Bool} {call : γ → α → σ → Res Unit × γ × σ} {moved : α → α} {os os' : List (Op γ α)} {x y z : Sys γ σ}
    (h : run dbg call moved os x = some y) (h' : run dbg call moved os' y = some z) : run dbg call moved (os ++ os') x = some z := by
  induction os generalizing x with
  | nil => cases h; exact h'
  | cons o os ih =>
    obtain ⟨r, x', hs, hr, hrun⟩ := run_cons h
    rw [List.cons_append]
    unfold run
    rw [hs]
    rcases hr with rfl | ⟨e, rfl⟩ <;> exact ih hrun

theorem callbacks_set {x : Sys γ σ} {s : Nat} {l : List (Nat × γ)} (h : x.sigs[s]? = some (some l)) (m : List (Nat × γ)) (cs : List Nat) (n : Nat)
    (u : σ) (t : Nat) :
    callbacks ⟨x.sigs.set s (some m), cs, n, u⟩ t = if t = s then some (m.map (·.2)) else callbacks x t := by
  unfold callbacks
  simp only [sig_set h]
  by_cases e : t = s <;> simp [e]

theorem callbacks_append (x : Sys γ σ) (m : List (Nat × γ)) (n : Nat) (t : Nat) :
    callbacks ⟨x.sigs ++ [some m], x.conns, n, x.user⟩ t = if t = x.sigs.length then some (m.map (·.2)) else callbacks x t := by
  unfold callbacks
  simp only [sig_append]
  by_cases e : t = x.sigs.length <;> simp [e]

end SignalCopy

end Utki
