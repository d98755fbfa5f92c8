import Verif.Spec.SharedThreads
import Mathlib.Tactic.ByContra
/-!
# Lemmas about references used by several threads
-/
namespace Utki.SharedThreads
open Spec

/-- The counters are right, and objects exist as long as they should. -/
structure Inv (es : List Event) (s : State) : Prop where
  bal : ∀ o, s.count o = s.refs.countP (·.2 == o) + s.mail.countP (·.2 == o)
  hist : ∀ o, es.countP (Gains o) = es.countP (Loses o) + s.count o
  fresh : ∀ o, s.objs ≤ o → es.countP (Gains o) = 0 ∧ s.alive o = false
  alive : ∀ o, s.alive o = true ↔ 0 < s.count o ∨ 0 < s.doomed.countP (·.2 == o)
  doomed : ∀ o, s.doomed.countP (·.2 == o) ≤ 1 ∧ (0 < s.doomed.countP (·.2 == o) → s.count o = 0)
  ended : ∀ o, es.countP (Ends o) = if o < s.objs ∧ s.alive o = false then 1 else 0
  good : ∀ e ∈ es, (∀ t o, e ≠ .usedDead t o) ∧ ∀ t o, e ≠ .destroyedTwice t o

theorem countP_erase_mem {l : List (Nat × Nat)} {a : Nat × Nat} (h : a ∈ l) (o : Nat) :
    l.countP (·.2 == o) = (l.erase a).countP (·.2 == o) + if a.2 = o then 1 else 0 := by
  have := (List.perm_cons_erase h).countP_eq (·.2 == o)
  rw [this, List.countP_cons]
  simp

theorem countP_pos_of_mem {l : List (Nat × Nat)} {t o : Nat} (h : (t, o) ∈ l) : 0 < l.countP (·.2 == o) :=
  List.countP_pos_iff.mpr ⟨_, h, by simp⟩

theorem Inv.count_pos {es : List Event} {s : State} (h : Inv es s) {t o : Nat} (hr : (t, o) ∈ s.refs) : 0 < s.count o := by
  have := countP_pos_of_mem hr
  have := h.bal o
  omega

theorem Inv.lt_objs {es : List Event} {s : State} (h : Inv es s) {o : Nat} (hc : 0 < s.count o) : o < s.objs := by
  by_contra hn
  have := h.hist o
  have := (h.fresh o (by omega)).1
  omega

theorem inv_init : Inv [] init :=
  ⟨fun _ => rfl, fun _ => rfl, fun _ _ => ⟨rfl, rfl⟩, fun _ => by simp [init], fun _ => by simp [init], fun _ => by simp [init], by simp⟩

theorem inv_neutral {es : List Event} {s s' : State} {e : Event} (h : Inv es s) (hg : ∀ o, Gains o e = false ∧ Loses o e = false ∧ Ends o e = false)
    (hb : (∀ t o, e ≠ .usedDead t o) ∧ ∀ t o, e ≠ .destroyedTwice t o) (h1 : s'.objs = s.objs) (h2 : s'.count = s.count) (h3 : s'.alive = s.alive)
    (h4 : s'.doomed = s.doomed) (h5 : ∀ o, s'.refs.countP (·.2 == o) + s'.mail.countP (·.2 == o) = s.refs.countP (·.2 == o) + s.mail.countP (·.2 == o)) :
    Inv (es ++ [e]) s' := by
  constructor
  · intro o; rw [h2, h5]; exact h.bal o
  · intro o; have := h.hist o; simp only [List.countP_append, List.countP_singleton, (hg o).1, (hg o).2.1, h2]; simpa using this
  · intro o ho; have := h.fresh o (by omega); simp only [List.countP_append, List.countP_singleton, (hg o).1, h3]; simpa using this
  · intro o; rw [h2, h3, h4]; exact h.alive o
  · intro o; rw [h2, h4]; exact h.doomed o
  · intro o; have := h.ended o; simp only [List.countP_append, List.countP_singleton, (hg o).2.2, h3, h1]; simpa using this
  · intro e' he
    rcases List.mem_append.mp he with he | he
    · exact h.good e' he
    · simp only [List.mem_singleton] at he; subst he; exact hb

theorem inv_copy {es : List Event} {s : State} {e : Event} {t o : Nat} (h : Inv es s)
    (hg : ∀ x, Gains x e = (o == x) ∧ Loses x e = false ∧ Ends x e = false)
    (hb : (∀ t o, e ≠ .usedDead t o) ∧ ∀ t o, e ≠ .destroyedTwice t o) (hc : 0 < s.count o) : Inv (es ++ [e]) (copy t o s) := by
  have ho := h.lt_objs hc
  have halive := (h.alive o).mpr (.inl hc)
  constructor
  · intro x
    have := h.bal x
    simp only [copy, setCount, List.countP_append, List.countP_cons, List.countP_nil]
    split
    · subst_vars; simp; omega
    · rename_i hn; simp [Ne.symm hn]; omega
  · intro x
    have := h.hist x
    simp only [copy, setCount, List.countP_append, List.countP_singleton, hg x]
    by_cases hx : x = o
    · subst hx; simp; omega
    · simp [hx, Ne.symm hx]; omega
  · intro x hx
    simp only [copy] at hx ⊢
    have := h.fresh x hx
    have hn : o ≠ x := by omega
    simp [List.countP_append, List.countP_singleton, hg x, hn, this.1, this.2]
  · intro x
    have := h.alive x
    simp only [copy, setCount]
    split
    · subst_vars; simp [halive]
    · exact this
  · intro x
    have := h.doomed x
    simp only [copy, setCount]
    split
    · subst_vars; exact ⟨this.1, fun hd => by have := this.2 hd; omega⟩
    · exact this
  · intro x
    have := h.ended x
    have h2 := (hg x).2.2
    show _ = if x < s.objs ∧ s.alive x = false then 1 else 0
    rw [List.countP_append, List.countP_singleton, h2, this]; simp
  · intro e' he
    rcases List.mem_append.mp he with he | he
    · exact h.good e' he
    · simp only [List.mem_singleton] at he; subst he; exact hb

theorem inv_step {es : List Event} {s s' : State} {e : Event} (h : Inv es s) (hs : Step s e s') : Inv (es ++ [e]) s' := by
  cases hs with
  | made t =>
    have c0 : s.count s.objs = 0 := by
      have := h.hist s.objs; have := (h.fresh s.objs (by omega)).1; omega
    have l0 : es.countP (Loses s.objs) = 0 := by
      have := h.hist s.objs; have := (h.fresh s.objs (by omega)).1; omega
    have d0 : s.doomed.countP (·.2 == s.objs) = 0 := by
      by_contra hn
      have := (h.alive s.objs).mpr (.inr (by omega))
      rw [(h.fresh s.objs (by omega)).2] at this
      cases this
    constructor
    · intro o
      have := h.bal o
      simp only [make, setCount, List.countP_append, List.countP_cons, List.countP_nil]
      split
      · subst_vars; simp; omega
      · rename_i hn; simp [Ne.symm hn]; omega
    · intro o
      have := h.hist o
      simp only [make, setCount, List.countP_append, List.countP_singleton, Gains, Loses]
      by_cases hx : o = s.objs
      · subst hx; simp; omega
      · simp [hx, Ne.symm hx]; omega
    · intro o ho
      simp only [make] at ho ⊢
      have := h.fresh o (by omega)
      have hn : s.objs ≠ o := by omega
      simp [List.countP_append, Gains, hn, this.1, Ne.symm hn, this.2]
    · intro o
      have := h.alive o
      simp only [make, setCount]
      split
      · simp
      · exact this
    · intro o
      have := h.doomed o
      simp only [make, setCount]
      split
      · subst_vars; simp [d0]
      · exact this
    · intro o
      have := h.ended o
      simp only [make, List.countP_append, List.countP_cons, List.countP_nil, Ends]
      by_cases ho : o = s.objs
      · subst ho; rw [this]; simp
      · simp only [ho, if_false]
        rw [this]
        by_cases h1 : o < s.objs
        · simp [h1, show o < s.objs + 1 by omega]
        · simp [h1, show ¬ o < s.objs + 1 by omega]
    · intro e he
      rcases List.mem_append.mp he with he | he
      · exact h.good e he
      · simp only [List.mem_singleton] at he; subst he; simp
  | copied t u o hr => exact inv_copy h (by simp [Gains, Loses, Ends]) (by simp) (h.count_pos hr)
  | used t o hr ha => exact inv_neutral h (by simp [Gains, Loses, Ends]) (by simp) rfl rfl rfl rfl (fun _ => rfl)
  | usedDead t o hr ha =>
    rw [(h.alive o).mpr (.inl (h.count_pos hr))] at ha; cases ha
  | sent t o hr =>
    refine inv_neutral h (by simp [Gains, Loses, Ends]) (by simp) rfl rfl rfl rfl (fun x => ?_)
    simp only [send, List.countP_append, List.countP_singleton]
    rw [countP_erase_mem hr x]
    simp only [beq_iff_eq]
    omega
  | received t o m hm =>
    refine inv_neutral h (by simp [Gains, Loses, Ends]) (by simp) rfl rfl rfl rfl (fun x => ?_)
    simp only [receive, List.countP_append, List.countP_singleton]
    rw [countP_erase_mem hm x]
    simp only [beq_iff_eq]
    omega
  | locked t o ho hc => exact inv_copy h (by simp [Gains, Loses, Ends]) (by simp) (by omega)
  | lockFailed t o ho hc => exact inv_neutral h (by simp [Gains, Loses, Ends]) (by simp) rfl rfl rfl rfl (fun _ => rfl)
  | dropped t o hr =>
    have hc := h.count_pos hr
    have ho := h.lt_objs hc
    have halive := (h.alive o).mpr (.inl hc)
    have hdo : s.doomed.countP (·.2 == o) = 0 := by have := (h.doomed o).2; omega
    have hobjs : (drop t o s).objs = s.objs := by simp only [drop]; split <;> rfl
    have hal : (drop t o s).alive = s.alive := by simp only [drop]; split <;> rfl
    have hmail : (drop t o s).mail = s.mail := by simp only [drop]; split <;> rfl
    have hrefs : (drop t o s).refs = s.refs.erase (t, o) := by simp only [drop]; split <;> rfl
    have hcount : (drop t o s).count = setCount s o (s.count o - 1) := by simp only [drop]; split <;> rfl
    have hdoom : ∀ x, (drop t o s).doomed.countP (·.2 == x) = s.doomed.countP (·.2 == x) + if x = o ∧ s.count o = 1 then 1 else 0 := by
      intro x
      simp only [drop]
      split
      · rename_i h1
        simp only [List.countP_append, List.countP_singleton, beq_iff_eq, h1, and_true, eq_comm (a := x)]
      · rename_i h1
        simp [h1]
    constructor
    · intro x
      have := h.bal x
      have h1 := countP_erase_mem hr x
      simp only at h1
      rw [hcount, hrefs, hmail]
      simp only [setCount]
      split
      · subst_vars; simp at h1; omega
      · rename_i hn; simp [Ne.symm hn] at h1; omega
    · intro x
      have := h.hist x
      rw [hcount]
      simp only [setCount, List.countP_append, List.countP_singleton, Gains, Loses]
      by_cases hx : x = o
      · subst hx; simp; omega
      · simp [hx, Ne.symm hx]; omega
    · intro x hx
      rw [hobjs] at hx
      have := h.fresh x hx
      simp [List.countP_append, Gains, this.1, hal, this.2]
    · intro x
      have := h.alive x
      rw [hcount, hal, hdoom]
      simp only [setCount]
      by_cases hx : x = o
      · subst hx
        simp only [if_true, true_and, halive, true_iff]
        by_cases h1 : s.count x = 1
        · right; simp [h1]
        · left; omega
      · simp only [hx, if_false, false_and, Nat.add_zero]; exact this
    · intro x
      have := h.doomed x
      rw [hcount, hdoom]
      simp only [setCount]
      by_cases hx : x = o
      · subst hx
        simp only [if_true, true_and, hdo]
        refine ⟨by split <;> omega, fun h1 => ?_⟩
        split at h1 <;> omega
      · simp only [hx, if_false, false_and, Nat.add_zero]; exact this
    · intro x
      have := h.ended x
      rw [hobjs, hal]
      simp only [List.countP_append, List.countP_singleton, Ends]
      simpa using this
    · intro e he
      rcases List.mem_append.mp he with he | he
      · exact h.good e he
      · simp only [List.mem_singleton] at he; subst he; simp
  | destroyed t o hd ha =>
    have hpos := countP_pos_of_mem hd
    have hd1 := (h.doomed o).1
    have hc := (h.doomed o).2 hpos
    have ho : o < s.objs := by
      by_contra hn
      rw [(h.fresh o (by omega)).2] at ha; cases ha
    have he := countP_erase_mem hd
    constructor
    · intro x; exact h.bal x
    · intro x
      have := h.hist x
      simp only [destroy, List.countP_append, List.countP_singleton, Gains, Loses]
      simpa using this
    · intro x hx
      have := h.fresh x hx
      simp only [destroy, List.countP_append, List.countP_singleton, Gains, this.1, this.2]
      simp
    · intro x
      have h1 := h.alive x
      have h2 := he x
      simp only [destroy]
      by_cases hx : x = o
      · subst hx
        rw [if_pos rfl] at h2
        rw [if_pos rfl]
        refine ⟨fun h3 => absurd h3 (by decide), fun h3 => ?_⟩
        rcases h3 with h3 | h3 <;> omega
      · simp only [hx, if_false]
        simp only [Ne.symm hx, if_false, Nat.add_zero] at h2
        rw [h1, h2]
    · intro x
      have h1 := h.doomed x
      have h2 := he x
      simp only [destroy]
      refine ⟨by omega, fun h3 => h1.2 (by omega)⟩
    · intro x
      have := h.ended x
      simp only [destroy, List.countP_append, List.countP_singleton, Ends]
      by_cases hx : x = o
      · subst hx; rw [this]; simp [ha, ho]
      · simp only [hx, Ne.symm hx, if_false]
        rw [this]; simp [Ne.symm hx]
    · intro e he
      rcases List.mem_append.mp he with he | he
      · exact h.good e he
      · simp only [List.mem_singleton] at he; subst he; simp
  | destroyedTwice t o hd ha =>
    rw [(h.alive o).mpr (.inr (countP_pos_of_mem hd))] at ha; cases ha

theorem run_inv {es : List Event} {s : State} (h : Run es s) : Inv es s := by
  induction h with
  | nil => exact inv_init
  | snoc es s e s' _ hs ih => exact inv_step ih hs

/-! ## Happens-before -/

theorem get_snoc {es : List Event} {i : Nat} {a e : Event} (h : es[i]? = some a) : (es ++ [e])[i]? = some a := by
  have hi : i < es.length := by
    by_contra hn
    rw [List.getElem?_eq_none (by omega)] at h; cases h
  rw [List.getElem?_append_left hi, h]

theorem lt_of_get {es : List Event} {i : Nat} {a : Event} (h : es[i]? = some a) : i < es.length := by
  by_contra hn
  rw [List.getElem?_eq_none (by omega)] at h; cases h

theorem get_last (es : List Event) (e : Event) : (es ++ [e])[es.length]? = some e := by simp

theorem of_get_snoc {es : List Event} {i : Nat} {a e : Event} (h : (es ++ [e])[i]? = some a) : es[i]? = some a ∨ (i = es.length ∧ a = e) := by
  have hi := lt_of_get h
  simp only [List.length_append, List.length_singleton] at hi
  by_cases hl : i < es.length
  · rw [List.getElem?_append_left hl] at h; exact .inl h
  · have : i = es.length := by omega
    subst this
    rw [get_last] at h
    exact .inr ⟨rfl, (Option.some.inj h).symm⟩

theorem hb_snoc {es : List Event} {i j : Nat} {e : Event} (h : HappensBefore es i j) : HappensBefore (es ++ [e]) i j := by
  induction h with
  | thread i j a b hl h1 h2 h3 => exact .thread i j a b hl (get_snoc h1) (get_snoc h2) h3
  | message i j t u o m hl h1 h2 => exact .message i j t u o m hl (get_snoc h1) (get_snoc h2)
  | counter i j t u o hl h1 h2 h3 h4 => exact .counter i j t u o hl (get_snoc h1) (get_snoc h2) h3 h4
  | trans i j k _ _ h1 h2 => exact .trans i j k h1 h2

/-- Happens before, or is the same. -/
def HBeq (es : List Event) (i j : Nat) : Prop := i = j ∨ HappensBefore es i j

theorem hbeq_snoc {es : List Event} {i j : Nat} {e : Event} (h : HBeq es i j) : HBeq (es ++ [e]) i j :=
  h.imp id hb_snoc

theorem hbeq_trans {es : List Event} {i j k : Nat} (h : HBeq es i j) (h' : HappensBefore es j k) : HappensBefore es i k := by
  rcases h with h | h
  · subst h; exact h'
  · exact .trans i j k h h'

/-- What a place happens before: the destruction of a reference to `o`, or something done by a thread that has one, or the sending of one that is on its way. -/
def Anchored (es : List Event) (s : State) (o i : Nat) : Prop :=
  (∃ j t, es[j]? = some (.dropped t o) ∧ HBeq es i j) ∨
  (∃ u j f, (u, o) ∈ s.refs ∧ es[j]? = some f ∧ actor f = u ∧ HBeq es i j) ∨
  (∃ m j t, (m, o) ∈ s.mail ∧ es[j]? = some (.sent t o m) ∧ HBeq es i j)

structure Inv2 (es : List Event) (s : State) : Prop where
  anchored : ∀ i e o, es[i]? = some e → Touches o e = true → Anchored es s o i
  doomed : ∀ t o, (t, o) ∈ s.doomed → ∃ d, es[d]? = some (.dropped t o) ∧ ∀ i e, es[i]? = some e → Touches o e = true → HappensBefore es i d
  ended : ∀ j t o, es[j]? = some (.destroyed t o) → ∀ i e, es[i]? = some e → Touches o e = true → HappensBefore es i j

theorem mem_erase_or {l : List (Nat × Nat)} {a b : Nat × Nat} (h : a ∈ l) : a ∈ l.erase b ∨ a = b := by
  by_cases hn : a = b
  · exact .inr hn
  · exact .inl ((List.mem_erase_of_ne hn).mpr h)

theorem step_refs {s s' : State} {e : Event} (hs : Step s e s') {u o : Nat} (h : (u, o) ∈ s.refs) :
    (u, o) ∈ s'.refs ∨ e = .dropped u o ∨ ∃ m, e = .sent u o m ∧ (m, o) ∈ s'.mail := by
  cases hs with
  | made t => simp [make, h]
  | copied t u o hr => simp [copy, h]
  | used t o hr ha => simp [h]
  | usedDead t o hr ha => simp [h]
  | sent t x hr =>
    rcases mem_erase_or (b := (t, x)) h with h1 | h1
    · exact .inl h1
    · cases h1; exact .inr (.inr ⟨_, rfl, by simp [send]⟩)
  | received t o m hm => simp [receive, h]
  | locked t o ho hc => simp [copy, h]
  | lockFailed t o ho hc => simp [h]
  | dropped t x hr =>
    rcases mem_erase_or (b := (t, x)) h with h1 | h1
    · left; simp only [drop]; split <;> exact h1
    · cases h1; exact .inr (.inl rfl)
  | destroyed t o hd ha => exact .inl h
  | destroyedTwice t o hd ha => exact .inl h

theorem step_mail {s s' : State} {e : Event} (hs : Step s e s') {m o : Nat} (h : (m, o) ∈ s.mail) :
    (m, o) ∈ s'.mail ∨ ∃ t, e = .received t o m ∧ (t, o) ∈ s'.refs := by
  cases hs with
  | received t x n hm =>
    rcases mem_erase_or (b := (n, x)) h with h1 | h1
    · exact .inl h1
    · cases h1; exact .inr ⟨_, rfl, by simp [receive]⟩
  | dropped t x hr => left; simp only [drop]; split <;> exact h
  | sent t x hr => simp [send, h]
  | _ => exact .inl h

theorem step_touch {s s' : State} {e : Event} (hs : Step s e s') {o : Nat} (h : Touches o e = true) : (actor e, o) ∈ s'.refs := by
  cases hs <;> simp [Touches] at h
  · subst h; simp [make, actor]
  · subst h; simpa [actor]

theorem step_doomed {s s' : State} {e : Event} (hs : Step s e s') {t o : Nat} (h : (t, o) ∈ s'.doomed) :
    (t, o) ∈ s.doomed ∨ (e = .dropped t o ∧ s.count o = 1 ∧ (t, o) ∈ s.refs) := by
  cases hs with
  | dropped u x hr =>
    simp only [drop] at h
    split at h
    · rename_i h1
      simp only [List.mem_append, List.mem_singleton] at h
      rcases h with h | h
      · exact .inl h
      · cases h; exact .inr ⟨rfl, h1, hr⟩
    · exact .inl h
  | destroyed u x hd ha => exact .inl (List.mem_of_mem_erase h)
  | _ => exact .inl h

theorem countP_one {α : Type} {p : α → Bool} {l : List α} (h : l.countP p ≤ 1) {a b : α} (ha : a ∈ l) (hb : b ∈ l) (pa : p a = true) (pb : p b = true) :
    a = b := by
  induction l with
  | nil => cases ha
  | cons x l ih =>
    have pos : ∀ {c}, c ∈ l → p c = true → 0 < l.countP p := fun hc pc => List.countP_pos_iff.mpr ⟨_, hc, pc⟩
    rw [List.countP_cons] at h
    rcases List.mem_cons.mp ha with ha1 | ha1 <;> rcases List.mem_cons.mp hb with hb1 | hb1
    · rw [ha1, hb1]
    · have := pos hb1 pb; rw [← ha1, if_pos pa] at h; omega
    · have := pos ha1 pa; rw [← hb1, if_pos pb] at h; omega
    · exact ih (by omega) ha1 hb1

/-- Nothing new is done to an object once its counter has got to zero. -/
theorem step_touch_fresh {es : List Event} {s s' : State} {e : Event} (h : Inv es s) (hs : Step s e s') {o : Nat} (ht : Touches o e = true) :
    s.doomed.countP (·.2 == o) = 0 ∧ es.countP (Ends o) = 0 := by
  cases hs <;> simp only [Touches, beq_iff_eq, Bool.false_eq_true] at ht
  · subst ht
    refine ⟨?_, by rw [h.ended]; simp⟩
    by_contra hn
    have := (h.alive s.objs).mpr (.inr (by omega))
    rw [(h.fresh s.objs (by omega)).2] at this
    cases this
  · rename_i t x hr ha
    subst ht
    have hc := h.count_pos hr
    have := (h.doomed x).2
    exact ⟨by omega, by rw [h.ended]; simp [ha]⟩

theorem inv2_step {es : List Event} {s s' : State} {e : Event} (h : Inv es s) (h2 : Inv2 es s) (hs : Step s e s') : Inv2 (es ++ [e]) s' := by
  have hlast := get_last es e
  constructor
  · intro i a o hi ht
    rcases of_get_snoc hi with hi | ⟨rfl, rfl⟩
    · rcases h2.anchored i a o hi ht with ⟨j, t, hj, hb⟩ | ⟨u, j, f, hu, hj, hf, hb⟩ | ⟨m, j, t, hm, hj, hb⟩
      · exact .inl ⟨j, t, get_snoc hj, hbeq_snoc hb⟩
      · have hl := lt_of_get hj
        rcases step_refs hs hu with h3 | h3 | ⟨m, h3, h4⟩
        · exact .inr (.inl ⟨u, j, f, h3, get_snoc hj, hf, hbeq_snoc hb⟩)
        · subst h3
          exact .inl ⟨_, u, hlast, .inr (hbeq_trans (hbeq_snoc hb) (.thread j _ f _ hl (get_snoc hj) hlast hf))⟩
        · subst h3
          exact .inr (.inr ⟨m, _, u, h4, hlast, .inr (hbeq_trans (hbeq_snoc hb) (.thread j _ f _ hl (get_snoc hj) hlast hf))⟩)
      · have hl := lt_of_get hj
        rcases step_mail hs hm with h3 | ⟨u, h3, h4⟩
        · exact .inr (.inr ⟨m, j, t, h3, get_snoc hj, hbeq_snoc hb⟩)
        · subst h3
          exact .inr (.inl ⟨u, _, _, h4, hlast, rfl, .inr (hbeq_trans (hbeq_snoc hb) (.message j _ t u o m hl (get_snoc hj) hlast))⟩)
    · exact .inr (.inl ⟨_, _, _, step_touch hs ht, hlast, rfl, .inl rfl⟩)
  · intro t o hd
    rcases step_doomed hs hd with hd | ⟨rfl, hc, hr⟩
    · obtain ⟨d, h3, h4⟩ := h2.doomed t o hd
      refine ⟨d, get_snoc h3, fun i a hi ht => ?_⟩
      rcases of_get_snoc hi with hi | ⟨rfl, rfl⟩
      · exact hb_snoc (h4 i a hi ht)
      · have := (step_touch_fresh h hs ht).1
        have := countP_pos_of_mem hd
        omega
    · refine ⟨_, hlast, fun i a hi ht => ?_⟩
      rcases of_get_snoc hi with hi | ⟨rfl, rfl⟩
      · have hb := h.bal o
        have hp := countP_pos_of_mem hr
        rcases h2.anchored i a o hi ht with ⟨j, u, hj, hb⟩ | ⟨u, j, f, hu, hj, hf, hb⟩ | ⟨m, j, u, hm, hj, hb⟩
        · exact hbeq_trans (hbeq_snoc hb) (.counter j _ u t o (lt_of_get hj) (get_snoc hj) hlast rfl rfl)
        · have : (u, o) = (t, o) := countP_one (p := (·.2 == o)) (by omega) hu hr (by simp) (by simp)
          cases this
          exact hbeq_trans (hbeq_snoc hb) (.thread j _ f _ (lt_of_get hj) (get_snoc hj) hlast hf)
        · have := countP_pos_of_mem hm
          omega
      · simp [Touches] at ht
  · intro j t o hj i a hi ht
    rcases of_get_snoc hj with hj' | ⟨rfl, rfl⟩
    · rcases of_get_snoc hi with hi | ⟨rfl, rfl⟩
      · exact hb_snoc (h2.ended j t o hj' i a hi ht)
      · have := (step_touch_fresh h hs ht).2
        have hm := List.mem_of_getElem? hj'
        have : 0 < es.countP (Ends o) := List.countP_pos_iff.mpr ⟨_, hm, by simp [Ends]⟩
        omega
    · rcases of_get_snoc hi with hi | ⟨rfl, rfl⟩
      · cases hs with
        | destroyed _ _ hd ha =>
          obtain ⟨d, h3, h4⟩ := h2.doomed t o hd
          exact .trans i d _ (hb_snoc (h4 i a hi ht)) (.thread d _ _ _ (lt_of_get h3) (get_snoc h3) hlast rfl)
      · simp [Touches] at ht

theorem run_inv2 {es : List Event} {s : State} (h : Run es s) : Inv2 es s := by
  induction h with
  | nil => exact ⟨by simp, by simp [init], by simp⟩
  | snoc es s e s' hr hs ih => exact inv2_step (run_inv hr) ih hs

end Utki.SharedThreads
