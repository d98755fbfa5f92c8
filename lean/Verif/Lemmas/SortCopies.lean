import Verif.Spec.SortCopies
import Verif.Lemmas.Hoare
import Mathlib.Tactic.Ring
/-! # Lemmas about the objects made by `utki::sort` -/
namespace Utki.QSortX
open Spec
variable {α σ β : Type}

/-! ## The rules of the basic steps -/

/-- What holds after an abnormal end: as many objects as before if it is an exception, and `B` of the memory. -/
def Ab (L : Nat) (B : Res Unit → List (Option α) → Prop) (r : Res Unit) (t : St α σ) : Prop :=
  (∀ e, r = .throw e → t.live = L) ∧ B r t.mem

theorem sat_user {f : Meth σ β} {s : St α σ} {Q : β → St α σ → Prop} {A : Res Unit → St α σ → Prop}
    (h : Sat f s.env (fun b e => Q b { s with env := e }) (fun r e => A r { s with env := e })) : Sat (user f) s Q A := h

theorem look_eq (X Y : List (Option α)) (c : α) (i : Nat) (hi : i = X.length) (e : σ) (l cp mv : Nat) :
    look i ⟨X ++ some c :: Y, e, l, cp, mv⟩ = (.ok c, ⟨X ++ some c :: Y, e, l, cp, mv⟩) := by
  subst hi
  simp [look]

theorem place_eq (X Y : List (Option α)) (c x : Option α) (i : Nat) (hi : i = X.length) (e : σ) (l cp mv : Nat) :
    place i x ⟨X ++ c :: Y, e, l, cp, mv⟩ = (.ok (), ⟨X ++ x :: Y, e, l, cp, mv⟩) := by
  subst hi
  simp [place]

theorem sat_inScope {body : M α σ β} {mem : List (Option α)} {e : σ} {L cp mv : Nat} {Q : β → St α σ → Prop}
    {B : Res Unit → List (Option α) → Prop}
    (h : Sat body ⟨mem, e, L + 1, cp, mv⟩ (fun b t => t.live = L + 1 ∧ Q b { t with live := L }) (Ab (L + 1) B)) :
    Sat (inScope body) ⟨mem, e, L, cp, mv⟩ Q (Ab L B) := by
  unfold Sat at h ⊢
  unfold inScope
  revert h
  simp only
  generalize body ⟨mem, e, L + 1, cp, mv⟩ = w
  obtain ⟨r, t⟩ := w
  obtain ⟨mem', e', l', cp', mv'⟩ := t
  intro h
  cases r with
  | ok a =>
    obtain ⟨h1, h2⟩ := h
    simp only at h1 h2
    subst h1
    exact h2
  | throw x =>
    obtain ⟨h1, h2⟩ := h
    have h1 := h1 x rfl
    simp only at h1 h2
    subst h1
    exact ⟨fun _ _ => rfl, h2⟩
  | ub u => exact ⟨fun _ he => (nomatch he), h.2⟩
  | abort => exact ⟨fun _ he => (nomatch he), h.2⟩
  | terminate => exact ⟨fun _ he => (nomatch he), h.2⟩
  | diverge => exact ⟨fun _ he => (nomatch he), h.2⟩

/-- What is known of the user's code: `lt` says when the comparator can answer true (if `C`), `I`: it never says that an element is less than itself, `Bad`: its
abnormal outcomes, `MB`: those of assignments. -/
structure Known (ops : Ops α σ) (C : Prop) (lt : α → α → Prop) (I : Prop) (Bad : Res Unit → Prop) (MB : Res Unit → Prop) : Prop where
  less : ∀ x y s, Sat (ops.less x y) s (fun b _ => (b = true → (C → lt x y) ∧ (I → x ≠ y)) ∧ (b = false → C → ¬ lt x y)) (fun r _ => Bad r)
  copy : ∀ x s, Sat (ops.copy x) s (fun _ _ => True) (fun r _ => Bad r)
  copyCmp : ∀ s, Sat ops.copyCmp s (fun _ _ => True) (fun r _ => Bad r)
  move : ∀ x s, Sat (ops.move x) s (fun _ _ => True) (fun r _ => Bad r)
  assign : ∀ x s, Sat (ops.assign x) s (fun _ _ => True) (fun r _ => Bad r ∧ MB r)

/-- What is known of the answers of a predicate. -/
structure Answers (p : α → Meth σ Bool) (Yes No : α → Prop) (Bad : Res Unit → Prop) : Prop where
  sat : ∀ x s, Sat (p x) s (fun b _ => (b = true → Yes x) ∧ (b = false → No x)) (fun r _ => Bad r)

theorem negated_answers {p : α → Meth σ Bool} {Yes No : α → Prop} {Bad : Res Unit → Prop} (hp : Answers p Yes No Bad) :
    Answers (fun x => negated (p x)) No Yes Bad := by
  refine ⟨fun x s => Sat.bind (Sat.mono (hp.sat x s) ?_ (fun _ _ h => h))⟩
  intro b s' hb
  refine Sat.pure ⟨fun h => hb.2 (by simpa using h), fun h => hb.1 (by simpa using h)⟩

/-! ## Elements that are there -/

/-- The memory after an abnormal end: nothing outside of the range is changed, and its elements are there, all, or all but one. -/
def Left (Bad : Res Unit → Prop) (MB : Res Unit → Prop) (pre : List (Option α)) (seg : List α) (post : List (Option α)) (r : Res Unit) (mem : List (Option α)) : Prop :=
  Bad r ∧ ∃ seg', mem = pre ++ seg' ++ post ∧ (AllThere seg' seg ∨ MB r ∧ OneLost seg' seg)

theorem oneLost_perm {s : List (Option α)} {a b : List α} (h : OneLost s a) (p : a.Perm b) : OneLost s b := by
  obtain ⟨x, rest, h1, h2⟩ := h
  exact ⟨x, rest, p.symm.trans h1, h2⟩

theorem oneLost_right {s : List (Option α)} {a : List α} (h : OneLost s a) (D : List α) : OneLost (s ++ D.map some) (a ++ D) := by
  obtain ⟨x, rest, h1, h2⟩ := h
  refine ⟨x, rest ++ D, h1.append_right D, ?_⟩
  rw [List.map_append]
  exact h2.append_right _

theorem oneLost_left {s : List (Option α)} {a : List α} (h : OneLost s a) (A : List α) : OneLost (A.map some ++ s) (A ++ a) := by
  obtain ⟨x, rest, h1, h2⟩ := h
  refine ⟨x, A ++ rest, (h1.append_left A).trans List.perm_middle, ?_⟩
  rw [List.map_append]
  exact (h2.append_left _).trans List.perm_middle

section
variable {Bad : Res Unit → Prop} {MB : Res Unit → Prop} {pre post : List (Option α)} {r : Res Unit} {mem : List (Option α)}

theorem left_same {seg : List α} (h : Bad r) : Left Bad MB pre seg post r (pre ++ seg.map some ++ post) :=
  ⟨h, seg.map some, rfl, .inl (List.Perm.refl _)⟩

theorem left_perm {a b : List α} (h : Left Bad MB pre a post r mem) (p : a.Perm b) : Left Bad MB pre b post r mem := by
  obtain ⟨h1, seg', h2, h3⟩ := h
  refine ⟨h1, seg', h2, ?_⟩
  rcases h3 with h3 | ⟨h3, h4⟩
  · exact .inl (h3.trans (p.map some))
  · exact .inr ⟨h3, oneLost_perm h4 p⟩

theorem left_append {A a D : List α} (h : Left Bad MB (pre ++ A.map some) a (D.map some ++ post) r mem) : Left Bad MB pre (A ++ a ++ D) post r mem := by
  obtain ⟨h1, seg', h2, h3⟩ := h
  refine ⟨h1, A.map some ++ seg' ++ D.map some, by simp [h2], ?_⟩
  rcases h3 with h3 | ⟨h3, h4⟩
  · refine .inl ?_
    unfold AllThere at h3 ⊢
    simp only [List.map_append]
    exact (h3.append_left _).append_right _
  · exact .inr ⟨h3, oneLost_right (oneLost_left h4 A) D⟩

end

/-! ## Exchange of two elements -/

theorem iter_swap_sat {ops : Ops α σ} {C lt I Bad MB} (hk : Known ops C lt I Bad MB) (X N Y : List (Option α)) (b c : α) (i j : Nat)
    (hi : i = X.length + 1 + N.length) (hj : j = X.length) (e : σ) (L cp mv : Nat) :
    Sat (iter_swap ops i j) ⟨X ++ some b :: (N ++ some c :: Y), e, L, cp, mv⟩
      (fun _ t => ∃ e', t = ⟨X ++ some c :: (N ++ some b :: Y), e', L, cp, mv + 3⟩)
      (Ab L (fun r m => Bad r ∧ (m = X ++ some b :: (N ++ some c :: Y) ∨
        MB r ∧ (m = X ++ some b :: (N ++ none :: Y) ∨ m = X ++ none :: (N ++ some b :: Y))))) := by
  have hi' : ∀ x : Option α, i = (X ++ x :: N).length := by intro x; simp; omega
  have eq : ∀ x y : Option α, X ++ x :: (N ++ y :: Y) = (X ++ x :: N) ++ y :: Y := by intro x y; simp
  unfold iter_swap
  refine Sat.bind (Sat.ok (by rw [eq]; exact look_eq _ _ c i (hi' _) e L cp mv) ?_)
  rw [← eq]
  refine Sat.bind (sat_user (Sat.mono (hk.move c e) ?_ ?_))
  · intro _ e1 _
    refine Sat.bind (Sat.ok (s' := ⟨X ++ some b :: (N ++ some c :: Y), e1, L, cp, mv + 1⟩) (a := ()) rfl ?_)
    refine Sat.bind (Sat.ok (by rw [eq]; exact place_eq _ _ (some c) none i (hi' _) e1 L cp (mv + 1)) ?_)
    rw [← eq]
    refine sat_inScope ?_
    refine Sat.bind (Sat.ok (look_eq X _ b j hj e1 (L + 1) cp (mv + 1)) ?_)
    refine Sat.bind (sat_user (Sat.mono (hk.assign b e1) ?_ ?_))
    · intro _ e2 _
      refine Sat.bind (Sat.ok (s' := ⟨X ++ some b :: (N ++ none :: Y), e2, L + 1, cp, mv + 2⟩) (a := ()) rfl ?_)
      refine Sat.bind (Sat.ok (place_eq X _ (some b) none j hj e2 (L + 1) cp (mv + 2)) ?_)
      refine Sat.bind (Sat.ok (by rw [eq]; exact place_eq _ _ none (some b) i (hi' _) e2 (L + 1) cp (mv + 2)) ?_)
      rw [← eq]
      refine Sat.bind (sat_user (Sat.mono (hk.assign c e2) ?_ ?_))
      · intro _ e3 _
        refine Sat.bind (Sat.ok (s' := ⟨X ++ none :: (N ++ some b :: Y), e3, L + 1, cp, mv + 3⟩) (a := ()) rfl ?_)
        refine Sat.ok (place_eq X _ none (some c) j hj e3 (L + 1) cp (mv + 3)) ?_
        exact ⟨rfl, e3, rfl⟩
      · intro r e3 hr
        exact ⟨fun _ _ => rfl, hr.1, .inr ⟨hr.2, .inr rfl⟩⟩
    · intro r e2 hr
      exact ⟨fun _ _ => rfl, hr.1, .inr ⟨hr.2, .inl rfl⟩⟩
  · intro r e1 hr
    exact ⟨fun _ _ => rfl, hr, .inl rfl⟩

/-! ## `find_if_not` and `partition` -/
section
variable {ops : Ops α σ} {C I : Prop} {MB : Res Unit → Prop} {lt : α → α → Prop} {p : α → Meth σ Bool} {Yes No : α → Prop} {Bad : Res Unit → Prop}

theorem find_if_not_sat (hp : Answers p Yes No Bad) (pre post : List (Option α)) (fuel first last : Nat) (A D : List α) (e : σ) (L cp mv : Nat)
    (hfuel : D.length < fuel ∨ Bad .diverge) (hfirst : first = pre.length + A.length) (hlast : last = first + D.length)
    (hA : ∀ x ∈ A, Yes x) :
    Sat (find_if_not p fuel first last) ⟨pre ++ (A ++ D).map some ++ post, e, L, cp, mv⟩
      (fun m t => (∃ e', t = ⟨pre ++ (A ++ D).map some ++ post, e', L, cp, mv⟩) ∧ ∃ A' D', A' ++ D' = A ++ D ∧ m = pre.length + A'.length ∧
        (∀ x ∈ A', Yes x) ∧ (∀ c, D'.head? = some c → No c))
      (Ab L (fun r m => Bad r ∧ m = pre ++ (A ++ D).map some ++ post)) := by
  induction fuel generalizing first A D e with
  | zero =>
    rcases hfuel with h | h
    · omega
    · exact ⟨(by intro _ h; cases h), h, rfl⟩
  | succ fuel ih =>
    unfold find_if_not
    refine Sat.ite (fun heq => ?_) (fun hne => ?_)
    · have : D = [] := List.length_eq_zero_iff.mp (by omega)
      subst this
      exact Sat.pure ⟨⟨e, rfl⟩, A, [], rfl, by omega, hA, by simp⟩
    · cases D with
      | nil => simp at hlast; omega
      | cons c D =>
        have h0 : pre ++ (A ++ c :: D).map some ++ post = (pre ++ A.map some) ++ some c :: (D.map some ++ post) := by simp
        have h1 : A ++ c :: D = (A ++ [c]) ++ D := by simp
        refine Sat.bind (Sat.ok (by rw [h0]; exact look_eq _ _ c first (by simp [hfirst]) e L cp mv) ?_)
        rw [← h0]
        refine Sat.bind (sat_user (Sat.mono (hp.sat c e) ?_ ?_))
        · intro b e' hb
          refine Sat.ite (fun h => ?_) (fun h => ?_)
          · exact Sat.pure ⟨⟨e', rfl⟩, A, c :: D, rfl, by omega, hA, by intro x hx; simp at hx; subst hx; exact hb.2 h⟩
          · have := ih (first + 1) (A ++ [c]) D e' (by simp at hfuel; rcases hfuel with h | h; exact .inl (by omega); exact .inr h)
              (by simp; omega) (by simp at hlast; omega) (by
                intro x hx; simp at hx; rcases hx with h' | h'
                · exact hA x h'
                · subst h'; exact hb.1 (by simpa using h))
            rw [← h1] at this
            exact this
        · intro r e' hr; exact ⟨fun _ _ => rfl, hr, rfl⟩

theorem partitionLoop_sat (hk : Known ops C lt I Bad MB) (hp : Answers p Yes No Bad) (pre post : List (Option α)) (fuel i first last : Nat)
    (A B D : List α) (b : α) (e : σ) (L cp mv k : Nat)
    (hfuel : D.length < fuel ∨ Bad .diverge) (hfirst : first = pre.length + A.length) (hi : i = first + 1 + B.length)
    (hlast : last = i + D.length) (hA : ∀ x ∈ A, Yes x) (hB : ∀ x ∈ b :: B, No x) (hmv : k ≤ A.length) :
    Sat (partitionLoop ops p fuel i first last) ⟨pre ++ (A ++ b :: (B ++ D)).map some ++ post, e, L, cp, mv + 3 * k⟩
      (fun m t => ∃ A' B' k' e', t = ⟨pre ++ (A' ++ B').map some ++ post, e', L, cp, mv + 3 * k'⟩ ∧ (A' ++ B').Perm (A ++ b :: (B ++ D)) ∧
        m = pre.length + A'.length ∧ (∀ x ∈ A', Yes x) ∧ (∀ x ∈ B', No x) ∧ k' ≤ A'.length ∧ B' ≠ [])
      (Ab L (Left Bad MB pre (A ++ b :: (B ++ D)) post)) := by
  induction fuel generalizing i first A B D b e k with
  | zero =>
    rcases hfuel with h | h
    · omega
    · exact ⟨(by intro _ h; cases h), left_same h⟩
  | succ fuel ih =>
    unfold partitionLoop
    refine Sat.ite (fun heq => ?_) (fun hne => ?_)
    · have : D = [] := List.length_eq_zero_iff.mp (by omega)
      subst this
      exact Sat.pure ⟨A, b :: B, k, e, by simp, by simp, hfirst, hA, hB, hmv, by simp⟩
    · cases D with
      | nil => simp at hlast; omega
      | cons c D =>
        have h0 : pre ++ (A ++ b :: (B ++ c :: D)).map some ++ post = (pre ++ A.map some ++ some b :: B.map some) ++ some c :: (D.map some ++ post) := by simp
        refine Sat.bind (Sat.ok (by rw [h0]; exact look_eq _ _ c i (by simp; omega) e L cp _) ?_)
        rw [← h0]
        have hf' : D.length < fuel ∨ Bad .diverge := by
          simp at hfuel; rcases hfuel with h | h; exact .inl (by omega); exact .inr h
        refine Sat.bind (sat_user (Sat.mono (hp.sat c e) ?_ ?_))
        · intro d e' hd
          refine Sat.ite (fun h => ?_) (fun h => ?_)
          · have e2 : pre ++ (A ++ b :: (B ++ c :: D)).map some ++ post = (pre ++ A.map some) ++ some b :: (B.map some ++ some c :: (D.map some ++ post)) := by
              simp
            refine Sat.bind ?_
            rw [e2]
            refine Sat.mono (iter_swap_sat hk (pre ++ A.map some) (B.map some) (D.map some ++ post) b c i first (by simp; omega) (by simp; omega)
              e' L cp (mv + 3 * k)) ?_ ?_
            · rintro _ t ⟨e3, rfl⟩
              obtain ⟨b', B', hb', hperm', hlen'⟩ : ∃ b' B', B ++ [b] = b' :: B' ∧ (b' :: B').Perm (b :: B) ∧ B'.length = B.length := by
                cases B with
                | nil => exact ⟨b, [], rfl, List.Perm.refl _, rfl⟩
                | cons b2 B => exact ⟨b2, B ++ [b], rfl, by simpa using (List.perm_append_singleton b (b2 :: B)), by simp⟩
              have h3 : (pre ++ A.map some) ++ some c :: (B.map some ++ some b :: (D.map some ++ post)) =
                  pre ++ ((A ++ [c]) ++ b' :: (B' ++ D)).map some ++ post := by
                have : (A ++ [c]) ++ b' :: (B' ++ D) = (A ++ [c]) ++ ((B ++ [b]) ++ D) := by rw [hb']; simp
                rw [this]; simp
              rw [h3, show mv + 3 * k + 3 = mv + 3 * (k + 1) by omega]
              have hperm : ((A ++ [c]) ++ b' :: (B' ++ D)).Perm (A ++ b :: (B ++ c :: D)) := by
                have p1 : (b' :: (B' ++ D)).Perm (b :: (B ++ D)) := by
                  have := hperm'.append_right D
                  simpa using this
                refine (p1.append_left (A ++ [c])).trans ?_
                rw [List.append_assoc]
                refine List.Perm.append_left A ?_
                have := (List.perm_middle (a := c) (l₁ := b :: B) (l₂ := D)).symm
                simpa using this
              refine Sat.mono (ih (i + 1) (first + 1) (A ++ [c]) B' D b' e3 (k + 1) hf' (by simp; omega) (by omega)
                (by simp at hlast; omega) ?_ ?_ (by simp; omega)) ?_ ?_
              · intro x hx; simp at hx; rcases hx with h' | h'
                · exact hA x h'
                · subst h'; exact hd.1 h
              · intro x hx; exact hB x (hperm'.mem_iff.mp hx)
              · rintro m st ⟨A', B', k', e4, h1, h2, h3⟩; exact ⟨A', B', k', e4, h1, h2.trans hperm, h3⟩
              · rintro r st ⟨h1, h2⟩; exact ⟨h1, left_perm h2 hperm⟩
            · rintro r t ⟨h1, h2, h3⟩
              refine ⟨h1, ?_⟩
              have hx : (A ++ b :: (B ++ c :: D)).Perm (c :: (A ++ b :: (B ++ D))) := by
                have := (List.perm_middle (a := c) (l₁ := A ++ b :: B) (l₂ := D))
                simpa using this
              rcases h3 with h3 | ⟨h3, h4 | h4⟩
              · rw [h3, ← e2]; exact left_same h2
              · refine ⟨h2, A.map some ++ some b :: (B.map some ++ none :: D.map some), by rw [h4]; simp, .inr ⟨h3, c, A ++ b :: (B ++ D), hx, ?_⟩⟩
                have := (List.perm_middle (a := (none : Option α)) (l₁ := A.map some ++ some b :: B.map some) (l₂ := D.map some))
                simpa using this
              · refine ⟨h2, A.map some ++ none :: (B.map some ++ some b :: D.map some), by rw [h4]; simp, .inr ⟨h3, c, A ++ b :: (B ++ D), hx, ?_⟩⟩
                refine (List.perm_middle (a := (none : Option α))).trans (List.Perm.cons _ ?_)
                rw [List.map_append, List.map_cons, List.map_append]
                exact (List.perm_middle (a := some b)).append_left _
          · have h3 : A ++ b :: (B ++ c :: D) = A ++ b :: ((B ++ [c]) ++ D) := by simp
            rw [h3]
            refine ih (i + 1) first A (B ++ [c]) D b e' k hf' hfirst (by simp; omega) (by simp at hlast; omega) hA ?_ hmv
            intro x hx; simp at hx
            rcases hx with h' | h' | h'
            · exact hB x (by simp [h'])
            · exact hB x (by simp [h'])
            · subst h'; exact hd.2 (by simpa using h)
        · intro r e' hr; exact ⟨fun _ _ => rfl, left_same hr⟩

theorem withCopy_sat {body : M α σ β} (hk : Known ops C lt I Bad MB) (x : α) {mem : List (Option α)} {e : σ} {L cp mv : Nat} {Q : β → St α σ → Prop}
    {B : Res Unit → List (Option α) → Prop} (hB : ∀ r, Bad r → B r mem)
    (h : ∀ e', Sat body ⟨mem, e', L + 1, cp + 1, mv⟩ (fun b t => t.live = L + 1 ∧ Q b { t with live := L }) (Ab (L + 1) B)) :
    Sat (withCopy ops x body) ⟨mem, e, L, cp, mv⟩ Q (Ab L B) := by
  unfold withCopy
  refine Sat.bind (sat_user (Sat.mono (hk.copy x e) ?_ ?_))
  · intro _ e' _
    refine Sat.bind (Sat.ok (s' := ⟨mem, e', L, cp + 1, mv⟩) (a := ()) rfl ?_)
    exact sat_inScope (h e')
  · intro r e' hr
    exact ⟨fun _ _ => rfl, hB r hr⟩

theorem copyCmp_sat {body : M α σ β} (hk : Known ops C lt I Bad MB) {mem : List (Option α)} {e : σ} {L cp mv : Nat} {Q : β → St α σ → Prop}
    {B : Res Unit → List (Option α) → Prop} (hB : ∀ r, Bad r → B r mem)
    (h : ∀ e', Sat body ⟨mem, e', L, cp, mv⟩ Q (Ab L B)) :
    Sat (do user ops.copyCmp; body) ⟨mem, e, L, cp, mv⟩ Q (Ab L B) := by
  refine Sat.bind (sat_user (Sat.mono (hk.copyCmp e) ?_ ?_))
  · intro _ e' _; exact h e'
  · intro r e' hr
    exact ⟨fun _ _ => rfl, hB r hr⟩

theorem partition_sat (hk : Known ops C lt I Bad MB) (hp : Answers p Yes No Bad) (pivot : α) (pre post : List (Option α)) (seg : List α)
    (fuel first last : Nat) (e : σ) (L cp mv : Nat)
    (hfuel : seg.length < fuel ∨ Bad .diverge) (hfirst : first = pre.length) (hlast : last = first + seg.length) :
    Sat (partition ops pivot p fuel first last) ⟨pre ++ seg.map some ++ post, e, L, cp, mv⟩
      (fun m t => ∃ A B k e', t = ⟨pre ++ (A ++ B).map some ++ post, e', L, cp + 1, mv + 3 * k⟩ ∧ (A ++ B).Perm seg ∧ m = pre.length + A.length ∧
        (∀ x ∈ A, Yes x) ∧ (∀ x ∈ B, No x) ∧ k ≤ A.length ∧ (B = [] → k = 0))
      (Ab L (Left Bad MB pre seg post)) := by
  unfold partition
  refine Sat.bind (withCopy_sat hk pivot (fun r h => left_same h) (fun e1 => copyCmp_sat hk (fun r h => left_same h) (fun e2 => ?_)))
  have h1 := find_if_not_sat hp pre post fuel first last [] seg e2 (L + 1) (cp + 1) mv hfuel (by simpa using hfirst) hlast (by simp)
  simp only [List.nil_append] at h1
  refine Sat.mono h1 ?_ ?_
  · rintro m t ⟨⟨e3, rfl⟩, A, D, h3, h4, h5, h6⟩
    refine ⟨rfl, ?_⟩
    refine Sat.ite (fun heq => ?_) (fun hne => ?_)
    · have hlen : A.length + D.length = seg.length := by rw [← h3]; simp
      have : D = [] := List.length_eq_zero_iff.mp (by omega)
      subst this
      simp only [List.append_nil] at h3; subst h3
      exact Sat.pure ⟨A, [], 0, e3, by simp, by simp, h4, h5, by simp, by omega, fun _ => rfl⟩
    · have hlen : A.length + D.length = seg.length := by rw [← h3]; simp
      cases D with
      | nil => simp at hlen; omega
      | cons c D =>
        subst h3
        have := partitionLoop_sat hk hp pre post fuel (m + 1) m last A [] D c e3 L (cp + 1) mv 0 (by
          simp at hfuel; rcases hfuel with h | h; exact .inl (by omega); exact .inr h) h4 (by simp) (by simp at hlen hlast; omega) h5
          (by intro x hx; simp at hx; subst hx; exact h6 x rfl) (by omega)
        simp only [List.nil_append, Nat.mul_zero, Nat.add_zero] at this
        refine Sat.mono this ?_ (fun _ _ h => h)
        rintro m2 t ⟨A', B', k', e', g1, g2, g3, g4, g5, g6, g7⟩
        exact ⟨A', B', k', e', g1, g2, g3, g4, g5, g6, fun hB => absurd hB g7⟩
  · rintro r t ⟨h1, h2, h3⟩; exact ⟨h1, by rw [h3]; exact left_same h2⟩


theorem exists_split_mem {pre post : List (Option α)} {seg : List α} {k : Nat} (hk : k < seg.length) :
    ∃ X c Y, pre ++ seg.map some ++ post = X ++ some c :: Y ∧ X.length = pre.length + k ∧ c ∈ seg := by
  refine ⟨pre ++ (seg.take k).map some, seg[k], (seg.drop (k + 1)).map some ++ post, ?_, by simp; omega, List.getElem_mem hk⟩
  have : seg = seg.take k ++ seg[k] :: seg.drop (k + 1) := by
    rw [List.getElem_cons_drop, List.take_append_drop]
  have h : seg.map some = (seg.take k).map some ++ some seg[k] :: (seg.drop (k + 1)).map some := by
    conv_lhs => rw [this]
    simp only [List.map_append, List.map_cons]
  rw [h, List.append_assoc, List.append_assoc, List.append_assoc, List.cons_append]

theorem moves_bound {n a m d w1 w2 wa wd : Nat} (hn : a + m + d = n) (hm : 0 < m) (h1 : w1 ≤ a) (h2 : w2 ≤ m) (h2' : d = 0 → w2 = 0)
    (ha : 2 * wa ≤ a * (a - 1)) (hd : 2 * wd ≤ d * (d - 1)) : 2 * (w1 + w2 + wa + wd) ≤ n * (n - 1) := by
  subst hn
  obtain ⟨m, rfl⟩ : ∃ k, m = k + 1 := ⟨m - 1, by omega⟩
  rw [show a + (m + 1) + d - 1 = a + m + d by omega]
  have ea : a * (a - 1) = a * a - a := by rw [Nat.mul_sub, Nat.mul_one]
  have ed : d * (d - 1) = d * d - d := by rw [Nat.mul_sub, Nat.mul_one]
  have ha' : a ≤ a * a := Nat.le_mul_self a
  have hd' : d ≤ d * d := Nat.le_mul_self d
  have expand : (a + (m + 1) + d) * (a + m + d) = a * a + d * d + m * m + 2 * (a * m) + 2 * (a * d) + 2 * (m * d) + a + m + d := by ring
  rw [expand]
  rcases Nat.eq_zero_or_pos d with h | h
  · subst h
    have := h2' rfl
    subst this
    simp at *
    omega
  · have h3 : m ≤ m * d := Nat.le_mul_of_pos_right m h
    have h4 : a ≤ a * d := Nat.le_mul_of_pos_right a h
    omega

theorem quick_sort_sat (hk : Known ops C lt I Bad MB) (hI : I ∨ Bad .diverge)
    (htr : C → ∀ a b c, lt a b → lt b c → lt a c) (hnt : C → ∀ a b c, lt a c → lt a b ∨ lt b c)
    (fuel first last : Nat) (pre post : List (Option α)) (seg : List α) (e : σ) (L cp mv : Nat)
    (hfuel : seg.length < fuel ∨ Bad .diverge) (hfirst : first = pre.length) (hlast : last = first + seg.length) :
    Sat (quick_sort ops fuel first last) ⟨pre ++ seg.map some ++ post, e, L, cp, mv⟩
      (fun _ t => ∃ (seg' : List α) (k w : Nat) (e' : σ), t = ⟨pre ++ seg'.map some ++ post, e', L, cp + 5 * k, mv + 3 * w⟩ ∧ seg'.Perm seg ∧
        (C → seg'.Pairwise (fun a b => ¬ lt b a)) ∧ (I → k ≤ seg.length - 1 ∧ 2 * w ≤ seg.length * (seg.length - 1)) ∧ (2 ≤ seg.length → 1 ≤ k))
      (Ab L (Left Bad MB pre seg post)) := by
  induction fuel generalizing first last pre seg post e L cp mv with
  | zero =>
    rcases hfuel with h | h
    · omega
    · exact ⟨(by intro _ h; cases h), left_same h⟩
  | succ fuel ih =>
    unfold quick_sort
    simp only
    refine Sat.ite (fun hn => ?_) (fun hn => ?_)
    · refine Sat.pure ⟨seg, 0, 0, e, rfl, List.Perm.refl _, fun _ => ?_, fun _ => by simp, fun h => by omega⟩
      match seg, hlast, hn with
      | [], _, _ => exact List.Pairwise.nil
      | [a], _, _ => simp
      | a :: b :: t, hl, hn => simp at hl; omega
    · obtain ⟨X, pivot, Y, e0, hX, hpm⟩ := exists_split_mem (pre := pre) (seg := seg) (post := post)
        (k := (((last : Int) - first) / 2).toNat) (by omega)
      refine Sat.bind (Sat.ok (by rw [e0]; exact look_eq X Y pivot _ (by omega) e L cp mv) ?_)
      rw [← e0]
      have ans1 : Answers (fun elem => ops.less elem pivot) (fun x => (C → lt x pivot) ∧ (I → x ≠ pivot)) (fun x => C → ¬ lt x pivot) Bad :=
        ⟨fun x s => hk.less x pivot s⟩
      have ans2 : Answers (fun elem => negated (ops.less pivot elem)) (fun x => C → ¬ lt pivot x)
          (fun x => (C → lt pivot x) ∧ (I → pivot ≠ x)) Bad :=
        negated_answers ⟨fun x s => hk.less pivot x s⟩
      refine withCopy_sat hk pivot (fun r h => left_same h) (fun e1 => ?_)
      refine Sat.bind (withCopy_sat hk pivot (fun r h => left_same h) (fun e2 => copyCmp_sat hk (fun r h => left_same h) (fun e3 => ?_)))
      refine Sat.mono (partition_sat hk ans1 pivot pre post seg (fuel + 1) first last e3 _ _ mv hfuel hfirst hlast) ?_ (fun _ _ h => h)
      rintro m1 t ⟨A, B, w1, e4, rfl, h2, h3, h4, h5, h6, -⟩
      refine ⟨rfl, ?_⟩
      simp only
      have hlenAB : A.length + B.length = seg.length := by rw [← h2.length_eq]; simp
      have e1 : pre ++ (A ++ B).map some ++ post = (pre ++ A.map some) ++ B.map some ++ post := by simp
      rw [e1]
      -- what is known of the rest of the range is known of the whole of it
      have liftB : ∀ {r mem}, Left Bad MB (pre ++ A.map some) B post r mem → Left Bad MB pre seg post r mem := by
        intro r mem h
        refine left_perm (left_append (A := A) (a := B) (D := []) ?_) (by simpa using h2)
        simpa using h
      have sameB : ∀ r, Bad r → Left Bad MB pre seg post r ((pre ++ A.map some) ++ B.map some ++ post) := fun r h => liftB (left_same h)
      refine Sat.bind (withCopy_sat hk pivot sameB (fun e5 => copyCmp_sat hk sameB (fun e6 => ?_)))
      refine Sat.mono (partition_sat hk ans2 pivot (pre ++ A.map some) post B (fuel + 1) m1 last e6 _ _ _ (by
        rcases hfuel with h | h; exact .inl (by omega); exact .inr h) (by simp [h3]) (by omega)) ?_ ?_
      · rintro m2 t ⟨M, D, w2, e7, rfl, g2, g3, g4, g5, g6, g7⟩
        refine ⟨rfl, ?_⟩
        simp only
        have hlenMD : M.length + D.length = B.length := by rw [← g2.length_eq]; simp
        have hMpos : I → 0 < M.length := by
          intro hI
          have hpB : pivot ∈ B := by
            have : pivot ∈ A ++ B := h2.symm.mem_iff.mp hpm
            rcases List.mem_append.mp this with h | h
            · exact absurd rfl ((h4 pivot h).2 hI)
            · exact h
          have hpM : pivot ∈ M := by
            have : pivot ∈ M ++ D := g2.symm.mem_iff.mp hpB
            rcases List.mem_append.mp this with h | h
            · exact h
            · exact absurd rfl ((g5 pivot h).2 hI)
          exact List.length_pos_of_mem hpM
        -- both recursive calls work on fewer elements
        have hsmall : (A.length < fuel ∨ Bad .diverge) ∧ (D.length < fuel ∨ Bad .diverge) := by
          rcases hfuel with hfuel | hfuel
          · rcases hI with hI | hI
            · have hM := hMpos hI
              exact ⟨.inl (by omega), .inl (by omega)⟩
            · exact ⟨.inr hI, .inr hI⟩
          · exact ⟨.inr hfuel, .inr hfuel⟩
        have permB : ∀ A', A'.Perm A → (A' ++ (M ++ D)).Perm seg := fun A' h => ((h.append g2).trans h2)
        have e2 : (pre ++ A.map some) ++ (M ++ D).map some ++ post = pre ++ A.map some ++ ((M ++ D).map some ++ post) := by simp
        rw [e2]
        have liftA : ∀ {r mem}, Left Bad MB pre A ((M ++ D).map some ++ post) r mem → Left Bad MB pre seg post r mem := by
          intro r mem h
          refine left_perm (left_append (A := []) (a := A) (D := M ++ D) ?_) (by simpa using permB A (List.Perm.refl _))
          simpa using h
        refine copyCmp_sat hk (fun r h => liftA (left_same h)) (fun e8 => ?_)
        refine Sat.bind (Sat.mono (ih first m1 pre ((M ++ D).map some ++ post) A e8 _ _ _ hsmall.1 hfirst (by omega)) ?_ ?_)
        · rintro _ t ⟨A', k1, wa, e9, rfl, k2, k3, k4, k5⟩
          have e3 : pre ++ A'.map some ++ ((M ++ D).map some ++ post) = (pre ++ (A' ++ M).map some) ++ D.map some ++ post := by simp
          rw [e3]
          have hlA' : A'.length = A.length := k2.length_eq
          have liftD : ∀ {r mem}, Left Bad MB (pre ++ (A' ++ M).map some) D post r mem → Left Bad MB pre seg post r mem := by
            intro r mem h
            refine left_perm (left_append (A := A' ++ M) (a := D) (D := []) ?_) (by simpa using permB A' k2)
            simpa using h
          refine copyCmp_sat hk (fun r h => liftD (left_same h)) (fun e10 => ?_)
          refine Sat.mono (ih m2 last (pre ++ (A' ++ M).map some) post D e10 _ _ _ hsmall.2 (by simp at g3 ⊢; omega) (by simp at g3; omega)) ?_ ?_
          · rintro _ t ⟨D', k6, wd, e11, rfl, l2, l3, l4, l5⟩
            refine ⟨rfl, A' ++ M ++ D', 1 + k1 + k6, w1 + w2 + wa + wd, e11, ?_, ?_, ?_, ?_, fun _ => by omega⟩
            · simp only [St.mk.injEq, true_and]
              refine ⟨by simp, by omega, by omega⟩
            · refine List.Perm.trans ?_ (permB A' k2)
              rw [List.append_assoc]
              exact (l2.append_left M).append_left A'
            · intro hC
              have fA : ∀ x ∈ A', lt x pivot := fun x hx => (h4 x (k2.mem_iff.mp hx)).1 hC
              have fM1 : ∀ x ∈ M, ¬ lt x pivot := fun x hx => h5 x (g2.mem_iff.mp (by simp [hx])) hC
              have fM2 : ∀ x ∈ M, ¬ lt pivot x := fun x hx => g4 x hx hC
              have fD : ∀ x ∈ D', lt pivot x := fun x hx => (g5 x (l2.mem_iff.mp hx)).1 hC
              have fD1 : ∀ x ∈ D', ¬ lt x pivot := fun x hx => h5 x (g2.mem_iff.mp (by simp [l2.mem_iff.mp hx])) hC
              rw [List.pairwise_append, List.pairwise_append]
              refine ⟨⟨k3 hC, ?_, ?_⟩, l3 hC, ?_⟩
              · rw [List.pairwise_iff_forall_sublist]
                intro a b hab hba
                have ha := hab.subset (show a ∈ [a, b] by simp)
                have hb := hab.subset (show b ∈ [a, b] by simp)
                rcases hnt hC _ pivot _ hba with h | h
                · exact fM1 b hb h
                · exact fM2 a ha h
              · intro a ha b hb hba
                exact fM1 b hb (htr hC _ _ _ hba (fA a ha))
              · intro a ha b hb hba
                rcases List.mem_append.mp ha with ha | ha
                · exact fD1 b hb (htr hC _ _ _ hba (fA a ha))
                · exact fM2 a ha (htr hC _ _ _ (fD b hb) hba)
            · intro hI
              have hM := hMpos hI
              refine ⟨by have := (k4 hI).1; have := (l4 hI).1; omega, ?_⟩
              exact moves_bound (a := A.length) (m := M.length) (d := D.length) (by omega) hM h6 g6
                (fun h => g7 (List.length_eq_zero_iff.mp h)) (k4 hI).2 (l4 hI).2
          · rintro r t ⟨l0, l1⟩
            exact ⟨l0, liftD l1⟩
        · rintro r t ⟨l0, l1⟩
          exact ⟨l0, liftA l1⟩
      · rintro r t ⟨l0, l1⟩
        exact ⟨l0, liftB l1⟩

end
end Utki.QSortX
