import Verif.Model.Sort
import Verif.Lemmas.Hoare
/-! # Lemmas about `utki::sort` -/
set_option linter.unusedSectionVars false
namespace Utki.QSort
variable {α σ : Type} [MovedFrom α]

theorem load_eq (X Y : List α) (c : α) (i : Nat) (hi : i = X.length) (s : σ) :
    load i (X ++ c :: Y, s) = (.ok c, (X ++ c :: Y, s)) := by
  subst hi
  unfold load
  rw [Meth.get_bind]
  simp only
  rw [rd_eq_ok (by simp)]
  simp

theorem store_eq (X Y : List α) (c x : α) (i : Nat) (hi : i = X.length) (s : σ) :
    store i x (X ++ c :: Y, s) = (.ok (), (X ++ x :: Y, s)) := by
  subst hi
  unfold store
  rw [Meth.get_bind]
  simp only
  rw [wr_eq_ok (by simp), Meth.lift_ok_bind]
  simp

theorem take_eq (X Y : List α) (c : α) (i : Nat) (hi : i = X.length) (s : σ) :
    take i (X ++ c :: Y, s) = (.ok c, (X ++ MovedFrom.moved c :: Y, s)) := by
  unfold take
  rw [Meth.bind_ok (load_eq X Y c i hi s), Meth.bind_ok (store_eq X Y c _ i hi s)]
  rfl

theorem iter_swap_eq (X M Y : List α) (b c : α) (i j : Nat) (hi : i = X.length + 1 + M.length) (hj : j = X.length) (s : σ) :
    iter_swap i j (X ++ b :: (M ++ c :: Y), s) = (.ok (), (X ++ c :: (M ++ b :: Y), s)) := by
  have hi' : ∀ x : α, i = (X ++ x :: M).length := by intro x; simp; omega
  have e : ∀ x y : α, X ++ x :: (M ++ y :: Y) = (X ++ x :: M) ++ y :: Y := by intro x y; simp
  unfold iter_swap
  rw [Meth.bind_ok (by rw [e]; exact take_eq _ _ c i (hi' _) s), ← e, Meth.bind_ok (take_eq X _ b j hj s), e,
    Meth.bind_ok (store_eq _ Y _ b i (hi' _) s), ← e, store_eq X _ _ c j hj s]

theorem sat_call {f : Meth σ Bool} {mem : List α} {s : σ} {Q : Bool → List α × σ → Prop} {A : Res Unit → List α × σ → Prop}
    (h : Sat f s (fun b s' => Q b (mem, s')) (fun r s' => A r (mem, s'))) : Sat (call f) (mem, s) Q A := h

/-- What is known of the answers of a predicate. -/
structure Answers (p : α → Meth σ Bool) (Yes No : α → Prop) (Bad : Res Unit → Prop) : Prop where
  sat : ∀ x s, Sat (p x) s (fun b _ => (b = true → Yes x) ∧ (b = false → No x)) (fun r _ => Bad r)

section
variable {p : α → Meth σ Bool} {Yes No : α → Prop} {Bad : Res Unit → Prop}

theorem find_if_not_sat (hp : Answers p Yes No Bad) (pre post : List α) (fuel first last : Nat) (A C : List α) (s : σ)
    (hfuel : C.length < fuel ∨ Bad .diverge) (hfirst : first = pre.length + A.length) (hlast : last = first + C.length)
    (hA : ∀ x ∈ A, Yes x) :
    Sat (find_if_not p fuel first last) (pre ++ (A ++ C) ++ post, s)
      (fun m st => st.1 = pre ++ (A ++ C) ++ post ∧ ∃ A' C', A' ++ C' = A ++ C ∧ m = pre.length + A'.length ∧ (∀ x ∈ A', Yes x) ∧
        (∀ c, C'.head? = some c → No c))
      (fun r st => Bad r ∧ st.1 = pre ++ (A ++ C) ++ post) := by
  induction fuel generalizing first A C s with
  | zero =>
    rcases hfuel with h | h
    · omega
    · exact ⟨h, rfl⟩
  | succ fuel ih =>
    unfold find_if_not
    refine Sat.ite (fun heq => ?_) (fun hne => ?_)
    · have : C = [] := List.length_eq_zero_iff.mp (by omega)
      subst this
      exact Sat.pure ⟨rfl, A, [], rfl, by omega, hA, by simp⟩
    · cases C with
      | nil => simp at hlast; omega
      | cons c C =>
        have e : pre ++ (A ++ c :: C) ++ post = (pre ++ A) ++ c :: (C ++ post) := by simp
        have e' : pre ++ (A ++ c :: C) ++ post = pre ++ ((A ++ [c]) ++ C) ++ post := by simp
        refine Sat.bind (Sat.ok (by rw [e]; exact load_eq _ _ c first (by simp [hfirst]) s) ?_)
        rw [← e]
        refine Sat.bind (sat_call (Sat.mono (hp.sat c s) ?_ ?_))
        · intro b s' hb
          refine Sat.ite (fun h => ?_) (fun h => ?_)
          · exact Sat.pure ⟨rfl, A, c :: C, rfl, by omega, hA, by intro x hx; simp at hx; subst hx; exact hb.2 h⟩
          · have := ih (first + 1) (A ++ [c]) C s' (by simp at hfuel; rcases hfuel with h | h; exact .inl (by omega); exact .inr h)
              (by simp; omega) (by simp at hlast; omega) (by
                intro x hx; simp at hx; rcases hx with h' | h'
                · exact hA x h'
                · subst h'; exact hb.1 (by simpa using h))
            rw [← e'] at this
            simpa using this
        · intro r s' hr; exact ⟨hr, rfl⟩

theorem partitionLoop_sat (hp : Answers p Yes No Bad) (pre post : List α) (fuel i first last : Nat) (A B C : List α) (b : α) (s : σ)
    (hfuel : C.length < fuel ∨ Bad .diverge) (hfirst : first = pre.length + A.length) (hi : i = first + 1 + B.length)
    (hlast : last = i + C.length) (hA : ∀ x ∈ A, Yes x) (hB : ∀ x ∈ b :: B, No x) :
    Sat (partitionLoop p fuel i first last) (pre ++ (A ++ b :: (B ++ C)) ++ post, s)
      (fun m st => ∃ A' B', st.1 = pre ++ (A' ++ B') ++ post ∧ (A' ++ B').Perm (A ++ b :: (B ++ C)) ∧ m = pre.length + A'.length ∧
        (∀ x ∈ A', Yes x) ∧ (∀ x ∈ B', No x))
      (fun r st => Bad r ∧ ∃ seg, st.1 = pre ++ seg ++ post ∧ seg.Perm (A ++ b :: (B ++ C))) := by
  induction fuel generalizing i first A B C b s with
  | zero =>
    rcases hfuel with h | h
    · omega
    · exact ⟨h, _, rfl, List.Perm.refl _⟩
  | succ fuel ih =>
    unfold partitionLoop
    refine Sat.ite (fun heq => ?_) (fun hne => ?_)
    · have : C = [] := List.length_eq_zero_iff.mp (by omega)
      subst this
      exact Sat.pure ⟨A, b :: B, by simp, by simp, hfirst, hA, hB⟩
    · cases C with
      | nil => simp at hlast; omega
      | cons c C =>
        have e : pre ++ (A ++ b :: (B ++ c :: C)) ++ post = (pre ++ A ++ b :: B) ++ c :: (C ++ post) := by simp
        refine Sat.bind (Sat.ok (by rw [e]; exact load_eq _ _ c i (by simp; omega) s) ?_)
        rw [← e]
        have hf' : C.length < fuel ∨ Bad .diverge := by
          simp at hfuel; rcases hfuel with h | h; exact .inl (by omega); exact .inr h
        refine Sat.bind (sat_call (Sat.mono (hp.sat c s) ?_ ?_))
        · intro d s' hd
          refine Sat.ite (fun h => ?_) (fun h => ?_)
          · have e2 : pre ++ (A ++ b :: (B ++ c :: C)) ++ post = (pre ++ A) ++ b :: (B ++ c :: (C ++ post)) := by simp
            refine Sat.bind (Sat.ok (by rw [e2]; exact iter_swap_eq _ B _ b c i first (by simp; omega) (by simp; omega) s') ?_)
            cases B with
            | nil =>
              have e3 : (pre ++ A) ++ c :: ([] ++ b :: (C ++ post)) = pre ++ ((A ++ [c]) ++ b :: ([] ++ C)) ++ post := by simp
              rw [e3]
              have hperm : ((A ++ [c]) ++ b :: ([] ++ C)).Perm (A ++ b :: ([] ++ c :: C)) := by
                simp only [List.append_assoc, List.nil_append, List.singleton_append]
                exact List.Perm.append_left A (List.Perm.swap b c C)
              refine Sat.mono (ih (i + 1) (first + 1) (A ++ [c]) [] C b s' hf' (by simp; omega) (by simp at hi ⊢; omega)
                (by simp at hlast; omega) ?_ hB) ?_ ?_
              · intro x hx; simp at hx; rcases hx with h' | h'
                · exact hA x h'
                · subst h'; exact hd.1 h
              · rintro m st ⟨A', B', h1, h2, h3⟩; exact ⟨A', B', h1, h2.trans hperm, h3⟩
              · rintro r st ⟨h1, seg, h2, h3⟩; exact ⟨h1, seg, h2, h3.trans hperm⟩
            | cons b2 B =>
              have e3 : (pre ++ A) ++ c :: ((b2 :: B) ++ b :: (C ++ post)) = pre ++ ((A ++ [c]) ++ b2 :: ((B ++ [b]) ++ C)) ++ post := by
                simp
              rw [e3]
              have hperm : ((A ++ [c]) ++ b2 :: ((B ++ [b]) ++ C)).Perm (A ++ b :: ((b2 :: B) ++ c :: C)) := by
                simp only [List.append_assoc, List.cons_append]
                refine List.Perm.append_left A ?_
                refine List.Perm.trans ?_ (List.Perm.trans (List.Perm.swap b c (b2 :: (B ++ C))) ?_)
                · refine List.Perm.cons c ?_
                  have := List.perm_middle (a := b) (l₁ := b2 :: B) (l₂ := C)
                  simpa using this
                · refine List.Perm.cons b ?_
                  have := (List.perm_middle (a := c) (l₁ := b2 :: B) (l₂ := C)).symm
                  simpa using this
              refine Sat.mono (ih (i + 1) (first + 1) (A ++ [c]) (B ++ [b]) C b2 s' hf' (by simp; omega) (by simp at hi ⊢; omega)
                (by simp at hlast; omega) ?_ ?_) ?_ ?_
              · intro x hx; simp at hx; rcases hx with h' | h'
                · exact hA x h'
                · subst h'; exact hd.1 h
              · intro x hx; apply hB; simp at hx ⊢; grind
              · rintro m st ⟨A', B', h1, h2, h3⟩; exact ⟨A', B', h1, h2.trans hperm, h3⟩
              · rintro r st ⟨h1, seg, h2, h3⟩; exact ⟨h1, seg, h2, h3.trans hperm⟩
          · have e2 : pre ++ (A ++ b :: (B ++ c :: C)) ++ post = pre ++ (A ++ b :: ((B ++ [c]) ++ C)) ++ post := by simp
            have e3 : A ++ b :: (B ++ c :: C) = A ++ b :: ((B ++ [c]) ++ C) := by simp
            rw [e2, e3]
            refine ih (i + 1) first A (B ++ [c]) C b s' hf' hfirst (by simp; omega) (by simp at hlast; omega) hA ?_
            intro x hx; simp at hx
            rcases hx with h' | h' | h'
            · exact hB x (by simp [h'])
            · exact hB x (by simp [h'])
            · subst h'; exact hd.2 (by simpa using h)
        · intro r s' hr; exact ⟨hr, _, rfl, List.Perm.refl _⟩

theorem partition_sat (hp : Answers p Yes No Bad) (pre post seg : List α) (fuel first last : Nat) (s : σ)
    (hfuel : seg.length < fuel ∨ Bad .diverge) (hfirst : first = pre.length) (hlast : last = first + seg.length) :
    Sat (partition p fuel first last) (pre ++ seg ++ post, s)
      (fun m st => ∃ A B, st.1 = pre ++ (A ++ B) ++ post ∧ (A ++ B).Perm seg ∧ m = pre.length + A.length ∧
        (∀ x ∈ A, Yes x) ∧ (∀ x ∈ B, No x))
      (fun r st => Bad r ∧ ∃ seg', st.1 = pre ++ seg' ++ post ∧ seg'.Perm seg) := by
  unfold partition
  have h1 := find_if_not_sat hp pre post fuel first last [] seg s hfuel (by simpa using hfirst) hlast (by simp)
  simp only [List.nil_append] at h1
  refine Sat.bind (Sat.mono h1 ?_ ?_)
  · rintro m ⟨mem, s'⟩ ⟨h2, A, C, h3, h4, h5, h6⟩
    simp only at h2; subst h2
    refine Sat.ite (fun heq => ?_) (fun hne => ?_)
    · have hlen : A.length + C.length = seg.length := by rw [← h3]; simp
      have : C = [] := List.length_eq_zero_iff.mp (by omega)
      subst this
      simp only [List.append_nil] at h3; subst h3
      exact Sat.pure ⟨A, [], by simp, by simp, h4, h5, by simp⟩
    · have hlen : A.length + C.length = seg.length := by rw [← h3]; simp
      cases C with
      | nil => simp at hlen; omega
      | cons c C =>
        subst h3
        have := partitionLoop_sat hp pre post fuel (m + 1) m last A [] C c s' (by
          simp at hfuel; rcases hfuel with h | h; exact .inl (by omega); exact .inr h) h4 (by simp) (by simp at hlen hlast; omega) h5
          (by intro x hx; simp at hx; subst hx; exact h6 x rfl)
        simpa using this
  · rintro r st ⟨h1, h2⟩; exact ⟨h1, seg, h2, List.Perm.refl _⟩

theorem negated_answers (hp : Answers p Yes No Bad) : Answers (fun x => negated (p x)) No Yes Bad := by
  refine ⟨fun x s => Sat.bind (Sat.mono (hp.sat x s) ?_ (fun _ _ h => h))⟩
  intro b s' hb
  refine Sat.pure ⟨fun h => hb.2 (by simpa using h), fun h => hb.1 (by simpa using h)⟩

end

/-- Knowledge about a comparator: `lt` says when it can answer true (if `C`), `I` says that it never answers true for an
element and itself, `Bad` lists its abnormal outcomes. -/
structure Comparator (cmp : α → α → Meth σ Bool) (C : Prop) (lt : α → α → Prop) (I : Prop) (Bad : Res Unit → Prop) : Prop where
  sat : ∀ x y s, Sat (cmp x y) s (fun b _ => (b = true → (C → lt x y) ∧ (I → x ≠ y)) ∧ (b = false → C → ¬ lt x y)) (fun r _ => Bad r)

theorem exists_split_mem {pre seg post : List α} {k : Nat} (hk : k < seg.length) :
    ∃ X c Y, pre ++ seg ++ post = X ++ c :: Y ∧ X.length = pre.length + k ∧ c ∈ seg := by
  refine ⟨pre ++ seg.take k, seg[k], seg.drop (k + 1) ++ post, ?_, by simp; omega, List.getElem_mem hk⟩
  have : seg = seg.take k ++ seg[k] :: seg.drop (k + 1) := by
    rw [List.getElem_cons_drop, List.take_append_drop]
  simp only [List.append_assoc]
  rw [← List.cons_append, ← List.append_assoc (seg.take k), ← this]

theorem quick_sort_sat {cmp : α → α → Meth σ Bool} {C : Prop} {lt : α → α → Prop} {I : Prop} {Bad : Res Unit → Prop}
    (hc : Comparator cmp C lt I Bad) (hI : I ∨ Bad .diverge)
    (htr : C → ∀ a b c, lt a b → lt b c → lt a c) (hnt : C → ∀ a b c, lt a c → lt a b ∨ lt b c)
    (fuel first last : Nat) (pre seg post : List α) (s : σ)
    (hfuel : seg.length < fuel ∨ Bad .diverge) (hfirst : first = pre.length) (hlast : last = first + seg.length) :
    Sat (quick_sort cmp fuel first last) (pre ++ seg ++ post, s)
      (fun _ st => ∃ seg', st.1 = pre ++ seg' ++ post ∧ seg'.Perm seg ∧ (C → seg'.Pairwise (fun a b => ¬ lt b a)))
      (fun r st => Bad r ∧ ∃ seg', st.1 = pre ++ seg' ++ post ∧ seg'.Perm seg) := by
  induction fuel generalizing first last pre seg post s with
  | zero =>
    rcases hfuel with h | h
    · omega
    · exact ⟨h, seg, rfl, List.Perm.refl _⟩
  | succ fuel ih =>
    unfold quick_sort
    simp only
    refine Sat.ite (fun hn => ?_) (fun hn => ?_)
    · refine Sat.pure ⟨seg, rfl, List.Perm.refl _, fun _ => ?_⟩
      match seg, hlast, hn with
      | [], _, _ => exact List.Pairwise.nil
      | [a], _, _ => simp
      | a :: b :: t, hl, hn => simp at hl; omega
    · obtain ⟨X, pivot, Y, e, hX, hpm⟩ := exists_split_mem (pre := pre) (seg := seg) (post := post)
        (k := (((last : Int) - first) / 2).toNat) (by omega)
      refine Sat.bind (Sat.ok (by rw [e]; exact load_eq X Y pivot _ (by omega) s) ?_)
      rw [← e]
      have ans1 : Answers (fun elem => cmp elem pivot) (fun x => (C → lt x pivot) ∧ (I → x ≠ pivot)) (fun x => C → ¬ lt x pivot) Bad :=
        ⟨fun x s => hc.sat x pivot s⟩
      have ans2 : Answers (fun elem => negated (cmp pivot elem)) (fun x => C → ¬ lt pivot x)
          (fun x => (C → lt pivot x) ∧ (I → pivot ≠ x)) Bad :=
        negated_answers ⟨fun x s => hc.sat pivot x s⟩
      refine Sat.bind (Sat.mono (partition_sat ans1 pre post seg (fuel + 1) first last s hfuel hfirst hlast) ?_ (fun _ _ h => h))
      rintro m1 ⟨mem, s1⟩ ⟨A, B, h1, h2, h3, h4, h5⟩
      simp only at h1; subst h1
      have hlenAB : A.length + B.length = seg.length := by rw [← h2.length_eq]; simp
      have e1 : pre ++ (A ++ B) ++ post = (pre ++ A) ++ B ++ post := by simp
      rw [e1]
      refine Sat.bind (Sat.mono (partition_sat ans2 (pre ++ A) post B (fuel + 1) m1 last s1 (by
        rcases hfuel with h | h; exact .inl (by omega); exact .inr h) (by simp [h3]) (by omega)) ?_ ?_)
      · rintro m2 ⟨mem, s2⟩ ⟨M, D, g1, g2, g3, g4, g5⟩
        simp only at g1; subst g1
        have hlenMD : M.length + D.length = B.length := by rw [← g2.length_eq]; simp
        -- both recursive calls work on fewer elements
        have hsmall : (A.length < fuel ∨ Bad .diverge) ∧ (D.length < fuel ∨ Bad .diverge) := by
          rcases hfuel with hfuel | hfuel
          · rcases hI with hI | hI
            · have hpB : pivot ∈ B := by
                have : pivot ∈ A ++ B := h2.symm.mem_iff.mp hpm
                rcases List.mem_append.mp this with h | h
                · exact absurd rfl ((h4 pivot h).2 hI)
                · exact h
              have hpM : pivot ∈ M := by
                have : pivot ∈ M ++ D := g2.symm.mem_iff.mp hpB
                rcases List.mem_append.mp this with h | h
                · exact h
                · exact absurd rfl ((g5 pivot h).2 hI)
              have hM : 0 < M.length := List.length_pos_of_mem hpM
              exact ⟨.inl (by omega), .inl (by omega)⟩
            · exact ⟨.inr hI, .inr hI⟩
          · exact ⟨.inr hfuel, .inr hfuel⟩
        have permB : ∀ A', A'.Perm A → (A' ++ (M ++ D)).Perm seg := fun A' h => ((h.append g2).trans h2)
        have e2 : (pre ++ A) ++ (M ++ D) ++ post = pre ++ A ++ (M ++ D ++ post) := by simp
        rw [e2]
        refine Sat.bind (Sat.mono (ih first m1 pre A (M ++ D ++ post) s2 hsmall.1 hfirst (by omega)) ?_ ?_)
        · rintro _ ⟨mem, s3⟩ ⟨A', k1, k2, k3⟩
          simp only at k1; subst k1
          have e3 : pre ++ A' ++ (M ++ D ++ post) = (pre ++ A' ++ M) ++ D ++ post := by simp
          rw [e3]
          have hlA' : A'.length = A.length := k2.length_eq
          refine Sat.mono (ih m2 last (pre ++ A' ++ M) D post s3 hsmall.2 (by simp at g3 ⊢; omega) (by simp at g3; omega)) ?_ ?_
          · rintro _ ⟨mem, s4⟩ ⟨D', l1, l2, l3⟩
            simp only at l1; subst l1
            refine ⟨A' ++ M ++ D', by simp, ?_, ?_⟩
            · refine List.Perm.trans ?_ (permB A' k2)
              rw [List.append_assoc]
              exact (l2.append_left M).append_left A'
            · intro hC
              have fA : ∀ x ∈ A', lt x pivot := fun x hx => (h4 x (k2.mem_iff.mp hx)).1 hC
              have fM1 : ∀ x ∈ M, ¬ lt x pivot := fun x hx => h5 x (g2.mem_iff.mp (by simp [hx])) hC
              have fM2 : ∀ x ∈ M, ¬ lt pivot x := fun x hx => g4 x hx hC
              have fD : ∀ x ∈ D', lt pivot x := fun x hx => (g5 x (l2.mem_iff.mp hx)).1 hC
              have fD1 : ∀ x ∈ D', ¬ lt x pivot := fun x hx => h5 x (g2.mem_iff.mp (by simp [l2.mem_iff.mp hx])) hC
              rw [List.pairwise_append, List.pairwise_append]
              refine ⟨⟨k3 hC, ?_, ?_⟩, l3 hC, ?_⟩
              · rw [List.pairwise_iff_forall_sublist]
                intro a b hab hba
                have ha := hab.subset (show a ∈ [a, b] by simp)
                have hb := hab.subset (show b ∈ [a, b] by simp)
                rcases hnt hC _ pivot _ hba with h | h
                · exact fM1 b hb h
                · exact fM2 a ha h
              · intro a ha b hb hba
                exact fM1 b hb (htr hC _ _ _ hba (fA a ha))
              · intro a ha b hb hba
                rcases List.mem_append.mp ha with ha | ha
                · exact fD1 b hb (htr hC _ _ _ hba (fA a ha))
                · exact fM2 a ha (htr hC _ _ _ (fD b hb) hba)
          · rintro r ⟨mem, s4⟩ ⟨l0, D', l1, l2⟩
            simp only at l1; subst l1
            refine ⟨l0, A' ++ M ++ D', by simp, ?_⟩
            refine List.Perm.trans ?_ (permB A' k2)
            rw [List.append_assoc]
            exact (l2.append_left M).append_left A'
        · rintro r ⟨mem, s3⟩ ⟨k0, A', k1, k2⟩
          simp only at k1; subst k1
          exact ⟨k0, A' ++ (M ++ D), by simp, permB A' k2⟩
      · rintro r ⟨mem, s2⟩ ⟨g0, B', g1, g2⟩
        simp only at g1; subst g1
        exact ⟨g0, A ++ B', by simp, (g2.append_left A).trans h2⟩

end Utki.QSort
