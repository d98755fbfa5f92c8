import Verif.Model.SortDepth
import Verif.Props.Sort
import Verif.Props.SortCost
/-!
# How deep the calls of `utki::sort` are nested (C108)
-/
namespace Utki
namespace QSort
open Spec
variable {α σ : Type} [MovedFrom α]

/-- `quick_sort` does what `quick_sort_depth` does. -/
theorem quick_sort_erase (cmp : α → α → Meth σ Bool) (fuel : Nat) : ∀ (first last : Nat) (st : List α × σ),
    quick_sort cmp fuel first last st = ((quick_sort_depth cmp fuel first last st).1.erase, (quick_sort_depth cmp fuel first last st).2) := by
  induction fuel with
  | zero => intro first last st; rfl
  | succ fuel ih =>
    intro first last st
    unfold quick_sort quick_sort_depth
    simp only
    by_cases hn : (last : Int) - (first : Int) ≤ 1
    · rw [if_pos hn, if_pos hn]; rfl
    · rw [if_neg hn, if_neg hn]
      rw [Meth.bind_apply, Meth.bind_apply]
      unfold Meth.bind
      generalize load (first + (((last : Int) - (first : Int)) / 2).toNat) st = r
      obtain ⟨r, st⟩ := r
      cases r <;> simp only [Res.erase]
      rw [Meth.bind_apply, Meth.bind_apply]
      unfold Meth.bind
      generalize partition _ (fuel + 1) first last st = r
      obtain ⟨r, st⟩ := r
      cases r <;> simp only [Res.erase]
      rw [Meth.bind_apply, Meth.bind_apply]
      unfold Meth.bind
      generalize partition _ (fuel + 1) _ last st = r
      obtain ⟨r, st⟩ := r
      cases r <;> simp only [Res.erase]
      rw [Meth.bind_apply, Meth.bind_apply]
      unfold Meth.bind
      rw [ih]
      generalize quick_sort_depth cmp fuel first _ st = r
      obtain ⟨r, st⟩ := r
      cases r <;> simp only [Res.erase]
      rw [Meth.bind_apply, ih]
      unfold Meth.bind
      generalize quick_sort_depth cmp fuel _ last st = r
      obtain ⟨r, st⟩ := r
      cases r <;> simp only [Res.erase] <;> rfl

theorem depth_trivial (cmp : α → α → Meth σ Bool) (fuel first last : Nat) (h : last ≤ first + 1) (st : List α × σ) :
    quick_sort_depth cmp (fuel + 1) first last st = (.ok 1, st) := by
  unfold quick_sort_depth
  simp only
  rw [if_pos (by omega)]; rfl

theorem depth_step (lt : α → α → Bool) (pre post X Y : List α) (pivot : α) (fuel first last n : Nat) (hfirst : first = pre.length)
    (hlast : last = first + (X.length + 1 + Y.length)) (hn : 2 ≤ X.length + 1 + Y.length)
    (hX : X.length = (X.length + 1 + Y.length) / 2) :
    quick_sort_depth (Spec.counting lt) (fuel + 1) first last (pre ++ (X ++ pivot :: Y) ++ post, n) =
      (do
        let middle1 ← partition (tally fun elem => lt elem pivot) (fuel + 1) first last
        let middle2 ← partition (tally fun elem => !lt pivot elem) (fuel + 1) middle1 last
        let d1 ← quick_sort_depth (Spec.counting lt) fuel first middle1
        let d2 ← quick_sort_depth (Spec.counting lt) fuel middle2 last
        return 1 + max d1 d2) (pre ++ (X ++ pivot :: Y) ++ post, n) := by
  conv => lhs; unfold quick_sort_depth
  simp only
  have hidx : ((((last : Nat) : Int) - ((first : Nat) : Int)) / 2).toNat = X.length := by omega
  have e : pre ++ (X ++ pivot :: Y) ++ post = (pre ++ X) ++ pivot :: (Y ++ post) := by simp
  rw [if_neg (by omega), hidx, e, Meth.bind_ok (load_eq (pre ++ X) (Y ++ post) pivot _ (by simp [hfirst]) n)]
  rfl

theorem depth_done (lt : α → α → Bool) (pre post A M D : List α) (pivot : α) (fuel first n : Nat) (hfirst : first = pre.length)
    (hn : 2 ≤ A.length + M.length + D.length) (hp : (A ++ M ++ D)[(A.length + M.length + D.length) / 2]? = some pivot)
    (hA : ∀ x ∈ A, lt x pivot = true) (hMD : ∀ x ∈ M ++ D, lt x pivot = false) (hM : ∀ x ∈ M, lt pivot x = false)
    (hD : ∀ x ∈ D, lt pivot x = true) (hf : A.length + M.length + D.length < fuel + 1) :
    quick_sort_depth (Spec.counting lt) (fuel + 1) first (first + (A.length + M.length + D.length)) (pre ++ (A ++ M ++ D) ++ post, n) =
      (do
        let d1 ← quick_sort_depth (Spec.counting lt) fuel first (first + A.length)
        let d2 ← quick_sort_depth (Spec.counting lt) fuel (first + A.length + M.length) (first + (A.length + M.length + D.length))
        return 1 + max d1 d2)
      (pre ++ (A ++ M ++ D) ++ post, n + (A.length + M.length + D.length) + (M.length + D.length)) := by
  have hlt : (A.length + M.length + D.length) / 2 < (A ++ M ++ D).length := by simp; omega
  obtain ⟨X, Y, hXY, hXl⟩ : ∃ X Y, A ++ M ++ D = X ++ pivot :: Y ∧ X.length = (A.length + M.length + D.length) / 2 := by
    refine ⟨(A ++ M ++ D).take ((A.length + M.length + D.length) / 2), (A ++ M ++ D).drop ((A.length + M.length + D.length) / 2 + 1), ?_, ?_⟩
    · rw [List.getElem?_eq_getElem hlt] at hp
      cases hp
      rw [List.getElem_cons_drop, List.take_append_drop]
    · rw [List.length_take]; omega
  have hl : X.length + 1 + Y.length = A.length + M.length + D.length := by
    have := congrArg List.length hXY
    simp at this; omega
  have h0 := depth_step lt pre post X Y pivot fuel first (first + (A.length + M.length + D.length)) n hfirst (by omega) (by omega) (by omega)
  rw [← hXY] at h0
  rw [h0]
  have e1 : pre ++ (A ++ M ++ D) ++ post = pre ++ (A ++ ((M ++ D) ++ post)) := by simp
  have e2 : pre ++ (A ++ ((M ++ D) ++ post)) = (pre ++ A) ++ (M ++ (D ++ post)) := by simp
  have p1 := partition_done (fun elem => lt elem pivot) A (M ++ D) hA hMD pre post (fuel + 1) first
    (first + (A.length + M.length + D.length)) n hfirst (by simp; omega) (by simp; omega)
  have p2 := partition_done (fun elem => !lt pivot elem) M D (by intro x hx; simp [hM x hx]) (by intro x hx; simp [hD x hx]) (pre ++ A) post
    (fuel + 1) (first + A.length) (first + (A.length + M.length + D.length)) (n + (A.length + (M ++ D).length)) (by simp [hfirst]) (by omega) (by omega)
  rw [e1, Meth.bind_ok p1, e2, Meth.bind_ok p2]
  simp only [List.length_append]
  rw [show n + (A.length + (M.length + D.length)) + (M.length + D.length) = n + (A.length + M.length + D.length) + (M.length + D.length) by omega]

theorem depth_worst (lt : α → α → Bool) (pre post P S : List α) (c m : α) (fuel first n : Nat) (hfirst : first = pre.length)
    (hP : P.length + 1 = (P.length + S.length + 2) / 2) (hirr : lt m m = false)
    (hmin : ∀ x ∈ P ++ c :: S, lt m x = true ∧ lt x m = false) (hf : P.length + S.length + 2 < fuel + 1) :
    quick_sort_depth (Spec.counting lt) (fuel + 1) first (first + (P.length + S.length + 2)) (pre ++ (c :: (P ++ m :: S)) ++ post, n) =
      (do
        let d2 ← quick_sort_depth (Spec.counting lt) fuel (first + 1) (first + (P.length + S.length + 2))
        return 1 + max 1 d2)
        ((pre ++ [m]) ++ (P ++ c :: S) ++ post, n + 2 * (P.length + S.length + 2)) := by
  have h0 := depth_step lt pre post (c :: P) S m fuel first (first + (P.length + S.length + 2)) n hfirst (by simp; omega) (by simp; omega)
    (by simp; omega)
  rw [List.cons_append] at h0
  rw [h0]
  have p1 := partition_done (fun elem => lt elem m) [] (c :: (P ++ m :: S)) (by simp) (by
    intro x hx
    simp at hx
    rcases hx with rfl | hx | rfl | hx
    · exact (hmin x (by simp)).2
    · exact (hmin x (by simp [hx])).2
    · exact hirr
    · exact (hmin x (by simp [hx])).2) pre post (fuel + 1) first (first + (P.length + S.length + 2)) n hfirst (by simp; omega) (by simp; omega)
  have e1 : pre ++ (c :: (P ++ m :: S)) ++ post = pre ++ ([] ++ (c :: (P ++ m :: S) ++ post)) := by simp
  rw [e1, Meth.bind_ok p1, ← e1]
  have p2 : partition (tally fun elem => !lt m elem) (fuel + 1) first (first + (P.length + S.length + 2))
      (pre ++ (c :: (P ++ m :: S)) ++ post, n + (P.length + S.length + 2)) =
      (.ok (first + 1), (pre ++ [m] ++ (P ++ c :: S) ++ post, n + 2 * (P.length + S.length + 2))) := by
    unfold partition
    have hq : ∀ x ∈ P ++ c :: S, (!lt m x) = false := fun x hx => by simp [(hmin x hx).1]
    rw [show pre ++ (c :: (P ++ m :: S)) ++ post = pre ++ c :: (P ++ m :: S ++ post) by simp,
      Meth.bind_ok (find_stop (fun elem => !lt m elem) c (hq c (by simp)) pre _ fuel first _ _ hfirst (by omega)), if_neg (by omega),
      show pre ++ c :: (P ++ m :: S ++ post) = (pre ++ [c]) ++ (P ++ (m :: S ++ post)) by simp]
    obtain ⟨j, hj⟩ : ∃ j, fuel + 1 = j + 1 + S.length + 1 + P.length := ⟨fuel - 1 - S.length - P.length, by omega⟩
    rw [hj, loop_skip _ P (fun x hx => hq x (by simp [hx])) (pre ++ [c]) _ _ (first + 1) _ _ _ (by simp [hfirst]) (by omega)]
    conv => lhs; unfold partitionLoop
    rw [if_neg (by omega), show (pre ++ [c]) ++ (P ++ (m :: S ++ post)) = (pre ++ [c] ++ P) ++ m :: (S ++ post) by simp,
      Meth.bind_ok (load_eq (pre ++ [c] ++ P) (S ++ post) m _ (by simp [hfirst]; omega) _), Meth.bind_ok (call_tally _ m _ _), hirr, if_pos (by rfl),
      show (pre ++ [c] ++ P) ++ m :: (S ++ post) = pre ++ c :: (P ++ m :: (S ++ post)) by simp,
      Meth.bind_ok (iter_swap_eq pre P (S ++ post) c m _ first (by omega) hfirst _),
      show pre ++ m :: (P ++ c :: (S ++ post)) = (pre ++ [m] ++ P ++ [c]) ++ (S ++ post) by simp,
      loop_skip _ S (fun x hx => hq x (by simp [hx])) (pre ++ [m] ++ P ++ [c]) post (j + 1) _ _ _ _ (by simp [hfirst]; omega) (by omega),
      show first + 1 + P.length + 1 + S.length = first + (P.length + S.length + 2) by omega, loop_end]
    simp; omega
  have hcnt : n + ([] : List α).length + 0 = n := by simp
  simp only [List.length_nil, List.length_cons, List.length_append, Nat.zero_add, Nat.add_zero] at p2 ⊢
  rw [show P.length + (S.length + 1) + 1 = P.length + S.length + 2 by omega, Meth.bind_ok p2]
  obtain ⟨k, rfl⟩ : ∃ k, fuel = k + 1 := ⟨fuel - 1, by omega⟩
  rw [Meth.bind_ok (depth_trivial _ k first first (by omega) _)]

theorem quick_sort_depth_le {cmp : α → α → Meth σ Bool} {Bad : Res Unit → Prop}
    (hc : Comparator cmp False (fun _ _ => True) True Bad)
    (fuel first last : Nat) (pre seg post : List α) (s : σ) (hfirst : first = pre.length) (hlast : last = first + seg.length)
    (hfuel : seg.length < fuel ∨ Bad .diverge) :
    Sat (quick_sort_depth cmp fuel first last) (pre ++ seg ++ post, s)
      (fun d st => ∃ seg', st.1 = pre ++ seg' ++ post ∧ seg'.Perm seg ∧ d ≤ max 1 seg.length) (fun _ _ => True) := by
  induction fuel generalizing first last pre seg post s with
  | zero => exact trivial
  | succ fuel ih =>
    unfold quick_sort_depth
    simp only
    refine Sat.ite (fun _ => Sat.pure ⟨seg, rfl, .refl _, Nat.le_max_left _ _⟩) (fun hn => ?_)
    have hn2 : 2 ≤ seg.length := by omega
    have hidx : ((((last : Nat) : Int) - ((first : Nat) : Int)) / 2).toNat = seg.length / 2 := by omega
    rw [hidx]
    have hlt : seg.length / 2 < seg.length := by omega
    obtain ⟨pivot, hpiv⟩ : ∃ pivot, seg[seg.length / 2]? = some pivot := ⟨_, List.getElem?_eq_getElem hlt⟩
    have hpm : pivot ∈ seg := List.mem_of_getElem? hpiv
    obtain ⟨X, Y, hXY, hXl⟩ : ∃ X Y, seg = X ++ pivot :: Y ∧ X.length = seg.length / 2 := by
      refine ⟨seg.take (seg.length / 2), seg.drop (seg.length / 2 + 1), ?_, by simp; omega⟩
      rw [List.getElem?_eq_getElem hlt] at hpiv
      cases hpiv
      rw [List.getElem_cons_drop, List.take_append_drop]
    have e : pre ++ seg ++ post = (pre ++ X) ++ pivot :: (Y ++ post) := by rw [hXY]; simp
    refine Sat.bind (Sat.ok (by rw [e]; exact load_eq (pre ++ X) (Y ++ post) pivot _ (by simp; omega) s) ?_)
    rw [← e]
    have ans1 : Answers (fun elem => cmp elem pivot) (fun x => (False → True) ∧ (True → x ≠ pivot)) (fun x => False → ¬ True) Bad :=
      ⟨fun x s => hc.sat x pivot s⟩
    have ans2 : Answers (fun elem => negated (cmp pivot elem)) (fun x => False → ¬ True)
        (fun x => (False → True) ∧ (True → pivot ≠ x)) Bad :=
      negated_answers ⟨fun x s => hc.sat pivot x s⟩
    refine Sat.bind (Sat.mono (partition_sat ans1 pre post seg (fuel + 1) first last s hfuel hfirst hlast) ?_ (fun _ _ _ => trivial))
    rintro m1 ⟨mem, s1⟩ ⟨A, B, h1, h2, h3, h4, h5⟩
    simp only at h1; subst h1
    have hlenAB : A.length + B.length = seg.length := by rw [← h2.length_eq]; simp
    have e1 : pre ++ (A ++ B) ++ post = (pre ++ A) ++ B ++ post := by simp
    rw [e1]
    refine Sat.bind (Sat.mono (partition_sat ans2 (pre ++ A) post B (fuel + 1) m1 last s1 (by
        rcases hfuel with h | h; exact .inl (by omega); exact .inr h) (by simp [h3]) (by omega)) ?_ (fun _ _ _ => trivial))
    rintro m2 ⟨mem, s2⟩ ⟨M, D, g1, g2, g3, g4, g5⟩
    simp only at g1; subst g1
    have hlenMD : M.length + D.length = B.length := by rw [← g2.length_eq]; simp
    have hpB : pivot ∈ B := by
      have : pivot ∈ A ++ B := h2.symm.mem_iff.mp hpm
      rcases List.mem_append.mp this with h | h
      · exact absurd rfl ((h4 pivot h).2 trivial)
      · exact h
    have hpM : pivot ∈ M := by
      have : pivot ∈ M ++ D := g2.symm.mem_iff.mp hpB
      rcases List.mem_append.mp this with h | h
      · exact h
      · exact absurd rfl ((g5 pivot h).2 trivial)
    have hM : 0 < M.length := List.length_pos_of_mem hpM
    have e2 : (pre ++ A) ++ (M ++ D) ++ post = pre ++ A ++ (M ++ D ++ post) := by simp
    rw [e2]
    refine Sat.bind (Sat.mono (ih first m1 pre A (M ++ D ++ post) s2 hfirst (by omega)
      (by rcases hfuel with h | h; exact .inl (by omega); exact .inr h)) ?_ (fun _ _ _ => trivial))
    rintro d1 ⟨mem, s3⟩ ⟨A', k1, k2, k3⟩
    simp only at k1; subst k1
    have e3 : pre ++ A' ++ (M ++ D ++ post) = (pre ++ A' ++ M) ++ D ++ post := by simp
    rw [e3]
    have hlA' : A'.length = A.length := k2.length_eq
    refine Sat.bind (Sat.mono (ih m2 last (pre ++ A' ++ M) D post s3 (by simp at g3 ⊢; omega) (by simp at g3; omega)
      (by rcases hfuel with h | h; exact .inl (by omega); exact .inr h)) ?_ (fun _ _ _ => trivial))
    rintro d2 ⟨mem, s4⟩ ⟨D', l1, l2, l3⟩
    simp only at l1; subst l1
    refine Sat.pure ⟨A' ++ M ++ D', by simp, ?_, ?_⟩
    · refine List.Perm.trans ?_ h2
      rw [List.append_assoc]
      exact k2.append (((l2.append_left M)).trans g2)
    · omega

end QSort

open Spec QSort
variable {α σ : Type} [MovedFrom α]

/-- C108: `sort` does what the function that measures the depth does. -/
theorem C108_same (cmp : α → α → Meth σ Bool) (fuel first last : Nat) (st : List α × σ) :
    sort cmp fuel first last st = ((quick_sort_depth cmp fuel first last st).1.erase, (quick_sort_depth cmp fuel first last st).2) :=
  quick_sort_erase cmp fuel first last st

/-- C108: for a comparator that always returns and never says that an element is less than itself, the calls of `quick_sort` for `n` elements are nested at
most `n` deep (one call for no elements). -/
theorem C108_at_most (cmp : α → α → Meth σ Bool) (hret : ∀ x y s, ∃ b, (cmp x y s).1 = .ok b)
    (hirr : ∀ x s, (cmp x x s).1 ≠ .ok true) (pre seg post : List α) (s : σ) (fuel : Nat) (hf : seg.length < fuel) :
    ∃ d ≤ max 1 seg.length, (quick_sort_depth cmp fuel pre.length (pre.length + seg.length) (pre ++ seg ++ post, s)).1 = .ok d := by
  have hc : Comparator cmp False (fun _ _ => True) True (fun _ => False) := by
    refine ⟨fun x y t => ?_⟩
    obtain ⟨b, hb⟩ := hret x y t
    refine Sat.ok (a := b) (s' := (cmp x y t).2) (Prod.ext hb rfl) ⟨fun h => ⟨False.elim, fun _ he => ?_⟩, fun _ => False.elim⟩
    subst he; subst h; exact hirr x t hb
  have h1 := C46_terminates cmp hret hirr pre seg post s fuel hf
  rw [C108_same] at h1
  have h2 := quick_sort_depth_le hc fuel pre.length (pre.length + seg.length) pre seg post s rfl rfl (.inl hf)
  unfold Sat at h2
  revert h1 h2
  generalize quick_sort_depth cmp fuel pre.length (pre.length + seg.length) (pre ++ seg ++ post, s) = r
  obtain ⟨r, st⟩ := r
  cases r with
  | ok d => rintro - ⟨_, -, -, h⟩; exact ⟨d, h, rfl⟩
  | _ => intro h; simp [Res.erase] at h

/-- C108: this depth is reached, for every number of different elements, also when they are numbers compared by `<`. -/
theorem C108_attained [MovedFrom Nat] (n : Nat) (hn : 1 ≤ n) (pre post : List Nat) (calls fuel : Nat) (hf : n < fuel) :
    ∃ seg : List Nat, seg.length = n ∧ seg.Nodup ∧
      (quick_sort_depth (counting fun a b => decide (a < b)) fuel pre.length (pre.length + n) (pre ++ seg ++ post, calls)).1 = .ok n := by
  suffices h : ∀ base, ∃ seg : List Nat, seg.length = n ∧ seg.Nodup ∧ (∀ x ∈ seg, base ≤ x) ∧ ∀ pre calls fuel, n < fuel →
      (quick_sort_depth (counting fun a b => decide (a < b)) fuel pre.length (pre.length + n) (pre ++ seg ++ post, calls)).1 = .ok n by
    obtain ⟨seg, h1, h2, _, h3⟩ := h 0
    exact ⟨seg, h1, h2, h3 pre calls fuel hf⟩
  clear hf fuel calls pre
  induction n, hn using Nat.le_induction with
  | base =>
    intro base
    refine ⟨[base], rfl, by simp, by simp, fun pre calls fuel hf => ?_⟩
    obtain ⟨k, rfl⟩ : ∃ k, fuel = k + 1 := ⟨fuel - 1, by omega⟩
    rw [depth_trivial _ k _ _ (by omega)]
  | succ n hn ih =>
    intro base
    obtain ⟨L, h1, h2, h3, h4⟩ := ih (base + 1)
    have hlt : (n + 1) / 2 - 1 < L.length := by omega
    obtain ⟨P, c, S, hL, hP⟩ : ∃ P c S, L = P ++ c :: S ∧ P.length = (n + 1) / 2 - 1 :=
      ⟨L.take ((n + 1) / 2 - 1), L[(n + 1) / 2 - 1], L.drop ((n + 1) / 2 - 1 + 1), by
        rw [List.getElem_cons_drop, List.take_append_drop], by simp; omega⟩
    subst hL
    have hlen : P.length + S.length + 1 = n := by simp at h1; omega
    have hmin : ∀ x ∈ P ++ c :: S, base < x := fun x hx => h3 x hx
    refine ⟨c :: (P ++ base :: S), by simp; omega, ?_, ?_, fun pre calls fuel hf => ?_⟩
    · have hnot : base ∉ P ++ c :: S := fun h => absurd (hmin base h) (lt_irrefl _)
      have : (base :: (P ++ c :: S)).Nodup := List.nodup_cons.mpr ⟨hnot, h2⟩
      have hperm : (base :: (P ++ c :: S)).Perm (c :: (P ++ base :: S)) :=
        (List.Perm.cons base List.perm_middle).trans ((List.Perm.swap c base (P ++ S)).trans (List.Perm.cons c List.perm_middle.symm))
      exact hperm.nodup_iff.mp this
    · intro x hx
      simp at hx
      rcases hx with rfl | hx | rfl | hx
      · exact (hmin x (by simp)).le
      · exact (hmin x (by simp [hx])).le
      · exact le_refl _
      · exact (hmin x (by simp [hx])).le
    · obtain ⟨k, rfl⟩ : ∃ k, fuel = k + 1 := ⟨fuel - 1, by omega⟩
      rw [show pre.length + (n + 1) = pre.length + (P.length + S.length + 2) by omega,
        depth_worst _ pre post P S c base k pre.length calls rfl (by omega) (by simp)
          (fun x hx => by have := hmin x hx; simp; omega) (by omega)]
      have := h4 (pre ++ [base]) (calls + 2 * (P.length + S.length + 2)) k (by omega)
      rw [List.length_append, List.length_singleton, show pre.length + 1 + n = pre.length + (P.length + S.length + 2) by omega] at this
      revert this
      rw [Meth.bind_apply]
      unfold Meth.bind
      generalize quick_sort_depth (α := Nat) (σ := Nat) _ k (pre.length + 1) _ _ = r
      obtain ⟨r, st⟩ := r
      rintro h
      simp only at h
      subst h
      simp only [Meth.pure_eval, Res.ok.injEq]
      omega

/-- C108: for a range that is sorted already the depth is at most the logarithm. -/
theorem C108_sorted_range (lt : α → α → Bool) (h : StrictWeakOrder lt) (pre seg post : List α) (hs : Sorted lt seg)
    (calls fuel : Nat) (hf : seg.length < fuel) :
    ∃ d ≤ Nat.log 2 seg.length + 1, ∃ k,
      quick_sort_depth (counting lt) fuel pre.length (pre.length + seg.length) (pre ++ seg ++ post, calls) =
        (.ok d, (pre ++ seg ++ post, calls + k)) := by
  induction fuel generalizing pre seg post calls with
  | zero => omega
  | succ fuel ih =>
    by_cases hn : seg.length ≤ 1
    · exact ⟨1, by omega, 0, by rw [depth_trivial _ fuel _ _ (by omega)]; rfl⟩
    · have hlt : seg.length / 2 < seg.length := by omega
      obtain ⟨pivot, hpiv⟩ : ∃ pivot, seg[seg.length / 2]? = some pivot := ⟨_, List.getElem?_eq_getElem hlt⟩
      have hnt : ∀ a b c, lt a c = true → lt a b = false → lt b c = true := by
        intro a b c hac hab
        cases h2 : lt b c with
        | true => rfl
        | false =>
          cases h3 : lt b a with
          | true => rw [h.trans b a c h3 hac] at h2; cases h2
          | false =>
            cases h4 : lt c b with
            | true => rw [h.trans a c b hac h4] at hab; cases hab
            | false => rw [(h.incomparable a b c hab h3 h2 h4).1] at hac; cases hac
      obtain ⟨A, R, hAR, hA, hR⟩ := split_while (fun x => lt x pivot) seg hs (by
        intro x y hxy hx
        cases hy : lt y pivot with
        | false => rfl
        | true => rw [hnt y x pivot hy hxy] at hx; cases hx)
      subst hAR
      have hsp := List.pairwise_append.mp hs
      obtain ⟨M, D, hMD, hM, hD⟩ := split_while (fun x => !lt pivot x) R hsp.2.1 (by
        intro x y hxy hx
        simp only [Bool.not_eq_eq_eq_not, Bool.not_false] at hx ⊢
        cases hy : lt pivot y with
        | true => rfl
        | false => rw [hnt pivot y x hx hy] at hxy; cases hxy)
      subst hMD
      have hsMD := List.pairwise_append.mp hsp.2.1
      rw [← List.append_assoc] at *
      simp only [List.length_append] at *
      have ha : A.length ≤ (A.length + M.length + D.length) / 2 := by
        by_contra hc
        rw [List.append_assoc, List.getElem?_append_left (by omega)] at hpiv
        have := hA pivot (List.mem_of_getElem? hpiv)
        rw [h.irrefl] at this; cases this
      have hm : (A.length + M.length + D.length) / 2 < A.length + M.length := by
        by_contra hc
        rw [List.getElem?_append_right (by simp; omega)] at hpiv
        have := hD pivot (List.mem_of_getElem? hpiv)
        rw [h.irrefl] at this; cases this
      obtain ⟨d1, hd1, k1, e1⟩ := ih pre A (M ++ D ++ post) hsp.1 (calls + (A.length + M.length + D.length) + (M.length + D.length)) (by omega)
      obtain ⟨d2, hd2, k2, e2⟩ := ih (pre ++ A ++ M) D post hsMD.2.1 (calls + (A.length + M.length + D.length) + (M.length + D.length) + k1) (by omega)
      refine ⟨1 + max d1 d2, ?_, A.length + M.length + D.length + (M.length + D.length) + k1 + k2, ?_⟩
      · have hlog : Nat.log 2 (A.length + M.length + D.length) = Nat.log 2 ((A.length + M.length + D.length) / 2) + 1 :=
          Nat.log_of_one_lt_of_le (by norm_num) (by omega)
        have h1 : Nat.log 2 A.length ≤ Nat.log 2 ((A.length + M.length + D.length) / 2) := Nat.log_mono_right ha
        have h2 : Nat.log 2 D.length ≤ Nat.log 2 ((A.length + M.length + D.length) / 2) := Nat.log_mono_right (by omega)
        omega
      · rw [depth_done lt pre post A M D pivot fuel pre.length calls rfl (by omega) hpiv hA hR
          (fun x hx => by simpa using hM x hx) (fun x hx => by simpa using hD x hx) (by omega)]
        have x1 : pre ++ (A ++ M ++ D) ++ post = pre ++ A ++ (M ++ D ++ post) := by simp
        have x2 : pre ++ A ++ (M ++ D ++ post) = (pre ++ A ++ M) ++ D ++ post := by simp
        rw [x1, Meth.bind_ok e1, x2]
        simp only [List.length_append] at e2
        rw [show pre.length + (A.length + M.length + D.length) = pre.length + A.length + M.length + D.length by omega, Meth.bind_ok e2]
        simp only [Meth.pure_eval, Prod.mk.injEq, true_and]
        omega

/-- In the examples a moved-from number is 77. -/
local instance movedNat108 : MovedFrom Nat := ⟨fun _ => 77⟩

/-- Six different numbers for which the calls are nested six deep, and six for which they are nested three deep. -/
example : (quick_sort_depth (counting fun a b => decide (a < b)) 9 0 6 ([1, 5, 3, 0, 2, 4], 0)).1 = .ok 6 ∧
    (quick_sort_depth (counting fun a b => decide (a < b)) 9 0 6 ([0, 1, 2, 3, 4, 5], 0)).1 = .ok 3 ∧ Nat.log 2 6 + 1 = 3 := by
  refine ⟨by decide +kernel, by decide +kernel, by decide +kernel⟩

end Utki
