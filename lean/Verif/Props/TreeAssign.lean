import Verif.Lemmas.TreeAssign
/-! # Assigning trees (C136) -/
namespace Utki
open Spec TreeAssign
namespace TreeAssign
variable {α : Type}

theorem load_obj {h : Heap α} {l : Loc} {n : Node α} (hn : ObjAt h l n) : load l h = (.ok n, h) := by
  obtain ⟨es, h1, h2⟩ := hn
  exact load_eval h1 h2

theorem obj_unique {h : Heap α} {l : Loc} {n m : Node α} (hn : ObjAt h l n) (hm : ObjAt h l m) : n = m := by
  obtain ⟨es, h1, h2⟩ := hn
  obtain ⟨es', h3, h4⟩ := hm
  rw [h1] at h3
  cases h3
  rw [h2] at h4
  exact Option.some.inj h4

theorem store_obj {h : Heap α} (ok : HeapOk h) {l : Loc} {n m : Node α} (hn : ObjAt h l n) :
    ∃ h', store l m h = (.ok (), h') ∧ ObjAt h' l m ∧ (∀ l', l' ≠ l → ∀ x, ObjAt h l' x ↔ ObjAt h' l' x) ∧ Replaces h h' [l.1] [l.1] ∧
      ∀ es, h.bufs l.1 = some es → h'.bufs l.1 = some (es.set l.2 m) := by
  obtain ⟨es, h1, h2⟩ := hn
  have hi := lt_of_get h2
  refine ⟨_, store_eval h1 hi, ⟨es.set l.2 m, by simp [Heap.put], by simp [hi]⟩, ?_, put_replaces ok (used_lt ok h1) _, ?_⟩
  · intro l' hl x
    unfold ObjAt
    by_cases e : l'.1 = l.1
    · have : l.2 ≠ l'.2 := fun e2 => hl (Prod.ext e e2.symm)
      rw [e, h1]
      simp [Heap.put, List.getElem?_set_ne this]
    · simp [Heap.put, e]
  · intro es' he
    rw [h1] at he
    cases he
    simp [Heap.put]

theorem isNodes_at {h : Heap α} : ∀ (i : Nat) (cs : List (Tree α)) (es : List (Node α)) (own : List Nat) (m : Node α) (c : Tree α), IsNodes h es cs own → es[i]? = some m → cs[i]? = some c →
    ∃ o1 om o2, own = o1 ++ om ++ o2 ∧ IsNode h m c om ∧ ∀ (h' : Heap α) (m' : Node α) (c' : Tree α) (om' : List Nat), (∀ b ∈ o1 ++ o2, h'.bufs b = h.bufs b) → IsNode h' m' c' om' →
      IsNodes h' (es.set i m') (cs.set i c') (o1 ++ om' ++ o2)
  | _, [], _, _, _, _, _, _, hc => by simp at hc
  | 0, t :: ts, es, own, m, c, hn, hm, hc => by
    rw [IsNodes] at hn
    obtain ⟨n, ns', o1, o2, rfl, rfl, g1, g2⟩ := hn
    simp only [List.getElem?_cons_zero, Option.some.injEq] at hm hc
    subst hm hc
    refine ⟨[], o1, o2, rfl, g1, ?_⟩
    intro h' m' c' om' hs hm
    show IsNodes h' (m' :: ns') (c' :: ts) _
    rw [IsNodes]
    exact ⟨m', ns', om', o2, rfl, rfl, hm, isNodes_of_same ts ns' o2 (fun b hb => hs b (by simp [hb])) g2⟩
  | i + 1, t :: ts, es, own, m, c, hn, hm, hc => by
    rw [IsNodes] at hn
    obtain ⟨n, ns', o1, o2, rfl, rfl, g1, g2⟩ := hn
    simp only [List.getElem?_cons_succ] at hm hc
    obtain ⟨p1, pm, p2, rfl, k1, k2⟩ := isNodes_at i ts ns' o2 m c g2 hm hc
    refine ⟨o1 ++ p1, pm, p2, by simp, k1, ?_⟩
    intro h' m' c' om' hs hm'
    show IsNodes h' (n :: ns'.set i m') (t :: ts.set i c') _
    rw [IsNodes]
    exact ⟨n, _, o1, p1 ++ om' ++ p2, rfl, by simp, isNode_of_same t n o1 (fun b hb => hs b (by simp [hb])) g1,
      k2 h' m' c' om' (fun b hb => hs b (by simp only [List.mem_append] at hb ⊢; rcases hb with hb | hb <;> simp [hb])) hm'⟩

theorem heightList_set {i : Nat} {c c' : Tree α} : ∀ {cs : List (Tree α)}, cs[i]? = some c → c'.height ≤ c.height → Tree.heightList (cs.set i c') ≤ Tree.heightList cs := by
  induction i with
  | zero =>
    intro cs hc hh
    cases cs with
    | nil => simp at hc
    | cons t ts =>
      simp only [List.getElem?_cons_zero, Option.some.injEq] at hc
      subst hc
      simp only [List.set_cons_zero, Tree.heightList]
      omega
  | succ i ih =>
    intro cs hc hh
    cases cs with
    | nil => simp at hc
    | cons t ts =>
      simp only [List.getElem?_cons_succ] at hc
      have := ih hc hh
      simp only [List.set_cons_succ, Tree.heightList]
      omega

/-- The tree without one of its subtrees. -/
theorem hole (p : Path) : ∀ (i : Nat) (h : Heap α) (l l' : Loc) (n : Node α) (t st : Tree α) (own : List Nat), ObjAt h l n → IsNode h n t own → own.Nodup →
    locBelow h l (i :: p) = some l' → partAt t (i :: p) = some st →
    ∃ sn sown rest, ObjAt h l' sn ∧ IsNode h sn st sown ∧ own.Perm (sown ++ rest) ∧ l'.1 ∈ rest ∧ st.height < t.height ∧
      ∀ (h' : Heap α) (w : α), (∀ b ∈ rest, b ≠ l'.1 → h'.bufs b = h.bufs b) → (∀ es, h.bufs l'.1 = some es → h'.bufs l'.1 = some (es.set l'.2 ⟨w, none, 0⟩)) →
        ∃ t', IsNode h' n t' rest ∧ t'.height ≤ t.height := by
  induction p with
  | nil =>
    intro i h l l' n t st own hl hn hd hloc hst
    obtain ⟨v, cs⟩ := t
    obtain ⟨es0, hl1, hl2⟩ := hl
    rw [IsNode] at hn
    rcases hn.2 with ⟨e1, e2, rfl, rfl⟩ | ⟨b, es, below, e1, e2, e3, e4, rfl⟩
    · simp [partAt, Tree.children] at hst
    · simp only [locBelow, hl1, hl2, e1, Option.some.injEq] at hloc
      subst hloc
      have hc : cs[i]? = some st := by
        simp only [partAt, Tree.children] at hst
        split at hst
        · exact nomatch hst
        · next c hc => rw [hc]; exact hst
      have hlen := isNodes_length _ _ _ e4
      obtain ⟨m, hm⟩ : ∃ m, es[i]? = some m := ⟨es[i]'(by rw [hlen]; exact lt_of_get hc), by simp⟩
      obtain ⟨o1, om, o2, rfl, k1, k2⟩ := isNodes_at i cs es below m st e4 hm hc
      rw [List.nodup_cons] at hd
      refine ⟨m, om, b :: (o1 ++ o2), ⟨es, e2, hm⟩, k1, ?_, by simp, ?_, ?_⟩
      · rw [List.perm_iff_count]; intro a; simp only [List.count_cons, List.count_append]; omega
      · rw [Tree.height]; have := height_le_list (List.mem_of_getElem? hc); omega
      · intro h' w hs1 hs2
        refine ⟨.node v (cs.set i (.node w [])), ?_, ?_⟩
        · rw [IsNode]
          refine ⟨hn.1, .inr ⟨b, _, o1 ++ [] ++ o2, e1, hs2 es e2, by simpa using e3, ?_, by simp⟩⟩
          refine k2 h' _ _ [] ?_ (by rw [IsNode]; exact ⟨rfl, .inl ⟨rfl, rfl, rfl, rfl⟩⟩)
          intro c hc
          refine hs1 c (by simp at hc ⊢; exact .inr hc) ?_
          intro e
          subst e
          exact hd.1 (by simp at hc ⊢; rcases hc with hc | hc <;> simp [hc])
        · rw [Tree.height, Tree.height]
          have := heightList_set (c' := .node w []) hc (by have := height_pos st; simp [Tree.height, Tree.heightList]; omega)
          omega
  | cons j q ih =>
    intro i h l l' n t st own hl hn hd hloc hst
    obtain ⟨v, cs⟩ := t
    obtain ⟨es0, hl1, hl2⟩ := hl
    rw [IsNode] at hn
    rcases hn.2 with ⟨e1, e2, rfl, rfl⟩ | ⟨b, es, below, e1, e2, e3, e4, rfl⟩
    · simp [partAt, Tree.children] at hst
    · rw [locBelow, hl1] at hloc
      simp only [hl2, e1] at hloc
      rw [partAt] at hst
      simp only [Tree.children] at hst
      split at hst
      · exact nomatch hst
      · next c hc =>
        have hlen := isNodes_length _ _ _ e4
        obtain ⟨m, hm⟩ : ∃ m, es[i]? = some m := ⟨es[i]'(by rw [hlen]; exact lt_of_get hc), by simp⟩
        obtain ⟨o1, om, o2, rfl, k1, k2⟩ := isNodes_at i cs es below m c e4 hm hc
        rw [List.nodup_cons, List.nodup_append, List.nodup_append] at hd
        obtain ⟨hb, ⟨nd1, ndm, nd1m⟩, nd2, nd12⟩ := hd
        obtain ⟨sn, sown, rest, q1, q2, q3, q4, q5, q6⟩ := ih j h (b, i) l' m c st om ⟨es, e2, hm⟩ k1 ndm hloc hst
        have lm : l'.1 ∈ om := q3.mem_iff.mpr (by simp [q4])
        have rm : ∀ x ∈ rest, x ∈ om := fun x hx => q3.mem_iff.mpr (by simp [hx])
        have bm : b ≠ l'.1 := fun e => hb (by simp [e, lm])
        refine ⟨sn, sown, b :: (o1 ++ rest ++ o2), q1, q2, ?_, by simp [q4], ?_, ?_⟩
        · rw [List.perm_iff_count] at q3 ⊢; intro a; have := q3 a; simp only [List.count_cons, List.count_append] at this ⊢; omega
        · rw [Tree.height]; have := height_le_list (List.mem_of_getElem? hc); omega
        · intro h' w hs1 hs2
          obtain ⟨t', g1, g2⟩ := q6 h' w (fun x hx hne => hs1 x (by simp [hx]) hne) hs2
          refine ⟨.node v (cs.set i t'), ?_, ?_⟩
          · rw [IsNode]
            refine ⟨hn.1, .inr ⟨b, es.set i m, o1 ++ rest ++ o2, e1, ?_, by simpa using e3, ?_, rfl⟩⟩
            · rw [hs1 b (by simp) bm, e2, set_same hm]
            · refine k2 h' m t' rest ?_ g1
              intro x hx
              simp only [List.mem_append] at hx
              refine hs1 x (by simp; rcases hx with hx | hx <;> simp [hx]) ?_
              intro e
              rcases hx with hx | hx
              · exact nd1m x hx l'.1 lm e
              · exact nd12 l'.1 (by simp [lm]) x hx e.symm
          · rw [Tree.height, Tree.height]
            have := heightList_set hc g2
            omega

theorem isNode_anyVal {h : Heap α} {n : Node α} {t : Tree α} {own : List Nat} (hn : IsNode h n t own) (w : α) :
    ∃ t', IsNode h { n with val := w } t' own ∧ t'.height = t.height := by
  obtain ⟨v, cs⟩ := t
  exact ⟨.node w cs, isNode_setVal hn, by simp [Tree.height]⟩

theorem sameBeside_of {h h' : Heap α} {l : Loc} (hs : ∀ l', l' ≠ l → ∀ x, ObjAt h l' x ↔ ObjAt h' l' x) : SameBeside h h' l :=
  fun i n hi => hs (l.1, i) (fun e => hi (by rw [← e])) n

theorem sameBeside_set {h h' : Heap α} {l : Loc} {es : List (Node α)} {n : Node α} (h1 : h.bufs l.1 = some es) (h2 : h'.bufs l.1 = some (es.set l.2 n)) : SameBeside h h' l := by
  intro i m hi
  unfold ObjAt
  simp [h1, h2, List.getElem?_set_ne (Ne.symm hi)]

theorem mem_one {b c : Nat} {own : List Nat} (hc : c ∉ own) (hb : b ∈ own) : b ∉ [c] := by
  simp only [List.mem_singleton]
  exact fun e => hc (e ▸ hb)

end TreeAssign
variable {α : Type}

/-- C136: assigning a tree to another, of which it is no part and which is no part of it, makes it equal to it. The source and all other objects are as they were; the buffers of the target are
used again or given back. (For parts of the target this is false, see `C136_assign_own_undefined`.) -/
theorem C136_assign_partial (early : Bool) (fuel : Nat) (h : Heap α) (dst src : Loc) (dt st : Tree α) (dfp sfp : List Nat) (ok : HeapOk h) (hd : TreeAt h dst dt dfp)
    (hs : TreeAt h src st sfp) (ha : NoPart dst dfp src sfp) (hf : dt.height < fuel) (hf' : st.height ≤ fuel) :
    ∃ own' h', assignNode early fuel dst src h = (.ok (), h') ∧ TreeAt h' dst st own' ∧ TreeAt h' src st sfp ∧ Replaces h h' (dst.1 :: dfp) (dst.1 :: own') ∧ SameBeside h h' dst := by
  obtain ⟨dn, ⟨des, d1, d2⟩, d3, d4, d5⟩ := hd
  obtain ⟨sn, ⟨ses, s1, s2⟩, s3, s4, s5⟩ := hs
  obtain ⟨a1, a2, a3, a4⟩ := ha
  obtain ⟨n', own', h', k1, k2, k3, k4, k5, k6⟩ := assignNode_eval early fuel dt st hf hf' h dst.1 dst.2 src.1 src.2 des ses dn sn dfp sfp ok d1 d2 d3 d4 d5 s1 s2 s3 a2 a3 a4 a1
  have hb := sameBeside_set (l := dst) d1 k2
  refine ⟨own', h', k1, ⟨n', ⟨_, k2, by simp [lt_of_get d2]⟩, k3, k4, k5⟩, ⟨sn, ?_, ?_, s4, s5⟩, k6, hb⟩
  · by_cases e : src.1 = dst.1
    · have e2 : src.2 ≠ dst.2 := fun e2 => a1 (Prod.ext e.symm e2.symm)
      have := (hb src.2 sn e2).mp (by rw [← e]; exact ⟨ses, s1, s2⟩)
      rw [← e] at this
      exact this
    · exact ⟨ses, by rw [k6.keep (used_lt ok s1) (by simp only [List.mem_cons, not_or]; exact ⟨e, a3⟩), s1], s2⟩
  · refine isNode_keep ok k6 s3 ?_
    intro b hb hc
    rcases List.mem_cons.mp hc with hc | hc
    · exact a2 (hc ▸ hb)
    · exact a4 b hc hb

/-- C136: assigning a tree to itself changes nothing. -/
theorem C136_assign_self (early : Bool) (fuel : Nat) (h : Heap α) (l : Loc) (n : Node α) (hn : ObjAt h l n) :
    ∃ h', assignNode early (fuel + 1) l l h = (.ok (), h') ∧ ∀ b, h'.bufs b = h.bufs b := by
  obtain ⟨es, h1, h2⟩ := hn
  have e0 : load l h = (.ok n, h) := load_eval h1 h2
  refine ⟨h.put l.1 (some (es.set l.2 { n with val := n.val })), ?_, ?_⟩
  · rw [assignNode, Meth.bind_ok e0, Meth.bind_ok e0, Meth.bind_ok (store_eval h1 (lt_of_get h2))]
    simp [assignVec]
  · intro b
    by_cases e : b = l.1
    · subst e; simp only [Heap.put, if_true]; rw [set_same h2, h1]
    · simp [Heap.put, e]

/-- C136: with libstdc++ a tree may be assigned a part of itself if its vector of children has to grow for that: the new children are made before the old ones go. -/
theorem C136_assign_own_grow (fuel : Nat) (h : Heap α) (dst src : Loc) (dn : Node α) (dt st : Tree α) (own : List Nat) (i : Nat) (p : Path) (ok : HeapOk h) (hn : ObjAt h dst dn)
    (hd : TreeAt h dst dt own) (hl : locBelow h dst (i :: p) = some src) (hst : partAt dt (i :: p) = some st) (hcap : dn.cap < st.children.length) (hf : dt.height ≤ fuel) :
    ∃ own' h', assignNode false (fuel + 1) dst src h = (.ok (), h') ∧ TreeAt h' dst st own' ∧ (∀ b ∈ own', h.next ≤ b) ∧ Replaces h h' (dst.1 :: own) (dst.1 :: own') ∧
      SameBeside h h' dst := by
  obtain ⟨dn', hn', d3, d4, d5⟩ := hd
  have e := obj_unique hn hn'
  subst e
  obtain ⟨sn, sown, rest, q1, q2, q3, q4, q5, -⟩ := hole p i h dst src dn dt st own hn d3 d4 hl hst
  have srco : src.1 ∈ own := q3.mem_iff.mpr (by simp [q4])
  have hne : dst ≠ src := fun e => d5 (e ▸ srco)
  obtain ⟨h1, s1, s2, s3, s4, s5⟩ := store_obj ok (m := { dn with val := sn.val }) hn
  obtain ⟨des, d1, d2⟩ := hn
  obtain ⟨dv, dcs⟩ := dt
  obtain ⟨sv, scs⟩ := st
  have sownD : ∀ b ∈ sown, b ∈ own := fun b hb => q3.mem_iff.mpr (by simp [hb])
  have hsv : sn.val = sv := by rw [IsNode] at q2; exact q2.1
  have hd1 : IsNode h1 { dn with val := sn.val } (.node sv dcs) own := by
    rw [← hsv]
    exact isNode_setVal (isNode_keep ok s4 d3 (fun b hb => mem_one d5 hb))
  have hs1 : IsNode h1 sn (.node sv scs) sown := isNode_keep ok s4 q2 (fun b hb => mem_one d5 (sownD b hb))
  have hs1' := hs1
  rw [IsNode] at hs1'
  simp only [Tree.children] at hcap
  rcases hs1'.2 with ⟨-, -, rfl, -⟩ | ⟨b, es, S, g1, g2, g3, g4, rfl⟩
  · simp at hcap
  · rw [Tree.height] at hf q5
    have hh := s5 des d1
    obtain ⟨n', own', h', k1, k2, k3, k4, k5, k6, k7⟩ := grow_eval false fuel (v := sv) (i := dst.2) (dn := { dn with val := sn.val }) (by omega) (by rw [Tree.height] at q5; omega) s4.ok hh
      (by simp [lt_of_get d2]) hd1 d4 d5 g2 g4 (by simp)
    have n1 := s4.next
    refine ⟨own', h', ?_, ⟨n', ⟨_, k2, by simp [lt_of_get d2]⟩, k3, k4, k5⟩, fun b hb => by have := k7 b hb; omega, ?_, ?_⟩
    · rw [assignNode, Meth.bind_ok (load_obj q1), Meth.bind_ok (load_obj ⟨des, d1, d2⟩), Meth.bind_ok s1]
      have q1' : ObjAt h1 src sn := (s3 src (Ne.symm hne) sn).mp q1
      unfold assignVec
      rw [if_neg hne, Meth.bind_ok (load_obj q1'), Meth.bind_ok (sizeOf_eval hs1), Meth.bind_ok (load_obj s2), Meth.bind_ok (sizeOf_eval hd1), if_pos hcap, g1, Option.getD_some]
      exact k1
    · exact ((s4.frame own).congr (by simp) (by simp)).trans ok k6
    · refine sameBeside_set d1 (n := n') ?_
      rw [k2]; simp

/-- C136: moving a tree to another, of which it is no part and which is no part of it: the target is the tree, with the buffers it had; the source is a leaf; the old children of the target
have been destroyed. -/
theorem C136_move (early : Bool) (moved : α → α) (fuel : Nat) (h : Heap α) (dst src : Loc) (dt st : Tree α) (dfp sfp : List Nat) (ok : HeapOk h) (hd : TreeAt h dst dt dfp)
    (hs : TreeAt h src st sfp) (ha : NoPart dst dfp src sfp) (hf : dt.height ≤ fuel) :
    ∃ h', moveNode early moved fuel dst src h = (.ok (), h') ∧ TreeAt h' dst st sfp ∧ TreeAt h' src (.node (moved st.value) []) [] ∧
      Replaces h h' (dst.1 :: src.1 :: dfp) [dst.1, src.1] ∧ ∀ l x, l ≠ dst → l ≠ src → l.1 ∉ dfp → (ObjAt h l x ↔ ObjAt h' l x) := by
  obtain ⟨dn, d1, d3, d4, d5⟩ := hd
  obtain ⟨sn, s1, s3, s4, s5⟩ := hs
  obtain ⟨a1, a2, a3, a4⟩ := ha
  obtain ⟨dv, dcs⟩ := dt
  obtain ⟨sv, scs⟩ := st
  have hsv : sn.val = sv := by rw [IsNode] at s3; exact s3.1
  have dlt : dst.1 < h.next := by obtain ⟨_, g, -⟩ := d1; exact used_lt ok g
  have slt : src.1 < h.next := by obtain ⟨_, g, -⟩ := s1; exact used_lt ok g
  obtain ⟨h1, e1, o1, f1, r1, -⟩ := store_obj ok (m := { dn with val := sn.val }) d1
  obtain ⟨h2, e2, o2, f2, r2, -⟩ := store_obj r1.ok (m := { sn with val := moved sn.val }) ((f1 src (Ne.symm a1) sn).mp s1)
  have o1' := (f2 dst a1 _).mp o1
  have n01 := r1.next
  have n12 := r2.next
  have hd2 : IsNode h2 { dn with val := sn.val } (.node sn.val dcs) dfp :=
    isNode_keep r1.ok r2 (isNode_setVal (isNode_keep ok r1 d3 (fun b hb => mem_one d5 hb))) (fun b hb => mem_one a3 hb)
  have hs2 : IsNode h2 sn (.node sv scs) sfp := isNode_keep r1.ok r2 (isNode_keep ok r1 s3 (fun b hb => mem_one a2 hb)) (fun b hb => mem_one s5 hb)
  have r02 : Replaces h h2 [dst.1, src.1] [dst.1, src.1] :=
    ((r1.frame [src.1]).congr (A' := [dst.1, src.1]) (B' := [dst.1, src.1]) (by simp) (by simp)).trans ok
      ((r2.frame [dst.1]).congr (A' := [dst.1, src.1]) (B' := [dst.1, src.1]) (by intro b; simp; grind) (by intro b; simp; grind))
  have hre : { sn with val := sv } = sn := by rw [← hsv]
  cases early with
  | false =>
    obtain ⟨h3, e3, o3, f3, r3, -⟩ := store_obj r2.ok (m := (⟨sn.val, sn.buf, sn.cap⟩ : Node α)) o1'
    obtain ⟨h4, e4, o4, f4, r4, -⟩ := store_obj r3.ok (m := (⟨moved sn.val, none, 0⟩ : Node α)) ((f3 src (Ne.symm a1) _).mp o2)
    have hd4 := isNode_keep r3.ok r4 (isNode_keep r2.ok r3 hd2 (fun b hb => mem_one d5 hb)) (fun b hb => mem_one a3 hb)
    have hs4 := isNode_keep r3.ok r4 (isNode_keep r2.ok r3 hs2 (fun b hb => mem_one a2 hb)) (fun b hb => mem_one s5 hb)
    obtain ⟨h5, e5, r5⟩ := destroyNode_eval fuel _ h4 _ dfp (by rw [Tree.height] at hf ⊢; exact hf) r4.ok hd4 d4
    have n23 := r3.next
    have n34 := r4.next
    have keepObj : ∀ {l : Loc} {x : Node α}, l.1 ∉ dfp → l.1 < h4.next → (ObjAt h4 l x ↔ ObjAt h5 l x) := by
      intro l x hl hlt
      unfold ObjAt
      rw [r5.keep hlt hl]
    refine ⟨h5, ?_, ⟨⟨sn.val, sn.buf, sn.cap⟩, ?_, isNode_keep r4.ok r5 hs4 (fun b hb hc => a4 b hc hb), s4, a2⟩, ⟨⟨moved sn.val, none, 0⟩, ?_, ?_, by simp, by simp⟩, ?_, ?_⟩
    · unfold moveNode
      rw [Meth.bind_ok (load_obj s1), Meth.bind_ok (load_obj d1), Meth.bind_ok e1, Meth.bind_ok (load_obj ((f1 src (Ne.symm a1) sn).mp s1)), Meth.bind_ok e2]
      simp only [Bool.false_eq_true, if_false]
      rw [Meth.bind_ok (load_obj o1'), Meth.bind_ok (load_obj o2), Meth.bind_ok e3, Meth.bind_ok (load_obj ((f3 src (Ne.symm a1) _).mp o2)), Meth.bind_ok e4, e5]
    · exact (keepObj d5 (by omega)).mp ((f4 dst a1 _).mp o3)
    · exact (keepObj a3 (by omega)).mp o4
    · rw [IsNode]; exact ⟨by rw [hsv]; rfl, .inl ⟨rfl, rfl, rfl, rfl⟩⟩
    · have s3' := (r3.frame [src.1]).congr (A' := [dst.1, src.1]) (B' := [dst.1, src.1]) (by simp) (by simp)
      have s4' := (r4.frame [dst.1]).congr (A' := [dst.1, src.1]) (B' := [dst.1, src.1]) (by intro b; simp; grind) (by intro b; simp; grind)
      have s5' := (r5.frame [dst.1, src.1]).congr (A' := [dst.1, src.1] ++ dfp) (B' := [dst.1, src.1]) (by intro b; simp; grind) (by simp)
      exact ((((r02.trans ok s3').trans ok s4').frame dfp).trans ok s5').congr (by simp) (by simp)
    · intro l x h1' h2' h3'
      constructor
      · intro hx
        have hlt : l.1 < h.next := by obtain ⟨_, g, -⟩ := hx; exact used_lt ok g
        exact (keepObj h3' (by omega)).mp ((f4 l h2' x).mp ((f3 l h1' x).mp ((f2 l h2' x).mp ((f1 l h1' x).mp hx))))
      · intro hx
        have hlt : l.1 < h5.next := by obtain ⟨_, g, -⟩ := hx; exact used_lt r5.ok g
        have hx4 : ObjAt h4 l x := by
          obtain ⟨es, g1, g2⟩ := hx
          exact ⟨es, by rw [← r5.same l.1 h3' (by simp)]; exact g1, g2⟩
        exact (f1 l h1' x).mpr ((f2 l h2' x).mpr ((f3 l h1' x).mpr ((f4 l h2' x).mpr hx4)))
  | true =>
    obtain ⟨h3, e3, r3⟩ := destroyNode_eval fuel _ h2 _ dfp (by rw [Tree.height] at hf ⊢; exact hf) r2.ok hd2 d4
    have keepObj : ∀ {l : Loc} {x : Node α}, l.1 ∉ dfp → (ObjAt h2 l x ↔ ObjAt h3 l x) := by
      intro l x hl
      unfold ObjAt
      rw [r3.same l.1 hl (by simp)]
    have n23 := r3.next
    obtain ⟨h4, e4, o4, f4, r4, -⟩ := store_obj r3.ok (m := (⟨sn.val, none, 0⟩ : Node α)) ((keepObj d5).mp o1')
    have o2' := (f4 src (Ne.symm a1) _).mp ((keepObj a3).mp o2)
    obtain ⟨h5, e5, o5, f5, r5, -⟩ := store_obj r4.ok (m := (⟨sn.val, sn.buf, sn.cap⟩ : Node α)) o4
    have o2'' := (f5 src (Ne.symm a1) _).mp o2'
    obtain ⟨h6, e6, o6, f6, r6, -⟩ := store_obj r5.ok (m := (⟨moved sn.val, none, 0⟩ : Node α)) o2''
    have hs3 := isNode_keep r2.ok r3 hs2 (fun b hb hc => a4 b hc hb)
    have hs6 := isNode_keep r5.ok r6 (isNode_keep r4.ok r5 (isNode_keep r3.ok r4 hs3 (fun b hb => mem_one a2 hb)) (fun b hb => mem_one a2 hb)) (fun b hb => mem_one s5 hb)
    refine ⟨h6, ?_, ⟨⟨sn.val, sn.buf, sn.cap⟩, (f6 dst a1 _).mp o5, hs6, s4, a2⟩, ⟨⟨moved sn.val, none, 0⟩, o6, ?_, by simp, by simp⟩, ?_, ?_⟩
    · unfold moveNode
      rw [Meth.bind_ok (load_obj s1), Meth.bind_ok (load_obj d1), Meth.bind_ok e1, Meth.bind_ok (load_obj ((f1 src (Ne.symm a1) sn).mp s1)), Meth.bind_ok e2]
      simp only [if_true]
      rw [Meth.bind_ok (load_obj o1'), Meth.bind_ok e3, Meth.bind_ok e4, Meth.bind_ok (load_obj o2'), Meth.bind_ok (load_obj o4), Meth.bind_ok e5, Meth.bind_ok (load_obj o2''), e6]
    · rw [IsNode]; exact ⟨by rw [hsv]; rfl, .inl ⟨rfl, rfl, rfl, rfl⟩⟩
    · have s3' := (r3.frame [dst.1, src.1]).congr (A' := [dst.1, src.1] ++ dfp) (B' := [dst.1, src.1]) (by intro b; simp; grind) (by simp)
      have s4' := (r4.frame [src.1]).congr (A' := [dst.1, src.1]) (B' := [dst.1, src.1]) (by simp) (by simp)
      have s5' := (r5.frame [src.1]).congr (A' := [dst.1, src.1]) (B' := [dst.1, src.1]) (by simp) (by simp)
      have s6' := (r6.frame [dst.1]).congr (A' := [dst.1, src.1]) (B' := [dst.1, src.1]) (by intro b; simp; grind) (by intro b; simp; grind)
      exact (((((r02.frame dfp).trans ok s3').trans ok s4').trans ok s5').trans ok s6').congr (by simp) (by simp)
    · intro l x h1' h2' h3'
      exact (f1 l h1' x).trans ((f2 l h2' x).trans ((keepObj h3').trans ((f4 l h1' x).trans ((f5 l h1' x).trans (f6 l h2' x)))))

/-- C136: with libstdc++ a part of a tree can be moved to the tree itself: the tree is then that part, and all the rest has been destroyed. -/
theorem C136_move_own (moved : α → α) (fuel : Nat) (h : Heap α) (dst src : Loc) (dt st : Tree α) (own : List Nat) (i : Nat) (p : Path) (ok : HeapOk h) (hd : TreeAt h dst dt own)
    (hl : locBelow h dst (i :: p) = some src) (hst : partAt dt (i :: p) = some st) (hf : dt.height ≤ fuel) :
    ∃ own' h', moveNode false moved fuel dst src h = (.ok (), h') ∧ TreeAt h' dst st own' ∧ (∀ b ∈ own', b ∈ own) ∧ Replaces h h' (dst.1 :: own) (dst.1 :: own') ∧ SameBeside h h' dst := by
  obtain ⟨dn, d1, d3, d4, d5⟩ := hd
  obtain ⟨sn, sown, rest, q1, q2, q3, q4, q5, q6⟩ := hole p i h dst src dn dt st own d1 d3 d4 hl hst
  have srco : src.1 ∈ own := q3.mem_iff.mpr (by simp [q4])
  have a1 : dst ≠ src := fun e => d5 (e ▸ srco)
  have a1' : src.1 ≠ dst.1 := fun e => d5 (e ▸ srco)
  have hnd : (sown ++ rest).Nodup := q3.nodup_iff.mp d4
  rw [List.nodup_append] at hnd
  have sownD : ∀ b ∈ sown, b ∈ own := fun b hb => q3.mem_iff.mpr (by simp [hb])
  have restD : ∀ b ∈ rest, b ∈ own := fun b hb => q3.mem_iff.mpr (by simp [hb])
  have ss : src.1 ∉ sown := fun hc => hnd.2.2 _ hc _ q4 rfl
  have dlt : dst.1 < h.next := by obtain ⟨_, g, -⟩ := d1; exact used_lt ok g
  obtain ⟨h1, e1, o1, f1, r1, -⟩ := store_obj ok (m := { dn with val := sn.val }) d1
  obtain ⟨h2, e2, o2, f2, r2, p2⟩ := store_obj r1.ok (m := { sn with val := moved sn.val }) ((f1 src (Ne.symm a1) sn).mp q1)
  have o1' := (f2 dst a1 _).mp o1
  obtain ⟨h3, e3, o3, f3, r3, -⟩ := store_obj r2.ok (m := (⟨sn.val, sn.buf, sn.cap⟩ : Node α)) o1'
  obtain ⟨h4, e4, o4, f4, r4, p4⟩ := store_obj r3.ok (m := (⟨moved sn.val, none, 0⟩ : Node α)) ((f3 src (Ne.symm a1) _).mp o2)
  have olt : ∀ b ∈ own, b < h.next := isNode_lt ok _ _ _ d3
  have n01 := r1.next
  have n12 := r2.next
  have n23 := r3.next
  have n34 := r4.next
  have same4 : ∀ b ∈ own, b ≠ src.1 → h4.bufs b = h.bufs b := by
    intro b hb hne
    have hs : b ∉ [src.1] := by simpa using hne
    have := olt b hb
    rw [r4.keep (by omega) hs, r3.keep (by omega) (mem_one d5 hb), r2.keep (by omega) hs, r1.keep (by omega) (mem_one d5 hb)]
  have src4 : ∀ es, h.bufs src.1 = some es → h4.bufs src.1 = some (es.set src.2 ⟨moved sn.val, none, 0⟩) := by
    intro es he
    have slt := olt src.1 srco
    have g1 : h1.bufs src.1 = some es := by rw [r1.keep slt (mem_one d5 srco), he]
    have g2 := p2 es g1
    have g3 : h3.bufs src.1 = some (es.set src.2 { sn with val := moved sn.val }) := by rw [r3.keep (by omega) (mem_one d5 srco), g2]
    rw [p4 _ g3]; simp
  obtain ⟨t', k1, k2⟩ := q6 h4 (moved sn.val) (fun b hb hne => same4 b (restD b hb) hne) src4
  obtain ⟨t'', k3, k4⟩ := isNode_anyVal k1 sn.val
  obtain ⟨h5, e5, r5⟩ := destroyNode_eval fuel t'' h4 _ rest (by omega) r4.ok k3 hnd.2.1
  have dr : dst.1 ∉ rest := fun hc => d5 (restD _ hc)
  have hst4 : IsNode h4 sn st sown := isNode_of_same st sn sown (fun b hb => same4 b (sownD b hb) (fun e => ss (e ▸ hb))) q2
  have keepObj : ∀ {l : Loc} {x : Node α}, l.1 ∉ rest → (ObjAt h4 l x ↔ ObjAt h5 l x) := by
    intro l x hl
    unfold ObjAt
    rw [r5.same l.1 hl (by simp)]
  refine ⟨sown, h5, ?_, ⟨⟨sn.val, sn.buf, sn.cap⟩, ?_, isNode_keep r4.ok r5 hst4 (fun b hb hc => hnd.2.2 b hb b hc rfl), hnd.1, fun hc => d5 (sownD _ hc)⟩, sownD, ?_, ?_⟩
  · unfold moveNode
    rw [Meth.bind_ok (load_obj q1), Meth.bind_ok (load_obj d1), Meth.bind_ok e1, Meth.bind_ok (load_obj ((f1 src (Ne.symm a1) sn).mp q1)), Meth.bind_ok e2]
    simp only [Bool.false_eq_true, if_false]
    rw [Meth.bind_ok (load_obj o1'), Meth.bind_ok (load_obj o2), Meth.bind_ok e3, Meth.bind_ok (load_obj ((f3 src (Ne.symm a1) _).mp o2)), Meth.bind_ok e4, e5]
  · exact (keepObj dr).mp ((f4 dst a1 _).mp o3)
  · have m1 : ∀ b, b ∈ own ↔ b ∈ sown ∨ b ∈ rest := fun b => by rw [q3.mem_iff, List.mem_append]
    have w1 := (r1.frame own).congr (A' := dst.1 :: own) (B' := dst.1 :: own) (by simp) (by simp)
    have w2 := (r2.frame (dst.1 :: own)).congr (A' := dst.1 :: own) (B' := dst.1 :: own) (by intro b; simp; grind) (by intro b; simp; grind)
    have w3 := (r3.frame own).congr (A' := dst.1 :: own) (B' := dst.1 :: own) (by simp) (by simp)
    have w4 := (r4.frame (dst.1 :: own)).congr (A' := dst.1 :: own) (B' := dst.1 :: own) (by intro b; simp; grind) (by intro b; simp; grind)
    have w5 := (r5.frame (dst.1 :: sown)).congr (A' := dst.1 :: own) (B' := dst.1 :: sown) (by intro b; simp [m1]; grind) (by simp)
    exact (((w1.trans ok w2).trans ok w3).trans ok w4).trans ok w5
  · intro i x hi
    have hne : (dst.1, i) ≠ dst := fun e => hi (by rw [← e])
    have hne2 : (dst.1, i) ≠ src := fun e => a1' (by rw [← e])
    exact (f1 _ hne x).trans ((f2 _ hne2 x).trans ((f3 _ hne x).trans ((f4 _ hne2 x).trans (keepObj dr))))

/-- C136: a tree moved to itself loses its children. -/
theorem C136_move_self (early : Bool) (moved : α → α) (fuel : Nat) (h : Heap α) (l : Loc) (t : Tree α) (own : List Nat) (ok : HeapOk h) (ht : TreeAt h l t own) (hf : t.height ≤ fuel) :
    ∃ h', moveNode early moved fuel l l h = (.ok (), h') ∧ TreeAt h' l (.node (moved t.value) []) [] ∧ Replaces h h' (l.1 :: own) [l.1] := by
  obtain ⟨n, d1, d3, d4, d5⟩ := ht
  obtain ⟨v, cs⟩ := t
  have hv : n.val = v := by rw [IsNode] at d3; exact d3.1
  obtain ⟨h1, e1, o1, f1, r1, -⟩ := store_obj ok (m := { n with val := n.val }) d1
  obtain ⟨h2, e2, o2, f2, r2, -⟩ := store_obj r1.ok (m := { n with val := moved n.val }) o1
  have hn2 : IsNode h2 { n with val := moved n.val } (.node (moved n.val) cs) own :=
    isNode_keep r1.ok r2 (isNode_setVal (isNode_keep ok r1 d3 (fun b hb => mem_one d5 hb))) (fun b hb => mem_one d5 hb)
  have leaf : ∀ h' : Heap α, IsNode h' (⟨moved n.val, none, 0⟩ : Node α) (.node (moved (Tree.node v cs).value) []) [] := by
    intro h'; rw [IsNode]; exact ⟨by rw [hv]; rfl, .inl ⟨rfl, rfl, rfl, rfl⟩⟩
  cases early with
  | false =>
    obtain ⟨h3, e3, o3, f3, r3, -⟩ := store_obj r2.ok (m := (⟨moved n.val, n.buf, n.cap⟩ : Node α)) o2
    obtain ⟨h4, e4, o4, f4, r4, -⟩ := store_obj r3.ok (m := (⟨moved n.val, none, 0⟩ : Node α)) o3
    have hn4 := isNode_keep r3.ok r4 (isNode_keep r2.ok r3 hn2 (fun b hb => mem_one d5 hb)) (fun b hb => mem_one d5 hb)
    obtain ⟨h5, e5, r5⟩ := destroyNode_eval fuel _ h4 _ own (by rw [Tree.height] at hf ⊢; exact hf) r4.ok hn4 d4
    refine ⟨h5, ?_, ⟨_, ?_, leaf h5, by simp, by simp⟩, ?_⟩
    · unfold moveNode
      rw [Meth.bind_ok (load_obj d1), Meth.bind_ok (load_obj d1), Meth.bind_ok e1, Meth.bind_ok (load_obj o1), Meth.bind_ok e2]
      simp only [Bool.false_eq_true, if_false]
      rw [Meth.bind_ok (load_obj o2), Meth.bind_ok (load_obj o2), Meth.bind_ok e3, Meth.bind_ok (load_obj o3), Meth.bind_ok e4, e5]
    · obtain ⟨es, g1, g2⟩ := o4
      exact ⟨es, by rw [r5.same l.1 d5 (by simp)]; exact g1, g2⟩
    · have w5 := (r5.frame [l.1]).congr (A' := [l.1] ++ own) (B' := [l.1]) (by intro b; simp; grind) (by simp)
      exact ((((r1.trans ok r2).trans ok r3).trans ok r4).frame own |>.trans ok w5).congr (by simp) (by simp)
  | true =>
    obtain ⟨h3, e3, r3⟩ := destroyNode_eval fuel _ h2 _ own (by rw [Tree.height] at hf ⊢; exact hf) r2.ok hn2 d4
    have o3 : ObjAt h3 l { n with val := moved n.val } := by
      obtain ⟨es, g1, g2⟩ := o2
      exact ⟨es, by rw [r3.same l.1 d5 (by simp)]; exact g1, g2⟩
    obtain ⟨h4, e4, o4, f4, r4, -⟩ := store_obj r3.ok (m := (⟨moved n.val, none, 0⟩ : Node α)) o3
    obtain ⟨h5, e5, o5, f5, r5, -⟩ := store_obj r4.ok (m := (⟨moved n.val, none, 0⟩ : Node α)) o4
    obtain ⟨h6, e6, o6, f6, r6, -⟩ := store_obj r5.ok (m := (⟨moved n.val, none, 0⟩ : Node α)) o5
    refine ⟨h6, ?_, ⟨_, o6, leaf h6, by simp, by simp⟩, ?_⟩
    · unfold moveNode
      rw [Meth.bind_ok (load_obj d1), Meth.bind_ok (load_obj d1), Meth.bind_ok e1, Meth.bind_ok (load_obj o1), Meth.bind_ok e2]
      simp only [if_true]
      rw [Meth.bind_ok (load_obj o2), Meth.bind_ok e3, Meth.bind_ok e4, Meth.bind_ok (load_obj o4), Meth.bind_ok (load_obj o4), Meth.bind_ok e5, Meth.bind_ok (load_obj o5), e6]
    · have w3 := (r3.frame [l.1]).congr (A' := [l.1] ++ own) (B' := [l.1]) (by intro b; simp; grind) (by simp)
      exact (((((r1.trans ok r2).frame own).trans ok w3).trans ok r4).trans ok r5 |>.trans ok r6).congr (by simp) (by simp)

/-- C136: going by way of a copy a tree becomes any tree whatever, also one of its own parts or one it is a part of. -/
theorem C136_via_copy (early : Bool) (moved : α → α) (fuel : Nat) (h : Heap α) (dst src : Loc) (dt st : Tree α) (dfp sfp : List Nat) (ok : HeapOk h) (hd : TreeAt h dst dt dfp)
    (hs : TreeAt h src st sfp) (hf : dt.height ≤ fuel) (hf' : st.height ≤ fuel) :
    ∃ own' h', assignViaCopy early moved fuel dst src h = (.ok (), h') ∧ TreeAt h' dst st own' ∧ (∀ b ∈ own', h.next ≤ b) ∧ Replaces h h' (dst.1 :: dfp) (dst.1 :: own') ∧ SameBeside h h' dst := by
  obtain ⟨dn, d1, d3, d4, d5⟩ := hd
  obtain ⟨sn, s1, s3, s4, s5⟩ := hs
  have dlt : dst.1 < h.next := by obtain ⟨_, g, -⟩ := d1; exact used_lt ok g
  have dflt := isNode_lt ok _ _ _ d3
  obtain ⟨t, own', h1, e1, t1, t2, r1⟩ := copyNode_eval fuel st h sn sfp hf' ok s3
  have onew : ∀ b ∈ own', h.next ≤ b := fun b hb => by rcases r1.new b hb with g | g; simp at g; exact g
  have olt := isNode_lt r1.ok _ _ _ t1
  obtain ⟨h2, e2, b2, r2⟩ := newBuf_replaces r1.ok [t]
  have n01 := r1.next
  have n12 := r2.next
  have keep2 : ∀ b, b < h.next → h2.bufs b = h.bufs b := fun b hb => by rw [r2.keep (by omega) (by simp), r1.keep hb (by simp)]
  have hd2 : TreeAt h2 dst dt dfp := by
    refine ⟨dn, ?_, isNode_of_same dt dn dfp (fun b hb => keep2 b (dflt b hb)) d3, d4, d5⟩
    obtain ⟨es, g1, g2⟩ := d1
    exact ⟨es, by rw [keep2 _ dlt, g1], g2⟩
  have bnot : h1.next ∉ own' := fun hc => by have := olt _ hc; omega
  have ht2 : TreeAt h2 (h1.next, 0) st own' := ⟨t, ⟨[t], b2, rfl⟩, isNode_keep r1.ok r2 t1 (by simp), t2, bnot⟩
  have hap : NoPart dst dfp (h1.next, 0) own' := by
    refine ⟨fun e => ?_, fun hc => ?_, fun hc => ?_, fun b hb hc => ?_⟩
    · have : dst.1 = h1.next := by rw [e]
      omega
    · have := onew _ hc; omega
    · have := dflt _ hc; simp only at this; omega
    · have := dflt _ hb; have := onew _ hc; omega
  obtain ⟨h3, e3, m1, m2, r3, fr⟩ := C136_move early moved fuel h2 dst (h1.next, 0) dt st dfp own' r2.ok hd2 ht2 hap hf
  obtain ⟨ln, l1, l2, -, -⟩ := m2
  obtain ⟨h4, e4, r4⟩ := destroyNode_eval fuel _ h3 ln [] (by have := height_pos dt; simp only [Tree.height, Tree.heightList]; omega) r3.ok l2 (by simp)
  obtain ⟨les, g1, g2⟩ := l1
  have g1' : h4.bufs h1.next = some les := by rw [r4.same _ (by simp) (by simp)]; exact g1
  obtain ⟨h5, e5, r5⟩ := dropBuf_replaces r4.ok g1'
  have dneb : dst.1 ≠ h1.next := by omega
  have keep5 : ∀ b, b ≠ h1.next → h5.bufs b = h3.bufs b := fun b hb => by rw [r5.same b (by simpa using hb) (by simp), r4.same b (by simp) (by simp)]
  obtain ⟨n', o1, o2, o3, o4⟩ := m1
  refine ⟨own', h5, ?_, ⟨n', ?_, isNode_of_same st n' own' (fun b hb => keep5 b (fun e => bnot (e ▸ hb))) o2, o3, o4⟩, onew, ?_, ?_⟩
  · unfold assignViaCopy
    rw [Meth.bind_ok (load_obj s1), Meth.bind_ok e1, Meth.bind_ok e2, Meth.bind_ok e3, Meth.bind_ok (load_obj ⟨les, g1, g2⟩), Meth.bind_ok e4, e5]
  · obtain ⟨es, k1, k2⟩ := o1
    exact ⟨es, by rw [keep5 _ dneb]; exact k1, k2⟩
  · have w1 := (r1.frame (dst.1 :: dfp)).congr (A' := dst.1 :: dfp) (B' := dst.1 :: (dfp ++ own')) (by simp) (by intro b; simp; grind)
    have w2 := (r2.frame (dst.1 :: (dfp ++ own'))).congr (A' := dst.1 :: (dfp ++ own')) (B' := dst.1 :: h1.next :: (dfp ++ own')) (by simp) (by intro b; simp; grind)
    have w3 := (r3.frame own').congr (A' := dst.1 :: h1.next :: (dfp ++ own')) (B' := dst.1 :: h1.next :: own') (by intro b; simp) (by intro b; simp)
    have w4 := (r4.frame (dst.1 :: h1.next :: own')).congr (A' := dst.1 :: h1.next :: own') (B' := dst.1 :: h1.next :: own') (by simp) (by simp)
    have w5 := (r5.frame (dst.1 :: own')).congr (A' := dst.1 :: h1.next :: own') (B' := dst.1 :: own') (by intro b; simp; grind) (by simp)
    exact (((w1.trans ok w2).trans ok w3).trans ok w4).trans ok w5
  · intro i x hi
    have q1 : ObjAt h (dst.1, i) x ↔ ObjAt h2 (dst.1, i) x := by unfold ObjAt; rw [keep2 _ dlt]
    have q2 := fr (dst.1, i) x (fun e => hi (by rw [← e])) (fun e => dneb (by rw [← show (dst.1, i).1 = dst.1 from rfl, e])) d5
    have q3 : ObjAt h3 (dst.1, i) x ↔ ObjAt h5 (dst.1, i) x := by unfold ObjAt; rw [keep5 _ dneb]
    exact q1.trans (q2.trans q3)

/-- A variable with the tree 1(2(4, 5), 3); both vectors have room for four elements. -/
def assignWitness : Heap Nat := ⟨fun b =>
  match b with
  | 0 => some [⟨1, some 1, 4⟩]
  | 1 => some [⟨2, some 2, 4⟩, ⟨3, none, 0⟩]
  | 2 => some [⟨4, none, 0⟩, ⟨5, none, 0⟩]
  | _ => none, 3⟩

/-- The tree in the variable. -/
def assignTree : Tree Nat := .node 1 [.node 2 [.node 4 [], .node 5 []], .node 3 []]

theorem assignWitness_ok : HeapOk assignWitness := by
  intro b hb
  have hb' : 3 ≤ b := hb
  obtain ⟨k, rfl⟩ : ∃ k, b = k + 3 := ⟨b - 3, by omega⟩
  rfl

theorem assignWitness_leaf (h : Heap Nat) (v : Nat) : IsNode h ⟨v, none, 0⟩ (.node v []) [] := by
  rw [IsNode]; exact ⟨rfl, .inl ⟨rfl, rfl, rfl, rfl⟩⟩

theorem assignWitness_two {h : Heap Nat} {n m : Node Nat} {t u : Tree Nat} {o1 o2 : List Nat} (h1 : IsNode h n t o1) (h2 : IsNode h m u o2) : IsNodes h [n, m] [t, u] (o1 ++ o2) := by
  rw [IsNodes]
  refine ⟨n, [m], o1, o2, rfl, rfl, h1, ?_⟩
  rw [IsNodes]
  refine ⟨m, [], o2, [], rfl, by simp, h2, ?_⟩
  rw [IsNodes]
  exact ⟨rfl, rfl⟩

theorem assignWitness_child : IsNode assignWitness ⟨2, some 2, 4⟩ (.node 2 [.node 4 [], .node 5 []]) [2] := by
  rw [IsNode]
  exact ⟨rfl, .inr ⟨2, [⟨4, none, 0⟩, ⟨5, none, 0⟩], [], rfl, rfl, by decide, assignWitness_two (assignWitness_leaf _ 4) (assignWitness_leaf _ 5), rfl⟩⟩

theorem assignWitness_tree : TreeAt assignWitness (0, 0) assignTree [1, 2] := by
  refine ⟨⟨1, some 1, 4⟩, ⟨_, rfl, rfl⟩, ?_, by decide, by decide⟩
  unfold assignTree
  rw [IsNode]
  exact ⟨rfl, .inr ⟨1, [⟨2, some 2, 4⟩, ⟨3, none, 0⟩], [2], rfl, rfl, by decide, assignWitness_two assignWitness_child (assignWitness_leaf _ 3), rfl⟩⟩

theorem assignWitness_treeChild : TreeAt assignWitness (1, 0) (.node 2 [.node 4 [], .node 5 []]) [2] :=
  ⟨⟨2, some 2, 4⟩, ⟨_, rfl, rfl⟩, assignWitness_child, by decide, by decide⟩

/-- C136: what may not be done: `t = t.children[0]` is undefined behaviour with both libraries already for the tree 1(2(4, 5), 3), whatever it runs on; and `t = std::move(t.children[0])` is so
with libc++. -/
theorem C136_own_undefined :
    ∃ (h : Heap Nat) (dst src : Loc) (own sown : List Nat), HeapOk h ∧ TreeAt h dst assignTree own ∧ locBelow h dst [0] = some src ∧
      TreeAt h src (.node 2 [.node 4 [], .node 5 []]) sown ∧
      (∀ early fuel, assignTree.height < fuel → ∃ u, (assignNode early (fuel + 1) dst src h).1 = .ub u) ∧
      ∀ moved fuel, assignTree.height < fuel → ∃ u, (moveNode true moved (fuel + 1) dst src h).1 = .ub u := by
  refine ⟨assignWitness, (0, 0), (1, 0), [1, 2], [2], assignWitness_ok, assignWitness_tree, rfl, assignWitness_treeChild, ?_, ?_⟩
  · intro early fuel hf
    have hf' : 3 < fuel := hf
    obtain ⟨n, rfl⟩ : ∃ n, fuel = n + 4 := ⟨fuel - 4, by omega⟩
    cases early
    · exact ⟨.use_after_free, rfl⟩
    · exact ⟨.use_after_free, rfl⟩
  · intro moved fuel hf
    have hf' : 3 < fuel := hf
    obtain ⟨n, rfl⟩ : ∃ n, fuel = n + 4 := ⟨fuel - 4, by omega⟩
    exact ⟨.use_after_free, rfl⟩

/-- Meets the hypotheses of `C136_via_copy` and `C136_move_own`: the tree becomes its first child. -/
example : ∃ own' h', assignViaCopy true id 5 (0, 0) (1, 0) assignWitness = (.ok (), h') ∧ TreeAt h' (0, 0) (.node 2 [.node 4 [], .node 5 []]) own' ∧ h'.bufs 1 = none := by
  obtain ⟨own', h', e, t, n, r, -⟩ := C136_via_copy true id 5 assignWitness (0, 0) (1, 0) assignTree _ [1, 2] [2] assignWitness_ok assignWitness_tree assignWitness_treeChild
    (by decide +kernel) (by decide +kernel)
  exact ⟨own', h', e, t, r.gone 1 (by simp) (fun hc => by
    rcases List.mem_cons.mp hc with hc | hc
    · cases hc
    · exact absurd (n 1 hc) (by decide +kernel))⟩

example : ∃ own' h', moveNode false id 5 (0, 0) (1, 0) assignWitness = (.ok (), h') ∧ TreeAt h' (0, 0) (.node 2 [.node 4 [], .node 5 []]) own' := by
  obtain ⟨own', h', e, t, -⟩ := C136_move_own id 5 assignWitness (0, 0) (1, 0) assignTree (.node 2 [.node 4 [], .node 5 []]) [1, 2] 0 [] assignWitness_ok assignWitness_tree rfl rfl
    (by decide +kernel)
  exact ⟨own', h', e, t⟩

/-- Meets the hypotheses of `C136_move_self`. -/
example : ∃ h', moveNode true id 5 (0, 0) (0, 0) assignWitness = (.ok (), h') ∧ TreeAt h' (0, 0) (.node 1 []) [] := by
  obtain ⟨h', e, t, -⟩ := C136_move_self true id 5 assignWitness (0, 0) assignTree [1, 2] assignWitness_ok assignWitness_tree (by decide +kernel)
  exact ⟨h', e, t⟩

/-- Meets the hypotheses of `C136_assign_partial` and `C136_move`: the first child becomes the second, and the other way round. -/
example : ∃ own' h', assignNode false 6 (1, 0) (1, 1) assignWitness = (.ok (), h') ∧ TreeAt h' (1, 0) (.node 3 []) own' := by
  obtain ⟨own', h', e, t, -⟩ := C136_assign_partial false 6 assignWitness (1, 0) (1, 1) _ (.node 3 []) [2] [] assignWitness_ok assignWitness_treeChild
    ⟨⟨3, none, 0⟩, ⟨_, rfl, rfl⟩, assignWitness_leaf _ 3, by simp, by simp⟩ ⟨by decide, by simp, by decide, by simp⟩ (by decide +kernel) (by decide +kernel)
  exact ⟨own', h', e, t⟩

example : ∃ h', moveNode true id 6 (1, 1) (1, 0) assignWitness = (.ok (), h') ∧ TreeAt h' (1, 1) (.node 2 [.node 4 [], .node 5 []]) [2] := by
  obtain ⟨h', e, t, -⟩ := C136_move true id 6 assignWitness (1, 1) (1, 0) (.node 3 []) _ [] [2] assignWitness_ok
    ⟨⟨3, none, 0⟩, ⟨_, rfl, rfl⟩, assignWitness_leaf _ 3, by simp, by simp⟩ assignWitness_treeChild ⟨by decide, by decide, by simp, by simp⟩ (by decide +kernel)
  exact ⟨h', e, t⟩

/-- The same with vectors without spare room and fewer elements above than below: the tree 1(2(4, 5)). -/
def assignWitness' : Heap Nat := ⟨fun b =>
  match b with
  | 0 => some [⟨1, some 1, 1⟩]
  | 1 => some [⟨2, some 2, 2⟩]
  | 2 => some [⟨4, none, 0⟩, ⟨5, none, 0⟩]
  | _ => none, 3⟩

/-- Meets the hypotheses of `C136_assign_own_grow`. -/
example : ∃ own' h', assignNode false 6 (0, 0) (1, 0) assignWitness' = (.ok (), h') ∧ TreeAt h' (0, 0) (.node 2 [.node 4 [], .node 5 []]) own' := by
  have ok : HeapOk assignWitness' := by
    intro b hb
    have hb' : 3 ≤ b := hb
    obtain ⟨k, rfl⟩ : ∃ k, b = k + 3 := ⟨b - 3, by omega⟩
    rfl
  have hc : IsNode assignWitness' ⟨2, some 2, 2⟩ (.node 2 [.node 4 [], .node 5 []]) [2] := by
    rw [IsNode]
    exact ⟨rfl, .inr ⟨2, [⟨4, none, 0⟩, ⟨5, none, 0⟩], [], rfl, rfl, by decide, assignWitness_two (assignWitness_leaf _ 4) (assignWitness_leaf _ 5), rfl⟩⟩
  have ht : TreeAt assignWitness' (0, 0) (.node 1 [.node 2 [.node 4 [], .node 5 []]]) [1, 2] := by
    refine ⟨⟨1, some 1, 1⟩, ⟨_, rfl, rfl⟩, ?_, by decide, by decide⟩
    rw [IsNode]
    refine ⟨rfl, .inr ⟨1, [⟨2, some 2, 2⟩], [2], rfl, rfl, by decide, ?_, rfl⟩⟩
    rw [IsNodes]
    refine ⟨_, [], [2], [], rfl, rfl, hc, ?_⟩
    rw [IsNodes]
    exact ⟨rfl, rfl⟩
  obtain ⟨own', h', e, t, -⟩ := C136_assign_own_grow 5 assignWitness' (0, 0) (1, 0) ⟨1, some 1, 1⟩ _ (.node 2 [.node 4 [], .node 5 []]) [1, 2] 0 [] ok ⟨_, rfl, rfl⟩ ht rfl rfl
    (by decide) (by decide +kernel)
  exact ⟨own', h', e, t⟩

end Utki
