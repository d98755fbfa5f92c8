import Verif.Spec.LinqAlloc
import Verif.Lemmas.TreeAlloc
import Verif.Model.OMap
/-! # Lemmas about `linq` and memory -/
namespace Utki.LinqAlloc
open TreeAlloc Utki.Spec
variable {α β κ : Type}

/-- An operation that owns the blocks `own0` before; it ends with an object that owns `own b`, or fails since a request failed, and then owns what it had. -/
def Tries (m : Meth Mem β) (own0 : List Nat) (own : β → List Nat) (good : β → Prop) : Prop :=
  ∀ s bs, InUse s (own0 ++ bs) →
    (∃ b s', m s = (.ok b, s') ∧ good b ∧ InUse s' (own b ++ bs) ∧ s'.plan <:+ s.plan) ∨
    (∃ s', m s = (.throw .bad_alloc, s') ∧ InUse s' (own0 ++ bs) ∧ false ∈ s.plan)

theorem not_granted {n : Nat} {plan : List Bool} (h : ¬ granted n plan) : false ∈ plan := by
  simp only [granted, not_forall] at h
  obtain ⟨b, hb, hne⟩ := h
  have : b = false := by simpa using hne
  subst this
  exact List.mem_of_mem_take hb

theorem tries_of_acquires {m : Meth Mem β} {n : Nat} {own : β → List Nat} {good : β → Prop} (h : Acquires m n own good) : Tries m [] own good := by
  intro s bs hs
  obtain ⟨h1, h2⟩ := h s bs hs
  by_cases g : granted n s.plan
  · obtain ⟨b, s', e, gb, i, p⟩ := h1 g
    exact .inl ⟨b, s', e, gb, i, p ▸ List.drop_suffix n s.plan⟩
  · obtain ⟨s', e, i⟩ := h2 g
    exact .inr ⟨s', e, i, not_granted g⟩

theorem pure_tries {b : β} {own0 : List Nat} {own : β → List Nat} {good : β → Prop} (h : own0.Perm (own b)) (hg : good b) : Tries (pure b) own0 own good := by
  intro s bs hs
  exact .inl ⟨b, s, rfl, hg, inUse_perm hs (h.append_right bs), List.suffix_refl _⟩

theorem tries_perm {m : Meth Mem β} {a b : List Nat} {own : β → List Nat} {good : β → Prop} (h : Tries m a own good) (p : a.Perm b) : Tries m b own good := by
  intro s bs hs
  rcases h s bs (inUse_perm hs (p.symm.append_right bs)) with h | ⟨s', e, i, f⟩
  · exact .inl h
  · exact .inr ⟨s', e, inUse_perm i (p.append_right bs), f⟩

/-- Some blocks are not concerned. -/
theorem tries_frame {m : Meth Mem β} {a : List Nat} (c : List Nat) {own : β → List Nat} {good : β → Prop} (h : Tries m a own good) :
    Tries m (a ++ c) (fun b => own b ++ c) good := by
  intro s bs hs
  rw [List.append_assoc] at hs
  rcases h s (c ++ bs) hs with ⟨b, s', e, g, i, p⟩ | ⟨s', e, i, f⟩
  · exact .inl ⟨b, s', e, g, by rwa [List.append_assoc], p⟩
  · exact .inr ⟨s', e, by rwa [List.append_assoc], f⟩

/-- The result is put into something else. -/
theorem tries_map {γ : Type} {m : Meth Mem β} {a : List Nat} {own : β → List Nat} {good : β → Prop} (h : Tries m a own good) (f : β → γ) {own' : γ → List Nat}
    {good' : γ → Prop} (ho : ∀ b, good b → (own b).Perm (own' (f b))) (hg : ∀ b, good b → good' (f b)) : Tries (do let b ← m; return f b) a own' good' := by
  intro s bs hs
  rcases h s bs hs with ⟨b, s', e, g, i, p⟩ | ⟨s', e, i, q⟩
  · exact .inl ⟨f b, s', by rw [Meth.bind_ok e]; rfl, hg b g, inUse_perm i ((ho b g).append_right bs), p⟩
  · exact .inr ⟨s', by rw [Meth.bind_throw e], i, q⟩

theorem copyObj_tries (o : Obj α) : Tries (copyObj o) [] (·.mem) (fun p => p.val = o.val) := by
  unfold copyObj
  exact tries_map (tries_of_acquires (copyValue_acquires o.mem)) (fun m => (⟨o.val, m⟩ : Obj α)) (fun _ _ => List.Perm.refl _) (fun _ _ => rfl)

/-- The blocks that go to the new element. -/
def goes (konst : Bool) (o : Obj α) : List Nat := if konst then [] else o.mem

theorem goes_left (konst : Bool) (moved : α → α) (o : Obj α) : goes konst o ++ (leftObj konst moved o).mem = o.mem := by
  cases konst <;> simp [goes, leftObj]

theorem takeObj_tries (konst : Bool) (o : Obj α) : Tries (takeObj konst o) (goes konst o) (·.mem) (fun p => p.val = o.val) := by
  cases konst
  · exact pure_tries (List.Perm.refl _) rfl
  · exact copyObj_tries o

theorem destroyObjs_releases (os : List (Obj α)) : Releases (destroyObjs os) (blocksObjs os) := by
  induction os with
  | nil => exact pure_releases
  | cons o os ih => exact bind_releases (freeAll_releases _) ih

theorem destroyBuf_releases (v : Buf α) : Releases (destroyBuf v) (blocksBuf v) := by
  refine releases_perm (bind_releases (destroyObjs_releases _) (freeAll_releases _)) ?_
  exact List.perm_append_comm

theorem destroyMap_releases (m : List (κ × Entry α)) : Releases (destroyMap m) (blocksMap m) := by
  induction m with
  | nil => exact pure_releases
  | cons e m ih =>
    obtain ⟨k, e⟩ := e
    refine releases_perm (bind_releases (destroyBuf_releases _) (bind_releases (free_releases _) ih)) ?_
    rw [List.perm_iff_count]
    intro a
    simp only [blocksMap, List.flatMap_cons, List.count_append, List.count_cons, List.count_nil]
    omega

theorem blocksObjs_append (a b : List (Obj α)) : blocksObjs (a ++ b) = blocksObjs a ++ blocksObjs b := by simp [blocksObjs]

theorem pushBack_tries (grow : Nat → Nat) (v : Buf α) {make : Meth Mem (Obj α)} {own0 : List Nat} {good : Obj α → Prop} (h : Tries make own0 (·.mem) good) :
    Tries (pushBack grow v make) (own0 ++ blocksBuf v) blocksBuf (fun w => ∃ o, good o ∧ w.elems = v.elems ++ [o]) := by
  unfold pushBack
  split
  · refine tries_map (tries_frame (blocksBuf v) h) (fun o => ({ v with elems := v.elems ++ [o] } : Buf α)) ?_ ?_
    · intro o _
      rw [List.perm_iff_count]
      intro a
      simp only [blocksBuf, blocksObjs_append, List.count_append]
      simp only [blocksObjs, List.flatMap_cons, List.flatMap_nil, List.count_nil, List.count_append]
      omega
    · exact fun o g => ⟨o, g, rfl⟩
  · intro s bs hs
    obtain ⟨a1, a2⟩ := alloc_acquires s _ hs
    by_cases g1 : granted 1 s.plan
    · obtain ⟨b, s1, e1, -, i1, p1⟩ := a1 g1
      have i1' : InUse s1 (own0 ++ ([b] ++ (blocksBuf v ++ bs))) := by
        refine inUse_perm i1 ?_
        rw [List.perm_iff_count]; intro a; simp only [List.count_append]; omega
      rcases h s1 _ i1' with ⟨o, s2, e2, g2, i2, p2⟩ | ⟨s2, e2, i2, f2⟩
      · have i2' : InUse s2 (v.block.toList ++ (o.mem ++ ([b] ++ (blocksObjs v.elems ++ bs)))) := by
          refine inUse_perm i2 ?_
          rw [List.perm_iff_count]; intro a; simp only [blocksBuf, List.count_append]; omega
        obtain ⟨s3, e3, i3, p3⟩ := freeAll_releases v.block.toList s2 _ i2'
        refine .inl ⟨⟨some b, max (grow v.elems.length) (v.elems.length + 1), v.elems ++ [o]⟩, s3, ?_, ⟨o, g2, rfl⟩, ?_, ?_⟩
        · rw [Meth.bind_ok e1, Meth.bind_ok (a := o) (s' := s2) (by rw [onFail, e2]), Meth.bind_ok e3]; rfl
        · refine inUse_perm i3 ?_
          rw [List.perm_iff_count]; intro a
          simp only [blocksBuf, blocksObjs_append, List.count_append]
          simp only [blocksObjs, List.flatMap_cons, List.flatMap_nil, List.count_nil, Option.toList_some, List.count_append]
          omega
        · rw [p3]; exact p2.trans (p1 ▸ List.drop_suffix 1 s.plan)
      · have i2' : InUse s2 ([b] ++ (own0 ++ blocksBuf v ++ bs)) := by
          refine inUse_perm i2 ?_
          rw [List.perm_iff_count]; intro a; simp only [List.count_append]; omega
        obtain ⟨s3, e3, i3, p3⟩ := free_releases b s2 _ i2'
        refine .inr ⟨s3, ?_, i3, ?_⟩
        · rw [Meth.bind_ok e1, Meth.bind_throw (e := .bad_alloc) (s' := s3) (by simp [onFail, e2, e3])]
        · rw [p1] at f2; exact List.mem_of_mem_drop f2
    · obtain ⟨s1, e1, i1⟩ := a2 g1
      exact .inr ⟨s1, by rw [Meth.bind_throw e1], i1, not_granted g1⟩

/-! ## Operations on the state -/

theorem inMemL_eq {ρ : Type} {m : Meth Mem β} {s : LSt α ρ} {r : Res β} {mem' : Mem} (e : m s.mem = (r, mem')) :
    inMemL m s = (r, { s with mem := mem' }) := by
  simp [inMemL, e]

theorem takenFrom_append (konst : Bool) (moved : α → α) (takes : α → Bool) (a b : List (Obj α)) :
    takenFrom konst moved takes (a ++ b) = takenFrom konst moved takes a ++ takenFrom konst moved takes b := by simp [takenFrom]

theorem takenFrom_length (konst : Bool) (moved : α → α) (takes : α → Bool) (a : List (Obj α)) : (takenFrom konst moved takes a).length = a.length := by
  simp [takenFrom]

theorem takenFrom_one (konst : Bool) (moved : α → α) (takes : α → Bool) (o : Obj α) (h : takes o.val = true) :
    takenFrom konst moved takes [o] = [leftObj konst moved o] := by
  cases konst <;> simp [takenFrom, leftObj, h]

theorem takenFrom_none (konst : Bool) (moved : α → α) (takes : α → Bool) (o : Obj α) (h : takes o.val = false) :
    takenFrom konst moved takes [o] = [o] := by
  simp [takenFrom, h]

/-- One element of the collection is taken to the result by an operation on the memory. -/
theorem step_eval {ρ : Type} {konst : Bool} {moved : α → α} {op : ρ → Meth Mem ρ} {blocks : ρ → List Nat} {good : ρ → Prop} {s : LSt α ρ} {others : List Nat}
    {A B : List (Obj α)} {e : Obj α} (hop : Tries (op s.ret) (goes konst e ++ blocks s.ret) blocks good) (hsrc : s.src.elems = A ++ e :: B)
    (hin : InUse s.mem (blocks s.ret ++ (blocksBuf s.src ++ others))) :
    (∃ v mem', op s.ret s.mem = (.ok v, mem') ∧ good v ∧ mem'.plan <:+ s.mem.plan ∧
      InUse mem' (blocks v ++ (blocksBuf { s.src with elems := A ++ leftObj konst moved e :: B } ++ others))) ∨
    (∃ mem', op s.ret s.mem = (.throw .bad_alloc, mem') ∧ InUse mem' (blocks s.ret ++ (blocksBuf s.src ++ others)) ∧ false ∈ s.mem.plan) := by
  have key : ∀ X : List Nat, (goes konst e ++ X ++ (s.src.block.toList ++ blocksObjs A ++ (leftObj konst moved e).mem ++ blocksObjs B ++ others)).Perm
      (X ++ (blocksBuf s.src ++ others)) := by
    intro X
    rw [List.perm_iff_count]; intro a
    have := congrArg (List.count a) (goes_left konst moved e)
    simp only [List.count_append] at this
    simp only [blocksBuf, hsrc, blocksObjs_append, List.count_append]
    simp only [blocksObjs, List.flatMap_cons, List.count_append]
    omega
  rcases hop s.mem _ (inUse_perm hin (key _).symm) with ⟨v, mem', e1, g, i, p⟩ | ⟨mem', e1, i, q⟩
  · refine .inl ⟨v, mem', e1, g, p, inUse_perm i ?_⟩
    rw [List.perm_iff_count]; intro a
    simp only [blocksBuf, blocksObjs_append, List.count_append]
    simp only [blocksObjs, List.flatMap_cons, List.count_append]
    omega
  · exact .inr ⟨mem', e1, inUse_perm i (key _), q⟩

theorem set_at (A B : List (Obj α)) (e x : Obj α) (i : Nat) (hi : i = A.length) : (A ++ e :: B).set i x = A ++ x :: B := by
  subst hi; simp

/-- The loop of `where`. -/
theorem whereLoop_eval (konst : Bool) (moved : α → α) (grow : Nat → Nat) (f : α → Bool) (todo : List (Obj α)) : ∀ (done : List (Obj α)) (s : LSt α (Buf α)) (others : List Nat)
    (_ : s.src.elems = takenFrom konst moved f done ++ todo) (_ : valuesOf s.ret.elems = (valuesOf done).filter f)
    (_ : InUse s.mem (blocksBuf s.ret ++ (blocksBuf s.src ++ others))),
    (∃ s', whereLoop konst moved grow f todo done.length s = (.ok (), s') ∧ valuesOf s'.ret.elems = (valuesOf (done ++ todo)).filter f ∧
      s'.src = { s.src with elems := takenFrom konst moved f (done ++ todo) } ∧ InUse s'.mem (blocksBuf s'.ret ++ (blocksBuf s'.src ++ others))) ∨
    (∃ s' d rest, whereLoop konst moved grow f todo done.length s = (.throw .bad_alloc, s') ∧ false ∈ s.mem.plan ∧ done ++ todo = d ++ rest ∧
      s'.src = { s.src with elems := takenFrom konst moved f d ++ rest } ∧ InUse s'.mem (blocksBuf s'.ret ++ (blocksBuf s'.src ++ others))) := by
  induction todo with
  | nil =>
    intro done s others h1 h2 h3
    simp only [List.append_nil] at h1 ⊢
    exact .inl ⟨s, rfl, h2, by rw [← h1], h3⟩
  | cons e es ih =>
    intro done s others h1 h2 h3
    rw [whereLoop]
    have hd : done ++ e :: es = (done ++ [e]) ++ es := by simp
    have hl : done.length + 1 = (done ++ [e]).length := by simp
    cases hf : f e.val with
    | false =>
      simp only [Bool.false_eq_true, if_false]
      rw [hd, hl]
      refine ih (done ++ [e]) s others ?_ ?_ h3
      · rw [takenFrom_append, takenFrom_none _ _ _ _ hf, h1]; simp
      · rw [h2]; simp [valuesOf, hf]
    | true =>
      simp only [if_true]
      have hs := step_eval (op := fun v => pushBack grow v (takeObj konst e)) (moved := moved) (pushBack_tries grow s.ret (takeObj_tries konst e)) h1 h3
      rcases hs with ⟨v, mem', e1, ⟨o, ho, hv⟩, p, i⟩ | ⟨mem', e1, i, q⟩
      · have e2 : (do
            let s ← Meth.get
            let v ← inMemL (pushBack grow s.ret (takeObj konst e))
            let s ← Meth.get
            Meth.set { s with ret := v, src := { s.src with elems := s.src.elems.set done.length (leftObj konst moved e) } }
            whereLoop konst moved grow f es (done.length + 1)) s =
          whereLoop konst moved grow f es (done.length + 1)
            ⟨mem', { s.src with elems := takenFrom konst moved f (done ++ [e]) ++ es }, v⟩ := by
          rw [Meth.get_bind, Meth.bind_ok (inMemL_eq e1), Meth.get_bind, Meth.set_bind]
          simp only [h1]
          rw [set_at _ _ _ _ _ (takenFrom_length _ _ _ _).symm, takenFrom_append, takenFrom_one _ _ _ _ hf]
          simp
        rw [e2, hd, hl]
        have hret : valuesOf v.elems = (valuesOf (done ++ [e])).filter f := by
          rw [hv]
          simp only [valuesOf, List.map_append, List.map_cons, List.map_nil, List.filter_append] at h2 ⊢
          rw [h2, ho]
          simp [hf]
        have hsrc : takenFrom konst moved f (done ++ [e]) ++ es = takenFrom konst moved f done ++ leftObj konst moved e :: es := by
          rw [takenFrom_append, takenFrom_one _ _ _ _ hf]; simp
        rw [← hsrc] at i
        rcases ih (done ++ [e]) ⟨mem', { s.src with elems := takenFrom konst moved f (done ++ [e]) ++ es }, v⟩ others rfl hret i with
          ⟨s', k1, k2, k3, k4⟩ | ⟨s', d, rest, k1, k2, k3, k4, k5⟩
        · exact .inl ⟨s', k1, k2, k3, k4⟩
        · exact .inr ⟨s', d, rest, k1, p.subset k2, k3, k4, k5⟩
      · refine .inr ⟨{ s with mem := mem' }, done, e :: es, ?_, q, rfl, by rw [← h1], i⟩
        rw [Meth.get_bind, Meth.bind_throw (inMemL_eq e1)]

theorem dropRet_eval (s : LSt α (Buf β)) (others : List Nat) (h : InUse s.mem (blocksBuf s.ret ++ others)) :
    ∃ mem', dropRet s = (.ok (), ⟨mem', s.src, Buf.none⟩) ∧ InUse mem' others := by
  obtain ⟨mem', e, i, -⟩ := destroyBuf_releases s.ret s.mem others h
  refine ⟨mem', ?_, i⟩
  unfold dropRet
  rw [Meth.get_bind, Meth.bind_ok (inMemL_eq e), Meth.get_bind]
  rfl

theorem newEntry_tries (grow : Nat → Nat) {make : Meth Mem (Obj α)} {own0 : List Nat} {good : Obj α → Prop} (h : Tries make own0 (·.mem) good) :
    Tries (newEntry grow make) own0 (fun e : Entry α => e.node :: blocksBuf e.vec) (fun e => ∃ o, good o ∧ e.vec.elems = [o]) := by
  intro s bs hs
  unfold newEntry
  obtain ⟨a1, a2⟩ := alloc_acquires s _ hs
  by_cases g1 : granted 1 s.plan
  · obtain ⟨b, s1, e1, -, i1, p1⟩ := a1 g1
    have i1' : InUse s1 (own0 ++ blocksBuf (Buf.none : Buf α) ++ ([b] ++ bs)) := by
      refine inUse_perm i1 ?_
      rw [List.perm_iff_count]; intro a; simp only [blocksBuf, Buf.none, blocksObjs, Option.toList_none, List.flatMap_nil, List.count_nil, List.count_append]; omega
    rcases pushBack_tries grow Buf.none h s1 _ i1' with ⟨v, s2, e2, ⟨o, g2, ho⟩, i2, p2⟩ | ⟨s2, e2, i2, f2⟩
    · refine .inl ⟨⟨b, v⟩, s2, ?_, ⟨o, g2, by simpa [Buf.none] using ho⟩, ?_, p2.trans (p1 ▸ List.drop_suffix 1 s.plan)⟩
      · rw [Meth.bind_ok e1, Meth.bind_ok (a := v) (s' := s2) (by rw [onFail, e2])]; rfl
      · refine inUse_perm i2 ?_
        rw [List.perm_iff_count]; intro a; simp only [List.count_append, List.count_cons, List.count_nil]; omega
    · have i2' : InUse s2 ([b] ++ (own0 ++ bs)) := by
        refine inUse_perm i2 ?_
        rw [List.perm_iff_count]; intro a; simp only [blocksBuf, Buf.none, blocksObjs, Option.toList_none, List.flatMap_nil, List.count_nil, List.count_append]; omega
      obtain ⟨s3, e3, i3, p3⟩ := free_releases b s2 _ i2'
      refine .inr ⟨s3, ?_, i3, ?_⟩
      · rw [Meth.bind_ok e1, Meth.bind_throw (e := .bad_alloc) (s' := s3) (by simp [onFail, e2, e3])]
      · rw [p1] at f2; exact List.mem_of_mem_drop f2
  · obtain ⟨s1, e1, i1⟩ := a2 g1
    exact .inr ⟨s1, by rw [Meth.bind_throw e1], i1, not_granted g1⟩

theorem put_tries (lt : κ → κ → Bool) (grow : Nat → Nat) (k : κ) {make : Meth Mem (Obj α)} {own0 : List Nat} {x : α} (h : Tries make own0 (·.mem) (fun o => o.val = x))
    (m : List (κ × Entry α)) :
    Tries (put lt grow k make m) (own0 ++ blocksMap m) blocksMap (fun m' => plainMap m' = OMap.upsert lt k [] (fun g => g ++ [x]) (plainMap m)) := by
  induction m with
  | nil =>
    rw [put]
    refine tries_map (tries_perm (newEntry_tries grow h) (by simp [blocksMap])) (fun e => [(k, e)]) (fun e _ => by simp [blocksMap]) ?_
    rintro e ⟨o, ho, he⟩
    simp [plainMap, he, valuesOf, ho, OMap.upsert]
  | cons e' m ih =>
    obtain ⟨k', e'⟩ := e'
    rw [put]
    split
    · next hlt =>
      refine tries_map (tries_perm (tries_frame (e'.node :: blocksBuf e'.vec) ih) ?_) (fun m' => (k', e') :: m') (fun m' _ => ?_) ?_
      · rw [List.perm_iff_count]; intro a; simp only [blocksMap, List.flatMap_cons, List.count_append]; omega
      · rw [List.perm_iff_count]; intro a; simp only [blocksMap, List.flatMap_cons, List.count_append]; omega
      · intro m' hm
        simp only [plainMap, List.map_cons, OMap.upsert, hlt, if_true] at hm ⊢
        rw [hm]
    · next hlt =>
      split
      · next hgt =>
        refine tries_map (tries_frame (blocksMap ((k', e') :: m)) (newEntry_tries grow h)) (fun e => (k, e) :: (k', e') :: m) (fun e _ => ?_) ?_
        · rw [List.perm_iff_count]; intro a; simp only [blocksMap, List.flatMap_cons, List.count_append]
        · rintro e ⟨o, ho, he⟩
          simp [plainMap, he, valuesOf, ho, OMap.upsert, hlt, hgt]
      · next hgt =>
        refine tries_map (tries_perm (tries_frame (e'.node :: blocksMap m) (pushBack_tries grow e'.vec h)) ?_) (fun v => (k', { e' with vec := v }) :: m) (fun v _ => ?_) ?_
        · rw [List.perm_iff_count]; intro a; simp only [blocksMap, List.flatMap_cons, List.count_append, List.count_cons]; omega
        · rw [List.perm_iff_count]; intro a; simp only [blocksMap, List.flatMap_cons, List.count_append, List.count_cons]; omega
        · rintro v ⟨o, ho, he⟩
          simp [plainMap, he, valuesOf, ho, OMap.upsert, hlt, hgt]

/-- The map made of values. -/
def groupOf (lt : κ → κ → Bool) (f : α → κ) (vs : List α) : List (κ × List α) := vs.foldl (fun m v => OMap.upsert lt (f v) [] (fun g => g ++ [v]) m) []

/-- The loop of `group_by`. -/
theorem groupLoop_eval (konst : Bool) (moved : α → α) (lt : κ → κ → Bool) (grow : Nat → Nat) (f : α → κ) (todo : List (Obj α)) :
    ∀ (done : List (Obj α)) (s : LSt α (List (κ × Entry α))) (others : List Nat)
    (_ : s.src.elems = takenFrom konst moved (fun _ => true) done ++ todo) (_ : plainMap s.ret = groupOf lt f (valuesOf done))
    (_ : InUse s.mem (blocksMap s.ret ++ (blocksBuf s.src ++ others))),
    (∃ s', groupLoop konst moved lt grow f todo done.length s = (.ok (), s') ∧ plainMap s'.ret = groupOf lt f (valuesOf (done ++ todo)) ∧
      s'.src = { s.src with elems := takenFrom konst moved (fun _ => true) (done ++ todo) } ∧ InUse s'.mem (blocksMap s'.ret ++ (blocksBuf s'.src ++ others))) ∨
    (∃ s' d rest, groupLoop konst moved lt grow f todo done.length s = (.throw .bad_alloc, s') ∧ false ∈ s.mem.plan ∧ done ++ todo = d ++ rest ∧
      s'.src = { s.src with elems := takenFrom konst moved (fun _ => true) d ++ rest } ∧ InUse s'.mem (blocksMap s'.ret ++ (blocksBuf s'.src ++ others))) := by
  induction todo with
  | nil =>
    intro done s others h1 h2 h3
    simp only [List.append_nil] at h1 ⊢
    exact .inl ⟨s, rfl, h2, by rw [← h1], h3⟩
  | cons e es ih =>
    intro done s others h1 h2 h3
    rw [groupLoop]
    have hd : done ++ e :: es = (done ++ [e]) ++ es := by simp
    have hl : done.length + 1 = (done ++ [e]).length := by simp
    have hs := step_eval (op := fun v => put lt grow (f e.val) (takeObj konst e) v) (moved := moved) (put_tries lt grow (f e.val) (takeObj_tries konst e) s.ret) h1 h3
    rcases hs with ⟨v, mem', e1, hv, p, i⟩ | ⟨mem', e1, i, q⟩
    · have hsrc : takenFrom konst moved (fun _ => true) (done ++ [e]) ++ es = takenFrom konst moved (fun _ => true) done ++ leftObj konst moved e :: es := by
        rw [takenFrom_append, takenFrom_one _ _ _ _ rfl]; simp
      have e2 : (do
          let s ← Meth.get
          let m ← inMemL (put lt grow (f e.val) (takeObj konst e) s.ret)
          let s ← Meth.get
          Meth.set { s with ret := m, src := { s.src with elems := s.src.elems.set done.length (leftObj konst moved e) } }
          groupLoop konst moved lt grow f es (done.length + 1)) s =
        groupLoop konst moved lt grow f es (done.length + 1)
          ⟨mem', { s.src with elems := takenFrom konst moved (fun _ => true) (done ++ [e]) ++ es }, v⟩ := by
        rw [Meth.get_bind, Meth.bind_ok (inMemL_eq e1), Meth.get_bind, Meth.set_bind, hsrc]
        simp only [h1]
        rw [set_at _ _ _ _ _ (takenFrom_length _ _ _ _).symm]
      rw [e2, hd, hl]
      have hret : plainMap v = groupOf lt f (valuesOf (done ++ [e])) := by
        rw [hv, h2]
        simp [valuesOf, groupOf]
      rw [← hsrc] at i
      rcases ih (done ++ [e]) ⟨mem', { s.src with elems := takenFrom konst moved (fun _ => true) (done ++ [e]) ++ es }, v⟩ others rfl hret i with
        ⟨s', k1, k2, k3, k4⟩ | ⟨s', d, rest, k1, k2, k3, k4, k5⟩
      · exact .inl ⟨s', k1, k2, k3, k4⟩
      · exact .inr ⟨s', d, rest, k1, p.subset k2, k3, k4, k5⟩
    · refine .inr ⟨{ s with mem := mem' }, done, e :: es, ?_, q, rfl, by rw [← h1], i⟩
      rw [Meth.get_bind, Meth.bind_throw (inMemL_eq e1)]

/-- The loop of `select`. -/
theorem selectLoop_eval (grow : Nat → Nat) (f : α → Meth Mem (Obj β)) (g : α → β) (hf : ∀ v, Tries (f v) [] (·.mem) (fun o => o.val = g v)) (todo : List (Obj α)) :
    ∀ (s : LSt α (Buf β)) (others : List Nat) (_ : InUse s.mem (blocksBuf s.ret ++ others)),
    (∃ s', selectLoop grow f todo s = (.ok (), s') ∧ valuesOf s'.ret.elems = valuesOf s.ret.elems ++ (valuesOf todo).map g ∧ s'.src = s.src ∧
      InUse s'.mem (blocksBuf s'.ret ++ others)) ∨
    (∃ s', selectLoop grow f todo s = (.throw .bad_alloc, s') ∧ false ∈ s.mem.plan ∧ s'.src = s.src ∧ InUse s'.mem (blocksBuf s'.ret ++ others)) := by
  induction todo with
  | nil => intro s others h; exact .inl ⟨s, rfl, by simp [valuesOf], rfl, h⟩
  | cons e es ih =>
    intro s others h
    rw [selectLoop]
    rcases hf e.val s.mem _ h with ⟨r, m1, e1, g1, i1, p1⟩ | ⟨m1, e1, i1, q1⟩
    · rw [Meth.bind_ok (inMemL_eq e1), Meth.get_bind]
      have hp := pushBack_tries grow s.ret (pure_tries (b := r) (own := (·.mem)) (good := fun o => o = r) (List.Perm.refl _) rfl)
      rcases hp m1 others (by rwa [List.append_assoc]) with ⟨v, m2, e2, ⟨o, ho, hv⟩, i2, p2⟩ | ⟨m2, e2, i2, q2⟩
      · have e2' : onFail (inMemL (pushBack grow s.ret (pure r))) (inMemL (freeAll r.mem)) ({ s with mem := m1 } : LSt α (Buf β)) = (.ok v, { s with mem := m2 }) := by
          rw [onFail, inMemL_eq (s := { s with mem := m1 }) e2]
        rw [Meth.bind_ok e2', Meth.get_bind, Meth.set_bind]
        rcases ih ⟨m2, s.src, v⟩ others i2 with ⟨s', k1, k2, k3, k4⟩ | ⟨s', k1, k2, k3, k4⟩
        · refine .inl ⟨s', k1, ?_, k3, k4⟩
          rw [k2, hv]; subst ho; simp [valuesOf, g1]
        · exact .inr ⟨s', k1, (p2.trans p1).subset k2, k3, k4⟩
      · rw [List.append_assoc] at i2
        obtain ⟨m3, e3, i3, p3⟩ := freeAll_releases r.mem m2 _ i2
        have e2' : onFail (inMemL (pushBack grow s.ret (pure r))) (inMemL (freeAll r.mem)) ({ s with mem := m1 } : LSt α (Buf β)) = (.throw .bad_alloc, { s with mem := m3 }) := by
          simp [onFail, inMemL_eq (s := { s with mem := m1 }) e2, inMemL_eq (s := { s with mem := m2 }) e3]
        exact .inr ⟨{ s with mem := m3 }, by rw [Meth.bind_throw e2'], p1.subset q2, rfl, i3⟩
    · exact .inr ⟨{ s with mem := m1 }, by rw [Meth.bind_throw (inMemL_eq e1)], q1, rfl, i1⟩

end Utki.LinqAlloc
