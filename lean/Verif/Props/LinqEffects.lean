import Verif.Model.LinqEffects
import Verif.Spec.Visit
import Verif.Props.Linq
/-!
# Functions with effects in `linq` (C90)

The functions given to `select`, `where` and `group_by` are arbitrary programs here. What they are expected to be called for is said by
`Spec.visit`: each element once, from the first to the last, until a call does not return.
-/
namespace Utki
open Spec Linq

variable {α β κ σ : Type}

namespace Linq

theorem visit_cons_ok {f : α → Meth σ β} {a : α} {as : List α} {s s' : σ} {b : β} (h : f a s = (.ok b, s')) :
    visit f (a :: as) s = ((visit f as s').1.bind (fun bs => .ok (b :: bs)), (visit f as s').2) := by
  rw [visit, Meth.bind_ok h, Meth.bind_apply, Meth.bind]
  rcases hv : visit f as s' with ⟨r, t⟩
  cases r <;> rfl

theorem visit_cons_bad {f : α → Meth σ β} {a : α} {as : List α} {s : σ} (h : ∀ b, (f a s).1 ≠ .ok b) :
    visit f (a :: as) s = ((f a s).1.bind (fun _ => .diverge), (f a s).2) := by
  rw [visit, Meth.bind_apply, Meth.bind]
  rcases hv : f a s with ⟨r, t⟩
  cases r with
  | ok b => exact absurd (by rw [hv]) (h b)
  | _ => rfl

theorem selectLoopM_eq (konst takes : Bool) (moved : α → α) (f : α → Meth σ β) (c : List α) (ret : List β) (done : List α) (s : σ) :
    (selectLoopM konst takes moved f c ret done s).1 = (visit f c s).1.bind (fun bs => .ok (ret ++ bs)) ∧
    (selectLoopM konst takes moved f c ret done s).2.user = (visit f c s).2 := by
  induction c generalizing ret done s with
  | nil => simp [selectLoopM, visit, Res.bind]
  | cons e es ih =>
    rcases hf : f e s with ⟨r, s'⟩
    cases r with
    | ok b =>
      rw [visit_cons_ok hf]
      simp only [selectLoopM, hf]
      obtain ⟨h1, h2⟩ := ih (ret ++ [b]) (done ++ [passed konst takes moved e]) s'
      refine ⟨?_, h2⟩
      rw [h1]
      cases (visit f es s').1 <;> simp [Res.bind]
    | _ => rw [visit_cons_bad (by simp [hf])]; simp [selectLoopM, hf, Res.bind]

theorem select2LoopM_eq (konst takes : Bool) (moved : α → α) (f : α → Nat → Meth σ β) (c : List α) (i : Nat) (ret : List β) (done : List α) (s : σ) :
    (select2LoopM konst takes moved f c i ret done s).1 = (visit (fun p => f p.1 p.2) (numbered i c) s).1.bind (fun bs => .ok (ret ++ bs)) ∧
    (select2LoopM konst takes moved f c i ret done s).2.user = (visit (fun p => f p.1 p.2) (numbered i c) s).2 := by
  induction c generalizing i ret done s with
  | nil => simp [select2LoopM, visit, numbered, Res.bind]
  | cons e es ih =>
    rcases hf : f e i s with ⟨r, s'⟩
    cases r with
    | ok b =>
      rw [numbered, visit_cons_ok (f := fun p => f p.1 p.2) (a := (e, i)) hf]
      simp only [select2LoopM, hf]
      obtain ⟨h1, h2⟩ := ih (i + 1) (ret ++ [b]) (done ++ [passed konst takes moved e]) s'
      refine ⟨?_, h2⟩
      rw [h1]
      cases (visit (fun p => f p.1 p.2) (numbered (i + 1) es) s').1 <;> simp [Res.bind]
    | _ => rw [numbered, visit_cons_bad (by simp [hf])]; simp [select2LoopM, hf, Res.bind]

theorem recording_eval (f : α → Meth σ β) (a : α) (l : List α) (s : σ) : recording f a (l, s) = ((f a s).1, (l ++ [a], (f a s).2)) := rfl

theorem selectLoopM_src (konst takes : Bool) (moved : α → α) (f : α → Meth σ β) (c : List α) (ret : List β) (done : List α) (l : List α) (s : σ) :
    ∃ n, (selectLoopM konst takes moved (recording f) c ret done (l, s)).2.user.1 = l ++ c.take n ∧
      (selectLoopM konst takes moved (recording f) c ret done (l, s)).2.src = done ++ (c.take n).map (passed konst takes moved) ++ c.drop n := by
  induction c generalizing ret done l s with
  | nil => exact ⟨0, by simp [selectLoopM]⟩
  | cons e es ih =>
    have hr := recording_eval f e l s
    rcases hf : f e s with ⟨r, s'⟩
    rw [hf] at hr
    cases r with
    | ok b =>
      simp only [selectLoopM, hr]
      obtain ⟨n, h1, h2⟩ := ih (ret ++ [b]) (done ++ [passed konst takes moved e]) (l ++ [e]) s'
      exact ⟨n + 1, by rw [h1]; simp, by rw [h2]; simp⟩
    | _ => exact ⟨1, by simp [selectLoopM, hr]⟩

theorem whereLoopM_eq (konst takes : Bool) (hk : konst = true ∨ takes = false) (moved : α → α) (f : α → Meth σ Bool) (c ret done : List α) (s : σ) :
    (whereLoopM konst takes moved f c ret done s).1 = (visit f c s).1.bind (fun bs => .ok (ret ++ kept c bs)) ∧
    (whereLoopM konst takes moved f c ret done s).2.user = (visit f c s).2 := by
  have hp : ∀ e, passed konst takes moved e = e := by
    intro e
    rcases hk with rfl | rfl <;> simp [passed]
  induction c generalizing ret done s with
  | nil => simp [whereLoopM, visit, kept, Res.bind]
  | cons e es ih =>
    rcases hf : f e s with ⟨r, s'⟩
    cases r with
    | ok b =>
      rw [visit_cons_ok hf]
      cases b with
      | true =>
        simp only [whereLoopM, hf, hp]
        obtain ⟨h1, h2⟩ := ih (ret ++ [e]) (done ++ [passed konst true moved e]) s'
        refine ⟨?_, h2⟩
        rw [h1]
        cases (visit f es s').1 <;> simp [Res.bind, kept]
      | false =>
        simp only [whereLoopM, hf, hp]
        obtain ⟨h1, h2⟩ := ih ret (done ++ [e]) s'
        refine ⟨?_, h2⟩
        rw [h1]
        cases (visit f es s').1 <;> simp [Res.bind, kept]
    | _ => rw [visit_cons_bad (by simp [hf])]; simp [whereLoopM, hf, Res.bind]

/-- What `where` leaves of the elements for which it has got the answers `bs`. -/
def leftBehind (konst : Bool) (moved : α → α) : List α → List Bool → List α
  | a :: as, b :: bs => (if b && !konst then moved a else a) :: leftBehind konst moved as bs
  | as, [] => as
  | [], _ => []

theorem leftBehind_const (moved : α → α) (c : List α) (bs : List Bool) : leftBehind true moved c bs = c := by
  induction c generalizing bs with
  | nil => cases bs <;> rfl
  | cons a as ih => cases bs <;> simp [leftBehind, ih]

theorem whereLoopM_src (konst takes : Bool) (hk : konst = true ∨ takes = false) (moved : α → α) (f : α → Meth σ Bool) (c ret done : List α) (s : σ) :
    ∃ n bs, (∃ t, visit f (c.take n) s = (.ok bs, t)) ∧
      (whereLoopM konst takes moved f c ret done s).2.src = done ++ leftBehind konst moved c bs ∧
      ((whereLoopM konst takes moved f c ret done s).1.isOk = true → c.length ≤ n) := by
  have hp : ∀ e, passed konst takes moved e = e := by
    intro e
    rcases hk with rfl | rfl <;> simp [passed]
  induction c generalizing ret done s with
  | nil => exact ⟨0, [], ⟨s, rfl⟩, by simp [whereLoopM, leftBehind], by simp⟩
  | cons e es ih =>
    rcases hf : f e s with ⟨r, s'⟩
    cases r with
    | ok b =>
      cases b with
      | true =>
        simp only [whereLoopM, hf, hp]
        obtain ⟨n, bs, ⟨t, h1⟩, h2, h3⟩ := ih (ret ++ [e]) (done ++ [passed konst true moved e]) s'
        refine ⟨n + 1, true :: bs, ⟨t, ?_⟩, ?_, ?_⟩
        · rw [List.take_succ_cons, visit_cons_ok hf, h1]; rfl
        · rw [h2]; cases konst <;> simp [leftBehind, passed]
        · intro h; have := h3 h; simp; omega
      | false =>
        simp only [whereLoopM, hf, hp]
        obtain ⟨n, bs, ⟨t, h1⟩, h2, h3⟩ := ih ret (done ++ [e]) s'
        refine ⟨n + 1, false :: bs, ⟨t, ?_⟩, ?_, ?_⟩
        · rw [List.take_succ_cons, visit_cons_ok hf, h1]; rfl
        · rw [h2]; simp [leftBehind]
        · intro h; have := h3 h; simp; omega
    | _ => exact ⟨0, [], ⟨s, rfl⟩, by simp [whereLoopM, hf, hp, leftBehind], by simp [whereLoopM, hf, Res.bind, Res.isOk]⟩

end Linq

namespace Spec

/-- `m` is the map from each key that was returned to the elements for which it was returned, in their order in `c`. -/
def GroupedBy (lt : κ → κ → Bool) (c : List α) (ks : List κ) (m : List (κ × List α)) : Prop :=
  IsMap lt m ∧ ∀ k g, (k, g) ∈ m ↔ g = withKey k c ks ∧ g ≠ []

end Spec

namespace Linq

theorem withKey_append (k : κ) (c1 c2 : List α) (k1 k2 : List κ) (h : c1.length = k1.length) :
    withKey k (c1 ++ c2) (k1 ++ k2) = withKey k c1 k1 ++ withKey k c2 k2 := by
  induction c1 generalizing k1 with
  | nil =>
    cases k1 with
    | nil => simp [withKey]
    | cons x xs => simp at h
  | cons a as ih =>
    cases k1 with
    | nil => simp at h
    | cons x xs =>
      have := ih xs (by simpa using h)
      simp only [List.cons_append, withKey, this]
      split <;> simp

theorem groupedBy_snoc {lt : κ → κ → Bool} (o : StrictTotalOrder lt) {c : List α} {ks : List κ} (hl : c.length = ks.length) {m : List (κ × List α)}
    (h : GroupedBy lt c ks m) (v : α) (kv : κ) : GroupedBy lt (c ++ [v]) (ks ++ [kv]) (OMap.upsert lt kv [] (fun g => g ++ [v]) m) := by
  obtain ⟨h1, h2⟩ := h
  refine ⟨upsert_isMap o h1, ?_⟩
  intro k g
  rw [upsert_mem o h1, withKey_append _ _ _ _ _ hl]
  simp only [h2]
  by_cases hk : k = kv
  · subst hk
    have hf : withKey k [v] [k] = [v] := by simp [withKey]
    rw [hf]
    constructor
    · rintro (⟨h, _⟩ | ⟨_, ⟨g', ⟨hg, _⟩, rfl⟩ | ⟨hn, rfl⟩⟩)
      · exact absurd rfl h
      · exact ⟨by rw [hg], by simp⟩
      · have : withKey k c ks = [] := by
          by_cases he : withKey k c ks = []
          · exact he
          · exact absurd rfl (hn (k, _) ⟨rfl, he⟩)
        simp [this]
    · rintro ⟨rfl, _⟩
      refine .inr ⟨rfl, ?_⟩
      by_cases he : withKey k c ks = []
      · right
        refine ⟨?_, by rw [he]⟩
        rintro ⟨k', g'⟩ hq hk'
        simp only at hk'
        subst hk'
        exact hq.2 (hq.1.trans he)
      · exact .inl ⟨_, ⟨rfl, he⟩, rfl⟩
  · have hf : withKey k [v] [kv] = [] := by simp [withKey, Ne.symm hk]
    rw [hf, List.append_nil]
    simp [hk]

theorem groupByLoopM_bad (konst : Bool) (moved : α → α) (lt : κ → κ → Bool) (f : α → Meth σ κ) (c : List α) (ret : List (κ × List α)) (done : List α)
    (s : σ) : (groupByLoopM konst moved lt f c ret done s).2.user = (visit f c s).2 ∧
      ((∀ ks, (visit f c s).1 ≠ .ok ks) → (groupByLoopM konst moved lt f c ret done s).1 = (visit f c s).1.bind (fun _ => .diverge)) := by
  induction c generalizing ret done s with
  | nil => simp [groupByLoopM, visit]
  | cons v vs ih =>
    rcases hf : f v s with ⟨r, s'⟩
    cases r with
    | ok k =>
      rw [visit_cons_ok hf]
      simp only [groupByLoopM, hf]
      obtain ⟨h1, h2⟩ := ih (OMap.upsert lt k [] (fun g => g ++ [v]) ret) (done ++ [passed konst true moved v]) s'
      refine ⟨h1, ?_⟩
      intro h
      cases hv : (visit f vs s').1 with
      | ok ks => exact absurd (by rw [hv]; rfl) (h (k :: ks))
      | _ => rw [h2 (by simp [hv]), hv]; rfl
    | _ => rw [visit_cons_bad (by simp [hf])]; simp [groupByLoopM, hf, Res.bind]

theorem groupByLoopM_ok {lt : κ → κ → Bool} (o : StrictTotalOrder lt) (konst : Bool) (moved : α → α) (f : α → Meth σ κ) (c : List α)
    (ret : List (κ × List α)) (done before : List α) (kb : List κ) (hl : before.length = kb.length) (hb : GroupedBy lt before kb ret)
    (s : σ) (ks : List κ) (h : (visit f c s).1 = .ok ks) :
    ∃ m, (groupByLoopM konst moved lt f c ret done s).1 = .ok m ∧ GroupedBy lt (before ++ c) (kb ++ ks) m := by
  induction c generalizing ret done before kb s ks with
  | nil =>
    simp [visit] at h
    subst h
    exact ⟨ret, rfl, by simpa using hb⟩
  | cons v vs ih =>
    rcases hf : f v s with ⟨r, s'⟩
    cases r with
    | ok k =>
      rw [visit_cons_ok hf] at h
      simp only [groupByLoopM, hf]
      cases hv : (visit f vs s').1 with
      | ok ks' =>
        rw [hv] at h
        simp [Res.bind] at h
        subst h
        obtain ⟨m, h1, h2⟩ := ih (OMap.upsert lt k [] (fun g => g ++ [v]) ret) (done ++ [passed konst true moved v]) (before ++ [v]) (kb ++ [k])
          (by simp [hl]) (groupedBy_snoc o hl hb v k) s' ks' hv
        exact ⟨m, h1, by simpa using h2⟩
      | _ => rw [hv] at h; simp [Res.bind] at h
    | _ => rw [visit_cons_bad (by simp [hf]), hf] at h; simp [Res.bind] at h

theorem groupByLoopM_src (konst : Bool) (moved : α → α) (lt : κ → κ → Bool) (f : α → Meth σ κ) (c : List α) (ret : List (κ × List α)) (done : List α)
    (s : σ) : ∃ n, (∃ ks t, visit f (c.take n) s = (.ok ks, t)) ∧
      (groupByLoopM konst moved lt f c ret done s).2.src = done ++ (c.take n).map (passed konst true moved) ++ c.drop n ∧
      ((groupByLoopM konst moved lt f c ret done s).1.isOk = true → c.length ≤ n) := by
  induction c generalizing ret done s with
  | nil => exact ⟨0, ⟨[], s, rfl⟩, by simp [groupByLoopM], by simp⟩
  | cons v vs ih =>
    rcases hf : f v s with ⟨r, s'⟩
    cases r with
    | ok k =>
      simp only [groupByLoopM, hf]
      obtain ⟨n, ⟨ks, t, h1⟩, h2, h3⟩ := ih (OMap.upsert lt k [] (fun g => g ++ [v]) ret) (done ++ [passed konst true moved v]) s'
      refine ⟨n + 1, ⟨k :: ks, t, ?_⟩, ?_, ?_⟩
      · rw [List.take_succ_cons, visit_cons_ok hf, h1]; rfl
      · rw [h2]; simp
      · intro h; have := h3 h; simp; omega
    | _ => exact ⟨0, ⟨[], s, rfl⟩, by simp [groupByLoopM, hf], by simp [groupByLoopM, hf, Res.bind, Res.isOk]⟩

end Linq

/-! ## C90 -/

/-- C90: `select` calls the function for each element once, from the first to the last, and gives what the calls return; the first call that does
not return ends the operation the same way. -/
theorem C90_select (konst takes : Bool) (moved : α → α) (f : α → Meth σ β) (c : List α) (s : σ) :
    ((selectM konst takes moved f c s).1, (selectM konst takes moved f c s).2.user) = visit f c s := by
  obtain ⟨h1, h2⟩ := selectLoopM_eq konst takes moved f c [] [] s
  rw [selectM, h1, h2]
  cases h : visit f c s with
  | mk r t => cases r <;> simp [Res.bind]

/-- C90: the same for a function of two arguments, which gets the position of the element as the second one. -/
theorem C90_select_index (konst takes : Bool) (moved : α → α) (f : α → Nat → Meth σ β) (c : List α) (s : σ) :
    ((select2M konst takes moved f c s).1, (select2M konst takes moved f c s).2.user) = visit (fun p => f p.1 p.2) (numbered 0 c) s := by
  obtain ⟨h1, h2⟩ := select2LoopM_eq konst takes moved f c 0 [] [] s
  rw [select2M, h1, h2]
  cases h : visit (fun p => f p.1 p.2) (numbered 0 c) s with
  | mk r t => cases r <;> simp [Res.bind]

/-- C90: what `select` leaves of the collection, also if the function throws: an lvalue, and a collection whose elements the function takes by
reference, is as it was. If the function takes elements of an rvalue by value, exactly those it was called for are moved from. -/
theorem C90_select_source (konst takes : Bool) (moved : α → α) (f : α → Meth σ β) (c : List α) (s : σ) :
    let after := (selectM konst takes moved (recording f) c ([], s)).2
    let called := after.user.1
    called <+: c ∧ after.src = (if takes && !konst then called.map moved else called) ++ c.drop called.length := by
  obtain ⟨n, h1, h2⟩ := selectLoopM_src konst takes moved f c [] [] [] s
  simp only [List.nil_append] at h1 h2
  simp only [selectM, h1, h2]
  refine ⟨List.take_prefix _ _, ?_⟩
  have hd : c.drop (c.take n).length = c.drop n := by
    rw [List.length_take]
    by_cases hn : n ≤ c.length
    · rw [Nat.min_eq_left hn]
    · rw [Nat.min_eq_right (by omega), List.drop_eq_nil_of_le (Nat.le_refl _), List.drop_eq_nil_of_le (by omega)]
  rw [hd]
  have : passed konst takes moved = fun a => if takes && !konst then moved a else a := by funext a; rfl
  rw [this]
  split <;> simp

/-- C90: `where` calls the predicate for each element once, from the first to the last, and gives the elements for which it said yes; the first
call that does not return ends the operation the same way. The predicate takes const references, or the collection is an lvalue. -/
theorem C90_where (konst takes : Bool) (h : konst = true ∨ takes = false) (moved : α → α) (f : α → Meth σ Bool) (c : List α) (s : σ) :
    ((whereM konst takes moved f c s).1, (whereM konst takes moved f c s).2.user) = (do let answers ← visit f c; return kept c answers : Meth σ (List α)) s := by
  obtain ⟨h1, h2⟩ := whereLoopM_eq konst takes h moved f c [] [] s
  rw [whereM, h1, h2, Meth.bind_apply, Meth.bind]
  cases h : visit f c s with
  | mk r t => cases r <;> simp [Res.bind]

/-- C90: what `where` leaves of the collection, also if the predicate throws: an lvalue is as it was; of an rvalue exactly those elements are moved
from for which the predicate has said yes. -/
theorem C90_where_source (konst takes : Bool) (h : konst = true ∨ takes = false) (moved : α → α) (f : α → Meth σ Bool) (c : List α) (s : σ) :
    ∃ n answers, (∃ t, visit f (c.take n) s = (.ok answers, t)) ∧ ((whereM konst takes moved f c s).1.isOk = true → c.length ≤ n) ∧
      (konst = true → (whereM konst takes moved f c s).2.src = c) ∧
      (konst = false → (whereM konst takes moved f c s).2.src =
        List.zipWith (fun a yes => if yes then moved a else a) c answers ++ c.drop answers.length) := by
  obtain ⟨n, bs, h1, h2, h3⟩ := whereLoopM_src konst takes h moved f c [] [] s
  refine ⟨n, bs, h1, h3, ?_, ?_⟩
  · rintro rfl
    rw [whereM, h2, leftBehind_const]; rfl
  · rintro rfl
    rw [whereM, h2, List.nil_append]
    clear h1 h2 h3
    induction c generalizing bs with
    | nil => cases bs <;> simp [leftBehind]
    | cons a as ih => cases bs with
      | nil => simp [leftBehind]
      | cons b bs => simp [leftBehind, ih]

/-- C90: `group_by` calls the function for each element once, from the first to the last, and groups the elements by the keys returned; the first
call that does not return ends the operation the same way. -/
theorem C90_group_by {lt : κ → κ → Bool} (o : StrictTotalOrder lt) (konst : Bool) (moved : α → α) (f : α → Meth σ κ) (c : List α) (s : σ) :
    (groupByM konst moved lt f c s).2.user = (visit f c s).2 ∧
    (∀ keys, (visit f c s).1 = .ok keys → ∃ groups, (groupByM konst moved lt f c s).1 = .ok groups ∧ GroupedBy lt c keys groups) ∧
    ((∀ keys, (visit f c s).1 ≠ .ok keys) → (groupByM konst moved lt f c s).1 = (visit f c s).1.bind (fun _ => .ok [])) := by
  obtain ⟨h1, h2⟩ := groupByLoopM_bad konst moved lt f c [] [] s
  refine ⟨h1, ?_, ?_⟩
  · intro keys h
    obtain ⟨m, hm⟩ := groupByLoopM_ok o konst moved f c [] [] [] [] rfl ⟨List.Pairwise.nil, by simp [withKey]⟩ s keys h
    exact ⟨m, by simpa [groupByM] using hm⟩
  · intro h
    rw [groupByM, h2 h]
    cases hv : (visit f c s).1 with
    | ok keys => exact absurd hv (h keys)
    | _ => rfl

/-- C90: what `group_by` leaves of the collection, also if the function throws: an lvalue is as it was; of an rvalue exactly those elements are moved
from for which the function has returned a key. -/
theorem C90_group_by_source (lt : κ → κ → Bool) (konst : Bool) (moved : α → α) (f : α → Meth σ κ) (c : List α) (s : σ) :
    ∃ n, (∃ keys t, visit f (c.take n) s = (.ok keys, t)) ∧ ((groupByM konst moved lt f c s).1.isOk = true → c.length ≤ n) ∧
      (konst = true → (groupByM konst moved lt f c s).2.src = c) ∧
      (konst = false → (groupByM konst moved lt f c s).2.src = (c.take n).map moved ++ c.drop n) := by
  obtain ⟨n, h1, h2, h3⟩ := groupByLoopM_src konst moved lt f c [] [] s
  refine ⟨n, h1, h3, ?_, ?_⟩
  · rintro rfl
    have : passed true true moved = id := by funext a; rfl
    rw [groupByM, h2, this]; simp
  · rintro rfl
    have : passed false true moved = moved := by funext a; rfl
    rw [groupByM, h2, this]; simp

/-- A function that counts its calls and throws at the third: `select` of an rvalue has then moved from three strings of four. -/
def thirdThrows (a : List Byte) : Meth Nat Nat := fun n => if n = 2 then (.throw (.user 7), n) else (.ok (a.length * 10 + n), n + 1)

example : selectM false true (fun _ => str "") thirdThrows [str "a", str "bc", str "def", str "g"] 0 =
    (.throw (.user 7), ⟨[str "", str "", str "", str "g"], 2⟩) := by decide
example : selectM true true (fun _ => str "") thirdThrows [str "a", str "bc", str "def", str "g"] 0 =
    (.throw (.user 7), ⟨[str "a", str "bc", str "def", str "g"], 2⟩) := by decide
example : (selectM true true (fun _ => str "") thirdThrows [str "a", str "bc"] 0).1 = .ok [10, 21] := by decide
/-- A predicate that says yes at every other call, whatever the element is. -/
example : whereM false false (fun _ => 0) (fun (_ : Nat) (n : Nat) => (.ok (n % 2 == 0), n + 1)) [5, 5, 6, 6] 0 =
    (.ok [5, 6], ⟨[0, 5, 0, 6], 4⟩) := by decide
/-- Keys that depend on the number of the call. -/
example : groupByM true (fun _ => 0) (fun a b => decide (a < b)) (fun (_ : Nat) (n : Nat) => (.ok (n % 2), n + 1)) [5, 6, 7] 0 =
    (.ok [(0, [5, 7]), (1, [6])], ⟨[5, 6, 7], 3⟩) := by decide

/-! The model of pure functions, with which C47 - C50 are stated, is the special case of functions without effects. -/

theorem selectM_pure (konst : Bool) (moved : α → α) (f : Fn α β) (c : List α) (s : σ) :
    selectM konst f.takes moved (fun a => pure (f.app a)) c s = (.ok (Linq.select konst moved f c).ret, ⟨(Linq.select konst moved f c).src, s⟩) := by
  have key : ∀ (c : List α) (o : Out α β), selectLoopM konst f.takes moved (fun a => (pure (f.app a) : Meth σ β)) c o.ret o.src s =
      (.ok (selectLoop konst moved f c o).ret, ⟨(selectLoop konst moved f c o).src, s⟩) := by
    intro c
    induction c with
    | nil => intro o; rfl
    | cons e es ih => intro o; exact ih ⟨o.ret ++ [f.app e], o.src ++ [passed konst f.takes moved e], o.copies + passedCopies konst f.takes⟩
  exact key c ⟨[], [], 0⟩

theorem select2M_pure (konst takes : Bool) (moved : α → α) (f : α → Nat → β) (c : List α) (s : σ) :
    select2M konst takes moved (fun a i => pure (f a i)) c s =
      (.ok (Linq.select2 konst moved takes f c).ret, ⟨(Linq.select2 konst moved takes f c).src, s⟩) := by
  have key : ∀ (c : List α) (i : Nat) (o : Out α β), select2LoopM konst takes moved (fun a i => (pure (f a i) : Meth σ β)) c i o.ret o.src s =
      (.ok (select2Loop konst moved takes f c i o).ret, ⟨(select2Loop konst moved takes f c i o).src, s⟩) := by
    intro c
    induction c with
    | nil => intro i o; rfl
    | cons e es ih => intro i o; exact ih (i + 1) ⟨o.ret ++ [f e i], o.src ++ [passed konst takes moved e], o.copies + passedCopies konst takes⟩
  exact key c 0 ⟨[], [], 0⟩

theorem whereM_pure (konst : Bool) (moved : α → α) (f : Fn α Bool) (c : List α) (s : σ) :
    whereM konst f.takes moved (fun a => pure (f.app a)) c s = (.ok (Linq.where_ konst moved f c).ret, ⟨(Linq.where_ konst moved f c).src, s⟩) := by
  have key : ∀ (c : List α) (o : Out α α), whereLoopM konst f.takes moved (fun a => (pure (f.app a) : Meth σ Bool)) c o.ret o.src s =
      (.ok (whereLoop konst moved (fun a l => l ++ [a]) f c o).ret, ⟨(whereLoop konst moved (fun a l => l ++ [a]) f c o).src, s⟩) := by
    intro c
    induction c with
    | nil => intro o; rfl
    | cons e es ih =>
      intro o
      cases hf : f.app e with
      | true =>
        simp only [whereLoopM, Meth.pure_eval, hf, whereLoop, if_true]
        exact ih ⟨o.ret ++ [passed konst f.takes moved e], _, _⟩
      | false =>
        simp only [whereLoopM, Meth.pure_eval, hf, whereLoop, Bool.false_eq_true, if_false]
        exact ih ⟨o.ret, o.src ++ [passed konst f.takes moved e], o.copies + passedCopies konst f.takes⟩
  exact key c ⟨[], [], 0⟩

theorem groupByM_pure (konst : Bool) (moved : α → α) (lt : κ → κ → Bool) (f : Fn α κ) (c : List α) (s : σ) :
    groupByM konst moved lt (fun a => pure (f.app a)) c s =
      (.ok (Linq.groupBy konst moved lt f c).ret, ⟨(Linq.groupBy konst moved lt f c).src, s⟩) := by
  have key : ∀ (c : List α) (o : Out α (κ × List α)), groupByLoopM konst moved lt (fun a => (pure (f.app a) : Meth σ κ)) c o.ret o.src s =
      (.ok (groupByLoop konst moved lt f c o).ret, ⟨(groupByLoop konst moved lt f c o).src, s⟩) := by
    intro c
    induction c with
    | nil => intro o; rfl
    | cons e es ih =>
      intro o
      simp only [groupByLoopM, Meth.pure_eval, groupByLoop]
      exact ih ⟨_, _, _⟩
  exact key c ⟨[], [], 0⟩

end Utki
