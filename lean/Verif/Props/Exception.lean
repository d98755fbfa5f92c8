import Verif.Model.Exception
/-!
# Properties of exception reports (C64)
-/
namespace Utki
open Exception

namespace Spec

/-- One exception of a nesting chain: name of its type, and its text if it is a `std::exception`. -/
structure Entry where
  type : List Byte
  what : Option (List Byte)
  deriving DecidableEq

/-- The exceptions of a nesting chain, outermost first. `utki::throw_with_nested(a)` while handling `b` gives `a`, followed by the chain
of `b`; so does `std::throw_with_nested`. -/
def entries : Exc → List Entry
  | .plain k t w | .nestNull k t w => [⟨t, if k = .other then none else some w⟩]
  | .nest k t w i => ⟨t, if k = .other then none else some w⟩ :: entries i
  | .stack _ n i => entries n ++ entries i
  | .stackNull _ n => entries n

/-- `type: what`, or only the type. -/
def mention (e : Entry) : List Byte := match e.what with | some w => e.type ++ str ": " ++ w | none => e.type

/-- One line per exception, each beginning with the indentation. -/
def report (ind : List Byte) (es : List Entry) : List Byte := List.intercalate (str "\n") (es.map (fun e => ind ++ mention e))

/-- The given parts occur in the text in this order, without overlap. -/
def InOrder : List (List Byte) → List Byte → Prop
  | [], _ => True
  | s :: ss, text => ∃ a b, text = a ++ s ++ b ∧ InOrder ss b

/-- All exceptions in it were thrown properly: `throw_with_nested` (`std` or `utki`) was called while an exception was handled, and
`utki::throw_with_nested` was given a `std::exception` (it does not compile otherwise). -/
def Proper : Exc → Prop
  | .plain .. => True
  | .nest _ _ _ i => Proper i
  | .nestNull .. => False
  | .stack _ n i => isStd n = true ∧ Proper n ∧ Proper i
  | .stackNull .. => False

/-- `utki::throw_with_nested` was only given `std::exception`s (it does not compile otherwise). -/
def Typed : Exc → Prop
  | .plain .. | .nestNull .. => True
  | .nest _ _ _ i => Typed i
  | .stack _ n i => isStd n = true ∧ Typed n ∧ Typed i
  | .stackNull _ n => isStd n = true ∧ Typed n

/-- Some exception in it was made by `throw_with_nested` (`std` or `utki`) called outside of any `catch` block. -/
def SomeNull : Exc → Prop
  | .plain .. => False
  | .nest _ _ _ i => SomeNull i
  | .nestNull .. => True
  | .stack _ n i => SomeNull n ∨ SomeNull i
  | .stackNull .. => True

/-- A chain made by `std::throw_with_nested` only. -/
def StdChain : Exc → Prop
  | .plain .. => True
  | .nest _ _ _ i => StdChain i
  | _ => False

/-- A chain made by calls of `utki::throw_with_nested`, the innermost of them while handling an exception made by `std::throw_with_nested`,
or a simple one, whose class is not derived from `utki::exception`. -/
def Chain : Exc → Prop
  | .stack _ (.plain k _ _) i => k ≠ .other ∧ (Chain i ∨ (StdChain i ∧ isUtki i = false))
  | _ => False

end Spec
open Spec

theorem Spec.InOrder.pre {ss : List (List Byte)} {b : List Byte} (a : List Byte) (h : InOrder ss b) : InOrder ss (a ++ b) := by
  cases ss with
  | nil => trivial
  | cons s ss =>
    obtain ⟨x, y, rfl, h⟩ := h
    exact ⟨a ++ x, y, by simp, h⟩

theorem Spec.InOrder.app {xs ys : List (List Byte)} {a b : List Byte} (h1 : InOrder xs a) (h2 : InOrder ys b) : InOrder (xs ++ ys) (a ++ b) := by
  induction xs generalizing a with
  | nil => exact h2.pre a
  | cons x xs ih =>
    obtain ⟨p, q, rfl, h⟩ := h1
    exact ⟨p, q ++ b, by simp, ih h⟩

theorem Spec.InOrder.one (s : List Byte) : InOrder [s] s := ⟨[], [], by simp, trivial⟩

theorem what_stack (t n i) : what (.stack t n i) = (member (.stack t n i) (str "- ")).bind (fun s => .ok (str "exception stack:\n" ++ s)) := by
  rw [what]; rfl
theorem what_plain (k t w) : what (.plain k t w) = .ok w := by rw [what]
theorem what_nest (k t w i) : what (.nest k t w i) = .ok w := by rw [what]
theorem toString_plain (k t w ind) : Exception.toString (.plain k t w) ind = .ok (ind ++ t ++ str ": " ++ w) := by
  rw [Exception.toString]; simp [what_plain, typeName]
theorem toString_nest (k t w i ind) : Exception.toString (.nest k t w i) ind =
    (if isStd i then Exception.toString i ind else current i ind).bind (fun s => .ok (ind ++ t ++ str ": " ++ w ++ str "\n" ++ s)) := by
  rw [Exception.toString]
  simp only [what_nest, Res.bind_eq, Res.ok_bind, typeName]
  split <;> simp
theorem toString_stack (t n i ind) : Exception.toString (.stack t n i) ind =
    (what (.stack t n i)).bind (fun w => .ok (ind ++ t ++ str ": " ++ w)) := by
  rw [Exception.toString]; simp [typeName]
theorem current_plain (k t w ind) : current (.plain k t w) ind = .ok (ind ++ t) := by
  rw [current] <;> simp [typeName]
theorem current_nest (k t w i ind) : current (.nest k t w i) ind =
    (if isStd i then Exception.toString i ind else current i ind).bind (fun s => .ok (ind ++ t ++ str "\n" ++ s)) := by
  rw [current]
  simp only [typeName]
  split <;> simp
theorem current_stack (t n i ind) : current (.stack t n i) ind = .ok (ind ++ t) := by
  rw [current] <;> simp [typeName]
theorem member_stack (t n i ind) : member (.stack t n i) ind = (Exception.toString n []).bind (fun a =>
    (if isUtki i then member i ind else if isStd i then Exception.toString i ind else current i ind).bind
      (fun b => .ok (ind ++ a ++ str "\n" ++ b))) := by
  rw [member]
  simp only [Res.bind_eq]
  congr 1
  funext a
  split
  · simp
  · split <;> simp
theorem member_plain (k t w ind) : member (.plain k t w) ind = Exception.toString (.plain k t w) [] := by rw [member]
theorem member_nest (k t w i ind) : member (.nest k t w i) ind = Exception.toString (.nest k t w i) [] := by rw [member]

theorem mention_std {k : Kind} (h : k ≠ .other) (t w) : mention ⟨t, if k = .other then none else some w⟩ = t ++ str ": " ++ w := by
  simp [mention, h]
theorem mention_other (t w) : mention ⟨t, if Kind.other = .other then none else some w⟩ = t := by simp [mention]

/-- Is the exception a `stacked_exception`? -/
def isStack : Exc → Bool
  | .stack .. | .stackNull .. => true
  | _ => false

theorem reported (e : Exc) (he : Proper e) :
    (isStd e = true → ∀ ind, ∃ text, Exception.toString e ind = .ok text ∧ InOrder ((entries e).map mention) text) ∧
    (isUtki e = true → ∀ ind, ∃ text, member e ind = .ok text ∧ InOrder ((entries e).map mention) text) ∧
    (isStack e = false → ∀ ind, ∃ text, current e ind = .ok text ∧ InOrder (typeName e :: (entries e).tail.map mention) text) := by
  induction e with
  | plain k t w =>
    have h1 : isStd (.plain k t w) = true → ∀ ind, ∃ text, Exception.toString (.plain k t w) ind = .ok text ∧
        InOrder ((entries (.plain k t w)).map mention) text := by
      intro hk ind
      have hk : k ≠ .other := by simpa [isStd] using hk
      refine ⟨_, toString_plain k t w ind, ?_⟩
      simp only [entries, List.map_cons, List.map_nil, mention_std hk]
      simpa using (InOrder.one (t ++ str ": " ++ w)).pre ind
    refine ⟨h1, ?_, ?_⟩
    · intro hk ind
      obtain ⟨text, h, h'⟩ := h1 (by simp [isUtki, isStd] at *; simp [hk]) []
      exact ⟨text, by rw [member_plain, h], h'⟩
    · intro _ ind
      exact ⟨_, current_plain k t w ind, by simpa [entries, typeName] using (InOrder.one t).pre ind⟩
  | nest k t w i ih =>
    obtain ⟨ih1, _, ih3⟩ := ih he
    -- what is printed of the inner exception
    have inner : ∀ ind, ∃ text, (if isStd i then Exception.toString i ind else current i ind) = .ok text ∧ InOrder ((entries i).map mention) text := by
      intro ind
      by_cases hi : isStd i = true
      · obtain ⟨text, h, h'⟩ := ih1 hi ind
        exact ⟨text, by rw [if_pos hi, h], h'⟩
      · have hs : isStack i = false := by cases i <;> simp [isStd, isStack] at *
        obtain ⟨text, h, h'⟩ := ih3 hs ind
        refine ⟨text, by rw [if_neg hi, h], ?_⟩
        cases i with
        | plain k t w =>
          have : k = .other := by simpa [isStd] using hi
          subst this
          simpa [entries, typeName, mention] using h'
        | nest k t w i =>
          have : k = .other := by simpa [isStd] using hi
          subst this
          simpa [entries, typeName, mention] using h'
        | nestNull => cases he
        | stack => simp [isStd] at hi
        | stackNull => cases he
    have h1 : isStd (.nest k t w i) = true → ∀ ind, ∃ text, Exception.toString (.nest k t w i) ind = .ok text ∧
        InOrder ((entries (.nest k t w i)).map mention) text := by
      intro hk ind
      have hk : k ≠ .other := by simpa [isStd] using hk
      obtain ⟨text, h, h'⟩ := inner ind
      refine ⟨ind ++ t ++ str ": " ++ w ++ str "\n" ++ text, by rw [toString_nest, h]; rfl, ?_⟩
      simp only [entries, List.map_cons, mention_std hk]
      have := ((InOrder.one (t ++ str ": " ++ w)).app (h'.pre (str "\n"))).pre ind
      simpa using this
    refine ⟨h1, ?_, ?_⟩
    · intro hk ind
      obtain ⟨text, h, h'⟩ := h1 (by simp [isUtki, isStd] at *; simp [hk]) []
      exact ⟨text, by rw [member_nest, h], h'⟩
    · intro _ ind
      obtain ⟨text, h, h'⟩ := inner ind
      refine ⟨ind ++ t ++ str "\n" ++ text, by rw [current_nest, h]; rfl, ?_⟩
      have := ((InOrder.one t).app (h'.pre (str "\n"))).pre ind
      simpa [entries, typeName] using this
  | nestNull => cases he
  | stack t n i ihn ihi =>
    obtain ⟨hn, pn, pi⟩ := he
    obtain ⟨ihn1, _, _⟩ := ihn pn
    obtain ⟨ihi1, ihi2, ihi3⟩ := ihi pi
    have inner : ∀ ind, ∃ text, (if isUtki i then member i ind else if isStd i then Exception.toString i ind else current i ind) = .ok text ∧
        InOrder ((entries i).map mention) text := by
      intro ind
      by_cases hu : isUtki i = true
      · obtain ⟨text, h, h'⟩ := ihi2 hu ind
        exact ⟨text, by rw [if_pos hu, h], h'⟩
      · rw [if_neg hu]
        by_cases hi : isStd i = true
        · obtain ⟨text, h, h'⟩ := ihi1 hi ind
          exact ⟨text, by rw [if_pos hi, h], h'⟩
        · have hs : isStack i = false := by cases i <;> simp [isStd, isStack] at *
          obtain ⟨text, h, h'⟩ := ihi3 hs ind
          refine ⟨text, by rw [if_neg hi, h], ?_⟩
          cases i with
          | plain k t w =>
            have : k = .other := by simpa [isStd] using hi
            subst this
            simpa [entries, typeName, mention] using h'
          | nest k t w i =>
            have : k = .other := by simpa [isStd] using hi
            subst this
            simpa [entries, typeName, mention] using h'
          | nestNull => cases pi
          | stack => simp [isStd] at hi
          | stackNull => cases pi
    have h2 : ∀ ind, ∃ text, member (.stack t n i) ind = .ok text ∧ InOrder ((entries (.stack t n i)).map mention) text := by
      intro ind
      obtain ⟨a, ha, ha'⟩ := ihn1 hn []
      obtain ⟨b, hb, hb'⟩ := inner ind
      refine ⟨ind ++ a ++ str "\n" ++ b, by rw [member_stack, ha, Res.ok_bind, hb]; rfl, ?_⟩
      have := ((ha'.app (hb'.pre (str "\n")))).pre ind
      simpa [entries] using this
    refine ⟨?_, fun _ => h2, fun h => by simp [isStack] at h⟩
    intro _ ind
    obtain ⟨text, h, h'⟩ := h2 (str "- ")
    refine ⟨ind ++ t ++ str ": " ++ (str "exception stack:\n" ++ text), by rw [toString_stack, what_stack, h]; rfl, ?_⟩
    have := h'.pre (ind ++ t ++ str ": " ++ str "exception stack:\n")
    simpa using this
  | stackNull => cases he

/-- C64: `to_string` of any exception, with any mixture of exceptions nested to any depth, mentions each of them with its type and text,
outermost first. -/
theorem C64_to_string (e : Exc) (he : Proper e) (hs : isStd e = true) (ind : List Byte) :
    ∃ text, Exception.toString e ind = .ok text ∧ InOrder ((entries e).map mention) text := (reported e he).1 hs ind

/-- C64: so does `what()` of an exception thrown by `utki::throw_with_nested`. -/
theorem C64_what (type : List Byte) (n i : Exc) (he : Proper (.stack type n i)) :
    ∃ text, what (.stack type n i) = .ok text ∧ InOrder ((entries n ++ entries i).map mention) text := by
  obtain ⟨text, h, h'⟩ := (reported _ he).2.1 rfl (str "- ")
  exact ⟨str "exception stack:\n" ++ text, by rw [what_stack, h]; rfl, h'.pre _⟩

/-- C64: `current_exception_to_string` gives the type of the exception that is being handled, followed by the nested exceptions, unless it is one
thrown by `utki::throw_with_nested` (see `C64_current_stacked`). -/
theorem C64_current (e : Exc) (he : Proper e) (hs : ∀ t n i, e ≠ .stack t n i) (ind : List Byte) :
    ∃ text, currentToString (some e) ind = .ok text ∧ InOrder (typeName e :: (entries e).tail.map mention) text := by
  apply (reported e he).2.2
  cases e with
  | stack t n i => exact absurd rfl (hs t n i)
  | stackNull => cases he
  | _ => rfl

theorem intercalate_cons (s x : List Byte) (y : List Byte) (ys : List (List Byte)) :
    List.intercalate s (x :: y :: ys) = x ++ s ++ List.intercalate s (y :: ys) := by simp [List.intercalate]

theorem report_cons (ind : List Byte) (e : Entry) (es : List Entry) (h : es ≠ []) : report ind (e :: es) = ind ++ mention e ++ str "\n" ++ report ind es := by
  cases es with
  | nil => exact absurd rfl h
  | cons f es => simp only [report, List.map_cons, intercalate_cons]

theorem entries_ne_nil (e : Exc) : entries e ≠ [] := by
  induction e with
  | stack t n i ihn ihi => simp [entries, ihn]
  | stackNull t n ih => simpa [entries] using ih
  | _ => simp [entries]

/-- The two functions on chains of `std::throw_with_nested`. -/
theorem stdChain_format (e : Exc) (he : StdChain e) (ind : List Byte) :
    (isStd e = true → Exception.toString e ind = .ok (report ind (entries e))) ∧
    current e ind = .ok (report ind (⟨typeName e, none⟩ :: (entries e).tail)) := by
  induction e with
  | plain k t w =>
    constructor
    · intro hk
      have hk : k ≠ .other := by simpa [isStd] using hk
      rw [toString_plain]
      simp [report, entries, mention, hk]
    · rw [current_plain]
      simp [report, entries, mention, typeName]
  | nest k t w i ih =>
    obtain ⟨ih1, ih2⟩ := ih he
    have inner : (if isStd i then Exception.toString i ind else current i ind) = .ok (report ind (entries i)) := by
      by_cases hi : isStd i = true
      · rw [if_pos hi, ih1 hi]
      · rw [if_neg hi, ih2]
        cases i with
        | plain k t w =>
          have : k = .other := by simpa [isStd] using hi
          subst this; rfl
        | nest k t w i =>
          have : k = .other := by simpa [isStd] using hi
          subst this; rfl
        | _ => cases he
    constructor
    · intro hk
      have hk : k ≠ .other := by simpa [isStd] using hk
      rw [toString_nest, inner]
      show Res.ok _ = _
      simp only [entries]
      rw [report_cons _ _ _ (entries_ne_nil i), mention_std hk]
      simp
    · rw [current_nest, inner]
      show Res.ok _ = _
      simp only [entries, List.tail_cons]
      rw [report_cons _ _ _ (entries_ne_nil i)]
      simp [typeName, mention]
  | _ => cases he

/-- C64: for a chain made by `std::throw_with_nested`, `to_string` gives exactly one line for each exception, outermost first, each with the
indentation. -/
theorem C64_to_string_format (e : Exc) (he : StdChain e) (hs : isStd e = true) (ind : List Byte) :
    Exception.toString e ind = .ok (report ind (entries e)) := (stdChain_format e he ind).1 hs

/-- C64: and so does `current_exception_to_string`, where the first line is only the type name. -/
theorem C64_current_format (e : Exc) (he : StdChain e) (ind : List Byte) :
    currentToString (some e) ind = .ok (report ind (⟨typeName e, none⟩ :: (entries e).tail)) := (stdChain_format e he ind).2

theorem chain_member (e : Exc) (he : Chain e) (ind : List Byte) : member e ind = .ok (report ind (entries e)) := by
  induction e with
  | stack t n i ihn ihi =>
    cases n with
    | plain k t' w =>
      obtain ⟨hk, hi⟩ := he
      have inner : (if isUtki i then member i ind else if isStd i then Exception.toString i ind else current i ind) = .ok (report ind (entries i)) := by
        rcases hi with hi | ⟨hi, hu⟩
        · have : isUtki i = true := by
            cases i with
            | stack => rfl
            | _ => cases hi
          rw [if_pos this, ihi hi]
        · rw [if_neg (by simp [hu])]
          obtain ⟨h1, h2⟩ := stdChain_format i hi ind
          by_cases hs : isStd i = true
          · rw [if_pos hs, h1 hs]
          · rw [if_neg hs, h2]
            cases i with
            | plain k t w =>
              have : k = .other := by simpa [isStd] using hs
              subst this; rfl
            | nest k t w i =>
              have : k = .other := by simpa [isStd] using hs
              subst this; rfl
            | _ => cases hi
      rw [member_stack, toString_plain, Res.ok_bind, inner]
      show Res.ok _ = _
      simp only [entries, List.cons_append, List.nil_append]
      rw [report_cons _ _ _ (entries_ne_nil i), mention_std hk]
    | _ => cases he
  | _ => cases he

/-- C64: `what()` of a chain of `utki::throw_with_nested` calls is the headline followed by exactly one line for each exception, outermost first. -/
theorem C64_what_format (e : Exc) (he : Chain e) : what e = .ok (str "exception stack:\n" ++ report (str "- ") (entries e)) := by
  cases e with
  | stack t n i => rw [what_stack, chain_member _ he]; rfl
  | _ => cases he

/-- C64: what `utki::throw_with_nested` throws while `e` is handled holds both exceptions; without a current exception it aborts in debug builds,
and in release builds it throws an exception whose `what()` ends the program. -/
theorem C64_throw_with_nested (dbg : Bool) (type : List Byte) (n : Exc) (cur : Option Exc) (hn : isStd n = true) (pn : Proper n) :
    (∀ e, cur = some e → throwWithNested dbg cur type n = .ok (.stack type n e)) ∧
    (cur = none → throwWithNested true cur type n = .abort ∧ ∃ x, throwWithNested false cur type n = .ok x ∧ what x = .terminate) := by
  constructor
  · rintro e rfl
    simp [throwWithNested]
  · rintro rfl
    refine ⟨by simp [throwWithNested], .stackNull type n, by simp [throwWithNested], ?_⟩
    obtain ⟨text, h, _⟩ := (reported n pn).1 hn []
    rw [what, member, h]
    rfl

/-- C64: outside of a `catch` block `current_exception_to_string` throws. -/
theorem C64_no_current (ind : List Byte) : currentToString none ind = .throw .logic_error := rfl

theorem proper_or_null (e : Exc) (he : Typed e) : Proper e ∨ SomeNull e := by
  induction e with
  | plain => exact .inl trivial
  | nest k t w i ih => exact ih he
  | nestNull => exact .inr trivial
  | stack t n i ihn ihi =>
    obtain ⟨h, hn, hi⟩ := he
    rcases ihn hn with pn | sn
    · rcases ihi hi with pi | si
      · exact .inl ⟨h, pn, pi⟩
      · exact .inr (.inr si)
    · exact .inr (.inl sn)
  | stackNull => exact .inr trivial

theorem not_null_of_proper (e : Exc) (he : Proper e) : ¬ SomeNull e := by
  induction e with
  | plain => exact id
  | nest k t w i ih => exact ih he
  | nestNull => cases he
  | stack t n i ihn ihi => intro h; exact h.elim (ihn he.2.1) (ihi he.2.2)
  | stackNull => cases he

theorem null_terminates (e : Exc) (he : Typed e) (h0 : SomeNull e) :
    (isStd e = true → ∀ ind, Exception.toString e ind = .terminate) ∧
    (isUtki e = true → ∀ ind, member e ind = .terminate) ∧
    (isStack e = false → ∀ ind, current e ind = .terminate) := by
  induction e with
  | plain => cases h0
  | nest k t w i ih =>
    obtain ⟨h1, _, h3⟩ := ih he h0
    have inner : ∀ ind, (if isStd i then Exception.toString i ind else current i ind) = .terminate := by
      intro ind
      by_cases hi : isStd i = true
      · rw [if_pos hi, h1 hi]
      · rw [if_neg hi, h3 (by cases i <;> simp [isStd, isStack] at *)]
    refine ⟨fun _ ind => by rw [toString_nest, inner]; rfl, fun _ ind => by rw [member_nest, toString_nest, inner]; rfl,
      fun _ ind => by rw [current_nest, inner]; rfl⟩
  | nestNull k t w =>
    have h : ∀ ind, Exception.toString (.nestNull k t w) ind = .terminate := by
      intro ind; rw [Exception.toString]; simp [what]
    exact ⟨fun _ => h, fun _ ind => by rw [member, h], fun _ ind => by rw [current]⟩
  | stack t n i ihn ihi =>
    obtain ⟨hs, hn, hi⟩ := he
    have h2 : ∀ ind, member (.stack t n i) ind = .terminate := by
      intro ind
      rw [member_stack]
      rcases proper_or_null n hn with pn | sn
      · obtain ⟨text, h, _⟩ := (reported n pn).1 hs []
        rw [h, Res.ok_bind]
        have si : SomeNull i := h0.resolve_left (not_null_of_proper n pn)
        obtain ⟨g1, g2, g3⟩ := ihi hi si
        have inner : (if isUtki i then member i ind else if isStd i then Exception.toString i ind else current i ind) = .terminate := by
          by_cases hu : isUtki i = true
          · rw [if_pos hu, g2 hu]
          · rw [if_neg hu]
            by_cases hi : isStd i = true
            · rw [if_pos hi, g1 hi]
            · rw [if_neg hi, g3 (by cases i <;> simp [isStd, isStack] at *)]
        rw [inner]; rfl
      · rw [(ihn hn sn).1 hs []]; rfl
    refine ⟨fun _ ind => ?_, fun _ => h2, fun h => by simp [isStack] at h⟩
    rw [toString_stack, what_stack, h2]; rfl
  | stackNull t n ih =>
    obtain ⟨hs, hn⟩ := he
    have h2 : ∀ ind, member (.stackNull t n) ind = .terminate := by
      intro ind
      rw [member]
      rcases proper_or_null n hn with pn | sn
      · obtain ⟨text, h, _⟩ := (reported n pn).1 hs []
        rw [h]; rfl
      · rw [(ih hn sn).1 hs []]; rfl
    refine ⟨fun _ ind => ?_, fun _ => h2, fun h => by simp [isStack] at h⟩
    rw [Exception.toString, what, h2]; rfl

/-- C64: `to_string` either returns, or, exactly if one of the exceptions was made by `throw_with_nested` (of `std` or `utki`) called outside of any
`catch` block, ends the program with `std::terminate`; it never throws. -/
theorem C64_terminates_iff (e : Exc) (he : Typed e) (hs : isStd e = true) (ind : List Byte) :
    (SomeNull e ∧ Exception.toString e ind = .terminate) ∨ (¬ SomeNull e ∧ ∃ text, Exception.toString e ind = .ok text) := by
  rcases proper_or_null e he with h | h
  · obtain ⟨text, h', _⟩ := (reported e h).1 hs ind
    exact .inr ⟨not_null_of_proper e h, text, h'⟩
  · exact .inl ⟨h, (null_terminates e he h).1 hs ind⟩

/-- C64: the same for `current_exception_to_string` of exceptions not thrown by `utki::throw_with_nested`. -/
theorem C64_current_terminates_iff (e : Exc) (he : Typed e) (hs : (∀ t n i, e ≠ .stack t n i) ∧ ∀ t n, e ≠ .stackNull t n) (ind : List Byte) :
    (SomeNull e ∧ currentToString (some e) ind = .terminate) ∨ (¬ SomeNull e ∧ ∃ text, currentToString (some e) ind = .ok text) := by
  have hk : isStack e = false := by
    cases e with
    | stack t n i => exact absurd rfl (hs.1 t n i)
    | stackNull t n => exact absurd rfl (hs.2 t n)
    | _ => rfl
  rcases proper_or_null e he with h | h
  · obtain ⟨text, h', _⟩ := (reported e h).2.2 hk ind
    exact .inr ⟨not_null_of_proper e h, text, h'⟩
  · exact .inl ⟨h, (null_terminates e he h).2.2 hk ind⟩

example : Typed (.nest .std (str "N") (str "n") (.nestNull .other (str "M") [])) ∧ SomeNull (.nest .std (str "N") (str "n") (.nestNull .other (str "M") [])) :=
  ⟨trivial, trivial⟩

/-- C64, limit: `current_exception_to_string` called while an exception thrown by `utki::throw_with_nested` is handled gives only the name of
`stacked_exception<...>`; the nested exceptions are lost. -/
theorem C64_current_stacked (type : List Byte) (n i : Exc) (ind : List Byte) : currentToString (some (.stack type n i)) ind = .ok (ind ++ type) :=
  current_stack type n i ind

/-- C64, limit: an exception derived from `utki::exception`, directly nested by `utki::throw_with_nested`, gets no indentation. -/
theorem C64_utki_not_indented (type t1 w1 t2 w2 : List Byte) :
    what (.stack type (.plain .std t1 w1) (.plain .utki t2 w2)) =
      .ok (str "exception stack:\n" ++ (str "- " ++ t1 ++ str ": " ++ w1 ++ str "\n" ++ (t2 ++ str ": " ++ w2))) := by
  rw [what_stack, member_stack, toString_plain, Res.ok_bind]
  simp only [isUtki, beq_self_eq_true, if_true]
  rw [member_plain, toString_plain]
  simp

/-- Three levels: `utki::throw_with_nested` twice around an exception of type `int`. -/
def threeLevels : Exc := .stack (str "S1") (.plain .std (str "A") (str "a")) (.stack (str "S2") (.plain .utki (str "B") (str "b")) (.plain .other (str "int") []))

example : Chain threeLevels ∧ what threeLevels = .ok (str "exception stack:\n- A: a\n- B: b\n- int") := by
  have h : Chain threeLevels := by simp [Chain, threeLevels, StdChain, isUtki]
  exact ⟨h, by rw [C64_what_format _ h]; rfl⟩

/-- A mixture: `utki::throw_with_nested` around `std::throw_with_nested` around `utki::throw_with_nested`. -/
example : Proper (.stack (str "S1") (.plain .std (str "A") (str "a")) (.nest .std (str "N") (str "n") threeLevels)) := by
  simp [Proper, threeLevels, isStd]

end Utki
