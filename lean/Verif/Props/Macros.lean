import Verif.Spec.Macros
/-!
# C121: the macro ASSERT
-/
namespace Utki
open Macro Spec

theorem split_matching {x : List Tok} (h : Matching x) (d : Nat) (cur r : List Tok) : split (d + 1) cur (x ++ r) = split (d + 1) (cur ++ x) r := by
  induction h generalizing d cur r with
  | nil => simp
  | word w t _ ih => rw [List.cons_append, split, ih]; simp
  | comma t _ ih => rw [List.cons_append, split, ih]; simp
  | parens inner t _ _ ih1 ih2 =>
    rw [List.append_assoc, List.cons_append, List.cons_append, split, ih1, split, Nat.add_sub_cancel, ih2]
    simp

theorem split_argument {x : List Tok} (h : Argument x) (cur r : List Tok) : split 0 cur (x ++ r) = split 0 (cur ++ x) r := by
  induction h generalizing cur r with
  | nil => simp
  | word w t _ ih => rw [List.cons_append, split, ih]; simp
  | parens inner t h _ ih =>
    rw [List.append_assoc, List.cons_append, List.cons_append, split, split_matching h, split, Nat.zero_add, Nat.sub_self, ih]
    simp

theorem args_separated (cs : List (List Tok)) (hne : cs ≠ []) (h : ∀ c ∈ cs, Argument c) : args (separated cs) = cs := by
  unfold args
  induction cs with
  | nil => exact absurd rfl hne
  | cons c cs ih =>
    cases cs with
    | nil =>
      show split 0 [] c = [c]
      have := split_argument (h c (by simp)) [] []
      rw [List.append_nil] at this
      rw [this, List.nil_append, split]
    | cons c2 cs =>
      show split 0 [] (c ++ .comma :: separated (c2 :: cs)) = _
      rw [split_argument (h c (by simp)), split, ih (by simp) (fun x hx => h x (by simp [hx])), List.nil_append]

theorem separated_cons (c : List Tok) (cs : List (List Tok)) (h : cs ≠ []) : separated (c :: cs) = c ++ .comma :: separated cs := by
  cases cs with
  | nil => exact absurd rfl h
  | cons a cs => rfl

theorem separated_append (cs : List (List Tok)) (hne : cs ≠ []) (l : List String) :
    separated cs ++ l.flatMap (fun n => [.comma, .word n]) = separated (cs ++ l.map (fun n => [.word n])) := by
  induction cs with
  | nil => exact absurd rfl hne
  | cons c cs ih =>
    cases cs with
    | nil =>
      show c ++ _ = separated (c :: l.map (fun n => [.word n]))
      clear ih hne
      induction l generalizing c with
      | nil => simp [separated]
      | cons n l ihl =>
        rw [List.map_cons, separated_cons _ _ (by simp), ← ihl [.word n]]
        simp
    | cons c2 cs =>
      rw [List.cons_append, separated_cons c (c2 :: cs) (by simp), separated_cons c (c2 :: cs ++ _) (by simp), ← ih (by simp)]
      simp

/-- C121: the arguments of a macro can be told apart in exactly one way in every text with matching parentheses. -/
theorem C121_arguments {x : List Tok} (h : Matching x) : ∃ cs, cs ≠ [] ∧ (∀ c ∈ cs, Argument c) ∧ separated cs = x ∧
    ∀ cs', cs' ≠ [] → (∀ c ∈ cs', Argument c) → separated cs' = x → cs' = cs := by
  have key : ∃ cs, cs ≠ [] ∧ (∀ c ∈ cs, Argument c) ∧ separated cs = x := by
    have add : ∀ (p r : List Tok), (∀ a, Argument a → Argument (p ++ a)) → (∃ cs, cs ≠ [] ∧ (∀ c ∈ cs, Argument c) ∧ separated cs = r) →
        ∃ cs, cs ≠ [] ∧ (∀ c ∈ cs, Argument c) ∧ separated cs = p ++ r := by
      rintro p r hp ⟨cs, hne, ha, rfl⟩
      cases cs with
      | nil => exact absurd rfl hne
      | cons c cs =>
        refine ⟨(p ++ c) :: cs, by simp, ?_, ?_⟩
        · intro a ha'
          rcases List.mem_cons.mp ha' with rfl | ha'
          · exact hp _ (ha c (by simp))
          · exact ha a (by simp [ha'])
        · cases cs with
          | nil => rfl
          | cons c2 cs => rw [separated_cons (p ++ c) (c2 :: cs) (by simp), separated_cons c (c2 :: cs) (by simp), List.append_assoc]
    induction h with
    | nil => exact ⟨[[]], by simp, by simp [Argument.nil], rfl⟩
    | word w r _ ih => exact add [.word w] r (fun a ha => .word w a ha) ih
    | comma r _ ih =>
      obtain ⟨cs, hne, ha, rfl⟩ := ih
      refine ⟨[] :: cs, by simp, ?_, by rw [separated_cons _ _ hne]; rfl⟩
      intro a ha'
      rcases List.mem_cons.mp ha' with rfl | ha'
      · exact .nil
      · exact ha a ha'
    | parens inner r h1 _ _ ih2 =>
      have := add (.lpar :: inner ++ [.rpar]) r (fun a ha => by simpa using Argument.parens inner a h1 ha) ih2
      simpa using this
  obtain ⟨cs, hne, ha, hx⟩ := key
  refine ⟨cs, hne, ha, hx, fun cs' hne' ha' hx' => ?_⟩
  rw [← args_separated cs' hne' ha', ← args_separated cs hne ha, hx, hx']

/-- C121: `UTKI_GET_MACRO(arguments…, ten names…)` is the name that many places from the end as there are arguments, for one to ten arguments; so one can overload a macro on the number of arguments. -/
theorem C121_get_macro (cs : List (List Tok)) (names : List (List Tok)) (h1 : 1 ≤ cs.length) (h2 : cs.length ≤ 10) (hn : names.length = 10) (ha : ∀ c ∈ cs, Argument c) (hm : ∀ c ∈ names, Argument c) :
    getMacro (args (separated (cs ++ names))) = names.reverse[cs.length - 1]? := by
  have hne : cs ++ names ≠ [] := by
    intro h
    rw [List.append_eq_nil_iff] at h
    rw [h.1] at h1
    simp at h1
  rw [args_separated _ hne (fun c hc => (List.mem_append.mp hc).elim (ha c) (hm c))]
  unfold getMacro
  rw [List.getElem?_append_right h2, List.getElem?_reverse (by omega), hn]
  congr 1
  omega

theorem picked (cs : List (List Tok)) (hne : cs ≠ []) (ha : ∀ c ∈ cs, Argument c) (dbg : Bool) :
    Macro.ASSERT dbg (separated cs) = ((cs ++ overloads.map (fun n => [.word n]))[10]?).bind (fun m => rescan dbg m (separated cs)) := by
  unfold Macro.ASSERT getMacro
  rw [separated_append cs hne, args_separated]
  · cases (cs ++ overloads.map (fun n => [Tok.word n]))[10]? <;> rfl
  · simp [hne]
  · intro c hc
    rcases List.mem_append.mp hc with hc | hc
    · exact ha c hc
    · obtain ⟨n, _, rfl⟩ := List.mem_map.mp hc
      exact .word n [] .nil

/-- C121: `ASSERT` with one or two arguments, which may contain any commas in parentheses, is a call of `utki::assert` with the same arguments and the place in the source in a debug build and nothing
in a release build. -/
theorem C121_assert (cs : List (List Tok)) (h : cs.length = 1 ∨ cs.length = 2) (ha : ∀ c ∈ cs, Argument c) :
    Macro.ASSERT true (separated cs) = some ([.word "utki::assert", .lpar] ++ separated (cs ++ [[.word "SL"]]) ++ [.rpar, .word ";"]) ∧ Macro.ASSERT false (separated cs) = some [] := by
  have hne : cs ≠ [] := by rintro rfl; simp at h
  rw [picked cs hne ha, picked cs hne ha]
  have hs := args_separated cs hne ha
  rcases h with h | h
  · obtain ⟨c, rfl⟩ := List.length_eq_one_iff.mp h
    have hp : ([c] ++ overloads.map (fun n => [Tok.word n]))[10]? = some [.word "ASSERT1"] := rfl
    rw [hp]
    simp only [Option.bind_some, rescan, List.getLast?_singleton, hs]
    exact ⟨by simp [assert1, separated], rfl⟩
  · obtain ⟨c, p, rfl⟩ : ∃ c p, cs = [c, p] := by
      match cs, h with
      | [c, p], _ => exact ⟨c, p, rfl⟩
    have hp : ([c, p] ++ overloads.map (fun n => [Tok.word n]))[10]? = some [.word "ASSERT2"] := rfl
    rw [hp]
    simp only [Option.bind_some, rescan, List.getLast?_singleton, hs]
    exact ⟨by simp [assert2, separated], rfl⟩

/-- C121: with three to ten arguments — a lambda that captures several variables has commas that are not in parentheses — it is a call of a function that nobody has defined, in debug and release builds
alike. -/
theorem C121_more (dbg : Bool) (cs : List (List Tok)) (ha : ∀ c ∈ cs, Argument c) :
    ∀ k name, (k, name) ∈ [(3, "_3"), (4, "_4"), (5, "_5"), (6, "_6"), (7, "_7"), (8, "_8"), (9, "_9"), (10, "_10")] → cs.length = k →
      Macro.ASSERT dbg (separated cs) = some ([.word name, .lpar] ++ separated cs ++ [.rpar]) := by
  intro k name hk hl
  have hne : cs ≠ [] := by
    rintro rfl
    simp only [List.mem_cons, Prod.mk.injEq, List.not_mem_nil, or_false] at hk
    simp at hl
    omega
  rw [picked cs hne ha]
  have hle : cs.length ≤ 10 := by
    simp only [List.mem_cons, Prod.mk.injEq, List.not_mem_nil, or_false] at hk
    omega
  rw [List.getElem?_append_right hle, hl]
  simp only [List.mem_cons, Prod.mk.injEq, List.not_mem_nil, or_false] at hk
  rcases hk with ⟨rfl, rfl⟩ | ⟨rfl, rfl⟩ | ⟨rfl, rfl⟩ | ⟨rfl, rfl⟩ | ⟨rfl, rfl⟩ | ⟨rfl, rfl⟩ | ⟨rfl, rfl⟩ | ⟨rfl, rfl⟩ <;> simp [overloads, rescan]

/-- C121: with more than ten arguments it is the eleventh, applied to all of them. -/
theorem C121_eleven (dbg : Bool) (cs : List (List Tok)) (ha : ∀ c ∈ cs, Argument c) (m : List Tok) (hm : cs[10]? = some m)
    (h1 : m.getLast? ≠ some (.word "ASSERT1")) (h2 : m.getLast? ≠ some (.word "ASSERT2")) :
    Macro.ASSERT dbg (separated cs) = some (m ++ [.lpar] ++ separated cs ++ [.rpar]) := by
  have hne : cs ≠ [] := by rintro rfl; simp at hm
  have hlt : 10 < cs.length := by
    rcases Nat.lt_or_ge 10 cs.length with h | h
    · exact h
    · rw [List.getElem?_eq_none h] at hm; cases hm
  rw [picked cs hne ha, List.getElem?_append_left hlt, hm]
  simp only [Option.bind_some]
  unfold rescan
  split
  · rename_i h; exact absurd h h1
  · rename_i h; exact absurd h h2
  · rfl

/-- `p != nullptr, [&](auto& o) { o << f(a, b); }`: the comma in `f(a, b)` does not separate arguments. -/
example : Macro.ASSERT true ([.word "p", .word "!=", .word "nullptr", .comma, .word "[&]", .lpar, .word "auto&", .word "o", .rpar, .word "{", .word "o", .word "<<", .word "f", .lpar, .word "a", .comma, .word "b",
      .rpar, .word ";", .word "}"]) =
    some [.word "utki::assert", .lpar, .word "p", .word "!=", .word "nullptr", .comma, .word "[&]", .lpar, .word "auto&", .word "o", .rpar, .word "{", .word "o", .word "<<", .word "f", .lpar, .word "a",
      .comma, .word "b", .rpar, .word ";", .word "}", .comma, .word "SL", .rpar, .word ";"] := by decide +kernel

example : Argument [.word "f", .lpar, .word "a", .comma, .word "b", .rpar] := .word _ _ (.parens [.word "a", .comma, .word "b"] [] (.word _ _ (.comma _ (.word _ _ .nil))) .nil)

/-- `p, [a, b](auto& o) {}`: three arguments. -/
example : Macro.ASSERT false ([.word "p", .comma, .word "[", .word "a", .comma, .word "b", .word "]", .lpar, .word "auto&", .word "o", .rpar, .word "{", .word "}"]) =
    some [.word "_3", .lpar, .word "p", .comma, .word "[", .word "a", .comma, .word "b", .word "]", .lpar, .word "auto&", .word "o", .rpar, .word "{", .word "}", .rpar] := by decide +kernel

end Utki
