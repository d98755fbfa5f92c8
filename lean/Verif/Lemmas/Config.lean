import Verif.Model.Config
import Verif.Spec.Config
/-!
# Facts about the preprocessor and the sections of config.hpp
-/
namespace Utki
namespace Cpp

/-- The names a text may define or undefine. -/
def Text.assigned : Text → List String
  | .done => []
  | .define x _ rest => x :: rest.assigned
  | .undef x rest => x :: rest.assigned
  | .cond _ t f rest => t.assigned ++ f.assigned ++ rest.assigned

theorem lookup_cons_ne {x y : String} {b : Body} {e : Env} (h : x ≠ y) : List.lookup x ((y, b) :: e) = List.lookup x e := by
  rw [List.lookup_cons, beq_false_of_ne h]

theorem lookup_cons_self {x : String} {b : Body} {e : Env} : List.lookup x ((x, b) :: e) = some b := by
  rw [List.lookup_cons, BEq.rfl]

theorem lookup_filter {x y : String} {e : Env} (h : x ≠ y) : List.lookup x (e.filter (fun m => m.1 != y)) = List.lookup x e := by
  induction e with
  | nil => rfl
  | cons m e ih =>
    obtain ⟨z, b⟩ := m
    by_cases hz : z = y
    · subst hz
      rw [List.filter_cons_of_neg (by simp), lookup_cons_ne h, ih]
    · rw [List.filter_cons_of_pos (by simpa using hz)]
      by_cases hx : x = z
      · subst hx; rw [lookup_cons_self, lookup_cons_self]
      · rw [lookup_cons_ne hx, lookup_cons_ne hx, ih]

theorem lookup_filter_self {x : String} {e : Env} : List.lookup x (e.filter (fun m => m.1 != x)) = none := by
  induction e with
  | nil => rfl
  | cons m e ih =>
    obtain ⟨z, b⟩ := m
    by_cases hz : z = x
    · subst hz
      rw [List.filter_cons_of_neg (by simp), ih]
    · rw [List.filter_cons_of_pos (by simpa using hz), lookup_cons_ne (Ne.symm hz), ih]

/-- Other names stay as they are. -/
theorem Text.frame {t : Text} {e e' : Env} (h : t.run e = some e') {x : String} (hx : x ∉ t.assigned) : e'.lookup x = e.lookup x := by
  induction t generalizing e e' with
  | done => cases h; rfl
  | define y b rest ih =>
    simp only [Text.assigned, List.mem_cons, not_or] at hx
    unfold Text.run at h
    split at h
    · rw [ih h hx.2, lookup_cons_ne hx.1]
    · split at h
      · exact ih h hx.2
      · cases h
  | undef y rest ih =>
    simp only [Text.assigned, List.mem_cons, not_or] at hx
    rw [ih h hx.2, lookup_filter hx.1]
  | cond c t f rest iht ihf ihr =>
    simp only [Text.assigned, List.mem_append, not_or] at hx
    unfold Text.run at h
    split at h
    · cases h
    · obtain ⟨e1, h1, h2⟩ := Option.bind_eq_some_iff.mp h
      rw [ihr h2 hx.2, iht h1 hx.1.1]
    · obtain ⟨e1, h1, h2⟩ := Option.bind_eq_some_iff.mp h
      rw [ihr h2 hx.2, ihf h1 hx.1.2]

theorem run_define_fresh {x : String} {b : Body} {t : Text} {e : Env} (h : e.lookup x = none) : (Text.define x b t).run e = t.run ((x, b) :: e) := by
  rw [Text.run, h]

theorem run_cond_eq (c : Cond) (t f r : Text) (e : Env) :
    (Text.cond c t f r).run e = (c.eval e).bind (fun b => (if b then t.run e else f.run e).bind r.run) := by
  rw [Text.run]
  cases c.eval e with
  | none => rfl
  | some b => cases b <;> rfl

theorem value_none {e : Env} {x : String} (h : e.lookup x = none) : value e x = some 0 := by
  simp [value, valueIn, h]

theorem value_num {e : Env} {x : String} {n : Int} (h : e.lookup x = some (.num n)) : value e x = some n := by
  simp [value, valueIn, h]

theorem value_alias {e : Env} {x y : String} {n : Int} (h : e.lookup x = some (.name y)) (hxy : y ≠ x) (hy : e.lookup y = some (.num n)) : value e x = some n := by
  cases e with
  | nil => cases h
  | cons m e => simp [value, valueIn, h, hxy, hy]

theorem value_stands {e : Env} {x y : String} {n : Int} (h : e.lookup x = some (.name y)) (hxy : y ≠ x) (hy : Spec.Config.Stands e y n) : value e x = some n := by
  rcases hy with ⟨hy, rfl⟩ | hy | ⟨z, hz, hy, hz'⟩
  · cases e with
    | nil => cases h
    | cons m e => simp [value, valueIn, h, hxy, hy, -List.lookup_eq_none_iff]
  · exact value_alias h hxy hy
  · have hzx : z ≠ x := by rintro rfl; rw [h] at hz'; cases hz'
    match e, h, hy, hz' with
    | [], h, _, _ => cases h
    | [m], h, hy, _ =>
      exfalso
      obtain ⟨k, b⟩ := m
      by_cases h1 : x = k
      · subst h1; rw [lookup_cons_ne hxy] at hy; cases hy
      · rw [lookup_cons_ne h1] at h; cases h
    | m1 :: m2 :: e, h, hy, hz' => simp [value, valueIn, h, hxy, hy, hz, hzx, hz', -List.lookup_eq_none_iff]

theorem isDef_congr {e e' : Env} {x : String} (h : e'.lookup x = e.lookup x) : isDef e' x = isDef e x := by unfold isDef; rw [h]

end Cpp

namespace Config
open Cpp

/-- The condition made of several `defined`. -/
theorem anyDefd_eval (e : Env) (x : String) (l : List String) : (anyDefd x l).eval e = some ((x :: l).any (isDef e)) := by
  induction l generalizing x with
  | nil => simp [anyDefd, Cond.eval]
  | cons y l ih => simp [anyDefd, Cond.eval, ih]

open Spec.Config (Stands Have HaveOne Lack System Targets Compiler CompiledBy Standard family systemName compilerName own)

/-- Undefined so far. -/
def Fresh (e : Env) (l : List String) : Prop := ∀ x ∈ l, e.lookup x = none

/-- Macros that stand for numbers, by name. -/
def Consts (e : Env) (l : List (String × Int)) : Prop := ∀ p ∈ l, e.lookup p.1 = some (.num p.2)

theorem isDef_true {e : Env} {x : String} (h : e.lookup x ≠ none) : isDef e x = true := by
  unfold isDef; cases hl : e.lookup x with
  | none => exact absurd hl h
  | some b => rfl

theorem isDef_false {e : Env} {x : String} (h : e.lookup x = none) : isDef e x = false := by
  unfold isDef; rw [h]; rfl

theorem stands_value {e : Env} {x : String} {n : Int} (h : Stands e x n) : value e x = some n := by
  rcases h with ⟨h, rfl⟩ | h | ⟨y, hy, h, h'⟩
  · exact value_none h
  · exact value_num h
  · exact value_alias h hy h'

theorem _root_.Utki.Spec.Config.Stands.agree {e e' : Env} {x : String} {n : Int} (h : Stands e x n) (hx : e'.lookup x = e.lookup x)
    (ha : ∀ y, e.lookup y ≠ none → e'.lookup y = e.lookup y) : Stands e' x n := by
  rcases h with ⟨h, rfl⟩ | h | ⟨y, hy, h, h'⟩
  · exact .inl ⟨by rw [hx, h], rfl⟩
  · exact .inr (.inl (by rw [hx, h]))
  · exact .inr (.inr ⟨y, hy, by rw [hx, h], by rw [ha y (by rw [h']; simp), h']⟩)

theorem _root_.Utki.Spec.Config.Stands.cons {e : Env} {x y : String} {b : Body} {n : Int} (h : Stands e x n) (hx : x ≠ y) (hf : e.lookup y = none) : Stands ((y, b) :: e) x n :=
  h.agree (lookup_cons_ne hx) (fun _ hz => lookup_cons_ne (by rintro rfl; exact hz hf))

/-- Definitions of numbers. -/
theorem defines_run (l : List (String × Int)) (e : Env) (hn : (l.map (·.1)).Nodup) (hf : Fresh e (l.map (·.1))) :
    (Text.of (l.map (fun p => DEFINE p.1 p.2))).run e = some ((l.map (fun p => (p.1, Body.num p.2))).reverse ++ e) := by
  induction l generalizing e with
  | nil => rfl
  | cons p l ih =>
    simp only [List.map_cons, List.nodup_cons] at hn
    have h1 : e.lookup p.1 = none := hf _ (by simp)
    show Text.run (.define p.1 (.num p.2) (Text.of _)) e = _
    unfold Text.run
    rw [h1]
    simp only
    rw [ih _ hn.2 ?_]
    · simp
    · intro x hx
      rw [lookup_cons_ne (by rintro rfl; exact hn.1 hx)]
      exact hf x (by simp only [List.map_cons, List.mem_cons]; exact .inr hx)

theorem defines_consts (l : List (String × Int)) (e : Env) (hn : (l.map (·.1)).Nodup) :
    Consts ((l.map (fun p => (p.1, Body.num p.2))).reverse ++ e) l := by
  induction l generalizing e with
  | nil => intro p hp; cases hp
  | cons p l ih =>
    simp only [List.map_cons, List.nodup_cons] at hn
    intro q hq
    simp only [List.map_cons, List.reverse_cons, List.append_assoc]
    rcases List.mem_cons.mp hq with rfl | hq
    · have : ∀ (m : Env), q.1 ∉ m.map (·.1) → (m ++ ([(q.1, Body.num q.2)] ++ e)).lookup q.1 = some (.num q.2) := by
        intro m hm
        induction m with
        | nil => exact lookup_cons_self
        | cons a m ih =>
          simp only [List.map_cons, List.mem_cons, not_or] at hm
          obtain ⟨x, b⟩ := a
          rw [List.cons_append, lookup_cons_ne hm.1, ih hm.2]
      refine this _ ?_
      simpa using hn.1
    · exact ih _ hn.2 q hq

theorem run_os (e : Env) (hf : Fresh e ["CFG_OS", "CFG_OS_NAME", "CFG_IOS_DEPLOYMENT_TARGET", "CFG_MACOSX_DEPLOYMENT_TARGET"]) (s : System) (ht : Targets e s) :
    ∃ e', os.run e = some e' ∧ e'.lookup "CFG_OS" = some (.name (family s)) ∧ e'.lookup "CFG_OS_NAME" = some (.name (systemName s)) ∧
      e'.lookup "CFG_IOS_DEPLOYMENT_TARGET" = (if s = .ios then some (.name "__IPHONE_OS_VERSION_MIN_REQUIRED") else none) ∧
      e'.lookup "CFG_MACOSX_DEPLOYMENT_TARGET" = (if s = .macos then some (.name "__MAC_OS_X_VERSION_MIN_REQUIRED") else none) := by
  simp only [Fresh, List.mem_cons, List.not_mem_nil, or_false, forall_eq_or_imp, forall_eq] at hf
  obtain ⟨f1, f2, f3, f4⟩ := hf
  cases s <;> simp only [Targets, Have, HaveOne, Lack, List.mem_cons, List.not_mem_nil, or_false, forall_eq_or_imp, forall_eq, exists_eq_or_imp, exists_eq_left,
    Option.ne_none_iff_exists'] at ht
  case linux =>
    obtain ⟨⟨b, h1⟩, h2⟩ := ht
    simp [os, Text.of, IF, ALIAS, Text.run, Cond.eval, isDef, List.lookup_cons, f1, f2, f3, f4, h1, h2, family, systemName, -List.lookup_eq_none_iff]
  case android =>
    obtain ⟨⟨b, h1⟩, b2, h2⟩ := ht
    simp [os, Text.of, IF, ALIAS, Text.run, Cond.eval, isDef, List.lookup_cons, f1, f2, f3, f4, h1, h2, family, systemName, -List.lookup_eq_none_iff]
  case windows =>
    obtain ⟨⟨b, h1⟩ | ⟨b, h1⟩, h2⟩ := ht <;>
    simp [os, Text.of, IF, ALIAS, Text.run, Cond.eval, isDef, List.lookup_cons, f1, f2, f3, f4, h1, h2, family, systemName, -List.lookup_eq_none_iff]
  case macos =>
    obtain ⟨⟨b, h1⟩, ⟨h2, h3, h4⟩, h5, h6⟩ := ht
    have g5 : value (("CFG_OS", .name "CFG_OS_MACOSX") :: e) "TARGET_OS_IPHONE" = some 0 := stands_value (h5.cons (by decide) f1)
    have g6 : value (("CFG_OS", .name "CFG_OS_MACOSX") :: e) "TARGET_IPHONE_SIMULATOR" = some 0 := stands_value (h6.cons (by decide) f1)
    simp [os, Text.of, IF, ALIAS, Text.run, Cond.eval, isDef, List.lookup_cons, f1, f2, f3, f4, h1, h2, h3, h4, g5, g6, family, systemName, -List.lookup_eq_none_iff]
  case ios =>
    obtain ⟨⟨b, h1⟩, ⟨h2, h3, h4⟩, h5, n, h6⟩ := ht
    have g5 : value (("CFG_OS", .name "CFG_OS_MACOSX") :: e) "TARGET_OS_IPHONE" = some 1 := stands_value (h5.cons (by decide) f1)
    have g6 : value (("CFG_OS", .name "CFG_OS_MACOSX") :: e) "TARGET_IPHONE_SIMULATOR" = some n := stands_value (h6.cons (by decide) f1)
    simp [os, Text.of, IF, ALIAS, Text.run, Cond.eval, isDef, List.lookup_cons, f1, f2, f3, f4, h1, h2, h3, h4, g5, g6, family, systemName, -List.lookup_eq_none_iff]
  case solaris =>
    obtain ⟨⟨b, h1⟩ | ⟨b, h1⟩, ⟨b2, h2⟩ | ⟨b2, h2⟩, h3, h4, h5, h6⟩ := ht <;>
    simp [os, Text.of, IF, ALIAS, Text.run, Cond.eval, isDef, List.lookup_cons, f1, f2, f3, f4, h1, h2, h3, h4, h5, h6, family, systemName, -List.lookup_eq_none_iff]
  case freebsd =>
    obtain ⟨⟨b, h1⟩ | ⟨b, h1⟩, ⟨b2, h2⟩, h3, h4, h5, h6, h7, h8⟩ := ht <;>
    simp [os, Text.of, IF, ALIAS, Text.run, Cond.eval, isDef, List.lookup_cons, f1, f2, f3, f4, h1, h2, h3, h4, h5, h6, h7, h8, family, systemName, -List.lookup_eq_none_iff]
  case emscripten =>
    obtain ⟨⟨b, h1⟩ | ⟨b, h1⟩, ⟨b2, h2⟩, h3, h4, h5, h6, h7, h8, h9⟩ := ht <;>
    simp [os, Text.of, IF, ALIAS, Text.run, Cond.eval, isDef, List.lookup_cons, f1, f2, f3, f4, h1, h2, h3, h4, h5, h6, h7, h8, h9, family, systemName, -List.lookup_eq_none_iff]
  case unix =>
    obtain ⟨⟨b, h1⟩ | ⟨b, h1⟩, h3, h4, h5, h6, h7, h8, h9, h2⟩ := ht <;>
    simp [os, Text.of, IF, ALIAS, Text.run, Cond.eval, isDef, List.lookup_cons, f1, f2, f3, f4, h1, h2, h3, h4, h5, h6, h7, h8, h9, family, systemName, -List.lookup_eq_none_iff]
  case other =>
    obtain ⟨h1, h2, h3, h4, h5, h6⟩ := ht
    simp [os, Text.of, IF, ALIAS, Text.run, Cond.eval, isDef, List.lookup_cons, f1, f2, f3, f4, h1, h2, h3, h4, h5, h6, family, systemName, -List.lookup_eq_none_iff]

/-- What the tools version is defined to. -/
def toolsCode (v : Int) : Int := if v < 1916 then 140 else if v < 1929 then 141 else if v < 1930 then 142 else 143

theorem run_compiler (e : Env) (hf : Fresh e ["CFG_COMPILER", "CFG_COMPILER_MSVC_TOOLS_V", "CFG_COMPILER_VERSION_MAJOR", "CFG_COMPILER_VERSION_MINOR", "CFG_COMPILER_VERSION_PATCH"])
    (c : Compiler) (ht : CompiledBy e c) : ∃ e', compiler.run e = some e' ∧ e'.lookup "CFG_COMPILER" = some (.name (compilerName c)) ∧
      (∀ v, c = .msvc v → e'.lookup "CFG_COMPILER_MSVC_TOOLS_V" = some (.num (toolsCode v))) ∧
      ((∀ v, c ≠ .msvc v) → e'.lookup "CFG_COMPILER_MSVC_TOOLS_V" = none) ∧
      e'.lookup "CFG_COMPILER_VERSION_MAJOR" = (if c = .gcc then some (.name "__GNUC__") else none) ∧
      e'.lookup "CFG_COMPILER_VERSION_MINOR" = (if c = .gcc then some (.name "__GNUC_MINOR__") else none) ∧
      e'.lookup "CFG_COMPILER_VERSION_PATCH" = (if c = .gcc then some (.name "__GNUC_PATCHLEVEL__") else none) := by
  simp only [Fresh, List.mem_cons, List.not_mem_nil, or_false, forall_eq_or_imp, forall_eq] at hf
  obtain ⟨f1, f2, f3, f4, f5⟩ := hf
  cases c <;> simp only [CompiledBy, Have, HaveOne, Lack, List.mem_cons, List.not_mem_nil, or_false, forall_eq_or_imp, forall_eq, exists_eq_or_imp, exists_eq_left,
    Option.ne_none_iff_exists'] at ht
  case gcc =>
    obtain ⟨⟨b, h1⟩ | ⟨b, h1⟩, h2, h3⟩ := ht <;>
    simp [compiler, Text.of, IF, ALIAS, Text.run, Cond.eval, isDef, List.lookup_cons, f1, f2, f3, f4, f5, h1, h2, h3, compilerName, -List.lookup_eq_none_iff]
  case clang =>
    obtain ⟨⟨b, h1⟩, h2⟩ := ht
    simp [compiler, Text.of, IF, ALIAS, Text.run, Cond.eval, isDef, List.lookup_cons, f1, f2, f3, f4, f5, h1, h2, compilerName, -List.lookup_eq_none_iff]
  case msvc v =>
    obtain ⟨⟨b, h1⟩, h2⟩ := ht
    have g2 : value (("CFG_COMPILER", .name "CFG_COMPILER_MSVC") :: e) "_MSC_VER" = some v := stands_value (h2.cons (by decide) f1)
    by_cases v1 : v < 1916
    · simp [compiler, Text.of, IF, ALIAS, DEFINE, Text.run, Cond.eval, isDef, List.lookup_cons, f1, f2, f3, f4, f5, h1, g2, compilerName, toolsCode, v1, -List.lookup_eq_none_iff]
    by_cases v2 : v < 1929
    · simp [compiler, Text.of, IF, ALIAS, DEFINE, Text.run, Cond.eval, isDef, List.lookup_cons, f1, f2, f3, f4, f5, h1, g2, compilerName, toolsCode, v1, v2, -List.lookup_eq_none_iff]
    by_cases v3 : v < 1930
    · simp [compiler, Text.of, IF, ALIAS, DEFINE, Text.run, Cond.eval, isDef, List.lookup_cons, f1, f2, f3, f4, f5, h1, g2, compilerName, toolsCode, v1, v2, v3, -List.lookup_eq_none_iff]
    · simp [compiler, Text.of, IF, ALIAS, DEFINE, Text.run, Cond.eval, isDef, List.lookup_cons, f1, f2, f3, f4, f5, h1, g2, compilerName, toolsCode, v1, v2, v3, -List.lookup_eq_none_iff]
  case other =>
    obtain ⟨h1, h2, h3, h4⟩ := ht
    simp [compiler, Text.of, IF, ALIAS, Text.run, Cond.eval, isDef, List.lookup_cons, f1, f2, f3, f4, f5, h1, h2, h3, h4, compilerName, -List.lookup_eq_none_iff]

/-- What `CFG_CPP` is defined to. -/
def cppCode (n : Int) : Int := if n > 201703 then 20 else if n > 201402 then 17 else if n > 201103 then 14 else if n > 199711 then 11 else 3

theorem run_standard (e : Env) (hf : Fresh e ["UTKI_CPP_STANDARD", "CFG_CPP"]) (m : Bool) (n : Int) (hm : (Cond.eq "CFG_COMPILER" "CFG_COMPILER_MSVC").eval e = some m)
    (hn : Stands e (if m then "_MSVC_LANG" else "__cplusplus") n) :
    ∃ e', standard.run e = some e' ∧ e'.lookup "CFG_CPP" = some (.num (cppCode n)) := by
  simp only [Fresh, List.mem_cons, List.not_mem_nil, or_false, forall_eq_or_imp, forall_eq] at hf
  obtain ⟨f1, f2⟩ := hf
  have hne : (if m then "_MSVC_LANG" else "__cplusplus") ≠ "UTKI_CPP_STANDARD" := by cases m <;> decide
  generalize hx : (if m then "_MSVC_LANG" else "__cplusplus") = x at hn hne
  have g1 : standard.run e = (Text.of [
      IF (.gt "UTKI_CPP_STANDARD" 201703) [DEFINE "CFG_CPP" 20]
      [IF (.gt "UTKI_CPP_STANDARD" 201402) [DEFINE "CFG_CPP" 17]
      [IF (.gt "UTKI_CPP_STANDARD" 201103) [DEFINE "CFG_CPP" 14]
      [IF (.gt "UTKI_CPP_STANDARD" 199711) [DEFINE "CFG_CPP" 11] [DEFINE "CFG_CPP" 3]]]]]).run (("UTKI_CPP_STANDARD", .name x) :: e) := by
    subst hx
    unfold standard
    cases m <;> simp [Text.of, IF, ALIAS, DEFINE, Text.run, hm, f1, -List.lookup_eq_none_iff]
  rw [g1]
  have g2 : value (("UTKI_CPP_STANDARD", .name x) :: e) "UTKI_CPP_STANDARD" = some n := value_stands lookup_cons_self hne (hn.cons hne f1)
  have f2' : List.lookup "CFG_CPP" (("UTKI_CPP_STANDARD", Body.name x) :: e) = none := by rw [lookup_cons_ne (by decide), f2]
  generalize (("UTKI_CPP_STANDARD", Body.name x) :: e) = e1 at *
  unfold cppCode
  by_cases v1 : n > 201703
  · simp [Text.of, IF, DEFINE, Text.run, Cond.eval, List.lookup_cons, f2', g2, v1, -List.lookup_eq_none_iff]
  by_cases v2 : n > 201402
  · simp [Text.of, IF, DEFINE, Text.run, Cond.eval, List.lookup_cons, f2', g2, v1, v2, -List.lookup_eq_none_iff]
  by_cases v3 : n > 201103
  · simp [Text.of, IF, DEFINE, Text.run, Cond.eval, List.lookup_cons, f2', g2, v1, v2, v3, -List.lookup_eq_none_iff]
  by_cases v4 : n > 199711
  · simp [Text.of, IF, DEFINE, Text.run, Cond.eval, List.lookup_cons, f2', g2, v1, v2, v3, v4, -List.lookup_eq_none_iff]
  · simp [Text.of, IF, DEFINE, Text.run, Cond.eval, List.lookup_cons, f2', g2, v1, v2, v3, v4, -List.lookup_eq_none_iff]

/-- What the processor is defined to by GCC's macros. -/
def gccCode (e : Env) : String × Int :=
  if isDef e "__i386__" then ("CFG_CPU_X86", 32) else if isDef e "__x86_64__" then ("CFG_CPU_X86_64", 64) else if isDef e "__arm__" then ("CFG_CPU_ARM", 32)
  else if isDef e "__aarch64__" then ("CFG_CPU_ARM", 64) else ("CFG_CPU_UNKNOWN", 0)

/-- … and by those of Microsoft. -/
def msvcCode (e : Env) : String × Int :=
  if isDef e "_M_IX86" then ("CFG_CPU_X86", 32) else if isDef e "_M_AMD64" || isDef e "_M_X64" then ("CFG_CPU_X86_64", 64) else ("CFG_CPU_UNKNOWN", 0)

/-- What `CFG_CPU_VERSION` is defined to by GCC's macros. -/
def gccVersion (e : Env) : Int :=
  if isDef e "__i386__" then (if isDef e "__i686__" then 6 else if isDef e "__i586__" then 5 else if isDef e "__i486__" then 4 else 3)
  else if isDef e "__x86_64__" then 0 else if isDef e "__arm__" then
    (if (Spec.Config.armNames 7).any (isDef e) then 7 else if (Spec.Config.armNames 6).any (isDef e) then 6 else if (Spec.Config.armNames 5).any (isDef e) then 5
      else if (Spec.Config.armNames 4).any (isDef e) then 4 else 0)
  else if isDef e "__aarch64__" then 8 else 0

/-- … and by those of Microsoft; `n`: the value of `_M_IX86`. -/
def msvcVersion (e : Env) (n : Int) : Int :=
  if isDef e "_M_IX86" then (if n = 600 then 6 else if n = 500 then 5 else if n = 400 then 4 else 3) else 0

theorem isDef_cons {x y : String} {b : Body} {e : Env} (h : x ≠ y) : isDef ((y, b) :: e) x = isDef e x := isDef_congr (lookup_cons_ne h)

theorem run_if (c : Cond) (t f : List (Text → Text)) (e : Env) :
    (Text.of [IF c t f]).run e = (c.eval e).bind (fun b => if b then (Text.of t).run e else (Text.of f).run e) := by
  show Text.run (.cond c (.of t) (.of f) .done) e = _
  rw [run_cond_eq]
  have hd : ∀ o : Option Env, o.bind (Text.run .done) = o := by intro o; cases o <;> rfl
  simp only [hd]

theorem cpuIs_run (e : Env) (hf : Fresh e ["CFG_CPU", "CFG_CPU_BITS", "CFG_CPU_VERSION", "CFG_CPU_ARM_THUMB_VERSION"]) (name : String) (bits : Int) (ver : Option Body) (more : List (Text → Text))
    (hm : ∀ e1, Fresh e1 ["CFG_CPU_VERSION", "CFG_CPU_ARM_THUMB_VERSION"] → (∀ x, e.lookup x ≠ none → e1.lookup x = e.lookup x) →
      (∀ x, x ≠ "CFG_CPU" → x ≠ "CFG_CPU_BITS" → e1.lookup x = e.lookup x) → ∃ e', (Text.of more).run e1 = some e' ∧ e'.lookup "CFG_CPU_VERSION" = ver)
    (ha : "CFG_CPU" ∉ (Text.of more).assigned ∧ "CFG_CPU_BITS" ∉ (Text.of more).assigned) :
    ∃ e', (Text.of (cpuIs name bits more)).run e = some e' ∧ e'.lookup "CFG_CPU" = some (.name name) ∧ e'.lookup "CFG_CPU_BITS" = some (.num bits) ∧
      e'.lookup "CFG_CPU_VERSION" = ver := by
  simp only [Fresh, List.mem_cons, List.not_mem_nil, or_false, forall_eq_or_imp, forall_eq] at hf
  obtain ⟨f1, f2, f3, f4⟩ := hf
  have hother : ∀ x, x ≠ "CFG_CPU" → x ≠ "CFG_CPU_BITS" → List.lookup x (("CFG_CPU_BITS", Body.num bits) :: ("CFG_CPU", Body.name name) :: e) = e.lookup x := by
    intro x h1 h2
    rw [lookup_cons_ne h2, lookup_cons_ne h1]
  obtain ⟨e', he, hver⟩ := hm (("CFG_CPU_BITS", .num bits) :: ("CFG_CPU", .name name) :: e) (by
      intro x hx
      simp only [List.mem_cons, List.not_mem_nil, or_false] at hx
      rcases hx with rfl | rfl
      · rw [hother _ (by decide) (by decide), f3]
      · rw [hother _ (by decide) (by decide), f4])
    (fun x hx => hother x (by rintro rfl; exact hx f1) (by rintro rfl; exact hx f2)) hother
  refine ⟨e', ?_, ?_, ?_, hver⟩
  · rw [← he]
    show Text.run (.define "CFG_CPU" (.name name) (.define "CFG_CPU_BITS" (.num bits) (Text.of more))) e = _
    rw [run_define_fresh f1, run_define_fresh (by rw [lookup_cons_ne (by decide), f2])]
  · rw [Text.frame he ha.1, lookup_cons_ne (by decide), lookup_cons_self]
  · rw [Text.frame he ha.2, lookup_cons_self]

theorem version_run (e : Env) (n : Int) (hf : e.lookup "CFG_CPU_VERSION" = none) : ∃ e', (Text.of (version n)).run e = some e' ∧ e'.lookup "CFG_CPU_VERSION" = some (.num n) := by
  refine ⟨("CFG_CPU_VERSION", .num n) :: e, ?_, lookup_cons_self⟩
  simp [version, Text.of, DEFINE, Text.run, hf, -List.lookup_eq_none_iff]

theorem fresh_version {e : Env} (h : Fresh e ["CFG_CPU_VERSION", "CFG_CPU_ARM_THUMB_VERSION"]) : e.lookup "CFG_CPU_VERSION" = none := h _ (by simp)

/-- A chain of conditions. -/
theorem run_if_ok {c : Cond} {t f : List (Text → Text)} {e : Env} {b : Bool} {m n : Int} (hc : c.eval e = some b)
    (ht : ∃ e', (Text.of t).run e = some e' ∧ e'.lookup "CFG_CPU_VERSION" = some (.num m)) (hf : ∃ e', (Text.of f).run e = some e' ∧ e'.lookup "CFG_CPU_VERSION" = some (.num n)) :
    ∃ e', (Text.of [IF c t f]).run e = some e' ∧ e'.lookup "CFG_CPU_VERSION" = some (.num (if b then m else n)) := by
  rw [run_if, hc]
  cases b
  · exact hf
  · exact ht

theorem any_isDef_congr {e e1 : Env} (l : List String) (h : ∀ x ∈ l, e1.lookup x = e.lookup x) : l.any (isDef e1) = l.any (isDef e) := by
  induction l with
  | nil => rfl
  | cons x l ih => rw [List.any_cons, List.any_cons, ih (fun y hy => h y (List.mem_cons_of_mem _ hy)), isDef_congr (h x List.mem_cons_self)]

theorem run_cpuGcc (e : Env) (hf : Fresh e ["CFG_CPU", "CFG_CPU_BITS", "CFG_CPU_VERSION", "CFG_CPU_ARM_THUMB_VERSION"]) :
    ∃ e', (Text.of [cpuGcc]).run e = some e' ∧ e'.lookup "CFG_CPU" = some (.name (gccCode e).1) ∧ e'.lookup "CFG_CPU_BITS" = some (.num (gccCode e).2) ∧
      e'.lookup "CFG_CPU_VERSION" = some (.num (gccVersion e)) := by
  unfold cpuGcc gccCode gccVersion
  rw [run_if]
  simp only [Cond.eval, Option.bind_some]
  split
  · refine cpuIs_run e hf _ _ _ _ (fun e1 h1 _ h3 => ?_) (by decide +kernel)
    have hv := fun n => version_run e1 n (fresh_version h1)
    have hd : ∀ x, x ≠ "CFG_CPU" → x ≠ "CFG_CPU_BITS" → (Cond.defd x).eval e1 = some (isDef e x) := fun x a b => by rw [← isDef_congr (h3 x a b)]; rfl
    exact run_if_ok (hd _ (by decide) (by decide)) (hv _) (run_if_ok (hd _ (by decide) (by decide)) (hv _) (run_if_ok (hd _ (by decide) (by decide)) (hv _) (hv _)))
  rw [run_if]
  simp only [Cond.eval, Option.bind_some]
  split
  · exact cpuIs_run e hf _ _ _ _ (fun e1 h1 _ _ => version_run e1 _ (fresh_version h1)) (by decide +kernel)
  rw [run_if]
  simp only [Cond.eval, Option.bind_some]
  split
  · refine cpuIs_run e hf _ _ _ _ (fun e1 h1 _ h3 => ?_) (by decide +kernel)
    have thumb : ∃ e2, (Text.of [IF (.defd "__thumb2__") [DEFINE "CFG_CPU_ARM_THUMB_VERSION" 2] [IF (.defd "__thumb__") [DEFINE "CFG_CPU_ARM_THUMB_VERSION" 1] []]]).run e1 = some e2 := by
      have hd : ∀ n, ∃ e2, (Text.of [DEFINE "CFG_CPU_ARM_THUMB_VERSION" n]).run e1 = some e2 := fun n =>
        ⟨("CFG_CPU_ARM_THUMB_VERSION", .num n) :: e1, by show Text.run (.define _ _ .done) e1 = _; rw [run_define_fresh (h1 _ (by simp))]; rfl⟩
      rw [run_if]
      simp only [Cond.eval, Option.bind_some]
      split
      · exact hd _
      rw [run_if]
      simp only [Cond.eval, Option.bind_some]
      split
      · exact hd _
      · exact ⟨e1, rfl⟩
    obtain ⟨e2, h2⟩ := thumb
    have same : ∀ x, x ≠ "CFG_CPU_ARM_THUMB_VERSION" → e2.lookup x = e1.lookup x := fun x hx => Text.frame h2 (by
      have : (Text.of [IF (.defd "__thumb2__") [DEFINE "CFG_CPU_ARM_THUMB_VERSION" 2] [IF (.defd "__thumb__") [DEFINE "CFG_CPU_ARM_THUMB_VERSION" 1] []]]).assigned =
        ["CFG_CPU_ARM_THUMB_VERSION", "CFG_CPU_ARM_THUMB_VERSION"] := by decide +kernel
      rw [this]; simpa using hx)
    have hv := fun n => version_run e2 n (by rw [same _ (by decide)]; exact fresh_version h1)
    have hc : ∀ x l, (∀ y ∈ x :: l, y ≠ "CFG_CPU" ∧ y ≠ "CFG_CPU_BITS" ∧ y ≠ "CFG_CPU_ARM_THUMB_VERSION") → (anyDefd x l).eval e2 = some ((x :: l).any (isDef e)) := by
      intro x l hl
      rw [anyDefd_eval, any_isDef_congr (e := e) (e1 := e2)]
      intro y hy
      obtain ⟨a, b, c⟩ := hl y hy
      rw [same y c, h3 y a b]
    have arch := run_if_ok (hc "__ARM_ARCH_7__" ["__ARM_ARCH_7A__", "__ARM_ARCH_7R__", "__ARM_ARCH_7M__"] (by decide)) (hv 7)
      (run_if_ok (hc "__ARM_ARCH_6T2__" ["__ARM_ARCH_6ZK__", "__ARM_ARCH_6Z__", "__ARM_ARCH_6K__", "__ARM_ARCH_6J__", "__ARM_ARCH_6__"] (by decide)) (hv 6)
      (run_if_ok (hc "__ARM_ARCH_5TEJ__" ["__ARM_ARCH_5TE__", "__ARM_ARCH_5T__", "__ARM_ARCH_5E__", "__ARM_ARCH_5__"] (by decide)) (hv 5)
      (run_if_ok (hc "__ARM_ARCH_4T__" ["__ARM_ARCH_4__"] (by decide)) (hv 4) (hv 0))))
    obtain ⟨e3, h3, h4⟩ := arch
    refine ⟨e3, ?_, h4⟩
    have seq : ∀ (c : Cond) (t f r : List (Text → Text)) (g : Text → Text), (Text.of [IF c t f, g]).run e1 = ((Text.of [IF c t f]).run e1).bind (Text.of [g]).run := by
      intro c t f r g
      show Text.run (.cond c (.of t) (.of f) (.of [g])) e1 = (Text.run (.cond c (.of t) (.of f) .done) e1).bind _
      rw [run_cond_eq, run_cond_eq, Option.bind_assoc]
      congr 1
      funext b
      rw [Option.bind_assoc]
      rfl
    rw [seq _ _ _ [], h2]
    exact h3
  rw [run_if]
  simp only [Cond.eval, Option.bind_some]
  split
  · exact cpuIs_run e hf _ _ _ _ (fun e1 h1 _ _ => version_run e1 _ (fresh_version h1)) (by decide +kernel)
  · exact cpuIs_run e hf _ _ _ _ (fun e1 h1 _ _ => version_run e1 _ (fresh_version h1)) (by decide +kernel)

theorem run_cpuMsvc (e : Env) (hf : Fresh e ["CFG_CPU", "CFG_CPU_BITS", "CFG_CPU_VERSION", "CFG_CPU_ARM_THUMB_VERSION"]) (n : Int) (hn : Stands e "_M_IX86" n) :
    ∃ e', (Text.of [cpuMsvc]).run e = some e' ∧ e'.lookup "CFG_CPU" = some (.name (msvcCode e).1) ∧ e'.lookup "CFG_CPU_BITS" = some (.num (msvcCode e).2) ∧
      e'.lookup "CFG_CPU_VERSION" = some (.num (msvcVersion e n)) := by
  unfold cpuMsvc msvcCode msvcVersion
  rw [run_if]
  simp only [Cond.eval, Option.bind_some]
  split
  · refine cpuIs_run e hf _ _ _ _ (fun e1 h1 h2 h3 => ?_) (by decide +kernel)
    have hv := fun n => version_run e1 n (fresh_version h1)
    have hx : value e1 "_M_IX86" = some n := stands_value (hn.agree (h3 _ (by decide) (by decide)) h2)
    have hc : ∀ k, (Cond.eqn "_M_IX86" k).eval e1 = some (n == k) := fun k => by simp [Cond.eval, hx]
    have := run_if_ok (hc 600) (hv 6) (run_if_ok (hc 500) (hv 5) (run_if_ok (hc 400) (hv 4) (hv 3)))
    simpa only [beq_iff_eq] using this
  rw [run_if]
  simp only [Cond.eval, Option.bind_some, Option.pure_def, Option.bind_eq_bind]
  split
  · exact cpuIs_run e hf _ _ _ _ (fun e1 h1 _ _ => version_run e1 _ (fresh_version h1)) (by decide +kernel)
  · exact cpuIs_run e hf _ _ _ _ (fun e1 h1 _ _ => version_run e1 _ (fresh_version h1)) (by decide +kernel)

instance (c : Compiler) : Decidable (∃ v, c = .msvc v) :=
  match c with
  | .msvc v => isTrue ⟨v, rfl⟩
  | .gcc | .clang | .other => isFalse (by simp)

/-- What the processor is defined to. -/
def cpuCode (e : Env) (c : Compiler) (s : System) : String × Int :=
  if s = .emscripten then ("CFG_CPU_WASM", 32) else
  match c with
  | .gcc => gccCode e
  | .msvc _ => msvcCode e
  | _ => ("CFG_CPU_UNKNOWN", 0)

/-- What `CFG_CPU_VERSION` is defined to. -/
def versionCode (e : Env) (c : Compiler) (s : System) (n : Int) : Option Body :=
  if s = .emscripten then none else
  match c with
  | .gcc => some (.num (gccVersion e))
  | .msvc _ => some (.num (msvcVersion e n))
  | _ => some (.num 0)

theorem run_cpu (e : Env) (hf : Fresh e ["CFG_CPU", "CFG_CPU_BITS", "CFG_CPU_VERSION", "CFG_CPU_ARM_THUMB_VERSION"]) (s : System) (c : Compiler) (n : Int) (hn : Stands e "_M_IX86" n)
    (h1 : (Cond.eq "CFG_OS_NAME" "CFG_OS_NAME_EMSCRIPTEN").eval e = some (decide (s = .emscripten)))
    (h2 : (Cond.eq "CFG_COMPILER" "CFG_COMPILER_GCC").eval e = some (decide (c = .gcc)))
    (h3 : (Cond.eq "CFG_COMPILER" "CFG_COMPILER_MSVC").eval e = some (decide (∃ v, c = .msvc v))) :
    ∃ e', cpu.run e = some e' ∧ e'.lookup "CFG_CPU" = some (.name (cpuCode e c s).1) ∧ e'.lookup "CFG_CPU_BITS" = some (.num (cpuCode e c s).2) ∧
      e'.lookup "CFG_CPU_VERSION" = versionCode e c s n := by
  unfold cpu cpuCode versionCode
  rw [run_if, h1]
  simp only [Option.bind_some, decide_eq_true_eq]
  split
  · exact cpuIs_run e hf _ _ _ _ (fun e1 h1 _ _ => ⟨e1, rfl, fresh_version h1⟩) (by decide +kernel)
  rw [run_if, h2]
  simp only [Option.bind_some, decide_eq_true_eq]
  split
  · rename_i h; subst h; exact run_cpuGcc e hf
  rw [run_if, h3]
  simp only [Option.bind_some, decide_eq_true_eq]
  split
  · rename_i h; obtain ⟨v, rfl⟩ := h; exact run_cpuMsvc e hf n hn
  · rename_i g1 g2
    cases c with
    | gcc => exact absurd rfl g1
    | msvc v => exact absurd ⟨v, rfl⟩ g2
    | clang => exact cpuIs_run e hf _ _ _ _ (fun e1 h1 _ _ => version_run e1 _ (fresh_version h1)) (by decide +kernel)
    | other => exact cpuIs_run e hf _ _ _ _ (fun e1 h1 _ _ => version_run e1 _ (fresh_version h1)) (by decide +kernel)

/-- What `DLLEXPORT` is defined to. -/
def dllCode (e : Env) (c : Compiler) (s : System) : Body :=
  match s, c with
  | .windows, .msvc _ => if isDef e "_USRDLL" then .text "__declspec(dllexport)" else .text "__declspec(dllimport)"
  | _, _ => .blank

theorem run_dll (e : Env) (hf : e.lookup "DLLEXPORT" = none) (s : System) (c : Compiler)
    (h1 : (Cond.eq "CFG_OS" "CFG_OS_WINDOWS").eval e = some (decide (s = .windows)))
    (h3 : (Cond.eq "CFG_COMPILER" "CFG_COMPILER_MSVC").eval e = some (decide (∃ v, c = .msvc v))) :
    ∃ e', dll.run e = some e' ∧ e'.lookup "DLLEXPORT" = some (dllCode e c s) := by
  have hd : ∀ b, ∃ e', (Text.of [.define "DLLEXPORT" b]).run e = some e' ∧ e'.lookup "DLLEXPORT" = some b := fun b =>
    ⟨("DLLEXPORT", b) :: e, by show Text.run (.define _ _ .done) e = _; rw [run_define_fresh hf]; rfl, lookup_cons_self⟩
  unfold dll
  rw [run_if, h1]
  simp only [Option.bind_some, decide_eq_true_eq]
  split
  · rename_i hs; subst hs
    rw [run_if, h3]
    simp only [Option.bind_some, decide_eq_true_eq]
    split
    · rename_i hc; obtain ⟨v, rfl⟩ := hc
      rw [run_if]
      simp only [Cond.eval, Option.bind_some, dllCode]
      split <;> exact hd _
    · rename_i hc
      have : dllCode e c .windows = .blank := by cases c <;> first | rfl | exact absurd ⟨_, rfl⟩ hc
      rw [this]; exact hd _
  · rename_i hs
    have : dllCode e c s = .blank := by cases s <;> first | rfl | exact absurd rfl hs
    rw [this]; exact hd _

/-- What the byte order is defined to; `b`, `w`, `l`, `g`: the values of `__BYTE_ORDER__`, `__FLOAT_WORD_ORDER__`, `__ORDER_LITTLE_ENDIAN__`, `__ORDER_BIG_ENDIAN__`. -/
def orderCode (e : Env) (s : System) (b w l g : Int) : String :=
  if s = .emscripten then "CFG_ENDIANNESS_LITTLE" else if s = .windows then "CFG_ENDIANNESS_LITTLE" else
  if isDef e "__ORDER_BIG_ENDIAN__" && (b == g || w == g) || Spec.Config.saysBig.any (isDef e) then "CFG_ENDIANNESS_BIG"
  else if isDef e "__ORDER_LITTLE_ENDIAN__" && (b == l || w == l) || Spec.Config.saysLittle.any (isDef e) then "CFG_ENDIANNESS_LITTLE" else "CFG_ENDIANNESS_UNKNOWN"

theorem run_endianness (e : Env) (hf : e.lookup "CFG_ENDIANNESS" = none) (s : System) (b w l g : Int)
    (h1 : (Cond.eq "CFG_OS_NAME" "CFG_OS_NAME_EMSCRIPTEN").eval e = some (decide (s = .emscripten)))
    (h2 : (Cond.eq "CFG_OS" "CFG_OS_WINDOWS").eval e = some (decide (s = .windows)))
    (hb : value e "__BYTE_ORDER__" = some b) (hw : value e "__FLOAT_WORD_ORDER__" = some w) (hl : value e "__ORDER_LITTLE_ENDIAN__" = some l)
    (hg : value e "__ORDER_BIG_ENDIAN__" = some g) :
    ∃ e', endianness.run e = some e' ∧ e'.lookup "CFG_ENDIANNESS" = some (.name (orderCode e s b w l g)) := by
  have hd : ∀ x, ∃ e', (Text.of [ALIAS "CFG_ENDIANNESS" x]).run e = some e' ∧ e'.lookup "CFG_ENDIANNESS" = some (.name x) := fun x =>
    ⟨("CFG_ENDIANNESS", .name x) :: e, by show Text.run (.define _ _ .done) e = _; rw [run_define_fresh hf]; rfl, lookup_cons_self⟩
  unfold endianness orderCode
  rw [run_if, h1]
  simp only [Option.bind_some, decide_eq_true_eq]
  split
  · exact hd _
  rw [run_if, h2]
  simp only [Option.bind_some, decide_eq_true_eq]
  split
  · exact hd _
  rw [run_if]
  have hor : ∀ x y more v, value e x = some v → (orderIs x y more).eval e = some (isDef e x && (b == v || w == v) || (y :: more).any (isDef e)) := by
    intro x y more v hv
    simp [orderIs, Cond.eval, anyDefd_eval, hb, hw, hv]
  rw [hor _ _ _ _ hg]
  simp only [Option.bind_some]
  unfold Spec.Config.saysBig
  split
  · exact hd _
  rw [run_if, hor _ _ _ _ hl]
  simp only [Option.bind_some]
  unfold Spec.Config.saysLittle
  split
  · exact hd _
  · exact hd _

/-! ## The whole file -/

open Spec.Config (Compilation)

theorem sections_own : ∀ t ∈ [osNames, os, compilerNames, compiler, standard, cpuNames, cpu, dll, endiannessNames, endianness], ∀ x ∈ t.assigned, x ∈ own := by decide +kernel

/-- The constants of the section. -/
def osNamesList : List (String × Int) := [("CFG_OS_UNKNOWN", 0), ("CFG_OS_LINUX", 1), ("CFG_OS_WINDOWS", 2), ("CFG_OS_MACOSX", 3), ("CFG_OS_UNIX", 4), ("CFG_OS_NAME_UNKNOWN", 0), ("CFG_OS_NAME_MACOSX", 1), ("CFG_OS_NAME_IOS", 2), ("CFG_OS_NAME_ANDROID", 3), ("CFG_OS_NAME_SOLARIS", 4), ("CFG_OS_NAME_FREEBSD", 5), ("CFG_OS_NAME_EMSCRIPTEN", 6)]

theorem run_osNames (e : Env) (hf : Fresh e (osNamesList.map (·.1))) : ∃ e', osNames.run e = some e' ∧ Consts e' osNamesList :=
  ⟨_, defines_run osNamesList e (by decide +kernel) hf, defines_consts osNamesList e (by decide +kernel)⟩

/-- The constants of the section. -/
def compilerNamesList : List (String × Int) := [("CFG_COMPILER_UNKNOWN", 0), ("CFG_COMPILER_GCC", 1), ("CFG_COMPILER_MSVC", 2), ("CFG_COMPILER_CLANG", 3)]

theorem run_compilerNames (e : Env) (hf : Fresh e (compilerNamesList.map (·.1))) : ∃ e', compilerNames.run e = some e' ∧ Consts e' compilerNamesList :=
  ⟨_, defines_run compilerNamesList e (by decide +kernel) hf, defines_consts compilerNamesList e (by decide +kernel)⟩

/-- The constants of the section. -/
def cpuNamesList : List (String × Int) := [("CFG_CPU_UNKNOWN", 0), ("CFG_CPU_X86", 1), ("CFG_CPU_X86_64", 2), ("CFG_CPU_ARM", 3), ("CFG_CPU_WASM", 4)]

theorem run_cpuNames (e : Env) (hf : Fresh e (cpuNamesList.map (·.1))) : ∃ e', cpuNames.run e = some e' ∧ Consts e' cpuNamesList :=
  ⟨_, defines_run cpuNamesList e (by decide +kernel) hf, defines_consts cpuNamesList e (by decide +kernel)⟩

/-- The constants of the section. -/
def endiannessNamesList : List (String × Int) := [("CFG_ENDIANNESS_UNKNOWN", 0), ("CFG_ENDIANNESS_LITTLE", 1), ("CFG_ENDIANNESS_BIG", 2)]

theorem run_endiannessNames (e : Env) (hf : Fresh e (endiannessNamesList.map (·.1))) : ∃ e', endiannessNames.run e = some e' ∧ Consts e' endiannessNamesList :=
  ⟨_, defines_run endiannessNamesList e (by decide +kernel) hf, defines_consts endiannessNamesList e (by decide +kernel)⟩

theorem targets_agree {e e' : Env} {s : System} (h : Targets e s) (ha : ∀ x, x ∉ own → e'.lookup x = e.lookup x) (hn : ∀ x, e.lookup x ≠ none → e'.lookup x = e.lookup x) :
    Targets e' s := by
  have hh : ∀ l, (∀ x ∈ l, x ∉ own) → Have e l → Have e' l := fun l hl h x hx => by rw [ha x (hl x hx)]; exact h x hx
  have ho : ∀ l, (∀ x ∈ l, x ∉ own) → HaveOne e l → HaveOne e' l := fun l hl ⟨x, hx, h⟩ => ⟨x, hx, by rw [ha x (hl x hx)]; exact h⟩
  have hk : ∀ l, (∀ x ∈ l, x ∉ own) → Lack e l → Lack e' l := fun l hl h x hx => by rw [ha x (hl x hx)]; exact h x hx
  have hs : ∀ x n, x ∉ own → Stands e x n → Stands e' x n := fun x n hx h => h.agree (ha x hx) hn
  cases s with
  | linux => exact ⟨hh _ (by decide +kernel) h.1, hk _ (by decide +kernel) h.2⟩
  | android => exact hh _ (by decide +kernel) h
  | windows => exact ⟨ho _ (by decide +kernel) h.1, hk _ (by decide +kernel) h.2⟩
  | macos => exact ⟨hh _ (by decide +kernel) h.1, hk _ (by decide +kernel) h.2.1, hs _ _ (by decide +kernel) h.2.2.1, hs _ _ (by decide +kernel) h.2.2.2⟩
  | ios => exact ⟨hh _ (by decide +kernel) h.1, hk _ (by decide +kernel) h.2.1, hs _ _ (by decide +kernel) h.2.2.1, h.2.2.2.imp fun n hn => hs _ _ (by decide +kernel) hn⟩
  | solaris => exact ⟨ho _ (by decide +kernel) h.1, ho _ (by decide +kernel) h.2.1, hk _ (by decide +kernel) h.2.2⟩
  | freebsd => exact ⟨ho _ (by decide +kernel) h.1, hh _ (by decide +kernel) h.2.1, hk _ (by decide +kernel) h.2.2⟩
  | emscripten => exact ⟨ho _ (by decide +kernel) h.1, hh _ (by decide +kernel) h.2.1, hk _ (by decide +kernel) h.2.2⟩
  | unix => exact ⟨ho _ (by decide +kernel) h.1, hk _ (by decide +kernel) h.2⟩
  | other => exact hk _ (by decide +kernel) h

theorem compiledBy_agree {e e' : Env} {c : Compiler} (h : CompiledBy e c) (ha : ∀ x, x ∉ own → e'.lookup x = e.lookup x) (hn : ∀ x, e.lookup x ≠ none → e'.lookup x = e.lookup x) :
    CompiledBy e' c := by
  have hh : ∀ l, (∀ x ∈ l, x ∉ own) → Have e l → Have e' l := fun l hl h x hx => by rw [ha x (hl x hx)]; exact h x hx
  have ho : ∀ l, (∀ x ∈ l, x ∉ own) → HaveOne e l → HaveOne e' l := fun l hl ⟨x, hx, h⟩ => ⟨x, hx, by rw [ha x (hl x hx)]; exact h⟩
  have hk : ∀ l, (∀ x ∈ l, x ∉ own) → Lack e l → Lack e' l := fun l hl h x hx => by rw [ha x (hl x hx)]; exact h x hx
  cases c with
  | gcc => exact ⟨ho _ (by decide +kernel) h.1, hk _ (by decide +kernel) h.2⟩
  | clang => exact ⟨hh _ (by decide +kernel) h.1, hk _ (by decide +kernel) h.2⟩
  | msvc v => exact ⟨hh _ (by decide +kernel) h.1, h.2.agree (ha _ (by decide +kernel)) hn⟩
  | other => exact hk _ (by decide +kernel) h

/-- A comparison with a constant. -/
theorem eq_eval {e : Env} {x y z : String} {m n : Int} (hx : e.lookup x = some (.name y)) (hxy : y ≠ x) (hy : e.lookup y = some (.num m)) (hz : e.lookup z = some (.num n)) :
    (Cond.eq x z).eval e = some (m == n) := by
  simp [Cond.eval, value_alias hx hxy hy, value_num hz]

/-- The numbers of the names. -/
def familyNum : System → Int
  | .linux | .android => 1
  | .windows => 2
  | .macos | .ios => 3
  | .solaris | .freebsd | .emscripten | .unix => 4
  | .other => 0

/-- The numbers of the names. -/
def systemNum : System → Int
  | .android => 3
  | .macos => 1
  | .ios => 2
  | .solaris => 4
  | .freebsd => 5
  | .emscripten => 6
  | .linux | .windows | .unix | .other => 0

/-- The numbers of the names. -/
def compilerNum : Compiler → Int
  | .gcc => 1
  | .clang => 3
  | .msvc _ => 2
  | .other => 0

theorem family_mem (s : System) : (family s, familyNum s) ∈ osNamesList ∧ family s ≠ "CFG_OS" := by cases s <;> decide +kernel
theorem system_mem (s : System) : (systemName s, systemNum s) ∈ osNamesList ∧ systemName s ≠ "CFG_OS_NAME" := by cases s <;> decide +kernel
theorem compiler_mem (c : Compiler) : (compilerName c, compilerNum c) ∈ compilerNamesList ∧ compilerName c ≠ "CFG_COMPILER" := by
  cases c <;> simp only [compilerName, compilerNum] <;> decide +kernel

theorem family_eval {e : Env} {s : System} (he : e.lookup "CFG_OS" = some (.name (family s))) (hk : Consts e osNamesList) {z : String} {n : Int} (hz : (z, n) ∈ osNamesList) :
    (Cond.eq "CFG_OS" z).eval e = some (familyNum s == n) := eq_eval he (family_mem s).2 (hk _ (family_mem s).1) (hk _ hz)
theorem system_eval {e : Env} {s : System} (he : e.lookup "CFG_OS_NAME" = some (.name (systemName s))) (hk : Consts e osNamesList) {z : String} {n : Int} (hz : (z, n) ∈ osNamesList) :
    (Cond.eq "CFG_OS_NAME" z).eval e = some (systemNum s == n) := eq_eval he (system_mem s).2 (hk _ (system_mem s).1) (hk _ hz)
theorem compiler_eval {e : Env} {c : Compiler} (he : e.lookup "CFG_COMPILER" = some (.name (compilerName c))) (hk : Consts e compilerNamesList) {z : String} {n : Int}
    (hz : (z, n) ∈ compilerNamesList) : (Cond.eq "CFG_COMPILER" z).eval e = some (compilerNum c == n) := eq_eval he (compiler_mem c).2 (hk _ (compiler_mem c).1) (hk _ hz)

theorem emscripten_eval {e : Env} {s : System} (he : e.lookup "CFG_OS_NAME" = some (.name (systemName s))) (hk : Consts e osNamesList) :
    (Cond.eq "CFG_OS_NAME" "CFG_OS_NAME_EMSCRIPTEN").eval e = some (decide (s = .emscripten)) := by
  rw [system_eval he hk (n := 6) (by decide +kernel)]; cases s <;> rfl
theorem windows_eval {e : Env} {s : System} (he : e.lookup "CFG_OS" = some (.name (family s))) (hk : Consts e osNamesList) :
    (Cond.eq "CFG_OS" "CFG_OS_WINDOWS").eval e = some (decide (s = .windows)) := by
  rw [family_eval he hk (n := 2) (by decide +kernel)]; cases s <;> rfl
theorem msvc_eval {e : Env} {c : Compiler} (he : e.lookup "CFG_COMPILER" = some (.name (compilerName c))) (hk : Consts e compilerNamesList) :
    (Cond.eq "CFG_COMPILER" "CFG_COMPILER_MSVC").eval e = some (decide (∃ v, c = .msvc v)) := by
  rw [compiler_eval he hk (n := 2) (by decide +kernel)]; cases c <;> simp [compilerNum]
theorem gcc_eval {e : Env} {c : Compiler} (he : e.lookup "CFG_COMPILER" = some (.name (compilerName c))) (hk : Consts e compilerNamesList) :
    (Cond.eq "CFG_COMPILER" "CFG_COMPILER_GCC").eval e = some (decide (c = .gcc)) := by
  rw [compiler_eval he hk (n := 1) (by decide +kernel)]; cases c <;> simp [compilerNum]

/-- What is known after the whole file. -/
theorem config_run {e : Env} {s : System} {c : Compiler} {n : Int} (h : Compilation e s c n) : ∃ e', config e = some e' ∧
    (∀ x, x ∉ own → e'.lookup x = e.lookup x) ∧
    Consts e' osNamesList ∧ Consts e' compilerNamesList ∧ Consts e' cpuNamesList ∧ Consts e' endiannessNamesList ∧
    e'.lookup "CFG_OS" = some (.name (family s)) ∧ e'.lookup "CFG_OS_NAME" = some (.name (systemName s)) ∧
    e'.lookup "CFG_COMPILER" = some (.name (compilerName c)) ∧
    (∀ v, c = .msvc v → e'.lookup "CFG_COMPILER_MSVC_TOOLS_V" = some (.num (toolsCode v))) ∧
    ((∀ v, c ≠ .msvc v) → e'.lookup "CFG_COMPILER_MSVC_TOOLS_V" = none) ∧
    e'.lookup "CFG_CPP" = some (.num (cppCode n)) ∧
    e'.lookup "CFG_CPU" = some (.name (cpuCode e c s).1) ∧ e'.lookup "CFG_CPU_BITS" = some (.num (cpuCode e c s).2) ∧
    e'.lookup "DLLEXPORT" = some (dllCode e c s) ∧
    (∀ b w l g, Stands e "__BYTE_ORDER__" b → Stands e "__FLOAT_WORD_ORDER__" w → Stands e "__ORDER_LITTLE_ENDIAN__" l → Stands e "__ORDER_BIG_ENDIAN__" g →
      e'.lookup "CFG_ENDIANNESS" = some (.name (orderCode e s b w l g))) ∧
    e'.lookup "CFG_IOS_DEPLOYMENT_TARGET" = (if s = .ios then some (.name "__IPHONE_OS_VERSION_MIN_REQUIRED") else none) ∧
    e'.lookup "CFG_MACOSX_DEPLOYMENT_TARGET" = (if s = .macos then some (.name "__MAC_OS_X_VERSION_MIN_REQUIRED") else none) ∧
    e'.lookup "CFG_COMPILER_VERSION_MAJOR" = (if c = .gcc then some (.name "__GNUC__") else none) ∧
    e'.lookup "CFG_COMPILER_VERSION_MINOR" = (if c = .gcc then some (.name "__GNUC_MINOR__") else none) ∧
    e'.lookup "CFG_COMPILER_VERSION_PATCH" = (if c = .gcc then some (.name "__GNUC_PATCHLEVEL__") else none) ∧
    (∀ n, Stands e "_M_IX86" n → e'.lookup "CFG_CPU_VERSION" = versionCode e c s n) := by
  have frm : ∀ (t : Text) (e1 e2 : Env), t ∈ [osNames, os, compilerNames, compiler, standard, cpuNames, cpu, dll, endiannessNames, endianness] → t.run e1 = some e2 →
      (∀ x, x ∉ own → e1.lookup x = e.lookup x) → ∀ x, x ∉ own → e2.lookup x = e.lookup x := by
    intro t e1 e2 ht hr ha x hx
    rw [Text.frame hr (fun hm => hx (sections_own t ht x hm)), ha x hx]
  have nn : ∀ (e1 : Env), (∀ x, x ∉ own → e1.lookup x = e.lookup x) → ∀ x, e.lookup x ≠ none → e1.lookup x = e.lookup x :=
    fun e1 ha x hx => ha x (fun hm => hx (h.own x hm))
  have a0 : ∀ x, x ∉ own → e.lookup x = e.lookup x := fun _ _ => rfl
  have frames : ∀ (l : List Text) (e1 e2 : Env), l.foldlM (fun e t => t.run e) e1 = some e2 → ∀ x, (∀ t ∈ l, x ∉ t.assigned) → e2.lookup x = e1.lookup x := by
    intro l
    induction l with
    | nil => intro e1 e2 h x _; cases h; rfl
    | cons t l ih =>
      intro e1 e2 h x hx
      rw [List.foldlM_cons] at h
      obtain ⟨e3, h1, h2⟩ := Option.bind_eq_some_iff.mp h
      rw [ih e3 e2 h2 x (fun t ht => hx t (List.mem_cons_of_mem _ ht)), Text.frame h1 (hx t List.mem_cons_self)]
  have p0 : ([] : List Text).foldlM (fun e t => t.run e) e = some e := rfl
  have f1 : Fresh e (osNamesList.map (·.1)) := by
    intro x hx
    rw [frames [] e e p0 x (by revert x; decide +kernel)]
    exact h.own x (by revert x; decide +kernel)
  obtain ⟨e1, r1, c1⟩ := run_osNames e f1
  have a1 := frm osNames e e1 (by simp) r1 a0
  have p1 : [osNames].foldlM (fun e t => t.run e) e = some e1 := by
    rw [show [osNames] = [] ++ [osNames] from rfl, List.foldlM_append, p0]
    show (Text.run _ _).bind some = _
    rw [r1]; rfl
  have f2 : Fresh e1 ["CFG_OS", "CFG_OS_NAME", "CFG_IOS_DEPLOYMENT_TARGET", "CFG_MACOSX_DEPLOYMENT_TARGET"] := by
    intro x hx
    rw [frames [osNames] e e1 p1 x (by revert x; decide +kernel)]
    exact h.own x (by revert x; decide +kernel)
  obtain ⟨e2, r2, os1, os2, os3, os4⟩ := run_os e1 f2 s (targets_agree h.system a1 (nn e1 a1))
  have a2 := frm os e1 e2 (by simp) r2 a1
  have p2 : [osNames, os].foldlM (fun e t => t.run e) e = some e2 := by
    rw [show [osNames, os] = [osNames] ++ [os] from rfl, List.foldlM_append, p1]
    show (Text.run _ _).bind some = _
    rw [r2]; rfl
  have f3 : Fresh e2 (compilerNamesList.map (·.1)) := by
    intro x hx
    rw [frames [osNames, os] e e2 p2 x (by revert x; decide +kernel)]
    exact h.own x (by revert x; decide +kernel)
  obtain ⟨e3, r3, c3⟩ := run_compilerNames e2 f3
  have a3 := frm compilerNames e2 e3 (by simp) r3 a2
  have p3 : [osNames, os, compilerNames].foldlM (fun e t => t.run e) e = some e3 := by
    rw [show [osNames, os, compilerNames] = [osNames, os] ++ [compilerNames] from rfl, List.foldlM_append, p2]
    show (Text.run _ _).bind some = _
    rw [r3]; rfl
  have f4 : Fresh e3 ["CFG_COMPILER", "CFG_COMPILER_MSVC_TOOLS_V", "CFG_COMPILER_VERSION_MAJOR", "CFG_COMPILER_VERSION_MINOR", "CFG_COMPILER_VERSION_PATCH"] := by
    intro x hx
    rw [frames [osNames, os, compilerNames] e e3 p3 x (by revert x; decide +kernel)]
    exact h.own x (by revert x; decide +kernel)
  obtain ⟨e4, r4, co1, co2, co3, co4, co5, co6⟩ := run_compiler e3 f4 c (compiledBy_agree h.compiler a3 (nn e3 a3))
  have a4 := frm compiler e3 e4 (by simp) r4 a3
  have p4 : [osNames, os, compilerNames, compiler].foldlM (fun e t => t.run e) e = some e4 := by
    rw [show [osNames, os, compilerNames, compiler] = [osNames, os, compilerNames] ++ [compiler] from rfl, List.foldlM_append, p3]
    show (Text.run _ _).bind some = _
    rw [r4]; rfl
  have f5 : Fresh e4 ["UTKI_CPP_STANDARD", "CFG_CPP"] := by
    intro x hx
    rw [frames [osNames, os, compilerNames, compiler] e e4 p4 x (by revert x; decide +kernel)]
    exact h.own x (by revert x; decide +kernel)
  have k4 : Consts e4 compilerNamesList := by
    intro p hp
    rw [Text.frame r4 (by revert p; decide +kernel)]
    exact c3 p hp
  obtain ⟨e5, r5, st⟩ := run_standard e4 f5 (decide (∃ v, c = .msvc v)) n (msvc_eval co1 k4) (by
    have := h.standard
    unfold Spec.Config.Standard at this
    cases c <;> simp only [exists_false, decide_false, Compiler.msvc.injEq, exists_eq', decide_true, reduceCtorEq, if_true, Bool.false_eq_true, if_false] <;>
      exact this.agree (a4 _ (by decide +kernel)) (nn e4 a4))
  have a5 := frm standard e4 e5 (by simp) r5 a4
  have p5 : [osNames, os, compilerNames, compiler, standard].foldlM (fun e t => t.run e) e = some e5 := by
    rw [show [osNames, os, compilerNames, compiler, standard] = [osNames, os, compilerNames, compiler] ++ [standard] from rfl, List.foldlM_append, p4]
    show (Text.run _ _).bind some = _
    rw [r5]; rfl
  have f6 : Fresh e5 (cpuNamesList.map (·.1)) := by
    intro x hx
    rw [frames [osNames, os, compilerNames, compiler, standard] e e5 p5 x (by revert x; decide +kernel)]
    exact h.own x (by revert x; decide +kernel)
  obtain ⟨e6, r6, c6⟩ := run_cpuNames e5 f6
  have a6 := frm cpuNames e5 e6 (by simp) r6 a5
  have p6 : [osNames, os, compilerNames, compiler, standard, cpuNames].foldlM (fun e t => t.run e) e = some e6 := by
    rw [show [osNames, os, compilerNames, compiler, standard, cpuNames] = [osNames, os, compilerNames, compiler, standard] ++ [cpuNames] from rfl, List.foldlM_append, p5]
    show (Text.run _ _).bind some = _
    rw [r6]; rfl
  have f7 : Fresh e6 ["CFG_CPU", "CFG_CPU_BITS", "CFG_CPU_VERSION", "CFG_CPU_ARM_THUMB_VERSION"] := by
    intro x hx
    rw [frames [osNames, os, compilerNames, compiler, standard, cpuNames] e e6 p6 x (by revert x; decide +kernel)]
    exact h.own x (by revert x; decide +kernel)
  have q6 : ∀ x, x ∉ compiler.assigned → x ∉ standard.assigned → x ∉ cpuNames.assigned → x ∉ compilerNames.assigned → e6.lookup x = e2.lookup x := by
    intro x h1 h2 h3 h4
    rw [Text.frame r6 h3, Text.frame r5 h2, Text.frame r4 h1, Text.frame r3 h4]
  have o6 : e6.lookup "CFG_OS_NAME" = some (.name (systemName s)) := by rw [q6 _ (by decide +kernel) (by decide +kernel) (by decide +kernel) (by decide +kernel), os2]
  have w6 : e6.lookup "CFG_OS" = some (.name (family s)) := by rw [q6 _ (by decide +kernel) (by decide +kernel) (by decide +kernel) (by decide +kernel), os1]
  have k6 : Consts e6 osNamesList := by
    intro p hp
    rw [q6 _ (by revert p; decide +kernel) (by revert p; decide +kernel) (by revert p; decide +kernel) (by revert p; decide +kernel), Text.frame r2 (by revert p; decide +kernel)]
    exact c1 p hp
  have l6 : Consts e6 compilerNamesList := by
    intro p hp
    rw [Text.frame r6 (by revert p; decide +kernel), Text.frame r5 (by revert p; decide +kernel)]
    exact k4 p hp
  have x6 : e6.lookup "CFG_COMPILER" = some (.name (compilerName c)) := by rw [Text.frame r6 (by decide +kernel), Text.frame r5 (by decide +kernel), co1]
  obtain ⟨ix, hix⟩ := h.numbers "_M_IX86" (by simp)
  obtain ⟨e7, r7, cp1, cp2, cp3⟩ := run_cpu e6 f7 s c ix (hix.agree (a6 _ (by decide +kernel)) (nn e6 a6)) (emscripten_eval o6 k6) (gcc_eval x6 l6) (msvc_eval x6 l6)
  have a7 := frm cpu e6 e7 (by simp) r7 a6
  have p7 : [osNames, os, compilerNames, compiler, standard, cpuNames, cpu].foldlM (fun e t => t.run e) e = some e7 := by
    rw [show [osNames, os, compilerNames, compiler, standard, cpuNames, cpu] = [osNames, os, compilerNames, compiler, standard, cpuNames] ++ [cpu] from rfl, List.foldlM_append, p6]
    show (Text.run _ _).bind some = _
    rw [r7]; rfl
  have f8 : e7.lookup "DLLEXPORT" = none := by
    rw [frames [osNames, os, compilerNames, compiler, standard, cpuNames, cpu] e e7 p7 _ (by decide +kernel)]
    exact h.own _ (by decide +kernel)
  have w7 : e7.lookup "CFG_OS" = some (.name (family s)) := by rw [Text.frame r7 (by decide +kernel), w6]
  have x7 : e7.lookup "CFG_COMPILER" = some (.name (compilerName c)) := by rw [Text.frame r7 (by decide +kernel), x6]
  have k7 : Consts e7 osNamesList := by
    intro p hp
    rw [Text.frame r7 (by revert p; decide +kernel)]
    exact k6 p hp
  have l7 : Consts e7 compilerNamesList := by
    intro p hp
    rw [Text.frame r7 (by revert p; decide +kernel)]
    exact l6 p hp
  obtain ⟨e8, r8, dl⟩ := run_dll e7 f8 s c (windows_eval w7 k7) (msvc_eval x7 l7)
  have a8 := frm dll e7 e8 (by simp) r8 a7
  have p8 : [osNames, os, compilerNames, compiler, standard, cpuNames, cpu, dll].foldlM (fun e t => t.run e) e = some e8 := by
    rw [show [osNames, os, compilerNames, compiler, standard, cpuNames, cpu, dll] = [osNames, os, compilerNames, compiler, standard, cpuNames, cpu] ++ [dll] from rfl, List.foldlM_append, p7]
    show (Text.run _ _).bind some = _
    rw [r8]; rfl
  have f9 : Fresh e8 (endiannessNamesList.map (·.1)) := by
    intro x hx
    rw [frames [osNames, os, compilerNames, compiler, standard, cpuNames, cpu, dll] e e8 p8 x (by revert x; decide +kernel)]
    exact h.own x (by revert x; decide +kernel)
  obtain ⟨e9, r9, c9⟩ := run_endiannessNames e8 f9
  have a9 := frm endiannessNames e8 e9 (by simp) r9 a8
  have p9 : [osNames, os, compilerNames, compiler, standard, cpuNames, cpu, dll, endiannessNames].foldlM (fun e t => t.run e) e = some e9 := by
    rw [show [osNames, os, compilerNames, compiler, standard, cpuNames, cpu, dll, endiannessNames] = [osNames, os, compilerNames, compiler, standard, cpuNames, cpu, dll] ++ [endiannessNames] from rfl, List.foldlM_append, p8]
    show (Text.run _ _).bind some = _
    rw [r9]; rfl
  have f10 : e9.lookup "CFG_ENDIANNESS" = none := by
    rw [frames [osNames, os, compilerNames, compiler, standard, cpuNames, cpu, dll, endiannessNames] e e9 p9 _ (by decide +kernel)]
    exact h.own _ (by decide +kernel)
  have q9 : ∀ x, x ∉ dll.assigned → x ∉ endiannessNames.assigned → x ∉ cpu.assigned → e9.lookup x = e6.lookup x := by
    intro x h1 h2 h3
    rw [Text.frame r9 h2, Text.frame r8 h1, Text.frame r7 h3]
  have o9 : e9.lookup "CFG_OS_NAME" = some (.name (systemName s)) := by rw [q9 _ (by decide +kernel) (by decide +kernel) (by decide +kernel), o6]
  have w9 : e9.lookup "CFG_OS" = some (.name (family s)) := by rw [q9 _ (by decide +kernel) (by decide +kernel) (by decide +kernel), w6]
  have k9 : Consts e9 osNamesList := by
    intro p hp
    rw [q9 _ (by revert p; decide +kernel) (by revert p; decide +kernel) (by revert p; decide +kernel)]
    exact k6 p hp
  have val : ∀ x n, x ∉ own → Stands e x n → value e9 x = some n := fun x n hx hs => stands_value (hs.agree (a9 x hx) (nn e9 a9))
  obtain ⟨b, hb⟩ := h.numbers "__BYTE_ORDER__" (by simp)
  obtain ⟨w, hw⟩ := h.numbers "__FLOAT_WORD_ORDER__" (by simp)
  obtain ⟨l, hl⟩ := h.numbers "__ORDER_LITTLE_ENDIAN__" (by simp)
  obtain ⟨g, hg⟩ := h.numbers "__ORDER_BIG_ENDIAN__" (by simp)
  obtain ⟨e10, r10, en⟩ := run_endianness e9 f10 s b w l g (emscripten_eval o9 k9) (windows_eval w9 k9) (val _ _ (by decide +kernel) hb) (val _ _ (by decide +kernel) hw)
    (val _ _ (by decide +kernel) hl) (val _ _ (by decide +kernel) hg)
  have a10 := frm endianness e9 e10 (by simp) r10 a9
  have p10 : [osNames, os, compilerNames, compiler, standard, cpuNames, cpu, dll, endiannessNames, endianness].foldlM (fun e t => t.run e) e = some e10 := by
    rw [show [osNames, os, compilerNames, compiler, standard, cpuNames, cpu, dll, endiannessNames, endianness] = [osNames, os, compilerNames, compiler, standard, cpuNames, cpu, dll, endiannessNames] ++ [endianness] from rfl, List.foldlM_append, p9]
    show (Text.run _ _).bind some = _
    rw [r10]; rfl
  have t1 : [os, compilerNames, compiler, standard, cpuNames, cpu, dll, endiannessNames, endianness].foldlM (fun e t => t.run e) e1 = some e10 := by
    simp only [List.foldlM_cons, List.foldlM_nil, Option.bind_eq_bind, Option.bind_some, Option.pure_def, r2, r3, r4, r5, r6, r7, r8, r9, r10]
  have t2 : [compilerNames, compiler, standard, cpuNames, cpu, dll, endiannessNames, endianness].foldlM (fun e t => t.run e) e2 = some e10 := by
    simp only [List.foldlM_cons, List.foldlM_nil, Option.bind_eq_bind, Option.bind_some, Option.pure_def, r3, r4, r5, r6, r7, r8, r9, r10]
  have t3 : [compiler, standard, cpuNames, cpu, dll, endiannessNames, endianness].foldlM (fun e t => t.run e) e3 = some e10 := by
    simp only [List.foldlM_cons, List.foldlM_nil, Option.bind_eq_bind, Option.bind_some, Option.pure_def, r4, r5, r6, r7, r8, r9, r10]
  have t4 : [standard, cpuNames, cpu, dll, endiannessNames, endianness].foldlM (fun e t => t.run e) e4 = some e10 := by
    simp only [List.foldlM_cons, List.foldlM_nil, Option.bind_eq_bind, Option.bind_some, Option.pure_def, r5, r6, r7, r8, r9, r10]
  have t5 : [cpuNames, cpu, dll, endiannessNames, endianness].foldlM (fun e t => t.run e) e5 = some e10 := by
    simp only [List.foldlM_cons, List.foldlM_nil, Option.bind_eq_bind, Option.bind_some, Option.pure_def, r6, r7, r8, r9, r10]
  have t6 : [cpu, dll, endiannessNames, endianness].foldlM (fun e t => t.run e) e6 = some e10 := by
    simp only [List.foldlM_cons, List.foldlM_nil, Option.bind_eq_bind, Option.bind_some, Option.pure_def, r7, r8, r9, r10]
  have t7 : [dll, endiannessNames, endianness].foldlM (fun e t => t.run e) e7 = some e10 := by
    simp only [List.foldlM_cons, List.foldlM_nil, Option.bind_eq_bind, Option.bind_some, Option.pure_def, r8, r9, r10]
  have t8 : [endiannessNames, endianness].foldlM (fun e t => t.run e) e8 = some e10 := by
    simp only [List.foldlM_cons, List.foldlM_nil, Option.bind_eq_bind, Option.bind_some, Option.pure_def, r9, r10]
  have t9 : [endianness].foldlM (fun e t => t.run e) e9 = some e10 := by
    simp only [List.foldlM_cons, List.foldlM_nil, Option.bind_eq_bind, Option.bind_some, Option.pure_def, r10]
  have kc : ∀ (l : List Text) (ek : Env) (cs : List (String × Int)), l.foldlM (fun e t => t.run e) ek = some e10 → Consts ek cs → (∀ p ∈ cs, ∀ t ∈ l, p.1 ∉ t.assigned) → Consts e10 cs := by
    intro l ek cs hl hc hd p hp
    rw [frames l ek e10 hl _ (hd p hp)]
    exact hc p hp
  have isd : ∀ (ek : Env), (∀ x, x ∉ own → ek.lookup x = e.lookup x) → ∀ x, x ∉ own → isDef ek x = isDef e x := fun ek ha x hx => isDef_congr (ha x hx)
  have cpuEq : cpuCode e6 c s = cpuCode e c s := by
    unfold cpuCode gccCode msvcCode
    simp only [isd e6 a6 _ (show "__i386__" ∉ own by decide +kernel), isd e6 a6 _ (show "__x86_64__" ∉ own by decide +kernel), isd e6 a6 _ (show "__arm__" ∉ own by decide +kernel),
      isd e6 a6 _ (show "__aarch64__" ∉ own by decide +kernel), isd e6 a6 _ (show "_M_IX86" ∉ own by decide +kernel), isd e6 a6 _ (show "_M_AMD64" ∉ own by decide +kernel),
      isd e6 a6 _ (show "_M_X64" ∉ own by decide +kernel)]
  have dllEq : dllCode e7 c s = dllCode e c s := by
    unfold dllCode
    simp only [isd e7 a7 _ (show "_USRDLL" ∉ own by decide +kernel)]
  have ordEq : orderCode e9 s b w l g = orderCode e s b w l g := by
    have anyc : ∀ l : List String, (∀ x ∈ l, x ∉ own) → l.any (isDef e9) = l.any (isDef e) := by
      intro l hl
      induction l with
      | nil => rfl
      | cons x l ih => rw [List.any_cons, List.any_cons, ih (fun y hy => hl y (List.mem_cons_of_mem _ hy)), isd e9 a9 x (hl x List.mem_cons_self)]
    have big : Spec.Config.saysBig.any (isDef e9) = Spec.Config.saysBig.any (isDef e) :=
      anyc _ (by decide +kernel)
    have little : Spec.Config.saysLittle.any (isDef e9) = Spec.Config.saysLittle.any (isDef e) :=
      anyc _ (by decide +kernel)
    unfold orderCode
    rw [big, little, isd e9 a9 _ (show "__ORDER_BIG_ENDIAN__" ∉ own by decide +kernel), isd e9 a9 _ (show "__ORDER_LITTLE_ENDIAN__" ∉ own by decide +kernel)]
  refine ⟨e10, p10, a10, kc _ e1 _ t1 c1 (by decide +kernel), kc _ e3 _ t3 c3 (by decide +kernel), kc _ e6 _ t6 c6 (by decide +kernel), kc _ e9 _ t9 c9 (by decide +kernel),
    ?_, ?_, ?_, ?_, ?_, ?_, ?_, ?_, ?_, ?_, ?_, ?_, ?_, ?_, ?_, ?_⟩
  · rw [frames [compilerNames, compiler, standard, cpuNames, cpu, dll, endiannessNames, endianness] e2 e10 t2 _ (by decide +kernel), os1]
  · rw [frames [compilerNames, compiler, standard, cpuNames, cpu, dll, endiannessNames, endianness] e2 e10 t2 _ (by decide +kernel), os2]
  · rw [frames [standard, cpuNames, cpu, dll, endiannessNames, endianness] e4 e10 t4 _ (by decide +kernel), co1]
  · intro v hv; rw [frames [standard, cpuNames, cpu, dll, endiannessNames, endianness] e4 e10 t4 _ (by decide +kernel), co2 v hv]
  · intro hv; rw [frames [standard, cpuNames, cpu, dll, endiannessNames, endianness] e4 e10 t4 _ (by decide +kernel), co3 hv]
  · rw [frames [cpuNames, cpu, dll, endiannessNames, endianness] e5 e10 t5 _ (by decide +kernel), st]
  · rw [frames [dll, endiannessNames, endianness] e7 e10 t7 _ (by decide +kernel), cp1, cpuEq]
  · rw [frames [dll, endiannessNames, endianness] e7 e10 t7 _ (by decide +kernel), cp2, cpuEq]
  · rw [frames [endiannessNames, endianness] e8 e10 t8 _ (by decide +kernel), dl, dllEq]
  · intro b' w' l' g' hb' hw' hl' hg'
    have det : ∀ x n n', Stands e x n → Stands e x n' → n = n' := fun x n n' h1 h2 => Option.some.inj ((stands_value h1).symm.trans (stands_value h2))
    rw [en, ordEq, det _ _ _ hb hb', det _ _ _ hw hw', det _ _ _ hl hl', det _ _ _ hg hg']
  · rw [frames [compilerNames, compiler, standard, cpuNames, cpu, dll, endiannessNames, endianness] e2 e10 t2 _ (by decide +kernel), os3]
  · rw [frames [compilerNames, compiler, standard, cpuNames, cpu, dll, endiannessNames, endianness] e2 e10 t2 _ (by decide +kernel), os4]
  · rw [frames [standard, cpuNames, cpu, dll, endiannessNames, endianness] e4 e10 t4 _ (by decide +kernel), co4]
  · rw [frames [standard, cpuNames, cpu, dll, endiannessNames, endianness] e4 e10 t4 _ (by decide +kernel), co5]
  · rw [frames [standard, cpuNames, cpu, dll, endiannessNames, endianness] e4 e10 t4 _ (by decide +kernel), co6]
  · intro n' hn'
    have det : ix = n' := Option.some.inj ((stands_value hix).symm.trans (stands_value hn'))
    rw [frames [dll, endiannessNames, endianness] e7 e10 t7 _ (by decide +kernel), cp3, ← det]
    have any6 : ∀ l : List String, (∀ x ∈ l, x ∉ own) → l.any (isDef e6) = l.any (isDef e) := fun l hl => any_isDef_congr l (fun x hx => a6 x (hl x hx))
    have hd : ∀ x, x ∉ own → isDef e6 x = isDef e x := isd e6 a6
    unfold versionCode gccVersion msvcVersion
    simp only [hd _ (show "__i386__" ∉ own by decide +kernel), hd _ (show "__i686__" ∉ own by decide +kernel), hd _ (show "__i586__" ∉ own by decide +kernel),
      hd _ (show "__i486__" ∉ own by decide +kernel), hd _ (show "__x86_64__" ∉ own by decide +kernel), hd _ (show "__arm__" ∉ own by decide +kernel),
      hd _ (show "__aarch64__" ∉ own by decide +kernel), hd _ (show "_M_IX86" ∉ own by decide +kernel), any6 (Spec.Config.armNames 7) (by decide +kernel),
      any6 (Spec.Config.armNames 6) (by decide +kernel), any6 (Spec.Config.armNames 5) (by decide +kernel), any6 (Spec.Config.armNames 4) (by decide +kernel)]

/-- The number of the processor. -/
def cpuNum : Spec.Config.Cpu → Int
  | .x86 => 1
  | .x86_64 => 2
  | .arm32 | .arm64 => 3
  | .wasm32 => 4

/-- The number of the order. -/
def orderNum : Spec.Config.Order → Int
  | .little => 1
  | .big => 2

theorem cpuName_mem (p : Spec.Config.Cpu) : (Spec.Config.cpuName p, cpuNum p) ∈ cpuNamesList := by cases p <;> decide +kernel

theorem cpu_mem (e : Env) (c : Compiler) (s : System) : ∃ m, ((cpuCode e c s).1, m) ∈ cpuNamesList ∧ (cpuCode e c s).1 ≠ "CFG_CPU" := by
  have h : (cpuCode e c s).1 ∈ ["CFG_CPU_UNKNOWN", "CFG_CPU_X86", "CFG_CPU_X86_64", "CFG_CPU_ARM", "CFG_CPU_WASM"] := by
    unfold cpuCode gccCode msvcCode
    cases c <;> simp only <;> repeat' split
    all_goals simp
  simp only [List.mem_cons, List.not_mem_nil, or_false] at h
  rcases h with h | h | h | h | h <;> rw [h]
  · exact ⟨0, by decide +kernel⟩
  · exact ⟨1, by decide +kernel⟩
  · exact ⟨2, by decide +kernel⟩
  · exact ⟨3, by decide +kernel⟩
  · exact ⟨4, by decide +kernel⟩

theorem order_mem (e : Env) (s : System) (b w l g : Int) : ∃ m, (orderCode e s b w l g, m) ∈ endiannessNamesList ∧ orderCode e s b w l g ≠ "CFG_ENDIANNESS" := by
  unfold orderCode
  repeat' split
  · exact ⟨1, by decide +kernel⟩
  · exact ⟨1, by decide +kernel⟩
  · exact ⟨2, by decide +kernel⟩
  · exact ⟨1, by decide +kernel⟩
  · exact ⟨0, by decide +kernel⟩

theorem cpu_eval {e : Env} {p : Spec.Config.Cpu} (he : e.lookup "CFG_CPU" = some (.name (Spec.Config.cpuName p))) (hk : Consts e cpuNamesList) {z : String} {n : Int}
    (hz : (z, n) ∈ cpuNamesList) : (Cond.eq "CFG_CPU" z).eval e = some (cpuNum p == n) :=
  eq_eval he (by cases p <;> decide) (hk _ (cpuName_mem p)) (hk _ hz)

theorem cpuCode_right {e : Env} {c : Compiler} {s : System} {p : Spec.Config.Cpu} (hp : Spec.Config.RunsOn e c s p)
    (hk : c = .gcc ∨ ((∃ v, c = .msvc v) ∧ (p = .x86 ∨ p = .x86_64)) ∨ p = .wasm32) : cpuCode e c s = (Spec.Config.cpuName p, Spec.Config.bits p) := by
  rcases hk with rfl | ⟨⟨v, rfl⟩, rfl | rfl⟩ | rfl
  · cases p <;> simp only [Spec.Config.RunsOn, Have, Lack, List.mem_cons, List.not_mem_nil, or_false, forall_eq_or_imp, forall_eq] at hp
    · obtain ⟨hs, h1⟩ := hp
      simp [cpuCode, gccCode, hs, isDef_true h1, Spec.Config.cpuName, Spec.Config.bits]
    · obtain ⟨hs, h1, h2⟩ := hp
      simp [cpuCode, gccCode, hs, isDef_true h1, isDef_false h2, Spec.Config.cpuName, Spec.Config.bits]
    · obtain ⟨hs, h1, h2, h3⟩ := hp
      simp [cpuCode, gccCode, hs, isDef_true h1, isDef_false h2, isDef_false h3, Spec.Config.cpuName, Spec.Config.bits]
    · obtain ⟨hs, h1, h2, h3, h4⟩ := hp
      simp [cpuCode, gccCode, hs, isDef_true h1, isDef_false h2, isDef_false h3, isDef_false h4, Spec.Config.cpuName, Spec.Config.bits]
    · simp [cpuCode, hp, Spec.Config.cpuName, Spec.Config.bits]
  · obtain ⟨hs, h1, _⟩ := hp
    simp [cpuCode, msvcCode, hs, isDef_true (h1 "_M_IX86" (by simp)), Spec.Config.cpuName, Spec.Config.bits]
  · obtain ⟨hs, ⟨x, hx, h1⟩, h2⟩ := hp
    simp only [List.mem_cons, List.not_mem_nil, or_false] at hx
    rcases hx with rfl | rfl <;>
    simp [cpuCode, msvcCode, hs, isDef_true h1, isDef_false (h2 "_M_IX86" (by simp)), Spec.Config.cpuName, Spec.Config.bits]
  · have hs : s = .emscripten := hp
    simp [cpuCode, hs, Spec.Config.cpuName, Spec.Config.bits]

theorem cpuCode_wrong {e : Env} {c : Compiler} {s : System} {p : Spec.Config.Cpu} (hp : Spec.Config.RunsOn e c s p)
    (hk : (c = .clang ∧ p ≠ .wasm32) ∨ ((∃ v, c = .msvc v) ∧ (p = .arm32 ∨ p = .arm64))) : cpuCode e c s = ("CFG_CPU_UNKNOWN", 0) := by
  rcases hk with ⟨rfl, hw⟩ | ⟨⟨v, rfl⟩, rfl | rfl⟩
  · have hs : s ≠ .emscripten := by
      cases p
      · exact hp.1
      · exact hp.1
      · exact hp.1
      · exact hp.1
      · exact absurd rfl hw
    simp [cpuCode, hs]
  · obtain ⟨hs, _, h2⟩ := hp
    simp [cpuCode, msvcCode, hs, isDef_false (h2 "_M_IX86" (by simp)), isDef_false (h2 "_M_AMD64" (by simp)), isDef_false (h2 "_M_X64" (by simp))]
  · obtain ⟨hs, _, h2⟩ := hp
    simp [cpuCode, msvcCode, hs, isDef_false (h2 "_M_IX86" (by simp)), isDef_false (h2 "_M_AMD64" (by simp)), isDef_false (h2 "_M_X64" (by simp))]

theorem stands_unique {e : Env} {x : String} {n n' : Int} (h1 : Stands e x n) (h2 : Stands e x n') : n = n' := Option.some.inj ((stands_value h1).symm.trans (stands_value h2))

theorem any_false {e : Env} {l : List String} (h : Lack e l) : l.any (isDef e) = false := by
  rw [List.any_eq_false]
  intro x hx
  rw [isDef_false (h x hx)]; simp

theorem any_true {e : Env} {l : List String} (h : HaveOne e l) : l.any (isDef e) = true := by
  obtain ⟨x, hx, h⟩ := h
  rw [List.any_eq_true]
  exact ⟨x, hx, isDef_true h⟩

theorem orderCode_right {e : Env} {s : System} {b w l g f : Int} {o : Spec.Config.Order} (hs1 : s ≠ .windows) (hs2 : s ≠ .emscripten) (ho : Spec.Config.Stores e f o)
    (hf : f = 0 ∨ f = Spec.Config.mark o) (hb : Stands e "__BYTE_ORDER__" b) (hw : Stands e "__FLOAT_WORD_ORDER__" w)
    (hl : Stands e "__ORDER_LITTLE_ENDIAN__" l) (hg : Stands e "__ORDER_BIG_ENDIAN__" g) : orderCode e s b w l g = Spec.Config.orderName o := by
  cases o with
  | little =>
    obtain ⟨h1, h2, ⟨h3, h4, h5, h6⟩ | ⟨h3, h4, _⟩⟩ := ho
    · cases stands_unique hw h2
      cases stands_unique hb h6
      cases stands_unique hl h4
      cases stands_unique hg h5
      have : ¬ (w = 4321) := by rcases hf with h | h <;> simp [h, Spec.Config.mark]
      simp [orderCode, hs1, hs2, any_false h1, isDef_true (h3 "__ORDER_LITTLE_ENDIAN__" (by simp)), this, Spec.Config.orderName]
    · simp [orderCode, hs1, hs2, any_false h1, isDef_false (h4 "__ORDER_LITTLE_ENDIAN__" (by simp)), isDef_false (h4 "__ORDER_BIG_ENDIAN__" (by simp)), any_true h3,
        Spec.Config.orderName]
  | big =>
    obtain ⟨h1, h2, ⟨h3, h4, h5, h6⟩ | ⟨h3, h4, _⟩⟩ := ho
    · cases stands_unique hb h6
      cases stands_unique hg h5
      simp [orderCode, hs1, hs2, isDef_true (h3 "__ORDER_BIG_ENDIAN__" (by simp)), Spec.Config.orderName]
    · simp [orderCode, hs1, hs2, any_true h3, Spec.Config.orderName]

end Config
end Utki
