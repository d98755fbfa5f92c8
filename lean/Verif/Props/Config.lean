import Verif.Lemmas.Config
import Mathlib.Tactic.SplitIfs
import Mathlib.Tactic.ByContra
/-!
# C119: the macros of config.hpp

For all sets of predefined macros a compiler may come with. `Spec/Config.lean` says what compilers predefine.
-/
namespace Utki
open Cpp Config Spec.Config

/-- C119: config.hpp can be included, the result is determined, and only its own macros are changed; the macros that have a number can be compared with. -/
theorem C119_wellformed {e : Env} {s : System} {c : Compiler} {n : Int} (h : Compilation e s c n) :
    ∃ e', config e = some e' ∧ (∀ x, x ∉ own → e'.lookup x = e.lookup x) ∧ isDef e' "DLLEXPORT" = true ∧
    ∀ x ∈ ["CFG_OS", "CFG_OS_NAME", "CFG_COMPILER", "CFG_CPP", "CFG_CPU", "CFG_CPU_BITS", "CFG_ENDIANNESS"], isDef e' x = true ∧ ∃ n, value e' x = some n := by
  obtain ⟨e', h1, h2, k1, k2, k3, k4, o1, o2, c1, _, _, st, p1, p2, d, en, _⟩ := config_run h
  obtain ⟨b, hb⟩ := h.numbers "__BYTE_ORDER__" (by simp)
  obtain ⟨w, hw⟩ := h.numbers "__FLOAT_WORD_ORDER__" (by simp)
  obtain ⟨l, hl⟩ := h.numbers "__ORDER_LITTLE_ENDIAN__" (by simp)
  obtain ⟨g, hg⟩ := h.numbers "__ORDER_BIG_ENDIAN__" (by simp)
  replace en := en b w l g hb hw hl hg
  have hd : ∀ x b, e'.lookup x = some b → isDef e' x = true := fun x b hx => by unfold isDef; rw [hx]; rfl
  refine ⟨e', h1, h2, hd _ _ d, ?_⟩
  intro x hx
  simp only [List.mem_cons, List.not_mem_nil, or_false] at hx
  rcases hx with rfl | rfl | rfl | rfl | rfl | rfl | rfl
  · exact ⟨hd _ _ o1, _, value_alias o1 (family_mem s).2 (k1 _ (family_mem s).1)⟩
  · exact ⟨hd _ _ o2, _, value_alias o2 (system_mem s).2 (k1 _ (system_mem s).1)⟩
  · exact ⟨hd _ _ c1, _, value_alias c1 (compiler_mem c).2 (k2 _ (compiler_mem c).1)⟩
  · exact ⟨hd _ _ st, _, value_num st⟩
  · obtain ⟨m, hm, hne⟩ := cpu_mem e c s
    exact ⟨hd _ _ p1, _, value_alias p1 hne (k3 (_, m) hm)⟩
  · exact ⟨hd _ _ p2, _, value_num p2⟩
  · obtain ⟨m, hm, hne⟩ := order_mem e s b w l g
    exact ⟨hd _ _ en, _, value_alias en hne (k4 _ hm)⟩

/-- C119: `CFG_OS` tells the family of the operating system and `CFG_OS_NAME` its name. -/
theorem C119_system {e e' : Env} {s : System} {c : Compiler} {n : Int} (h : Compilation e s c n) (he : config e = some e') :
    Selects e' "CFG_OS" (family s) families ∧ Selects e' "CFG_OS_NAME" (systemName s) systemNames := by
  obtain ⟨e'', h1, _, k1, _, _, _, o1, o2, _⟩ := config_run h
  cases he.symm.trans h1
  refine ⟨fun z hz => ?_, fun z hz => ?_⟩
  · simp only [families, List.mem_cons, List.not_mem_nil, or_false] at hz
    rcases hz with rfl | rfl | rfl | rfl | rfl
    · rw [family_eval o1 k1 (n := 0) (by decide +kernel)]; cases s <;> decide
    · rw [family_eval o1 k1 (n := 1) (by decide +kernel)]; cases s <;> decide
    · rw [family_eval o1 k1 (n := 2) (by decide +kernel)]; cases s <;> decide
    · rw [family_eval o1 k1 (n := 3) (by decide +kernel)]; cases s <;> decide
    · rw [family_eval o1 k1 (n := 4) (by decide +kernel)]; cases s <;> decide
  · simp only [systemNames, List.mem_cons, List.not_mem_nil, or_false] at hz
    rcases hz with rfl | rfl | rfl | rfl | rfl | rfl | rfl
    · rw [system_eval o2 k1 (n := 0) (by decide +kernel)]; cases s <;> decide
    · rw [system_eval o2 k1 (n := 1) (by decide +kernel)]; cases s <;> decide
    · rw [system_eval o2 k1 (n := 2) (by decide +kernel)]; cases s <;> decide
    · rw [system_eval o2 k1 (n := 3) (by decide +kernel)]; cases s <;> decide
    · rw [system_eval o2 k1 (n := 4) (by decide +kernel)]; cases s <;> decide
    · rw [system_eval o2 k1 (n := 5) (by decide +kernel)]; cases s <;> decide
    · rw [system_eval o2 k1 (n := 6) (by decide +kernel)]; cases s <;> decide

/-- C119: `CFG_COMPILER` tells the compiler; Clang, and Microsoft's compiler, are not taken for GCC although they may claim to be it. -/
theorem C119_compiler {e e' : Env} {s : System} {c : Compiler} {n : Int} (h : Compilation e s c n) (he : config e = some e') :
    Selects e' "CFG_COMPILER" (compilerName c) Spec.Config.compilerNames := by
  obtain ⟨e'', h1, _, _, k2, _, _, _, _, c1, _⟩ := config_run h
  cases he.symm.trans h1
  intro z hz
  simp only [Spec.Config.compilerNames, List.mem_cons, List.not_mem_nil, or_false] at hz
  rcases hz with rfl | rfl | rfl | rfl
  · rw [compiler_eval c1 k2 (n := 0) (by decide +kernel)]; cases c <;> simp [compilerNum, compilerName]
  · rw [compiler_eval c1 k2 (n := 1) (by decide +kernel)]; cases c <;> simp [compilerNum, compilerName]
  · rw [compiler_eval c1 k2 (n := 2) (by decide +kernel)]; cases c <;> simp [compilerNum, compilerName]
  · rw [compiler_eval c1 k2 (n := 3) (by decide +kernel)]; cases c <;> simp [compilerNum, compilerName]

/-- C119, as far as it holds: `CFG_COMPILER_MSVC_TOOLS_V` is the version of the tools for the compilers of Visual Studio 2015, 2017 from 15.9 on, the last ones of 2019, and 2022; it is
defined for no other compiler. Missing: the earlier versions of 2017 and 2019, see `C119_tools_refuted`. -/
theorem C119_tools_partial {e e' : Env} {s : System} {c : Compiler} {n : Int} (h : Compilation e s c n) (he : config e = some e') :
    (∀ v, c = .msvc v → v < 1910 ∨ (1916 ≤ v ∧ v < 1920) ∨ 1929 ≤ v → value e' "CFG_COMPILER_MSVC_TOOLS_V" = some (toolset v)) ∧
    ((∀ v, c ≠ .msvc v) → isDef e' "CFG_COMPILER_MSVC_TOOLS_V" = false) := by
  obtain ⟨e'', h1, _, _, _, _, _, _, _, _, c2, c3, _⟩ := config_run h
  cases he.symm.trans h1
  refine ⟨fun v hc hv => ?_, fun hc => isDef_false (c3 hc)⟩
  rw [value_num (c2 v hc)]
  unfold toolsCode toolset
  congr 1
  split_ifs <;> first | rfl | omega

/-- C119 is false for the versions of the tools: all compilers of Visual Studio 2017 before 15.9 and of 2019 before 16.10 are taken for those of the previous release. With the latter,
`index_of` for `std::variant` is not there although it was meant to be, variant.hpp 49-50. -/
theorem C119_tools_refuted {e e' : Env} {s : System} {v n : Int} (h : Compilation e s (.msvc v) n) (he : config e = some e') (hv : (1910 ≤ v ∧ v < 1916) ∨ (1920 ≤ v ∧ v < 1929)) :
    value e' "CFG_COMPILER_MSVC_TOOLS_V" = some (toolset v - 1) := by
  obtain ⟨e'', h1, _, _, _, _, _, _, _, _, c2, _⟩ := config_run h
  cases he.symm.trans h1
  rw [value_num (c2 v rfl)]
  unfold toolsCode toolset
  congr 1
  split_ifs <;> first | rfl | omega

/-- C119, as far as it holds: `CFG_CPP` is the standard compiled for, up to C++20, and never one that is newer. Missing: C++23 and C++26, see `C119_standard_refuted`. -/
theorem C119_standard_partial {e e' : Env} {s : System} {c : Compiler} {n : Int} (h : Compilation e s c n) (he : config e = some e') :
    (∀ k, (n, k) ∈ standards → k ≤ 20 → value e' "CFG_CPP" = some k) ∧ (∀ k, (n, k) ∈ standards → ∃ m, value e' "CFG_CPP" = some m ∧ m ≤ k) := by
  obtain ⟨e'', h1, _, _, _, _, _, _, _, _, _, _, st, _⟩ := config_run h
  cases he.symm.trans h1
  rw [value_num st]
  unfold standards
  refine ⟨fun k hk hl => ?_, fun k hk => ⟨_, rfl, ?_⟩⟩
  · simp only [List.mem_cons, Prod.mk.injEq, List.not_mem_nil, or_false] at hk
    rcases hk with ⟨rfl, rfl⟩ | ⟨rfl, rfl⟩ | ⟨rfl, rfl⟩ | ⟨rfl, rfl⟩ | ⟨rfl, rfl⟩ | ⟨rfl, rfl⟩ | ⟨rfl, rfl⟩ <;> first | rfl | omega
  · simp only [List.mem_cons, Prod.mk.injEq, List.not_mem_nil, or_false] at hk
    rcases hk with ⟨rfl, rfl⟩ | ⟨rfl, rfl⟩ | ⟨rfl, rfl⟩ | ⟨rfl, rfl⟩ | ⟨rfl, rfl⟩ | ⟨rfl, rfl⟩ | ⟨rfl, rfl⟩ <;> decide

/-- C119 is false for newer standards: `CFG_CPP` is never more than 20, so that `#if CFG_CPP >= 26`, span.hpp 47 and 58, is never true, whatever is compiled for. -/
theorem C119_standard_refuted {e e' : Env} {s : System} {c : Compiler} {n : Int} (h : Compilation e s c n) (he : config e = some e') :
    (Cond.gt "CFG_CPP" 25).eval e' = some false ∧ (n = 202302 ∨ n = 202400 → value e' "CFG_CPP" = some 20) := by
  obtain ⟨e'', h1, _, _, _, _, _, _, _, _, _, _, st, _⟩ := config_run h
  cases he.symm.trans h1
  refine ⟨?_, ?_⟩
  · simp only [Cond.eval, value_num st]
    unfold cppCode
    split_ifs <;> rfl
  · rintro (rfl | rfl) <;> exact value_num st

/-- C119: a newer standard never gives a smaller `CFG_CPP`. -/
theorem C119_standard_monotone {e₁ e₂ e₁' e₂' : Env} {s₁ s₂ : System} {c₁ c₂ : Compiler} {n₁ n₂ : Int} (h₁ : Compilation e₁ s₁ c₁ n₁) (h₂ : Compilation e₂ s₂ c₂ n₂)
    (he₁ : config e₁ = some e₁') (he₂ : config e₂ = some e₂') (hn : n₁ ≤ n₂) : ∃ k₁ k₂, value e₁' "CFG_CPP" = some k₁ ∧ value e₂' "CFG_CPP" = some k₂ ∧ k₁ ≤ k₂ := by
  obtain ⟨_, g1, _, _, _, _, _, _, _, _, _, _, st1, _⟩ := config_run h₁
  cases he₁.symm.trans g1
  obtain ⟨_, g2, _, _, _, _, _, _, _, _, _, _, st2, _⟩ := config_run h₂
  cases he₂.symm.trans g2
  refine ⟨_, _, value_num st1, value_num st2, ?_⟩
  unfold cppCode
  split_ifs <;> omega

/-- C119, as far as it holds: `CFG_CPU` and `CFG_CPU_BITS` tell the processor when compiled with GCC, with Microsoft's compiler for x86 and x86-64, or with Emscripten. Missing: Clang, and
Microsoft's compiler for ARM, see `C119_cpu_refuted`. -/
theorem C119_cpu_partial {e e' : Env} {s : System} {c : Compiler} {n : Int} (h : Compilation e s c n) (he : config e = some e') (p : Cpu) (hp : RunsOn e c s p)
    (hk : c = .gcc ∨ ((∃ v, c = .msvc v) ∧ (p = .x86 ∨ p = .x86_64)) ∨ p = .wasm32) :
    Selects e' "CFG_CPU" (cpuName p) Spec.Config.cpuNames ∧ value e' "CFG_CPU_BITS" = some (bits p) := by
  obtain ⟨e'', h1, _, _, _, k3, _, _, _, _, _, _, _, p1, p2, _⟩ := config_run h
  cases he.symm.trans h1
  rw [cpuCode_right hp hk] at p1 p2
  refine ⟨fun z hz => ?_, value_num p2⟩
  simp only [Spec.Config.cpuNames, List.mem_cons, List.not_mem_nil, or_false] at hz
  rcases hz with rfl | rfl | rfl | rfl | rfl
  · rw [cpu_eval p1 k3 (n := 0) (by decide +kernel)]; cases p <;> decide
  · rw [cpu_eval p1 k3 (n := 1) (by decide +kernel)]; cases p <;> decide
  · rw [cpu_eval p1 k3 (n := 2) (by decide +kernel)]; cases p <;> decide
  · rw [cpu_eval p1 k3 (n := 3) (by decide +kernel)]; cases p <;> decide
  · rw [cpu_eval p1 k3 (n := 4) (by decide +kernel)]; cases p <;> decide

/-- C119 is false for the processor with Clang (Emscripten aside) and with Microsoft's compiler for ARM: the processor is always unknown and has 0 bits. -/
theorem C119_cpu_refuted {e e' : Env} {s : System} {c : Compiler} {n : Int} (h : Compilation e s c n) (he : config e = some e') (p : Cpu) (hp : RunsOn e c s p)
    (hk : (c = .clang ∧ p ≠ .wasm32) ∨ ((∃ v, c = .msvc v) ∧ (p = .arm32 ∨ p = .arm64))) :
    (Cond.eq "CFG_CPU" "CFG_CPU_UNKNOWN").eval e' = some true ∧ (Cond.eq "CFG_CPU" (cpuName p)).eval e' = some false ∧ value e' "CFG_CPU_BITS" = some 0 := by
  obtain ⟨e'', h1, _, _, _, k3, _, _, _, _, _, _, _, p1, p2, _⟩ := config_run h
  cases he.symm.trans h1
  rw [cpuCode_wrong hp hk] at p1 p2
  have hu := k3 ("CFG_CPU_UNKNOWN", 0) (by decide +kernel)
  refine ⟨eq_eval p1 (by decide) hu hu, ?_, value_num p2⟩
  rw [eq_eval p1 (by decide) hu (k3 (cpuName p, cpuNum p) (cpuName_mem p))]
  cases p <;> rfl

/-- C119, as far as it holds: `CFG_ENDIANNESS` tells the order of the bytes of integers if that of the words of floating-point numbers is the same or not told, and on Windows and with
Emscripten, where it is always little endian. Missing: processors with different orders, see `C119_endianness_refuted`. -/
theorem C119_endianness_partial {e e' : Env} {s : System} {c : Compiler} {n : Int} (h : Compilation e s c n) (he : config e = some e') :
    (s = .windows ∨ s = .emscripten → Selects e' "CFG_ENDIANNESS" "CFG_ENDIANNESS_LITTLE" orderNames) ∧
    (s ≠ .windows → s ≠ .emscripten → ∀ o f, Stores e f o → (f = 0 ∨ f = mark o) → Selects e' "CFG_ENDIANNESS" (orderName o) orderNames) := by
  obtain ⟨e'', h1, _, _, _, _, k4, _, _, _, _, _, _, _, _, _, en, _⟩ := config_run h
  cases he.symm.trans h1
  obtain ⟨b, hb⟩ := h.numbers "__BYTE_ORDER__" (by simp)
  obtain ⟨w, hw⟩ := h.numbers "__FLOAT_WORD_ORDER__" (by simp)
  obtain ⟨l, hl⟩ := h.numbers "__ORDER_LITTLE_ENDIAN__" (by simp)
  obtain ⟨g, hg⟩ := h.numbers "__ORDER_BIG_ENDIAN__" (by simp)
  replace en := en b w l g hb hw hl hg
  have sel : ∀ o, e'.lookup "CFG_ENDIANNESS" = some (.name (orderName o)) → Selects e' "CFG_ENDIANNESS" (orderName o) orderNames := by
    intro o ho z hz
    simp only [orderNames, List.mem_cons, List.not_mem_nil, or_false] at hz
    rcases hz with rfl | rfl | rfl
    · rw [eq_eval ho (by cases o <;> decide) (k4 (orderName o, orderNum o) (by cases o <;> decide +kernel)) (k4 ("CFG_ENDIANNESS_UNKNOWN", 0) (by decide +kernel))]; cases o <;> decide
    · rw [eq_eval ho (by cases o <;> decide) (k4 (orderName o, orderNum o) (by cases o <;> decide +kernel)) (k4 ("CFG_ENDIANNESS_LITTLE", 1) (by decide +kernel))]; cases o <;> decide
    · rw [eq_eval ho (by cases o <;> decide) (k4 (orderName o, orderNum o) (by cases o <;> decide +kernel)) (k4 ("CFG_ENDIANNESS_BIG", 2) (by decide +kernel))]; cases o <;> decide
  refine ⟨fun hs => ?_, fun hs1 hs2 o f ho hf => ?_⟩
  · refine sel .little ?_
    rw [en]
    rcases hs with rfl | rfl <;> rfl
  · refine sel o ?_
    rw [en, orderCode_right hs1 hs2 ho hf hb hw hl hg]

/-- C119 is false for the byte order of a little-endian processor that stores the words of floating-point numbers in the opposite order (GCC for ARM processors with the FPA unit): it is said to be
big-endian. -/
theorem C119_endianness_refuted {e e' : Env} {s : System} {c : Compiler} {n : Int} (h : Compilation e s c n) (he : config e = some e') (hs1 : s ≠ .windows) (hs2 : s ≠ .emscripten)
    (ho : Stores e 4321 .little) (hd : Have e ["__ORDER_BIG_ENDIAN__"]) : (Cond.eq "CFG_ENDIANNESS" "CFG_ENDIANNESS_BIG").eval e' = some true := by
  obtain ⟨e'', h1, _, _, _, _, k4, _, _, _, _, _, _, _, _, _, en, _⟩ := config_run h
  cases he.symm.trans h1
  obtain ⟨b, hb⟩ := h.numbers "__BYTE_ORDER__" (by simp)
  obtain ⟨l, hl⟩ := h.numbers "__ORDER_LITTLE_ENDIAN__" (by simp)
  obtain ⟨hlack, hw, ⟨_, _, hg, _⟩ | ⟨_, hno, _⟩⟩ := ho
  · have hbig := en b 4321 l 4321 hb hw hl hg
    have : orderCode e s b 4321 l 4321 = "CFG_ENDIANNESS_BIG" := by
      simp [orderCode, hs1, hs2, isDef_true (hd "__ORDER_BIG_ENDIAN__" (by simp))]
    rw [this] at hbig
    have hk := k4 ("CFG_ENDIANNESS_BIG", 2) (by decide +kernel)
    exact eq_eval hbig (by decide) hk hk
  · exact absurd (hno "__ORDER_BIG_ENDIAN__" (by simp)) (hd "__ORDER_BIG_ENDIAN__" (by simp))

/-- C119: `DLLEXPORT` is empty, except with Microsoft's compiler on Windows, where it exports when a library is built, which `_USRDLL` tells, and imports otherwise. -/
theorem C119_dllexport {e e' : Env} {s : System} {c : Compiler} {n : Int} (h : Compilation e s c n) (he : config e = some e') :
    ((s = .windows ∧ ∃ v, c = .msvc v) → e'.lookup "DLLEXPORT" = some (if (e.lookup "_USRDLL").isSome then .text "__declspec(dllexport)" else .text "__declspec(dllimport)")) ∧
    (¬ (s = .windows ∧ ∃ v, c = .msvc v) → e'.lookup "DLLEXPORT" = some .blank) := by
  obtain ⟨e'', h1, _, _, _, _, _, _, _, _, _, _, _, _, _, d, _⟩ := config_run h
  cases he.symm.trans h1
  refine ⟨?_, fun hn => ?_⟩
  · rintro ⟨rfl, v, rfl⟩
    rw [d]
    by_cases hu : (e.lookup "_USRDLL").isSome = true <;> simp [dllCode, isDef, hu]
  · rw [d]
    cases s <;> cases c <;> first | rfl | exact absurd ⟨rfl, _, rfl⟩ hn

/-- C119: with GCC, the macros for the version of the compiler have the numbers of its version; they are not defined with another compiler. -/
theorem C119_compiler_version {e e' : Env} {s : System} {c : Compiler} {n : Int} (h : Compilation e s c n) (he : config e = some e') :
    ∀ x y, (x, y) ∈ [("CFG_COMPILER_VERSION_MAJOR", "__GNUC__"), ("CFG_COMPILER_VERSION_MINOR", "__GNUC_MINOR__"), ("CFG_COMPILER_VERSION_PATCH", "__GNUC_PATCHLEVEL__")] →
      (c = .gcc → isDef e' x = true ∧ ∀ k, Stands e y k → value e' x = some k) ∧ (c ≠ .gcc → isDef e' x = false) := by
  obtain ⟨e'', h1, hsame, _, _, _, _, _, _, _, _, _, _, _, _, _, _, _, _, v1, v2, v3, _⟩ := config_run h
  cases he.symm.trans h1
  have one : ∀ x y, y ≠ x → y ∉ own → e'.lookup x = (if c = .gcc then some (.name y) else none) →
      (c = .gcc → isDef e' x = true ∧ ∀ k, Stands e y k → value e' x = some k) ∧ (c ≠ .gcc → isDef e' x = false) := by
    intro x y hxy hy hx
    refine ⟨fun hc => ?_, fun hc => ?_⟩
    · rw [if_pos hc] at hx
      exact ⟨isDef_true (by rw [hx]; simp), fun k hk => value_stands hx hxy (hk.agree (hsame y hy) (fun z hz => hsame z (fun hm => hz (h.own z hm))))⟩
    · rw [if_neg hc] at hx
      exact isDef_false hx
  intro x y hxy
  simp only [List.mem_cons, Prod.mk.injEq, List.not_mem_nil, or_false] at hxy
  rcases hxy with ⟨rfl, rfl⟩ | ⟨rfl, rfl⟩ | ⟨rfl, rfl⟩
  · exact one _ _ (by decide) (by decide +kernel) v1
  · exact one _ _ (by decide) (by decide +kernel) v2
  · exact one _ _ (by decide) (by decide +kernel) v3

/-- C119: on iOS and macOS, the macro for the deployment target has the number of the oldest version of the system to run on; it is not defined elsewhere. -/
theorem C119_deployment {e e' : Env} {s : System} {c : Compiler} {n : Int} (h : Compilation e s c n) (he : config e = some e') :
    ∀ x y t, (x, y, t) ∈ [("CFG_IOS_DEPLOYMENT_TARGET", "__IPHONE_OS_VERSION_MIN_REQUIRED", System.ios), ("CFG_MACOSX_DEPLOYMENT_TARGET", "__MAC_OS_X_VERSION_MIN_REQUIRED", .macos)] →
      (s = t → isDef e' x = true ∧ ∀ k, Stands e y k → value e' x = some k) ∧ (s ≠ t → isDef e' x = false) := by
  obtain ⟨e'', h1, hsame, _, _, _, _, _, _, _, _, _, _, _, _, _, _, v1, v2, _⟩ := config_run h
  cases he.symm.trans h1
  have one : ∀ x y t, y ≠ x → y ∉ own → e'.lookup x = (if s = t then some (.name y) else none) →
      (s = t → isDef e' x = true ∧ ∀ k, Stands e y k → value e' x = some k) ∧ (s ≠ t → isDef e' x = false) := by
    intro x y t hxy hy hx
    refine ⟨fun hc => ?_, fun hc => ?_⟩
    · rw [if_pos hc] at hx
      exact ⟨isDef_true (by rw [hx]; simp), fun k hk => value_stands hx hxy (hk.agree (hsame y hy) (fun z hz => hsame z (fun hm => hz (h.own z hm))))⟩
    · rw [if_neg hc] at hx
      exact isDef_false hx
  intro x y t hxy
  simp only [List.mem_cons, Prod.mk.injEq, List.not_mem_nil, or_false] at hxy
  rcases hxy with ⟨rfl, rfl, rfl⟩ | ⟨rfl, rfl, rfl⟩
  · exact one _ _ _ (by decide) (by decide +kernel) v1
  · exact one _ _ _ (by decide) (by decide +kernel) v2

/-- C119, as far as it holds: `CFG_CPU_VERSION` is the version of the architecture: 3 to 6 for x86, by the macros of GCC and Microsoft's compiler, 4 to 7 for ARM with GCC when it tells the version
by one of the macros config.hpp knows, and 8 for 64-bit ARM with GCC. Missing: the other macros of GCC, see `C119_cpu_version_refuted`. -/
theorem C119_cpu_version_partial {e e' : Env} {s : System} {c : Compiler} {n : Int} (h : Compilation e s c n) (he : config e = some e') (p : Cpu) (hp : RunsOn e c s p) :
    (c = .gcc → p = .x86 → (Have e ["__i686__"] → value e' "CFG_CPU_VERSION" = some 6) ∧
      (Have e ["__i586__"] → Lack e ["__i686__"] → value e' "CFG_CPU_VERSION" = some 5) ∧
      (Have e ["__i486__"] → Lack e ["__i686__", "__i586__"] → value e' "CFG_CPU_VERSION" = some 4) ∧
      (Lack e ["__i686__", "__i586__", "__i486__"] → value e' "CFG_CPU_VERSION" = some 3)) ∧
    (∀ v, c = .msvc v → p = .x86 → ∀ k ∈ [3, 4, 5, 6], Stands e "_M_IX86" (100 * k) → value e' "CFG_CPU_VERSION" = some k) ∧
    (c = .gcc → p = .arm32 → ∀ k ∈ [4, 5, 6, 7], HaveOne e (armNames k) → (∀ l ∈ [4, 5, 6, 7], l ≠ k → Lack e (armNames l)) → value e' "CFG_CPU_VERSION" = some k) ∧
    (c = .gcc → p = .arm64 → value e' "CFG_CPU_VERSION" = some 8) := by
  obtain ⟨e'', h1, _, _, _, _, _, _, _, _, _, _, _, _, _, _, _, _, _, _, _, _, ver⟩ := config_run h
  cases he.symm.trans h1
  obtain ⟨ix, hix⟩ := h.numbers "_M_IX86" (by simp)
  refine ⟨?_, ?_, ?_, ?_⟩
  · rintro rfl rfl
    have hv := ver ix hix
    obtain ⟨hs, hp⟩ := hp
    have hi := isDef_true (hp "__i386__" (by simp))
    refine ⟨fun a => ?_, fun a b => ?_, fun a b => ?_, fun b => ?_⟩
    · simp [versionCode, gccVersion, hs, hi, isDef_true (a "__i686__" (by simp))] at hv
      exact value_num hv
    · simp [versionCode, gccVersion, hs, hi, isDef_true (a "__i586__" (by simp)), isDef_false (b "__i686__" (by simp))] at hv
      exact value_num hv
    · simp [versionCode, gccVersion, hs, hi, isDef_true (a "__i486__" (by simp)), isDef_false (b "__i686__" (by simp)), isDef_false (b "__i586__" (by simp))] at hv
      exact value_num hv
    · simp [versionCode, gccVersion, hs, hi, isDef_false (b "__i486__" (by simp)), isDef_false (b "__i686__" (by simp)), isDef_false (b "__i586__" (by simp))] at hv
      exact value_num hv
  · rintro v rfl rfl k hk hkv
    have hv := ver _ hkv
    obtain ⟨hs, hp, _⟩ := hp
    have hi := isDef_true (hp "_M_IX86" (by simp))
    simp only [List.mem_cons, List.not_mem_nil, or_false] at hk
    rcases hk with rfl | rfl | rfl | rfl <;> simp [versionCode, msvcVersion, hs, hi] at hv <;> exact value_num hv
  · rintro rfl rfl k hk ha hb
    have hv := ver ix hix
    obtain ⟨hs, hp, hl⟩ := hp
    have hi := isDef_true (hp "__arm__" (by simp))
    have l1 := isDef_false (hl "__i386__" (by simp))
    have l2 := isDef_false (hl "__x86_64__" (by simp))
    simp only [List.mem_cons, List.not_mem_nil, or_false] at hk
    have ht := any_true ha
    rcases hk with rfl | rfl | rfl | rfl
    · have n5 := any_false (hb 5 (by simp) (by decide))
      have n6 := any_false (hb 6 (by simp) (by decide))
      have n7 := any_false (hb 7 (by simp) (by decide))
      simp only [versionCode, gccVersion, hs, hi, l1, l2, ht, n5, n6, n7, if_true, if_false, Bool.false_eq_true] at hv
      exact value_num hv
    · have n6 := any_false (hb 6 (by simp) (by decide))
      have n7 := any_false (hb 7 (by simp) (by decide))
      simp only [versionCode, gccVersion, hs, hi, l1, l2, ht, n6, n7, if_true, if_false, Bool.false_eq_true] at hv
      exact value_num hv
    · have n7 := any_false (hb 7 (by simp) (by decide))
      simp only [versionCode, gccVersion, hs, hi, l1, l2, ht, n7, if_true, if_false, Bool.false_eq_true] at hv
      exact value_num hv
    · simp only [versionCode, gccVersion, hs, hi, l1, l2, ht, if_true, if_false, Bool.false_eq_true] at hv
      exact value_num hv
  · rintro rfl rfl
    have hv := ver ix hix
    obtain ⟨hs, hp, hl⟩ := hp
    simp [versionCode, gccVersion, hs, isDef_true (hp "__aarch64__" (by simp)), isDef_false (hl "__i386__" (by simp)), isDef_false (hl "__x86_64__" (by simp)),
      isDef_false (hl "__arm__" (by simp))] at hv
    exact value_num hv

/-- C119 is false for the version of ARM processors for which GCC has other macros, such as `__ARM_ARCH_7EM__` for the Cortex-M4 or `__ARM_ARCH_8A__`: it is 0. With Emscripten it is not even
defined, unlike with all other compilers. -/
theorem C119_cpu_version_refuted {e e' : Env} {s : System} {c : Compiler} {n : Int} (h : Compilation e s c n) (he : config e = some e') (p : Cpu) (hp : RunsOn e c s p) :
    (c = .gcc → p = .arm32 → (∀ l ∈ [4, 5, 6, 7], Lack e (armNames l)) → value e' "CFG_CPU_VERSION" = some 0) ∧
    (isDef e' "CFG_CPU_VERSION" = false ↔ p = .wasm32) := by
  obtain ⟨e'', h1, _, _, _, _, _, _, _, _, _, _, _, _, _, _, _, _, _, _, _, _, ver⟩ := config_run h
  cases he.symm.trans h1
  obtain ⟨ix, hix⟩ := h.numbers "_M_IX86" (by simp)
  have hv := ver ix hix
  refine ⟨?_, ?_, ?_⟩
  · rintro rfl rfl hb
    obtain ⟨hs, hp, hl⟩ := hp
    have hi := isDef_true (hp "__arm__" (by simp))
    have l1 := isDef_false (hl "__i386__" (by simp))
    have l2 := isDef_false (hl "__x86_64__" (by simp))
    have n4 := any_false (hb 4 (by simp))
    have n5 := any_false (hb 5 (by simp))
    have n6 := any_false (hb 6 (by simp))
    have n7 := any_false (hb 7 (by simp))
    simp only [versionCode, gccVersion, hs, hi, l1, l2, n4, n5, n6, n7, if_true, if_false, Bool.false_eq_true] at hv
    exact value_num hv
  · intro hd
    have hs : s = .emscripten := by
      by_contra hs
      unfold versionCode at hv
      rw [if_neg hs] at hv
      have : isDef e' "CFG_CPU_VERSION" = true := isDef_true (by rw [hv]; cases c <;> simp)
      rw [this] at hd
      cases hd
    cases p
    · exact absurd hs hp.1
    · exact absurd hs hp.1
    · exact absurd hs hp.1
    · exact absurd hs hp.1
    · rfl
  · rintro rfl
    have hs : s = .emscripten := hp
    unfold versionCode at hv
    rw [if_pos hs] at hv
    exact isDef_false hv

/-! ## Concrete compilations -/

/-- GCC 13 on 64-bit Linux, C++20. -/
def linuxGcc : Env := [("__linux__", .num 1), ("__unix__", .num 1), ("__GNUC__", .num 13), ("__GNUC_MINOR__", .num 2), ("__GNUC_PATCHLEVEL__", .num 0), ("__cplusplus", .num 202002), ("__x86_64__", .num 1),
  ("__ORDER_LITTLE_ENDIAN__", .num 1234), ("__ORDER_BIG_ENDIAN__", .num 4321), ("__BYTE_ORDER__", .name "__ORDER_LITTLE_ENDIAN__"),
  ("__FLOAT_WORD_ORDER__", .name "__ORDER_LITTLE_ENDIAN__")]

theorem linuxGcc_compiles : Compilation linuxGcc .linux .gcc 202002 := by
  refine ⟨by decide +kernel, by unfold Targets Have Lack; decide +kernel, by unfold CompiledBy HaveOne Lack; decide +kernel, .inr (.inl (by decide +kernel)), ?_⟩
  intro x hx
  simp only [List.mem_cons, List.not_mem_nil, or_false] at hx
  rcases hx with rfl | rfl | rfl | rfl | rfl
  · exact ⟨0, .inl (by decide +kernel)⟩
  · exact ⟨1234, .inr (.inr ⟨"__ORDER_LITTLE_ENDIAN__", by decide +kernel⟩)⟩
  · exact ⟨1234, .inr (.inr ⟨"__ORDER_LITTLE_ENDIAN__", by decide +kernel⟩)⟩
  · exact ⟨1234, .inr (.inl (by decide +kernel))⟩
  · exact ⟨4321, .inr (.inl (by decide +kernel))⟩

example : ∃ e', config linuxGcc = some e' ∧ RunsOn linuxGcc .gcc .linux .x86_64 ∧ Stores linuxGcc 1234 .little ∧ value e' "CFG_OS" = some 1 ∧ value e' "CFG_COMPILER" = some 1 ∧
    value e' "CFG_CPP" = some 20 ∧ value e' "CFG_CPU" = some 2 ∧ value e' "CFG_CPU_BITS" = some 64 ∧ value e' "CFG_ENDIANNESS" = some 1 ∧ value e' "CFG_COMPILER_VERSION_MAJOR" = some 13 := by
  obtain ⟨e', he, _⟩ := C119_wellformed linuxGcc_compiles
  have hr : RunsOn linuxGcc .gcc .linux .x86_64 := by unfold RunsOn Have Lack; decide +kernel
  have hs : Stores linuxGcc 1234 .little := ⟨by unfold Lack; decide +kernel, .inr (.inr ⟨"__ORDER_LITTLE_ENDIAN__", by decide +kernel⟩),
    .inl ⟨by unfold Have; decide +kernel, .inr (.inl (by decide +kernel)), .inr (.inl (by decide +kernel)), .inr (.inr ⟨"__ORDER_LITTLE_ENDIAN__", by decide +kernel⟩)⟩⟩
  refine ⟨e', he, hr, hs, ?_⟩
  have : e' = (config linuxGcc).getD [] := by rw [he]; rfl
  subst this
  decide +kernel

/-- Clang on an Apple computer with an ARM processor: what processor it is cannot be told. -/
def macClang : Env := [("__APPLE__", .num 1), ("TARGET_OS_IPHONE", .num 0), ("TARGET_IPHONE_SIMULATOR", .num 0), ("__MAC_OS_X_VERSION_MIN_REQUIRED", .num 140000), ("__clang__", .num 1), ("__GNUC__", .num 4),
  ("__cplusplus", .num 201703), ("__aarch64__", .num 1), ("__ORDER_LITTLE_ENDIAN__", .num 1234), ("__ORDER_BIG_ENDIAN__", .num 4321),
  ("__BYTE_ORDER__", .name "__ORDER_LITTLE_ENDIAN__"), ("__LITTLE_ENDIAN__", .num 1), ("__AARCH64EL__", .num 1)]

theorem macClang_compiles : Compilation macClang .macos .clang 201703 := by
  refine ⟨by decide +kernel, ⟨by unfold Have; decide +kernel, by unfold Lack; decide +kernel, .inr (.inl (by decide +kernel)), .inr (.inl (by decide +kernel))⟩,
    by unfold CompiledBy Have Lack; decide +kernel, .inr (.inl (by decide +kernel)), ?_⟩
  intro x hx
  simp only [List.mem_cons, List.not_mem_nil, or_false] at hx
  rcases hx with rfl | rfl | rfl | rfl | rfl
  · exact ⟨0, .inl (by decide +kernel)⟩
  · exact ⟨1234, .inr (.inr ⟨"__ORDER_LITTLE_ENDIAN__", by decide +kernel⟩)⟩
  · exact ⟨0, .inl (by decide +kernel)⟩
  · exact ⟨1234, .inr (.inl (by decide +kernel))⟩
  · exact ⟨4321, .inr (.inl (by decide +kernel))⟩

example : ∃ e', config macClang = some e' ∧ value e' "CFG_OS_NAME" = some 1 ∧ value e' "CFG_MACOSX_DEPLOYMENT_TARGET" = some 140000 ∧ value e' "CFG_COMPILER" = some 3 ∧
    value e' "CFG_CPU_BITS" = some 0 ∧ value e' "CFG_ENDIANNESS" = some 1 := by
  obtain ⟨e', he, _⟩ := C119_wellformed macClang_compiles
  have hr : RunsOn macClang .clang .macos .arm64 := by unfold RunsOn Have Lack; decide +kernel
  have hs : Stores macClang 0 .little := ⟨by unfold Lack; decide +kernel, .inl (by decide +kernel),
    .inl ⟨by unfold Have; decide +kernel, .inr (.inl (by decide +kernel)), .inr (.inl (by decide +kernel)), .inr (.inr ⟨"__ORDER_LITTLE_ENDIAN__", by decide +kernel⟩)⟩⟩
  refine ⟨e', he, ?_⟩
  have : e' = (config macClang).getD [] := by rw [he]; rfl
  subst this
  decide +kernel

/-- Visual Studio 2019 16.8: the version of the tools is wrong. -/
def windowsMsvc : Env := [("_WIN32", .num 1), ("_MSC_VER", .num 1928), ("_MSVC_LANG", .num 201703), ("__cplusplus", .num 199711), ("_M_X64", .num 100), ("_M_AMD64", .num 100), ("_USRDLL", .blank)]

theorem windowsMsvc_compiles : Compilation windowsMsvc .windows (.msvc 1928) 201703 := by
  refine ⟨by decide +kernel, by unfold Targets HaveOne Lack; decide +kernel, ⟨by unfold Have; decide +kernel, .inr (.inl (by decide +kernel))⟩, .inr (.inl (by decide +kernel)), ?_⟩
  intro x hx
  simp only [List.mem_cons, List.not_mem_nil, or_false] at hx
  rcases hx with rfl | rfl | rfl | rfl | rfl <;> exact ⟨0, .inl (by decide +kernel)⟩

example : ∃ e', config windowsMsvc = some e' ∧ RunsOn windowsMsvc (.msvc 1928) .windows .x86_64 ∧ toolset 1928 = 142 ∧ value e' "CFG_COMPILER_MSVC_TOOLS_V" = some 141 ∧ value e' "CFG_CPP" = some 17 ∧ value e' "CFG_CPU_BITS" = some 64 ∧
    e'.lookup "DLLEXPORT" = some (.text "__declspec(dllexport)") ∧ isDef e' "CFG_COMPILER_VERSION_MAJOR" = false := by
  obtain ⟨e', he, _⟩ := C119_wellformed windowsMsvc_compiles
  refine ⟨e', he, by unfold RunsOn HaveOne Lack; decide +kernel, rfl, ?_⟩
  have : e' = (config windowsMsvc).getD [] := by rw [he]; rfl
  subst this
  decide +kernel

/-- GCC for a Cortex-M4 and, as it was for processors with the FPA unit, with the words of floating-point numbers in the other order. -/
def armGcc : Env := [("__GNUC__", .num 9), ("__cplusplus", .num 202302), ("__arm__", .num 1), ("__thumb__", .num 1), ("__thumb2__", .num 1), ("__ARM_ARCH_7EM__", .num 1), ("__ARMEL__", .num 1), ("__ORDER_LITTLE_ENDIAN__", .num 1234),
  ("__ORDER_BIG_ENDIAN__", .num 4321), ("__BYTE_ORDER__", .name "__ORDER_LITTLE_ENDIAN__"), ("__FLOAT_WORD_ORDER__", .name "__ORDER_BIG_ENDIAN__")]

theorem armGcc_compiles : Compilation armGcc .other .gcc 202302 := by
  refine ⟨by decide +kernel, by unfold Targets Lack; decide +kernel, by unfold CompiledBy HaveOne Lack; decide +kernel, .inr (.inl (by decide +kernel)), ?_⟩
  intro x hx
  simp only [List.mem_cons, List.not_mem_nil, or_false] at hx
  rcases hx with rfl | rfl | rfl | rfl | rfl
  · exact ⟨0, .inl (by decide +kernel)⟩
  · exact ⟨1234, .inr (.inr ⟨"__ORDER_LITTLE_ENDIAN__", by decide +kernel⟩)⟩
  · exact ⟨4321, .inr (.inr ⟨"__ORDER_BIG_ENDIAN__", by decide +kernel⟩)⟩
  · exact ⟨1234, .inr (.inl (by decide +kernel))⟩
  · exact ⟨4321, .inr (.inl (by decide +kernel))⟩

example : ∃ e', config armGcc = some e' ∧ RunsOn armGcc .gcc .other .arm32 ∧ Stores armGcc 4321 .little ∧ Have armGcc ["__ORDER_BIG_ENDIAN__"] ∧ (∀ l ∈ [4, 5, 6, 7], Lack armGcc (armNames l)) ∧
    value e' "CFG_CPU_VERSION" = some 0 ∧ value e' "CFG_ENDIANNESS" = some 2 ∧ value e' "CFG_CPP" = some 20 := by
  obtain ⟨e', he, _⟩ := C119_wellformed armGcc_compiles
  have hr : RunsOn armGcc .gcc .other .arm32 := by unfold RunsOn Have Lack; decide +kernel
  have hs : Stores armGcc 4321 .little := ⟨by unfold Lack; decide +kernel, .inr (.inr ⟨"__ORDER_BIG_ENDIAN__", by decide +kernel⟩),
    .inl ⟨by unfold Have; decide +kernel, .inr (.inl (by decide +kernel)), .inr (.inl (by decide +kernel)), .inr (.inr ⟨"__ORDER_LITTLE_ENDIAN__", by decide +kernel⟩)⟩⟩
  refine ⟨e', he, hr, hs, by unfold Have; decide +kernel, by unfold Lack; decide +kernel, ?_⟩
  have : e' = (config armGcc).getD [] := by rw [he]; rfl
  subst this
  decide +kernel

end Utki
