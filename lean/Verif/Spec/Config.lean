import Verif.Model.Preprocessor
/-!
# What compilers tell about themselves

The macros compilers predefine, by system, compiler, processor and byte order, and which of the macros of config.hpp stands for which of these.
-/
namespace Utki.Spec.Config
open Cpp

/-- The macro `x` stands for the number `n`: directly, through one other macro, or, if it is not defined, for 0. -/
def Stands (e : Env) (x : String) (n : Int) : Prop :=
  (e.lookup x = none ∧ n = 0) ∨ e.lookup x = some (.num n) ∨ ∃ y, y ≠ x ∧ e.lookup x = some (.name y) ∧ e.lookup y = some (.num n)

/-- All these macros are defined. -/
def Have (e : Env) (l : List String) : Prop := ∀ x ∈ l, e.lookup x ≠ none
/-- One of these macros is defined. -/
def HaveOne (e : Env) (l : List String) : Prop := ∃ x ∈ l, e.lookup x ≠ none
/-- None of these macros is defined. -/
def Lack (e : Env) (l : List String) : Prop := ∀ x ∈ l, e.lookup x = none

/-- Operating systems. -/
inductive System where
  | linux | android | windows | macos | ios | solaris | freebsd | emscripten | unix | other
deriving DecidableEq, Repr

/-- The macros of a compiler for the system. -/
def Targets (e : Env) : System → Prop
  | .linux => Have e ["__linux__"] ∧ Lack e ["__ANDROID__"]
  | .android => Have e ["__linux__", "__ANDROID__"]
  | .windows => HaveOne e ["_WIN32", "WIN32"] ∧ Lack e ["__linux__"]
  | .macos => Have e ["__APPLE__"] ∧ Lack e ["__linux__", "_WIN32", "WIN32"] ∧ Stands e "TARGET_OS_IPHONE" 0 ∧ Stands e "TARGET_IPHONE_SIMULATOR" 0
  | .ios => Have e ["__APPLE__"] ∧ Lack e ["__linux__", "_WIN32", "WIN32"] ∧ Stands e "TARGET_OS_IPHONE" 1 ∧ ∃ n, Stands e "TARGET_IPHONE_SIMULATOR" n
  | .solaris => HaveOne e ["__unix", "__unix__"] ∧ HaveOne e ["sun", "__sun"] ∧ Lack e ["__linux__", "_WIN32", "WIN32", "__APPLE__"]
  | .freebsd => HaveOne e ["__unix", "__unix__"] ∧ Have e ["__FreeBSD__"] ∧ Lack e ["__linux__", "_WIN32", "WIN32", "__APPLE__", "sun", "__sun"]
  | .emscripten => HaveOne e ["__unix", "__unix__"] ∧ Have e ["__EMSCRIPTEN__"] ∧ Lack e ["__linux__", "_WIN32", "WIN32", "__APPLE__", "sun", "__sun", "__FreeBSD__"]
  | .unix => HaveOne e ["__unix", "__unix__"] ∧ Lack e ["__linux__", "_WIN32", "WIN32", "__APPLE__", "sun", "__sun", "__FreeBSD__", "__EMSCRIPTEN__"]
  | .other => Lack e ["__linux__", "_WIN32", "WIN32", "__APPLE__", "__unix", "__unix__"]

/-- The family of the system. -/
def family : System → String
  | .linux | .android => "CFG_OS_LINUX"
  | .windows => "CFG_OS_WINDOWS"
  | .macos | .ios => "CFG_OS_MACOSX"
  | .solaris | .freebsd | .emscripten | .unix => "CFG_OS_UNIX"
  | .other => "CFG_OS_UNKNOWN"

/-- All families. -/
def families : List String := ["CFG_OS_UNKNOWN", "CFG_OS_LINUX", "CFG_OS_WINDOWS", "CFG_OS_MACOSX", "CFG_OS_UNIX"]

/-- The name of the system. -/
def systemName : System → String
  | .android => "CFG_OS_NAME_ANDROID"
  | .macos => "CFG_OS_NAME_MACOSX"
  | .ios => "CFG_OS_NAME_IOS"
  | .solaris => "CFG_OS_NAME_SOLARIS"
  | .freebsd => "CFG_OS_NAME_FREEBSD"
  | .emscripten => "CFG_OS_NAME_EMSCRIPTEN"
  | .linux | .windows | .unix | .other => "CFG_OS_NAME_UNKNOWN"

/-- All names. -/
def systemNames : List String :=
  ["CFG_OS_NAME_UNKNOWN", "CFG_OS_NAME_MACOSX", "CFG_OS_NAME_IOS", "CFG_OS_NAME_ANDROID", "CFG_OS_NAME_SOLARIS", "CFG_OS_NAME_FREEBSD", "CFG_OS_NAME_EMSCRIPTEN"]

/-- Compilers; that of Microsoft with the value of `_MSC_VER`. -/
inductive Compiler where
  | gcc | clang | msvc (version : Int) | other
deriving DecidableEq, Repr

/-- The macros of the compiler. Clang claims to be GCC, too. -/
def CompiledBy (e : Env) : Compiler → Prop
  | .gcc => HaveOne e ["__GNUC__", "__GNUG__"] ∧ Lack e ["__clang__", "_MSC_VER"]
  | .clang => Have e ["__clang__"] ∧ Lack e ["_MSC_VER"]
  | .msvc v => Have e ["_MSC_VER"] ∧ Stands e "_MSC_VER" v
  | .other => Lack e ["__GNUC__", "__GNUG__", "__clang__", "_MSC_VER"]

/-- The name of the compiler. -/
def compilerName : Compiler → String
  | .gcc => "CFG_COMPILER_GCC"
  | .clang => "CFG_COMPILER_CLANG"
  | .msvc _ => "CFG_COMPILER_MSVC"
  | .other => "CFG_COMPILER_UNKNOWN"

/-- All names. -/
def compilerNames : List String := ["CFG_COMPILER_UNKNOWN", "CFG_COMPILER_GCC", "CFG_COMPILER_MSVC", "CFG_COMPILER_CLANG"]

/-- The version of Microsoft's platform tools with a compiler version, from Visual Studio 2015 on: 2015 has 1900, 2017 has 1910 to 1919, 2019 has 1920 to 1929, 2022 has 1930 to 1949. -/
def toolset (v : Int) : Int := if v < 1910 then 140 else if v < 1920 then 141 else if v < 1930 then 142 else 143

/-- Processors. -/
inductive Cpu where
  | x86 | x86_64 | arm32 | arm64 | wasm32
deriving DecidableEq, Repr

/-- The macros of a compiler for the processor. -/
def RunsOn (e : Env) (c : Compiler) (s : System) : Cpu → Prop
  | .x86 => s ≠ .emscripten ∧ match c with
    | .msvc _ => Have e ["_M_IX86"] ∧ ∃ n, Stands e "_M_IX86" n
    | _ => Have e ["__i386__"]
  | .x86_64 => s ≠ .emscripten ∧ match c with
    | .msvc _ => HaveOne e ["_M_AMD64", "_M_X64"] ∧ Lack e ["_M_IX86"]
    | _ => Have e ["__x86_64__"] ∧ Lack e ["__i386__"]
  | .arm32 => s ≠ .emscripten ∧ match c with
    | .msvc _ => Have e ["_M_ARM"] ∧ Lack e ["_M_IX86", "_M_AMD64", "_M_X64"]
    | _ => Have e ["__arm__"] ∧ Lack e ["__i386__", "__x86_64__"]
  | .arm64 => s ≠ .emscripten ∧ match c with
    | .msvc _ => Have e ["_M_ARM64"] ∧ Lack e ["_M_IX86", "_M_AMD64", "_M_X64"]
    | _ => Have e ["__aarch64__"] ∧ Lack e ["__i386__", "__x86_64__", "__arm__"]
  | .wasm32 => s = .emscripten

/-- The name of the processor. -/
def cpuName : Cpu → String
  | .x86 => "CFG_CPU_X86"
  | .x86_64 => "CFG_CPU_X86_64"
  | .arm32 | .arm64 => "CFG_CPU_ARM"
  | .wasm32 => "CFG_CPU_WASM"

/-- All names. -/
def cpuNames : List String := ["CFG_CPU_UNKNOWN", "CFG_CPU_X86", "CFG_CPU_X86_64", "CFG_CPU_ARM", "CFG_CPU_WASM"]

/-- The width of an address. -/
def bits : Cpu → Int
  | .x86 | .arm32 | .wasm32 => 32
  | .x86_64 | .arm64 => 64

/-- The macros by which GCC tells the version of the ARM architecture. -/
def armNames : Int → List String
  | 7 => ["__ARM_ARCH_7__", "__ARM_ARCH_7A__", "__ARM_ARCH_7R__", "__ARM_ARCH_7M__"]
  | 6 => ["__ARM_ARCH_6T2__", "__ARM_ARCH_6ZK__", "__ARM_ARCH_6Z__", "__ARM_ARCH_6K__", "__ARM_ARCH_6J__", "__ARM_ARCH_6__"]
  | 5 => ["__ARM_ARCH_5TEJ__", "__ARM_ARCH_5TE__", "__ARM_ARCH_5T__", "__ARM_ARCH_5E__", "__ARM_ARCH_5__"]
  | 4 => ["__ARM_ARCH_4T__", "__ARM_ARCH_4__"]
  | _ => []

/-- The value of `__cplusplus` the program is compiled for; Microsoft's compiler tells it with another macro. -/
def Standard (e : Env) (c : Compiler) (n : Int) : Prop :=
  match c with
  | .msvc _ => Stands e "_MSVC_LANG" n
  | _ => Stands e "__cplusplus" n

/-- The published standards, and the numbers of C++26 as compilers give it. -/
def standards : List (Int × Int) := [(199711, 3), (201103, 11), (201402, 14), (201703, 17), (202002, 20), (202302, 23), (202400, 26)]

/-- Macros that say big endian. -/
def saysBig : List String := ["__BIG_ENDIAN__", "__ARMEB__", "__THUMBEB__", "__AARCH64EB__", "_MIPSEB", "__MIPSEB", "__MIPSEB__"]
/-- Macros that say little endian. -/
def saysLittle : List String := ["__LITTLE_ENDIAN__", "__ARMEL__", "__THUMBEL__", "__AARCH64EL__", "_MIPSEL", "__MIPSEL", "__MIPSEL__"]

/-- The order of the bytes of integers. -/
inductive Order where
  | little | big
deriving DecidableEq, Repr

/-- How the macros denote an order. -/
def mark : Order → Int
  | .little => 1234
  | .big => 4321

/-- The macros of a compiler that stores integers in that order: those of GCC and Clang, or one of the older ones; and the order `f` of the words of floating-point numbers (0 if it is not told). -/
def Stores (e : Env) (f : Int) : Order → Prop
  | .little => Lack e saysBig ∧ Stands e "__FLOAT_WORD_ORDER__" f ∧ ((Have e ["__ORDER_LITTLE_ENDIAN__", "__ORDER_BIG_ENDIAN__"] ∧ Stands e "__ORDER_LITTLE_ENDIAN__" 1234 ∧
      Stands e "__ORDER_BIG_ENDIAN__" 4321 ∧ Stands e "__BYTE_ORDER__" 1234) ∨
    (HaveOne e saysLittle ∧ Lack e ["__ORDER_LITTLE_ENDIAN__", "__ORDER_BIG_ENDIAN__"] ∧ ∃ n, Stands e "__BYTE_ORDER__" n))
  | .big => Lack e saysLittle ∧ Stands e "__FLOAT_WORD_ORDER__" f ∧ ((Have e ["__ORDER_LITTLE_ENDIAN__", "__ORDER_BIG_ENDIAN__"] ∧ Stands e "__ORDER_LITTLE_ENDIAN__" 1234 ∧
      Stands e "__ORDER_BIG_ENDIAN__" 4321 ∧ Stands e "__BYTE_ORDER__" 4321) ∨
    (HaveOne e saysBig ∧ Lack e ["__ORDER_LITTLE_ENDIAN__", "__ORDER_BIG_ENDIAN__"] ∧ ∃ n, Stands e "__BYTE_ORDER__" n))

/-- The name of the order. -/
def orderName : Order → String
  | .little => "CFG_ENDIANNESS_LITTLE"
  | .big => "CFG_ENDIANNESS_BIG"

/-- All names. -/
def orderNames : List String := ["CFG_ENDIANNESS_UNKNOWN", "CFG_ENDIANNESS_LITTLE", "CFG_ENDIANNESS_BIG"]

/-- The macros config.hpp defines. -/
def own : List String := families ++ systemNames ++ compilerNames ++ cpuNames ++ orderNames ++
  ["CFG_OS", "CFG_OS_NAME", "CFG_IOS_DEPLOYMENT_TARGET", "CFG_MACOSX_DEPLOYMENT_TARGET", "CFG_COMPILER", "CFG_COMPILER_MSVC_TOOLS_V", "CFG_COMPILER_VERSION_MAJOR",
    "CFG_COMPILER_VERSION_MINOR", "CFG_COMPILER_VERSION_PATCH", "UTKI_CPP_STANDARD", "CFG_CPP", "CFG_CPU", "CFG_CPU_BITS", "CFG_CPU_VERSION", "CFG_CPU_ARM_THUMB_VERSION",
    "DLLEXPORT", "CFG_ENDIANNESS"]

/-- A compilation for the system `s` with the compiler `c` by the standard with the number `n`, before config.hpp is included. -/
structure Compilation (e : Env) (s : System) (c : Compiler) (n : Int) : Prop where
  /-- nobody else has defined the macros of config.hpp -/
  own : ∀ x ∈ own, e.lookup x = none
  system : Targets e s
  compiler : CompiledBy e c
  standard : Standard e c n
  /-- these are not defined as something strange -/
  numbers : ∀ x ∈ ["_M_IX86", "__BYTE_ORDER__", "__FLOAT_WORD_ORDER__", "__ORDER_LITTLE_ENDIAN__", "__ORDER_BIG_ENDIAN__"], ∃ n, Stands e x n

/-- `#if x == y` for exactly one `y` of the list. -/
def Selects (e : Env) (x y : String) (l : List String) : Prop := ∀ z ∈ l, (Cond.eq x z).eval e = some (decide (z = y))

end Utki.Spec.Config
