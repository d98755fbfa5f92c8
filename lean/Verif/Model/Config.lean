import Verif.Model.Preprocessor
/-!
# config.hpp

The directives of /repo/src/utki/config.hpp, section by section. Only the macros are modelled, not the `#pragma`s and the `#include`s of Apple's headers, lines 79-80, that define
`TARGET_OS_IPHONE` and the like: these are taken to be defined from the start.
-/
namespace Utki
namespace Config
open Cpp

/-- config.hpp 37-63. -/
def osNames : Text := .of [
  DEFINE "CFG_OS_UNKNOWN" 0, DEFINE "CFG_OS_LINUX" 1, DEFINE "CFG_OS_WINDOWS" 2, DEFINE "CFG_OS_MACOSX" 3, DEFINE "CFG_OS_UNIX" 4,
  DEFINE "CFG_OS_NAME_UNKNOWN" 0, DEFINE "CFG_OS_NAME_MACOSX" 1, DEFINE "CFG_OS_NAME_IOS" 2, DEFINE "CFG_OS_NAME_ANDROID" 3, DEFINE "CFG_OS_NAME_SOLARIS" 4,
  DEFINE "CFG_OS_NAME_FREEBSD" 5, DEFINE "CFG_OS_NAME_EMSCRIPTEN" 6]

/-- config.hpp 65-114. -/
def os : Text := .of [
  IF (.defd "__linux__") [
    ALIAS "CFG_OS" "CFG_OS_LINUX",
    IF (.defd "__ANDROID__") [ALIAS "CFG_OS_NAME" "CFG_OS_NAME_ANDROID"] [ALIAS "CFG_OS_NAME" "CFG_OS_NAME_UNKNOWN"]]
  [IF (.or (.defd "_WIN32") (.defd "WIN32")) [
    ALIAS "CFG_OS" "CFG_OS_WINDOWS",
    ALIAS "CFG_OS_NAME" "CFG_OS_NAME_UNKNOWN"]
  [IF (.defd "__APPLE__") [
    ALIAS "CFG_OS" "CFG_OS_MACOSX",
    IF (.or (.eqn "TARGET_OS_IPHONE" 1) (.eqn "TARGET_IPHONE_SIMULATOR" 1)) [
      ALIAS "CFG_OS_NAME" "CFG_OS_NAME_IOS",
      ALIAS "CFG_IOS_DEPLOYMENT_TARGET" "__IPHONE_OS_VERSION_MIN_REQUIRED"] [
      ALIAS "CFG_OS_NAME" "CFG_OS_NAME_MACOSX",
      ALIAS "CFG_MACOSX_DEPLOYMENT_TARGET" "__MAC_OS_X_VERSION_MIN_REQUIRED"]]
  [IF (.or (.defd "__unix") (.defd "__unix__")) [
    ALIAS "CFG_OS" "CFG_OS_UNIX",
    IF (.or (.defd "sun") (.defd "__sun")) [ALIAS "CFG_OS_NAME" "CFG_OS_NAME_SOLARIS"]
    [IF (.defd "__FreeBSD__") [ALIAS "CFG_OS_NAME" "CFG_OS_NAME_FREEBSD"]
    [IF (.defd "__EMSCRIPTEN__") [ALIAS "CFG_OS_NAME" "CFG_OS_NAME_EMSCRIPTEN"] [ALIAS "CFG_OS_NAME" "CFG_OS_NAME_UNKNOWN"]]]]
  [ALIAS "CFG_OS" "CFG_OS_UNKNOWN",
   ALIAS "CFG_OS_NAME" "CFG_OS_NAME_UNKNOWN"]]]]]

/-- config.hpp 120-123. -/
def compilerNames : Text := .of [DEFINE "CFG_COMPILER_UNKNOWN" 0, DEFINE "CFG_COMPILER_GCC" 1, DEFINE "CFG_COMPILER_MSVC" 2, DEFINE "CFG_COMPILER_CLANG" 3]

/-- config.hpp 125-150. -/
def compiler : Text := .of [
  IF (.defd "_MSC_VER") [
    ALIAS "CFG_COMPILER" "CFG_COMPILER_MSVC",
    IF (.lt "_MSC_VER" 1916) [DEFINE "CFG_COMPILER_MSVC_TOOLS_V" 140]
    [IF (.lt "_MSC_VER" 1929) [DEFINE "CFG_COMPILER_MSVC_TOOLS_V" 141]
    [IF (.lt "_MSC_VER" 1930) [DEFINE "CFG_COMPILER_MSVC_TOOLS_V" 142] [DEFINE "CFG_COMPILER_MSVC_TOOLS_V" 143]]]]
  [IF (.defd "__clang__") [
    ALIAS "CFG_COMPILER" "CFG_COMPILER_CLANG"]
  [IF (.or (.defd "__GNUC__") (.defd "__GNUG__")) [
    ALIAS "CFG_COMPILER" "CFG_COMPILER_GCC",
    ALIAS "CFG_COMPILER_VERSION_MAJOR" "__GNUC__",
    ALIAS "CFG_COMPILER_VERSION_MINOR" "__GNUC_MINOR__",
    ALIAS "CFG_COMPILER_VERSION_PATCH" "__GNUC_PATCHLEVEL__"]
  [ALIAS "CFG_COMPILER" "CFG_COMPILER_UNKNOWN"]]]]

/-- config.hpp 159-175. -/
def standard : Text := .of [
  IF (.eq "CFG_COMPILER" "CFG_COMPILER_MSVC") [ALIAS "UTKI_CPP_STANDARD" "_MSVC_LANG"] [ALIAS "UTKI_CPP_STANDARD" "__cplusplus"],
  IF (.gt "UTKI_CPP_STANDARD" 201703) [DEFINE "CFG_CPP" 20]
  [IF (.gt "UTKI_CPP_STANDARD" 201402) [DEFINE "CFG_CPP" 17]
  [IF (.gt "UTKI_CPP_STANDARD" 201103) [DEFINE "CFG_CPP" 14]
  [IF (.gt "UTKI_CPP_STANDARD" 199711) [DEFINE "CFG_CPP" 11] [DEFINE "CFG_CPP" 3]]]]]

/-- config.hpp 181-185. -/
def cpuNames : Text := .of [DEFINE "CFG_CPU_UNKNOWN" 0, DEFINE "CFG_CPU_X86" 1, DEFINE "CFG_CPU_X86_64" 2, DEFINE "CFG_CPU_ARM" 3, DEFINE "CFG_CPU_WASM" 4]

/-- `defined(a) || defined(b) || …` -/
def anyDefd (x : String) : List String → Cond
  | [] => .defd x
  | y :: l => .or (.defd x) (anyDefd y l)

/-- `#define CFG_CPU cpu`, `#define CFG_CPU_BITS bits`. -/
def cpuIs (name : String) (bits : Int) (more : List (Text → Text)) : List (Text → Text) := ALIAS "CFG_CPU" name :: DEFINE "CFG_CPU_BITS" bits :: more

/-- `#define CFG_CPU_VERSION n`. -/
def version (n : Int) : List (Text → Text) := [DEFINE "CFG_CPU_VERSION" n]

/-- config.hpp 192-247. -/
def cpuGcc : Text → Text :=
  IF (.defd "__i386__") (cpuIs "CFG_CPU_X86" 32 [
    IF (.defd "__i686__") (version 6) [IF (.defd "__i586__") (version 5) [IF (.defd "__i486__") (version 4) (version 3)]]])
  [IF (.defd "__x86_64__") (cpuIs "CFG_CPU_X86_64" 64 (version 0))
  [IF (.defd "__arm__") (cpuIs "CFG_CPU_ARM" 32 [
    IF (.defd "__thumb2__") [DEFINE "CFG_CPU_ARM_THUMB_VERSION" 2] [IF (.defd "__thumb__") [DEFINE "CFG_CPU_ARM_THUMB_VERSION" 1] []],
    IF (anyDefd "__ARM_ARCH_7__" ["__ARM_ARCH_7A__", "__ARM_ARCH_7R__", "__ARM_ARCH_7M__"]) (version 7)
    [IF (anyDefd "__ARM_ARCH_6T2__" ["__ARM_ARCH_6ZK__", "__ARM_ARCH_6Z__", "__ARM_ARCH_6K__", "__ARM_ARCH_6J__", "__ARM_ARCH_6__"]) (version 6)
    [IF (anyDefd "__ARM_ARCH_5TEJ__" ["__ARM_ARCH_5TE__", "__ARM_ARCH_5T__", "__ARM_ARCH_5E__", "__ARM_ARCH_5__"]) (version 5)
    [IF (anyDefd "__ARM_ARCH_4T__" ["__ARM_ARCH_4__"]) (version 4) (version 0)]]]])
  [IF (.defd "__aarch64__") (cpuIs "CFG_CPU_ARM" 64 (version 8))
  (cpuIs "CFG_CPU_UNKNOWN" 0 (version 0))]]]

/-- config.hpp 250-272. -/
def cpuMsvc : Text → Text :=
  IF (.defd "_M_IX86") (cpuIs "CFG_CPU_X86" 32 [
    IF (.eqn "_M_IX86" 600) (version 6) [IF (.eqn "_M_IX86" 500) (version 5) [IF (.eqn "_M_IX86" 400) (version 4) (version 3)]]])
  [IF (.or (.defd "_M_AMD64") (.defd "_M_X64")) (cpuIs "CFG_CPU_X86_64" 64 (version 0))
  (cpuIs "CFG_CPU_UNKNOWN" 0 (version 0))]

/-- config.hpp 187-277. -/
def cpu : Text := .of [
  IF (.eq "CFG_OS_NAME" "CFG_OS_NAME_EMSCRIPTEN") (cpuIs "CFG_CPU_WASM" 32 [])
  [IF (.eq "CFG_COMPILER" "CFG_COMPILER_GCC") [cpuGcc]
  [IF (.eq "CFG_COMPILER" "CFG_COMPILER_MSVC") [cpuMsvc]
  (cpuIs "CFG_CPU_UNKNOWN" 0 (version 0))]]]

/-- config.hpp 283-298. -/
def dll : Text := .of [
  IF (.eq "CFG_OS" "CFG_OS_WINDOWS") [
    IF (.eq "CFG_COMPILER" "CFG_COMPILER_MSVC") [
      IF (.defd "_USRDLL") [.define "DLLEXPORT" (.text "__declspec(dllexport)")] [.define "DLLEXPORT" (.text "__declspec(dllimport)")]]
    [.define "DLLEXPORT" .blank]]
  [.define "DLLEXPORT" .blank]]

/-- config.hpp 304-306. -/
def endiannessNames : Text := .of [DEFINE "CFG_ENDIANNESS_UNKNOWN" 0, DEFINE "CFG_ENDIANNESS_LITTLE" 1, DEFINE "CFG_ENDIANNESS_BIG" 2]

/-- `(defined(x) && (__BYTE_ORDER__ == x || __FLOAT_WORD_ORDER__ == x)) || defined(…) || …` -/
def orderIs (x y : String) (more : List String) : Cond := .or (.and (.defd x) (.or (.eq "__BYTE_ORDER__" x) (.eq "__FLOAT_WORD_ORDER__" x))) (anyDefd y more)

/-- config.hpp 308-333. -/
def endianness : Text := .of [
  IF (.eq "CFG_OS_NAME" "CFG_OS_NAME_EMSCRIPTEN") [ALIAS "CFG_ENDIANNESS" "CFG_ENDIANNESS_LITTLE"]
  [IF (.eq "CFG_OS" "CFG_OS_WINDOWS") [ALIAS "CFG_ENDIANNESS" "CFG_ENDIANNESS_LITTLE"]
  [IF (orderIs "__ORDER_BIG_ENDIAN__" "__BIG_ENDIAN__" ["__ARMEB__", "__THUMBEB__", "__AARCH64EB__", "_MIPSEB", "__MIPSEB", "__MIPSEB__"])
    [ALIAS "CFG_ENDIANNESS" "CFG_ENDIANNESS_BIG"]
  [IF (orderIs "__ORDER_LITTLE_ENDIAN__" "__LITTLE_ENDIAN__" ["__ARMEL__", "__THUMBEL__", "__AARCH64EL__", "_MIPSEL", "__MIPSEL", "__MIPSEL__"])
    [ALIAS "CFG_ENDIANNESS" "CFG_ENDIANNESS_LITTLE"] [ALIAS "CFG_ENDIANNESS" "CFG_ENDIANNESS_UNKNOWN"]]]]]

/-- config.hpp: what including it does to the macros; none: the compiler reports an error. -/
def config (e : Env) : Option Env :=
  [osNames, os, compilerNames, compiler, standard, cpuNames, cpu, dll, endiannessNames, endianness].foldlM (fun e t => t.run e) e

end Config
end Utki
