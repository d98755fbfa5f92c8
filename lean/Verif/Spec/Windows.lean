import Verif.Model.Preprocessor
/-!
# What C120 says about windows.hpp
-/
namespace Utki
open Cpp

/-- The macros that keep `<windows.h>` from including `<winsock.h>`. -/
def Spec.winsock : List String := ["_WINSOCKAPI_", "_WINSOCK_H"]
/-- The macros of `<windows.h>` that are in the way of C++ programs. -/
def Spec.disturbing : List String := ["min", "max", "DELETE"]
/-- The program is compiled for Windows, as config.hpp tells. -/
def Spec.OnWindows (e : Env) : Prop := (Cond.eq "CFG_OS" "CFG_OS_WINDOWS").eval e = some true

/-- Neither a name nor other text. -/
def Spec.Simple (b : Option Body) : Prop := b = none ∨ b = some .blank ∨ ∃ n, b = some (.num n)

end Utki
