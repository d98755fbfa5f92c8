import Verif.Model.Preprocessor
/-!
# windows.hpp

What including /repo/src/utki/windows.hpp does to the macros, after config.hpp, which it includes first. The header of the system is any function on the macros.
-/
namespace Utki
namespace Windows
open Cpp

/-- windows.hpp 38-44. -/
def before : Text := .of [
  IF (.defd "_WINSOCKAPI_") [] [DEFINE "_WINSOCKAPI_" 1234567890],
  IF (.defd "_WINSOCK_H") [] [DEFINE "_WINSOCK_H" 1234567890]]

/-- windows.hpp 48-72. -/
def after : Text := .of [
  IF (.plus0 "_WINSOCKAPI_") [IF (.eqn "_WINSOCKAPI_" 1234567890) [UNDEF "_WINSOCKAPI_"] []] [],
  IF (.plus0 "_WINSOCK_H") [IF (.eqn "_WINSOCK_H" 1234567890) [UNDEF "_WINSOCK_H"] []] [],
  IF (.defd "max") [UNDEF "max"] [],
  IF (.defd "min") [UNDEF "min"] [],
  IF (.defd "DELETE") [UNDEF "DELETE"] []]

/-- windows.hpp 32-74, `system`: `#include <windows.h>` (line 46). -/
def windows (system : Env → Option Env) (e : Env) : Option Env := do
  if ← (Cond.eq "CFG_OS" "CFG_OS_WINDOWS").eval e then
    after.run (← system (← before.run e))
  else pure e

end Windows
end Utki
