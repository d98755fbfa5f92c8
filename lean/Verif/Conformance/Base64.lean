import Verif.Model.Base64
/-!
# The unit tests of base64 on the model

The samples of /repo/tests/unit/src/base64.cpp 10-34, run on the model in debug and release builds, with signed and unsigned `char`. These are tests of
the model, not proofs of properties.
-/
namespace Utki.Conformance

/-- The samples: text and expected bytes. -/
def base64Samples : List (String × String) := [
  ("", ""),
  ("SA==", "H"),
  ("SA", "H"),
  ("SGU=", "He"),
  ("SGU", "He"),
  ("SGVs", "Hel"),
  ("SGVsbA==", "Hell"),
  ("SGVsbA", "Hell"),
  ("SGVsbG8=", "Hello"),
  ("SGVsbG8", "Hello"),
  ("SGVsbG8g", "Hello "),
  ("SGVsbG8gdw==", "Hello w"),
  ("SGVsbG8gdw", "Hello w"),
  ("SGVsbG8gd28=", "Hello wo"),
  ("SGVsbG8gd28", "Hello wo"),
  ("SGVsbG8gd29y", "Hello wor"),
  ("SGVsbG8gd29ybGQh", "Hello world!")]

example : ∀ p ∈ base64Samples, ∀ dbg sgn : Bool, Base64.base64_decode dbg sgn (str p.1) = .ok (str p.2) := by decide +kernel

end Utki.Conformance
