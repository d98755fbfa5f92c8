import Verif.Model.Misc
import Verif.Model.Number
/-!
# `operator<<` of `version_duplet`

Model of /repo/src/utki/version.hpp 59-62.
-/
namespace Utki
namespace Misc

/-- `o << n` for a `uint16_t`, in a stream with default flags and the classic locale: the decimal numeral. The buffer of the stream library
is large enough; its size here is arbitrary. -/
def streamU16 (n : BitVec 16) : List Byte := (toChars 10 128 n.toNat).getD []

/-- `operator<<`, version.hpp 59-62: what is written. -/
def Version.text (v : Version) : List Byte := streamU16 v.major ++ [ch '.'] ++ streamU16 v.minor

end Misc
end Utki
