import Verif.Model.StreamFormat
import Verif.Model.VersionText
import Verif.Model.Flags
/-!
# Printing the library's own types to streams with a format

`operator<<` of `version_duplet`, /repo/src/utki/version.hpp 59-62, of `flags`, flags.hpp 342-345, and of `span`, span.hpp 537-548, and `cat`, string.hpp 261-270. The format of streams is that of
`Model/StreamFormat`; streams do not fail.
-/
namespace Utki
namespace StreamFormat
open Misc (Version)

/-- `o << v`, version.hpp 59-62: a number, a character and a number. -/
def putVersion (f : Fmt) (v : Version) : List Byte × Fmt := puts f [.num v.major.toNat, .text [ch '.'], .num v.minor.toNat]

/-- `o << flags`, flags.hpp 342-345: `std::bitset` is converted to a string, which is printed. -/
def putFlags {N : Nat} (f : Fmt) (fl : Flags N) : List Byte × Fmt := put f (.text fl.print)

/-- `s << buf`, span.hpp 537-548: the loop over the elements; `acc` is what was written. Simplified: the elements are texts (characters) or unsigned integers. -/
def putSpanLoop : List Item → List Byte × Fmt → List Byte × Fmt
  | [], st => st
  | e :: es, (acc, f) => putSpanLoop es (acc ++ (put f e).1, (put f e).2)

/-- `s << buf`, span.hpp 537-548. -/
def putSpan (f : Fmt) (buf : List Item) : List Byte × Fmt := putSpanLoop buf ([], f)

/-- `cat(s...)`, string.hpp 261-270: all arguments are printed to a new stream. -/
def cat (s : List Item) : List Byte := (puts .new s).1

end StreamFormat
end Utki
