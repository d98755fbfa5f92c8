import Verif.Core
/-!
# Model of the string utilities

/repo/src/utki/string.hpp, /repo/src/utki/string.cpp (except `word_wrap`, the parser and number conversion).
Strings and views are lists of characters of an arbitrary type `α`.
-/
namespace Utki

variable {α : Type} [DecidableEq α]

/-- `std::basic_string_view::substr(pos, n)`: throws `std::out_of_range` if `pos > size()`, otherwise the characters
`[pos, pos + min(n, size() - pos))`. -/
def substr (s : List α) (pos n : Nat) : Res (List α) :=
  if s.length < pos then .throw .out_of_range else .ok ((s.drop pos).take n)

/-- `std::basic_string_view::find(ch, pos)`; `none` is `npos`. -/
def findChar (s : List α) (d : α) (pos : Nat) : Option Nat :=
  ((s.drop pos).findIdx? (· == d)).map (· + pos)

/-- The loop of `split`, string.hpp:162-179. The loop has no bound in the code; `fuel` running out is reported as
divergence (proved impossible). -/
def splitLoop (s : List α) (d : α) : (fuel pos : Nat) → (ret : List (List α)) → Res (List (List α))
  | 0, _, _ => .diverge
  | fuel + 1, pos, ret =>
    match findChar s d pos with
    | none => do
      let f ← substr s pos (s.length - pos)
      return ret ++ [f]
    | some dpos => do
      let f ← substr s pos (dpos - pos)
      splitLoop s d fuel (dpos + 1) (ret ++ [f])

/-- `split(str, delimiter)`, string.hpp:153-182 (and the overloads for `std::string` and pointers, 190-215, which only
convert the argument). -/
def split (s : List α) (d : α) : Res (List (List α)) := splitLoop s d (s.length + 1) 0 []

/-- The loop of `join`, string.hpp:247-249; `ss` is the stream contents. `skip_front<1>` of a non-empty collection is the
collection without its first element (`Model/Views.lean`). -/
def joinLoop (d : α) : List (List α) → (ss : List α) → List α
  | [], ss => ss
  | s :: rest, ss => joinLoop d rest (ss ++ [d] ++ s)

/-- `join(strings, delimeter)`, string.hpp:234-252. -/
def join (strings : List (List α)) (d : α) : List α :=
  match strings with
  | [] => []
  | front :: rest => joinLoop d rest front

/-- `std::isspace(int)` of `<cctype>` in the "C" locale applied to a `char`. Where `char` is signed (`sgn`) bytes from
0x80 become negative: 0xff is EOF and not a space, the others are outside the domain of the function. -/
def isspace (sgn : Bool) (c : Byte) : Res Bool :=
  if sgn && c.msb then (if c = 0xff then .ok false else .ub .bad_argument)
  else .ok (c = 0x20 ∨ (0x09 ≤ c ∧ c ≤ 0x0d))

/-- `add_str` in `split(std::string_view)`, string.cpp:139-144. -/
def addStr (ret : List (List Byte)) (buf : List Byte) : List (List Byte) × List Byte :=
  if buf.isEmpty then (ret, buf) else (ret ++ [buf], [])

/-- The loop of `split(std::string_view)`, string.cpp:146-152. -/
def splitWsLoop (sgn : Bool) : List Byte → (ret : List (List Byte)) → (buf : List Byte) → Res (List (List Byte) × List Byte)
  | [], ret, buf => .ok (ret, buf)
  | c :: rest, ret, buf => do
    let sp ← isspace sgn c
    if sp then
      let (ret, buf) := addStr ret buf
      splitWsLoop sgn rest ret buf
    else
      splitWsLoop sgn rest ret (buf ++ [c])

/-- `split(std::string_view)`, string.cpp:133-157. -/
def splitWs (sgn : Bool) (s : List Byte) : Res (List (List Byte)) := do
  let (ret, buf) ← splitWsLoop sgn s [] []
  return (addStr ret buf).1

/-- `trim_front(s)`, string.hpp:690-705; `sp` is `std::isspace(c, std::locale::classic())`. `std::find_if` yields the
position of the first match or `end()`. -/
def trim_front (sp : α → Bool) (s : List α) : Res (List α) :=
  let pos := s.findIdx (fun c => !sp c)
  substr s pos (s.length - pos)

/-- `trim_back(s)`, string.hpp:734-750: the match is searched from the back, `base()` of the reverse iterator at reverse
position `k` is position `size() - k`. -/
def trim_back (sp : α → Bool) (s : List α) : Res (List α) :=
  let k := s.reverse.findIdx (fun c => !sp c)
  substr s 0 (s.length - k)

/-- `trim(s)`, string.hpp:779-783. -/
def trim (sp : α → Bool) (s : List α) : Res (List α) := do
  let t ← trim_back sp s
  trim_front sp t

/-- `std::isspace(char, std::locale::classic())`: works for every `char` value. -/
def classicSpace (c : Byte) : Bool := c = 0x20 ∨ (0x09 ≤ c ∧ c ≤ 0x0d)

/-- `std::basic_string_view::find(str)`: the lowest position where `t` occurs; `none` is `npos`. -/
def findStr (s t : List α) : Option Nat :=
  if t.isPrefixOf s then some 0
  else match s with
    | [] => none
    | _ :: s' => (findStr s' t).map (· + 1)
termination_by s.length

/-- `starts_with(str, prefix)`, string.hpp:824-831. `cpp20` selects the branch: `std::string_view::starts_with` compares
the first `prefix.size()` characters. -/
def starts_with (cpp20 : Bool) (s prefix_ : List α) : Bool :=
  if cpp20 then s.take prefix_.length == prefix_
  else findStr s prefix_ == some 0

/-- `ends_with(str, suffix)`, string.hpp:841-854. `cpp20` selects the branch: `std::string_view::ends_with` checks the size
and compares the last `suffix.size()` characters. -/
def ends_with (cpp20 : Bool) (s suffix : List α) : Bool :=
  if cpp20 then
    decide (suffix.length ≤ s.length) && s.drop (s.length - suffix.length) == suffix
  else if suffix.isEmpty then true
  else if suffix.length > s.length then false
  else findStr s suffix == some (s.length - suffix.length)

/-- `make_indentation(depth, size)`, string.cpp:492-500: the product is computed in `unsigned` (32 bits). -/
def make_indentation (depth size : BitVec 32) : List Byte :=
  if size = 0 then List.replicate depth.toNat (ch '\t')
  else List.replicate (depth * size).toNat (ch ' ')

/-! ## `make_string` -/

/-- What a call of `vsnprintf` can do: report an error (negative result) or format a text. -/
inductive Vs where
  | error
  | text (t : List Byte)
  deriving DecidableEq, Repr

/-- `vsnprintf(buf, n, …)` formatting `t`: writes at most `n - 1` characters and a NUL into the buffer (nothing if
`n = 0`). Undefined if the buffer is smaller than claimed. -/
def vsWrite (buf : List Byte) (n : Nat) (t : List Byte) : Res (List Byte) :=
  if buf.length < n then .ub .oob_write
  else if n = 0 then .ok buf
  else .ok (t.take (n - 1) ++ [0] ++ buf.drop (min (n - 1) t.length + 1))

/-- The loop of `make_string_va_list`, string.cpp:72-115. `buf` is the memory `buf_ptr` points to and `buf_size` what is
passed to `vsnprintf`; `i` counts iterations (it exists in debug builds only); `vs i` is what the `i`-th `vsnprintf`
call does; `resized n` is the memory of a string resized to `n` characters: `n + 1` characters (contents of `ret.resize`:
zeros or old contents, irrelevant). Returns the number of calls made. -/
def makeStringLoop (dbg : Bool) (vs : Nat → Vs) : (fuel i : Nat) → (buf : List Byte) → (buf_size : Nat) →
    Res (List Byte) × Nat
  | 0, i, _, _ => (.diverge, i)
  | fuel + 1, i, buf, buf_size =>
    match vs i with
    | .error => (.throw .logic_error, i + 1)
    | .text t =>
      match vsWrite buf buf_size t with
      | .ok buf' =>
        if t.length ≥ buf_size then
          let buf := List.replicate (t.length + 1) 0
          match ASSERT dbg (i < 1) with
          | .ok _ => makeStringLoop dbg vs fuel (i + 1) buf (t.length + 1)
          | _ => (.abort, i + 1)
        else if buf'.length < t.length then (.ub .oob_read, i + 1)
        else (.ok (buf'.take t.length), i + 1)
      | _ => (.ub .oob_write, i + 1)

/-- `make_string_va_list(format, args)`, string.cpp:51-118 (`make_string`, 120-131, only collects the arguments). `junk`
is the initial contents of the 1024-byte array. Not modelled here: `std::string::resize` running out of memory, see `Model/MakeString.lean`; a formatted
length is at most INT_MAX. The bound of 3 iterations is enough whenever `vsnprintf` formats the same text each time. -/
def make_string_va_list (dbg : Bool) (junk : List Byte) (vs : Nat → Vs) : Res (List Byte) × Nat :=
  makeStringLoop dbg vs 3 0 junk 1024

end Utki
