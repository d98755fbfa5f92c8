import Verif.Model.Deserializer
import Verif.Model.Serialize
import Verif.Model.Flags
import Verif.Model.Enum
import Verif.Model.Unicode
import Verif.Model.VersionText
import Verif.Model.OMap
import Verif.Model.Views
import Verif.Model.TypeTraits
/-!
# The unit tests of serialisation, flags, enumerations, unicode, versions and spans on the model

The checks of /repo/tests/unit/src/deserializer.cpp, utility.cpp, flags.cpp, enum_array.cpp, enum_iterable.cpp, unicode.cpp, version.cpp, span.cpp,
variant.cpp (`index_of`), type_traits.cpp, run on the model. These are tests of the model, not proofs of properties.
-/
namespace Utki.Conformance

/-! ## deserializer.cpp -/

/-- The results of a list of calls and the number of bytes left. -/
def reads (dbg : Bool) (cs : List DCall) (buf : List Byte) : List (Res DVal) × Nat :=
  let r := runCalls dbg cs (Span.ofList buf)
  (r.1, r.2.size)

example : ∀ dbg, reads dbg [.string 3, .string 12, .string 3] (str "bbbHello world!ccc") =
    ([.ok (.bytes (str "bbb")), .ok (.bytes (str "Hello world!")), .ok (.bytes (str "ccc"))], 0) := by decide +kernel
example : ∀ dbg, reads dbg [.span 3, .span 12, .span 3] (str "bbbHello world!ccc") =
    ([.ok (.bytes (str "bbb")), .ok (.bytes (str "Hello world!")), .ok (.bytes (str "ccc"))], 0) := by decide +kernel
example : ∀ dbg, reads dbg [.skip 3, .span 12, .skip 3] (str "bbbHello world!ccc") =
    ([.ok .unit, .ok (.bytes (str "Hello world!")), .ok .unit], 0) := by decide +kernel
example : ∀ dbg, reads dbg [.u8, .u8] [0xa1, 0xb2] = ([.ok (.int 8 0xa1), .ok (.int 8 0xb2)], 0) := by decide +kernel
example : ∀ dbg, reads dbg [.u16le] [0xa1, 0xb2] = ([.ok (.int 16 0xb2a1)], 0) := by decide +kernel
example : ∀ dbg, reads dbg [.u32le] [0xa1, 0xb2, 0xc3, 0xd4] = ([.ok (.int 32 0xd4c3b2a1)], 0) := by decide +kernel
example : ∀ dbg, reads dbg [.u64le] [0xa1, 0xb2, 0xc3, 0xd4, 0xe5, 0xf6, 0x17, 0x28] = ([.ok (.int 64 0x2817f6e5d4c3b2a1)], 0) := by decide +kernel
example : ∀ dbg, reads dbg [.u16be] [0xb2, 0xa1] = ([.ok (.int 16 0xb2a1)], 0) := by decide +kernel
example : ∀ dbg, reads dbg [.u32be] [0xd4, 0xc3, 0xb2, 0xa1] = ([.ok (.int 32 0xd4c3b2a1)], 0) := by decide +kernel
example : ∀ dbg, reads dbg [.u64be] [0x28, 0x17, 0xf6, 0xe5, 0xd4, 0xc3, 0xb2, 0xa1] = ([.ok (.int 64 0x2817f6e5d4c3b2a1)], 0) := by decide +kernel

/-- 13, 13666, 13666e10f, 13.666f and their negatives: the bit patterns that IEEE-754 gives, and the bytes of the test tables. -/
def floatSamples : List (BitVec 32 × List Byte) := [
  (0x41500000, [0x00, 0x00, 0x50, 0x41]), (0x46558800, [0x00, 0x88, 0x55, 0x46]), (0x56f89546, [0x46, 0x95, 0xf8, 0x56]),
  (0x415aa7f0, [0xf0, 0xa7, 0x5a, 0x41]), (0xc1500000, [0x00, 0x00, 0x50, 0xc1]), (0xc6558800, [0x00, 0x88, 0x55, 0xc6]),
  (0xd6f89546, [0x46, 0x95, 0xf8, 0xd6]), (0xc15aa7f0, [0xf0, 0xa7, 0x5a, 0xc1])]

example : ∀ dbg, ∀ p ∈ floatSamples, serialize_float_le ⟨p.1⟩ [0, 0, 0, 0] 0 = .ok (p.2, 4) ∧
    deserialize_float_le p.2 0 = .ok ⟨p.1⟩ ∧ reads dbg [.f32le] p.2 = ([.ok (.float ⟨p.1⟩)], 0) := by decide +kernel
example : ∀ dbg, ∀ p ∈ floatSamples, serialize_float_be dbg ⟨p.1⟩ [0, 0, 0, 0] 0 = .ok (p.2.reverse, 4) ∧
    reads dbg [.f32be] p.2.reverse = ([.ok (.float ⟨p.1⟩)], 0) := by decide +kernel

/-! ## utility.cpp -/

example : serialize64le 0xabcdef87bcde67af (List.replicate 8 0) 0 = .ok ([0xaf, 0x67, 0xde, 0xbc, 0x87, 0xef, 0xcd, 0xab], 8) ∧
    deserialize64le [0xaf, 0x67, 0xde, 0xbc, 0x87, 0xef, 0xcd, 0xab] 0 = .ok 0xabcdef87bcde67af := by decide +kernel
/-- The first steps of the loops over integers. -/
example : ∀ k < 40, serialize32le (BitVec.ofNat 32 (k * 513177)) [0, 0, 0, 0] 0 =
    .ok ([BitVec.ofNat 8 (k * 513177), BitVec.ofNat 8 (k * 513177 / 2 ^ 8), BitVec.ofNat 8 (k * 513177 / 2 ^ 16), BitVec.ofNat 8 (k * 513177 / 2 ^ 24)], 4) := by
  decide +kernel
example : ∀ dbg, ∀ k < 300, serialize16le (BitVec.ofNat 16 k) [0, 0] 0 = .ok ([BitVec.ofNat 8 k, BitVec.ofNat 8 (k / 2 ^ 8)], 2) ∧
    serialize16be dbg (BitVec.ofNat 16 k) [0, 0] 0 = .ok ([BitVec.ofNat 8 (k / 2 ^ 8), BitVec.ofNat 8 k], 2) := by decide +kernel

example : OMap.flipMap (fun a b : String => decide (a < b)) [((10 : Nat), "10"), (13, "13"), (42, "42")] = [("10", 10), ("13", 13), ("42", 42)] := by
  decide +kernel
example : OMap.flipMap (fun a b : Nat => decide (a < b)) [("10", 10), ("13", 13), ("42", 42)] = [(10, "10"), (13, "13"), (42, "42")] := by
  decide +kernel
example : ∀ dbg, Views.skipFront dbg 3 id [0, 1, 2, 3, 4, 5, 6, 7, 8, 9] = .ok ([3, 4, 5, 6, 7, 8, 9], [0, 1, 2, 3, 4, 5, 6, 7, 8, 9]) := by
  decide +kernel
example : ["aaa", "bbb", "ccc", "", "a", "b", "c"].map (OMap.contains (· == ·) ["aaa", "bbb", "ccc"]) = [true, true, true, false, false, false, false] := by
  decide +kernel
example : ["aaa", "bbb", "ccc", "", "a", "b", "c"].map
    (OMap.containsMap (fun a b : String => decide (a < b)) [("aaa", "aaav"), ("bbb", "bbbv"), ("ccc", "cccv")]) =
      [true, true, true, false, false, false, false] := by decide +kernel

/-! ## flags.cpp. `test_enum` has 39 items; eighth is 8, second 2, nineteenth 18 (there is no eighteenth), twenty_seventh 26, eleventh 11,
twelveth 12, twenty_fifth 24. -/

example : ∀ dbg, (do
      let fs ← Flags.set dbg (Flags.ofBool false : Flags 39) 8 true
      let fs ← Flags.set dbg fs 2 true
      let fs ← Flags.set dbg fs 8 false
      return (← Flags.get dbg fs 8, ← Flags.get dbg fs 2)) = .ok (false, true) := by decide +kernel
example : ∀ dbg, (do
      let fs : Flags 39 := Flags.ofBool false
      let fs' ← Flags.set dbg fs 8 true
      return [fs.is_clear, fs.is_set, fs'.is_clear, fs'.is_set] : Res (List Bool)) = .ok [true, false, false, false] := by decide +kernel
example : ∀ dbg, (do
      let fs : Flags 39 := Flags.ofBool true
      let fs' ← Flags.set dbg (Flags.setAll fs true) 8 false
      return [fs.is_clear, fs.is_set, fs'.is_clear, fs'.is_set] : Res (List Bool)) = .ok [false, true, false, false] := by decide +kernel
example : (do let f : Flags 39 ← Flags.ofList []; return f.is_clear : Res Bool) = .ok true := by decide +kernel
/-- `initializer_list`, `make_flags`, `twice_initialized_flag`. -/
example : ∀ dbg, ∀ l ∈ [[26, 18], [18, 26, 18]], (do
      let f : Flags 39 ← Flags.ofList l
      let g ← Flags.clear dbg f 26
      let h ← Flags.clear dbg g 18
      let h' ← Flags.indexAssign g 18 false
      return ([f, g, h, h'].map Flags.is_clear, [← f.get dbg 26, ← f.index 26, ← f.get dbg 18, ← f.index 18], [← g.get dbg 26, ← g.get dbg 18],
        [← h.get dbg 26, ← h.get dbg 18]) : Res _) =
    .ok ([false, false, true, true], [true, true, true, true], [false, true], [false, false]) := by decide +kernel
/-- `operator_or_on_enum`. -/
example : ∀ dbg, (do
      let f : Flags 39 ← Flags.ofList [18, 26, 18]
      let g ← Flags.orEnum dbg f 8
      return (← f.get dbg 8, ← g.get dbg 8) : Res _) = .ok (false, true) := by decide +kernel
/-- `constructor_from_enum`, `free_operator_or_on_enum`. -/
example : ∀ dbg, (do
      let f : Flags 39 ← Flags.ofEnum 11
      let g ← Flags.clear dbg f 11
      let h : Flags 39 ← Flags.orEnums 8 11
      let k ← Flags.clear dbg h 8
      let k ← Flags.clear dbg k 11
      return [← f.get dbg 11, g.is_clear, ← h.get dbg 8, ← h.get dbg 11, k.is_clear] : Res _) = .ok [true, true, true, true, true] := by decide +kernel
/-- `operator_not_equals`, `operator_equals_equals`. -/
example : ∀ dbg, (do
      let f : Flags 39 ← Flags.ofList [8, 11]
      let e : Flags 39 := Flags.ofBool false
      let a : Flags 39 ← Flags.ofList [8]
      let b : Flags 39 ← Flags.ofList [8, 12]
      let c : Flags 39 ← Flags.ofList [8, 12, 24]
      let b' : Flags 39 ← Flags.orEnums 8 12
      let c' ← Flags.orEnum dbg b' 24
      let s ← Flags.set dbg e 8 true
      let s ← Flags.set dbg s 11 true
      let o : Flags 39 ← Flags.orEnums 8 11
      return ([f.is_clear, f.is_set], [e, a, b, c, b', c'].map (Flags.ne f), [s, f, o].map (Flags.eq f)) : Res _) =
    .ok ([false, false], [true, true, true, true, true, true], [true, true, true]) := by decide +kernel

/-! ## enum_array.cpp, enum_iterable.cpp -/

example : Enum.zipWithEnum 32 (fun s _ => s ++ "!") ["a", "b", "c", "d"] =
    .ok ([("a", 0), ("b", 1), ("c", 2), ("d", 3)], ["a!", "b!", "c!", "d!"]) := by decide +kernel
example : ∀ dbg, [0, 1, 2, 3].map (Enum.get dbg ["a", "b", "c", "d"]) = [.ok "a", .ok "b", .ok "c", .ok "d"] := by decide +kernel
example : ∀ dbg, (do let a ← Enum.set dbg ["a", "b", "c", "d"] 0 "a!"; Enum.get dbg a 0) = .ok "a!" := by decide +kernel
example : Enum.iterate 32 3 3 0 = .ok [0, 1, 2] := by decide +kernel

/-! ## unicode.cpp -/

/-- `aБцﺶ𠀋` in UTF-8. -/
def utf8Sample : List Byte := [0x61, 0xd0, 0x91, 0xd1, 0x86, 0xef, 0xba, 0xb6, 0xf0, 0xa0, 0x80, 0x8b]

/-- The characters seen by an iterator that is incremented five times, and whether it is at the end then. -/
def fiveSteps (i : Res Utf8Iter) : Res (List (BitVec 32) × Bool) := do
  let i0 ← i
  let i1 ← i0.inc
  let i2 ← i1.inc
  let i3 ← i2.inc
  let i4 ← i3.inc
  let i5 ← i4.inc
  return ([i0, i1, i2, i3, i4, i5].map Utf8Iter.character, i5.is_end)

example : fiveSteps (Utf8Iter.ofSpan (Span.ofList utf8Sample)) = .ok ([0x61, 0x411, 0x446, 0xfeb6, 0x2000b, 0], true) := by decide +kernel
example : fiveSteps (Utf8Iter.ofCStr (utf8Sample ++ [0]) 0) = .ok ([0x61, 0x411, 0x446, 0xfeb6, 0x2000b, 0], true) := by decide +kernel
example : to_utf32_span (Span.ofList utf8Sample) = .ok [0x61, 0x411, 0x446, 0xfeb6, 0x2000b] := by decide +kernel

/-- What `to_utf8(char32_t)` stores first, whatever was in the array before. -/
def firstBytes (n : Nat) (c : BitVec 32) : Res (List Byte) := do
  let r ← to_utf8_char (List.replicate 7 0xcc) c
  return r.take n

example : firstBytes 2 0 = .ok [0, 0] := by decide +kernel
example : firstBytes 2 0x73 = .ok [0x73, 0] := by decide +kernel
example : firstBytes 3 0x41a = .ok [0xd0, 0x9a, 0] := by decide +kernel
example : firstBytes 4 0xbf5 = .ok [0xe0, 0xaf, 0xb5, 0] := by decide +kernel
example : firstBytes 5 0x26218 = .ok [0xf0, 0xa6, 0x88, 0x98, 0] := by decide +kernel
example : firstBytes 6 0x3ffffff = .ok [0xfb, 0xbf, 0xbf, 0xbf, 0xbf, 0] := by decide +kernel
example : firstBytes 7 0x7fffffff = .ok [0xfd, 0xbf, 0xbf, 0xbf, 0xbf, 0xbf, 0] := by decide +kernel
example : to_utf8 (fun _ => List.replicate 7 0xcc) ("Hello world!".toList.map (fun c => BitVec.ofNat 32 c.toNat)) = .ok (str "Hello world!") := by
  decide +kernel

/-! ## version.cpp -/

example : ∀ p ∈ [(11, 20), (10, 21), (11, 21)], Misc.Version.toUint32 ⟨10, 20⟩ < Misc.Version.toUint32 ⟨p.1, p.2⟩ := by decide +kernel
example : Misc.Version.text ⟨10, 20⟩ = str "10.20" := by decide +kernel
example : [((1, 2), (1, 1)), ((1, 2), (1, 2)), ((1, 2), (1, 3)), ((2, 0), (1, 9)), ((2, 0), (0, 9))].map
    (fun p => (Misc.Version.ge ⟨p.1.1, p.1.2⟩ ⟨p.2.1, p.2.2⟩, Misc.Version.lt ⟨p.1.1, p.1.2⟩ ⟨p.2.1, p.2.2⟩)) =
      [(true, false), (true, false), (false, true), (true, false), (true, false)] := by decide +kernel

/-! ## span.cpp -/

def lt (a b : Nat) : Bool := decide (a < b)
def s1 : Span Nat := Span.ofList [10, 20, 13, 65]
def s2 : Span Nat := Span.ofList [3, 10, 20, 13, 65, 73]
/-- `make_span(v2).subspan(1, n)`, and of `v1`. -/
def sub (dbg : Bool) (s : Span Nat) (n : Nat) : Res (Span Nat) := s.subspan dbg 1 n

example : ∀ dbg, (Span.ofList (str "Hello world!")).subspan dbg 3 sizeMax = .ok ⟨str "Hello world!", 3, 9⟩ := by decide +kernel
example : ∀ dbg, (Span.ofList (str "Hello world!")).subspan dbg 12 sizeMax = .ok ⟨str "Hello world!", 12, 0⟩ := by decide +kernel
example : ∀ dbg, (Span.ofList (str "Hello world!")).subspan dbg 3 4 = .ok ⟨str "Hello world!", 3, 4⟩ := by decide +kernel
example : (Span.ofCStr (str "Hello world!" ++ [0]) 0) = .ok ⟨str "Hello world!" ++ [0], 0, 12⟩ := by decide +kernel
example : (Span.ofList [10, 20, 13, 65]).make_vector = .ok [10, 20, 13, 65] := by decide +kernel
example : ∀ dbg, (do
      let t ← sub dbg s2 4
      return [← Span.deep_not_equals (· == ·) s1 s2, ← Span.deep_equals (· == ·) s1 t]) = .ok [true, true] := by decide +kernel
/-- `less_than`. -/
example : ∀ dbg, (do
      return [← Span.deep_less_than lt s2 s1, ← Span.deep_less_than lt s1 (← sub dbg s2 4), ← Span.deep_less_than lt s1 (← sub dbg s2 5)]) =
    .ok [true, false, true] := by decide +kernel
/-- `greater_than_or_equals`. -/
example : ∀ dbg, (do
      return [← Span.deep_greater_or_equals lt s1 s2, ← Span.deep_greater_or_equals lt s2 (← sub dbg s1 3),
        ← Span.deep_greater_or_equals lt s1 (← sub dbg s2 4), ← Span.deep_greater_or_equals lt (← sub dbg s2 5) s1]) =
    .ok [true, false, true, true] := by decide +kernel
/-- `greater_than`. -/
example : ∀ dbg, (do
      return [← Span.deep_greater_than lt s1 s2, ← Span.deep_greater_than lt s1 (← sub dbg s2 4), ← Span.deep_greater_than lt (← sub dbg s2 5) s1]) =
    .ok [true, false, true] := by decide +kernel
/-- `less_than_or_equals`. -/
example : ∀ dbg, (do
      return [← Span.deep_less_or_equals lt s2 s1, ← Span.deep_less_or_equals lt s1 (← sub dbg s2 4), ← Span.deep_less_or_equals lt (← sub dbg s2 4) s1,
        ← Span.deep_less_or_equals lt s1 (← sub dbg s2 5)]) = .ok [true, true, true, true] := by decide +kernel
example : (Span.ofList ([] : List Nat)).empty = true := by decide +kernel
example : (Span.to_uint8_t (Span.ofList (str "abcd"))).toList = .ok (str "abcd") ∧
    (Span.to_char (Span.to_uint8_t (Span.ofList (str "abcd")))).toList = .ok (str "abcd") := by decide +kernel
/-- `overlaps`, for the addresses -1, 0, 1, 2, 11, 12, 13 of the test; the string is at 1 in a larger object. -/
example : [0, 1, 2, 3, 12, 13, 14].map (Span.overlaps (⟨[0] ++ str "hello wolrd!" ++ [0, 0], 1, 12⟩ : Span Byte)) =
    [.ok false, .ok true, .ok true, .ok true, .ok true, .ok false, .ok false] := by decide +kernel
example : (List.range 13).map (Span.at_ (Span.ofList (str "hello wolrd!"))) = (str "hello wolrd!").map Res.ok ++ [.throw .out_of_range] := by
  decide +kernel

/-! ## variant.cpp, type_traits.cpp -/

/-- `int`, `const char*`, `std::string`, `std::pair<bool, int>` are 0, 1, 2, 3; the values hold a string, an `int`, a pointer, a pair. -/
example : [0, 3, 2, 1].map (fun t => Misc.indexOf t [0, 1, 2, 3]) = [some 0, some 3, some 2, some 1] := by decide +kernel
example : [Traits.Ty.named ⟨false, false⟩ 0, .enumeration ⟨false, false⟩ false 0, .enumeration ⟨false, false⟩ true 1].map Traits.is_scoped_enum =
    [false, false, true] := by decide +kernel

end Utki.Conformance
