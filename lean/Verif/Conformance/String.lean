import Verif.Model.String
import Verif.Model.WordWrap
import Verif.Model.Parser
import Verif.Model.FloatFrom
/-!
# The unit tests of strings on the model

The checks of /repo/tests/unit/src/string.cpp, run on the model. These are tests of the model, not proofs of properties. Left out: tests that only
differ in the types of their arguments, and `cat` of numbers, which is `std::ostream`.
-/
namespace Utki.Conformance
open FastFloat

/-! ## make_string, lines 15-212 -/

example : make_string_va_list true (List.replicate 1024 0) (fun _ => .text (str " ")) = (.ok (str " "), 1) := by decide +kernel
example : make_string_va_list true (List.replicate 1024 0) (fun _ => .text (str "Hello 13 world!")) = (.ok (str "Hello 13 world!"), 1) := by
  decide +kernel
/-- 64 times sixteen characters and fifteen more: two calls. -/
example :
    let t := (List.replicate 64 (str "1234567890abcdef")).flatten ++ str "Hello 13 world!"
    t.length = 1024 + 15 ∧ make_string_va_list true (List.replicate 1024 0) (fun _ => .text t) = (.ok t, 2) := by decide +kernel

/-! ## split and join, lines 214-409 -/

example : split (str "qwe/rtyu/io/p//[]") (ch '/') = .ok [str "qwe", str "rtyu", str "io", str "p", [], str "[]"] := by decide +kernel
example : split "qwe/rtyu/io/p//[]".toList '/' = .ok ["qwe".toList, "rtyu".toList, "io".toList, "p".toList, [], "[]".toList] := by decide +kernel
example : split (str "qwe/rtyu/io/p//[]/") (ch '/') = .ok [str "qwe", str "rtyu", str "io", str "p", [], str "[]", []] := by decide +kernel
example : (split (str "") (ch '/')) = .ok [[]] := by decide +kernel
example : ∀ sgn, splitWs sgn (str " hello world    bla\tblah\n!") = .ok [str "hello", str "world", str "bla", str "blah", str "!"] := by
  decide +kernel
example : join [str "hello", str "world", str "!"] (ch '#') = str "hello#world#!" := by decide +kernel

/-! ## word_wrap, lines 411-591 -/

example : ∀ cpp20 dbg, word_wrap cpp20 dbg (str "abcd efgh i jkl mnop") 7 = .ok [str "abcd", str "efgh i", str "jkl", str "mnop"] := by decide +kernel
example : ∀ cpp20 dbg, word_wrap cpp20 dbg (str "abcd efgh i jkl mnop") 0 = .ok [str "abcd efgh i jkl mnop"] := by decide +kernel
example : ∀ cpp20 dbg, word_wrap cpp20 dbg (str "ab cd e ") 1 = .ok [str "a", str "b", str "c", str "d", str "e"] := by decide +kernel
example : ∀ cpp20 dbg, word_wrap cpp20 dbg (str "ab cdefghijklmno p") 5 = .ok [str "ab", str "cdefg", str "hijkl", str "mno p"] := by decide +kernel
example : ∀ cpp20 dbg, word_wrap cpp20 dbg (str "ab cd\nef\n g\n  h\n  ijk   \nlm   no p \n\nq\n") 5 =
    .ok [str "ab cd", str "ef", str " g", str "  h", str "  ijk", str "   ", str "lm", str "  no", str "p ", [], str "q", []] := by decide +kernel

/-! ## from_chars and string_parser, lines 709-944 -/

/-- A floating-point unit that does not round to the nearest, so that the conversion does not use it here. -/
def someFpu : Fpu := ⟨id, fun _ _ => 0, fun _ _ => 0, fun _ _ => 0, fun _ _ => 1⟩

/-- The bit pattern of `3.14159f` is 0x40490fd0, that of `3.14159` is 0x400921f9f01b866e. -/
example : @from_chars_float Platform.gcc_x86_64 someFpu (str "3.14159  ") .general = .ok ⟨some 0x40490fd0, 7, .none⟩ := by decide +kernel
example : @from_chars_double Platform.gcc_x86_64 someFpu (str "3.14159  ") .general = .ok ⟨some 0x400921f9f01b866e, 7, .none⟩ := by decide +kernel
example : @from_chars_float Platform.msvc_x86 someFpu (str "3.14159  ") .general = .ok ⟨some 0x40490fd0, 7, .none⟩ := by decide +kernel
example : @from_chars_double Platform.msvc_x86 someFpu (str "3.14159  ") .general = .ok ⟨some 0x400921f9f01b866e, 7, .none⟩ := by decide +kernel
example : @from_chars_float Platform.gcc_x86_64 someFpu (str "5.47382e-48") .general = .ok ⟨some 0, 11, .result_out_of_range⟩ := by decide +kernel

/-- The test `string_parser`: what every step gives, and the first character that is left (none: empty). -/
def parserScript (dbg : Bool) : Meth Parser (List (Option Byte) × List Nat × List (List Byte) × List Int) := do
  let first : Meth Parser (Option Byte) := do return (← Meth.get).head?
  let c0 ← first
  let pi ← Parser.read_number_float dbg (fun s f => @from_chars_float Platform.gcc_x86_64 someFpu s f)
  let c1 ← first
  Parser.skip_whitespaces_and_comma
  let c2 ← first
  let w1 ← Parser.read_word_until (ch ',')
  let c3 ← first
  let c4 ← Parser.read_char
  Parser.skip_whitespaces
  let w2 ← Parser.read_word
  let c5 ← first
  Parser.skip_whitespaces_and_comma
  let c6 ← first
  Parser.skip_inclusive_until (ch '=')
  let c7 ← first
  let e ← Parser.read_number_float dbg (fun s f => @from_chars_double Platform.gcc_x86_64 someFpu s f)
  let c8 ← first
  Parser.skip_whitespaces
  let w3 ← Parser.read_word
  let c9 ← first
  Parser.skip_whitespaces
  let w4 ← Parser.read_word
  let c10 ← first
  Parser.skip_whitespaces
  let w5 ← Parser.read_word
  Parser.skip_whitespaces
  let n1 ← Parser.read_numberS dbg 32
  let c11 ← first
  Parser.skip_whitespaces_and_comma
  let n2 ← Parser.read_numberS dbg 32
  let c12 ← first
  Parser.skip_whitespaces_and_comma
  let n3 ← Parser.read_numberU dbg 32
  let c13 ← first
  Parser.skip_whitespaces_and_comma
  let n4 ← Parser.read_numberU dbg 32
  let c14 ← first
  Parser.skip_whitespaces_and_comma
  let n5 ← Parser.read_numberU dbg 32
  let c15 ← first
  return ([c0, c1, c2, c3, some c4, c5, c6, c7, c8, c9, c10, c11, c12, c13, c14, c15], [pi, e], [w1, w2, w3, w4, w5],
    [n1, n2, n3, n4, n5])

set_option synthInstance.maxSize 1024 in
set_option synthInstance.maxHeartbeats 100000 in
/-- Lines 747-862; 0x400599999999999a is 2.7. -/
example : ∀ dbg, parserScript dbg (str "  3.14159, some_word, bla , bla e=2.7 and that's it, 13, -13, 0b1101, 015, 0xd") =
    (.ok ([some (ch ' '), some (ch ','), some (ch 's'), some (ch ','), some (ch ','), some (ch ' '), some (ch 'b'), some (ch '2'), some (ch ' '),
        some (ch ' '), some (ch ' '), some (ch ','), some (ch ','), some (ch ','), some (ch ','), none],
      [0x40490fd0, 0x400599999999999a], [str "some_word", str "bla", str "and", str "that's", str "it,"], [13, -13, 13, 13, 13]), []) := by
  decide +kernel

/-- Lines 864-908. -/
example : (do
      let a ← Parser.skip_inclusive_until_one_of (str "Wo")
      let b ← Parser.peek_char
      let c ← Parser.skip_inclusive_until_one_of (str "Wo")
      let d ← Parser.peek_char
      let e ← Parser.skip_inclusive_until_one_of (str "Wnm")
      return [a, b, c, d, e] : Meth Parser (List Byte)) (str "Hello _ World!") = (.ok [ch 'o', ch ' ', ch 'W', ch 'o', 0], []) := by decide +kernel
example : Parser.skip_inclusive_until_one_of [] (str "Hello _ World!") = (.ok 0, []) := by decide +kernel

/-- Lines 910-919. -/
example : ∀ dbg, Parser.read_number_float dbg (fun s f => @from_chars_float Platform.gcc_x86_64 someFpu s f) (str "5.47382e-48") = (.ok 0, []) := by
  decide +kernel

/-! ## to_string, lines 940-1010 -/

example : [0, 1, 13, 4294967295].map (to_stringU · .dec) = [str "0", str "1", str "13", str "4294967295"] := by decide +kernel
example : [0, 1, 13, 4294967295].map (to_stringU · .hex) = [str "0x0", str "0x1", str "0xd", str "0xffffffff"] := by decide +kernel
example : [0, 1, 13, 4294967295].map (to_stringU · .oct) = [str "00", str "01", str "015", str "037777777777"] := by decide +kernel
example : [0, 1, 13, 4294967295].map (to_stringU · .bin) = [str "0b0", str "0b1", str "0b1101", str "0b11111111111111111111111111111111"] := by
  decide +kernel

/-! ## trim, indentation, starts_with, ends_with, lines 1019-1104 -/

example : trim_front classicSpace (str "\n  hello world \t\n") = .ok (str "hello world \t\n") := by decide +kernel
example : trim_back classicSpace (str "\n  hello world \t\n") = .ok (str "\n  hello world") := by decide +kernel
example : trim classicSpace (str "\n  hello world \t\n") = .ok (str "hello world") := by decide +kernel
example : [(0, 1), (0, 2), (1, 1), (2, 1), (1, 2), (2, 2), (3, 2), (2, 3), (0, 0), (1, 0), (2, 0), (3, 0)].map (fun p => make_indentation p.1 p.2) =
    [str "", str "", str " ", str "  ", str "  ", str "    ", str "      ", str "      ", str "", str "\t", str "\t\t", str "\t\t\t"] := by decide +kernel
example : ∀ cpp20, [("asdfghjk", "asd"), (" s asdfghjk", "  asd"), ("asdfghjk", ""), ("", "asd"), (" asdfghjk", "asd"), ("a", "asd")].map
    (fun p => starts_with cpp20 (str p.1) (str p.2)) = [true, false, true, false, false, false] := by decide +kernel
example : ∀ cpp20, [("asdfghjk", "hjk"), (" s asdfghjk", "  asdfghjk"), ("asdfghjk", ""), ("", "asd"), (" asdfghjk ", "hjk"), ("k", "hjk")].map
    (fun p => ends_with cpp20 (str p.1) (str p.2)) = [true, false, true, false, false, false] := by decide +kernel

end Utki.Conformance
