import Verif.Lemmas.Serialize
import Verif.Lemmas.Span
import Verif.Spec.Cursor
/-! Helper lemmas for the deserializer. -/
namespace Utki
open Spec

theorem List.take_one_eq_of_pos {α : Type} {l : List α} (h : 0 < l.length) : l.take 1 = [l[0]] := by
  cases l with
  | nil => simp at h
  | cons a l => simp

/-- What one call leaves behind: the span moved forward by `n`. -/
def advance (d : Deserializer) (n : Nat) : Deserializer := ⟨d.mem, d.off + n, Span.size d - n⟩

theorem advance_valid {d : Deserializer} (h : Span.Valid d) {n : Nat} (hn : n ≤ Span.size d) : Span.Valid (advance d n) := by
  simp only [Span.Valid, advance] at *; omega

theorem advance_contents {d : Deserializer} {n : Nat} : Span.contents (advance d n) = (Span.contents d).drop n :=
  Span.contents_drop

theorem take_contents {d : Deserializer} {n : Nat} (hn : n ≤ Span.size d) :
    (Span.contents d).take n = (d.mem.drop d.off).take n := by
  simp only [Span.contents, List.take_take]; rw [Nat.min_eq_left hn]

theorem ofNat_toNat_le {n : Nat} {bs : List Byte} (h : bs.length = n) :
    (BitVec.ofNat (8 * n) (leValue bs)).toNat = leValue bs := by
  have := leValue_lt bs
  rw [h, pow256] at this
  rw [BitVec.toNat_ofNat, Nat.mod_eq_of_lt this]

theorem ofNat_toNat_be {n : Nat} {bs : List Byte} (h : bs.length = n) :
    (BitVec.ofNat (8 * n) (beValue bs)).toNat = beValue bs := by
  have := beValue_lt bs
  rw [h, pow256] at this
  rw [BitVec.toNat_ofNat, Nat.mod_eq_of_lt this]

/-- One call refines one cursor step. -/
theorem run_step (dbg : Bool) (d : Deserializer) (hv : Span.Valid d) (hsz : d.mem.length < sizeMax) (c : DCall) :
    c.run dbg d =
      if need c ≤ Span.size d then (.ok (decode c ((Span.contents d).take (need c))), advance d (need c))
      else (.throw .invalid_argument, d) := by
  have hvl : d.off + Span.size d ≤ d.mem.length := hv
  by_cases hn : need c ≤ Span.size d
  · have hne : need c ≠ sizeMax := by omega
    have hnlt : ¬ (Deserializer.size d < need c) := by simp only [Deserializer.size]; omega
    have hroom : d.off + need c ≤ d.mem.length := by omega
    have hle := deserialize_le_eq (need c) d.mem d.off hroom
    have hbe := deserialize_be_eq dbg (need c) d.mem d.off hroom
    have hlen : ((d.mem.drop d.off).take (need c)).length = need c := take_drop_length hroom
    have h1 := ofNat_toNat_le hlen
    have h2 := ofNat_toNat_be hlen
    have hsub := Span.subspan_rest dbg hv hn
    have hsub0 : Span.subspan dbg d 0 (need c) = .ok ⟨d.mem, d.off + 0, need c⟩ :=
      Span.subspan_count dbg hv (by omega) hne
    have hval : Span.Valid (⟨d.mem, d.off + 0, need c⟩ : Span Byte) := by simp only [Span.Valid]; omega
    have hcont : Span.contents (⟨d.mem, d.off + 0, need c⟩ : Span Byte) = (Span.contents d).take (need c) := by
      rw [Span.contents_drop_take (by omega)]; simp
    have hlist := Span.toList_eq hval
    rw [hcont] at hlist
    rw [if_pos hn]
    rw [← take_contents hn] at hle hbe h1 h2
    cases c <;> simp only [need] at *
    case u8 =>
      have hf := Span.front_ok dbg hv (by omega)
      simp only [DCall.run, Deserializer.read_uint8]
      rw [Meth.bind_ok (s' := advance d 1) (a := (Span.contents d)[0]'(by rw [Span.length_contents hv]; omega))]
      · simp only [Meth.pure_eval, decode]
        have hcl := Span.length_contents hv
        rw [List.take_one_eq_of_pos (by omega : 0 < (Span.contents d).length)]
        simp [leValue]
      · simp only [Meth.get_bind, hnlt, if_false, hf, hsub, Meth.lift_ok_bind, Meth.set_bind, Meth.pure_eval]
        rfl
    case string n =>
      simp only [DCall.run, Deserializer.read_string]
      rw [Meth.bind_ok (s' := advance d n) (a := (Span.contents d).take n)]
      · simp [decode]
      · simp only [Meth.get_bind, hnlt, if_false, hsub0, make_string_view, hlist, hsub, Meth.lift_ok_bind,
          Meth.set_bind, Meth.pure_eval]
        rfl
    case span n =>
      simp only [DCall.run, Deserializer.read_span]
      rw [Meth.bind_ok (s' := advance d n) (a := ⟨d.mem, d.off + 0, n⟩)]
      · simp only [hlist, Meth.lift_ok_bind, Meth.pure_eval, decode]
      · simp only [Meth.get_bind, hnlt, if_false, hsub0, hsub, Meth.lift_ok_bind,
          Meth.set_bind, Meth.pure_eval]
        rfl
    case skip n =>
      simp only [DCall.run, Deserializer.skip]
      rw [Meth.bind_ok (s' := advance d n) (a := ())]
      · simp [decode]
      · simp only [Meth.get_bind, hnlt, if_false, hsub, Meth.lift_ok_bind, Meth.set_eval]
        rfl
    case u16le =>
      simp only [DCall.run, Deserializer.read_uint16_le, deserialize16le]
      rw [Meth.bind_ok (s' := advance d 2) (a := _)]
      rotate_left
      · simp only [Meth.get_bind, hnlt, if_false, hle, hsub, Meth.lift_ok_bind, Meth.set_bind, Meth.pure_eval]
        rfl
      · simp only [Meth.pure_eval, decode]; rw [show _ = _ from h1]
    case u32le =>
      simp only [DCall.run, Deserializer.read_uint32_le, deserialize32le]
      rw [Meth.bind_ok (s' := advance d 4) (a := _)]
      rotate_left
      · simp only [Meth.get_bind, hnlt, if_false, hle, hsub, Meth.lift_ok_bind, Meth.set_bind, Meth.pure_eval]
        rfl
      · simp only [Meth.pure_eval, decode]; rw [show _ = _ from h1]
    case u64le =>
      simp only [DCall.run, Deserializer.read_uint64_le, deserialize64le]
      rw [Meth.bind_ok (s' := advance d 8) (a := _)]
      rotate_left
      · simp only [Meth.get_bind, hnlt, if_false, hle, hsub, Meth.lift_ok_bind, Meth.set_bind, Meth.pure_eval]
        rfl
      · simp only [Meth.pure_eval, decode]; rw [show _ = _ from h1]
    case u16be =>
      simp only [DCall.run, Deserializer.read_uint16_be, deserialize16be]
      rw [Meth.bind_ok (s' := advance d 2) (a := _)]
      rotate_left
      · simp only [Meth.get_bind, hnlt, if_false, hbe, hsub, Meth.lift_ok_bind, Meth.set_bind, Meth.pure_eval]
        rfl
      · simp only [Meth.pure_eval, decode]; rw [show _ = _ from h2]
    case u32be =>
      simp only [DCall.run, Deserializer.read_uint32_be, deserialize32be]
      rw [Meth.bind_ok (s' := advance d 4) (a := _)]
      rotate_left
      · simp only [Meth.get_bind, hnlt, if_false, hbe, hsub, Meth.lift_ok_bind, Meth.set_bind, Meth.pure_eval]
        rfl
      · simp only [Meth.pure_eval, decode]; rw [show _ = _ from h2]
    case u64be =>
      simp only [DCall.run, Deserializer.read_uint64_be, deserialize64be]
      rw [Meth.bind_ok (s' := advance d 8) (a := _)]
      rotate_left
      · simp only [Meth.get_bind, hnlt, if_false, hbe, hsub, Meth.lift_ok_bind, Meth.set_bind, Meth.pure_eval]
        rfl
      · simp only [Meth.pure_eval, decode]; rw [show _ = _ from h2]
    case f32le =>
      simp only [DCall.run, Deserializer.read_float_le, deserialize_float_le, deserialize32le]
      rw [Meth.bind_ok (s' := advance d 4) (a := _)]
      rotate_left
      · simp only [Meth.get_bind, hnlt, if_false, hle, hsub, Meth.lift_ok_bind, Meth.set_bind, Meth.pure_eval,
          Res.bind_eq, Res.ok_bind, Res.pure_eq]
        rfl
      · simp only [Meth.pure_eval, decode]
    case f32be =>
      simp only [DCall.run, Deserializer.read_float_be, deserialize_float_be, deserialize32be]
      rw [Meth.bind_ok (s' := advance d 4) (a := _)]
      rotate_left
      · simp only [Meth.get_bind, hnlt, if_false, hbe, hsub, Meth.lift_ok_bind, Meth.set_bind, Meth.pure_eval,
          Res.bind_eq, Res.ok_bind, Res.pure_eq]
        rfl
      · simp only [Meth.pure_eval, decode]
  · have hlt : Deserializer.size d < need c := by simp only [Deserializer.size]; omega
    rw [if_neg hn]
    cases c <;> simp only [need] at hlt <;>
      simp only [DCall.run, Deserializer.read_uint8, Deserializer.read_uint16_le, Deserializer.read_uint32_le,
        Deserializer.read_uint64_le, Deserializer.read_float_le, Deserializer.read_uint16_be,
        Deserializer.read_uint32_be, Deserializer.read_uint64_be, Deserializer.read_float_be,
        Deserializer.read_string, Deserializer.read_span, Deserializer.skip] <;>
      apply Meth.bind_throw <;> simp only [Meth.get_bind, if_pos hlt, Meth.throw_eval]

/-- Histories refine cursor histories. -/
theorem runCalls_eq (dbg : Bool) (cs : List DCall) (d : Deserializer) (hv : Span.Valid d) (hsz : d.mem.length < sizeMax) :
    (runCalls dbg cs d).1 = (cursorRun cs (Span.contents d)).1 ∧
    Span.contents (runCalls dbg cs d).2 = (cursorRun cs (Span.contents d)).2 ∧
    Span.Valid (runCalls dbg cs d).2 ∧ (runCalls dbg cs d).2.mem = d.mem := by
  induction cs generalizing d with
  | nil => exact ⟨rfl, rfl, hv, rfl⟩
  | cons c cs ih =>
    have hl := Span.length_contents hv
    simp only [runCalls, cursorRun, run_step dbg d hv hsz c, cursorStep, hl]
    by_cases hn : need c ≤ Span.size d
    · simp only [if_pos hn]
      have := ih (advance d (need c)) (advance_valid hv hn) hsz
      rw [advance_contents] at this
      obtain ⟨h1, h2, h3, h4⟩ := this
      exact ⟨by rw [h1], h2, h3, h4⟩
    · simp only [if_neg hn]
      obtain ⟨h1, h2, h3, h4⟩ := ih d hv hsz
      exact ⟨by rw [h1], h2, h3, h4⟩

/-- bytes a field is stored as -/
def Field.bytes : Field → List Byte
  | .u8 v => leBytes 1 v.toNat
  | .u16le v => leBytes 2 v.toNat
  | .u32le v => leBytes 4 v.toNat
  | .u64le v => leBytes 8 v.toNat
  | .f32le v => leBytes 4 v.bits.toNat
  | .u16be v => beBytes 2 v.toNat
  | .u32be v => beBytes 4 v.toNat
  | .u64be v => beBytes 8 v.toNat
  | .f32be v => beBytes 4 v.bits.toNat
  | .string l => l
  | .block l => l

theorem copyBytes_eq (bs mem : List Byte) (p : Nat) (h : p + bs.length ≤ mem.length) :
    copyBytes bs mem p = .ok (patch mem p bs, p + bs.length) := by
  induction bs generalizing mem p with
  | nil => simp [copyBytes, patch_nil]
  | cons b bs ih =>
    simp only [List.length_cons] at h
    simp only [copyBytes]
    rw [wr_eq_ok (by omega), Res.bind_eq, Res.ok_bind, ih _ _ (by simp; omega), patch_cons _ _ _ _ (by omega)]
    simp; omega

theorem Field.length_bytes (f : Field) : f.bytes.length = need f.call := by
  cases f <;> simp [Field.bytes, Field.call, need, length_leBytes, length_beBytes]

theorem Field.write_eq (dbg) (f : Field) (mem : List Byte) (p : Nat) (h : p + f.bytes.length ≤ mem.length) :
    f.write dbg mem p = .ok (patch mem p f.bytes, p + f.bytes.length) := by
  have hl := f.length_bytes
  cases f <;> simp only [Field.call, need] at hl <;> rw [hl] at h ⊢
  case u8 v => exact serialize_le_eq (n := 1) v mem p h
  case u16le v => exact serialize_le_eq (n := 2) v mem p h
  case u32le v => exact serialize_le_eq (n := 4) v mem p h
  case u64le v => exact serialize_le_eq (n := 8) v mem p h
  case f32le v => exact serialize_le_eq (n := 4) v.bits mem p h
  case u16be v => exact serialize_be_eq dbg (n := 2) v mem p h
  case u32be v => exact serialize_be_eq dbg (n := 4) v mem p h
  case u64be v => exact serialize_be_eq dbg (n := 8) v mem p h
  case f32be v => exact serialize_be_eq dbg (n := 4) v.bits mem p h
  case string l => exact copyBytes_eq l mem p h
  case block l => exact copyBytes_eq l mem p h

theorem patch_patch (mem : List Byte) (p : Nat) (as bs : List Byte) (h : p + as.length + bs.length ≤ mem.length) :
    patch (patch mem p as) (p + as.length) bs = patch mem p (as ++ bs) := by
  have h1 : (mem.take p).length = p := by simp; omega
  simp only [patch, List.length_append]
  have e1 : List.take (p + as.length) (List.take p mem ++ as ++ List.drop (p + as.length) mem) = List.take p mem ++ as := by
    rw [List.take_append_of_le_length (by simp [h1])]
    rw [List.take_of_length_le (by simp [h1])]
  have e2 : List.drop (p + as.length + bs.length) (List.take p mem ++ as ++ List.drop (p + as.length) mem) =
      List.drop (p + (as.length + bs.length)) mem := by
    rw [List.drop_append, List.drop_of_length_le (by simp [h1]), List.nil_append, List.drop_drop]
    congr 1
    simp only [List.length_append, h1]
    omega
  rw [e1, e2]; simp

theorem writeFields_eq (dbg) (fs : List Field) (mem : List Byte) (p : Nat)
    (h : p + (fs.flatMap Field.bytes).length ≤ mem.length) :
    writeFields dbg fs mem p = .ok (patch mem p (fs.flatMap Field.bytes), p + (fs.flatMap Field.bytes).length) := by
  induction fs generalizing mem p with
  | nil => simp [writeFields, patch_nil]
  | cons f fs ih =>
    simp only [List.flatMap_cons, List.length_append] at h ⊢
    simp only [writeFields, Field.write_eq dbg f mem p (by omega), Res.bind_eq, Res.ok_bind]
    rw [ih _ _ (by rw [length_patch (by omega)]; omega), patch_patch _ _ _ _ (by omega)]
    simp; omega

theorem Field.decode_bytes (f : Field) : decode f.call f.bytes = f.value := by
  have hmod : ∀ (n : Nat) (v : BitVec (8 * n)), leValue (leBytes n v.toNat) = v.toNat := by
    intro n v
    rw [leValue_leBytes, pow256, Nat.mod_eq_of_lt v.isLt]
  have hmod' : ∀ (n : Nat) (v : BitVec (8 * n)), beValue (beBytes n v.toNat) = v.toNat := by
    intro n v
    rw [beValue, beBytes, List.reverse_reverse, hmod]
  cases f <;> simp only [Field.call, Field.bytes, decode, Field.value]
  case u8 v => rw [hmod 1]
  case u16le v => rw [hmod 2]
  case u32le v => rw [hmod 4]
  case u64le v => rw [hmod 8]
  case f32le v => rw [hmod 4]; simp
  case u16be v => rw [hmod' 2]
  case u32be v => rw [hmod' 4]
  case u64be v => rw [hmod' 8]
  case f32be v => rw [hmod' 4]; simp

theorem cursorRun_fields (fs : List Field) (tail : List Byte) :
    cursorRun (fs.map Field.call) (fs.flatMap Field.bytes ++ tail) = (fs.map (fun f => .ok f.value), tail) := by
  induction fs with
  | nil => rfl
  | cons f fs ih =>
    have hl := f.length_bytes
    simp only [List.map_cons, List.flatMap_cons, List.append_assoc, cursorRun, cursorStep]
    rw [if_pos (by simp; omega), ← hl]
    simp [ih, f.decode_bytes]

end Utki
