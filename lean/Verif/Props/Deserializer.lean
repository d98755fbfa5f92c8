import Verif.Lemmas.Deserializer
/-!
# Properties of `deserializer` (C05, C06)
-/
namespace Utki
open Spec

/-! ## C05 -/

/-- C05: over any history of calls on a deserializer made from a valid span, every outcome is the one of the
cursor specification (the decoding of exactly the next bytes, or `std::invalid_argument` without moving), and
`size()`/`empty()` report what is left.  `mem.length < sizeMax`: no object is `SIZE_MAX` bytes large. -/
theorem C05_deserializer_is_cursor (dbg : Bool) (s : Span Byte) (hv : s.Valid) (hsz : s.mem.length < sizeMax)
    (calls : List DCall) :
    (runCalls dbg calls s).1 = (cursorRun calls s.contents).1 ∧
    Span.contents (runCalls dbg calls s).2 = (cursorRun calls s.contents).2 ∧
    Deserializer.size (runCalls dbg calls s).2 = (cursorRun calls s.contents).2.length ∧
    Deserializer.empty (runCalls dbg calls s).2 = (cursorRun calls s.contents).2.isEmpty := by
  obtain ⟨h1, h2, h3, _⟩ := runCalls_eq dbg calls s hv hsz
  have hl := Span.length_contents h3
  rw [h2] at hl
  refine ⟨h1, h2, hl.symm, ?_⟩
  simp only [Deserializer.empty, Span.empty]
  rw [← hl]
  cases (cursorRun calls s.contents).2 <;> simp

/-- C05, strong exception guarantee and exact advance for a single call, stated directly on the object: with enough
bytes the call returns and the object moves forward by exactly the needed number of bytes; otherwise it throws
`std::invalid_argument` and the object is unchanged. -/
theorem C05_call_all_or_nothing (dbg : Bool) (s : Span Byte) (hv : s.Valid) (hsz : s.mem.length < sizeMax) (c : DCall) :
    (need c ≤ s.size → ∃ v, c.run dbg s = (.ok v, ⟨s.mem, s.off + need c, s.size - need c⟩)) ∧
    (s.size < need c → c.run dbg s = (.throw .invalid_argument, s)) := by
  have := run_step dbg s hv hsz c
  constructor
  · intro h; rw [if_pos h] at this; exact ⟨_, this⟩
  · intro h; rw [if_neg (by omega)] at this; exact this

/-- C05, non-interference: what the calls return depends only on the bytes inside the span, never on bytes of the
surrounding object. -/
theorem C05_reads_only_the_span (dbg : Bool) (s t : Span Byte) (hs : s.Valid) (ht : t.Valid)
    (hss : s.mem.length < sizeMax) (hts : t.mem.length < sizeMax) (same : s.contents = t.contents) (calls : List DCall) :
    (runCalls dbg calls s).1 = (runCalls dbg calls t).1 := by
  rw [(C05_deserializer_is_cursor dbg s hs hss calls).1, (C05_deserializer_is_cursor dbg t ht hts calls).1, same]

/-- A history with a failing read in the middle: the later read still succeeds. -/
example : (runCalls true [.u16be, .u32le, .string 2, .skip (2 ^ 64 - 1), .u8, .u8]
      ⟨[0xff, 1, 2, 3, 4, 5, 0xff], 1, 5⟩).1
    = [.ok (.int 16 0x0102), .throw .invalid_argument, .ok (.bytes [3, 4]), .throw .invalid_argument,
       .ok (.int 8 5), .throw .invalid_argument]
    ∧ Span.Valid (⟨[0xff, 1, 2, 3, 4, 5, 0xff], 1, 5⟩ : Span Byte) := by
  refine ⟨by decide, by simp [Span.Valid]⟩

/-! ## C06 -/

/-- C06: write any record of fields at `p`; the write succeeds if there is room, and a deserializer over exactly the
written bytes returns every field, in order, and is empty afterwards. -/
theorem C06_read_back_what_was_written (dbg : Bool) (fields : List Field) (mem : List Byte) (p : Nat)
    (room : p + ((fields.map (fun f => need f.call)).sum) ≤ mem.length) (hsz : mem.length < sizeMax) :
    ∃ mem' q, writeFields dbg fields mem p = .ok (mem', q) ∧ mem'.length = mem.length ∧
      q = p + (fields.map (fun f => need f.call)).sum ∧
      (runCalls dbg (fields.map Field.call) ⟨mem', p, q - p⟩).1 = fields.map (fun f => .ok f.value) ∧
      Deserializer.empty (runCalls dbg (fields.map Field.call) ⟨mem', p, q - p⟩).2 = true := by
  have hlen : (fields.flatMap Field.bytes).length = (fields.map (fun f => need f.call)).sum := by
    rw [List.length_flatMap]
    congr 1
    apply List.map_congr_left
    intro f _
    exact f.length_bytes
  rw [← hlen] at room
  refine ⟨_, _, writeFields_eq dbg fields mem p room, length_patch room, by rw [hlen], ?_⟩
  have hv : Span.Valid (⟨patch mem p (fields.flatMap Field.bytes), p, p + (fields.flatMap Field.bytes).length - p⟩ : Span Byte) := by
    simp only [Span.Valid, length_patch room]; omega
  have hc : Span.contents (⟨patch mem p (fields.flatMap Field.bytes), p, p + (fields.flatMap Field.bytes).length - p⟩ : Span Byte)
      = fields.flatMap Field.bytes := by
    simp only [Span.contents, Nat.add_sub_cancel_left]
    exact take_drop_patch room
  obtain ⟨h1, _, _, h4⟩ := C05_deserializer_is_cursor dbg _ hv (by rw [length_patch room]; exact hsz) (fields.map Field.call)
  have hf := cursorRun_fields fields []
  rw [List.append_nil] at hf
  rw [hc, hf] at h1 h4
  exact ⟨h1, h4⟩

example : (3 : Nat) + (([.u16be 0x1234, .string (str "hey"), .f32le ⟨0x7fc00001⟩] : List Field).map (fun f => need f.call)).sum
      ≤ (List.replicate 16 (0 : Byte)).length ∧
    writeFields true [.u16be 0x1234, .string (str "hey"), .f32le ⟨0x7fc00001⟩] (List.replicate 16 0) 3
      = .ok ([0, 0, 0, 0x12, 0x34, 104, 101, 121, 1, 0, 0xc0, 0x7f, 0, 0, 0, 0], 12) := by decide

end Utki
