import Verif.Proofs.In
import Verif.Proofs.Wire
/-! # C01, C02: numbers on the wire -/
namespace Scouter
open Out In

namespace Spec
/-- `x` is representable as a two's-complement number of `w` bytes (only 0 in zero bytes). -/
def Fits (w : Nat) (x : Int) : Prop := -(256 ^ w : Int) ≤ 2 * x ∧ 2 * x < 256 ^ w
end Spec
open Spec

theorem bytes_new_write (bs : Bytes) : (Out.new.write bs).bytes = bs := by simp [Out.new, write, Out.bytes]

/-- C01: an int64 written with WriteDecimal is read back by ReadDecimal, without error, leaving exactly the bytes that
follow. -/
theorem C01_decimal_roundtrip (v : BitVec 64) (rest : Bytes) :
    readDecimal ((Out.new.writeDecimal v).bytes ++ rest) = (v, none, rest) := by
  rw [writeDecimal_eq, bytes_new_write]; exact readDecimal_enc v rest

/-- C01: an int32 written with WriteDecimal32 is read back by ReadDecimal as the same number. -/
theorem C01_decimal32_roundtrip (v : BitVec 32) (rest : Bytes) :
    ∃ v' : BitVec 64, readDecimal ((Out.new.writeDecimal32 v).bytes ++ rest) = (v', none, rest) ∧
      v'.toInt = v.toInt ∧ v'.setWidth 32 = v := by
  refine ⟨v.signExtend 64, ?_, ?_, setWidth_signExtend v⟩
  · rw [writeDecimal32_eq, bytes_new_write]; exact readDecimal_enc32 v rest
  · exact BitVec.toInt_signExtend_of_le (by omega)

/-- C01: the encoding is the shortest of the five forms (0, 1, 2, 4 or 8 bytes after the width byte) that can hold
the number. -/
theorem C01_decimal_shortest (v : BitVec 64) :
    ∃ w ∈ [0, 1, 2, 4, 8], (Out.new.writeDecimal v).bytes.length = 1 + w ∧ Fits w v.toInt ∧
      ∀ w' ∈ [0, 1, 2, 4, 8], Fits w' v.toInt → w ≤ w' := by
  rw [writeDecimal_eq, bytes_new_write]
  have h1 := v.toInt_lt
  have h2 := v.le_toInt
  have h0 : v.toInt = 0 → v = 0 := fun h => BitVec.eq_of_toInt_eq (by simpa using h)
  unfold encDec
  repeat' split
  · next h => exact ⟨0, by simp, by simp, by subst h; simp [Fits], by simp⟩
  · have hne : v.toInt ≠ 0 := fun h => ‹¬ v = 0› (h0 h)
    refine ⟨1, by simp, by simp, ?_, ?_⟩ <;>
      simp only [Fits, List.mem_cons, List.not_mem_nil, or_false, forall_eq_or_imp, forall_eq] <;> omega
  · have hne : v.toInt ≠ 0 := fun h => ‹¬ v = 0› (h0 h)
    refine ⟨2, by simp, by simp, ?_, ?_⟩ <;>
      simp only [Fits, List.mem_cons, List.not_mem_nil, or_false, forall_eq_or_imp, forall_eq] <;> omega
  · have hne : v.toInt ≠ 0 := fun h => ‹¬ v = 0› (h0 h)
    refine ⟨4, by simp, by simp, ?_, ?_⟩ <;>
      simp only [Fits, List.mem_cons, List.not_mem_nil, or_false, forall_eq_or_imp, forall_eq] <;> omega
  · have hne : v.toInt ≠ 0 := fun h => ‹¬ v = 0› (h0 h)
    refine ⟨8, by simp, by simp, ?_, ?_⟩ <;>
      simp only [Fits, List.mem_cons, List.not_mem_nil, or_false, forall_eq_or_imp, forall_eq] <;> omega

/-- C01: the same for int32 (the widest form then has four bytes). -/
theorem C01_decimal32_shortest (v : BitVec 32) :
    ∃ w ∈ [0, 1, 2, 4], (Out.new.writeDecimal32 v).bytes.length = 1 + w ∧ Fits w v.toInt ∧
      ∀ w' ∈ [0, 1, 2, 4, 8], Fits w' v.toInt → w ≤ w' := by
  rw [writeDecimal32_eq, bytes_new_write]
  have h1 := v.toInt_lt
  have h2 := v.le_toInt
  have h0 : v.toInt = 0 → v = 0 := fun h => BitVec.eq_of_toInt_eq (by simpa using h)
  unfold encDec32
  repeat' split
  · next h => exact ⟨0, by simp, by simp, by subst h; simp [Fits], by simp⟩
  · have hne : v.toInt ≠ 0 := fun h => ‹¬ v = 0› (h0 h)
    refine ⟨1, by simp, by simp, ?_, ?_⟩ <;>
      simp only [Fits, List.mem_cons, List.not_mem_nil, or_false, forall_eq_or_imp, forall_eq] <;> omega
  · have hne : v.toInt ≠ 0 := fun h => ‹¬ v = 0› (h0 h)
    refine ⟨2, by simp, by simp, ?_, ?_⟩ <;>
      simp only [Fits, List.mem_cons, List.not_mem_nil, or_false, forall_eq_or_imp, forall_eq] <;> omega
  · have hne : v.toInt ≠ 0 := fun h => ‹¬ v = 0› (h0 h)
    refine ⟨4, by simp, by simp, ?_, ?_⟩ <;>
      simp only [Fits, List.mem_cons, List.not_mem_nil, or_false, forall_eq_or_imp, forall_eq] <;> omega

/-- C01: a collector reads the same numbers. -/
theorem C01_collector_reads_decimal (v : BitVec 64) (w : BitVec 32) (rest : Bytes) :
    Wire.decimal ((Out.new.writeDecimal v).bytes ++ rest) = some (v.toInt, rest) ∧
    Wire.decimal ((Out.new.writeDecimal32 w).bytes ++ rest) = some (w.toInt, rest) := by
  rw [writeDecimal_eq, writeDecimal32_eq, bytes_new_write, bytes_new_write]
  exact ⟨Wire.decimal_enc v rest, Wire.decimal_enc32 w rest⟩

/-- C01: on any input, ReadDecimal reads the width byte and then a number of this width; any other width byte is taken for a zero
without further bytes, and without an error. -/
theorem C01_any_width (b : Byte) (s : Bytes) :
    readDecimal (b :: s) =
      if b = 1 then ((readInt8 s).1.signExtend 64, (readInt8 s).2.1, (readInt8 s).2.2)
      else if b = 2 then ((readInt16 s).1.signExtend 64, (readInt16 s).2.1, (readInt16 s).2.2)
      else if b = 4 then ((readInt32 s).1.signExtend 64, (readInt32 s).2.1, (readInt32 s).2.2)
      else if b = 8 then readInt64 s
      else (0, none, s) := by
  have e : readInt8 (b :: s) = (b, none, s) := rfl
  unfold readDecimal
  rw [e]
  dsimp only
  by_cases h0 : b = 0
  · subst h0
    rw [if_pos rfl, if_neg (by decide), if_neg (by decide), if_neg (by decide), if_neg (by decide)]
  · rw [if_neg h0]

/-- C01: without any byte ReadDecimal reports the end of the input. -/
theorem C01_no_width : readDecimal [] = (0, some .eof, []) := rfl

example : readDecimal ((Out.new.writeDecimal (-129)).bytes ++ [7]) = (-129, none, [7]) := C01_decimal_roundtrip _ _
example : (Out.new.writeDecimal (-129)).bytes = [2, 0xff, 0x7f] := by decide
example : (Out.new.writeDecimal32 127).bytes = [1, 127] := by decide

/-- C02: what each fixed-width writer appends: as many bytes as the type is wide, and read as a big-endian number
they are the value. -/
theorem C02_written_big_endian (a : BitVec 8) (b : BitVec 16) (c : BitVec 32) (d : BitVec 64) (f : BitVec 32)
    (g : BitVec 64) (t : Bool) :
    ((Out.new.writeInt8 a).bytes.length = 1 ∧ Wire.beNat (Out.new.writeInt8 a).bytes = a.toNat) ∧
    ((Out.new.writeInt16 b).bytes.length = 2 ∧ Wire.beNat (Out.new.writeInt16 b).bytes = b.toNat) ∧
    ((Out.new.writeInt32 c).bytes.length = 4 ∧ Wire.beNat (Out.new.writeInt32 c).bytes = c.toNat) ∧
    ((Out.new.writeInt64 d).bytes.length = 8 ∧ Wire.beNat (Out.new.writeInt64 d).bytes = d.toNat) ∧
    ((Out.new.writeFloat32 f).bytes.length = 4 ∧ Wire.beNat (Out.new.writeFloat32 f).bytes = f.toNat) ∧
    ((Out.new.writeFloat64 g).bytes.length = 8 ∧ Wire.beNat (Out.new.writeFloat64 g).bytes = g.toNat) ∧
    ((Out.new.writeBoolean t).bytes = [if t then 1 else 0]) := by
  refine ⟨⟨rfl, ?_⟩, ⟨rfl, Wire.beNat_be16 b⟩, ⟨rfl, Wire.beNat_be32 c⟩, ⟨rfl, Wire.beNat_be64 d⟩,
    ⟨rfl, Wire.beNat_be32 f⟩, ⟨rfl, Wire.beNat_be64 g⟩, ?_⟩
  · simp [Wire.beNat, writeInt8, Out.new, Out.bytes]
  · cases t <;> rfl

/-- C02: the matching reader gets the value back, no error, and leaves what follows. -/
theorem C02_read_back (a : BitVec 8) (b : BitVec 16) (c : BitVec 32) (d : BitVec 64) (f : BitVec 32)
    (g : BitVec 64) (t : Bool) (rest : Bytes) :
    readInt8 ((Out.new.writeInt8 a).bytes ++ rest) = (a, none, rest) ∧
    readInt16 ((Out.new.writeInt16 b).bytes ++ rest) = (b, none, rest) ∧
    readInt32 ((Out.new.writeInt32 c).bytes ++ rest) = (c, none, rest) ∧
    readInt64 ((Out.new.writeInt64 d).bytes ++ rest) = (d, none, rest) ∧
    readFloat32 ((Out.new.writeFloat32 f).bytes ++ rest) = (f, none, rest) ∧
    readFloat64 ((Out.new.writeFloat64 g).bytes ++ rest) = (g, none, rest) ∧
    readBoolean ((Out.new.writeBoolean t).bytes ++ rest) = (t, none, rest) := by
  refine ⟨rfl, readInt16_be b rest, readInt32_be c rest, readInt64_be d rest, readInt32_be f rest,
    readInt64_be g rest, ?_⟩
  cases t <;> rfl

/-- C02: with too few bytes left a read returns zero, reports the end of the input (an unexpected one when some of the bytes were
there) and uses up what was left. -/
theorem C02_short_input (s : Bytes) :
    (s.length < 1 → readInt8 s = (0, some (if s = [] then .eof else .unexpectedEOF), [])) ∧
    (s.length < 1 → readBoolean s = (false, some (if s = [] then .eof else .unexpectedEOF), [])) ∧
    (s.length < 2 → readInt16 s = (0, some (if s = [] then .eof else .unexpectedEOF), [])) ∧
    (s.length < 4 → readInt32 s = (0, some (if s = [] then .eof else .unexpectedEOF), [])) ∧
    (s.length < 4 → readFloat32 s = (0, some (if s = [] then .eof else .unexpectedEOF), [])) ∧
    (s.length < 8 → readInt64 s = (0, some (if s = [] then .eof else .unexpectedEOF), [])) ∧
    (s.length < 8 → readFloat64 s = (0, some (if s = [] then .eof else .unexpectedEOF), [])) := by
  refine ⟨?_, ?_, ?_, ?_, ?_, ?_, ?_⟩ <;> intro h
  · match s with
    | [] => rfl
  · match s with
    | [] => rfl
  · match s with
    | [] => rfl
    | [_] => rfl
    | _ :: _ :: _ => simp at h; omega
  all_goals
    match s with
    | [] => rfl
    | [_] => rfl
    | [_, _] => rfl
    | [_, _, _] => rfl
    | [_, _, _, _] => first | rfl | simp at h
    | [_, _, _, _, _] => first | rfl | simp at h
    | [_, _, _, _, _, _] => first | rfl | simp at h
    | [_, _, _, _, _, _, _] => first | rfl | simp at h
    | _ :: _ :: _ :: _ :: _ :: _ :: _ :: _ :: _ => simp at h; try omega

theorem short_input (s : Bytes) :
    (s.length < 1 → ∃ e, readInt8 s = (0, some e, [])) ∧
    (s.length < 1 → ∃ e, readBoolean s = (false, some e, [])) ∧
    (s.length < 2 → ∃ e, readInt16 s = (0, some e, [])) ∧
    (s.length < 4 → ∃ e, readInt32 s = (0, some e, [])) ∧
    (s.length < 4 → ∃ e, readFloat32 s = (0, some e, [])) ∧
    (s.length < 8 → ∃ e, readInt64 s = (0, some e, [])) ∧
    (s.length < 8 → ∃ e, readFloat64 s = (0, some e, [])) := by
  obtain ⟨a, b, c, d, e, f, g⟩ := C02_short_input s
  exact ⟨fun h => ⟨_, a h⟩, fun h => ⟨_, b h⟩, fun h => ⟨_, c h⟩, fun h => ⟨_, d h⟩, fun h => ⟨_, e h⟩, fun h => ⟨_, f h⟩, fun h => ⟨_, g h⟩⟩

example : (Out.new.writeInt32 0x12345678).bytes = [0x12, 0x34, 0x56, 0x78] := by decide
example : readInt64 [1, 2, 3] = (0, some .unexpectedEOF, []) := (C02_short_input [1, 2, 3]).2.2.2.2.2.1 (by decide)

/-- C01: a truncated number is not misread: every proper prefix of an encoding reads as zero and reports an
error (the empty prefix too). -/
theorem C01_truncated (v : BitVec 64) (pre post : Bytes) (hpost : post ≠ [])
    (h : (Out.new.writeDecimal v).bytes = pre ++ post) : ∃ e, readDecimal pre = (0, some e, []) := by
  rw [writeDecimal_eq, bytes_new_write] at h
  have hl : pre.length < (encDec v).length := by
    rw [h, List.length_append]
    have : 0 < post.length := List.length_pos_iff.mpr hpost
    omega
  cases pre with
  | nil => exact ⟨.eof, rfl⟩
  | cons w p =>
    have hs := short_input p
    unfold encDec at h hl
    repeat' split at h
    all_goals simp only [List.cons_append, List.cons.injEq] at h
    · next c => rw [if_pos c] at hl; simp at hl
    · next c1 c2 =>
      rw [if_neg c1, if_pos c2] at hl; simp at hl
      rw [← h.1]
      have e1 : readDecimal (1 :: p) = ((readInt8 p).1.signExtend 64, (readInt8 p).2.1, (readInt8 p).2.2) := rfl
      obtain ⟨e, he⟩ := hs.1 (by omega)
      exact ⟨e, by rw [e1, he]; rfl⟩
    · next c1 c2 c3 =>
      rw [if_neg c1, if_neg c2, if_pos c3] at hl; simp at hl
      rw [← h.1]; simp only [readDecimal, readInt8]
      obtain ⟨e, he⟩ := hs.2.2.1 (by omega)
      refine ⟨e, ?_⟩; simp [he]
    · next c1 c2 c3 c4 =>
      rw [if_neg c1, if_neg c2, if_neg c3, if_pos c4] at hl; simp at hl
      rw [← h.1]; simp only [readDecimal, readInt8]
      obtain ⟨e, he⟩ := hs.2.2.2.1 (by omega)
      refine ⟨e, ?_⟩; simp [he]
    · next c1 c2 c3 c4 =>
      rw [if_neg c1, if_neg c2, if_neg c3, if_neg c4] at hl; simp at hl
      rw [← h.1]; simp only [readDecimal, readInt8]
      obtain ⟨e, he⟩ := hs.2.2.2.2.2.1 (by omega)
      refine ⟨e, ?_⟩; simp [he]

example : ∃ e, readDecimal [2, 0xff] = (0, some e, []) :=
  C01_truncated (-129) [2, 0xff] [0x7f] (by simp) (by decide)

end Scouter
