import Verif.Proofs.Out
/-! # C08: the reported size and the append-only buffer -/
namespace Scouter
open Out

/-- The write calls of the public API of `DataOutputX`. -/
inductive WriteOp where
  | raw (b : Bytes)
  | int8 (v : BitVec 8)
  | int16 (v : BitVec 16)
  | int32 (v : BitVec 32)
  | int64 (v : BitVec 64)
  | float32 (v : BitVec 32)
  | float64 (v : BitVec 64)
  | bool (v : Bool)
  | decimal (v : BitVec 64)
  | decimal32 (v : BitVec 32)
  | blob (b : Bytes)
  | string (b : Bytes)
  | intBytes (b : Bytes)
  | int32Array (vs : List (BitVec 32))
  | value (v : Value)
  | pack (p : Pack)
  | step (s : Step)

/-- Perform one call (`Write`, `WriteInt8`, ..., dataoutputx.go:33-245). -/
def WriteOp.run (o : Out) : WriteOp → Out
  | raw b => o.write b
  | int8 v => o.writeInt8 v
  | int16 v => o.writeInt16 v
  | int32 v => o.writeInt32 v
  | int64 v => o.writeInt64 v
  | float32 v => o.writeFloat32 v
  | float64 v => o.writeFloat64 v
  | bool v => o.writeBoolean v
  | decimal v => o.writeDecimal v
  | decimal32 v => o.writeDecimal32 v
  | blob b => o.writeBlob b
  | string b => o.writeString b
  | intBytes b => o.writeIntBytes b
  | int32Array vs => o.writeInt32Array vs
  | value v => o.writeValue v
  | pack p => o.writePack p
  | step s => o.writeStep s

theorem WriteOp.run_eq (op : WriteOp) : ∃ bs, ∀ o, op.run o = o.write bs := by
  cases op with
  | raw b => exact ⟨b, fun _ => rfl⟩
  | int8 v => exact ⟨_, fun o => writeInt8_eq o v⟩
  | int16 v => exact ⟨_, fun o => writeInt16_eq o v⟩
  | int32 v => exact ⟨_, fun o => writeInt32_eq o v⟩
  | int64 v => exact ⟨_, fun o => writeInt64_eq o v⟩
  | float32 v => exact ⟨_, fun o => writeFloat32_eq o v⟩
  | float64 v => exact ⟨_, fun o => writeFloat64_eq o v⟩
  | bool v => exact ⟨_, fun o => writeBoolean_eq o v⟩
  | decimal v => exact ⟨_, fun o => writeDecimal_eq o v⟩
  | decimal32 v => exact ⟨_, fun o => writeDecimal32_eq o v⟩
  | blob v => exact ⟨_, fun o => writeBlob_eq o v⟩
  | string v => exact ⟨_, fun o => writeString_eq o v⟩
  | intBytes v => exact ⟨_, fun o => writeIntBytes_eq o v⟩
  | int32Array v => exact ⟨_, fun o => writeInt32Array_eq o v⟩
  | value v => exact ⟨_, fun o => writeValue_eq o v⟩
  | pack p => exact writePack_exists p
  | step s => exact ⟨_, fun o => writeStep_eq o s⟩

theorem runs_eq (ops : List WriteOp) : ∃ bs, ∀ o, ops.foldl WriteOp.run o = o.write bs := by
  induction ops with
  | nil => exact ⟨[], fun o => (write_nil o).symm⟩
  | cons op ops ih =>
    obtain ⟨a, ha⟩ := op.run_eq
    obtain ⟨b, hb⟩ := ih
    exact ⟨a ++ b, fun o => by rw [List.foldl_cons, hb, ha, write_write]⟩

/-- C08: after any sequence of write calls on a new in-memory output, the reported size is the number of bytes
produced, modulo 2^32. -/
theorem C08_size_is_length (ops : List WriteOp) :
    (ops.foldl WriteOp.run Out.new).size = BitVec.ofNat 32 (ops.foldl WriteOp.run Out.new).bytes.length := by
  obtain ⟨b, hb⟩ := runs_eq ops
  rw [hb]
  simp [Out.new, write, size, Out.bytes]

/-- C08: in particular it is exact below 2^31 bytes. -/
theorem C08_size_exact (ops : List WriteOp) (h : (ops.foldl WriteOp.run Out.new).bytes.length < 2 ^ 31) :
    (ops.foldl WriteOp.run Out.new).size.toInt = (ops.foldl WriteOp.run Out.new).bytes.length := by
  rw [C08_size_is_length, BitVec.toInt_eq_toNat_of_lt] <;> simp <;> omega

/-- C08: later calls never change earlier bytes, and what a call appends does not depend on what was there. -/
theorem C08_append_only (ops later : List WriteOp) :
    ((ops ++ later).foldl WriteOp.run Out.new).bytes =
      (ops.foldl WriteOp.run Out.new).bytes ++ (later.foldl WriteOp.run Out.new).bytes := by
  obtain ⟨a, ha⟩ := runs_eq ops
  obtain ⟨b, hb⟩ := runs_eq later
  rw [List.foldl_append, hb, hb, ha]
  simp [Out.new, write, Out.bytes]

example : ([WriteOp.string (ascii "abc"), .decimal 300, .value (.list [.null])].foldl WriteOp.run Out.new).bytes.length
    = 11 := by
  decide

end Scouter
