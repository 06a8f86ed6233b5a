import Verif.Model.Base
/-!
# DataOutputX (scouterx/common/netdata/dataoutputx.go)

Only the in-memory writer is modelled here: `out.writer` is a `bytes.Buffer`, whose writes never fail, so every
`error` result of the writers is nil and is dropped from the model.  Methods mutate and return `out`, so a writer is
a function returning the new `Out`.
-/
namespace Scouter

/-- dataoutputx.go:11-15.  `written` is an `int32`; `buf` is the content of the `bytes.Buffer`. -/
structure Out where
  written : BitVec 32
  buf : Bytes
deriving DecidableEq, Repr

namespace Out

/-- `NewDataOutputX(nil)`, dataoutputx.go:18-31. -/
def new : Out := ⟨0, []⟩

/-- `Write`, dataoutputx.go:216-220: `out.written += int32(len(value))`, then the buffer write. -/
def write (o : Out) (bs : Bytes) : Out := ⟨o.written + BitVec.ofNat 32 bs.length, o.buf ++ bs⟩

/-- `WriteInt8` / `WriteUInt8`, dataoutputx.go:84-95 (same byte for the same bit pattern). -/
def writeInt8 (o : Out) (v : BitVec 8) : Out := ⟨o.written + 1, o.buf ++ [v]⟩

/-- The two bytes of `binary.BigEndian.PutUint16`: `byte(v>>8), byte(v)`.
   Library encoding/binary; dataoutputx.go:57-65. -/
def be16 (v : BitVec 16) : Bytes := [v.extractLsb' 8 8, v.extractLsb' 0 8]

/-- The four bytes of `binary.BigEndian.PutUint32`.  Library encoding/binary; dataoutputx.go:47-55. -/
def be32 (v : BitVec 32) : Bytes :=
  [v.extractLsb' 24 8, v.extractLsb' 16 8, v.extractLsb' 8 8, v.extractLsb' 0 8]

/-- The eight bytes of `binary.BigEndian.PutUint64`.  Library encoding/binary; dataoutputx.go:67-82. -/
def be64 (v : BitVec 64) : Bytes :=
  [v.extractLsb' 56 8, v.extractLsb' 48 8, v.extractLsb' 40 8, v.extractLsb' 32 8,
   v.extractLsb' 24 8, v.extractLsb' 16 8, v.extractLsb' 8 8, v.extractLsb' 0 8]

/-- `WriteInt16`, dataoutputx.go:57-64. -/
def writeInt16 (o : Out) (v : BitVec 16) : Out := ⟨o.written + 2, o.buf ++ be16 v⟩

/-- `WriteInt32`, dataoutputx.go:47-54. -/
def writeInt32 (o : Out) (v : BitVec 32) : Out := ⟨o.written + 4, o.buf ++ be32 v⟩

/-- `WriteInt64` / `WriteUInt64`, dataoutputx.go:67-81. -/
def writeInt64 (o : Out) (v : BitVec 64) : Out := ⟨o.written + 8, o.buf ++ be64 v⟩

/-- `WriteFloat32`, dataoutputx.go:98-102.  A float is its IEEE bit pattern (`math.Float32bits`). -/
def writeFloat32 (o : Out) (v : BitVec 32) : Out := ⟨o.written + 4, o.buf ++ be32 v⟩

/-- `WriteFloat64`, dataoutputx.go:105-109, bit pattern as above. -/
def writeFloat64 (o : Out) (v : BitVec 64) : Out := ⟨o.written + 8, o.buf ++ be64 v⟩

/-- `WriteBoolean`, dataoutputx.go:237-245. -/
def writeBoolean (o : Out) (v : Bool) : Out := if v = true then o.writeInt8 1 else o.writeInt8 0

/-- `WriteDecimal`, dataoutputx.go:112-130.  Comparisons are signed; `int8(value)` etc. truncate.  The last Go
branch's condition (`>= MinInt64 && <= MaxInt64`) always holds, so it is the `else` here. -/
def writeDecimal (o : Out) (v : BitVec 64) : Out :=
  if v = 0 then o.writeInt8 0
  else if -128 ≤ v.toInt ∧ v.toInt ≤ 127 then (o.writeInt8 1).writeInt8 (v.setWidth 8)
  else if -32768 ≤ v.toInt ∧ v.toInt ≤ 32767 then (o.writeInt8 2).writeInt16 (v.setWidth 16)
  else if -2147483648 ≤ v.toInt ∧ v.toInt ≤ 2147483647 then (o.writeInt8 4).writeInt32 (v.setWidth 32)
  else (o.writeInt8 8).writeInt64 v

/-- `WriteDecimal32`, dataoutputx.go:132-147; the last Go branch's condition always holds. -/
def writeDecimal32 (o : Out) (v : BitVec 32) : Out :=
  if v = 0 then o.writeInt8 0
  else if -128 ≤ v.toInt ∧ v.toInt ≤ 127 then (o.writeInt8 1).writeInt8 (v.setWidth 8)
  else if -32768 ≤ v.toInt ∧ v.toInt ≤ 32767 then (o.writeInt8 2).writeInt16 (v.setWidth 16)
  else (o.writeInt8 4).writeInt32 v

/-- `WriteBlob`, dataoutputx.go:194-214.  `byte(n)`, `int16(n)`, `int32(n)` truncate. -/
def writeBlob (o : Out) (value : Bytes) : Out :=
  let valueLen := value.length
  if valueLen = 0 then o.writeInt8 0
  else if valueLen ≤ 253 then (o.writeInt8 (BitVec.ofNat 8 valueLen)).write value
  else if valueLen ≤ 65535 then ((o.writeInt8 255).writeInt16 (BitVec.ofNat 16 valueLen)).write value
  else ((o.writeInt8 254).writeInt32 (BitVec.ofNat 32 valueLen)).write value

/-- The replacement text of dataoutputx.go:179. -/
def hugeMarker : Bytes := ascii "huge string omitted..."

/-- `WriteString`, dataoutputx.go:173-184. -/
def writeString (o : Out) (value : Bytes) : Out :=
  if value.length = 0 then o.writeInt8 0
  else if value.length > 100000 then o.writeBlob hugeMarker
  else o.writeBlob value

/-- `WriteIntBytes`, dataoutputx.go:186-191. -/
def writeIntBytes (o : Out) (value : Bytes) : Out :=
  (o.writeInt32 (BitVec.ofNat 32 value.length)).write value

/-- `WriteInt32Array`, dataoutputx.go:33-44 (a nil slice behaves as the empty one: both write the two zero bytes). -/
def writeInt32Array (o : Out) (values : List (BitVec 32)) : Out :=
  values.foldl (fun o v => o.writeInt32 v) (o.writeInt16 (BitVec.ofNat 16 values.length))

/-- `Bytes`, dataoutputx.go:223-234, for the in-memory writer. -/
def bytes (o : Out) : Bytes := o.buf

/-- `Size` / `GetWriteSize`, dataoutputx.go:248-255. -/
def size (o : Out) : BitVec 32 := o.written

end Out
end Scouter
