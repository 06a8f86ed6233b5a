import Verif.Model.Out
import Verif.Model.In
/-!
# Values (scouterx/common/netdata/*value.go, valuecreator.go)
-/
namespace Scouter

/-- The `Value` implementations (value.go:4-9).  `goNil` is the nil interface; a Go map is the list of its entries in
the iteration order of the `range` statement that visits it.  Typed nil pointers are not modelled. -/
inductive Value where
  | goNil
  | null                                  -- nilvalue.go:8
  | bool (b : Bool)                       -- booleanvalue.go:8
  | dec (v : BitVec 64)                   -- decimalvalue.go:10
  | float (v : BitVec 32)                 -- floatvalue.go:10
  | double (v : BitVec 64)                -- doublevalue.go:9
  | text (s : Bytes)                      -- textvalue.go:8
  | textHash (v : BitVec 32)              -- texthashvalue.go:10
  | blob (b : Bytes)                      -- blobvalue.go:9
  | ip4 (b : Bytes)                       -- ip4value.go:9
  | list (vs : List Value)                -- listvalue.go:10
  | map (es : List (Bytes × Value))       -- mapvalue.go:8
deriving Repr

/-- Go map assignment `m[k] = v` on an association list with distinct keys.  Go language; mapvalue.go:37-48. -/
def insertKV {α : Type} (k : Bytes) (v : α) : List (Bytes × α) → List (Bytes × α)
  | [] => [(k, v)]
  | (k', v') :: es => if k' = k then (k, v) :: es else (k', v') :: insertKV k v es

namespace Out

mutual
/-- `WriteValue`, dataoutputx.go:150-157, with the `Write` methods of the value types: booleanvalue.go:47,
decimalvalue.go:35, floatvalue.go:35, doublevalue.go:33, textvalue.go:33, texthashvalue.go:35, blobvalue.go:34,
ip4value.go:35, listvalue.go:129-136, mapvalue.go:50-58, nilvalue.go:24, and the type codes of valueconstants.go:3-21. -/
def writeValue (o : Out) (v : Value) : Out :=
  match v with
  | .goNil => o.writeInt8 0
  | .null => o.writeInt8 0
  | .bool b => (o.writeInt8 10).writeBoolean b
  | .dec v => (o.writeInt8 20).writeDecimal v
  | .float v => (o.writeInt8 30).writeFloat32 v
  | .double v => (o.writeInt8 40).writeFloat64 v
  | .text s => (o.writeInt8 50).writeString s
  | .textHash v => (o.writeInt8 51).writeInt32 v
  | .blob b => (o.writeInt8 60).writeBlob b
  | .ip4 b => (o.writeInt8 61).write b
  | .list vs => ((o.writeInt8 70).writeDecimal (BitVec.ofNat 64 vs.length)).writeValues vs
  | .map es => ((o.writeInt8 80).writeDecimal (BitVec.ofNat 64 es.length)).writeEntries es
/-- The loop of listvalue.go:132-134. -/
def writeValues (o : Out) (vs : List Value) : Out :=
  match vs with
  | [] => o
  | v :: vs => (o.writeValue v).writeValues vs
/-- The loop of mapvalue.go:52-55 (and mappack.go:54-57). -/
def writeEntries (o : Out) (es : List (Bytes × Value)) : Out :=
  match es with
  | [] => o
  | (k, v) :: es => ((o.writeString k).writeValue v).writeEntries es
end

end Out

namespace In

/-- The loop of listvalue.go:141-145, with `ReadValue` passed in; a negative size runs it zero times. -/
def readValues (readValue : Bytes → Go (Res Value)) (n : Nat) (s : Bytes) (err : Option Err) :
    Go (Res (List Value)) :=
  match n with
  | 0 => .ok ([], err, s)
  | n + 1 =>
    match readValue s with
    | .panic => .panic
    | .fuel => .fuel
    | .ok (v, err, s) =>
      match readValues readValue n s err with
      | .ok (vs, err, s) => .ok (v :: vs, err, s)
      | .panic => .panic
      | .fuel => .fuel

/-- The loop of mapvalue.go:39-45 (and mappack.go:41-47): read key, read value, assign into the table. -/
def readEntries (readValue : Bytes → Go (Res Value)) (n : Nat) (s : Bytes) (err : Option Err)
    (tbl : List (Bytes × Value)) : Go (Res (List (Bytes × Value))) :=
  match n with
  | 0 => .ok (tbl, err, s)
  | n + 1 =>
    match readString s with
    | .panic => .panic
    | .fuel => .fuel
    | .ok (k, _, s) =>
      match readValue s with
      | .panic => .panic
      | .fuel => .fuel
      | .ok (v, err, s) => readEntries readValue n s err (insertKV k v tbl)

/-- Put the value just read into the receiver object (`x.Value, err = in.ReadX(); return x, err`).
   E.g. textvalue.go:20-26. -/
def mapRes {α β : Type} (f : α → β) : Go (Res α) → Go (Res β)
  | .ok (v, e, s) => .ok (f v, e, s)
  | .panic => .panic
  | .fuel => .fuel

/-- `CreateValue(t)` (valuecreator.go:8-35) followed by that value's `Read`, given the reader for nested values.
Type 61 (IP4ADDR) creates a *blob* value (valuecreator.go:26-27).  An unknown type gives the nil value with an error
(datainputx.go:159-161). -/
def readBody (readValue : Bytes → Go (Res Value)) (t : Byte) (s : Bytes) : Go (Res Value) :=
  if t = 0 then .ok (.null, none, s)                                           -- nilvalue.go:19
  else if t = 10 then mapRes .bool (.ok (readBoolean s))                       -- booleanvalue.go:41
  else if t = 20 then mapRes .dec (.ok (readDecimal s))                        -- decimalvalue.go:28
  else if t = 30 then mapRes .float (.ok (readFloat32 s))                      -- floatvalue.go:28
  else if t = 40 then mapRes .double (.ok (readFloat64 s))                     -- doublevalue.go:26
  else if t = 50 then mapRes .text (readString s)                              -- textvalue.go:26
  else if t = 51 then mapRes .textHash (.ok (readInt32 s))                     -- texthashvalue.go:28
  else if t = 60 then mapRes .blob (readBlob s)                                -- blobvalue.go:27
  else if t = 61 then mapRes .blob (readBlob s)                                -- valuecreator.go:26-27
  else if t = 70 then                                                           -- listvalue.go:139-147
    mapRes .list (readValues readValue (readDecimal s).1.toInt.toNat (readDecimal s).2.2 (readDecimal s).2.1)
  else if t = 80 then                                                           -- mapvalue.go:37-47
    mapRes .map (readEntries readValue (readDecimal s).1.toInt.toNat (readDecimal s).2.2 (readDecimal s).2.1 [])
  else .ok (.null, some .undefinedType, s)

/-- `ReadValue`, datainputx.go:156-165.  The first argument bounds the nesting depth of values (the Go call stack
does not); Props/C07 shows that more than the input length is always enough.  The error of the type byte is discarded
(`readValue, err :=` overwrites it), so at the end of the input the type reads as 0, the null value, without error. -/
def readValueF (fuel : Nat) (s : Bytes) : Go (Res Value) :=
  match fuel with
  | 0 => .fuel
  | fuel + 1 => readBody (readValueF fuel) (readInt8 s).1 (readInt8 s).2.2

/-- `ReadValue`, datainputx.go:156-165: the function above with more nesting depth than the input can use
(Props/C07 proves that `.fuel` is never the answer and that more fuel changes nothing). -/
def readValue (s : Bytes) : Go (Res Value) := readValueF (s.length + 1) s

end In
end Scouter
