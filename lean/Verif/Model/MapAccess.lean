import Verif.Model.Pack
/-!
# Typed access to map packs, map values and counter packs

The argument of `Put` is an `interface{}`; `Any` lists the dynamic types the type switches distinguish.
-/
namespace Scouter

/-- Dynamic types of the `interface{}` argument of `Put`. `other` is any type no switch mentions (including nil).
   mapvalue.go:65-80, mappack.go:67-92. -/
inductive Any where
  | string (s : Bytes)
  | int32 (v : BitVec 32)
  | int64 (v : BitVec 64)
  | int (v : BitVec 64)
  | uint32 (v : BitVec 32)
  | uint64 (v : BitVec 64)
  | uint (v : BitVec 64)
  | bool (b : Bool)
  | float32 (v : BitVec 32)
  | float64 (v : BitVec 64)
  | value (v : Value)
  | other

/-- `MapPack.Put`, mappack.go:67-91.  A nil interface matches no case.  (`int` and `uint` are 64 bits wide.) -/
def MapPack.put (t : Table) (key : Bytes) (any : Any) : Table :=
  match any with
  | .string s => insertKV key (.text s) t
  | .int32 v => insertKV key (.dec (v.signExtend 64)) t
  | .int64 v => insertKV key (.dec v) t
  | .bool b => insertKV key (.bool b) t
  | .value .goNil => t
  | .value v => insertKV key v t
  | .float32 v => insertKV key (.float v) t
  | .uint32 v => insertKV key (.dec (v.setWidth 64)) t
  | .int v => insertKV key (.dec v) t
  | .uint v => insertKV key (.dec v) t
  | .uint64 v => insertKV key (.dec v) t
  | .float64 _ => t
  | .other => t

/-- `MapValue.Put`, mapvalue.go:65-79. -/
def MapValue.put (t : Table) (key : Bytes) (any : Any) : Table :=
  match any with
  | .string s => insertKV key (.text s) t
  | .int64 v => insertKV key (.dec v) t
  | .bool b => insertKV key (.bool b) t
  | .float32 v => insertKV key (.float v) t
  | .value .goNil => t
  | .value v => insertKV key v t
  | _ => t

/-- `PerfCounterPack.Put`, perfcounterpack.go:46-69.  `narrow` is Go's `float32(float64)` conversion on bit
patterns, left uninterpreted. -/
def PerfCounterPack.put (narrow : BitVec 64 → BitVec 32) (t : Table) (key : Bytes) (any : Any) : Table :=
  match any with
  | .int32 v => MapValue.put t key (.value (.dec (v.signExtend 64)))
  | .int64 v => MapValue.put t key (.value (.dec v))
  | .uint32 v => MapValue.put t key (.value (.dec (v.setWidth 64)))
  | .uint64 v => MapValue.put t key (.value (.dec v))
  | .int v => MapValue.put t key (.value (.dec v))
  | .float32 v => MapValue.put t key (.value (.float v))
  | .float64 v => MapValue.put t key (.value (.float (narrow v)))
  | .string s => MapValue.put t key (.value (.text s))
  | .bool b => MapValue.put t key (.value (.bool b))
  | any => MapValue.put t key any

/-- `PerfCounterK8SPack.Put`, perfcounter_k8s_pack.go:70-89. -/
def PerfCounterK8SPack.put (narrow : BitVec 64 → BitVec 32) (t : Table) (key : Bytes) (any : Any) : Table :=
  match any with
  | .int32 v => MapValue.put t key (.value (.dec (v.signExtend 64)))
  | .int64 v => MapValue.put t key (.value (.dec v))
  | .int v => MapValue.put t key (.value (.dec v))
  | .float32 v => MapValue.put t key (.value (.float v))
  | .float64 v => MapValue.put t key (.value (.float (narrow v)))
  | .string s => MapValue.put t key (.value (.text s))
  | .bool b => MapValue.put t key (.value (.bool b))
  | _ => t

/-- The Go map index expression `table[key]` (nil interface when absent).
   Go language; mapvalue.go:82-134, mappack.go:94-146. -/
def Table.get (t : Table) (key : Bytes) : Value :=
  match t with
  | [] => .goNil
  | (k, v) :: t => if k = key then v else Table.get t key

/-- `ContainsKey`, mappack.go:31-36 and `ContainesKey`, mapvalue.go:28-34. -/
def Table.containsKey (t : Table) (key : Bytes) : Bool := t.any (fun e => e.1 == key)

/-- `GetString`, mappack.go:94-100 and mapvalue.go:82-88. -/
def Table.getString (t : Table) (key : Bytes) : Bytes :=
  match t.get key with
  | .text s => s
  | _ => []

/-- `GetBoolean`, mappack.go:103-109 and mapvalue.go:91-97. -/
def Table.getBoolean (t : Table) (key : Bytes) : Bool :=
  match t.get key with
  | .bool b => b
  | _ => false

/-- `GetInt8`, mappack.go:112-118 and mapvalue.go:100-106. -/
def Table.getInt8 (t : Table) (key : Bytes) : BitVec 8 :=
  match t.get key with
  | .dec v => v.setWidth 8
  | _ => 0

/-- `GetInt16`, mappack.go:121-127 and mapvalue.go:109-115. -/
def Table.getInt16 (t : Table) (key : Bytes) : BitVec 16 :=
  match t.get key with
  | .dec v => v.setWidth 16
  | _ => 0

/-- `GetInt32`, mappack.go:130-136 and mapvalue.go:118-124. -/
def Table.getInt32 (t : Table) (key : Bytes) : BitVec 32 :=
  match t.get key with
  | .dec v => v.setWidth 32
  | _ => 0

/-- `GetInt64`, mappack.go:139-145 and mapvalue.go:127-133. -/
def Table.getInt64 (t : Table) (key : Bytes) : BitVec 64 :=
  match t.get key with
  | .dec v => v
  | _ => 0

/-- `ObjectPack.SetStatus` and `ObjectPack2.SetStatus`, objectpack.go:140-146: `Tags.Put("status", status)` with a
plain `int`. -/
def ObjectPack.setStatus (p : ObjectPack) (status : BitVec 64) : ObjectPack :=
  { p with tags := MapValue.put p.tags (ascii "status") (.int status) }

end Scouter
