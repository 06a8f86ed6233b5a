import Verif.Model.MapAccess
/-!
# Typed access to lists (scouterx/common/netdata/listvalue.go:36-126)
-/
namespace Scouter

/-- The functions that append to a list: `AddInt64`, `AddInt32`, `AddFloat`, `AddString`, `AddBoolean`, `Add`.
   listvalue.go:37-71. -/
inductive ListAdd where
  | int64 (v : BitVec 64)
  | int32 (v : BitVec 32)
  | float (bits : BitVec 32)
  | string (s : Bytes)
  | bool (b : Bool)
  | value (v : Value)

namespace ListValue

/-- `Add*`, listvalue.go:37-71. -/
def add (l : List Value) : ListAdd → List Value
  | .int64 v => l ++ [.dec v]
  | .int32 v => l ++ [.dec (v.signExtend 64)]
  | .float v => l ++ [.float v]
  | .string s => l ++ [.text s]
  | .bool b => l ++ [.bool b]
  | .value v => l ++ [v]

/-- The index expression `listValue.Value[i]`: outside of the list it panics.  Go language; listvalue.go:75. -/
def at' (l : List Value) (i : Int) : Go Value :=
  if i < 0 then .panic
  else match l[i.toNat]? with
    | some v => .ok v
    | none => .panic

/-- `GetString`, listvalue.go:74-81. -/
def getString (l : List Value) (i : Int) : Go Bytes :=
  (at' l i).bind fun v => match v with
    | .text s => .ok s
    | _ => .ok []

/-- `GetFloat`, listvalue.go:84-91. -/
def getFloat (l : List Value) (i : Int) : Go (BitVec 32) :=
  (at' l i).bind fun v => match v with
    | .float v => .ok v
    | _ => .ok 0

/-- `GetInt32`, listvalue.go:94-101. -/
def getInt32 (l : List Value) (i : Int) : Go (BitVec 32) :=
  (at' l i).bind fun v => match v with
    | .dec v => .ok (v.setWidth 32)
    | _ => .ok 0

/-- `GetInt64`, listvalue.go:104-111. -/
def getInt64 (l : List Value) (i : Int) : Go (BitVec 64) :=
  (at' l i).bind fun v => match v with
    | .dec v => .ok v
    | _ => .ok 0

/-- `GetBoolean`, listvalue.go:114-121. -/
def getBoolean (l : List Value) (i : Int) : Go Bool :=
  (at' l i).bind fun v => match v with
    | .bool b => .ok b
    | _ => .ok false

/-- `Size`, listvalue.go:124-126. -/
def size (l : List Value) : Nat := l.length

end ListValue
end Scouter
