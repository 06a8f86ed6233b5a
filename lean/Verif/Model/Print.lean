import Verif.Model.Pack
import Verif.Model.Util
/-!
# Texts of values and packs (the `ToString` methods of scouterx/common/netdata)

`FormatFloat(_, 'f', 3, 64)` and the widening of a float32 are oracles.
-/
namespace Scouter

/-- Library functions used by the texts: `float64(float32)` and `strconv.FormatFloat(_, 'f', 3, 64)`.  floatvalue.go:46-48, doublevalue.go:44-46. -/
structure Floats where
  widen : BitVec 32 → BitVec 64
  format : BitVec 64 → Bytes

mutual
/-- `ToString` of the value types: nilvalue.go:34-36, booleanvalue.go:53-58, decimalvalue.go:46-49, floatvalue.go:46-48, doublevalue.go:44-46,
textvalue.go:44-46, texthashvalue.go:46-49, blobvalue.go:45-48, ip4value.go:46-49, listvalue.go:155-165, mapvalue.go:136-142.  The method of a nil
interface panics. -/
def Value.toText (fl : Floats) : Value → Go Bytes
  | .goNil => .panic
  | .null => .ok (ascii "nil")
  | .bool b => if b then .ok (ascii "true") else .ok (ascii "fasle")
  | .dec v => .ok (formatInt 10 v.toInt)
  | .float v => .ok (fl.format (fl.widen v))
  | .double v => .ok (fl.format v)
  | .text s => .ok s
  | .textHash v => .ok (formatInt 10 v.toInt)
  | .blob b => .ok (ascii "byte[" ++ formatInt 10 b.length ++ ascii "]")
  | .ip4 b => .ok (ascii "ip[" ++ b ++ ascii "]")
  | .list vs => listText fl 0 (ascii "list value ") vs
  | .map es => entriesText fl (ascii "map value \n") es
/-- The loop of listvalue.go:157-163, at index `i` with the text so far. -/
def listText (fl : Floats) (i : Nat) (str : Bytes) : List Value → Go Bytes
  | [] => .ok str
  | v :: vs =>
    match v with
    | .goNil => listText fl (i + 1) (str ++ (formatInt 10 i ++ ascii ": nil ")) vs
    | v =>
      match v.toText fl with
      | .ok t => listText fl (i + 1) (str ++ (formatInt 10 i ++ ascii ": " ++ t ++ ascii " ")) vs
      | .panic => .panic
      | .fuel => .fuel
/-- The loop of mapvalue.go:138-140 (and mappack.go:150-152), in the order of the iteration, with the text so far. -/
def entriesText (fl : Floats) (str : Bytes) : List (Bytes × Value) → Go Bytes
  | [] => .ok str
  | (k, v) :: es =>
    match v.toText fl with
    | .ok t => entriesText fl (str ++ (ascii "key:" ++ k ++ ascii " value:" ++ t ++ ascii "\n")) es
    | .panic => .panic
    | .fuel => .fuel
end

/-- `strconv.FormatBool`.  Library strconv; objectpack.go:122, :135. -/
def formatBool (b : Bool) : Bytes := if b then ascii "true" else ascii "false"

/-- `ToString` of the packs: mappack.go:148-154, textpack.go:34-40, perfcounterpack.go:72-75, perfcounter_k8s_pack.go:92-95, objectpack.go:115-126,
:129-138, alertpack.go:46-52, xlogpack.go:159-168, xlogprofilepack.go:36-41. -/
def Pack.toText (fl : Floats) : Pack → Go Bytes
  | .map p => entriesText fl (ascii "map value \n") p.table
  | .text p => .ok (p.xtype ++ ascii " hash: " ++ formatInt 10 p.hash.toInt ++ ascii " text: " ++ p.text)
  | .perfCounter p => (Value.map p.data).toText fl
  | .perfCounterK8S p => (Value.map p.data).toText fl
  | .object p => do
    let tags ← (Value.map p.tags).toText fl
    return ascii "object name: " ++ p.objName ++ ascii " type: " ++ p.objType ++ ascii " hash: " ++ formatInt 10 p.objHash.toInt ++
      ascii " version: " ++ p.version ++ ascii " alive: " ++ formatBool p.alive ++ ascii " tags: " ++ tags
  | .object2 p => do
    let tags ← (Value.map p.tags).toText fl
    return ascii "object siteID: " ++ p.siteID ++ ascii " name: " ++ p.objName ++ ascii " type: " ++ p.objType ++ ascii " hash: " ++
      formatInt 10 p.objHash.toInt ++ ascii " version: " ++ p.version ++ ascii " alive: " ++ formatBool p.alive ++ ascii " familly: " ++
      formatInt 10 p.family.toInt ++ ascii " tags: " ++ tags
  | .alert p => .ok (ascii "AlertPack:" ++ ascii " title: " ++ p.title ++ ascii " message: " ++ p.message)
  | .xlog p => .ok (ascii "XLOG: " ++ ascii " objHash: " ++ formatInt 10 p.objHash.toInt ++ ascii " service: " ++ formatInt 10 p.service.toInt ++
      ascii " txid: " ++ formatInt 10 p.txid.toInt ++ ascii " elapsed: " ++ formatInt 10 p.elapsed.toInt ++ ascii " error: " ++
      formatInt 10 p.error.toInt)
  | .profile p => .ok (ascii "Profile: " ++ ascii " objHash: " ++ formatInt 10 p.objHash.toInt)

end Scouter
