import Verif.Model.Conf
/-!
# Specification of the effective configuration

Only the types (`Props`, `Reading`, `Setting`, `File`) are shared with the model.
-/
namespace Scouter.Spec
open Config

/-- The name in an environment entry: what stands before the first '='. -/
def envName (e : Bytes) : Bytes := e.takeWhile (· ≠ 61)

/-- What the agent takes from an environment entry: what stands between the first '=' and the next one (or the end). -/
def envText (e : Bytes) : Bytes := ((e.dropWhile (· ≠ 61)).drop 1).takeWhile (· ≠ 61)

/-- The text the environment gives for a name: that of its last entry. -/
def envValue (env : List Bytes) (k : Bytes) : Option Bytes := ((env.filter (envName · = k)).getLast?).map envText

/-- The text in effect: the file's if not empty; if the file does not have the key, the environment's if not empty. -/
def effectiveText (env : List Bytes) (file : Option Props) (k : Bytes) : Option Bytes :=
  match file.bind (· k) with
  | some v => if v = [] then none else some v
  | none => (envValue env k).bind fun v => if v = [] then none else some v

/-- A decimal digit. -/
def isDigit (b : Byte) : Bool := 48 ≤ b.toNat ∧ b.toNat ≤ 57

/-- The number written by digits. -/
def digitsValue (ds : Bytes) : Nat := ds.foldl (fun n d => n * 10 + (d.toNat - 48)) 0

/-- The whole number written by a text: a possible sign and at least one digit, and the number fits 64 bits. -/
def wholeNumber (v : Bytes) : Option Int :=
  let ds := if v.head? = some 43 ∨ v.head? = some 45 then v.tail else v
  if ds ≠ [] ∧ ds.all isDigit = true then
    let z : Int := if v.head? = some 45 then - (digitsValue ds : Int) else digitsValue ds
    if -2 ^ 63 ≤ z ∧ z < 2 ^ 63 then some z else none
  else none

/-- The texts that mean "yes", in any mixture of cases. -/
def isYes (v : Bytes) : Bool :=
  v.map (fun b => if 65 ≤ b.toNat ∧ b.toNat ≤ 90 then b + 32 else b) ∈ [ascii "1", ascii "true", ascii "yes", ascii "on"]

/-- The value of a setting given the text in effect: the default without one, or when it is not a whole number but should be. -/
def meaning : Reading → Option Bytes → Setting
  | .bool d, none => .bool d
  | .bool _, some v => .bool (isYes v)
  | .int d, t => .int ((t.bind wholeNumber).getD d)
  | .int32 d, t => .int32 (BitVec.ofInt 32 ((t.bind wholeNumber).getD d))
  | .text _ d, t => .text (t.getD d)

/-- The name and the type of the monitored object, which are read like the other settings. -/
def objRows : List Row :=
  [⟨"ObjNameSimple", ascii "obj_name", .text 1 (ascii "go1")⟩, ⟨"ObjType", ascii "obj_type", .text 1 (ascii "golang")⟩]

/-- The configuration is the one given by the environment, the host's name and a file (`none`: no file). -/
structure InEffect (env : List Bytes) (host : Option Bytes) (file : Option Props) (c : Configure) : Prop where
  fields : ∀ r ∈ objRows ++ rows, c.fields r.field = some (meaning r.reading (effectiveText env file r.key))
  trace : c.trace = ((effectiveText env file (ascii "_trace")).map isYes).getD false
  objName : c.objName = ascii "/" ++ host.getD (ascii "unknown") ++ ascii "/" ++
    (effectiveText env file (ascii "obj_name")).getD (ascii "go1")
  objHash : c.objHash = hash c.objName

end Scouter.Spec

namespace Scouter.Spec
open Config

/-- Something that happens: the file changes, or a refresh takes place, during which the file may change after its
modification time has been read and before its contents are. -/
inductive FileEvent where
  | change (f : File)
  | refresh (after : File)

/-- The modification time of a file that is there. -/
def stamp : File → Option Int
  | .absent => none
  | .denied => none
  | .bad m => some m
  | .good m _ => some m

/-- The file is not there or has a modification time later than `top`. -/
def Later (top : Int) (f : File) : Prop := ∀ m, stamp f = some m → top < m

/-- Every change gives the file a modification time later than any before (`top`: the latest so far, `cur`: the file). -/
def Stamped : Int → File → List FileEvent → Prop
  | _, _, [] => True
  | top, _, .change f :: es => Later top f ∧ Stamped ((stamp f).getD top) f es
  | top, cur, .refresh g :: es => (g = cur ∧ Stamped top cur es) ∨ (Later top g ∧ Stamped ((stamp g).getD top) g es)

/-- The file and the agent's configuration. -/
structure Site where
  file : File
  conf : Configure

/-- The texts in the agent's listing for a setting: the value and the default as text, and the type. -/
def describe (r : Row) (t : Option Bytes) : Desc :=
  let yesNo (b : Bool) := if b then ascii "true" else ascii "false"
  match r.reading with
  | .bool d => ⟨yesNo ((t.map isYes).getD d), yesNo d, 3⟩
  | .int d => ⟨formatInt 10 ((t.bind wholeNumber).getD d), formatInt 10 d, 2⟩
  | .int32 d => ⟨formatInt 10 ((t.bind wholeNumber).getD d), formatInt 10 d, 2⟩
  | .text k d => ⟨t.getD d, d, k⟩

/-- The agent's listing of its configuration: every setting once, in a fixed order. -/
def listing (env : List Bytes) (file : Option Props) : List (Bytes × Desc) :=
  (objRows ++ rows).map fun r => (r.key, describe r (effectiveText env file r.key))

end Scouter.Spec
