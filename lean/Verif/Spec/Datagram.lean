import Verif.Spec.Wire
/-!
# What a collector understands of the agent's datagrams

Written from the protocol, without reference to the agent's code: a datagram is `CAFE` and one record, `CAFN`, a
two-byte count and that many records, or `CAFM` and one numbered fragment of a record.
-/
namespace Scouter.Wire

inductive Datagram where
  | one (record : Bytes)
  | many (count : Int) (records : Bytes)
  | frag (objHash : Int) (pkid : Int) (total : Int) (num : Int) (payload : Bytes)
deriving DecidableEq

/-- The whole rest of the input. -/
def rest : P Bytes := fun s => some (s, [])

def datagramP : P Datagram := do
  let m ← bytes 4
  if m = ascii "CAFE" then return .one (← rest)
  else if m = ascii "CAFN" then do
    let n ← i 2
    return .many n (← rest)
  else if m = ascii "CAFM" then do
    let h ← i 4
    let id ← i 8
    let t ← i 2
    let n ← i 2
    return .frag h id t n (← blob)
  else fail

/-- A datagram must be consumed completely. -/
def datagram (s : Bytes) : Option Datagram :=
  match datagramP s with
  | some (d, []) => some d
  | _ => none

/-- The payload of fragment `num` of packet `pkid` among the datagrams received so far, if it is there. -/
def findFrag (pkid num : Int) : List Datagram → Option Bytes
  | [] => none
  | .frag _ p _ n b :: ds => if p = pkid ∧ n = num then some b else findFrag pkid num ds
  | _ :: ds => findFrag pkid num ds

/-- Fragments `0 .. total-1` of packet `pkid` joined in number order; `none` while one is missing. -/
def reassemble (pkid : Int) (total : Nat) (ds : List Datagram) : Option Bytes :=
  (List.range total).foldr (fun (n : Nat) acc => do
    let b ← findFrag pkid n ds
    let r ← acc
    return b ++ r) (some [])

/-- All records of one unfragmented datagram, read with the record parser `p`; every byte must be used. -/
def records {α : Type} (p : P α) : Datagram → Option (List α)
  | .one b => match p b with
    | some (a, []) => some [a]
    | _ => none
  | .many n b => match times p n.toNat b with
    | some (as, []) => some as
    | _ => none
  | .frag .. => none

end Scouter.Wire
