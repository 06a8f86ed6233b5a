import Verif.Spec.WirePack
/-!
# The collector's side of a TCP conversation

The agent greets with a magic number and its object hash.  A request is a four-byte length and a body: the command text and a
pack.  A reply is a sequence of records, each after the mark 3, closed by the mark 4.  Depending on the command a record is a
length-prefixed pack or a byte string.
-/
namespace Scouter.Wire

/-- What the collector expects as reply to a command: at most one pack, or a stream of byte strings. -/
inductive Kind where
  | pack
  | stream
deriving DecidableEq

/-- A reply as the collector sees it. -/
inductive WReply where
  | nothing
  | pack (p : WPack)
  | stream (bs : List Bytes)

/-- A reply with at most one pack: `4`, or `3`, a length, a pack of exactly that length, `4`. -/
def packReply : P WReply := do
  let t ← u 1
  if t = 4 then return .nothing
  else if t = 3 then do
    let n ← u 4
    let b ← bytes n
    let t ← u 1
    if t = 4 then
      match pack b with
      | some (d, []) => return .pack d
      | _ => fail
    else fail
  else fail

/-- A stream of at most `n` byte strings, each after a `3`, closed by a `4`. -/
def streamReplyN : Nat → P (List Bytes)
  | 0 => do
    let t ← u 1
    if t = 4 then return [] else fail
  | n + 1 => do
    let t ← u 1
    if t = 4 then return []
    else if t = 3 then do
      let b ← blob
      return b :: (← streamReplyN n)
    else fail

/-- A stream has fewer byte strings than bytes. -/
def streamReply : P WReply := fun s => (do return .stream (← streamReplyN s.length) : P WReply) s

/-- The replies to a sequence of requests. -/
def replies : List Kind → P (List WReply)
  | [] => pure []
  | .pack :: ks => do
    let r ← packReply
    return r :: (← replies ks)
  | .stream :: ks => do
    let r ← streamReply
    return r :: (← replies ks)

/-- The greeting: a magic number and the object hash. -/
def greeting : P Int := do
  let m ← u 4
  if m = 0xCAFE1002 then i 4 else fail

/-- A whole conversation as the collector sees it: the object hash and the replies to requests of these kinds, and nothing more. -/
def conversation (ks : List Kind) (s : Bytes) : Option (Int × List WReply) :=
  match (do let o ← greeting; return (o, ← replies ks) : P (Int × List WReply)) s with
  | some (r, []) => some r
  | _ => none

end Scouter.Wire
