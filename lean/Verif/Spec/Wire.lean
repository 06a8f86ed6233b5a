import Verif.Model.Base
/-!
# The collector's side of the wire format

An independent description of the Scouter wire format as parsers over bytes, in terms of numbers (`Nat`/`Int`),
written without reference to the agent's writers or readers.  A parser returns the parsed thing and the unread rest,
or `none` if the bytes do not have the right form.
-/
namespace Scouter.Wire

def P (α : Type) := Bytes → Option (α × Bytes)

namespace P
def pure {α : Type} (a : α) : P α := fun s => some (a, s)
def bind {α β : Type} (p : P α) (f : α → P β) : P β := fun s =>
  match p s with
  | some (a, s) => f a s
  | none => none
instance : Monad P where
  pure := P.pure
  bind := P.bind
end P

def fail {α : Type} : P α := fun _ => none

/-- The number a big-endian byte string stands for. -/
def beNat (bs : Bytes) : Nat := bs.foldl (fun n b => 256 * n + b.toNat) 0

/-- Exactly `n` bytes. -/
def bytes (n : Nat) : P Bytes := fun s => if n ≤ s.length then some (s.take n, s.drop n) else none

/-- An unsigned big-endian number of `n` bytes. -/
def u (n : Nat) : P Nat := do
  let b ← bytes n
  return beNat b

/-- A two's-complement big-endian number of `n` bytes. -/
def i (n : Nat) : P Int := do
  let x ← u n
  return if 2 * x < 256 ^ n then (x : Int) else (x : Int) - (256 : Int) ^ n

/-- A compact number: a width byte (0, 1, 2, 4 or 8) and a two's-complement number of that width. -/
def decimal : P Int := do
  let w ← u 1
  if w = 0 ∨ w = 1 ∨ w = 2 ∨ w = 4 ∨ w = 8 then i w else fail

/-- A byte string: one length byte, or 255 and a two-byte length, or 254 and a four-byte length. -/
def blob : P Bytes := do
  let t ← u 1
  if t = 255 then do let n ← u 2; bytes n
  else if t = 254 then do let n ← u 4; bytes n
  else bytes t

def bool : P Bool := do
  let b ← u 1
  return b != 0

/-- `n` times the same parser. -/
def times {α : Type} (p : P α) : Nat → P (List α)
  | 0 => pure []
  | n + 1 => do
    let a ← p
    let as ← times p n
    return a :: as

/-- What a value on the wire denotes; floats are their IEEE bit patterns. -/
inductive WV where
  | null
  | bool (b : Bool)
  | num (n : Int)
  | float (bits : Nat)
  | double (bits : Nat)
  | text (s : Bytes)
  | hash (n : Int)
  | blob (b : Bytes)
  | ip (b : Bytes)
  | list (vs : List WV)
  | map (es : List (Bytes × WV))

/-- A value nested at most `depth` deep: a type byte and its body.  An IPv4 address is four plain bytes. -/
def valueD : Nat → P WV
  | 0 => fail
  | d + 1 => do
    let t ← u 1
    if t = 0 then return .null
    else if t = 10 then return .bool (← Wire.bool)
    else if t = 20 then return .num (← decimal)
    else if t = 30 then return .float (← u 4)
    else if t = 40 then return .double (← u 8)
    else if t = 50 then return .text (← Wire.blob)
    else if t = 51 then return .hash (← i 4)
    else if t = 60 then return .blob (← Wire.blob)
    else if t = 61 then return .ip (← bytes 4)
    else if t = 70 then do
      let n ← decimal
      return .list (← times (valueD d) n.toNat)
    else if t = 80 then do
      let n ← decimal
      return .map (← times (do let k ← Wire.blob; let v ← valueD d; return (k, v)) n.toNat)
    else fail

/-- A value: nesting cannot be deeper than the input is long. -/
def value : P WV := fun s => valueD s.length s

/-- What the agent transmits for a text: the text itself up to 100000 bytes, a fixed marker for longer ones. -/
def shown (s : Bytes) : Bytes := if s.length ≤ 100000 then s else ascii "huge string omitted..."

end Scouter.Wire
