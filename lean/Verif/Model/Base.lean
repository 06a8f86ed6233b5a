/-!
# Base conventions of the model

Go `string` and `[]byte` are lists of bytes.  A Go call that may panic, or that the model bounds by fuel,
returns a `Go` outcome.  Go errors are ordinary return values (`Option Err`).
-/
namespace Scouter

/-- A byte (Go `byte`/`uint8`, and `int8` by bit pattern).  Go language; e.g. datainputx.go:34-47. -/
abbrev Byte := BitVec 8

/-- Go `string` / `[]byte`.  Go language; e.g. datainputx.go:88-117. -/
abbrev Bytes := List Byte

/-- Outcome of a Go call: it returns, it panics, or (only in the model) the fuel of a bounded recursion ran out.
   Go language (panics, e.g. datainputx.go:179-186); a modelling device. -/
inductive Go (α : Type) where
  | ok (a : α)
  | panic
  | fuel
deriving DecidableEq, Repr

namespace Go

/-- Sequencing of calls that may panic (Go language, a modelling device). -/
def bind {α β : Type} : Go α → (α → Go β) → Go β
  | ok a, f => f a
  | panic, _ => panic
  | fuel, _ => fuel

instance : Monad Go where
  pure := Go.ok
  bind := Go.bind

@[simp] theorem pure_eq {α : Type} (a : α) : (pure a : Go α) = ok a := rfl
@[simp] theorem ok_bind {α β : Type} (a : α) (f : α → Go β) : (Go.ok a >>= f) = f a := rfl
@[simp] theorem panic_bind {α β : Type} (f : α → Go β) : ((Go.panic : Go α) >>= f) = Go.panic := rfl
@[simp] theorem fuel_bind {α β : Type} (f : α → Go β) : ((Go.fuel : Go α) >>= f) = Go.fuel := rfl

theorem bind_eq_ok {α β : Type} {x : Go α} {f : α → Go β} {b : β} :
    (x >>= f) = .ok b ↔ ∃ a, x = .ok a ∧ f a = .ok b := by
  cases x <;> simp

theorem bind_eq_panic {α β : Type} {x : Go α} {f : α → Go β} :
    (x >>= f) = .panic ↔ x = .panic ∨ ∃ a, x = .ok a ∧ f a = .panic := by
  cases x <;> simp

theorem bind_eq_fuel {α β : Type} {x : Go α} {f : α → Go β} :
    (x >>= f) = .fuel ↔ x = .fuel ∨ ∃ a, x = .ok a ∧ f a = .fuel := by
  cases x <;> simp

end Go

/-- The errors the decoding code can return: `io.EOF`, `io.ErrUnexpectedEOF` and the "Not defined value type" error
(datainputx.go:160). -/
inductive Err where
  | eof
  | unexpectedEOF
  | undefinedType
deriving DecidableEq, Repr

/-- The UTF-8 bytes of an ASCII literal; used for the string constants that occur in the code.
   Go language; e.g. const.go:3-14. -/
def ascii (s : String) : Bytes := s.toList.map (fun c => BitVec.ofNat 8 c.toNat)

end Scouter
