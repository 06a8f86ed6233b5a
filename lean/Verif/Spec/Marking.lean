import Verif.Model.Marking
/-!
# What is said about goroutines marking errors and counting api calls on one service
-/
namespace Scouter
namespace Marking

/-- The error a call reports, if it reports one. -/
def Call.error : Call → Option (BitVec 32)
  | .mark h => some h
  | .force h => some h
  | .endApi _ err => err
  | .finish _ _ => none

/-- The time of an ended api call. -/
def Call.elapsed : Call → Option (BitVec 32)
  | .endApi e _ => some e
  | _ => none

/-- The error and the api calls (number, total time) of a service, and the logs made of it. -/
structure Account where
  error : BitVec 32
  count : BitVec 32
  time : BitVec 32
  logs : List Log
deriving DecidableEq, Repr

/-- What a call means when nothing else happens meanwhile: the first error stays unless it is replaced forcibly, an ended api call is counted
with its time, and a service with an error is never discarded. -/
def Account.after (a : Account) : Call → Account
  | .mark h => { a with error := if a.error = 0 then h else a.error }
  | .force h => { a with error := h }
  | .endApi e err =>
    { a with
      count := a.count + 1, time := a.time + e
      error := match err with
        | some h => if a.error = 0 then h else a.error
        | none => a.error }
  | .finish sampled discard =>
    { a with
      logs := a.logs ++ [⟨if a.error ≠ 0 then discardNone else if discard then discardAllForce else sampled, a.error, a.count, a.time⟩] }

/-- What the trace context says. -/
def Shared.account (s : Shared) : Account := ⟨s.error, s.count, s.time, s.logs⟩

/-- Nobody is inside a call. -/
def State.idle (s : State) : Prop := ∀ g ∈ s.gors, g.code = []

/-- The calls goroutines are in. -/
def State.inside (s : State) : List Call := s.gors.filterMap (·.call)

/-- The calls goroutines have still to begin. -/
def State.ahead (s : State) : List Call := s.gors.flatMap (·.todo)

/-- The goroutines take turns: whenever one makes a step, no other is inside a call. -/
def Turns (s : State) (is : List Nat) : Prop :=
  ∀ pre i post, is = pre ++ i :: post → ∀ j g, j ≠ i → (s.run pre).gors[j]? = some g → g.code = []

/-- The calls begun along a schedule, in order. -/
def callsMade (s : State) : List Nat → List Call
  | [] => []
  | i :: is =>
    (match s.gors[i]? with
      | some g => if g.code = [] then g.todo.head?.toList else []
      | none => []) ++ callsMade (s.fire i) is

end Marking
end Scouter
