import Verif.Model.Calls
/-!
# Outgoing requests as objects (scouterx/strace/tracemain.go)

`Model/Trace.lean` has `StartApiCallWithPropagation` giving the headers it adds.  Here the request is an object of the
application with headers of its own, which the application may use again, and which may have no header map at all.
-/
namespace Scouter
namespace Propagation
open Trace TM

/-- A header map that is not nil: the values of each key, in the order they were added.  The keys used here are canonical already.
   Library net/http; tracemain.go:558-563. -/
abbrev Header := List (Bytes × List Bytes)

/-- `Header.Values`.  Library net/http. -/
def Header.values (h : Header) (key : Bytes) : List Bytes := (h.lookup key).getD []

/-- `Header.Get`: the first value, or the empty text.  Library net/http. -/
def Header.get (h : Header) (key : Bytes) : Bytes := (h.values key).headD []

/-- `Header.Add`: the value goes behind those the key has.  Library net/http; tracemain.go:559-562. -/
def Header.add : Header → Bytes → Bytes → Header
  | [], key, value => [(key, [value])]
  | e :: h, key, value => if e.1 = key then (e.1, e.2 ++ [value]) :: h else e :: Header.add h key value

/-- `StartApiCallWithPropagation`, tracemain.go:544-566, and what it leaves of the request.  `none` is a nil request, `some none`
one whose `Header` is nil: adding to a nil map panics, when the step is pushed already and before anything is added. -/
def startApiCallOn (c : Ctx) (req : Option (Option Header)) (name address : Bytes) :
    TM (Option Nat × Option (Option Header)) :=
  recovered (none, req) <| withTrace c (none, req) fun p => do
    let ptr ← startApiCall0 p name address
    let t ← getT p
    if t.gxid = 0 then modT p fun t => { t with gxid := t.txid } else pure ()
    let t ← getT p
    let s ← getStep ptr
    let w ← get
    match req with
    | none => return (some ptr, none)
    | some none => TM.panic
    | some (some h) =>
      let h := h.add (ascii "X-Scouter-Gxid") (intToXlogString32 t.gxid)
      let h := h.add (ascii "X-Scouter-Caller") (intToXlogString32 t.txid)
      let h := h.add (ascii "X-Scouter-Callee") (intToXlogString32 (stepTxid s))
      let h := h.add (ascii "X-Scouter-Caller-Obj") (formatInt 10 w.conf.objHash.toInt)
      return (some ptr, some (some h))

/-- The application: the agent's state and the requests it holds.  Model only: user code making the calls of tracemain.go:24-604. -/
structure App where
  world : World
  requests : List (Option Header)

/-- What the application does: a call that has nothing to do with requests, an api call with one of its requests, making a request,
or changing the headers of one.  Model only: user code making the calls of tracemain.go:24-604. -/
inductive Act where
  | call (c : Call)
  | propagate (c : Ctx) (req : Nat) (name address : Bytes)
  | make (h : Option Header)
  | change (req : Nat) (f : Option Header → Option Header)

/-- One of them.  Model only: user code; tracemain.go:544-566. -/
def App.act (a : App) : Act → App
  | .call c => { a with world := perform a.world c }
  | .propagate c i name address =>
    match a.requests[i]? with
    | none => a
    | some h =>
      match startApiCallOn c (some h) name address a.world with
      | (.ok (_, some h'), w) => { world := w, requests := a.requests.set i h' }
      | (_, w) => { a with world := w }
  | .make h => { a with requests := a.requests ++ [h] }
  | .change i f => { a with requests := a.requests.modify i f }

/-- One after the other.  Model only: user code making the calls of tracemain.go:24-604. -/
def App.run (a : App) (acts : List Act) : App := acts.foldl App.act a

end Propagation
end Scouter
