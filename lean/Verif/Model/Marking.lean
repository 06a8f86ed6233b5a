import Verif.Model.Sampler
/-!
# Several goroutines marking errors and ending api calls on the same service, while it ends

The fields `Error`, `ApicallCount` and `ApicallTime` of a trace context are read and written without a lock
(tracemain.go:63-65, 78, 366-368, 594-601; the end of a service reads them, tracemain.go:402, 411, tracecontext.go:110, 120-121).
Here every goroutine runs its calls in steps of at most one access to a shared field, and other goroutines may run between the
steps.  Simplifications: reads and writes of a field are single events seen in order; the hash of a text stands for `SendError(text)`
(dataproxy.go:140-151: 0 for the empty text; announcing the text is Model/Announcers); of the end of a service only what reads these
three fields is modelled, `Closed` and the profile are Model/Ends and Model/Recorders.
-/
namespace Scouter
namespace Marking

/-- The API calls that touch the three fields.  tracemain.go:54-79, 366-398, 583-604. -/
inductive Call where
  /-- `MarkAsError`, tracemain.go:54-67, and the mark of a stuck service, tracemain.go:366-368, with a text of this hash. -/
  | mark (h : BitVec 32)
  /-- `MarkAsErrorForcibly`, tracemain.go:69-79. -/
  | force (h : BitVec 32)
  /-- `EndApiCall`, tracemain.go:583-604, `elapsed` after the api call's start, with an error text of this hash or without an error. -/
  | endApi (elapsed : BitVec 32) (err : Option (BitVec 32))
  /-- The end of the service, tracemain.go:373-398, when the sampler says `sampled` and the name is to be discarded or not. -/
  | finish (sampled : BitVec 8) (discard : Bool)
deriving DecidableEq, Repr

/-- The steps of which the calls are made.  tracemain.go:54-79, 366-415, 583-604. -/
inductive Instr where
  /-- the test `tctx.Error == 0`, tracemain.go:63, 366, 598. -/
  | testError
  /-- the write of `tctx.Error`, tracemain.go:64, 78, 367, 599. -/
  | writeError (h : BitVec 32)
  /-- the read of `tctx.ApicallCount++`, tracemain.go:594. -/
  | readCount
  /-- the write of `tctx.ApicallCount++`, tracemain.go:594. -/
  | writeCount
  /-- the read of `tctx.ApicallTime += step.Elapsed`, tracemain.go:595. -/
  | readTime
  /-- the write of `tctx.ApicallTime += step.Elapsed`, tracemain.go:595. -/
  | writeTime (elapsed : BitVec 32)
  /-- the read of `tctx.Error` for sampling, tracemain.go:402. -/
  | firstError
  /-- the read of `tctx.Error` for the discard pattern, tracemain.go:411 (not made when no pattern matches). -/
  | secondError
  /-- the copy of `Error` into the log, tracecontext.go:110 (the value receiver of tracecontext.go:98 copies it). -/
  | thirdError
  /-- the copy of `ApicallCount`, tracecontext.go:120. -/
  | copyCount
  /-- the copy of `ApicallTime`, tracecontext.go:121, completing the log. -/
  | copyTime (sampled : BitVec 8) (discard : Bool)
deriving DecidableEq, Repr

/-- The code of a call.  tracemain.go:54-79, 366-415, 583-604. -/
def Call.code : Call → List Instr
  | .mark h => [.testError, .writeError h]
  | .force h => [.writeError h]
  | .endApi e none => [.readCount, .writeCount, .readTime, .writeTime e]
  | .endApi e (some h) => [.readCount, .writeCount, .readTime, .writeTime e, .testError, .writeError h]
  | .finish sampled discard => [.firstError, .secondError, .thirdError, .copyCount, .copyTime sampled discard]

/-- What `findXLogDiscard` decides, tracemain.go:400-415, from the two reads of `Error`. -/
def decision (sampled : BitVec 8) (discard : Bool) (first second : BitVec 32) : BitVec 8 :=
  let mode := if first ≠ 0 then discardNone else sampled
  if discard then (if second ≠ 0 then discardNone else discardAllForce) else mode

/-- Of a transaction log: how it is discarded, its error, and its api calls.  xlogpack.go:9-60. -/
structure Log where
  mode : BitVec 8
  error : BitVec 32
  count : BitVec 32
  time : BitVec 32
deriving DecidableEq, Repr

/-- What goroutines share; `timed` and `counted` (ghosts) are the times of the api calls whose time and number have been written, `done`
(ghost) the calls that have returned, `logs` the logs made.  tracecontext.go:20-60. -/
structure Shared where
  error : BitVec 32 := 0
  count : BitVec 32 := 0
  time : BitVec 32 := 0
  counted : Nat := 0
  timed : List (BitVec 32) := []
  done : List Call := []
  logs : List Log := []
deriving DecidableEq, Repr

/-- A goroutine's own variables.  Model only: the temporaries of tracemain.go:54-604. -/
structure Regs where
  count : BitVec 32 := 0
  time : BitVec 32 := 0
  first : BitVec 32 := 0
  second : BitVec 32 := 0
  third : BitVec 32 := 0
deriving DecidableEq, Repr

/-- One step: what is shared, the goroutine's variables, whether the call goes on.  tracemain.go:54-79, 366-415, 583-604. -/
def exec (s : Shared) (r : Regs) : Instr → Shared × Regs × Bool
  | .testError => (s, r, s.error == 0)
  | .writeError h => ({ s with error := h }, r, true)
  | .readCount => (s, { r with count := s.count }, true)
  | .writeCount => ({ s with count := r.count + 1, counted := s.counted + 1 }, r, true)
  | .readTime => (s, { r with time := s.time }, true)
  | .writeTime e => ({ s with time := r.time + e, timed := s.timed ++ [e] }, r, true)
  | .firstError => (s, { r with first := s.error }, true)
  | .secondError => (s, { r with second := s.error }, true)
  | .thirdError => (s, { r with third := s.error }, true)
  | .copyCount => (s, { r with count := s.count }, true)
  | .copyTime sampled discard =>
    ({ s with logs := s.logs ++ [⟨decision sampled discard r.first r.second, r.third, r.count, s.time⟩] }, r, true)

/-- A goroutine: the call it is in and what is left of it, its variables, and the calls it will make afterwards.
   Model only: goroutines inside tracemain.go:54-604. -/
structure Gor where
  call : Option Call := none
  code : List Instr := []
  regs : Regs := {}
  todo : List Call := []
deriving DecidableEq, Repr

/-- All there is.  Model only: a trace context (tracecontext.go:20-60) and the goroutines using it. -/
structure State where
  shared : Shared
  gors : List Gor
deriving DecidableEq, Repr

/-- The call a goroutine is in returns.  tracemain.go:67, 79, 398, 604. -/
def leave (s : Shared) (g : Gor) : Shared × Gor := ({ s with done := s.done ++ g.call.toList }, { g with call := none, code := [] })

/-- One step of a goroutine: begin the next call, or go on in this one.  tracemain.go:54-79, 366-415, 583-604. -/
def Gor.step (s : Shared) (g : Gor) : Shared × Gor :=
  match g.code with
  | [] =>
    match g.todo with
    | [] => (s, g)
    | c :: todo => (s, { g with call := some c, code := c.code, todo := todo })
  | i :: code =>
    match exec s g.regs i with
    | (s, r, goOn) => if goOn && code ≠ [] then (s, { g with code := code, regs := r }) else leave s { g with regs := r }

/-- One step of goroutine `i`.  tracemain.go:54-79, 366-415, 583-604. -/
def State.fire (s : State) (i : Nat) : State :=
  match s.gors[i]? with
  | none => s
  | some g => ⟨(g.step s.shared).1, s.gors.set i (g.step s.shared).2⟩

/-- A schedule.  Model only: the Go scheduler between the steps of tracemain.go:54-604. -/
def State.run (s : State) (is : List Nat) : State := is.foldl State.fire s

/-- Goroutines about to make their calls on a trace context.  Model only. tracemain.go:54-604. -/
def State.start (sh : Shared) (todos : List (List Call)) : State := ⟨sh, todos.map fun t => { todo := t }⟩

end Marking
end Scouter
