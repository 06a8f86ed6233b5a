/-!
# Panics, deferred functions and recover (scouterx/common/panic.go, scouterx/strace/tracemain.go, scouterx/netio/dataproxy.go)

A small language of Go function bodies, with the language's rules for `panic`, `defer` and `recover`, in which the agent's
reporter of panics and the functions guarded by it are written down.  What a function does besides is left open: it is any
program of the language.
-/
namespace Scouter
namespace Deferring

/-- What a panic carries: a value given to `panic` (never nil), the run-time error of calling a nil function (panic.go:21 before
panic.go:13-15) or that of writing a nil pack (udpsender.go:87-96, countertask.go:22-28).  Go language. -/
inductive Val where
  | value (n : Nat)
  | nilFunction
  | nilPack
  deriving DecidableEq, Repr

/-- What can be observed of a run, in order: something the application does, something the agent does, the line printed of a
panic (panic.go:20), the one printed by the final handler (dataproxy.go:43) and the alert sent of a panic (dataproxy.go:49). -/
inductive Event where
  | app (n : Nat)
  | agent (n : Nat)
  | printed (v : Val)
  | fatal (v : Val)
  | alert (v : Val)
  deriving DecidableEq, Repr

/-- The body of a Go function: it returns; does something and goes on; panics; calls a function and goes on, knowing whether
that function came to its return statement (otherwise its results are zero values); defers a function call; or calls
`recover` itself.  Go language.  `runtime.Goexit`, `panic(nil)` and runs without end are left out. -/
inductive Prog where
  | done
  | act (e : Event) (k : Prog)
  | panic (v : Val)
  | call (f : Prog) (k : Bool → Prog)
  | defer (f : Prog) (k : Prog)
  | recover (k : Option Val → Prog)

/-- How a function call ended: what happened meanwhile, the panic it ends with, the panic left over of the one that `recover`
finds in this function, and whether its return statement was reached.  Go language. -/
structure Outcome where
  events : List Event := []
  raised : Option Val := none
  seen : Option Val := none
  completed : Bool := true

/-- A call of a function.  `seen` is what `recover` finds when this function calls it: the panic because of which the function is
being run as a deferred function, and nothing for any other function.  A deferred function is run when the rest of the
function that deferred it has ended; the panic stays unless the deferred function recovers it or panics itself.
Go language. -/
def exec : Prog → Option Val → Outcome
  | .done, seen => { seen := seen }
  | .act e k, seen => { exec k seen with events := e :: (exec k seen).events }
  | .panic v, seen => { raised := some v, seen := seen, completed := false }
  | .call f k, seen =>
    match (exec f none).raised with
    | some v => { events := (exec f none).events, raised := some v, seen := seen, completed := false }
    | none =>
      { exec (k (exec f none).completed) seen with
        events := (exec f none).events ++ (exec (k (exec f none).completed) seen).events }
  | .defer f k, seen =>
    { events := (exec k seen).events ++ (exec f (exec k seen).raised).events
      raised := (exec f (exec k seen).raised).raised.or (exec f (exec k seen).raised).seen
      seen := (exec k seen).seen
      completed := (exec k seen).completed }
  | .recover k, seen => exec (k seen) none

/-- `ReportScouterPanic`, panic.go:17-23, given what is registered as `fSendPanic` (panic.go:11-15).  The stack trace that is
part of the texts is left out. -/
def reportScouterPanic (send : Option (Val → Prog)) : Prog :=
  .recover fun
    | none => .done
    | some v => .act (.printed v) (match send with
      | none => .panic .nilFunction
      | some s => .call (s v) fun _ => .done)

/-- `reportScouterPanicFinal`, dataproxy.go:41-45. -/
def reportScouterPanicFinal : Prog :=
  .recover fun
    | none => .done
    | some v => .act (.fatal v) .done

/-- `SendPanic`, dataproxy.go:47-50, given what `SendAlert` does (dataproxy.go:156-168). -/
def sendPanic (sendAlert : Val → Prog) (v : Val) : Prog :=
  .call reportScouterPanicFinal fun _ => .call (sendAlert v) fun _ => .done

/-- `SendAlert` when it is not broken: the alert goes out (dataproxy.go:156-168). -/
def plainAlert (v : Val) : Prog := .act (.alert v) .done

/-- What is registered while the program runs (agent.go:29). -/
def registered : Option (Val → Prog) := some (sendPanic plainAlert)

/-- A function that begins with `defer common.ReportScouterPanic()`: every function of the tracing API (tracemain.go:29-584),
`Goid` (panic.go:25-35), `getAllCounterOnPack` (countertask.go:38-39), `handle` (handlers.go:39-40) and a round of the TCP
manager (tcpmanager.go:21-22). -/
def guarded (send : Option (Val → Prog)) (body : Prog) : Prog := .defer (reportScouterPanic send) body

/-- The goroutine started by `GoWithTrace`, tracemain.go:292-298, given the body of `endAnyService` (tracemain.go:328-331,
347-356) and the function of the application. -/
def traceGoroutine (send : Option (Val → Prog)) (start : Event) (endService user : Prog) : Prog :=
  .act start (.defer (guarded send endService) (.call user fun _ => .done))

/-- A round of the real-time counter, countertask.go:22-28 after the sleep: a pack that could not be made is nil, and writing it
panics (udpsender.go:87-96). -/
def counterRound (send : Option (Val → Prog)) (gather sendPack : Prog) : Prog :=
  .call (guarded send gather) fun
    | true => .call sendPack fun _ => .done
    | false => .panic .nilPack

/-- A program of the application that calls the agent: what a Go function can do, and calls of functions of the tracing API,
made directly or deferred, each with the body that the API function has in this state of the agent.  Model only:
tracemain.go:29-605 seen from its callers. -/
inductive App where
  | done
  | act (n : Nat) (k : App)
  | panic (v : Val)
  | call (f : App) (k : Bool → App)
  | defer (f : App) (k : App)
  | recover (k : Option Val → App)
  | trace (body : Prog) (k : Bool → App)
  | deferTrace (body : Prog) (k : App)

/-- The application with the agent: the API functions are guarded (tracemain.go:29-584). -/
def App.traced (send : Option (Val → Prog)) : App → Prog
  | .done => .done
  | .act n k => .act (.app n) (k.traced send)
  | .panic v => .panic v
  | .call f k => .call (f.traced send) fun b => (k b).traced send
  | .defer f k => .defer (f.traced send) (k.traced send)
  | .recover k => .recover fun s => (k s).traced send
  | .trace body k => .call (guarded send body) fun b => (k b).traced send
  | .deferTrace body k => .defer (guarded send body) (k.traced send)

end Deferring
end Scouter
