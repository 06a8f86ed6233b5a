import Verif.Model.Calls
/-!
# The active services are counted while the application goes on

`Model/Calls` runs `GetActiveCount` as one step.  The counter goroutine that runs it is one of many: here it lists the registry (`GetValues` gives
the lock back around every entry: `Model/Iterating`, `C89`; here it takes any entry that is there at the moment), reads the clock, and looks at one
service after the other; calls of the application come in between.  Taking one entry, one look, and one call, is one step each.
-/
namespace Scouter
namespace Sweeping
open TM Trace

/-- One turn of the loop of `GetActiveCount`, tctxmanager.go:86-103; `active` is the array it fills. -/
def look (now : Int) (p : Nat) (active : Nat × Nat × Nat) : TM (Nat × Nat × Nat) := do
  let t ← getT p
  let w ← get
  let elapsed := activeElapsed now t.startTime
  let active :=
    if elapsed ≤ w.conf.yellow then (active.1 + 1, active.2.1, active.2.2)
    else if elapsed ≤ w.conf.red then (active.1, active.2.1 + 1, active.2.2)
    else (active.1, active.2.1, active.2.2 + 1)
  if elapsed > w.conf.stuckBase then do
    endStuck p
    let t ← getT p
    let w ← get
    sendAlert (if w.conf.stuckAlert then 2 else 1) (ascii "STUCK_SERVICE") (stuckMessage t elapsed)
  else pure ()
  return active

/-- The counter goroutine inside `GetActiveCount`, tctxmanager.go:75-80: the values not yet looked at, the clock reading once it is made, the loop's
counter, and what is counted so far. -/
structure State where
  world : World
  todo : List Nat := []
  now : Option Int := none
  count : Nat := 0
  active : Nat × Nat × Nat := (0, 0, 0)

/-- What happens next: a call of the application, the beginning of a count, the taking of a value for its list, or the next thing the counter
goroutine does.
   Model only: the Go scheduler between the steps of tctxmanager.go:74-106 and lra.go:121-136. -/
inductive Event where
  | call (c : Call)
  | begin
  | take (p : Nat)
  | next

/-- One event.  Values are taken before the clock is read, and only those in the registry (an over-approximation of `GetValues`, which also takes
each entry once, `C89`).  The loop stops after 2000 values (tctxmanager.go:82-85).  A panic would leave the function (there is none: `C59`).
tctxmanager.go:74-106. -/
def State.step (s : State) : Event → State
  | .call c => { s with world := perform s.world c }
  | .begin => { s with todo := [], now := none, count := 0, active := (0, 0, 0) }
  | .take p =>
    if s.now = none ∧ s.world.registry.lst.any (fun e => e.value == some p) then { s with todo := s.todo ++ [p] } else s
  | .next =>
    match s.now, s.todo with
    | none, _ => { s with now := some (s.world.env.clock s.world.tick), world := { s.world with tick := s.world.tick + 1 } }
    | some _, [] => s
    | some n, p :: ps =>
      if s.count + 1 > 2000 then { s with todo := [] }
      else
        match look n p s.active s.world with
        | (.ok a, w) => { s with world := w, todo := ps, count := s.count + 1, active := a }
        | (.panic, w) => { s with world := w, todo := [] }

/-- Events one after the other.
   Model only: the Go scheduler between the steps of tctxmanager.go:74-106. -/
def State.run (s : State) (es : List Event) : State := es.foldl State.step s

end Sweeping
end Scouter
