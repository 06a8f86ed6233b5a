import Verif.Model.Trace
/-!
# What a look at an active service comes to while the configuration is being loaded

Modelled: scouterx/conf/configure.go, scouterx/strace/tctxmanager/tctxmanager.go, scouterx/strace/tracemain.go.

`addToConf` assigns the limits for stuck services and for the colours of active ones one after the other (configure.go:350-355), under a lock
(configure.go:211-213) that `GetActiveCount` does not take; it reads them one after the other for every service it looks at
(tctxmanager.go:88-98, tracemain.go:360).  Each read and each write is a step of its own, in any interleaving.  Simplified: steps are sequentially
consistent, and what a branch not taken would read is read as well and not looked at.
-/
namespace Scouter
namespace Looking

/-- The options a look depends on, configure.go:350-355. -/
inductive Opt where
  | base | remove | alert | yellow | red
deriving DecidableEq, Repr

/-- What they are; a switch is 1 or 0.  configure.go:350-355. -/
abbrev Mem := Opt → Int

/-- What one run of `addToConf` assigns.  configure.go:350-355. -/
structure Limits where
  base : Int
  remove : Bool
  alert : Bool
  yellow : Int
  red : Int
deriving DecidableEq, Repr

/-- `addToConf` as far as these options are concerned, configure.go:350-355. -/
def Limits.code (l : Limits) : List (Opt × Int) :=
  [(.base, l.base), (.remove, if l.remove then 1 else 0), (.alert, if l.alert then 1 else 0), (.yellow, l.yellow), (.red, l.red)]

/-- The reads of one look, in order: tctxmanager.go:88, 90, 95, then tracemain.go:360, then tctxmanager.go:98. -/
def reads : List Opt := [.yellow, .red, .base, .remove, .alert]

/-- A goroutine looking at a service: what it has read, what it is to read yet, and the values.  Model only: tctxmanager.go:81-104. -/
structure Looker where
  done : List Opt
  left : List Opt
  got : Mem

/-- What a look comes to: under which colour the service is counted (0, 1 or 2), whether it is ended by force, and the level of the alert sent
   about it.  tctxmanager.go:88-103, tracemain.go:358-372. -/
structure Verdict where
  colour : Nat
  ended : Bool
  level : Option Nat
deriving DecidableEq, Repr

/-- A turn of the loop for a service of the given age in milliseconds, with what was read: tctxmanager.go:88-103, tracemain.go:360.  The levels are
   `AlertError`, 2, and `AlertWarn`, 1. -/
def Looker.verdict (m : Looker) (elapsed : Int) : Verdict :=
  { colour := if elapsed ≤ m.got .yellow then 0 else if elapsed ≤ m.got .red then 1 else 2
    ended := if elapsed > m.got .base then m.got .remove ≠ 0 else false
    level := if elapsed > m.got .base then some (if m.got .alert ≠ 0 then 2 else 1) else none }

/-- The configuration, how many loads are complete, what is left of the one under way, the loads to come, and the looks being taken.
   Model only: configure.go:334-355. -/
structure State where
  mem : Mem
  complete : Nat := 0
  now : List (Opt × Int) := []
  next : List Limits := []
  lookers : List Looker := []

/-- A step of one of the goroutines: of the one loading the configuration, the beginning of a look, or a read of one begun.
   Model only: configure.go:334-355, tctxmanager.go:81-104. -/
inductive Event where
  | load
  | begin
  | read (i : Nat)
deriving DecidableEq, Repr

/-- A step.  configure.go:350-355 (`load`; loads run one after the other, configure.go:211-213), tctxmanager.go:88-98, tracemain.go:360 (`read`). -/
def State.step (s : State) : Event → State
  | .load =>
    match s.now with
    | [] =>
      match s.next with
      | [] => s
      | l :: ls => { s with now := l.code, next := ls }
    | (w, v) :: is => { s with mem := fun x => if x = w then v else s.mem x, now := is, complete := if is = [] then s.complete + 1 else s.complete }
  | .begin => { s with lookers := s.lookers ++ [⟨[], reads, fun _ => 0⟩] }
  | .read i =>
    match s.lookers[i]? with
    | none => s
    | some m =>
      match m.left with
      | [] => s
      | x :: xs => { s with lookers := s.lookers.set i ⟨m.done ++ [x], xs, fun y => if y = x then s.mem x else m.got y⟩ }

/-- A run.  Model only: configure.go:210-252, tctxmanager.go:74-106. -/
def State.run (s : State) (es : List Event) : State := es.foldl State.step s

end Looking
end Scouter
