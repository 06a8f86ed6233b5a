import Verif.Model.Dataproxy
/-!
# Several goroutines announcing texts (scouterx/netio/dataproxy.go:52-207)

Each `Send*` function is a `Contains`, an `AddKey` and an `AddPack`; each of the three is atomic (the caches have a lock, the queue is a
channel), and other goroutines may run between them.  `ResetTextSent` clears the caches one after the other.
-/
namespace Scouter
namespace Announcers

/-- Where a goroutine is: between calls, after `Contains` answered false, after `AddKey`.
   dataproxy.go:57-63 (and the same lines of the other ten functions). -/
inductive Pc where
  | idle
  | missing (k : TextKind) (name : Bytes)
  | marked (k : TextKind) (name : Bytes)
deriving DecidableEq, Repr

/-- A goroutine: where it is, the texts it will send, and (ghost) the calls that have returned, with what they returned.
   Model only: goroutines inside dataproxy.go:52-207. -/
structure Gor where
  pc : Pc := .idle
  todo : List (TextKind × Bytes) := []
  returned : List (TextKind × Bytes × BitVec 32) := []
deriving Repr

/-- All there is.  Model only: the package state of dataproxy.go:14-26 and the goroutines using it. -/
structure State where
  proxy : Proxy
  gors : List Gor

/-- `AddKey` of a text's hash, dataproxy.go:61; lra.go:34-36. -/
def markSent (p : Proxy) (k : TextKind) (h : BitVec 32) : Proxy :=
  { p with sent := fun k' => if k' = k then (p.sent k).add h (some ()) else p.sent k' }

/-- One step of a goroutine: test, mark, announce.  dataproxy.go:52-207. -/
def Gor.step (p : Proxy) (g : Gor) : Proxy × Gor :=
  match g.pc with
  | .idle =>
    match g.todo with
    | [] => (p, g)
    | (k, name) :: todo =>
      if name = [] then (p, { g with todo := todo, returned := g.returned ++ [(k, name, 0)] })
      else if (p.sent k).contains (hash name) then (p, { g with todo := todo, returned := g.returned ++ [(k, name, hash name)] })
      else (p, { g with pc := .missing k name, todo := todo })
  | .missing k name => (markSent p k (hash name), { g with pc := .marked k name })
  | .marked k name =>
    (p.addPack ⟨k.textType, hash name, name⟩, { g with pc := .idle, returned := g.returned ++ [(k, name, hash name)] })

/-- What happens next: goroutine `i` makes a step, the cache of one kind is cleared (part of `ResetTextSent`), or something happens to
the send queue.  Model only: the scheduler between the steps of dataproxy.go:28-207. -/
inductive Event where
  | go (i : Nat)
  | clear (k : TextKind) (o : MapOrder (BitVec 32 × Nat))
  | queue (s : Sender.State)

/-- One event.  dataproxy.go:28-207. -/
def State.fire (s : State) : Event → State
  | .go i =>
    match s.gors[i]? with
    | none => s
    | some g => ⟨(g.step s.proxy).1, s.gors.set i (g.step s.proxy).2⟩
  | .clear k o => { s with proxy := { s.proxy with sent := fun k' => if k' = k then (s.proxy.sent k).clear o else s.proxy.sent k' } }
  | .queue q => { s with proxy := { s.proxy with sender := q } }

/-- A schedule.  Model only: the scheduler between the steps of dataproxy.go:28-207. -/
def State.run (s : State) (es : List Event) : State := es.foldl State.fire s

/-- The agent at start, and goroutines with the texts they will send.  dataproxy.go:14-26. -/
def State.start (cap : Nat) (todos : List (List (TextKind × Bytes))) : State :=
  ⟨Proxy.init cap, todos.map fun t => { todo := t }⟩

end Announcers
end Scouter
