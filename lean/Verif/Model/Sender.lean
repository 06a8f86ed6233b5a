import Verif.Model.Udp
/-!
# The send queue and the sending goroutine (scouterx/netio/udpsender/udpsender.go)

The channel is a bounded FIFO; channel operations and `len` are atomic.  Producers (`AddPack`, `AddBuffer`) and the one
goroutine running `run` are interleaved at channel operations.  The transport is represented by the log of calls made
to the UDP client (`Verif.Model.Udp` says what each call sends).  `running` is never set to false in the code.
-/
namespace Scouter
namespace Sender

/-- A call to the UDP client: `WriteBuffer(b)` or `WriteBufferList(bs)`.  udpclient.go:106-148. -/
inductive Call where
  | buffer (b : Bytes)
  | list (bs : List Bytes)
deriving DecidableEq, Repr

/-- Where the sending goroutine is: at the top of the loop of `run` (udpsender.go:107), about to receive in `case 1`
(:114), or in the loop of `send` (:130) with `left` iterations to go, the byte counter and the list built so far. -/
inductive Phase where
  | top
  | one
  | batch (left : Nat) (bytes : Int) (list : List Bytes)
deriving DecidableEq, Repr

/-- The shared state: `queue` and `cap` are the channel (channelfactory.go:14), `calls` the log of transport calls,
`accepted` the log of buffers put on the channel (ghost). -/
structure State where
  cap : Nat
  queue : List Bytes := []
  phase : Phase := .top
  calls : List Call := []
  accepted : List Bytes := []
deriving DecidableEq, Repr

/-- `AddBuffer`, udpsender.go:79-85, and the tail of `AddPack`, :71-76: a non-blocking send. -/
def add (s : State) (b : Bytes) : State :=
  if s.queue.length < s.cap then { s with queue := s.queue ++ [b], accepted := s.accepted ++ [b] } else s

/-- `sendList`, udpsender.go:144-152. -/
def sendList (list : List Bytes) : List Call :=
  match list with
  | [] => []
  | [b] => [.buffer b]
  | _ => [.list list]

/-- The end of `send`, udpsender.go:140, when the loop of :130 is over, otherwise the next loop round. -/
def batchNext (s : State) (left : Nat) (bytes : Int) (list : List Bytes) : State :=
  if left = 0 then { s with phase := .top, calls := s.calls ++ [.list list] }
  else { s with phase := .batch left bytes list }

/-- One step of the sending goroutine up to its next channel operation; `none` when it blocks on a receive from the
empty channel.  `maxBytes` is `ac.UDPMaxBytes` at that moment.  udpsender.go:105-120 and :127-142. -/
def senderStep (maxBytes : Int) (s : State) : Option State :=
  match s.phase with
  | .top =>
    match s.queue.length with
    | 0 => some s
    | 1 => some { s with phase := .one }
    | n => some { s with phase := .batch n 0 [] }
  | .one =>
    match s.queue with
    | [] => none
    | p :: q => some { s with queue := q, phase := .top, calls := s.calls ++ [.buffer p] }
  | .batch left bytes list =>
    match s.queue with
    | [] => none
    | buffer :: q =>
      let s := { s with queue := q }
      if bytes + (buffer.length : Int) ≥ maxBytes then
        let s := { s with calls := s.calls ++ sendList list }
        some (batchNext s (left - 1) (buffer.length : Int) [buffer])
      else
        some (batchNext s (left - 1) (bytes + (buffer.length : Int)) (list ++ [buffer]))

/-- One atomic step of the system: a producer adds a buffer, or the sending goroutine moves.
   udpsender.go:79-85, 105-142. -/
inductive Step : State → State → Prop
  | add (s : State) (b : Bytes) : Step s (add s b)
  | send (s s' : State) (maxBytes : Int) (h : senderStep maxBytes s = some s') : Step s s'

/-- The states reachable from the start, with any capacity (`conf.SendQueueSize`; a negative one panics in `make`).
   Model only: every interleaving of udpsender.go:79-142. -/
inductive Reachable : State → Prop
  | init (cap : Nat) : Reachable { cap := cap }
  | step (s s' : State) : Reachable s → Step s s' → Reachable s'

/-- The goroutine run alone for `n` steps.  Model only: udpsender.go:105-142 running alone. -/
def drain (maxBytes : Int) : Nat → State → Option State
  | 0, s => some s
  | n + 1, s => (senderStep maxBytes s).bind (drain maxBytes n)

end Sender
end Scouter
