import Verif.Model.Tcp
/-!
# One connection to the collector, with settings that change and writes that fail (scouterx/netio/tcpclient/tcpclient.go)

Model/Tcp has connections on which writes succeed, and leaves open which settings end the loop.  Here a connection accepts some number of
bytes and then fails, and the settings may be changed by other goroutines while the agent dials, at the head of the loop and while it waits
for a request.  The handlers are again a parameter.
-/
namespace Scouter
namespace Session
open Tcp

/-- The settings a connection depends on, configure.go:35-46: `net_collector_ip`, `net_collector_tcp_port` and the hash of the object's name. -/
structure Target where
  ip : Bytes
  port : Int
  objHash : BitVec 32
deriving DecidableEq, Repr

/-- The bytes a connection still accepts; `none`: it does not fail.  Library net; tcpclient.go:72-117. -/
abbrev Room := Option Nat

/-- One `Write` of the connection: what is left, what is accepted, and whether it succeeded.  Library net; dataoutputx.go:216-220. -/
def write (room : Room) (bs : Bytes) : Room × Bytes × Bool :=
  match room with
  | none => (none, bs, true)
  | some n => if bs.length ≤ n then (some (n - bs.length), bs, true) else (some 0, bs.take n, false)

/-- What other goroutines do to the state while the agent dials, before the `n`-th test of the settings, and while it waits for the
`n`-th request.  Model only: configure.go:162-167 running beside tcpclient.go:41-120. -/
structure Others (W : Type) where
  dialing : W → W
  before : Nat → W → W
  waiting : Nat → W → W

/-- What came of a connection: the bytes it accepted, the answers of the handlers, the state, how it ended, and the settings found by
the tests of the loop (a ghost).  Model only: tcpclient.go:67-120. -/
structure Result (W : Type) where
  sent : Bytes
  answers : List Answer
  world : W
  last : End
  seen : List Target

/-- The loop of `Process`, tcpclient.go:83-119, for at most `n` requests, `i` having been answered; `same` is its condition. -/
def loop {W : Type} (h : Handler W) (look : W → Target) (same : Target → Bool) (o : Others W) : Nat → Nat → W → Conn → Room → Result W
  | 0, _, w, _, _ => ⟨[], [], w, .going, []⟩
  | n + 1, i, w, c, room =>
    let w := o.before i w
    let now := look w
    if same now then
      let w := o.waiting i w
      match round h w c with
      | .inr e => ⟨[], [], w, e, [now]⟩
      | .inl (w, c, a) =>
        match write room (reply a) with
        | (room, bs, true) =>
          let r := loop h look same o n (i + 1) w c room
          ⟨bs ++ r.sent, a :: r.answers, r.world, r.last, now :: r.seen⟩
        | (_, bs, false) => ⟨bs, [a], w, .error, [now]⟩
    else ⟨[], [], w, .changed, [now]⟩

/-- The condition of the loop, tcpclient.go:83. -/
def same (objHash : BitVec 32) (server now : Target) : Bool :=
  decide (objHash = now.objHash) && decide (server.ip = now.ip) && decide (server.port = now.port)

/-- `Process`, tcpclient.go:67-120, with the object hash stored by `Prepare`.  The error of the first of the two writes is lost. -/
def process {W : Type} (h : Handler W) (look : W → Target) (o : Others W) (objHash : BitVec 32) (n : Nat) (w : W) (c : Conn) (room : Room) : Result W :=
  let server := look w
  match write room (Out.new.writeInt32 agentV2).bytes with
  | (room, b1, _) =>
    match write room (Out.new.writeInt32 objHash).bytes with
    | (room, b2, true) =>
      let r := loop h look (same objHash server) o n 0 w c room
      { r with sent := b1 ++ b2 ++ r.sent }
    | (_, b2, false) => ⟨b1 ++ b2, [], w, .error, []⟩

/-- `Prepare` and `Process`, tcpclient.go:41-120, when the collector accepts the connection: the collector dialled, and what came of it. -/
def attempt {W : Type} (h : Handler W) (look : W → Target) (o : Others W) (n : Nat) (w : W) (c : Conn) (room : Room) : Target × Result W :=
  (look w, process h look o (look w).objHash n (o.dialing w) c room)

end Session
end Scouter
