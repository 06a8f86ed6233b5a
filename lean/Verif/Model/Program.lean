import Verif.Model.Handlers
import Verif.Model.Counter
import Verif.Model.Reload
/-!
# The program the agent is part of (scouterx/agent.go, task/agenttask, task/countertask, udpsender.go)

The agent lives in the application's process.  A panic that no deferred function recovers, in whatever goroutine, ends the program; here
that is `none`.  Modelled are the start of the agent (package initialisation and `Init`) and everything its goroutines and the
application's calls do afterwards, one step after the other.  Buffers written to the collector may be any.  The calls of handlers.go recover
(handlers.go:40, tcpmanager.go:22), and so does everything else of the connection to the collector.  Memory is taken to suffice.
-/
namespace Scouter
namespace Program
open Trace Handlers Counter Config

/-- The settings of the UDP sender, udpsender.go:35-37 and :51-54. -/
def target (c : Configure) : Reload.Target :=
  ⟨c.textAt "NetCollectorIP", c.intAt "NetCollectorUDPPort", c.intAt "UDPMaxBytes"⟩

/-- What there is while the program runs: the agent, the meters and the last sample (countertask.go:14-15), the UDP sender
(udpsender.go:16-31). -/
structure State where
  agent : Agent
  service : Meter ServiceBucket
  active : Meter ValueBucket
  prev : GoCounter := {}
  udp : Reload.State

/-- The current UDP client has a connection (`udpSender.udpClient.Conn` is not nil).  udpsender.go:90, udpclient.go:61. -/
def connected (u : Reload.State) : Bool :=
  match u.clients[u.current]? with
  | some c => c.dialled
  | none => false

/-- `SendObjPack`, agenttask.go:24-37, with the trace of `SendPackDirect`, udpsender.go:87-92: `Conn.RemoteAddr()` of a nil `*net.UDPConn` selects
the embedded field of a nil pointer and panics; nothing recovers. -/
def announce (p : State) : Option State :=
  if p.agent.conf.boolAt "TraceObjSend" ∧ connected p.udp = false then none
  else some { p with agent := p.agent.announce }

/-- What the agent finds at start: whether the log file can be opened (logger.go:17-20), the configuration file and the file system, whether the
collector's address can be dialled, the second (metering.go:8-10) and the clock, ids and draws.  agent.go:28-39. -/
structure Boot where
  logOpens : Bool
  text : Option (Int × Bytes)
  fs : Dump.FS
  dials : Bool
  second : Int
  oracle : Oracle

/-- Package initialisation and `Init`, agent.go:24-39: the log file (logger.go:12-20), the first refresh (configure.go:128-154), the trace
context that stands for none (tctxmanager.go:20, tracecontext.go:88-97, profilecollector.go:19-24: `make` panics on a negative length), the queue of the
UDP sender (channelfactory.go:12-15: `make` panics on a negative capacity), its first client, the first announcement. -/
def boot (m : Machine) (b : Boot) : Option State :=
  if b.logOpens = false then none
  else
    let a0 : Agent := Agent.start b.oracle fresh b.text b.fs 0
    match Config.refresh m.env m.host (m.file a0) (m.file a0) fresh with
    | none => none
    | some c =>
      if c.intAt "ProfileStepMaxKeepInMemoryCount" < 0 then none
      else if c.intAt "SendQueueSize" < 0 then none
      else announce {
        agent := Agent.start b.oracle c b.text b.fs (c.intAt "SendQueueSize").toNat
        service := ServiceMeter.new b.second, active := ValueMeter.new b.second
        udp := Reload.State.start (target c) b.dials }

/-- Something that happens: a call of the tracing API (in some second), a request of the collector, a change of the configuration file, the
refresh made every five seconds, the announcement made every two, a round of one of the two counter goroutines, and what the goroutines of the UDP
sender do: a step of the reloading one, a call of the UDP client, the next datagram of a call in flight.
tracemain.go:24-604, handlers.go:39-153, configure.go:161-166, agenttask.go:17-22, countertask.go:22-36, udpsender.go:48-152. -/
inductive Event where
  | call (now : Int) (c : Call)
  | request (cmd : Bytes) (pack : Pack)
  | edit (text : Option (Int × Bytes))
  | refresh
  | announce
  | realTime (s : Sample) (o : MapOrder (BitVec 64 × Nat)) (t : Seconds)
  | fiveMin (read average : Int)
  | reload (ok : Bool)
  | write (ids : Nat → BitVec 64) (a : Sender.Call)
  | datagram (i : Nat)

/-- The sender sees the settings in effect (it reads them where it needs them, udpsender.go:48-66). -/
def retarget (p : State) : State :=
  let t := target p.agent.conf
  { p with udp := p.udp.run [.ip t.ip, .port t.port, .max t.max] }

/-- The part the counter goroutines work on.  Model only: countertask.go:14-36. -/
def monitor (p : State) : Monitor := ⟨p.agent.world, p.service, p.active, p.prev⟩

/-- The state with that part replaced.  Model only: countertask.go:14-36. -/
def withMonitor (p : State) (k : Monitor) : State :=
  { p with agent := { p.agent with world := k.world }, service := k.service, active := k.active, prev := k.prev }

/-- An event of the UDP sender; it may end the program.  udpsender.go:48-152. -/
def udpEvent (p : State) (e : Reload.Event) : Option State :=
  let u := p.udp.fire e
  if u.crashed then none else some { p with udp := u }

/-- The program after an event; `none`: it has ended.  A nil pack of the real-time counter (its round panicked and was recovered) is
sent all the same, which ends the program (countertask.go:22-28 and :39, udpsender.go:93).  See `Event`: tracemain.go:24-604, handlers.go:39-153, configure.go:161-166. -/
def step (f : Floats) (m : Machine) (p : State) : Event → Option State
  | .call now c =>
    match c.code p.agent.world with
    | (.ok _, w) => some { p with agent := { p.agent with world := w }, service := meterAll now p.agent.world w p.service }
    | (.panic, _) => none
  | .request cmd pack => some (retarget { p with agent := (handle m p.agent cmd pack).1 })
  | .edit text => some { p with agent := { p.agent with text := text } }
  | .refresh =>
    match p.agent.refresh m with
    | none => none
    | some a => some (retarget { p with agent := a })
  | .announce => announce p
  | .realTime s o t =>
    match getAllCounterOnPack f p.agent.conf.objName s o t (monitor p) with
    | (none, _) => none
    | (some k, q) => some (withMonitor p (sent k q))
  | .fiveMin read average =>
    let r := getAll5MinCounterOnPack f p.agent.conf.objName read average (monitor p)
    some (withMonitor p (sent r.1 r.2))
  | .reload ok => udpEvent p (.reload ok)
  | .write ids a => udpEvent p (.call ids a)
  | .datagram i => udpEvent p (.write i)

/-- The program after a history; `none`: it has ended.  Model only: agent.go:28-39 running. -/
def life (f : Floats) (m : Machine) (p : State) : List Event → Option State
  | [] => some p
  | e :: es => (step f m p e).bind fun q => life f m q es

end Program
end Scouter
