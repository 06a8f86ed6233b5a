import Verif.Model.Sender
/-!
# Changing the collector while packs are being sent (udpsender.go:33-66, udpclient.go:22-60)

The reloading goroutine, the calls of the UDP client in flight and the changes of the configuration are interleaved at every read and
write of a shared variable and at every datagram.  Whether an address can be resolved and dialled (`net.ResolveUDPAddr`, `net.DialUDP`) is up to
the network, which may change at any time.  A write to a closed connection fails; the code ignores the error.
-/
namespace Scouter
namespace Reload

/-- The settings the goroutine looks at: address, port, maximum.  configure.go:50-56; udpsender.go:19-21. -/
structure Target where
  ip : Bytes
  port : Int
  max : Int
deriving DecidableEq, Repr

/-- A UDP client: whom it was made for, whether it got a connection, whether that is still open.  udpclient.go:15-20. -/
structure Client where
  target : Target
  dialled : Bool
  isOpen : Bool
deriving DecidableEq, Repr

/-- Where the reloading goroutine is: asleep; about to compare one of the three settings (`||` compares from left to right and stops);
about to copy one of them; about to make the new client, to publish it, to close the old one.  udpsender.go:48-66. -/
inductive Pc where
  | asleep
  | cmpIp | cmpPort | cmpMax
  | setIp | setPort | setMax
  | make
  | publish (c : Nat)
  | close (prev : Nat)
deriving DecidableEq, Repr

/-- A call of the UDP client in flight: the client it uses, the datagrams still to be written and (ghosts) those handed to an open
connection and those lost on a closed one.  udpclient.go:61-148. -/
structure Flight where
  client : Nat
  all : List Bytes
  todo : List Bytes
  delivered : List Bytes := []
  lost : List Bytes := []
deriving DecidableEq, Repr

/-- All there is: the configuration, what the goroutine copied of it (`serverAddr`, `udpServerPort`, `udpMaxBytes`), the clients ever made,
the current one, the calls.  `ips`, `ports`, `maxs` (ghosts): the values the configuration has had.  udpsender.go:16-31. -/
structure State where
  conf : Target
  known : Target
  clients : List Client
  current : Nat
  pc : Pc := .asleep
  flights : List Flight := []
  crashed : Bool := false
  ips : List Bytes
  ports : List Int
  maxs : List Int

/-- `New` and `SetUDPMaxBytes`, udpclient.go:23-32 and :35-54, for an address that can be dialled or not. -/
def newClient (t : Target) (ok : Bool) : Client := ⟨t, ok, ok⟩

/-- `GetInstance`, udpsender.go:33-46. -/
def State.start (conf : Target) (ok : Bool) : State :=
  { conf := conf, known := conf, clients := [newClient conf ok], current := 0, ips := [conf.ip], ports := [conf.port], maxs := [conf.max] }

/-- One step of the reloading goroutine; `ok`: whether a dial would succeed now.  udpsender.go:48-66. -/
def reload (ok : Bool) (s : State) : State :=
  match s.pc with
  | .asleep => { s with pc := .cmpIp }
  | .cmpIp => { s with pc := if s.known.ip ≠ s.conf.ip then .setIp else .cmpPort }
  | .cmpPort => { s with pc := if s.known.port ≠ s.conf.port then .setIp else .cmpMax }
  | .cmpMax => { s with pc := if s.known.max ≠ s.conf.max then .setIp else .asleep }
  | .setIp => { s with known := { s.known with ip := s.conf.ip }, pc := .setPort }
  | .setPort => { s with known := { s.known with port := s.conf.port }, pc := .setMax }
  | .setMax => { s with known := { s.known with max := s.conf.max }, pc := .make }
  | .make => { s with clients := s.clients ++ [newClient s.known ok], pc := .publish s.clients.length }
  | .publish c => { s with current := c, pc := .close s.current }
  | .close prev => { s with clients := s.clients.modify prev fun c => { c with isOpen := false }, pc := .asleep }

/-- A call of the client: which one is decided when the call is made (udpsender.go:96, :115, :140, :148, :150); what it will write is
decided by the client's maximum, which never changes.  A panic (a maximum of 0) ends the program.  udpclient.go:61-148. -/
def call (ids : Nat → BitVec 64) (a : Sender.Call) (s : State) : State :=
  match s.clients[s.current]? with
  | none => s
  | some c =>
    let r := match a with
      | .buffer b => Udp.writeBuffer c.dialled (ids 0) c.target.max b
      | .list bs => Udp.writeBufferList c.dialled ids c.target.max bs
    match r with
    | .ok (_, ds) => { s with flights := s.flights ++ [{ client := s.current, all := ds, todo := ds }] }
    | _ => { s with crashed := true }

/-- The next `Conn.Write` of a call in flight.  udpclient.go:91, :102, :117. -/
def write (i : Nat) (s : State) : State :=
  match s.flights[i]? with
  | none => s
  | some f =>
    match f.todo with
    | [] => s
    | d :: todo =>
      match s.clients[f.client]? with
      | none => s
      | some c =>
        let f := if c.isOpen then { f with todo := todo, delivered := f.delivered ++ [d] } else { f with todo := todo, lost := f.lost ++ [d] }
        { s with flights := s.flights.set i f }

/-- What happens next: a setting is assigned by a refresh of the configuration (configure.go:343-348), the reloading goroutine goes on, a call is
made, a call in flight writes its next datagram.  Model only: the scheduler. udpsender.go:33-152. -/
inductive Event where
  | ip (v : Bytes)
  | port (v : Int)
  | max (v : Int)
  | reload (ok : Bool)
  | call (ids : Nat → BitVec 64) (a : Sender.Call)
  | write (i : Nat)

/-- One event; nothing happens after the program has ended.  Model only: the scheduler. udpsender.go:33-152. -/
def State.fire (s : State) (e : Event) : State :=
  if s.crashed then s else
  match e with
  | .ip v => { s with conf := { s.conf with ip := v }, ips := s.ips ++ [v] }
  | .port v => { s with conf := { s.conf with port := v }, ports := s.ports ++ [v] }
  | .max v => { s with conf := { s.conf with max := v }, maxs := s.maxs ++ [v] }
  | .reload ok => Reload.reload ok s
  | .call ids a => Reload.call ids a s
  | .write i => Reload.write i s

/-- A schedule.  Model only: the scheduler. udpsender.go:33-152. -/
def State.run (s : State) (es : List Event) : State := es.foldl State.fire s

end Reload
end Scouter
