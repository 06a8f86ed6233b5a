import Verif.Model.Hash
/-!
# Who the agent says it is and whom it calls, while the configuration is being loaded

Modelled: scouterx/conf/configure.go, task/agenttask, task/countertask, netio/dataproxy.go, netio/tcpclient, netio/udpsender.

`addToConf` assigns the object's name, hash and type and then the collector's address one after the other (configure.go:191-208, 334-346), under
a lock (configure.go:211-213) that the goroutines making packs and the ones calling the collector do not take.  A Go string is two machine words,
the place of its bytes and their number, so an assignment of a string is two writes and reading one is two reads.  Here each read and each write
of a word is a step of its own, in any interleaving; the order of the two words of a string, which is the compiler's choice, is free for each
read and each write.  Simplified: steps are sequentially consistent, what lies in memory behind the bytes of a string is any bytes that stay the
same, and reading them does not fault.
-/
namespace Scouter
namespace Identity

/-- A Go string: where its bytes begin, and how many they are.  configure.go:50-53. -/
structure Ref where
  ptr : Nat
  len : Nat
deriving DecidableEq, Repr

/-- What lies in memory from a place on.  Model only: the bytes of the strings of configure.go:50-53. -/
abbrev Heap := Nat → Nat → Byte

/-- The bytes a string stands for.  Model only: configure.go:50-53. -/
def Heap.text (h : Heap) (r : Ref) : Bytes := (List.range r.len).map (h r.ptr)

/-- The words of the configuration that tell who the agent is, configure.go:49-55; and where the collector is. -/
inductive Word where
  | simplePtr | simpleLen | namePtr | nameLen | hash | typePtr | typeLen | ipPtr | ipLen | udpPort | tcpPort
deriving DecidableEq, Repr

/-- What the words hold, configure.go:49-55. -/
abbrev Mem := Word → Nat

/-- Writing a word.  Model only: configure.go:200-204, 343-345. -/
def Mem.set (m : Mem) (w : Word) (v : Nat) : Mem := fun x => if x = w then v else m x

/-- What one run of `addToConf` assigns: strings (the name without the host's, the name, the type, the collector's address), for each of them
   whether its place is written before its length, and the collector's ports.  configure.go:199-204, 343-345. -/
structure Reload where
  simple : Ref
  name : Ref
  type : Ref
  ip : Ref
  udp : Nat
  tcp : Nat
  simpleFirst : Bool
  nameFirst : Bool
  typeFirst : Bool
  ipFirst : Bool
deriving DecidableEq, Repr

/-- A step of the goroutine that loads the configuration, configure.go:191-208, 343-345. -/
inductive Instr where
  | write (w : Word) (v : Nat)
  | rehash
deriving DecidableEq, Repr

/-- Assigning a string.  Model only: configure.go:200, 201, 204, 343. -/
def assign (p l : Word) (r : Ref) (placeFirst : Bool) : List Instr :=
  if placeFirst then [.write p r.ptr, .write l r.len] else [.write l r.len, .write p r.ptr]

/-- `addToConf` as far as these words are concerned: `resetObjNameAndType`, configure.go:200-204, then configure.go:343-345. -/
def Reload.code (r : Reload) : List Instr :=
  assign .simplePtr .simpleLen r.simple r.simpleFirst ++ assign .namePtr .nameLen r.name r.nameFirst ++ [.rehash] ++
    assign .typePtr .typeLen r.type r.typeFirst ++ assign .ipPtr .ipLen r.ip r.ipFirst ++ [.write .udpPort r.udp, .write .tcpPort r.tcp]

/-- One step of it; the hash is that of the name as it is then in the configuration, configure.go:200-204. -/
def Instr.run (h : Heap) (m : Mem) : Instr → Mem
  | .write w v => m.set w v
  | .rehash => m.set .hash (Scouter.hash (h.text ⟨m .namePtr, m .nameLen⟩)).toNat

/-- What is being sent: the counters (countertask.go:43, 79; collector.go:27, 45), the object itself (agenttask.go:22-38), an alert
   (dataproxy.go:156-170), a transaction log or a profile (dataproxy.go:209-212, 240), the headers of an outgoing request (tracemain.go:562).
   Or the collector is being called (tcpclient.go:40-49) or a new client for datagrams to it made (udpsender.go:52-59).
   Or a session looks whether it is to go on (tcpclient.go:83).
   For each string whether its place is read before its length. -/
inductive Kind where
  | counters (nameFirst : Bool)
  | object (nameFirst typeFirst : Bool)
  | alert (typeFirst : Bool)
  | log
  | dial (ipFirst : Bool)
  | udp (ipFirst : Bool)
  | watch (ipFirst : Bool)
deriving DecidableEq, Repr

/-- Reading a string.  Model only: countertask.go:43, agenttask.go:24, 30, dataproxy.go:161, tcpclient.go:41, udpsender.go:52. -/
def readText (p l : Word) (placeFirst : Bool) : List Word := if placeFirst then [p, l] else [l, p]

/-- The words read, in their order: countertask.go:43; agenttask.go:24, 30; dataproxy.go:161-162; dataproxy.go:210;
   tcpclient.go:41-45 (the two time-outs are left out); udpsender.go:52-53; tcpclient.go:83 (where what differs ends the reading; here all is read). -/
def Kind.words : Kind → List Word
  | .counters n => readText .namePtr .nameLen n
  | .object n t => readText .namePtr .nameLen n ++ readText .typePtr .typeLen t
  | .alert t => readText .typePtr .typeLen t ++ [.hash]
  | .log => [.hash]
  | .dial i => readText .ipPtr .ipLen i ++ [.tcpPort, .hash]
  | .udp i => readText .ipPtr .ipLen i ++ [.udpPort]
  | .watch i => .hash :: (readText .ipPtr .ipLen i ++ [.tcpPort])

/-- A goroutine making a pack: what it is to read yet, and what it has read.  Model only: agenttask.go:22-38. -/
structure Maker where
  kind : Kind
  left : List Word
  got : Mem

/-- What a pack tells of the agent, countertask.go:43; agenttask.go:28-30; dataproxy.go:161-162; dataproxy.go:210.  Or the host and the port
   called and the hash the session is registered with, tcpclient.go:48, 78; or the host and port the datagrams go to, udpsender.go:58;
   or what a session compares with what it began with, tcpclient.go:83. -/
inductive Said where
  | counters (name : Bytes)
  | object (name : Bytes) (hash : BitVec 32) (type : Bytes)
  | alert (type : Bytes) (hash : BitVec 32)
  | log (hash : BitVec 32)
  | dial (host : Bytes) (port : Nat) (hash : BitVec 32)
  | udp (host : Bytes) (port : Nat)
  | watch (hash : BitVec 32) (host : Bytes) (port : Nat)
deriving DecidableEq, Repr

/-- What `SendObjName` returns, dataproxy.go:78-89. -/
def sentName (name : Bytes) : BitVec 32 := if name = [] then 0 else Scouter.hash name

/-- What the pack tells when everything has been read, countertask.go:43; agenttask.go:24-30; dataproxy.go:161-162; dataproxy.go:210;
   tcpclient.go:48, 78, 83; udpsender.go:58. -/
def Maker.said (h : Heap) (k : Maker) : Said :=
  let name := h.text ⟨k.got .namePtr, k.got .nameLen⟩
  let type := h.text ⟨k.got .typePtr, k.got .typeLen⟩
  let hash := BitVec.ofNat 32 (k.got .hash)
  match k.kind with
  | .counters _ => .counters name
  | .object _ _ => .object name (sentName name) type
  | .alert _ => .alert type hash
  | .log => .log hash
  | .dial _ => .dial (h.text ⟨k.got .ipPtr, k.got .ipLen⟩) (k.got .tcpPort) hash
  | .udp _ => .udp (h.text ⟨k.got .ipPtr, k.got .ipLen⟩) (k.got .udpPort)
  | .watch _ => .watch hash (h.text ⟨k.got .ipPtr, k.got .ipLen⟩) (k.got .tcpPort)

/-- The configuration, how many loads are complete, what is left of the one under way, the loads to come, and the packs being made.
   Model only: configure.go:45-55. -/
structure State where
  mem : Mem
  complete : Nat := 0
  now : List Instr := []
  next : List Reload := []
  makers : List Maker := []

/-- A step of one of the goroutines: of the one loading the configuration, the beginning of a pack, or a read for a pack begun.
   Model only: configure.go:191-208, agenttask.go:22-38. -/
inductive Event where
  | load
  | begin (k : Kind)
  | read (i : Nat)
deriving DecidableEq, Repr

/-- A step.  configure.go:191-208, 343-345 (`load`; loads run one after the other, configure.go:211-213), countertask.go:43, agenttask.go:24-30,
   dataproxy.go:161-162, 210, tcpclient.go:41-45, udpsender.go:52-53 (`read`). -/
def State.step (h : Heap) (s : State) : Event → State
  | .load =>
    match s.now with
    | [] =>
      match s.next with
      | [] => s
      | r :: rs => { s with now := r.code, next := rs }
    | i :: is => { s with mem := i.run h s.mem, now := is, complete := if is = [] then s.complete + 1 else s.complete }
  | .begin k => { s with makers := s.makers ++ [⟨k, k.words, fun _ => 0⟩] }
  | .read i =>
    match s.makers[i]? with
    | none => s
    | some k =>
      match k.left with
      | [] => s
      | w :: ws => { s with makers := s.makers.set i { k with left := ws, got := k.got.set w (s.mem w) } }

/-- A run.  Model only: configure.go:210-252. -/
def State.run (h : Heap) (s : State) (es : List Event) : State := es.foldl (State.step h) s

end Identity
end Scouter
