/-!
# All locks of the agent

Every call of the agent that takes a lock is the list of its lock actions; everything else it does is local and left out.  `sync.Mutex` and
`sync.RWMutex` are modelled from their documentation: a read lock is not granted while a writer holds the lock or waits for it; a writer first
announces itself (one at a time) and then waits until no reader has the lock.  `sync.Once` is left out: after the initialisation of the packages
it takes no lock.
-/
namespace Scouter
namespace LockOrder

/-- The locks: `Configure`'s mutex (configure.go:41), `descSync` (configure.go:19), `observerLock` (opserver.go:5), the package locks of lra
(lra.go:8), cachemap (cachemap.go:9), cachemap2 (cachemap2.go:10) and cacheset (cacheset.go:9), the key generator's (keygen.go:16), `statsMux`
(gocounter.go:9), and for each metering object its own (serviceMetering.go:13, valueMetering.go:8) and that of its ring (metering.go:13). -/
inductive Lock where
  | conf | desc | observers | lra | cachemap | cachemap2 | cacheset | keygen | stats
  | meter (i : Nat)
  | ring (i : Nat)
deriving DecidableEq, Repr

/-- How a goroutine has a lock: for reading, announced as the next writer, for writing.  Library sync. -/
inductive Mode where
  | read | announced | write
deriving DecidableEq, Repr

/-- `RLock`, `RUnlock`, the two halves of `Lock`, `Unlock`.  Library sync; lra.go:39-134. -/
inductive Act where
  | rlock (l : Lock) | runlock (l : Lock) | announce (l : Lock) | acquire (l : Lock) | unlock (l : Lock)
deriving DecidableEq, Repr

/-- A goroutine: what it holds and what it has still to do.  Model only: goroutines of the agent, e.g. configure.go:210-260. -/
structure Gor where
  held : List (Lock × Mode) := []
  code : List Act
deriving DecidableEq, Repr

/-- Whether some goroutine has the lock in this mode.  Library sync. -/
def has (gors : List Gor) (l : Lock) (m : Mode) : Bool := gors.any fun g => (l, m) ∈ g.held

/-- The next action of a goroutine, if it can be taken now.  Library sync; lra.go:8, configure.go:41. -/
def Gor.step (gors : List Gor) (g : Gor) : Option Gor :=
  match g.code with
  | [] => none
  | .rlock l :: rest =>
    if has gors l .announced ∨ has gors l .write then none else some ⟨(l, .read) :: g.held, rest⟩
  | .announce l :: rest =>
    if has gors l .announced ∨ has gors l .write then none else some ⟨(l, .announced) :: g.held, rest⟩
  | .acquire l :: rest =>
    if (l, .announced) ∈ g.held ∧ has gors l .read = false then some ⟨(l, .write) :: g.held.erase (l, .announced), rest⟩ else none
  | .runlock l :: rest => if (l, .read) ∈ g.held then some ⟨g.held.erase (l, .read), rest⟩ else none
  | .unlock l :: rest => if (l, .write) ∈ g.held then some ⟨g.held.erase (l, .write), rest⟩ else none

/-- One step of the `i`-th goroutine.  Model only: the Go scheduler running e.g. configure.go:160-166. -/
def step (gors : List Gor) (i : Nat) : Option (List Gor) :=
  (gors[i]?).bind fun g => (g.step gors).map fun g' => gors.set i g'

/-- A schedule (which goroutine moves next); `none` if some chosen goroutine could not move.  Model only: the Go scheduler running e.g. configure.go:160-166. -/
def exec (gors : List Gor) : List Nat → Option (List Gor)
  | [] => some gors
  | i :: is => (step gors i).bind fun gs => exec gs is

/-- A section under the write lock: `Lock` … `Unlock`.  Library sync; e.g. configure.go:211-212. -/
def locked (l : Lock) (inner : List Act) : List Act := [.announce l, .acquire l] ++ inner ++ [.unlock l]

/-- A section under the read lock: `RLock` … `RUnlock`.  Library sync; e.g. opserver.go:25-26. -/
def reading (l : Lock) (inner : List Act) : List Act := [.rlock l] ++ inner ++ [.runlock l]

/-- The same section `n` times.  Model only: loops, e.g. lra.go:125-134. -/
def times (n : Nat) (acts : List Act) : List Act := (List.replicate n acts).flatten

/-- The calls of the agent that take locks.  configure.go:210-333; opserver.go:13-40; lra.go:34-136. -/
inductive Call where
  /-- `Refresh`, configure.go:210-260, whether the object's name changed, the actions of the observer of the name and of the others (in the
  order of the map) -/
  | refresh (renamed : Bool) (objObserver : List Act) (observers : List (List Act))
  /-- `Refresh` of a file that did not change, configure.go:210-226 -/
  | refreshNothing
  /-- `GetConfigureDescMap`, configure.go:262-272 -/
  | describe
  /-- `AddToConfObserver`, opserver.go:13-18 -/
  | observe
  /-- `Add`, `Remove`, `Clear` of a cache, lra.go:38-50, 78-84, 108-119 -/
  | lraWrite
  /-- `Get`, `Contains`, `Size`, lra.go:53-69, 102-106 -/
  | lraRead
  /-- `GetValues` of a cache with `n` entries, lra.go:121-136 -/
  | lraValues (n : Nat)
  /-- `SendServiceName` and the other functions that send a text, known or new, dataproxy.go:55-200 -/
  | sendText (known : Bool)
  /-- `Add`, `Remove`, `Empty`, `Clear` of a `cachemap`, cachemap.go:38-50, 90-104 -/
  | mapWrite
  /-- `Contains`, `Get` of a `cachemap`, cachemap.go:70-88 -/
  | mapRead
  /-- `GetValues` of a `cachemap`, cachemap.go:16-28 -/
  | mapValues (n : Nat)
  /-- `Add`, `Remove`, `Empty`, `Clear` of a `cachemap2`, cachemap2.go:57-70, 105-121 -/
  | map2Write
  /-- `Contains`, `Get` of a `cachemap2`, cachemap2.go:90-103 -/
  | map2Read
  /-- `GetValues` of a `cachemap2`, cachemap2.go:20-32 -/
  | map2Values (n : Nat)
  /-- `Add`, `Empty`, `Clear` of a `cacheset`, cacheset.go:26-33, 58-73 -/
  | setWrite
  /-- `Contains` of a `cacheset`, cacheset.go:52-56 -/
  | setRead
  /-- `Next`, keygen.go:32-37 -/
  | nextKey
  /-- `GetGoCounter`, gocounter.go:26-53 -/
  | goCounter
  /-- `Add` of a metering object, serviceMetering.go:49-58, valueMetering.go:37-43 (with `getPosition`, metering.go:47-64) -/
  | meterAdd (i : Nat)
  /-- `GetAllCounter` of a metering object, serviceMetering.go:60-87, valueMetering.go:45-65 (only the ring's lock, metering.go:47-64) -/
  | meterGet (i : Nat)

/-- The lock actions of sending a text: `Contains` and, if it is new, `AddKey`.  dataproxy.go:45-56; lra.go:34-50, 62-69. -/
def sendActs (known : Bool) : List Act := reading .lra [] ++ (if known then [] else locked .lra [])

/-- The lock actions of the observer of the object's name: `SendObjName`.  agent.go:17-20; dataproxy.go:70-81. -/
def objObserverActs (known : Bool) : List Act := sendActs known

/-- The lock actions of the sampler's observer: none.  xlogsampler.go:48-71. -/
def samplerActs : List Act := []

/-- The lock actions of each call.  A setting is read under `descSync` (configure.go:274-333): two of them before the observer of the name is
run (configure.go:192-208), 61 after (configure.go:335-412).  `GetValues` gives the lock back around each entry.
   configure.go:210-260; opserver.go:13-40; lra.go:34-136; cachemap.go:16-104; cachemap2.go:20-121; cacheset.go:26-73; keygen.go:32-37;
   gocounter.go:26-53; metering.go:47-64. -/
def Call.acts : Call → List Act
  | .refresh renamed objObserver observers => locked .conf
      (times 2 (locked .desc []) ++ (if renamed then reading .observers objObserver else []) ++ times 61 (locked .desc []) ++
        reading .observers observers.flatten)
  | .refreshNothing => locked .conf []
  | .describe => reading .desc []
  | .observe => locked .observers []
  | .lraWrite => locked .lra []
  | .lraRead => reading .lra []
  | .lraValues n => [.rlock .lra] ++ times n [.runlock .lra, .rlock .lra] ++ [.runlock .lra]
  | .sendText known => sendActs known
  | .mapWrite => locked .cachemap []
  | .mapRead => reading .cachemap []
  | .mapValues n => [.rlock .cachemap] ++ times n [.runlock .cachemap, .rlock .cachemap] ++ [.runlock .cachemap]
  | .map2Write => locked .cachemap2 []
  | .map2Read => reading .cachemap2 []
  | .map2Values n => [.rlock .cachemap2] ++ times n [.runlock .cachemap2, .rlock .cachemap2] ++ [.runlock .cachemap2]
  | .setWrite => locked .cacheset []
  | .setRead => reading .cacheset []
  | .nextKey => locked .keygen []
  | .goCounter => locked .stats []
  | .meterAdd i => locked (.meter i) (locked (.ring i) [])
  | .meterGet i => locked (.ring i) []

/-- Before anything ran: each goroutine with its calls.  Model only: goroutines of the agent, e.g. configure.go:160-166. -/
def start (calls : List (List Call)) : List Gor := calls.map fun cs => { code := (cs.map Call.acts).flatten }

end LockOrder
end Scouter
