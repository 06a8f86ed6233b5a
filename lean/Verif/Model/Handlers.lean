import Verif.Model.Tcp
import Verif.Model.Dump
import Verif.Model.Calls
import Verif.Model.Conf
/-!
# The request handlers (scouterx/netio/tcpclient/handlers.go, scouterx/conf/exthandler.go)

The state the handlers work on is the state of the tracing packages, the configuration with its file, and the file system.
What the machine does at the `n`-th request is an oracle.  A write of the configuration file that fails changes nothing (Model/Failing.lean has writes that fail midway).  The
profiles taken by a goroutine after 30 seconds are not part of this model (C65 is about their writing).  The trace lines
written when `_trace` is set are left out.
-/
namespace Scouter
namespace Handlers
open Trace TM Config Tcp Dump

/-- What the machine does: the environment, the host's name, how `properties.LoadFile` understands a text (`none`: it fails),
whether the configuration file can be read and written and which modification time a write gives it, map orders, the dump
directories, file times and stacks, and the texts that describe settings and errors.
   Oracles of configure.go:156-260, handlers.go:39-364. -/
structure Machine where
  env : List Bytes
  host : Option Bytes
  parse : Bytes → Option Props
  readable : Nat → Bool
  writable : Nat → Bool
  mtime : Nat → Int
  order : Nat → MapOrder (BitVec 64 × Nat)
  textOrder : Nat → MapOrder (BitVec 32 × Nat)
  dumpDir : Path
  binaryDir : Path
  sizes : Nat → Nat → Nat
  stampText : Nat → Bytes
  stacks : Nat → Bytes
  fileMillis : Nat → Path → BitVec 64
  removeError : Nat → Bytes
  descText : Bytes → Bytes

/-- The state. `text` is the configuration file: modification time and text; `none`: it is not there.
   Package variables read and written by handlers.go:39-364, configure.go:210-260. -/
structure Agent where
  world : World
  conf : Configure
  text : Option (Int × Bytes)
  fs : FS
  requests : Nat := 0

/-- The configuration file as `Refresh` meets it.  configure.go:210-245. -/
def Machine.file (m : Machine) (a : Agent) : File :=
  match a.text with
  | none => .absent
  | some (t, text) =>
    if m.readable a.requests then
      match m.parse text with
      | none => .bad t
      | some p => .good t p
    else .bad t

/-- `NewList` and later additions to it (mappack.go:24-28, listvalue.go:37-71): the list in the table. -/
def column (t : Table) (key : String) (vs : List Value) : Table := MapPack.put t (ascii key) (.value (.list vs))

/-! ## Running services -/

/-- What `GetActiveList` shows of a service: the trace context and its running time.  handlers.go:245-282. -/
abbrev Shown := Tctx × BitVec 32

/-- The loop of `GetActiveList`, handlers.go:261-278; the registry holds no nil. -/
def activeRows : List Nat → TM (List Shown)
  | [] => pure []
  | p :: ps => do
    let t ← getT p
    let e ← millisToNow t.startTime
    let rs ← activeRows ps
    return (t, e) :: rs

/-- The columns of handlers.go:248-257 filled with the rows. -/
def activeTable (rs : List Shown) : Table :=
  let t := column [] "id" (rs.map fun r => .dec (BitVec.ofInt 64 r.1.goid))
  let t := column t "elapsed" (rs.map fun r => .dec (r.2.signExtend 64))
  let t := column t "service" (rs.map fun r => .text r.1.serviceName)
  let t := column t "name" (rs.map fun r => .text (ascii "[goroutine] " ++ formatInt 10 r.1.goid))
  let t := column t "txid" (rs.map fun r => .text (intToXlogString32 r.1.txid))
  let t := column t "ip" (rs.map fun r => .text r.1.remoteIp)
  let t := column t "stat" (rs.map fun _ => .text (ascii "n/a"))
  let t := column t "cpu" (rs.map fun _ => .dec (-1))
  let t := column t "sql" (rs.map fun _ => .text (ascii "n/a"))
  let t := column t "subcall" (rs.map fun _ => .text (ascii "n/a"))
  MapPack.put t (ascii "complete") (.value (.bool true))

/-- `GetActiveList`, handlers.go:245-282. -/
def getActiveList (o : MapOrder (BitVec 64 × Nat)) : TM Table := do
  let w ← get
  let rs ← activeRows (w.registry.getValues o)
  return activeTable rs

/-- `GetGoroutineDetail`, handlers.go:216-243. -/
def getGoroutineDetail (param : Pack) : TM Table := do
  let t := MapPack.put [] (ascii "Thread Name") (.string (ascii "[No Goroutine] End"))
  let t := MapPack.put t (ascii "State") (.string (ascii "end"))
  match param with
  | .map p => do
    let txid := p.table.getInt64 (ascii "txid")
    let w ← get
    match w.registry.get txid with
    | none =>
      return MapPack.put t (ascii "Stack Trace")
        (.string (ascii "[info] no traceContext. txid:" ++ intToXlogString32 txid))
    | some ptr => do
      let c ← getT ptr
      let t := MapPack.put t (ascii "Service Txid") (.string (intToXlogString32 c.txid))
      let t := MapPack.put t (ascii "Service Name") (.string c.serviceName)
      let e ← millisToNow c.startTime
      let t := MapPack.put t (ascii "Service Elapsed") (.int32 e)
      let t := MapPack.put t (ascii "Thread Id") (.int (-1))
      let t := MapPack.put t (ascii "State") (.string (ascii "n/a"))
      let t := MapPack.put t (ascii "Thread Name") (.string (ascii "[goroutine] " ++ formatInt 10 c.goid))
      let t := MapPack.put t (ascii "Stack Trace") (.string (ascii "stacktrace for goroutine is not yet supported"))
      return MapPack.put t (ascii "Last trace method") (.string c.lastMethod)
  | _ => return MapPack.put t (ascii "Stack Trace") (.string (ascii "[info] scouter request param error."))

/-! ## Configuration -/

/-- `LoadConfigText`, exthandler.go:7-15. -/
def loadConfigText (m : Machine) (a : Agent) : Bytes :=
  match a.text with
  | some (_, text) => if m.readable a.requests then text else []
  | none => []

/-- `loadConfig`, handlers.go:284-299. -/
def loadConfig (m : Machine) (a : Agent) : Table :=
  let t := MapPack.put [] (ascii "agentConfig") (.string (loadConfigText m a))
  column t "configKey" (a.conf.descs.map fun d => .text d.1)

/-- `SaveConfigText`, exthandler.go:17-24. -/
def saveConfigText (m : Machine) (a : Agent) (text : Bytes) : Bool × Agent :=
  if m.writable a.requests then (true, { a with text := some (m.mtime a.requests, text) }) else (false, a)

/-- `Refresh` (configure.go:210-260) within the agent: the tracing packages see the new configuration; the observer of the
object's name (agent.go:17-20) sends the name when it has changed, and the sampler, an observer, is notified
(xlogsampler.go:48). `none`: it panics. -/
def Agent.refresh (m : Machine) (a : Agent) : Option Agent :=
  match Config.refresh m.env m.host (m.file a) (m.file a) a.conf with
  | none => none
  | some c =>
    let w := { a.world with conf := c.traceConf }
    let w := if c.objRuns > a.conf.objRuns then (sendText .object c.objName w).2 else w
    let w := if c.confRuns > a.conf.confRuns then { w with sampler := w.sampler.map (·.run w.conf.sample) } else w
    some { a with conf := c, world := w }

/-- `saveConfig`, handlers.go:301-314. `none`: a panic. -/
def saveConfig (m : Machine) (a : Agent) (pack : Pack) : Option Table × Agent :=
  let result := MapPack.put [] (ascii "result") (.bool false)
  match pack with
  | .map p =>
    let text := p.table.getString (ascii "setConfig")
    match saveConfigText m a text with
    | (true, a) =>
      match a.refresh m with
      | none => (none, a)
      | some a => (some (MapPack.put result (ascii "result") (.string (ascii "true"))), a)
    | (false, a) => (some result, a)
  | _ => (some result, a)

/-- `listConfig`, handlers.go:321-338. -/
def listConfig (ds : List (Bytes × Desc)) : Table :=
  let t := column [] "key" (ds.map fun d => .text d.1)
  let t := column t "value" (ds.map fun d => .text d.2.value)
  column t "default" (ds.map fun d => .text d.2.default)

/-- `listConfigDescription`, handlers.go:340-351. -/
def listConfigDescription (m : Machine) (ds : List (Bytes × Desc)) : Table :=
  ds.foldl (fun t d => MapPack.put t d.1 (.string (m.descText d.1))) []

/-- `listConfigValueType`, handlers.go:353-364. -/
def listConfigValueType (ds : List (Bytes × Desc)) : Table :=
  ds.foldl (fun t d => MapPack.put t d.1 (.int32 (BitVec.ofNat 32 d.2.valueType))) []

/-! ## Dump files -/

/-- The files below a directory, as `filepath.Walk` finds them (its order of visiting is not modelled).
   Library path/filepath; dump.go:206-247. -/
def filesBelow (fs : FS) (dir : Path) : List (Path × Bytes) :=
  fs.filterMap fun e => match e.2 with
    | .dir => none
    | .file content =>
      if e.1.rooted = dir.rooted ∧ e.1.parts.take dir.parts.length = dir.parts then some (e.1, content) else none

/-- `info.Name()`: the last element of the path.  Library os; dump.go:206-247. -/
def baseName (p : Path) : Bytes := p.parts.getLast?.getD []

/-- `ListDumpFiles`, dump.go:206-227. -/
def listDumpFiles (m : Machine) (a : Agent) : Table :=
  let files := filesBelow a.fs m.dumpDir
  let t := column [] "name" (files.map fun f => .text (baseName f.1))
  let t := column t "size" (files.map fun f => .dec (BitVec.ofNat 64 f.2.length))
  column t "last_modified" (files.map fun f => .dec (m.fileMillis a.requests f.1))

/-- `ListBinaryDumpFiles`, dump.go:229-247. -/
def listBinaryDumpFiles (m : Machine) (a : Agent) : Table :=
  let files := (filesBelow a.fs m.binaryDir).filter fun f => hasSuffix (baseName f.1) suffix
  let t := column [] "name" (files.map fun f => .text (baseName f.1))
  column t "size" (files.map fun f => .dec (BitVec.ofNat 64 f.2.length))

/-- The text of a path: `filepath.Join` returns a text.  Library path/filepath; dump.go:206-247. -/
def Path.text (p : Path) : Bytes :=
  let body := p.parts.foldl (fun t e => if t = [] then e else t ++ 47 :: e) []
  if p.rooted then 47 :: body else if body = [] then ascii "." else body

/-- `HeavyAllStackTrace`, dump.go:54-83: the file made and its name in the reply (`os.Create` succeeds; an old file of that
name is replaced). -/
def threadDump (m : Machine) (a : Agent) : Table × Agent :=
  let p := join m.dumpDir (ascii "go_dump_" ++ m.stampText a.requests ++ ascii ".log")
  let content := heavyAllStackTrace (m.stacks a.requests)
  (MapPack.put [] (ascii "name") (.string (Path.text p)),
    { a with fs := (p, .file content) :: a.fs.filter fun e => e.1 ≠ p })

/-- The reply of `triggerBinaryCpuProfile` and its like, handlers.go:176-214. -/
def triggered : Table :=
  MapPack.put (MapPack.put [] (ascii "success") (.value (.bool true))) (ascii "msg")
    (.string (ascii "Success. it take about 30 seconds."))

/-! ## Dispatch -/

/-- A map pack as answer.  handlers.go:39-153. -/
def withPack (t : Table) : Answer := ⟨[], some (.map ⟨t⟩)⟩

/-- No pack, no blobs.  handlers.go:39-153. -/
def nothing : Answer := ⟨[], none⟩

/-- `handle`, handlers.go:39-153.  A panic is stopped by the deferred `ReportScouterPanic`, which raises an alert. -/
def handle (m : Machine) (a : Agent) (cmd : Bytes) (pack : Pack) : Agent × Answer :=
  let inWorld (code : TM Table) : Agent × Answer :=
    match recovered none (do let t ← code; return some t) a.world with
    | (.ok (some t), w) => ({ a with world := w }, withPack t)
    | (_, w) => ({ a with world := w }, nothing)
  let finish (r : Agent × Answer) : Agent × Answer := ({ r.1 with requests := r.1.requests + 1 }, r.2)
  finish <|
  if cmd = ascii "KEEP_ALIVE" then (a, nothing)
  else if cmd = ascii "OBJECT_RESET_CACHE" then
    ({ a with world := { a.world with proxy := a.world.proxy.resetTextSent (m.textOrder a.requests) } }, ⟨[], some pack⟩)
  else if cmd = ascii "TRIGGER_THREAD_DUMP" then
    let (t, a) := threadDump m a
    (a, withPack t)
  else if cmd = ascii "OBJECT_DUMP_FILE_LIST" then (a, withPack (listDumpFiles m a))
  else if cmd = ascii "OBJECT_DUMP_FILE_DETAIL" then
    match pack with
    | .map p => (a, ⟨streamDumpFileContents (m.sizes a.requests) a.fs m.dumpDir (p.table.getString (ascii "name")), none⟩)
    | _ => (a, nothing)
  else if cmd = ascii "TRIGGER_BLOCK_PROFILE" then (a, nothing)
  else if cmd = ascii "TRIGGER_MUTEX_PROFILE" then (a, nothing)
  else if cmd = ascii "OBJECT_LIST_HEAP_DUMP" then (a, withPack (listBinaryDumpFiles m a))
  else if cmd = ascii "OBJECT_DOWNLOAD_HEAP_DUMP" then
    match pack with
    | .map p => (a, ⟨downloadBinaryDumpFiles a.fs m.binaryDir (p.table.getString (ascii "fileName")), none⟩)
    | _ => (a, nothing)
  else if cmd = ascii "OBJECT_DELETE_HEAP_DUMP" then
    match pack with
    | .map p =>
      let (t, fs) := deleteBinaryDumpFiles (m.removeError a.requests) a.fs m.binaryDir (p.table.getString (ascii "delfileName"))
      ({ a with fs := fs }, withPack t)
    | _ => (a, nothing)
  else if cmd = ascii "OBJECT_CALL_CPU_PROFILE" then (a, withPack triggered)
  else if cmd = ascii "OBJECT_CALL_BLOCK_PROFILE" then (a, withPack triggered)
  else if cmd = ascii "OBJECT_CALL_MUTEX_PROFILE" then (a, withPack triggered)
  else if cmd = ascii "GET_CONFIGURE_WAS" then (a, withPack (loadConfig m a))
  else if cmd = ascii "SET_CONFIGURE_WAS" then
    match saveConfig m a pack with
    | (some t, a) => (a, withPack t)
    | (none, a) => ({ a with world := (recovered () TM.panic a.world).2 }, nothing)
  else if cmd = ascii "LIST_CONFIGURE_WAS" then (a, withPack (listConfig a.conf.descs))
  else if cmd = ascii "CONFIGURE_VALUE_TYPE" then (a, withPack (listConfigValueType a.conf.descs))
  else if cmd = ascii "CONFIGURE_DESC" then (a, withPack (listConfigDescription m a.conf.descs))
  else if cmd = ascii "OBJECT_ACTIVE_SERVICE_LIST" then inWorld (getActiveList (m.order a.requests))
  else if cmd = ascii "OBJECT_THREAD_DETAIL" then inWorld (getGoroutineDetail pack)
  else (a, nothing)

/-! ## The object itself -/

/-- `SendObjPack`, agenttask.go:24-37, every two seconds: the object's name as text and an object pack (objectpack.go:34-41). -/
def Agent.announce (a : Agent) : Agent :=
  let r := sendText .object a.conf.objName a.world
  let h : BitVec 32 := match r.1 with | .ok h => h | .panic => 0
  let pack : ObjectPack :=
    { objType := a.conf.textAt "ObjType", objHash := h, objName := a.conf.objName, address := [], version := ascii "0.0.0"
      alive := true, wakeup := 0, tags := [] }
  { a with world := (sendDirect (.object pack) r.2).2 }

/-! ## Histories -/

/-- Something that happens to the agent: a call of the tracing API (or something around it), a request of the collector, a
change of the configuration file, the refresh made every five seconds (configure.go:161-166), and the announcement of the object
made every two (agenttask.go:17-22). -/
inductive Event where
  | call (c : Call)
  | request (cmd : Bytes) (pack : Pack)
  | edit (text : Option (Int × Bytes))
  | refresh
  | announce

/-- The agent after an event.  (A panic of the refresh ends the program, so nothing happens after it; see C47.)
   One event: tracemain.go:24-604, configure.go:156-166, handlers.go:39-153, agenttask.go:12-37. -/
def Agent.step (m : Machine) (a : Agent) : Event → Agent
  | .call c => { a with world := perform a.world c }
  | .request cmd pack => (handle m a cmd pack).1
  | .edit text => { a with text := text }
  | .refresh => (a.refresh m).getD a
  | .announce => a.announce

/-- The agent after a history of events.  Model only: events of a running agent (agent.go:14-39) one after the other. -/
def Agent.life (m : Machine) (a : Agent) (es : List Event) : Agent := es.foldl (Agent.step m) a

/-- The agent at start, with a configuration, its file and the file system.  agent.go:14-39, configure.go:128-160. -/
def Agent.start (env : Oracle) (c : Configure) (text : Option (Int × Bytes)) (fs : FS) (cap : Nat) : Agent :=
  { world := Trace.start env c.traceConf cap, conf := c, text := text, fs := fs }

end Handlers
end Scouter
