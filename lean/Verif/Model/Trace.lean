import Verif.Model.Dataproxy
import Verif.Model.Profile
import Verif.Model.Sampler
/-!
# Tracing (scouterx/strace/tracemain.go, scouterx/strace/tctxmanager, scouterx/netio/tracecontext.go, profile sending)

Trace contexts and profile steps are pointers in the code; here they live in two heaps and a pointer is a position.
Every call of the API is one atomic step (`Verif.Model.Ends` splits the ending of a service for concurrent enders).
Readings of the clock, generated ids, random draws, goroutine ids and panic texts come from an `Oracle`, one entry per
reading.  Times are nanoseconds; `Duration` arithmetic does not overflow for times less than 292 years apart.
Packs given to `SendPackDirect` (udpsender.go:87-97) are logged in `proxy.direct`: each is sent by its own goroutine, so
the order in which they reach the network is not determined.
-/
namespace Scouter

/-- The configuration the tracing code reads (configure.go:39-124). -/
structure TraceConf where
  keep : Int
  bulk : Int
  objHash : BitVec 32
  objType : Bytes
  stuckBase : Int
  stuckRemove : Bool
  stuckAlert : Bool
  yellow : Int
  red : Int
  queryEnabled : Bool
  headerEnabled : Bool
  headerKeys : Bytes
  ipHeaderKey : Bytes
  sample : SampleConf
deriving DecidableEq, Repr

/-- What the environment supplies, indexed by the reading.
   Library time, math/rand, runtime; tracemain.go:24-604, keygen.go:31-36. -/
structure Oracle where
  clock : Nat → Int
  id : Nat → BitVec 64
  draw : Nat → Nat
  goid : Nat → Int
  panicText : Nat → Bytes

/-- `TraceContext`, tracecontext.go:11-78, with its `ProfileCollector` inline (`col`).  Left out: `Noop`, `Parent`,
`InheritStartTime`, `Callee` (never read or written here) and `HttpQuery`, `HttpContentType`, `Sqltext`, `ApicallName`,
`ApicallTarget`, `UserAgentString` (only copied from one context to another).  `recorded` and `sentSteps` are ghosts:
the steps given to the collector's `Process`, and those put in profile packs. -/
structure Tctx where
  closed : Bool := false
  lastMethod : Bytes := []
  isStream : Bool := false
  inherit : Bool := false
  goid : Int := 0
  col : Collector
  profileCount : Nat := 0
  profileSize : Nat := 0
  txid : BitVec 64
  gxid : BitVec 64 := 0
  xType : BitVec 8 := 0
  startTime : Int
  serviceHash : BitVec 32 := 0
  serviceName : Bytes := []
  remoteIp : Bytes := []
  error : BitVec 32 := 0
  httpMethod : Bytes := []
  sqlCount : BitVec 32 := 0
  sqlTime : BitVec 32 := 0
  status : BitVec 32 := 0
  apicallCount : BitVec 32 := 0
  apicallTime : BitVec 32 := 0
  userid : BitVec 64 := 0
  userAgent : BitVec 32 := 0
  referer : BitVec 32 := 0
  isChildTx : Bool := false
  caller : BitVec 64 := 0
  callerObjHash : BitVec 32 := 0
  login : Bytes := []
  desc : Bytes := []
  text1 : Bytes := []
  text2 : Bytes := []
  text3 : Bytes := []
  text4 : Bytes := []
  text5 : Bytes := []
  recorded : List Nat := []
  sentSteps : List Nat := []
deriving Repr

/-- A `context.Context`: nil, one without a trace, or one carrying the trace context at that heap position.
   Library context; tctxmanager.go:31-60. -/
inductive Ctx where
  | nil
  | plain
  | traced (ptr : Nat)
deriving DecidableEq, Repr

/-- The state of the tracing packages.  `registry` is `txidMap` (tctxmanager.go:17), `metered` the log of calls of
`ServiceMetering.Add`, `sampler` the lazily made `xlogSampler` (xlogsampler.go:11-12). -/
structure World where
  env : Oracle
  tick : Nat := 0
  conf : TraceConf
  proxy : Proxy
  tctxs : List Tctx := []
  steps : List Step := []
  registry : Cache (BitVec 64) Nat := Cache.new 10000 false
  metered : List (Int × Bool) := []
  sampler : Option Sampler := none

/-- The result of a piece of code: a value, or a panic under way.  Go language (panics). -/
inductive Outcome (α : Type) where
  | ok (a : α)
  | panic

/-- Code acting on the world; a panic keeps the changes made before it.  Go language; a modelling device. -/
def TM (α : Type) := World → Outcome α × World

namespace TM

/-- Sequencing (Go language; a modelling device). -/
def bind {α β : Type} (m : TM α) (f : α → TM β) : TM β := fun w =>
  match m w with
  | (.ok a, w) => f a w
  | (.panic, w) => (.panic, w)

instance : Monad TM where
  pure a := fun w => (.ok a, w)
  bind := TM.bind

/-- A run-time panic.  Go language. -/
def panic {α : Type} : TM α := fun w => (.panic, w)

/-- Look at the world.  Go language; a modelling device. -/
def get : TM World := fun w => (.ok w, w)

/-- Change the world.  Go language; a modelling device. -/
def modify (f : World → World) : TM Unit := fun w => (.ok (), f w)

/-- The next entry of an oracle.  A modelling device, see `Oracle`. -/
def reading {α : Type} (f : Oracle → Nat → α) : TM α := fun w => (.ok (f w.env w.tick), { w with tick := w.tick + 1 })

end TM

namespace Trace
open TM

/-- Dereference of a `*TraceContext` (a dangling position does not occur; it would panic).
   Go language; fields of tracecontext.go:13-78. -/
def getT (p : Nat) : TM Tctx := fun w =>
  match w.tctxs[p]? with
  | some t => (.ok t, w)
  | none => (.panic, w)

/-- Assignments to fields of a trace context.  Go language; fields of tracecontext.go:13-78. -/
def modT (p : Nat) (f : Tctx → Tctx) : TM Unit := modify fun w => { w with tctxs := w.tctxs.modify p f }

/-- A new step.  Go language (`new`), step.go:29-94. -/
def newStep (s : Step) : TM Nat := fun w => (.ok w.steps.length, { w with steps := w.steps ++ [s] })

/-- Assignments to fields of a step.  Go language; fields of the steps, methodstep.go:3-29, apicallstep.go:3-39. -/
def modStep (ptr : Nat) (f : Step → Step) : TM Unit := modify fun w => { w with steps := w.steps.modify ptr f }

/-- Dereference of a step (a dangling position does not occur; it would panic, as a nil interface does).
   Go language; step.go:29-94. -/
def getStep (ptr : Nat) : TM Step := fun w =>
  match w.steps[ptr]? with
  | some t => (.ok t, w)
  | none => (.panic, w)

/-- The `Send*` functions of dataproxy.go (see `Proxy.sendText`).  dataproxy.go:52-207. -/
def sendText (k : TextKind) (name : Bytes) : TM (BitVec 32) := fun w =>
  let (p, h) := w.proxy.sendText k name
  (.ok h, { w with proxy := p })

/-- `SendPackDirect`, udpsender.go:87-97. -/
def sendDirect (p : Pack) : TM Unit := modify fun w =>
  { w with proxy := { w.proxy with direct := w.proxy.direct ++ [p] } }

/-- `SendAlert`, dataproxy.go:156-168. -/
def sendAlert (level : BitVec 8) (title message : Bytes) : TM Unit := do
  if title = [] then return ()
  let w ← get
  sendDirect (.alert
    { time := 0, objType := w.conf.objType, objHash := w.conf.objHash, level := level, title := title,
      message := message, tags := [] })

/-- `defer common.ReportScouterPanic()` (panic.go:17-23) around a function whose result is `dflt` when it panicked:
the panic is stopped and `SendPanic` (dataproxy.go:47-50) sends an alert.  `RegisterSendPanicF` was called
(agent.go:29). -/
def recovered {α : Type} (dflt : α) (m : TM α) : TM α := fun w =>
  match m w with
  | (.ok a, w) => (.ok a, w)
  | (.panic, w) =>
    (do
      let text ← reading (·.panicText)
      sendAlert 3 (ascii "Panic") text
      return dflt) w

/-- `int32(d.Milliseconds())` of the time between two instants, timeutil.go:21-27. -/
def millis (start now : Int) : BitVec 32 := BitVec.ofInt 32 ((now - start).tdiv 1000000)

/-- `MillisToNow`, timeutil.go:25-27. -/
def millisToNow (start : Int) : TM (BitVec 32) := do
  let now ← reading (·.clock)
  return millis start now

/-! ## The profile of a context -/

/-- `sendProfile0`, dataproxy.go:233-248. -/
def sendProfile0 (p : Nat) (ptrs : List Nat) : TM Unit := do
  if ptrs = [] then return ()
  let t ← getT p
  let w ← get
  let profile := stepsToBytes (ptrs.map (fun i => w.steps[i]?))
  let now ← reading (·.clock)
  modT p fun t => { t with
    profileCount := t.profileCount + ptrs.length
    profileSize := t.profileSize + profile.length
    sentSteps := t.sentSteps ++ ptrs }
  sendDirect (.profile
    { time := 0, objHash := w.conf.objHash, service := t.serviceHash, txid := t.txid,
      elapsed := millis t.startTime now, profile := profile })

/-- The calls of `sendProfile0` made by `SendProfile`, dataproxy.go:225-230. -/
def sendSlices (p : Nat) : List (List Nat) → TM Unit
  | [] => pure ()
  | s :: ss => do sendProfile0 p s; sendSlices p ss

/-- `SendProfile`, dataproxy.go:214-231. -/
def sendProfile (p : Nat) (ptrs : List Nat) : TM Unit := do
  let w ← get
  match profileSlices ptrs w.conf.bulk with
  | some slices => sendSlices p slices
  | none => TM.panic

/-- `ProfileCollector.Process`, profilecollector.go:48-58. -/
def profileProcess (p ptr : Nat) : TM Unit := do
  let t ← getT p
  let w ← get
  match t.col.process w.conf.keep ptr with
  | (c, .done) => modT p fun t => { t with col := c, recorded := t.recorded ++ [ptr] }
  | (c, .full o) => do
    modT p fun t => { t with col := c, recorded := t.recorded ++ [ptr] }
    sendProfile p o
  | (c, .panicked) => do
    modT p fun t => { t with col := c, recorded := t.recorded ++ [ptr] }
    TM.panic

/-- `ProfileCollector.Push`, profilecollector.go:26-32. -/
def profilePush (p ptr : Nat) : TM Unit := do
  let t ← getT p
  let s ← getStep ptr
  modStep ptr fun _ => (t.col.push s).2
  modT p fun t => { t with col := (t.col.push s).1 }

/-- `ProfileCollector.Pop`, profilecollector.go:34-38. -/
def profilePop (p ptr : Nat) : TM Unit := do
  let s ← getStep ptr
  modT p fun t => { t with col := t.col.popParent s }
  profileProcess p ptr

/-- `ProfileCollector.Add`, profilecollector.go:40-46. -/
def profileAdd (p ptr : Nat) : TM Unit := do
  let t ← getT p
  let s ← getStep ptr
  modStep ptr fun _ => (t.col.addNumber s).2
  modT p fun t => { t with col := (t.col.addNumber s).1 }
  profileProcess p ptr

/-- `ProfileCollector.Close`, profilecollector.go:60-65. -/
def profileClose (p : Nat) (ok : Bool) : TM Unit := do
  let t ← getT p
  match t.col.close ok with
  | some o => sendProfile p o
  | none => pure ()

/-- `Profile.Add` of a freshly made step.  profilecollector.go:40-46. -/
def addNew (p : Nat) (startTime : BitVec 32) (body : StepBody) : TM Unit := do
  let ptr ← newStep ⟨⟨0, 0, startTime⟩, body⟩
  profileAdd p ptr

/-! ## Starting and ending services -/

/-- `GetTraceContext`, tctxmanager.go:39-46, on a non-nil context; a position not in the heap yet has no trace. -/
def traceOf (w : World) : Ctx → Option Nat
  | .traced p => if p < w.tctxs.length then some p else none
  | _ => none

/-- The body of most functions: nothing for a nil context or one without a trace (e.g. tracemain.go:43-49). -/
def withTrace {α : Type} (c : Ctx) (dflt : α) (f : Nat → TM α) : TM α := do
  let w ← get
  match traceOf w c with
  | some p => f p
  | none => return dflt

/-- `normalizeIp`, tracemain.go:189-192. -/
def normalizeIp (ip : Bytes) : Bytes := (splitByte 58 ip).headD []

/-- `NewTraceContext`, tracecontext.go:80-86 and tctxmanager.go:56-60: the position of the new context. -/
def newTraceContext : TM Nat := do
  let txid ← reading (·.id)
  let start ← reading (·.clock)
  let w ← get
  match Collector.new w.conf.keep with
  | none => TM.panic
  | some col => do
    modify fun w => { w with tctxs := w.tctxs ++ [{ col := col, txid := txid, startTime := start }] }
    return w.tctxs.length

/-- `tctxmanager.Start`, tctxmanager.go:62-64. -/
def register (p : Nat) : TM Unit := do
  let t ← getT p
  modify fun w => { w with registry := w.registry.add t.txid (some p) }

/-- `tctxmanager.End`, tctxmanager.go:66-68. -/
def unregister (p : Nat) : TM Unit := do
  let t ← getT p
  modify fun w => { w with registry := w.registry.remove t.txid }

/-- `startService` on the context it made, tracemain.go:337-343 (`%d` of the goroutine id). -/
def startRest (p : Nat) (serviceName remoteAddr : Bytes) : TM Unit := do
  modT p fun t => { t with gxid := t.txid }
  let goid ← reading (·.goid)
  modT p fun t => { t with goid := goid }
  addNew p 0 (.message (ascii "goroutine:" ++ formatInt 10 goid))
  modT p fun t => { t with serviceName := serviceName }
  let h ← sendText .service serviceName
  modT p fun t => { t with serviceHash := h, remoteIp := normalizeIp remoteAddr }

/-- `startService`, tracemain.go:333-345. -/
def startService (serviceName remoteAddr : Bytes) : TM Nat := do
  let p ← newTraceContext
  register p
  startRest p serviceName remoteAddr
  return p

/-- `GetXlogSampler`, xlogsampler.go:28-46. -/
def getSampler : TM Sampler := do
  let w ← get
  match w.sampler with
  | some s => return s
  | none => do
    let s := Sampler.new w.conf.sample
    modify fun w => { w with sampler := some s }
    return s

/-- `findXLogDiscard`, tracemain.go:400-415 (the draw is taken even if it is not needed). -/
def findXLogDiscard (t : Tctx) (elapsed : BitVec 32) : TM (BitVec 8) := do
  let s ← getSampler
  let w ← get
  let draw ← reading (·.draw)
  return s.findDiscard w.conf.sample draw t.error elapsed t.serviceName

/-- `SendLogin`/`SendDesc` if the text is set, tracecontext.go:125-130. -/
def sendIfSet (k : TextKind) (name : Bytes) : TM (BitVec 32) := do
  if name = [] then return 0
  sendText k name

/-- `ToXlog`, tracecontext.go:98-138. -/
def toXlog (t : Tctx) (discard : BitVec 8) (elapsed : BitVec 32) : TM XlogPack := do
  let threadName ← sendText .hashMessage (formatInt 10 t.gxid.toInt)
  let login ← sendIfSet .login t.login
  let desc ← sendIfSet .desc t.desc
  return { XlogPack.new with
    elapsed := elapsed, service := t.serviceHash, xType := t.xType, txid := t.txid, gxid := t.gxid, caller := t.caller
    threadNameHash := threadName, sqlCount := t.sqlCount, sqlTime := t.sqlTime, ipaddr := ipToBytes t.remoteIp
    userid := t.userid, hasDump := 0, error := t.error, status := t.status, discardType := discard
    profileSize := BitVec.ofNat 32 t.profileSize, profileCount := BitVec.ofNat 32 t.profileCount
    userAgent := t.userAgent, referer := t.referer, apicallCount := t.apicallCount, apicallTime := t.apicallTime
    login := login, desc := desc, text1 := t.text1, text2 := t.text2, text3 := t.text3, text4 := t.text4
    text5 := t.text5 }

/-- `SendXlog`, dataproxy.go:209-212. -/
def sendXlog (x : XlogPack) : TM Unit := do
  let w ← get
  sendDirect (.xlog { x with objHash := w.conf.objHash })

/-- The condition of tracemain.go:392-393. -/
def keepsXlog (x : XlogPack) : Bool :=
  (x.discardType != discardAll && x.discardType != discardAllForce) ||
    (!x.isDriving && x.discardType == discardAll)

/-- `ServiceMetering.Add(int(xlog.Elapsed), xlog.Error != 0)`, tracemain.go:389. -/
def meter (elapsed : Int) (isError : Bool) : TM Unit := modify fun w => { w with metered := w.metered ++ [(elapsed, isError)] }

/-- `endAnyServiceOfTraceContext` after the test of the flag, tracemain.go:377-398. -/
def endRest (p : Nat) : TM Unit := do
  modT p fun t => { t with closed := true }
  let t ← getT p
  let h ← sendText .service t.serviceName
  modT p fun t => { t with serviceHash := h }
  unregister p
  let t ← getT p
  let elapsed ← millisToNow t.startTime
  let discard ← findXLogDiscard t elapsed
  let xlog ← toXlog t discard elapsed
  profileClose p (discard == discardNone)
  meter xlog.elapsed.toInt (xlog.error != 0)
  if keepsXlog xlog then sendXlog xlog else pure ()

/-- `endAnyServiceOfTraceContext`, tracemain.go:373-398. -/
def endTctx (p : Nat) : TM Unit := do
  let t ← getT p
  if t.closed then return () else endRest p

/-- `endAnyService`, tracemain.go:347-356. -/
def endAnyService (c : Ctx) : TM Unit :=
  withTrace c () fun p => do
    let t ← getT p
    if t.closed then return () else endTctx p

/-- `endStuckServiceForcibly`, tracemain.go:358-371. -/
def endStuck (p : Nat) : TM Unit := recovered () do
  let w ← get
  if w.conf.stuckRemove then do
    let t ← getT p
    let now ← millisToNow t.startTime
    let h ← sendText .hashMessage (ascii "Service currently may running, not finished!")
    addNew p now (.pmessage h 0 3 (paramString []))
    let t ← getT p
    if t.error = 0 then do
      let e ← sendText .error (ascii "This stuck service currently may running, not finished!")
      modT p fun t => { t with error := e }
    else pure ()
    endTctx p
  else pure ()

/-! ## The API -/

/-- `IsStream`, tracemain.go:29-39. -/
def isStream (c : Ctx) : TM Bool := recovered false <| withTrace c false fun p => do
  let t ← getT p
  return t.isStream

/-- `SetAsStream`, tracemain.go:41-52. -/
def setAsStream (c : Ctx) : TM Bool := recovered false <| withTrace c false fun p => do
  modT p fun t => { t with isStream := true }
  return true

/-- `AddPMessageStep`, tracemain.go:136-151. -/
def addPMessageStep (c : Ctx) (level : BitVec 8) (message : Bytes) (elapsed : BitVec 32) (params : List Bytes) :
    TM Unit := recovered () <| withTrace c () fun p => do
  let t ← getT p
  let now ← millisToNow t.startTime
  let h ← sendText .hashMessage message
  addNew p now (.pmessage h elapsed level (paramString params))

/-- `MarkAsError`, tracemain.go:54-67. -/
def markAsError (c : Ctx) (message : Bytes) : TM Unit := recovered () <| withTrace c () fun p => do
  let t ← getT p
  if t.error = 0 then do
    let e ← sendText .error message
    modT p fun t => { t with error := e }
  else pure ()
  addPMessageStep c 3 message 0 []

/-- `MarkAsErrorForcibly`, tracemain.go:69-79. -/
def markAsErrorForcibly (c : Ctx) (message : Bytes) : TM Unit := recovered () <| withTrace c () fun p => do
  let e ← sendText .error message
  modT p fun t => { t with error := e }

/-- `SetServiceNameForcibly`, tracemain.go:81-92. -/
def setServiceNameForcibly (c : Ctx) (name : Bytes) : TM Unit := recovered () <| withTrace c () fun p => do
  modT p fun t => { t with serviceName := name }
  let h ← sendText .service name
  modT p fun t => { t with serviceHash := h }

/-- `AddStep`, tracemain.go:94-104; `ptr` is a step made by the caller, `none` is nil (which panics). -/
def addStep (c : Ctx) (ptr : Option Nat) : TM Unit := recovered () <| withTrace c () fun p =>
  match ptr with
  | some ptr => profileAdd p ptr
  | none => TM.panic

/-- `AddMessageStep`, tracemain.go:106-118. -/
def addMessageStep (c : Ctx) (message : Bytes) : TM Unit := recovered () <| withTrace c () fun p => do
  let t ← getT p
  let now ← millisToNow t.startTime
  addNew p now (.message message)

/-- `AddHashedMessageStep`, tracemain.go:120-134. -/
def addHashedMessageStep (c : Ctx) (message : Bytes) (value elapsed : BitVec 32) : TM Unit :=
  recovered () <| withTrace c () fun p => do
    let t ← getT p
    let h ← sendText .hashMessage message
    let now ← millisToNow t.startTime
    addNew p now (.hashed h elapsed value)

/-- An incoming `*http.Request`: the fields used.  `values k` is `Header.Values(k)` (which canonicalises the key);
`headers` lists the header map in its iteration order.  Library net/http; tracemain.go:153-192, 500-524. -/
structure Request where
  path : Bytes
  method : Bytes
  rawQuery : Bytes
  remoteAddr : Bytes
  values : Bytes → List Bytes
  headers : List (Bytes × List Bytes)

/-- `Header.Get`: the first value or the empty text.  Library net/http; tracemain.go:153-192. -/
def Request.header (r : Request) (key : Bytes) : Bytes := (r.values key).headD []

/-- `strings.Join(vs, ",")`.  Library strings; tracemain.go:500-524. -/
def joinComma : List Bytes → Bytes
  | [] => []
  | [v] => v
  | v :: vs => v ++ 44 :: joinComma vs

/-- `strings.TrimSpace` for ASCII white space (Unicode spaces are not trimmed here).
   Library strings; tracemain.go:507. -/
def trimSpace (s : Bytes) : Bytes :=
  let space := fun c : Byte => decide (c = 32 ∨ (9 ≤ c.toNat ∧ c.toNat ≤ 13))
  ((s.dropWhile space).reverse.dropWhile space).reverse

/-- `getRemoteIp`, tracemain.go:178-187. -/
def getRemoteIp (conf : TraceConf) (r : Request) : Bytes :=
  if conf.ipHeaderKey ≠ [] then
    let headerIp := r.header conf.ipHeaderKey
    if headerIp ≠ [] then headerIp else r.remoteAddr
  else r.remoteAddr

/-- The header messages of `profileHttpHeaders`, tracemain.go:502-519. -/
def headerMessages (conf : TraceConf) (r : Request) : List Bytes :=
  if conf.headerEnabled then
    if conf.headerKeys.length > 0 then
      (splitByte 44 conf.headerKeys).filterMap fun k =>
        let values := r.values (trimSpace k)
        if values.length > 0 then some (ascii "header: " ++ k ++ ascii ": " ++ joinComma values) else none
    else r.headers.map fun (k, v) => ascii "header: " ++ k ++ ascii ": " ++ joinComma v
  else []

/-- Message steps added one after the other.  tracemain.go:500-524. -/
def addMessages (p : Nat) (startTime : BitVec 32) : List Bytes → TM Unit
  | [] => pure ()
  | m :: ms => do addNew p startTime (.message m); addMessages p startTime ms

/-- `profileHttpHeaders`, tracemain.go:500-524. -/
def profileHttpHeaders (r : Request) (p : Nat) : TM Unit := do
  let t ← getT p
  let start ← millisToNow t.startTime
  let w ← get
  addMessages p start (headerMessages w.conf r)
  let w ← get
  if w.conf.queryEnabled then addNew p start (.message (ascii "query: " ++ r.rawQuery)) else pure ()

/-- `StartHttpService` after `startService`, tracemain.go:169-173. -/
def startHttpRest (r : Request) (p : Nat) : TM Unit := do
  modT p fun t => { t with xType := 0 }
  let ua ← sendText .userAgent (r.header (ascii "User-Agent"))
  modT p fun t => { t with userAgent := ua, httpMethod := r.method }
  let rf ← sendText .referer (r.header (ascii "Referer"))
  modT p fun t => { t with referer := rf }
  profileHttpHeaders r p

/-- `StartHttpService`, tracemain.go:153-176.  The named result is nil until `startService` has returned; `r = none` is
a nil request, which panics. -/
def startHttpService (c : Ctx) (r : Option Request) : TM Ctx :=
  if c = .nil then pure .plain
  else do
    let w ← get
    match traceOf w c with
    | some _ => return c
    | none => do
      let p? ← recovered none (do
        match r with
        | none => TM.panic
        | some r =>
          let p ← startService (r.path ++ ascii "<" ++ r.method ++ ascii ">") (getRemoteIp w.conf r)
          return some p)
      match p?, r with
      | some p, some r => recovered (Ctx.traced p) (do startHttpRest r p; return Ctx.traced p)
      | _, _ => return .nil

/-- `StartService`, tracemain.go:211-223. -/
def startServiceApi (c : Ctx) (name remoteIp : Bytes) : TM Ctx := do
  let w ← get
  match traceOf w c with
  | some _ => return c
  | none => recovered Ctx.nil (do
      let p ← startService name remoteIp
      modT p fun t => { t with xType := 1 }
      return .traced p)

/-- `EndHttpService`, tracemain.go:194-209; `status` is the response's status code, if there is a response. -/
def endHttpService (c : Ctx) (status : Option (BitVec 32)) : TM Unit := recovered () do
  match status with
  | some code =>
    withTrace c () fun p => do
      let t ← getT p
      if t.closed then return () else do
        modT p fun t => { t with status := code }
        endAnyService c
  | none => endAnyService c

/-- `EndService`, tracemain.go:225-228, and `endChildGoroutineService`, :328-331. -/
def endService (c : Ctx) : TM Unit := recovered () (endAnyService c)

/-- `inheritTctx`, tracemain.go:242-282. -/
def inheritTctx (p parent : Nat) : TM Unit := do
  let q ← getT parent
  modT p fun t => { t with inherit := true, gxid := q.gxid, xType := q.xType }
  addNew p 0 (.message (ascii "scouter inheritance step"))
  let q ← getT parent
  let w ← get
  modT p fun t => { t with
    isStream := q.isStream, error := q.error, httpMethod := q.httpMethod, sqlCount := q.sqlCount
    sqlTime := q.sqlTime, apicallCount := q.apicallCount, apicallTime := q.apicallTime, userid := q.userid
    userAgent := q.userAgent, referer := q.referer, isChildTx := true, caller := q.txid
    callerObjHash := w.conf.objHash, login := q.login, desc := q.desc, text1 := q.text1, text2 := q.text2
    text3 := q.text3, text4 := q.text4, text5 := q.text5 }

/-- `StartNewInheritanceService`, tracemain.go:230-240; the parent is a trace context (`none`: nil, which panics).
The named results stay nil until `startService` has returned. -/
def startInheritance (parent : Option Nat) : TM Ctx := do
  let p? ← recovered none (do
    match parent with
    | none => TM.panic
    | some q =>
      let t ← getT q
      let p ← startService t.serviceName t.remoteIp
      return some p)
  match p?, parent with
  | some p, some q => recovered (Ctx.traced p) (do inheritTctx p q; return Ctx.traced p)
  | _, _ => return .nil

/-- `startChildGoroutineService`, tracemain.go:301-326. -/
def startChild (c : Ctx) (name : Bytes) : TM Ctx := withTrace c c fun q => do
  let parent ← getT q
  let p ← startService name parent.remoteIp
  let parent ← getT q
  modT p fun t => { t with xType := 4, caller := parent.txid, gxid := parent.gxid }
  if parent.gxid = 0 then do
    modT p fun t => { t with gxid := parent.txid }
    modT q fun t => { t with gxid := t.txid }
  else pure ()
  let child ← getT p
  let now ← millisToNow parent.startTime
  let h ← sendText .apicall name
  addNew q now (.async child.txid h 0)
  return .traced p

/-- `GoWithTrace`, tracemain.go:289-299, up to the `go` statement: the context the goroutine gets, `none` when a panic
was recovered and no goroutine is started (the caller's function then never runs). -/
def goWithTrace (c : Ctx) (name : Bytes) : TM (Option Ctx) := recovered none (do
  let c ← startChild c name
  return some c)

/-- The first statement of the goroutine, tracemain.go:293-295. -/
def goBegin (c : Ctx) : TM Unit := withTrace c () fun p => do
  let now ← reading (·.clock)
  modT p fun t => { t with startTime := now }

/-- The loop of `addMessageStepIfParamExist`, tracemain.go:472-484; a parameter is its `%v` text, `none` a nil one. -/
def addParams (p : Nat) : List (Option Bytes) → TM Unit
  | [] => pure ()
  | none :: ps => addParams p ps
  | some s :: ps => do
    let t ← getT p
    let _ ← millisToNow t.startTime
    let now ← millisToNow t.startTime
    addNew p now (.message (ascii "param: " ++ s))
    addParams p ps

/-- `startMethodWithParam0`, tracemain.go:461-470: the new step. -/
def startMethod0 (p : Nat) (funcName methodName : Bytes) (params : List (Option Bytes)) : TM Nat := do
  addParams p params
  modT p fun t => { t with lastMethod := funcName }
  let h ← sendText .method methodName
  let t ← getT p
  let now ← millisToNow t.startTime
  let ptr ← newStep ⟨⟨0, 0, now⟩, .method h 0 0⟩
  profilePush p ptr
  return ptr

/-- `StartCustomMethod`, tracemain.go:427-429, and `StartCustomMethodWithParam`, :431-442. -/
def startCustomMethod (c : Ctx) (name : Bytes) (params : List (Option Bytes)) : TM (Option Nat) :=
  recovered none <| withTrace c none fun p => do
    let ptr ← startMethod0 p name name params
    return some ptr

/-- `startMethodWithParam`'s method name, tracemain.go:454-456: what follows the last slash of the function's name, and
parentheses. -/
def methodNameOf (funcName : Bytes) : Bytes := (splitByte 47 funcName).getLastD [] ++ ascii "()"

/-- `StartMethod`, tracemain.go:417-420, and `StartMethodWithParam`, :422-425 (with `startMethodWithParam`, :444-459);
`funcName` is the caller's function name as the runtime reports it. -/
def startMethod (c : Ctx) (funcName : Bytes) (params : List (Option Bytes)) : TM (Option Nat) :=
  recovered none <| withTrace c none fun p => do
    let ptr ← startMethod0 p funcName (methodNameOf funcName) params
    return some ptr

/-- `step.Elapsed = e` on a `*MethodStep` or `*ApiCallStep`.  tracemain.go:486-498, 583-604. -/
def setElapsed (e : BitVec 32) (s : Step) : Step :=
  { s with body := match s.body with
    | .method h _ c => .method h e c
    | .apicall txid h _ c err opt a => .apicall txid h e c err opt a
    | b => b }

/-- `step.Error = e` on an `*ApiCallStep`.  tracemain.go:583-604. -/
def setStepError (e : BitVec 32) (s : Step) : Step :=
  { s with body := match s.body with
    | .apicall txid h el c _ opt a => .apicall txid h el c e opt a
    | b => b }

/-- `EndMethod`, tracemain.go:486-498; `none` is a nil step. -/
def endMethod (c : Ctx) (ptr : Option Nat) : TM Unit := recovered () <|
  match ptr with
  | none => pure ()
  | some ptr => withTrace c () fun p => do
    let t ← getT p
    let s ← getStep ptr
    let now ← millisToNow t.startTime
    modStep ptr (setElapsed (now - s.ss.startTime))
    profilePop p ptr

/-- `startApiCall`, tracemain.go:568-580. -/
def startApiCall0 (p : Nat) (name address : Bytes) : TM Nat := do
  let h ← sendText .apicall name
  let t ← getT p
  let now ← millisToNow t.startTime
  let txid ← reading (·.id)
  let ptr ← newStep ⟨⟨0, 0, now⟩, .apicall txid h 0 0 0 (if address ≠ [] then 1 else 0) address⟩
  profilePush p ptr
  return ptr

/-- `StartApiCall`, tracemain.go:526-537. -/
def startApiCall (c : Ctx) (name address : Bytes) : TM (Option Nat) :=
  recovered none <| withTrace c none fun p => do
    let ptr ← startApiCall0 p name address
    return some ptr

/-- The `Txid` of an api-call step.  tracemain.go:544-566. -/
def stepTxid (s : Step) : BitVec 64 :=
  match s.body with
  | .apicall txid .. => txid
  | _ => 0

/-- `StartApiCallWithPropagation`, tracemain.go:544-566: the step and the headers added to the outgoing request
(`hasReq` says whether there is one). -/
def startApiCallProp (c : Ctx) (name address : Bytes) (hasReq : Bool) :
    TM (Option Nat × List (Bytes × Bytes)) :=
  recovered (none, []) <| withTrace c (none, []) fun p => do
    let ptr ← startApiCall0 p name address
    let t ← getT p
    if t.gxid = 0 then modT p fun t => { t with gxid := t.txid } else pure ()
    let t ← getT p
    let s ← getStep ptr
    let w ← get
    return (some ptr, if hasReq then
      [(ascii "X-Scouter-Gxid", intToXlogString32 t.gxid),
       (ascii "X-Scouter-Caller", intToXlogString32 t.txid),
       (ascii "X-Scouter-Callee", intToXlogString32 (stepTxid s)),
       (ascii "X-Scouter-Caller-Obj", formatInt 10 w.conf.objHash.toInt)] else [])

/-- `EndApiCall`, tracemain.go:583-603; `err` is the text of the error, if any. -/
def endApiCall (c : Ctx) (ptr : Option Nat) (err : Option Bytes) : TM Unit := recovered () <|
  match ptr with
  | none => pure ()
  | some ptr => withTrace c () fun p => do
    let t ← getT p
    let s ← getStep ptr
    let now ← millisToNow t.startTime
    let elapsed := now - s.ss.startTime
    modStep ptr (setElapsed elapsed)
    modT p fun t => { t with apicallCount := t.apicallCount + 1, apicallTime := t.apicallTime + elapsed }
    match err with
    | some message => do
      let e ← sendText .error message
      modStep ptr (setStepError e)
      modT p fun t => { t with error := if t.error = 0 then e else t.error }
    | none => pure ()
    profilePop p ptr

end Trace
end Scouter
