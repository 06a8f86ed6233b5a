import Verif.Model.Calls
/-!
# The tracing API step by step, run by many goroutines at once

`Model/Trace` runs each call as one step.  Here the same code is made of its accesses to memory and to the other packages (`Prim`), and any
goroutine may make its next access at any moment.  A goroutine reaches the trace contexts and steps it made itself: positions (pointers) are
counted for each goroutine (an address is opaque in Go), so each has its own heap.  Everything else is shared: the configuration, the text caches, the
queue and socket, the table of running services, the meter, the sampler, the clock and the generator of ids.  Each access is atomic; those to shared
structures are under their locks in the code, except that `Send*` tests and adds in two accesses (that is the subject of `Model/Announcers`) and that
single words of the configuration are read (and only read here).
-/
namespace Scouter
namespace Stepwise
open Trace (Request Call keepsXlog methodNameOf setElapsed setStepError stepTxid headerMessages getRemoteIp normalizeIp millis)

/-- An access of the code of tracemain.go:24-604 to memory or to another package, with the type of what it yields. -/
inductive Prim : Type → Type where
  | getT (p : Nat) : Prim (Option Tctx)
  | modT (p : Nat) (f : Tctx → Tctx) : Prim Unit
  | addT (t : Tctx) : Prim Nat
  | traceOf (c : Ctx) : Prim (Option Nat)
  | newStep (s : Step) : Prim Nat
  | getStep (ptr : Nat) : Prim (Option Step)
  | getSteps (ptrs : List Nat) : Prim (List (Option Step))
  | modStep (ptr : Nat) (f : Step → Step) : Prim Unit
  | sendText (k : TextKind) (name : Bytes) : Prim (BitVec 32)
  | sendDirect (p : Pack) : Prim Unit
  | conf : Prim TraceConf
  | clock : Prim Int
  | newId : Prim (BitVec 64)
  | draw : Prim Nat
  | goid : Prim Int
  | panicText : Prim Bytes
  | enlist (txid : BitVec 64) (p : Nat) : Prim Unit
  | strike (txid : BitVec 64) : Prim Unit
  | sampler : Prim Sampler
  | meter (elapsed : Int) (isError : Bool) : Prim Unit

/-- What the code sees from `w` when it reads entry `w.tick` of an oracle; `Oracle` in `Model/Trace`.  keygen.go:31-36, library time. -/
def advance (w : World) : World := { w with tick := w.tick + 1 }

/-- What an access does: as the actions of the same names in `Model/Trace`.
tracecontext.go:13-86, dataproxy.go:52-212, udpsender.go:87-97, tctxmanager.go:39-68, xlogsampler.go:28-46, tracemain.go:389. -/
def Prim.exec {α : Type} : Prim α → World → α × World
  | .getT p, w => (w.tctxs[p]?, w)
  | .modT p f, w => ((), { w with tctxs := w.tctxs.modify p f })
  | .addT t, w => (w.tctxs.length, { w with tctxs := w.tctxs ++ [t] })
  | .traceOf c, w => (Trace.traceOf w c, w)
  | .newStep s, w => (w.steps.length, { w with steps := w.steps ++ [s] })
  | .getStep ptr, w => (w.steps[ptr]?, w)
  | .getSteps ptrs, w => (ptrs.map fun i => w.steps[i]?, w)
  | .modStep ptr f, w => ((), { w with steps := w.steps.modify ptr f })
  | .sendText k name, w => ((w.proxy.sendText k name).2, { w with proxy := (w.proxy.sendText k name).1 })
  | .sendDirect p, w => ((), { w with proxy := { w.proxy with direct := w.proxy.direct ++ [p] } })
  | .conf, w => (w.conf, w)
  | .clock, w => (w.env.clock w.tick, advance w)
  | .newId, w => (w.env.id w.tick, advance w)
  | .draw, w => (w.env.draw w.tick, advance w)
  | .goid, w => (w.env.goid w.tick, advance w)
  | .panicText, w => (w.env.panicText w.tick, advance w)
  | .enlist txid p, w => ((), { w with registry := w.registry.add txid (some p) })
  | .strike txid, w => ((), { w with registry := w.registry.remove txid })
  | .sampler, w =>
    match w.sampler with
    | some s => (s, w)
    | none => (Sampler.new w.conf.sample, { w with sampler := some (Sampler.new w.conf.sample) })
  | .meter e b, w => ((), { w with metered := w.metered ++ [(e, b)] })

/-- Code: a result, a panic under way, or an access and what follows it.  Go language. -/
inductive Prog (α : Type) : Type 1 where
  | pure (a : α)
  | panic
  | op {β : Type} (a : Prim β) (k : β → Prog α)

namespace Prog

/-- Sequencing.  Go language. -/
def bind {α β : Type} : Prog α → (α → Prog β) → Prog β
  | .pure a, f => f a
  | .panic, _ => .panic
  | .op a k, f => .op a fun b => (k b).bind f

instance : Monad Prog where
  pure := .pure
  bind := bind

/-- Code to go on with when there was a panic.  Go language (`recover`). -/
def orElse {α : Type} : Prog α → Prog α → Prog α
  | .pure a, _ => .pure a
  | .panic, h => h
  | .op a k, h => .op a fun b => (k b).orElse h

/-- The code run alone, from beginning to end.  Go language. -/
def seq {α : Type} : Prog α → TM α
  | .pure a, w => (.ok a, w)
  | .panic, w => (.panic, w)
  | .op a k, w => (k (a.exec w).1).seq (a.exec w).2

end Prog

/-! ## The code, as in `Model/Trace` -/

/-- `Trace.getT`.  Fields of tracecontext.go:13-78. -/
def getT (p : Nat) : Prog Tctx := .op (.getT p) fun | some t => .pure t | none => .panic
/-- `Trace.modT`.  Fields of tracecontext.go:13-78. -/
def modT (p : Nat) (f : Tctx → Tctx) : Prog Unit := .op (.modT p f) .pure
/-- A new trace context.  tracecontext.go:80-86. -/
def addT (t : Tctx) : Prog Nat := .op (.addT t) .pure
/-- `GetTraceContext`, tctxmanager.go:39-46. -/
def traceOf (c : Ctx) : Prog (Option Nat) := .op (.traceOf c) .pure
/-- `Trace.newStep`.  step.go:29-94. -/
def newStep (s : Step) : Prog Nat := .op (.newStep s) .pure
/-- `Trace.getStep`.  step.go:29-94. -/
def getStep (ptr : Nat) : Prog Step := .op (.getStep ptr) fun | some s => .pure s | none => .panic
/-- The steps at these positions.  dataproxy.go:233-248. -/
def getSteps (ptrs : List Nat) : Prog (List (Option Step)) := .op (.getSteps ptrs) .pure
/-- `Trace.modStep`.  methodstep.go:3-29, apicallstep.go:3-39. -/
def modStep (ptr : Nat) (f : Step → Step) : Prog Unit := .op (.modStep ptr f) .pure
/-- `Trace.sendText`.  dataproxy.go:52-207. -/
def sendText (k : TextKind) (name : Bytes) : Prog (BitVec 32) := .op (.sendText k name) .pure
/-- `SendPackDirect`, udpsender.go:87-97. -/
def sendDirect (p : Pack) : Prog Unit := .op (.sendDirect p) .pure
/-- The configuration.  configure.go:19-126. -/
def conf : Prog TraceConf := .op .conf .pure
/-- `time.Now`.  Library time; timeutil.go:25-27. -/
def clock : Prog Int := .op .clock .pure
/-- `keygen.Next`, keygen.go:31-36. -/
def newId : Prog (BitVec 64) := .op .newId .pure
/-- A random number.  xlogsampler.go:127-137. -/
def draw : Prog Nat := .op .draw .pure
/-- `Goid`, panic.go:25-35. -/
def goid : Prog Int := .op .goid .pure
/-- The text of a panic, panic.go:17-23. -/
def panicText : Prog Bytes := .op .panicText .pure
/-- `txidMap.Add`, tctxmanager.go:62-64. -/
def enlist (txid : BitVec 64) (p : Nat) : Prog Unit := .op (.enlist txid p) .pure
/-- `txidMap.Remove`, tctxmanager.go:66-68. -/
def strike (txid : BitVec 64) : Prog Unit := .op (.strike txid) .pure
/-- `GetXlogSampler`, xlogsampler.go:28-46. -/
def getSampler : Prog Sampler := .op .sampler .pure
/-- `ServiceMetering.Add(int(xlog.Elapsed), xlog.Error != 0)`, tracemain.go:389. -/
def meter (elapsed : Int) (isError : Bool) : Prog Unit := .op (.meter elapsed isError) .pure

/-- `SendAlert`, dataproxy.go:156-168. -/
def sendAlert (level : BitVec 8) (title message : Bytes) : Prog Unit := do
  if title = [] then return ()
  let cf ← conf
  sendDirect (.alert
    { time := 0, objType := cf.objType, objHash := cf.objHash, level := level, title := title,
      message := message, tags := [] })

/-- `defer common.ReportScouterPanic()` (panic.go:17-23), as `Trace.recovered`. -/
def recovered {α : Type} (dflt : α) (m : Prog α) : Prog α := m.orElse do
  let text ← panicText
  sendAlert 3 (ascii "Panic") text
  return dflt

/-- `MillisToNow`, timeutil.go:25-27. -/
def millisToNow (start : Int) : Prog (BitVec 32) := do
  let now ← clock
  return millis start now

/-! ## The profile of a context -/

/-- `sendProfile0`, dataproxy.go:233-248. -/
def sendProfile0 (p : Nat) (ptrs : List Nat) : Prog Unit := do
  if ptrs = [] then return ()
  let t ← getT p
  let cf ← conf
  let steps ← getSteps ptrs
  let profile := stepsToBytes steps
  let now ← clock
  modT p fun t => { t with
    profileCount := t.profileCount + ptrs.length
    profileSize := t.profileSize + profile.length
    sentSteps := t.sentSteps ++ ptrs }
  sendDirect (.profile
    { time := 0, objHash := cf.objHash, service := t.serviceHash, txid := t.txid,
      elapsed := millis t.startTime now, profile := profile })

/-- The calls of `sendProfile0` made by `SendProfile`, dataproxy.go:225-230. -/
def sendSlices (p : Nat) : List (List Nat) → Prog Unit
  | [] => pure ()
  | s :: ss => do sendProfile0 p s; sendSlices p ss

/-- `SendProfile`, dataproxy.go:214-231. -/
def sendProfile (p : Nat) (ptrs : List Nat) : Prog Unit := do
  let cf ← conf
  match profileSlices ptrs cf.bulk with
  | some slices => sendSlices p slices
  | none => Prog.panic

/-- `ProfileCollector.Process`, profilecollector.go:48-58. -/
def profileProcess (p ptr : Nat) : Prog Unit := do
  let t ← getT p
  let cf ← conf
  match t.col.process cf.keep ptr with
  | (c, .done) => modT p fun t => { t with col := c, recorded := t.recorded ++ [ptr] }
  | (c, .full o) => do
    modT p fun t => { t with col := c, recorded := t.recorded ++ [ptr] }
    sendProfile p o
  | (c, .panicked) => do
    modT p fun t => { t with col := c, recorded := t.recorded ++ [ptr] }
    Prog.panic

/-- `ProfileCollector.Push`, profilecollector.go:26-32. -/
def profilePush (p ptr : Nat) : Prog Unit := do
  let t ← getT p
  let s ← getStep ptr
  modStep ptr fun _ => (t.col.push s).2
  modT p fun t => { t with col := (t.col.push s).1 }

/-- `ProfileCollector.Pop`, profilecollector.go:34-38. -/
def profilePop (p ptr : Nat) : Prog Unit := do
  let s ← getStep ptr
  modT p fun t => { t with col := t.col.popParent s }
  profileProcess p ptr

/-- `ProfileCollector.Add`, profilecollector.go:40-46. -/
def profileAdd (p ptr : Nat) : Prog Unit := do
  let t ← getT p
  let s ← getStep ptr
  modStep ptr fun _ => (t.col.addNumber s).2
  modT p fun t => { t with col := (t.col.addNumber s).1 }
  profileProcess p ptr

/-- `ProfileCollector.Close`, profilecollector.go:60-65. -/
def profileClose (p : Nat) (ok : Bool) : Prog Unit := do
  let t ← getT p
  match t.col.close ok with
  | some o => sendProfile p o
  | none => pure ()

/-- `Profile.Add` of a freshly made step.  profilecollector.go:40-46. -/
def addNew (p : Nat) (startTime : BitVec 32) (body : StepBody) : Prog Unit := do
  let ptr ← newStep ⟨⟨0, 0, startTime⟩, body⟩
  profileAdd p ptr

/-! ## Starting and ending services -/

/-- The body of most functions: nothing for a nil context or one without a trace (e.g. tracemain.go:43-49). -/
def withTrace {α : Type} (c : Ctx) (dflt : α) (f : Nat → Prog α) : Prog α := do
  match ← traceOf c with
  | some p => f p
  | none => return dflt

/-- `NewTraceContext`, tracecontext.go:80-86 and tctxmanager.go:56-60: the position of the new context. -/
def newTraceContext : Prog Nat := do
  let txid ← newId
  let start ← clock
  let cf ← conf
  match Collector.new cf.keep with
  | none => Prog.panic
  | some col => addT { col := col, txid := txid, startTime := start }

/-- `tctxmanager.Start`, tctxmanager.go:62-64. -/
def register (p : Nat) : Prog Unit := do
  let t ← getT p
  enlist t.txid p

/-- `tctxmanager.End`, tctxmanager.go:66-68. -/
def unregister (p : Nat) : Prog Unit := do
  let t ← getT p
  strike t.txid

/-- `startService` on the context it made, tracemain.go:337-343 (`%d` of the goroutine id). -/
def startRest (p : Nat) (serviceName remoteAddr : Bytes) : Prog Unit := do
  modT p fun t => { t with gxid := t.txid }
  let g ← goid
  modT p fun t => { t with goid := g }
  addNew p 0 (.message (ascii "goroutine:" ++ formatInt 10 g))
  modT p fun t => { t with serviceName := serviceName }
  let h ← sendText .service serviceName
  modT p fun t => { t with serviceHash := h, remoteIp := normalizeIp remoteAddr }

/-- `startService`, tracemain.go:333-345. -/
def startService (serviceName remoteAddr : Bytes) : Prog Nat := do
  let p ← newTraceContext
  register p
  startRest p serviceName remoteAddr
  return p

/-- `findXLogDiscard`, tracemain.go:400-415 (the draw is taken even if it is not needed). -/
def findXLogDiscard (t : Tctx) (elapsed : BitVec 32) : Prog (BitVec 8) := do
  let s ← getSampler
  let cf ← conf
  let d ← draw
  return s.findDiscard cf.sample d t.error elapsed t.serviceName

/-- `SendLogin`/`SendDesc` if the text is set, tracecontext.go:125-130. -/
def sendIfSet (k : TextKind) (name : Bytes) : Prog (BitVec 32) := do
  if name = [] then return 0
  sendText k name

/-- `ToXlog`, tracecontext.go:98-138. -/
def toXlog (t : Tctx) (discard : BitVec 8) (elapsed : BitVec 32) : Prog XlogPack := do
  let threadName ← sendText .hashMessage (formatInt 10 t.gxid.toInt)
  let login ← sendIfSet .login t.login
  let desc ← sendIfSet .desc t.desc
  return { XlogPack.new with
    elapsed := elapsed, service := t.serviceHash, xType := t.xType, txid := t.txid, gxid := t.gxid, caller := t.caller
    threadNameHash := threadName, sqlCount := t.sqlCount, sqlTime := t.sqlTime, ipaddr := ipToBytes t.remoteIp
    userid := t.userid, hasDump := 0, error := t.error, status := t.status, discardType := discard
    profileSize := BitVec.ofNat 32 t.profileSize, profileCount := BitVec.ofNat 32 t.profileCount
    userAgent := t.userAgent, referer := t.referer, apicallCount := t.apicallCount, apicallTime := t.apicallTime
    login := login, desc := desc, text1 := t.text1, text2 := t.text2, text3 := t.text3, text4 := t.text4
    text5 := t.text5 }

/-- `SendXlog`, dataproxy.go:209-212. -/
def sendXlog (x : XlogPack) : Prog Unit := do
  let cf ← conf
  sendDirect (.xlog { x with objHash := cf.objHash })

/-- `endAnyServiceOfTraceContext` after the test of the flag, tracemain.go:377-398. -/
def endRest (p : Nat) : Prog Unit := do
  modT p fun t => { t with closed := true }
  let t ← getT p
  let h ← sendText .service t.serviceName
  modT p fun t => { t with serviceHash := h }
  unregister p
  let t ← getT p
  let elapsed ← millisToNow t.startTime
  let discard ← findXLogDiscard t elapsed
  let xlog ← toXlog t discard elapsed
  profileClose p (discard == discardNone)
  meter xlog.elapsed.toInt (xlog.error != 0)
  if keepsXlog xlog then sendXlog xlog else pure ()

/-- `endAnyServiceOfTraceContext`, tracemain.go:373-398. -/
def endTctx (p : Nat) : Prog Unit := do
  let t ← getT p
  if t.closed then return () else endRest p

/-- `endAnyService`, tracemain.go:347-356. -/
def endAnyService (c : Ctx) : Prog Unit :=
  withTrace c () fun p => do
    let t ← getT p
    if t.closed then return () else endTctx p

/-! ## The API -/

/-- `IsStream`, tracemain.go:29-39. -/
def isStream (c : Ctx) : Prog Bool := recovered false <| withTrace c false fun p => do
  let t ← getT p
  return t.isStream

/-- `SetAsStream`, tracemain.go:41-52. -/
def setAsStream (c : Ctx) : Prog Bool := recovered false <| withTrace c false fun p => do
  modT p fun t => { t with isStream := true }
  return true

/-- `AddPMessageStep`, tracemain.go:136-151. -/
def addPMessageStep (c : Ctx) (level : BitVec 8) (message : Bytes) (elapsed : BitVec 32) (params : List Bytes) :
    Prog Unit := recovered () <| withTrace c () fun p => do
  let t ← getT p
  let now ← millisToNow t.startTime
  let h ← sendText .hashMessage message
  addNew p now (.pmessage h elapsed level (paramString params))

/-- `MarkAsError`, tracemain.go:54-67. -/
def markAsError (c : Ctx) (message : Bytes) : Prog Unit := recovered () <| withTrace c () fun p => do
  let t ← getT p
  if t.error = 0 then do
    let e ← sendText .error message
    modT p fun t => { t with error := e }
  else pure ()
  addPMessageStep c 3 message 0 []

/-- `MarkAsErrorForcibly`, tracemain.go:69-79. -/
def markAsErrorForcibly (c : Ctx) (message : Bytes) : Prog Unit := recovered () <| withTrace c () fun p => do
  let e ← sendText .error message
  modT p fun t => { t with error := e }

/-- `SetServiceNameForcibly`, tracemain.go:81-92. -/
def setServiceNameForcibly (c : Ctx) (name : Bytes) : Prog Unit := recovered () <| withTrace c () fun p => do
  modT p fun t => { t with serviceName := name }
  let h ← sendText .service name
  modT p fun t => { t with serviceHash := h }

/-- `AddStep`, tracemain.go:94-104; `ptr` is a step made by the caller, `none` is nil (which panics). -/
def addStep (c : Ctx) (ptr : Option Nat) : Prog Unit := recovered () <| withTrace c () fun p =>
  match ptr with
  | some ptr => profileAdd p ptr
  | none => Prog.panic

/-- `AddMessageStep`, tracemain.go:106-118. -/
def addMessageStep (c : Ctx) (message : Bytes) : Prog Unit := recovered () <| withTrace c () fun p => do
  let t ← getT p
  let now ← millisToNow t.startTime
  addNew p now (.message message)

/-- `AddHashedMessageStep`, tracemain.go:120-134. -/
def addHashedMessageStep (c : Ctx) (message : Bytes) (value elapsed : BitVec 32) : Prog Unit :=
  recovered () <| withTrace c () fun p => do
    let t ← getT p
    let h ← sendText .hashMessage message
    let now ← millisToNow t.startTime
    addNew p now (.hashed h elapsed value)

/-- Message steps added one after the other.  tracemain.go:500-524. -/
def addMessages (p : Nat) (startTime : BitVec 32) : List Bytes → Prog Unit
  | [] => pure ()
  | m :: ms => do addNew p startTime (.message m); addMessages p startTime ms

/-- `profileHttpHeaders`, tracemain.go:500-524. -/
def profileHttpHeaders (r : Request) (p : Nat) : Prog Unit := do
  let t ← getT p
  let start ← millisToNow t.startTime
  let cf ← conf
  addMessages p start (headerMessages cf r)
  let cf ← conf
  if cf.queryEnabled then addNew p start (.message (ascii "query: " ++ r.rawQuery)) else pure ()

/-- `StartHttpService` after `startService`, tracemain.go:169-173. -/
def startHttpRest (r : Request) (p : Nat) : Prog Unit := do
  modT p fun t => { t with xType := 0 }
  let ua ← sendText .userAgent (r.header (ascii "User-Agent"))
  modT p fun t => { t with userAgent := ua, httpMethod := r.method }
  let rf ← sendText .referer (r.header (ascii "Referer"))
  modT p fun t => { t with referer := rf }
  profileHttpHeaders r p

/-- `StartHttpService`, tracemain.go:153-176.  The named result is nil until `startService` has returned; `r = none` is
a nil request, which panics. -/
def startHttpService (c : Ctx) (r : Option Request) : Prog Ctx :=
  if c = .nil then pure .plain
  else do
    match ← traceOf c with
    | some _ => return c
    | none => do
      let cf ← conf
      let p? ← recovered none (do
        match r with
        | none => Prog.panic
        | some r =>
          let p ← startService (r.path ++ ascii "<" ++ r.method ++ ascii ">") (getRemoteIp cf r)
          return some p)
      match p?, r with
      | some p, some r => recovered (Ctx.traced p) (do startHttpRest r p; return Ctx.traced p)
      | _, _ => return .nil

/-- `StartService`, tracemain.go:211-223. -/
def startServiceApi (c : Ctx) (name remoteIp : Bytes) : Prog Ctx := do
  match ← traceOf c with
  | some _ => return c
  | none => recovered Ctx.nil (do
      let p ← startService name remoteIp
      modT p fun t => { t with xType := 1 }
      return .traced p)

/-- `EndHttpService`, tracemain.go:194-209; `status` is the response's status code, if there is a response. -/
def endHttpService (c : Ctx) (status : Option (BitVec 32)) : Prog Unit := recovered () do
  match status with
  | some code =>
    withTrace c () fun p => do
      let t ← getT p
      if t.closed then return () else do
        modT p fun t => { t with status := code }
        endAnyService c
  | none => endAnyService c

/-- `EndService`, tracemain.go:225-228, and `endChildGoroutineService`, :328-331. -/
def endService (c : Ctx) : Prog Unit := recovered () (endAnyService c)

/-- `inheritTctx`, tracemain.go:242-282. -/
def inheritTctx (p parent : Nat) : Prog Unit := do
  let q ← getT parent
  modT p fun t => { t with inherit := true, gxid := q.gxid, xType := q.xType }
  addNew p 0 (.message (ascii "scouter inheritance step"))
  let q ← getT parent
  let cf ← conf
  modT p fun t => { t with
    isStream := q.isStream, error := q.error, httpMethod := q.httpMethod, sqlCount := q.sqlCount
    sqlTime := q.sqlTime, apicallCount := q.apicallCount, apicallTime := q.apicallTime, userid := q.userid
    userAgent := q.userAgent, referer := q.referer, isChildTx := true, caller := q.txid
    callerObjHash := cf.objHash, login := q.login, desc := q.desc, text1 := q.text1, text2 := q.text2
    text3 := q.text3, text4 := q.text4, text5 := q.text5 }

/-- `StartNewInheritanceService`, tracemain.go:230-240; the parent is a trace context (`none`: nil, which panics).
The named results stay nil until `startService` has returned. -/
def startInheritance (parent : Option Nat) : Prog Ctx := do
  let p? ← recovered none (do
    match parent with
    | none => Prog.panic
    | some q =>
      let t ← getT q
      let p ← startService t.serviceName t.remoteIp
      return some p)
  match p?, parent with
  | some p, some q => recovered (Ctx.traced p) (do inheritTctx p q; return Ctx.traced p)
  | _, _ => return .nil

/-- `startChildGoroutineService`, tracemain.go:301-326. -/
def startChild (c : Ctx) (name : Bytes) : Prog Ctx := withTrace c c fun q => do
  let parent ← getT q
  let p ← startService name parent.remoteIp
  let parent ← getT q
  modT p fun t => { t with xType := 4, caller := parent.txid, gxid := parent.gxid }
  if parent.gxid = 0 then do
    modT p fun t => { t with gxid := parent.txid }
    modT q fun t => { t with gxid := t.txid }
  else pure ()
  let child ← getT p
  let now ← millisToNow parent.startTime
  let h ← sendText .apicall name
  addNew q now (.async child.txid h 0)
  return .traced p

/-- `GoWithTrace`, tracemain.go:289-299, up to the `go` statement: the context the goroutine gets, `none` when a panic
was recovered and no goroutine is started (the caller's function then never runs). -/
def goWithTrace (c : Ctx) (name : Bytes) : Prog (Option Ctx) := recovered none (do
  let c ← startChild c name
  return some c)

/-- The first statement of the goroutine, tracemain.go:293-295. -/
def goBegin (c : Ctx) : Prog Unit := withTrace c () fun p => do
  let now ← clock
  modT p fun t => { t with startTime := now }

/-- The loop of `addMessageStepIfParamExist`, tracemain.go:472-484; a parameter is its `%v` text, `none` a nil one. -/
def addParams (p : Nat) : List (Option Bytes) → Prog Unit
  | [] => pure ()
  | none :: ps => addParams p ps
  | some s :: ps => do
    let t ← getT p
    let _ ← millisToNow t.startTime
    let now ← millisToNow t.startTime
    addNew p now (.message (ascii "param: " ++ s))
    addParams p ps

/-- `startMethodWithParam0`, tracemain.go:461-470: the new step. -/
def startMethod0 (p : Nat) (funcName methodName : Bytes) (params : List (Option Bytes)) : Prog Nat := do
  addParams p params
  modT p fun t => { t with lastMethod := funcName }
  let h ← sendText .method methodName
  let t ← getT p
  let now ← millisToNow t.startTime
  let ptr ← newStep ⟨⟨0, 0, now⟩, .method h 0 0⟩
  profilePush p ptr
  return ptr

/-- `StartCustomMethod`, tracemain.go:427-429, and `StartCustomMethodWithParam`, :431-442. -/
def startCustomMethod (c : Ctx) (name : Bytes) (params : List (Option Bytes)) : Prog (Option Nat) :=
  recovered none <| withTrace c none fun p => do
    let ptr ← startMethod0 p name name params
    return some ptr

/-- `StartMethod`, tracemain.go:417-420, and `StartMethodWithParam`, :422-425 (with `startMethodWithParam`, :444-459);
`funcName` is the caller's function name as the runtime reports it. -/
def startMethod (c : Ctx) (funcName : Bytes) (params : List (Option Bytes)) : Prog (Option Nat) :=
  recovered none <| withTrace c none fun p => do
    let ptr ← startMethod0 p funcName (methodNameOf funcName) params
    return some ptr

/-- `EndMethod`, tracemain.go:486-498; `none` is a nil step. -/
def endMethod (c : Ctx) (ptr : Option Nat) : Prog Unit := recovered () <|
  match ptr with
  | none => pure ()
  | some ptr => withTrace c () fun p => do
    let t ← getT p
    let s ← getStep ptr
    let now ← millisToNow t.startTime
    modStep ptr (setElapsed (now - s.ss.startTime))
    profilePop p ptr

/-- `startApiCall`, tracemain.go:568-580. -/
def startApiCall0 (p : Nat) (name address : Bytes) : Prog Nat := do
  let h ← sendText .apicall name
  let t ← getT p
  let now ← millisToNow t.startTime
  let txid ← newId
  let ptr ← newStep ⟨⟨0, 0, now⟩, .apicall txid h 0 0 0 (if address ≠ [] then 1 else 0) address⟩
  profilePush p ptr
  return ptr

/-- `StartApiCall`, tracemain.go:526-537. -/
def startApiCall (c : Ctx) (name address : Bytes) : Prog (Option Nat) :=
  recovered none <| withTrace c none fun p => do
    let ptr ← startApiCall0 p name address
    return some ptr

/-- `StartApiCallWithPropagation`, tracemain.go:544-566: the step and the headers added to the outgoing request
(`hasReq` says whether there is one). -/
def startApiCallProp (c : Ctx) (name address : Bytes) (hasReq : Bool) :
    Prog (Option Nat × List (Bytes × Bytes)) :=
  recovered (none, []) <| withTrace c (none, []) fun p => do
    let ptr ← startApiCall0 p name address
    let t ← getT p
    if t.gxid = 0 then modT p fun t => { t with gxid := t.txid } else pure ()
    let t ← getT p
    let s ← getStep ptr
    let cf ← conf
    return (some ptr, if hasReq then
      [(ascii "X-Scouter-Gxid", intToXlogString32 t.gxid),
       (ascii "X-Scouter-Caller", intToXlogString32 t.txid),
       (ascii "X-Scouter-Callee", intToXlogString32 (stepTxid s)),
       (ascii "X-Scouter-Caller-Obj", formatInt 10 cf.objHash.toInt)] else [])

/-- `EndApiCall`, tracemain.go:583-603; `err` is the text of the error, if any. -/
def endApiCall (c : Ctx) (ptr : Option Nat) (err : Option Bytes) : Prog Unit := recovered () <|
  match ptr with
  | none => pure ()
  | some ptr => withTrace c () fun p => do
    let t ← getT p
    let s ← getStep ptr
    let now ← millisToNow t.startTime
    let elapsed := now - s.ss.startTime
    modStep ptr (setElapsed elapsed)
    modT p fun t => { t with apicallCount := t.apicallCount + 1, apicallTime := t.apicallTime + elapsed }
    match err with
    | some message => do
      let e ← sendText .error message
      modStep ptr (setStepError e)
      modT p fun t => { t with error := if t.error = 0 then e else t.error }
    | none => pure ()
    profilePop p ptr

/-! ## Goroutines -/

/-- The accesses of a call; the calls that are not a goroutine's own (see `own`) have none.  tracemain.go:24-604. -/
def code : Call → Prog Unit
  | .isStream c => do let _ ← isStream c
  | .setAsStream c => do let _ ← setAsStream c
  | .markAsError c m => markAsError c m
  | .markAsErrorForcibly c m => markAsErrorForcibly c m
  | .setServiceName c n => setServiceNameForcibly c n
  | .addStep c p => addStep c p
  | .addMessageStep c m => addMessageStep c m
  | .addHashedMessageStep c m v e => addHashedMessageStep c m v e
  | .addPMessageStep c l m e ps => addPMessageStep c l m e ps
  | .startHttpService c r => do let _ ← startHttpService c r
  | .endHttpService c s => endHttpService c s
  | .startService c n ip => do let _ ← startServiceApi c n ip
  | .endService c => endService c
  | .startInheritance q => do let _ ← startInheritance q
  | .goWithTrace c n => do let _ ← goWithTrace c n
  | .goBegin c => goBegin c
  | .startMethod c f ps => do let _ ← startMethod c f ps
  | .startCustomMethod c n ps => do let _ ← startCustomMethod c n ps
  | .endMethod c p => endMethod c p
  | .startApiCall c n a => do let _ ← startApiCall c n a
  | .startApiCallProp c n a r => do let _ ← startApiCallProp c n a r
  | .endApiCall c p e => endApiCall c p e
  | .makeStep s => do let _ ← newStep s
  | .setFields p l d t1 t2 t3 t4 t5 => modT p fun t =>
      { t with login := l, desc := d, text1 := t1, text2 := t2, text3 := t3, text4 := t4, text5 := t5 }
  | .activeCount _ => pure ()
  | .conf _ => pure ()
  | .samplerRun => pure ()
  | .resetTexts _ => pure ()
  | .queue _ => pure ()

/-- A call made by the application's goroutines, touching contexts of its own only.  (`GetActiveCount`, tctxmanager.go:74-106, looks at all
of them and is called by the agent's counter goroutine.)  tracemain.go:24-604. -/
def own : Call → Bool
  | .activeCount _ => false
  | .conf _ => false
  | .samplerRun => false
  | .resetTexts _ => false
  | .queue _ => false
  | _ => true

/-- The accesses of calls made one after the other.  Model only: user code making calls of tracemain.go:24-604. -/
def codes : List Call → Prog Unit
  | [] => .pure ()
  | c :: cs => ((code c).orElse (.pure ())).bind fun _ => codes cs

/-- A goroutine: what it has still to do, its trace contexts and steps; and (ghosts) the readings it took of clock and generators, the packs it
sent, what it counted, and the table of running services if it were the only one to use it and it had no bound.  Go language; tracecontext.go:13-78. -/
structure Goroutine where
  todo : Prog Unit
  tctxs : List Tctx := []
  steps : List Step := []
  ticks : List Nat := []
  sent : List Pack := []
  counted : List (Int × Bool) := []
  mine : Cache (BitVec 64) Nat := Cache.new 0 false

/-- The program: what is shared (a `World` whose contexts and steps are not used) and the goroutines.  Go language. -/
structure State where
  shared : World
  gs : List Goroutine

/-- Something happening: a goroutine makes its next access, the collector has the text caches forgotten, or the sending goroutine works on the queue.
Model only: the Go scheduler; dataproxy.go:28-40, udpsender.go:105-122. -/
inductive Turn where
  | go (i : Nat)
  | reset (o : MapOrder (BitVec 32 × Nat))
  | queue (s : Sender.State)

/-- The shared state as the goroutine sees it, with its own contexts and steps.  Go language. -/
def view (w : World) (g : Goroutine) : World := { w with tctxs := g.tctxs, steps := g.steps }

/-- What an access does to the table of running services.  tctxmanager.go:62-68. -/
def Prim.table {α : Type} : Prim α → Cache (BitVec 64) Nat → Cache (BitVec 64) Nat
  | .enlist txid p, r => r.add txid (some p)
  | .strike txid, r => r.remove txid
  | _, r => r

/-- The goroutine after an access that left the world `w'`.  Model only: the ghosts of tracemain.go:24-604. -/
def Goroutine.after (g : Goroutine) {α : Type} (a : Prim α) (w w' : World) (todo : Prog Unit) : Goroutine where
  todo := todo
  tctxs := w'.tctxs
  steps := w'.steps
  ticks := g.ticks ++ List.range' w.tick (w'.tick - w.tick)
  sent := g.sent ++ w'.proxy.direct.drop w.proxy.direct.length
  counted := g.counted ++ w'.metered.drop w.metered.length
  mine := a.table g.mine

/-- One turn.  Model only: the Go scheduler; dataproxy.go:28-40, udpsender.go:105-122. -/
def State.turn (s : State) : Turn → State
  | .go i =>
    match s.gs[i]? with
    | none => s
    | some g =>
      match g.todo with
      | .op a k =>
        let r := a.exec (view s.shared g)
        { shared := r.2, gs := s.gs.set i (g.after a s.shared r.2 (k r.1)) }
      | _ => s
  | .reset o => { s with shared := { s.shared with proxy := s.shared.proxy.resetTextSent o } }
  | .queue q => { s with shared := { s.shared with proxy := { s.shared.proxy with sender := q } } }

/-- A schedule.  Model only: the Go scheduler between accesses of tracemain.go:24-604. -/
def State.run (s : State) (ts : List Turn) : State := ts.foldl State.turn s

/-- Goroutines about to make these calls, each its own.  Model only: user code. agent.go:14-39 was run. -/
def State.start (env : Oracle) (conf : TraceConf) (cap : Nat) (css : List (List Call)) : State :=
  { shared := Trace.start env conf cap, gs := css.map fun cs => { todo := codes cs } }

end Stepwise
end Scouter
