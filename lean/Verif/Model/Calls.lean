import Verif.Model.Trace
/-!
# The active-service count, and histories of calls of the tracing API
-/
namespace Scouter
namespace Trace
open TM

/-- `elapsed` of tctxmanager.go:87. -/
def activeElapsed (now start : Int) : Int := (now - start).tdiv 1000000

/-- The alert text of tctxmanager.go:97; the format has one verb more than arguments. -/
def stuckMessage (t : Tctx) (elapsed : Int) : Bytes :=
  ascii "service: " ++ t.serviceName ++ ascii ", elapsed: " ++ formatInt 10 elapsed ++ ascii ", goId: " ++
    formatInt 10 t.goid ++ ascii ", tctxGoId: %!d(MISSING)"

/-- The loop of `GetActiveCount`, tctxmanager.go:81-104, over the remaining values, with `count` and `active`. -/
def activeLoop (now : Int) : List Nat → Nat → Nat × Nat × Nat → TM (Nat × Nat × Nat)
  | [], _, active => pure active
  | p :: ps, count, active =>
    if count + 1 > 2000 then pure active
    else do
      let t ← getT p
      let w ← get
      let elapsed := activeElapsed now t.startTime
      let active :=
        if elapsed ≤ w.conf.yellow then (active.1 + 1, active.2.1, active.2.2)
        else if elapsed ≤ w.conf.red then (active.1, active.2.1 + 1, active.2.2)
        else (active.1, active.2.1, active.2.2 + 1)
      if elapsed > w.conf.stuckBase then do
        endStuck p
        let t ← getT p
        let w ← get
        sendAlert (if w.conf.stuckAlert then 2 else 1) (ascii "STUCK_SERVICE") (stuckMessage t elapsed)
      else pure ()
      activeLoop now ps (count + 1) active

/-- `GetActiveCount`, tctxmanager.go:74-106; `o` is the iteration order of the registry's map.
`RegisterEndStuckServiceForciblyFunc` was called (tracemain.go:24). -/
def getActiveCount (o : MapOrder (BitVec 64 × Nat)) : TM (Nat × Nat × Nat) := do
  let w ← get
  let values := w.registry.getValues o
  let now ← reading (·.clock)
  activeLoop now values 0 (0, 0, 0)

/-- A call by the application or the agent, or something happening around it: a changed configuration, the sampler
being notified (xlogsampler.go:48), a forgotten text cache (`ResetTextSent`), the sending goroutine at work on the
queue, a step made or fields of a trace context set by the application. -/
inductive Call where
  | isStream (c : Ctx)
  | setAsStream (c : Ctx)
  | markAsError (c : Ctx) (message : Bytes)
  | markAsErrorForcibly (c : Ctx) (message : Bytes)
  | setServiceName (c : Ctx) (name : Bytes)
  | addStep (c : Ctx) (ptr : Option Nat)
  | addMessageStep (c : Ctx) (message : Bytes)
  | addHashedMessageStep (c : Ctx) (message : Bytes) (value elapsed : BitVec 32)
  | addPMessageStep (c : Ctx) (level : BitVec 8) (message : Bytes) (elapsed : BitVec 32) (params : List Bytes)
  | startHttpService (c : Ctx) (r : Option Request)
  | endHttpService (c : Ctx) (status : Option (BitVec 32))
  | startService (c : Ctx) (name remoteIp : Bytes)
  | endService (c : Ctx)
  | startInheritance (parent : Option Nat)
  | goWithTrace (c : Ctx) (name : Bytes)
  | goBegin (c : Ctx)
  | startMethod (c : Ctx) (funcName : Bytes) (params : List (Option Bytes))
  | startCustomMethod (c : Ctx) (name : Bytes) (params : List (Option Bytes))
  | endMethod (c : Ctx) (ptr : Option Nat)
  | startApiCall (c : Ctx) (name address : Bytes)
  | startApiCallProp (c : Ctx) (name address : Bytes) (hasReq : Bool)
  | endApiCall (c : Ctx) (ptr : Option Nat) (err : Option Bytes)
  | activeCount (o : MapOrder (BitVec 64 × Nat))
  | makeStep (s : Step)
  | setFields (p : Nat) (login desc text1 text2 text3 text4 text5 : Bytes)
  | conf (c : TraceConf)
  | samplerRun
  | resetTexts (o : MapOrder (BitVec 32 × Nat))
  | queue (s : Sender.State)

/-- The code of a call, results dropped.  tracemain.go:24-604. -/
def Call.code : Call → TM Unit
  | .isStream c => do let _ ← Trace.isStream c
  | .setAsStream c => do let _ ← Trace.setAsStream c
  | .markAsError c m => Trace.markAsError c m
  | .markAsErrorForcibly c m => Trace.markAsErrorForcibly c m
  | .setServiceName c n => Trace.setServiceNameForcibly c n
  | .addStep c p => Trace.addStep c p
  | .addMessageStep c m => Trace.addMessageStep c m
  | .addHashedMessageStep c m v e => Trace.addHashedMessageStep c m v e
  | .addPMessageStep c l m e ps => Trace.addPMessageStep c l m e ps
  | .startHttpService c r => do let _ ← Trace.startHttpService c r
  | .endHttpService c s => Trace.endHttpService c s
  | .startService c n ip => do let _ ← Trace.startServiceApi c n ip
  | .endService c => Trace.endService c
  | .startInheritance q => do let _ ← Trace.startInheritance q
  | .goWithTrace c n => do let _ ← Trace.goWithTrace c n
  | .goBegin c => Trace.goBegin c
  | .startMethod c f ps => do let _ ← Trace.startMethod c f ps
  | .startCustomMethod c n ps => do let _ ← Trace.startCustomMethod c n ps
  | .endMethod c p => Trace.endMethod c p
  | .startApiCall c n a => do let _ ← Trace.startApiCall c n a
  | .startApiCallProp c n a r => do let _ ← Trace.startApiCallProp c n a r
  | .endApiCall c p e => Trace.endApiCall c p e
  | .activeCount o => do let _ ← Trace.getActiveCount o
  | .makeStep s => do let _ ← newStep s
  | .setFields p l d t1 t2 t3 t4 t5 => modT p fun t =>
      { t with login := l, desc := d, text1 := t1, text2 := t2, text3 := t3, text4 := t4, text5 := t5 }
  | .conf c => modify fun w => { w with conf := c }
  | .samplerRun => modify fun w => { w with sampler := w.sampler.map (·.run w.conf.sample) }
  | .resetTexts o => modify fun w => { w with proxy := w.proxy.resetTextSent o }
  | .queue s => modify fun w => { w with proxy := { w.proxy with sender := s } }

/-- The world after one call.  Model only: a call of tracemain.go:24-604 by user code, whose result it keeps. -/
def perform (w : World) (c : Call) : World := (c.code w).2

/-- The world after a history of calls.
   Model only: user code making calls of tracemain.go:24-604 one after the other. -/
def history (w : World) (cs : List Call) : World := cs.foldl perform w

/-- The world at start.  The package variables as initialised: tctxmanager.go:15-20, dataproxy.go:14-26. -/
def start (env : Oracle) (conf : TraceConf) (cap : Nat) : World :=
  { env := env, conf := conf, proxy := Proxy.init cap }

end Trace
end Scouter
