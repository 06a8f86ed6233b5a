import Verif.Spec.Services
import Mathlib.Data.List.DropRight
/-!
# What a call that records profile steps does

The ghosts `recorded` and `sentSteps` of a context list the steps recorded for the service, and those of them put into
profile packs already; `Verif.Props.Ending` shows that the latter become the former when the service ends.
-/
namespace Scouter

/-- A context without the bookkeeping of its profile. -/
def Tctx.sansProfile (t : Tctx) : Tctx :=
  { t with col := { cap := 0 }, profileCount := 0, profileSize := 0, recorded := [], sentSteps := [] }

/-- What sending texts one after the other does (`C32` says which of them are announced). -/
def announcing (texts : List (TextKind × Bytes)) (p : Proxy) : Proxy := p.run (texts.map fun x => .send x.1 x.2)

/-- Profile packs of one service, one per slice of its steps; `services` are the service hashes they may name (the one
before and the one after, for a call that names the service), and the elapsed times are left open. -/
def Carrying (w : World) (txid : BitVec 64) (services : List (BitVec 32)) (slices : List (List Nat)) (packs : List Pack) : Prop :=
  List.Forall₂ (fun s pk => ∃ e, ∃ h ∈ services, pk = Pack.profile
    { time := 0, objHash := w.conf.objHash, service := h, txid := txid, elapsed := e,
      profile := stepsToBytes (s.map (fun i => w.steps[i]?)) }) slices packs

/-- A call about the service at `p` took the world from `w` to `w'` and the service's context from `t` to `t'`: `texts`
were sent, `n` steps were numbered, the steps in memory are now `heap`, `recorded` were added to the service's profile,
and later steps are numbered on from there with `parent` as the step they belong to.  The context changed as `change` says, no other context changed,
nothing was logged or metered, and the packs sent are profile packs of this service carrying, in order and in full, the
steps that left the buffer. -/
structure Wrote (p : Nat) (t t' : Tctx) (change : Tctx → Tctx) (texts : List (TextKind × Bytes)) (n : Nat)
    (heap : List Step) (recorded : List Nat) (parent : BitVec 32) (w w' : World) : Prop where
  env : w'.env = w.env
  conf : w'.conf = w.conf
  tick : w.tick ≤ w'.tick
  metered : w'.metered = w.metered
  registry : w'.registry = w.registry
  sampler : w'.sampler = w.sampler
  steps : w'.steps = heap
  tctxs : w'.tctxs = w.tctxs.set p t'
  fields : t'.sansProfile = (change t).sansProfile
  level : t'.col.currentLevel = t.col.currentLevel + BitVec.ofNat 32 n
  parentLevel : t'.col.parentLevel = parent
  recorded : t'.recorded = t.recorded ++ recorded
  sent : ∃ slices packs, t'.sentSteps = t.sentSteps ++ slices.flatten ∧
    w'.proxy = { announcing texts w.proxy with direct := w.proxy.direct ++ packs } ∧
    Carrying w' t.txid [t.serviceHash, t'.serviceHash] slices packs ∧
    ∀ i ∈ slices.flatten, i < w'.steps.length

/-- The time since the service's start, in milliseconds, when the clock is read next. -/
def sinceStart (w : World) (t : Tctx) : BitVec 32 := Trace.millis t.startTime (w.env.clock w.tick)

/-- `s` is a time since the service's start read from the clock between `w` and `w'`. -/
def ReadDuring (t : Tctx) (w w' : World) (s : BitVec 32) : Prop :=
  ∃ k, w.tick ≤ k ∧ k < w'.tick ∧ s = Trace.millis t.startTime (w.env.clock k)

/-- The `n`-th step made for the service from now on, when it is begun `start` milliseconds after the service. -/
def stepAt (t : Tctx) (n : Nat) (start : BitVec 32) (body : StepBody) : Step :=
  ⟨⟨t.col.parentLevel, t.col.currentLevel + BitVec.ofNat 32 n, start⟩, body⟩

/-- Steps made for the service one after the other, the first of them the `n`-th from now on. -/
def stepsAt (t : Tctx) : Nat → List (BitVec 32 × StepBody) → List Step
  | _, [] => []
  | n, x :: xs => stepAt t n x.1 x.2 :: stepsAt t (n + 1) xs

/-- What ending an api call leaves of the context. -/
def afterApiCall (elapsed : BitVec 32) (err : Option Bytes) (t : Tctx) : Tctx :=
  { t with
    apicallCount := t.apicallCount + 1
    apicallTime := t.apicallTime + elapsed
    error := match err with
      | some m => if t.error = 0 then textHash m else t.error
      | none => t.error }

/-- The group a service belongs to: its own when it has none yet. -/
def groupOf (t : Tctx) : BitVec 64 := if t.gxid = 0 then t.txid else t.gxid

/-- The headers that tell the called server whose call it is: group, caller, callee, calling object. -/
def propagated (w : World) (t : Tctx) (callee : BitVec 64) : List (Bytes × Bytes) :=
  [(ascii "X-Scouter-Gxid", intToXlogString32 (groupOf t)),
   (ascii "X-Scouter-Caller", intToXlogString32 t.txid),
   (ascii "X-Scouter-Callee", intToXlogString32 callee),
   (ascii "X-Scouter-Caller-Obj", formatInt 10 w.conf.objHash.toInt)]

/-- A trace context as it is made: a new id, begun now, everything else empty. -/
def newborn (w : World) : Tctx :=
  { col := { cap := w.conf.keep.toNat }, txid := w.env.id w.tick, startTime := w.env.clock (w.tick + 1) }

/-- The world in which a service has just been begun: one more context, known to be active. -/
def begun (w : World) : World :=
  { w with
    tick := w.tick + 2
    tctxs := w.tctxs ++ [newborn w]
    registry := w.registry.add (newborn w).txid (some w.tctxs.length) }

/-- The text up to the first colon. -/
def beforeColon (s : Bytes) : Bytes := s.takeWhile (· ≠ 58)

/-- The step every service begins with, naming its goroutine. -/
def goroutineStep (w : World) : BitVec 32 × StepBody := (0, .message (ascii "goroutine:" ++ formatInt 10 (w.env.goid (w.tick + 2))))

/-- What every start of a service gives its context. -/
def named (w : World) (name remoteAddr : Bytes) (t : Tctx) : Tctx :=
  { t with
    gxid := t.txid, goid := w.env.goid (w.tick + 2), serviceName := name, serviceHash := textHash name
    remoteIp := beforeColon remoteAddr }

/-- The name of an http service. -/
def httpName (r : Trace.Request) : Bytes := r.path ++ ascii "<" ++ r.method ++ ascii ">"

/-- Where a request comes from: the configured header when one is configured and the request has it, the connection
otherwise. -/
def clientAddress (conf : TraceConf) (r : Trace.Request) : Bytes :=
  if conf.ipHeaderKey = [] ∨ r.header conf.ipHeaderKey = [] then r.remoteAddr else r.header conf.ipHeaderKey

/-- A text without the blanks (space, tab, line breaks) around it. -/
def trimmed (s : Bytes) : Bytes := (s.dropWhile (· ∈ [9, 10, 11, 12, 13, 32])).rdropWhile (· ∈ [9, 10, 11, 12, 13, 32])

/-- The step text for a header: its values separated by commas. -/
def headerLine (shown : Bytes) (values : List Bytes) : Bytes := ascii "header: " ++ shown ++ ascii ": " ++ [44].intercalate values

/-- The texts of the steps that describe a request: those of the configured headers it has (of all its headers when none
is configured), and its query. -/
def requestLines (conf : TraceConf) (r : Trace.Request) : List Bytes :=
  (if conf.headerEnabled then
    if conf.headerKeys = [] then r.headers.map fun h => headerLine h.1 h.2
    else ((splitByte 44 conf.headerKeys).filter fun k => r.values (trimmed k) ≠ []).map
      fun k => headerLine k (r.values (trimmed k))
   else []) ++
  if conf.queryEnabled then [ascii "query: " ++ r.rawQuery] else []

/-- What a service started as the continuation of another, `u`, takes over from it. -/
def inheriting (u : Tctx) (objHash : BitVec 32) (t : Tctx) : Tctx :=
  { t with
    inherit := true, isChildTx := true, caller := u.txid, callerObjHash := objHash
    gxid := u.gxid, xType := u.xType, isStream := u.isStream, error := u.error, httpMethod := u.httpMethod
    sqlCount := u.sqlCount, sqlTime := u.sqlTime, apicallCount := u.apicallCount, apicallTime := u.apicallTime
    userid := u.userid, userAgent := u.userAgent, referer := u.referer, login := u.login, desc := u.desc
    text1 := u.text1, text2 := u.text2, text3 := u.text3, text4 := u.text4, text5 := u.text5 }

end Scouter
