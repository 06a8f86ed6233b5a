import Verif.Spec.Tree
import Verif.Model.Pack
import Verif.Model.Step
/-!
# The collector's side of packs and profile steps

Parsers for the pack and step layouts a Scouter collector expects (field order and number formats), and what the
agent's packs and steps denote.  Type codes: map 10, transaction log 21, profile 26, text 50, counters 60 (K8S 65),
alert 70, object 80.
-/
namespace Scouter.Wire

/-- A transaction log as the collector sees it. -/
structure Xlog where
  endTime : Int
  objHash : Int
  service : Int
  txid : Int
  caller : Int
  gxid : Int
  elapsed : Int
  error : Int
  cpu : Int
  sqlCount : Int
  sqlTime : Int
  ipaddr : Bytes
  kbytes : Int
  status : Int
  userid : Int
  userAgent : Int
  referer : Int
  group : Int
  apicallCount : Int
  apicallTime : Int
  countryCode : Bytes
  city : Int
  xType : Nat
  login : Int
  desc : Int
  webHash : Int
  webTime : Int
  hasDump : Nat
  threadNameHash : Int
  text1 : Bytes
  text2 : Bytes
  queuingHostHash : Int
  queuingTime : Int
  queuing2ndHostHash : Int
  queuing2ndTime : Int
  text3 : Bytes
  text4 : Bytes
  text5 : Bytes
  profileCount : Int
  b3Mode : Bool
  profileSize : Int
  discardType : Nat
  ignoreGlobalConsequentSampling : Bool

/-- The transaction-log record, field by field. -/
def xlogRecord : P Xlog := do
  let endTime ← decimal
  let objHash ← decimal
  let service ← decimal
  let txid ← i 8
  let caller ← i 8
  let gxid ← i 8
  let elapsed ← decimal
  let error ← decimal
  let cpu ← decimal
  let sqlCount ← decimal
  let sqlTime ← decimal
  let ipaddr ← blob
  let kbytes ← decimal
  let status ← decimal
  let userid ← decimal
  let userAgent ← decimal
  let referer ← decimal
  let group ← decimal
  let apicallCount ← decimal
  let apicallTime ← decimal
  let countryCode ← blob
  let city ← decimal
  let xType ← u 1
  let login ← decimal
  let desc ← decimal
  let webHash ← decimal
  let webTime ← decimal
  let hasDump ← u 1
  let threadNameHash ← decimal
  let text1 ← blob
  let text2 ← blob
  let queuingHostHash ← decimal
  let queuingTime ← decimal
  let queuing2ndHostHash ← decimal
  let queuing2ndTime ← decimal
  let text3 ← blob
  let text4 ← blob
  let text5 ← blob
  let profileCount ← decimal
  let b3Mode ← Wire.bool
  let profileSize ← decimal
  let discardType ← u 1
  let ignoreGlobalConsequentSampling ← Wire.bool
  return { endTime, objHash, service, txid, caller, gxid, elapsed, error, cpu, sqlCount, sqlTime, ipaddr, kbytes, status, userid, userAgent, referer, group, apicallCount, apicallTime, countryCode, city, xType, login, desc, webHash, webTime, hasDump, threadNameHash, text1, text2, queuingHostHash, queuingTime, queuing2ndHostHash, queuing2ndTime, text3, text4, text5, profileCount, b3Mode, profileSize, discardType, ignoreGlobalConsequentSampling }

/-- A record carried inside a byte string, which it must fill exactly. -/
def inBlob {α : Type} (p : P α) : P α := do
  let b ← blob
  match p b with
  | some (a, []) => return a
  | _ => fail

/-- Packs as the collector sees them. -/
inductive WPack where
  | map (es : List (Bytes × WV))
  | text (kind : Bytes) (hash : Int) (text : Bytes)
  | counter (time : Int) (objName : Bytes) (timetype : Nat) (data : WV)
  | counterK8S (time : Int) (names : List Bytes) (timetype metricLevel : Nat) (data : WV)
  | object (objType : Bytes) (objHash : Int) (objName address version : Bytes) (alive : Bool) (wakeup : Int) (tags : WV)
  | alert (time : Int) (level : Nat) (objType : Bytes) (objHash : Int) (title message : Bytes) (tags : WV)
  | xlog (x : Xlog)
  | profile (time objHash service txid : Int) (profile : Bytes)

/-- A pack: its type byte and its body. -/
def pack : P WPack := do
  let t ← u 1
  if t = 10 then do
    let n ← decimal
    return .map (← times (do let k ← blob; let v ← value; return (k, v)) n.toNat)
  else if t = 21 then return .xlog (← inBlob xlogRecord)
  else if t = 26 then do
    let time ← decimal
    let objHash ← decimal
    let service ← decimal
    let txid ← i 8
    let profile ← blob
    return .profile time objHash service txid profile
  else if t = 50 then do
    let kind ← blob
    let hash ← i 4
    let text ← blob
    return .text kind hash text
  else if t = 60 then do
    let time ← i 8
    let objName ← blob
    let timetype ← u 1
    let data ← value
    return .counter time objName timetype data
  else if t = 65 then do
    let time ← i 8
    let names ← times blob 9
    let timetype ← u 1
    let metricLevel ← u 1
    let data ← value
    return .counterK8S time names timetype metricLevel data
  else if t = 70 then do
    let time ← i 8
    let level ← u 1
    let objType ← blob
    let objHash ← i 4
    let title ← blob
    let message ← blob
    let tags ← value
    return .alert time level objType objHash title message tags
  else if t = 80 then do
    let objType ← blob
    let objHash ← decimal
    let objName ← blob
    let address ← blob
    let version ← blob
    let alive ← Wire.bool
    let wakeup ← decimal
    let tags ← value
    return .object objType objHash objName address version alive wakeup tags
  else fail

/-- The body of a profile step as the collector sees it. -/
inductive WBody where
  | method (hash elapsed cpuTime : Int)
  | message (message : Bytes)
  | hashed (hash time value : Int)
  | pmessage (hash elapsed level : Int) (params : Bytes)
  | apicall (txid hash elapsed cpuTime error : Int) (opt : Nat) (address : Option Bytes)
  | async (txid hash elapsed : Int) (threaded : Nat)

structure WStep where
  parent : Int
  index : Int
  startTime : Int
  startCpu : Int
  body : WBody

/-- One profile step. -/
def step : P WStep := do
  let t ← u 1
  let parent ← decimal
  let index ← decimal
  let startTime ← decimal
  let startCpu ← decimal
  let mk := fun body : WBody => ({ parent, index, startTime, startCpu, body } : WStep)
  if t = 1 then do
    let hash ← decimal
    let elapsed ← decimal
    let cpuTime ← decimal
    return mk (.method hash elapsed cpuTime)
  else if t = 3 then return mk (.message (← blob))
  else if t = 9 then do
    let hash ← decimal
    let time ← decimal
    let value ← decimal
    return mk (.hashed hash time value)
  else if t = 17 then do
    let hash ← decimal
    let elapsed ← decimal
    let level ← decimal
    let params ← blob
    return mk (.pmessage hash elapsed level params)
  else if t = 6 then do
    let txid ← decimal
    let hash ← decimal
    let elapsed ← decimal
    let cpuTime ← decimal
    let error ← decimal
    let opt ← u 1
    if opt = 1 then do
      let a ← blob
      return mk (.apicall txid hash elapsed cpuTime error opt (some a))
    else return mk (.apicall txid hash elapsed cpuTime error opt none)
  else if t = 14 then do
    let txid ← decimal
    let hash ← decimal
    let elapsed ← decimal
    let threaded ← u 1
    return mk (.async txid hash elapsed threaded)
  else fail

/-- A whole profile: steps one after the other until the bytes are used up (`n` bounds their number). -/
def stepsN : Nat → Bytes → Option (List WStep)
  | _, [] => some []
  | 0, _ => none
  | n + 1, s => do
    let (st, s) ← step s
    let sts ← stepsN n s
    return st :: sts

/-- A profile has at most as many steps as bytes. -/
def steps (s : Bytes) : Option (List WStep) := stepsN s.length s

/-- Split a parameter string: every parameter ends with the byte 3. -/
def params : Bytes → List Bytes
  | [] => []
  | c :: cs =>
    if c = 3 then [] :: params cs
    else match params cs with
      | [] => [[c]]
      | p :: ps => (c :: p) :: ps

end Scouter.Wire

namespace Scouter.Spec
open Wire

/-- What a transaction log denotes. -/
def denoteXlog (p : XlogPack) : Xlog where
  endTime := p.endTime.toInt
  objHash := p.objHash.toInt
  service := p.service.toInt
  txid := p.txid.toInt
  caller := p.caller.toInt
  gxid := p.gxid.toInt
  elapsed := p.elapsed.toInt
  error := p.error.toInt
  cpu := p.cpu.toInt
  sqlCount := p.sqlCount.toInt
  sqlTime := p.sqlTime.toInt
  ipaddr := p.ipaddr
  kbytes := p.kbytes.toInt
  status := p.status.toInt
  userid := p.userid.toInt
  userAgent := p.userAgent.toInt
  referer := p.referer.toInt
  group := p.group.toInt
  apicallCount := p.apicallCount.toInt
  apicallTime := p.apicallTime.toInt
  countryCode := Wire.shown p.countryCode
  city := p.city.toInt
  xType := p.xType.toNat
  login := p.login.toInt
  desc := p.desc.toInt
  webHash := p.webHash.toInt
  webTime := p.webTime.toInt
  hasDump := p.hasDump.toNat
  threadNameHash := p.threadNameHash.toInt
  text1 := Wire.shown p.text1
  text2 := Wire.shown p.text2
  queuingHostHash := p.queuingHostHash.toInt
  queuingTime := p.queuingTime.toInt
  queuing2ndHostHash := p.queuing2ndHostHash.toInt
  queuing2ndTime := p.queuing2ndTime.toInt
  text3 := Wire.shown p.text3
  text4 := Wire.shown p.text4
  text5 := Wire.shown p.text5
  profileCount := p.profileCount.toInt
  b3Mode := p.b3Mode
  profileSize := p.profileSize.toInt
  discardType := p.discardType.toNat
  ignoreGlobalConsequentSampling := p.ignoreGlobalConsequentSampling

/-- What a pack denotes for the collector (version-2 object packs have no meaning to it). -/
def denotePack : Pack → Option WPack
  | .map p => some (.map (denoteM p.table))
  | .text p => some (.text (shown p.xtype) p.hash.toInt (shown p.text))
  | .perfCounter p => some (.counter p.time.toInt (shown p.objName) p.timetype.toNat (denote (.map p.data)))
  | .perfCounterK8S p => some (.counterK8S p.time.toInt
      [shown p.siteID, shown p.cluster, shown p.nameSpace, shown p.nodeName, shown p.daemonSetName,
       shown p.deploymentName, shown p.podName, shown p.containerName, shown p.objName]
      p.timetype.toNat p.metricLevel.toNat (denote (.map p.data)))
  | .object p => some (.object (shown p.objType) p.objHash.toInt (shown p.objName) (shown p.address) (shown p.version)
      p.alive p.wakeup.toInt (denote (.map p.tags)))
  | .object2 _ => none
  | .alert p => some (.alert p.time.toInt p.level.toNat (shown p.objType) p.objHash.toInt (shown p.title)
      (shown p.message) (denote (.map p.tags)))
  | .xlog p => some (.xlog (denoteXlog p))
  | .profile p => some (.profile p.time.toInt p.objHash.toInt p.service.toInt p.txid.toInt p.profile)

/-- Packs within the format's limits: maps with fewer than 2^63 entries and values within theirs, address and profile
byte strings below 2^30 bytes (Go could hold more; the four-byte length could not say it). -/
def SendablePack : Pack → Prop
  | .map p => Sendable (.map p.table)
  | .text _ => True
  | .perfCounter p => Sendable (.map p.data)
  | .perfCounterK8S p => Sendable (.map p.data)
  | .object p => Sendable (.map p.tags)
  | .object2 p => Sendable (.map p.tags)
  | .alert p => Sendable (.map p.tags)
  | .xlog p => p.ipaddr.length < 2 ^ 30
  | .profile p => p.profile.length < 2 ^ 31

/-- What a step body denotes; a dump step has none (its type code is that of a method step). -/
def denoteBody : StepBody → Option WBody
  | .method h e c => some (.method h.toInt e.toInt c.toInt)
  | .message m => some (.message (shown m))
  | .hashed h t v => some (.hashed h.toInt t.toInt v.toInt)
  | .pmessage h e l ps => some (.pmessage h.toInt e.toInt l.toNat (shown ps))
  | .apicall txid h e c err opt addr =>
    some (.apicall txid.toInt h.toInt e.toInt c.toInt err.toInt opt.toNat
      (if opt = 1 then some (shown addr) else none))
  | .async txid h e => some (.async txid.toInt h.toInt e.toInt 1)
  | .dump .. => none

def denoteStep (s : Step) : Option WStep :=
  (denoteBody s.body).map fun body =>
    { parent := s.ss.parent.toInt, index := s.ss.index.toInt, startTime := s.ss.startTime.toInt, startCpu := 0, body }

end Scouter.Spec
