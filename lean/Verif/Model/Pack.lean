import Verif.Model.Value
/-!
# Packs (scouterx/common/netdata/*pack.go, packcreator.go)

`*MapValue` fields are lists of entries in iteration order; the constructors always allocate them, a nil `*MapValue`
is not modelled.
-/
namespace Scouter

/-- A `map[string]Value` in some iteration order: Go language; mappack.go:7-15. -/
abbrev Table := List (Bytes × Value)

/-- mappack.go:7-9. -/
structure MapPack where
  table : Table
deriving Repr

/-- textpack.go:11-15.  `Xtype` is a string type. -/
structure TextPack where
  xtype : Bytes
  hash : BitVec 32
  text : Bytes
deriving DecidableEq, Repr

/-- perfcounterpack.go:11-16. -/
structure PerfCounterPack where
  time : BitVec 64
  objName : Bytes
  timetype : BitVec 8
  data : Table
deriving Repr

/-- perfcounter_k8s_pack.go:8-22. -/
structure PerfCounterK8SPack where
  time : BitVec 64
  siteID : Bytes
  cluster : Bytes
  nameSpace : Bytes
  nodeName : Bytes
  daemonSetName : Bytes
  deploymentName : Bytes
  podName : Bytes
  containerName : Bytes
  objName : Bytes
  timetype : BitVec 8
  metricLevel : BitVec 8
  data : Table
deriving Repr

/-- objectpack.go:10-21. -/
structure ObjectPack2 where
  siteID : Bytes
  objType : Bytes
  objHash : BitVec 32
  objName : Bytes
  address : Bytes
  version : Bytes
  alive : Bool
  wakeup : BitVec 64
  family : BitVec 8
  tags : Table
deriving Repr

/-- objectpack.go:24-33. -/
structure ObjectPack where
  objType : Bytes
  objHash : BitVec 32
  objName : Bytes
  address : Bytes
  version : Bytes
  alive : Bool
  wakeup : BitVec 64
  tags : Table
deriving Repr

/-- alertpack.go:13-21.  `Level` is a uint8. -/
structure AlertPack where
  time : BitVec 64
  objType : Bytes
  objHash : BitVec 32
  level : BitVec 8
  title : Bytes
  message : Bytes
  tags : Table
deriving Repr

/-- xlogprofilepack.go:8-15. -/
structure XlogProfilePack where
  time : BitVec 64
  objHash : BitVec 32
  service : BitVec 32
  txid : BitVec 64
  elapsed : BitVec 32
  profile : Bytes
deriving DecidableEq, Repr

/-- xlogpack.go:27-86. -/
structure XlogPack where
  endTime : BitVec 64
  objHash : BitVec 32
  service : BitVec 32
  txid : BitVec 64
  threadNameHash : BitVec 32
  caller : BitVec 64
  gxid : BitVec 64
  elapsed : BitVec 32
  error : BitVec 32
  cpu : BitVec 32
  sqlCount : BitVec 32
  sqlTime : BitVec 32
  ipaddr : Bytes
  kbytes : BitVec 32
  status : BitVec 32
  userid : BitVec 64
  userAgent : BitVec 32
  referer : BitVec 32
  group : BitVec 32
  apicallCount : BitVec 32
  apicallTime : BitVec 32
  countryCode : Bytes
  city : BitVec 32
  xType : BitVec 8
  login : BitVec 32
  desc : BitVec 32
  webHash : BitVec 32
  webTime : BitVec 32
  hasDump : BitVec 8
  text1 : Bytes
  text2 : Bytes
  queuingHostHash : BitVec 32
  queuingTime : BitVec 32
  queuing2ndHostHash : BitVec 32
  queuing2ndTime : BitVec 32
  text3 : Bytes
  text4 : Bytes
  text5 : Bytes
  profileCount : BitVec 32
  b3Mode : Bool
  profileSize : BitVec 32
  discardType : BitVec 8
  ignoreGlobalConsequentSampling : Bool
deriving DecidableEq, Repr

/-- `NewXlogPack`, xlogpack.go:88-91: all fields zero. -/
def XlogPack.new : XlogPack where
  endTime := 0
  objHash := 0
  service := 0
  txid := 0
  threadNameHash := 0
  caller := 0
  gxid := 0
  elapsed := 0
  error := 0
  cpu := 0
  sqlCount := 0
  sqlTime := 0
  ipaddr := []
  kbytes := 0
  status := 0
  userid := 0
  userAgent := 0
  referer := 0
  group := 0
  apicallCount := 0
  apicallTime := 0
  countryCode := []
  city := 0
  xType := 0
  login := 0
  desc := 0
  webHash := 0
  webTime := 0
  hasDump := 0
  text1 := []
  text2 := []
  queuingHostHash := 0
  queuingTime := 0
  queuing2ndHostHash := 0
  queuing2ndTime := 0
  text3 := []
  text4 := []
  text5 := []
  profileCount := 0
  b3Mode := false
  profileSize := 0
  discardType := 0
  ignoreGlobalConsequentSampling := false

/-- `IsDriving`, xlogpack.go:93-95. -/
def XlogPack.isDriving (p : XlogPack) : Bool := p.gxid == p.txid || p.gxid == 0

/-- The implementations of the `Pack` interface (pack.go:4-9). -/
inductive Pack where
  | map (p : MapPack)
  | text (p : TextPack)
  | perfCounter (p : PerfCounterPack)
  | perfCounterK8S (p : PerfCounterK8SPack)
  | object (p : ObjectPack)
  | object2 (p : ObjectPack2)
  | alert (p : AlertPack)
  | xlog (p : XlogPack)
  | profile (p : XlogProfilePack)
deriving Repr

namespace Pack

/-- `GetPackType` of each implementation (mappack.go:62, textpack.go:43, perfcounterpack.go:78,
perfcounter_k8s_pack.go:98, objectpack.go:149-156, alertpack.go:55, xlogpack.go:171, xlogprofilepack.go:43) with the
constants of packconstants.go:4-18. -/
def packType : Pack → BitVec 8
  | map _ => 10
  | text _ => 50
  | perfCounter _ => 60
  | perfCounterK8S _ => 65
  | object _ => 80
  | object2 _ => 80
  | alert _ => 70
  | xlog _ => 21
  | profile _ => 26

end Pack

namespace Out

/-- `MapPack.Write`, mappack.go:52-59. -/
def writeMapPack (o : Out) (p : MapPack) : Out :=
  (o.writeDecimal (BitVec.ofNat 64 p.table.length)).writeEntries p.table

/-- `TextPack.Write`, textpack.go:22-27. -/
def writeTextPack (o : Out) (p : TextPack) : Out :=
  ((o.writeString p.xtype).writeInt32 p.hash).writeString p.text

/-- `PerfCounterPack.Write`, perfcounterpack.go:26-32. -/
def writePerfCounterPack (o : Out) (p : PerfCounterPack) : Out :=
  (((o.writeInt64 p.time).writeString p.objName).writeInt8 p.timetype).writeValue (.map p.data)

/-- `PerfCounterK8SPack.Write`, perfcounter_k8s_pack.go:32-48. -/
def writePerfCounterK8SPack (o : Out) (p : PerfCounterK8SPack) : Out :=
  let o := o.writeInt64 p.time
  let o := o.writeString p.siteID
  let o := o.writeString p.cluster
  let o := o.writeString p.nameSpace
  let o := o.writeString p.nodeName
  let o := o.writeString p.daemonSetName
  let o := o.writeString p.deploymentName
  let o := o.writeString p.podName
  let o := o.writeString p.containerName
  let o := o.writeString p.objName
  let o := o.writeInt8 p.timetype
  let o := o.writeInt8 p.metricLevel
  o.writeValue (.map p.data)

/-- `ObjectPack2.Write`, objectpack.go:53-66. -/
def writeObjectPack2 (o : Out) (p : ObjectPack2) : Out :=
  let o := o.writeString p.siteID
  let o := o.writeString p.objType
  let o := o.writeDecimal32 p.objHash
  let o := o.writeString p.objName
  let o := o.writeString p.address
  let o := o.writeString p.version
  let o := o.writeBoolean p.alive
  let o := o.writeDecimal p.wakeup
  let o := o.writeInt8 p.family
  o.writeValue (.map p.tags)

/-- `ObjectPack.Write`, objectpack.go:68-79. -/
def writeObjectPack (o : Out) (p : ObjectPack) : Out :=
  let o := o.writeString p.objType
  let o := o.writeDecimal32 p.objHash
  let o := o.writeString p.objName
  let o := o.writeString p.address
  let o := o.writeString p.version
  let o := o.writeBoolean p.alive
  let o := o.writeDecimal p.wakeup
  o.writeValue (.map p.tags)

/-- `AlertPack.Write`, alertpack.go:29-39. -/
def writeAlertPack (o : Out) (p : AlertPack) : Out :=
  let o := o.writeInt64 p.time
  let o := o.writeInt8 p.level
  let o := o.writeString p.objType
  let o := o.writeInt32 p.objHash
  let o := o.writeString p.title
  let o := o.writeString p.message
  o.writeValue (.map p.tags)

/-- `XlogProfilePack.Write`, xlogprofilepack.go:22-29. -/
def writeXlogProfilePack (o : Out) (p : XlogProfilePack) : Out :=
  let o := o.writeDecimal p.time
  let o := o.writeDecimal32 p.objHash
  let o := o.writeDecimal32 p.service
  let o := o.writeInt64 p.txid
  o.writeBlob p.profile

/-- The inner record of `XlogPack.Write`, xlogpack.go:98-148. -/
def writeXlogInner (o : Out) (p : XlogPack) : Out :=
  let o := o.writeDecimal p.endTime
  let o := o.writeDecimal32 p.objHash
  let o := o.writeDecimal32 p.service
  let o := o.writeInt64 p.txid
  let o := o.writeInt64 p.caller
  let o := o.writeInt64 p.gxid
  let o := o.writeDecimal32 p.elapsed
  let o := o.writeDecimal32 p.error
  let o := o.writeDecimal32 p.cpu
  let o := o.writeDecimal32 p.sqlCount
  let o := o.writeDecimal32 p.sqlTime
  let o := o.writeBlob p.ipaddr
  let o := o.writeDecimal32 p.kbytes
  let o := o.writeDecimal32 p.status
  let o := o.writeDecimal p.userid
  let o := o.writeDecimal32 p.userAgent
  let o := o.writeDecimal32 p.referer
  let o := o.writeDecimal32 p.group
  let o := o.writeDecimal32 p.apicallCount
  let o := o.writeDecimal32 p.apicallTime
  let o := o.writeString p.countryCode
  let o := o.writeDecimal32 p.city
  let o := o.writeInt8 p.xType
  let o := o.writeDecimal32 p.login
  let o := o.writeDecimal32 p.desc
  let o := o.writeDecimal32 p.webHash
  let o := o.writeDecimal32 p.webTime
  let o := o.writeInt8 p.hasDump
  let o := o.writeDecimal32 p.threadNameHash
  let o := o.writeString p.text1
  let o := o.writeString p.text2
  let o := o.writeDecimal32 p.queuingHostHash
  let o := o.writeDecimal32 p.queuingTime
  let o := o.writeDecimal32 p.queuing2ndHostHash
  let o := o.writeDecimal32 p.queuing2ndTime
  let o := o.writeString p.text3
  let o := o.writeString p.text4
  let o := o.writeString p.text5
  let o := o.writeDecimal32 p.profileCount
  let o := o.writeBoolean p.b3Mode
  let o := o.writeDecimal32 p.profileSize
  let o := o.writeInt8 p.discardType
  o.writeBoolean p.ignoreGlobalConsequentSampling

/-- `XlogPack.Write`, xlogpack.go:97-152: the inner record is written to a fresh output and then as one blob. -/
def writeXlogPack (o : Out) (p : XlogPack) : Out := o.writeBlob (Out.new.writeXlogInner p).bytes

/-- `WritePack`, dataoutputx.go:159-163. -/
def writePack (o : Out) (p : Pack) : Out :=
  let o := o.writeInt8 p.packType
  match p with
  | .map p => o.writeMapPack p
  | .text p => o.writeTextPack p
  | .perfCounter p => o.writePerfCounterPack p
  | .perfCounterK8S p => o.writePerfCounterK8SPack p
  | .object p => o.writeObjectPack p
  | .object2 p => o.writeObjectPack2 p
  | .alert p => o.writeAlertPack p
  | .xlog p => o.writeXlogPack p
  | .profile p => o.writeXlogProfilePack p

end Out

namespace In

/-- The type assertion `value.(*MapValue)` (single-result form): panics on any other dynamic type.
   Go language; objectpack.go:95-116. -/
def assertMap : Value → Go Table
  | .map es => .ok es
  | _ => .panic

/-- `MapPack.Read`, mappack.go:39-49, into the empty table of `NewMapPack`. -/
def readMapPack (s : Bytes) : Go (Res MapPack) := do
  let (count, err, s) := readDecimal s
  let (es, err, s) ← readEntries readValue count.toInt.toNat s err []
  return (⟨es⟩, err, s)

/-- `PerfCounterPack.Read`, perfcounterpack.go:35-43. -/
def readPerfCounterPack (s : Bytes) : Go (Res PerfCounterPack) := do
  let (time, _, s) := readInt64 s
  let (objName, _, s) ← readString s
  let (timetype, _, s) := readInt8 s
  let (value, err, s) ← readValue s
  let data ← assertMap value
  return ({ time, objName, timetype, data }, err, s)

/-- `PerfCounterK8SPack.Read`, perfcounter_k8s_pack.go:50-67. -/
def readPerfCounterK8SPack (s : Bytes) : Go (Res PerfCounterK8SPack) := do
  let (time, _, s) := readInt64 s
  let (siteID, _, s) ← readString s
  let (cluster, _, s) ← readString s
  let (nameSpace, _, s) ← readString s
  let (nodeName, _, s) ← readString s
  let (daemonSetName, _, s) ← readString s
  let (deploymentName, _, s) ← readString s
  let (podName, _, s) ← readString s
  let (containerName, _, s) ← readString s
  let (objName, _, s) ← readString s
  let (timetype, _, s) := readInt8 s
  let (metricLevel, _, s) := readInt8 s
  let (value, err, s) ← readValue s
  let data ← assertMap value
  return ({ time, siteID, cluster, nameSpace, nodeName, daemonSetName, deploymentName, podName, containerName,
            objName, timetype, metricLevel, data }, err, s)

/-- `ObjectPack2.Read`, objectpack.go:81-97. -/
def readObjectPack2 (s : Bytes) : Go (Res ObjectPack2) := do
  let (siteID, _, s) ← readString s
  let (objType, _, s) ← readString s
  let (objHash, _, s) := readDecimal s
  let (objName, _, s) ← readString s
  let (address, _, s) ← readString s
  let (version, _, s) ← readString s
  let (alive, _, s) := readBoolean s
  let (wakeup, _, s) := readDecimal s
  let (family, _, s) := readInt8 s
  let (value, err, s) ← readValue s
  let tags ← assertMap value
  return ({ siteID, objType, objHash := objHash.setWidth 32, objName, address, version, alive, wakeup, family, tags },
    err, s)

/-- `ObjectPack.Read`, objectpack.go:98-112. -/
def readObjectPack (s : Bytes) : Go (Res ObjectPack) := do
  let (objType, _, s) ← readString s
  let (objHash, _, s) := readDecimal s
  let (objName, _, s) ← readString s
  let (address, _, s) ← readString s
  let (version, _, s) ← readString s
  let (alive, _, s) := readBoolean s
  let (wakeup, _, s) := readDecimal s
  let (value, err, s) ← readValue s
  let tags ← assertMap value
  return ({ objType, objHash := objHash.setWidth 32, objName, address, version, alive, wakeup, tags }, err, s)

/-- `ReadPack`, datainputx.go:189-198, with `CreatePack` (packcreator.go:8-23).  An error on the type byte returns
`(nil, err)`; an unknown type makes `pack` nil and `pack.Read` panics; the result and error of `pack.Read` are
ignored, so the returned error is nil.  `TextPack.Read` and `AlertPack.Read` (textpack.go:29, alertpack.go:41) read
nothing. -/
def readPack (s : Bytes) : Go (Res (Option Pack)) :=
  match s with
  | [] => .ok (none, some .eof, [])
  | t :: s =>
    if t = 10 then do
      let (p, _, s) ← readMapPack s
      return (some (.map p), none, s)
    else if t = 50 then .ok (some (.text ⟨[], 0, []⟩), none, s)
    else if t = 60 then do
      let (p, _, s) ← readPerfCounterPack s
      return (some (.perfCounter p), none, s)
    else if t = 80 then do
      let (p, _, s) ← readObjectPack2 s
      return (some (.object2 p), none, s)
    else if t = 70 then .ok (some (.alert ⟨0, [], 0, 0, [], [], []⟩), none, s)
    else .panic

end In
end Scouter
