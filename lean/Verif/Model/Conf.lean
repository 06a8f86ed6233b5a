import Verif.Model.Hash
import Verif.Model.Util
import Verif.Model.Trace
/-!
# Configuration (scouterx/conf)

A setting is addressed by the name of its Go field.  The properties library (`github.com/magiconair/properties`) is
modelled from its documentation: a map from texts to texts in which no value contains `${` (no expansion takes place),
`GetString`, `GetBool` and `GetInt`.  Reading the file's syntax is not modelled: a file that can be read and parsed is given by
the map it defines.  Modification times are nanoseconds since the year 1, so the zero `time.Time` is 0.
-/
namespace Scouter
namespace Config

/-- `properties.Properties`: the value of each key that is set.
   Library magiconair/properties; configure.go:228-245. -/
abbrev Props := Bytes → Option Bytes

/-- `Properties.Set` (called at configure.go:231): an empty key is ignored. -/
def Props.set (p : Props) (k v : Bytes) : Props := if k = [] then p else fun k' => if k' = k then some v else p k'

/-- The loop over `os.Environ()`, configure.go:229-232.  `none`: an entry without '=' makes `pair[1]` panic. -/
def envProps : List Bytes → Props → Option Props
  | [], p => some p
  | e :: es, p =>
    match splitByte 61 e with
    | k :: v :: _ => envProps es (p.set k v)
    | _ => none

/-- `Properties.Merge` (called at configure.go:246). -/
def Props.merge (p q : Props) : Props := fun k => match q k with
  | some v => some v
  | none => p k

/-- The filter of configure.go:248-250. -/
def Props.nonEmpty (p : Props) : Props := fun k => match p k with
  | some v => if v ≠ [] then some v else none
  | none => none

/-- The value of a field.  configure.go:40-126. -/
inductive Setting where
  | bool (b : Bool)
  | int (n : Int)
  | int32 (n : BitVec 32)
  | text (s : Bytes)
deriving DecidableEq, Repr

/-- How a field is read, with its default: `boolOf`, `intOf`, `int32(intOf(...))`, or `stringOf`/`stringOfType` with the
`ValueType` (configure.go:21-27) of its description. -/
inductive Reading where
  | bool (d : Bool)
  | int (d : Int)
  | int32 (d : Int)
  | text (valueType : Nat) (d : Bytes)
deriving DecidableEq, Repr

/-- One assignment of `addToConf`: the field, the key and how it is read.  configure.go:334-416. -/
structure Row where
  field : String
  key : Bytes
  reading : Reading
deriving DecidableEq, Repr

/-- `strings.ToLower` on a byte (called by `Properties.GetBool`); texts equal to an ASCII word after lowering of other
characters are not considered.  Library strings; configure.go:274-287. -/
def lower (b : Byte) : Byte := if 65 ≤ b.toNat ∧ b.toNat ≤ 90 then b + 32 else b

/-- `Properties.GetBool`, called at configure.go:278 and :338. -/
def getBool (p : Props) (k : Bytes) (d : Bool) : Bool :=
  match p k with
  | none => d
  | some v => let v := v.map lower; v = ascii "1" ∨ v = ascii "true" ∨ v = ascii "yes" ∨ v = ascii "on"

/-- The digit loop of `strconv.ParseUint(_, 10, 64)`.
   Library strconv; behind `Properties.GetInt`, configure.go:289-302. -/
def digitLoop (n : Nat) : Bytes → Option Nat
  | [] => some n
  | c :: cs =>
    if 48 ≤ c.toNat ∧ c.toNat ≤ 57 then
      if n * 10 + (c.toNat - 48) ≥ 2 ^ 64 then none else digitLoop (n * 10 + (c.toNat - 48)) cs
    else none

/-- `strconv.ParseUint(_, 10, 64)`.  Library strconv; behind `Properties.GetInt`, configure.go:289-302. -/
def parseUint (s : Bytes) : Option Nat := if s = [] then none else digitLoop 0 s

/-- `strconv.ParseInt(_, 10, 64)`, with any error as `none`.
   Library strconv; behind `Properties.GetInt`, configure.go:289-302. -/
def parseInt (s : Bytes) : Option Int :=
  if s = [] then none
  else
    let neg := s.head? = some 45
    let body := if s.head? = some 43 ∨ s.head? = some 45 then s.tail else s
    match parseUint body with
    | none => none
    | some un =>
      if ¬ neg ∧ un ≥ 2 ^ 63 then none
      else if neg ∧ un > 2 ^ 63 then none
      else some (if neg then - (un : Int) else un)

/-- `Properties.GetInt`, called at configure.go:293, where `int` has 64 bits. -/
def getInt (p : Props) (k : Bytes) (d : Int) : Int :=
  match p k with
  | none => d
  | some v => (parseInt v).getD d

/-- `Properties.GetString`, called at configure.go:308 and :323. -/
def getString (p : Props) (k : Bytes) (d : Bytes) : Bytes := (p k).getD d

/-- `ConfigureDesc`, configure.go:32-38, without the key and the text `Desc`. -/
structure Desc where
  value : Bytes
  default : Bytes
  valueType : Nat
deriving DecidableEq, Repr

/-- `strconv.FormatBool`.  Library strconv; configure.go:281-282. -/
def formatBool (b : Bool) : Bytes := if b then ascii "true" else ascii "false"

/-- `boolOf`, `intOf`, `stringOf` and `stringOfType`, configure.go:274-332: the value returned and the description put in
the table of descriptions.  The cast to `int32` is made by the caller. -/
def Reading.read (r : Reading) (p : Props) (k : Bytes) : Setting × Desc :=
  match r with
  | .bool d => let v := getBool p k d; (.bool v, ⟨formatBool v, formatBool d, 3⟩)
  | .int d => let v := getInt p k d; (.int v, ⟨formatInt 10 v, formatInt 10 d, 2⟩)
  | .int32 d => let v := getInt p k d; (.int32 (BitVec.ofInt 32 v), ⟨formatInt 10 v, formatInt 10 d, 2⟩)
  | .text t d => let v := getString p k d; (.text v, ⟨v, d, t⟩)

/-- The assignments of `addToConf` after the object's name and type, configure.go:340-412, in order. -/
def rows : List Row := [
  ⟨"TraceObjSend", ascii "trace_obj_send", (.bool false)⟩,
  ⟨"SendQueueSize", ascii "send_queue_size", (.int 3000)⟩,
  ⟨"NetCollectorIP", ascii "net_collector_ip", (.text 1 (ascii "127.0.0.1"))⟩,
  ⟨"NetCollectorUDPPort", ascii "net_collector_udp_port", (.int 6100)⟩,
  ⟨"NetCollectorTCPPort", ascii "net_collector_tcp_port", (.int 6100)⟩,
  ⟨"NetCollectorTcpSoTimeoutMs", ascii "net_collector_tcp_so_timeout_ms", (.int 60000)⟩,
  ⟨"NetCollectorTcpConnectionTimeoutMs", ascii "net_collector_tcp_connection_timeout_ms", (.int 3000)⟩,
  ⟨"UDPMaxBytes", ascii "udp_max_bytes", (.int 60000)⟩,
  ⟨"StuckServiceBaseTimeMs", ascii "stuck_service_base_time_ms", (.int 300000)⟩,
  ⟨"StuckServiceRemoveEnabled", ascii "stuck_service_remove_enabled", (.bool true)⟩,
  ⟨"StuckServiceAlertEnabled", ascii "stuck_service_alert_enabled", (.bool true)⟩,
  ⟨"TraceActiveserviceYellowTime", ascii "trace_activeservice_yellow_time", (.int 3000)⟩,
  ⟨"TraceActiveserviceRedTime", ascii "trace_activeservice_red_time", (.int 8000)⟩,
  ⟨"ProfileStepMaxKeepInMemoryCount", ascii "profile_step_max_keep_in_memory_count", (.int 2048)⟩,
  ⟨"ProfileStepMaxCount", ascii "profile_step_max_count", (.int 1024)⟩,
  ⟨"ProfileHttpQuerystringEnabled", ascii "profile_http_querystring_enabled", (.bool false)⟩,
  ⟨"ProfileHttpHeaderEnabled", ascii "profile_http_header_enabled", (.bool false)⟩,
  ⟨"ProfileHttpHeaderKeys", ascii "profile_http_header_keys", (.text 4 [])⟩,
  ⟨"TraceHttpClientIpHeaderKey", ascii "trace_http_client_ip_header_key", (.text 1 [])⟩,
  ⟨"XlogDiscardServicePatterns", ascii "xlog_discard_service_patterns", (.text 4 [])⟩,
  ⟨"XlogDiscardServiceShowError", ascii "xlog_discard_service_show_error", (.bool true)⟩,
  ⟨"XlogSamplingExcludePatterns", ascii "xlog_sampling_exclude_patterns", (.text 4 [])⟩,
  ⟨"XlogSamplingEnabled", ascii "xlog_sampling_enabled", (.bool false)⟩,
  ⟨"XlogSamplingOnlyProfile", ascii "xlog_sampling_only_profile", (.bool false)⟩,
  ⟨"XlogSamplingStep1Ms", ascii "xlog_sampling_step1_ms", (.int32 100)⟩,
  ⟨"XlogSamplingStep1RatePct", ascii "xlog_sampling_step1_rate_pct", (.int 2)⟩,
  ⟨"XlogSamplingStep2Ms", ascii "xlog_sampling_step2_ms", (.int32 500)⟩,
  ⟨"XlogSamplingStep2RatePct", ascii "xlog_sampling_step2_rate_pct", (.int 7)⟩,
  ⟨"XlogSamplingStep3Ms", ascii "xlog_sampling_step3_ms", (.int32 1000)⟩,
  ⟨"XlogSamplingStep3RatePct", ascii "xlog_sampling_step3_rate_pct", (.int 15)⟩,
  ⟨"XlogSamplingOverRatePct", ascii "xlog_sampling_over_rate_pct", (.int 3000)⟩,
  ⟨"XlogPatternedSamplingEnabled", ascii "xlog_patterned_sampling_enabled", (.bool false)⟩,
  ⟨"XlogPatternedSamplingServicePatterns", ascii "xlog_patterned_sampling_service_patterns", (.text 4 [])⟩,
  ⟨"XlogPatternedSamplingOnlyProfile", ascii "xlog_patterned_sampling_only_profile", (.bool false)⟩,
  ⟨"XlogPatternedSamplingStep1Ms", ascii "xlog_patterned_sampling_step1_ms", (.int32 100)⟩,
  ⟨"XlogPatternedSamplingStep1RatePct", ascii "xlog_patterned_sampling_step1_rate_pct", (.int 2)⟩,
  ⟨"XlogPatternedSamplingStep2Ms", ascii "xlog_patterned_sampling_step2_ms", (.int32 500)⟩,
  ⟨"XlogPatternedSamplingStep2RatePct", ascii "xlog_patterned_sampling_step2_rate_pct", (.int 7)⟩,
  ⟨"XlogPatternedSamplingStep3Ms", ascii "xlog_patterned_sampling_step3_ms", (.int32 1000)⟩,
  ⟨"XlogPatternedSamplingStep3RatePct", ascii "xlog_patterned_sampling_step3_rate_pct", (.int 15)⟩,
  ⟨"XlogPatternedSamplingOverRatePct", ascii "xlog_patterned_sampling_over_rate_pct", (.int 3000)⟩,
  ⟨"XlogPatterned2SamplingEnabled", ascii "xlog_patterned2_sampling_enabled", (.bool false)⟩,
  ⟨"XlogPatterned2SamplingServicePatterns", ascii "xlog_patterned2_sampling_service_patterns", (.text 4 [])⟩,
  ⟨"XlogPatterned2SamplingOnlyProfile", ascii "xlog_patterned2_sampling_only_profile", (.bool false)⟩,
  ⟨"XlogPatterned2SamplingStep1Ms", ascii "xlog_patterned2_sampling_step1_ms", (.int32 100)⟩,
  ⟨"XlogPatterned2SamplingStep1RatePct", ascii "xlog_patterned2_sampling_step1_rate_pct", (.int 2)⟩,
  ⟨"XlogPatterned2SamplingStep2Ms", ascii "xlog_patterned2_sampling_step2_ms", (.int32 500)⟩,
  ⟨"XlogPatterned2SamplingStep2RatePct", ascii "xlog_patterned2_sampling_step2_rate_pct", (.int 7)⟩,
  ⟨"XlogPatterned2SamplingStep3Ms", ascii "xlog_patterned2_sampling_step3_ms", (.int32 1000)⟩,
  ⟨"XlogPatterned2SamplingStep3RatePct", ascii "xlog_patterned2_sampling_step3_rate_pct", (.int 15)⟩,
  ⟨"XlogPatterned2SamplingOverRatePct", ascii "xlog_patterned2_sampling_over_rate_pct", (.int 3000)⟩,
  ⟨"XlogPatterned3SamplingEnabled", ascii "xlog_patterned3_sampling_enabled", (.bool false)⟩,
  ⟨"XlogPatterned3SamplingServicePatterns", ascii "xlog_patterned3_sampling_service_patterns", (.text 4 [])⟩,
  ⟨"XlogPatterned3SamplingOnlyProfile", ascii "xlog_patterned3_sampling_only_profile", (.bool false)⟩,
  ⟨"XlogPatterned3SamplingStep1Ms", ascii "xlog_patterned3_sampling_step1_ms", (.int32 100)⟩,
  ⟨"XlogPatterned3SamplingStep1RatePct", ascii "xlog_patterned3_sampling_step1_rate_pct", (.int 2)⟩,
  ⟨"XlogPatterned3SamplingStep2Ms", ascii "xlog_patterned3_sampling_step2_ms", (.int32 500)⟩,
  ⟨"XlogPatterned3SamplingStep2RatePct", ascii "xlog_patterned3_sampling_step2_rate_pct", (.int 7)⟩,
  ⟨"XlogPatterned3SamplingStep3Ms", ascii "xlog_patterned3_sampling_step3_ms", (.int32 1000)⟩,
  ⟨"XlogPatterned3SamplingStep3RatePct", ascii "xlog_patterned3_sampling_step3_rate_pct", (.int 15)⟩,
  ⟨"XlogPatterned3SamplingOverRatePct", ascii "xlog_patterned3_sampling_over_rate_pct", (.int 3000)⟩]

/-- `Configure`, configure.go:40-124, with the table of descriptions (`descMap`, configure.go:30) and ghosts: how often the
observers of the configuration and of the object's name have been run. -/
structure Configure where
  lastModified : Int := 0
  trace : Bool := false
  objName : Bytes := []
  objHash : BitVec 32 := 0
  fields : String → Option Setting
  descs : List (Bytes × Desc) := []
  confRuns : Nat := 0
  objRuns : Nat := 0

/-- `descMap.Put`: a known key keeps its place.  Library gods linkedhashmap; configure.go:274-332. -/
def putDesc (ds : List (Bytes × Desc)) (k : Bytes) (d : Desc) : List (Bytes × Desc) :=
  if ds.any (·.1 = k) then ds.map fun e => if e.1 = k then (k, d) else e else ds ++ [(k, d)]

/-- One assignment `conf.Field = ...Of(props, key, default, desc)`.  configure.go:334-416. -/
def assign (p : Props) (c : Configure) (r : Row) : Configure :=
  let (v, d) := r.reading.read p r.key
  { c with fields := fun f => if f = r.field then some v else c.fields f, descs := putDesc c.descs r.key d }

/-- `resetObjNameAndType`, configure.go:191-208; `host` is `os.Hostname()`, `none` when it fails. -/
def resetObjNameAndType (host : Option Bytes) (p : Props) (c : Configure) : Configure :=
  let hostname := host.getD (ascii "unknown")
  let old := c.objName
  let simple := getString p (ascii "obj_name") (ascii "go1")
  let c := assign p c ⟨"ObjNameSimple", ascii "obj_name", .text 1 (ascii "go1")⟩
  let name := ascii "/" ++ hostname ++ ascii "/" ++ simple
  let c := { c with objName := name, objHash := hash name }
  let c := assign p c ⟨"ObjType", ascii "obj_type", .text 1 (ascii "golang")⟩
  if old ≠ c.objName then { c with objRuns := c.objRuns + 1 } else c

/-- `addToConf`, configure.go:334-413. -/
def addToConf (host : Option Bytes) (p : Props) (c : Configure) : Configure :=
  let c := resetObjNameAndType host p c
  let c := { c with trace := getBool p (ascii "_trace") false }
  rows.foldl (assign p) c

/-- The file as `os.Stat` and `properties.LoadFile` meet it: not there; not accessible; there, but not readable or not
well-formed; or there with contents.  configure.go:210-245. -/
inductive File where
  | absent
  | denied
  | bad (mtime : Int)
  | good (mtime : Int) (content : Props)

/-- `Refresh`, configure.go:210-260.  The file is looked at twice: by `os.Stat` (`atStat`) and by `LoadFile` (`atLoad`).
`none`: the panic of `envProps`. -/
def refresh (env : List Bytes) (host : Option Bytes) (atStat atLoad : File) (c : Configure) : Option Configure :=
  let go (mtime : Option Int) : Option Configure :=
    match envProps env (fun _ => none) with
    | none => none
    | some p =>
      let load (p : Props) : Configure :=
        let c := addToConf host p.nonEmpty c
        let c := match mtime with
          | some m => { c with lastModified := m }
          | none => c
        { c with confRuns := c.confRuns + 1 }
      match atLoad with
      | .denied => some c
      | .bad _ => some c
      | .absent => some (load p)
      | .good _ content => some (load (p.merge content))
  match atStat with
  | .denied => some c
  | .absent => go none
  | .bad m => if m > c.lastModified then go (some m) else some c
  | .good m _ => if m > c.lastModified then go (some m) else some c

/-- The fields set by `GetInstance` before the first refresh, configure.go:132-148. -/
def preset : List (String × Setting) := [
  ("NetCollectorIP", .text (ascii "127.0.0.1")), ("NetCollectorUDPPort", .int 6100), ("NetCollectorTCPPort", .int 6100),
  ("NetCollectorTcpSoTimeoutMs", .int 60000), ("NetCollectorTcpConnectionTimeoutMs", .int 3000), ("UDPMaxBytes", .int 60000),
  ("StuckServiceBaseTimeMs", .int 300000), ("StuckServiceRemoveEnabled", .bool true), ("StuckServiceAlertEnabled", .bool true),
  ("TraceActiveserviceYellowTime", .int 3000), ("TraceActiveserviceRedTime", .int 8000), ("SendQueueSize", .int 3000),
  ("ProfileStepMaxKeepInMemoryCount", .int 2048), ("ProfileStepMaxCount", .int 1024), ("XlogDiscardServiceShowError", .bool true)]

/-- `GetInstance` before the first refresh, configure.go:128-148; a field not named has no value here (Go: its zero value). -/
def fresh : Configure := { fields := fun f => preset.lookup f }

/-- The value of a field read as a `bool`, an `int`, an `int32` or a text; Go's zero value when it has none.
   Go language: field accesses of configure.go:40-126. -/
def Configure.boolAt (c : Configure) (f : String) : Bool := match c.fields f with | some (.bool b) => b | _ => false
/-- As `boolAt` for an `int` (field accesses of configure.go:40-126). -/
def Configure.intAt (c : Configure) (f : String) : Int := match c.fields f with | some (.int n) => n | _ => 0
/-- As `boolAt` for an `int32` (field accesses of configure.go:40-126). -/
def Configure.int32At (c : Configure) (f : String) : BitVec 32 := match c.fields f with | some (.int32 n) => n | _ => 0
/-- As `boolAt` for a `string` (field accesses of configure.go:40-126). -/
def Configure.textAt (c : Configure) (f : String) : Bytes := match c.fields f with | some (.text t) => t | _ => []

/-- The sampling options, as xlogsampler.go reads them from the configuration: configure.go:76-122. -/
def Configure.sample (c : Configure) : SampleConf where
  discardPatterns := c.textAt "XlogDiscardServicePatterns"
  general := {
    enabled := c.boolAt "XlogSamplingEnabled", patterns := c.textAt "XlogSamplingExcludePatterns"
    onlyProfile := c.boolAt "XlogSamplingOnlyProfile"
    step1Ms := c.int32At "XlogSamplingStep1Ms", step2Ms := c.int32At "XlogSamplingStep2Ms", step3Ms := c.int32At "XlogSamplingStep3Ms"
    rate1 := c.intAt "XlogSamplingStep1RatePct", rate2 := c.intAt "XlogSamplingStep2RatePct"
    rate3 := c.intAt "XlogSamplingStep3RatePct", over := c.intAt "XlogSamplingOverRatePct" }
  pat1 := {
    enabled := c.boolAt "XlogPatternedSamplingEnabled", patterns := c.textAt "XlogPatternedSamplingServicePatterns"
    onlyProfile := c.boolAt "XlogPatternedSamplingOnlyProfile"
    step1Ms := c.int32At "XlogPatternedSamplingStep1Ms", step2Ms := c.int32At "XlogPatternedSamplingStep2Ms"
    step3Ms := c.int32At "XlogPatternedSamplingStep3Ms"
    rate1 := c.intAt "XlogPatternedSamplingStep1RatePct", rate2 := c.intAt "XlogPatternedSamplingStep2RatePct"
    rate3 := c.intAt "XlogPatternedSamplingStep3RatePct", over := c.intAt "XlogPatternedSamplingOverRatePct" }
  pat2 := {
    enabled := c.boolAt "XlogPatterned2SamplingEnabled", patterns := c.textAt "XlogPatterned2SamplingServicePatterns"
    onlyProfile := c.boolAt "XlogPatterned2SamplingOnlyProfile"
    step1Ms := c.int32At "XlogPatterned2SamplingStep1Ms", step2Ms := c.int32At "XlogPatterned2SamplingStep2Ms"
    step3Ms := c.int32At "XlogPatterned2SamplingStep3Ms"
    rate1 := c.intAt "XlogPatterned2SamplingStep1RatePct", rate2 := c.intAt "XlogPatterned2SamplingStep2RatePct"
    rate3 := c.intAt "XlogPatterned2SamplingStep3RatePct", over := c.intAt "XlogPatterned2SamplingOverRatePct" }
  pat3 := {
    enabled := c.boolAt "XlogPatterned3SamplingEnabled", patterns := c.textAt "XlogPatterned3SamplingServicePatterns"
    onlyProfile := c.boolAt "XlogPatterned3SamplingOnlyProfile"
    step1Ms := c.int32At "XlogPatterned3SamplingStep1Ms", step2Ms := c.int32At "XlogPatterned3SamplingStep2Ms"
    step3Ms := c.int32At "XlogPatterned3SamplingStep3Ms"
    rate1 := c.intAt "XlogPatterned3SamplingStep1RatePct", rate2 := c.intAt "XlogPatterned3SamplingStep2RatePct"
    rate3 := c.intAt "XlogPatterned3SamplingStep3RatePct", over := c.intAt "XlogPatterned3SamplingOverRatePct" }

/-- The options the tracing code reads, configure.go:40-124. -/
def Configure.traceConf (c : Configure) : TraceConf where
  keep := c.intAt "ProfileStepMaxKeepInMemoryCount"
  bulk := c.intAt "ProfileStepMaxCount"
  objHash := c.objHash
  objType := c.textAt "ObjType"
  stuckBase := c.intAt "StuckServiceBaseTimeMs"
  stuckRemove := c.boolAt "StuckServiceRemoveEnabled"
  stuckAlert := c.boolAt "StuckServiceAlertEnabled"
  yellow := c.intAt "TraceActiveserviceYellowTime"
  red := c.intAt "TraceActiveserviceRedTime"
  queryEnabled := c.boolAt "ProfileHttpQuerystringEnabled"
  headerEnabled := c.boolAt "ProfileHttpHeaderEnabled"
  headerKeys := c.textAt "ProfileHttpHeaderKeys"
  ipHeaderKey := c.textAt "TraceHttpClientIpHeaderKey"
  sample := c.sample

end Config
end Scouter
