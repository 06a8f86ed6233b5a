import Verif.Spec.Config
import Verif.Model.Trace
import Verif.Model.Reload
/-!
# What every option of the configuration means

The options by their names in the configuration file, with their documented defaults, and the figures of the tracing calls,
the sampler and the sender that they set.  `t` gives the text in effect for a name (Spec/Config: `effectiveText`).  Only the
types of the settings (`TraceConf`, `RateConf`, `Reload.Target`) are shared with the model.
-/
namespace Scouter.Options
open Spec

/-- A number: that of the text, or the default without a text or if it is none. -/
def numberOr (d : Int) (t : Option Bytes) : Int := (t.bind wholeNumber).getD d

/-- Yes or no: whether the text means yes, or the default without a text. -/
def yesOr (d : Bool) (t : Option Bytes) : Bool := (t.map isYes).getD d

/-- A text, or the default without one. -/
def textOr (d : Bytes) (t : Option Bytes) : Bytes := t.getD d

/-- A set of sampling options, whose names begin with `set`; the patterns have a name of their own.  The limits in
milliseconds are kept in 32 bits. -/
def sampling (t : String → Option Bytes) (set patterns : String) : RateConf where
  enabled := yesOr false (t (set ++ "_enabled"))
  patterns := textOr [] (t patterns)
  onlyProfile := yesOr false (t (set ++ "_only_profile"))
  step1Ms := BitVec.ofInt 32 (numberOr 100 (t (set ++ "_step1_ms")))
  step2Ms := BitVec.ofInt 32 (numberOr 500 (t (set ++ "_step2_ms")))
  step3Ms := BitVec.ofInt 32 (numberOr 1000 (t (set ++ "_step3_ms")))
  rate1 := numberOr 2 (t (set ++ "_step1_rate_pct"))
  rate2 := numberOr 7 (t (set ++ "_step2_rate_pct"))
  rate3 := numberOr 15 (t (set ++ "_step3_rate_pct"))
  over := numberOr 3000 (t (set ++ "_over_rate_pct"))

/-- The settings of the tracing calls, of a host with this name. -/
def tracing (t : String → Option Bytes) (host : Option Bytes) : TraceConf where
  keep := numberOr 2048 (t "profile_step_max_keep_in_memory_count")
  bulk := numberOr 1024 (t "profile_step_max_count")
  objHash := hash (ascii "/" ++ host.getD (ascii "unknown") ++ ascii "/" ++ textOr (ascii "go1") (t "obj_name"))
  objType := textOr (ascii "golang") (t "obj_type")
  stuckBase := numberOr 300000 (t "stuck_service_base_time_ms")
  stuckRemove := yesOr true (t "stuck_service_remove_enabled")
  stuckAlert := yesOr true (t "stuck_service_alert_enabled")
  yellow := numberOr 3000 (t "trace_activeservice_yellow_time")
  red := numberOr 8000 (t "trace_activeservice_red_time")
  queryEnabled := yesOr false (t "profile_http_querystring_enabled")
  headerEnabled := yesOr false (t "profile_http_header_enabled")
  headerKeys := textOr [] (t "profile_http_header_keys")
  ipHeaderKey := textOr [] (t "trace_http_client_ip_header_key")
  sample :=
    { discardPatterns := textOr [] (t "xlog_discard_service_patterns")
      general := sampling t "xlog_sampling" "xlog_sampling_exclude_patterns"
      pat1 := sampling t "xlog_patterned_sampling" "xlog_patterned_sampling_service_patterns"
      pat2 := sampling t "xlog_patterned2_sampling" "xlog_patterned2_sampling_service_patterns"
      pat3 := sampling t "xlog_patterned3_sampling" "xlog_patterned3_sampling_service_patterns" }

/-- Where datagrams go, and how long they may be. -/
def collector (t : String → Option Bytes) : Reload.Target :=
  ⟨textOr (ascii "127.0.0.1") (t "net_collector_ip"), numberOr 6100 (t "net_collector_udp_port"), numberOr 60000 (t "udp_max_bytes")⟩

/-- All options, in the order they are shown in: name, default as shown, and kind (1: text, 2: number, 3: yes or no, 4: texts separated
by commas). -/
def documented : List (String × String × Nat) := [
  ("obj_name", "go1", 1),
  ("obj_type", "golang", 1),
  ("trace_obj_send", "false", 3),
  ("send_queue_size", "3000", 2),
  ("net_collector_ip", "127.0.0.1", 1),
  ("net_collector_udp_port", "6100", 2),
  ("net_collector_tcp_port", "6100", 2),
  ("net_collector_tcp_so_timeout_ms", "60000", 2),
  ("net_collector_tcp_connection_timeout_ms", "3000", 2),
  ("udp_max_bytes", "60000", 2),
  ("stuck_service_base_time_ms", "300000", 2),
  ("stuck_service_remove_enabled", "true", 3),
  ("stuck_service_alert_enabled", "true", 3),
  ("trace_activeservice_yellow_time", "3000", 2),
  ("trace_activeservice_red_time", "8000", 2),
  ("profile_step_max_keep_in_memory_count", "2048", 2),
  ("profile_step_max_count", "1024", 2),
  ("profile_http_querystring_enabled", "false", 3),
  ("profile_http_header_enabled", "false", 3),
  ("profile_http_header_keys", "", 4),
  ("trace_http_client_ip_header_key", "", 1),
  ("xlog_discard_service_patterns", "", 4),
  ("xlog_discard_service_show_error", "true", 3),
  ("xlog_sampling_exclude_patterns", "", 4),
  ("xlog_sampling_enabled", "false", 3),
  ("xlog_sampling_only_profile", "false", 3),
  ("xlog_sampling_step1_ms", "100", 2),
  ("xlog_sampling_step1_rate_pct", "2", 2),
  ("xlog_sampling_step2_ms", "500", 2),
  ("xlog_sampling_step2_rate_pct", "7", 2),
  ("xlog_sampling_step3_ms", "1000", 2),
  ("xlog_sampling_step3_rate_pct", "15", 2),
  ("xlog_sampling_over_rate_pct", "3000", 2),
  ("xlog_patterned_sampling_enabled", "false", 3),
  ("xlog_patterned_sampling_service_patterns", "", 4),
  ("xlog_patterned_sampling_only_profile", "false", 3),
  ("xlog_patterned_sampling_step1_ms", "100", 2),
  ("xlog_patterned_sampling_step1_rate_pct", "2", 2),
  ("xlog_patterned_sampling_step2_ms", "500", 2),
  ("xlog_patterned_sampling_step2_rate_pct", "7", 2),
  ("xlog_patterned_sampling_step3_ms", "1000", 2),
  ("xlog_patterned_sampling_step3_rate_pct", "15", 2),
  ("xlog_patterned_sampling_over_rate_pct", "3000", 2),
  ("xlog_patterned2_sampling_enabled", "false", 3),
  ("xlog_patterned2_sampling_service_patterns", "", 4),
  ("xlog_patterned2_sampling_only_profile", "false", 3),
  ("xlog_patterned2_sampling_step1_ms", "100", 2),
  ("xlog_patterned2_sampling_step1_rate_pct", "2", 2),
  ("xlog_patterned2_sampling_step2_ms", "500", 2),
  ("xlog_patterned2_sampling_step2_rate_pct", "7", 2),
  ("xlog_patterned2_sampling_step3_ms", "1000", 2),
  ("xlog_patterned2_sampling_step3_rate_pct", "15", 2),
  ("xlog_patterned2_sampling_over_rate_pct", "3000", 2),
  ("xlog_patterned3_sampling_enabled", "false", 3),
  ("xlog_patterned3_sampling_service_patterns", "", 4),
  ("xlog_patterned3_sampling_only_profile", "false", 3),
  ("xlog_patterned3_sampling_step1_ms", "100", 2),
  ("xlog_patterned3_sampling_step1_rate_pct", "2", 2),
  ("xlog_patterned3_sampling_step2_ms", "500", 2),
  ("xlog_patterned3_sampling_step2_rate_pct", "7", 2),
  ("xlog_patterned3_sampling_step3_ms", "1000", 2),
  ("xlog_patterned3_sampling_step3_rate_pct", "15", 2),
  ("xlog_patterned3_sampling_over_rate_pct", "3000", 2)]

end Scouter.Options
