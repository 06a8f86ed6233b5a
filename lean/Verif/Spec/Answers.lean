import Verif.Model.Handlers
import Verif.Spec.Services
import Verif.Spec.Config
/-!
# Vocabulary for answers to requests
-/
namespace Scouter
namespace Handlers
open Trace Config Tcp Dump

/-- The answer is one map pack with this table. -/
def AnswersTable (a : Answer) (t : Table) : Prop := a = ⟨[], some (.map ⟨t⟩)⟩

/-- The answer is the bare end mark. -/
def AnswersNothing (a : Answer) : Prop := a = ⟨[], none⟩

/-- The list under a key of a table is this one. -/
def HasColumn (t : Table) (key : String) (vs : List Value) : Prop := t.get (ascii key) = .list vs

/-- The text under a key of a table is this one. -/
def HasText (t : Table) (key : String) (text : Bytes) : Prop := t.get (ascii key) = .text text

/-- The commands the agent knows. -/
def commands : List Bytes :=
  (["KEEP_ALIVE", "OBJECT_RESET_CACHE", "TRIGGER_THREAD_DUMP", "OBJECT_DUMP_FILE_LIST", "OBJECT_DUMP_FILE_DETAIL",
    "TRIGGER_BLOCK_PROFILE", "TRIGGER_MUTEX_PROFILE", "OBJECT_LIST_HEAP_DUMP", "OBJECT_DOWNLOAD_HEAP_DUMP",
    "OBJECT_DELETE_HEAP_DUMP", "OBJECT_CALL_CPU_PROFILE", "OBJECT_CALL_BLOCK_PROFILE", "OBJECT_CALL_MUTEX_PROFILE",
    "GET_CONFIGURE_WAS", "SET_CONFIGURE_WAS", "LIST_CONFIGURE_WAS", "CONFIGURE_VALUE_TYPE", "CONFIGURE_DESC",
    "OBJECT_ACTIVE_SERVICE_LIST", "OBJECT_THREAD_DETAIL"] : List String).map ascii

/-- At no time more than `n` services are running. -/
def AtMostRunning (m : Machine) (a : Agent) (es : List Event) (n : Nat) : Prop :=
  ∀ k, (running (a.life m (es.take k)).world).length ≤ n

/-- A row of the active-service list: the service (its position among all contexts), its context and the clock when the row was
made. -/
structure Row where
  at_ : Nat
  ctx : Tctx
  now : Int

/-- Whole milliseconds from the start of the service to the clock reading, as a 32-bit number. -/
def Row.elapsed (r : Row) : BitVec 32 := BitVec.ofInt 32 ((r.now - r.ctx.startTime).tdiv 1000000)

/-- The table shows these rows, and nothing else. -/
structure ShowsRows (t : Table) (rows : List Row) : Prop where
  id : HasColumn t "id" (rows.map fun r => .dec (BitVec.ofInt 64 r.ctx.goid))
  elapsed : HasColumn t "elapsed" (rows.map fun r => .dec (r.elapsed.signExtend 64))
  service : HasColumn t "service" (rows.map fun r => .text r.ctx.serviceName)
  name : HasColumn t "name" (rows.map fun r => .text (ascii "[goroutine] " ++ formatInt 10 r.ctx.goid))
  txid : HasColumn t "txid" (rows.map fun r => .text (intToXlogString32 r.ctx.txid))
  ip : HasColumn t "ip" (rows.map fun r => .text r.ctx.remoteIp)
  stat : HasColumn t "stat" (rows.map fun _ => .text (ascii "n/a"))
  cpu : HasColumn t "cpu" (rows.map fun _ => .dec (-1))
  sql : HasColumn t "sql" (rows.map fun _ => .text (ascii "n/a"))
  subcall : HasColumn t "subcall" (rows.map fun _ => .text (ascii "n/a"))
  complete : t.get (ascii "complete") = .bool true
  keys : t.map (·.1) = (["id", "elapsed", "service", "name", "txid", "ip", "stat", "cpu", "sql", "subcall", "complete"] :
    List String).map ascii

end Handlers
end Scouter
