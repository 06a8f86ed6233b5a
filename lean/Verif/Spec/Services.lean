import Verif.Model.Calls
import Mathlib.Data.List.Defs
/-!
# Vocabulary for what tracing shows: services, their logs, their profiles
-/
namespace Scouter

/-- The transaction logs among packs. -/
def xlogsOf (ps : List Pack) : List XlogPack := ps.filterMap fun p => match p with | .xlog x => some x | _ => none

/-- The profile packs among packs. -/
def profilesOf (ps : List Pack) : List XlogProfilePack :=
  ps.filterMap fun p => match p with | .profile x => some x | _ => none

/-- The alerts among packs. -/
def alertsOf (ps : List Pack) : List AlertPack := ps.filterMap fun p => match p with | .alert x => some x | _ => none

/-- What the ledger of services shows of a context: its transaction id and whether the service has ended. -/
def shownOf (t : Tctx) : BitVec 64 × Bool := (t.txid, t.closed)

/-- All services ever started: transaction id and whether ended. -/
def services (w : World) : List (BitVec 64 × Bool) := w.tctxs.map shownOf

/-- The transaction ids of the services that have ended. -/
def endedIds (w : World) : List (BitVec 64) := ((services w).filter (·.2)).map (·.1)

/-- The services still running (as positions in the list of all contexts). -/
def running (w : World) : List Nat := (List.range w.tctxs.length).filter fun p => (w.tctxs[p]?.map (·.closed)) == some false

/-- Transaction ids of the logs sent, in order. -/
def loggedIds (w : World) : List (BitVec 64) := (xlogsOf w.proxy.direct).map (·.txid)

/-- The hash that stands for a text: 0 for the empty text. -/
def textHash (name : Bytes) : BitVec 32 := if name = [] then 0 else hash name

/-- The transaction log a finished service should have, except for the object hash. -/
def xlogFor (t : Tctx) (discard : BitVec 8) (elapsed : BitVec 32) : XlogPack :=
  { XlogPack.new with
    elapsed := elapsed, service := textHash t.serviceName, xType := t.xType, txid := t.txid, gxid := t.gxid
    caller := t.caller, threadNameHash := textHash (formatInt 10 t.gxid.toInt), sqlCount := t.sqlCount
    sqlTime := t.sqlTime, ipaddr := ipToBytes t.remoteIp, userid := t.userid, hasDump := 0, error := t.error
    status := t.status, discardType := discard, profileSize := BitVec.ofNat 32 t.profileSize
    profileCount := BitVec.ofNat 32 t.profileCount, userAgent := t.userAgent, referer := t.referer
    apicallCount := t.apicallCount, apicallTime := t.apicallTime, login := textHash t.login
    desc := textHash t.desc, text1 := t.text1, text2 := t.text2, text3 := t.text3, text4 := t.text4
    text5 := t.text5 }

/-- All sampling and discarding is switched off. -/
def NoSampling (c : SampleConf) : Prop :=
  c.general.enabled = false ∧ c.pat1.enabled = false ∧ c.pat2.enabled = false ∧ c.pat3.enabled = false ∧
    c.discardPatterns = []

/-- The ids supplied by the generator for the first `n` readings are distinct. -/
def DistinctIds (env : Oracle) (n : Nat) : Prop := ∀ i j, i < n → j < n → env.id i = env.id j → i = j

/-- Every configuration in force during a history satisfies `P`. -/
def Always (P : TraceConf → Prop) (conf : TraceConf) (cs : List Trace.Call) : Prop :=
  P conf ∧ ∀ c, Trace.Call.conf c ∈ cs → P c

/-- The profile packs for slices of a context's steps, one per slice; only the elapsed times are left open. -/
def PacksFor (w : World) (t : Tctx) (slices : List (List Nat)) (packs : List Pack) : Prop :=
  List.Forall₂ (fun s pk => ∃ e, pk = Pack.profile
    { time := 0, objHash := w.conf.objHash, service := t.serviceHash, txid := t.txid, elapsed := e,
      profile := stepsToBytes (s.map (fun i => w.steps[i]?)) }) slices packs

/-- A call that passes no nil or dangling argument where the API needs a value, and configures positive limits. -/
def WellFormed (w : World) : Trace.Call → Prop
  | .addStep _ ptr => ∃ i, ptr = some i ∧ i < w.steps.length
  | .startHttpService _ r => r ≠ none
  | .startInheritance q => ∃ i, q = some i ∧ i < w.tctxs.length
  | .endMethod _ ptr => ∀ i, ptr = some i → i < w.steps.length
  | .endApiCall _ ptr _ => ∀ i, ptr = some i → i < w.steps.length
  | .conf c => 1 ≤ c.keep ∧ 1 ≤ c.bulk
  | _ => True

/-- Every call of a history is well formed when it is made. -/
def AllWellFormed : World → List Trace.Call → Prop
  | _, [] => True
  | w, c :: cs => WellFormed w c ∧ AllWellFormed (Trace.perform w c) cs

/-- A state some history of calls leads to, from a start with positive profile limits; no call passes nil. -/
def Reachable (w : World) : Prop := ∃ env conf cap cs, 1 ≤ conf.keep ∧ 1 ≤ conf.bulk ∧
  AllWellFormed (Trace.start env conf cap) cs ∧ w = Trace.history (Trace.start env conf cap) cs

end Scouter
