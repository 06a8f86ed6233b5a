import Verif.Props.Errors
import Verif.Props.Ending
import Verif.Proofs.Begin
/-!
# C77: what the log of a service says after any history of calls
-/
namespace Scouter
open TM Trace

/-! ## Specification: what a call says about the service at `p` -/

/-- The service name set by a call. -/
def nameGiven (p : Nat) : Call → Option Bytes
  | .setServiceName (.traced q) n => if q = p then some n else none
  | _ => none

/-- The login, description and five free texts set by a call. -/
def textsGiven (p : Nat) : Call → Option (List Bytes)
  | .setFields q l d a b c e f => if q = p then some [l, d, a, b, c, e, f] else none
  | _ => none

/-- Whether a call makes it a stream. -/
def streamGiven (p : Nat) : Call → Option Bool
  | .setAsStream (.traced q) => if q = p then some true else none
  | _ => none

/-- Whether a call ends an api call of it. -/
def endsApiCall (p : Nat) : Call → Bool
  | .endApiCall (.traced q) (some _) _ => q = p
  | _ => false

/-- The time of the api call a call ends, 0 for other calls: the time since the service's start less the start of the step. -/
def apiCallTime (p : Nat) (w : World) : Call → BitVec 32
  | .endApiCall (.traced q) (some i) _ =>
    if q = p then
      match w.tctxs[p]?, w.steps[i]? with
      | some t, some s => sinceStart w t - s.ss.startTime
      | _, _ => 0
    else 0
  | _ => 0

/-- The times of the api calls ended during a history, added up. -/
def apiCallTimes (p : Nat) : World → List Call → BitVec 32
  | _, [] => 0
  | w, c :: cs => apiCallTime p w c + apiCallTimes p (perform w c) cs

/-- The last value given, the one before all of them if there is none. -/
def lastOr {α : Type} (x : α) (given : List α) : α := given.getLast?.getD x

/-- The login, description and free texts of a context. -/
def Tctx.texts (t : Tctx) : List Bytes := [t.login, t.desc, t.text1, t.text2, t.text3, t.text4, t.text5]

/-- What no call changes once a service is started. -/
def Tctx.fixed (t : Tctx) : BitVec 64 × BitVec 8 × Bytes × Bytes × BitVec 32 × BitVec 32 × BitVec 64 × BitVec 32 × BitVec 32 × Bool ×
    BitVec 64 × BitVec 32 × Bool × Int :=
  (t.txid, t.xType, t.remoteIp, t.httpMethod, t.userAgent, t.referer, t.userid, t.sqlCount, t.sqlTime, t.isChildTx, t.caller,
    t.callerObjHash, t.inherit, t.goid)

/-! ## Proofs -/

theorem lastOr_cons {α : Type} (x y : α) (ys : List α) : lastOr x (y :: ys) = lastOr y ys := by
  unfold lastOr
  cases ys with
  | nil => rfl
  | cons z zs => rw [List.getLast?_cons_cons, List.getLast?_eq_some_getLast (List.cons_ne_nil z zs)]; rfl

/-- From calls to histories. -/
theorem track {γ : Type} {core : Tctx → γ} {p : Nat} {given : Call → Option γ}
    (h : ∀ w c t, w.tctxs[p]? = some t → ∃ t', (perform w c).tctxs[p]? = some t' ∧ core t' = (given c).getD (core t)) (cs : List Call) :
    ∀ w t, w.tctxs[p]? = some t → ∃ t', (history w cs).tctxs[p]? = some t' ∧ core t' = lastOr (core t) (cs.filterMap given) := by
  induction cs with
  | nil => intro w t ht; exact ⟨t, ht, rfl⟩
  | cons c cs ih =>
    intro w t ht
    obtain ⟨t1, h1, e1⟩ := h w c t ht
    obtain ⟨t2, h2, e2⟩ := ih (perform w c) t1 h1
    refine ⟨t2, h2, ?_⟩
    rw [e2, e1, List.filterMap_cons]
    cases given c with
    | none => rfl
    | some x => exact (lastOr_cons _ _ _).symm

/-- A call that does not set what `core` shows. -/
theorem kept {γ : Type} {core : Tctx → γ} {p : Nat} {w : World} {t : Tctx} (c : Call) (D : DeafTo core c) (h : w.tctxs[p]? = some t) :
    ∃ t', (perform w c).tctxs[p]? = some t' ∧ core t' = core t := same_call_of (p := p) c D w t h

/-- `DeafTo` for a core that none of the excluded calls sets. -/
macro "deaf" : tactic => `(tactic| exact
  { col := fun _ _ => rfl, process := fun _ _ _ => rfl, sent := fun _ _ _ _ => rfl
    isStream := by intro h; obtain ⟨_, h⟩ := h; cases h <;> (intros; rfl)
    closed := by intro h; (first | cases h | skip) <;> (intros; rfl)
    lastMethod := by intro h; obtain ⟨_, _, _, h | h⟩ := h <;> cases h <;> (intros; rfl)
    serviceName := by intro h; obtain ⟨_, _, h⟩ := h; cases h <;> (intros; rfl)
    serviceHash := by intro h; intros; rfl
    status := by intro h; obtain ⟨_, _, h⟩ := h; cases h <;> (intros; rfl)
    startTime := by intro h; obtain ⟨_, h⟩ := h; cases h <;> (intros; rfl)
    apicall := by intro h; obtain ⟨_, _, _, h⟩ := h; cases h <;> (intros; rfl)
    texts := by intro h; obtain ⟨_, _, _, _, _, _, _, _, h⟩ := h; cases h <;> (intros; rfl)
    error := by intro h; intros; rfl
    gxid := by intro h; intros; rfl })

section
variable {w : World} {p : Nat} {t : Tctx}

theorem inert_call {γ : Type} {core : Tctx → γ} {c : Call} (h : w.tctxs[p]? = some t) (hc : perform w c = w) :
    ∃ t', (perform w c).tctxs[p]? = some t' ∧ core t' = core t := ⟨t, by rw [hc]; exact h, rfl⟩

theorem fixed_call (h : w.tctxs[p]? = some t) (c : Call) :
    ∃ t', (perform w c).tctxs[p]? = some t' ∧ t'.fixed = t.fixed := by
  refine kept (core := Tctx.fixed) c ?_ h
  cases c <;> deaf

/-- `SetServiceNameForcibly` in full. -/
theorem setServiceName_run (h : w.tctxs[p]? = some t) (n : Bytes) :
    perform w (.setServiceName (.traced p) n) = { w with
      proxy := (w.proxy.sendText .service n).1
      tctxs := w.tctxs.set p { t with serviceName := n, serviceHash := textHash n } } := by
  refine perform_of_run (recovered_run ?_)
  rw [withTrace_run (traceOf_traced h)]
  refine .trans (TM.bind_ok (modT_run h _)) ?_
  refine .trans (TM.bind_ok (sendText_exact _ _ _)) ?_
  refine .trans (modT_run (by exact getElem?_set_self' h) _) ?_
  simp only [List.set_set]

theorem traceOf_out {w : World} {q : Nat} (h : w.tctxs[q]? = none) : traceOf w (.traced q) = none := by
  refine if_neg ?_
  intro hlt
  rw [List.getElem?_eq_getElem hlt] at h
  cases h

theorem name_call (h : w.tctxs[p]? = some t) (c : Call) :
    ∃ t', (perform w c).tctxs[p]? = some t' ∧ t'.serviceName = (nameGiven p c).getD t.serviceName := by
  by_cases hc : ∃ x y, c = .setServiceName x y
  · obtain ⟨x, n, rfl⟩ := hc
    cases x with
    | nil => exact ⟨t, h, rfl⟩
    | plain => exact ⟨t, h, rfl⟩
    | traced q =>
      by_cases hq : q = p
      · subst hq
        rw [setServiceName_run h]
        exact ⟨_, getElem?_set_self' h, by simp [nameGiven]⟩
      · have e : (nameGiven p (.setServiceName (.traced q) n)).getD t.serviceName = t.serviceName := by simp [nameGiven, hq]
        rw [e]
        cases hu : w.tctxs[q]? with
        | none =>
          refine inert_call (core := Tctx.serviceName) h (perform_of_run ?_)
          refine recovered_run ?_
          unfold withTrace
          rw [TM.get_bind, traceOf_out hu]
          rfl
        | some u =>
          rw [setServiceName_run hu]
          refine ⟨t, ?_, rfl⟩
          show (w.tctxs.set q _)[p]? = _
          rw [List.getElem?_set_ne hq, h]
  · have e : nameGiven p c = none := by
      cases c
      case setServiceName => exact absurd ⟨_, _, rfl⟩ hc
      all_goals rfl
    rw [e]
    refine kept (core := Tctx.serviceName) c ?_ h
    cases c
    case setServiceName => exact absurd ⟨_, _, rfl⟩ hc
    all_goals deaf

theorem setAsStream_run (h : w.tctxs[p]? = some t) :
    setAsStream (.traced p) w = (.ok true, { w with tctxs := w.tctxs.set p { t with isStream := true } }) := by
  refine recovered_run ?_
  rw [withTrace_run (traceOf_traced h)]
  exact TM.bind_ok (modT_run h _)

theorem stream_call (h : w.tctxs[p]? = some t) (c : Call) :
    ∃ t', (perform w c).tctxs[p]? = some t' ∧ t'.isStream = (streamGiven p c).getD t.isStream := by
  by_cases hc : ∃ x, c = .setAsStream x
  · obtain ⟨x, rfl⟩ := hc
    cases x with
    | nil => exact ⟨t, h, rfl⟩
    | plain => exact ⟨t, h, rfl⟩
    | traced q =>
      have run : ∀ u, w.tctxs[q]? = some u → perform w (.setAsStream (.traced q)) =
          { w with tctxs := w.tctxs.set q { u with isStream := true } } := fun u hu =>
        perform_of_run (TM.bind_ok (setAsStream_run hu))
      by_cases hq : q = p
      · subst hq
        rw [run t h]
        exact ⟨_, getElem?_set_self' h, by simp [streamGiven]⟩
      · have e : (streamGiven p (.setAsStream (.traced q))).getD t.isStream = t.isStream := by simp [streamGiven, hq]
        rw [e]
        cases hu : w.tctxs[q]? with
        | none =>
          refine inert_call (core := Tctx.isStream) h (perform_of_run ?_)
          refine TM.bind_ok (a := false) (recovered_run ?_)
          unfold withTrace
          rw [TM.get_bind, traceOf_out hu]
          rfl
        | some u =>
          rw [run u hu]
          refine ⟨t, ?_, rfl⟩
          show (w.tctxs.set q _)[p]? = _
          rw [List.getElem?_set_ne hq, h]
  · have e : streamGiven p c = none := by
      cases c
      case setAsStream => exact absurd ⟨_, rfl⟩ hc
      all_goals rfl
    rw [e]
    refine kept (core := Tctx.isStream) c ?_ h
    cases c
    case setAsStream => exact absurd ⟨_, rfl⟩ hc
    all_goals deaf

theorem texts_call (h : w.tctxs[p]? = some t) (c : Call) :
    ∃ t', (perform w c).tctxs[p]? = some t' ∧ t'.texts = (textsGiven p c).getD t.texts := by
  by_cases hc : ∃ x l d a b c' e f, c = .setFields x l d a b c' e f
  · obtain ⟨q, l, d, a, b, c', e, f, rfl⟩ := hc
    have hp : (perform w (.setFields q l d a b c' e f)).tctxs = w.tctxs.modify q fun t =>
      { t with login := l, desc := d, text1 := a, text2 := b, text3 := c', text4 := e, text5 := f } := rfl
    rw [hp, List.getElem?_modify, h]
    by_cases hq : q = p
    · subst hq
      simp only [if_true, Option.map_eq_map, Option.map_some]
      exact ⟨_, rfl, by simp [textsGiven, Tctx.texts]⟩
    · exact ⟨t, by simp [hq], by simp [textsGiven, hq]⟩
  · have e : textsGiven p c = none := by
      cases c
      case setFields => exact absurd ⟨_, _, _, _, _, _, _, _, rfl⟩ hc
      all_goals rfl
    rw [e]
    refine kept (core := Tctx.texts) c ?_ h
    cases c
    case setFields => exact absurd ⟨_, _, _, _, _, _, _, _, rfl⟩ hc
    all_goals deaf

/-- The count and the time of api calls. -/
def Tctx.apiCalls (t : Tctx) : BitVec 32 × BitVec 32 := (t.apicallCount, t.apicallTime)

/-- What is left to do after the count and the time are added up. -/
def endApiCallTail (p i : Nat) (err : Option Bytes) : TM Unit := do
  match err with
  | some message => do
    let e ← Trace.sendText .error message
    modStep i (setStepError e)
    modT p fun t => { t with error := if t.error = 0 then e else t.error }
  | none => pure ()
  profilePop p i

theorem quiet_endApiCallTail (p i : Nat) (err : Option Bytes) : Ev (Quiet Tctx.apiCalls) (endApiCallTail p i err) := by
  have hb : Blind Tctx.apiCalls := ⟨fun _ _ => rfl, fun _ _ _ => rfl, fun _ _ _ _ => rfl⟩
  cases err with
  | none => exact quiet_profilePop hb _ _
  | some m =>
    exact quiet_bind (quiet_sendText _ _) fun _ => quiet_bind (quiet_modStep _ _) fun _ => quiet_bind (quiet_modT _ _ fun _ => rfl) fun _ =>
      quiet_profilePop hb _ _

theorem recovered_congr {α : Type} {d : α} {m m' : TM α} {w w' : World} (h : m w = m' w') : recovered d m w = recovered d m' w' := by
  unfold recovered; rw [h]

theorem api_call (h : w.tctxs[p]? = some t) (c : Call) (hwf : WellFormed w c) :
    ∃ t', (perform w c).tctxs[p]? = some t' ∧
      t'.apiCalls = (t.apicallCount + (if endsApiCall p c then 1 else 0), t.apicallTime + apiCallTime p w c) := by
  by_cases hc : ∃ x y z, c = .endApiCall x (some y) z
  · obtain ⟨x, i, z, rfl⟩ := hc
    cases x with
    | nil => exact ⟨t, h, by simp [endsApiCall, apiCallTime, Tctx.apiCalls]⟩
    | plain => exact ⟨t, h, by simp [endsApiCall, apiCallTime, Tctx.apiCalls]⟩
    | traced q =>
      by_cases hq : q = p
      · subst hq
        have hi := hwf i rfl
        have hs : w.steps[i]? = some w.steps[i] := List.getElem?_eq_getElem hi
        have e : perform w (.endApiCall (.traced q) (some i) z) = (recovered () (endApiCallTail q i z) { w with
            tick := w.tick + 1
            steps := w.steps.set i (setElapsed (sinceStart w t - w.steps[i].ss.startTime) w.steps[i])
            tctxs := w.tctxs.set q { t with
              apicallCount := t.apicallCount + 1, apicallTime := t.apicallTime + (sinceStart w t - w.steps[i].ss.startTime) } }).2 := by
          refine congrArg Prod.snd (recovered_congr (m := withTrace (.traced q) () _) ?_)
          rw [withTrace_run (traceOf_traced h), TM.bind_ok (getT_run h), TM.bind_ok (getStep_run hs), TM.bind_ok (millisToNow_run _ _)]
          refine .trans (TM.bind_ok (modStep_run (by exact hs) _)) ?_
          refine .trans (TM.bind_ok (modT_run (t := t) (by exact h) _)) ?_
          cases z <;> rfl
        rw [e]
        obtain ⟨t', h', e'⟩ := same_recovered (p := q) () (same_of_quiet (quiet_endApiCallTail q i z)) { w with
            tick := w.tick + 1
            steps := w.steps.set i (setElapsed (sinceStart w t - w.steps[i].ss.startTime) w.steps[i])
            tctxs := w.tctxs.set q { t with
              apicallCount := t.apicallCount + 1, apicallTime := t.apicallTime + (sinceStart w t - w.steps[i].ss.startTime) } }
          _ (getElem?_set_self' h)
        refine ⟨t', h', ?_⟩
        rw [e']
        simp only [endsApiCall, apiCallTime, h, hs, decide_true, if_true, Tctx.apiCalls]
      · have e1 : endsApiCall p (.endApiCall (.traced q) (some i) z) = false := by simp [endsApiCall, hq]
        have e2 : apiCallTime p w (.endApiCall (.traced q) (some i) z) = 0 := by simp [apiCallTime, hq]
        have hb : Blind Tctx.apiCalls := ⟨fun _ _ => rfl, fun _ _ _ => rfl, fun _ _ _ _ => rfl⟩
        have key : Ev (Same Tctx.apiCalls p) (Call.endApiCall (.traced q) (some i) z).code := by
          refine same_recovered _ (same_withTrace _ _ _ fun x hx => ?_)
          cases hx
          refine same_bind (same_of_quiet (quiet_getT _)) fun _ => same_bind (same_of_quiet (quiet_getStep _)) fun _ =>
            same_bind (same_of_quiet (quiet_millisToNow _)) fun _ => same_bind (same_of_quiet (quiet_modStep _ _)) fun _ =>
            same_bind (same_modT_other hq) fun _ => ?_
          exact same_of_quiet (quiet_endApiCallTail q i z)
        obtain ⟨t', h', e'⟩ := key w t h
        refine ⟨t', h', ?_⟩
        rw [e', e1, e2]
        simp [Tctx.apiCalls]
  · have e1 : endsApiCall p c = false := by
      cases c
      case endApiCall x y z =>
        cases y with
        | none => cases x <;> rfl
        | some y => exact absurd ⟨_, _, _, rfl⟩ hc
      all_goals rfl
    have e2 : apiCallTime p w c = 0 := by
      cases c
      case endApiCall x y z =>
        cases y with
        | none => cases x <;> rfl
        | some y => exact absurd ⟨_, _, _, rfl⟩ hc
      all_goals rfl
    have : t.apiCalls = (t.apicallCount + (if endsApiCall p c then 1 else 0), t.apicallTime + apiCallTime p w c) := by
      rw [e1, e2]; simp [Tctx.apiCalls]
    rw [← this]
    refine kept (core := Tctx.apiCalls) c ?_ h
    cases c
    case endApiCall x y z =>
      cases y with
      | none => deaf
      | some y => exact absurd ⟨_, _, _, rfl⟩ hc
    all_goals deaf

/-! ## The theorems: `w` is any state with a context at `p` (running or ended), `cs` any history of calls -/

/-- **C77**: the name of a service is the last one SetServiceNameForcibly gave it, the one it had otherwise. -/
theorem C77_name (h : w.tctxs[p]? = some t) (cs : List Call) :
    ∃ t', (history w cs).tctxs[p]? = some t' ∧ t'.serviceName = lastOr t.serviceName (cs.filterMap (nameGiven p)) :=
  track (core := Tctx.serviceName) (fun _ c _ h => name_call h c) cs w t h

/-- **C77**: the login, description and free texts of a service are those its user assigned last. -/
theorem C77_texts (h : w.tctxs[p]? = some t) (cs : List Call) :
    ∃ t', (history w cs).tctxs[p]? = some t' ∧ t'.texts = lastOr t.texts (cs.filterMap (textsGiven p)) :=
  track (core := Tctx.texts) (fun _ c _ h => texts_call h c) cs w t h

/-- **C77**: IsStream answers true exactly for a service that was a stream before or for which SetAsStream has been called. -/
theorem C77_stream (h : w.tctxs[p]? = some t) (cs : List Call) :
    (∃ b, (isStream (.traced p) (history w cs)).1 = .ok b ∧ (b = true ↔ t.isStream = true ∨ Call.setAsStream (.traced p) ∈ cs)) ∧
    (setAsStream (.traced p) (history w cs)).1 = .ok true := by
  obtain ⟨t', h', e⟩ := track (core := Tctx.isStream) (fun _ c _ h => stream_call h c) cs w t h
  refine ⟨⟨t'.isStream, ?_, ?_⟩, by rw [setAsStream_run h']⟩
  · have e1 : isStream (.traced p) (history w cs) = (.ok t'.isStream, history w cs) := by
      refine recovered_run ?_
      rw [withTrace_run (traceOf_traced h'), TM.bind_ok (getT_run h')]
      rfl
    rw [e1]
  · rw [e]
    have key : ∀ (cs : List Call) b, lastOr b (cs.filterMap (streamGiven p)) = true ↔ b = true ∨ Call.setAsStream (.traced p) ∈ cs := by
      intro cs
      induction cs with
      | nil => intro b; simp [lastOr]
      | cons c cs ih =>
        intro b
        rw [List.filterMap_cons, List.mem_cons]
        by_cases hc : c = .setAsStream (.traced p)
        · subst hc
          have : streamGiven p (.setAsStream (.traced p)) = some true := by simp [streamGiven]
          rw [this]
          show lastOr b (true :: _) = true ↔ _
          rw [lastOr_cons, ih]
          simp
        · have : streamGiven p c = none := by
            unfold streamGiven
            split
            · rename_i q
              rw [if_neg]
              rintro rfl
              exact hc rfl
            · rfl
          rw [this]
          show lastOr b _ = true ↔ _
          rw [ih]
          simp [Ne.symm hc]
    exact key cs _

/-- **C77**: no call changes the id, the kind, the address, the method, agent, referer, user, sql figures, caller and
goroutine of a started service. -/
theorem C77_fixed (h : w.tctxs[p]? = some t) (cs : List Call) :
    ∃ t', (history w cs).tctxs[p]? = some t' ∧ t'.fixed = t.fixed := by
  obtain ⟨t', h', e⟩ := track (core := Tctx.fixed) (given := fun _ => none) (fun _ c _ h => fixed_call h c) cs w t h
  refine ⟨t', h', ?_⟩
  have : ∀ cs : List Call, cs.filterMap (fun _ => (none : Option _)) = ([] : List (type_of% t.fixed)) := fun cs => by
    induction cs <;> simp_all
  rw [e, this]; rfl

/-- **C75**: the count of api calls of a service is the number of those ended, their time the sum of their times. -/
theorem C75_api_calls_add_up (cs : List Call) : ∀ {w : World} {t : Tctx}, w.tctxs[p]? = some t → AllWellFormed w cs →
    ∃ t', (history w cs).tctxs[p]? = some t' ∧ t'.apicallCount = t.apicallCount + BitVec.ofNat 32 (cs.countP (endsApiCall p)) ∧
      t'.apicallTime = t.apicallTime + apiCallTimes p w cs := by
  induction cs with
  | nil => intro w t h _; exact ⟨t, h, by simp, by simp [apiCallTimes]⟩
  | cons c cs ih =>
    intro w t h hwf
    obtain ⟨t1, h1, e1⟩ := api_call h c hwf.1
    obtain ⟨t2, h2, e2, e3⟩ := ih h1 hwf.2
    have ea : t1.apicallCount = _ := congrArg Prod.fst e1
    have eb : t1.apicallTime = _ := congrArg Prod.snd e1
    refine ⟨t2, h2, ?_, ?_⟩
    · rw [e2, ea, List.countP_cons]
      by_cases hc : endsApiCall p c = true
      · simp only [hc, if_true]
        rw [Nat.add_comm, BitVec.ofNat_add, BitVec.add_assoc]; rfl
      · simp [hc]
    · rw [e3, eb, apiCallTimes, BitVec.add_assoc]

/-- **C77**: the log sent when a service ends, after any history: the id, kind, caller, address, user, agent, referer and
sql figures it was started with, the last name and texts given, and the api calls ended. -/
theorem C77_log_after_any_history (hw : Reachable w) (h : w.tctxs[p]? = some t) (cs : List Call) (hwf : AllWellFormed w cs)
    (hopen : ∀ t', (history w cs).tctxs[p]? = some t' → t'.closed = false) :
    ∀ x ∈ xlogsOf (newPacks (history w cs) (perform (history w cs) (.endService (.traced p)))),
      x.txid = t.txid ∧ x.xType = t.xType ∧ x.caller = t.caller ∧ x.ipaddr = ipToBytes t.remoteIp ∧ x.userid = t.userid ∧
      x.userAgent = t.userAgent ∧ x.referer = t.referer ∧ x.sqlCount = t.sqlCount ∧ x.sqlTime = t.sqlTime ∧
      x.service = textHash (lastOr t.serviceName (cs.filterMap (nameGiven p))) ∧
      x.apicallCount = t.apicallCount + BitVec.ofNat 32 (cs.countP (endsApiCall p)) ∧
      x.apicallTime = t.apicallTime + apiCallTimes p w cs ∧
      ∃ login desc, [login, desc, x.text1, x.text2, x.text3, x.text4, x.text5] = lastOr t.texts (cs.filterMap (textsGiven p)) ∧
        x.login = textHash login ∧ x.desc = textHash desc := by
  obtain ⟨t', h', en⟩ := C77_name h cs
  obtain ⟨t1, h1, et⟩ := C77_texts h cs
  obtain ⟨t2, h2, ef⟩ := C77_fixed h cs
  obtain ⟨t3, h3, ec, em⟩ := C75_api_calls_add_up cs h hwf
  rw [h'] at h1 h2 h3
  cases h1; cases h2; cases h3
  have g := hw.good.history cs hwf
  intro x hx
  rw [C61_log_carries_the_service _ p t' h' (hopen t' h') g.bulk] at hx
  simp only [Tctx.fixed, Prod.mk.injEq] at ef
  obtain ⟨f1, f2, f3, f4, f5, f6, f7, f8, f9, f10, f11, -⟩ := ef
  split at hx
  · rw [List.mem_singleton] at hx
    subst hx
    refine ⟨f1, f2, f11, by show ipToBytes t'.remoteIp = _; rw [f3], f7, f5, f6, f8, f9, ?_, ec, em, t'.login, t'.desc, ?_, rfl, rfl⟩
    · show textHash t'.serviceName = _; rw [en]
    · rw [← et]; rfl
  · cases hx

/-- **C77**: in particular, for a service started by StartService. -/
theorem C77_log_of_a_service (hw : Reachable w) (c : Ctx) (hc : traceOf w c = none) (name addr : Bytes) (cs : List Call)
    (hwf : AllWellFormed (perform w (.startService c name addr)) cs)
    (hopen : ∀ t', (history w (.startService c name addr :: cs)).tctxs[w.tctxs.length]? = some t' → t'.closed = false) :
    ∀ x ∈ xlogsOf (newPacks (history w (.startService c name addr :: cs))
        (perform (history w (.startService c name addr :: cs)) (.endService (.traced w.tctxs.length)))),
      x.txid = w.env.id w.tick ∧ x.xType = 1 ∧ x.caller = 0 ∧ x.ipaddr = ipToBytes (beforeColon addr) ∧ x.userid = 0 ∧
      x.userAgent = 0 ∧ x.referer = 0 ∧ x.sqlCount = 0 ∧ x.sqlTime = 0 ∧
      x.service = textHash (lastOr name (cs.filterMap (nameGiven w.tctxs.length))) ∧
      x.apicallCount = BitVec.ofNat 32 (cs.countP (endsApiCall w.tctxs.length)) ∧
      x.apicallTime = apiCallTimes w.tctxs.length (perform w (.startService c name addr)) cs ∧
      ∃ login desc, [login, desc, x.text1, x.text2, x.text3, x.text4, x.text5] =
          lastOr [[], [], [], [], [], [], []] (cs.filterMap (textsGiven w.tctxs.length)) ∧
        x.login = textHash login ∧ x.desc = textHash desc := by
  obtain ⟨w1, t1, h1, g1, a1⟩ := startServiceApi_run hw.good hc name addr
  have hp : perform w (.startService c name addr) = w1 := perform_of_run (TM.bind_ok h1)
  have c1 := a1.ctx (begun_ctx w)
  have hr : Reachable (perform w (.startService c name addr)) := Reachable.perform hw trivial
  have hf := a1.fields
  intro x hx
  have := C77_log_after_any_history hr (p := w.tctxs.length) (t := t1) (by rw [hp]; exact c1) cs hwf hopen x hx
  have e : ∀ {β : Type} (f : Tctx → β), f t1.sansProfile = f ({ named w name addr (newborn w) with xType := 1 } : Tctx).sansProfile :=
    fun f => congrArg f hf
  have k1 : t1.txid = w.env.id w.tick := e (·.txid)
  have k2 : t1.xType = 1 := e (·.xType)
  have k3 : t1.caller = 0 := e (·.caller)
  have k4 : t1.remoteIp = beforeColon addr := e (·.remoteIp)
  have k5 : t1.userid = 0 := e (·.userid)
  have k6 : t1.userAgent = 0 := e (·.userAgent)
  have k7 : t1.referer = 0 := e (·.referer)
  have k8 : t1.sqlCount = 0 := e (·.sqlCount)
  have k9 : t1.sqlTime = 0 := e (·.sqlTime)
  have k10 : t1.serviceName = name := e (·.serviceName)
  have k11 : t1.apicallCount = 0 := e (·.apicallCount)
  have k12 : t1.apicallTime = 0 := e (·.apicallTime)
  have z : ∀ x : BitVec 32, 0 + x = x := BitVec.zero_add
  have k13 : t1.texts = [[], [], [], [], [], [], []] := e Tctx.texts
  rw [k1, k2, k3, k4, k5, k6, k7, k8, k9, k10, k11, k12, k13, z, z] at this
  exact this

end

/-! ## Non-vacuity -/

namespace Demo

/-- A service that is renamed twice, gets texts, is made a stream, and ends an api call. -/
def told : List Call :=
  [.setServiceName (.traced 0) (ascii "b"), .setFields 0 (ascii "me") [] (ascii "t") [] [] [] [], .startApiCall (.traced 0) (ascii "api") [],
   .setAsStream (.traced 0), .endApiCall (.traced 0) (some 1) none, .setServiceName (.traced 0) (ascii "c")]

example : Reachable (start env conf 100) := ⟨env, conf, 100, [], by decide, by decide, trivial, rfl⟩
example : traceOf (start env conf 100) .plain = none := rfl
example : AllWellFormed (perform (start env conf 100) (.startService .plain (ascii "a") (ascii "1.2.3.4:80"))) told := by
  refine ⟨trivial, trivial, trivial, trivial, ?_, trivial, trivial⟩
  intro i hi
  cases hi
  decide +kernel
example : ((history (start env conf 100) (.startService .plain (ascii "a") (ascii "1.2.3.4:80") :: told)).tctxs[0]?.map (·.closed)) = some false := by
  decide +kernel
example : (xlogsOf (newPacks (history (start env conf 100) (.startService .plain (ascii "a") (ascii "1.2.3.4:80") :: told))
    (perform (history (start env conf 100) (.startService .plain (ascii "a") (ascii "1.2.3.4:80") :: told)) (.endService (.traced 0))))).length = 1 := by
  decide +kernel
example : lastOr (ascii "a") (told.filterMap (nameGiven 0)) = ascii "c" ∧ told.countP (endsApiCall 0) = 1 := by decide +kernel

end Demo
end Scouter
