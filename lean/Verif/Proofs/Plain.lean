import Verif.Proofs.Ledger
import Verif.Props.IpText
import Verif.Spec.WirePack
import Verif.Props.Hash
/-!
# What the tracing API sends directly
-/
namespace Scouter
open TM Trace Spec

/-- A transaction log with an address of four bytes, a profile, or an alert without tags. -/
def Plain : Pack → Prop
  | .xlog p => p.ipaddr.length = 4
  | .profile _ => True
  | .alert p => p.tags = []
  | _ => False

/-- An announcement of a text, with its own hash. -/
def Honest (t : TextPack) : Prop := ∃ k : TextKind, t.xtype = k.textType ∧ t.hash = crc32 t.text ∧ t.text ≠ []

/-- Only plain packs are sent directly in between, and only honest announcements made. -/
def Grow (w w' : World) : Prop := (∃ l, w'.proxy.direct = w.proxy.direct ++ l ∧ ∀ p ∈ l, Plain p) ∧
  ∃ l, w'.proxy.offered = w.proxy.offered ++ l ∧ ∀ t ∈ l, Honest t

theorem Grow.same {w w' : World} (h : w'.proxy.direct = w.proxy.direct) (h' : w'.proxy.offered = w.proxy.offered) : Grow w w' :=
  ⟨⟨[], by simp [h], by simp⟩, [], by simp [h'], by simp⟩

theorem sendText_offered (p : Proxy) (k : TextKind) (name : Bytes) :
    ∃ l, (p.sendText k name).1.offered = p.offered ++ l ∧ ∀ t ∈ l, Honest t := by
  unfold Proxy.sendText
  split
  · exact ⟨[], by simp, by simp⟩
  · next hn =>
    simp only
    split
    · exact ⟨[], by simp, by simp⟩
    · exact ⟨[⟨k.textType, hash name, name⟩], rfl, fun t ht => by
        rw [List.mem_singleton] at ht; subst ht; exact ⟨k, rfl, C16_hash_is_crc32 name, hn⟩⟩

theorem Grow.isPre : IsPre Grow where
  refl w := Grow.same rfl rfl
  trans h h' := by
    obtain ⟨⟨l, e, hl⟩, o, f, ho⟩ := h
    obtain ⟨⟨l', e', hl'⟩, o', f', ho'⟩ := h'
    refine ⟨⟨l ++ l', by rw [e', e, List.append_assoc], fun p hp => ?_⟩, o ++ o', by rw [f', f, List.append_assoc], fun p hp => ?_⟩
    · rcases List.mem_append.1 hp with hp | hp
      · exact hl p hp
      · exact hl' p hp
    · rcases List.mem_append.1 hp with hp | hp
      · exact ho p hp
      · exact ho' p hp

local notation "GE" => Ev Grow

theorem grow_bind {α β : Type} {m : TM α} {f : α → TM β} (h : GE m) (hf : ∀ a, GE (f a)) : GE (m >>= f) := Ev.bind Grow.isPre h hf
theorem grow_pure {α : Type} (a : α) : GE (pure a : TM α) := Ev.pure Grow.isPre a
theorem grow_panic {α : Type} : GE (TM.panic : TM α) := Ev.panic Grow.isPre
theorem grow_get : GE TM.get := Ev.get Grow.isPre
theorem grow_ite {α : Type} {c : Prop} [Decidable c] {m n : TM α} (hm : GE m) (hn : GE n) : GE (if c then m else n) := Ev.ite hm hn
theorem grow_reading {α : Type} (f : Oracle → Nat → α) : GE (TM.reading f) := fun _ => Grow.same rfl rfl
theorem grow_getT (p : Nat) : GE (getT p) := by intro w; unfold getT; split <;> exact Grow.same rfl rfl
theorem grow_getStep (p : Nat) : GE (getStep p) := by intro w; unfold getStep; split <;> exact Grow.same rfl rfl
theorem grow_modT (p : Nat) (f : Tctx → Tctx) : GE (modT p f) := fun _ => Grow.same rfl rfl
theorem grow_newStep (s : Step) : GE (newStep s) := fun _ => Grow.same rfl rfl
theorem grow_modStep (p : Nat) (f : Step → Step) : GE (modStep p f) := fun _ => Grow.same rfl rfl
theorem grow_sendText (k : TextKind) (n : Bytes) : GE (Trace.sendText k n) := fun w => ⟨⟨[], by simp [Trace.sendText, sendText_direct], by simp⟩, sendText_offered w.proxy k n⟩
theorem grow_sendDirect (p : Pack) (h : Plain p) : GE (sendDirect p) := fun _ => ⟨⟨[p], rfl, by simpa using h⟩, [], (List.append_nil _).symm, by simp⟩
theorem grow_sendAlert (l : BitVec 8) (t m : Bytes) : GE (sendAlert l t m) :=
  grow_ite (grow_pure _) (grow_bind grow_get fun _ => grow_sendDirect _ rfl)
theorem grow_millisToNow (s : Int) : GE (millisToNow s) := grow_bind (grow_reading _) fun _ => grow_pure _
theorem grow_recovered {α : Type} (d : α) {m : TM α} (h : GE m) : GE (recovered d m) := by
  intro w
  unfold recovered
  have := h w
  split
  · rename_i a w' heq; rw [heq] at this; exact this
  · rename_i w' heq; rw [heq] at this
    exact Grow.isPre.trans this ((grow_bind (grow_reading _) fun t => grow_bind (grow_sendAlert _ _ _) fun _ => grow_pure _) w')
theorem grow_withTrace {α : Type} (c : Ctx) (d : α) (f : Nat → TM α) (h : ∀ p, GE (f p)) : GE (withTrace c d f) := by
  unfold withTrace
  refine grow_bind grow_get fun w => ?_
  split
  · exact h _
  · exact grow_pure _
theorem grow_sendIfSet (k : TextKind) (n : Bytes) : GE (sendIfSet k n) := grow_ite (grow_pure _) (grow_sendText _ _)
theorem grow_meter (e : Int) (b : Bool) : GE (meter e b) := fun _ => Grow.same rfl rfl
theorem grow_register (p : Nat) : GE (register p) := grow_bind (grow_getT _) fun _ => fun _ => Grow.same rfl rfl
theorem grow_unregister (p : Nat) : GE (unregister p) := grow_bind (grow_getT _) fun _ => fun _ => Grow.same rfl rfl
theorem grow_modify {f : World → World} (h : ∀ w, (f w).proxy.direct = w.proxy.direct) (h2 : ∀ w, (f w).proxy.offered = w.proxy.offered) : GE (TM.modify f) := fun w => Grow.same (h w) (h2 w)
theorem grow_getSampler : GE getSampler := by
  unfold getSampler
  refine grow_bind grow_get fun w => ?_
  split
  · exact grow_pure _
  · exact grow_bind (grow_modify (fun _ => rfl) (fun _ => rfl)) fun _ => grow_pure _
theorem grow_newTraceContext : GE newTraceContext := by
  unfold newTraceContext
  refine grow_bind (grow_reading _) fun _ => grow_bind (grow_reading _) fun _ => grow_bind grow_get fun w => ?_
  split
  · exact grow_panic
  · exact grow_bind (grow_modify (fun _ => rfl) (fun _ => rfl)) fun _ => grow_pure _

/-- Walks through straight-line code. -/
macro "grow" : tactic => `(tactic| repeat' (first
  | with_reducible exact grow_pure _ | with_reducible exact grow_panic | with_reducible exact grow_get | with_reducible exact grow_getT _
  | with_reducible exact grow_getStep _ | with_reducible exact grow_modT _ _ | with_reducible exact grow_newStep _
  | with_reducible exact grow_modStep _ _ | with_reducible exact grow_sendText _ _ | with_reducible exact grow_reading _
  | with_reducible exact grow_sendAlert _ _ _ | with_reducible exact grow_millisToNow _ | with_reducible exact grow_sendIfSet _ _
  | with_reducible exact grow_meter _ _ | with_reducible exact grow_register _ | with_reducible exact grow_unregister _
  | with_reducible exact grow_getSampler | with_reducible exact grow_newTraceContext | assumption
  | (with_reducible refine grow_bind ?_ fun _ => ?_) | (with_reducible refine grow_recovered _ ?_)
  | (with_reducible refine grow_withTrace _ _ _ fun _ => ?_) | split | dsimp only))

theorem grow_sendProfile0 (p : Nat) (ps : List Nat) : GE (sendProfile0 p ps) := by
  unfold sendProfile0; grow; exact grow_sendDirect _ trivial
theorem grow_sendSlices (p : Nat) (ss : List (List Nat)) : GE (sendSlices p ss) := by
  induction ss with
  | nil => exact grow_pure _
  | cons s ss ih => exact grow_bind (grow_sendProfile0 _ _) fun _ => ih
theorem grow_sendProfile (p : Nat) (ps : List Nat) : GE (sendProfile p ps) := by
  unfold sendProfile; grow; exact grow_sendSlices _ _
theorem grow_profileProcess (p ptr : Nat) : GE (profileProcess p ptr) := by
  unfold profileProcess; grow; exact grow_sendProfile _ _
theorem grow_profilePush (p ptr : Nat) : GE (profilePush p ptr) := by unfold profilePush; grow
theorem grow_profilePop (p ptr : Nat) : GE (profilePop p ptr) := by unfold profilePop; grow; exact grow_profileProcess _ _
theorem grow_profileAdd (p ptr : Nat) : GE (profileAdd p ptr) := by unfold profileAdd; grow; exact grow_profileProcess _ _
theorem grow_profileClose (p : Nat) (b : Bool) : GE (profileClose p b) := by unfold profileClose; grow; exact grow_sendProfile _ _
theorem grow_addNew (p : Nat) (st : BitVec 32) (b : StepBody) : GE (addNew p st b) := by unfold addNew; grow; exact grow_profileAdd _ _
theorem grow_findXLogDiscard (t : Tctx) (e : BitVec 32) : GE (findXLogDiscard t e) := by unfold findXLogDiscard; grow

/-- The log made by `toXlog` has an address of four bytes. -/
theorem grow_toXlog_bind {β : Type} (t : Tctx) (d : BitVec 8) (e : BitVec 32) (f : XlogPack → TM β)
    (h : ∀ x, x.ipaddr.length = 4 → GE (f x)) : GE (toXlog t d e >>= f) := by
  have e1 : (toXlog t d e >>= f) = (do
    let threadName ← Trace.sendText .hashMessage (formatInt 10 t.gxid.toInt)
    let login ← sendIfSet .login t.login
    let desc ← sendIfSet .desc t.desc
    f { XlogPack.new with
      elapsed := e, service := t.serviceHash, xType := t.xType, txid := t.txid, gxid := t.gxid, caller := t.caller
      threadNameHash := threadName, sqlCount := t.sqlCount, sqlTime := t.sqlTime, ipaddr := ipToBytes t.remoteIp
      userid := t.userid, hasDump := 0, error := t.error, status := t.status, discardType := d
      profileSize := BitVec.ofNat 32 t.profileSize, profileCount := BitVec.ofNat 32 t.profileCount
      userAgent := t.userAgent, referer := t.referer, apicallCount := t.apicallCount, apicallTime := t.apicallTime
      login := login, desc := desc, text1 := t.text1, text2 := t.text2, text3 := t.text3, text4 := t.text4
      text5 := t.text5 }) := by
    funext w
    unfold toXlog
    simp only [TM.bind_def, TM.pure_run]
    repeat' (first | rfl | split)
    all_goals simp_all
  rw [e1]
  refine grow_bind (grow_sendText _ _) fun _ => grow_bind (grow_sendIfSet _ _) fun _ => grow_bind (grow_sendIfSet _ _) fun _ => h _ ?_
  exact C18_ip_always_four_bytes _

theorem grow_endRest (p : Nat) : GE (endRest p) := by
  unfold endRest
  refine grow_bind (grow_modT _ _) fun _ => grow_bind (grow_getT _) fun _ => grow_bind (grow_sendText _ _) fun _ =>
    grow_bind (grow_modT _ _) fun _ => grow_bind (grow_unregister _) fun _ => grow_bind (grow_getT _) fun _ =>
    grow_bind (grow_millisToNow _) fun _ => grow_bind (grow_findXLogDiscard _ _) fun _ => grow_toXlog_bind _ _ _ _ fun x hx =>
    grow_bind (grow_profileClose _ _) fun _ => grow_bind (grow_meter _ _) fun _ => grow_ite ?_ (grow_pure _)
  exact grow_bind grow_get fun w => grow_sendDirect _ hx
theorem grow_endTctx (p : Nat) : GE (endTctx p) := by unfold endTctx; grow; exact grow_endRest _
theorem grow_endAnyService (c : Ctx) : GE (endAnyService c) := by unfold endAnyService; grow; exact grow_endTctx _
theorem grow_endStuck (p : Nat) : GE (endStuck p) := by
  unfold endStuck; grow
  all_goals first | exact grow_endTctx _ | exact grow_addNew _ _ _

theorem grow_addPMessageStep (c : Ctx) (l : BitVec 8) (m : Bytes) (e : BitVec 32) (ps : List Bytes) : GE (addPMessageStep c l m e ps) := by
  unfold addPMessageStep; grow; exact grow_addNew _ _ _
theorem grow_startService (n a : Bytes) : GE (Trace.startService n a) := by
  unfold Trace.startService startRest; grow; exact grow_addNew _ _ _
theorem grow_addMessages (p : Nat) (s : BitVec 32) (ms : List Bytes) : GE (addMessages p s ms) := by
  induction ms with
  | nil => exact grow_pure _
  | cons m ms ih => exact grow_bind (grow_addNew _ _ _) fun _ => ih
theorem grow_addParams (p : Nat) (ps : List (Option Bytes)) : GE (addParams p ps) := by
  induction ps with
  | nil => exact grow_pure _
  | cons o ps ih =>
    cases o with
    | none => exact ih
    | some s => unfold addParams; grow; exact grow_addNew _ _ _
theorem grow_startMethod0 (p : Nat) (f n : Bytes) (ps : List (Option Bytes)) : GE (startMethod0 p f n ps) := by
  unfold startMethod0; grow
  all_goals first | exact grow_addParams _ _ | exact grow_profilePush _ _
theorem grow_startApiCall0 (p : Nat) (n a : Bytes) : GE (startApiCall0 p n a) := by
  unfold startApiCall0; grow
  all_goals first | exact grow_profilePush _ _
theorem grow_activeLoop (now : Int) (ps : List Nat) : ∀ (n : Nat) (a : Nat × Nat × Nat), GE (activeLoop now ps n a) := by
  induction ps with
  | nil => intro _ _; exact grow_pure _
  | cons p ps ih =>
    intro n a
    unfold activeLoop; grow
    all_goals first | exact grow_endStuck _ | exact ih _ _

set_option maxHeartbeats 1000000 in
/-- Every call sends only plain packs directly. -/
theorem grow_code (c : Call) : GE c.code := by
  cases c <;> unfold Call.code
  all_goals
    try unfold Trace.isStream
    try unfold Trace.setAsStream
    try unfold Trace.markAsError
    try unfold Trace.markAsErrorForcibly
    try unfold Trace.setServiceNameForcibly
    try unfold Trace.addStep
    try unfold Trace.addMessageStep
    try unfold Trace.addHashedMessageStep
    try unfold Trace.startHttpService
    try unfold Trace.endHttpService
    try unfold Trace.startServiceApi
    try unfold Trace.endService
    try unfold Trace.startInheritance
    try unfold Trace.goWithTrace
    try unfold Trace.startChild
    try unfold Trace.goBegin
    try unfold Trace.startMethod
    try unfold Trace.startCustomMethod
    try unfold Trace.endMethod
    try unfold Trace.startApiCall
    try unfold Trace.startApiCallProp
    try unfold Trace.endApiCall
    try unfold Trace.getActiveCount
    try unfold startHttpRest profileHttpHeaders
    try unfold inheritTctx
    grow
    all_goals first
      | with_reducible exact grow_addPMessageStep _ _ _ _ _ | with_reducible exact grow_profileAdd _ _ | with_reducible exact grow_addNew _ _ _ | with_reducible exact grow_startService _ _
      | with_reducible exact grow_addMessages _ _ _ | with_reducible exact grow_endAnyService _ | with_reducible exact grow_startMethod0 _ _ _ _ | with_reducible exact grow_profilePop _ _
      | with_reducible exact grow_startApiCall0 _ _ _ | with_reducible exact grow_activeLoop _ _ _ _ | exact grow_modify (fun _ => rfl) (fun _ => rfl)

theorem grow_history (cs : List Call) : ∀ (w : World), Grow w (history w cs) := by
  induction cs with
  | nil => intro w; exact Grow.same rfl rfl
  | cons c cs ih => intro w; exact Grow.isPre.trans (grow_code c w) (ih (perform w c))

theorem honest_history (env : Oracle) (conf : TraceConf) (cap : Nat) (cs : List Call) :
    ∀ t ∈ (history (start env conf cap) cs).proxy.offered, Honest t := by
  obtain ⟨-, l, e, hl⟩ := grow_history cs (start env conf cap)
  rw [e]
  exact fun p hp => hl p (by simpa [start, Proxy.init] using hp)

theorem plain_history (env : Oracle) (conf : TraceConf) (cap : Nat) (cs : List Call) :
    ∀ p ∈ (history (start env conf cap) cs).proxy.direct, Plain p := by
  obtain ⟨⟨l, e, hl⟩, -⟩ := grow_history cs (start env conf cap)
  rw [e]
  exact fun p hp => hl p (by simpa [start, Proxy.init] using hp)

end Scouter
