import Verif.Proofs.Ledger
/-!
# What no call touches

A relation that holds across every elementary change of the world holds across every call.
-/
namespace Scouter
open TM Trace

/-- Elementary changes: everything but the configuration, and of the sampler only its making. -/
inductive Elem1 : World → World → Prop
  | tick (w : World) : Elem1 w { w with tick := w.tick + 1 }
  | tctxs (w : World) (l : List Tctx) : Elem1 w { w with tctxs := l }
  | steps (w : World) (l : List Step) : Elem1 w { w with steps := l }
  | proxy (w : World) (x : Proxy) : Elem1 w { w with proxy := x }
  | registry (w : World) (r : Cache (BitVec 64) Nat) : Elem1 w { w with registry := r }
  | metered (w : World) (l : List (Int × Bool)) : Elem1 w { w with metered := l }
  | sampler (w : World) (h : w.sampler = none) : Elem1 w { w with sampler := some (Sampler.new w.conf.sample) }
  | rerun (w : World) : Elem1 w { w with sampler := w.sampler.map (·.run w.conf.sample) }

/-- A relation that is a preorder and holds across elementary changes. -/
class Frame (R : World → World → Prop) : Prop where
  pre : IsPre R
  elem : ∀ {w w'}, Elem1 w w' → R w w'

section
variable {R : World → World → Prop} [Frame R] {α β : Type}

theorem fr_bind {m : TM α} {f : α → TM β} (h : Ev R m) (hf : ∀ a, Ev R (f a)) : Ev R (m >>= f) := Ev.bind Frame.pre h hf
theorem fr_pure (a : α) : Ev R (pure a : TM α) := Ev.pure Frame.pre a
theorem fr_panic : Ev R (TM.panic : TM α) := Ev.panic Frame.pre
theorem fr_get : Ev R TM.get := Ev.get Frame.pre
theorem fr_reading (f : Oracle → Nat → α) : Ev R (TM.reading f) := fun w => Frame.elem (.tick w)
theorem fr_getT (p : Nat) : Ev R (getT p) := by
  intro w; unfold getT; split <;> exact Frame.pre.refl w
theorem fr_getStep (p : Nat) : Ev R (getStep p) := by
  intro w; unfold getStep; split <;> exact Frame.pre.refl w
theorem fr_modT (p : Nat) (f : Tctx → Tctx) : Ev R (modT p f) := fun w => Frame.elem (.tctxs w _)
theorem fr_newStep (s : Step) : Ev R (newStep s) := fun w => Frame.elem (.steps w _)
theorem fr_modStep (p : Nat) (f : Step → Step) : Ev R (modStep p f) := fun w => Frame.elem (.steps w _)
theorem fr_sendText (k : TextKind) (n : Bytes) : Ev R (Trace.sendText k n) := fun w => Frame.elem (.proxy w _)
theorem fr_sendDirect (p : Pack) : Ev R (sendDirect p) := fun w => Frame.elem (.proxy w _)
theorem fr_meter (e : Int) (b : Bool) : Ev R (meter e b) := fun w => Frame.elem (.metered w _)
theorem fr_millisToNow (s : Int) : Ev R (millisToNow s) := fr_bind (fr_reading _) fun _ => fr_pure _
theorem fr_ite {c : Prop} [Decidable c] {m n : TM α} (hm : Ev R m) (hn : Ev R n) : Ev R (if c then m else n) := Ev.ite hm hn
theorem fr_register (p : Nat) : Ev R (register p) := fr_bind (fr_getT p) fun _ => fun w => Frame.elem (.registry w _)
theorem fr_unregister (p : Nat) : Ev R (unregister p) := fr_bind (fr_getT p) fun _ => fun w => Frame.elem (.registry w _)
theorem fr_sendAlert (l : BitVec 8) (t m : Bytes) : Ev R (sendAlert l t m) := by
  unfold sendAlert
  exact fr_ite (fr_pure _) (fr_bind fr_get fun _ => fr_sendDirect _)
theorem fr_recovered (d : α) {m : TM α} (h : Ev R m) : Ev R (recovered d m) := by
  intro w
  unfold recovered
  have h := h w
  split
  · rename_i heq; rw [heq] at h; exact h
  · rename_i w' heq; rw [heq] at h
    exact Frame.pre.trans h (fr_bind (fr_reading _) (fun _ => fr_bind (fr_sendAlert _ _ _) fun _ => fr_pure _) w')
theorem fr_getSampler : Ev R getSampler := by
  intro w
  unfold getSampler
  rw [TM.get_bind]
  cases h : w.sampler with
  | some s => exact Frame.pre.refl w
  | none => exact Frame.elem (.sampler w h)
theorem fr_withTrace (c : Ctx) (d : α) (f : Nat → TM α) (h : ∀ p, Ev R (f p)) : Ev R (withTrace c d f) := by
  unfold withTrace
  refine fr_bind fr_get fun w => ?_
  split
  · exact h _
  · exact fr_pure _

/-- Goes through a piece of code. -/
macro "fr" : tactic => `(tactic| repeat' first
  | exact fr_pure _ | exact fr_panic | exact fr_get | exact fr_reading _ | exact fr_getT _ | exact fr_getStep _
  | exact fr_modT _ _ | exact fr_newStep _ | exact fr_modStep _ _ | exact fr_sendText _ _ | exact fr_sendDirect _
  | exact fr_meter _ _ | exact fr_millisToNow _ | exact fr_register _ | exact fr_unregister _ | exact fr_sendAlert _ _ _
  | exact fr_getSampler
  | apply fr_recovered | refine fr_withTrace _ _ _ (fun _ => ?_)
  | apply fr_ite | refine fr_bind ?_ (fun _ => ?_)
  | split)

theorem fr_sendProfile0 (p : Nat) (l : List Nat) : Ev R (sendProfile0 p l) := by unfold sendProfile0; fr
theorem fr_sendSlices (p : Nat) (l : List (List Nat)) : Ev R (sendSlices p l) := by
  induction l with
  | nil => exact fr_pure _
  | cons s ss ih => exact fr_bind (fr_sendProfile0 p s) fun _ => ih
theorem fr_sendProfile (p : Nat) (l : List Nat) : Ev R (sendProfile p l) := by
  unfold sendProfile
  refine fr_bind fr_get fun w => ?_
  split
  · exact fr_sendSlices _ _
  · exact fr_panic
theorem fr_profileProcess (p ptr : Nat) : Ev R (profileProcess p ptr) := by
  unfold profileProcess
  refine fr_bind (fr_getT _) fun t => fr_bind fr_get fun w => ?_
  split
  · fr
  · exact fr_bind (fr_modT _ _) fun _ => fr_sendProfile _ _
  · fr
theorem fr_profilePush (p ptr : Nat) : Ev R (profilePush p ptr) := by unfold profilePush; fr
theorem fr_profilePop (p ptr : Nat) : Ev R (profilePop p ptr) :=
  fr_bind (fr_getStep _) fun _ => fr_bind (fr_modT _ _) fun _ => fr_profileProcess _ _
theorem fr_profileAdd (p ptr : Nat) : Ev R (profileAdd p ptr) :=
  fr_bind (fr_getT _) fun _ => fr_bind (fr_getStep _) fun _ => fr_bind (fr_modStep _ _) fun _ => fr_bind (fr_modT _ _) fun _ =>
    fr_profileProcess _ _
theorem fr_profileClose (p : Nat) (ok : Bool) : Ev R (profileClose p ok) := by
  unfold profileClose
  refine fr_bind (fr_getT _) fun t => ?_
  split
  · exact fr_sendProfile _ _
  · exact fr_pure _
theorem fr_addNew (p : Nat) (s : BitVec 32) (b : StepBody) : Ev R (addNew p s b) :=
  fr_bind (fr_newStep _) fun _ => fr_profileAdd _ _
theorem fr_addMessages (p : Nat) (s : BitVec 32) (l : List Bytes) : Ev R (addMessages p s l) := by
  induction l with
  | nil => exact fr_pure _
  | cons m ms ih => exact fr_bind (fr_addNew _ _ _) fun _ => ih
theorem fr_addParams (p : Nat) (l : List (Option Bytes)) : Ev R (addParams p l) := by
  induction l with
  | nil => exact fr_pure _
  | cons m ms ih =>
    cases m with
    | none => exact ih
    | some s =>
      exact fr_bind (fr_getT _) fun _ => fr_bind (fr_millisToNow _) fun _ => fr_bind (fr_millisToNow _) fun _ =>
        fr_bind (fr_addNew _ _ _) fun _ => ih
theorem fr_newTraceContext : Ev R newTraceContext := by
  unfold newTraceContext
  refine fr_bind (fr_reading _) fun _ => fr_bind (fr_reading _) fun _ => fr_bind fr_get fun w => ?_
  split
  · exact fr_panic
  · exact fr_bind (fun w => Frame.elem (.tctxs w _)) fun _ => fr_pure _
theorem fr_startService (n a : Bytes) : Ev R (startService n a) := by
  unfold startService startRest
  refine fr_bind fr_newTraceContext fun p => fr_bind (fr_register p) fun _ => fr_bind ?_ fun _ => fr_pure _
  exact fr_bind (fr_modT _ _) fun _ => fr_bind (fr_reading _) fun _ => fr_bind (fr_modT _ _) fun _ =>
    fr_bind (fr_addNew _ _ _) fun _ => fr_bind (fr_modT _ _) fun _ => fr_bind (fr_sendText _ _) fun _ => fr_modT _ _
theorem fr_findXLogDiscard (t : Tctx) (e : BitVec 32) : Ev R (findXLogDiscard t e) := by unfold findXLogDiscard; fr
theorem fr_toXlog (t : Tctx) (d : BitVec 8) (e : BitVec 32) : Ev R (toXlog t d e) := by unfold toXlog sendIfSet; fr
theorem fr_endRest (p : Nat) : Ev R (endRest p) := by
  unfold endRest sendXlog
  exact fr_bind (fr_modT _ _) fun _ => fr_bind (fr_getT _) fun _ => fr_bind (fr_sendText _ _) fun _ => fr_bind (fr_modT _ _) fun _ =>
    fr_bind (fr_unregister _) fun _ => fr_bind (fr_getT _) fun _ => fr_bind (fr_millisToNow _) fun _ =>
    fr_bind (fr_findXLogDiscard _ _) fun _ => fr_bind (fr_toXlog _ _ _) fun _ => fr_bind (fr_profileClose _ _) fun _ =>
    fr_bind (fr_meter _ _) fun _ => fr_ite (fr_bind fr_get fun _ => fr_sendDirect _) (fr_pure _)
theorem fr_endTctx (p : Nat) : Ev R (endTctx p) := fr_bind (fr_getT _) fun _ => fr_ite (fr_pure _) (fr_endRest p)
theorem fr_endAnyService (c : Ctx) : Ev R (endAnyService c) :=
  fr_withTrace _ _ _ fun _ => fr_bind (fr_getT _) fun _ => fr_ite (fr_pure _) (fr_endTctx _)
theorem fr_addPMessageStep (c : Ctx) (l : BitVec 8) (m : Bytes) (e : BitVec 32) (ps : List Bytes) :
    Ev R (addPMessageStep c l m e ps) :=
  fr_recovered _ (fr_withTrace _ _ _ fun _ => fr_bind (fr_getT _) fun _ => fr_bind (fr_millisToNow _) fun _ =>
    fr_bind (fr_sendText _ _) fun _ => fr_addNew _ _ _)
theorem fr_endStuck (p : Nat) : Ev R (endStuck p) := by
  refine fr_recovered _ (fr_bind fr_get fun w => fr_ite ?_ (fr_pure _))
  refine fr_bind (fr_getT _) fun _ => fr_bind (fr_millisToNow _) fun _ => fr_bind (fr_sendText _ _) fun _ =>
    fr_bind (fr_addNew _ _ _) fun _ => fr_bind (fr_getT _) fun _ => fr_ite ?_ (fr_endTctx p)
  exact fr_bind (fr_sendText _ _) fun _ => fr_bind (fr_modT _ _) fun _ => fr_endTctx p
theorem fr_activeLoop (now : Int) (ps : List Nat) : ∀ c a, Ev R (activeLoop now ps c a) := by
  induction ps with
  | nil => intro c a; exact fr_pure _
  | cons p ps ih =>
    intro c a
    unfold activeLoop
    refine fr_ite (fr_pure _) (fr_bind (fr_getT _) fun t => fr_bind fr_get fun w => ?_)
    exact fr_ite (fr_bind (fr_endStuck p) fun _ => fr_bind (fr_getT _) fun _ => fr_bind fr_get fun _ =>
      fr_bind (fr_sendAlert _ _ _) fun _ => ih _ _) (ih _ _)
theorem fr_startHttpRest (r : Request) (p : Nat) : Ev R (startHttpRest r p) :=
  fr_bind (fr_modT _ _) fun _ => fr_bind (fr_sendText _ _) fun _ => fr_bind (fr_modT _ _) fun _ => fr_bind (fr_sendText _ _) fun _ =>
    fr_bind (fr_modT _ _) fun _ => fr_bind (fr_getT _) fun _ => fr_bind (fr_millisToNow _) fun _ => fr_bind fr_get fun _ =>
    fr_bind (fr_addMessages _ _ _) fun _ => fr_bind fr_get fun _ => fr_ite (fr_addNew _ _ _) (fr_pure _)
theorem fr_inheritTctx (p q : Nat) : Ev R (inheritTctx p q) :=
  fr_bind (fr_getT _) fun _ => fr_bind (fr_modT _ _) fun _ => fr_bind (fr_addNew _ _ _) fun _ => fr_bind (fr_getT _) fun _ =>
    fr_bind fr_get fun _ => fr_modT _ _
theorem fr_startChild (c : Ctx) (n : Bytes) : Ev R (startChild c n) := by
  refine fr_withTrace _ _ _ fun q => fr_bind (fr_getT _) fun parent => fr_bind (fr_startService _ _) fun p =>
    fr_bind (fr_getT _) fun parent => fr_bind (fr_modT _ _) fun _ => ?_
  have hj : Ev R (do
      let child ← getT p
      let now ← millisToNow parent.startTime
      let h ← Trace.sendText .apicall n
      addNew q now (.async child.txid h 0)
      return Ctx.traced p) :=
    fr_bind (fr_getT _) fun _ => fr_bind (fr_millisToNow _) fun _ => fr_bind (fr_sendText _ _) fun _ =>
      fr_bind (fr_addNew _ _ _) fun _ => fr_pure _
  exact fr_ite (fr_bind (fr_modT _ _) fun _ => fr_bind (fr_modT _ _) fun _ => hj) hj
theorem fr_startMethod0 (p : Nat) (f m : Bytes) (ps : List (Option Bytes)) : Ev R (startMethod0 p f m ps) :=
  fr_bind (fr_addParams _ _) fun _ => fr_bind (fr_modT _ _) fun _ => fr_bind (fr_sendText _ _) fun _ => fr_bind (fr_getT _) fun _ =>
    fr_bind (fr_millisToNow _) fun _ => fr_bind (fr_newStep _) fun _ => fr_bind (fr_profilePush _ _) fun _ => fr_pure _
theorem fr_startApiCall0 (p : Nat) (n a : Bytes) : Ev R (startApiCall0 p n a) :=
  fr_bind (fr_sendText _ _) fun _ => fr_bind (fr_getT _) fun _ => fr_bind (fr_millisToNow _) fun _ => fr_bind (fr_reading _) fun _ =>
    fr_bind (fr_newStep _) fun _ => fr_bind (fr_profilePush _ _) fun _ => fr_pure _

/-- Every call but a change of configuration. -/
theorem frame_call (c : Call) (h : ∀ x, c ≠ .conf x) : Ev R c.code := by
  have dr : ∀ {γ : Type} {m : TM γ}, Ev R m → Ev R (m >>= fun _ => pure ()) := fun h => fr_bind h fun _ => fr_pure ()
  cases c with
  | conf x => exact absurd rfl (h x)
  | isStream c => exact dr (by unfold Trace.isStream; fr)
  | setAsStream c => exact dr (by unfold Trace.setAsStream; fr)
  | markAsError c m =>
    exact fr_recovered _ (fr_withTrace _ _ _ fun _ => fr_bind (fr_getT _) fun _ => fr_ite
      (fr_bind (fr_sendText _ _) fun _ => fr_bind (fr_modT _ _) fun _ => fr_addPMessageStep _ _ _ _ _)
      (fr_addPMessageStep _ _ _ _ _))
  | markAsErrorForcibly c m =>
    exact fr_recovered _ (fr_withTrace _ _ _ fun _ => fr_bind (fr_sendText _ _) fun _ => fr_modT _ _)
  | setServiceName c m =>
    exact fr_recovered _ (fr_withTrace _ _ _ fun _ => fr_bind (fr_modT _ _) fun _ => fr_bind (fr_sendText _ _) fun _ => fr_modT _ _)
  | addStep c p =>
    refine fr_recovered _ (fr_withTrace _ _ _ fun q => ?_)
    cases p with
    | none => exact fr_panic
    | some p => exact fr_profileAdd _ _
  | addMessageStep c m =>
    exact fr_recovered _ (fr_withTrace _ _ _ fun _ => fr_bind (fr_getT _) fun _ => fr_bind (fr_millisToNow _) fun _ => fr_addNew _ _ _)
  | addHashedMessageStep c m v e =>
    exact fr_recovered _ (fr_withTrace _ _ _ fun _ => fr_bind (fr_getT _) fun _ => fr_bind (fr_sendText _ _) fun _ =>
      fr_bind (fr_millisToNow _) fun _ => fr_addNew _ _ _)
  | addPMessageStep c l m e ps => exact fr_addPMessageStep _ _ _ _ _
  | startHttpService c r =>
    refine dr ?_
    unfold Trace.startHttpService
    refine fr_ite (fr_pure _) (fr_bind fr_get fun v => ?_)
    split
    · exact fr_pure _
    · refine fr_bind (fr_recovered _ ?_) fun p? => ?_
      · split
        · exact fr_panic
        · exact fr_bind (fr_startService _ _) fun _ => fr_pure _
      · split
        · exact fr_recovered _ (fr_bind (fr_startHttpRest _ _) fun _ => fr_pure _)
        · exact fr_pure _
  | endHttpService c s =>
    refine fr_recovered _ ?_
    cases s with
    | none => exact fr_endAnyService c
    | some code =>
      exact fr_withTrace _ _ _ fun _ => fr_bind (fr_getT _) fun _ => fr_ite (fr_pure _) (fr_bind (fr_modT _ _) fun _ => fr_endAnyService c)
  | startService c n ip =>
    refine dr (fr_bind fr_get fun v => ?_)
    split
    · exact fr_pure _
    · exact fr_recovered _ (fr_bind (fr_startService _ _) fun _ => fr_bind (fr_modT _ _) fun _ => fr_pure _)
  | endService c => exact fr_recovered _ (fr_endAnyService c)
  | startInheritance q =>
    refine dr (fr_bind (fr_recovered _ ?_) fun p? => ?_)
    · split
      · exact fr_panic
      · exact fr_bind (fr_getT _) fun _ => fr_bind (fr_startService _ _) fun _ => fr_pure _
    · split
      · exact fr_recovered _ (fr_bind (fr_inheritTctx _ _) fun _ => fr_pure _)
      · exact fr_pure _
  | goWithTrace c n => exact dr (fr_recovered _ (fr_bind (fr_startChild c n) fun _ => fr_pure _))
  | goBegin c => exact fr_withTrace _ _ _ fun _ => fr_bind (fr_reading _) fun _ => fr_modT _ _
  | startMethod c f ps => exact dr (fr_recovered _ (fr_withTrace _ _ _ fun _ => fr_bind (fr_startMethod0 _ _ _ _) fun _ => fr_pure _))
  | startCustomMethod c f ps => exact dr (fr_recovered _ (fr_withTrace _ _ _ fun _ => fr_bind (fr_startMethod0 _ _ _ _) fun _ => fr_pure _))
  | endMethod c p =>
    refine fr_recovered _ ?_
    cases p with
    | none => exact fr_pure _
    | some p =>
      exact fr_withTrace _ _ _ fun _ => fr_bind (fr_getT _) fun _ => fr_bind (fr_getStep _) fun _ => fr_bind (fr_millisToNow _) fun _ =>
        fr_bind (fr_modStep _ _) fun _ => fr_profilePop _ _
  | startApiCall c n a => exact dr (fr_recovered _ (fr_withTrace _ _ _ fun _ => fr_bind (fr_startApiCall0 _ _ _) fun _ => fr_pure _))
  | startApiCallProp c n a r =>
    refine dr (fr_recovered _ (fr_withTrace _ _ _ fun p => fr_bind (fr_startApiCall0 _ _ _) fun ptr => fr_bind (fr_getT _) fun _ => ?_))
    have hj : Ev R (do
        let t ← getT p
        let s ← getStep ptr
        let w ← get
        return (some ptr, if r then
          [(ascii "X-Scouter-Gxid", intToXlogString32 t.gxid),
           (ascii "X-Scouter-Caller", intToXlogString32 t.txid),
           (ascii "X-Scouter-Callee", intToXlogString32 (stepTxid s)),
           (ascii "X-Scouter-Caller-Obj", formatInt 10 w.conf.objHash.toInt)] else [])) :=
      fr_bind (fr_getT _) fun _ => fr_bind (fr_getStep _) fun _ => fr_bind fr_get fun _ => fr_pure _
    exact fr_ite (fr_bind (fr_modT _ _) fun _ => hj) hj
  | endApiCall c p e =>
    refine fr_recovered _ ?_
    cases p with
    | none => exact fr_pure _
    | some p =>
      refine fr_withTrace _ _ _ fun q => fr_bind (fr_getT _) fun _ => fr_bind (fr_getStep _) fun _ =>
        fr_bind (fr_millisToNow _) fun _ => fr_bind (fr_modStep _ _) fun _ => fr_bind (fr_modT _ _) fun _ => ?_
      cases e with
      | none => exact fr_profilePop _ _
      | some m => exact fr_bind (fr_sendText _ _) fun _ => fr_bind (fr_modStep _ _) fun _ => fr_bind (fr_modT _ _) fun _ => fr_profilePop _ _
  | activeCount o => exact dr (fr_bind fr_get fun _ => fr_bind (fr_reading _) fun _ => fr_activeLoop _ _ _ _)
  | makeStep s => exact dr (fr_newStep s)
  | setFields p l d t1 t2 t3 t4 t5 => exact fr_modT _ _
  | samplerRun => exact fun w => Frame.elem (.rerun w)
  | resetTexts o => exact fun w => Frame.elem (.proxy w _)
  | queue s => exact fun w => Frame.elem (.proxy w _)

end
end Scouter
