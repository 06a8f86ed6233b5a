import Verif.Spec.Apart
import Verif.Proofs.Lineage
import Verif.Proofs.Hush
import Verif.Proofs.Record
import Verif.Proofs.Frame
/-!
# A call about one context leaves the others exactly as they are
-/
namespace Scouter
open TM Trace

section
variable {γ α β : Type} {core : Tctx → γ} {p q : Nat}

theorem other_profileClose (h : q ≠ p) (ok : Bool) : Ev (Same core p) (profileClose q ok) := by
  unfold profileClose
  refine same_bind (same_of_quiet (quiet_getT _)) fun t => ?_
  split
  · exact other_sendProfile h _
  · exact same_pure _

theorem other_endRest (hq : q ≠ p) : Ev (Same core p) (endRest q) := by
  unfold endRest sendXlog
  refine same_bind (same_modT_other hq) fun _ => same_bind (same_of_quiet (quiet_getT _)) fun _ =>
    same_bind (same_of_quiet (quiet_sendText _ _)) fun _ => same_bind (same_modT_other hq) fun _ =>
    same_bind (same_unregister _) fun _ => same_bind (same_of_quiet (quiet_getT _)) fun _ =>
    same_bind (same_of_quiet (quiet_millisToNow _)) fun _ => same_bind (same_of_quiet (quiet_findXLogDiscard _ _)) fun _ =>
    same_bind (same_of_quiet (quiet_toXlog _ _ _)) fun _ => same_bind (other_profileClose hq _) fun _ =>
    same_bind (same_elsewhere fun _ => rfl) fun _ => ?_
  exact Ev.ite (same_bind (same_of_quiet quiet_get) fun _ => same_elsewhere fun _ => rfl) (same_pure _)

theorem other_endTctx (hq : q ≠ p) : Ev (Same core p) (endTctx q) :=
  same_bind (same_of_quiet (quiet_getT _)) fun _ => Ev.ite (same_pure _) (other_endRest hq)

theorem other_endAnyService (c : Ctx) (h : ctxOf c ≠ some p) : Ev (Same core p) (endAnyService c) :=
  same_withTrace _ _ _ fun q e => same_bind (same_of_quiet (quiet_getT _)) fun _ => Ev.ite (same_pure _)
    (other_endTctx (by subst e; exact fun x => h (by rw [x]; rfl)))

theorem other_addMessages (h : q ≠ p) (s : BitVec 32) (l : List Bytes) : Ev (Same core p) (addMessages q s l) := by
  induction l with
  | nil => exact same_pure _
  | cons m ms ih => exact same_bind (other_addNew h _ _) fun _ => ih
theorem other_addParams (h : q ≠ p) (l : List (Option Bytes)) : Ev (Same core p) (addParams q l) := by
  induction l with
  | nil => exact same_pure _
  | cons m ms ih =>
    cases m with
    | none => exact ih
    | some s =>
      exact same_bind (same_of_quiet (quiet_getT _)) fun _ => same_bind (same_of_quiet (quiet_millisToNow _)) fun _ =>
        same_bind (same_of_quiet (quiet_millisToNow _)) fun _ => same_bind (other_addNew h _ _) fun _ => ih
theorem other_profilePush (h : q ≠ p) (ptr : Nat) : Ev (Same core p) (profilePush q ptr) :=
  same_bind (same_of_quiet (quiet_getT _)) fun _ => same_bind (same_of_quiet (quiet_getStep _)) fun _ =>
    same_bind (same_of_quiet (quiet_modStep _ _)) fun _ => same_modT_other h
theorem other_profilePop (h : q ≠ p) (ptr : Nat) : Ev (Same core p) (profilePop q ptr) :=
  same_bind (same_of_quiet (quiet_getStep _)) fun _ => same_bind (same_modT_other h) fun _ => other_profileProcess h _

/-- Continuing after a start, with the new context. -/
theorem other_startService_bind {n a : Bytes} {f : Nat → TM β} (h : ∀ q, q ≠ p → Ev (Same core p) (f q)) :
    Ev (Same core p) (startService n a >>= f) := by
  have e : (startService n a >>= f) = (newTraceContext >>= fun q => register q >>= fun _ => startRest q n a >>= fun _ => f q) := by
    funext w
    unfold startService
    simp only [TM.bind_def]
    cases newTraceContext w with
    | mk o w1 =>
      cases o with
      | panic => rfl
      | ok q =>
        simp only
        cases register q w1 with
        | mk o w2 =>
          cases o with
          | panic => rfl
          | ok u =>
            simp only
            cases startRest q n a w2 with
            | mk o w3 => cases o <;> rfl
  rw [e]
  exact same_new_bind fun q hq => same_bind (same_register q) fun _ => same_bind (other_startRest hq _ _) fun _ => h q hq

/-- After a recovered start, an existing context is another one. -/
theorem other_recStart_bind {n a : Bytes} {f : Option Nat → TM β} (h : ∀ q, q ≠ p → Ev (Same core p) (f (some q)))
    (h0 : Ev (Same core p) (f none)) :
    Ev (Same core p) (recovered none (startService n a >>= fun q => pure (some q)) >>= f) := by
  intro w t ht
  have hp : p < w.tctxs.length := (List.getElem?_eq_some_iff.mp ht).1
  have hs := same_recovered (core := core) (p := p) none
    (same_bind (other_startService n a) fun q => same_pure (some q)) w t ht
  rw [TM.bind_def]
  cases hr : recovered none (startService n a >>= fun q => pure (some q)) w with
  | mk o w1 =>
    rw [hr] at hs
    obtain ⟨t1, h1, e1⟩ := hs
    cases o with
    | panic => exact ⟨t1, h1, e1⟩
    | ok x =>
      cases x with
      | none =>
        obtain ⟨t2, h2, e2⟩ := h0 w1 t1 h1
        exact ⟨t2, h2, e2.trans e1⟩
      | some q =>
        have hq : q ≠ p := by
          unfold recovered at hr
          rw [TM.bind_def] at hr
          cases hs : startService n a w with
          | mk o w' =>
            rw [hs] at hr
            cases o with
            | ok q' =>
              have := (startService_result hs).1
              have e : some q' = some q := by
                have := congrArg Prod.fst hr
                simpa using this
              cases e
              omega
            | panic =>
              simp only at hr
              rw [TM.reading_bind, TM.bind_def] at hr
              split at hr
              · have := congrArg Prod.fst hr
                simp at this
              · simp at hr
        obtain ⟨t2, h2, e2⟩ := h q hq w1 t1 h1
        exact ⟨t2, h2, e2.trans e1⟩

/-- Goes through a piece of code about another context. -/
macro "oth" : tactic => `(tactic| repeat' first
  | exact same_pure _ | exact same_of_quiet quiet_panic | exact same_of_quiet quiet_get | exact same_of_quiet (quiet_reading _)
  | exact same_of_quiet (quiet_getT _) | exact same_of_quiet (quiet_getStep _) | exact same_of_quiet (quiet_newStep _)
  | exact same_of_quiet (quiet_modStep _ _) | exact same_of_quiet (quiet_sendText _ _) | exact same_of_quiet (quiet_millisToNow _)
  | exact same_modT_other (by assumption) | exact other_addNew (by assumption) _ _ | exact other_profileAdd (by assumption) _
  | exact other_addMessages (by assumption) _ _ | exact other_addParams (by assumption) _
  | exact other_profilePush (by assumption) _ | exact other_profilePop (by assumption) _
  | apply Ev.ite | refine same_bind ?_ (fun _ => ?_)
  | split)

theorem other_startHttpRest (r : Request) (h : q ≠ p) : Ev (Same core p) (startHttpRest r q) := by
  unfold startHttpRest profileHttpHeaders
  oth
theorem other_inheritTctx (h : q ≠ p) (r : Nat) : Ev (Same core p) (inheritTctx q r) := by
  unfold inheritTctx
  oth
theorem other_startMethod0 (h : q ≠ p) (f m : Bytes) (ps : List (Option Bytes)) : Ev (Same core p) (startMethod0 q f m ps) := by
  unfold startMethod0
  oth
theorem other_startApiCall0 (h : q ≠ p) (n a : Bytes) : Ev (Same core p) (startApiCall0 q n a) := by
  unfold startApiCall0
  oth
theorem other_addPMessageStep (c : Ctx) (h : ctxOf c ≠ some p) (l : BitVec 8) (m : Bytes) (e : BitVec 32) (ps : List Bytes) :
    Ev (Same core p) (addPMessageStep c l m e ps) :=
  same_recovered _ (same_withTrace _ _ _ fun q hc => by
    have hq : q ≠ p := by subst hc; exact fun x => h (by rw [x]; rfl)
    oth)

set_option maxHeartbeats 1000000 in
theorem elsewhere_call (c : Call) (h : about c ≠ some p) (ha : ∀ o, c ≠ .activeCount o) : Ev (Same core p) c.code := by
  have dr : ∀ {δ : Type} {m : TM δ}, Ev (Same core p) m → Ev (Same core p) (m >>= fun _ => pure ()) := fun h => same_bind h fun _ => same_pure ()
  have ne : ∀ {c : Ctx} {q : Nat}, ctxOf c ≠ some p → c = .traced q → q ≠ p := by
    intro c q h e x
    subst e
    exact h (by rw [x]; rfl)
  cases c with
  | isStream c => exact dr (same_recovered _ (same_withTrace _ _ _ fun q e => by have := ne h e; oth))
  | setAsStream c => exact dr (same_recovered _ (same_withTrace _ _ _ fun q e => by have := ne h e; oth))
  | markAsError c m =>
    refine same_recovered _ (same_withTrace _ _ _ fun q e => ?_)
    have := ne h e
    exact same_bind (same_of_quiet (quiet_getT _)) fun _ => Ev.ite
      (same_bind (same_of_quiet (quiet_sendText _ _)) fun _ => same_bind (same_modT_other this) fun _ => other_addPMessageStep _ h _ _ _ _)
      (other_addPMessageStep _ h _ _ _ _)
  | markAsErrorForcibly c m => exact same_recovered _ (same_withTrace _ _ _ fun q e => by have := ne h e; oth)
  | setServiceName c m => exact same_recovered _ (same_withTrace _ _ _ fun q e => by have := ne h e; oth)
  | addStep c x =>
    refine same_recovered _ (same_withTrace _ _ _ fun q e => ?_)
    have := ne h e
    cases x with
    | none => oth
    | some x => oth
  | addMessageStep c m => exact same_recovered _ (same_withTrace _ _ _ fun q e => by have := ne h e; oth)
  | addHashedMessageStep c m v e => exact same_recovered _ (same_withTrace _ _ _ fun q e => by have := ne h e; oth)
  | addPMessageStep c l m e ps => exact other_addPMessageStep c h _ _ _ _
  | startHttpService c r =>
    refine dr ?_
    unfold Trace.startHttpService
    refine Ev.ite (same_pure _) (same_bind (same_of_quiet quiet_get) fun v => ?_)
    split
    · exact same_pure _
    · cases r with
      | none =>
        exact same_bind (same_recovered _ (same_of_quiet quiet_panic)) fun x => by
          cases x <;> exact same_pure _
      | some r =>
        exact other_recStart_bind (fun q hq => same_recovered _ (same_bind (other_startHttpRest r hq) fun _ => same_pure _)) (same_pure _)
  | endHttpService c s =>
    refine same_recovered _ ?_
    cases s with
    | none => exact other_endAnyService c h
    | some code =>
      exact same_withTrace _ _ _ fun _ e => same_bind (same_of_quiet (quiet_getT _)) fun _ => Ev.ite (same_pure _)
        (same_bind (same_modT_other (ne h e)) fun _ => other_endAnyService c h)
  | startService c n ip =>
    refine dr (same_bind (same_of_quiet quiet_get) fun v => ?_)
    split
    · exact same_pure _
    · exact same_recovered _ (other_startService_bind fun q hq => same_bind (same_modT_other hq) fun _ => same_pure _)
  | endService c => exact same_recovered _ (other_endAnyService c h)
  | startInheritance q =>
    refine dr ?_
    unfold Trace.startInheritance
    cases q with
    | none =>
      exact same_bind (same_recovered _ (same_of_quiet quiet_panic)) fun x => by
        cases x <;> exact same_pure _
    | some q =>
      simp only
      intro w t ht
      cases hq : w.tctxs[q]? with
      | none =>
        have e : recovered none (do
            let t ← getT q
            let p ← startService t.serviceName t.remoteIp
            return some p) w = recovered none TM.panic w := by
          unfold recovered
          rw [TM.bind_def]
          simp [getT, hq]
        have e2 : ∀ f : Option Nat → TM Ctx, (recovered none (do
            let t ← getT q
            let p ← startService t.serviceName t.remoteIp
            return some p) >>= f) w = (recovered none TM.panic >>= f) w := by
          intro f; rw [TM.bind_def, e, ← TM.bind_def]
        rw [e2]
        exact same_recPanic_bind (same_pure _) w t ht
      | some tq =>
        have e : ∀ f : Option Nat → TM Ctx, (recovered none (do
            let t ← getT q
            let p ← startService t.serviceName t.remoteIp
            return some p) >>= f) w =
            (recovered none (startService tq.serviceName tq.remoteIp >>= fun p => pure (some p)) >>= f) w := by
          intro f
          have : recovered none (do
            let t ← getT q
            let p ← startService t.serviceName t.remoteIp
            return some p) w = recovered none (startService tq.serviceName tq.remoteIp >>= fun p => pure (some p)) w := by
            unfold recovered
            rw [TM.bind_ok (getT_run hq)]
          rw [TM.bind_def, this, ← TM.bind_def]
        rw [e]
        exact other_recStart_bind (f := fun p? => match p?, some q with
          | some p, some q => recovered (Ctx.traced p) (do inheritTctx p q; return Ctx.traced p)
          | _, _ => pure .nil) (fun x hx => same_recovered _ (same_bind (other_inheritTctx hx q) fun _ => same_pure _))
          (same_pure _) w t ht
  | goWithTrace c n =>
    refine dr (same_recovered _ (same_bind ?_ fun _ => same_pure _))
    refine same_withTrace _ _ _ fun q e => same_bind (same_of_quiet (quiet_getT _)) fun _ => other_startService_bind fun x hx => ?_
    have hq := ne h e
    refine same_bind (same_of_quiet (quiet_getT _)) fun parent => same_bind (same_modT_other hx) fun _ => ?_
    have hj : Ev (Same core p) (do
        let child ← getT x
        let now ← millisToNow parent.startTime
        let h ← Trace.sendText .apicall n
        addNew q now (.async child.txid h 0)
        return Ctx.traced x) := by oth
    exact Ev.ite (same_bind (same_modT_other hx) fun _ => same_bind (same_modT_other hq) fun _ => hj) hj
  | goBegin c => exact same_withTrace _ _ _ fun q e => by have := ne h e; oth
  | startMethod c f ps => exact dr (same_recovered _ (same_withTrace _ _ _ fun _ e => same_bind (other_startMethod0 (ne h e) _ _ _) fun _ => same_pure _))
  | startCustomMethod c f ps => exact dr (same_recovered _ (same_withTrace _ _ _ fun _ e => same_bind (other_startMethod0 (ne h e) _ _ _) fun _ => same_pure _))
  | endMethod c x =>
    refine same_recovered _ ?_
    cases x with
    | none => exact same_pure _
    | some x => exact same_withTrace _ _ _ fun q e => by have := ne h e; oth
  | startApiCall c n a => exact dr (same_recovered _ (same_withTrace _ _ _ fun _ e => same_bind (other_startApiCall0 (ne h e) _ _) fun _ => same_pure _))
  | startApiCallProp c n a r =>
    refine dr (same_recovered _ (same_withTrace _ _ _ fun q e => same_bind (other_startApiCall0 (ne h e) _ _) fun ptr => ?_))
    have := ne h e
    oth
  | endApiCall c x e =>
    refine same_recovered _ ?_
    cases x with
    | none => exact same_pure _
    | some x =>
      refine same_withTrace _ _ _ fun q e' => ?_
      have := ne h e'
      cases e <;> oth
  | activeCount o => exact absurd rfl (ha o)
  | makeStep s => exact dr (same_of_quiet (quiet_newStep s))
  | setFields q l d t1 t2 t3 t4 t5 => exact same_modT_other fun x => h (by rw [x]; rfl)
  | conf x => exact same_elsewhere fun _ => rfl
  | samplerRun => exact same_elsewhere fun _ => rfl
  | resetTexts o => exact same_elsewhere fun _ => rfl
  | queue s => exact same_elsewhere fun _ => rfl

/-- While stuck services are not removed, the contexts stay as they are. -/
def Idle (w w' : World) : Prop := w.conf.stuckRemove = false → w'.conf = w.conf ∧ w'.tctxs = w.tctxs

theorem Idle.isPre : IsPre Idle where
  refl w := fun _ => ⟨rfl, rfl⟩
  trans h h' := fun hw => by
    have a := h hw
    have b := h' (by rw [a.1]; exact hw)
    exact ⟨b.1.trans a.1, b.2.trans a.2⟩

theorem idle_bind {m : TM α} {f : α → TM β} (h : Ev Idle m) (hf : ∀ a, Ev Idle (f a)) : Ev Idle (m >>= f) := Ev.bind Idle.isPre h hf
theorem idle_pure (a : α) : Ev Idle (pure a : TM α) := Ev.pure Idle.isPre a
theorem idle_getT (q : Nat) : Ev Idle (getT q) := by intro w; unfold getT; split <;> exact Idle.isPre.refl w
theorem idle_sendAlert (l : BitVec 8) (t m : Bytes) : Ev Idle (sendAlert l t m) := by
  unfold sendAlert
  exact Ev.ite (idle_pure _) (idle_bind (Ev.get Idle.isPre) fun _ => fun w _ => ⟨rfl, rfl⟩)
theorem idle_endStuck (q : Nat) : Ev Idle (endStuck q) := fun w hw => by
  have e : endStuck q w = (.ok (), w) := by
    unfold endStuck
    refine recovered_run ?_
    rw [TM.get_bind, hw]
    rfl
  rw [e]
  exact ⟨rfl, rfl⟩
theorem idle_activeLoop (now : Int) (ps : List Nat) : ∀ n a, Ev Idle (activeLoop now ps n a) := by
  induction ps with
  | nil => intro n a; exact idle_pure _
  | cons q ps ih =>
    intro n a
    unfold activeLoop
    refine Ev.ite (idle_pure _) (idle_bind (idle_getT _) fun t => idle_bind (Ev.get Idle.isPre) fun w => ?_)
    exact Ev.ite (idle_bind (idle_endStuck q) fun _ => idle_bind (idle_getT _) fun _ => idle_bind (Ev.get Idle.isPre) fun _ =>
      idle_bind (idle_sendAlert _ _ _) fun _ => ih _ _) (ih _ _)
theorem idle_activeCount (o : MapOrder (BitVec 64 × Nat)) : Ev Idle (Call.activeCount o).code :=
  idle_bind (idle_bind (Ev.get Idle.isPre) fun _ => idle_bind (fun _ _ => ⟨rfl, rfl⟩) fun _ => idle_activeLoop _ _ _ _) fun _ => idle_pure _

/-- The configuration stays as it is. -/
def SameConf (w w' : World) : Prop := w'.conf = w.conf

instance : Frame SameConf where
  pre := ⟨fun _ => rfl, fun a b => Eq.trans b a⟩
  elem h := by cases h <;> rfl

/-- At the clock reading `now`, the context at `p` stays as it is unless it is stuck. -/
def Young (p : Nat) (now : Int) (w w' : World) : Prop :=
  ∀ t, w.tctxs[p]? = some t → activeElapsed now t.startTime ≤ w.conf.stuckBase → w'.tctxs[p]? = some t ∧ w'.conf = w.conf

theorem Young.isPre (p : Nat) (now : Int) : IsPre (Young p now) where
  refl w := fun _ h _ => ⟨h, rfl⟩
  trans h h' := fun t ht hy => by
    have a := h t ht hy
    have b := h' t a.1 (by rw [a.2]; exact hy)
    exact ⟨b.1, b.2.trans a.2⟩

theorem young_of {now : Int} {m : TM α} (h : Ev (Same (fun t => t) p) m) (hc : Ev SameConf m) : Ev (Young p now) m := fun w t ht _ => by
  obtain ⟨t', h1, h2⟩ := h w t ht
  exact ⟨by rw [h1]; exact congrArg some h2, hc w⟩

theorem other_endStuck (h : q ≠ p) : Ev (Same core p) (endStuck q) := by
  refine same_recovered _ (same_bind (same_of_quiet quiet_get) fun w => Ev.ite ?_ (same_pure _))
  refine same_bind (same_of_quiet (quiet_getT _)) fun _ => same_bind (same_of_quiet (quiet_millisToNow _)) fun _ =>
    same_bind (same_of_quiet (quiet_sendText _ _)) fun _ => same_bind (other_addNew h _ _) fun _ =>
    same_bind (same_of_quiet (quiet_getT _)) fun _ => Ev.ite ?_ (other_endTctx h)
  exact same_bind (same_of_quiet (quiet_sendText _ _)) fun _ => same_bind (same_modT_other h) fun _ => other_endTctx h

theorem young_activeLoop (now : Int) (ps : List Nat) : ∀ n a, Ev (Young p now) (activeLoop now ps n a) := by
  induction ps with
  | nil => intro n a; exact Ev.pure (Young.isPre p now) _
  | cons q ps ih =>
    intro n a
    unfold activeLoop
    refine Ev.ite (Ev.pure (Young.isPre p now) _) ?_
    intro w t ht hy
    cases hq : w.tctxs[q]? with
    | none =>
      rw [TM.bind_def]
      have e : getT q w = (.panic, w) := by unfold getT; rw [hq]
      rw [e]
      exact ⟨ht, rfl⟩
    | some tq =>
      rw [TM.bind_ok (getT_run hq), TM.get_bind]
      by_cases hs : activeElapsed now tq.startTime > w.conf.stuckBase
      · have hqp : q ≠ p := by
          rintro rfl
          rw [ht] at hq
          cases hq
          omega
        simp only [if_pos hs]
        have e : Ev (Young p now) (endStuck q) := young_of (other_endStuck hqp) (fr_endStuck q)
        refine Ev.bind (Young.isPre p now) e (fun _ => Ev.bind (Young.isPre p now) (young_of (same_of_quiet (quiet_getT _)) (fr_getT _)) fun _ =>
          Ev.bind (Young.isPre p now) (young_of (same_of_quiet quiet_get) fr_get) fun _ =>
          Ev.bind (Young.isPre p now) (young_of (same_of_quiet (quiet_sendAlert _ _ _)) (fr_sendAlert _ _ _)) fun _ => ih _ _) w t ht hy
      · simp only [if_neg hs]
        exact ih _ _ w t ht hy

theorem young_activeCount {w : World} (o : MapOrder (BitVec 64 × Nat)) (hy : NotStuck p w) {t : Tctx} (ht : w.tctxs[p]? = some t) :
    (perform w (.activeCount o)).tctxs[p]? = some t := by
  have hl := young_activeLoop (p := p) (w.env.clock w.tick) (w.registry.getValues o) 0 (0, 0, 0) { w with tick := w.tick + 1 } t ht (hy t ht)
  have e : (perform w (.activeCount o)) = (activeLoop (w.env.clock w.tick) (w.registry.getValues o) 0 (0, 0, 0) { w with tick := w.tick + 1 }).2 := by
    show ((getActiveCount o >>= fun _ => pure ()) w).2 = _
    unfold getActiveCount
    rw [TM.bind_def, TM.get_bind, TM.reading_bind]
    split
    · rename_i heq; rw [heq]; rfl
    · rename_i heq; rw [heq]
  rw [e]; exact hl.1

/-- A call elsewhere leaves the context as it is. -/
theorem elsewhere_keeps {w : World} {c : Call} (h : Elsewhere p w c) {t : Tctx} (ht : w.tctxs[p]? = some t) :
    (perform w c).tctxs[p]? = some t := by
  by_cases ha : ∃ o, c = .activeCount o
  · obtain ⟨o, rfl⟩ := ha
    rcases h.2 o rfl with hs | hs
    · have := (idle_activeCount o w hs).2
      unfold perform
      rw [this]
      exact ht
    · exact young_activeCount o hs ht
  · obtain ⟨t', h1, h2⟩ := elsewhere_call (core := fun t => t) (p := p) c h.1 (fun o e => ha ⟨o, e⟩) w t ht
    unfold perform
    rw [h1]
    exact congrArg some h2

end
end Scouter
