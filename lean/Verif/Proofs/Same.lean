import Verif.Proofs.Ledger
import Verif.Proofs.Safe
/-!
# What a call leaves alone in an existing context
-/
namespace Scouter
open TM Trace

/-- What `core` shows of the context at `p` stays the same. -/
def Same {γ : Type} (core : Tctx → γ) (p : Nat) (w w' : World) : Prop :=
  ∀ t, w.tctxs[p]? = some t → ∃ t', w'.tctxs[p]? = some t' ∧ core t' = core t

/-- `core` shows nothing of the fields that calls set freely. -/
structure Deaf {γ : Type} (core : Tctx → γ) : Prop extends Blind core where
  isStream : ∀ t x, core { t with isStream := x } = core t
  closed : ∀ t x, core { t with closed := x } = core t
  lastMethod : ∀ t x, core { t with lastMethod := x } = core t
  serviceName : ∀ t x, core { t with serviceName := x } = core t
  serviceHash : ∀ t x, core { t with serviceHash := x } = core t
  status : ∀ t x, core { t with status := x } = core t
  startTime : ∀ t x, core { t with startTime := x } = core t
  apicall : ∀ t x y, core { t with apicallCount := x, apicallTime := y } = core t
  texts : ∀ t a b c d e f g, core { t with login := a, desc := b, text1 := c, text2 := d, text3 := e, text4 := f, text5 := g } = core t

/-- The calls that may set the error of a context. -/
def setsError : Call → Bool
  | .markAsError .. | .markAsErrorForcibly .. | .endApiCall _ _ (some _) | .activeCount _ => true
  | _ => false

/-- The calls that may set the global id of an existing context. -/
def setsGxid : Call → Bool
  | .goWithTrace .. | .startApiCallProp .. => true
  | _ => false

/-- The calls that may end a service. -/
def endsServices : Call → Bool
  | .endHttpService .. | .endService .. | .activeCount _ => true
  | _ => false

/-- `core` shows nothing of the fields that `c` may set in an existing context. -/
structure DeafTo {γ : Type} (core : Tctx → γ) (c : Call) : Prop extends Blind core where
  isStream : (∃ x, c = .setAsStream x) → ∀ t x, core { t with isStream := x } = core t
  closed : endsServices c = true → ∀ t x, core { t with closed := x } = core t
  lastMethod : (∃ x y z, c = .startMethod x y z ∨ c = .startCustomMethod x y z) → ∀ t x, core { t with lastMethod := x } = core t
  serviceName : (∃ x y, c = .setServiceName x y) → ∀ t x, core { t with serviceName := x } = core t
  serviceHash : (∃ x y, c = .setServiceName x y) ∨ endsServices c = true → ∀ t x, core { t with serviceHash := x } = core t
  status : (∃ x y, c = .endHttpService x (some y)) → ∀ t x, core { t with status := x } = core t
  startTime : (∃ x, c = .goBegin x) → ∀ t x, core { t with startTime := x } = core t
  apicall : (∃ x y z, c = .endApiCall x (some y) z) → ∀ t x y, core { t with apicallCount := x, apicallTime := y } = core t
  texts : (∃ x a b c' d e f g, c = .setFields x a b c' d e f g) →
    ∀ t a b c d e f g, core { t with login := a, desc := b, text1 := c, text2 := d, text3 := e, text4 := f, text5 := g } = core t
  error : setsError c = true → ∀ t e, core { t with error := e } = core t
  gxid : setsGxid c = true → ∀ t e, core { t with gxid := e } = core t

theorem Deaf.deafTo {γ : Type} {core : Tctx → γ} (D : Deaf core) (c : Call)
    (hE : setsError c = true → ∀ t e, core { t with error := e } = core t)
    (hG : setsGxid c = true → ∀ t e, core { t with gxid := e } = core t) : DeafTo core c :=
  { D.toBlind with
    isStream := fun _ => D.isStream, closed := fun _ => D.closed, lastMethod := fun _ => D.lastMethod
    serviceName := fun _ => D.serviceName, serviceHash := fun _ => D.serviceHash, status := fun _ => D.status
    startTime := fun _ => D.startTime, apicall := fun _ => D.apicall, texts := fun _ => D.texts, error := hE, gxid := hG }

section
variable {γ : Type} {core : Tctx → γ} {p : Nat} {α β : Type}

theorem Same.isPre : IsPre (Same core p) where
  refl w := fun t h => ⟨t, h, rfl⟩
  trans h h' := fun t ht => by
    obtain ⟨t1, h1, e1⟩ := h t ht
    obtain ⟨t2, h2, e2⟩ := h' t1 h1
    exact ⟨t2, h2, e2.trans e1⟩

theorem Quiet.same {w w' : World} (h : Quiet core w w') : Same core p w w' := fun t ht => by
  have hc := h.cores p
  rw [ht] at hc
  cases h' : w'.tctxs[p]? with
  | none => rw [h'] at hc; simp at hc
  | some t' => rw [h'] at hc; exact ⟨t', rfl, by simpa using hc⟩

theorem same_of_quiet {m : TM α} (h : Ev (Quiet core) m) : Ev (Same core p) m := fun w => (h w).same
theorem same_bind {m : TM α} {f : α → TM β} (h : Ev (Same core p) m) (hf : ∀ a, Ev (Same core p) (f a)) : Ev (Same core p) (m >>= f) :=
  Ev.bind Same.isPre h hf
theorem same_pure (a : α) : Ev (Same core p) (pure a : TM α) := Ev.pure Same.isPre a

theorem same_modT_other {q : Nat} {f : Tctx → Tctx} (h : q ≠ p) : Ev (Same core p) (modT q f) := fun w t ht =>
  ⟨t, by show (w.tctxs.modify q f)[p]? = some t; rw [List.getElem?_modify, ht]; simp [h], rfl⟩

theorem same_modT {q : Nat} {f : Tctx → Tctx} (h : ∀ t, core (f t) = core t) : Ev (Same core p) (modT q f) :=
  same_of_quiet (quiet_modT q f h)

/-- A change of other parts of the world. -/
theorem same_elsewhere {f : World → World} (h : ∀ w, (f w).tctxs = w.tctxs) : Ev (Same core p) (TM.modify f) := fun w t ht =>
  ⟨t, by show (f w).tctxs[p]? = some t; rw [h]; exact ht, rfl⟩

theorem same_register (q : Nat) : Ev (Same core p) (register q) :=
  same_bind (same_of_quiet (quiet_getT q)) fun _ => same_elsewhere fun _ => rfl
theorem same_unregister (q : Nat) : Ev (Same core p) (unregister q) :=
  same_bind (same_of_quiet (quiet_getT q)) fun _ => same_elsewhere fun _ => rfl

theorem same_recovered (d : α) {m : TM α} (h : Ev (Same core p) m) : Ev (Same core p) (recovered d m) := by
  intro w
  unfold recovered
  have := h w
  split
  · rename_i a w' heq; rw [heq] at this; exact this
  · rename_i w' heq; rw [heq] at this
    refine Same.isPre.trans this ?_
    exact (quiet_bind (core := core) (quiet_reading _) (fun t => quiet_bind (quiet_sendAlert _ _ _) fun _ => quiet_pure _) w').same

theorem same_withTrace (c : Ctx) (d : α) (f : Nat → TM α) (h : ∀ q, c = .traced q → Ev (Same core p) (f q)) :
    Ev (Same core p) (withTrace c d f) := by
  unfold withTrace
  intro w
  rw [TM.get_bind]
  cases ht : traceOf w c with
  | none => exact Same.isPre.refl w
  | some q =>
    refine h q ?_ w
    cases c <;> simp [traceOf] at ht
    rw [ht.2]

theorem same_newTraceContext : Ev (Same core p) newTraceContext := by
  intro w
  rw [newTraceContext_run]
  cases Collector.new w.conf.keep with
  | none => exact fun t h => ⟨t, h, rfl⟩
  | some col =>
    intro t h
    refine ⟨t, ?_, rfl⟩
    show (w.tctxs ++ [freshTctx w col])[p]? = some t
    rw [List.getElem?_append_left (List.getElem?_eq_some_iff.mp h).1]
    exact h

/-- After `newTraceContext`, an existing context is another one. -/
theorem same_new_bind {f : Nat → TM β} (h : ∀ q, q ≠ p → Ev (Same core p) (f q)) : Ev (Same core p) (newTraceContext >>= f) := by
  intro w t ht
  have hp : p < w.tctxs.length := (List.getElem?_eq_some_iff.mp ht).1
  obtain ⟨t1, h1, e1⟩ := same_newTraceContext (core := core) (p := p) w t ht
  rw [TM.bind_def]
  rw [newTraceContext_run] at h1 ⊢
  cases hcol : Collector.new w.conf.keep with
  | none => rw [hcol] at h1; exact ⟨t1, h1, e1⟩
  | some col =>
    rw [hcol] at h1
    obtain ⟨t2, h2, e2⟩ := h w.tctxs.length (by omega) _ t1 h1
    exact ⟨t2, h2, e2.trans e1⟩

theorem same_addNew (hc : Blind core) (q : Nat) (s : BitVec 32) (b : StepBody) : Ev (Same core p) (addNew q s b) :=
  same_of_quiet (quiet_addNew hc q s b)

theorem same_startRest (hc : Blind core) {q : Nat} (h : q ≠ p) (n a : Bytes) : Ev (Same core p) (startRest q n a) :=
  same_bind (same_modT_other h) fun _ => same_bind (same_of_quiet (quiet_reading _)) fun _ => same_bind (same_modT_other h) fun _ =>
    same_bind (same_addNew hc _ _ _) fun _ => same_bind (same_modT_other h) fun _ => same_bind (same_of_quiet (quiet_sendText _ _)) fun _ =>
    same_modT_other h

/-- Continuing after a start, with the new context. -/
theorem same_startService_bind (hc : Blind core) {n a : Bytes} {f : Nat → TM β} (h : ∀ q, q ≠ p → Ev (Same core p) (f q)) :
    Ev (Same core p) (startService n a >>= f) := by
  have e : (startService n a >>= f) = (newTraceContext >>= fun q => register q >>= fun _ => startRest q n a >>= fun _ => f q) := by
    funext w
    unfold startService
    simp only [TM.bind_def]
    cases newTraceContext w with
    | mk o w1 =>
      cases o with
      | panic => rfl
      | ok q =>
        simp only
        cases register q w1 with
        | mk o w2 =>
          cases o with
          | panic => rfl
          | ok u =>
            simp only
            cases startRest q n a w2 with
            | mk o w3 => cases o <;> rfl
  rw [e]
  exact same_new_bind fun q hq => same_bind (same_register q) fun _ => same_bind (same_startRest hc hq _ _) fun _ => h q hq

theorem same_startService (hc : Blind core) (n a : Bytes) : Ev (Same core p) (startService n a) := by
  unfold startService
  exact same_new_bind fun q hq => same_bind (same_register q) fun _ => same_bind (same_startRest hc hq _ _) fun _ => same_pure _

/-- After a recovered start, an existing context is another one. -/
theorem same_recStart_bind (hc : Blind core) {n a : Bytes} {f : Option Nat → TM β} (h : ∀ q, q ≠ p → Ev (Same core p) (f (some q)))
    (h0 : Ev (Same core p) (f none)) :
    Ev (Same core p) (recovered none (startService n a >>= fun q => pure (some q)) >>= f) := by
  intro w t ht
  have hp : p < w.tctxs.length := (List.getElem?_eq_some_iff.mp ht).1
  have hs := same_recovered (core := core) (p := p) none
    (same_bind (same_startService hc n a) fun q => same_pure (some q)) w t ht
  rw [TM.bind_def]
  cases hr : recovered none (startService n a >>= fun q => pure (some q)) w with
  | mk o w1 =>
    rw [hr] at hs
    obtain ⟨t1, h1, e1⟩ := hs
    cases o with
    | panic => exact ⟨t1, h1, e1⟩
    | ok x =>
      cases x with
      | none =>
        obtain ⟨t2, h2, e2⟩ := h0 w1 t1 h1
        exact ⟨t2, h2, e2.trans e1⟩
      | some q =>
        have hq : q ≠ p := by
          unfold recovered at hr
          rw [TM.bind_def] at hr
          cases hs : startService n a w with
          | mk o w' =>
            rw [hs] at hr
            cases o with
            | ok q' =>
              have := (startService_result hs).1
              have e : some q' = some q := by
                have := congrArg Prod.fst hr
                simpa using this
              cases e
              omega
            | panic =>
              simp only at hr
              rw [TM.reading_bind, TM.bind_def] at hr
              split at hr
              · have := congrArg Prod.fst hr
                simp at this
              · simp at hr
        obtain ⟨t2, h2, e2⟩ := h q hq w1 t1 h1
        exact ⟨t2, h2, e2.trans e1⟩

/-- After a recovered panic there is no new context. -/
theorem same_recPanic_bind {f : Option Nat → TM β} (h0 : Ev (Same core p) (f none)) :
    Ev (Same core p) (recovered none TM.panic >>= f) := by
  intro w
  have hs := same_recovered (core := core) (p := p) (none : Option Nat) (same_of_quiet quiet_panic) w
  rw [TM.bind_def]
  cases hr : recovered (none : Option Nat) TM.panic w with
  | mk o w1 =>
    rw [hr] at hs
    cases o with
    | panic => exact hs
    | ok x =>
      have hx : x = none := by
        unfold recovered TM.panic at hr
        simp only at hr
        rw [TM.reading_bind, TM.bind_def] at hr
        split at hr
        · have := congrArg Prod.fst hr
          simpa using this.symm
        · simp at hr
      subst hx
      exact Same.isPre.trans hs (h0 w1)

theorem same_endRest (hb : Blind core) (h1 : ∀ t x, core { t with closed := x } = core t)
    (h2 : ∀ t x, core { t with serviceHash := x } = core t) (q : Nat) : Ev (Same core p) (endRest q) := by
  unfold endRest sendXlog
  refine same_bind (same_modT fun t => h1 t _) fun _ => same_bind (same_of_quiet (quiet_getT _)) fun _ =>
    same_bind (same_of_quiet (quiet_sendText _ _)) fun _ => same_bind (same_modT fun t => h2 t _) fun _ =>
    same_bind (same_unregister _) fun _ => same_bind (same_of_quiet (quiet_getT _)) fun _ =>
    same_bind (same_of_quiet (quiet_millisToNow _)) fun _ => same_bind (same_of_quiet (quiet_findXLogDiscard _ _)) fun _ =>
    same_bind (same_of_quiet (quiet_toXlog _ _ _)) fun _ => same_bind (same_of_quiet (quiet_profileClose hb _ _)) fun _ =>
    same_bind (same_elsewhere fun _ => rfl) fun _ => ?_
  exact Ev.ite (same_bind (same_of_quiet quiet_get) fun _ => same_elsewhere fun _ => rfl) (same_pure _)

theorem same_endTctx (hb : Blind core) (h1 : ∀ t x, core { t with closed := x } = core t)
    (h2 : ∀ t x, core { t with serviceHash := x } = core t) (q : Nat) : Ev (Same core p) (endTctx q) :=
  same_bind (same_of_quiet (quiet_getT _)) fun _ => Ev.ite (same_pure _) (same_endRest hb h1 h2 q)

theorem same_endAnyService (hb : Blind core) (h1 : ∀ t x, core { t with closed := x } = core t)
    (h2 : ∀ t x, core { t with serviceHash := x } = core t) (c : Ctx) : Ev (Same core p) (endAnyService c) :=
  same_withTrace _ _ _ fun _ _ => same_bind (same_of_quiet (quiet_getT _)) fun _ => Ev.ite (same_pure _) (same_endTctx hb h1 h2 _)

theorem quiet_addPMessageStep (hc : Blind core) (c : Ctx) (l : BitVec 8) (m : Bytes) (e : BitVec 32) (ps : List Bytes) :
    Ev (Quiet core) (addPMessageStep c l m e ps) :=
  quiet_recovered _ (quiet_withTrace _ _ _ fun _ _ => quiet_bind (quiet_getT _) fun _ => quiet_bind (quiet_millisToNow _) fun _ =>
    quiet_bind (quiet_sendText _ _) fun _ => quiet_addNew hc _ _ _)

theorem quiet_startMethod0 (hb : Blind core) (hl : ∀ t x, core { t with lastMethod := x } = core t) (q : Nat) (f m : Bytes) (ps : List (Option Bytes)) : Ev (Quiet core) (startMethod0 q f m ps) :=
  quiet_bind (quiet_addParams hb _ _) fun _ => quiet_bind (quiet_modT _ _ fun t => hl t _) fun _ =>
    quiet_bind (quiet_sendText _ _) fun _ => quiet_bind (quiet_getT _) fun _ => quiet_bind (quiet_millisToNow _) fun _ =>
    quiet_bind (quiet_newStep _) fun _ => quiet_bind (quiet_profilePush hb _ _) fun _ => quiet_pure _

theorem quiet_startApiCall0 (hc : Blind core) (q : Nat) (n a : Bytes) : Ev (Quiet core) (startApiCall0 q n a) :=
  quiet_bind (quiet_sendText _ _) fun _ => quiet_bind (quiet_getT _) fun _ => quiet_bind (quiet_millisToNow _) fun _ =>
    quiet_bind (quiet_reading _) fun _ => quiet_bind (quiet_newStep _) fun _ => quiet_bind (quiet_profilePush hc _ _) fun _ => quiet_pure _

theorem same_startHttpRest (hc : Blind core) (r : Request) {q : Nat} (h : q ≠ p) : Ev (Same core p) (startHttpRest r q) :=
  same_bind (same_modT_other h) fun _ => same_bind (same_of_quiet (quiet_sendText _ _)) fun _ => same_bind (same_modT_other h) fun _ =>
    same_bind (same_of_quiet (quiet_sendText _ _)) fun _ => same_bind (same_modT_other h) fun _ =>
    same_of_quiet (quiet_profileHttpHeaders hc _ _)

theorem same_inheritTctx (hc : Blind core) {q : Nat} (h : q ≠ p) (r : Nat) : Ev (Same core p) (inheritTctx q r) :=
  same_bind (same_of_quiet (quiet_getT _)) fun _ => same_bind (same_modT_other h) fun _ => same_bind (same_addNew hc _ _ _) fun _ =>
    same_bind (same_of_quiet (quiet_getT _)) fun _ => same_bind (same_of_quiet quiet_get) fun _ => same_modT_other h

/-- The calls that start or end services, or change the configuration. -/
def movesServices : Call → Bool
  | .startHttpService .. | .startService .. | .startInheritance .. | .goWithTrace .. | .endHttpService .. | .endService .. | .activeCount _
  | .conf _ => true
  | _ => false

/-- The other calls start and end nothing. -/
theorem quiet_call_of (c : Call) (D : DeafTo core c) (hm : movesServices c = false) : Ev (Quiet core) c.code := by
  have dr : ∀ {δ : Type} {m : TM δ}, Ev (Quiet core) m → Ev (Quiet core) (m >>= fun _ => pure ()) := fun h => quiet_bind h fun _ => quiet_pure ()
  have hc := D.toBlind
  cases c with
  | isStream c =>
    exact dr (id (quiet_recovered _ (quiet_withTrace _ _ _ fun _ _ => quiet_bind (quiet_getT _) fun _ => quiet_pure _)))
  | setAsStream c =>
    exact dr (id (quiet_recovered _ (quiet_withTrace _ _ _ fun _ _ => quiet_bind (quiet_modT _ _ fun t => D.isStream ⟨_, rfl⟩ t _)
      fun _ => quiet_pure _)))
  | markAsError c m =>
    exact id (quiet_recovered _ (quiet_withTrace _ _ _ fun _ _ => quiet_bind (quiet_getT _) fun _ => quiet_ite
      (quiet_bind (quiet_sendText _ _) fun _ => quiet_bind (quiet_modT _ _ fun t => D.error rfl t _) fun _ => quiet_addPMessageStep hc _ _ _ _ _)
      (quiet_addPMessageStep hc _ _ _ _ _)))
  | markAsErrorForcibly c m =>
    have : Ev (Quiet core) (Trace.markAsErrorForcibly c m) := quiet_recovered _ (quiet_withTrace _ _ _ fun _ _ =>
      quiet_bind (quiet_sendText _ _) fun _ => quiet_modT _ _ fun t => D.error rfl t _)
    exact this
  | setServiceName c m =>
    have : Ev (Quiet core) (Trace.setServiceNameForcibly c m) := quiet_recovered _ (quiet_withTrace _ _ _ fun _ _ =>
      quiet_bind (quiet_modT _ _ fun t => D.serviceName ⟨_, _, rfl⟩ t _) fun _ => quiet_bind (quiet_sendText _ _) fun _ =>
      quiet_modT _ _ fun t => D.serviceHash (.inl ⟨_, _, rfl⟩) t _)
    exact this
  | addStep c q =>
    refine id (quiet_recovered _ (quiet_withTrace _ _ _ fun _ _ => ?_))
    cases q with
    | none => exact quiet_panic
    | some q => exact quiet_profileAdd hc _ _
  | addMessageStep c m =>
    exact id (quiet_recovered _ (quiet_withTrace _ _ _ fun _ _ => quiet_bind (quiet_getT _) fun _ =>
      quiet_bind (quiet_millisToNow _) fun _ => quiet_addNew hc _ _ _))
  | addHashedMessageStep c m v e =>
    exact id (quiet_recovered _ (quiet_withTrace _ _ _ fun _ _ => quiet_bind (quiet_getT _) fun _ =>
      quiet_bind (quiet_sendText _ _) fun _ => quiet_bind (quiet_millisToNow _) fun _ => quiet_addNew hc _ _ _))
  | addPMessageStep c l m e ps => exact id (quiet_addPMessageStep hc _ _ _ _ _)
  | startHttpService c r => simp [movesServices] at hm
  | endHttpService c s => simp [movesServices] at hm
  | startService c n ip => simp [movesServices] at hm
  | endService c => simp [movesServices] at hm
  | startInheritance q => simp [movesServices] at hm
  | goWithTrace c n => simp [movesServices] at hm
  | goBegin c =>
    have : Ev (Quiet core) (Trace.goBegin c) := quiet_withTrace _ _ _ fun _ _ => quiet_bind (quiet_reading _) fun _ =>
      quiet_modT _ _ fun t => D.startTime ⟨_, rfl⟩ t _
    exact this
  | startMethod c f ps =>
    exact dr (id (quiet_recovered _ (quiet_withTrace _ _ _ fun _ _ => quiet_bind (quiet_startMethod0 hc (D.lastMethod ⟨_, _, _, .inl rfl⟩) _ _ _ _) fun _ => quiet_pure _)))
  | startCustomMethod c f ps =>
    exact dr (id (quiet_recovered _ (quiet_withTrace _ _ _ fun _ _ => quiet_bind (quiet_startMethod0 hc (D.lastMethod ⟨_, _, _, .inr rfl⟩) _ _ _ _) fun _ => quiet_pure _)))
  | endMethod c q =>
    refine id (quiet_recovered _ ?_)
    cases q with
    | none => exact quiet_pure _
    | some q =>
      exact quiet_withTrace _ _ _ fun _ _ => quiet_bind (quiet_getT _) fun _ => quiet_bind (quiet_getStep _) fun _ =>
        quiet_bind (quiet_millisToNow _) fun _ => quiet_bind (quiet_modStep _ _) fun _ => quiet_profilePop hc _ _
  | startApiCall c n a =>
    exact dr (id (quiet_recovered _ (quiet_withTrace _ _ _ fun _ _ => quiet_bind (quiet_startApiCall0 hc _ _ _) fun _ => quiet_pure _)))
  | startApiCallProp c n a r =>
    refine dr (id (quiet_recovered _ (quiet_withTrace _ _ _ fun q _ => quiet_bind (quiet_startApiCall0 hc _ _ _) fun ptr =>
      quiet_bind (quiet_getT _) fun _ => ?_)))
    have hj : Ev (Quiet core) (do
        let t ← getT q
        let s ← getStep ptr
        let w ← get
        return (some ptr, if r then
          [(ascii "X-Scouter-Gxid", intToXlogString32 t.gxid),
           (ascii "X-Scouter-Caller", intToXlogString32 t.txid),
           (ascii "X-Scouter-Callee", intToXlogString32 (stepTxid s)),
           (ascii "X-Scouter-Caller-Obj", formatInt 10 w.conf.objHash.toInt)] else [])) :=
      quiet_bind (quiet_getT _) fun _ => quiet_bind (quiet_getStep _) fun _ => quiet_bind quiet_get fun _ => quiet_pure _
    exact quiet_ite (quiet_bind (quiet_modT _ _ fun t => D.gxid rfl t _) fun _ => hj) hj
  | endApiCall c q e =>
    refine id (quiet_recovered _ ?_)
    cases q with
    | none => exact quiet_pure _
    | some q =>
      refine quiet_withTrace _ _ _ fun _ _ => quiet_bind (quiet_getT _) fun _ => quiet_bind (quiet_getStep _) fun _ =>
        quiet_bind (quiet_millisToNow _) fun _ => quiet_bind (quiet_modStep _ _) fun _ =>
        quiet_bind (quiet_modT _ _ fun t => D.apicall ⟨_, _, _, rfl⟩ t _ _) fun _ => ?_
      cases e with
      | none => exact quiet_profilePop hc _ _
      | some m =>
        exact quiet_bind (quiet_sendText _ _) fun _ => quiet_bind (quiet_modStep _ _) fun _ =>
          quiet_bind (quiet_modT _ _ fun t => D.error rfl t _) fun _ => quiet_profilePop hc _ _
  | activeCount o => simp [movesServices] at hm
  | makeStep s => exact dr (id (quiet_newStep s))
  | setFields q l d t1 t2 t3 t4 t5 =>
    have : Ev (Quiet core) (Call.setFields q l d t1 t2 t3 t4 t5).code := quiet_modT _ _ fun t => D.texts ⟨_, _, _, _, _, _, _, _, rfl⟩ t _ _ _ _ _ _ _
    exact this
  | conf x => simp [movesServices] at hm
  | samplerRun => exact fun w => ⟨rfl, rfl, Nat.le_refl _, rfl, fun _ => rfl, Nat.le_refl _, rfl, rfl, rfl, List.prefix_refl _⟩
  | resetTexts o => exact fun w => ⟨rfl, rfl, Nat.le_refl _, rfl, fun _ => rfl, Nat.le_refl _, rfl, rfl, rfl, List.prefix_refl _⟩
  | queue s => exact fun w => ⟨rfl, rfl, Nat.le_refl _, rfl, fun _ => rfl, Nat.le_refl _, rfl, rfl, rfl, List.prefix_refl _⟩

theorem quiet_call (D : Deaf core) (c : Call) (hm : movesServices c = false)
    (hE : setsError c = true → ∀ t e, core { t with error := e } = core t)
    (hG : setsGxid c = true → ∀ t e, core { t with gxid := e } = core t) : Ev (Quiet core) c.code :=
  quiet_call_of c (D.deafTo c hE hG) hm

/-- Calls that set nothing `core` shows change nothing it shows of an existing context. -/
theorem same_call_of (c : Call) (D : DeafTo core c) : Ev (Same core p) c.code := by
  have dr : ∀ {δ : Type} {m : TM δ}, Ev (Same core p) m → Ev (Same core p) (m >>= fun _ => pure ()) := fun h => same_bind h fun _ => same_pure ()
  have hc := D.toBlind
  cases c with
  | isStream c => exact same_of_quiet (quiet_call_of _ D rfl)
  | setAsStream c => exact same_of_quiet (quiet_call_of _ D rfl)
  | markAsError c m => exact same_of_quiet (quiet_call_of _ D rfl)
  | markAsErrorForcibly c m => exact same_of_quiet (quiet_call_of _ D rfl)
  | setServiceName c m => exact same_of_quiet (quiet_call_of _ D rfl)
  | addStep c q => exact same_of_quiet (quiet_call_of _ D rfl)
  | addMessageStep c m => exact same_of_quiet (quiet_call_of _ D rfl)
  | addHashedMessageStep c m v e => exact same_of_quiet (quiet_call_of _ D rfl)
  | addPMessageStep c l m e ps => exact same_of_quiet (quiet_call_of _ D rfl)
  | startHttpService c r =>
    refine dr ?_
    unfold Trace.startHttpService
    refine Ev.ite (same_pure _) (same_bind (same_of_quiet quiet_get) fun v => ?_)
    split
    · exact same_pure _
    · cases r with
      | none =>
        exact same_bind (same_recovered _ (same_of_quiet quiet_panic)) fun x => by
          cases x <;> exact same_pure _
      | some r =>
        exact same_recStart_bind hc (fun q hq => same_recovered _ (same_bind (same_startHttpRest hc r hq) fun _ => same_pure _)) (same_pure _)
  | endHttpService c s =>
    refine same_recovered _ ?_
    cases s with
    | none => exact same_endAnyService hc (D.closed rfl) (D.serviceHash (.inr rfl)) c
    | some code =>
      exact same_withTrace _ _ _ fun _ _ => same_bind (same_of_quiet (quiet_getT _)) fun _ => Ev.ite (same_pure _)
        (same_bind (same_modT fun t => D.status ⟨_, _, rfl⟩ t _) fun _ => same_endAnyService hc (D.closed rfl) (D.serviceHash (.inr rfl)) c)
  | startService c n ip =>
    refine dr (same_bind (same_of_quiet quiet_get) fun v => ?_)
    split
    · exact same_pure _
    · exact same_recovered _ (same_startService_bind hc fun q hq => same_bind (same_modT_other hq) fun _ => same_pure _)
  | endService c => exact same_recovered _ (same_endAnyService hc (D.closed rfl) (D.serviceHash (.inr rfl)) c)
  | startInheritance q =>
    refine dr ?_
    unfold Trace.startInheritance
    cases q with
    | none =>
      exact same_bind (same_recovered _ (same_of_quiet quiet_panic)) fun x => by
        cases x <;> exact same_pure _
    | some q =>
      simp only
      intro w t ht
      cases hq : w.tctxs[q]? with
      | none =>
        have e : recovered none (do
            let t ← getT q
            let p ← startService t.serviceName t.remoteIp
            return some p) w = recovered none TM.panic w := by
          unfold recovered
          rw [TM.bind_def]
          simp [getT, hq]
        have e2 : ∀ f : Option Nat → TM Ctx, (recovered none (do
            let t ← getT q
            let p ← startService t.serviceName t.remoteIp
            return some p) >>= f) w = (recovered none TM.panic >>= f) w := by
          intro f; rw [TM.bind_def, e, ← TM.bind_def]
        rw [e2]
        exact same_recPanic_bind (same_pure _) w t ht
      | some tq =>
        have e : ∀ f : Option Nat → TM Ctx, (recovered none (do
            let t ← getT q
            let p ← startService t.serviceName t.remoteIp
            return some p) >>= f) w =
            (recovered none (startService tq.serviceName tq.remoteIp >>= fun p => pure (some p)) >>= f) w := by
          intro f
          have : recovered none (do
            let t ← getT q
            let p ← startService t.serviceName t.remoteIp
            return some p) w = recovered none (startService tq.serviceName tq.remoteIp >>= fun p => pure (some p)) w := by
            unfold recovered
            rw [TM.bind_ok (getT_run hq)]
          rw [TM.bind_def, this, ← TM.bind_def]
        rw [e]
        exact same_recStart_bind (f := fun p? => match p?, some q with
          | some p, some q => recovered (Ctx.traced p) (do inheritTctx p q; return Ctx.traced p)
          | _, _ => pure .nil) hc (fun x hx => same_recovered _ (same_bind (same_inheritTctx hc hx q) fun _ => same_pure _))
          (same_pure _) w t ht
  | goWithTrace c n =>
    refine dr (same_recovered _ (same_bind ?_ fun _ => same_pure _))
    refine same_withTrace _ _ _ fun q _ => same_bind (same_of_quiet (quiet_getT _)) fun _ => same_startService_bind hc fun x hx => ?_
    refine same_bind (same_of_quiet (quiet_getT _)) fun parent => same_bind (same_modT_other hx) fun _ => ?_
    have hj : Ev (Same core p) (do
        let child ← getT x
        let now ← millisToNow parent.startTime
        let h ← Trace.sendText .apicall n
        addNew q now (.async child.txid h 0)
        return Ctx.traced x) :=
      same_of_quiet (quiet_bind (quiet_getT _) fun child => quiet_bind (quiet_millisToNow _) fun now =>
        quiet_bind (quiet_sendText _ _) fun h => quiet_bind (quiet_addNew hc _ _ _) fun _ => quiet_pure _)
    exact Ev.ite (same_bind (same_modT_other hx) fun _ => same_bind (same_modT fun t => D.gxid rfl t _) fun _ => hj) hj
  | goBegin c => exact same_of_quiet (quiet_call_of _ D rfl)
  | startMethod c f ps => exact same_of_quiet (quiet_call_of _ D rfl)
  | startCustomMethod c f ps => exact same_of_quiet (quiet_call_of _ D rfl)
  | endMethod c q => exact same_of_quiet (quiet_call_of _ D rfl)
  | startApiCall c n a => exact same_of_quiet (quiet_call_of _ D rfl)
  | startApiCallProp c n a r => exact same_of_quiet (quiet_call_of _ D rfl)
  | endApiCall c q e => exact same_of_quiet (quiet_call_of _ D rfl)
  | activeCount o =>
    refine dr (same_bind (same_of_quiet quiet_get) fun w => same_bind (same_of_quiet (quiet_reading _)) fun now => ?_)
    have stuck : ∀ q, Ev (Same core p) (endStuck q) := by
      intro q
      refine same_recovered _ (same_bind (same_of_quiet quiet_get) fun w => Ev.ite ?_ (same_pure _))
      refine same_bind (same_of_quiet (quiet_getT _)) fun _ => same_bind (same_of_quiet (quiet_millisToNow _)) fun _ =>
        same_bind (same_of_quiet (quiet_sendText _ _)) fun _ => same_bind (same_addNew hc _ _ _) fun _ =>
        same_bind (same_of_quiet (quiet_getT _)) fun _ => Ev.ite ?_ (same_endTctx hc (D.closed rfl) (D.serviceHash (.inr rfl)) q)
      exact same_bind (same_of_quiet (quiet_sendText _ _)) fun _ => same_bind (same_modT fun t => D.error rfl t _) fun _ => same_endTctx hc (D.closed rfl) (D.serviceHash (.inr rfl)) q
    have loop : ∀ (ps : List Nat) n a, Ev (Same core p) (activeLoop now ps n a) := by
      intro ps
      induction ps with
      | nil => intro n a; exact same_pure _
      | cons q ps ih =>
        intro n a
        unfold activeLoop
        refine Ev.ite (same_pure _) (same_bind (same_of_quiet (quiet_getT _)) fun t => same_bind (same_of_quiet quiet_get) fun w => ?_)
        exact Ev.ite (same_bind (stuck q) fun _ => same_bind (same_of_quiet (quiet_getT _)) fun _ => same_bind (same_of_quiet quiet_get) fun _ =>
          same_bind (same_of_quiet (quiet_sendAlert _ _ _)) fun _ => ih _ _) (ih _ _)
    exact loop _ _ _
  | makeStep s => exact same_of_quiet (quiet_call_of _ D rfl)
  | setFields q l d t1 t2 t3 t4 t5 => exact same_of_quiet (quiet_call_of _ D rfl)
  | conf x => exact same_elsewhere fun _ => rfl
  | samplerRun => exact same_of_quiet (quiet_call_of _ D rfl)
  | resetTexts o => exact same_of_quiet (quiet_call_of _ D rfl)
  | queue s => exact same_of_quiet (quiet_call_of _ D rfl)

theorem same_call (D : Deaf core) (c : Call)
    (hE : setsError c = true → ∀ t e, core { t with error := e } = core t)
    (hG : setsGxid c = true → ∀ t e, core { t with gxid := e } = core t) : Ev (Same core p) c.code :=
  same_call_of c (D.deafTo c hE hG)

end
end Scouter
