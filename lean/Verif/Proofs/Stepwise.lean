import Verif.Model.Stepwise
import Verif.Proofs.Trace
/-!
# The step-by-step code, run alone, is the code of `Model/Trace`
-/
namespace Scouter
namespace Stepwise
open TM
open Trace (Request Call)

variable {α β : Type}

@[simp] theorem bind_eq (m : Prog α) (f : α → Prog β) : m >>= f = m.bind f := rfl
@[simp] theorem pure_eq (a : α) : (Pure.pure a : Prog α) = .pure a := rfl

theorem seq_pure (a : α) : (Prog.pure a).seq = (Pure.pure a : TM α) := rfl
theorem seq_pure' (a : α) : (Pure.pure a : Prog α).seq = (Pure.pure a : TM α) := rfl
theorem seq_panic : (Prog.panic : Prog α).seq = TM.panic := rfl
theorem seq_bind' (m : Prog α) (f : α → Prog β) : (m.bind f).seq = (m.seq >>= fun a => (f a).seq) := by
  funext w
  induction m generalizing w with
  | pure a => rfl
  | panic => rfl
  | op a k ih => exact ih _ _
theorem seq_bind (m : Prog α) (f : α → Prog β) : (m >>= f).seq = (m.seq >>= fun a => (f a).seq) := seq_bind' m f
theorem seq_orElse (m h : Prog α) : (m.orElse h).seq = fun w => match m.seq w with | (.ok a, w) => (.ok a, w) | (.panic, w) => h.seq w := by
  funext w
  induction m generalizing w with
  | pure a => rfl
  | panic => rfl
  | op a k ih => exact ih _ _
theorem seq_ite {c : Prop} [Decidable c] (m k : Prog α) : (if c then m else k).seq = if c then m.seq else k.seq := by split <;> rfl

theorem seq_getT (p : Nat) : (getT p).seq = Trace.getT p := by
  funext w
  simp only [getT, Prog.seq, Prim.exec, Trace.getT]
  cases w.tctxs[p]? <;> rfl
theorem seq_getStep (p : Nat) : (getStep p).seq = Trace.getStep p := by
  funext w
  simp only [getStep, Prog.seq, Prim.exec, Trace.getStep]
  cases w.steps[p]? <;> rfl
theorem seq_modT (p : Nat) (f : Tctx → Tctx) : (modT p f).seq = Trace.modT p f := rfl
theorem seq_modStep (p : Nat) (f : Step → Step) : (modStep p f).seq = Trace.modStep p f := rfl
theorem seq_newStep (s : Step) : (newStep s).seq = Trace.newStep s := rfl
theorem seq_sendText (k : TextKind) (n : Bytes) : (sendText k n).seq = Trace.sendText k n := rfl
theorem seq_sendDirect (p : Pack) : (sendDirect p).seq = Trace.sendDirect p := rfl
theorem seq_conf : conf.seq = (do let w ← TM.get; return w.conf) := rfl
theorem seq_traceOf (c : Ctx) : (traceOf c).seq = (do let w ← TM.get; return Trace.traceOf w c) := rfl
theorem seq_getSteps (ps : List Nat) : (getSteps ps).seq = (do let w ← TM.get; return ps.map fun i => w.steps[i]?) := rfl
theorem seq_clock : clock.seq = TM.reading (·.clock) := rfl
theorem seq_newId : newId.seq = TM.reading (·.id) := rfl
theorem seq_draw : draw.seq = TM.reading (·.draw) := rfl
theorem seq_goid : goid.seq = TM.reading (·.goid) := rfl
theorem seq_panicText : panicText.seq = TM.reading (·.panicText) := rfl
theorem seq_meter (e : Int) (b : Bool) : (meter e b).seq = Trace.meter e b := rfl
theorem seq_getSampler : getSampler.seq = Trace.getSampler := by
  funext w
  simp only [getSampler, Prog.seq, Prim.exec, Trace.getSampler, TM.bind_def, TM.get]
  cases w.sampler <;> rfl

theorem get_bind (f : World → TM α) : (TM.get >>= f) = fun w => f w w := rfl

theorem seq_sendAlert (l : BitVec 8) (t m : Bytes) : (sendAlert l t m).seq = Trace.sendAlert l t m := by
  unfold sendAlert Trace.sendAlert
  simp only [seq_ite, seq_bind, seq_conf, seq_sendDirect, seq_pure']
  rfl

theorem seq_recovered (d : α) (m : Prog α) : (recovered d m).seq = Trace.recovered d m.seq := by
  unfold recovered Trace.recovered
  rw [seq_orElse]
  funext w
  simp only [seq_bind, seq_panicText, seq_sendAlert, seq_pure']
  rfl

theorem seq_millisToNow (s : Int) : (millisToNow s).seq = Trace.millisToNow s := by
  unfold millisToNow Trace.millisToNow
  simp only [seq_bind, seq_clock, seq_pure']

theorem seq_sendProfile0 (p : Nat) (ptrs : List Nat) : (sendProfile0 p ptrs).seq = Trace.sendProfile0 p ptrs := by
  unfold sendProfile0 Trace.sendProfile0
  simp only [seq_ite, seq_bind, seq_conf, seq_getT, seq_getSteps, seq_clock, seq_modT, seq_sendDirect, seq_pure']
  rfl

theorem seq_sendSlices (p : Nat) (ss : List (List Nat)) : (sendSlices p ss).seq = Trace.sendSlices p ss := by
  induction ss with
  | nil => rfl
  | cons s ss ih => simp only [sendSlices, Trace.sendSlices, seq_bind, seq_sendProfile0, ih]

theorem conf_get {f : TraceConf → Prog α} {g : World → TM α} (h : ∀ w, (f w.conf).seq = g w) : (conf >>= f).seq = (TM.get >>= g) := by
  funext w
  exact congrFun (h w) w
theorem traceOf_get {c : Ctx} {f : Option Nat → Prog α} {g : World → TM α} (h : ∀ w, (f (Trace.traceOf w c)).seq = g w) :
    (traceOf c >>= f).seq = (TM.get >>= g) := by
  funext w
  exact congrFun (h w) w
theorem both {m : Prog α} {n : TM α} {f : α → Prog β} {g : α → TM β} (h : m.seq = n) (hf : ∀ a, (f a).seq = g a) : (m >>= f).seq = (n >>= g) := by
  rw [seq_bind, h]
  congr 1
  funext a
  exact hf a

theorem seq_sendProfile (p : Nat) (ptrs : List Nat) : (sendProfile p ptrs).seq = Trace.sendProfile p ptrs := by
  refine conf_get fun w => ?_
  cases profileSlices ptrs w.conf.bulk with
  | none => rfl
  | some s => exact seq_sendSlices p s

theorem seq_profileProcess (p ptr : Nat) : (profileProcess p ptr).seq = Trace.profileProcess p ptr := by
  refine both (seq_getT p) fun t => conf_get fun w => ?_
  rcases t.col.process w.conf.keep ptr with ⟨c, r⟩
  cases r with
  | done => rfl
  | full o => exact both (seq_modT p _) fun _ => seq_sendProfile p o
  | panicked => exact both (seq_modT p _) fun _ => seq_panic

theorem seq_profilePush (p ptr : Nat) : (profilePush p ptr).seq = Trace.profilePush p ptr :=
  both (seq_getT p) fun _ => both (seq_getStep ptr) fun _ => both (seq_modStep ptr _) fun _ => seq_modT p _

theorem seq_profilePop (p ptr : Nat) : (profilePop p ptr).seq = Trace.profilePop p ptr :=
  both (seq_getStep ptr) fun _ => both (seq_modT p _) fun _ => seq_profileProcess p ptr

theorem seq_profileAdd (p ptr : Nat) : (profileAdd p ptr).seq = Trace.profileAdd p ptr :=
  both (seq_getT p) fun _ => both (seq_getStep ptr) fun _ => both (seq_modStep ptr _) fun _ => both (seq_modT p _) fun _ => seq_profileProcess p ptr

theorem seq_profileClose (p : Nat) (ok : Bool) : (profileClose p ok).seq = Trace.profileClose p ok := by
  refine both (seq_getT p) fun t => ?_
  cases t.col.close ok with
  | none => rfl
  | some o => exact seq_sendProfile p o

theorem seq_addNew (p : Nat) (st : BitVec 32) (b : StepBody) : (addNew p st b).seq = Trace.addNew p st b :=
  both (seq_newStep _) fun _ => seq_profileAdd p _

theorem seq_withTrace (c : Ctx) (d : α) {f : Nat → Prog α} {g : Nat → TM α} (h : ∀ p, (f p).seq = g p) :
    (withTrace c d f).seq = Trace.withTrace c d g := by
  refine traceOf_get fun w => ?_
  cases Trace.traceOf w c with
  | none => rfl
  | some p => exact h p

theorem seq_newTraceContext : newTraceContext.seq = Trace.newTraceContext := by
  refine both seq_newId fun _ => both seq_clock fun _ => ?_
  funext w
  show ((match Collector.new w.conf.keep with | none => Prog.panic | some col => addT _).seq) w = (match Collector.new w.conf.keep with | none => TM.panic | some col => _ : TM Nat) w
  cases Collector.new w.conf.keep <;> rfl

theorem seq_register (p : Nat) : (register p).seq = Trace.register p := both (seq_getT p) fun _ => rfl
theorem seq_unregister (p : Nat) : (unregister p).seq = Trace.unregister p := both (seq_getT p) fun _ => rfl

theorem seq_startRest (p : Nat) (n a : Bytes) : (startRest p n a).seq = Trace.startRest p n a :=
  both (seq_modT p _) fun _ => both seq_goid fun _ => both (seq_modT p _) fun _ => both (seq_addNew p _ _) fun _ => both (seq_modT p _) fun _ =>
    both (seq_sendText _ _) fun _ => seq_modT p _

theorem seq_startService (n a : Bytes) : (startService n a).seq = Trace.startService n a :=
  both seq_newTraceContext fun p => both (seq_register p) fun _ => both (seq_startRest p n a) fun _ => rfl

theorem seq_findXLogDiscard (t : Tctx) (e : BitVec 32) : (findXLogDiscard t e).seq = Trace.findXLogDiscard t e :=
  both seq_getSampler fun _ => conf_get fun _ => both seq_draw fun _ => rfl

theorem seq_sendIfSet (k : TextKind) (n : Bytes) : (sendIfSet k n).seq = Trace.sendIfSet k n := by
  unfold sendIfSet Trace.sendIfSet
  simp only [seq_ite, seq_sendText, seq_pure']

theorem seq_toXlog (t : Tctx) (d : BitVec 8) (e : BitVec 32) : (toXlog t d e).seq = Trace.toXlog t d e :=
  both (seq_sendText _ _) fun _ => both (seq_sendIfSet _ _) fun _ => both (seq_sendIfSet _ _) fun _ => rfl

theorem seq_sendXlog (x : XlogPack) : (sendXlog x).seq = Trace.sendXlog x := conf_get fun _ => rfl

theorem seq_endRest (p : Nat) : (endRest p).seq = Trace.endRest p := by
  refine both (seq_modT p _) fun _ => both (seq_getT p) fun _ => both (seq_sendText _ _) fun _ => both (seq_modT p _) fun _ =>
    both (seq_unregister p) fun _ => both (seq_getT p) fun _ => both (seq_millisToNow _) fun _ => both (seq_findXLogDiscard _ _) fun _ =>
    both (seq_toXlog _ _ _) fun _ => both (seq_profileClose p _) fun _ => both (seq_meter _ _) fun _ => ?_
  rw [seq_ite, seq_sendXlog]
  rfl

theorem seq_endTctx (p : Nat) : (endTctx p).seq = Trace.endTctx p := by
  refine both (seq_getT p) fun t => ?_
  rw [seq_ite, seq_endRest]
  rfl

theorem seq_endAnyService (c : Ctx) : (endAnyService c).seq = Trace.endAnyService c := by
  refine seq_withTrace c () fun p => both (seq_getT p) fun t => ?_
  rw [seq_ite, seq_endTctx]
  rfl

theorem seq_addPMessageStep (c : Ctx) (l : BitVec 8) (m : Bytes) (e : BitVec 32) (ps : List Bytes) :
    (addPMessageStep c l m e ps).seq = Trace.addPMessageStep c l m e ps := by
  unfold addPMessageStep Trace.addPMessageStep
  rw [seq_recovered]
  congr 1
  exact seq_withTrace c () fun p => both (seq_getT p) fun _ => both (seq_millisToNow _) fun _ => both (seq_sendText _ _) fun _ => seq_addNew p _ _

theorem seq_addMessages (p : Nat) (st : BitVec 32) (ms : List Bytes) : (addMessages p st ms).seq = Trace.addMessages p st ms := by
  induction ms with
  | nil => rfl
  | cons m ms ih => exact both (seq_addNew p _ _) fun _ => ih

theorem seq_profileHttpHeaders (r : Request) (p : Nat) : (profileHttpHeaders r p).seq = Trace.profileHttpHeaders r p := by
  refine both (seq_getT p) fun _ => both (seq_millisToNow _) fun _ => conf_get fun _ => both (seq_addMessages p _ _) fun _ => conf_get fun _ => ?_
  rw [seq_ite, seq_addNew]
  rfl

theorem seq_startHttpRest (r : Request) (p : Nat) : (startHttpRest r p).seq = Trace.startHttpRest r p :=
  both (seq_modT p _) fun _ => both (seq_sendText _ _) fun _ => both (seq_modT p _) fun _ => both (seq_sendText _ _) fun _ =>
    both (seq_modT p _) fun _ => seq_profileHttpHeaders r p

theorem seq_startHttpService (c : Ctx) (r : Option Request) : (startHttpService c r).seq = Trace.startHttpService c r := by
  unfold startHttpService Trace.startHttpService
  rw [seq_ite]
  congr 1
  funext w
  show (match Trace.traceOf w c with | some _ => Pure.pure c | none => conf >>= _ : Prog Ctx).seq w = (match Trace.traceOf w c with | some _ => Pure.pure c | none => _ : TM Ctx) w
  cases Trace.traceOf w c with
  | some p => rfl
  | none =>
    refine congrFun (f := Prog.seq (recovered _ _ >>= _)) (both ?_ fun q => ?_) w
    · rw [seq_recovered]
      congr 1
      cases r with
      | none => rfl
      | some r => exact both (seq_startService _ _) fun _ => rfl
    · cases q with
      | none => rfl
      | some p =>
        cases r with
        | none => rfl
        | some r =>
          refine (seq_recovered _ _).trans ?_
          congr 1
          exact both (seq_startHttpRest r p) fun _ => rfl

theorem seq_startServiceApi (c : Ctx) (n a : Bytes) : (startServiceApi c n a).seq = Trace.startServiceApi c n a := by
  refine traceOf_get fun w => ?_
  cases Trace.traceOf w c with
  | some p => rfl
  | none =>
    refine (seq_recovered _ _).trans ?_
    congr 1
    exact both (seq_startService _ _) fun p => both (seq_modT p _) fun _ => rfl

theorem seq_inheritTctx (p q : Nat) : (inheritTctx p q).seq = Trace.inheritTctx p q :=
  both (seq_getT q) fun _ => both (seq_modT p _) fun _ => both (seq_addNew p _ _) fun _ => both (seq_getT q) fun _ => conf_get fun _ => seq_modT p _

theorem seq_startInheritance (q : Option Nat) : (startInheritance q).seq = Trace.startInheritance q := by
  refine both ?_ fun x => ?_
  · rw [seq_recovered]
    congr 1
    cases q with
    | none => rfl
    | some q => exact both (seq_getT q) fun _ => both (seq_startService _ _) fun _ => rfl
  · cases x with
    | none => rfl
    | some p =>
      cases q with
      | none => rfl
      | some q =>
        refine (seq_recovered _ _).trans ?_
        congr 1
        exact both (seq_inheritTctx p q) fun _ => rfl

theorem seq_startChild (c : Ctx) (n : Bytes) : (startChild c n).seq = Trace.startChild c n := by
  refine seq_withTrace c c fun q => both (seq_getT q) fun _ => both (seq_startService _ _) fun p => both (seq_getT q) fun _ => both (seq_modT p _) fun _ => ?_
  extract_lets jp jp'
  have hj : ∀ u, (jp u).seq = jp' u := fun _ =>
    both (seq_getT p) fun _ => both (seq_millisToNow _) fun _ => both (seq_sendText _ _) fun _ => both (seq_addNew q _ _) fun _ => rfl
  rw [seq_ite]
  congr 1
  · exact both (seq_modT p _) fun _ => both (seq_modT q _) fun _ => hj ()
  · exact hj ()

theorem seq_addParams (p : Nat) (ps : List (Option Bytes)) : (addParams p ps).seq = Trace.addParams p ps := by
  induction ps with
  | nil => rfl
  | cons x ps ih =>
    cases x with
    | none => exact ih
    | some s => exact both (seq_getT p) fun _ => both (seq_millisToNow _) fun _ => both (seq_millisToNow _) fun _ => both (seq_addNew p _ _) fun _ => ih

theorem seq_startMethod0 (p : Nat) (f m : Bytes) (ps : List (Option Bytes)) : (startMethod0 p f m ps).seq = Trace.startMethod0 p f m ps :=
  both (seq_addParams p ps) fun _ => both (seq_modT p _) fun _ => both (seq_sendText _ _) fun _ => both (seq_getT p) fun _ =>
    both (seq_millisToNow _) fun _ => both (seq_newStep _) fun _ => both (seq_profilePush p _) fun _ => rfl

theorem seq_startApiCall0 (p : Nat) (n a : Bytes) : (startApiCall0 p n a).seq = Trace.startApiCall0 p n a :=
  both (seq_sendText _ _) fun _ => both (seq_getT p) fun _ => both (seq_millisToNow _) fun _ => both seq_newId fun _ => both (seq_newStep _) fun _ =>
    both (seq_profilePush p _) fun _ => rfl

theorem seq_drop {m : Prog α} {n : TM α} (h : m.seq = n) : (do let _ ← m : Prog Unit).seq = (do let _ ← n : TM Unit) := both h fun _ => rfl

/-- A recovered body. -/
theorem rec' (d : α) {m : Prog α} {n : TM α} (h : m.seq = n) : (recovered d m).seq = Trace.recovered d n := by rw [seq_recovered, h]

/-- Each call, step by step but alone, is the call. -/
theorem seq_code (c : Call) (h : own c = true) : (code c).seq = c.code := by
  cases c with
  | isStream c => exact seq_drop (rec' _ (seq_withTrace c _ fun p => both (seq_getT p) fun _ => rfl))
  | setAsStream c => exact seq_drop (rec' _ (seq_withTrace c _ fun p => both (seq_modT p _) fun _ => rfl))
  | markAsError c m =>
    refine rec' _ (seq_withTrace c _ fun p => both (seq_getT p) fun t => ?_)
    extract_lets jp jp'
    have hj : ∀ u, (jp u).seq = jp' u := fun _ => seq_addPMessageStep _ _ _ _ _
    rw [seq_ite]
    congr 1
    · exact both (seq_sendText _ _) fun _ => both (seq_modT p _) fun _ => hj ()
    · exact hj ()
  | markAsErrorForcibly c m => exact rec' _ (seq_withTrace c _ fun p => both (seq_sendText _ _) fun _ => seq_modT p _)
  | setServiceName c n => exact rec' _ (seq_withTrace c _ fun p => both (seq_modT p _) fun _ => both (seq_sendText _ _) fun _ => seq_modT p _)
  | addStep c p =>
    refine rec' _ (seq_withTrace c _ fun q => ?_)
    cases p with
    | none => rfl
    | some p => exact seq_profileAdd q p
  | addMessageStep c m => exact rec' _ (seq_withTrace c _ fun p => both (seq_getT p) fun _ => both (seq_millisToNow _) fun _ => seq_addNew p _ _)
  | addHashedMessageStep c m v e =>
    exact rec' _ (seq_withTrace c _ fun p => both (seq_getT p) fun _ => both (seq_sendText _ _) fun _ => both (seq_millisToNow _) fun _ => seq_addNew p _ _)
  | addPMessageStep c l m e ps => exact seq_addPMessageStep _ _ _ _ _
  | startHttpService c r => exact seq_drop (seq_startHttpService c r)
  | endHttpService c s =>
    refine rec' _ ?_
    cases s with
    | none => exact seq_endAnyService c
    | some code =>
      refine seq_withTrace c _ fun p => both (seq_getT p) fun t => ?_
      rw [seq_ite]
      congr 1
      exact both (seq_modT p _) fun _ => seq_endAnyService c
  | startService c n ip => exact seq_drop (seq_startServiceApi c n ip)
  | endService c => exact rec' _ (seq_endAnyService c)
  | startInheritance q => exact seq_drop (seq_startInheritance q)
  | goWithTrace c n => exact seq_drop (rec' _ (both (seq_startChild c n) fun _ => rfl))
  | goBegin c => exact seq_withTrace c _ fun p => both seq_clock fun _ => seq_modT p _
  | startMethod c f ps => exact seq_drop (rec' _ (seq_withTrace c _ fun p => both (seq_startMethod0 p _ _ _) fun _ => rfl))
  | startCustomMethod c n ps => exact seq_drop (rec' _ (seq_withTrace c _ fun p => both (seq_startMethod0 p _ _ _) fun _ => rfl))
  | endMethod c p =>
    refine rec' _ ?_
    cases p with
    | none => rfl
    | some ptr =>
      exact seq_withTrace c _ fun p => both (seq_getT p) fun _ => both (seq_getStep ptr) fun _ => both (seq_millisToNow _) fun _ =>
        both (seq_modStep ptr _) fun _ => seq_profilePop p ptr
  | startApiCall c n a => exact seq_drop (rec' _ (seq_withTrace c _ fun p => both (seq_startApiCall0 p _ _) fun _ => rfl))
  | startApiCallProp c n a r =>
    refine seq_drop (rec' _ (seq_withTrace c _ fun p => both (seq_startApiCall0 p _ _) fun ptr => both (seq_getT p) fun t => ?_))
    extract_lets jp jp'
    have hj : ∀ u, (jp u).seq = jp' u := fun _ =>
      both (seq_getT p) fun _ => both (seq_getStep ptr) fun _ => conf_get fun _ => rfl
    rw [seq_ite]
    congr 1
    · exact both (seq_modT p _) fun _ => hj ()
    · exact hj ()
  | endApiCall c p e =>
    refine rec' _ ?_
    cases p with
    | none => rfl
    | some ptr =>
      refine seq_withTrace c _ fun p => both (seq_getT p) fun _ => both (seq_getStep ptr) fun _ => both (seq_millisToNow _) fun _ =>
        both (seq_modStep ptr _) fun _ => both (seq_modT p _) fun _ => ?_
      extract_lets jp jp'
      have hj : ∀ u, (jp u).seq = jp' u := fun _ => seq_profilePop p ptr
      cases e with
      | none => exact hj ()
      | some m => exact both (seq_sendText _ _) fun _ => both (seq_modStep ptr _) fun _ => both (seq_modT p _) fun _ => hj ()
  | makeStep s => exact seq_drop (seq_newStep s)
  | setFields p l d t1 t2 t3 t4 t5 => exact seq_modT p _
  | activeCount o => cases h
  | conf c => cases h
  | samplerRun => cases h
  | resetTexts o => cases h
  | queue s => cases h

/-- Calls one after the other, step by step but alone, are the history of the calls. -/
theorem seq_codes (cs : List Call) (h : ∀ c ∈ cs, own c = true) (w : World) : (codes cs).seq w = (.ok (), Trace.history w cs) := by
  induction cs generalizing w with
  | nil => rfl
  | cons c cs ih =>
    have hc := seq_code c (h c (by simp))
    show (((code c).orElse (.pure ())).bind fun _ => codes cs).seq w = _
    rw [seq_bind', TM.bind_def, seq_orElse, hc]
    have hp : Trace.perform w c = (c.code w).2 := rfl
    have ih' := ih (fun c hm => h c (List.mem_cons_of_mem _ hm)) (c.code w).2
    show _ = (Outcome.ok (), Trace.history (Trace.perform w c) cs)
    rw [hp, ← ih']
    beta_reduce
    rcases c.code w with ⟨r, w'⟩
    cases r <;> rfl

end Stepwise
end Scouter
