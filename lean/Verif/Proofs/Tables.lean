import Verif.Proofs.Interleaving
import Verif.Proofs.Ledger
/-!
# What goroutines do to the table of running services
-/
namespace Scouter
namespace Stepwise
open TM
open Trace (Request Call)

variable {α β : Type}

/-- An id the generator has given. -/
def Read (w : World) (x : BitVec 64) : Prop := ∃ n, n < w.tick ∧ x = w.env.id n

/-- What is expected of accesses to contexts and to the table. -/
def Prim.asks {α : Type} : Prim α → World → Prop
  | .modT _ f, _ => ∀ t, (f t).txid = t.txid
  | .addT t, w => Read w t.txid
  | .enlist x p, w => Read w x ∧ (w.tctxs[p]?).map (·.txid) = some x ∧ (DistinctIds w.env w.tick → x ∉ w.registry.abs.map (·.1))
  | .strike x, w => Read w x
  | _, _ => True

/-- All accesses of the code run alone are as expected. -/
def Along {α : Type} : Prog α → World → Prop
  | .pure _, _ => True
  | .panic, _ => True
  | .op a k, w => a.asks w ∧ Along (k (a.exec w).1) (a.exec w).2

/-- A table without bound. -/
structure Free (r : Cache (BitVec 64) Nat) : Prop where
  inv : r.Inv
  bound : r.max = 0
  cb : r.hasCb = false

/-- What the code keeps. -/
structure J (w : World) : Prop where
  made : ∀ t ∈ w.tctxs, Read w t.txid
  keys : DistinctIds w.env w.tick → ∀ x ∈ w.registry.abs.map (·.1), Read w x
  free : DistinctIds w.env w.tick → Free w.registry
  places : DistinctIds w.env w.tick → ∀ e ∈ w.registry.abs, ∃ p, e.2 = some p ∧ (w.tctxs[p]?).map (·.txid) = some e.1

theorem Free.rel {r : Cache (BitVec 64) Nat} (h : Free r) : Cache.Rel r { bound := 0, entries := r.abs } :=
  ⟨h.inv, h.bound.symm, rfl, by rw [h.cb]; simp⟩

theorem Free.remove {r : Cache (BitVec 64) Nat} (h : Free r) (k : BitVec 64) :
    Free (r.remove k) ∧ (r.remove k).abs = r.abs.filter (fun x => decide (x.1 ≠ k)) := by
  have h1 := h.rel.remove k
  have h2 := step_const r (.remove k)
  exact ⟨⟨h1.inv, h2.1.trans h.bound, h2.2.trans h.cb⟩, h1.entries.symm⟩

theorem Free.add {r : Cache (BitVec 64) Nat} (h : Free r) (k : BitVec 64) (v : Option Nat) (hk : k ∉ r.abs.map (·.1)) :
    Free (r.add k v) ∧ (r.add k v).abs = r.abs ++ [(k, v)] := by
  have h1 := h.rel.add k v
  have h2 := step_const r (.add k v)
  refine ⟨⟨h1.inv, h2.1.trans h.bound, h2.2.trans h.cb⟩, ?_⟩
  rw [← h1.entries]
  unfold Spec.OMap.add
  rw [if_neg hk]
  simp

theorem Read.exec {w : World} {x : BitVec 64} (h : Read w x) (a : Prim α) : Read (a.exec w).2 x := by
  obtain ⟨n, h1, h2⟩ := h
  exact ⟨n, Nat.lt_of_lt_of_le h1 (exec_grows a w).tick, by rw [(exec_grows a w).env]; exact h2⟩

theorem J.exec {w : World} (h : J w) {a : Prim α} (ha : a.asks w) : J (a.exec w).2 := by
  have hd : DistinctIds (a.exec w).2.env (a.exec w).2.tick → DistinctIds w.env w.tick := by
    intro hd
    rw [(exec_grows a w).env] at hd
    exact DistinctIds.mono hd (exec_grows a w).tick
  have rest : (a.exec w).2.tctxs = w.tctxs → (a.exec w).2.registry = w.registry → J (a.exec w).2 := by
    intro e1 e2
    refine ⟨fun t ht => (h.made t (e1 ▸ ht)).exec a, fun d x hx => ?_, fun d => e2 ▸ h.free (hd d), fun d x hx => ?_⟩
    · rw [e2] at hx
      exact (h.keys (hd d) x hx).exec a
    · rw [e2] at hx
      rw [e1]
      exact h.places (hd d) x hx
  cases a with
  | modT p f =>
    refine ⟨fun t ht => ?_, h.keys, h.free, fun d e he => ?_⟩
    rotate_left
    · obtain ⟨q, hq, e'⟩ := h.places d e he
      refine ⟨q, hq, ?_⟩
      simp only [Prim.exec, List.getElem?_modify]
      cases hw : w.tctxs[q]? with
      | none => rw [hw] at e'; cases e'
      | some t0 =>
        rw [hw] at e'
        injection e' with e'
        simp only [Option.map_eq_map, Option.map_some, Option.some.injEq]
        rw [← e']
        split
        · exact ha t0
        · rfl
    obtain ⟨i, hi⟩ := List.getElem?_of_mem ht
    simp only [Prim.exec, List.getElem?_modify] at hi
    cases hw : w.tctxs[i]? with
    | none => rw [hw] at hi; cases hi
    | some t0 =>
      rw [hw] at hi
      have h0 := h.made t0 (List.mem_of_getElem? hw)
      have : t.txid = t0.txid := by
        injection hi with hi
        rw [← hi]
        split
        · exact ha t0
        · rfl
      rw [this]
      exact h0
  | addT t =>
    refine ⟨fun t' ht => ?_, h.keys, h.free, fun d e he => ?_⟩
    rotate_left
    · obtain ⟨q, hq, e'⟩ := h.places d e he
      refine ⟨q, hq, ?_⟩
      cases hw : w.tctxs[q]? with
      | none => rw [hw] at e'; cases e'
      | some t0 =>
        rw [hw] at e'
        show ((w.tctxs ++ [t])[q]?).map _ = _
        rw [List.getElem?_append_left (List.getElem?_eq_some_iff.1 hw).1, hw]
        exact e'
    rcases List.mem_append.1 ht with ht | ht
    · exact h.made t' ht
    · rw [List.mem_singleton.1 ht]; exact ha
  | enlist x p =>
    have hadd := fun d => (h.free d).add x (some p) (ha.2.2 d)
    refine ⟨h.made, fun d y hy => ?_, fun d => (hadd d).1, fun d e he => ?_⟩
    rotate_left
    · have he' : e ∈ (w.registry.add x (some p)).abs := he
      rw [(hadd d).2, List.mem_append] at he'
      rcases he' with he' | he'
      · exact h.places d e he'
      · rw [List.mem_singleton.1 he']
        exact ⟨p, rfl, ha.2.1⟩
    have hy' : y ∈ (w.registry.add x (some p)).abs.map (·.1) := hy
    rw [(hadd d).2, List.map_append, List.mem_append] at hy'
    rcases hy' with hy' | hy'
    · exact h.keys d y hy'
    · simp only [List.map_cons, List.map_nil, List.mem_singleton] at hy'
      rw [hy']; exact ha.1
  | strike x =>
    have hrem := fun d => (h.free d).remove x
    refine ⟨h.made, fun d y hy => ?_, fun d => (hrem d).1, fun d e he => ?_⟩
    rotate_left
    · have he' : e ∈ (w.registry.remove x).abs := he
      rw [(hrem d).2] at he'
      exact h.places d e (List.mem_filter.1 he').1
    have hy' : y ∈ (w.registry.remove x).abs.map (·.1) := hy
    rw [(hrem d).2] at hy'
    obtain ⟨e, he, rfl⟩ := List.mem_map.1 hy'
    exact h.keys d _ (List.mem_map.2 ⟨e, (List.mem_filter.1 he).1, rfl⟩)
  | sampler =>
    apply rest
    · simp only [Prim.exec]; cases w.sampler <;> rfl
    · simp only [Prim.exec]; cases w.sampler <;> rfl
  | _ => exact rest rfl rfl

/-- The code keeps to it, wherever it begins. -/
def Good (m : Prog α) : Prop := ∀ w, J w → Along m w

theorem good_pure (a : α) : Good (Pure.pure a : Prog α) := fun _ _ => trivial
theorem good_pure' (a : α) : Good (Prog.pure a : Prog α) := fun _ _ => trivial
theorem good_panic : Good (Prog.panic : Prog α) := fun _ _ => trivial

theorem along_bind (m : Prog α) (k : α → Prog β) (hk : ∀ a, Good (k a)) : ∀ w, J w → Along m w → Along (m.bind k) w := by
  induction m with
  | pure a => exact fun w hw _ => hk a w hw
  | panic => exact fun _ _ _ => trivial
  | op a k' ih => exact fun w hw h => ⟨h.1, ih _ _ (hw.exec h.1) h.2⟩

theorem along_orElse (m : Prog α) {h : Prog α} (hh : Good h) : ∀ w, J w → Along m w → Along (m.orElse h) w := by
  induction m with
  | pure a => exact fun w hw _ => trivial
  | panic => exact fun w hw _ => hh w hw
  | op a k' ih => exact fun w hw h => ⟨h.1, ih _ _ (hw.exec h.1) h.2⟩

theorem good_bind {m : Prog α} {k : α → Prog β} (hm : Good m) (hk : ∀ a, Good (k a)) : Good (m >>= k) :=
  fun w hw => along_bind m k hk w hw (hm w hw)

theorem good_orElse {m h : Prog α} (hm : Good m) (hh : Good h) : Good (m.orElse h) := fun w hw => along_orElse m hh w hw (hm w hw)

theorem good_op {γ : Type} {a : Prim γ} {k : γ → Prog α} (ha : ∀ w, a.asks w) (hk : ∀ b, Good (k b)) : Good (.op a k) :=
  fun w hw => ⟨ha w, hk _ _ (hw.exec (ha w))⟩

theorem good_ite {c : Prop} [Decidable c] {m m' : Prog α} (h : Good m) (h' : Good m') : Good (if c then m else m') := by
  split <;> assumption

theorem good_getT (p : Nat) : Good (getT p) := good_op (fun _ => trivial) fun b => by cases b <;> exact fun _ _ => trivial
theorem good_modT (p : Nat) {f : Tctx → Tctx} (hf : ∀ t, (f t).txid = t.txid) : Good (modT p f) := good_op (fun _ => hf) good_pure'
theorem good_traceOf (c : Ctx) : Good (traceOf c) := good_op (fun _ => trivial) good_pure'
theorem good_newStep (s : Step) : Good (newStep s) := good_op (fun _ => trivial) good_pure'
theorem good_getStep (p : Nat) : Good (getStep p) := good_op (fun _ => trivial) fun b => by cases b <;> exact fun _ _ => trivial
theorem good_getSteps (p : List Nat) : Good (getSteps p) := good_op (fun _ => trivial) good_pure'
theorem good_modStep (p : Nat) (f : Step → Step) : Good (modStep p f) := good_op (fun _ => trivial) good_pure'
theorem good_sendText (k : TextKind) (n : Bytes) : Good (sendText k n) := good_op (fun _ => trivial) good_pure'
theorem good_sendDirect (p : Pack) : Good (sendDirect p) := good_op (fun _ => trivial) good_pure'
theorem good_conf : Good conf := good_op (fun _ => trivial) good_pure'
theorem good_clock : Good clock := good_op (fun _ => trivial) good_pure'
theorem good_newId : Good newId := good_op (fun _ => trivial) good_pure'
theorem good_draw : Good draw := good_op (fun _ => trivial) good_pure'
theorem good_goid : Good goid := good_op (fun _ => trivial) good_pure'
theorem good_panicText : Good panicText := good_op (fun _ => trivial) good_pure'
theorem good_sampler : Good getSampler := good_op (fun _ => trivial) good_pure'
theorem good_meter (e : Int) (b : Bool) : Good (meter e b) := good_op (fun _ => trivial) good_pure'

theorem good_unregister (p : Nat) : Good (unregister p) := by
  intro w hw
  refine ⟨trivial, ?_⟩
  show Along (Prog.bind (match w.tctxs[p]? with | some t => Prog.pure t | none => Prog.panic) _) w
  cases ht : w.tctxs[p]? with
  | none => exact trivial
  | some t => exact ⟨hw.made t (List.mem_of_getElem? ht), trivial⟩

/-- A new context is entered in the table with an id not there yet. -/
theorem good_begin {k : Nat → Prog α} (hk : ∀ p, Good (k p)) : Good (newTraceContext >>= fun p => register p >>= fun _ => k p) := by
  intro w hw
  refine ⟨trivial, trivial, trivial, ?_⟩
  show Along (Prog.bind (match Collector.new w.conf.keep with | none => Prog.panic | some col => addT _) _) (advance (advance w))
  cases hc : Collector.new w.conf.keep with
  | none => exact trivial
  | some col =>
    have h1 : J (advance (advance w)) := (hw.exec (a := .newId) trivial).exec (a := .clock) trivial
    have hr : Read (advance (advance w)) (w.env.id w.tick) := ⟨w.tick, Nat.lt_succ_of_lt (Nat.lt_succ_self _), rfl⟩
    have h2 : Prim.asks (.addT { col := col, txid := w.env.id w.tick, startTime := w.env.clock (w.tick + 1) }) (advance (advance w)) := hr
    refine ⟨h2, trivial, ?_⟩
    have h3 := h1.exec h2
    generalize hw3 : ((Prim.addT { col := col, txid := w.env.id w.tick, startTime := w.env.clock (w.tick + 1) }).exec (advance (advance w))).2 = w3 at h3
    have e3 : w3.tctxs[w.tctxs.length]? = some { col := col, txid := w.env.id w.tick, startTime := w.env.clock (w.tick + 1) } := by
      rw [← hw3]; simp [Prim.exec, advance]
    have goal : Along (Prog.bind (Prog.bind (match w3.tctxs[w.tctxs.length]? with | some t => Prog.pure t | none => Prog.panic)
        fun t => enlist t.txid w.tctxs.length) fun _ => k w.tctxs.length) w3 := by
      rw [e3]
      have h4 : Prim.asks (.enlist (w.env.id w.tick) w.tctxs.length) w3 := by
        refine ⟨?_, by rw [e3]; rfl, fun d hx => ?_⟩
        · rw [← hw3]; exact hr
        · rw [← hw3] at d hx
          have hx' : w.env.id w.tick ∈ w.registry.abs.map (·.1) := hx
          have dd : DistinctIds w.env (w.tick + 1 + 1) := d
          obtain ⟨n, hn, e⟩ := hw.keys (DistinctIds.mono dd (by omega)) _ hx'
          have := dd _ _ (by omega) (by omega) e
          omega
      exact ⟨h4, hk _ _ (h3.exec h4)⟩
    subst hw3
    exact goal

/-- One step of going through the code. -/
macro "through" "[" ts:term,* "]" : tactic => do
  let mut alts : Lean.TSyntaxArray ``Lean.Parser.Tactic.tacticSeq := #[]
  for t in ts.getElems do
    alts := alts.push (← `(Lean.Parser.Tactic.tacticSeq| with_reducible exact $t))
  `(tactic| repeat' first
    | assumption
    | with_reducible exact good_pure _
    | with_reducible exact good_pure' _
    | with_reducible exact good_panic
    | with_reducible exact good_getT _
    | with_reducible exact good_modT _ (fun _ => rfl)
    | with_reducible exact good_traceOf _
    | with_reducible exact good_newStep _
    | with_reducible exact good_getStep _
    | with_reducible exact good_getSteps _
    | with_reducible exact good_modStep _ _
    | with_reducible exact good_sendText _ _
    | with_reducible exact good_sendDirect _
    | with_reducible exact good_conf
    | with_reducible exact good_clock
    | with_reducible exact good_newId
    | with_reducible exact good_draw
    | with_reducible exact good_goid
    | with_reducible exact good_panicText
    | with_reducible exact good_sampler
    | with_reducible exact good_meter _ _
    | with_reducible exact good_unregister _
    $[| $alts]*
    | with_reducible refine good_bind ?_ ?_
    | with_reducible refine good_ite ?_ ?_
    | split
    | intro _)

theorem good_sendAlert (l : BitVec 8) (t m : Bytes) : Good (sendAlert l t m) := by unfold sendAlert; through []
theorem good_recovered (d : α) {m : Prog α} (h : Good m) : Good (recovered d m) := by
  unfold recovered
  refine good_orElse h ?_
  through [good_sendAlert _ _ _]
theorem good_millisToNow (s : Int) : Good (millisToNow s) := by unfold millisToNow; through []
theorem good_sendProfile0 (p : Nat) (ptrs : List Nat) : Good (sendProfile0 p ptrs) := by unfold sendProfile0; through []
theorem good_sendSlices (p : Nat) (ss : List (List Nat)) : Good (sendSlices p ss) := by
  induction ss with
  | nil => exact good_pure _
  | cons s ss ih => unfold sendSlices; through [good_sendProfile0 _ _]
theorem good_sendProfile (p : Nat) (ptrs : List Nat) : Good (sendProfile p ptrs) := by unfold sendProfile; through [good_sendSlices _ _]
theorem good_profileProcess (p ptr : Nat) : Good (profileProcess p ptr) := by unfold profileProcess; through [good_sendProfile _ _]
theorem good_profilePush (p ptr : Nat) : Good (profilePush p ptr) := by unfold profilePush; through []
theorem good_profilePop (p ptr : Nat) : Good (profilePop p ptr) := by unfold profilePop; through [good_profileProcess _ _]
theorem good_profileAdd (p ptr : Nat) : Good (profileAdd p ptr) := by unfold profileAdd; through [good_profileProcess _ _]
theorem good_profileClose (p : Nat) (ok : Bool) : Good (profileClose p ok) := by unfold profileClose; through [good_sendProfile _ _]
theorem good_addNew (p : Nat) (st : BitVec 32) (b : StepBody) : Good (addNew p st b) := by unfold addNew; through [good_profileAdd _ _]
theorem good_withTrace (c : Ctx) (d : α) {f : Nat → Prog α} (h : ∀ p, Good (f p)) : Good (withTrace c d f) := by
  unfold withTrace
  through [h _]
theorem good_startRest (p : Nat) (n a : Bytes) : Good (startRest p n a) := by unfold startRest; through [good_addNew _ _ _]
theorem good_startService (n a : Bytes) : Good (startService n a) := by
  unfold startService
  refine good_begin fun p => ?_
  through [good_startRest _ _ _]
theorem good_findXLogDiscard (t : Tctx) (e : BitVec 32) : Good (findXLogDiscard t e) := by unfold findXLogDiscard; through []
theorem good_sendIfSet (k : TextKind) (n : Bytes) : Good (sendIfSet k n) := by unfold sendIfSet; through []
theorem good_toXlog (t : Tctx) (d : BitVec 8) (e : BitVec 32) : Good (toXlog t d e) := by unfold toXlog; through [good_sendIfSet _ _]
theorem good_sendXlog (x : XlogPack) : Good (sendXlog x) := by unfold sendXlog; through []
theorem good_endRest (p : Nat) : Good (endRest p) := by
  unfold endRest
  through [good_millisToNow _, good_findXLogDiscard _ _, good_toXlog _ _ _, good_profileClose _ _, good_sendXlog _]
theorem good_endTctx (p : Nat) : Good (endTctx p) := by unfold endTctx; through [good_endRest _]
theorem good_endAnyService (c : Ctx) : Good (endAnyService c) := by
  unfold endAnyService
  refine good_withTrace _ _ fun p => ?_
  through [good_endTctx _]
theorem good_addPMessageStep (c : Ctx) (l : BitVec 8) (m : Bytes) (e : BitVec 32) (ps : List Bytes) : Good (addPMessageStep c l m e ps) := by
  unfold addPMessageStep
  refine good_recovered _ (good_withTrace _ _ fun p => ?_)
  through [good_millisToNow _, good_addNew _ _ _]
theorem good_addMessages (p : Nat) (st : BitVec 32) (ms : List Bytes) : Good (addMessages p st ms) := by
  induction ms with
  | nil => exact good_pure _
  | cons m ms ih => unfold addMessages; through [good_addNew _ _ _]
theorem good_profileHttpHeaders (r : Request) (p : Nat) : Good (profileHttpHeaders r p) := by
  unfold profileHttpHeaders
  through [good_millisToNow _, good_addMessages _ _ _, good_addNew _ _ _]
theorem good_startHttpRest (r : Request) (p : Nat) : Good (startHttpRest r p) := by unfold startHttpRest; through [good_profileHttpHeaders _ _]
theorem good_startHttpService (c : Ctx) (r : Option Request) : Good (startHttpService c r) := by
  unfold startHttpService
  refine good_ite (good_pure _) (good_bind (good_traceOf _) fun q => ?_)
  cases q with
  | some p => exact good_pure _
  | none =>
    refine good_bind good_conf fun cf => good_bind (good_recovered _ ?_) fun q => ?_
    · through [good_startService _ _]
    · split
      · refine good_recovered _ ?_
        through [good_startHttpRest _ _]
      · exact good_pure _
theorem good_startServiceApi (c : Ctx) (n a : Bytes) : Good (startServiceApi c n a) := by
  unfold startServiceApi
  refine good_bind (good_traceOf _) fun q => ?_
  cases q with
  | some p => exact good_pure _
  | none =>
    refine good_recovered _ ?_
    through [good_startService _ _]
theorem good_inheritTctx (p q : Nat) : Good (inheritTctx p q) := by unfold inheritTctx; through [good_addNew _ _ _]
theorem good_startInheritance (q : Option Nat) : Good (startInheritance q) := by
  unfold startInheritance
  refine good_bind (good_recovered _ ?_) fun x => ?_
  · through [good_startService _ _]
  · split
    · refine good_recovered _ ?_
      through [good_inheritTctx _ _]
    · exact good_pure _
theorem good_startChild (c : Ctx) (n : Bytes) : Good (startChild c n) := by
  unfold startChild
  refine good_withTrace _ _ fun q => good_bind (good_getT _) fun _ => good_bind (good_startService _ _) fun p => good_bind (good_getT _) fun _ =>
    good_bind (good_modT _ fun _ => rfl) fun _ => ?_
  extract_lets jp
  have hj : ∀ u, Good (jp u) := fun _ => by
    show Good (getT p >>= _)
    through [good_millisToNow _, good_addNew _ _ _]
  refine good_ite ?_ (hj ())
  through [hj _]
theorem good_addParams (p : Nat) (ps : List (Option Bytes)) : Good (addParams p ps) := by
  induction ps with
  | nil => exact good_pure _
  | cons x ps ih =>
    cases x with
    | none => exact ih
    | some s => unfold addParams; through [good_millisToNow _, good_addNew _ _ _]
theorem good_startMethod0 (p : Nat) (f m : Bytes) (ps : List (Option Bytes)) : Good (startMethod0 p f m ps) := by
  unfold startMethod0
  through [good_addParams _ _, good_millisToNow _, good_profilePush _ _]
theorem good_startApiCall0 (p : Nat) (n a : Bytes) : Good (startApiCall0 p n a) := by
  unfold startApiCall0
  through [good_millisToNow _, good_profilePush _ _]

theorem good_drop {m : Prog α} (h : Good m) : Good (do let _ ← m : Prog Unit) := good_bind h fun _ => good_pure' _

/-- Each call keeps to it. -/
theorem good_code (c : Call) : Good (code c) := by
  cases c with
  | isStream c =>
    refine good_drop (good_recovered _ (good_withTrace _ _ fun p => ?_))
    through []
  | setAsStream c =>
    refine good_drop (good_recovered _ (good_withTrace _ _ fun p => ?_))
    through []
  | markAsError c m =>
    refine good_recovered _ (good_withTrace _ _ fun p => good_bind (good_getT _) fun t => ?_)
    extract_lets jp
    have hj : ∀ u, Good (jp u) := fun _ => good_addPMessageStep _ _ _ _ _
    refine good_ite ?_ (hj ())
    through [hj _]
  | markAsErrorForcibly c m =>
    refine good_recovered _ (good_withTrace _ _ fun p => ?_)
    through []
  | setServiceName c n =>
    refine good_recovered _ (good_withTrace _ _ fun p => ?_)
    through []
  | addStep c p =>
    refine good_recovered _ (good_withTrace _ _ fun q => ?_)
    through [good_profileAdd _ _]
  | addMessageStep c m =>
    refine good_recovered _ (good_withTrace _ _ fun q => ?_)
    through [good_millisToNow _, good_addNew _ _ _]
  | addHashedMessageStep c m v e =>
    refine good_recovered _ (good_withTrace _ _ fun q => ?_)
    through [good_millisToNow _, good_addNew _ _ _]
  | addPMessageStep c l m e ps => exact good_addPMessageStep _ _ _ _ _
  | startHttpService c r => exact good_drop (good_startHttpService c r)
  | endHttpService c s =>
    refine good_recovered _ ?_
    cases s with
    | none => exact good_endAnyService c
    | some code =>
      refine good_withTrace _ _ fun p => ?_
      through [good_endAnyService _]
  | startService c n ip => exact good_drop (good_startServiceApi c n ip)
  | endService c => exact good_recovered _ (good_endAnyService c)
  | startInheritance q => exact good_drop (good_startInheritance q)
  | goWithTrace c n =>
    refine good_drop (good_recovered _ ?_)
    through [good_startChild _ _]
  | goBegin c =>
    refine good_withTrace _ _ fun p => ?_
    through []
  | startMethod c f ps =>
    refine good_drop (good_recovered _ (good_withTrace _ _ fun p => ?_))
    through [good_startMethod0 _ _ _ _]
  | startCustomMethod c n ps =>
    refine good_drop (good_recovered _ (good_withTrace _ _ fun p => ?_))
    through [good_startMethod0 _ _ _ _]
  | endMethod c p =>
    refine good_recovered _ ?_
    cases p with
    | none => exact good_pure _
    | some ptr =>
      refine good_withTrace _ _ fun p => ?_
      through [good_millisToNow _, good_profilePop _ _]
  | startApiCall c n a =>
    refine good_drop (good_recovered _ (good_withTrace _ _ fun p => ?_))
    through [good_startApiCall0 _ _ _]
  | startApiCallProp c n a r =>
    refine good_drop (good_recovered _ (good_withTrace _ _ fun p => good_bind (good_startApiCall0 _ _ _) fun ptr => good_bind (good_getT _) fun t => ?_))
    extract_lets jp
    have hj : ∀ u, Good (jp u) := fun _ => by
      show Good (getT p >>= _)
      through []
    refine good_ite ?_ (hj ())
    through [hj _]
  | endApiCall c p e =>
    refine good_recovered _ ?_
    cases p with
    | none => exact good_pure _
    | some ptr =>
      refine good_withTrace _ _ fun p => good_bind (good_getT _) fun _ => good_bind (good_getStep _) fun _ => good_bind (good_millisToNow _) fun _ =>
        good_bind (good_modStep _ _) fun _ => good_bind (good_modT _ fun _ => rfl) fun _ => ?_
      extract_lets jp
      have hj : ∀ u, Good (jp u) := fun _ => good_profilePop p ptr
      cases e with
      | none => exact hj ()
      | some m => through [hj _]
  | makeStep s => exact good_drop (good_newStep s)
  | setFields p l d t1 t2 t3 t4 t5 => exact good_modT p fun _ => rfl
  | activeCount o => exact good_pure _
  | conf c => exact good_pure _
  | samplerRun => exact good_pure _
  | resetTexts o => exact good_pure _
  | queue s => exact good_pure _

theorem good_codes (cs : List Call) : Good (codes cs) := by
  induction cs with
  | nil => exact good_pure' _
  | cons c cs ih => exact good_bind (good_orElse (good_code c) (good_pure' _)) fun _ => ih

end Stepwise
end Scouter
