import Verif.Props.Dataproxy
import Verif.Proofs.Safe
/-!
# What the tracing API keeps is bounded
-/
namespace Scouter
namespace Bounded
open TM Trace Spec

/-- A cache in order, with at most `n` entries. -/
structure Small {K V : Type} [DecidableEq K] (n : Nat) (c : Cache K V) : Prop where
  inv : c.Inv
  max : c.max = n
  size : c.size ≤ n

section
variable {K V : Type} [DecidableEq K] {n : Nat} {c : Cache K V}

omit [DecidableEq K] in
theorem size_abs (c : Cache K V) : c.size = c.abs.length := by simp [Cache.size, Cache.abs]

theorem Small.new (n : Nat) (cb : Bool) : Small n (Cache.new (n : Int) cb : Cache K V) := ⟨Cache.inv_new _ _, rfl, by simp [Cache.size, Cache.new]⟩

theorem Small.add (h : Small n c) (hn : 0 < n) (k : K) (v : Option V) : Small n (c.add k v) := by
  have hr := h.inv.rel.add k v
  have hs := h.size
  have hm := h.max
  rw [size_abs] at hs
  refine ⟨hr.inv, ?_, ?_⟩
  · rw [← hr.bound, ← hm]
    unfold OMap.add
    split
    · rfl
    · simp only []; split <;> rfl
  · rw [size_abs, ← hr.entries]
    unfold OMap.add
    split
    · simpa using hs
    · simp only []
      split
      · simp; exact hs
      · rename_i hc
        simp only [hm, List.length_append, List.length_singleton] at hc ⊢
        omega

theorem Small.remove (h : Small n c) (k : K) : Small n (c.remove k) := by
  have hr := h.inv.rel.remove k
  have hs := h.size
  rw [size_abs] at hs
  refine ⟨hr.inv, ?_, ?_⟩
  · rw [← hr.bound, ← h.max]; rfl
  · rw [size_abs, ← hr.entries]
    exact Nat.le_trans (List.length_filter_le _ _) hs

theorem Small.clear (h : Small n c) (o : MapOrder (K × Nat)) : Small n (c.clear o) :=
  ⟨(h.inv.rel.clear o).inv, h.max, by simp [Cache.clear, Cache.size]⟩
end

/-- The tables of the agent: the running services and the texts announced. -/
structure SmallTables (w : World) : Prop where
  registry : Small 10000 w.registry
  texts : ∀ k, Small (memory k) (w.proxy.sent k)

theorem memory_pos (k : TextKind) : 0 < memory k := (memory_eq k).2

theorem small_sendText {p : Proxy} (h : ∀ k, Small (memory k) (p.sent k)) (k : TextKind) (name : Bytes) :
    ∀ k', Small (memory k') ((p.sendText k name).1.sent k') := by
  intro k'
  unfold Proxy.sendText
  split
  · exact h k'
  · simp only
    split
    · exact h k'
    · simp only [Proxy.addPack]
      by_cases e : k' = k
      · subst e
        simp only [if_true]
        exact (h k').add (memory_pos k') _ _
      · simp only [e, if_false]
        exact h k'

/-- A profile buffer within its size, which is at most `K`. -/
def FitT (K : Nat) (t : Tctx) : Prop := t.col.kept.length ≤ t.col.cap ∧ t.col.cap ≤ K

/-- The tables are small, and the profile buffers have at most `K` slots. -/
structure Fit (K : Nat) (w : World) : Prop where
  tables : SmallTables w
  keep : w.conf.keep ≤ K
  each : ∀ t ∈ w.tctxs, FitT K t

/-- `m` keeps it so. -/
def Fits (K : Nat) {α : Type} (m : TM α) : Prop := ∀ w, Fit K w → Fit K (m w).2

section
variable {K : Nat} {α β : Type}

theorem Fit.of_eq {w w' : World} (h : Fit K w) (h1 : w'.registry = w.registry) (h2 : w'.proxy.sent = w.proxy.sent) (h3 : w'.conf = w.conf)
    (h4 : w'.tctxs = w.tctxs) : Fit K w' :=
  ⟨⟨by rw [h1]; exact h.tables.registry, fun k => by rw [h2]; exact h.tables.texts k⟩, by rw [h3]; exact h.keep, by rw [h4]; exact h.each⟩

theorem fit_bind {m : TM α} {f : α → TM β} (h : Fits K m) (hf : ∀ a, Fits K (f a)) : Fits K (m >>= f) := by
  intro w hw
  rw [TM.bind_def]
  have := h w hw
  split
  · rename_i a w' heq; rw [heq] at this; exact hf a w' this
  · rename_i w' heq; rw [heq] at this; exact this
theorem fit_pure (a : α) : Fits K (pure a : TM α) := fun _ h => h
theorem fit_panic : Fits K (TM.panic : TM α) := fun _ h => h
theorem fit_get : Fits K TM.get := fun _ h => h
theorem fit_ite {c : Prop} [Decidable c] {m n : TM α} (hm : Fits K m) (hn : Fits K n) : Fits K (if c then m else n) := by
  split
  · exact hm
  · exact hn
theorem fit_reading (f : Oracle → Nat → α) : Fits K (TM.reading f) := fun _ h => h.of_eq rfl rfl rfl rfl
theorem fit_getT (p : Nat) : Fits K (getT p) := by intro w h; unfold getT; split <;> exact h
theorem fit_getStep (p : Nat) : Fits K (getStep p) := by intro w h; unfold getStep; split <;> exact h
theorem fit_modT' (p : Nat) {f : Tctx → Tctx} (hf : ∀ t, FitT K t → FitT K (f t)) : Fits K (modT p f) := fun w h =>
  ⟨⟨h.tables.registry, h.tables.texts⟩, h.keep, fun t ht => by
    rcases mem_modify ht with ht | ⟨u, hu, rfl⟩
    · exact h.each t ht
    · exact hf u (h.each u hu)⟩
theorem fit_modT (p : Nat) {f : Tctx → Tctx} (hf : ∀ t, (f t).col = t.col) : Fits K (modT p f) :=
  fit_modT' p fun t h => by unfold FitT; rw [hf]; exact h
theorem fit_newStep (s : Step) : Fits K (newStep s) := fun _ h => h.of_eq rfl rfl rfl rfl
theorem fit_modStep (p : Nat) (f : Step → Step) : Fits K (modStep p f) := fun _ h => h.of_eq rfl rfl rfl rfl
theorem fit_sendText (k : TextKind) (n : Bytes) : Fits K (Trace.sendText k n) := fun _ h =>
  ⟨⟨h.tables.registry, small_sendText h.tables.texts k n⟩, h.keep, h.each⟩
theorem fit_sendDirect (p : Pack) : Fits K (sendDirect p) := fun _ h => h.of_eq rfl rfl rfl rfl
theorem fit_sendAlert (l : BitVec 8) (t m : Bytes) : Fits K (sendAlert l t m) :=
  fit_ite (fit_pure _) (fit_bind fit_get fun _ => fit_sendDirect _)
theorem fit_millisToNow (s : Int) : Fits K (millisToNow s) := fit_bind (fit_reading _) fun _ => fit_pure _
theorem fit_recovered (d : α) {m : TM α} (h : Fits K m) : Fits K (recovered d m) := by
  intro w hw
  unfold recovered
  have := h w hw
  split
  · rename_i a w' heq; rw [heq] at this; exact this
  · rename_i w' heq; rw [heq] at this
    exact (fit_bind (fit_reading _) fun t => fit_bind (fit_sendAlert _ _ _) fun _ => fit_pure _) w' this
theorem fit_withTrace (c : Ctx) (d : α) (f : Nat → TM α) (h : ∀ p, Fits K (f p)) : Fits K (withTrace c d f) := by
  unfold withTrace
  refine fit_bind fit_get fun w => ?_
  split
  · exact h _
  · exact fit_pure _
theorem fit_sendIfSet (k : TextKind) (n : Bytes) : Fits K (sendIfSet k n) := fit_ite (fit_pure _) (fit_sendText _ _)
theorem fit_meter (e : Int) (b : Bool) : Fits K (meter e b) := fun _ h => h.of_eq rfl rfl rfl rfl
theorem fit_register (p : Nat) : Fits K (register p) := fit_bind (fit_getT _) fun _ => fun _ h =>
  ⟨⟨h.tables.registry.add (by decide) _ _, h.tables.texts⟩, h.keep, h.each⟩
theorem fit_unregister (p : Nat) : Fits K (unregister p) := fit_bind (fit_getT _) fun _ => fun _ h =>
  ⟨⟨h.tables.registry.remove _, h.tables.texts⟩, h.keep, h.each⟩
theorem fit_modify {f : World → World} (h : ∀ w, Fit K w → Fit K (f w)) : Fits K (TM.modify f) := fun w hw => h w hw
theorem fit_getSampler : Fits K getSampler := by
  unfold getSampler
  refine fit_bind fit_get fun w => ?_
  split
  · exact fit_pure _
  · exact fit_bind (fit_modify fun _ h => h.of_eq rfl rfl rfl rfl) fun _ => fit_pure _
theorem fit_newTraceContext : Fits K newTraceContext := by
  unfold newTraceContext
  refine fit_bind (fit_reading _) fun id => fit_bind (fit_reading _) fun st => ?_
  intro w hw
  rw [TM.get_bind]
  cases hc : Collector.new w.conf.keep with
  | none => exact hw
  | some col =>
    refine ⟨⟨hw.tables.registry, hw.tables.texts⟩, hw.keep, fun t ht => ?_⟩
    rcases List.mem_append.1 ht with ht | ht
    · exact hw.each t ht
    · rw [List.mem_singleton] at ht
      subst ht
      unfold Collector.new at hc
      have hk := hw.keep
      split at hc
      · cases hc
      · cases hc
        exact ⟨Nat.zero_le _, by simp only; omega⟩

/-- Walks through straight-line code. -/
macro "fits" : tactic => `(tactic| repeat' (first
  | with_reducible exact fit_pure _ | with_reducible exact fit_panic | with_reducible exact fit_get | with_reducible exact fit_getT _
  | with_reducible exact fit_getStep _ | with_reducible exact fit_modT _ (fun _ => rfl) | with_reducible exact fit_newStep _
  | with_reducible exact fit_modStep _ _ | with_reducible exact fit_sendText _ _ | with_reducible exact fit_reading _
  | with_reducible exact fit_sendDirect _
  | with_reducible exact fit_sendAlert _ _ _ | with_reducible exact fit_millisToNow _ | with_reducible exact fit_sendIfSet _ _
  | with_reducible exact fit_meter _ _ | with_reducible exact fit_register _ | with_reducible exact fit_unregister _
  | with_reducible exact fit_getSampler | with_reducible exact fit_newTraceContext | assumption
  | (with_reducible refine fit_bind ?_ fun _ => ?_) | (with_reducible refine fit_recovered _ ?_)
  | (with_reducible refine fit_withTrace _ _ _ fun _ => ?_) | split | dsimp only))

theorem fit_sendProfile0 (p : Nat) (ps : List Nat) : Fits K (sendProfile0 p ps) := by
  unfold sendProfile0; fits
theorem fit_sendSlices (p : Nat) (ss : List (List Nat)) : Fits K (sendSlices p ss) := by
  induction ss with
  | nil => exact fit_pure _
  | cons s ss ih => exact fit_bind (fit_sendProfile0 _ _) fun _ => ih
theorem fit_sendProfile (p : Nat) (ps : List Nat) : Fits K (sendProfile p ps) := by
  unfold sendProfile; fits; exact fit_sendSlices _ _
theorem fit_process {keep : Int} (hk : keep ≤ K) {t : Tctx} (ht : FitT K t) (ptr : Nat) :
    (t.col.process keep ptr).1.kept.length ≤ (t.col.process keep ptr).1.cap ∧ (t.col.process keep ptr).1.cap ≤ K := by
  obtain ⟨h1, h2⟩ := ht
  unfold Collector.process
  split
  · exact ⟨h1, h2⟩
  · simp only [List.length_append, List.length_singleton]
    split
    · split
      · exact ⟨by simp only [List.length_append, List.length_singleton]; omega, h2⟩
      · exact ⟨Nat.zero_le _, by simp only; omega⟩
    · exact ⟨by simp only [List.length_append, List.length_singleton]; omega, h2⟩
theorem fit_profileProcess (p ptr : Nat) : Fits K (profileProcess p ptr) := by
  intro w hw
  unfold profileProcess
  cases ht : w.tctxs[p]? with
  | none =>
    have : getT p w = (.panic, w) := by unfold getT; rw [ht]
    rw [TM.bind_def, this]
    exact hw
  | some t =>
    rw [TM.bind_ok (getT_run ht), TM.get_bind]
    have key := fit_process hw.keep (hw.each t (List.mem_of_getElem? ht)) ptr
    generalize he : t.col.process w.conf.keep ptr = r at key
    obtain ⟨c, q⟩ := r
    have hm : Fits K (modT p fun t => { t with col := c, recorded := t.recorded ++ [ptr] }) := fit_modT' p fun _ _ => key
    cases q with
    | done => exact hm w hw
    | full o => exact fit_bind hm (fun _ => fit_sendProfile _ _) w hw
    | panicked => exact fit_bind hm (fun _ => fit_panic) w hw
theorem fit_profilePush (p ptr : Nat) : Fits K (profilePush p ptr) := by
  unfold profilePush; fits; exact fit_modT' _ fun _ h => h
theorem fit_profilePop (p ptr : Nat) : Fits K (profilePop p ptr) := by
  unfold profilePop; fits
  · exact fit_modT' _ fun _ h => h
  · exact fit_profileProcess _ _
theorem fit_profileAdd (p ptr : Nat) : Fits K (profileAdd p ptr) := by
  unfold profileAdd; fits
  · exact fit_modT' _ fun _ h => h
  · exact fit_profileProcess _ _
theorem fit_profileClose (p : Nat) (b : Bool) : Fits K (profileClose p b) := by unfold profileClose; fits; exact fit_sendProfile _ _
theorem fit_addNew (p : Nat) (st : BitVec 32) (b : StepBody) : Fits K (addNew p st b) := by unfold addNew; fits; exact fit_profileAdd _ _
theorem fit_findXLogDiscard (t : Tctx) (e : BitVec 32) : Fits K (findXLogDiscard t e) := by unfold findXLogDiscard; fits

theorem fit_toXlog (t : Tctx) (d : BitVec 8) (e : BitVec 32) : Fits K (toXlog t d e) := by unfold toXlog; fits
theorem fit_endRest (p : Nat) : Fits K (endRest p) := by
  unfold endRest; fits
  all_goals first | exact fit_findXLogDiscard _ _ | exact fit_toXlog _ _ _ | exact fit_profileClose _ _ | exact fit_bind fit_get fun _ => fit_sendDirect _
theorem fit_endTctx (p : Nat) : Fits K (endTctx p) := by unfold endTctx; fits; exact fit_endRest _
theorem fit_endAnyService (c : Ctx) : Fits K (endAnyService c) := by unfold endAnyService; fits; exact fit_endTctx _
theorem fit_endStuck (p : Nat) : Fits K (endStuck p) := by
  unfold endStuck; fits
  all_goals first | exact fit_endTctx _ | exact fit_addNew _ _ _

theorem fit_addPMessageStep (c : Ctx) (l : BitVec 8) (m : Bytes) (e : BitVec 32) (ps : List Bytes) : Fits K (addPMessageStep c l m e ps) := by
  unfold addPMessageStep; fits; exact fit_addNew _ _ _
theorem fit_startService (n a : Bytes) : Fits K (Trace.startService n a) := by
  unfold Trace.startService startRest; fits; exact fit_addNew _ _ _
theorem fit_addMessages (p : Nat) (s : BitVec 32) (ms : List Bytes) : Fits K (addMessages p s ms) := by
  induction ms with
  | nil => exact fit_pure _
  | cons m ms ih => exact fit_bind (fit_addNew _ _ _) fun _ => ih
theorem fit_addParams (p : Nat) (ps : List (Option Bytes)) : Fits K (addParams p ps) := by
  induction ps with
  | nil => exact fit_pure _
  | cons o ps ih =>
    cases o with
    | none => exact ih
    | some s => unfold addParams; fits; exact fit_addNew _ _ _
theorem fit_startMethod0 (p : Nat) (f n : Bytes) (ps : List (Option Bytes)) : Fits K (startMethod0 p f n ps) := by
  unfold startMethod0; fits
  all_goals first | exact fit_addParams _ _ | exact fit_profilePush _ _
theorem fit_startApiCall0 (p : Nat) (n a : Bytes) : Fits K (startApiCall0 p n a) := by
  unfold startApiCall0; fits
  all_goals first | exact fit_profilePush _ _
theorem fit_activeLoop (now : Int) (ps : List Nat) : ∀ (n : Nat) (a : Nat × Nat × Nat), Fits K (activeLoop now ps n a) := by
  induction ps with
  | nil => intro _ _; exact fit_pure _
  | cons p ps ih =>
    intro n a
    unfold activeLoop; fits
    all_goals first | exact fit_endStuck _ | exact ih _ _

set_option maxHeartbeats 1000000 in
/-- Every call keeps it so, except that the configuration may be changed. -/
theorem fit_code (c : Call) (hc : ∀ f, c = .conf f → f.keep ≤ K) : Fits K c.code := by
  cases c <;> unfold Call.code
  case conf f => exact fit_modify (fun _ h => ⟨⟨h.tables.registry, h.tables.texts⟩, hc f rfl, h.each⟩)
  case samplerRun => exact fit_modify (fun _ h => h.of_eq rfl rfl rfl rfl)
  case queue => exact fit_modify (fun _ h => h.of_eq rfl rfl rfl rfl)
  case resetTexts => exact fit_modify (fun _ h => ⟨⟨h.tables.registry, fun k => (h.tables.texts k).clear _⟩, h.keep, h.each⟩)
  case addPMessageStep => exact fit_addPMessageStep _ _ _ _ _
  all_goals
    try unfold Trace.isStream
    try unfold Trace.setAsStream
    try unfold Trace.markAsError
    try unfold Trace.markAsErrorForcibly
    try unfold Trace.setServiceNameForcibly
    try unfold Trace.addStep
    try unfold Trace.addMessageStep
    try unfold Trace.addHashedMessageStep
    try unfold Trace.startHttpService
    try unfold Trace.endHttpService
    try unfold Trace.startServiceApi
    try unfold Trace.endService
    try unfold Trace.startInheritance
    try unfold Trace.goWithTrace
    try unfold Trace.startChild
    try unfold Trace.goBegin
    try unfold Trace.startMethod
    try unfold Trace.startCustomMethod
    try unfold Trace.endMethod
    try unfold Trace.startApiCall
    try unfold Trace.startApiCallProp
    try unfold Trace.endApiCall
    try unfold Trace.getActiveCount
    try unfold startHttpRest profileHttpHeaders
    try unfold inheritTctx
    fits
    all_goals first
      | with_reducible exact fit_addPMessageStep _ _ _ _ _ | with_reducible exact fit_profileAdd _ _ | with_reducible exact fit_addNew _ _ _ | with_reducible exact fit_startService _ _
      | with_reducible exact fit_addMessages _ _ _ | with_reducible exact fit_endAnyService _ | with_reducible exact fit_startMethod0 _ _ _ _ | with_reducible exact fit_profilePop _ _
      | with_reducible exact fit_startApiCall0 _ _ _ | with_reducible exact fit_activeLoop _ _ _ _

theorem fit_history (cs : List Call) : ∀ (w : World), Fit K w → (∀ f, Call.conf f ∈ cs → f.keep ≤ K) → Fit K (history w cs) := by
  induction cs with
  | nil => intro w h _; exact h
  | cons c cs ih =>
    intro w h hc
    exact ih (perform w c) (fit_code c (fun f e => hc f (by rw [e]; exact List.mem_cons_self ..)) w h) fun f hf => hc f (List.mem_cons_of_mem _ hf)

end
end Bounded
end Scouter
