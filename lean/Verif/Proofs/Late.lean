import Verif.Proofs.Safe
/-!
# What happens to the context of a service that has ended
-/
namespace Scouter
namespace Late
open TM Trace Spec

/-- The context `t` of an ended service has become `t'`: `late` steps were recorded and the `sent` ones put in profile
packs.  Nothing is sent while the buffer has room; the first to be sent is what the buffer held. -/
structure After (t t' : Tctx) (late sent : List Nat) : Prop where
  closed : t'.closed = true
  txid : t'.txid = t.txid
  recorded : t'.recorded = t.recorded ++ late
  sentSteps : t'.sentSteps = t.sentSteps ++ sent
  same : sent ++ t'.col.kept = t.col.kept ++ late
  when : (sent = [] ∧ t'.col.cap = t.col.cap) ∨ (t.col.cap ≤ t.col.kept.length + late.length ∧ t.col.kept <+: sent)

theorem After.rfl {t : Tctx} (h : t.closed = true) : After t t [] [] :=
  ⟨h, Eq.refl _, by simp, by simp, by simp, .inl ⟨Eq.refl _, Eq.refl _⟩⟩

theorem After.trans {t u v : Tctx} {l1 s1 l2 s2 : List Nat} (h1 : After t u l1 s1) (h2 : After u v l2 s2) :
    After t v (l1 ++ l2) (s1 ++ s2) := by
  have e : (s1 ++ s2) ++ v.col.kept = t.col.kept ++ (l1 ++ l2) := by
    rw [List.append_assoc, h2.same, ← List.append_assoc, h1.same, List.append_assoc]
  refine ⟨h2.closed, h2.txid.trans h1.txid, by rw [h2.recorded, h1.recorded, List.append_assoc],
    by rw [h2.sentSteps, h1.sentSteps, List.append_assoc], e, ?_⟩
  rcases h1.when with ⟨rfl, hc⟩ | ⟨hl, hp⟩
  · have hk : u.col.kept = t.col.kept ++ l1 := by simpa using h1.same
    rcases h2.when with ⟨rfl, hc2⟩ | ⟨hl, hp⟩
    · exact .inl ⟨Eq.refl _, hc2.trans hc⟩
    · refine .inr ⟨?_, ?_⟩
      · rw [hk, hc] at hl
        simp only [List.length_append] at hl ⊢; omega
      · rw [hk] at hp
        exact (List.prefix_append _ _).trans hp
  · refine .inr ⟨?_, hp.trans (List.prefix_append _ _)⟩
    simp only [List.length_append]; omega

/-- Positive limits, and no full buffer. -/
structure Roomy (w : World) : Prop where
  keep : 1 ≤ w.conf.keep
  bulk : 1 ≤ w.conf.bulk
  room : ∀ t ∈ w.tctxs, t.col.kept.length < t.col.cap

/-- What becomes of the contexts of ended services. -/
def Lates (w w' : World) : Prop :=
  ∀ (p : Nat) (t : Tctx), w.tctxs[p]? = some t → t.closed = true → ∃ t' late sent, w'.tctxs[p]? = some t' ∧ After t t' late sent

/-- `m` keeps buffers roomy, and ended contexts become as described. -/
def Goes {α : Type} (m : TM α) : Prop := ∀ w, Roomy w → Roomy (m w).2 ∧ Lates w (m w).2

theorem Lates.refl (w : World) : Lates w w := fun _ t h hc => ⟨t, [], [], h, .rfl hc⟩
theorem Lates.of_eq {w w' : World} (h : w'.tctxs = w.tctxs) : Lates w w' := fun _ t ht hc => ⟨t, [], [], by rw [h]; exact ht, .rfl hc⟩
theorem Lates.trans {a b c : World} (h1 : Lates a b) (h2 : Lates b c) : Lates a c := by
  intro p t ht hc
  obtain ⟨u, l1, s1, hu, a1⟩ := h1 p t ht hc
  obtain ⟨v, l2, s2, hv, a2⟩ := h2 p u hu a1.closed
  exact ⟨v, _, _, hv, a1.trans a2⟩

/-- Nothing changed that matters here. -/
structure Unseen (t t' : Tctx) : Prop where
  closed : t'.closed = t.closed
  txid : t'.txid = t.txid
  recorded : t'.recorded = t.recorded
  sentSteps : t'.sentSteps = t.sentSteps
  kept : t'.col.kept = t.col.kept
  cap : t'.col.cap = t.col.cap

section
variable {α β : Type}

theorem lt_same {m : TM α} (h : ∀ w, (m w).2.conf = w.conf ∧ (m w).2.tctxs = w.tctxs) : Goes m := fun w g => by
  obtain ⟨h1, h2⟩ := h w
  exact ⟨⟨by rw [h1]; exact g.keep, by rw [h1]; exact g.bulk, by rw [h2]; exact g.room⟩, .of_eq h2⟩

theorem lt_bind {m : TM α} {f : α → TM β} (h : Goes m) (hf : ∀ a, Goes (f a)) : Goes (m >>= f) := by
  intro w hw
  rw [TM.bind_def]
  have := h w hw
  split
  · rename_i a w' heq; rw [heq] at this
    have h2 := hf a w' this.1
    exact ⟨h2.1, this.2.trans h2.2⟩
  · rename_i w' heq; rw [heq] at this; exact this
theorem lt_pure (a : α) : Goes (pure a : TM α) := fun w h => ⟨h, .refl w⟩
theorem lt_panic : Goes (TM.panic : TM α) := fun w h => ⟨h, .refl w⟩
theorem lt_get : Goes TM.get := fun w h => ⟨h, .refl w⟩
theorem lt_ite {c : Prop} [Decidable c] {m n : TM α} (hm : Goes m) (hn : Goes n) : Goes (if c then m else n) := by
  split
  · exact hm
  · exact hn
theorem lt_reading (f : Oracle → Nat → α) : Goes (TM.reading f) := lt_same fun _ => ⟨rfl, rfl⟩
theorem lt_getT (p : Nat) : Goes (getT p) := lt_same fun w => by unfold getT; split <;> exact ⟨rfl, rfl⟩
theorem lt_getStep (p : Nat) : Goes (getStep p) := lt_same fun w => by unfold getStep; split <;> exact ⟨rfl, rfl⟩
theorem lt_modT (p : Nat) {f : Tctx → Tctx} (hf : ∀ t, Unseen t (f t)) : Goes (modT p f) := fun w h => by
  refine ⟨⟨h.keep, h.bulk, fun t ht => ?_⟩, fun q t ht hc => ?_⟩
  · rcases mem_modify ht with ht | ⟨u, hu, rfl⟩
    · exact h.room t ht
    · obtain ⟨-, -, -, -, h5, h6⟩ := hf u
      rw [h5, h6]; exact h.room u hu
  · by_cases e : p = q
    · subst e
      obtain ⟨h1, h2, h3, h4, h5, h6⟩ := hf t
      refine ⟨f t, [], [], ?_, ⟨h1.trans hc, h2, by rw [h3, List.append_nil], by rw [h4, List.append_nil], by rw [h5]; simp, .inl ⟨rfl, h6⟩⟩⟩
      show (w.tctxs.modify p f)[p]? = _
      rw [List.getElem?_modify, ht]; simp
    · refine ⟨t, [], [], ?_, .rfl hc⟩
      show (w.tctxs.modify p f)[q]? = _
      rw [List.getElem?_modify, ht]; simp [e]
theorem lt_newStep (s : Step) : Goes (newStep s) := lt_same fun _ => ⟨rfl, rfl⟩
theorem lt_modStep (p : Nat) (f : Step → Step) : Goes (modStep p f) := lt_same fun _ => ⟨rfl, rfl⟩
theorem lt_sendText (k : TextKind) (n : Bytes) : Goes (Trace.sendText k n) := lt_same fun _ => ⟨rfl, rfl⟩
theorem lt_sendDirect (p : Pack) : Goes (sendDirect p) := lt_same fun _ => ⟨rfl, rfl⟩
theorem lt_sendAlert (l : BitVec 8) (t m : Bytes) : Goes (sendAlert l t m) :=
  lt_ite (lt_pure _) (lt_bind lt_get fun _ => lt_sendDirect _)
theorem lt_millisToNow (s : Int) : Goes (millisToNow s) := lt_bind (lt_reading _) fun _ => lt_pure _
theorem lt_recovered (d : α) {m : TM α} (h : Goes m) : Goes (recovered d m) := by
  intro w hw
  unfold recovered
  have := h w hw
  split
  · rename_i a w' heq; rw [heq] at this; exact this
  · rename_i w' heq; rw [heq] at this
    have h2 := (lt_bind (lt_reading (·.panicText)) fun t => lt_bind (lt_sendAlert 3 (ascii "Panic") t) fun _ => lt_pure d) w' this.1
    exact ⟨h2.1, this.2.trans h2.2⟩
theorem lt_withTrace (c : Ctx) (d : α) (f : Nat → TM α) (h : ∀ p, Goes (f p)) : Goes (withTrace c d f) := by
  unfold withTrace
  refine lt_bind lt_get fun w => ?_
  split
  · exact h _
  · exact lt_pure _
theorem lt_sendIfSet (k : TextKind) (n : Bytes) : Goes (sendIfSet k n) := lt_ite (lt_pure _) (lt_sendText _ _)
theorem lt_meter (e : Int) (b : Bool) : Goes (meter e b) := lt_same fun _ => ⟨rfl, rfl⟩
theorem lt_register (p : Nat) : Goes (register p) := lt_bind (lt_getT _) fun _ => lt_same fun _ => ⟨rfl, rfl⟩
theorem lt_unregister (p : Nat) : Goes (unregister p) := lt_bind (lt_getT _) fun _ => lt_same fun _ => ⟨rfl, rfl⟩
theorem lt_modify {f : World → World} (h : ∀ w, (f w).conf = w.conf ∧ (f w).tctxs = w.tctxs) : Goes (TM.modify f) := lt_same h
theorem lt_getSampler : Goes getSampler := by
  unfold getSampler
  refine lt_bind lt_get fun w => ?_
  split
  · exact lt_pure _
  · exact lt_bind (lt_modify fun _ => ⟨rfl, rfl⟩) fun _ => lt_pure _
theorem lt_newTraceContext : Goes newTraceContext := by
  unfold newTraceContext
  refine lt_bind (lt_reading _) fun id => lt_bind (lt_reading _) fun st => ?_
  intro w hw
  rw [TM.get_bind]
  cases hc : Collector.new w.conf.keep with
  | none => exact ⟨hw, .refl w⟩
  | some col =>
    refine ⟨⟨hw.keep, hw.bulk, fun t ht => ?_⟩, fun p t ht hcl => ⟨t, [], [], ?_, .rfl hcl⟩⟩
    · rcases List.mem_append.1 ht with ht | ht
      · exact hw.room t ht
      · rw [List.mem_singleton] at ht
        subst ht
        unfold Collector.new at hc
        have hk := hw.keep
        split at hc
        · cases hc
        · cases hc
          show 0 < w.conf.keep.toNat
          omega
    · exact (List.getElem?_append_left (by exact (List.getElem?_eq_some_iff.1 ht).1)).trans ht

/-- Walks through straight-line code. -/
macro "lates" : tactic => `(tactic| repeat' (first
  | with_reducible exact lt_pure _ | with_reducible exact lt_panic | with_reducible exact lt_get | with_reducible exact lt_getT _
  | with_reducible exact lt_getStep _ | with_reducible exact lt_modT _ (fun _ => ⟨rfl, rfl, rfl, rfl, rfl, rfl⟩) | with_reducible exact lt_newStep _
  | with_reducible exact lt_modStep _ _ | with_reducible exact lt_sendText _ _ | with_reducible exact lt_reading _
  | with_reducible exact lt_sendDirect _
  | with_reducible exact lt_sendAlert _ _ _ | with_reducible exact lt_millisToNow _ | with_reducible exact lt_sendIfSet _ _
  | with_reducible exact lt_meter _ _ | with_reducible exact lt_register _ | with_reducible exact lt_unregister _
  | with_reducible exact lt_getSampler | with_reducible exact lt_newTraceContext | assumption
  | (with_reducible refine lt_bind ?_ fun _ => ?_) | (with_reducible refine lt_recovered _ ?_)
  | (with_reducible refine lt_withTrace _ _ _ fun _ => ?_) | split | dsimp only))

theorem lt_profileProcess (p ptr : Nat) : Goes (profileProcess p ptr) := by
  intro w hw
  unfold profileProcess
  cases ht : w.tctxs[p]? with
  | none =>
    have : getT p w = (.panic, w) := by unfold getT; rw [ht]
    rw [TM.bind_def, this]
    exact ⟨hw, .refl w⟩
  | some t =>
    rw [TM.bind_ok (getT_run ht), TM.get_bind]
    have hroom := hw.room t (List.mem_of_getElem? ht)
    have hneg : ¬ w.conf.keep < 0 := by have := hw.keep; omega
    by_cases hfull : t.col.kept.length + 1 < t.col.cap
    · have e : t.col.process w.conf.keep ptr = ({ t.col with kept := t.col.kept ++ [ptr] }, .done) := by
        unfold Collector.process
        rw [if_neg (by omega)]; simp only
        rw [if_neg (by simp; omega)]
      rw [e]
      refine ⟨⟨hw.keep, hw.bulk, ?_⟩, ?_⟩
      · show ∀ x ∈ w.tctxs.modify p _, _
        intro x hx
        obtain ⟨i, hi⟩ := List.mem_iff_getElem?.mp hx
        rw [List.getElem?_modify] at hi
        by_cases hpi : p = i
        · subst hpi
          rw [ht] at hi
          simp only [if_true] at hi
          replace hi := Option.some.inj hi
          subst hi
          show (t.col.kept ++ [ptr]).length < t.col.cap; simp; omega
        · simp [hpi] at hi
          exact hw.room x (List.mem_of_getElem? hi)
      · intro q u hu hc
        by_cases hpq : p = q
        · subst hpq
          rw [ht] at hu
          cases hu
          refine ⟨{ t with col := { t.col with kept := t.col.kept ++ [ptr] }, recorded := t.recorded ++ [ptr] }, [ptr], [], ?_,
            ⟨hc, rfl, rfl, by simp, by simp, .inl ⟨rfl, rfl⟩⟩⟩
          show (w.tctxs.modify p _)[p]? = _
          rw [List.getElem?_modify, ht]; simp
        · refine ⟨u, [], [], ?_, .rfl hc⟩
          show (w.tctxs.modify p _)[q]? = _
          rw [List.getElem?_modify, hu]; simp [hpq]
    · have e : t.col.process w.conf.keep ptr =
          ({ t.col with cap := w.conf.keep.toNat, kept := [] }, .full (t.col.kept ++ [ptr])) := by
        unfold Collector.process
        rw [if_neg (by omega)]; simp only
        rw [if_pos (by simp; omega), if_neg hneg]
      rw [e]
      simp only
      generalize hw1 : ({ w with tctxs := w.tctxs.modify p (fun t' => { t' with
        col := { t.col with cap := w.conf.keep.toNat, kept := [] }, recorded := t'.recorded ++ [ptr] }) } : World) = w1
      have e1 : modT p (fun t' => { t' with
        col := { t.col with cap := w.conf.keep.toNat, kept := [] }, recorded := t'.recorded ++ [ptr] }) w = (.ok (), w1) := by
        rw [← hw1]; rfl
      rw [TM.bind_ok e1]
      have g1 : w1.tctxs[p]? = some { t with
        col := { t.col with cap := w.conf.keep.toNat, kept := [] }, recorded := t.recorded ++ [ptr] } := by
        rw [← hw1]; simp [ht]
      have hcf : w1.conf = w.conf := by rw [← hw1]
      obtain ⟨w2, ss, h2, s2, hfl, -⟩ := sendProfile_run g1 (by rw [hcf]; exact hw.bulk) (t.col.kept ++ [ptr])
      rw [h2]
      have other : ∀ q, p ≠ q → w2.tctxs[q]? = w.tctxs[q]? := by
        intro q hpq
        rw [s2.tctxs, List.getElem?_modify, ← hw1]
        simp [hpq]
      have here := s2.tctxs ▸ (List.getElem?_modify (f := afterSending ss.flatten.length (bytesOf w1 ss) ss.flatten) p w1.tctxs p)
      rw [g1] at here
      simp only [if_true] at here
      refine ⟨⟨by rw [s2.conf, hcf]; exact hw.keep, by rw [s2.conf, hcf]; exact hw.bulk, ?_⟩, ?_⟩
      · intro x hx
        obtain ⟨i, hi⟩ := List.mem_iff_getElem?.mp hx
        by_cases hpi : p = i
        · subst hpi
          rw [here] at hi
          replace hi := Option.some.inj hi
          subst hi
          show ([] : List Nat).length < w.conf.keep.toNat
          have := hw.keep
          simp; omega
        · rw [other i hpi] at hi
          exact hw.room x (List.mem_of_getElem? hi)
      · intro q u hu hc
        by_cases hpq : p = q
        · subst hpq
          rw [ht] at hu
          cases hu
          refine ⟨_, [ptr], t.col.kept ++ [ptr], here, ⟨hc, rfl, rfl, ?_, by simp [afterSending], .inr ⟨?_, List.prefix_append _ _⟩⟩⟩
          · show t.sentSteps ++ ss.flatten = _
            rw [hfl]
          · simp; omega
        · exact ⟨u, [], [], by rw [other q hpq]; exact hu, .rfl hc⟩
theorem lt_profilePush (p ptr : Nat) : Goes (profilePush p ptr) := by
  unfold profilePush; lates
theorem lt_profilePop (p ptr : Nat) : Goes (profilePop p ptr) := by
  unfold profilePop; lates; exact lt_profileProcess _ _
theorem lt_profileAdd (p ptr : Nat) : Goes (profileAdd p ptr) := by
  unfold profileAdd; lates; exact lt_profileProcess _ _
theorem lt_addNew (p : Nat) (st : BitVec 32) (b : StepBody) : Goes (addNew p st b) := by unfold addNew; lates; exact lt_profileAdd _ _
theorem lt_findXLogDiscard (t : Tctx) (e : BitVec 32) : Goes (findXLogDiscard t e) := by unfold findXLogDiscard; lates

theorem lt_toXlog (t : Tctx) (d : BitVec 8) (e : BitVec 32) : Goes (toXlog t d e) := by unfold toXlog; lates
theorem lt_endTctx (p : Nat) : Goes (endTctx p) := by
  intro w hw
  unfold endTctx
  cases ht : w.tctxs[p]? with
  | none =>
    have : getT p w = (.panic, w) := by unfold getT; rw [ht]
    rw [TM.bind_def, this]
    exact ⟨hw, .refl w⟩
  | some t =>
    rw [TM.bind_ok (getT_run ht)]
    by_cases hc : t.closed = true
    · rw [if_pos hc]; exact ⟨hw, .refl w⟩
    · rw [if_neg hc]
      obtain ⟨w', ss, packs, h1, -, h3, -, -, -, -, h8, -⟩ := endRest_full ht hw.bulk
      rw [h1]
      refine ⟨⟨by rw [h3]; exact hw.keep, by rw [h3]; exact hw.bulk, ?_⟩, ?_⟩
      · rw [h8]
        intro x hx
        rcases mem_modify hx with hx | ⟨u, hu, rfl⟩
        · exact hw.room x hx
        · exact hw.room u hu
      · intro q u hu huc
        refine ⟨u, [], [], ?_, .rfl huc⟩
        rw [h8, List.getElem?_modify, hu]
        by_cases hpq : p = q
        · subst hpq
          rw [ht] at hu
          cases hu
          exact absurd huc hc
        · simp [hpq]
theorem lt_endAnyService (c : Ctx) : Goes (endAnyService c) := by unfold endAnyService; lates; exact lt_endTctx _
theorem lt_endStuck (p : Nat) : Goes (endStuck p) := by
  unfold endStuck; lates
  all_goals first | exact lt_endTctx _ | exact lt_addNew _ _ _

theorem lt_addPMessageStep (c : Ctx) (l : BitVec 8) (m : Bytes) (e : BitVec 32) (ps : List Bytes) : Goes (addPMessageStep c l m e ps) := by
  unfold addPMessageStep; lates; exact lt_addNew _ _ _
theorem lt_startService (n a : Bytes) : Goes (Trace.startService n a) := by
  unfold Trace.startService startRest; lates; exact lt_addNew _ _ _
theorem lt_addMessages (p : Nat) (s : BitVec 32) (ms : List Bytes) : Goes (addMessages p s ms) := by
  induction ms with
  | nil => exact lt_pure _
  | cons m ms ih => exact lt_bind (lt_addNew _ _ _) fun _ => ih
theorem lt_addParams (p : Nat) (ps : List (Option Bytes)) : Goes (addParams p ps) := by
  induction ps with
  | nil => exact lt_pure _
  | cons o ps ih =>
    cases o with
    | none => exact ih
    | some s => unfold addParams; lates; exact lt_addNew _ _ _
theorem lt_startMethod0 (p : Nat) (f n : Bytes) (ps : List (Option Bytes)) : Goes (startMethod0 p f n ps) := by
  unfold startMethod0; lates
  all_goals first | exact lt_addParams _ _ | exact lt_profilePush _ _
theorem lt_startApiCall0 (p : Nat) (n a : Bytes) : Goes (startApiCall0 p n a) := by
  unfold startApiCall0; lates
  all_goals first | exact lt_profilePush _ _
theorem lt_activeLoop (now : Int) (ps : List Nat) : ∀ (n : Nat) (a : Nat × Nat × Nat), Goes (activeLoop now ps n a) := by
  induction ps with
  | nil => intro _ _; exact lt_pure _
  | cons p ps ih =>
    intro n a
    unfold activeLoop; lates
    all_goals first | exact lt_endStuck _ | exact ih _ _

set_option maxHeartbeats 1000000 in
/-- Every call keeps it so, except that the configuration may be changed. -/
theorem lt_code (c : Call) (hc : ∀ f, c = .conf f → 1 ≤ f.keep ∧ 1 ≤ f.bulk) : Goes c.code := by
  cases c <;> unfold Call.code
  case conf f => exact fun w h => ⟨⟨(hc f rfl).1, (hc f rfl).2, h.room⟩, .of_eq rfl⟩
  case samplerRun => exact lt_modify fun _ => ⟨rfl, rfl⟩
  case queue => exact lt_modify fun _ => ⟨rfl, rfl⟩
  case resetTexts => exact lt_modify fun _ => ⟨rfl, rfl⟩
  case addPMessageStep => exact lt_addPMessageStep _ _ _ _ _
  all_goals
    try unfold Trace.isStream
    try unfold Trace.setAsStream
    try unfold Trace.markAsError
    try unfold Trace.markAsErrorForcibly
    try unfold Trace.setServiceNameForcibly
    try unfold Trace.addStep
    try unfold Trace.addMessageStep
    try unfold Trace.addHashedMessageStep
    try unfold Trace.startHttpService
    try unfold Trace.endHttpService
    try unfold Trace.startServiceApi
    try unfold Trace.endService
    try unfold Trace.startInheritance
    try unfold Trace.goWithTrace
    try unfold Trace.startChild
    try unfold Trace.goBegin
    try unfold Trace.startMethod
    try unfold Trace.startCustomMethod
    try unfold Trace.endMethod
    try unfold Trace.startApiCall
    try unfold Trace.startApiCallProp
    try unfold Trace.endApiCall
    try unfold Trace.getActiveCount
    try unfold startHttpRest profileHttpHeaders
    try unfold inheritTctx
    lates
    all_goals first
      | with_reducible exact lt_addPMessageStep _ _ _ _ _ | with_reducible exact lt_profileAdd _ _ | with_reducible exact lt_addNew _ _ _ | with_reducible exact lt_startService _ _
      | with_reducible exact lt_addMessages _ _ _ | with_reducible exact lt_endAnyService _ | with_reducible exact lt_startMethod0 _ _ _ _ | with_reducible exact lt_profilePop _ _
      | with_reducible exact lt_startApiCall0 _ _ _ | with_reducible exact lt_activeLoop _ _ _ _


theorem lates_history (cs : List Call) : ∀ (w : World), Roomy w → (∀ f, Call.conf f ∈ cs → 1 ≤ f.keep ∧ 1 ≤ f.bulk) →
    Lates w (history w cs) := by
  induction cs with
  | nil => intro w h _; exact .refl w
  | cons c cs ih =>
    intro w h hc
    have h1 := lt_code c (fun f e => hc f (by rw [e]; exact List.mem_cons_self ..)) w h
    exact h1.2.trans (ih (perform w c) h1.1 fun f hf => hc f (List.mem_cons_of_mem _ hf))

end
end Late
end Scouter
