import Verif.Proofs.Same
import Verif.Props.Panics
/-!
# What a started service looks like
-/
namespace Scouter
open TM Trace

/-- Partial correctness: when `m` returns normally from a world satisfying `A`, its result and the world satisfy `B`. -/
def Pc {α : Type} (A : World → Prop) (m : TM α) (B : α → World → Prop) : Prop :=
  ∀ w, A w → ∀ a w', m w = (.ok a, w') → B a w'

/-- The context at `p` satisfies `P`. -/
def Holds (p : Nat) (P : Tctx → Prop) (w : World) : Prop := ∃ t, w.tctxs[p]? = some t ∧ P t

section
variable {α β γ : Type} {A : World → Prop}

theorem pc_bind {m : TM α} {f : α → TM β} {B : α → World → Prop} {C : β → World → Prop} (h : Pc A m B)
    (hf : ∀ a, Pc (B a) (f a) C) : Pc A (m >>= f) C := by
  intro w hw b w' e
  rw [TM.bind_def] at e
  split at e
  · rename_i a w1 h1; exact hf a w1 (h w hw a w1 h1) b w' e
  · simp at e

theorem pc_pure {a : α} {B : α → World → Prop} (h : ∀ w, A w → B a w) : Pc A (pure a) B := by
  intro w hw b w' e
  have h1 : Outcome.ok a = Outcome.ok b := congrArg Prod.fst e
  have h2 : w = w' := congrArg Prod.snd e
  cases h1; subst h2
  exact h w hw

/-- Code that keeps `A`. -/
theorem pc_keep {m : TM α} (h : ∀ w, A w → A (m w).2) : Pc A m (fun _ => A) := by
  intro w hw a w' e
  have := h w hw
  rw [e] at this
  exact this

theorem pc_mono {m : TM α} {A' : World → Prop} {B B' : α → World → Prop} (h : Pc A m B) (hA : ∀ w, A' w → A w)
    (hB : ∀ a w, B a w → B' a w) : Pc A' m B' := fun w hw a w' e => hB a w' (h w (hA w hw) a w' e)

theorem pc_getT {p : Nat} {B : Tctx → World → Prop} (h : ∀ w t, A w → w.tctxs[p]? = some t → B t w) : Pc A (getT p) B := by
  intro w hw t w' e
  unfold getT at e
  split at e
  · rename_i t' ht
    have h1 : t' = t := Outcome.ok.inj (congrArg Prod.fst e)
    have h2 : w = w' := congrArg Prod.snd e
    subst h1; subst h2
    exact h w t' hw ht
  · simp at e

theorem pc_get {B : World → World → Prop} (h : ∀ w, A w → B w w) : Pc A TM.get B := by
  intro w hw a w' e
  have h1 : w = a := Outcome.ok.inj (congrArg Prod.fst e)
  have h2 : w = w' := congrArg Prod.snd e
  subst h1; subst h2
  exact h w hw

theorem pc_sendText {k : TextKind} {n : Bytes} {B : BitVec 32 → World → Prop}
    (h : ∀ w w', A w → OnlyTexts w w' → B (textHash n) w') : Pc A (Trace.sendText k n) B := by
  intro w hw a w' e
  obtain ⟨w1, h1, o, -⟩ := sendText_run k n w
  rw [h1] at e
  have e1 : textHash n = a := Outcome.ok.inj (congrArg Prod.fst e)
  have e2 : w1 = w' := congrArg Prod.snd e
  subst e1; subst e2
  exact h w w1 hw o

theorem pc_reading {f : Oracle → Nat → α} {B : α → World → Prop} (h : ∀ w, A w → B (f w.env w.tick) { w with tick := w.tick + 1 }) :
    Pc A (TM.reading f) B := by
  intro w hw a w' e
  have h1 : f w.env w.tick = a := Outcome.ok.inj (congrArg Prod.fst e)
  have h2 : { w with tick := w.tick + 1 } = w' := congrArg Prod.snd e
  subst h1; subst h2
  exact h w hw

theorem pc_modT {p : Nat} {f : Tctx → Tctx} {B : Unit → World → Prop} (h : ∀ w, A w → B () { w with tctxs := w.tctxs.modify p f }) :
    Pc A (modT p f) B := by
  intro w hw a w' e
  have h2 : { w with tctxs := w.tctxs.modify p f } = w' := congrArg Prod.snd e
  subst h2
  exact h w hw

theorem Holds.modT {p : Nat} {P R : Tctx → Prop} {w : World} {f : Tctx → Tctx} (h : Holds p P w) (hf : ∀ t, P t → R (f t)) :
    Holds p R { w with tctxs := w.tctxs.modify p f } := by
  obtain ⟨t, ht, hp⟩ := h
  refine ⟨f t, ?_, hf t hp⟩
  show (w.tctxs.modify p f)[p]? = _
  rw [List.getElem?_modify, ht]; simp

theorem Holds.modT_other {p q : Nat} {P : Tctx → Prop} {w : World} {f : Tctx → Tctx} (h : Holds p P w) (hq : q ≠ p) :
    Holds p P { w with tctxs := w.tctxs.modify q f } := by
  obtain ⟨t, ht, hp⟩ := h
  refine ⟨t, ?_, hp⟩
  show (w.tctxs.modify q f)[p]? = _
  rw [List.getElem?_modify, ht]; simp [hq]

theorem Holds.same {p : Nat} {core : Tctx → γ} {P : γ → Prop} {w w' : World} (h : Holds p (fun t => P (core t)) w)
    (s : Same core p w w') : Holds p (fun t => P (core t)) w' := by
  obtain ⟨t, ht, hp⟩ := h
  obtain ⟨t', ht', e⟩ := s t ht
  exact ⟨t', ht', by simp only; rw [e]; exact hp⟩

theorem Holds.texts {p : Nat} {P : Tctx → Prop} {w w' : World} (h : Holds p P w) (o : OnlyTexts w w') : Holds p P w' := by
  obtain ⟨t, ht, hp⟩ := h
  exact ⟨t, by rw [o.tctxs]; exact ht, hp⟩

/-! ## Code that works on another context leaves this one as it is -/

variable {p q : Nat}

theorem other_sendProfile0 {core : Tctx → γ} (h : q ≠ p) (ps : List Nat) : Ev (Same core p) (sendProfile0 q ps) := by
  unfold sendProfile0
  refine Ev.ite (same_pure _) (same_bind (same_of_quiet (quiet_getT _)) fun _ => same_bind (same_of_quiet quiet_get) fun _ =>
    same_bind (same_of_quiet (quiet_reading _)) fun _ => same_bind (same_modT_other h) fun _ => same_elsewhere fun _ => rfl)

theorem other_sendSlices {core : Tctx → γ} (h : q ≠ p) (ss : List (List Nat)) : Ev (Same core p) (sendSlices q ss) := by
  induction ss with
  | nil => exact same_pure _
  | cons s ss ih => exact same_bind (other_sendProfile0 h s) fun _ => ih

theorem other_sendProfile {core : Tctx → γ} (h : q ≠ p) (ps : List Nat) : Ev (Same core p) (sendProfile q ps) := by
  unfold sendProfile
  refine same_bind (same_of_quiet quiet_get) fun w => ?_
  split
  · exact other_sendSlices h _
  · exact same_of_quiet quiet_panic

theorem other_profileProcess {core : Tctx → γ} (h : q ≠ p) (ptr : Nat) : Ev (Same core p) (profileProcess q ptr) := by
  unfold profileProcess
  refine same_bind (same_of_quiet (quiet_getT _)) fun t => same_bind (same_of_quiet quiet_get) fun w => ?_
  split
  · exact same_modT_other h
  · exact same_bind (same_modT_other h) fun _ => other_sendProfile h _
  · exact same_bind (same_modT_other h) fun _ => same_of_quiet quiet_panic

theorem other_profileAdd {core : Tctx → γ} (h : q ≠ p) (ptr : Nat) : Ev (Same core p) (profileAdd q ptr) :=
  same_bind (same_of_quiet (quiet_getT _)) fun _ => same_bind (same_of_quiet (quiet_getStep _)) fun _ =>
    same_bind (same_of_quiet (quiet_modStep _ _)) fun _ => same_bind (same_modT_other h) fun _ => other_profileProcess h _

theorem other_addNew {core : Tctx → γ} (h : q ≠ p) (s : BitVec 32) (b : StepBody) : Ev (Same core p) (addNew q s b) :=
  same_bind (same_of_quiet (quiet_newStep _)) fun _ => other_profileAdd h _

theorem other_startRest {core : Tctx → γ} (h : q ≠ p) (n a : Bytes) : Ev (Same core p) (startRest q n a) :=
  same_bind (same_modT_other h) fun _ => same_bind (same_of_quiet (quiet_reading _)) fun _ => same_bind (same_modT_other h) fun _ =>
    same_bind (other_addNew h _ _) fun _ => same_bind (same_modT_other h) fun _ => same_bind (same_of_quiet (quiet_sendText _ _)) fun _ =>
    same_modT_other h

/-- Starting a service leaves every existing context exactly as it is. -/
theorem other_startService {core : Tctx → γ} (n a : Bytes) : Ev (Same core p) (startService n a) := by
  unfold startService
  exact same_new_bind fun q hq => same_bind (same_register q) fun _ => same_bind (other_startRest hq _ _) fun _ => same_pure _

/-! ## A started service -/

/-- What a service has from its start until something changes it. -/
structure JustStarted (id : BitVec 64) (name ip : Bytes) (t : Tctx) : Prop where
  txid : t.txid = id
  gxid : t.gxid = id
  caller : t.caller = 0
  xType : t.xType = 0
  error : t.error = 0
  closed : t.closed = false
  serviceName : t.serviceName = name
  remoteIp : t.remoteIp = ip

/-- What `JustStarted` looks at. -/
def startCore (t : Tctx) := (t.txid, t.gxid, t.caller, t.xType, t.error, t.closed, t.serviceName, t.remoteIp)

theorem startCore_blind : Blind startCore := ⟨fun _ _ => rfl, fun _ _ _ => rfl, fun _ _ _ _ => rfl⟩

theorem pc_startService (w0 : World) (n a : Bytes) :
    Pc (fun w => w = w0) (startService n a) (fun p w => p = w0.tctxs.length ∧ w.tctxs.length = w0.tctxs.length + 1 ∧
      Holds p (JustStarted (w0.env.id w0.tick) n (normalizeIp a)) w) := by
  intro w hw p w' e
  subst hw
  obtain ⟨hp, hl⟩ := startService_result e
  refine ⟨hp, hl, ?_⟩
  subst hp
  revert e
  unfold startService
  have fresh : Pc (fun v => v = w) newTraceContext (fun q v => q = w.tctxs.length ∧
      Holds q (fun t => t.txid = w.env.id w.tick ∧ t.caller = 0 ∧ t.xType = 0 ∧ t.error = 0 ∧ t.closed = false) v) := by
    intro v hv q v' e
    subst hv
    rw [newTraceContext_run] at e
    cases hcol : Collector.new v.conf.keep with
    | none => rw [hcol] at e; simp at e
    | some col =>
      rw [hcol] at e
      have e1 : v.tctxs.length = q := Outcome.ok.inj (congrArg Prod.fst e)
      have e2 : ({ v with tick := v.tick + 1 + 1, tctxs := v.tctxs ++ [freshTctx v col] } : World) = v' := congrArg Prod.snd e
      subst e1; subst e2
      exact ⟨rfl, freshTctx v col, by simp, rfl, rfl, rfl, rfl, rfl⟩
  have rest : ∀ q, Pc (fun v => q = w.tctxs.length ∧ Holds q (fun t => t.txid = w.env.id w.tick ∧ t.caller = 0 ∧ t.xType = 0 ∧ t.error = 0 ∧ t.closed = false) v)
      (register q >>= fun _ => startRest q n a >>= fun _ => pure q)
      (fun q v => Holds q (JustStarted (w.env.id w.tick) n (normalizeIp a)) v) := by
    intro q
    let id := w.env.id w.tick
    refine pc_bind (B := fun _ v => Holds q (fun t => t.txid = id ∧ t.caller = 0 ∧ t.xType = 0 ∧ t.error = 0 ∧ t.closed = false) v) ?_ fun _ => ?_
    · intro v hv x v' e
      have : Holds q (fun t => t.txid = id ∧ t.caller = 0 ∧ t.xType = 0 ∧ t.error = 0 ∧ t.closed = false) (register q v).2 := by
        obtain ⟨t, ht, hp⟩ := hv.2
        unfold register
        rw [TM.bind_ok (getT_run ht)]
        exact ⟨t, ht, hp⟩
      rw [e] at this
      exact this
    · refine pc_bind (B := fun _ v => Holds q (JustStarted id n (normalizeIp a)) v) ?_ fun _ => pc_pure fun v h => h
      unfold startRest
      refine pc_bind (B := fun _ v => Holds q (fun t => t.txid = id ∧ t.gxid = id ∧ t.caller = 0 ∧ t.xType = 0 ∧ t.error = 0 ∧ t.closed = false) v)
        (pc_modT fun v h => h.modT fun t ht => ⟨ht.1, ht.1, ht.2⟩) fun _ => ?_
      refine pc_bind (B := fun _ v => Holds q (fun t => t.txid = id ∧ t.gxid = id ∧ t.caller = 0 ∧ t.xType = 0 ∧ t.error = 0 ∧ t.closed = false) v)
        (pc_reading fun v h => h) fun g => ?_
      refine pc_bind (B := fun _ v => Holds q (fun t => t.txid = id ∧ t.gxid = id ∧ t.caller = 0 ∧ t.xType = 0 ∧ t.error = 0 ∧ t.closed = false) v)
        (pc_modT fun v h => h.modT fun t ht => ht) fun _ => ?_
      refine pc_bind (B := fun _ v => Holds q (fun t => t.txid = id ∧ t.gxid = id ∧ t.caller = 0 ∧ t.xType = 0 ∧ t.error = 0 ∧ t.closed = false) v)
        (pc_keep fun v h => h.same (core := startCore)
          (P := fun x => x.1 = id ∧ x.2.1 = id ∧ x.2.2.1 = 0 ∧ x.2.2.2.1 = 0 ∧ x.2.2.2.2.1 = 0 ∧ x.2.2.2.2.2.1 = false)
          (same_addNew startCore_blind _ _ _ v)) fun _ => ?_
      refine pc_bind (B := fun _ v => Holds q (fun t => t.txid = id ∧ t.gxid = id ∧ t.caller = 0 ∧ t.xType = 0 ∧ t.error = 0 ∧ t.closed = false ∧ t.serviceName = n) v)
        (pc_modT fun v h => h.modT fun t ht => ⟨ht.1, ht.2.1, ht.2.2.1, ht.2.2.2.1, ht.2.2.2.2.1, ht.2.2.2.2.2, rfl⟩) fun _ => ?_
      refine pc_bind (B := fun _ v => Holds q (fun t => t.txid = id ∧ t.gxid = id ∧ t.caller = 0 ∧ t.xType = 0 ∧ t.error = 0 ∧ t.closed = false ∧ t.serviceName = n) v)
        (pc_sendText fun v v' h o => h.texts o) fun h => ?_
      exact pc_modT fun v h => h.modT fun t ht => ⟨ht.1, ht.2.1, ht.2.2.1, ht.2.2.2.1, ht.2.2.2.2.1, ht.2.2.2.2.2.1, ht.2.2.2.2.2.2, rfl⟩
  intro e
  exact pc_bind fresh rest w rfl _ _ e

end
end Scouter
