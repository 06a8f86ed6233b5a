import Verif.Spec.Services
import Verif.Props.Profile
import Verif.Props.Dataproxy
/-!
# Reasoning about code acting on the world
-/
namespace Scouter
open TM Trace

/-! ## Running code -/

namespace TM
variable {α β : Type}

theorem bind_def (m : TM α) (f : α → TM β) (w : World) :
    (m >>= f) w = match m w with
      | (.ok a, w) => f a w
      | (.panic, w) => (.panic, w) := rfl

@[simp] theorem pure_run (a : α) (w : World) : (pure a : TM α) w = (.ok a, w) := rfl
@[simp] theorem panic_run (w : World) : (TM.panic : TM α) w = (.panic, w) := rfl
@[simp] theorem get_run (w : World) : TM.get w = (.ok w, w) := rfl
@[simp] theorem modify_run (f : World → World) (w : World) : TM.modify f w = (.ok (), f w) := rfl
@[simp] theorem reading_run (f : Oracle → Nat → α) (w : World) :
    TM.reading f w = (.ok (f w.env w.tick), { w with tick := w.tick + 1 }) := rfl

theorem bind_ok {m : TM α} {f : α → TM β} {w w' : World} {a : α} (h : m w = (.ok a, w')) : (m >>= f) w = f a w' := by
  rw [bind_def, h]

@[simp] theorem get_bind (f : World → TM β) (w : World) : (TM.get >>= f) w = f w w := rfl
@[simp] theorem modify_bind (g : World → World) (f : Unit → TM β) (w : World) : (TM.modify g >>= f) w = f () (g w) := rfl
@[simp] theorem reading_bind (g : Oracle → Nat → α) (f : α → TM β) (w : World) :
    (TM.reading g >>= f) w = f (g w.env w.tick) { w with tick := w.tick + 1 } := rfl

end TM

theorem withTrace_run {α : Type} {w : World} {c : Ctx} {p : Nat} (h : traceOf w c = some p) (d : α) (f : Nat → TM α) :
    withTrace c d f w = f p w := by
  unfold withTrace
  rw [TM.get_bind, h]

theorem withTrace_none {α : Type} {w : World} {c : Ctx} (h : traceOf w c = none) (d : α) (f : Nat → TM α) :
    withTrace c d f w = (.ok d, w) := by
  unfold withTrace
  rw [TM.get_bind, h]
  rfl

/-! ## Changes every piece of code makes -/

/-- `m` relates the world before to the world after by `R`, whether or not it panics. -/
def Ev {α : Type} (R : World → World → Prop) (m : TM α) : Prop := ∀ w, R w (m w).2

/-- Reflexive and transitive. -/
structure IsPre (R : World → World → Prop) : Prop where
  refl : ∀ w, R w w
  trans : ∀ {a b c}, R a b → R b c → R a c

namespace Ev
variable {R : World → World → Prop} {α β : Type}

theorem bind (hR : IsPre R) {m : TM α} {f : α → TM β} (h : Ev R m) (hf : ∀ a, Ev R (f a)) : Ev R (m >>= f) := by
  intro w
  rw [TM.bind_def]
  have := h w
  split
  · rename_i a w' heq; rw [heq] at this; exact hR.trans this (hf a w')
  · rename_i w' heq; rw [heq] at this; exact this

theorem pure (hR : IsPre R) (a : α) : Ev R (Pure.pure a : TM α) := fun w => hR.refl w
theorem panic (hR : IsPre R) : Ev R (TM.panic : TM α) := fun w => hR.refl w
theorem get (hR : IsPre R) : Ev R TM.get := fun w => hR.refl w

theorem ite {c : Prop} [Decidable c] {m n : TM α} (hm : Ev R m) (hn : Ev R n) : Ev R (if c then m else n) := by
  split <;> assumption

end Ev

@[simp] theorem xlogsOf_append (a b : List Pack) : xlogsOf (a ++ b) = xlogsOf a ++ xlogsOf b := by simp [xlogsOf]

/-- Code that starts no context and ends none: the registry, the counters and the transaction logs sent stay the same;
contexts keep what `core` shows of them; nothing sent is taken back. -/
structure Quiet {γ : Type} (core : Tctx → γ) (w w' : World) : Prop where
  env : w'.env = w.env
  conf : w'.conf = w.conf
  tick : w.tick ≤ w'.tick
  len : w'.tctxs.length = w.tctxs.length
  cores : ∀ p : Nat, (w'.tctxs[p]?).map core = (w.tctxs[p]?).map core
  steps : w.steps.length ≤ w'.steps.length
  metered : w'.metered = w.metered
  registry : w'.registry = w.registry
  xlogs : xlogsOf w'.proxy.direct = xlogsOf w.proxy.direct
  direct : w.proxy.direct <+: w'.proxy.direct

theorem Quiet.isPre {γ : Type} (core : Tctx → γ) : IsPre (Quiet core) where
  refl w := ⟨rfl, rfl, Nat.le_refl _, rfl, fun _ => rfl, Nat.le_refl _, rfl, rfl, rfl, List.prefix_refl _⟩
  trans h h' := ⟨h'.env.trans h.env, h'.conf.trans h.conf, Nat.le_trans h.tick h'.tick, h'.len.trans h.len,
    fun p => (h'.cores p).trans (h.cores p), Nat.le_trans h.steps h'.steps, h'.metered.trans h.metered,
    h'.registry.trans h.registry, h'.xlogs.trans h.xlogs, h.direct.trans h'.direct⟩

/-- `core` shows nothing of the profile's bookkeeping. -/
structure Blind {γ : Type} (core : Tctx → γ) : Prop where
  col : ∀ t c, core { t with col := c } = core t
  process : ∀ t c r, core { t with col := c, recorded := r } = core t
  sent : ∀ t a b c, core { t with profileCount := a, profileSize := b, sentSteps := c } = core t

section
variable {γ : Type} {core : Tctx → γ}
local notation "QE" => Ev (Quiet core)

theorem map_getElem?_modify {A B : Type} (l : List A) (i : Nat) (f : A → A) (g : A → B) (h : ∀ a, g (f a) = g a) (j : Nat) :
    ((l.modify i f)[j]?).map g = (l[j]?).map g := by
  rw [List.getElem?_modify]
  split
  · cases l[j]? <;> simp [h]
  · simp

theorem Quiet.modify {w : World} {f : World → World} (h : Quiet core w (f w)) : Quiet core w (TM.modify f w).2 := h

theorem quiet_reading {α : Type} (f : Oracle → Nat → α) : QE (TM.reading f) := fun w =>
  ⟨rfl, rfl, Nat.le_succ _, rfl, fun _ => rfl, Nat.le_refl _, rfl, rfl, rfl, List.prefix_refl _⟩

theorem quiet_getT (p : Nat) : QE (getT p) := by
  intro w; unfold getT; split <;> exact (Quiet.isPre core).refl w

theorem quiet_getStep (p : Nat) : QE (getStep p) := by
  intro w; unfold getStep; split <;> exact (Quiet.isPre core).refl w

theorem quiet_modT (p : Nat) (f : Tctx → Tctx) (h : ∀ t, core (f t) = core t) : QE (modT p f) := fun w =>
  ⟨rfl, rfl, Nat.le_refl _, by simp [modT], fun q => map_getElem?_modify _ _ _ _ h q, Nat.le_refl _, rfl, rfl, rfl,
    List.prefix_refl _⟩

theorem quiet_newStep (s : Step) : QE (newStep s) := fun w =>
  ⟨rfl, rfl, Nat.le_refl _, rfl, fun _ => rfl, by simp [newStep], rfl, rfl, rfl, List.prefix_refl _⟩

theorem quiet_modStep (p : Nat) (f : Step → Step) : QE (modStep p f) := fun w =>
  ⟨rfl, rfl, Nat.le_refl _, rfl, fun _ => rfl, by simp [modStep], rfl, rfl, rfl, List.prefix_refl _⟩

theorem sendText_direct (p : Proxy) (k : TextKind) (name : Bytes) : (p.sendText k name).1.direct = p.direct := by
  unfold Proxy.sendText
  split
  · rfl
  · simp only; split <;> rfl

theorem quiet_sendText (k : TextKind) (name : Bytes) : QE (sendText k name) := fun w => by
  refine ⟨rfl, rfl, Nat.le_refl _, rfl, fun _ => rfl, Nat.le_refl _, rfl, rfl, ?_, ?_⟩
  · simp [Trace.sendText, sendText_direct]
  · simp [Trace.sendText, sendText_direct]

theorem quiet_sendDirect (p : Pack) (h : xlogsOf [p] = []) : QE (sendDirect p) := fun w =>
  ⟨rfl, rfl, Nat.le_refl _, rfl, fun _ => rfl, Nat.le_refl _, rfl, rfl, by simp [sendDirect, h],
    by simp [sendDirect]⟩

theorem quiet_bind {α β : Type} {m : TM α} {f : α → TM β} (h : QE m) (hf : ∀ a, QE (f a)) : QE (m >>= f) :=
  Ev.bind (Quiet.isPre core) h hf

theorem quiet_pure {α : Type} (a : α) : QE (pure a : TM α) := Ev.pure (Quiet.isPre core) a
theorem quiet_panic {α : Type} : QE (TM.panic : TM α) := Ev.panic (Quiet.isPre core)
theorem quiet_get : QE TM.get := Ev.get (Quiet.isPre core)

theorem quiet_ite {α : Type} {c : Prop} [Decidable c] {m n : TM α} (hm : QE m) (hn : QE n) :
    QE (if c then m else n) := Ev.ite hm hn

theorem quiet_sendAlert (l : BitVec 8) (t m : Bytes) : QE (sendAlert l t m) := by
  unfold sendAlert
  refine quiet_ite (quiet_pure _) (quiet_bind quiet_get fun w => quiet_sendDirect _ rfl)

theorem quiet_recovered {α : Type} (d : α) {m : TM α} (h : QE m) : QE (recovered d m) := by
  intro w
  unfold recovered
  have := h w
  split
  · rename_i a w' heq; rw [heq] at this; exact this
  · rename_i w' heq; rw [heq] at this
    refine (Quiet.isPre core).trans this ?_
    exact quiet_bind (core := core) (quiet_reading _) (fun t => quiet_bind (quiet_sendAlert _ _ _) fun _ => quiet_pure _) w'

theorem quiet_millisToNow (s : Int) : QE (millisToNow s) :=
  quiet_bind (quiet_reading _) fun _ => quiet_pure _

theorem quiet_sendProfile0 (hc : Blind core) (p : Nat) (ps : List Nat) : QE (sendProfile0 p ps) := by
  unfold sendProfile0
  refine quiet_ite (quiet_pure _) (quiet_bind (quiet_getT _) fun t => quiet_bind quiet_get fun w =>
    quiet_bind (quiet_reading _) fun now => quiet_bind (quiet_modT _ _ fun t => hc.sent _ _ _ _) fun _ =>
    quiet_sendDirect _ rfl)

theorem quiet_sendSlices (hc : Blind core) (p : Nat) (ss : List (List Nat)) : QE (sendSlices p ss) := by
  induction ss with
  | nil => exact quiet_pure _
  | cons s ss ih => exact quiet_bind (quiet_sendProfile0 hc _ _) fun _ => ih

theorem quiet_sendProfile (hc : Blind core) (p : Nat) (ps : List Nat) : QE (sendProfile p ps) := by
  unfold sendProfile
  refine quiet_bind quiet_get fun w => ?_
  split
  · exact quiet_sendSlices hc _ _
  · exact quiet_panic

theorem quiet_profileProcess (hc : Blind core) (p ptr : Nat) : QE (profileProcess p ptr) := by
  unfold profileProcess
  refine quiet_bind (quiet_getT _) fun t => quiet_bind quiet_get fun w => ?_
  split
  · exact quiet_modT _ _ fun t => hc.process _ _ _
  · exact quiet_bind (quiet_modT _ _ fun t => hc.process _ _ _) fun _ => quiet_sendProfile hc _ _
  · exact quiet_bind (quiet_modT _ _ fun t => hc.process _ _ _) fun _ => quiet_panic

theorem quiet_profilePush (hc : Blind core) (p ptr : Nat) : QE (profilePush p ptr) :=
  quiet_bind (quiet_getT _) fun _ => quiet_bind (quiet_getStep _) fun _ => quiet_bind (quiet_modStep _ _) fun _ =>
    quiet_modT _ _ fun _ => hc.col _ _

theorem quiet_profilePop (hc : Blind core) (p ptr : Nat) : QE (profilePop p ptr) :=
  quiet_bind (quiet_getStep _) fun _ => quiet_bind (quiet_modT _ _ fun _ => hc.col _ _) fun _ =>
    quiet_profileProcess hc _ _

theorem quiet_profileAdd (hc : Blind core) (p ptr : Nat) : QE (profileAdd p ptr) :=
  quiet_bind (quiet_getT _) fun _ => quiet_bind (quiet_getStep _) fun _ => quiet_bind (quiet_modStep _ _) fun _ =>
    quiet_bind (quiet_modT _ _ fun _ => hc.col _ _) fun _ => quiet_profileProcess hc _ _

theorem quiet_profileClose (hc : Blind core) (p : Nat) (ok : Bool) : QE (profileClose p ok) := by
  unfold profileClose
  refine quiet_bind (quiet_getT _) fun t => ?_
  split
  · exact quiet_sendProfile hc _ _
  · exact quiet_pure _

theorem quiet_addNew (hc : Blind core) (p : Nat) (st : BitVec 32) (b : StepBody) : QE (addNew p st b) :=
  quiet_bind (quiet_newStep _) fun _ => quiet_profileAdd hc _ _

theorem quiet_addMessages (hc : Blind core) (p : Nat) (st : BitVec 32) (ms : List Bytes) : QE (addMessages p st ms) := by
  induction ms with
  | nil => exact quiet_pure _
  | cons m ms ih => exact quiet_bind (quiet_addNew hc _ _ _) fun _ => ih

theorem quiet_withTrace {α : Type} (c : Ctx) (d : α) (f : Nat → TM α) (h : ∀ p, c = .traced p → QE (f p)) :
    QE (withTrace c d f) := by
  unfold withTrace
  refine quiet_bind quiet_get fun w => ?_
  unfold traceOf
  cases c with
  | nil => exact quiet_pure _
  | plain => exact quiet_pure _
  | traced p =>
    simp only
    by_cases hp : p < w.tctxs.length
    · simp only [if_pos hp]; exact h p rfl
    · simp only [if_neg hp]; exact quiet_pure _

theorem quiet_getSampler : QE getSampler := by
  unfold getSampler
  refine quiet_bind quiet_get fun w => ?_
  split
  · exact quiet_pure _
  · exact quiet_bind (fun w => ⟨rfl, rfl, Nat.le_refl _, rfl, fun _ => rfl, Nat.le_refl _, rfl, rfl, rfl,
      List.prefix_refl _⟩) fun _ => quiet_pure _

theorem quiet_findXLogDiscard (t : Tctx) (e : BitVec 32) : QE (findXLogDiscard t e) :=
  quiet_bind quiet_getSampler fun _ => quiet_bind quiet_get fun _ => quiet_bind (quiet_reading _) fun _ => quiet_pure _

theorem quiet_sendIfSet (k : TextKind) (n : Bytes) : QE (sendIfSet k n) :=
  quiet_ite (quiet_pure _) (quiet_sendText _ _)

theorem quiet_toXlog (t : Tctx) (d : BitVec 8) (e : BitVec 32) : QE (toXlog t d e) :=
  quiet_bind (quiet_sendText _ _) fun _ => quiet_bind (quiet_sendIfSet _ _) fun _ =>
    quiet_bind (quiet_sendIfSet _ _) fun _ => quiet_pure _

theorem quiet_addParams (hc : Blind core) (p : Nat) (ps : List (Option Bytes)) : QE (addParams p ps) := by
  induction ps with
  | nil => exact quiet_pure _
  | cons o ps ih =>
    cases o with
    | none => exact ih
    | some s =>
      exact quiet_bind (quiet_getT _) fun _ => quiet_bind (quiet_millisToNow _) fun _ =>
        quiet_bind (quiet_millisToNow _) fun _ => quiet_bind (quiet_addNew hc _ _ _) fun _ => ih

end
end Scouter
