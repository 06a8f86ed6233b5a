import Verif.Proofs.Same
/-!
# Code that raises no alert and leaves other services alone
-/
namespace Scouter
open TM Trace

/-- The alerts sent stay the same. -/
def Hush (w w' : World) : Prop := alertsOf w'.proxy.direct = alertsOf w.proxy.direct

theorem Hush.isPre : IsPre Hush where
  refl _ := rfl
  trans h h' := Eq.trans h' h

section
variable {α β : Type}
local notation "HE" => Ev Hush

theorem hush_bind {m : TM α} {f : α → TM β} (h : HE m) (hf : ∀ a, HE (f a)) : HE (m >>= f) := Ev.bind Hush.isPre h hf
theorem hush_pure (a : α) : HE (pure a : TM α) := Ev.pure Hush.isPre a
theorem hush_panic : HE (TM.panic : TM α) := Ev.panic Hush.isPre
theorem hush_get : HE TM.get := Ev.get Hush.isPre
theorem hush_reading (f : Oracle → Nat → α) : HE (TM.reading f) := fun _ => rfl
theorem hush_modify {f : World → World} (h : ∀ w, (f w).proxy = w.proxy) : HE (TM.modify f) := fun w => by
  show alertsOf (f w).proxy.direct = _; rw [h]
theorem hush_getT (p : Nat) : HE (getT p) := by intro w; unfold getT; split <;> rfl
theorem hush_getStep (p : Nat) : HE (getStep p) := by intro w; unfold getStep; split <;> rfl
theorem hush_modT (p : Nat) (f : Tctx → Tctx) : HE (modT p f) := fun _ => rfl
theorem hush_newStep (s : Step) : HE (newStep s) := fun _ => rfl
theorem hush_modStep (p : Nat) (f : Step → Step) : HE (modStep p f) := fun _ => rfl
theorem hush_sendText (k : TextKind) (n : Bytes) : HE (sendText k n) := fun w => by
  simp [Hush, Trace.sendText, sendText_direct]
theorem hush_sendDirect (p : Pack) (h : alertsOf [p] = []) : HE (sendDirect p) := fun w => by
  simp [Hush, sendDirect, h]
theorem hush_ite {c : Prop} [Decidable c] {m n : TM α} (hm : HE m) (hn : HE n) : HE (if c then m else n) := Ev.ite hm hn
theorem hush_millisToNow (s : Int) : HE (millisToNow s) := hush_bind (hush_reading _) fun _ => hush_pure _

theorem hush_sendProfile0 (p : Nat) (ps : List Nat) : HE (sendProfile0 p ps) := by
  unfold sendProfile0
  exact hush_ite (hush_pure _) (hush_bind (hush_getT _) fun t => hush_bind hush_get fun w =>
    hush_bind (hush_reading _) fun now => hush_bind (hush_modT _ _) fun _ => hush_sendDirect _ rfl)

theorem hush_sendSlices (p : Nat) (ss : List (List Nat)) : HE (sendSlices p ss) := by
  induction ss with
  | nil => exact hush_pure _
  | cons s ss ih => exact hush_bind (hush_sendProfile0 _ _) fun _ => ih

theorem hush_sendProfile (p : Nat) (ps : List Nat) : HE (sendProfile p ps) := by
  unfold sendProfile
  refine hush_bind hush_get fun w => ?_
  split
  · exact hush_sendSlices _ _
  · exact hush_panic

theorem hush_profileProcess (p ptr : Nat) : HE (profileProcess p ptr) := by
  unfold profileProcess
  refine hush_bind (hush_getT _) fun t => hush_bind hush_get fun w => ?_
  split
  · exact hush_modT _ _
  · exact hush_bind (hush_modT _ _) fun _ => hush_sendProfile _ _
  · exact hush_bind (hush_modT _ _) fun _ => hush_panic

theorem hush_profileAdd (p ptr : Nat) : HE (profileAdd p ptr) :=
  hush_bind (hush_getT _) fun _ => hush_bind (hush_getStep _) fun _ => hush_bind (hush_modStep _ _) fun _ =>
    hush_bind (hush_modT _ _) fun _ => hush_profileProcess _ _

theorem hush_profileClose (p : Nat) (ok : Bool) : HE (profileClose p ok) := by
  unfold profileClose
  refine hush_bind (hush_getT _) fun t => ?_
  split
  · exact hush_sendProfile _ _
  · exact hush_pure _

theorem hush_addNew (p : Nat) (st : BitVec 32) (b : StepBody) : HE (addNew p st b) :=
  hush_bind (hush_newStep _) fun _ => hush_profileAdd _ _

theorem hush_getSampler : HE getSampler := by
  unfold getSampler
  refine hush_bind hush_get fun w => ?_
  split
  · exact hush_pure _
  · exact hush_bind (fun _ => rfl) fun _ => hush_pure _

theorem hush_findXLogDiscard (t : Tctx) (e : BitVec 32) : HE (findXLogDiscard t e) :=
  hush_bind hush_getSampler fun _ => hush_bind hush_get fun _ => hush_bind (hush_reading _) fun _ => hush_pure _

theorem hush_sendIfSet (k : TextKind) (n : Bytes) : HE (sendIfSet k n) := hush_ite (hush_pure _) (hush_sendText _ _)

theorem hush_toXlog (t : Tctx) (d : BitVec 8) (e : BitVec 32) : HE (toXlog t d e) :=
  hush_bind (hush_sendText _ _) fun _ => hush_bind (hush_sendIfSet _ _) fun _ =>
    hush_bind (hush_sendIfSet _ _) fun _ => hush_pure _

theorem hush_unregister (p : Nat) : HE (unregister p) := hush_bind (hush_getT _) fun _ => hush_modify fun _ => rfl

theorem hush_endRest (p : Nat) : HE (endRest p) := by
  unfold endRest sendXlog
  refine hush_bind (hush_modT _ _) fun _ => hush_bind (hush_getT _) fun _ => hush_bind (hush_sendText _ _) fun _ =>
    hush_bind (hush_modT _ _) fun _ => hush_bind (hush_unregister _) fun _ => hush_bind (hush_getT _) fun _ =>
    hush_bind (hush_millisToNow _) fun _ => hush_bind (hush_findXLogDiscard _ _) fun _ => hush_bind (hush_toXlog _ _ _) fun _ =>
    hush_bind (hush_profileClose _ _) fun _ => hush_bind (hush_modify fun _ => rfl) fun _ => ?_
  exact hush_ite (hush_bind hush_get fun _ => hush_sendDirect _ rfl) (hush_pure _)

theorem hush_endTctx (p : Nat) : HE (endTctx p) := hush_bind (hush_getT _) fun _ => hush_ite (hush_pure _) (hush_endRest p)

end

/-- What `core` shows stays the same under `endRest`, if it shows nothing of what ending sets. -/
theorem same_endRest' {γ : Type} {core : Tctx → γ} {p : Nat} (B : Blind core) (q : Nat)
    (h1 : ∀ t x, core { t with closed := x } = core t) (h2 : ∀ t x, core { t with serviceHash := x } = core t) :
    Ev (Same core p) (endRest q) := by
  unfold endRest sendXlog
  refine same_bind (same_modT fun t => h1 t _) fun _ => same_bind (same_of_quiet (quiet_getT _)) fun _ =>
    same_bind (same_of_quiet (quiet_sendText _ _)) fun _ => same_bind (same_modT fun t => h2 t _) fun _ =>
    same_bind (same_unregister _) fun _ => same_bind (same_of_quiet (quiet_getT _)) fun _ =>
    same_bind (same_of_quiet (quiet_millisToNow _)) fun _ => same_bind (same_of_quiet (quiet_findXLogDiscard _ _)) fun _ =>
    same_bind (same_of_quiet (quiet_toXlog _ _ _)) fun _ => same_bind (same_of_quiet (quiet_profileClose B _ _)) fun _ =>
    same_bind (same_elsewhere fun _ => rfl) fun _ => ?_
  exact Ev.ite (same_bind (same_of_quiet quiet_get) fun _ => same_elsewhere fun _ => rfl) (same_pure _)

/-- A context other than the one ended keeps what `core` shows, if it shows nothing of the profile's bookkeeping. -/
theorem same_endRest_other {γ : Type} {core : Tctx → γ} {p q : Nat} (B : Blind core) (hq : q ≠ p) :
    Ev (Same core p) (endRest q) := by
  unfold endRest sendXlog
  refine same_bind (same_modT_other hq) fun _ => same_bind (same_of_quiet (quiet_getT _)) fun _ =>
    same_bind (same_of_quiet (quiet_sendText _ _)) fun _ => same_bind (same_modT_other hq) fun _ =>
    same_bind (same_unregister _) fun _ => same_bind (same_of_quiet (quiet_getT _)) fun _ =>
    same_bind (same_of_quiet (quiet_millisToNow _)) fun _ => same_bind (same_of_quiet (quiet_findXLogDiscard _ _)) fun _ =>
    same_bind (same_of_quiet (quiet_toXlog _ _ _)) fun _ => same_bind (same_of_quiet (quiet_profileClose B _ _)) fun _ =>
    same_bind (same_elsewhere fun _ => rfl) fun _ => ?_
  exact Ev.ite (same_bind (same_of_quiet quiet_get) fun _ => same_elsewhere fun _ => rfl) (same_pure _)

end Scouter
