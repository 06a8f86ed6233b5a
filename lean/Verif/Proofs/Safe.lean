import Verif.Proofs.Closing
import Verif.Proofs.Ledger
/-!
# With positive profile limits nothing panics, and profiles are accounted for
-/
namespace Scouter
open TM Trace

/-- Of one context, when `n` steps exist: the buffer has a free slot, the count is that of the steps sent, and while the
service runs the steps sent and the steps buffered are those recorded. -/
structure GoodT (n : Nat) (t : Tctx) : Prop where
  room : t.col.kept.length < t.col.cap
  count : t.profileCount = t.sentSteps.length
  all : t.closed = false → t.sentSteps ++ t.col.kept = t.recorded
  ptrs : ∀ i ∈ t.col.kept, i < n

theorem GoodT.mono {m n : Nat} {t : Tctx} (h : GoodT m t) (hm : m ≤ n) : GoodT n t :=
  ⟨h.room, h.count, h.all, fun i hi => Nat.lt_of_lt_of_le (h.ptrs i hi) hm⟩

/-- No panic has been reported. -/
def NoPanicReported (w : World) : Prop := ∀ a ∈ alertsOf w.proxy.direct, a.title ≠ ascii "Panic"

/-- Positive limits, good contexts, no panic. -/
structure Good (w : World) : Prop where
  keep : 1 ≤ w.conf.keep
  bulk : 1 ≤ w.conf.bulk
  each : ∀ t ∈ w.tctxs, GoodT w.steps.length t
  calm : NoPanicReported w
  regs : ∀ e ∈ w.registry.lst, ∀ p, e.value = some p → p < w.tctxs.length

/-- Run from a good world with at least `n` contexts and `k` steps, `m` ends in such a world, without a panic. -/
def Safe {α : Type} (n k : Nat) (m : TM α) : Prop := ∀ w, Good w → n ≤ w.tctxs.length → k ≤ w.steps.length →
  ∃ a w', m w = (.ok a, w') ∧ Good w' ∧ w.tctxs.length ≤ w'.tctxs.length ∧ w.steps.length ≤ w'.steps.length

theorem Cache.mem_of_remove {K V : Type} [DecidableEq K] {c : Cache K V} {k : K} {e : Elem K V} (h : e ∈ (c.remove k).lst) :
    e ∈ c.lst := by
  unfold Cache.remove at h
  have hre : ∀ x, e ∈ (c.removeElement x).lst → e ∈ c.lst := by
    intro x hx
    unfold Cache.removeElement at hx
    rw [(Cache.callback_same _ _ _).1] at hx
    exact (List.mem_filter.mp hx).1
  split at h
  · split at h
    · exact hre _ h
    · exact h
  · exact h

theorem Cache.mem_of_add {K V : Type} [DecidableEq K] {c : Cache K V} {k : K} {v : Option V} {e : Elem K V}
    (h : e ∈ (c.add k v).lst) : e.value = v ∨ ∃ e' ∈ c.lst, e'.value = e.value := by
  unfold Cache.add at h
  split at h
  · simp only [List.mem_map] at h
    obtain ⟨a, ha, he⟩ := h
    split at he
    · left; rw [← he]
    · right; exact ⟨a, ha, by rw [he]⟩
  · have new : ∀ x ∈ ({ id := c.next, key := k, value := v } : Elem K V) :: c.lst, x.value = v ∨ ∃ e' ∈ c.lst, e'.value = x.value := by
      intro x hx
      rcases List.mem_cons.mp hx with rfl | hx
      · exact .inl rfl
      · exact .inr ⟨x, hx, rfl⟩
    simp only at h
    split at h
    · apply new
      unfold Cache.removeOldest at h
      split at h
      · unfold Cache.removeElement at h
        rw [(Cache.callback_same _ _ _).1] at h
        exact (List.mem_filter.mp h).1
      · exact h
    · exact new e h

section
variable {α β : Type} {n k : Nat}

theorem safe_bind {m : TM α} {f : α → TM β} (h : Safe n k m) (hf : ∀ a, Safe n k (f a)) : Safe n k (m >>= f) := by
  intro w g hn hk
  obtain ⟨a, w1, h1, g1, n1, k1⟩ := h w g hn hk
  obtain ⟨b, w2, h2, g2, n2, k2⟩ := hf a w1 g1 (by omega) (by omega)
  exact ⟨b, w2, by rw [TM.bind_ok h1]; exact h2, g2, by omega, by omega⟩

theorem safe_pure (a : α) : Safe n k (pure a : TM α) := fun w g _ _ => ⟨a, w, rfl, g, Nat.le_refl _, Nat.le_refl _⟩
theorem safe_get : Safe n k TM.get := fun w g _ _ => ⟨w, w, rfl, g, Nat.le_refl _, Nat.le_refl _⟩
theorem safe_reading (f : Oracle → Nat → α) : Safe n k (TM.reading f) := fun w g _ _ =>
  ⟨_, _, rfl, ⟨g.keep, g.bulk, g.each, g.calm, g.regs⟩, Nat.le_refl _, Nat.le_refl _⟩

theorem safe_ite {c : Prop} [Decidable c] {m m' : TM α} (h : Safe n k m) (h' : Safe n k m') : Safe n k (if c then m else m') := by
  split <;> assumption

theorem safe_getT {p : Nat} (hp : p < n) : Safe n k (getT p) := fun w g hn _ =>
  ⟨_, w, getT_run (List.getElem?_eq_getElem (show p < w.tctxs.length by omega)), g, Nat.le_refl _, Nat.le_refl _⟩

theorem safe_getStep {p : Nat} (hp : p < k) : Safe n k (getStep p) := fun w g _ hk =>
  ⟨w.steps[p]'(by omega), w, by simp [getStep, List.getElem?_eq_getElem (show p < w.steps.length by omega)], g,
    Nat.le_refl _, Nat.le_refl _⟩

theorem mem_modify {A : Type} {l : List A} {p : Nat} {f : A → A} {x : A} (h : x ∈ l.modify p f) :
    x ∈ l ∨ ∃ a ∈ l, x = f a := by
  obtain ⟨i, hi⟩ := List.mem_iff_getElem?.mp h
  rw [List.getElem?_modify] at hi
  cases hl : l[i]? with
  | none => rw [hl] at hi; simp at hi
  | some a =>
    rw [hl] at hi
    have hm := List.mem_of_getElem? hl
    by_cases hp : p = i
    · simp [hp] at hi; exact .inr ⟨a, hm, hi.symm⟩
    · simp [hp] at hi; exact .inl (hi ▸ hm)

theorem safe_modT {p : Nat} {f : Tctx → Tctx} (hf : ∀ t N, GoodT N t → GoodT N (f t)) : Safe n k (modT p f) := fun w g _ _ => by
  refine ⟨(), _, rfl, ⟨g.keep, g.bulk, ?_, g.calm, by simpa using g.regs⟩, by simp, Nat.le_refl _⟩
  intro t ht
  rcases mem_modify ht with h | ⟨a, h, rfl⟩
  · exact g.each t h
  · exact hf a _ (g.each a h)

theorem safe_newStep_bind {s : Step} {f : Nat → TM β} (h : ∀ i, k ≤ i → Safe n (i + 1) (f i)) :
    Safe n k (newStep s >>= f) := by
  intro w g hn hk
  have e : newStep s w = (.ok w.steps.length, { w with steps := w.steps ++ [s] }) := rfl
  have g1 : Good { w with steps := w.steps ++ [s] } :=
    ⟨g.keep, g.bulk, fun t ht => (g.each t ht).mono (by simp), g.calm, g.regs⟩
  obtain ⟨b, w2, h2, g2, n2, k2⟩ := h w.steps.length hk _ g1 hn (by simp)
  refine ⟨b, w2, by rw [TM.bind_ok e]; exact h2, g2, n2, ?_⟩
  have k2' : (w.steps ++ [s]).length ≤ w2.steps.length := k2
  simp at k2'; omega

theorem safe_modStep (p : Nat) (f : Step → Step) : Safe n k (modStep p f) := fun w g _ _ =>
  ⟨(), _, rfl, ⟨g.keep, g.bulk, fun t ht => (g.each t ht).mono (by simp), g.calm, g.regs⟩, Nat.le_refl _, by simp⟩

theorem Good.texts {w w' : World} (g : Good w) (o : OnlyTexts w w') : Good w' := by
  refine ⟨by rw [o.conf]; exact g.keep, by rw [o.conf]; exact g.bulk, by rw [o.tctxs, o.steps]; exact g.each, ?_, by rw [o.registry, o.tctxs]; exact g.regs⟩
  unfold NoPanicReported; rw [o.direct]; exact g.calm

theorem safe_sendText (kd : TextKind) (name : Bytes) : Safe n k (sendText kd name) := fun w g _ _ => by
  obtain ⟨w', h1, h2, -⟩ := sendText_run kd name w
  exact ⟨_, w', h1, g.texts h2, by rw [h2.tctxs], by rw [h2.steps]⟩

@[simp] theorem alertsOf_append (a b : List Pack) : alertsOf (a ++ b) = alertsOf a ++ alertsOf b := by simp [alertsOf]

theorem safe_sendAlert (l : BitVec 8) (title m : Bytes) (h : title ≠ ascii "Panic") : Safe n k (sendAlert l title m) := by
  unfold sendAlert
  refine safe_ite (safe_pure _) (safe_bind safe_get fun w0 => ?_)
  intro w g _ _
  refine ⟨(), _, rfl, ⟨g.keep, g.bulk, g.each, ?_, g.regs⟩, Nat.le_refl _, Nat.le_refl _⟩
  intro a ha
  have ha : a ∈ alertsOf (w.proxy.direct ++ [_]) := ha
  rw [alertsOf_append] at ha
  rcases List.mem_append.mp ha with ha | ha
  · exact g.calm a ha
  · simp [alertsOf] at ha
    rw [ha]; exact h

theorem safe_recovered (d : α) {m : TM α} (h : Safe n k m) : Safe n k (recovered d m) := by
  intro w g hn hk
  obtain ⟨a, w', h1, h2⟩ := h w g hn hk
  exact ⟨a, w', by unfold recovered; rw [h1], h2⟩

theorem safe_millisToNow (s : Int) : Safe n k (millisToNow s) := safe_bind (safe_reading _) fun _ => safe_pure _

theorem PacksFor.no_alerts {w : World} {t : Tctx} {ss : List (List Nat)} {ps : List Pack} (h : PacksFor w t ss ps) :
    alertsOf ps = [] := by
  unfold PacksFor at h
  induction h with
  | nil => rfl
  | cons a _ ih =>
    obtain ⟨e, rfl⟩ := a
    simpa [alertsOf] using ih

theorem Sent.calm {p : Nat} {t : Tctx} {ss : List (List Nat)} {w w' : World} (s : Sent p t ss w w') (h : NoPanicReported w) :
    NoPanicReported w' := by
  obtain ⟨ps, h1, h2⟩ := s.packs
  unfold NoPanicReported
  rw [h1, alertsOf_append, h2.no_alerts, List.append_nil]; exact h

theorem safe_profileProcess {p ptr : Nat} (hp : p < n) (hk : ptr < k) : Safe n k (profileProcess p ptr) := by
  intro w g hn hkw
  obtain ⟨t, ht⟩ : ∃ t, w.tctxs[p]? = some t := ⟨_, List.getElem?_eq_getElem (show p < w.tctxs.length by omega)⟩
  have gt := g.each t (List.mem_of_getElem? ht)
  have hroom := gt.room
  unfold profileProcess
  rw [TM.bind_ok (getT_run ht), TM.get_bind]
  have hneg : ¬ w.conf.keep < 0 := by have := g.keep; omega
  by_cases hfull : t.col.kept.length + 1 < t.col.cap
  · have e : t.col.process w.conf.keep ptr = ({ t.col with kept := t.col.kept ++ [ptr] }, .done) := by
      unfold Collector.process
      rw [if_neg (by omega)]; simp only
      rw [if_neg (by simp; omega)]
    rw [e]
    refine ⟨(), _, rfl, ⟨g.keep, g.bulk, ?_, g.calm, by simpa using g.regs⟩, by simp, Nat.le_refl _⟩
    show ∀ t ∈ w.tctxs.modify p _, _
    intro x hx
    obtain ⟨i, hi⟩ := List.mem_iff_getElem?.mp hx
    rw [List.getElem?_modify] at hi
    by_cases hpi : p = i
    · subst hpi
      rw [ht] at hi
      simp only [if_true] at hi
      replace hi := Option.some.inj hi
      subst hi
      refine ⟨?_, gt.count, fun hc => ?_, ?_⟩
      · show (t.col.kept ++ [ptr]).length < t.col.cap; simp; omega
      · show t.sentSteps ++ (t.col.kept ++ [ptr]) = t.recorded ++ [ptr]
        rw [← gt.all hc, List.append_assoc]
      · intro i hi
        rcases List.mem_append.mp hi with hi | hi
        · exact gt.ptrs i hi
        · rw [List.mem_singleton] at hi; show i < w.steps.length; omega
    · simp [hpi] at hi
      exact g.each x (List.mem_of_getElem? hi)
  · have e : t.col.process w.conf.keep ptr =
        ({ t.col with cap := w.conf.keep.toNat, kept := [] }, .full (t.col.kept ++ [ptr])) := by
      unfold Collector.process
      rw [if_neg (by omega)]; simp only
      rw [if_pos (by simp; omega), if_neg hneg]
    rw [e]
    simp only
    generalize hw1 : ({ w with tctxs := w.tctxs.modify p (fun t' => { t' with
      col := { t.col with cap := w.conf.keep.toNat, kept := [] }, recorded := t'.recorded ++ [ptr] }) } : World) = w1
    have e1 : modT p (fun t' => { t' with
      col := { t.col with cap := w.conf.keep.toNat, kept := [] }, recorded := t'.recorded ++ [ptr] }) w = (.ok (), w1) := by
      rw [← hw1]; rfl
    rw [TM.bind_ok e1]
    have g1 : w1.tctxs[p]? = some { t with
      col := { t.col with cap := w.conf.keep.toNat, kept := [] }, recorded := t.recorded ++ [ptr] } := by
      rw [← hw1]; simp [List.getElem?_modify, ht]
    have hst : w1.steps = w.steps := by rw [← hw1]
    have hcf : w1.conf = w.conf := by rw [← hw1]
    obtain ⟨w2, ss, h2, s2, hfl, -⟩ := sendProfile_run g1 (by rw [hcf]; exact g.bulk) (t.col.kept ++ [ptr])
    have hlen : w2.tctxs.length = w.tctxs.length := by rw [s2.tctxs, ← hw1]; simp
    refine ⟨(), w2, h2, ⟨by rw [s2.conf, hcf]; exact g.keep, by rw [s2.conf, hcf]; exact g.bulk, ?_, ?_, by rw [s2.registry, hlen, ← hw1]; exact g.regs⟩, by omega,
      by rw [s2.steps, hst]⟩
    · rw [s2.steps, hst]
      intro x hx
      obtain ⟨i, hi⟩ := List.mem_iff_getElem?.mp hx
      rw [s2.tctxs, List.getElem?_modify] at hi
      by_cases hpi : p = i
      · subst hpi
        rw [g1] at hi
        simp only [if_true] at hi
        replace hi := Option.some.inj hi
        subst hi
        refine ⟨?_, ?_, fun hc => ?_, ?_⟩
        · show ([] : List Nat).length < w.conf.keep.toNat
          have := g.keep; simp; omega
        · show t.profileCount + ss.flatten.length = (t.sentSteps ++ ss.flatten).length
          rw [List.length_append, gt.count]
        · show (t.sentSteps ++ ss.flatten) ++ [] = t.recorded ++ [ptr]
          rw [hfl, List.append_nil, ← gt.all hc, List.append_assoc]
        · intro i hi; simp [afterSending] at hi
      · rw [← hw1] at hi
        simp [List.getElem?_modify, hpi] at hi
        exact g.each x (List.mem_of_getElem? hi)
    · apply s2.calm
      rw [← hw1]; exact g.calm

theorem safe_profilePush {p ptr : Nat} (hp : p < n) (hk : ptr < k) : Safe n k (profilePush p ptr) :=
  safe_bind (safe_getT hp) fun _ => safe_bind (safe_getStep hk) fun _ => safe_bind (safe_modStep _ _) fun _ =>
    safe_modT fun _ _ g => ⟨g.room, g.count, g.all, g.ptrs⟩

theorem safe_modT_at {p : Nat} {f : Tctx → Tctx} (hf : ∀ t N, GoodT N t → GoodT N (f t)) : Safe n k (modT p f) := safe_modT hf

theorem safe_profilePop {p ptr : Nat} (hp : p < n) (hk : ptr < k) : Safe n k (profilePop p ptr) :=
  safe_bind (safe_getStep hk) fun _ => safe_bind (safe_modT fun _ _ g => ⟨g.room, g.count, g.all, g.ptrs⟩) fun _ =>
    safe_profileProcess hp hk

theorem safe_profileAdd {p ptr : Nat} (hp : p < n) (hk : ptr < k) : Safe n k (profileAdd p ptr) :=
  safe_bind (safe_getT hp) fun _ => safe_bind (safe_getStep hk) fun _ => safe_bind (safe_modStep _ _) fun _ =>
    safe_bind (safe_modT fun _ _ g => ⟨g.room, g.count, g.all, g.ptrs⟩) fun _ => safe_profileProcess hp hk

theorem Safe.weaken {m : TM α} {n' k' : Nat} (h : Safe n k m) (hn : n ≤ n') (hk : k ≤ k') : Safe n' k' m :=
  fun w g h1 h2 => h w g (by omega) (by omega)

theorem safe_addNew {p : Nat} (hp : p < n) (st : BitVec 32) (b : StepBody) : Safe n k (addNew p st b) :=
  safe_newStep_bind fun i _ => safe_profileAdd hp (Nat.lt_succ_self i)

theorem safe_addMessages {p : Nat} (hp : p < n) (st : BitVec 32) (ms : List Bytes) : Safe n k (addMessages p st ms) := by
  induction ms with
  | nil => exact safe_pure _
  | cons m ms ih => exact safe_bind (safe_addNew hp _ _) fun _ => ih

/-- A change of fields the accounting does not look at. -/
theorem safe_fields {p : Nat} {f : Tctx → Tctx} (h1 : ∀ t, (f t).col = t.col) (h2 : ∀ t, (f t).profileCount = t.profileCount)
    (h3 : ∀ t, (f t).sentSteps = t.sentSteps) (h4 : ∀ t, (f t).recorded = t.recorded)
    (h5 : ∀ t, (f t).closed = t.closed) : Safe n k (modT p f) := safe_modT fun t N g =>
  ⟨by rw [h1]; exact g.room, by rw [h2, h3]; exact g.count, by rw [h1, h3, h4, h5]; exact g.all, by rw [h1]; exact g.ptrs⟩

theorem safe_withTrace {c : Ctx} {d : α} {f : Nat → TM α} (h : ∀ p, Safe (max n (p + 1)) k (f p)) :
    Safe n k (withTrace c d f) := by
  intro w g hn hk
  cases hc : traceOf w c with
  | none => exact ⟨d, w, withTrace_none hc d f, g, Nat.le_refl _, Nat.le_refl _⟩
  | some p =>
    have hp : p < w.tctxs.length := by
      unfold traceOf at hc
      cases c with
      | nil => simp at hc
      | plain => simp at hc
      | traced q =>
        simp only at hc
        split at hc
        · cases hc; assumption
        · cases hc
    rw [withTrace_run hc]
    exact h p w g (by omega) hk

theorem safe_addParams {p : Nat} (hp : p < n) (ps : List (Option Bytes)) : Safe n k (addParams p ps) := by
  induction ps with
  | nil => exact safe_pure _
  | cons o ps ih =>
    cases o with
    | none => exact ih
    | some s =>
      exact safe_bind (safe_getT hp) fun _ => safe_bind (safe_millisToNow _) fun _ => safe_bind (safe_millisToNow _) fun _ =>
        safe_bind (safe_addNew hp _ _) fun _ => ih

end

/-! ## Ending and starting -/

theorem safe_endRest {n k p : Nat} (hp : p < n) : Safe n k (endRest p) := by
  intro w g hn hk
  obtain ⟨t, ht⟩ : ∃ t, w.tctxs[p]? = some t := ⟨_, List.getElem?_eq_getElem (show p < w.tctxs.length by omega)⟩
  have gt := g.each t (List.mem_of_getElem? ht)
  obtain ⟨w', ss, packs, h1, h2, h3, h4, h5, h6, h7, h8, h9, h10, h11, h12⟩ := endRest_full ht g.bulk
  refine ⟨(), w', h1, ⟨by rw [h3]; exact g.keep, by rw [h3]; exact g.bulk, ?_, ?_, ?_⟩, by rw [h8]; simp, by rw [h5]⟩
  · rw [h5]
    intro x hx
    obtain ⟨i, hi⟩ := List.mem_iff_getElem?.mp hx
    rw [h8, List.getElem?_modify] at hi
    by_cases hpi : p = i
    · subst hpi
      rw [ht] at hi
      simp only [if_true] at hi
      replace hi := Option.some.inj hi
      subst hi
      refine ⟨gt.room, ?_, fun hc => by simp [afterSending, closing] at hc, gt.ptrs⟩
      show t.profileCount + ss.flatten.length = (t.sentSteps ++ ss.flatten).length
      rw [List.length_append, gt.count]
    · simp [hpi] at hi
      exact g.each x (List.mem_of_getElem? hi)
  · unfold NoPanicReported
    rw [h12, alertsOf_append, alertsOf_append, h11.no_alerts]
    have hx : ∀ x : XlogPack, alertsOf [Pack.xlog x] = [] := fun _ => rfl
    split
    · rw [hx, List.append_nil, List.append_nil]; exact g.calm
    · rw [show alertsOf [] = [] from rfl, List.append_nil, List.append_nil]; exact g.calm
  · rw [h6, h8, List.length_modify]
    exact fun e he => g.regs e (Cache.mem_of_remove he)

theorem safe_endTctx {n k p : Nat} (hp : p < n) : Safe n k (endTctx p) :=
  safe_bind (safe_getT hp) fun _ => safe_ite (safe_pure _) (safe_endRest hp)

theorem safe_endAnyService {n k : Nat} (c : Ctx) : Safe n k (endAnyService c) :=
  safe_withTrace fun _ => safe_bind (safe_getT (by omega)) fun _ => safe_ite (safe_pure _) (safe_endTctx (by omega))

theorem safe_startService {n k : Nat} (nm a : Bytes) : Safe n k (startService nm a) := by
  intro w g hn hk
  unfold startService
  have hcol : Collector.new w.conf.keep = some { cap := w.conf.keep.toNat } := by
    unfold Collector.new; rw [if_neg (by have := g.keep; omega)]
  have e := newTraceContext_run w
  rw [hcol] at e
  simp only at e
  rw [TM.bind_ok e]
  generalize hw1 : ({ w with tick := w.tick + 1 + 1, tctxs := w.tctxs ++ [freshTctx w { cap := w.conf.keep.toNat }] } : World) = w1
  have g1 : Good w1 := by
    rw [← hw1]
    refine ⟨g.keep, g.bulk, ?_, g.calm, fun e he q hq => by have := g.regs e he q hq; show q < (w.tctxs ++ [_]).length; simp; omega⟩
    intro t ht
    rcases List.mem_append.mp ht with ht | ht
    · exact g.each t ht
    · rw [List.mem_singleton] at ht
      subst ht
      refine ⟨?_, rfl, fun _ => rfl, by simp [freshTctx]⟩
      show 0 < w.conf.keep.toNat
      have := g.keep; omega
  have hl : w1.tctxs.length = w.tctxs.length + 1 := by rw [← hw1]; simp
  have hs : w1.steps = w.steps := by rw [← hw1]
  have hp : w.tctxs.length < w1.tctxs.length := by omega
  have key : Safe (w.tctxs.length + 1) k (do
      register w.tctxs.length
      startRest w.tctxs.length nm a
      return w.tctxs.length) := by
    have hlt : w.tctxs.length < w.tctxs.length + 1 := Nat.lt_succ_self _
    refine safe_bind ?_ fun _ => safe_bind ?_ fun _ => safe_pure _
    · refine safe_bind (safe_getT hlt) fun t => ?_
      refine fun w' g hn _ => ⟨(), _, rfl, ⟨g.keep, g.bulk, g.each, g.calm, ?_⟩, Nat.le_refl _, Nat.le_refl _⟩
      intro e he q hq
      rcases Cache.mem_of_add he with h | ⟨e', he', hv⟩
      · rw [h] at hq; cases hq; show w.tctxs.length < w'.tctxs.length; omega
      · exact g.regs e' he' q (hv ▸ hq)
    · exact safe_bind (safe_modT fun _ _ g => ⟨g.room, g.count, g.all, g.ptrs⟩) fun _ => safe_bind (safe_reading _) fun _ =>
        safe_bind (safe_modT fun _ _ g => ⟨g.room, g.count, g.all, g.ptrs⟩) fun _ => safe_bind (safe_addNew hlt _ _) fun _ =>
        safe_bind (safe_modT fun _ _ g => ⟨g.room, g.count, g.all, g.ptrs⟩) fun _ => safe_bind (safe_sendText _ _) fun _ =>
        safe_modT fun _ _ g => ⟨g.room, g.count, g.all, g.ptrs⟩
  obtain ⟨b, w2, h2, g2, n2, k2⟩ := key w1 g1 (by omega) (by rw [hs]; exact hk)
  exact ⟨b, w2, h2, g2, by omega, by rw [hs] at k2; exact k2⟩

theorem startService_result {w w' : World} {nm a : Bytes} {p : Nat} (h : startService nm a w = (.ok p, w')) :
    p = w.tctxs.length ∧ w'.tctxs.length = w.tctxs.length + 1 := by
  unfold startService at h
  rcases newRegistered w with ⟨v, h1, -⟩ | ⟨v, h1, v', h2, hs⟩
  · rw [TM.bind_def, h1] at h; simp at h
  · rw [TM.bind_ok h1, TM.bind_ok h2] at h
    have hq := quiet_startRest shownOf_blind (fun _ _ _ _ _ _ => ⟨rfl, rfl, rfl, rfl⟩) w.tctxs.length nm a v'
    have hl : v'.tctxs.length = w.tctxs.length + 1 := by
      obtain ⟨n, -, -, h3, -⟩ := hs.fresh
      have := congrArg List.length h3
      simpa [services] using this
    rw [TM.bind_def] at h
    split at h
    · rename_i x v'' heq
      rw [heq] at hq
      have e1 : w.tctxs.length = p ∧ v'' = w' := by simpa using h
      exact ⟨e1.1.symm, by rw [← e1.2, ← hl]; exact hq.len⟩
    · simp at h

/-- Continuing after a start: the new context is there. -/
theorem safe_startService_bind {β : Type} {n k : Nat} {nm a : Bytes} {f : Nat → TM β}
    (h : ∀ p, n ≤ p → Safe (p + 1) k (f p)) : Safe n k (startService nm a >>= f) := by
  intro w g hn hk
  obtain ⟨p, w1, h1, g1, n1, k1⟩ := safe_startService (n := n) (k := k) nm a w g hn hk
  obtain ⟨hp, hl⟩ := startService_result h1
  obtain ⟨b, w2, h2, g2, n2, k2⟩ := h p (by omega) w1 g1 (by omega) (by omega)
  exact ⟨b, w2, by rw [TM.bind_ok h1]; exact h2, g2, by omega, by omega⟩

end Scouter
