import Verif.Proofs.Same
import Verif.Proofs.Apart
import Verif.Props.Nested
/-!
# C43: the first error wins unless forced
-/
namespace Scouter
open TM Trace

/-! ## Specification -/

/-- An error marked on the service at `p` by a call: whether it is forced, and its text. -/
def errorMark (p : Nat) : Call → Option (Bool × Bytes)
  | .markAsError (.traced q) m => if q = p then some (false, m) else none
  | .markAsErrorForcibly (.traced q) m => if q = p then some (true, m) else none
  | .endApiCall (.traced q) (some _) (some m) => if q = p then some (false, m) else none
  | _ => none

/-- The hashes of the texts of the error marks on the service at `p`, in order. -/
def errorHashes (p : Nat) (cs : List Call) : List (BitVec 32) := cs.filterMap fun c => (errorMark p c).map fun m => textHash m.2

/-- No call of the history forces an error on the service at `p`. -/
def NotForced (p : Nat) (cs : List Call) : Prop := ∀ m, Call.markAsErrorForcibly (.traced p) m ∉ cs

/-- The first of these hashes that stands for a text, 0 if there is none. -/
def firstError (hs : List (BitVec 32)) : BitVec 32 := (hs.find? (· ≠ 0)).getD 0

/-- The step a call ends exists (a dangling position stands for no pointer of the program). -/
def StepExists (w : World) : Call → Prop
  | .endApiCall _ ptr _ => ∀ i, ptr = some i → i < w.steps.length
  | _ => True

/-- So for every call of a history. -/
def StepsExist : World → List Call → Prop
  | _, [] => True
  | w, c :: cs => StepExists w c ∧ StepsExist (perform w c) cs

/-- The error given to a service without one that is found stuck (tracemain.go:366). -/
def stuckError : BitVec 32 := textHash (ascii "This stuck service currently may running, not finished!")

/-- The error of the service at `p`. -/
def errorAt (w : World) (p : Nat) : Option (BitVec 32) := (w.tctxs[p]?).map (·.error)

/-! ## Proof -/

theorem error_deaf : Deaf (fun t : Tctx => t.error) where
  col _ _ := rfl
  process _ _ _ := rfl
  sent _ _ _ _ := rfl
  isStream _ _ := rfl
  closed _ _ := rfl
  lastMethod _ _ := rfl
  serviceName _ _ := rfl
  serviceHash _ _ := rfl
  status _ _ := rfl
  startTime _ _ := rfl
  apicall _ _ _ := rfl
  texts _ _ _ _ _ _ _ _ := rfl

theorem Same.errorAt {p : Nat} {w w' : World} (h : Same (fun t : Tctx => t.error) p w w') {e : BitVec 32}
    (he : errorAt w p = some e) : errorAt w' p = some e := by
  unfold Scouter.errorAt at *
  cases ht : w.tctxs[p]? with
  | none => rw [ht] at he; simp at he
  | some t =>
    rw [ht] at he
    obtain ⟨t', h1, h2⟩ := h t ht
    rw [h1]
    simpa [h2] using he

theorem errorAt_quiet {p : Nat} {α : Type} {m : TM α} (hm : Ev (Quiet (fun t : Tctx => t.error)) m) {w : World} {e : BitVec 32}
    (he : errorAt w p = some e) : errorAt (m w).2 p = some e := (hm w).same.errorAt he

theorem errorAt_recovered {p : Nat} {α : Type} {d : α} {m : TM α} {w : World} {e : BitVec 32} (h : errorAt (m w).2 p = some e) :
    errorAt (recovered d m w).2 p = some e := by
  unfold recovered
  split
  · rename_i a w' heq; rw [heq] at h; exact h
  · rename_i w' heq; rw [heq] at h
    exact errorAt_quiet (quiet_bind (quiet_reading _) fun t => quiet_bind (quiet_sendAlert _ _ _) fun _ => quiet_pure _) h

/-- What follows after code that keeps the error. -/
theorem errorAt_bind {p : Nat} {α β : Type} {m : TM α} {f : α → TM β} {w : World} {e e' : BitVec 32}
    (hm : Ev (Quiet (fun t : Tctx => t.error)) m) (he : errorAt w p = some e)
    (hok : ∃ a w', m w = (.ok a, w'))
    (hf : ∀ a w', m w = (.ok a, w') → errorAt w' p = some e → errorAt (f a w').2 p = some e') : errorAt ((m >>= f) w).2 p = some e' := by
  obtain ⟨a, w', h⟩ := hok
  rw [TM.bind_ok h]
  refine hf a w' h ?_
  have := errorAt_quiet hm he
  rwa [h] at this

theorem errorAt_getT {p : Nat} {w : World} {e : BitVec 32} (h : errorAt w p = some e) :
    ∃ t, w.tctxs[p]? = some t ∧ t.error = e := by
  unfold errorAt at h
  cases ht : w.tctxs[p]? with
  | none => rw [ht] at h; simp at h
  | some t => rw [ht] at h; exact ⟨t, rfl, by simpa using h⟩

theorem errorAt_modT {p : Nat} {w : World} {f : Tctx → Tctx} {e e' : BitVec 32} (h : errorAt w p = some e)
    (hf : ∀ t, t.error = e → (f t).error = e') : errorAt (modT p f w).2 p = some e' := by
  obtain ⟨t, ht, he⟩ := errorAt_getT h
  show ((w.tctxs.modify p f)[p]?).map _ = _
  rw [List.getElem?_modify, ht]
  simp [hf t he]

theorem traceOf_at {w : World} {p : Nat} {e : BitVec 32} (h : errorAt w p = some e) : traceOf w (.traced p) = some p := by
  obtain ⟨t, ht, -⟩ := errorAt_getT h
  simp [traceOf, (List.getElem?_eq_some_iff.mp ht).1]

theorem errorAt_texts {w w' : World} {p : Nat} {e : BitVec 32} (h : errorAt w p = some e) (o : OnlyTexts w w') :
    errorAt w' p = some e := by
  unfold errorAt; rw [o.tctxs]; exact h

theorem markAsError_error {w : World} {p : Nat} {e : BitVec 32} (h : errorAt w p = some e) (m : Bytes) :
    errorAt (perform w (.markAsError (.traced p) m)) p = some (if e = 0 then textHash m else e) := by
  refine errorAt_recovered ?_
  rw [withTrace_run (traceOf_at h)]
  obtain ⟨t, ht, he⟩ := errorAt_getT h
  rw [TM.bind_ok (getT_run ht)]
  by_cases h0 : e = 0
  · rw [if_pos (he.trans h0), if_pos h0]
    obtain ⟨w1, h1, o1, -⟩ := sendText_run .error m w
    have e2 : (do let e ← Trace.sendText .error m; modT p fun t => { t with error := e }) w =
        modT p (fun t => { t with error := textHash m }) w1 := TM.bind_ok h1
    have hA := errorAt_modT (f := fun t => { t with error := textHash m }) (errorAt_texts h o1) (fun _ _ => rfl)
    rw [TM.bind_ok h1]
    exact errorAt_quiet (quiet_addPMessageStep error_deaf.toBlind _ _ _ _ _) hA
  · rw [if_neg (by rw [he]; exact h0), if_neg h0]
    exact errorAt_quiet (quiet_addPMessageStep error_deaf.toBlind _ _ _ _ _) h

theorem markAsErrorForcibly_error {w : World} {p : Nat} {e : BitVec 32} (h : errorAt w p = some e) (m : Bytes) :
    errorAt (perform w (.markAsErrorForcibly (.traced p) m)) p = some (textHash m) := by
  refine errorAt_recovered ?_
  rw [withTrace_run (traceOf_at h)]
  obtain ⟨w1, h1, o1, -⟩ := sendText_run .error m w
  rw [TM.bind_ok h1]
  exact errorAt_modT (errorAt_texts h o1) (fun _ _ => rfl)

theorem endApiCall_error {w : World} {p ptr : Nat} {e : BitVec 32} (h : errorAt w p = some e) (hp : ptr < w.steps.length) (m : Bytes) :
    errorAt (perform w (.endApiCall (.traced p) (some ptr) (some m))) p = some (if e = 0 then textHash m else e) := by
  refine errorAt_recovered ?_
  show errorAt (withTrace _ _ _ w).2 p = _
  rw [withTrace_run (traceOf_at h)]
  obtain ⟨t, ht, he⟩ := errorAt_getT h
  rw [TM.bind_ok (getT_run ht)]
  have hs : getStep ptr w = (.ok w.steps[ptr], w) := by simp [getStep, List.getElem?_eq_getElem hp]
  rw [TM.bind_ok hs]
  refine errorAt_bind (quiet_millisToNow _) h ⟨_, _, rfl⟩ fun now w1 _ h1 => ?_
  refine errorAt_bind (quiet_modStep _ _) h1 ⟨_, _, rfl⟩ fun _ w2 _ h2 => ?_
  refine errorAt_bind (quiet_modT _ _ fun t => rfl) h2 ⟨_, _, rfl⟩ fun _ w3 _ h3 => ?_
  obtain ⟨w4, h4, o4, -⟩ := sendText_run .error m w3
  simp only
  rw [TM.bind_ok h4]
  refine errorAt_bind (quiet_modStep _ _) (errorAt_texts h3 o4) ⟨_, _, rfl⟩ fun _ w5 _ h5 => ?_
  have hA := errorAt_modT (f := fun t => { t with error := if t.error = 0 then textHash m else t.error }) (e' := if e = 0 then textHash m else e) h5
    (fun t ht => by show (if t.error = 0 then textHash m else t.error) = _; rw [ht])
  exact errorAt_quiet (quiet_profilePop error_deaf.toBlind _ _) hA

/-- The same calls made on another service keep the error. -/
theorem otherMark_same {p q : Nat} (hq : q ≠ p) (m : Bytes) (ptr : Option Nat) :
    Ev (Same (fun t : Tctx => t.error) p) (Call.markAsError (.traced q) m).code ∧
    Ev (Same (fun t : Tctx => t.error) p) (Call.markAsErrorForcibly (.traced q) m).code ∧
    Ev (Same (fun t : Tctx => t.error) p) (Call.endApiCall (.traced q) ptr (some m)).code := by
  have hc := error_deaf.toBlind
  refine ⟨?_, ?_, ?_⟩
  · refine same_recovered _ (same_withTrace _ _ _ fun x hx => ?_)
    cases hx
    refine same_bind (same_of_quiet (quiet_getT _)) fun _ => Ev.ite ?_ (same_of_quiet (quiet_addPMessageStep hc _ _ _ _ _))
    exact same_bind (same_of_quiet (quiet_sendText _ _)) fun _ => same_bind (same_modT_other hq) fun _ =>
      same_of_quiet (quiet_addPMessageStep hc _ _ _ _ _)
  · refine same_recovered _ (same_withTrace _ _ _ fun x hx => ?_)
    cases hx
    exact same_bind (same_of_quiet (quiet_sendText _ _)) fun _ => same_modT_other hq
  · refine same_recovered _ ?_
    cases ptr with
    | none => exact same_pure _
    | some ptr =>
      refine same_withTrace _ _ _ fun x hx => ?_
      cases hx
      exact same_bind (same_of_quiet (quiet_getT _)) fun _ => same_bind (same_of_quiet (quiet_getStep _)) fun _ =>
        same_bind (same_of_quiet (quiet_millisToNow _)) fun _ => same_bind (same_of_quiet (quiet_modStep _ _)) fun _ =>
        same_bind (same_modT_other hq) fun _ => same_bind (same_of_quiet (quiet_sendText _ _)) fun _ =>
        same_bind (same_of_quiet (quiet_modStep _ _)) fun _ => same_bind (same_modT_other hq) fun _ => same_of_quiet (quiet_profilePop hc _ _)

/-- Without removal of stuck services, counting the active services keeps the error. -/
theorem activeLoop_noRemove {p : Nat} {e : BitVec 32} (now : Int) (ps : List Nat) : ∀ (w : World) n a, w.conf.stuckRemove = false →
    errorAt w p = some e → errorAt ((activeLoop now ps n a) w).2 p = some e := by
  induction ps with
  | nil => intro w n a _ h; exact h
  | cons q ps ih =>
    intro w n a hr h
    unfold activeLoop
    split
    · exact h
    · rw [TM.bind_def]
      cases hq : w.tctxs[q]? with
      | none => simp only [getT, hq]; exact h
      | some t =>
        rw [getT_run hq]
        simp only
        rw [TM.get_bind]
        split
        · have es : endStuck q w = (.ok (), w) := by
            unfold endStuck recovered
            rw [TM.get_bind, if_neg (by simp [hr])]
            rfl
          rw [TM.bind_ok es, TM.bind_ok (getT_run hq), TM.get_bind]
          obtain ⟨u, w2, h2⟩ := calm_sendAlert (if w.conf.stuckAlert then 2 else 1) (ascii "STUCK_SERVICE")
            (stuckMessage t (activeElapsed now t.startTime)) w
          rw [TM.bind_ok h2]
          have hq2 := quiet_sendAlert (core := fun t : Tctx => t.error) (if w.conf.stuckAlert then 2 else 1) (ascii "STUCK_SERVICE")
            (stuckMessage t (activeElapsed now t.startTime)) w
          rw [h2] at hq2
          exact ih w2 _ _ (by rw [hq2.conf]; exact hr) (hq2.same.errorAt h)
        · exact ih w _ _ hr h

/-- The error stays, or a service without one is found stuck. -/
def StuckOnly (p : Nat) (w w' : World) : Prop := ∀ e, errorAt w p = some e →
  errorAt w' p = some e ∨ (e = 0 ∧ errorAt w' p = some stuckError)

theorem StuckOnly.isPre (p : Nat) : IsPre (StuckOnly p) where
  refl _ _ h := .inl h
  trans h h' := fun e he => by
    rcases h e he with h1 | ⟨h0, h1⟩
    · exact h' e h1
    · rcases h' _ h1 with h2 | ⟨-, h2⟩
      · exact .inr ⟨h0, h2⟩
      · exact .inr ⟨h0, h2⟩

theorem stuckOnly_same {p : Nat} {α : Type} {m : TM α} (h : Ev (Same (fun t : Tctx => t.error) p) m) : Ev (StuckOnly p) m :=
  fun w _ he => .inl ((h w).errorAt he)

theorem stuckOnly_quiet {p : Nat} {α : Type} {m : TM α} (h : Ev (Quiet (fun t : Tctx => t.error)) m) : Ev (StuckOnly p) m :=
  stuckOnly_same (same_of_quiet h)

theorem stuckOnly_bind {p : Nat} {α β : Type} {m : TM α} {f : α → TM β} (h : Ev (StuckOnly p) m) (hf : ∀ a, Ev (StuckOnly p) (f a)) :
    Ev (StuckOnly p) (m >>= f) := Ev.bind (StuckOnly.isPre p) h hf

theorem stuckOnly_recovered {p : Nat} {α : Type} (d : α) {m : TM α} (h : Ev (StuckOnly p) m) : Ev (StuckOnly p) (recovered d m) := by
  intro w e he
  rcases h w e he with h1 | ⟨h0, h1⟩
  · exact .inl (errorAt_recovered h1)
  · exact .inr ⟨h0, errorAt_recovered h1⟩

theorem stuckOnly_endStuck (p q : Nat) : Ev (StuckOnly p) (endStuck q) := by
  have hc := error_deaf.toBlind
  refine stuckOnly_recovered _ (stuckOnly_bind (stuckOnly_quiet quiet_get) fun _ => Ev.ite ?_ (Ev.pure (StuckOnly.isPre p) _))
  refine stuckOnly_bind (stuckOnly_quiet (quiet_getT _)) fun _ => stuckOnly_bind (stuckOnly_quiet (quiet_millisToNow _)) fun _ =>
    stuckOnly_bind (stuckOnly_quiet (quiet_sendText _ _)) fun _ => stuckOnly_bind (stuckOnly_quiet (quiet_addNew hc _ _ _)) fun _ => ?_
  intro w
  cases hq : w.tctxs[q]? with
  | none =>
    have : getT q w = (.panic, w) := by simp [getT, hq]
    rw [TM.bind_def, this]
    exact (StuckOnly.isPre p).refl w
  | some t =>
    rw [TM.bind_ok (getT_run hq)]
    by_cases h0 : t.error = 0
    · rw [if_pos h0]
      obtain ⟨w1, h1, o1, -⟩ := sendText_run .error (ascii "This stuck service currently may running, not finished!") w
      rw [TM.bind_ok h1]
      refine (StuckOnly.isPre p).trans (b := (modT q (fun t => { t with error := stuckError }) w1).2) ?_
        (stuckOnly_same (same_endTctx error_deaf.toBlind error_deaf.closed error_deaf.serviceHash q) _)
      intro e he
      by_cases hpq : q = p
      · subst hpq
        obtain ⟨t', ht', he'⟩ := errorAt_getT he
        rw [hq] at ht'; cases ht'
        exact .inr ⟨he'.symm.trans h0, errorAt_modT (errorAt_texts he o1) fun _ _ => rfl⟩
      · exact .inl ((same_modT_other hpq w1).errorAt (errorAt_texts he o1))
    · rw [if_neg h0]
      exact stuckOnly_same (same_endTctx error_deaf.toBlind error_deaf.closed error_deaf.serviceHash q) w

theorem stuckOnly_activeLoop (p : Nat) (now : Int) (ps : List Nat) : ∀ n a, Ev (StuckOnly p) (activeLoop now ps n a) := by
  induction ps with
  | nil => intro n a; exact Ev.pure (StuckOnly.isPre p) _
  | cons q ps ih =>
    intro n a
    unfold activeLoop
    refine Ev.ite (Ev.pure (StuckOnly.isPre p) _) (stuckOnly_bind (stuckOnly_quiet (quiet_getT _)) fun t =>
      stuckOnly_bind (stuckOnly_quiet quiet_get) fun w => ?_)
    exact Ev.ite (stuckOnly_bind (stuckOnly_endStuck p q) fun _ => stuckOnly_bind (stuckOnly_quiet (quiet_getT _)) fun _ =>
      stuckOnly_bind (stuckOnly_quiet quiet_get) fun _ => stuckOnly_bind (stuckOnly_quiet (quiet_sendAlert _ _ _)) fun _ => ih _ _) (ih _ _)

/-- The error a service with error `e` has after a call, stuck services apart. -/
def errorAfter (p : Nat) (c : Call) (e : BitVec 32) : BitVec 32 :=
  match errorMark p c with
  | some (true, m) => textHash m
  | some (false, m) => if e = 0 then textHash m else e
  | none => e

/-- The error after a call. -/
theorem errorAt_perform {w : World} {p : Nat} {e : BitVec 32} (h : errorAt w p = some e) (c : Call) (hwf : StepExists w c) :
    errorAt (perform w c) p = some (errorAfter p c e) ∨
      (∃ o, c = .activeCount o) ∧ w.conf.stuckRemove = true ∧ e = 0 ∧ errorAt (perform w c) p = some stuckError := by
  have noMark : errorMark p c = none → setsError c = false → errorAt (perform w c) p = some (errorAfter p c e) := fun hm hs => by
    unfold errorAfter
    rw [hm]
    exact (same_call error_deaf c (by rw [hs]; simp) (fun _ t e => rfl) w).errorAt h
  have inert : ∀ x, tracingCtx c = some x → (x = .nil ∨ x = .plain) → errorMark p c = none →
      errorAt (perform w c) p = some (errorAfter p c e) := fun x hx hn hm => by
    unfold errorAfter perform
    rw [hm, C44_no_trace_is_inert w c x hx hn]
    exact h
  cases c
  case markAsError c m =>
    left
    cases c with
    | nil => exact inert .nil rfl (.inl rfl) rfl
    | plain => exact inert .plain rfl (.inr rfl) rfl
    | traced q =>
      by_cases hq : q = p
      · subst hq; simpa [errorAfter, errorMark] using markAsError_error h m
      · have : errorAt (perform w _) p = _ := ((otherMark_same hq m none).1 w).errorAt h
        simpa [errorAfter, errorMark, hq] using this
  case markAsErrorForcibly c m =>
    left
    cases c with
    | nil => exact inert .nil rfl (.inl rfl) rfl
    | plain => exact inert .plain rfl (.inr rfl) rfl
    | traced q =>
      by_cases hq : q = p
      · subst hq; simpa [errorAfter, errorMark] using markAsErrorForcibly_error h m
      · have : errorAt (perform w _) p = _ := ((otherMark_same hq m none).2.1 w).errorAt h
        simpa [errorAfter, errorMark, hq] using this
  case endApiCall c ptr er =>
    left
    cases er with
    | none => exact noMark (by cases c <;> cases ptr <;> rfl) rfl
    | some m =>
      cases c with
      | nil => exact inert .nil rfl (.inl rfl) (by cases ptr <;> rfl)
      | plain => exact inert .plain rfl (.inr rfl) (by cases ptr <;> rfl)
      | traced q =>
        by_cases hq : q = p
        · subst hq
          cases ptr with
          | none => exact h
          | some i => simpa [errorAfter, errorMark] using endApiCall_error h (hwf i rfl) m
        · have : errorAt (perform w _) p = _ := ((otherMark_same hq m ptr).2.2 w).errorAt h
          cases ptr <;> simpa [errorAfter, errorMark, hq] using this
  case activeCount o =>
    have hb : ∀ v : World, ((Trace.getActiveCount o >>= fun _ => pure ()) v).2 = (Trace.getActiveCount o v).2 := by
      intro v
      rw [TM.bind_def]
      split
      · rename_i heq; rw [heq]; rfl
      · rename_i heq; rw [heq]
    have hp : perform w (.activeCount o) = (activeLoop (w.env.clock w.tick) (w.registry.getValues o) 0 (0, 0, 0) { w with tick := w.tick + 1 }).2 := hb w
    have h' : errorAt { w with tick := w.tick + 1 } p = some e := h
    rw [hp]
    cases hr : w.conf.stuckRemove with
    | false => left; exact activeLoop_noRemove _ _ _ _ _ hr h'
    | true =>
      rcases stuckOnly_activeLoop p (w.env.clock w.tick) (w.registry.getValues o) 0 (0, 0, 0) _ e h' with h1 | ⟨h0, h1⟩
      · exact .inl h1
      · exact .inr ⟨⟨o, rfl⟩, rfl, h0, h1⟩
  all_goals exact .inl (noMark rfl rfl)

theorem firstError_cons (e h : BitVec 32) (hs : List (BitVec 32)) :
    firstError (e :: h :: hs) = firstError ((if e = 0 then h else e) :: hs) := by
  unfold firstError
  by_cases he : e = 0#32
  · subst he
    by_cases hh : h = 0#32
    · subst hh; simp
    · simp [hh]
  · simp [he]

/-! ## The theorems -/

/-- No count of active services removes the service at `p`: stuck services are not removed then, or it is not stuck. -/
def NeverRemoved (p : Nat) : World → List Call → Prop
  | _, [] => True
  | w, c :: cs => (∀ o, c = .activeCount o → w.conf.stuckRemove = false ∨ NotStuck p w) ∧ NeverRemoved p (perform w c) cs

/-- **C43**: whatever is called, the error of a service without forced marks is the first one marked on it by MarkAsError
or a failed api call (the one it had already, if any), unless it is found stuck and removed. -/
theorem C43_first_error_wins (w : World) (p : Nat) (e : BitVec 32) (cs : List Call) (he : errorAt w p = some e)
    (hs : StepsExist w cs) (hf : NotForced p cs) (hr : NeverRemoved p w cs) :
    errorAt (history w cs) p = some (firstError (e :: errorHashes p cs)) := by
  induction cs generalizing w e with
  | nil => show errorAt w p = _; rw [he]; unfold firstError; by_cases h0 : e = 0#32 <;> simp [errorHashes, h0]
  | cons c cs ih =>
    have h1 : errorAt (perform w c) p = some (errorAfter p c e) := by
      rcases errorAt_perform he c hs.1 with h | ⟨⟨o, rfl⟩, h, -⟩
      · exact h
      · rcases hr.1 o rfl with h' | h'
        · rw [h'] at h; cases h
        · unfold errorAt at he ⊢
          cases ht : w.tctxs[p]? with
          | none => rw [ht] at he; cases he
          | some t =>
            rw [young_activeCount o h' ht]
            rw [ht] at he
            exact he
    have := ih (perform w c) (errorAfter p c e) h1 hs.2 (fun m hm => hf m (by simp [hm])) hr.2
    show errorAt (history (perform w c) cs) p = _
    rw [this]
    unfold errorHashes
    rw [List.filterMap_cons]
    unfold errorAfter
    cases hm : errorMark p c with
    | none => rfl
    | some m =>
      obtain ⟨b, m⟩ := m
      cases b with
      | true =>
        exfalso
        cases c <;> simp [errorMark] at hm
        case markAsError c _ => cases c <;> simp at hm
        case markAsErrorForcibly c m' =>
          cases c with
          | traced q =>
            simp only [Option.ite_none_right_eq_some] at hm
            rw [hm.1] at hf
            exact hf m' (by simp)
          | nil => simp at hm
          | plain => simp at hm
        case endApiCall c ptr er => cases c <;> cases ptr <;> cases er <;> simp at hm
      | false =>
        simp only [Option.map_some]
        rw [firstError_cons]

/-- **C43**: only a forced mark replaces an error: after it, the error is its own, or (when its text is empty) the first
one marked afterwards. -/
theorem C43_forced_mark_replaces (w : World) (p : Nat) (e : BitVec 32) (before after : List Call) (m : Bytes)
    (he : errorAt (history w before) p = some e) (hs : StepsExist (history w before) (.markAsErrorForcibly (.traced p) m :: after))
    (hf : NotForced p after) (hr : NeverRemoved p (history w (before ++ [.markAsErrorForcibly (.traced p) m])) after) :
    errorAt (history w (before ++ .markAsErrorForcibly (.traced p) m :: after)) p =
      some (firstError (textHash m :: errorHashes p after)) := by
  unfold history at *
  rw [List.foldl_append, List.foldl_cons]
  have h1 := markAsErrorForcibly_error he m
  rw [List.foldl_append] at hr
  exact C43_first_error_wins _ p _ after h1 hs.2 hf hr

/-- **C43**: with or without removal of stuck services, an error stays until one is forced. -/
theorem C43_error_stays (w : World) (p : Nat) (e : BitVec 32) (cs : List Call) (he : errorAt w p = some e) (h0 : e ≠ 0)
    (hs : StepsExist w cs) (hf : NotForced p cs) : errorAt (history w cs) p = some e := by
  induction cs generalizing w with
  | nil => exact he
  | cons c cs ih =>
    refine ih (perform w c) ?_ hs.2 (fun m hm => hf m (by simp [hm]))
    rcases errorAt_perform he c hs.1 with h | ⟨-, -, h, -⟩
    · rw [h]
      unfold errorAfter
      cases hm : errorMark p c with
      | none => rfl
      | some m =>
        obtain ⟨b, m⟩ := m
        cases b with
        | false => have h0' : ¬ e = 0#32 := h0; simp [h0']
        | true =>
          exfalso
          cases c <;> simp [errorMark] at hm
          case markAsError c _ => cases c <;> simp at hm
          case markAsErrorForcibly c m' =>
            cases c with
            | traced q =>
              simp only [Option.ite_none_right_eq_some] at hm
              rw [hm.1] at hf
              exact hf m' (by simp)
            | nil => simp at hm
            | plain => simp at hm
          case endApiCall c ptr er => cases c <;> cases ptr <;> cases er <;> simp at hm
    · exact absurd h h0

/-- **C43**: a call that marks no error on a service leaves its error alone, except that a service without one may be found
stuck by the active-service count. -/
theorem C43_nothing_else_sets_it (w : World) (p : Nat) (e : BitVec 32) (c : Call) (he : errorAt w p = some e)
    (hm : errorMark p c = none) : errorAt (perform w c) p = some e ∨
      (∃ o, c = .activeCount o) ∧ w.conf.stuckRemove = true ∧ e = 0 ∧ errorAt (perform w c) p = some stuckError := by
  by_cases hs : StepExists w c
  · have := errorAt_perform he c hs
    unfold errorAfter at this
    rwa [hm] at this
  · left
    cases c <;> simp only [StepExists, not_true] at hs
    case endApiCall c ptr er =>
      cases ptr with
      | none => simp at hs
      | some i =>
        cases er with
        | none => exact (same_call error_deaf (.endApiCall c (some i) none) (by simp [setsError]) (fun _ t e => rfl) w).errorAt he
        | some m =>
          cases c with
          | nil => unfold perform; rw [C44_no_trace_is_inert w _ .nil rfl (.inl rfl)]; exact he
          | plain => unfold perform; rw [C44_no_trace_is_inert w _ .plain rfl (.inr rfl)]; exact he
          | traced q =>
            have hq : q ≠ p := by intro h; simp [errorMark, h] at hm
            exact ((otherMark_same hq m (some i)).2.2 w).errorAt he

/-- No context from `n` on has an error. -/
def NoErrorFrom (n : Nat) (w w' : World) : Prop :=
  (∀ p e, n ≤ p → errorAt w p = some e → e = 0) → ∀ p e, n ≤ p → errorAt w' p = some e → e = 0

theorem noErrorFrom_quiet {n : Nat} {α : Type} {m : TM α} (h : Ev (Quiet (fun t : Tctx => t.error)) m) : Ev (NoErrorFrom n) m := by
  intro w hw p e hp he
  have hc := (h w).cores p
  unfold errorAt at he
  rw [hc] at he
  exact hw p e hp he

theorem NoErrorFrom.isPre (n : Nat) : IsPre (NoErrorFrom n) := ⟨fun _ h => h, fun h h' x => h' (h x)⟩

theorem noErrorFrom_startService (n : Nat) (nm a : Bytes) : Ev (NoErrorFrom n) (startService nm a) := by
  have hnew : Ev (NoErrorFrom n) newTraceContext := by
    intro w hw p e hp he
    rw [newTraceContext_run] at he
    cases hcol : Collector.new w.conf.keep with
    | none => rw [hcol] at he; exact hw p e hp he
    | some col =>
      rw [hcol] at he
      unfold errorAt at he
      simp only at he
      rw [List.getElem?_append] at he
      split at he
      · exact hw p e hp he
      · rw [List.getElem?_singleton] at he
        split at he
        · simpa [freshTctx] using he.symm
        · simp at he
  have hreg : ∀ q, Ev (NoErrorFrom n) (register q) := by
    intro q
    refine Ev.bind (NoErrorFrom.isPre n) (noErrorFrom_quiet (quiet_getT q)) fun t => ?_
    intro w hw p e hp he
    exact hw p e hp he
  exact Ev.bind (NoErrorFrom.isPre n) hnew fun q => Ev.bind (NoErrorFrom.isPre n) (hreg q) fun _ =>
    Ev.bind (NoErrorFrom.isPre n) (noErrorFrom_quiet (quiet_startRest error_deaf.toBlind (fun _ _ _ _ _ _ => ⟨rfl, rfl, rfl, rfl⟩) _ _ _))
      fun _ => Ev.pure (NoErrorFrom.isPre n) _

theorem noErrorFrom_recovered {n : Nat} {α : Type} (d : α) {m : TM α} (h : Ev (NoErrorFrom n) m) : Ev (NoErrorFrom n) (recovered d m) := by
  intro w
  unfold recovered
  have := h w
  split
  · rename_i heq; rw [heq] at this; exact this
  · rename_i w' heq; rw [heq] at this
    exact (NoErrorFrom.isPre n).trans this
      (noErrorFrom_quiet (quiet_bind (quiet_reading _) fun t => quiet_bind (quiet_sendAlert _ _ _) fun _ => quiet_pure _) w')

/-- **C43**: a service starts without an error, however it is started except by inheritance. -/
theorem C43_starts_without_error (w : World) (c : Ctx) (r : Option Request) (name ip : Bytes) (p : Nat) (e : BitVec 32)
    (hp : w.tctxs.length ≤ p) :
    (errorAt (perform w (.startService c name ip)) p = some e → e = 0) ∧
    (errorAt (perform w (.startHttpService c r)) p = some e → e = 0) ∧
    (errorAt (perform w (.goWithTrace c name)) p = some e → e = 0) := by
  have P := NoErrorFrom.isPre w.tctxs.length
  have h0 : ∀ p e, w.tctxs.length ≤ p → errorAt w p = some e → e = 0 := by
    intro p e hp he
    unfold errorAt at he
    rw [List.getElem?_eq_none hp] at he
    simp at he
  have hc := error_deaf.toBlind
  have dr : ∀ {δ : Type} {m : TM δ}, Ev (NoErrorFrom w.tctxs.length) m → Ev (NoErrorFrom w.tctxs.length) (m >>= fun _ => pure ()) :=
    fun h => Ev.bind P h fun _ => Ev.pure P ()
  refine ⟨fun he => ?_, fun he => ?_, fun he => ?_⟩
  · have : Ev (NoErrorFrom w.tctxs.length) (Call.startService c name ip).code := by
      refine dr (Ev.bind P (Ev.get P) fun v => ?_)
      split
      · exact Ev.pure P _
      · exact noErrorFrom_recovered _ (Ev.bind P (noErrorFrom_startService _ _ _) fun q =>
          Ev.bind P (noErrorFrom_quiet (quiet_modT _ _ fun t => rfl)) fun _ => Ev.pure P _)
    exact this w h0 p e hp he
  · have : Ev (NoErrorFrom w.tctxs.length) (Call.startHttpService c r).code := by
      refine dr ?_
      unfold Trace.startHttpService
      refine Ev.ite (Ev.pure P _) (Ev.bind P (Ev.get P) fun v => ?_)
      split
      · exact Ev.pure P _
      · refine Ev.bind P (noErrorFrom_recovered _ ?_) fun x => ?_
        · cases r with
          | none => exact Ev.panic P
          | some r => exact Ev.bind P (noErrorFrom_startService _ _ _) fun q => Ev.pure P _
        · split
          · exact noErrorFrom_recovered _ (Ev.bind P (noErrorFrom_quiet (quiet_startHttpRest hc (fun _ _ _ _ _ _ => ⟨rfl, rfl, rfl, rfl⟩) _ _)) fun _ => Ev.pure P _)
          · exact Ev.pure P _
    exact this w h0 p e hp he
  · have : Ev (NoErrorFrom w.tctxs.length) (Call.goWithTrace c name).code := by
      refine dr (noErrorFrom_recovered _ (Ev.bind P ?_ fun _ => Ev.pure P _))
      have wt : ∀ (f : Nat → TM Ctx), (∀ q, Ev (NoErrorFrom w.tctxs.length) (f q)) → Ev (NoErrorFrom w.tctxs.length) (withTrace c c f) := by
        intro f hf
        unfold withTrace
        refine Ev.bind P (Ev.get P) fun v => ?_
        split
        · exact hf _
        · exact Ev.pure P _
      refine wt _ fun q => Ev.bind P (noErrorFrom_quiet (quiet_getT _)) fun _ => Ev.bind P (noErrorFrom_startService _ _ _) fun x => ?_
      refine noErrorFrom_quiet (quiet_bind (quiet_getT _) fun parent => quiet_bind (quiet_modT _ _ fun t => rfl) fun _ => ?_)
      have hj : Ev (Quiet (fun t : Tctx => t.error)) (do
          let child ← getT x
          let now ← millisToNow parent.startTime
          let h ← Trace.sendText .apicall name
          addNew q now (.async child.txid h 0)
          return Ctx.traced x) :=
        quiet_bind (quiet_getT _) fun child => quiet_bind (quiet_millisToNow _) fun now =>
          quiet_bind (quiet_sendText _ _) fun h => quiet_bind (quiet_addNew hc _ _ _) fun _ => quiet_pure _
      exact quiet_ite (quiet_bind (quiet_modT _ _ fun t => rfl) fun _ => quiet_bind (quiet_modT _ _ fun t => rfl) fun _ => hj) hj
    exact this w h0 p e hp he

/-! ## Concrete cases -/

/-- Two errors, then a failed api call, then a forced error. -/
def Demo.errorCalls : List Call :=
  [.startService .plain (ascii "a") [], .markAsError (.traced 0) (ascii "first"), .markAsError (.traced 0) (ascii "second"),
   .startApiCall (.traced 0) (ascii "api") [], .endApiCall (.traced 0) (some 3) (some (ascii "third"))]

example : errorAt (history (start Demo.env Demo.conf 100) Demo.errorCalls) 0 = some (hash (ascii "first")) := by decide +kernel
example : errorAt (history (start Demo.env Demo.conf 100) (Demo.errorCalls ++ [.markAsErrorForcibly (.traced 0) (ascii "forced")])) 0 =
    some (hash (ascii "forced")) := by decide +kernel
example : StepsExist (start Demo.env Demo.conf 100) Demo.errorCalls := by
  refine ⟨trivial, trivial, trivial, trivial, ?_, trivial⟩
  intro i hi; cases hi; decide +kernel
/-- The services are counted, with stuck ones removed, and this one is not among them. -/
example (o : MapOrder (BitVec 64 × Nat)) : NeverRemoved 0 (history (start Demo.env Demo.conf 100) Demo.errorCalls)
    [.activeCount o, .markAsError (.traced 0) (ascii "late")] := by
  refine ⟨fun _ _ => .inr fun t ht => ?_, ⟨fun _ h => (by cases h), trivial⟩⟩
  generalize hw : history (start Demo.env Demo.conf 100) Demo.errorCalls = w at *
  have h : (w.tctxs[0]?).all (fun t => decide ((w.env.clock w.tick - t.startTime).tdiv 1000000 ≤ w.conf.stuckBase)) = true := by
    rw [← hw]; decide +kernel
  rw [ht] at h
  simpa using h
example : stuckError ≠ 0 := by decide +kernel

end Scouter
