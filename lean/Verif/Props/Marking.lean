import Verif.Spec.Marking
import Batteries.Data.List.Perm
/-!
# C96: errors marked and api calls ended by several goroutines on one service
-/
namespace Scouter
namespace Marking

theorem run_cons (s : State) (i : Nat) (is : List Nat) : s.run (i :: is) = (s.fire i).run is := rfl

theorem run_append (s : State) (is js : List Nat) : s.run (is ++ js) = (s.run is).run js := by
  unfold State.run; rw [List.foldl_append]

/-- What holds of what is shared and of every goroutine, kept by every step of every goroutine, holds after every schedule. -/
theorem run_inv {P : Shared → Prop} {Q : Shared → Gor → Prop}
    (hstep : ∀ s g, P s → Q s g → P (g.step s).1 ∧ Q (g.step s).1 (g.step s).2)
    (hother : ∀ s g g', P s → Q s g → Q s g' → Q (g.step s).1 g') :
    ∀ (is : List Nat) (s : State), P s.shared → (∀ g ∈ s.gors, Q s.shared g) →
      P (s.run is).shared ∧ ∀ g ∈ (s.run is).gors, Q (s.run is).shared g := by
  intro is
  induction is with
  | nil => intro s hp hq; exact ⟨hp, hq⟩
  | cons i is ih =>
    intro s hp hq
    rw [run_cons]
    cases hg : s.gors[i]? with
    | none =>
      have : s.fire i = s := by unfold State.fire; rw [hg]
      rw [this]; exact ih s hp hq
    | some g =>
      have hgm := hq g (List.mem_of_getElem? hg)
      have e : s.fire i = ⟨(g.step s.shared).1, s.gors.set i (g.step s.shared).2⟩ := by unfold State.fire; rw [hg]
      rw [e]
      refine ih _ (hstep _ _ hp hgm).1 ?_
      intro g' hg'
      rcases List.mem_or_eq_of_mem_set hg' with h | rfl
      · exact hother _ _ _ hp hgm (hq g' h)
      · exact (hstep _ _ hp hgm).2

/-! ## Goroutines and their calls -/

/-- A goroutine inside a call has a rest of that call's code before it. -/
def Gor.Sound (g : Gor) : Prop := match g.call with
  | none => g.code = []
  | some c => g.code ≠ [] ∧ g.code <:+ c.code

theorem code_ne (c : Call) : c.code ≠ [] := by
  cases c with
  | endApi e err => cases err <;> simp [Call.code]
  | _ => simp [Call.code]

theorem Gor.Sound.step {s : Shared} {g : Gor} (h : g.Sound) : (g.step s).2.Sound := by
  unfold Gor.step
  split
  · split
    · exact h
    · exact ⟨code_ne _, List.suffix_refl _⟩
  · rename_i i code hc
    rcases exec s g.regs i with ⟨s', r, goOn⟩
    simp only
    split
    · rename_i hgo
      unfold Gor.Sound at h ⊢
      cases hcall : g.call with
      | none => rw [hcall] at h; rw [h] at hc; cases hc
      | some c =>
        rw [hcall, hc] at h
        simp only [hcall]
        exact ⟨by simpa using (Bool.and_eq_true_iff.1 hgo).2, (List.suffix_cons i code).trans h.2⟩
    · rfl

theorem start_sound (sh : Shared) (todos : List (List Call)) : ∀ g ∈ (State.start sh todos).gors, g.Sound := by
  intro g hg
  obtain ⟨t, -, rfl⟩ := List.mem_map.1 hg
  rfl

/-! ## Errors -/

/-- The error a goroutine will write without looking again. -/
def pending : List Instr → Option (BitVec 32)
  | [] => none
  | .testError :: _ => none
  | .writeError h :: _ => some h
  | _ :: code => pending code

theorem pending_cons (i : Instr) (code : List Instr) (hi : i ≠ .testError) (hw : ∀ h, i ≠ .writeError h) : pending (i :: code) = pending code := by
  cases i <;> first | rfl | exact absurd rfl hi | exact absurd rfl (hw _)

/-- After a test nothing but the write. -/
theorem after_write (c : Call) (h : BitVec 32) (code : List Instr) (hs : (.writeError h :: code) <:+ c.code) : code = [] := by
  obtain ⟨pre, e⟩ := hs
  cases c with
  | mark h' =>
    simp only [Call.code] at e
    rcases pre with _ | ⟨a, _ | ⟨b, pre⟩⟩ <;> simp_all
  | force h' =>
    simp only [Call.code] at e
    rcases pre with _ | ⟨a, pre⟩ <;> simp_all
  | endApi el err =>
    cases err with
    | none =>
      have := congrArg (fun l => Instr.writeError h ∈ l) e
      simp [Call.code] at this
    | some h' =>
      simp only [Call.code] at e
      have hl := congrArg List.length e
      rcases pre with _ | ⟨a, _ | ⟨b, _ | ⟨c, _ | ⟨d, _ | ⟨f, _ | ⟨k, pre⟩⟩⟩⟩⟩⟩ <;> simp_all
  | finish a b =>
    have := congrArg (fun l => Instr.writeError h ∈ l) e
    simp [Call.code] at this

/-- The errors a call can write are those it reports. -/
theorem writes_reported (c : Call) (h : BitVec 32) (hm : Instr.writeError h ∈ c.code) : c.error = some h := by
  cases c with
  | endApi e err => cases err <;> simp_all [Call.code, Call.error]
  | _ => simp_all [Call.code, Call.error]

theorem pending_mem {code : List Instr} {h : BitVec 32} (hp : pending code = some h) : Instr.writeError h ∈ code := by
  induction code with
  | nil => cases hp
  | cons i code ih =>
    cases i with
    | testError => cases hp
    | writeError h' => simp only [pending, Option.some.injEq] at hp; rw [hp]; exact List.mem_cons_self
    | _ => exact List.mem_cons_of_mem _ (ih hp)

/-- Only a forced error is written without a test. -/
theorem pending_code (c : Call) : pending c.code = match c with | .force h => some h | _ => none := by
  cases c with
  | endApi e err => cases err <;> rfl
  | _ => rfl

theorem exec_error {s : Shared} {r : Regs} {i : Instr} (hw : ∀ h, i ≠ .writeError h) : (exec s r i).1.error = s.error := by
  cases i <;> first | rfl | exact absurd rfl (hw _)

theorem step_error (s : Shared) (g : Gor) : (g.step s).1.error = match g.code with | .writeError h :: _ => h | _ => s.error := by
  unfold Gor.step
  split
  · rename_i hc
    rw [hc]
    split <;> rfl
  · rename_i i code hc
    rw [hc]
    have e : (exec s g.regs i).1.error = (match i :: code with | .writeError h :: _ => h | _ => s.error) := by
      cases i <;> rfl
    rw [← e]
    rcases exec s g.regs i with ⟨s', r, goOn⟩
    simp only
    split
    · rfl
    · rfl

/-- What a goroutine will write unasked is among `A`, now and in the calls it will make. -/
def Tame (A : BitVec 32 → Prop) (g : Gor) : Prop := (∀ h, pending g.code = some h → A h) ∧ ∀ h, Call.force h ∈ g.todo → A h

theorem Gor.Sound.after_write {g : Gor} (h : g.Sound) {x : BitVec 32} {code : List Instr} (hc : g.code = .writeError x :: code) : code = [] := by
  unfold Gor.Sound at h
  cases hcall : g.call with
  | none => rw [hcall] at h; rw [h] at hc; cases hc
  | some c => rw [hcall, hc] at h; exact Marking.after_write c x code h.2

theorem Tame.step {A : BitVec 32 → Prop} {s : Shared} {g : Gor} (he : s.error ≠ 0) (hs : g.Sound) (h : Tame A g) : Tame A (g.step s).2 := by
  unfold Gor.step
  split
  · split
    · exact h
    · rename_i c todo ht
      refine ⟨?_, fun h' hm => h.2 h' (by rw [ht]; exact List.mem_cons_of_mem _ hm)⟩
      intro h' hp
      rw [pending_code] at hp
      cases c with
      | force x => simp only [Option.some.injEq] at hp; exact h.2 h' (by rw [ht, hp]; exact List.mem_cons_self)
      | _ => cases hp
  · rename_i i code hc
    rcases hex : exec s g.regs i with ⟨s', r, goOn⟩
    simp only
    split
    · rename_i hgo
      refine ⟨?_, h.2⟩
      intro h' hp
      cases i with
      | testError =>
        simp only [exec, Prod.mk.injEq] at hex
        rw [← hex.2.2] at hgo
        simp at hgo
        exact absurd hgo.1 he
      | writeError x => rw [hs.after_write hc] at hgo; simp at hgo
      | _ => exact h.1 h' (by rw [hc]; exact hp)
    · exact ⟨fun h' hp => by simp [leave, pending] at hp, h.2⟩

theorem pending_of_code {code : List Instr} {h : BitVec 32} {rest : List Instr} (hc : code = .writeError h :: rest) : pending code = some h := by
  rw [hc]; rfl

/-- While there is an error, it is kept or replaced by one of `A`. -/
theorem stays {A : BitVec 32 → Prop} (hA : ¬ A 0) (e : BitVec 32) (he : e ≠ 0) (is : List Nat) (s : State) (hs : ∀ g ∈ s.gors, g.Sound)
    (ht : ∀ g ∈ s.gors, Tame A g) (h0 : s.shared.error = e ∨ A s.shared.error) :
    ((s.run is).shared.error = e ∨ A (s.run is).shared.error) ∧ ∀ g ∈ (s.run is).gors, g.Sound ∧ Tame A g := by
  have nz : ∀ x : BitVec 32, (x = e ∨ A x) → x ≠ 0 := by
    rintro x (rfl | h) h0
    · exact he h0
    · exact hA (h0 ▸ h)
  refine run_inv (P := fun sh => sh.error = e ∨ A sh.error) (Q := fun _ g => g.Sound ∧ Tame A g) ?_ ?_ is s h0 (fun g hg => ⟨hs g hg, ht g hg⟩)
  · intro sh g hp ⟨h1, h2⟩
    refine ⟨?_, h1.step, h2.step (nz _ hp) h1⟩
    rw [step_error]
    split
    · rename_i x rest hc
      exact Or.inr (h2.1 x (pending_of_code hc))
    · exact hp
  · intro sh g g' _ _ h; exact h

/-- A goroutine inside a call writes an error that the call reports. -/
theorem Gor.Sound.reports {g : Gor} (h : g.Sound) {x : BitVec 32} (hm : Instr.writeError x ∈ g.code) : ∃ c, g.call = some c ∧ c.error = some x := by
  unfold Gor.Sound at h
  cases hcall : g.call with
  | none => rw [hcall] at h; rw [h] at hm; cases hm
  | some c => rw [hcall] at h; exact ⟨c, rfl, writes_reported c x (h.2.mem hm)⟩

/-- The states that goroutines starting on a trace context can get to. -/
def Reached (s : State) : Prop := ∃ sh todos is, s = (State.start sh todos).run is

theorem Reached.sound {s : State} (h : Reached s) : ∀ g ∈ s.gors, g.Sound := by
  obtain ⟨sh, todos, is, rfl⟩ := h
  exact (run_inv (P := fun _ => True) (Q := fun _ g => g.Sound) (fun _ _ _ h => ⟨trivial, h.step⟩) (fun _ _ _ _ _ h => h) is _ trivial
    (start_sound sh todos)).2

theorem Reached.run {s : State} (h : Reached s) (is : List Nat) : Reached (s.run is) := by
  obtain ⟨sh, todos, js, rfl⟩ := h
  exact ⟨sh, todos, js ++ is, (run_append _ _ _).symm⟩

theorem Reached.tame {s : State} (h : Reached s) :
    ∀ g ∈ s.gors, Tame (fun x => (∃ c ∈ s.inside, c.error = some x) ∨ Call.force x ∈ s.ahead) g := by
  intro g hg
  refine ⟨fun x hp => ?_, fun x hm => Or.inr (List.mem_flatMap.2 ⟨g, hg, hm⟩)⟩
  obtain ⟨c, hc, he⟩ := (h.sound g hg).reports (pending_mem hp)
  exact Or.inl ⟨c, List.mem_filterMap.2 ⟨g, hg, hc⟩, he⟩

/-- **C96**: once a service has an error, it keeps that error, whatever any number of goroutines do and in whatever order, unless the error is
replaced forcibly or by a call that was already under way: an error reported by a call begun later never replaces it. -/
theorem C96_first_error_stays (s : State) (hr : Reached s) (he : s.shared.error ≠ 0) (hi : ∀ c ∈ s.inside, c.error ≠ some 0)
    (hf : Call.force 0 ∉ s.ahead) (is : List Nat) :
    (s.run is).shared.error ≠ 0 ∧ ((s.run is).shared.error = s.shared.error ∨ (∃ c ∈ s.inside, c.error = some (s.run is).shared.error) ∨
      Call.force (s.run is).shared.error ∈ s.ahead) := by
  have hA : ¬ ((∃ c ∈ s.inside, c.error = some (0 : BitVec 32)) ∨ Call.force 0 ∈ s.ahead) := by
    rintro (⟨c, hc, h⟩ | h)
    · exact hi c hc h
    · exact hf h
  have h := (stays hA _ he is s hr.sound hr.tame (Or.inl rfl)).1
  refine ⟨?_, h⟩
  intro h0
  rw [h0] at h
  rcases h with h | h
  · exact he h.symm
  · exact hA h

/-! ## No error is forgotten -/

/-- Every error in the calls is that of a non-empty text. -/
def NonZero (g : Gor) : Prop := (∀ h, Instr.writeError h ∈ g.code → h ≠ 0) ∧ ∀ c ∈ g.todo, c.error ≠ some 0

theorem NonZero.step {s : Shared} {g : Gor} (h : NonZero g) : NonZero (g.step s).2 := by
  unfold Gor.step
  split
  · split
    · exact h
    · rename_i c todo ht
      refine ⟨fun x hm h0 => ?_, fun c' hc' => h.2 c' (by rw [ht]; exact List.mem_cons_of_mem _ hc')⟩
      exact h.2 c (by rw [ht]; exact List.mem_cons_self) (by rw [writes_reported c x hm, h0])
  · rename_i i code hc
    rcases exec s g.regs i with ⟨s', r, goOn⟩
    simp only
    split
    · exact ⟨fun x hm => h.1 x (by rw [hc]; exact List.mem_cons_of_mem _ hm), h.2⟩
    · exact ⟨fun x hm => by simp [leave] at hm, h.2⟩

/-- Where a call reporting an error is when it returns: it has just written it, or has just seen another. -/
theorem last_step (c : Call) (hc : c.error.isSome) (i : Instr) (h : [i] <:+ c.code) : ∃ x, i = .writeError x := by
  obtain ⟨pre, e⟩ := h
  have hl : (pre ++ [i]).getLast? = some i := by simp
  rw [e] at hl
  cases c with
  | mark h => exact ⟨h, by simpa [Call.code] using hl.symm⟩
  | force h => exact ⟨h, by simpa [Call.code] using hl.symm⟩
  | endApi el err => cases err with
    | none => simp [Call.error] at hc
    | some h => exact ⟨h, by simpa [Call.code] using hl.symm⟩
  | finish a b => simp [Call.error] at hc

theorem goes_on (s : Shared) (r : Regs) (i : Instr) (h : (exec s r i).2.2 = false) : i = .testError ∧ s.error ≠ 0 := by
  cases i <;> simp_all [exec]

theorem exec_done (s : Shared) (r : Regs) (i : Instr) : (exec s r i).1.done = s.done := by cases i <;> rfl

/-- One step: if the errors are those of non-empty texts, an error does not go away, and a returning call that reports one leaves one. -/
theorem kept_step {s : Shared} {g : Gor} (hs : g.Sound) (hn : NonZero g) (h : ∀ c ∈ s.done, c.error.isSome → s.error ≠ 0) :
    ∀ c ∈ (g.step s).1.done, c.error.isSome → (g.step s).1.error ≠ 0 := by
  have keeps : s.error ≠ 0 → (g.step s).1.error ≠ 0 := by
    intro he
    rw [step_error]
    split
    · rename_i x rest hc
      exact hn.1 x (by rw [hc]; exact List.mem_cons_self)
    · exact he
  intro c hc hi
  by_cases hd : c ∈ s.done
  · exact keeps (h c hd hi)
  · rw [step_error]
    unfold Gor.step at hc
    split at hc
    · split at hc <;> exact absurd hc hd
    · rename_i i code hcode
      rcases hex : exec s g.regs i with ⟨s', r, goOn⟩
      have hdone : s'.done = s.done := by have := exec_done s g.regs i; rw [hex] at this; exact this
      rw [hex] at hc
      simp only at hc
      split at hc
      · exact absurd (hdone ▸ hc) hd
      · rename_i hstop
        simp only [leave, hdone, List.mem_append, Option.mem_toList] at hc
        rcases hc with hc | hc
        · exact absurd hc hd
        · unfold Gor.Sound at hs
          rw [hc, hcode] at hs
          cases goOn with
          | false =>
            obtain ⟨h1, h2⟩ := goes_on s g.regs i (by rw [hex])
            subst h1
            rw [hcode]; exact h2
          | true =>
            have : code = [] := by simpa using hstop
            subst this
            obtain ⟨x, rfl⟩ := last_step c hi i hs.2
            rw [hcode]
            exact hn.1 x (by rw [hcode]; exact List.mem_cons_self)

/-- **C96**: no error is forgotten: as soon as one call reporting an error has returned, the service has an error, and has one ever after, under
every schedule - provided no error text is empty. -/
theorem C96_errors_not_forgotten (sh : Shared) (todos : List (List Call)) (hd : sh.done = []) (hn : ∀ t ∈ todos, ∀ c ∈ t, c.error ≠ some 0) (is : List Nat)
    (c : Call) (hc : c ∈ ((State.start sh todos).run is).shared.done) (hi : c.error.isSome) :
    ((State.start sh todos).run is).shared.error ≠ 0 := by
  refine (run_inv (P := fun sh => ∀ c ∈ sh.done, c.error.isSome → sh.error ≠ 0) (Q := fun _ g => g.Sound ∧ NonZero g) ?_ ?_ is
    (State.start sh todos) ?_ ?_).1 c hc hi
  · intro s g hp ⟨h1, h2⟩; exact ⟨kept_step h1 h2 hp, h1.step, h2.step⟩
  · intro _ _ _ _ _ h; exact h
  · intro c hc; rw [show (State.start sh todos).shared = sh from rfl, hd] at hc; cases hc
  · intro g hg
    refine ⟨start_sound _ _ g hg, ?_⟩
    obtain ⟨t, ht, rfl⟩ := List.mem_map.1 hg
    exact ⟨fun h hm => (by cases hm), hn t ht⟩

/-- **C96**: the error of a service is always the one it began with or one reported by a call. -/
theorem C96_error_was_reported (sh : Shared) (todos : List (List Call)) (is : List Nat) :
    ((State.start sh todos).run is).shared.error = sh.error ∨
      ∃ t ∈ todos, ∃ c ∈ t, c.error = some ((State.start sh todos).run is).shared.error := by
  let A : BitVec 32 → Prop := fun x => x = sh.error ∨ ∃ t ∈ todos, ∃ c ∈ t, c.error = some x
  refine (run_inv (P := fun s => A s.error) (Q := fun _ g => (∀ x, Instr.writeError x ∈ g.code → A x) ∧ ∀ c ∈ g.todo, ∀ x, c.error = some x → A x)
    ?_ ?_ is (State.start sh todos) (Or.inl rfl) ?_).1
  · intro s g hp ⟨h1, h2⟩
    refine ⟨?_, ?_, ?_⟩
    · rw [step_error]
      split
      · rename_i x rest hc; exact h1 x (by rw [hc]; exact List.mem_cons_self)
      · exact hp
    · intro x hm
      unfold Gor.step at hm
      split at hm
      · split at hm
        · exact h1 x hm
        · rename_i c todo ht; exact h2 c (by rw [ht]; exact List.mem_cons_self) x (writes_reported c x hm)
      · rename_i i code hc
        rcases exec s g.regs i with ⟨s', r, goOn⟩
        simp only at hm
        split at hm
        · exact h1 x (by rw [hc]; exact List.mem_cons_of_mem _ hm)
        · simp [leave] at hm
    · intro c hm
      unfold Gor.step at hm
      split at hm
      · split at hm
        · exact h2 c hm
        · rename_i c' todo ht; exact h2 c (by rw [ht]; exact List.mem_cons_of_mem _ hm)
      · rename_i i code hc
        rcases exec s g.regs i with ⟨s', r, goOn⟩
        simp only at hm
        split at hm <;> exact h2 c hm
  · intro _ _ _ _ _ h; exact h
  · intro g hg
    obtain ⟨t, ht, rfl⟩ := List.mem_map.1 hg
    exact ⟨fun x hm => (by cases hm), fun c hc x hx => Or.inr ⟨t, ht, c, hc, hx⟩⟩

/-! ## A failed service is not dropped -/

/-- Whether an instruction ends the making of a log. -/
def Instr.completes : Instr → Bool
  | .copyTime _ _ => true
  | _ => false

/-- What a goroutine ending the service has read of the error so far is not 0. -/
def Aware (g : Gor) : Prop := (∃ i ∈ g.code, i.completes = true) →
  (Instr.firstError ∉ g.code → g.regs.first ≠ 0) ∧ (Instr.secondError ∉ g.code → g.regs.second ≠ 0) ∧ (Instr.thirdError ∉ g.code → g.regs.third ≠ 0)

theorem exec_regs (s : Shared) (r : Regs) (i : Instr) :
    (exec s r i).2.1.first = (if i = .firstError then s.error else r.first) ∧
    (exec s r i).2.1.second = (if i = .secondError then s.error else r.second) ∧
    (exec s r i).2.1.third = (if i = .thirdError then s.error else r.third) := by
  cases i <;> exact ⟨rfl, rfl, rfl⟩

theorem Aware.step {s : Shared} {g : Gor} (he : s.error ≠ 0) (h : Aware g) : Aware (g.step s).2 := by
  unfold Gor.step
  split
  · split
    · exact h
    · rename_i c todo ht
      rintro ⟨i, hm, hi⟩
      cases c with
      | finish a b => simp [Call.code]
      | endApi e err => cases err <;> simp_all [Call.code] <;> (rcases hm with rfl | rfl | rfl | rfl | rfl | rfl <;> simp_all [Instr.completes])
      | mark x => simp [Call.code] at hm; rcases hm with rfl | rfl <;> simp [Instr.completes] at hi
      | force x => simp [Call.code] at hm; rw [hm] at hi; simp [Instr.completes] at hi
  · rename_i i code hc
    have hr := exec_regs s g.regs i
    rcases hex : exec s g.regs i with ⟨s', r, goOn⟩
    rw [hex] at hr
    obtain ⟨h1, h2, h3⟩ := hr
    simp only
    split
    · rintro ⟨j, hm, hj⟩
      obtain ⟨a1, a2, a3⟩ := h ⟨j, by rw [hc]; exact List.mem_cons_of_mem _ hm, hj⟩
      rw [hc] at a1 a2 a3
      refine ⟨fun hn => ?_, fun hn => ?_, fun hn => ?_⟩
      · show r.first ≠ 0
        rw [h1]; split
        · exact he
        · rename_i hne; exact a1 (by simp only [List.mem_cons, not_or]; exact ⟨Ne.symm hne, hn⟩)
      · show r.second ≠ 0
        rw [h2]; split
        · exact he
        · rename_i hne; exact a2 (by simp only [List.mem_cons, not_or]; exact ⟨Ne.symm hne, hn⟩)
      · show r.third ≠ 0
        rw [h3]; split
        · exact he
        · rename_i hne; exact a3 (by simp only [List.mem_cons, not_or]; exact ⟨Ne.symm hne, hn⟩)
    · rintro ⟨j, hm, -⟩; simp [leave] at hm

theorem after_copy (c : Call) (a : BitVec 8) (b : Bool) (code : List Instr) (hs : (.copyTime a b :: code) <:+ c.code) : code = [] := by
  obtain ⟨pre, e⟩ := hs
  cases c with
  | finish x y =>
    simp only [Call.code] at e
    rcases pre with _ | ⟨a, _ | ⟨b, _ | ⟨c, _ | ⟨d, _ | ⟨f, pre⟩⟩⟩⟩⟩ <;> simp_all
  | endApi el err =>
    have := congrArg (fun l => Instr.copyTime a b ∈ l) e
    cases err <;> simp [Call.code] at this
  | _ =>
    have := congrArg (fun l => Instr.copyTime a b ∈ l) e
    simp [Call.code] at this

/-- What a step adds to the logs. -/
theorem step_logs (s : Shared) (g : Gor) : (g.step s).1.logs = s.logs ++
    match g.code with
    | .copyTime a b :: _ => [⟨decision a b g.regs.first g.regs.second, g.regs.third, g.regs.count, s.time⟩]
    | _ => [] := by
  unfold Gor.step
  split
  · rename_i hc
    rw [hc]
    split <;> simp
  · rename_i i code hc
    rw [hc]
    have e : (exec s g.regs i).1.logs = s.logs ++ (match i :: code with
      | .copyTime a b :: _ => [⟨decision a b g.regs.first g.regs.second, g.regs.third, g.regs.count, s.time⟩]
      | _ => []) := by
      cases i <;> simp [exec]
    rw [← e]
    rcases exec s g.regs i with ⟨s', r, goOn⟩
    simp only
    split <;> rfl

theorem decision_none {a : BitVec 8} {b : Bool} {x y : BitVec 32} (hx : x ≠ 0) (hy : y ≠ 0) : decision a b x y = discardNone := by
  unfold decision; rw [if_pos hx, if_pos hy]; cases b <;> rfl

/-- **C96**: a service that has an error when its end begins is not discarded, and its log has an error, whatever other goroutines report
meanwhile. -/
theorem C96_failed_service_is_logged (s : State) (hr : Reached s) (he : s.shared.error ≠ 0) (hi : ∀ c ∈ s.inside, c.error ≠ some 0)
    (hf : Call.force 0 ∉ s.ahead) (hfin : ∀ a b, Call.finish a b ∉ s.inside) (is : List Nat) :
    ∃ new, (s.run is).shared.logs = s.shared.logs ++ new ∧ ∀ l ∈ new, l.mode = discardNone ∧ l.error ≠ 0 := by
  let A : BitVec 32 → Prop := fun x => (∃ c ∈ s.inside, c.error = some x) ∨ Call.force x ∈ s.ahead
  have hA : ¬ A 0 := by
    rintro (⟨c, hc, h⟩ | h)
    · exact hi c hc h
    · exact hf h
  have nz : ∀ x : BitVec 32, (x = s.shared.error ∨ A x) → x ≠ 0 := by
    rintro x (rfl | h) h0
    · exact he h0
    · exact hA (h0 ▸ h)
  refine (run_inv (P := fun sh => (sh.error = s.shared.error ∨ A sh.error) ∧
      ∃ new, sh.logs = s.shared.logs ++ new ∧ ∀ l ∈ new, l.mode = discardNone ∧ l.error ≠ 0)
    (Q := fun _ g => g.Sound ∧ Tame A g ∧ Aware g) ?_ ?_ is s ⟨Or.inl rfl, [], by simp⟩ ?_).1.2
  · rintro sh g ⟨hp, new, hl, hn⟩ ⟨h1, h2, h3⟩
    refine ⟨⟨?_, ?_⟩, h1.step, h2.step (nz _ hp) h1, h3.step (nz _ hp)⟩
    · rw [step_error]
      split
      · rename_i x rest hc; exact Or.inr (h2.1 x (pending_of_code hc))
      · exact hp
    · rw [step_logs, hl]
      split
      · rename_i a b rest hc
        have hrest : rest = [] := by
          unfold Gor.Sound at h1
          cases hcall : g.call with
          | none => rw [hcall] at h1; rw [h1] at hc; cases hc
          | some c => rw [hcall, hc] at h1; exact after_copy c a b rest h1.2
        subst hrest
        have := h3 ⟨.copyTime a b, by rw [hc]; exact List.mem_cons_self, rfl⟩
        rw [hc] at this
        obtain ⟨a1, a2, a3⟩ := this
        refine ⟨new ++ [_], by rw [List.append_assoc], ?_⟩
        intro l hlm
        rcases List.mem_append.1 hlm with h | h
        · exact hn l h
        · rw [List.mem_singleton] at h
          subst h
          exact ⟨decision_none (a1 (by simp)) (a2 (by simp)), a3 (by simp)⟩
      · exact ⟨new, by simp, hn⟩
  · intro _ _ _ _ _ h; exact h
  · intro g hg
    refine ⟨hr.sound g hg, hr.tame g hg, ?_⟩
    rintro ⟨i, hm, hic⟩
    exfalso
    have h1 := hr.sound g hg
    unfold Gor.Sound at h1
    cases hcall : g.call with
    | none => rw [hcall] at h1; rw [h1] at hm; cases hm
    | some c =>
      rw [hcall] at h1
      have hmc := h1.2.mem hm
      cases i with
      | copyTime a b =>
        cases c with
        | finish x y => exact hfin x y (List.mem_filterMap.2 ⟨g, hg, hcall⟩)
        | endApi e err => cases err <;> simp [Call.code] at hmc
        | _ => simp [Call.code] at hmc
      | _ => simp [Instr.completes] at hic

/-! ## Api calls -/

/-- The api calls that have ended or are being ended, by their times. -/
def State.apiCalls (s : State) : List (BitVec 32) := (s.shared.done ++ s.inside).filterMap Call.elapsed

/-- Whether an instruction adds the time. -/
def Instr.addsTime : Instr → Bool
  | .writeTime _ => true
  | _ => false

/-- The times a goroutine has added in the call it is in. -/
def Gor.added (p : Instr → Bool) (g : Gor) : List (BitVec 32) :=
  if g.code.any p then [] else (g.call.bind Call.elapsed).toList

/-- Whether an instruction adds one to the count. -/
def Instr.addsOne : Instr → Bool
  | .writeCount => true
  | _ => false

/-- The rests of a call's code. -/
theorem Gor.Sound.cases {g : Gor} (h : g.Sound) : g.code = [] ∧ g.call = none ∨ ∃ c n, g.call = some c ∧ g.code = c.code.drop n ∧ n < c.code.length := by
  unfold Gor.Sound at h
  cases hcall : g.call with
  | none => rw [hcall] at h; exact Or.inl ⟨h, rfl⟩
  | some c =>
    rw [hcall] at h
    refine Or.inr ⟨c, c.code.length - g.code.length, rfl, List.suffix_iff_eq_drop.1 h.2, ?_⟩
    have := h.2.length_le
    have := List.length_pos_iff.2 h.1
    omega

/-- What a step does to the ghosts. -/
theorem step_ghosts {s : Shared} {g : Gor} (h : g.Sound) : ∃ a n b, (g.step s).1.timed = s.timed ++ a ∧ (g.step s).1.counted = s.counted + n ∧
    (g.step s).1.done = s.done ++ b ∧ g.added Instr.addsTime ++ a = b.filterMap Call.elapsed ++ (g.step s).2.added Instr.addsTime ∧
    (g.added Instr.addsOne).length + n = (b.filterMap Call.elapsed).length + ((g.step s).2.added Instr.addsOne).length := by
  obtain ⟨call, code, regs, todo⟩ := g
  rcases h.cases with ⟨hc, hn⟩ | ⟨c, n, hcall, hcode, hlt⟩
  · simp only at hc hn
    subst hc hn
    cases todo with
    | nil => exact ⟨[], 0, [], by simp [Gor.step, Gor.added]⟩
    | cons c todo =>
      refine ⟨[], 0, [], ?_⟩
      cases c with
      | endApi e err => cases err <;> simp [Gor.step, Gor.added, Call.code, Instr.addsTime, Instr.addsOne]
      | _ => simp [Gor.step, Gor.added, Call.code, Call.elapsed]
  · simp only at hcall hcode
    subst hcall hcode
    cases c with
    | mark x =>
      simp only [Call.code, List.length_cons, List.length_nil] at hlt
      have : n = 0 ∨ n = 1 := by omega
      rcases this with rfl | rfl
      · by_cases he : s.error = 0#32
        · exact ⟨[], 0, [], by simp [Gor.step, Gor.added, Call.code, Call.elapsed, List.filterMap, exec, he]⟩
        · exact ⟨[], 0, [.mark x], by simp [Gor.step, Gor.added, Call.code, Call.elapsed, List.filterMap, exec, he, leave]⟩
      · exact ⟨[], 0, [.mark x], by simp [Gor.step, Gor.added, Call.code, Call.elapsed, List.filterMap, exec, leave]⟩
    | force x =>
      simp only [Call.code, List.length_cons, List.length_nil] at hlt
      have : n = 0 := by omega
      subst this
      exact ⟨[], 0, [.force x], by simp [Gor.step, Gor.added, Call.code, Call.elapsed, List.filterMap, exec, leave]⟩
    | finish x y =>
      simp only [Call.code, List.length_cons, List.length_nil] at hlt
      have : n = 0 ∨ n = 1 ∨ n = 2 ∨ n = 3 ∨ n = 4 := by omega
      rcases this with rfl | rfl | rfl | rfl | rfl
      · exact ⟨[], 0, [], by simp [Gor.step, Gor.added, Call.code, Call.elapsed, List.filterMap, exec]⟩
      · exact ⟨[], 0, [], by simp [Gor.step, Gor.added, Call.code, Call.elapsed, List.filterMap, exec]⟩
      · exact ⟨[], 0, [], by simp [Gor.step, Gor.added, Call.code, Call.elapsed, List.filterMap, exec]⟩
      · exact ⟨[], 0, [], by simp [Gor.step, Gor.added, Call.code, Call.elapsed, List.filterMap, exec]⟩
      · exact ⟨[], 0, [.finish x y], by simp [Gor.step, Gor.added, Call.code, Call.elapsed, List.filterMap, exec, leave]⟩
    | endApi e err =>
      cases err with
      | none =>
        simp only [Call.code, List.length_cons, List.length_nil] at hlt
        have : n = 0 ∨ n = 1 ∨ n = 2 ∨ n = 3 := by omega
        rcases this with rfl | rfl | rfl | rfl
        · exact ⟨[], 0, [], by simp [Gor.step, Gor.added, Call.code, Call.elapsed, List.filterMap, exec, Instr.addsTime, Instr.addsOne]⟩
        · exact ⟨[], 1, [], by simp [Gor.step, Gor.added, Call.code, Call.elapsed, List.filterMap, exec, Instr.addsTime, Instr.addsOne]⟩
        · exact ⟨[], 0, [], by simp [Gor.step, Gor.added, Call.code, Call.elapsed, List.filterMap, exec, Instr.addsTime, Instr.addsOne]⟩
        · exact ⟨[e], 0, [.endApi e none], by simp [Gor.step, Gor.added, Call.code, Call.elapsed, List.filterMap, exec, Instr.addsTime, Instr.addsOne, leave]⟩
      | some x =>
        simp only [Call.code, List.length_cons, List.length_nil] at hlt
        have : n = 0 ∨ n = 1 ∨ n = 2 ∨ n = 3 ∨ n = 4 ∨ n = 5 := by omega
        rcases this with rfl | rfl | rfl | rfl | rfl | rfl
        · exact ⟨[], 0, [], by simp [Gor.step, Gor.added, Call.code, Call.elapsed, List.filterMap, exec, Instr.addsTime, Instr.addsOne]⟩
        · exact ⟨[], 1, [], by simp [Gor.step, Gor.added, Call.code, Call.elapsed, List.filterMap, exec, Instr.addsTime, Instr.addsOne]⟩
        · exact ⟨[], 0, [], by simp [Gor.step, Gor.added, Call.code, Call.elapsed, List.filterMap, exec, Instr.addsTime, Instr.addsOne]⟩
        · exact ⟨[e], 0, [], by simp [Gor.step, Gor.added, Call.code, Call.elapsed, List.filterMap, exec, Instr.addsTime, Instr.addsOne]⟩
        · by_cases he : s.error = 0#32
          · exact ⟨[], 0, [], by simp [Gor.step, Gor.added, Call.code, Call.elapsed, List.filterMap, exec, he, Instr.addsTime, Instr.addsOne]⟩
          · exact ⟨[], 0, [.endApi e (some x)], by simp [Gor.step, Gor.added, Call.code, Call.elapsed, List.filterMap, exec, he, leave, Instr.addsTime, Instr.addsOne]⟩
        · exact ⟨[], 0, [.endApi e (some x)], by simp [Gor.step, Gor.added, Call.code, Call.elapsed, List.filterMap, exec, leave, Instr.addsTime, Instr.addsOne]⟩

/-- The ghosts tell which api calls have been added. -/
structure Ledger (s : State) : Prop where
  sound : ∀ g ∈ s.gors, g.Sound
  timed : s.shared.timed.Perm (s.shared.done.filterMap Call.elapsed ++ s.gors.flatMap (Gor.added Instr.addsTime))
  counted : s.shared.counted = (s.shared.done.filterMap Call.elapsed).length + (s.gors.flatMap (Gor.added Instr.addsOne)).length

theorem set_split {α : Type} {l : List α} {i : Nat} {a : α} (h : l[i]? = some a) (b : α) :
    ∃ l1 l2, l = l1 ++ a :: l2 ∧ l.set i b = l1 ++ b :: l2 := by
  obtain ⟨hlt, rfl⟩ := List.getElem?_eq_some_iff.1 h
  refine ⟨l.take i, l.drop (i + 1), ?_, ?_⟩
  · rw [List.getElem_cons_drop, List.take_append_drop]
  · rw [List.set_eq_take_append_cons_drop, if_pos hlt]

theorem Ledger.fire {s : State} (h : Ledger s) (i : Nat) : Ledger (s.fire i) := by
  cases hg : s.gors[i]? with
  | none => have : s.fire i = s := by unfold State.fire; rw [hg]
            rw [this]; exact h
  | some g =>
    have e : s.fire i = ⟨(g.step s.shared).1, s.gors.set i (g.step s.shared).2⟩ := by unfold State.fire; rw [hg]
    have hs := h.sound g (List.mem_of_getElem? hg)
    obtain ⟨l1, l2, h1, h2⟩ := set_split hg (g.step s.shared).2
    obtain ⟨a, n, b, g1, g2, g3, g4, g5⟩ := step_ghosts (s := s.shared) hs
    rw [e]
    refine ⟨?_, ?_, ?_⟩
    · intro g' hg'
      rcases List.mem_or_eq_of_mem_set hg' with hm | rfl
      · exact h.sound g' hm
      · exact hs.step
    · have ht := h.timed
      show (g.step s.shared).1.timed.Perm _
      simp only [g1, g3, h2, List.filterMap_append, List.flatMap_append, List.flatMap_cons]
      rw [h1] at ht
      simp only [List.flatMap_append, List.flatMap_cons] at ht
      refine (ht.append_right a).trans ?_
      refine List.perm_iff_count.2 fun x => ?_
      have := congrArg (List.count x) g4
      simp only [List.count_append] at this ⊢
      omega
    · have hc := h.counted
      show (g.step s.shared).1.counted = _
      simp only [g2, g3, h2, List.filterMap_append, List.flatMap_append, List.flatMap_cons, List.length_append]
      rw [h1] at hc
      simp only [List.flatMap_append, List.flatMap_cons, List.length_append] at hc
      omega

theorem Ledger.run {s : State} (h : Ledger s) (is : List Nat) : Ledger (s.run is) := by
  induction is generalizing s with
  | nil => exact h
  | cons i is ih => rw [run_cons]; exact ih (h.fire i)

theorem added_inside (p : Instr → Bool) (s : State) : (s.gors.flatMap (Gor.added p)).Sublist (s.inside.filterMap Call.elapsed) := by
  unfold State.inside
  generalize s.gors = gs
  induction gs with
  | nil => exact List.Sublist.refl _
  | cons g gs ih =>
    simp only [List.flatMap_cons]
    cases hc : g.call with
    | none =>
      simp only [List.filterMap_cons, hc]
      have : g.added p = [] := by unfold Gor.added; rw [hc]; split <;> rfl
      rw [this]; exact ih
    | some c =>
      simp only [List.filterMap_cons, hc]
      unfold Gor.added
      rw [hc]
      cases he : c.elapsed with
      | none => simp only [he, Option.bind_some, Option.toList_none, ite_self]; exact ih
      | some x =>
        simp only [he, Option.bind_some, Option.toList_some]
        split
        · exact ih.cons x
        · exact ih.cons_cons x

/-- What has been added so far, with the times of which. -/
structure Sums (c0 t0 : BitVec 32) (s : Shared) : Prop where
  count : ∃ n, n ≤ s.counted ∧ s.count = c0 + BitVec.ofNat 32 n ∧ (0 < s.counted → 0 < n)
  time : ∃ l : List (BitVec 32), l.Subperm s.timed ∧ s.time = t0 + l.sum ∧ (s.timed ≠ [] → l ≠ [])

/-- What a goroutine has read is what some of the calls added. -/
def Reader (c0 t0 : BitVec 32) (s : Shared) (g : Gor) : Prop :=
  g.Sound ∧
  ((∃ rest, g.code = .writeCount :: rest) → ∃ n, n ≤ s.counted ∧ g.regs.count = c0 + BitVec.ofNat 32 n) ∧
  ((∃ e rest, g.code = .writeTime e :: rest) → ∃ l : List (BitVec 32), l.Subperm s.timed ∧ g.regs.time = t0 + l.sum)

/-- How far the ghosts get in a step. -/
theorem step_grows (s : Shared) (g : Gor) : s.counted ≤ (g.step s).1.counted ∧ s.timed.Sublist (g.step s).1.timed := by
  unfold Gor.step
  split
  · split <;> exact ⟨Nat.le_refl _, List.Sublist.refl _⟩
  · rename_i i code hc
    have : s.counted ≤ (exec s g.regs i).1.counted ∧ s.timed.Sublist (exec s g.regs i).1.timed := by
      cases i <;> simp [exec]
    rcases hex : exec s g.regs i with ⟨s', r, goOn⟩
    rw [hex] at this
    simp only
    split <;> exact this

theorem Reader.other {c0 t0 : BitVec 32} {s : Shared} {g g' : Gor} (h : Reader c0 t0 s g') : Reader c0 t0 (g.step s).1 g' := by
  obtain ⟨h1, h2⟩ := step_grows s g
  refine ⟨h.1, fun hc => ?_, fun hc => ?_⟩
  · obtain ⟨n, hn, he⟩ := h.2.1 hc; exact ⟨n, Nat.le_trans hn h1, he⟩
  · obtain ⟨l, hl, he⟩ := h.2.2 hc; exact ⟨l, hl.trans h2.subperm, he⟩

theorem exec_sums (s : Shared) (r : Regs) (i : Instr) :
    ((exec s r i).1.count = s.count ∧ (exec s r i).1.counted = s.counted ∨
      i = .writeCount ∧ (exec s r i).1.count = r.count + 1 ∧ (exec s r i).1.counted = s.counted + 1) ∧
    ((exec s r i).1.time = s.time ∧ (exec s r i).1.timed = s.timed ∨
      ∃ e, i = .writeTime e ∧ (exec s r i).1.time = r.time + e ∧ (exec s r i).1.timed = s.timed ++ [e]) := by
  cases i <;> simp [exec]

/-- Before a write of the count or the time comes its read. -/
theorem read_first {g : Gor} (h : g.Sound) {i : Instr} {code : List Instr} (hc : g.code = i :: code) :
    ((∃ rest, code = .writeCount :: rest) → i = .readCount) ∧ ((∃ e rest, code = .writeTime e :: rest) → i = .readTime) := by
  rcases h.cases with ⟨hn, -⟩ | ⟨c, n, -, hcode, hlt⟩
  · rw [hn] at hc; cases hc
  · rw [hcode] at hc
    cases c with
    | mark x =>
      simp only [Call.code, List.length_cons, List.length_nil] at hlt
      have : n = 0 ∨ n = 1 := by omega
      rcases this with rfl | rfl <;> (simp [Call.code] at hc; obtain ⟨rfl, rfl⟩ := hc; simp)
    | force x =>
      simp only [Call.code, List.length_cons, List.length_nil] at hlt
      have : n = 0 := by omega
      subst this
      simp [Call.code] at hc; obtain ⟨rfl, rfl⟩ := hc; simp
    | finish x y =>
      simp only [Call.code, List.length_cons, List.length_nil] at hlt
      have : n = 0 ∨ n = 1 ∨ n = 2 ∨ n = 3 ∨ n = 4 := by omega
      rcases this with rfl | rfl | rfl | rfl | rfl <;> (simp [Call.code] at hc; obtain ⟨rfl, rfl⟩ := hc; simp)
    | endApi e err =>
      cases err with
      | none =>
        simp only [Call.code, List.length_cons, List.length_nil] at hlt
        have : n = 0 ∨ n = 1 ∨ n = 2 ∨ n = 3 := by omega
        rcases this with rfl | rfl | rfl | rfl <;> (simp [Call.code] at hc; obtain ⟨rfl, rfl⟩ := hc; simp)
      | some x =>
        simp only [Call.code, List.length_cons, List.length_nil] at hlt
        have : n = 0 ∨ n = 1 ∨ n = 2 ∨ n = 3 ∨ n = 4 ∨ n = 5 := by omega
        rcases this with rfl | rfl | rfl | rfl | rfl | rfl <;> (simp [Call.code] at hc; obtain ⟨rfl, rfl⟩ := hc; simp)

theorem sums_step {c0 t0 : BitVec 32} {s : Shared} {g : Gor} (h : Sums c0 t0 s) (hg : Reader c0 t0 s g) :
    Sums c0 t0 (g.step s).1 ∧ Reader c0 t0 (g.step s).1 (g.step s).2 := by
  obtain ⟨hs, hc, ht⟩ := hg
  have hs' := hs.step (s := s)
  unfold Gor.step at hs' ⊢
  split
  · rename_i hcode
    split
    · rename_i htd
      exact ⟨h, hs, hc, ht⟩
    · rename_i c todo htd
      refine ⟨h, ⟨code_ne _, List.suffix_refl _⟩, ?_, ?_⟩
      · rintro ⟨rest, he⟩
        cases c with
        | endApi e err => cases err <;> simp [Call.code] at he
        | _ => simp [Call.code] at he
      · rintro ⟨e, rest, he⟩
        cases c with
        | endApi e err => cases err <;> simp [Call.code] at he
        | _ => simp [Call.code] at he
  · rename_i i code hcode
    obtain ⟨e1, e2⟩ := exec_sums s g.regs i
    obtain ⟨r1, r2⟩ := read_first hs hcode
    simp only [hcode] at hs'
    have hS : Sums c0 t0 (exec s g.regs i).1 := by
      constructor
      · rcases e1 with ⟨a, b⟩ | ⟨rfl, a, b⟩
        · rw [a, b]; exact h.count
        · obtain ⟨n, hn, he⟩ := hc ⟨code, hcode⟩
          refine ⟨n + 1, by omega, ?_, fun _ => by omega⟩
          rw [a, he, BitVec.add_assoc]
          exact congrArg (c0 + ·) (BitVec.ofNat_add (n := 32) n 1).symm
      · rcases e2 with ⟨a, b⟩ | ⟨e, rfl, a, b⟩
        · rw [a, b]; exact h.time
        · obtain ⟨l, hl, he⟩ := ht ⟨e, code, hcode⟩
          refine ⟨l ++ [e], ?_, ?_, by simp⟩
          · rw [b]; exact (List.subperm_append_right [e]).2 hl
          · rw [a, he, List.sum_append, BitVec.add_assoc]; simp
    have hR : (i = .readCount → (exec s g.regs i).2.1.count = s.count ∧ (exec s g.regs i).1 = s) ∧
        (i = .readTime → (exec s g.regs i).2.1.time = s.time ∧ (exec s g.regs i).1 = s) := by
      constructor <;> (rintro rfl; exact ⟨rfl, rfl⟩)
    rcases hex : exec s g.regs i with ⟨s', r, goOn⟩
    rw [hex] at hS hR hs'
    simp only at hs' ⊢
    split
    · rename_i hgo
      rw [if_pos hgo] at hs'
      refine ⟨hS, hs', ?_, ?_⟩
      · intro hrest
        obtain ⟨a, b⟩ := hR.1 (r1 hrest)
        obtain ⟨n, hn, he, -⟩ := h.count
        exact ⟨n, by simp only at b; rw [b]; exact hn, by show r.count = _; simp only at a; rw [a]; exact he⟩
      · intro hrest
        obtain ⟨a, b⟩ := hR.2 (r2 hrest)
        obtain ⟨l, hl, he, -⟩ := h.time
        exact ⟨l, by simp only at b; rw [b]; exact hl, by show r.time = _; simp only at a; rw [a]; exact he⟩
    · refine ⟨⟨hS.count, hS.time⟩, rfl, ?_, ?_⟩
      · rintro ⟨rest, he⟩; simp [leave] at he
      · rintro ⟨e, rest, he⟩; simp [leave] at he

/-- **C96**: under every schedule, a service counts no api call that was not ended, and none twice; its time is the sum of the times of some of the
ended api calls, each at most once; and if any has been ended, at least one is counted and the time of at least one is in the sum.  (Both from
what they were before the goroutines began.) -/
theorem C96_api_calls_at_most_once (sh : Shared) (todos : List (List Call)) (hd : sh.done = []) (hc : sh.counted = 0) (ht : sh.timed = [])
    (is : List Nat) :
    let s := (State.start sh todos).run is
    ∃ (n : Nat) (l : List (BitVec 32)), s.shared.count = sh.count + BitVec.ofNat 32 n ∧ s.shared.time = sh.time + l.sum ∧
      n ≤ s.apiCalls.length ∧ l.Subperm s.apiCalls ∧ (s.shared.done.filterMap Call.elapsed ≠ [] → 0 < n ∧ l ≠ []) := by
  intro s
  have hl : Ledger s := by
    refine Ledger.run ⟨start_sound _ _, ?_, ?_⟩ is
    all_goals
      have hz : ∀ p, (State.start sh todos).gors.flatMap (Gor.added p) = [] := by
        intro p
        simp only [State.start, List.flatMap_eq_nil_iff, List.mem_map]
        rintro g ⟨t, -, rfl⟩; rfl
      rw [hz]; simp [State.start, hd, hc, ht]
  have hS := (run_inv (P := Sums sh.count sh.time) (Q := Reader sh.count sh.time) (fun s g hp hq => sums_step hp hq)
    (fun s g g' _ _ h => h.other) is (State.start sh todos)
    ⟨⟨0, by simp, by simp [State.start], by simp [State.start, hc]⟩, ⟨[], by simp, by simp [State.start], by simp [State.start, ht]⟩⟩ (by
      intro g hg
      refine ⟨start_sound _ _ g hg, ?_, ?_⟩ <;>
      · obtain ⟨t, -, rfl⟩ := List.mem_map.1 hg
        simp)).1
  obtain ⟨⟨n, hn, he, hn0⟩, ⟨l, hll, hle, hl0⟩⟩ := hS
  have hle' : s.shared.timed.Subperm s.apiCalls := by
    refine hl.timed.subperm.trans ?_
    unfold State.apiCalls
    rw [List.filterMap_append]
    exact (List.subperm_append_left _).2 (added_inside _ s).subperm
  refine ⟨n, l, he, hle, ?_, hll.trans hle', fun hne => ⟨hn0 ?_, hl0 ?_⟩⟩
  · refine Nat.le_trans hn ?_
    show s.shared.counted ≤ _
    rw [hl.counted]
    unfold State.apiCalls
    rw [List.filterMap_append, List.length_append]
    have := (added_inside Instr.addsOne s).length_le
    omega
  · show 0 < s.shared.counted
    rw [hl.counted]
    have := List.length_pos_iff.2 hne
    omega
  · intro h0
    have h0 : s.shared.timed = [] := h0
    have := hl.timed
    rw [h0] at this
    have := this.symm.eq_nil
    exact hne (List.append_eq_nil_iff.1 this).1

/-! ## Taking turns -/

/-- A call run to its end without interruption. -/
def runCode : List Instr → Shared → Regs → Shared
  | [], s, _ => s
  | i :: code, s, r => if (exec s r i).2.2 then runCode code (exec s r i).1 (exec s r i).2.1 else (exec s r i).1

/-- The account when the call goroutine `i` is in has run to its end. -/
def settle (s : State) (i : Nat) : Account :=
  match s.gors[i]? with
  | some g => (runCode g.code s.shared g.regs).account
  | none => s.shared.account

theorem settle_fire_inside {s : State} {i : Nat} {g : Gor} (hg : s.gors[i]? = some g) (hc : g.code ≠ []) :
    settle (s.fire i) i = settle s i := by
  have hi : i < s.gors.length := (List.getElem?_eq_some_iff.1 hg).1
  obtain ⟨call, code, r, todo⟩ := g
  cases code with
  | nil => exact absurd rfl hc
  | cons a code =>
    unfold settle State.fire
    simp only [hg, Gor.step]
    rw [List.getElem?_set_self hi]
    simp only [runCode]
    rcases exec s.shared r a with ⟨s', r', goOn⟩
    cases goOn with
    | false => rfl
    | true =>
      by_cases hn : code = []
      · subst hn; rfl
      · simp [hn]

theorem fire_other {s : State} {i j : Nat} (h : j ≠ i) : (s.fire i).gors[j]? = s.gors[j]? := by
  unfold State.fire
  split
  · rfl
  · simp [List.getElem?_set_ne (Ne.symm h)]

theorem run_call (c : Call) (s : Shared) (r : Regs) : (runCode c.code s r).account = s.account.after c := by
  cases c with
  | mark h => by_cases he : s.error = 0#32 <;> simp [runCode, Call.code, exec, Account.after, Shared.account, he]
  | force h => rfl
  | endApi e err =>
    cases err with
    | none => rfl
    | some h => by_cases he : s.error = 0#32 <;> simp [runCode, Call.code, exec, Account.after, Shared.account, he]
  | finish a b =>
    by_cases he : s.error = 0#32 <;> cases b <;> simp [runCode, Call.code, exec, Account.after, Shared.account, decision, he]

theorem turns_sim : ∀ (is : List Nat) (s : State) (a : Account) (b : Option Nat),
      (match b with | none => s.idle ∧ s.shared.account = a
                    | some i => (∀ j g, j ≠ i → s.gors[j]? = some g → g.code = []) ∧ settle s i = a) →
      Turns s is → (s.run is).idle →
      (s.run is).shared.account = (callsMade s is).foldl Account.after a := by
  have settled : ∀ (s : State) (i : Nat), s.idle → settle s i = s.shared.account := by
    intro s i h
    unfold settle
    split
    · rename_i g hg
      rw [h g (List.mem_of_getElem? hg)]; rfl
    · rfl
  intro is
  induction is with
  | nil =>
    intro s a b hb _ hidle
    cases b with
    | none => exact hb.2
    | some i =>
      obtain ⟨-, h2⟩ := hb
      have hidle : s.idle := hidle
      rw [settled s i hidle] at h2
      exact h2
  | cons i is ih =>
    intro s a b hb ht hidle
    have ht' : Turns (s.fire i) is := by
      intro pre j post he
      exact ht (i :: pre) j post (by rw [he]; rfl)
    have hothers : ∀ j g, j ≠ i → s.gors[j]? = some g → g.code = [] := ht [] i is rfl
    have hR : settle s i = a := by
      cases b with
      | none => rw [settled s i hb.1]; exact hb.2
      | some k =>
        by_cases hk : k = i
        · subst hk; exact hb.2
        · have hall : s.idle := by
            intro g hg
            obtain ⟨j, hj⟩ := List.mem_iff_getElem?.1 hg
            by_cases hji : j = i
            · exact hb.1 j g (by omega) hj
            · exact hothers j g hji hj
          have := hb.2
          rw [settled s k hall] at this
          rw [settled s i hall]; exact this
    rw [run_cons] at hidle ⊢
    simp only [callsMade, List.foldl_append]
    refine ih _ _ (some i) ⟨?_, ?_⟩ ht' hidle
    · intro j g hj hg
      rw [fire_other hj] at hg
      exact hothers j g hj hg
    · cases hg : s.gors[i]? with
      | none =>
        have : s.fire i = s := by unfold State.fire; rw [hg]
        rw [this]; exact hR
      | some g =>
        by_cases hc : g.code = []
        · have hi : i < s.gors.length := (List.getElem?_eq_some_iff.1 hg).1
          simp only [hc, if_true]
          have hs : settle s i = s.shared.account := by unfold settle; rw [hg]; simp only; rw [hc]; rfl
          rw [hs] at hR
          cases htd : g.todo with
          | nil =>
            have : settle (s.fire i) i = s.shared.account := by
              unfold settle State.fire
              simp only [hg, Gor.step, hc, htd]
              rw [List.getElem?_set_self hi]
              simp [hc, runCode]
            rw [this]; simpa using hR
          | cons op todo =>
            have : settle (s.fire i) i = (runCode op.code s.shared g.regs).account := by
              unfold settle State.fire
              simp only [hg, Gor.step, hc, htd]
              rw [List.getElem?_set_self hi]
            rw [this, run_call, hR]
            rfl
        · simp only [hc, if_false]
          rw [settle_fire_inside hg hc]
          exact hR

/-- **C96**: if the goroutines take turns (whenever one makes a step, no other is inside a call), error, api calls and logs are those of the calls made
one after the other in the order they began: the first error stays, every api call is counted with its time. -/
theorem C96_taking_turns (sh : Shared) (todos : List (List Call)) (is : List Nat) (ht : Turns (State.start sh todos) is)
    (hi : ((State.start sh todos).run is).idle) :
    ((State.start sh todos).run is).shared.account = (callsMade (State.start sh todos) is).foldl Account.after sh.account := by
  refine turns_sim is (State.start sh todos) _ none ⟨?_, rfl⟩ ht hi
  intro g hg
  obtain ⟨t, -, rfl⟩ := List.mem_map.1 hg
  rfl

/-- The decision is the one of the sequential model when both reads of the error agree. -/
theorem C96_decision (s : Sampler) (c : SampleConf) (draw : Nat) (error elapsed : BitVec 32) (name : Bytes) :
    decision (s.evaluate c draw elapsed name) (Sampler.isPattern c.discardPatterns s.discard name) error error = s.findDiscard c draw error elapsed name := by
  unfold decision Sampler.findDiscard
  by_cases he : error = 0#32 <;> simp [he]

/-! ## What can go wrong -/

namespace Demo

/-- Two goroutines with one call each on a new service. -/
def two (a b : Call) : State := State.start {} [[a], [b]]

end Demo

/-- **C96**, in general false: *the first error stays*.  An error marked and returned is replaced by that of a call that had looked before. -/
theorem C96_first_error_replaced (h h' : BitVec 32) (hn : h ≠ 0) : ∃ is js, let s := (Demo.two (.mark h) (.mark h')).run is
    s.shared.done = [.mark h] ∧ s.shared.error = h ∧ (s.run js).shared.error = h' ∧ (s.run js).idle := by
  refine ⟨[1, 1, 0, 0, 0], [1], ?_⟩
  simp [Demo.two, State.start, State.run, State.fire, Gor.step, Call.code, exec, leave, State.idle]

/-- **C96**, in general false: *an error is not forgotten*.  Marking an error with an empty text, harmless otherwise, can take away the error another
goroutine marks at the same time: the service is taken to have succeeded. -/
theorem C96_empty_text_takes_error_away (h : BitVec 32) (hn : h ≠ 0) : ∃ is, let s := (Demo.two (.mark h) (.mark 0)).run is
    s.shared.done = [.mark h, .mark 0] ∧ s.shared.error = 0 ∧ s.idle := by
  refine ⟨[1, 1, 0, 0, 0, 1], ?_⟩
  simp [Demo.two, State.start, State.run, State.fire, Gor.step, Call.code, exec, leave, State.idle]

/-- **C96**, in general false: *every api call is counted*. -/
theorem C96_api_call_lost (e e' : BitVec 32) : ∃ is, let s := (Demo.two (.endApi e none) (.endApi e' none)).run is
    s.shared.done = [.endApi e none, .endApi e' none] ∧ s.shared.count = 1 ∧ s.shared.time = e + e' ∧ s.idle := by
  refine ⟨[0, 0, 1, 1, 0, 1, 0, 0, 1, 1], ?_⟩
  simp [Demo.two, State.start, State.run, State.fire, Gor.step, Call.code, exec, leave, State.idle]

/-- **C96**, in general false: *a service with an error in its log was not discarded*.  An error marked while the service ends can get into a log that
is thrown away. -/
theorem C96_failed_while_ending (h : BitVec 32) (hn : h ≠ 0) : ∃ is, let s := (Demo.two (.mark h) (.finish discardAll false)).run is
    s.idle ∧ s.shared.logs = [⟨discardAll, h, 0, 0⟩] := by
  refine ⟨[1, 1, 1, 0, 0, 0, 1, 1, 1], ?_⟩
  simp [Demo.two, State.start, State.run, State.fire, Gor.step, Call.code, exec, leave, State.idle, decision]

/-! ## The hypotheses are met -/

namespace Demo

/-- Three goroutines: one marks an error, one ends two api calls (the second failed), one ends the service. -/
def busy : State := State.start {} [[.mark 7], [.endApi 10 none, .endApi 20 (some 9)], [.finish discardAll true]]

/-- The first has marked, the second is in its second api call about to write its error. -/
def amid : State := busy.run [1, 1, 1, 1, 1, 1, 1, 1, 1, 1, 1, 0, 0, 0]

end Demo

example : Demo.amid.shared.error = 7 ∧ Demo.amid.inside = [.endApi 20 (some 9)] ∧ Demo.amid.ahead = [.finish discardAll true] := by decide +kernel

/-- The hypotheses of `C96_first_error_stays` and `C96_failed_service_is_logged` are met, and the error is indeed replaced by the one under way. -/
example : Reached Demo.amid ∧ Demo.amid.shared.error ≠ 0 ∧ (∀ c ∈ Demo.amid.inside, c.error ≠ some 0) ∧ Call.force 0 ∉ Demo.amid.ahead ∧
    (Demo.amid.run [1, 2, 2, 2, 2, 2, 2]).shared.logs = [⟨discardNone, 9, 2, 30⟩] :=
  ⟨⟨_, _, _, rfl⟩, by decide +kernel, by decide +kernel, by decide +kernel, by decide +kernel⟩

/-- Goroutines taking turns. -/
example : Turns Demo.busy [0, 0, 0, 1, 1, 1, 1, 1, 2, 2, 2, 2, 2, 2] ∧ callsMade Demo.busy [0, 0, 0, 1, 1, 1, 1, 1, 2, 2, 2, 2, 2, 2] =
    [.mark 7, .endApi 10 none, .finish discardAll true] := by
  refine ⟨?_, by decide +kernel⟩
  intro pre i post he j g hj hg
  have hlen : pre.length < 14 := by have := congrArg List.length he; simp at this; omega
  have hp : pre = [0, 0, 0, 1, 1, 1, 1, 1, 2, 2, 2, 2, 2, 2].take pre.length := by rw [he]; simp
  have hi : [0, 0, 0, 1, 1, 1, 1, 1, 2, 2, 2, 2, 2, 2][pre.length]? = some i := by rw [he]; simp
  generalize pre.length = n at hp hlen hi
  subst hp
  have key : ∀ n < 14, ∀ j < 3, [0, 0, 0, 1, 1, 1, 1, 1, 2, 2, 2, 2, 2, 2][n]? ≠ some j →
      ((Demo.busy.run ([0, 0, 0, 1, 1, 1, 1, 1, 2, 2, 2, 2, 2, 2].take n)).gors[j]?.map (·.code)) = some [] := by decide +kernel
  have hj3 : j < 3 := by
    have hl : ∀ n < 14, (Demo.busy.run ([0, 0, 0, 1, 1, 1, 1, 1, 2, 2, 2, 2, 2, 2].take n)).gors.length = 3 := by decide +kernel
    have := (List.getElem?_eq_some_iff.1 hg).1
    rw [hl n hlen] at this
    exact this
  have := key n hlen j hj3 (by rw [hi]; simp; exact fun h => hj h.symm)
  rw [hg] at this
  simpa using this

end Marking
end Scouter
