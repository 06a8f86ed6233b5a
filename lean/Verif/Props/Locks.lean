import Verif.Model.RWMutex
/-! # C28: cache operations and deadlock -/
namespace Scouter
open LockAct

/-- All goroutines have finished. -/
def LockState.finished (s : LockState) : Prop := ∀ l ∈ s.threads, l = []

/-- Some goroutine is not finished and no goroutine can move. -/
def LockState.deadlocked (s : LockState) : Prop := ¬ s.finished ∧ ∀ i, s.step i = none

/-- Remaining actions of a goroutine that takes one lock at a time. -/
def goodActs : List LockAct → Bool
  | [] => true
  | .rlock :: l => l.head? == some .runlock && goodActs l
  | .announce :: l => l.head? == some .acquire && goodActs l
  | .acquire :: l => l.head? == some .unlock && goodActs l
  | .runlock :: l => (l.head? == none || l.head? == some .rlock || l.head? == some .announce) && goodActs l
  | .unlock :: l => (l.head? == none || l.head? == some .rlock || l.head? == some .announce) && goodActs l

def idleHead (l : List LockAct) : Prop := l.head? = none ∨ l.head? = some .rlock ∨ l.head? = some .announce

/-- The invariant of the lock. -/
structure LockInv (s : LockState) : Prop where
  good : ∀ l ∈ s.threads, goodActs l = true
  readers : s.readers = s.threads.countP (fun l => l.head? == some .runlock)
  pend : ∀ i l, s.threads[i]? = some l → (l.head? = some .acquire ↔ s.writer = some (i, false))
  held : ∀ i l, s.threads[i]? = some l → (l.head? = some .unlock ↔ s.writer = some (i, true))
  excl : ∀ i, s.writer = some (i, true) → s.readers = 0
  range : ∀ i b, s.writer = some (i, b) → i < s.threads.length

theorem getElem?_set_cases {α : Type} {l : List α} {i j : Nat} {a x : α} (h : (l.set i a)[j]? = some x) :
    (j = i ∧ x = a ∧ i < l.length) ∨ (j ≠ i ∧ l[j]? = some x) := by
  by_cases hj : j = i
  · subst hj
    by_cases hl : j < l.length
    · rw [List.getElem?_set_self hl] at h
      exact .inl ⟨rfl, (Option.some.inj h).symm, hl⟩
    · rw [List.getElem?_eq_none (by simp; omega)] at h; cases h
  · rw [List.getElem?_set_ne (fun e => hj e.symm)] at h
    exact .inr ⟨hj, h⟩

theorem countP_set' {α : Type} (p : α → Bool) (l : List α) (i : Nat) (a x : α) (h : l[i]? = some x) :
    (l.set i a).countP p + (if p x then 1 else 0) = l.countP p + (if p a then 1 else 0) := by
  induction l generalizing i with
  | nil => simp at h
  | cons y l ih =>
    cases i with
    | zero =>
      simp only [List.getElem?_cons_zero, Option.some.injEq] at h
      subst h
      simp only [List.set_cons_zero, List.countP_cons]; omega
    | succ i =>
      simp only [List.getElem?_cons_succ] at h
      have := ih i h
      simp only [List.set_cons_succ, List.countP_cons]; omega

theorem lockInv_step {s s' : LockState} (h : LockInv s) (i : Nat) (hs : s.step i = some s') : LockInv s' := by
  unfold LockState.step at hs
  split at hs
  case h_2 => cases hs
  case h_1 a rest hi =>
    have hmem : (a :: rest) ∈ s.threads := List.mem_of_getElem? hi
    have hg := h.good _ hmem
    have hilt : i < s.threads.length := (List.getElem?_eq_some_iff.mp hi).1
    have hgood : ∀ l ∈ s.threads.set i rest, goodActs l = true := by
      intro l hl
      obtain ⟨j, hj⟩ := List.mem_iff_getElem?.mp hl
      rcases getElem?_set_cases hj with ⟨_, rfl, _⟩ | ⟨_, hj'⟩
      · cases a <;> simp [goodActs] at hg <;> exact hg.2
      · exact h.good l (List.mem_of_getElem? hj')
    have hcount := countP_set' (fun l : List LockAct => l.head? == some .runlock) s.threads i rest (a :: rest) hi
    cases a with
    | rlock =>
      simp only [] at hs
      split at hs
      · rename_i hw
        cases hs
        simp only [goodActs, Bool.and_eq_true, beq_iff_eq] at hg
        refine ⟨hgood, ?_, ?_, ?_, ?_, ?_⟩
        · simp [hg.1] at hcount; simp [h.readers, hcount]
        · intro j l hj
          rcases getElem?_set_cases hj with ⟨_, rfl, _⟩ | ⟨_, hj'⟩
          · simp [hg.1, hw]
          · exact h.pend j l hj'
        · intro j l hj
          rcases getElem?_set_cases hj with ⟨_, rfl, _⟩ | ⟨_, hj'⟩
          · simp [hg.1, hw]
          · exact h.held j l hj'
        · intro j hj; simp [hw] at hj
        · intro j b hj; simp [hw] at hj
      · cases hs
    | runlock =>
      simp only [] at hs
      split at hs
      · rename_i hr
        cases hs
        simp only [goodActs, Bool.and_eq_true, Bool.or_eq_true, beq_iff_eq] at hg
        have hp := h.pend i _ hi
        have hh := h.held i _ hi
        simp at hp hh
        have hidle : rest.head? ≠ some .runlock ∧ rest.head? ≠ some .acquire ∧ rest.head? ≠ some .unlock := by
          rcases hg.1 with (e | e) | e <;> simp [e]
        refine ⟨hgood, ?_, ?_, ?_, ?_, ?_⟩
        · simp [hidle.1] at hcount; simp [h.readers, ← hcount]
        · intro j l hj
          rcases getElem?_set_cases hj with ⟨rfl, rfl, _⟩ | ⟨_, hj'⟩
          · simp [hidle.2.1, hp]
          · exact h.pend j l hj'
        · intro j l hj
          rcases getElem?_set_cases hj with ⟨rfl, rfl, _⟩ | ⟨_, hj'⟩
          · simp [hidle.2.2, hh]
          · exact h.held j l hj'
        · intro j hj
          have := h.excl j hj
          omega
        · intro j b hj
          have := h.range j b hj
          simpa using this
      · cases hs
    | announce =>
      simp only [] at hs
      split at hs
      · rename_i hw
        cases hs
        simp only [goodActs, Bool.and_eq_true, beq_iff_eq] at hg
        refine ⟨hgood, ?_, ?_, ?_, ?_, ?_⟩
        · simp [hg.1] at hcount; simp [h.readers, hcount]
        · intro j l hj
          rcases getElem?_set_cases hj with ⟨rfl, rfl, _⟩ | ⟨hne, hj'⟩
          · simp [hg.1]
          · have := h.pend j l hj'
            rw [hw] at this
            simp only [reduceCtorEq, iff_false] at this
            simp only [Option.some.injEq, Prod.mk.injEq, and_true]
            exact ⟨fun e => absurd e this, fun e => absurd e.symm hne⟩
        · intro j l hj
          rcases getElem?_set_cases hj with ⟨rfl, rfl, _⟩ | ⟨hne, hj'⟩
          · simp [hg.1]
          · have := h.held j l hj'
            rw [hw] at this
            simp only [reduceCtorEq, iff_false] at this
            simp [this]
        · intro j hj; simp at hj
        · intro j b hj; simp only [Option.some.injEq, Prod.mk.injEq] at hj; rw [← hj.1]; simpa using hilt
      · cases hs
    | acquire =>
      simp only [] at hs
      split at hs
      · rename_i hw
        cases hs
        simp only [goodActs, Bool.and_eq_true, beq_iff_eq] at hg
        refine ⟨hgood, ?_, ?_, ?_, ?_, ?_⟩
        · simp [hg.1] at hcount; simp [h.readers, hcount]
        · intro j l hj
          rcases getElem?_set_cases hj with ⟨rfl, rfl, _⟩ | ⟨hne, hj'⟩
          · simp [hg.1]
          · have := h.pend j l hj'
            rw [hw.1] at this
            simp only [Option.some.injEq, Prod.mk.injEq, and_true] at this
            simp only [Option.some.injEq, Prod.mk.injEq, Bool.true_eq_false, and_false, iff_false]
            exact fun e => hne (this.mp e).symm
        · intro j l hj
          rcases getElem?_set_cases hj with ⟨rfl, rfl, _⟩ | ⟨hne, hj'⟩
          · simp [hg.1]
          · have := h.held j l hj'
            rw [hw.1] at this
            simp only [Option.some.injEq, Prod.mk.injEq, Bool.false_eq_true, and_false, iff_false] at this
            simp only [Option.some.injEq, Prod.mk.injEq, and_true]
            exact ⟨fun e => absurd e this, fun e => absurd e.symm hne⟩
        · intro j _; exact hw.2
        · intro j b hj; simp only [Option.some.injEq, Prod.mk.injEq] at hj; rw [← hj.1]; simpa using hilt
      · cases hs
    | unlock =>
      simp only [] at hs
      split at hs
      · rename_i hw
        cases hs
        simp only [goodActs, Bool.and_eq_true, Bool.or_eq_true, beq_iff_eq] at hg
        have hidle : rest.head? ≠ some .runlock ∧ rest.head? ≠ some .acquire ∧ rest.head? ≠ some .unlock := by
          rcases hg.1 with (e | e) | e <;> simp [e]
        refine ⟨hgood, ?_, ?_, ?_, ?_, ?_⟩
        · simp [hidle.1] at hcount; simp [h.readers, hcount]
        · intro j l hj
          rcases getElem?_set_cases hj with ⟨rfl, rfl, _⟩ | ⟨hne, hj'⟩
          · simp [hidle.2.1]
          · have := h.pend j l hj'
            rw [hw] at this
            simp only [Option.some.injEq, Prod.mk.injEq, Bool.true_eq_false, and_false, iff_false] at this
            simp [this]
        · intro j l hj
          rcases getElem?_set_cases hj with ⟨rfl, rfl, _⟩ | ⟨hne, hj'⟩
          · simp [hidle.2.2]
          · have := h.held j l hj'
            rw [hw] at this
            simp only [Option.some.injEq, Prod.mk.injEq, and_true] at this
            simp only [reduceCtorEq, iff_false]
            exact fun e => hne (this.mp e).symm
        · intro j hj; simp at hj
        · intro j b hj; simp at hj
      · cases hs

theorem goodActs_append {l : List LockAct} (hl : goodActs l = true) (m : List LockAct)
    (hm : goodActs m = true) (hmi : idleHead m) : goodActs (l ++ m) = true := by

  induction l with
  | nil => simpa using hm
  | cons a l ih =>
    have hh : ∀ x, l.head? = some x → (l ++ m).head? = some x := by
      intro x hx
      cases l with
      | nil => simp at hx
      | cons y l => simpa using hx
    cases a <;> simp only [List.cons_append, goodActs, Bool.and_eq_true, Bool.or_eq_true, beq_iff_eq] at hl ⊢
    · exact ⟨hh _ hl.1, ih hl.2⟩
    · refine ⟨?_, ih hl.2⟩
      cases l with
      | nil => rcases hmi with e | e | e <;> simp [e]
      | cons y l => simpa using hl.1
    · exact ⟨hh _ hl.1, ih hl.2⟩
    · exact ⟨hh _ hl.1, ih hl.2⟩
    · refine ⟨?_, ih hl.2⟩
      cases l with
      | nil => rcases hmi with e | e | e <;> simp [e]
      | cons y l => simpa using hl.1

theorem idleHead_append {l m : List LockAct} (hl : idleHead l) (hm : idleHead m) : idleHead (l ++ m) := by
  cases l with
  | nil => simpa using hm
  | cons a l => simpa [idleHead] using hl

theorem acts_good (c : LockCall) (hc : c ≠ .empty) : goodActs c.acts = true ∧ idleHead c.acts := by
  cases c with
  | values n =>
    constructor
    · simp only [LockCall.acts]
      induction n with
      | zero => rfl
      | succ n ih =>
        simp only [List.replicate_succ, List.flatten_cons, List.cons_append, List.nil_append, goodActs,
          List.head?_cons, beq_self_eq_true, Bool.true_and, Bool.or_true, Bool.true_or] at ih ⊢
        simpa [goodActs] using ih
    · simp [LockCall.acts, idleHead]
  | empty => exact absurd rfl hc
  | _ => exact ⟨by decide, by simp [LockCall.acts, idleHead]⟩

theorem calls_good (cs : List LockCall) (hc : LockCall.empty ∉ cs) :
    goodActs (cs.map LockCall.acts).flatten = true ∧ idleHead (cs.map LockCall.acts).flatten := by
  induction cs with
  | nil => exact ⟨rfl, .inl rfl⟩
  | cons c cs ih =>
    have h1 := acts_good c (fun e => hc (by simp [e]))
    have h2 := ih (fun e => hc (by simp [e]))
    rw [List.map_cons, List.flatten_cons]
    exact ⟨goodActs_append h1.1 _ h2.1 h2.2, idleHead_append h1.2 h2.2⟩

theorem lockInv_init (calls : List (List LockCall)) (hc : ∀ cs ∈ calls, LockCall.empty ∉ cs) :
    LockInv (LockState.init calls) := by
  have hidle : ∀ l ∈ (LockState.init calls).threads, goodActs l = true ∧ idleHead l := by
    intro l hl
    obtain ⟨cs, hcs, rfl⟩ := List.mem_map.mp hl
    exact calls_good cs (hc cs hcs)
  have hnot : ∀ l ∈ (LockState.init calls).threads,
      l.head? ≠ some .runlock ∧ l.head? ≠ some .acquire ∧ l.head? ≠ some .unlock := by
    intro l hl
    rcases (hidle l hl).2 with e | e | e <;> simp [e]
  refine ⟨fun l hl => (hidle l hl).1, ?_, ?_, ?_, ?_, ?_⟩
  · rw [eq_comm]
    show List.countP _ _ = 0
    rw [List.countP_eq_zero]
    intro l hl
    simpa using (hnot l hl).1
  · intro i l hl
    have := hnot l (List.mem_of_getElem? hl)
    simp [this.2.1, LockState.init]
  · intro i l hl
    have := hnot l (List.mem_of_getElem? hl)
    simp [this.2.2, LockState.init]
  · intro i hi; simp [LockState.init] at hi
  · intro i b hi; simp [LockState.init] at hi

theorem lockInv_exec {s s' : LockState} (h : LockInv s) (is : List Nat) (he : s.exec is = some s') : LockInv s' := by
  induction is generalizing s with
  | nil => cases he; exact h
  | cons i is ih =>
    rw [LockState.exec] at he
    cases hs : s.step i with
    | none => rw [hs] at he; cases he
    | some s1 => rw [hs] at he; exact ih (lockInv_step h i hs) he

theorem lockInv_progress {s : LockState} (h : LockInv s) : ¬ s.deadlocked := by
  rintro ⟨hnf, hstuck⟩
  have stepAt : ∀ (i : Nat) (a : LockAct) (rest : List LockAct), s.threads[i]? = some (a :: rest) →
      (match a with
        | .rlock => s.writer = none
        | .runlock => 0 < s.readers
        | .announce => s.writer = none
        | .acquire => s.writer = some (i, false) ∧ s.readers = 0
        | .unlock => s.writer = some (i, true)) → False := by
    intro i a rest hi hen
    have := hstuck i
    unfold LockState.step at this
    rw [hi] at this
    cases a <;> simp only [] at this hen <;> rw [if_pos hen] at this <;> cases this
  by_cases hr : 0 < s.readers
  · rw [h.readers] at hr
    obtain ⟨l, hl, hh⟩ := List.countP_pos_iff.mp hr
    simp only [beq_iff_eq] at hh
    obtain ⟨i, hi⟩ := List.mem_iff_getElem?.mp hl
    cases l with
    | nil => simp at hh
    | cons a rest =>
      simp only [List.head?_cons, Option.some.injEq] at hh
      subst hh
      exact stepAt i _ rest hi (by simp only; rw [h.readers]; exact hr)
  · have hr0 : s.readers = 0 := by omega
    cases hw : s.writer with
    | some w =>
      obtain ⟨i, b⟩ := w
      have hlt := h.range i b hw
      have hi : s.threads[i]? = some s.threads[i] := List.getElem?_eq_getElem hlt
      cases b with
      | false =>
        have := (h.pend i _ hi).mpr hw
        cases hl : s.threads[i] with
        | nil => rw [hl] at this; simp at this
        | cons a rest =>
          rw [hl] at this hi
          simp only [List.head?_cons, Option.some.injEq] at this
          subst this
          exact stepAt i _ rest hi ⟨hw, hr0⟩
      | true =>
        have := (h.held i _ hi).mpr hw
        cases hl : s.threads[i] with
        | nil => rw [hl] at this; simp at this
        | cons a rest =>
          rw [hl] at this hi
          simp only [List.head?_cons, Option.some.injEq] at this
          subst this
          exact stepAt i _ rest hi hw
    | none =>
      apply hnf
      intro l hl
      obtain ⟨i, hi⟩ := List.mem_iff_getElem?.mp hl
      cases l with
      | nil => rfl
      | cons a rest =>
        exfalso
        have hp := h.pend i _ hi
        have hh := h.held i _ hi
        cases a with
        | rlock => exact stepAt i _ rest hi hw
        | announce => exact stepAt i _ rest hi hw
        | runlock =>
          have : 0 < s.threads.countP (fun l => l.head? == some .runlock) :=
            List.countP_pos_iff.mpr ⟨_, hl, by simp⟩
          rw [← h.readers] at this
          omega
        | acquire => rw [hw] at hp; simp at hp
        | unlock => rw [hw] at hh; simp at hh

/-- C28: any number of goroutines running any finite sequences of cache calls other than `Empty` never deadlock: after
every schedule either all are finished or some goroutine can move. -/
theorem C28_no_deadlock_without_empty (calls : List (List LockCall)) (hc : ∀ cs ∈ calls, LockCall.empty ∉ cs)
    (schedule : List Nat) (s : LockState) (h : (LockState.init calls).exec schedule = some s) : ¬ s.deadlocked :=
  lockInv_progress (lockInv_exec (lockInv_init calls hc) schedule h)

theorem totalLeft_step {s s' : LockState} {i : Nat} (h : s.step i = some s') :
    (s'.threads.map List.length).sum + 1 = (s.threads.map List.length).sum := by
  unfold LockState.step at h
  split at h
  case h_2 => cases h
  case h_1 a rest hi =>
    have key : ∀ (l : List (List LockAct)) (i : Nat), l[i]? = some (a :: rest) →
        ((l.set i rest).map List.length).sum + 1 = (l.map List.length).sum := by
      intro l
      induction l with
      | nil => intro i hi; simp at hi
      | cons x l ih =>
        intro i hi
        cases i with
        | zero =>
          simp only [List.getElem?_cons_zero, Option.some.injEq] at hi
          subst hi
          simp; omega
        | succ i =>
          simp only [List.getElem?_cons_succ] at hi
          have := ih i hi
          simp only [List.set_cons_succ, List.map_cons, List.sum_cons]; omega
    have := key s.threads i hi
    cases a <;> simp only [] at h <;> split at h <;> first | (cases h; exact this) | cases h

/-- C28: no schedule is longer than the total number of lock actions, so running on always ends with all goroutines
finished. -/
theorem C28_schedules_are_bounded (calls : List (List LockCall)) (schedule : List Nat) (s : LockState)
    (h : (LockState.init calls).exec schedule = some s) :
    schedule.length + (s.threads.map List.length).sum =
      ((LockState.init calls).threads.map List.length).sum := by
  generalize LockState.init calls = s0 at h
  induction schedule generalizing s0 with
  | nil => cases h; simp
  | cons i is ih =>
    rw [LockState.exec] at h
    cases hs : s0.step i with
    | none => rw [hs] at h; cases h
    | some s1 =>
      rw [hs] at h
      have h1 := ih s1 h
      have h2 := totalLeft_step hs
      simp only [List.length_cons]
      omega

/-- C28: while a goroutine holds the write lock no goroutine holds a read lock, so each operation is atomic. -/
theorem C28_writer_excludes_readers (calls : List (List LockCall)) (hc : ∀ cs ∈ calls, LockCall.empty ∉ cs)
    (schedule : List Nat) (s : LockState) (h : (LockState.init calls).exec schedule = some s) (i : Nat)
    (hw : s.writer = some (i, true)) : ∀ l ∈ s.threads, l.head? ≠ some .runlock := by
  have hinv := lockInv_exec (lockInv_init calls hc) schedule h
  have h0 := hinv.excl i hw
  rw [hinv.readers, List.countP_eq_zero] at h0
  intro l hl e
  exact h0 l hl (by simp [e])

/-- C28: with `Empty` the claim is false: one goroutine calling `Empty` and one calling `Add` can deadlock. -/
theorem C28_empty_can_deadlock :
    ∃ schedule s, (LockState.init [[.empty], [.add]]).exec schedule = some s ∧ s.deadlocked := by
  refine ⟨[0, 1], { readers := 1, writer := some (1, false), threads := [[.rlock, .runlock, .runlock], [.acquire, .unlock]] },
    rfl, ?_, ?_⟩
  · intro h
    have := h _ (List.mem_cons_self)
    cases this
  · intro i
    match i with
    | 0 => rfl
    | 1 => rfl
    | n + 2 => rfl

/-- A schedule that runs a reader, a writer and a value listing to the end. -/
example : ∃ s, (LockState.init [[.get, .values 2], [.add]]).exec [0, 1, 0, 1, 1, 0, 0, 0, 0, 0, 0] = some s ∧
    s.threads = [[], []] := ⟨_, rfl, rfl⟩

end Scouter
