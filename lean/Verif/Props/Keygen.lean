import Verif.Model.Keygen
/-!
# C103: the generator of ids under every schedule
-/
namespace Scouter
namespace Keygen
variable {src : Source}

/-! ## Specification -/

/-- The state after `n` draws. -/
def Source.after (src : Source) (s : src.S) : Nat → src.S
  | 0 => s
  | n + 1 => src.next (src.after s n)

/-- The first `n` numbers a source seeded with `seed` gives, one after the other: the lower 63 bits of each draw. -/
def Source.numbers (src : Source) (seed : BitVec 64) (n : Nat) : List (BitVec 64) :=
  (List.range n).map fun k => BitVec.ofNat 64 ((src.bits (src.after (src.seed seed) k)).toNat % 2 ^ 63)

/-- The key a goroutine has drawn and not yet returned. -/
def pending (c : Caller src) : List (BitVec 64) :=
  match c.at_ with
  | .drawn k => [k]
  | .unlocked k => [k]
  | _ => []

/-- The goroutine holds the lock. -/
def holds (c : Caller src) : Bool :=
  match c.at_ with
  | .inside => true
  | .computed _ => true
  | .drawn _ => true
  | _ => false

/-- All calls have returned. -/
def Done (st : State src) : Prop := ∀ c ∈ st.callers, c.left = 0 ∧ c.at_ = .out

/-- The numbers drawn so far. -/
def drawnBy (st : State src) : List (BitVec 64) := st.callers.flatMap fun c => c.got ++ pending c

/-! ## The invariant -/

structure Inv (seed : BitVec 64) (st : State src) (n : Nat) : Prop where
  source : st.source = src.after (src.seed seed) n
  lock : st.callers.countP holds = if st.locked then 1 else 0
  fresh : ∀ c ∈ st.callers, ∀ s, c.at_ = .computed s → s = st.source
  order : ∀ c ∈ st.callers, (c.got ++ pending c).Sublist (src.numbers seed n)
  all : (drawnBy st).Perm (src.numbers seed n)

theorem int63_eq (s : src.S) : BitVec.ofNat 64 ((src.bits s).toNat % 2 ^ 63) = int63 src s := by
  apply BitVec.eq_of_toNat_eq
  unfold int63
  rw [BitVec.toNat_and, show (0x7fffffffffffffff#64).toNat = 2 ^ 63 - 1 from by decide, Nat.and_two_pow_sub_one_eq_mod, BitVec.toNat_ofNat]
  omega

theorem numbers_succ (seed : BitVec 64) (n : Nat) : src.numbers seed (n + 1) = src.numbers seed n ++ [int63 src (src.after (src.seed seed) n)] := by
  simp only [Source.numbers, int63_eq, List.range_succ, List.map_append, List.map_cons, List.map_nil]

theorem flatMap_set {γ δ : Type} (f : γ → List δ) {l : List γ} {i : Nat} {c c' : γ} {x : List δ} (h : l[i]? = some c) (e : f c' = f c ++ x) :
    ((l.set i c').flatMap f).Perm (l.flatMap f ++ x) := by
  induction l generalizing i with
  | nil => simp at h
  | cons a as ih =>
    cases i with
    | zero =>
      simp only [List.getElem?_cons_zero, Option.some.injEq] at h
      subst h
      simp only [List.set_cons_zero, List.flatMap_cons, e, List.append_assoc]
      exact List.Perm.append_left _ List.perm_append_comm
    | succ i =>
      simp only [List.set_cons_succ, List.flatMap_cons, List.append_assoc]
      exact List.Perm.append_left _ (ih (by simpa using h))

theorem countP_set' {γ : Type} (p : γ → Bool) {l : List γ} {i : Nat} {c c' : γ} (h : l[i]? = some c) :
    (l.set i c').countP p + (if p c then 1 else 0) = l.countP p + (if p c' then 1 else 0) := by
  induction l generalizing i with
  | nil => simp at h
  | cons a as ih =>
    cases i with
    | zero =>
      simp only [List.getElem?_cons_zero, Option.some.injEq] at h
      subst h
      simp only [List.set_cons_zero, List.countP_cons]
      omega
    | succ i =>
      simp only [List.set_cons_succ, List.countP_cons]
      have := ih (i := i) (by simpa using h)
      omega

/-- Two different goroutines do not hold the lock. -/
theorem holder_unique {l : List (Caller src)} {i : Nat} {c : Caller src} (hi : l[i]? = some c) (hc : holds c = true) (h1 : l.countP holds ≤ 1) :
    ∀ j c', j ≠ i → l[j]? = some c' → holds c' = false := by
  intro j c' hj hj'
  cases hh : holds c' with
  | false => rfl
  | true =>
    exfalso
    have h2 := countP_set' holds (c' := { c with at_ := .out }) hi
    rw [hc] at h2
    have h3 : c' ∈ l.set i { c with at_ := .out } := List.mem_of_getElem? (i := j) (by rw [List.getElem?_set_ne (Ne.symm hj)]; exact hj')
    have h4 : 0 < (l.set i { c with at_ := .out }).countP holds := List.countP_pos_iff.2 ⟨c', h3, hh⟩
    simp [holds] at h2
    have : List.countP holds l = 1 := by
      have := List.countP_pos_iff.2 ⟨c, List.mem_of_getElem? hi, hc⟩
      omega
    simp only [holds] at *
    omega

theorem Inv.go {seed : BitVec 64} {st st' : State src} {n : Nat} (h : Inv seed st n) {i : Nat} {c c' : Caller src} (hi : st.callers[i]? = some c)
    (hm : move st c = some (st', c')) : ∃ n', Inv seed { st' with callers := st'.callers.set i c' } n' := by
  have hmem : c ∈ st.callers := List.mem_of_getElem? hi
  have hset : ∀ d ∈ st.callers.set i c', d = c' ∨ ∃ j, j ≠ i ∧ st.callers[j]? = some d := by
    intro d hd
    obtain ⟨j, hj⟩ := List.getElem?_of_mem hd
    by_cases hji : j = i
    · subst hji
      rw [List.getElem?_set_self (List.getElem?_eq_some_iff.1 hi).1] at hj
      exact .inl (Option.some.inj hj).symm
    · rw [List.getElem?_set_ne (Ne.symm hji)] at hj
      exact .inr ⟨j, hji, hj⟩
  have hcount := countP_set' holds (c' := c') hi
  -- moves that leave the source and what was drawn
  have keep : st'.callers = st.callers → st'.source = st.source → c'.got ++ pending c' = c.got ++ pending c →
      ((st.callers.set i c').countP holds = if st'.locked then 1 else 0) → (∀ s, c'.at_ = .computed s → s = st.source) →
      ∃ n', Inv seed { st' with callers := st'.callers.set i c' } n' := by
    intro e1 e2 e3 e4 e5
    refine ⟨n, e2.trans h.source, by simp only [e1]; exact e4, ?_, ?_, ?_⟩
    · intro d hd s hs
      simp only [e1] at hd
      show s = st'.source
      rw [e2]
      rcases hset d hd with rfl | ⟨j, -, hj⟩
      · exact e5 s hs
      · exact h.fresh d (List.mem_of_getElem? hj) s hs
    · intro d hd
      simp only [e1] at hd
      rcases hset d hd with rfl | ⟨j, -, hj⟩
      · rw [e3]; exact h.order c hmem
      · exact h.order d (List.mem_of_getElem? hj)
    · unfold drawnBy
      simp only [e1]
      have := flatMap_set (fun c : Caller src => c.got ++ pending c) (c' := c') (x := []) hi (by simpa using e3)
      rw [List.append_nil] at this
      exact this.trans h.all
  unfold move at hm
  cases ha : c.at_ with
  | out =>
    simp only [ha] at hm
    cases hl : c.left with
    | zero => rw [hl] at hm; cases hm
    | succ k =>
      rw [hl] at hm
      injection hm with hm
      injection hm with e1 e2
      subst e1; subst e2
      refine keep rfl rfl (by simp [pending, ha]) ?_ (fun s hs => by cases hs)
      have := h.lock
      simp [holds, ha] at hcount ⊢
      omega
  | waiting =>
    simp only [ha] at hm
    cases hlk : st.locked with
    | true => rw [hlk] at hm; simp at hm
    | false =>
      rw [hlk] at hm
      injection hm with hm
      injection hm with e1 e2
      subst e1; subst e2
      refine keep rfl rfl (by simp [pending, ha]) ?_ (fun s hs => by cases hs)
      have := h.lock
      rw [hlk] at this
      simp only [holds, ha, if_true, Bool.false_eq_true, if_false] at hcount this
      show (st.callers.set i _).countP holds = 1
      omega
  | inside =>
    simp only [ha] at hm
    injection hm with hm
    injection hm with e1 e2
    subst e1; subst e2
    refine keep rfl rfl (by simp [pending, ha]) ?_ (fun s hs => by injection hs with hs; exact hs.symm)
    have := h.lock
    simp [holds, ha] at hcount ⊢
    omega
  | computed s =>
    simp only [ha] at hm
    injection hm with hm
    injection hm with e1 e2
    subst e1; subst e2
    have hs : s = src.after (src.seed seed) n := (h.fresh c hmem s ha).trans h.source
    have hc : holds c = true := by simp [holds, ha]
    have huniq := holder_unique hi hc (by rw [h.lock]; split <;> omega)
    refine ⟨n + 1, ?_, ?_, ?_, ?_, ?_⟩
    · show src.next s = src.next (src.after (src.seed seed) n)
      rw [hs]
    · have := h.lock
      simp [holds, ha] at hcount
      show (st.callers.set i _).countP holds = if st.locked then 1 else 0
      rw [← this]
      omega
    · intro d hd s' hs'
      rcases hset d hd with rfl | ⟨j, hj, hj'⟩
      · cases hs'
      · have := huniq j d hj hj'
        simp [holds, hs'] at this
    · intro d hd
      rw [numbers_succ]
      rcases hset d hd with rfl | ⟨j, -, hj⟩
      · have := h.order c hmem
        simp only [pending, ha, List.append_nil] at this
        show (c.got ++ [int63 src s]).Sublist _
        rw [← hs]
        exact this.append (List.Sublist.refl _)
      · exact (h.order d (List.mem_of_getElem? hj)).trans (List.sublist_append_left _ _)
    · rw [numbers_succ, ← hs]
      refine (flatMap_set (fun c : Caller src => c.got ++ pending c) (x := [int63 src s]) hi ?_).trans (List.Perm.append_right _ h.all)
      simp [pending, ha]
  | drawn key =>
    simp only [ha] at hm
    injection hm with hm
    injection hm with e1 e2
    subst e1; subst e2
    refine keep rfl rfl (by simp [pending, ha]) ?_ (fun s hs => by cases hs)
    have := h.lock
    have hp := List.countP_pos_iff.2 ⟨c, hmem, (by simp [holds, ha] : holds c = true)⟩
    simp only [holds, ha, if_true, Bool.false_eq_true, if_false] at hcount
    show (st.callers.set i _).countP holds = 0
    split at this <;> omega
  | unlocked key =>
    simp only [ha] at hm
    injection hm with hm
    injection hm with e1 e2
    subst e1; subst e2
    refine keep rfl rfl (by simp [pending, ha]) ?_ (fun s hs => by cases hs)
    have := h.lock
    simp [holds, ha] at hcount ⊢
    omega

theorem Inv.turn {seed : BitVec 64} {st : State src} {n : Nat} (h : Inv seed st n) (i : Nat) : ∃ n', Inv seed (st.turn i) n' := by
  cases hi : st.callers[i]? with
  | none => simp only [State.turn, hi]; exact ⟨n, h⟩
  | some c =>
    cases hm : move st c with
    | none => simp only [State.turn, hi, hm]; exact ⟨n, h⟩
    | some x => simp only [State.turn, hi, hm]; exact h.go hi hm

theorem Inv.run {seed : BitVec 64} {st : State src} {n : Nat} (h : Inv seed st n) (is : List Nat) : ∃ n', Inv seed (st.run is) n' := by
  induction is generalizing st n with
  | nil => exact ⟨n, h⟩
  | cons i is ih =>
    obtain ⟨n', h'⟩ := h.turn i
    exact ih h'

theorem Inv.start (src : Source) (seed : BitVec 64) (calls : List Nat) : Inv seed (start src seed calls) 0 := by
  have hout : ∀ c ∈ (Keygen.start src seed calls).callers, c.at_ = .out ∧ c.got = [] := by
    intro c hc
    obtain ⟨n, -, rfl⟩ := List.mem_map.1 hc
    exact ⟨rfl, rfl⟩
  refine ⟨rfl, ?_, fun c hc s hs => ?_, fun c hc => ?_, ?_⟩
  · rw [List.countP_eq_zero.2 fun c hc => by simp [holds, (hout c hc).1]]; rfl
  · rw [(hout c hc).1] at hs; cases hs
  · rw [(hout c hc).2]; simp [pending, (hout c hc).1]
  · have : drawnBy (Keygen.start src seed calls) = [] := by
      unfold drawnBy
      rw [List.flatMap_eq_nil_iff]
      exact fun c hc => by rw [(hout c hc).2]; simp [pending, (hout c hc).1]
    rw [this]
    exact List.Perm.refl _

/-! ## Counting calls and accesses -/

/-- The calls of a goroutine: made, under way and to be made. -/
def callsOf (c : Caller src) : Nat :=
  c.left + c.got.length + match c.at_ with | .out => 0 | _ => 1

/-- The accesses a goroutine has still to make. -/
def todo (c : Caller src) : Nat :=
  6 * c.left + match c.at_ with | .out => 0 | .waiting => 5 | .inside => 4 | .computed _ => 3 | .drawn _ => 2 | .unlocked _ => 1

theorem move_counts {st st' : State src} {c c' : Caller src} (hm : move st c = some (st', c')) :
    st'.callers = st.callers ∧ callsOf c' = callsOf c ∧ todo c' + 1 = todo c := by
  unfold move at hm
  cases ha : c.at_ with
  | out =>
    simp only [ha] at hm
    cases hl : c.left with
    | zero => rw [hl] at hm; cases hm
    | succ k =>
      rw [hl] at hm
      injection hm with hm
      injection hm with e1 e2
      subst e1; subst e2
      exact ⟨rfl, by simp [callsOf, ha, hl]; omega, by simp [todo, ha, hl]; omega⟩
  | waiting =>
    simp only [ha] at hm
    cases hlk : st.locked with
    | true => rw [hlk] at hm; simp at hm
    | false =>
      rw [hlk] at hm
      injection hm with hm
      injection hm with e1 e2
      subst e1; subst e2
      exact ⟨rfl, by simp [callsOf, ha], by simp [todo, ha]⟩
  | inside | computed s | drawn key | unlocked key =>
    simp only [ha] at hm
    injection hm with hm
    injection hm with e1 e2
    subst e1; subst e2
    refine ⟨rfl, by simp [callsOf, ha] <;> omega, by simp [todo, ha]⟩

theorem turn_counts (st : State src) (i : Nat) :
    (st.turn i).callers.map callsOf = st.callers.map callsOf ∧
      (st.turn i = st ∨ ((st.turn i).callers.map todo).sum + 1 = (st.callers.map todo).sum) := by
  cases hi : st.callers[i]? with
  | none => simp only [State.turn, hi]; exact ⟨trivial, .inl trivial⟩
  | some c =>
    cases hm : move st c with
    | none => simp only [State.turn, hi, hm]; exact ⟨trivial, .inl trivial⟩
    | some x =>
      obtain ⟨st', c'⟩ := x
      obtain ⟨e1, e2, e3⟩ := move_counts hm
      have hlt := (List.getElem?_eq_some_iff.1 hi).1
      have hc := (List.getElem?_eq_some_iff.1 hi).2
      simp only [State.turn, hi, hm, e1]
      refine ⟨?_, .inr ?_⟩
      · rw [List.map_set, e2]
        have : (st.callers.map callsOf)[i]'(by simpa using hlt) = callsOf c := by simp [hc]
        rw [← this, List.set_getElem_self]
      · clear hm e1 e2
        generalize st.callers = l at *
        clear hc hlt
        induction l generalizing i with
        | nil => simp at hi
        | cons a as ih =>
          cases i with
          | zero =>
            simp only [List.getElem?_cons_zero, Option.some.injEq] at hi
            subst hi
            simp only [List.set_cons_zero, List.map_cons, List.sum_cons]
            omega
          | succ i =>
            simp only [List.set_cons_succ, List.map_cons, List.sum_cons]
            have := ih i (by simpa using hi)
            omega

theorem run_calls (st : State src) (is : List Nat) : (st.run is).callers.map callsOf = st.callers.map callsOf := by
  induction is generalizing st with
  | nil => rfl
  | cons i is ih => exact (ih _).trans (turn_counts st i).1

/-- While not all calls have returned, some goroutine can go on. -/
theorem can_go {seed : BitVec 64} {st : State src} {n : Nat} (h : Inv seed st n) (hd : ¬ Done st) :
    ∃ i, ((st.turn i).callers.map todo).sum + 1 = (st.callers.map todo).sum := by
  have go : ∀ i c x, st.callers[i]? = some c → move st c = some x → ((st.turn i).callers.map todo).sum + 1 = (st.callers.map todo).sum := by
    intro i c x hi hm
    rcases (turn_counts st i).2 with e | e
    · exfalso
      obtain ⟨st', c'⟩ := x
      obtain ⟨e1, e2, e3⟩ := move_counts hm
      have : (st.turn i).callers[i]? = some c' := by
        simp only [State.turn, hi, hm, e1]
        exact List.getElem?_set_self (List.getElem?_eq_some_iff.1 hi).1
      rw [e, hi] at this
      injection this with this
      subst this
      omega
    · exact e
  cases hlk : st.locked with
  | true =>
    have h1 := h.lock
    rw [hlk] at h1
    obtain ⟨c, hc, hh⟩ := List.countP_pos_iff.1 (by rw [h1]; decide : 0 < st.callers.countP holds)
    obtain ⟨i, hi⟩ := List.getElem?_of_mem hc
    cases ha : c.at_ with
    | inside | computed s | drawn key => exact ⟨i, go i c _ hi (by unfold move; simp only [ha]; rfl)⟩
    | out | waiting | unlocked key => simp [holds, ha] at hh
  | false =>
    have : ∃ c ∈ st.callers, ¬ (c.left = 0 ∧ c.at_ = .out) := by
      refine Classical.byContradiction fun hn => hd fun c hc => Classical.byContradiction fun hx => hn ⟨c, hc, hx⟩
    obtain ⟨c, hc, hx⟩ := this
    obtain ⟨i, hi⟩ := List.getElem?_of_mem hc
    cases ha : c.at_ with
    | out =>
      cases hl : c.left with
      | zero => exact absurd ⟨hl, ha⟩ hx
      | succ k => exact ⟨i, go i c _ hi (by unfold move; simp only [ha, hl]; rfl)⟩
    | waiting => exact ⟨i, go i c _ hi (by unfold move; simp only [ha, hlk]; rfl)⟩
    | inside | computed s | drawn key | unlocked key => exact ⟨i, go i c _ hi (by unfold move; simp only [ha]; rfl)⟩

end Keygen
open Keygen

/-- **C103**.  At any moment of any schedule the numbers given out so far are the first ones of the seed's sequence, each given to one call only, and each
goroutine gets its numbers in the order of the sequence. -/
theorem C103_each_number_once (src : Source) (unixSeconds : BitVec 64) (calls : List Nat) (is : List Nat) :
    let st := (start src unixSeconds calls).run is
    ∃ n, (drawnBy st).Perm (src.numbers unixSeconds n) ∧ ∀ c ∈ st.callers, (c.got ++ pending c).Sublist (src.numbers unixSeconds n) := by
  obtain ⟨n, h⟩ := (Inv.start src unixSeconds calls).run is
  exact ⟨n, h.all, h.order⟩

/-- Once all calls have returned, the numbers returned are exactly as many first numbers of the sequence as there were calls, and each goroutine got as
many as it asked for. -/
theorem C103_all_calls_served (src : Source) (unixSeconds : BitVec 64) (calls : List Nat) (is : List Nat) :
    let st := (start src unixSeconds calls).run is
    Done st → (st.callers.flatMap (·.got)).Perm (src.numbers unixSeconds calls.sum) ∧ st.callers.map (·.got.length) = calls := by
  intro st hd
  obtain ⟨n, h⟩ := (Inv.start src unixSeconds calls).run is
  have e1 : st.callers.map (·.got.length) = calls := by
    have := run_calls (start src unixSeconds calls) is
    have e0 : (start src unixSeconds calls).callers.map callsOf = calls := by simp [start, callsOf, Function.comp_def]
    rw [e0] at this
    rw [← this]
    apply List.map_congr_left
    intro c hc
    simp [callsOf, (hd c hc).1, (hd c hc).2]
  have e2 : drawnBy st = st.callers.flatMap (·.got) := by
    unfold drawnBy
    rw [List.flatMap_def, List.flatMap_def]
    congr 1
    apply List.map_congr_left
    intro c hc
    simp [pending, (hd c hc).2]
  have hp : (st.callers.flatMap (·.got)).Perm (src.numbers unixSeconds n) := e2 ▸ h.all
  have hn : n = calls.sum := by
    have := hp.length_eq
    rw [List.length_flatMap, e1] at this
    simpa [Source.numbers] using this.symm
  exact ⟨hn ▸ hp, e1⟩

/-- Ids are not negative. -/
theorem C103_not_negative (src : Source) (unixSeconds : BitVec 64) (calls : List Nat) (is : List Nat) :
    ∀ c ∈ ((start src unixSeconds calls).run is).callers, ∀ key ∈ c.got, 0 ≤ key.toInt := by
  obtain ⟨n, h⟩ := (Inv.start src unixSeconds calls).run is
  intro c hc key hk
  have := (h.order c hc).subset (List.mem_append_left _ hk)
  obtain ⟨k, -, rfl⟩ := List.mem_map.1 this
  rw [int63_eq]
  have hm : (int63 src (src.after (src.seed unixSeconds) k)).msb = false := by
    unfold int63
    rw [BitVec.msb_and, show (0x7fffffffffffffff#64).msb = false from by decide, Bool.and_false]
  rw [BitVec.toInt_eq_msb_cond, hm]
  simp

/-- The generator does not block: whatever happened so far, turns can be given so that all calls return. -/
theorem C103_never_blocks (src : Source) (unixSeconds : BitVec 64) (calls : List Nat) (is : List Nat) :
    ∃ more, Done ((start src unixSeconds calls).run (is ++ more)) := by
  obtain ⟨n, h⟩ := (Inv.start src unixSeconds calls).run is
  have gen : ∀ (m : Nat) (st : State src) (n : Nat), Inv unixSeconds st n → (st.callers.map todo).sum = m → ∃ more, Done (st.run more) := by
    intro m
    induction m with
    | zero =>
      intro st n h hm
      by_cases hd : Done st
      · exact ⟨[], hd⟩
      · obtain ⟨i, hi⟩ := can_go h hd
        omega
    | succ m ih =>
      intro st n h hm
      by_cases hd : Done st
      · exact ⟨[], hd⟩
      · obtain ⟨i, hi⟩ := can_go h hd
        obtain ⟨n', h'⟩ := h.turn i
        obtain ⟨more, hmore⟩ := ih (st.turn i) n' h' (by omega)
        exact ⟨i :: more, hmore⟩
  obtain ⟨more, hmore⟩ := gen _ _ n h rfl
  refine ⟨more, ?_⟩
  unfold State.run at *
  rw [List.foldl_append]
  exact hmore

/-- As found: the seed is the second of the start, so two programs started in the same second give the same ids, whatever their goroutines do: with as
many calls, the same ids in another order; with fewer, some of them. -/
theorem C103_same_second_same_ids (src : Source) (unixSeconds : BitVec 64) (calls calls' : List Nat) (is is' : List Nat)
    (hd : Done ((start src unixSeconds calls).run is)) (hd' : Done ((start src unixSeconds calls').run is')) (hle : calls.sum ≤ calls'.sum) :
    ∀ key ∈ ((start src unixSeconds calls).run is).callers.flatMap (·.got), key ∈ ((start src unixSeconds calls').run is').callers.flatMap (·.got) := by
  intro key hk
  have h1 := (C103_all_calls_served src unixSeconds calls is hd).1.mem_iff.1 hk
  rw [(C103_all_calls_served src unixSeconds calls' is' hd').1.mem_iff]
  obtain ⟨k, hk', e⟩ := List.mem_map.1 h1
  exact List.mem_map.2 ⟨k, List.mem_range.2 (Nat.lt_of_lt_of_le (List.mem_range.1 hk') hle), e⟩

/-! ## A concrete case -/

namespace Keygen.Demo

/-- A counter with the top bit set. -/
def counting : Source := { S := BitVec 64, seed := id, bits := fun s => s ||| 0x8000000000000000#64, next := fun s => s + 1 }

/-- Two goroutines, two calls and one, alternating. -/
def alternating : State counting := (start counting 100 [2, 1]).run ((List.range 20).flatMap fun _ => [0, 1])

theorem alternating_keys : alternating.callers.map (·.got) = [[100, 102], [101]] := by decide +kernel

theorem alternating_done : Done alternating := by
  have h : alternating.callers.all (fun c => c.left == 0 && match c.at_ with | .out => true | _ => false) = true := by decide +kernel
  intro c hc
  have := List.all_eq_true.1 h c hc
  simp only [Bool.and_eq_true, beq_iff_eq] at this
  refine ⟨this.1, ?_⟩
  cases ha : c.at_ <;> simp [ha] at this ⊢

end Keygen.Demo
end Scouter
