import Verif.Model.Profile
import Verif.Props.Steps
import Mathlib.Tactic.Ring
import Mathlib.Tactic.Set
import Mathlib.Tactic.ByContra
/-!
# C33, C34: numbering of profile steps; what is sent of a profile
-/
namespace Scouter
open ProfState

/-! ## C33: numbering -/

/-- Properly nested use of a profile: single steps (`Add`), and steps that stay open (`Push`) while others are made
and are closed (`Pop`) afterwards. -/
inductive Nest where
  | done
  | single (s : Step) (rest : Nest)
  | opened (s : Step) (inside : Nest) (rest : Nest)
deriving Repr

namespace Nest

/-- Number of steps made. -/
def size : Nest → Nat
  | .done => 0
  | .single _ r => 1 + r.size
  | .opened _ i r => 1 + i.size + r.size

/-- The calls, when `n` steps were made before: the step opened `k`-th (counting from 0) is closed by naming it. -/
def calls (n : Nat) : Nest → List ProfOp
  | .done => []
  | .single s r => .add s :: r.calls (n + 1)
  | .opened s i r => .push s :: (i.calls (n + 1) ++ .pop n :: r.calls (n + 1 + i.size))

/-- The numbers each step must get, in order of creation: its own is how many steps were made before it, its parent's
is the innermost step open around it (`p` outside of all). -/
def numbers (p n : Nat) : Nest → List (Nat × Nat)
  | .done => []
  | .single _ r => (n, p) :: r.numbers p (n + 1)
  | .opened _ i r => (n, p) :: (i.numbers n (n + 1) ++ r.numbers p (n + 1 + i.size))

/-- The steps as given by the caller, in order of creation. -/
def given : Nest → List Step
  | .done => []
  | .single s r => s :: r.given
  | .opened s i r => s :: (i.given ++ r.given)

/-- The order in which the steps are recorded: an opened step after the steps inside it. -/
def recordedOrder (n : Nat) : Nest → List Nat
  | .done => []
  | .single _ r => n :: r.recordedOrder (n + 1)
  | .opened _ i r => i.recordedOrder (n + 1) ++ n :: r.recordedOrder (n + 1 + i.size)

theorem length_given (t : Nest) : t.given.length = t.size := by
  induction t with
  | done => rfl
  | single s r ih => simp [given, size, ih]; omega
  | opened s i r ihi ihr => simp [given, size, ihi, ihr]; omega

theorem length_numbers (t : Nest) : ∀ p n, (t.numbers p n).length = t.size := by
  induction t with
  | done => intros; rfl
  | single s r ih => intros; simp [numbers, size, ih]; omega
  | opened s i r ihi ihr => intros; simp [numbers, size, ihi, ihr]; omega

end Nest

/-- The step `s` with index and parent as given, everything else as the caller made it. -/
def numbered (s : Step) (ip : Nat × Nat) : Step :=
  { s with ss := { s.ss with index := BitVec.ofNat 32 ip.1, parent := BitVec.ofNat 32 ip.2 } }

theorem send_heap (s : ProfState) (b : Int) (o : List Nat) :
    (s.send b o).heap = s.heap ∧ (s.send b o).col = s.col ∧ (s.send b o).recorded = s.recorded := by
  unfold ProfState.send; split <;> simp

theorem Collector.process_levels (k : Int) (c : Collector) (p : Nat) :
    (c.process k p).1.currentLevel = c.currentLevel ∧ (c.process k p).1.parentLevel = c.parentLevel := by
  unfold Collector.process; split
  · simp
  · simp only; split
    · split <;> simp
    · simp

theorem process_heap (s : ProfState) (k b : Int) (p : Nat) :
    (s.process k b p).heap = s.heap ∧ (s.process k b p).recorded = s.recorded ++ [p] ∧
    (s.process k b p).col.currentLevel = s.col.currentLevel ∧ (s.process k b p).col.parentLevel = s.col.parentLevel := by
  have h := Collector.process_levels k s.col p
  unfold ProfState.process
  simp only
  split <;> rename_i c heq <;> rw [heq] at h <;> simp_all [send_heap]

theorem run_append (s : ProfState) (a b : List (Int × Int × ProfOp)) : s.run (a ++ b) = (s.run a).run b := by
  induction a generalizing s with
  | nil => rfl
  | cons x a ih => obtain ⟨k, b', o⟩ := x; simp [ProfState.run, ih]

/-- The core of C33: what properly nested calls do to the numbering, from any state. -/
theorem nest_run (t : Nest) : ∀ (cs : List (Int × Int × ProfOp)) (s : ProfState) (n p : Nat),
    cs.map (fun c => c.2.2) = t.calls n → s.heap.length = n → s.col.currentLevel = BitVec.ofNat 32 n →
    s.col.parentLevel = BitVec.ofNat 32 p →
    (s.run cs).heap = s.heap ++ List.zipWith numbered t.given (t.numbers p n) ∧
    (s.run cs).col.currentLevel = BitVec.ofNat 32 (n + t.size) ∧
    (s.run cs).col.parentLevel = BitVec.ofNat 32 p ∧
    (s.run cs).recorded = s.recorded ++ t.recordedOrder n := by
  induction t with
  | done =>
    intro cs s n p hc hn hl hp
    have : cs = [] := by simpa [Nest.calls] using hc
    subst this
    simp [ProfState.run, Nest.given, Nest.recordedOrder, Nest.size, hl, hp]
  | single st r ih =>
    intro cs s n p hc hn hl hp
    obtain ⟨⟨k, b, o⟩, cs, rfl, ho, hc2⟩ : ∃ c cs', cs = c :: cs' ∧ c.2.2 = ProfOp.add st ∧
        cs'.map (fun c => c.2.2) = r.calls (n + 1) := by
      cases cs with
      | nil => simp [Nest.calls] at hc
      | cons c cs => simp [Nest.calls] at hc; exact ⟨c, cs, rfl, hc⟩
    simp only at ho; subst ho
    simp only [ProfState.run, ProfState.step, Collector.addNumber]
    have h := process_heap { s with col := { s.col with currentLevel := s.col.currentLevel + 1 }, heap := s.heap ++ [{ st with ss := { st.ss with index := s.col.currentLevel, parent := s.col.parentLevel } }] }
      k b s.heap.length
    obtain ⟨h1, h2, h3, h4⟩ := h
    have := ih cs _ (n + 1) p hc2 (by rw [h1]; simp [hn]) (by rw [h3]; simp [hl, BitVec.ofNat_add]) (by rw [h4]; exact hp)
    obtain ⟨i1, i2, i3, i4⟩ := this
    refine ⟨?_, ?_, i3, ?_⟩
    · rw [i1, h1]; simp [Nest.given, Nest.numbers, numbered, hl, hp]
    · rw [i2]; congr 1; simp [Nest.size]; omega
    · rw [i4, h2]; simp [Nest.recordedOrder, hn]
  | opened st i r ihi ihr =>
    intro cs s n p hc hn hl hp
    obtain ⟨⟨k, b, o⟩, cs, rfl, ho, hc2⟩ : ∃ c cs', cs = c :: cs' ∧ c.2.2 = ProfOp.push st ∧
        cs'.map (fun c => c.2.2) = i.calls (n + 1) ++ .pop n :: r.calls (n + 1 + i.size) := by
      cases cs with
      | nil => simp [Nest.calls] at hc
      | cons c cs => simp [Nest.calls] at hc; exact ⟨c, cs, rfl, by simpa using hc⟩
    simp only at ho; subst ho
    obtain ⟨ci, cr, rfl, hci, hcr⟩ := List.map_eq_append_iff.1 hc2
    obtain ⟨⟨k2, b2, o2⟩, cr, rfl, ho2, hcr2⟩ : ∃ c cs', cr = c :: cs' ∧ c.2.2 = ProfOp.pop n ∧
        cs'.map (fun c => c.2.2) = r.calls (n + 1 + i.size) := by
      cases cr with
      | nil => simp at hcr
      | cons c cs => simp at hcr; exact ⟨c, cs, rfl, hcr⟩
    simp only at ho2; subst ho2
    simp only [ProfState.run, run_append]
    rw [show s.step k b (.push st) = { s with col := { s.col with parentLevel := s.col.currentLevel, currentLevel := s.col.currentLevel + 1 }, heap := s.heap ++ [{ st with ss := { st.ss with index := s.col.currentLevel, parent := s.col.parentLevel } }] } from rfl]
    set s1 : ProfState := { s with col := { s.col with parentLevel := s.col.currentLevel, currentLevel := s.col.currentLevel + 1 }, heap := s.heap ++ [{ st with ss := { st.ss with index := s.col.currentLevel, parent := s.col.parentLevel } }] } with hs1
    obtain ⟨i1, i2, i3, i4⟩ := ihi ci s1 (n + 1) n hci (by simp [hs1, hn]) (by simp [hs1, hl, BitVec.ofNat_add])
      (by simp [hs1, hl])
    set s2 := s1.run ci with hs2
    have hget : s2.heap[n]? = some (numbered st (n, p)) := by
      rw [i1, hs1]; simp only
      rw [List.append_assoc, List.getElem?_append_right (by omega)]
      simp [hn, numbered, hl, hp]
    have hst : s2.step k2 b2 (.pop n) = ({ s2 with col := s2.col.popParent (numbered st (n, p)) } : ProfState).process k2 b2 n := by
      simp only [ProfState.step, hget]
    rw [hst]
    obtain ⟨h1, h2, h3, h4⟩ := process_heap { s2 with col := s2.col.popParent (numbered st (n, p)) } k2 b2 n
    have hlen : s2.heap.length = n + 1 + i.size := by
      rw [i1, hs1]; simp [Nest.length_given, Nest.length_numbers, hn]; omega
    obtain ⟨j1, j2, j3, j4⟩ := ihr cr _ (n + 1 + i.size) p hcr2 (by rw [h1]; exact hlen)
      (by rw [h3]; simp only [Collector.popParent]; exact i2)
      (by rw [h4]; simp [Collector.popParent, numbered])
    refine ⟨?_, ?_, j3, ?_⟩
    · rw [j1, h1]; simp only; rw [i1, hs1]
      simp only [Nest.given, Nest.numbers, List.zipWith_cons_cons]
      rw [List.zipWith_append (by rw [Nest.length_given, Nest.length_numbers])]
      simp [numbered, hl, hp]
    · rw [j2]; congr 1; simp [Nest.size]; omega
    · rw [j4, h2]; simp only; rw [i4, hs1]; simp [Nest.recordedOrder]

/-- **C33**: on a new profile, properly nested use numbers every step with how many steps were made before it and gives
it the innermost open step as parent (0 outside of all), whatever the configuration is at each call; afterwards the
current parent is what it was, and steps are recorded inner ones first. -/
theorem C33_numbering_is_the_tree (t : Nest) (cap : Nat) (cs : List (Int × Int × ProfOp))
    (hcs : cs.map (fun c => c.2.2) = t.calls 0) :
    let s := ({ col := { cap := cap } } : ProfState).run cs
    s.heap = List.zipWith numbered t.given (t.numbers 0 0) ∧ s.col.parentLevel = 0 ∧
      s.recorded = t.recordedOrder 0 := by
  have h := nest_run t cs { col := { cap := cap } } 0 0 hcs rfl rfl rfl
  exact ⟨by simpa using h.1, h.2.2.1, by simpa using h.2.2.2⟩

/-- **C33**, used in the middle of a profile: a balanced segment restores the current parent, and numbers its steps
after the `n` steps already there. -/
theorem C33_balanced_segment (t : Nest) (s : ProfState) (n p : Nat) (cs : List (Int × Int × ProfOp))
    (hcs : cs.map (fun c => c.2.2) = t.calls n) (hn : s.heap.length = n)
    (hl : s.col.currentLevel = BitVec.ofNat 32 n) (hp : s.col.parentLevel = BitVec.ofNat 32 p) :
    (s.run cs).heap = s.heap ++ List.zipWith numbered t.given (t.numbers p n) ∧
      (s.run cs).col.parentLevel = s.col.parentLevel ∧
      (s.run cs).recorded = s.recorded ++ t.recordedOrder n := by
  have h := nest_run t cs s n p hcs hn hl hp
  exact ⟨h.1, by rw [h.2.2.1, hp], h.2.2.2⟩

/-- Each recorded step is recorded once. -/
theorem Nest.recordedOrder_perm (t : Nest) : ∀ n, List.Perm (t.recordedOrder n) (List.range' n t.size) := by
  induction t with
  | done => intro n; simp [recordedOrder, size]
  | single s r ih =>
    intro n
    simp only [recordedOrder, size]
    rw [Nat.add_comm 1, List.range'_succ]
    exact (ih (n + 1)).cons n
  | opened s i r ihi ihr =>
    intro n
    simp only [recordedOrder, size]
    have h1 : List.range' n (1 + i.size + r.size) = n :: (List.range' (n + 1) i.size ++ List.range' (n + 1 + i.size) r.size) := by
      rw [show 1 + i.size + r.size = (i.size + r.size) + 1 by omega, List.range'_succ]
      congr 1
      rw [List.range'_append_1]
    rw [h1]
    refine List.perm_middle.trans (List.Perm.cons n ?_)
    exact (ihi (n + 1)).append (ihr (n + 1 + i.size))

/-- **C33**: every step of a properly nested use is recorded exactly once. -/
theorem C33_every_step_recorded_once (t : Nest) (cap : Nat) (cs : List (Int × Int × ProfOp))
    (hcs : cs.map (fun c => c.2.2) = t.calls 0) :
    List.Perm (({ col := { cap := cap } } : ProfState).run cs).recorded (List.range t.size) := by
  rw [(C33_numbering_is_the_tree t cap cs hcs).2.2, List.range_eq_range']
  exact t.recordedOrder_perm 0

/-- Invariant of arbitrary use. -/
structure Numbering (s : ProfState) : Prop where
  level : s.col.currentLevel = BitVec.ofNat 32 s.heap.length
  index : ∀ i st, s.heap[i]? = some st → st.ss.index = BitVec.ofNat 32 i ∧ ∃ p ≤ i, st.ss.parent = BitVec.ofNat 32 p
  parent : ∃ p ≤ s.heap.length, s.col.parentLevel = BitVec.ofNat 32 p

theorem Numbering.of_eq {s s' : ProfState} (h : Numbering s) (hh : s'.heap = s.heap)
    (hc : s'.col.currentLevel = s.col.currentLevel) (hp : s'.col.parentLevel = s.col.parentLevel) : Numbering s' :=
  ⟨by rw [hh, hc]; exact h.level, by rw [hh]; exact h.index, by rw [hh, hp]; exact h.parent⟩

theorem Numbering.step {s : ProfState} (h : Numbering s) (k b : Int) (o : ProfOp) : Numbering (s.step k b o) := by
  obtain ⟨p, hp, hpp⟩ := h.parent
  cases o with
  | push st =>
    refine ⟨by simp [ProfState.step, Collector.push, h.level, BitVec.ofNat_add], ?_, ?_⟩
    · intro i st' hi
      simp only [ProfState.step, Collector.push] at hi
      by_cases hlt : i < s.heap.length
      · rw [List.getElem?_append_left hlt] at hi; exact h.index i st' hi
      · rw [List.getElem?_append_right (by omega)] at hi
        obtain ⟨j, rfl⟩ : ∃ j, i = s.heap.length + j := ⟨i - s.heap.length, by omega⟩
        cases j with
        | zero => simp at hi; subst hi; exact ⟨by simp [h.level], p, by simpa using hp, hpp⟩
        | succ j => simp at hi
    · exact ⟨s.heap.length, by simp [ProfState.step, Collector.push], h.level⟩
  | add st =>
    refine Numbering.of_eq (s := { s with
        col := { s.col with currentLevel := s.col.currentLevel + 1 },
        heap := s.heap ++ [{ st with ss := { st.ss with index := s.col.currentLevel, parent := s.col.parentLevel } }] })
      ⟨by simp [h.level, BitVec.ofNat_add], ?_, ⟨p, by simp; omega, hpp⟩⟩
      (process_heap _ _ _ _).1 (process_heap _ _ _ _).2.2.1 (process_heap _ _ _ _).2.2.2
    intro i st' hi
    simp only at hi
    by_cases hlt : i < s.heap.length
    · rw [List.getElem?_append_left hlt] at hi; exact h.index i st' hi
    · rw [List.getElem?_append_right (by omega)] at hi
      obtain ⟨j, rfl⟩ : ∃ j, i = s.heap.length + j := ⟨i - s.heap.length, by omega⟩
      cases j with
      | zero => simp at hi; subst hi; exact ⟨by simp [h.level], p, by simpa using hp, hpp⟩
      | succ j => simp at hi
  | pop ptr =>
    simp only [ProfState.step]
    split
    · exact h
    · rename_i st hst
      obtain ⟨-, q, hq, hqq⟩ := h.index ptr st hst
      have hlt : ptr < s.heap.length := by
        by_contra hcon; rw [List.getElem?_eq_none (by omega)] at hst; simp at hst
      refine Numbering.of_eq (s := { s with col := s.col.popParent st })
        ⟨by simp [Collector.popParent, h.level], h.index, ⟨q, by simp; omega, hqq⟩⟩
        (process_heap _ _ _ _).1 (process_heap _ _ _ _).2.2.1 (process_heap _ _ _ _).2.2.2
  | close ok =>
    simp only [ProfState.step]
    split
    · exact h.of_eq (send_heap _ _ _).1 (by rw [(send_heap _ _ _).2.1]) (by rw [(send_heap _ _ _).2.1])
    · exact h

theorem Numbering.run {s : ProfState} (h : Numbering s) (cs : List (Int × Int × ProfOp)) : Numbering (s.run cs) := by
  induction cs generalizing s with
  | nil => exact h
  | cons c cs ih => obtain ⟨k, b, o⟩ := c; exact ih (h.step k b o)

/-- **C33**, for arbitrary (even badly nested) use of a new profile: the steps made get the indexes 0, 1, 2, ... in
order of creation, and no step's parent index is larger than its own (as long as fewer than 2^31 steps are made). -/
theorem C33_indexes_sequential (cap : Nat) (cs : List (Int × Int × ProfOp)) (i : Nat) (st : Step)
    (hi : (({ col := { cap := cap } } : ProfState).run cs).heap[i]? = some st) (h31 : i < 2 ^ 31) :
    st.ss.index.toInt = i ∧ 0 ≤ st.ss.parent.toInt ∧ st.ss.parent.toInt ≤ i := by
  have h : Numbering (({ col := { cap := cap } } : ProfState).run cs) :=
    Numbering.run ⟨rfl, by simp, 0, by simp, rfl⟩ cs
  obtain ⟨h1, p, hp, h2⟩ := h.index i st hi
  have conv : ∀ n : Nat, n < 2 ^ 31 → (BitVec.ofNat 32 n).toInt = n := by
    intro n hn
    rw [BitVec.toInt_eq_toNat_of_lt] <;> simp <;> omega
  rw [h1, h2, conv i h31, conv p (by omega)]
  omega

/-- A disagreement with the reading "parent = the enclosing step": a step outside of all others also gets parent 0, so a
second top-level step is numbered exactly as if it had been made inside the first. -/
theorem C33_second_root_looks_like_a_child (a b : Step) (cap : Nat) :
    (({ col := { cap := cap } } : ProfState).run
        (((Nest.opened a .done (.single b .done)).calls 0).map (fun o => (1, 1, o)))).heap =
    (({ col := { cap := cap } } : ProfState).run
        (((Nest.opened a (.single b .done) .done).calls 0).map (fun o => (1, 1, o)))).heap := by
  rw [(C33_numbering_is_the_tree (.opened a .done (.single b .done)) cap _ (by simp [Nest.calls])).1,
    (C33_numbering_is_the_tree (.opened a (.single b .done) .done) cap _ (by simp [Nest.calls])).1]
  rfl

/-- Non-vacuity: one call containing a call with a message, then a message. -/
example (m c1 c2 : Step) :
    (({ col := { cap := 2 } } : ProfState).run
      (((Nest.opened c1 (.opened c2 (.single m .done) (.single m .done)) .done).calls 0).map fun o => (2, 2, o))).heap =
    [numbered c1 (0, 0), numbered c2 (1, 0), numbered m (2, 1), numbered m (3, 0)] :=
  (C33_numbering_is_the_tree (.opened c1 (.opened c2 (.single m .done) (.single m .done)) .done) 2 _ (by simp [Nest.calls])).1

/-! ## C34: what is sent -/

theorem profileLoop_spec {α : Type} (steps : List α) (b : Nat) (hb : 1 ≤ b) : ∀ left i : Nat,
    (i + left) * b ≤ steps.length →
    (profileLoop steps b left i).flatten = (steps.drop (i * b)).take (left * b) ∧
    ∀ p ∈ profileLoop steps b left i, p.length = b := by
  intro left
  induction left with
  | zero => intro i _; simp [profileLoop]
  | succ left ih =>
    intro i h
    obtain ⟨h1, h2⟩ := ih (i + 1) (by rw [show i + 1 + left = i + (left + 1) by omega]; exact h)
    have e : ((i : Int) * (b : Int)).toNat = i * b := by
      rw [← Int.natCast_mul]; exact Int.toNat_natCast _
    have hlen : (i + 1) * b ≤ steps.length := by
      refine le_trans (Nat.mul_le_mul_right b ?_) h; omega
    simp only [profileLoop, e, Int.toNat_natCast]
    refine ⟨?_, ?_⟩
    · rw [List.flatten_cons]
      have := h1
      push_cast at this
      rw [this]
      rw [show (i + 1) * b = i * b + b by ring, ← List.drop_drop,
        show (left + 1) * b = b + left * b by ring, List.take_add]
    · intro p hp
      rcases List.mem_cons.1 hp with rfl | hp
      · rw [List.length_take, List.length_drop]
        have : (i + 1) * b = i * b + b := by ring
        omega
      · exact h2 p (by push_cast; exact hp)

/-- `SendProfile` with a positive limit: the packets are the steps cut in pieces of exactly the limit, except that the
last one may be shorter, never empty. -/
theorem C34_slices {α : Type} (steps : List α) (bulk : Int) (hb : 1 ≤ bulk) :
    ∃ ps, profileSlices steps bulk = some ps ∧ ps.flatten = steps ∧
      (∀ p ∈ ps, p ≠ [] ∧ (p.length : Int) ≤ bulk) ∧ (∀ p ∈ ps.dropLast, (p.length : Int) = bulk) := by
  obtain ⟨b, rfl⟩ : ∃ b : Nat, bulk = b := ⟨bulk.toNat, by omega⟩
  have hb1 : 1 ≤ b := by omega
  unfold profileSlices
  by_cases h0 : steps.length = 0
  · have : steps = [] := List.length_eq_zero_iff.1 h0
    exact ⟨[], by simp [h0], by simp [this], by simp, by simp⟩
  · rw [if_neg h0, if_neg (by omega)]
    have hdiv : ((steps.length : Int).tdiv (b : Int)) = ((steps.length / b : Nat) : Int) := by
      rw [Int.tdiv_eq_ediv_of_nonneg (by omega)]; simp
    have hmod : ((steps.length : Int).tmod (b : Int)) = ((steps.length % b : Nat) : Int) := by
      rw [Int.tmod_eq_emod_of_nonneg (by omega)]; simp
    simp only [hdiv, hmod, Int.toNat_natCast]
    have hdm := Nat.div_add_mod steps.length b
    have hlt := Nat.mod_lt steps.length (show b > 0 by omega)
    have hcm : (steps.length / b) * b = b * (steps.length / b) := Nat.mul_comm _ _
    have hne : steps ≠ [] := by intro h; simp [h] at h0
    split
    · rename_i hc
      have hc' : steps.length / b = 0 := by omega
      refine ⟨_, rfl, by simp, ?_, by simp⟩
      intro p hp
      simp only [List.mem_singleton] at hp; subst hp
      refine ⟨hne, ?_⟩
      rw [hc'] at hdm; omega
    · obtain ⟨l1, l2⟩ := profileLoop_spec steps b hb1 (steps.length / b) 0 (by rw [Nat.zero_add]; exact Nat.div_mul_le_self _ _)
      replace l1 : (profileLoop steps b (steps.length / b) (0 : Int)).flatten = (steps.drop (0 * b)).take (steps.length / b * b) := l1
      replace l2 : ∀ p ∈ profileLoop steps b (steps.length / b) (0 : Int), p.length = b := l2
      have ec : (((steps.length / b : Nat) : Int) * (b : Int)).toNat = steps.length / b * b := by
        rw [← Int.natCast_mul]; exact Int.toNat_natCast _
      rw [ec]
      simp only [Nat.zero_mul, List.drop_zero] at l1
      have hfull : ∀ p ∈ profileLoop steps b (steps.length / b) (0 : Int), p ≠ [] ∧ (p.length : Int) ≤ b := by
        intro p hp
        have := l2 p hp
        exact ⟨by intro h; simp [h] at this; omega, by omega⟩
      split
      · rename_i hr
        have hlast : ((steps.drop (steps.length / b * b)).take (steps.length % b)) = steps.drop (steps.length / b * b) := by
          apply List.take_of_length_le; rw [List.length_drop]; omega
        refine ⟨_, rfl, ?_, ?_, ?_⟩
        · rw [List.flatten_append, l1, hlast]; simp
        · intro p hp
          rcases List.mem_append.1 hp with hp | hp
          · exact hfull p hp
          · rw [List.mem_singleton] at hp; subst hp
            have : (List.take (steps.length % b) (List.drop (steps.length / b * b) steps)).length = steps.length % b := by
              rw [List.length_take, List.length_drop]; omega
            exact ⟨by intro h; rw [h] at this; simp at this; omega, by omega⟩
        · intro p hp
          rw [List.dropLast_concat] at hp
          rw [l2 p hp]
      · rename_i hr
        refine ⟨_, rfl, ?_, hfull, ?_⟩
        · rw [l1]; apply List.take_of_length_le; omega
        · intro p hp
          rw [l2 p ((List.dropLast_subset _) hp)]

/-- A call that records (or opens) a step. -/
def ProfOp.recording : ProfOp → Bool
  | .close _ => false
  | _ => true

/-- Invariant between recording calls. -/
structure Sending (B : Int) (s : ProfState) : Prop where
  all : s.packets.flatten ++ s.col.kept = s.recorded
  room : s.col.kept.length < s.col.cap
  size : ∀ p ∈ s.packets, p ≠ [] ∧ (p.length : Int) ≤ B
  calm : s.panicked = false

theorem Sending.process {B : Int} {s : ProfState} (h : Sending B s) (k b : Int) (hk : 1 ≤ k) (hb : 1 ≤ b)
    (hB : b ≤ B) (ptr : Nat) : Sending B (s.process k b ptr) := by
  unfold ProfState.process
  simp only
  have hroom := h.room
  by_cases hfull : s.col.kept.length + 1 < s.col.cap
  · have e : s.col.process k ptr = ({ s.col with kept := s.col.kept ++ [ptr] }, .done) := by
      unfold Collector.process
      rw [if_neg (by omega)]; simp only
      rw [if_neg (by simp; omega)]
    rw [e]
    exact ⟨by simp [← h.all], by simpa using hfull, h.size, h.calm⟩
  · have e : s.col.process k ptr =
        ({ s.col with cap := k.toNat, kept := [] }, .full (s.col.kept ++ [ptr])) := by
      unfold Collector.process
      rw [if_neg (by omega)]; simp only
      rw [if_pos (by simp; omega), if_neg (by omega)]
    rw [e]
    simp only [ProfState.send]
    obtain ⟨ps, hps, hfl, hsz, -⟩ := C34_slices (s.col.kept ++ [ptr]) b hb
    rw [hps]
    refine ⟨by simp [← h.all, hfl], by simp; omega, ?_, h.calm⟩
    intro p hp
    rcases List.mem_append.1 hp with hp | hp
    · exact h.size p hp
    · exact ⟨(hsz p hp).1, le_trans (hsz p hp).2 hB⟩

theorem Sending.step {B : Int} {s : ProfState} (h : Sending B s) (k b : Int) (hk : 1 ≤ k) (hb : 1 ≤ b)
    (hB : b ≤ B) (o : ProfOp) (ho : o.recording = true) : Sending B (s.step k b o) := by
  cases o with
  | push st => exact ⟨h.all, h.room, h.size, h.calm⟩
  | pop ptr =>
    simp only [ProfState.step]
    split
    · exact h
    · refine Sending.process ⟨?_, ?_, ?_, ?_⟩ k b hk hb hB ptr
      exacts [h.all, h.room, h.size, h.calm]
  | add st =>
    exact Sending.process (s := { s with col := (s.col.addNumber st).1, heap := s.heap ++ [(s.col.addNumber st).2] })
      ⟨h.all, h.room, h.size, h.calm⟩ k b hk hb hB _
  | close ok => simp [ProfOp.recording] at ho

theorem Sending.run {B : Int} {s : ProfState} (h : Sending B s) (cs : List (Int × Int × ProfOp))
    (hcs : ∀ c ∈ cs, 1 ≤ c.1 ∧ 1 ≤ c.2.1 ∧ c.2.1 ≤ B ∧ c.2.2.recording = true) : Sending B (s.run cs) := by
  induction cs generalizing s with
  | nil => exact h
  | cons c cs ih =>
    obtain ⟨k, b, o⟩ := c
    have hc := hcs _ (List.mem_cons_self)
    exact ih (h.step k b hc.1 hc.2.1 hc.2.2.1 o hc.2.2.2) (fun c hc => hcs c (List.mem_cons_of_mem _ hc))

theorem Sending.start (B : Int) (cap : Nat) (hcap : 1 ≤ cap) : Sending B { col := { cap := cap } } :=
  ⟨rfl, by show 0 < cap; omega, by simp, rfl⟩

/-- **C34**: any recording calls on a new profile, then `Close(true)`, with positive limits that may differ at each
call: the packets sent contain every recorded step exactly once and in recording order, every packet has at least one
step and at most the largest limit that was in force, and nothing panics. -/
theorem C34_all_sent_in_order (cap : Nat) (hcap : 1 ≤ cap) (B : Int) (cs : List (Int × Int × ProfOp)) (k b : Int)
    (hcs : ∀ c ∈ cs, 1 ≤ c.1 ∧ 1 ≤ c.2.1 ∧ c.2.1 ≤ B ∧ c.2.2.recording = true) (hb : 1 ≤ b) (hB : b ≤ B) :
    let s := ({ col := { cap := cap } } : ProfState).run (cs ++ [(k, b, .close true)])
    s.packets.flatten = s.recorded ∧ (∀ p ∈ s.packets, p ≠ [] ∧ (p.length : Int) ≤ B) ∧ s.panicked = false := by
  have h := (Sending.start B cap hcap).run cs hcs
  simp only [run_append, ProfState.run]
  generalize ({ col := { cap := cap } } : ProfState).run cs = s at h
  simp only [ProfState.step, Collector.close]
  by_cases hk : s.col.kept = []
  · rw [if_neg (by simp [hk])]
    exact ⟨by have := h.all; simpa [hk] using this, h.size, h.calm⟩
  · rw [if_pos ⟨List.length_pos_iff.2 hk, trivial⟩]
    simp only [ProfState.send]
    obtain ⟨ps, hps, hfl, hsz, -⟩ := C34_slices s.col.kept b hb
    rw [hps]
    refine ⟨by simp [← h.all, hfl], ?_, h.calm⟩
    intro p hp
    rcases List.mem_append.1 hp with hp | hp
    · exact h.size p hp
    · exact ⟨(hsz p hp).1, le_trans (hsz p hp).2 hB⟩

/-- **C34**: `Close(false)` sends nothing more, and keeps back only the steps since the last full buffer: with the
limit on kept steps constant, fewer than that limit, and what was sent is a whole number of full buffers. -/
theorem C34_discard_keeps_back_less_than_a_buffer (keep : Int) (hkeep : 1 ≤ keep) (B : Int)
    (cs : List (Int × Int × ProfOp)) (b : Int)
    (hcs : ∀ c ∈ cs, c.1 = keep ∧ 1 ≤ c.2.1 ∧ c.2.1 ≤ B ∧ c.2.2.recording = true) :
    let s := ({ col := { cap := keep.toNat } } : ProfState).run (cs ++ [(keep, b, .close false)])
    s.packets = (({ col := { cap := keep.toNat } } : ProfState).run cs).packets ∧
    s.packets.flatten = s.recorded.take (s.recorded.length / keep.toNat * keep.toNat) ∧
    s.panicked = false := by
  have key : ∀ (cs : List (Int × Int × ProfOp)) (s : ProfState),
      (∀ c ∈ cs, c.1 = keep ∧ 1 ≤ c.2.1 ∧ c.2.1 ≤ B ∧ c.2.2.recording = true) →
      Sending B s → s.col.cap = keep.toNat → (∃ m, s.packets.flatten.length = m * keep.toNat) →
      Sending B (s.run cs) ∧ (s.run cs).col.cap = keep.toNat ∧ ∃ m, (s.run cs).packets.flatten.length = m * keep.toNat := by
    intro cs
    induction cs with
    | nil => intro s _ h1 h2 h3; exact ⟨h1, h2, h3⟩
    | cons c cs ih =>
      intro s hcs h1 h2 h3
      obtain ⟨k, b, o⟩ := c
      obtain ⟨hk, hb, hB, ho⟩ := hcs _ (List.mem_cons_self)
      simp only at hk hb hB ho
      subst hk
      have proc : ∀ (s : ProfState) (ptr : Nat), Sending B s → s.col.cap = k.toNat →
          (∃ m, s.packets.flatten.length = m * k.toNat) →
          (s.process k b ptr).col.cap = k.toNat ∧ ∃ m, (s.process k b ptr).packets.flatten.length = m * k.toNat := by
        intro s ptr h1 h2 h3
        have hroom := h1.room
        unfold ProfState.process
        simp only
        by_cases hfull : s.col.kept.length + 1 < s.col.cap
        · have e : s.col.process k ptr = ({ s.col with kept := s.col.kept ++ [ptr] }, .done) := by
            unfold Collector.process
            rw [if_neg (by omega)]; simp only
            rw [if_neg (by simp; omega)]
          rw [e]; exact ⟨h2, h3⟩
        · have e : s.col.process k ptr =
              ({ s.col with cap := k.toNat, kept := [] }, .full (s.col.kept ++ [ptr])) := by
            unfold Collector.process
            rw [if_neg (by omega)]; simp only
            rw [if_pos (by simp; omega), if_neg (by omega)]
          rw [e]
          simp only [ProfState.send]
          obtain ⟨ps, hps, hfl, -, -⟩ := C34_slices (s.col.kept ++ [ptr]) b hb
          rw [hps]
          obtain ⟨m, hm⟩ := h3
          refine ⟨rfl, m + 1, ?_⟩
          simp only [List.flatten_append, List.length_append, hm, hfl, List.length_singleton]
          have : (m + 1) * k.toNat = m * k.toNat + k.toNat := by ring
          omega
      have st : (s.step k b o).col.cap = k.toNat ∧ ∃ m, (s.step k b o).packets.flatten.length = m * k.toNat := by
        cases o with
        | push st => exact ⟨h2, h3⟩
        | pop ptr =>
          simp only [ProfState.step]
          split
          · exact ⟨h2, h3⟩
          · refine proc _ ptr ⟨?_, ?_, ?_, ?_⟩ h2 h3
            exacts [h1.all, h1.room, h1.size, h1.calm]
        | add st => exact proc _ _ ⟨h1.all, h1.room, h1.size, h1.calm⟩ h2 h3
        | close ok => simp [ProfOp.recording] at ho
      exact ih _ (fun c hc => hcs c (List.mem_cons_of_mem _ hc)) (h1.step k b hkeep hb hB o ho) st.1 st.2
  obtain ⟨h, hcap, m, hm⟩ := key cs { col := { cap := keep.toNat } } hcs (Sending.start B _ (by omega)) rfl ⟨0, by simp⟩
  simp only [run_append, ProfState.run]
  generalize ({ col := { cap := keep.toNat } } : ProfState).run cs = s at h hcap hm
  simp only [ProfState.step, Collector.close, Bool.false_eq_true, and_false, if_false]
  refine ⟨trivial, ?_, h.calm⟩
  have hroom := h.room
  have hlen : s.recorded.length = m * keep.toNat + s.col.kept.length := by
    rw [← h.all, List.length_append, hm]
  have hdiv : s.recorded.length / keep.toNat = m := by
    rw [hlen, Nat.add_comm, Nat.add_mul_div_right _ _ (by omega), Nat.div_eq_of_lt (by omega)]; omega
  rw [hdiv, ← hm, ← h.all]
  simp

/-- The limits must be positive: with a keep limit of 0 recording the first step panics, and with a packet limit of 0
filling the buffer does. -/
theorem C34_limits_needed (s : Step) :
    (({ col := { cap := 0 } } : ProfState).step 0 1 (.add s)).panicked = true ∧
    (({ col := { cap := 1 } } : ProfState).step 1 0 (.add s)).panicked = true := by
  constructor <;> rfl

/-- With a negative packet limit `-k`, of a buffer of at least `k` steps only the last (length mod `k`) are sent. -/
theorem C34_negative_limit_loses_steps {α : Type} (steps : List α) (k : Nat) (hk : 1 ≤ k) (hl : k ≤ steps.length) :
    (profileSlices steps (-(k : Int))).map List.flatten =
      some (steps.drop (steps.length - steps.length % k)) := by
  unfold profileSlices
  have hpos := Nat.div_pos hl (show 0 < k by omega)
  rw [if_neg (by omega), if_neg (by omega)]
  have hdiv : ((steps.length : Int).tdiv (-(k : Int))) = -((steps.length / k : Nat) : Int) := by
    rw [Int.tdiv_neg, Int.tdiv_eq_ediv_of_nonneg (by omega)]; simp
  have hmod : ((steps.length : Int).tmod (-(k : Int))) = ((steps.length % k : Nat) : Int) := by
    rw [Int.tmod_neg, Int.tmod_eq_emod_of_nonneg (by omega)]; simp
  have hdm := Nat.div_add_mod steps.length k
  have hcm : (steps.length / k) * k = k * (steps.length / k) := Nat.mul_comm _ _
  simp only [hdiv, hmod]
  rw [if_neg (by omega)]
  have e1 : (-((steps.length / k : Nat) : Int)).toNat = 0 := by omega
  have e2 : (-((steps.length / k : Nat) : Int) * -(k : Int)).toNat = steps.length / k * k := by
    rw [Int.neg_mul_neg, ← Int.natCast_mul]; exact Int.toNat_natCast _
  rw [e1, e2]
  simp only [profileLoop, Int.toNat_natCast]
  split
  · simp
    have : steps.length / k * k = steps.length - steps.length % k := by omega
    rw [this]
    apply List.take_of_length_le; rw [List.length_drop]; omega
  · rename_i h
    have : steps.length % k = 0 := by omega
    simp [this]

/-- Non-vacuity: five steps, keep 2, packets of at most 3 (then 1). -/
example :
    let a : Step := ⟨⟨0, 0, 0⟩, .message []⟩
    (({ col := { cap := 2 } } : ProfState).run
      ([(2, 3, .add a), (2, 3, .push a), (2, 1, .add a), (2, 3, .pop 1), (2, 3, .add a)] ++ [(2, 3, .close true)])).packets
      = [[0], [2], [1, 3]] := by decide +kernel

end Scouter
