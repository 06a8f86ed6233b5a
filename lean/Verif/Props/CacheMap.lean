import Verif.Model.CacheMap
import Verif.Proofs.Lra
/-! # C26, C27: the other caches -/
set_option linter.unusedSectionVars false

namespace Scouter

section Linked
variable {K V : Type} [DecidableEq K]
open CacheMap

theorem CacheMap.collect_eq (n : Nat) (l : List (K × Option V)) :
    collect n l = if n ≤ l.length then .ok ((l.take n).map (·.1)) else .panic := by
  induction n generalizing l with
  | zero => simp [collect]
  | succ n ih =>
    cases l with
    | nil => simp [collect]
    | cons p l =>
      rw [collect, ih]
      by_cases h : n ≤ l.length
      · rw [if_pos h, if_pos (by simpa using h)]; rfl
      · rw [if_neg h, if_neg (by simpa using h)]; rfl

theorem filter_prefix {A : Type} (f : A → K) (l : List A) (hn : (l.map f).Nodup) (n : Nat) (hl : n ≤ l.length) :
    (((l.take n).map f).foldl (fun (acc : List A) k => acc.filter (fun p => decide (f p ≠ k))) l) = l.drop n := by
  induction n generalizing l with
  | zero => rfl
  | succ n ih =>
    cases l with
    | nil => simp at hl
    | cons a l =>
      simp only [List.map_cons, List.nodup_cons] at hn
      rw [List.take_succ_cons, List.map_cons, List.foldl_cons, List.drop_succ_cons]
      have : (a :: l).filter (fun p => decide (f p ≠ f a)) = l := by
        rw [List.filter_cons_of_neg (by simp), List.filter_eq_self]
        intro x hx
        simp only [ne_eq, decide_not, Bool.not_eq_eq_eq_not, Bool.not_true, decide_eq_false_iff_not]
        exact fun e => hn.1 (e ▸ List.mem_map.mpr ⟨x, hx, rfl⟩)
      rw [this]
      exact ih l hn.2 (by simpa using hl)

theorem foldl_tableRemove (m : CacheMap K V) (ks : List K) :
    ks.foldl tableRemove m =
      { m with items := ks.foldl (fun (acc : List (K × Option V)) k => acc.filter (fun p => decide (p.1 ≠ k))) m.items } := by
  induction ks generalizing m with
  | nil => rfl
  | cons k ks ih => rw [List.foldl_cons, ih]; rfl

/-- The room made by `removeExceeded` for a bound of at least one. -/
theorem CacheMap.removeExceeded_eq (m : CacheMap K V) (hm : 1 ≤ m.max) (hn : (m.items.map (·.1)).Nodup) :
    m.removeExceeded = .ok { m with items := m.items.drop (m.items.length + 1 - m.max.toNat) } := by
  unfold removeExceeded
  simp only []
  split
  · rename_i h
    rw [show m.items.length + 1 - m.max.toNat = 0 by omega]; rfl
  · rename_i h
    rw [CacheMap.collect_eq, if_pos (by omega)]
    simp only [Go.ok_bind]
    rw [foldl_tableRemove, filter_prefix _ _ hn _ (by omega)]
    rw [show ((m.items.length : Int) - m.max).toNat + 1 = m.items.length + 1 - m.max.toNat by omega]

/-- C26, one call: adding a present key changes nothing; adding a new key appends it, after dropping exactly the oldest
entries needed to make room (none below the bound, the single oldest one at the bound). -/
theorem CacheMap.add_eq (m : CacheMap K V) (hm : 1 ≤ m.max) (hn : (m.items.map (·.1)).Nodup) (k : K) (v : Option V) :
    m.add k v = .ok (if m.contains k then m
      else { m with items := m.items.drop (m.items.length + 1 - m.max.toNat) ++ [(k, v)] }) := by
  unfold add CacheMap.contains
  cases hl : m.items.lookup k with
  | some _ => rfl
  | none => rw [CacheMap.removeExceeded_eq m hm hn]; rfl

/-- The facts kept by every call. -/
structure CacheMap.Good (max : Int) (m : CacheMap K V) : Prop where
  bound : m.max = max
  keys : (m.items.map (·.1)).Nodup
  len : (m.items.length : Int) ≤ max

theorem CacheMap.good_step {max : Int} (hm : 1 ≤ max) {m : CacheMap K V} (h : Good max m) (op : Op K V) :
    ∃ m', m.step op = .ok m' ∧ Good max m' := by
  cases op with
  | add k v =>
    have hb := h.bound
    refine ⟨_, CacheMap.add_eq m (by omega) h.keys k v, ?_⟩
    split
    · exact h
    · rename_i hc
      refine ⟨h.bound, ?_, ?_⟩
      · simp only [List.map_append, List.map_cons, List.map_nil]
        rw [List.nodup_append]
        refine ⟨((List.drop_sublist _ _).map _).nodup h.keys, by simp, ?_⟩
        intro a ha b hb
        rw [List.mem_singleton] at hb
        subst hb
        have : a ∈ m.items.map (·.1) := ((List.drop_sublist _ _).map _).subset ha
        intro e
        subst e
        unfold CacheMap.contains at hc
        cases hl : m.items.lookup a with
        | none => exact lookup_none.mp hl this
        | some _ => rw [hl] at hc; simp at hc
      · have := h.len
        simp only [List.length_append, List.length_drop, List.length_cons, List.length_nil]
        omega
  | remove k =>
    refine ⟨_, rfl, h.bound, (List.filter_sublist.map _).nodup h.keys, ?_⟩
    have := List.length_filter_le (fun p : K × Option V => decide (p.1 ≠ k)) m.items
    have := h.len
    simp only [CacheMap.remove, CacheMap.tableRemove]
    omega
  | clear => exact ⟨_, rfl, h.bound, by simp [CacheMap.clear], by simp [CacheMap.clear]; omega⟩

theorem CacheMap.good_run {max : Int} (hm : 1 ≤ max) {m : CacheMap K V} (h : Good max m) (ops : List (Op K V)) :
    ∃ m', m.run ops = .ok m' ∧ Good max m' := by
  induction ops generalizing m with
  | nil => exact ⟨m, rfl, h⟩
  | cons op ops ih =>
    obtain ⟨m1, h1, g1⟩ := CacheMap.good_step hm h op
    obtain ⟨m2, h2, g2⟩ := ih g1
    exact ⟨m2, by rw [CacheMap.run, h1]; exact h2, g2⟩

/-- C26: with a bound of at least one no call sequence panics, at most `max` entries are held, and their keys are
distinct. -/
theorem C26_map_bounded_and_distinct (max : Int) (hm : 1 ≤ max) (ops : List (Op K V)) :
    ∃ m, (CacheMap.new max : CacheMap K V).run ops = .ok m ∧ (m.size : Int) ≤ max ∧ (m.items.map (·.1)).Nodup := by
  obtain ⟨m, h, g⟩ := CacheMap.good_run (V := V) (K := K) hm (m := CacheMap.new max)
    ⟨rfl, by simp [CacheMap.new], by simp [CacheMap.new]; omega⟩ ops
  exact ⟨m, h, g.len, g.keys⟩

/-- C26: in every reachable state, adding a present key changes nothing; adding a new key below the bound appends it;
adding a new key at the bound removes exactly the oldest entry and appends the new one. -/
theorem C26_map_add (max : Int) (hm : 1 ≤ max) (ops : List (Op K V)) (m : CacheMap K V)
    (h : (CacheMap.new max : CacheMap K V).run ops = .ok m) (k : K) (v : Option V) :
    (m.contains k = true → m.add k v = .ok m) ∧
    (m.contains k = false → (m.size : Int) < max → m.add k v = .ok { m with items := m.items ++ [(k, v)] }) ∧
    (m.contains k = false → (m.size : Int) = max → m.add k v = .ok { m with items := m.items.tail ++ [(k, v)] }) := by
  obtain ⟨m', h', g⟩ := CacheMap.good_run (V := V) (K := K) hm (m := CacheMap.new max)
    ⟨rfl, by simp [CacheMap.new], by simp [CacheMap.new]; omega⟩ ops
  rw [h] at h'
  cases h'
  have hb := g.bound
  rw [CacheMap.add_eq m (by omega) g.keys k v]
  unfold CacheMap.size
  refine ⟨fun hc => by rw [hc]; rfl, fun hc hs => ?_, fun hc hs => ?_⟩
  · rw [hc, show m.items.length + 1 - m.max.toNat = 0 by omega]; rfl
  · rw [hc, show m.items.length + 1 - m.max.toNat = 1 by omega, List.drop_one]; rfl

/-- C26: the value of a key is the one of its insertion: `Get` after adding a present key still returns the old
value; after adding a new key it returns the new value. -/
theorem C26_map_first_value_kept (max : Int) (hm : 1 ≤ max) (ops : List (Op K V)) (m m' : CacheMap K V)
    (h : (CacheMap.new max : CacheMap K V).run ops = .ok m) (k : K) (v : Option V) (h' : m.add k v = .ok m') :
    m'.get k = if m.contains k then m.get k else v := by
  obtain ⟨m1, h1, g⟩ := CacheMap.good_run (V := V) (K := K) hm (m := CacheMap.new max)
    ⟨rfl, by simp [CacheMap.new], by simp [CacheMap.new]; omega⟩ ops
  rw [h] at h1
  cases h1
  obtain ⟨m2, h2, g2⟩ := CacheMap.good_step hm g (.add k v)
  have h2 : m.add k v = .ok m2 := h2
  rw [h'] at h2
  cases h2
  have hb := g.bound
  have ha := CacheMap.add_eq m (by omega) g.keys k v
  rw [h'] at ha
  have e := Go.ok.inj ha
  by_cases hc : m.contains k = true
  · rw [if_pos hc] at e ⊢; rw [e]
  · rw [if_neg hc] at e ⊢
    have : m'.items.lookup k = some v := by
      refine lookup_of_mem g2.keys ?_
      rw [e]; simp
    unfold CacheMap.get
    rw [this]; rfl

/-- C26: with a bound of zero or less the first `Add` panics. -/
theorem C26_map_nonpositive_bound_panics (max : Int) (hm : max ≤ 0) (k : K) (v : Option V) :
    (CacheMap.new max : CacheMap K V).add k v = .panic := by
  have : (CacheMap.new max : CacheMap K V).removeExceeded = .panic := by
    unfold CacheMap.removeExceeded
    simp only []
    rw [if_neg (by simp [CacheMap.new]; omega), CacheMap.collect_eq, if_neg (by simp [CacheMap.new])]
    rfl
  unfold CacheMap.add
  rw [this]
  rfl

end Linked

section LinkedSet
variable {K : Type} [DecidableEq K]
open CacheSet

theorem CacheSet.collect_eq (n : Nat) (l : List K) :
    collect n l = if n ≤ l.length then .ok (l.take n) else .panic := by
  induction n generalizing l with
  | zero => simp [collect]
  | succ n ih =>
    cases l with
    | nil => simp [collect]
    | cons p l =>
      rw [collect, ih]
      by_cases h : n ≤ l.length
      · rw [if_pos h, if_pos (by simpa using h)]; rfl
      · rw [if_neg h, if_neg (by simpa using h)]; rfl

theorem CacheSet.add_eq (m : CacheSet K) (hm : 1 ≤ m.max) (hn : m.items.Nodup) (k : K) :
    m.add k = .ok (if m.contains k then m
      else { m with items := m.items.drop (m.items.length + 1 - m.max.toNat) ++ [k] }) := by
  unfold add CacheSet.contains
  by_cases hk : k ∈ m.items
  · simp [hk]
  · rw [if_neg hk]
    have : m.removeExceeded = .ok { m with items := m.items.drop (m.items.length + 1 - m.max.toNat) } := by
      unfold removeExceeded
      simp only []
      split
      · rename_i h
        rw [show m.items.length + 1 - m.max.toNat = 0 by omega]; rfl
      · rename_i h
        rw [CacheSet.collect_eq, if_pos (by omega)]
        simp only [Go.ok_bind]
        have := filter_prefix (fun x : K => x) m.items (by simpa using hn)
          (((m.items.length : Int) - m.max).toNat + 1) (by omega)
        simp only [List.map_id'] at this
        rw [this]
        rw [show ((m.items.length : Int) - m.max).toNat + 1 = m.items.length + 1 - m.max.toNat by omega]
    rw [this]
    simp [hk]

structure CacheSet.Good (max : Int) (m : CacheSet K) : Prop where
  bound : m.max = max
  keys : m.items.Nodup
  len : (m.items.length : Int) ≤ max

theorem CacheSet.good_run {max : Int} (hm : 1 ≤ max) {m : CacheSet K} (h : Good max m) (ops : List (Op K)) :
    ∃ m', m.run ops = .ok m' ∧ Good max m' := by
  induction ops generalizing m with
  | nil => exact ⟨m, rfl, h⟩
  | cons op ops ih =>
    have hb := h.bound
    have : ∃ m', m.step op = .ok m' ∧ Good max m' := by
      cases op with
      | clear => exact ⟨_, rfl, h.bound, by simp [CacheSet.clear], by simp [CacheSet.clear]; omega⟩
      | add k =>
        refine ⟨_, CacheSet.add_eq m (by omega) h.keys k, ?_⟩
        split
        · exact h
        · rename_i hc
          refine ⟨h.bound, ?_, ?_⟩
          · rw [List.nodup_append]
            refine ⟨(List.drop_sublist _ _).nodup h.keys, by simp, ?_⟩
            intro a ha b hb e
            rw [List.mem_singleton] at hb
            subst hb; subst e
            exact hc (by simpa [CacheSet.contains] using (List.drop_sublist _ _).subset ha)
          · have := h.len
            simp only [List.length_append, List.length_drop, List.length_cons, List.length_nil]
            omega
    obtain ⟨m1, h1, g1⟩ := this
    obtain ⟨m2, h2, g2⟩ := ih g1
    exact ⟨m2, by rw [CacheSet.run, h1]; exact h2, g2⟩

/-- C26, set: bound, distinctness and the effect of an add in every reachable state. -/
theorem C26_set_behaviour (max : Int) (hm : 1 ≤ max) (ops : List (Op K)) :
    ∃ m, (CacheSet.new max : CacheSet K).run ops = .ok m ∧ (m.size : Int) ≤ max ∧ m.items.Nodup ∧
      ∀ k, (m.contains k = true → m.add k = .ok m) ∧
        (m.contains k = false → (m.size : Int) < max → m.add k = .ok { m with items := m.items ++ [k] }) ∧
        (m.contains k = false → (m.size : Int) = max → m.add k = .ok { m with items := m.items.tail ++ [k] }) := by
  obtain ⟨m, h, g⟩ := CacheSet.good_run (K := K) hm (m := CacheSet.new max)
    ⟨rfl, by simp [CacheSet.new], by simp [CacheSet.new]; omega⟩ ops
  refine ⟨m, h, g.len, g.keys, fun k => ?_⟩
  have hb := g.bound
  rw [CacheSet.add_eq m (by omega) g.keys k]
  unfold CacheSet.size
  refine ⟨fun hc => by rw [hc]; rfl, fun hc hs => ?_, fun hc hs => ?_⟩
  · rw [hc, show m.items.length + 1 - m.max.toNat = 0 by omega]; rfl
  · rw [hc, show m.items.length + 1 - m.max.toNat = 1 by omega, List.drop_one]; rfl

/-- C26, set: with a bound of zero or less the first `Add` panics. -/
theorem C26_set_nonpositive_bound_panics (max : Int) (hm : max ≤ 0) (k : K) :
    (CacheSet.new max : CacheSet K).add k = .panic := by
  have : (CacheSet.new max : CacheSet K).removeExceeded = .panic := by
    unfold CacheSet.removeExceeded
    simp only []
    rw [if_neg (by simp [CacheSet.new]; omega), CacheSet.collect_eq, if_neg (by simp [CacheSet.new])]
    rfl
  unfold CacheSet.add
  rw [this]
  simp [CacheSet.new]

end LinkedSet

example : (CacheMap.new 2 : CacheMap Nat String).run
    [.add 1 (some "a"), .add 2 (some "b"), .add 1 (some "z"), .add 3 (some "c")] =
    .ok { max := 2, items := [(2, some "b"), (3, some "c")] } := by decide

example : (CacheSet.new 2 : CacheSet Nat).run [.add 1, .add 2, .add 1, .add 3] = .ok { max := 2, items := [2, 3] } := by
  decide

section Second
variable {K V : Type} [DecidableEq K]
open CacheMap2

/-- The facts kept by every call on the second cache map. -/
structure CacheMap2.Good (max : Int) (m : CacheMap2 K V) : Prop where
  bound : m.max = max
  keys : (m.table.map (·.1)).Nodup
  tracked : ∀ k ∈ m.table.map (·.1), k ∈ m.ordering
  len : (m.ordering.length : Int) ≤ max

theorem CacheMap2.removeExceeded_good {max : Int} (hm : 1 ≤ max) (fuel : Nat) {m : CacheMap2 K V} (h : Good max m)
    (hf : m.ordering.length < fuel) :
    ∃ m', removeExceeded fuel m = .ok m' ∧ Good max m' ∧ (m'.ordering.length : Int) < max ∧
      m'.table.Sublist m.table := by
  induction fuel generalizing m with
  | zero => omega
  | succ fuel ih =>
    rw [removeExceeded]
    split
    · rename_i hge
      cases ho : m.ordering with
      | nil => rw [ho, h.bound] at hge; simp at hge; omega
      | cons k rest =>
        simp only []
        have hlen := h.len
        rw [ho] at hf hlen
        simp only [List.length_cons] at hf hlen
        have htr : ∀ x ∈ (m.table.filter (fun p => decide (p.1 ≠ k))).map (·.1), x ∈ rest := by
          intro x hx
          obtain ⟨p, hp, rfl⟩ := List.mem_map.mp hx
          obtain ⟨hp1, hp2⟩ := List.mem_filter.mp hp
          have := h.tracked p.1 (List.mem_map.mpr ⟨p, hp1, rfl⟩)
          rw [ho, List.mem_cons] at this
          rcases this with e | e
          · simp [e] at hp2
          · exact e
        obtain ⟨m', h1, h2, h3, h4⟩ := ih (m := { m with ordering := rest, table := m.table.filter (fun p => p.1 ≠ k) })
          ⟨h.bound, (List.filter_sublist.map _).nodup h.keys, htr, by simp only; omega⟩ (by simpa using hf)
        exact ⟨m', h1, h2, h3, h4.trans List.filter_sublist⟩
    · rename_i hlt
      exact ⟨m, rfl, h, by have := h.bound; omega, List.Sublist.refl _⟩

theorem CacheMap2.good_step {max : Int} (hm : 1 ≤ max) {m : CacheMap2 K V} (h : Good max m) (fuel : Nat)
    (hf : max < fuel) (op : CacheMap.Op K V) : ∃ m', m.step fuel op = .ok m' ∧ Good max m' := by
  cases op with
  | add k v =>
    simp only [CacheMap2.step, CacheMap2.add]
    cases hl : m.table.lookup k with
    | some _ => exact ⟨m, rfl, h⟩
    | none =>
      have := h.len
      obtain ⟨m', h1, h2, h3, h4⟩ := CacheMap2.removeExceeded_good hm fuel h (by omega)
      rw [h1]
      refine ⟨_, rfl, h2.bound, ?_, ?_, ?_⟩
      · simp only [List.map_append, List.map_cons, List.map_nil]
        rw [List.nodup_append]
        refine ⟨h2.keys, by simp, ?_⟩
        intro a ha b hb e
        rw [List.mem_singleton] at hb
        subst hb; subst e
        exact lookup_none.mp hl ((h4.map _).subset ha)
      · intro x hx
        rw [List.map_append, List.mem_append] at hx
        rcases hx with hx | hx
        · exact List.mem_append_left _ (h2.tracked x hx)
        · exact List.mem_append_right _ (by simpa using hx)
      · simp only [List.length_append, List.length_cons, List.length_nil]; omega
  | remove k =>
    refine ⟨_, rfl, h.bound, (List.filter_sublist.map _).nodup h.keys, ?_, h.len⟩
    intro x hx
    exact h.tracked x ((List.filter_sublist.map _).subset hx)
  | clear => exact ⟨_, rfl, h.bound, by simp [CacheMap2.clear], by simp [CacheMap2.clear], by
      simp [CacheMap2.clear]; omega⟩

theorem CacheMap2.good_run {max : Int} (hm : 1 ≤ max) {m : CacheMap2 K V} (h : Good max m) (fuel : Nat)
    (hf : max < fuel) (ops : List (CacheMap.Op K V)) : ∃ m', m.run fuel ops = .ok m' ∧ Good max m' := by
  induction ops generalizing m with
  | nil => exact ⟨m, rfl, h⟩
  | cons op ops ih =>
    obtain ⟨m1, h1, g1⟩ := CacheMap2.good_step hm h fuel hf op
    obtain ⟨m2, h2, g2⟩ := ih g1
    exact ⟨m2, by rw [CacheMap2.run, h1]; exact h2, g2⟩

theorem nodup_length_le {l l' : List K} (hn : l.Nodup) (hs : ∀ x ∈ l, x ∈ l') : l.length ≤ l'.length := by
  induction l generalizing l' with
  | nil => simp
  | cons a l ih =>
    rw [List.nodup_cons] at hn
    have ha := hs a (by simp)
    have : l.length ≤ (l'.erase a).length := by
      apply ih hn.2
      intro x hx
      have hne : x ≠ a := fun e => hn.1 (e ▸ hx)
      exact (List.mem_erase_of_ne hne).mpr (hs x (by simp [hx]))
    rw [List.length_erase_of_mem ha] at this
    have := List.length_pos_of_mem ha
    simp only [List.length_cons]
    omega

/-- C27: with a bound of at least one every call returns (the eviction loop ends within bound + 1 rounds), at most
`max` entries are held, and every held key is in the eviction order. -/
theorem C27_bounded_and_tracked (max : Int) (hm : 1 ≤ max) (fuel : Nat) (hf : max < fuel)
    (ops : List (CacheMap.Op K V)) :
    ∃ m, (CacheMap2.new max : CacheMap2 K V).run fuel ops = .ok m ∧ (m.table.length : Int) ≤ max ∧
      (m.table.map (·.1)).Nodup ∧ (∀ k, m.contains k = true → k ∈ m.ordering) ∧ (m.size : Int) ≤ max := by
  obtain ⟨m, h, g⟩ := CacheMap2.good_run (K := K) (V := V) hm (m := CacheMap2.new max)
    ⟨rfl, by simp [CacheMap2.new], by simp [CacheMap2.new], by simp [CacheMap2.new]; omega⟩ fuel hf ops
  refine ⟨m, h, ?_, g.keys, ?_, g.len⟩
  · have := nodup_length_le g.keys g.tracked
    have := g.len
    rw [List.length_map] at *
    omega
  · intro k hk
    apply g.tracked
    apply Classical.byContradiction
    intro hn
    unfold CacheMap2.contains at hk
    rw [lookup_none.mpr hn] at hk; cases hk

/-- C27: with a bound of zero or less an `Add` never returns: however many rounds the loop is given, it is not done. -/
theorem C27_nonpositive_bound_loops (max : Int) (hm : max ≤ 0) (fuel : Nat) (k : K) (v : Option V) :
    (CacheMap2.new max : CacheMap2 K V).add fuel k v = .fuel := by
  have : ∀ fuel, removeExceeded fuel (CacheMap2.new max : CacheMap2 K V) = .fuel := by
    intro fuel
    induction fuel with
    | zero => rfl
    | succ n ih => rw [removeExceeded, if_pos (by simp [CacheMap2.new]; omega)]; exact ih
  unfold CacheMap2.add
  rw [this]
  rfl

end Second

/-- C27: after a `Remove`, `Size` no longer is the number of held entries. -/
theorem C27_size_wrong_after_remove :
    ∃ m, (CacheMap2.new 3 : CacheMap2 Nat String).run 10 [.add 1 (some "a"), .remove 1] = .ok m ∧
      m.size = 1 ∧ m.table = [] := ⟨_, rfl, rfl, rfl⟩

/-- C27: a key removed and added again is evicted before an older key (1 was re-added after 2, yet 1 goes first). -/
theorem C27_readded_key_evicted_early :
    ∃ m, (CacheMap2.new 3 : CacheMap2 Nat String).run 10
        [.add 1 (some "a"), .add 2 (some "b"), .remove 1, .add 1 (some "c"), .add 4 (some "d")] = .ok m ∧
      m.contains 2 = true ∧ m.contains 1 = false := ⟨_, rfl, by decide, by decide⟩

end Scouter
