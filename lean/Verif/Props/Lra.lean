import Verif.Proofs.Lra
/-! # C23, C24, C25: the bounded cache -/
set_option linter.unusedSectionVars false
set_option linter.unusedSimpArgs false

namespace Scouter
open Spec

section
variable {K V : Type} [DecidableEq K]

/-- The cache after some calls on a new one. -/
def lraAfter (max : Int) (cb : Bool) (ops : List (LraOp K V)) : Cache K V := ((Cache.new max cb).run ops).1

theorem lraAfter_rel (max : Int) (cb : Bool) (ops : List (LraOp K V)) :
    Cache.Rel (lraAfter max cb ops) (({ bound := max } : OMap K V).run ops).1 :=
  ((Cache.Rel.new max cb).run ops).1

theorem step_const (c : Cache K V) (op : LraOp K V) : (c.step op).1.max = c.max ∧ (c.step op).1.hasCb = c.hasCb := by
  have hre : ∀ (c : Cache K V) (e : Elem K V),
      (c.removeElement e).max = c.max ∧ (c.removeElement e).hasCb = c.hasCb := by
    intro c e
    exact ⟨(Cache.callback_same _ _ _).2.2.2.1, (Cache.callback_same _ _ _).2.2.2.2.1⟩
  cases op with
  | add k v =>
    simp only [Cache.step, Cache.add]
    split
    · exact ⟨rfl, rfl⟩
    · split
      · unfold Cache.removeOldest
        split
        · exact hre _ _
        · exact ⟨rfl, rfl⟩
      · exact ⟨rfl, rfl⟩
  | remove k =>
    simp only [Cache.step, Cache.remove]
    split
    · split
      · exact hre _ _
      · exact ⟨rfl, rfl⟩
    · exact ⟨rfl, rfl⟩
  | get k => exact ⟨rfl, rfl⟩
  | contains k => exact ⟨rfl, rfl⟩
  | empty => exact ⟨rfl, rfl⟩
  | size => exact ⟨rfl, rfl⟩
  | clear o => exact ⟨rfl, rfl⟩
  | values o => exact ⟨rfl, rfl⟩

theorem run_const (c : Cache K V) (ops : List (LraOp K V)) :
    (c.run ops).1.max = c.max ∧ (c.run ops).1.hasCb = c.hasCb := by
  induction ops generalizing c with
  | nil => exact ⟨rfl, rfl⟩
  | cons op ops ih =>
    have h1 := step_const c op
    have h2 := ih (c.step op).1
    exact ⟨h2.1.trans h1.1, h2.2.trans h1.2⟩

theorem lraAfter_max (max : Int) (cb : Bool) (ops : List (LraOp K V)) :
    (lraAfter max cb ops).max = max ∧ (lraAfter max cb ops).hasCb = cb := run_const _ _

/-- C23: every answer of any call sequence is that of the insertion-ordered map. -/
theorem C23_cache_is_insertion_ordered_map (max : Int) (cb : Bool) (ops : List (LraOp K V)) :
    SameOuts ((Cache.new max cb).run ops).2 (({ bound := max } : OMap K V).run ops).2 :=
  ((Cache.Rel.new max cb).run ops).2

/-- C23: after adding a key (bound 0 or positive) `Get` returns the value just added, and other present keys that
stay present keep theirs. -/
theorem C23_get_returns_last_added (max : Int) (cb : Bool) (ops : List (LraOp K V)) (k : K) (v : Option V)
    (hm : 0 ≤ max) :
    ((lraAfter max cb ops).add k v).get k = v ∧ ((lraAfter max cb ops).add k v).contains k = true ∧
    (∀ k', k' ≠ k → ((lraAfter max cb ops).add k v).contains k' = true →
      (lraAfter max cb ops).contains k' = true ∧
      ((lraAfter max cb ops).add k v).get k' = (lraAfter max cb ops).get k') := by
  have hr := lraAfter_rel max cb ops
  have hmx := (lraAfter_max max cb ops).1
  generalize lraAfter max cb ops = c at hr hmx ⊢
  generalize (({ bound := max } : OMap K V).run ops).1 = m at hr
  have hr2 := hr.add k v
  have hmb : m.bound = max := by rw [hr.bound, hmx]
  have hnd := hr2.inv.abs_nodup
  rw [hr2.inv.get_eq, hr2.inv.contains_eq]
  have key : ∀ k' v', (k', v') ∈ (m.add k v).entries → (k' = k ∧ v' = v) ∨ (k' ≠ k ∧ (k', v') ∈ m.entries) := by
    intro k' v' hmem
    unfold OMap.add at hmem
    split at hmem
    · obtain ⟨p, hp, he⟩ := List.mem_map.mp hmem
      split at he
      · cases he; exact .inl ⟨rfl, rfl⟩
      · rename_i hne; cases he; exact .inr ⟨hne, hp⟩
    · rename_i hk
      have hsub : (k', v') ∈ m.entries ++ [(k, v)] := by
        simp only [] at hmem
        split at hmem
        · exact List.mem_of_mem_tail hmem
        · exact hmem
      rcases List.mem_append.mp hsub with h | h
      · exact .inr ⟨fun e => hk (e ▸ List.mem_map.mpr ⟨_, h, rfl⟩), h⟩
      · rw [List.mem_singleton] at h; cases h; exact .inl ⟨rfl, rfl⟩
  have hin : (k, v) ∈ (m.add k v).entries := by
    unfold OMap.add
    split
    · rename_i hk
      obtain ⟨p, hp, rfl⟩ := List.mem_map.mp hk
      exact List.mem_map.mpr ⟨p, hp, by simp⟩
    · simp only []
      split
      · rename_i h
        cases he : m.entries with
        | nil => rw [he, hmb] at h; simp at h; omega
        | cons a l => simp
      · simp
  rw [hr2.entries] at hin key
  refine ⟨by rw [lookup_of_mem hnd hin]; rfl, by rw [lookup_of_mem hnd hin]; rfl, ?_⟩
  intro k' hne hc
  rw [hr2.inv.contains_eq] at hc
  rw [hr2.inv.get_eq, hr.inv.get_eq, hr.inv.contains_eq]
  cases hl : ((c.add k v).abs).lookup k' with
  | none => rw [hl] at hc; cases hc
  | some v' =>
    rcases key k' v' (mem_of_lookup hl) with h | ⟨_, h⟩
    · exact absurd h.1 hne
    · rw [hr.entries] at h
      rw [lookup_of_mem hr.inv.abs_nodup h]; exact ⟨rfl, rfl⟩

/-- C23: adding a new key at a positive bound changes the size from `n` to `min (n+1) bound`; adding a present key
leaves the size unchanged. -/
theorem C23_size_after_add (max : Int) (cb : Bool) (ops : List (LraOp K V)) (k : K) (v : Option V) (hm : 0 < max) :
    (((lraAfter max cb ops).add k v).size : Int) =
      if (lraAfter max cb ops).contains k then ((lraAfter max cb ops).size : Int)
      else min ((lraAfter max cb ops).size + 1) max := by
  have hr := lraAfter_rel max cb ops
  have hmx := (lraAfter_max max cb ops).1
  have hb : ∀ ops : List (LraOp K V), ∀ m : OMap K V, m.bound = max → (m.entries.length : Int) ≤ max →
      ((m.run ops).1.entries.length : Int) ≤ max := by
    intro ops
    induction ops with
    | nil => intro m _ h; exact h
    | cons op ops ih =>
      intro m hmb h
      refine ih _ ?_ ?_
      · cases op <;> simp only [OMap.step, OMap.add, OMap.remove, OMap.clear] <;> repeat' split <;> try exact hmb
        all_goals exact hmb
      · cases op with
        | add k v =>
          simp only [OMap.step, OMap.add]
          split
          · simpa using h
          · split
            · simp; omega
            · rename_i hcond
              rw [hmb] at hcond
              simp only []
              omega
        | remove k =>
          simp only [OMap.step, OMap.remove]
          have := List.length_filter_le (fun p => decide (p.1 ≠ k)) m.entries
          omega
        | clear o => simp [OMap.step, OMap.clear]; omega
        | get k => exact h
        | contains k => exact h
        | empty => exact h
        | size => exact h
        | values o => exact h
  have hle := hb ops { bound := max } rfl (by simp; omega)
  generalize lraAfter max cb ops = c at hr hmx ⊢
  generalize (({ bound := max } : OMap K V).run ops).1 = m at hr hle
  have hr2 := hr.add k v
  have hmb : m.bound = max := by rw [hr.bound, hmx]
  have e1 : ((c.add k v).size) = (m.add k v).entries.length := by
    rw [hr2.entries, Cache.abs_length]; rfl
  have e2 : c.size = m.entries.length := by rw [hr.entries, Cache.abs_length]; rfl
  rw [e1, e2, hr.inv.contains_eq, ← hr.entries]
  unfold OMap.add
  by_cases hk : k ∈ m.entries.map (·.1)
  · have : (m.entries.lookup k).isSome = true := by
      cases hl : m.entries.lookup k with
      | none => exact absurd hk (lookup_none.mp hl)
      | some _ => rfl
    rw [if_pos hk, this]; simp
  · rw [if_neg hk, lookup_none.mpr hk]
    simp only [Option.isSome_none, Bool.false_eq_true, if_false, hmb]
    split
    · rename_i h
      simp at h ⊢; omega
    · rename_i h
      simp at h ⊢; omega

/-- C24: with a positive bound the size never exceeds it. -/
theorem C24_never_exceeds_bound (max : Int) (cb : Bool) (ops : List (LraOp K V)) (hm : 0 < max) :
    ((lraAfter max cb ops).size : Int) ≤ max := by
  have key : ∀ (ops : List (LraOp K V)) (c : Cache K V), c.max = max → c.Inv → (c.size : Int) ≤ max →
      ((c.run ops).1.size : Int) ≤ max := by
    intro ops
    induction ops with
    | nil => intro c _ _ h; exact h
    | cons op ops ih =>
      intro c hc hi h
      have hrel : Cache.Rel { c with hasCb := false } { bound := c.max, entries := c.abs } :=
        ⟨⟨hi.ids, hi.keys, hi.tbl, hi.fresh⟩, rfl, rfl, fun h => by cases h⟩
      have hinv : (c.step op).1.Inv := by
        by_cases hcb : c.hasCb = true
        · exact (Cache.Rel.step (m := { bound := c.max, entries := c.abs, departed := c.evicted })
            ⟨hi, rfl, rfl, fun _ => List.Perm.refl _⟩ op).1.inv
        · exact (Cache.Rel.step (m := { bound := c.max, entries := c.abs })
            ⟨hi, rfl, rfl, fun h => absurd h hcb⟩ op).1.inv
      refine ih _ ((step_const c op).1.trans hc) hinv ?_
      have hre : ∀ (c : Cache K V) (e : Elem K V), (c.removeElement e).size ≤ c.size := by
        intro c e
        unfold Cache.size Cache.removeElement
        rw [(Cache.callback_same _ _ _).1]
        exact List.length_filter_le _ _
      cases op with
      | add k v =>
        simp only [Cache.step, Cache.add]
        split
        · simpa [Cache.size] using h
        · rename_i hl
          split
          · unfold Cache.removeOldest
            split
            · rename_i e he
              have hlt : (c.size : Int) ≤ max := h
              simp only at he
              -- the last element is really removed
              have hmem := List.mem_of_getLast? he
              unfold Cache.size Cache.removeElement
              rw [(Cache.callback_same _ _ _).1]
              simp only []
              have : (List.filter (fun x => decide (x.id ≠ e.id))
                  ({ id := c.next, key := k, value := v } :: c.lst)).length < c.lst.length + 1 := by
                have h1 := List.length_filter_lt_length_iff_exists
                  (l := ({ id := c.next, key := k, value := v } :: c.lst : List (Elem K V)))
                  (p := fun x => decide (x.id ≠ e.id))
                rw [List.length_cons] at h1
                exact h1.mpr ⟨e, hmem, by simp⟩
              unfold Cache.size at h
              omega
            · rename_i he
              simp at he
          · rename_i hcond
            simp only [hc] at hcond
            simp only [Cache.size, List.length_cons] at hcond ⊢
            omega
      | remove k =>
        simp only [Cache.step, Cache.remove]
        split
        · split
          · have := hre c (by assumption); omega
          · exact h
        · exact h
      | clear o => simp [Cache.step, Cache.clear, Cache.size]; omega
      | get k => exact h
      | contains k => exact h
      | empty => exact h
      | size => exact h
      | values o => exact h
  exact key ops _ rfl (Cache.inv_new max cb) (by simp [Cache.new, Cache.size]; omega)

/-- C24: after any calls the keys in the age list are distinct and the index holds exactly the entries of the age
list: each key points to its own element, each element is indexed. -/
theorem C24_index_and_list_agree (max : Int) (cb : Bool) (ops : List (LraOp K V)) :
    ((lraAfter max cb ops).lst.map (·.key)).Nodup ∧
    (lraAfter max cb ops).table.Perm ((lraAfter max cb ops).lst.map (fun e => (e.key, e.id))) ∧
    ((lraAfter max cb ops).table.map (·.1)).Nodup ∧
    (∀ e ∈ (lraAfter max cb ops).lst, (lraAfter max cb ops).get e.key = e.value) := by
  have hr := (lraAfter_rel max cb ops).inv
  refine ⟨hr.keys, hr.tbl, hr.tkeys, fun e he => ?_⟩
  rw [hr.get_eq, lookup_of_mem hr.abs_nodup (Cache.mem_abs he)]; rfl

/-- C24: with bound 0 an add evicts nothing. -/
theorem C24_unbounded_keeps_everything (cb : Bool) (ops : List (LraOp K V)) (k k' : K) (v : Option V)
    (h : (lraAfter 0 cb ops).contains k' = true) : ((lraAfter 0 cb ops).add k v).contains k' = true := by
  have hr := lraAfter_rel 0 cb ops
  have hmx := (lraAfter_max 0 cb ops).1
  generalize lraAfter 0 cb ops = c at hr hmx h ⊢
  generalize (({ bound := 0 } : OMap K V).run ops).1 = m at hr
  have hr2 := hr.add k v
  have hmb : m.bound = 0 := by rw [hr.bound, hmx]
  rw [hr.inv.contains_eq, ← hr.entries] at h
  rw [hr2.inv.contains_eq, ← hr2.entries]
  have hin : k' ∈ m.entries.map (·.1) := by
    apply Classical.byContradiction
    intro hn; rw [lookup_none.mpr hn] at h; cases h
  have hin2 : k' ∈ (m.add k v).entries.map (·.1) := by
    unfold OMap.add
    split
    · rename_i hk
      rw [List.map_map]
      obtain ⟨p, hp, rfl⟩ := List.mem_map.mp hin
      refine List.mem_map.mpr ⟨p, hp, ?_⟩
      simp only [Function.comp_apply]; split
      · rename_i e; exact e.symm
      · rfl
    · simp only [hmb]
      rw [if_neg (by simp)]
      rw [List.map_append]; exact List.mem_append_left _ hin
  cases hl : (m.add k v).entries.lookup k' with
  | none => exact absurd hin2 (lookup_none.mp hl)
  | some _ => rfl

/-- How often a key is inserted (added while absent) along a call sequence. -/
def insertions (k : K) (c : Cache K V) : List (LraOp K V) → Nat
  | [] => 0
  | op :: ops =>
    (match op with
      | .add k' _ => if k' = k ∧ c.contains k = false then 1 else 0
      | _ => 0) + insertions k (c.step op).1 ops

/-- C25: the callback log is exactly the list of entries that left the insertion-ordered map, each with the value it
had when it left (map iteration order during `Clear` aside). -/
theorem C25_callback_log_is_departures (max : Int) (ops : List (LraOp K V)) :
    (lraAfter max true ops).evicted.Perm (({ bound := max } : OMap K V).run ops).1.departed :=
  (lraAfter_rel max true ops).log (lraAfter_max max true ops).2

theorem countKey_step (k : K) {c : Cache K V} {m : OMap K V} (h : Cache.Rel c m) (op : LraOp K V) :
    ((m.step op).1.departed ++ (m.step op).1.entries).countP (fun p => p.1 = k) =
      (m.departed ++ m.entries).countP (fun p => p.1 = k) +
      (match op with
        | .add k' _ => if k' = k ∧ c.contains k = false then 1 else 0
        | _ => 0) := by
  cases op with
  | add k' v =>
    simp only [OMap.step]
    have hc : c.contains k = false ↔ k ∉ m.entries.map (·.1) := by
      rw [h.inv.contains_eq, ← h.entries, ← lookup_none]
      cases m.entries.lookup k <;> simp
    unfold OMap.add
    split
    · rename_i hk
      have : ¬ (k' = k ∧ c.contains k = false) := by
        rintro ⟨rfl, h2⟩; exact hc.mp h2 hk
      rw [if_neg this, Nat.add_zero]
      simp only [List.countP_append]
      congr 1
      rw [List.countP_map]
      apply List.countP_congr
      intro p _
      simp only [Function.comp_apply]
      split
      · rename_i e; rw [e]
      · rfl
    · rename_i hk
      have e : (if k' = k ∧ c.contains k = false then 1 else 0) = [(k', v)].countP (fun p => decide (p.1 = k)) := by
        by_cases hkk : k' = k
        · subst hkk
          rw [if_pos ⟨rfl, hc.mpr hk⟩]; simp
        · rw [if_neg (fun h => hkk h.1)]; simp [hkk]
      rw [e]
      simp only []
      split
      · simp only [List.append_assoc]
        rw [show (m.entries ++ [(k', v)]).take 1 ++ (m.entries ++ [(k', v)]).tail = m.entries ++ [(k', v)] by
          cases m.entries <;> simp]
        simp only [List.countP_append]; omega
      · simp only [List.countP_append]; omega
  | remove k' =>
    simp only [OMap.step, OMap.remove, List.countP_append, Nat.add_zero]
    have : ∀ l : List (K × Option V), (l.filter (fun p => decide (p.1 = k'))).countP (fun p => decide (p.1 = k)) +
        (l.filter (fun p => decide (p.1 ≠ k'))).countP (fun p => decide (p.1 = k)) =
        l.countP (fun p => decide (p.1 = k)) := by
      intro l
      induction l with
      | nil => rfl
      | cons a l ih =>
        by_cases ha : a.1 = k'
        · simp only [ha, List.filter_cons, decide_true, if_true, ne_eq, not_true, decide_false, List.countP_cons] at ih ⊢
          simp only [Bool.false_eq_true, if_false]
          omega
        · simp only [ha, List.filter_cons, decide_false, ne_eq, not_false_eq_true, decide_true, if_true,
            List.countP_cons] at ih ⊢
          simp only [Bool.false_eq_true, if_false, List.countP_cons]
          omega
    have := this m.entries
    omega
  | clear o => simp [OMap.step, OMap.clear]
  | get k => rfl
  | contains k => rfl
  | empty => rfl
  | size => rfl
  | values o => rfl

theorem countKey_run (k : K) {c : Cache K V} {m : OMap K V} (h : Cache.Rel c m) (ops : List (LraOp K V)) :
    ((m.run ops).1.departed ++ (m.run ops).1.entries).countP (fun p => p.1 = k) =
      (m.departed ++ m.entries).countP (fun p => p.1 = k) + insertions k c ops := by
  induction ops generalizing c m with
  | nil => rfl
  | cons op ops ih =>
    have h1 := ih (h.step op).1
    have h2 := countKey_step k h op
    simp only [OMap.run, insertions] at h1 ⊢
    rw [h1, h2, Nat.add_assoc]

/-- C25: every insertion of a key is accounted for: reported to the callback exactly once, or still present. -/
theorem C25_each_insertion_reported_once (max : Int) (ops : List (LraOp K V)) (k : K) :
    insertions k (Cache.new max true) ops =
      (lraAfter max true ops).evicted.countP (fun p => p.1 = k) +
      (if (lraAfter max true ops).contains k then 1 else 0) := by
  have hr := lraAfter_rel max true ops
  have h1 := countKey_run k (Cache.Rel.new max true) ops
  have h2 := (C25_callback_log_is_departures max ops).countP_eq (fun p => decide (p.1 = k))
  rw [List.countP_append] at h1
  simp only [List.append_nil, List.countP_nil, Nat.zero_add] at h1
  rw [← h1, ← h2]
  congr 1
  rw [hr.inv.contains_eq, hr.entries]
  have hn := hr.inv.abs_nodup
  generalize (lraAfter max true ops).abs = l at hn
  induction l with
  | nil => rfl
  | cons p l ih =>
    obtain ⟨k', v'⟩ := p
    simp only [List.map_cons, List.nodup_cons] at hn
    rw [List.lookup_cons, List.countP_cons]
    by_cases hk : k = k'
    · subst hk
      have : l.countP (fun p => decide (p.1 = k)) = 0 := by
        rw [List.countP_eq_zero]
        intro x hx
        simp only [decide_eq_true_eq]
        exact fun e => hn.1 (List.mem_map.mpr ⟨x, hx, e⟩)
      simp [this]
    · have hb : (k == k') = false := by simpa using hk
      rw [hb]
      simp only [decide_eq_true_eq]
      rw [if_neg (fun e => hk e.symm)]
      exact ih hn.2

/-- C25: a removal reports the key with the value `Get` would have returned just before. -/
theorem C25_remove_reports_current_value (max : Int) (ops : List (LraOp K V)) (k : K)
    (h : (lraAfter max true ops).contains k = true) :
    ((lraAfter max true ops).remove k).evicted =
      (lraAfter max true ops).evicted ++ [(k, (lraAfter max true ops).get k)] := by
  have hr := (lraAfter_rel max true ops).inv
  have hcb := (lraAfter_max max true ops).2
  generalize lraAfter max true ops = c at hr hcb h ⊢
  unfold Cache.contains at h
  unfold Cache.remove Cache.get
  cases hl : c.table.lookup k with
  | none => rw [hl] at h; cases h
  | some id =>
    obtain ⟨e, he, rfl, rfl⟩ := hr.lookup_some hl
    simp only [hr.deref_mem he, Option.bind_some]
    rw [(Cache.removeElement_inv hr he).2.2.2.2, if_pos hcb]

end

/-! Concrete histories meeting the hypotheses. -/

/-- Bound 2: adding 1, 2, re-adding 1, adding 3 evicts 1 (its age was not refreshed) with its last value. -/
example : (lraAfter 2 true [.add 1 (some "a"), .add 2 (some "b"), .add 1 (some "c"), .add 3 (some "d")] :
    Cache Nat String).evicted = [(1, some "c")] := by decide

example : ((Cache.new 2 true : Cache Nat String).run
    [.add 1 (some "a"), .add 2 (some "b"), .get 1, .add 3 none, .contains 1, .size, .get 3, .remove 2, .empty]).2 =
    [.unit, .unit, .value (some "a"), .unit, .bool false, .int 2, .value none, .unit, .bool false] := by decide

end Scouter
