import Verif.Spec.OMap
/-! # Lemmas about the bounded cache -/
set_option linter.unusedSectionVars false

namespace Scouter
open Spec

section Assoc
variable {K A : Type} [DecidableEq K]

theorem lookup_of_mem {l : List (K × A)} (hn : (l.map (·.1)).Nodup) {k : K} {a : A} (h : (k, a) ∈ l) :
    l.lookup k = some a := by
  induction l with
  | nil => cases h
  | cons p l ih =>
    obtain ⟨k', a'⟩ := p
    simp only [List.map_cons, List.nodup_cons] at hn
    rw [List.lookup_cons]
    rcases List.mem_cons.mp h with e | e
    · cases e; simp
    · have : k ≠ k' := fun e' => hn.1 (e' ▸ List.mem_map.mpr ⟨_, e, rfl⟩)
      have hb : (k == k') = false := by simpa using this
      rw [hb]; exact ih hn.2 e

theorem mem_of_lookup {l : List (K × A)} {k : K} {a : A} (h : l.lookup k = some a) : (k, a) ∈ l := by
  induction l with
  | nil => cases h
  | cons p l ih =>
    obtain ⟨k', a'⟩ := p
    rw [List.lookup_cons] at h
    split at h
    · rename_i hb
      have : k = k' := by simpa using hb
      cases h; subst this; exact List.mem_cons_self
    · exact List.mem_cons_of_mem _ (ih h)

theorem lookup_none {l : List (K × A)} {k : K} : l.lookup k = none ↔ k ∉ l.map (·.1) := by
  induction l with
  | nil => simp
  | cons p l ih =>
    obtain ⟨k', a'⟩ := p
    rw [List.lookup_cons]
    split
    · rename_i hb
      have : k = k' := by simpa using hb
      simp [this]
    · rename_i hb
      have : k ≠ k' := by simpa using hb
      rw [ih]; simp [this]

theorem lookup_perm {l l' : List (K × A)} (hn : (l.map (·.1)).Nodup) (h : l.Perm l') (k : K) :
    l.lookup k = l'.lookup k := by
  have hn' : (l'.map (·.1)).Nodup := (h.map _).nodup_iff.mp hn
  cases hl : l'.lookup k with
  | none => rw [lookup_none] at hl ⊢; exact fun m => hl ((h.map _).mem_iff.mp m)
  | some a => exact lookup_of_mem hn (h.mem_iff.mpr (mem_of_lookup hl))

end Assoc

theorem filterMap_congr' {A B : Type} {f g : A → Option B} {l : List A} (h : ∀ x ∈ l, f x = g x) :
    l.filterMap f = l.filterMap g := by
  induction l with
  | nil => rfl
  | cons a l ih =>
    rw [List.filterMap_cons, List.filterMap_cons, h a List.mem_cons_self,
      ih (fun x hx => h x (List.mem_cons_of_mem _ hx))]

namespace Cache
variable {K V : Type} [DecidableEq K]

/-- The representation invariant. -/
structure Inv (c : Cache K V) : Prop where
  ids : (c.lst.map (·.id)).Nodup
  keys : (c.lst.map (·.key)).Nodup
  tbl : c.table.Perm (c.lst.map (fun e => (e.key, e.id)))
  fresh : ∀ e ∈ c.lst, e.id < c.next

theorem inv_new (max : Int) (cb : Bool) : (new max cb : Cache K V).Inv :=
  ⟨by simp [new], by simp [new], by simp [new], by simp [new]⟩

/-- The abstract entries: oldest first. -/
def abs (c : Cache K V) : List (K × Option V) := c.lst.reverse.map (fun e => (e.key, e.value))

theorem Inv.tkeys {c : Cache K V} (h : c.Inv) : (c.table.map (·.1)).Nodup := by
  have := (h.tbl.map (·.1)).nodup_iff
  rw [this, List.map_map]; exact h.keys

theorem Inv.lookup_some {c : Cache K V} (h : c.Inv) {k : K} {id : Nat} (hl : c.table.lookup k = some id) :
    ∃ e ∈ c.lst, e.key = k ∧ e.id = id := by
  have := h.tbl.mem_iff.mp (mem_of_lookup hl)
  obtain ⟨e, he, heq⟩ := List.mem_map.mp this
  cases heq
  exact ⟨e, he, rfl, rfl⟩

theorem Inv.lookup_mem {c : Cache K V} (h : c.Inv) {e : Elem K V} (he : e ∈ c.lst) :
    c.table.lookup e.key = some e.id :=
  lookup_of_mem h.tkeys (h.tbl.mem_iff.mpr (List.mem_map.mpr ⟨e, he, rfl⟩))

theorem Inv.lookup_none {c : Cache K V} (h : c.Inv) {k : K} :
    c.table.lookup k = none ↔ k ∉ c.lst.map (·.key) := by
  rw [Scouter.lookup_none, (h.tbl.map (·.1)).mem_iff, List.map_map]; rfl

theorem eq_of_id {l : List (Elem K V)} (hn : (l.map (·.id)).Nodup) {e e' : Elem K V} (h : e ∈ l) (h' : e' ∈ l)
    (hid : e.id = e'.id) : e = e' := by
  induction l with
  | nil => cases h
  | cons x l ih =>
    simp only [List.map_cons, List.nodup_cons] at hn
    rcases List.mem_cons.mp h with rfl | h1 <;> rcases List.mem_cons.mp h' with rfl | h2
    · rfl
    · exact absurd (List.mem_map.mpr ⟨e', h2, hid.symm⟩) hn.1
    · exact absurd (List.mem_map.mpr ⟨e, h1, hid⟩) hn.1
    · exact ih hn.2 h1 h2

theorem eq_of_key {l : List (Elem K V)} (hn : (l.map (·.key)).Nodup) {e e' : Elem K V} (h : e ∈ l) (h' : e' ∈ l)
    (hk : e.key = e'.key) : e = e' := by
  induction l with
  | nil => cases h
  | cons x l ih =>
    simp only [List.map_cons, List.nodup_cons] at hn
    rcases List.mem_cons.mp h with rfl | h1 <;> rcases List.mem_cons.mp h' with rfl | h2
    · rfl
    · exact absurd (List.mem_map.mpr ⟨e', h2, hk.symm⟩) hn.1
    · exact absurd (List.mem_map.mpr ⟨e, h1, hk⟩) hn.1
    · exact ih hn.2 h1 h2

theorem Inv.deref_mem {c : Cache K V} (h : c.Inv) {e : Elem K V} (he : e ∈ c.lst) : c.deref e.id = some e := by
  unfold deref
  cases hf : c.lst.find? (fun x => decide (x.id = e.id)) with
  | none =>
    have := List.find?_eq_none.mp hf e he
    simp at this
  | some x =>
    have h1 := List.mem_of_find?_eq_some hf
    have h2 := List.find?_some hf
    simp at h2
    rw [eq_of_id h.ids h1 he h2]

theorem Inv.filter_id {c : Cache K V} (h : c.Inv) {e : Elem K V} (he : e ∈ c.lst) :
    c.lst.filter (fun x => decide (x.id ≠ e.id)) = c.lst.filter (fun x => decide (x.key ≠ e.key)) := by
  apply List.filter_congr
  intro x hx
  rw [decide_eq_decide]
  constructor
  · intro hne hk; exact hne (by rw [eq_of_key h.keys hx he hk])
  · intro hne hid; exact hne (by rw [eq_of_id h.ids hx he hid])

/-- The part of the state the invariant and the abstraction look at. -/
theorem callback_same (c : Cache K V) (k : K) (v : Option V) :
    (c.callback k v).lst = c.lst ∧ (c.callback k v).table = c.table ∧ (c.callback k v).next = c.next ∧
    (c.callback k v).max = c.max ∧ (c.callback k v).hasCb = c.hasCb ∧
    (c.callback k v).evicted = if c.hasCb then c.evicted ++ [(k, v)] else c.evicted := by
  unfold callback; split <;> simp_all

theorem removeElement_inv {c : Cache K V} (h : c.Inv) {e : Elem K V} (he : e ∈ c.lst) :
    (c.removeElement e).Inv ∧ (c.removeElement e).max = c.max ∧ (c.removeElement e).hasCb = c.hasCb ∧
    (c.removeElement e).abs = c.abs.filter (fun p => p.1 ≠ e.key) ∧
    (c.removeElement e).evicted = (if c.hasCb then c.evicted ++ [(e.key, e.value)] else c.evicted) := by
  unfold removeElement
  obtain ⟨h1, h2, h3, h4, h5, h6⟩ := callback_same { c with
    lst := c.lst.filter (fun x => decide (x.id ≠ e.id))
    table := c.table.filter (fun p => decide (p.1 ≠ e.key)) } e.key e.value
  refine ⟨⟨?_, ?_, ?_, ?_⟩, h4, h5, ?_, h6⟩
  · rw [h1]; exact (List.filter_sublist.map _).nodup h.ids
  · rw [h1]; exact (List.filter_sublist.map _).nodup h.keys
  · rw [h1, h2]
    simp only
    rw [h.filter_id he]
    have := h.tbl.filter (fun p => decide (p.1 ≠ e.key))
    refine this.trans (List.Perm.of_eq ?_)
    rw [List.filter_map]; rfl
  · rw [h1, h3]
    intro x hx
    exact h.fresh x (List.mem_filter.mp hx).1
  · unfold abs
    rw [h1]
    simp only
    rw [h.filter_id he, ← List.filter_reverse, List.filter_map]; rfl

theorem abs_keys (c : Cache K V) : c.abs.map (·.1) = (c.lst.map (·.key)).reverse := by
  unfold abs; rw [List.map_map, ← List.map_reverse]; rfl

theorem Inv.abs_nodup {c : Cache K V} (h : c.Inv) : (c.abs.map (·.1)).Nodup := by
  rw [abs_keys]; exact (List.reverse_perm _).nodup_iff.mpr h.keys

theorem abs_length (c : Cache K V) : c.abs.length = c.lst.length := by simp [abs]

theorem mem_abs {c : Cache K V} {e : Elem K V} (he : e ∈ c.lst) : (e.key, e.value) ∈ c.abs :=
  List.mem_map.mpr ⟨e, List.mem_reverse.mpr he, rfl⟩

/-- What `Get` finds. -/
theorem Inv.get_eq {c : Cache K V} (h : c.Inv) (k : K) : c.get k = (c.abs.lookup k).getD none := by
  unfold get
  cases hl : c.table.lookup k with
  | none =>
    have : c.abs.lookup k = none := by
      rw [Scouter.lookup_none, abs_keys, List.mem_reverse]; exact h.lookup_none.mp hl
    rw [this]; rfl
  | some id =>
    obtain ⟨e, he, rfl, rfl⟩ := h.lookup_some hl
    rw [lookup_of_mem h.abs_nodup (mem_abs he)]
    simp [h.deref_mem he]

theorem Inv.contains_eq {c : Cache K V} (h : c.Inv) (k : K) : c.contains k = (c.abs.lookup k).isSome := by
  unfold contains
  cases hl : c.table.lookup k with
  | none =>
    have : c.abs.lookup k = none := by
      rw [Scouter.lookup_none, abs_keys, List.mem_reverse]; exact h.lookup_none.mp hl
    rw [this]; rfl
  | some id =>
    obtain ⟨e, he, rfl, rfl⟩ := h.lookup_some hl
    rw [lookup_of_mem h.abs_nodup (mem_abs he)]; rfl


/-- The simulation relation: invariant, same bound, same entries; with a callback the log is the departed list up to
order. -/
structure Rel (c : Cache K V) (m : OMap K V) : Prop where
  inv : c.Inv
  bound : m.bound = c.max
  entries : m.entries = c.abs
  log : c.hasCb = true → c.evicted.Perm m.departed

theorem Rel.new (max : Int) (cb : Bool) : Rel (Cache.new max cb : Cache K V) { bound := max } :=
  ⟨inv_new max cb, rfl, rfl, fun _ => List.Perm.refl _⟩

theorem filter_eq_key {l : List (K × Option V)} (hn : (l.map (·.1)).Nodup) {k : K} {v : Option V} (h : (k, v) ∈ l) :
    l.filter (fun p => decide (p.1 = k)) = [(k, v)] := by
  induction l with
  | nil => cases h
  | cons p l ih =>
    obtain ⟨k', v'⟩ := p
    simp only [List.map_cons, List.nodup_cons] at hn
    rcases List.mem_cons.mp h with e | e
    · cases e
      have : l.filter (fun p => decide (p.1 = k)) = [] := by
        rw [List.filter_eq_nil_iff]
        intro x hx hk
        simp at hk
        exact hn.1 (List.mem_map.mpr ⟨x, hx, hk⟩)
      simp [this]
    · have : k' ≠ k := fun e' => hn.1 (e' ▸ List.mem_map.mpr ⟨_, e, rfl⟩)
      simp [this, ih hn.2 e]

theorem Rel.remove {c : Cache K V} {m : OMap K V} (h : Rel c m) (k : K) : Rel (c.remove k) (m.remove k) := by
  unfold Cache.remove OMap.remove
  cases hl : c.table.lookup k with
  | none =>
    have hn : k ∉ c.abs.map (·.1) := by rw [abs_keys, List.mem_reverse]; exact h.inv.lookup_none.mp hl
    have e1 : m.entries.filter (fun p => decide (p.1 ≠ k)) = m.entries := by
      rw [List.filter_eq_self]
      intro p hp
      rw [h.entries] at hp
      simp only [ne_eq, decide_not, Bool.not_eq_eq_eq_not, Bool.not_true, decide_eq_false_iff_not]
      exact fun e => hn (e ▸ List.mem_map.mpr ⟨p, hp, rfl⟩)
    have e2 : m.entries.filter (fun p => decide (p.1 = k)) = [] := by
      rw [List.filter_eq_nil_iff]
      intro p hp
      rw [h.entries] at hp
      simp only [decide_eq_true_eq]
      exact fun e => hn (e ▸ List.mem_map.mpr ⟨p, hp, rfl⟩)
    rw [e1, e2, List.append_nil]
    exact h
  | some id =>
    obtain ⟨e, he, rfl, rfl⟩ := h.inv.lookup_some hl
    simp only [h.inv.deref_mem he]
    obtain ⟨h1, h2, h3, h4, h5⟩ := removeElement_inv h.inv he
    refine ⟨h1, by rw [h2]; exact h.bound, by rw [h4, h.entries], ?_⟩
    intro hcb
    rw [h3] at hcb
    rw [h5, if_pos hcb, h.entries, filter_eq_key h.inv.abs_nodup (mem_abs he)]
    exact (h.log hcb).append_right _

theorem Rel.add {c : Cache K V} {m : OMap K V} (h : Rel c m) (k : K) (v : Option V) :
    Rel (c.add k v) (m.add k v) := by
  unfold Cache.add OMap.add
  cases hl : c.table.lookup k with
  | some id =>
    obtain ⟨e, he, rfl, rfl⟩ := h.inv.lookup_some hl
    have hk : e.key ∈ m.entries.map (·.1) := by
      rw [h.entries]; exact List.mem_map.mpr ⟨_, mem_abs he, rfl⟩
    simp only [if_pos hk]
    have hid : ∀ l : List (Elem K V),
        (l.map (fun x => if x.id = e.id then { x with value := v } else x)).map (·.id) = l.map (·.id) := by
      intro l; rw [List.map_map]; apply List.map_congr_left; intro x _; simp only [Function.comp_apply]; split <;> rfl
    have hkk : ∀ l : List (Elem K V),
        (l.map (fun x => if x.id = e.id then { x with value := v } else x)).map (·.key) = l.map (·.key) := by
      intro l; rw [List.map_map]; apply List.map_congr_left; intro x _; simp only [Function.comp_apply]; split <;> rfl
    refine ⟨⟨?_, ?_, ?_, ?_⟩, h.bound, ?_, h.log⟩
    · exact (hid _).symm ▸ h.inv.ids
    · exact (hkk _).symm ▸ h.inv.keys
    · refine h.inv.tbl.trans (List.Perm.of_eq ?_)
      simp only []
      rw [List.map_map]; apply List.map_congr_left; intro x _; simp only [Function.comp_apply]; split <;> rfl
    · intro x hx
      obtain ⟨y, hy, rfl⟩ := List.mem_map.mp hx
      have := h.inv.fresh y hy
      split <;> exact this
    · simp only [h.entries, abs]
      rw [List.map_map, ← List.map_reverse, List.map_map]
      apply List.map_congr_left
      intro x hx
      have hx := List.mem_reverse.mp hx
      simp only [Function.comp_apply]
      by_cases hxe : x.id = e.id
      · have := eq_of_id h.inv.ids hx he hxe
        subst this; simp
      · have : x.key ≠ e.key := fun hk => hxe (by rw [eq_of_key h.inv.keys hx he hk])
        rw [if_neg this, if_neg hxe]
  | none =>
    have hn : k ∉ c.lst.map (·.key) := h.inv.lookup_none.mp hl
    have hk : k ∉ m.entries.map (·.1) := by rw [h.entries, abs_keys, List.mem_reverse]; exact hn
    simp only [if_neg hk]
    have inv1 : Inv { c with
        lst := { id := c.next, key := k, value := v } :: c.lst
        table := c.table ++ [(k, c.next)]
        next := c.next + 1 } := by
      refine ⟨?_, ?_, ?_, ?_⟩
      · simp only [List.map_cons, List.nodup_cons]
        refine ⟨?_, h.inv.ids⟩
        intro hm
        obtain ⟨x, hx, hxe⟩ := List.mem_map.mp hm
        have := h.inv.fresh x hx
        omega
      · simp only [List.map_cons, List.nodup_cons]
        exact ⟨hn, h.inv.keys⟩
      · simp only [List.map_cons]
        exact (List.perm_append_comm).trans ((List.Perm.refl [(k, c.next)]).append h.inv.tbl)
      · intro x hx
        rcases List.mem_cons.mp hx with rfl | hx
        · exact Nat.lt_succ_self _
        · exact Nat.lt_succ_of_lt (h.inv.fresh x hx)
    have len : (m.entries ++ [(k, v)]).length = c.lst.length + 1 := by
      rw [h.entries, List.length_append, abs_length]; rfl
    simp only [List.length_cons, len, h.bound]
    split
    · unfold Cache.removeOldest
      simp only []
      generalize hlst : ({ id := c.next, key := k, value := v } :: c.lst : List (Elem K V)) = L at inv1 ⊢
      have hab : m.entries ++ [(k, v)] = L.reverse.map (fun e => (e.key, e.value)) := by
        rw [← hlst, h.entries]; simp [abs]
      rcases List.eq_nil_or_concat L with hL | ⟨L', e, hL⟩
      · rw [← hlst] at hL; cases hL
      · rw [List.concat_eq_append] at hL
        have hlast : L.getLast? = some e := by rw [hL]; simp
        have he : e ∈ L := by rw [hL]; simp
        simp only [hlast]
        obtain ⟨h1, h2, h3, h4, h5⟩ := removeElement_inv inv1 (e := e) he
        have hr : L.reverse = e :: L'.reverse := by rw [hL]; simp
        rw [hr] at hab
        have hnd := inv1.abs_nodup
        refine ⟨h1, ?_, ?_, ?_⟩
        · rw [h2]
        · rw [h4, hab]
          unfold abs at hnd ⊢
          simp only [hr, List.map_cons, List.tail_cons, List.nodup_cons] at hnd ⊢
          rw [List.filter_cons_of_neg (by simp), eq_comm, List.filter_eq_self]
          intro p hp
          simp only [ne_eq, decide_not, Bool.not_eq_eq_eq_not, Bool.not_true, decide_eq_false_iff_not]
          exact fun hpe => hnd.1 (hpe ▸ List.mem_map.mpr ⟨p, hp, rfl⟩)
        · intro hcb
          rw [h3] at hcb
          rw [h5, if_pos hcb, hab]
          exact (h.log hcb).append_right _
    · refine ⟨inv1, rfl, ?_, h.log⟩
      simp [h.entries, abs]

theorem filterMap_perm_lst {B : Type} {c : Cache K V} (h : c.Inv) (o : MapOrder (K × Nat)) (f : Elem K V → Option B) :
    ((o.order c.table).filterMap (fun p => (c.deref p.2).bind f)).Perm (c.lst.reverse.filterMap f) := by
  have h1 := ((o.perm c.table).trans h.tbl).filterMap (fun p => (c.deref p.2).bind f)
  refine h1.trans ?_
  rw [List.filterMap_map]
  have h2 : c.lst.filterMap ((fun p => (c.deref p.2).bind f) ∘ fun e => (e.key, e.id)) = c.lst.filterMap f := by
    apply filterMap_congr'
    intro e he
    simp [h.deref_mem he]
  rw [h2]
  exact (List.reverse_perm c.lst).symm.filterMap f

theorem Rel.clear {c : Cache K V} {m : OMap K V} (h : Rel c m) (o : MapOrder (K × Nat)) :
    Rel (c.clear o) m.clear := by
  unfold Cache.clear OMap.clear
  refine ⟨⟨by simp, by simp, by simp, by simp⟩, h.bound, rfl, ?_⟩
  intro hcb
  simp only at hcb
  simp only [if_pos hcb]
  refine (h.log hcb).append ?_
  rw [h.entries, List.map_filterMap]
  refine (filterMap_perm_lst h.inv o (fun e => some (e.key, e.value)) |> fun hp => ?_)
  rw [List.filterMap_eq_map'] at hp
  refine List.Perm.trans (List.Perm.of_eq ?_) hp
  apply filterMap_congr'
  intro p _
  cases c.deref p.2 <;> rfl

theorem Rel.step {c : Cache K V} {m : OMap K V} (h : Rel c m) (op : LraOp K V) :
    Rel (c.step op).1 (m.step op).1 ∧ SameOut (c.step op).2 (m.step op).2 := by
  cases op with
  | add k v => exact ⟨h.add k v, .eq _⟩
  | get k =>
    refine ⟨h, ?_⟩
    simp only [Cache.step, OMap.step, OMap.find]
    rw [h.inv.get_eq k, h.entries]; exact .eq _
  | contains k =>
    refine ⟨h, ?_⟩
    simp only [Cache.step, OMap.step, OMap.find]
    rw [h.inv.contains_eq k, h.entries]; exact .eq _
  | empty =>
    refine ⟨h, ?_⟩
    have : (c.step .empty).2 = (m.step .empty).2 := by
      show LraOut.bool (decide (c.lst.length = 0)) = LraOut.bool (m.entries.length == 0)
      rw [h.entries, abs_length]; rfl
    rw [this]; exact .eq _
  | remove k => exact ⟨h.remove k, .eq _⟩
  | size =>
    refine ⟨h, ?_⟩
    simp only [Cache.step, OMap.step, Cache.size]
    rw [h.entries, abs_length]; exact .eq _
  | clear o => exact ⟨h.clear o, .eq _⟩
  | values o =>
    refine ⟨h, ?_⟩
    simp only [Cache.step, OMap.step, Cache.getValues]
    refine .list ?_
    rw [h.entries]
    unfold abs
    rw [List.filterMap_map]
    exact filterMap_perm_lst h.inv o (·.value)

theorem Rel.run {c : Cache K V} {m : OMap K V} (h : Rel c m) (ops : List (LraOp K V)) :
    Rel (c.run ops).1 (m.run ops).1 ∧ SameOuts (c.run ops).2 (m.run ops).2 := by
  induction ops generalizing c m with
  | nil => exact ⟨h, .nil⟩
  | cons op ops ih =>
    obtain ⟨h1, h2⟩ := h.step op
    obtain ⟨h3, h4⟩ := ih h1
    exact ⟨h3, .cons h2 h4⟩

end Cache
end Scouter
