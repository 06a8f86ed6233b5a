import Verif.Model.Iterating
import Verif.Proofs.Lra
/-! # Invariants of `GetValues` during changes -/
namespace Scouter
namespace Iterating
variable {K V : Type} [DecidableEq K]

theorem write_inv {c : Cache K V} (h : c.Inv) (w : Write K V) : (w.on c).Inv := by
  have hr : Cache.Rel c { bound := c.max, entries := c.abs, departed := c.evicted } := ⟨h, rfl, rfl, fun _ => List.Perm.refl _⟩
  cases w with
  | add k v => exact (hr.add k v).inv
  | remove k => exact (hr.remove k).inv
  | clear o => exact (hr.clear o).inv

theorem removeElement_mem (c : Cache K V) (e x : Elem K V) (hx : x ∈ (c.removeElement e).lst) : x ∈ c.lst := by
  unfold Cache.removeElement at hx
  rw [(Cache.callback_same _ _ _).1] at hx
  exact (List.mem_filter.1 hx).1

theorem removeElement_next (c : Cache K V) (e : Elem K V) : (c.removeElement e).next = c.next := by
  unfold Cache.removeElement
  rw [(Cache.callback_same _ _ _).2.2.1]

/-- Where the elements after a writing call come from. -/
theorem write_lst {c : Cache K V} (w : Write K V) (e' : Elem K V) (he : e' ∈ (w.on c).lst) :
    (∃ e ∈ c.lst, e.id = e'.id ∧ e.key = e'.key) ∨
      (e'.id = c.next ∧ c.contains e'.key = false ∧ ∃ v, w = .add e'.key v) := by
  cases w with
  | add k v =>
    simp only [Write.on, Cache.add] at he
    cases hl : c.table.lookup k with
    | some id =>
      rw [hl] at he
      simp only [List.mem_map] at he
      obtain ⟨e, h1, rfl⟩ := he
      exact Or.inl ⟨e, h1, by split <;> rfl, by split <;> rfl⟩
    | none =>
      rw [hl] at he
      simp only at he
      have hc : e' ∈ ({ id := c.next, key := k, value := v } :: c.lst : List (Elem K V)) := by
        split at he
        · unfold Cache.removeOldest at he
          split at he
          · exact removeElement_mem _ _ _ he
          · exact he
        · exact he
      rcases List.mem_cons.1 hc with rfl | hc
      · exact Or.inr ⟨rfl, by simp [Cache.contains, hl], v, rfl⟩
      · exact Or.inl ⟨e', hc, rfl, rfl⟩
  | remove k =>
    simp only [Write.on, Cache.remove] at he
    split at he
    · split at he
      · exact Or.inl ⟨e', removeElement_mem _ _ _ he, rfl, rfl⟩
      · exact Or.inl ⟨e', he, rfl, rfl⟩
    · exact Or.inl ⟨e', he, rfl, rfl⟩
  | clear o => simp [Write.on, Cache.clear] at he

theorem write_next (c : Cache K V) (w : Write K V) : c.next ≤ (w.on c).next := by
  cases w with
  | add k v =>
    simp only [Write.on, Cache.add]
    split
    · exact Nat.le_refl _
    · split
      · unfold Cache.removeOldest
        split
        · rw [removeElement_next]; exact Nat.le_succ _
        · exact Nat.le_succ _
      · exact Nat.le_succ _
  | remove k =>
    simp only [Write.on, Cache.remove]
    split
    · split
      · rw [removeElement_next]; exact Nat.le_refl _
      · exact Nat.le_refl _
    · exact Nat.le_refl _
  | clear o => exact Nat.le_refl _

/-- What is known of a goroutine in `GetValues`. -/
structure ItOk (s : State K V) (it : Iter K V) : Prop where
  idle : it.pc = .before → it = {}
  tab : ∀ t, it.cleared = some t → (t.map (·.1)).Nodup ∧ ∀ p ∈ t, ∃ e ∈ s.old, (e.key, e.id) = p
  must : it.pc ≠ .done → ∀ id ∈ it.must, id ∈ (s.ranged it).map (·.2) ∧ id ∉ it.seen
  hand : ∀ id, it.pc = .hand id → ∃ e ∈ s.cache.lst ++ s.old, e.id = id

/-- What is known in every state. -/
structure Good (s : State K V) : Prop where
  inv : s.cache.Inv
  ids : ((s.cache.lst ++ s.old).map (·.id)).Nodup
  fresh : ∀ e ∈ s.old, e.id < s.cache.next
  its : ∀ it ∈ s.iters, ItOk s it

theorem Good.start (max : Int) (n : Nat) : Good (State.start max n : State K V) := by
  refine ⟨Cache.inv_new max false, by simp [State.start, Cache.new], by simp [State.start], ?_⟩
  intro it hit
  rw [State.start] at hit
  simp only [List.mem_replicate] at hit
  obtain ⟨-, rfl⟩ := hit
  exact ⟨fun _ => rfl, by simp, by simp, by simp⟩

theorem Good.deref_mem {s : State K V} (h : Good s) {e : Elem K V} (he : e ∈ s.cache.lst ++ s.old) : s.deref e.id = some e := by
  unfold State.deref
  cases hf : (s.cache.lst ++ s.old).find? (fun x => decide (x.id = e.id)) with
  | none =>
    have := List.find?_eq_none.mp hf e he
    simp at this
  | some x =>
    have h1 := List.mem_of_find?_eq_some hf
    have h2 := List.find?_some hf
    simp at h2
    rw [Cache.eq_of_id h.ids h1 he h2]

theorem Good.ranged_elem {s : State K V} (h : Good s) {it : Iter K V} (hi : ItOk s it) {p : K × Nat} (hp : p ∈ s.ranged it) :
    ∃ e ∈ s.cache.lst ++ s.old, (e.key, e.id) = p := by
  unfold State.ranged at hp
  cases hc : it.cleared with
  | none =>
    rw [hc] at hp
    obtain ⟨e, h1, h2⟩ := List.mem_map.1 (h.inv.tbl.mem_iff.1 hp)
    exact ⟨e, List.mem_append_left _ h1, h2⟩
  | some t =>
    rw [hc] at hp
    obtain ⟨e, h1, h2⟩ := (hi.tab t hc).2 p hp
    exact ⟨e, List.mem_append_right _ h1, h2⟩

/-- The state after a writing call. -/
def State.written (s : State K V) (w : Write K V) : State K V :=
  { cache := w.on s.cache
    old := s.old ++ s.cache.lst.filter (fun x => x.id ∉ (w.on s.cache).lst.map (·.id))
    iters := s.iters.map fun it => if it.pc = .before ∨ it.pc = .done then it else it.noticed w s.cache (w.on s.cache) }

/-- An element stays, or becomes an old one with its value. -/
theorem Good.kept {s : State K V} (h : Good s) (w : Write K V) {e : Elem K V} (he : e ∈ s.cache.lst ++ s.old) :
    e ∈ (s.written w).old ∨ ∃ e' ∈ (w.on s.cache).lst, e'.id = e.id ∧ e'.key = e.key := by
  rcases List.mem_append.1 he with he | he
  · by_cases hm : e.id ∈ (w.on s.cache).lst.map (·.id)
    · obtain ⟨e', h1, h2⟩ := List.mem_map.1 hm
      refine Or.inr ⟨e', h1, h2, ?_⟩
      rcases write_lst w e' h1 with ⟨e2, h3, h4, h5⟩ | ⟨h3, -⟩
      · rw [← Cache.eq_of_id h.inv.ids h3 he (by rw [h4, h2])]; exact h5.symm
      · have := h.inv.fresh e he; omega
    · exact Or.inl (List.mem_append_right _ (List.mem_filter.2 ⟨he, by simpa using hm⟩))
  · exact Or.inl (List.mem_append_left _ he)

theorem Good.written {s : State K V} (h : Good s) (w : Write K V) : Good (s.written w) := by
  have hinv := write_inv h.inv w
  have hids := h.ids
  rw [List.map_append, List.nodup_append] at hids
  refine ⟨hinv, ?_, ?_, ?_⟩
  · show (((w.on s.cache).lst ++ (s.old ++ _)).map _).Nodup
    rw [List.map_append, List.nodup_append]
    refine ⟨hinv.ids, ?_, ?_⟩
    · rw [List.map_append, List.nodup_append]
      refine ⟨hids.2.1, (List.filter_sublist.map _).nodup hids.1, ?_⟩
      intro a ha b hb
      exact fun e => hids.2.2 b ((List.filter_sublist.map _).subset hb) a ha e.symm
    · intro a ha b hb hab
      obtain ⟨e', h1, rfl⟩ := List.mem_map.1 ha
      rw [List.map_append, List.mem_append] at hb
      rcases hb with hb | hb
      · rcases write_lst w e' h1 with ⟨e2, h3, h4, -⟩ | ⟨h3, -⟩
        · exact hids.2.2 e2.id (List.mem_map.2 ⟨e2, h3, rfl⟩) b hb (by rw [h4]; exact hab)
        · obtain ⟨x, hx, hxb⟩ := List.mem_map.1 hb
          have := h.fresh x hx
          omega
      · obtain ⟨x, hx, hxb⟩ := List.mem_map.1 hb
        have := (List.mem_filter.1 hx).2
        simp only [decide_eq_true_eq] at this
        exact this (List.mem_map.2 ⟨e', h1, by rw [hab, hxb]⟩)
  · intro e he
    have hn := write_next s.cache w
    rcases List.mem_append.1 he with he | he
    · have := h.fresh e he
      exact Nat.lt_of_lt_of_le this hn
    · exact Nat.lt_of_lt_of_le (h.inv.fresh e (List.mem_filter.1 he).1) hn
  · intro it' hit
    simp only [State.written, List.mem_map] at hit
    obtain ⟨it, hmem, rfl⟩ := hit
    have hk := h.its it hmem
    have hhand : ∀ id, it.pc = .hand id → ∃ e ∈ (s.written w).cache.lst ++ (s.written w).old, e.id = id := by
      intro id hpc
      obtain ⟨e, he, rfl⟩ := hk.hand id hpc
      rcases h.kept w he with h1 | ⟨e', h1, h2, -⟩
      · exact ⟨e, List.mem_append_right _ h1, rfl⟩
      · exact ⟨e', List.mem_append_left _ h1, h2⟩
    have htab : ∀ t, it.cleared = some t → (t.map (·.1)).Nodup ∧ ∀ p ∈ t, ∃ e ∈ (s.written w).old, (e.key, e.id) = p := by
      intro t ht
      obtain ⟨h1, h2⟩ := hk.tab t ht
      exact ⟨h1, fun p hp => let ⟨e, he, hep⟩ := h2 p hp; ⟨e, List.mem_append_left _ he, hep⟩⟩
    by_cases hp : it.pc = .before ∨ it.pc = .done
    · rw [if_pos hp]
      refine ⟨hk.idle, htab, ?_, hhand⟩
      intro hd id hid
      rcases hp with hp | hp
      · rw [hk.idle hp] at hid; cases hid
      · exact absurd hp hd
    · rw [if_neg hp]
      have hp1 : it.pc ≠ .before := fun e => hp (Or.inl e)
      have hp2 : it.pc ≠ .done := fun e => hp (Or.inr e)
      unfold Iter.noticed
      split
      · rename_i t _ hc
        refine ⟨hk.idle, htab, ?_, hhand⟩
        intro hd id hid
        have := hk.must hd id hid
        simp only [State.ranged, hc] at this ⊢
        exact this
      · rename_i o hc
        refine ⟨fun e => absurd e hp1, ?_, ?_, hhand⟩
        · intro t ht
          simp only [Option.some.injEq] at ht
          subst ht
          refine ⟨h.inv.tkeys, ?_⟩
          intro p hp
          obtain ⟨e, h1, h2⟩ := List.mem_map.1 (h.inv.tbl.mem_iff.1 hp)
          exact ⟨e, List.mem_append_right _ (List.mem_filter.2 ⟨h1, by simp [Write.on, Cache.clear]⟩), h2⟩
        · intro hd id hid
          have := hk.must hp2 id hid
          simp only [State.ranged, hc] at this ⊢
          exact this
      · rename_i hc _
        refine ⟨fun e => absurd e hp1, htab, ?_, hhand⟩
        intro hd id hid
        obtain ⟨h1, h2⟩ := List.mem_filter.1 hid
        refine ⟨?_, (hk.must hp2 id h1).2⟩
        simp only [State.ranged, hc, Option.getD_none]
        exact of_decide_eq_true h2

theorem ItOk.move {s : State K V} (h : Good s) {it it' : Iter K V} (hk : ItOk s it) (e : Event K V) (hm : s.move it e = some it') :
    ItOk s it' := by
  cases e with
  | write w => simp [State.move] at hm
  | begin i =>
    simp only [State.move] at hm
    split at hm
    · rename_i hp
      have := hk.idle hp
      subst this
      cases hm
      refine ⟨by simp, by simp, ?_, by simp⟩
      intro _ id hid
      exact ⟨hid, by simp⟩
    · cases hm
  | next i id =>
    simp only [State.move] at hm
    split at hm
    · rename_i hp
      cases hm
      refine ⟨by simp, hk.tab, ?_, ?_⟩
      · intro _ id' hid
        obtain ⟨h1, h2⟩ := List.mem_filter.1 hid
        obtain ⟨h3, h4⟩ := hk.must (by rw [hp.1]; simp) id' h1
        refine ⟨h3, ?_⟩
        simp only [List.mem_cons, not_or]
        exact ⟨by simpa using h2, h4⟩
      · intro id' hid
        simp only [Pc.hand.injEq] at hid
        subst hid
        obtain ⟨p, hp1, rfl⟩ := List.mem_map.1 hp.2.1
        obtain ⟨e, h1, h2⟩ := h.ranged_elem hk hp1
        exact ⟨e, h1, by rw [← h2]⟩
    · cases hm
  | read i =>
    simp only [State.move] at hm
    split at hm
    · rename_i id hp
      split at hm
      · split at hm
        · cases hm
          exact ⟨by simp, hk.tab, fun _ => hk.must (by rw [hp]; simp), by simp⟩
        · cases hm
          exact ⟨by simp, hk.tab, fun _ => hk.must (by rw [hp]; simp), by simp⟩
      · cases hm
    · cases hm
  | lock i =>
    simp only [State.move] at hm
    split at hm
    · rename_i hp
      cases hm
      exact ⟨by simp, hk.tab, fun _ => hk.must (by rw [hp]; simp), by simp⟩
    · cases hm
  | finish i =>
    simp only [State.move] at hm
    split at hm
    · rename_i hp
      cases hm
      exact ⟨by simp, hk.tab, by simp, by simp⟩
    · cases hm

/-- What an event does to the goroutine `i`. -/
inductive Sees (s : State K V) (e : Event K V) (i : Nat) (it : Iter K V) : State K V → Iter K V → Prop where
  | same {s' : State K V} (hc : s'.cache = s.cache) (ho : s'.old = s.old) (hnw : ∀ w, e = .write w → s' = s) : Sees s e i it s' it
  | write (w : Write K V) (he : e = .write w) (hp : it.pc ≠ .held) :
      Sees s e i it (s.written w) (if it.pc = .before ∨ it.pc = .done then it else it.noticed w s.cache (w.on s.cache))
  | move {s' : State K V} (it' : Iter K V) (hc : s'.cache = s.cache) (ho : s'.old = s.old) (hw : e.who = some i)
      (hm : s.move it e = some it') : Sees s e i it s' it'

theorem sees (s : State K V) (e : Event K V) (i : Nat) (it : Iter K V) (hi : s.iters[i]? = some it) :
    ∃ it', (s.fire e).iters[i]? = some it' ∧ Sees s e i it (s.fire e) it' := by
  unfold State.fire
  split
  · rename_i w
    split
    · rename_i hall
      refine ⟨_, ?_, Sees.write w rfl ?_⟩
      · simp only [List.getElem?_map, hi, Option.map_some]
      · have := List.all_eq_true.1 hall it (List.mem_of_getElem? hi)
        simpa using this
    · exact ⟨it, hi, .same rfl rfl (fun _ _ => rfl)⟩
  · rename_i hnw
    have hw : ∀ w, e ≠ .write w := fun w he => hnw w he
    cases hwho : e.who with
    | none => exact ⟨it, hi, .same rfl rfl (fun w he => absurd he (hw w))⟩
    | some j =>
      simp only
      cases hj : s.iters[j]? with
      | none => exact ⟨it, hi, .same rfl rfl (fun w he => absurd he (hw w))⟩
      | some jt =>
        simp only
        cases hm : s.move jt e with
        | none => exact ⟨it, hi, .same rfl rfl (fun w he => absurd he (hw w))⟩
        | some jt' =>
          by_cases hij : j = i
          · subst hij
            rw [hi] at hj
            cases hj
            refine ⟨jt', ?_, .move jt' rfl rfl hwho hm⟩
            have : j < s.iters.length := (List.getElem?_eq_some_iff.1 hi).1
            simp [this]
          · refine ⟨it, ?_, .same rfl rfl (fun w he => absurd he (hw w))⟩
            simp [hij, hi]

theorem Good.fire {s : State K V} (h : Good s) (e : Event K V) : Good (s.fire e) := by
  unfold State.fire
  split
  · rename_i w
    split
    · exact h.written w
    · exact h
  · split
    · exact h
    · rename_i i _
      split
      · rename_i it hi
        split
        · rename_i it' hm
          refine ⟨h.inv, h.ids, h.fresh, ?_⟩
          intro x hx
          rcases List.mem_or_eq_of_mem_set hx with hx | rfl
          · have := h.its x hx
            exact ⟨this.idle, this.tab, this.must, this.hand⟩
          · have := ItOk.move h (h.its it (List.mem_of_getElem? hi)) e hm
            exact ⟨this.idle, this.tab, this.must, this.hand⟩
        · exact h
      · exact h

theorem Good.run {s : State K V} (h : Good s) (es : List (Event K V)) : Good (s.run es) := by
  induction es generalizing s with
  | nil => exact h
  | cons e es ih => exact ih (h.fire e)

theorem run_append (s : State K V) (es fs : List (Event K V)) : s.run (es ++ fs) = (s.run es).run fs := by
  simp [State.run]

theorem run_snoc (s : State K V) (es : List (Event K V)) (e : Event K V) : s.run (es ++ [e]) = (s.run es).fire e := by
  simp [State.run]

end Iterating
end Scouter
