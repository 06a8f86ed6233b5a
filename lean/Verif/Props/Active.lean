import Verif.Proofs.SharedTable
import Verif.Props.Stepwise
/-!
# C102: the table of running services, used by many goroutines at once
-/
namespace Scouter
namespace Stepwise
open Trace (Call history start)

/-- The shared table and each goroutine, after a schedule. -/
theorem tables (env : Oracle) (conf : TraceConf) (cap : Nat) (css : List (List Call)) (hown : ∀ cs ∈ css, ∀ c ∈ cs, own c = true) (ts : List Turn)
    (s : State) (hs : s = (State.start env conf cap css).run ts) (hid : DistinctIds env s.shared.tick) :
    Within s ∧ ((∀ n, ((State.start env conf cap css).run (ts.take n)).shared.registry.size < 10000) → Whole s) ∧
      (∀ (i j : Nat) (g g' : Goroutine), s.gs[i]? = some g → s.gs[j]? = some g' → ∀ x, x ∈ g.mine.abs.map (·.1) →
        ((∃ t ∈ g'.tctxs, t.txid = x) ∨ x ∈ g'.mine.abs.map (·.1)) → i = j) ∧
      ∀ (i : Nat) (g : Goroutine), s.gs[i]? = some g →
        (∀ e ∈ g.mine.abs, ∃ p t, e.2 = some p ∧ g.tctxs[p]? = some t ∧ t.txid = e.1) ∧
        (Finished g → ((g.tctxs.map shownOf).map (·.1)).Nodup ∧ g.mine.abs = openAt (g.tctxs.map shownOf)) := by
  have h0 : ∀ g ∈ (State.start env conf cap css).gs, Good g.todo ∧ g.tctxs = [] := by
    intro g hg
    obtain ⟨cs, -, rfl⟩ := List.mem_map.1 hg
    exact ⟨good_codes cs, rfl⟩
  have hb : Inv (Cache.new 0 false) cap (State.start env conf cap css) (State.start env conf cap css) := by
    rw [start_eq]
    exact inv_run (Cache.new 0 false) env conf cap _ []
  have hw0 : Within (State.start env conf cap css) := by
    refine ⟨(Ledger.start env conf cap).reg, fun e he => ?_⟩
    have : e ∈ (Cache.new 10000 false : Cache (BitVec 64) Nat).abs := he
    simp [Cache.abs, Cache.new] at this
  have hwh0 : Whole (State.start env conf cap css) := by
    unfold Whole
    have : ((State.start env conf cap css).gs.map (·.mine.abs)).flatten = [] := by
      rw [List.flatten_eq_nil_iff]
      intro l hl
      obtain ⟨g, hg, rfl⟩ := List.mem_map.1 hl
      obtain ⟨cs, -, rfl⟩ := List.mem_map.1 hg
      rfl
    rw [this]
    exact List.Perm.refl _
  have hi : Inv (Cache.new 0 false) cap (State.start env conf cap css) s := hs ▸ hb.run ts
  have henv : s.shared.env = env := by rw [hs, (run_grows _ ts).2]; rfl
  have hid' : DistinctIds s.shared.env s.shared.tick := henv.symm ▸ hid
  have ht := tables_run h0 ts hb (by rw [← hs]; exact hid) hw0
  rw [← hs] at ht
  have hon : ∀ (i : Nat) (g : Goroutine), s.gs[i]? = some g → ∃ cs, (∀ c ∈ cs, own c = true) ∧ ∃ v,
      (codes cs).seq (alone (Cache.new 0 false) (State.start env conf cap css).shared cap (dealt s i) { todo := codes cs }) = g.todo.seq v ∧
      Rel (dealt s i) v s.shared g ∧ v.registry = g.mine ∧ DistinctIds v.env v.tick ∧ J v ∧ ∀ x, Read v x → ∃ t ∈ g.ticks, x = s.shared.env.id t := by
    intro i g hg
    have hlt : i < (State.start env conf cap css).gs.length := hi.len ▸ (List.getElem?_eq_some_iff.1 hg).1
    have hlt' : i < css.length := by simpa [State.start] using hlt
    have e0 : (State.start env conf cap css).gs[i]? = some { todo := codes css[i] } := by
      simp [State.start, hlt']
    obtain ⟨v, a, b, c, d, e, -, f⟩ := hi.honest e0 hg (good_codes _) rfl hid'
    exact ⟨css[i], hown _ (List.getElem_mem hlt'), v, a, b, c, d, e, f⟩
  have owned : ∀ (i : Nat) (g : Goroutine), s.gs[i]? = some g → ∀ x, ((∃ t ∈ g.tctxs, t.txid = x) ∨ x ∈ g.mine.abs.map (·.1)) →
      ∃ t ∈ g.ticks, x = s.shared.env.id t := by
    intro i g hg x hx
    obtain ⟨cs, -, v, -, r, c, d, j, f⟩ := hon i g hg
    rcases hx with ⟨t, ht, rfl⟩ | hx
    · exact f _ (j.made t (r.tctxs ▸ ht))
    · exact f _ (j.keys d x (c ▸ hx))
  refine ⟨ht.1, fun hn => ht.2 hn hwh0, fun i j g g' hg hg' x hx hx' => ?_, fun i g hg => ⟨fun e he => ?_, fun hfin => ?_⟩⟩
  · refine Decidable.byContradiction fun hne => ?_
    obtain ⟨t, h1, h2⟩ := owned i g hg x (.inr hx)
    obtain ⟨t', h1', h2'⟩ := owned j g' hg' x hx'
    have := hid' t t' ((hi.incr i g hg).2 t h1) ((hi.incr j g' hg').2 t' h1') (h2.symm.trans h2')
    exact hi.apart i j g g' hne hg hg' t h1 (this ▸ h1')
  · obtain ⟨cs, -, v, -, r, c, d, j, -⟩ := hon i g hg
    obtain ⟨p, h1, h2⟩ := j.places d e (c ▸ he)
    rw [r.tctxs] at h2
    cases hp : g.tctxs[p]? with
    | none => rw [hp] at h2; cases h2
    | some t =>
      rw [hp] at h2
      exact ⟨p, t, h1, hp, by injection h2⟩
  · obtain ⟨cs, hcs, v, e, r, c, d, -, -⟩ := hon i g hg
    rw [seq_codes cs hcs] at e
    have ev := finished_eq hfin e.symm
    have hu : Unb v := by
      rw [ev]
      refine Unb.history cs hcs ?_ { ids := List.nodup_nil, made := fun _ h => (by cases h), free := ⟨Cache.inv_new _ _, rfl, rfl⟩, exact := rfl }
      rw [← history_env, ← ev]
      exact d
    have e1 : services v = g.tctxs.map shownOf := by unfold services; rw [r.tctxs]
    rw [← e1, ← c]
    exact ⟨hu.ids, hu.exact⟩

theorem table_contains {r : Cache (BitVec 64) Nat} (h : r.Inv) (id : BitVec 64) : r.contains id = true ↔ id ∈ r.abs.map (·.1) := by
  rw [h.contains_eq]
  cases hl : r.abs.lookup id with
  | none => simp only [Option.isSome_none, Bool.false_eq_true, false_iff]; exact lookup_none.1 hl
  | some v => simp only [Option.isSome_some, true_iff]; exact List.mem_map.2 ⟨_, mem_of_lookup hl, rfl⟩

theorem abs_keys {r : Cache (BitVec 64) Nat} (h : r.Inv) : (r.abs.map (·.1)).Nodup := by
  have : r.abs.map (·.1) = (r.lst.map (·.key)).reverse := by simp [Cache.abs]
  rw [this, List.nodup_reverse]
  exact h.keys

theorem openAt_mem {l : List Tctx} {x : BitVec 64} : x ∈ (openAt (l.map shownOf)).map (·.1) ↔ ∃ t ∈ l, t.txid = x ∧ t.closed = false := by
  unfold openAt
  constructor
  · intro h
    obtain ⟨e, he, rfl⟩ := List.mem_map.1 h
    obtain ⟨⟨⟨a, b⟩, n⟩, hs, h'⟩ := List.mem_filterMap.1 he
    cases b with
    | true => cases h'
    | false =>
      injection h' with h'
      subst h'
      obtain ⟨t, ht, e⟩ := List.mem_map.1 (List.mem_of_getElem? (List.mem_zipIdx_iff_getElem?.1 hs))
      injection e with e1 e2
      exact ⟨t, ht, e1, e2⟩
  · rintro ⟨t, ht, rfl, hc⟩
    obtain ⟨n, hn⟩ := List.getElem?_of_mem ht
    refine List.mem_map.2 ⟨(t.txid, some n), List.mem_filterMap.2 ⟨((t.txid, t.closed), n), List.mem_zipIdx_iff_getElem?.2 (by simp [hn, shownOf]), ?_⟩, rfl⟩
    simp [hc]

end Stepwise
open Stepwise
open Trace (Call history start)

/-- **C102**, at any moment: what the table lists is a service of one of the goroutines, the table gives its context, and if that goroutine has made all
its calls the service has not ended.  There are never more than 10000. -/
theorem C102_lists_only_services_that_run (env : Oracle) (conf : TraceConf) (cap : Nat) (css : List (List Call)) (hown : ∀ cs ∈ css, ∀ c ∈ cs, own c = true)
    (ts : List Turn) (s : State) (hs : s = (State.start env conf cap css).run ts) (hid : DistinctIds env s.shared.tick) :
    s.shared.registry.size ≤ 10000 ∧ ∀ id, s.shared.registry.contains id = true →
      ∃ g ∈ s.gs, ∃ p t, g.tctxs[p]? = some t ∧ t.txid = id ∧ s.shared.registry.get id = some p ∧ (Finished g → t.closed = false) := by
  obtain ⟨hw, -, -, hg⟩ := tables env conf cap css hown ts s hs hid
  refine ⟨by have := hw.reg.len; simpa [Cache.abs, Cache.size] using this, fun id hc => ?_⟩
  obtain ⟨e, he, rfl⟩ := List.mem_map.1 ((table_contains hw.reg.inv id).1 hc)
  obtain ⟨g, hm, he'⟩ := hw.sub e he
  obtain ⟨i, hi⟩ := List.getElem?_of_mem hm
  obtain ⟨p, t, e2, ht, e1⟩ := (hg i g hi).1 e he'
  refine ⟨g, hm, p, t, ht, e1, ?_, fun hfin => ?_⟩
  · rw [hw.reg.inv.get_eq, lookup_of_mem (abs_keys hw.reg.inv) (show (e.1, e.2) ∈ _ from he)]
    exact e2
  · obtain ⟨hn, ho⟩ := (hg i g hi).2 hfin
    rw [ho] at he'
    obtain ⟨t', ht', e3, e4⟩ := openAt_mem.1 (List.mem_map.2 ⟨e, he', rfl⟩)
    have hmem : ∀ t ∈ g.tctxs, (t.txid, t.closed) ∈ g.tctxs.map shownOf := fun t ht => List.mem_map.2 ⟨t, ht, rfl⟩
    have := nodup_key hn (id := e.1) (b := t.closed) (c := t'.closed) (e1 ▸ hmem t (List.mem_of_getElem? ht)) (e3 ▸ hmem t' ht')
    rw [this, e4]

/-- A service ended by a goroutine that has made all its calls is not listed, whatever the others are doing. -/
theorem C102_ended_is_not_listed (env : Oracle) (conf : TraceConf) (cap : Nat) (css : List (List Call)) (hown : ∀ cs ∈ css, ∀ c ∈ cs, own c = true)
    (ts : List Turn) (s : State) (hs : s = (State.start env conf cap css).run ts) (hid : DistinctIds env s.shared.tick) (g : Goroutine) (hg : g ∈ s.gs)
    (hf : Finished g) (t : Tctx) (ht : t ∈ g.tctxs) (hc : t.closed = true) :
    s.shared.registry.contains t.txid = false := by
  obtain ⟨hw, -, hap, hgs⟩ := tables env conf cap css hown ts s hs hid
  rw [Bool.eq_false_iff]
  intro hcon
  obtain ⟨e, he, e0⟩ := List.mem_map.1 ((table_contains hw.reg.inv _).1 hcon)
  obtain ⟨g', hm, he'⟩ := hw.sub e he
  obtain ⟨i, hi⟩ := List.getElem?_of_mem hm
  obtain ⟨j, hj⟩ := List.getElem?_of_mem hg
  have := hap i j g' g hi hj e.1 (List.mem_map.2 ⟨e, he', rfl⟩) (.inl ⟨t, ht, e0.symm⟩)
  subst this
  rw [hi] at hj
  injection hj with hj
  subst hj
  obtain ⟨hn, ho⟩ := (hgs i g' hi).2 hf
  rw [ho] at he'
  obtain ⟨t', ht', e3, e4⟩ := openAt_mem.1 (List.mem_map.2 ⟨e, he', rfl⟩)
  have hmem : ∀ t ∈ g'.tctxs, (t.txid, t.closed) ∈ g'.tctxs.map shownOf := fun t ht => List.mem_map.2 ⟨t, ht, rfl⟩
  have := nodup_key hn (id := e.1) (b := t.closed) (c := t'.closed) (e0 ▸ hmem t ht) (e3 ▸ hmem t' ht')
  rw [hc, e4] at this
  cases this

/-- If the table was never full, a goroutine that has made all its calls finds each of its services listed exactly if it has not ended. -/
theorem C102_running_is_listed (env : Oracle) (conf : TraceConf) (cap : Nat) (css : List (List Call)) (hown : ∀ cs ∈ css, ∀ c ∈ cs, own c = true)
    (ts : List Turn) (s : State) (hs : s = (State.start env conf cap css).run ts) (hid : DistinctIds env s.shared.tick)
    (hmax : ∀ n, ((State.start env conf cap css).run (ts.take n)).shared.registry.size < 10000)
    (g : Goroutine) (hg : g ∈ s.gs) (hf : Finished g) (t : Tctx) (ht : t ∈ g.tctxs) :
    s.shared.registry.contains t.txid = !t.closed := by
  cases hc : t.closed with
  | true => exact C102_ended_is_not_listed env conf cap css hown ts s hs hid g hg hf t ht hc
  | false =>
    obtain ⟨hw, hwh, -, hgs⟩ := tables env conf cap css hown ts s hs hid
    obtain ⟨i, hi⟩ := List.getElem?_of_mem hg
    obtain ⟨-, ho⟩ := (hgs i g hi).2 hf
    have : t.txid ∈ g.mine.abs.map (·.1) := by rw [ho]; exact openAt_mem.2 ⟨t, ht, rfl, hc⟩
    obtain ⟨e, he, e0⟩ := List.mem_map.1 this
    show s.shared.registry.contains t.txid = true
    rw [table_contains hw.reg.inv, ← e0]
    exact List.mem_map.2 ⟨e, (hwh hmax).mem_iff.2 (List.mem_flatten.2 ⟨_, List.mem_map.2 ⟨g, hg, rfl⟩, he⟩), rfl⟩

/-- And once all have finished, the table has as many entries as there are services that have not ended. -/
theorem C102_size_is_exact (env : Oracle) (conf : TraceConf) (cap : Nat) (css : List (List Call)) (hown : ∀ cs ∈ css, ∀ c ∈ cs, own c = true)
    (ts : List Turn) (s : State) (hs : s = (State.start env conf cap css).run ts) (hid : DistinctIds env s.shared.tick)
    (hmax : ∀ n, ((State.start env conf cap css).run (ts.take n)).shared.registry.size < 10000) (hf : AllFinished s) :
    s.shared.registry.size = (s.gs.flatMap (·.tctxs)).countP (! ·.closed) := by
  obtain ⟨hw, hwh, -, hgs⟩ := tables env conf cap css hown ts s hs hid
  have h1 : s.shared.registry.size = s.shared.registry.abs.length := by simp [Cache.abs, Cache.size]
  rw [h1, (hwh hmax).length_eq]
  have each : ∀ g ∈ s.gs, g.mine.abs.length = g.tctxs.countP (! ·.closed) := by
    intro g hg
    obtain ⟨i, hi⟩ := List.getElem?_of_mem hg
    rw [((hgs i g hi).2 (hf g hg)).2]
    unfold openAt
    generalize 0 = k
    induction g.tctxs generalizing k with
    | nil => rfl
    | cons t l ih =>
      rw [List.map_cons, List.zipIdx_cons, List.filterMap_cons, List.countP_cons]
      cases hc : t.closed <;> simp [shownOf, hc, ih]
  clear hf hwh hgs hmax h1 hw hid hs
  generalize s.gs = l at each
  induction l with
  | nil => rfl
  | cons a as ih =>
    rw [List.map_cons, List.flatten_cons, List.length_append, List.flatMap_cons, List.countP_append, each a List.mem_cons_self,
      ih fun g hg => each g (List.mem_cons_of_mem _ hg)]

/-! ## A concrete case -/

namespace Demo

/-- The table has room before each turn and after the last. -/
def roomy (s : State) : List Turn → Bool
  | [] => s.shared.registry.size < 10000
  | t :: ts => s.shared.registry.size < 10000 && roomy (s.turn t) ts

theorem roomy_take {s : State} {ts : List Turn} (h : roomy s ts = true) (n : Nat) : (s.run (ts.take n)).shared.registry.size < 10000 := by
  induction ts generalizing s n with
  | nil => simpa [roomy, State.run] using h
  | cons t ts ih =>
    simp only [roomy, Bool.and_eq_true, decide_eq_true_eq] at h
    cases n with
    | zero => exact h.1
    | succ n => exact ih h.2 n

example (n : Nat) : ((State.start env conf 100 threeCalls).run ((roundRobin 80).take n)).shared.registry.size < 10000 :=
  roomy_take (by decide +kernel) n

/-- One service of the three is still running. -/
example : (threeAfter.shared.registry.contains 3, threeAfter.shared.registry.contains 1, threeAfter.shared.registry.size) = (true, false, 1) := by
  decide +kernel

end Demo
end Scouter
