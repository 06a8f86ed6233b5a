import Verif.Proofs.Tables
import Verif.Props.Services
/-!
# The shared table of running services
-/
namespace Scouter
namespace Stepwise
open TM
open Trace (Request Call)

variable {α β : Type}

/-! ## A table without bound, alone -/

/-- What holds of a world whose table has no bound. -/
structure Unb (w : World) : Prop where
  ids : ((services w).map (·.1)).Nodup
  made : ∀ s ∈ services w, ∃ n, n < w.tick ∧ s.1 = w.env.id n
  free : Free w.registry
  exact : Exact w

theorem Unb.quiet {w w' : World} (h : Unb w) (q : Q w w') : Unb w' where
  ids := by rw [q.services_eq]; exact h.ids
  made := by
    rw [q.services_eq, q.env]
    intro s hs
    obtain ⟨n, h1, h2⟩ := h.made s hs
    exact ⟨n, Nat.lt_of_lt_of_le h1 q.tick, h2⟩
  free := by rw [q.registry]; exact h.free
  exact := by unfold Exact; rw [q.registry, q.services_eq]; exact h.exact

theorem Unb.endedOne {w w' : World} (h : Unb w) (e : Ended w w') : Unb w' := by
  obtain ⟨p, id, l, m, h1, h2, h3, -⟩ := e.one
  obtain ⟨r1, r2⟩ := h.free.remove id
  refine ⟨?_, ?_, by rw [h3]; exact r1, ?_⟩
  · rw [h2, map_fst_set _ _ _ h1]; exact h.ids
  · intro s hs
    have : s.1 ∈ (services w).map (·.1) := by
      rw [← map_fst_set _ _ _ h1, ← h2]; exact List.mem_map.mpr ⟨s, hs, rfl⟩
    obtain ⟨s', hs', he⟩ := List.mem_map.mp this
    obtain ⟨n, n1, n2⟩ := h.made s' hs'
    exact ⟨n, Nat.lt_of_lt_of_le n1 e.tick, by rw [← he, n2, e.env]⟩
  · unfold Exact
    rw [h3, r2, h2, openAt_set _ h.ids _ _ h1, h.exact]

theorem Unb.started {w w' : World} (hinj : DistinctIds w.env w'.tick) (h : Unb w) (s : Started w w') : Unb w' := by
  obtain ⟨n, h1, h2, h3, h4⟩ := s.fresh
  have hf : w.env.id n ∉ (services w).map (·.1) := by
    intro hmem
    obtain ⟨s, hs, he⟩ := List.mem_map.mp hmem
    obtain ⟨k, k1, k2⟩ := h.made s hs
    have := hinj k n (by omega) h2 (k2.symm.trans he)
    omega
  have hr : w.env.id n ∉ w.registry.abs.map (·.1) := by
    intro hm
    obtain ⟨x, hx, he⟩ := List.mem_map.mp hm
    rw [h.exact] at hx
    exact hf (he ▸ openAt_keys _ _ hx)
  obtain ⟨r1, r2⟩ := h.free.add (w.env.id n) (some w.tctxs.length) hr
  refine ⟨?_, ?_, by rw [h4]; exact r1, ?_⟩
  · rw [h3, List.map_append, List.nodup_append]
    refine ⟨h.ids, by simp, ?_⟩
    intro a ha b hb e
    rw [List.map_cons, List.map_nil, List.mem_singleton] at hb
    apply hf
    simp only at hb
    rw [← hb, ← e]; exact ha
  · rw [h3, s.env]
    intro x hx
    rcases List.mem_append.mp hx with hx | hx
    · obtain ⟨k, k1, k2⟩ := h.made x hx
      exact ⟨k, by omega, k2⟩
    · rw [List.mem_singleton] at hx
      exact ⟨n, h2, by rw [hx]⟩
  · unfold Exact
    rw [h4, r2, h3, openAt_append, services_length, h.exact]

theorem Unb.move {w w' : World} (hinj : DistinctIds w.env w'.tick) (h : Unb w) (m : Move w w') : Unb w' := by
  cases m with
  | ends e =>
    induction e with
    | quiet q => exact h.quiet q
    | more e _ ih => exact ih (by rw [e.env]; exact hinj) (h.endedOne e)
  | starts s =>
    cases s with
    | quiet q => exact h.quiet q
    | one s => exact h.started hinj s

theorem Unb.history (cs : List Call) (hown : ∀ c ∈ cs, own c = true) : ∀ {w : World}, DistinctIds w.env (Trace.history w cs).tick → Unb w →
    Unb (Trace.history w cs) := by
  induction cs with
  | nil => exact fun _ h => h
  | cons c cs ih =>
    intro w hinj h
    refine ih (fun c hc => hown c (List.mem_cons_of_mem _ hc)) (by rw [exec_env]; exact hinj) ?_
    refine h.move (DistinctIds.mono hinj (history_tick (Trace.perform w c) cs)) (move_of_code c (fun x e => ?_) w)
    have := hown c List.mem_cons_self
    rw [e] at this
    cases this

/-! ## In company -/

/-- What is known of each goroutine. -/
theorem Inv.honest {cap : Nat} {s0 s : State} (h : Inv (Cache.new 0 false) cap s0 s) {i : Nat} {g0 g : Goroutine} (h0 : s0.gs[i]? = some g0)
    (hg : s.gs[i]? = some g) (hgood : Good g0.todo) (hfresh : g0.tctxs = []) (hid : DistinctIds s.shared.env s.shared.tick) :
    ∃ v, g0.todo.seq (alone (Cache.new 0 false) s0.shared cap (Stepwise.dealt s i) g0) = g.todo.seq v ∧ Rel (Stepwise.dealt s i) v s.shared g ∧ v.registry = g.mine ∧
      DistinctIds v.env v.tick ∧ J v ∧ Along g.todo v ∧ ∀ x, Read v x → ∃ t ∈ g.ticks, x = s.shared.env.id t := by
  obtain ⟨v, e, r, d⟩ := h.sim i g0 g h0 hg _ (dealt_follows hg)
  have hj0 : J (alone (Cache.new 0 false) s0.shared cap (Stepwise.dealt s i) g0) := by
    refine ⟨fun t ht => ?_, fun _ x hx => ?_, fun _ => ⟨Cache.inv_new _ _, rfl, rfl⟩, fun _ e he => ?_⟩
    · rw [show (alone (Cache.new 0 false) s0.shared cap (Stepwise.dealt s i) g0).tctxs = g0.tctxs from rfl, hfresh] at ht; cases ht
    · have : x ∈ ((Cache.new 0 false : Cache (BitVec 64) Nat).abs.map (·.1)) := hx
      simp [Cache.abs, Cache.new] at this
    · have : e ∈ ((Cache.new 0 false : Cache (BitVec 64) Nat).abs) := he
      simp [Cache.abs, Cache.new] at this
  have hj : J v ∧ Along g.todo v := by
    have gen : ∀ {m m' : Prog Unit} {w w' : World}, Reach m w m' w' → J w → Along m w → J w' ∧ Along m' w' := by
      intro m m' w w' hr
      induction hr with
      | refl => exact fun a b => ⟨a, b⟩
      | step _ ih => exact fun a b => ⟨(ih a b).1.exec (ih a b).2.1, (ih a b).2.2⟩
    exact gen e hj0 (hgood _ hj0)
  refine ⟨v, e.seq, r, d rfl, ?_, hj.1, hj.2, fun x hx => ?_⟩
  · intro a b ha hb hab
    rw [r.tick] at ha hb
    rw [r.env] at hab
    have hin := h.incr i g hg
    obtain ⟨k1, e1⟩ | ⟨k1, -⟩ := dealt_cases hg a
    · obtain ⟨k2, e2⟩ | ⟨k2, -⟩ := dealt_cases hg b
      · have hab' : s.shared.env.id (Stepwise.dealt s i a) = s.shared.env.id (Stepwise.dealt s i b) := hab
        rw [e1, e2] at hab'
        have := hid _ _ (hin.2 _ (List.getElem_mem k1)) (hin.2 _ (List.getElem_mem k2)) hab'
        rcases Nat.lt_trichotomy a b with hlt | heq | hlt
        · exact absurd this (Nat.ne_of_lt (List.pairwise_iff_getElem.1 hin.1 a b k1 k2 hlt))
        · exact heq
        · exact absurd this.symm (Nat.ne_of_lt (List.pairwise_iff_getElem.1 hin.1 b a k2 k1 hlt))
      · omega
    · omega
  · obtain ⟨n, h1, h2⟩ := hx
    rw [r.tick] at h1
    rw [r.env] at h2
    obtain ⟨k1, e1⟩ | ⟨k1, -⟩ := dealt_cases hg n
    · exact ⟨_, List.getElem_mem k1, by rw [← e1]; exact h2⟩
    · omega

/-- Nothing is in the table but what some goroutine entered and did not strike out. -/
structure Within (s : State) : Prop where
  reg : RegOk s.shared.registry
  sub : ∀ e ∈ s.shared.registry.abs, ∃ g ∈ s.gs, e ∈ g.mine.abs

/-- The table is what the goroutines entered and did not strike out. -/
def Whole (s : State) : Prop := s.shared.registry.abs.Perm (s.gs.map (·.mine.abs)).flatten

theorem set_cases {γ : Type} {l : List γ} {i : Nat} {x y : γ} (h : y ∈ l.set i x) : y = x ∨ y ∈ l := by
  rcases List.mem_or_eq_of_mem_set h with h | h
  · exact .inr h
  · exact .inl h

theorem flatten_filter_set {γ : Type} (f : γ → Bool) {l : List (List γ)} {i : Nat} {x : List γ} (h : l[i]? = some x)
    (ho : ∀ j y, j ≠ i → l[j]? = some y → ∀ e ∈ y, f e = true) : (l.set i (x.filter f)).flatten = l.flatten.filter f := by
  induction l generalizing i with
  | nil => simp at h
  | cons a as ih =>
    cases i with
    | zero =>
      simp only [List.getElem?_cons_zero, Option.some.injEq] at h
      subst h
      simp only [List.set_cons_zero, List.flatten_cons, List.filter_append]
      congr 1
      symm
      rw [List.filter_eq_self]
      intro e he
      obtain ⟨y, hy, hey⟩ := List.mem_flatten.1 he
      obtain ⟨j, hj⟩ := List.getElem?_of_mem hy
      exact ho (j + 1) y (by omega) (by simpa using hj) e hey
    | succ i =>
      simp only [List.set_cons_succ, List.flatten_cons, List.filter_append]
      rw [ih (by simpa using h) fun j y hj hy => ho (j + 1) y (by omega) (by simpa using hy)]
      congr 1
      symm
      rw [List.filter_eq_self]
      exact ho 0 a (by omega) rfl

/-- One access. -/
theorem tables_go {cap : Nat} {s0 s : State} (h : Inv (Cache.new 0 false) cap s0 s) (h0 : ∀ g ∈ s0.gs, Good g.todo ∧ g.tctxs = [])
    {i : Nat} {g : Goroutine} (hi : s.gs[i]? = some g) {β : Type} {a : Prim β} {k : β → Prog Unit} (hk : g.todo = .op a k)
    (hid : DistinctIds s.shared.env s.shared.tick) (hw : Within s) :
    let s' : State := { shared := (a.exec (view s.shared g)).2, gs := s.gs.set i (g.after a s.shared (a.exec (view s.shared g)).2 (k (a.exec (view s.shared g)).1)) }
    Within s' ∧ (s.shared.registry.size < 10000 → Whole s → Whole s') := by
  intro s'
  have hlt : i < s.gs.length := (List.getElem?_eq_some_iff.1 hi).1
  have each : ∀ (j : Nat) (g' : Goroutine), s.gs[j]? = some g' → ∃ v, v.registry = g'.mine ∧ DistinctIds v.env v.tick ∧ J v ∧ Along g'.todo v ∧
      ∀ x, Read v x → ∃ t ∈ g'.ticks, x = s.shared.env.id t := by
    intro j g' hj
    have hj0 : j < s0.gs.length := h.len ▸ (List.getElem?_eq_some_iff.1 hj).1
    have hg0 := h0 _ (List.getElem_mem hj0)
    obtain ⟨v, -, -, c, d, e, f, g⟩ := h.honest (List.getElem?_eq_getElem hj0) hj hg0.1 hg0.2 hid
    exact ⟨v, c, d, e, f, g⟩
  have own : ∀ (j : Nat) (g' : Goroutine), s.gs[j]? = some g' → ∀ e ∈ g'.mine.abs, ∃ t ∈ g'.ticks, e.1 = s.shared.env.id t := by
    intro j g' hj e he
    obtain ⟨v, c, d, e', -, f⟩ := each j g' hj
    exact f _ (e'.keys d _ (by rw [c]; exact List.mem_map.2 ⟨e, he, rfl⟩))
  have other : ∀ (j : Nat) (g' : Goroutine), j ≠ i → s.gs[j]? = some g' → ∀ x, (∃ t ∈ g.ticks, x = s.shared.env.id t) → ∀ e ∈ g'.mine.abs, e.1 ≠ x := by
    intro j g' hne hj x ⟨t, ht, hx⟩ e he hex
    obtain ⟨t', ht', hx'⟩ := own j g' hj e he
    have := hid _ _ ((h.incr i g hi).2 t ht) ((h.incr j g' hj).2 t' ht') (hx.symm.trans (hex.symm.trans hx'))
    exact h.apart i j g g' (Ne.symm hne) hi hj t ht (this ▸ ht')
  obtain ⟨v, c, d, jv, al, rd⟩ := each i g hi
  rw [hk] at al
  have hfree : Free g.mine := c ▸ jv.free d
  have hreg : s'.shared.registry = a.table s.shared.registry := table_exec a _
  have same : (∀ r, a.table r = r) → Within s' ∧ (s.shared.registry.size < 10000 → Whole s → Whole s') := by
    intro ht
    have em : (g.after a s.shared (a.exec (view s.shared g)).2 (k (a.exec (view s.shared g)).1)).mine = g.mine := ht _
    have er : s'.shared.registry = s.shared.registry := hreg.trans (ht _)
    refine ⟨⟨er ▸ hw.reg, fun e he => ?_⟩, fun _ hwh => ?_⟩
    · rw [er] at he
      obtain ⟨g', hg', he'⟩ := hw.sub e he
      obtain ⟨j, hj⟩ := List.getElem?_of_mem hg'
      by_cases hji : j = i
      · subst hji
        rw [hi] at hj
        injection hj with hj
        subst hj
        exact ⟨_, List.mem_set hlt _, by rw [em]; exact he'⟩
      · exact ⟨g', List.mem_of_getElem? (i := j) (by show (s.gs.set i _)[j]? = _; rw [List.getElem?_set_ne (Ne.symm hji)]; exact hj), he'⟩
    · unfold Whole at hwh ⊢
      rw [er]
      refine hwh.trans (List.Perm.of_eq ?_)
      show _ = (List.map _ (s.gs.set i _)).flatten
      rw [List.map_set]
      congr 1
      symm
      rw [show (g.after a s.shared (a.exec (view s.shared g)).2 (k (a.exec (view s.shared g)).1)).mine.abs = g.mine.abs from congrArg Cache.abs em]
      have : (s.gs.map (·.mine.abs))[i]'(by simpa using hlt) = g.mine.abs := by
        simp [(List.getElem?_eq_some_iff.1 hi).2]
      rw [← this, List.set_getElem_self]
  cases a with
  | enlist x p =>
    obtain ⟨hx, -, hab⟩ := al.1
    have hox := rd x hx
    have hnm : x ∉ g.mine.abs.map (·.1) := c ▸ hab d
    have hns : x ∉ s.shared.registry.abs.map (·.1) := by
      intro hm
      obtain ⟨e, he, rfl⟩ := List.mem_map.1 hm
      obtain ⟨g', hg', he'⟩ := hw.sub e he
      obtain ⟨j, hj⟩ := List.getElem?_of_mem hg'
      by_cases hji : j = i
      · subst hji
        rw [hi] at hj
        injection hj with hj
        subst hj
        exact hnm (List.mem_map.2 ⟨e, he', rfl⟩)
      · exact other j g' hji hj _ hox e he' rfl
    obtain ⟨m1, m2⟩ := hfree.add x (some p) hnm
    obtain ⟨r1, r2⟩ := hw.reg.add x (some p) hns
    have hreg' : s'.shared.registry = s.shared.registry.add x (some p) := hreg
    have hsub : ∀ e ∈ s.shared.registry.abs ++ [(x, some p)], ∃ g' ∈ s'.gs, e ∈ g'.mine.abs := by
      intro e he
      rcases List.mem_append.1 he with he | he
      · obtain ⟨g', hg', he'⟩ := hw.sub e he
        obtain ⟨j, hj⟩ := List.getElem?_of_mem hg'
        by_cases hji : j = i
        · subst hji
          rw [hi] at hj
          injection hj with hj
          subst hj
          refine ⟨_, List.mem_set hlt _, ?_⟩
          show e ∈ (g.mine.add x (some p)).abs
          rw [m2]
          exact List.mem_append_left _ he'
        · exact ⟨g', List.mem_of_getElem? (i := j) (by show (s.gs.set i _)[j]? = _; rw [List.getElem?_set_ne (Ne.symm hji)]; exact hj), he'⟩
      · refine ⟨_, List.mem_set hlt _, ?_⟩
        show e ∈ (g.mine.add x (some p)).abs
        rw [m2]
        exact List.mem_append_right _ he
    refine ⟨⟨hreg' ▸ r1, fun e he => hsub e ?_⟩, fun hsz hwh => ?_⟩
    · rw [hreg', r2] at he
      split at he
      · exact he
      · exact List.mem_of_mem_tail he
    · have hl : s.shared.registry.abs.length < 10000 := by simpa [Cache.abs, Cache.size] using hsz
      unfold Whole at hwh ⊢
      rw [hreg', r2, if_pos hl]
      show List.Perm _ (List.map _ (s.gs.set i _)).flatten
      rw [List.map_set]
      refine (List.Perm.append_right _ hwh).trans ?_
      show List.Perm _ (List.set _ i (g.mine.add x (some p)).abs).flatten
      rw [m2]
      exact (flatten_set (by rw [List.getElem?_map, hi]; rfl)).symm
  | strike x =>
    have hox := rd x al.1
    obtain ⟨m1, m2⟩ := hfree.remove x
    obtain ⟨r1, r2⟩ := hw.reg.remove x
    have hreg' : s'.shared.registry = s.shared.registry.remove x := hreg
    refine ⟨⟨hreg' ▸ r1, fun e he => ?_⟩, fun hsz hwh => ?_⟩
    · rw [hreg', r2] at he
      obtain ⟨he, hne⟩ := List.mem_filter.1 he
      obtain ⟨g', hg', he'⟩ := hw.sub e he
      obtain ⟨j, hj⟩ := List.getElem?_of_mem hg'
      by_cases hji : j = i
      · subst hji
        rw [hi] at hj
        injection hj with hj
        subst hj
        refine ⟨_, List.mem_set hlt _, ?_⟩
        show e ∈ (g.mine.remove x).abs
        rw [m2]
        exact List.mem_filter.2 ⟨he', hne⟩
      · exact ⟨g', List.mem_of_getElem? (i := j) (by show (s.gs.set i _)[j]? = _; rw [List.getElem?_set_ne (Ne.symm hji)]; exact hj), he'⟩
    · unfold Whole at hwh ⊢
      rw [hreg', r2]
      show List.Perm _ (List.map _ (s.gs.set i _)).flatten
      rw [List.map_set]
      show List.Perm _ (List.set _ i (g.mine.remove x).abs).flatten
      rw [m2, flatten_filter_set _ (by rw [List.getElem?_map, hi]; rfl) fun j y hj hy e he => ?_]
      · exact hwh.filter _
      · rw [List.getElem?_map] at hy
        cases hj' : s.gs[j]? with
        | none => rw [hj'] at hy; cases hy
        | some g' =>
          rw [hj'] at hy
          injection hy with hy
          subst hy
          exact decide_eq_true (other j g' hj hj' x hox e he)
  | _ => exact same fun _ => rfl

/-- One turn. -/
theorem tables_turn {cap : Nat} {s0 s : State} (h : Inv (Cache.new 0 false) cap s0 s) (h0 : ∀ g ∈ s0.gs, Good g.todo ∧ g.tctxs = []) (t : Turn)
    (hid : DistinctIds s.shared.env s.shared.tick) (hw : Within s) :
    Within (s.turn t) ∧ (s.shared.registry.size < 10000 → Whole s → Whole (s.turn t)) := by
  cases t with
  | go i =>
    cases hi : s.gs[i]? with
    | none => simpa only [State.turn, hi] using ⟨hw, fun _ h => h⟩
    | some g =>
      cases hk : g.todo with
      | op a k => simpa only [State.turn, hi, hk] using tables_go h h0 hi hk hid hw
      | pure a => simpa only [State.turn, hi, hk] using ⟨hw, fun _ h => h⟩
      | panic => simpa only [State.turn, hi, hk] using ⟨hw, fun _ h => h⟩
  | reset o => exact ⟨⟨hw.reg, hw.sub⟩, fun _ h => h⟩
  | queue q => exact ⟨⟨hw.reg, hw.sub⟩, fun _ h => h⟩

theorem turn_grows (s : State) (t : Turn) : s.shared.tick ≤ (s.turn t).shared.tick ∧ (s.turn t).shared.env = s.shared.env := by
  cases t with
  | go i =>
    cases hi : s.gs[i]? with
    | none => simp only [State.turn, hi]; exact ⟨Nat.le_refl _, trivial⟩
    | some g =>
      cases hk : g.todo with
      | op a k => simp only [State.turn, hi, hk]; exact ⟨(grows_exec a (w := s.shared) (g := g)).tick, (grows_exec a (w := s.shared) (g := g)).env⟩
      | pure a => simp only [State.turn, hi, hk]; exact ⟨Nat.le_refl _, trivial⟩
      | panic => simp only [State.turn, hi, hk]; exact ⟨Nat.le_refl _, trivial⟩
  | reset o => exact ⟨Nat.le_refl _, rfl⟩
  | queue q => exact ⟨Nat.le_refl _, rfl⟩

theorem run_grows (s : State) (ts : List Turn) : s.shared.tick ≤ (s.run ts).shared.tick ∧ (s.run ts).shared.env = s.shared.env := by
  induction ts generalizing s with
  | nil => exact ⟨Nat.le_refl _, rfl⟩
  | cons t ts ih => exact ⟨Nat.le_trans (turn_grows s t).1 (ih _).1, (ih _).2.trans (turn_grows s t).2⟩

theorem tables_run {cap : Nat} {s0 : State} (h0 : ∀ g ∈ s0.gs, Good g.todo ∧ g.tctxs = []) (ts : List Turn) :
    ∀ {s : State}, Inv (Cache.new 0 false) cap s0 s → DistinctIds s.shared.env (s.run ts).shared.tick → Within s →
      Within (s.run ts) ∧ ((∀ n, ((s.run (ts.take n)).shared.registry.size < 10000)) → Whole s → Whole (s.run ts)) := by
  induction ts with
  | nil => exact fun _ _ hw => ⟨hw, fun _ h => h⟩
  | cons t ts ih =>
    intro s h hid hw
    have h1 := tables_turn h h0 t (DistinctIds.mono hid (run_grows s (t :: ts)).1) hw
    have h2 := ih (h.turn t) (by rw [(turn_grows s t).2]; exact hid) h1.1
    exact ⟨h2.1, fun hn hwh => h2.2 (fun n => hn (n + 1)) (h1.2 (hn 0) hwh)⟩

end Stepwise
end Scouter
