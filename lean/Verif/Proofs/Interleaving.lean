import Verif.Proofs.Stepwise
import Verif.Spec.Stepwise
import Verif.Proofs.References
/-!
# Goroutines making accesses in turn: each does what it would do alone
-/
namespace Scouter
namespace Stepwise
open TM
open Trace (Request Call)

variable {α β : Type}

/-- The first readings are those made at these moments. -/
def Follows (σ : Nat → Nat) (ticks : List Nat) : Prop := ∀ k t, ticks[k]? = some t → σ k = t

/-- The goroutine in company (`w`, `g`) against the one alone (`v`). -/
structure Rel (σ : Nat → Nat) (v w : World) (g : Goroutine) : Prop where
  env : v.env = w.env.at σ
  tick : v.tick = g.ticks.length
  conf : v.conf = w.conf
  tctxs : v.tctxs = g.tctxs
  steps : v.steps = g.steps
  counted : v.metered = g.counted
  sent : v.proxy.direct = g.sent
  fresh : ∀ s, v.sampler = some s → s = Sampler.new v.conf.sample
  known : ∀ k h, Known v.proxy.offered k h → Known w.proxy.offered k h

/-- What is shared. -/
structure Sh (w : World) : Prop where
  fresh : ∀ s, w.sampler = some s → s = Sampler.new w.conf.sample
  cached : ∀ k h, (w.proxy.sent k).contains h = true → Known w.proxy.offered k h

/-- What others may do to what is shared. -/
structure Grows (w w' : World) : Prop where
  env : w'.env = w.env
  conf : w'.conf = w.conf
  tick : w.tick ≤ w'.tick
  known : ∀ k h, Known w.proxy.offered k h → Known w'.proxy.offered k h
  direct : w.proxy.direct <+: w'.proxy.direct
  metered : w.metered <+: w'.metered

theorem Rel.grows {σ : Nat → Nat} {v w w' : World} {g : Goroutine} (h : Rel σ v w g) (hg : Grows w w') : Rel σ v w' g where
  env := by rw [h.env, hg.env]
  tick := h.tick
  conf := by rw [h.conf, hg.conf]
  tctxs := h.tctxs
  steps := h.steps
  counted := h.counted
  sent := h.sent
  fresh := h.fresh
  known k x hk := hg.known k x (h.known k x hk)

theorem Known.mono {a b : List TextPack} {k : TextKind} {h : BitVec 32} (hk : Known a k h) (hab : ∀ p ∈ a, p ∈ b) : Known b k h := by
  rcases hk with hk | ⟨t, ht, hh⟩
  · exact .inl hk
  · exact .inr ⟨t, hab _ ht, hh⟩

/-- What `Send*` returns does not depend on what was announced. -/
theorem sendText_result (p : Proxy) (k : TextKind) (n : Bytes) : (p.sendText k n).2 = textHash n := by
  unfold Proxy.sendText textHash
  by_cases h : n = []
  · simp [h]
  · simp only [h, if_false]
    split <;> rfl

theorem sendText_rest (p : Proxy) (k : TextKind) (n : Bytes) :
    (p.sendText k n).1.direct = p.direct ∧ ∀ t ∈ p.offered, t ∈ (p.sendText k n).1.offered := by
  unfold Proxy.sendText
  by_cases h : n = []
  · simp [h]
  · simp only [h, if_false]
    split
    · exact ⟨rfl, fun _ h => h⟩
    · exact ⟨rfl, fun t ht => List.mem_append_left _ ht⟩

theorem known_new (offered : List TextPack) (k : TextKind) (n : Bytes) : Known (offered ++ [⟨k.textType, hash n, n⟩]) k (hash n) :=
  .inr ⟨n, List.mem_append_right _ (by rw [kindCode_eq]; exact List.mem_singleton.2 rfl), (C16_hash_is_crc32 n).symm⟩

theorem known_of_code {a : List TextPack} {k k' : TextKind} {h : BitVec 32} (e : ascii (Spec.kindCode k') = ascii (Spec.kindCode k)) (hk : Known a k h) :
    Known a k' h := by
  rcases hk with hk | ⟨t, ht, hh⟩
  · exact .inl hk
  · exact .inr ⟨t, by rw [e]; exact ht, hh⟩

/-- Nothing new is known after a text was sent but that text. -/
theorem known_sent {p : Proxy} {k k' : TextKind} {n : Bytes} {h : BitVec 32} (hk : Known (p.sendText k n).1.offered k' h) :
    Known p.offered k' h ∨ (n ≠ [] ∧ h = hash n ∧ ascii (Spec.kindCode k') = ascii (Spec.kindCode k)) := by
  unfold Proxy.sendText at hk
  by_cases hn : n = []
  · rw [if_pos hn] at hk; exact .inl hk
  · rw [if_neg hn] at hk
    simp only at hk
    split at hk
    · exact .inl hk
    · rcases hk with hk | ⟨t, ht, hh⟩
      · exact .inl (.inl hk)
      · rcases List.mem_append.1 ht with ht | ht
        · exact .inl (.inr ⟨t, ht, hh⟩)
        · have e := List.mem_singleton.1 ht
          injection e with e1 e2 e3
          exact .inr ⟨hn, e2, by rw [e1, kindCode_eq]⟩

/-- A text sent is known. -/
theorem sent_known {p : Proxy} {k : TextKind} {n : Bytes} (hc : ∀ k h, (p.sent k).contains h = true → Known p.offered k h) (hn : n ≠ []) :
    Known (p.sendText k n).1.offered k (hash n) := by
  unfold Proxy.sendText
  rw [if_neg hn]
  simp only
  split
  · rename_i h; exact hc _ _ h
  · exact known_new _ _ _

theorem sent_cached {p : Proxy} {k : TextKind} {n : Bytes} (hc : ∀ k h, (p.sent k).contains h = true → Known p.offered k h) :
    ∀ k' h, ((p.sendText k n).1.sent k').contains h = true → Known (p.sendText k n).1.offered k' h := by
  intro k' h hk
  unfold Proxy.sendText at hk ⊢
  by_cases hn : n = []
  · rw [if_pos hn] at hk ⊢; exact hc _ _ hk
  · rw [if_neg hn] at hk ⊢
    simp only at hk ⊢
    by_cases hh : (p.sent k).contains (hash n) = true
    · rw [if_pos hh] at hk ⊢
      exact hc _ _ hk
    · rw [if_neg hh] at hk ⊢
      simp only [Proxy.addPack] at hk ⊢
      by_cases e : k' = k
      · subst e
        rw [if_pos rfl] at hk
        rcases Refs.contains_add hk with h1 | h1
        · exact Known.mono (hc _ _ h1) fun t ht => List.mem_append_left _ ht
        · rw [h1]; exact known_new _ _ _
      · rw [if_neg e] at hk
        exact Known.mono (hc _ _ hk) fun t ht => List.mem_append_left _ ht

/-- An access of a goroutine leaves what is shared in order. -/
theorem sh_exec (a : Prim α) {w : World} {g : Goroutine} (h : Sh w) : Sh (a.exec (view w g)).2 := by
  cases a with
  | sendText k n => exact ⟨h.fresh, sent_cached h.cached⟩
  | sampler =>
    simp only [Prim.exec, view]
    cases hs : w.sampler with
    | some s => exact ⟨fun s' e => h.fresh s' (hs.trans e), h.cached⟩
    | none => exact ⟨fun s e => by injection e with e; exact e.symm, h.cached⟩
  | _ => exact ⟨h.fresh, h.cached⟩

theorem grows_exec (a : Prim α) {w : World} {g : Goroutine} : Grows w (a.exec (view w g)).2 := by
  cases a with
  | sendText k n =>
    refine ⟨rfl, rfl, Nat.le_refl _, fun k' h hk => Known.mono hk (sendText_rest w.proxy k n).2, ?_, List.prefix_refl _⟩
    show _ <+: (w.proxy.sendText k n).1.direct
    rw [(sendText_rest w.proxy k n).1]
    exact List.prefix_refl _
  | sendDirect p => exact ⟨rfl, rfl, Nat.le_refl _, fun k' h hk => hk, List.prefix_append _ _, List.prefix_refl _⟩
  | meter e b => exact ⟨rfl, rfl, Nat.le_refl _, fun k' h hk => hk, List.prefix_refl _, List.prefix_append _ _⟩
  | clock | newId | draw | goid | panicText => exact ⟨rfl, rfl, Nat.le_succ _, fun k' h hk => hk, List.prefix_refl _, List.prefix_refl _⟩
  | sampler =>
    simp only [Prim.exec, view]
    cases hs : w.sampler <;> exact ⟨rfl, rfl, Nat.le_refl _, fun k' h hk => hk, List.prefix_refl _, List.prefix_refl _⟩
  | _ => exact ⟨rfl, rfl, Nat.le_refl _, fun k' h hk => hk, List.prefix_refl _, List.prefix_refl _⟩

theorem table_exec (a : Prim α) (w : World) : (a.exec w).2.registry = a.table w.registry := by
  cases a with
  | sampler => simp only [Prim.exec]; cases w.sampler <;> rfl
  | _ => rfl

theorem traceOf_congr {w w' : World} (h : w.tctxs = w'.tctxs) (c : Ctx) : Trace.traceOf w c = Trace.traceOf w' c := by
  cases c with
  | traced p => unfold Trace.traceOf; rw [h]
  | _ => rfl

/-- The access yields what it would yield alone. -/
theorem rel_exec (a : Prim α) {σ : Nat → Nat} {v w : World} {g : Goroutine} (hw : Sh w) (h : Rel σ v w g) (todo : Prog Unit)
    (hf : Follows σ (g.after a w (a.exec (view w g)).2 todo).ticks) :
    (a.exec v).1 = (a.exec (view w g)).1 ∧ Rel σ (a.exec v).2 (a.exec (view w g)).2 (g.after a w (a.exec (view w g)).2 todo) := by
  have quiet : ∀ v' : World, v'.env = v.env → v'.tick = v.tick → v'.conf = v.conf → v'.metered = v.metered → v'.proxy = v.proxy → v'.sampler = v.sampler →
      ∀ w' : World, w'.env = w.env → w'.tick = w.tick → w'.conf = w.conf → w'.metered = w.metered → w'.proxy = w.proxy →
      v'.tctxs = w'.tctxs → v'.steps = w'.steps → Rel σ v' w' (g.after a w w' todo) := by
    intro v' e1 e2 e3 e4 e5 e6 w' f1 f2 f3 f4 f5 d1 d2
    refine ⟨by rw [e1, f1, h.env], ?_, by rw [e3, f3, h.conf], d1, d2, ?_, ?_, by rw [e6, e3]; exact h.fresh, by rw [e5, f5]; exact h.known⟩
    · simp [Goroutine.after, f2, e2, h.tick]
    · simp [Goroutine.after, f4, e4, h.counted]
    · simp [Goroutine.after, f5, e5, h.sent]
  have reading : (σ g.ticks.length = w.tick → ∀ w' : World, w' = advance (view w g) → Rel σ (advance v) w' (g.after a w w' todo)) := by
    intro _ w' hw'
    subst hw'
    refine ⟨h.env, ?_, h.conf, h.tctxs, h.steps, ?_, ?_, h.fresh, h.known⟩
    · simp [Goroutine.after, advance, view, h.tick]
    · simp [Goroutine.after, advance, view, h.counted]
    · simp [Goroutine.after, advance, view, h.sent]
  have now : (g.after a w (advance (view w g)) todo).ticks = g.ticks ++ [w.tick] := by simp [Goroutine.after, advance, view]
  have entry : Follows σ (g.after a w (advance (view w g)) todo).ticks → σ g.ticks.length = w.tick := by
    intro hf
    exact hf g.ticks.length w.tick (by rw [now]; simp)
  cases a with
  | getT p => exact ⟨by simp [Prim.exec, view, h.tctxs], quiet ((Prim.getT p).exec v).2 rfl rfl rfl rfl rfl rfl ((Prim.getT p).exec (view w g)).2 rfl rfl rfl rfl rfl h.tctxs h.steps⟩
  | modT p f =>
    exact ⟨rfl, quiet ((Prim.modT p f).exec v).2 rfl rfl rfl rfl rfl rfl ((Prim.modT p f).exec (view w g)).2 rfl rfl rfl rfl rfl (congrArg (List.modify · p f) h.tctxs) h.steps⟩
  | addT t => exact ⟨by simp [Prim.exec, view, h.tctxs], quiet ((Prim.addT t).exec v).2 rfl rfl rfl rfl rfl rfl ((Prim.addT t).exec (view w g)).2 rfl rfl rfl rfl rfl (congrArg (· ++ [t]) h.tctxs) h.steps⟩
  | traceOf c =>
    exact ⟨traceOf_congr h.tctxs c, quiet ((Prim.traceOf c).exec v).2 rfl rfl rfl rfl rfl rfl ((Prim.traceOf c).exec (view w g)).2 rfl rfl rfl rfl rfl h.tctxs h.steps⟩
  | newStep s => exact ⟨by simp [Prim.exec, view, h.steps], quiet ((Prim.newStep s).exec v).2 rfl rfl rfl rfl rfl rfl ((Prim.newStep s).exec (view w g)).2 rfl rfl rfl rfl rfl h.tctxs (congrArg (· ++ [s]) h.steps)⟩
  | getStep p => exact ⟨by simp [Prim.exec, view, h.steps], quiet ((Prim.getStep p).exec v).2 rfl rfl rfl rfl rfl rfl ((Prim.getStep p).exec (view w g)).2 rfl rfl rfl rfl rfl h.tctxs h.steps⟩
  | getSteps p => exact ⟨by simp [Prim.exec, view, h.steps], quiet ((Prim.getSteps p).exec v).2 rfl rfl rfl rfl rfl rfl ((Prim.getSteps p).exec (view w g)).2 rfl rfl rfl rfl rfl h.tctxs h.steps⟩
  | modStep p f =>
    exact ⟨rfl, quiet ((Prim.modStep p f).exec v).2 rfl rfl rfl rfl rfl rfl ((Prim.modStep p f).exec (view w g)).2 rfl rfl rfl rfl rfl h.tctxs (congrArg (List.modify · p f) h.steps)⟩
  | sendText k n =>
    refine ⟨by simp [Prim.exec, view, sendText_result], h.env, ?_, h.conf, h.tctxs, h.steps, ?_, ?_, h.fresh, ?_⟩
    · simp [Prim.exec, Goroutine.after, view, h.tick]
    · simp [Prim.exec, Goroutine.after, view, h.counted]
    · show (v.proxy.sendText k n).1.direct = g.sent ++ (w.proxy.sendText k n).1.direct.drop _
      rw [(sendText_rest v.proxy k n).1, (sendText_rest w.proxy k n).1, List.drop_length, List.append_nil, h.sent]
    · intro k' x hk
      show Known (w.proxy.sendText k n).1.offered k' x
      rcases known_sent hk with hk | ⟨h1, h2, h3⟩
      · exact Known.mono (h.known _ _ hk) (sendText_rest w.proxy k n).2
      · exact known_of_code h3 (h2 ▸ sent_known hw.cached h1)
  | sendDirect p =>
    refine ⟨rfl, h.env, ?_, h.conf, h.tctxs, h.steps, ?_, ?_, h.fresh, h.known⟩
    · simp [Prim.exec, Goroutine.after, view, h.tick]
    · simp [Prim.exec, Goroutine.after, view, h.counted]
    · simp [Prim.exec, Goroutine.after, view, h.sent]
  | conf => exact ⟨h.conf, quiet ((Prim.conf).exec v).2 rfl rfl rfl rfl rfl rfl ((Prim.conf).exec (view w g)).2 rfl rfl rfl rfl rfl h.tctxs h.steps⟩
  | clock => exact ⟨by simp [Prim.exec, view, h.env, h.tick, Oracle.at, entry hf], reading (entry hf) _ rfl⟩
  | newId => exact ⟨by simp [Prim.exec, view, h.env, h.tick, Oracle.at, entry hf], reading (entry hf) _ rfl⟩
  | draw => exact ⟨by simp [Prim.exec, view, h.env, h.tick, Oracle.at, entry hf], reading (entry hf) _ rfl⟩
  | goid => exact ⟨by simp [Prim.exec, view, h.env, h.tick, Oracle.at, entry hf], reading (entry hf) _ rfl⟩
  | panicText => exact ⟨by simp [Prim.exec, view, h.env, h.tick, Oracle.at, entry hf], reading (entry hf) _ rfl⟩
  | enlist x p => exact ⟨rfl, quiet ((Prim.enlist x p).exec v).2 rfl rfl rfl rfl rfl rfl ((Prim.enlist x p).exec (view w g)).2 rfl rfl rfl rfl rfl h.tctxs h.steps⟩
  | strike x => exact ⟨rfl, quiet ((Prim.strike x).exec v).2 rfl rfl rfl rfl rfl rfl ((Prim.strike x).exec (view w g)).2 rfl rfl rfl rfl rfl h.tctxs h.steps⟩
  | sampler =>
    have hv : (Prim.sampler.exec v).1 = Sampler.new v.conf.sample := by
      simp only [Prim.exec]
      cases hs : v.sampler with
      | none => rfl
      | some s => exact h.fresh s hs
    have hw1 : (Prim.sampler.exec (view w g)).1 = Sampler.new w.conf.sample := by
      simp only [Prim.exec, view]
      cases hs : w.sampler with
      | none => rfl
      | some s => exact hw.fresh s hs
    refine ⟨by rw [hv, hw1, h.conf], ?_⟩
    simp only [Prim.exec, view]
    have fr : ∀ s, some (Sampler.new v.conf.sample) = some s → s = Sampler.new v.conf.sample := fun s e => by injection e with e; exact e.symm
    cases hs : v.sampler <;> cases hs' : w.sampler <;>
      refine ⟨h.env, by simp [Goroutine.after, h.tick], h.conf, h.tctxs, h.steps, by simp [Goroutine.after, h.counted], by simp [Goroutine.after, h.sent], ?_, h.known⟩
    · exact fr
    · exact fr
    · exact h.fresh
    · exact h.fresh
  | meter e b =>
    refine ⟨rfl, h.env, ?_, h.conf, h.tctxs, h.steps, ?_, ?_, h.fresh, h.known⟩
    · simp [Prim.exec, Goroutine.after, view, h.tick]
    · simp [Prim.exec, Goroutine.after, view, h.counted]
    · simp [Prim.exec, Goroutine.after, view, h.sent]

/-! ## Schedules -/

/-- The goroutine by itself, from the beginning, with these readings and this table of running services. -/
def alone (r0 : Cache (BitVec 64) Nat) (w0 : World) (cap : Nat) (σ : Nat → Nat) (g0 : Goroutine) : World :=
  { Trace.start (w0.env.at σ) w0.conf cap with tctxs := g0.tctxs, steps := g0.steps, registry := r0 }

/-- From the one to the other by accesses. -/
inductive Reach : Prog Unit → World → Prog Unit → World → Prop
  | refl (m : Prog Unit) (w : World) : Reach m w m w
  | step {m : Prog Unit} {w w' : World} {β : Type} {a : Prim β} {k : β → Prog Unit} (h : Reach m w (.op a k) w') :
      Reach m w (k (a.exec w').1) (a.exec w').2

theorem Reach.seq {m m' : Prog Unit} {w w' : World} (h : Reach m w m' w') : m.seq w = m'.seq w' := by
  induction h with
  | refl => rfl
  | step _ ih => exact ih

/-- What holds between turns. -/
structure Inv (r0 : Cache (BitVec 64) Nat) (cap : Nat) (s0 s : State) : Prop where
  sh : Sh s.shared
  env : s.shared.env = s0.shared.env
  conf : s.shared.conf = s0.shared.conf
  len : s.gs.length = s0.gs.length
  sim : ∀ (i : Nat) (g0 g : Goroutine), s0.gs[i]? = some g0 → s.gs[i]? = some g → ∀ σ, Follows σ g.ticks →
    ∃ v, Reach g0.todo (alone r0 s0.shared cap σ g0) g.todo v ∧ Rel σ v s.shared g ∧ (r0 = Cache.new 0 false → v.registry = g.mine)
  incr : ∀ (i : Nat) (g : Goroutine), s.gs[i]? = some g → g.ticks.Pairwise (· < ·) ∧ ∀ t ∈ g.ticks, t < s.shared.tick
  apart : ∀ (i j : Nat) (g g' : Goroutine), i ≠ j → s.gs[i]? = some g → s.gs[j]? = some g' → ∀ t ∈ g.ticks, t ∉ g'.ticks
  sent : s.shared.proxy.direct.Perm (s.gs.map (·.sent)).flatten
  counted : s.shared.metered.Perm (s.gs.map (·.counted)).flatten

theorem flatten_set {γ : Type} {l : List (List γ)} {i : Nat} {x y : List γ} (h : l[i]? = some x) : (l.set i (x ++ y)).flatten.Perm (l.flatten ++ y) := by
  induction l generalizing i with
  | nil => simp at h
  | cons a as ih =>
    cases i with
    | zero =>
      simp only [List.getElem?_cons_zero, Option.some.injEq] at h
      subst h
      simp only [List.set_cons_zero, List.flatten_cons, List.append_assoc]
      exact List.Perm.append_left _ List.perm_append_comm
    | succ i =>
      simp only [List.set_cons_succ, List.flatten_cons, List.append_assoc]
      exact List.Perm.append_left _ (ih (by simpa using h))

theorem Inv.grows {r0 : Cache (BitVec 64) Nat} {cap : Nat} {s0 s : State} (h : Inv r0 cap s0 s) {w' : World} (hg : Grows s.shared w') (hs : Sh w') (hd : w'.proxy.direct = s.shared.proxy.direct)
    (hm : w'.metered = s.shared.metered) : Inv r0 cap s0 { s with shared := w' } where
  sh := hs
  env := hg.env.trans h.env
  conf := hg.conf.trans h.conf
  len := h.len
  sim i g0 g h0 h1 σ hf := by
    obtain ⟨v, e, r, d⟩ := h.sim i g0 g h0 h1 σ hf
    exact ⟨v, e, r.grows hg, d⟩
  incr i g hi := ⟨(h.incr i g hi).1, fun t ht => Nat.lt_of_lt_of_le ((h.incr i g hi).2 t ht) hg.tick⟩
  apart := h.apart
  sent := by show w'.proxy.direct.Perm _; rw [hd]; exact h.sent
  counted := by show w'.metered.Perm _; rw [hm]; exact h.counted

theorem Follows.append {σ : Nat → Nat} {a b : List Nat} (h : Follows σ (a ++ b)) : Follows σ a := by
  intro k t ht
  have : k < a.length := (List.getElem?_eq_some_iff.1 ht).1
  exact h k t (by rw [List.getElem?_append_left this]; exact ht)

theorem ticks_exec (a : Prim α) (w : World) (g : Goroutine) (todo : Prog Unit) :
    (g.after a w (a.exec (view w g)).2 todo).ticks = g.ticks ∧ (a.exec (view w g)).2.tick = w.tick ∨
    (g.after a w (a.exec (view w g)).2 todo).ticks = g.ticks ++ [w.tick] ∧ (a.exec (view w g)).2.tick = w.tick + 1 := by
  cases a with
  | clock | newId | draw | goid | panicText => right; simp [Goroutine.after, Prim.exec, advance, view]
  | sampler =>
    left
    simp only [Prim.exec, view]
    cases w.sampler <;> simp [Goroutine.after]
  | _ => left; simp [Goroutine.after, Prim.exec, view]

theorem after_grows (a : Prim α) (w : World) (g : Goroutine) :
    (a.exec (view w g)).2.proxy.direct = w.proxy.direct ++ (a.exec (view w g)).2.proxy.direct.drop w.proxy.direct.length ∧
    (a.exec (view w g)).2.metered = w.metered ++ (a.exec (view w g)).2.metered.drop w.metered.length := by
  have h := grows_exec a (w := w) (g := g)
  obtain ⟨x, hx⟩ := h.direct
  obtain ⟨y, hy⟩ := h.metered
  rw [← hx, ← hy]
  simp

theorem Inv.go {r0 : Cache (BitVec 64) Nat} {cap : Nat} {s0 s : State} (h : Inv r0 cap s0 s) {i : Nat} {g : Goroutine} (hi : s.gs[i]? = some g) {β : Type} {a : Prim β} {k : β → Prog Unit}
    (hk : g.todo = .op a k) :
    Inv r0 cap s0 { shared := (a.exec (view s.shared g)).2, gs := s.gs.set i (g.after a s.shared (a.exec (view s.shared g)).2 (k (a.exec (view s.shared g)).1)) } := by
  have hg := grows_exec a (w := s.shared) (g := g)
  have hlt : i < s.gs.length := (List.getElem?_eq_some_iff.1 hi).1
  have hset : ∀ j g', (s.gs.set i (g.after a s.shared (a.exec (view s.shared g)).2 (k (a.exec (view s.shared g)).1)))[j]? = some g' →
      (j = i ∧ g' = g.after a s.shared (a.exec (view s.shared g)).2 (k (a.exec (view s.shared g)).1)) ∨ (j ≠ i ∧ s.gs[j]? = some g') := by
    intro j g' hj
    by_cases e : j = i
    · subst e
      rw [List.getElem?_set_self hlt] at hj
      injection hj with hj
      exact .inl ⟨rfl, hj.symm⟩
    · rw [List.getElem?_set_ne (Ne.symm e)] at hj
      exact .inr ⟨e, hj⟩
  have hticks : ∀ t ∈ (g.after a s.shared (a.exec (view s.shared g)).2 (k (a.exec (view s.shared g)).1)).ticks, t ∈ g.ticks ∨ t = s.shared.tick := by
    intro t ht
    rcases ticks_exec a s.shared g (k (a.exec (view s.shared g)).1) with ⟨e, -⟩ | ⟨e, -⟩
    · rw [e] at ht; exact .inl ht
    · rw [e] at ht
      rcases List.mem_append.1 ht with ht | ht
      · exact .inl ht
      · exact .inr (List.mem_singleton.1 ht)
  refine ⟨sh_exec a h.sh, hg.env.trans h.env, hg.conf.trans h.conf, by simpa using h.len, ?_, ?_, ?_, ?_, ?_⟩
  · intro j g0 g' h0 hj σ hf
    rcases hset j g' hj with ⟨e, e'⟩ | ⟨-, hj⟩
    · subst e; subst e'
      obtain ⟨v, ev, r, d⟩ := h.sim j g0 g h0 hi σ (Follows.append hf)
      obtain ⟨e1, r'⟩ := rel_exec a h.sh r _ hf
      refine ⟨_, ?_, r', fun e => by rw [table_exec, d e]; rfl⟩
      rw [hk] at ev
      show Reach _ _ (k _) _
      rw [← e1]
      exact ev.step
    · obtain ⟨v, ev, r, d⟩ := h.sim j g0 g' h0 hj σ hf
      exact ⟨v, ev, r.grows hg, d⟩
  · intro j g' hj
    rcases hset j g' hj with ⟨e, e'⟩ | ⟨-, hj⟩
    · subst e; subst e'
      have hold := h.incr j g hi
      rcases ticks_exec a s.shared g (k (a.exec (view s.shared g)).1) with ⟨e, et⟩ | ⟨e, et⟩
      · rw [e]; exact ⟨hold.1, fun t ht => by rw [et]; exact hold.2 t ht⟩
      · rw [e]
        refine ⟨List.pairwise_append.2 ⟨hold.1, List.pairwise_singleton _ _, fun x hx y hy => ?_⟩, fun t ht => ?_⟩
        · rw [List.mem_singleton.1 hy]; exact hold.2 x hx
        · rw [et]
          rcases List.mem_append.1 ht with ht | ht
          · exact Nat.lt_succ_of_lt (hold.2 t ht)
          · rw [List.mem_singleton.1 ht]; exact Nat.lt_succ_self _
    · exact ⟨(h.incr j g' hj).1, fun t ht => Nat.lt_of_lt_of_le ((h.incr j g' hj).2 t ht) hg.tick⟩
  · intro j l g1 g2 hne hj hl t ht
    rcases hset j g1 hj with ⟨e, e'⟩ | ⟨nj, hj⟩
    · rcases hset l g2 hl with ⟨f, -⟩ | ⟨nl, hl⟩
      · exact absurd (e.trans f.symm) hne
      · subst e'
        rcases hticks t ht with ht | ht
        · exact h.apart i l g g2 (Ne.symm nl) hi hl t ht
        · rw [ht]; exact fun hm => Nat.lt_irrefl _ ((h.incr l g2 hl).2 _ hm)
    · rcases hset l g2 hl with ⟨f, f'⟩ | ⟨nl, hl⟩
      · subst f'
        intro hm
        rcases hticks t hm with hm | hm
        · exact h.apart j i g1 g nj hj hi t ht hm
        · exact Nat.lt_irrefl _ (hm ▸ (h.incr j g1 hj).2 _ ht)
      · exact h.apart j l g1 g2 hne hj hl t ht
  · rw [(after_grows a s.shared g).1, List.map_set]
    exact (List.Perm.append_right _ h.sent).trans (flatten_set (by rw [List.getElem?_map, hi]; rfl)).symm
  · rw [(after_grows a s.shared g).2, List.map_set]
    exact (List.Perm.append_right _ h.counted).trans (flatten_set (by rw [List.getElem?_map, hi]; rfl)).symm

theorem contains_clear {c : Cache (BitVec 32) Unit} {o : MapOrder (BitVec 32 × Nat)} {h : BitVec 32} (hk : (c.clear o).contains h = true) : c.contains h = true := by
  simp [Cache.clear, Cache.contains] at hk

theorem Inv.turn {r0 : Cache (BitVec 64) Nat} {cap : Nat} {s0 s : State} (h : Inv r0 cap s0 s) (t : Turn) : Inv r0 cap s0 (s.turn t) := by
  cases t with
  | go i =>
    cases hi : s.gs[i]? with
    | none => simpa only [State.turn, hi] using h
    | some g =>
      cases hk : g.todo with
      | op a k => simpa only [State.turn, hi, hk] using h.go hi hk
      | pure a => simpa only [State.turn, hi, hk] using h
      | panic => simpa only [State.turn, hi, hk] using h
  | reset o =>
    exact h.grows ⟨rfl, rfl, Nat.le_refl _, fun _ _ hk => hk, List.prefix_refl _, List.prefix_refl _⟩
      ⟨h.sh.fresh, fun k x hk => h.sh.cached k x (contains_clear hk)⟩ rfl rfl
  | queue q =>
    exact h.grows ⟨rfl, rfl, Nat.le_refl _, fun _ _ hk => hk, List.prefix_refl _, List.prefix_refl _⟩ ⟨h.sh.fresh, h.sh.cached⟩ rfl rfl

theorem Inv.run {r0 : Cache (BitVec 64) Nat} {cap : Nat} {s0 s : State} (h : Inv r0 cap s0 s) (ts : List Turn) : Inv r0 cap s0 (s.run ts) := by
  induction ts generalizing s with
  | nil => exact h
  | cons t ts ih => exact ih (h.turn t)

/-! ## What follows -/

theorem exec_grows (a : Prim α) (w : World) : Grows w (a.exec w).2 := grows_exec a (w := w) (g := { todo := .pure (), tctxs := w.tctxs, steps := w.steps })

theorem Grows.refl (w : World) : Grows w w := ⟨rfl, rfl, Nat.le_refl _, fun _ _ h => h, List.prefix_refl _, List.prefix_refl _⟩
theorem Grows.trans {a b c : World} (h : Grows a b) (h' : Grows b c) : Grows a c :=
  ⟨h'.env.trans h.env, h'.conf.trans h.conf, Nat.le_trans h.tick h'.tick, fun k x hk => h'.known k x (h.known k x hk), h.direct.trans h'.direct,
    h.metered.trans h'.metered⟩

theorem seq_grows (m : Prog α) (w : World) : Grows w (m.seq w).2 := by
  induction m generalizing w with
  | pure a => exact Grows.refl w
  | panic => exact Grows.refl w
  | op a k ih => exact (exec_grows a w).trans (ih _ _)

/-- Moments for all the readings, those made so far first. -/
def dealt (s : State) (i k : Nat) : Nat :=
  match (s.gs[i]?.map (·.ticks)).getD [] |>.drop k with
  | t :: _ => t
  | [] => s.shared.tick + (k * s.gs.length + i)

theorem dealt_cases {s : State} {i : Nat} {g : Goroutine} (hi : s.gs[i]? = some g) (k : Nat) :
    (∃ h : k < g.ticks.length, dealt s i k = g.ticks[k]) ∨ (g.ticks.length ≤ k ∧ dealt s i k = s.shared.tick + (k * s.gs.length + i)) := by
  unfold dealt
  rw [hi]
  simp only [Option.map_some, Option.getD_some]
  by_cases h : k < g.ticks.length
  · left
    refine ⟨h, ?_⟩
    rw [List.drop_eq_getElem_cons h]
  · right
    refine ⟨Nat.le_of_not_lt h, ?_⟩
    rw [List.drop_eq_nil_of_le (Nat.le_of_not_lt h)]

theorem dealt_follows {s : State} {i : Nat} {g : Goroutine} (hi : s.gs[i]? = some g) : Follows (dealt s i) g.ticks := by
  intro k t ht
  obtain ⟨hk, e⟩ := List.getElem?_eq_some_iff.1 ht
  rcases dealt_cases hi k with ⟨_, h⟩ | ⟨h, -⟩
  · rw [h, e]
  · omega

theorem Inv.dealt {r0 : Cache (BitVec 64) Nat} {cap : Nat} {s0 s : State} (h : Inv r0 cap s0 s) : Dealt s.gs.length (dealt s) := by
  constructor
  · intro i hi k l hkl
    have hg := List.getElem?_eq_getElem hi
    have hin := h.incr i _ hg
    rcases dealt_cases hg k with ⟨hk, ek⟩ | ⟨hk, ek⟩ <;> rcases dealt_cases hg l with ⟨hl, el⟩ | ⟨hl, el⟩
    · rw [ek, el]; exact List.pairwise_iff_getElem.1 hin.1 k l hk hl hkl
    · rw [ek, el]; exact Nat.lt_of_lt_of_le (hin.2 _ (List.getElem_mem hk)) (Nat.le_add_right _ _)
    · omega
    · rw [ek, el]
      have : k * s.gs.length < l * s.gs.length := Nat.mul_lt_mul_of_pos_right hkl (Nat.lt_of_le_of_lt (Nat.zero_le _) hi)
      omega
  · intro i j hi hj hne k l
    have hg := List.getElem?_eq_getElem hi
    have hg' := List.getElem?_eq_getElem hj
    rcases dealt_cases hg k with ⟨hk, ek⟩ | ⟨hk, ek⟩ <;> rcases dealt_cases hg' l with ⟨hl, el⟩ | ⟨hl, el⟩
    · rw [ek, el]
      intro e
      exact h.apart i j _ _ hne hg hg' _ (List.getElem_mem hk) (e ▸ List.getElem_mem hl)
    · rw [ek, el]
      have := (h.incr i _ hg).2 _ (List.getElem_mem hk)
      omega
    · rw [ek, el]
      have := (h.incr j _ hg').2 _ (List.getElem_mem hl)
      omega
    · rw [ek, el]
      intro e
      have e' : k * s.gs.length + i = l * s.gs.length + j := by omega
      have m1 : (k * s.gs.length + i) % s.gs.length = i := by rw [Nat.add_comm, Nat.add_mul_mod_self_right, Nat.mod_eq_of_lt hi]
      have m2 : (l * s.gs.length + j) % s.gs.length = j := by rw [Nat.add_comm, Nat.add_mul_mod_self_right, Nat.mod_eq_of_lt hj]
      exact hne (by rw [← m1, e', m2])

theorem known_start {env : Oracle} {conf : TraceConf} {cap : Nat} {b : List TextPack} {k : TextKind} {h : BitVec 32}
    (hk : Known (Trace.start env conf cap).proxy.offered k h) : Known b k h := by
  rcases hk with hk | ⟨t, ht, -⟩
  · exact .inl hk
  · simp [Trace.start, Proxy.init] at ht

/-- Goroutines that begin. -/
theorem Inv.begin (r0 : Cache (BitVec 64) Nat) (env : Oracle) (conf : TraceConf) (cap : Nat) (gs : List Goroutine) (hg : ∀ g ∈ gs, g.ticks = [] ∧ g.sent = [] ∧ g.counted = [] ∧ g.mine = Cache.new 0 false) :
    Inv r0 cap { shared := Trace.start env conf cap, gs := gs } { shared := Trace.start env conf cap, gs := gs } where
  sh := ⟨fun s e => by simp [Trace.start] at e, fun k h hk => by simp [Trace.start, Proxy.init, Cache.new, Cache.contains] at hk⟩
  env := rfl
  conf := rfl
  len := rfl
  sim i g0 g h0 h1 σ _ := by
    have e : g0 = g := Option.some.inj (h0.symm.trans h1)
    subst e
    obtain ⟨e1, e2, e3, e4⟩ := hg _ (List.mem_of_getElem? h1)
    refine ⟨_, Reach.refl _ _, ?_, fun e => by rw [e4]; exact e⟩
    refine ⟨rfl, by rw [e1]; rfl, rfl, rfl, rfl, by rw [e3]; rfl, by rw [e2]; rfl, fun s e => ?_, fun k h hk => known_start (env := env) (conf := conf) (cap := cap) hk⟩
    simp [alone, Trace.start] at e
  incr i g hi := by
    obtain ⟨e1, -⟩ := hg _ (List.mem_of_getElem? hi)
    rw [e1]
    exact ⟨List.Pairwise.nil, fun t ht => by simp at ht⟩
  apart i j g g' _ hi hj t ht := by
    obtain ⟨e1, -⟩ := hg _ (List.mem_of_getElem? hi)
    rw [e1] at ht
    simp at ht
  sent := by
    have : (gs.map (·.sent)).flatten = [] := by
      rw [List.flatten_eq_nil_iff]
      intro l hl
      obtain ⟨g, hm, e⟩ := List.mem_map.1 hl
      rw [← e, (hg g hm).2.1]
    rw [this]
    exact List.Perm.refl _
  counted := by
    have : (gs.map (·.counted)).flatten = [] := by
      rw [List.flatten_eq_nil_iff]
      intro l hl
      obtain ⟨g, hm, e⟩ := List.mem_map.1 hl
      rw [← e, (hg g hm).2.2.1]
    rw [this]
    exact List.Perm.refl _

/-- Who gets turns again and again finishes. -/
theorem finishes (i : Nat) (sched : Nat → Turn) (hs : ∀ n, ∃ m, n ≤ m ∧ sched m = .go i) (s0 : State) (m : Prog Unit) :
    ∀ (n : Nat) (g : Goroutine), (s0.run ((List.range n).map sched)).gs[i]? = some g → g.todo = m →
      ∃ n' g', n ≤ n' ∧ (s0.run ((List.range n').map sched)).gs[i]? = some g' ∧ (g'.todo = .pure () ∨ g'.todo = .panic) := by
  have step : ∀ n, s0.run ((List.range (n + 1)).map sched) = (s0.run ((List.range n).map sched)).turn (sched n) := by
    intro n
    simp [State.run, List.range_succ, List.foldl_append]
  have other : ∀ (s : State) (t : Turn), t ≠ .go i → (s.turn t).gs[i]? = s.gs[i]? := by
    intro s t ht
    cases t with
    | go j =>
      have hj : j ≠ i := fun e => ht (by rw [e])
      cases hg : s.gs[j]? with
      | none => simp only [State.turn, hg]
      | some g =>
        cases hk : g.todo with
        | op a k =>
          simp only [State.turn, hg, hk]
          exact List.getElem?_set_ne hj
        | pure a => simp only [State.turn, hg, hk]
        | panic => simp only [State.turn, hg, hk]
    | reset o => rfl
    | queue q => rfl
  induction m with
  | pure a => exact fun n g hg hm => ⟨n, g, Nat.le_refl _, hg, .inl hm⟩
  | panic => exact fun n g hg hm => ⟨n, g, Nat.le_refl _, hg, .inr hm⟩
  | op a k ih =>
    intro n g hg hm
    obtain ⟨m, hnm, hgo⟩ := hs n
    clear hs
    obtain ⟨d, rfl⟩ : ∃ d, m = n + d := ⟨m - n, by omega⟩
    clear hnm
    induction d generalizing n g with
    | zero =>
      have hn : (s0.run ((List.range (n + 1)).map sched)).gs[i]? =
          some (g.after a (s0.run ((List.range n).map sched)).shared (a.exec (view (s0.run ((List.range n).map sched)).shared g)).2
            (k (a.exec (view (s0.run ((List.range n).map sched)).shared g)).1)) := by
        rw [step n, show sched n = .go i from hgo]
        simp only [State.turn, hg, hm]
        rw [List.getElem?_set_self (List.getElem?_eq_some_iff.1 hg).1]
      obtain ⟨n', g', h1, h2, h3⟩ := ih _ (n + 1) _ hn rfl
      exact ⟨n', g', by omega, h2, h3⟩
    | succ d ihd =>
      by_cases hn : sched n = .go i
      · have hn' : (s0.run ((List.range (n + 1)).map sched)).gs[i]? =
            some (g.after a (s0.run ((List.range n).map sched)).shared (a.exec (view (s0.run ((List.range n).map sched)).shared g)).2
              (k (a.exec (view (s0.run ((List.range n).map sched)).shared g)).1)) := by
          rw [step n, hn]
          simp only [State.turn, hg, hm]
          rw [List.getElem?_set_self (List.getElem?_eq_some_iff.1 hg).1]
        obtain ⟨n', g', h1, h2, h3⟩ := ih _ (n + 1) _ hn' rfl
        exact ⟨n', g', by omega, h2, h3⟩
      · obtain ⟨n', g', h1, h2, h3⟩ := ihd (n + 1) g (by rw [step n, other _ _ hn]; exact hg) hm (by rw [← hgo]; congr 1; omega)
        exact ⟨n', g', by omega, h2, h3⟩

end Stepwise
end Scouter
