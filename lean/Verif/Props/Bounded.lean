import Verif.Proofs.Bounded
import Verif.Spec.Bounded
import Verif.Props.Services
/-! # C109: what the agent holds in memory is bounded -/
namespace Scouter
namespace Bounded
open TM Trace Spec

theorem sum_le {α : Type} (f : α → Nat) (K : Nat) : ∀ l : List α, (∀ x ∈ l, f x ≤ K) → (l.map f).sum ≤ l.length * K := by
  intro l
  induction l with
  | nil => intro _; simp
  | cons x l ih =>
    intro h
    have h1 := h x (List.mem_cons_self ..)
    have h2 := ih fun y hy => h y (List.mem_cons_of_mem _ hy)
    rw [List.map_cons, List.sum_cons, List.length_cons, Nat.add_mul]
    omega

/-- The bounds that follow from `Fit`. -/
theorem Fit.bounds {K : Nat} {w : World} (h : Fit K w) :
    w.registry.size ≤ 10000 ∧ (∀ k, (w.proxy.sent k).size ≤ if k = .object then 100 else 10000) ∧ textsRemembered w ≤ 100100 ∧
    (∀ t ∈ w.tctxs, t.col.kept.length ≤ K) ∧ stepsOfRunning w ≤ 10000 * K := by
  have each : ∀ t ∈ w.tctxs, t.col.kept.length ≤ K := fun t ht => Nat.le_trans (h.each t ht).1 (h.each t ht).2
  have texts : ∀ k, (w.proxy.sent k).size ≤ memory k := fun k => (h.tables.texts k).size
  refine ⟨h.tables.registry.size, fun k => ?_, ?_, each, ?_⟩
  · have := texts k
    cases k <;> simpa [memory] using this
  · have e := fun k => texts k
    have h1 := e .error; have h2 := e .apicall; have h3 := e .method; have h4 := e .service; have h5 := e .object
    have h6 := e .referer; have h7 := e .userAgent; have h8 := e .login; have h9 := e .desc; have h10 := e .hashMessage
    have h11 := e .stackElement
    simp only [memory] at h1 h2 h3 h4 h5 h6 h7 h8 h9 h10 h11
    simp only [textsRemembered, List.map_cons, List.map_nil, List.sum_cons, List.sum_nil]
    omega
  · have one : ∀ e ∈ w.registry.lst, ((e.value.map (stepsHeld w)).getD 0) ≤ K := by
      intro e _
      cases hv : e.value with
      | none => simp
      | some p =>
        simp only [Option.map_some, Option.getD_some, stepsHeld]
        cases ht : w.tctxs[p]? with
        | none => simp
        | some t => simpa using each t (List.mem_of_getElem? ht)
    have hs : w.registry.lst.length ≤ 10000 := h.tables.registry.size
    exact Nat.le_trans (sum_le _ K _ one) (Nat.mul_le_mul_right K hs)

theorem fit_start (env : Oracle) (conf : TraceConf) (cap K : Nat) (hk : conf.keep ≤ K) : Fit K (start env conf cap) where
  tables :=
    { registry := Small.new 10000 false
      texts := fun k => by
        have := Small.new (K := BitVec 32) (V := Unit) (memory k) false
        rw [(memory_eq k).1] at this
        exact this }
  keep := hk
  each := fun t ht => by cases ht

/-- **C109**: whatever the application calls, for however long, and even if it never ends a service: the table of running services
has at most 10000 entries, the tables of announced texts 10000 each (100 for object names) and 100100 together, the buffer of
every trace holds at most as many steps as the configuration ever allowed, and the agent holds at most 10000 times as many
steps for the services in its table. -/
theorem C109_tables_and_buffers (env : Oracle) (conf : TraceConf) (cap : Nat) (cs : List Call) (K : Nat)
    (hk : Always (fun c => c.keep ≤ K) conf cs) :
    let w := history (start env conf cap) cs
    w.registry.size ≤ 10000 ∧ (∀ k, (w.proxy.sent k).size ≤ if k = .object then 100 else 10000) ∧ textsRemembered w ≤ 100100 ∧
    (∀ t ∈ w.tctxs, t.col.kept.length ≤ K) ∧ stepsOfRunning w ≤ 10000 * K :=
  (fit_history cs _ (fit_start env conf cap K hk.1) fun f hf => hk.2 f hf).bounds

/-! ## Goroutines at once -/

open Stepwise in
theorem tables_prim {α : Type} (a : Prim α) (w : World) (h : SmallTables w) : SmallTables (a.exec w).2 := by
  cases a with
  | sendText k n => exact ⟨h.registry, small_sendText h.texts k n⟩
  | enlist id p => exact ⟨h.registry.add (by decide) _ _, h.texts⟩
  | strike id => exact ⟨h.registry.remove _, h.texts⟩
  | sampler => simp only [Prim.exec]; split <;> exact ⟨h.registry, h.texts⟩
  | _ => exact ⟨h.registry, h.texts⟩

open Stepwise in
theorem tables_turn (s : State) (t : Turn) (h : SmallTables s.shared) : SmallTables (s.turn t).shared := by
  cases t with
  | go i =>
    unfold State.turn
    simp only
    split
    · exact h
    · split
      · exact tables_prim _ _ ⟨h.registry, h.texts⟩
      · exact h
  | reset o => exact ⟨h.registry, fun k => (h.texts k).clear o⟩
  | queue q => exact ⟨h.registry, h.texts⟩

open Stepwise in
/-- **C109**, goroutines at once: the tables stay within the same bounds at every moment of every schedule, of any number of
goroutines making any calls. -/
theorem C109_tables_under_any_schedule (env : Oracle) (conf : TraceConf) (cap : Nat) (css : List (List Call)) (ts : List Turn) :
    let w := ((State.start env conf cap css).run ts).shared
    w.registry.size ≤ 10000 ∧ (∀ k, (w.proxy.sent k).size ≤ if k = .object then 100 else 10000) := by
  have h0 : SmallTables (State.start env conf cap css).shared := (fit_start env conf cap conf.keep.toNat (Int.self_le_toNat _)).tables
  have key : ∀ (ts : List Turn) (s : State), SmallTables s.shared → SmallTables (s.run ts).shared := by
    intro ts
    induction ts with
    | nil => intro s h; exact h
    | cons t ts ih => intro s h; exact ih _ (tables_turn s t h)
  have h := key ts _ h0
  refine ⟨h.registry.size, fun k => ?_⟩
  have := (h.texts k).size
  cases k <;> simpa [memory] using this

/-! ## The meters -/

theorem clearLoop_table {B : Type} (e : B) : ∀ (n : Nat) (m : Meter B), (Meter.clearLoop e n m).table.length = m.table.length := by
  intro n
  induction n with
  | zero => intro m; rfl
  | succ n ih => intro m; rw [Meter.clearLoop, ih]; simp [Meter.clearNext]

theorem position_table {B : Type} (e : B) (now : Int) (m : Meter B) : (m.position e now).table.length = m.table.length := by
  unfold Meter.position
  split
  · exact clearLoop_table _ _ _
  · rfl

theorem update_table {B : Type} (e : B) (now : Int) (f : B → B) (m : Meter B) : (m.update e now f).table.length = m.table.length := by
  unfold Meter.update
  simp [position_table]

theorem meterAll_table (now : Int) (a b : World) (m : Meter ServiceBucket) : (Counter.meterAll now a b m).table.length = m.table.length := by
  unfold Counter.meterAll
  generalize b.metered.drop a.metered.length = l
  induction l generalizing m with
  | nil => rfl
  | cons x l ih => rw [List.foldl_cons, ih]; exact update_table _ _ _ _

open Counter in
/-- **C109**, the meters: however many services end and rounds are made, the two meters keep their 301 buckets each. -/
theorem C109_meters (f : Floats) (k : Monitor) (es : List Counter.Event)
    (h : k.service.table.length = 301 ∧ k.active.table.length = 301) :
    (k.life f es).service.table.length = 301 ∧ (k.life f es).active.table.length = 301 := by
  induction es generalizing k with
  | nil => exact h
  | cons e es ih =>
    refine ih (k.step f e) ?_
    obtain ⟨h1, h2⟩ := h
    cases e with
    | call now c => exact ⟨(meterAll_table _ _ _ _).trans h1, h2⟩
    | realTime o s ord t =>
      have sv : (ServiceMeter.getAllCounter t.read 30 k.service).2.table.length = 301 := (position_table _ _ _).trans h1
      have key : ∀ p : Option PerfCounterPack × Monitor, p = getAllCounterOnPack f o s ord t k →
          p.2.service.table.length = 301 ∧ p.2.active.table.length = 301 := by
        intro p hp
        unfold getAllCounterOnPack at hp
        simp only at hp
        generalize getActiveCount ord k.world = r at hp
        obtain ⟨r, w⟩ := r
        cases r with
        | ok a =>
          rw [hp]
          exact ⟨(meterAll_table _ _ _ _).trans sv, (position_table _ _ _).trans ((update_table _ _ _ _).trans h2)⟩
        | panic =>
          rw [hp]
          exact ⟨(meterAll_table _ _ _ _).trans sv, h2⟩
      show (Monitor.step f k (.realTime o s ord t)).service.table.length = 301 ∧ (Monitor.step f k (.realTime o s ord t)).active.table.length = 301
      unfold Monitor.step
      simp only
      generalize getAllCounterOnPack f o s ord t k = p at key
      obtain ⟨p1, k'⟩ := p
      have := key (p1, k') rfl
      cases p1 with
      | none => exact this
      | some p => exact this
    | fiveMin o r a => exact ⟨(position_table _ _ _).trans h1, (position_table _ _ _).trans h2⟩

/-- The meters at start have 301 buckets. -/
example (now : Int) : (ServiceMeter.new now).table.length = 301 ∧ (ValueMeter.new now).table.length = 301 :=
  ⟨List.length_replicate, List.length_replicate⟩

namespace Demo

/-- The hypothesis of the first theorem is met by a history with running and ended services, with the limit of its
configuration. -/
theorem always : Always (fun c => c.keep ≤ (2 : Nat)) Scouter.Demo.conf Scouter.Demo.calls :=
  ⟨by decide, fun c hc => by simp [Scouter.Demo.calls] at hc⟩

example : stepsOfRunning (history (start Scouter.Demo.env Scouter.Demo.conf 8) Scouter.Demo.calls) ≤ 20000 :=
  (C109_tables_and_buffers Scouter.Demo.env Scouter.Demo.conf 8 Scouter.Demo.calls 2 always).2.2.2.2

end Demo
end Bounded
end Scouter
