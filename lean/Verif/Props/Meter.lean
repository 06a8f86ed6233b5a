import Verif.Proofs.Meter
import Mathlib.Data.Rat.Cast.Order
import Mathlib.Algebra.Order.Field.Basic
import Mathlib.Tactic.Positivity
import Mathlib.Tactic.Linarith
/-!
# C45, C46, C62: windowed counters
-/
namespace Scouter
open Spec

/-- A call on the service meter. -/
inductive ServiceCall where
  | add (elapsed : Int) (err : Bool)
  | query (period : Int)

/-- A call on a value meter. -/
inductive ValueCall where
  | add (value : Int)
  | query (period : Int)

namespace ServiceMeter

/-- One call, at a clock reading. -/
def step (m : Meter ServiceBucket) : Int × ServiceCall → Meter ServiceBucket
  | (now, .add e err) => add now e err m
  | (now, .query p) => (getAllCounter now p m).2

/-- A history of calls on a meter made at `t0`. -/
def history (t0 : Int) (cs : List (Int × ServiceCall)) : Meter ServiceBucket := cs.foldl step (new t0)

/-- What was recorded: the second, the elapsed time and whether the call failed. -/
def recorded (cs : List (Int × ServiceCall)) : List (Int × Int × Bool) :=
  cs.filterMap fun c => match c.2 with | .add e err => some (c.1, e, err) | .query _ => none

end ServiceMeter

namespace ValueMeter

/-- One call, at a clock reading. -/
def step (m : Meter ValueBucket) : Int × ValueCall → Meter ValueBucket
  | (now, .add v) => add now v m
  | (now, .query p) => (getAllCounter now p m).2

/-- A history of calls on a meter made at `t0`. -/
def history (t0 : Int) (cs : List (Int × ValueCall)) : Meter ValueBucket := cs.foldl step (new t0)

/-- What was recorded: the second and the value. -/
def recorded (cs : List (Int × ValueCall)) : List (Int × Int) :=
  cs.filterMap fun c => match c.2 with | .add v => some (c.1, v) | .query _ => none

end ValueMeter

namespace Meter
variable {A B : Type}

theorem window_succ (now : Int) (p : Nat) (recs : List (Int × A)) (v : A → Int) :
    ((window now (p + 1 : Nat) recs).map v).sum =
      ((window now p recs).map v).sum + ((recs.filter fun r => r.1 = now - p).map fun r => v r.2).sum := by
  unfold window
  induction recs with
  | nil => rfl
  | cons r rs ih =>
    simp only [List.filter_cons]
    by_cases h0 : r.1 = now - p
    · have h1 : now - ((p + 1 : Nat) : Int) < r.1 ∧ r.1 ≤ now := by push_cast; omega
      have h2 : ¬ (now - (p : Int) < r.1 ∧ r.1 ≤ now) := by omega
      rw [if_pos (decide_eq_true h1), if_neg (by rw [decide_eq_true_iff]; exact h2), if_pos (decide_eq_true h0)]
      simp only [List.map_cons, List.sum_cons, ih]
      ring
    · have h1 : (now - ((p + 1 : Nat) : Int) < r.1 ∧ r.1 ≤ now) ↔ (now - (p : Int) < r.1 ∧ r.1 ≤ now) := by push_cast; omega
      simp only [h0, decide_false, Bool.false_eq_true, if_false, h1]
      by_cases h2 : now - (p : Int) < r.1 ∧ r.1 ≤ now
      · simp only [h2, and_self, decide_true, if_true, List.map_cons, List.sum_cons, ih]
        ring
      · simp only [h2, decide_false, Bool.false_eq_true, if_false, ih]

theorem window_sum (now : Int) (p : Nat) (recs : List (Int × A)) (v : A → Int) :
    ((List.range p).map fun i : Nat => ((recs.filter fun r => r.1 = now - i).map fun r => v r.2).sum).sum =
      ((window now p recs).map v).sum := by
  induction p with
  | zero =>
    have : window now (0 : Nat) recs = [] := by
      unfold window
      rw [List.map_eq_nil_iff, List.filter_eq_nil_iff]
      intro r _
      rw [decide_eq_true_iff]
      omega
    rw [this]; rfl
  | succ p ih =>
    rw [List.range_succ, List.map_append, List.sum_append, ih, window_succ]
    simp

/-- An additive figure of a bucket is the sum over the recordings of its second. -/
theorem bucket_sum (empty : B) (act : A → B → B) (g : B → Int) (v : A → Int) (h0 : g empty = 0)
    (hact : ∀ a b, g (act a b) = g b + v a) (evs : List (Int × Option A)) (s : Int) :
    g (bucketOf empty (evs.map fun e => (e.1, e.2.map act)) s) =
      (((evs.filterMap fun e => e.2.map fun a => (e.1, a)).filter fun r => r.1 = s).map fun r => v r.2).sum := by
  induction evs using List.reverseRecOn with
  | nil => exact h0
  | append_singleton es e ih =>
    obtain ⟨t, o⟩ := e
    rw [List.map_append]
    simp only [List.map_cons, List.map_nil]
    rw [bucketOf_append, List.filterMap_append, List.filter_append, List.map_append, List.sum_append, ← ih]
    cases o with
    | none => simp
    | some a =>
      by_cases ht : t = s
      · simp [ht, hact]
      · simp [ht]

/-- The figure of a query: the sum over the window. -/
theorem query_sum (empty : B) (act : A → B → B) (g : B → Int) (v : A → Int) (h0 : g empty = 0)
    (hact : ∀ a b, g (act a b) = g b + v a) (t0 : Int) (evs : List (Int × Option A)) (hf : Forward t0 (evs.map (·.1)))
    (now : Int) (hn : lastOf t0 (evs.map (·.1)) ≤ now) (period : Int) :
    ((((run empty (Meter.new empty t0) (evs.map fun e => (e.1, e.2.map act))).searchOnHandler empty now period).2.1.map g).sum =
      ((window now (min period 300) (evs.filterMap fun e => e.2.map fun a => (e.1, a))).map v).sum) := by
  have hmap : (evs.map fun e => ((e.1, e.2.map act) : Ev B)).map (·.1) = evs.map (·.1) := by simp
  obtain ⟨h1, h2⟩ := (Inv.start empty t0).run (evs := evs.map fun e => (e.1, e.2.map act)) (by rw [hmap]; exact hf)
  rw [hmap] at h2
  obtain ⟨h3, h4⟩ := h1.position (cur := now) (by rw [h2]; exact hn)
  simp only [searchOnHandler]
  have hck : (check period).toNat = (min period 300).toNat := by
    unfold check bucketSize
    split <;> omega
  rw [h3.visit _ (by rw [hck]; omega), hck, h4, List.map_map]
  have : (g ∘ fun i : Nat => bucketOf empty ([] ++ evs.map fun e => (e.1, e.2.map act)) (now - i)) =
      fun i : Nat => (((evs.filterMap fun e => e.2.map fun a => (e.1, a)).filter fun r => r.1 = now - i).map fun r => v r.2).sum := by
    funext i
    exact bucket_sum empty act g v h0 hact evs (now - i)
  rw [this, window_sum]
  by_cases hneg : 0 ≤ min period 300
  · rw [Int.toNat_of_nonneg hneg]
  · have e1 : (min period 300).toNat = 0 := by omega
    rw [e1]
    have none : ∀ p : Int, p ≤ 0 → window now p (evs.filterMap fun e => e.2.map fun a => (e.1, a)) = [] := by
      intro p hp
      unfold window
      rw [List.map_eq_nil_iff, List.filter_eq_nil_iff]
      intro r _
      simp
      omega
    rw [none _ (by omega), none _ (by omega)]

end Meter

namespace ServiceMeter
open Meter

/-- A call as an event of the generic meter. -/
def event : Int × ServiceCall → Int × Option (Int × Bool)
  | (t, .add e err) => (t, some (e, err))
  | (t, .query _) => (t, none)

theorem history_eq (t0 : Int) (cs : List (Int × ServiceCall)) :
    history t0 cs = run {} (Meter.new {} t0) ((cs.map event).map fun e => (e.1, e.2.map fun a => bump a.1 a.2)) := by
  unfold history run new
  rw [List.map_map, List.foldl_map]
  congr 1
  funext m c
  obtain ⟨t, c⟩ := c
  cases c <;> rfl

theorem times_eq (cs : List (Int × ServiceCall)) : (cs.map event).map (·.1) = cs.map (·.1) := by
  rw [List.map_map]
  apply List.map_congr_left
  rintro ⟨t, c⟩ _
  cases c <;> rfl

theorem recorded_eq (cs : List (Int × ServiceCall)) :
    (cs.map event).filterMap (fun e => e.2.map fun a => (e.1, a)) = recorded cs := by
  rw [List.filterMap_map]
  unfold recorded
  congr 1
  funext c
  obtain ⟨t, c⟩ := c
  cases c <;> rfl

end ServiceMeter

theorem countP_sum {A : Type} (l : List A) (p : A → Bool) : ((l.map fun a => if p a then (1 : Int) else 0).sum) = l.countP p := by
  induction l with
  | nil => rfl
  | cons a l ih => simp only [List.map_cons, List.sum_cons, ih, List.countP_cons]; split <;> push_cast <;> ring

/-- **C45**, services: with a clock that does not go back, the counters reported for a period are computed from exactly
the calls recorded in that many last seconds (at most 300): calls per second, whole average of the elapsed times
(negative ones counted as 0), and percentage of failed calls. -/
theorem C45_service_counters (t0 : Int) (cs : List (Int × ServiceCall)) (hf : Forward t0 (cs.map (·.1))) (now : Int)
    (hn : lastOf t0 (cs.map (·.1)) ≤ now) (period : Int) :
    let w := window now (min period 300) (ServiceMeter.recorded cs)
    (ServiceMeter.getAllCounter now period (ServiceMeter.history t0 cs)).1 =
      { tps := (w.length : Rat) / (min period 300 : Int)
        elapsed := if w = [] then 0 else (w.map fun c => clipped c.1).sum / w.length
        errorRate := if w = [] then 0 else (w.countP (·.2) : Rat) / w.length * 100
        count := w.length, errors := w.countP (·.2), period := min period 300 } := by
  intro w
  have key : ∀ (g : ServiceBucket → Int) (v : Int × Bool → Int), g {} = 0 → (∀ a b, g (ServiceMeter.bump a.1 a.2 b) = g b + v a) →
      ((((ServiceMeter.history t0 cs).searchOnHandler {} now period).2.1.map g).sum = (w.map v).sum) := by
    intro g v h0 h1
    rw [ServiceMeter.history_eq]
    rw [Meter.query_sum {} (fun a => ServiceMeter.bump a.1 a.2) g v h0 h1 t0 (cs.map ServiceMeter.event)
      (by rw [ServiceMeter.times_eq]; exact hf) now (by rw [ServiceMeter.times_eq]; exact hn) period, ServiceMeter.recorded_eq]
  have hc : (((ServiceMeter.history t0 cs).searchOnHandler {} now period).2.1.map ServiceBucket.count).sum = (w.length : Int) := by
    rw [key ServiceBucket.count (fun _ => 1) rfl (fun _ _ => rfl)]
    simp
  have he : (((ServiceMeter.history t0 cs).searchOnHandler {} now period).2.1.map ServiceBucket.elapsed).sum =
      (w.map fun c => clipped c.1).sum := by
    refine key ServiceBucket.elapsed (fun c => clipped c.1) rfl (fun a b => ?_)
    simp only [ServiceMeter.bump, clipped]
    split <;> omega
  have hr : (((ServiceMeter.history t0 cs).searchOnHandler {} now period).2.1.map ServiceBucket.error).sum =
      (w.countP (·.2) : Int) := by
    rw [key ServiceBucket.error (fun c => if c.2 then 1 else 0) rfl (fun a b => ?_), countP_sum]
    simp only [ServiceMeter.bump]
    split <;> simp
  have hp : (((ServiceMeter.history t0 cs).searchOnHandler {} now period)).1 = min period 300 := by
    show Meter.check period = _
    unfold Meter.check bucketSize
    split <;> omega
  simp only [ServiceMeter.getAllCounter]
  rw [hc, he, hr, hp]
  have hnil : ((w.length : Int) ≠ 0) ↔ ¬ w = [] := by
    rw [← List.length_eq_zero_iff]; omega
  have hnn : 0 ≤ (w.map fun c => clipped c.1).sum := by
    apply List.sum_nonneg
    intro x hx
    obtain ⟨c, -, rfl⟩ := List.mem_map.mp hx
    exact Int.le_max_left _ _
  by_cases hw : w = []
  · simp [hw]
  · rw [if_pos (hnil.mpr hw), if_pos (hnil.mpr hw), if_neg hw, if_neg hw, Int.tdiv_eq_ediv_of_nonneg hnn]
    simp

namespace ValueMeter
open Meter

/-- A call as an event of the generic meter. -/
def event : Int × ValueCall → Int × Option Int
  | (t, .add v) => (t, some v)
  | (t, .query _) => (t, none)

/-- What adding does to the bucket. -/
def bump (v : Int) (b : ValueBucket) : ValueBucket := { count := b.count + 1, value := b.value + v }

theorem history_eq (t0 : Int) (cs : List (Int × ValueCall)) :
    history t0 cs = run {} (Meter.new {} t0) ((cs.map event).map fun e => (e.1, e.2.map bump)) := by
  unfold history run new
  rw [List.map_map, List.foldl_map]
  congr 1
  funext m c
  obtain ⟨t, c⟩ := c
  cases c <;> rfl

theorem times_eq (cs : List (Int × ValueCall)) : (cs.map event).map (·.1) = cs.map (·.1) := by
  rw [List.map_map]
  apply List.map_congr_left
  rintro ⟨t, c⟩ _
  cases c <;> rfl

theorem recorded_eq (cs : List (Int × ValueCall)) :
    (cs.map event).filterMap (fun e => e.2.map fun a => (e.1, a)) = recorded cs := by
  rw [List.filterMap_map]
  unfold recorded
  congr 1
  funext c
  obtain ⟨t, c⟩ := c
  cases c <;> rfl

end ValueMeter

/-- **C45**, values: with a clock that does not go back, the sum and the average reported are those of exactly the
values recorded in the last seconds (at most 300). -/
theorem C45_value_counters (t0 : Int) (cs : List (Int × ValueCall)) (hf : Forward t0 (cs.map (·.1))) (now : Int)
    (hn : lastOf t0 (cs.map (·.1)) ≤ now) (period : Int) :
    let w := window now (min period 300) (ValueMeter.recorded cs)
    (ValueMeter.getAllCounter now period (ValueMeter.history t0 cs)).1 =
      { sum := w.sum, avg := if w = [] then 0 else (w.sum : Rat) / w.length, count := w.length } := by
  intro w
  have key : ∀ (g : ValueBucket → Int) (v : Int → Int), g {} = 0 → (∀ a b, g (ValueMeter.bump a b) = g b + v a) →
      ((((ValueMeter.history t0 cs).searchOnHandler {} now period).2.1.map g).sum = (w.map v).sum) := by
    intro g v h0 h1
    rw [ValueMeter.history_eq]
    rw [Meter.query_sum {} ValueMeter.bump g v h0 h1 t0 (cs.map ValueMeter.event)
      (by rw [ValueMeter.times_eq]; exact hf) now (by rw [ValueMeter.times_eq]; exact hn) period, ValueMeter.recorded_eq]
  have hc : (((ValueMeter.history t0 cs).searchOnHandler {} now period).2.1.map ValueBucket.count).sum = (w.length : Int) := by
    rw [key ValueBucket.count (fun _ => 1) rfl (fun _ _ => rfl)]
    simp
  have hv : (((ValueMeter.history t0 cs).searchOnHandler {} now period).2.1.map ValueBucket.value).sum = w.sum := by
    rw [key ValueBucket.value id rfl (fun _ _ => rfl)]
    simp
  simp only [ValueMeter.getAllCounter]
  rw [hc, hv]
  have hnil : ((w.length : Int) = 0) ↔ w = [] := by
    rw [← List.length_eq_zero_iff]; omega
  by_cases hw : w = []
  · simp [hw]
  · rw [if_neg (fun h => hw (hnil.mp h)), if_neg hw]
    simp

/-! ## C46: consistency, for any clock -/

namespace Meter
variable {B : Type}

theorem clearLoop_all {P : B → Prop} {empty : B} (he : P empty) (n : Nat) : ∀ m : Meter B, (∀ b ∈ m.table, P b) →
    ∀ b ∈ (clearLoop empty n m).table, P b := by
  induction n with
  | zero => intro m h; exact h
  | succ n ih =>
    intro m h
    refine ih _ ?_
    intro b hb
    rcases List.mem_or_eq_of_mem_set hb with hb | hb
    · exact h b hb
    · rw [hb]; exact he

theorem position_all {P : B → Prop} {empty : B} (he : P empty) (cur : Int) {m : Meter B} (h : ∀ b ∈ m.table, P b) :
    ∀ b ∈ (m.position empty cur).table, P b := by
  unfold position
  split
  · exact clearLoop_all he _ m h
  · exact h

theorem update_all {P : B → Prop} {empty : B} (he : P empty) (cur : Int) {f : B → B} (hf : ∀ b, P b → P (f b)) {m : Meter B}
    (h : ∀ b ∈ m.table, P b) : ∀ b ∈ (m.update empty cur f).table, P b := by
  intro b hb
  have hb : b ∈ (m.position empty cur).table.modify (m.position empty cur).pos f := hb
  obtain ⟨i, hi⟩ := List.mem_iff_getElem?.mp hb
  rw [List.getElem?_modify] at hi
  cases hg : (m.position empty cur).table[i]? with
  | none => rw [hg] at hi; simp at hi
  | some a =>
    have ha := position_all he cur h a (List.mem_of_getElem? hg)
    rw [hg] at hi
    simp only [Option.map_eq_map, Option.map_some, Option.some.injEq] at hi
    rw [← hi]
    split
    · exact hf a ha
    · exact ha

theorem mem_visit {m : Meter B} {n pos : Nat} {b : B} (h : b ∈ m.visit n pos) : b ∈ m.table := by
  induction n generalizing pos with
  | zero => simp [visit] at h
  | succ n ih =>
    rcases List.mem_append.mp h with h | h
    · rw [Option.mem_toList] at h; exact List.mem_of_getElem? h
    · exact ih h

end Meter

namespace ServiceMeter

/-- A bucket that makes sense when every elapsed time recorded was at most `M`. -/
structure Sane (M : Int) (b : ServiceBucket) : Prop where
  errorLo : 0 ≤ b.error
  errorHi : b.error ≤ b.count
  elapsedLo : 0 ≤ b.elapsed
  elapsedHi : b.elapsed ≤ b.count * M

theorem Sane.bump {M e : Int} (hM : 0 ≤ M) (he : e ≤ M) (err : Bool) {b : ServiceBucket} (h : Sane M b) : Sane M (bump e err b) := by
  obtain ⟨h1, h2, h3, h4⟩ := h
  have h5 : (b.count + 1) * M = b.count * M + M := by ring
  have h6 : 0 ≤ (if e < 0 then 0 else e) ∧ (if e < 0 then 0 else e) ≤ M := by split <;> omega
  constructor
  · show 0 ≤ (if err then b.error + 1 else b.error)
    split <;> omega
  · show (if err then b.error + 1 else b.error) ≤ b.count + 1
    split <;> omega
  · show 0 ≤ b.elapsed + (if e < 0 then 0 else e)
    omega
  · show b.elapsed + (if e < 0 then 0 else e) ≤ (b.count + 1) * M
    rw [h5]; omega

theorem Sane.zero (M : Int) : Sane M {} := ⟨Int.le_refl _, Int.le_refl _, Int.le_refl _, by simp⟩

theorem sane_sums {M : Int} (bs : List ServiceBucket) (h : ∀ b ∈ bs, Sane M b) :
    0 ≤ (bs.map (·.error)).sum ∧ (bs.map (·.error)).sum ≤ (bs.map (·.count)).sum ∧
      0 ≤ (bs.map (·.elapsed)).sum ∧ (bs.map (·.elapsed)).sum ≤ (bs.map (·.count)).sum * M := by
  induction bs with
  | nil => simp
  | cons b bs ih =>
    obtain ⟨h1, h2, h3, h4⟩ := h b (by simp)
    obtain ⟨i1, i2, i3, i4⟩ := ih fun b hb => h b (by simp [hb])
    simp only [List.map_cons, List.sum_cons]
    refine ⟨by omega, by omega, by omega, ?_⟩
    rw [Int.add_mul]; omega

theorem sane_history (t0 : Int) (M : Int) (hM : 0 ≤ M) (cs : List (Int × ServiceCall))
    (h : ∀ r ∈ recorded cs, r.2.1 ≤ M) : ∀ b ∈ (history t0 cs).table, Sane M b := by
  have key : ∀ (cs : List (Int × ServiceCall)) (m : Meter ServiceBucket), (∀ r ∈ recorded cs, r.2.1 ≤ M) →
      (∀ b ∈ m.table, Sane M b) → ∀ b ∈ (cs.foldl step m).table, Sane M b := by
    intro cs
    induction cs with
    | nil => intro m _ h; exact h
    | cons c cs ih =>
      intro m hr hm
      obtain ⟨t, c⟩ := c
      cases c with
      | add e err =>
        exact ih _ (fun r hr' => hr r (List.mem_cons_of_mem _ hr'))
          (Meter.update_all (Sane.zero M) t (fun b hb => hb.bump hM (hr (t, e, err) (List.mem_cons_self ..)) err) hm)
      | query p => exact ih _ hr (Meter.position_all (Sane.zero M) t hm)
  refine key cs _ h ?_
  intro b hb
  rw [List.eq_of_mem_replicate hb]
  exact Sane.zero M

end ServiceMeter

/-- **C46**, services: whatever the clock does, the error rate reported is a percentage, the average lies between 0 and
the largest elapsed time recorded, the rate of calls is not negative; without any calls everything is 0. -/
theorem C46_service_figures_are_consistent (t0 : Int) (cs : List (Int × ServiceCall)) (now period M : Int) (hp : 1 ≤ period)
    (hM : 0 ≤ M) (h : ∀ r ∈ ServiceMeter.recorded cs, r.2.1 ≤ M) :
    let c := (ServiceMeter.getAllCounter now period (ServiceMeter.history t0 cs)).1
    0 ≤ c.errorRate ∧ c.errorRate ≤ 100 ∧ 0 ≤ c.elapsed ∧ c.elapsed ≤ M ∧ 0 ≤ c.tps ∧
      (c.tps = 0 → c.errorRate = 0 ∧ c.elapsed = 0) ∧
      (ServiceMeter.recorded cs = [] → c.tps = 0 ∧ c.errorRate = 0 ∧ c.elapsed = 0) := by
  intro c
  have hs := ServiceMeter.sane_history t0 M hM cs h
  have hq : ∀ b ∈ ((ServiceMeter.history t0 cs).searchOnHandler {} now period).2.1, ServiceMeter.Sane M b :=
    fun b hb => Meter.position_all (ServiceMeter.Sane.zero M) now hs b (Meter.mem_visit hb)
  obtain ⟨h1, h2, h3, h4⟩ := ServiceMeter.sane_sums _ hq
  have hper : 0 < ((ServiceMeter.history t0 cs).searchOnHandler {} now period).1 := by
    show 0 < Meter.check period
    unfold Meter.check bucketSize
    split <;> omega
  have hzero : ServiceMeter.recorded cs = [] →
      (((ServiceMeter.history t0 cs).searchOnHandler {} now period).2.1.map ServiceBucket.count).sum = 0 := by
    intro hnil
    have hz : ∀ (cs : List (Int × ServiceCall)) (m : Meter ServiceBucket), ServiceMeter.recorded cs = [] →
        (∀ b ∈ m.table, b.count = 0) → ∀ b ∈ (cs.foldl ServiceMeter.step m).table, b.count = 0 := by
      intro cs
      induction cs with
      | nil => intro m _ h; exact h
      | cons c cs ih =>
        intro m hr hm
        obtain ⟨t, c⟩ := c
        cases c with
        | add e err => simp [ServiceMeter.recorded] at hr
        | query p => exact ih _ hr (Meter.position_all (P := fun b : ServiceBucket => b.count = 0) rfl t hm)
    have hall : ∀ b ∈ ((ServiceMeter.history t0 cs).searchOnHandler {} now period).2.1, b.count = 0 :=
      fun b hb => Meter.position_all (P := fun b : ServiceBucket => b.count = 0) rfl now
        (hz cs _ hnil (fun b hb => by rw [show b = ({} : ServiceBucket) from List.eq_of_mem_replicate hb])) b (Meter.mem_visit hb)
    clear h1 h2 h3 h4 hq
    generalize ((ServiceMeter.history t0 cs).searchOnHandler {} now period).2.1 = bs at hall
    induction bs with
    | nil => rfl
    | cons b bs ih =>
      rw [List.map_cons, List.sum_cons, hall b (by simp), ih fun b hb => hall b (by simp [hb])]; rfl
  have hc : c = (ServiceMeter.getAllCounter now period (ServiceMeter.history t0 cs)).1 := rfl
  simp only [ServiceMeter.getAllCounter] at hc
  generalize ((ServiceMeter.history t0 cs).searchOnHandler {} now period).1 = per at *
  generalize (((ServiceMeter.history t0 cs).searchOnHandler {} now period).2.1.map ServiceBucket.count).sum = C at *
  generalize (((ServiceMeter.history t0 cs).searchOnHandler {} now period).2.1.map ServiceBucket.elapsed).sum = E at *
  generalize (((ServiceMeter.history t0 cs).searchOnHandler {} now period).2.1.map ServiceBucket.error).sum = R at *
  clear_value c
  subst hc
  have hperQ : (0 : Rat) < (per : Rat) := by exact_mod_cast hper
  by_cases hC : C = 0
  · simp [hC, hM]
  · have hCpos : 0 < C := by omega
    have hCQ : (0 : Rat) < (C : Rat) := by exact_mod_cast hCpos
    have hRQ : (0 : Rat) ≤ (R : Rat) := by exact_mod_cast h1
    have hRC : (R : Rat) ≤ (C : Rat) := by exact_mod_cast h2
    simp only [ne_eq, hC, not_false_eq_true, if_true]
    refine ⟨by positivity, ?_, Int.tdiv_nonneg h3 (by omega), ?_, by positivity, ?_, ?_⟩
    · have : (R : Rat) / C ≤ 1 := by rw [div_le_one hCQ]; exact hRC
      linarith
    · rw [Int.tdiv_eq_ediv_of_nonneg h3]
      exact Int.ediv_le_of_le_mul hCpos (by rw [Int.mul_comm]; exact h4)
    · intro h0
      exfalso
      have : (0 : Rat) < (C : Rat) / per := by positivity
      rw [h0] at this
      exact lt_irrefl _ this
    · intro hn
      exact absurd (hzero hn) hC

/-! ## C62: a clock set back -/

/-- **C62**: after the clock was set back by `d` seconds, a call recorded before that is reported in the 300 second
window though its second lies ahead (unless `d` is 1 modulo 301), and it has disappeared once the clock has come back to
the second in which it was recorded. -/
theorem C62_clock_set_back (t d e : Int) (err : Bool) (hd : 1 ≤ d) (hm : d % 301 ≠ 1) :
    let m := ServiceMeter.add t e err (ServiceMeter.new t)
    let back := ServiceMeter.getAllCounter (t - d) 300 m
    back.1.tps = 1 / 300 ∧ (ServiceMeter.getAllCounter t 300 back.2).1.tps = 0 := by
  intro m back
  -- the second in which the call seems to have been made
  let s := t - d - (-d) % 301
  have hs : s % 301 = t % 301 := by simp only [s]; omega
  have hs1 : t - d - 299 ≤ s := by simp only [s]; omega
  have hs2 : s ≤ t - d := by simp only [s]; omega
  have hpos : (m.position ({} : ServiceBucket) (t - d)) = { m with time := t - d, pos := ((t - d) % 301).toNat } := by
    have hmt : m.time = t := by
      show ((Meter.new ({} : ServiceBucket) t).position ({} : ServiceBucket) t).time = t
      unfold Meter.position; rw [if_neg (by simp [Meter.new])]; rfl
    unfold Meter.position
    rw [hmt, if_pos (by omega)]
    have : (t - d - t).toNat = 0 := by omega
    rw [this]; rfl
  have hinv : Meter.Inv ({} : ServiceBucket) (m.position ({} : ServiceBucket) (t - d)) [(s, some (ServiceMeter.bump e err))] := by
    rw [hpos]
    have hi := ((Meter.Inv.start ({} : ServiceBucket) t).apply (e := (t, some (ServiceMeter.bump e err))) (Int.le_refl _)).1
    have hmeq : (Meter.new ({} : ServiceBucket) t).apply ({} : ServiceBucket) (t, some (ServiceMeter.bump e err)) = m := rfl
    rw [hmeq] at hi
    have hmt : m.time = t := by
      show ((Meter.new ({} : ServiceBucket) t).position ({} : ServiceBucket) t).time = t
      unfold Meter.position; rw [if_neg (by simp [Meter.new])]; rfl
    refine ⟨rfl, hi.len, by simp only [List.mem_singleton]; rintro _ rfl; exact hs2, ?_⟩
    intro x hx1 hx2
    have hx1 : t - d - 300 ≤ x := hx1
    have hx2 : x ≤ t - d := hx2
    let y := t - (t - x) % 301
    have hy : (y % 301) = x % 301 := by simp only [y]; omega
    have := hi.at_ y (by rw [hmt]; simp only [y]; omega) (by rw [hmt]; simp only [y]; omega)
    rw [hy] at this
    show m.table[(x % 301).toNat]? = _
    rw [this]
    congr 1
    have hiff : t = y ↔ s = x := by simp only [y, s]; omega
    have e1 := Meter.bucketOf_append ({} : ServiceBucket) [] (t, some (ServiceMeter.bump e err)) y
    have e2 := Meter.bucketOf_append ({} : ServiceBucket) [] (s, some (ServiceMeter.bump e err)) x
    rw [e1]
    refine Eq.trans ?_ e2.symm
    simp only [Meter.bucketOf_nil]
    by_cases hh : t = y
    · rw [if_pos hh, if_pos (hiff.mp hh)]
    · rw [if_neg hh, if_neg fun h => hh (hiff.mpr h)]
  have hb2 : back.2 = m.position ({} : ServiceBucket) (t - d) := rfl
  have htime : (m.position ({} : ServiceBucket) (t - d)).time = t - d := by rw [hpos]
  have count1 : ∀ (m' : Meter ServiceBucket) (now : Int), Meter.Inv ({} : ServiceBucket) m' [(s, some (ServiceMeter.bump e err))] → m'.time = now →
      ((m'.visit 300 m'.pos).map ServiceBucket.count).sum = if now - 300 < s ∧ s ≤ now then 1 else 0 := by
    intro m' now hi ht
    rw [hi.visit 300 (by omega), ht, List.map_map]
    have hfun : (ServiceBucket.count ∘ fun i : Nat => Meter.bucketOf ({} : ServiceBucket) [(s, some (ServiceMeter.bump e err))] (now - i)) =
        fun i : Nat => ((([(s, (e, err))] : List (Int × Int × Bool)).filter fun r => r.1 = now - i).map fun _ => (1 : Int)).sum := by
      funext i
      exact Meter.bucket_sum ({} : ServiceBucket) (fun a : Int × Bool => ServiceMeter.bump a.1 a.2) ServiceBucket.count (fun _ => 1) rfl
        (fun _ _ => rfl) [(s, some (e, err))] (now - i)
    rw [hfun, Meter.window_sum now 300 [(s, (e, err))] (fun _ => 1)]
    unfold Spec.window
    by_cases hin : now - 300 < s ∧ s ≤ now
    · simp [hin]
    · rw [if_neg hin]
      have : ¬ (now - ((300 : Nat) : Int) < s ∧ s ≤ now) := hin
      simp only [List.filter_cons, this, decide_false, Bool.false_eq_true, if_false]
      rfl
  constructor
  · show (((((m.position ({} : ServiceBucket) (t - d)).visit 300 (m.position ({} : ServiceBucket) (t - d)).pos).map ServiceBucket.count).sum : Int) : Rat) / ((300 : Int) : Rat) = 1 / 300
    rw [count1 _ _ hinv htime, if_pos (by omega)]
    norm_num
  · rw [hb2]
    obtain ⟨hi2, ht2⟩ := hinv.position (cur := t) (by rw [htime]; omega)
    show ((((((m.position ({} : ServiceBucket) (t - d)).position ({} : ServiceBucket) t).visit 300 ((m.position ({} : ServiceBucket) (t - d)).position ({} : ServiceBucket) t).pos).map ServiceBucket.count).sum : Int) : Rat) / ((300 : Int) : Rat) = 0
    rw [count1 _ _ hi2 ht2, if_neg (by simp only [s]; omega)]
    norm_num

/-! A case: calls in three seconds, one of them long ago. -/
namespace MeterDemo

def calls : List (Int × ServiceCall) :=
  [(1000, .add 10 false), (1290, .add 20 true), (1290, .query 30), (1299, .add (-5) false), (1300, .add 31 true)]

example : Forward 990 (calls.map (·.1)) ∧ lastOf 990 (calls.map (·.1)) ≤ 1301 := by simp [calls, Forward, lastOf]
example : window 1301 300 (ServiceMeter.recorded calls) = [(20, true), (-5, false), (31, true)] := by decide +kernel
example : (ServiceMeter.getAllCounter 1301 300 (ServiceMeter.history 990 calls)).1.elapsed = 17 := by decide +kernel
example : (ServiceMeter.getAllCounter 1301 5 (ServiceMeter.history 990 calls)).1.elapsed = 15 := by decide +kernel
example : ∀ r ∈ ServiceMeter.recorded calls, r.2.1 ≤ 31 := by decide +kernel

end MeterDemo
end Scouter
