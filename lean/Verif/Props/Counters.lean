import Verif.Spec.Counters
import Verif.Props.ActiveCount
import Verif.Props.Meter
import Mathlib.Tactic.FieldSimp
import Mathlib.Tactic.Ring
/-! # C78 - C80: counter packs -/
namespace Scouter
open Trace TM Counter Spec

namespace Counter

theorem active_run {w : World} (g : Good w) (o : MapOrder (BitVec 64 × Nat)) :
    ∃ w', getActiveCount o w = (.ok (byColour w (w.env.clock w.tick) ((w.registry.getValues o).take 2000)), w') ∧
      perform w (.activeCount o) = w' := by
  have hmem : ∀ p ∈ w.registry.getValues o, p < w.tctxs.length := by
    intro p hp
    simp only [Cache.getValues, List.mem_filterMap] at hp
    obtain ⟨x, -, hx⟩ := hp
    cases hd : w.registry.deref x.2 with
    | none => rw [hd] at hx; simp at hx
    | some e =>
      rw [hd] at hx
      exact g.regs e (List.mem_of_find?_eq_some hd) p hx
  have g1 : Good { w with tick := w.tick + 1 } := ⟨g.keep, g.bulk, g.each, g.calm, g.regs⟩
  obtain ⟨w', h1, -⟩ := Active.loop_run (w.env.clock w.tick) (w.registry.getValues o) { w with tick := w.tick + 1 } 0 (0, 0, 0) g1 hmem
    (by omega)
  have hrun : getActiveCount o w = (.ok (byColour w (w.env.clock w.tick) ((w.registry.getValues o).take 2000)), w') := by
    unfold getActiveCount
    rw [TM.get_bind, TM.reading_bind]
    show activeLoop (w.env.clock w.tick) _ 0 (0, 0, 0) _ = _
    rw [h1]
    simp only [Active.plus, Nat.zero_add]
    rfl
  refine ⟨w', hrun, ?_⟩
  show ((getActiveCount o >>= fun _ => pure ()) w).2 = w'
  rw [TM.bind_ok hrun]; rfl

/-- The world after sending a counter pack. -/
theorem sent_world (p : PerfCounterPack) (k : Monitor) : (sent p k).world = (sendDirect (.perfCounter p) k.world).2 := rfl

theorem Good.sent {w : World} (g : Good w) (p : PerfCounterPack) : Good (sendDirect (.perfCounter p) w).2 := by
  refine ⟨g.keep, g.bulk, g.each, ?_, g.regs⟩
  intro a ha
  apply g.calm a
  simpa [sendDirect, TM.modify, alertsOf] using ha

/-- The pack of a real-time round and the state before it is sent. -/
theorem realTime_run (f : Floats) (name : Bytes) (s : Sample) (o : MapOrder (BitVec 64 × Nat)) (t : Seconds) (k : Monitor)
    (g : Good k.world) :
    let c := getGoCounter f k.prev s
    let sc := ServiceMeter.getAllCounter t.read 30 k.service
    let seen := (k.world.registry.getValues o).take 2000
    let a := byColour k.world (k.world.env.clock k.world.tick) seen
    let vm := ValueMeter.getAllCounter t.average 30 (ValueMeter.add t.count seen.length k.active)
    getAllCounterOnPack f name s o t k =
      (some { time := 0, objName := name, timetype := 1
              data := [(ascii "Goroutine", .dec c.goroutineNum), (ascii "GoCgoCall", .dec c.cgoCallNum),
                (ascii "GoGcCount", .float (f.narrow c.gcPerSec)),
                (ascii "GoGcPause", .float (f.narrow c.gcPausePerSec)),
                (ascii "GoHeapUsed", .dec c.heapAlloc),
                (ascii "GoTPS", .float (f.tps sc.1.count sc.1.period)),
                (ascii "GoElapsedTime", .dec (BitVec.ofInt 64 sc.1.elapsed)),
                (ascii "GoErrorRate", .float (f.failed sc.1)),
                (ascii "GoActiveService", .float (f.narrow (f.mean vm.1))),
                (ascii "ActiveSpeed", .list [.dec (BitVec.ofNat 64 a.1), .dec (BitVec.ofNat 64 a.2.1), .dec (BitVec.ofNat 64 a.2.2)])] },
       { world := perform k.world (.activeCount o), prev := c
         service := meterAll t.stuck k.world (perform k.world (.activeCount o)) sc.2, active := vm.2 }) := by
  intro c sc seen a vm
  obtain ⟨w', h1, h2⟩ := active_run g o
  have hsum : (((byColour k.world (k.world.env.clock k.world.tick) seen).1 + (byColour k.world (k.world.env.clock k.world.tick) seen).2.1
      + (byColour k.world (k.world.env.clock k.world.tick) seen).2.2 : Nat) : Int) = seen.length := by rw [byColour_sum]
  unfold getAllCounterOnPack
  simp only [h1]
  rw [hsum]
  simp only [h2]
  congr 1

theorem fiveMin_run (f : Floats) (name : Bytes) (read average : Int) (k : Monitor) :
    let sc := ServiceMeter.getAllCounter read 300 k.service
    let vm := ValueMeter.getAllCounter average 300 k.active
    getAll5MinCounterOnPack f name read average k =
      ({ time := 0, objName := name, timetype := 3
         data := [(ascii "GoTPS", .float (f.tps sc.1.count sc.1.period)), (ascii "GoElapsedTime", .dec (BitVec.ofInt 64 sc.1.elapsed)),
           (ascii "GoErrorRate", .float (f.failed sc.1)), (ascii "GoActiveService", .float (f.narrow (f.mean vm.1)))] },
       { k with service := sc.2, active := vm.2 }) := by
  intro sc vm
  rfl

/-! ## The state after an event -/

/-- What an event does to the tracing state, up to a pack sent: the calls made. -/
def callsOf : Counter.Event → List Call
  | .call _ c => [c]
  | .realTime _ _ o _ => [.activeCount o]
  | .fiveMin _ _ _ => []

/-- The calls on the service meter during an event. -/
def serviceCallsOf (f : Floats) (k : Monitor) (e : Counter.Event) : List (Int × ServiceCall) :=
  (match e with
    | .call _ _ => []
    | .realTime _ _ _ t => [(t.read, .query 30)]
    | .fiveMin _ read _ => [(read, .query 300)]) ++
  ((k.step f e).world.metered.drop k.world.metered.length).map fun x => (endSecond e, .add x.1 x.2)

/-- The calls on the meter of the active services during an event. -/
def valueCallsOf (k : Monitor) : Counter.Event → List (Int × ValueCall)
  | .call _ _ => []
  | .realTime _ _ o t => [(t.count, .add ((k.world.registry.getValues o).take 2000).length), (t.average, .query 30)]
  | .fiveMin _ _ average => [(average, .query 300)]

theorem meterAll_eq (now : Int) (w w' : World) (m : Meter ServiceBucket) :
    meterAll now w w' m = ((w'.metered.drop w.metered.length).map fun x => ((now, .add x.1 x.2) : Int × ServiceCall)).foldl ServiceMeter.step m := by
  unfold meterAll
  rw [List.foldl_map]
  rfl

theorem realTime_step (f : Floats) (name : Bytes) (s : Sample) (o : MapOrder (BitVec 64 × Nat)) (t : Seconds) (k : Monitor)
    (g : Good k.world) : ∃ p, k.step f (.realTime name s o t) = sent p
      { world := perform k.world (.activeCount o), prev := getGoCounter f k.prev s
        service := meterAll t.stuck k.world (perform k.world (.activeCount o)) (ServiceMeter.getAllCounter t.read 30 k.service).2
        active := (ValueMeter.getAllCounter t.average 30
          (ValueMeter.add t.count ((k.world.registry.getValues o).take 2000).length k.active)).2 } := by
  unfold Monitor.step
  simp only [realTime_run f name s o t k g]
  exact ⟨_, rfl⟩

theorem step_good (f : Floats) {k : Monitor} (g : Good k.world) (e : Counter.Event)
    (he : match e with | .call _ c => WellFormed k.world c | _ => True) :
    Good (k.step f e).world ∧ (k.step f e).world.metered = (history k.world (callsOf e)).metered ∧
      (k.step f e).world.tick = (history k.world (callsOf e)).tick ∧
      (k.step f e).world.env = k.world.env ∧
      (k.step f e).world.tctxs = (history k.world (callsOf e)).tctxs ∧
      (k.step f e).world.registry = (history k.world (callsOf e)).registry ∧
      (k.step f e).service = (serviceCallsOf f k e).foldl ServiceMeter.step k.service ∧
      (k.step f e).active = (valueCallsOf k e).foldl ValueMeter.step k.active := by
  cases e with
  | call now c =>
    refine ⟨g.call c he, rfl, rfl, exec_env _ c, rfl, rfl, ?_, rfl⟩
    show meterAll now k.world (perform k.world c) k.service = _
    rw [meterAll_eq]; rfl
  | realTime name s o t =>
    obtain ⟨p, hp⟩ := realTime_step f name s o t k g
    have hm : (k.step f (.realTime name s o t)).world.metered = (perform k.world (.activeCount o)).metered := by rw [hp]; rfl
    have hs : (k.step f (.realTime name s o t)).service = (serviceCallsOf f k (.realTime name s o t)).foldl ServiceMeter.step k.service := by
      unfold serviceCallsOf
      rw [hm, hp]
      show meterAll t.stuck k.world (perform k.world (.activeCount o)) _ = _
      rw [meterAll_eq]; rfl
    rw [hs, hp]
    exact ⟨Good.sent (g.call (.activeCount o) trivial) p, rfl, rfl, exec_env _ _, rfl, rfl, rfl, rfl⟩
  | fiveMin name read average =>
    refine ⟨Good.sent g _, rfl, rfl, rfl, rfl, rfl, ?_, rfl⟩
    unfold serviceCallsOf
    have : ((k.step f (.fiveMin name read average)).world.metered.drop k.world.metered.length) = [] := List.drop_length
    rw [this]; rfl

/-- The tracing state after an event: as after its calls, perhaps with a counter pack sent. -/
theorem step_quiet {γ : Type} (core : Tctx → γ) (f : Floats) {k : Monitor} (g : Good k.world) (e : Counter.Event) :
    Quiet core (history k.world (callsOf e)) (k.step f e).world := by
  cases e with
  | call now c => exact (Quiet.isPre core).refl _
  | realTime name s o t =>
    obtain ⟨p, hp⟩ := realTime_step f name s o t k g
    rw [hp]
    exact quiet_sendDirect (core := core) (.perfCounter p) rfl _
  | fiveMin name read average => exact quiet_sendDirect (core := core) (.perfCounter _) rfl _

/-! ## Histories -/

/-- The calls on the service meter during a history. -/
def serviceCalls (f : Floats) : Monitor → List Counter.Event → List (Int × ServiceCall)
  | _, [] => []
  | k, e :: es => serviceCallsOf f k e ++ serviceCalls f (k.step f e) es

/-- The calls on the meter of the active services during a history. -/
def valueCalls (f : Floats) : Monitor → List Counter.Event → List (Int × ValueCall)
  | _, [] => []
  | k, e :: es => valueCallsOf k e ++ valueCalls f (k.step f e) es

theorem life_run (f : Floats) (es : List Counter.Event) (k : Monitor) (g : Good k.world) (h : AllProper f k es) :
    Good (k.life f es).world ∧ (k.life f es).world.env = k.world.env ∧
      (k.life f es).service = (serviceCalls f k es).foldl ServiceMeter.step k.service ∧
      (k.life f es).active = (valueCalls f k es).foldl ValueMeter.step k.active := by
  induction es generalizing k with
  | nil => exact ⟨g, rfl, rfl, rfl⟩
  | cons e es ih =>
    obtain ⟨g1, -, -, h3, -, -, h6, h7⟩ := step_good f g e h.1
    obtain ⟨a1, a2, a3, a4⟩ := ih (k.step f e) g1 h.2
    refine ⟨a1, a2.trans h3, ?_, ?_⟩
    · show ((k.step f e).life f es).service = _
      rw [a3, h6, serviceCalls, List.foldl_append]
    · show ((k.step f e).life f es).active = _
      rw [a4, h7, valueCalls, List.foldl_append]

theorem recorded_append (a b : List (Int × ServiceCall)) :
    ServiceMeter.recorded (a ++ b) = ServiceMeter.recorded a ++ ServiceMeter.recorded b := List.filterMap_append

theorem valueRecorded_append (a b : List (Int × ValueCall)) :
    ValueMeter.recorded (a ++ b) = ValueMeter.recorded a ++ ValueMeter.recorded b := List.filterMap_append

theorem recorded_adds (s : Int) (l : List (Int × Bool)) :
    ServiceMeter.recorded (l.map fun x => ((s, .add x.1 x.2) : Int × ServiceCall)) = l.map fun x => (s, x) := by
  induction l with
  | nil => rfl
  | cons x l ih => rw [List.map_cons, List.map_cons, ← ih]; rfl

theorem recorded_service (f : Floats) (es : List Counter.Event) (k : Monitor) :
    ServiceMeter.recorded (serviceCalls f k es) = endings f k es := by
  induction es generalizing k with
  | nil => rfl
  | cons e es ih =>
    rw [serviceCalls, recorded_append, ih, endings]
    unfold serviceCallsOf
    rw [recorded_append, recorded_adds]
    cases e <;> rfl

theorem recorded_value (f : Floats) (es : List Counter.Event) (k : Monitor) :
    ValueMeter.recorded (valueCalls f k es) = activeCounts f k es := by
  induction es generalizing k with
  | nil => rfl
  | cons e es ih =>
    rw [valueCalls, valueRecorded_append, ih]
    cases e <;> rfl

/-! ## Seconds -/

theorem Forward.mono {s t : Int} (h : s ≤ t) {l : List Int} (hl : Forward t l) : Forward s l := by
  cases l with
  | nil => trivial
  | cons a l => exact ⟨Int.le_trans h hl.1, hl.2⟩

theorem Forward.append {t : Int} {a b : List Int} : Forward t (a ++ b) ↔ Forward t a ∧ Forward (lastOf t a) b := by
  induction a generalizing t with
  | nil => simp [Forward, lastOf]
  | cons x a ih =>
    have : lastOf t (x :: a) = lastOf x a := by
      unfold lastOf
      rw [List.getLast?_cons]
      simp
    rw [List.cons_append]
    show (t ≤ x ∧ Forward x (a ++ b)) ↔ (t ≤ x ∧ Forward x a) ∧ _
    rw [ih, this]
    exact ⟨fun h => ⟨⟨h.1, h.2.1⟩, h.2.2⟩, fun h => ⟨h.1.1, h.1.2, h.2⟩⟩

theorem Forward.same (s t : Int) (h : s ≤ t) (n : Nat) : Forward s (List.replicate n t) := by
  induction n generalizing s with
  | zero => trivial
  | succ n ih => exact ⟨h, ih t (Int.le_refl _)⟩

theorem lastOf_le {s u : Int} {l : List Int} (hs : s ≤ u) (hl : ∀ x ∈ l, x ≤ u) : lastOf s l ≤ u := by
  unfold lastOf
  cases h : l.getLast? with
  | none => exact hs
  | some x => exact hl x (List.mem_of_getLast? h)

theorem adds_times (s : Int) (l : List (Int × Bool)) :
    (l.map fun x => ((s, .add x.1 x.2) : Int × ServiceCall)).map (·.1) = List.replicate l.length s := by
  induction l with
  | nil => rfl
  | cons x l ih => rw [List.map_cons, List.map_cons, ih]; rfl

theorem serviceCallsOf_times (f : Floats) (k : Monitor) (e : Counter.Event) (t : Int) (h : Forward t (seconds e)) :
    Forward t ((serviceCallsOf f k e).map (·.1)) ∧ lastOf t ((serviceCallsOf f k e).map (·.1)) ≤ lastOf t (seconds e) := by
  unfold serviceCallsOf
  rw [List.map_append, adds_times]
  generalize ((k.step f e).world.metered.drop k.world.metered.length).length = n
  cases e with
  | call now c =>
    refine ⟨Forward.same t now h.1 n, lastOf_le h.1 fun x hx => ?_⟩
    have := List.eq_of_mem_replicate (show x ∈ List.replicate n now from hx)
    exact Int.le_of_eq this
  | realTime name s o u =>
    obtain ⟨h1, h2, h3, h4, -⟩ := h
    refine ⟨⟨h1, Forward.same u.read u.stuck h2 n⟩, ?_⟩
    show _ ≤ u.average
    refine lastOf_le (by omega) fun x hx => ?_
    rcases List.mem_cons.mp (show x ∈ u.read :: List.replicate n u.stuck from hx) with rfl | hx
    · omega
    · have := List.eq_of_mem_replicate hx; omega
  | fiveMin name read average =>
    obtain ⟨h1, h2, -⟩ := h
    refine ⟨⟨h1, Forward.same read read (Int.le_refl _) n⟩, ?_⟩
    show _ ≤ average
    refine lastOf_le (by omega) fun x hx => ?_
    rcases List.mem_cons.mp (show x ∈ read :: List.replicate n read from hx) with rfl | hx
    · omega
    · have := List.eq_of_mem_replicate hx; omega

theorem valueCallsOf_times (k : Monitor) (e : Counter.Event) (t : Int) (h : Forward t (seconds e)) :
    Forward t ((valueCallsOf k e).map (·.1)) ∧ lastOf t ((valueCallsOf k e).map (·.1)) ≤ lastOf t (seconds e) := by
  cases e with
  | call now c => exact ⟨trivial, h.1⟩
  | realTime name s o u =>
    obtain ⟨h1, h2, h3, h4, -⟩ := h
    exact ⟨⟨(by omega : t ≤ u.count), h4, trivial⟩, Int.le_refl _⟩
  | fiveMin name read average =>
    obtain ⟨h1, h2, -⟩ := h
    exact ⟨⟨(by omega : t ≤ average), trivial⟩, Int.le_refl _⟩

theorem lastOf_append (t : Int) (a b : List Int) : lastOf t (a ++ b) = lastOf (lastOf t a) b := by
  unfold lastOf
  cases h : b.getLast? with
  | none => rw [List.getLast?_eq_none_iff] at h; subst h; simp
  | some x => rw [List.getLast?_append, h]; simp

theorem lastOf_mono {s t : Int} (h : s ≤ t) (l : List Int) : lastOf s l ≤ lastOf t l := by
  unfold lastOf
  cases l.getLast? with
  | none => exact h
  | some x => exact Int.le_refl _

theorem serviceCalls_times (f : Floats) (es : List Counter.Event) (k : Monitor) (s t : Int) (hst : s ≤ t)
    (h : Forward t (es.flatMap seconds)) :
    Forward s ((serviceCalls f k es).map (·.1)) ∧ lastOf s ((serviceCalls f k es).map (·.1)) ≤ lastOf t (es.flatMap seconds) := by
  induction es generalizing k s t with
  | nil => exact ⟨trivial, hst⟩
  | cons e es ih =>
    rw [List.flatMap_cons, Forward.append] at h
    obtain ⟨a1, a2⟩ := serviceCallsOf_times f k e s (Forward.mono hst h.1)
    obtain ⟨b1, b2⟩ := ih (k.step f e) _ _ (Int.le_trans a2 (lastOf_mono hst _)) h.2
    rw [serviceCalls, List.map_append, Forward.append, lastOf_append, List.flatMap_cons, lastOf_append]
    exact ⟨⟨a1, b1⟩, b2⟩

theorem valueCalls_times (f : Floats) (es : List Counter.Event) (k : Monitor) (s t : Int) (hst : s ≤ t)
    (h : Forward t (es.flatMap seconds)) :
    Forward s ((valueCalls f k es).map (·.1)) ∧ lastOf s ((valueCalls f k es).map (·.1)) ≤ lastOf t (es.flatMap seconds) := by
  induction es generalizing k s t with
  | nil => exact ⟨trivial, hst⟩
  | cons e es ih =>
    rw [List.flatMap_cons, Forward.append] at h
    obtain ⟨a1, a2⟩ := valueCallsOf_times k e s (Forward.mono hst h.1)
    obtain ⟨b1, b2⟩ := ih (k.step f e) _ _ (Int.le_trans a2 (lastOf_mono hst _)) h.2
    rw [valueCalls, List.map_append, Forward.append, lastOf_append, List.flatMap_cons, lastOf_append]
    exact ⟨⟨a1, b1⟩, b2⟩

theorem activeCounts_append (f : Floats) (es : List Counter.Event) (k : Monitor) (name : Bytes) (s : Sample)
    (o : MapOrder (BitVec 64 × Nat)) (t : Seconds) :
    activeCounts f k (es ++ [.realTime name s o t]) =
      activeCounts f k es ++ [(t.count, ((((k.life f es).world.registry.getValues o).take 2000).length : Int))] := by
  induction es generalizing k with
  | nil => rfl
  | cons e es ih =>
    rw [List.cons_append]
    show _ ++ activeCounts f (k.step f e) (es ++ [.realTime name s o t]) = (_ ++ activeCounts f (k.step f e) es) ++ _
    rw [ih, ← List.append_assoc]
    rfl

/-! ## The last sample -/

theorem prev_eq (f : Floats) (es : List Counter.Event) (k : Monitor) (g : Good k.world) (h : AllProper f k es) :
    (k.life f es).prev.timestamp = ((lastSample es).map (·.nanos)).getD k.prev.timestamp ∧
    (k.life f es).prev.pauseTotalNs = ((lastSample es).map (·.pauseTotalNs)).getD k.prev.pauseTotalNs ∧
    (k.life f es).prev.numGC = ((lastSample es).map (·.numGC)).getD k.prev.numGC := by
  induction es generalizing k with
  | nil => exact ⟨rfl, rfl, rfl⟩
  | cons e es ih =>
    have h' := ih (k.step f e) (step_good f g e h.1).1 h.2
    show ((k.step f e).life f es).prev.timestamp = _ ∧ ((k.step f e).life f es).prev.pauseTotalNs = _ ∧
      ((k.step f e).life f es).prev.numGC = _
    rw [h'.1, h'.2.1, h'.2.2]
    cases e with
    | call now c => exact ⟨rfl, rfl, rfl⟩
    | fiveMin name read average => exact ⟨rfl, rfl, rfl⟩
    | realTime name s o t =>
      obtain ⟨p, hp⟩ := realTime_step f name s o t k g
      have hprev : (k.step f (.realTime name s o t)).prev = getGoCounter f k.prev s := by rw [hp]; rfl
      have hl : lastSample (.realTime name s o t :: es) = some ((lastSample es).getD s) := by
        unfold lastSample
        exact List.getLast?_cons
      rw [hl, hprev]
      have h0 : (getGoCounter f k.prev s).timestamp = s.nanos ∧ (getGoCounter f k.prev s).pauseTotalNs = s.pauseTotalNs ∧
          (getGoCounter f k.prev s).numGC = s.numGC := by
        unfold getGoCounter
        split <;> exact ⟨rfl, rfl, rfl⟩
      rw [h0.1, h0.2.1, h0.2.2]
      cases lastSample es <;> exact ⟨rfl, rfl, rfl⟩

theorem gc_figures (f : Floats) (prev : GoCounter) (s : Sample) (before : Option Sample)
    (h1 : prev.timestamp = (before.map (·.nanos)).getD 0) (h2 : prev.pauseTotalNs = (before.map (·.pauseTotalNs)).getD 0)
    (h3 : prev.numGC = (before.map (·.numGC)).getD 0) :
    GcFigures f before s (getGoCounter f prev s).gcPerSec (getGoCounter f prev s).gcPausePerSec := by
  cases before with
  | none =>
    unfold getGoCounter
    rw [if_neg (by rw [h1]; simp)]
    exact ⟨rfl, rfl⟩
  | some b =>
    simp only [Option.map_some, Option.getD_some] at h1 h2 h3
    intro dt pause gcs hb0 hdt hpos hlim hp hpl hg hgl
    unfold getGoCounter
    rw [if_pos (by rw [h1]; exact hb0)]
    simp only [h1, h2, h3]
    have e1 : (s.nanos - b.nanos).toInt = (dt : Int) := by
      rw [BitVec.toInt_eq_toNat_of_lt, BitVec.toNat_sub]
      · have := b.nanos.isLt; omega
      · rw [BitVec.toNat_sub]; have := b.nanos.isLt; omega
    have e2 : (s.pauseTotalNs - b.pauseTotalNs).toInt = (pause : Int) := by
      rw [BitVec.toInt_eq_toNat_of_lt, BitVec.toNat_sub]
      · have := b.pauseTotalNs.isLt; omega
      · rw [BitVec.toNat_sub]; have := b.pauseTotalNs.isLt; omega
    have e3 : (s.numGC - b.numGC).toInt = (gcs : Int) := by
      rw [hg, BitVec.add_comm, BitVec.add_sub_cancel, BitVec.toInt_eq_toNat_of_lt, BitVec.toNat_ofNat]
      · omega
      · rw [BitVec.toNat_ofNat]; omega
    rw [e1, e2, e3]
    exact ⟨rfl, rfl⟩

theorem failed_eq (f : Floats) (l : List (Int × Bool)) (a c : Rat) (b d : Int) :
    f.failed ⟨a, b, c, l.length, l.countP (·.2), d⟩ = percentage f l := by
  unfold Floats.failed percentage
  cases l with
  | nil => rfl
  | cons x l => rw [if_pos (by simp; omega), if_neg (by simp)]

theorem mean_eq (f : Floats) (l : List Int) (a : Rat) : f.mean ⟨l.sum, a, l.length⟩ = average f l := by
  unfold Floats.mean average
  cases l with
  | nil => rfl
  | cons x l => rw [if_neg (by simp; omega), if_neg (by simp)]

end Counter

/-- **C78**: with positive profile limits and the clock never going back, every round of the real-time counter sends one pack,
named after the object, with exactly these figures: the goroutines, cgo calls and heap of the runtime; the rates of garbage
collection since the previous round; throughput, mean time and error percentage of the services that ended in the last thirty
seconds; the mean of the numbers of active services seen in the last thirty seconds; and the services active now, by colour. -/
theorem C78_real_time_pack (f : Floats) (env : Oracle) (conf : TraceConf) (cap : Nat) (t0 : Int) (es : List Counter.Event)
    (hk : 1 ≤ conf.keep) (hb : 1 ≤ conf.bulk) (hwf : AllProper f (Monitor.start env conf cap t0) es)
    (name : Bytes) (s : Sample) (o : MapOrder (BitVec 64 × Nat)) (t : Seconds)
    (hf : Forward t0 ((es ++ [Counter.Event.realTime name s o t]).flatMap seconds)) :
    let k0 := Monitor.start env conf cap t0
    let k := k0.life f es
    let ended := window t.read 30 (endings f k0 es)
    let seen := (k.world.registry.getValues o).take 2000
    let counts := window t.average 30 (activeCounts f k0 (es ++ [.realTime name s o t]))
    let colours := byColour k.world (env.clock k.world.tick) seen
    ∃ p gc pause, (k.step f (.realTime name s o t)).world.proxy.direct =
        (perform k.world (.activeCount o)).proxy.direct ++ [.perfCounter p] ∧
      p.objName = name ∧ p.timetype = 1 ∧ GcFigures f (lastSample es) s gc pause ∧
      p.data =
       [(ascii "Goroutine", .dec s.goroutines), (ascii "GoCgoCall", .dec s.cgoCalls),
        (ascii "GoGcCount", .float (f.narrow gc)),
        (ascii "GoGcPause", .float (f.narrow pause)),
        (ascii "GoHeapUsed", .dec s.heapAlloc),
        (ascii "GoTPS", .float (f.tps ended.length 30)),
        (ascii "GoElapsedTime", .dec (BitVec.ofInt 64 (if ended = [] then 0 else (ended.map fun e => clipped e.1).sum / ended.length))),
        (ascii "GoErrorRate", .float (percentage f ended)),
        (ascii "GoActiveService", .float (f.narrow (average f counts))),
        (ascii "ActiveSpeed",
          .list [.dec (BitVec.ofNat 64 colours.1), .dec (BitVec.ofNat 64 colours.2.1), .dec (BitVec.ofNat 64 colours.2.2)])] := by
  intro k0 k ended seen counts colours
  obtain ⟨g, henv, hs, hv⟩ := life_run f es k0 (Good.start env conf cap hk hb) hwf
  have hrun := realTime_run f name s o t k g
  have hp := prev_eq f es k0 (Good.start env conf cap hk hb) hwf
  rw [List.flatMap_append, Forward.append] at hf
  obtain ⟨hf1, hf2⟩ := hf
  simp only [List.flatMap_cons, List.flatMap_nil, List.append_nil] at hf2
  obtain ⟨h1, h2, h3, h4, -⟩ := hf2
  obtain ⟨a1, a2⟩ := serviceCalls_times f es k0 t0 t0 (Int.le_refl _) hf1
  obtain ⟨b1, b2⟩ := valueCalls_times f es k0 t0 t0 (Int.le_refl _) hf1
  have hsc := C45_service_counters t0 (serviceCalls f k0 es) a1 t.read (Int.le_trans a2 h1) 30
  have hks : k.service = ServiceMeter.history t0 (serviceCalls f k0 es) := hs
  rw [recorded_service, ← hks] at hsc
  have hva : k.active = ValueMeter.history t0 (valueCalls f k0 es) := hv
  have hvh : ValueMeter.add t.count (seen.length : Int) k.active =
      ValueMeter.history t0 (valueCalls f k0 es ++ [(t.count, .add seen.length)]) := by
    unfold ValueMeter.history at hva ⊢
    rw [List.foldl_append, ← hva]; rfl
  have hvc := C45_value_counters t0 (valueCalls f k0 es ++ [(t.count, .add seen.length)])
    (by rw [List.map_append, Forward.append]; exact ⟨b1, (by omega : _ ≤ t.count), trivial⟩) t.average
    (by rw [List.map_append, lastOf_append]; exact h4) 30
  have hcounts : activeCounts f k0 (es ++ [.realTime name s o t]) = activeCounts f k0 es ++ [(t.count, (seen.length : Int))] :=
    activeCounts_append f es k0 name s o t
  rw [valueRecorded_append, recorded_value, ← hvh] at hvc
  have hrec : activeCounts f k0 es ++ ValueMeter.recorded [(t.count, ValueCall.add (seen.length : Int))] =
      activeCounts f k0 (es ++ [.realTime name s o t]) := hcounts.symm
  rw [hrec] at hvc
  have hclock : k.world.env.clock k.world.tick = env.clock k.world.tick := by rw [show k.world.env = env from henv]
  have hc0 : (getGoCounter f k.prev s).goroutineNum = s.goroutines ∧ (getGoCounter f k.prev s).cgoCallNum = s.cgoCalls ∧
      (getGoCounter f k.prev s).heapAlloc = s.heapAlloc := by
    unfold getGoCounter
    split <;> exact ⟨rfl, rfl, rfl⟩
  have hper : (30 : Int) ⊓ 300 = 30 := rfl
  rw [hper] at hsc
  have hav : (ValueMeter.getAllCounter t.average 30
      (ValueMeter.add t.count (((k.world.registry.getValues o).take 2000).length : Int) k.active)).1 = _ := hvc
  simp only [hsc, hav, hc0, hclock, failed_eq, mean_eq] at hrun
  have hpack : ∃ p k1, getAllCounterOnPack f name s o t k = (some p, k1) ∧ k1.world = perform k.world (.activeCount o) ∧
      p.objName = name ∧ p.timetype = 1 ∧ p.data = _ := ⟨_, _, hrun, rfl, rfl, rfl, rfl⟩
  obtain ⟨p, k1, e1, e2, e3, e4, e5⟩ := hpack
  refine ⟨p, (getGoCounter f k.prev s).gcPerSec, (getGoCounter f k.prev s).gcPausePerSec, ?_, e3, e4,
    gc_figures f k.prev s (lastSample es) hp.1 hp.2.1 hp.2.2, e5⟩
  unfold Monitor.step
  simp only [e1]
  rw [← e2]
  rfl

/-- **C78**, the five-minute pack: throughput, mean time and error percentage of the services that ended in the last 300 seconds,
and the mean of the numbers of active services seen in the last 300 seconds. -/
theorem C78_five_minute_pack (f : Floats) (env : Oracle) (conf : TraceConf) (cap : Nat) (t0 : Int) (es : List Counter.Event)
    (hk : 1 ≤ conf.keep) (hb : 1 ≤ conf.bulk) (hwf : AllProper f (Monitor.start env conf cap t0) es)
    (name : Bytes) (read avg : Int) (hf : Forward t0 ((es ++ [Counter.Event.fiveMin name read avg]).flatMap seconds)) :
    let k0 := Monitor.start env conf cap t0
    let k := k0.life f es
    let ended := window read 300 (endings f k0 es)
    let counts := window avg 300 (activeCounts f k0 es)
    ∃ p, (k.step f (.fiveMin name read avg)).world.proxy.direct = k.world.proxy.direct ++ [.perfCounter p] ∧
      p.objName = name ∧ p.timetype = 3 ∧
      p.data =
       [(ascii "GoTPS", .float (f.tps ended.length 300)),
        (ascii "GoElapsedTime", .dec (BitVec.ofInt 64 (if ended = [] then 0 else (ended.map fun e => clipped e.1).sum / ended.length))),
        (ascii "GoErrorRate", .float (percentage f ended)),
        (ascii "GoActiveService", .float (f.narrow (average f counts)))] := by
  intro k0 k ended counts
  obtain ⟨g, -, hs, hv⟩ := life_run f es k0 (Good.start env conf cap hk hb) hwf
  rw [List.flatMap_append, Forward.append] at hf
  obtain ⟨hf1, hf2⟩ := hf
  simp only [List.flatMap_cons, List.flatMap_nil, List.append_nil] at hf2
  obtain ⟨h1, h2, -⟩ := hf2
  obtain ⟨a1, a2⟩ := serviceCalls_times f es k0 t0 t0 (Int.le_refl _) hf1
  obtain ⟨b1, b2⟩ := valueCalls_times f es k0 t0 t0 (Int.le_refl _) hf1
  have hsc := C45_service_counters t0 (serviceCalls f k0 es) a1 read (Int.le_trans a2 h1) 300
  have hks : k.service = ServiceMeter.history t0 (serviceCalls f k0 es) := hs
  rw [recorded_service, ← hks] at hsc
  have hva : k.active = ValueMeter.history t0 (valueCalls f k0 es) := hv
  have hvc := C45_value_counters t0 (valueCalls f k0 es) b1 avg (Int.le_trans b2 (by omega)) 300
  rw [recorded_value, ← hva] at hvc
  have hrun := fiveMin_run f name read avg k
  have hper : (300 : Int) ⊓ 300 = 300 := rfl
  rw [hper] at hsc
  simp only [hsc, hvc, failed_eq, mean_eq] at hrun
  have hpack : ∃ p k1, getAll5MinCounterOnPack f name read avg k = (p, k1) ∧ k1.world = k.world ∧
      p.objName = name ∧ p.timetype = 3 ∧ p.data = _ := ⟨_, _, hrun, rfl, rfl, rfl, rfl⟩
  obtain ⟨p, k1, e1, e2, e3, e4, e5⟩ := hpack
  refine ⟨p, ?_, e3, e4, e5⟩
  unfold Monitor.step
  simp only [e1]
  rw [← e2]
  rfl

/-! ## What is counted -/

namespace Counter

theorem Move.metered {w w' : World} (m : Move w w') : w.metered <+: w'.metered := by
  cases m with
  | ends e =>
    induction e with
    | quiet q => rw [q.metered]
    | more e _ ih =>
      obtain ⟨p, id, l, m, h1, h2, h3, h4, h5, -⟩ := e.one
      exact (h5 ▸ List.prefix_append _ _ : _ <+: _).trans ih
  | starts s =>
    cases s with
    | quiet q => rw [q.metered]
    | one s => rw [s.metered]

/-- What counting needs to know of a state. -/
structure Tracked (w : World) : Prop where
  counted : Counted w
  ledger : Ledger w
  exact : Exact w

theorem Tracked.call {w : World} (h : Tracked w) (hb : 1 ≤ w.conf.bulk) (c : Call) (hid : DistinctIds w.env (perform w c).tick)
    (hmax : (running (perform w c)).length ≤ 10000) : Tracked (perform w c) ∧ w.metered <+: (perform w c).metered := by
  by_cases hc : ∃ x, c = .conf x
  · obtain ⟨x, rfl⟩ := hc
    exact ⟨⟨h.counted, h.ledger.exec _ hid, h.exact⟩, List.prefix_refl _⟩
  · have m : Move w (perform w c) := move_of_code c (fun x e => hc ⟨x, e⟩) w
    exact ⟨⟨h.counted.move (by omega) m, h.ledger.exec c hid, h.exact.move hid h.ledger m (by rw [openAt_length_running]; exact hmax)⟩,
      Move.metered m⟩

theorem Tracked.quiet {w w' : World} (h : Tracked w) (q : Q w w') : Tracked w' := by
  refine ⟨?_, h.ledger.quiet q, ?_⟩
  · have := h.counted
    unfold Counted at *
    rw [q.metered, q.services_eq]; exact this
  · have := h.exact
    unfold Exact at *
    rw [q.registry, q.services_eq]; exact this

theorem step_tracked (f : Floats) {k : Monitor} (g : Good k.world) (h : Tracked k.world) (e : Counter.Event)
    (hwf : match e with | .call _ c => WellFormed k.world c | _ => True)
    (hid : DistinctIds k.world.env (k.step f e).world.tick) (hmax : (running (k.step f e).world).length ≤ 10000) :
    Tracked (k.step f e).world ∧ k.world.metered <+: (k.step f e).world.metered ∧ k.world.tick ≤ (k.step f e).world.tick := by
  obtain ⟨-, hm, ht, -, hx, -, -, -⟩ := step_good f g e hwf
  have q : Q (history k.world (callsOf e)) (k.step f e).world := step_quiet _ f g e
  have hrun : running (k.step f e).world = running (history k.world (callsOf e)) := by unfold running; rw [hx]
  rw [hrun] at hmax
  rw [ht] at hid
  rw [hm, ht]
  have hmid : Tracked (history k.world (callsOf e)) ∧ k.world.metered <+: (history k.world (callsOf e)).metered ∧
      k.world.tick ≤ (history k.world (callsOf e)).tick := by
    cases e with
    | call now c => exact ⟨(h.call g.bulk c hid hmax).1, (h.call g.bulk c hid hmax).2, perform_tick _ c⟩
    | realTime name s o t =>
      exact ⟨(h.call g.bulk (.activeCount o) hid hmax).1, (h.call g.bulk (.activeCount o) hid hmax).2, perform_tick _ (.activeCount o)⟩
    | fiveMin name read average => exact ⟨h, List.prefix_refl _, Nat.le_refl _⟩
  exact ⟨hmid.1.quiet q, hmid.2⟩

theorem life_tick (f : Floats) (es : List Counter.Event) (k : Monitor) (g : Good k.world) (h : AllProper f k es) :
    k.world.tick ≤ (k.life f es).world.tick := by
  induction es generalizing k with
  | nil => exact Nat.le_refl _
  | cons e es ih =>
    obtain ⟨g1, -, ht, -⟩ := step_good f g e h.1
    refine Nat.le_trans ?_ (ih (k.step f e) g1 h.2)
    rw [ht]
    exact history_tick _ _

theorem window_append {A : Type} (now p : Int) (a b : List (Int × A)) : window now p (a ++ b) = window now p a ++ window now p b := by
  unfold window
  rw [List.filter_append, List.map_append]

theorem window_second {A : Type} (now p s : Int) (l : List A) :
    window now p (l.map fun x => (s, x)) = if now - p < s ∧ s ≤ now then l else [] := by
  induction l with
  | nil => simp [window]
  | cons x l ih =>
    have : window now p ((x :: l).map fun x => (s, x)) = window now p [(s, x)] ++ window now p (l.map fun x => (s, x)) :=
      window_append now p [(s, x)] (l.map fun x => (s, x))
    rw [this, ih]
    unfold window
    by_cases h : now - p < s ∧ s ≤ now <;> simp [h]

theorem endedIds_length {w : World} (h : Counted w) : (endedIds w).length = w.metered.length := by
  rw [h, endedIds, List.length_map, List.countP_eq_length_filter]

theorem counts_exact (f : Floats) (es : List Counter.Event) (k : Monitor) (g : Good k.world) (h : AllProper f k es) (tr : Tracked k.world)
    (hid : DistinctIds k.world.env (k.life f es).world.tick)
    (hmax : ∀ n, (running (k.life f (es.take n)).world).length ≤ 10000) :
    activeCounts f k es = runningCounts f k es ∧
      ∀ now p : Int, ((window now p (endings f k es)).length : Int) = (window now p (endedCounts f k es)).sum := by
  induction es generalizing k with
  | nil => exact ⟨rfl, fun now p => rfl⟩
  | cons e es ih =>
    obtain ⟨g1, -, -, henv, -⟩ := step_good f g e h.1
    have hid1 : DistinctIds k.world.env (k.step f e).world.tick := hid.mono (life_tick f es (k.step f e) g1 h.2)
    obtain ⟨t1, hpre, -⟩ := step_tracked f g tr e h.1 hid1 (by simpa [Monitor.life] using hmax 1)
    obtain ⟨i1, i2⟩ := ih (k.step f e) g1 h.2 t1 (by rw [henv]; exact hid) (fun n => by simpa [Monitor.life] using hmax (n + 1))
    constructor
    · have hlen : ∀ o, (((k.world.registry.getValues o).take 2000).length : Int) = (min 2000 (running k.world).length : Int) := by
        intro o
        rw [List.length_take, ((values_of_registry tr.ledger.reg o).trans (by rw [tr.exact, openAt_running])).length_eq]
        omega
      cases e with
      | call now c => exact i1
      | fiveMin name read average => exact i1
      | realTime name s o t =>
        show (t.count, _) :: activeCounts f _ es = (t.count, _) :: runningCounts f _ es
        rw [i1, hlen]
    · intro now p
      have h1 : endings f k (e :: es) = ((k.step f e).world.metered.drop k.world.metered.length).map (fun x => (endSecond e, x)) ++
        endings f (k.step f e) es := rfl
      have h2 : endedCounts f k (e :: es) =
        [(endSecond e, ((endedIds (k.step f e).world).length - (endedIds k.world).length : Int))] ++ endedCounts f (k.step f e) es := rfl
      have h3 : window now p [(endSecond e, ((endedIds (k.step f e).world).length - (endedIds k.world).length : Int))] =
        if now - p < endSecond e ∧ endSecond e ≤ now then [((endedIds (k.step f e).world).length - (endedIds k.world).length : Int)] else [] :=
        window_second now p (endSecond e) [_]
      rw [h1, h2, window_append, window_append, List.length_append, List.sum_append, ← i2, window_second, h3,
        endedIds_length t1.counted, endedIds_length tr.counted]
      have := hpre.length_le
      split
      · rw [List.length_drop]
        simp
        omega
      · simp

end Counter

/-- **C79**: with distinct transaction ids and at most 10000 services running at any time, what the counter packs are computed from
are the services: the entries in the throughput window are the services that ended in those seconds, and the numbers averaged
are those of the services running at each round, at most 2000. -/
theorem C79_packs_count_the_services (f : Floats) (env : Oracle) (conf : TraceConf) (cap : Nat) (t0 : Int) (es : List Counter.Event)
    (hk : 1 ≤ conf.keep) (hb : 1 ≤ conf.bulk) (hwf : AllProper f (Monitor.start env conf cap t0) es)
    (hid : DistinctIds env ((Monitor.start env conf cap t0).life f es).world.tick)
    (hmax : ∀ n, (running ((Monitor.start env conf cap t0).life f (es.take n)).world).length ≤ 10000) :
    let k0 := Monitor.start env conf cap t0
    activeCounts f k0 es = runningCounts f k0 es ∧
      ∀ now p : Int, ((window now p (endings f k0 es)).length : Int) = (window now p (endedCounts f k0 es)).sum :=
  counts_exact f es _ (Good.start env conf cap hk hb) hwf ⟨rfl, Ledger.start env conf cap, rfl⟩ hid hmax

theorem Counter.sendGoCounters_at (f : Floats) (cs : List (Bytes × Sample)) (name : Bytes) (s : Sample) (rest : List (Bytes × Sample))
    (prev : GoCounter) (b : Option Sample)
    (h1 : prev.timestamp = (b.map (·.nanos)).getD 0) (h2 : prev.pauseTotalNs = (b.map (·.pauseTotalNs)).getD 0)
    (h3 : prev.numGC = (b.map (·.numGC)).getD 0) :
    ∃ prev', (sendGoCounters f prev (cs ++ (name, s) :: rest))[cs.length]? = some (sendGoCounter f name s prev').1 ∧
      prev'.timestamp = (((cs.getLast?.map (·.2)).or b).map (·.nanos)).getD 0 ∧
      prev'.pauseTotalNs = (((cs.getLast?.map (·.2)).or b).map (·.pauseTotalNs)).getD 0 ∧
      prev'.numGC = (((cs.getLast?.map (·.2)).or b).map (·.numGC)).getD 0 := by
  induction cs generalizing prev b with
  | nil => exact ⟨prev, rfl, h1, h2, h3⟩
  | cons c cs ih =>
    obtain ⟨n, x⟩ := c
    have h0 : (getGoCounter f prev x).timestamp = x.nanos ∧ (getGoCounter f prev x).pauseTotalNs = x.pauseTotalNs ∧
        (getGoCounter f prev x).numGC = x.numGC := by
      unfold getGoCounter
      split <;> exact ⟨rfl, rfl, rfl⟩
    obtain ⟨prev', e1, e2⟩ := ih (getGoCounter f prev x) (some x) h0.1 h0.2.1 h0.2.2
    refine ⟨prev', e1, ?_⟩
    rw [List.getLast?_cons]
    cases hl : cs.getLast? with
    | none => rw [hl] at e2; exact e2
    | some y => rw [hl] at e2; exact e2

/-- **C80**: each pack of `SendGoCounter` has the goroutines, cgo calls and heap of the runtime at that moment, and the rates of garbage
collection since the previous call of `SendGoCounter` (none for the first), whatever the counter rounds have reported meanwhile. -/
theorem C80_send_go_counter (f : Floats) (before after : List (Bytes × Sample)) (name : Bytes) (s : Sample) :
    ∃ p gc pause, (sendGoCounters f {} (before ++ (name, s) :: after))[before.length]? = some p ∧
      p.time = 0 ∧ p.objName = name ∧ p.timetype = 1 ∧ GcFigures f (before.getLast?.map (·.2)) s gc pause ∧
      p.data =
       [(ascii "Goroutine", .dec s.goroutines), (ascii "GoCgoCall", .dec s.cgoCalls), (ascii "GoGcCount", .float (f.narrow gc)),
        (ascii "GoGcPause", .float (f.narrow pause)), (ascii "GoHeapUsed", .dec s.heapAlloc)] := by
  obtain ⟨prev, h, h1, h2, h3⟩ := sendGoCounters_at f before name s after {} none rfl rfl rfl
  rw [Option.or_none] at h1 h2 h3
  refine ⟨_, _, _, h, rfl, rfl, rfl, gc_figures f prev s _ h1 h2 h3, ?_⟩
  have hc0 : (getGoCounter f prev s).goroutineNum = s.goroutines ∧ (getGoCounter f prev s).cgoCallNum = s.cgoCalls ∧
      (getGoCounter f prev s).heapAlloc = s.heapAlloc := by
    unfold getGoCounter
    split <;> exact ⟨rfl, rfl, rfl⟩
  rw [← hc0.1, ← hc0.2.1, ← hc0.2.2]
  rfl

/-- **C80**: in the pack of `SendServiceCounter` the percentage of failed services of the last thirty seconds is under the name of the
throughput, and the throughput (services per second) is under the name of the error rate, after every history. -/
theorem C80_send_service_counter_swaps (f : Floats) (env : Oracle) (conf : TraceConf) (cap : Nat) (t0 : Int) (es : List Counter.Event)
    (hk : 1 ≤ conf.keep) (hb : 1 ≤ conf.bulk) (hwf : AllProper f (Monitor.start env conf cap t0) es)
    (name : Bytes) (now : Int) (hf : Forward t0 (es.flatMap seconds ++ [now])) :
    let k0 := Monitor.start env conf cap t0
    let ended := window now 30 (endings f k0 es)
    let p := (sendServiceCounter f name now (k0.life f es)).1
    p.time = 0 ∧ p.objName = name ∧ p.timetype = 1 ∧
      p.data =
       [(ascii "GoTPS", .float (percentage f ended)),
        (ascii "GoElapsedTime", .dec (BitVec.ofInt 64 (if ended = [] then 0 else (ended.map fun e => clipped e.1).sum / ended.length))),
        (ascii "GoErrorRate", .float (f.tps ended.length 30))] := by
  intro k0 ended p
  obtain ⟨-, -, hs, -⟩ := life_run f es k0 (Good.start env conf cap hk hb) hwf
  rw [Forward.append] at hf
  obtain ⟨hf1, h1, -⟩ := hf
  obtain ⟨a1, a2⟩ := serviceCalls_times f es k0 t0 t0 (Int.le_refl _) hf1
  have hsc := C45_service_counters t0 (serviceCalls f k0 es) a1 now (Int.le_trans a2 h1) 30
  have hks : (k0.life f es).service = ServiceMeter.history t0 (serviceCalls f k0 es) := hs
  rw [recorded_service, ← hks] at hsc
  have hper : (30 : Int) ⊓ 300 = 30 := rfl
  rw [hper] at hsc
  refine ⟨rfl, rfl, rfl, ?_⟩
  have hd : p.data = [(ascii "GoTPS", .float (f.failed (ServiceMeter.getAllCounter now 30 (k0.life f es).service).1)),
      (ascii "GoElapsedTime", .dec (BitVec.ofInt 64 (ServiceMeter.getAllCounter now 30 (k0.life f es).service).1.elapsed)),
      (ascii "GoErrorRate", .float (f.tps (ServiceMeter.getAllCounter now 30 (k0.life f es).service).1.count (ServiceMeter.getAllCounter now 30 (k0.life f es).service).1.period))] := rfl
  rw [hd, hsc, failed_eq]

/-! A case: two services end, one with an error, between two rounds of the real-time counter, and a third is still running. -/
namespace Demo

/-- Numbers for the cases: rounded down to a whole number. -/
def floor : Floats :=
  { tps := fun n p => BitVec.ofInt 32 (n / p), errorRate := fun e n => BitVec.ofInt 32 (100 * e / n)
    average := fun s n => BitVec.ofInt 64 (s / n), gcCount := fun n dt => BitVec.ofInt 64 (n * 1000000000 / dt)
    gcPause := fun n dt => BitVec.ofInt 64 (n * 1000 / dt), narrow := fun b => b.setWidth 32 }

def sampleA : Sample := ⟨5000000000, 7, 1, 1000, 2000000, 0xFFFFFFFF⟩
def sampleB : Sample := ⟨7000000000, 9, 2, 1500, 8000000, 3⟩

def meteredEvents : List Counter.Event :=
  [.realTime (ascii "/h/go") sampleA inOrder ⟨100, 100, 100, 100⟩,
   .call 101 (.startService .plain (ascii "a") []), .call 101 (.startService .plain (ascii "b") []),
   .call 102 (.startService .plain (ascii "c") []), .call 103 (.markAsError (.traced 1) (ascii "oops")),
   .call 104 (.endService (.traced 0)), .call 104 (.endService (.traced 1))]

def metered0 : Monitor := Monitor.start env conf 100 90

def round2 : Counter.Event := .realTime (ascii "/h/go") sampleB inOrder ⟨110, 110, 110, 110⟩

example : AllProper floor metered0 meteredEvents := ⟨trivial, trivial, trivial, trivial, trivial, trivial, trivial, trivial⟩
example : Forward 90 ((meteredEvents ++ [round2]).flatMap seconds) := by
  simp [meteredEvents, round2, seconds, Forward]
example : (endings floor metered0 meteredEvents).map (fun x => (x.1, x.2.2)) = [(104, false), (104, true)] := by decide +kernel
example : endedCounts floor metered0 meteredEvents = [(100, 0), (101, 0), (101, 0), (102, 0), (103, 0), (104, 1), (104, 1)] := by
  decide +kernel
example : activeCounts floor metered0 (meteredEvents ++ [round2]) = [(100, 0), (110, 1)] := by decide +kernel
example : GcFigures floor (lastSample meteredEvents) sampleB 2 3 := by
  intro dt pause gcs _ h1 _ _ h2 _ h3 h4
  have e1 : dt = 2000000000 := by
    have h1' : (7000000000 : Nat) = 5000000000 + dt := h1
    omega
  have e2 : pause = 6000000 := by
    have h2' : (8000000 : Nat) = 2000000 + pause := h2
    omega
  have e3 : gcs = 4 := by
    have h5 : (3#32).toNat = (4294967295#32 + BitVec.ofNat 32 gcs).toNat := congrArg BitVec.toNat h3
    rw [BitVec.toNat_add, BitVec.toNat_ofNat, BitVec.toNat_ofNat, BitVec.toNat_ofNat] at h5
    omega
  subst e1 e2 e3
  exact ⟨by decide +kernel, by decide +kernel⟩
example : DistinctIds env (metered0.life floor meteredEvents).world.tick := ids_distinct _ (by decide +kernel)
example : ∀ n, (running (metered0.life floor (meteredEvents.take n)).world).length ≤ 10000 := by
  intro n
  by_cases h : n ≤ 7
  · interval_cases n <;> decide +kernel
  · rw [List.take_of_length_le (by simp [meteredEvents]; omega)]; decide +kernel
example : ((metered0.life floor (meteredEvents ++ [round2])).world.proxy.direct.filterMap fun p => match p with
      | .perfCounter p => some (p.data.map (·.1) == [ascii "Goroutine", ascii "GoCgoCall", ascii "GoGcCount", ascii "GoGcPause",
          ascii "GoHeapUsed", ascii "GoTPS", ascii "GoElapsedTime", ascii "GoErrorRate", ascii "GoActiveService", ascii "ActiveSpeed"])
      | _ => none) = [true, true] := by decide +kernel

end Demo
end Scouter
