import Verif.Spec.Averaging
import Verif.Props.ConcurrentMeter
/-!
# Invariants of goroutines recording and averaging values at the same time
-/
namespace Scouter
namespace ConcurrentValue
open Spec
open ConcurrentMeter (slot slot_lt slot_ne slot_next slot_back sum_set sum_zero check_le)

def Field.idx : Field → Nat
  | .count => 0
  | .value => 1

/-- The order in which the handler reads. -/
def Field.ridx : Field → Nat
  | .value => 0
  | .count => 1

theorem amount_nonneg (r : Rec) (f : Field) : 0 ≤ amount r f := by
  cases f <;> simp only [amount]
  · decide
  · omega

/-- The sum of a field over the calls of one second. -/
def sumOf (f : Field) (sec : Int) (rs : List Rec) : Int := ((rs.filter fun r => r.1 = sec).map fun r => amount r f).sum

theorem sumOf_append (f : Field) (sec : Int) (a b : List Rec) : sumOf f sec (a ++ b) = sumOf f sec a + sumOf f sec b := by
  simp [sumOf]

theorem sumOf_one (f : Field) (sec : Int) (r : Rec) : sumOf f sec [r] = if r.1 = sec then amount r f else 0 := by
  unfold sumOf
  by_cases h : r.1 = sec <;> simp [h]

theorem sumOf_nonneg (f : Field) (sec : Int) (rs : List Rec) : 0 ≤ sumOf f sec rs := by
  induction rs with
  | nil => exact Int.le_refl _
  | cons r rs ih =>
    rw [show r :: rs = [r] ++ rs from rfl, sumOf_append, sumOf_one]
    have := amount_nonneg r f
    split <;> omega

theorem sumOf_prefix (f : Field) (sec : Int) {a b : List Rec} (h : a <+: b) : sumOf f sec a ≤ sumOf f sec b := by
  obtain ⟨t, rfl⟩ := h
  rw [sumOf_append]
  have := sumOf_nonneg f sec t
  omega

theorem sumOf_late (f : Field) (sec : Int) {rs : List Rec} (h : ∀ r ∈ rs, r.1 < sec) : sumOf f sec rs = 0 := by
  unfold sumOf
  rw [List.filter_eq_nil_iff.mpr (fun r hr => by have := h r hr; simp; omega)]
  rfl

/-- The sum of a field over the calls of the last `n` seconds. -/
def total (f : Field) (T : Int) (n : Nat) (rs : List Rec) : Int :=
  ((window T n rs).map fun a => amount (0, a) f).sum

theorem amount_sec (r : Rec) (f : Field) : amount (0, r.2) f = amount r f := by cases f <;> rfl

theorem total_succ (f : Field) (T : Int) (n : Nat) (rs : List Rec) : total f T (n + 1) rs = total f T n rs + sumOf f (T - n) rs := by
  unfold total
  rw [Meter.window_succ T n rs fun a => amount (0, a) f]
  rfl

theorem total_zero (f : Field) (T : Int) (rs : List Rec) : total f T 0 rs = 0 := by
  have : window T (0 : Nat) rs = [] := by
    unfold window
    rw [List.map_eq_nil_iff, List.filter_eq_nil_iff]
    intro r _
    simp only [decide_eq_true_eq]
    omega
  unfold total
  rw [this]; rfl

theorem total_mono (f : Field) (T : Int) (n : Nat) {a b : List Rec} (h : a <+: b) : total f T n a ≤ total f T n b := by
  induction n with
  | zero => rw [total_zero, total_zero]
  | succ n ih =>
    rw [total_succ, total_succ]
    have := sumOf_prefix f (T - n) h
    omega

/-! ## What calls under way have done -/

/-- What an `Add` under way has added to a field of the bucket of a second. -/
def applied (f : Field) (sec : Int) : Pc → Int
  | .load a f' | .store a f' _ => if a.record.1 = sec ∧ f.idx < f'.idx then amount a.record f else 0
  | .unlock a => if a.record.1 = sec then amount a.record f else 0
  | _ => 0

/-- What an `Add` under way that has looked at the clock adds in the end. -/
def pending (f : Field) (sec : Int) : Pc → Int
  | .load a _ | .store a _ _ | .unlock a => if a.record.1 = sec then amount a.record f else 0
  | _ => 0

theorem applied_nonneg (f : Field) (sec : Int) (pc : Pc) : 0 ≤ applied f sec pc := by
  cases pc <;> simp only [applied] <;> first | exact Int.le_refl _ | (split; exact amount_nonneg _ _; exact Int.le_refl _)

theorem applied_le (f : Field) (sec : Int) (pc : Pc) : applied f sec pc ≤ pending f sec pc := by
  cases pc <;> simp only [applied, pending] <;> try exact Int.le_refl _
  all_goals
    split
    · next h => rw [if_pos h.1]
    · split
      · exact amount_nonneg _ _
      · exact Int.le_refl _

/-- In `Add`. -/
def adding : Pc → Bool
  | .position (.add ..) | .clock (.add ..) | .clearing (.add ..) _ _ _ | .load .. | .store .. | .unlock .. => true
  | _ => false

/-- In `getPosition`, with the lock. -/
def inRing : Pc → Bool
  | .clock _ | .clearing .. => true
  | _ => false

/-- The `Add` that has its bucket. -/
def active : Pc → Option Adding
  | .load a _ | .store a _ _ | .unlock a => some a
  | _ => none

/-- The readings known to have begun with these calls. -/
def begunOf : Pc → Option (List Rec)
  | .position (.get _ b) | .clock (.get _ b) | .clearing (.get _ b) _ _ _ => some b
  | .scan c _ => some c.begun
  | _ => none

/-- The sum of a field that a reading found. -/
def Reading.get (r : Reading) : Field → Int
  | .count => r.count
  | .value => r.sum

/-- What is known of a finished reading. -/
def Fair (r : Reading) : Prop := ∀ f : Field,
  total f r.second (Meter.check r.period).toNat r.begun ≤ r.get f ∧ r.get f ≤ total f r.second (Meter.check r.period).toNat r.ended

/-- How many buckets the loop has read, for a field. -/
def readSo (c : Scan) (at_ f : Field) : Nat := (Meter.check c.period).toNat - c.left + if f.ridx < at_.ridx then 1 else 0

/-- How far the loop that clears has moved the ring. -/
def ahead (k : Nat) : Option Field → Nat
  | none => k
  | some _ => k + 1

/-- The fields in the order in which they are cleared. -/
def Field.cidx : Field → Nat
  | .value => 0
  | .count => 1

/-- The state after a field of the ring's bucket is cleared. -/
def wiped (s : Shared) (f : Field) : Shared :=
  { s with meter := { s.meter with table := s.meter.table.modify s.meter.pos fun b => f.set b 0 } }

structure Gok (s : Shared) (i : Nat) (g : Gor) : Prop where
  gl : adding g.pc = true → s.gLock = some i
  ml : inRing g.pc = true → s.mLock = some i
  ck : ∀ job, g.pc = .clock job → s.meter.pos = slot s.meter.time
  cl : ∀ job cur k w, g.pc = .clearing job cur k w → s.meter.time < cur ∧ cur ≤ s.now ∧ (ahead k w : Int) ≤ cur - s.meter.time ∧ ahead k w ≤ 301 ∧
    s.meter.pos = slot (s.meter.time + ahead k w) ∧ (∀ sec, s.meter.time < sec → sec ≤ s.meter.time + k → s.bucket (slot sec) = {}) ∧
    ∀ f, w = some f → ∀ h : Field, h.cidx < f.cidx → h.get (s.bucket s.meter.pos) = 0
  ad : ∀ a, active g.pc = some a → a.record.1 ≤ s.meter.time ∧ a.pos = slot a.record.1
  st : ∀ a f v, g.pc = .store a f v → v = f.get (s.bucket a.pos)
  bg : ∀ b, begunOf g.pc = some b → b <+: s.returned
  sc : ∀ c f, g.pc = .scan c f → c.second ≤ s.meter.time ∧ 1 ≤ c.left ∧ c.left ≤ (Meter.check c.period).toNat ∧
    c.pos = slot (c.second - ((Meter.check c.period).toNat - c.left : Nat)) ∧
    ∀ h : Field, total h c.second (readSo c f h) c.begun ≤ c.get h ∧ c.get h ≤ total h c.second (readSo c f h) s.entered
  rd : ∀ r ∈ g.readings, Fair r

structure Inv (s : State) : Prop where
  len : s.shared.meter.table.length = 301
  past : s.shared.meter.time ≤ s.shared.now
  free : s.shared.mLock = none → s.shared.meter.pos = slot s.shared.meter.time
  recs : ∀ r ∈ s.shared.entered, r.1 ≤ s.shared.meter.time
  recs' : ∀ r ∈ s.shared.returned, r.1 ≤ s.shared.meter.time
  bk : ∀ (f : Field) (sec : Int), s.shared.now - 301 < sec → sec ≤ s.shared.meter.time →
    f.get (s.shared.bucket (slot sec)) = sumOf f sec s.shared.returned + (s.gors.map fun g => applied f sec g.pc).sum
  en : ∀ (f : Field) (sec : Int),
    sumOf f sec s.shared.entered = sumOf f sec s.shared.returned + (s.gors.map fun g => pending f sec g.pc).sum
  ok : ∀ i g, s.gors[i]? = some g → Gok s.shared i g

theorem bucket_set (s : Shared) (pos q : Nat) (b : ValueBucket) (hq : q < s.meter.table.length) (m : Meter ValueBucket)
    (hm : m.table = s.meter.table.set pos b) :
    Shared.bucket { s with meter := m } q = if pos = q then b else s.bucket q := by
  unfold Shared.bucket
  simp only [hm, List.getElem?_set]
  split
  · next h => subst h; simp [hq]
  · rfl

theorem bucket_modify (s : Shared) (pos q : Nat) (u : ValueBucket → ValueBucket) (hq : q < s.meter.table.length) (m : Meter ValueBucket)
    (hm : m.table = s.meter.table.modify pos u) :
    Shared.bucket { s with meter := m } q = if pos = q then u (s.bucket q) else s.bucket q := by
  unfold Shared.bucket
  simp only [hm, List.getElem?_modify]
  split
  · rw [List.getElem?_eq_getElem hq]; rfl
  · simp

theorem get_set (f h : Field) (b : ValueBucket) (v : Int) : h.get (f.set b v) = if f = h then v else h.get b := by
  cases f <;> cases h <;> rfl

/-- A goroutine that does not move. -/
theorem Gok.keep {s s' : Shared} {j : Nat} {h : Gor} (k : Gok s j h) (gl : adding h.pc = true → s'.gLock = some j)
    (ml : inRing h.pc = true → s'.mLock = some j) (now : s.now ≤ s'.now) (time : s.meter.time ≤ s'.meter.time)
    (ring : inRing h.pc = true → s'.meter.time = s.meter.time ∧ s'.meter.pos = s.meter.pos ∧
      ∀ sec, s.meter.time < sec → sec ≤ s.now → s'.bucket (slot sec) = s.bucket (slot sec))
    (buck : ∀ a, active h.pc = some a → s'.bucket a.pos = s.bucket a.pos)
    (ret : s.returned <+: s'.returned) (ent : s.entered <+: s'.entered) : Gok s' j h where
  gl := gl
  ml := ml
  ck := by
    intro job hj
    obtain ⟨h1, h2, -⟩ := ring (by rw [hj]; rfl)
    rw [h1, h2]; exact k.ck job hj
  cl := by
    intro job cur n w hj
    obtain ⟨h1, h2, h3⟩ := ring (by rw [hj]; rfl)
    obtain ⟨k1, k2, k3, k4, k5, k6, k7⟩ := k.cl job cur n w hj
    rw [h1, h2]
    refine ⟨k1, Int.le_trans k2 now, k3, k4, k5, fun sec a b => (h3 sec a ?_).trans (k6 sec a b), fun f hf h hh => ?_⟩
    · have : n ≤ ahead n w := by cases w <;> simp [ahead]
      omega
    · have := k7 f hf h hh
      rw [k5] at this ⊢
      subst hf
      rw [h3 _ (by simp only [ahead]; push_cast; omega) (by omega)]
      exact this
  ad := fun a ha => ⟨Int.le_trans (k.ad a ha).1 time, (k.ad a ha).2⟩
  st := by
    intro a f v hj
    rw [buck a (by rw [hj]; rfl)]; exact k.st a f v hj
  bg := fun b hb => (k.bg b hb).trans ret
  sc := by
    intro c f hj
    obtain ⟨k1, k2, k3, k4, k5⟩ := k.sc c f hj
    exact ⟨Int.le_trans k1 time, k2, k3, k4, fun h => ⟨(k5 h).1, Int.le_trans (k5 h).2 (total_mono h _ _ ent)⟩⟩
  rd := k.rd

theorem Inv.build {s : State} (hI : Inv s) {i : Nat} {g g' : Gor} (hg : s.gors[i]? = some g) {sh : Shared}
    (len : sh.meter.table.length = 301) (past : sh.meter.time ≤ sh.now) (free : sh.mLock = none → sh.meter.pos = slot sh.meter.time)
    (recs : ∀ r ∈ sh.entered, r.1 ≤ sh.meter.time) (recs' : ∀ r ∈ sh.returned, r.1 ≤ sh.meter.time)
    (bk : ∀ (f : Field) (sec : Int), sh.now - 301 < sec → sec ≤ sh.meter.time → f.get (sh.bucket (slot sec)) =
      sumOf f sec sh.returned + ((s.gors.map fun g => applied f sec g.pc).sum - applied f sec g.pc + applied f sec g'.pc))
    (en : ∀ (f : Field) (sec : Int), sumOf f sec sh.entered - sumOf f sec s.shared.entered =
      sumOf f sec sh.returned - sumOf f sec s.shared.returned - pending f sec g.pc + pending f sec g'.pc)
    (me : Gok sh i g') (others : ∀ j h, j ≠ i → s.gors[j]? = some h → Gok sh j h) : Inv ⟨sh, s.gors.set i g'⟩ where
  len := len
  past := past
  free := free
  recs := recs
  recs' := recs'
  bk := by
    intro f sec h1 h2
    rw [sum_set (fun g => applied f sec g.pc) s.gors i g g' hg]
    exact bk f sec h1 h2
  en := by
    intro f sec
    have h1 := sum_set (fun g => pending f sec g.pc) s.gors i g g' hg
    have h2 := hI.en f sec
    have h3 := en f sec
    show sumOf f sec sh.entered = sumOf f sec sh.returned + ((s.gors.set i g').map fun g => pending f sec g.pc).sum
    rw [h1]; omega
  ok := by
    intro j h hj
    rw [List.getElem?_set] at hj
    split at hj
    · next e =>
      subst e
      split at hj
      · injection hj with hj; subst hj; exact me
      · simp at hj
    · next e => exact others j h (fun h => e h.symm) hj

/-- The buckets between the oldest second that matters and now have places of their own. -/
theorem late {s : State} (hT : Timely s) {g : Gor} (hg : g ∈ s.gors) {a : Adding} (ha : active g.pc = some a) :
    s.shared.now ≤ a.record.1 + 300 := by
  refine hT g hg _ ?_
  revert ha
  cases g.pc <;> simp [active, deadline] <;> (intro h; rw [h])

theorem active_adding {pc : Pc} {a : Adding} (h : active pc = some a) : adding pc = true := by
  cases pc <;> simp [active] at h <;> rfl

theorem applied_idle {pc : Pc} (h : active pc = none) (f : Field) (sec : Int) : applied f sec pc = 0 ∧ pending f sec pc = 0 := by
  cases pc <;> simp [active] at h <;> exact ⟨rfl, rfl⟩

theorem applied_late {pc : Pc} {sec : Int} (h : ∀ a, active pc = some a → a.record.1 < sec) (f : Field) : applied f sec pc = 0 := by
  cases pc <;> try rfl
  all_goals
    have := h _ rfl
    simp only [applied]
    rw [if_neg (by omega)]

theorem others_free {s : State} (hI : Inv s) {i : Nat} {g : Gor} (hg : s.gors[i]? = some g) (hr : inRing g.pc = true) {j : Nat} {h : Gor}
    (hj : j ≠ i) (hh : s.gors[j]? = some h) : inRing h.pc = false := by
  rw [Bool.eq_false_iff]
  intro e
  have h1 := (hI.ok i g hg).ml hr
  have h2 := (hI.ok j h hh).ml e
  rw [h1] at h2
  exact hj (Option.some.inj h2).symm

theorem others_idle {s : State} (hI : Inv s) {i : Nat} {g : Gor} (hg : s.gors[i]? = some g) (hr : adding g.pc = true) {j : Nat} {h : Gor}
    (hj : j ≠ i) (hh : s.gors[j]? = some h) : adding h.pc = false := by
  rw [Bool.eq_false_iff]
  intro e
  have h1 := (hI.ok i g hg).gl hr
  have h2 := (hI.ok j h hh).gl e
  rw [h1] at h2
  exact hj (Option.some.inj h2).symm

theorem mem_of {s : State} {i : Nat} {g : Gor} (hg : s.gors[i]? = some g) : g ∈ s.gors := List.mem_of_getElem? hg

theorem get_zero (f : Field) : f.get {} = 0 := by cases f <;> rfl

theorem get_ext {b c : ValueBucket} (h : ∀ f : Field, f.get b = f.get c) : b = c := by
  have h1 := h .count
  have h2 := h .value
  cases b; cases c
  simp only [Field.get] at h1 h2
  subst h1 h2
  rfl

theorem Inv.located {s : State} (hI : Inv s) {i : Nat} {g : Gor} (hg : s.gors[i]? = some g) (job : Job)
    (hjob : g.pc = .clock job ∨ ∃ cur k, g.pc = .clearing job cur k none) (m : Meter ValueBucket)
    (htab : m.table = s.shared.meter.table) (hpos : m.pos = slot m.time) (htime : s.shared.meter.time ≤ m.time) (hnow : m.time ≤ s.shared.now)
    (hzero : ∀ sec, s.shared.meter.time < sec → sec ≤ m.time → s.shared.bucket (slot sec) = {}) :
    Inv ⟨(ConcurrentValue.located { s.shared with meter := m } g job).1, s.gors.set i (ConcurrentValue.located { s.shared with meter := m } g job).2⟩ := by
  have hring : inRing g.pc = true := by rcases hjob with h | ⟨_, _, h⟩ <;> rw [h] <;> rfl
  have hact : active g.pc = none := by rcases hjob with h | ⟨_, _, h⟩ <;> rw [h] <;> rfl
  have k := hI.ok i g hg
  have hb : ∀ q, Shared.bucket { s.shared with meter := m } q = s.shared.bucket q := by
    intro q; unfold Shared.bucket; rw [htab]
  have hbk : ∀ (f : Field) (sec : Int), s.shared.now - 301 < sec → sec ≤ m.time →
      f.get (s.shared.bucket (slot sec)) = sumOf f sec s.shared.returned + (s.gors.map fun g => applied f sec g.pc).sum := by
    intro f sec h1 h2
    by_cases h : sec ≤ s.shared.meter.time
    · exact hI.bk f sec h1 h
    · rw [hzero sec (by omega) h2, get_zero, sumOf_late f sec fun r hr => by have := hI.recs' r hr; omega,
        sum_zero]
      · rfl
      · intro h hh
        obtain ⟨j, hj⟩ := List.mem_iff_getElem?.mp hh
        refine applied_late (fun a ha => ?_) f
        have := ((hI.ok j h hj).ad a ha).1
        omega
  have hoth : ∀ (sh : Shared), sh.meter = m → sh.now = s.shared.now → sh.gLock = s.shared.gLock → sh.returned = s.shared.returned →
      s.shared.entered <+: sh.entered → ∀ j h, j ≠ i → s.gors[j]? = some h → Gok sh j h := by
    intro sh e1 e2 e3 e4 e5 j h hj hh
    have hf := others_free hI hg hring hj hh
    refine (hI.ok j h hh).keep ?_ ?_ ?_ ?_ ?_ ?_ ?_ e5
    · intro h'; rw [e3]; exact (hI.ok j h hh).gl h'
    · intro h'; rw [hf] at h'; simp at h'
    · rw [e2]
    · rw [e1]; exact htime
    · intro h'; rw [hf] at h'; simp at h'
    · intro a _; unfold Shared.bucket; rw [e1, htab]
    · rw [e4]
  cases job with
  | add e =>
    have hadd : adding g.pc = true := by rcases hjob with h | ⟨_, _, h⟩ <;> rw [h] <;> rfl
    refine hI.build hg (by show m.table.length = 301; rw [htab]; exact hI.len) hnow (fun _ => hpos) ?_ ?_ ?_ ?_ ?_ ?_
    · intro r hr
      rcases List.mem_append.mp hr with hr | hr
      · exact Int.le_trans (hI.recs r hr) htime
      · rw [List.mem_singleton.mp hr]; exact Int.le_refl _
    · exact fun r hr => Int.le_trans (hI.recs' r hr) htime
    · intro f sec h1 h2
      show f.get (Shared.bucket { s.shared with meter := m } _) = _
      rw [hb, (applied_idle hact f sec).1, hbk f sec h1 h2]
      show _ = sumOf f sec s.shared.returned + (_ - 0 + applied f sec (.load ⟨(m.time, e), m.pos⟩ .count))
      simp only [applied]
      rw [if_neg (by simp [Field.idx])]
      omega
    · intro f sec
      rw [(applied_idle hact f sec).2]
      show sumOf f sec (s.shared.entered ++ [(m.time, e)]) - _ = _ - _ - 0 + pending f sec (.load ⟨(m.time, e), m.pos⟩ .count)
      rw [sumOf_append, sumOf_one]
      simp only [pending]
      show _ = sumOf f sec s.shared.returned - _ - 0 + _
      omega
    · constructor
      · intro _; exact k.gl hadd
      · intro h; simp [ConcurrentValue.located, inRing] at h
      · intro job h; simp [ConcurrentValue.located] at h
      · intro job cur n w h; simp [ConcurrentValue.located] at h
      · intro a ha
        have : a = ⟨(m.time, e), m.pos⟩ := (Option.some.inj ha).symm
        rw [this]; exact ⟨Int.le_refl _, hpos⟩
      · intro a f v h; simp [ConcurrentValue.located] at h
      · intro b h; simp [ConcurrentValue.located, begunOf] at h
      · intro c f h; simp [ConcurrentValue.located] at h
      · exact k.rd
    · exact hoth _ rfl rfl rfl rfl ⟨_, rfl⟩
  | get period begun =>
    have hbeg : begun <+: s.shared.returned := k.bg begun (by rcases hjob with h | ⟨_, _, h⟩ <;> rw [h] <;> rfl)
    have hadd : adding g.pc = false := by rcases hjob with h | ⟨_, _, h⟩ <;> rw [h] <;> rfl
    simp only [ConcurrentValue.located]
    split
    · next h0 =>
      refine hI.build hg (by show m.table.length = 301; rw [htab]; exact hI.len) hnow (fun _ => hpos) ?_ ?_ ?_ ?_ ?_ ?_
      · exact fun r hr => Int.le_trans (hI.recs r hr) htime
      · exact fun r hr => Int.le_trans (hI.recs' r hr) htime
      · intro f sec h1 h2
        show f.get (Shared.bucket { s.shared with meter := m } _) = _
        rw [hb, (applied_idle hact f sec).1, hbk f sec h1 h2]
        simp only [applied]; omega
      · intro f sec
        rw [(applied_idle hact f sec).2]
        simp only [pending]; omega
      · constructor
        · intro h; simp [adding] at h
        · intro h; simp [inRing] at h
        · intro job h; simp at h
        · intro job cur n w h; simp at h
        · intro a ha; simp [active] at ha
        · intro a f v h; simp at h
        · intro b h; simp [begunOf] at h
        · intro c f h; simp at h
        · intro r hr
          rcases List.mem_append.mp hr with hr | hr
          · exact k.rd r hr
          · rw [List.mem_singleton.mp hr]
            intro f
            simp only [h0, total_zero]
            cases f <;> exact ⟨Int.le_refl _, Int.le_refl _⟩
      · exact hoth _ rfl rfl rfl rfl (List.prefix_refl _)
    · next h0 =>
      refine hI.build hg (by show m.table.length = 301; rw [htab]; exact hI.len) hnow (fun _ => hpos) ?_ ?_ ?_ ?_ ?_ ?_
      · exact fun r hr => Int.le_trans (hI.recs r hr) htime
      · exact fun r hr => Int.le_trans (hI.recs' r hr) htime
      · intro f sec h1 h2
        show f.get (Shared.bucket { s.shared with meter := m } _) = _
        rw [hb, (applied_idle hact f sec).1, hbk f sec h1 h2]
        simp only [applied]; omega
      · intro f sec
        rw [(applied_idle hact f sec).2]
        simp only [pending]; omega
      · constructor
        · intro h; simp [adding] at h
        · intro h; simp [inRing] at h
        · intro job h; simp at h
        · intro job cur n w h; simp at h
        · intro a ha; simp [active] at ha
        · intro a f v h; simp at h
        · intro b h
          simp only [begunOf, Option.some.injEq] at h
          rw [← h]; exact hbeg
        · intro c f h
          simp only [Pc.scan.injEq] at h
          obtain ⟨rfl, rfl⟩ := h
          refine ⟨Int.le_refl _, Nat.pos_of_ne_zero h0, Nat.le_refl _, ?_, fun h => ?_⟩
          · simpa using hpos
          · have : readSo ⟨period, m.time, begun, (Meter.check period).toNat, m.pos, 0, 0⟩ .value h = 0 := by
              simp [readSo, Field.ridx]
            rw [this, total_zero, total_zero]
            cases h <;> exact ⟨Int.le_refl _, Int.le_refl _⟩
        · exact k.rd
      · exact hoth _ rfl rfl rfl rfl (List.prefix_refl _)

theorem Inv.build0 {s : State} (hI : Inv s) {i : Nat} {g g' : Gor} (hg : s.gors[i]? = some g) {sh : Shared}
    (hact : active g.pc = none) (hact' : active g'.pc = none) (enow : sh.now = s.shared.now) (etime : sh.meter.time = s.shared.meter.time)
    (ebuck : ∀ sec, s.shared.now - 301 < sec → sec ≤ s.shared.meter.time → sh.bucket (slot sec) = s.shared.bucket (slot sec))
    (eret : sh.returned = s.shared.returned) (eent : sh.entered = s.shared.entered)
    (len : sh.meter.table.length = 301) (free : sh.mLock = none → sh.meter.pos = slot sh.meter.time)
    (me : Gok sh i g') (others : ∀ j h, j ≠ i → s.gors[j]? = some h → Gok sh j h) : Inv ⟨sh, s.gors.set i g'⟩ := by
  refine hI.build hg len (by rw [enow, etime]; exact hI.past) free (by rw [eent, etime]; exact hI.recs)
    (by rw [eret, etime]; exact hI.recs') ?_ ?_ me others
  · intro f sec h1 h2
    rw [enow] at h1; rw [etime] at h2
    rw [(applied_idle hact f sec).1, (applied_idle hact' f sec).1, ebuck sec h1 h2, eret]
    have := hI.bk f sec h1 h2
    omega
  · intro f sec
    rw [(applied_idle hact f sec).2, (applied_idle hact' f sec).2, eret, eent]; omega

theorem Inv.sum_le {s : State} (hI : Inv s) (f : Field) (sec : Int) (h1 : s.shared.now - 301 < sec) (h2 : sec ≤ s.shared.meter.time) :
    sumOf f sec s.shared.returned ≤ f.get (s.shared.bucket (slot sec)) ∧
    f.get (s.shared.bucket (slot sec)) ≤ sumOf f sec s.shared.entered := by
  rw [hI.bk f sec h1 h2, hI.en f sec]
  have a : ∀ l : List Gor, 0 ≤ (l.map fun g => applied f sec g.pc).sum ∧
      (l.map fun g => applied f sec g.pc).sum ≤ (l.map fun g => pending f sec g.pc).sum := by
    intro l
    induction l with
    | nil => exact ⟨Int.le_refl _, Int.le_refl _⟩
    | cons g l ih =>
      simp only [List.map_cons, List.sum_cons]
      have := applied_nonneg f sec g.pc
      have := applied_le f sec g.pc
      omega
  have := a s.gors
  omega

theorem plus_get (c : Scan) (v : Int) (f h : Field) : (c.plus v f).get h = c.get h + if f = h then v else 0 := by
  cases f <;> cases h <;> simp [Scan.plus, Scan.get]

/-- Where `Add` is after writing a field. -/
def after (a : Adding) : Field → Pc
  | .count => .load a .value
  | .value => .unlock a

theorem after_cases (a : Adding) (f : Field) : after a f = .load a .value ∨ after a f = .unlock a := by
  cases f
  · exact .inl rfl
  · exact .inr rfl

theorem after_applied (a : Adding) (f h : Field) (v sec : Int) :
    applied h sec (after a f) = applied h sec (.store a f v) + if f = h ∧ a.record.1 = sec then amount a.record h else 0 := by
  rcases a with ⟨⟨s, e⟩, pos⟩
  by_cases hs : s = sec
  · subst hs
    cases f <;> cases h <;> simp [after, applied, Field.idx, amount]
  · cases f <;> cases h <;> simp [after, applied, Field.idx, hs]

theorem after_pending (a : Adding) (f h : Field) (v sec : Int) : pending h sec (after a f) = pending h sec (.store a f v) := by
  rcases after_cases a f with e | e <;> rw [e] <;> rfl

/-- One step keeps the invariant. -/
theorem Inv.go {s : State} (hI : Inv s) (hT : Timely s) {i : Nat} {g : Gor} (hg : s.gors[i]? = some g) {sh : Shared} {g' : Gor}
    (hs : g.step s.shared i = some (sh, g')) : Inv ⟨sh, s.gors.set i g'⟩ := by
  have k := hI.ok i g hg
  have hmem := mem_of hg
  cases hp : g.pc with
  | idle =>
    have hact : active g.pc = none := by rw [hp]; rfl
    simp only [Gor.step, hp] at hs
    split at hs
    · simp at hs
    · split at hs
      · next e todo _ hfree =>
        injection hs with hs; injection hs with hs1 hs2; subst hs1 hs2
        refine hI.build0 hg hact rfl rfl rfl (fun _ _ _ => rfl) rfl rfl hI.len hI.free ?_ ?_
        · constructor
          · intro _; rfl
          · intro h; simp [inRing] at h
          · intro job h; simp at h
          · intro job cur n w h; simp at h
          · intro a ha; simp [active] at ha
          · intro a f v h; simp at h
          · intro b h; simp [begunOf] at h
          · intro c f h; simp at h
          · exact k.rd
        · intro j h hj hh
          have kj := hI.ok j h hh
          refine kj.keep ?_ kj.ml (Int.le_refl _) (Int.le_refl _) (fun _ => ⟨rfl, rfl, fun _ _ _ => rfl⟩) (fun _ _ => rfl)
            (List.prefix_refl _) (List.prefix_refl _)
          intro ha
          rw [kj.gl ha] at hfree; simp at hfree
      · simp at hs
    · next period todo _ =>
      injection hs with hs; injection hs with hs1 hs2; subst hs1 hs2
      refine hI.build0 hg hact rfl rfl rfl (fun _ _ _ => rfl) rfl rfl hI.len hI.free ?_ (fun j h _ hh => hI.ok j h hh)
      · constructor
        · intro h; simp [adding] at h
        · intro h; simp [inRing] at h
        · intro job h; simp at h
        · intro job cur n w h; simp at h
        · intro a ha; simp [active] at ha
        · intro a f v h; simp at h
        · intro b h
          simp only [begunOf, Option.some.injEq] at h
          rw [← h]
        · intro c f h; simp at h
        · exact k.rd
  | position job =>
    have hact : active g.pc = none := by rw [hp]; rfl
    simp only [Gor.step, hp] at hs
    split at hs
    · next hfree =>
      injection hs with hs; injection hs with hs1 hs2; subst hs1 hs2
      refine hI.build0 hg hact rfl rfl rfl (fun _ _ _ => rfl) rfl rfl hI.len (fun h => by simp at h) ?_ ?_
      · constructor
        · intro h
          refine k.gl ?_
          rw [hp]
          cases job <;> simp_all [adding]
        · intro _; rfl
        · intro _ _; exact hI.free hfree
        · intro job cur n w h; simp at h
        · intro a ha; simp [active] at ha
        · intro a f v h; simp at h
        · intro b h
          refine k.bg b ?_
          rw [hp]
          cases job <;> simp_all [begunOf]
        · intro c f h; simp at h
        · exact k.rd
      · intro j h hj hh
        have kj := hI.ok j h hh
        refine kj.keep kj.gl ?_ (Int.le_refl _) (Int.le_refl _) (fun _ => ⟨rfl, rfl, fun _ _ _ => rfl⟩) (fun _ _ => rfl)
          (List.prefix_refl _) (List.prefix_refl _)
        intro ha
        rw [kj.ml ha] at hfree; simp at hfree
    · simp at hs
  | clock job =>
    have hact : active g.pc = none := by rw [hp]; rfl
    have hpos := k.ck job hp
    simp only [Gor.step, hp] at hs
    split at hs
    · next hnow =>
      injection hs with hs
      have hs1 := congrArg Prod.fst hs
      have hs2 := congrArg Prod.snd hs
      simp only at hs1 hs2
      rw [← hs1, ← hs2]
      exact hI.located hg job (.inl hp) s.shared.meter rfl hpos (Int.le_refl _) hI.past (fun sec h1 h2 => by omega)
    · next hnow =>
      injection hs with hs; injection hs with hs1 hs2; subst hs1 hs2
      refine hI.build0 hg hact rfl rfl rfl (fun _ _ _ => rfl) rfl rfl hI.len hI.free ?_ (fun j h _ hh => hI.ok j h hh)
      · have hpast := hI.past
        constructor
        · intro h
          refine k.gl ?_
          rw [hp]
          cases job <;> simp_all [adding]
        · intro _; exact k.ml (by rw [hp]; rfl)
        · intro _ h; simp at h
        · intro job cur n w h
          simp only [Pc.clearing.injEq] at h
          obtain ⟨-, rfl, rfl, rfl⟩ := h
          refine ⟨by omega, Int.le_refl _, by simp [ahead]; omega, by simp [ahead], by simpa [ahead] using hpos, fun sec h1 h2 => ?_,
            fun f hf => by simp at hf⟩
          simp at h2; omega
        · intro a ha; simp [active] at ha
        · intro a f v h; simp at h
        · intro b h
          refine k.bg b ?_
          rw [hp]
          cases job <;> simp_all [begunOf]
        · intro c f h; simp at h
        · exact k.rd
  | clearing job cur n w =>
    have hact : active g.pc = none := by rw [hp]; rfl
    have hring : inRing g.pc = true := by rw [hp]; rfl
    obtain ⟨c1, c2, c3, c4, c5, c6, c7⟩ := k.cl job cur n w hp
    have hlocked : ¬ s.shared.mLock = none := by
      intro h
      have := k.ml hring
      rw [h] at this; simp at this
    cases w with
    | some f =>
    simp only [ahead] at c3 c4 c5
    simp only [Gor.step, hp] at hs
    injection hs with hs; injection hs with hs1 hs2
    change wiped s.shared f = sh at hs1
    have hbuck : ∀ q, q < 301 → (wiped s.shared f).bucket q = if s.shared.meter.pos = q then f.set (s.shared.bucket q) 0 else s.shared.bucket q := by
      intro q hq
      exact bucket_modify s.shared s.shared.meter.pos q (fun b => f.set b 0) (by rw [hI.len]; exact hq) _ rfl
    have hsafe : ∀ sec, s.shared.now - 301 < sec → sec ≤ s.shared.meter.time →
        (wiped s.shared f).bucket (slot sec) = s.shared.bucket (slot sec) := by
      intro sec h1 h2
      rw [hbuck _ (slot_lt _), if_neg]
      rw [c5]
      refine (slot_ne ?_ ?_).symm <;> push_cast at c3 ⊢ <;> omega
    have hmine : ∀ h : Field, h.cidx ≤ f.cidx → h.get ((wiped s.shared f).bucket s.shared.meter.pos) = 0 := by
      intro h hh
      rw [hbuck _ (by rw [c5]; exact slot_lt _), if_pos rfl, get_set]
      split
      · rfl
      · next hne =>
        refine c7 f rfl h ?_
        cases f <;> cases h <;> simp_all [Field.cidx]
    subst hs1
    have hothers : ∀ j h, j ≠ i → s.gors[j]? = some h → Gok (wiped s.shared f) j h := by
      intro j h hj hh
      have kj := hI.ok j h hh
      have hf := others_free hI hg hring hj hh
      refine kj.keep kj.gl kj.ml (Int.le_refl _) (Int.le_refl _) (fun h' => by rw [hf] at h'; simp at h') ?_
        (List.prefix_refl _) (List.prefix_refl _)
      intro a ha
      rw [(kj.ad a ha).2]
      refine hsafe _ ?_ (kj.ad a ha).1
      have := late hT (mem_of hh) ha
      omega
    have hact' : active g'.pc = none := by rw [← hs2]; cases f <;> rfl
    refine hI.build0 hg hact hact' rfl rfl hsafe rfl rfl (by show (List.modify _ _ _).length = _; rw [List.length_modify]; exact hI.len)
      (fun h => absurd h hlocked) ?_ hothers
    subst hs2
    constructor
    · intro h
      refine k.gl ?_
      rw [hp]
      cases job <;> cases f <;> simp_all [adding]
    · intro _; exact k.ml (by rw [hp]; rfl)
    · intro _ h; cases f <;> simp at h
    · intro job cur' n' w' h
      cases f with
      | value =>
        simp only [Pc.clearing.injEq] at h
        obtain ⟨-, rfl, rfl, rfl⟩ := h
        refine ⟨c1, c2, c3, c4, c5, fun sec h1 h2 => ?_, fun f hf h hh => ?_⟩
        · have h1 : s.shared.meter.time < sec := h1
          have h2 : sec ≤ s.shared.meter.time + n := h2
          rw [hbuck _ (slot_lt _), if_neg, c6 sec h1 h2]
          rw [c5]
          refine (slot_ne ?_ ?_).symm <;> push_cast at c3 ⊢ <;> omega
        · injection hf with hf; subst hf
          exact hmine h (by cases h <;> simp_all [Field.cidx])
      | count =>
        simp only [Pc.clearing.injEq] at h
        obtain ⟨-, rfl, rfl, rfl⟩ := h
        refine ⟨c1, c2, c3, c4, c5, fun sec h1 h2 => ?_, fun f hf => by simp at hf⟩
        have h1 : s.shared.meter.time < sec := h1
        have h2 : sec ≤ s.shared.meter.time + (n + 1 : Nat) := h2
        by_cases he : sec = s.shared.meter.time + (n + 1 : Nat)
        · rw [he, ← c5]
          exact get_ext fun h => (hmine h (by cases h <;> simp [Field.cidx])).trans (get_zero h).symm
        · rw [hbuck _ (slot_lt _), if_neg, c6 sec h1 (by push_cast at h2 he; omega)]
          rw [c5]
          refine (slot_ne ?_ ?_).symm <;> push_cast at c3 h2 he ⊢ <;> omega
    · intro a ha; cases f <;> simp [active] at ha
    · intro a f' v h; cases f <;> simp at h
    · intro b h
      refine k.bg b ?_
      rw [hp]
      cases job <;> cases f <;> simp_all [begunOf]
    · intro c f' h; cases f <;> simp at h
    · cases f <;> exact k.rd
    | none =>
    simp only [ahead] at c3 c4 c5
    simp only [Gor.step, hp] at hs
    split at hs
    · next hlt =>
      rw [show bucketSize = 301 from rfl] at hlt
      injection hs with hs; injection hs with hs1 hs2
      have hpos' : nextPos s.shared.meter.pos = slot (s.shared.meter.time + (n + 1 : Nat)) := by
        show (if s.shared.meter.pos + 1 > 301 - 1 then 0 else s.shared.meter.pos + 1) = _
        rw [c5, slot_next]
        congr 1
        push_cast; omega
      subst hs1 hs2
      refine hI.build0 hg hact rfl rfl rfl (fun _ _ _ => rfl) rfl rfl hI.len (fun h => absurd h hlocked) ?_ ?_
      · constructor
        · intro h
          refine k.gl ?_
          rw [hp]
          cases job <;> simp_all [adding]
        · intro _; exact k.ml (by rw [hp]; rfl)
        · intro _ h; simp at h
        · intro job cur' n' w' h
          simp only [Pc.clearing.injEq] at h
          obtain ⟨-, rfl, rfl, rfl⟩ := h
          refine ⟨c1, c2, ?_, by simp only [ahead]; omega, hpos', c6, fun f hf h hh => ?_⟩
          · show ((n + 1 : Nat) : Int) ≤ cur - s.shared.meter.time
            push_cast; omega
          · injection hf with hf; subst hf
            cases h <;> simp [Field.cidx] at hh
        · intro a ha; simp [active] at ha
        · intro a f v h; simp at h
        · intro b h
          refine k.bg b ?_
          rw [hp]
          cases job <;> simp_all [begunOf]
        · intro c f h; simp at h
        · exact k.rd
      · intro j h hj hh
        have kj := hI.ok j h hh
        have hf := others_free hI hg hring hj hh
        exact kj.keep kj.gl kj.ml (Int.le_refl _) (Int.le_refl _) (fun h' => by rw [hf] at h'; simp at h') (fun _ _ => rfl)
          (List.prefix_refl _) (List.prefix_refl _)
    · next hge =>
      rw [show bucketSize = 301 from rfl] at hge
      injection hs with hs
      have hs1 := congrArg Prod.fst hs
      have hs2 := congrArg Prod.snd hs
      simp only at hs1 hs2
      rw [← hs1, ← hs2]
      refine hI.located hg job (.inr ⟨cur, n, hp⟩) { s.shared.meter with time := cur, pos := (cur % bucketSize).toNat } rfl rfl (by
        show s.shared.meter.time ≤ cur; omega) c2 ?_
      intro sec h1 h2
      have h2 : sec ≤ cur := h2
      by_cases hn : (n : Int) = cur - s.shared.meter.time
      · exact c6 sec h1 (by omega)
      · have hn : n = 301 := by omega
        have hrep : slot sec = slot (s.shared.meter.time + 1 + (sec - s.shared.meter.time - 1) % 301) := by
          unfold slot; omega
        rw [hrep]
        refine c6 _ ?_ ?_ <;> omega
  | load a f =>
    simp only [Gor.step, hp] at hs
    injection hs with hs; injection hs with hs1 hs2; subst hs1 hs2
    refine hI.build hg hI.len hI.past hI.free hI.recs hI.recs' ?_ ?_ ?_ (fun j h _ hh => hI.ok j h hh)
    · intro f' sec h1 h2
      have := hI.bk f' sec h1 h2
      have e : applied f' sec (.store a f (f.get (s.shared.bucket a.pos))) = applied f' sec (.load a f) := rfl
      rw [hp, e]; omega
    · intro f' sec
      have e : pending f' sec (.store a f (f.get (s.shared.bucket a.pos))) = pending f' sec (.load a f) := rfl
      rw [hp, e]; omega
    · constructor
      · intro _; exact k.gl (by rw [hp]; rfl)
      · intro h; simp [inRing] at h
      · intro job h; simp at h
      · intro job cur n w h; simp at h
      · intro a' ha; exact k.ad a' (by rw [hp]; exact ha)
      · intro a' f' v h
        simp only [Pc.store.injEq] at h
        obtain ⟨rfl, rfl, rfl⟩ := h
        rfl
      · intro b h; simp [begunOf] at h
      · intro c f h; simp at h
      · exact k.rd
  | store a f v =>
    have hadd : adding g.pc = true := by rw [hp]; rfl
    have hact : active g.pc = some a := by rw [hp]; rfl
    obtain ⟨ha1, ha2⟩ := k.ad a hact
    have hv := k.st a f v hp
    have hlate := late hT hmem hact
    simp only [Gor.step, hp] at hs
    injection hs with hs; injection hs with hs1 hs2
    have hbuck : ∀ q, q < 301 → sh.bucket q =
        if a.pos = q then f.set (s.shared.bucket q) (v + amount a.record f) else s.shared.bucket q := by
      intro q hq
      rw [← hs1]
      exact bucket_modify s.shared a.pos q (fun b => f.set b (v + amount a.record f)) (by rw [hI.len]; exact hq) _ rfl
    have hpc : g'.pc = after a f := by rw [← hs2]; cases f <;> rfl
    have hrd : g'.readings = g.readings := by rw [← hs2]
    have hcs := after_cases a f
    rw [← hpc] at hcs
    have hact' : active g'.pc = some a := by
      rcases hcs with e | e <;> rw [e] <;> rfl
    have happ : ∀ (h : Field) (sec : Int), applied h sec g'.pc = applied h sec g.pc + if f = h ∧ a.record.1 = sec then amount a.record h else 0 := by
      intro h sec; rw [hpc, hp]; exact after_applied a f h v sec
    have hpend : ∀ (h : Field) (sec : Int), pending h sec g'.pc = pending h sec g.pc := by
      intro h sec; rw [hpc, hp]; exact after_pending a f h v sec
    have hpast := hI.past
    have e1 : sh.now = s.shared.now := by rw [← hs1]
    have e2 : sh.meter.time = s.shared.meter.time := by rw [← hs1]
    have e3 : sh.meter.pos = s.shared.meter.pos := by rw [← hs1]
    have e4 : sh.gLock = s.shared.gLock := by rw [← hs1]
    have e5 : sh.mLock = s.shared.mLock := by rw [← hs1]
    have e6 : sh.entered = s.shared.entered := by rw [← hs1]
    have e7 : sh.returned = s.shared.returned := by rw [← hs1]
    have e8 : sh.meter.table.length = 301 := by rw [← hs1]; simpa using hI.len
    refine hI.build hg e8 (by rw [e1, e2]; exact hI.past) (by rw [e5, e3, e2]; exact hI.free) (by rw [e6, e2]; exact hI.recs)
      (by rw [e7, e2]; exact hI.recs') ?_ ?_ ?_ ?_
    · intro h sec h1 h2
      rw [e1] at h1; rw [e2] at h2
      have hb := hI.bk h sec h1 h2
      rw [e7, happ, hbuck _ (slot_lt _)]
      by_cases hsec : a.record.1 = sec
      · rw [← hsec] at hb ⊢
        rw [if_pos ha2, get_set]
        by_cases hf : f = h
        · rw [if_pos hf, if_pos ⟨hf, rfl⟩]
          subst hf
          rw [hv, ha2]
          omega
        · rw [if_neg hf, if_neg (fun e => hf e.1)]; omega
      · have : a.pos ≠ slot sec := by
          rw [ha2]
          rcases Int.lt_or_gt_of_ne hsec with h | h
          · exact slot_ne h (by omega)
          · exact (slot_ne h (by omega)).symm
        rw [if_neg this, if_neg (fun e => hsec e.2)]; omega
    · intro h sec
      rw [e6, e7, hpend]; omega
    · constructor
      · intro _; rw [e4]; exact k.gl hadd
      · intro h; rcases hcs with e | e <;> rw [e] at h <;> simp [inRing] at h
      · intro job h; rcases hcs with e | e <;> rw [e] at h <;> simp at h
      · intro job cur n w h; rcases hcs with e | e <;> rw [e] at h <;> simp at h
      · intro a' ha'
        rw [hact'] at ha'
        rw [← Option.some.inj ha', e2]
        exact ⟨ha1, ha2⟩
      · intro a' f' v' h; rcases hcs with e | e <;> rw [e] at h <;> simp at h
      · intro b h; rcases hcs with e | e <;> rw [e] at h <;> simp [begunOf] at h
      · intro c f' h; rcases hcs with e | e <;> rw [e] at h <;> simp at h
      · rw [hrd]; exact k.rd
    · intro j h hj hh
      have kj := hI.ok j h hh
      have hf := others_idle hI hg hadd hj hh
      refine kj.keep (by rw [e4]; exact kj.gl) (by rw [e5]; exact kj.ml) (by rw [e1]) (by rw [e2]) ?_ ?_
        (by rw [e7]) (by rw [e6])
      · intro _
        refine ⟨e2, e3, fun sec h1 h2 => ?_⟩
        rw [hbuck _ (slot_lt _), if_neg]
        rw [ha2]
        exact slot_ne (by omega) (by omega)
      · intro a' ha'
        rw [active_adding ha'] at hf; simp at hf
  | unlock a =>
    have hadd : adding g.pc = true := by rw [hp]; rfl
    have hact : active g.pc = some a := by rw [hp]; rfl
    obtain ⟨ha1, ha2⟩ := k.ad a hact
    simp only [Gor.step, hp] at hs
    injection hs with hs; injection hs with hs1 hs2; subst hs1 hs2
    refine hI.build hg hI.len hI.past hI.free hI.recs ?_ ?_ ?_ ?_ ?_
    · intro r hr
      rcases List.mem_append.mp hr with hr | hr
      · exact hI.recs' r hr
      · rw [List.mem_singleton.mp hr]; exact ha1
    · intro f sec h1 h2
      have := hI.bk f sec h1 h2
      have e : applied f sec (.unlock a) = if a.record.1 = sec then amount a.record f else 0 := rfl
      have e' : applied f sec .idle = 0 := rfl
      rw [hp, sumOf_append, sumOf_one, e, e']
      show f.get (s.shared.bucket _) = _
      omega
    · intro f sec
      have e : pending f sec (.unlock a) = if a.record.1 = sec then amount a.record f else 0 := rfl
      have e' : pending f sec .idle = 0 := rfl
      rw [hp, sumOf_append, sumOf_one, e, e']
      show sumOf f sec s.shared.entered - _ = _
      omega
    · constructor
      · intro h; simp [adding] at h
      · intro h; simp [inRing] at h
      · intro job h; simp at h
      · intro job cur n w h; simp at h
      · intro a ha; simp [active] at ha
      · intro a f v h; simp at h
      · intro b h; simp [begunOf] at h
      · intro c f h; simp at h
      · exact k.rd
    · intro j h hj hh
      have kj := hI.ok j h hh
      have hf := others_idle hI hg hadd hj hh
      exact kj.keep (fun h' => by rw [hf] at h'; simp at h') kj.ml (Int.le_refl _) (Int.le_refl _) (fun _ => ⟨rfl, rfl, fun _ _ _ => rfl⟩)
        (fun _ _ => rfl) ⟨_, rfl⟩ (List.prefix_refl _)
  | scan c f =>
    have hact : active g.pc = none := by rw [hp]; rfl
    obtain ⟨s1, s2, s3, s4, s5⟩ := k.sc c f hp
    have hbeg := k.bg c.begun (by rw [hp]; rfl)
    have hdead : s.shared.now ≤ c.second + 301 - min c.period 300 := hT g hmem _ (by rw [hp]; rfl)
    obtain ⟨q1, q2⟩ := check_le c.period
    have hwin : s.shared.now - 301 < c.second - ((Meter.check c.period).toNat - c.left : Nat) := by omega
    have hle : c.second - ((Meter.check c.period).toNat - c.left : Nat) ≤ s.shared.meter.time := by omega
    obtain ⟨b1, b2⟩ := hI.sum_le f _ hwin hle
    rw [← s4] at b1 b2
    have b0 := sumOf_prefix f (c.second - ((Meter.check c.period).toNat - c.left : Nat)) hbeg
    generalize hV : f.get (s.shared.bucket c.pos) = V at *
    -- after this reading
    have hread : ∀ h : Field,
        total h c.second ((Meter.check c.period).toNat - c.left + if h.ridx ≤ f.ridx then 1 else 0) c.begun ≤ (c.plus V f).get h ∧
        (c.plus V f).get h ≤ total h c.second ((Meter.check c.period).toNat - c.left + if h.ridx ≤ f.ridx then 1 else 0) s.shared.entered := by
      intro h
      rw [plus_get]
      have := s5 h
      unfold readSo at this
      by_cases e : f = h
      · subst e
        rw [if_pos (Nat.le_refl _), if_pos rfl, total_succ, total_succ]
        rw [if_neg (Nat.lt_irrefl _), Nat.add_zero] at this
        omega
      · rw [if_neg e]
        have : h.ridx ≤ f.ridx ↔ h.ridx < f.ridx := by cases f <;> cases h <;> simp_all [Field.ridx]
        simp only [this]
        omega
    simp only [Gor.step, hp, hV] at hs
    injection hs with hs; injection hs with hs1 hs2
    subst hs1
    have hothers : ∀ j h, j ≠ i → s.gors[j]? = some h → Gok s.shared j h := fun j h _ hh => hI.ok j h hh
    have hcont : ∀ (c' : Scan) (f' : Field), g'.pc = .scan c' f' → active g'.pc = none := by intro c' f' h; rw [h]; rfl
    have hbuild : active g'.pc = none → Gok s.shared i g' → Inv ⟨s.shared, s.gors.set i g'⟩ := by
      intro hn hk
      refine hI.build hg hI.len hI.past hI.free hI.recs hI.recs' ?_ ?_ hk hothers
      · intro f sec h1 h2
        rw [(applied_idle hact f sec).1, (applied_idle hn f sec).1]
        have := hI.bk f sec h1 h2
        omega
      · intro f sec
        rw [(applied_idle hact f sec).2, (applied_idle hn f sec).2]; omega
    have hgo : ∀ (c' : Scan) (f' : Field), g'.pc = .scan c' f' → g'.readings = g.readings → c'.second = c.second → c'.period = c.period →
        c'.begun = c.begun → 1 ≤ c'.left → c'.left ≤ (Meter.check c.period).toNat →
        c'.pos = slot (c.second - ((Meter.check c.period).toNat - c'.left : Nat)) →
        (∀ h : Field, total h c.second (readSo c' f' h) c.begun ≤ c'.get h ∧ c'.get h ≤ total h c.second (readSo c' f' h) s.shared.entered) →
        Inv ⟨s.shared, s.gors.set i g'⟩ := by
      intro c' f' hpc hrd r1 r2 r3 r4 r5 r6 r7
      refine hbuild (by rw [hpc]; rfl) ?_
      constructor
      · intro h; rw [hpc] at h; simp [adding] at h
      · intro h; rw [hpc] at h; simp [inRing] at h
      · intro job h; rw [hpc] at h; simp at h
      · intro job cur n w h; rw [hpc] at h; simp at h
      · intro a ha; rw [hpc] at ha; simp [active] at ha
      · intro a f v h; rw [hpc] at h; simp at h
      · intro b h
        rw [hpc] at h
        simp only [begunOf, Option.some.injEq] at h
        rw [← h, r3]; exact hbeg
      · intro c'' f'' h
        rw [hpc] at h
        simp only [Pc.scan.injEq] at h
        obtain ⟨rfl, rfl⟩ := h
        rw [r1, r2, r3]
        exact ⟨s1, r4, r5, r6, r7⟩
      · rw [hrd]; exact k.rd
    cases f with
    | value =>
      refine hgo (c.plus V .value) .count (by rw [← hs2]) (by rw [← hs2]) rfl rfl rfl s2 s3 s4 ?_
      intro h
      have := hread h
      have e : readSo (c.plus V .value) .count h = (Meter.check c.period).toNat - c.left + if h.ridx ≤ Field.value.ridx then 1 else 0 := by
        cases h <;> rfl
      rw [e]; exact this
    | count =>
      have hread' : ∀ h : Field, total h c.second ((Meter.check c.period).toNat - c.left + 1) c.begun ≤ (c.plus V .count).get h ∧
          (c.plus V .count).get h ≤ total h c.second ((Meter.check c.period).toNat - c.left + 1) s.shared.entered := by
        intro h
        have := hread h
        rwa [if_pos (by cases h <;> decide)] at this
      by_cases hl : c.left = 1
      · have hs2 : g' = { g with pc := .idle, readings := g.readings ++
            [⟨c.period, c.second, c.begun, s.shared.entered, c.count + V, c.sum⟩] } := by
          rw [← hs2]
          exact if_pos hl
        refine hbuild (by rw [hs2]; rfl) ?_
        rw [hs2]
        constructor
        · intro h; simp [adding] at h
        · intro h; simp [inRing] at h
        · intro job h; simp at h
        · intro job cur n w h; simp at h
        · intro a ha; simp [active] at ha
        · intro a f v h; simp at h
        · intro b h; simp [begunOf] at h
        · intro c f h; simp at h
        · intro r hr
          rcases List.mem_append.mp hr with hr | hr
          · exact k.rd r hr
          · rw [List.mem_singleton.mp hr]
            intro h
            have := hread' h
            rw [show (Meter.check c.period).toNat - c.left + 1 = (Meter.check c.period).toNat by omega] at this
            cases h <;> exact this
      · refine hgo { c.plus V .count with left := c.left - 1, pos := Meter.stepBack c.pos } .value ?_ ?_ rfl rfl rfl
          (by show 1 ≤ c.left - 1; omega) (by show c.left - 1 ≤ _; omega) ?_ ?_
        · rw [← hs2]; exact congrArg Gor.pc (if_neg hl)
        · rw [← hs2]; exact (congrArg Gor.readings (if_neg hl : advance s.shared g (c.plus V .count) = _)).trans rfl
        · show Meter.stepBack c.pos = slot (c.second - ((Meter.check c.period).toNat - (c.left - 1) : Nat))
          rw [s4, slot_back]
          congr 1
          omega
        · intro h
          have := hread' h
          have e : readSo { c.plus V .count with left := c.left - 1, pos := Meter.stepBack c.pos } .value h =
              (Meter.check c.period).toNat - c.left + 1 := by
            unfold readSo
            rw [if_neg (by cases h <;> decide)]
            show (Meter.check c.period).toNat - (c.left - 1) + 0 = _
            omega
          rw [e]
          cases h <;> exact this

theorem Inv.fire {s : State} (hI : Inv s) (hT : Timely s) (e : Event) : Inv (s.fire e) := by
  cases e with
  | tick =>
    refine ⟨hI.len, Int.le_trans hI.past (by show s.shared.now ≤ s.shared.now + 1; omega), hI.free, hI.recs, hI.recs', ?_, hI.en, ?_⟩
    · intro f sec h1 h2
      exact hI.bk f sec (by have h1 : s.shared.now + 1 - 301 < sec := h1; omega) h2
    · intro i g hg
      have k := hI.ok i g hg
      exact k.keep k.gl k.ml (by show s.shared.now ≤ s.shared.now + 1; omega) (Int.le_refl _) (fun _ => ⟨rfl, rfl, fun _ _ _ => rfl⟩)
        (fun _ _ => rfl) (List.prefix_refl _) (List.prefix_refl _)
  | go i =>
    simp only [State.fire]
    cases hg : s.gors[i]? with
    | none => exact hI
    | some g =>
      simp only []
      cases hs : g.step s.shared i with
      | none => exact hI
      | some r => exact hI.go hT hg hs

theorem Inv.start (t0 : Int) (todos : List (List Call)) : Inv (State.start t0 todos) := by
  have hpc : ∀ g ∈ (State.start t0 todos).gors, g.pc = .idle ∧ g.readings = [] := by
    intro g hg
    obtain ⟨t, -, rfl⟩ := List.mem_map.mp hg
    exact ⟨rfl, rfl⟩
  have hsum : ∀ (v : Pc → Int), v .idle = 0 → ((State.start t0 todos).gors.map fun g => v g.pc).sum = 0 := by
    intro v hv
    exact sum_zero _ _ fun g hg => by rw [(hpc g hg).1, hv]
  refine ⟨List.length_replicate, Int.le_refl _, fun _ => rfl, by intro r h; simp [State.start] at h, by intro r h; simp [State.start] at h, ?_, ?_, ?_⟩
  · intro f sec _ _
    have e : (State.start t0 todos).shared.bucket (slot sec) = {} := by
      show ((List.replicate 301 ({} : ValueBucket))[slot sec]?).getD {} = {}
      rw [List.getElem?_replicate, if_pos (slot_lt _)]; rfl
    rw [e, get_zero, hsum (applied f sec) rfl]; rfl
  · intro f sec
    rw [hsum (pending f sec) rfl]; rfl
  · intro i g hg
    obtain ⟨h1, h2⟩ := hpc g (mem_of hg)
    constructor
    · intro h; rw [h1] at h; simp [adding] at h
    · intro h; rw [h1] at h; simp [inRing] at h
    · intro job h; rw [h1] at h; simp at h
    · intro job cur n w h; rw [h1] at h; simp at h
    · intro a ha; rw [h1] at ha; simp [active] at ha
    · intro a f v h; rw [h1] at h; simp at h
    · intro b h; rw [h1] at h; simp [begunOf] at h
    · intro c f h; rw [h1] at h; simp at h
    · intro r hr; rw [h2] at hr; simp at hr

theorem run_snoc (s : State) (es : List Event) (e : Event) : s.run (es ++ [e]) = (s.run es).fire e := by
  simp [State.run]

theorem Inv.run {t0 : Int} {todos : List (List Call)} {es : List Event} (hT : AllTimely (State.start t0 todos) es) :
    Inv ((State.start t0 todos).run es) := by
  induction es using List.reverseRecOn with
  | nil => exact Inv.start t0 todos
  | append_singleton es e ih =>
    rw [run_snoc]
    refine (ih fun n => ?_).fire ?_ e
    · by_cases h : n ≤ es.length
      · have := hT n
        rwa [List.take_append_of_le_length h] at this
      · have := hT es.length
        rw [List.take_append_of_le_length (Nat.le_refl _), List.take_length] at this
        rwa [List.take_of_length_le (by omega)]
    · have := hT es.length
      rwa [List.take_append_of_le_length (Nat.le_refl _), List.take_length] at this

/-! ## The sum is never ahead of the count -/

/-- No recorded value of the `p` seconds up to `T` is above `M`. -/
def Under (M : Nat) (T p : Int) (rs : List Rec) : Prop := ∀ v ∈ window T (min p 300) rs, v ≤ M

theorem Under.prefix {M : Nat} {T p : Int} {a b : List Rec} (h : Under M T p b) (hp : a <+: b) : Under M T p a := by
  obtain ⟨t, rfl⟩ := hp
  intro v hv
  refine h v ?_
  unfold window at hv ⊢
  rw [List.filter_append, List.map_append]
  exact List.mem_append_left _ hv

theorem Under.at {M : Nat} {T p : Int} {rs : List Rec} (h : Under M T p rs) {r : Rec} (hr : r ∈ rs) (h1 : T - min p 300 < r.1) (h2 : r.1 ≤ T) :
    r.2 ≤ M := by
  refine h r.2 ?_
  unfold window
  exact List.mem_map.mpr ⟨r, List.mem_filter.mpr ⟨hr, by simp only [decide_eq_true_eq]; omega⟩, rfl⟩

structure Capped (s : State) : Prop where
  sub : ∀ r ∈ s.shared.returned, r ∈ s.shared.entered
  act : ∀ g ∈ s.gors, ∀ a, active g.pc = some a → a.record ∈ s.shared.entered
  sc : ∀ g ∈ s.gors, ∀ c f, g.pc = .scan c f → ∀ M : Nat, Under M c.second c.period s.shared.entered →
    c.sum ≤ M * (c.count + if f = .count then (s.shared.bucket c.pos).count else 0)
  rd : ∀ g ∈ s.gors, ∀ r ∈ g.readings, ∀ M : Nat, Under M r.second r.period r.ended → r.sum ≤ M * r.count

theorem sum_cap (M : Nat) (sec : Int) (rs : List Rec) (h : ∀ r ∈ rs, r.1 = sec → r.2 ≤ M) : sumOf .value sec rs ≤ M * sumOf .count sec rs := by
  induction rs with
  | nil => simp [sumOf]
  | cons r rs ih =>
    rw [show r :: rs = [r] ++ rs from rfl, sumOf_append, sumOf_append, sumOf_one, sumOf_one, Int.mul_add]
    have h1 := ih fun r hr => h r (by simp [hr])
    have h2 := h r (by simp)
    split
    · next e =>
      have := h2 e
      simp only [amount]; omega
    · omega

theorem bucket_cap {s : State} (hI : Inv s) (hC : Capped s) (M : Nat) (sec : Int) (h1 : s.shared.now - 301 < sec)
    (h2 : sec ≤ s.shared.meter.time) (hM : ∀ r ∈ s.shared.entered, r.1 = sec → r.2 ≤ M) :
    (s.shared.bucket (slot sec)).value ≤ M * (s.shared.bucket (slot sec)).count := by
  have a := hI.bk .value sec h1 h2
  have b := hI.bk .count sec h1 h2
  simp only [Field.get] at a b
  rw [a, b, Int.mul_add]
  have c := sum_cap M sec s.shared.returned fun r hr => hM r (hC.sub r hr)
  have d : ∀ l : List Gor, (∀ g ∈ l, g ∈ s.gors) →
      (l.map fun g => applied .value sec g.pc).sum ≤ M * (l.map fun g => applied .count sec g.pc).sum := by
    intro l hl
    induction l with
    | nil => simp
    | cons g l ih =>
      rw [List.map_cons, List.sum_cons, List.map_cons, List.sum_cons, Int.mul_add]
      have := ih fun g hg => hl g (by simp [hg])
      have hg : applied .value sec g.pc ≤ M * applied .count sec g.pc := by
        have hm := hl g (by simp)
        have h0 : ∀ (r : Rec) (f : Field), (if r.1 = sec ∧ Field.value.idx < f.idx then amount r .value else 0) ≤
            (M : Int) * (if r.1 = sec ∧ Field.count.idx < f.idx then amount r .count else 0) := by
          intro r f
          rw [if_neg (fun h => absurd h.2 (by cases f <;> simp [Field.idx]))]
          split <;> simp [amount]
        cases hp : g.pc <;> simp only [applied] <;> first | exact h0 _ _ | skip
        all_goals try omega
        · next a =>
          split
          · next e =>
            have := hM a.record (hC.act g hm a (by rw [hp]; rfl)) e
            simp only [amount]; omega
          · omega
      omega
  have := d s.gors fun g hg => hg
  omega

theorem located_mono (s : Shared) (g : Gor) (job : Job) :
    s.entered <+: (ConcurrentValue.located s g job).1.entered ∧ (ConcurrentValue.located s g job).1.meter = s.meter := by
  cases job with
  | add v => exact ⟨⟨_, rfl⟩, rfl⟩
  | get p b =>
    simp only [ConcurrentValue.located]
    split <;> exact ⟨List.prefix_refl _, rfl⟩

/-- What a step cannot take back. -/
theorem step_mono {s : State} (hI : Inv s) (hT : Timely s) {i : Nat} {g : Gor} (hg : s.gors[i]? = some g) {sh : Shared} {g' : Gor}
    (hs : g.step s.shared i = some (sh, g')) :
    s.shared.entered <+: sh.entered ∧ ∀ sec, s.shared.now - 301 < sec → sec ≤ s.shared.meter.time →
      (s.shared.bucket (slot sec)).count ≤ (sh.bucket (slot sec)).count := by
  have k := hI.ok i g hg
  have same : ∀ sh : Shared, sh.meter = s.shared.meter → ∀ sec : Int, s.shared.now - 301 < sec → sec ≤ s.shared.meter.time →
      (s.shared.bucket (slot sec)).count ≤ (sh.bucket (slot sec)).count := by
    intro sh e sec _ _
    unfold Shared.bucket
    rw [e]
  cases hp : g.pc with
  | idle =>
    simp only [Gor.step, hp] at hs
    split at hs
    · simp at hs
    · split at hs
      · injection hs with hs; injection hs with hs1 hs2; subst hs1 hs2
        exact ⟨List.prefix_refl _, same _ rfl⟩
      · simp at hs
    · injection hs with hs; injection hs with hs1 hs2; subst hs1 hs2
      exact ⟨List.prefix_refl _, same _ rfl⟩
  | position job =>
    simp only [Gor.step, hp] at hs
    split at hs
    · injection hs with hs; injection hs with hs1 hs2; subst hs1 hs2
      exact ⟨List.prefix_refl _, same _ rfl⟩
    · simp at hs
  | clock job =>
    simp only [Gor.step, hp] at hs
    split at hs
    · injection hs with hs
      have hs1 := congrArg Prod.fst hs
      simp only at hs1
      rw [← hs1]
      obtain ⟨h1, h2⟩ := located_mono s.shared g job
      exact ⟨h1, same _ h2⟩
    · injection hs with hs; injection hs with hs1 hs2; subst hs1 hs2
      exact ⟨List.prefix_refl _, same _ rfl⟩
  | clearing job cur n w =>
    obtain ⟨c1, c2, c3, c4, c5, c6, c7⟩ := k.cl job cur n w hp
    cases w with
    | some f =>
    simp only [ahead] at c3 c4 c5
    simp only [Gor.step, hp] at hs
    injection hs with hs; injection hs with hs1 hs2
    subst hs1
    refine ⟨List.prefix_refl _, fun sec h1 h2 => ?_⟩
    have hb := bucket_modify s.shared s.shared.meter.pos (slot sec) (fun b => f.set b 0) (by rw [hI.len]; exact slot_lt _)
      { s.shared.meter with table := s.shared.meter.table.modify s.shared.meter.pos fun b => f.set b 0 } rfl
    rw [if_neg (by rw [c5]; refine (slot_ne ?_ ?_).symm <;> push_cast at c3 ⊢ <;> omega)] at hb
    rw [hb]
    | none =>
    simp only [Gor.step, hp] at hs
    split at hs
    · injection hs with hs; injection hs with hs1 hs2; subst hs1 hs2
      exact ⟨List.prefix_refl _, fun sec _ _ => by unfold Shared.bucket; exact Int.le_refl _⟩
    · injection hs with hs
      have hs1 := congrArg Prod.fst hs
      simp only at hs1
      rw [← hs1]
      obtain ⟨h1, h2⟩ := located_mono { s.shared with meter := { s.shared.meter with time := cur, pos := (cur % bucketSize).toNat } } g job
      refine ⟨h1, fun sec _ _ => ?_⟩
      unfold Shared.bucket
      rw [h2]
  | load a f =>
    simp only [Gor.step, hp] at hs
    injection hs with hs; injection hs with hs1 hs2; subst hs1 hs2
    exact ⟨List.prefix_refl _, same _ rfl⟩
  | store a f v =>
    have hv := k.st a f v hp
    simp only [Gor.step, hp] at hs
    injection hs with hs; injection hs with hs1 hs2
    subst hs1
    refine ⟨List.prefix_refl _, fun sec h1 h2 => ?_⟩
    rw [bucket_modify s.shared a.pos (slot sec) (fun b => f.set b (v + amount a.record f)) (by rw [hI.len]; exact slot_lt _)
      { s.shared.meter with table := s.shared.meter.table.modify a.pos fun b => f.set b (v + amount a.record f) } rfl]
    split
    · next e =>
      rw [hv, e]
      have := amount_nonneg a.record f
      cases f <;> simp only [Field.set, Field.get] <;> omega
    · exact Int.le_refl _
  | unlock a =>
    simp only [Gor.step, hp] at hs
    injection hs with hs; injection hs with hs1 hs2; subst hs1 hs2
    exact ⟨List.prefix_refl _, same _ rfl⟩
  | scan c f =>
    simp only [Gor.step, hp] at hs
    injection hs with hs; injection hs with hs1 hs2; subst hs1
    exact ⟨List.prefix_refl _, same _ rfl⟩

/-- The second whose bucket a reading is at. -/
theorem scan_at {s : State} (hI : Inv s) (hT : Timely s) {i : Nat} {g : Gor} (hg : s.gors[i]? = some g) {c : Scan} {f : Field}
    (hp : g.pc = .scan c f) : ∃ sec, c.pos = slot sec ∧ s.shared.now - 301 < sec ∧ sec ≤ s.shared.meter.time ∧
      c.second - min c.period 300 < sec ∧ sec ≤ c.second := by
  obtain ⟨s1, s2, s3, s4, s5⟩ := (hI.ok i g hg).sc c f hp
  have hdead : s.shared.now ≤ c.second + 301 - min c.period 300 := hT g (mem_of hg) _ (by rw [hp]; rfl)
  obtain ⟨q1, q2⟩ := check_le c.period
  exact ⟨_, s4, by omega, by omega, by omega, by omega⟩

theorem Capped.build {s : State} (hI : Inv s) (hT : Timely s) (hC : Capped s) {i : Nat} {g g' : Gor} (hg : s.gors[i]? = some g) {sh : Shared}
    (hs : g.step s.shared i = some (sh, g'))
    (sub : ∀ r ∈ sh.returned, r ∈ sh.entered) (act : ∀ a, active g'.pc = some a → a.record ∈ sh.entered)
    (sc : ∀ c f, g'.pc = .scan c f → ∀ M : Nat, Under M c.second c.period sh.entered →
      c.sum ≤ M * (c.count + if f = .count then (sh.bucket c.pos).count else 0))
    (rd : ∀ r ∈ g'.readings, ∀ M : Nat, Under M r.second r.period r.ended → r.sum ≤ M * r.count) : Capped ⟨sh, s.gors.set i g'⟩ := by
  obtain ⟨m1, m2⟩ := step_mono hI hT hg hs
  refine ⟨sub, ?_, ?_, ?_⟩
  · intro h hh
    rcases List.mem_or_eq_of_mem_set hh with hh | rfl
    · exact fun a ha => m1.mem (hC.act h hh a ha)
    · exact act
  · intro h hh
    rcases List.mem_or_eq_of_mem_set hh with hh | rfl
    · intro c f hp M hM
      obtain ⟨j, hj⟩ := List.mem_iff_getElem?.mp hh
      obtain ⟨sec, e, a1, a2, -, -⟩ := scan_at hI hT hj hp
      have h1 := hC.sc h hh c f hp M (hM.prefix m1)
      refine Int.le_trans h1 (Int.mul_le_mul_of_nonneg_left ?_ (by omega))
      have h2 := m2 sec a1 a2
      rw [← e] at h2
      show _ ≤ c.count + if f = .count then (sh.bucket c.pos).count else 0
      split <;> omega
    · exact sc
  · intro h hh
    rcases List.mem_or_eq_of_mem_set hh with hh | rfl
    · exact hC.rd h hh
    · exact rd

theorem located_pc (s : Shared) (g : Gor) (job : Job) :
    (∀ a, active (ConcurrentValue.located s g job).2.pc = some a → a.record ∈ (ConcurrentValue.located s g job).1.entered) ∧
    (∀ c f, (ConcurrentValue.located s g job).2.pc = .scan c f → c.sum = 0 ∧ c.count = 0 ∧ f = .value) ∧
    (∀ r ∈ (ConcurrentValue.located s g job).2.readings, r ∈ g.readings ∨ (r.sum = 0 ∧ r.count = 0)) ∧
    (ConcurrentValue.located s g job).1.returned = s.returned := by
  cases job with
  | add v =>
    refine ⟨fun a ha => ?_, fun c f h => by simp [ConcurrentValue.located] at h, fun r hr => .inl hr, rfl⟩
    have : a = ⟨(s.meter.time, v), s.meter.pos⟩ := (Option.some.inj ha).symm
    rw [this]
    exact List.mem_append_right _ (by simp)
  | get p b =>
    simp only [ConcurrentValue.located]
    split
    · refine ⟨fun a ha => by simp [active] at ha, fun c f h => by simp at h, fun r hr => ?_, rfl⟩
      rcases List.mem_append.mp hr with hr | hr
      · exact .inl hr
      · rw [List.mem_singleton.mp hr]; exact .inr ⟨rfl, rfl⟩
    · refine ⟨fun a ha => by simp [active] at ha, fun c f h => ?_, fun r hr => .inl hr, rfl⟩
      simp only [Pc.scan.injEq] at h
      obtain ⟨rfl, rfl⟩ := h
      exact ⟨rfl, rfl, rfl⟩

theorem Capped.go {s : State} (hI : Inv s) (hT : Timely s) (hC : Capped s) {i : Nat} {g : Gor} (hg : s.gors[i]? = some g) {sh : Shared} {g' : Gor}
    (hs : g.step s.shared i = some (sh, g')) : Capped ⟨sh, s.gors.set i g'⟩ := by
  have hmem := mem_of hg
  have hrd := hC.rd g hmem
  have hloc : ∀ (s0 : Shared) (job : Job), s0.entered = s.shared.entered → s0.returned = s.shared.returned →
      ConcurrentValue.located s0 g job = (sh, g') → Capped ⟨sh, s.gors.set i g'⟩ := by
    intro s0 job e1 e2 e
    obtain ⟨h1, h2, h3, h4⟩ := located_pc s0 g job
    have hm := (located_mono s0 g job).1
    rw [e] at h1 h2 h3 h4 hm
    simp only at h1 h2 h3 h4 hm
    refine hC.build hI hT hg hs ?_ h1 ?_ ?_
    · intro r hr
      rw [h4, e2] at hr
      exact hm.mem (by rw [e1]; exact hC.sub r hr)
    · intro c f hp M _
      obtain ⟨a, b, c'⟩ := h2 c f hp
      rw [a, b, c']; simp
    · intro r hr M hM
      rcases h3 r hr with hr | ⟨a, b⟩
      · exact hrd r hr M hM
      · rw [a, b]; simp
  have hs' := hs
  cases hp : g.pc with
  | idle =>
    simp only [Gor.step, hp] at hs'
    split at hs'
    · simp at hs'
    · split at hs'
      · injection hs' with hs'; injection hs' with hs1 hs2; subst hs1 hs2
        exact hC.build hI hT hg hs hC.sub (fun a h => by simp [active] at h) (fun c f h => by simp at h) hrd
      · simp at hs'
    · injection hs' with hs'; injection hs' with hs1 hs2; subst hs1 hs2
      exact hC.build hI hT hg hs hC.sub (fun a h => by simp [active] at h) (fun c f h => by simp at h) hrd
  | position job =>
    simp only [Gor.step, hp] at hs'
    split at hs'
    · injection hs' with hs'; injection hs' with hs1 hs2; subst hs1 hs2
      exact hC.build hI hT hg hs hC.sub (fun a h => by simp [active] at h) (fun c f h => by simp at h) hrd
    · simp at hs'
  | clock job =>
    simp only [Gor.step, hp] at hs'
    split at hs'
    · injection hs' with hs'
      exact hloc s.shared job rfl rfl hs'
    · injection hs' with hs'; injection hs' with hs1 hs2; subst hs1 hs2
      exact hC.build hI hT hg hs hC.sub (fun a h => by simp [active] at h) (fun c f h => by simp at h) hrd
  | clearing job cur n w =>
    cases w with
    | some f =>
    simp only [Gor.step, hp] at hs'
    injection hs' with hs'; injection hs' with hs1 hs2; subst hs1 hs2
    exact hC.build hI hT hg hs hC.sub (fun a h => by cases f <;> simp [active] at h) (fun c f' h => by cases f <;> simp at h)
      (by cases f <;> exact hrd)
    | none =>
    simp only [Gor.step, hp] at hs'
    split at hs'
    · injection hs' with hs'; injection hs' with hs1 hs2; subst hs1 hs2
      exact hC.build hI hT hg hs hC.sub (fun a h => by simp [active] at h) (fun c f h => by simp at h) hrd
    · injection hs' with hs'
      exact hloc { s.shared with meter := { s.shared.meter with time := cur, pos := (cur % bucketSize).toNat } } job rfl rfl hs'
  | load a f =>
    simp only [Gor.step, hp] at hs'
    injection hs' with hs'; injection hs' with hs1 hs2; subst hs1 hs2
    refine hC.build hI hT hg hs hC.sub (fun a' h => ?_) (fun c f h => by simp at h) hrd
    exact hC.act g hmem a' (by rw [hp]; exact h)
  | store a f v =>
    simp only [Gor.step, hp] at hs'
    injection hs' with hs'; injection hs' with hs1 hs2; subst hs1 hs2
    refine hC.build hI hT hg hs hC.sub (fun a' h => ?_) (fun c f' h => by cases f <;> simp at h) hrd
    exact hC.act g hmem a' (by rw [hp]; cases f <;> exact h)
  | unlock a =>
    simp only [Gor.step, hp] at hs'
    injection hs' with hs'; injection hs' with hs1 hs2; subst hs1 hs2
    refine hC.build hI hT hg hs ?_ (fun a' h => by simp [active] at h) (fun c f h => by simp at h) hrd
    intro r hr
    rcases List.mem_append.mp hr with hr | hr
    · exact hC.sub r hr
    · rw [List.mem_singleton.mp hr]
      exact hC.act g hmem a (by rw [hp]; rfl)
  | scan c f =>
    obtain ⟨sec, e, a1, a2, a3, a4⟩ := scan_at hI hT hg hp
    simp only [Gor.step, hp] at hs'
    injection hs' with hs'; injection hs' with hs1 hs2; subst hs1
    cases f with
    | value =>
      simp only at hs2
      subst hs2
      refine hC.build hI hT hg hs hC.sub (fun a' h => by simp [active] at h) ?_ hrd
      intro c' f' h M hM
      simp only [Pc.scan.injEq] at h
      obtain ⟨rfl, rfl⟩ := h
      have h1 := hC.sc g hmem c .value hp M hM
      have h2 := bucket_cap hI hC M sec a1 a2 fun r hr hsec => hM.at hr (by show c.second - min c.period 300 < r.1; omega) (by show r.1 ≤ c.second; omega)
      rw [← e] at h2
      simp only [Scan.plus, Field.get]
      rw [if_pos trivial, Int.mul_add]
      simp at h1
      omega
    | count =>
      simp only [advance] at hs2
      have key : ∀ M : Nat, Under M c.second c.period s.shared.entered → c.sum ≤ M * (c.count + (s.shared.bucket c.pos).count) := by
        intro M hM
        have h1 := hC.sc g hmem c .count hp M hM
        rwa [if_pos rfl] at h1
      split at hs2
      · subst hs2
        refine hC.build hI hT hg hs hC.sub (fun a' h => by simp [active] at h) (fun c f h => by simp at h) ?_
        intro r hr M hM
        rcases List.mem_append.mp hr with hr | hr
        · exact hrd r hr M hM
        · rw [List.mem_singleton.mp hr] at hM ⊢
          exact key M hM
      · subst hs2
        refine hC.build hI hT hg hs hC.sub (fun a' h => by simp [active] at h) ?_ hrd
        intro c' f' h M hM
        simp only [Pc.scan.injEq] at h
        obtain ⟨rfl, rfl⟩ := h
        have := key M hM
        simpa [Scan.plus, Field.get] using this

theorem Capped.fire {s : State} (hI : Inv s) (hT : Timely s) (hC : Capped s) (e : Event) : Capped (s.fire e) := by
  cases e with
  | tick => exact ⟨hC.sub, hC.act, hC.sc, hC.rd⟩
  | go i =>
    simp only [State.fire]
    cases hg : s.gors[i]? with
    | none => exact hC
    | some g =>
      simp only []
      cases hs : g.step s.shared i with
      | none => exact hC
      | some r => exact hC.go hI hT hg hs

theorem allTimely_snoc {s : State} {es : List Event} {e : Event} (hT : AllTimely s (es ++ [e])) : AllTimely s es ∧ Timely (s.run es) := by
  refine ⟨fun n => ?_, ?_⟩
  · by_cases h : n ≤ es.length
    · have := hT n
      rwa [List.take_append_of_le_length h] at this
    · have := hT es.length
      rw [List.take_append_of_le_length (Nat.le_refl _), List.take_length] at this
      rwa [List.take_of_length_le (by omega)]
  · have := hT es.length
    rwa [List.take_append_of_le_length (Nat.le_refl _), List.take_length] at this

theorem Capped.run {t0 : Int} {todos : List (List Call)} {es : List Event} (hT : AllTimely (State.start t0 todos) es) :
    Capped ((State.start t0 todos).run es) := by
  induction es using List.reverseRecOn with
  | nil =>
    have hpc : ∀ g ∈ (State.start t0 todos).gors, g.pc = .idle ∧ g.readings = [] := by
      intro g hg
      obtain ⟨t, -, rfl⟩ := List.mem_map.mp hg
      exact ⟨rfl, rfl⟩
    refine ⟨fun r h => by simp [State.run, State.start] at h, ?_, ?_, ?_⟩
    · intro g hg a ha; rw [(hpc g hg).1] at ha; simp [active] at ha
    · intro g hg c f h; rw [(hpc g hg).1] at h; simp at h
    · intro g hg r hr; rw [(hpc g hg).2] at hr; simp at hr
  | append_singleton es e ih =>
    obtain ⟨h1, h2⟩ := allTimely_snoc hT
    rw [run_snoc]
    exact (ih h1).fire (Inv.run h1) h2 e

end ConcurrentValue
end Scouter
