import Verif.Proofs.ConcurrentValue
/-!
# C114: goroutines recording and averaging values at the same time
-/
namespace Scouter
namespace ConcurrentValue
open Spec
open ConcurrentMeter (slot slot_lt slot_ne slot_next slot_back sum_set sum_zero check_le check_window)

/-! ## C114 -/

theorem total_count (T p : Int) (rs : List Rec) : total .count T (Meter.check p).toNat rs = (window T (min p 300) rs).length := by
  unfold total
  rw [check_window]
  generalize window T (min p 300) rs = l
  induction l with
  | nil => rfl
  | cons a l ih =>
    rw [List.map_cons, List.sum_cons, ih, List.length_cons]
    simp only [amount]; push_cast; omega

theorem total_value (T p : Int) (rs : List Rec) : total .value T (Meter.check p).toNat rs = ((window T (min p 300) rs).sum : Nat) := by
  unfold total
  rw [check_window]
  generalize window T (min p 300) rs = l
  induction l with
  | nil => rfl
  | cons a l ih =>
    rw [List.map_cons, List.sum_cons, ih, List.sum_cons]
    simp only [amount]; push_cast; omega

/-- **C114**: whatever goroutines record values and read averages at the same time, the sum and the number a reading of `p` seconds is made from
hold every value that had been recorded when the reading began and none recorded after it ended, each of the two by itself; provided no recording
takes longer than 300 seconds and the reading no longer than `301 - p`. -/
theorem C114_readings_are_fair (t0 : Int) (todos : List (List Call)) (es : List Event) (hT : AllTimely (State.start t0 todos) es)
    (g : Gor) (hg : g ∈ ((State.start t0 todos).run es).gors) (r : Reading) (hr : r ∈ g.readings) :
    let lo := window r.second (min r.period 300) r.begun
    let hi := window r.second (min r.period 300) r.ended
    (lo.length ≤ r.answer.count ∧ r.answer.count ≤ hi.length) ∧ (lo.sum ≤ r.answer.sum ∧ r.answer.sum ≤ hi.sum) := by
  obtain ⟨i, hi⟩ := List.mem_iff_getElem?.mp hg
  have h := ((Inv.run hT).ok i g hi).rd r hr
  have h1 := h .count
  have h2 := h .value
  rw [total_count, total_count] at h1
  rw [total_value, total_value] at h2
  refine ⟨h1, ?_⟩
  simp only [Reading.get] at h2
  simp only [Reading.answer]
  exact_mod_cast h2

/-- **C114**: a reading during which nothing is recorded answers what C46 says: the number, the sum and the average of exactly the values recorded
in the last `p` seconds, at most 300. -/
theorem C114_undisturbed_reading (t0 : Int) (todos : List (List Call)) (es : List Event) (hT : AllTimely (State.start t0 todos) es)
    (g : Gor) (hg : g ∈ ((State.start t0 todos).run es).gors) (r : Reading) (hr : r ∈ g.readings) (hq : r.begun.Perm r.ended) :
    let w := window r.second (min r.period 300) r.begun
    r.answer = { sum := w.sum, avg := if w = [] then 0 else (w.sum : Rat) / w.length, count := w.length } := by
  obtain ⟨i, hi⟩ := List.mem_iff_getElem?.mp hg
  have h := ((Inv.run hT).ok i g hi).rd r hr
  obtain ⟨h1, h2⟩ := h .count
  obtain ⟨h3, h4⟩ := h .value
  rw [total_count] at h1 h2
  rw [total_value] at h3 h4
  have hp : (window r.second (min r.period 300) r.begun).Perm (window r.second (min r.period 300) r.ended) := (hq.filter _).map _
  rw [← hp.length_eq] at h2
  rw [← hp.sum_eq] at h4
  intro w
  have e1 : r.count = w.length := Int.le_antisymm h2 h1
  have e2 : r.sum = (w.sum : Nat) := Int.le_antisymm h4 h3
  unfold Reading.answer
  have hz : r.count = 0 ↔ w = [] := by
    rw [e1]
    cases w with
    | nil => simp
    | cons a l => simp; omega
  rw [if_congr hz rfl rfl, e1, e2]
  push_cast; rfl

/-- **C114**: however recordings and readings overlap, an average is never above the largest value recorded in its seconds by the time the reading
ended (and never below 0). -/
theorem C114_average_never_above_largest (t0 : Int) (todos : List (List Call)) (es : List Event) (hT : AllTimely (State.start t0 todos) es)
    (g : Gor) (hg : g ∈ ((State.start t0 todos).run es).gors) (r : Reading) (hr : r ∈ g.readings) (M : Nat)
    (hM : ∀ v ∈ window r.second (min r.period 300) r.ended, v ≤ M) : 0 ≤ r.answer.avg ∧ r.answer.avg ≤ M := by
  have h := (Capped.run hT).rd g hg r hr M hM
  obtain ⟨i, hi⟩ := List.mem_iff_getElem?.mp hg
  have hf := ((Inv.run hT).ok i g hi).rd r hr
  have h1 := (hf .count).1
  have h2 := (hf .value).1
  rw [total_count] at h1
  rw [total_value] at h2
  simp only [Reading.get] at h1 h2
  unfold Reading.answer
  simp only
  by_cases h0 : r.count = 0
  · rw [if_pos h0]
    exact ⟨Rat.le_refl, by exact_mod_cast Nat.zero_le M⟩
  · rw [if_neg h0]
    have hpos : (0 : Rat) < (r.count : Rat) := by
      have : 0 < r.count := by omega
      exact_mod_cast this
    constructor
    · have : (0 : Rat) ≤ (r.sum : Rat) := by
        have : 0 ≤ r.sum := by omega
        exact_mod_cast this
      exact div_nonneg this hpos.le
    · rw [div_le_iff₀ hpos]
      exact_mod_cast h

/-! ### A goroutine that is the only one to record -/

/-- Only goroutine `i` records. -/
def OnlyAdds (i : Nat) (todos : List (List Call)) : Prop := ∀ j t, todos[j]? = some t → j ≠ i → ∀ c ∈ t, ∃ p, c = .get p

def underWay (pc : Pc) : List Rec := match active pc with
  | some a => [a.record]
  | none => []

structure Solo (i : Nat) (s : State) : Prop where
  others : ∀ j h, s.gors[j]? = some h → j ≠ i → (∀ c ∈ h.todo, ∃ p, c = .get p) ∧ adding h.pc = false
  me : ∀ g, s.gors[i]? = some g → s.shared.entered = s.shared.returned ++ underWay g.pc ∧
    (∀ b, begunOf g.pc = some b → b = s.shared.returned) ∧ ∀ r ∈ g.readings, r.begun = r.ended

theorem located_other (s : Shared) (g : Gor) (job : Job) (h : adding (.clock job) = false) :
    adding (located s g job).2.pc = false ∧ (located s g job).2.todo = g.todo ∧ (located s g job).1.entered = s.entered ∧
      (located s g job).1.returned = s.returned := by
  cases job with
  | add v => simp [adding] at h
  | get p b =>
    simp only [located]
    split <;> exact ⟨rfl, rfl, rfl, rfl⟩

theorem step_other {s s' : Shared} {j : Nat} {g g' : Gor} (hs : g.step s j = some (s', g')) (ht : ∀ c ∈ g.todo, ∃ p, c = .get p)
    (ha : adding g.pc = false) :
    (∀ c ∈ g'.todo, ∃ p, c = .get p) ∧ adding g'.pc = false ∧ s'.entered = s.entered ∧ s'.returned = s.returned := by
  unfold Gor.step at hs
  cases hp : g.pc with
  | idle =>
    rw [hp] at hs
    cases htd : g.todo with
    | nil => rw [htd] at hs; simp at hs
    | cons c todo =>
      obtain ⟨p, rfl⟩ := ht c (by rw [htd]; simp)
      rw [htd] at hs
      simp only at hs
      injection hs with hs; injection hs with h1 h2; subst h1 h2
      exact ⟨fun c hc => ht c (by rw [htd]; simp [show c ∈ todo from hc]), rfl, rfl, rfl⟩
  | position job =>
    rw [hp] at hs ha
    simp only at hs
    split at hs
    · injection hs with hs; injection hs with h1 h2; subst h1 h2
      exact ⟨ht, by cases job <;> simp_all [adding], rfl, rfl⟩
    · simp at hs
  | clock job =>
    rw [hp] at hs ha
    simp only at hs
    split at hs
    · injection hs with hs
      obtain ⟨h1, h2, h3, h4⟩ := located_other s g job ha
      rw [hs] at h1 h2 h3 h4
      exact ⟨by rw [h2]; exact ht, h1, h3, h4⟩
    · injection hs with hs; injection hs with h1 h2; subst h1 h2
      exact ⟨ht, by cases job <;> simp_all [adding], rfl, rfl⟩
  | clearing job cur k w =>
    cases w with
    | some f =>
    rw [hp] at hs ha
    injection hs with hs; injection hs with h1 h2; subst h1 h2
    cases f <;> exact ⟨ht, by cases job <;> simp_all [adding], rfl, rfl⟩
    | none =>
    rw [hp] at hs ha
    simp only at hs
    split at hs
    · injection hs with hs; injection hs with h1 h2; subst h1 h2
      exact ⟨ht, by cases job <;> simp_all [adding], rfl, rfl⟩
    · injection hs with hs
      obtain ⟨h1, h2, h3, h4⟩ := located_other { s with meter := { s.meter with time := cur, pos := (cur % bucketSize).toNat } } g job
        (by cases job <;> simp_all [adding])
      rw [hs] at h1 h2 h3 h4
      exact ⟨by rw [h2]; exact ht, h1, h3, h4⟩
  | load a f => rw [hp] at ha; simp [adding] at ha
  | store a f v => rw [hp] at ha; simp [adding] at ha
  | unlock a => rw [hp] at ha; simp [adding] at ha
  | scan c f =>
    rw [hp] at hs
    injection hs with hs; injection hs with h1 h2; subst h1 h2
    refine ⟨?_, ?_, rfl, rfl⟩
    · cases f <;> simp only [advance]
      · split <;> exact ht
      · exact ht
    · cases f <;> simp only [advance]
      · split <;> rfl
      · rfl

theorem located_me (s : Shared) (g : Gor) (job : Job) (hu : s.entered = s.returned) (hb : ∀ b, begunOf (.clock job) = some b → b = s.returned)
    (hr : ∀ r ∈ g.readings, r.begun = r.ended) :
    (located s g job).1.entered = (located s g job).1.returned ++ underWay (located s g job).2.pc ∧
    (∀ b, begunOf (located s g job).2.pc = some b → b = (located s g job).1.returned) ∧
    ∀ r ∈ (located s g job).2.readings, r.begun = r.ended := by
  cases job with
  | add v =>
    refine ⟨?_, fun b h => by simp [located, begunOf] at h, hr⟩
    show s.entered ++ _ = s.returned ++ _
    rw [hu]; rfl
  | get p b =>
    have hb := hb b rfl
    simp only [located]
    split
    · refine ⟨by simp [underWay, active, hu], fun b h => by simp [begunOf] at h, fun r h => ?_⟩
      rcases List.mem_append.mp h with h | h
      · exact hr r h
      · rw [List.mem_singleton.mp h]
        show b = s.entered
        rw [hb, hu]
    · refine ⟨by simp [underWay, active, hu], fun b' h => ?_, hr⟩
      simp only [begunOf, Option.some.injEq] at h
      rw [← h]; exact hb

theorem step_me {s s' : Shared} {i : Nat} {g g' : Gor} (hs : g.step s i = some (s', g')) (hu : s.entered = s.returned ++ underWay g.pc)
    (hb : ∀ b, begunOf g.pc = some b → b = s.returned) (hr : ∀ r ∈ g.readings, r.begun = r.ended) :
    s'.entered = s'.returned ++ underWay g'.pc ∧ (∀ b, begunOf g'.pc = some b → b = s'.returned) ∧ ∀ r ∈ g'.readings, r.begun = r.ended := by
  unfold Gor.step at hs
  cases hp : g.pc with
  | idle =>
    rw [hp] at hs hu hb
    cases htd : g.todo with
    | nil => rw [htd] at hs; simp at hs
    | cons c todo =>
      rw [htd] at hs
      cases c with
      | add v =>
        simp only at hs
        split at hs
        · injection hs with hs; injection hs with h1 h2; subst h1 h2
          exact ⟨hu, fun b h => by simp [begunOf] at h, hr⟩
        · simp at hs
      | get p =>
        simp only at hs
        injection hs with hs; injection hs with h1 h2; subst h1 h2
        refine ⟨hu, fun b h => ?_, hr⟩
        simp only [begunOf, Option.some.injEq] at h
        rw [← h]
  | position job =>
    rw [hp] at hs hu hb
    simp only at hs
    split at hs
    · injection hs with hs; injection hs with h1 h2; subst h1 h2
      exact ⟨hu, fun b h => hb b (by cases job <;> simp_all [begunOf]), hr⟩
    · simp at hs
  | clock job =>
    rw [hp] at hs hu hb
    simp only at hs
    split at hs
    · injection hs with hs
      have := located_me s g job (by simpa [underWay, active] using hu) hb hr
      rwa [hs] at this
    · injection hs with hs; injection hs with h1 h2; subst h1 h2
      exact ⟨hu, fun b h => hb b (by cases job <;> simp_all [begunOf]), hr⟩
  | clearing job cur k w =>
    cases w with
    | some f =>
    rw [hp] at hs hu hb
    injection hs with hs; injection hs with h1 h2; subst h1 h2
    cases f <;> exact ⟨hu, fun b h => hb b (by cases job <;> simp_all [begunOf]), hr⟩
    | none =>
    rw [hp] at hs hu hb
    simp only at hs
    split at hs
    · injection hs with hs; injection hs with h1 h2; subst h1 h2
      exact ⟨hu, fun b h => hb b (by cases job <;> simp_all [begunOf]), hr⟩
    · injection hs with hs
      have := located_me { s with meter := { s.meter with time := cur, pos := (cur % bucketSize).toNat } } g job
        (by simpa [underWay, active] using hu) (fun b h => hb b (by cases job <;> simp_all [begunOf])) hr
      rwa [hs] at this
  | load a f =>
    rw [hp] at hs hu hb
    injection hs with hs; injection hs with h1 h2; subst h1 h2
    exact ⟨hu, fun b h => by simp [begunOf] at h, hr⟩
  | store a f v =>
    rw [hp] at hs hu hb
    injection hs with hs; injection hs with h1 h2; subst h1 h2
    cases f <;> exact ⟨hu, fun b h => by simp [begunOf] at h, hr⟩
  | unlock a =>
    rw [hp] at hs hu hb
    injection hs with hs; injection hs with h1 h2; subst h1 h2
    refine ⟨?_, fun b h => by simp [begunOf] at h, hr⟩
    simpa [underWay, active] using hu
  | scan c f =>
    rw [hp] at hs hu hb
    have hu : s.entered = s.returned := by simpa [underWay, active] using hu
    have hb' := hb c.begun rfl
    injection hs with hs; injection hs with h1 h2; subst h1 h2
    cases f with
    | value => exact ⟨by simp [underWay, active, hu], fun b h => hb b h, hr⟩
    | count =>
      simp only [advance]
      split
      · refine ⟨by simp [underWay, active, hu], fun b h => by simp [begunOf] at h, fun r h => ?_⟩
        rcases List.mem_append.mp h with h | h
        · exact hr r h
        · rw [List.mem_singleton.mp h]
          show c.begun = s.entered
          rw [hb']; simp [hu, underWay, active]
      · exact ⟨by simp [underWay, active, hu], fun b h => hb b h, hr⟩

theorem Solo.run {i : Nat} {t0 : Int} {todos : List (List Call)} (ho : OnlyAdds i todos) (es : List Event) :
    Solo i ((State.start t0 todos).run es) := by
  induction es using List.reverseRecOn with
  | nil =>
    refine ⟨fun j h hj hne => ?_, fun g hg => ?_⟩
    · simp only [State.run, State.start, List.foldl_nil, List.getElem?_map, Option.map_eq_some_iff] at hj
      obtain ⟨t, ht, rfl⟩ := hj
      exact ⟨ho j t ht hne, rfl⟩
    · simp only [State.run, State.start, List.foldl_nil, List.getElem?_map, Option.map_eq_some_iff] at hg
      obtain ⟨t, -, rfl⟩ := hg
      exact ⟨rfl, fun b h => by simp [begunOf] at h, fun r h => by simp at h⟩
  | append_singleton es e ih =>
    rw [run_snoc]
    revert ih
    generalize (State.start t0 todos).run es = s
    intro ih
    cases e with
    | tick => exact ⟨ih.others, ih.me⟩
    | go j =>
      simp only [State.fire]
      cases hg : s.gors[j]? with
      | none => exact ih
      | some g =>
        simp only []
        cases hs : g.step s.shared j with
        | none => exact ih
        | some r =>
          obtain ⟨s', g'⟩ := r
          have hj := (List.getElem?_eq_some_iff.1 hg).1
          by_cases hij : j = i
          · subst hij
            refine ⟨fun k h hk hne => ?_, fun h hh => ?_⟩
            · simp only [List.getElem?_set_ne (Ne.symm hne)] at hk
              exact ih.others k h hk hne
            · simp only [List.getElem?_set_self hj, Option.some.injEq] at hh
              subst hh
              obtain ⟨a, b, c⟩ := ih.me g hg
              exact step_me hs a b c
          · obtain ⟨a, b⟩ := ih.others j g hg hij
            obtain ⟨h1, h2, h3, h4⟩ := step_other hs a b
            refine ⟨fun k h hk hne => ?_, fun h hh => ?_⟩
            · by_cases hkj : j = k
              · subst hkj
                simp only [List.getElem?_set_self hj, Option.some.injEq] at hk
                subst hk
                exact ⟨h1, h2⟩
              · simp only [List.getElem?_set_ne hkj] at hk
                exact ih.others k h hk hne
            · simp only [List.getElem?_set_ne hij] at hh
              obtain ⟨a, b, c⟩ := ih.me h hh
              exact ⟨by show s'.entered = s'.returned ++ _; rw [h3, h4]; exact a, by show ∀ b, _ → b = s'.returned; rw [h4]; exact b, c⟩

/-- **C114**: a goroutine that is the only one to record (as the one sending the real-time pack is: it records the number of active services and
then reads the average of the last 30 seconds) reads the exact average of what it has recorded, however many other goroutines read at the same time
(as the one sending the five-minute pack does). -/
theorem C114_recorder_reads_exactly (t0 : Int) (todos : List (List Call)) (i : Nat) (ho : OnlyAdds i todos) (es : List Event)
    (hT : AllTimely (State.start t0 todos) es) (g : Gor) (hg : ((State.start t0 todos).run es).gors[i]? = some g) (r : Reading)
    (hr : r ∈ g.readings) :
    let w := window r.second (min r.period 300) r.ended
    r.answer = { sum := w.sum, avg := if w = [] then 0 else (w.sum : Rat) / w.length, count := w.length } := by
  have e := ((Solo.run ho es).me g hg).2.2 r hr
  have h := C114_undisturbed_reading t0 todos es hT g (mem_of hg) r hr (by rw [e])
  rwa [e] at h

/-! ### Every call is recorded -/

/-- The value of a call that records. -/
def Call.given : Call → Option Nat
  | .add v => some v
  | .get _ => none

/-- The call of `Add` a goroutine is in. -/
def inHand : Pc → Option (Nat)
  | .position (.add v) | .clock (.add v) | .clearing (.add v) _ _ _ => some v
  | .load a _ | .store a _ _ | .unlock a => some a.record.2
  | _ => none

def one (x : Nat) (o : Option (Nat)) : Int := if o = some x then 1 else 0

/-- How often a goroutine is still going to record `x`. -/
def owed (x : Nat) (g : Gor) : Int := ((g.todo.filterMap Call.given).count x : Int) + one x (inHand g.pc)

theorem owed_located (x : Nat) (s : Shared) (g : Gor) (job : Job)
    (hj : inHand g.pc = inHand (.clock job)) :
    owed x (located s g job).2 = owed x g ∧ (located s g job).1.returned = s.returned := by
  cases job with
  | add e =>
    refine ⟨?_, rfl⟩
    unfold owed
    rw [hj]; rfl
  | get p b =>
    simp only [located]
    split
    all_goals
      refine ⟨?_, rfl⟩
      unfold owed
      rw [hj]; rfl

theorem owed_step (x : Nat) (s s' : Shared) (i : Nat) (g g' : Gor) (h : g.step s i = some (s', g')) :
    ((s'.returned.map (·.2)).count x : Int) + owed x g' = ((s.returned.map (·.2)).count x : Int) + owed x g := by
  unfold Gor.step at h
  cases hp : g.pc with
  | idle =>
    rw [hp] at h
    cases ht : g.todo with
    | nil => rw [ht] at h; simp at h
    | cons c todo =>
      rw [ht] at h
      cases c with
      | add e =>
        simp only at h
        split at h
        · injection h with h; injection h with h1 h2
          subst h1 h2
          simp only [owed, hp, ht, inHand, List.filterMap_cons, Call.given, List.count_cons, one]
          by_cases hx : e = x <;> simp [hx]
        · simp at h
      | get p =>
        simp only at h
        injection h with h; injection h with h1 h2
        subst h1 h2
        simp [owed, hp, ht, inHand, one]
        rfl
  | position job =>
    rw [hp] at h
    simp only at h
    split at h
    · injection h with h; injection h with h1 h2
      subst h1 h2
      cases job <;> simp [owed, hp, inHand]
    · simp at h
  | clock job =>
    rw [hp] at h
    simp only at h
    split at h
    · injection h with h
      obtain ⟨h1, h2⟩ := owed_located x s g job (by rw [hp])
      rw [h] at h1 h2
      simp only at h1 h2
      rw [h1, h2]
    · injection h with h; injection h with h1 h2
      subst h1 h2
      cases job <;> simp [owed, hp, inHand]
  | clearing job cur k w =>
    cases w with
    | some f =>
    rw [hp] at h
    injection h with h; injection h with h1 h2
    subst h1 h2
    cases f <;> cases job <;> simp [owed, hp, inHand]
    | none =>
    rw [hp] at h
    simp only at h
    split at h
    · injection h with h; injection h with h1 h2
      subst h1 h2
      cases job <;> simp [owed, hp, inHand]
    · injection h with h
      obtain ⟨h1, h2⟩ := owed_located x { s with meter := { s.meter with time := cur, pos := (cur % bucketSize).toNat } } g job
        (by rw [hp]; cases job <;> rfl)
      rw [h] at h1 h2
      simp only at h1 h2
      rw [h1, h2]
  | load a f =>
    rw [hp] at h
    injection h with h; injection h with h1 h2
    subst h1 h2
    simp [owed, hp, inHand]
  | store a f v =>
    rw [hp] at h
    injection h with h; injection h with h1 h2
    subst h1 h2
    cases f <;> simp [owed, hp, inHand]
  | unlock a =>
    rw [hp] at h
    injection h with h; injection h with h1 h2
    subst h1 h2
    simp only [owed, hp, inHand, List.map_append, List.map_cons, List.map_nil, List.count_append, List.count_cons, List.count_nil, one]
    by_cases hx : a.record.2 = x <;> simp [hx] <;> omega
  | scan c f =>
    rw [hp] at h
    injection h with h; injection h with h1 h2
    subst h1 h2
    cases f <;> simp only [owed, hp, inHand]
    unfold advance
    split <;> rfl

theorem owed_run (x : Nat) (s : State) (es : List Event) :
    (((s.run es).shared.returned.map (·.2)).count x : Int) + ((s.run es).gors.map (owed x)).sum =
      ((s.shared.returned.map (·.2)).count x : Int) + (s.gors.map (owed x)).sum := by
  induction es using List.reverseRecOn with
  | nil => rfl
  | append_singleton es e ih =>
    rw [run_snoc, ← ih]
    generalize s.run es = s
    cases e with
    | tick => rfl
    | go i =>
      simp only [State.fire]
      cases hg : s.gors[i]? with
      | none => rfl
      | some g =>
        simp only []
        cases hs : g.step s.shared i with
        | none => rfl
        | some r =>
          have := owed_step x s.shared r.1 i g r.2 hs
          show ((r.1.returned.map (·.2)).count x : Int) + ((s.gors.set i r.2).map (owed x)).sum = _
          rw [sum_set (owed x) s.gors i g r.2 hg]
          omega

/-- All that the goroutines are told to record. -/
def told (todos : List (List Call)) : List (Nat) := todos.flatten.filterMap Call.given

theorem owed_start (x : Nat) (todos : List (List Call)) :
    ((todos.map fun t => ({ todo := t } : Gor)).map (owed x)).sum = ((told todos).count x : Int) := by
  induction todos with
  | nil => rfl
  | cons t ts ih =>
    rw [List.map_cons, List.map_cons, List.sum_cons, ih]
    have e : owed x { todo := t } = ((t.filterMap Call.given).count x : Int) := by simp [owed, inHand, one]
    rw [e]
    unfold told
    rw [List.flatten_cons, List.filterMap_append, List.count_append]
    push_cast; rfl

/-- **C114**: no recording is lost or doubled, whatever the schedule: when all goroutines are through, the calls recorded are those they were told
to make, each as often as it was to be made. -/
theorem C114_every_value_recorded_once (t0 : Int) (todos : List (List Call)) (es : List Event)
    (hd : ∀ g ∈ ((State.start t0 todos).run es).gors, g.pc = .idle ∧ g.todo = []) :
    (((State.start t0 todos).run es).shared.returned.map (·.2)).Perm (told todos) := by
  rw [List.perm_iff_count]
  intro x
  have h := owed_run x (State.start t0 todos) es
  rw [sum_zero (owed x) ((State.start t0 todos).run es).gors fun g hg => by
    obtain ⟨h1, h2⟩ := hd g hg
    simp [owed, h1, h2, inHand, one]] at h
  have h' := owed_start x todos
  have e : (State.start t0 todos).gors = todos.map fun t => ({ todo := t } : Gor) := rfl
  rw [e, h'] at h
  have e0 : (State.start t0 todos).shared.returned = [] := rfl
  rw [e0] at h
  simp only [List.map_nil, List.count_nil] at h
  omega

/-! ### Nobody waits for ever -/

/-- A lock that is taken is held by somebody who is in the code it guards. -/
structure Held (s : State) : Prop where
  g : ∀ j, s.shared.gLock = some j → ∃ g, s.gors[j]? = some g ∧ adding g.pc = true
  m : ∀ j, s.shared.mLock = some j → ∃ g, s.gors[j]? = some g ∧ inRing g.pc = true

/-- What a step does to a lock. -/
def Hands (before after : Option Nat) (i : Nat) (inside inside' : Bool) : Prop :=
  after = none ∨ (after = some i ∧ inside' = true) ∨ (after = before ∧ (inside = true → inside' = true))

theorem located_hands (s : Shared) (g : Gor) (job : Job) (i : Nat) (ha : adding g.pc = adding (.clock job)) :
    Hands s.gLock (located s g job).1.gLock i (adding g.pc) (adding (located s g job).2.pc) ∧ (located s g job).1.mLock = none := by
  cases job with
  | add e => exact ⟨.inr (.inr ⟨rfl, fun _ => rfl⟩), rfl⟩
  | get p b =>
    simp only [located]
    split <;> exact ⟨.inr (.inr ⟨rfl, fun h => by rw [ha] at h; simp [adding] at h⟩), rfl⟩

theorem step_hands {s s' : Shared} {i : Nat} {g g' : Gor} (h : g.step s i = some (s', g')) :
    Hands s.gLock s'.gLock i (adding g.pc) (adding g'.pc) ∧ Hands s.mLock s'.mLock i (inRing g.pc) (inRing g'.pc) := by
  have same : ∀ {l : Option Nat} {a b : Bool}, (a = true → b = true) → Hands l l i a b := fun h => .inr (.inr ⟨rfl, h⟩)
  unfold Gor.step at h
  cases hp : g.pc with
  | idle =>
    rw [hp] at h
    cases ht : g.todo with
    | nil => rw [ht] at h; simp at h
    | cons c todo =>
      rw [ht] at h
      cases c with
      | add e =>
        simp only at h
        split at h
        · injection h with h; injection h with h1 h2
          subst h1 h2
          exact ⟨.inr (.inl ⟨rfl, rfl⟩), same (by simp [inRing])⟩
        · simp at h
      | get p =>
        simp only at h
        injection h with h; injection h with h1 h2
        subst h1 h2
        exact ⟨same (by simp [adding]), same (by simp [inRing])⟩
  | position job =>
    rw [hp] at h
    simp only at h
    split at h
    · injection h with h; injection h with h1 h2
      subst h1 h2
      exact ⟨same (by cases job <;> simp [adding]), .inr (.inl ⟨rfl, rfl⟩)⟩
    · simp at h
  | clock job =>
    rw [hp] at h
    simp only at h
    split at h
    · injection h with h
      obtain ⟨h1, h2⟩ := located_hands s g job i (by rw [hp])
      rw [h] at h1 h2
      rw [hp] at h1
      exact ⟨h1, .inl h2⟩
    · injection h with h; injection h with h1 h2
      subst h1 h2
      exact ⟨same (by cases job <;> simp [adding]), same (by simp [inRing])⟩
  | clearing job cur k w =>
    cases w with
    | some f =>
    rw [hp] at h
    injection h with h; injection h with h1 h2
    subst h1 h2
    exact ⟨same (by cases f <;> cases job <;> simp [adding]), same (by cases f <;> simp [inRing])⟩
    | none =>
    rw [hp] at h
    simp only at h
    split at h
    · injection h with h; injection h with h1 h2
      subst h1 h2
      exact ⟨same (by cases job <;> simp [adding]), same (by simp [inRing])⟩
    · injection h with h
      obtain ⟨h1, h2⟩ := located_hands { s with meter := { s.meter with time := cur, pos := (cur % bucketSize).toNat } } g job i
        (by rw [hp]; cases job <;> rfl)
      rw [h] at h1 h2
      rw [hp] at h1
      exact ⟨h1, .inl h2⟩
  | load a f =>
    rw [hp] at h
    injection h with h; injection h with h1 h2
    subst h1 h2
    exact ⟨same (by simp [adding]), same (by simp [inRing])⟩
  | store a f v =>
    rw [hp] at h
    injection h with h; injection h with h1 h2
    subst h1 h2
    refine ⟨same ?_, same (by simp [inRing])⟩
    cases f <;> simp [adding]
  | unlock a =>
    rw [hp] at h
    injection h with h; injection h with h1 h2
    subst h1 h2
    exact ⟨.inl rfl, same (by simp [inRing])⟩
  | scan c f =>
    rw [hp] at h
    injection h with h; injection h with h1 h2
    subst h1
    exact ⟨same (by simp [adding]), same (by simp [inRing])⟩

theorem Held.run (t0 : Int) (todos : List (List Call)) (es : List Event) : Held ((State.start t0 todos).run es) := by
  induction es using List.reverseRecOn with
  | nil => exact ⟨fun j h => by simp [State.run, State.start] at h, fun j h => by simp [State.run, State.start] at h⟩
  | append_singleton es e ih =>
    rw [run_snoc]
    revert ih
    generalize (State.start t0 todos).run es = s
    intro ih
    cases e with
    | tick => exact ⟨ih.g, ih.m⟩
    | go i =>
      simp only [State.fire]
      cases hg : s.gors[i]? with
      | none => exact ih
      | some g =>
        simp only []
        cases hs : g.step s.shared i with
        | none => exact ih
        | some r =>
          obtain ⟨s', g'⟩ := r
          obtain ⟨h1, h2⟩ := step_hands hs
          have hi := (List.getElem?_eq_some_iff.1 hg).1
          have key : ∀ (l l' : Option Nat) (p : Pc → Bool), Hands l l' i (p g.pc) (p g'.pc) →
              (∀ j, l = some j → ∃ g, s.gors[j]? = some g ∧ p g.pc = true) →
              ∀ j, l' = some j → ∃ h, (s.gors.set i g')[j]? = some h ∧ p h.pc = true := by
            intro l l' p hh hl j hj
            rcases hh with e | ⟨e, hp⟩ | ⟨e, hp⟩
            · rw [e] at hj; simp at hj
            · rw [e] at hj
              injection hj with hj
              subst hj
              exact ⟨g', List.getElem?_set_self hi, hp⟩
            · rw [e] at hj
              obtain ⟨h, hh, hp'⟩ := hl j hj
              by_cases hij : i = j
              · subst hij
                rw [hg] at hh
                injection hh with hh
                subst hh
                exact ⟨g', List.getElem?_set_self hi, hp hp'⟩
              · exact ⟨h, by rw [List.getElem?_set_ne hij]; exact hh, hp'⟩
          exact ⟨key _ _ adding h1 ih.g, key _ _ inRing h2 ih.m⟩

theorem inRing_moves {s : Shared} {i : Nat} {g : Gor} (h : inRing g.pc = true) : g.step s i ≠ none := by
  unfold Gor.step
  cases hp : g.pc <;> rw [hp] at h <;> simp [inRing] at h
  case clock => simp only; split <;> simp
  case clearing job cur k w =>
    cases w with
    | none => simp only; split <;> simp
    | some f => simp

/-- **C114**: no schedule leads into a deadlock: as long as some goroutine has a call to make or to finish, one of them can go on. -/
theorem C114_no_deadlock (t0 : Int) (todos : List (List Call)) (es : List Event)
    (hd : ∃ g ∈ ((State.start t0 todos).run es).gors, g.pc ≠ .idle ∨ g.todo ≠ []) :
    ∃ (i : Nat) (g : Gor), ((State.start t0 todos).run es).gors[i]? = some g ∧ g.step ((State.start t0 todos).run es).shared i ≠ none := by
  have hH := Held.run t0 todos es
  revert hH hd
  generalize (State.start t0 todos).run es = s
  rintro ⟨g, hg, hd⟩ hH
  obtain ⟨i, hi⟩ := List.mem_iff_getElem?.mp hg
  by_cases hm : s.shared.mLock = none
  · -- the ring is free
    have pos : ∀ (j : Nat) (h : Gor), adding h.pc = true → h.step s.shared j ≠ none := by
      intro j h ha
      by_cases hr : inRing h.pc = true
      · exact inRing_moves hr
      · unfold Gor.step
        cases hp : h.pc <;> rw [hp] at ha hr <;> simp [adding] at ha <;> simp [inRing] at hr <;> simp [hm]
    by_cases hgl : s.shared.gLock = none
    · refine ⟨i, g, hi, ?_⟩
      unfold Gor.step
      cases hp : g.pc with
      | idle =>
        cases ht : g.todo with
        | nil => simp [hp, ht] at hd
        | cons c todo => cases c <;> simp [hgl]
      | position job => simp [hm]
      | clock job => simp only; split <;> simp
      | clearing job cur k w => cases w <;> simp only
                                · split <;> simp
                                · simp
      | _ => simp
    · obtain ⟨j, hj⟩ := Option.ne_none_iff_exists'.mp hgl
      obtain ⟨h, hh, ha⟩ := hH.g j hj
      exact ⟨j, h, hh, pos j h ha⟩
  · obtain ⟨j, hj⟩ := Option.ne_none_iff_exists'.mp hm
    obtain ⟨h, hh, ha⟩ := hH.m j hj
    exact ⟨j, h, hh, inRing_moves ha⟩

/-- Steps left to the end of the call a goroutine is in, at most. -/
def stepsLeft : Pc → Nat
  | .idle => 0
  | .position _ => 2300
  | .clock _ => 2290
  | .clearing _ _ k none => 950 + 3 * (301 - k)
  | .clearing _ _ k (some .value) => 949 + 3 * (301 - k)
  | .clearing _ _ k (some .count) => 948 + 3 * (301 - k)
  | .load _ f => 7 - 2 * f.idx
  | .store _ f _ => 6 - 2 * f.idx
  | .unlock _ => 1
  | .scan c f => 2 * c.left - f.ridx

def work (g : Gor) : Nat := stepsLeft g.pc + 2400 * g.todo.length

/-- A loop under way has buckets left, at most 300 to read and 301 to clear. -/
def Looping : Pc → Prop
  | .scan c _ => 1 ≤ c.left ∧ c.left ≤ 300
  | .clearing _ _ k (some _) => k < 301
  | _ => True

theorem located_work (s : Shared) (g : Gor) (job : Job) :
    Looping (located s g job).2.pc ∧ stepsLeft (located s g job).2.pc ≤ 900 ∧ (located s g job).2.todo = g.todo := by
  cases job with
  | add e => exact ⟨trivial, by simp [located, stepsLeft, Field.idx], rfl⟩
  | get p b =>
    simp only [located]
    obtain ⟨h1, h2⟩ := check_le p
    split
    · exact ⟨trivial, by simp [stepsLeft], rfl⟩
    · next hz =>
      have : (Meter.check p).toNat ≤ 300 := by omega
      exact ⟨⟨by show 1 ≤ (Meter.check p).toNat; omega, this⟩, by simp only [stepsLeft]; omega, rfl⟩

theorem step_work {s s' : Shared} {i : Nat} {g g' : Gor} (h : g.step s i = some (s', g')) (hl : Looping g.pc) :
    Looping g'.pc ∧ work g' < work g := by
  unfold Gor.step at h
  unfold work
  cases hp : g.pc with
  | idle =>
    rw [hp] at h
    cases ht : g.todo with
    | nil => rw [ht] at h; simp at h
    | cons c todo =>
      rw [ht] at h
      cases c with
      | add e =>
        simp only at h
        split at h
        · injection h with h; injection h with h1 h2
          subst h1 h2
          exact ⟨trivial, by simp only [stepsLeft, List.length_cons]; omega⟩
        · simp at h
      | get p =>
        simp only at h
        injection h with h; injection h with h1 h2
        subst h1 h2
        exact ⟨trivial, by simp only [stepsLeft, List.length_cons]; omega⟩
  | position job =>
    rw [hp] at h
    simp only at h
    split at h
    · injection h with h; injection h with h1 h2
      subst h1 h2
      exact ⟨trivial, by simp only [stepsLeft]; omega⟩
    · simp at h
  | clock job =>
    rw [hp] at h
    simp only at h
    split at h
    · injection h with h
      obtain ⟨h1, h2, h3⟩ := located_work s g job
      rw [h] at h1 h2 h3
      simp only at h1 h2 h3
      exact ⟨h1, by rw [h3]; simp only [stepsLeft] at h2 ⊢; omega⟩
    · injection h with h; injection h with h1 h2
      subst h1 h2
      exact ⟨trivial, by simp only [stepsLeft]; omega⟩
  | clearing job cur k w =>
    cases w with
    | some f =>
    rw [hp] at h
    injection h with h; injection h with h1 h2
    subst h1 h2
    rw [hp] at hl
    have hl : k < 301 := hl
    cases f
    · exact ⟨trivial, by simp only [stepsLeft]; omega⟩
    · exact ⟨hl, by simp only [stepsLeft]; omega⟩
    | none =>
    rw [hp] at h
    simp only at h
    split at h
    · next hk =>
      injection h with h; injection h with h1 h2
      subst h1 h2
      have hk := hk.2
      rw [show bucketSize = 301 from rfl] at hk
      exact ⟨hk, by simp only [stepsLeft]; omega⟩
    · injection h with h
      obtain ⟨h1, h2, h3⟩ := located_work { s with meter := { s.meter with time := cur, pos := (cur % bucketSize).toNat } } g job
      rw [h] at h1 h2 h3
      simp only at h1 h2 h3
      exact ⟨h1, by rw [h3]; simp only [stepsLeft] at h2 ⊢; omega⟩
  | load a f =>
    rw [hp] at h
    injection h with h; injection h with h1 h2
    subst h1 h2
    exact ⟨trivial, by cases f <;> simp [stepsLeft, Field.idx]⟩
  | store a f v =>
    rw [hp] at h
    injection h with h; injection h with h1 h2
    subst h1 h2
    cases f <;> exact ⟨trivial, by simp [stepsLeft, Field.idx]⟩
  | unlock a =>
    rw [hp] at h
    injection h with h; injection h with h1 h2
    subst h1 h2
    exact ⟨trivial, by simp only [stepsLeft]; omega⟩
  | scan c f =>
    rw [hp] at h hl
    obtain ⟨l1, l2⟩ := hl
    injection h with h; injection h with h1 h2
    subst h1 h2
    cases f
    case value => exact ⟨⟨l1, l2⟩, by simp only [stepsLeft, Field.ridx, Scan.plus]; omega⟩
    case count =>
      simp only [advance]
      split
      · exact ⟨trivial, by simp only [stepsLeft, Field.ridx]; omega⟩
      · next hn =>
        have hn : c.left ≠ 1 := hn
        exact ⟨⟨by show 1 ≤ c.left - 1; omega, by show c.left - 1 ≤ 300; omega⟩, by simp only [stepsLeft, Field.ridx, Scan.plus]; omega⟩

theorem looping_run (t0 : Int) (todos : List (List Call)) (es : List Event) : ∀ g ∈ ((State.start t0 todos).run es).gors, Looping g.pc := by
  induction es using List.reverseRecOn with
  | nil =>
    intro g hg
    obtain ⟨t, -, rfl⟩ := List.mem_map.mp hg
    trivial
  | append_singleton es e ih =>
    rw [run_snoc]
    revert ih
    generalize (State.start t0 todos).run es = s
    intro ih
    cases e with
    | tick => exact ih
    | go i =>
      simp only [State.fire]
      cases hg : s.gors[i]? with
      | none => exact ih
      | some g =>
        simp only []
        cases hs : g.step s.shared i with
        | none => exact ih
        | some r =>
          intro h hh
          rcases List.mem_or_eq_of_mem_set hh with hh | rfl
          · exact ih h hh
          · exact (step_work hs (ih g (mem_of hg))).1

/-- **C114**: whatever has happened, all calls can be brought to an end: there is a way to go on (without the clock having to move) after which every
goroutine is through. -/
theorem C114_all_calls_can_end (t0 : Int) (todos : List (List Call)) (es : List Event) :
    ∃ is : List Nat, ∀ g ∈ ((State.start t0 todos).run (es ++ is.map .go)).gors, g.pc = .idle ∧ g.todo = [] := by
  have key : ∀ (n : Nat) (es : List Event), (((State.start t0 todos).run es).gors.map fun g => (work g : Int)).sum < n →
      ∃ is : List Nat, ∀ g ∈ ((State.start t0 todos).run (es ++ is.map .go)).gors, g.pc = .idle ∧ g.todo = [] := by
    intro n
    induction n with
    | zero =>
      intro es h
      have : ∀ l : List Gor, 0 ≤ (l.map fun g => (work g : Int)).sum := by
        intro l
        induction l with
        | nil => exact Int.le_refl _
        | cons a l ih => rw [List.map_cons, List.sum_cons]; omega
      have := this ((State.start t0 todos).run es).gors
      omega
    | succ n ih =>
      intro es h
      by_cases hd : ∃ g ∈ ((State.start t0 todos).run es).gors, g.pc ≠ .idle ∨ g.todo ≠ []
      · obtain ⟨i, g, hg, hs⟩ := C114_no_deadlock t0 todos es hd
        obtain ⟨r, hs⟩ := Option.ne_none_iff_exists'.mp hs
        have hw := (step_work hs (looping_run t0 todos es g (mem_of hg))).2
        have hsum := sum_set (fun g => (work g : Int)) _ i g r.2 hg
        obtain ⟨is, his⟩ := ih (es ++ [.go i]) (by
          rw [run_snoc]
          simp only [State.fire, hg, hs]
          omega)
        exact ⟨i :: is, by simpa using his⟩
      · refine ⟨[], fun g hg => ?_⟩
        simp only [List.map_nil, List.append_nil] at hg
        have : ¬ (g.pc ≠ .idle ∨ g.todo ≠ []) := fun h' => hd ⟨g, hg, h'⟩
        simpa using this
  exact key _ es (Int.lt_succ (((((State.start t0 todos).run es).gors.map fun g => (work g : Int)).sum.toNat : Nat) : Int) |> fun h => by
    have := Int.self_le_toNat (((State.start t0 todos).run es).gors.map fun g => (work g : Int)).sum
    push_cast at *
    exact Int.lt_of_le_of_lt this h)

/-! ### Examples -/

/-- One goroutine records twice and reads in between and afterwards, as countertask.go:62-63 does; another reads too (:87). -/
def sampleTodos : List (List Call) := [[.add 10, .get 3, .add 20, .get 3], [.get 5]]

/-- The second goroutine reads the sum of the current second; the first records, reads, records after a second and reads; then the second goes on. -/
def sampleEvents : List Event :=
  List.replicate 4 (.go 1) ++ List.replicate 17 (.go 0) ++ [.tick] ++ List.replicate 22 (.go 0) ++ List.replicate 9 (.go 1)

theorem sample_timely : AllTimely (State.start 1000 sampleTodos) sampleEvents := by
  have h : ∀ n ≤ sampleEvents.length, ((State.start 1000 sampleTodos).run (sampleEvents.take n)).gors.all
      (fun g => (deadline g.pc).all fun d => ((State.start 1000 sampleTodos).run (sampleEvents.take n)).shared.now ≤ d) = true := by
    decide +kernel
  intro n
  have h' : ∀ m ≤ sampleEvents.length, Timely ((State.start 1000 sampleTodos).run (sampleEvents.take m)) := by
    intro m hm g hg d hd
    have := List.all_eq_true.mp (h m hm) g hg
    rw [hd] at this
    simpa using this
  by_cases hn : n ≤ sampleEvents.length
  · exact h' n hn
  · have := h' _ (Nat.le_refl sampleEvents.length)
    rw [List.take_length] at this
    rwa [List.take_of_length_le (by omega)]

theorem sample_only : OnlyAdds 0 sampleTodos := by
  intro j t hj hne c hc
  match j, hj with
  | 0, _ => exact absurd rfl hne
  | 1, hj =>
    have : t = [.get 5] := by simpa [sampleTodos] using hj.symm
    rw [this] at hc
    exact ⟨5, by simpa using hc⟩
  | j + 2, hj => simp [sampleTodos] at hj

/-- Hypotheses of the C114 theorems met: all are through; the recorder's readings are exact (10, then the average 15 of two); the other reading
began before anything was recorded and found one of the two recordings in its count and none in its sum. -/
example : (((State.start 1000 sampleTodos).run sampleEvents).gors.map fun g => (g.pc, g.todo)) = List.replicate 2 (.idle, []) ∧
    ((State.start 1000 sampleTodos).run sampleEvents).shared.returned = [(1000, 10), (1001, 20)] ∧
    (((State.start 1000 sampleTodos).run sampleEvents).gors.map fun g => g.readings.map fun r => [r.second, r.begun.length, r.ended.length, r.count, r.sum]) =
      [[[1000, 1, 1, 1, 10], [1001, 2, 2, 2, 30]], [[1000, 0, 2, 1, 0]]] :=
  ⟨by decide +kernel, by decide +kernel, by decide +kernel⟩

/-- **C114**: there is no such bound from below: a reading that found a bucket's sum before and its count after a recording answers an average of 0
although every value recorded is at least 10. -/
theorem C114_torn_reading : ∃ (todos : List (List Call)) (es : List Event), AllTimely (State.start 1000 todos) es ∧
    ∃ g ∈ ((State.start 1000 todos).run es).gors, ∃ r ∈ g.readings, (∀ v ∈ r.ended, 10 ≤ v.2) ∧ r.answer.count = 1 ∧ r.answer.avg = 0 := by
  refine ⟨sampleTodos, sampleEvents, sample_timely, ?_⟩
  have h : ((State.start 1000 sampleTodos).run sampleEvents).gors.any (fun g => g.readings.any fun r =>
      decide ((∀ v ∈ r.ended, 10 ≤ v.2) ∧ r.count = 1 ∧ r.sum = 0)) = true := by decide +kernel
  obtain ⟨g, hg, h⟩ := List.any_eq_true.mp h
  obtain ⟨r, hr, h⟩ := List.any_eq_true.mp h
  obtain ⟨h1, h2, h3⟩ := of_decide_eq_true h
  refine ⟨g, hg, r, hr, h1, h2, ?_⟩
  unfold Reading.answer
  simp only [h2, h3]
  simp

/-- A recording of 10 is held up before it writes the value; 301 seconds later a reading clears its bucket; then it goes on, 1 is recorded and the last
second read. -/
def slowTodos : List (List Call) := [[.add 10], [.get 1], [.add 1, .get 1]]

/-- What happens until the bucket of the slow recording is the next to be cleared, in three parts. -/
def slowEvents₁ : List Event := List.replicate 6 (.go 0) ++ List.replicate 301 .tick ++ List.replicate 3 (.go 1)

def slowEvents₂ : List Event := List.replicate 300 (.go 1)

def slowEvents : List Event :=
  slowEvents₁ ++ slowEvents₂ ++ slowEvents₂ ++ slowEvents₂ ++ List.replicate 9 (.go 1) ++ List.replicate 2 (.go 0) ++ List.replicate 20 (.go 2)

deriving instance DecidableEq for Meter
deriving instance DecidableEq for Shared
deriving instance DecidableEq for State

/-- The second goroutine has cleared `k` buckets. -/
def slowAt (k : Nat) : State where
  shared :=
    { now := 1301, meter := { time := 1000, pos := (97 + k) % 301, table := (List.replicate 301 {}).set 97 { count := 1 } }, gLock := some 0,
      mLock := some 1, entered := [(1000, 10)] }
  gors := [{ pc := .store ⟨(1000, 10), 97⟩ .value 0 }, { pc := .clearing (.get 1 []) 1301 k none }, { todo := [.add 1, .get 1] }]

theorem slow_reached : (State.start 1000 slowTodos).run (slowEvents₁ ++ slowEvents₂ ++ slowEvents₂ ++ slowEvents₂) = slowAt 300 := by
  have h0 : (State.start 1000 slowTodos).run slowEvents₁ = slowAt 0 := by decide +kernel
  have h1 : (slowAt 0).run slowEvents₂ = slowAt 100 := by decide +kernel
  have h2 : (slowAt 100).run slowEvents₂ = slowAt 200 := by decide +kernel
  have h3 : (slowAt 200).run slowEvents₂ = slowAt 300 := by decide +kernel
  have ha : ∀ (s : State) (a b : List Event), s.run (a ++ b) = (s.run a).run b := fun s a b => List.foldl_append
  rw [ha, ha, ha, h0, h1, h2, h3]

/-- **C114**: the hypothesis is needed: after a recording that was held up for 301 seconds the average of a second is 11 although the only value
recorded in it is 1. -/
theorem C114_slow_recording_misplaced : ∃ g ∈ ((State.start 1000 slowTodos).run slowEvents).gors,
    ∃ r ∈ g.readings, window r.second (min r.period 300) r.ended = [1] ∧ r.answer.avg = 11 := by
  have e : (State.start 1000 slowTodos).run slowEvents =
      (slowAt 300).run (List.replicate 9 (.go 1) ++ List.replicate 2 (.go 0) ++ List.replicate 20 (.go 2)) := by
    have ha : ∀ (s : State) (a b : List Event), s.run (a ++ b) = (s.run a).run b := fun s a b => List.foldl_append
    unfold slowEvents
    rw [ha, ha, ha, slow_reached, ha, ha]
  rw [e]
  have h : ((slowAt 300).run (List.replicate 9 (.go 1) ++ List.replicate 2 (.go 0) ++ List.replicate 20 (.go 2))).gors.any (fun g => g.readings.any fun r =>
      decide (window r.second (min r.period 300) r.ended = [1] ∧ r.count = 1 ∧ r.sum = 11)) = true := by decide +kernel
  obtain ⟨g, hg, h⟩ := List.any_eq_true.mp h
  obtain ⟨r, hr, h⟩ := List.any_eq_true.mp h
  obtain ⟨h1, h2, h3⟩ := of_decide_eq_true h
  refine ⟨g, hg, r, hr, h1, ?_⟩
  unfold Reading.answer
  simp only [h2, h3]
  norm_num

end ConcurrentValue
end Scouter
