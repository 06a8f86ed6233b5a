import Verif.Model.Meter
import Verif.Spec.Window
import Mathlib.Tactic.Ring
/-!
# Buckets hold what was recorded in their second
-/
namespace Scouter
namespace Meter
variable {B : Type}

/-- Something done to a meter at a time: changing the current bucket, or only looking. -/
abbrev Ev (B : Type) := Int × Option (B → B)

def apply (empty : B) (m : Meter B) (e : Ev B) : Meter B :=
  match e.2 with
  | some f => m.update empty e.1 f
  | none => m.position empty e.1

/-- What should be in the bucket of second `s`. -/
def bucketOf (empty : B) (log : List (Ev B)) (s : Int) : B :=
  (log.filterMap fun e => if e.1 = s then e.2 else none).foldl (fun b f => f b) empty

theorem bucketOf_nil (empty : B) (s : Int) : bucketOf empty [] s = empty := rfl

theorem bucketOf_append (empty : B) (log : List (Ev B)) (e : Ev B) (s : Int) :
    bucketOf empty (log ++ [e]) s = match e.2 with
      | some f => if e.1 = s then f (bucketOf empty log s) else bucketOf empty log s
      | none => bucketOf empty log s := by
  unfold bucketOf
  rw [List.filterMap_append, List.foldl_append]
  obtain ⟨t, o⟩ := e
  cases o with
  | none => simp
  | some f => by_cases h : t = s <;> simp [h]

theorem bucketOf_late (empty : B) (log : List (Ev B)) (s : Int) (h : ∀ e ∈ log, e.1 < s) : bucketOf empty log s = empty := by
  unfold bucketOf
  have : log.filterMap (fun e => if e.1 = s then e.2 else none) = [] := by
    rw [List.filterMap_eq_nil_iff]
    intro e he
    have := h e he
    rw [if_neg (by omega)]
  rw [this]; rfl

/-- The state of a meter after the events of `log`. -/
structure Inv (empty : B) (m : Meter B) (log : List (Ev B)) : Prop where
  pos : m.pos = (m.time % 301).toNat
  len : m.table.length = 301
  past : ∀ e ∈ log, e.1 ≤ m.time
  at_ : ∀ s, m.time - 300 ≤ s → s ≤ m.time → m.table[(s % 301).toNat]? = some (bucketOf empty log s)

theorem Inv.start (empty : B) (t : Int) : Inv empty (Meter.new empty t) [] := by
  refine ⟨rfl, List.length_replicate, by simp, fun s _ _ => ?_⟩
  have : (s % 301).toNat < 301 := by omega
  simp only [Meter.new, bucketSize]
  rw [List.getElem?_replicate, if_pos this]
  rfl

theorem clearNext_pos (empty : B) (m : Meter B) (h : m.pos < 301) : (m.clearNext empty).pos = (m.pos + 1) % 301 := by
  show (if m.pos + 1 > 301 - 1 then 0 else m.pos + 1) = (m.pos + 1) % 301
  by_cases h' : m.pos + 1 > 301 - 1
  · rw [if_pos h']; omega
  · rw [if_neg h']; omega

theorem clearLoop_spec (empty : B) (n : Nat) : ∀ m : Meter B, m.pos < 301 → m.table.length = 301 →
    (clearLoop empty n m).table.length = 301 ∧
    (∀ r, (∃ j, 1 ≤ j ∧ j ≤ n ∧ (m.pos + j) % 301 = r) → (clearLoop empty n m).table[r]? = some empty) ∧
    (∀ r, (¬ ∃ j, 1 ≤ j ∧ j ≤ n ∧ (m.pos + j) % 301 = r) → (clearLoop empty n m).table[r]? = m.table[r]?) := by
  induction n with
  | zero =>
    intro m hp hl
    refine ⟨hl, ?_, fun _ _ => rfl⟩
    rintro r ⟨j, h1, h2, -⟩
    omega
  | succ n ih =>
    intro m hp hl
    have hp1 := clearNext_pos empty m hp
    have ht1 : (m.clearNext empty).table = m.table.set ((m.pos + 1) % 301) empty := by
      rw [← hp1]; rfl
    obtain ⟨h1, h2, h3⟩ := ih (m.clearNext empty) (by rw [hp1]; omega) (by rw [ht1]; simp [hl])
    refine ⟨h1, ?_, ?_⟩
    · rintro r ⟨j, hj1, hj2, hj3⟩
      show (clearLoop empty n (m.clearNext empty)).table[r]? = _
      by_cases hex : ∃ j, 1 ≤ j ∧ j ≤ n ∧ ((m.clearNext empty).pos + j) % 301 = r
      · exact h2 r hex
      · rw [h3 r hex]
        have hj : j = 1 := by
          by_contra hne
          refine hex ⟨j - 1, by omega, by omega, ?_⟩
          rw [hp1]; omega
        subst hj
        rw [ht1, List.getElem?_set]
        have : r < 301 := by omega
        simp [hj3, hl, this]
    · intro r hr
      show (clearLoop empty n (m.clearNext empty)).table[r]? = _
      rw [h3 r ?_, ht1, List.getElem?_set]
      · rw [if_neg]
        intro he
        exact hr ⟨1, by omega, by omega, he⟩
      · rintro ⟨j, hj1, hj2, hj3⟩
        refine hr ⟨j + 1, by omega, by omega, ?_⟩
        rw [hp1] at hj3; omega

theorem Inv.position {empty : B} {m : Meter B} {log : List (Ev B)} (h : Inv empty m log) {cur : Int} (hc : m.time ≤ cur) :
    Inv empty (m.position empty cur) log ∧ (m.position empty cur).time = cur := by
  unfold Meter.position
  by_cases he : cur = m.time
  · simp only [he, ne_eq, not_true, if_false]
    exact ⟨h, trivial⟩
  · rw [if_pos he]
    have hp : m.pos < 301 := by rw [h.pos]; omega
    set n := min (cur - m.time).toNat bucketSize with hn
    have hn' : n = min (cur - m.time).toNat 301 := hn
    obtain ⟨h1, h2, h3⟩ := clearLoop_spec empty n m hp h.len
    refine ⟨⟨rfl, h1, fun e hm => Int.le_trans (h.past e hm) hc, ?_⟩, rfl⟩
    intro s hs1 hs2
    simp only at hs1 hs2 ⊢
    by_cases hold : s ≤ m.time
    · rw [h3, h.at_ s (by omega) hold]
      rintro ⟨j, hj1, hj2, hj3⟩
      rw [h.pos] at hj3
      omega
    · rw [bucketOf_late empty log s (fun e hm => by have := h.past e hm; omega)]
      refine h2 _ ?_
      by_cases hbig : s - m.time ≤ 301
      · refine ⟨(s - m.time).toNat, by omega, by omega, ?_⟩
        rw [h.pos]; omega
      · have hall : n = 301 := by omega
        have : ∃ j : Nat, 1 ≤ j ∧ j ≤ 301 ∧ (m.pos + j) % 301 = (s % 301).toNat := by
          by_cases hlt : m.pos < (s % 301).toNat
          · exact ⟨(s % 301).toNat - m.pos, by omega, by omega, by omega⟩
          · exact ⟨(s % 301).toNat + 301 - m.pos, by omega, by omega, by omega⟩
        obtain ⟨j, a, b, c⟩ := this
        exact ⟨j, a, by omega, c⟩

theorem Inv.apply {empty : B} {m : Meter B} {log : List (Ev B)} (h : Inv empty m log) {e : Ev B} (hc : m.time ≤ e.1) :
    Inv empty (m.apply empty e) (log ++ [e]) ∧ (m.apply empty e).time = e.1 := by
  obtain ⟨h1, h2⟩ := h.position hc
  obtain ⟨t, o⟩ := e
  simp only at hc h1 h2
  have past : ∀ e ∈ log ++ [(t, o)], e.1 ≤ t := by
    intro e he
    rcases List.mem_append.mp he with he | he
    · exact h2 ▸ h1.past e he
    · rw [List.mem_singleton] at he; rw [he]
  cases o with
  | none =>
    refine ⟨⟨h1.pos, h1.len, ?_, ?_⟩, h2⟩
    · intro e he; have := past e he; rw [show (Meter.apply empty m (t, none)).time = t from h2]; exact this
    · intro s hs1 hs2
      rw [bucketOf_append]
      exact h1.at_ s hs1 hs2
  | some f =>
    refine ⟨⟨h1.pos, ?_, ?_, ?_⟩, h2⟩
    · show ((m.position empty t).table.modify (m.position empty t).pos f).length = 301; rw [List.length_modify]; exact h1.len
    · intro e he; have := past e he; rw [show (Meter.apply empty m (t, some f)).time = t from h2]; exact this
    · intro s hs1 hs2
      have hs1 : (m.position empty t).time - 300 ≤ s := hs1
      have hs2 : s ≤ (m.position empty t).time := hs2
      show ((m.position empty t).table.modify (m.position empty t).pos f)[(s % 301).toNat]? = _
      rw [bucketOf_append, List.getElem?_modify, h1.at_ s hs1 hs2, h1.pos, h2]
      rw [h2] at hs1 hs2
      by_cases hts : t = s
      · subst hts; simp
      · have hne : ¬ (t % 301).toNat = (s % 301).toNat := by omega
        simp [hts, hne]

/-- The meter after events. -/
def run (empty : B) (m : Meter B) (log : List (Ev B)) : Meter B := log.foldl (Meter.apply empty) m

theorem Inv.run {empty : B} {m : Meter B} {log evs : List (Ev B)} (h : Inv empty m log)
    (hf : Spec.Forward m.time (evs.map (·.1))) : Inv empty (run empty m evs) (log ++ evs) ∧
      (run empty m evs).time = Spec.lastOf m.time (evs.map (·.1)) := by
  induction evs generalizing m log with
  | nil => simpa [Meter.run, Spec.lastOf] using h
  | cons e es ih =>
    obtain ⟨h1, h2⟩ := h.apply hf.1
    obtain ⟨h3, h4⟩ := ih h1 (by rw [h2]; exact hf.2)
    rw [List.append_assoc] at h3
    refine ⟨h3, ?_⟩
    show (Meter.run empty (m.apply empty e) es).time = _
    rw [h4, h2]
    simp only [Spec.lastOf, List.map_cons]
    cases es with
    | nil => rfl
    | cons a as => simp [List.getLast?_cons]

/-- The buckets visited are those of the last seconds. -/
theorem Inv.visit {empty : B} {m : Meter B} {log : List (Ev B)} (h : Inv empty m log) (n : Nat) (hn : n ≤ 301) :
    m.visit n m.pos = (List.range n).map fun i : Nat => bucketOf empty log (m.time - i) := by
  have key : ∀ n k : Nat, k + n ≤ 301 → m.visit n ((m.time - k) % 301).toNat =
      (List.range n).map fun i : Nat => bucketOf empty log (m.time - k - i) := by
    intro n
    induction n with
    | zero => intro k _; rfl
    | succ n ih =>
      intro k hk
      unfold Meter.visit
      rw [h.at_ (m.time - k) (by omega) (by omega)]
      have hback : stepBack ((m.time - k) % 301).toNat = ((m.time - (k + 1 : Nat)) % 301).toNat := by
        unfold stepBack bucketSize
        split <;> omega
      rw [hback, ih (k + 1) (by omega), List.range_succ_eq_map, List.map_cons, List.map_map]
      simp only [Option.toList_some, List.singleton_append, List.cons.injEq]
      refine ⟨by simp, ?_⟩
      apply List.map_congr_left
      intro i _
      simp only [Function.comp]
      congr 1
      push_cast
      ring
  have := key n 0 (by omega)
  rw [h.pos]
  simpa using this

end Meter
end Scouter
