import Verif.Proofs.Figures
import Verif.Props.Counters
import Mathlib.Tactic.Linarith
import Mathlib.Tactic.FieldSimp
/-!
# C112: the figures of the counter packs as floating-point numbers
-/
namespace Scouter
namespace Floating
open Spec Counter Trace

/-! ## Rounding -/

theorem nearest_best (t : ℚ) (k : Int) : |(nearest t : ℚ) - t| ≤ |(k : ℚ) - t| := by
  have h0 := Int.floor_le t
  have h1 := Int.lt_floor_add_one t
  have key : |(nearest t : ℚ) - t| ≤ t - ⌊t⌋ ∧ |(nearest t : ℚ) - t| ≤ ⌊t⌋ + 1 - t := by
    unfold nearest
    split
    · next h =>
      rw [abs_of_nonpos (by linarith)]
      constructor <;> linarith
    · next h =>
      split
      · next h' =>
        rw [abs_of_nonpos (by linarith)]
        constructor <;> linarith [h'.1]
      · push_cast
        rw [abs_of_nonneg (by linarith)]
        constructor <;> linarith
  rcases Int.lt_or_le ⌊t⌋ k with h | h
  · have : ((⌊t⌋ + 1 : Int) : ℚ) ≤ k := by exact_mod_cast h
    push_cast at this
    rw [abs_of_nonneg (a := (k : ℚ) - t) (by linarith)]
    linarith [key.2]
  · have : (k : ℚ) ≤ ⌊t⌋ := by exact_mod_cast h
    rw [abs_of_nonpos (a := (k : ℚ) - t) (by linarith)]
    linarith [key.1]

theorem grid_best (F : Format) (x : ℚ) (k : Int) : |F.rounded x - x| ≤ |k * 2 ^ F.exponent x - x| := by
  have hp := pow_pos' (F.exponent x)
  have h := nearest_best (x / 2 ^ F.exponent x) k
  have e : ∀ n : Int, (n : ℚ) * 2 ^ F.exponent x - x = ((n : ℚ) - x / 2 ^ F.exponent x) * 2 ^ F.exponent x := by
    intro n
    rw [sub_mul, div_mul_cancel₀ _ (ne_of_gt hp)]
  unfold Format.rounded
  rw [e, e, abs_mul, abs_mul]
  exact mul_le_mul_of_nonneg_right h (abs_nonneg _)

/-- **C112**, rounding: what is not negative is rounded to a number of the format, and none is nearer. -/
theorem C112_rounding (F : Format) (hd : 1 ≤ F.digits) (x : ℚ) (hx : 0 ≤ x) :
    F.Number (F.rounded x) ∧ ∀ y, F.Number y → |F.rounded x - x| ≤ |y - x| := by
  constructor
  · obtain ⟨m, hm⟩ := rounded_whole F hx hd
    refine ⟨m, _, ?_, least_le F _, hm⟩
    rcases eq_or_lt_of_le (rounded_nonneg F hx hd) with h0 | h0
    · rw [← h0] at hm
      rcases mul_eq_zero.mp hm.symm with h | h
      · have : m = 0 := by exact_mod_cast h
        rw [this]; positivity
      · exact absurd h (ne_of_gt (pow_pos' _))
    · have := lt_unit F h0
      have e : F.rounded x / 2 ^ F.exponent (F.rounded x) = m := by rw [div_eq_iff (ne_of_gt (pow_pos' _))]; exact hm
      rw [e] at this
      exact_mod_cast this
  · rintro y ⟨m, e, hm, he, rfl⟩
    rcases Int.lt_or_le e (F.exponent x) with h | h
    · have hx0 : x ≠ 0 := by
        rintro rfl
        unfold Format.exponent at h
        rw [if_pos rfl] at h
        omega
      have hxp : 0 < x := lt_of_le_of_ne hx (Ne.symm hx0)
      have hexp : F.exponent x = Int.log 2 x - (F.digits - 1) := by
        rw [exponent_pos F hxp] at h ⊢
        rcases max_choice (Int.log 2 x - ((F.digits : Int) - 1)) F.least with h' | h'
        · exact h'
        · rw [h'] at h; omega
      have hl : (2 : ℚ) ^ Int.log 2 x ≤ x := by
        have := Int.zpow_log_le_self (b := 2) (by norm_num) hxp
        exact_mod_cast this
      have h2 : (2 : ℚ) ^ Int.log 2 x = ((2 ^ (F.digits - 1) : Int) : ℚ) * 2 ^ F.exponent x := by
        push_cast
        rw [← zpow_natCast, ← zpow_add₀ (by norm_num), hexp]
        congr 1
        omega
      have h1 := grid_best F x (2 ^ (F.digits - 1))
      rw [← h2, abs_of_nonpos (a := (2 : ℚ) ^ Int.log 2 x - x) (by linarith)] at h1
      have h3 : (m : ℚ) * 2 ^ e ≤ 2 ^ Int.log 2 x := by
        have a1 : (m : ℚ) ≤ 2 ^ (F.digits : Int) := by rw [zpow_natCast]; exact_mod_cast le_of_lt hm
        calc (m : ℚ) * 2 ^ e ≤ 2 ^ (F.digits : Int) * 2 ^ e := mul_le_mul_of_nonneg_right a1 (le_of_lt (pow_pos' _))
          _ = 2 ^ ((F.digits : Int) + e) := (zpow_add₀ (by norm_num) _ _).symm
          _ ≤ 2 ^ Int.log 2 x := zpow_le_zpow_right₀ (by norm_num) (by omega)
      rw [abs_of_nonpos (a := (m : ℚ) * 2 ^ e - x) (by linarith)]
      linarith
    · obtain ⟨k, hk, -⟩ := pow_split h
      have h2 : (2 : ℚ) ^ e = k * 2 ^ F.exponent x := by rw [← hk]; field_simp
      have h1 := grid_best F x (m * k)
      rw [h2, ← mul_assoc]
      push_cast at h1
      exact h1

/-- A number of the format is rounded to itself. -/
theorem number_rounded {F : Format} (hd : 1 ≤ F.digits) {x : ℚ} (hx : 0 ≤ x) (h : F.Number x) : F.rounded x = x := by
  have := (C112_rounding F hd x hx).2 x h
  rw [sub_self, abs_zero] at this
  exact sub_eq_zero.mp (abs_eq_zero.mp (le_antisymm this (abs_nonneg _)))

/-! ## Throughput -/

/-- **C112**, throughput: the number of services per second sent for `n` services in a period of `p` seconds, read as a `float32`, is a
number within one part in four million of the exact one; it is 0 exactly when there were none; it is exact when it is a whole number
and there were at most 2^24 services. -/
theorem C112_throughput (n p : Nat) (hn : n < 2 ^ 63) (hp : 1 ≤ p) (hp' : p ≤ 300) :
    ∃ v, real (value32 (ieee.tps n p)) = some v ∧ |v - n / p| ≤ (n : ℚ) / p / 2 ^ 22 ∧ (v = 0 ↔ n = 0) ∧
      (n ≤ 2 ^ 24 → p ∣ n → v = n / p) := by
  obtain ⟨⟨-, hh⟩, -, -, hb⟩ := quotient single_wide (a := n) (b := p) (le_of_lt hn) (le_trans hp' (by norm_num)) hp false
  refine ⟨single.rounded (single.rounded n / single.rounded p), ?_, ?_, ?_, ?_⟩
  · show real (value32 (bits32 _)) = _
    rw [div_nat single_wide (le_of_lt hn) (le_trans hp' (by norm_num)) hp, value32_bits32 hh]
    rfl
  · exact hb.near (by positivity) 22 (by norm_num [unit, single]) (by norm_num [unit, single])
  · constructor
    · intro h0
      by_contra h
      have h1 := hb.low
      rw [h0] at h1
      have h2 : (0 : ℚ) < n / p := div_pos (by exact_mod_cast Nat.pos_of_ne_zero h) (by exact_mod_cast hp)
      have h3 : (0 : ℚ) < (1 - unit single) / (1 + unit single) * (1 - unit single) := by norm_num [unit, single]
      have := mul_pos h3 h2
      linarith
    · rintro rfl
      simp [rounded_zero]
  · rintro h24 ⟨k, rfl⟩
    have hp0 : (p : ℚ) ≠ 0 := by exact_mod_cast (by omega : p ≠ 0)
    have e1 := rounded_nat single (n := p) (le_trans hp' (by decide)) (by decide) (by decide)
    have e2 := rounded_nat single (n := p * k) h24 (by decide) (by decide)
    have e3 := rounded_nat single (n := k) (le_trans (Nat.le_mul_of_pos_left k hp) h24) (by decide) (by decide)
    rw [e1, e2]
    push_cast
    rw [mul_div_cancel_left₀ _ hp0, e3]

/-- **C112**, throughput: with more services it is no smaller. -/
theorem C112_throughput_grows (n m p : Nat) (h : n ≤ m) (hm : m < 2 ^ 63) (hp : 1 ≤ p) (hp' : p ≤ 300) :
    ∃ v w, real (value32 (ieee.tps n p)) = some v ∧ real (value32 (ieee.tps m p)) = some w ∧ v ≤ w := by
  have key : ∀ n : Nat, n < 2 ^ 63 → real (value32 (ieee.tps n p)) = some (single.rounded (single.rounded n / single.rounded p)) := by
    intro n hn
    obtain ⟨⟨-, hh⟩, -, -, -⟩ := quotient single_wide (a := n) (b := p) (le_of_lt hn) (le_trans hp' (by norm_num)) hp false
    show real (value32 (bits32 _)) = _
    rw [div_nat single_wide (le_of_lt hn) (le_trans hp' (by norm_num)) hp, value32_bits32 hh]
    rfl
  refine ⟨_, _, key n (by omega), key m hm, ?_⟩
  have h0 : (0 : ℚ) ≤ single.rounded n := rounded_nonneg single (by positivity) (by decide)
  have h1 : (0 : ℚ) ≤ single.rounded p := rounded_nonneg single (by positivity) (by decide)
  refine rounded_mono single (div_nonneg h0 h1) ?_ (by decide)
  exact div_le_div_of_nonneg_right (rounded_mono single (by positivity) (by exact_mod_cast h) (by decide)) h1

/-! ## The error rate -/

/-- The magnitude of the error rate. -/
def errorMag (e n : Nat) : ℚ := single.rounded (single.rounded (single.rounded e / single.rounded n) * 100)

theorem errorRate_real {e n : Nat} (he : e ≤ n) (hn : n < 2 ^ 63) (hn0 : 0 < n) :
    real (value32 (ieee.errorRate e n)) = some (errorMag e n) := by
  have h := scaled single_wide (a := e) (b := n) (c := 100) (by omega) (le_of_lt hn) hn0 (by norm_num) (by norm_num) false
  obtain ⟨⟨-, hh⟩, -, -⟩ := h
  have h1 := ratio_nat single_wide (a := e) (b := n) (c := 100) (by omega) (le_of_lt hn) hn0 (by norm_num) (by norm_num) (by decide)
  have e100 : ((100 : Nat) : ℚ) = 100 := by norm_num
  rw [e100] at h1 hh
  show real (value32 (bits32 _)) = _
  have h2 : single.ratio e n 100 = _ := h1
  rw [h2, value32_bits32 hh]
  rfl

theorem rounded_100 : single.rounded 100 = 100 := by
  have := rounded_nat single (n := 100) (by decide) (by decide) (by decide)
  simpa using this

theorem rounded_one : single.rounded 1 = 1 := by
  have := rounded_nat single (n := 1) (by decide) (by decide) (by decide)
  simpa using this

theorem rounded_pos_nat {n : Nat} (h : 0 < n) : 0 < single.rounded n := by
  have h2 := pow_le_rounded single (k := 0) (x := n) (by rw [zpow_zero]; exact_mod_cast h) (by decide) (by decide)
  rw [zpow_zero] at h2
  linarith

/-- **C112**, error rate: the percentage sent for `e` failed services of `n`, read as a `float32`, is a number from 0 to 100 within one part in
two million of the exact one; it is 0 exactly when none failed, and 100 when all did. -/
theorem C112_error_rate (e n : Nat) (he : e ≤ n) (hn : n < 2 ^ 63) (hn0 : 0 < n) :
    ∃ v, real (value32 (ieee.errorRate e n)) = some v ∧ |v - e / n * 100| ≤ (e : ℚ) / n * 100 / 2 ^ 21 ∧ 0 ≤ v ∧ v ≤ 100 ∧
      (v = 0 ↔ e = 0) ∧ (e = n → v = 100) := by
  have hb := (scaled single_wide (a := e) (b := n) (c := 100) (by omega) (le_of_lt hn) hn0 (by norm_num) (by norm_num) false).2.2
  have e100 : ((100 : Nat) : ℚ) = 100 := by norm_num
  rw [e100] at hb
  have hnp := rounded_pos_nat hn0
  have hep : (0 : ℚ) ≤ single.rounded e := rounded_nonneg single (by positivity) (by decide)
  have hq : single.rounded e / single.rounded n ≤ 1 := by
    rw [div_le_one hnp]
    exact rounded_mono single (by positivity) (by exact_mod_cast he) (by decide)
  have hq0 : 0 ≤ single.rounded e / single.rounded n := div_nonneg hep (le_of_lt hnp)
  have h1 : single.rounded (single.rounded e / single.rounded n) ≤ 1 := by
    have := rounded_mono single hq0 hq (by decide)
    rwa [rounded_one] at this
  have h0 : 0 ≤ single.rounded (single.rounded e / single.rounded n) := rounded_nonneg single hq0 (by decide)
  refine ⟨errorMag e n, errorRate_real he hn hn0, ?_, ?_, ?_, ?_, ?_⟩
  · exact hb.near (by positivity) 21 (by norm_num [unit, single]) (by norm_num [unit, single])
  · exact rounded_nonneg single (by linarith) (by decide)
  · have := rounded_mono single (x := single.rounded (single.rounded e / single.rounded n) * 100) (y := 100) (by linarith) (by linarith) (by decide)
    rwa [rounded_100] at this
  · constructor
    · intro hv
      by_contra h
      have h1 := hb.low
      have hv' : single.rounded (single.rounded (single.rounded e / single.rounded n) * 100) = 0 := hv
      rw [hv'] at h1
      have h2 : (0 : ℚ) < (e : ℚ) / n * 100 :=
        mul_pos (div_pos (by exact_mod_cast Nat.pos_of_ne_zero h) (by exact_mod_cast hn0)) (by norm_num)
      have h3 : (0 : ℚ) < (1 - unit single) / (1 + unit single) * (1 - unit single) * (1 - unit single) := by norm_num [unit, single]
      have := mul_pos h3 h2
      linarith
    · rintro rfl
      simp [errorMag, rounded_zero]
  · rintro rfl
    unfold errorMag
    rw [div_self (ne_of_gt hnp), rounded_one, one_mul, rounded_100]

/-- **C112**, error rate: up to 2^24 services, 100 is sent only when all failed. -/
theorem C112_not_all_failed (e n : Nat) (he : e < n) (hn : n ≤ 2 ^ 24) :
    ∃ v, real (value32 (ieee.errorRate e n)) = some v ∧ v < 100 := by
  refine ⟨errorMag e n, errorRate_real (le_of_lt he) (by omega) (by omega), ?_⟩
  have e1 := rounded_nat single (n := e) (by show e ≤ 2 ^ 24; omega) (by decide) (by decide)
  have e2 := rounded_nat single (n := n) hn (by decide) (by decide)
  have hn0 : (0 : ℚ) < n := by exact_mod_cast (by omega : 0 < n)
  unfold errorMag
  rw [e1, e2]
  have ht : single.rounded (1 - 1 / 2 ^ 24) = 1 - 1 / 2 ^ 24 :=
    number_rounded (by decide) (by norm_num) ⟨2 ^ 24 - 1, -24, by decide, by decide, by norm_num⟩
  have hq : (e : ℚ) / n ≤ 1 - 1 / 2 ^ 24 := by
    have h1 : (e : ℚ) + 1 ≤ n := by exact_mod_cast he
    have h2 : (n : ℚ) ≤ 2 ^ 24 := by exact_mod_cast hn
    rw [div_le_iff₀ hn0]
    have h3 : (1 : ℚ) / 2 ^ 24 * n ≤ 1 := by
      rw [div_mul_eq_mul_div, div_le_one (by norm_num)]; linarith
    nlinarith
  have h1 := rounded_mono single (by positivity) hq (by decide)
  rw [ht] at h1
  have hz := (C112_rounding single (by decide) ((1 - 1 / 2 ^ 24) * 100) (by norm_num)).2 (100 - 1 / 2 ^ 17)
    ⟨100 * 2 ^ 17 - 1, -17, by decide, by decide, by norm_num⟩
  have h2 := rounded_mono single (x := single.rounded ((e : ℚ) / n) * 100) (y := (1 - 1 / 2 ^ 24) * 100)
    (mul_nonneg (rounded_nonneg single (by positivity) (by decide)) (by norm_num)) (by linarith) (by decide)
  have h3 := (abs_le.mp hz).2
  have h4 : |(100 : ℚ) - 1 / 2 ^ 17 - (1 - 1 / 2 ^ 24) * 100| = 28 / 2 ^ 24 := by norm_num [abs_of_neg]
  rw [h4] at h3
  norm_num at h3 h2 ⊢
  linarith

/-- **C112**, error rate: with more failed services it is no smaller. -/
theorem C112_error_rate_grows (e e' n : Nat) (h : e ≤ e') (he : e' ≤ n) (hn : n < 2 ^ 63) (hn0 : 0 < n) :
    ∃ v w, real (value32 (ieee.errorRate e n)) = some v ∧ real (value32 (ieee.errorRate e' n)) = some w ∧ v ≤ w := by
  refine ⟨_, _, errorRate_real (by omega) hn hn0, errorRate_real he hn hn0, ?_⟩
  have h0 : (0 : ℚ) ≤ single.rounded e := rounded_nonneg single (by positivity) (by decide)
  have h1 := rounded_pos_nat hn0
  have h2 := div_nonneg h0 (le_of_lt h1)
  refine rounded_mono single (mul_nonneg (rounded_nonneg single h2 (by decide)) (by norm_num)) ?_ (by decide)
  refine mul_le_mul_of_nonneg_right ?_ (by norm_num)
  refine rounded_mono single h2 ?_ (by decide)
  exact div_le_div_of_nonneg_right (rounded_mono single (by positivity) (by exact_mod_cast h) (by decide)) (le_of_lt h1)

/-- **C112**, error rate: beyond 2^24 services it can be 100 although a service succeeded: `float32` cannot hold their number. -/
theorem C112_all_failed_but_one : (2 ^ 24 : Nat) < 2 ^ 24 + 1 ∧ real (value32 (ieee.errorRate (2 ^ 24 : Nat) (2 ^ 24 + 1 : Nat))) = some 100 := by
  refine ⟨by decide, ?_⟩
  rw [errorRate_real (by decide) (by decide) (by decide)]
  have e1 := rounded_nat single (n := 2 ^ 24) (by decide) (by decide) (by decide)
  have e2 : single.rounded ((2 ^ 24 + 1 : Nat) : ℚ) = ((2 ^ 24 : Nat) : ℚ) := by
    have hlog : Int.log 2 (((2 ^ 24 + 1 : Nat) : ℚ)) = 24 := by
      rw [Int.log_natCast]
      rw [show Nat.log 2 (2 ^ 24 + 1) = 24 from Nat.log_eq_of_pow_le_of_lt_pow (by norm_num) (by norm_num)]
      rfl
    have hexp : single.exponent ((2 ^ 24 + 1 : Nat) : ℚ) = 1 := by
      rw [exponent_pos single (by positivity), hlog]
      decide
    unfold Format.rounded
    rw [hexp]
    have hfl : ⌊((2 ^ 24 + 1 : Nat) : ℚ) / 2 ^ (1 : Int)⌋ = 2 ^ 23 := by
      rw [Int.floor_eq_iff]
      norm_num
    have : nearest (((2 ^ 24 + 1 : Nat) : ℚ) / 2 ^ (1 : Int)) = 2 ^ 23 := by
      unfold nearest
      rw [hfl, if_neg (by norm_num), if_pos (by norm_num)]
    rw [this]
    norm_num
  unfold errorMag
  rw [e1, e2, div_self (by norm_num), rounded_one, one_mul, rounded_100]

/-! ## Averages -/

theorem add_nat {a b : Nat} (h : a + b ≤ 2 ^ 53) : double.add (double.ofInt a) (double.ofInt b) = double.ofInt (a + b : Nat) := by
  rw [ofInt_exact double_wide (c := a) (by show a ≤ 2 ^ 53; omega) (by omega),
    ofInt_exact double_wide (c := b) (by show b ≤ 2 ^ 53; omega) (by omega),
    ofInt_exact double_wide (c := a + b) (by exact h) (by omega)]
  show (if (a : ℚ) + b = 0 then _ else double.number (decide ((a : ℚ) + b < 0)) |(a : ℚ) + b|) = _
  have h0 : (0 : ℚ) ≤ (a : ℚ) + b := by positivity
  split
  · next h =>
    have : ((a + b : Nat) : ℚ) = 0 := by push_cast; exact h
    rw [this]; rfl
  · rw [decide_eq_false (not_lt.mpr h0), abs_of_nonneg h0]
    have e : (a : ℚ) + b = ((a + b : Nat) : ℚ) := by push_cast; rfl
    rw [e, ((Mid.nat (k := 53) h).number double_wide (by norm_num) (by norm_num) false).1,
      rounded_nat double (n := a + b) h (by decide) (by decide)]

theorem sums_from (l : List Nat) : ∀ a : Nat, a + l.sum ≤ 2 ^ 53 →
    (l.map fun n : Nat => double.ofInt n).foldl double.add (double.ofInt a) = double.ofInt (a + l.sum : Nat) := by
  induction l with
  | nil => intro a _; rfl
  | cons x l ih =>
    intro a h
    rw [List.sum_cons] at h ⊢
    rw [List.map_cons, List.foldl_cons, add_nat (by omega), ih (a + x) (by omega), Nat.add_assoc]

theorem ofInt_zero : double.ofInt (0 : Nat) = .fin false 0 := by
  have := ofInt_exact double_wide (c := 0) (Nat.zero_le _) (Nat.zero_le _)
  simpa using this

theorem sums_nat (l : List Nat) (h : l.sum ≤ 2 ^ 53) : sums (l.map fun n : Nat => double.ofInt n) = double.ofInt (l.sum : Nat) := by
  have := sums_from l 0 (by omega)
  rw [Nat.zero_add, ofInt_zero] at this
  exact this

/-- **C112**, sums: adding whole numbers into the buckets and then the buckets of a period gives the whole sum, as long as that is at most
2^53, whatever is in which bucket. -/
theorem C112_sums (buckets : List (List Nat)) (h : (buckets.map List.sum).sum ≤ 2 ^ 53) :
    sums (buckets.map fun l => sums (l.map fun n : Nat => double.ofInt n)) = double.ofInt ((buckets.map List.sum).sum : Nat) := by
  have e : (buckets.map fun l => sums (l.map fun n : Nat => double.ofInt n)) =
      (buckets.map List.sum).map fun n : Nat => double.ofInt n := by
    rw [List.map_map]
    refine List.map_congr_left fun l hl => ?_
    exact sums_nat l (le_trans (List.le_sum_of_mem (List.mem_map_of_mem hl)) h)
  rw [e, sums_nat _ h]

theorem sum_bounds (l : List Int) (lo hi : Int) (hlo : ∀ c ∈ l, lo ≤ c) (hhi : ∀ c ∈ l, c ≤ hi) :
    lo * l.length ≤ l.sum ∧ l.sum ≤ hi * l.length := by
  induction l with
  | nil => simp
  | cons x l ih =>
    obtain ⟨h1, h2⟩ := ih (fun c hc => hlo c (List.mem_cons_of_mem _ hc)) (fun c hc => hhi c (List.mem_cons_of_mem _ hc))
    have h3 := hlo x List.mem_cons_self
    have h4 := hhi x List.mem_cons_self
    rw [List.sum_cons, List.length_cons]
    push_cast
    constructor <;> linarith

/-- **C112**, averages: the average sent for numbers from `lo` to `hi` (at most 2^24, and at most 2^29 of them), read as a `float32`, is a
number from `lo` to `hi` within one part in four million of the exact one. -/
theorem C112_average (l : List Int) (lo hi : Nat) (hne : l ≠ []) (hlo : ∀ c ∈ l, (lo : Int) ≤ c) (hhi : ∀ c ∈ l, c ≤ hi)
    (hh : hi ≤ 2 ^ 24) (hlen : l.length ≤ 2 ^ 29) :
    ∃ v, real (value32 (ieee.narrow (Spec.average ieee l))) = some v ∧ |v - Spec.mean l| ≤ Spec.mean l / 2 ^ 22 ∧ lo ≤ v ∧ v ≤ hi := by
  obtain ⟨b1, b2⟩ := sum_bounds l lo hi hlo hhi
  have hpos : 0 < l.length := List.length_pos_iff.mpr hne
  obtain ⟨s, hs⟩ := Int.eq_ofNat_of_zero_le (a := l.sum) (le_trans (by positivity) b1)
  have hs' : l.sum = (s : Int) := hs
  generalize hn : l.length = n at *
  rw [hs'] at b1 b2
  have b1' : lo * n ≤ s := by exact_mod_cast b1
  have b2' : s ≤ hi * n := by exact_mod_cast b2
  have hs53 : s ≤ 2 ^ 53 := by
    calc s ≤ hi * n := b2'
      _ ≤ 2 ^ 24 * 2 ^ 29 := Nat.mul_le_mul hh hlen
      _ = 2 ^ 53 := by norm_num
  have hn53 : n ≤ 2 ^ 53 := le_trans hlen (by norm_num)
  have hnq : (0 : ℚ) < n := by exact_mod_cast hpos
  obtain ⟨⟨-, hd⟩, mid, -, bq⟩ := quotient double_wide (a := s) (b := n) (le_trans hs53 (by norm_num)) (le_trans hn53 (by norm_num)) hpos false
  have ex1 := rounded_nat double (n := s) hs53 (by decide) (by decide)
  have ex2 := rounded_nat double (n := n) hn53 (by decide) (by decide)
  rw [ex1, ex2] at hd mid bq
  have hav : Spec.average ieee l = bits64 (.fin false (double.rounded ((s : ℚ) / n))) := by
    unfold Spec.average
    rw [if_neg hne]
    show bits64 _ = _
    rw [hs', hn, div_nat double_wide (le_trans hs53 (by norm_num)) (le_trans hn53 (by norm_num)) hpos, ex1, ex2]
  obtain ⟨h1, h2⟩ := narrow_fin (s := false) hd (mid.weaken (by norm_num))
  have hmean : Spec.mean l = (s : ℚ) / n := by
    unfold Spec.mean
    rw [if_neg hne, hs', hn]
    simp
  refine ⟨single.rounded (double.rounded ((s : ℚ) / n)), ?_, ?_, ?_, ?_⟩
  · rw [hav, h1]; rfl
  · rw [hmean]
    have b3 := bq.round' single_wide (by positivity) (by norm_num [unit, double]) mid (by norm_num)
    exact b3.near (by positivity) 22 (by norm_num [unit, single, double]) (by norm_num [unit, single, double])
  · have hloq : (lo : ℚ) ≤ (s : ℚ) / n := by
      rw [le_div_iff₀ hnq]; exact_mod_cast b1'
    have hlo24 : lo ≤ 2 ^ 24 := by
      obtain ⟨c, hc⟩ := List.exists_mem_of_ne_nil l hne
      have := hlo c hc
      have := hhi c hc
      omega
    have e1 := rounded_nat double (n := lo) (le_trans hlo24 (by decide)) (by decide) (by decide)
    have e2 := rounded_nat single (n := lo) hlo24 (by decide) (by decide)
    have h3 := rounded_mono double (by positivity) hloq (by decide)
    rw [e1] at h3
    have h4 := rounded_mono single (by positivity) h3 (by decide)
    rwa [e2] at h4
  · have hhiq : (s : ℚ) / n ≤ hi := by
      rw [div_le_iff₀ hnq]; exact_mod_cast b2'
    have e1 := rounded_nat double (n := hi) (le_trans hh (by decide)) (by decide) (by decide)
    have e2 := rounded_nat single (n := hi) hh (by decide) (by decide)
    have h3 := rounded_mono double (by positivity) hhiq (by decide)
    rw [e1] at h3
    have h4 := rounded_mono single (rounded_nonneg double (by positivity) (by decide)) h3 (by decide)
    rwa [e2] at h4

/-! ## Garbage collection -/

theorem ratio_near {a b c : Nat} (ha : a ≤ 2 ^ 63) (hb : b ≤ 2 ^ 63) (hb0 : 0 < b) (hc0 : 0 < c) (hc : c ≤ 2 ^ 30) :
    Near 22 ((a : ℚ) / b * c) (value32 (ieee.narrow (bits64 (double.ratio a b c)))) := by
  obtain ⟨⟨-, hd⟩, mid, bq⟩ := scaled double_wide ha hb hb0 hc0 hc false
  rw [ratio_nat double_wide ha hb hb0 hc0 hc (le_trans hc (by decide))]
  obtain ⟨h1, h2⟩ := narrow_fin (s := false) hd mid
  refine ⟨_, by rw [h1]; rfl, ?_⟩
  have b3 := bq.round' single_wide (by positivity) (by norm_num [unit, double]) mid (by norm_num)
  rw [abs_of_nonneg (a := (a : ℚ) / b * c) (by positivity)]
  exact b3.near (by positivity) 22 (by norm_num [unit, single, double]) (by norm_num [unit, single, double])

/-- **C112**, garbage collection: when `n` collections paused the program for `pause` nanoseconds in `dt` nanoseconds, not 0, the figures sent,
read as `float32`, are within one part in four million of the collections per second and of the milliseconds of pause per second. -/
theorem C112_gc_rates (n pause dt : Nat) (hn : n < 2 ^ 31) (hp : pause < 2 ^ 63) (hdt : 0 < dt) (hdt' : dt < 2 ^ 63) :
    Near 22 ((n : ℚ) / (dt / 1000000000)) (value32 (ieee.narrow (ieee.gcCount n dt))) ∧
    Near 22 (((pause : ℚ) / 1000000) / (dt / 1000000000)) (value32 (ieee.narrow (ieee.gcPause pause dt))) := by
  have hq : (0 : ℚ) < dt := by exact_mod_cast hdt
  constructor
  · have h := ratio_near (a := n) (b := dt) (c := 1000000000) (by omega) (le_of_lt hdt') hdt (by norm_num) (by norm_num)
    have e : (n : ℚ) / (dt / 1000000000) = (n : ℚ) / dt * (1000000000 : Nat) := by push_cast; field_simp
    rw [e]; exact h
  · have h := ratio_near (a := pause) (b := dt) (c := 1000) (by omega) (le_of_lt hdt') hdt (by norm_num) (by norm_num)
    have e : ((pause : ℚ) / 1000000) / (dt / 1000000000) = (pause : ℚ) / dt * (1000 : Nat) := by push_cast; field_simp; ring
    rw [e]; exact h

theorem narrow_special (s : Bool) : value32 (ieee.narrow (bits64 .nan)) = .nan ∧ value32 (ieee.narrow (bits64 (.inf s))) = .inf s := by
  constructor
  · show value32 (bits32 (single.convert (value64 (bits64 .nan)))) = _
    rw [(special64 s).1]; exact (special32 s).1
  · show value32 (bits32 (single.convert (value64 (bits64 (.inf s))))) = _
    rw [(special64 s).2]; exact (special32 s).2

/-- **C112**, garbage collection: when the clock shows the same nanosecond at two rounds, the figures sent are no numbers: infinite when there
were collections (pauses), and "not a number" when there were none. -/
theorem C112_gc_clock_stands (n pause : Nat) (hn : n < 2 ^ 31) (hp : pause < 2 ^ 63) :
    value32 (ieee.narrow (ieee.gcCount n 0)) = (if n = 0 then .nan else .inf false) ∧
    value32 (ieee.narrow (ieee.gcPause pause 0)) = (if pause = 0 then .nan else .inf false) := by
  have h1 := ratio_zero double_wide (a := n) (c := 1000000000) (by omega) (by norm_num) (by norm_num) (by decide)
  have h2 := ratio_zero double_wide (a := pause) (c := 1000) (by omega) (by norm_num) (by norm_num) (by decide)
  constructor
  · show value32 (ieee.narrow (bits64 (double.ratio (n : Int) 0 (1000000000 : Nat)))) = _
    rw [h1]
    split
    · exact (narrow_special false).1
    · exact (narrow_special false).2
  · show value32 (ieee.narrow (bits64 (double.ratio (pause : Int) 0 (1000 : Nat)))) = _
    rw [h2]
    split
    · exact (narrow_special false).1
    · exact (narrow_special false).2

theorem ratio_back {a b c : Nat} (ha : a ≤ 2 ^ 63) (hb : b ≤ 2 ^ 63) (hb0 : 0 < b) (hc0 : 0 < c) (hc : c ≤ 2 ^ 30) :
    Near 22 (-((a : ℚ) / b * c)) (value32 (ieee.narrow (bits64 (double.ratio a (-b) c)))) := by
  obtain ⟨⟨-, hd⟩, mid, bq⟩ := scaled double_wide ha hb hb0 hc0 hc true
  rw [ratio_neg double_wide ha hb hb0 hc0 hc (le_trans hc (by decide))]
  obtain ⟨h1, h2⟩ := narrow_fin (s := true) hd mid
  refine ⟨_, by rw [h1]; rfl, ?_⟩
  have b3 := bq.round' single_wide (by positivity) (by norm_num [unit, double]) mid (by norm_num)
  have h3 := b3.near (by positivity) 22 (by norm_num [unit, single, double]) (by norm_num [unit, single, double])
  rw [abs_neg, abs_of_nonneg (a := (a : ℚ) / b * c) (by positivity)]
  rw [if_pos rfl, neg_sub_neg, abs_sub_comm]
  exact h3

/-- **C112**, garbage collection: when the clock was set back by `dt` nanoseconds between two rounds, the figures sent are near the negative of
what they would be. -/
theorem C112_gc_clock_back (n pause dt : Nat) (hn : n < 2 ^ 31) (hp : pause < 2 ^ 63) (hdt : 0 < dt) (hdt' : dt < 2 ^ 63) :
    Near 22 (-((n : ℚ) / (dt / 1000000000))) (value32 (ieee.narrow (ieee.gcCount n (-dt)))) ∧
    Near 22 (-(((pause : ℚ) / 1000000) / (dt / 1000000000))) (value32 (ieee.narrow (ieee.gcPause pause (-dt)))) := by
  have hq : (0 : ℚ) < dt := by exact_mod_cast hdt
  constructor
  · have h := ratio_back (a := n) (b := dt) (c := 1000000000) (by omega) (le_of_lt hdt') hdt (by norm_num) (by norm_num)
    have e : (n : ℚ) / (dt / 1000000000) = (n : ℚ) / dt * (1000000000 : Nat) := by push_cast; field_simp
    rw [e]; exact h
  · have h := ratio_back (a := pause) (b := dt) (c := 1000) (by omega) (le_of_lt hdt') hdt (by norm_num) (by norm_num)
    have e : ((pause : ℚ) / 1000000) / (dt / 1000000000) = (pause : ℚ) / dt * (1000 : Nat) := by push_cast; field_simp; ring
    rw [e]; exact h

/-! ## Together with what is counted -/

theorem bounded_times (l : List (Int × Int × Bool)) : ∃ M, 0 ≤ M ∧ ∀ r ∈ l, r.2.1 ≤ M := by
  induction l with
  | nil => exact ⟨0, le_refl _, by simp⟩
  | cons x l ih =>
    obtain ⟨M, h0, h⟩ := ih
    refine ⟨max M x.2.1, le_trans h0 (le_max_left ..), ?_⟩
    intro r hr
    rcases List.mem_cons.mp hr with rfl | hr
    · exact le_max_right ..
    · exact le_trans (h r hr) (le_max_left ..)

/-- **C112**, error rate: whatever the clock does, the percentage of failed services computed by the meter for its packs is a number from 0
to 100 (as long as the count is below 2^63). -/
theorem C112_error_rate_any_clock (t0 : Int) (cs : List (Int × ServiceCall)) (now period : Int)
    (hc : (ServiceMeter.getAllCounter now period (ServiceMeter.history t0 cs)).1.count < 2 ^ 63) :
    ∃ v, real (value32 (ieee.failed (ServiceMeter.getAllCounter now period (ServiceMeter.history t0 cs)).1)) = some v ∧ 0 ≤ v ∧ v ≤ 100 := by
  obtain ⟨M, hM, h⟩ := bounded_times (ServiceMeter.recorded cs)
  have hs := ServiceMeter.sane_history t0 M hM cs h
  have hq : ∀ b ∈ ((ServiceMeter.history t0 cs).searchOnHandler {} now period).2.1, ServiceMeter.Sane M b :=
    fun b hb => Meter.position_all (ServiceMeter.Sane.zero M) now hs b (Meter.mem_visit hb)
  obtain ⟨h1, h2, -, -⟩ := ServiceMeter.sane_sums _ hq
  have h1' : 0 ≤ (ServiceMeter.getAllCounter now period (ServiceMeter.history t0 cs)).1.errors := h1
  have h2' : (ServiceMeter.getAllCounter now period (ServiceMeter.history t0 cs)).1.errors ≤
    (ServiceMeter.getAllCounter now period (ServiceMeter.history t0 cs)).1.count := h2
  generalize (ServiceMeter.getAllCounter now period (ServiceMeter.history t0 cs)).1 = c at *
  obtain ⟨e, he⟩ := Int.eq_ofNat_of_zero_le h1'
  obtain ⟨n, hn⟩ := Int.eq_ofNat_of_zero_le (le_trans h1' h2')
  unfold Floats.failed
  rw [hn, he]
  split
  · next h0 =>
    obtain ⟨v, hv, -, h3, h4, -⟩ := C112_error_rate e n (by omega) (by omega) (by omega)
    exact ⟨v, hv, h3, h4⟩
  · exact ⟨0, by decide +kernel, le_refl _, by norm_num⟩

theorem zero_near (k : Nat) : Near k 0 (value32 0) := ⟨0, by decide +kernel, by simp⟩

theorem percentage_near (l : List (Int × Bool)) (h : l.length < 2 ^ 63) : Near 21 (failed l) (value32 (percentage ieee l)) := by
  unfold failed percentage
  by_cases hl : l = []
  · rw [if_pos hl, if_pos hl]; exact zero_near 21
  · rw [if_neg hl, if_neg hl]
    obtain ⟨v, h1, h2, -⟩ := C112_error_rate (l.countP (·.2)) l.length List.countP_le_length h (List.length_pos_iff.mpr hl)
    refine ⟨v, h1, ?_⟩
    rw [abs_of_nonneg (a := ((l.countP (·.2) : Nat) : ℚ) / l.length * 100) (by positivity)]
    exact h2

theorem throughput_near (n p : Nat) (hn : n < 2 ^ 63) (hp : 1 ≤ p) (hp' : p ≤ 300) : Near 22 ((n : ℚ) / p) (value32 (ieee.tps n p)) := by
  obtain ⟨v, h1, h2, -⟩ := C112_throughput n p hn hp hp'
  refine ⟨v, h1, ?_⟩
  rw [abs_of_nonneg (a := (n : ℚ) / p) (by positivity)]
  exact h2

theorem narrow_zero : ieee.narrow 0 = 0 := by decide +kernel

theorem average_near (l : List Int) (h0 : ∀ c ∈ l, 0 ≤ c) (h1 : ∀ c ∈ l, c ≤ 2000) (hlen : l.length ≤ 2 ^ 29) :
    Near 22 (mean l) (value32 (ieee.narrow (average ieee l))) := by
  by_cases hl : l = []
  · unfold mean average
    rw [if_pos hl, if_pos hl, narrow_zero]
    exact zero_near 22
  · obtain ⟨v, h2, h3, -⟩ := C112_average l 0 2000 hl h0 h1 (by norm_num) hlen
    refine ⟨v, h2, ?_⟩
    have : 0 ≤ mean l := by
      unfold mean
      rw [if_neg hl]
      have := (sum_bounds l 0 2000 h0 h1).1
      rw [zero_mul] at this
      exact div_nonneg (by exact_mod_cast this) (by positivity)
    rw [abs_of_nonneg this]
    exact h3

theorem activeCounts_le (f : Floats) (es : List Counter.Event) : ∀ k, ∀ c ∈ activeCounts f k es, 0 ≤ c.2 ∧ c.2 ≤ 2000 := by
  induction es with
  | nil => intro k c hc; simp [activeCounts] at hc
  | cons e es ih =>
    intro k c hc
    unfold activeCounts at hc
    rcases List.mem_append.mp hc with hc | hc
    · cases e with
      | realTime name s o t =>
        simp only [List.mem_singleton] at hc
        subst hc
        simp only [List.length_take]
        constructor <;> omega
      | call _ _ => simp at hc
      | fiveMin _ _ _ => simp at hc
    · exact ih _ c hc

theorem mem_window {A : Type} {now p : Int} {recs : List (Int × A)} {a : A} (h : a ∈ window now p recs) : ∃ r ∈ recs, r.2 = a := by
  unfold window at h
  obtain ⟨r, hr, rfl⟩ := List.mem_map.mp h
  exact ⟨r, (List.mem_filter.mp hr).1, rfl⟩

/-- **C112**, the real-time pack: read as `float32`, the figures sent are near the exact ones: the services per second and the percentage of
failed services of those that ended in the last thirty seconds, the mean of the numbers of active services seen in them, and, when the
clock has moved on since the previous round, collections per second and milliseconds of pause per second. -/
theorem C112_real_time_figures (env : Oracle) (conf : TraceConf) (cap : Nat) (t0 : Int) (es : List Counter.Event)
    (hk : 1 ≤ conf.keep) (hb : 1 ≤ conf.bulk) (hwf : AllProper ieee (Monitor.start env conf cap t0) es)
    (name : Bytes) (s : Sample) (o : MapOrder (BitVec 64 × Nat)) (t : Seconds)
    (hf : Forward t0 ((es ++ [Counter.Event.realTime name s o t]).flatMap seconds)) :
    let k0 := Monitor.start env conf cap t0
    let k := k0.life ieee es
    let ended := window t.read 30 (endings ieee k0 es)
    let counts := window t.average 30 (activeCounts ieee k0 (es ++ [.realTime name s o t]))
    ended.length < 2 ^ 63 → counts.length ≤ 2 ^ 29 →
    ∃ p tps rate active gc pause, (k.step ieee (.realTime name s o t)).world.proxy.direct =
        (perform k.world (.activeCount o)).proxy.direct ++ [.perfCounter p] ∧
      [(ascii "GoTPS", .float tps), (ascii "GoErrorRate", .float rate), (ascii "GoActiveService", .float active),
        (ascii "GoGcCount", .float gc), (ascii "GoGcPause", .float pause)] ⊆ p.data ∧
      Near 22 ((ended.length : ℚ) / 30) (value32 tps) ∧
      Near 21 (failed ended) (value32 rate) ∧
      Near 22 (mean counts) (value32 active) ∧
      ∀ (b : Sample) (dt ns gcs : Nat), lastSample es = some b → b.nanos ≠ 0 → s.nanos.toNat = b.nanos.toNat + dt → 0 < dt → dt < 2 ^ 63 →
        s.pauseTotalNs.toNat = b.pauseTotalNs.toNat + ns → ns < 2 ^ 63 → s.numGC = b.numGC + BitVec.ofNat 32 gcs → gcs < 2 ^ 31 →
        Near 22 ((gcs : ℚ) / (dt / 1000000000)) (value32 gc) ∧ Near 22 (((ns : ℚ) / 1000000) / (dt / 1000000000)) (value32 pause) := by
  intro k0 k ended counts hn hc
  obtain ⟨p, g, ps, h1, -, -, h2, h3⟩ := C78_real_time_pack ieee env conf cap t0 es hk hb hwf name s o t hf
  refine ⟨p, ieee.tps ended.length 30, percentage ieee ended, ieee.narrow (average ieee counts), ieee.narrow g, ieee.narrow ps, h1, ?_,
    ?_, percentage_near _ hn, ?_, ?_⟩
  · rw [h3]
    intro x hx
    simp only [List.mem_cons, List.not_mem_nil, or_false] at hx ⊢
    rcases hx with rfl | rfl | rfl | rfl | rfl
    · exact .inr (.inr (.inr (.inr (.inr (.inl rfl)))))
    · exact .inr (.inr (.inr (.inr (.inr (.inr (.inr (.inl rfl)))))))
    · exact .inr (.inr (.inr (.inr (.inr (.inr (.inr (.inr (.inl rfl))))))))
    · exact .inr (.inr (.inl rfl))
    · exact .inr (.inr (.inr (.inl rfl)))
  · have := throughput_near ended.length 30 hn (by norm_num) (by norm_num)
    push_cast at this
    exact this
  · refine average_near counts ?_ ?_ hc
    · intro c hc
      obtain ⟨r, hr, rfl⟩ := mem_window hc
      exact (activeCounts_le ieee _ k0 r hr).1
    · intro c hc
      obtain ⟨r, hr, rfl⟩ := mem_window hc
      exact (activeCounts_le ieee _ k0 r hr).2
  · intro b dt ns gcs hb' e1 e2 e3 e4 e5 e6 e7 e8
    rw [hb'] at h2
    obtain ⟨e9, e10⟩ := h2 dt ns gcs e1 e2 e3 e4 e5 e6 e7 e8
    rw [e9, e10]
    exact C112_gc_rates gcs ns dt e8 e6 e3 e4

/-- **C112**, the five-minute pack: likewise for the last 300 seconds. -/
theorem C112_five_minute_figures (env : Oracle) (conf : TraceConf) (cap : Nat) (t0 : Int) (es : List Counter.Event)
    (hk : 1 ≤ conf.keep) (hb : 1 ≤ conf.bulk) (hwf : AllProper ieee (Monitor.start env conf cap t0) es)
    (name : Bytes) (read avg : Int) (hf : Forward t0 ((es ++ [Counter.Event.fiveMin name read avg]).flatMap seconds)) :
    let k0 := Monitor.start env conf cap t0
    let k := k0.life ieee es
    let ended := window read 300 (endings ieee k0 es)
    let counts := window avg 300 (activeCounts ieee k0 es)
    ended.length < 2 ^ 63 → counts.length ≤ 2 ^ 29 →
    ∃ p tps rate active, (k.step ieee (.fiveMin name read avg)).world.proxy.direct = k.world.proxy.direct ++ [.perfCounter p] ∧
      [(ascii "GoTPS", .float tps), (ascii "GoErrorRate", .float rate), (ascii "GoActiveService", .float active)] ⊆ p.data ∧
      Near 22 ((ended.length : ℚ) / 300) (value32 tps) ∧
      Near 21 (failed ended) (value32 rate) ∧
      Near 22 (mean counts) (value32 active) := by
  intro k0 k ended counts hn hc
  obtain ⟨p, h1, -, -, h3⟩ := C78_five_minute_pack ieee env conf cap t0 es hk hb hwf name read avg hf
  refine ⟨p, ieee.tps ended.length 300, percentage ieee ended, ieee.narrow (average ieee counts), h1, ?_,
    ?_, percentage_near _ hn, ?_⟩
  · rw [h3]
    intro x hx
    simp only [List.mem_cons, List.not_mem_nil, or_false] at hx ⊢
    rcases hx with rfl | rfl | rfl
    · exact .inl rfl
    · exact .inr (.inr (.inl rfl))
    · exact .inr (.inr (.inr rfl))
  · have := throughput_near ended.length 300 hn (by norm_num) (by norm_num)
    push_cast at this
    exact this
  · refine average_near counts ?_ ?_ hc
    · intro c hc
      obtain ⟨r, hr, rfl⟩ := mem_window hc
      exact (activeCounts_le ieee _ k0 r hr).1
    · intro c hc
      obtain ⟨r, hr, rfl⟩ := mem_window hc
      exact (activeCounts_le ieee _ k0 r hr).2

/-! Cases. -/
namespace Demo
open Scouter.Demo

/-- 60 services in thirty seconds are sent as 2 services per second. -/
example : real (value32 (ieee.tps (60 : Nat) (30 : Nat))) = some 2 := by
  obtain ⟨v, h1, -, -, h2⟩ := C112_throughput 60 30 (by norm_num) (by norm_num) (by norm_num)
  rw [h1, h2 (by norm_num) (by norm_num)]
  norm_num

/-- 1 failed service of 3 is sent as a number between 33.33 and 33.34. -/
example : ∃ v, real (value32 (ieee.errorRate (1 : Nat) (3 : Nat))) = some v ∧ 33.33 < v ∧ v < 33.34 := by
  obtain ⟨v, h1, h2, -⟩ := C112_error_rate 1 3 (by norm_num) (by norm_num) (by norm_num)
  refine ⟨v, h1, ?_⟩
  obtain ⟨h3, h4⟩ := abs_le.mp h2
  norm_num at h3 h4 ⊢
  constructor <;> linarith

example : ([3, 4, 4] : List Int) ≠ [] ∧ (∀ c ∈ ([3, 4, 4] : List Int), ((3 : Nat) : Int) ≤ c) ∧ (∀ c ∈ ([3, 4, 4] : List Int), c ≤ ((4 : Nat) : Int)) := by
  decide
example : (([[1, 2], [], [2000]] : List (List Nat)).map List.sum).sum ≤ 2 ^ 53 := by decide
example : single.Number (3 / 8) := ⟨3, -3, by decide, by decide, by norm_num⟩

example : AllProper ieee metered0 meteredEvents := ⟨trivial, trivial, trivial, trivial, trivial, trivial, trivial, trivial⟩
example : (window 110 30 (endings ieee metered0 meteredEvents)).length = 2 := by decide +kernel
example : window 110 30 (activeCounts ieee metered0 (meteredEvents ++ [round2])) = [0, 1] := by decide +kernel
example : (lastSample meteredEvents).isSome = true ∧ sampleA.nanos ≠ 0 ∧ sampleB.nanos.toNat = sampleA.nanos.toNat + 2000000000 ∧
    sampleB.pauseTotalNs.toNat = sampleA.pauseTotalNs.toNat + 6000000 ∧ sampleB.numGC = sampleA.numGC + BitVec.ofNat 32 4 := by decide +kernel
example : (ServiceMeter.getAllCounter 104 30 (ServiceMeter.history 90 [(100, .add 5 true), (50, .add 7 false)])).1.count < 2 ^ 63 := by
  decide +kernel

end Demo
end Floating
end Scouter
