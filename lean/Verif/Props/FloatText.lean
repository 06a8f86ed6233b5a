import Verif.Model.FloatText
import Verif.Spec.FloatText
import Verif.Props.Floating
import Verif.Props.Conf
/-!
# C113: texts of floating-point values, and rounding up
-/
namespace Scouter
namespace Floating
open Config Spec

/-! ## Numbers of a format -/

theorem decode_number (F : Format) (hd : 1 ≤ F.digits) (ht : 2 ≤ F.top) (s s' : Bool) (c : Nat) (x : ℚ)
    (hc : (c / 2 ^ (F.digits - 1) : Nat) ≤ 2 * F.top - 1) (h : F.decode s c = .fin s' x) :
    s' = s ∧ F.Number x ∧ x < 2 ^ F.top := by
  unfold Format.decode at h
  simp only at h
  have hm : c % 2 ^ (F.digits - 1) < 2 ^ (F.digits - 1) := Nat.mod_lt _ (by positivity)
  have h2 : 2 ^ (F.digits - 1) * 2 = 2 ^ F.digits := by rw [← pow_succ, Nat.sub_add_cancel hd]
  split at h
  · split at h <;> cases h
  · next he =>
    have hlt : ((c / 2 ^ (F.digits - 1) : Nat) : Int) < 2 * F.top - 1 := lt_of_le_of_ne hc he
    generalize c / 2 ^ (F.digits - 1) = e at *
    generalize hM : c % 2 ^ (F.digits - 1) = m at *
    have key : ∀ (k : Nat) (j : Int), k < 2 ^ F.digits → (F.digits : Int) + j ≤ F.top → (k : ℚ) * 2 ^ j < 2 ^ F.top := by
      intro k j hk hj
      have a1 : (k : ℚ) < 2 ^ (F.digits : Int) := by rw [zpow_natCast]; exact_mod_cast hk
      calc (k : ℚ) * 2 ^ j < 2 ^ (F.digits : Int) * 2 ^ j := mul_lt_mul_of_pos_right a1 (pow_pos' _)
        _ = 2 ^ ((F.digits : Int) + j) := (zpow_add₀ (by norm_num) _ _).symm
        _ ≤ 2 ^ F.top := zpow_le_zpow_right₀ (by norm_num) hj
    split at h
    · next h0 =>
      injection h with h1 h3
      subst h3
      refine ⟨h1.symm, ⟨m, F.least, by omega, le_refl _, rfl⟩, key m _ (by omega) ?_⟩
      unfold Format.least
      rw [h0] at hlt
      omega
    · next h0 =>
      injection h with h1 h3
      subst h3
      refine ⟨h1.symm, ⟨2 ^ (F.digits - 1) + m, (e : Int) - 1 + F.least, by omega, by omega, by push_cast; rfl⟩, ?_⟩
      have := key (2 ^ (F.digits - 1) + m) ((e : Int) - 1 + F.least) (by omega) (by unfold Format.least; omega)
      push_cast at this
      exact this

theorem Format.Number.nonneg {F : Format} {x : ℚ} (h : F.Number x) : 0 ≤ x := by
  obtain ⟨m, e, -, -, rfl⟩ := h
  exact mul_nonneg (by positivity) (le_of_lt (pow_pos' e))

theorem value32_number {b : BitVec 32} {s : Bool} {x : ℚ} (h : value32 b = .fin s x) : single.Number x ∧ x < 2 ^ (128 : Int) := by
  refine (decode_number single (by decide) (by decide) _ _ _ _ ?_ h).2
  have : b.toNat % 2 ^ 31 < 2 ^ 31 := Nat.mod_lt _ (by norm_num)
  have : b.toNat % 2 ^ 31 / 2 ^ (single.digits - 1) < 256 := by
    show b.toNat % 2 ^ 31 / 2 ^ 23 < 256
    omega
  show ((b.toNat % 2 ^ 31 / 2 ^ (single.digits - 1) : Nat) : Int) ≤ 255
  omega

theorem value64_number {b : BitVec 64} {s : Bool} {x : ℚ} (h : value64 b = .fin s x) : double.Number x ∧ x < 2 ^ (1024 : Int) := by
  refine (decode_number double (by decide) (by decide) _ _ _ _ ?_ h).2
  have : b.toNat % 2 ^ 63 < 2 ^ 63 := Nat.mod_lt _ (by norm_num)
  have : b.toNat % 2 ^ 63 / 2 ^ (double.digits - 1) < 2048 := by
    show b.toNat % 2 ^ 63 / 2 ^ 52 < 2048
    omega
  show ((b.toNat % 2 ^ 63 / 2 ^ (double.digits - 1) : Nat) : Int) ≤ 2047
  omega

/-- Every `float32` is a `float64`. -/
theorem widened (b : BitVec 32) : value64 (texts.widen b) = value32 b := by
  show value64 (bits64 (double.convert (value32 b))) = _
  cases h : value32 b with
  | nan => exact (special64 false).1
  | inf s => exact (special64 s).2
  | fin s x =>
    obtain ⟨⟨m, e, hm, he, hx⟩, hlt⟩ := value32_number h
    have hnum : double.Number x := ⟨m, e, lt_trans hm (by decide), le_trans (by decide) he, hx⟩
    have h0 := hnum.nonneg
    have hr := number_rounded (F := double) (by decide) h0 hnum
    have hb : double.rounded x < 2 ^ double.top := by
      rw [hr]
      exact lt_trans hlt (zpow_lt_zpow_right₀ (by norm_num) (by decide))
    show value64 (bits64 (double.number s x)) = _
    unfold Format.number
    rw [if_neg (not_le.mpr hb)]
    rw [value64_bits64 (rounded_has double h0 (by decide) hb), hr]

/-! ## Texts -/

theorem threeDigits_value : ∀ k : Fin 1000, (threeDigits k.val).all isDigit = true ∧ digitsValue (threeDigits k.val) = k.val ∧
    (threeDigits k.val).length = 3 := by decide +kernel

/-- The number written for a magnitude. -/
def written (s : Bool) (x : ℚ) : ℚ := (if s then -1 else 1) * (nearest (x * 1000) / 1000)

theorem nearest_nonneg {x : ℚ} (h : 0 ≤ x) : 0 ≤ nearest x := by
  have := nearest_mono h
  have h0 : nearest (0 : ℚ) = 0 := by simpa using nearest_int 0
  omega

theorem format3_writes (s : Bool) {x : ℚ} (hx : 0 ≤ x) : Writes (format3 (.fin s x)) (written s x) := by
  have hn : 0 ≤ nearest (x * 1000) := nearest_nonneg (by positivity)
  obtain ⟨k, hk⟩ := Int.eq_ofNat_of_zero_le hn
  obtain ⟨h1, h2, c, cs, h3, -⟩ := formatNat_digits (k / 1000)
  obtain ⟨h4, h5, h6⟩ := threeDigits_value ⟨k % 1000, Nat.mod_lt _ (by norm_num)⟩
  simp only at h4 h5 h6
  refine ⟨s, formatNat 10 (k / 1000), threeDigits (k % 1000), ?_, by rw [h3]; simp, h1, h6, h4, ?_⟩
  · show (if s = true then [45] else []) ++ formatNat 10 ((nearest (x * 1000)).toNat / 1000) ++
      46 :: threeDigits ((nearest (x * 1000)).toNat % 1000) = _
    rw [hk]; rfl
  · rw [h2, h5]
    unfold written
    rw [hk]
    have e : (k : ℚ) = 1000 * ((k / 1000 : Nat) : ℚ) + ((k % 1000 : Nat) : ℚ) := by exact_mod_cast (Nat.div_add_mod k 1000).symm
    congr 1
    push_cast
    rw [e]
    push_cast
    field_simp

theorem written_near (s : Bool) (x v : ℚ) (hv : real (.fin s x) = some v) : |written s x - v| ≤ 1 / 2000 := by
  have h := nearest_near (x * 1000)
  simp only [real, Option.some.injEq] at hv
  rw [abs_le] at h ⊢
  unfold written
  subst hv
  cases s
  · simp only [Bool.false_eq_true, if_false]
    constructor <;> linarith [h.1, h.2]
  · simp only [if_true]
    constructor <;> linarith [h.1, h.2]

theorem written_exact (s : Bool) (x v : ℚ) (hv : real (.fin s x) = some v) (n : Int) (hn : v * 1000 = n) : written s x = v := by
  simp only [real, Option.some.injEq] at hv
  unfold written
  subst hv
  cases s
  · simp only [Bool.false_eq_true, if_false] at hn ⊢
    rw [hn, nearest_int, ← hn]
    ring
  · simp only [if_true] at hn ⊢
    have e : x * 1000 = ((-n : Int) : ℚ) := by push_cast; linarith
    rw [e, nearest_int, ← e]
    ring

theorem text_of {n : Num} {v : ℚ} (hv : real n = some v) (hx : ∀ s x, n = .fin s x → 0 ≤ x) :
    ∃ d, Writes (format3 n) d ∧ |d - v| ≤ 1 / 2000 ∧ ∀ m : Int, v * 1000 = m → d = v := by
  cases n with
  | nan => cases hv
  | inf s => cases hv
  | fin s x => exact ⟨written s x, format3_writes s (hx s x rfl), written_near s x v hv, written_exact s x v hv⟩

/-- **C113**, texts: the text of a floating-point value writes, with three decimals, a number within half a thousandth of it; the value itself
when it is a whole number of thousandths. -/
theorem C113_text (b : BitVec 64) (v : ℚ) (hv : real (value64 b) = some v) :
    ∃ t d, (Value.double b).toText texts = .ok t ∧ Writes t d ∧ |d - v| ≤ 1 / 2000 ∧ ∀ m : Int, v * 1000 = m → d = v := by
  obtain ⟨d, h1, h2, h3⟩ := text_of hv (fun s x h => (value64_number h).1.nonneg)
  exact ⟨_, d, by rw [Value.toText]; rfl, h1, h2, h3⟩

/-- **C113**, texts: likewise for a value of single precision, which is not changed by the widening. -/
theorem C113_text_single (b : BitVec 32) (v : ℚ) (hv : real (value32 b) = some v) :
    ∃ t d, (Value.float b).toText texts = .ok t ∧ Writes t d ∧ |d - v| ≤ 1 / 2000 ∧ ∀ m : Int, v * 1000 = m → d = v := by
  obtain ⟨d, h1, h2, h3⟩ := text_of hv (fun s x h => (value32_number h).1.nonneg)
  refine ⟨_, d, by rw [Value.toText], ?_, h2, h3⟩
  show Writes (format3 (value64 (texts.widen b))) d
  rw [widened]; exact h1

/-- **C113**, texts: what is no number is shown as such. -/
theorem C113_no_numbers (b : BitVec 64) :
    (value64 b = .nan → (Value.double b).toText texts = .ok (ascii "NaN")) ∧
    (value64 b = .inf false → (Value.double b).toText texts = .ok (ascii "+Inf")) ∧
    (value64 b = .inf true → (Value.double b).toText texts = .ok (ascii "-Inf")) := by
  refine ⟨fun h => ?_, fun h => ?_, fun h => ?_⟩ <;>
  · rw [Value.toText]
    show Go.ok (format3 (value64 b)) = _
    rw [h]
    rfl

/-- **C113**, texts: of two values the text of the greater does not write a smaller number. -/
theorem C113_texts_in_order (a b : BitVec 64) (v w : ℚ) (hv : real (value64 a) = some v) (hw : real (value64 b) = some w) (h : v ≤ w) :
    ∃ t u d e, (Value.double a).toText texts = .ok t ∧ (Value.double b).toText texts = .ok u ∧ Writes t d ∧ Writes u e ∧ d ≤ e := by
  cases ha : value64 a with
  | nan => rw [ha] at hv; cases hv
  | inf s => rw [ha] at hv; cases hv
  | fin s x =>
    cases hb : value64 b with
    | nan => rw [hb] at hw; cases hw
    | inf s => rw [hb] at hw; cases hw
    | fin s' y =>
      have hx := (value64_number ha).1.nonneg
      have hy := (value64_number hb).1.nonneg
      refine ⟨format3 (value64 a), format3 (value64 b), written s x, written s' y, by rw [Value.toText]; rfl, by rw [Value.toText]; rfl,
        by rw [ha]; exact format3_writes s hx, by rw [hb]; exact format3_writes s' hy, ?_⟩
      rw [ha] at hv
      rw [hb] at hw
      simp only [real, Option.some.injEq] at hv hw
      subst hv hw
      have p1 : (0 : ℚ) ≤ nearest (x * 1000) := by exact_mod_cast nearest_nonneg (by positivity)
      have p2 : (0 : ℚ) ≤ nearest (y * 1000) := by exact_mod_cast nearest_nonneg (by positivity)
      have mono : ∀ p q : ℚ, p ≤ q → (nearest (p * 1000) : ℚ) ≤ nearest (q * 1000) := by
        intro p q hpq
        exact_mod_cast nearest_mono (by linarith)
      unfold written
      cases s <;> cases s' <;> simp only [Bool.false_eq_true, if_false, if_true] at h ⊢
      · have := mono x y h
        linarith
      · have e1 : x = 0 := by linarith
        have e2 : y = 0 := by linarith
        subst e1 e2
        have h0 : nearest ((0 : ℚ) * 1000) = 0 := by simpa using nearest_int 0
        rw [h0]
        norm_num
      · linarith
      · have := mono y x (by linarith)
        linarith

/-! ## Rounding up -/

theorem rounded_wide {x : ℚ} (h : x = 0 ∨ 2 ^ (-1022 : Int) ≤ x) : Band (1 - 1 / 2 ^ 53) (1 + 1 / 2 ^ 53) x (double.rounded x) := by
  have hx : 0 ≤ x := by
    rcases h with rfl | h
    · exact le_refl _
    · exact le_trans (le_of_lt (pow_pos' _)) h
  have := (Band.refl x).round double hx (by norm_num) h
  rw [one_mul, one_mul] at this
  exact this

theorem ceil_nat {x : ℚ} (h : 0 ≤ x) : ∃ n : Nat, ⌈x⌉ = n := Int.eq_ofNat_of_zero_le (Int.ceil_nonneg h)

/-- **C113**, rounding up: a number that is not negative (nor extremely small) is rounded up to `p` places, at most 22, with what `10 ^ p` times it is below 2^52:
the result is the number nearest to a whole number of units of the last place, it falls short of the number by at most one part in 2^52, and
exceeds it by at most one unit and one part in 2^51. -/
theorem C113_round_up (p : Nat) (hp : p ≤ 22) (x : ℚ) (hx : x = 0 ∨ 2 ^ (-1000 : Int) ≤ x) (hb : 10 ^ p * x ≤ 2 ^ 52) :
    ∃ (n : Nat) (r : ℚ), roundUp (.fin false (10 ^ p)) (.fin false x) = .fin false r ∧ r = double.rounded (n / 10 ^ p) ∧
      x - x / 2 ^ 52 ≤ r ∧ r ≤ (x + 1 / 10 ^ p) * (1 + 1 / 2 ^ 51) := by
  have h10 : (1 : ℚ) ≤ 10 ^ p := one_le_pow₀ (by norm_num)
  have h10' : (10 : ℚ) ^ p ≤ 2 ^ (74 : Int) := by
    calc (10 : ℚ) ^ p ≤ 10 ^ 22 := pow_le_pow_right₀ (by norm_num) hp
      _ ≤ 2 ^ (74 : Int) := by norm_num
  have hx0 : 0 ≤ x := by
    rcases hx with rfl | h
    · exact le_refl _
    · exact le_trans (le_of_lt (pow_pos' _)) h
  have hy0 : 0 ≤ 10 ^ p * x := mul_nonneg (by positivity) hx0
  have hy : 10 ^ p * x = 0 ∨ 2 ^ (-1022 : Int) ≤ 10 ^ p * x := by
    rcases hx with rfl | h
    · exact .inl (mul_zero _)
    · refine .inr (le_trans ?_ (le_trans h (le_mul_of_one_le_left hx0 h10)))
      exact zpow_le_zpow_right₀ (by norm_num) (by norm_num)
  obtain ⟨y1, y2⟩ := rounded_wide hy
  have hd0 : 0 ≤ double.rounded (10 ^ p * x) := rounded_nonneg double hy0 (by decide)
  obtain ⟨n, hn⟩ := ceil_nat hd0
  have hle := Int.le_ceil (double.rounded (10 ^ p * x))
  have hlt := Int.ceil_lt_add_one (double.rounded (10 ^ p * x))
  rw [hn] at hle hlt
  push_cast at hle hlt
  have hn53 : (n : ℚ) ≤ 2 ^ 53 := by
    have : double.rounded (10 ^ p * x) ≤ 2 ^ (52 : Int) := rounded_le_pow double hy0 hb (by decide) (by decide)
    have e : (2 : ℚ) ^ (52 : Int) = 4503599627370496 := by norm_num
    rw [e] at this
    have h2 : (n : ℚ) ≤ 9007199254740992 := by linarith
    exact le_trans h2 (by norm_num)
  have hq : (n : ℚ) / 10 ^ p = 0 ∨ 2 ^ (-1022 : Int) ≤ (n : ℚ) / 10 ^ p := by
    rcases Nat.eq_zero_or_pos n with h | h
    · exact .inl (by rw [h]; simp)
    · refine .inr ?_
      have h1 : (1 : ℚ) ≤ n := by exact_mod_cast h
      calc (2 : ℚ) ^ (-1022 : Int) ≤ 2 ^ (-74 : Int) := zpow_le_zpow_right₀ (by norm_num) (by norm_num)
        _ = 1 / 2 ^ (74 : Int) := by rw [zpow_neg, one_div]
        _ ≤ n / 10 ^ p := div_le_div₀ (by positivity) h1 (by positivity) h10'
  have hq0 : (0 : ℚ) ≤ n / 10 ^ p := by positivity
  have hqle : (n : ℚ) / 10 ^ p ≤ 2 ^ (53 : Int) := le_trans (div_le_self (by positivity) h10) (by exact_mod_cast hn53)
  obtain ⟨q1, q2⟩ := rounded_wide hq
  have step1 : double.mul (.fin false (10 ^ p)) (.fin false x) = .fin false (double.rounded (10 ^ p * x)) :=
    (number_fin double (k := 52) hy0 hb (by decide) (by decide) (by decide)).1
  have hne : (10 : ℚ) ^ p ≠ 0 := by positivity
  refine ⟨n, double.rounded (n / 10 ^ p), ?_, rfl, ?_, ?_⟩
  · unfold roundUp
    rw [step1]
    show double.div (.fin false ((⌈double.rounded (10 ^ p * x)⌉ : Int) : ℚ)) (.fin false (10 ^ p)) = _
    rw [hn]
    show (if (10 : ℚ) ^ p = 0 then _ else double.number false (((n : Int) : ℚ) / 10 ^ p)) = _
    rw [if_neg hne]
    exact (number_fin double (k := 53) hq0 hqle (by decide) (by decide) (by decide)).1
  · have h1 : x * (1 - 1 / 2 ^ 53) ≤ n / 10 ^ p := by
      rw [le_div_iff₀ (by positivity)]
      linarith
    have h2 := mul_le_mul_of_nonneg_left h1 (by norm_num : (0 : ℚ) ≤ 1 - 1 / 2 ^ 53)
    norm_num at h2 q1 ⊢
    linarith
  · have h1 : (n : ℚ) / 10 ^ p ≤ x * (1 + 1 / 2 ^ 53) + 1 / 10 ^ p := by
      rw [div_le_iff₀ (by positivity), add_mul, div_mul_cancel₀ _ hne]
      linarith
    have h2 := mul_le_mul_of_nonneg_left h1 (by norm_num : (0 : ℚ) ≤ 1 + 1 / 2 ^ 53)
    have h3 : (0 : ℚ) ≤ 1 / 10 ^ p := by positivity
    generalize (1 : ℚ) / 10 ^ p = g at *
    norm_num at h2 q2 ⊢
    linarith

/-- The number nearest to 7/100. -/
theorem seven_hundredths : double.rounded (7 / 100) = 5044031582654956 / 2 ^ 56 := by
  have hlog : Int.log 2 (7 / 100 : ℚ) = -4 := by
    apply le_antisymm
    · rw [← Int.lt_add_one_iff, ← Int.lt_zpow_iff_log_lt (by norm_num) (by norm_num)]
      norm_num
    · rw [← Int.zpow_le_iff_le_log (by norm_num) (by norm_num)]
      norm_num
  have hexp : double.exponent (7 / 100) = -56 := by
    rw [exponent_pos double (by norm_num), hlog]
    decide
  unfold Format.rounded
  rw [hexp]
  have hfl : ⌊(7 / 100 : ℚ) / 2 ^ (-56 : Int)⌋ = 5044031582654955 := by
    rw [Int.floor_eq_iff]
    norm_num
  have : nearest ((7 / 100 : ℚ) / 2 ^ (-56 : Int)) = 5044031582654956 := by
    unfold nearest
    rw [hfl, if_neg (by norm_num), if_neg (by norm_num)]
    rfl
  rw [this]
  norm_num

/-- **C113**, rounding up: as found, what has two places already need not stay: rounding 0.07 up to two places gives 0.08. -/
theorem C113_rounds_too_far : roundUp (.fin false (10 ^ 2)) (.fin false (double.rounded (7 / 100))) = .fin false (double.rounded (8 / 100)) := by
  have h7 : double.rounded (10 ^ 2 * double.rounded (7 / 100)) = 7 + 1 / 2 ^ 50 := by
    rw [seven_hundredths]
    have hlog : Int.log 2 (10 ^ 2 * (5044031582654956 / 2 ^ 56) : ℚ) = 2 := by
      apply le_antisymm
      · rw [← Int.lt_add_one_iff, ← Int.lt_zpow_iff_log_lt (by norm_num) (by norm_num)]
        norm_num
      · rw [← Int.zpow_le_iff_le_log (by norm_num) (by norm_num)]
        norm_num
    have hexp : double.exponent (10 ^ 2 * (5044031582654956 / 2 ^ 56)) = -50 := by
      rw [exponent_pos double (by norm_num), hlog]
      decide
    unfold Format.rounded
    rw [hexp]
    have hfl : ⌊(10 ^ 2 * (5044031582654956 / 2 ^ 56) : ℚ) / 2 ^ (-50 : Int)⌋ = 7 * 2 ^ 50 := by
      rw [Int.floor_eq_iff]
      norm_num
    have : nearest ((10 ^ 2 * (5044031582654956 / 2 ^ 56) : ℚ) / 2 ^ (-50 : Int)) = 7 * 2 ^ 50 + 1 := by
      unfold nearest
      rw [hfl, if_neg (by norm_num), if_neg (by norm_num)]
    rw [this]
    norm_num
  have step1 : double.mul (.fin false (10 ^ 2)) (.fin false (double.rounded (7 / 100))) = .fin false (7 + 1 / 2 ^ 50) := by
    rw [← h7]
    refine (number_fin double (k := 52) ?_ ?_ (by decide) (by decide) (by decide)).1
    · rw [seven_hundredths]; norm_num
    · rw [seven_hundredths]; norm_num
  unfold roundUp
  rw [step1]
  have hc : ⌈(7 : ℚ) + 1 / 2 ^ 50⌉ = 8 := by
    rw [Int.ceil_eq_iff]
    norm_num
  show double.div (.fin false ((⌈(7 : ℚ) + 1 / 2 ^ 50⌉ : Int) : ℚ)) (.fin false (10 ^ 2)) = _
  rw [hc]
  simp only [Format.div]
  rw [if_neg (by norm_num)]
  have e : ((8 : Int) : ℚ) / 10 ^ 2 = 8 / 100 := by norm_num
  rw [e]
  exact (number_fin double (k := 53) (by norm_num) (by norm_num) (by decide) (by decide) (by decide)).1

/-- **C113**, rounding up: a number below zero is rounded towards zero: to zero when it is less than half a unit away. -/
theorem C113_round_up_negative (p : Nat) (x : ℚ) (hx : 0 < x) (hb : 10 ^ p * x ≤ 1 / 2) :
    real (roundUp (.fin false (10 ^ p)) (.fin true x)) = some 0 := by
  have hr : double.rounded (10 ^ p * x) < 1 := by
    have h := rounded_le_pow double (k := -1) (x := 10 ^ p * x) (by positivity) (le_trans hb (by norm_num)) (by decide) (by decide)
    exact lt_of_le_of_lt h (by norm_num)
  have hy0 : 0 ≤ 10 ^ p * x := by positivity
  have step1 : double.mul (.fin false (10 ^ p)) (.fin true x) = .fin true (double.rounded (10 ^ p * x)) :=
    (number_fin double (k := 0) hy0 (by rw [zpow_zero]; linarith) (by decide) (by decide) (by decide)).1
  have h0 : ⌊double.rounded (10 ^ p * x)⌋ = 0 := by
    rw [Int.floor_eq_iff]
    exact ⟨by simpa using rounded_nonneg double hy0 (by decide), by simpa using hr⟩
  unfold roundUp
  rw [step1]
  show real (double.div (.fin true ((⌊double.rounded (10 ^ p * x)⌋ : Int) : ℚ)) (.fin false (10 ^ p))) = _
  rw [h0]
  show real (if (10 : ℚ) ^ p = 0 then _ else double.number true (((0 : Int) : ℚ) / 10 ^ p)) = _
  rw [if_neg (by positivity)]
  have e : ((0 : Int) : ℚ) / 10 ^ p = 0 := by simp
  rw [e, (number_fin double (k := 0) (le_refl _) (by norm_num) (by decide) (by decide) (by decide)).1, rounded_zero]
  simp [real]

/-! Cases. -/
namespace Demo

/-- 1.5 as a `float64`. -/
def oneAndHalf : BitVec 64 := 0x3ff8000000000000

theorem oneAndHalf_value : real (value64 oneAndHalf) = some (3 / 2) := by
  have : value64 oneAndHalf = .fin false ((2 ^ 52 + (2251799813685248 : Nat)) * 2 ^ ((1023 : Int) - 1 + -1074)) := by
    have h1 : oneAndHalf.toNat = 4609434218613702656 := by decide
    unfold value64 Format.decode
    rw [h1]
    norm_num [double, Format.least]
  rw [this]
  norm_num [real]

/-- It is shown as 1.5, in three decimals. -/
example : ∃ t, (Value.double oneAndHalf).toText texts = .ok t ∧ Writes t (3 / 2) := by
  obtain ⟨t, d, h1, h2, -, h3⟩ := C113_text oneAndHalf _ oneAndHalf_value
  rw [h3 1500 (by norm_num)] at h2
  exact ⟨t, h1, h2⟩

example : Writes (ascii "-12.345") (-12.345) :=
  ⟨true, ascii "12", ascii "345", by decide, by decide, by decide, by decide, by decide, by
    rw [show digitsValue (ascii "12") = 12 by decide, show digitsValue (ascii "345") = 345 by decide]; norm_num⟩

/-- 0.25 may be rounded up to one place. -/
example : ((1 / 4 : ℚ) = 0 ∨ 2 ^ (-1000 : Int) ≤ (1 / 4 : ℚ)) ∧ (10 : ℚ) ^ 1 * (1 / 4) ≤ 2 ^ 52 := by
  refine ⟨.inr ?_, by norm_num⟩
  calc (2 : ℚ) ^ (-1000 : Int) ≤ 2 ^ (-2 : Int) := zpow_le_zpow_right₀ (by norm_num) (by norm_num)
    _ = 1 / 4 := by norm_num

example : value64 0x7ff8000000000001 = .nan ∧ value64 0x7ff0000000000000 = .inf false ∧ value64 0xfff0000000000000 = .inf true := by decide +kernel

end Demo
end Floating
end Scouter
