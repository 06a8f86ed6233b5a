import Verif.Model.Floating
import Mathlib.Tactic.Linarith
import Mathlib.Tactic.Ring
import Mathlib.Tactic.FieldSimp
import Mathlib.Tactic.NormNum
import Mathlib.Tactic.Positivity
/-!
# Rounding
-/
namespace Scouter
namespace Floating

theorem nearest_floor (x : ℚ) : nearest x = ⌊x⌋ ∨ nearest x = ⌊x⌋ + 1 := by
  unfold nearest; split
  · exact .inl rfl
  · split
    · exact .inl rfl
    · exact .inr rfl

theorem nearest_int (n : Int) : nearest (n : ℚ) = n := by
  unfold nearest
  simp

theorem nearest_mono {x y : ℚ} (h : x ≤ y) : nearest x ≤ nearest y := by
  rcases lt_or_eq_of_le (Int.floor_mono h) with hf | hf
  · have h1 : nearest x ≤ ⌊x⌋ + 1 := by rcases nearest_floor x with e | e <;> omega
    have h2 : ⌊y⌋ ≤ nearest y := by rcases nearest_floor y with e | e <;> omega
    omega
  · unfold nearest
    rw [← hf]
    split
    · split
      · exact le_refl _
      · split <;> omega
    · rename_i hx
      split
      · rename_i hx2
        split
        · exact le_refl _
        · split <;> omega
      · rename_i hx2
        rw [if_neg (by linarith), if_neg]
        rintro ⟨e1, e2⟩
        refine hx2 ⟨?_, e2⟩
        linarith

theorem nearest_near (x : ℚ) : |(nearest x : ℚ) - x| ≤ 1 / 2 := by
  have h0 := Int.floor_le x
  have h1 := Int.lt_floor_add_one x
  unfold nearest
  rw [abs_le]
  split
  · constructor <;> linarith
  · split
    · constructor <;> linarith
    · push_cast; constructor <;> linarith

theorem pow_pos' (e : Int) : (0 : ℚ) < 2 ^ e := zpow_pos (by norm_num) e

theorem pow_split {a b : Int} (h : b ≤ a) : ∃ n : Nat, (2 : ℚ) ^ a / 2 ^ b = n ∧ n = 2 ^ (a - b).toNat := by
  refine ⟨2 ^ (a - b).toNat, ?_, rfl⟩
  rw [← zpow_sub₀ (by norm_num)]
  push_cast
  rw [← zpow_natCast, Int.toNat_of_nonneg (by omega)]

variable (F : Format)

theorem exponent_pos {x : ℚ} (h : 0 < x) : F.exponent x = max (Int.log 2 x - (F.digits - 1)) F.least := if_neg (ne_of_gt h)

theorem least_le (x : ℚ) : F.least ≤ F.exponent x := by
  unfold Format.exponent
  split
  · exact le_refl _
  · exact le_max_right ..

theorem exponent_mono {x y : ℚ} (h : 0 < x) (hxy : x ≤ y) : F.exponent x ≤ F.exponent y := by
  rw [exponent_pos F h, exponent_pos F (lt_of_lt_of_le h hxy)]
  have := Int.log_mono_right (b := 2) h hxy
  exact max_le_max (by omega) (le_refl _)

theorem rounded_zero : F.rounded 0 = 0 := by
  have := nearest_int 0
  simp only [Int.cast_zero] at this
  simp [Format.rounded, this]

/-- A number of the format is its own rounding. -/
theorem rounded_exact {x : ℚ} (n : Int) (e : Int) (he : F.exponent x ≤ e) (hx : x = n * 2 ^ e) : F.rounded x = x := by
  obtain ⟨k, hk, -⟩ := pow_split he
  have h2 : (2 : ℚ) ^ e = k * 2 ^ F.exponent x := by
    rw [← hk]; field_simp
  have h3 : x / 2 ^ F.exponent x = ((n * k : Int) : ℚ) := by
    rw [div_eq_iff (ne_of_gt (pow_pos' _))]
    conv_lhs => rw [hx, h2]
    push_cast; ring
  unfold Format.rounded
  rw [h3, nearest_int]
  rw [← h3]
  exact div_mul_cancel₀ _ (ne_of_gt (pow_pos' _))

theorem rounded_mono {x y : ℚ} (h0 : 0 ≤ x) (h : x ≤ y) (hd : 1 ≤ F.digits) : F.rounded x ≤ F.rounded y := by
  rcases eq_or_lt_of_le h0 with rfl | hx
  · rw [rounded_zero]
    unfold Format.rounded
    refine mul_nonneg ?_ (le_of_lt (pow_pos' _))
    have h1 : nearest (0 : ℚ) ≤ nearest (y / 2 ^ F.exponent y) := nearest_mono (div_nonneg h (le_of_lt (pow_pos' _)))
    have h2 : nearest (0 : ℚ) = 0 := by simpa using nearest_int 0
    rw [h2] at h1
    exact_mod_cast h1
  · have hy := lt_of_lt_of_le hx h
    rcases eq_or_lt_of_le (exponent_mono F hx h) with he | he
    · unfold Format.rounded
      rw [he]
      refine mul_le_mul_of_nonneg_right ?_ (le_of_lt (pow_pos' _))
      exact_mod_cast nearest_mono (div_le_div_of_nonneg_right h (le_of_lt (pow_pos' _)))
    · -- a power of two lies between
      have hl : F.exponent y = Int.log 2 y - (F.digits - 1) := by
        rw [exponent_pos F hy] at he ⊢
        rcases max_choice (Int.log 2 y - ((F.digits : Int) - 1)) F.least with e | e
        · exact e
        · have := least_le F x; omega
      have hxl : Int.log 2 x < Int.log 2 y := by
        by_contra hc
        have h1 : Int.log 2 x - ((F.digits : Int) - 1) ≤ F.exponent x := by rw [exponent_pos F hx]; exact le_max_left ..
        omega
      have hx2 : x ≤ 2 ^ Int.log 2 y := by
        have := Int.lt_zpow_succ_log_self (b := 2) (by norm_num) x
        push_cast at this
        refine le_trans (le_of_lt this) (zpow_le_zpow_right₀ (by norm_num) (by omega))
      have hy2 : (2 : ℚ) ^ Int.log 2 y ≤ y := by
        have := Int.zpow_log_le_self (b := 2) (by norm_num) hy
        push_cast at this
        exact this
      have key : ∀ {z : ℚ} {e : Int}, e ≤ Int.log 2 y → (2 : ℚ) ^ Int.log 2 y = (nearest ((2 : ℚ) ^ Int.log 2 y / 2 ^ e) : ℚ) * 2 ^ e := by
        intro _ e hle
        obtain ⟨k, hk, -⟩ := pow_split hle
        rw [hk, show ((k : ℚ)) = ((k : Int) : ℚ) by simp, nearest_int]
        rw [show (((k : Int) : ℚ)) = (k : ℚ) by simp, ← hk]
        exact (div_mul_cancel₀ _ (ne_of_gt (pow_pos' _))).symm
      refine le_trans (b := (2 : ℚ) ^ Int.log 2 y) ?_ ?_
      · rw [key (z := x) (e := F.exponent x) (by omega)]
        unfold Format.rounded
        refine mul_le_mul_of_nonneg_right ?_ (le_of_lt (pow_pos' _))
        exact_mod_cast nearest_mono (div_le_div_of_nonneg_right hx2 (le_of_lt (pow_pos' _)))
      · rw [key (z := x) (e := F.exponent y) (by omega)]
        unfold Format.rounded
        refine mul_le_mul_of_nonneg_right ?_ (le_of_lt (pow_pos' _))
        exact_mod_cast nearest_mono (div_le_div_of_nonneg_right hy2 (le_of_lt (pow_pos' _)))

/-- The error of rounding: half a unit of the last digit. -/
theorem rounded_near (x : ℚ) : |F.rounded x - x| ≤ 2 ^ F.exponent x / 2 := by
  have h := nearest_near (x / 2 ^ F.exponent x)
  have hp := pow_pos' (F.exponent x)
  have e : F.rounded x - x = ((nearest (x / 2 ^ F.exponent x) : ℚ) - x / 2 ^ F.exponent x) * 2 ^ F.exponent x := by
    unfold Format.rounded
    rw [sub_mul, div_mul_cancel₀ _ (ne_of_gt hp)]
  rw [e, abs_mul, abs_of_pos hp]
  calc _ ≤ 1 / 2 * (2 : ℚ) ^ F.exponent x := mul_le_mul_of_nonneg_right h (le_of_lt hp)
    _ = _ := by ring

/-- The relative error, for magnitudes that are not subnormal. -/
theorem rounded_relative {x : ℚ} (hx : (2 : ℚ) ^ (F.least + F.digits - 1) ≤ x) : |F.rounded x - x| ≤ x / 2 ^ F.digits := by
  have h0 : 0 < x := lt_of_lt_of_le (pow_pos' _) hx
  have hl : F.least + F.digits - 1 ≤ Int.log 2 x := by
    rw [← Int.zpow_le_iff_le_log (by norm_num) h0]
    exact_mod_cast hx
  have he : F.exponent x = Int.log 2 x - (F.digits - 1) := by
    rw [exponent_pos F h0]
    exact max_eq_left (by omega)
  refine le_trans (rounded_near F x) ?_
  have h2 : (2 : ℚ) ^ Int.log 2 x ≤ x := by
    have := Int.zpow_log_le_self (b := 2) (by norm_num) h0
    push_cast at this
    exact this
  rw [he, show Int.log 2 x - ((F.digits : Int) - 1) = Int.log 2 x - F.digits + 1 by ring, zpow_add₀ (by norm_num), zpow_sub₀ (by norm_num),
    zpow_one, zpow_natCast]
  have hp : (0 : ℚ) < 2 ^ F.digits := by positivity
  rw [mul_div_assoc, div_self (by norm_num), mul_one]
  exact div_le_div_of_nonneg_right h2 (le_of_lt hp)

/-- Whole numbers of few digits are numbers of the format. -/
theorem rounded_nat {n : Nat} (h : n ≤ 2 ^ F.digits) (hd : 1 ≤ F.digits) (hl : F.least ≤ 0) : F.rounded n = n := by
  rcases Nat.eq_zero_or_pos n with rfl | hn
  · simp [rounded_zero]
  rcases Nat.lt_or_eq_of_le h with h | h
  · refine rounded_exact F n 0 ?_ (by simp)
    have hq : (0 : ℚ) < n := by exact_mod_cast hn
    rw [exponent_pos F hq]
    refine max_le ?_ hl
    rw [Int.log_natCast]
    have := Nat.log_lt_of_lt_pow (by omega) h
    omega
  · have e : ((n : ℚ)) = 2 ^ (F.digits : Int) := by rw [h]; simp
    refine rounded_exact F 1 F.digits ?_ (by rw [e]; simp)
    rw [e, exponent_pos F (pow_pos' _)]
    have := Int.log_zpow (R := ℚ) (b := 2) (by norm_num) (F.digits : Int)
    push_cast at this
    rw [this]
    exact max_le (by omega) (by omega)

theorem rounded_nonneg {x : ℚ} (h : 0 ≤ x) (hd : 1 ≤ F.digits) : 0 ≤ F.rounded x := by
  have := rounded_mono F (le_refl 0) h hd
  rwa [rounded_zero] at this

/-- A magnitude of the format. -/
structure Format.Has (x : ℚ) : Prop where
  nonneg : 0 ≤ x
  whole : ∃ m : Nat, x = m * 2 ^ F.exponent x
  bounded : x < 2 ^ F.top

theorem lt_unit {x : ℚ} (h : 0 < x) : x / 2 ^ F.exponent x < 2 ^ F.digits := by
  rw [div_lt_iff₀ (pow_pos' _)]
  have h1 := Int.lt_zpow_succ_log_self (b := 2) (by norm_num) x
  push_cast at h1
  refine lt_of_lt_of_le h1 ?_
  rw [← zpow_natCast, ← zpow_add₀ (by norm_num)]
  refine zpow_le_zpow_right₀ (by norm_num) ?_
  rw [exponent_pos F h]
  have := le_max_left (Int.log 2 x - ((F.digits : Int) - 1)) F.least
  omega

theorem rounded_whole {y : ℚ} (hy : 0 ≤ y) (hd : 1 ≤ F.digits) : ∃ m : Nat, F.rounded y = m * 2 ^ F.exponent (F.rounded y) := by
  rcases eq_or_lt_of_le hy with rfl | hy
  · exact ⟨0, by simp [rounded_zero]⟩
  have hp := pow_pos' (F.exponent y)
  have hn0 : 0 ≤ nearest (y / 2 ^ F.exponent y) := by
    have := nearest_mono (div_nonneg (le_of_lt hy) (le_of_lt hp))
    have h0 : nearest (0 : ℚ) = 0 := by simpa using nearest_int 0
    omega
  have hn1 : nearest (y / 2 ^ F.exponent y) ≤ 2 ^ F.digits := by
    have := nearest_mono (le_of_lt (lt_unit F hy))
    have h0 : nearest ((2 : ℚ) ^ F.digits) = 2 ^ F.digits := by
      have := nearest_int (2 ^ F.digits)
      push_cast at this
      exact this
    omega
  obtain ⟨n, hn⟩ := Int.eq_ofNat_of_zero_le hn0
  have hx : F.rounded y = n * 2 ^ F.exponent y := by
    unfold Format.rounded; rw [hn]; simp
  have hn1 : n ≤ 2 ^ F.digits := by
    rw [hn] at hn1
    exact_mod_cast hn1
  rcases Nat.eq_zero_or_pos n with rfl | hnp
  · exact ⟨0, by rw [hx]; simp⟩
  have hnq : (0 : ℚ) < n := by exact_mod_cast hnp
  have hxp : 0 < F.rounded y := by rw [hx]; exact mul_pos hnq hp
  rcases Nat.lt_or_eq_of_le hn1 with hlt | heq
  · have hle : F.exponent (F.rounded y) ≤ F.exponent y := by
      rw [exponent_pos F hxp]
      refine max_le ?_ (least_le F y)
      have : Int.log 2 (F.rounded y) < F.digits + F.exponent y := by
        rw [← Int.lt_zpow_iff_log_lt (by norm_num) hxp, hx]
        push_cast
        rw [zpow_add₀ (by norm_num), zpow_natCast]
        refine mul_lt_mul_of_pos_right ?_ hp
        exact_mod_cast hlt
      omega
    obtain ⟨k, hk, -⟩ := pow_split hle
    refine ⟨n * k, ?_⟩
    have h2 : (2 : ℚ) ^ F.exponent y = k * 2 ^ F.exponent (F.rounded y) := by rw [← hk]; field_simp
    conv_lhs => rw [hx, h2]
    push_cast; ring
  · have hx2 : F.rounded y = 2 ^ ((F.digits : Int) + F.exponent y) := by
      rw [hx, heq, zpow_add₀ (by norm_num), zpow_natCast]; push_cast; rfl
    have hle : F.exponent (F.rounded y) ≤ (F.digits : Int) + F.exponent y := by
      rw [exponent_pos F hxp]
      have := Int.log_zpow (R := ℚ) (b := 2) (by norm_num) ((F.digits : Int) + F.exponent y)
      push_cast at this
      rw [hx2, this]
      have := least_le F y
      exact max_le (by omega) (by omega)
    obtain ⟨k, hk, -⟩ := pow_split hle
    refine ⟨k, ?_⟩
    rw [← hk, hx2]
    exact (div_mul_cancel₀ _ (ne_of_gt (pow_pos' _))).symm

theorem rounded_has {y : ℚ} (hy : 0 ≤ y) (hd : 1 ≤ F.digits) (hb : F.rounded y < 2 ^ F.top) : F.Has (F.rounded y) :=
  ⟨rounded_nonneg F hy hd, rounded_whole F hy hd, hb⟩

/-- What the bits of a magnitude of the format are. -/
theorem code_parts {x : ℚ} (h : F.Has x) (hd : 1 ≤ F.digits) (ht : 2 ≤ F.top) (nan : Nat) (s : Bool) :
    ∃ k m : Nat, F.code nan (.fin s x) = k * 2 ^ (F.digits - 1) + m ∧ m < 2 ^ (F.digits - 1) ∧ (k : Int) < 2 * F.top - 1 ∧
      (k = 0 → x = m * 2 ^ F.least) ∧ (k ≠ 0 → x = (2 ^ (F.digits - 1) + m) * 2 ^ ((k : Int) - 1 + F.least)) := by
  obtain ⟨M, hM⟩ := h.whole
  have hp := pow_pos' (F.exponent x)
  have hq : x / 2 ^ F.exponent x = M := by rw [div_eq_iff (ne_of_gt hp)]; exact hM
  obtain ⟨j, hj⟩ := Int.eq_ofNat_of_zero_le (Int.sub_nonneg_of_le (least_le F x))
  have hcode : F.code nan (.fin s x) = j * 2 ^ (F.digits - 1) + M := by
    show ((F.exponent x - F.least) * 2 ^ (F.digits - 1) + ⌊x / 2 ^ F.exponent x⌋).toNat = _
    rw [hq, hj, Int.floor_natCast]
    norm_cast
  have hM2 : M < 2 ^ (F.digits - 1) * 2 := by
    rw [← pow_succ, Nat.sub_add_cancel hd]
    rcases eq_or_lt_of_le h.nonneg with hx | hx
    · have : M = 0 := by
        rw [← hx] at hM hp
        rcases mul_eq_zero.mp hM.symm with e | e
        · exact_mod_cast e
        · exact absurd e (ne_of_gt hp)
      rw [this]; positivity
    · have := lt_unit F hx
      rw [hq] at this
      exact_mod_cast this
  by_cases hs : M < 2 ^ (F.digits - 1)
  · have hE : F.exponent x = F.least := by
      by_cases hx : x = 0
      · rw [hx]; exact if_pos rfl
      · have hx : 0 < x := lt_of_le_of_ne h.nonneg (Ne.symm hx)
        by_contra hne
        rw [exponent_pos F hx] at hne
        have he : F.exponent x = Int.log 2 x - (F.digits - 1) := by
          rw [exponent_pos F hx]
          rcases max_choice (Int.log 2 x - ((F.digits : Int) - 1)) F.least with e | e
          · exact e
          · exact absurd e hne
        have h1 := Int.zpow_log_le_self (b := 2) (by norm_num) hx
        push_cast at h1
        have h2 : (2 : ℚ) ^ (F.digits - 1) ≤ M := by
          rw [← hq, le_div_iff₀ hp, ← zpow_natCast, ← zpow_add₀ (by norm_num), he]
          rw [show ((F.digits - 1 : Nat) : Int) + (Int.log 2 x - ((F.digits : Int) - 1)) = Int.log 2 x by omega]
          exact h1
        have h3 : 2 ^ (F.digits - 1) ≤ M := by exact_mod_cast h2
        omega
    have hj0 : j = 0 := by omega
    refine ⟨0, M, by rw [hcode, hj0], hs, by omega, fun _ => by rw [← hE]; exact hM, fun h => absurd rfl h⟩
  · refine ⟨j + 1, M - 2 ^ (F.digits - 1), ?_, by omega, ?_, fun h => absurd h (by omega), fun _ => ?_⟩
    · rw [hcode, Nat.succ_mul]; omega
    · -- the exponent is bounded
      have hx : 0 < x := by
        rw [hM]
        refine mul_pos ?_ hp
        have : 0 < M := lt_of_lt_of_le (Nat.two_pow_pos _) (Nat.not_lt.mp hs)
        exact_mod_cast this
      have hl : Int.log 2 x < F.top := by
        rw [← Int.lt_zpow_iff_log_lt (by norm_num) hx]
        exact_mod_cast h.bounded
      have : F.exponent x ≤ F.top - F.digits := by
        rw [exponent_pos F hx]
        refine max_le (by omega) ?_
        unfold Format.least
        omega
      have hle : F.least = 3 - F.top - F.digits := rfl
      push_cast
      omega
    · have hc : ((M - 2 ^ (F.digits - 1) : Nat) : ℚ) = M - 2 ^ (F.digits - 1) := by
        rw [Nat.cast_sub (Nat.not_lt.mp hs)]; push_cast; rfl
      rw [hc, show ((j + 1 : Nat) : Int) - 1 + F.least = F.exponent x by push_cast; omega]
      conv_lhs => rw [hM]
      ring

theorem decode_code {x : ℚ} (h : F.Has x) (hd : 1 ≤ F.digits) (ht : 2 ≤ F.top) (nan : Nat) (s s' : Bool) :
    F.decode s (F.code nan (.fin s' x)) = .fin s x ∧ (F.code nan (.fin s' x) : Int) < (2 * F.top - 1) * 2 ^ (F.digits - 1) := by
  obtain ⟨k, m, h1, h2, h3, h4, h5⟩ := code_parts F h hd ht nan s'
  have hp : 0 < 2 ^ (F.digits - 1) := Nat.two_pow_pos _
  rw [h1]
  constructor
  · unfold Format.decode
    have e1 : (k * 2 ^ (F.digits - 1) + m) / 2 ^ (F.digits - 1) = k := by
      rw [Nat.add_comm, Nat.add_mul_div_right _ _ hp, Nat.div_eq_of_lt h2, Nat.zero_add]
    have e2 : (k * 2 ^ (F.digits - 1) + m) % 2 ^ (F.digits - 1) = m := by
      rw [Nat.add_comm, Nat.add_mul_mod_self_right, Nat.mod_eq_of_lt h2]
    simp only [e1, e2]
    rw [if_neg (by omega)]
    split
    · rename_i hk; rw [← h4 hk]
    · rename_i hk; rw [← h5 hk]
  · push_cast
    have h2' : (m : Int) < 2 ^ (F.digits - 1) := by exact_mod_cast h2
    have : (k : Int) * 2 ^ (F.digits - 1) + m < (k + 1) * 2 ^ (F.digits - 1) := by rw [Int.add_mul]; omega
    refine lt_of_lt_of_le this ?_
    exact Int.mul_le_mul_of_nonneg_right (by omega) (by positivity)

theorem value32_bits32 {s : Bool} {x : ℚ} (h : single.Has x) : value32 (bits32 (.fin s x)) = .fin s x := by
  obtain ⟨h1, h2⟩ := decode_code single h (by decide) (by decide) 0x7fc00000 s s
  have h2 : single.code 0x7fc00000 (.fin s x) < 2 ^ 31 := by
    have : ((2 * single.top - 1) * 2 ^ (single.digits - 1) : Int) ≤ 2 ^ 31 := by decide
    omega
  unfold value32 bits32
  rw [BitVec.toNat_ofNat]
  cases s with
  | false =>
    simp only [Num.neg, Bool.false_eq_true, if_false, Nat.zero_add]
    rw [Nat.mod_eq_of_lt (by omega), Nat.div_eq_of_lt h2, Nat.mod_eq_of_lt h2]
    exact h1
  | true =>
    simp only [Num.neg, if_true]
    rw [Nat.mod_eq_of_lt (by omega), show (2 ^ 31 + single.code 2143289344 (.fin true x)) / 2 ^ 31 = 1 by omega,
      show (2 ^ 31 + single.code 2143289344 (.fin true x)) % 2 ^ 31 = single.code 2143289344 (.fin true x) by omega]
    exact h1

theorem value64_bits64 {s : Bool} {x : ℚ} (h : double.Has x) : value64 (bits64 (.fin s x)) = .fin s x := by
  obtain ⟨h1, h2⟩ := decode_code double h (by decide) (by decide) 0x7ff8000000000000 s s
  have h2 : double.code 0x7ff8000000000000 (.fin s x) < 2 ^ 63 := by
    have : ((2 * double.top - 1) * 2 ^ (double.digits - 1) : Int) ≤ 2 ^ 63 := by decide
    omega
  unfold value64 bits64
  rw [BitVec.toNat_ofNat]
  cases s with
  | false =>
    simp only [Num.neg, Bool.false_eq_true, if_false, Nat.zero_add]
    rw [Nat.mod_eq_of_lt (by omega), Nat.div_eq_of_lt h2, Nat.mod_eq_of_lt h2]
    exact h1
  | true =>
    simp only [Num.neg, if_true]
    rw [Nat.mod_eq_of_lt (by omega), show (2 ^ 63 + double.code 9221120237041090560 (.fin true x)) / 2 ^ 63 = 1 by omega,
      show (2 ^ 63 + double.code 9221120237041090560 (.fin true x)) % 2 ^ 63 = double.code 9221120237041090560 (.fin true x) by omega]
    exact h1

theorem special32 (s : Bool) : value32 (bits32 .nan) = .nan ∧ value32 (bits32 (.inf s)) = .inf s := by
  refine ⟨by decide +kernel, ?_⟩
  cases s <;> decide +kernel

theorem special64 (s : Bool) : value64 (bits64 .nan) = .nan ∧ value64 (bits64 (.inf s)) = .inf s := by
  refine ⟨by decide +kernel, ?_⟩
  cases s <;> decide +kernel

end Floating
end Scouter
