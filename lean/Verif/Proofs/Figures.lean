import Verif.Proofs.Floating
import Verif.Spec.Floating
/-!
# Figures computed in floating point
-/
namespace Scouter
namespace Floating

variable (F : Format)

theorem exponent_pow (k : Int) : F.exponent (2 ^ k) = max (k - (F.digits - 1)) F.least := by
  have h := Int.log_zpow (R := ℚ) (b := 2) (by norm_num) k
  push_cast at h
  rw [exponent_pos F (pow_pos' k), h]

theorem rounded_pow {k : Int} (hk : F.least ≤ k) (hd : 1 ≤ F.digits) : F.rounded (2 ^ k) = 2 ^ k := by
  refine rounded_exact F 1 k ?_ (by simp)
  rw [exponent_pow]
  exact max_le (by omega) hk

theorem rounded_le_pow {k : Int} {x : ℚ} (h0 : 0 ≤ x) (hx : x ≤ 2 ^ k) (hk : F.least ≤ k) (hd : 1 ≤ F.digits) : F.rounded x ≤ 2 ^ k := by
  rw [← rounded_pow F hk hd]
  exact rounded_mono F h0 hx hd

theorem pow_le_rounded {k : Int} {x : ℚ} (hx : 2 ^ k ≤ x) (hk : F.least ≤ k) (hd : 1 ≤ F.digits) : 2 ^ k ≤ F.rounded x := by
  rw [← rounded_pow F hk hd]
  exact rounded_mono F (le_of_lt (pow_pos' k)) hx hd

/-- A number that does not overflow. -/
theorem number_fin {s : Bool} {k : Int} {x : ℚ} (h0 : 0 ≤ x) (hx : x ≤ 2 ^ k) (hk : F.least ≤ k) (ht : k < F.top) (hd : 1 ≤ F.digits) :
    F.number s x = .fin s (F.rounded x) ∧ F.Has (F.rounded x) := by
  have h1 := rounded_le_pow F h0 hx hk hd
  have h2 : F.rounded x < 2 ^ F.top := lt_of_le_of_lt h1 (zpow_lt_zpow_right₀ (by norm_num) ht)
  exact ⟨if_neg (not_le.mpr h2), rounded_has F h0 hd h2⟩

/-- `y` is between two multiples of `x`. -/
structure Band (lo hi x y : ℚ) : Prop where
  low : lo * x ≤ y
  high : y ≤ hi * x

theorem Band.round {lo hi x y : ℚ} (b : Band lo hi x y) (hx : 0 ≤ x) (hlo : 0 ≤ lo) (hy : y = 0 ∨ 2 ^ (F.least + F.digits - 1) ≤ y) :
    Band (lo * (1 - 1 / 2 ^ F.digits)) (hi * (1 + 1 / 2 ^ F.digits)) x (F.rounded y) := by
  have hu : (0 : ℚ) ≤ 1 / 2 ^ F.digits := by positivity
  have hu1 : (1 : ℚ) / 2 ^ F.digits ≤ 1 := by
    rw [div_le_one (by positivity)]
    exact one_le_pow₀ (by norm_num)
  obtain ⟨h1, h2⟩ := b
  have h3 : 0 ≤ lo * x := mul_nonneg hlo hx
  have h4 : |F.rounded y - y| ≤ y * (1 / 2 ^ F.digits) := by
    rcases hy with rfl | hy
    · rw [rounded_zero]; simp
    · have := rounded_relative F hy
      rwa [mul_one_div]
  obtain ⟨h5, h6⟩ := abs_le.mp h4
  have h7 : lo * x * (1 - 1 / 2 ^ F.digits) ≤ y * (1 - 1 / 2 ^ F.digits) := mul_le_mul_of_nonneg_right h1 (by linarith)
  have h8 : y * (1 + 1 / 2 ^ F.digits) ≤ hi * x * (1 + 1 / 2 ^ F.digits) := mul_le_mul_of_nonneg_right h2 (by linarith)
  constructor
  · nlinarith
  · nlinarith

theorem Band.div {l1 h1 l2 h2 a b a' b' : ℚ} (p : Band l1 h1 a a') (q : Band l2 h2 b b') (ha : 0 ≤ a) (hb : 0 < b) (hl1 : 0 ≤ l1)
    (hl2 : 0 < l2) : Band (l1 / h2) (h1 / l2) (a / b) (a' / b') := by
  have e1 : 0 < l2 * b := mul_pos hl2 hb
  have e2 : 0 < b' := lt_of_lt_of_le e1 q.low
  have e3 : 0 ≤ a' := le_trans (mul_nonneg hl1 ha) p.low
  constructor
  · rw [div_mul_div_comm]
    exact div_le_div₀ e3 p.low e2 q.high
  · rw [div_mul_div_comm]
    exact div_le_div₀ (le_trans e3 p.high) p.high e1 q.low

theorem Band.scale {lo hi x y : ℚ} (b : Band lo hi x y) {c : ℚ} (hc : 0 ≤ c) : Band lo hi (x * c) (y * c) :=
  ⟨by rw [← mul_assoc]; exact mul_le_mul_of_nonneg_right b.low hc, by rw [← mul_assoc]; exact mul_le_mul_of_nonneg_right b.high hc⟩

theorem Band.refl (x : ℚ) : Band 1 1 x x := ⟨by simp, by simp⟩

theorem Band.near {lo hi x y : ℚ} (b : Band lo hi x y) (hx : 0 ≤ x) (k : Nat) (hl : 1 - 1 / 2 ^ k ≤ lo) (hh : hi ≤ 1 + 1 / 2 ^ k) :
    |y - x| ≤ x / 2 ^ k := by
  have h1 := mul_le_mul_of_nonneg_right hl hx
  have h2 := mul_le_mul_of_nonneg_right hh hx
  have h3 := b.low
  have h4 := b.high
  have e : x / 2 ^ k = 1 / 2 ^ k * x := by ring
  rw [e, abs_le]
  constructor <;> linarith

/-- A format at least as wide as `float32`. -/
structure Wide : Prop where
  digits : 24 ≤ F.digits
  top : 128 ≤ F.top

theorem single_wide : Wide single := ⟨by decide, by decide⟩
theorem double_wide : Wide double := ⟨by decide, by decide⟩

variable {F}

theorem Wide.least (W : Wide F) : F.least ≤ -149 := by
  have := W.digits
  have := W.top
  unfold Format.least; omega

theorem Wide.low (W : Wide F) : F.least + F.digits - 1 ≤ -126 := by
  have := W.top
  unfold Format.least; omega

/-- Zero, or not too small and not too large. -/
def Mid (x : ℚ) (k : Int) : Prop := x = 0 ∨ (2 ^ (-k) ≤ x ∧ x ≤ 2 ^ k)

theorem Mid.nonneg {x : ℚ} {k : Int} (h : Mid x k) : 0 ≤ x := by
  rcases h with rfl | h
  · exact le_refl _
  · exact le_trans (le_of_lt (pow_pos' _)) h.1

theorem Mid.le {x : ℚ} {k : Int} (h : Mid x k) : x ≤ 2 ^ k := by
  rcases h with rfl | h
  · exact le_of_lt (pow_pos' _)
  · exact h.2

theorem Mid.weaken {x : ℚ} {k j : Int} (h : Mid x k) (hj : k ≤ j) : Mid x j := by
  rcases h with rfl | h
  · exact .inl rfl
  · exact .inr ⟨le_trans (zpow_le_zpow_right₀ (by norm_num) (by omega)) h.1, le_trans h.2 (zpow_le_zpow_right₀ (by norm_num) hj)⟩

theorem Mid.rounded {x : ℚ} {k : Int} (W : Wide F) (h : Mid x k) (hk : k ≤ 126) (hk0 : 0 ≤ k) : Mid (F.rounded x) k := by
  have hl := W.least
  have hd := W.digits
  rcases h with rfl | h
  · exact .inl (rounded_zero F)
  · exact .inr ⟨pow_le_rounded F h.1 (by omega) (by omega), rounded_le_pow F (le_trans (le_of_lt (pow_pos' _)) h.1) h.2 (by omega) (by omega)⟩

theorem Mid.small {x : ℚ} {k : Int} (W : Wide F) (h : Mid x k) (hk : k ≤ 126) : x = 0 ∨ 2 ^ (F.least + F.digits - 1) ≤ x := by
  have := W.low
  rcases h with rfl | h
  · exact .inl rfl
  · exact .inr (le_trans (zpow_le_zpow_right₀ (by norm_num) (by omega)) h.1)

theorem Mid.number {x : ℚ} {k : Int} (W : Wide F) (h : Mid x k) (hk : k ≤ 126) (hk0 : 0 ≤ k) (s : Bool) :
    F.number s x = .fin s (F.rounded x) ∧ F.Has (F.rounded x) := by
  have hl := W.least
  have ht := W.top
  have hd := W.digits
  exact number_fin F h.nonneg h.le (by omega) (by omega) (by omega)

theorem Mid.div {x y : ℚ} {k j : Int} (hx : Mid x k) (hy : Mid y j) : Mid (x / y) (k + j) := by
  rcases hx with rfl | hx
  · exact .inl (zero_div _)
  rcases hy with rfl | hy
  · exact .inl (div_zero _)
  have hy0 : 0 < y := lt_of_lt_of_le (pow_pos' _) hy.1
  have hx0 : 0 < x := lt_of_lt_of_le (pow_pos' _) hx.1
  refine .inr ⟨?_, ?_⟩
  · rw [neg_add, zpow_add₀ (by norm_num), zpow_neg _ j, ← div_eq_mul_inv]
    exact div_le_div₀ (le_of_lt hx0) hx.1 hy0 hy.2
  · rw [zpow_add₀ (by norm_num)]
    have : (2 : ℚ) ^ k * 2 ^ j = 2 ^ k / 2 ^ (-j) := by rw [zpow_neg, div_inv_eq_mul]
    rw [this]
    exact div_le_div₀ (le_of_lt (pow_pos' _)) hx.2 (pow_pos' _) hy.1

theorem Mid.mul {x y : ℚ} {k j : Int} (hx : Mid x k) (hy : Mid y j) : Mid (x * y) (k + j) := by
  rcases hx with rfl | hx
  · exact .inl (zero_mul _)
  rcases hy with rfl | hy
  · exact .inl (mul_zero _)
  refine .inr ⟨?_, ?_⟩
  · rw [neg_add, zpow_add₀ (by norm_num)]
    exact mul_le_mul hx.1 hy.1 (le_of_lt (pow_pos' _)) (le_trans (le_of_lt (pow_pos' _)) hx.1)
  · rw [zpow_add₀ (by norm_num)]
    exact mul_le_mul hx.2 hy.2 (le_trans (le_of_lt (pow_pos' _)) hy.1) (le_of_lt (pow_pos' _))

theorem Mid.nat {n k : Nat} (h : n ≤ 2 ^ k) : Mid (n : ℚ) k := by
  rcases Nat.eq_zero_or_pos n with rfl | hn
  · exact .inl (by simp)
  refine .inr ⟨le_trans (zpow_le_one_of_nonpos₀ (by norm_num) (by omega)) ?_, ?_⟩
  · exact_mod_cast hn
  · rw [zpow_natCast]; exact_mod_cast h

theorem ofInt_nat (W : Wide F) {n : Nat} (h : n ≤ 2 ^ 63) : F.ofInt n = .fin false (F.rounded n) := by
  unfold Format.ofInt
  rw [decide_eq_false (by omega)]
  have e : |((n : Int) : ℚ)| = n := by rw [abs_of_nonneg (by positivity)]; simp
  rw [e]
  exact ((Mid.nat (k := 63) h).number W (by norm_num) (by norm_num) false).1

theorem ofInt_neg (W : Wide F) {n : Nat} (h : n ≤ 2 ^ 63) (h0 : 0 < n) : F.ofInt (-n) = .fin true (F.rounded n) := by
  unfold Format.ofInt
  rw [decide_eq_true (by omega)]
  have e : |((-n : Int) : ℚ)| = n := by push_cast; rw [abs_neg, abs_of_nonneg (by positivity)]
  rw [e]
  exact ((Mid.nat (k := 63) h).number W (by norm_num) (by norm_num) true).1

/-- One part in `2 ^ digits`. -/
def unit (F : Format) : ℚ := 1 / 2 ^ F.digits

theorem unit_pos (F : Format) : 0 < unit F := by unfold unit; positivity

theorem unit_lt (W : Wide F) : unit F < 1 := by
  have := W.digits
  unfold unit
  rw [div_lt_one (by positivity)]
  exact one_lt_pow₀ (by norm_num) (by omega)

theorem Band.round' (W : Wide F) {lo hi x y : ℚ} (b : Band lo hi x y) (hx : 0 ≤ x) (hlo : 0 ≤ lo) {k : Int} (h : Mid y k) (hk : k ≤ 126) :
    Band (lo * (1 - unit F)) (hi * (1 + unit F)) x (F.rounded y) := b.round F hx hlo (h.small W hk)

/-- The quotient of two whole numbers. -/
theorem quotient (W : Wide F) {a b : Nat} (ha : a ≤ 2 ^ 63) (hb : b ≤ 2 ^ 63) (hb0 : 0 < b) (s : Bool) :
    (F.number s (F.rounded a / F.rounded b) = .fin s (F.rounded (F.rounded a / F.rounded b)) ∧
      F.Has (F.rounded (F.rounded a / F.rounded b))) ∧
    Mid (F.rounded (F.rounded a / F.rounded b)) 63 ∧ 0 < F.rounded b ∧
    Band ((1 - unit F) / (1 + unit F) * (1 - unit F)) ((1 + unit F) / (1 - unit F) * (1 + unit F)) (a / b)
      (F.rounded (F.rounded a / F.rounded b)) := by
  have hu := unit_pos F
  have hu1 := unit_lt W
  have ma := (Mid.nat (k := 63) ha).rounded W (by norm_num) (by norm_num)
  have mb := (Mid.nat (k := 63) hb).rounded W (by norm_num) (by norm_num)
  have hbq : (0 : ℚ) < b := by exact_mod_cast hb0
  have h1 : (1 : ℚ) ≤ F.rounded b := by
    have h2 := pow_le_rounded F (k := 0) (x := b) (by rw [zpow_zero]; exact_mod_cast hb0) (by have := W.least; omega)
      (by have := W.digits; omega)
    rwa [zpow_zero] at h2
  have ba := (Band.refl (a : ℚ)).round' W (by positivity) (by norm_num) (Mid.nat (k := 63) ha) (by norm_num)
  have bb := (Band.refl (b : ℚ)).round' W (by positivity) (by norm_num) (Mid.nat (k := 63) hb) (by norm_num)
  have bq := ba.div bb (by positivity) hbq (by linarith) (by linarith)
  have mq' : Mid (F.rounded a / F.rounded b) 63 := by
    rcases Nat.eq_zero_or_pos a with rfl | ha0
    · exact .inl (by simp [rounded_zero])
    have h3 : (1 : ℚ) ≤ F.rounded a := by
      have h2 := pow_le_rounded F (k := 0) (x := a) (by rw [zpow_zero]; exact_mod_cast ha0) (by have := W.least; omega)
        (by have := W.digits; omega)
      rwa [zpow_zero] at h2
    refine .inr ⟨?_, ?_⟩
    · rw [zpow_neg, ← one_div]
      exact div_le_div₀ (by linarith) h3 (by linarith) mb.le
    · exact le_trans (div_le_self (by linarith) h1) ma.le
  have h2 := bq.round' W (by positivity) (div_nonneg (by linarith) (by linarith)) mq' (by norm_num)
  rw [one_mul, one_mul] at h2
  exact ⟨mq'.number W (by norm_num) (by norm_num) s, mq'.rounded W (by norm_num) (by norm_num), lt_of_lt_of_le zero_lt_one h1, h2⟩

theorem div_nat (W : Wide F) {a b : Nat} (ha : a ≤ 2 ^ 63) (hb : b ≤ 2 ^ 63) (hb0 : 0 < b) :
    F.div (F.ofInt a) (F.ofInt b) = .fin false (F.rounded (F.rounded a / F.rounded b)) := by
  obtain ⟨⟨h, -⟩, -, hp, -⟩ := quotient W ha hb hb0 false
  rw [ofInt_nat W ha, ofInt_nat W hb]
  show (if F.rounded b = 0 then _ else F.number _ _) = _
  rw [if_neg (ne_of_gt hp)]
  exact h

/-- The quotient times a whole number that is exact. -/
theorem scaled (W : Wide F) {a b c : Nat} (ha : a ≤ 2 ^ 63) (hb : b ≤ 2 ^ 63) (hb0 : 0 < b) (hc0 : 0 < c) (hc : c ≤ 2 ^ 30) (s : Bool) :
    let q := F.rounded (F.rounded a / F.rounded b)
    (F.number s (q * c) = .fin s (F.rounded (q * c)) ∧ F.Has (F.rounded (q * c))) ∧ Mid (F.rounded (q * c)) 93 ∧
    Band ((1 - unit F) / (1 + unit F) * (1 - unit F) * (1 - unit F)) ((1 + unit F) / (1 - unit F) * (1 + unit F) * (1 + unit F))
      (a / b * c) (F.rounded (q * c)) := by
  intro q
  have hu := unit_pos F
  have hu1 := unit_lt W
  obtain ⟨-, mq, -, bq⟩ := quotient W ha hb hb0 s
  have mq' : Mid (q * c) 93 := (mq.mul (Mid.nat (k := 30) hc)).weaken (by norm_num)
  have h2 := (bq.scale (c := (c : ℚ)) (by positivity)).round' W (by positivity)
    (mul_nonneg (div_nonneg (by linarith) (by linarith)) (by linarith)) mq' (by norm_num)
  exact ⟨mq'.number W (by norm_num) (by norm_num) s, mq'.rounded W (by norm_num) (by norm_num), h2⟩

/-- The number itself, when the format has it. -/
theorem ofInt_exact (W : Wide F) {c : Nat} (hc : c ≤ 2 ^ F.digits) (h63 : c ≤ 2 ^ 63) : F.ofInt c = .fin false c := by
  rw [ofInt_nat W h63, rounded_nat F hc (by have := W.digits; omega) (by have := W.least; omega)]

theorem ratio_nat (W : Wide F) {a b c : Nat} (ha : a ≤ 2 ^ 63) (hb : b ≤ 2 ^ 63) (hb0 : 0 < b) (hc0 : 0 < c) (hc : c ≤ 2 ^ 30)
    (hcd : c ≤ 2 ^ F.digits) :
    F.ratio a b c = .fin false (F.rounded (F.rounded (F.rounded a / F.rounded b) * c)) := by
  unfold Format.ratio
  rw [div_nat W ha hb hb0, ofInt_exact W hcd (le_trans hc (by norm_num))]
  exact (scaled W ha hb hb0 hc0 hc false).1.1

theorem div_neg (W : Wide F) {a b : Nat} (ha : a ≤ 2 ^ 63) (hb : b ≤ 2 ^ 63) (hb0 : 0 < b) :
    F.div (F.ofInt a) (F.ofInt (-b)) = .fin true (F.rounded (F.rounded a / F.rounded b)) := by
  obtain ⟨⟨h, -⟩, -, hp, -⟩ := quotient W ha hb hb0 true
  rw [ofInt_nat W ha, ofInt_neg W hb hb0]
  show (if F.rounded b = 0 then _ else F.number _ _) = _
  rw [if_neg (ne_of_gt hp)]
  exact h

theorem ratio_neg (W : Wide F) {a b c : Nat} (ha : a ≤ 2 ^ 63) (hb : b ≤ 2 ^ 63) (hb0 : 0 < b) (hc0 : 0 < c) (hc : c ≤ 2 ^ 30)
    (hcd : c ≤ 2 ^ F.digits) :
    F.ratio a (-b) c = .fin true (F.rounded (F.rounded (F.rounded a / F.rounded b) * c)) := by
  unfold Format.ratio
  rw [div_neg W ha hb hb0, ofInt_exact W hcd (le_trans hc (by norm_num))]
  exact (scaled W ha hb hb0 hc0 hc true).1.1

theorem ratio_zero (W : Wide F) {a c : Nat} (ha : a ≤ 2 ^ 63) (hc0 : 0 < c) (hc : c ≤ 2 ^ 30) (hcd : c ≤ 2 ^ F.digits) :
    F.ratio a 0 c = if a = 0 then .nan else .inf false := by
  have h0 : F.ofInt 0 = .fin false 0 := by
    have := ofInt_exact W (c := 0) (Nat.zero_le _) (Nat.zero_le _)
    simpa using this
  unfold Format.ratio
  rw [h0, ofInt_nat W ha, ofInt_exact W hcd (le_trans hc (by norm_num))]
  rcases Nat.eq_zero_or_pos a with rfl | ha0
  · rw [if_pos rfl]
    simp [Format.div, rounded_zero, Format.mul]
  · have h3 : (0 : ℚ) < F.rounded a := by
      have h2 := pow_le_rounded F (k := 0) (x := a) (by rw [zpow_zero]; exact_mod_cast ha0) (by have := W.least; omega)
        (by have := W.digits; omega)
      rw [zpow_zero] at h2
      linarith
    rw [if_neg (by omega)]
    have hc' : ((c : Nat) : ℚ) ≠ 0 := by exact_mod_cast (by omega : c ≠ 0)
    simp [Format.div, ne_of_gt h3, Format.mul, hc']

/-- The conversion to `float32` of a number that is not too large. -/
theorem narrow_fin {s : Bool} {x : ℚ} (h : double.Has x) (m : Mid x 93) :
    value32 (ieee.narrow (bits64 (.fin s x))) = .fin s (single.rounded x) ∧ Mid (single.rounded x) 93 := by
  obtain ⟨h1, h2⟩ := m.number single_wide (by norm_num) (by norm_num) s
  refine ⟨?_, m.rounded single_wide (by norm_num) (by norm_num)⟩
  show value32 (bits32 (single.convert (value64 (bits64 (.fin s x))))) = _
  rw [value64_bits64 h]
  show value32 (bits32 (single.number s x)) = _
  rw [h1]
  exact value32_bits32 h2

end Floating
end Scouter
