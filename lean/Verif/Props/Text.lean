import Verif.Model.Util
import Verif.Model.Hash
/-! # C21, C22: numbers and durations as text; C58: the second string hash -/
namespace Scouter

namespace Spec
/-- The value of a digit '0'..'9', 'a'..'z'. -/
def digitVal (c : Byte) : Nat := if c.toNat < 97 then c.toNat - 48 else c.toNat - 87

/-- Reading a digit string in a base. -/
def readNat (base : Nat) (s : Bytes) : Nat := s.foldl (fun n c => n * base + digitVal c) 0

/-- Reading a number with an optional minus sign. -/
def readInt (base : Nat) : Bytes → Int
  | [] => 0
  | c :: cs => if c = 45 then -(readNat base cs : Int) else (readNat base (c :: cs) : Int)

/-- Reading a transaction id: 'x' and a base-32 number, or 'z' and the negated base-32 number (64 bit arithmetic). -/
def readTxid : Bytes → Option (BitVec 64)
  | [] => none
  | c :: cs =>
    if c = 120 then some (BitVec.ofInt 64 (readInt 32 cs))
    else if c = 122 then some (BitVec.ofInt 64 (-(readInt 32 cs)))
    else none
end Spec
open Spec

theorem digit_facts : ∀ d : Fin 36, digitVal (digitByte d.val) = d.val ∧ digitByte d.val ≠ 45 := by decide +kernel

theorem formatNat_spec (base : Nat) (h2 : 2 ≤ base) (h36 : base ≤ 36) (u : Nat) :
    readNat base (formatNat base u) = u ∧ ∃ c cs, formatNat base u = c :: cs ∧ c ≠ 45 := by
  induction u using Nat.strongRecOn with
  | _ u ih =>
    rw [formatNat]
    split
    · rename_i h
      have hu : u < 36 := by omega
      have := digit_facts ⟨u, hu⟩
      refine ⟨?_, _, _, rfl, this.2⟩
      simp [readNat, this.1]
    · rename_i h
      have hlt : u / base < u := Nat.div_lt_self (by omega) (by omega)
      obtain ⟨h1, c, cs, hc, hne⟩ := ih (u / base) hlt
      have hm : u % base < base := Nat.mod_lt _ (by omega)
      have := digit_facts ⟨u % base, by omega⟩
      refine ⟨?_, c, cs ++ [digitByte (u % base)], by rw [hc]; rfl, hne⟩
      unfold readNat at h1 ⊢
      rw [List.foldl_append, h1]
      simp only [List.foldl_cons, List.foldl_nil, this.1]
      rw [Nat.mul_comm]; exact Nat.div_add_mod u base

theorem formatInt_spec (base : Nat) (h2 : 2 ≤ base) (h36 : base ≤ 36) (v : Int) :
    readInt base (formatInt base v) = v := by
  obtain ⟨h1, c, cs, hc, hne⟩ := formatNat_spec base h2 h36 v.natAbs
  unfold formatInt
  split
  · simp only [readInt, if_true, h1]; omega
  · rw [hc] at h1 ⊢
    rw [readInt, if_neg hne, h1]; omega

/-- C21: reading the text back recovers the number, for every int64 (the smallest one included). -/
theorem C21_txid_text_reads_back (n : BitVec 64) : readTxid (intToXlogString32 n) = some n := by
  unfold intToXlogString32
  split
  · rw [readTxid, if_neg (by decide), if_pos rfl, formatInt_spec 32 (by omega) (by omega), BitVec.ofInt_neg,
      BitVec.ofInt_toInt, BitVec.neg_neg]
  · rw [readTxid, if_pos rfl, formatInt_spec 32 (by omega) (by omega), BitVec.ofInt_toInt]

/-- C21: different numbers have different texts. -/
theorem C21_txid_text_injective (m n : BitVec 64) (h : intToXlogString32 m = intToXlogString32 n) : m = n := by
  have := C21_txid_text_reads_back m
  rw [h, C21_txid_text_reads_back n] at this
  exact (Option.some.inj this).symm

/-- C21: non-negative numbers are written 'x…', negative ones 'z…'. -/
theorem C21_txid_text_prefix (n : BitVec 64) :
    (intToXlogString32 n).head? = some (if n.toInt < 0 then 122 else 120) := by
  unfold intToXlogString32; split <;> rfl

example : intToXlogString32 (-1) = ascii "z1" := by decide +kernel
example : intToXlogString32 9223372036854775807 = ascii "x7vvvvvvvvvvvv" := by decide +kernel
example : intToXlogString32 (BitVec.ofInt 64 (-9223372036854775808)) = ascii "z-8000000000000" := by decide +kernel

/-! ## Durations -/

theorem figures_eq (s : Int) :
    let f := durationFigures s
    f.1 * 86400 + f.2.1 * 3600 + f.2.2.1 * 60 + f.2.2.2 = s ∧
    (0 ≤ s → 0 ≤ f.1 ∧ 0 ≤ f.2.1 ∧ f.2.1 < 24 ∧ 0 ≤ f.2.2.1 ∧ f.2.2.1 < 60 ∧ 0 ≤ f.2.2.2 ∧ f.2.2.2 < 60) ∧
    (s ≤ 0 → f.1 ≤ 0 ∧ f.2.1 ≤ 0 ∧ -24 < f.2.1 ∧ f.2.2.1 ≤ 0 ∧ -60 < f.2.2.1 ∧ f.2.2.2 ≤ 0 ∧ -60 < f.2.2.2) := by
  simp only [durationFigures]
  have t : ∀ a b : Int, 0 ≤ a → a.tdiv b = a / b := fun a b h => Int.tdiv_eq_ediv_of_nonneg h
  have tn : ∀ a b : Int, a ≤ 0 → a.tdiv b = -((-a) / b) := fun a b h => by
    rw [← Int.tdiv_eq_ediv_of_nonneg (by omega : 0 ≤ -a), Int.neg_tdiv, Int.neg_neg]
  refine ⟨by omega, fun h => ?_, fun h => ?_⟩
  · rw [t _ _ h]
    have h1 : 0 ≤ s - s / 86400 * 86400 := by omega
    rw [t _ _ h1]
    have h2 : 0 ≤ s - s / 86400 * 86400 - (s - s / 86400 * 86400) / 3600 * 3600 := by omega
    rw [t _ _ h2]
    omega
  · rw [tn _ _ h]
    have h1 : s - -(-s / 86400) * 86400 ≤ 0 := by omega
    rw [tn _ _ h1]
    have h2 : s - -(-s / 86400) * 86400 - -(-(s - -(-s / 86400) * 86400) / 3600) * 3600 ≤ 0 := by omega
    rw [tn _ _ h2]
    omega

/-- No intermediate result of `GetDuration` exceeds the argument in magnitude (so int64 arithmetic does not wrap). -/
theorem durationFigures_bounded (s : Int) :
    (s.tdiv 86400 * 86400).natAbs ≤ s.natAbs ∧ (s - s.tdiv 86400 * 86400).natAbs ≤ s.natAbs ∧
    ((s - s.tdiv 86400 * 86400).tdiv 3600 * 3600).natAbs ≤ s.natAbs ∧
    (s - s.tdiv 86400 * 86400 - (s - s.tdiv 86400 * 86400).tdiv 3600 * 3600).natAbs ≤ s.natAbs := by
  have key : ∀ a b : Int, 0 < b → (a.tdiv b * b).natAbs ≤ a.natAbs ∧ (a - a.tdiv b * b).natAbs ≤ a.natAbs := by
    intro a b hb
    have h := Int.tmod_add_mul_tdiv a b
    rw [Int.mul_comm] at h
    have hm : a - a.tdiv b * b = a.tmod b := by omega
    rw [hm]
    rcases Int.le_total 0 a with h0 | h0
    · have h1 := Int.tmod_nonneg b h0
      have h2 : 0 ≤ a.tdiv b * b := Int.mul_nonneg (Int.tdiv_nonneg h0 (by omega)) (by omega)
      omega
    · have h1 : a.tmod b ≤ 0 := by
        have := Int.tmod_nonneg b (by omega : 0 ≤ -a); rw [Int.neg_tmod] at this; omega
      have h2 : 0 ≤ (-a).tdiv b * b := Int.mul_nonneg (Int.tdiv_nonneg (by omega) (by omega)) (by omega)
      rw [Int.neg_tdiv, Int.neg_mul] at h2
      omega
  have h1 := key s 86400 (by omega)
  have h2 := key (s - s.tdiv 86400 * 86400) 3600 (by omega)
  exact ⟨h1.1, h1.2, by omega, by omega⟩

/-- C22: the printed text consists of four decimal numbers (days, hours, minutes, seconds) that recombine to the
argument, within their ranges, all of the sign of the argument. -/
theorem C22_duration_recombines (s : Int) :
    ∃ d h m sec : Int,
      getDuration s = formatInt 10 d ++ ascii "D " ++ formatInt 10 h ++ ascii "H " ++ formatInt 10 m ++ ascii "M " ++
        formatInt 10 sec ++ ascii "S" ∧
      d * 86400 + h * 3600 + m * 60 + sec = s ∧
      (0 ≤ s → 0 ≤ d ∧ (0 ≤ h ∧ h < 24) ∧ (0 ≤ m ∧ m < 60) ∧ (0 ≤ sec ∧ sec < 60)) ∧
      (s ≤ 0 → d ≤ 0 ∧ (-24 < h ∧ h ≤ 0) ∧ (-60 < m ∧ m ≤ 0) ∧ (-60 < sec ∧ sec ≤ 0)) := by
  have h := figures_eq s
  refine ⟨_, _, _, _, rfl, h.1, fun hs => ?_, fun hs => ?_⟩
  · have := h.2.1 hs
    exact ⟨this.1, ⟨this.2.1, this.2.2.1⟩, ⟨this.2.2.2.1, this.2.2.2.2.1⟩, this.2.2.2.2.2⟩
  · have := h.2.2 hs
    exact ⟨this.1, ⟨this.2.2.1, this.2.1⟩, ⟨this.2.2.2.2.1, this.2.2.2.1⟩, this.2.2.2.2.2.2, this.2.2.2.2.2.1⟩

/-- C22: the number printed by `formatInt 10` is the number meant. -/
theorem C22_decimal_text_reads_back (v : Int) : readInt 10 (formatInt 10 v) = v :=
  formatInt_spec 10 (by omega) (by omega) v

example : getDuration 93784 = ascii "1D 2H 3M 4S" := by decide +kernel
example : getDuration (-61) = ascii "0D 0H -1M -1S" := by decide +kernel

/-! ## The FNV-1a hash -/

/-- C58: two equal-length strings that differ in exactly one byte never share the unsigned hash either. -/
theorem C58_fnv_single_byte_change (pre post : Bytes) (a b : Byte) (h : a ≠ b) :
    hashUint (pre ++ a :: post) ≠ hashUint (pre ++ b :: post) := by
  have inv : ∀ x y : BitVec 32, x * 16777619#32 = y * 16777619#32 → x = y := by
    intro x y hxy
    have hx := congrArg (· * 899433627#32) hxy
    simp only [BitVec.mul_assoc] at hx
    rw [show 16777619#32 * 899433627#32 = 1#32 by decide, BitVec.mul_one, BitVec.mul_one] at hx
    exact hx
  have inj : ∀ (l : Bytes) (x y : BitVec 32),
      l.foldl (fun h b => (h ^^^ b.setWidth 32) * 16777619#32) x =
      l.foldl (fun h b => (h ^^^ b.setWidth 32) * 16777619#32) y → x = y := by
    intro l
    induction l with
    | nil => intro x y h; exact h
    | cons c l ih =>
      intro x y hxy
      have h2 := congrArg (· ^^^ c.setWidth 32) (inv _ _ (ih _ _ hxy))
      simpa [BitVec.xor_assoc] using h2
  intro he
  unfold hashUint at he
  rw [List.foldl_append, List.foldl_append, List.foldl_cons, List.foldl_cons] at he
  have h1 := inv _ _ (inj post _ _ he)
  generalize pre.foldl _ 2166136261#32 = z at h1
  have h2 := congrArg (z ^^^ ·) h1
  simp only [← BitVec.xor_assoc, BitVec.xor_self, BitVec.zero_xor] at h2
  have h3 := congrArg (BitVec.setWidth 8) h2
  simp at h3
  exact h h3

example : hashUint (ascii "foobar") = 0xbf9cf968 := by decide +kernel

end Scouter
