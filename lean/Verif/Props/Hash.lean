import Verif.Model.Hash
/-! # C16, C17, C58: hashes -/
namespace Scouter

namespace Spec
/-- One bit of the reflected CRC-32: shift right, and xor the polynomial if a one fell out. -/
def crcBit (x : BitVec 32) : BitVec 32 := if x.getLsbD 0 then (x >>> 1) ^^^ 0xEDB88320#32 else x >>> 1
/-- Eight bits. -/
def crcBits (x : BitVec 32) : BitVec 32 :=
  crcBit (crcBit (crcBit (crcBit (crcBit (crcBit (crcBit (crcBit x)))))))
/-- One byte: xor it into the low end, then eight bits. -/
def crcByte (x : BitVec 32) (b : Byte) : BitVec 32 := crcBits (x ^^^ b.setWidth 32)
/-- CRC-32 with initial and final complement. -/
def crc32 (bs : Bytes) : BitVec 32 := ~~~ (bs.foldl crcByte (~~~ 0#32))
end Spec
open Spec

theorem crcBit_eq (x : BitVec 32) : crcBit x = (x >>> 1) ^^^ (if x.getLsbD 0 then 0xEDB88320#32 else 0#32) := by
  unfold crcBit; split <;> simp

theorem crcBit_xor (x y : BitVec 32) : crcBit (x ^^^ y) = crcBit x ^^^ crcBit y := by
  simp only [crcBit_eq, BitVec.ushiftRight_xor_distrib, BitVec.getLsbD_xor]
  apply BitVec.eq_of_getLsbD_eq
  intro i hi
  generalize x >>> 1 = a
  generalize y >>> 1 = b
  generalize 0xEDB88320#32 = p
  cases x.getLsbD 0 <;> cases y.getLsbD 0 <;>
    simp only [BitVec.getLsbD_xor, BitVec.getLsbD_zero, Bool.xor_false, Bool.xor_true, Bool.not_false, Bool.not_true,
      if_true, if_false, Bool.false_eq_true] <;>
    cases a.getLsbD i <;> cases b.getLsbD i <;> cases p.getLsbD i <;> rfl

theorem crcBits_xor (x y : BitVec 32) : crcBits (x ^^^ y) = crcBits x ^^^ crcBits y := by
  simp only [crcBits, crcBit_xor]

theorem crcBit_even {x : BitVec 32} (h : x.getLsbD 0 = false) : crcBit x = x >>> 1 := by
  unfold crcBit; rw [h]; rfl

theorem crcBits_high (x : BitVec 32) (h : ∀ i < 8, x.getLsbD i = false) : crcBits x = x >>> 8 := by
  have e : ∀ k < 8, crcBit (x >>> k) = x >>> (k + 1) := by
    intro k hk
    rw [crcBit_even (by rw [BitVec.getLsbD_ushiftRight]; simpa using h k hk), BitVec.shiftRight_add]
  have e0 := e 0 (by omega)
  rw [BitVec.ushiftRight_zero] at e0
  simp only [crcBits, e0, e 1 (by omega), e 2 (by omega), e 3 (by omega), e 4 (by omega),
    e 5 (by omega), e 6 (by omega), e 7 (by omega)]

theorem crcBit_inj {x y : BitVec 32} (h : crcBit x = crcBit y) : x = y := by
  have h31 : ∀ z : BitVec 32, (crcBit z).getLsbD 31 = z.getLsbD 0 := by
    intro z
    rw [crcBit_eq, BitVec.getLsbD_xor, BitVec.getLsbD_ushiftRight]
    cases z.getLsbD 0 <;> simp
  have h0 : x.getLsbD 0 = y.getLsbD 0 := by rw [← h31 x, h, h31 y]
  rw [crcBit_eq, crcBit_eq, h0] at h
  have h1 : x >>> 1 = y >>> 1 := by
    have := congrArg (· ^^^ (if y.getLsbD 0 then 0xEDB88320#32 else 0#32)) h
    simpa [BitVec.xor_assoc] using this
  apply BitVec.eq_of_getLsbD_eq
  intro i hi
  cases i with
  | zero => exact h0
  | succ i =>
    have := congrArg (fun z => z.getLsbD i) h1
    simpa [BitVec.getLsbD_ushiftRight, Nat.add_comm] using this

theorem crcBits_inj {x y : BitVec 32} (h : crcBits x = crcBits y) : x = y :=
  crcBit_inj (crcBit_inj (crcBit_inj (crcBit_inj (crcBit_inj (crcBit_inj (crcBit_inj (crcBit_inj h)))))))

set_option maxRecDepth 20000 in
theorem hashTable_eq : ∀ i : Fin 256, hashTable.getD i 0 = crcBits (BitVec.ofNat 32 i) := by
  decide +kernel

theorem ff_getLsbD (i : Nat) : (0xff#32).getLsbD i = decide (i < 8) := by
  rw [show (0xff#32) = BitVec.setWidth 32 (BitVec.allOnes 8) by decide]
  simp only [BitVec.getLsbD_setWidth, BitVec.getLsbD_allOnes]
  by_cases h : i < 8
  · simp [h]; omega
  · simp [h]

theorem hashStep_eq (x : BitVec 32) (b : Byte) : hashStep x b = crcByte x b := by
  have hz : ∀ z : BitVec 32, z = (z &&& 0xff#32) ^^^ (z &&& ~~~ 0xff#32) := by
    intro z
    apply BitVec.eq_of_getLsbD_eq
    intro i hi
    simp only [BitVec.getLsbD_xor, BitVec.getLsbD_and, BitVec.getLsbD_not]
    cases z.getLsbD i <;> cases (0xff#32).getLsbD i <;> simp [hi]
  have h1 : (x.sshiftRight 8) &&& 0x00FFFFFF#32 = x >>> 8 := by
    apply BitVec.eq_of_getLsbD_eq
    intro i hi
    rw [BitVec.getLsbD_and, BitVec.getLsbD_sshiftRight, BitVec.getLsbD_ushiftRight,
      show (0x00FFFFFF#32) = BitVec.setWidth 32 (BitVec.allOnes 24) by decide]
    simp only [BitVec.getLsbD_setWidth, BitVec.getLsbD_allOnes]
    by_cases h : i < 24
    · have : ¬ 32 ≤ i := by omega
      have h3 : 8 + i < 32 := by omega
      simp [h, hi, this, h3]
    · have : x.getLsbD (8 + i) = false := BitVec.getLsbD_of_ge _ _ (by omega)
      simp [h, this]
  unfold hashStep crcByte
  rw [h1]
  generalize hzz : x ^^^ BitVec.setWidth 32 b = z
  have ht : hashTable.getD (z &&& 0xff#32).toNat 0 = crcBits (z &&& 0xff#32) := by
    have hlt : (z &&& 0xff#32).toNat < 256 := by
      rw [BitVec.toNat_and]
      exact Nat.lt_of_le_of_lt Nat.and_le_right (by decide)
    have := hashTable_eq ⟨_, hlt⟩
    simpa using this
  conv => rhs; rw [hz z]
  rw [crcBits_xor, ht, BitVec.xor_comm]
  congr 1
  rw [crcBits_high]
  · apply BitVec.eq_of_getLsbD_eq
    intro i hi
    have hb : (0xff#32).getLsbD (8 + i) = false := by
      rw [ff_getLsbD]; exact decide_eq_false (by omega)
    rw [BitVec.getLsbD_ushiftRight, BitVec.getLsbD_ushiftRight, BitVec.getLsbD_and, BitVec.getLsbD_not, hb, ← hzz,
      BitVec.getLsbD_xor, BitVec.getLsbD_setWidth]
    have hbb : b.getLsbD (8 + i) = false := BitVec.getLsbD_of_ge _ _ (by omega)
    rw [hbb]
    by_cases h : 8 + i < 32
    · simp [h]
    · have : x.getLsbD (8 + i) = false := BitVec.getLsbD_of_ge _ _ (by omega)
      simp [this]
  · intro i hi
    have hb : (0xff#32).getLsbD i = true := by
      rw [ff_getLsbD]; exact decide_eq_true hi
    rw [BitVec.getLsbD_and, BitVec.getLsbD_not, hb]
    simp

theorem foldl_hashStep (bs : Bytes) (x : BitVec 32) : bs.foldl hashStep x = bs.foldl crcByte x := by
  induction bs generalizing x with
  | nil => rfl
  | cons b bs ih => rw [List.foldl_cons, List.foldl_cons, hashStep_eq, ih]

/-- C16: the hash of every string is its CRC-32. -/
theorem C16_hash_is_crc32 (s : Bytes) : hash s = crc32 s := by
  unfold hash crc32
  rw [foldl_hashStep, show (~~~ 0#32) = (-1 : BitVec 32) by decide]
  rw [show (-1 : BitVec 32) = BitVec.allOnes 32 by decide, BitVec.xor_allOnes]

/-- C16: the empty string hashes to 0. -/
theorem C16_hash_empty : hash [] = 0 := by decide

example : crc32 (ascii "123456789") = 0xCBF43926 := by decide +kernel

/-- A window of bytes as one number, first byte lowest (proof device). -/
def packLE : Bytes → BitVec 32
  | [] => 0
  | b :: bs => b.setWidth 32 ^^^ (packLE bs <<< 8)

theorem packLE_high (w : Bytes) (i : Nat) (h : 8 * w.length ≤ i) : (packLE w).getLsbD i = false := by
  induction w generalizing i with
  | nil => simp [packLE]
  | cons b bs ih =>
    simp only [List.length_cons] at h
    rw [packLE, BitVec.getLsbD_xor, BitVec.getLsbD_setWidth, BitVec.getLsbD_shiftLeft, ih (i - 8) (by omega),
      BitVec.getLsbD_of_ge b i (by omega)]
    simp

theorem shiftBack (w : Bytes) (h : w.length ≤ 3) : (packLE w <<< 8) >>> 8 = packLE w := by
  apply BitVec.eq_of_getLsbD_eq
  intro i hi
  rw [BitVec.getLsbD_ushiftRight, BitVec.getLsbD_shiftLeft]
  by_cases h8 : 8 + i < 32
  · simp [h8, Nat.add_sub_cancel_left]
  · rw [packLE_high w i (by omega)]
    simp [h8]

/-- `k` bytes worth of shifting. -/
def crcIter : Nat → BitVec 32 → BitVec 32
  | 0, x => x
  | k + 1, x => crcIter k (crcBits x)

theorem crcIter_inj (k : Nat) {x y : BitVec 32} (h : crcIter k x = crcIter k y) : x = y := by
  induction k generalizing x y with
  | zero => exact h
  | succ k ih => exact crcBits_inj (ih h)

theorem crc_window (w : Bytes) (h : w.length ≤ 4) (x : BitVec 32) :
    w.foldl crcByte x = crcIter w.length (x ^^^ packLE w) := by
  induction w generalizing x with
  | nil => simp [crcIter, packLE]
  | cons b bs ih =>
    simp only [List.length_cons] at h
    rw [List.foldl_cons, ih (by omega), List.length_cons, crcIter, crcByte, packLE, ← BitVec.xor_assoc,
      crcBits_xor (x ^^^ BitVec.setWidth 32 b) (packLE bs <<< 8), crcBits_high (packLE bs <<< 8), shiftBack bs (by omega)]
    intro i hi
    rw [BitVec.getLsbD_shiftLeft]
    simp [hi]

theorem packLE_inj (v w : Bytes) (hl : v.length = w.length) (h4 : w.length ≤ 4) (h : packLE v = packLE w) :
    v = w := by
  induction v generalizing w with
  | nil => cases w <;> simp_all
  | cons a v ih =>
    cases w with
    | nil => simp at hl
    | cons b w =>
      simp only [List.length_cons] at hl h4
      have hb : ∀ i, (packLE (a :: v)).getLsbD i = (packLE (b :: w)).getLsbD i := fun i => by rw [h]
      simp only [packLE, BitVec.getLsbD_xor, BitVec.getLsbD_setWidth, BitVec.getLsbD_shiftLeft] at hb
      have e1 : a = b := by
        apply BitVec.eq_of_getLsbD_eq
        intro i hi
        have := hb i
        have h32 : i < 32 := by omega
        simpa [hi, h32] using this
      subst e1
      have e2 : packLE v = packLE w := by
        apply BitVec.eq_of_getLsbD_eq
        intro i hi
        by_cases h24 : i < 24
        · have := hb (8 + i)
          have h32 : 8 + i < 32 := by omega
          have h8 : ¬ 8 + i < 8 := by omega
          simpa [h32, h8, BitVec.getLsbD_of_ge a (8 + i) (by omega)] using this
        · rw [packLE_high v i (by omega), packLE_high w i (by omega)]
      rw [ih w (by omega) (by omega) e2]

theorem foldl_crcByte_inj (bs : Bytes) {x y : BitVec 32} (h : bs.foldl crcByte x = bs.foldl crcByte y) : x = y := by
  induction bs generalizing x y with
  | nil => exact h
  | cons b bs ih =>
    have := crcBits_inj (ih h)
    have h2 := congrArg (· ^^^ b.setWidth 32) this
    simpa [BitVec.xor_assoc] using h2

/-- C17: two different names that agree outside one window of at most four bytes never share a hash. -/
theorem C17_window_change_changes_hash (pre w1 w2 post : Bytes) (hl : w1.length = w2.length) (h4 : w1.length ≤ 4)
    (hne : w1 ≠ w2) : hash (pre ++ w1 ++ post) ≠ hash (pre ++ w2 ++ post) := by
  intro h
  have hx : ∀ a b : BitVec 32, a ^^^ (-1) = b ^^^ (-1) → a = b := by
    intro a b hab
    have := congrArg (· ^^^ (-1 : BitVec 32)) hab
    simpa [BitVec.xor_assoc] using this
  have h1 := hx _ _ h
  rw [foldl_hashStep, foldl_hashStep, List.foldl_append, List.foldl_append, List.foldl_append,
    List.foldl_append] at h1
  have h2 := foldl_crcByte_inj post h1
  rw [crc_window w1 h4, crc_window w2 (by omega), hl] at h2
  have h3 := congrArg (pre.foldl crcByte (-1) ^^^ ·) (crcIter_inj _ h2)
  simp only [← BitVec.xor_assoc, BitVec.xor_self, BitVec.zero_xor] at h3
  exact hne (packLE_inj w1 w2 hl (by omega) h3)

/-- C17: the length limit is real: some two equal-length names have the same hash. -/
theorem C17_collisions_exist : ∃ s t : Bytes, s.length = t.length ∧ s ≠ t ∧ hash s = hash t :=
  ⟨ascii "plumless", ascii "buckeroo", by decide, by decide, by decide +kernel⟩

example : hash (ascii "/user/1001/get") ≠ hash (ascii "/user/2734/get") :=
  C17_window_change_changes_hash (ascii "/user/") (ascii "1001") (ascii "2734") (ascii "/get") (by decide) (by decide)
    (by decide)

end Scouter
