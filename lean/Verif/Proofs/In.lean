import Verif.Proofs.Out
/-! # Readers invert writers (helper lemmas for C01-C10) -/
namespace Scouter
open Out

namespace In

theorem cat {n : Nat} (v : BitVec n) (s₂ s₁ l₂ l₁ : Nat) (h : s₂ = s₁ + l₁) :
    v.extractLsb' s₂ l₂ ++ v.extractLsb' s₁ l₁ = v.extractLsb' s₁ (l₂ + l₁) :=
  BitVec.extractLsb'_append_extractLsb'_eq_extractLsb' h

theorem un16 (v : BitVec 16) : v.extractLsb' 8 8 ++ v.extractLsb' 0 8 = v := by
  rw [cat v 8 0 8 8 rfl]
  exact BitVec.extractLsb'_eq_self

theorem un32 (v : BitVec 32) :
    v.extractLsb' 24 8 ++ v.extractLsb' 16 8 ++ v.extractLsb' 8 8 ++ v.extractLsb' 0 8 = v := by
  rw [cat v 24 16 8 8 rfl, cat v 16 8 _ 8 rfl, cat v 8 0 _ 8 rfl]
  exact BitVec.extractLsb'_eq_self

theorem un64 (v : BitVec 64) :
    v.extractLsb' 56 8 ++ v.extractLsb' 48 8 ++ v.extractLsb' 40 8 ++ v.extractLsb' 32 8 ++
    v.extractLsb' 24 8 ++ v.extractLsb' 16 8 ++ v.extractLsb' 8 8 ++ v.extractLsb' 0 8 = v := by
  rw [cat v 56 48 8 8 rfl, cat v 48 40 _ 8 rfl, cat v 40 32 _ 8 rfl, cat v 32 24 _ 8 rfl, cat v 24 16 _ 8 rfl,
    cat v 16 8 _ 8 rfl, cat v 8 0 _ 8 rfl]
  exact BitVec.extractLsb'_eq_self

@[simp] theorem readInt8_cons (v : BitVec 8) (r : Bytes) : readInt8 (v :: r) = (v, none, r) := rfl
@[simp] theorem readInt16_be (v : BitVec 16) (r : Bytes) : readInt16 (be16 v ++ r) = (v, none, r) := by
  simp [be16, readInt16, un16]
@[simp] theorem readInt32_be (v : BitVec 32) (r : Bytes) : readInt32 (be32 v ++ r) = (v, none, r) := by
  simp [be32, readInt32, un32]
@[simp] theorem readInt64_be (v : BitVec 64) (r : Bytes) : readInt64 (be64 v ++ r) = (v, none, r) := by
  simp [be64, readInt64, un64]
@[simp] theorem readFloat32_be (v : BitVec 32) (r : Bytes) : readFloat32 (be32 v ++ r) = (v, none, r) := by
  simp [be32, readFloat32, un32]
@[simp] theorem readFloat64_be (v : BitVec 64) (r : Bytes) : readFloat64 (be64 v ++ r) = (v, none, r) := by
  simp [be64, readFloat64, un64]
@[simp] theorem readBoolean_enc (v : Bool) (r : Bytes) : readBoolean (encBool v ++ r) = (v, none, r) := by
  cases v <;> simp [encBool, readBoolean]

theorem signExtend_setWidth {m n : Nat} (hm : 0 < m) (hmn : m ≤ n) (v : BitVec n)
    (h1 : -2 ^ (m - 1) ≤ v.toInt) (h2 : v.toInt < 2 ^ (m - 1)) : (v.setWidth m).signExtend n = v := by
  apply BitVec.eq_of_toInt_eq
  rw [BitVec.toInt_signExtend_of_le hmn, BitVec.toInt_setWidth]
  have e : Int.bmod (v.toNat : Int) (2 ^ m) = Int.bmod v.toInt (2 ^ m) := by
    rw [BitVec.toInt_eq_toNat_bmod]
    rw [Int.bmod_bmod_of_dvd]
    exact Nat.pow_dvd_pow 2 hmn
  rw [e]
  have hp : (2 : Int) ^ m = 2 * 2 ^ (m - 1) := by
    have : m = (m - 1) + 1 := by omega
    rw [this, Int.pow_succ]; simp; omega
  apply Int.bmod_eq_of_le_mul_two <;> push_cast <;> omega

@[simp] theorem readDecimal_enc (v : BitVec 64) (r : Bytes) : readDecimal (encDec v ++ r) = (v, none, r) := by
  unfold encDec
  repeat' split
  · next h => simp [readDecimal, h]
  · next h => simp [readDecimal, signExtend_setWidth (m := 8) (n := 64) (by omega) (by omega) v (by omega) (by omega)]
  · next h => simp [readDecimal, signExtend_setWidth (m := 16) (n := 64) (by omega) (by omega) v (by omega) (by omega)]
  · next h => simp [readDecimal, signExtend_setWidth (m := 32) (n := 64) (by omega) (by omega) v (by omega) (by omega)]
  · simp [readDecimal]

theorem signExtend_signExtend' {m n : Nat} (hm : m ≤ 32) (hn : 32 ≤ n) (v : BitVec m) :
    (v.signExtend 32).signExtend n = v.signExtend n := by
  apply BitVec.eq_of_toInt_eq
  rw [BitVec.toInt_signExtend_of_le hn, BitVec.toInt_signExtend_of_le hm, BitVec.toInt_signExtend_of_le (by omega)]

@[simp] theorem readDecimal_enc32 (v : BitVec 32) (r : Bytes) :
    readDecimal (encDec32 v ++ r) = (v.signExtend 64, none, r) := by
  unfold encDec32
  repeat' split
  · next h => subst h; simp [readDecimal]
  · next h =>
    simp [readDecimal]
    rw [← signExtend_signExtend' (by omega) (by omega),
      signExtend_setWidth (m := 8) (n := 32) (by omega) (by omega) v (by omega) (by omega)]
  · next h =>
    simp [readDecimal]
    rw [← signExtend_signExtend' (by omega) (by omega),
      signExtend_setWidth (m := 16) (n := 32) (by omega) (by omega) v (by omega) (by omega)]
  · simp [readDecimal]

theorem setWidth_signExtend (v : BitVec 32) : (v.signExtend 64).setWidth 32 = v := by
  apply BitVec.eq_of_toNat_eq
  simp [BitVec.toNat_signExtend]
  have := v.isLt
  split <;> omega

theorem readN_append (n : BitVec 32) (b r : Bytes) (h0 : 0 ≤ n.toInt) (h : n.toNat = b.length) :
    readN n (b ++ r) = .ok (b, none, r) := by
  unfold readN
  rw [if_neg (by omega), if_neg]
  · simp [h]
  · cases b with
    | nil => simp at h; simp [h]
    | cons x xs => simp

theorem readN_neg (n : BitVec 32) (s : Bytes) (h0 : n.toInt < 0) : readN n s = .panic := by
  simp [readN, h0]

theorem readBlob_enc (b r : Bytes) (h1 : b.length < 2147483648)
    (h2 : ¬ (32768 ≤ b.length ∧ b.length ≤ 65535)) : readBlob (encBlob b ++ r) = .ok (b, none, r) := by
  unfold encBlob
  repeat' split
  · next h => simp at h; subst h; simp [readBlob]
  · next h0 h =>
    have e : (BitVec.ofNat 8 b.length).toNat = b.length := by simp; omega
    have a0 : BitVec.ofNat 8 b.length ≠ 0 := by
      intro c; rw [c] at e; simp at e; exact h0 (by simp [← e])
    have a1 : BitVec.ofNat 8 b.length ≠ 255 := by intro c; rw [c] at e; simp at e; omega
    have a2 : BitVec.ofNat 8 b.length ≠ 254 := by intro c; rw [c] at e; simp at e; omega
    simp at a0 a1 a2
    simp [readBlob, a0, a1, a2]
    apply readN_append
    · rw [BitVec.toInt_eq_toNat_of_lt] <;> simp <;> omega
    · simp; omega
  · next h0 h =>
    simp only [readBlob, List.cons_append, readInt8_cons, if_true, List.append_assoc, readInt16_be]
    have e : ((BitVec.ofNat 16 b.length).signExtend 32).toInt = b.length := by
      rw [BitVec.toInt_signExtend_of_le (by omega), BitVec.toInt_eq_toNat_cond]
      have e : (BitVec.ofNat 16 b.length).toNat = b.length := by simp; omega
      rw [e]; split <;> omega
    apply readN_append
    · omega
    · have := BitVec.toInt_eq_toNat_cond ((BitVec.ofNat 16 b.length).signExtend 32)
      split at this <;> omega
  · next h0 h h' =>
    simp [readBlob]
    apply readN_append
    · rw [BitVec.toInt_eq_toNat_of_lt] <;> simp <;> omega
    · simp; omega

theorem readBlob_window (b r : Bytes) (h : 32768 ≤ b.length ∧ b.length ≤ 65535) :
    readBlob (encBlob b ++ r) = .panic := by
  unfold encBlob
  rw [if_neg (by omega), if_neg (by omega), if_pos (by omega)]
  simp only [readBlob, List.cons_append, readInt8_cons, if_true, List.append_assoc, readInt16_be]
  apply readN_neg
  rw [BitVec.toInt_signExtend_of_le (by omega), BitVec.toInt_eq_toNat_cond]
  have e : (BitVec.ofNat 16 b.length).toNat = b.length := by simp; omega
  rw [e]; split <;> omega

end In
end Scouter
