import Verif.Proofs.Value
/-! # The collector's parsers invert the agent's writers (helper lemmas for C03, C05, C06, C11-C13) -/
namespace Scouter
open Out Spec
open Wire (shown P)

namespace Wire

@[simp] theorem pure_apply {α : Type} (a : α) (s : Bytes) : (pure a : P α) s = some (a, s) := rfl
theorem bind_apply {α β : Type} (p : P α) (f : α → P β) (s : Bytes) :
    (p >>= f) s = match p s with | some (a, s) => f a s | none => none := rfl
theorem bind_some {α β : Type} {p : P α} {f : α → P β} {s s' : Bytes} {a : α} (h : p s = some (a, s')) :
    (p >>= f) s = f a s' := by rw [bind_apply, h]

theorem bytes_append (b r : Bytes) : bytes b.length (b ++ r) = some (b, r) := by
  simp [bytes]

theorem bytes_append' {n : Nat} (b r : Bytes) (h : n = b.length) : bytes n (b ++ r) = some (b, r) := by
  subst h; exact bytes_append b r

theorem u_append (n : Nat) (b r : Bytes) (h : n = b.length) : u n (b ++ r) = some (beNat b, r) := by
  unfold u
  rw [bind_some (bytes_append' b r h)]
  rfl

theorem u1_cons (x : Byte) (r : Bytes) : u 1 (x :: r) = some (x.toNat, r) := by
  have := u_append 1 [x] r rfl
  simpa [beNat] using this

theorem beNat_be16 (v : BitVec 16) : beNat (be16 v) = v.toNat := by
  simp [beNat, be16, BitVec.extractLsb'_toNat, Nat.shiftRight_eq_div_pow]
  have := v.isLt; omega
theorem beNat_be32 (v : BitVec 32) : beNat (be32 v) = v.toNat := by
  simp [beNat, be32, BitVec.extractLsb'_toNat, Nat.shiftRight_eq_div_pow]
  have := v.isLt; omega
theorem beNat_be64 (v : BitVec 64) : beNat (be64 v) = v.toNat := by
  simp [beNat, be64, BitVec.extractLsb'_toNat, Nat.shiftRight_eq_div_pow]
  have := v.isLt; omega

@[simp] theorem length_be16 (v) : (be16 v).length = 2 := rfl
@[simp] theorem length_be32 (v) : (be32 v).length = 4 := rfl
@[simp] theorem length_be64 (v) : (be64 v).length = 8 := rfl

theorem u2_be (v : BitVec 16) (r : Bytes) : u 2 (be16 v ++ r) = some (v.toNat, r) := by
  rw [u_append 2 _ r rfl, beNat_be16]
theorem u4_be (v : BitVec 32) (r : Bytes) : u 4 (be32 v ++ r) = some (v.toNat, r) := by
  rw [u_append 4 _ r rfl, beNat_be32]
theorem u8_be (v : BitVec 64) (r : Bytes) : u 8 (be64 v ++ r) = some (v.toNat, r) := by
  rw [u_append 8 _ r rfl, beNat_be64]

theorem i_of_u {n : Nat} (hn : 0 < n) (v : BitVec (8 * n)) {s r : Bytes} (h : u n s = some (v.toNat, r)) :
    i n s = some (v.toInt, r) := by
  unfold i
  rw [bind_some h, pure_apply]
  rw [BitVec.toInt_eq_toNat_cond]
  have e : (256 : Nat) ^ n = 2 ^ (8 * n) := by rw [Nat.pow_mul]
  have e' : (256 : Int) ^ n = ((2 ^ (8 * n) : Nat) : Int) := by
    rw [← e]; simp
  rw [e, e']

theorem i1_cons (x : Byte) (r : Bytes) : i 1 (x :: r) = some (x.toInt, r) :=
  i_of_u (n := 1) (by omega) x (u1_cons x r)
theorem i2_be (v : BitVec 16) (r : Bytes) : i 2 (be16 v ++ r) = some (v.toInt, r) :=
  i_of_u (n := 2) (by omega) v (u2_be v r)
theorem i4_be (v : BitVec 32) (r : Bytes) : i 4 (be32 v ++ r) = some (v.toInt, r) :=
  i_of_u (n := 4) (by omega) v (u4_be v r)
theorem i8_be (v : BitVec 64) (r : Bytes) : i 8 (be64 v ++ r) = some (v.toInt, r) :=
  i_of_u (n := 8) (by omega) v (u8_be v r)

theorem decimal_cons (w : Byte) (r : Bytes)
    (hw : w.toNat = 0 ∨ w.toNat = 1 ∨ w.toNat = 2 ∨ w.toNat = 4 ∨ w.toNat = 8) :
    decimal (w :: r) = i w.toNat r := by
  unfold decimal
  rw [bind_some (u1_cons w r), if_pos hw]

theorem setWidth_toInt {m n : Nat} (hm : 0 < m) (hmn : m ≤ n) (v : BitVec n)
    (h1 : -2 ^ (m - 1) ≤ v.toInt) (h2 : v.toInt < 2 ^ (m - 1)) : (v.setWidth m).toInt = v.toInt := by
  have := congrArg BitVec.toInt (In.signExtend_setWidth hm hmn v h1 h2)
  rwa [BitVec.toInt_signExtend_of_le hmn] at this

theorem i0 (r : Bytes) : i 0 r = some (0, r) := by
  simp [i, u, bytes, bind_apply, beNat]

@[simp] theorem decimal_enc (v : BitVec 64) (r : Bytes) : decimal (encDec v ++ r) = some (v.toInt, r) := by
  unfold encDec
  repeat' split
  · next h => subst h; rw [List.cons_append, decimal_cons _ _ (by decide)]; exact i0 r
  · next h =>
    rw [List.cons_append, decimal_cons _ _ (by decide)]
    rw [← setWidth_toInt (m := 8) (by omega) (by omega) v (by omega) (by omega)]
    exact i1_cons _ r
  · next h =>
    rw [List.cons_append, decimal_cons _ _ (by decide)]
    rw [← setWidth_toInt (m := 16) (by omega) (by omega) v (by omega) (by omega)]
    exact i2_be _ r
  · next h =>
    rw [List.cons_append, decimal_cons _ _ (by decide)]
    rw [← setWidth_toInt (m := 32) (by omega) (by omega) v (by omega) (by omega)]
    exact i4_be _ r
  · rw [List.cons_append, decimal_cons _ _ (by decide)]
    exact i8_be _ r

@[simp] theorem decimal_enc32 (v : BitVec 32) (r : Bytes) : decimal (encDec32 v ++ r) = some (v.toInt, r) := by
  unfold encDec32
  repeat' split
  · next h => subst h; rw [List.cons_append, decimal_cons _ _ (by decide)]; exact i0 r
  · next h =>
    rw [List.cons_append, decimal_cons _ _ (by decide)]
    rw [← setWidth_toInt (m := 8) (by omega) (by omega) v (by omega) (by omega)]
    exact i1_cons _ r
  · next h =>
    rw [List.cons_append, decimal_cons _ _ (by decide)]
    rw [← setWidth_toInt (m := 16) (by omega) (by omega) v (by omega) (by omega)]
    exact i2_be _ r
  · rw [List.cons_append, decimal_cons _ _ (by decide)]
    exact i4_be _ r

theorem blob_enc (b r : Bytes) (h : b.length < 2 ^ 31) : blob (encBlob b ++ r) = some (b, r) := by
  unfold encBlob blob
  repeat' split
  · next h => simp at h; subst h; rw [List.cons_append, bind_some (u1_cons _ _)]; simp [bytes]
  · next h0 h1 =>
    rw [List.cons_append, bind_some (u1_cons _ _)]
    have e : (BitVec.ofNat 8 b.length).toNat = b.length := by simp; omega
    rw [e, if_neg (by omega), if_neg (by omega)]
    exact bytes_append b r
  · next h0 h1 =>
    rw [List.cons_append, bind_some (u1_cons _ _), if_pos (by rfl), List.append_assoc, bind_some (u2_be _ _)]
    have e : (BitVec.ofNat 16 b.length).toNat = b.length := by simp; omega
    rw [e]; exact bytes_append b r
  · next h0 h1 =>
    rw [List.cons_append, bind_some (u1_cons _ _), if_neg (by decide), if_pos (by rfl), List.append_assoc,
      bind_some (u4_be _ _)]
    have e : (BitVec.ofNat 32 b.length).toNat = b.length := by simp; omega
    rw [e]; exact bytes_append b r

theorem shown_length (s : Bytes) : (shown s).length ≤ 100000 := by
  unfold shown; split
  · assumption
  · decide

@[simp] theorem blob_encString (s r : Bytes) : blob (encString s ++ r) = some (shown s, r) := by
  rw [In.encString_eq]
  exact blob_enc _ _ (by have := shown_length s; omega)

@[simp] theorem bool_enc (v : Bool) (r : Bytes) : Wire.bool (encBool v ++ r) = some (v, r) := by
  cases v <;> simp [encBool, Wire.bool] <;> rw [bind_some (u1_cons _ _)] <;> rfl

mutual
theorem valueD_enc (v : Value) (hv : Sendable v) (d : Nat) (hd : In.depth v ≤ d) (r : Bytes) :
    valueD d (encValue v ++ r) = some (denote v, r) := by
  cases d with
  | zero => cases v <;> simp [In.depth] at hd
  | succ d =>
    cases v with
    | goNil => simp only [encValue, List.cons_append, valueD]; rw [bind_some (u1_cons _ _)]; simp [denote]
    | null => simp only [encValue, List.cons_append, valueD]; rw [bind_some (u1_cons _ _)]; simp [denote]
    | bool b =>
      simp only [encValue, List.cons_append, valueD]; rw [bind_some (u1_cons _ _)]; simp [denote]
      rw [bind_some (bool_enc b r)]; rfl
    | dec b =>
      simp only [encValue, List.cons_append, valueD]; rw [bind_some (u1_cons _ _)]; simp [denote]
      rw [bind_some (decimal_enc b r)]; rfl
    | float b =>
      simp only [encValue, List.cons_append, valueD]; rw [bind_some (u1_cons _ _)]; simp [denote]
      rw [bind_some (u4_be b r)]; rfl
    | double b =>
      simp only [encValue, List.cons_append, valueD]; rw [bind_some (u1_cons _ _)]; simp [denote]
      rw [bind_some (u8_be b r)]; rfl
    | textHash b =>
      simp only [encValue, List.cons_append, valueD]; rw [bind_some (u1_cons _ _)]; simp [denote]
      rw [bind_some (i4_be b r)]; rfl
    | text s =>
      simp only [encValue, List.cons_append, valueD]; rw [bind_some (u1_cons _ _)]; simp [denote]
      rw [bind_some (blob_encString s r)]; rfl
    | blob b =>
      simp only [Sendable] at hv
      simp only [encValue, List.cons_append, valueD]; rw [bind_some (u1_cons _ _)]; simp [denote]
      rw [bind_some (blob_enc b r hv)]; rfl
    | ip4 b =>
      simp only [Sendable] at hv
      simp only [encValue, List.cons_append, valueD]; rw [bind_some (u1_cons _ _)]; simp [denote]
      rw [bind_some (bytes_append' b r hv.symm)]; rfl
    | list vs =>
      simp only [Sendable] at hv
      simp only [In.depth] at hd
      have h := valuesD_enc vs hv.2 d (by omega) r
      simp only [encValue, List.cons_append, valueD]; rw [bind_some (u1_cons _ _)]; simp [denote]
      rw [bind_some (decimal_enc _ _), In.toInt_ofNat63 _ hv.1, bind_some h]; rfl
    | map es =>
      simp only [Sendable] at hv
      simp only [In.depth] at hd
      have h := entriesD_enc es hv.2 d (by omega) r
      simp only [encValue, List.cons_append, valueD]; rw [bind_some (u1_cons _ _)]; simp [denote]
      rw [bind_some (decimal_enc _ _), In.toInt_ofNat63 _ hv.1, bind_some h]; rfl
theorem valuesD_enc (vs : List Value) (hv : SendableL vs) (d : Nat) (hd : In.depthL vs ≤ d) (r : Bytes) :
    times (valueD d) vs.length (encValues vs ++ r) = some (denoteL vs, r) := by
  cases vs with
  | nil => simp [times, encValues, denoteL]
  | cons v vs =>
    simp only [SendableL] at hv
    simp only [In.depthL] at hd
    have h1 := valueD_enc v hv.1 d (by omega) (encValues vs ++ r)
    have h2 := valuesD_enc vs hv.2 d (by omega) r
    simp only [encValues, List.length_cons, times, List.append_assoc]
    rw [bind_some h1, bind_some h2]; rfl
theorem entriesD_enc (es : List (Bytes × Value)) (hv : SendableM es) (d : Nat) (hd : In.depthM es ≤ d) (r : Bytes) :
    times (do let k ← Wire.blob; let v ← valueD d; return (k, v)) es.length (encEntries es ++ r) =
      some (denoteM es, r) := by
  cases es with
  | nil => simp [times, encEntries, denoteM]
  | cons e es =>
    obtain ⟨k, v⟩ := e
    simp only [SendableM] at hv
    simp only [In.depthM] at hd
    have h1 := valueD_enc v hv.1 d (by omega) (encEntries es ++ r)
    have h2 := entriesD_enc es hv.2 d (by omega) r
    simp only [encEntries, List.length_cons, times, List.append_assoc]
    rw [bind_some (a := (shown k, denote v)) (s' := encEntries es ++ r), bind_some h2]
    · rfl
    · rw [bind_some (blob_encString _ _), bind_some h1]; rfl
end

theorem value_enc (v : Value) (hv : Sendable v) (r : Bytes) : value (encValue v ++ r) = some (denote v, r) := by
  unfold value
  have := In.depth_le v
  exact valueD_enc v hv _ (by simp; omega) r

end Wire
end Scouter
