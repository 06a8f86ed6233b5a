import Verif.Props.Numbers
import Verif.Proofs.Value
/-! # C03, C04, C56: byte strings and texts on the wire -/
namespace Scouter
open Out In Spec

/-- C03: a blob of any readable length comes back unchanged. -/
theorem C03_blob_roundtrip (b rest : Bytes) (h : b.length < 2 ^ 31) (hw : ¬ (32768 ≤ b.length ∧ b.length ≤ 65535)) :
    readBlob ((Out.new.writeBlob b).bytes ++ rest) = .ok (b, none, rest) := by
  rw [writeBlob_eq, bytes_new_write]; exact readBlob_enc b rest (by omega) hw

/-- C03: for every length between 32768 and 65535 the agent's reader panics on what its writer wrote. -/
theorem C03_blob_window_panics (b rest : Bytes) (h : 32768 ≤ b.length) (h' : b.length ≤ 65535) :
    readBlob ((Out.new.writeBlob b).bytes ++ rest) = .panic := by
  rw [writeBlob_eq, bytes_new_write]; exact readBlob_window b rest ⟨h, h'⟩

/-- C03: a collector recovers the blob at every length. -/
theorem C03_collector_reads_blob (b rest : Bytes) (h : b.length < 2 ^ 31) :
    Wire.blob ((Out.new.writeBlob b).bytes ++ rest) = some (b, rest) := by
  rw [writeBlob_eq, bytes_new_write]; exact Wire.blob_enc b rest h

example : readBlob ((Out.new.writeBlob (List.replicate 300 9)).bytes ++ [1]) = .ok (List.replicate 300 9, none, [1]) :=
  C03_blob_roundtrip _ _ (by rw [List.length_replicate]; omega) (by rw [List.length_replicate]; omega)
example : readBlob ((Out.new.writeBlob (List.replicate 40000 9)).bytes ++ [1]) = .panic :=
  C03_blob_window_panics _ _ (by rw [List.length_replicate]; omega) (by rw [List.length_replicate]; omega)
example : (Out.new.writeBlob [7, 8]).bytes = [2, 7, 8] := by decide

/-- C04: a text of at most 100000 bytes (outside the window) comes back unchanged. -/
theorem C04_string_roundtrip (s rest : Bytes) (h : s.length ≤ 100000)
    (hw : ¬ (32768 ≤ s.length ∧ s.length ≤ 65535)) :
    readString ((Out.new.writeString s).bytes ++ rest) = .ok (s, none, rest) := by
  rw [writeString_eq, bytes_new_write]
  have := readString_enc s rest (by rw [shown_of_le h]; exact ⟨by omega, hw⟩)
  rwa [shown_of_le h] at this

/-- C04: every longer text comes back as the fixed marker. -/
theorem C04_huge_string (s rest : Bytes) (h : 100000 < s.length) :
    readString ((Out.new.writeString s).bytes ++ rest) = .ok (ascii "huge string omitted...", none, rest) := by
  rw [writeString_eq, bytes_new_write]
  have hs : Wire.shown s = ascii "huge string omitted..." := by rw [Wire.shown, if_neg (by omega)]
  have := readString_enc s rest (by rw [hs]; exact ⟨by decide, by decide⟩)
  rwa [hs] at this

/-- C04: the agent's reader panics on texts in the window, a collector reads all texts up to 100000 bytes and the
marker for the others. -/
theorem C04_window_and_collector (s rest : Bytes) :
    (32768 ≤ s.length → s.length ≤ 65535 → readString ((Out.new.writeString s).bytes ++ rest) = .panic) ∧
    Wire.blob ((Out.new.writeString s).bytes ++ rest) =
      some (if s.length ≤ 100000 then s else ascii "huge string omitted...", rest) := by
  rw [writeString_eq, bytes_new_write]
  refine ⟨fun h h' => ?_, Wire.blob_encString s rest⟩
  rw [encString_eq, shown_of_le (by omega)]
  exact readBlob_window s rest ⟨h, h'⟩

example : readString ((Out.new.writeString (ascii "GET /a")).bytes ++ [1]) = .ok (ascii "GET /a", none, [1]) :=
  C04_string_roundtrip _ _ (by decide) (by decide)
example : readString ((Out.new.writeString (List.replicate 100001 65)).bytes ++ [1]) =
    .ok (ascii "huge string omitted...", none, [1]) := C04_huge_string _ _ (by rw [List.length_replicate]; omega)

theorem readN_short (n : BitVec 32) (p : Bytes) (hn : 0 ≤ n.toInt) (h0 : p ≠ []) (hp : p.length ≤ n.toNat) :
    readN n p = .ok (p ++ List.replicate (n.toNat - p.length) 0, none, []) := by
  unfold readN
  rw [if_neg (by omega), if_neg (by cases p <;> simp_all)]
  rw [List.take_of_length_le hp, List.drop_of_length_le hp]

/-- C56: a blob cut short (with at least one body byte left) is read, without error, as a blob of the announced
length whose missing tail is zero bytes. -/
theorem C56_truncated_blob_is_padded (b pre post : Bytes) (h : b.length < 2 ^ 31)
    (hw : ¬ (32768 ≤ b.length ∧ b.length ≤ 65535)) (hpost : post.length < b.length)
    (hs : (Out.new.writeBlob b).bytes = pre ++ post) :
    readBlob pre = .ok (b.take (b.length - post.length) ++ List.replicate post.length 0, none, []) := by
  rw [writeBlob_eq, bytes_new_write] at hs
  have key : ∀ (hd : Bytes), encBlob b = hd ++ b →
      pre = hd ++ b.take (b.length - post.length) := by
    intro hd e
    have hl := congrArg List.length hs
    rw [e] at hs hl
    simp only [List.length_append] at hl
    have := congrArg (List.take pre.length) hs
    rw [List.take_left] at this
    rw [← this, List.take_append]
    rw [List.take_of_length_le (by omega)]
    congr 2
    omega
  have hl : (b.take (b.length - post.length)).length = b.length - post.length := by simp
  have hne : b.take (b.length - post.length) ≠ [] := by
    intro c; rw [c] at hl; simp at hl; omega
  have e1 : b.length - (b.length - post.length) = post.length := by omega
  have fin : ∀ n : BitVec 32, 0 ≤ n.toInt → n.toNat = b.length → readN n (b.take (b.length - post.length)) =
      .ok (b.take (b.length - post.length) ++ List.replicate post.length 0, none, []) := by
    intro n h1 h2
    rw [readN_short n _ h1 hne (by rw [hl]; omega), hl, h2, e1]
  by_cases c1 : b.length ≤ 253
  · rw [key [BitVec.ofNat 8 b.length] (by unfold encBlob; rw [if_neg (by omega), if_pos c1]; rfl)]
    rw [List.cons_append, List.nil_append, readBlob_cons]
    have n255 : ¬ BitVec.ofNat 8 b.length = 255 := by
      intro c; have := congrArg BitVec.toNat c; simp at this; omega
    have n254 : ¬ BitVec.ofNat 8 b.length = 254 := by
      intro c; have := congrArg BitVec.toNat c; simp at this; omega
    have n0 : ¬ BitVec.ofNat 8 b.length = 0 := by
      intro c; have := congrArg BitVec.toNat c; simp at this; omega
    rw [if_neg n255, if_neg n254, if_neg n0]
    have hn : ((BitVec.ofNat 8 b.length).setWidth 32).toNat = b.length := by simp; omega
    exact fin _ (by rw [BitVec.toInt_eq_toNat_of_lt (by omega)]; omega) hn
  · by_cases c2 : b.length ≤ 65535
    · rw [key (255 :: be16 (BitVec.ofNat 16 b.length)) (by
        unfold encBlob; rw [if_neg (by omega), if_neg c1, if_pos c2]; rfl)]
      rw [List.cons_append, readBlob_cons, if_pos rfl, readInt16_be]; simp only []
      have hn : (BitVec.ofNat 16 b.length).toInt = b.length := by
        rw [BitVec.toInt_eq_toNat_of_lt] <;> simp <;> omega
      have hi : ((BitVec.ofNat 16 b.length).signExtend 32).toInt = b.length := by
        rw [BitVec.toInt_signExtend_of_le (by omega), hn]
      refine fin _ (by omega) ?_
      have := BitVec.toInt_eq_toNat_cond ((BitVec.ofNat 16 b.length).signExtend 32)
      rw [hi] at this
      have := ((BitVec.ofNat 16 b.length).signExtend 32).isLt
      split at * <;> omega
    · rw [key (254 :: be32 (BitVec.ofNat 32 b.length)) (by
        unfold encBlob; rw [if_neg (by omega), if_neg c1, if_neg c2]; rfl)]
      rw [List.cons_append, readBlob_cons, if_neg (by decide), if_pos rfl, readInt32_be]; simp only []
      refine fin _ ?_ (by simp; omega)
      rw [BitVec.toInt_eq_toNat_of_lt] <;> simp <;> omega

example : readBlob [5, 104, 105] = .ok ([104, 105, 0, 0, 0], none, []) :=
  C56_truncated_blob_is_padded [104, 105, 106, 107, 108] [5, 104, 105] [106, 107, 108] (by decide) (by decide)
    (by decide) (by decide)

end Scouter
