import Verif.Props.Blobs
import Verif.Proofs.Wire
import Verif.Proofs.ReadAny
/-! # C05, C06, C07, C55: values on the wire -/
namespace Scouter
open Out In Spec

/-- C05: every readable tree, however nested and whatever the map iteration order, comes back as `received` says,
without error and leaving the following bytes. -/
theorem C05_value_roundtrip (v : Value) (h : Readable v) (rest : Bytes) :
    readValue ((Out.new.writeValue v).bytes ++ rest) = .ok (received v, none, rest) := by
  rw [writeValue_eq, bytes_new_write]; exact readValue_enc v h rest

/-- C05: trees without nil, over-long texts and repeated keys come back unchanged. -/
theorem C05_plain_value_roundtrip (v : Value) (h : Readable v) (hp : Plain v) (rest : Bytes) :
    readValue ((Out.new.writeValue v).bytes ++ rest) = .ok (v, none, rest) := by
  rw [C05_value_roundtrip v h rest, received_plain v hp]

/-- C05: the collector decodes the tree's denotation. -/
theorem C05_collector_reads_value (v : Value) (h : Sendable v) (rest : Bytes) :
    Wire.value ((Out.new.writeValue v).bytes ++ rest) = some (denote v, rest) := by
  rw [writeValue_eq, bytes_new_write]; exact Wire.value_enc v h rest

/-- A nested tree used as an example. -/
def sampleTree : Value :=
  .map [(ascii "a", .list [.dec 5, .goNil, .text (ascii "x")]), (ascii "b", .map [(ascii "c", .double 7)]),
    (ascii "d", .blob [1, 2])]

example : readValue ((Out.new.writeValue sampleTree).bytes ++ [9]) =
    .ok (.map [(ascii "a", .list [.dec 5, .null, .text (ascii "x")]), (ascii "b", .map [(ascii "c", .double 7)]),
      (ascii "d", .blob [1, 2])], none, [9]) :=
  C05_value_roundtrip sampleTree (by
    simp only [sampleTree, Readable, ReadableM, ReadableL, ReadableLen]
    decide) [9]

example : Plain (.map [(ascii "a", .list [.dec 5, .text (ascii "x")]), (ascii "b", .null)]) := by
  simp [Plain, PlainM, PlainL, ascii]

/-- C06 is false: whatever the address and whatever follows, if the agent's reader returns at all it returns a blob,
never an IPv4 value. -/
theorem C06_ip4_never_read_back (b rest : Bytes) (v : Value) (e : Option Err) (r : Bytes)
    (h : readValue ((Out.new.writeValue (.ip4 b)).bytes ++ rest) = .ok (v, e, r)) : ∃ x, v = .blob x := by
  rw [writeValue_eq, bytes_new_write] at h
  have h2 : mapRes Value.blob (readBlob (b ++ rest)) = .ok (v, e, r) := h
  obtain ⟨x, _, rfl⟩ := mapRes_eq_ok h2
  exact ⟨x, rfl⟩

/-- C06: the exact result for a leading zero byte: an empty blob, and the other address bytes are left in the input
(everything after them is misread). -/
theorem C06_ip4_leading_zero (a b c : Byte) (rest : Bytes) :
    readValue ((Out.new.writeValue (.ip4 [0, a, b, c])).bytes ++ rest) =
      .ok (.blob [], none, a :: b :: c :: rest) := by
  rw [writeValue_eq, bytes_new_write]; rfl

/-- C06: the exact result for the addresses whose first byte is 1 to 3: that many of the remaining bytes. -/
theorem C06_ip4_small_first_byte (n a b c : Byte) (rest : Bytes) (h1 : 1 ≤ n.toNat) (h2 : n.toNat ≤ 3) :
    readValue ((Out.new.writeValue (.ip4 [n, a, b, c])).bytes ++ rest) =
      .ok (.blob ([a, b, c].take n.toNat), none, [a, b, c].drop n.toNat ++ rest) := by
  rw [writeValue_eq, bytes_new_write]
  have : n = 1 ∨ n = 2 ∨ n = 3 := by
    have : n.toNat = 1 ∨ n.toNat = 2 ∨ n.toNat = 3 := by omega
    rcases this with h | h | h
    · left; exact BitVec.eq_of_toNat_eq h
    · right; left; exact BitVec.eq_of_toNat_eq h
    · right; right; exact BitVec.eq_of_toNat_eq h
  have hn : ∀ n : BitVec 32, n.toInt < 0 ∨ readN n (a :: b :: c :: rest) =
      .ok ((a :: b :: c :: rest).take n.toNat ++ List.replicate (n.toNat - (a :: b :: c :: rest).length) 0, none,
        (a :: b :: c :: rest).drop n.toNat) := by
    intro n
    by_cases h : n.toInt < 0
    · exact Or.inl h
    · right; simp [readN, h]
  rcases this with h | h | h <;> subst h
  · show mapRes Value.blob (readN 1 (a :: b :: c :: rest)) = _
    rw [(hn 1).resolve_left (by decide)]; simp
  · show mapRes Value.blob (readN 2 (a :: b :: c :: rest)) = _
    rw [(hn 2).resolve_left (by decide)]; simp
  · show mapRes Value.blob (readN 3 (a :: b :: c :: rest)) = _
    rw [(hn 3).resolve_left (by decide)]; simp

/-- C06: a collector does recover every four-byte address. -/
theorem C06_collector_reads_ip4 (b rest : Bytes) (h : b.length = 4) :
    Wire.value ((Out.new.writeValue (.ip4 b)).bytes ++ rest) = some (.ip b, rest) :=
  C05_collector_reads_value (.ip4 b) h rest

example : readValue ((Out.new.writeValue (.ip4 [2, 11, 12, 13])).bytes ++ [9]) = .ok (.blob [11, 12], none, [13, 9]) :=
  C06_ip4_small_first_byte 2 11 12 13 [9] (by decide) (by decide)

/-- C07: on any input ReadValue either panics or returns having consumed a prefix of it. -/
theorem C07_reads_stay_inside (s : Bytes) :
    readValue s = .panic ∨ ∃ v e r, readValue s = .ok (v, e, r) ∧ r <:+ s := by
  have hf := readValueF_ne_fuel (s.length + 1) s (by omega)
  have hs := readValueF_suffix (s.length + 1) s
  unfold readValue
  cases h : readValueF (s.length + 1) s with
  | fuel => exact absurd h hf
  | panic => exact Or.inl rfl
  | ok x =>
    obtain ⟨v, e, r⟩ := x
    rw [h] at hs
    exact Or.inr ⟨v, e, r, rfl, hs _ _ _ rfl⟩

/-- C07: nesting never exceeds the input length: allowing any larger depth changes nothing. -/
theorem C07_depth_bounded_by_input (s : Bytes) (depth : Nat) (h : s.length < depth) :
    readValueF depth s = readValue s :=
  (readValue_eq_of depth s (readValueF_ne_fuel depth s h)).symm

/-- C07: a panic needs a length field that is negative as a signed number. -/
theorem C07_panic_needs_negative_length (s : Bytes) (h : readValue s = .panic) : HasNegativeLength s :=
  readValueF_panic (s.length + 1) s h

example : readValue [70, 1, 3, 20, 1, 5, 10, 1, 99] = .ok (.list [.dec 5, .bool true, .null], some .undefinedType, []) := by
  rfl
example : readValue [50, 255, 0x80, 0] = .panic := by rfl
example : HasNegativeLength [50, 255, 0x80, 0] := C07_panic_needs_negative_length _ (by rfl)

theorem readValues_nil (n : Nat) (e : Option Err) : ∀ f,
    readValues (readValueF (f + 1)) n [] e = .ok (List.replicate n .null, if n = 0 then e else none, []) := by
  intro f
  induction n generalizing e with
  | zero => rfl
  | succ n ih =>
    rw [readValues, readValueF_nil]
    simp only
    rw [ih]
    simp [List.replicate_succ]

/-- C55: there is no bound, in terms of the input, on what ReadValue builds: at most ten input bytes make it return,
without an error, a list of any given number of elements (below 2^63), all read past the end of the input. -/
theorem C55_short_input_long_list (n : Nat) (h : n < 2 ^ 63) :
    ∃ s : Bytes, s.length ≤ 10 ∧ readValue s = .ok (.list (List.replicate n .null), none, []) := by
  refine ⟨70 :: encDec (BitVec.ofNat 64 n), ?_, ?_⟩
  · have : (encDec (BitVec.ofNat 64 n)).length ≤ 9 := by
      unfold encDec
      repeat' split
      all_goals simp
    simp only [List.length_cons]; omega
  · have hd := readDecimal_enc (BitVec.ofNat 64 n) []
    rw [List.append_nil] at hd
    have e : ∀ f, readValueF (f + 1) (70 :: encDec (BitVec.ofNat 64 n)) =
      mapRes .list (readValues (readValueF f) (readDecimal (encDec (BitVec.ofNat 64 n))).1.toInt.toNat
        (readDecimal (encDec (BitVec.ofNat 64 n))).2.2 (readDecimal (encDec (BitVec.ofNat 64 n))).2.1) := fun _ => rfl
    rw [readValue, List.length_cons, e, hd, toInt_ofNat63 n h, readValues_nil]
    simp

example : ∃ s : Bytes, s.length ≤ 10 ∧ readValue s = .ok (.list (List.replicate 1000000000 .null), none, []) :=
  C55_short_input_long_list _ (by omega)

end Scouter
