import Verif.Model.Util
/-! # C18: IP text to bytes -/
namespace Scouter

namespace Spec
/-- An ASCII decimal digit. -/
def IsDigit (c : Byte) : Prop := 48 ≤ c.toNat ∧ c.toNat ≤ 57

/-- The number a digit string denotes in base ten. -/
def decimal (s : Bytes) : Nat := s.foldl (fun n c => n * 10 + (c.toNat - 48)) 0

/-- A non-empty digit string of value `v` at most 255. -/
def Octet (s : Bytes) (v : Nat) : Prop := s ≠ [] ∧ (∀ c ∈ s, IsDigit c) ∧ decimal s = v ∧ v ≤ 255

/-- Four octets joined by dots. -/
def IpText (t : Bytes) (a b c d : Nat) : Prop :=
  ∃ p q r s, t = p ++ ascii "." ++ q ++ ascii "." ++ r ++ ascii "." ++ s ∧
    Octet p a ∧ Octet q b ∧ Octet r c ∧ Octet s d
end Spec
open Spec

theorem splitByte_ne_nil (sep : Byte) (s : Bytes) : splitByte sep s ≠ [] := by
  cases s with
  | nil => simp [splitByte]
  | cons c cs =>
    rw [splitByte]; split
    · simp
    · split <;> simp

/-- Joining the parts with the separator gives the text back. -/
def joinByte (sep : Byte) : List Bytes → Bytes
  | [] => []
  | [p] => p
  | p :: ps => p ++ sep :: joinByte sep ps

theorem joinByte_splitByte (sep : Byte) (s : Bytes) : joinByte sep (splitByte sep s) = s := by
  induction s with
  | nil => rfl
  | cons c cs ih =>
    rw [splitByte]
    split
    · rename_i h
      cases hs : splitByte sep cs with
      | nil => exact absurd hs (splitByte_ne_nil _ _)
      | cons a l => rw [joinByte, ← hs, ih, h]; rfl; simp
    · cases hs : splitByte sep cs with
      | nil => exact absurd hs (splitByte_ne_nil _ _)
      | cons a l =>
        rw [hs] at ih
        cases l with
        | nil => simpa [joinByte] using ih
        | cons b l => simp only [joinByte, List.cons_append, List.cons.injEq, true_and] at ih ⊢; exact ih

theorem splitByte_none (sep : Byte) (s : Bytes) (h : sep ∉ s) : splitByte sep s = [s] := by
  induction s with
  | nil => rfl
  | cons c cs ih =>
    rw [splitByte, if_neg (fun e => h (by simp [e])), ih (fun m => h (by simp [m]))]

theorem splitByte_append (sep : Byte) (p s : Bytes) (h : sep ∉ p) :
    splitByte sep (p ++ sep :: s) = p :: splitByte sep s := by
  induction p with
  | nil => simp [splitByte]
  | cons c cs ih =>
    rw [List.cons_append, splitByte, if_neg (fun e => h (by simp [e])), ih (fun m => h (by simp [m]))]

theorem splitByte_not_mem (sep : Byte) (s p : Bytes) (hp : p ∈ splitByte sep s) : sep ∉ p := by
  induction s generalizing p with
  | nil => simp [splitByte] at hp; simp [hp]
  | cons c cs ih =>
    rw [splitByte] at hp
    split at hp
    · rcases List.mem_cons.mp hp with h | h
      · simp [h]
      · exact ih p h
    · rename_i hc
      cases hs : splitByte sep cs with
      | nil => exact absurd hs (splitByte_ne_nil _ _)
      | cons a l =>
        rw [hs] at hp ih
        rcases List.mem_cons.mp hp with h | h
        · rw [h, List.mem_cons]
          rintro (e | e)
          · exact hc e.symm
          · exact ih a (by simp) e
        · exact ih p (by simp [h])

theorem parseDigits8_eq (n : Nat) (s : Bytes) (v : Nat) (hn : n ≤ 255) :
    parseDigits8 n s = some v ↔
      (∀ c ∈ s, IsDigit c) ∧ s.foldl (fun n c => n * 10 + (c.toNat - 48)) n = v ∧ v ≤ 255 := by
  induction s generalizing n with
  | nil => simp only [parseDigits8, List.foldl_nil, Option.some.injEq]; constructor
           · rintro rfl; simp [hn]
           · rintro ⟨_, h, _⟩; exact h
  | cons c cs ih =>
    rw [parseDigits8]
    have mono : ∀ (l : Bytes) (m : Nat), m ≤ l.foldl (fun n c => n * 10 + (c.toNat - 48)) m := by
      intro l
      induction l with
      | nil => intro m; exact Nat.le_refl m
      | cons x xs ihx => intro m; exact Nat.le_trans (show m ≤ m * 10 + (x.toNat - 48) by omega) (ihx _)
    by_cases hd : 48 ≤ c.toNat ∧ c.toNat ≤ 57
    · rw [if_pos hd]
      split
      · rename_i hgt
        constructor
        · intro h; cases h
        · rintro ⟨_, h, hv⟩
          have := mono cs (n * 10 + (c.toNat - 48))
          rw [List.foldl_cons] at h
          omega
      · rename_i hle
        rw [ih _ (by omega), List.foldl_cons]
        simp [IsDigit, hd]
    · rw [if_neg hd]
      constructor
      · intro h; cases h
      · rintro ⟨h, _⟩
        exact absurd (h c (by simp)) hd

theorem parseUint8_eq (s : Bytes) (v : Nat) : parseUint8 s = some v ↔ Octet s v := by
  unfold parseUint8 Octet decimal
  split
  · simp_all
  · rw [parseDigits8_eq 0 s v (by omega)]; simp_all

theorem Spec.Octet.nodot {s : Bytes} {v : Nat} (h : Octet s v) : (46 : Byte) ∉ s := by
  intro hm
  have := h.2.1 _ hm
  simp [IsDigit] at this

theorem split_of_ipText {t : Bytes} {p q r s : Bytes} (h : t = p ++ ascii "." ++ q ++ ascii "." ++ r ++ ascii "." ++ s)
    (hp : (46 : Byte) ∉ p) (hq : (46 : Byte) ∉ q) (hr : (46 : Byte) ∉ r) (hs : (46 : Byte) ∉ s) :
    splitByte 46 t = [p, q, r, s] := by
  have e : ascii "." = [46] := by decide
  subst h
  rw [e]
  simp only [List.append_assoc, List.cons_append, List.nil_append]
  rw [splitByte_append _ _ _ hp, splitByte_append _ _ _ hq, splitByte_append _ _ _ hr, splitByte_none _ _ hs]

/-- C18: a dotted text of four octets gives exactly those four bytes. -/
theorem C18_ip_text_parses (t : Bytes) (a b c d : Nat) (h : IpText t a b c d) :
    ipToBytes t = [BitVec.ofNat 8 a, BitVec.ofNat 8 b, BitVec.ofNat 8 c, BitVec.ofNat 8 d] := by
  obtain ⟨p, q, r, s, ht, hp, hq, hr, hs⟩ := h
  unfold ipToBytes
  rw [split_of_ipText ht hp.nodot hq.nodot hr.nodot hs.nodot]
  simp [ipParts, (parseUint8_eq _ _).mpr hp, (parseUint8_eq _ _).mpr hq, (parseUint8_eq _ _).mpr hr,
    (parseUint8_eq _ _).mpr hs]

/-- C18: every other text gives 0.0.0.0. -/
theorem C18_other_text_is_zero (t : Bytes) (h : ∀ a b c d, ¬ IpText t a b c d) : ipToBytes t = [0, 0, 0, 0] := by
  unfold ipToBytes
  simp only []
  split
  · rfl
  · rename_i hl
    have hl : (splitByte 46 t).length = 4 := by simpa using hl
    have hj := joinByte_splitByte 46 t
    match hsp : splitByte 46 t with
    | [] => rw [hsp] at hl; simp at hl
    | [_] => rw [hsp] at hl; simp at hl
    | [_, _] => rw [hsp] at hl; simp at hl
    | [_, _, _] => rw [hsp] at hl; simp at hl
    | _ :: _ :: _ :: _ :: _ :: _ => rw [hsp] at hl; simp at hl
    | [p, q, r, s] =>
      rw [hsp] at hj
      simp only [joinByte] at hj
      simp only [ipParts]
      cases hp : parseUint8 p with
      | none => rfl
      | some a =>
        cases hq : parseUint8 q with
        | none => rfl
        | some b =>
          cases hr : parseUint8 r with
          | none => rfl
          | some c =>
            cases hs : parseUint8 s with
            | none => rfl
            | some d =>
              refine absurd ⟨p, q, r, s, ?_, (parseUint8_eq _ _).mp hp, (parseUint8_eq _ _).mp hq,
                (parseUint8_eq _ _).mp hr, (parseUint8_eq _ _).mp hs⟩ (h a b c d)
              have e : ascii "." = [46] := by decide
              rw [e, ← hj]; simp

/-- C18: the result is always four bytes. -/
theorem C18_ip_always_four_bytes (t : Bytes) : (ipToBytes t).length = 4 := by
  by_cases h : ∃ a b c d, IpText t a b c d
  · obtain ⟨a, b, c, d, h⟩ := h
    rw [C18_ip_text_parses t a b c d h]; rfl
  · rw [C18_other_text_is_zero t (fun a b c d hh => h ⟨a, b, c, d, hh⟩)]; rfl

/-- C18: the four numbers are determined by the text. -/
theorem C18_ip_text_unambiguous (t : Bytes) (a b c d a' b' c' d' : Nat) (h : IpText t a b c d)
    (h' : IpText t a' b' c' d') : (a, b, c, d) = (a', b', c', d') := by
  obtain ⟨p, q, r, s, ht, hp, hq, hr, hs⟩ := h
  obtain ⟨p', q', r', s', ht', hp', hq', hr', hs'⟩ := h'
  have e := split_of_ipText ht hp.nodot hq.nodot hr.nodot hs.nodot
  have e' := split_of_ipText ht' hp'.nodot hq'.nodot hr'.nodot hs'.nodot
  rw [e] at e'
  simp only [List.cons.injEq, and_true] at e'
  obtain ⟨rfl, rfl, rfl, rfl⟩ := e'
  rw [← hp.2.2.1, ← hq.2.2.1, ← hr.2.2.1, ← hs.2.2.1, ← hp'.2.2.1, ← hq'.2.2.1, ← hr'.2.2.1, ← hs'.2.2.1]

example : IpText (ascii "10.0.255.007") 10 0 255 7 := by
  refine ⟨ascii "10", ascii "0", ascii "255", ascii "007", by decide, ?_, ?_, ?_, ?_⟩ <;>
    (refine ⟨by decide, ?_, by decide, by decide⟩; unfold IsDigit; decide)

example : ipToBytes (ascii "1.2.3.256") = [0, 0, 0, 0] := by decide
example : ipToBytes (ascii "::1") = [0, 0, 0, 0] := by decide

end Scouter
