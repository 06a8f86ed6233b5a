import Verif.Proofs.In
import Verif.Spec.Input
/-! # Reading arbitrary bytes (helper lemmas for C07) -/
namespace Scouter
open Out Spec

namespace In

theorem readInt8_suffix (s : Bytes) : (readInt8 s).2.2 <:+ s := by
  unfold readInt8; split <;> simp
theorem readInt8_err_none (s : Bytes) (h : s ≠ []) : (readInt8 s).2.2.length + 1 = s.length := by
  cases s <;> simp [readInt8] at *

theorem sfx_drop {a r : Bytes} : r <:+ a ++ r := ⟨a, rfl⟩

theorem readInt16_suffix (s : Bytes) : (readInt16 s).2.2 <:+ s := by
  unfold readInt16; split
  · exact ⟨[_, _], rfl⟩
  · simp
  · simp
theorem readInt32_suffix (s : Bytes) : (readInt32 s).2.2 <:+ s := by
  unfold readInt32; split
  · exact ⟨[_, _, _, _], rfl⟩
  · simp
  · simp
theorem readInt64_suffix (s : Bytes) : (readInt64 s).2.2 <:+ s := by
  unfold readInt64; split
  · exact ⟨[_, _, _, _, _, _, _, _], rfl⟩
  · simp
  · simp
theorem readFloat32_suffix (s : Bytes) : (readFloat32 s).2.2 <:+ s := readInt32_suffix s
theorem readFloat64_suffix (s : Bytes) : (readFloat64 s).2.2 <:+ s := readInt64_suffix s

theorem readBoolean_suffix (s : Bytes) : (readBoolean s).2.2 <:+ s := by
  unfold readBoolean; simp only []; split <;> exact readInt8_suffix s

theorem readDecimal_suffix (s : Bytes) : (readDecimal s).2.2 <:+ s := by
  unfold readDecimal; simp only []
  have h := readInt8_suffix s
  repeat' split
  · exact h
  · exact (readInt8_suffix _).trans h
  · exact (readInt16_suffix _).trans h
  · exact (readInt32_suffix _).trans h
  · exact (readInt64_suffix _).trans h
  · exact h

theorem readN_suffix {n : BitVec 32} {s v e r} (h : readN n s = .ok (v, e, r)) : r <:+ s := by
  unfold readN at h
  split at h
  · simp at h
  · split at h
    · simp at h; rw [h.2.2]; exact List.nil_suffix
    · simp at h; rw [← h.2.2]; exact List.drop_suffix _ _

theorem readN_ne_fuel (n : BitVec 32) (s : Bytes) : readN n s ≠ .fuel := by
  unfold readN; repeat' split
  all_goals simp

theorem readBlob_suffix {s v e r} (h : readBlob s = .ok (v, e, r)) : r <:+ s := by
  unfold readBlob at h; simp only [] at h
  have h0 := readInt8_suffix s
  split at h
  · exact ((readN_suffix h).trans (readInt16_suffix _)).trans h0
  · split at h
    · exact ((readN_suffix h).trans (readInt32_suffix _)).trans h0
    · split at h
      · simp at h; rw [← h.2.2]; exact h0
      · exact (readN_suffix h).trans h0

theorem readBlob_ne_fuel (s : Bytes) : readBlob s ≠ .fuel := by
  unfold readBlob; simp only []
  repeat' split
  · exact readN_ne_fuel _ _
  · exact readN_ne_fuel _ _
  · simp
  · exact readN_ne_fuel _ _

theorem neg_append2 (a b : BitVec 8) (h : (a ++ b).toInt < 0) : 128 ≤ a.toNat := by
  have h1 : (a ++ b).msb = true := by rw [BitVec.msb_eq_toInt]; simpa using h
  simp only [BitVec.msb_append] at h1
  simp at h1
  rw [BitVec.msb_eq_decide] at h1
  simpa using h1

theorem neg_append4 (a b c d : BitVec 8) (h : (a ++ b ++ c ++ d).toInt < 0) : 128 ≤ a.toNat := by
  have h1 : (a ++ b ++ c ++ d).msb = true := by rw [BitVec.msb_eq_toInt]; simpa using h
  simp only [BitVec.msb_append] at h1
  simp at h1
  rw [BitVec.msb_eq_decide] at h1
  simpa using h1

theorem readBlob_cons (x : Byte) (xs : Bytes) : readBlob (x :: xs) =
    if x = 255 then readN ((readInt16 xs).1.signExtend 32) (readInt16 xs).2.2
    else if x = 254 then readN (readInt32 xs).1 (readInt32 xs).2.2
    else if x = 0 then .ok ([], none, xs)
    else readN (x.setWidth 32) xs := rfl

theorem readN_panic {n : BitVec 32} {s} (h : readN n s = .panic) : n.toInt < 0 := by
  unfold readN at h
  split at h
  · assumption
  · split at h <;> simp at h

theorem readBlob_panic {s : Bytes} (h : readBlob s = .panic) : HasNegativeLength s := by
  cases s with
  | nil => simp [readBlob, readInt8] at h
  | cons x xs =>
    rw [readBlob_cons] at h
    split at h
    · next hx =>
      have hn := readN_panic h
      rw [BitVec.toInt_signExtend_of_le (by omega)] at hn
      match xs with
      | a :: b :: r =>
        refine ⟨[], _, rfl, Or.inl ⟨a, b, r, ?_, neg_append2 a b hn⟩⟩
        rw [show x = 255#8 from hx]
      | [] => simp [readInt16] at hn
      | [a] => simp [readInt16] at hn
    · split at h
      · next hx =>
        have hn := readN_panic h
        match xs with
        | a :: b :: c :: d :: r =>
          refine ⟨[], _, rfl, Or.inr ⟨a, b, c, d, r, ?_, neg_append4 a b c d hn⟩⟩
          rw [show x = 254#8 from hx]
        | [] => simp [readInt32] at hn
        | [a] => simp [readInt32] at hn
        | [a, b] => simp [readInt32] at hn
        | [a, b, c] => simp [readInt32] at hn
      · split at h
        · simp at h
        · have hn := readN_panic h
          rw [BitVec.toInt_eq_toNat_of_lt] at hn
          · omega
          · have := x.isLt; simp; omega

@[simp] theorem mapRes_ok {α β : Type} (f : α → β) (v e s) : mapRes f (.ok (v, e, s)) = .ok (f v, e, s) := rfl
@[simp] theorem mapRes_eq_panic {α β : Type} (f : α → β) (x : Go (Res α)) : mapRes f x = .panic ↔ x = .panic := by
  cases x <;> simp [mapRes]
@[simp] theorem mapRes_eq_fuel {α β : Type} (f : α → β) (x : Go (Res α)) : mapRes f x = .fuel ↔ x = .fuel := by
  cases x <;> simp [mapRes]
theorem mapRes_eq_ok {α β : Type} {f : α → β} {x : Go (Res α)} {b e s} (h : mapRes f x = .ok (b, e, s)) :
    ∃ a, x = .ok (a, e, s) ∧ f a = b := by
  cases x <;> simp [mapRes] at h
  case ok a => obtain ⟨a, e', s'⟩ := a; simp at h; exact ⟨a, by simp [h], h.1⟩

theorem readValueF_succ (fuel : Nat) (s : Bytes) :
    readValueF (fuel + 1) s = readBody (readValueF fuel) (readInt8 s).1 (readInt8 s).2.2 := rfl

theorem readValueF_nil (fuel : Nat) : readValueF (fuel + 1) [] = .ok (.null, none, []) := rfl

theorem readValueF_cons (fuel : Nat) (t : Byte) (s : Bytes) :
    readValueF (fuel + 1) (t :: s) = readBody (readValueF fuel) t s := rfl

/-- What reading guarantees about the unread rest. -/
def Sfx {α : Type} (s : Bytes) (x : Go (Res α)) : Prop := ∀ v e r, x = .ok (v, e, r) → r <:+ s

theorem readValues_suffix (rd : Bytes → Go (Res Value)) (hrd : ∀ s, Sfx s (rd s)) :
    ∀ n s err, Sfx s (readValues rd n s err) := by
  intro n
  induction n with
  | zero => intro s err v e r h; simp [readValues] at h; rw [← h.2.2]; exact List.suffix_refl _
  | succ n ih =>
    intro s err v e r h
    simp only [readValues] at h
    cases h1 : rd s with
    | panic => simp [h1] at h
    | fuel => simp [h1] at h
    | ok a =>
      obtain ⟨v1, e1, s1⟩ := a
      simp only [h1] at h
      cases h2 : readValues rd n s1 e1 with
      | panic => simp [h2] at h
      | fuel => simp [h2] at h
      | ok b =>
        obtain ⟨v2, e2, s2⟩ := b
        simp [h2] at h
        rw [← h.2.2]
        exact (ih s1 e1 _ _ _ h2).trans (hrd s _ _ _ h1)

theorem readEntries_suffix (rd : Bytes → Go (Res Value)) (hrd : ∀ s, Sfx s (rd s)) :
    ∀ n s err tbl, Sfx s (readEntries rd n s err tbl) := by
  intro n
  induction n with
  | zero => intro s err tbl v e r h; simp [readEntries] at h; rw [← h.2.2]; exact List.suffix_refl _
  | succ n ih =>
    intro s err tbl v e r h
    simp only [readEntries] at h
    cases h0 : readString s with
    | panic => simp [h0] at h
    | fuel => simp [h0] at h
    | ok a0 =>
      obtain ⟨k, e0, s0⟩ := a0
      simp only [h0] at h
      cases h1 : rd s0 with
      | panic => simp [h1] at h
      | fuel => simp [h1] at h
      | ok a =>
        obtain ⟨v1, e1, s1⟩ := a
        simp only [h1] at h
        exact ((ih s1 e1 _ _ _ _ h).trans (hrd s0 _ _ _ h1)).trans (readBlob_suffix h0)

theorem readBody_suffix (rd : Bytes → Go (Res Value)) (ih : ∀ s, Sfx s (rd s)) (t : Byte) (s : Bytes) :
    Sfx s (readBody rd t s) := by
  intro v e r h
  unfold readBody at h
  repeat' split at h
  · simp at h; simp [h.2.2]
  · obtain ⟨a, ha, _⟩ := mapRes_eq_ok h; have := readBoolean_suffix s; simp at ha; rw [ha] at this; exact this
  · obtain ⟨a, ha, _⟩ := mapRes_eq_ok h; have := readDecimal_suffix s; simp at ha; rw [ha] at this; exact this
  · obtain ⟨a, ha, _⟩ := mapRes_eq_ok h; have := readFloat32_suffix s; simp at ha; rw [ha] at this; exact this
  · obtain ⟨a, ha, _⟩ := mapRes_eq_ok h; have := readFloat64_suffix s; simp at ha; rw [ha] at this; exact this
  · obtain ⟨a, ha, _⟩ := mapRes_eq_ok h; exact readBlob_suffix ha
  · obtain ⟨a, ha, _⟩ := mapRes_eq_ok h; have := readInt32_suffix s; simp at ha; rw [ha] at this; exact this
  · obtain ⟨a, ha, _⟩ := mapRes_eq_ok h; exact readBlob_suffix ha
  · obtain ⟨a, ha, _⟩ := mapRes_eq_ok h; exact readBlob_suffix ha
  · obtain ⟨a, ha, _⟩ := mapRes_eq_ok h
    exact (readValues_suffix _ ih _ _ _ _ _ _ ha).trans (readDecimal_suffix s)
  · obtain ⟨a, ha, _⟩ := mapRes_eq_ok h
    exact (readEntries_suffix _ ih _ _ _ _ _ _ _ ha).trans (readDecimal_suffix s)
  · simp at h; simp [h.2.2]

theorem readValueF_suffix (fuel : Nat) : ∀ s, Sfx s (readValueF fuel s) := by
  induction fuel with
  | zero => intro s v e r h; simp [readValueF] at h
  | succ fuel ih =>
    intro s v e r h
    rw [readValueF_succ] at h
    exact (readBody_suffix _ ih _ _ _ _ _ h).trans (readInt8_suffix s)

theorem readValues_ne_fuel (rd : Bytes → Go (Res Value)) (hrd : ∀ s, Sfx s (rd s)) (L : Nat)
    (hf : ∀ s : Bytes, s.length < L → rd s ≠ .fuel) :
    ∀ n s err, s.length < L → readValues rd n s err ≠ .fuel := by
  intro n
  induction n with
  | zero => intro s err _; simp [readValues]
  | succ n ih =>
    intro s err hs
    simp only [readValues]
    cases h1 : rd s with
    | panic => simp
    | fuel => exact absurd h1 (hf s hs)
    | ok a =>
      obtain ⟨v1, e1, s1⟩ := a
      have := (hrd s _ _ _ h1).length_le
      cases h2 : readValues rd n s1 e1 with
      | panic => simp [h2]
      | fuel => exact absurd h2 (ih s1 e1 (by omega))
      | ok b => simp [h2]

theorem readEntries_ne_fuel (rd : Bytes → Go (Res Value)) (hrd : ∀ s, Sfx s (rd s)) (L : Nat)
    (hf : ∀ s : Bytes, s.length < L → rd s ≠ .fuel) :
    ∀ n s err tbl, s.length < L → readEntries rd n s err tbl ≠ .fuel := by
  intro n
  induction n with
  | zero => intro s err tbl _; simp [readEntries]
  | succ n ih =>
    intro s err tbl hs
    simp only [readEntries]
    cases h0 : readString s with
    | panic => simp
    | fuel => exact absurd h0 (readBlob_ne_fuel s)
    | ok a0 =>
      obtain ⟨k, e0, s0⟩ := a0
      have l0 := (readBlob_suffix h0).length_le
      cases h1 : rd s0 with
      | panic => simp [h1]
      | fuel => exact absurd h1 (hf s0 (by omega))
      | ok a =>
        obtain ⟨v1, e1, s1⟩ := a
        have := (hrd s0 _ _ _ h1).length_le
        simp only [h1]
        exact ih s1 e1 _ (by omega)

theorem readBody_ne_fuel (rd : Bytes → Go (Res Value)) (hrd : ∀ s, Sfx s (rd s)) (L : Nat)
    (hf : ∀ s : Bytes, s.length < L → rd s ≠ .fuel) (t : Byte) (s : Bytes) (hs : s.length < L) :
    readBody rd t s ≠ .fuel := by
  have hd := (readDecimal_suffix s).length_le
  intro h
  unfold readBody at h
  repeat' split at h
  all_goals try simp only [mapRes_eq_fuel, reduceCtorEq] at h
  · exact readBlob_ne_fuel s h
  · exact readBlob_ne_fuel s h
  · exact readBlob_ne_fuel s h
  · exact readValues_ne_fuel _ hrd L hf _ _ _ (by omega) h
  · exact readEntries_ne_fuel _ hrd L hf _ _ _ _ (by omega) h

theorem readValueF_ne_fuel (fuel : Nat) : ∀ s : Bytes, s.length < fuel → readValueF fuel s ≠ .fuel := by
  induction fuel with
  | zero => intro s h; omega
  | succ fuel ih =>
    intro s hs
    cases s with
    | nil => rw [readValueF_nil]; simp
    | cons t s =>
      simp at hs
      rw [readValueF_cons]
      exact readBody_ne_fuel _ (readValueF_suffix fuel) fuel ih t s hs

theorem readValues_mono (rd rd' : Bytes → Go (Res Value)) (h : ∀ s, rd s ≠ .fuel → rd' s = rd s) :
    ∀ n s err, readValues rd n s err ≠ .fuel → readValues rd' n s err = readValues rd n s err := by
  intro n
  induction n with
  | zero => intro s err _; rfl
  | succ n ih =>
    intro s err hne
    simp only [readValues] at hne ⊢
    cases h1 : rd s with
    | panic => rw [h s (by simp [h1]), h1]
    | fuel => simp [h1] at hne
    | ok a =>
      obtain ⟨v1, e1, s1⟩ := a
      rw [h s (by simp [h1]), h1]
      simp only [h1] at hne ⊢
      rw [ih]
      intro c
      simp [c] at hne

theorem readEntries_mono (rd rd' : Bytes → Go (Res Value)) (h : ∀ s, rd s ≠ .fuel → rd' s = rd s) :
    ∀ n s err tbl, readEntries rd n s err tbl ≠ .fuel → readEntries rd' n s err tbl = readEntries rd n s err tbl := by
  intro n
  induction n with
  | zero => intro s err tbl _; rfl
  | succ n ih =>
    intro s err tbl hne
    simp only [readEntries] at hne ⊢
    cases h0 : readString s with
    | panic => rfl
    | fuel => rfl
    | ok a0 =>
      obtain ⟨k, e0, s0⟩ := a0
      simp only [h0] at hne ⊢
      cases h1 : rd s0 with
      | panic => rw [h s0 (by simp [h1]), h1]
      | fuel => simp [h1] at hne
      | ok a =>
        obtain ⟨v1, e1, s1⟩ := a
        rw [h s0 (by simp [h1]), h1]
        simp only [h1] at hne ⊢
        exact ih _ _ _ hne

theorem readBody_mono (rd rd' : Bytes → Go (Res Value)) (ih : ∀ s, rd s ≠ .fuel → rd' s = rd s) (t : Byte) (s : Bytes)
    (h : readBody rd t s ≠ .fuel) : readBody rd' t s = readBody rd t s := by
  by_cases a : t = 70
  · subst a
    change mapRes _ _ ≠ _ at h
    change mapRes _ _ = mapRes _ _
    rw [readValues_mono _ _ ih]
    intro c; simp [c] at h
  · by_cases b : t = 80
    · subst b
      change mapRes _ _ ≠ _ at h
      change mapRes _ _ = mapRes _ _
      rw [readEntries_mono _ _ ih]
      intro c; simp [c] at h
    · simp only [readBody, if_neg a, if_neg b]

theorem readValueF_mono1 (fuel : Nat) : ∀ s, readValueF fuel s ≠ .fuel → readValueF (fuel + 1) s = readValueF fuel s := by
  induction fuel with
  | zero => intro s h; simp [readValueF] at h
  | succ fuel ih =>
    intro s h
    cases s with
    | nil => rfl
    | cons t s =>
      rw [readValueF_cons] at h
      rw [readValueF_cons, readValueF_cons fuel]
      exact readBody_mono _ _ ih t s h

theorem readValueF_mono {f f' : Nat} (hf : f ≤ f') (s : Bytes) (h : readValueF f s ≠ .fuel) :
    readValueF f' s = readValueF f s := by
  induction f' with
  | zero => have : f = 0 := by omega
            rw [this]
  | succ f' ih =>
    by_cases e : f = f' + 1
    · rw [e]
    · have h1 := ih (by omega)
      rw [readValueF_mono1 f' s (by rw [h1]; exact h), h1]

/-- A result obtained with any amount of fuel is the result of `readValue`. -/
theorem readValue_eq_of (f : Nat) (s : Bytes) (h : readValueF f s ≠ .fuel) : readValue s = readValueF f s := by
  unfold readValue
  have h2 := readValueF_ne_fuel (s.length + 1) s (by omega)
  rcases Nat.le_total f (s.length + 1) with c | c
  · exact readValueF_mono c s h
  · exact (readValueF_mono c s h2).symm

theorem HasNegativeLength.mono {s r : Bytes} (h : r <:+ s) (hr : HasNegativeLength r) : HasNegativeLength s := by
  obtain ⟨p, rfl⟩ := h
  obtain ⟨pre, post, rfl, hh⟩ := hr
  exact ⟨p ++ pre, post, by simp, hh⟩

theorem readValues_panic (rd : Bytes → Go (Res Value)) (hrd : ∀ s, Sfx s (rd s))
    (hp : ∀ s, rd s = .panic → HasNegativeLength s) :
    ∀ n s err, readValues rd n s err = .panic → HasNegativeLength s := by
  intro n
  induction n with
  | zero => intro s err h; simp [readValues] at h
  | succ n ih =>
    intro s err h
    simp only [readValues] at h
    cases h1 : rd s with
    | panic => exact hp s h1
    | fuel => simp [h1] at h
    | ok a =>
      obtain ⟨v1, e1, s1⟩ := a
      simp only [h1] at h
      cases h2 : readValues rd n s1 e1 with
      | panic => exact HasNegativeLength.mono (hrd s _ _ _ h1) (ih s1 e1 h2)
      | fuel => simp [h2] at h
      | ok b => simp [h2] at h

theorem readEntries_panic (rd : Bytes → Go (Res Value)) (hrd : ∀ s, Sfx s (rd s))
    (hp : ∀ s, rd s = .panic → HasNegativeLength s) :
    ∀ n s err tbl, readEntries rd n s err tbl = .panic → HasNegativeLength s := by
  intro n
  induction n with
  | zero => intro s err tbl h; simp [readEntries] at h
  | succ n ih =>
    intro s err tbl h
    simp only [readEntries] at h
    cases h0 : readString s with
    | panic => exact readBlob_panic h0
    | fuel => simp [h0] at h
    | ok a0 =>
      obtain ⟨k, e0, s0⟩ := a0
      simp only [h0] at h
      have l0 := readBlob_suffix h0
      cases h1 : rd s0 with
      | panic => exact HasNegativeLength.mono l0 (hp s0 h1)
      | fuel => simp [h1] at h
      | ok a =>
        obtain ⟨v1, e1, s1⟩ := a
        simp only [h1] at h
        exact HasNegativeLength.mono ((hrd s0 _ _ _ h1).trans l0) (ih _ _ _ h)

theorem readBody_panic (rd : Bytes → Go (Res Value)) (hrd : ∀ s, Sfx s (rd s))
    (hp : ∀ s, rd s = .panic → HasNegativeLength s) (t : Byte) (s : Bytes) (h : readBody rd t s = .panic) :
    HasNegativeLength s := by
  unfold readBody at h
  repeat' split at h
  all_goals try simp only [mapRes_eq_panic, reduceCtorEq] at h
  · exact readBlob_panic h
  · exact readBlob_panic h
  · exact readBlob_panic h
  · exact HasNegativeLength.mono (readDecimal_suffix s) (readValues_panic _ hrd hp _ _ _ h)
  · exact HasNegativeLength.mono (readDecimal_suffix s) (readEntries_panic _ hrd hp _ _ _ _ h)

theorem readValueF_panic (fuel : Nat) : ∀ s, readValueF fuel s = .panic → HasNegativeLength s := by
  induction fuel with
  | zero => intro s h; simp [readValueF] at h
  | succ fuel ih =>
    intro s h
    rw [readValueF_succ] at h
    exact HasNegativeLength.mono (readInt8_suffix s) (readBody_panic _ (readValueF_suffix fuel) ih _ _ h)

end In
end Scouter
