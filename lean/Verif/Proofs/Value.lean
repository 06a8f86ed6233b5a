import Verif.Proofs.ReadAny
import Verif.Spec.Tree
/-! # Value trees round-trip (helper lemmas for C05) -/
namespace Scouter
open Out Spec
open Wire (shown)

namespace In

theorem hugeMarker_eq : hugeMarker = ascii "huge string omitted..." := rfl

theorem encString_eq (s : Bytes) : encString s = encBlob (shown s) := by
  unfold encString shown
  split
  · rw [if_neg (by omega)]; rfl
  · rw [if_pos (by omega)]

theorem readString_enc (s r : Bytes) (h : ReadableLen (shown s).length) :
    readString (encString s ++ r) = .ok (shown s, none, r) := by
  rw [encString_eq]
  exact readBlob_enc _ _ (by have := h.1; omega) h.2

theorem insertKV_assign {α : Type} (k : Bytes) (v : α) (m : List (Bytes × α)) (hm : (m.map Prod.fst).Nodup) :
    insertKV k v m = assign m k v := by
  induction m with
  | nil => simp [insertKV, assign]
  | cons e m ih =>
    obtain ⟨k', v'⟩ := e
    simp only [List.map_cons, List.nodup_cons] at hm
    by_cases h : k' = k
    · subst h
      simp only [insertKV, if_true, assign, List.map_cons, List.mem_cons, true_or]
      congr 1
      rw [List.map_congr_left (g := id)]
      · simp
      · intro e he
        have : e.1 ≠ k' := fun c => hm.1 (c ▸ List.mem_map_of_mem he)
        simp [this]
    · simp only [insertKV, if_neg h, ih hm.2]
      unfold assign
      simp only [List.map_cons, List.mem_cons]
      have h' : ¬ k = k' := fun c => h c.symm
      split <;> rename_i hk
      · rw [if_pos (Or.inr hk)]
      · rw [if_neg (by simp [h', hk])]; rfl

theorem assign_keys_nodup {α : Type} (m : List (Bytes × α)) (k : Bytes) (v : α) (hm : (m.map Prod.fst).Nodup) :
    ((assign m k v).map Prod.fst).Nodup := by
  unfold assign
  split
  · have : (m.map (fun e => if e.1 = k then (k, v) else e)).map Prod.fst = m.map Prod.fst := by
      rw [List.map_map]
      apply List.map_congr_left
      intro e _
      simp only [Function.comp]
      split <;> simp_all
    rw [this]; exact hm
  · next h => 
    rw [List.map_append, List.nodup_append]
    refine ⟨hm, by simp, ?_⟩
    intro a ha b hb
    simp at hb
    subst hb
    intro c
    exact h (c ▸ ha)

mutual
def depth : Value → Nat
  | .list vs => depthL vs + 1
  | .map es => depthM es + 1
  | _ => 1
def depthL : List Value → Nat
  | [] => 0
  | v :: vs => max (depth v) (depthL vs)
def depthM : List (Bytes × Value) → Nat
  | [] => 0
  | (_, v) :: es => max (depth v) (depthM es)
end

theorem toInt_ofNat63 (n : Nat) (h : n < 2 ^ 63) : (BitVec.ofNat 64 n).toInt.toNat = n := by
  rw [BitVec.toInt_eq_toNat_of_lt] <;> simp <;> omega

mutual
theorem readValueF_enc (v : Value) (hv : Readable v) (f : Nat) (hf : depth v ≤ f) (r : Bytes) :
    readValueF f (encValue v ++ r) = .ok (received v, none, r) := by
  cases f with
  | zero => cases v <;> simp [depth] at hf
  | succ f =>
    cases v with
    | goNil => simp [encValue, readValueF_cons, readBody, received]
    | null => simp [encValue, readValueF_cons, readBody, received]
    | bool b => simp [encValue, readValueF_cons, readBody, received]
    | dec b => simp [encValue, readValueF_cons, readBody, received]
    | float b => simp [encValue, readValueF_cons, readBody, received]
    | double b => simp [encValue, readValueF_cons, readBody, received]
    | textHash b => simp [encValue, readValueF_cons, readBody, received]
    | text s =>
      simp only [Readable] at hv
      simp [encValue, readValueF_cons, readBody, received, readString_enc s r hv]
    | blob b =>
      simp only [Readable] at hv
      simp [encValue, readValueF_cons, readBody, received, readBlob_enc b r (by have := hv.1; omega) hv.2]
    | ip4 b => simp [Readable] at hv
    | list vs =>
      simp only [Readable] at hv
      simp only [depth] at hf
      have h := readValues_enc vs hv.2 f (by omega) r none
      simp [encValue, readValueF_cons, readBody, received, toInt_ofNat63 _ hv.1, h]
    | map es =>
      simp only [Readable] at hv
      simp only [depth] at hf
      have h := readEntries_enc es hv.2 f (by omega) r none [] (by simp)
      simp [encValue, readValueF_cons, readBody, received, toInt_ofNat63 _ hv.1, h, lastWins]
theorem readValues_enc (vs : List Value) (hv : ReadableL vs) (f : Nat) (hf : depthL vs ≤ f) (r : Bytes)
    (err : Option Err) (herr : err = none := by rfl) :
    readValues (readValueF f) vs.length (encValues vs ++ r) err = .ok (receivedL vs, none, r) := by
  subst herr
  cases vs with
  | nil => simp [readValues, encValues, receivedL]
  | cons v vs =>
    simp only [ReadableL] at hv
    simp only [depthL] at hf
    have h1 := readValueF_enc v hv.1 f (by omega) (encValues vs ++ r)
    have h2 := readValues_enc vs hv.2 f (by omega) r none
    simp [readValues, encValues, receivedL, h1, h2]
theorem readEntries_enc (es : List (Bytes × Value)) (hv : ReadableM es) (f : Nat) (hf : depthM es ≤ f) (r : Bytes)
    (err : Option Err) (tbl : List (Bytes × Value)) (ht : (tbl.map Prod.fst).Nodup) (herr : err = none := by rfl) :
    readEntries (readValueF f) es.length (encEntries es ++ r) err tbl =
      .ok ((receivedM es).foldl (fun m e => assign m e.1 e.2) tbl, none, r) := by
  subst herr
  cases es with
  | nil => simp [readEntries, encEntries, receivedM]
  | cons e es =>
    obtain ⟨k, v⟩ := e
    simp only [ReadableM] at hv
    simp only [depthM] at hf
    have h0 := readString_enc k (encValue v ++ (encEntries es ++ r)) hv.1
    have h1 := readValueF_enc v hv.2.1 f (by omega) (encEntries es ++ r)
    have h2 := readEntries_enc es hv.2.2 f (by omega) r none (assign tbl (shown k) (received v))
      (assign_keys_nodup _ _ _ ht)
    simp [readEntries, encEntries, receivedM, h0, h1, h2, insertKV_assign _ _ tbl ht]
end

theorem readValue_enc (v : Value) (hv : Readable v) (r : Bytes) :
    readValue (encValue v ++ r) = .ok (received v, none, r) := by
  have h := readValueF_enc v hv (depth v) (Nat.le_refl _) r
  rw [readValue_eq_of (depth v) _ (by rw [h]; simp), h]

theorem readEntries_readValue_enc (es : List (Bytes × Value)) (hv : ReadableM es) (r : Bytes)
    (tbl : List (Bytes × Value)) (ht : (tbl.map Prod.fst).Nodup) :
    readEntries readValue es.length (encEntries es ++ r) none tbl =
      .ok ((receivedM es).foldl (fun m e => assign m e.1 e.2) tbl, none, r) := by
  induction es generalizing tbl with
  | nil => simp [readEntries, encEntries, receivedM]
  | cons e es ih =>
    obtain ⟨k, v⟩ := e
    simp only [ReadableM] at hv
    have h0 := readString_enc k (encValue v ++ (encEntries es ++ r)) hv.1
    have h1 := readValue_enc v hv.2.1 (encEntries es ++ r)
    have h2 := ih hv.2.2 (assign tbl (shown k) (received v)) (assign_keys_nodup _ _ _ ht)
    simp [readEntries, encEntries, receivedM, h0, h1, h2, insertKV_assign _ _ tbl ht]

theorem shown_of_le {s : Bytes} (h : s.length ≤ 100000) : shown s = s := by simp [shown, h]

theorem receivedM_keys (es : List (Bytes × Value)) (h : PlainM es) :
    (receivedM es).map Prod.fst = es.map Prod.fst := by
  induction es with
  | nil => simp [receivedM]
  | cons e es ih =>
    obtain ⟨k, v⟩ := e
    simp only [PlainM] at h
    simp [receivedM, ih h.2.2, shown_of_le h.1]

theorem lastWins_nodup {α : Type} (es : List (Bytes × α)) (h : (es.map Prod.fst).Nodup) : lastWins es = es := by
  have : ∀ (pre : List (Bytes × α)), ((pre ++ es).map Prod.fst).Nodup →
      es.foldl (fun m e => assign m e.1 e.2) pre = pre ++ es := by
    clear h
    induction es with
    | nil => simp
    | cons e es ih =>
      intro pre hn
      rw [List.foldl_cons]
      have hk : e.1 ∉ pre.map Prod.fst := by
        rw [List.map_append, List.nodup_append] at hn
        intro c
        exact hn.2.2 _ c e.1 (by simp) rfl
      have ha : assign pre e.1 e.2 = pre ++ [e] := by
        unfold assign
        rw [if_neg hk]
      rw [ha, ih (pre ++ [e]) (by simpa using hn)]
      simp
  simpa [lastWins] using this [] (by simpa using h)

mutual
theorem received_plain (v : Value) (h : Plain v) : received v = v := by
  cases v with
  | text s => simp only [Plain] at h; simp [received, shown_of_le h]
  | list vs => simp only [Plain] at h; simp [received, receivedL_plain vs h]
  | map es =>
    simp only [Plain] at h
    have := receivedM_plain es h.2
    simp [received, this, lastWins_nodup es h.1]
  | goNil => simp [Plain] at h
  | _ => simp [received]
theorem receivedL_plain (vs : List Value) (h : PlainL vs) : receivedL vs = vs := by
  cases vs with
  | nil => simp [receivedL]
  | cons v vs =>
    simp only [PlainL] at h
    simp [receivedL, received_plain v h.1, receivedL_plain vs h.2]
theorem receivedM_plain (es : List (Bytes × Value)) (h : PlainM es) : receivedM es = es := by
  cases es with
  | nil => simp [receivedM]
  | cons e es =>
    obtain ⟨k, v⟩ := e
    simp only [PlainM] at h
    simp [receivedM, received_plain v h.2.1, receivedM_plain es h.2.2, shown_of_le h.1]
end

theorem encDec_pos (v : BitVec 64) : 1 ≤ (encDec v).length := by
  unfold encDec
  repeat' split
  all_goals simp

mutual
theorem depth_le (v : Value) : depth v ≤ (encValue v).length := by
  cases v with
  | list vs =>
    have := depthL_le vs
    have h0 := encDec_pos (BitVec.ofNat 64 vs.length)
    simp [depth, encValue]; omega
  | map es =>
    have := depthM_le es
    have h0 := encDec_pos (BitVec.ofNat 64 es.length)
    simp [depth, encValue]; omega
  | _ => simp [depth, encValue]
theorem depthL_le (vs : List Value) : depthL vs ≤ (encValues vs).length := by
  cases vs with
  | nil => simp [depthL]
  | cons v vs =>
    have := depthL_le vs
    have := depth_le v
    simp [depthL, encValues]; omega
theorem depthM_le (es : List (Bytes × Value)) : depthM es ≤ (encEntries es).length := by
  cases es with
  | nil => simp [depthM]
  | cons e es =>
    obtain ⟨k, v⟩ := e
    have := depthM_le es
    have := depth_le v
    simp [depthM, encEntries]; omega
end

end In
end Scouter
