import Verif.Model.MapAccess
/-! # C15: typed access to maps -/
namespace Scouter

namespace Spec
/-- What a Put argument means. -/
inductive Kind where
  | num (n : Int)
  | text (s : Bytes)
  | bool (b : Bool)
  | float (bits : BitVec 32)
  | val (v : Value)

/-- The meaning of a value object passed to Put (nil means nothing). -/
def valueKind : Value → Option Kind
  | .goNil => none
  | .dec v => some (.num v.toInt)
  | .text s => some (.text s)
  | .bool b => some (.bool b)
  | .float v => some (.float v)
  | v => some (.val v)

/-- Which arguments a map pack stores, and as what: every integer type but the 8 and 16 bit ones; no float64. -/
def mapPackKind : Any → Option Kind
  | .string s => some (.text s)
  | .int32 v => some (.num v.toInt)
  | .int64 v => some (.num v.toInt)
  | .int v => some (.num v.toInt)
  | .uint32 v => some (.num v.toNat)
  | .uint64 v => some (.num v.toNat)
  | .uint v => some (.num v.toNat)
  | .bool b => some (.bool b)
  | .float32 v => some (.float v)
  | .float64 _ => none
  | .value v => valueKind v
  | .other => none

/-- Which arguments a map value stores: of the integers only int64. -/
def mapValueKind : Any → Option Kind
  | .string s => some (.text s)
  | .int64 v => some (.num v.toInt)
  | .bool b => some (.bool b)
  | .float32 v => some (.float v)
  | .value v => valueKind v
  | _ => none

/-- Which arguments a counter pack stores: all but uint and unknown types; float64 is narrowed. -/
def counterKind (narrow : BitVec 64 → BitVec 32) : Any → Option Kind
  | .float64 v => some (.float (narrow v))
  | .uint _ => none
  | a => mapPackKind a

/-- Which arguments a K8S counter pack stores: no unsigned types and no value objects. -/
def counterK8SKind (narrow : BitVec 64 → BitVec 32) : Any → Option Kind
  | .float64 v => some (.float (narrow v))
  | .uint _ => none
  | .uint32 _ => none
  | .uint64 _ => none
  | .value _ => none
  | a => mapPackKind a

/-- The last supported thing put under a key. -/
def lastPut (kind : Any → Option Kind) (ops : List (Bytes × Any)) (key : Bytes) : Option Kind :=
  (ops.filterMap fun e => if e.1 = key then kind e.2 else none).getLast?

/-- What the typed getters of a table are expected to answer for a key. -/
def Answers (t : Table) (key : Bytes) (k : Option Kind) : Prop :=
  t.containsKey key = k.isSome ∧
  t.getInt64 key = (match k with | some (.num n) => BitVec.ofInt 64 n | _ => 0) ∧
  t.getInt32 key = (match k with | some (.num n) => BitVec.ofInt 32 n | _ => 0) ∧
  t.getInt16 key = (match k with | some (.num n) => BitVec.ofInt 16 n | _ => 0) ∧
  t.getInt8 key = (match k with | some (.num n) => BitVec.ofInt 8 n | _ => 0) ∧
  t.getString key = (match k with | some (.text s) => s | _ => []) ∧
  t.getBoolean key = (match k with | some (.bool b) => b | _ => false)
end Spec
open Spec

theorem get_insertKV (t : Table) (k key : Bytes) (v : Value) :
    Table.get (insertKV k v t) key = if k = key then v else t.get key := by
  induction t with
  | nil => simp [insertKV, Table.get]
  | cons e t ih =>
    obtain ⟨k', v'⟩ := e
    simp only [insertKV]
    split
    · next h => subst h; simp only [Table.get]; split <;> rfl
    · next h =>
      simp only [Table.get, ih]
      split
      · next h2 => subst h2; rw [if_neg]; exact fun c => h c.symm
      · rfl

theorem beqDec (a b : Bytes) : (a == b) = decide (a = b) := by
  rw [Bool.eq_iff_iff]; simp

theorem containsKey_insertKV (t : Table) (k key : Bytes) (v : Value) :
    Table.containsKey (insertKV k v t) key = (decide (k = key) || t.containsKey key) := by
  induction t with
  | nil => simp only [insertKV, Table.containsKey, List.any_cons, List.any_nil, beqDec]
  | cons e t ih =>
    obtain ⟨k', v'⟩ := e
    simp only [insertKV]
    split
    · next h =>
      subst h
      simp only [Table.containsKey, List.any_cons, beqDec]
      cases decide (k' = key) <;> rfl
    · next h =>
      simp only [Table.containsKey, List.any_cons] at ih ⊢
      rw [ih, beqDec]
      cases decide (k' = key) <;> cases decide (k = key) <;> rfl

/-- The value a `Put` of this kind is expected to store. -/
def Means (v : Value) (k : Kind) : Prop :=
  match k with
  | .num n => ∃ x, v = .dec x ∧ x = BitVec.ofInt 64 n
  | .text s => v = .text s
  | .bool b => v = .bool b
  | .float f => v = .float f
  | .val w => v = w ∧ (∀ x, w ≠ .dec x) ∧ (∀ x, w ≠ .text x) ∧ (∀ x, w ≠ .bool x) ∧ w ≠ .goNil

/-- Table and expectation agree. -/
def Agree (t : Table) (key : Bytes) (k : Option Kind) : Prop :=
  t.containsKey key = k.isSome ∧
  match k with
  | none => t.get key = .goNil
  | some k => Means (t.get key) k

theorem setWidth_ofInt {w : Nat} (h : w ≤ 64) (n : Int) : (BitVec.ofInt 64 n).setWidth w = BitVec.ofInt w n := by
  apply BitVec.eq_of_toNat_eq
  simp only [BitVec.toNat_setWidth, BitVec.toNat_ofInt]
  have h1 : (2 : Int) ^ w ∣ 2 ^ 64 := ⟨2 ^ (64 - w), by rw [← Int.pow_add]; congr 1; omega⟩
  apply Int.ofNat_inj.mp
  rw [Int.natCast_emod]
  have p64 : ((2 ^ 64 : Nat) : Int) ≠ 0 := by simp
  have pw : ((2 ^ w : Nat) : Int) ≠ 0 := by
    have := Nat.two_pow_pos w
    omega
  rw [Int.toNat_of_nonneg (Int.emod_nonneg _ p64), Int.toNat_of_nonneg (Int.emod_nonneg _ pw)]
  rw [Int.emod_emod_of_dvd]
  simpa using h1

theorem Agree.answers {t : Table} {key : Bytes} {k : Option Kind} (h : Agree t key k) : Answers t key k := by
  obtain ⟨h1, h2⟩ := h
  refine ⟨h1, ?_⟩
  cases k with
  | none =>
    simp only at h2
    simp [Table.getInt64, Table.getInt32, Table.getInt16, Table.getInt8, Table.getString, Table.getBoolean, h2]
  | some k =>
    simp only at h2
    cases k with
    | num n =>
      obtain ⟨x, hx, rfl⟩ := h2
      simp only [Table.getInt64, Table.getInt32, Table.getInt16, Table.getInt8, Table.getString, Table.getBoolean, hx]
      exact ⟨trivial, setWidth_ofInt (by omega) n, setWidth_ofInt (by omega) n, setWidth_ofInt (by omega) n, trivial,
        trivial⟩
    | val w =>
      obtain ⟨h2, h3, h4, h5, h6⟩ := h2
      simp only [Table.getInt64, Table.getInt32, Table.getInt16, Table.getInt8, Table.getString, Table.getBoolean, h2]
      cases w <;> simp_all
    | _ =>
      simp only [Means] at h2
      simp [Table.getInt64, Table.getInt32, Table.getInt16, Table.getInt8, Table.getString, Table.getBoolean, h2]

/-- One put function implements one kind function. -/
def Implements (put : Table → Bytes → Any → Table) (kind : Any → Option Kind) : Prop :=
  ∀ a, (kind a = none ∧ ∀ t k, put t k a = t) ∨
    ∃ v kd, kind a = some kd ∧ Means v kd ∧ ∀ t k, put t k a = insertKV k v t

theorem puts_answer {put : Table → Bytes → Any → Table} {kind : Any → Option Kind} (hi : Implements put kind)
    (ops : List (Bytes × Any)) (key : Bytes) :
    Answers (ops.foldl (fun t e => put t e.1 e.2) []) key (lastPut kind ops key) := by
  apply Agree.answers
  have : ∀ (pre : List (Bytes × Any)) t, Agree t key (lastPut kind pre key) →
      Agree (ops.foldl (fun t e => put t e.1 e.2) t) key (lastPut kind (pre ++ ops) key) := by
    induction ops with
    | nil => intro pre t h; simpa using h
    | cons e ops ih =>
      intro pre t h
      rw [List.foldl_cons, show pre ++ e :: ops = (pre ++ [e]) ++ ops by simp]
      apply ih
      rcases hi e.2 with ⟨hk, hp⟩ | ⟨v, kd, hk, hm, hp⟩
      · rw [hp]
        have : lastPut kind (pre ++ [e]) key = lastPut kind pre key := by
          simp [lastPut, List.filterMap_append, hk]
        rwa [this]
      · rw [hp]
        by_cases hkey : e.1 = key
        · have : lastPut kind (pre ++ [e]) key = some kd := by
            simp [lastPut, List.filterMap_append, hk, hkey]
          rw [this]
          refine ⟨by rw [containsKey_insertKV]; simp [hkey], ?_⟩
          simp only [get_insertKV, if_pos hkey]
          exact hm
        · have : lastPut kind (pre ++ [e]) key = lastPut kind pre key := by
            simp [lastPut, List.filterMap_append, hkey]
          rw [this]
          obtain ⟨h1, h2⟩ := h
          refine ⟨by rw [containsKey_insertKV]; simp [hkey, h1], ?_⟩
          rw [get_insertKV, if_neg hkey]
          exact h2
  exact this [] [] ⟨by rfl, by rfl⟩

theorem ofInt_toInt_signExtend (v : BitVec 32) : v.signExtend 64 = BitVec.ofInt 64 v.toInt := rfl
theorem ofInt_setWidth (v : BitVec 32) : v.setWidth 64 = BitVec.ofInt 64 v.toNat := by
  apply BitVec.eq_of_toNat_eq
  have := v.isLt
  simp

theorem value_implements (v : Value) : (valueKind v = none ∧ v = .goNil) ∨
    ∃ kd, valueKind v = some kd ∧ Means v kd ∧ v ≠ .goNil := by
  cases v <;> simp [valueKind, Means]

theorem mapPack_implements : Implements MapPack.put mapPackKind := by
  intro a
  cases a with
  | value v =>
    rcases value_implements v with ⟨h, rfl⟩ | ⟨kd, h, hm, hn⟩
    · exact Or.inl ⟨h, fun _ _ => rfl⟩
    · refine Or.inr ⟨v, kd, h, hm, fun t k => ?_⟩
      cases v <;> first | rfl | exact absurd rfl hn
  | float64 v => exact Or.inl ⟨rfl, fun _ _ => rfl⟩
  | other => exact Or.inl ⟨rfl, fun _ _ => rfl⟩
  | string s => exact Or.inr ⟨_, _, rfl, rfl, fun _ _ => rfl⟩
  | bool s => exact Or.inr ⟨_, _, rfl, rfl, fun _ _ => rfl⟩
  | float32 s => exact Or.inr ⟨_, _, rfl, rfl, fun _ _ => rfl⟩
  | int32 v => exact Or.inr ⟨_, _, rfl, ⟨_, rfl, ofInt_toInt_signExtend v⟩, fun _ _ => rfl⟩
  | uint32 v => exact Or.inr ⟨_, _, rfl, ⟨_, rfl, ofInt_setWidth v⟩, fun _ _ => rfl⟩
  | int64 v => exact Or.inr ⟨_, _, rfl, ⟨v, rfl, by simp⟩, fun _ _ => rfl⟩
  | int v => exact Or.inr ⟨_, _, rfl, ⟨v, rfl, by simp⟩, fun _ _ => rfl⟩
  | uint64 v => exact Or.inr ⟨_, _, rfl, ⟨v, rfl, by simp⟩, fun _ _ => rfl⟩
  | uint v => exact Or.inr ⟨_, _, rfl, ⟨v, rfl, by simp⟩, fun _ _ => rfl⟩

theorem mapValue_implements : Implements MapValue.put mapValueKind := by
  intro a
  cases a with
  | value v =>
    rcases value_implements v with ⟨h, rfl⟩ | ⟨kd, h, hm, hn⟩
    · exact Or.inl ⟨h, fun _ _ => rfl⟩
    · refine Or.inr ⟨v, kd, h, hm, fun t k => ?_⟩
      cases v <;> first | rfl | exact absurd rfl hn
  | string s => exact Or.inr ⟨_, _, rfl, rfl, fun _ _ => rfl⟩
  | bool s => exact Or.inr ⟨_, _, rfl, rfl, fun _ _ => rfl⟩
  | float32 s => exact Or.inr ⟨_, _, rfl, rfl, fun _ _ => rfl⟩
  | int64 v => exact Or.inr ⟨_, _, rfl, ⟨v, rfl, by simp⟩, fun _ _ => rfl⟩
  | _ => exact Or.inl ⟨rfl, fun _ _ => rfl⟩

theorem counter_implements (narrow : BitVec 64 → BitVec 32) :
    Implements (PerfCounterPack.put narrow) (counterKind narrow) := by
  intro a
  cases a with
  | value v =>
    rcases value_implements v with ⟨h, rfl⟩ | ⟨kd, h, hm, hn⟩
    · exact Or.inl ⟨h, fun _ _ => rfl⟩
    · refine Or.inr ⟨v, kd, h, hm, fun t k => ?_⟩
      cases v <;> first | rfl | exact absurd rfl hn
  | string s => exact Or.inr ⟨_, _, rfl, rfl, fun _ _ => rfl⟩
  | bool s => exact Or.inr ⟨_, _, rfl, rfl, fun _ _ => rfl⟩
  | float32 s => exact Or.inr ⟨_, _, rfl, rfl, fun _ _ => rfl⟩
  | float64 s => exact Or.inr ⟨_, _, rfl, rfl, fun _ _ => rfl⟩
  | int32 v => exact Or.inr ⟨_, _, rfl, ⟨_, rfl, ofInt_toInt_signExtend v⟩, fun _ _ => rfl⟩
  | uint32 v => exact Or.inr ⟨_, _, rfl, ⟨_, rfl, ofInt_setWidth v⟩, fun _ _ => rfl⟩
  | int64 v => exact Or.inr ⟨_, _, rfl, ⟨v, rfl, by simp⟩, fun _ _ => rfl⟩
  | int v => exact Or.inr ⟨_, _, rfl, ⟨v, rfl, by simp⟩, fun _ _ => rfl⟩
  | uint64 v => exact Or.inr ⟨_, _, rfl, ⟨v, rfl, by simp⟩, fun _ _ => rfl⟩
  | _ => exact Or.inl ⟨rfl, fun _ _ => rfl⟩

theorem counterK8S_implements (narrow : BitVec 64 → BitVec 32) :
    Implements (PerfCounterK8SPack.put narrow) (counterK8SKind narrow) := by
  intro a
  cases a with
  | string s => exact Or.inr ⟨_, _, rfl, rfl, fun _ _ => rfl⟩
  | bool s => exact Or.inr ⟨_, _, rfl, rfl, fun _ _ => rfl⟩
  | float32 s => exact Or.inr ⟨_, _, rfl, rfl, fun _ _ => rfl⟩
  | float64 s => exact Or.inr ⟨_, _, rfl, rfl, fun _ _ => rfl⟩
  | int32 v => exact Or.inr ⟨_, _, rfl, ⟨_, rfl, ofInt_toInt_signExtend v⟩, fun _ _ => rfl⟩
  | int64 v => exact Or.inr ⟨_, _, rfl, ⟨v, rfl, by simp⟩, fun _ _ => rfl⟩
  | int v => exact Or.inr ⟨_, _, rfl, ⟨v, rfl, by simp⟩, fun _ _ => rfl⟩
  | _ => exact Or.inl ⟨rfl, fun _ _ => rfl⟩

/-- C15: after any sequence of Puts on a new map pack, the typed getters answer for the last supported Put under the
key: matching types give the value (numbers truncated to the requested width), other types the zero value. -/
theorem C15_map_pack_get (ops : List (Bytes × Any)) (key : Bytes) :
    Answers (ops.foldl (fun t e => MapPack.put t e.1 e.2) []) key (lastPut mapPackKind ops key) :=
  puts_answer mapPack_implements ops key

/-- C15: the same for map values, which store fewer types. -/
theorem C15_map_value_get (ops : List (Bytes × Any)) (key : Bytes) :
    Answers (ops.foldl (fun t e => MapValue.put t e.1 e.2) []) key (lastPut mapValueKind ops key) :=
  puts_answer mapValue_implements ops key

/-- C15: the same for the data of counter packs and K8S counter packs. -/
theorem C15_counter_pack_get (narrow : BitVec 64 → BitVec 32) (ops : List (Bytes × Any)) (key : Bytes) :
    Answers (ops.foldl (fun t e => PerfCounterPack.put narrow t e.1 e.2) []) key
      (lastPut (counterKind narrow) ops key) ∧
    Answers (ops.foldl (fun t e => PerfCounterK8SPack.put narrow t e.1 e.2) []) key
      (lastPut (counterK8SKind narrow) ops key) :=
  ⟨puts_answer (counter_implements narrow) ops key, puts_answer (counterK8S_implements narrow) ops key⟩

/-- C15: a Put of an unsupported type changes nothing at all. -/
theorem C15_unsupported_put (t : Table) (key : Bytes) (a : Any) :
    (mapPackKind a = none → MapPack.put t key a = t) ∧ (mapValueKind a = none → MapValue.put t key a = t) := by
  constructor
  · intro h
    rcases mapPack_implements a with ⟨_, hp⟩ | ⟨_, _, hk, _⟩
    · exact hp t key
    · rw [h] at hk; cases hk
  · intro h
    rcases mapValue_implements a with ⟨_, hp⟩ | ⟨_, _, hk, _⟩
    · exact hp t key
    · rw [h] at hk; cases hk

/-- C15: in particular `SetStatus`, which passes a plain int to a map value, never changes an object. -/
theorem C15_setStatus_does_nothing (p : ObjectPack) (status : BitVec 64) : p.setStatus status = p := rfl

example : Answers ([(ascii "a", Any.int32 300), (ascii "b", .string (ascii "x")), (ascii "a", .float64 1),
    (ascii "a", .int (-2)), (ascii "c", .bool true)].foldl (fun t e => MapPack.put t e.1 e.2) []) (ascii "a")
    (some (.num (-2))) := C15_map_pack_get _ _
example : Table.getInt8 (MapPack.put [] (ascii "a") (.int32 300)) (ascii "a") = 44 := by decide

end Scouter
