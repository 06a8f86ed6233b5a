import Verif.Model.ListAccess
import Verif.Props.MapAccess
import Verif.Props.Values
import Verif.Props.Packs
/-! # C88: typed access to lists -/
namespace Scouter
namespace Spec

/-- What was appended. -/
def addKind : ListAdd → Option Kind
  | .int64 v => some (.num v.toInt)
  | .int32 v => some (.num v.toInt)
  | .float v => some (.float v)
  | .string s => some (.text s)
  | .bool b => some (.bool b)
  | .value v => valueKind v

/-- What the typed getters of a list are expected to answer for a position: for the right type the value (numbers cut to the width asked
for), for any other type the zero value. -/
def ListAnswers (l : List Value) (i : Nat) (k : Option Kind) : Prop :=
  ListValue.getInt64 l i = .ok (match k with | some (.num n) => BitVec.ofInt 64 n | _ => 0) ∧
  ListValue.getInt32 l i = .ok (match k with | some (.num n) => BitVec.ofInt 32 n | _ => 0) ∧
  ListValue.getFloat l i = .ok (match k with | some (.float b) => b | _ => 0) ∧
  ListValue.getString l i = .ok (match k with | some (.text s) => s | _ => []) ∧
  ListValue.getBoolean l i = .ok (match k with | some (.bool b) => b | _ => false)

/-- Every getter panics. -/
def ListPanics (l : List Value) (i : Int) : Prop :=
  ListValue.getInt64 l i = .panic ∧ ListValue.getInt32 l i = .panic ∧ ListValue.getFloat l i = .panic ∧
  ListValue.getString l i = .panic ∧ ListValue.getBoolean l i = .panic

end Spec
open Spec Out In

namespace ListValue

/-- The value appended by a call. -/
def added : ListAdd → Value
  | .int64 v => .dec v
  | .int32 v => .dec (v.signExtend 64)
  | .float v => .float v
  | .string s => .text s
  | .bool b => .bool b
  | .value v => v

theorem add_eq (l : List Value) (a : ListAdd) : add l a = l ++ [added a] := by cases a <;> rfl

theorem foldl_add (as : List ListAdd) (l : List Value) : as.foldl add l = l ++ as.map added := by
  induction as generalizing l with
  | nil => simp
  | cons a as ih => rw [List.foldl_cons, ih, add_eq]; simp

theorem ofInt_toInt_setWidth (v : BitVec 64) : v.setWidth 32 = BitVec.ofInt 32 v.toInt := by
  apply BitVec.eq_of_toInt_eq
  rw [BitVec.toInt_ofInt, BitVec.toInt_eq_toNat_bmod, BitVec.toNat_setWidth, BitVec.toInt_eq_toNat_bmod]
  have := v.isLt
  simp only [Int.bmod]
  omega

theorem setWidth_signExtend (v : BitVec 32) : (v.signExtend 64).setWidth 32 = v := by
  rw [ofInt_toInt_setWidth, BitVec.toInt_signExtend_of_le (by omega), BitVec.ofInt_toInt]

theorem at_ok {l : List Value} {i : Nat} {v : Value} (h : l[i]? = some v) : at' l i = .ok v := by
  unfold at'
  rw [if_neg (by omega)]
  simp [h]

theorem answers_of {l : List Value} {i : Nat} {a : ListAdd} (h : l[i]? = some (added a)) : ListAnswers l i (addKind a) := by
  have hat := at_ok h
  unfold ListAnswers getInt64 getInt32 getFloat getString getBoolean
  rw [hat]
  cases a with
  | int64 v => exact ⟨by simp [added, addKind, Go.bind], by simp [added, addKind, Go.bind, ofInt_toInt_setWidth], rfl, rfl, rfl⟩
  | int32 v =>
    refine ⟨?_, ?_, rfl, rfl, rfl⟩
    · simp only [added, addKind, Go.bind]; rw [ofInt_toInt_signExtend]
    · simp only [added, addKind, Go.bind, BitVec.ofInt_toInt]
      rw [setWidth_signExtend]
  | float v => exact ⟨rfl, rfl, rfl, rfl, rfl⟩
  | string s => exact ⟨rfl, rfl, rfl, rfl, rfl⟩
  | bool b => exact ⟨rfl, rfl, rfl, rfl, rfl⟩
  | value v =>
    cases v with
    | dec v => exact ⟨by simp [added, addKind, valueKind, Go.bind], by simp [added, addKind, valueKind, Go.bind, ofInt_toInt_setWidth], rfl, rfl, rfl⟩
    | _ => exact ⟨rfl, rfl, rfl, rfl, rfl⟩

/-- **What was appended is found at its position**, by the getter of its type, and the other getters answer zero. -/
theorem C88_get_what_was_added (as : List ListAdd) (i : Nat) (a : ListAdd) (h : as[i]? = some a) :
    ListAnswers (as.foldl add []) i (addKind a) := by
  rw [foldl_add]
  exact answers_of (by simp [h])

/-- **Outside of the list every getter panics** (negative positions and positions from the size on). -/
theorem C88_outside_panics (as : List ListAdd) (i : Int) (h : i < 0 ∨ (as.length : Int) ≤ i) :
    ListPanics (as.foldl add []) i ∧ size (as.foldl add []) = as.length := by
  have hp : at' (as.foldl add []) i = .panic := by
    unfold at'
    rcases h with h | h
    · rw [if_pos h]
    · rw [if_neg (by omega), foldl_add, List.getElem?_eq_none (by simp; omega)]
  refine ⟨?_, by rw [foldl_add]; simp [size]⟩
  unfold ListPanics getInt64 getInt32 getFloat getString getBoolean
  rw [hp]
  exact ⟨rfl, rfl, rfl, rfl, rfl⟩

/-- An append whose value is transmitted unchanged. -/
def Sent (a : ListAdd) : Prop :=
  match a with
  | .string s => GoodText s
  | .value v => Readable v ∧ Plain v
  | _ => True

theorem sent_all (as : List ListAdd) (h : ∀ a ∈ as, Sent a) : ReadableL (as.map added) ∧ PlainL (as.map added) := by
  induction as with
  | nil => exact ⟨trivial, trivial⟩
  | cons a as ih =>
    obtain ⟨h1, h2⟩ := ih (fun a ha => h a (List.mem_cons_of_mem _ ha))
    have ha := h a List.mem_cons_self
    have hv : Readable (added a) ∧ Plain (added a) := by
      cases a with
      | int64 v => exact ⟨trivial, trivial⟩
      | int32 v => exact ⟨trivial, trivial⟩
      | float v => exact ⟨trivial, trivial⟩
      | string s => exact ⟨GoodText.readable ha, ha.1⟩
      | bool b => exact ⟨trivial, trivial⟩
      | value v => exact ha
    exact ⟨⟨hv.1, h1⟩, ⟨hv.2, h2⟩⟩

/-- **The same after transport**: a list that was sent and read back answers what was appended. -/
theorem C88_same_after_transport (as : List ListAdd) (hs : ∀ a ∈ as, Sent a) (hl : as.length < 2 ^ 63) (rest : Bytes) :
    ∃ l, readValue ((Out.new.writeValue (.list (as.foldl add []))).bytes ++ rest) = .ok (.list l, none, rest) ∧
      size l = as.length ∧ ∀ i a, as[i]? = some a → ListAnswers l i (addKind a) := by
  obtain ⟨h1, h2⟩ := sent_all as hs
  refine ⟨as.foldl add [], ?_, by rw [foldl_add]; simp [size], fun i a h => C88_get_what_was_added as i a h⟩
  rw [foldl_add, List.nil_append]
  exact C05_plain_value_roundtrip (.list (as.map added)) ⟨by simpa using hl, h1⟩ h2 rest

example : ∀ a ∈ [ListAdd.int32 (-5), .string (ascii "kim"), .bool true, .value (.list [.dec 3])], Sent a := by
  intro a ha
  simp only [List.mem_cons, List.not_mem_nil, or_false] at ha
  rcases ha with rfl | rfl | rfl | rfl
  · trivial
  · exact ⟨by decide, by unfold ReadableLen; decide⟩
  · trivial
  · exact ⟨⟨by decide, trivial, trivial⟩, ⟨trivial, trivial⟩⟩

example : getInt32 ([ListAdd.int64 (2 ^ 32 + 7), .string (ascii "x")].foldl add []) 0 = .ok 7 := by decide

end ListValue
end Scouter
