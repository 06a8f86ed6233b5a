import Verif.Model.Print
import Verif.Model.MapAccess
import Verif.Spec.Config
import Verif.Props.Conf
/-!
# C104: the texts of values and packs
-/
namespace Scouter
namespace Print

/-! ## Specification -/

/-- A value that has a nil interface where it will be asked for its text: itself nil, a nil entry of a map, or such a value anywhere inside.  A nil element
of a list does not count. -/
inductive Holed : Value → Prop where
  | here : Holed .goNil
  | inMap {es : List (Bytes × Value)} {k : Bytes} {v : Value} : (k, v) ∈ es → Holed v → Holed (.map es)
  | inList {vs : List Value} {v : Value} : v ∈ vs → v ≠ .goNil → Holed v → Holed (.list vs)

/-- `Inside w v`: the value `w` is `v` or is inside `v`. -/
inductive Inside : Value → Value → Prop where
  | refl (v : Value) : Inside v v
  | inMap {es : List (Bytes × Value)} {k : Bytes} {w v : Value} : (k, v) ∈ es → Inside w v → Inside w (.map es)
  | inList {vs : List Value} {w v : Value} : v ∈ vs → Inside w v → Inside w (.list vs)

/-- The texts shown of a pack, each after its label. -/
def textsOf : Pack → List (String × Bytes)
  | .text p => [("", p.xtype), (" text: ", p.text)]
  | .object p => [("name: ", p.objName), (" type: ", p.objType), (" version: ", p.version), (" alive: ", if p.alive then ascii "true" else ascii "false")]
  | .object2 p => [("siteID: ", p.siteID), (" name: ", p.objName), (" type: ", p.objType), (" version: ", p.version),
      (" alive: ", if p.alive then ascii "true" else ascii "false")]
  | .alert p => [(" title: ", p.title), (" message: ", p.message)]
  | _ => []

/-- The numbers shown of a pack, each after its label. -/
def numbersOf : Pack → List (String × Int)
  | .text p => [(" hash: ", p.hash.toInt)]
  | .object p => [(" hash: ", p.objHash.toInt)]
  | .object2 p => [(" hash: ", p.objHash.toInt), (" familly: ", p.family.toInt)]
  | .xlog p => [(" objHash: ", p.objHash.toInt), (" service: ", p.service.toInt), (" txid: ", p.txid.toInt), (" elapsed: ", p.elapsed.toInt),
      (" error: ", p.error.toInt)]
  | .profile p => [(" objHash: ", p.objHash.toInt)]
  | _ => []

/-- The table of values of a pack, if it shows one. -/
def tableOf : Pack → Table
  | .map p => p.table
  | .perfCounter p => p.data
  | .perfCounterK8S p => p.data
  | .object p => p.tags
  | .object2 p => p.tags
  | _ => []

/-! ## Proofs -/

variable (fl : Floats)


theorem listText_nil_elem (i : Nat) (str : Bytes) (vs : List Value) :
    listText fl i str (.goNil :: vs) = listText fl (i + 1) (str ++ (formatInt 10 i ++ ascii ": nil ")) vs := by rw [listText]

theorem listText_elem (i : Nat) (str : Bytes) (v : Value) (vs : List Value) (h : v ≠ .goNil) :
    listText fl i str (v :: vs) = (v.toText fl).bind fun t => listText fl (i + 1) (str ++ (formatInt 10 i ++ ascii ": " ++ t ++ ascii " ")) vs := by
  rw [listText]
  · cases v.toText fl <;> rfl
  · exact h

theorem entriesText_cons (str : Bytes) (k : Bytes) (v : Value) (es : List (Bytes × Value)) :
    entriesText fl str ((k, v) :: es) =
      (v.toText fl).bind fun t => entriesText fl (str ++ (ascii "key:" ++ k ++ ascii " value:" ++ t ++ ascii "\n")) es := by
  rw [entriesText]
  cases v.toText fl <;> rfl

/-- How a list ends: with a text for each element, or with the panic of an element that is not nil. -/
theorem listText_cases (i : Nat) (str : Bytes) (vs : List Value) (hf : ∀ v ∈ vs, v.toText fl ≠ .fuel) :
    (listText fl i str vs = .panic ∧ ∃ v ∈ vs, v ≠ .goNil ∧ v.toText fl = .panic) ∨
    (∃ rest, listText fl i str vs = .ok (str ++ rest) ∧ ∀ v ∈ vs, v ≠ .goNil → ∃ t, v.toText fl = .ok t ∧ t <:+: rest) := by
  induction vs generalizing i str with
  | nil => exact .inr ⟨[], by rw [listText, List.append_nil], by simp⟩
  | cons v vs ih =>
    have hf' : ∀ v ∈ vs, v.toText fl ≠ .fuel := fun v h => hf v (List.mem_cons_of_mem _ h)
    by_cases hv : v = .goNil
    · subst hv
      rw [listText_nil_elem]
      rcases ih (i + 1) (str ++ (formatInt 10 i ++ ascii ": nil ")) hf' with ⟨e, w, hw, hw'⟩ | ⟨rest, e, hr⟩
      · exact .inl ⟨e, w, List.mem_cons_of_mem _ hw, hw'⟩
      · refine .inr ⟨(formatInt 10 i ++ ascii ": nil ") ++ rest, by rw [e]; simp, ?_⟩
        intro w hw hne
        rcases List.mem_cons.1 hw with e | hw
        · exact absurd e hne
        · obtain ⟨t, ht, hi⟩ := hr w hw hne
          exact ⟨t, ht, hi.trans (List.suffix_append _ _).isInfix⟩
    · rw [listText_elem fl i str v vs hv]
      cases ht : v.toText fl with
      | fuel => exact absurd ht (hf v List.mem_cons_self)
      | panic => exact .inl ⟨rfl, v, List.mem_cons_self, hv, ht⟩
      | ok t =>
        simp only [Go.bind]
        rcases ih (i + 1) (str ++ (formatInt 10 i ++ ascii ": " ++ t ++ ascii " ")) hf' with ⟨e, w, hw, hw'⟩ | ⟨rest, e, hr⟩
        · exact .inl ⟨e, w, List.mem_cons_of_mem _ hw, hw'⟩
        · refine .inr ⟨(formatInt 10 i ++ ascii ": " ++ t ++ ascii " ") ++ rest, by rw [e]; simp, ?_⟩
          intro w hw hne
          rcases List.mem_cons.1 hw with e | hw
          · subst e
            exact ⟨t, ht, ⟨formatInt 10 i ++ ascii ": ", ascii " " ++ rest, by simp⟩⟩
          · obtain ⟨t, ht, hi⟩ := hr w hw hne
            exact ⟨t, ht, hi.trans (List.suffix_append _ _).isInfix⟩

/-- The line of a map for an entry. -/
def lineOf (k t : Bytes) : Bytes := ascii "key:" ++ k ++ ascii " value:" ++ t ++ ascii "\n"

/-- How a map ends: with a line for each entry, or with the panic of an entry. -/
theorem entriesText_cases (str : Bytes) (es : List (Bytes × Value)) (hf : ∀ e ∈ es, e.2.toText fl ≠ .fuel) :
    (entriesText fl str es = .panic ∧ ∃ e ∈ es, e.2.toText fl = .panic) ∨
    (∃ ts : List Bytes, es.map (fun e => e.2.toText fl) = ts.map Go.ok ∧
      entriesText fl str es = .ok (str ++ ((es.zip ts).map fun x => lineOf x.1.1 x.2).flatten)) := by
  induction es generalizing str with
  | nil => exact .inr ⟨[], rfl, by rw [entriesText]; simp⟩
  | cons e es ih =>
    obtain ⟨k, v⟩ := e
    rw [entriesText_cons]
    cases ht : v.toText fl with
    | fuel => exact absurd ht (hf (k, v) List.mem_cons_self)
    | panic => exact .inl ⟨rfl, (k, v), List.mem_cons_self, ht⟩
    | ok t =>
      simp only [Go.bind]
      rcases ih (str ++ (ascii "key:" ++ k ++ ascii " value:" ++ t ++ ascii "\n")) (fun e h => hf e (List.mem_cons_of_mem _ h)) with
        ⟨e, w, hw, hw'⟩ | ⟨ts, h1, h2⟩
      · exact .inl ⟨e, w, List.mem_cons_of_mem _ hw, hw'⟩
      · refine .inr ⟨t :: ts, by simp [ht, h1], ?_⟩
        rw [h2]
        simp [lineOf]

theorem entry_infix {es : List (Bytes × Value)} {ts : List Bytes} (h : es.map (fun e => e.2.toText fl) = ts.map Go.ok) {k : Bytes} {v : Value}
    (hm : (k, v) ∈ es) : ∃ t, v.toText fl = .ok t ∧ lineOf k t <:+: ((es.zip ts).map fun x => lineOf x.1.1 x.2).flatten := by
  induction es generalizing ts with
  | nil => cases hm
  | cons e es ih =>
    cases ts with
    | nil => simp at h
    | cons t ts =>
      simp only [List.map_cons, List.cons.injEq] at h
      rcases List.mem_cons.1 hm with rfl | hm
      · exact ⟨t, h.1, ⟨[], ((es.zip ts).map fun x => lineOf x.1.1 x.2).flatten, by simp⟩⟩
      · obtain ⟨t', h1, h2⟩ := ih h.2 hm
        exact ⟨t', h1, by simpa using h2.trans (List.suffix_append _ _).isInfix⟩

theorem toText_list (vs : List Value) : (Value.list vs).toText fl = listText fl 0 (ascii "list value ") vs := by rw [Value.toText]
theorem toText_map (es : List (Bytes × Value)) : (Value.map es).toText fl = entriesText fl (ascii "map value \n") es := by rw [Value.toText]

theorem toText_ne_fuel : ∀ v : Value, v.toText fl ≠ .fuel
  | .list vs => by
    rw [toText_list]
    have hf : ∀ v ∈ vs, v.toText fl ≠ .fuel := fun v _ => toText_ne_fuel v
    rcases listText_cases fl 0 (ascii "list value ") vs hf with ⟨e, -⟩ | ⟨_, e, -⟩ <;> rw [e] <;> simp
  | .map es => by
    rw [toText_map]
    have hf : ∀ e ∈ es, e.2.toText fl ≠ .fuel := fun e he => by
      have : sizeOf e.2 < 1 + sizeOf es := by
        have := List.sizeOf_lt_of_mem he
        cases e; simp at this ⊢; omega
      exact toText_ne_fuel e.2
    rcases entriesText_cases fl (ascii "map value \n") es hf with ⟨e, -⟩ | ⟨_, -, e⟩ <;> rw [e] <;> simp
  | .bool b => by cases b <;> simp [Value.toText]
  | .goNil | .null | .dec _ | .float _ | .double _ | .text _ | .textHash _ | .blob _ | .ip4 _ => by simp [Value.toText]
termination_by v => sizeOf v

theorem holed_iff : ∀ v : Value, v.toText fl = .panic ↔ Holed v
  | .list vs => by
    rw [toText_list]
    have ih : ∀ v ∈ vs, v.toText fl = .panic ↔ Holed v := fun v _ => holed_iff v
    rcases listText_cases fl 0 (ascii "list value ") vs (fun v _ => toText_ne_fuel fl v) with ⟨e, v, hv, hn, hp⟩ | ⟨_, e, h⟩
    · exact ⟨fun _ => .inList hv hn ((ih v hv).1 hp), fun _ => e⟩
    · refine ⟨fun h' => absurd (e.symm.trans h') (by simp), fun h' => ?_⟩
      cases h' with
      | inList hv hn hh =>
        obtain ⟨t, ht, -⟩ := h _ hv hn
        rw [(ih _ hv).2 hh] at ht
        cases ht
  | .map es => by
    rw [toText_map]
    have ih : ∀ e ∈ es, e.2.toText fl = .panic ↔ Holed e.2 := fun e he => by
      have : sizeOf e.2 < 1 + sizeOf es := by
        have := List.sizeOf_lt_of_mem he
        cases e; simp at this ⊢; omega
      exact holed_iff e.2
    rcases entriesText_cases fl (ascii "map value \n") es (fun e _ => toText_ne_fuel fl e.2) with ⟨e, v, hv, hp⟩ | ⟨ts, h, e⟩
    · exact ⟨fun _ => .inMap (k := v.1) (v := v.2) hv ((ih v hv).1 hp), fun _ => e⟩
    · refine ⟨fun h' => absurd (e.symm.trans h') (by simp), fun h' => ?_⟩
      cases h' with
      | inMap hv hh =>
        obtain ⟨t, ht, -⟩ := entry_infix fl h hv
        rw [(ih _ hv).2 hh] at ht
        cases ht
  | .bool b => ⟨fun h => by cases b <;> simp [Value.toText] at h, fun h => by cases h⟩
  | .goNil => ⟨fun _ => .here, fun _ => by rw [Value.toText]⟩
  | .null | .dec _ | .float _ | .double _ | .text _ | .textHash _ | .blob _ | .ip4 _ => ⟨fun h => by simp [Value.toText] at h, fun h => by cases h⟩
termination_by v => sizeOf v

theorem has_text {v : Value} (h : ¬ Holed v) : ∃ t, v.toText fl = .ok t := by
  cases e : v.toText fl with
  | ok t => exact ⟨t, rfl⟩
  | fuel => exact absurd e (toText_ne_fuel fl v)
  | panic => exact absurd ((holed_iff fl v).1 e) h

theorem shown_inside {w v : Value} (h : Inside w v) (hn : w ≠ .goNil) : ∀ t, v.toText fl = .ok t → ∃ t', w.toText fl = .ok t' ∧ t' <:+: t := by
  induction h with
  | refl => exact fun t ht => ⟨t, ht, List.infix_rfl⟩
  | @inMap es k w v hm hi ih =>
    intro t ht
    rw [toText_map] at ht
    rcases entriesText_cases fl (ascii "map value \n") es (fun e _ => toText_ne_fuel fl e.2) with ⟨e, -⟩ | ⟨ts, h, e⟩
    · rw [e] at ht; cases ht
    · rw [e] at ht
      injection ht with ht
      obtain ⟨tv, htv, hin⟩ := entry_infix fl h hm
      obtain ⟨t', h1, h2⟩ := ih hn tv htv
      refine ⟨t', h1, h2.trans (List.IsInfix.trans (l₂ := lineOf k tv) ⟨ascii "key:" ++ k ++ ascii " value:", ascii "\n", by simp [lineOf]⟩ ?_)⟩
      rw [← ht]
      exact hin.trans (List.suffix_append _ _).isInfix
  | @inList vs w v hm hi ih =>
    intro t ht
    rw [toText_list] at ht
    rcases listText_cases fl 0 (ascii "list value ") vs (fun v _ => toText_ne_fuel fl v) with ⟨e, -⟩ | ⟨rest, e, h⟩
    · rw [e] at ht; cases ht
    · rw [e] at ht
      injection ht with ht
      have hv : v ≠ .goNil := by
        intro e; subst e
        cases hi
        exact hn rfl
      obtain ⟨tv, htv, hin⟩ := h v hm hv
      obtain ⟨t', h1, h2⟩ := ih hn tv htv
      exact ⟨t', h1, h2.trans (hin.trans (ht ▸ (List.suffix_append _ _).isInfix))⟩

/-! ### What is read from the wire has no holes -/

open In in
theorem readValues_whole (rd : Bytes → Go (Res Value)) (hrd : ∀ s v e r, rd s = .ok (v, e, r) → ¬ Holed v) (n : Nat) (s : Bytes) (err : Option Err)
    {vs e r} (h : readValues rd n s err = .ok (vs, e, r)) : ∀ v ∈ vs, ¬ Holed v := by
  induction n generalizing s err vs e r with
  | zero => simp only [readValues, Go.ok.injEq, Prod.mk.injEq] at h; simp [← h.1]
  | succ n ih =>
    rw [readValues] at h
    cases h1 : rd s with
    | panic => simp [h1] at h
    | fuel => simp [h1] at h
    | ok x =>
      obtain ⟨v, e', r'⟩ := x
      simp only [h1] at h
      cases h2 : readValues rd n r' e' with
      | panic => simp [h2] at h
      | fuel => simp [h2] at h
      | ok y =>
        obtain ⟨vs', e'', r''⟩ := y
        simp only [h2, Go.ok.injEq, Prod.mk.injEq] at h
        rw [← h.1]
        intro w hw
        rcases List.mem_cons.1 hw with rfl | hw
        · exact hrd _ _ _ _ h1
        · exact ih _ _ h2 w hw

theorem mem_insertKV {α : Type} {k k' : Bytes} {v v' : α} {t : List (Bytes × α)} (h : (k', v') ∈ insertKV k v t) : v' = v ∨ (k', v') ∈ t := by
  induction t with
  | nil => simp only [insertKV, List.mem_singleton, Prod.mk.injEq] at h; exact .inl h.2
  | cons e es ih =>
    obtain ⟨k1, v1⟩ := e
    rw [insertKV] at h
    split at h
    · rcases List.mem_cons.1 h with h | h
      · injection h with _ h; exact .inl h
      · exact .inr (List.mem_cons_of_mem _ h)
    · rcases List.mem_cons.1 h with h | h
      · exact .inr (h ▸ List.mem_cons_self)
      · rcases ih h with h | h
        · exact .inl h
        · exact .inr (List.mem_cons_of_mem _ h)

open In in
theorem readEntries_whole (rd : Bytes → Go (Res Value)) (hrd : ∀ s v e r, rd s = .ok (v, e, r) → ¬ Holed v) (n : Nat) (s : Bytes) (err : Option Err)
    (tbl : List (Bytes × Value)) (ht : ∀ x ∈ tbl, ¬ Holed x.2) {es e r} (h : readEntries rd n s err tbl = .ok (es, e, r)) : ∀ x ∈ es, ¬ Holed x.2 := by
  induction n generalizing s err tbl with
  | zero => simp only [readEntries, Go.ok.injEq, Prod.mk.injEq] at h; exact h.1 ▸ ht
  | succ n ih =>
    rw [readEntries] at h
    cases h1 : readString s with
    | panic => simp [h1] at h
    | fuel => simp [h1] at h
    | ok x =>
      obtain ⟨k, e', r'⟩ := x
      simp only [h1] at h
      cases h2 : rd r' with
      | panic => simp [h2] at h
      | fuel => simp [h2] at h
      | ok y =>
        obtain ⟨v, e'', r''⟩ := y
        simp only [h2] at h
        refine ih _ _ _ ?_ h
        intro x hx
        obtain ⟨k', v'⟩ := x
        rcases mem_insertKV hx with rfl | hx
        · exact hrd _ _ _ _ h2
        · exact ht _ hx

theorem not_holed_list {vs : List Value} (h : ∀ v ∈ vs, ¬ Holed v) : ¬ Holed (.list vs) := by
  intro hh; cases hh with
  | inList hv _ hh => exact h _ hv hh

theorem not_holed_map {es : List (Bytes × Value)} (h : ∀ x ∈ es, ¬ Holed x.2) : ¬ Holed (.map es) := by
  intro hh; cases hh with
  | inMap hv hh => exact h _ hv hh

open In in
theorem readBody_whole (rd : Bytes → Go (Res Value)) (hrd : ∀ s v e r, rd s = .ok (v, e, r) → ¬ Holed v) (t : Byte) (s : Bytes) {v e r}
    (h : readBody rd t s = .ok (v, e, r)) : ¬ Holed v := by
  have hm : ∀ {α : Type} (f : α → Value) (x : Go (Res α)), mapRes f x = .ok (v, e, r) → (∀ a e' r', x = .ok (a, e', r') → ¬ Holed (f a)) → ¬ Holed v := by
    intro α f x hx hf
    cases x with
    | panic => simp [mapRes] at hx
    | fuel => simp [mapRes] at hx
    | ok y =>
      obtain ⟨a, e', r'⟩ := y
      simp only [mapRes, Go.ok.injEq, Prod.mk.injEq] at hx
      exact hx.1 ▸ hf a e' r' rfl
  unfold readBody at h
  repeat' split at h
  · injection h with h; injection h with h _; subst h; exact fun h => by cases h
  all_goals first
    | exact hm _ _ h (fun a e r hx => not_holed_list (readValues_whole rd hrd _ _ _ hx))
    | exact hm _ _ h (fun a e r hx => not_holed_map (readEntries_whole rd hrd _ _ _ _ (by simp) hx))
    | exact hm _ _ h (fun a e r hx hh => by cases hh)
    | (injection h with h; injection h with h _; subst h; exact fun h => by cases h)

open In in
theorem readValueF_whole (fuel : Nat) (s : Bytes) {v e r} (h : readValueF fuel s = .ok (v, e, r)) : ¬ Holed v := by
  induction fuel generalizing s v e r with
  | zero => simp [readValueF] at h
  | succ n ih => exact readBody_whole _ (fun s v e r h => ih s h) _ _ h

theorem formatInt_nat (n : Nat) : formatInt 10 (n : Int) = formatNat 10 n := by
  unfold formatInt
  rw [if_neg (by omega)]
  simp

end Print
open Print

/-- **C104**.  A value can be shown (its text asked for) unless there is a nil entry in a map inside it: exactly then the call panics. -/
theorem C104_panics_only_on_holes (fl : Floats) (v : Value) : (∃ t, v.toText fl = .ok t) ↔ ¬ Holed v := by
  refine ⟨fun ⟨t, ht⟩ h => ?_, has_text fl⟩
  rw [(holed_iff fl v).2 h] at ht
  cases ht

/-- Whatever was read from the wire can be shown. -/
theorem C104_received_values_can_be_shown (fl : Floats) (s : Bytes) (v : Value) (e : Option Err) (r : Bytes) (h : In.readValue s = .ok (v, e, r)) :
    ∃ t, v.toText fl = .ok t := has_text fl (readValueF_whole _ _ h)

/-- `Put` makes no holes: a map filled by `Put` can be shown, whatever is put, as long as the values put can be (a nil value is not put). -/
theorem C104_put_makes_no_holes (fl : Floats) (narrow : BitVec 64 → BitVec 32) (t : Table) (ht : ∀ e ∈ t, ¬ Holed e.2) (key : Bytes) (any : Any)
    (ha : ∀ v, any = .value v → v = .goNil ∨ ¬ Holed v) :
    (∃ s, (Value.map (MapValue.put t key any)).toText fl = .ok s) ∧ (∃ s, (Pack.map ⟨MapPack.put t key any⟩).toText fl = .ok s) ∧
      (∃ s, (Value.map (PerfCounterPack.put narrow t key any)).toText fl = .ok s) ∧
      (∃ s, (Value.map (PerfCounterK8SPack.put narrow t key any)).toText fl = .ok s) := by
  have hins : ∀ v, ¬ Holed v → ∀ e ∈ insertKV key v t, ¬ Holed e.2 := by
    intro v hv e he
    obtain ⟨k', v'⟩ := e
    rcases mem_insertKV he with rfl | he
    · exact hv
    · exact ht _ he
  have leaf : ∀ a : Any, (∀ v, a = .value v → v = .goNil ∨ ¬ Holed v) → ∀ e ∈ MapValue.put t key a, ¬ Holed e.2 := by
    intro a ha
    unfold MapValue.put
    split
    all_goals first
      | exact ht
      | (rename_i v hne
         rcases ha v rfl with h | h
         · exact absurd h hne
         · exact hins _ h)
      | exact hins _ (fun h => by cases h)
  have hval : ∀ v : Value, ¬ Holed v → ∀ e ∈ MapValue.put t key (.value v), ¬ Holed e.2 := fun v hv => leaf _ (fun w hw => by
    injection hw with hw; exact .inr (hw ▸ hv))
  refine ⟨has_text fl (not_holed_map (leaf any ha)), ?_, has_text fl (not_holed_map ?_), has_text fl (not_holed_map ?_)⟩
  · show ∃ s, entriesText fl (ascii "map value \n") (MapPack.put t key any) = .ok s
    rw [← toText_map]
    refine has_text fl (not_holed_map ?_)
    unfold MapPack.put
    split
    all_goals first
      | exact ht
      | (rename_i v hne
         rcases ha v rfl with h | h
         · exact absurd h hne
         · exact hins _ h)
      | exact hins _ (fun h => by cases h)
  · unfold PerfCounterPack.put
    split
    all_goals first
      | exact hval _ (fun h => by cases h)
      | exact leaf _ ha
  · unfold PerfCounterK8SPack.put
    split
    all_goals first
      | exact ht
      | exact hval _ (fun h => by cases h)

/-- Whatever is inside a value is in its text: the text of every value inside it, and the keys of every map inside it. -/
theorem C104_everything_inside_is_shown (fl : Floats) (v w : Value) (h : Inside w v) (hn : w ≠ .goNil) (t : Bytes) (ht : v.toText fl = .ok t) :
    ∃ t', w.toText fl = .ok t' ∧ t' <:+: t ∧ ∀ es, w = .map es → ∀ e ∈ es, e.1 <:+: t := by
  obtain ⟨t', h1, h2⟩ := shown_inside fl h hn t ht
  refine ⟨t', h1, h2, ?_⟩
  rintro es rfl ⟨k, v⟩ he
  rw [toText_map] at h1
  rcases entriesText_cases fl (ascii "map value \n") es (fun e _ => toText_ne_fuel fl e.2) with ⟨e, -⟩ | ⟨ts, h, e⟩
  · rw [e] at h1; cases h1
  · rw [e] at h1
    injection h1 with h1
    obtain ⟨tv, -, hin⟩ := entry_infix fl h he
    refine List.IsInfix.trans ?_ h2
    rw [← h1]
    exact List.IsInfix.trans (l₂ := lineOf k tv) ⟨ascii "key:", ascii " value:" ++ tv ++ ascii "\n", by simp [lineOf]⟩
      (hin.trans (List.suffix_append _ _).isInfix)

/-- Whole numbers are shown exactly: the text reads back as the number; texts are shown as they are. -/
theorem C104_numbers_read_back (fl : Floats) (v : BitVec 64) (x : BitVec 32) (s : Bytes) :
    (∃ t, (Value.dec v).toText fl = .ok t ∧ Spec.wholeNumber t = some v.toInt) ∧
      (∃ t, (Value.textHash x).toText fl = .ok t ∧ Spec.wholeNumber t = some x.toInt) ∧ (Value.text s).toText fl = .ok s := by
  have h1 := BitVec.toInt_lt (x := v)
  have h2 := BitVec.le_toInt (x := v)
  have h3 := BitVec.toInt_lt (x := x)
  have h4 := BitVec.le_toInt (x := x)
  refine ⟨⟨formatInt 10 v.toInt, by rw [Value.toText], Config.wholeNumber_format _ (by omega)⟩,
    ⟨formatInt 10 x.toInt, by rw [Value.toText], Config.wholeNumber_format _ (by omega)⟩, by rw [Value.toText]⟩

/-- A list shows its elements in order, each after its index; a nil element as "nil". -/
theorem C104_list_in_order (fl : Floats) (vs : List Value) (t : Bytes) (ht : (Value.list vs).toText fl = .ok t) :
    ∃ ts : List Bytes, vs.map (fun v => match v with | .goNil => Go.ok (ascii "nil") | v => v.toText fl) = ts.map Go.ok ∧
      t = ascii "list value " ++ (ts.zipIdx.map fun x => formatInt 10 x.2 ++ ascii ": " ++ x.1 ++ ascii " ").flatten := by
  have gen : ∀ (vs : List Value) (i : Nat) (str t : Bytes), listText fl i str vs = .ok t →
      ∃ ts : List Bytes, vs.map (fun v => match v with | .goNil => Go.ok (ascii "nil") | v => v.toText fl) = ts.map Go.ok ∧
        t = str ++ ((ts.zipIdx i).map fun x => formatInt 10 x.2 ++ ascii ": " ++ x.1 ++ ascii " ").flatten := by
    intro vs
    induction vs with
    | nil =>
      intro i str t h
      rw [listText] at h
      injection h with h
      exact ⟨[], rfl, by simp [h]⟩
    | cons v vs ih =>
      intro i str t h
      by_cases hv : v = .goNil
      · subst hv
        rw [listText_nil_elem] at h
        obtain ⟨ts, h1, h2⟩ := ih _ _ _ h
        refine ⟨ascii "nil" :: ts, by simp [h1], ?_⟩
        have e : ascii ": nil " = ascii ": " ++ ascii "nil" ++ ascii " " := by simp [ascii]
        simp [h2, e]
      · rw [listText_elem fl i str v vs hv] at h
        cases ht : v.toText fl with
        | fuel => rw [ht] at h; cases h
        | panic => rw [ht] at h; cases h
        | ok u =>
          rw [ht] at h
          obtain ⟨ts, h1, h2⟩ := ih _ _ _ h
          refine ⟨u :: ts, ?_, by simp [h2]⟩
          rw [List.map_cons, List.map_cons, h1, ← ht]
          cases v <;> first | rfl | exact absurd rfl hv
  rw [toText_list] at ht
  exact gen vs 0 _ t ht

/-- The order in which a map is iterated only orders the lines: two texts of the same entries are the same lines in another order. -/
theorem C104_order_of_iteration (fl : Floats) (es es' : List (Bytes × Value)) (hp : es.Perm es') (t : Bytes) (ht : (Value.map es).toText fl = .ok t) :
    ∃ t', (Value.map es').toText fl = .ok t' ∧ ∃ ls ls' : List Bytes, ls.Perm ls' ∧ ls.length = es.length ∧ t = ascii "map value \n" ++ ls.flatten ∧
      t' = ascii "map value \n" ++ ls'.flatten := by
  have key : ∀ es : List (Bytes × Value), ∀ t, (Value.map es).toText fl = .ok t →
      t = ascii "map value \n" ++ (es.map fun e => match e.2.toText fl with | .ok t => lineOf e.1 t | _ => []).flatten := by
    intro es t ht
    rw [toText_map] at ht
    rcases entriesText_cases fl (ascii "map value \n") es (fun e _ => toText_ne_fuel fl e.2) with ⟨e, -⟩ | ⟨ts, h, e⟩
    · rw [e] at ht; cases ht
    · rw [e] at ht
      injection ht with ht
      rw [← ht]
      congr 2
      clear ht e
      induction es generalizing ts with
      | nil => simp
      | cons x es ih =>
        cases ts with
        | nil => simp at h
        | cons u ts =>
          simp only [List.map_cons, List.cons.injEq] at h
          simp only [List.zip_cons_cons, List.map_cons, h.1]
          rw [ih ts h.2]
  obtain ⟨t', ht'⟩ := has_text fl (v := .map es') (fun hh => by
    cases hh with
    | inMap hv hh => exact (C104_panics_only_on_holes fl (.map es)).1 ⟨t, ht⟩ (.inMap (hp.mem_iff.2 hv) hh))
  exact ⟨t', ht', _, _, hp.map _, by simp, key es t ht, key es' t' ht'⟩

namespace Print

theorem infix_here (A l x : Bytes) : l ++ x <:+: A ++ l ++ x := ⟨A, [], by simp⟩
theorem infix_later {l A B : Bytes} (h : l <:+: A) : l <:+: A ++ B := h.trans (List.prefix_append _ _).isInfix

/-- Find a labelled text in a concatenation. -/
macro "find" : tactic => `(tactic| (repeat' (first | with_reducible exact infix_here _ _ _ | with_reducible exact List.infix_rfl | with_reducible apply infix_later)))

theorem name_label (x : Bytes) : ascii "name: " ++ x <:+: ascii "object name: " ++ x := ⟨ascii "object ", [], by simp [ascii]⟩
theorem site_label (x : Bytes) : ascii "siteID: " ++ x <:+: ascii "object siteID: " ++ x := ⟨ascii "object ", [], by simp [ascii]⟩

/-- The numbers of packs fit. -/
theorem fits {w : Nat} (hw : w ≤ 64) (x : BitVec w) : Spec.wholeNumber (formatInt 10 x.toInt) = some x.toInt := by
  apply Config.wholeNumber_format
  have h1 := BitVec.toInt_lt (x := x)
  have h2 := BitVec.le_toInt (x := x)
  have : (2 : Int) ^ (w - 1) ≤ 2 ^ 63 := by
    have := Nat.pow_le_pow_right (n := 2) (by decide) (show w - 1 ≤ 63 by omega)
    exact_mod_cast this
  omega

end Print

/-- A pack can be shown unless its table has holes.  Its names, its texts and its numbers are shown after their labels, and the keys and values of its
table are in the text. -/
theorem C104_packs (fl : Floats) (p : Pack) (h : ∀ e ∈ tableOf p, ¬ Holed e.2) :
    ∃ t, p.toText fl = .ok t ∧ (∀ x ∈ textsOf p, ascii x.1 ++ x.2 <:+: t) ∧
      (∀ x ∈ numbersOf p, ∃ d, Spec.wholeNumber d = some x.2 ∧ ascii x.1 ++ d <:+: t) ∧
      ∀ e ∈ tableOf p, e.1 <:+: t ∧ ∃ u, e.2.toText fl = .ok u ∧ u <:+: t := by
  have tbl : ∀ es : Table, (∀ e ∈ es, ¬ Holed e.2) → ∃ t, (Value.map es).toText fl = .ok t ∧
      ∀ e ∈ es, e.1 <:+: t ∧ ∃ u, e.2.toText fl = .ok u ∧ u <:+: t := by
    intro es hes
    obtain ⟨t, ht⟩ := has_text fl (not_holed_map hes)
    refine ⟨t, ht, fun e he => ⟨?_, ?_⟩⟩
    · obtain ⟨_, _, _, h3⟩ := C104_everything_inside_is_shown fl _ _ (.refl _) (by simp) t ht
      exact h3 es rfl e he
    · have hn : e.2 ≠ .goNil := fun hh => hes e he (hh ▸ .here)
      exact shown_inside fl (.inMap (k := e.1) he (.refl _)) hn t ht
  have later : ∀ (es : Table) (A t : Bytes), (∀ e ∈ es, e.1 <:+: t ∧ ∃ u, e.2.toText fl = .ok u ∧ u <:+: t) →
      ∀ e ∈ es, e.1 <:+: A ++ t ∧ ∃ u, e.2.toText fl = .ok u ∧ u <:+: A ++ t := by
    intro es A t h e he
    obtain ⟨h1, u, h2, h3⟩ := h e he
    exact ⟨h1.trans (List.suffix_append _ _).isInfix, u, h2, h3.trans (List.suffix_append _ _).isInfix⟩
  cases p with
  | map p =>
    obtain ⟨t, ht, h2⟩ := tbl p.table h
    exact ⟨t, (toText_map fl p.table).symm.trans ht, by simp [textsOf], by simp [numbersOf], h2⟩
  | perfCounter p =>
    obtain ⟨t, ht, h2⟩ := tbl p.data h
    exact ⟨t, ht, by simp [textsOf], by simp [numbersOf], h2⟩
  | perfCounterK8S p =>
    obtain ⟨t, ht, h2⟩ := tbl p.data h
    exact ⟨t, ht, by simp [textsOf], by simp [numbersOf], h2⟩
  | text p =>
    refine ⟨_, rfl, ?_, ?_, by simp [tableOf]⟩
    · simp only [textsOf, List.mem_cons, List.not_mem_nil, or_false, forall_eq_or_imp, forall_eq]
      refine ⟨?_, ?_⟩
      · show [] ++ p.xtype <:+: _
        rw [List.nil_append]
        find
      · find
    · simp only [numbersOf, List.mem_cons, List.not_mem_nil, or_false, forall_eq]
      exact ⟨_, fits (by decide) p.hash, by find⟩
  | alert p =>
    refine ⟨_, rfl, ?_, by simp [numbersOf], by simp [tableOf]⟩
    simp only [textsOf, List.mem_cons, List.not_mem_nil, or_false, forall_eq_or_imp, forall_eq]
    exact ⟨by find, by find⟩
  | xlog p =>
    refine ⟨_, rfl, by simp [textsOf], ?_, by simp [tableOf]⟩
    simp only [numbersOf, List.mem_cons, List.not_mem_nil, or_false, forall_eq_or_imp, forall_eq]
    exact ⟨⟨_, fits (by decide) _, by find⟩, ⟨_, fits (by decide) _, by find⟩, ⟨_, fits (by decide) _, by find⟩, ⟨_, fits (by decide) _, by find⟩,
      ⟨_, fits (by decide) _, by find⟩⟩
  | profile p =>
    refine ⟨_, rfl, by simp [textsOf], ?_, by simp [tableOf]⟩
    simp only [numbersOf, List.mem_cons, List.not_mem_nil, or_false, forall_eq]
    exact ⟨_, fits (by decide) _, by find⟩
  | object p =>
    obtain ⟨t, ht, h2⟩ := tbl p.tags h
    refine ⟨_, by simp only [Pack.toText, ht]; rfl, ?_, ?_, later _ _ t h2⟩
    · simp only [textsOf, List.mem_cons, List.not_mem_nil, or_false, forall_eq_or_imp, forall_eq]
      refine ⟨?_, by find, by find, ?_⟩
      · refine (name_label p.objName).trans ?_
        find
      · show ascii " alive: " ++ formatBool p.alive <:+: _
        find
    · simp only [numbersOf, List.mem_cons, List.not_mem_nil, or_false, forall_eq]
      exact ⟨_, fits (by decide) _, by find⟩
  | object2 p =>
    obtain ⟨t, ht, h2⟩ := tbl p.tags h
    refine ⟨_, by simp only [Pack.toText, ht]; rfl, ?_, ?_, later _ _ t h2⟩
    · simp only [textsOf, List.mem_cons, List.not_mem_nil, or_false, forall_eq_or_imp, forall_eq]
      refine ⟨?_, by find, by find, by find, ?_⟩
      · refine (site_label p.siteID).trans ?_
        find
      · show ascii " alive: " ++ formatBool p.alive <:+: _
        find
    · simp only [numbersOf, List.mem_cons, List.not_mem_nil, or_false, forall_eq_or_imp, forall_eq]
      exact ⟨⟨_, fits (by decide) _, by find⟩, ⟨_, fits (by decide) _, by find⟩⟩

/-- As found: `false` is misspelt, and an address is shown as its raw bytes. -/
theorem C104_misspelt (fl : Floats) (b : Bytes) :
    (Value.bool true).toText fl = .ok (ascii "true") ∧ (Value.bool false).toText fl = .ok (ascii "fasle") ∧
      (Value.ip4 b).toText fl = .ok (ascii "ip[" ++ b ++ ascii "]") := by
  simp [Value.toText]

/-! ## Concrete cases -/

namespace Demo

def noFloats : Floats := { widen := fun v => v.setWidth 64, format := fun _ => [] }

/-- A map with a list with a nil element and a boolean. -/
def shownValue : Value := .map [(ascii "a", .list [.goNil, .bool false]), (ascii "b", .text (ascii "x"))]

theorem shownValue_whole : ¬ Print.Holed shownValue := by
  intro h
  cases h with
  | inMap hm hh =>
    simp only [List.mem_cons, Prod.mk.injEq, List.not_mem_nil, or_false] at hm
    rcases hm with ⟨rfl, rfl⟩ | ⟨rfl, rfl⟩
    · cases hh with
      | inList hm hn hh =>
        simp only [List.mem_cons, List.not_mem_nil, or_false] at hm
        rcases hm with rfl | rfl
        · exact hn rfl
        · cases hh
    · cases hh

example : ∃ t, shownValue.toText noFloats = .ok t ∧ ascii "fasle" <:+: t := by
  obtain ⟨t, ht⟩ := (C104_panics_only_on_holes noFloats shownValue).2 shownValue_whole
  obtain ⟨t', h1, h2, -⟩ := C104_everything_inside_is_shown noFloats shownValue (.bool false)
    (.inMap (k := ascii "a") List.mem_cons_self (.inList (List.mem_cons_of_mem _ List.mem_cons_self) (.refl _))) (by simp) t ht
  rw [(C104_misspelt noFloats []).2.1] at h1
  injection h1 with h1
  exact ⟨t, ht, h1 ▸ h2⟩

/-- A map with a nil entry cannot be shown. -/
example : ¬ ∃ t, (Value.map [(ascii "a", .goNil)]).toText noFloats = .ok t := by
  rw [C104_panics_only_on_holes]
  exact fun h => h (.inMap List.mem_cons_self .here)

end Demo
end Scouter
