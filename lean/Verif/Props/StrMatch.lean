import Verif.Model.Util
/-! # C19, C20: wildcard matching -/
namespace Scouter

namespace Spec
/-- The usual wildcard reading: a star stands for any text, every other byte for itself. -/
inductive Wild : Bytes → Bytes → Prop
  | nil : Wild [] []
  | star (s : Bytes) {p t : Bytes} : Wild p t → Wild (42 :: p) (s ++ t)
  | lit {c : Byte} {p t : Bytes} : c ≠ 42 → Wild p t → Wild (c :: p) (c :: t)

/-- The stars of a pattern that are neither its first nor its last byte. -/
def innerStars (p : Bytes) : Nat := ((p.drop 1).dropLast).count 42

/-- The pattern forms the matcher supports: at most one star strictly inside. -/
def Supported (p : Bytes) : Prop := innerStars p ≤ 1

/-- What a service pattern list is meant to select: some comma-separated piece matches. -/
def ListMatches (patterns : List Bytes) (target : Bytes) : Prop := ∃ p ∈ patterns, Wild p target
end Spec
open Spec

/-- Does the matcher built from a pattern accept a target? -/
def accepts (pattern target : Bytes) : Bool := (newStrMatch pattern).include target

theorem nm_cons {c : Byte} {m : Bytes} (h : c ≠ 42) (hm : (42 : Byte) ∉ m) : (42 : Byte) ∉ c :: m := by
  rw [List.mem_cons]; rintro (e | e)
  · exact h e.symm
  · exact hm e

theorem nm_tail {c : Byte} {m : Bytes} (h : (42 : Byte) ∉ c :: m) : (42 : Byte) ∉ m :=
  fun e => h (List.mem_cons_of_mem _ e)

theorem nm_head {c : Byte} {m : Bytes} (h : (42 : Byte) ∉ c :: m) : c ≠ 42 :=
  fun e => h (e ▸ List.mem_cons_self)

theorem nm_snoc {c : Byte} {m : Bytes} (h : c ≠ 42) (hm : (42 : Byte) ∉ m) : (42 : Byte) ∉ m ++ [c] := by
  rw [List.mem_append]; rintro (e | e)
  · exact hm e
  · exact h (List.mem_singleton.mp e).symm

/-! ## The wildcard relation -/

theorem wild_nil {t : Bytes} : Wild [] t ↔ t = [] :=
  ⟨fun h => by cases h; rfl, fun h => h ▸ Wild.nil⟩

theorem wild_star {p t : Bytes} : Wild (42 :: p) t ↔ ∃ s t', t = s ++ t' ∧ Wild p t' := by
  constructor
  · intro h
    generalize hq : (42 : Byte) :: p = q at h
    cases h with
    | nil => cases hq
    | star s h => cases hq; exact ⟨s, _, rfl, h⟩
    | lit hc h => cases hq; exact absurd rfl hc
  · rintro ⟨s, t', rfl, h⟩; exact Wild.star s h

theorem wild_lit {c : Byte} {p t : Bytes} (hc : c ≠ 42) : Wild (c :: p) t ↔ ∃ t', t = c :: t' ∧ Wild p t' := by
  constructor
  · intro h
    generalize hq : c :: p = q at h
    cases h with
    | nil => cases hq
    | star s h => cases hq; exact absurd rfl hc
    | lit hc h => cases hq; exact ⟨_, rfl, h⟩
  · rintro ⟨t', rfl, h⟩; exact Wild.lit hc h

theorem wild_append {a p t : Bytes} (ha : (42 : Byte) ∉ a) :
    Wild (a ++ p) t ↔ ∃ t', t = a ++ t' ∧ Wild p t' := by
  induction a generalizing t with
  | nil => simp
  | cons c a ih =>
    rw [List.cons_append, wild_lit (nm_head ha)]
    constructor
    · rintro ⟨t', rfl, h⟩
      obtain ⟨t'', rfl, h'⟩ := (ih (nm_tail ha)).mp h
      exact ⟨t'', rfl, h'⟩
    · rintro ⟨t', rfl, h⟩
      exact ⟨a ++ t', rfl, (ih (nm_tail ha)).mpr ⟨t', rfl, h⟩⟩

theorem wild_literal {a t : Bytes} (ha : (42 : Byte) ∉ a) : Wild a t ↔ t = a := by
  have := wild_append (p := []) (t := t) ha
  rw [List.append_nil] at this
  rw [this]; simp [wild_nil]

/-! ## The primitives -/

theorem hasPrefix_iff (t p : Bytes) : hasPrefix t p = true ↔ ∃ r, t = p ++ r := by
  unfold hasPrefix; rw [List.isPrefixOf_iff_prefix]
  exact ⟨fun ⟨r, h⟩ => ⟨r, h.symm⟩, fun ⟨r, h⟩ => ⟨r, h.symm⟩⟩

theorem hasSuffix_iff (t p : Bytes) : hasSuffix t p = true ↔ ∃ r, t = r ++ p := by
  unfold hasSuffix; rw [List.isSuffixOf_iff_suffix]
  exact ⟨fun ⟨r, h⟩ => ⟨r, h.symm⟩, fun ⟨r, h⟩ => ⟨r, h.symm⟩⟩

theorem contains_iff (t p : Bytes) : contains t p = true ↔ ∃ r s, t = r ++ p ++ s := by
  induction t with
  | nil =>
    rw [contains, Bool.or_false, List.isPrefixOf_iff_prefix]
    constructor
    · rintro ⟨r, h⟩; exact ⟨[], r, h.symm⟩
    · rintro ⟨r, s, h⟩
      have h := h.symm
      simp only [List.append_eq_nil_iff] at h
      exact ⟨[], by simp [h.1.2]⟩
  | cons c t ih =>
    rw [contains, Bool.or_eq_true, List.isPrefixOf_iff_prefix, ih]
    constructor
    · rintro (⟨r, h⟩ | ⟨r, s, h⟩)
      · exact ⟨[], r, h.symm⟩
      · exact ⟨c :: r, s, by simp [h]⟩
    · rintro ⟨r, s, h⟩
      cases r with
      | nil => exact .inl ⟨s, h.symm⟩
      | cons x r =>
        simp only [List.cons_append, List.cons.injEq] at h
        exact .inr ⟨r, s, h.2⟩

theorem indexByte_none (c : Byte) (s : Bytes) (h : c ∉ s) : indexByte c s = none := by
  induction s with
  | nil => rfl
  | cons b s ih =>
    rw [indexByte, if_neg (fun e => h (by simp [e])), ih (fun m => h (by simp [m]))]; rfl

theorem indexByte_append (c : Byte) (s r : Bytes) (h : c ∉ s) : indexByte c (s ++ c :: r) = some s.length := by
  induction s with
  | nil => simp [indexByte]
  | cons b s ih =>
    rw [List.cons_append, indexByte, if_neg (fun e => h (by simp [e])), ih (fun m => h (by simp [m]))]; rfl

/-! ## What each pattern form compiles to -/

theorem last_getElem (x y : Byte) (m : Bytes) : (x :: (m ++ [y]))[(x :: (m ++ [y])).length - 1]? = some y := by
  simp

theorem ne_any {x y : Byte} {m : Bytes} (h : ¬ (x = star ∧ y = star ∧ m = [])) :
    ¬ (x :: (m ++ [y]) = [star] ∨ x :: (m ++ [y]) = [star, star]) := by
  rintro (e | e)
  · simp at e
  · cases m with
    | nil => simp at e; exact h ⟨e.1, e.2, rfl⟩
    | cons a m => simp at e

theorem slice_mid (x y : Byte) (m : Bytes) : slice (x :: (m ++ [y])) 1 ((x :: (m ++ [y])).length - 1) = m := by
  simp [slice]

theorem take_init (x y : Byte) (m : Bytes) : (x :: (m ++ [y])).take ((x :: (m ++ [y])).length - 1) = x :: m := by
  simp

/-- Without an inner star the compiler takes the "no middle" branch. -/
theorem compile_noInner (x y : Byte) (m : Bytes) (hm : star ∉ m) (h : ¬ (x = star ∧ y = star ∧ m = [])) :
    newStrMatch (x :: (m ++ [y])) =
      if x = star ∧ y = star then { pattern := x :: (m ++ [y]), comp := .mid, mid := m }
      else if x = star then { pattern := x :: (m ++ [y]), comp := .end_, end_ := m ++ [y] }
      else if y = star then { pattern := x :: (m ++ [y]), comp := .str, start := x :: m }
      else { pattern := x :: (m ++ [y]), comp := .equ, mid := x :: (m ++ [y]) } := by
  have key : newStrMatch (x :: (m ++ [y])) =
      newStrMatch.noMid (x :: (m ++ [y])) (x :: (m ++ [y])).length (some x = some star) (some y = some star) := by
    unfold newStrMatch
    rw [if_neg (ne_any h)]
    simp only []
    rw [if_neg (by simp only [List.length_cons, List.length_append, List.length_nil]; omega)]
    simp only [last_getElem, List.getElem?_cons_zero, List.drop_succ_cons, List.drop_zero]
    by_cases hy : y = star
    · subst hy
      rw [indexByte_append _ _ _ hm]
      simp
    · rw [indexByte_none star _ (nm_snoc hy hm)]
      simp
  rw [key]
  unfold newStrMatch.noMid
  simp only [Option.some.injEq, slice_mid, take_init, List.drop_succ_cons, List.drop_zero]

/-- With an inner star the pieces are split at the first one. -/
theorem compile_inner (x y : Byte) (u v : Bytes) (hu : star ∉ u) :
    newStrMatch (x :: ((u ++ star :: v) ++ [y])) =
      if x = star ∧ y = star then
        { pattern := x :: ((u ++ star :: v) ++ [y]), comp := .midMid, mid := u, mid2 := v }
      else if x = star then
        { pattern := x :: ((u ++ star :: v) ++ [y]), comp := .midEnd, mid := u, end_ := v ++ [y] }
      else if y = star then
        { pattern := x :: ((u ++ star :: v) ++ [y]), comp := .strMid, start := x :: u, mid := v }
      else { pattern := x :: ((u ++ star :: v) ++ [y]), comp := .strEnd, start := x :: u, end_ := v ++ [y] } := by
  unfold newStrMatch
  rw [if_neg (ne_any (by simp))]
  simp only []
  rw [if_neg (by simp only [List.length_cons, List.length_append, List.length_nil]; omega)]
  simp only [last_getElem, List.getElem?_cons_zero, List.drop_succ_cons, List.drop_zero]
  rw [show u ++ star :: v ++ [y] = u ++ star :: (v ++ [y]) by simp, indexByte_append _ _ _ hu]
  simp only [Option.map_some, Option.some.injEq]
  rw [if_pos (by simp only [List.length_cons, List.length_append, List.length_nil]; omega)]
  have e1 : slice (x :: (u ++ star :: (v ++ [y]))) 1 (u.length + 1) = u := by simp [slice]
  have e2 : slice (x :: (u ++ star :: (v ++ [y]))) 0 (u.length + 1) = x :: u := by simp [slice]
  have e3 : (u ++ star :: (v ++ [y])).drop (u.length + 1) = v ++ [y] := by
    rw [List.drop_append]; simp
  have e4 : slice (x :: (u ++ star :: (v ++ [y]))) (u.length + 1 + 1) ((x :: (u ++ star :: (v ++ [y]))).length - 1)
      = v := by
    have e5 : (x :: (u ++ star :: (v ++ [y]))).take ((x :: (u ++ star :: (v ++ [y]))).length - 1)
        = x :: (u ++ star :: v) := by
      have := take_init x y (u ++ star :: v)
      simpa using this
    rw [slice, e5, List.drop_succ_cons, List.drop_append]; simp
  rw [e1, e2, e3, e4]

theorem shape (p : Bytes) : p = [] ∨ (∃ c, p = [c]) ∨ ∃ x m y, p = x :: (m ++ [y]) := by
  cases p with
  | nil => exact .inl rfl
  | cons x p =>
    rcases List.eq_nil_or_concat p with h | ⟨m, y, h⟩
    · exact .inr (.inl ⟨x, by rw [h]⟩)
    · exact .inr (.inr ⟨x, m, y, by rw [h, List.concat_eq_append]⟩)

theorem innerStars_shape (x y : Byte) (m : Bytes) : innerStars (x :: (m ++ [y])) = m.count 42 := by
  simp [innerStars]

theorem count_one {m : Bytes} (h : m.count (42 : Byte) ≤ 1) :
    (42 : Byte) ∉ m ∨ ∃ u v, m = u ++ 42 :: v ∧ (42 : Byte) ∉ u ∧ (42 : Byte) ∉ v := by
  induction m with
  | nil => simp
  | cons c m ih =>
    by_cases hc : c = 42
    · subst hc
      rw [List.count_cons_self] at h
      have : (42 : Byte) ∉ m := List.count_eq_zero.mp (by omega)
      exact .inr ⟨[], m, rfl, by simp, this⟩
    · rw [List.count_cons_of_ne hc] at h
      rcases ih h with h | ⟨u, v, rfl, hu, hv⟩
      · exact .inl (nm_cons hc h)
      · exact .inr ⟨c :: u, v, rfl, nm_cons hc hu, hv⟩

theorem C19_empty_target_rejected (p : Bytes) : accepts p [] = false := by
  unfold accepts StrMatch.include; simp

/-- C19: for a pattern without a star strictly inside ("*", "**", equality, prefix, suffix and substring patterns)
acceptance is exactly the wildcard reading. -/
theorem C19_simple_patterns_exact (p t : Bytes) (hp : innerStars p = 0) (ht : t ≠ []) :
    accepts p t = true ↔ Wild p t := by
  rcases shape p with rfl | ⟨c, rfl⟩ | ⟨x, m, y, rfl⟩
  · have : accepts [] t = decide (([] : Bytes) = t) := by
      simp [accepts, newStrMatch, StrMatch.include, ht]
    rw [this, wild_nil, decide_eq_true_iff, eq_comm]
  · by_cases hc : c = star
    · subst hc
      have : accepts [star] t = true := by simp [accepts, newStrMatch, StrMatch.include, ht]
      simp only [this, true_iff]
      exact wild_star.mpr ⟨t, [], by simp, Wild.nil⟩
    · have : accepts [c] t = decide ([c] = t) := by
        simp [accepts, newStrMatch, StrMatch.include, ht, hc]
      rw [this, decide_eq_true_iff, wild_literal (nm_cons hc (by simp)), eq_comm]
  · rw [innerStars_shape, List.count_eq_zero] at hp
    by_cases h : x = star ∧ y = star ∧ m = []
    · obtain ⟨rfl, rfl, rfl⟩ := h
      have : accepts (star :: ([] ++ [star])) t = true := by
        simp [accepts, newStrMatch, StrMatch.include, ht]
      simp only [this, true_iff]
      exact wild_star.mpr ⟨t, [], by simp, wild_star.mpr ⟨[], [], rfl, Wild.nil⟩⟩
    · unfold accepts
      rw [compile_noInner x y m hp h]
      by_cases hx : x = star
      · subst hx
        by_cases hy : y = star
        · subst hy
          simp only [and_self, if_true, StrMatch.include, if_neg ht]
          rw [contains_iff]
          have : Wild (star :: (m ++ [star])) t ↔ _ := wild_star
          rw [this]
          constructor
          · rintro ⟨r, s, rfl⟩
            exact ⟨r, m ++ s, by simp, (wild_append hp).mpr ⟨s, rfl, wild_star.mpr ⟨s, [], by simp, Wild.nil⟩⟩⟩
          · rintro ⟨s, t', rfl, hw⟩
            obtain ⟨t'', rfl, _⟩ := (wild_append hp).mp hw
            exact ⟨s, t'', by simp⟩
        · simp only [hy, and_false, if_false, if_true, StrMatch.include, if_neg ht]
          rw [hasSuffix_iff]
          have : Wild (star :: (m ++ [y])) t ↔ _ := wild_star
          rw [this]
          have hl : (42 : Byte) ∉ m ++ [y] := nm_snoc hy hp
          simp only [wild_literal hl]
          constructor
          · rintro ⟨r, rfl⟩; exact ⟨r, _, rfl, rfl⟩
          · rintro ⟨s, t', rfl, rfl⟩; exact ⟨s, rfl⟩
      · have hl : (42 : Byte) ∉ x :: m := nm_cons hx hp
        by_cases hy : y = star
        · subst hy
          simp only [hx, false_and, if_false, if_true, StrMatch.include, if_neg ht]
          rw [hasPrefix_iff, show x :: (m ++ [star]) = (x :: m) ++ [star] by simp, wild_append hl]
          constructor
          · rintro ⟨r, rfl⟩
            exact ⟨r, rfl, wild_star.mpr ⟨r, [], by simp, Wild.nil⟩⟩
          · rintro ⟨r, h, _⟩; exact ⟨r, h⟩
        · have hl2 : (42 : Byte) ∉ x :: (m ++ [y]) := nm_cons hx (nm_snoc hy hp)
          simp only [hx, hy, false_and, if_false, StrMatch.include, if_neg ht]
          rw [decide_eq_true_iff, wild_literal hl2, eq_comm]

/-- C19: `a*b` (a, b without stars, not empty) accepts exactly the targets starting with `a` and ending with `b`;
the wildcard reading asks in addition that they do not overlap. -/
theorem C19_prefix_suffix_pattern (a b t : Bytes) (ha : (42 : Byte) ∉ a) (hb : (42 : Byte) ∉ b) (ha0 : a ≠ [])
    (hb0 : b ≠ []) (ht : t ≠ []) :
    (accepts (a ++ 42 :: b) t = true ↔ a <+: t ∧ b <:+ t) ∧
    (Wild (a ++ 42 :: b) t ↔ a <+: t ∧ b <:+ t ∧ a.length + b.length ≤ t.length) := by
  constructor
  · cases a with
    | nil => exact absurd rfl ha0
    | cons x u =>
      rcases List.eq_nil_or_concat b with rfl | ⟨v, y, rfl⟩
      · exact absurd rfl hb0
      · rw [List.concat_eq_append] at hb ⊢
        have hx : x ≠ star := nm_head ha
        have hy : y ≠ star := fun e => hb (by rw [e]; exact List.mem_append_right _ (List.mem_singleton.mpr rfl))
        have hu : star ∉ u := fun m => ha (List.mem_cons_of_mem _ m)
        have := compile_inner x y u v hu
        unfold accepts
        rw [show (x :: u) ++ 42 :: (v ++ [y]) = x :: ((u ++ star :: v) ++ [y]) by simp [star], this]
        simp only [hx, hy, false_and, if_false, StrMatch.include, if_neg ht, Bool.and_eq_true]
        unfold hasPrefix hasSuffix
        rw [List.isPrefixOf_iff_prefix, List.isSuffixOf_iff_suffix]
  · rw [wild_append ha]
    constructor
    · rintro ⟨t', rfl, h⟩
      obtain ⟨s, t'', rfl, h2⟩ := wild_star.mp h
      rw [wild_literal hb] at h2
      subst h2
      exact ⟨⟨_, rfl⟩, ⟨a ++ s, by simp⟩, by simp⟩
    · rintro ⟨⟨r, rfl⟩, ⟨s, h⟩, hl⟩
      simp only [List.length_append] at hl
      refine ⟨r, rfl, wild_star.mpr ?_⟩
      have h2 : b <:+ r := by
        have e : b <:+ a ++ r := ⟨s, h⟩
        exact List.suffix_of_suffix_length_le e ⟨a, rfl⟩ (by omega)
      obtain ⟨q, rfl⟩ := h2
      exact ⟨q, b, rfl, (wild_literal hb).mpr rfl⟩

/-- C19: `a*b*` accepts exactly the targets that start with `a` and contain `b`; the wildcard reading asks that `b`
occurs after that `a`. -/
theorem C19_prefix_middle_pattern (a b t : Bytes) (ha : (42 : Byte) ∉ a) (hb : (42 : Byte) ∉ b) (ha0 : a ≠ [])
    (ht : t ≠ []) :
    (accepts (a ++ 42 :: (b ++ [42])) t = true ↔ a <+: t ∧ b <:+: t) ∧
    (Wild (a ++ 42 :: (b ++ [42])) t ↔ ∃ r, t = a ++ r ∧ b <:+: r) := by
  constructor
  · cases a with
    | nil => exact absurd rfl ha0
    | cons x u =>
      have hx : x ≠ star := nm_head ha
      have hu : star ∉ u := fun m => ha (List.mem_cons_of_mem _ m)
      have := compile_inner x star u b hu
      unfold accepts
      rw [show (x :: u) ++ 42 :: (b ++ [42]) = x :: ((u ++ star :: b) ++ [star]) by simp [star], this]
      simp only [hx, false_and, if_false, if_true, StrMatch.include, if_neg ht, Bool.and_eq_true]
      rw [contains_iff, hasPrefix, List.isPrefixOf_iff_prefix]
      exact and_congr Iff.rfl ⟨fun ⟨r, s, h⟩ => ⟨r, s, h.symm⟩, fun ⟨r, s, h⟩ => ⟨r, s, h.symm⟩⟩
  · rw [wild_append ha]
    constructor
    · rintro ⟨t', rfl, h⟩
      obtain ⟨s, t'', rfl, h2⟩ := wild_star.mp h
      obtain ⟨q, rfl, h3⟩ := (wild_append hb).mp h2
      exact ⟨_, rfl, s, q, by simp⟩
    · rintro ⟨r, rfl, s, q, rfl⟩
      exact ⟨_, rfl, wild_star.mpr ⟨s, b ++ q, by simp, (wild_append hb).mpr ⟨q, rfl,
        wild_star.mpr ⟨q, [], by simp, Wild.nil⟩⟩⟩⟩

/-- C19: `*a*b` accepts exactly the targets that contain `a` and end with `b`; the wildcard reading asks that `a`
occurs before that `b`. -/
theorem C19_middle_suffix_pattern (a b t : Bytes) (ha : (42 : Byte) ∉ a) (hb : (42 : Byte) ∉ b) (hb0 : b ≠ [])
    (ht : t ≠ []) :
    (accepts (42 :: (a ++ 42 :: b)) t = true ↔ a <:+: t ∧ b <:+ t) ∧
    (Wild (42 :: (a ++ 42 :: b)) t ↔ ∃ r, t = r ++ b ∧ a <:+: r) := by
  constructor
  · rcases List.eq_nil_or_concat b with rfl | ⟨v, y, rfl⟩
    · exact absurd rfl hb0
    · rw [List.concat_eq_append] at hb ⊢
      have hy : y ≠ star := fun e => hb (by rw [e]; exact List.mem_append_right _ (List.mem_singleton.mpr rfl))
      have := compile_inner star y a v ha
      unfold accepts
      rw [show 42 :: (a ++ 42 :: (v ++ [y])) = star :: ((a ++ star :: v) ++ [y]) by simp [star], this]
      simp only [hy, and_false, if_false, if_true, StrMatch.include, if_neg ht, Bool.and_eq_true]
      rw [contains_iff, hasSuffix, List.isSuffixOf_iff_suffix]
      exact and_congr ⟨fun ⟨r, s, h⟩ => ⟨r, s, h.symm⟩, fun ⟨r, s, h⟩ => ⟨r, s, h.symm⟩⟩ Iff.rfl
  · rw [wild_star]
    constructor
    · rintro ⟨s, t', rfl, h⟩
      obtain ⟨q, rfl, h2⟩ := (wild_append ha).mp h
      obtain ⟨q1, q2, rfl, h3⟩ := wild_star.mp h2
      rw [wild_literal hb] at h3
      subst h3
      exact ⟨s ++ a ++ q1, by simp, s, q1, rfl⟩
    · rintro ⟨r, rfl, s, q, rfl⟩
      exact ⟨s, a ++ (q ++ b), by simp, (wild_append ha).mpr ⟨_, rfl, wild_star.mpr ⟨q, b, rfl,
        (wild_literal hb).mpr rfl⟩⟩⟩

/-- C19: `*a*b*` accepts exactly the targets that contain `a` and contain `b`; the wildcard reading asks that they
occur in this order without overlap. -/
theorem C19_middle_middle_pattern (a b t : Bytes) (ha : (42 : Byte) ∉ a) (hb : (42 : Byte) ∉ b) (ht : t ≠ []) :
    (accepts (42 :: (a ++ 42 :: (b ++ [42]))) t = true ↔ a <:+: t ∧ b <:+: t) ∧
    (Wild (42 :: (a ++ 42 :: (b ++ [42]))) t ↔ ∃ r s, t = r ++ a ++ s ∧ b <:+: s) := by
  constructor
  · have := compile_inner star star a b ha
    unfold accepts
    rw [show 42 :: (a ++ 42 :: (b ++ [42])) = star :: ((a ++ star :: b) ++ [star]) by simp [star], this]
    have hs : hasSuffix t [] = true := by rw [hasSuffix_iff]; exact ⟨t, by simp⟩
    simp only [and_self, if_true, StrMatch.include, if_neg ht, hs, Bool.and_true]
    rw [Bool.if_false_right, Bool.and_eq_true, Bool.decide_eq_true, contains_iff, contains_iff]
    exact and_congr ⟨fun ⟨r, s, h⟩ => ⟨r, s, h.symm⟩, fun ⟨r, s, h⟩ => ⟨r, s, h.symm⟩⟩
      ⟨fun ⟨r, s, h⟩ => ⟨r, s, h.symm⟩, fun ⟨r, s, h⟩ => ⟨r, s, h.symm⟩⟩
  · rw [wild_star]
    constructor
    · rintro ⟨s, t', rfl, h⟩
      obtain ⟨q, rfl, h2⟩ := (wild_append ha).mp h
      obtain ⟨q1, q2, rfl, h3⟩ := wild_star.mp h2
      obtain ⟨q3, rfl, h4⟩ := (wild_append hb).mp h3
      exact ⟨s, q1 ++ (b ++ q3), by simp, q1, q3, by simp⟩
    · rintro ⟨r, s, rfl, q1, q2, rfl⟩
      exact ⟨r, _, by rw [List.append_assoc], (wild_append ha).mpr ⟨_, rfl, wild_star.mpr ⟨q1, b ++ q2, by simp,
        (wild_append hb).mpr ⟨q2, rfl, wild_star.mpr ⟨q2, [], by simp, Wild.nil⟩⟩⟩⟩⟩

/-- C19: a supported pattern accepts every non-empty target its wildcard reading accepts. -/
theorem C19_wildcard_implies_accepted (p t : Bytes) (hp : Supported p) (ht : t ≠ []) (h : Wild p t) :
    accepts p t = true := by
  by_cases h0 : innerStars p = 0
  · exact (C19_simple_patterns_exact p t h0 ht).mpr h
  · rcases shape p with rfl | ⟨c, rfl⟩ | ⟨x, m, y, rfl⟩
    · exact absurd rfl h0
    · exact absurd rfl h0
    · unfold Supported at hp
      rw [innerStars_shape] at hp h0
      rcases count_one hp with hn | ⟨u, v, rfl, hu, hv⟩
      · exact absurd (List.count_eq_zero.mpr hn) h0
      · by_cases hx : x = 42
        · subst hx
          by_cases hy : y = 42
          · subst hy
            have e : (42 : Byte) :: (u ++ 42 :: v ++ [42]) = 42 :: (u ++ 42 :: (v ++ [42])) := by simp
            rw [e] at h ⊢
            obtain ⟨h1, h2⟩ := C19_middle_middle_pattern u v t hu hv ht
            obtain ⟨r, s, rfl, q1, q2, rfl⟩ := h2.mp h
            exact h1.mpr ⟨⟨r, _, rfl⟩, ⟨r ++ u ++ q1, q2, by simp⟩⟩
          · have e : (42 : Byte) :: (u ++ 42 :: v ++ [y]) = 42 :: (u ++ 42 :: (v ++ [y])) := by simp
            rw [e] at h ⊢
            have hb : (42 : Byte) ∉ v ++ [y] := nm_snoc hy hv
            obtain ⟨h1, h2⟩ := C19_middle_suffix_pattern u (v ++ [y]) t hu hb (by simp) ht
            obtain ⟨r, rfl, q1, q2, rfl⟩ := h2.mp h
            exact h1.mpr ⟨⟨q1, q2 ++ (v ++ [y]), by simp⟩, ⟨_, rfl⟩⟩
        · have ha : (42 : Byte) ∉ x :: u := nm_cons hx hu
          by_cases hy : y = 42
          · subst hy
            have e : x :: (u ++ 42 :: v ++ [42]) = (x :: u) ++ 42 :: (v ++ [42]) := by simp
            rw [e] at h ⊢
            obtain ⟨h1, h2⟩ := C19_prefix_middle_pattern (x :: u) v t ha hv (by simp) ht
            obtain ⟨r, rfl, q1, q2, rfl⟩ := h2.mp h
            exact h1.mpr ⟨⟨_, rfl⟩, ⟨x :: u ++ q1, q2, by simp⟩⟩
          · have e : x :: (u ++ 42 :: v ++ [y]) = (x :: u) ++ 42 :: (v ++ [y]) := by simp
            rw [e] at h ⊢
            have hb : (42 : Byte) ∉ v ++ [y] := nm_snoc hy hv
            obtain ⟨h1, h2⟩ := C19_prefix_suffix_pattern (x :: u) (v ++ [y]) t ha hb (by simp) (by simp) ht
            obtain ⟨h3, h4, _⟩ := h2.mp h
            exact h1.mpr ⟨h3, h4⟩

/-- C19: the overlap gap is real for each of the four two-piece forms. -/
theorem C19_overlap_false_positives :
    (accepts (ascii "ab*ba") (ascii "aba") = true ∧ ¬ Wild (ascii "ab*ba") (ascii "aba")) ∧
    (accepts (ascii "ab*ba*") (ascii "aba") = true ∧ ¬ Wild (ascii "ab*ba*") (ascii "aba")) ∧
    (accepts (ascii "*ab*ba") (ascii "aba") = true ∧ ¬ Wild (ascii "*ab*ba") (ascii "aba")) ∧
    (accepts (ascii "*b*a*") (ascii "ab") = true ∧ ¬ Wild (ascii "*b*a*") (ascii "ab")) := by
  have l3 : (ascii "aba").length = 3 := by decide +kernel
  have l2 : (ascii "ab").length = 2 := by decide +kernel
  have l2' : (ascii "ba").length = 2 := by decide +kernel
  refine ⟨⟨by decide +kernel, fun h => ?_⟩, ⟨by decide +kernel, fun h => ?_⟩, ⟨by decide +kernel, fun h => ?_⟩,
    ⟨by decide +kernel, fun h => ?_⟩⟩
  · have := ((C19_prefix_suffix_pattern (ascii "ab") (ascii "ba") (ascii "aba") (by decide +kernel)
      (by decide +kernel) (by decide +kernel) (by decide +kernel) (by decide +kernel)).2.mp
        (by rwa [show ascii "ab" ++ 42 :: ascii "ba" = ascii "ab*ba" by decide +kernel])).2.2
    omega
  · obtain ⟨r, h1, h2⟩ := (C19_prefix_middle_pattern (ascii "ab") (ascii "ba") (ascii "aba") (by decide +kernel)
      (by decide +kernel) (by decide +kernel) (by decide +kernel)).2.mp
        (by rwa [show ascii "ab" ++ 42 :: (ascii "ba" ++ [42]) = ascii "ab*ba*" by decide +kernel])
    have hl := congrArg List.length h1
    have h3 := h2.length_le
    rw [List.length_append] at hl
    omega
  · obtain ⟨r, h1, h2⟩ := (C19_middle_suffix_pattern (ascii "ab") (ascii "ba") (ascii "aba") (by decide +kernel)
      (by decide +kernel) (by decide +kernel) (by decide +kernel)).2.mp
        (by rwa [show 42 :: (ascii "ab" ++ 42 :: ascii "ba") = ascii "*ab*ba" by decide +kernel])
    have hl := congrArg List.length h1
    have h3 := h2.length_le
    rw [List.length_append] at hl
    omega
  · obtain ⟨r, s, h1, h2⟩ := (C19_middle_middle_pattern (ascii "b") (ascii "a") (ascii "ab") (by decide +kernel)
      (by decide +kernel) (by decide +kernel)).2.mp
        (by rwa [show 42 :: (ascii "b" ++ 42 :: (ascii "a" ++ [42])) = ascii "*b*a*" by decide +kernel])
    have l1 : (ascii "b").length = 1 := by decide +kernel
    have l1' : (ascii "a").length = 1 := by decide +kernel
    have hl := congrArg List.length h1
    have h3 := h2.length_le
    rw [List.length_append, List.length_append] at hl
    have h0 : r = [] := List.length_eq_zero_iff.mp (by omega)
    subst h0
    have h4 := congrArg List.head? h1
    rw [show ascii "ab" = [97, 98] by decide +kernel, show ascii "b" = [98] by decide +kernel] at h4
    revert h4
    simp

/-- C19: with two inner stars the matcher is not a wildcard matcher at all: it misses real matches. -/
theorem C19_two_inner_stars_unsupported :
    Wild (ascii "a*b*c") (ascii "axbxc") ∧ accepts (ascii "a*b*c") (ascii "axbxc") = false := by
  refine ⟨?_, by decide +kernel⟩
  exact Wild.lit (by decide +kernel) (Wild.star (ascii "x") (Wild.lit (by decide +kernel) (Wild.star (ascii "x")
    (Wild.lit (by decide +kernel) Wild.nil))))

example : Supported (ascii "/api*order*") ∧ ascii "/api/v1/order/7" ≠ [] ∧
    accepts (ascii "/api*order*") (ascii "/api/v1/order/7") = true := ⟨by unfold Supported; decide +kernel, by decide +kernel, by decide +kernel⟩

/-- C20: the chained matcher accepts nothing, whatever the pattern list. -/
theorem C20_chained_matcher_never_matches (patterns target : Bytes) :
    chainedIsMatch (newChainedMatcher patterns) target = false := by
  unfold chainedIsMatch newChainedMatcher
  rw [List.any_map, List.any_eq_false]
  intro p _
  simp only [Function.comp_apply, StrMatch.include]
  split
  · simp
  · rename_i h
    simpa using h

/-- C20: hence it is false that a name selected by one of the configured patterns is recognised. -/
theorem C20_selection_fails :
    ¬ ∀ patterns target : Bytes, ListMatches (splitByte 44 patterns) target →
      chainedIsMatch (newChainedMatcher patterns) target = true := by
  intro h
  have := h (ascii "/health,/api*") (ascii "/api/x") ⟨ascii "/api*", by decide +kernel,
    Wild.lit (by decide) (Wild.lit (by decide) (Wild.lit (by decide) (Wild.lit (by decide)
      (Wild.star (ascii "/x") Wild.nil))))⟩
  rw [C20_chained_matcher_never_matches] at this
  exact absurd this (by decide)

end Scouter
