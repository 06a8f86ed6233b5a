import Verif.Proofs.Wire
import Verif.Spec.WirePack
/-! # The collector parses packs and steps (helper lemmas for C11-C14) -/
namespace Scouter
open Out Spec

namespace Wire

@[simp] theorem u1_append (x : Byte) (r : Bytes) : u 1 ([x] ++ r) = some (x.toNat, r) := u1_cons x r

theorem xlogRecord_enc (p : XlogPack) (h : p.ipaddr.length < 2 ^ 31) (r : Bytes) :
    xlogRecord (encXlogInner p ++ r) = some (denoteXlog p, r) := by
  simp only [encXlogInner, List.append_assoc]
  unfold xlogRecord
  refine (bind_some (decimal_enc _ _)).trans ?_
  refine (bind_some (decimal_enc32 _ _)).trans ?_
  refine (bind_some (decimal_enc32 _ _)).trans ?_
  refine (bind_some (i8_be _ _)).trans ?_
  refine (bind_some (i8_be _ _)).trans ?_
  refine (bind_some (i8_be _ _)).trans ?_
  refine (bind_some (decimal_enc32 _ _)).trans ?_
  refine (bind_some (decimal_enc32 _ _)).trans ?_
  refine (bind_some (decimal_enc32 _ _)).trans ?_
  refine (bind_some (decimal_enc32 _ _)).trans ?_
  refine (bind_some (decimal_enc32 _ _)).trans ?_
  refine (bind_some (blob_enc _ _ h)).trans ?_
  refine (bind_some (decimal_enc32 _ _)).trans ?_
  refine (bind_some (decimal_enc32 _ _)).trans ?_
  refine (bind_some (decimal_enc _ _)).trans ?_
  refine (bind_some (decimal_enc32 _ _)).trans ?_
  refine (bind_some (decimal_enc32 _ _)).trans ?_
  refine (bind_some (decimal_enc32 _ _)).trans ?_
  refine (bind_some (decimal_enc32 _ _)).trans ?_
  refine (bind_some (decimal_enc32 _ _)).trans ?_
  refine (bind_some (blob_encString _ _)).trans ?_
  refine (bind_some (decimal_enc32 _ _)).trans ?_
  refine (bind_some (u1_append _ _)).trans ?_
  refine (bind_some (decimal_enc32 _ _)).trans ?_
  refine (bind_some (decimal_enc32 _ _)).trans ?_
  refine (bind_some (decimal_enc32 _ _)).trans ?_
  refine (bind_some (decimal_enc32 _ _)).trans ?_
  refine (bind_some (u1_append _ _)).trans ?_
  refine (bind_some (decimal_enc32 _ _)).trans ?_
  refine (bind_some (blob_encString _ _)).trans ?_
  refine (bind_some (blob_encString _ _)).trans ?_
  refine (bind_some (decimal_enc32 _ _)).trans ?_
  refine (bind_some (decimal_enc32 _ _)).trans ?_
  refine (bind_some (decimal_enc32 _ _)).trans ?_
  refine (bind_some (decimal_enc32 _ _)).trans ?_
  refine (bind_some (blob_encString _ _)).trans ?_
  refine (bind_some (blob_encString _ _)).trans ?_
  refine (bind_some (blob_encString _ _)).trans ?_
  refine (bind_some (decimal_enc32 _ _)).trans ?_
  refine (bind_some (bool_enc _ _)).trans ?_
  refine (bind_some (decimal_enc32 _ _)).trans ?_
  refine (bind_some (u1_append _ _)).trans ?_
  refine (bind_some (bool_enc _ _)).trans ?_
  rfl

theorem encDec_length (v : BitVec 64) : (encDec v).length ≤ 9 := by
  unfold encDec
  repeat' split
  all_goals simp
theorem encDec32_length (v : BitVec 32) : (encDec32 v).length ≤ 5 := by
  unfold encDec32
  repeat' split
  all_goals simp
theorem encBlob_length (b : Bytes) : (encBlob b).length ≤ b.length + 5 := by
  unfold encBlob
  repeat' split
  all_goals simp <;> omega
theorem encString_length (b : Bytes) : (encString b).length ≤ 100005 := by
  rw [In.encString_eq]
  have := encBlob_length (shown b)
  have := shown_length b
  omega
theorem encBool_length (b : Bool) : (encBool b).length = 1 := by
  cases b <;> rfl

theorem len_app {a b : Bytes} {m n : Nat} (ha : a.length ≤ m) (hb : b.length ≤ n) : (a ++ b).length ≤ m + n := by
  rw [List.length_append]; omega

theorem encXlogInner_length (p : XlogPack) : (encXlogInner p).length ≤ p.ipaddr.length + 2000000 := by
  unfold encXlogInner
  exact Nat.le_trans (
    len_app (encDec_length _) <|
    len_app (encDec32_length _) <|
    len_app (encDec32_length _) <|
    len_app (Nat.le_of_eq (length_be64 _)) <|
    len_app (Nat.le_of_eq (length_be64 _)) <|
    len_app (Nat.le_of_eq (length_be64 _)) <|
    len_app (encDec32_length _) <|
    len_app (encDec32_length _) <|
    len_app (encDec32_length _) <|
    len_app (encDec32_length _) <|
    len_app (encDec32_length _) <|
    len_app (encBlob_length _) <|
    len_app (encDec32_length _) <|
    len_app (encDec32_length _) <|
    len_app (encDec_length _) <|
    len_app (encDec32_length _) <|
    len_app (encDec32_length _) <|
    len_app (encDec32_length _) <|
    len_app (encDec32_length _) <|
    len_app (encDec32_length _) <|
    len_app (encString_length _) <|
    len_app (encDec32_length _) <|
    len_app (Nat.le_refl 1) <|
    len_app (encDec32_length _) <|
    len_app (encDec32_length _) <|
    len_app (encDec32_length _) <|
    len_app (encDec32_length _) <|
    len_app (Nat.le_refl 1) <|
    len_app (encDec32_length _) <|
    len_app (encString_length _) <|
    len_app (encString_length _) <|
    len_app (encDec32_length _) <|
    len_app (encDec32_length _) <|
    len_app (encDec32_length _) <|
    len_app (encDec32_length _) <|
    len_app (encString_length _) <|
    len_app (encString_length _) <|
    len_app (encString_length _) <|
    len_app (encDec32_length _) <|
    len_app (Nat.le_of_eq (encBool_length _)) <|
    len_app (encDec32_length _) <|
    len_app (Nat.le_refl 1) <|
    Nat.le_of_eq (encBool_length _)) (by omega)

theorem times_value_enc (es : List (Bytes × Value)) (hv : SendableM es) (r : Bytes) :
    times (do let k ← Wire.blob; let v ← value; return (k, v)) es.length (encEntries es ++ r) =
      some (denoteM es, r) := by
  induction es with
  | nil => simp [times, encEntries, denoteM]
  | cons e es ih =>
    obtain ⟨k, v⟩ := e
    simp only [SendableM] at hv
    have h1 := value_enc v hv.1 (encEntries es ++ r)
    simp only [encEntries, List.length_cons, times, List.append_assoc]
    rw [bind_some (a := (shown k, denote v)) (s' := encEntries es ++ r), bind_some (ih hv.2)]
    · rfl
    · rw [bind_some (blob_encString _ _), bind_some h1]; rfl

theorem pack_enc (p : Pack) (hp : SendablePack p) (o : Out) (d : WPack) (hd : denotePack p = some d) :
    ∃ bs, (o.writePack p).bytes = o.bytes ++ bs ∧ ∀ r, pack (bs ++ r) = some (d, r) := by
  cases p with
  | map p =>
    simp only [denotePack, Option.some.injEq] at hd; subst hd
    refine ⟨_, by rw [writePack, writeInt8_eq, writeMapPack_eq, write_write, bytes_write], fun r => ?_⟩
    simp only [SendablePack, Sendable] at hp
    simp only [List.cons_append, List.nil_append, pack, Pack.packType, List.append_assoc]
    rw [bind_some (u1_cons _ _), if_pos (by decide), bind_some (decimal_enc _ _), In.toInt_ofNat63 _ hp.1,
      bind_some (times_value_enc _ hp.2 _)]
    rfl
  | text p =>
    simp only [denotePack, Option.some.injEq] at hd; subst hd
    refine ⟨_, by rw [writePack, writeInt8_eq, writeTextPack_eq, write_write, bytes_write], fun r => ?_⟩
    simp only [List.cons_append, List.nil_append, pack, Pack.packType, List.append_assoc]
    rw [bind_some (u1_cons _ _), if_neg (by decide), if_neg (by decide), if_neg (by decide), if_pos (by decide),
      bind_some (blob_encString _ _), bind_some (i4_be _ _), bind_some (blob_encString _ _)]
    rfl
  | perfCounter p =>
    simp only [denotePack, Option.some.injEq] at hd; subst hd
    refine ⟨_, by rw [writePack, writeInt8_eq, writePerfCounterPack_eq, write_write, bytes_write], fun r => ?_⟩
    simp only [SendablePack] at hp
    simp only [List.cons_append, List.nil_append, pack, Pack.packType, List.append_assoc]
    rw [bind_some (u1_cons _ _), if_neg (by decide), if_neg (by decide), if_neg (by decide), if_neg (by decide),
      if_pos (by decide), bind_some (i8_be _ _), bind_some (blob_encString _ _), bind_some (u1_cons _ _),
      bind_some (value_enc _ hp _)]
    rfl
  | perfCounterK8S p =>
    simp only [denotePack, Option.some.injEq] at hd; subst hd
    refine ⟨_, by rw [writePack, writeInt8_eq, writePerfCounterK8SPack_eq, write_write, bytes_write], fun r => ?_⟩
    simp only [SendablePack] at hp
    simp only [List.cons_append, List.nil_append, pack, Pack.packType, List.append_assoc]
    rw [bind_some (u1_cons _ _), if_neg (by decide), if_neg (by decide), if_neg (by decide), if_neg (by decide),
      if_neg (by decide), if_pos (by decide), bind_some (i8_be _ _)]
    simp only [times]
    simp only [bind_apply, blob_encString, pure_apply, u1_cons, value_enc _ hp]
  | object p =>
    simp only [denotePack, Option.some.injEq] at hd; subst hd
    refine ⟨_, by rw [writePack, writeInt8_eq, writeObjectPack_eq, write_write, bytes_write], fun r => ?_⟩
    simp only [SendablePack] at hp
    simp only [List.cons_append, List.nil_append, pack, Pack.packType, List.append_assoc]
    rw [bind_some (u1_cons _ _), if_neg (by decide), if_neg (by decide), if_neg (by decide), if_neg (by decide),
      if_neg (by decide), if_neg (by decide), if_neg (by decide), if_pos (by decide),
      bind_some (blob_encString _ _), bind_some (decimal_enc32 _ _), bind_some (blob_encString _ _),
      bind_some (blob_encString _ _), bind_some (blob_encString _ _), bind_some (bool_enc _ _),
      bind_some (decimal_enc _ _), bind_some (value_enc _ hp _)]
    rfl
  | object2 p => simp [denotePack] at hd
  | alert p =>
    simp only [denotePack, Option.some.injEq] at hd; subst hd
    refine ⟨_, by rw [writePack, writeInt8_eq, writeAlertPack_eq, write_write, bytes_write], fun r => ?_⟩
    simp only [SendablePack] at hp
    simp only [List.cons_append, List.nil_append, pack, Pack.packType, List.append_assoc]
    rw [bind_some (u1_cons _ _), if_neg (by decide), if_neg (by decide), if_neg (by decide), if_neg (by decide),
      if_neg (by decide), if_neg (by decide), if_pos (by decide), bind_some (i8_be _ _), bind_some (u1_cons _ _),
      bind_some (blob_encString _ _), bind_some (i4_be _ _), bind_some (blob_encString _ _),
      bind_some (blob_encString _ _), bind_some (value_enc _ hp _)]
    rfl
  | xlog p =>
    simp only [denotePack, Option.some.injEq] at hd; subst hd
    refine ⟨_, by rw [writePack, writeInt8_eq, writeXlogPack_eq, write_write, bytes_write], fun r => ?_⟩
    simp only [SendablePack] at hp
    have hl := encXlogInner_length p
    simp only [List.cons_append, List.nil_append, pack, Pack.packType, List.append_assoc]
    rw [bind_some (u1_cons _ _), if_neg (by decide), if_pos (by decide)]
    have hx := xlogRecord_enc p (by omega) []
    rw [List.append_nil] at hx
    have : inBlob xlogRecord (encBlob (encXlogInner p) ++ r) = some (denoteXlog p, r) := by
      unfold inBlob
      rw [bind_some (blob_enc _ _ (by omega)), hx]
      rfl
    rw [bind_some this]; rfl
  | profile p =>
    simp only [denotePack, Option.some.injEq] at hd; subst hd
    refine ⟨_, by rw [writePack, writeInt8_eq, writeXlogProfilePack_eq, write_write, bytes_write], fun r => ?_⟩
    simp only [SendablePack] at hp
    simp only [List.cons_append, List.nil_append, pack, Pack.packType, List.append_assoc]
    rw [bind_some (u1_cons _ _), if_neg (by decide), if_neg (by decide), if_pos (by decide),
      bind_some (decimal_enc _ _), bind_some (decimal_enc32 _ _), bind_some (decimal_enc32 _ _),
      bind_some (i8_be _ _), bind_some (blob_enc _ _ hp)]
    rfl

theorem step_enc (s : Step) (d : WStep) (hd : denoteStep s = some d) (r : Bytes) :
    step (encStep s ++ r) = some (d, r) := by
  obtain ⟨ss, body⟩ := s
  cases body with
  | method h e c =>
    simp only [denoteStep, denoteBody, Option.map_some, Option.some.injEq] at hd; subst hd
    simp only [encStep, encSS, encBody, StepBody.stepType, List.cons_append, List.nil_append, List.append_assoc]
    unfold step
    refine (bind_some (u1_cons _ _)).trans ?_
    refine (bind_some (decimal_enc32 _ _)).trans ?_
    refine (bind_some (decimal_enc32 _ _)).trans ?_
    refine (bind_some (decimal_enc32 _ _)).trans ?_
    refine (bind_some (decimal_enc32 _ _)).trans ?_
    rw [if_pos (by decide)]
    refine (bind_some (decimal_enc32 _ _)).trans ?_
    refine (bind_some (decimal_enc32 _ _)).trans ?_
    refine (bind_some (decimal_enc32 _ _)).trans ?_
    rfl
  | message m =>
    simp only [denoteStep, denoteBody, Option.map_some, Option.some.injEq] at hd; subst hd
    simp only [encStep, encSS, encBody, StepBody.stepType, List.cons_append, List.nil_append, List.append_assoc]
    unfold step
    refine (bind_some (u1_cons _ _)).trans ?_
    refine (bind_some (decimal_enc32 _ _)).trans ?_
    refine (bind_some (decimal_enc32 _ _)).trans ?_
    refine (bind_some (decimal_enc32 _ _)).trans ?_
    refine (bind_some (decimal_enc32 _ _)).trans ?_
    rw [if_neg (by decide)]
    rw [if_pos (by decide)]
    refine (bind_some (blob_encString _ _)).trans ?_
    rfl
  | hashed h e c =>
    simp only [denoteStep, denoteBody, Option.map_some, Option.some.injEq] at hd; subst hd
    simp only [encStep, encSS, encBody, StepBody.stepType, List.cons_append, List.nil_append, List.append_assoc]
    unfold step
    refine (bind_some (u1_cons _ _)).trans ?_
    refine (bind_some (decimal_enc32 _ _)).trans ?_
    refine (bind_some (decimal_enc32 _ _)).trans ?_
    refine (bind_some (decimal_enc32 _ _)).trans ?_
    refine (bind_some (decimal_enc32 _ _)).trans ?_
    rw [if_neg (by decide)]
    rw [if_neg (by decide)]
    rw [if_pos (by decide)]
    refine (bind_some (decimal_enc32 _ _)).trans ?_
    refine (bind_some (decimal_enc32 _ _)).trans ?_
    refine (bind_some (decimal_enc32 _ _)).trans ?_
    rfl
  | pmessage h e l ps =>
    simp only [denoteStep, denoteBody, Option.map_some, Option.some.injEq] at hd; subst hd
    have e : (BitVec.setWidth 32 l).toInt = l.toNat := by
      have := l.isLt
      rw [BitVec.toInt_eq_toNat_of_lt] <;> simp <;> omega
    rw [← e]
    simp only [encStep, encSS, encBody, StepBody.stepType, List.cons_append, List.nil_append, List.append_assoc]
    unfold step
    refine (bind_some (u1_cons _ _)).trans ?_
    refine (bind_some (decimal_enc32 _ _)).trans ?_
    refine (bind_some (decimal_enc32 _ _)).trans ?_
    refine (bind_some (decimal_enc32 _ _)).trans ?_
    refine (bind_some (decimal_enc32 _ _)).trans ?_
    rw [if_neg (by decide)]
    rw [if_neg (by decide)]
    rw [if_neg (by decide)]
    rw [if_pos (by decide)]
    refine (bind_some (decimal_enc32 _ _)).trans ?_
    refine (bind_some (decimal_enc32 _ _)).trans ?_
    refine (bind_some (decimal_enc32 _ _)).trans ?_
    refine (bind_some (blob_encString _ _)).trans ?_
    rfl
  | apicall txid h e c err opt addr =>
    simp only [denoteStep, denoteBody, Option.map_some, Option.some.injEq] at hd; subst hd
    simp only [encStep, encSS, encBody, StepBody.stepType, List.cons_append, List.nil_append, List.append_assoc]
    unfold step
    refine (bind_some (u1_cons _ _)).trans ?_
    refine (bind_some (decimal_enc32 _ _)).trans ?_
    refine (bind_some (decimal_enc32 _ _)).trans ?_
    refine (bind_some (decimal_enc32 _ _)).trans ?_
    refine (bind_some (decimal_enc32 _ _)).trans ?_
    rw [if_neg (by decide)]
    rw [if_neg (by decide)]
    rw [if_neg (by decide)]
    rw [if_neg (by decide)]
    rw [if_pos (by decide)]
    refine (bind_some (decimal_enc _ _)).trans ?_
    refine (bind_some (decimal_enc32 _ _)).trans ?_
    refine (bind_some (decimal_enc32 _ _)).trans ?_
    refine (bind_some (decimal_enc32 _ _)).trans ?_
    refine (bind_some (decimal_enc32 _ _)).trans ?_
    refine (bind_some (u1_cons _ _)).trans ?_
    by_cases ho : opt = 1
    · subst ho
      rw [if_pos (by decide), if_pos (by decide), if_pos (by decide)]
      refine (bind_some (blob_encString _ _)).trans ?_
      rfl
    · have : ¬ opt.toNat = 1 := by
        intro c; apply ho; apply BitVec.eq_of_toNat_eq; simpa using c
      rw [if_neg this, if_neg ho, if_neg ho]
      rfl
  | async txid h e =>
    simp only [denoteStep, denoteBody, Option.map_some, Option.some.injEq] at hd; subst hd
    simp only [encStep, encSS, encBody, StepBody.stepType, List.cons_append, List.nil_append, List.append_assoc]
    unfold step
    refine (bind_some (u1_cons _ _)).trans ?_
    refine (bind_some (decimal_enc32 _ _)).trans ?_
    refine (bind_some (decimal_enc32 _ _)).trans ?_
    refine (bind_some (decimal_enc32 _ _)).trans ?_
    refine (bind_some (decimal_enc32 _ _)).trans ?_
    rw [if_neg (by decide)]
    rw [if_neg (by decide)]
    rw [if_neg (by decide)]
    rw [if_neg (by decide)]
    rw [if_neg (by decide)]
    rw [if_pos (by decide)]
    refine (bind_some (decimal_enc _ _)).trans ?_
    refine (bind_some (decimal_enc32 _ _)).trans ?_
    refine (bind_some (decimal_enc32 _ _)).trans ?_
    refine (bind_some (u1_cons _ _)).trans ?_
    rfl
  | dump => simp [denoteStep, denoteBody] at hd

theorem stepsN_enc (ss : List Step) (ds : List WStep) (h : ss.map denoteStep = ds.map some) :
    ∀ n, (ss.flatMap encStep).length ≤ n → stepsN n (ss.flatMap encStep) = some ds := by
  induction ss generalizing ds with
  | nil =>
    intro n _
    cases ds with
    | nil => cases n <;> simp [stepsN]
    | cons d ds => simp at h
  | cons s ss ih =>
    intro n hn
    cases ds with
    | nil => simp at h
    | cons d ds =>
      simp only [List.map_cons, List.cons.injEq] at h
      have h1 := step_enc s d h.1 (ss.flatMap encStep)
      simp only [List.flatMap_cons, List.length_append] at hn ⊢
      have hl : 1 ≤ (encStep s).length := by simp [encStep]
      obtain ⟨n, rfl⟩ : ∃ m, n = m + 1 := ⟨n - 1, by omega⟩
      have h2 := ih ds h.2 n (by omega)
      cases hs : encStep s ++ ss.flatMap encStep with
      | nil => simp [encStep] at hs
      | cons x xs =>
        rw [hs] at h1
        simp [stepsN, h1, h2]

theorem steps_enc (ss : List Step) (ds : List WStep) (h : ss.map denoteStep = ds.map some) :
    steps (ss.flatMap encStep) = some ds := stepsN_enc ss ds h _ (Nat.le_refl _)

theorem params_append (p cs : Bytes) (h : (3 : Byte) ∉ p) : params (p ++ 3 :: cs) = p :: params cs := by
  induction p with
  | nil => simp [params]
  | cons c p ih =>
    simp at h
    have h1 : ¬ c = 3#8 := fun e => h.1 e.symm
    have h2 := ih (by simpa using h.2)
    rw [List.cons_append, params, h2]
    simp [h1]

theorem paramString_eq (ps : List Bytes) : paramString ps = ps.flatMap (fun p => p ++ [3]) := by
  have : ∀ b, ps.foldl (fun b s => b ++ s ++ [3]) b = b ++ ps.flatMap (fun p => p ++ [3]) := by
    induction ps with
    | nil => simp
    | cons p ps ih => intro b; rw [List.foldl_cons, ih, List.flatMap_cons]; simp only [List.append_assoc]
  rw [paramString, this]; rfl

end Wire
end Scouter
