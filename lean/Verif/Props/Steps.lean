import Verif.Proofs.WirePack
/-! # C13, C14, C57: profile steps on the wire -/
namespace Scouter
open Out Spec
open Wire (shown)

/-- C13: a decoder that knows only the step format recovers exactly the (non-nil) steps, in order, with all their
fields.  `ds` is what the steps denote; only dump steps denote nothing (C57). -/
theorem C13_profile_decodes (steps : List (Option Step)) (ds : List Wire.WStep)
    (h : (steps.filterMap id).map denoteStep = ds.map some) :
    Wire.steps (stepsToBytes steps) = some ds := by
  rw [stepsToBytes_eq]; exact Wire.steps_enc _ _ h

/-- C13: every list without dump steps denotes something. -/
theorem C13_denotes (steps : List (Option Step))
    (h : ∀ s ∈ steps, ∀ st, s = some st → ∀ a b c d e f g, st.body ≠ .dump a b c d e f g) :
    ∃ ds : List Wire.WStep, (steps.filterMap id).map denoteStep = ds.map some ∧ ds.length = (steps.filterMap id).length := by
  induction steps with
  | nil => exact ⟨[], rfl, rfl⟩
  | cons x xs ih =>
    obtain ⟨ds, hd, hl⟩ := ih (fun s hs => h s (List.mem_cons_of_mem _ hs))
    cases x with
    | none => exact ⟨ds, by simpa using hd, by simpa using hl⟩
    | some st =>
      have hb := h (some st) (by simp) st rfl
      have : ∃ d, denoteStep st = some d := by
        obtain ⟨ss, body⟩ := st
        cases body <;> first | exact ⟨_, rfl⟩ | exact absurd rfl (hb _ _ _ _ _ _ _)
      obtain ⟨d, hdd⟩ := this
      exact ⟨d :: ds, by simpa [hdd] using hd, by simpa using hl⟩

/-- Steps used as an example. -/
def sampleSteps : List (Option Step) :=
  [some ⟨⟨-1, 0, 5⟩, .method 77 1000 0⟩, none, some ⟨⟨0, 1, 6⟩, .message (ascii "hi")⟩,
   some ⟨⟨0, 2, 7⟩, .apicall 12345678901 5 (-3) 0 9 1 (ascii "a:80")⟩]

example : Wire.steps (stepsToBytes sampleSteps) = some
    [⟨-1, 0, 5, 0, .method 77 1000 0⟩, ⟨0, 1, 6, 0, .message (ascii "hi")⟩,
     ⟨0, 2, 7, 0, .apicall 12345678901 5 (-3) 0 9 1 (some (ascii "a:80"))⟩] :=
  C13_profile_decodes _ _ rfl

/-- C14: splitting the parameter string at ETX gives the parameters back, if none contains ETX. -/
theorem C14_params_recovered (ps : List Bytes) (h : ∀ p ∈ ps, (3 : Byte) ∉ p) :
    Wire.params (paramString ps) = ps := by
  rw [Wire.paramString_eq]
  induction ps with
  | nil => rfl
  | cons p ps ih =>
    rw [List.flatMap_cons, List.append_assoc]
    show Wire.params (p ++ 3 :: _) = _
    rw [Wire.params_append p _ (h p (by simp))]
    exact congrArg _ (ih (fun q hq => h q (by simp [hq])))

/-- C14: also after travelling in a profile: the collector decodes the step and splits its parameter text. -/
theorem C14_params_in_profile (ss : SingleStep) (hash elapsed : BitVec 32) (level : BitVec 8) (ps : List Bytes)
    (h : ∀ p ∈ ps, (3 : Byte) ∉ p) (hl : (paramString ps).length ≤ 100000) :
    ∃ t, Wire.steps (stepsToBytes [some ⟨ss, .pmessage hash elapsed level (paramString ps)⟩]) =
      some [⟨ss.parent.toInt, ss.index.toInt, ss.startTime.toInt, 0,
        .pmessage hash.toInt elapsed.toInt level.toNat t⟩] ∧ Wire.params t = ps := by
  refine ⟨paramString ps, ?_, C14_params_recovered ps h⟩
  apply C13_profile_decodes
  simp [denoteStep, denoteBody, shown, hl]

/-- C14: with an ETX byte inside a parameter the split differs: one parameter becomes two. -/
theorem C14_etx_splits (a b : Bytes) (ha : (3 : Byte) ∉ a) (hb : (3 : Byte) ∉ b) :
    Wire.params (paramString [a ++ [3] ++ b]) = [a, b] := by
  have := C14_params_recovered [a, b] (by
    intro p hp
    rcases List.mem_cons.mp hp with h | h
    · exact h ▸ ha
    · exact (List.mem_singleton.mp h) ▸ hb)
  rw [← this, Wire.paramString_eq, Wire.paramString_eq]
  simp

example : Wire.params (paramString [ascii "id", [], ascii "x=1"]) = [ascii "id", [], ascii "x=1"] :=
  C14_params_recovered _ (by decide)

/-- C57: a dump step carries the type code of a method step, so a decoder takes it for one: every dump step without
stack hashes (and with a thread id below 2^56) is decoded as a method step with hash, elapsed and cpu time 0, and its
remaining bytes are taken for the next steps. -/
theorem C57_dump_step_read_as_method (ss : SingleStep) (tid : BitVec 64) (htid : tid.toNat < 2 ^ 56)
    (name state : Bytes) (lid : BitVec 64) (ln lo : Bytes) :
    ∃ rest, Wire.step (stepsToBytes [some ⟨ss, .dump [] tid name state lid ln lo⟩]) =
      some (⟨ss.parent.toInt, ss.index.toInt, ss.startTime.toInt, 0, .method 0 0 0⟩, rest) ∧ rest.length ≥ 15 := by
  rw [stepsToBytes_eq]
  have h0 : tid.extractLsb' 56 8 = 0 := by
    apply BitVec.eq_of_toNat_eq
    simp [BitVec.extractLsb'_toNat, Nat.shiftRight_eq_div_pow]
    omega
  have hz : ∀ r : Bytes, Wire.decimal (0 :: r) = some (0, r) := fun r => Wire.decimal_enc 0 r
  have key : ∀ r : Bytes, Wire.step (1 :: (encDec32 ss.parent ++ (encDec32 ss.index ++ (encDec32 ss.startTime ++
      (encDec32 0 ++ (0 :: 0 :: 0 :: r)))))) =
      some (⟨ss.parent.toInt, ss.index.toInt, ss.startTime.toInt, 0, .method 0 0 0⟩, r) := by
    intro r
    unfold Wire.step
    refine (Wire.bind_some (Wire.u1_cons _ _)).trans ?_
    refine (Wire.bind_some (Wire.decimal_enc32 _ _)).trans ?_
    refine (Wire.bind_some (Wire.decimal_enc32 _ _)).trans ?_
    refine (Wire.bind_some (Wire.decimal_enc32 _ _)).trans ?_
    refine (Wire.bind_some (Wire.decimal_enc32 _ _)).trans ?_
    rw [if_pos (by decide)]
    refine (Wire.bind_some (hz _)).trans ?_
    refine (Wire.bind_some (hz _)).trans ?_
    refine (Wire.bind_some (hz _)).trans ?_
    rfl
  have e : encStep ⟨ss, .dump [] tid name state lid ln lo⟩ = 1 :: (encDec32 ss.parent ++ (encDec32 ss.index ++
      (encDec32 ss.startTime ++ (encDec32 0 ++ (0 :: 0 :: 0 :: ((be64 tid).tail ++ (encString name ++
      (encString state ++ (be64 lid ++ (encString ln ++ encString lo)))))))))) := by
    simp [encStep, encSS, encBody, StepBody.stepType, encInt32Array, be16, be64, h0]
  refine ⟨(be64 tid).tail ++ (encString name ++ (encString state ++ (be64 lid ++ (encString ln ++ encString lo)))),
    ?_, ?_⟩
  · rw [← key, ← e]; simp
  · simp [be64]; omega

example : ∃ rest, Wire.step (stepsToBytes [some ⟨⟨-1, 3, 9⟩, .dump [] 42 (ascii "main") [] 0 [] []⟩]) =
      some (⟨-1, 3, 9, 0, .method 0 0 0⟩, rest) ∧ rest.length ≥ 15 :=
  C57_dump_step_read_as_method ⟨-1, 3, 9⟩ 42 (by decide) _ _ _ _ _

end Scouter
