import Verif.Proofs.Recording
import Verif.Proofs.WirePack
import Verif.Props.IpText
/-!
# C73, C75: what a recording call does

`w` is any state reached by a history of calls, `p` any trace context made so far (running or ended) and `t` its state.
-/
namespace Scouter
open TM Trace

theorem splitByte_last (sep : Byte) (a b : Bytes) (hb : sep ∉ b) :
    (splitByte sep (a ++ sep :: b)).getLastD [] = b := by
  have key : ∀ a : Bytes, ∃ xs, splitByte sep (a ++ sep :: b) = xs ++ [b] ∧ xs ≠ [] := by
    intro a
    induction a with
    | nil => exact ⟨[[]], by simp [splitByte, splitByte_none sep b hb], by simp⟩
    | cons c a ih =>
      obtain ⟨xs, h, hn⟩ := ih
      by_cases hc : c = sep
      · exact ⟨[] :: xs, by simp [splitByte, hc, h], by simp⟩
      · cases xs with
        | nil => exact absurd rfl hn
        | cons x xs => exact ⟨(c :: x) :: xs, by simp [splitByte, hc, h], by simp⟩
  obtain ⟨xs, h, -⟩ := key a
  rw [h]; simp

theorem methodNameOf_path (dir base : Bytes) (hb : 47 ∉ base) : methodNameOf (dir ++ 47 :: base) = base ++ ascii "()" := by
  unfold methodNameOf
  rw [splitByte_last 47 dir base hb]

theorem methodNameOf_base (base : Bytes) (hb : 47 ∉ base) : methodNameOf base = base ++ ascii "()" := by
  unfold methodNameOf
  rw [splitByte_none 47 base hb]; rfl

section
variable {w : World} {p : Nat} {t : Tctx}

/-- **C73**: AddMessageStep records one message step with the text, begun at the time since the service's start. -/
theorem C73_message (hw : Reachable w) (h : w.tctxs[p]? = some t) (m : Bytes) :
    ∃ t', Wrote p t t' id [] 1 (w.steps ++ [stepAt t 0 (sinceStart w t) (.message m)]) [w.steps.length] t.col.parentLevel
      w (perform w (.addMessageStep (.traced p) m)) := by
  obtain ⟨w', t', h1, -, a⟩ := message_run hw.good h m
  rw [perform_of_run (c := .addMessageStep (.traced p) m) h1]
  exact ⟨t', a⟩

/-- **C73**: AddHashedMessageStep announces the text and records one step with its hash, the elapsed time and the value. -/
theorem C73_hashed_message (hw : Reachable w) (h : w.tctxs[p]? = some t) (m : Bytes) (value elapsed : BitVec 32) :
    ∃ t', Wrote p t t' id [(.hashMessage, m)] 1
      (w.steps ++ [stepAt t 0 (sinceStart w t) (.hashed (textHash m) elapsed value)]) [w.steps.length] t.col.parentLevel
      w (perform w (.addHashedMessageStep (.traced p) m value elapsed)) := by
  obtain ⟨w', t', h1, -, a⟩ := hashed_run hw.good h m value elapsed
  rw [perform_of_run (c := .addHashedMessageStep (.traced p) m value elapsed) h1]
  exact ⟨t', a⟩

/-- **C73**: AddPMessageStep announces the text and records one step with its hash, the elapsed time, the level and the
parameters, each followed by the byte 3. -/
theorem C73_parameterized_message (hw : Reachable w) (h : w.tctxs[p]? = some t) (level : BitVec 8) (m : Bytes)
    (elapsed : BitVec 32) (params : List Bytes) :
    ∃ t', Wrote p t t' id [(.hashMessage, m)] 1
      (w.steps ++ [stepAt t 0 (sinceStart w t) (.pmessage (textHash m) elapsed level (params.map (· ++ [3])).flatten)])
      [w.steps.length] t.col.parentLevel w (perform w (.addPMessageStep (.traced p) level m elapsed params)) := by
  obtain ⟨w', t', h1, -, a⟩ := pmessage_run hw.good h level m elapsed params
  rw [perform_of_run (c := .addPMessageStep (.traced p) level m elapsed params) h1, ← List.flatMap_def, ← Wire.paramString_eq]
  exact ⟨t', a⟩

/-- **C73**: AddStep records the given step itself, with its own start time and contents, under the next number. -/
theorem C73_given_step (hw : Reachable w) (h : w.tctxs[p]? = some t) (i : Nat) (s : Step) (hs : w.steps[i]? = some s) :
    ∃ t', Wrote p t t' id [] 1 (w.steps.set i (stepAt t 0 s.ss.startTime s.body)) [i] t.col.parentLevel
      w (perform w (.addStep (.traced p) (some i))) := by
  obtain ⟨w', t', h1, -, a⟩ := addStep_run hw.good h hs
  rw [perform_of_run (c := .addStep (.traced p) (some i)) h1]
  exact ⟨t', a⟩

/-- **C73**: MarkAsError makes the text the service's error unless it has one, and records it as a step of the level of
errors in any case. -/
theorem C73_error_mark (hw : Reachable w) (h : w.tctxs[p]? = some t) (m : Bytes) :
    ∃ t', Wrote p t t' (fun t => { t with error := if t.error = 0 then textHash m else t.error })
      ((if t.error = 0 then [(.error, m)] else []) ++ [(.hashMessage, m)]) 1
      (w.steps ++ [stepAt t 0 (sinceStart w t) (.pmessage (textHash m) 0 3 [])])
      [w.steps.length] t.col.parentLevel w (perform w (.markAsError (.traced p) m)) := by
  obtain ⟨w', t', h1, -, a⟩ := markAsError_run hw.good h m
  rw [perform_of_run (c := .markAsError (.traced p) m) h1]
  exact ⟨t', a⟩

/-- What the start of a method does: one message step per parameter that is not nil, then a method step with the hash of
the announced name, which stays open: it is returned, not recorded, and the steps that follow belong to it. -/
def MethodStarted (p : Nat) (t : Tctx) (funcName methodName : Bytes) (params : List (Option Bytes)) (w : World)
    (r : Outcome (Option Nat) × World) : Prop :=
  ∃ t' xs start, r.1 = .ok (some (w.steps.length + xs.length)) ∧
    xs.map (·.2) = (params.filterMap id).map (fun s => StepBody.message (ascii "param: " ++ s)) ∧
    (∀ x ∈ xs, ReadDuring t w r.2 x.1) ∧ ReadDuring t w r.2 start ∧
    Wrote p t t' (fun t => { t with lastMethod := funcName }) [(.method, methodName)] (xs.length + 1)
      (w.steps ++ stepsAt t 0 (xs ++ [(start, .method (textHash methodName) 0 0)])) (List.range' w.steps.length xs.length)
      (t.col.currentLevel + BitVec.ofNat 32 xs.length) w r.2

/-- **C73**: StartCustomMethodWithParam opens a method step of the given name. -/
theorem C73_custom_method_start (hw : Reachable w) (h : w.tctxs[p]? = some t) (name : Bytes) (params : List (Option Bytes)) :
    MethodStarted p t name name params w (startCustomMethod (.traced p) name params w) := by
  obtain ⟨w', t', xs, start, h1, -, h3, h4, h5, a⟩ := startMethod0_run hw.good h name name params
  have e : startCustomMethod (.traced p) name params w = (.ok (some (w.steps.length + xs.length)), w') := by
    refine recovered_run ?_
    rw [withTrace_run (traceOf_traced h), TM.bind_ok h1]
    rfl
  rw [e]
  exact ⟨t', xs, start, rfl, h3, h4, h5, a⟩

/-- **C73**: StartMethodWithParam opens a method step named by the function: what follows the last slash, with "()". -/
theorem C73_method_start (hw : Reachable w) (h : w.tctxs[p]? = some t) (dir base : Bytes) (hb : 47 ∉ base)
    (params : List (Option Bytes)) :
    MethodStarted p t (dir ++ 47 :: base) (base ++ ascii "()") params w (startMethod (.traced p) (dir ++ 47 :: base) params w) ∧
    MethodStarted p t base (base ++ ascii "()") params w (startMethod (.traced p) base params w) := by
  have key : ∀ fn, methodNameOf fn = base ++ ascii "()" →
      MethodStarted p t fn (base ++ ascii "()") params w (startMethod (.traced p) fn params w) := by
    intro fn hfn
    obtain ⟨w', t', xs, start, h1, -, h3, h4, h5, a⟩ := startMethod0_run hw.good h fn (methodNameOf fn) params
    have e : startMethod (.traced p) fn params w = (.ok (some (w.steps.length + xs.length)), w') := by
      refine recovered_run ?_
      rw [withTrace_run (traceOf_traced h), TM.bind_ok h1]
      rfl
    rw [e]
    rw [hfn] at a
    exact ⟨t', xs, start, rfl, h3, h4, h5, a⟩
  exact ⟨key _ (methodNameOf_path dir base hb), key _ (methodNameOf_base base hb)⟩

/-- **C73**: EndMethod records the step with the time it took, and later steps belong to what the method belongs to. -/
theorem C73_method_end (hw : Reachable w) (h : w.tctxs[p]? = some t) (i : Nat) (ss : SingleStep) (hash e cpu : BitVec 32)
    (hs : w.steps[i]? = some ⟨ss, .method hash e cpu⟩) :
    ∃ t', Wrote p t t' id [] 0 (w.steps.set i ⟨ss, .method hash (sinceStart w t - ss.startTime) cpu⟩) [i] ss.parent
      w (perform w (.endMethod (.traced p) (some i))) := by
  obtain ⟨w', t', h1, -, a⟩ := endMethod_run hw.good h hs
  rw [perform_of_run (c := .endMethod (.traced p) (some i)) h1]
  exact ⟨t', a⟩

/-- What the start of an api call does: a step with the hash of the announced name, a new transaction id for the callee
and the address (if any), which stays open. -/
def ApiCallStarted (p : Nat) (t : Tctx) (change : Tctx → Tctx) (name address : Bytes) (w : World) (i : Option Nat) (w' : World) : Prop :=
  i = some w.steps.length ∧ ∃ t', Wrote p t t' change [(.apicall, name)] 1
    (w.steps ++ [stepAt t 0 (sinceStart w t)
      (.apicall (w.env.id (w.tick + 1)) (textHash name) 0 0 0 (if address = [] then 0 else 1) address)])
    [] t.col.currentLevel w w'

/-- **C73**: StartApiCall opens an api-call step. -/
theorem C73_api_call_start (hw : Reachable w) (h : w.tctxs[p]? = some t) (name address : Bytes) :
    ∃ i w', startApiCall (.traced p) name address w = (.ok i, w') ∧ ApiCallStarted p t id name address w i w' := by
  obtain ⟨w', t', h1, -, a⟩ := startApiCall0_run hw.good h name address
  refine ⟨some w.steps.length, w', ?_, rfl, t', ?_⟩
  · refine recovered_run ?_
    rw [withTrace_run (traceOf_traced h), TM.bind_ok h1]
    rfl
  · have e : (if address ≠ [] then (1 : BitVec 8) else 0) = if address = [] then 0 else 1 := by split <;> simp_all
    rw [← e]; exact a

/-- **C75**: StartApiCallWithPropagation does the same, gives a service without a group its own, and adds to an outgoing
request exactly the headers naming the group, the calling service, the callee id of the recorded step and this object. -/
theorem C75_propagation (hw : Reachable w) (h : w.tctxs[p]? = some t) (name address : Bytes) (hasReq : Bool) :
    ∃ i w', startApiCallProp (.traced p) name address hasReq w =
        (.ok (i, if hasReq then propagated w t (w.env.id (w.tick + 1)) else []), w') ∧
      ApiCallStarted p t (fun t => { t with gxid := groupOf t }) name address w i w' := by
  obtain ⟨w', t', h1, -, a⟩ := startApiCallProp_run hw.good h name address hasReq
  refine ⟨some w.steps.length, w', h1, rfl, t', ?_⟩
  have e : (if address ≠ [] then (1 : BitVec 8) else 0) = if address = [] then 0 else 1 := by split <;> simp_all
  rw [← e]; exact a

/-- **C73**, **C75**: EndApiCall records the step with the time it took and the hash of the announced error text, if any;
the service's count of api calls grows by one, their time by that of this one, and the error becomes the service's
unless it has one. -/
theorem C73_api_call_end (hw : Reachable w) (h : w.tctxs[p]? = some t) (i : Nat) (ss : SingleStep) (txid : BitVec 64)
    (hash e cpu er : BitVec 32) (opt : BitVec 8) (addr : Bytes)
    (hs : w.steps[i]? = some ⟨ss, .apicall txid hash e cpu er opt addr⟩) (err : Option Bytes) :
    ∃ t', Wrote p t t' (afterApiCall (sinceStart w t - ss.startTime) err) (err.toList.map (.error, ·)) 0
      (w.steps.set i ⟨ss, .apicall txid hash (sinceStart w t - ss.startTime) cpu ((err.map textHash).getD er) opt addr⟩)
      [i] ss.parent w (perform w (.endApiCall (.traced p) (some i) err)) := by
  obtain ⟨w', t', h1, -, a⟩ := endApiCall_run hw.good h hs err
  rw [perform_of_run (c := .endApiCall (.traced p) (some i) err) h1]
  refine ⟨t', ?_⟩
  cases err <;> exact a

end
/-! ## Non-vacuity -/

namespace Demo

/-- A service in the middle of an api call inside a method. -/
def midway : List Call := richCalls.take 3

theorem midway_reachable : Reachable (history (start env conf 100) midway) :=
  ⟨env, conf, 100, midway, by decide, by decide, ⟨by simp [WellFormed], trivial, trivial, trivial⟩, rfl⟩

example : ∃ t, (history (start env conf 100) midway).tctxs[0]? = some t := by
  have : ((history (start env conf 100) midway).tctxs[0]?).isSome = true := by decide +kernel
  exact Option.isSome_iff_exists.mp this

/-- The open steps exist and are a method and an api call. -/
example : ((history (start env conf 100) midway).steps.map fun s => s.body.stepType) = [3, 3, 3, 1, 6] := by decide +kernel

end Demo
end Scouter
