import Verif.Spec.Recording
import Verif.Spec.Apart
/-!
# What the calls of a service tell a collector

Every call of the API about a running service says which steps it puts into the service's profile: `Tells` lists them,
call by call, and `Story` strings them together over a history in which the calls of any number of other services may
come in between.
-/
namespace Scouter
open Trace

/-- The steps a call about the service at `p`, whose context is `t`, adds to its profile when it is made in `w`. -/
inductive Tells (p : Nat) (w : World) (t : Tctx) : Call → List Step → Prop
  | message (m : Bytes) : Tells p w t (.addMessageStep (.traced p) m) [stepAt t 0 (sinceStart w t) (.message m)]
  | hashed (m : Bytes) (value elapsed : BitVec 32) : Tells p w t (.addHashedMessageStep (.traced p) m value elapsed)
      [stepAt t 0 (sinceStart w t) (.hashed (textHash m) elapsed value)]
  | parameterized (level : BitVec 8) (m : Bytes) (elapsed : BitVec 32) (params : List Bytes) :
      Tells p w t (.addPMessageStep (.traced p) level m elapsed params)
        [stepAt t 0 (sinceStart w t) (.pmessage (textHash m) elapsed level (params.map (· ++ [3])).flatten)]
  | error (m : Bytes) : Tells p w t (.markAsError (.traced p) m) [stepAt t 0 (sinceStart w t) (.pmessage (textHash m) 0 3 [])]
  | forcedError (m : Bytes) : Tells p w t (.markAsErrorForcibly (.traced p) m) []
  | given (i : Nat) (s : Step) (h : w.steps[i]? = some s) :
      Tells p w t (.addStep (.traced p) (some i)) [stepAt t 0 s.ss.startTime s.body]
  | methodBegin (name : Bytes) (params : List (Option Bytes)) (xs : List (BitVec 32 × StepBody))
      (hx : xs.map (·.2) = (params.filterMap id).map (fun s => StepBody.message (ascii "param: " ++ s)))
      (ht : ∀ x ∈ xs, ReadDuring t w (perform w (.startMethod (.traced p) name params)) x.1) :
      Tells p w t (.startMethod (.traced p) name params) (stepsAt t 0 xs)
  | customMethodBegin (name : Bytes) (params : List (Option Bytes)) (xs : List (BitVec 32 × StepBody))
      (hx : xs.map (·.2) = (params.filterMap id).map (fun s => StepBody.message (ascii "param: " ++ s)))
      (ht : ∀ x ∈ xs, ReadDuring t w (perform w (.startCustomMethod (.traced p) name params)) x.1) :
      Tells p w t (.startCustomMethod (.traced p) name params) (stepsAt t 0 xs)
  | methodEnd (i : Nat) (ss : SingleStep) (hash e cpu : BitVec 32) (h : w.steps[i]? = some ⟨ss, .method hash e cpu⟩) :
      Tells p w t (.endMethod (.traced p) (some i)) [⟨ss, .method hash (sinceStart w t - ss.startTime) cpu⟩]
  | noMethodEnd : Tells p w t (.endMethod (.traced p) none) []
  | apiBegin (name address : Bytes) : Tells p w t (.startApiCall (.traced p) name address) []
  | apiBeginProp (name address : Bytes) (r : Bool) : Tells p w t (.startApiCallProp (.traced p) name address r) []
  | apiEnd (i : Nat) (ss : SingleStep) (txid : BitVec 64) (hash e cpu er : BitVec 32) (opt : BitVec 8) (addr : Bytes)
      (err : Option Bytes) (h : w.steps[i]? = some ⟨ss, .apicall txid hash e cpu er opt addr⟩) :
      Tells p w t (.endApiCall (.traced p) (some i) err)
        [⟨ss, .apicall txid hash (sinceStart w t - ss.startTime) cpu ((err.map textHash).getD er) opt addr⟩]
  | noApiEnd (err : Option Bytes) : Tells p w t (.endApiCall (.traced p) none err) []
  | child (name : Bytes) (start : BitVec 32) (h : ReadDuring t w (perform w (.goWithTrace (.traced p) name)) start) :
      Tells p w t (.goWithTrace (.traced p) name) [stepAt t 0 start (.async (w.env.id w.tick) (textHash name) 0)]
  | childBegins : Tells p w t (.goBegin (.traced p)) []
  | rename (name : Bytes) : Tells p w t (.setServiceName (.traced p) name) []
  | askStream : Tells p w t (.isStream (.traced p)) []
  | asStream : Tells p w t (.setAsStream (.traced p)) []
  | fields (l d t1 t2 t3 t4 t5 : Bytes) : Tells p w t (.setFields p l d t1 t2 t3 t4 t5) []
  | nested (name ip : Bytes) : Tells p w t (.startService (.traced p) name ip) []
  | nestedHttp (r : Option Request) : Tells p w t (.startHttpService (.traced p) r) []

/-- The steps that the calls `cs`, made one after the other from `w` on, add to the profile of the service at `p`. -/
inductive Story (p : Nat) : World → List Call → List Step → Prop
  | done (w : World) : Story p w [] []
  | elsewhere {w : World} {c : Call} {cs : List Call} {ss : List Step} (h : Elsewhere p w c) (rest : Story p (perform w c) cs ss) :
      Story p w (c :: cs) ss
  | tells {w : World} {t : Tctx} {c : Call} {cs : List Call} {now later : List Step} (ht : w.tctxs[p]? = some t)
      (h : Tells p w t c now) (rest : Story p (perform w c) cs later) : Story p w (c :: cs) (now ++ later)

/-- A call ends nothing but what it may: a method call gets a method step, an api call an api call step (the types of
the API's arguments see to that), and the service at `p` is not ended, nor found stuck and removed. -/
def Goes (p : Nat) (w : World) : Call → Prop
  | .endMethod (.traced _) (some i) => ∃ ss h e c, w.steps[i]? = some ⟨ss, .method h e c⟩
  | .endApiCall (.traced _) (some i) _ => ∃ ss tx h e c er o a, w.steps[i]? = some ⟨ss, .apicall tx h e c er o a⟩
  | .endService c => ctxOf c ≠ some p
  | .endHttpService c _ => ctxOf c ≠ some p
  | .activeCount _ => w.conf.stuckRemove = false ∨ NotStuck p w
  | _ => True

/-- Every call of a history does. -/
def AllGo (p : Nat) : World → List Call → Prop
  | _, [] => True
  | w, c :: cs => Goes p w c ∧ AllGo p (perform w c) cs

end Scouter
