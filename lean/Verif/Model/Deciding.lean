import Verif.Model.Sampler
/-!
# Sampling decisions while the configuration is being loaded (scouterx/conf/configure.go, scouterx/strace/xlogsampler.go)

`Refresh` writes the settings one after the other into the structure every goroutine reads (configure.go:334-413), then the sampler, being
notified, renews its matchers (xlogsampler.go:48-71).  It holds a lock (configure.go:211-213), which the readers do not take.  A goroutine
ending a service reads the settings it needs one after the other (tracemain.go:400-415, xlogsampler.go:73-251).  Here each read and each
write of a setting or matcher is a step of its own, in any interleaving (numbers and flags are single words, and of the patterns only is
read whether they are empty, xlogsampler.go:199, that is, their length; that reading a matcher, which is a slice, is not torn is assumed); the random draw and the
error of the service are given (see Model/Marking for errors that change meanwhile).
-/
namespace Scouter
namespace Deciding

/-- The options of one set, configure.go:81-122. -/
inductive Item where
  | enabled | patterns | onlyProfile | step1Ms | rate1 | step2Ms | rate2 | step3Ms | rate3 | over
deriving DecidableEq, Repr

/-- The four sets: the general one (configure.go:81-89) and three patterned ones (configure.go:91-122). -/
inductive Which where
  | general | pat1 | pat2 | pat3
deriving DecidableEq, Repr

/-- A setting the decision depends on, configure.go:76-122. -/
inductive Setting where
  | discardPatterns
  | of (w : Which) (i : Item)
deriving DecidableEq, Repr

/-- The type of an option, configure.go:81-122. -/
def Item.Ty : Item → Type
  | .enabled => Bool
  | .patterns => Bytes
  | .onlyProfile => Bool
  | .step1Ms => BitVec 32
  | .step2Ms => BitVec 32
  | .step3Ms => BitVec 32
  | .rate1 => Int
  | .rate2 => Int
  | .rate3 => Int
  | .over => Int

/-- The type of a setting, configure.go:76-122. -/
def Setting.Ty : Setting → Type
  | .discardPatterns => Bytes
  | .of _ i => i.Ty

/-- The value of an option, configure.go:81-122. -/
def item (r : RateConf) : (i : Item) → i.Ty
  | .enabled => r.enabled
  | .patterns => r.patterns
  | .onlyProfile => r.onlyProfile
  | .step1Ms => r.step1Ms
  | .step2Ms => r.step2Ms
  | .step3Ms => r.step3Ms
  | .rate1 => r.rate1
  | .rate2 => r.rate2
  | .rate3 => r.rate3
  | .over => r.over

/-- One of the sets, configure.go:81-122. -/
def rates (c : SampleConf) : Which → RateConf
  | .general => c.general
  | .pat1 => c.pat1
  | .pat2 => c.pat2
  | .pat3 => c.pat3

/-- The value of a setting, configure.go:76-122. -/
def setting (c : SampleConf) : (s : Setting) → s.Ty
  | .discardPatterns => c.discardPatterns
  | .of w i => item (rates c w) i

/-- Assignment of an option's new value, configure.go:369-412. -/
def copyItem (new old : RateConf) : Item → RateConf
  | .enabled => { old with enabled := new.enabled }
  | .patterns => { old with patterns := new.patterns }
  | .onlyProfile => { old with onlyProfile := new.onlyProfile }
  | .step1Ms => { old with step1Ms := new.step1Ms }
  | .step2Ms => { old with step2Ms := new.step2Ms }
  | .step3Ms => { old with step3Ms := new.step3Ms }
  | .rate1 => { old with rate1 := new.rate1 }
  | .rate2 => { old with rate2 := new.rate2 }
  | .rate3 => { old with rate3 := new.rate3 }
  | .over => { old with over := new.over }

/-- Assignment of a setting's new value, configure.go:366-412. -/
def copySetting (new old : SampleConf) : Setting → SampleConf
  | .discardPatterns => { old with discardPatterns := new.discardPatterns }
  | .of .general i => { old with general := copyItem new.general old.general i }
  | .of .pat1 i => { old with pat1 := copyItem new.pat1 old.pat1 i }
  | .of .pat2 i => { old with pat2 := copyItem new.pat2 old.pat2 i }
  | .of .pat3 i => { old with pat3 := copyItem new.pat3 old.pat3 i }

/-- The order of the assignments to a patterned set, configure.go:381-390 (and 392-401, 403-412). -/
def patternedOrder : List Item := [.enabled, .patterns, .onlyProfile, .step1Ms, .rate1, .step2Ms, .rate2, .step3Ms, .rate3, .over]

/-- The order of the assignments, configure.go:366-412; the exclusion patterns are assigned before the rest of the general set. -/
def assignments : List Setting :=
  [.discardPatterns] ++
  [Item.patterns, .enabled, .onlyProfile, .step1Ms, .rate1, .step2Ms, .rate2, .step3Ms, .rate3, .over].map (.of .general) ++
  patternedOrder.map (.of .pat1) ++ patternedOrder.map (.of .pat2) ++ patternedOrder.map (.of .pat3)

/-- The sampler's matchers, xlogsampler.go:21-25. -/
inductive Lst where
  | exclude | discard | pat1 | pat2 | pat3
deriving DecidableEq, Repr

/-- The matcher of a list of patterns, xlogsampler.go:21-25. -/
def matcher (s : Sampler) : Lst → List StrMatch
  | .exclude => s.exclude.2
  | .discard => s.discard.2
  | .pat1 => s.pat1.2
  | .pat2 => s.pat2.2
  | .pat3 => s.pat3.2

/-- One `if` of `Run`, xlogsampler.go:51-70. -/
def renewList (s : Sampler) (c : SampleConf) : Lst → Sampler
  | .exclude => { s with exclude := Sampler.renew s.exclude c.general.patterns }
  | .discard => { s with discard := Sampler.renew s.discard c.discardPatterns }
  | .pat1 => { s with pat1 := Sampler.renew s.pat1 c.pat1.patterns }
  | .pat2 => { s with pat2 := Sampler.renew s.pat2 c.pat2.patterns }
  | .pat3 => { s with pat3 := Sampler.renew s.pat3 c.pat3.patterns }

/-- A step of the refreshing goroutine: an assignment (configure.go:366-412) or an `if` of `Run` (xlogsampler.go:51-70). -/
inductive Instr where
  | assign (s : Setting) (new : SampleConf)
  | renew (l : Lst)

/-- `Refresh` with a changed file, as far as sampling is concerned: configure.go:366-412, then xlogsampler.go:48-71. -/
def refresh (new : SampleConf) : List Instr :=
  assignments.map (.assign · new) ++ [.renew .exclude, .renew .discard, .renew .pat1, .renew .pat2, .renew .pat3]

/-- What is left of a decision: the result, or the next setting or matcher read and what is done with it.
   Model only: the control flow of xlogsampler.go:73-251. -/
inductive Prog where
  | done (d : BitVec 8)
  | read (s : Setting) (k : s.Ty → Prog)
  | look (l : Lst) (k : List StrMatch → Prog)

/-- `isExcludeSamplingServicePattern` and the four like it, xlogsampler.go:198-251. -/
def isPattern (l : Lst) (name : Bytes) (k : Bool → Prog) : Prog :=
  let test := fun t : Bytes => if t = [] then k false else .look l fun m => k (chainedIsMatch m name)
  match l with
  | .exclude => .read (.of .general .patterns) test
  | .discard => .read .discardPatterns test
  | .pat1 => .read (.of .pat1 .patterns) test
  | .pat2 => .read (.of .pat2 .patterns) test
  | .pat3 => .read (.of .pat3 .patterns) test

/-- `sampling4Elapsed` and the three like it with `referToProfileMode`, xlogsampler.go:106-196. -/
def sampling (w : Which) (draw : Nat) (elapsed : BitVec 32) (mode : BitVec 8) (k : BitVec 8 → Prog) : Prog :=
  let judge := fun rate : Int =>
    if (draw : Int) ≥ rate then .read (.of w .onlyProfile) fun (p : Bool) => k (Sampler.profileMode p) else k mode
  .read (.of w .step1Ms) fun (ms : BitVec 32) =>
  if elapsed.toInt < ms.toInt then .read (.of w .rate1) judge
  else .read (.of w .step2Ms) fun (ms : BitVec 32) =>
  if elapsed.toInt < ms.toInt then .read (.of w .rate2) judge
  else .read (.of w .step3Ms) fun (ms : BitVec 32) =>
  if elapsed.toInt < ms.toInt then .read (.of w .rate3) judge
  else .read (.of w .over) judge

/-- One patterned rule of `eEvaluateXLogDiscard`, xlogsampler.go:81-86 (and 87-92, 93-98). -/
def rule (w : Which) (l : Lst) (draw : Nat) (elapsed : BitVec 32) (name : Bytes) (discarded : Bool) (mode : BitVec 8)
    (k : Bool → BitVec 8 → Prog) : Prog :=
  if discarded then k true mode
  else .read (.of w .enabled) fun (e : Bool) =>
    if e then isPattern l name fun b => if b then sampling w draw elapsed mode (k true) else k false mode
    else k false mode

/-- `eEvaluateXLogDiscard`, xlogsampler.go:73-104. -/
def evaluate (draw : Nat) (elapsed : BitVec 32) (name : Bytes) (k : BitVec 8 → Prog) : Prog :=
  let rest :=
    rule .pat1 .pat1 draw elapsed name false discardNone fun discarded mode =>
    rule .pat2 .pat2 draw elapsed name discarded mode fun discarded mode =>
    rule .pat3 .pat3 draw elapsed name discarded mode fun discarded mode =>
    if discarded then k mode
    else .read (.of .general .enabled) fun (e : Bool) => if e then sampling .general draw elapsed mode k else k mode
  .read (.of .general .enabled) fun (e : Bool) =>
    if e then isPattern .exclude name fun b => if b then k discardNone else rest
    else rest

/-- A service that ends: the draw, its error, elapsed time and name.  tracemain.go:400-415. -/
structure Question where
  draw : Nat
  error : BitVec 32
  elapsed : BitVec 32
  name : Bytes
deriving DecidableEq, Repr

/-- `findXLogDiscard`, tracemain.go:400-415. -/
def Question.code (q : Question) : Prog :=
  let last := fun mode : BitVec 8 =>
    isPattern .discard q.name fun b =>
      .done (if b then (if q.error ≠ 0 then discardNone else discardAllForce) else mode)
  if q.error ≠ 0 then last discardNone else evaluate q.draw q.elapsed q.name last

/-- What goroutines share, the rest of what the refreshing goroutine will do, and the goroutines deciding.
   Model only: configure.go:35-124, xlogsampler.go:14-26. -/
structure State where
  conf : SampleConf
  sampler : Sampler
  refresher : List Instr
  deciders : List Prog

/-- A step of the refreshing goroutine, configure.go:366-412, xlogsampler.go:51-70. -/
def State.refreshStep (s : State) : State :=
  match s.refresher with
  | [] => s
  | .assign f new :: is => { s with conf := copySetting new s.conf f, refresher := is }
  | .renew l :: is => { s with sampler := renewList s.sampler s.conf l, refresher := is }

/-- A step of a decision: a read.  xlogsampler.go:73-251. -/
def Prog.step (c : SampleConf) (m : Sampler) : Prog → Prog
  | .done d => .done d
  | .read f k => k (setting c f)
  | .look l k => k (matcher m l)

/-- One step: 0 is the refreshing goroutine, `i + 1` the `i`-th of those deciding.  Go language (scheduling); configure.go:211-253. -/
def State.fire (s : State) : Nat → State
  | 0 => s.refreshStep
  | i + 1 => { s with deciders := s.deciders.modify i (Prog.step s.conf s.sampler) }

/-- Many steps.  Go language (scheduling). configure.go:211-253. -/
def State.run (s : State) (is : List Nat) : State := is.foldl State.fire s

/-- Settings in effect, a sampler made from some settings or other (xlogsampler.go:28-46), configurations to be loaded one after the other, services ending.
   Model only: configure.go:162-167, tracemain.go:400-415. -/
def State.start (c : SampleConf) (made : SampleConf) (cs : List SampleConf) (qs : List Question) : State :=
  { conf := c, sampler := Sampler.new made, refresher := cs.flatMap refresh, deciders := qs.map Question.code }

end Deciding
end Scouter
