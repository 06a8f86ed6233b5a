import Verif.Model.Util
/-!
# Sampling of transaction logs (scouterx/strace/xlogsampler.go)

`rand.Intn(100)` is a parameter (`draw`, below 100 in Go).  The elapsed-time limits are `int32`, the rates `int`.
-/
namespace Scouter

/-- One set of sampling options: the general one (configure.go:81-89) or one of the three patterned ones
(configure.go:91-122), which have the same fields; `patterns` is the exclude list for the general set. -/
structure RateConf where
  enabled : Bool
  patterns : Bytes
  onlyProfile : Bool
  step1Ms : BitVec 32
  step2Ms : BitVec 32
  step3Ms : BitVec 32
  rate1 : Int
  rate2 : Int
  rate3 : Int
  over : Int
deriving DecidableEq, Repr

/-- The options the sampler reads, configure.go:76-122. -/
structure SampleConf where
  discardPatterns : Bytes
  general : RateConf
  pat1 : RateConf
  pat2 : RateConf
  pat3 : RateConf
deriving DecidableEq, Repr

/-- `XLOG_DISCARD_*`, xlogpack.go:16-20. -/
def discardNone : BitVec 8 := 1
/-- `XlogDiscardType` constants: xlogpack.go:16-21. -/
def discardAll : BitVec 8 := 2
/-- `XlogDiscardType` constants: xlogpack.go:16-21. -/
def discardProfile : BitVec 8 := 3
/-- `XlogDiscardType` constants: xlogpack.go:16-21. -/
def discardAllForce : BitVec 8 := 4

/-- `XlogSampler`, xlogsampler.go:14-26: for every pattern list the text it was built from and the matchers. -/
structure Sampler where
  exclude : Bytes × List StrMatch
  discard : Bytes × List StrMatch
  pat1 : Bytes × List StrMatch
  pat2 : Bytes × List StrMatch
  pat3 : Bytes × List StrMatch
deriving DecidableEq, Repr

namespace Sampler

/-- `GetXlogSampler`, xlogsampler.go:28-46, the first time: built from the configuration of that moment. -/
def new (c : SampleConf) : Sampler where
  exclude := (c.general.patterns, newChainedMatcher c.general.patterns)
  discard := (c.discardPatterns, newChainedMatcher c.discardPatterns)
  pat1 := (c.pat1.patterns, newChainedMatcher c.pat1.patterns)
  pat2 := (c.pat2.patterns, newChainedMatcher c.pat2.patterns)
  pat3 := (c.pat3.patterns, newChainedMatcher c.pat3.patterns)

/-- One `if` of `Run`, xlogsampler.go:51-54. -/
def renew (cur : Bytes × List StrMatch) (text : Bytes) : Bytes × List StrMatch :=
  if cur.1 ≠ text then (text, newChainedMatcher text) else cur

/-- `Run`, xlogsampler.go:48-71. -/
def run (s : Sampler) (c : SampleConf) : Sampler where
  exclude := renew s.exclude c.general.patterns
  discard := renew s.discard c.discardPatterns
  pat1 := renew s.pat1 c.pat1.patterns
  pat2 := renew s.pat2 c.pat2.patterns
  pat3 := renew s.pat3 c.pat3.patterns

/-- `isExcludeSamplingServicePattern`, `isDiscardServicePattern`, `isSamplingServicePattern`,
`isSampling2ServicePattern`, `isSampling3ServicePattern`: xlogsampler.go:198-251. -/
def isPattern (confText : Bytes) (m : Bytes × List StrMatch) (name : Bytes) : Bool :=
  if confText = [] then false else chainedIsMatch m.2 name

/-- `referToProfileMode`, xlogsampler.go:190-196. -/
def profileMode (onlyProfile : Bool) : BitVec 8 := if onlyProfile then discardProfile else discardAll

/-- `sampling4Elapsed`, xlogsampler.go:106-125, `samplingPatterned1`, :127-146, `samplingPatterned2`, :148-167,
`samplingPatterned3`, :169-188: the same code over four sets of options. -/
def sampling (r : RateConf) (draw : Nat) (elapsed : BitVec 32) (mode : BitVec 8) : BitVec 8 :=
  if elapsed.toInt < r.step1Ms.toInt then
    if (draw : Int) ≥ r.rate1 then profileMode r.onlyProfile else mode
  else if elapsed.toInt < r.step2Ms.toInt then
    if (draw : Int) ≥ r.rate2 then profileMode r.onlyProfile else mode
  else if elapsed.toInt < r.step3Ms.toInt then
    if (draw : Int) ≥ r.rate3 then profileMode r.onlyProfile else mode
  else
    if (draw : Int) ≥ r.over then profileMode r.onlyProfile else mode

/-- `eEvaluateXLogDiscard`, xlogsampler.go:73-104.  At most one draw is made. -/
def evaluate (s : Sampler) (c : SampleConf) (draw : Nat) (elapsed : BitVec 32) (name : Bytes) : BitVec 8 :=
  if c.general.enabled ∧ isPattern c.general.patterns s.exclude name = true then discardNone
  else
    let (discarded, mode) :=
      if c.pat1.enabled then
        if isPattern c.pat1.patterns s.pat1 name then (true, sampling c.pat1 draw elapsed discardNone)
        else (false, discardNone)
      else (false, discardNone)
    let (discarded, mode) :=
      if !discarded && c.pat2.enabled then
        if isPattern c.pat2.patterns s.pat2 name then (true, sampling c.pat2 draw elapsed mode)
        else (false, mode)
      else (discarded, mode)
    let (discarded, mode) :=
      if !discarded && c.pat3.enabled then
        if isPattern c.pat3.patterns s.pat3 name then (true, sampling c.pat3 draw elapsed mode)
        else (false, mode)
      else (discarded, mode)
    if !discarded && c.general.enabled then sampling c.general draw elapsed mode else mode

/-- `findXLogDiscard`, scouterx/strace/tracemain.go:400-415. -/
def findDiscard (s : Sampler) (c : SampleConf) (draw : Nat) (error : BitVec 32) (elapsed : BitVec 32)
    (name : Bytes) : BitVec 8 :=
  let mode := if error ≠ 0 then discardNone else s.evaluate c draw elapsed name
  if isPattern c.discardPatterns s.discard name then
    if error ≠ 0 then discardNone else discardAllForce
  else mode

end Sampler
end Scouter
