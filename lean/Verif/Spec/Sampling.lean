import Verif.Model.Sampler
/-!
# What sampling should do

The elapsed-time bands in order, each with its rate in percent; a service belongs to the first band whose limit its elapsed
time is below, or to the last one, which has no limit.
-/
namespace Scouter

/-- The bands with a limit. -/
def RateConf.bands (r : RateConf) : List (BitVec 32 × Int) :=
  [(r.step1Ms, r.rate1), (r.step2Ms, r.rate2), (r.step3Ms, r.rate3)]

/-- The rate, in percent, for an elapsed time. -/
def RateConf.rateOf (r : RateConf) (elapsed : BitVec 32) : Int :=
  match r.bands.find? fun b => decide (elapsed.toInt < b.1.toInt) with
  | some b => b.2
  | none => r.over

/-- Whether a service is kept by a draw from 0..99: it failed, or sampling is off, or the draw is below the rate. -/
def RateConf.keeps (r : RateConf) (error elapsed : BitVec 32) (draw : Nat) : Bool :=
  error != 0 || !r.enabled || decide ((draw : Int) < r.rateOf elapsed)

/-- Which of the pattern options match a service's name. -/
structure Matches where
  exclude : Bool
  discard : Bool
  pat1 : Bool
  pat2 : Bool
  pat3 : Bool

/-- The rates that decide on a service: none if it is excluded; otherwise those of the first enabled pattern set that matches, or the general ones. -/
def SampleConf.decider (c : SampleConf) (m : Matches) : Option RateConf :=
  if c.general.enabled && m.exclude then none
  else ([(c.pat1, m.pat1), (c.pat2, m.pat2), (c.pat3, m.pat3), (c.general, true)].find? fun x => x.1.enabled && x.2).map (·.1)

/-- The decision on a service: a failed one is kept; one that matches the discard patterns is dropped; otherwise the draw must be below the rate. -/
def SampleConf.decide (c : SampleConf) (m : Matches) (draw : Nat) (error elapsed : BitVec 32) : BitVec 8 :=
  if error ≠ 0 then discardNone
  else if m.discard then discardAllForce
  else match c.decider m with
    | none => discardNone
    | some r => if (draw : Int) < r.rateOf elapsed then discardNone else if r.onlyProfile then discardProfile else discardAll

end Scouter
