import Verif.Model.Deciding
import Verif.Spec.Sampling
/-!
# What a decision made while configurations are loaded may be
-/
namespace Scouter
namespace Deciding

/-- Each option of `r` is that of one of the sets. -/
structure Mixture (rs : List RateConf) (r : RateConf) : Prop where
  enabled : ∃ x ∈ rs, r.enabled = x.enabled
  patterns : ∃ x ∈ rs, r.patterns = x.patterns
  onlyProfile : ∃ x ∈ rs, r.onlyProfile = x.onlyProfile
  step1Ms : ∃ x ∈ rs, r.step1Ms = x.step1Ms
  step2Ms : ∃ x ∈ rs, r.step2Ms = x.step2Ms
  step3Ms : ∃ x ∈ rs, r.step3Ms = x.step3Ms
  rate1 : ∃ x ∈ rs, r.rate1 = x.rate1
  rate2 : ∃ x ∈ rs, r.rate2 = x.rate2
  rate3 : ∃ x ∈ rs, r.rate3 = x.rate3
  over : ∃ x ∈ rs, r.over = x.over

/-- What the general set of options says of a service that ends (C39). -/
def fate (r : RateConf) (q : Question) : BitVec 8 :=
  if r.keeps q.error q.elapsed q.draw then discardNone else if r.onlyProfile then discardProfile else discardAll

/-- The `i`-th decision has come to this result. -/
def State.decided (s : State) (i : Nat) (d : BitVec 8) : Prop := s.deciders[i]? = some (.done d)

/-- The configurations are all loaded. -/
def State.loaded (s : State) : Prop := s.refresher = []

/-- The `i`-th service's decision has not begun. -/
def State.waiting (s : State) (i : Nat) (q : Question) : Prop := s.deciders[i]? = some q.code

/-- All rates are at least 100 percent. -/
def RateFull (r : RateConf) : Prop := 100 ≤ r.rate1 ∧ 100 ≤ r.rate2 ∧ 100 ≤ r.rate3 ∧ 100 ≤ r.over

/-- The two sets differ in at most one option. -/
def OneOption (r r' : RateConf) : Prop := ∃ i, ∀ j, j ≠ i → item r j = item r' j

end Deciding
end Scouter
