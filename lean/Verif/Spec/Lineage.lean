import Verif.Spec.Services
/-!
# Lineage of transactions
-/
namespace Scouter

/-- The service at `p` descends from the service at `r`: it is `r` itself, which has no caller, or its caller is the
transaction of a service that descends from `r`. -/
inductive Descends (w : World) : Nat → Nat → Prop
  | root {r : Nat} {t : Tctx} (h : w.tctxs[r]? = some t) (hc : t.caller = 0) : Descends w r r
  | child {p q r : Nat} {t u : Tctx} (h : w.tctxs[p]? = some t) (h' : w.tctxs[q]? = some u) (hc : t.caller = u.txid)
      (hd : Descends w q r) : Descends w p r

/-- The ids supplied by the generator for the first `n` readings are not 0. -/
def NonzeroIds (env : Oracle) (n : Nat) : Prop := ∀ i, i < n → env.id i ≠ 0

end Scouter
