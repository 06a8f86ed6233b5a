import Verif.Props.Stuck
import Verif.Props.Collector
/-!
# C119 at the collector: what it shows of a service ended because it is stuck
-/
namespace Scouter
open Trace Spec Wire

section
variable (env : Oracle) (conf : TraceConf) (cap : Nat) (cs : List Trace.Call) (hk : 1 ≤ conf.keep) (hb : 1 ≤ conf.bulk)
  (hwf : AllWellFormed (start env conf cap) cs) (o : MapOrder (BitVec 64 × Nat))
include hk hb hwf

/-- **C119**: the services found stuck in a count, after any history, removal being switched on; and whatever is called afterwards. When all datagrams have arrived, in whatever order, the collector
has exactly one log of each: the one told of it (`ToldStuck`), with an error. -/
theorem C119_stuck_log_at_collector (after : List Trace.Call)
    (hid : DistinctIds env (history (start env conf cap) (cs ++ .activeCount o :: after)).tick)
    (tr : Traffic (history (start env conf cap) (cs ++ .activeCount o :: after))) (ok : tr.Ok) (received : List Bytes)
    (hr : received.Perm (tr.calls.flatMap datagramsOf)) :
    let w := history (start env conf cap) cs
    let w' := perform w (.activeCount o)
    ∀ p ∈ (if w.conf.stuckRemove then stuckAmong w (env.clock w.tick) ((w.registry.getValues o).take 2000) else []),
      ∃ t x, w.tctxs[p]? = some t ∧ ToldStuck w w' p x ∧ logsOfId (obtained received) t.txid.toInt = [denoteXlog x] := by
  intro w w' p hp
  have he : history (start env conf cap) (cs ++ .activeCount o :: after) = history w' after := by simp [w, w', history, List.foldl_append]
  have hid0 : DistinctIds env w.tick := hid.mono (by
    rw [he]; exact Nat.le_trans (perform_tick _ _) (history_tick _ _))
  obtain ⟨h1, -, -⟩ := C119_stuck_services_are_told env conf cap cs hk hb hwf o hid0
  obtain ⟨x, hx, hxm⟩ : ∃ x, ToldStuck w w' p x ∧ x ∈ xlogsOf (newPacks w w') := by
    revert h1 hp
    show p ∈ _ → List.Forall₂ (ToldStuck w w') _ (xlogsOf (newPacks w w')) → _
    generalize (if w.conf.stuckRemove then stuckAmong w (env.clock w.tick) ((w.registry.getValues o).take 2000) else []) = ps
    generalize xlogsOf (newPacks w w') = xs
    intro hp h1
    induction h1 with
    | nil => simp at hp
    | cons a _ ih =>
      rcases List.mem_cons.mp hp with rfl | hp
      · exact ⟨_, a, by simp⟩
      · obtain ⟨y, b1, b2⟩ := ih hp
        exact ⟨y, b1, by simp [b2]⟩
  obtain ⟨t, t', ms, el, i, size, count, d1, d2, d3, d4, d5, d6, d7, d8, d9, d10, d11⟩ := hx.told
  refine ⟨t, x, d1, hx, ?_⟩
  have htx : x.txid = t.txid := by rw [d11]; rfl
  obtain ⟨-, h2, -⟩ := traffic_obtained env conf cap _ tr ok
  have hp := h2 received hr
  have hmem : x ∈ xlogsOf (history (start env conf cap) (cs ++ .activeCount o :: after)).proxy.direct := by
    rw [he]
    obtain ⟨⟨l, e, -⟩, -⟩ := grow_history after w'
    rw [e, xlogsOf_append]
    refine List.mem_append_left _ ?_
    obtain ⟨q, hq, e⟩ := List.mem_filterMap.1 hxm
    exact List.mem_filterMap.2 ⟨q, List.mem_of_mem_drop hq, e⟩
  have h1 := logsOfId_perm hp t.txid.toInt
  rw [logsOfId_denoted, packsOf, xlogsOf_append] at h1
  have e0 : xlogsOf (List.map Pack.text (history (start env conf cap) (cs ++ .activeCount o :: after)).proxy.offered) = [] := by
    simp [xlogsOf]
  rw [e0, List.append_nil, ← htx, filter_unique (C36_at_most_one_log env conf cap _ hid).1 hmem] at h1
  rw [← htx]
  exact List.perm_singleton.1 h1

/-- **C119**: and when the datagrams of the packs sent directly have arrived in order, the collector's profile of such a service is the recorded steps and the one that says it was stuck. -/
theorem C119_stuck_profile_at_collector (ho : AllOnce (start env conf cap) cs)
    (hid : DistinctIds env (history (start env conf cap) (cs ++ [.activeCount o])).tick)
    (tr : Traffic (history (start env conf cap) (cs ++ [.activeCount o]))) (ok : tr.Ok) (received : List Bytes)
    (hr : received.Perm (tr.calls.flatMap datagramsOf)) (hord : (tr.direct.flatMap datagramsOf).Sublist received) :
    let w := history (start env conf cap) cs
    let w' := perform w (.activeCount o)
    ∀ p ∈ (if w.conf.stuckRemove then stuckAmong w (env.clock w.tick) ((w.registry.getValues o).take 2000) else []),
      ∃ t ms, w.tctxs[p]? = some t ∧ ReadDuring t w w' ms ∧
        profileFor (obtained received) t.txid.toInt = stepsToBytes (t.recorded.map (w.steps[·]?) ++ [some (stuckStep t ms)]) := by
  intro w w' p hp
  have e1 : history (start env conf cap) (cs ++ [.activeCount o]) = w' := by simp [history, w', w]
  have hid' : DistinctIds env w'.tick := by rw [← e1]; exact hid
  obtain ⟨t, ms, a1, a2, a3⟩ := C119_stuck_profile_complete env conf cap cs hk hb hwf o ho hid' p hp
  refine ⟨t, ms, a1, a2, ?_⟩
  rw [C107_profile_in_order env conf cap _ tr ok received hr hord, e1]
  exact a3

end

namespace Demo
open Sender

/-- `busy`, and the count that ends its stuck service. -/
def unstuckWorld : World := history (start env busyConf 100) (busyCalls ++ .activeCount inOrder :: [])

def unstuckSchedule : List (Bytes ⊕ Int) :=
  unstuckWorld.proxy.offered.map (fun t => .inl (onWire (.text t))) ++ List.replicate 40 (.inr 60)
def unstuckQueue : State := (Scouter.exec { cap := 100 } unstuckSchedule).getD { cap := 100 }

theorem unstuckQueue_facts : (Scouter.exec { cap := 100 } unstuckSchedule).isSome = true ∧ unstuckQueue.queue = [] ∧ unstuckQueue.phase = .top ∧
    unstuckQueue.accepted = unstuckWorld.proxy.offered.map fun t => onWire (.text t) := by
  refine ⟨by decide +kernel, by decide +kernel, by decide +kernel, by decide +kernel⟩

theorem unstuckQueue_reachable : Sender.Reachable unstuckQueue := by
  obtain ⟨q, hq⟩ := Option.isSome_iff_exists.1 unstuckQueue_facts.1
  have : unstuckQueue = q := by unfold unstuckQueue; rw [hq]; rfl
  rw [this]
  exact exec_reachable _ _ _ (.init 100) hq

def unstuckTraffic : Traffic unstuckWorld where
  queue := unstuckQueue
  reachable := unstuckQueue_reachable
  rest := ⟨unstuckQueue_facts.2.1, unstuckQueue_facts.2.2.1⟩
  accepted := unstuckQueue_facts.2.2.2
  max := fun _ => 60
  ids := fun i n => BitVec.ofNat 64 (1 + 100 * i + n)
  queueMax := fun _ => 60
  queueIds := fun i n => BitVec.ofNat 64 (10000 + 100 * i + n)

theorem unstuckTraffic_ok : unstuckTraffic.Ok where
  small := fun _ => (by decide : 60 ≤ 65535)
  fits := by unfold Transmission.Fits; decide +kernel
  distinct := by decide +kernel

/-- The collector has one log of the stuck service, with an error. -/
example : ∃ t x, busy.tctxs[0]? = some t ∧ logsOfId (obtained (unstuckTraffic.calls.flatMap datagramsOf)) t.txid.toInt = [denoteXlog x] ∧ x.error ≠ 0 := by
  obtain ⟨t, x, h1, h2, h3⟩ := C119_stuck_log_at_collector env busyConf 100 busyCalls (by decide) (by decide) ⟨trivial, trivial, trivial, trivial, trivial, trivial⟩
    inOrder [] (ids_distinct _ (by decide +kernel)) unstuckTraffic unstuckTraffic_ok _ (.refl _) 0 (by decide +kernel)
  exact ⟨t, x, h1, h3, (C119_stuck_log_has_error h2).1⟩

end Demo
end Scouter
