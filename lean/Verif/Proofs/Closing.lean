import Verif.Proofs.Moves
/-!
# Sending a profile and ending a service, in full
-/
namespace Scouter
open TM Trace

/-- Bytes of all slices. -/
def bytesOf (w : World) (slices : List (List Nat)) : Nat :=
  (slices.map fun s => (stepsToBytes (s.map (fun i => w.steps[i]?))).length).sum

/-- What sending does to the context. -/
def afterSending (n size : Nat) (ptrs : List Nat) (t : Tctx) : Tctx :=
  { t with profileCount := t.profileCount + n, profileSize := t.profileSize + size, sentSteps := t.sentSteps ++ ptrs }

/-- A profile was sent, nothing else. -/
structure Sent (p : Nat) (t : Tctx) (slices : List (List Nat)) (w w' : World) : Prop where
  env : w'.env = w.env
  conf : w'.conf = w.conf
  tick : w.tick ≤ w'.tick
  steps : w'.steps = w.steps
  metered : w'.metered = w.metered
  registry : w'.registry = w.registry
  sampler : w'.sampler = w.sampler
  tctxs : w'.tctxs = w.tctxs.modify p (afterSending slices.flatten.length (bytesOf w slices) slices.flatten)
  packs : ∃ packs, w'.proxy.direct = w.proxy.direct ++ packs ∧ PacksFor w t slices packs
  proxy : w'.proxy = { w.proxy with direct := w'.proxy.direct }

theorem modify_modify {A : Type} (l : List A) (p : Nat) (f g : A → A) : (l.modify p f).modify p g = l.modify p (g ∘ f) := by
  apply List.ext_getElem?
  intro i
  simp only [List.getElem?_modify]
  by_cases h : p = i
  · simp [h]; rfl
  · simp [h]

theorem modify_id {A : Type} (l : List A) (p : Nat) (f : A → A) (h : ∀ a, f a = a) : l.modify p f = l := by
  apply List.ext_getElem?
  intro i
  rw [List.getElem?_modify]
  by_cases hp : p = i
  · subst hp; cases l[p]? <;> simp [h]
  · simp [hp]

theorem sendProfile0_run {w : World} {p : Nat} {t : Tctx} (h : w.tctxs[p]? = some t) (s : List Nat) (hs : s ≠ []) :
    ∃ w', sendProfile0 p s w = (.ok (), w') ∧ Sent p t [s] w w' := by
  unfold sendProfile0
  rw [if_neg hs, TM.bind_ok (getT_run h), TM.get_bind, TM.reading_bind]
  refine ⟨_, rfl, ⟨rfl, rfl, Nat.le_succ _, rfl, rfl, rfl, rfl, ?_, ?_, ?_⟩⟩
  · show w.tctxs.modify p _ = w.tctxs.modify p _
    congr 1
    funext x
    simp [afterSending, bytesOf]
  · refine ⟨_, rfl, ?_⟩
    exact .cons ⟨_, rfl⟩ .nil
  · rfl

theorem sendSlices_run {w : World} {p : Nat} {t : Tctx} (h : w.tctxs[p]? = some t) (ss : List (List Nat))
    (hne : ∀ s ∈ ss, s ≠ []) : ∃ w', sendSlices p ss w = (.ok (), w') ∧ Sent p t ss w w' := by
  induction ss generalizing w t with
  | nil =>
    refine ⟨w, rfl, ⟨rfl, rfl, Nat.le_refl _, rfl, rfl, rfl, rfl, ?_, ⟨[], by simp, .nil⟩, rfl⟩⟩
    exact (modify_id _ _ _ fun a => by simp [afterSending, bytesOf]).symm
  | cons s ss ih =>
    obtain ⟨w1, h1, s1⟩ := sendProfile0_run h s (hne s (by simp))
    have g1 : w1.tctxs[p]? = some (afterSending [s].flatten.length (bytesOf w [s]) [s].flatten t) := by
      rw [s1.tctxs, List.getElem?_modify, h]; simp
    obtain ⟨w2, h2, s2⟩ := ih g1 (fun x hx => hne x (by simp [hx]))
    refine ⟨w2, ?_, ?_⟩
    · show (sendProfile0 p s >>= fun _ => sendSlices p ss) w = _
      rw [TM.bind_ok h1]; exact h2
    · refine ⟨s2.env.trans s1.env, s2.conf.trans s1.conf, Nat.le_trans s1.tick s2.tick, s2.steps.trans s1.steps,
        s2.metered.trans s1.metered, s2.registry.trans s1.registry, s2.sampler.trans s1.sampler, ?_, ?_, by rw [s2.proxy, s1.proxy]⟩
      · rw [s2.tctxs, s1.tctxs, modify_modify]
        congr 1
        funext x
        simp [afterSending, bytesOf, s1.steps, Nat.add_assoc]
      · obtain ⟨p1, e1, f1⟩ := s1.packs
        obtain ⟨p2, e2, f2⟩ := s2.packs
        refine ⟨p1 ++ p2, by rw [e2, e1, List.append_assoc], ?_⟩
        cases f1 with
        | cons a b =>
          cases b
          refine .cons a ?_
          unfold PacksFor at f2
          rw [s1.steps, s1.conf] at f2
          exact f2

theorem sendProfile_run {w : World} {p : Nat} {t : Tctx} (h : w.tctxs[p]? = some t) (hb : 1 ≤ w.conf.bulk) (ptrs : List Nat) :
    ∃ w' slices, sendProfile p ptrs w = (.ok (), w') ∧ Sent p t slices w w' ∧ slices.flatten = ptrs ∧
      ∀ s ∈ slices, s ≠ [] ∧ (s.length : Int) ≤ w.conf.bulk := by
  obtain ⟨ps, h1, h2, h3, -⟩ := C34_slices ptrs w.conf.bulk hb
  obtain ⟨w', hw', hs⟩ := sendSlices_run h ps (fun s hs => (h3 s hs).1)
  refine ⟨w', ps, ?_, hs, h2, h3⟩
  unfold sendProfile
  rw [TM.get_bind, h1]
  exact hw'

theorem profileClose_run {w : World} {p : Nat} {t : Tctx} (h : w.tctxs[p]? = some t) (hb : 1 ≤ w.conf.bulk) (ok : Bool) :
    ∃ w' slices, profileClose p ok w = (.ok (), w') ∧ Sent p t slices w w' ∧
      slices.flatten = (if ok then t.col.kept else []) ∧ ∀ s ∈ slices, s ≠ [] ∧ (s.length : Int) ≤ w.conf.bulk := by
  unfold profileClose
  rw [TM.bind_ok (getT_run h)]
  unfold Collector.close
  by_cases hc : 0 < t.col.kept.length ∧ ok = true
  · rw [if_pos hc]
    obtain ⟨w', ss, h1, h2, h3, h4⟩ := sendProfile_run h hb t.col.kept
    exact ⟨w', ss, h1, h2, by rw [h3, hc.2]; rfl, h4⟩
  · rw [if_neg hc]
    refine ⟨w, [], rfl, ⟨rfl, rfl, Nat.le_refl _, rfl, rfl, rfl, rfl, ?_, ⟨[], by simp, .nil⟩, rfl⟩, ?_, by simp⟩
    · exact (modify_id _ _ _ fun a => by simp [afterSending, bytesOf]).symm
    · cases ok with
      | false => rfl
      | true =>
        have : t.col.kept = [] := List.length_eq_zero_iff.mp (by simp at hc; simpa using hc)
        simp [this]

/-- The elapsed time put in the log of a service ended now. -/
def elapsedAt (w : World) (t : Tctx) : BitVec 32 := millis t.startTime (w.env.clock w.tick)

/-- The sampling decision for a service ended now. -/
def decisionAt (w : World) (t : Tctx) : BitVec 8 :=
  (samplerOf w).findDiscard w.conf.sample (w.env.draw (w.tick + 1)) t.error (elapsedAt w t) t.serviceName

/-- The context as its log is made. -/
def closing (t : Tctx) : Tctx := { t with closed := true, serviceHash := textHash t.serviceName }

/-- Ending a running service, with a positive profile limit. -/
theorem endRest_full {w : World} {p : Nat} {t : Tctx} (h : w.tctxs[p]? = some t) (hb : 1 ≤ w.conf.bulk) :
    ∃ w' slices packs, endRest p w = (.ok (), w') ∧
      w'.env = w.env ∧ w'.conf = w.conf ∧ w.tick ≤ w'.tick ∧ w'.steps = w.steps ∧
      w'.registry = w.registry.remove t.txid ∧
      w'.metered = w.metered ++ [((elapsedAt w t).toInt, t.error != 0)] ∧
      w'.tctxs = w.tctxs.modify p (afterSending slices.flatten.length (bytesOf w slices) slices.flatten ∘ closing) ∧
      slices.flatten = (if decisionAt w t = discardNone then t.col.kept else []) ∧
      (∀ s ∈ slices, s ≠ [] ∧ (s.length : Int) ≤ w.conf.bulk) ∧
      PacksFor w (closing t) slices packs ∧
      w'.proxy.direct = w.proxy.direct ++ packs ++
        (if keepsXlog (xlogFor t (decisionAt w t) (elapsedAt w t)) = true then
          [.xlog { xlogFor t (decisionAt w t) (elapsedAt w t) with objHash := w.conf.objHash }] else []) := by
  obtain ⟨w1, x, hx, hrun, henv, hconf, htick, htc, hst, hm, hr, hd⟩ := endRest_run h
  have hx' : x = xlogFor t (decisionAt w t) (elapsedAt w t) := hx
  have g1 : w1.tctxs[p]? = some (closing t) := by rw [htc, List.getElem?_modify, h]; simp [closing]
  obtain ⟨w2, slices, h2, s2, hfl, hsz⟩ := profileClose_run g1 (by rw [hconf]; exact hb) (x.discardType == discardNone)
  obtain ⟨packs, hp1, hp2⟩ := s2.packs
  rw [hrun, TM.bind_ok h2]
  have e : (meter x.elapsed.toInt (x.error != 0)) w2 =
    (.ok (), { w2 with metered := w2.metered ++ [(x.elapsed.toInt, (x.error != 0))] }) := rfl
  rw [TM.bind_ok e]
  have hb' : bytesOf w1 slices = bytesOf w slices := by unfold bytesOf; rw [hst]
  have hpk : PacksFor w (closing t) slices packs := by
    unfold PacksFor at hp2 ⊢
    rw [hst, hconf] at hp2; exact hp2
  have hkept : slices.flatten = (if decisionAt w t = discardNone then t.col.kept else []) := by
    rw [hfl, hx']
    show (if (decisionAt w t == discardNone) = true then t.col.kept else []) = _
    simp
  have htc2 : w2.tctxs = w.tctxs.modify p (afterSending slices.flatten.length (bytesOf w slices) slices.flatten ∘ closing) := by
    rw [s2.tctxs, htc, modify_modify, hb']; rfl
  have hmet : w2.metered ++ [(x.elapsed.toInt, (x.error != 0))] = w.metered ++ [((elapsedAt w t).toInt, t.error != 0)] := by
    rw [s2.metered, hm, hx']; rfl
  have hsz' : ∀ s ∈ slices, s ≠ [] ∧ (s.length : Int) ≤ w.conf.bulk := by rw [← hconf]; exact hsz
  by_cases hk : keepsXlog x = true
  · rw [if_pos hk]
    refine ⟨_, slices, packs, rfl, s2.env.trans henv, s2.conf.trans hconf, ?_, s2.steps.trans hst, s2.registry.trans hr, hmet,
      htc2, hkept, hsz', hpk, ?_⟩
    · have := s2.tick; show w.tick ≤ w2.tick; omega
    · rw [hx'] at hk
      rw [if_pos hk]
      show w2.proxy.direct ++ [Pack.xlog { x with objHash := w2.conf.objHash }] = _
      rw [hp1, hd, s2.conf, hconf, hx']
  · rw [if_neg hk]
    refine ⟨_, slices, packs, rfl, s2.env.trans henv, s2.conf.trans hconf, ?_, s2.steps.trans hst, s2.registry.trans hr, hmet,
      htc2, hkept, hsz', hpk, ?_⟩
    · have := s2.tick; show w.tick ≤ w2.tick; omega
    · rw [hx'] at hk
      rw [if_neg hk]
      show w2.proxy.direct = _
      rw [hp1, hd]; simp

end Scouter
