import Verif.Props.Panics
import Mathlib.Data.List.Forall2
/-!
# C34, C35, C38, C61: what is sent when a service ends
-/
namespace Scouter
open TM Trace

/-- The packs sent by a call. -/
def newPacks (w w' : World) : List Pack := w'.proxy.direct.drop w.proxy.direct.length

/-- Ending a running service through the API, in full (see `endRest_full`). -/
theorem endService_full {w : World} {p : Nat} {t : Tctx} (h : w.tctxs[p]? = some t) (hc : t.closed = false)
    (hb : 1 ≤ w.conf.bulk) :
    ∃ slices packs, (perform w (.endService (.traced p))).metered = w.metered ++ [((elapsedAt w t).toInt, t.error != 0)] ∧
      (perform w (.endService (.traced p))).tctxs =
        w.tctxs.modify p (afterSending slices.flatten.length (bytesOf w slices) slices.flatten ∘ closing) ∧
      slices.flatten = (if decisionAt w t = discardNone then t.col.kept else []) ∧
      (∀ s ∈ slices, s ≠ [] ∧ (s.length : Int) ≤ w.conf.bulk) ∧
      PacksFor w (closing t) slices packs ∧
      newPacks w (perform w (.endService (.traced p))) = packs ++
        (if keepsXlog (xlogFor t (decisionAt w t) (elapsedAt w t)) = true then
          [.xlog { xlogFor t (decisionAt w t) (elapsedAt w t) with objHash := w.conf.objHash }] else []) := by
  obtain ⟨w', slices, packs, hr, -, -, -, -, -, h1, h2, h3, h4, h5, h6⟩ := endRest_full h hb
  have hp : p < w.tctxs.length := (List.getElem?_eq_some_iff.mp h).1
  have e : perform w (.endService (.traced p)) = w' := by
    have : Trace.endService (.traced p) w = (.ok (), w') := by
      refine recovered_ok ?_
      unfold endAnyService
      rw [withTrace_run (p := p) (by simp [traceOf, hp]), TM.bind_ok (getT_run h), hc]
      show endTctx p w = _
      unfold endTctx
      rw [TM.bind_ok (getT_run h), hc]
      exact hr
    show (Trace.endService (.traced p) w).2 = w'
    rw [this]
  rw [e]
  refine ⟨slices, packs, h1, h2, h3, h4, h5, ?_⟩
  unfold newPacks
  rw [h6, List.append_assoc, List.drop_left]

theorem xlogsOf_packsFor {w : World} {t : Tctx} {slices : List (List Nat)} {packs : List Pack} (h : PacksFor w t slices packs) :
    xlogsOf packs = [] := by
  induction h with
  | nil => rfl
  | cons a _ ih => obtain ⟨e, rfl⟩ := a; exact ih

theorem profilesOf_packsFor {w : World} {t : Tctx} {slices : List (List Nat)} {packs : List Pack} (h : PacksFor w t slices packs) :
    List.Forall₂ (fun s (pk : XlogProfilePack) => pk.txid = t.txid ∧ pk.service = t.serviceHash ∧ pk.objHash = w.conf.objHash ∧
      pk.profile = stepsToBytes (s.map (fun i => w.steps[i]?))) slices (profilesOf packs) := by
  induction h with
  | nil => exact .nil
  | cons a _ ih => obtain ⟨e, rfl⟩ := a; exact .cons ⟨rfl, rfl, rfl, rfl⟩ ih

@[simp] theorem profilesOf_append (a b : List Pack) : profilesOf (a ++ b) = profilesOf a ++ profilesOf b := by simp [profilesOf]

/-- **C61**: ending a running service sends at most one transaction log, and that log carries the service's own data:
ids, name, error, status, client address, counts, texts, and the elapsed time and sampling decision of this moment. -/
theorem C61_log_carries_the_service (w : World) (p : Nat) (t : Tctx) (h : w.tctxs[p]? = some t) (hc : t.closed = false)
    (hb : 1 ≤ w.conf.bulk) :
    xlogsOf (newPacks w (perform w (.endService (.traced p)))) =
      if keepsXlog (xlogFor t (decisionAt w t) (elapsedAt w t)) = true then
        [{ xlogFor t (decisionAt w t) (elapsedAt w t) with objHash := w.conf.objHash }] else [] := by
  obtain ⟨slices, packs, -, -, -, -, h5, h6⟩ := endService_full h hc hb
  rw [h6, xlogsOf_append, xlogsOf_packsFor h5]
  split <;> rfl

/-- **C61**, for an HTTP service: the log also carries the status of the response. -/
theorem C61_http_log_carries_the_status (w : World) (p : Nat) (t : Tctx) (s : BitVec 32) (h : w.tctxs[p]? = some t)
    (hc : t.closed = false) (hb : 1 ≤ w.conf.bulk) :
    ∀ x ∈ xlogsOf (newPacks w (perform w (.endHttpService (.traced p) (some s)))), x.status = s ∧ x.txid = t.txid := by
  have hp : p < w.tctxs.length := (List.getElem?_eq_some_iff.mp h).1
  have e : perform w (.endHttpService (.traced p) (some s)) =
      perform { w with tctxs := w.tctxs.modify p fun t => { t with status := s } } (.endService (.traced p)) := by
    have key : (withTrace (.traced p) () fun q => do
        let t ← getT q
        if t.closed then return () else do
          modT q fun t => { t with status := s }
          endAnyService (.traced p)) w =
        endAnyService (.traced p) { w with tctxs := w.tctxs.modify p fun t => { t with status := s } } := by
      rw [withTrace_run (p := p) (by simp [traceOf, hp]), TM.bind_ok (getT_run h), hc]
      rfl
    show (Trace.endHttpService (.traced p) (some s) w).2 = (Trace.endService (.traced p) _).2
    unfold Trace.endHttpService Trace.endService recovered
    simp only
    rw [key]
  have h' : ({ w with tctxs := w.tctxs.modify p fun t => { t with status := s } } : World).tctxs[p]? =
      some { t with status := s } := by simp [h]
  have hx := C61_log_carries_the_service { w with tctxs := w.tctxs.modify p fun t => { t with status := s } } p _ h' hc hb
  intro x hm
  rw [e] at hm
  have hm : x ∈ xlogsOf (newPacks { w with tctxs := w.tctxs.modify p fun t => { t with status := s } } _) := hm
  rw [hx] at hm
  split at hm
  · simp only [List.mem_singleton] at hm
    subst hm
    exact ⟨rfl, rfl⟩
  · simp at hm

/-! ## C38 -/

/-- With an error recorded the decision is to keep everything. -/
theorem decision_of_error (w : World) (t : Tctx) (he : t.error ≠ 0) : decisionAt w t = discardNone := by
  unfold decisionAt Sampler.findDiscard
  simp only
  rw [if_pos he, if_pos he, ite_self]

theorem keeps_none (t : Tctx) (e : BitVec 32) : keepsXlog (xlogFor t discardNone e) = true := rfl

/-- **C38**: when a service with an error recorded ends, its log is sent, marked with the error, and its buffered profile
is sent, whatever the sampling and discard options, the sampler and the random draws. -/
theorem C38_failed_service_is_never_dropped (w : World) (p : Nat) (t : Tctx) (h : w.tctxs[p]? = some t) (hc : t.closed = false)
    (hb : 1 ≤ w.conf.bulk) (he : t.error ≠ 0) :
    ∃ x slices, xlogsOf (newPacks w (perform w (.endService (.traced p)))) = [x] ∧ x.txid = t.txid ∧ x.error = t.error ∧
      x.discardType = discardNone ∧ slices.flatten = t.col.kept ∧
      List.Forall₂ (fun s (pk : XlogProfilePack) => pk.txid = t.txid ∧ pk.profile = stepsToBytes (s.map (fun i => w.steps[i]?)))
        slices (profilesOf (newPacks w (perform w (.endService (.traced p))))) := by
  obtain ⟨slices, packs, -, -, h3, -, h5, h6⟩ := endService_full h hc hb
  rw [decision_of_error w t he] at h6 h3
  rw [if_pos (keeps_none t _)] at h6
  refine ⟨{ xlogFor t discardNone (elapsedAt w t) with objHash := w.conf.objHash }, slices, ?_, rfl, rfl, rfl,
    h3.trans (if_pos rfl), ?_⟩
  · rw [h6, xlogsOf_append, xlogsOf_packsFor h5]; rfl
  · rw [h6, profilesOf_append]
    have := profilesOf_packsFor h5
    have e : profilesOf [Pack.xlog { xlogFor t discardNone (elapsedAt w t) with objHash := w.conf.objHash }] = [] := rfl
    rw [e, List.append_nil]
    exact this.imp fun _ _ h => ⟨h.1, h.2.2.2⟩

/-! ## C34, C35: the profile -/

/-- The number of steps a service has had sent, as its log states it. -/
theorem C35_log_states_steps_sent_earlier (env : Oracle) (conf : TraceConf) (cap : Nat) (cs : List Call) (hk : 1 ≤ conf.keep)
    (hb : 1 ≤ conf.bulk) (hwf : AllWellFormed (start env conf cap) cs) (p : Nat) (t : Tctx)
    (h : (history (start env conf cap) cs).tctxs[p]? = some t) (hc : t.closed = false) :
    ∀ x ∈ xlogsOf (newPacks (history (start env conf cap) cs) (perform (history (start env conf cap) cs) (.endService (.traced p)))),
      x.profileCount = BitVec.ofNat 32 t.sentSteps.length := by
  have g := (Good.start env conf cap hk hb).history cs hwf
  generalize history (start env conf cap) cs = w at g h
  intro x hx
  rw [C61_log_carries_the_service w p t h hc g.bulk] at hx
  split at hx
  · simp only [List.mem_singleton] at hx
    subst hx
    show BitVec.ofNat 32 t.profileCount = _
    rw [(g.each t (List.mem_of_getElem? h)).count]
  · simp at hx

/-- **C34**, for whole services: when a service that is not sampled away ends, what has been sent of its profile over its
whole life is every step recorded for it, exactly once and in recording order; the steps still buffered go out now, in
packs of 1 to `profile_step_max_count` steps. -/
theorem C34_service_profile_complete (env : Oracle) (conf : TraceConf) (cap : Nat) (cs : List Call) (hk : 1 ≤ conf.keep)
    (hb : 1 ≤ conf.bulk) (hwf : AllWellFormed (start env conf cap) cs) (p : Nat) (t : Tctx)
    (h : (history (start env conf cap) cs).tctxs[p]? = some t) (hc : t.closed = false)
    (hd : decisionAt (history (start env conf cap) cs) t = discardNone) :
    let w := history (start env conf cap) cs
    let w' := perform w (.endService (.traced p))
    ∃ slices, t.sentSteps ++ slices.flatten = t.recorded ∧
      (∀ s ∈ slices, s ≠ [] ∧ (s.length : Int) ≤ w.conf.bulk) ∧
      (w'.tctxs[p]?).map (·.sentSteps) = some t.recorded ∧
      List.Forall₂ (fun s (pk : XlogProfilePack) => pk.txid = t.txid ∧ pk.profile = stepsToBytes (s.map (fun i => w.steps[i]?)))
        slices (profilesOf (newPacks w w')) := by
  have g := (Good.start env conf cap hk hb).history cs hwf
  generalize history (start env conf cap) cs = w at g h hd
  intro w w'
  obtain ⟨slices, packs, -, h2, h3, h4, h5, h6⟩ := endService_full h hc g.bulk
  rw [if_pos hd] at h3
  have hall := (g.each t (List.mem_of_getElem? h)).all hc
  refine ⟨slices, by rw [h3]; exact hall, h4, ?_, ?_⟩
  · show (((perform w (.endService (.traced p))).tctxs)[p]?).map (·.sentSteps) = _
    rw [h2, List.getElem?_modify, h]
    simp [afterSending, closing, h3, hall]
  · show List.Forall₂ _ slices (profilesOf (newPacks w (perform w (.endService (.traced p)))))
    rw [h6, profilesOf_append]
    have e : profilesOf (if keepsXlog (xlogFor t (decisionAt w t) (elapsedAt w t)) = true then
        [Pack.xlog { xlogFor t (decisionAt w t) (elapsedAt w t) with objHash := w.conf.objHash }] else []) = [] := by
      split <;> rfl
    rw [e, List.append_nil]
    exact (profilesOf_packsFor h5).imp fun _ _ h => ⟨h.1, h.2.2.2⟩

/-- **C35**, as found: the log of a service that is not sampled away states a number of profile steps that falls short of
the steps sent for it by exactly the steps in the buffer when it ended (fewer than 2^32 steps recorded). -/
theorem C35_log_undercounts_by_the_buffer (env : Oracle) (conf : TraceConf) (cap : Nat) (cs : List Call) (hk : 1 ≤ conf.keep)
    (hb : 1 ≤ conf.bulk) (hwf : AllWellFormed (start env conf cap) cs) (p : Nat) (t : Tctx)
    (h : (history (start env conf cap) cs).tctxs[p]? = some t) (hc : t.closed = false)
    (hd : decisionAt (history (start env conf cap) cs) t = discardNone) (hsmall : t.recorded.length < 2 ^ 32) :
    let w := history (start env conf cap) cs
    let w' := perform w (.endService (.traced p))
    ∃ x sent, xlogsOf (newPacks w w') = [x] ∧ (w'.tctxs[p]?).map (·.sentSteps) = some sent ∧
      x.profileCount.toNat + t.col.kept.length = sent.length ∧ (x.profileCount.toNat = sent.length ↔ t.col.kept = []) := by
  have hx := C35_log_states_steps_sent_earlier env conf cap cs hk hb hwf p t h hc
  obtain ⟨slices, h1, -, h3, -⟩ := C34_service_profile_complete env conf cap cs hk hb hwf p t h hc hd
  have g := (Good.start env conf cap hk hb).history cs hwf
  generalize history (start env conf cap) cs = w at g h hd hx h1 h3
  intro w w'
  have hl := C61_log_carries_the_service w p t h hc g.bulk
  rw [hd, if_pos (keeps_none t _)] at hl
  have hall := (g.each t (List.mem_of_getElem? h)).all hc
  have hlen := congrArg List.length hall
  rw [List.length_append] at hlen
  have hcount : BitVec.toNat (XlogPack.profileCount { xlogFor t discardNone (elapsedAt w t) with objHash := w.conf.objHash }) = t.sentSteps.length := by
    rw [hx _ (by rw [hl]; simp)]
    rw [BitVec.toNat_ofNat, Nat.mod_eq_of_lt (by omega)]
  refine ⟨_, t.recorded, hl, h3, ?_, ?_⟩
  · rw [hcount]; exact hlen
  · rw [hcount, ← List.length_eq_zero_iff]; omega

/-- **C35**, as found, for the usual case: a service whose steps all fit the buffer logs a profile count of 0 although all
its steps are sent. -/
theorem C35_small_service_logs_zero (env : Oracle) (conf : TraceConf) (cap : Nat) (cs : List Call) (hk : 1 ≤ conf.keep)
    (hb : 1 ≤ conf.bulk) (hwf : AllWellFormed (start env conf cap) cs) (p : Nat) (t : Tctx)
    (h : (history (start env conf cap) cs).tctxs[p]? = some t) (hc : t.closed = false) (hs : t.sentSteps = []) :
    ∀ x ∈ xlogsOf (newPacks (history (start env conf cap) cs) (perform (history (start env conf cap) cs) (.endService (.traced p)))),
      x.profileCount = 0 := by
  intro x hx
  rw [C35_log_states_steps_sent_earlier env conf cap cs hk hb hwf p t h hc x hx, hs]
  rfl

/-- The property as stated is false: a service with one recorded step, logged with none. -/
theorem C35_fails : ¬ ∀ (env : Oracle) (conf : TraceConf) (cap : Nat) (cs : List Call) (p : Nat), 1 ≤ conf.keep → 1 ≤ conf.bulk →
    AllWellFormed (start env conf cap) cs →
    ∀ x ∈ xlogsOf (newPacks (history (start env conf cap) cs) (perform (history (start env conf cap) cs) (.endService (.traced p)))),
    ∀ t, (perform (history (start env conf cap) cs) (.endService (.traced p))).tctxs[p]? = some t → x.profileCount.toNat = t.sentSteps.length := by
  intro hall
  have h := hall Demo.env Demo.conf 100 [.startService .plain (ascii "a") []] 0 (by decide) (by decide) ⟨trivial, trivial⟩
  have hb : (match xlogsOf (newPacks (history (start Demo.env Demo.conf 100) [.startService .plain (ascii "a") []])
      (perform (history (start Demo.env Demo.conf 100) [.startService .plain (ascii "a") []]) (.endService (.traced 0)))),
      (perform (history (start Demo.env Demo.conf 100) [.startService .plain (ascii "a") []]) (.endService (.traced 0))).tctxs[0]? with
    | x :: _, some t => x.profileCount.toNat != t.sentSteps.length
    | _, _ => false) = true := by decide +kernel
  split at hb
  · rename_i x l t hx ht
    have := h x (by rw [hx]; simp) t ht
    simp [this] at hb
  · cases hb

/-! ## The hypotheses can be met -/
namespace Demo

/-- Steps enough to flush the buffer of two, an error, then the end. -/
def flushing : List Call :=
  [.startService .plain (ascii "a") [], .addMessageStep (.traced 0) (ascii "x"), .addMessageStep (.traced 0) (ascii "y"),
   .markAsError (.traced 0) (ascii "bad")]

example : AllWellFormed (start env conf 100) flushing := ⟨trivial, trivial, trivial, trivial, trivial⟩

/-- A running service with an error, steps sent and steps buffered. -/
example : ((history (start env conf 100) flushing).tctxs[0]?.map fun t =>
    (t.closed, t.error != 0, t.sentSteps.length, t.col.kept.length)) = some (false, true, 4, 0) := by decide +kernel

example : ((history (start env conf 100) (flushing.take 1)).tctxs[0]?.map fun t =>
    (t.closed, decisionAt (history (start env conf 100) (flushing.take 1)) t == discardNone, t.sentSteps.length, t.col.kept.length)) =
    some (false, true, 0, 1) := by decide +kernel

end Demo
end Scouter
