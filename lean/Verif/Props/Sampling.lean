import Verif.Spec.Sampling
import Verif.Proofs.Frame
import Verif.Props.StrMatch
import Verif.Props.Ending
/-!
# C39: sampling follows the configured rates
-/
namespace Scouter
open TM Trace

/-- A sampler as the package makes it: made from some options, notified of others. -/
def madeSampler (c0 : SampleConf) (cs : List SampleConf) : Sampler := cs.foldl Sampler.run (Sampler.new c0)

/-- No matcher of the sampler matches anything. -/
structure Inert (s : Sampler) : Prop where
  exclude : ∀ n, chainedIsMatch s.exclude.2 n = false
  discard : ∀ n, chainedIsMatch s.discard.2 n = false
  pat1 : ∀ n, chainedIsMatch s.pat1.2 n = false
  pat2 : ∀ n, chainedIsMatch s.pat2.2 n = false
  pat3 : ∀ n, chainedIsMatch s.pat3.2 n = false

theorem Inert.new (c : SampleConf) : Inert (Sampler.new c) :=
  ⟨C20_chained_matcher_never_matches _, C20_chained_matcher_never_matches _, C20_chained_matcher_never_matches _,
    C20_chained_matcher_never_matches _, C20_chained_matcher_never_matches _⟩

theorem inert_renew {cur : Bytes × List StrMatch} (h : ∀ n, chainedIsMatch cur.2 n = false) (text : Bytes) :
    ∀ n, chainedIsMatch (Sampler.renew cur text).2 n = false := by
  unfold Sampler.renew
  split
  · exact C20_chained_matcher_never_matches _
  · exact h

theorem Inert.run {s : Sampler} (h : Inert s) (c : SampleConf) : Inert (s.run c) :=
  ⟨inert_renew h.exclude _, inert_renew h.discard _, inert_renew h.pat1 _, inert_renew h.pat2 _, inert_renew h.pat3 _⟩

theorem Inert.made (c0 : SampleConf) (cs : List SampleConf) : Inert (madeSampler c0 cs) := by
  unfold madeSampler
  generalize hs : Sampler.new c0 = s
  have h : Inert s := hs ▸ Inert.new c0
  clear hs
  induction cs generalizing s with
  | nil => exact h
  | cons c cs ih => exact ih (s.run c) (h.run c)

theorem isPattern_inert {m : Bytes × List StrMatch} (h : ∀ n, chainedIsMatch m.2 n = false) (text n : Bytes) :
    Sampler.isPattern text m n = false := by
  unfold Sampler.isPattern
  split
  · rfl
  · exact h n

/-- The rate the code applies is that of the band. -/
theorem sampling_rate (r : RateConf) (draw : Nat) (elapsed : BitVec 32) (mode : BitVec 8) :
    Sampler.sampling r draw elapsed mode =
      if (draw : Int) < r.rateOf elapsed then mode else if r.onlyProfile then discardProfile else discardAll := by
  unfold Sampler.sampling RateConf.rateOf RateConf.bands Sampler.profileMode
  have k : ∀ (a : Int) (x y : BitVec 8), (if (draw : Int) ≥ a then x else y) = if (draw : Int) < a then y else x := by
    intro a x y
    by_cases h : (draw : Int) < a
    · rw [if_pos h, if_neg (by omega)]
    · rw [if_neg h, if_pos (by omega)]
  simp only [k]
  by_cases h1 : elapsed.toInt < r.step1Ms.toInt
  · simp only [List.find?_cons, h1, if_true, decide_true]
  · by_cases h2 : elapsed.toInt < r.step2Ms.toInt
    · simp only [List.find?_cons, h1, h2, if_true, if_false, decide_true, decide_false]
    · by_cases h3 : elapsed.toInt < r.step3Ms.toInt
      · simp only [List.find?_cons, h1, h2, h3, if_true, if_false, decide_true, decide_false]
      · simp only [List.find?_cons, h1, h2, h3, if_false, decide_false, List.find?_nil]

theorem findDiscard_inert {s : Sampler} (hs : Inert s) (c : SampleConf) (draw : Nat) (error elapsed : BitVec 32) (name : Bytes) :
    s.findDiscard c draw error elapsed name =
      if c.general.keeps error elapsed draw then discardNone
      else if c.general.onlyProfile then discardProfile else discardAll := by
  unfold Sampler.findDiscard Sampler.evaluate RateConf.keeps
  simp only [isPattern_inert hs.exclude, isPattern_inert hs.discard, isPattern_inert hs.pat1, isPattern_inert hs.pat2,
    isPattern_inert hs.pat3, sampling_rate]
  by_cases he : error = 0
  · subst he
    cases hg : c.general.enabled
    · simp
    · have e : ((0 : BitVec 32) != 0) = false := by decide
      simp only [e, ne_eq, not_true, if_false, Bool.false_eq_true, and_false, ite_self, Bool.not_false, Bool.not_true, Bool.and_true,
        if_true, Bool.false_or, decide_eq_true_eq]
  · have e : (error != 0) = true := by simpa using he
    have he' : ¬ error = 0#32 := he
    simp [he', e]

/-- **C39**: the decision for every service.  An error-free one is dropped (or only its profile, if so configured) exactly
when general sampling is on and the draw does not pick it at the rate of its elapsed-time band.  The pattern options
(exclusion, discarding, the three patterned rate sets) have no influence: their matchers never match (C20). -/
theorem C39_decision (c0 : SampleConf) (cs : List SampleConf) (c : SampleConf) (draw : Nat) (error elapsed : BitVec 32)
    (name : Bytes) :
    (madeSampler c0 cs).findDiscard c draw error elapsed name =
      if c.general.keeps error elapsed draw then discardNone
      else if c.general.onlyProfile then discardProfile else discardAll :=
  findDiscard_inert (Inert.made c0 cs) c draw error elapsed name

/-- What a sampler's matchers say of a name, for the pattern options that are set. -/
def matchesOf (s : Sampler) (c : SampleConf) (name : Bytes) : Matches where
  exclude := c.general.patterns != [] && chainedIsMatch s.exclude.2 name
  discard := c.discardPatterns != [] && chainedIsMatch s.discard.2 name
  pat1 := c.pat1.patterns != [] && chainedIsMatch s.pat1.2 name
  pat2 := c.pat2.patterns != [] && chainedIsMatch s.pat2.2 name
  pat3 := c.pat3.patterns != [] && chainedIsMatch s.pat3.2 name

theorem isPattern_eq (text : Bytes) (m : Bytes × List StrMatch) (n : Bytes) :
    Sampler.isPattern text m n = (text != [] && chainedIsMatch m.2 n) := by
  unfold Sampler.isPattern
  by_cases h : text = []
  · simp [h]
  · have : (text != []) = true := by simpa using h
    rw [if_neg h, this, Bool.true_and]

/-- **C39**, whatever the matchers match: a failed service is kept, one that matches the discard patterns is dropped, an excluded one is kept, and
otherwise the first enabled pattern set that matches decides with its own rates, or the general rates. -/
theorem C39_first_matching_pattern_decides (s : Sampler) (c : SampleConf) (draw : Nat) (error elapsed : BitVec 32) (name : Bytes) :
    s.findDiscard c draw error elapsed name = c.decide (matchesOf s c name) draw error elapsed := by
  unfold Sampler.findDiscard Sampler.evaluate SampleConf.decide SampleConf.decider matchesOf
  simp only [isPattern_eq, sampling_rate]
  by_cases he : error = 0#32
  · subst he
    generalize (c.general.patterns != [] && chainedIsMatch s.exclude.2 name) = x0
    generalize (c.discardPatterns != [] && chainedIsMatch s.discard.2 name) = x4
    generalize (c.pat1.patterns != [] && chainedIsMatch s.pat1.2 name) = x1
    generalize (c.pat2.patterns != [] && chainedIsMatch s.pat2.2 name) = x2
    generalize (c.pat3.patterns != [] && chainedIsMatch s.pat3.2 name) = x3
    cases x4 <;> cases x0 <;> cases x1 <;> cases x2 <;> cases x3 <;> cases h0 : c.general.enabled <;> cases h1 : c.pat1.enabled <;>
      cases h2 : c.pat2.enabled <;> cases h3 : c.pat3.enabled <;> simp [h0, h1, h2, h3]
  · simp [he]

namespace Demo

/-- A sampler whose second and third pattern sets match everything (the package makes none that match). -/
def matchingSampler : Sampler where
  exclude := ([], [])
  discard := ([], [])
  pat1 := ([], [])
  pat2 := (ascii "*", [newStrMatch (ascii "*")])
  pat3 := (ascii "*", [newStrMatch (ascii "*")])

/-- A rate set with one rate for all. -/
def allAt (on only : Bool) (rate : Int) : RateConf :=
  { enabled := on, patterns := ascii "*", onlyProfile := only, step1Ms := 100, step2Ms := 1000, step3Ms := 3000,
    rate1 := rate, rate2 := rate, rate3 := rate, over := rate }

/-- The third pattern set, the general rates and the first (off) differ in what they say. -/
def patternedConf : SampleConf :=
  { discardPatterns := [], general := allAt true false 0, pat1 := allAt true false 0, pat2 := allAt false false 0, pat3 := allAt true true 50 }

example : (matchingSampler.findDiscard patternedConf 49 0 5 (ascii "/a") = discardNone) ∧
    (matchingSampler.findDiscard patternedConf 50 0 5 (ascii "/a") = discardProfile) := by decide +kernel

end Demo

/-- **C39**: with sampling off nothing is dropped. -/
theorem C39_off_drops_nothing (c0 : SampleConf) (cs : List SampleConf) (c : SampleConf) (h : c.general.enabled = false)
    (draw : Nat) (error elapsed : BitVec 32) (name : Bytes) :
    (madeSampler c0 cs).findDiscard c draw error elapsed name = discardNone := by
  rw [C39_decision, if_pos (by simp [RateConf.keeps, h])]

/-- **C39**: a rate of 100 or more keeps the service, whatever the draw (`rand.Intn(100)` is below 100). -/
theorem C39_rate_100_keeps (c0 : SampleConf) (cs : List SampleConf) (c : SampleConf) (draw : Nat) (hd : draw < 100)
    (error elapsed : BitVec 32) (name : Bytes) (h : 100 ≤ c.general.rateOf elapsed) :
    (madeSampler c0 cs).findDiscard c draw error elapsed name = discardNone := by
  rw [C39_decision, if_pos]
  have : (draw : Int) < c.general.rateOf elapsed := by omega
  simp [RateConf.keeps, this]

/-- **C39**: a rate of 0 or less drops an error-free service, whatever the draw. -/
theorem C39_rate_0_drops (c0 : SampleConf) (cs : List SampleConf) (c : SampleConf) (draw : Nat) (elapsed : BitVec 32) (name : Bytes)
    (hon : c.general.enabled = true) (h : c.general.rateOf elapsed ≤ 0) :
    (madeSampler c0 cs).findDiscard c draw 0 elapsed name = if c.general.onlyProfile then discardProfile else discardAll := by
  rw [C39_decision, if_neg]
  have : ¬ (draw : Int) < c.general.rateOf elapsed := by omega
  simp [RateConf.keeps, hon, this]

theorem countP_below (n : Nat) (r : Int) :
    ((List.range n).countP fun d : Nat => decide ((d : Int) < r)) = min n r.toNat := by
  induction n with
  | zero => simp
  | succ n ih =>
    rw [List.range_succ, List.countP_append, ih, List.countP_singleton]
    split
    · rename_i h; simp at h; omega
    · rename_i h; simp at h; omega

/-- **C39**: of the 100 possible draws, as many keep an error-free service as the rate of its band says. -/
theorem C39_keeping_draws (c0 : SampleConf) (cs : List SampleConf) (c : SampleConf) (elapsed : BitVec 32) (name : Bytes)
    (hon : c.general.enabled = true) :
    ((List.range 100).countP fun draw => (madeSampler c0 cs).findDiscard c draw 0 elapsed name = discardNone) =
      min 100 (c.general.rateOf elapsed).toNat := by
  rw [← countP_below]
  congr 1
  funext draw
  rw [C39_decision]
  have e : ((0 : BitVec 32) != 0) = false := by decide
  have : discardProfile ≠ discardNone ∧ discardAll ≠ discardNone := by decide
  by_cases h : (draw : Int) < c.general.rateOf elapsed
  · simp [RateConf.keeps, h]
  · simp only [RateConf.keeps, h, hon, e]
    cases c.general.onlyProfile <;> simp [this.1, this.2]

/-! ## What a decision does when a service ends -/

/-- The sampler of the world is inert. -/
def SamplerInert (w : World) : Prop := ∀ s, w.sampler = some s → Inert s

instance : Frame (fun w w' => SamplerInert w → SamplerInert w') where
  pre := ⟨fun _ h => h, fun h h' x => h' (h x)⟩
  elem := by
    intro w w' h
    cases h with
    | sampler h => intro _ s hs; cases hs; exact Inert.new _
    | rerun =>
      intro hi s hs
      simp only [Option.map_eq_some_iff] at hs
      obtain ⟨a, ha, rfl⟩ := hs
      exact (hi a ha).run _
    | _ => exact fun h => h

theorem samplerInert_perform {w : World} (h : SamplerInert w) (c : Call) : SamplerInert (perform w c) := by
  by_cases hc : ∃ x, c = .conf x
  · obtain ⟨x, rfl⟩ := hc; exact h
  · exact frame_call (R := fun w w' => SamplerInert w → SamplerInert w') c (fun x hx => hc ⟨x, hx⟩) w h

theorem samplerInert_history {w : World} (h : SamplerInert w) (cs : List Call) : SamplerInert (history w cs) := by
  induction cs generalizing w with
  | nil => exact h
  | cons c cs ih => exact ih (samplerInert_perform h c)

theorem inert_samplerOf {w : World} (h : SamplerInert w) : Inert (samplerOf w) := by
  unfold samplerOf
  cases hs : w.sampler with
  | none => exact Inert.new _
  | some s => exact h s hs

/-- **C39**, at the end of a service, after any history: whether its log and the rest of its profile are sent.  The service
is picked if it has an error, sampling is off, or the draw is below the rate of its band.  A service that is not picked
loses the rest of its profile; it loses its log only if profile-only sampling is off and the service is the root of its
trace. -/
theorem C39_end_of_service (env : Oracle) (conf : TraceConf) (cap : Nat) (cs : List Call) (p : Nat) (t : Tctx)
    (h : (history (start env conf cap) cs).tctxs[p]? = some t) (hc : t.closed = false)
    (hb : 1 ≤ (history (start env conf cap) cs).conf.bulk) :
    let w := history (start env conf cap) cs
    let w' := perform w (.endService (.traced p))
    let general := w.conf.sample.general
    let picked := general.keeps t.error (elapsedAt w t) (w.env.draw (w.tick + 1))
    ((xlogsOf (newPacks w w')).map (·.txid) =
      if picked = true ∨ general.onlyProfile = true ∨ (t.gxid ≠ t.txid ∧ t.gxid ≠ 0) then [t.txid] else []) ∧
    (w'.tctxs[p]?).map (·.sentSteps) = some (t.sentSteps ++ if picked then t.col.kept else []) := by
  have hi := inert_samplerOf (samplerInert_history (w := start env conf cap) (fun s hs => by simp [start] at hs) cs)
  generalize history (start env conf cap) cs = w at hi h hb
  intro w w' general picked
  have hd : decisionAt w t = if picked then discardNone else if general.onlyProfile then discardProfile else discardAll := by
    unfold decisionAt
    rw [findDiscard_inert hi]
  obtain ⟨slices, packs, -, h2, h3, -, h5, h6⟩ := endService_full h hc hb
  constructor
  · show (xlogsOf (newPacks w (perform w (.endService (.traced p))))).map (·.txid) = _
    rw [C61_log_carries_the_service w p t h hc hb]
    have key : keepsXlog (xlogFor t (decisionAt w t) (elapsedAt w t)) = true ↔
        (picked = true ∨ general.onlyProfile = true ∨ (t.gxid ≠ t.txid ∧ t.gxid ≠ 0)) := by
      have hk : keepsXlog (xlogFor t (decisionAt w t) (elapsedAt w t)) =
          ((decisionAt w t != discardAll && decisionAt w t != discardAllForce) ||
            (!(t.gxid == t.txid || t.gxid == 0) && decisionAt w t == discardAll)) := rfl
      rw [hk, hd]
      by_cases hp : picked = true
      · simp only [if_pos hp, hp, true_or, iff_true]; rfl
      · by_cases ho : general.onlyProfile = true
        · simp only [if_neg hp, if_pos ho, hp, ho, true_or, or_true, iff_true]; rfl
        · have e1 : (discardAll != discardAll) = false := by decide
          have e2 : (discardAll == discardAll) = true := by decide
          simp only [if_neg hp, if_neg ho, hp, ho, false_or, e1, e2, Bool.false_and, Bool.false_or, Bool.and_true]
          simp
    by_cases hk : (picked = true ∨ general.onlyProfile = true ∨ (t.gxid ≠ t.txid ∧ t.gxid ≠ 0))
    · rw [if_pos hk, if_pos (key.mpr hk)]; rfl
    · rw [if_neg hk, if_neg (fun x => hk (key.mp x))]; rfl
  · show (((perform w (.endService (.traced p))).tctxs)[p]?).map (·.sentSteps) = _
    rw [h2, List.getElem?_modify, h]
    simp only [if_true, Option.map_some, Function.comp, afterSending, closing]
    rw [h3, hd]
    by_cases hp : picked = true
    · simp [hp]
    · have : discardProfile ≠ discardNone ∧ discardAll ≠ discardNone := by decide
      rw [if_neg hp, if_neg hp]
      cases general.onlyProfile <;> simp [this.1, this.2]

/-- The hypotheses of `C39_rate_0_drops` and of a rate strictly between: rates 3, 10, 30, 100 over bands 100, 1000, 3000. -/
example : ({ Demo.rate with enabled := true } : RateConf).rateOf 50 = 3 ∧ ({ Demo.rate with enabled := true } : RateConf).rateOf 100 = 10 ∧
    ({ Demo.rate with enabled := true } : RateConf).rateOf 2999 = 30 ∧ ({ Demo.rate with enabled := true } : RateConf).rateOf 3000 = 100 := by
  decide +kernel

end Scouter
