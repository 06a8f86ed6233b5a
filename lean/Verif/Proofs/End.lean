import Verif.Proofs.Trace
import Verif.Model.Calls
/-!
# What ending a service does, step by step
-/
namespace Scouter
open TM Trace

theorem sendText_hash (p : Proxy) (k : TextKind) (name : Bytes) : (p.sendText k name).2 = textHash name := by
  unfold Proxy.sendText textHash
  split
  · rfl
  · simp only; split <;> rfl

/-- Only announcements (and the sampler) changed. -/
structure OnlyTexts (w w' : World) : Prop where
  env : w'.env = w.env
  conf : w'.conf = w.conf
  tick : w'.tick = w.tick
  tctxs : w'.tctxs = w.tctxs
  steps : w'.steps = w.steps
  metered : w'.metered = w.metered
  registry : w'.registry = w.registry
  direct : w'.proxy.direct = w.proxy.direct

theorem OnlyTexts.refl (w : World) : OnlyTexts w w := ⟨rfl, rfl, rfl, rfl, rfl, rfl, rfl, rfl⟩
theorem OnlyTexts.trans {a b c : World} (h : OnlyTexts a b) (h' : OnlyTexts b c) : OnlyTexts a c :=
  ⟨h'.env.trans h.env, h'.conf.trans h.conf, h'.tick.trans h.tick, h'.tctxs.trans h.tctxs, h'.steps.trans h.steps,
    h'.metered.trans h.metered, h'.registry.trans h.registry, h'.direct.trans h.direct⟩

theorem sendText_run (k : TextKind) (name : Bytes) (w : World) :
    ∃ w', Trace.sendText k name w = (.ok (textHash name), w') ∧ OnlyTexts w w' ∧ w'.sampler = w.sampler := by
  refine ⟨{ w with proxy := (w.proxy.sendText k name).1 }, ?_, ⟨rfl, rfl, rfl, rfl, rfl, rfl, rfl, ?_⟩, rfl⟩
  · simp only [Trace.sendText, ← sendText_hash w.proxy k name]
  · exact sendText_direct _ _ _

theorem sendIfSet_run (k : TextKind) (name : Bytes) (w : World) :
    ∃ w', sendIfSet k name w = (.ok (textHash name), w') ∧ OnlyTexts w w' := by
  unfold sendIfSet
  by_cases h : name = []
  · exact ⟨w, by simp [h, textHash], .refl w⟩
  · obtain ⟨w', h1, h2, -⟩ := sendText_run k name w
    exact ⟨w', by simp [h, h1], h2⟩

theorem getT_run {w : World} {p : Nat} {t : Tctx} (h : w.tctxs[p]? = some t) : getT p w = (.ok t, w) := by
  simp [getT, h]

/-- The sampler in force: the one made already, or one made from the configuration now. -/
def samplerOf (w : World) : Sampler := w.sampler.getD (Sampler.new w.conf.sample)

theorem getSampler_run (w : World) : ∃ w', getSampler w = (.ok (samplerOf w), w') ∧ OnlyTexts w w' := by
  unfold getSampler samplerOf
  rw [TM.get_bind]
  cases w.sampler with
  | some s => exact ⟨w, rfl, .refl w⟩
  | none => exact ⟨{ w with sampler := some (Sampler.new w.conf.sample) }, rfl, ⟨rfl, rfl, rfl, rfl, rfl, rfl, rfl, rfl⟩⟩

/-- The end of a service up to closing its profile. -/
theorem endRest_run {w : World} {p : Nat} {t : Tctx} (h : w.tctxs[p]? = some t) :
    ∃ w1 x, x = xlogFor t ((samplerOf w).findDiscard w.conf.sample (w.env.draw (w.tick + 1)) t.error
          (millis t.startTime (w.env.clock w.tick)) t.serviceName) (millis t.startTime (w.env.clock w.tick)) ∧
      endRest p w = (do
        profileClose p (x.discardType == discardNone)
        meter x.elapsed.toInt (x.error != 0)
        if keepsXlog x then sendXlog x else pure ()) w1 ∧
      w1.env = w.env ∧ w1.conf = w.conf ∧ w1.tick = w.tick + 2 ∧
      w1.tctxs = w.tctxs.modify p (fun t => { t with closed := true, serviceHash := textHash t.serviceName }) ∧
      w1.steps = w.steps ∧ w1.metered = w.metered ∧ w1.registry = w.registry.remove t.txid ∧
      w1.proxy.direct = w.proxy.direct := by
  unfold endRest
  have e1 : modT p (fun t => { t with closed := true }) w =
      (.ok (), { w with tctxs := w.tctxs.modify p (fun t => { t with closed := true }) }) := rfl
  rw [TM.bind_ok e1]
  set wa : World := { w with tctxs := w.tctxs.modify p (fun t => { t with closed := true }) } with hwa
  have ga : wa.tctxs[p]? = some { t with closed := true } := by rw [hwa]; simp [List.getElem?_modify, h]
  rw [TM.bind_ok (getT_run ga)]
  obtain ⟨wb, hb, ob, sb⟩ := sendText_run .service t.serviceName wa
  simp only
  rw [TM.bind_ok hb]
  have e2 : modT p (fun t' => { t' with serviceHash := textHash t.serviceName }) wb = (.ok (),
    { wb with tctxs := wb.tctxs.modify p (fun t' => { t' with serviceHash := textHash t.serviceName }) }) := rfl
  rw [TM.bind_ok e2]
  set wc : World := { wb with tctxs := wb.tctxs.modify p (fun t' => { t' with serviceHash := textHash t.serviceName }) } with hwc
  have tc : wc.tctxs = w.tctxs.modify p (fun t => { t with closed := true, serviceHash := textHash t.serviceName }) := by
    rw [hwc]; simp only; rw [ob.tctxs, hwa]; simp only
    apply List.ext_getElem?
    intro i
    simp only [List.getElem?_modify]
    by_cases hi : p = i
    · subst hi; simp [h]
    · simp [hi]
  have gc : wc.tctxs[p]? = some { t with closed := true, serviceHash := textHash t.serviceName } := by
    rw [tc]; simp [List.getElem?_modify, h]
  have e3 : unregister p wc = (.ok (), { wc with registry := wc.registry.remove t.txid }) := by
    unfold unregister; rw [TM.bind_ok (getT_run gc)]; rfl
  rw [TM.bind_ok e3]
  set wd : World := { wc with registry := wc.registry.remove t.txid } with hwd
  have gd : wd.tctxs[p]? = some { t with closed := true, serviceHash := textHash t.serviceName } := gc
  rw [TM.bind_ok (getT_run gd)]
  have tick : wd.tick = w.tick := by rw [hwd, hwc]; simp only; rw [ob.tick]
  have env : wd.env = w.env := by rw [hwd, hwc]; simp only; rw [ob.env]
  have conf : wd.conf = w.conf := by rw [hwd, hwc]; simp only; rw [ob.conf]
  have samp : samplerOf wd = samplerOf w := by
    unfold samplerOf; rw [conf]; congr 1
  have e4 : millisToNow t.startTime wd = (.ok (millis t.startTime (w.env.clock w.tick)), { wd with tick := w.tick + 1 }) := by
    unfold millisToNow; rw [TM.reading_bind, tick, env]; rfl
  simp only
  rw [TM.bind_ok e4]
  set we : World := { wd with tick := w.tick + 1 } with hwe
  obtain ⟨wf, hf, of⟩ := getSampler_run we
  have samp' : samplerOf we = samplerOf w := samp
  rw [samp'] at hf
  have envf : wf.env = w.env := by rw [of.env]; exact env
  have conff : wf.conf = w.conf := by rw [of.conf]; exact conf
  have tickf : wf.tick = w.tick + 1 := by rw [of.tick]
  have e5 : ∀ t' : Tctx, findXLogDiscard t' (millis t.startTime (w.env.clock w.tick)) we =
      (.ok ((samplerOf w).findDiscard w.conf.sample (w.env.draw (w.tick + 1)) t'.error
          (millis t.startTime (w.env.clock w.tick)) t'.serviceName), { wf with tick := w.tick + 2 }) := by
    intro t'
    unfold findXLogDiscard
    rw [TM.bind_ok hf, TM.get_bind, TM.reading_bind, tickf, envf, conff]
    rfl
  rw [TM.bind_ok (e5 _)]
  set wg : World := { wf with tick := w.tick + 2 } with hwg
  simp only
  generalize hdis : (samplerOf w).findDiscard w.conf.sample (w.env.draw (w.tick + 1)) t.error
          (millis t.startTime (w.env.clock w.tick)) t.serviceName = discard
  generalize hel : millis t.startTime (w.env.clock w.tick) = elapsed
  have e6 : ∃ wh, toXlog { t with closed := true, serviceHash := textHash t.serviceName } discard elapsed wg =
      (.ok (xlogFor t discard elapsed), wh) ∧ OnlyTexts wg wh := by
    unfold toXlog
    obtain ⟨w1, h1, o1, -⟩ := sendText_run .hashMessage (formatInt 10 t.gxid.toInt) wg
    obtain ⟨w2, h2, o2⟩ := sendIfSet_run .login t.login w1
    obtain ⟨w3, h3, o3⟩ := sendIfSet_run .desc t.desc w2
    refine ⟨w3, ?_, o1.trans (o2.trans o3)⟩
    simp only
    rw [TM.bind_ok h1, TM.bind_ok h2, TM.bind_ok h3]
    rfl
  obtain ⟨wh, h6, oh⟩ := e6
  rw [TM.bind_ok h6]
  refine ⟨wh, _, rfl, rfl, ?_, ?_, ?_, ?_, ?_, ?_, ?_, ?_⟩
  · rw [oh.env]; exact envf
  · rw [oh.conf]; exact conff
  · rw [oh.tick]
  · rw [oh.tctxs, hwg]; simp only; rw [of.tctxs]; exact tc
  · rw [oh.steps, hwg]; simp only; rw [of.steps, hwe, hwd, hwc]; simp only; rw [ob.steps]
  · rw [oh.metered, hwg]; simp only; rw [of.metered, hwe, hwd, hwc]; simp only; rw [ob.metered]
  · rw [oh.registry, hwg]; simp only; rw [of.registry, hwe, hwd, hwc]; simp only; rw [ob.registry]
  · rw [oh.direct, hwg]; simp only; rw [of.direct, hwe, hwd, hwc]; simp only; rw [ob.direct]

end Scouter
