import Verif.Props.ActiveCount
import Verif.Props.Story
import Verif.Props.Ending
import Verif.Proofs.Plain
import Verif.Spec.Stuck
/-!
# What is told of a service ended because it is stuck (C119)
-/
namespace Scouter
open TM Trace

open Spec

theorem stuckErrorOf_ne (t : Tctx) : stuckErrorOf t ≠ 0 := by
  unfold stuckErrorOf
  split
  · decide +kernel
  · assumption

namespace Active

/-- What is done to a stuck service before it is ended. -/
structure Noted (p : Nat) (t t1 : Tctx) (w w1 : World) : Prop where
  env : w1.env = w.env
  conf : w1.conf = w.conf
  tick : w.tick < w1.tick
  metered : w1.metered = w.metered
  steps : w1.steps = w.steps ++ [stuckStep t (sinceStart w t)]
  tctxs : w1.tctxs = w.tctxs.set p t1
  fields : t1.sansProfile = ({ t with error := stuckErrorOf t } : Tctx).sansProfile
  recorded : t1.recorded = t.recorded ++ [w.steps.length]
  logs : xlogsOf w1.proxy.direct = xlogsOf w.proxy.direct

theorem xlogsOf_carrying' {w : World} {tx : BitVec 64} {hs : List (BitVec 32)} {ss : List (List Nat)} {ps : List Pack} (h : Carrying w tx hs ss ps) :
    xlogsOf ps = [] := by
  unfold Carrying at h
  induction h with
  | nil => rfl
  | cons a _ ih => obtain ⟨e, h, -, rfl⟩ := a; exact ih

/-- The message announced before the step is recorded. -/
def noting (w : World) : World :=
  { w with tick := w.tick + 1, proxy := (w.proxy.sendText .hashMessage (ascii "Service currently may running, not finished!")).1 }

theorem prelude_run {w : World} (g : Good w) {p : Nat} {t : Tctx} (h : w.tctxs[p]? = some t) :
    ∃ w1 t1, stuckPrelude p w = (.ok (), w1) ∧ Good w1 ∧ Noted p t t1 w w1 := by
  have hp := (List.getElem?_eq_some_iff.mp h).1
  obtain ⟨_, w1, h1, g1, -⟩ := safe_prelude (n := w.tctxs.length) (k := 0) hp w g (Nat.le_refl _) (Nat.zero_le _)
  have ga : Good (noting w) := (g.tick (w.tick + 1)).text _ _
  have ha : (noting w).tctxs[p]? = some t := h
  have hpa : xlogsOf (noting w).proxy.direct = xlogsOf w.proxy.direct := by
    show xlogsOf (Proxy.sendText _ _ _).1.direct = _; rw [sendText_direct]
  obtain ⟨wb, tb, hb, gb, k⟩ := addNew_run ga ha (millis t.startTime (w.env.clock w.tick))
    (.pmessage (textHash (ascii "Service currently may running, not finished!")) 0 3 (paramString []))
  have hb' : wb.tctxs[p]? = some tb := by rw [k.tctxs]; exact getElem?_set_self' ha
  have hrun : stuckPrelude p w = (if tb.error = 0 then do
      let e ← sendText .error (ascii "This stuck service currently may running, not finished!")
      modT p fun t => { t with error := e }
    else pure ()) wb := by
    unfold stuckPrelude
    refine (TM.bind_ok (getT_run h)).trans ?_
    refine (TM.bind_ok (millisToNow_run _ _)).trans ?_
    refine (TM.bind_ok (sendText_exact _ _ _)).trans ?_
    refine (TM.bind_ok hb).trans ?_
    exact TM.bind_ok (getT_run hb')
  obtain ⟨ss, ps, s1, s2, s3, s4⟩ := k.sent
  have hlog : xlogsOf wb.proxy.direct = xlogsOf w.proxy.direct := by
    rw [s2]
    show xlogsOf ((noting w).proxy.direct ++ ps) = _
    rw [xlogsOf_append, xlogsOf_carrying' s3, List.append_nil, hpa]
  have herr : tb.error = t.error := by have := congrArg Tctx.error k.fields; exact this
  have htick : w.tick < wb.tick := k.tick
  have hsteps : wb.steps = w.steps ++ [stuckStep t (sinceStart w t)] := k.steps
  by_cases he : tb.error = 0
  · rw [if_pos he] at hrun
    have hr2 : stuckPrelude p w = (.ok (), { wb with
        proxy := (wb.proxy.sendText .error (ascii "This stuck service currently may running, not finished!")).1
        tctxs := wb.tctxs.set p { tb with error := textHash (ascii "This stuck service currently may running, not finished!") } }) := by
      rw [hrun]
      refine (TM.bind_ok (sendText_exact _ _ _)).trans ?_
      exact modT_run (w := { wb with proxy := (wb.proxy.sendText .error (ascii "This stuck service currently may running, not finished!")).1 }) hb' _
    refine ⟨_, { tb with error := textHash (ascii "This stuck service currently may running, not finished!") }, hr2, ?_, ?_⟩
    · have := congrArg Prod.snd (hr2.symm.trans h1)
      simp only at this
      rw [this]; exact g1
    · refine ⟨k.env, k.conf, htick, k.metered, hsteps, (by show wb.tctxs.set p _ = _; rw [k.tctxs, List.set_set]; rfl), ?_, k.recorded, ?_⟩
      · have hf := k.fields
        have : stuckErrorOf t = textHash (ascii "This stuck service currently may running, not finished!") := by
          unfold stuckErrorOf; rw [if_pos (herr ▸ he)]
        rw [this]
        have := congrArg (fun u : Tctx => { u with error := textHash (ascii "This stuck service currently may running, not finished!") }) hf
        exact this
      · show xlogsOf (Proxy.sendText _ _ _).1.direct = _
        rw [sendText_direct]; exact hlog
  · rw [if_neg he] at hrun
    refine ⟨wb, tb, hrun, gb, k.env, k.conf, htick, k.metered, hsteps, k.tctxs, ?_, k.recorded, hlog⟩
    have : stuckErrorOf t = t.error := by unfold stuckErrorOf; rw [if_neg (herr ▸ he)]
    rw [this]
    exact k.fields

theorem endRest_tick {w : World} {p : Nat} {t : Tctx} (h : w.tctxs[p]? = some t) (hb : 1 ≤ w.conf.bulk) : w.tick < (endRest p w).2.tick := by
  obtain ⟨w1, x, hx, hrun, henv, hconf, htick, htc, -⟩ := endRest_run h
  have g1 : w1.tctxs[p]? = some (closing t) := by rw [htc, List.getElem?_modify, h]; simp [closing]
  obtain ⟨w2, slices, h2, s2, -⟩ := profileClose_run g1 (by rw [hconf]; exact hb) (x.discardType == discardNone)
  rw [hrun, TM.bind_ok h2]
  have e : (meter x.elapsed.toInt (x.error != 0)) w2 =
    (.ok (), { w2 with metered := w2.metered ++ [(x.elapsed.toInt, (x.error != 0))] }) := rfl
  rw [TM.bind_ok e]
  have := s2.tick
  split
  · show w.tick < w2.tick; omega
  · show w.tick < w2.tick; omega

/-- A stuck service is ended. -/
structure EndedStuck (p : Nat) (x : XlogPack) (w w' : World) : Prop where
  env : w'.env = w.env
  conf : w'.conf = w.conf
  tick : w.tick ≤ w'.tick
  steps : ∃ s, w'.steps = w.steps ++ s
  others : ∀ q, q ≠ p → w'.tctxs[q]? = w.tctxs[q]?
  told : ToldStuck w w' p x
  logs : xlogsOf w'.proxy.direct = xlogsOf w.proxy.direct ++ [x]
  metered : w'.metered = w.metered ++ [(x.elapsed.toInt, true)]

theorem endStuck_ended {w : World} (g : Good w) {p : Nat} {t : Tctx} (h : w.tctxs[p]? = some t) (hc : t.closed = false) (hr : w.conf.stuckRemove = true) :
    ∃ w' x, endStuck p w = (.ok (), w') ∧ EndedStuck p x w w' := by
  obtain ⟨w1, t1, h1, g1, n⟩ := prelude_run g h
  have ht1 : w1.tctxs[p]? = some t1 := by rw [n.tctxs]; exact getElem?_set_self' h
  have hc1 : t1.closed = false := by have := congrArg Tctx.closed n.fields; exact this.trans hc
  have he1 : t1.error = stuckErrorOf t := by have := congrArg Tctx.error n.fields; exact this
  have hs1 : t1.startTime = t.startTime := by have := congrArg Tctx.startTime n.fields; exact this
  have hd : decisionAt w1 t1 = discardNone := decision_of_error w1 t1 (by rw [he1]; exact stuckErrorOf_ne t)
  obtain ⟨w2, ss, packs, k1, k2, k3, k4, k5, k6, k7, k8, k9, k10, k11, k12⟩ := endRest_full ht1 g1.bulk
  have htick := endRest_tick ht1 g1.bulk
  rw [k1] at htick
  replace htick : w1.tick < w2.tick := htick
  rw [hd, if_pos rfl] at k9
  rw [hd, if_pos (keeps_none t1 _)] at k12
  have hall := (g1.each t1 (List.mem_of_getElem? ht1)).all hc1
  have hn := n.tick
  refine ⟨w2, { xlogFor t1 discardNone (elapsedAt w1 t1) with objHash := w1.conf.objHash }, ?_, ?_⟩
  · rw [endStuck_eq]
    unfold recovered
    rw [TM.get_bind, hr]
    simp only [if_true]
    rw [TM.bind_ok h1]
    unfold endTctx
    rw [TM.bind_ok (getT_run ht1), hc1]
    simp only [Bool.false_eq_true, if_false]
    rw [k1]
  · refine ⟨k2.trans n.env, k3.trans n.conf, by omega, ⟨[stuckStep t (sinceStart w t)], by rw [k5, n.steps]⟩, ?_, ?_, ?_, ?_⟩
    · intro q hq
      rw [k8, List.getElem?_modify, n.tctxs, List.getElem?_set_ne (Ne.symm hq)]
      simp [Ne.symm hq]
    · refine ⟨t, _, sinceStart w t, elapsedAt w1 t1, w.steps.length, BitVec.ofNat 32 t1.profileSize, BitVec.ofNat 32 t1.profileCount, h, hc,
        (by rw [k8, List.getElem?_modify, ht1]; simp only [if_true]; rfl), rfl, ?_, ?_, ?_, ?_, ?_, ?_, ?_⟩
      · show t1.txid = t.txid
        have := congrArg Tctx.txid n.fields
        exact this
      · show t1.recorded = _
        exact n.recorded
      · show t1.sentSteps ++ ss.flatten = t1.recorded
        rw [k9]; exact hall
      · rw [k5, n.steps]; simp
      · exact ⟨w.tick, Nat.le_refl _, by omega, rfl⟩
      · refine ⟨w1.tick, by omega, htick, ?_⟩
        unfold elapsedAt
        rw [hs1, n.env]
      · have : xlogFor t1 discardNone (elapsedAt w1 t1) =
            { xlogFor t discardNone (elapsedAt w1 t1) with
              error := stuckErrorOf t, profileSize := BitVec.ofNat 32 t1.profileSize, profileCount := BitVec.ofNat 32 t1.profileCount } := by
          have key : xlogFor t1.sansProfile discardNone (elapsedAt w1 t1) =
              xlogFor ({ t with error := stuckErrorOf t } : Tctx).sansProfile discardNone (elapsedAt w1 t1) := by rw [n.fields]
          have := congrArg (fun y : XlogPack => { y with profileSize := BitVec.ofNat 32 t1.profileSize, profileCount := BitVec.ofNat 32 t1.profileCount }) key
          exact this
        rw [this, n.conf]
    · rw [k12, xlogsOf_append, xlogsOf_append, xlogsOf_packsFor k11, n.logs, List.append_nil]
      rfl
    · rw [k7, n.metered, he1]
      have : (stuckErrorOf t != 0) = true := by simpa using stuckErrorOf_ne t
      rw [this]
      rfl

/-- What the look at all the services leaves of those stuck. -/
structure Swept (w w' : World) (ps : List Nat) : Prop where
  env : w'.env = w.env
  conf : w'.conf = w.conf
  tick : w.tick ≤ w'.tick
  steps : ∃ s, w'.steps = w.steps ++ s
  others : ∀ q, q ∉ ps → w'.tctxs[q]? = w.tctxs[q]?
  told : ∃ xs, List.Forall₂ (ToldStuck w w') ps xs ∧ xlogsOf w'.proxy.direct = xlogsOf w.proxy.direct ++ xs ∧
    w'.metered = w.metered ++ xs.map fun x => (x.elapsed.toInt, true)

theorem Swept.refl (w : World) : Swept w w [] :=
  ⟨rfl, rfl, Nat.le_refl _, ⟨[], by simp⟩, fun _ _ => rfl, [], .nil, by simp, by simp⟩

theorem readDuring_mono {t : Tctx} {w w' v v' : World} {s : BitVec 32} (h : ReadDuring t w w' s) (h1 : v.tick ≤ w.tick) (h2 : w'.tick ≤ v'.tick)
    (he : w.env = v.env) : ReadDuring t v v' s := by
  obtain ⟨k, a, b, c⟩ := h
  exact ⟨k, by omega, by omega, by rw [c, he]⟩

theorem Swept.cons {w w1 w2 w' : World} {p : Nat} {x : XlogPack} {ps : List Nat} (h1 : EndedStuck p x w w1) (hp : p ∉ ps)
    (e2 : w2.env = w1.env ∧ w2.conf = w1.conf ∧ w2.tick = w1.tick ∧ w2.steps = w1.steps ∧ w2.tctxs = w1.tctxs ∧ w2.metered = w1.metered ∧
      xlogsOf w2.proxy.direct = xlogsOf w1.proxy.direct) (h3 : Swept w2 w' ps) : Swept w w' (p :: ps) := by
  obtain ⟨a1, a2, a3, a4, a5, a6, a7⟩ := e2
  obtain ⟨s1, b1⟩ := h1.steps
  obtain ⟨s3, b3⟩ := h3.steps
  obtain ⟨xs, c1, c2, c3⟩ := h3.told
  have t1 := h1.tick
  have t3 := h3.tick
  refine ⟨h3.env.trans (a1.trans h1.env), h3.conf.trans (a2.trans h1.conf), by omega, ⟨s1 ++ s3, by rw [b3, a4, b1, List.append_assoc]⟩, ?_, x :: xs, .cons ?_ ?_, ?_, ?_⟩
  · intro q hq
    rw [List.mem_cons, not_or] at hq
    rw [h3.others q hq.2, a5, h1.others q hq.1]
  · obtain ⟨t, t', ms, el, i, size, count, d1, d2, d3, d4, d5, d6, d7, d8, d9, d10, d11⟩ := h1.told.told
    refine ⟨t, t', ms, el, i, size, count, d1, d2, ?_, d4, d5, d6, d7, ?_, readDuring_mono d9 (Nat.le_refl _) (by omega) rfl, readDuring_mono d10 (Nat.le_refl _) (by omega) rfl, d11⟩
    · rw [h3.others p hp, a5]; exact d3
    · rw [b3, a4]
      have hi := (List.getElem?_eq_some_iff.mp d8).1
      rw [List.getElem?_append_left hi]; exact d8
  · have : ∀ (l : List Nat) (ys : List XlogPack), p ∉ l → List.Forall₂ (ToldStuck w2 w') l ys → List.Forall₂ (ToldStuck w w') l ys := by
      intro l ys hl hf
      induction hf with
      | nil => exact .nil
      | @cons q y l ys hq _ ih =>
        rw [List.mem_cons, not_or] at hl
        refine .cons ?_ (ih hl.2)
        obtain ⟨t, t', ms, el, i, size, count, d1, d2, d3, d4, d5, d6, d7, d8, d9, d10, d11⟩ := hq.told
        rw [a5, h1.others q (Ne.symm hl.1)] at d1
        have e : w2.env = w.env := a1.trans h1.env
        exact ⟨t, t', ms, el, i, size, count, d1, d2, d3, d4, d5, d6, d7, d8, readDuring_mono d9 (by omega) (Nat.le_refl _) e, readDuring_mono d10 (by omega) (Nat.le_refl _) e,
          by rw [d11, a2, h1.conf]⟩
    exact this ps xs hp c1
  · rw [c2, a7, h1.logs]; simp
  · rw [c3, a6, h1.metered]; simp

/-- An alert is sent. -/
def alerted (w : World) (pk : AlertPack) : World := { w with proxy := { w.proxy with direct := w.proxy.direct ++ [.alert pk] } }

theorem loop_swept (now : Int) (vs : List Nat) : ∀ (w : World) (c : Nat) (a : Nat × Nat × Nat), Good w → w.conf.stuckRemove = true →
    (∀ p ∈ vs, ∃ t, w.tctxs[p]? = some t ∧ t.closed = false) → vs.Nodup → c ≤ 2000 →
    Swept w (activeLoop now vs c a w).2 (stuckAmong w now (vs.take (2000 - c))) := by
  induction vs with
  | nil => intro w c a g hr hv hn hc; simpa [activeLoop, stuckAmong] using Swept.refl w
  | cons q vs ih =>
    intro w c a g hr hv hn hc
    unfold activeLoop
    by_cases hc' : c + 1 > 2000
    · rw [if_pos hc']
      have : 2000 - c = 0 := by omega
      rw [this]
      simpa [stuckAmong] using Swept.refl w
    · rw [if_neg hc']
      obtain ⟨t, ht, hcl⟩ := hv q (by simp)
      rw [TM.bind_ok (getT_run ht), TM.get_bind]
      have htake : (q :: vs).take (2000 - c) = q :: vs.take (2000 - (c + 1)) := by
        rw [show 2000 - c = (2000 - (c + 1)) + 1 from by omega, List.take_succ_cons]
      rw [htake]
      have hst : startedAt w q = t.startTime := endedAt_of_startedAt ht
      have hel : activeElapsed now t.startTime = runningMs w now q := by unfold runningMs; rw [hst]; rfl
      obtain ⟨hnq, hn⟩ := List.nodup_cons.mp hn
      simp only
      generalize (if activeElapsed now t.startTime ≤ w.conf.yellow then (a.1 + 1, a.2.1, a.2.2)
        else if activeElapsed now t.startTime ≤ w.conf.red then (a.1, a.2.1 + 1, a.2.2) else (a.1, a.2.1, a.2.2 + 1)) = a'
      by_cases hs : w.conf.stuckBase < runningMs w now q
      · rw [if_pos (by rw [hel]; exact hs)]
        have hq := (List.getElem?_eq_some_iff.mp ht).1
        obtain ⟨w1, x, h1, e1⟩ := endStuck_ended g ht hcl hr
        obtain ⟨w1', h1', g1, l1, -⟩ := endStuck_run g hq
        have : w1' = w1 := by rw [h1] at h1'; exact (congrArg Prod.snd h1').symm
        subst this
        obtain ⟨t1, ht1⟩ : ∃ t1, w1'.tctxs[q]? = some t1 := by
          obtain ⟨_, t', _, _, _, _, _, _, _, d3, _⟩ := e1.told.told
          exact ⟨t', d3⟩
        have e2 : ∃ pk, sendAlert (if w1'.conf.stuckAlert then 2 else 1) (ascii "STUCK_SERVICE") (stuckMessage t1 (activeElapsed now t.startTime)) w1' =
            (.ok (), (alerted w1' pk)) := by
          unfold sendAlert
          rw [if_neg (by decide +kernel), TM.get_bind]
          exact ⟨_, rfl⟩
        obtain ⟨pk, e2⟩ := e2
        have g2 : Good (alerted w1' pk) := by
          obtain ⟨_, w2, h2, g2, -⟩ := safe_sendAlert (n := 0) (k := 0) (if w1'.conf.stuckAlert then 2 else 1) (ascii "STUCK_SERVICE")
            (stuckMessage t1 (activeElapsed now t.startTime)) (by decide +kernel) w1' g1 (Nat.zero_le _) (Nat.zero_le _)
          rw [e2] at h2
          have := congrArg Prod.snd h2
          simp only at this
          rw [this]; exact g2
        have hv2 : ∀ p ∈ vs, ∃ t, w1'.tctxs[p]? = some t ∧ t.closed = false := by
          intro p hp
          rw [e1.others p (fun e => hnq (e ▸ hp))]
          exact hv p (by simp [hp])
        have hi := ih (alerted w1' pk) (c + 1) a' g2 (by rw [← hr]; exact congrArg _ e1.conf) hv2 hn (by omega)
        have hst' : stuckAmong (alerted w1' pk) now (vs.take (2000 - (c + 1))) =
            stuckAmong w now (vs.take (2000 - (c + 1))) := by
          refine l1.steady.stuck now fun p hp => ?_
          obtain ⟨u, hu, -⟩ := hv p (by simp [List.mem_of_mem_take hp])
          exact (List.getElem?_eq_some_iff.mp hu).1
        rw [hst'] at hi
        have hcons : stuckAmong w now (q :: vs.take (2000 - (c + 1))) = q :: stuckAmong w now (vs.take (2000 - (c + 1))) := by
          simp [stuckAmong, hs]
        rw [hcons]
        rw [TM.bind_ok h1, TM.bind_ok (getT_run ht1), TM.get_bind, TM.bind_ok e2]
        refine Swept.cons (w2 := alerted w1' pk) e1 (fun hm => hnq (List.mem_of_mem_take (List.mem_filter.mp hm).1)) ⟨rfl, rfl, rfl, rfl, rfl, rfl, ?_⟩ hi
        show xlogsOf (_ ++ [_]) = _
        rw [xlogsOf_append]; simp [xlogsOf]
      · rw [if_neg (by rw [hel]; exact hs)]
        have hcons : stuckAmong w now (q :: vs.take (2000 - (c + 1))) = stuckAmong w now (vs.take (2000 - (c + 1))) := by
          simp [stuckAmong, hs]
        rw [hcons]
        have hi := ih w (c + 1) a' g hr (fun p hp => hv p (by simp [hp])) hn (by omega)
        exact hi


/-- With removal switched off nothing is ended. -/
theorem loop_kept (now : Int) (vs : List Nat) : ∀ (w : World) (c : Nat) (a : Nat × Nat × Nat), Good w → w.conf.stuckRemove = false →
    (∀ p ∈ vs, p < w.tctxs.length) → Swept w (activeLoop now vs c a w).2 [] ∧ (activeLoop now vs c a w).2.tctxs = w.tctxs := by
  induction vs with
  | nil => intro w c a g hr hv; exact ⟨Swept.refl w, rfl⟩
  | cons q vs ih =>
    intro w c a g hr hv
    unfold activeLoop
    by_cases hc' : c + 1 > 2000
    · rw [if_pos hc']
      exact ⟨Swept.refl w, rfl⟩
    · rw [if_neg hc']
      have hq := hv q (by simp)
      have ht : w.tctxs[q]? = some w.tctxs[q] := List.getElem?_eq_getElem hq
      generalize w.tctxs[q] = t at ht
      rw [TM.bind_ok (getT_run ht), TM.get_bind]
      simp only
      generalize (if activeElapsed now t.startTime ≤ w.conf.yellow then (a.1 + 1, a.2.1, a.2.2)
        else if activeElapsed now t.startTime ≤ w.conf.red then (a.1, a.2.1 + 1, a.2.2) else (a.1, a.2.1, a.2.2 + 1)) = a'
      by_cases hs : activeElapsed now t.startTime > w.conf.stuckBase
      · rw [if_pos hs]
        have h1 : endStuck q w = (.ok (), w) := by
          rw [endStuck_eq]
          unfold recovered
          simp [hr]
        have e2 : ∃ pk, sendAlert (if w.conf.stuckAlert then 2 else 1) (ascii "STUCK_SERVICE") (stuckMessage t (activeElapsed now t.startTime)) w =
            (.ok (), alerted w pk) := by
          unfold sendAlert
          rw [if_neg (by decide +kernel), TM.get_bind]
          exact ⟨_, rfl⟩
        obtain ⟨pk, e2⟩ := e2
        have g2 : Good (alerted w pk) := by
          obtain ⟨_, w2, h2, g2, -⟩ := safe_sendAlert (n := 0) (k := 0) (if w.conf.stuckAlert then 2 else 1) (ascii "STUCK_SERVICE")
            (stuckMessage t (activeElapsed now t.startTime)) (by decide +kernel) w g (Nat.zero_le _) (Nat.zero_le _)
          rw [e2] at h2
          have := congrArg Prod.snd h2
          simp only at this
          rw [this]; exact g2
        rw [TM.bind_ok h1, TM.bind_ok (getT_run ht), TM.get_bind, TM.bind_ok e2]
        obtain ⟨i1, i2⟩ := ih (alerted w pk) (c + 1) a' g2 hr (fun p hp => hv p (by simp [hp]))
        obtain ⟨xs, c1, c2, c3⟩ := i1.told
        cases c1
        refine ⟨⟨i1.env, i1.conf, i1.tick, i1.steps, i1.others, [], .nil, ?_, c3⟩, i2⟩
        rw [c2]
        show xlogsOf (w.proxy.direct ++ [_]) ++ [] = _
        rw [xlogsOf_append]; simp [xlogsOf]
      · rw [if_neg hs]
        exact ih w (c + 1) a' g hr fun p hp => hv p (by simp [hp])

end Active

section
variable (env : Oracle) (conf : TraceConf) (cap : Nat) (cs : List Call) (hk : 1 ≤ conf.keep) (hb : 1 ≤ conf.bulk)
  (hwf : AllWellFormed (start env conf cap) cs) (o : MapOrder (BitVec 64 × Nat))
include hk hb hwf

theorem sweep_of (hid : DistinctIds env (history (start env conf cap) cs).tick) :
    let w := history (start env conf cap) cs
    let now := env.clock w.tick
    let seen := (w.registry.getValues o).take 2000
    Active.Swept w (perform w (.activeCount o)) (if w.conf.stuckRemove then stuckAmong w now seen else []) := by
  intro w now seen
  have g : Good w := (Good.start env conf cap hk hb).history cs hwf
  obtain ⟨h1, h2, -⟩ := C42_active_list_is_sound env conf cap cs hid o
  have henv : w.env = env := history_env _ cs
  have hopen : ∀ p ∈ w.registry.getValues o, ∃ t, w.tctxs[p]? = some t ∧ t.closed = false := by
    intro p hp
    have := h1 p hp
    unfold running at this
    obtain ⟨a1, a2⟩ := List.mem_filter.mp this
    have hlt : p < w.tctxs.length := List.mem_range.mp a1
    refine ⟨_, List.getElem?_eq_getElem hlt, ?_⟩
    have e : (history (start env conf cap) cs).tctxs[p]? = some w.tctxs[p] := List.getElem?_eq_getElem hlt
    rw [e] at a2
    simpa using a2
  have e : perform w (.activeCount o) = (activeLoop now (w.registry.getValues o) 0 (0, 0, 0) { w with tick := w.tick + 1 }).2 := by
    show ((getActiveCount o >>= fun _ => pure ()) w).2 = _
    rw [TM.bind_def]
    unfold getActiveCount
    rw [TM.get_bind, TM.reading_bind]
    have : w.env.clock w.tick = now := by rw [henv]
    rw [this]
    split <;> simp_all
  have key : Active.Swept { w with tick := w.tick + 1 } (perform w (.activeCount o)) (if w.conf.stuckRemove then stuckAmong w now seen else []) := by
    rw [e]
    cases hr : w.conf.stuckRemove with
    | true =>
      have := Active.loop_swept now (w.registry.getValues o) { w with tick := w.tick + 1 } 0 (0, 0, 0) (g.tick _) hr hopen h2 (by omega)
      exact this
    | false =>
      exact (Active.loop_kept now (w.registry.getValues o) { w with tick := w.tick + 1 } 0 (0, 0, 0) (g.tick _) hr
        (fun p hp => by obtain ⟨t, ht, -⟩ := hopen p hp; exact (List.getElem?_eq_some_iff.mp ht).1)).1
  obtain ⟨xs, c1, c2, c3⟩ := key.told
  refine ⟨key.env, key.conf, Nat.le_trans (Nat.le_succ _) key.tick, key.steps, key.others, xs, c1.imp fun p x hx => ?_, c2, c3⟩
  obtain ⟨t, t', ms, el, i, size, count, d1, d2, d3, d4, d5, d6, d7, d8, d9, d10, d11⟩ := hx.told
  exact ⟨t, t', ms, el, i, size, count, d1, d2, d3, d4, d5, d6, d7, d8, Active.readDuring_mono d9 (Nat.le_succ _) (Nat.le_refl _) rfl,
    Active.readDuring_mono d10 (Nat.le_succ _) (Nat.le_refl _) rfl, d11⟩

/-- **C119**: when the active services are counted, the services found stuck, if removal is switched on, are ended; each is told of (`ToldStuck`) by exactly one log,
in the order they are looked at, whatever the sampling options, and counted once as failed. Nothing else is logged or counted, and no other service is touched. -/
theorem C119_stuck_services_are_told (hid : DistinctIds env (history (start env conf cap) cs).tick) :
    let w := history (start env conf cap) cs
    let w' := perform w (.activeCount o)
    let ended := if w.conf.stuckRemove then stuckAmong w (env.clock w.tick) ((w.registry.getValues o).take 2000) else []
    List.Forall₂ (ToldStuck w w') ended (xlogsOf (newPacks w w')) ∧
      w'.metered = w.metered ++ (xlogsOf (newPacks w w')).map (fun x => (x.elapsed.toInt, true)) ∧
      ∀ q, q ∉ ended → w'.tctxs[q]? = w.tctxs[q]? := by
  intro w w' ended
  have h := sweep_of env conf cap cs hk hb hwf o hid
  obtain ⟨xs, c1, c2, c3⟩ := h.told
  have hnew : xlogsOf (newPacks w w') = xs := by
    obtain ⟨l, hl⟩ : ∃ l, w'.proxy.direct = w.proxy.direct ++ l := by
      obtain ⟨⟨l, e, -⟩, -⟩ := grow_history [.activeCount o] w
      exact ⟨l, e⟩
    have : newPacks w w' = l := by unfold newPacks; rw [hl]; simp
    rw [this]
    have c2' : xlogsOf w'.proxy.direct = xlogsOf w.proxy.direct ++ xs := c2
    rw [hl, xlogsOf_append] at c2'
    exact List.append_cancel_left c2'
  rw [hnew]
  exact ⟨c1, c3, h.others⟩

/-- **C119**: and the collector receives the whole profile of such a service, all the steps recorded for it and last the one that says it was stuck. -/
theorem C119_stuck_profile_complete (ho : AllOnce (start env conf cap) cs)
    (hid : DistinctIds env (perform (history (start env conf cap) cs) (.activeCount o)).tick) :
    let w := history (start env conf cap) cs
    let w' := perform w (.activeCount o)
    ∀ p ∈ (if w.conf.stuckRemove then stuckAmong w (env.clock w.tick) ((w.registry.getValues o).take 2000) else []),
      ∃ t ms, w.tctxs[p]? = some t ∧ ReadDuring t w w' ms ∧
        profileStream w' t.txid = stepsToBytes (t.recorded.map (w.steps[·]?) ++ [some (stuckStep t ms)]) := by
  intro w w' p hp
  have e1 : history (start env conf cap) (cs ++ [.activeCount o]) = w' := by simp [history, w', w]
  have hid' : DistinctIds env (history (start env conf cap) (cs ++ [.activeCount o])).tick := by rw [e1]; exact hid
  have ho' : AllOnce (start env conf cap) (cs ++ [.activeCount o]) := ho.append (ds := [.activeCount o]) ⟨trivial, trivial⟩
  have hid0 : DistinctIds env w.tick :=
    fun a b ha hb => hid a b (Nat.lt_of_lt_of_le ha (perform_tick _ _)) (Nat.lt_of_lt_of_le hb (perform_tick _ _))
  have h := sweep_of env conf cap cs hk hb hwf o hid0
  obtain ⟨xs, c1, -, -⟩ := h.told
  have : ∃ x, ToldStuck w w' p x := by
    clear h
    revert hp
    generalize (if w.conf.stuckRemove then stuckAmong w (env.clock w.tick) ((w.registry.getValues o).take 2000) else []) = ps at c1
    intro hp
    induction c1 with
    | nil => simp at hp
    | cons a _ ih =>
      rcases List.mem_cons.mp hp with rfl | hp
      · exact ⟨_, a⟩
      · exact ih hp
  obtain ⟨x, hx⟩ := this
  obtain ⟨t, t', ms, el, i, size, count, d1, d2, d3, d4, d5, d6, d7, d8, d9, d10, d11⟩ := hx.told
  refine ⟨t, ms, d1, d9, ?_⟩
  have st := (C81_stream env conf cap (cs ++ [.activeCount o]) hid' ho').1
  rw [e1] at st
  have := st t' (List.mem_of_getElem? d3)
  rw [d5, d7, d6, List.map_append] at this
  refine this.trans (congrArg stepsToBytes ?_)
  congr 1
  · refine List.map_congr_left fun j hj => ?_
    have := C81_recorded_steps_stay env conf cap cs [.activeCount o] hid' ho' t (List.mem_of_getElem? d1) j hj
    rw [e1] at this
    exact this
  · simp [d8]

end

/-- **C119**: a service told of as stuck has an error on its log, its own if it has one. -/
theorem C119_stuck_log_has_error {w w' : World} {p : Nat} {x : XlogPack} (h : ToldStuck w w' p x) :
    x.error ≠ 0 ∧ x.discardType = discardNone ∧ ∀ t, w.tctxs[p]? = some t → t.error ≠ 0 → x.error = t.error := by
  obtain ⟨t, t', ms, el, i, size, count, d1, d2, d3, d4, d5, d6, d7, d8, d9, d10, d11⟩ := h.told
  subst d11
  refine ⟨stuckErrorOf_ne t, rfl, fun u hu he => ?_⟩
  rw [d1] at hu
  cases hu
  show stuckErrorOf t = _
  unfold stuckErrorOf
  rw [if_neg he]

namespace Demo

/-- The service at 0 is ended as stuck, the others are not. -/
def unstuck : World := perform busy (.activeCount inOrder)

example : busy.conf.stuckRemove = true ∧ (busy.registry.getValues inOrder).take 2000 = [0, 2, 3] := by decide +kernel
example : (match xlogsOf (newPacks busy unstuck), busy.tctxs[0]?, unstuck.tctxs[0]? with
    | [x], some t, some t' => decide (x.txid = t.txid ∧ t.error = 0 ∧ x.error = textHash (ascii "This stuck service currently may running, not finished!") ∧
        x.discardType = discardNone ∧ t'.closed = true ∧ t.recorded.length + 1 = t'.recorded.length)
    | _, _, _ => false) = true := by decide +kernel
example : unstuck.metered.length = busy.metered.length + 1 ∧ (unstuck.metered.getLast?.map (·.2)) = some true := by decide +kernel
example : AllOnce (start env busyConf 100) busyCalls := ⟨trivial, trivial, trivial, trivial, trivial, trivial⟩
example : DistinctIds env unstuck.tick := ids_distinct _ (by decide +kernel)

/-- A service that had failed already when it was found stuck. -/
def failedStuck : World := history (start env busyConf 100)
  (busyCalls ++ [.markAsError (.traced 0) (ascii "out of money"), .activeCount inOrder])

example : (match (xlogsOf failedStuck.proxy.direct).getLast? with
    | some x => decide (x.error = textHash (ascii "out of money"))
    | _ => false) = true := by decide +kernel

/-- With removal switched off the service stays. -/
def keptStuck : World := history (start env { busyConf with stuckRemove := false } 100) (busyCalls ++ [.activeCount inOrder])

example : running keptStuck = [0, 2, 3] ∧ (xlogsOf keptStuck.proxy.direct).length = 1 := by decide +kernel

end Demo

end Scouter
