import Verif.Proofs.Hush
import Verif.Props.Panics
import Verif.Props.Services
import Mathlib.Tactic.IntervalCases
/-!
# C54: the active-service count
-/
namespace Scouter
open TM Trace

/-- When the service of a context started. -/
def startedAt (w : World) (p : Nat) : Int := ((w.tctxs[p]?).map (·.startTime)).getD 0

/-- The name of the service of a context. -/
def nameOf (w : World) (p : Nat) : Bytes := ((w.tctxs[p]?).map (·.serviceName)).getD []

/-- The goroutine id of a context. -/
def goidOf (w : World) (p : Nat) : Int := ((w.tctxs[p]?).map (·.goid)).getD 0

/-- Whole milliseconds a service has been running, at the clock reading `now`. -/
def runningMs (w : World) (now : Int) (p : Nat) : Int := (now - startedAt w p).tdiv 1000000

/-- The services that have been running for longer than the stuck limit. -/
def stuckAmong (w : World) (now : Int) (vs : List Nat) : List Nat := vs.filter fun p => w.conf.stuckBase < runningMs w now p

/-- The alert about a stuck service. -/
def stuckAlertOf (w : World) (now : Int) (p : Nat) : AlertPack :=
  { time := 0, objType := w.conf.objType, objHash := w.conf.objHash, level := if w.conf.stuckAlert then 2 else 1
    title := ascii "STUCK_SERVICE"
    message := ascii "service: " ++ nameOf w p ++ ascii ", elapsed: " ++ formatInt 10 (runningMs w now p) ++ ascii ", goId: " ++
      formatInt 10 (goidOf w p) ++ ascii ", tctxGoId: %!d(MISSING)"
    tags := [] }

/-- How many of `vs` run for at most the yellow time, for longer but at most the red time, and for longer than both. -/
def byColour (w : World) (now : Int) (vs : List Nat) : Nat × Nat × Nat :=
  (vs.countP (fun p => runningMs w now p ≤ w.conf.yellow),
   vs.countP (fun p => w.conf.yellow < runningMs w now p ∧ runningMs w now p ≤ w.conf.red),
   vs.countP (fun p => w.conf.yellow < runningMs w now p ∧ w.conf.red < runningMs w now p))

/-- Whether the service of a context has ended. -/
def endedAt (w : World) (p : Nat) : Bool := ((w.tctxs[p]?).map (·.closed)).getD false

namespace Active

/-- What the count reads of a context. -/
def readCore (t : Tctx) : Int × Bytes × Int := (t.startTime, t.serviceName, t.goid)

/-- The changes made while `q` is looked at. -/
structure Looked (q : Nat) (w w' : World) : Prop where
  conf : w'.conf = w.conf
  len : w'.tctxs.length = w.tctxs.length
  cores : ∀ p, Same readCore p w w'
  others : ∀ p, p ≠ q → Same (·.closed) p w w'
  alerts : alertsOf w'.proxy.direct = alertsOf w.proxy.direct

theorem Looked.refl (q : Nat) (w : World) : Looked q w w := ⟨rfl, rfl, fun _ => Same.isPre.refl _, fun _ _ => Same.isPre.refl _, rfl⟩
theorem Looked.isPre (q : Nat) : IsPre (Looked q) where
  refl := Looked.refl q
  trans h h' := ⟨h'.conf.trans h.conf, h'.len.trans h.len, fun p => Same.isPre.trans (h.cores p) (h'.cores p),
    fun p hp => Same.isPre.trans (h.others p hp) (h'.others p hp), h'.alerts.trans h.alerts⟩

/-- The context with what the count reads and whether it ended. -/
def fullCore (t : Tctx) : (Int × Bytes × Int) × Bool := (readCore t, t.closed)
theorem fullCore_blind : Blind fullCore := ⟨fun _ _ => rfl, fun _ _ _ => rfl, fun _ _ _ _ => rfl⟩
theorem readCore_blind : Blind readCore := ⟨fun _ _ => rfl, fun _ _ _ => rfl, fun _ _ _ _ => rfl⟩
theorem closed_blind : Blind (·.closed) := ⟨fun _ _ => rfl, fun _ _ _ => rfl, fun _ _ _ _ => rfl⟩

theorem looked_of {q : Nat} {α : Type} {m : TM α} (hq : Ev (Quiet fullCore) m) (hh : Ev Hush m) : Ev (Looked q) m := by
  intro w
  have hq := hq w
  refine ⟨hq.conf, hq.len, fun p t ht => ?_, fun p _ t ht => ?_, hh w⟩
  · obtain ⟨t', h1, h2⟩ := hq.same t ht
    exact ⟨t', h1, congrArg Prod.fst h2⟩
  · obtain ⟨t', h1, h2⟩ := hq.same t ht
    exact ⟨t', h1, congrArg Prod.snd h2⟩

theorem endRest_confLen (q : Nat) (w : World) (h : q < w.tctxs.length) (hb : 1 ≤ w.conf.bulk) :
    (endRest q w).2.conf = w.conf ∧ (endRest q w).2.tctxs.length = w.tctxs.length := by
  obtain ⟨w', ss, packs, h1, h2, h3, h4, h5, h6, h7, h8, -⟩ := endRest_full (List.getElem?_eq_getElem h) hb
  rw [h1]
  exact ⟨h3, by rw [h8]; simp⟩

theorem looked_endTctx {q : Nat} {w : World} (h : q < w.tctxs.length) (hb : 1 ≤ w.conf.bulk) : Looked q w (endTctx q w).2 := by
  unfold endTctx
  rw [TM.bind_ok (getT_run (List.getElem?_eq_getElem h))]
  split
  · exact Looked.refl q w
  · exact ⟨(endRest_confLen q w h hb).1, (endRest_confLen q w h hb).2,
      fun p => same_endRest' readCore_blind q (fun _ _ => rfl) (fun _ _ => rfl) w,
      fun p hp => same_endRest_other closed_blind (Ne.symm hp) w, hush_endRest q w⟩

/-- The code of `endStuck` before the service is ended. -/
def stuckPrelude (p : Nat) : TM Unit := do
    let t ← getT p
    let now ← millisToNow t.startTime
    let h ← sendText .hashMessage (ascii "Service currently may running, not finished!")
    addNew p now (.pmessage h 0 3 (paramString []))
    let t ← getT p
    if t.error = 0 then do
      let e ← sendText .error (ascii "This stuck service currently may running, not finished!")
      modT p fun t => { t with error := e }
    else pure ()

theorem looked_prelude (q : Nat) : Ev (Looked q) (stuckPrelude q) := by
  refine looked_of ?_ ?_
  · exact quiet_bind (quiet_getT _) fun _ => quiet_bind (quiet_millisToNow _) fun _ => quiet_bind (quiet_sendText _ _) fun _ =>
      quiet_bind (quiet_addNew fullCore_blind _ _ _) fun _ => quiet_bind (quiet_getT _) fun _ => quiet_ite
      (quiet_bind (quiet_sendText _ _) fun _ => quiet_modT _ _ fun _ => rfl) (quiet_pure _)
  · exact hush_bind (hush_getT _) fun _ => hush_bind (hush_millisToNow _) fun _ => hush_bind (hush_sendText _ _) fun _ =>
      hush_bind (hush_addNew _ _ _) fun _ => hush_bind (hush_getT _) fun _ => hush_ite
      (hush_bind (hush_sendText _ _) fun _ => hush_modT _ _) (hush_pure _)

theorem safe_prelude {n k q : Nat} (hq : q < n) : Safe n k (stuckPrelude q) :=
  safe_bind (safe_getT hq) fun _ => safe_bind (safe_millisToNow _) fun _ => safe_bind (safe_sendText _ _) fun _ =>
    safe_bind (safe_addNew hq _ _) fun _ => safe_bind (safe_getT hq) fun _ => safe_ite
    (safe_bind (safe_sendText _ _) fun _ => safe_fields (fun _ => rfl) (fun _ => rfl) (fun _ => rfl) (fun _ => rfl) (fun _ => rfl))
    (safe_pure _)

theorem endStuck_eq (p : Nat) : endStuck p = recovered () (do
    let w ← get
    if w.conf.stuckRemove then do
      stuckPrelude p
      endTctx p
    else pure ()) := by
  unfold endStuck stuckPrelude
  congr 1
  funext w
  simp only [TM.get_bind]
  split
  · simp only [TM.bind_def]
    repeat' (first | rfl | split)
    all_goals simp_all [TM.bind_def]
  · rfl

/-- Looking at a stuck service, in a good world. -/
theorem endStuck_run {w : World} (g : Good w) {q : Nat} (hq : q < w.tctxs.length) :
    ∃ w', endStuck q w = (.ok (), w') ∧ Good w' ∧ Looked q w w' ∧
      endedAt w' q = (endedAt w q || w.conf.stuckRemove) := by
  rw [endStuck_eq]
  cases hr : w.conf.stuckRemove with
  | false =>
    refine ⟨w, ?_, g, Looked.refl q w, by simp⟩
    unfold recovered
    simp [hr]
  | true =>
    obtain ⟨_, w1, h1, g1, n1, k1⟩ := safe_prelude (n := w.tctxs.length) (k := 0) hq w g (Nat.le_refl _) (Nat.zero_le _)
    have l1 : Looked q w w1 := by have := looked_prelude q w; rw [h1] at this; exact this
    obtain ⟨_, w2, h2, g2, n2, k2⟩ := safe_endTctx (n := w.tctxs.length) (k := 0) hq w1 g1 n1 (Nat.zero_le _)
    have hq1 : q < w1.tctxs.length := by omega
    have l2 : Looked q w1 w2 := by have := looked_endTctx hq1 g1.bulk; rw [h2] at this; exact this
    have c2 : endedAt w2 q = true := by have := endTctx_closes hq1; rw [h2] at this; unfold endedAt; rw [this]; rfl
    refine ⟨w2, ?_, g2, (Looked.isPre q).trans l1 l2, by simp [c2]⟩
    unfold recovered
    rw [TM.get_bind, hr]
    simp only [if_true]
    rw [TM.bind_ok h1, h2]

theorem same_endedAt {p : Nat} {w w' : World} (h : Same (·.closed) p w w') (hp : p < w.tctxs.length) :
    endedAt w' p = endedAt w p := by
  obtain ⟨t', h1, h2⟩ := h _ (List.getElem?_eq_getElem hp)
  unfold endedAt
  rw [h1, List.getElem?_eq_getElem hp]
  exact h2

/-- What the count reads stays the same. -/
structure Steady (w w' : World) : Prop where
  conf : w'.conf = w.conf
  len : w'.tctxs.length = w.tctxs.length
  cores : ∀ p, Same readCore p w w'

theorem Looked.steady {q : Nat} {w w' : World} (h : Looked q w w') : Steady w w' := ⟨h.conf, h.len, h.cores⟩

theorem Steady.started {w w' : World} (h : Steady w w') {p : Nat} (hp : p < w.tctxs.length) : startedAt w' p = startedAt w p := by
  obtain ⟨t', h1, h2⟩ := h.cores p _ (List.getElem?_eq_getElem hp)
  unfold startedAt
  rw [h1, List.getElem?_eq_getElem hp]
  exact congrArg (·.1) h2

theorem Steady.name {w w' : World} (h : Steady w w') {p : Nat} (hp : p < w.tctxs.length) : nameOf w' p = nameOf w p := by
  obtain ⟨t', h1, h2⟩ := h.cores p _ (List.getElem?_eq_getElem hp)
  unfold nameOf
  rw [h1, List.getElem?_eq_getElem hp]
  exact congrArg (·.2.1) h2

theorem Steady.goid {w w' : World} (h : Steady w w') {p : Nat} (hp : p < w.tctxs.length) : goidOf w' p = goidOf w p := by
  obtain ⟨t', h1, h2⟩ := h.cores p _ (List.getElem?_eq_getElem hp)
  unfold goidOf
  rw [h1, List.getElem?_eq_getElem hp]
  exact congrArg (·.2.2) h2

theorem Steady.ms {w w' : World} (h : Steady w w') (now : Int) {p : Nat} (hp : p < w.tctxs.length) :
    runningMs w' now p = runningMs w now p := by unfold runningMs; rw [h.started hp]

theorem Steady.alert {w w' : World} (h : Steady w w') (now : Int) {p : Nat} (hp : p < w.tctxs.length) :
    stuckAlertOf w' now p = stuckAlertOf w now p := by
  unfold stuckAlertOf
  rw [h.conf, h.name hp, h.goid hp, h.ms now hp]

theorem Steady.colours {w w' : World} (h : Steady w w') (now : Int) {vs : List Nat} (hv : ∀ p ∈ vs, p < w.tctxs.length) :
    byColour w' now vs = byColour w now vs := by
  unfold byColour
  rw [h.conf]
  have e : ∀ p ∈ vs, runningMs w' now p = runningMs w now p := fun p hp => h.ms now (hv p hp)
  refine Prod.ext ?_ (Prod.ext ?_ ?_)
  all_goals
    apply List.countP_congr
    intro p hp
    simp only [e p hp]

theorem Steady.stuck {w w' : World} (h : Steady w w') (now : Int) {vs : List Nat} (hv : ∀ p ∈ vs, p < w.tctxs.length) :
    stuckAmong w' now vs = stuckAmong w now vs := by
  unfold stuckAmong
  rw [h.conf]
  apply List.filter_congr
  intro p hp
  rw [h.ms now (hv p hp)]

/-- Adding up counts. -/
def plus (a b : Nat × Nat × Nat) : Nat × Nat × Nat := (a.1 + b.1, a.2.1 + b.2.1, a.2.2 + b.2.2)

/-- Looking at one service, whether stuck or not. -/
theorem look_one {w : World} (g : Good w) {q : Nat} (hq : q < w.tctxs.length) (now : Int) :
    ∃ w', (if activeElapsed now (startedAt w q) > w.conf.stuckBase then do
        endStuck q
        let t ← getT q
        let w ← get
        sendAlert (if w.conf.stuckAlert then 2 else 1) (ascii "STUCK_SERVICE") (stuckMessage t (activeElapsed now (startedAt w q)))
      else pure () : TM Unit) w = (.ok (), w') ∧ Good w' ∧ Steady w w' ∧
      (∀ p, p ≠ q → p < w.tctxs.length → endedAt w' p = endedAt w p) ∧
      endedAt w' q = (endedAt w q || (w.conf.stuckRemove && decide (w.conf.stuckBase < runningMs w now q))) ∧
      alertsOf w'.proxy.direct = alertsOf w.proxy.direct ++ (stuckAmong w now [q]).map (stuckAlertOf w now) := by
  have hel : activeElapsed now (startedAt w q) = runningMs w now q := rfl
  by_cases hs : w.conf.stuckBase < runningMs w now q
  · rw [if_pos (by rw [hel]; exact hs)]
    obtain ⟨w1, h1, g1, l1, c1⟩ := endStuck_run g hq
    have hq1 : q < w1.tctxs.length := by rw [l1.len]; exact hq
    rw [TM.bind_ok h1, TM.bind_ok (getT_run (List.getElem?_eq_getElem hq1)), TM.get_bind]
    obtain ⟨_, w2, h2, g2, -⟩ := safe_sendAlert (n := 0) (k := 0) (if w1.conf.stuckAlert then 2 else 1) (ascii "STUCK_SERVICE")
      (stuckMessage w1.tctxs[q] (activeElapsed now (startedAt w1 q))) (by decide +kernel) w1 g1 (Nat.zero_le _) (Nat.zero_le _)
    have e2 : sendAlert (if w1.conf.stuckAlert then 2 else 1) (ascii "STUCK_SERVICE")
      (stuckMessage w1.tctxs[q] (activeElapsed now (startedAt w1 q))) w1 = (.ok (), { w1 with proxy := { w1.proxy with direct := w1.proxy.direct ++ [.alert (stuckAlertOf w1 now q)] } }) := by
      unfold sendAlert
      rw [if_neg (by decide +kernel), TM.get_bind]
      unfold sendDirect
      simp only [stuckAlertOf, stuckMessage, nameOf, goidOf, List.getElem?_eq_getElem hq1, Option.map_some, Option.getD_some]
      rfl
    rw [e2] at h2
    have hw2 := congrArg Prod.snd h2
    simp only at hw2
    refine ⟨w2, ?_, g2, ?_, ?_, ?_, ?_⟩
    · rw [e2, hw2]
    · rw [← hw2]; exact ⟨l1.conf, l1.len, l1.cores⟩
    · intro p hp hlt
      rw [← hw2]
      show endedAt w1 p = _
      exact same_endedAt (l1.others p hp) hlt
    · rw [← hw2]
      show endedAt w1 q = _
      rw [c1]; simp [hs]
    · rw [← hw2]
      show alertsOf (w1.proxy.direct ++ [_]) = _
      rw [alertsOf_append, l1.alerts, l1.steady.alert now hq]
      simp [stuckAmong, hs, alertsOf]
  · rw [if_neg (by rw [hel]; exact hs)]
    exact ⟨w, rfl, g, ⟨rfl, rfl, fun _ => Same.isPre.refl _⟩, fun _ _ _ => rfl, by simp [hs], by simp [stuckAmong, hs]⟩

theorem endedAt_of_startedAt {w : World} {p : Nat} {t : Tctx} (h : w.tctxs[p]? = some t) : startedAt w p = t.startTime := by
  simp [startedAt, h]

theorem byColour_cons (w : World) (now : Int) (q : Nat) (vs : List Nat) :
    byColour w now (q :: vs) = plus (byColour w now [q]) (byColour w now vs) := by
  unfold byColour plus
  simp only [List.countP_cons, List.countP_nil, Nat.zero_add]
  refine Prod.ext ?_ (Prod.ext ?_ ?_) <;> simp only <;> omega

theorem loop_run (now : Int) (vs : List Nat) : ∀ (w : World) (c : Nat) (a : Nat × Nat × Nat), Good w →
    (∀ p ∈ vs, p < w.tctxs.length) → c ≤ 2000 →
    ∃ w', activeLoop now vs c a w = (.ok (plus a (byColour w now (vs.take (2000 - c)))), w') ∧
      (∀ p, p < w.tctxs.length → endedAt w' p = (endedAt w p ||
        (w.conf.stuckRemove && decide (p ∈ stuckAmong w now (vs.take (2000 - c)))))) ∧
      w'.tctxs.length = w.tctxs.length ∧
      alertsOf w'.proxy.direct = alertsOf w.proxy.direct ++
        (stuckAmong w now (vs.take (2000 - c))).map (stuckAlertOf w now) := by
  induction vs with
  | nil =>
    intro w c a g hv hc
    exact ⟨w, by simp [activeLoop, byColour, plus], by simp [stuckAmong], rfl, by simp [stuckAmong]⟩
  | cons q vs ih =>
    intro w c a g hv hc
    unfold activeLoop
    by_cases hc' : c + 1 > 2000
    · rw [if_pos hc']
      have : 2000 - c = 0 := by omega
      rw [this]
      exact ⟨w, by simp [byColour, plus], by simp [stuckAmong], rfl, by simp [stuckAmong]⟩
    · rw [if_neg hc']
      have hq : q < w.tctxs.length := hv q (by simp)
      rw [TM.bind_ok (getT_run (List.getElem?_eq_getElem hq)), TM.get_bind]
      have hst : (w.tctxs[q]).startTime = startedAt w q := (endedAt_of_startedAt (List.getElem?_eq_getElem hq)).symm
      simp only [hst]
      have hel : activeElapsed now (startedAt w q) = runningMs w now q := rfl
      have hcol : (if activeElapsed now (startedAt w q) ≤ w.conf.yellow then (a.1 + 1, a.2.1, a.2.2)
        else if activeElapsed now (startedAt w q) ≤ w.conf.red then (a.1, a.2.1 + 1, a.2.2)
        else (a.1, a.2.1, a.2.2 + 1)) = plus a (byColour w now [q]) := by
        rw [hel]
        unfold byColour plus
        by_cases h1 : runningMs w now q ≤ w.conf.yellow
        · have h1' : ¬ w.conf.yellow < runningMs w now q := by omega
          simp [h1, h1']
        · have h1' : w.conf.yellow < runningMs w now q := by omega
          by_cases h2 : runningMs w now q ≤ w.conf.red
          · have h2' : ¬ w.conf.red < runningMs w now q := by omega
            simp [h1, h1', h2, h2']
          · have h2' : w.conf.red < runningMs w now q := by omega
            simp [h1, h1', h2, h2']
      rw [hcol]
      obtain ⟨w1, h1, g1, s1, o1, c1, a1⟩ := look_one g hq now
      have hq1 : q < w1.tctxs.length := by rw [s1.len]; exact hq
      obtain ⟨w2, h2, e2, n2, a2⟩ := ih w1 (c + 1) (plus a (byColour w now [q])) g1
        (fun p hp => by rw [s1.len]; exact hv p (by simp [hp])) (by omega)
      have htake : (q :: vs).take (2000 - c) = q :: vs.take (2000 - (c + 1)) := by
        rw [show 2000 - c = (2000 - (c + 1)) + 1 from by omega, List.take_succ_cons]
      have hv' : ∀ p ∈ vs.take (2000 - (c + 1)), p < w.tctxs.length := fun p hp => hv p (by simp [List.mem_of_mem_take hp])
      refine ⟨w2, ?_, ?_, n2.trans s1.len, ?_⟩
      · have hone : (if activeElapsed now (startedAt w q) > w.conf.stuckBase then do
            endStuck q
            let t ← getT q
            let w' ← get
            sendAlert (if w'.conf.stuckAlert then 2 else 1) (ascii "STUCK_SERVICE") (stuckMessage t (activeElapsed now (startedAt w q)))
          else pure () : TM Unit) w = (.ok (), w1) := by
          rw [← h1]
          split
          · obtain ⟨wa, ha, -, la, -⟩ := endStuck_run g hq
            rw [TM.bind_ok ha, TM.bind_ok ha]
            have hqa : q < wa.tctxs.length := by rw [la.len]; exact hq
            rw [TM.bind_ok (getT_run (List.getElem?_eq_getElem hqa)), TM.bind_ok (getT_run (List.getElem?_eq_getElem hqa)),
              TM.get_bind, TM.get_bind, la.steady.started hq]
          · rfl
        have hres : activeLoop now vs (c + 1) (plus a (byColour w now [q])) w1 =
            (.ok (plus a (byColour w now ((q :: vs).take (2000 - c)))), w2) := by
          rw [h2, htake, byColour_cons w now q (vs.take (2000 - (c + 1))), s1.colours now hv']
          simp only [plus, Nat.add_assoc]
        by_cases hs : activeElapsed now (startedAt w q) > w.conf.stuckBase
        · rw [if_pos hs] at hone ⊢
          obtain ⟨wa, ha, -, la, -⟩ := endStuck_run g hq
          have hqa : q < wa.tctxs.length := by rw [la.len]; exact hq
          rw [TM.bind_ok ha, TM.bind_ok (getT_run (List.getElem?_eq_getElem hqa)), TM.get_bind] at hone ⊢
          rw [TM.bind_ok hone, hres]
        · rw [if_neg hs] at hone ⊢
          have e : w = w1 := congrArg Prod.snd hone
          rw [e] at hres ⊢
          rw [← e] at hres ⊢
          exact e ▸ hres
      · intro p hp
        rw [e2 p (by rw [s1.len]; exact hp), htake, s1.stuck now hv', s1.conf]
        by_cases hpq : p = q
        · subst hpq
          rw [c1]
          by_cases hs : w.conf.stuckBase < runningMs w now p
          · cases endedAt w p <;> cases w.conf.stuckRemove <;> simp [stuckAmong, hs]
          · simp [stuckAmong, hs]
        · rw [o1 p hpq hp]
          by_cases hs : w.conf.stuckBase < runningMs w now q
          · simp [stuckAmong, hs, hpq]
          · simp [stuckAmong, hs]
      · rw [a2, a1, htake, s1.stuck now hv', List.append_assoc]
        congr 1
        have : (stuckAmong w now (vs.take (2000 - (c + 1)))).map (stuckAlertOf w1 now) =
            (stuckAmong w now (vs.take (2000 - (c + 1)))).map (stuckAlertOf w now) := by
          apply List.map_congr_left
          intro p hp
          exact s1.alert now (hv' p (List.mem_filter.mp hp).1)
        rw [this, ← List.map_append]
        congr 1
        unfold stuckAmong
        rw [← List.filter_append]; rfl

end Active

/-- **C54**, in any state reached by proper calls with positive profile limits: the figures returned are the numbers of
services looked at (the first 2000 on the list) whose running time is in each band; alerts are raised exactly about
those over the stuck limit; and, if removal is switched on, exactly those are ended. -/
theorem C54_active_count (env : Oracle) (conf : TraceConf) (cap : Nat) (cs : List Call) (hk : 1 ≤ conf.keep) (hb : 1 ≤ conf.bulk)
    (hwf : AllWellFormed (start env conf cap) cs) (o : MapOrder (BitVec 64 × Nat)) :
    let w := history (start env conf cap) cs
    let now := env.clock w.tick
    let seen := (w.registry.getValues o).take 2000
    ∃ w', getActiveCount o w = (.ok (byColour w now seen), w') ∧ perform w (.activeCount o) = w' ∧
      alertsOf w'.proxy.direct = alertsOf w.proxy.direct ++ (stuckAmong w now seen).map (stuckAlertOf w now) ∧
      w'.tctxs.length = w.tctxs.length ∧
      (∀ p, p < w.tctxs.length →
        (endedAt w' p = true ↔ endedAt w p = true ∨ (w.conf.stuckRemove = true ∧ p ∈ stuckAmong w now seen))) := by
  intro w now seen
  have g : Good w := (Good.start env conf cap hk hb).history cs hwf
  have hmem : ∀ p ∈ w.registry.getValues o, p < w.tctxs.length := by
    intro p hp
    simp only [Cache.getValues, List.mem_filterMap] at hp
    obtain ⟨x, -, hx⟩ := hp
    cases hd : w.registry.deref x.2 with
    | none => rw [hd] at hx; simp at hx
    | some e =>
      rw [hd] at hx
      exact g.regs e (List.mem_of_find?_eq_some hd) p hx
  have g1 : Good { w with tick := w.tick + 1 } := ⟨g.keep, g.bulk, g.each, g.calm, g.regs⟩
  obtain ⟨w', h1, h2, h3, h4⟩ := Active.loop_run now (w.registry.getValues o) { w with tick := w.tick + 1 } 0 (0, 0, 0) g1 hmem (by omega)
  have henv : w.env = env := history_env _ cs
  have hrun : getActiveCount o w = (.ok (byColour w now seen), w') := by
    unfold getActiveCount
    rw [TM.get_bind, TM.reading_bind]
    show activeLoop (w.env.clock w.tick) _ 0 (0, 0, 0) _ = _
    have hnow : w.env.clock w.tick = now := by rw [henv]
    rw [hnow, h1]
    simp only [Active.plus, Nat.zero_add]
    rfl
  refine ⟨w', hrun, ?_, h4, h3, ?_⟩
  · show ((getActiveCount o >>= fun _ => pure ()) w).2 = w'
    rw [TM.bind_ok hrun]; rfl
  · intro p hp
    have hp' := h2 p hp
    change endedAt w' p = (endedAt w p || (w.conf.stuckRemove && decide (p ∈ stuckAmong w now seen))) at hp'
    rw [hp']
    simp

theorem byColour_sum (w : World) (now : Int) (vs : List Nat) :
    (byColour w now vs).1 + (byColour w now vs).2.1 + (byColour w now vs).2.2 = vs.length := by
  induction vs with
  | nil => rfl
  | cons q vs ih =>
    rw [Active.byColour_cons]
    have h1 : (byColour w now [q]).1 + (byColour w now [q]).2.1 + (byColour w now [q]).2.2 = 1 := by
      unfold byColour
      by_cases h1 : runningMs w now q ≤ w.conf.yellow
      · have h1' : ¬ w.conf.yellow < runningMs w now q := by omega
        simp [h1, h1']
      · have h1' : w.conf.yellow < runningMs w now q := by omega
        by_cases h2 : runningMs w now q ≤ w.conf.red
        · have h2' : ¬ w.conf.red < runningMs w now q := by omega
          simp [h1, h1', h2, h2']
        · have h2' : w.conf.red < runningMs w now q := by omega
          simp [h1, h1', h2, h2']
    simp only [Active.plus, List.length_cons]
    omega

/-- **C54**, the sum: with distinct ids and at most 10000 services running at any time, the three figures add up to the
number of services running, at most 2000. -/
theorem C54_figures_add_up (env : Oracle) (conf : TraceConf) (cap : Nat) (cs : List Call) (hk : 1 ≤ conf.keep) (hb : 1 ≤ conf.bulk)
    (hwf : AllWellFormed (start env conf cap) cs) (hid : DistinctIds env (history (start env conf cap) cs).tick)
    (hmax : ∀ k, (running (history (start env conf cap) (cs.take k))).length ≤ 10000) (o : MapOrder (BitVec 64 × Nat)) :
    ∃ a w', getActiveCount o (history (start env conf cap) cs) = (.ok a, w') ∧
      a.1 + a.2.1 + a.2.2 = min 2000 (running (history (start env conf cap) cs)).length := by
  obtain ⟨w', h1, -⟩ := C54_active_count env conf cap cs hk hb hwf o
  refine ⟨_, w', h1, ?_⟩
  rw [byColour_sum, List.length_take, (C42_active_list_is_exact env conf cap cs hid hmax o).length_eq]

/-- **C54**, small numbers of services: when at most 2000 services run, the services looked at are exactly those running. -/
theorem C54_all_services_seen (env : Oracle) (conf : TraceConf) (cap : Nat) (cs : List Call)
    (hid : DistinctIds env (history (start env conf cap) cs).tick)
    (hmax : ∀ k, (running (history (start env conf cap) (cs.take k))).length ≤ 10000)
    (hnow : (running (history (start env conf cap) cs)).length ≤ 2000) (o : MapOrder (BitVec 64 × Nat)) :
    (((history (start env conf cap) cs).registry.getValues o).take 2000).Perm (running (history (start env conf cap) cs)) := by
  have h := C42_active_list_is_exact env conf cap cs hid hmax o
  rw [List.take_of_length_le (by rw [h.length_eq]; exact hnow)]
  exact h

/-! A case: four services, of which one has ended; the rest fall into the three bands, and the oldest is stuck. -/
namespace Demo

def busyConf : TraceConf := { conf with yellow := 6, red := 9, stuckBase := 10 }

def busyCalls : List Call :=
  [.startService .plain (ascii "a") [], .startService .plain (ascii "b") [], .startService .plain (ascii "c") [],
   .startService .plain (ascii "d") [], .endService (.traced 1)]

def busy : World := history (start env busyConf 100) busyCalls

/-- The order of the keys as they are. -/
def inOrder {A : Type} : MapOrder A := ⟨id, fun _ => .refl _⟩

example : running busy = [0, 2, 3] ∧ stuckAmong busy (env.clock busy.tick) [0, 2, 3] = [0] := by decide +kernel
example : (match getActiveCount inOrder busy with
    | (.ok a, w) => decide (a = (1, 1, 1) ∧ running w = [2, 3] ∧ (alertsOf w.proxy.direct).map AlertPack.message =
        [ascii "service: a, elapsed: 14, goId: 7, tctxGoId: %!d(MISSING)"])
    | _ => false) = true := by decide +kernel
example : AllWellFormed (start env busyConf 100) busyCalls := ⟨trivial, trivial, trivial, trivial, trivial, trivial⟩
example : DistinctIds env busy.tick := ids_distinct _ (by decide +kernel)
example : 1 ≤ busyConf.keep ∧ 1 ≤ busyConf.bulk ∧ ∀ k, (running (history (start env busyConf 100) (busyCalls.take k))).length ≤ 10000 := by
  refine ⟨by decide, by decide, fun k => ?_⟩
  by_cases h : k ≤ 5
  · interval_cases k <;> decide +kernel
  · rw [List.take_of_length_le (by simp [busyCalls]; omega)]; decide +kernel

end Demo

end Scouter
