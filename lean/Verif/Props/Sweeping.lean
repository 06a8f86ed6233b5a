import Verif.Spec.Sweeping
import Verif.Props.Stuck
import Verif.Props.Late
import Verif.Props.Lineage
/-!
# C120: the active services are counted while the application goes on
-/
namespace Scouter
open TM Trace Spec
namespace Sweeping

theorem perform_len_mono (w : World) (c : Call) : w.tctxs.length ≤ (perform w c).tctxs.length := by
  by_contra hlt
  rw [Nat.not_le] at hlt
  obtain ⟨t', h, -⟩ := same_call (p := (perform w c).tctxs.length) unit_deaf c (fun _ _ _ => rfl) (fun _ _ _ => rfl) w _ (List.getElem?_eq_getElem hlt)
  have := (List.getElem?_eq_some_iff.mp h).1
  exact absurd this (Nat.lt_irrefl _)

/-- What holds at every moment. -/
structure Sound (s : State) : Prop where
  good : Good s.world
  todo : ∀ p ∈ s.todo, p < s.world.tctxs.length

/-- What ending a stuck service does, whether it has ended meanwhile or not. -/
theorem stuck_run {w : World} (g : Good w) {p : Nat} {t : Tctx} (h : w.tctxs[p]? = some t) :
    ∃ w', endStuck p w = (.ok (), w') ∧ Good w' ∧ Active.Looked p w w' ∧ (∀ q, q ≠ p → w'.tctxs[q]? = w.tctxs[q]?) ∧ w.tick ≤ w'.tick ∧
      (if w.conf.stuckRemove = true ∧ t.closed = false then
        ∃ x, ToldStuck w w' p x ∧ xlogsOf w'.proxy.direct = xlogsOf w.proxy.direct ++ [x] ∧ w'.metered = w.metered ++ [(x.elapsed.toInt, true)]
      else xlogsOf w'.proxy.direct = xlogsOf w.proxy.direct ∧ w'.metered = w.metered) := by
  have hp := (List.getElem?_eq_some_iff.mp h).1
  obtain ⟨w1, h1, g1, l1, -⟩ := Active.endStuck_run g hp
  have tick : w.tick ≤ w1.tick := by
    have := (ends_endStuck p w).tick
    rw [h1] at this
    exact this
  refine ⟨w1, h1, g1, l1, ?_⟩
  cases hr : w.conf.stuckRemove with
  | false =>
    have : endStuck p w = (.ok (), w) := by
      rw [Active.endStuck_eq]
      unfold recovered
      simp [hr]
    rw [h1] at this
    have := congrArg Prod.snd this
    simp only at this
    subst this
    exact ⟨fun _ _ => rfl, tick, by simp⟩
  | true =>
    cases hc : t.closed with
    | false =>
      obtain ⟨w2, x, h2, e⟩ := Active.endStuck_ended g h hc hr
      rw [h1] at h2
      have := congrArg Prod.snd h2
      simp only at this
      subst this
      refine ⟨e.others, tick, ?_⟩
      rw [if_pos ⟨rfl, rfl⟩]
      exact ⟨x, e.told, e.logs, e.metered⟩
    | true =>
      obtain ⟨wa, ta, ha, ga, n⟩ := Active.prelude_run g h
      have hta : wa.tctxs[p]? = some ta := by rw [n.tctxs]; exact getElem?_set_self' h
      have hca : ta.closed = true := by have := congrArg Tctx.closed n.fields; exact this.trans hc
      have : endStuck p w = (.ok (), wa) := by
        rw [Active.endStuck_eq]
        unfold recovered
        rw [TM.get_bind, hr]
        simp only [if_true]
        rw [TM.bind_ok ha]
        unfold endTctx
        rw [TM.bind_ok (getT_run hta), hca]
        rfl
      rw [h1] at this
      have := congrArg Prod.snd this
      simp only at this
      subst this
      refine ⟨fun q hq => ?_, tick, ?_⟩
      · rw [n.tctxs, List.getElem?_set_ne (Ne.symm hq)]
      · rw [if_neg (by simp)]
        exact ⟨n.logs, n.metered⟩

/-- What a look does. -/
theorem look_run {w : World} (g : Good w) {p : Nat} {t : Tctx} (h : w.tctxs[p]? = some t) (now : Int) (a : Nat × Nat × Nat) :
    ∃ w' a', look now p a w = (.ok a', w') ∧ Good w' ∧ w'.tctxs.length = w.tctxs.length ∧ w.tick ≤ w'.tick ∧
      a' = Active.plus a (byColour w now [p]) ∧
      alertsOf w'.proxy.direct = alertsOf w.proxy.direct ++ (if isStuck w now t then [stuckAlertOf w now p] else []) ∧
      (∀ q, q ≠ p → w'.tctxs[q]? = w.tctxs[q]?) ∧
      (if isStuck w now t ∧ w.conf.stuckRemove = true ∧ t.closed = false then
        ∃ x, ToldStuck w w' p x ∧ xlogsOf w'.proxy.direct = xlogsOf w.proxy.direct ++ [x] ∧ w'.metered = w.metered ++ [(x.elapsed.toInt, true)]
      else xlogsOf w'.proxy.direct = xlogsOf w.proxy.direct ∧ w'.metered = w.metered) := by
  have hel : runningMs w now p = activeElapsed now t.startTime := by unfold runningMs startedAt; rw [h]; rfl
  have hcol : (if activeElapsed now t.startTime ≤ w.conf.yellow then (a.1 + 1, a.2.1, a.2.2)
      else if activeElapsed now t.startTime ≤ w.conf.red then (a.1, a.2.1 + 1, a.2.2) else (a.1, a.2.1, a.2.2 + 1)) = Active.plus a (byColour w now [p]) := by
    unfold Active.plus byColour
    simp only [List.countP_cons, List.countP_nil, Nat.zero_add, hel]
    by_cases h1 : activeElapsed now t.startTime ≤ w.conf.yellow
    · have : ¬ w.conf.yellow < activeElapsed now t.startTime := by omega
      simp [h1, this]
    · have h1' : w.conf.yellow < activeElapsed now t.startTime := by omega
      by_cases h2 : activeElapsed now t.startTime ≤ w.conf.red
      · have : ¬ w.conf.red < activeElapsed now t.startTime := by omega
        simp [h1, h1', h2, this]
      · have h2' : w.conf.red < activeElapsed now t.startTime := by omega
        simp [h1', h2', h1, h2]
  let w0 := w
  have hrun : look now p a w = (if activeElapsed now t.startTime > w.conf.stuckBase then do
        endStuck p
        let t' ← getT p
        let w ← get
        sendAlert (if w.conf.stuckAlert then 2 else 1) (ascii "STUCK_SERVICE") (stuckMessage t' (activeElapsed now t.startTime))
        return Active.plus a (byColour w0 now [p])
      else return Active.plus a (byColour w0 now [p]) : TM (Nat × Nat × Nat)) w := by
    unfold look
    rw [TM.bind_ok (getT_run h), TM.get_bind]
    simp only [hcol, w0]
  by_cases hs : w.conf.stuckBase < activeElapsed now t.startTime
  · have hs' : isStuck w now t := hs
    obtain ⟨w1, h1, g1, l1, o1, k1, e1⟩ := stuck_run g h
    have hq1 : p < w1.tctxs.length := by rw [l1.len]; exact (List.getElem?_eq_some_iff.mp h).1
    have hl : stuckAlertOf w1 now p = stuckAlertOf w now p := l1.steady.alert now (List.getElem?_eq_some_iff.mp h).1
    have hms : runningMs w1 now p = activeElapsed now t.startTime := by
      rw [l1.steady.ms now (List.getElem?_eq_some_iff.mp h).1]; exact hel
    have e2 : sendAlert (if w1.conf.stuckAlert then 2 else 1) (ascii "STUCK_SERVICE")
        (stuckMessage w1.tctxs[p] (activeElapsed now t.startTime)) w1 = (.ok (), Active.alerted w1 (stuckAlertOf w now p)) := by
      unfold sendAlert
      rw [if_neg (by decide +kernel), TM.get_bind, ← hl]
      unfold sendDirect
      simp only [stuckAlertOf, stuckMessage, nameOf, goidOf, List.getElem?_eq_getElem hq1, Option.map_some, Option.getD_some, hms]
      rfl
    have g2 : Good (Active.alerted w1 (stuckAlertOf w now p)) := by
      obtain ⟨_, w2, h2, g2, -⟩ := safe_sendAlert (n := 0) (k := 0) (if w1.conf.stuckAlert then 2 else 1) (ascii "STUCK_SERVICE")
        (stuckMessage w1.tctxs[p] (activeElapsed now t.startTime)) (by decide +kernel) w1 g1 (Nat.zero_le _) (Nat.zero_le _)
      rw [e2] at h2
      have := congrArg Prod.snd h2
      simp only at this
      rw [this]; exact g2
    have hlog : xlogsOf (Active.alerted w1 (stuckAlertOf w now p)).proxy.direct = xlogsOf w1.proxy.direct := by
      show xlogsOf (_ ++ [_]) = _
      rw [xlogsOf_append]; simp [xlogsOf]
    refine ⟨Active.alerted w1 (stuckAlertOf w now p), _, ?_, g2, l1.len, k1, rfl, ?_, o1, ?_⟩
    · rw [hrun, if_pos hs]
      rw [TM.bind_ok h1, TM.bind_ok (getT_run (List.getElem?_eq_getElem hq1)), TM.get_bind, TM.bind_ok e2]
      rfl
    · rw [if_pos hs']
      show alertsOf (w1.proxy.direct ++ [_]) = _
      rw [alertsOf_append, l1.alerts]
      simp [alertsOf]
    · by_cases hc : w.conf.stuckRemove = true ∧ t.closed = false
      · rw [if_pos hc] at e1
        rw [if_pos ⟨hs', hc⟩, hlog]
        obtain ⟨x, ⟨tt⟩, b, c⟩ := e1
        exact ⟨x, ⟨tt⟩, b, c⟩
      · rw [if_neg hc] at e1
        rw [if_neg (fun k => hc k.2), hlog]
        exact e1
  · have hs' : ¬ isStuck w now t := hs
    refine ⟨w, _, ?_, g, rfl, Nat.le_refl _, rfl, ?_, fun _ _ => rfl, ?_⟩
    · rw [hrun, if_neg hs]; rfl
    · simp [hs']
    · rw [if_neg (fun k => hs' k.1)]; exact ⟨rfl, rfl⟩

theorem Sound.step {s : State} (h : Sound s) (e : Event) (hf : match e with | .call c => WellFormed s.world c | _ => True) : Sound (s.step e) := by
  cases e with
  | call c => exact ⟨h.good.call c hf, fun p hp => Nat.lt_of_lt_of_le (h.todo p hp) (perform_len_mono _ _)⟩
  | begin => exact ⟨h.good, by simp [State.step]⟩
  | take p =>
    simp only [State.step]
    split
    · rename_i hc
      refine ⟨h.good, fun q hq => ?_⟩
      rcases List.mem_append.mp hq with hq | hq
      · exact h.todo q hq
      · rw [List.mem_singleton] at hq
        subst hq
        obtain ⟨e, he, hv⟩ := List.any_eq_true.mp hc.2
        exact h.good.regs e he q (by simpa using hv)
    · exact h
  | next =>
    simp only [State.step]
    split
    · exact ⟨h.good.tick _, h.todo⟩
    · exact h
    · rename_i n p ps hn ht
      have hp := h.todo p (by rw [ht]; simp)
      obtain ⟨w', a', h1, h2, h3, -⟩ := look_run h.good (List.getElem?_eq_getElem hp) n s.active
      rw [h1]
      split
      · exact ⟨h.good, by simp⟩
      · exact ⟨h2, fun q hq => by show q < w'.tctxs.length; rw [h3]; exact h.todo q (by rw [ht]; simp [hq])⟩

theorem Sound.run {s : State} (h : Sound s) : ∀ (es : List Event), AllFine s es → Sound (s.run es) := by
  intro es
  induction es generalizing s with
  | nil => intro _; exact h
  | cons e es ih => intro hf; exact ih (h.step e hf.1) hf.2

theorem Sound.fresh (env : Oracle) (conf : TraceConf) (cap : Nat) (hk : 1 ≤ conf.keep) (hb : 1 ≤ conf.bulk) : Sound (fresh env conf cap) :=
  ⟨Good.start env conf cap hk hb, by simp [Sweeping.fresh]⟩

theorem ends_look (now : Int) (p : Nat) (a : Nat × Nat × Nat) : Ev Ends (look now p a) := by
  unfold look
  refine ends_bind (ends_of_quiet (quiet_getT _)) fun t => ends_bind (ends_of_quiet quiet_get) fun w => ?_
  exact Ev.ite (ends_bind (ends_endStuck p) fun _ => ends_bind (ends_of_quiet (quiet_getT _)) fun _ =>
      ends_bind (ends_of_quiet quiet_get) fun _ => ends_bind (ends_of_quiet (quiet_sendAlert _ _ _)) fun _ => ends_of_quiet (quiet_pure _))
    (ends_of_quiet (quiet_pure _))

theorem step_take (s : State) (p : Nat) : (s.step (.take p)).world = s.world := by
  simp only [State.step]
  split <;> rfl

theorem step_move (s : State) (e : Event) (he : ∀ c, e ≠ .call c) : Ends s.world (s.step e).world := by
  cases e with
  | call c => exact absurd rfl (he c)
  | begin => exact Ends.isPre.refl _
  | take p => rw [step_take]; exact Ends.isPre.refl _
  | next =>
    simp only [State.step]
    split
    · exact ends_of_quiet (m := reading (·.clock)) (quiet_reading _) s.world
    · exact Ends.isPre.refl _
    · rename_i n p ps hn ht
      have := ends_look n p s.active s.world
      split
      · exact Ends.isPre.refl _
      · split
        · rename_i a w' heq; rw [heq] at this; exact this
        · rename_i w' heq; rw [heq] at this; exact this

theorem step_env (s : State) (e : Event) : (s.step e).world.env = s.world.env := by
  cases e with
  | call c => exact exec_env _ _
  | begin => rfl
  | take p => rw [step_take]
  | next => exact (step_move s .next (by simp)).env

theorem step_tick (s : State) (e : Event) : s.world.tick ≤ (s.step e).world.tick := by
  cases e with
  | call c => exact perform_tick _ _
  | begin => exact Nat.le_refl _
  | take p => rw [step_take]
  | next => exact (step_move s .next (by simp)).tick

theorem run_env (es : List Event) : ∀ s : State, (s.run es).world.env = s.world.env := by
  induction es with
  | nil => intro s; rfl
  | cons e es ih => intro s; exact (ih _).trans (step_env s e)

theorem run_tick (es : List Event) : ∀ s : State, s.world.tick ≤ (s.run es).world.tick := by
  induction es with
  | nil => intro s; exact Nat.le_refl _
  | cons e es ih => intro s; exact Nat.le_trans (step_tick s e) (ih _)

theorem ledger_step {s : State} (h : Ledger s.world) (e : Event) (hid : DistinctIds s.world.env (s.step e).world.tick) : Ledger (s.step e).world := by
  cases e with
  | call c => exact h.exec c hid
  | begin => exact h
  | take p => rw [step_take]; exact h
  | next => exact h.ends (step_move s .next (by simp))

theorem ledger_run (es : List Event) : ∀ s : State, Ledger s.world → DistinctIds s.world.env (s.run es).world.tick → Ledger (s.run es).world := by
  induction es with
  | nil => intro s h _; exact h
  | cons e es ih =>
    intro s h hid
    exact ih (s.step e) (ledger_step h e (hid.mono (run_tick es _))) (by rw [step_env]; exact hid)

theorem counted_run (es : List Event) : ∀ s : State, Sound s → Counted s.world → AllFine s es → Counted (s.run es).world := by
  induction es with
  | nil => intro s _ h _; exact h
  | cons e es ih =>
    intro s g h hf
    refine ih (s.step e) (g.step e hf.1) ?_ hf.2
    have hb : s.world.conf.bulk ≠ 0 := by have := g.good.bulk; omega
    cases e with
    | call c =>
      by_cases hc : ∃ x, c = .conf x
      · obtain ⟨x, rfl⟩ := hc; exact h
      · exact h.move hb (move_of_code c (fun x e => hc ⟨x, e⟩) _)
    | begin => exact h
    | take p => rw [step_take]; exact h
    | next => exact h.move hb (.ends (step_move s .next (by simp)))

theorem step_look {s : State} {now : Int} {p : Nat} {ps : List Nat} {a : Nat × Nat × Nat} {w : World} (hn : s.now = some now) (ht : s.todo = p :: ps)
    (hc : s.count < 2000) (h : look now p s.active s.world = (.ok a, w)) :
    s.step .next = { s with world := w, todo := ps, count := s.count + 1, active := a } := by
  simp only [State.step, hn, ht, h]
  rw [if_neg (by omega)]

theorem step_clock {s : State} (hn : s.now = none) :
    s.step .next = { s with now := some (s.world.env.clock s.world.tick), world := { s.world with tick := s.world.tick + 1 } } := by
  simp only [State.step, hn]

theorem step_idle {s : State} {now : Int} (hn : s.now = some now) (ht : s.todo = []) : s.step .next = s := by
  simp only [State.step, hn, ht]

theorem loop_cons (now : Int) (p : Nat) (ps : List Nat) (c : Nat) (a : Nat × Nat × Nat) (w : World) (hc : c + 1 ≤ 2000) :
    activeLoop now (p :: ps) c a w = (look now p a >>= fun a => activeLoop now ps (c + 1) a) w := by
  rw [activeLoop, if_neg (by omega)]
  unfold look
  simp only [TM.bind_def]
  cases h1 : getT p w with
  | mk o w1 =>
    cases o with
    | panic => rfl
    | ok t =>
      simp only [TM.get]
      split
      · simp only [TM.bind_def]
        cases h2 : endStuck p w1 with
        | mk o w2 =>
          cases o with
          | panic => rfl
          | ok _ =>
            simp only
            cases h3 : getT p w2 with
            | mk o w3 =>
              cases o with
              | panic => rfl
              | ok t' =>
                simp only [TM.get]
                split
                · rename_i heq; simp
                · rename_i heq; simp
      · rfl

theorem lt_look (now : Int) (p : Nat) (a : Nat × Nat × Nat) : Late.Goes (look now p a) := by
  intro w h
  have := Late.lt_activeLoop now [p] 0 a w h
  rw [loop_cons now p [] 0 a w (by omega)] at this
  rw [TM.bind_def] at this
  cases h1 : look now p a w with
  | mk o w1 =>
    rw [h1] at this
    cases o with
    | panic => exact this
    | ok a' => exact this

theorem lates_run (es : List Event) : ∀ s : State, Sound s → AllFine s es → Late.Lates s.world (s.run es).world := by
  induction es with
  | nil => intro s _ _; exact .refl _
  | cons e es ih =>
    intro s g hf
    refine Late.Lates.trans ?_ (ih (s.step e) (g.step e hf.1) hf.2)
    have hr : Late.Roomy s.world := ⟨g.good.keep, g.good.bulk, fun t ht => (g.good.each t ht).room⟩
    cases e with
    | call c => exact (Late.lt_code c (fun f e => by subst e; exact hf.1) s.world hr).2
    | begin => exact .refl _
    | take p => rw [step_take]; exact .refl _
    | next =>
      simp only [State.step]
      split
      · exact .of_eq rfl
      · exact .refl _
      · rename_i n p ps hn ht
        have := (lt_look n p s.active s.world hr).2
        split
        · exact .refl _
        · split
          · rename_i a w' heq; rw [heq] at this; exact this
          · rename_i w' heq; rw [heq] at this; exact this

theorem step_full {s : State} {now : Int} {p : Nat} {ps : List Nat} (hn : s.now = some now) (ht : s.todo = p :: ps)
    (hc : 2000 ≤ s.count) : s.step .next = { s with todo := [] } := by
  simp only [State.step, hn, ht]
  rw [if_pos (by omega)]

theorem run_nexts (k : Nat) : ∀ (s : State) (now : Int), Sound s → s.now = some now → s.todo.length ≤ k →
    (s.run (List.replicate k .next)).todo = [] ∧
    activeLoop now s.todo s.count s.active s.world = (.ok (s.run (List.replicate k .next)).active, (s.run (List.replicate k .next)).world) := by
  induction k with
  | zero =>
    intro s now g hn hk
    have : s.todo = [] := List.eq_nil_of_length_eq_zero (by omega)
    refine ⟨this, ?_⟩
    rw [this]; rfl
  | succ k ih =>
    intro s now g hn hk
    rw [List.replicate_succ]
    show ((s.step .next).run _).todo = [] ∧ _ = (Outcome.ok ((s.step .next).run _).active, ((s.step .next).run _).world)
    cases ht : s.todo with
    | nil =>
      rw [step_idle hn ht]
      have := ih s now g hn (by rw [ht]; simp)
      rw [ht] at this
      exact this
    | cons p ps =>
      rw [ht, List.length_cons] at hk
      by_cases hc : s.count < 2000
      · obtain ⟨w1, a1, h1, -⟩ := look_run g.good (List.getElem?_eq_getElem (g.todo p (by rw [ht]; simp))) now s.active
        have g' := g.step .next trivial
        rw [step_look hn ht hc h1] at g' ⊢
        have := ih _ now g' hn (by show ps.length ≤ k; omega)
        refine ⟨this.1, ?_⟩
        rw [loop_cons now p ps s.count _ _ (by omega), TM.bind_ok h1]
        exact this.2
      · have g' := g.step .next trivial
        rw [step_full hn ht (by omega)] at g' ⊢
        have := ih _ now g' hn (by simp)
        refine ⟨this.1, ?_⟩
        rw [activeLoop, if_pos (by omega)]
        exact this.2

theorem run_takes (vs : List Nat) : ∀ s : State, s.now = none → (∀ p ∈ vs, ∃ e ∈ s.world.registry.lst, e.value = some p) →
    s.run (vs.map .take) = { s with todo := s.todo ++ vs } := by
  induction vs with
  | nil => intro s _ _; simp [State.run]
  | cons p vs ih =>
    intro s hn hv
    have e : s.step (.take p) = { s with todo := s.todo ++ [p] } := by
      simp only [State.step]
      obtain ⟨e, he, h⟩ := hv p (by simp)
      rw [if_pos ⟨hn, List.any_eq_true.mpr ⟨e, he, by simp [h]⟩⟩]
    show (s.step (.take p)).run _ = _
    rw [e, ih { s with todo := s.todo ++ [p] } hn fun q hq => hv q (by simp [hq])]
    simp

/-- **C120**: without calls in between the count is the one `GetActiveCount` makes at once: the properties of that (`C54`, `C119`) are about this code. -/
theorem C120_without_calls_as_at_once (env : Oracle) (conf : TraceConf) (cap : Nat) (es : List Event) (hk : 1 ≤ conf.keep) (hb : 1 ≤ conf.bulk)
    (hf : AllFine (fresh env conf cap) es) (o : MapOrder (BitVec 64 × Nat)) (k : Nat)
    (hlen : (((fresh env conf cap).run es).world.registry.getValues o).length < k) :
    let s := (fresh env conf cap).run es
    let s' := s.run (.begin :: (s.world.registry.getValues o).map .take ++ List.replicate k .next)
    getActiveCount o s.world = (.ok s'.active, s'.world) ∧ s'.todo = [] := by
  intro s s'
  have g : Sound s := (Sound.fresh env conf cap hk hb).run es hf
  obtain ⟨k, rfl⟩ : ∃ j, k = j + 1 := ⟨k - 1, by omega⟩
  have hmem : ∀ p ∈ s.world.registry.getValues o, ∃ e ∈ s.world.registry.lst, e.value = some p := fun p hp => getValues_mem hp
  let s1 : State := { s with todo := s.world.registry.getValues o, now := none, count := 0, active := (0, 0, 0) }
  have e1 : (s.step .begin).run ((s.world.registry.getValues o).map .take) = s1 := by
    rw [run_takes _ (s.step .begin) rfl hmem]
    simp [State.step, s1]
  have g1 : Sound s1 := ⟨g.good, fun p hp => by
    obtain ⟨e, he, hv⟩ := hmem p hp
    exact g.good.regs e he p hv⟩
  have e2 : s1.step .next = { s1 with now := some (s.world.env.clock s.world.tick), world := { s.world with tick := s.world.tick + 1 } } := step_clock rfl
  have es' : s' = (s1.step .next).run (List.replicate k .next) := by
    rw [← e1]
    show State.run _ _ = _
    simp only [State.run, List.cons_append, List.foldl_cons, List.foldl_append, List.replicate_succ]
  have hkk : (s.world.registry.getValues o).length < k + 1 := hlen
  have key := run_nexts k (s1.step .next) (s.world.env.clock s.world.tick) (g1.step .next trivial) (by rw [e2])
    (by rw [e2]; show (s.world.registry.getValues o).length ≤ k; omega)
  rw [es']
  refine ⟨?_, key.1⟩
  rw [← key.2, e2]
  unfold getActiveCount
  rw [TM.get_bind, TM.reading_bind]

section
variable (env : Oracle) (conf : TraceConf) (cap : Nat) (es : List Event) (hk : 1 ≤ conf.keep) (hb : 1 ≤ conf.bulk)

/-- **C120**: whatever the application does while services are counted, and however often they are: no two logs carry the same transaction id, and each is of a service
that has ended. -/
theorem C120_at_most_one_log (hid : DistinctIds env ((fresh env conf cap).run es).world.tick) :
    let w := ((fresh env conf cap).run es).world
    (loggedIds w).Nodup ∧ ∀ id ∈ loggedIds w, id ∈ endedIds w := by
  have h := ledger_run es (fresh env conf cap) (Ledger.start env conf cap) hid
  exact ⟨h.once, fun id hi => List.mem_map.mpr ⟨(id, true), List.mem_filter.mpr ⟨h.ended id hi, rfl⟩, rfl⟩⟩

/-- **C120**: what a count takes from the table of running services to look at is a service running at that moment. -/
theorem C120_running_are_taken (hid : DistinctIds env ((fresh env conf cap).run es).world.tick) (p : Nat) :
    let s := (fresh env conf cap).run es
    (s.step (.take p)).todo ≠ s.todo → p ∈ running s.world ∧ (s.step (.take p)).todo = s.todo ++ [p] := by
  intro s hne
  have h := ledger_run es (fresh env conf cap) (Ledger.start env conf cap) hid
  have hs : (s.world.registry.abs.filterMap (·.2)).Sublist (running s.world) := by
    rw [← openAt_running]
    exact h.active.filterMap _
  simp only [State.step] at hne ⊢
  split at hne
  · rename_i hc
    rw [if_pos hc]
    refine ⟨hs.subset ?_, rfl⟩
    obtain ⟨e, he, hv⟩ := List.any_eq_true.mp hc.2
    have hv : e.value = some p := by simpa using hv
    rw [List.mem_filterMap]
    refine ⟨(e.key, e.value), ?_, hv⟩
    unfold Cache.abs
    exact List.mem_map.mpr ⟨e, by simpa using he, rfl⟩
  · exact absurd rfl hne

include hk hb

/-- **C120**: and the service counters have been given exactly as many services as have ended. -/
theorem C120_counted_exactly_once (hf : AllFine (fresh env conf cap) es) :
    let w := ((fresh env conf cap).run es).world
    w.metered.length = (endedIds w).length := by
  have h := counted_run es (fresh env conf cap) (Sound.fresh env conf cap hk hb) rfl hf
  simp only
  rw [h, endedIds, List.length_map, List.countP_eq_length_filter]

/-- **C120**: a look at a service (one of the first 2000), with any calls made since the count began.  The service is counted in its band.  If it runs for longer than the stuck limit one alert is sent;
and if moreover removal is switched on and the service has not ended meanwhile it is ended, and told of by exactly one log (`ToldStuck`) and counted once, as failed.
Otherwise nothing is logged or counted: a service that has ended meanwhile is not logged again.  No other service is touched. -/
theorem C120_each_look (hf : AllFine (fresh env conf cap) es) (now : Int) (p : Nat) (ps : List Nat)
    (hnow : ((fresh env conf cap).run es).now = some now) (hcount : ((fresh env conf cap).run es).count < 2000) (htodo : ((fresh env conf cap).run es).todo = p :: ps) :
    let s := (fresh env conf cap).run es
    let s' := s.step .next
    let w := s.world
    let w' := s'.world
    ∃ t, w.tctxs[p]? = some t ∧ s'.todo = ps ∧ s'.active = Active.plus s.active (byColour w now [p]) ∧
      alertsOf w'.proxy.direct = alertsOf w.proxy.direct ++ (if isStuck w now t then [stuckAlertOf w now p] else []) ∧
      (∀ q, q ≠ p → w'.tctxs[q]? = w.tctxs[q]?) ∧
      (if isStuck w now t ∧ w.conf.stuckRemove = true ∧ t.closed = false then
        ∃ x, ToldStuck w w' p x ∧ xlogsOf w'.proxy.direct = xlogsOf w.proxy.direct ++ [x] ∧ w'.metered = w.metered ++ [(x.elapsed.toInt, true)]
      else xlogsOf w'.proxy.direct = xlogsOf w.proxy.direct ∧ w'.metered = w.metered) := by
  intro s s' w w'
  have g := (Sound.fresh env conf cap hk hb).run es hf
  have hp := g.todo p (by rw [htodo]; simp)
  obtain ⟨w1, a1, h1, -, -, -, h2, h3, h4, h5⟩ := look_run g.good (List.getElem?_eq_getElem hp) now s.active
  have e : s' = { s with world := w1, todo := ps, count := s.count + 1, active := a1 } := by
    exact step_look hnow htodo hcount h1
  refine ⟨_, List.getElem?_eq_getElem hp, ?_, ?_, ?_, ?_, ?_⟩
  · rw [e]
  · rw [e]; exact h2
  · show alertsOf s'.world.proxy.direct = _; rw [e]; exact h3
  · show ∀ q, q ≠ p → s'.world.tctxs[q]? = _; rw [e]; exact h4
  · show if _ then (∃ x, ToldStuck w s'.world p x ∧ xlogsOf s'.world.proxy.direct = _ ∧ s'.world.metered = _) else
      (xlogsOf s'.world.proxy.direct = _ ∧ s'.world.metered = _)
    rw [e]; exact h5

/-- **C120**: a service that has ended, as stuck or otherwise, stays so whatever is called and counted, and its log is not sent again (`C120_at_most_one_log`). -/
theorem C120_ended_stays_ended (hf : AllFine (fresh env conf cap) es) (ds : List Event) (hfd : AllFine ((fresh env conf cap).run es) ds) (p : Nat) (t : Tctx)
    (h : ((fresh env conf cap).run es).world.tctxs[p]? = some t) (hc : t.closed = true) :
    ∃ t', (((fresh env conf cap).run es).run ds).world.tctxs[p]? = some t' ∧ t'.closed = true ∧ t'.txid = t.txid := by
  obtain ⟨t', _, _, h1, h2⟩ := lates_run ds _ ((Sound.fresh env conf cap hk hb).run es hf) hfd p t h hc
  exact ⟨t', h1, h2.closed, h2.txid⟩

/-- **C120**: from the clock reading on, while a count goes on, each service listed is either counted in exactly one of the three figures or still to be looked at;
when there is none left to look at, the figures add up to the number of services listed, or to 2000 if there are more. -/
theorem C120_each_listed_is_counted (hf : AllFine (fresh env conf cap) es) (ds : List Event) (hds : Event.begin ∉ ds)
    (hnone : ((fresh env conf cap).run es).now = none) (hfd : AllFine (((fresh env conf cap).run es).step .next) ds) :
    let s := (((fresh env conf cap).run es).step .next).run ds
    let figures := s.active.1 + s.active.2.1 + s.active.2.2
    min 2000 (figures + s.todo.length) = min 2000 ((fresh env conf cap).run es).todo.length ∧ figures ≤ 2000 := by
  have g := (Sound.fresh env conf cap hk hb).run es hf
  have h00 : ∀ s : State, (s.now = none → s.active = (0, 0, 0) ∧ s.count = 0) → ∀ es,
      ((s.run es).now = none → (s.run es).active = (0, 0, 0) ∧ (s.run es).count = 0) := by
    intro s h es
    induction es generalizing s with
    | nil => exact h
    | cons e es ih =>
      refine ih (s.step e) ?_
      cases e with
      | call c => exact h
      | begin => intro _; exact ⟨rfl, rfl⟩
      | take p => simp only [State.step]; split <;> exact h
      | next =>
        simp only [State.step]
        split
        · simp
        · exact h
        · rename_i n p ps hn ht
          split
          · exact h
          · split
            · intro hn'; rw [hn] at hn'; simp at hn'
            · exact h
  obtain ⟨ha, hc⟩ := h00 (fresh env conf cap) (fun _ => ⟨rfl, rfl⟩) es hnone
  have h0 : ∀ s : State, s = ((fresh env conf cap).run es).step .next →
      (min 2000 (s.count + s.todo.length) = min 2000 ((fresh env conf cap).run es).todo.length ∧
        s.active.1 + s.active.2.1 + s.active.2.2 = s.count ∧ s.count ≤ 2000) ∧ s.now ≠ none := by
    intro s hs
    rw [hs, step_clock hnone]
    simp [ha, hc]
  replace h0 := h0 _ rfl
  have g1 := g.step .next trivial
  revert hfd g1 h0
  generalize ((fresh env conf cap).run es).step .next = s
  generalize ((fresh env conf cap).run es).todo.length = n
  clear hf g ha hc h00 hnone
  induction ds generalizing s with
  | nil =>
    intro _ h _
    obtain ⟨⟨h1, h2, h3⟩, -⟩ := h
    refine ⟨?_, ?_⟩
    · show min 2000 (s.active.1 + s.active.2.1 + s.active.2.2 + s.todo.length) = _
      rw [h2]; exact h1
    · show s.active.1 + s.active.2.1 + s.active.2.2 ≤ 2000
      omega
  | cons e ds ih =>
    intro hfd h g
    refine ih (fun ho => hds (List.mem_cons_of_mem _ ho)) (s.step e) hfd.2 ?_ (g.step e hfd.1)
    cases e with
    | call c => exact h
    | begin => exact absurd (List.mem_cons_self ..) hds
    | take p =>
      simp only [State.step]
      split
      · rename_i hc; exact absurd hc.1 h.2
      · exact h
    | next =>
      obtain ⟨⟨h1, h2, h3⟩, h4⟩ := h
      cases hn : s.now with
      | none => exact absurd hn h4
      | some m =>
        cases ht : s.todo with
        | nil => rw [step_idle hn ht]; exact ⟨⟨h1, h2, h3⟩, h4⟩
        | cons p ps =>
          rw [ht, List.length_cons] at h1
          by_cases hc : s.count < 2000
          · obtain ⟨w1, a1, k1, -, -, -, k2, -⟩ := look_run g.good (List.getElem?_eq_getElem (g.todo p (by rw [ht]; simp))) m s.active
            rw [step_look hn ht hc k1]
            have := byColour_sum s.world m [p]
            simp only [List.length_singleton] at this
            refine ⟨⟨?_, ?_, ?_⟩, h4⟩
            · show min 2000 (s.count + 1 + ps.length) = _; rw [← h1]; congr 1; omega
            · show a1.1 + a1.2.1 + a1.2.2 = s.count + 1
              simp only [k2, Active.plus]; omega
            · show s.count + 1 ≤ 2000; omega
          · rw [step_full hn ht (by omega)]
            refine ⟨⟨?_, h2, h3⟩, h4⟩
            show min 2000 (s.count + 0) = _
            rw [← h1]; omega

end

end Sweeping

namespace Demo
open Sweeping

/-- Four services as in `busy`; a count begins and reads the clock; then the application ends the stuck one before it is looked at. -/
def meanwhileEvents : List Event :=
  busyCalls.map .call ++ [.begin, .take 0, .take 1, .take 2, .take 3, .next, .call (.endService (.traced 0))]

def meanwhile : State := (fresh env busyConf 100).run meanwhileEvents

example : AllFine (fresh env busyConf 100) meanwhileEvents := ⟨trivial, trivial, trivial, trivial, trivial, trivial, trivial, trivial, trivial, trivial, trivial, trivial, trivial⟩
example : meanwhile.todo = [0, 2, 3] ∧ meanwhile.now.isSome = true := by decide +kernel
/-- It is stuck and ended: an alert, no second log, and it is in the third figure. -/
example : (match meanwhile.world.tctxs[0]?, meanwhile.now with
    | some t, some n => decide (t.closed = true ∧ isStuck meanwhile.world n t)
    | _, _ => false) = true := by decide +kernel
example : (alertsOf (meanwhile.step .next).world.proxy.direct).length = 1 ∧ (alertsOf meanwhile.world.proxy.direct).length = 0 ∧
    (xlogsOf (meanwhile.step .next).world.proxy.direct).length = 2 ∧ (xlogsOf meanwhile.world.proxy.direct).length = 2 ∧
    (meanwhile.step .next).active = (0, 0, 1) := by decide +kernel
example : (meanwhile.run (List.replicate 5 .next)).active = (1, 1, 1) ∧ (meanwhile.run (List.replicate 5 .next)).todo = [] := by decide +kernel
example : DistinctIds env meanwhile.world.tick := ids_distinct _ (by decide +kernel)

/-- The application does something else meanwhile: the service is ended as stuck, with one log. -/
def meanwhileOther : State := (fresh env busyConf 100).run (busyCalls.map .call ++ [.begin, .take 0, .take 1, .take 2, .take 3, .next, .call (.endService (.traced 2))])

example : (xlogsOf (meanwhileOther.step .next).world.proxy.direct).length = (xlogsOf meanwhileOther.world.proxy.direct).length + 1 := by decide +kernel

end Demo

end Scouter
