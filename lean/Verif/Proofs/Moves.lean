import Verif.Proofs.End
/-!
# Calls as moves: starting a service, ending one, or neither
-/
namespace Scouter
open TM Trace

theorem shownOf_blind : Blind shownOf := ⟨fun _ _ => rfl, fun _ _ _ => rfl, fun _ _ _ _ => rfl⟩

abbrev Q := Quiet shownOf

theorem Quiet.map_cores {γ : Type} {core : Tctx → γ} {w w' : World} (h : Quiet core w w') :
    w'.tctxs.map core = w.tctxs.map core := by
  apply List.ext_getElem?
  intro p
  rw [List.getElem?_map, List.getElem?_map]
  exact h.cores p

theorem Quiet.services_eq {w w' : World} (h : Q w w') : services w' = services w := h.map_cores
theorem Quiet.logged_eq {γ : Type} {core : Tctx → γ} {w w' : World} (h : Quiet core w w') : loggedIds w' = loggedIds w := by
  unfold loggedIds; rw [h.xlogs]

/-- A service was started. -/
structure Started (w w' : World) : Prop where
  env : w'.env = w.env
  conf : w'.conf = w.conf
  direct : w.proxy.direct <+: w'.proxy.direct
  metered : w'.metered = w.metered
  logged : loggedIds w' = loggedIds w
  fresh : ∃ n, w.tick ≤ n ∧ n < w'.tick ∧ services w' = services w ++ [(w.env.id n, false)] ∧
    w'.registry = w.registry.add (w.env.id n) (some w.tctxs.length)

/-- A service was ended. -/
structure Ended (w w' : World) : Prop where
  env : w'.env = w.env
  conf : w'.conf = w.conf
  tick : w.tick ≤ w'.tick
  direct : w.proxy.direct <+: w'.proxy.direct
  one : ∃ (p : Nat) (id : BitVec 64) (l : List (BitVec 64)) (m : List (Int × Bool)),
    (services w)[p]? = some (id, false) ∧ services w' = (services w).set p (id, true) ∧
    w'.registry = w.registry.remove id ∧ loggedIds w' = loggedIds w ++ l ∧ w'.metered = w.metered ++ m ∧
    (∀ x ∈ l, x = id) ∧ l.length ≤ m.length ∧ m.length ≤ 1 ∧ (w.conf.bulk ≠ 0 → m.length = 1) ∧
    (w.conf.bulk ≠ 0 → NoSampling w.conf.sample → l.length = 1)

theorem Started.before {a b c : World} (h : Q a b) (h' : Started b c) : Started a c := by
  obtain ⟨n, h1, h2, h3, h4⟩ := h'.fresh
  exact ⟨h'.env.trans h.env, h'.conf.trans h.conf, h.direct.trans h'.direct, h'.metered.trans h.metered,
    h'.logged.trans h.logged_eq, n, Nat.le_trans h.tick h1, h2, by rw [h3, h.services_eq, h.env],
    by rw [h4, h.registry, h.env, h.len]⟩

theorem Started.after {a b c : World} (h : Started a b) (h' : Q b c) : Started a c := by
  obtain ⟨n, h1, h2, h3, h4⟩ := h.fresh
  exact ⟨h'.env.trans h.env, h'.conf.trans h.conf, h.direct.trans h'.direct, h'.metered.trans h.metered,
    h'.logged_eq.trans h.logged, n, h1, Nat.lt_of_lt_of_le h2 h'.tick, by rw [h'.services_eq, h3],
    by rw [h'.registry, h4]⟩

theorem Ended.before {a b c : World} (h : Q a b) (h' : Ended b c) : Ended a c := by
  obtain ⟨p, id, l, m, h1, h2, h3, h4, h5, h6⟩ := h'.one
  refine ⟨h'.env.trans h.env, h'.conf.trans h.conf, Nat.le_trans h.tick h'.tick, h.direct.trans h'.direct, p, id, l, m, ?_⟩
  rw [h.services_eq] at h1 h2
  rw [h.registry] at h3
  rw [h.logged_eq] at h4
  rw [h.metered] at h5
  rw [h.conf] at h6
  exact ⟨h1, h2, h3, h4, h5, h6⟩

theorem Ended.after {a b c : World} (h : Ended a b) (h' : Q b c) : Ended a c := by
  obtain ⟨p, id, l, m, h1, h2, h3, h4, h5, h6⟩ := h.one
  refine ⟨h'.env.trans h.env, h'.conf.trans h.conf, Nat.le_trans h.tick h'.tick, h.direct.trans h'.direct, p, id, l, m, ?_⟩
  exact ⟨h1, h'.services_eq.trans h2, h'.registry.trans h3, h'.logged_eq.trans h4, h'.metered.trans h5, h6⟩

/-- Nothing, or some services ended one after the other. -/
inductive Ends : World → World → Prop
  | quiet {a b : World} : Q a b → Ends a b
  | more {a b c : World} : Ended a b → Ends b c → Ends a c

theorem Ends.before {a b c : World} (h : Q a b) (h' : Ends b c) : Ends a c := by
  cases h' with
  | quiet q => exact .quiet ((Quiet.isPre _).trans h q)
  | more e r => exact .more (e.before h) r

theorem Ends.isPre : IsPre Ends where
  refl w := .quiet ((Quiet.isPre _).refl w)
  trans {a b c} h h' := by
    induction h with
    | quiet q => exact h'.before q
    | more e _ ih => exact .more e (ih h')

/-- Nothing, or one service started. -/
inductive Starts : World → World → Prop
  | quiet {a b : World} : Q a b → Starts a b
  | one {a b : World} : Started a b → Starts a b

theorem Starts.after {a b c : World} (h : Starts a b) (h' : Q b c) : Starts a c := by
  cases h with
  | quiet q => exact .quiet ((Quiet.isPre _).trans q h')
  | one s => exact .one (s.after h')

theorem Starts.before {a b c : World} (h : Q a b) (h' : Starts b c) : Starts a c := by
  cases h' with
  | quiet q => exact .quiet ((Quiet.isPre _).trans h q)
  | one s => exact .one (s.before h)

/-! ## Ending -/

theorem services_modify (w : World) (p : Nat) (t : Tctx) (h : w.tctxs[p]? = some t) (f : Tctx → Tctx)
    (hf : ∀ t, shownOf (f t) = (t.txid, true)) : (w.tctxs.modify p f).map shownOf = (services w).set p (t.txid, true) := by
  apply List.ext_getElem?
  intro i
  rw [List.getElem?_map, List.getElem?_modify, List.getElem?_set]
  unfold services
  by_cases hi : p = i
  · subst hi
    have hlt : p < w.tctxs.length := by
      by_contra hcon; rw [List.getElem?_eq_none (by omega)] at h; simp at h
    have ht : w.tctxs[p] = t := by simpa [List.getElem?_eq_getElem hlt] using h
    simp [hf, hlt, ht]
  · simp [hi]

theorem sendSlices_ok {w : World} {p : Nat} (h : p < w.tctxs.length) (ss : List (List Nat)) :
    ∃ w', sendSlices p ss w = (.ok (), w') := by
  induction ss generalizing w with
  | nil => exact ⟨w, rfl⟩
  | cons s ss ih =>
    have h0 : ∃ w', sendProfile0 p s w = (.ok (), w') := by
      unfold sendProfile0
      by_cases hs : s = []
      · simp only [hs, if_true]; exact ⟨w, rfl⟩
      · rw [if_neg hs]
        obtain ⟨t, ht⟩ : ∃ t, w.tctxs[p]? = some t := ⟨_, List.getElem?_eq_getElem h⟩
        rw [TM.bind_ok (getT_run ht)]
        exact ⟨_, rfl⟩
    obtain ⟨w', hw'⟩ := h0
    have hl : p < w'.tctxs.length := by
      have := (quiet_sendProfile0 shownOf_blind p s w).len
      rw [hw'] at this; simp only at this; omega
    obtain ⟨w'', hw''⟩ := ih hl
    exact ⟨w'', by show (sendProfile0 p s >>= fun _ => sendSlices p ss) w = _; rw [TM.bind_ok hw']; exact hw''⟩

theorem profileSlices_ne_none {α : Type} (l : List α) (b : Int) (hb : b ≠ 0) : ∃ ss, profileSlices l b = some ss := by
  unfold profileSlices
  by_cases hl : l.length = 0
  · rw [if_pos hl]; exact ⟨_, rfl⟩
  · rw [if_neg hl, if_neg hb]
    simp only
    split
    · exact ⟨_, rfl⟩
    · split <;> exact ⟨_, rfl⟩

theorem sendProfile_ok {w : World} {p : Nat} (h : p < w.tctxs.length) (hb : w.conf.bulk ≠ 0) (ps : List Nat) :
    ∃ w', sendProfile p ps w = (.ok (), w') := by
  unfold sendProfile
  rw [TM.get_bind]
  obtain ⟨ss, hs⟩ := profileSlices_ne_none ps w.conf.bulk hb
  rw [hs]
  exact sendSlices_ok h ss

theorem profileClose_ok {w : World} {p : Nat} (h : p < w.tctxs.length) (hb : w.conf.bulk ≠ 0) (ok : Bool) :
    ∃ w', profileClose p ok w = (.ok (), w') := by
  unfold profileClose
  obtain ⟨t, ht⟩ : ∃ t, w.tctxs[p]? = some t := ⟨_, List.getElem?_eq_getElem h⟩
  rw [TM.bind_ok (getT_run ht)]
  cases hcl : t.col.close ok with
  | some o => exact sendProfile_ok h hb o
  | none => exact ⟨w, rfl⟩

theorem findDiscard_off (s : Sampler) (c : SampleConf) (h : NoSampling c) (d : Nat) (e el : BitVec 32) (n : Bytes) :
    s.findDiscard c d e el n = discardNone := by
  obtain ⟨h1, h2, h3, h4, h5⟩ := h
  simp [Sampler.findDiscard, Sampler.evaluate, Sampler.isPattern, h1, h2, h3, h4, h5]

theorem endRest_ended {w : World} {p : Nat} {t : Tctx} (h : w.tctxs[p]? = some t) (hc : t.closed = false) :
    Ended w (endRest p w).2 := by
  obtain ⟨w1, x, hx, hrun, henv, hconf, htick, htc, hst, hm, hr, hd⟩ := endRest_run h
  have hlt : p < w.tctxs.length := by
    by_contra hcon; rw [List.getElem?_eq_none (by omega)] at h; simp at h
  have hlt1 : p < w1.tctxs.length := by rw [htc]; simpa using hlt
  have hs1 : services w1 = (services w).set p (t.txid, true) := by
    show w1.tctxs.map shownOf = _
    rw [htc]; exact services_modify w p t h _ (fun _ => rfl)
  have hop : (services w)[p]? = some (t.txid, false) := by simp [services, h, shownOf, hc]
  have hl1 : loggedIds w1 = loggedIds w := by unfold loggedIds; rw [hd]
  rw [hrun]
  have hq := quiet_profileClose shownOf_blind p (x.discardType == discardNone) w1
  rw [TM.bind_def]
  split
  · rename_i u w2 heq
    rw [heq] at hq
    replace hq : Q w1 w2 := hq
    have e : (meter x.elapsed.toInt (x.error != 0)) w2 = (.ok (), { w2 with metered := w2.metered ++ [(x.elapsed.toInt, (x.error != 0))] }) := rfl
    rw [TM.bind_ok e]
    by_cases hk : keepsXlog x = true
    · rw [if_pos hk]
      refine ⟨hq.env.trans henv, hq.conf.trans hconf, ?_, ?_, p, t.txid, [t.txid], [(x.elapsed.toInt, x.error != 0)],
        hop, ?_, ?_, ?_, ?_, by simp, by simp, by simp, by simp, by simp⟩
      · have := hq.tick; show w.tick ≤ w2.tick; omega
      · show w.proxy.direct <+: w2.proxy.direct ++ [_]
        rw [← hd]; exact hq.direct.trans (List.prefix_append _ _)
      · show services w2 = _; rw [hq.services_eq, hs1]
      · show w2.registry = _; rw [hq.registry, hr]
      · show (xlogsOf (w2.proxy.direct ++ [_])).map (·.txid) = _
        rw [xlogsOf_append, List.map_append]
        have : loggedIds w2 = loggedIds w := hq.logged_eq.trans hl1
        unfold loggedIds at this
        rw [this]
        simp [xlogsOf, loggedIds, hx, xlogFor]
      · show w2.metered ++ _ = _; rw [hq.metered, hm]
    · rw [if_neg hk]
      refine ⟨hq.env.trans henv, hq.conf.trans hconf, ?_, ?_, p, t.txid, [], [(x.elapsed.toInt, x.error != 0)],
        hop, ?_, ?_, ?_, ?_, by simp, by simp, by simp, by simp, ?_⟩
      · have := hq.tick; show w.tick ≤ w2.tick; omega
      · show w.proxy.direct <+: w2.proxy.direct
        rw [← hd]; exact hq.direct
      · show services w2 = _; rw [hq.services_eq, hs1]
      · show w2.registry = _; rw [hq.registry, hr]
      · show loggedIds w2 = _; rw [hq.logged_eq, hl1]; simp
      · show w2.metered ++ _ = _; rw [hq.metered, hm]
      · intro _ hoff
        exfalso; apply hk
        rw [hx, findDiscard_off _ _ hoff]
        rfl
  · rename_i w2 heq
    rw [heq] at hq
    replace hq : Q w1 w2 := hq
    have hbad : w.conf.bulk = 0 := by
      by_contra hb
      obtain ⟨w', hw'⟩ := profileClose_ok hlt1 (by rw [hconf]; exact hb) (x.discardType == discardNone)
      rw [hw'] at heq; simp at heq
    refine ⟨hq.env.trans henv, hq.conf.trans hconf, ?_, ?_, p, t.txid, [], [],
        hop, ?_, ?_, ?_, ?_, by simp, by simp, by simp, fun hb => absurd hbad hb, fun hb => absurd hbad hb⟩
    · have := hq.tick; show w.tick ≤ w2.tick; omega
    · show w.proxy.direct <+: w2.proxy.direct
      rw [← hd]; exact hq.direct
    · show services w2 = _; rw [hq.services_eq, hs1]
    · show w2.registry = _; rw [hq.registry, hr]
    · show loggedIds w2 = _; rw [hq.logged_eq, hl1]; simp
    · show w2.metered = _; rw [hq.metered, hm]; simp

theorem ends_of_quiet {α : Type} {m : TM α} (h : Ev Q m) : Ev Ends m := fun w => .quiet (h w)

theorem ends_bind {α β : Type} {m : TM α} {f : α → TM β} (h : Ev Ends m) (hf : ∀ a, Ev Ends (f a)) :
    Ev Ends (m >>= f) := Ev.bind Ends.isPre h hf

theorem ends_endTctx (p : Nat) : Ev Ends (endTctx p) := by
  intro w
  unfold endTctx
  cases ht : w.tctxs[p]? with
  | none => simp only [TM.bind_def, getT, ht]; exact Ends.isPre.refl w
  | some t =>
    rw [TM.bind_ok (getT_run ht)]
    cases hc : t.closed with
    | true => simp only [if_true]; exact Ends.isPre.refl w
    | false =>
      simp only [Bool.false_eq_true, if_false]
      exact .more (endRest_ended ht hc) (Ends.isPre.refl _)

theorem ends_withTrace {α : Type} (c : Ctx) (d : α) (f : Nat → TM α) (h : ∀ p, Ev Ends (f p)) :
    Ev Ends (withTrace c d f) := by
  unfold withTrace
  refine ends_bind (ends_of_quiet quiet_get) fun w => ?_
  split
  · exact h _
  · exact ends_of_quiet (quiet_pure _)

theorem ends_recovered {α : Type} (d : α) {m : TM α} (h : Ev Ends m) : Ev Ends (recovered d m) := by
  intro w
  unfold recovered
  have := h w
  split
  · rename_i a w' heq; rw [heq] at this; exact this
  · rename_i w' heq; rw [heq] at this
    refine Ends.isPre.trans this (.quiet ?_)
    exact quiet_bind (core := shownOf) (quiet_reading _) (fun t => quiet_bind (quiet_sendAlert _ _ _) fun _ => quiet_pure _) w'

theorem ends_endAnyService (c : Ctx) : Ev Ends (endAnyService c) := by
  refine ends_withTrace _ _ _ fun p => ends_bind (ends_of_quiet (quiet_getT _)) fun t => ?_
  exact Ev.ite (ends_of_quiet (quiet_pure _)) (ends_endTctx p)

theorem ends_endStuck (p : Nat) : Ev Ends (endStuck p) := by
  refine ends_recovered _ (ends_bind (ends_of_quiet quiet_get) fun w => Ev.ite ?_ (ends_of_quiet (quiet_pure _)))
  refine ends_bind (ends_of_quiet (quiet_getT _)) fun t => ends_bind (ends_of_quiet (quiet_millisToNow _)) fun now =>
    ends_bind (ends_of_quiet (quiet_sendText _ _)) fun h => ends_bind (ends_of_quiet (quiet_addNew shownOf_blind _ _ _)) fun _ =>
    ends_bind (ends_of_quiet (quiet_getT _)) fun t => ?_
  have hj : Ev Ends (endTctx p) := ends_endTctx p
  exact Ev.ite (ends_bind (ends_of_quiet (quiet_sendText _ _)) fun e =>
      ends_bind (ends_of_quiet (quiet_modT _ _ fun _ => rfl)) fun _ => hj)
    hj

theorem ends_activeLoop (now : Int) (ps : List Nat) : ∀ n a, Ev Ends (activeLoop now ps n a) := by
  induction ps with
  | nil => intro n a; exact ends_of_quiet (quiet_pure _)
  | cons p ps ih =>
    intro n a
    unfold activeLoop
    refine Ev.ite (ends_of_quiet (quiet_pure _)) ?_
    refine ends_bind (ends_of_quiet (quiet_getT _)) fun t => ends_bind (ends_of_quiet quiet_get) fun w => ?_
    exact Ev.ite (ends_bind (ends_endStuck p) fun _ => ends_bind (ends_of_quiet (quiet_getT _)) fun _ =>
      ends_bind (ends_of_quiet quiet_get) fun _ => ends_bind (ends_of_quiet (quiet_sendAlert _ _ _)) fun _ => ih _ _)
      (ih _ _)

theorem ends_getActiveCount (o : MapOrder (BitVec 64 × Nat)) : Ev Ends (getActiveCount o) :=
  ends_bind (ends_of_quiet quiet_get) fun _ => ends_bind (ends_of_quiet (quiet_reading _)) fun _ =>
    ends_activeLoop _ _ _ _

theorem ends_endHttpService (c : Ctx) (s : Option (BitVec 32)) : Ev Ends (endHttpService c s) := by
  refine ends_recovered _ ?_
  cases s with
  | none => exact ends_endAnyService c
  | some code =>
    refine ends_withTrace _ _ _ fun p => ends_bind (ends_of_quiet (quiet_getT _)) fun t => ?_
    exact Ev.ite (ends_of_quiet (quiet_pure _))
      (ends_bind (ends_of_quiet (quiet_modT _ _ fun _ => rfl)) fun _ => ends_endAnyService c)

/-! ## Starting -/

/-- A context as made. -/
def freshTctx (w : World) (col : Collector) : Tctx :=
  { col := col, txid := w.env.id w.tick, startTime := w.env.clock (w.tick + 1) }

theorem newTraceContext_run (w : World) : newTraceContext w = match Collector.new w.conf.keep with
    | none => (.panic, { w with tick := w.tick + 1 + 1 })
    | some col => (.ok w.tctxs.length, { w with tick := w.tick + 1 + 1, tctxs := w.tctxs ++ [freshTctx w col] }) := by
  unfold newTraceContext
  rw [TM.reading_bind, TM.reading_bind, TM.get_bind]
  simp only
  cases Collector.new w.conf.keep <;> rfl

theorem newRegistered (w : World) :
    (∃ w', newTraceContext w = (.panic, w') ∧ Q w w') ∨
    ∃ w', newTraceContext w = (.ok w.tctxs.length, w') ∧
      ∃ w'', register w.tctxs.length w' = (.ok (), w'') ∧ Started w w'' := by
  rw [newTraceContext_run]
  cases hcol : Collector.new w.conf.keep with
  | none =>
    left
    exact ⟨_, rfl, ⟨rfl, rfl, by simp; omega, rfl, fun _ => rfl, Nat.le_refl _, rfl, rfl, rfl, List.prefix_refl _⟩⟩
  | some col =>
    right
    refine ⟨_, rfl, ?_⟩
    generalize hw' : ({ w with tick := w.tick + 1 + 1, tctxs := w.tctxs ++ [freshTctx w col] } : World) = w'
    have hg : w'.tctxs[w.tctxs.length]? = some (freshTctx w col) := by subst hw'; simp
    have hr : register w.tctxs.length w' = (.ok (), { w' with registry := w'.registry.add (w.env.id w.tick) (some w.tctxs.length) }) := by
      unfold register; rw [TM.bind_ok (getT_run hg)]; rfl
    refine ⟨_, hr, ?_⟩
    subst hw'
    refine ⟨rfl, rfl, List.prefix_refl _, rfl, rfl, w.tick, Nat.le_refl _, ?_, ?_, rfl⟩
    · show w.tick < w.tick + 1 + 1; omega
    · show (w.tctxs ++ [_]).map shownOf = _; simp [services, shownOf, freshTctx]

theorem quiet_startRest {γ : Type} {core : Tctx → γ} (hc : Blind core)
    (hx : ∀ t (g : Int) n h ip (x : BitVec 64), core { t with gxid := t.txid } = core t ∧ core { t with goid := g } = core t ∧
      core { t with serviceName := n } = core t ∧ core { t with serviceHash := h, remoteIp := ip } = core t)
    (p : Nat) (n a : Bytes) : Ev (Quiet core) (startRest p n a) :=
  quiet_bind (quiet_modT _ _ fun t => (hx t 0 [] 0 [] 0).1) fun _ => quiet_bind (quiet_reading _) fun g =>
    quiet_bind (quiet_modT _ _ fun t => (hx t g [] 0 [] 0).2.1) fun _ => quiet_bind (quiet_addNew hc _ _ _) fun _ =>
    quiet_bind (quiet_modT _ _ fun t => (hx t 0 n 0 [] 0).2.2.1) fun _ => quiet_bind (quiet_sendText _ _) fun h =>
    quiet_modT _ _ fun t => (hx t 0 [] h _ 0).2.2.2

theorem starts_startService (n a : Bytes) : Ev Starts (startService n a) := by
  intro w
  unfold startService
  rcases newRegistered w with ⟨w', h, hq⟩ | ⟨w', h, w'', h', hs⟩
  · rw [TM.bind_def, h]; exact .quiet hq
  · rw [TM.bind_ok h, TM.bind_ok h']
    refine Starts.after (.one hs) ?_
    exact quiet_bind (quiet_startRest shownOf_blind (fun _ _ _ _ _ _ => ⟨rfl, rfl, rfl, rfl⟩) _ _ _) (fun _ => quiet_pure _) w''

theorem starts_bindQ {α β : Type} {m : TM α} {f : α → TM β} (h : Ev Starts m) (hf : ∀ a, Ev Q (f a)) :
    Ev Starts (m >>= f) := by
  intro w
  rw [TM.bind_def]
  have := h w
  split
  · rename_i a w' heq; rw [heq] at this; exact Starts.after this (hf a w')
  · rename_i w' heq; rw [heq] at this; exact this

theorem starts_Qbind {α β : Type} {m : TM α} {f : α → TM β} (h : Ev Q m) (hf : ∀ a, Ev Starts (f a)) :
    Ev Starts (m >>= f) := by
  intro w
  rw [TM.bind_def]
  have := h w
  split
  · rename_i a w' heq; rw [heq] at this; exact Starts.before this (hf a w')
  · rename_i w' heq; rw [heq] at this; exact .quiet this

theorem starts_recovered {α : Type} (d : α) {m : TM α} (h : Ev Starts m) : Ev Starts (recovered d m) := by
  intro w
  unfold recovered
  have := h w
  split
  · rename_i a w' heq; rw [heq] at this; exact this
  · rename_i w' heq; rw [heq] at this
    refine Starts.after this ?_
    exact quiet_bind (core := shownOf) (quiet_reading _) (fun t => quiet_bind (quiet_sendAlert _ _ _) fun _ => quiet_pure _) w'

theorem starts_of_quiet {α : Type} {m : TM α} (h : Ev Q m) : Ev Starts m := fun w => .quiet (h w)

theorem quiet_profileHttpHeaders {γ : Type} {core : Tctx → γ} (hc : Blind core) (r : Request) (p : Nat) :
    Ev (Quiet core) (profileHttpHeaders r p) := by
  refine quiet_bind (quiet_getT _) fun t => quiet_bind (quiet_millisToNow _) fun st => quiet_bind quiet_get fun w =>
    quiet_bind (quiet_addMessages hc _ _ _) fun _ => quiet_bind quiet_get fun w => ?_
  exact quiet_ite (quiet_addNew hc _ _ _) (quiet_pure _)

theorem quiet_startHttpRest {γ : Type} {core : Tctx → γ} (hc : Blind core)
    (hx : ∀ t a b c m x, core { t with xType := x } = core t ∧ core { t with userAgent := a, httpMethod := m } = core t ∧
      core { t with referer := b } = core t ∧ core { t with status := c } = core t) (r : Request) (p : Nat) :
    Ev (Quiet core) (startHttpRest r p) :=
  quiet_bind (quiet_modT _ _ fun t => (hx t 0 0 0 [] _).1) fun _ => quiet_bind (quiet_sendText _ _) fun _ =>
    quiet_bind (quiet_modT _ _ fun t => (hx t _ 0 0 _ 0).2.1) fun _ => quiet_bind (quiet_sendText _ _) fun _ =>
    quiet_bind (quiet_modT _ _ fun t => (hx t 0 _ 0 [] 0).2.2.1) fun _ => quiet_profileHttpHeaders hc _ _

theorem starts_startHttpService (c : Ctx) (r : Option Request) : Ev Starts (startHttpService c r) := by
  unfold startHttpService
  refine Ev.ite (starts_of_quiet (quiet_pure _)) (starts_Qbind quiet_get fun w => ?_)
  split
  · exact starts_of_quiet (quiet_pure _)
  · refine starts_bindQ (starts_recovered _ ?_) fun p? => ?_
    · cases r with
      | none => exact starts_of_quiet quiet_panic
      | some r => exact starts_bindQ (starts_startService _ _) fun _ => quiet_pure _
    · split
      · exact quiet_recovered _ (quiet_bind (quiet_startHttpRest shownOf_blind (fun _ _ _ _ _ _ => ⟨rfl, rfl, rfl, rfl⟩) _ _)
          fun _ => quiet_pure _)
      · exact quiet_pure _

theorem starts_startServiceApi (c : Ctx) (n ip : Bytes) : Ev Starts (startServiceApi c n ip) := by
  unfold startServiceApi
  refine starts_Qbind quiet_get fun w => ?_
  split
  · exact starts_of_quiet (quiet_pure _)
  · exact starts_recovered _ (starts_bindQ (starts_startService _ _) fun p =>
      quiet_bind (quiet_modT _ _ fun _ => rfl) fun _ => quiet_pure _)

theorem starts_startInheritance (q : Option Nat) : Ev Starts (startInheritance q) := by
  unfold startInheritance
  refine starts_bindQ (starts_recovered _ ?_) fun p? => ?_
  · cases q with
    | none => exact starts_of_quiet quiet_panic
    | some q => exact starts_Qbind (quiet_getT _) fun t => starts_bindQ (starts_startService _ _) fun _ => quiet_pure _
  · split
    · refine quiet_recovered _ (quiet_bind ?_ fun _ => quiet_pure _)
      exact quiet_bind (quiet_getT _) fun q => quiet_bind (quiet_modT _ _ fun _ => rfl) fun _ =>
        quiet_bind (quiet_addNew shownOf_blind _ _ _) fun _ => quiet_bind (quiet_getT _) fun q =>
        quiet_bind quiet_get fun w => quiet_modT _ _ fun _ => rfl
    · exact quiet_pure _

theorem starts_startChild (c : Ctx) (n : Bytes) : Ev Starts (startChild c n) := by
  unfold startChild withTrace
  refine starts_Qbind quiet_get fun w => ?_
  split
  · rename_i q hq
    refine starts_Qbind (quiet_getT _) fun parent => starts_bindQ (starts_startService _ _) fun p => ?_
    refine quiet_bind (quiet_getT _) fun parent => quiet_bind (quiet_modT _ _ fun _ => rfl) fun _ => ?_
    have hj : Ev Q (do
        let child ← getT p
        let now ← millisToNow parent.startTime
        let h ← Trace.sendText .apicall n
        addNew q now (.async child.txid h 0)
        return Ctx.traced p) :=
      quiet_bind (quiet_getT _) fun child => quiet_bind (quiet_millisToNow _) fun now =>
        quiet_bind (quiet_sendText _ _) fun h => quiet_bind (quiet_addNew shownOf_blind _ _ _) fun _ => quiet_pure _
    exact quiet_ite (quiet_bind (quiet_modT _ _ fun _ => rfl) fun _ => quiet_bind (quiet_modT _ _ fun _ => rfl) fun _ => hj) hj
  · exact starts_of_quiet (quiet_pure _)

theorem starts_goWithTrace (c : Ctx) (n : Bytes) : Ev Starts (goWithTrace c n) :=
  starts_recovered _ (starts_bindQ (starts_startChild _ _) fun _ => quiet_pure _)

end Scouter
