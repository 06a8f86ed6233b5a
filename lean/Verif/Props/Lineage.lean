import Verif.Spec.Lineage
import Verif.Proofs.Lineage
import Verif.Props.Errors
/-!
# C41: child traces are linked to their parents
-/
namespace Scouter
open TM Trace

/-! ## The steps of a start -/

/-- What links a context to others. -/
def linkCore (t : Tctx) := (t.txid, t.gxid, t.caller)

theorem linkCore_deaf : Deaf linkCore where
  col _ _ := rfl
  process _ _ _ := rfl
  sent _ _ _ _ := rfl
  isStream _ _ := rfl
  closed _ _ := rfl
  lastMethod _ _ := rfl
  serviceName _ _ := rfl
  serviceHash _ _ := rfl
  status _ _ := rfl
  startTime _ _ := rfl
  apicall _ _ _ := rfl
  texts _ _ _ _ _ _ _ _ := rfl

/-- Steps stay and `core` of the context at `q` stays. -/
def OnlySends {γ : Type} (core : Tctx → γ) (q : Nat) (w w' : World) : Prop := Same core q w w' ∧ w'.steps = w.steps

theorem OnlySends.isPre {γ : Type} (core : Tctx → γ) (q : Nat) : IsPre (OnlySends core q) :=
  ⟨fun w => ⟨Same.isPre.refl w, rfl⟩, fun h h' => ⟨Same.isPre.trans h.1 h'.1, h'.2.trans h.2⟩⟩

theorem sending_modT {γ : Type} {core : Tctx → γ} {q p : Nat} {f : Tctx → Tctx} (h : ∀ t, core (f t) = core t) :
    Ev (OnlySends core q) (modT p f) := fun w => ⟨same_modT h w, rfl⟩

theorem sending_getT {γ : Type} {core : Tctx → γ} {q p : Nat} : Ev (OnlySends core q) (getT p) := by
  intro w; unfold getT; split <;> exact (OnlySends.isPre core q).refl w

theorem sending_sendProfile {γ : Type} {core : Tctx → γ} {q : Nat}
    (hs : ∀ t a b c, core { t with profileCount := a, profileSize := b, sentSteps := c } = core t) (p : Nat) (ps : List Nat) :
    Ev (OnlySends core q) (sendProfile p ps) := by
  have P := OnlySends.isPre core q
  have h0 : ∀ l, Ev (OnlySends core q) (sendProfile0 p l) := by
    intro l
    unfold sendProfile0
    refine Ev.ite (Ev.pure P _) (Ev.bind P sending_getT fun t => Ev.bind P (Ev.get P) fun v => Ev.bind P (fun w => ?_) fun _ =>
      Ev.bind P (sending_modT fun t => hs t _ _ _) fun _ => fun w => ?_)
    · exact ⟨fun t h => ⟨t, h, rfl⟩, rfl⟩
    · exact ⟨fun t h => ⟨t, h, rfl⟩, rfl⟩
  have h1 : ∀ ss, Ev (OnlySends core q) (sendSlices p ss) := by
    intro ss
    induction ss with
    | nil => exact Ev.pure P _
    | cons s ss ih => exact Ev.bind P (h0 s) fun _ => ih
  unfold sendProfile
  refine Ev.bind P (Ev.get P) fun w => ?_
  split
  · exact h1 _
  · exact Ev.panic P

/-- A recorded step: the context gains it and it has the given body. -/
theorem pc_addNew (u : Tctx) (q : Nat) (st : BitVec 32) (b : StepBody) :
    Pc (Holds q (· = u)) (addNew q st b) (fun _ w => ∃ ptr, Holds q (fun t => linkCore t = linkCore u ∧
      t.recorded = u.recorded ++ [ptr]) w ∧ (w.steps[ptr]?).map (·.body) = some b) := by
  intro w hw x w' e
  unfold addNew at e
  have hn : newStep ⟨⟨0, 0, st⟩, b⟩ w = (.ok w.steps.length, { w with steps := w.steps ++ [⟨⟨0, 0, st⟩, b⟩] }) := rfl
  rw [TM.bind_ok hn] at e
  refine ⟨w.steps.length, ?_⟩
  unfold profileAdd at e
  obtain ⟨t, ht, rfl⟩ := hw
  generalize hw1 : ({ w with steps := w.steps ++ [⟨⟨0, 0, st⟩, b⟩] } : World) = w1 at e
  have ht1 : w1.tctxs[q]? = some t := by rw [← hw1]; exact ht
  rw [TM.bind_ok (getT_run ht1)] at e
  have hs : getStep w.steps.length w1 = (.ok ⟨⟨0, 0, st⟩, b⟩, w1) := by rw [← hw1]; simp [getStep]
  rw [TM.bind_ok hs] at e
  generalize hs2 : (t.col.addNumber ⟨⟨0, 0, st⟩, b⟩).2 = s2 at e
  have hb2 : s2.body = b := by rw [← hs2]; rfl
  generalize hw2 : ({ w1 with steps := w1.steps.modify w.steps.length (fun _ => s2) } : World) = w2 at e
  have e2 : modStep w.steps.length (fun _ => s2) w1 = (.ok (), w2) := by rw [← hw2]; rfl
  rw [TM.bind_ok e2] at e
  have hst2 : (w2.steps[w.steps.length]?).map (·.body) = some b := by
    rw [← hw2, ← hw1]
    simp [hb2]
  have ht2 : w2.tctxs[q]? = some t := by rw [← hw2]; exact ht1
  generalize hc : (t.col.addNumber ⟨⟨0, 0, st⟩, b⟩).1 = col at e
  have key : ∀ v : World, v.tctxs[q]? = some { t with col := col } → v.steps = w2.steps → profileProcess q w.steps.length v = (.ok x, w') →
      Holds q (fun t' => linkCore t' = linkCore t ∧ t'.recorded = t.recorded ++ [w.steps.length]) w' ∧
        (w'.steps[w.steps.length]?).map (·.body) = some b := by
    intro v hv hvs e
    unfold profileProcess at e
    rw [TM.bind_ok (getT_run hv), TM.get_bind] at e
    have cr : ∀ col2 : Collector, ∃ v2, modT q (fun t => { t with col := col2, recorded := t.recorded ++ [w.steps.length] }) v = (.ok (), v2) ∧
        v2.steps = w2.steps ∧ v2.tctxs[q]? = some { t with col := col2, recorded := t.recorded ++ [w.steps.length] } := by
      intro col2
      refine ⟨_, rfl, hvs, ?_⟩
      show (v.tctxs.modify q _)[q]? = _
      rw [List.getElem?_modify, hv]; simp
    generalize Collector.process _ _ _ = pr at e
    obtain ⟨c2, r⟩ := pr
    cases r with
    | done =>
      obtain ⟨v2, h1, h2, h3⟩ := cr c2
      simp only at e
      rw [h1] at e
      have : v2 = w' := congrArg Prod.snd e
      subst this
      exact ⟨⟨_, h3, rfl, rfl⟩, by rw [h2]; exact hst2⟩
    | full o =>
      obtain ⟨v2, h1, h2, h3⟩ := cr c2
      simp only at e
      rw [TM.bind_ok h1] at e
      have := sending_sendProfile (core := fun t => (linkCore t, t.recorded)) (q := q) (fun _ _ _ _ => rfl) q o v2
      rw [e] at this
      obtain ⟨t', h4, h5⟩ := this.1 _ h3
      refine ⟨⟨t', h4, congrArg Prod.fst h5, congrArg Prod.snd h5⟩, ?_⟩
      rw [this.2, h2]; exact hst2
    | panicked =>
      obtain ⟨v2, h1, h2, h3⟩ := cr c2
      simp only at e
      rw [TM.bind_ok h1] at e
      simp at e
  rw [TM.bind_def] at e
  refine key _ ?_ ?_ e
  · show (w2.tctxs.modify q _)[q]? = _
    rw [List.getElem?_modify, ht2]; simp [← hc]
  · rfl

/-- What a goroutine's service has, given its parent. -/
structure ChildOf (u : Tctx) (id : BitVec 64) (name : Bytes) (t : Tctx) : Prop where
  txid : t.txid = id
  caller : t.caller = u.txid
  gxid : t.gxid = u.gxid
  xType : t.xType = 4
  error : t.error = 0
  closed : t.closed = false
  serviceName : t.serviceName = name

theorem run_startChild {w : World} (g : Good w) {q : Nat} {u : Tctx} (hu : w.tctxs[q]? = some u) (h0 : u.gxid ≠ 0) (name : Bytes) :
    ∃ w', startChild (.traced q) name w = (.ok (.traced w.tctxs.length), w') ∧
      Holds w.tctxs.length (ChildOf u (w.env.id w.tick) name) w' ∧
      ∃ ptr, Holds q (fun t => linkCore t = linkCore u ∧ t.recorded = u.recorded ++ [ptr]) w' ∧
        (w'.steps[ptr]?).map (·.body) = some (.async (w.env.id w.tick) (textHash name) 0) := by
  obtain ⟨c', w', h, -⟩ := safe_startChild (n := 0) (k := 0) (.traced q) name w g (by omega) (by omega)
  have hq : q < w.tctxs.length := (List.getElem?_eq_some_iff.mp hu).1
  have htr : traceOf w (.traced q) = some q := by simp [traceOf, hq]
  have hc' : c' = .traced w.tctxs.length := by rw [startChild_result h]; simp [childOf, htr]
  refine ⟨w', by rw [h, hc'], ?_⟩
  unfold startChild at h
  rw [withTrace_run htr, TM.bind_ok (getT_run hu)] at h
  have hne : w.tctxs.length ≠ q := by omega
  have main : Pc (fun v => v = w) (startService name u.remoteIp >>= fun p => do
      let parent ← getT q
      modT p fun t => { t with xType := 4, caller := parent.txid, gxid := parent.gxid }
      if parent.gxid = 0 then do
        modT p fun t => { t with gxid := parent.txid }
        modT q fun t => { t with gxid := t.txid }
      else pure ()
      let child ← getT p
      let now ← millisToNow parent.startTime
      let h ← Trace.sendText .apicall name
      addNew q now (.async child.txid h 0)
      return Ctx.traced p) (fun _ v => Holds w.tctxs.length (ChildOf u (w.env.id w.tick) name) v ∧
      ∃ ptr, Holds q (fun t => linkCore t = linkCore u ∧ t.recorded = u.recorded ++ [ptr]) v ∧
        (v.steps[ptr]?).map (·.body) = some (.async (w.env.id w.tick) (textHash name) 0)) := by
    refine pc_bind (B := fun p v => p = w.tctxs.length ∧ Holds p (JustStarted (w.env.id w.tick) name (normalizeIp u.remoteIp)) v ∧ Holds q (· = u) v)
      ?_ fun p => ?_
    · intro v hv p v' e
      have h1 := pc_startService w name u.remoteIp v hv p v' e
      refine ⟨h1.1, h1.2.2, ?_⟩
      have h2 := other_startService (core := fun t : Tctx => t) (p := q) name u.remoteIp v
      rw [e] at h2
      subst hv
      obtain ⟨t', h3, h4⟩ := h2 u hu
      exact ⟨t', h3, h4⟩
    · refine pc_bind (B := fun parent v => parent = u ∧ p = w.tctxs.length ∧
        Holds p (JustStarted (w.env.id w.tick) name (normalizeIp u.remoteIp)) v ∧ Holds q (· = u) v) ?_ fun parent => ?_
      · refine pc_getT fun v t hv ht => ⟨?_, hv⟩
        obtain ⟨t', ht', e⟩ := hv.2.2
        rw [ht] at ht'; exact (Option.some.inj ht').trans e
      · intro v hv x v' e
        obtain ⟨hv1, hv2, hv3, hv4⟩ := hv
        subst hv1; subst hv2
        revert e
        rw [if_neg h0]
        intro e
        have hmod : Pc (fun v => Holds w.tctxs.length (JustStarted (w.env.id w.tick) name (normalizeIp parent.remoteIp)) v ∧ Holds q (· = parent) v)
            (modT w.tctxs.length fun t => { t with xType := 4, caller := parent.txid, gxid := parent.gxid })
            (fun _ v => Holds w.tctxs.length (ChildOf parent (w.env.id w.tick) name) v ∧ Holds q (· = parent) v) :=
          pc_modT fun v hv => ⟨hv.1.modT fun t j => ⟨j.txid, rfl, rfl, rfl, j.error, j.closed, j.serviceName⟩, hv.2.modT_other hne⟩
        refine pc_bind (C := fun _ v => Holds w.tctxs.length (ChildOf parent (w.env.id w.tick) name) v ∧
          ∃ ptr, Holds q (fun t => linkCore t = linkCore parent ∧ t.recorded = parent.recorded ++ [ptr]) v ∧
            (v.steps[ptr]?).map (·.body) = some (.async (w.env.id w.tick) (textHash name) 0)) hmod (fun _ => ?_) v ⟨hv3, hv4⟩ x v' e
        show Pc _ (getT w.tctxs.length >>= _) _
        refine pc_bind (B := fun child v => child.txid = w.env.id w.tick ∧
          Holds w.tctxs.length (ChildOf parent (w.env.id w.tick) name) v ∧ Holds q (· = parent) v)
          (pc_getT fun v t hv ht => ⟨?_, hv⟩) fun child => ?_
        · obtain ⟨t', ht', j⟩ := hv.1
          rw [ht] at ht'; cases ht'; exact j.txid
        refine pc_bind (B := fun _ v => child.txid = w.env.id w.tick ∧
          Holds w.tctxs.length (ChildOf parent (w.env.id w.tick) name) v ∧ Holds q (· = parent) v)
          (pc_bind (B := fun _ v => child.txid = w.env.id w.tick ∧
          Holds w.tctxs.length (ChildOf parent (w.env.id w.tick) name) v ∧ Holds q (· = parent) v) (pc_reading fun v hv => hv) fun now => pc_pure fun v hv => hv) fun now => ?_
        refine pc_bind (B := fun h v => h = textHash name ∧ child.txid = w.env.id w.tick ∧
          Holds w.tctxs.length (ChildOf parent (w.env.id w.tick) name) v ∧ Holds q (· = parent) v)
          (pc_sendText fun v v' hv o => ⟨rfl, hv.1, hv.2.1.texts o, hv.2.2.texts o⟩) fun hh => ?_
        refine pc_bind (B := fun _ v => Holds w.tctxs.length (ChildOf parent (w.env.id w.tick) name) v ∧
          ∃ ptr, Holds q (fun t => linkCore t = linkCore parent ∧ t.recorded = parent.recorded ++ [ptr]) v ∧
            (v.steps[ptr]?).map (·.body) = some (.async (w.env.id w.tick) (textHash name) 0)) ?_ fun _ => pc_pure fun v hv => hv
        intro v1 hv1 y v2 e2
        obtain ⟨hv1a, hv1b, hv1c, hv1d⟩ := hv1
        constructor
        · have hs := other_addNew (core := fun t : Tctx => t) (p := w.tctxs.length) (Ne.symm hne) now (.async child.txid hh 0) v1
          rw [e2] at hs
          exact hv1c.same (P := fun t => ChildOf parent (w.env.id w.tick) name t) hs
        · have := pc_addNew parent q now (.async child.txid hh 0) v1 hv1d y v2 e2
          rw [hv1a, hv1b] at this
          exact this
  exact main w rfl _ _ h

/-- **C41**: after any history, a goroutine started with tracing by a traced context has a transaction of its own whose
caller is the parent's transaction and whose global id is the parent's; the parent keeps its own, and its profile records a
step that names the child's transaction. -/
theorem C41_goroutine_is_linked (env : Oracle) (conf : TraceConf) (cap : Nat) (cs : List Call) (hk : 1 ≤ conf.keep)
    (hb : 1 ≤ conf.bulk) (hwf : AllWellFormed (start env conf cap) cs) (q : Nat) (u : Tctx) (name : Bytes) :
    let w := history (start env conf cap) cs
    w.tctxs[q]? = some u → u.gxid ≠ 0 → ∃ w' t v ptr,
      goWithTrace (.traced q) name w = (.ok (some (.traced w.tctxs.length)), w') ∧
      w'.tctxs[w.tctxs.length]? = some t ∧ t.txid = env.id w.tick ∧ t.caller = u.txid ∧ t.gxid = u.gxid ∧ t.serviceName = name ∧
      w'.tctxs[q]? = some v ∧ v.txid = u.txid ∧ v.gxid = u.gxid ∧ v.caller = u.caller ∧ v.recorded = u.recorded ++ [ptr] ∧
      (w'.steps[ptr]?).map (·.body) = some (.async t.txid (textHash name) 0) := by
  intro w hu h0
  have g := (Good.start env conf cap hk hb).history cs hwf
  have he : w.env = env := history_env _ cs
  obtain ⟨w', h1, ⟨t, ht, hc⟩, ptr, ⟨v, hv, hl, hr⟩, hs⟩ := run_startChild g hu h0 name
  refine ⟨w', t, v, ptr, recovered_ok (by rw [TM.bind_ok h1]; rfl), ht, by rw [hc.txid]; exact congrArg (fun e => Oracle.id e w.tick) he, hc.caller, hc.gxid, hc.serviceName, hv,
    congrArg (·.1) hl, congrArg (·.2.1) hl, congrArg (·.2.2) hl, hr, ?_⟩
  rw [hc.txid]; exact hs

/-! ## Other starts -/

theorem run_startServiceApi {w : World} (g : Good w) {c : Ctx} (hc : traceOf w c = none) (n ip : Bytes) :
    ∃ w', startServiceApi c n ip w = (.ok (.traced w.tctxs.length), w') ∧
      Holds w.tctxs.length (fun t => t.txid = w.env.id w.tick ∧ t.gxid = w.env.id w.tick ∧ t.caller = 0 ∧ t.xType = 1) w' := by
  obtain ⟨p, w1, h1, -⟩ := safe_startService (n := 0) (k := 0) n ip w g (by omega) (by omega)
  obtain ⟨hp, -, hj⟩ := pc_startService w n ip w rfl p w1 h1
  subst hp
  refine ⟨_, ?_, hj.modT (f := fun t => { t with xType := 1 }) fun t j => ⟨j.txid, j.gxid, j.caller, rfl⟩⟩
  unfold startServiceApi
  rw [TM.get_bind, hc]
  exact recovered_ok (by rw [TM.bind_ok h1]; rfl)

theorem run_startHttpService {w : World} (g : Good w) {c : Ctx} (hn : c ≠ .nil) (hc : traceOf w c = none) (r : Request) :
    ∃ w', startHttpService c (some r) w = (.ok (.traced w.tctxs.length), w') ∧
      Holds w.tctxs.length (fun t => t.txid = w.env.id w.tick ∧ t.gxid = w.env.id w.tick ∧ t.caller = 0) w' := by
  obtain ⟨p, w1, h1, g1, n1, k1⟩ := safe_startService (n := 0) (k := 0) (r.path ++ ascii "<" ++ r.method ++ ascii ">") (getRemoteIp w.conf r) w g
    (by omega) (by omega)
  obtain ⟨hp, hl, hj⟩ := pc_startService w _ _ w rfl p w1 h1
  subst hp
  obtain ⟨u, w2, h2, -⟩ := safe_startHttpRest (n := w.tctxs.length + 1) (k := 0) (Nat.lt_succ_self _) r w1 g1 (by omega) (by omega)
  have e : startHttpService c (some r) w = (.ok (.traced w.tctxs.length), w2) := by
    unfold startHttpService
    rw [if_neg hn, TM.get_bind, hc]
    have e1 : recovered none (startService (r.path ++ ascii "<" ++ r.method ++ ascii ">") (getRemoteIp w.conf r) >>= fun p => pure (some p)) w =
        (.ok (some w.tctxs.length), w1) := recovered_ok (by rw [TM.bind_ok h1]; rfl)
    simp only
    rw [TM.bind_ok e1]
    exact recovered_ok (by rw [TM.bind_ok h2]; rfl)
  refine ⟨w2, e, ?_⟩
  have hq := quiet_startHttpRest (core := linkCore) linkCore_deaf.toBlind (fun _ _ _ _ _ _ => ⟨rfl, rfl, rfl, rfl⟩) r w.tctxs.length w1
  rw [h2] at hq
  refine Holds.same (core := linkCore) (P := fun x => x.1 = w.env.id w.tick ∧ x.2.1 = w.env.id w.tick ∧ x.2.2 = 0) ?_ hq.same
  obtain ⟨t, ht, j⟩ := hj
  exact ⟨t, ht, j.txid, j.gxid, j.caller⟩

/-- What an inherited service takes over. -/
structure Inherits (u : Tctx) (id : BitVec 64) (t : Tctx) : Prop where
  txid : t.txid = id
  caller : t.caller = u.txid
  gxid : t.gxid = u.gxid
  xType : t.xType = u.xType
  error : t.error = u.error
  serviceName : t.serviceName = u.serviceName

theorem run_startInheritance {w : World} (g : Good w) {q : Nat} {u : Tctx} (hu : w.tctxs[q]? = some u) :
    ∃ w', startInheritance (some q) w = (.ok (.traced w.tctxs.length), w') ∧ Holds w.tctxs.length (Inherits u (w.env.id w.tick)) w' := by
  have hq : q < w.tctxs.length := (List.getElem?_eq_some_iff.mp hu).1
  have hne : w.tctxs.length ≠ q := by omega
  obtain ⟨p, w1, h1, g1, n1, k1⟩ := safe_startService (n := 0) (k := 0) u.serviceName u.remoteIp w g (by omega) (by omega)
  obtain ⟨hp, hl, hj⟩ := pc_startService w _ _ w rfl p w1 h1
  subst hp
  have ho := other_startService (core := fun t : Tctx => t) (p := q) u.serviceName u.remoteIp w u hu
  rw [h1] at ho
  have hs : Safe (w.tctxs.length + 1) 0 (inheritTctx w.tctxs.length q) :=
    safe_bind (safe_getT (by omega)) fun _ => safe_bind (safe_modT fun _ _ g => ⟨g.room, g.count, g.all, g.ptrs⟩) fun _ =>
      safe_bind (safe_addNew (by omega) _ _) fun _ => safe_bind (safe_getT (by omega)) fun _ => safe_bind safe_get fun _ =>
      safe_modT fun _ _ g => ⟨g.room, g.count, g.all, g.ptrs⟩
  obtain ⟨x, w2, h2, -⟩ := hs w1 g1 (by omega) (by omega)
  refine ⟨w2, ?_, ?_⟩
  · unfold startInheritance
    have e1 : recovered none (do
        let t ← getT q
        let p ← startService t.serviceName t.remoteIp
        return some p) w = (.ok (some w.tctxs.length), w1) :=
      recovered_ok (by rw [TM.bind_ok (getT_run hu), TM.bind_ok h1]; rfl)
    simp only
    rw [TM.bind_ok e1]
    exact recovered_ok (by rw [TM.bind_ok h2]; rfl)
  · have main : Pc (fun v => Holds w.tctxs.length (JustStarted (w.env.id w.tick) u.serviceName (normalizeIp u.remoteIp)) v ∧ Holds q (· = u) v)
        (inheritTctx w.tctxs.length q) (fun _ v => Holds w.tctxs.length (Inherits u (w.env.id w.tick)) v) := by
      unfold inheritTctx
      let A : World → Prop := fun v => Holds w.tctxs.length (fun t => t.txid = w.env.id w.tick ∧ t.gxid = u.gxid ∧ t.xType = u.xType ∧
        t.serviceName = u.serviceName) v ∧ Holds q (· = u) v
      refine pc_bind (B := fun t v => t = u ∧ Holds w.tctxs.length (JustStarted (w.env.id w.tick) u.serviceName (normalizeIp u.remoteIp)) v ∧ Holds q (· = u) v)
        (pc_getT fun v t hv ht => ⟨?_, hv⟩) fun t => ?_
      · obtain ⟨t', ht', e⟩ := hv.2
        rw [ht] at ht'; exact (Option.some.inj ht').trans e
      have hmod : Pc (fun v => t = u ∧ Holds w.tctxs.length (JustStarted (w.env.id w.tick) u.serviceName (normalizeIp u.remoteIp)) v ∧ Holds q (· = u) v)
          (modT w.tctxs.length fun t' => { t' with inherit := true, gxid := t.gxid, xType := t.xType }) (fun _ => A) :=
        pc_modT fun v hv => ⟨hv.2.1.modT fun t' j => ⟨j.txid, by show t.gxid = _; rw [hv.1], by show t.xType = _; rw [hv.1], j.serviceName⟩, hv.2.2.modT_other hne⟩
      refine pc_bind hmod fun _ => ?_
      have hadd : Pc A (addNew w.tctxs.length 0 (.message (ascii "scouter inheritance step"))) (fun _ => A) :=
        pc_keep fun v hv => ⟨hv.1.same (core := startCore) (P := fun x => x.1 = w.env.id w.tick ∧ x.2.1 = u.gxid ∧ x.2.2.2.1 = u.xType ∧
          x.2.2.2.2.2.2.1 = u.serviceName) (same_addNew startCore_blind _ _ _ v),
          hv.2.same (core := fun t : Tctx => t) (P := fun t => t = u) (other_addNew hne _ _ v)⟩
      refine pc_bind hadd fun _ => ?_
      refine pc_bind (B := fun t v => t = u ∧ A v) (pc_getT fun v t hv ht => ⟨?_, hv⟩) fun t2 => ?_
      · obtain ⟨t', ht', e⟩ := hv.2
        rw [ht] at ht'; exact (Option.some.inj ht').trans e
      refine pc_bind (B := fun _ v => t2 = u ∧ A v) (pc_get fun v hv => hv) fun w0 => ?_
      refine pc_modT fun v hv => hv.2.1.modT fun t' j => ?_
      have e2 := hv.1
      subst e2
      exact ⟨j.1, rfl, j.2.1, j.2.2.1, rfl, j.2.2.2⟩
    exact main w1 ⟨hj, ho⟩ x w2 h2

/-- **C41**: a service started by inheritance has a transaction of its own called by the parent's, and takes over the
parent's global id, kind, name and error. -/
theorem C41_inherited_service_is_linked (env : Oracle) (conf : TraceConf) (cap : Nat) (cs : List Call) (hk : 1 ≤ conf.keep)
    (hb : 1 ≤ conf.bulk) (hwf : AllWellFormed (start env conf cap) cs) (q : Nat) (u : Tctx) :
    let w := history (start env conf cap) cs
    w.tctxs[q]? = some u → ∃ w' t, startInheritance (some q) w = (.ok (.traced w.tctxs.length), w') ∧
      w'.tctxs[w.tctxs.length]? = some t ∧ t.txid = env.id w.tick ∧ t.caller = u.txid ∧ t.gxid = u.gxid ∧ t.xType = u.xType ∧
      t.error = u.error ∧ t.serviceName = u.serviceName := by
  intro w hu
  have g := (Good.start env conf cap hk hb).history cs hwf
  have he : w.env = env := history_env _ cs
  obtain ⟨w', h1, t, ht, hi⟩ := run_startInheritance g hu
  exact ⟨w', t, h1, ht, by rw [hi.txid]; exact congrArg (fun e => Oracle.id e w.tick) he, hi.caller, hi.gxid, hi.xType, hi.error, hi.serviceName⟩

/-! ## Global ids of existing contexts -/

/-- A context with a global id keeps its links. -/
def KeepsLinks (p : Nat) (w w' : World) : Prop :=
  ∀ t, w.tctxs[p]? = some t → t.gxid ≠ 0 → ∃ t', w'.tctxs[p]? = some t' ∧ linkCore t' = linkCore t

theorem KeepsLinks.isPre (p : Nat) : IsPre (KeepsLinks p) where
  refl w := fun t h _ => ⟨t, h, rfl⟩
  trans h h' := fun t ht hg => by
    obtain ⟨t1, h1, e1⟩ := h t ht hg
    obtain ⟨t2, h2, e2⟩ := h' t1 h1 (by rw [show t1.gxid = t.gxid from congrArg (·.2.1) e1]; exact hg)
    exact ⟨t2, h2, e2.trans e1⟩

section
variable {p q : Nat} {α β : Type}

theorem kl_same {m : TM α} (h : Ev (Same linkCore p) m) : Ev (KeepsLinks p) m := fun w t ht _ => h w t ht
theorem kl_quiet {m : TM α} (h : Ev (Quiet linkCore) m) : Ev (KeepsLinks p) m := kl_same (same_of_quiet h)
theorem kl_bind {m : TM α} {f : α → TM β} (h : Ev (KeepsLinks p) m) (hf : ∀ a, Ev (KeepsLinks p) (f a)) : Ev (KeepsLinks p) (m >>= f) :=
  Ev.bind (KeepsLinks.isPre p) h hf

theorem kl_getT {f : Tctx → TM β} (h : ∀ t, (q = p → t.gxid ≠ 0) → Ev (KeepsLinks p) (f t)) : Ev (KeepsLinks p) (getT q >>= f) := by
  intro w
  cases hq : w.tctxs[q]? with
  | none =>
    have : getT q w = (.panic, w) := by simp [getT, hq]
    rw [TM.bind_def, this]
    exact (KeepsLinks.isPre p).refl w
  | some t =>
    rw [TM.bind_ok (getT_run hq)]
    intro t0 ht0 hg
    refine h t (fun e => ?_) w t0 ht0 hg
    subst e
    rw [hq] at ht0; cases ht0; exact hg

theorem kl_recovered (d : α) {m : TM α} (h : Ev (KeepsLinks p) m) : Ev (KeepsLinks p) (recovered d m) := by
  intro w
  unfold recovered
  have := h w
  split
  · rename_i heq; rw [heq] at this; exact this
  · rename_i w' heq; rw [heq] at this
    exact (KeepsLinks.isPre p).trans this
      (kl_quiet (quiet_bind (quiet_reading _) fun t => quiet_bind (quiet_sendAlert _ _ _) fun _ => quiet_pure _) w')

theorem kl_withTrace (c : Ctx) (d : α) (f : Nat → TM α) (h : ∀ q, Ev (KeepsLinks p) (f q)) : Ev (KeepsLinks p) (withTrace c d f) := by
  unfold withTrace
  refine kl_bind (kl_quiet quiet_get) fun v => ?_
  split
  · exact h _
  · exact kl_quiet (quiet_pure _)

theorem kl_startService_bind {n a : Bytes} {f : Nat → TM β} (h : ∀ x, x ≠ p → Ev (KeepsLinks p) (f x)) :
    Ev (KeepsLinks p) (startService n a >>= f) := by
  intro w t ht hg
  have hp : p < w.tctxs.length := (List.getElem?_eq_some_iff.mp ht).1
  obtain ⟨t1, h1, e1⟩ := same_startService (core := linkCore) (p := p) linkCore_deaf.toBlind n a w t ht
  rw [TM.bind_def]
  cases hs : startService n a w with
  | mk o w1 =>
    rw [hs] at h1
    cases o with
    | panic => exact ⟨t1, h1, e1⟩
    | ok x =>
      have := (startService_result hs).1
      obtain ⟨t2, h2, e2⟩ := h x (by omega) w1 t1 h1 (by rw [show t1.gxid = t.gxid from congrArg (·.2.1) e1]; exact hg)
      exact ⟨t2, h2, e2.trans e1⟩

end

/-- No call changes the transaction id, global id or caller of an existing context that has a global id. -/
theorem keepsLinks_call (p : Nat) (c : Call) : Ev (KeepsLinks p) c.code := by
  have D := linkCore_deaf
  have hc := D.toBlind
  by_cases hg : setsGxid c = false
  · exact kl_same (same_call D c (fun _ _ _ => rfl) (by rw [hg]; simp))
  · cases c <;> simp only [setsGxid, not_true] at hg
    case goWithTrace c n =>
      refine kl_bind (kl_recovered _ (kl_bind ?_ fun _ => kl_quiet (quiet_pure _))) fun _ => kl_quiet (quiet_pure _)
      refine kl_withTrace _ _ _ fun q => kl_bind (kl_quiet (quiet_getT _)) fun _ => kl_startService_bind fun x hx => ?_
      refine kl_getT fun parent hpar => kl_bind (kl_same (same_modT_other hx)) fun _ => ?_
      have hj : Ev (KeepsLinks p) (do
          let child ← getT x
          let now ← millisToNow parent.startTime
          let h ← Trace.sendText .apicall n
          addNew q now (.async child.txid h 0)
          return Ctx.traced x) :=
        kl_quiet (quiet_bind (quiet_getT _) fun child => quiet_bind (quiet_millisToNow _) fun now =>
          quiet_bind (quiet_sendText _ _) fun h => quiet_bind (quiet_addNew hc _ _ _) fun _ => quiet_pure _)
      by_cases h0 : parent.gxid = 0
      · rw [if_pos h0]
        have hq : q ≠ p := fun e => hpar e h0
        exact kl_bind (kl_same (same_modT_other hx)) fun _ => kl_bind (kl_same (same_modT_other hq)) fun _ => hj
      · rw [if_neg h0]
        exact hj
    case startApiCallProp c n a r =>
      refine kl_bind (kl_recovered _ (kl_withTrace _ _ _ fun q => kl_bind (kl_quiet (quiet_startApiCall0 hc _ _ _)) fun ptr =>
        kl_getT fun t ht => ?_)) fun _ => kl_quiet (quiet_pure _)
      have hj : Ev (KeepsLinks p) (do
          let t ← getT q
          let s ← getStep ptr
          let w ← get
          return (some ptr, if r then
            [(ascii "X-Scouter-Gxid", intToXlogString32 t.gxid),
             (ascii "X-Scouter-Caller", intToXlogString32 t.txid),
             (ascii "X-Scouter-Callee", intToXlogString32 (stepTxid s)),
             (ascii "X-Scouter-Caller-Obj", formatInt 10 w.conf.objHash.toInt)] else [])) :=
        kl_quiet (quiet_bind (quiet_getT _) fun _ => quiet_bind (quiet_getStep _) fun _ => quiet_bind quiet_get fun _ => quiet_pure _)
      by_cases h0 : t.gxid = 0
      · rw [if_pos h0]
        exact kl_bind (kl_same (same_modT_other fun e => ht e h0)) fun _ => hj
      · rw [if_neg h0]
        exact hj

/-! ## The lineage of all services -/

/-- Every service has a global id and is a root or linked to an earlier service. -/
def Linked (w : World) : Prop := ∀ (p : Nat) (t : Tctx), w.tctxs[p]? = some t → t.gxid ≠ 0 ∧
  ((t.caller = 0 ∧ t.gxid = t.txid) ∨ ∃ (q : Nat) (u : Tctx), q < p ∧ w.tctxs[q]? = some u ∧ t.caller = u.txid ∧ t.gxid = u.gxid)

theorem Linked.grow {w w' : World} (h : Linked w) (hk : ∀ p, KeepsLinks p w w')
    (hn : ∀ (p : Nat) t, w.tctxs.length ≤ p → w'.tctxs[p]? = some t → t.gxid ≠ 0 ∧
      ((t.caller = 0 ∧ t.gxid = t.txid) ∨ ∃ (q : Nat) (u : Tctx), w.tctxs[q]? = some u ∧ t.caller = u.txid ∧ t.gxid = u.gxid)) : Linked w' := by
  have old : ∀ (q : Nat) (u : Tctx), w.tctxs[q]? = some u → ∃ u', w'.tctxs[q]? = some u' ∧ u'.txid = u.txid ∧ u'.gxid = u.gxid ∧ u'.caller = u.caller := by
    intro q u hu
    obtain ⟨u', h1, h2⟩ := hk q u hu (h q u hu).1
    exact ⟨u', h1, congrArg (·.1) h2, congrArg (·.2.1) h2, congrArg (·.2.2) h2⟩
  intro p t ht
  by_cases hp : p < w.tctxs.length
  · obtain ⟨t0, ht0⟩ : ∃ t0, w.tctxs[p]? = some t0 := ⟨_, List.getElem?_eq_getElem hp⟩
    obtain ⟨t', h1, h2, h3, h4⟩ := old p t0 ht0
    rw [ht] at h1; cases h1
    rw [h2, h3, h4]
    obtain ⟨hg, hl⟩ := h p t0 ht0
    refine ⟨hg, hl.imp id ?_⟩
    rintro ⟨q, u, hq, hu, hc, hx⟩
    obtain ⟨u', k1, k2, k3, -⟩ := old q u hu
    exact ⟨q, u', hq, k1, by rw [k2]; exact hc, by rw [k3]; exact hx⟩
  · obtain ⟨hg, hl⟩ := hn p t (by omega) ht
    refine ⟨hg, hl.imp id ?_⟩
    rintro ⟨q, u, hu, hc, hx⟩
    have hq : q < w.tctxs.length := (List.getElem?_eq_some_iff.mp hu).1
    obtain ⟨u', k1, k2, k3, -⟩ := old q u hu
    exact ⟨q, u', by omega, k1, by rw [k2]; exact hc, by rw [k3]; exact hx⟩

theorem Ends.len {w w' : World} (e : Ends w w') : w'.tctxs.length = w.tctxs.length := by
  induction e with
  | quiet q => exact q.len
  | more e _ ih =>
    obtain ⟨p, id, l, m, -, h2, -⟩ := e.one
    have := congrArg List.length h2
    simp [services] at this
    omega

theorem Starts.len {w w' : World} (e : Starts w w') : w'.tctxs.length ≤ w.tctxs.length + 1 := by
  cases e with
  | quiet q => rw [q.len]; omega
  | one s =>
    obtain ⟨n, -, -, h3, -⟩ := s.fresh
    have := congrArg List.length h3
    simp [services] at this
    omega

/-- A core that shows nothing. -/
theorem unit_deaf : Deaf (fun _ : Tctx => ()) where
  col _ _ := rfl
  process _ _ _ := rfl
  sent _ _ _ _ := rfl
  isStream _ _ := rfl
  closed _ _ := rfl
  lastMethod _ _ := rfl
  serviceName _ _ := rfl
  serviceHash _ _ := rfl
  status _ _ := rfl
  startTime _ _ := rfl
  apicall _ _ _ := rfl
  texts _ _ _ _ _ _ _ _ := rfl

/-- The calls that may start a service. -/
def startsService : Call → Bool
  | .startHttpService .. | .startService .. | .startInheritance .. | .goWithTrace .. => true
  | _ => false

theorem drop_result {α : Type} (m : TM α) (w : World) : ((m >>= fun _ => pure ()) w).2 = (m w).2 := by
  rw [TM.bind_def]
  split
  · rename_i heq; rw [heq]; rfl
  · rename_i heq; rw [heq]

/-- Other calls make no context. -/
theorem perform_length (w : World) (c : Call) (h : startsService c = false) : (perform w c).tctxs.length = w.tctxs.length := by
  by_cases hm : movesServices c = false
  · exact (quiet_call unit_deaf c hm (fun _ _ _ => rfl) (fun _ _ _ => rfl) w).len
  · cases c <;> simp only [movesServices, startsService, not_true, reduceCtorEq] at hm h
    case endHttpService c s => exact (ends_endHttpService c s w).len
    case endService c => exact (ends_recovered () (ends_endAnyService c) w).len
    case activeCount o =>
      show ((Trace.getActiveCount o >>= fun _ => pure ()) w).2.tctxs.length = _
      rw [drop_result]
      exact (ends_getActiveCount o w).len
    case conf x => rfl

/-- A call makes at most one context. -/
theorem perform_length_le (w : World) (c : Call) : (perform w c).tctxs.length ≤ w.tctxs.length + 1 := by
  by_cases h : startsService c = false
  · rw [perform_length w c h]; omega
  · cases c <;> simp only [startsService, not_true] at h
    case startHttpService c r =>
      show ((Trace.startHttpService c r >>= fun _ => pure ()) w).2.tctxs.length ≤ _
      rw [drop_result]; exact (starts_startHttpService c r w).len
    case startService c n ip =>
      show ((Trace.startServiceApi c n ip >>= fun _ => pure ()) w).2.tctxs.length ≤ _
      rw [drop_result]; exact (starts_startServiceApi c n ip w).len
    case startInheritance q =>
      show ((Trace.startInheritance q >>= fun _ => pure ()) w).2.tctxs.length ≤ _
      rw [drop_result]; exact (starts_startInheritance q w).len
    case goWithTrace c n =>
      show ((Trace.goWithTrace c n >>= fun _ => pure ()) w).2.tctxs.length ≤ _
      rw [drop_result]; exact (starts_goWithTrace c n w).len

theorem Linked.call {w : World} (g : Good w) (h : Linked w) (c : Call) (hwf : WellFormed w c) (hid : NonzeroIds w.env (perform w c).tick)
    (htick : (perform w c).tctxs.length ≠ w.tctxs.length → w.tick < (perform w c).tick) :
    Linked (perform w c) := by
  refine h.grow (fun p => keepsLinks_call p c w) ?_
  intro p t hp ht
  have hlt : p < (perform w c).tctxs.length := (List.getElem?_eq_some_iff.mp ht).1
  have hle := perform_length_le w c
  have hpe : p = w.tctxs.length := by omega
  subst hpe
  have hid0 : w.env.id w.tick ≠ 0 := hid _ (htick (by omega))
  have stay : perform w c = w → False := fun e => by rw [e] at hlt; omega
  cases hs : startsService c with
  | false => rw [perform_length w c hs] at hlt; omega
  | true =>
    cases c <;> simp only [startsService, reduceCtorEq] at hs
    case startHttpService c r =>
      have e0 : perform w (.startHttpService c r) = (Trace.startHttpService c r w).2 := drop_result _ w
      obtain ⟨r, rfl⟩ : ∃ x, r = some x := by
        cases r with
        | none => exact absurd rfl hwf
        | some r => exact ⟨r, rfl⟩
      by_cases hn : c = .nil
      · subst hn; exact (stay (by rw [e0]; rfl)).elim
      · cases hc : traceOf w c with
        | some q =>
          refine (stay ?_).elim
          rw [e0]; unfold Trace.startHttpService; rw [if_neg hn, TM.get_bind, hc]; rfl
        | none =>
          obtain ⟨w', h1, t', ht', k1, k2, k3⟩ := run_startHttpService g hn hc r
          rw [e0, h1, ht'] at ht; cases ht
          exact ⟨by rw [k2]; exact hid0, .inl ⟨k3, k2.trans k1.symm⟩⟩
    case startService c n ip =>
      have e0 : perform w (.startService c n ip) = (Trace.startServiceApi c n ip w).2 := drop_result _ w
      cases hc : traceOf w c with
      | some q =>
        refine (stay ?_).elim
        rw [e0]; unfold Trace.startServiceApi; rw [TM.get_bind, hc]; rfl
      | none =>
        obtain ⟨w', h1, t', ht', k1, k2, k3, -⟩ := run_startServiceApi g hc n ip
        rw [e0, h1, ht'] at ht; cases ht
        exact ⟨by rw [k2]; exact hid0, .inl ⟨k3, k2.trans k1.symm⟩⟩
    case startInheritance q =>
      obtain ⟨q, rfl, hq⟩ := hwf
      have e0 : perform w (.startInheritance (some q)) = (Trace.startInheritance (some q) w).2 := drop_result _ w
      have hu : w.tctxs[q]? = some w.tctxs[q] := List.getElem?_eq_getElem hq
      obtain ⟨w', h1, t', ht', j⟩ := run_startInheritance g hu
      rw [e0, h1, ht'] at ht; cases ht
      exact ⟨by rw [j.gxid]; exact (h q _ hu).1, .inr ⟨q, _, hu, j.caller, j.gxid⟩⟩
    case goWithTrace c n =>
      have e0 : perform w (.goWithTrace c n) = (Trace.goWithTrace c n w).2 := drop_result _ w
      cases c with
      | nil => exact (stay (by rw [e0, (C44_results w .nil (.inl rfl) n n [] true).2.2.2.2.2.2])).elim
      | plain => exact (stay (by rw [e0, (C44_results w .plain (.inr rfl) n n [] true).2.2.2.2.2.2])).elim
      | traced q =>
        by_cases hq : q < w.tctxs.length
        · have hu : w.tctxs[q]? = some w.tctxs[q] := List.getElem?_eq_getElem hq
          obtain ⟨w', h1, ⟨t', ht', j⟩, -⟩ := run_startChild g hu (h q _ hu).1 n
          have e1 : Trace.goWithTrace (.traced q) n w = (.ok (some (.traced w.tctxs.length)), w') := recovered_ok (by rw [TM.bind_ok h1]; rfl)
          rw [e0, e1, ht'] at ht; cases ht
          exact ⟨by rw [j.gxid]; exact (h q _ hu).1, .inr ⟨q, _, hu, j.caller, j.gxid⟩⟩
        · refine (stay ?_).elim
          have hn : traceOf w (.traced q) = none := by simp [traceOf, hq]
          have : Trace.goWithTrace (.traced q) n w = (.ok (some (.traced q)), w) :=
            recovered_ok (by unfold startChild; rw [TM.bind_ok (withTrace_none hn _ _)]; rfl)
          rw [e0, this]

theorem tick_of_new (w : World) (c : Call) (h : (perform w c).tctxs.length ≠ w.tctxs.length) : w.tick < (perform w c).tick := by
  by_cases hc : ∃ x, c = .conf x
  · obtain ⟨x, rfl⟩ := hc; exact absurd rfl h
  · have hm := move_of_code c (fun x hx => hc ⟨x, hx⟩) w
    cases hm with
    | ends e => exact absurd e.len h
    | starts s =>
      cases s with
      | quiet q => exact absurd q.len h
      | one s => obtain ⟨n, h1, h2, -⟩ := s.fresh; exact Nat.lt_of_le_of_lt h1 h2

theorem Linked.history {w : World} (g : Good w) (h : Linked w) (cs : List Call) (hwf : AllWellFormed w cs)
    (hid : NonzeroIds w.env (history w cs).tick) : Linked (history w cs) := by
  induction cs generalizing w with
  | nil => exact h
  | cons c cs ih =>
    have he : (perform w c).env = w.env := exec_env w c
    refine ih (g.call c hwf.1) (h.call g c hwf.1 (fun i hi => hid i ?_) (tick_of_new w c)) hwf.2 (by rw [he]; exact hid)
    exact Nat.lt_of_lt_of_le hi (history_tick (perform w c) cs)

/-- **C41**: after any history, the global id of every service is the transaction id of the root it descends from, at
whatever depth. -/
theorem C41_global_id_is_the_root (env : Oracle) (conf : TraceConf) (cap : Nat) (cs : List Call) (hk : 1 ≤ conf.keep)
    (hb : 1 ≤ conf.bulk) (hwf : AllWellFormed (start env conf cap) cs) (p : Nat) (t : Tctx) :
    let w := history (start env conf cap) cs
    DistinctIds env w.tick → NonzeroIds env w.tick → w.tctxs[p]? = some t →
      (∃ r, Descends w p r) ∧ ∀ r u, Descends w p r → w.tctxs[r]? = some u → t.gxid = u.txid := by
  intro w hd hz ht
  have he : w.env = env := history_env _ cs
  have hl : Linked w := Linked.history (Good.start env conf cap hk hb) (by intro p t h; simp [Trace.start] at h) cs hwf hz
  have hL : Ledger w := Ledger.history cs hd (Ledger.start env conf cap)
  have uniq : ∀ (a b : Nat) (x y : Tctx), w.tctxs[a]? = some x → w.tctxs[b]? = some y → x.txid = y.txid → a = b := by
    intro a b x y ha hb hxy
    have hn := hL.ids
    have ea : ((services w).map (·.1))[a]? = some x.txid := by simp [services, ha, shownOf]
    have eb : ((services w).map (·.1))[b]? = some y.txid := by simp [services, hb, shownOf]
    rw [← hxy] at eb
    exact (List.getElem?_inj (List.getElem?_eq_some_iff.mp ea).1 hn).mp (ea.trans eb.symm)
  have txidne : ∀ (a : Nat) (x : Tctx), w.tctxs[a]? = some x → x.txid ≠ 0 := by
    intro a x hx
    have hm : (x.txid, x.closed) ∈ services w := by
      have := List.mem_of_getElem? hx
      simp only [services, List.mem_map]
      exact ⟨x, this, rfl⟩
    obtain ⟨n, h1, h2⟩ := hL.made _ hm
    simp only at h2
    rw [h2, he]
    exact hz n h1
  refine ⟨?_, ?_⟩
  · induction p using Nat.strongRecOn generalizing t with
    | _ p ih =>
      rcases (hl p t ht).2 with ⟨hc, -⟩ | ⟨q, u, hq, hu, hc, -⟩
      · exact ⟨p, .root ht hc⟩
      · obtain ⟨r, hr⟩ := ih q hq u hu
        exact ⟨r, .child ht hu hc hr⟩
  · intro r u hdsc hr
    induction hdsc generalizing t with
    | root h hc =>
      have e := Option.some.inj (ht.symm.trans h)
      subst e
      have e2 := Option.some.inj (ht.symm.trans hr)
      subst e2
      rcases (hl _ t ht).2 with ⟨-, h⟩ | ⟨q, v, hq, hv, hc', -⟩
      · exact h
      · rw [hc] at hc'; exact absurd hc'.symm (txidne q v hv)
    | child h h' hc hd ih =>
      rename_i a b r' x y
      have e := Option.some.inj (ht.symm.trans h)
      subst e
      rcases (hl _ t ht).2 with ⟨hc', -⟩ | ⟨q, v, hq, hv, hc', hg⟩
      · rw [hc'] at hc; exact absurd hc.symm (txidne _ _ h')
      · have : q = b := uniq q b v y hv h' (hc'.symm.trans hc)
        subst this
        rw [h'] at hv; cases hv
        rw [hg]
        exact ih y h' hr

/-- **C41**: the links of a service are settled when it starts: whatever is called afterwards, in whatever order, leaves its
transaction id, its global id and its caller as they were. -/
theorem C41_links_are_kept (env : Oracle) (conf : TraceConf) (cap : Nat) (cs later : List Call) (hk : 1 ≤ conf.keep)
    (hb : 1 ≤ conf.bulk) (hwf : AllWellFormed (start env conf cap) cs) (p : Nat) (t : Tctx)
    (hz : NonzeroIds env (history (start env conf cap) cs).tick) (ht : (history (start env conf cap) cs).tctxs[p]? = some t) :
    ∃ t', (history (start env conf cap) (cs ++ later)).tctxs[p]? = some t' ∧
      t'.txid = t.txid ∧ t'.gxid = t.gxid ∧ t'.caller = t.caller := by
  have hl : Linked (history (start env conf cap) cs) :=
    Linked.history (Good.start env conf cap hk hb) (by intro p t h; simp [Trace.start] at h) cs hwf hz
  have hg := (hl p t ht).1
  have e : history (start env conf cap) (cs ++ later) = history (history (start env conf cap) cs) later := by
    simp [history, List.foldl_append]
  rw [e]
  generalize history (start env conf cap) cs = w at ht
  clear hz hl hwf e
  induction later generalizing w t with
  | nil => exact ⟨t, ht, rfl, rfl, rfl⟩
  | cons c later ih =>
    obtain ⟨t1, h1, h2⟩ := keepsLinks_call p c w t ht hg
    have k1 : t1.txid = t.txid := congrArg (·.1) h2
    have k2 : t1.gxid = t.gxid := congrArg (·.2.1) h2
    have k3 : t1.caller = t.caller := congrArg (·.2.2) h2
    obtain ⟨t', h3, h4, h5, h6⟩ := ih t1 (by rw [k2]; exact hg) _ h1
    exact ⟨t', h3, h4.trans k1, h5.trans k2, h6.trans k3⟩

/-! ## Concrete cases -/

/-- A service, a goroutine of it, a goroutine of that one, and an inherited service of the last. -/
def Demo.family : List Call :=
  [.startService .plain (ascii "a") [], .goWithTrace (.traced 0) (ascii "g"), .goWithTrace (.traced 1) (ascii "h"), .startInheritance (some 2)]


example : AllWellFormed (start Demo.env Demo.conf 100) Demo.family := by
  refine ⟨trivial, trivial, trivial, ⟨2, rfl, ?_⟩, trivial⟩
  decide +kernel
example : (history (start Demo.env Demo.conf 100) Demo.family).tctxs.map (fun t => (t.txid, t.caller, t.gxid, t.xType)) =
    [(1, 0, 1, 1), (4, 1, 1, 4), (9, 4, 1, 4), (14, 9, 1, 4)] := by decide +kernel
example : NonzeroIds Demo.env 1000 := by
  intro i hi h
  have : (BitVec.ofNat 64 (i + 1)).toNat = 0 := congrArg BitVec.toNat h
  simp only [BitVec.toNat_ofNat] at this
  omega
example : (history (start Demo.env Demo.conf 100) Demo.family).tick < 1000 := by decide +kernel

end Scouter
