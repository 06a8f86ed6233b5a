import Verif.Proofs.Safe
import Verif.Props.Services
/-! # C59, C60: no panic reaches the application; GoWithTrace runs its function -/
namespace Scouter
open TM Trace

/-! ## No panic escapes -/

/-- `m` never ends in a panic. -/
def Calm {α : Type} (m : TM α) : Prop := ∀ w, ∃ a w', m w = (.ok a, w')

theorem calm_pure {α : Type} (a : α) : Calm (pure a : TM α) := fun w => ⟨a, w, rfl⟩
theorem calm_get : Calm TM.get := fun w => ⟨w, w, rfl⟩
theorem calm_modT (p : Nat) (f : Tctx → Tctx) : Calm (modT p f) := fun w => ⟨(), _, rfl⟩

theorem calm_bind {α β : Type} {m : TM α} {f : α → TM β} (h : Calm m) (hf : ∀ a, Calm (f a)) : Calm (m >>= f) := by
  intro w
  obtain ⟨a, w1, h1⟩ := h w
  obtain ⟨b, w2, h2⟩ := hf a w1
  exact ⟨b, w2, by rw [TM.bind_ok h1]; exact h2⟩

theorem calm_sendAlert (l : BitVec 8) (t m : Bytes) : Calm (sendAlert l t m) := by
  intro w
  unfold sendAlert
  split
  · exact ⟨(), w, rfl⟩
  · exact ⟨(), _, rfl⟩

theorem calm_recovered {α : Type} (d : α) (m : TM α) : Calm (recovered d m) := by
  intro w
  unfold recovered
  split
  · rename_i a w' heq; exact ⟨a, w', rfl⟩
  · rename_i w' heq
    exact calm_bind (fun w => ⟨_, _, rfl⟩) (fun t => calm_bind (calm_sendAlert _ _ _) fun _ => calm_pure _) w'

theorem activeLoop_ok (now : Int) (ps : List Nat) : ∀ (w : World) (c : Nat) (a : Nat × Nat × Nat),
    (∀ p ∈ ps, p < w.tctxs.length) → ∃ r w', activeLoop now ps c a w = (.ok r, w') := by
  induction ps with
  | nil => intro w c a _; exact ⟨a, w, rfl⟩
  | cons p ps ih =>
    intro w c a h
    unfold activeLoop
    by_cases hc : c + 1 > 2000
    · rw [if_pos hc]; exact ⟨a, w, rfl⟩
    · rw [if_neg hc]
      have hp : p < w.tctxs.length := h p (by simp)
      rw [TM.bind_ok (getT_run (List.getElem?_eq_getElem hp)), TM.get_bind]
      simp only
      split
      · obtain ⟨u, w1, h1⟩ := calm_recovered () (do
          let w ← get
          if w.conf.stuckRemove then do
            let t ← getT p
            let now ← millisToNow t.startTime
            let h ← Trace.sendText .hashMessage (ascii "Service currently may running, not finished!")
            addNew p now (.pmessage h 0 3 (paramString []))
            let t ← getT p
            if t.error = 0 then do
              let e ← Trace.sendText .error (ascii "This stuck service currently may running, not finished!")
              modT p fun t => { t with error := e }
            else pure ()
            endTctx p
          else pure ()) w
        have h1 : endStuck p w = (.ok u, w1) := h1
        rw [TM.bind_ok h1]
        have hl : w1.tctxs.length = w.tctxs.length := by
          have e := ends_endStuck p w
          rw [h1] at e
          have gen : ∀ {a b : World}, Ends a b → b.tctxs.length = a.tctxs.length := by
            intro a b e
            induction e with
            | quiet q => exact q.len
            | more e _ ih =>
              obtain ⟨p, id, l, m, -, h2, -⟩ := e.one
              have := congrArg List.length h2
              simp [services] at this
              omega
          exact gen e
        rw [TM.bind_ok (getT_run (List.getElem?_eq_getElem (show p < w1.tctxs.length by omega))), TM.get_bind]
        obtain ⟨u2, w2, h2⟩ := calm_sendAlert (if w1.conf.stuckAlert then 2 else 1) (ascii "STUCK_SERVICE")
          (stuckMessage (w1.tctxs[p]'(by omega)) (activeElapsed now (w.tctxs[p]'hp).startTime)) w1
        rw [TM.bind_ok h2]
        have hl2 : w2.tctxs.length = w1.tctxs.length := by
          have := (quiet_sendAlert (core := shownOf) (if w1.conf.stuckAlert then 2 else 1) (ascii "STUCK_SERVICE")
            (stuckMessage (w1.tctxs[p]'(by omega)) (activeElapsed now (w.tctxs[p]'hp).startTime)) w1).len
          rw [h2] at this; exact this
        exact ih w2 _ _ (fun q hq => by have := h q (by simp [hq]); omega)
      · exact ih w _ _ (fun q hq => h q (by simp [hq]))

theorem mem_running {w : World} {p : Nat} (h : p ∈ running w) : p < w.tctxs.length := by
  have := (List.mem_filter.mp h).1
  simpa using this

/-- What the table of running services holds are services. -/
def Regs (w : World) : Prop := ∀ e ∈ w.registry.lst, ∀ p, e.value = some p → p < w.tctxs.length

theorem Regs.start (env : Oracle) (conf : TraceConf) (cap : Nat) : Regs (start env conf cap) := by
  simp [Regs, Trace.start, Cache.new]

theorem Regs.quiet {w w' : World} (h : Regs w) (q : Q w w') : Regs w' := by
  unfold Regs
  rw [q.registry, q.len]; exact h

theorem Regs.ends {w w' : World} (h : Regs w) (e : Ends w w') : Regs w' := by
  induction e with
  | quiet q => exact h.quiet q
  | more e _ ih =>
    refine ih ?_
    obtain ⟨p, id, l, m, -, h2, h3, -⟩ := e.one
    have hl := congrArg List.length h2
    simp only [services, List.length_map, List.length_set] at hl
    intro x hx q hq
    rw [hl]
    rw [h3] at hx
    exact h x (Cache.mem_of_remove hx) q hq

theorem Regs.starts {w w' : World} (h : Regs w) (s : Starts w w') : Regs w' := by
  cases s with
  | quiet q => exact h.quiet q
  | one s =>
    obtain ⟨n, -, -, h3, h4⟩ := s.fresh
    have hl := congrArg List.length h3
    simp only [services, List.length_map, List.length_append, List.length_singleton] at hl
    intro x hx q hq
    rw [h4] at hx
    rcases Cache.mem_of_add hx with hv | ⟨y, hy, hv⟩
    · rw [hv] at hq; cases hq; omega
    · have := h y hy q (hv ▸ hq); omega

theorem Regs.call {w : World} (h : Regs w) (c : Call) : Regs (perform w c) := by
  by_cases hc : ∃ x, c = .conf x
  · obtain ⟨x, rfl⟩ := hc; exact h
  · cases move_of_code c (fun x hx => hc ⟨x, hx⟩) w with
    | ends e => exact h.ends e
    | starts s => exact h.starts s

theorem Regs.history {w : World} (h : Regs w) (cs : List Call) : Regs (history w cs) := by
  induction cs generalizing w with
  | nil => exact h
  | cons c cs ih => exact ih (h.call c)

theorem Regs.values {w : World} (h : Regs w) (o : MapOrder (BitVec 64 × Nat)) : ∀ p ∈ w.registry.getValues o, p < w.tctxs.length := by
  intro p hp
  simp only [Cache.getValues, List.mem_filterMap] at hp
  obtain ⟨x, -, hx⟩ := hp
  cases hd : w.registry.deref x.2 with
  | none => rw [hd] at hx; simp at hx
  | some e =>
    rw [hd] at hx
    exact h e (List.mem_of_find?_eq_some hd) p hx

/-- The active services can be counted whenever the table holds services, in whatever configuration. -/
theorem Regs.active {w : World} (h : Regs w) (o : MapOrder (BitVec 64 × Nat)) :
    ∃ r, getActiveCount o w = (.ok r, perform w (.activeCount o)) := by
  obtain ⟨r, w', h1⟩ := activeLoop_ok (w.env.clock w.tick) (w.registry.getValues o) { w with tick := w.tick + 1 } 0 (0, 0, 0)
    (h.values o)
  have e : getActiveCount o w = (.ok r, w') := by
    unfold getActiveCount
    rw [TM.get_bind, TM.reading_bind]; exact h1
  refine ⟨r, ?_⟩
  show _ = (Outcome.ok r, ((getActiveCount o >>= fun _ => pure ()) w).2)
  rw [TM.bind_ok e, e]; rfl

theorem Regs.no_panic {w : World} (hr : Regs w) (c : Call) : ∃ w', c.code w = (.ok (), w') := by
  have drop : ∀ {α : Type} {m : TM α}, Calm m → ∀ w, ∃ w', (m >>= fun _ => pure ()) w = (Outcome.ok (), w') := by
    intro α m h w
    obtain ⟨a, w', h'⟩ := calm_bind h (fun _ => calm_pure ()) w
    exact ⟨w', h'⟩
  have rc : ∀ {m : TM Unit} (w : World), ∃ w', recovered () m w = (.ok (), w') := by
    intro m w
    obtain ⟨a, w', h'⟩ := calm_recovered () m w
    exact ⟨w', h'⟩
  cases c with
  | isStream c => exact drop (calm_recovered _ _) _
  | setAsStream c => exact drop (calm_recovered _ _) _
  | markAsError c m => exact rc _
  | markAsErrorForcibly c m => exact rc _
  | setServiceName c n => exact rc _
  | addStep c p => exact rc _
  | addMessageStep c m => exact rc _
  | addHashedMessageStep c m v e => exact rc _
  | addPMessageStep c l m e ps => exact rc _
  | startHttpService c r =>
    refine drop ?_ _
    unfold Trace.startHttpService
    intro w
    by_cases hc : c = .nil
    · rw [if_pos hc]; exact ⟨_, w, rfl⟩
    · rw [if_neg hc]
      refine calm_bind calm_get (fun v => ?_) w
      split
      · exact calm_pure _
      · refine calm_bind (calm_recovered _ _) fun p? => ?_
        split
        · exact calm_recovered _ _
        · exact calm_pure _
  | endHttpService c s => exact rc _
  | startService c n ip =>
    refine drop (calm_bind calm_get fun v => ?_) _
    split
    · exact calm_pure _
    · exact calm_recovered _ _
  | endService c => exact rc _
  | startInheritance q =>
    refine drop (calm_bind (calm_recovered _ _) fun p? => ?_) _
    split
    · exact calm_recovered _ _
    · exact calm_pure _
  | goWithTrace c n => exact drop (calm_recovered _ _) _
  | goBegin c =>
    obtain ⟨a, w', h⟩ : ∃ a w', Trace.goBegin c w = (.ok a, w') := by
      refine calm_bind calm_get (fun v => ?_) _
      split
      · exact calm_bind (fun w => ⟨_, _, rfl⟩) fun _ => calm_modT _ _
      · exact calm_pure _
    exact ⟨w', h⟩
  | startMethod c f ps => exact drop (calm_recovered _ _) _
  | startCustomMethod c n ps => exact drop (calm_recovered _ _) _
  | endMethod c p => exact rc _
  | startApiCall c n a => exact drop (calm_recovered _ _) _
  | startApiCallProp c n a r => exact drop (calm_recovered _ _) _
  | endApiCall c p e => exact rc _
  | activeCount o =>
    obtain ⟨r, h⟩ := hr.active o
    refine ⟨perform w (.activeCount o), ?_⟩
    show (getActiveCount o >>= fun _ => pure ()) w = _
    rw [TM.bind_ok h]; rfl
  | makeStep s => exact ⟨_, rfl⟩
  | setFields p l d t1 t2 t3 t4 t5 => exact ⟨_, rfl⟩
  | conf x => exact ⟨_, rfl⟩
  | samplerRun => exact ⟨_, rfl⟩
  | resetTexts o => exact ⟨_, rfl⟩
  | queue s => exact ⟨_, rfl⟩

/-- **C59**: whatever was called before, in whatever configurations, no call of the API lets a panic reach its caller. -/
theorem C59_no_panic_escapes (env : Oracle) (conf : TraceConf) (cap : Nat) (cs : List Call) (c : Call) :
    ∃ w', c.code (history (start env conf cap) cs) = (.ok (), w') :=
  ((Regs.start env conf cap).history cs).no_panic c

/-! ## With positive profile limits nothing panics in the first place -/

theorem safe_addPMessageStep {n k : Nat} (c : Ctx) (l : BitVec 8) (m : Bytes) (e : BitVec 32) (ps : List Bytes) :
    Safe n k (addPMessageStep c l m e ps) :=
  safe_recovered _ (safe_withTrace fun _ => safe_bind (safe_getT (by omega)) fun _ => safe_bind (safe_millisToNow _) fun _ =>
    safe_bind (safe_sendText _ _) fun _ => safe_addNew (by omega) _ _)

theorem safe_startMethod0 {n k p : Nat} (hp : p < n) (f m : Bytes) (ps : List (Option Bytes)) :
    Safe n k (startMethod0 p f m ps) :=
  safe_bind (safe_addParams hp _) fun _ => safe_bind (safe_modT fun _ _ g => ⟨g.room, g.count, g.all, g.ptrs⟩) fun _ =>
    safe_bind (safe_sendText _ _) fun _ => safe_bind (safe_getT hp) fun _ => safe_bind (safe_millisToNow _) fun _ =>
    safe_newStep_bind fun i _ => safe_bind (safe_profilePush hp (Nat.lt_succ_self i)) fun _ => safe_pure _

theorem safe_startHttpRest {n k p : Nat} (hp : p < n) (r : Request) : Safe n k (startHttpRest r p) :=
  safe_bind (safe_modT fun _ _ g => ⟨g.room, g.count, g.all, g.ptrs⟩) fun _ => safe_bind (safe_sendText _ _) fun _ =>
    safe_bind (safe_modT fun _ _ g => ⟨g.room, g.count, g.all, g.ptrs⟩) fun _ => safe_bind (safe_sendText _ _) fun _ =>
    safe_bind (safe_modT fun _ _ g => ⟨g.room, g.count, g.all, g.ptrs⟩) fun _ =>
    safe_bind (safe_getT hp) fun _ => safe_bind (safe_millisToNow _) fun _ => safe_bind safe_get fun _ =>
    safe_bind (safe_addMessages hp _ _) fun _ => safe_bind safe_get fun _ => safe_ite (safe_addNew hp _ _) (safe_pure _)

theorem safe_startHttpService {n k : Nat} (c : Ctx) (r : Option Request) (hr : r ≠ none) :
    Safe n k (startHttpService c r) := by
  unfold startHttpService
  refine safe_ite (safe_pure _) (safe_bind safe_get fun v => ?_)
  split
  · exact safe_pure _
  · cases r with
    | none => exact absurd rfl hr
    | some r =>
      intro w g hn hk
      obtain ⟨p?, w1, h1, g1, n1, k1⟩ := safe_recovered (n := n) (k := k) none
        (safe_bind (f := fun p => pure (some p)) (safe_startService (r.path ++ ascii "<" ++ r.method ++ ascii ">")
          (getRemoteIp v.conf r)) fun p => safe_pure (some p)) w g hn hk
      rw [TM.bind_ok h1]
      cases p? with
      | none => exact ⟨_, w1, rfl, g1, n1, k1⟩
      | some p =>
        have hp : p < w1.tctxs.length := by
          unfold recovered at h1
          rw [TM.bind_def] at h1
          cases hs : startService (r.path ++ ascii "<" ++ r.method ++ ascii ">") (getRemoteIp v.conf r) w with
          | mk o w' =>
            rw [hs] at h1
            cases o with
            | ok q =>
              have := startService_result hs
              simp at h1
              rw [← h1.2, ← h1.1]; omega
            | panic =>
              simp only at h1
              rw [TM.reading_bind] at h1
              obtain ⟨u, w2, h2⟩ := calm_sendAlert 3 (ascii "Panic") (w'.env.panicText w'.tick) { w' with tick := w'.tick + 1 }
              rw [TM.bind_ok h2] at h1
              simp at h1
        obtain ⟨b, w2, h2, g2, n2, k2⟩ := safe_recovered (n := p + 1) (k := k) (Ctx.traced p)
          (safe_bind (safe_startHttpRest (Nat.lt_succ_self p) r) fun _ => safe_pure (Ctx.traced p)) w1 g1 hp (by omega)
        exact ⟨b, w2, h2, g2, by omega, by omega⟩

theorem safe_startChild {n k : Nat} (c : Ctx) (nm : Bytes) : Safe n k (startChild c nm) := by
  refine safe_withTrace fun q => safe_bind (safe_getT (by omega)) fun parent => safe_startService_bind fun p hp => ?_
  refine safe_bind (safe_getT (by omega)) fun parent =>
    safe_bind (safe_modT fun _ _ g => ⟨g.room, g.count, g.all, g.ptrs⟩) fun _ => ?_
  have hj : Safe (p + 1) k (do
      let child ← getT p
      let now ← millisToNow parent.startTime
      let h ← Trace.sendText .apicall nm
      addNew q now (.async child.txid h 0)
      return Ctx.traced p) :=
    safe_bind (safe_getT (by omega)) fun _ => safe_bind (safe_millisToNow _) fun _ => safe_bind (safe_sendText _ _) fun _ =>
      safe_bind (safe_addNew (by omega) _ _) fun _ => safe_pure _
  exact safe_ite (safe_bind (safe_modT fun _ _ g => ⟨g.room, g.count, g.all, g.ptrs⟩) fun _ =>
    safe_bind (safe_modT fun _ _ g => ⟨g.room, g.count, g.all, g.ptrs⟩) fun _ => hj) hj

theorem safe_endStuck {n k p : Nat} (hp : p < n) : Safe n k (endStuck p) := by
  refine safe_recovered _ (safe_bind safe_get fun w => safe_ite ?_ (safe_pure _))
  refine safe_bind (safe_getT hp) fun _ => safe_bind (safe_millisToNow _) fun _ => safe_bind (safe_sendText _ _) fun _ =>
    safe_bind (safe_addNew hp _ _) fun _ => safe_bind (safe_getT hp) fun _ => safe_ite ?_ (safe_endTctx hp)
  exact safe_bind (safe_sendText _ _) fun _ => safe_bind (safe_modT fun _ _ g => ⟨g.room, g.count, g.all, g.ptrs⟩) fun _ =>
    safe_endTctx hp

theorem safe_activeLoop {n k : Nat} (now : Int) (ps : List Nat) (h : ∀ p ∈ ps, p < n) :
    ∀ c a, Safe n k (activeLoop now ps c a) := by
  induction ps with
  | nil => intro c a; exact safe_pure _
  | cons p ps ih =>
    intro c a
    unfold activeLoop
    have hp : p < n := h p (by simp)
    have ih := ih (fun q hq => h q (by simp [hq]))
    refine safe_ite (safe_pure _) (safe_bind (safe_getT hp) fun t => safe_bind safe_get fun w => ?_)
    exact safe_ite (safe_bind (safe_endStuck hp) fun _ => safe_bind (safe_getT hp) fun _ => safe_bind safe_get fun _ =>
      safe_bind (safe_sendAlert _ _ _ (by decide +kernel)) fun _ => ih _ _) (ih _ _)

theorem safe_startInheritance {n k q : Nat} (hq : q < n) : Safe n k (startInheritance (some q)) := by
  intro w g hn hk
  unfold startInheritance
  obtain ⟨t, ht⟩ : ∃ t, w.tctxs[q]? = some t := ⟨_, List.getElem?_eq_getElem (show q < w.tctxs.length by omega)⟩
  obtain ⟨p, w1, h1, g1, n1, k1⟩ := safe_startService (n := n) (k := k) t.serviceName t.remoteIp w g hn hk
  obtain ⟨hp, hl⟩ := startService_result h1
  have e : recovered none (do
      let t ← getT q
      let p ← startService t.serviceName t.remoteIp
      return some p) w = (.ok (some p), w1) := by
    unfold recovered
    rw [TM.bind_ok (getT_run ht), TM.bind_ok h1]
    rfl
  simp only
  rw [TM.bind_ok e]
  simp only
  have hs : Safe (p + 1) k (inheritTctx p q) :=
    safe_bind (safe_getT (by omega)) fun _ => safe_bind (safe_modT fun _ _ g => ⟨g.room, g.count, g.all, g.ptrs⟩) fun _ =>
      safe_bind (safe_addNew (by omega) _ _) fun _ => safe_bind (safe_getT (by omega)) fun _ => safe_bind safe_get fun _ =>
      safe_modT fun _ _ g => ⟨g.room, g.count, g.all, g.ptrs⟩
  obtain ⟨b, w2, h2, g2, n2, k2⟩ := safe_recovered (n := p + 1) (k := k) (Ctx.traced p)
    (safe_bind hs fun _ => safe_pure (Ctx.traced p)) w1 g1 (by omega) (by omega)
  exact ⟨b, w2, h2, g2, by omega, by omega⟩

theorem getValues_mem {c : Cache (BitVec 64) Nat} {o : MapOrder (BitVec 64 × Nat)} {p : Nat} (h : p ∈ c.getValues o) :
    ∃ e ∈ c.lst, e.value = some p := by
  unfold Cache.getValues at h
  obtain ⟨x, hx, he⟩ := List.mem_filterMap.mp h
  cases hd : c.deref x.2 with
  | none => rw [hd] at he; simp at he
  | some e =>
    rw [hd] at he
    exact ⟨e, List.mem_of_find?_eq_some hd, he⟩

/-- From a good world a well-formed call leads to a good world. -/
theorem Good.call {w : World} (g : Good w) (c : Call) (hc : WellFormed w c) : Good (perform w c) := by
  have of : ∀ {m : TM Unit}, Safe w.tctxs.length w.steps.length m → Good (m w).2 := by
    intro m h
    obtain ⟨a, w', h1, h2, -⟩ := h w g (Nat.le_refl _) (Nat.le_refl _)
    rw [h1]; exact h2
  have ofr : ∀ {α : Type} {m : TM α}, Safe w.tctxs.length w.steps.length m → Good ((m >>= fun _ => pure ()) w).2 :=
    fun h => of (safe_bind h fun _ => safe_pure ())
  cases c with
  | isStream c => exact ofr (safe_recovered _ (safe_withTrace fun _ => safe_bind (safe_getT (by omega)) fun _ => safe_pure _))
  | setAsStream c =>
    exact ofr (safe_recovered _ (safe_withTrace fun _ =>
      safe_bind (safe_modT fun _ _ g => ⟨g.room, g.count, g.all, g.ptrs⟩) fun _ => safe_pure _))
  | markAsError c m =>
    exact of (safe_recovered _ (safe_withTrace fun _ => safe_bind (safe_getT (by omega)) fun _ => safe_ite
      (safe_bind (safe_sendText _ _) fun _ => safe_bind (safe_modT fun _ _ g => ⟨g.room, g.count, g.all, g.ptrs⟩) fun _ =>
        safe_addPMessageStep _ _ _ _ _) (safe_addPMessageStep _ _ _ _ _)))
  | markAsErrorForcibly c m =>
    exact of (safe_recovered _ (safe_withTrace fun _ => safe_bind (safe_sendText _ _) fun _ =>
      safe_modT fun _ _ g => ⟨g.room, g.count, g.all, g.ptrs⟩))
  | setServiceName c m =>
    exact of (safe_recovered _ (safe_withTrace fun _ => safe_bind (safe_modT fun _ _ g => ⟨g.room, g.count, g.all, g.ptrs⟩)
      fun _ => safe_bind (safe_sendText _ _) fun _ => safe_modT fun _ _ g => ⟨g.room, g.count, g.all, g.ptrs⟩))
  | addStep c p =>
    obtain ⟨i, rfl, hi⟩ := hc
    exact of (safe_recovered _ (safe_withTrace fun q => safe_profileAdd (by omega) hi))
  | addMessageStep c m =>
    exact of (safe_recovered _ (safe_withTrace fun _ => safe_bind (safe_getT (by omega)) fun _ =>
      safe_bind (safe_millisToNow _) fun _ => safe_addNew (by omega) _ _))
  | addHashedMessageStep c m v e =>
    exact of (safe_recovered _ (safe_withTrace fun _ => safe_bind (safe_getT (by omega)) fun _ =>
      safe_bind (safe_sendText _ _) fun _ => safe_bind (safe_millisToNow _) fun _ => safe_addNew (by omega) _ _))
  | addPMessageStep c l m e ps => exact of (safe_addPMessageStep _ _ _ _ _)
  | startHttpService c r => exact ofr (safe_startHttpService c r hc)
  | endHttpService c s =>
    refine of (safe_recovered _ ?_)
    cases s with
    | none => exact safe_endAnyService c
    | some code =>
      exact safe_withTrace fun _ => safe_bind (safe_getT (by omega)) fun _ => safe_ite (safe_pure _)
        (safe_bind (safe_modT fun _ _ g => ⟨g.room, g.count, g.all, g.ptrs⟩) fun _ => safe_endAnyService c)
  | startService c n ip =>
    refine ofr (safe_bind safe_get fun v => ?_)
    split
    · exact safe_pure _
    · exact safe_recovered _ (safe_startService_bind fun p hp =>
        safe_bind (safe_modT fun _ _ g => ⟨g.room, g.count, g.all, g.ptrs⟩) fun _ => safe_pure _)
  | endService c => exact of (safe_recovered _ (safe_endAnyService c))
  | startInheritance q =>
    obtain ⟨i, rfl, hi⟩ := hc
    exact ofr (safe_startInheritance hi)
  | goWithTrace c n => exact ofr (safe_recovered _ (safe_bind (safe_startChild c n) fun _ => safe_pure _))
  | goBegin c =>
    exact of (safe_withTrace fun _ => safe_bind (safe_reading _) fun _ =>
      safe_modT fun _ _ g => ⟨g.room, g.count, g.all, g.ptrs⟩)
  | startMethod c f ps =>
    exact ofr (safe_recovered _ (safe_withTrace fun _ => safe_bind (safe_startMethod0 (by omega) _ _ _) fun _ => safe_pure _))
  | startCustomMethod c f ps =>
    exact ofr (safe_recovered _ (safe_withTrace fun _ => safe_bind (safe_startMethod0 (by omega) _ _ _) fun _ => safe_pure _))
  | endMethod c p =>
    refine of (safe_recovered _ ?_)
    cases p with
    | none => exact safe_pure _
    | some p =>
      have hp := hc p rfl
      exact safe_withTrace fun _ => safe_bind (safe_getT (by omega)) fun _ => safe_bind (safe_getStep hp) fun _ =>
        safe_bind (safe_millisToNow _) fun _ => safe_bind (safe_modStep _ _) fun _ => safe_profilePop (by omega) hp
  | startApiCall c n a =>
    refine ofr (safe_recovered _ (safe_withTrace fun q => ?_))
    refine safe_bind (safe_bind (safe_sendText _ _) fun _ => safe_bind (safe_getT (by omega)) fun _ =>
      safe_bind (safe_millisToNow _) fun _ => safe_bind (safe_reading _) fun _ => safe_newStep_bind fun i _ =>
      safe_bind (safe_profilePush (by omega) (Nat.lt_succ_self i)) fun _ => safe_pure _) fun _ => safe_pure _
  | startApiCallProp c n a r =>
    refine ofr (safe_recovered _ (safe_withTrace fun q => ?_))
    intro w' g' hn hk
    have hs0 : Safe (max w.tctxs.length (q + 1)) w.steps.length (startApiCall0 q n a) :=
      safe_bind (safe_sendText .apicall n) fun _ => safe_bind (safe_getT (by omega)) fun _ =>
      safe_bind (safe_millisToNow _) fun _ => safe_bind (safe_reading _) fun _ => safe_newStep_bind fun i _ =>
      safe_bind (safe_profilePush (by omega) (Nat.lt_succ_self i)) fun _ => safe_pure _
    obtain ⟨ptr, w1, h0, g1, n1, k1⟩ := hs0 w' g' hn hk
    have h1 := h0
    have hptr : ptr < w1.steps.length := by
      unfold startApiCall0 at h1
      obtain ⟨wa, ha, oa, -⟩ := sendText_run .apicall n w'
      rw [TM.bind_ok ha] at h1
      have hg : ∃ t, wa.tctxs[q]? = some t := ⟨_, List.getElem?_eq_getElem (by rw [oa.tctxs]; omega)⟩
      obtain ⟨t, ht⟩ := hg
      rw [TM.bind_ok (getT_run ht)] at h1
      have em : ∀ s (v : World), millisToNow s v = (.ok (millis s (v.env.clock v.tick)), { v with tick := v.tick + 1 }) := fun _ _ => rfl
      rw [TM.bind_ok (em _ _), TM.reading_bind] at h1
      have en : ∀ s (v : World), newStep s v = (.ok v.steps.length, { v with steps := v.steps ++ [s] }) := fun _ _ => rfl
      rw [TM.bind_ok (en _ _), TM.bind_def] at h1
      split at h1
      · rename_i u v heq
        have key : ∀ (x y : World) (p : Nat) (o : Outcome Unit), profilePush q p x = (o, y) → x.steps.length ≤ y.steps.length := by
          intro x y p o h
          have hl := (quiet_profilePush shownOf_blind q p x).steps
          rw [h] at hl; exact hl
        have hl := key _ _ _ _ heq
        have e1 : wa.steps.length = ptr ∧ v = w1 := by simpa using h1
        rw [← e1.1, ← e1.2]
        simp at hl
        omega
      · simp at h1
    rw [TM.bind_ok h0]
    obtain ⟨b, w2, h2, g2, n2, k2⟩ : ∃ b w2, (do
        let t ← getT q
        if t.gxid = 0 then modT q fun t => { t with gxid := t.txid } else pure ()
        let t ← getT q
        let s ← getStep ptr
        let w ← get
        return (some ptr, if r then
          [(ascii "X-Scouter-Gxid", intToXlogString32 t.gxid),
           (ascii "X-Scouter-Caller", intToXlogString32 t.txid),
           (ascii "X-Scouter-Callee", intToXlogString32 (stepTxid s)),
           (ascii "X-Scouter-Caller-Obj", formatInt 10 w.conf.objHash.toInt)] else []) : TM _) w1 = (.ok b, w2) ∧ Good w2 ∧
        w1.tctxs.length ≤ w2.tctxs.length ∧ w1.steps.length ≤ w2.steps.length := by
      refine (?_ : Safe (q + 1) (ptr + 1) _) w1 g1 (by omega) hptr
      have hj : Safe (q + 1) (ptr + 1) (do
          let t ← getT q
          let s ← getStep ptr
          let w ← get
          return (some ptr, if r then
            [(ascii "X-Scouter-Gxid", intToXlogString32 t.gxid),
             (ascii "X-Scouter-Caller", intToXlogString32 t.txid),
             (ascii "X-Scouter-Callee", intToXlogString32 (stepTxid s)),
             (ascii "X-Scouter-Caller-Obj", formatInt 10 w.conf.objHash.toInt)] else [])) :=
        safe_bind (safe_getT (by omega)) fun _ => safe_bind (safe_getStep (by omega)) fun _ => safe_bind safe_get fun _ => safe_pure _
      exact safe_bind (safe_getT (by omega)) fun _ => safe_ite
        (safe_bind (safe_modT fun _ _ g => ⟨g.room, g.count, g.all, g.ptrs⟩) fun _ => hj) hj
    exact ⟨b, w2, h2, g2, by omega, by omega⟩
  | endApiCall c p e =>
    refine of (safe_recovered _ ?_)
    cases p with
    | none => exact safe_pure _
    | some p =>
      have hp := hc p rfl
      refine safe_withTrace fun _ => safe_bind (safe_getT (by omega)) fun _ => safe_bind (safe_getStep hp) fun _ =>
        safe_bind (safe_millisToNow _) fun _ => safe_bind (safe_modStep _ _) fun _ =>
        safe_bind (safe_modT fun _ _ g => ⟨g.room, g.count, g.all, g.ptrs⟩) fun _ => ?_
      cases e with
      | none => exact safe_profilePop (by omega) hp
      | some m =>
        exact safe_bind (safe_sendText _ _) fun _ => safe_bind (safe_modStep _ _) fun _ =>
          safe_bind (safe_modT fun _ _ g => ⟨g.room, g.count, g.all, g.ptrs⟩) fun _ => safe_profilePop (by omega) hp
  | activeCount o =>
    refine ofr ?_
    intro w' g' hn hk
    have hs : Safe w'.tctxs.length w'.steps.length (do
        let now ← reading (·.clock)
        activeLoop now (w'.registry.getValues o) 0 (0, 0, 0)) := by
      refine safe_bind (safe_reading _) fun now => safe_activeLoop now _ (fun p hp => ?_) _ _
      obtain ⟨e, he, hv⟩ := getValues_mem hp
      exact g'.regs e he p hv
    exact hs w' g' (Nat.le_refl _) (Nat.le_refl _)
  | makeStep s => exact ofr (fun w g _ _ =>
      ⟨_, _, rfl, ⟨g.keep, g.bulk, fun t ht => (g.each t ht).mono (by simp), g.calm, g.regs⟩, Nat.le_refl _, by simp⟩)
  | setFields p l d t1 t2 t3 t4 t5 => exact of (safe_modT fun _ _ g => ⟨g.room, g.count, g.all, g.ptrs⟩)
  | conf x => exact ⟨hc.1, hc.2, g.each, g.calm, g.regs⟩
  | samplerRun => exact ⟨g.keep, g.bulk, g.each, g.calm, g.regs⟩
  | resetTexts o => exact ⟨g.keep, g.bulk, g.each, g.calm, g.regs⟩
  | queue s => exact ⟨g.keep, g.bulk, g.each, g.calm, g.regs⟩

theorem Good.history {w : World} (g : Good w) (cs : List Call) (h : AllWellFormed w cs) : Good (history w cs) := by
  induction cs generalizing w with
  | nil => exact g
  | cons c cs ih => exact ih (g.call c h.1) h.2

theorem Good.start (env : Oracle) (conf : TraceConf) (cap : Nat) (hk : 1 ≤ conf.keep) (hb : 1 ≤ conf.bulk) :
    Good (start env conf cap) where
  keep := hk
  bulk := hb
  each := by simp [Trace.start]
  calm := by intro a ha; simp [Trace.start, Proxy.init, alertsOf] at ha
  regs := by simp [Trace.start, Cache.new]

/-- **C59**: with positive profile limits and no nil arguments, no call ever panics: no panic alert is ever sent. -/
theorem C59_no_panic_at_all (env : Oracle) (conf : TraceConf) (cap : Nat) (cs : List Call) (hk : 1 ≤ conf.keep)
    (hb : 1 ≤ conf.bulk) (hwf : AllWellFormed (start env conf cap) cs) :
    ∀ a ∈ alertsOf (history (start env conf cap) cs).proxy.direct, a.title ≠ ascii "Panic" :=
  ((Good.start env conf cap hk hb).history cs hwf).calm

/-! ## GoWithTrace starts its goroutine -/

theorem recovered_ok {α : Type} {d a : α} {m : TM α} {w w' : World} (h : m w = (.ok a, w')) : recovered d m w = (.ok a, w') := by
  unfold recovered; rw [h]

/-- A new trace context when `c` is traced, `c` itself otherwise. -/
def childOf (w : World) (c : Ctx) : Ctx :=
  match traceOf w c with
  | some _ => .traced w.tctxs.length
  | none => c

/-- The context `startChild` returns: a new one for a traced context, the given one otherwise. -/
theorem startChild_result {c : Ctx} {nm : Bytes} {w w' : World} {c' : Ctx} (h : startChild c nm w = (.ok c', w')) :
    c' = childOf w c := by
  unfold startChild at h
  unfold childOf
  cases hc : traceOf w c with
  | none => rw [withTrace_none hc] at h; exact (Outcome.ok.inj (congrArg Prod.fst h)).symm
  | some q =>
      simp only
      rw [withTrace_run hc, TM.bind_def] at h
      split at h
      swap
      · simp at h
      rename_i t0 w0 h0
      have hw : w = w0 := by
        unfold getT at h0
        split at h0 <;> simp_all
      subst hw
      rw [TM.bind_def] at h
      split at h
      · rename_i p w1 h1
        have hp := (startService_result h1).1
        subst hp
        have bind : ∀ {β : Type} {m : TM β} {f : β → TM Ctx}, (∀ b v a v', f b v = (.ok a, v') → a = Ctx.traced w.tctxs.length) →
            ∀ v a v', (m >>= f) v = (.ok a, v') → a = Ctx.traced w.tctxs.length := by
          intro β m f hf v a v' e
          rw [TM.bind_def] at e
          split at e
          · exact hf _ _ _ _ e
          · simp at e
        have last : ∀ (b : Unit) v a v', (pure (Ctx.traced w.tctxs.length) : TM Ctx) v = (.ok a, v') → a = Ctx.traced w.tctxs.length := by
          intro _ v a v' e
          exact (Outcome.ok.inj (congrArg Prod.fst e)).symm
        have tail : ∀ (t : Tctx) v a v', (do
            let child ← getT w.tctxs.length
            let now ← millisToNow t.startTime
            let h ← Trace.sendText .apicall nm
            addNew q now (.async child.txid h 0)
            return Ctx.traced w.tctxs.length : TM Ctx) v = (.ok a, v') → a = Ctx.traced w.tctxs.length :=
          fun t => bind fun _ => bind fun _ => bind fun _ => bind last
        refine bind (fun parent => bind fun _ => ?_) _ _ _ h
        intro v a v' e
        split at e
        · exact bind (fun _ => bind fun _ => tail parent) _ _ _ e
        · exact tail parent _ _ _ e
      · simp at h

/-- **C60**: with positive profile limits, GoWithTrace always starts the goroutine that runs the caller's function, with
a new trace context when the caller's is traced and with the caller's own otherwise. -/
theorem C60_the_function_runs (env : Oracle) (conf : TraceConf) (cap : Nat) (cs : List Call) (hk : 1 ≤ conf.keep)
    (hb : 1 ≤ conf.bulk) (hwf : AllWellFormed (start env conf cap) cs) (c : Ctx) (name : Bytes) :
    ∃ w', goWithTrace c name (history (start env conf cap) cs) =
      (.ok (some (childOf (history (start env conf cap) cs) c)), w') := by
  have g := (Good.start env conf cap hk hb).history cs hwf
  generalize history (start env conf cap) cs = w at g
  obtain ⟨c', w', h, -⟩ := safe_startChild (n := 0) (k := 0) c name w g (by omega) (by omega)
  refine ⟨w', ?_⟩
  rw [← startChild_result h]
  exact recovered_ok (by rw [TM.bind_ok h]; rfl)

namespace Demo

/-- Calls with every argument a value: two services, a method, an api call, a goroutine. -/
def richCalls : List Call :=
  [.startHttpService .plain (some ⟨ascii "/a", ascii "GET", [], ascii "1.2.3.4:5", fun _ => [], []⟩), .startMethod (.traced 0) (ascii "f") [some (ascii "p")],
   .startApiCallProp (.traced 0) (ascii "api") [] true, .endApiCall (.traced 0) (some 2) (some (ascii "e")), .endMethod (.traced 0) (some 1),
   .goWithTrace (.traced 0) (ascii "g"), .goBegin (.traced 1), .endService (.traced 1), .endHttpService (.traced 0) (some 200)]

example : AllWellFormed (start env conf 100) richCalls := by
  refine ⟨by simp [WellFormed], trivial, trivial, ?_, ?_, trivial, trivial, trivial, trivial, trivial⟩
  · intro i hi; cases hi; decide +kernel
  · intro i hi; cases hi; decide +kernel

/-- The configuration with a profile buffer of no steps. -/
def noKeep : TraceConf := { conf with keep := 0 }

/-- **C60**, as found: with `profile_step_max_keep_in_memory_count = 0` recording the asynchronous step panics before the
`go` statement, the panic is recovered, and the caller's function is never run. -/
theorem C60_without_profile_buffer_the_function_is_lost :
    ∃ w', goWithTrace (.traced 0) (ascii "g") (history (start env noKeep 100) [.startService .plain (ascii "a") []]) = (.ok none, w') := by
  have h : (match (goWithTrace (.traced 0) (ascii "g") (history (start env noKeep 100) [.startService .plain (ascii "a") []])).1 with
    | .ok none => true
    | _ => false) = true := by decide +kernel
  split at h
  · rename_i e; exact ⟨_, Prod.ext e rfl⟩
  · cases h

end Demo
end Scouter
