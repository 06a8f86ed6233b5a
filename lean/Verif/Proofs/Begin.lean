import Verif.Proofs.Recording
import Verif.Props.Conf
/-!
# Starting services, run
-/
namespace Scouter
open TM Trace

theorem normalizeIp_eq (s : Bytes) : normalizeIp s = beforeColon s := by
  unfold normalizeIp beforeColon
  obtain ⟨rest, h⟩ := Config.splitByte_head 58 s
  rw [h]; rfl

theorem joinComma_eq : ∀ vs, joinComma vs = [44].intercalate vs
  | [] => rfl
  | [v] => by simp [joinComma, List.intercalate]
  | v :: u :: vs => by
    rw [joinComma, joinComma_eq (u :: vs)]
    · simp [List.intercalate, List.intersperse]
    · simp

theorem trimSpace_eq (s : Bytes) : trimSpace s = trimmed s := by
  have e : (fun c : Byte => decide (c = 32 ∨ (9 ≤ c.toNat ∧ c.toNat ≤ 13))) = fun c => decide (c ∈ ([9, 10, 11, 12, 13, 32] : List Byte)) := by
    funext c
    revert c
    decide +kernel
  unfold trimSpace trimmed List.rdropWhile
  rw [e]

theorem requestLines_eq (conf : TraceConf) (r : Request) :
    requestLines conf r = headerMessages conf r ++ (if conf.queryEnabled then [ascii "query: " ++ r.rawQuery] else []) := by
  unfold requestLines headerMessages
  congr 1
  by_cases he : conf.headerEnabled = true
  · rw [if_pos he, if_pos he]
    by_cases hk : conf.headerKeys = []
    · rw [if_pos hk, if_neg (by simp [hk])]
      exact List.map_congr_left fun h _ => by obtain ⟨k, v⟩ := h; show _ = _ ++ joinComma v; rw [joinComma_eq]; rfl
    · rw [if_neg hk, if_pos (List.length_pos_iff.mpr hk)]
      generalize splitByte 44 conf.headerKeys = ks
      induction ks with
      | nil => rfl
      | cons k ks ih =>
        rw [List.filterMap_cons, List.filter_cons]
        simp only [trimSpace_eq, joinComma_eq] at ih ⊢
        by_cases hv : r.values (trimmed k) = []
        · simp only [hv, ne_eq, not_true_eq_false, decide_false, Bool.false_eq_true, if_false, List.length_nil, gt_iff_lt, Nat.lt_irrefl]
          exact ih
        · have := List.length_pos_iff.mpr hv
          simp only [this, if_true, hv, ne_eq, not_false_eq_true, decide_true, List.map_cons, headerLine]
          rw [← ih]; rfl
  · rw [if_neg he, if_neg he]

section
variable {w : World}

theorem begun_ctx (w : World) : (begun w).tctxs[w.tctxs.length]? = some (newborn w) := by simp [begun]

theorem Good.begun (g : Good w) : Good (begun w) := by
  refine ⟨g.keep, g.bulk, ?_, g.calm, ?_⟩
  · intro t ht
    rcases List.mem_append.mp ht with ht | ht
    · exact g.each t ht
    · rw [List.mem_singleton] at ht
      subst ht
      refine ⟨?_, rfl, fun _ => rfl, fun i hi => by simp [newborn] at hi⟩
      show 0 < w.conf.keep.toNat
      have := g.keep; omega
  · intro e he p hp
    have hl : (Scouter.begun w).tctxs.length = w.tctxs.length + 1 := by simp [Scouter.begun]
    rw [hl]
    rcases Cache.mem_of_add he with h | ⟨e', he', hv⟩
    · rw [hp] at h; cases h; omega
    · have := g.regs e' he' p (hv.trans hp); omega

/-- The context is made and registered. -/
theorem startService_begin (g : Good w) (name addr : Bytes) :
    startService name addr w = (startRest w.tctxs.length name addr >>= fun _ => pure w.tctxs.length) (begun w) := by
  have hcol : Collector.new w.conf.keep = some { cap := w.conf.keep.toNat } := by
    unfold Collector.new; rw [if_neg (by have := g.keep; omega)]
  have e1 := newTraceContext_run w
  rw [hcol] at e1
  unfold startService
  rw [TM.bind_ok e1]
  refine .trans (TM.bind_ok (a := ()) (w' := begun w) ?_) rfl
  unfold register
  refine .trans (TM.bind_ok (getT_run (t := newborn w) ?_)) rfl
  show (w.tctxs ++ [_])[w.tctxs.length]? = _
  simp [newborn, freshTctx]

theorem startService_run (g : Good w) (name addr : Bytes) :
    ∃ w' t', startService name addr w = (.ok w.tctxs.length, w') ∧ Good w' ∧
      Wrote w.tctxs.length (newborn w) t' (named w name addr) [(.service, name)] 1 (w.steps ++ stepsAt (newborn w) 0 [goroutineStep w])
        [w.steps.length] 0 (begun w) w' := by
  have c0 := begun_ctx w
  have g0 := g.begun
  have a1 := (Wrote.refl c0).andField (fun t => { t with gxid := t.txid }) rfl rfl rfl (.inr rfl) (by
    intro a b h
    show { a.sansProfile with gxid := a.sansProfile.txid } = { b.sansProfile with gxid := b.sansProfile.txid }
    rw [h])
  have g1 : Good { begun w with tctxs := (begun w).tctxs.set w.tctxs.length { newborn w with gxid := (newborn w).txid } } :=
    g0.set c0 fun g => ⟨g.room, g.count, g.all, g.ptrs⟩
  have c1 := a1.ctx c0
  have a2 := (a1.andTick (k := w.tick + 3) (Nat.le_succ _)).andField (fun t => { t with goid := w.env.goid (w.tick + 2) })
    rfl rfl rfl (.inr rfl) (by
      intro a b h
      show { a.sansProfile with goid := w.env.goid (w.tick + 2) } = { b.sansProfile with goid := w.env.goid (w.tick + 2) }
      rw [h])
  have c2 := a2.ctx c0
  have g2 := (g1.tick (w.tick + 3)).set (t' := { newborn w with gxid := (newborn w).txid, goid := w.env.goid (w.tick + 2) }) c1
    fun g => ⟨g.room, g.count, g.all, g.ptrs⟩
  obtain ⟨w3, t3, h3, g3, a3⟩ := addNew_run g2 c2 0 (.message (ascii "goroutine:" ++ formatInt 10 (w.env.goid (w.tick + 2))))
  have a3 := a2.trans a3 (fun _ => rfl) (.inl fun _ => rfl) (fun i hi => List.getElem?_append_left hi) (fun _ _ h => h)
  have c3 := a3.ctx c0
  have hsh : t3.serviceHash = (newborn w).serviceHash := by
    have : t3.sansProfile.serviceHash = (newborn w).sansProfile.serviceHash := by rw [a3.fields]; rfl
    exact this
  have a4 := (a3.andField (fun t => { t with serviceName := name }) rfl rfl rfl (.inr rfl) (by
      intro a b h
      show { a.sansProfile with serviceName := name } = { b.sansProfile with serviceName := name }
      rw [h])).andText .service name
  have c4 := a4.ctx c0
  have g4 := (g3.set (t' := { t3 with serviceName := name }) c3 fun g => ⟨g.room, g.count, g.all, g.ptrs⟩).text .service name
  have a5 := a4.andField (fun t => { t with serviceHash := textHash name, remoteIp := normalizeIp addr }) rfl rfl rfl (.inl hsh) (by
      intro a b h
      show { a.sansProfile with serviceHash := textHash name, remoteIp := normalizeIp addr } = { b.sansProfile with serviceHash := textHash name, remoteIp := normalizeIp addr }
      rw [h])
  have g5 := g4.set (t' := { t3 with serviceName := name, serviceHash := textHash name, remoteIp := normalizeIp addr }) c4
    fun g => ⟨g.room, g.count, g.all, g.ptrs⟩
  refine ⟨_, _, ?_, g5, a5.change ?_⟩
  · rw [startService_begin g]
    refine TM.bind_ok (a := ()) ?_
    unfold startRest
    refine .trans (TM.bind_ok (modT_run c0 _)) ?_
    rw [TM.reading_bind]
    refine .trans (TM.bind_ok (modT_run (by exact c1) _)) ?_
    refine .trans (TM.bind_ok h3) ?_
    refine .trans (TM.bind_ok (modT_run c3 _)) ?_
    refine .trans (TM.bind_ok (sendText_exact _ _ _)) ?_
    exact modT_run c4 _
  · show (named w name addr (newborn w)).sansProfile = _
    unfold named
    rw [← normalizeIp_eq]
    rfl

/-- Header and query steps, all begun at one reading of the clock. -/
theorem profileHttpHeaders_run {p : Nat} {t : Tctx} (g : Good w) (h : w.tctxs[p]? = some t) (r : Request) :
    ∃ w' t', profileHttpHeaders r p w = (.ok (), w') ∧ Good w' ∧ w.tick < w'.tick ∧
      Wrote p t t' id [] (requestLines w.conf r).length
        (w.steps ++ stepsAt t 0 ((requestLines w.conf r).map fun m => (sinceStart w t, .message m)))
        (List.range' w.steps.length (requestLines w.conf r).length) t.col.parentLevel w w' := by
  have hw1 := g.tick (w.tick + 1)
  obtain ⟨w1, t1, h1, g1, a1⟩ := addMessages_run (sinceStart w t) (headerMessages w.conf r) hw1 (p := p) (t := t) h
  have k1 : w.tick + 1 ≤ w1.tick := a1.tick
  have e : profileHttpHeaders r p w =
      (if w1.conf.queryEnabled then addNew p (sinceStart w t) (.message (ascii "query: " ++ r.rawQuery)) else pure ()) w1 := by
    unfold profileHttpHeaders
    rw [TM.bind_ok (getT_run h), TM.bind_ok (millisToNow_run _ _), TM.get_bind]
    refine .trans (TM.bind_ok h1) ?_
    rw [TM.get_bind]
    rfl
  rw [e, a1.conf]
  have el := requestLines_eq w.conf r
  show ∃ w' t', (if w.conf.queryEnabled = true then _ else _ : TM Unit) w1 = _ ∧ _
  by_cases hq : w.conf.queryEnabled = true
  · obtain ⟨w2, t2, h2, g2, a2⟩ := addNew_run g1 (a1.ctx h) (sinceStart w t) (.message (ascii "query: " ++ r.rawQuery))
    refine ⟨w2, t2, by rw [if_pos hq]; exact h2, g2, Nat.lt_of_lt_of_le k1 a2.tick, ?_⟩
    rw [el, if_pos hq]
    have a := (a1.trans a2 (fun _ => rfl) (.inl fun _ => rfl) (by
      intro i hi
      rw [a1.steps]
      exact List.getElem?_append_left hi) (fun _ _ h => h)).ticked (Nat.le_succ _)
    refine ⟨a.env, a.conf, a.tick, a.metered, a.registry, a.sampler, ?_, a.tctxs, a.fields, ?_, ?_, ?_, a.sent⟩
    · rw [a.steps, a1.steps, List.map_append, stepsAt_append, List.append_assoc, List.length_map, Nat.add_comm 0,
        ← stepsAt_shift a1.parentLevel a1.level]
      rfl
    · rw [a.level]; simp
    · rw [a.parentLevel, a1.parentLevel]
    · rw [a.recorded, a1.steps]
      simp [stepsAt_length, List.range'_concat]
  · refine ⟨w1, t1, by rw [if_neg hq]; rfl, g1, k1, ?_⟩
    rw [el, if_neg hq, List.append_nil]
    exact a1.ticked (Nat.le_succ _)

theorem startHttpRest_run {p : Nat} {t : Tctx} (g : Good w) (h : w.tctxs[p]? = some t) (r : Request) :
    ∃ w' t', startHttpRest r p w = (.ok (), w') ∧ Good w' ∧ w.tick < w'.tick ∧
      Wrote p t t' (fun t => { t with
          xType := 0, userAgent := textHash (r.header (ascii "User-Agent")), httpMethod := r.method
          referer := textHash (r.header (ascii "Referer")) })
        [(.userAgent, r.header (ascii "User-Agent")), (.referer, r.header (ascii "Referer"))] (requestLines w.conf r).length
        (w.steps ++ stepsAt t 0 ((requestLines w.conf r).map fun m => (sinceStart w t, .message m)))
        (List.range' w.steps.length (requestLines w.conf r).length) t.col.parentLevel w w' := by
  generalize hua : r.header (ascii "User-Agent") = ua
  generalize hrf : r.header (ascii "Referer") = rf
  have a1 := ((Wrote.refl h).andField (fun t => { t with xType := 0 }) rfl rfl rfl (.inr rfl) (by
      intro a b h
      show { a.sansProfile with xType := 0 } = { b.sansProfile with xType := 0 }
      rw [h])).andText .userAgent ua
  have c1 := a1.ctx h
  have a2 := (a1.andField (fun t => { t with userAgent := textHash ua, httpMethod := r.method }) rfl rfl rfl (.inr rfl) (by
      intro a b h
      show { a.sansProfile with userAgent := textHash ua, httpMethod := r.method } =
        { b.sansProfile with userAgent := textHash ua, httpMethod := r.method }
      rw [h])).andText .referer rf
  have c2 := a2.ctx h
  have a3 := a2.andField (fun t => { t with referer := textHash rf }) rfl rfl rfl (.inr rfl) (by
      intro a b h
      show { a.sansProfile with referer := textHash rf } = { b.sansProfile with referer := textHash rf }
      rw [h])
  have c3 := a3.ctx h
  have g1 := (g.set (t' := { t with xType := 0 }) h fun g => ⟨g.room, g.count, g.all, g.ptrs⟩).text .userAgent ua
  have g2 := (g1.set (t' := { t with xType := 0, userAgent := textHash ua, httpMethod := r.method }) c1
    fun g => ⟨g.room, g.count, g.all, g.ptrs⟩).text .referer rf
  have g3 := g2.set (t' := { t with xType := 0, userAgent := textHash ua, httpMethod := r.method, referer := textHash rf }) c2
    fun g => ⟨g.room, g.count, g.all, g.ptrs⟩
  obtain ⟨w4, t4, h4, g4, k4, a4⟩ := profileHttpHeaders_run g3 c3 r
  refine ⟨w4, t4, ?_, g4, k4, ?_⟩
  · unfold startHttpRest
    rw [hua, hrf]
    refine .trans (TM.bind_ok (modT_run h _)) ?_
    refine .trans (TM.bind_ok (sendText_exact _ _ _)) ?_
    refine .trans (TM.bind_ok (modT_run (by exact c1) _)) ?_
    refine .trans (TM.bind_ok (sendText_exact _ _ _)) ?_
    refine .trans (TM.bind_ok (modT_run (by exact c2) _)) ?_
    exact h4
  · have a := a3.trans a4 (fun _ => rfl) (.inl fun _ => rfl) (fun i hi => List.getElem?_append_left hi) (fun _ _ h => h)
    refine ⟨a.env, a.conf, a.tick, a.metered, a.registry, a.sampler, ?_, a.tctxs, a.fields, by rw [a.level, Nat.zero_add],
      a.parentLevel, a.recorded, a.sent⟩
    rw [a.steps]
    refine congrArg (w.steps ++ ·) ?_
    exact .trans (stepsAt_shift (t := t) (m := 0) (by rfl) (by simp) _ 0) rfl

/-- A whole http start. -/
theorem startHttp_run (g : Good w) {c : Ctx} (hn : c ≠ .nil) (hc : traceOf w c = none) (r : Request) :
    ∃ w' t' now, startHttpService c (some r) w = (.ok (.traced w.tctxs.length), w') ∧ Good w' ∧
      ReadDuring (newborn w) (begun w) w' now ∧
      Wrote w.tctxs.length (newborn w) t' (fun t => { named w (httpName r) (clientAddress w.conf r) t with
          xType := 0, userAgent := textHash (r.header (ascii "User-Agent")), httpMethod := r.method
          referer := textHash (r.header (ascii "Referer")) })
        [(.service, httpName r), (.userAgent, r.header (ascii "User-Agent")), (.referer, r.header (ascii "Referer"))]
        (1 + (requestLines w.conf r).length)
        (w.steps ++ stepsAt (newborn w) 0 (goroutineStep w :: (requestLines w.conf r).map fun m => (now, .message m)))
        (List.range' w.steps.length (1 + (requestLines w.conf r).length)) 0 (begun w) w' := by
  have hip : getRemoteIp w.conf r = clientAddress w.conf r := by
    unfold getRemoteIp clientAddress
    by_cases h1 : w.conf.ipHeaderKey = []
    · simp [h1]
    · by_cases h2 : r.header w.conf.ipHeaderKey = [] <;> simp [h1, h2]
  obtain ⟨w1, t1, h1, g1, a1⟩ := startService_run g (httpName r) (clientAddress w.conf r)
  have c1 := a1.ctx (begun_ctx w)
  obtain ⟨w2, t2, h2, g2, k2, a2⟩ := startHttpRest_run g1 c1 r
  have hst : t1.startTime = (newborn w).startTime := by
    have : t1.sansProfile.startTime = (newborn w).sansProfile.startTime := by rw [a1.fields]; rfl
    exact this
  have hcf : w1.conf = w.conf := a1.conf
  refine ⟨w2, t2, sinceStart w1 t1, ?_, g2, ⟨w1.tick, a1.tick, k2, ?_⟩, ?_⟩
  · unfold startHttpService
    rw [if_neg hn, TM.get_bind, hc]
    refine .trans (TM.bind_ok (a := some w.tctxs.length) (w' := w1) ?_) ?_
    · refine recovered_run (TM.bind_ok (a := w.tctxs.length) (w' := w1) ?_)
      show startService _ (getRemoteIp w.conf r) w = _
      rw [hip]
      exact h1
    · exact recovered_run (TM.bind_ok h2)
  · unfold sinceStart
    rw [hst, a1.env]
  · rw [hcf] at a2
    have a := a1.trans a2 (fun _ => rfl) (.inr fun _ => rfl) (by
      intro i hi
      rw [a1.steps]
      exact List.getElem?_append_left hi) (by
      intro a b h
      show { a.sansProfile with
          xType := 0, userAgent := textHash (r.header (ascii "User-Agent")), httpMethod := r.method
          referer := textHash (r.header (ascii "Referer")) } = { b.sansProfile with
          xType := 0, userAgent := textHash (r.header (ascii "User-Agent")), httpMethod := r.method
          referer := textHash (r.header (ascii "Referer")) }
      rw [h])
    refine ⟨a.env, a.conf, a.tick, a.metered, a.registry, a.sampler, ?_, a.tctxs, a.fields, a.level, ?_, ?_, a.sent⟩
    · rw [a.steps, a1.steps, List.append_assoc]
      congr 1
      show _ = stepsAt _ 0 ([goroutineStep w] ++ _)
      rw [stepsAt_append, stepsAt_shift (m := 1) a1.parentLevel a1.level]
      rfl
    · rw [a.parentLevel, a1.parentLevel]
    · rw [a.recorded, a1.steps]
      simp [stepsAt_length, Nat.add_comm 1, List.range'_succ]

theorem startServiceApi_run (g : Good w) {c : Ctx} (hc : traceOf w c = none) (name addr : Bytes) :
    ∃ w' t', startServiceApi c name addr w = (.ok (.traced w.tctxs.length), w') ∧ Good w' ∧
      Wrote w.tctxs.length (newborn w) t' (fun t => { named w name addr t with xType := 1 }) [(.service, name)] 1
        (w.steps ++ stepsAt (newborn w) 0 [goroutineStep w]) [w.steps.length] 0 (begun w) w' := by
  obtain ⟨w1, t1, h1, g1, a1⟩ := startService_run g name addr
  have c1 := a1.ctx (begun_ctx w)
  have a2 := a1.andField (fun t => { t with xType := 1 }) rfl rfl rfl (.inr rfl) (by
      intro a b h
      show { a.sansProfile with xType := 1 } = { b.sansProfile with xType := 1 }
      rw [h])
  refine ⟨_, _, ?_, ?_, a2⟩
  rotate_left
  · exact g1.set c1 fun g => ⟨g.room, g.count, g.all, g.ptrs⟩
  unfold startServiceApi
  rw [TM.get_bind, hc]
  refine recovered_run ?_
  refine .trans (TM.bind_ok h1) ?_
  exact TM.bind_ok (modT_run c1 _)

theorem inheritTctx_run {p q : Nat} {t u : Tctx} (hpq : q ≠ p) (g : Good w) (h : w.tctxs[p]? = some t) (hq : w.tctxs[q]? = some u) :
    ∃ w' t', inheritTctx p q w = (.ok (), w') ∧ Good w' ∧
      Wrote p t t' (inheriting u w.conf.objHash) [] 1
        (w.steps ++ [stepAt t 0 0 (.message (ascii "scouter inheritance step"))]) [w.steps.length] t.col.parentLevel w w' := by
  have a1 := (Wrote.refl h).andField (fun t => { t with inherit := true, gxid := u.gxid, xType := u.xType }) rfl rfl rfl (.inr rfl) (by
      intro a b h
      show { a.sansProfile with inherit := true, gxid := u.gxid, xType := u.xType } =
        { b.sansProfile with inherit := true, gxid := u.gxid, xType := u.xType }
      rw [h])
  have c1 := a1.ctx h
  have g1 := g.set (t' := { t with inherit := true, gxid := u.gxid, xType := u.xType }) h fun g => ⟨g.room, g.count, g.all, g.ptrs⟩
  obtain ⟨w2, t2, h2, g2, a2⟩ := addNew_run g1 c1 0 (.message (ascii "scouter inheritance step"))
  have c2 := a2.ctx c1
  have q2 : w2.tctxs[q]? = some u := by
    rw [a2.tctxs, List.getElem?_set_ne (Ne.symm hpq)]
    show (w.tctxs.set p _)[q]? = _
    rw [List.getElem?_set_ne (Ne.symm hpq), hq]
  have hcf : w2.conf = w.conf := a2.conf
  have a3 := (a1.trans a2 (fun _ => rfl) (.inl fun _ => rfl) (fun i hi => List.getElem?_append_left hi) (fun _ _ h => h)).andField
    (inheriting u w.conf.objHash) rfl rfl rfl (.inr rfl) (by
      intro a b h
      show inheriting u w.conf.objHash a.sansProfile = inheriting u w.conf.objHash b.sansProfile
      rw [h])
  refine ⟨_, _, ?_, ?_, a3.change rfl⟩
  rotate_left
  · exact g2.set c2 fun g => ⟨g.room, g.count, g.all, g.ptrs⟩
  unfold inheritTctx
  rw [TM.bind_ok (getT_run hq)]
  refine .trans (TM.bind_ok (modT_run h _)) ?_
  refine .trans (TM.bind_ok h2) ?_
  refine .trans (TM.bind_ok (getT_run q2)) ?_
  rw [TM.get_bind]
  refine .trans (modT_run c2 _) ?_
  rw [hcf]
  have e1 : t2.inherit = true := by
    have : t2.sansProfile.inherit = true := by rw [a2.fields]; rfl
    exact this
  have e2 : t2.gxid = u.gxid := by
    have : t2.sansProfile.gxid = u.gxid := by rw [a2.fields]; rfl
    exact this
  have e3 : t2.xType = u.xType := by
    have : t2.sansProfile.xType = u.xType := by rw [a2.fields]; rfl
    exact this
  unfold inheriting
  rw [← e1, ← e2, ← e3]

theorem startInheritance_run {q : Nat} {u : Tctx} (g : Good w) (hq : w.tctxs[q]? = some u) :
    ∃ w' t', startInheritance (some q) w = (.ok (.traced w.tctxs.length), w') ∧ Good w' ∧
      Wrote w.tctxs.length (newborn w) t' (fun t => inheriting u w.conf.objHash (named w u.serviceName u.remoteIp t))
        [(.service, u.serviceName)] 2
        (w.steps ++ stepsAt (newborn w) 0 [goroutineStep w, (0, .message (ascii "scouter inheritance step"))])
        [w.steps.length, w.steps.length + 1] 0 (begun w) w' := by
  obtain ⟨w1, t1, h1, g1, a1⟩ := startService_run g u.serviceName u.remoteIp
  have c1 := a1.ctx (begun_ctx w)
  have hlt := (List.getElem?_eq_some_iff.mp hq).1
  have q1 : w1.tctxs[q]? = some u := by
    rw [a1.tctxs, List.getElem?_set_ne (by omega)]
    show (w.tctxs ++ _)[q]? = _
    rw [List.getElem?_append_left hlt, hq]
  obtain ⟨w2, t2, h2, g2, a2⟩ := inheritTctx_run (by omega) g1 c1 q1
  have hcf : w1.conf = w.conf := a1.conf
  rw [hcf] at a2
  refine ⟨w2, t2, ?_, g2, ?_⟩
  · unfold startInheritance
    refine .trans (TM.bind_ok (a := some w.tctxs.length) (w' := w1) ?_) ?_
    · refine recovered_run ?_
      refine .trans (TM.bind_ok (getT_run hq)) ?_
      exact TM.bind_ok h1
    · exact recovered_run (TM.bind_ok h2)
  · have a := a1.trans a2 (fun _ => rfl) (.inr fun _ => rfl) (by
      intro i hi
      rw [a1.steps]
      exact List.getElem?_append_left hi) (by
      intro a b h
      show inheriting u w.conf.objHash a.sansProfile = inheriting u w.conf.objHash b.sansProfile
      rw [h])
    refine ⟨a.env, a.conf, a.tick, a.metered, a.registry, a.sampler, ?_, a.tctxs, a.fields, a.level, ?_, ?_, a.sent⟩
    · rw [a.steps, a1.steps, List.append_assoc]
      refine congrArg (w.steps ++ ·) ?_
      show _ = stepsAt _ 0 ([goroutineStep w] ++ [_])
      rw [stepsAt_append]
      refine congrArg (stepsAt (newborn w) 0 [goroutineStep w] ++ ·) ?_
      exact stepsAt_shift (m := 1) a1.parentLevel a1.level [(0, .message (ascii "scouter inheritance step"))] 0
    · rw [a.parentLevel, a1.parentLevel]
    · rw [a.recorded, a1.steps]
      simp [stepsAt_length]

/-- A child goroutine's service: first the child is begun, then the parent records it. -/
theorem startChild_run {q : Nat} {u : Tctx} (g : Good w) (hq : w.tctxs[q]? = some u) (name : Bytes) :
    ∃ w1 t1 w' u', startChild (.traced q) name w = (.ok (.traced w.tctxs.length), w') ∧ Good w' ∧
      Wrote w.tctxs.length (newborn w) t1
        (fun t => { named w name u.remoteIp t with xType := 4, caller := u.txid, gxid := groupOf u }) [(.service, name)] 1
        (w.steps ++ stepsAt (newborn w) 0 [goroutineStep w]) [w.steps.length] 0 (begun w) w1 ∧
      w1.tctxs[q]? = some u ∧
      Wrote q u u' (fun t => { t with gxid := groupOf t }) [(.apicall, name)] 1
        (w1.steps ++ [stepAt u 0 (sinceStart w1 u) (.async (newborn w).txid (textHash name) 0)]) [w1.steps.length]
        u.col.parentLevel w1 w' ∧ w1.tick < w'.tick := by
  obtain ⟨w1, t1, h1, g1, a1⟩ := startService_run g name u.remoteIp
  have c1 := a1.ctx (begun_ctx w)
  have hlt := (List.getElem?_eq_some_iff.mp hq).1
  have hne : w.tctxs.length ≠ q := by omega
  have q1 : w1.tctxs[q]? = some u := by
    rw [a1.tctxs, List.getElem?_set_ne hne]
    show (w.tctxs ++ _)[q]? = _
    rw [List.getElem?_append_left hlt, hq]
  have a2 := a1.andField (fun t => { t with xType := 4, caller := u.txid, gxid := groupOf u }) rfl rfl rfl (.inr rfl) (by
      intro a b h
      show { a.sansProfile with xType := 4, caller := u.txid, gxid := groupOf u } =
        { b.sansProfile with xType := 4, caller := u.txid, gxid := groupOf u }
      rw [h])
  have c2 := a2.ctx (begun_ctx w)
  have q2 : (w1.tctxs.set w.tctxs.length { t1 with xType := 4, caller := u.txid, gxid := groupOf u })[q]? = some u := by
    rw [List.getElem?_set_ne hne, q1]
  have g2 := g1.set (t' := { t1 with xType := 4, caller := u.txid, gxid := groupOf u }) c1 fun g => ⟨g.room, g.count, g.all, g.ptrs⟩
  have htx : t1.txid = (newborn w).txid := by
    have : t1.sansProfile.txid = (newborn w).sansProfile.txid := by rw [a1.fields]; rfl
    exact this
  have a3 := (((Wrote.refl
    (w := { w1 with tctxs := w1.tctxs.set w.tctxs.length { t1 with xType := 4, caller := u.txid, gxid := groupOf u } }) q2).andField
    (fun t => { t with gxid := groupOf t }) rfl rfl rfl (.inr rfl) (by
      intro a b h
      show { a.sansProfile with gxid := groupOf a.sansProfile } = { b.sansProfile with gxid := groupOf b.sansProfile }
      rw [h])).andTick (k := w1.tick + 1) (Nat.le_succ _)).andText .apicall name
  have q3 := a3.ctx q2
  have g3 := ((g2.set (t' := { u with gxid := groupOf u }) q2 fun g => ⟨g.room, g.count, g.all, g.ptrs⟩).tick (w1.tick + 1)).text .apicall name
  obtain ⟨w4, u4, h4, g4, a4⟩ := addNew_run g3 q3 (sinceStart w1 u) (.async (newborn w).txid (textHash name) 0)
  have a := a3.trans a4 (fun _ => rfl) (.inl fun _ => rfl) (fun i hi => List.getElem?_append_left hi) (fun _ _ h => h)
  refine ⟨_, _, w4, u4, ?_, g4, a2, q2, a, a4.tick⟩
  unfold startChild
  rw [withTrace_run (traceOf_traced hq), TM.bind_ok (getT_run hq), TM.bind_ok h1, TM.bind_ok (getT_run q1)]
  by_cases hz : u.gxid = 0
  · have hg : groupOf u = u.txid := by simp [groupOf, hz]
    refine .trans (TM.bind_ok (modT_run c1 _)) ?_
    rw [if_pos hz]
    refine .trans (TM.bind_ok (modT_run (by exact getElem?_set_self' c1) _)) ?_
    refine .trans (TM.bind_ok (modT_run (t := u) (by simp only [List.set_set]; rw [List.getElem?_set_ne hne]; exact q1) _)) ?_
    refine .trans (TM.bind_ok (getT_run (t := { t1 with xType := 4, caller := u.txid, gxid := groupOf u }) (by
      simp only [List.set_set]
      rw [List.getElem?_set_ne (Ne.symm hne), hg]
      exact getElem?_set_self' c1))) ?_
    refine .trans (TM.bind_ok (millisToNow_run _ _)) ?_
    refine .trans (TM.bind_ok (sendText_exact _ _ _)) ?_
    refine TM.bind_ok (a := ()) (w' := w4) ?_
    rw [← h4]
    simp only [List.set_set, hg, htx, hz, sinceStart]
  · have hg : groupOf u = u.gxid := if_neg hz
    refine .trans (TM.bind_ok (modT_run c1 _)) ?_
    rw [if_neg hz]
    refine .trans (TM.bind_ok (getT_run (t := { t1 with xType := 4, caller := u.txid, gxid := groupOf u }) (by
      rw [hg]
      exact getElem?_set_self' c1))) ?_
    refine .trans (TM.bind_ok (millisToNow_run _ _)) ?_
    refine .trans (TM.bind_ok (sendText_exact _ _ _)) ?_
    refine TM.bind_ok (a := ()) (w' := w4) ?_
    rw [← h4]
    simp only [hg, htx, sinceStart]
    have hs : (w1.tctxs.set w.tctxs.length { t1 with xType := 4, caller := u.txid, gxid := groupOf u }).set q { u with gxid := u.gxid } = _ :=
      set_self q2
    rw [hg] at hs
    simp only [htx] at hs
    rw [hs]

end
end Scouter
