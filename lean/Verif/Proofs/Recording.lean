import Verif.Proofs.Record
/-!
# The recording calls of the API, run
-/
namespace Scouter
open TM Trace

section
variable {w : World} {p : Nat} {t : Tctx}

theorem message_run (g : Good w) (h : w.tctxs[p]? = some t) (m : Bytes) :
    ∃ w' t', addMessageStep (.traced p) m w = (.ok (), w') ∧ Good w' ∧
      Wrote p t t' id [] 1 (w.steps ++ [stepAt t 0 (sinceStart w t) (.message m)]) [w.steps.length] t.col.parentLevel w w' := by
  obtain ⟨w', t', h1, g1, w1⟩ := addNew_run (g.tick (w.tick + 1)) h (sinceStart w t) (.message m)
  refine ⟨w', t', recovered_run ?_, g1, w1.ticked (Nat.le_succ _)⟩
  rw [withTrace_run (traceOf_traced h), TM.bind_ok (getT_run h), TM.bind_ok (millisToNow_run _ _)]
  exact h1

theorem hashed_run (g : Good w) (h : w.tctxs[p]? = some t) (m : Bytes) (value elapsed : BitVec 32) :
    ∃ w' t', addHashedMessageStep (.traced p) m value elapsed w = (.ok (), w') ∧ Good w' ∧
      Wrote p t t' id [(.hashMessage, m)] 1 (w.steps ++ [stepAt t 0 (sinceStart w t) (.hashed (textHash m) elapsed value)])
        [w.steps.length] t.col.parentLevel w w' := by
  obtain ⟨w', t', h1, g1, w1⟩ := addNew_run ((g.text .hashMessage m).tick (w.tick + 1)) h (sinceStart w t) (.hashed (textHash m) elapsed value)
  refine ⟨w', t', recovered_run ?_, g1,
    (Wrote.text h .hashMessage m).trans (w1.ticked (w := { w with proxy := (w.proxy.sendText .hashMessage m).1 }) (Nat.le_succ _)) (fun _ => rfl) ?_ ?_ ?_⟩
  · rw [withTrace_run (traceOf_traced h), TM.bind_ok (getT_run h), TM.bind_ok (sendText_exact _ _ _), TM.bind_ok (millisToNow_run _ _)]
    exact h1
  · exact .inl fun _ => rfl
  · intro i hi; exact List.getElem?_append_left hi
  · exact fun _ _ h => h

theorem pmessage_run (g : Good w) (h : w.tctxs[p]? = some t) (level : BitVec 8) (m : Bytes) (elapsed : BitVec 32) (params : List Bytes) :
    ∃ w' t', addPMessageStep (.traced p) level m elapsed params w = (.ok (), w') ∧ Good w' ∧
      Wrote p t t' id [(.hashMessage, m)] 1
        (w.steps ++ [stepAt t 0 (sinceStart w t) (.pmessage (textHash m) elapsed level (paramString params))])
        [w.steps.length] t.col.parentLevel w w' := by
  obtain ⟨w', t', h1, g1, w1⟩ := addNew_run ((g.tick (w.tick + 1)).text .hashMessage m) h (sinceStart w t)
    (.pmessage (textHash m) elapsed level (paramString params))
  refine ⟨w', t', recovered_run ?_, g1, ((Wrote.text (w := { w with tick := w.tick + 1 }) h .hashMessage m).trans w1 (fun _ => rfl) ?_ ?_ ?_).ticked (Nat.le_succ _)⟩
  · rw [withTrace_run (traceOf_traced h), TM.bind_ok (getT_run h), TM.bind_ok (millisToNow_run _ _), TM.bind_ok (sendText_exact _ _ _)]
    exact h1
  · exact .inl fun _ => rfl
  · intro i hi; exact List.getElem?_append_left hi
  · exact fun _ _ h => h

theorem addStep_run (g : Good w) (h : w.tctxs[p]? = some t) {i : Nat} {s : Step} (hs : w.steps[i]? = some s) :
    ∃ w' t', addStep (.traced p) (some i) w = (.ok (), w') ∧ Good w' ∧
      Wrote p t t' id [] 1 (w.steps.set i (stepAt t 0 s.ss.startTime s.body)) [i] t.col.parentLevel w w' := by
  obtain ⟨w', t', h1, g1, w1⟩ := profileAdd_run g h hs
  refine ⟨w', t', recovered_run ?_, g1, w1⟩
  rw [withTrace_run (traceOf_traced h)]
  exact h1

theorem markAsError_run (g : Good w) (h : w.tctxs[p]? = some t) (m : Bytes) :
    ∃ w' t', markAsError (.traced p) m w = (.ok (), w') ∧ Good w' ∧
      Wrote p t t' (fun t => { t with error := if t.error = 0 then textHash m else t.error })
        ((if t.error = 0 then [(.error, m)] else []) ++ [(.hashMessage, m)]) 1
        (w.steps ++ [stepAt t 0 (sinceStart w t) (.pmessage (textHash m) 0 3 [])])
        [w.steps.length] t.col.parentLevel w w' := by
  by_cases he : t.error = 0
  · have h1 := (Wrote.text h .error m).andField (fun t => { t with error := textHash m }) rfl rfl rfl (.inr rfl) (by
        intro a b h
        show { a.sansProfile with error := textHash m } = { b.sansProfile with error := textHash m }
        rw [h])
    have hg : Good { w with proxy := (w.proxy.sendText .error m).1, tctxs := w.tctxs.set p { t with error := textHash m } } :=
      (g.text .error m).set h fun g => ⟨g.room, g.count, g.all, g.ptrs⟩
    obtain ⟨w', t', h2, g2, w2⟩ := pmessage_run hg (p := p) (t := { t with error := textHash m }) (getElem?_set_self' h) 3 m 0 []
    refine ⟨w', t', recovered_run ?_, g2, ?_⟩
    · rw [withTrace_run (traceOf_traced h), TM.bind_ok (getT_run h), if_pos he]
      exact (TM.bind_ok (sendText_exact _ _ _)).trans
        ((TM.bind_ok (modT_run (w := { w with proxy := (w.proxy.sendText .error m).1 }) h _)).trans h2)
    · rw [if_pos he]
      exact (h1.trans w2 (fun _ => rfl) (.inl fun _ => rfl) (fun i hi => List.getElem?_append_left hi) (fun _ _ h => h)).change
        (by simp [he])
  · obtain ⟨w', t', h2, g2, w2⟩ := pmessage_run g h 3 m 0 []
    refine ⟨w', t', recovered_run ?_, g2, ?_⟩
    · rw [withTrace_run (traceOf_traced h), TM.bind_ok (getT_run h), if_neg he]
      exact h2
    · rw [if_neg he]
      exact w2.change (by simp [Tctx.sansProfile]; intro h0; exact absurd h0 he)

theorem startMethod0_run (g : Good w) (h : w.tctxs[p]? = some t) (funcName methodName : Bytes) (params : List (Option Bytes)) :
    ∃ w' t' xs start, startMethod0 p funcName methodName params w = (.ok (w.steps.length + xs.length), w') ∧ Good w' ∧
      xs.map (·.2) = (params.filterMap id).map (fun s => StepBody.message (ascii "param: " ++ s)) ∧
      (∀ x ∈ xs, ReadDuring t w w' x.1) ∧ ReadDuring t w w' start ∧
      Wrote p t t' (fun t => { t with lastMethod := funcName }) [(.method, methodName)] (xs.length + 1)
        (w.steps ++ stepsAt t 0 (xs ++ [(start, .method (textHash methodName) 0 0)])) (List.range' w.steps.length xs.length)
        (t.col.currentLevel + BitVec.ofNat 32 xs.length) w w' := by
  obtain ⟨w1, t1, xs, h1, g1, hx, hr, a1⟩ := addParams_run params g h
  have a2 := a1.andField (fun t => { t with lastMethod := funcName }) rfl rfl rfl (.inr rfl) (by
        intro a b h
        show { a.sansProfile with lastMethod := funcName } = { b.sansProfile with lastMethod := funcName }
        rw [h])
  have c1 := a1.ctx h
  have g2 : Good { w1 with tctxs := w1.tctxs.set p { t1 with lastMethod := funcName } } := g1.set c1 fun g => ⟨g.room, g.count, g.all, g.ptrs⟩
  have c2 : (w1.tctxs.set p { t1 with lastMethod := funcName })[p]? = some { t1 with lastMethod := funcName } := getElem?_set_self' c1
  have a3 := (a2.andText .method methodName).andTick (k := w1.tick + 1) (Nat.le_succ _)
  have g3 := (g2.text .method methodName).tick (w1.tick + 1)
  obtain ⟨w4, t4, h4, g4, k4, a4⟩ := newPush_run (t := { t1 with lastMethod := funcName }) g3 c2 (sinceStart w1 t1) (.method (textHash methodName) 0 0)
    (fun i => pure i)
  have hst : t1.startTime = t.startTime := a1.startTime
  have k4 : w4.tick = w1.tick + 1 := k4
  refine ⟨w4, t4, xs, sinceStart w1 t1, ?_, g4, hx, ?_, ?_, ?_⟩
  · unfold startMethod0
    rw [TM.bind_ok h1, TM.bind_ok (modT_run c1 _), TM.bind_ok (sendText_exact _ _ _)]
    refine .trans (TM.bind_ok (getT_run (t := { t1 with lastMethod := funcName }) (by exact c2))) ?_
    rw [TM.bind_ok (millisToNow_run _ _)]
    have e : w.steps.length + xs.length = w1.steps.length := by rw [a1.steps]; simp [stepsAt_length]
    rw [e]
    exact h4
  · intro x hxm
    refine (hr x hxm).longer (by rw [k4]; exact Nat.le_succ _)
  · refine ⟨w1.tick, a1.tick, by rw [k4]; exact Nat.lt_succ_self _, ?_⟩
    show millis t1.startTime (w1.env.clock w1.tick) = _
    rw [hst, a1.env]
  · have a := a3.trans a4 (fun _ => rfl) (.inl fun _ => rfl) (by
      intro i hi
      show (w1.steps ++ _)[i]? = _
      rw [a1.steps]
      exact List.getElem?_append_left hi) (fun _ _ h => h)
    refine ⟨a.env, a.conf, a.tick, a.metered, a.registry, a.sampler, ?_, a.tctxs, a.fields, a.level, ?_, ?_, a.sent⟩
    · rw [a.steps, stepsAt_append, ← List.append_assoc, ← a1.steps, Nat.add_comm 0,
        ← stepsAt_shift a1.parentLevel a1.level [(sinceStart w1 t1, .method (textHash methodName) 0 0)] 0]
      rfl
    · rw [a.parentLevel]; exact a1.level
    · rw [a.recorded]; simp

theorem startApiCall0_run (g : Good w) (h : w.tctxs[p]? = some t) (name address : Bytes) :
    ∃ w' t', startApiCall0 p name address w = (.ok w.steps.length, w') ∧ Good w' ∧
      Wrote p t t' id [(.apicall, name)] 1
        (w.steps ++ [stepAt t 0 (sinceStart w t)
          (.apicall (w.env.id (w.tick + 1)) (textHash name) 0 0 0 (if address ≠ [] then 1 else 0) address)])
        [] t.col.currentLevel w w' := by
  have a3 := (Wrote.text h .apicall name).andTick (k := w.tick + 2) (Nat.le_add_right _ _)
  have g3 := (g.text .apicall name).tick (w.tick + 2)
  obtain ⟨w4, t4, h4, g4, k4, a4⟩ := newPush_run (t := t) g3 h (sinceStart w t)
    (.apicall (w.env.id (w.tick + 1)) (textHash name) 0 0 0 (if address ≠ [] then 1 else 0) address) (fun i => pure i)
  refine ⟨w4, t4, ?_, g4, ?_⟩
  · unfold startApiCall0
    rw [TM.bind_ok (sendText_exact _ _ _)]
    refine .trans (TM.bind_ok (getT_run (t := t) (by exact h))) ?_
    rw [TM.bind_ok (millisToNow_run _ _), TM.reading_bind]
    exact h4
  · exact a3.trans a4 (fun _ => rfl) (.inl fun _ => rfl) (fun i hi => List.getElem?_append_left hi) (fun _ _ h => h)

theorem endMethod_run (g : Good w) (h : w.tctxs[p]? = some t) {i : Nat} {ss : SingleStep} {hash e cpu : BitVec 32}
    (hs : w.steps[i]? = some ⟨ss, .method hash e cpu⟩) :
    ∃ w' t', endMethod (.traced p) (some i) w = (.ok (), w') ∧ Good w' ∧
      Wrote p t t' id [] 0 (w.steps.set i ⟨ss, .method hash (sinceStart w t - ss.startTime) cpu⟩) [i] ss.parent w w' := by
  have hs1 : ({ w with tick := w.tick + 1 } : World).steps[i]? = some ⟨ss, .method hash e cpu⟩ := hs
  obtain ⟨w', t', h1, g1, a1⟩ := profilePop_run (p := p) (ptr := i)
    (w := { w with tick := w.tick + 1, steps := w.steps.set i ⟨ss, .method hash (sinceStart w t - ss.startTime) cpu⟩ })
    (g.tick (w.tick + 1)).setStep h (getElem?_set_self' hs)
  refine ⟨w', t', recovered_run ?_, g1, ?_⟩
  · simp only
    rw [withTrace_run (traceOf_traced h), TM.bind_ok (getT_run h), TM.bind_ok (getStep_run hs), TM.bind_ok (millisToNow_run _ _),
      TM.bind_ok (modStep_run hs1 _)]
    exact h1
  · exact ⟨a1.env, a1.conf, Nat.le_trans (Nat.le_succ _) a1.tick, a1.metered, a1.registry, a1.sampler, a1.steps, a1.tctxs, a1.fields, a1.level,
      a1.parentLevel, a1.recorded, a1.sent⟩

theorem endApiCall_run (g : Good w) (h : w.tctxs[p]? = some t) {i : Nat} {ss : SingleStep} {txid : BitVec 64}
    {hash e cpu er : BitVec 32} {opt : BitVec 8} {addr : Bytes}
    (hs : w.steps[i]? = some ⟨ss, .apicall txid hash e cpu er opt addr⟩) (err : Option Bytes) :
    ∃ w' t', endApiCall (.traced p) (some i) err w = (.ok (), w') ∧ Good w' ∧
      Wrote p t t' (afterApiCall (sinceStart w t - ss.startTime) err) (match err with | some m => [(.error, m)] | none => []) 0
        (w.steps.set i ⟨ss, .apicall txid hash (sinceStart w t - ss.startTime) cpu
          (match err with | some m => textHash m | none => er) opt addr⟩) [i] ss.parent w w' := by
  have hi := (List.getElem?_eq_some_iff.mp hs).1
  cases err with
  | none =>
    obtain ⟨w', t', h1, g1, a1⟩ := profilePop_run (p := p) (ptr := i)
      (w := { w with
        tick := w.tick + 1, steps := w.steps.set i ⟨ss, .apicall txid hash (sinceStart w t - ss.startTime) cpu er opt addr⟩
        tctxs := w.tctxs.set p (afterApiCall (sinceStart w t - ss.startTime) none t) })
      ((g.tick (w.tick + 1)).setStep.set h fun g => ⟨g.room, g.count, g.all, g.ptrs⟩) (getElem?_set_self' h) (getElem?_set_self' hs)
    refine ⟨w', t', recovered_run ?_, g1, ?_⟩
    · simp only
      rw [withTrace_run (traceOf_traced h), TM.bind_ok (getT_run h), TM.bind_ok (getStep_run hs), TM.bind_ok (millisToNow_run _ _),
        TM.bind_ok (modStep_run (w := { w with tick := w.tick + 1 }) hs _)]
      refine .trans (TM.bind_ok (modT_run (t := t) (by exact h) _)) ?_
      exact h1
    · refine ⟨a1.env, a1.conf, Nat.le_trans (Nat.le_succ _) a1.tick, a1.metered, a1.registry, a1.sampler, a1.steps, ?_, a1.fields, a1.level,
        a1.parentLevel, a1.recorded, ?_⟩
      · rw [a1.tctxs]; exact List.set_set ..
      · obtain ⟨ss, ps, s1, s2, s3, s4⟩ := a1.sent
        exact ⟨ss, ps, s1, s2, s3, s4⟩
  | some m =>
    obtain ⟨w', t', h1, g1, a1⟩ := profilePop_run (p := p) (ptr := i)
      (w := { w with
        tick := w.tick + 1, steps := w.steps.set i ⟨ss, .apicall txid hash (sinceStart w t - ss.startTime) cpu (textHash m) opt addr⟩
        tctxs := w.tctxs.set p (afterApiCall (sinceStart w t - ss.startTime) (some m) t)
        proxy := (w.proxy.sendText .error m).1 })
      (((g.text .error m).tick (w.tick + 1)).setStep.set h fun g => ⟨g.room, g.count, g.all, g.ptrs⟩) (getElem?_set_self' h) (getElem?_set_self' hs)
    refine ⟨w', t', recovered_run ?_, g1, ?_⟩
    · simp only
      rw [withTrace_run (traceOf_traced h), TM.bind_ok (getT_run h), TM.bind_ok (getStep_run hs), TM.bind_ok (millisToNow_run _ _),
        TM.bind_ok (modStep_run (w := { w with tick := w.tick + 1 }) hs _)]
      refine .trans (TM.bind_ok (modT_run (t := t) (by exact h) _)) ?_
      refine .trans (TM.bind_ok (sendText_exact _ _ _)) ?_
      refine .trans (TM.bind_ok (modStep_run (by exact getElem?_set_self' hs) _)) ?_
      refine .trans (TM.bind_ok (modT_run (by exact getElem?_set_self' h) _)) ?_
      simp only [List.set_set]
      exact h1
    · refine ⟨a1.env, a1.conf, Nat.le_trans (Nat.le_succ _) a1.tick, a1.metered, a1.registry, a1.sampler, a1.steps, ?_, a1.fields, a1.level,
        a1.parentLevel, a1.recorded, ?_⟩
      · rw [a1.tctxs]; exact List.set_set ..
      · obtain ⟨ss, ps, s1, s2, s3, s4⟩ := a1.sent
        refine ⟨ss, ps, s1, ?_, s3, s4⟩
        rw [s2, sendText_direct]
        rfl

theorem startApiCallProp_run (g : Good w) (h : w.tctxs[p]? = some t) (name address : Bytes) (hasReq : Bool) :
    ∃ w' t', startApiCallProp (.traced p) name address hasReq w =
        (.ok (some w.steps.length, if hasReq then propagated w t (w.env.id (w.tick + 1)) else []), w') ∧ Good w' ∧
      Wrote p t t' (fun t => { t with gxid := groupOf t }) [(.apicall, name)] 1
        (w.steps ++ [stepAt t 0 (sinceStart w t)
          (.apicall (w.env.id (w.tick + 1)) (textHash name) 0 0 0 (if address ≠ [] then 1 else 0) address)])
        [] t.col.currentLevel w w' := by
  obtain ⟨w1, t1, h1, g1, a1⟩ := startApiCall0_run g h name address
  have c1 := a1.ctx h
  have hgx : t1.gxid = t.gxid := by
    have : t1.sansProfile.gxid = t.sansProfile.gxid := by rw [a1.fields]; rfl
    exact this
  have htx : t1.txid = t.txid := by
    have : t1.sansProfile.txid = t.sansProfile.txid := by rw [a1.fields]; rfl
    exact this
  have hs1 : w1.steps[w.steps.length]? = some (stepAt t 0 (sinceStart w t)
      (.apicall (w.env.id (w.tick + 1)) (textHash name) 0 0 0 (if address ≠ [] then 1 else 0) address)) := by
    rw [a1.steps]; simp
  by_cases hz : t.gxid = 0
  · have c2 : (w1.tctxs.set p { t1 with gxid := t1.txid })[p]? = some { t1 with gxid := t1.txid } := getElem?_set_self' c1
    refine ⟨{ w1 with tctxs := w1.tctxs.set p { t1 with gxid := t1.txid } }, { t1 with gxid := t1.txid }, recovered_run ?_,
      g1.set c1 fun g => ⟨g.room, g.count, g.all, g.ptrs⟩, ?_⟩
    · rw [withTrace_run (traceOf_traced h), TM.bind_ok h1, TM.bind_ok (getT_run c1), if_pos (hgx.trans hz)]
      refine .trans (TM.bind_ok (modT_run c1 _)) ?_
      refine .trans (TM.bind_ok (getT_run (by exact c2))) ?_
      refine .trans (TM.bind_ok (getStep_run (by exact hs1))) ?_
      rw [TM.get_bind]
      simp only [propagated, groupOf, htx, hz, if_true]
      show (Outcome.ok (_, if hasReq = true then [(_, intToXlogString32 t.txid), _, _, (_, formatInt 10 w1.conf.objHash.toInt)] else []), _) = _
      rw [a1.conf]
      rfl
    · exact (a1.andField (fun t => { t with gxid := t.txid }) rfl rfl rfl (.inr rfl) (by
        intro a b h
        show { a.sansProfile with gxid := a.sansProfile.txid } = { b.sansProfile with gxid := b.sansProfile.txid }
        rw [h])).change (by simp [groupOf, hz])
  · refine ⟨w1, t1, recovered_run ?_, g1, a1.change ?_⟩
    · rw [withTrace_run (traceOf_traced h), TM.bind_ok h1, TM.bind_ok (getT_run c1), if_neg (by rw [hgx]; exact hz)]
      refine .trans (TM.bind_ok (getT_run (by exact c1))) ?_
      refine .trans (TM.bind_ok (getStep_run (by exact hs1))) ?_
      rw [TM.get_bind]
      simp only [propagated, groupOf, htx, hgx, hz, if_false, a1.conf]
      rfl
    · simp only [groupOf, hz, if_false]; rfl

end
end Scouter
