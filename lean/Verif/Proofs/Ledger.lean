import Verif.Proofs.Moves
import Mathlib.Tactic.ByContra
/-!
# The ledger of services kept over histories of calls
-/
namespace Scouter
open TM Trace

/-! ## Every call is a move -/

theorem quiet_of_modify {f : World → World} (h : ∀ w, Q w (f w)) : Ev Q (TM.modify f) := fun w => h w

/-- One call: services ended, or one started, or a new configuration. -/
inductive Move : World → World → Prop
  | ends {a b : World} : Ends a b → Move a b
  | starts {a b : World} : Starts a b → Move a b

theorem ev_move_of_quiet {α : Type} {m : TM α} (h : Ev Q m) : Ev Move (m >>= fun _ => pure ()) := fun w =>
  .ends (ends_of_quiet (quiet_bind h fun _ => quiet_pure ()) w)

theorem Q.blindApi {α : Type} (c : Ctx) (d : α) (f : Nat → TM α) (h : ∀ p, Ev Q (f p)) :
    Ev Q (recovered d (withTrace c d f)) := quiet_recovered _ (quiet_withTrace _ _ _ fun p _ => h p)

theorem q_addPMessageStep (c : Ctx) (l : BitVec 8) (m : Bytes) (e : BitVec 32) (ps : List Bytes) :
    Ev Q (addPMessageStep c l m e ps) :=
  Q.blindApi _ _ _ fun _ => quiet_bind (quiet_getT _) fun _ => quiet_bind (quiet_millisToNow _) fun _ =>
    quiet_bind (quiet_sendText _ _) fun _ => quiet_addNew shownOf_blind _ _ _

theorem q_markAsError (c : Ctx) (m : Bytes) : Ev Q (markAsError c m) :=
  Q.blindApi _ _ _ fun _ => quiet_bind (quiet_getT _) fun _ => quiet_ite
    (quiet_bind (quiet_sendText _ _) fun _ => quiet_bind (quiet_modT _ _ fun _ => rfl) fun _ => q_addPMessageStep _ _ _ _ _)
    (q_addPMessageStep _ _ _ _ _)

theorem q_startMethod0 (p : Nat) (f n : Bytes) (ps : List (Option Bytes)) : Ev Q (startMethod0 p f n ps) :=
  quiet_bind (quiet_addParams shownOf_blind _ _) fun _ => quiet_bind (quiet_modT _ _ fun _ => rfl) fun _ =>
    quiet_bind (quiet_sendText _ _) fun _ => quiet_bind (quiet_getT _) fun _ => quiet_bind (quiet_millisToNow _) fun _ =>
    quiet_bind (quiet_newStep _) fun _ => quiet_bind (quiet_profilePush shownOf_blind _ _) fun _ => quiet_pure _

theorem q_startApiCall0 (p : Nat) (n a : Bytes) : Ev Q (startApiCall0 p n a) :=
  quiet_bind (quiet_sendText _ _) fun _ => quiet_bind (quiet_getT _) fun _ => quiet_bind (quiet_millisToNow _) fun _ =>
    quiet_bind (quiet_reading _) fun _ => quiet_bind (quiet_newStep _) fun _ =>
    quiet_bind (quiet_profilePush shownOf_blind _ _) fun _ => quiet_pure _

theorem resetTextSent_direct (p : Proxy) (o : MapOrder (BitVec 32 × Nat)) : (p.resetTextSent o).direct = p.direct := rfl

/-- Every call but a change of configuration. -/
theorem move_of_code (c : Call) (h : ∀ x, c ≠ .conf x) : Ev Move c.code := by
  cases c with
  | conf x => exact absurd rfl (h x)
  | isStream c => exact ev_move_of_quiet (Q.blindApi _ _ _ fun _ => quiet_bind (quiet_getT _) fun _ => quiet_pure _)
  | setAsStream c =>
    exact ev_move_of_quiet (Q.blindApi _ _ _ fun _ => quiet_bind (quiet_modT _ _ fun _ => rfl) fun _ => quiet_pure _)
  | markAsError c m => exact fun w => .ends (.quiet (q_markAsError c m w))
  | markAsErrorForcibly c m =>
    have : Ev Q (Trace.markAsErrorForcibly c m) := Q.blindApi _ _ _ fun _ => quiet_bind (quiet_sendText _ _) fun _ =>
      quiet_modT _ _ fun _ => rfl
    exact fun w => .ends (.quiet (this w))
  | setServiceName c m =>
    have : Ev Q (Trace.setServiceNameForcibly c m) := Q.blindApi _ _ _ fun _ =>
      quiet_bind (quiet_modT _ _ fun _ => rfl) fun _ => quiet_bind (quiet_sendText _ _) fun _ => quiet_modT _ _ fun _ => rfl
    exact fun w => .ends (.quiet (this w))
  | addStep c p =>
    refine fun w => .ends (.quiet (Q.blindApi _ _ _ (fun q => ?_) w))
    cases p with
    | none => exact quiet_panic
    | some p => exact quiet_profileAdd shownOf_blind _ _
  | addMessageStep c m =>
    exact fun w => .ends (.quiet (Q.blindApi _ _ _ (fun _ => quiet_bind (quiet_getT _) fun _ =>
      quiet_bind (quiet_millisToNow _) fun _ => quiet_addNew shownOf_blind _ _ _) w))
  | addHashedMessageStep c m v e =>
    exact fun w => .ends (.quiet (Q.blindApi _ _ _ (fun _ => quiet_bind (quiet_getT _) fun _ =>
      quiet_bind (quiet_sendText _ _) fun _ => quiet_bind (quiet_millisToNow _) fun _ => quiet_addNew shownOf_blind _ _ _) w))
  | addPMessageStep c l m e ps => exact fun w => .ends (.quiet (q_addPMessageStep c l m e ps w))
  | startHttpService c r => exact fun w => .starts (starts_bindQ (starts_startHttpService c r) (fun _ => quiet_pure _) w)
  | endHttpService c s => exact fun w => .ends (ends_endHttpService c s w)
  | startService c n ip => exact fun w => .starts (starts_bindQ (starts_startServiceApi c n ip) (fun _ => quiet_pure _) w)
  | endService c => exact fun w => .ends (ends_recovered _ (ends_endAnyService c) w)
  | startInheritance q => exact fun w => .starts (starts_bindQ (starts_startInheritance q) (fun _ => quiet_pure _) w)
  | goWithTrace c n => exact fun w => .starts (starts_bindQ (starts_goWithTrace c n) (fun _ => quiet_pure _) w)
  | goBegin c =>
    have : Ev Q (Trace.goBegin c) := quiet_withTrace _ _ _ fun _ _ => quiet_bind (quiet_reading _) fun _ =>
      quiet_modT _ _ fun _ => rfl
    exact fun w => .ends (.quiet (this w))
  | startMethod c f ps =>
    exact ev_move_of_quiet (Q.blindApi _ _ _ fun _ => quiet_bind (q_startMethod0 _ _ _ _) fun _ => quiet_pure _)
  | startCustomMethod c f ps =>
    exact ev_move_of_quiet (Q.blindApi _ _ _ fun _ => quiet_bind (q_startMethod0 _ _ _ _) fun _ => quiet_pure _)
  | endMethod c p =>
    refine fun w => .ends (.quiet (quiet_recovered _ ?_ w))
    cases p with
    | none => exact quiet_pure _
    | some p =>
      exact quiet_withTrace _ _ _ fun q _ => quiet_bind (quiet_getT _) fun _ => quiet_bind (quiet_getStep _) fun _ =>
        quiet_bind (quiet_millisToNow _) fun _ => quiet_bind (quiet_modStep _ _) fun _ => quiet_profilePop shownOf_blind _ _
  | startApiCall c n a =>
    exact ev_move_of_quiet (Q.blindApi _ _ _ fun _ => quiet_bind (q_startApiCall0 _ _ _) fun _ => quiet_pure _)
  | startApiCallProp c n a r =>
    refine ev_move_of_quiet (Q.blindApi _ _ _ fun p => quiet_bind (q_startApiCall0 _ _ _) fun ptr =>
      quiet_bind (quiet_getT _) fun _ => ?_)
    have hj : Ev Q (do
        let t ← getT p
        let s ← getStep ptr
        let w ← get
        return (some ptr, if r then
          [(ascii "X-Scouter-Gxid", intToXlogString32 t.gxid),
           (ascii "X-Scouter-Caller", intToXlogString32 t.txid),
           (ascii "X-Scouter-Callee", intToXlogString32 (stepTxid s)),
           (ascii "X-Scouter-Caller-Obj", formatInt 10 w.conf.objHash.toInt)] else [])) :=
      quiet_bind (quiet_getT _) fun _ => quiet_bind (quiet_getStep _) fun _ => quiet_bind quiet_get fun _ => quiet_pure _
    exact quiet_ite (quiet_bind (quiet_modT _ _ fun _ => rfl) fun _ => hj) hj
  | endApiCall c p e =>
    refine fun w => .ends (.quiet (quiet_recovered _ ?_ w))
    cases p with
    | none => exact quiet_pure _
    | some p =>
      refine quiet_withTrace _ _ _ fun q _ => quiet_bind (quiet_getT _) fun _ => quiet_bind (quiet_getStep _) fun _ =>
        quiet_bind (quiet_millisToNow _) fun _ => quiet_bind (quiet_modStep _ _) fun _ =>
        quiet_bind (quiet_modT _ _ fun _ => rfl) fun _ => ?_
      cases e with
      | none => exact quiet_profilePop shownOf_blind _ _
      | some m =>
        exact quiet_bind (quiet_sendText _ _) fun _ => quiet_bind (quiet_modStep _ _) fun _ =>
          quiet_bind (quiet_modT _ _ fun _ => rfl) fun _ => quiet_profilePop shownOf_blind _ _
  | activeCount o => exact fun w => .ends (ends_bind (ends_getActiveCount o) (fun _ => ends_of_quiet (quiet_pure _)) w)
  | makeStep s => exact ev_move_of_quiet (quiet_newStep s)
  | setFields p l d t1 t2 t3 t4 t5 =>
    have : Ev Q (Call.setFields p l d t1 t2 t3 t4 t5).code := quiet_modT _ _ fun _ => rfl
    exact fun w => .ends (.quiet (this w))
  | samplerRun =>
    exact fun w => .ends (.quiet ⟨rfl, rfl, Nat.le_refl _, rfl, fun _ => rfl, Nat.le_refl _, rfl, rfl, rfl, List.prefix_refl _⟩)
  | resetTexts o =>
    exact fun w => .ends (.quiet ⟨rfl, rfl, Nat.le_refl _, rfl, fun _ => rfl, Nat.le_refl _, rfl, rfl, rfl, List.prefix_refl _⟩)
  | queue s =>
    exact fun w => .ends (.quiet ⟨rfl, rfl, Nat.le_refl _, rfl, fun _ => rfl, Nat.le_refl _, rfl, rfl, rfl, List.prefix_refl _⟩)

/-! ## Services running -/

/-- The services not ended, with their positions. -/
def openAt (l : List (BitVec 64 × Bool)) : List (BitVec 64 × Option Nat) :=
  l.zipIdx.filterMap fun s => if s.1.2 then none else some (s.1.1, some s.2)

theorem openAt_append (l : List (BitVec 64 × Bool)) (id : BitVec 64) :
    openAt (l ++ [(id, false)]) = openAt l ++ [(id, some l.length)] := by
  simp [openAt, List.zipIdx_append]

theorem openAt_keys (l : List (BitVec 64 × Bool)) (x) (h : x ∈ openAt l) : x.1 ∈ l.map (·.1) := by
  unfold openAt at h
  obtain ⟨s, hs, he⟩ := List.mem_filterMap.mp h
  split at he
  · simp at he
  · cases he
    have := List.mem_zipIdx hs
    simp only [List.mem_map]
    exact ⟨s.1, by rw [this.2.2]; exact List.getElem_mem _, rfl⟩

theorem zipOpen_filter (l : List (BitVec 64 × Bool)) (k : Nat) (id : BitVec 64) (h : id ∉ l.map (·.1)) :
    ((l.zipIdx k).filterMap fun s => if s.1.2 then none else some (s.1.1, some s.2)).filter (fun x => decide (x.1 ≠ id)) =
      (l.zipIdx k).filterMap fun s => if s.1.2 then none else some (s.1.1, some s.2) := by
  induction l generalizing k with
  | nil => rfl
  | cons a l ih =>
    obtain ⟨i, b⟩ := a
    simp only [List.map_cons, List.mem_cons, not_or] at h
    rw [List.zipIdx_cons, List.filterMap_cons]
    cases b with
    | true => simpa using ih (k + 1) h.2
    | false =>
      simp only [Bool.false_eq_true, if_false]
      rw [List.filter_cons_of_pos (by simpa using fun e => h.1 e.symm), ih (k + 1) h.2]

theorem openAt_set (l : List (BitVec 64 × Bool)) (hn : (l.map (·.1)).Nodup) (p : Nat) (id : BitVec 64)
    (h : l[p]? = some (id, false)) : openAt (l.set p (id, true)) = (openAt l).filter (fun x => decide (x.1 ≠ id)) := by
  have gen : ∀ (l : List (BitVec 64 × Bool)) (k p : Nat), (l.map (·.1)).Nodup → l[p]? = some (id, false) →
      ((l.set p (id, true)).zipIdx k).filterMap (fun s => if s.1.2 then none else some (s.1.1, some s.2)) =
      ((l.zipIdx k).filterMap fun s => if s.1.2 then none else some (s.1.1, some s.2)).filter (fun x => decide (x.1 ≠ id)) := by
    intro l
    induction l with
    | nil => intro k p _ h; simp at h
    | cons a l ih =>
      intro k p hn h
      simp only [List.map_cons, List.nodup_cons] at hn
      cases p with
      | zero =>
        simp only [List.getElem?_cons_zero, Option.some.injEq] at h
        subst h
        rw [List.set_cons_zero, List.zipIdx_cons, List.zipIdx_cons, List.filterMap_cons, List.filterMap_cons]
        simp only [if_true, Bool.false_eq_true, if_false]
        rw [List.filter_cons_of_neg (by simp), zipOpen_filter _ _ _ hn.1]
      | succ p =>
        rw [List.getElem?_cons_succ] at h
        rw [List.set_cons_succ, List.zipIdx_cons, List.zipIdx_cons, List.filterMap_cons, List.filterMap_cons]
        have hne : a.1 ≠ id := by
          intro e
          apply hn.1
          rw [e]
          obtain ⟨hl, he⟩ := List.getElem?_eq_some_iff.mp h
          exact List.mem_map.mpr ⟨_, List.getElem_mem hl, by rw [he]⟩
        obtain ⟨i, b⟩ := a
        cases b with
        | true => simpa using ih (k + 1) p hn.2 h
        | false =>
          simp only [Bool.false_eq_true, if_false]
          rw [List.filter_cons_of_pos (by simpa using hne), ih (k + 1) p hn.2 h]
  exact gen l 0 p hn h

/-! ## The registry -/

abbrev Registry := Cache (BitVec 64) Nat

/-- What is kept of the registry. -/
structure RegOk (r : Registry) : Prop where
  inv : r.Inv
  bound : r.max = 10000
  cb : r.hasCb = false
  len : r.abs.length ≤ 10000

theorem RegOk.rel {r : Registry} (h : RegOk r) : Cache.Rel r { bound := 10000, entries := r.abs } :=
  ⟨h.inv, h.bound.symm, rfl, by rw [h.cb]; simp⟩

theorem RegOk.remove {r : Registry} (h : RegOk r) (k : BitVec 64) :
    RegOk (r.remove k) ∧ (r.remove k).abs = r.abs.filter (fun x => decide (x.1 ≠ k)) := by
  have h1 := h.rel.remove k
  have h2 := step_const r (.remove k)
  have e : (r.remove k).abs = r.abs.filter (fun x => decide (x.1 ≠ k)) := h1.entries.symm
  refine ⟨⟨h1.inv, h2.1.trans h.bound, h2.2.trans h.cb, ?_⟩, e⟩
  rw [e]
  exact Nat.le_trans (List.length_filter_le _ _) h.len

theorem RegOk.add {r : Registry} (h : RegOk r) (k : BitVec 64) (v : Option Nat) (hk : k ∉ r.abs.map (·.1)) :
    RegOk (r.add k v) ∧
      (r.add k v).abs = if r.abs.length < 10000 then r.abs ++ [(k, v)] else (r.abs ++ [(k, v)]).tail := by
  have h1 := h.rel.add k v
  have h2 := step_const r (.add k v)
  have hl := h.len
  have e : (r.add k v).abs = if r.abs.length < 10000 then r.abs ++ [(k, v)] else (r.abs ++ [(k, v)]).tail := by
    have := h1.entries.symm
    rw [this]
    unfold Spec.OMap.add
    rw [if_neg hk]
    simp only [List.length_append, List.length_cons, List.length_nil]
    by_cases hlt : r.abs.length < 10000
    · rw [if_pos hlt, if_neg (by omega)]
    · rw [if_neg hlt, if_pos (by omega)]
  refine ⟨⟨h1.inv, h2.1.trans h.bound, h2.2.trans h.cb, ?_⟩, e⟩
  rw [e]
  split
  · simp; omega
  · simp; omega

/-! ## The ledger -/

/-- What holds of every reachable world. -/
structure Ledger (w : World) : Prop where
  ids : ((services w).map (·.1)).Nodup
  made : ∀ s ∈ services w, ∃ n, n < w.tick ∧ s.1 = w.env.id n
  once : (loggedIds w).Nodup
  ended : ∀ x ∈ loggedIds w, (x, true) ∈ services w
  counted : w.metered.length ≤ (services w).countP (·.2)
  logs : (loggedIds w).length ≤ w.metered.length
  reg : RegOk w.registry
  active : w.registry.abs.Sublist (openAt (services w))

theorem Ledger.quiet {w w' : World} (h : Ledger w) (q : Q w w') : Ledger w' where
  ids := by rw [q.services_eq]; exact h.ids
  made := by
    rw [q.services_eq, q.env]
    intro s hs
    obtain ⟨n, h1, h2⟩ := h.made s hs
    exact ⟨n, Nat.lt_of_lt_of_le h1 q.tick, h2⟩
  once := by rw [q.logged_eq]; exact h.once
  ended := by rw [q.logged_eq, q.services_eq]; exact h.ended
  counted := by rw [q.metered, q.services_eq]; exact h.counted
  logs := by rw [q.logged_eq, q.metered]; exact h.logs
  reg := by rw [q.registry]; exact h.reg
  active := by rw [q.registry, q.services_eq]; exact h.active

theorem services_length (w : World) : (services w).length = w.tctxs.length := by simp [services]

theorem Ledger.freshId {w : World} (h : Ledger w) {m : Nat} (hinj : DistinctIds w.env m) {n : Nat} (hn : w.tick ≤ n) (hm : n < m) :
    w.env.id n ∉ (services w).map (·.1) := by
  intro hmem
  obtain ⟨s, hs, he⟩ := List.mem_map.mp hmem
  obtain ⟨k, h1, h2⟩ := h.made s hs
  have := hinj k n (by omega) hm (h2.symm.trans he)
  omega

theorem Ledger.started {w w' : World} (hinj : DistinctIds w.env w'.tick) (h : Ledger w) (s : Started w w') :
    Ledger w' := by
  obtain ⟨n, h1, h2, h3, h4⟩ := s.fresh
  have hf := h.freshId hinj h1 h2
  have hr : w.env.id n ∉ w.registry.abs.map (·.1) := by
    intro hm
    obtain ⟨x, hx, he⟩ := List.mem_map.mp hm
    exact hf (he ▸ openAt_keys _ _ (h.active.subset hx))
  obtain ⟨r1, r2⟩ := h.reg.add (w.env.id n) (some w.tctxs.length) hr
  refine ⟨?_, ?_, ?_, ?_, ?_, ?_, ?_, ?_⟩
  · rw [h3, List.map_append, List.nodup_append]
    refine ⟨h.ids, by simp, ?_⟩
    intro a ha b hb e
    rw [List.map_cons, List.map_nil, List.mem_singleton] at hb
    apply hf
    simp only at hb
    rw [← hb, ← e]; exact ha
  · rw [h3, s.env]
    intro x hx
    rcases List.mem_append.mp hx with hx | hx
    · obtain ⟨k, k1, k2⟩ := h.made x hx
      exact ⟨k, by omega, k2⟩
    · rw [List.mem_singleton] at hx
      exact ⟨n, h2, by rw [hx]⟩
  · rw [s.logged]; exact h.once
  · rw [s.logged, h3]
    exact fun x hx => List.mem_append_left _ (h.ended x hx)
  · rw [s.metered, h3]
    simpa using h.counted
  · rw [s.logged, s.metered]; exact h.logs
  · rw [h4]; exact r1
  · rw [h4, r2, h3, openAt_append, services_length]
    have : (w.registry.abs ++ [(w.env.id n, some w.tctxs.length)]).Sublist
        (openAt (services w) ++ [(w.env.id n, some w.tctxs.length)]) := h.active.append (List.Sublist.refl _)
    split
    · exact this
    · exact (List.tail_sublist _).trans this

theorem set_mem_of_ne {l : List (BitVec 64 × Bool)} {p : Nat} {id : BitVec 64} (h : l[p]? = some (id, false)) {x : BitVec 64}
    (hx : (x, true) ∈ l) : (x, true) ∈ l.set p (id, true) := by
  obtain ⟨i, hi, he⟩ := List.mem_iff_getElem.mp hx
  have : (l.set p (id, true))[i]? = some (x, true) := by
    rw [List.getElem?_set]
    by_cases hp : p = i
    · subst hp
      rw [List.getElem?_eq_getElem hi, he] at h
      simp at h
    · rw [if_neg hp, List.getElem?_eq_getElem hi, he]
  exact List.mem_of_getElem? this

theorem countP_set {l : List (BitVec 64 × Bool)} {p : Nat} {id : BitVec 64} (h : l[p]? = some (id, false)) :
    (l.set p (id, true)).countP (·.2) = l.countP (·.2) + 1 := by
  induction l generalizing p with
  | nil => simp at h
  | cons a l ih =>
    cases p with
    | zero =>
      simp only [List.getElem?_cons_zero, Option.some.injEq] at h
      subst h
      simp
    | succ p =>
      rw [List.getElem?_cons_succ] at h
      rw [List.set_cons_succ, List.countP_cons, List.countP_cons, ih h]
      omega

theorem nodup_key {l : List (BitVec 64 × Bool)} (hn : (l.map (·.1)).Nodup) {id : BitVec 64} {b c : Bool}
    (h : (id, b) ∈ l) (h' : (id, c) ∈ l) : b = c := by
  have h1 := lookup_of_mem hn h
  have h2 := lookup_of_mem hn h'
  rw [h1] at h2
  exact Option.some.inj h2

theorem map_fst_set (l : List (BitVec 64 × Bool)) (p : Nat) (id : BitVec 64) (h : l[p]? = some (id, false)) :
    (l.set p (id, true)).map (·.1) = l.map (·.1) := by
  apply List.ext_getElem?
  intro i
  rw [List.getElem?_map, List.getElem?_map, List.getElem?_set]
  by_cases hp : p = i
  · subst hp
    rw [if_pos rfl]
    obtain ⟨hl, he⟩ := List.getElem?_eq_some_iff.mp h
    rw [if_pos hl, h]; rfl
  · rw [if_neg hp]

theorem Ledger.endedOne {w w' : World} (h : Ledger w) (e : Ended w w') : Ledger w' := by
  obtain ⟨p, id, l, m, h1, h2, h3, h4, h5, h6, h7, h8, -, -⟩ := e.one
  have hmem : (id, false) ∈ services w := List.mem_of_getElem? h1
  have hnot : id ∉ loggedIds w := by
    intro hx
    have := nodup_key h.ids hmem (h.ended id hx)
    simp at this
  have hl : l = [] ∨ l = [id] := by
    cases l with
    | nil => exact .inl rfl
    | cons a t =>
      cases t with
      | nil => exact .inr (by rw [h6 a (by simp)])
      | cons b t => simp at h7; omega
  obtain ⟨r1, r2⟩ := h.reg.remove id
  refine ⟨?_, ?_, ?_, ?_, ?_, ?_, ?_, ?_⟩
  · rw [h2, map_fst_set _ _ _ h1]; exact h.ids
  · intro s hs
    have : s.1 ∈ (services w).map (·.1) := by
      rw [← map_fst_set _ _ _ h1, ← h2]; exact List.mem_map.mpr ⟨s, hs, rfl⟩
    obtain ⟨s', hs', he⟩ := List.mem_map.mp this
    obtain ⟨n, n1, n2⟩ := h.made s' hs'
    exact ⟨n, Nat.lt_of_lt_of_le n1 e.tick, by rw [← he, n2, e.env]⟩
  · rw [h4]
    rcases hl with rfl | rfl
    · simpa using h.once
    · rw [List.nodup_append]
      exact ⟨h.once, by simp, fun a ha b hb e => hnot (by rw [List.mem_singleton] at hb; exact hb ▸ e ▸ ha)⟩
  · rw [h4, h2]
    intro x hx
    rcases List.mem_append.mp hx with hx | hx
    · exact set_mem_of_ne h1 (h.ended x hx)
    · have := h6 x hx
      subst this
      obtain ⟨hl, -⟩ := List.getElem?_eq_some_iff.mp h1
      exact List.mem_set hl _
  · rw [h5, h2, countP_set h1, List.length_append]
    have := h.counted
    omega
  · rw [h4, h5, List.length_append, List.length_append]
    have := h.logs
    omega
  · rw [h3]; exact r1
  · rw [h3, r2, h2, openAt_set _ h.ids _ _ h1]
    exact h.active.filter _

theorem Ledger.ends {w w' : World} (h : Ledger w) (e : Ends w w') : Ledger w' := by
  induction e with
  | quiet q => exact h.quiet q
  | more e _ ih => exact ih (h.endedOne e)

theorem Ledger.starts {w w' : World} (hinj : DistinctIds w.env w'.tick) (h : Ledger w) (s : Starts w w') : Ledger w' := by
  cases s with
  | quiet q => exact h.quiet q
  | one s => exact h.started hinj s

theorem Ends.env {w w' : World} (e : Ends w w') : w'.env = w.env := by
  induction e with
  | quiet q => exact q.env
  | more e _ ih => exact ih.trans e.env

theorem Ends.conf {w w' : World} (e : Ends w w') : w'.conf = w.conf := by
  induction e with
  | quiet q => exact q.conf
  | more e _ ih => exact ih.trans e.conf

theorem Move.env {w w' : World} (m : Move w w') : w'.env = w.env := by
  cases m with
  | ends e => exact e.env
  | starts s => cases s with
    | quiet q => exact q.env
    | one s => exact s.env

theorem Move.conf {w w' : World} (m : Move w w') : w'.conf = w.conf := by
  cases m with
  | ends e => exact e.conf
  | starts s => cases s with
    | quiet q => exact q.conf
    | one s => exact s.conf

theorem Ledger.move {w w' : World} (hinj : DistinctIds w.env w'.tick) (h : Ledger w) (m : Move w w') : Ledger w' := by
  cases m with
  | ends e => exact h.ends e
  | starts s => exact h.starts hinj s

theorem Ledger.exec {w : World} (c : Call) (hinj : DistinctIds w.env (Trace.perform w c).tick) (h : Ledger w) : Ledger (Trace.perform w c) := by
  by_cases hc : ∃ x, c = .conf x
  · obtain ⟨x, rfl⟩ := hc
    exact ⟨h.ids, h.made, h.once, h.ended, h.counted, h.logs, h.reg, h.active⟩
  · exact h.move hinj (move_of_code c (fun x e => hc ⟨x, e⟩) w)

theorem exec_env (w : World) (c : Call) : (Trace.perform w c).env = w.env := by
  by_cases hc : ∃ x, c = .conf x
  · obtain ⟨x, rfl⟩ := hc; rfl
  · exact (move_of_code c (fun x e => hc ⟨x, e⟩) w).env

theorem history_env (w : World) (cs : List Call) : (Trace.history w cs).env = w.env := by
  induction cs generalizing w with
  | nil => rfl
  | cons c cs ih => exact (ih _).trans (exec_env w c)

theorem Ledger.start (env : Oracle) (conf : TraceConf) (cap : Nat) : Ledger (Trace.start env conf cap) where
  ids := by simp [Trace.start, services]
  made := by simp [Trace.start, services]
  once := by simp [Trace.start, loggedIds, Proxy.init, xlogsOf]
  ended := by simp [Trace.start, loggedIds, Proxy.init, xlogsOf]
  counted := by simp [Trace.start, services]
  logs := by simp [Trace.start, loggedIds, Proxy.init, xlogsOf]
  reg := ⟨Cache.inv_new _ _, rfl, rfl, by simp [Trace.start, Cache.new, Cache.abs]⟩
  active := by simp [Trace.start, Cache.new, Cache.abs]

theorem Ends.tick {w w' : World} (e : Ends w w') : w.tick ≤ w'.tick := by
  induction e with
  | quiet q => exact q.tick
  | more e _ ih => exact Nat.le_trans e.tick ih

theorem Move.tick {w w' : World} (m : Move w w') : w.tick ≤ w'.tick := by
  cases m with
  | ends e => exact e.tick
  | starts s => cases s with
    | quiet q => exact q.tick
    | one s => obtain ⟨n, h1, h2, -⟩ := s.fresh; omega

theorem perform_tick (w : World) (c : Call) : w.tick ≤ (Trace.perform w c).tick := by
  by_cases hc : ∃ x, c = .conf x
  · obtain ⟨x, rfl⟩ := hc; exact Nat.le_refl _
  · exact (move_of_code c (fun x e => hc ⟨x, e⟩) w).tick

theorem history_tick (w : World) (cs : List Call) : w.tick ≤ (Trace.history w cs).tick := by
  induction cs generalizing w with
  | nil => exact Nat.le_refl _
  | cons c cs ih => exact Nat.le_trans (perform_tick w c) (ih _)

theorem DistinctIds.mono {env : Oracle} {m n : Nat} (h : DistinctIds env n) (hm : m ≤ n) : DistinctIds env m :=
  fun i j hi hj => h i j (by omega) (by omega)

theorem Ledger.history {w : World} (cs : List Call) (hinj : DistinctIds w.env (Trace.history w cs).tick) (h : Ledger w) :
    Ledger (Trace.history w cs) := by
  induction cs generalizing w with
  | nil => exact h
  | cons c cs ih =>
    exact ih (w := Trace.perform w c) (by rw [exec_env]; exact hinj) (h.exec c (hinj.mono (history_tick _ cs)))

end Scouter
