import Verif.Proofs.Ledger
/-! # C36, C42: each service is logged and counted once; the active list -/
namespace Scouter
open TM Trace

/-! ## Exact accounting -/

theorem ended_set {l : List (BitVec 64 × Bool)} {p : Nat} {id : BitVec 64} (h : l[p]? = some (id, false)) :
    (((l.set p (id, true)).filter (·.2)).map (·.1)).Perm ((l.filter (·.2)).map (·.1) ++ [id]) := by
  induction l generalizing p with
  | nil => simp at h
  | cons a l ih =>
    cases p with
    | zero =>
      simp only [List.getElem?_cons_zero, Option.some.injEq] at h
      subst h
      simp only [List.set_cons_zero]
      rw [List.filter_cons_of_pos rfl, List.filter_cons_of_neg (by simp)]
      simpa using (List.perm_append_comm (l₁ := [id]) (l₂ := (l.filter (·.2)).map (·.1)))
    | succ p =>
      rw [List.getElem?_cons_succ] at h
      obtain ⟨i, b⟩ := a
      cases b with
      | true => simpa using ih h
      | false => simpa using ih h

/-- Counting so far is exact. -/
def Counted (w : World) : Prop := w.metered.length = (services w).countP (·.2)

/-- Logging so far is exact. -/
def Logged (w : World) : Prop := (loggedIds w).Perm (endedIds w)

theorem endedIds_eq {w w' : World} (h : services w' = services w) : endedIds w' = endedIds w := by
  unfold endedIds; rw [h]

theorem Counted.move {w w' : World} (hb : w.conf.bulk ≠ 0) (h : Counted w) (m : Move w w') : Counted w' := by
  have qt : ∀ {a b : World}, Counted a → Q a b → Counted b := by
    intro a b h q
    unfold Counted at *
    rw [q.metered, q.services_eq]; exact h
  cases m with
  | ends e =>
    induction e with
    | quiet q => exact qt h q
    | more e _ ih =>
      apply ih (by rw [e.conf]; exact hb)
      obtain ⟨p, id, l, m, h1, h2, h3, h4, h5, h6, h7, h8, h9, -⟩ := e.one
      unfold Counted at *
      rw [h5, h2, countP_set h1, List.length_append, h, h9 hb]
  | starts s =>
    cases s with
    | quiet q => exact qt h q
    | one s =>
      obtain ⟨n, -, -, h3, -⟩ := s.fresh
      unfold Counted at *
      rw [s.metered, h3, h]
      simp

theorem Logged.move {w w' : World} (hb : w.conf.bulk ≠ 0) (ho : NoSampling w.conf.sample) (h : Logged w) (m : Move w w') :
    Logged w' := by
  have qt : ∀ {a b : World}, Logged a → Q a b → Logged b := by
    intro a b h q
    unfold Logged at *
    rw [q.logged_eq, endedIds_eq q.services_eq]; exact h
  cases m with
  | ends e =>
    induction e with
    | quiet q => exact qt h q
    | more e _ ih =>
      apply ih (by rw [e.conf]; exact hb) (by rw [e.conf]; exact ho)
      obtain ⟨p, id, l, m, h1, h2, h3, h4, h5, h6, h7, h8, h9, h10⟩ := e.one
      have hl : l = [id] := by
        have := h10 hb ho
        obtain ⟨a, rfl⟩ := List.length_eq_one_iff.mp this
        rw [h6 a (by simp)]
      unfold Logged at *
      rw [h4, hl]
      refine (List.Perm.append_right [id] h).trans ?_
      unfold endedIds
      rw [h2]
      exact (ended_set h1).symm
  | starts s =>
    cases s with
    | quiet q => exact qt h q
    | one s =>
      obtain ⟨n, -, -, h3, -⟩ := s.fresh
      unfold Logged endedIds at *
      rw [s.logged, h3]
      simpa using h

theorem exec_conf (w : World) (c : Call) (P : TraceConf → Prop) (hw : P w.conf) (hc : ∀ x, c = .conf x → P x) :
    P (perform w c).conf := by
  by_cases h : ∃ x, c = .conf x
  · obtain ⟨x, rfl⟩ := h; exact hc x rfl
  · have : (perform w c).conf = w.conf := (move_of_code c (fun x e => h ⟨x, e⟩) w).conf
    rw [this]; exact hw

/-- Invariants preserved by moves while the configuration satisfies `P` hold after every history. -/
theorem history_inv {P : TraceConf → Prop} {I : World → Prop}
    (hmove : ∀ w w', P w.conf → I w → Move w w' → I w') (hconf : ∀ w c, I w → I { w with conf := c })
    (w : World) (cs : List Call) (hw : P w.conf) (hcs : ∀ c, Call.conf c ∈ cs → P c) (h : I w) :
    I (history w cs) ∧ P (history w cs).conf := by
  induction cs generalizing w with
  | nil => exact ⟨h, hw⟩
  | cons c cs ih =>
    refine ih (perform w c) (exec_conf w c P hw fun x e => hcs x (e ▸ List.mem_cons_self))
      (fun x hx => hcs x (List.mem_cons_of_mem _ hx)) ?_
    by_cases hc : ∃ x, c = .conf x
    · obtain ⟨x, rfl⟩ := hc; exact hconf w x h
    · exact hmove w _ hw h (move_of_code c (fun x e => hc ⟨x, e⟩) w)

/-! ## C36 -/

/-- **C36**, at most one log: whatever calls are made, in whatever configurations, no two transaction logs sent carry
the same transaction id, and each log belongs to a service that has ended. -/
theorem C36_at_most_one_log (env : Oracle) (conf : TraceConf) (cap : Nat) (cs : List Call)
    (hid : DistinctIds env (history (start env conf cap) cs).tick) :
    let w := history (start env conf cap) cs
    (loggedIds w).Nodup ∧ ∀ id ∈ loggedIds w, id ∈ endedIds w := by
  have h := (Ledger.start env conf cap).history cs hid
  refine ⟨h.once, fun id hi => ?_⟩
  exact List.mem_map.mpr ⟨(id, true), List.mem_filter.mpr ⟨h.ended id hi, rfl⟩, rfl⟩

/-- **C36**, counters: with a non-zero profile limit the service counters have been given exactly as many services as
have ended. -/
theorem C36_counted_exactly_once (env : Oracle) (conf : TraceConf) (cap : Nat) (cs : List Call)
    (hv : Always (fun c => c.bulk ≠ 0) conf cs) :
    let w := history (start env conf cap) cs
    w.metered.length = (endedIds w).length := by
  have h := (history_inv (P := fun c => c.bulk ≠ 0) (I := Counted) (fun w w' hb h m => h.move hb m) (fun w c h => h)
    (start env conf cap) cs hv.1 hv.2 rfl).1
  simp only
  rw [h, endedIds, List.length_map, List.countP_eq_length_filter]

/-- **C36**, never more counter entries than ended services, nor more logs than counter entries, in any
configuration. -/
theorem C36_never_over_counted (env : Oracle) (conf : TraceConf) (cap : Nat) (cs : List Call)
    (hid : DistinctIds env (history (start env conf cap) cs).tick) :
    let w := history (start env conf cap) cs
    (loggedIds w).length ≤ w.metered.length ∧ w.metered.length ≤ (endedIds w).length := by
  have h := (Ledger.start env conf cap).history cs hid
  refine ⟨h.logs, ?_⟩
  rw [endedIds, List.length_map, ← List.countP_eq_length_filter]
  exact h.counted

/-- **C36**, exactly one log: without sampling and with a non-zero profile limit the logs sent are those of the ended
services, each once. -/
theorem C36_exactly_one_log_without_sampling (env : Oracle) (conf : TraceConf) (cap : Nat) (cs : List Call)
    (hv : Always (fun c => c.bulk ≠ 0 ∧ NoSampling c.sample) conf cs) :
    let w := history (start env conf cap) cs
    (loggedIds w).Perm (endedIds w) :=
  (history_inv (P := fun c => c.bulk ≠ 0 ∧ NoSampling c.sample) (I := Logged) (fun w w' hb h m => h.move hb.1 hb.2 m)
    (fun w c h => h) (start env conf cap) cs hv.1 hv.2 (List.Perm.refl [])).1

/-- Ending the service of a context ends it (even when the end panics and is recovered). -/
theorem endTctx_closes {w : World} {p : Nat} (h : p < w.tctxs.length) :
    ((endTctx p w).2.tctxs[p]?).map (·.closed) = some true := by
  obtain ⟨t, ht⟩ : ∃ t, w.tctxs[p]? = some t := ⟨_, List.getElem?_eq_getElem h⟩
  unfold endTctx
  rw [TM.bind_ok (getT_run ht)]
  cases hc : t.closed with
  | true => simp [ht, hc]
  | false =>
    simp only [Bool.false_eq_true, if_false]
    obtain ⟨w1, x, hx, hrun, henv, hconf, htick, htc, hst, hm, hr, hd⟩ := endRest_run ht
    rw [hrun]
    have key : ∀ m : TM Unit, (∀ v : World, ((m v).2.tctxs.map (·.closed)) = v.tctxs.map (·.closed)) →
        ((m w1).2.tctxs[p]?).map (·.closed) = some true := by
      intro m hm
      rw [← List.getElem?_map, hm w1, List.getElem?_map, htc]
      simp [List.getElem?_modify, ht]
    apply key
    intro v
    have hb : Blind (fun t : Tctx => t.closed) := ⟨fun _ _ => rfl, fun _ _ _ => rfl, fun _ _ _ _ => rfl⟩
    have h1 := (quiet_profileClose hb p (x.discardType == discardNone) v).map_cores
    rw [TM.bind_def]
    split
    · rename_i u v' heq
      rw [heq] at h1
      have e2 : (meter x.elapsed.toInt (x.error != 0)) v' =
        (.ok (), { v' with metered := v'.metered ++ [(x.elapsed.toInt, (x.error != 0))] }) := rfl
      rw [TM.bind_ok e2]
      by_cases hk : keepsXlog x = true
      · rw [if_pos hk]; exact h1
      · rw [if_neg hk]; exact h1
    · rename_i v' heq
      rw [heq] at h1; exact h1

/-- **C36**: ending the service of a context ends it, in any state. -/
theorem C36_end_ends (w : World) (p : Nat) (h : p < w.tctxs.length) :
    ((perform w (.endService (.traced p))).tctxs[p]?).map (·.closed) = some true := by
  have hw : traceOf w (.traced p) = some p := by simp [traceOf, h]
  obtain ⟨t, ht⟩ : ∃ t, w.tctxs[p]? = some t := ⟨_, List.getElem?_eq_getElem h⟩
  have key : ((endAnyService (.traced p) w).2.tctxs[p]?).map (·.closed) = some true := by
    unfold endAnyService
    rw [withTrace_run hw, TM.bind_ok (getT_run ht)]
    cases hc : t.closed with
    | true => simp [ht, hc]
    | false => simpa using endTctx_closes h
  show ((recovered () (endAnyService (.traced p)) w).2.tctxs[p]?).map (·.closed) = some true
  unfold recovered
  split
  · rename_i a w' heq; rw [heq] at key; exact key
  · rename_i w' heq; rw [heq] at key; exact key

/-- **C36**, idempotence: ending a service that has ended changes nothing at all, in any state. -/
theorem C36_end_of_ended_service_is_inert (w : World) (p : Nat) (t : Tctx) (ht : w.tctxs[p]? = some t)
    (hc : t.closed = true) (s : Option (BitVec 32)) :
    perform w (.endService (.traced p)) = w ∧ perform w (.endHttpService (.traced p) s) = w := by
  have hlt : p < w.tctxs.length := (List.getElem?_eq_some_iff.mp ht).1
  have hw : traceOf w (.traced p) = some p := by simp [traceOf, hlt]
  have e : endAnyService (.traced p) w = (.ok (), w) := by
    unfold endAnyService
    rw [withTrace_run hw, TM.bind_ok (getT_run ht)]
    simp [hc]
  constructor
  · show (endService (.traced p) w).2 = w
    unfold endService recovered
    rw [e]
  · show (endHttpService (.traced p) s w).2 = w
    unfold endHttpService recovered
    cases s with
    | none => simp only; rw [e]
    | some code =>
      simp only
      rw [withTrace_run hw, TM.bind_ok (getT_run ht)]
      simp [hc]

/-! ## C42 -/

/-- The active list is exactly the running services. -/
def Exact (w : World) : Prop := w.registry.abs = openAt (services w)

theorem Exact.move {w w' : World} (hinj : DistinctIds w.env w'.tick) (hl : Ledger w) (h : Exact w) (m : Move w w')
    (hlen : (openAt (services w')).length ≤ 10000) : Exact w' := by
  have qt : ∀ {a b : World}, Exact a → Q a b → Exact b := by
    intro a b h q
    unfold Exact at *
    rw [q.registry, q.services_eq]; exact h
  cases m with
  | ends e =>
    induction e with
    | quiet q => exact qt h q
    | more e _ ih =>
      refine ih (by rw [e.env]; exact hinj) (hl.endedOne e) ?_ hlen
      obtain ⟨p, id, l, m, h1, h2, h3, -⟩ := e.one
      unfold Exact at *
      rw [h3, (hl.reg.remove id).2, h2, openAt_set _ hl.ids _ _ h1, h]
  | starts s =>
    cases s with
    | quiet q => exact qt h q
    | one s =>
      obtain ⟨n, h1, h2, h3, h4⟩ := s.fresh
      have hf := hl.freshId hinj h1 h2
      have hr : w.env.id n ∉ w.registry.abs.map (·.1) := by
        intro hm
        obtain ⟨x, hx, he⟩ := List.mem_map.mp hm
        exact hf (he ▸ openAt_keys _ _ (hl.active.subset hx))
      unfold Exact at *
      rw [h3, openAt_append, services_length, List.length_append] at hlen
      simp only [List.length_cons, List.length_nil] at hlen
      rw [h4, (hl.reg.add _ _ hr).2, h3, openAt_append, services_length, h, if_pos (by omega)]

theorem openAt_running (w : World) : (openAt (services w)).filterMap (·.2) = running w := by
  have gen : ∀ (l : List Tctx) (k : Nat),
      (((l.map shownOf).zipIdx k).filterMap fun s => if s.1.2 then none else some (s.1.1, some s.2)).filterMap (·.2) =
      (List.range' k l.length).filter fun p => ((l[p - k]?).map (·.closed)) == some false := by
    intro l
    induction l with
    | nil => intro k; rfl
    | cons t l ih =>
      intro k
      rw [List.map_cons, List.zipIdx_cons, List.filterMap_cons, List.length_cons, List.range'_succ]
      have htail : (List.range' (k + 1) l.length).filter (fun p => (((t :: l)[p - k]?).map (·.closed)) == some false) =
          (List.range' (k + 1) l.length).filter (fun p => ((l[p - (k + 1)]?).map (·.closed)) == some false) := by
        apply List.filter_congr
        intro p hp
        have hp := List.mem_range'_1.mp hp
        obtain ⟨j, hj⟩ : ∃ j, p - k = j + 1 := ⟨p - k - 1, by omega⟩
        rw [hj, List.getElem?_cons_succ, show p - (k + 1) = j by omega]
      cases hc : t.closed with
      | true =>
        rw [List.filter_cons_of_neg (by simp [hc]), htail, ← ih (k + 1)]
        simp [shownOf, hc]
      | false =>
        rw [List.filter_cons_of_pos (by simp [hc]), htail, ← ih (k + 1)]
        simp [shownOf, hc]
  unfold openAt services running
  rw [gen w.tctxs 0, List.range_eq_range']
  simp

theorem openAt_length_running (w : World) : (openAt (services w)).length = (running w).length := by
  rw [← openAt_running]
  unfold openAt
  rw [List.filterMap_filterMap]
  apply Eq.symm
  generalize (services w).zipIdx = l
  induction l with
  | nil => rfl
  | cons a l ih =>
    obtain ⟨⟨i, b⟩, n⟩ := a
    rw [List.filterMap_cons, List.filterMap_cons]
    cases b <;> simpa using ih

theorem values_of_registry {w : World} (h : RegOk w.registry) (o : MapOrder (BitVec 64 × Nat)) :
    (w.registry.getValues o).Perm (w.registry.abs.filterMap (·.2)) := by
  have := Cache.filterMap_perm_lst h.inv o (fun e => e.value)
  refine this.trans ?_
  unfold Cache.abs
  rw [List.filterMap_map]
  rfl

/-- **C42**, exactness: after any history during which no more than 10000 services were running after any call, the
values of the active list are exactly the running services (in some order). -/
theorem C42_active_list_is_exact (env : Oracle) (conf : TraceConf) (cap : Nat) (cs : List Call)
    (hid : DistinctIds env (history (start env conf cap) cs).tick)
    (hmax : ∀ k, (running (history (start env conf cap) (cs.take k))).length ≤ 10000) (o : MapOrder (BitVec 64 × Nat)) :
    let w := history (start env conf cap) cs
    (w.registry.getValues o).Perm (running w) := by
  have key : ∀ (cs : List Call) (w : World), DistinctIds w.env (history w cs).tick → Ledger w → Exact w →
      (∀ k, (running (history w (cs.take k))).length ≤ 10000) → Exact (history w cs) ∧ Ledger (history w cs) := by
    intro cs
    induction cs with
    | nil => intro w _ hl he _; exact ⟨he, hl⟩
    | cons c cs ih =>
      intro w hinj hl he hk
      have hinj1 : DistinctIds w.env (perform w c).tick := DistinctIds.mono hinj (history_tick (perform w c) cs)
      refine ih (perform w c) (by rw [exec_env]; exact hinj) (hl.exec c hinj1) ?_ (fun k => by simpa [history] using hk (k + 1))
      have h1 : (running (perform w c)).length ≤ 10000 := by simpa [history] using hk 1
      by_cases hc : ∃ x, c = .conf x
      · obtain ⟨x, rfl⟩ := hc; exact he
      · exact he.move hinj1 hl (move_of_code c (fun x e => hc ⟨x, e⟩) w) (by rw [openAt_length_running]; exact h1)
  obtain ⟨h1, h2⟩ := key cs (start env conf cap) hid (Ledger.start env conf cap) rfl hmax
  refine (values_of_registry h2.reg o).trans ?_
  rw [h1, openAt_running]

/-- **C42**, soundness without any limit: the active list never holds an ended service, never the same service twice and
never more than 10000. -/
theorem C42_active_list_is_sound (env : Oracle) (conf : TraceConf) (cap : Nat) (cs : List Call)
    (hid : DistinctIds env (history (start env conf cap) cs).tick) (o : MapOrder (BitVec 64 × Nat)) :
    let w := history (start env conf cap) cs
    (∀ p ∈ w.registry.getValues o, p ∈ running w) ∧ (w.registry.getValues o).Nodup ∧
      (w.registry.getValues o).length ≤ 10000 := by
  have h := (Ledger.start env conf cap).history cs hid
  have hp := values_of_registry h.reg o
  have hs : (w_abs : List (BitVec 64 × Option Nat)) → w_abs = (history (start env conf cap) cs).registry.abs →
      (w_abs.filterMap (·.2)).Sublist (running (history (start env conf cap) cs)) := by
    intro a ha
    rw [← openAt_running, ha]
    exact h.active.filterMap _
  have hs := hs _ rfl
  refine ⟨fun p hm => hs.subset (hp.mem_iff.mp hm), ?_, ?_⟩
  · rw [hp.nodup_iff]
    exact hs.nodup (List.nodup_range.filter _)
  · rw [hp.length_eq]
    exact Nat.le_trans (List.length_filterMap_le _ _) h.reg.len

/-! ## A concrete history -/

namespace Demo

/-- A clock ticking milliseconds, ids counting from one. -/
def env : Oracle where
  clock n := n * 1000000
  id n := BitVec.ofNat 64 (n + 1)
  draw _ := 42
  goid _ := 7
  panicText _ := ascii "oops"

/-- No sampling. -/
def rate : RateConf :=
  { enabled := false, patterns := [], onlyProfile := false, step1Ms := 100, step2Ms := 1000, step3Ms := 3000,
    rate1 := 3, rate2 := 10, rate3 := 30, over := 100 }

/-- The defaults of configure.go, with a small profile buffer. -/
def conf : TraceConf :=
  { keep := 2, bulk := 100, objHash := 5, objType := ascii "golang", stuckBase := 300000, stuckRemove := true,
    stuckAlert := false, yellow := 3000, red := 8000, queryEnabled := true, headerEnabled := false, headerKeys := [],
    ipHeaderKey := [], sample := { discardPatterns := [], general := rate, pat1 := rate, pat2 := rate, pat3 := rate } }

/-- Two services, one with a nested start, ended repeatedly. -/
def calls : List Call :=
  [.startService .plain (ascii "a") (ascii "1.2.3.4"), .startService .plain (ascii "b") [], .addMessageStep (.traced 0) (ascii "m"),
   .endService (.traced 0), .endService (.traced 0), .endHttpService (.traced 0) (some 200), .endService .nil]

def world : World := history (start env conf 100) calls

theorem ids_distinct (n : Nat) (h : n < 1000) : DistinctIds env n := by
  intro i j hi hj he
  have : (BitVec.ofNat 64 (i + 1)).toNat = (BitVec.ofNat 64 (j + 1)).toNat := congrArg BitVec.toNat he
  simp only [BitVec.toNat_ofNat] at this
  omega

example : world.tick < 1000 := by decide +kernel
example : loggedIds world = [1] ∧ endedIds world = [1] ∧ running world = [1] ∧ world.metered.length = 1 := by decide +kernel
example : Always (fun c => c.bulk ≠ 0 ∧ NoSampling c.sample) conf calls := by
  refine ⟨⟨by decide, rfl, rfl, rfl, rfl, rfl⟩, ?_⟩
  intro c hc
  simp [calls] at hc

end Demo
end Scouter
