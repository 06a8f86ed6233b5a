import Verif.Props.HttpLog
import Verif.Props.Sampling
import Verif.Props.Late
import Verif.Props.Collector
/-!
# What is told of a service holds however it is ended (C39, C82, C107, C116)

`EndHttpService`, with a response or without, and `EndService`.
-/
namespace Scouter
open TM Trace Spec

/-- **C39**: as `C39_end_of_service`, the service being ended either way. -/
theorem C39_end_of_service_however_ended (env : Oracle) (conf : TraceConf) (cap : Nat) (cs : List Call) (p : Nat) (t : Tctx)
    (h : (history (start env conf cap) cs).tctxs[p]? = some t) (hc : t.closed = false)
    (hb : 1 ≤ (history (start env conf cap) cs).conf.bulk) {e : Call} (he : EndOf p e) :
    let w := history (start env conf cap) cs
    let w' := perform w e
    let general := w.conf.sample.general
    let picked := general.keeps t.error (elapsedAt w t) (w.env.draw (w.tick + 1))
    ((xlogsOf (newPacks w w')).map (·.txid) =
      if picked = true ∨ general.onlyProfile = true ∨ (t.gxid ≠ t.txid ∧ t.gxid ≠ 0) then [t.txid] else []) ∧
    (w'.tctxs[p]?).map (·.sentSteps) = some (t.sentSteps ++ if picked then t.col.kept else []) := by
  intro w w' general picked
  obtain ⟨h1, h2⟩ := C39_end_of_service env conf cap cs p t h hc hb
  constructor
  · show (xlogsOf (newPacks w (perform w e))).map _ = _
    rw [C61_http_end_differs_in_status_only h hc hb he, List.map_map]
    exact h1
  · rw [← h2]
    obtain ⟨w2, s, q1, q2, -, q4, -, q6⟩ := end_as_service h hc he
    obtain ⟨ss, -, -, k2, k3, -, -, -⟩ := endService_full q2 hc (by rw [q4]; exact hb)
    obtain ⟨ss', -, -, k2', k3', -, -, -⟩ := endService_full h hc hb
    show ((perform w e).tctxs[p]?).map _ = ((perform w (.endService (.traced p))).tctxs[p]?).map _
    rw [q1, k2, k2', List.getElem?_modify, List.getElem?_modify, q2, h]
    simp only [if_true, Option.map_some, Function.comp, afterSending, closing]
    rw [k3, k3', q6]
    rfl

/-- **C82**: as `C82_log_untouched`, the service being ended either way. -/
theorem C82_log_untouched_however_ended (w : World) (p : Nat) (t : Tctx) (h : w.tctxs[p]? = some t) (cs : List Call)
    (hel : AllElsewhere p w cs) (hc : t.closed = false) (hb : 1 ≤ (history w cs).conf.bulk) {e : Call} (he : EndOf p e) :
    let w' := history w cs
    xlogsOf (newPacks w' (perform w' e)) =
      if keepsXlog (xlogFor t (decisionAt w' t) (elapsedAt w' t)) = true then
        [{ xlogFor t (decisionAt w' t) (elapsedAt w' t) with objHash := w'.conf.objHash, status := (statusGiven e).getD t.status }] else [] := by
  intro w'
  have h' := C82_other_services_untouched w p t h cs hel
  rw [C61_http_end_differs_in_status_only h' hc hb he, C61_log_carries_the_service _ p t h' hc hb]
  split <;> rfl

/-- **C116**: as `C116_after_the_end`, the service being ended either way. -/
theorem C116_after_the_end_however_ended (env : Oracle) (conf : TraceConf) (cap : Nat) (cs ds : List Call) (hk : 1 ≤ conf.keep) (hb : 1 ≤ conf.bulk)
    (p : Nat) {e : Call} (he : EndOf p e) (hwf : AllWellFormed (start env conf cap) (cs ++ e :: ds))
    (ho : AllOnce (start env conf cap) (cs ++ e :: ds))
    (hid : DistinctIds env (history (start env conf cap) (cs ++ e :: ds)).tick) (t : Tctx)
    (h : (history (start env conf cap) cs).tctxs[p]? = some t) (hc : t.closed = false) :
    let w := history (start env conf cap) cs
    let w' := history (start env conf cap) (cs ++ e :: ds)
    ∃ t' late rest, w'.tctxs[p]? = some t' ∧ t'.recorded = t.recorded ++ late ∧ t.recorded = t.sentSteps ++ rest ∧
      profileStream w' t.txid = stepsToBytes ((t.sentSteps ++
        (if decisionAt w t = discardNone then rest else []) ++
        (if rest.length + late.length < t.col.cap then [] else rest ++ late.take (late.length - t'.col.kept.length))).map (w'.steps[·]?)) := by
  intro w w'
  have ec : cs ++ e :: ds = (cs ++ [e]) ++ ds := by simp
  have e1 : history (start env conf cap) (cs ++ [e]) = perform w e := by
    simp [history, List.foldl_append, w]
  have hwf' := hwf
  have ho' := ho
  have hid' := hid
  rw [ec] at hwf' ho' hid'
  obtain ⟨wf1, -⟩ := allWf_split cs _ _ hwf
  have hr : Reachable w := ⟨env, conf, cap, cs, hk, hb, wf1, rfl⟩
  have g := hr.good
  have gt := g.each t (List.mem_of_getElem? h)
  obtain ⟨w2, s, q1, q2, -, q4, -, q6⟩ := end_as_service h hc he
  obtain ⟨ss, -, -, k2, k3, -, -, -⟩ := endService_full q2 hc (by rw [q4]; exact g.bulk)
  rw [q6] at k3
  have ht1 : (history (start env conf cap) (cs ++ [e])).tctxs[p]? =
      some (afterSending ss.flatten.length (bytesOf w2 ss) ss.flatten (closing { t with status := s })) := by
    rw [e1, q1, k2, List.getElem?_modify, q2]; simp only [if_true]; rfl
  obtain ⟨t', late, h1, h2, h3, h4⟩ := C116_stream env conf cap (cs ++ [e]) ds hk hb hwf' ho' hid' p _ ht1 rfl
  have ew : w' = history (start env conf cap) ((cs ++ [e]) ++ ds) := by rw [← ec]
  rw [← ew] at h1 h3 h4
  have tl : (history (start env conf cap) (cs ++ [e])).tick ≤
      (history (start env conf cap) ((cs ++ [e]) ++ ds)).tick := by
    have e2 : history (start env conf cap) ((cs ++ [e]) ++ ds) =
      history (history (start env conf cap) (cs ++ [e])) ds := List.foldl_append ..
    rw [e2]; exact history_tick _ ds
  obtain ⟨o1, -⟩ := allOnce_split _ ds _ ho'
  have s1 := stream_of env conf cap (cs ++ [e])
    (fun a b ha hb => hid' a b (Nat.lt_of_lt_of_le ha tl) (Nat.lt_of_lt_of_le hb tl)) o1
  have tm := List.mem_of_getElem? ht1
  have st1 := s1.stream _ tm
  have st1' : profileStream (history (start env conf cap) (cs ++ [e])) t.txid =
      stepsToBytes ((t.sentSteps ++ (if decisionAt w t = discardNone then t.col.kept else [])).map (w'.steps[·]?)) := by
    refine st1.trans ?_
    show stepsToBytes ((t.sentSteps ++ ss.flatten).map _) = _
    rw [k3]
    congr 1
    apply List.map_congr_left
    intro i hi
    rw [ew]
    refine (C81_recorded_steps_stay env conf cap _ ds hid' ho' _ tm i (s1.ptrs _ tm i ?_)).symm
    refine List.mem_append_left _ ?_
    show i ∈ t.sentSteps ++ ss.flatten
    rw [k3]; exact hi
  refine ⟨t', late, t.col.kept, h1, h2, (gt.all hc).symm, ?_⟩
  by_cases hl : t.col.kept.length + late.length < t.col.cap
  · rw [if_pos hl, List.append_nil, ← st1']
    exact h3 hl
  · rw [if_neg hl]
    obtain ⟨more, m1, m2⟩ := h4 (Nat.not_lt.1 hl)
    have em : late.take (late.length - t'.col.kept.length) = more := by
      rw [← m1, List.length_append, Nat.add_sub_cancel, List.take_left']
      rfl
    rw [em, List.map_append, stepsToBytes_append, ← st1']
    exact m2

section
open Wire Udp Sender Out Spec

/-- **C107**: as `C107_service_at_collector`, the service being ended either way; after EndHttpService the log has the status of the response. -/
theorem C107_service_at_collector_however_ended (env : Oracle) (conf : TraceConf) (cap : Nat) (before after : List Trace.Call) (p : Nat) (t : Tctx) {e : Trace.Call} (he : EndOf p e)
    (h : (Trace.history (Trace.start env conf cap) before).tctxs[p]? = some t) (hc : t.closed = false)
    (hb : 1 ≤ (Trace.history (Trace.start env conf cap) before).conf.bulk)
    (hk : Trace.keepsXlog (xlogFor t (decisionAt (Trace.history (Trace.start env conf cap) before) t) (elapsedAt (Trace.history (Trace.start env conf cap) before) t)) = true)
    (hid : DistinctIds env (Trace.history (Trace.start env conf cap) (before ++ e :: after)).tick)
    (tr : Traffic (Trace.history (Trace.start env conf cap) (before ++ e :: after))) (ok : tr.Ok) (received : List Bytes)
    (hr : received.Perm (tr.calls.flatMap datagramsOf)) :
    let w := Trace.history (Trace.start env conf cap) before
    let offered := (Trace.history (Trace.start env conf cap) (before ++ e :: after)).proxy.offered
    logsOfId (obtained received) t.txid.toInt =
      [denoteXlog { xlogFor t (decisionAt w t) (elapsedAt w t) with objHash := w.conf.objHash, status := (statusGiven e).getD t.status }] ∧
    ∀ r ∈ [(TextKind.service, t.serviceName), (.hashMessage, formatInt 10 t.gxid.toInt), (.login, t.login), (.desc, t.desc)],
      crc32 r.2 ≠ 0 → (∀ a ∈ offered, a.xtype = ascii (kindCode r.1) → a.hash = crc32 r.2 → a.text = r.2) →
      Shows (obtained received) r.1 (crc32 r.2).toInt r.2 := by
  intro w offered
  obtain ⟨-, h2, -⟩ := traffic_obtained env conf cap _ tr ok
  have hp := h2 received hr
  have hh : Trace.history (Trace.start env conf cap) (before ++ e :: after) =
      Trace.history (Trace.perform w e) after := by simp [w, Trace.history, List.foldl_append]
  have hx := C61_http_end_differs_in_status_only h hc hb he
  rw [C61_log_carries_the_service _ p t h hc hb, if_pos hk] at hx
  replace hx : xlogsOf (newPacks w (Trace.perform w e)) =
    [{ xlogFor t (decisionAt w t) (elapsedAt w t) with objHash := w.conf.objHash, status := (statusGiven e).getD t.status }] := hx
  generalize hX : ({ xlogFor t (decisionAt w t) (elapsedAt w t) with objHash := w.conf.objHash, status := (statusGiven e).getD t.status } : XlogPack) = x at hx ⊢
  have hmem : x ∈ xlogsOf (Trace.history (Trace.start env conf cap) (before ++ e :: after)).proxy.direct := by
    rw [hh]
    obtain ⟨⟨l, e9, -⟩, -⟩ := grow_history after (Trace.perform w e)
    rw [e9, xlogsOf_append]
    refine List.mem_append_left _ ?_
    have : x ∈ xlogsOf (newPacks w (Trace.perform w e)) := by rw [hx]; simp
    obtain ⟨q, hq, e9⟩ := List.mem_filterMap.1 this
    exact List.mem_filterMap.2 ⟨q, List.mem_of_mem_drop hq, e9⟩
  have htx : x.txid = t.txid := by rw [← hX]; rfl
  constructor
  · have h1 := logsOfId_perm hp t.txid.toInt
    rw [logsOfId_denoted, packsOf, xlogsOf_append] at h1
    have e0 : xlogsOf (List.map Pack.text (Trace.history (Trace.start env conf cap) (before ++ e :: after)).proxy.offered) = [] := by
      simp [xlogsOf]
    rw [e0, List.append_nil, ← htx, filter_unique (C36_at_most_one_log env conf cap _ hid).1 hmem] at h1
    rw [← htx]
    exact List.perm_singleton.1 h1
  · intro r hrm hne hclash
    have hh : ∀ name : Bytes, textHash name = crc32 name := by
      intro name
      unfold textHash
      split
      · next h => subst h; decide
      · exact C16_hash_is_crc32 name
    have key : (r.1, crc32 r.2) ∈ resentRefs x := by
      rw [← hX]
      simp only [List.mem_cons, List.not_mem_nil, or_false] at hrm
      rcases hrm with rfl | rfl | rfl | rfl <;> simp [resentRefs, xlogFor, hh]
    rcases resent_known env conf cap _ x hmem _ key with h0 | ⟨text, ht, hcrc⟩
    · exact absurd h0 hne
    · have : text = r.2 := hclash _ ht rfl rfl
      subst this
      refine ⟨hp.mem_iff.2 (mem_denoted.2 (Or.inr ⟨_, ht, by rw [shown_code]⟩)), fun s hs => ?_⟩
      rcases mem_denoted.1 (hp.mem_iff.1 hs) with ⟨q, hq, e9⟩ | ⟨a, ha, e⟩
      · exact (denoted_text e9 (plain_history env conf cap _ q hq)).elim
      · obtain ⟨k, e1, e2, -⟩ := honest_history env conf cap _ a ha
        injection e with i1 i2 i3
        rw [i3, hclash a ha (by rw [i1, e1, ← kindCode_eq, shown_code]) (BitVec.eq_of_toInt_eq i2.symm)]

/-- **C107**, from the calls to the collector, for a service started and ended in any way (`Received`: what its start and its calls told): when all its
datagrams have arrived, the direct ones in order, the collector decodes exactly that. -/
theorem C107_life_at_collector (env : Oracle) (conf : TraceConf) (cap : Nat) (before : List Trace.Call) (c : Trace.Call) (cs : List Trace.Call) (e : Trace.Call) (first : List Step)
    (hl : Received (history (start env conf cap) before) c cs e first)
    (tr : Traffic (history (start env conf cap) (before ++ c :: (cs ++ [e])))) (ok : tr.Ok) (received : List Bytes)
    (hr : received.Perm (tr.calls.flatMap datagramsOf)) (hord : (tr.direct.flatMap datagramsOf).Sublist received) :
    let w := history (start env conf cap) before
    let w' := history (perform w c) cs
    ∃ ss t', Story w.tctxs.length (perform w c) cs ss ∧ w'.tctxs[w.tctxs.length]? = some t' ∧ (decisionAt w' t' = discardNone →
      ∀ ds : List Wire.WStep, (first ++ ss).map Spec.denoteStep = ds.map some →
        Wire.steps (profileFor (obtained received) (w.env.id w.tick).toInt) = some ds) := by
  obtain ⟨ss, t', h1, h2, h3⟩ := C83_received_decoded hl
  refine ⟨ss, t', h1, h2, fun hd ds hds => ?_⟩
  rw [C107_profile_in_order env conf cap _ tr ok received hr hord]
  have e1 : history (start env conf cap) (before ++ c :: (cs ++ [e])) = perform (history (perform (history (start env conf cap) before) c) cs) e := by
    simp [history, List.foldl_append]
  rw [e1]
  exact h3 hd ds hds

/-! ## A concrete case -/

namespace Demo

/-- The second service of `seenBefore`, ended with the response 404. -/
def seen404Calls : List Trace.Call := seenBefore ++ .endHttpService (.traced 1) (some 404) :: []
def seen404World : World := Trace.history (Trace.start env conf 100) seen404Calls

def seen404Schedule : List (Bytes ⊕ Int) :=
  seen404World.proxy.offered.map (fun t => .inl (onWire (.text t))) ++ List.replicate 12 (.inr 60)
def seen404Queue : State := (Scouter.exec { cap := 100 } seen404Schedule).getD { cap := 100 }

theorem seen404Queue_facts : (Scouter.exec { cap := 100 } seen404Schedule).isSome = true ∧ seen404Queue.queue = [] ∧ seen404Queue.phase = .top ∧
    seen404Queue.accepted = seen404World.proxy.offered.map fun t => onWire (.text t) := by
  refine ⟨by decide +kernel, by decide +kernel, by decide +kernel, by decide +kernel⟩

theorem seen404Queue_reachable : Sender.Reachable seen404Queue := by
  obtain ⟨q, hq⟩ := Option.isSome_iff_exists.1 seen404Queue_facts.1
  have : seen404Queue = q := by unfold seen404Queue; rw [hq]; rfl
  rw [this]
  exact exec_reachable _ _ _ (.init 100) hq

def seen404Traffic : Traffic seen404World where
  queue := seen404Queue
  reachable := seen404Queue_reachable
  rest := ⟨seen404Queue_facts.2.1, seen404Queue_facts.2.2.1⟩
  accepted := seen404Queue_facts.2.2.2
  max := fun _ => 60
  ids := fun i n => BitVec.ofNat 64 (1 + i + n)
  queueMax := fun _ => 60
  queueIds := fun i n => BitVec.ofNat 64 (1000 + 100 * i + n)

theorem seen404Traffic_ok : seen404Traffic.Ok where
  small := fun _ => (by decide : 60 ≤ 65535)
  fits := by unfold Transmission.Fits; decide +kernel
  distinct := by decide +kernel

theorem seen404_ids : DistinctIds env seen404World.tick := ids_distinct _ (by decide +kernel)

/-- The collector has one log of the service, with the status 404. -/
example : ∃ (t : Tctx) (x : XlogPack), (Trace.history (Trace.start env conf 100) seenBefore).tctxs[1]? = some t ∧
    logsOfId (obtained (seen404Traffic.calls.flatMap datagramsOf)) t.txid.toInt = [denoteXlog x] ∧ x.status = 404 := by
  obtain ⟨t, h1, h2, h3, h4, h5⟩ := seen_second
  have h := C107_service_at_collector_however_ended env conf 100 seenBefore [] 1 t (.http 404)
    h1 h2 seen_bulk h3 seen404_ids
    seen404Traffic seen404Traffic_ok _ (.refl _)
  exact ⟨t, _, h1, h.1, rfl⟩

/-- Late steps after the end of an http service. -/
def late404Calls : List Trace.Call := lateBefore ++ .endHttpService (.traced 0) (some 404) :: lateAfter

example : AllWellFormed (Trace.start env lateConf 100) late404Calls := ⟨trivial, trivial, trivial, trivial, trivial, trivial, trivial⟩
example : AllOnce (Trace.start env lateConf 100) late404Calls := ⟨trivial, trivial, trivial, trivial, trivial, trivial, trivial⟩
example : (Trace.history (Trace.start env lateConf 100) late404Calls).tctxs[0]?.map (·.sentSteps) = some [0, 1, 0, 1, 2, 3] := by decide +kernel

end Demo

end

end Scouter
