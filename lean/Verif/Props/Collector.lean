import Verif.Spec.Collector
import Verif.Props.Network
import Verif.Props.References
import Verif.Props.Story
import Verif.Props.Ending
/-!
# C107: what the collector shows is what the application did
-/
namespace Scouter
open Wire Udp Sender Out Spec

/-- What a collector obtains from the datagrams of each call. -/
theorem collector_per_call (ts : List Transmission) (hf : ∀ t ∈ ts, t.Fits) (hid : (ts.flatMap Transmission.drawable).Nodup)
    (hm : ∀ b ∈ ts.flatMap Transmission.buffers, b ≠ [] ∧ ∃ q, meaning b = some q) :
    (∀ t ∈ ts, callSend t.ids t.max t.call = .ok (true, datagramsOf t)) ∧
      ∀ received : List Bytes, (∀ d ∈ received, d ∈ ts.flatMap datagramsOf) →
        (∀ d ∈ ts.flatMap datagramsOf, d ∈ received) → ∀ t ∈ ts,
          ((((datagramsOf t).filterMap datagram).flatMap (obtainedFrom (received.filterMap datagram)))).Perm (t.buffers.filterMap meaning) := by
  have hex : ∀ t : Transmission, ∃ (ms : List Msg), t ∈ ts → callSend t.ids t.max t.call = .ok (true, datagramsOf t) ∧
      (datagramsOf t).map datagram = (ms.flatMap Msg.datagrams).map some ∧ (ms.flatMap Msg.buffers).Perm t.buffers ∧
      (∀ m ∈ ms, m.Ok) ∧ (ms.filterMap Msg.id?).Sublist (t.drawable.map BitVec.toInt) := by
    intro t
    by_cases ht : t ∈ ts
    · obtain ⟨sent, ms, h1, h2⟩ := callSend_msgs t (hf t ht) fun b hb => (hm b (List.mem_flatMap.2 ⟨t, ht, hb⟩)).1
      have e : datagramsOf t = sent := by unfold datagramsOf; rw [h1]
      exact ⟨ms, fun _ => by rw [e]; exact ⟨h1, h2⟩⟩
    · exact ⟨[], fun h => absurd h ht⟩
  choose M hSM using hex
  have hread : ∀ t ∈ ts, (datagramsOf t).filterMap datagram = (M t).flatMap Msg.datagrams := by
    intro t ht
    have h := (hSM t ht).2.1
    have e : (datagramsOf t).filterMap datagram = ((datagramsOf t).map datagram).filterMap id := by rw [List.filterMap_map]; rfl
    rw [e, h, List.filterMap_map]
    exact List.filterMap_some
  have hnd : ((ts.flatMap M).filterMap Msg.id?).Nodup := by
    have hsub : ∀ l : List Transmission, (∀ t ∈ l, t ∈ ts) →
        ((l.flatMap M).filterMap Msg.id?).Sublist ((l.flatMap Transmission.drawable).map BitVec.toInt) := by
      intro l
      induction l with
      | nil => intro _; exact .refl _
      | cons t l ih =>
        intro hl
        rw [List.flatMap_cons, List.flatMap_cons, List.filterMap_append, List.map_append]
        exact ((hSM t (hl t (by simp))).2.2.2.2).append (ih fun t ht => hl t (List.mem_cons_of_mem _ ht))
    refine (hsub ts fun _ h => h).nodup ?_
    exact List.pairwise_map.2 (hid.imp fun h e => h (BitVec.eq_of_toInt_eq e))
  have hmsg : ∀ t ∈ ts, ∀ m ∈ M t, m.buffers.map meaning = (m.buffers.filterMap meaning).map some := by
    intro t ht m hmt
    have : ∀ l : List Bytes, (∀ b ∈ l, ∃ q, meaning b = some q) → l.map meaning = (l.filterMap meaning).map some := by
      intro l
      induction l with
      | nil => intro _; rfl
      | cons b l ih =>
        intro hl
        obtain ⟨q, hq⟩ := hl b (by simp)
        simp [hq, ih fun b hb => hl b (List.mem_cons_of_mem _ hb)]
    refine this _ fun b hb => (hm b (List.mem_flatMap.2 ⟨t, ht, ?_⟩)).2
    exact (hSM t ht).2.2.1.mem_iff.1 (List.mem_flatMap.2 ⟨m, hmt, hb⟩)
  have hall : ∀ d, (∃ b ∈ ts.flatMap datagramsOf, datagram b = some d) ↔ d ∈ (ts.flatMap M).flatMap Msg.datagrams := by
    intro d
    simp only [List.mem_flatMap]
    constructor
    · rintro ⟨b, ⟨t, ht, hb⟩, e⟩
      have : d ∈ (datagramsOf t).filterMap datagram := List.mem_filterMap.2 ⟨b, hb, e⟩
      rw [hread t ht] at this
      obtain ⟨m, h1, h2⟩ := List.mem_flatMap.1 this
      exact ⟨m, ⟨t, ht, h1⟩, h2⟩
    · rintro ⟨m, ⟨t, ht, h1⟩, h2⟩
      have : d ∈ (datagramsOf t).filterMap datagram := by rw [hread t ht]; exact List.mem_flatMap.2 ⟨m, h1, h2⟩
      obtain ⟨b, hb, e⟩ := List.mem_filterMap.1 this
      exact ⟨b, ⟨t, ht, hb⟩, e⟩
  refine ⟨fun t ht => (hSM t ht).1, fun received h1 h2 t ht => ?_⟩
  rw [hread t ht, List.flatMap_assoc]
  have e : (M t).flatMap (fun m => m.datagrams.flatMap (obtainedFrom (received.filterMap datagram))) =
      (M t).flatMap fun m => m.buffers.filterMap meaning := by
    rw [List.flatMap_def, List.flatMap_def]
    congr 1
    refine List.map_congr_left fun m hmt => ?_
    refine (obtained_msg hnd (List.mem_flatMap.2 ⟨t, ht, hmt⟩) ((hSM t ht).2.2.2.1 m hmt) (hmsg t ht m hmt) ?_).2 fun d hd => ?_
    · intro d hd
      obtain ⟨b, hb, e⟩ := List.mem_filterMap.1 hd
      exact (hall d).1 ⟨b, h1 b hb, e⟩
    · obtain ⟨b, hb, e⟩ := (hall d).2 (List.mem_flatMap.2 ⟨m, List.mem_flatMap.2 ⟨t, ht, hmt⟩, hd⟩)
      exact List.mem_filterMap.2 ⟨b, h2 b hb, e⟩
  rw [e]
  have e2 : (M t).flatMap (fun m => m.buffers.filterMap meaning) = ((M t).flatMap Msg.buffers).filterMap meaning := by
    rw [List.filterMap_flatMap]
  rw [e2]
  exact (hSM t ht).2.2.1.filterMap _

/-! ## What leaves the agent -/

section
variable {w : World} (tr : Traffic w)

/-- All packs that leave. -/
def packsOf (w : World) : List Pack := w.proxy.direct ++ w.proxy.offered.map Pack.text

theorem queued_buffers (calls : List Sender.Call) : ∀ (max : Nat → Nat) (ids : Nat → Nat → BitVec 64),
    (calls.mapIdx fun i c => ({ call := c, max := max i, ids := ids i } : Transmission)).flatMap Transmission.buffers = calls.flatMap Call.buffers := by
  induction calls with
  | nil => intro _ _; rfl
  | cons c cs ih =>
    intro max ids
    rw [List.mapIdx_cons, List.flatMap_cons, List.flatMap_cons]
    rw [ih (fun i => max (i + 1)) (fun i => ids (i + 1))]
    cases c <;> rfl

theorem Traffic.queued_eq : tr.queued.flatMap Transmission.buffers = w.proxy.offered.map fun t => onWire (.text t) := by
  unfold Traffic.queued
  rw [queued_buffers, ← tr.accepted, (C31_exactly_once_in_order _ tr.reachable).1, tr.rest.1]
  simp [State.held, tr.rest.2]

theorem Traffic.buffers_eq : tr.calls.flatMap Transmission.buffers = (packsOf w).map onWire := by
  unfold Traffic.calls Traffic.direct packsOf
  rw [List.flatMap_append, directCalls_buffers, tr.queued_eq]
  simp

end

section
variable (env : Oracle) (conf : TraceConf) (cap : Nat) (cs : List Trace.Call)

theorem packs_sendable (tr : Traffic (Trace.history (Trace.start env conf cap) cs)) (ok : tr.Ok) :
    ∀ p ∈ packsOf (Trace.history (Trace.start env conf cap) cs), SendablePack p ∧ ∃ q, denotePack p = some q := by
  intro p hp
  rcases List.mem_append.1 hp with hp | hp
  · exact direct_sendable env conf cap cs tr.max tr.ids ok.small (fun t ht => ok.fits t (List.mem_append_left _ ht)) p hp
  · obtain ⟨t, -, rfl⟩ := List.mem_map.1 hp
    exact ⟨trivial, _, rfl⟩

/-- What the collector obtains from all of it. -/
theorem traffic_obtained (tr : Traffic (Trace.history (Trace.start env conf cap) cs)) (ok : tr.Ok) :
    let w := Trace.history (Trace.start env conf cap) cs
    (∀ t ∈ tr.calls, callSend t.ids t.max t.call = .ok (true, datagramsOf t)) ∧
    (∀ received : List Bytes, received.Perm (tr.calls.flatMap datagramsOf) → (obtained received).Perm ((packsOf w).filterMap denotePack)) ∧
    (∀ received : List Bytes, (∀ d ∈ received, d ∈ tr.calls.flatMap datagramsOf) → ∀ q ∈ obtained received, q ∈ (packsOf w).filterMap denotePack) := by
  intro w
  have hs := packs_sendable env conf cap cs tr ok
  have hex : ∀ p : Pack, ∃ q : WPack, p ∈ packsOf w → denotePack p = some q := by
    intro p
    by_cases hp : p ∈ packsOf w
    · obtain ⟨q, hq⟩ := (hs p hp).2; exact ⟨q, fun _ => hq⟩
    · exact ⟨.map [], fun h => absurd h hp⟩
  choose D hD using hex
  have hden : ((packsOf w).map fun p => (p, D p)).map (·.2) = (packsOf w).filterMap denotePack := by
    have : ∀ l : List Pack, (∀ p ∈ l, p ∈ packsOf w) → (l.map fun p => (p, D p)).map (·.2) = l.filterMap denotePack := by
      intro l
      induction l with
      | nil => intro _; rfl
      | cons p l ih =>
        intro hl
        rw [List.map_cons, List.map_cons, List.filterMap_cons, hD p (hl p (by simp)), ih fun p hp => hl p (List.mem_cons_of_mem _ hp)]
    exact this _ fun _ h => h
  obtain ⟨sent, h1, h2, -, h4⟩ := C92_collector_obtains tr.calls ok.fits ok.distinct ((packsOf w).map fun p => (p, D p)) (by
    intro q hq
    obtain ⟨p, hp, rfl⟩ := List.mem_map.1 hq
    exact ⟨(hs p hp).1, hD p hp⟩) (by rw [tr.buffers_eq, List.map_map]; rfl)
  have hsent : ∀ t ∈ tr.calls, sent t = datagramsOf t := fun t ht => by unfold datagramsOf; rw [h1 t ht]
  have hflat : tr.calls.flatMap sent = tr.calls.flatMap datagramsOf := by
    rw [List.flatMap_def, List.flatMap_def]
    exact congrArg List.flatten (List.map_congr_left hsent)
  rw [hden] at h2 h4
  rw [hflat] at h2 h4
  exact ⟨fun t ht => by rw [← hsent t ht]; exact h1 t ht, h2, fun r hr => (h4 r hr).1⟩

end

theorem mem_denoted {w : World} {q : WPack} :
    q ∈ (packsOf w).filterMap denotePack ↔ (∃ p ∈ w.proxy.direct, denotePack p = some q) ∨ ∃ t ∈ w.proxy.offered, q = .text (shown t.xtype) t.hash.toInt (shown t.text) := by
  simp only [packsOf, List.filterMap_append, List.mem_append, List.mem_filterMap]
  refine or_congr Iff.rfl ⟨?_, ?_⟩
  · rintro ⟨p, hp, e⟩
    obtain ⟨t, ht, rfl⟩ := List.mem_map.1 hp
    exact ⟨t, ht, by injection e with e; exact e.symm⟩
  · rintro ⟨t, ht, rfl⟩
    exact ⟨.text t, List.mem_map_of_mem ht, rfl⟩

theorem shown_code (k : TextKind) : shown (ascii (kindCode k)) = ascii (kindCode k) := by
  cases k <;> decide +kernel

theorem Known.named {w : World} {qs : List WPack} (hq : ∀ q ∈ (packsOf w).filterMap denotePack, q ∈ qs) {k : TextKind} {h : BitVec 32}
    (hk : Known w.proxy.offered k h) : Named qs k h.toInt := by
  rcases hk with h0 | ⟨text, ht, hc⟩
  · exact Or.inl (by rw [h0]; rfl)
  · exact Or.inr ⟨text, hq _ (mem_denoted.2 (Or.inr ⟨_, ht, by rw [shown_code]⟩)), by rw [hc]⟩

/-- An announcement that reaches the collector is of one of the packs sent directly, or a text. -/
theorem denoted_xlog {p : Pack} {x : Xlog} (h : denotePack p = some (.xlog x)) : ∃ y, p = .xlog y ∧ x = denoteXlog y := by
  cases p <;> simp [denotePack] at h
  exact ⟨_, rfl, h.symm⟩

theorem denoted_profile {p : Pack} {a b c d : Int} {bs : Bytes} (h : denotePack p = some (.profile a b c d bs)) :
    ∃ y, p = .profile y ∧ c = y.service.toInt ∧ d = y.txid.toInt ∧ bs = y.profile := by
  cases p <;> simp [denotePack] at h
  exact ⟨_, rfl, h.2.2.1.symm, h.2.2.2.1.symm, h.2.2.2.2.symm⟩

theorem denoted_text {p : Pack} {k : Bytes} {h : Int} {bs : Bytes} (e : denotePack p = some (.text k h bs)) (hp : Plain p) : False := by
  cases p <;> simp [denotePack, Plain] at e hp

/-- **C107**: the application makes any calls whatever, its announcements are not dropped by the queue, and all datagrams arrive, in whatever order.
Then for every hash of every log the collector obtains (the names of service and thread, login, description, error, user agent, referer) and of every
step of every profile it obtains, it has also obtained a text of that kind with that hash. -/
theorem C107_everything_has_a_name (env : Oracle) (conf : TraceConf) (cap : Nat) (cs : List Trace.Call) (hc : OwnStepsPlain cs)
    (tr : Traffic (Trace.history (Trace.start env conf cap) cs)) (ok : tr.Ok) (received : List Bytes)
    (hr : received.Perm (tr.calls.flatMap datagramsOf)) :
    (∀ x, .xlog x ∈ obtained received → ∀ r ∈ logRefs x, Named (obtained received) r.1 r.2) ∧
    ∀ time objHash service txid bytes, .profile time objHash service txid bytes ∈ obtained received →
      Named (obtained received) .service service ∧
      ∃ ss : List Step, bytes = stepsToBytes (ss.map some) ∧ ∀ s ∈ ss, ∀ r ∈ stepRefs s, Named (obtained received) r.1 r.2.toInt := by
  obtain ⟨-, h2, -⟩ := traffic_obtained env conf cap cs tr ok
  have hp := h2 received hr
  have hq : ∀ q ∈ (packsOf (Trace.history (Trace.start env conf cap) cs)).filterMap denotePack, q ∈ obtained received := fun q hq => hp.mem_iff.2 hq
  obtain ⟨r1, -, r3⟩ := C100_no_dangling env conf cap cs hc
  constructor
  · intro x hx r hr
    rcases mem_denoted.1 (hp.mem_iff.1 hx) with ⟨p, hp, e⟩ | ⟨t, -, e⟩
    · obtain ⟨y, rfl, rfl⟩ := denoted_xlog e
      have hy : y ∈ xlogsOf (Trace.history (Trace.start env conf cap) cs).proxy.direct := List.mem_filterMap.2 ⟨_, hp, rfl⟩
      have key : r ∈ (resentRefs y ++ keptRefs y).map fun r => (r.1, r.2.toInt) := hr
      obtain ⟨r', hr', rfl⟩ := List.mem_map.1 key
      exact (r1 y hy r' hr').named hq
    · cases e
  · intro a b c d bs hx
    rcases mem_denoted.1 (hp.mem_iff.1 hx) with ⟨p, hp, e⟩ | ⟨t, -, e⟩
    · obtain ⟨y, rfl, rfl, -, rfl⟩ := denoted_profile e
      have hy : y ∈ profilesOf (Trace.history (Trace.start env conf cap) cs).proxy.direct := List.mem_filterMap.2 ⟨_, hp, rfl⟩
      obtain ⟨g1, ss, g2, g3⟩ := r3 y hy
      exact ⟨g1.named hq, ss, g2, fun s hs r hr => (g3 s hs r hr).named hq⟩
    · cases e

/-- **C107**: whatever of it arrives, and however often, every text the collector obtains has the hash it comes with: no name is ever shown for something else. -/
theorem C107_no_wrong_text (env : Oracle) (conf : TraceConf) (cap : Nat) (cs : List Trace.Call)
    (tr : Traffic (Trace.history (Trace.start env conf cap) cs)) (ok : tr.Ok) (received : List Bytes)
    (hr : ∀ d ∈ received, d ∈ tr.calls.flatMap datagramsOf) (kind : Bytes) (h : Int) (s : Bytes) (hs : .text kind h s ∈ obtained received) :
    ∃ (k : TextKind) (text : Bytes), kind = ascii (kindCode k) ∧ s = shown text ∧ (crc32 text).toInt = h ∧ text ≠ [] := by
  obtain ⟨-, -, h3⟩ := traffic_obtained env conf cap cs tr ok
  rcases mem_denoted.1 (h3 received hr _ hs) with ⟨p, hp, e⟩ | ⟨t, ht, e⟩
  · exact (denoted_text e (plain_history env conf cap cs p hp)).elim
  · obtain ⟨k, e1, e2, e3⟩ := honest_history env conf cap cs t ht
    cases e
    exact ⟨k, t.text, by rw [e1, ← kindCode_eq, shown_code], rfl, by rw [e2], e3⟩

theorem logsOfId_perm {a b : List WPack} (h : a.Perm b) (id : Int) : (logsOfId a id).Perm (logsOfId b id) := h.filterMap _

theorem logsOfId_denoted (ps : List Pack) (id : BitVec 64) :
    logsOfId (ps.filterMap denotePack) id.toInt = ((xlogsOf ps).filter fun x => x.txid == id).map denoteXlog := by
  induction ps with
  | nil => rfl
  | cons p ps ih =>
    unfold logsOfId xlogsOf at ih ⊢
    cases p <;> simp only [List.filterMap_cons, denotePack, ih]
    rename_i x
    rw [List.filter_cons]
    by_cases hx : x.txid = id
    · have e : (denoteXlog x).txid = id.toInt := by rw [← hx]; rfl
      rw [if_pos e, if_pos (by simpa using hx)]; rfl
    · have e : ¬ (denoteXlog x).txid = id.toInt := fun e => hx (BitVec.eq_of_toInt_eq e)
      rw [if_neg e, if_neg (by simpa using hx)]

theorem filter_unique {l : List XlogPack} (h : (l.map (·.txid)).Nodup) {x : XlogPack} (hx : x ∈ l) :
    (l.filter fun y => y.txid == x.txid) = [x] := by
  induction l with
  | nil => simp at hx
  | cons y l ih =>
    rw [List.map_cons, List.nodup_cons] at h
    rw [List.filter_cons]
    rcases List.mem_cons.1 hx with rfl | hx
    · rw [if_pos (by simp)]
      congr 1
      rw [List.filter_eq_nil_iff]
      intro z hz e
      exact h.1 (List.mem_map.2 ⟨z, hz, by simpa using e⟩)
    · rw [if_neg, ih h.2 hx]
      intro e
      exact h.1 (List.mem_map.2 ⟨x, hx, by simpa using (eq_of_beq e).symm⟩)

theorem resent_known (env : Oracle) (conf : TraceConf) (cap : Nat) (cs : List Trace.Call) :
    ∀ x ∈ xlogsOf (Trace.history (Trace.start env conf cap) cs).proxy.direct, ∀ r ∈ resentRefs x,
      Known (Trace.history (Trace.start env conf cap) cs).proxy.offered r.1 r.2 := by
  intro x hx r hr
  have h0 : Refs.Inv 0 0 False (Trace.start env conf cap) :=
    have h := Refs.inv_start env conf cap
    ⟨h.some', h.cached, False.elim, False.elim, fun p hp => by simp [Trace.start, Proxy.init] at hp⟩
  have h := (Refs.inv_history cs (fun hf => hf.elim) h0).1
  exact (h.packs _ (Refs.mem_xlogs hx)).1 r hr

/-- **C107**: a service that is ended, at any point of whatever the application does, and not discarded by sampling: when all datagrams have arrived,
in whatever order, the collector has exactly one log of it, telling what the service's context said when it was ended; and for the service's name, the
thread's, the login and the description it shows the very text, provided no other text was announced under its hash. -/
theorem C107_service_at_collector (env : Oracle) (conf : TraceConf) (cap : Nat) (before after : List Trace.Call) (p : Nat) (t : Tctx)
    (h : (Trace.history (Trace.start env conf cap) before).tctxs[p]? = some t) (hc : t.closed = false)
    (hb : 1 ≤ (Trace.history (Trace.start env conf cap) before).conf.bulk)
    (hk : Trace.keepsXlog (xlogFor t (decisionAt (Trace.history (Trace.start env conf cap) before) t) (elapsedAt (Trace.history (Trace.start env conf cap) before) t)) = true)
    (hid : DistinctIds env (Trace.history (Trace.start env conf cap) (before ++ .endService (.traced p) :: after)).tick)
    (tr : Traffic (Trace.history (Trace.start env conf cap) (before ++ .endService (.traced p) :: after))) (ok : tr.Ok) (received : List Bytes)
    (hr : received.Perm (tr.calls.flatMap datagramsOf)) :
    let w := Trace.history (Trace.start env conf cap) before
    let offered := (Trace.history (Trace.start env conf cap) (before ++ .endService (.traced p) :: after)).proxy.offered
    logsOfId (obtained received) t.txid.toInt =
      [denoteXlog { xlogFor t (decisionAt w t) (elapsedAt w t) with objHash := w.conf.objHash }] ∧
    ∀ r ∈ [(TextKind.service, t.serviceName), (.hashMessage, formatInt 10 t.gxid.toInt), (.login, t.login), (.desc, t.desc)],
      crc32 r.2 ≠ 0 → (∀ a ∈ offered, a.xtype = ascii (kindCode r.1) → a.hash = crc32 r.2 → a.text = r.2) →
      Shows (obtained received) r.1 (crc32 r.2).toInt r.2 := by
  intro w offered
  obtain ⟨-, h2, -⟩ := traffic_obtained env conf cap _ tr ok
  have hp := h2 received hr
  have he : Trace.history (Trace.start env conf cap) (before ++ .endService (.traced p) :: after) =
      Trace.history (Trace.perform w (.endService (.traced p))) after := by simp [w, Trace.history, List.foldl_append]
  have hx := C61_log_carries_the_service w p t h hc hb
  rw [if_pos hk] at hx
  generalize hX : ({ xlogFor t (decisionAt w t) (elapsedAt w t) with objHash := w.conf.objHash } : XlogPack) = x at hx ⊢
  have hmem : x ∈ xlogsOf (Trace.history (Trace.start env conf cap) (before ++ .endService (.traced p) :: after)).proxy.direct := by
    rw [he]
    obtain ⟨⟨l, e, -⟩, -⟩ := grow_history after (Trace.perform w (.endService (.traced p)))
    rw [e, xlogsOf_append]
    refine List.mem_append_left _ ?_
    have : x ∈ xlogsOf (newPacks w (Trace.perform w (.endService (.traced p)))) := by rw [hx]; simp
    obtain ⟨q, hq, e⟩ := List.mem_filterMap.1 this
    exact List.mem_filterMap.2 ⟨q, List.mem_of_mem_drop hq, e⟩
  have htx : x.txid = t.txid := by rw [← hX]; rfl
  constructor
  · have h1 := logsOfId_perm hp t.txid.toInt
    rw [logsOfId_denoted, packsOf, xlogsOf_append] at h1
    have e0 : xlogsOf (List.map Pack.text (Trace.history (Trace.start env conf cap) (before ++ .endService (.traced p) :: after)).proxy.offered) = [] := by
      simp [xlogsOf]
    rw [e0, List.append_nil, ← htx, filter_unique (C36_at_most_one_log env conf cap _ hid).1 hmem] at h1
    rw [← htx]
    exact List.perm_singleton.1 h1
  · intro r hrm hne hclash
    have hh : ∀ name : Bytes, textHash name = crc32 name := by
      intro name
      unfold textHash
      split
      · next h => subst h; decide
      · exact C16_hash_is_crc32 name
    have key : (r.1, crc32 r.2) ∈ resentRefs x := by
      rw [← hX]
      simp only [List.mem_cons, List.not_mem_nil, or_false] at hrm
      rcases hrm with rfl | rfl | rfl | rfl <;> simp [resentRefs, xlogFor, hh]
    rcases resent_known env conf cap _ x hmem _ key with h0 | ⟨text, ht, hcrc⟩
    · exact absurd h0 hne
    · have : text = r.2 := hclash _ ht rfl rfl
      subst this
      refine ⟨hp.mem_iff.2 (mem_denoted.2 (Or.inr ⟨_, ht, by rw [shown_code]⟩)), fun s hs => ?_⟩
      rcases mem_denoted.1 (hp.mem_iff.1 hs) with ⟨q, hq, e⟩ | ⟨a, ha, e⟩
      · exact (denoted_text e (plain_history env conf cap _ q hq)).elim
      · obtain ⟨k, e1, e2, -⟩ := honest_history env conf cap _ a ha
        injection e with i1 i2 i3
        rw [i3, hclash a ha (by rw [i1, e1, ← kindCode_eq, shown_code]) (BitVec.eq_of_toInt_eq i2.symm)]

/-! ## Profiles -/

theorem flatMap_filterMap' {α β γ : Type} (f : α → Option β) (g : β → List γ) (l : List α) :
    (l.filterMap f).flatMap g = l.flatMap fun a => (f a).toList.flatMap g := by
  induction l with
  | nil => rfl
  | cons a l ih =>
    rw [List.filterMap_cons, List.flatMap_cons, ← ih]
    cases f a <;> simp

theorem flatMap_perm {α β : Type} {a b : List α} (h : a.Perm b) (f : α → List β) : (a.flatMap f).Perm (b.flatMap f) := h.flatMap_right _

theorem perm_flatMap_nil {α β : Type} {a b : List α} (h : a.Perm b) (f : α → List β) (hb : ∀ x ∈ b, f x = []) : a.flatMap f = [] := by
  rw [List.flatMap_eq_nil_iff]
  exact fun x hx => hb x (h.mem_iff.1 hx)

theorem directCalls_flatMap {β : Type} (packs : List Pack) (g : Transmission → List β) (f : Pack → List β) :
    ∀ (max : Nat → Nat) (ids : Nat → Nat → BitVec 64),
      (∀ p ∈ packs, ∀ i, ({ call := .buffer (onWire p), max := max i, ids := ids i } : Transmission) ∈ directCalls packs max ids →
        g { call := .buffer (onWire p), max := max i, ids := ids i } = f p) →
      (directCalls packs max ids).flatMap g = packs.flatMap f := by
  induction packs with
  | nil => intro _ _ _; rfl
  | cons p ps ih =>
    intro max ids h
    have hc : directCalls (p :: ps) max ids =
        { call := .buffer (onWire p), max := max 0, ids := ids 0 } :: directCalls ps (fun i => max (i + 1)) fun i => ids (i + 1) := by
      unfold directCalls
      rw [List.mapIdx_cons]
    rw [hc, List.flatMap_cons, List.flatMap_cons, h p (by simp) 0 (by rw [hc]; simp)]
    congr 1
    refine ih _ _ fun q hq i hi => h q (List.mem_cons_of_mem _ hq) (i + 1) ?_
    rw [hc]
    exact List.mem_cons_of_mem _ hi

theorem profileStream_eq (w : World) (id : BitVec 64) :
    profileStream w id = w.proxy.direct.flatMap fun p => match denotePack p with | some q => profileBytes id.toInt q | none => [] := by
  unfold profileStream profilesOf
  generalize w.proxy.direct = l
  induction l with
  | nil => rfl
  | cons p l ih =>
    rw [List.flatMap_cons, ← ih]
    cases p <;> simp only [List.filterMap_cons, denotePack, profileBytes, List.nil_append]
    rename_i x
    rw [List.filter_cons]
    by_cases hx : x.txid = id
    · rw [if_pos (by simpa using hx), if_pos (by rw [hx]), List.flatMap_cons]
    · rw [if_neg (by simpa using hx), if_neg (fun e => hx (BitVec.eq_of_toInt_eq e)), List.nil_append]

/-- **C107**: if all datagrams arrive, those of the packs sent directly in the order they were sent (the announcements being anywhere in between), the
profile of each transaction at the collector is, byte by byte, the one sent. -/
theorem C107_profile_in_order (env : Oracle) (conf : TraceConf) (cap : Nat) (cs : List Trace.Call)
    (tr : Traffic (Trace.history (Trace.start env conf cap) cs)) (ok : tr.Ok) (received : List Bytes)
    (hr : received.Perm (tr.calls.flatMap datagramsOf)) (ho : (tr.direct.flatMap datagramsOf).Sublist received) (id : BitVec 64) :
    profileFor (obtained received) id.toInt = profileStream (Trace.history (Trace.start env conf cap) cs) id := by
  have hs := packs_sendable env conf cap cs tr ok
  have hmean : ∀ p ∈ packsOf (Trace.history (Trace.start env conf cap) cs), ∃ q, denotePack p = some q ∧ meaning (onWire p) = some q := by
    intro p hp
    obtain ⟨h1, q, h2⟩ := hs p hp
    exact ⟨q, h2, meaning_of (onWire_meaning h1 h2)⟩
  obtain ⟨-, hcall⟩ := collector_per_call tr.calls ok.fits ok.distinct (by
    intro b hb
    rw [tr.buffers_eq] at hb
    obtain ⟨p, hp, rfl⟩ := List.mem_map.1 hb
    obtain ⟨h1, q, h2⟩ := hs p hp
    exact ⟨onWire_ne h1 h2, q, meaning_of (onWire_meaning h1 h2)⟩)
  replace hcall := hcall received (fun d hd => hr.mem_iff.1 hd) (fun d hd => hr.mem_iff.2 hd)
  -- what one datagram contributes
  let F : Bytes → Bytes := fun b => (datagram b).toList.flatMap fun d => (obtainedFrom (received.filterMap datagram) d).flatMap (profileBytes id.toInt)
  have hF : ∀ l : List Bytes, l.flatMap F = ((l.filterMap datagram).flatMap (obtainedFrom (received.filterMap datagram))).flatMap (profileBytes id.toInt) := by
    intro l
    rw [List.flatMap_assoc, flatMap_filterMap']
  have hall : profileFor (obtained received) id.toInt = received.flatMap F := by
    rw [hF]; rfl
  have hA : (tr.direct.flatMap datagramsOf).flatMap F = profileStream (Trace.history (Trace.start env conf cap) cs) id := by
    rw [profileStream_eq, List.flatMap_assoc]
    unfold Traffic.direct
    refine directCalls_flatMap _ _ _ tr.max tr.ids fun p hp i hi => ?_
    obtain ⟨q, h1, h2⟩ := hmean p (List.mem_append_left _ hp)
    have := hcall _ (List.mem_append_left _ hi)
    simp only [Transmission.buffers, List.filterMap_cons, h2, List.filterMap_nil] at this
    rw [hF, List.perm_singleton.1 this, h1]
    simp
  have hB : (tr.queued.flatMap datagramsOf).flatMap F = [] := by
    rw [List.flatMap_assoc, List.flatMap_eq_nil_iff]
    intro t ht
    rw [hF]
    refine perm_flatMap_nil (hcall t (List.mem_append_right _ ht)) _ fun q hq => ?_
    obtain ⟨b, hb, e⟩ := List.mem_filterMap.1 hq
    have : b ∈ tr.queued.flatMap Transmission.buffers := List.mem_flatMap.2 ⟨t, ht, hb⟩
    rw [tr.queued_eq] at this
    obtain ⟨a, ha, rfl⟩ := List.mem_map.1 this
    obtain ⟨q', h1, h2⟩ := hmean (.text a) (List.mem_append_right _ (List.mem_map_of_mem ha))
    rw [h2] at e
    simp only [denotePack, Option.some.injEq] at h1 e
    subst h1; subst e
    rfl
  have hsub : (profileStream (Trace.history (Trace.start env conf cap) cs) id).Sublist (received.flatMap F) := by
    rw [← hA, List.flatMap_def, List.flatMap_def]; exact (ho.map _).flatten
  have hlen : (received.flatMap F).length = (profileStream (Trace.history (Trace.start env conf cap) cs) id).length := by
    rw [(flatMap_perm hr F).length_eq]
    unfold Traffic.calls
    rw [List.flatMap_append, List.flatMap_append, hA, hB, List.append_nil]
  rw [hall]
  exact (hsub.eq_of_length hlen.symm).symm

/-- **C107**, from the calls to the collector: a service is begun, told about by any calls, with the calls of other services in between, and ended; it
is not discarded.  When all its datagrams have arrived, the direct ones in order, the collector decodes the service's profile to what the calls told,
call by call (`Story`), after the note of the goroutine that began it. -/
theorem C107_story_at_collector (env : Oracle) (conf : TraceConf) (cap : Nat) (before : List Trace.Call) (hk : 1 ≤ conf.keep) (hb : 1 ≤ conf.bulk)
    (hwf : AllWellFormed (Trace.start env conf cap) before) (ho : AllOnce (Trace.start env conf cap) before)
    (c : Ctx) (name addr : Bytes) (hc : Trace.traceOf (Trace.history (Trace.start env conf cap) before) c = none) (cs : List Trace.Call)
    (hwf' : AllWellFormed (Trace.perform (Trace.history (Trace.start env conf cap) before) (.startService c name addr)) cs)
    (ho' : AllOnce (Trace.perform (Trace.history (Trace.start env conf cap) before) (.startService c name addr)) cs)
    (hg : AllGo (Trace.history (Trace.start env conf cap) before).tctxs.length
      (Trace.perform (Trace.history (Trace.start env conf cap) before) (.startService c name addr)) cs)
    (all : List Trace.Call)
    (hall : all = before ++ .startService c name addr :: (cs ++ [.endService (.traced (Trace.history (Trace.start env conf cap) before).tctxs.length)]))
    (hid : DistinctIds env (Trace.history (Trace.start env conf cap) all).tick)
    (tr : Traffic (Trace.history (Trace.start env conf cap) all)) (ok : tr.Ok) (received : List Bytes)
    (hr : received.Perm (tr.calls.flatMap datagramsOf)) (hord : (tr.direct.flatMap datagramsOf).Sublist received) :
    let w := Trace.history (Trace.start env conf cap) before
    let p := w.tctxs.length
    let w1 := Trace.perform w (.startService c name addr)
    let w' := Trace.history w1 cs
    ∃ ss t', Story p w1 cs ss ∧ w'.tctxs[p]? = some t' ∧ (decisionAt w' t' = discardNone → ∀ ds : List Wire.WStep, ss.map Spec.denoteStep = ds.map some →
      Wire.steps (profileFor (obtained received) (w.env.id w.tick).toInt) =
        some (⟨0, 0, 0, 0, .message (Wire.shown (ascii "goroutine:" ++ formatInt 10 (w.env.goid (w.tick + 2))))⟩ :: ds)) := by
  intro w p w1 w'
  have e1 : Trace.history (Trace.start env conf cap) all = Trace.history w1 (cs ++ [.endService (.traced p)]) := by
    rw [hall]; simp [w1, w, p, Trace.history, List.foldl_append]
  have e2 : Trace.history w1 (cs ++ [.endService (.traced p)]) = Trace.perform w' (.endService (.traced p)) := by
    simp [w', Trace.history, List.foldl_append]
  obtain ⟨ss, t', s1, s2, s3⟩ := C83_decoded env conf cap before hk hb hwf ho c name addr hc cs hwf' ho' hg (by rw [e1] at hid; exact hid)
  refine ⟨ss, t', s1, s2, fun hd ds hds => ?_⟩
  rw [C107_profile_in_order env conf cap all tr ok received hr hord, e1, e2]
  exact s3 hd ds hds

/-! ## A concrete case -/

namespace Demo

/-- Two services, the second one's life told by seven calls; `storyCalls`. -/
def seenBefore : List Trace.Call := storyBefore ++ .startService .plain (ascii "b") (ascii "1.2.3.4") :: storyCalls
def seenCalls : List Trace.Call := seenBefore ++ .endService (.traced 1) :: []
def seenWorld : World := Trace.history (Trace.start env conf 100) seenCalls

/-- The announcements enter the queue, then the goroutine runs. -/
def seenSchedule : List (Bytes ⊕ Int) :=
  seenWorld.proxy.offered.map (fun t => .inl (onWire (.text t))) ++ List.replicate 12 (.inr 60)
def seenQueue : State := (Scouter.exec { cap := 100 } seenSchedule).getD { cap := 100 }

theorem seenQueue_facts : (Scouter.exec { cap := 100 } seenSchedule).isSome = true ∧ seenQueue.queue = [] ∧ seenQueue.phase = .top ∧
    seenQueue.accepted = seenWorld.proxy.offered.map fun t => onWire (.text t) := by
  refine ⟨by decide +kernel, by decide +kernel, by decide +kernel, by decide +kernel⟩

theorem seenQueue_reachable : Sender.Reachable seenQueue := by
  obtain ⟨q, hq⟩ := Option.isSome_iff_exists.1 seenQueue_facts.1
  have : seenQueue = q := by unfold seenQueue; rw [hq]; rfl
  rw [this]
  exact exec_reachable _ _ _ (.init 100) hq

/-- How it all leaves: at most 60 bytes to a datagram, so some packs are cut. -/
def seenTraffic : Traffic seenWorld where
  queue := seenQueue
  reachable := seenQueue_reachable
  rest := ⟨seenQueue_facts.2.1, seenQueue_facts.2.2.1⟩
  accepted := seenQueue_facts.2.2.2
  max := fun _ => 60
  ids := fun i n => BitVec.ofNat 64 (1 + i + n)
  queueMax := fun _ => 60
  queueIds := fun i n => BitVec.ofNat 64 (1000 + 100 * i + n)

theorem seenTraffic_ok : seenTraffic.Ok where
  small := fun _ => (by decide : 60 ≤ 65535)
  fits := by unfold Transmission.Fits; decide +kernel
  distinct := by decide +kernel

-- ten datagrams; received with the announcements last, the packs sent directly are still in order
example : (seenTraffic.direct.flatMap datagramsOf).length = 8 ∧ (seenTraffic.queued.flatMap datagramsOf).length = 2 ∧
    (seenTraffic.direct.flatMap datagramsOf).Sublist (seenTraffic.calls.flatMap datagramsOf) :=
  ⟨by decide +kernel, by decide +kernel, by
    unfold Traffic.calls; rw [List.flatMap_append]; exact List.sublist_append_left _ _⟩

/-- The second service, just before it ends, is of the kind `C107_service_at_collector` is about. -/
theorem seen_second : ∃ t, (Trace.history (Trace.start env conf 100) seenBefore).tctxs[1]? = some t ∧ t.closed = false ∧
    Trace.keepsXlog (xlogFor t (decisionAt (Trace.history (Trace.start env conf 100) seenBefore) t) (elapsedAt (Trace.history (Trace.start env conf 100) seenBefore) t)) = true ∧
    crc32 t.serviceName ≠ 0 ∧ (∀ a ∈ (Trace.history (Trace.start env conf 100) (seenBefore ++ .endService (.traced 1) :: [])).proxy.offered, a.xtype = ascii (kindCode .service) → a.hash = crc32 t.serviceName → a.text = t.serviceName) := by
  have h : ((Trace.history (Trace.start env conf 100) seenBefore).tctxs[1]?).any (fun t => t.closed == false &&
      Trace.keepsXlog (xlogFor t (decisionAt (Trace.history (Trace.start env conf 100) seenBefore) t) (elapsedAt (Trace.history (Trace.start env conf 100) seenBefore) t)) &&
      crc32 t.serviceName != 0 && (Trace.history (Trace.start env conf 100) (seenBefore ++ .endService (.traced 1) :: [])).proxy.offered.all (fun a => a.xtype != ascii (kindCode .service) || a.hash != crc32 t.serviceName || a.text == t.serviceName)) = true := by
    decide +kernel
  cases ht : (Trace.history (Trace.start env conf 100) seenBefore).tctxs[1]? with
  | none => rw [ht] at h; simp at h
  | some t =>
    rw [ht] at h
    simp only [Option.any_some, Bool.and_eq_true, beq_iff_eq, bne_iff_ne, List.all_eq_true, Bool.or_eq_true] at h
    refine ⟨t, rfl, h.1.1.1, h.1.1.2, h.1.2, fun a ha h1 h2 => ?_⟩
    rcases h.2 a ha with (h3 | h3) | h3
    · exact absurd h1 h3
    · exact absurd h2 h3
    · exact h3

example : OwnStepsPlain seenCalls := by
  intro s hs
  simp [seenCalls, seenBefore, storyBefore, storyCalls] at hs

theorem seen_ids : DistinctIds env seenWorld.tick := ids_distinct _ (by decide +kernel)
theorem seen_bulk : 1 ≤ (Trace.history (Trace.start env conf 100) seenBefore).conf.bulk := by decide +kernel

/-- And so the collector shows the second service's name. -/
example : ∃ t, (Trace.history (Trace.start env conf 100) seenBefore).tctxs[1]? = some t ∧
    Shows (obtained (seenTraffic.calls.flatMap datagramsOf)) .service (crc32 t.serviceName).toInt t.serviceName := by
  obtain ⟨t, h1, h2, h3, h4, h5⟩ := seen_second
  have h := C107_service_at_collector env conf 100 seenBefore [] 1 t
    h1 h2 seen_bulk h3 seen_ids
    seenTraffic seenTraffic_ok _ (.refl _)
  exact ⟨t, h1, h.2 (.service, t.serviceName) (List.mem_cons_self ..) h4 h5⟩

end Demo

end Scouter
