import Verif.Proofs.Network
import Verif.Proofs.Plain
import Verif.Props.Services
import Mathlib.Tactic.Choose
import Mathlib.Data.List.Flatten
import Batteries.Data.List.Perm
/-!
# C92: from the agent to the collector, over a network that reorders, repeats and loses datagrams
-/
namespace Scouter
open Wire Udp Sender Out Spec

theorem onWire_meaning {p : Pack} {q : WPack} (hp : SendablePack p) (hq : denotePack p = some q) : ∀ r, pack (onWire p ++ r) = some (q, r) := by
  intro r
  obtain ⟨bs, e, hb⟩ := C12_collector_reads_pack p hp q hq Out.new
  rw [bytes_new, List.nil_append] at e
  unfold onWire
  rw [e]; exact hb r

theorem onWire_ne {p : Pack} {q : WPack} (hp : SendablePack p) (hq : denotePack p = some q) : onWire p ≠ [] := by
  intro hnil
  have h1 := onWire_meaning hp hq []
  rw [hnil] at h1
  exact absurd h1 (by simp [Wire.pack, bind_apply, Wire.u, Wire.bytes])

theorem perm_filterMap_datagram {received sent : List Bytes} (h : received.Perm sent) :
    (received.filterMap datagram).Perm (sent.filterMap datagram) := h.filterMap _

/-- **C92**: the UDP client is given packs by any number of calls (`ts`: a pack sent directly, or what the sending goroutine hands over), each with its own
maximum, with packs small enough to share a datagram or so large that they are cut in fragments.  Every call succeeds (`sent`), and for whatever the
collector receives:
* if everything arrives, in whatever order, the collector obtains exactly the packs, each as often as it was sent;
* if datagrams are lost, but none is repeated, it obtains no pack more often than it was sent;
* if datagrams are lost or repeated, it obtains no pack that was not sent, and all the packs of each call whose datagrams all arrived. -/
theorem C92_collector_obtains (ts : List Transmission) (hf : ∀ t ∈ ts, t.Fits) (hid : (ts.flatMap Transmission.drawable).Nodup)
    (packs : List (Pack × WPack)) (hp : ∀ q ∈ packs, SendablePack q.1 ∧ denotePack q.1 = some q.2)
    (hb : ts.flatMap Transmission.buffers = packs.map fun q => onWire q.1) :
    ∃ sent : Transmission → List Bytes, (∀ t ∈ ts, callSend t.ids t.max t.call = .ok (true, sent t)) ∧
      (∀ received : List Bytes, received.Perm (ts.flatMap sent) → (obtained received).Perm (packs.map (·.2))) ∧
      (∀ received : List Bytes, received.Subperm (ts.flatMap sent) → (obtained received).Subperm (packs.map (·.2))) ∧
      (∀ received : List Bytes, (∀ d ∈ received, d ∈ ts.flatMap sent) →
        (∀ q ∈ obtained received, q ∈ packs.map (·.2)) ∧
        ∀ t ∈ ts, (∀ d ∈ sent t, d ∈ received) → ∀ q ∈ packs, onWire q.1 ∈ t.buffers → q.2 ∈ obtained received) := by
  have hmean : ∀ q ∈ packs, meaning (onWire q.1) = some q.2 := fun q hq => meaning_of (onWire_meaning (hp q hq).1 (hp q hq).2)
  have hbuf : ∀ b ∈ ts.flatMap Transmission.buffers, ∃ q ∈ packs, onWire q.1 = b := by
    intro b h
    rw [hb] at h
    obtain ⟨q, hq, rfl⟩ := List.mem_map.1 h
    exact ⟨q, hq, rfl⟩
  have hne : ∀ t ∈ ts, ∀ b ∈ t.buffers, b ≠ [] := by
    intro t ht b hbt
    obtain ⟨q, hq, rfl⟩ := hbuf b (List.mem_flatMap.2 ⟨t, ht, hbt⟩)
    exact onWire_ne (hp q hq).1 (hp q hq).2
  have hex : ∀ t : Transmission, ∃ (sent : List Bytes) (ms : List Msg), t ∈ ts → callSend t.ids t.max t.call = .ok (true, sent) ∧
      sent.map datagram = (ms.flatMap Msg.datagrams).map some ∧ (ms.flatMap Msg.buffers).Perm t.buffers ∧
      (∀ m ∈ ms, m.Ok) ∧ (ms.filterMap Msg.id?).Sublist (t.drawable.map BitVec.toInt) := by
    intro t
    by_cases ht : t ∈ ts
    · obtain ⟨sent, ms, h⟩ := callSend_msgs t (hf t ht) (hne t ht)
      exact ⟨sent, ms, fun _ => h⟩
    · exact ⟨[], [], fun h => absurd h ht⟩
  choose S M hSM using hex
  -- all messages
  have hread : ∀ t ∈ ts, (S t).filterMap datagram = (M t).flatMap Msg.datagrams := by
    intro t ht
    have h := (hSM t ht).2.1
    have e : (S t).filterMap datagram = ((S t).map datagram).filterMap id := by rw [List.filterMap_map]; rfl
    rw [e, h, List.filterMap_map]
    exact List.filterMap_some
  have hsome : ∀ t ∈ ts, ∀ b ∈ S t, ∃ d ∈ (M t).flatMap Msg.datagrams, datagram b = some d := by
    intro t ht b hbS
    have : datagram b ∈ ((M t).flatMap Msg.datagrams).map some := by
      rw [← (hSM t ht).2.1]; exact List.mem_map.2 ⟨b, hbS, rfl⟩
    obtain ⟨d, hd, e⟩ := List.mem_map.1 this
    exact ⟨d, hd, e.symm⟩
  have hnd : ((ts.flatMap M).filterMap Msg.id?).Nodup := by
    have hsub : ∀ l : List Transmission, (∀ t ∈ l, t ∈ ts) →
        ((l.flatMap M).filterMap Msg.id?).Sublist ((l.flatMap Transmission.drawable).map BitVec.toInt) := by
      intro l
      induction l with
      | nil => intro _; exact .refl _
      | cons t l ih =>
        intro hl
        rw [List.flatMap_cons, List.flatMap_cons, List.filterMap_append, List.map_append]
        exact ((hSM t (hl t (by simp))).2.2.2.2).append (ih fun t ht => hl t (List.mem_cons_of_mem _ ht))
    refine (hsub ts fun _ h => h).nodup ?_
    exact List.pairwise_map.2 (hid.imp fun h e => h (BitVec.eq_of_toInt_eq e))
  have hmsg : ∀ m ∈ ts.flatMap M, m.Ok ∧ m.buffers.map meaning = (m.buffers.filterMap meaning).map some ∧
      ∀ b ∈ m.buffers, ∃ q ∈ packs, onWire q.1 = b := by
    intro m hm
    obtain ⟨t, ht, hm⟩ := List.mem_flatMap.1 hm
    have hbm : ∀ b ∈ m.buffers, ∃ q ∈ packs, onWire q.1 = b := by
      intro b hbm
      refine hbuf b (List.mem_flatMap.2 ⟨t, ht, ?_⟩)
      exact (hSM t ht).2.2.1.mem_iff.1 (List.mem_flatMap.2 ⟨m, hm, hbm⟩)
    refine ⟨(hSM t ht).2.2.2.1 m hm, ?_, hbm⟩
    have : ∀ l : List Bytes, (∀ b ∈ l, ∃ q ∈ packs, onWire q.1 = b) → l.map meaning = (l.filterMap meaning).map some := by
      intro l
      induction l with
      | nil => intro _; rfl
      | cons b l ih =>
        intro hl
        obtain ⟨q, hq, rfl⟩ := hl b (by simp)
        simp [hmean q hq, ih fun b hb => hl b (List.mem_cons_of_mem _ hb)]
    exact this _ hbm
  have hperm : ((ts.flatMap M).flatMap Msg.buffers).Perm (packs.map fun q => onWire q.1) := by
    rw [← hb]
    have : ∀ l : List Transmission, (∀ t ∈ l, t ∈ ts) → ((l.flatMap M).flatMap Msg.buffers).Perm (l.flatMap Transmission.buffers) := by
      intro l
      induction l with
      | nil => intro _; exact .refl _
      | cons t l ih =>
        intro hl
        rw [List.flatMap_cons, List.flatMap_cons, List.flatMap_append]
        exact ((hSM t (hl t (by simp))).2.2.1).append (ih fun t ht => hl t (List.mem_cons_of_mem _ ht))
    exact this ts fun _ h => h
  have hpk : ∀ (l : List (Pack × WPack)), (∀ q ∈ l, q ∈ packs) → (l.map fun q => onWire q.1).filterMap meaning = l.map (·.2) := by
    intro l
    induction l with
    | nil => intro _; rfl
    | cons q l ih =>
      intro hl
      simp [hmean q (hl q (by simp)), ih fun q hq => hl q (List.mem_cons_of_mem _ hq)]
  have hall : (ts.flatMap S).filterMap datagram = (ts.flatMap M).flatMap Msg.datagrams := by
    have : ∀ l : List Transmission, (∀ t ∈ l, t ∈ ts) → (l.flatMap S).filterMap datagram = (l.flatMap M).flatMap Msg.datagrams := by
      intro l
      induction l with
      | nil => intro _; rfl
      | cons t l ih =>
        intro hl
        rw [List.flatMap_cons, List.flatMap_cons, List.flatMap_append, List.filterMap_append, hread t (hl t (by simp)),
          ih fun t ht => hl t (List.mem_cons_of_mem _ ht)]
    exact this ts fun _ h => h
  have hsubs : ∀ received : List Bytes, (∀ d ∈ received, d ∈ ts.flatMap S) →
      ∀ d ∈ received.filterMap datagram, d ∈ (ts.flatMap M).flatMap Msg.datagrams := by
    intro received h d hd
    obtain ⟨b, hb, e⟩ := List.mem_filterMap.1 hd
    rw [← hall]
    exact List.mem_filterMap.2 ⟨b, h b hb, e⟩
  refine ⟨S, fun t ht => (hSM t ht).1, ?_, ?_, ?_⟩
  · intro received hr
    have hsub := hsubs received fun d hd => hr.mem_iff.1 hd
    have hpr : (received.filterMap datagram).Perm ((ts.flatMap M).flatMap Msg.datagrams) := by
      rw [← hall]; exact hr.filterMap _
    show ((received.filterMap datagram).flatMap (obtainedFrom (received.filterMap datagram))).Perm _
    refine (hpr.flatMap_right _).trans ?_
    rw [List.flatMap_assoc]
    have e : (ts.flatMap M).flatMap (fun m => m.datagrams.flatMap (obtainedFrom (received.filterMap datagram))) =
        (ts.flatMap M).flatMap fun m => m.buffers.filterMap meaning := by
      rw [List.flatMap_def, List.flatMap_def]
      congr 1
      refine List.map_congr_left fun m hm => ?_
      obtain ⟨h1, h2, -⟩ := hmsg m hm
      exact (obtained_msg hnd hm h1 h2 hsub).2 fun d hd => hpr.mem_iff.2 (List.mem_flatMap.2 ⟨m, hm, hd⟩)
    rw [e]
    have e2 : (ts.flatMap M).flatMap (fun m => m.buffers.filterMap meaning) = ((ts.flatMap M).flatMap Msg.buffers).filterMap meaning := by
      rw [List.filterMap_flatMap]
    rw [e2, ← hpk packs fun _ h => h]
    exact hperm.filterMap _
  · intro received hr
    have hsub := hsubs received fun d hd => hr.subset hd
    have hpr : (received.filterMap datagram).Subperm ((ts.flatMap M).flatMap Msg.datagrams) := by
      rw [← hall]
      obtain ⟨l, h1, h2⟩ := hr
      exact ⟨_, h1.filterMap _, h2.filterMap _⟩
    show ((received.filterMap datagram).flatMap (obtainedFrom (received.filterMap datagram))).Subperm _
    have h1 : ((received.filterMap datagram).flatMap (obtainedFrom (received.filterMap datagram))).Subperm
        (((ts.flatMap M).flatMap Msg.datagrams).flatMap (obtainedFrom (received.filterMap datagram))) := by
      obtain ⟨l, h1, h2⟩ := hpr
      refine ⟨_, h1.flatMap_right _, ?_⟩
      rw [List.flatMap_def, List.flatMap_def]
      exact (h2.map _).flatten
    refine h1.trans ?_
    rw [List.flatMap_assoc]
    have h2 : ∀ l : List Msg, (∀ m ∈ l, m ∈ ts.flatMap M) →
        (l.flatMap fun m => m.datagrams.flatMap (obtainedFrom (received.filterMap datagram))).Sublist
          ((l.flatMap Msg.buffers).filterMap meaning) := by
      intro l
      induction l with
      | nil => intro _; exact .refl _
      | cons m l ih =>
        intro hl
        obtain ⟨h1, h2, -⟩ := hmsg m (hl m (by simp))
        rw [List.flatMap_cons, List.flatMap_cons, List.filterMap_append]
        exact (obtained_msg_sublist hnd (hl m (by simp)) h1 h2 hsub).append (ih fun m hm => hl m (List.mem_cons_of_mem _ hm))
    refine (h2 _ fun _ h => h).subperm.trans ?_
    rw [← hpk packs fun _ h => h]
    exact (hperm.filterMap _).subperm
  · intro received hr
    have hsub := hsubs received hr
    constructor
    · intro q hq
      obtain ⟨d, hd, hq⟩ := List.mem_flatMap.1 hq
      obtain ⟨m, hm, hdm⟩ := List.mem_flatMap.1 (hsub d hd)
      obtain ⟨h1, h2, h3⟩ := hmsg m hm
      have := (obtained_msg hnd hm h1 h2 hsub).1 d hdm q hq
      obtain ⟨b, hb1, hb2⟩ := List.mem_filterMap.1 this
      obtain ⟨q', hq', rfl⟩ := h3 b hb1
      rw [hmean q' hq'] at hb2
      injection hb2 with hb2
      exact List.mem_map.2 ⟨q', hq', hb2⟩
    · intro t ht hall q hq hqt
      obtain ⟨m, hm, hbm⟩ := List.mem_flatMap.1 ((hSM t ht).2.2.1.mem_iff.2 hqt)
      have hm' : m ∈ ts.flatMap M := List.mem_flatMap.2 ⟨t, ht, hm⟩
      obtain ⟨h1, h2, -⟩ := hmsg m hm'
      have hdr : ∀ d ∈ m.datagrams, d ∈ received.filterMap datagram := by
        intro d hd
        have : d ∈ (S t).filterMap datagram := by rw [hread t ht]; exact List.mem_flatMap.2 ⟨m, hm, hd⟩
        obtain ⟨b, hb1, hb2⟩ := List.mem_filterMap.1 this
        exact List.mem_filterMap.2 ⟨b, hall b hb1, hb2⟩
      have := (obtained_msg hnd hm' h1 h2 hsub).2 hdr
      have hq2 : q.2 ∈ m.buffers.filterMap meaning := List.mem_filterMap.2 ⟨_, hbm, hmean q hq⟩
      rw [← this] at hq2
      obtain ⟨d, hd, hq2⟩ := List.mem_flatMap.1 hq2
      exact List.mem_flatMap.2 ⟨d, hdr d hd, hq2⟩

/-! ## The transaction logs of an application -/

theorem directCalls_buffers (packs : List Pack) : ∀ (max : Nat → Nat) (ids : Nat → Nat → BitVec 64),
    (directCalls packs max ids).flatMap Transmission.buffers = packs.map onWire := by
  induction packs with
  | nil => intro _ _; rfl
  | cons p ps ih =>
    intro max ids
    show (directCalls (p :: ps) max ids).flatMap Transmission.buffers = _
    unfold directCalls
    rw [List.mapIdx_cons, List.flatMap_cons, List.map_cons]
    have := ih (fun i => max (i + 1)) (fun i => ids (i + 1))
    unfold directCalls at this
    rw [this]; rfl

theorem denoted_ids {packs : List (Pack × WPack)} (h : ∀ q ∈ packs, denotePack q.1 = some q.2) :
    obtainedIds (packs.map (·.2)) = ((xlogsOf (packs.map (·.1))).map (·.txid)).map BitVec.toInt := by
  induction packs with
  | nil => rfl
  | cons q packs ih =>
    have h1 := h q (by simp)
    have h2 := ih fun q hq => h q (List.mem_cons_of_mem _ hq)
    obtain ⟨p, d⟩ := q
    unfold obtainedIds xlogsOf at h2 ⊢
    rw [List.map_cons, List.map_cons, List.filterMap_cons, List.filterMap_cons]
    cases p <;> simp only [denotePack, Option.some.injEq, reduceCtorEq] at h1 <;> subst h1 <;> simp only [h2] <;> rfl

theorem profile_le_onWire (p : XlogProfilePack) : p.profile.length ≤ (onWire (.profile p)).length := by
  have h : p.profile.length ≤ (encBlob p.profile).length := by
    unfold encBlob
    split
    · omega
    · split
      · simp
      · split <;> simp <;> omega
  unfold onWire
  simp only [writePack, writeInt8_eq, writeXlogProfilePack_eq, bytes_write, List.length_append]
  omega

theorem mem_directCalls {packs : List Pack} {max : Nat → Nat} {ids : Nat → Nat → BitVec 64} {p : Pack} (h : p ∈ packs) :
    ∃ i, ({ call := .buffer (onWire p), max := max i, ids := ids i } : Transmission) ∈ directCalls packs max ids := by
  obtain ⟨i, hi, rfl⟩ := List.mem_iff_getElem.1 h
  refine ⟨i, ?_⟩
  unfold directCalls
  rw [List.mem_mapIdx]
  exact ⟨i, hi, rfl⟩

/-- What the tracing API sends directly is within the format's limits if the UDP client can carry it at all. -/
theorem direct_sendable (env : Oracle) (conf : TraceConf) (cap : Nat) (cs : List Trace.Call) (max : Nat → Nat)
    (ids : Nat → Nat → BitVec 64) (hmax : ∀ i, max i ≤ 65535)
    (hf : ∀ t ∈ directCalls (Trace.history (Trace.start env conf cap) cs).proxy.direct max ids, t.Fits) :
    ∀ p ∈ (Trace.history (Trace.start env conf cap) cs).proxy.direct, SendablePack p ∧ ∃ q, denotePack p = some q := by
  intro p hp
  have h := plain_history env conf cap cs p hp
  cases p with
  | xlog x => exact ⟨(show x.ipaddr.length < 2 ^ 30 by rw [show x.ipaddr.length = 4 from h]; decide), _, rfl⟩
  | alert a => exact ⟨(show Sendable (.map a.tags) by rw [show a.tags = [] from h]; simp [Sendable, SendableM]), _, rfl⟩
  | profile a =>
    refine ⟨show a.profile.length < 2 ^ 31 from ?_, _, rfl⟩
    obtain ⟨i, hi⟩ := mem_directCalls (max := max) (ids := ids) hp
    have h1 := (hf _ hi).2.2.2 (onWire (.profile a)) (by simp [Transmission.buffers])
    have h2 := profile_le_onWire a
    have h3 := hmax i
    simp only at h1
    have h4 : 32767 * max i ≤ 32767 * 65535 := Nat.mul_le_mul_left _ h3
    omega
  | _ => exact absurd h (by simp [Plain])

/-- **C92**: an application makes any calls whatever of the tracing API.  The packs it sends directly (transaction logs, profiles,
alerts) each have their own call of the UDP client, which can carry them (`Fits`, with a maximum of at most 65535 bytes as for any
UDP datagram).  If all datagrams arrive, in whatever order, the logs the collector obtains are
those of the services logged, each once; without sampling they are exactly those of the services that have ended.  If datagrams are
lost, the collector still never sees two logs with the same transaction id, nor one of a service that has not ended. -/
theorem C92_logs_at_collector (env : Oracle) (conf : TraceConf) (cap : Nat) (cs : List Trace.Call)
    (hid : DistinctIds env (Trace.history (Trace.start env conf cap) cs).tick) (max : Nat → Nat) (ids : Nat → Nat → BitVec 64)
    (hmax : ∀ i, max i ≤ 65535)
    (hf : ∀ t ∈ directCalls (Trace.history (Trace.start env conf cap) cs).proxy.direct max ids, t.Fits)
    (hpk : ((directCalls (Trace.history (Trace.start env conf cap) cs).proxy.direct max ids).flatMap Transmission.drawable).Nodup) :
    let w := Trace.history (Trace.start env conf cap) cs
    let ts := directCalls w.proxy.direct max ids
    ∃ sent : Transmission → List Bytes, (∀ t ∈ ts, callSend t.ids t.max t.call = .ok (true, sent t)) ∧
      (∀ received : List Bytes, received.Perm (ts.flatMap sent) →
        (obtainedIds (obtained received)).Perm ((loggedIds w).map BitVec.toInt) ∧
        (Always (fun c => c.bulk ≠ 0 ∧ NoSampling c.sample) conf cs →
          (obtainedIds (obtained received)).Perm ((endedIds w).map BitVec.toInt))) ∧
      (∀ received : List Bytes, received.Subperm (ts.flatMap sent) →
        (obtainedIds (obtained received)).Nodup ∧ ∀ id ∈ obtainedIds (obtained received), id ∈ (endedIds w).map BitVec.toInt) := by
  intro w ts
  have hs := direct_sendable env conf cap cs max ids hmax hf
  have hex : ∀ p : Pack, ∃ q : WPack, p ∈ w.proxy.direct → denotePack p = some q := by
    intro p
    by_cases hp : p ∈ w.proxy.direct
    · obtain ⟨q, hq⟩ := (hs p hp).2; exact ⟨q, fun _ => hq⟩
    · exact ⟨.map [], fun h => absurd h hp⟩
  choose D hD using hex
  have hden : ∀ q ∈ w.proxy.direct.map (fun p => (p, D p)), denotePack q.1 = some q.2 := by
    intro q hq
    obtain ⟨p, hp, rfl⟩ := List.mem_map.1 hq
    exact hD p hp
  have hfst : (w.proxy.direct.map fun p => (p, D p)).map (·.1) = w.proxy.direct := by
    rw [List.map_map]; exact List.map_id' _
  have hids := denoted_ids hden
  rw [hfst] at hids
  obtain ⟨sent, h1, h2, h3, -⟩ := C92_collector_obtains ts hf hpk (w.proxy.direct.map fun p => (p, D p)) (by
    intro q hq
    obtain ⟨p, hp, rfl⟩ := List.mem_map.1 hq
    exact ⟨(hs p hp).1, hD p hp⟩) (by
    show (directCalls w.proxy.direct max ids).flatMap Transmission.buffers = _
    rw [directCalls_buffers, List.map_map]; rfl)
  have hone := C36_at_most_one_log env conf cap cs hid
  refine ⟨sent, h1, fun received hr => ?_, fun received hr => ?_⟩
  · have h4 : (obtainedIds (obtained received)).Perm ((loggedIds w).map BitVec.toInt) := by
      have := (h2 received hr).filterMap logId?
      exact this.trans (by rw [show List.filterMap _ _ = _ from hids]; exact .refl _)
    exact ⟨h4, fun hv => h4.trans ((C36_exactly_one_log_without_sampling env conf cap cs hv).map _)⟩
  · have h4 : (obtainedIds (obtained received)).Subperm ((loggedIds w).map BitVec.toInt) := by
      obtain ⟨l, g1, g2⟩ := h3 received hr
      refine ⟨obtainedIds l, g1.filterMap _, ?_⟩
      have := g2.filterMap logId?
      rw [show List.filterMap _ (List.map _ _) = _ from hids] at this
      exact this
    have hnd : ((loggedIds w).map BitVec.toInt).Nodup :=
      List.pairwise_map.2 (hone.1.imp fun h e => h (BitVec.eq_of_toInt_eq e))
    refine ⟨?_, fun id hid => ?_⟩
    · obtain ⟨l, g1, g2⟩ := h4
      exact g1.nodup_iff.1 (hnd.sublist g2)
    · obtain ⟨x, hx, rfl⟩ := List.mem_map.1 (h4.subset hid)
      exact List.mem_map.2 ⟨x, hone.2 x hx, rfl⟩

/-! ## Concrete cases -/

namespace Demo

/-- Two texts handed over together, and a profile that does not fit. -/
def netPacks : List Pack := [.text ⟨ascii "service", 7, ascii "a"⟩, .text ⟨ascii "method", 8, ascii "b"⟩, .profile ⟨1, 2, 3, 4, 5, List.replicate 50 9⟩]

def netCalls : List Transmission :=
  [{ call := .list ((netPacks.take 2).map onWire), max := 60, ids := fun n => BitVec.ofNat 64 (1 + n) },
   { call := .buffer (onWire (.profile ⟨1, 2, 3, 4, 5, List.replicate 50 9⟩)), max := 20, ids := fun n => BitVec.ofNat 64 (10 + n) }]

/-- The datagrams of the calls. -/
def netSent : List Bytes := netCalls.flatMap fun t => match callSend t.ids t.max t.call with | .ok (_, ds) => ds | _ => []

/-- The hypotheses of `C92_collector_obtains` are met. -/
example : (∀ t ∈ netCalls, t.Fits) ∧ (netCalls.flatMap Transmission.drawable).Nodup ∧ (∀ p ∈ netPacks, SendablePack p) ∧
    netCalls.flatMap Transmission.buffers = netPacks.map onWire := by
  refine ⟨?_, by decide +kernel, ?_, rfl⟩
  · unfold Transmission.Fits netCalls
    decide +kernel
  · simp [netPacks, SendablePack]

/-- One datagram for the texts, four for the profile. -/
example : netSent.length = 5 := by decide +kernel
/-- Received backwards, everything is obtained; without the last fragment, the texts; without the datagram of the texts, the profile. -/
example : (obtained netSent.reverse).length = 3 ∧ (obtained (netSent.take 4)).length = 2 ∧ (obtained (netSent.drop 1)).length = 1 := by
  decide +kernel

/-- An application's log and profile: the hypotheses of `C92_logs_at_collector` are met by the two services of `calls`. -/
example : (∀ t ∈ directCalls world.proxy.direct (fun _ => 60) (fun i n => BitVec.ofNat 64 (1 + i + n)), t.Fits) ∧
    ((directCalls world.proxy.direct (fun _ => 60) (fun i n => BitVec.ofNat 64 (1 + i + n))).flatMap Transmission.drawable).Nodup := by
  unfold Transmission.Fits
  decide +kernel

end Demo

end Scouter
