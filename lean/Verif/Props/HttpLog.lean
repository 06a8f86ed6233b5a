import Verif.Props.Lives
/-!
# The log of a service however it is ended (C61, C74, C77)

`EndHttpService` sends the same log as `EndService`, with the status of the response.
-/
namespace Scouter
open Trace Spec

/-- The status an end gives the log: that of the response, if there is one. -/
def statusGiven : Call → Option (BitVec 32)
  | .endHttpService _ s => s
  | _ => none

theorem newPacks_status {w w' : World} {p : Nat} {s : BitVec 32} :
    newPacks w w' = newPacks { w with tctxs := w.tctxs.modify p fun t => { t with status := s } } w' := rfl

/-- **C61**: a service ended by EndHttpService leaves the same logs as if ended by EndService at that moment, but for the status, which is
that of the response. -/
theorem C61_http_end_differs_in_status_only {w : World} {p : Nat} {t : Tctx} (h : w.tctxs[p]? = some t) (hc : t.closed = false)
    (hb : 1 ≤ w.conf.bulk) {e : Call} (he : EndOf p e) :
    xlogsOf (newPacks w (perform w e)) = (xlogsOf (newPacks w (perform w (.endService (.traced p))))).map
      fun x => { x with status := (statusGiven e).getD x.status } := by
  cases he with
  | service => simp [statusGiven]
  | noResponse => rw [endHttp_none]; simp [statusGiven]
  | http s =>
    have h' : ({ w with tctxs := w.tctxs.modify p fun t => { t with status := s } } : World).tctxs[p]? =
      some { t with status := s } := by simp [h]
    rw [C61_log_carries_the_service w p t h hc hb, endHttp_eq h hc s, newPacks_status (p := p) (s := s),
      C61_log_carries_the_service _ p _ h' hc hb]
    have e1 : decisionAt { w with tctxs := w.tctxs.modify p fun t => { t with status := s } } { t with status := s } = decisionAt w t := rfl
    have e2 : elapsedAt { w with tctxs := w.tctxs.modify p fun t => { t with status := s } } { t with status := s } = elapsedAt w t := rfl
    rw [e1, e2]
    have e3 : keepsXlog (xlogFor { t with status := s } (decisionAt w t) (elapsedAt w t)) = keepsXlog (xlogFor t (decisionAt w t) (elapsedAt w t)) := rfl
    rw [e3]
    split <;> rfl

/-- **C77**: the log sent when a service ends, by EndService or EndHttpService, after any history: the id, kind, caller, address, user, agent,
referer and sql figures it was started with, the last name and texts given, the api calls ended; after EndHttpService the status of the response. -/
theorem C77_log_however_ended {w : World} {p : Nat} {t : Tctx} (hw : Reachable w) (h : w.tctxs[p]? = some t) (cs : List Call) (hwf : AllWellFormed w cs)
    (hopen : ∀ t', (history w cs).tctxs[p]? = some t' → t'.closed = false) (e : Call) (he : EndOf p e) :
    ∀ x ∈ xlogsOf (newPacks (history w cs) (perform (history w cs) e)),
      x.txid = t.txid ∧ x.xType = t.xType ∧ x.caller = t.caller ∧ x.ipaddr = ipToBytes t.remoteIp ∧ x.userid = t.userid ∧
      x.userAgent = t.userAgent ∧ x.referer = t.referer ∧ x.sqlCount = t.sqlCount ∧ x.sqlTime = t.sqlTime ∧
      x.service = textHash (lastOr t.serviceName (cs.filterMap (nameGiven p))) ∧
      x.apicallCount = t.apicallCount + BitVec.ofNat 32 (cs.countP (endsApiCall p)) ∧
      x.apicallTime = t.apicallTime + apiCallTimes p w cs ∧
      (∃ login desc, [login, desc, x.text1, x.text2, x.text3, x.text4, x.text5] = lastOr t.texts (cs.filterMap (textsGiven p)) ∧
        x.login = textHash login ∧ x.desc = textHash desc) ∧
      ∀ s, statusGiven e = some s → x.status = s := by
  obtain ⟨t', h', -⟩ := C77_name h cs
  intro x hx
  rw [C61_http_end_differs_in_status_only h' (hopen t' h') (hw.good.history cs hwf).bulk he] at hx
  obtain ⟨y, hy, rfl⟩ := List.mem_map.1 hx
  obtain ⟨a1, a2, a3, a4, a5, a6, a7, a8, a9, a10, a11, a12, a13⟩ := C77_log_after_any_history hw h cs hwf hopen y hy
  exact ⟨a1, a2, a3, a4, a5, a6, a7, a8, a9, a10, a11, a12, a13, fun s hs => by simp [hs]⟩

/-- **C74**: the log of an http service however ended, after any history. -/
theorem C74_http_log_however_ended {w : World} (hw : Reachable w) (c : Ctx) (hn : c ≠ .nil) (hc : traceOf w c = none) (r : Request) (cs : List Call)
    (hwf : AllWellFormed (perform w (.startHttpService c (some r))) cs)
    (hopen : ∀ t', (history w (.startHttpService c (some r) :: cs)).tctxs[w.tctxs.length]? = some t' → t'.closed = false)
    (e : Call) (he : EndOf w.tctxs.length e) :
    ∀ x ∈ xlogsOf (newPacks (history w (.startHttpService c (some r) :: cs)) (perform (history w (.startHttpService c (some r) :: cs)) e)),
      x.txid = w.env.id w.tick ∧ x.xType = 0 ∧ x.caller = 0 ∧ x.ipaddr = ipToBytes (beforeColon (clientAddress w.conf r)) ∧
      x.userAgent = textHash (r.header (ascii "User-Agent")) ∧ x.referer = textHash (r.header (ascii "Referer")) ∧
      x.service = textHash (lastOr (httpName r) (cs.filterMap (nameGiven w.tctxs.length))) ∧
      x.apicallCount = BitVec.ofNat 32 (cs.countP (endsApiCall w.tctxs.length)) ∧ ∀ s, statusGiven e = some s → x.status = s := by
  obtain ⟨w1, t1, now, h1, g1, -, a1⟩ := startHttp_run hw.good hn hc r
  have hp : perform w (.startHttpService c (some r)) = w1 := perform_of_run (TM.bind_ok h1)
  have c1 := a1.ctx (begun_ctx w)
  have hr : Reachable (perform w (.startHttpService c (some r))) := Reachable.perform hw (by simp [WellFormed])
  have h1 : (perform w (.startHttpService c (some r))).tctxs[w.tctxs.length]? = some t1 := by rw [hp]; exact c1
  obtain ⟨t', h', -⟩ := C77_name h1 cs
  intro x hx
  have hx : x ∈ xlogsOf (newPacks (history (perform w (.startHttpService c (some r))) cs)
    (perform (history (perform w (.startHttpService c (some r))) cs) e)) := hx
  rw [C61_http_end_differs_in_status_only h' (hopen t' h') (hr.good.history cs hwf).bulk he] at hx
  obtain ⟨y, hy, rfl⟩ := List.mem_map.1 hx
  obtain ⟨a1, a2, a3, a4, a5, a6, a7, a8⟩ := C74_http_log hw c hn hc r cs hwf hopen y hy
  exact ⟨a1, a2, a3, a4, a5, a6, a7, a8, fun s hs => by simp [hs]⟩

/-- An end of either kind is the same as EndService of the same service with the status of the response. -/
theorem end_as_service {w : World} {p : Nat} {t : Tctx} (h : w.tctxs[p]? = some t) (hc : t.closed = false) {e : Call} (he : EndOf p e) :
    ∃ (w2 : World) (s : BitVec 32), perform w e = perform w2 (.endService (.traced p)) ∧ w2.tctxs[p]? = some { t with status := s } ∧
      (∀ w', newPacks w w' = newPacks w2 w') ∧ w2.conf = w.conf ∧ w2.steps = w.steps ∧
      decisionAt w2 { t with status := s } = decisionAt w t := by
  cases he with
  | service => exact ⟨w, t.status, rfl, h, fun _ => rfl, rfl, rfl, rfl⟩
  | noResponse => exact ⟨w, t.status, endHttp_none w _, h, fun _ => rfl, rfl, rfl, rfl⟩
  | http s => exact ⟨{ w with tctxs := w.tctxs.modify p fun t => { t with status := s } }, s, endHttp_eq h hc s, by simp [h], fun _ => rfl, rfl, rfl, rfl⟩

/-- **C36**: EndHttpService, with a response or without, ends the service, as EndService does. -/
theorem C36_either_end_ends {w : World} {p : Nat} {t : Tctx} (h : w.tctxs[p]? = some t) {e : Call} (he : EndOf p e) :
    ((perform w e).tctxs[p]?).map (·.closed) = some true := by
  have hp : p < w.tctxs.length := (List.getElem?_eq_some_iff.mp h).1
  cases he with
  | service => exact C36_end_ends w p hp
  | noResponse => rw [endHttp_none]; exact C36_end_ends w p hp
  | http s =>
    cases hc : t.closed with
    | false =>
      rw [endHttp_eq h hc s]
      exact C36_end_ends _ p (by simpa using hp)
    | true =>
      have hw : perform w (.endHttpService (.traced p) (some s)) = w := by
        refine perform_of_run ?_
        show Trace.endHttpService (.traced p) (some s) w = _
        unfold Trace.endHttpService
        refine recovered_run (a := ()) ?_
        simp only
        rw [withTrace_run (p := p) (by simp [traceOf, hp]), TM.bind_ok (getT_run h), hc]
        rfl
      rw [hw, h]; simp [hc]

/-- **C38**: a service with an error is never dropped, however it ends: one log, not marked as discarded, and all the steps in its buffer. -/
theorem C38_failed_service_is_never_dropped_however_ended {w : World} {p : Nat} {t : Tctx} (h : w.tctxs[p]? = some t) (hc : t.closed = false)
    (hb : 1 ≤ w.conf.bulk) (herr : t.error ≠ 0) {e : Call} (he : EndOf p e) :
    ∃ x slices, xlogsOf (newPacks w (perform w e)) = [x] ∧ x.txid = t.txid ∧ x.error = t.error ∧
      x.discardType = discardNone ∧ slices.flatten = t.col.kept ∧
      List.Forall₂ (fun s (pk : XlogProfilePack) => pk.txid = t.txid ∧ pk.profile = stepsToBytes (s.map (fun i => w.steps[i]?)))
        slices (profilesOf (newPacks w (perform w e))) := by
  obtain ⟨w2, s, h1, h2, h3, h4, h5, -⟩ := end_as_service h hc he
  have := C38_failed_service_is_never_dropped w2 p _ h2 hc (by rw [h4]; exact hb) herr
  rw [h3, h1, ← h5]
  exact this

/-- **C34**: a service that is not sampled away has all its recorded steps sent once it has ended, however it ends: none lost, none twice, in order. -/
theorem C34_service_profile_complete_however_ended {w : World} {p : Nat} {t : Tctx} (hw : Reachable w) (h : w.tctxs[p]? = some t)
    (hc : t.closed = false) (hd : decisionAt w t = discardNone) {e : Call} (he : EndOf p e) :
    ∃ slices, t.sentSteps ++ slices.flatten = t.recorded ∧ (∀ s ∈ slices, s ≠ [] ∧ (s.length : Int) ≤ w.conf.bulk) ∧
      ((perform w e).tctxs[p]?).map (·.sentSteps) = some t.recorded ∧
      List.Forall₂ (fun s (pk : XlogProfilePack) => pk.txid = t.txid ∧ pk.profile = stepsToBytes (s.map (fun i => w.steps[i]?)))
        slices (profilesOf (newPacks w (perform w e))) := by
  have g := hw.good
  obtain ⟨w2, s, k1, k2, k3, k4, k5, k6⟩ := end_as_service h hc he
  obtain ⟨slices, packs, -, h2, h3, h4, h5, h6⟩ := endService_full k2 hc (by rw [k4]; exact g.bulk)
  rw [if_pos (k6.trans hd)] at h3
  have hall := (g.each t (List.mem_of_getElem? h)).all hc
  rw [k3, k1, ← k4, ← k5]
  refine ⟨slices, by rw [h3]; exact hall, h4, ?_, ?_⟩
  · rw [h2, List.getElem?_modify, k2]
    simp [afterSending, closing, h3, hall]
  · rw [h6, profilesOf_append]
    have e' : ∀ y : XlogPack, profilesOf (if keepsXlog y = true then [Pack.xlog { y with objHash := w2.conf.objHash }] else []) = [] := by
      intro y; split <;> rfl
    rw [e', List.append_nil]
    exact (profilesOf_packsFor h5).imp fun _ _ h => ⟨h.1, h.2.2.2⟩

/-- **C35**, as found, however the service ends: the log states the steps sent earlier, and so none of those in the buffer at the end. -/
theorem C35_log_states_steps_sent_earlier_however_ended {w : World} {p : Nat} {t : Tctx} (hw : Reachable w) (h : w.tctxs[p]? = some t)
    (hc : t.closed = false) {e : Call} (he : EndOf p e) :
    ∀ x ∈ xlogsOf (newPacks w (perform w e)), x.profileCount = BitVec.ofNat 32 t.sentSteps.length := by
  have g := hw.good
  intro x hx
  rw [C61_http_end_differs_in_status_only h hc g.bulk he] at hx
  obtain ⟨y, hy, rfl⟩ := List.mem_map.1 hx
  rw [C61_log_carries_the_service w p t h hc g.bulk] at hy
  split at hy
  · simp only [List.mem_singleton] at hy
    subst hy
    show BitVec.ofNat 32 t.profileCount = _
    rw [(g.each t (List.mem_of_getElem? h)).count]
  · simp at hy

/-! ## The hypotheses hold of a concrete life -/

namespace Demo

/-- A request answered with 404; one log with that status, and the one client address. -/
example : (xlogsOf (newPacks (history (start env httpConf 100) [.startHttpService .plain (some request)])
    (perform (history (start env httpConf 100) [.startHttpService .plain (some request)]) (.endHttpService (.traced 0) (some 404))))).map
      (fun x => (x.status, x.ipaddr)) = [(404, [1, 2, 3, 4])] := by decide +kernel

end Demo
end Scouter
