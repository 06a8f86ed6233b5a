import Verif.Proofs.Story
import Verif.Props.Steps
/-! # C81, C82, C83: the profile a collector receives of a service, over its whole life -/
namespace Scouter
open TM Trace

/-- The accounting holds after every history that hands in each step once. -/
theorem stream_of (env : Oracle) (conf : TraceConf) (cap : Nat) (cs : List Call)
    (hid : DistinctIds env (history (start env conf cap) cs).tick) (ho : AllOnce (start env conf cap) cs) :
    Stream (fun _ => none) (history (start env conf cap) cs) := (stream_start env conf cap).history hid ho

/-! ## C81 -/

/-- **C81**: whatever was called, the profile bytes received so far for a service are those of the steps sent for it, one
after the other, as they are in memory now; and no profile bytes arrive for an id no service has. -/
theorem C81_stream (env : Oracle) (conf : TraceConf) (cap : Nat) (cs : List Call)
    (hid : DistinctIds env (history (start env conf cap) cs).tick) (ho : AllOnce (start env conf cap) cs) :
    let w := history (start env conf cap) cs
    (∀ t ∈ w.tctxs, profileStream w t.txid = stepsToBytes (t.sentSteps.map (w.steps[·]?))) ∧
    ∀ id, (∀ t ∈ w.tctxs, t.txid ≠ id) → profileStream w id = [] := by
  have s := stream_of env conf cap cs hid ho
  refine ⟨s.stream, fun id h => ?_⟩
  unfold profileStream
  rw [List.filter_eq_nil_iff.mpr]
  · rfl
  · intro pk hpk
    obtain ⟨t, h1, h2⟩ := s.known pk hpk
    simpa [← h2] using h t h1

/-- **C81**: a step that is part of a profile is not altered by anything that is called later. -/
theorem C81_recorded_steps_stay (env : Oracle) (conf : TraceConf) (cap : Nat) (cs ds : List Call)
    (hid : DistinctIds env (history (start env conf cap) (cs ++ ds)).tick) (ho : AllOnce (start env conf cap) (cs ++ ds)) :
    ∀ t ∈ (history (start env conf cap) cs).tctxs, ∀ i ∈ t.recorded,
      (history (start env conf cap) (cs ++ ds)).steps[i]? = (history (start env conf cap) cs).steps[i]? := by
  have e : history (start env conf cap) (cs ++ ds) = history (history (start env conf cap) cs) ds := List.foldl_append ..
  have split : ∀ (cs ds : List Call) (w : World), AllOnce w (cs ++ ds) → AllOnce w cs ∧ AllOnce (history w cs) ds := by
    intro cs
    induction cs with
    | nil => intro ds w h; exact ⟨trivial, h⟩
    | cons c cs ih => intro ds w h; have := ih ds _ h.2; exact ⟨⟨h.1, this.1⟩, this.2⟩
  obtain ⟨o1, o2⟩ := split cs ds _ ho
  rw [e] at hid
  have s := stream_of env conf cap cs (fun a b ha hb => hid a b (Nat.lt_of_lt_of_le ha (history_tick _ ds)) (Nat.lt_of_lt_of_le hb (history_tick _ ds))) o1
  intro t ht i hi
  rw [e]
  exact recorded_fixed s (by rw [history_env]; exact hid) o2 ⟨t, ht, hi⟩

/-- **C81**: when a service ends and is not sampled away, the profile bytes received for it from its start on are exactly
those of the steps recorded for it, in the order recorded. -/
theorem C81_complete (env : Oracle) (conf : TraceConf) (cap : Nat) (cs : List Call) (hk : 1 ≤ conf.keep) (hb : 1 ≤ conf.bulk)
    (hwf : AllWellFormed (start env conf cap) cs) (ho : AllOnce (start env conf cap) cs) (p : Nat) (t : Tctx)
    (h : (history (start env conf cap) cs).tctxs[p]? = some t) (hc : t.closed = false)
    (hd : decisionAt (history (start env conf cap) cs) t = discardNone)
    (hid : DistinctIds env (perform (history (start env conf cap) cs) (.endService (.traced p))).tick) :
    let w := history (start env conf cap) cs
    let w' := perform w (.endService (.traced p))
    profileStream w' t.txid = stepsToBytes (t.recorded.map (w.steps[·]?)) := by
  obtain ⟨slices, -, -, h3, -⟩ := C34_service_profile_complete env conf cap cs hk hb hwf p t h hc hd
  have hs : Stream (fun _ => none) (history (start env conf cap) cs) :=
    stream_of env conf cap cs (fun a b ha hb => hid a b (Nat.lt_of_lt_of_le ha (perform_tick _ _)) (Nat.lt_of_lt_of_le hb (perform_tick _ _))) ho
  have he : (history (start env conf cap) cs).env = env := history_env _ cs
  generalize history (start env conf cap) cs = w at *
  intro w' w''
  have hid' : DistinctIds w.env (history w [.endService (.traced p)]).tick := by rw [he]; exact hid
  have s2 := hs.history hid' ⟨trivial, trivial⟩
  cases ht' : (perform w (.endService (.traced p))).tctxs[p]? with
  | none => rw [ht'] at h3; cases h3
  | some t' =>
    rw [ht'] at h3
    have e1 : t'.sentSteps = t.recorded := by simpa using h3
    obtain ⟨t'', e2, e3⟩ := fixed_call h (.endService (.traced p))
    rw [ht'] at e2
    cases e2
    have e4 : t'.txid = t.txid := congrArg (·.1) e3
    have := s2.stream t' (List.mem_of_getElem? ht')
    rw [e4, e1] at this
    refine this.trans (congrArg stepsToBytes (List.map_congr_left fun i hi => ?_))
    exact recorded_fixed hs hid' ⟨trivial, trivial⟩ ⟨t, List.mem_of_getElem? h, hi⟩

/-! ## C82 -/

/-- Every call of a history leaves the service at `p` to itself. -/
def AllElsewhere (p : Nat) : World → List Call → Prop
  | _, [] => True
  | w, c :: cs => Elsewhere p w c ∧ AllElsewhere p (perform w c) cs

/-- **C82**: whatever is called about other services (or about none), in any state and any number of times, leaves
everything kept about a service exactly as it was: its names, ids, flags, counts, error, texts, open steps and buffer. -/
theorem C82_other_services_untouched (w : World) (p : Nat) (t : Tctx) (h : w.tctxs[p]? = some t) (cs : List Call)
    (he : AllElsewhere p w cs) : (history w cs).tctxs[p]? = some t := by
  induction cs generalizing w with
  | nil => exact h
  | cons c cs ih => exact ih _ (elsewhere_keeps he.1 h) he.2

/-- **C82**: and it neither adds to nor takes away from the profile bytes received for it. -/
theorem C82_profile_untouched (env : Oracle) (conf : TraceConf) (cap : Nat) (cs ds : List Call) (p : Nat) (t : Tctx)
    (h : (history (start env conf cap) cs).tctxs[p]? = some t)
    (hid : DistinctIds env (history (history (start env conf cap) cs) ds).tick) (ho : AllOnce (start env conf cap) cs)
    (ho' : AllOnce (history (start env conf cap) cs) ds) (he : AllElsewhere p (history (start env conf cap) cs) ds) :
    profileStream (history (history (start env conf cap) cs) ds) t.txid = profileStream (history (start env conf cap) cs) t.txid := by
  have s := stream_of env conf cap cs (fun a b ha hb => hid a b (Nat.lt_of_lt_of_le ha (history_tick _ ds)) (Nat.lt_of_lt_of_le hb (history_tick _ ds))) ho
  have henv : (history (start env conf cap) cs).env = env := history_env _ cs
  generalize history (start env conf cap) cs = w at *
  have hid' : DistinctIds w.env (history w ds).tick := by rw [henv]; exact hid
  have s2 := s.history hid' ho'
  rw [s2.stream t (List.mem_of_getElem? (C82_other_services_untouched w p t h ds he)), s.stream t (List.mem_of_getElem? h)]
  refine congrArg stepsToBytes (List.map_congr_left fun i hi => ?_)
  exact recorded_fixed s hid' ho' ⟨t, List.mem_of_getElem? h, s.ptrs t (List.mem_of_getElem? h) i (List.mem_append_left _ hi)⟩

/-- **C82**: so the log of a service tells what was kept about it before the other calls. -/
theorem C82_log_untouched (w : World) (p : Nat) (t : Tctx) (h : w.tctxs[p]? = some t) (cs : List Call)
    (he : AllElsewhere p w cs) (hc : t.closed = false) (hb : 1 ≤ (history w cs).conf.bulk) :
    let w' := history w cs
    let w'' := perform w' (.endService (.traced p))
    xlogsOf (newPacks w' w'') =
      if keepsXlog (xlogFor t (decisionAt w' t) (elapsedAt w' t)) = true then
        [{ xlogFor t (decisionAt w' t) (elapsedAt w' t) with objHash := w'.conf.objHash }] else [] :=
  C61_log_carries_the_service _ p t (C82_other_services_untouched w p t h cs he) hc hb

/-! ## C83 -/

theorem AllOnce.append {cs : List Call} : ∀ {w : World} {ds : List Call}, AllOnce w cs → AllOnce (history w cs) ds → AllOnce w (cs ++ ds) := by
  induction cs with
  | nil => intro w ds _ h; exact h
  | cons c cs ih => intro w ds h h'; exact ⟨h.1, ih h.2 h'⟩

/-- **C83**: take a running service in any state, make any calls about it and about others, and end it.  If it is not
sampled away, the profile bytes a collector has received for its id over its whole life are those of the steps that were
recorded before, followed by exactly the steps that the calls told, in order. -/
theorem C83_profile_tells_the_calls (env : Oracle) (conf : TraceConf) (cap : Nat) (before : List Call) (hk : 1 ≤ conf.keep) (hb : 1 ≤ conf.bulk)
    (hwf : AllWellFormed (start env conf cap) before) (ho : AllOnce (start env conf cap) before) (p : Nat) (t : Tctx)
    (h : (history (start env conf cap) before).tctxs[p]? = some t) (hc : t.closed = false) (cs : List Call)
    (hwf' : AllWellFormed (history (start env conf cap) before) cs) (ho' : AllOnce (history (start env conf cap) before) cs)
    (hg : AllGo p (history (start env conf cap) before) cs)
    (hid : DistinctIds env (history (history (start env conf cap) before) (cs ++ [.endService (.traced p)])).tick) :
    let w := history (start env conf cap) before
    let w' := history w cs
    ∃ ss t', Story p w cs ss ∧ w'.tctxs[p]? = some t' ∧ (decisionAt w' t' = discardNone →
      profileStream (perform w' (.endService (.traced p))) t.txid = stepsToBytes (t.recorded.map (w.steps[·]?) ++ ss.map some)) := by
  have e1 : history (start env conf cap) (before ++ cs) = history (history (start env conf cap) before) cs := List.foldl_append ..
  have e2 : history (history (start env conf cap) before) (cs ++ [.endService (.traced p)]) =
      perform (history (history (start env conf cap) before) cs) (.endService (.traced p)) := by
    simp [history]
  rw [e2] at hid
  have hid1 : DistinctIds env (history (history (start env conf cap) before) cs).tick :=
    fun a b ha hb => hid a b (Nat.lt_of_lt_of_le ha (perform_tick _ _)) (Nat.lt_of_lt_of_le hb (perform_tick _ _))
  have hid0 : DistinctIds env (history (start env conf cap) before).tick :=
    fun a b ha hb => hid1 a b (Nat.lt_of_lt_of_le ha (history_tick _ cs)) (Nat.lt_of_lt_of_le hb (history_tick _ cs))
  have s := stream_of env conf cap before hid0 ho
  have henv : (history (start env conf cap) before).env = env := history_env _ before
  have hidw : DistinctIds (history (start env conf cap) before).env (history (history (start env conf cap) before) cs).tick := by
    rw [henv]; exact hid1
  obtain ⟨ss, h1, t', rec, f1, f2, f3, f4, f5⟩ := history_tells cs ⟨env, conf, cap, before, hk, hb, hwf, rfl⟩ s hidw h ho' hwf' hg
  refine ⟨ss, t', h1, f1, fun hd => ?_⟩
  have := C81_complete env conf cap (before ++ cs) hk hb (hwf.append hwf') (ho.append ho') p t' (by rw [e1]; exact f1) (f4.trans hc)
    (by rw [e1]; exact hd) (by rw [e1]; exact hid)
  rw [e1, f5, f2] at this
  simp only [List.map_append, f3] at this
  refine this.trans (congrArg (fun x => stepsToBytes (x ++ ss.map some)) (List.map_congr_left fun i hi => ?_))
  exact recorded_fixed s hidw ho' ⟨t, List.mem_of_getElem? h, hi⟩

/-- **C83**, from the start: a service is begun, any calls are made about it and about others, and it is ended.  If it is
not sampled away, the profile bytes received for its id are those of the goroutine's step followed by exactly the steps
its calls told, in order. -/
theorem C83_whole_life (env : Oracle) (conf : TraceConf) (cap : Nat) (before : List Call) (hk : 1 ≤ conf.keep) (hb : 1 ≤ conf.bulk)
    (hwf : AllWellFormed (start env conf cap) before) (ho : AllOnce (start env conf cap) before)
    (c : Ctx) (name addr : Bytes) (hc : traceOf (history (start env conf cap) before) c = none) (cs : List Call)
    (hwf' : AllWellFormed (perform (history (start env conf cap) before) (.startService c name addr)) cs)
    (ho' : AllOnce (perform (history (start env conf cap) before) (.startService c name addr)) cs)
    (hg : AllGo (history (start env conf cap) before).tctxs.length (perform (history (start env conf cap) before) (.startService c name addr)) cs)
    (hid : DistinctIds env (history (perform (history (start env conf cap) before) (.startService c name addr))
      (cs ++ [.endService (.traced (history (start env conf cap) before).tctxs.length)])).tick) :
    let w := history (start env conf cap) before
    let p := w.tctxs.length
    let w1 := perform w (.startService c name addr)
    let w' := history w1 cs
    ∃ ss t', Story p w1 cs ss ∧ w'.tctxs[p]? = some t' ∧ (decisionAt w' t' = discardNone →
      profileStream (perform w' (.endService (.traced p))) (w.env.id w.tick) =
        stepsToBytes ((⟨⟨0, 0, 0⟩, .message (ascii "goroutine:" ++ formatInt 10 (w.env.goid (w.tick + 2)))⟩ :: ss).map some)) := by
  have hr : Reachable (history (start env conf cap) before) := ⟨env, conf, cap, before, hk, hb, hwf, rfl⟩
  obtain ⟨w1, t1, h1, a⟩ := C74_service_start hr c hc name addr
  have e : perform (history (start env conf cap) before) (.startService c name addr) = w1 := perform_of_run (TM.bind_ok h1)
  have e1 : history (start env conf cap) (before ++ [.startService c name addr]) =
      perform (history (start env conf cap) before) (.startService c name addr) := by simp [history]
  have hw1 : WellFormed (history (start env conf cap) before) (.startService c name addr) := by simp [WellFormed]
  rw [← e1] at hwf' ho' hg hid
  have hlen : (history (start env conf cap) before).tctxs.length < (begun (history (start env conf cap) before)).tctxs.length := by
    simp [begun]
  have ht : (history (start env conf cap) (before ++ [.startService c name addr])).tctxs[(history (start env conf cap) before).tctxs.length]? = some t1 := by
    rw [e1, e, a.tctxs]
    simp [begun]
  have hcl : t1.closed = false := congrArg Tctx.closed a.fields
  have hidt : t1.txid = (history (start env conf cap) before).env.id (history (start env conf cap) before).tick := congrArg Tctx.txid a.fields
  have := C83_profile_tells_the_calls env conf cap (before ++ [.startService c name addr]) hk hb (hwf.append ⟨hw1, trivial⟩)
    (ho.append (ds := [.startService c name addr]) ⟨trivial, trivial⟩) _ t1 ht hcl cs hwf' ho' hg hid
  rw [hidt, a.recorded, e1] at this
  obtain ⟨ss, t', s1, s2, s3⟩ := this
  refine ⟨ss, t', s1, s2, fun hd => (s3 hd).trans ?_⟩
  rw [e, a.steps]
  refine congrArg stepsToBytes ?_
  simp [newborn, stepsAt, stepAt, goroutineStep]

/-- **C83**: what the collector decodes from the bytes are the steps themselves, one by one. -/
theorem C83_decoded (env : Oracle) (conf : TraceConf) (cap : Nat) (before : List Call) (hk : 1 ≤ conf.keep) (hb : 1 ≤ conf.bulk)
    (hwf : AllWellFormed (start env conf cap) before) (ho : AllOnce (start env conf cap) before)
    (c : Ctx) (name addr : Bytes) (hc : traceOf (history (start env conf cap) before) c = none) (cs : List Call)
    (hwf' : AllWellFormed (perform (history (start env conf cap) before) (.startService c name addr)) cs)
    (ho' : AllOnce (perform (history (start env conf cap) before) (.startService c name addr)) cs)
    (hg : AllGo (history (start env conf cap) before).tctxs.length (perform (history (start env conf cap) before) (.startService c name addr)) cs)
    (hid : DistinctIds env (history (perform (history (start env conf cap) before) (.startService c name addr))
      (cs ++ [.endService (.traced (history (start env conf cap) before).tctxs.length)])).tick) :
    let w := history (start env conf cap) before
    let p := w.tctxs.length
    let w1 := perform w (.startService c name addr)
    let w' := history w1 cs
    ∃ ss t', Story p w1 cs ss ∧ w'.tctxs[p]? = some t' ∧ (decisionAt w' t' = discardNone → ∀ ds : List Wire.WStep, ss.map Spec.denoteStep = ds.map some →
      Wire.steps (profileStream (perform w' (.endService (.traced p))) (w.env.id w.tick)) =
        some (⟨0, 0, 0, 0, .message (Wire.shown (ascii "goroutine:" ++ formatInt 10 (w.env.goid (w.tick + 2))))⟩ :: ds)) := by
  obtain ⟨ss, t', s1, s2, s3⟩ := C83_whole_life env conf cap before hk hb hwf ho c name addr hc cs hwf' ho' hg hid
  refine ⟨ss, t', s1, s2, fun hd ds hds => ?_⟩
  rw [s3 hd]
  refine C13_profile_decodes _ _ ?_
  have : ∀ l : List Step, (l.map some).filterMap id = l := fun l => by simp
  rw [this, List.map_cons, hds]
  simp [Spec.denoteStep, Spec.denoteBody]

/-! ## Non-vacuity -/

namespace Demo

/-- One service runs while another is begun, told about, and ended; a profile buffer of two steps, so it is sent in parts. -/
def storyBefore : List Call := [.startService .plain (ascii "x") []]
def storyWorld : World := perform (history (start env conf 100) storyBefore) (.startService .plain (ascii "b") (ascii "1.2.3.4"))
def storyCalls : List Call :=
  [.addMessageStep (.traced 1) (ascii "m"), .addMessageStep (.traced 0) (ascii "n"), .startMethod (.traced 1) (ascii "f") [some (ascii "p")],
   .endService (.traced 0), .startApiCall (.traced 1) (ascii "api") [], .endApiCall (.traced 1) (some 6) (some (ascii "e")),
   .endMethod (.traced 1) (some 5)]

example : AllOnce storyWorld storyCalls := by
  refine ⟨trivial, trivial, trivial, trivial, trivial, ?_, ?_, trivial⟩ <;> (unfold Once; decide +kernel)
example : AllWellFormed storyWorld storyCalls := by
  refine ⟨trivial, trivial, trivial, trivial, trivial, ?_, ?_, trivial⟩
  · intro i hi; cases hi; decide +kernel
  · intro i hi; cases hi; decide +kernel
example : AllGo 1 storyWorld storyCalls := by
  refine ⟨trivial, trivial, trivial, by simp [Goes, ctxOf], trivial, ?_, ?_, trivial⟩
  · exact ⟨⟨3, 4, 11⟩, 17, 0xad05d80f, 0, 0, 0, 0, [], by decide +kernel⟩
  · exact ⟨⟨0, 3, 8⟩, 0xacf45846, 0, 0, by decide +kernel⟩
example : DistinctIds env (history storyWorld (storyCalls ++ [.endService (.traced 1)])).tick := ids_distinct _ (by decide +kernel)
example : (history storyWorld storyCalls).tctxs[1]?.map (decisionAt (history storyWorld storyCalls)) = some discardNone := by decide +kernel
/-- Three packs were needed. -/
example : ((profilesOf (history storyWorld (storyCalls ++ [.endService (.traced 1)])).proxy.direct).filter
    (fun pk => pk.txid == env.id (history (start env conf 100) storyBefore).tick)).length = 3 := by decide +kernel
example : traceOf (history (start env conf 100) storyBefore) .plain = none := by decide +kernel
example : Elsewhere 0 storyWorld (.addMessageStep (.traced 1) (ascii "m")) := ⟨by simp [about, ctxOf], by intro o h; cases h⟩
/-- A count of active services, with stuck services removed, while the service has not been running for long. -/
example : storyWorld.conf.stuckRemove = true := by decide +kernel
example (o : MapOrder (BitVec 64 × Nat)) : Elsewhere 1 storyWorld (.activeCount o) := by
  refine ⟨by simp [about], fun _ _ => .inr fun t ht => ?_⟩
  have h : (storyWorld.tctxs[1]?).all (fun t => decide ((storyWorld.env.clock storyWorld.tick - t.startTime).tdiv 1000000 ≤ storyWorld.conf.stuckBase)) = true := by
    decide +kernel
  rw [ht] at h
  simpa using h

end Demo
end Scouter
