import Verif.Props.Story
import Verif.Props.Starting
/-! # C81, C83: the whole lives of services however they are started and ended -/
namespace Scouter
open TM Trace

/-- The calls that end the service at `p`. -/
inductive EndOf (p : Nat) : Call → Prop
  | service : EndOf p (.endService (.traced p))
  | http (s : BitVec 32) : EndOf p (.endHttpService (.traced p) (some s))
  | noResponse : EndOf p (.endHttpService (.traced p) none)

/-- EndHttpService without a response is EndService. -/
theorem endHttp_none (w : World) (c : Ctx) : perform w (.endHttpService c none) = perform w (.endService c) := rfl

theorem endHttp_eq {w : World} {p : Nat} {t : Tctx} (h : w.tctxs[p]? = some t) (hc : t.closed = false) (s : BitVec 32) :
    perform w (.endHttpService (.traced p) (some s)) =
      perform { w with tctxs := w.tctxs.modify p fun t => { t with status := s } } (.endService (.traced p)) := by
  have hp : p < w.tctxs.length := (List.getElem?_eq_some_iff.mp h).1
  have key : (withTrace (.traced p) () fun q => do
      let t ← getT q
      if t.closed then return () else do
        modT q fun t => { t with status := s }
        endAnyService (.traced p)) w =
      endAnyService (.traced p) { w with tctxs := w.tctxs.modify p fun t => { t with status := s } } := by
    rw [withTrace_run (p := p) (by simp [traceOf, hp]), TM.bind_ok (getT_run h), hc]
    rfl
  show (Trace.endHttpService (.traced p) (some s) w).2 = (Trace.endService (.traced p) _).2
  unfold Trace.endHttpService Trace.endService recovered
  simp only
  rw [key]

/-- Ending a service that is not sampled away leaves nothing unsent. -/
theorem ended_sent {w : World} (g : Reachable w) {p : Nat} {t : Tctx} (h : w.tctxs[p]? = some t) (hc : t.closed = false)
    (hd : decisionAt w t = discardNone) {e : Call} (he : EndOf p e) :
    ((perform w e).tctxs[p]?).map (·.sentSteps) = some t.recorded := by
  have g := g.good
  have hall := (g.each t (List.mem_of_getElem? h)).all hc
  cases he with
  | service =>
    obtain ⟨slices, packs, -, h2, h3, -⟩ := endService_full h hc g.bulk
    rw [if_pos hd] at h3
    rw [h2, List.getElem?_modify, h]
    simp [afterSending, closing, h3, hall]
  | noResponse =>
    rw [endHttp_none]
    obtain ⟨slices, packs, -, h2, h3, -⟩ := endService_full h hc g.bulk
    rw [if_pos hd] at h3
    rw [h2, List.getElem?_modify, h]
    simp [afterSending, closing, h3, hall]
  | http s =>
    rw [endHttp_eq h hc s]
    have h' : ({ w with tctxs := w.tctxs.modify p fun t => { t with status := s } } : World).tctxs[p]? =
      some { t with status := s } := by simp [h]
    obtain ⟨slices, packs, -, h2, h3, -⟩ := endService_full h' hc g.bulk
    have h3 : slices.flatten = t.col.kept := h3.trans (if_pos hd)
    rw [h2, List.getElem?_modify, h']
    simp [afterSending, closing, h3, hall]

/-- **C81**: when a service ends, by EndService or by EndHttpService, and is not sampled away, the profile bytes received
for it from its start on are exactly those of the steps recorded for it, in the order recorded. -/
theorem C81_complete_however_ended (env : Oracle) (conf : TraceConf) (cap : Nat) (cs : List Call) (hk : 1 ≤ conf.keep) (hb : 1 ≤ conf.bulk)
    (hwf : AllWellFormed (start env conf cap) cs) (ho : AllOnce (start env conf cap) cs) (p : Nat) (t : Tctx)
    (h : (history (start env conf cap) cs).tctxs[p]? = some t) (hc : t.closed = false)
    (hd : decisionAt (history (start env conf cap) cs) t = discardNone) (e : Call) (he : EndOf p e)
    (hid : DistinctIds env (perform (history (start env conf cap) cs) e).tick) :
    let w := history (start env conf cap) cs
    profileStream (perform w e) t.txid = stepsToBytes (t.recorded.map (w.steps[·]?)) := by
  have h3 := ended_sent ⟨env, conf, cap, cs, hk, hb, hwf, rfl⟩ h hc hd he
  have hs : Stream (fun _ => none) (history (start env conf cap) cs) :=
    stream_of env conf cap cs (fun a b ha hb => hid a b (Nat.lt_of_lt_of_le ha (perform_tick _ _)) (Nat.lt_of_lt_of_le hb (perform_tick _ _))) ho
  have henv : (history (start env conf cap) cs).env = env := history_env _ cs
  generalize history (start env conf cap) cs = w at *
  intro w'
  have hid' : DistinctIds w.env (history w [e]).tick := by rw [henv]; exact hid
  have hone : AllOnce w [e] := by cases he <;> exact ⟨trivial, trivial⟩
  have s2 := hs.history hid' hone
  cases ht' : (perform w e).tctxs[p]? with
  | none => rw [ht'] at h3; cases h3
  | some t' =>
    rw [ht'] at h3
    have e1 : t'.sentSteps = t.recorded := by simpa using h3
    obtain ⟨t'', e2, e3⟩ := fixed_call h e
    rw [ht'] at e2
    cases e2
    have e4 : t'.txid = t.txid := congrArg (·.1) e3
    have := s2.stream t' (List.mem_of_getElem? ht')
    rw [e4, e1] at this
    refine this.trans (congrArg stepsToBytes (List.map_congr_left fun i hi => ?_))
    exact recorded_fixed hs hid' hone ⟨t, List.mem_of_getElem? h, hi⟩

/-- **C83**: as `C83_profile_tells_the_calls`, the service being ended either way. -/
theorem C83_tells_however_ended (env : Oracle) (conf : TraceConf) (cap : Nat) (before : List Call) (hk : 1 ≤ conf.keep) (hb : 1 ≤ conf.bulk)
    (hwf : AllWellFormed (start env conf cap) before) (ho : AllOnce (start env conf cap) before) (p : Nat) (t : Tctx)
    (h : (history (start env conf cap) before).tctxs[p]? = some t) (hc : t.closed = false) (cs : List Call)
    (hwf' : AllWellFormed (history (start env conf cap) before) cs) (ho' : AllOnce (history (start env conf cap) before) cs)
    (hg : AllGo p (history (start env conf cap) before) cs) (e : Call) (he : EndOf p e)
    (hid : DistinctIds env (history (history (start env conf cap) before) (cs ++ [e])).tick) :
    let w := history (start env conf cap) before
    let w' := history w cs
    ∃ ss t', Story p w cs ss ∧ w'.tctxs[p]? = some t' ∧ (decisionAt w' t' = discardNone →
      profileStream (perform w' e) t.txid = stepsToBytes (t.recorded.map (w.steps[·]?) ++ ss.map some)) := by
  have e1 : history (start env conf cap) (before ++ cs) = history (history (start env conf cap) before) cs := List.foldl_append ..
  have e2 : history (history (start env conf cap) before) (cs ++ [e]) = perform (history (history (start env conf cap) before) cs) e := by
    simp [history]
  rw [e2] at hid
  have hid1 : DistinctIds env (history (history (start env conf cap) before) cs).tick :=
    fun a b ha hb => hid a b (Nat.lt_of_lt_of_le ha (perform_tick _ _)) (Nat.lt_of_lt_of_le hb (perform_tick _ _))
  have hid0 : DistinctIds env (history (start env conf cap) before).tick :=
    fun a b ha hb => hid1 a b (Nat.lt_of_lt_of_le ha (history_tick _ cs)) (Nat.lt_of_lt_of_le hb (history_tick _ cs))
  have s := stream_of env conf cap before hid0 ho
  have henv : (history (start env conf cap) before).env = env := history_env _ before
  have hidw : DistinctIds (history (start env conf cap) before).env (history (history (start env conf cap) before) cs).tick := by
    rw [henv]; exact hid1
  obtain ⟨ss, h1, t', rec, f1, f2, f3, f4, f5⟩ := history_tells cs ⟨env, conf, cap, before, hk, hb, hwf, rfl⟩ s hidw h ho' hwf' hg
  refine ⟨ss, t', h1, f1, fun hd => ?_⟩
  have := C81_complete_however_ended env conf cap (before ++ cs) hk hb (hwf.append hwf') (ho.append ho') p t' (by rw [e1]; exact f1) (f4.trans hc)
    (by rw [e1]; exact hd) e he (by rw [e1]; exact hid)
  rw [e1, f5, f2] at this
  simp only [List.map_append, f3] at this
  refine this.trans (congrArg (fun x => stepsToBytes (x ++ ss.map some)) (List.map_congr_left fun i hi => ?_))
  exact recorded_fixed s hidw ho' ⟨t, List.mem_of_getElem? h, hi⟩

/-- The life of a service that the call `c`, made in `w`, starts: `cs` are the calls made then (about it or about
others), `e` the call that ends it.  The calls are made as the API is meant to be used, and ids
are distinct. -/
structure Life (env : Oracle) (w : World) (c : Call) (cs : List Call) (e : Call) : Prop where
  formed : AllWellFormed (perform w c) cs
  once : AllOnce (perform w c) cs
  goes : AllGo w.tctxs.length (perform w c) cs
  ends : EndOf w.tctxs.length e
  ids : DistinctIds env (perform (history (perform w c) cs) e).tick

/-- What the collector receives of such a service, if it is not sampled away: the steps of its start, and then exactly
those its calls told. -/
def Received (w : World) (c : Call) (cs : List Call) (e : Call) (first : List Step) : Prop :=
  let w' := history (perform w c) cs
  ∃ ss t', Story w.tctxs.length (perform w c) cs ss ∧ w'.tctxs[w.tctxs.length]? = some t' ∧ (decisionAt w' t' = discardNone →
    profileStream (perform w' e) (w.env.id w.tick) = stepsToBytes ((first ++ ss).map some))

theorem received (env : Oracle) (conf : TraceConf) (cap : Nat) (before : List Call) (hk : 1 ≤ conf.keep) (hb : 1 ≤ conf.bulk)
    (hwf : AllWellFormed (start env conf cap) before) (ho : AllOnce (start env conf cap) before) (c : Call) (cs : List Call) (e : Call)
    (hf : WellFormed (history (start env conf cap) before) c) (hone : Once (history (start env conf cap) before) c)
    (hl : Life env (history (start env conf cap) before) c cs e) {w1 : World} (hw1 : perform (history (start env conf cap) before) c = w1)
    {t1 : Tctx} (ht : w1.tctxs[(history (start env conf cap) before).tctxs.length]? = some t1) (hcl : t1.closed = false)
    (hidt : t1.txid = (history (start env conf cap) before).env.id (history (start env conf cap) before).tick) {first : List Step}
    (hfirst : t1.recorded.map (w1.steps[·]?) = first.map some) :
    Received (history (start env conf cap) before) c cs e first := by
  have e1 : history (start env conf cap) (before ++ [c]) = perform (history (start env conf cap) before) c := by simp [history]
  obtain ⟨hwf', ho', hg, he, hid⟩ := hl
  have e2 : history (perform (history (start env conf cap) before) c) (cs ++ [e]) =
      perform (history (perform (history (start env conf cap) before) c) cs) e := by simp [history]
  rw [← e2] at hid
  rw [← e1] at hwf' ho' hg hid
  have := C83_tells_however_ended env conf cap (before ++ [c]) hk hb (hwf.append ⟨hf, trivial⟩)
    (ho.append (ds := [c]) ⟨hone, trivial⟩) (history (start env conf cap) before).tctxs.length t1 (by rw [e1, hw1]; exact ht) hcl cs hwf' ho' hg e he hid
  rw [hidt, e1] at this
  obtain ⟨ss, t', s1, s2, s3⟩ := this
  refine ⟨ss, t', s1, s2, fun hd => (s3 hd).trans ?_⟩
  rw [hw1, hfirst, List.map_append]

theorem range_steps (l s : List Step) : (List.range' l.length s.length).map ((l ++ s)[·]?) = s.map some := by
  apply List.ext_getElem
  · simp
  · intro n h1 h2
    have hn : n < s.length := by simpa using h2
    simp [hn]

/-- **C83**: what the collector decodes from the bytes are the steps of the start and those the calls told, one by one. -/
theorem C83_received_decoded {w : World} {c : Call} {cs : List Call} {e : Call} {first : List Step} (h : Received w c cs e first) :
    let w' := history (perform w c) cs
    ∃ ss t', Story w.tctxs.length (perform w c) cs ss ∧ w'.tctxs[w.tctxs.length]? = some t' ∧ (decisionAt w' t' = discardNone →
      ∀ ds : List Wire.WStep, (first ++ ss).map Spec.denoteStep = ds.map some →
        Wire.steps (profileStream (perform w' e) (w.env.id w.tick)) = some ds) := by
  obtain ⟨ss, t', h1, h2, h3⟩ := h
  refine ⟨ss, t', h1, h2, fun hd ds hds => ?_⟩
  rw [h3 hd]
  refine C13_profile_decodes _ _ ?_
  have : ∀ l : List Step, (l.map some).filterMap id = l := fun l => by simp
  rw [this, hds]

section
variable (env : Oracle) (conf : TraceConf) (cap : Nat) (before : List Call) (hk : 1 ≤ conf.keep) (hb : 1 ≤ conf.bulk)
    (hwf : AllWellFormed (start env conf cap) before) (ho : AllOnce (start env conf cap) before) (cs : List Call) (e : Call)
include hk hb hwf ho

/-- **C83**, for an http service: the steps of its start are the goroutine's and one for each line that describes the
request, all at the time read then. -/
theorem C83_http_whole_life (c : Ctx) (hn : c ≠ .nil) (hc : traceOf (history (start env conf cap) before) c = none) (r : Request)
    (hl : Life env (history (start env conf cap) before) (.startHttpService c (some r)) cs e) :
    let w := history (start env conf cap) before
    ∃ now, ReadDuring (newborn w) w (perform w (.startHttpService c (some r))) now ∧ Received w (.startHttpService c (some r)) cs e
      (stepsAt (newborn w) 0 ((0, .message (ascii "goroutine:" ++ formatInt 10 (w.env.goid (w.tick + 2)))) ::
        (requestLines w.conf r).map fun m => (now, .message m))) := by
  have hr : Reachable (history (start env conf cap) before) := ⟨env, conf, cap, before, hk, hb, hwf, rfl⟩
  obtain ⟨w1, t1, now, h1, ⟨k, k1, k2, k3⟩, a⟩ := C74_http_start hr c hn hc r
  have hp : perform (history (start env conf cap) before) (.startHttpService c (some r)) = w1 := perform_of_run (TM.bind_ok h1)
  refine ⟨now, ⟨k, Nat.le_of_add_right_le k1, by rw [hp]; exact k2, k3⟩, received env conf cap before hk hb hwf ho (.startHttpService c (some r)) cs e (by simp [WellFormed]) trivial hl hp
    (t1 := t1) (by rw [a.tctxs]; simp [begun]) (congrArg Tctx.closed a.fields) (congrArg Tctx.txid a.fields) ?_⟩
  rw [a.recorded, a.steps]
  have := range_steps (history (start env conf cap) before).steps (stepsAt (newborn (history (start env conf cap) before)) 0
    (goroutineStep (history (start env conf cap) before) :: (requestLines (history (start env conf cap) before).conf r).map fun m => (now, .message m)))
  rw [stepsAt_length, List.length_cons, List.length_map, Nat.add_comm] at this
  exact this

/-- **C83**, for a service that continues another: the steps of its start are the goroutine's and one that says so. -/
theorem C83_inherited_whole_life (q : Nat) (u : Tctx) (hq : (history (start env conf cap) before).tctxs[q]? = some u)
    (hl : Life env (history (start env conf cap) before) (.startInheritance (some q)) cs e) :
    let w := history (start env conf cap) before
    Received w (.startInheritance (some q)) cs e
      [⟨⟨0, 0, 0⟩, .message (ascii "goroutine:" ++ formatInt 10 (w.env.goid (w.tick + 2)))⟩, ⟨⟨0, 1, 0⟩, .message (ascii "scouter inheritance step")⟩] := by
  have hr : Reachable (history (start env conf cap) before) := ⟨env, conf, cap, before, hk, hb, hwf, rfl⟩
  obtain ⟨w1, t1, h1, a⟩ := C76_inheritance hr q u hq
  refine received env conf cap before hk hb hwf ho (.startInheritance (some q)) cs e ⟨q, rfl, (List.getElem?_eq_some_iff.mp hq).1⟩ trivial hl (perform_of_run (TM.bind_ok h1))
    (t1 := t1) (by rw [a.tctxs]; simp [begun]) (congrArg Tctx.closed a.fields) (congrArg Tctx.txid a.fields) ?_
  rw [a.recorded, a.steps]
  have := range_steps (history (start env conf cap) before).steps (stepsAt (newborn (history (start env conf cap) before)) 0
    [goroutineStep (history (start env conf cap) before), (0, .message (ascii "scouter inheritance step"))])
  exact this

/-- **C83**, for the service of a goroutine started with GoWithTrace: the step of its start is the goroutine's. -/
theorem C83_child_whole_life (q : Nat) (u : Tctx) (hq : (history (start env conf cap) before).tctxs[q]? = some u) (name : Bytes)
    (hl : Life env (history (start env conf cap) before) (.goWithTrace (.traced q) name) cs e) :
    let w := history (start env conf cap) before
    Received w (.goWithTrace (.traced q) name) cs e
      [⟨⟨0, 0, 0⟩, .message (ascii "goroutine:" ++ formatInt 10 (w.env.goid (w.tick + 2)))⟩] := by
  have hr : Reachable (history (start env conf cap) before) := ⟨env, conf, cap, before, hk, hb, hwf, rfl⟩
  obtain ⟨w1, t1, w2, u', h1, a, h2, b, -⟩ := C76_child hr q u hq name
  have hlt : q < (history (start env conf cap) before).tctxs.length := (List.getElem?_eq_some_iff.mp hq).1
  refine received env conf cap before hk hb hwf ho (.goWithTrace (.traced q) name) cs e trivial trivial hl (perform_of_run (TM.bind_ok h1))
    (t1 := t1) (by rw [b.tctxs, a.tctxs, List.getElem?_set_ne (Nat.ne_of_lt hlt)]; simp [begun]) (congrArg Tctx.closed a.fields) (congrArg Tctx.txid a.fields) ?_
  rw [a.recorded, b.steps, a.steps]
  simp [newborn, stepsAt, stepAt, goroutineStep]

end

/-! ## Non-vacuity -/

namespace Demo

/-- An http service is told about while another runs, and is ended with its status. -/
def httpLifeBefore : List Call := [.startService .plain (ascii "x") []]
def httpLifeWorld : World := history (start env httpConf 100) httpLifeBefore
def httpLifeCalls : List Call :=
  [.addMessageStep (.traced 1) (ascii "m"), .addMessageStep (.traced 0) (ascii "n"), .endService (.traced 0), .markAsError (.traced 1) (ascii "e")]

example : Life env httpLifeWorld (.startHttpService .plain (some request)) httpLifeCalls (.endHttpService (.traced 1) (some 404)) where
  formed := ⟨trivial, trivial, trivial, trivial, trivial⟩
  once := ⟨trivial, trivial, trivial, trivial, trivial⟩
  goes := ⟨trivial, trivial, by simp [Goes, ctxOf, httpLifeWorld]; decide +kernel, trivial, trivial⟩
  ends := by
    have h : httpLifeWorld.tctxs.length = 1 := by decide +kernel
    rw [h]; exact .http 404
  ids := ids_distinct _ (by decide +kernel)
example : (history (perform httpLifeWorld (.startHttpService .plain (some request))) httpLifeCalls).tctxs[1]?.map
    (decisionAt (history (perform httpLifeWorld (.startHttpService .plain (some request))) httpLifeCalls)) = some discardNone := by decide +kernel
/-- The goroutine, two lines of the request, a message and an error. -/
example : (Wire.steps (profileStream (perform (history (perform httpLifeWorld (.startHttpService .plain (some request))) httpLifeCalls)
    (.endHttpService (.traced 1) (some 404))) (httpLifeWorld.env.id httpLifeWorld.tick))).map List.length = some 5 := by decide +kernel

/-- The service of a goroutine, and one that continues the first. -/
example : Life env httpLifeWorld (.goWithTrace (.traced 0) (ascii "g")) [.goBegin (.traced 1), .addMessageStep (.traced 1) (ascii "m")]
    (.endService (.traced 1)) where
  formed := ⟨trivial, trivial, trivial⟩
  once := ⟨trivial, trivial, trivial⟩
  goes := ⟨trivial, trivial, trivial⟩
  ends := by
    have h : httpLifeWorld.tctxs.length = 1 := by decide +kernel
    rw [h]; exact .service
  ids := ids_distinct _ (by decide +kernel)
example : Life env httpLifeWorld (.startInheritance (some 0)) [.endService (.traced 0), .addMessageStep (.traced 1) (ascii "m")]
    (.endService (.traced 1)) where
  formed := ⟨trivial, trivial, trivial⟩
  once := ⟨trivial, trivial, trivial⟩
  goes := ⟨by simp [Goes, ctxOf, httpLifeWorld]; decide +kernel, trivial, trivial⟩
  ends := by
    have h : httpLifeWorld.tctxs.length = 1 := by decide +kernel
    rw [h]; exact .service
  ids := ids_distinct _ (by decide +kernel)
example : (httpLifeWorld.tctxs[0]?).isSome = true := by decide +kernel

end Demo
end Scouter
