import Verif.Spec.Propagation
import Verif.Props.Recording
/-!
# C111: outgoing requests as objects
-/
namespace Scouter
namespace Propagation
open Trace TM

/-! ## Headers -/

theorem values_add (h : Header) (k v key : Bytes) : (h.add k v).values key = h.values key ++ if k = key then [v] else [] := by
  induction h with
  | nil =>
    by_cases e : k = key
    · subst e; simp [Header.add, Header.values, List.lookup]
    · have e' : (key == k) = false := by simpa using fun x => e x.symm
      simp [Header.add, Header.values, List.lookup, e, e']
  | cons x h ih =>
    obtain ⟨k0, vs⟩ := x
    simp only [Header.add]
    split
    next e =>
      subst e
      by_cases e : k0 = key
      · subst e; simp [Header.values, List.lookup]
      · have e' : (key == k0) = false := by simpa using fun x => e x.symm
        simp [Header.values, List.lookup, e, e']
    next e =>
      by_cases e0 : k0 = key
      · subst e0
        have : ¬ k = k0 := fun x => e x.symm
        simp [Header.values, List.lookup, this]
      · have e' : (key == k0) = false := by simpa using fun x => e0 x.symm
        simp only [Header.values, List.lookup, e'] at ih ⊢
        exact ih

/-- Adding headers one after the other. -/
def addAll (h : Header) (hs : List (Bytes × Bytes)) : Header := hs.foldl (fun h e => h.add e.1 e.2) h

theorem values_addAll (hs : List (Bytes × Bytes)) (h : Header) (key : Bytes) : (addAll h hs).values key = h.values key ++ valuesIn hs key := by
  induction hs generalizing h with
  | nil => simp [addAll, valuesIn]
  | cons e hs ih =>
    show (addAll (h.add e.1 e.2) hs).values key = _
    rw [ih, values_add]
    by_cases he : e.1 = key <;> simp [valuesIn, he]

theorem addAll_append (h : Header) (a b : List (Bytes × Bytes)) : addAll (addAll h a) b = addAll h (a ++ b) := by simp [addAll]

/-! ## The two models of the call -/

/-- `m'` does what `m` does, with `f` of its result. -/
def Maps {β γ : Type} (f : β → Outcome γ) (m : TM β) (m' : TM γ) : Prop :=
  ∀ w, m' w = match m w with | (.ok b, w) => (f b, w) | (.panic, w) => (.panic, w)

theorem Maps.bind {α β γ : Type} {f : β → Outcome γ} (m : TM α) {k : α → TM β} {k' : α → TM γ} (h : ∀ a, Maps f (k a) (k' a)) :
    Maps f (m >>= k) (m >>= k') := by
  intro w
  simp only [TM.bind_def]
  rcases m w with ⟨o, w1⟩
  cases o with
  | ok a => exact h a w1
  | panic => rfl

theorem Maps.ite {β γ : Type} {f : β → Outcome γ} {c : Prop} [Decidable c] {m n : TM β} {m' n' : TM γ} (h : Maps f m m') (h' : Maps f n n') :
    Maps f (if c then m else n) (if c then m' else n') := by split <;> assumption

theorem Maps.withTrace {β γ : Type} {f : β → Outcome γ} (c : Ctx) {d : β} {d' : γ} {k : Nat → TM β} {k' : Nat → TM γ}
    (hd : f d = .ok d') (h : ∀ p, Maps f (k p) (k' p)) : Maps f (withTrace c d k) (withTrace c d' k') := by
  refine .bind _ fun w0 => ?_
  cases traceOf w0 c with
  | some p => exact h p
  | none => intro w; show _ = (f d, w); rw [hd]; rfl

theorem Maps.recovered {β γ : Type} {f : β → γ} {d : β} {d' : γ} {m : TM β} {m' : TM γ} (hd : f d = d')
    (h : Maps (fun b => .ok (f b)) m m') : Maps (fun b => .ok (f b)) (recovered d m) (recovered d' m') := by
  intro w
  unfold Trace.recovered
  rw [h w, ← hd]
  rcases m w with ⟨o, w1⟩
  cases o <;> rfl

/-- The common part of the call, and two ways to go on. -/
theorem body_maps {β γ : Type} {f : β → Outcome γ} (p : Nat) (name address : Bytes) {k : Nat → Tctx → Step → World → TM β}
    {k' : Nat → Tctx → Step → World → TM γ} (h : ∀ ptr t s w, Maps f (k ptr t s w) (k' ptr t s w)) :
    Maps f
      (do
        let ptr ← startApiCall0 p name address
        let t ← getT p
        if t.gxid = 0 then modT p fun t => { t with gxid := t.txid } else pure ()
        let t ← getT p
        let s ← getStep ptr
        let w ← TM.get
        k ptr t s w)
      (do
        let ptr ← startApiCall0 p name address
        let t ← getT p
        if t.gxid = 0 then modT p fun t => { t with gxid := t.txid } else pure ()
        let t ← getT p
        let s ← getStep ptr
        let w ← TM.get
        k' ptr t s w) := by
  have jp : ∀ ptr, Maps f (do let t ← getT p; let s ← getStep ptr; let w ← TM.get; k ptr t s w)
      (do let t ← getT p; let s ← getStep ptr; let w ← TM.get; k' ptr t s w) :=
    fun ptr => .bind _ fun t => .bind _ fun s => .bind _ fun w => h ptr t s w
  exact .bind _ fun ptr => .bind _ fun t => .ite (.bind _ fun _ => jp ptr) (jp ptr)

/-- With headers, the call is the one of the other model, its headers added to those there are. -/
theorem on_header (c : Ctx) (h : Header) (name address : Bytes) :
    Maps (fun r => .ok (r.1, some (some (addAll h r.2)))) (startApiCallProp c name address true)
      (startApiCallOn c (some (some h)) name address) :=
  .recovered rfl <| .withTrace c rfl fun p => body_maps p name address fun _ _ _ _ _ => rfl

theorem on_nothing (c : Ctx) (name address : Bytes) :
    Maps (fun r => .ok (r.1, none)) (startApiCallProp c name address false) (startApiCallOn c none name address) :=
  .recovered rfl <| .withTrace c rfl fun p => body_maps p name address fun _ _ _ _ _ => rfl

section
variable {w : World} {p : Nat} {t : Tctx}

/-- **C111**: with a request that has headers, the call opens an api-call step, and every header the request has then is what it
had before followed by what the call says: a header is never replaced. -/
theorem C111_added (hw : Reachable w) (ht : w.tctxs[p]? = some t) (h : Header) (name address : Bytes) :
    ∃ i h' w', startApiCallOn (.traced p) (some (some h)) name address w = (.ok (i, some (some h')), w') ∧
      ApiCallStarted p t (fun t => { t with gxid := groupOf t }) name address w i w' ∧
      ∀ key, h'.values key = h.values key ++ valuesIn (propagated w t (w.env.id (w.tick + 1))) key := by
  obtain ⟨i, w', h1, h2⟩ := C75_propagation hw ht name address true
  refine ⟨i, addAll h (propagated w t (w.env.id (w.tick + 1))), w', ?_, h2, fun key => values_addAll _ _ _⟩
  rw [on_header _ _ _ _ w, h1]
  rfl

/-- **C111**: with a nil request the call opens the step. -/
theorem C111_no_request (hw : Reachable w) (ht : w.tctxs[p]? = some t) (name address : Bytes) :
    ∃ i w', startApiCallOn (.traced p) none name address w = (.ok (i, none), w') ∧
      ApiCallStarted p t (fun t => { t with gxid := groupOf t }) name address w i w' := by
  obtain ⟨i, w', h1, h2⟩ := C75_propagation hw ht name address false
  refine ⟨i, w', ?_, h2⟩
  rw [on_nothing _ _ _ w, h1]

/-- **C111**: with a request without a header map the call returns no step, and tells by an alert; but the step was opened, so
that the steps that follow belong to it (the number of the step they belong to is its number), and it stays open: it is
not recorded, and nobody has it to end it. -/
theorem C111_no_headers (hw : Reachable w) (ht : w.tctxs[p]? = some t) (name address : Bytes) :
    ∃ i wm w', startApiCallOn (.traced p) (some none) name address w = (.ok (none, some none), w') ∧
      ApiCallStarted p t (fun t => { t with gxid := groupOf t }) name address w i wm ∧ AlertMore wm w' := by
  obtain ⟨i, wm, hm, hs⟩ := C75_propagation hw ht name address false
  have hi := hs.1
  subst hi
  refine ⟨_, wm, { wm with
    tick := wm.tick + 1
    proxy := { wm.proxy with direct := wm.proxy.direct ++ [.alert
      { time := 0, objType := wm.conf.objType, objHash := wm.conf.objHash, level := 3, title := ascii "Panic",
        message := wm.env.panicText wm.tick, tags := [] }] } }, ?_, hs, ⟨rfl, rfl, rfl, rfl, rfl, rfl, rfl, _, rfl⟩⟩
  have key : ∀ (m : TM (Option Nat × List (Bytes × Bytes))) (m' : TM (Option Nat × Option (Option Header))),
      (∃ n n', m w = n w ∧ m' w = n' w ∧ Maps (fun _ => .panic) n n') →
      recovered (none, []) m w = (.ok (some w.steps.length, []), wm) →
      recovered (none, some none) m' w = recovered (none, some none) TM.panic wm := by
    rintro m m' ⟨n, n', e, e', h⟩ h'
    unfold recovered at h' ⊢
    rw [e', h w, ← e]
    rcases e : m w with ⟨o, w1⟩
    rw [e] at h'
    cases o with
    | ok a =>
      have : w1 = wm := congrArg Prod.snd h'
      rw [this]; rfl
    | panic =>
      have h1 : (Outcome.ok ((none, []) : Option Nat × List (Bytes × Bytes))) = .ok (some w.steps.length, []) := congrArg Prod.fst h'
      cases h1
  refine (key _ _ ?_ hm).trans ?_
  · refine ⟨_, _, withTrace_run (traceOf_traced ht) _ _, withTrace_run (traceOf_traced ht) _ _, ?_⟩
    exact body_maps p name address fun _ _ _ _ _ => rfl
  · rfl

end

/-! ## Histories -/

theorem App.run_nil (a : App) : a.run [] = a := rfl
theorem App.run_cons (a : App) (x : Act) (xs : List Act) : a.run (x :: xs) = (a.act x).run xs := rfl

/-- One act does to the headers of a request the application leaves alone: it adds to them. -/
theorem act_adds {a : App} {i : Nat} {h : Header} (ha : a.has i h) {x : Act} (hx : ∀ f, x ≠ .change i f) :
    ∃ hs, (a.act x).has i (addAll h hs) := by
  have hi : i < a.requests.length := (List.getElem?_eq_some_iff.mp ha).1
  cases x with
  | call c => exact ⟨[], ha⟩
  | make h' => exact ⟨[], by unfold App.has App.act; rw [List.getElem?_append_left hi]; exact ha⟩
  | change j f =>
    have hj : j ≠ i := fun e => hx f (by rw [e])
    refine ⟨[], ?_⟩
    show (a.requests.modify j f)[i]? = _
    rw [List.getElem?_modify, show a.requests[i]? = some (some h) from ha]
    simp [hj, addAll]
  | propagate c j name address =>
    by_cases hj : j = i
    · subst hj
      have e : a.requests[j]? = some (some h) := ha
      unfold App.has App.act
      simp only [e]
      rw [on_header c h name address a.world]
      rcases startApiCallProp c name address true a.world with ⟨o, w'⟩
      cases o with
      | ok r => exact ⟨r.2, List.getElem?_set_self hi⟩
      | panic => exact ⟨[], ha⟩
    · refine ⟨[], ?_⟩
      unfold App.has App.act
      dsimp only
      split
      · exact ha
      · split
        · show (a.requests.set j _)[i]? = _
          rw [List.getElem?_set_ne hj]; exact ha
        · exact ha

/-- **C111**: whatever the application does, as long as it leaves the headers of a request to the agent, the values of each of them
only get more: what was there first stays first. -/
theorem C111_first_stays (a : App) (i : Nat) (h : Header) (ha : a.has i h) (acts : List Act) (hl : LeavesAlone i acts) :
    ∃ h', (a.run acts).has i h' ∧ ∀ key, h.values key <+: h'.values key ∧ (h.values key ≠ [] → h'.get key = h.get key) := by
  have main : ∃ hs, (a.run acts).has i (addAll h hs) := by
    induction acts generalizing a h with
    | nil => exact ⟨[], ha⟩
    | cons x xs ih =>
      obtain ⟨hs, h1⟩ := act_adds ha (x := x) fun f e => hl f (by rw [e]; exact List.mem_cons_self ..)
      obtain ⟨hs', h2⟩ := ih (a.act x) _ h1 fun f hf => hl f (List.mem_cons_of_mem _ hf)
      exact ⟨hs ++ hs', by rw [addAll_append] at h2; exact h2⟩
  obtain ⟨hs, h1⟩ := main
  refine ⟨_, h1, fun key => ⟨?_, fun hn => ?_⟩⟩
  · rw [values_addAll]; exact List.prefix_append ..
  · unfold Header.get
    rw [values_addAll]
    cases e : h.values key with
    | nil => exact absurd e hn
    | cons v vs => rfl

/-- The other model's call in any state it may be made in: what it says, and the state it leaves. -/
theorem prop_says {w : World} (hr : Reachable w) (c : Ctx) (name address : Bytes) :
    ∃ i w', startApiCallProp c name address true w = (.ok (i, headersFor w c), w') ∧ Reachable w' := by
  have reach : ∀ {i hs w'}, startApiCallProp c name address true w = (.ok (i, hs), w') → Reachable w' := by
    intro i hs w' h
    have : perform w (.startApiCallProp c name address true) = w' :=
      perform_of_run (c := .startApiCallProp c name address true) (by show (_ >>= _ : TM Unit) w = _; rw [TM.bind_ok h]; rfl)
    rw [← this]
    exact hr.perform trivial
  have untraced : traceOf w c = none → startApiCallProp c name address true w = (.ok (none, []), w) :=
    fun h => recovered_run (withTrace_none h _ _)
  cases c with
  | nil => exact ⟨_, _, untraced rfl, hr⟩
  | plain => exact ⟨_, _, untraced rfl, hr⟩
  | traced p =>
    cases ht : w.tctxs[p]? with
    | none =>
      have e : headersFor w (.traced p) = [] := by simp [headersFor, ht]
      rw [e]
      refine ⟨_, _, untraced ?_, hr⟩
      simp only [traceOf]
      rw [if_neg]
      exact Nat.not_lt.mpr (List.getElem?_eq_none_iff.mp ht)
    | some t =>
      obtain ⟨i, w', h1, -⟩ := C75_propagation hr ht name address true
      have e : headersFor w (.traced p) = propagated w t (w.env.id (w.tick + 1)) := by simp [headersFor, ht]
      rw [e]
      exact ⟨i, w', h1, reach h1⟩

/-- A proper act leaves a reachable world, and adds to the headers of a request what `told` says. -/
theorem act_tells {a : App} (hr : Reachable a.world) {i : Nat} {h : Header} (ha : a.has i h) {x : Act} (hx : ∀ f, x ≠ .change i f)
    (hp : AllProper a [x]) : Reachable (a.act x).world ∧ (a.act x).has i (addAll h (told i a [x])) := by
  have hi : i < a.requests.length := (List.getElem?_eq_some_iff.mp ha).1
  cases x with
  | call c => exact ⟨hr.perform hp.1, ha⟩
  | make h' => exact ⟨hr, by show (a.requests ++ [h'])[i]? = _; rw [List.getElem?_append_left hi]; exact ha⟩
  | change j f =>
    refine ⟨hr, ?_⟩
    have hj : j ≠ i := fun e => hx f (by rw [e])
    show (a.requests.modify j f)[i]? = _
    rw [List.getElem?_modify, show a.requests[i]? = some (some h) from ha]
    simp [hj, addAll, told]
  | propagate c j name address =>
    have hp := hp.1
    obtain ⟨r, w', h1, h2⟩ := prop_says hr c name address
    cases e : a.requests[j]? with
    | none =>
      have ea : a.act (.propagate c j name address) = a := by unfold App.act; simp only [e]
      have hj : j ≠ i := by rintro rfl; rw [show a.requests[j]? = some (some h) from ha] at e; cases e
      have et : told i a [.propagate c j name address] = [] := by simp [told, hj]
      rw [ea, et]
      exact ⟨hr, ha⟩
    | some h0 =>
      cases h0 with
      | none => exact absurd e hp
      | some h0 =>
        have ea := on_header c h0 name address a.world
        rw [h1] at ea
        have eb : a.act (.propagate c j name address) = ⟨w', a.requests.set j (some (addAll h0 (headersFor a.world c)))⟩ := by
          unfold App.act; simp only [e, ea]
        rw [eb]
        refine ⟨h2, ?_⟩
        by_cases hj : j = i
        · subst hj
          rw [show a.requests[j]? = some (some h) from ha] at e
          cases e
          show (a.requests.set j _)[j]? = _
          rw [List.getElem?_set_self hi]
          simp [told]
        · show (a.requests.set j _)[i]? = _
          rw [List.getElem?_set_ne hj, show told i a [.propagate c j name address] = [] by simp [told, hj]]
          exact ha

/-- **C111**: after any history of proper calls, each header of a request the application leaves to the agent has the values it had, followed by
one for each api call made with it, in order, naming the group, the service, the callee id and the object of that call. -/
theorem C111_one_value_per_call (a : App) (hr : Reachable a.world) (i : Nat) (h : Header) (ha : a.has i h) (acts : List Act)
    (hl : LeavesAlone i acts) (hp : AllProper a acts) :
    ∃ h', (a.run acts).has i h' ∧ ∀ key, h'.values key = h.values key ++ valuesIn (told i a acts) key := by
  have main : (a.run acts).has i (addAll h (told i a acts)) := by
    induction acts generalizing a h with
    | nil => exact ha
    | cons x xs ih =>
      obtain ⟨h1, h2⟩ := act_tells hr ha (x := x) (fun f e => hl f (by rw [e]; exact List.mem_cons_self ..)) ⟨hp.1, trivial⟩
      have := ih (a.act x) h1 _ h2 (fun f hf => hl f (List.mem_cons_of_mem _ hf)) hp.2
      rw [addAll_append] at this
      simp only [told, List.append_nil] at this ⊢
      exact this
  exact ⟨_, main, fun key => values_addAll _ _ _⟩

/-! ## Non-vacuity -/

namespace Demo

/-- A service in the middle of something, and two requests of the application: one made by `http.NewRequest`, one without a header map. -/
def app : App := ⟨history (start Scouter.Demo.env Scouter.Demo.conf 100) Scouter.Demo.midway, [some [], none]⟩

theorem app_reachable : Reachable app.world := by
  have e : app.world = history (start Scouter.Demo.env Scouter.Demo.conf 100) Scouter.Demo.midway := by with_reducible unfold app; rfl
  rw [e]
  exact Scouter.Demo.midway_reachable

/-- A call, and a second attempt with the same request. -/
def twice : List Act :=
  [.propagate (.traced 0) 0 (ascii "/a") [], .call (.addMessageStep (.traced 0) (ascii "again")), .propagate (.traced 0) 0 (ascii "/a") []]

theorem proper_of (i : Nat) (acts : List Act) (hx : ∀ x ∈ acts, (∃ c n m, x = .propagate c i n m) ∨ ∃ c m, x = .call (.addMessageStep c m)) :
    ∀ (a : App) (h : Header), a.has i h → AllProper a acts := by
  induction acts with
  | nil => exact fun _ _ _ => trivial
  | cons x xs ih =>
    intro a h ha
    have hx0 := hx x (List.mem_cons_self ..)
    obtain ⟨hs, h1⟩ := act_adds ha (x := x) (by rcases hx0 with ⟨c, n, m, rfl⟩ | ⟨c, m, rfl⟩ <;> exact fun f e => by cases e)
    refine ⟨?_, ih (fun y hy => hx y (List.mem_cons_of_mem _ hy)) _ _ h1⟩
    rcases hx0 with ⟨c, n, m, rfl⟩ | ⟨c, m, rfl⟩
    · show a.requests[i]? ≠ some none
      rw [show a.requests[i]? = some (some h) from ha]
      simp
    · trivial

theorem app_has : app.has 0 [] := rfl

theorem twice_proper : AllProper app twice := proper_of 0 twice (by
  intro x hx
  simp only [twice, List.mem_cons, List.not_mem_nil, or_false] at hx
  rcases hx with rfl | rfl | rfl
  · exact .inl ⟨_, _, _, rfl⟩
  · exact .inr ⟨_, _, rfl⟩
  · exact .inl ⟨_, _, _, rfl⟩) app [] app_has

theorem twice_alone : LeavesAlone 0 twice := by intro f; simp [twice]

/-- Two values of the callee header, of different calls; who looks at the first gets the first. -/
example : ((app.run twice).requests[0]?.map fun h => h.map fun h =>
    ((h.values (ascii "X-Scouter-Callee")).length, decide ((h.values (ascii "X-Scouter-Callee")).Nodup), decide (h.get (ascii "X-Scouter-Callee") =
      (h.values (ascii "X-Scouter-Callee")).headD []))) = some (some (2, true, true)) := by decide +kernel

example := C111_one_value_per_call app app_reachable 0 [] app_has twice twice_alone twice_proper

/-- The request without a header map: no step is returned, and a message recorded then belongs to the step nobody has. -/
example : ((startApiCallOn (.traced 0) (some none) (ascii "/b") [] app.world).2.steps.getLast?.map (·.ss.index),
    (perform (startApiCallOn (.traced 0) (some none) (ascii "/b") [] app.world).2 (.addMessageStep (.traced 0) (ascii "x"))).steps.getLast?.map (·.ss.parent)) =
    (some 5, some 5) := by decide +kernel

end Demo

end Propagation
end Scouter
