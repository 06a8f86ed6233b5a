import Verif.Spec.Deferring
/-! # C108: the agent does not hide the application's panics -/
namespace Scouter
namespace Deferring

theorem appEvents_append (a b : List Event) : appEvents (a ++ b) = appEvents a ++ appEvents b := by
  unfold appEvents; exact List.filterMap_append

theorem alerts_append (a b : List Event) : alerts (a ++ b) = alerts a ++ alerts b := by
  unfold alerts; exact List.filterMap_append

theorem appEvents_cons (e : Event) (es : List Event) : appEvents (e :: es) = appEvents [e] ++ appEvents es :=
  appEvents_append [e] es

theorem alerts_cons (e : Event) (es : List Event) : alerts (e :: es) = alerts [e] ++ alerts es :=
  alerts_append [e] es

/-- Code of the agent does nothing of the application's and sends no alert of a panic. -/
theorem ofAgent_events (t : Prog) : ∀ seen, OfAgent t → appEvents (exec t seen).events = [] ∧ alerts (exec t seen).events = [] := by
  induction t with
  | done => intro seen _; exact ⟨rfl, rfl⟩
  | act e k ih =>
    intro seen h
    obtain ⟨⟨n, rfl⟩, h⟩ := h
    obtain ⟨h1, h2⟩ := ih seen h
    simp only [exec]
    rw [appEvents_cons, alerts_cons, h1, h2]
    exact ⟨rfl, rfl⟩
  | panic v => intro seen _; exact ⟨rfl, rfl⟩
  | call f k ihf ihk =>
    intro seen h
    obtain ⟨h1, h2⟩ := ihf none h.1
    simp only [exec]
    split
    · exact ⟨h1, h2⟩
    · obtain ⟨h3, h4⟩ := ihk (exec f none).completed seen (h.2 _)
      simp only [appEvents_append, alerts_append, h1, h2, h3, h4]
      exact ⟨rfl, rfl⟩
  | «defer» f k ihf ihk =>
    intro seen h
    obtain ⟨h1, h2⟩ := ihk seen h.2
    obtain ⟨h3, h4⟩ := ihf (exec k seen).raised h.1
    simp only [exec, appEvents_append, alerts_append, h1, h2, h3, h4]
    exact ⟨rfl, rfl⟩
  | recover k ih => intro seen h; exact ih seen none (h seen)

/-- A function that does not call `recover` leaves the panic it is run for as it is, and behaves alike with every panic. -/
theorem noRecover_exec (t : Prog) : ∀ seen, NoRecover t →
    (exec t seen).seen = seen ∧ (exec t seen).events = (exec t none).events ∧ (exec t seen).raised = (exec t none).raised ∧
      (exec t seen).completed = (exec t none).completed := by
  induction t with
  | done => intro seen _; exact ⟨rfl, rfl, rfl, rfl⟩
  | act e k ih =>
    intro seen h
    obtain ⟨h1, h2, h3, h4⟩ := ih seen h
    simp only [exec]
    exact ⟨h1, by rw [h2], h3, h4⟩
  | panic v => intro seen _; exact ⟨rfl, rfl, rfl, rfl⟩
  | call f k ihf ihk =>
    intro seen h
    obtain ⟨h1, h2, h3, h4⟩ := ihk (exec f none).completed seen (h _)
    simp only [exec]
    split
    · exact ⟨rfl, rfl, rfl, rfl⟩
    · exact ⟨h1, by simp only [h2], h3, h4⟩
  | «defer» f k ihf ihk =>
    intro seen h
    obtain ⟨h1, h2, h3, h4⟩ := ihk seen h
    simp only [exec]
    exact ⟨h1, by rw [h2, h3], by rw [h3], h4⟩
  | recover k ih => intro seen h; exact h.elim

/-- A guarded function of the agent's, whose reporter works: no panic comes out, the panic it is run for stays, and nothing of the
application's happens. -/
theorem guarded_exec {send : Option (Val → Prog)} (hs : Works send) {t : Prog} (ht : ApiBody t) (seen : Option Val) :
    (exec (guarded send t) seen).raised = none ∧ (exec (guarded send t) seen).seen = seen ∧
      appEvents (exec (guarded send t) seen).events = [] ∧ (exec (guarded send t) seen).completed = (exec t none).completed := by
  obtain ⟨s, rfl, hs⟩ := hs
  obtain ⟨h1, -, -, h4⟩ := noRecover_exec t seen ht.2
  obtain ⟨e, -⟩ := ofAgent_events t seen ht.1
  simp only [guarded, exec]
  refine ⟨?_, h1, ?_, h4⟩
  · cases hr : (exec t seen).raised with
    | none => simp [reportScouterPanic, exec]
    | some v => simp [reportScouterPanic, exec, (hs v).1]
  · rw [appEvents_append, e]
    cases hr : (exec t seen).raised with
    | none => simp [reportScouterPanic, exec, appEvents]
    | some v =>
      have := (hs v).2
      simp only [reportScouterPanic, exec, (hs v).1]
      rw [appEvents_cons, appEvents_append, this]
      rfl

/-- What is registered while the program runs works. -/
theorem registered_works : Works registered := ⟨sendPanic plainAlert, rfl, fun v => by
  simp [sendPanic, reportScouterPanicFinal, plainAlert, exec, appEvents]⟩

/-- C108: whatever the application does — panicking, deferring, recovering, calling the tracing API directly or by `defer`, also
while it panics — it does the same things, ends with the same panic and recovers the same panics as without the agent. -/
theorem C108_application_unchanged (p : App) : p.Uses → ∀ seen,
    appEvents (exec (p.traced registered) seen).events = appEvents (exec p.untraced seen).events ∧
    (exec (p.traced registered) seen).raised = (exec p.untraced seen).raised ∧
    (exec (p.traced registered) seen).seen = (exec p.untraced seen).seen ∧
    (exec (p.traced registered) seen).completed = (exec p.untraced seen).completed := by
  have hs := registered_works
  generalize registered = send at hs
  induction p with
  | done => intro _ seen; exact ⟨rfl, rfl, rfl, rfl⟩
  | act n k ih =>
    intro h seen
    obtain ⟨h1, h2, h3, h4⟩ := ih h seen
    simp only [App.traced, App.untraced, exec]
    exact ⟨by rw [appEvents_cons, appEvents_cons _ (exec k.untraced seen).events, h1], h2, h3, h4⟩
  | panic v => intro _ seen; exact ⟨rfl, rfl, rfl, rfl⟩
  | call f k ihf ihk =>
    intro h seen
    obtain ⟨h1, h2, h3, h4⟩ := ihf h.1 none
    simp only [App.traced, App.untraced, exec]
    rw [h2, h4]
    split
    · exact ⟨h1, rfl, rfl, rfl⟩
    · obtain ⟨k1, k2, k3, k4⟩ := ihk (exec f.untraced none).completed (h.2 _) seen
      exact ⟨by simp only [appEvents_append, h1, k1], k2, k3, k4⟩
  | «defer» f k ihf ihk =>
    intro h seen
    obtain ⟨h1, h2, h3, h4⟩ := ihk h.2 seen
    obtain ⟨k1, k2, k3, k4⟩ := ihf h.1 (exec k.untraced seen).raised
    simp only [App.traced, App.untraced, exec]
    rw [h2]
    exact ⟨by rw [appEvents_append, appEvents_append, h1, k1], by rw [k2, k3], h3, h4⟩
  | recover k ih => intro h seen; exact ih seen (h seen) none
  | trace body k ih =>
    intro h seen
    obtain ⟨g1, g2, g3, g4⟩ := guarded_exec hs h.1 none
    simp only [App.traced, App.untraced]
    have e : k (exec (guarded send body) none).completed = k true := by
      rw [g4]
      rcases h.2.1 with e | e
      · cases (exec body none).completed
        · exact e.symm
        · rfl
      · rw [e]
    obtain ⟨k1, k2, k3, k4⟩ := ih true (h.2.2 _) seen
    simp only [exec]
    rw [g1]
    simp only [e]
    exact ⟨by rw [appEvents_append, g3, k1]; rfl, k2, k3, k4⟩
  | deferTrace body k ih =>
    intro h seen
    obtain ⟨h1, h2, h3, h4⟩ := ih h.2 seen
    obtain ⟨g1, g2, g3, -⟩ := guarded_exec hs h.1 (exec (k.traced send) seen).raised
    simp only [App.traced, App.untraced, exec]
    exact ⟨by rw [appEvents_append, g3, h1]; simp, by rw [g1, g2, h2]; rfl, h3, h4⟩

/-- C108: panics of the application are never reported as panics of the agent: as long as no API function panics inside, no
alert is sent, however the application panics. -/
theorem C108_no_false_alert (p : App) : p.Uses → p.Calm → ∀ seen, alerts (exec (p.traced registered) seen).events = [] := by
  have quiet : ∀ t seen, ApiBody t → NoPanic t → alerts (exec (guarded registered t) seen).events = [] := by
    intro t seen h hp
    simp only [guarded, exec]
    rw [hp seen, alerts_append, (ofAgent_events t seen h.1).2]
    rfl
  intro hu hc
  induction p with
  | done => intro seen; rfl
  | act n k ih =>
    intro seen
    simp only [App.traced, exec]
    rw [alerts_cons, ih hu hc seen]
    rfl
  | panic v => intro seen; rfl
  | call f k ihf ihk =>
    intro seen
    simp only [App.traced, exec]
    split
    · exact ihf hu.1 hc.1 none
    · simp only [alerts_append]
      rw [ihf hu.1 hc.1 none, ihk _ (hu.2 _) (hc.2 _) seen]
      rfl
  | «defer» f k ihf ihk =>
    intro seen
    simp only [App.traced, exec]
    rw [alerts_append, ihk hu.2 hc.2 seen, ihf hu.1 hc.1]
    rfl
  | recover k ih => intro seen; exact ih seen (hu seen) (hc seen) none
  | trace body k ih =>
    intro seen
    simp only [App.traced, exec]
    split
    · exact quiet body none hu.1 hc.1
    · simp only [alerts_append]
      rw [quiet body none hu.1 hc.1, ih _ (hu.2.2 _) (hc.2 _) seen]
      rfl
  | deferTrace body k ih =>
    intro seen
    simp only [App.traced, exec]
    rw [alerts_append, ih hu.2 hc.2 seen, quiet body _ hu.1 hc.1]
    rfl

/-- C108: a panic inside an API function is reported, once and with its value, and does not come out; what the function had done
stays done, and a panic of the application the function is deferred for stays. -/
theorem C108_agent_panic_reported (t : Prog) (ht : NoRecover t) (seen : Option Val) (v : Val) (h : (exec t none).raised = some v) :
    exec (guarded registered t) seen =
      { events := (exec t none).events ++ [.printed v, .alert v], raised := none, seen := seen, completed := (exec t none).completed } := by
  obtain ⟨h1, h2, h3, h4⟩ := noRecover_exec t seen ht
  simp only [guarded, exec, h1, h2, h3, h4, h]
  rfl

/-- C108: the goroutine of `GoWithTrace` ends with the same panic as the function it was given — and so ends the program exactly
when the function would — after having ended the service of the function. -/
theorem C108_goroutine (start : Nat) (endService : Prog) (he : ApiBody endService) (p : App) (hp : p.Uses) :
    let o := exec (traceGoroutine registered (.agent start) endService (p.traced registered)) none
    o.raised = (exec p.untraced none).raised ∧ appEvents o.events = appEvents (exec p.untraced none).events ∧
    ∃ reported, o.events =
      .agent start :: ((exec (p.traced registered) none).events ++ ((exec endService none).events ++ reported)) := by
  obtain ⟨h1, h2, h3, h4⟩ := C108_application_unchanged p hp none
  have key : ∀ s, ∃ reported, (exec (guarded registered endService) s).events = (exec endService none).events ++ reported := by
    intro s
    refine ⟨(exec (reportScouterPanic registered) (exec endService s).raised).events, ?_⟩
    simp only [guarded, exec]
    rw [(noRecover_exec endService s he.2).2.1]
  have gx := fun s => guarded_exec registered_works he s
  intro o
  have ho : o = exec (traceGoroutine registered (.agent start) endService (p.traced registered)) none := rfl
  simp only [traceGoroutine, exec] at ho
  cases hr : (exec (p.traced registered) none).raised with
  | none =>
    simp only [hr] at ho
    obtain ⟨g1, g2, g3, -⟩ := gx none
    obtain ⟨rep, hrep⟩ := key none
    rw [ho]
    refine ⟨?_, ?_, rep, ?_⟩
    · simp only [g1, g2]; rw [← h2, hr]; rfl
    · rw [appEvents_cons]
      simp only [appEvents_append, g3, h1]
      simp [appEvents]
    · simp [hrep]
  | some v =>
    simp only [hr] at ho
    obtain ⟨g1, g2, g3, -⟩ := gx (some v)
    obtain ⟨rep, hrep⟩ := key (some v)
    rw [ho]
    refine ⟨?_, ?_, rep, ?_⟩
    · simp only [g1, g2]; rw [← h2, hr]; rfl
    · rw [appEvents_cons]
      simp only [appEvents_append, g3, h1]
      simp [appEvents]
    · simp [hrep]

/-- C108, as found: the final handler, called instead of deferred, never finds a panic; if sending the alert panics, that panic
goes to the application. -/
theorem C108_final_handler_has_no_effect (sendAlert : Val → Prog) (t : Prog) (ht : NoRecover t) (seen : Option Val) (v v' : Val)
    (h : (exec t none).raised = some v) (ha : (exec (sendAlert v) none).raised = some v') :
    (exec (guarded (some (sendPanic sendAlert)) t) seen).raised = some v' ∧
    ∀ u, Event.fatal u ∈ (exec (guarded (some (sendPanic sendAlert)) t) seen).events →
      Event.fatal u ∈ (exec t none).events ∨ Event.fatal u ∈ (exec (sendAlert v) none).events := by
  obtain ⟨h1, h2, h3, h4⟩ := noRecover_exec t seen ht
  simp only [guarded, exec, h2, h3, h, reportScouterPanic, sendPanic, reportScouterPanicFinal, ha]
  refine ⟨rfl, fun u hu => ?_⟩
  simpa using hu

/-- C108, as found: before the reporter is registered a panic inside an API function comes out as another panic. -/
theorem C108_before_registration (t : Prog) (ht : NoRecover t) (seen : Option Val) (v : Val) (h : (exec t none).raised = some v) :
    (exec (guarded none t) seen).raised = some .nilFunction := by
  obtain ⟨h1, h2, h3, h4⟩ := noRecover_exec t seen ht
  simp only [guarded, exec, h3, h, reportScouterPanic]
  rfl

/-- C108, as found: code of the application that an API function calls (the `Error` method of the error given to `EndApiCall`,
tracemain.go:595) is on the other side: its panic is taken for one of the agent's, reported, and not seen by the caller. -/
theorem C108_callback_panic_taken (before : List Nat) (f : Prog) (k : Bool → Prog) (v : Val) (seen : Option Val)
    (h : (exec f none).raised = some v) :
    let body := before.foldr (fun n p => Prog.act (.agent n) p) (.call f k)
    (exec (guarded registered body) seen).raised = none ∧
    (exec (guarded registered body) seen).events =
      before.map .agent ++ (exec f none).events ++ [.printed v, .alert v] := by
  intro body
  have hb : (exec body seen).raised = some v ∧ (exec body seen).events = before.map .agent ++ (exec f none).events := by
    show (exec (before.foldr (fun n p => Prog.act (.agent n) p) (.call f k)) seen).raised = some v ∧
      (exec (before.foldr (fun n p => Prog.act (.agent n) p) (.call f k)) seen).events = before.map .agent ++ (exec f none).events
    induction before with
    | nil => simp [exec, h]
    | cons n ns ih =>
      obtain ⟨i1, i2⟩ := ih
      exact ⟨i1, by simp only [List.foldr_cons, exec, i2, List.map_cons, List.cons_append]⟩
  obtain ⟨h1, h2⟩ := hb
  simp only [guarded, exec, h1, h2]
  exact ⟨rfl, rfl⟩

/-- C108: a round of the real-time counter whose figures are gathered without a panic and sent without a panic does not panic;
as found, when gathering panics the panic is reported, and then the nil pack ends the program. -/
theorem C108_counter_round (gather sendPack : Prog) (hg : NoRecover gather) :
    ((exec gather none).raised = none → (exec gather none).completed = true → (exec sendPack none).raised = none →
      (exec (counterRound registered gather sendPack) none).raised = none) ∧
    (∀ v, (exec gather none).raised = some v → (exec gather none).completed = false →
      (exec (counterRound registered gather sendPack) none).raised = some .nilPack ∧
      Event.alert v ∈ (exec (counterRound registered gather sendPack) none).events) := by
  constructor
  · intro h1 h2 h3
    simp only [counterRound, guarded, exec, h1, h2, reportScouterPanic, h3]
    obtain ⟨i1, -, -, -⟩ := noRecover_exec gather none hg
    rfl
  · intro v h1 h2
    have e := C108_agent_panic_reported gather hg none v h1
    simp only [counterRound, exec]
    rw [e, h2]
    simp [exec]

/-- A function that panics does not reach its return statement, when the functions it defers do not panic themselves — here for
the simplest bodies: some actions and then a panic. -/
theorem panicking_not_completed (es : List Event) (v : Val) (seen : Option Val) :
    (exec (es.foldr Prog.act (.panic v)) seen).completed = false ∧ (exec (es.foldr Prog.act (.panic v)) seen).raised = some v := by
  induction es with
  | nil => exact ⟨rfl, rfl⟩
  | cons e es ih => exact ih

namespace Demo

/-- A handler of a web application: it starts a service, defers its end (which panics inside, with another value), does something
and panics; a deferred function of the application recovers the panic further up. -/
def handler : App :=
  .call (.trace (.act (.agent 1) .done) fun _ =>
    .deferTrace (.act (.agent 2) (.panic (.value 99))) (.act 10 (.panic (.value 7)))) fun _ => .done

/-- The server around it: recovers what the handler panics with, and answers with it. -/
def server : App :=
  .call (.defer (.recover fun | some (.value n) => .act n .done | _ => .act 0 .done) (.call handler fun _ => .act 11 .done))
    fun _ => .act 12 .done

theorem server_uses : server.Uses := by
  refine ⟨⟨fun s => ?_, ⟨⟨⟨⟨⟨1, rfl⟩, trivial⟩, trivial⟩, .inl rfl, fun b => ⟨⟨⟨⟨2, rfl⟩, trivial⟩, trivial⟩, trivial⟩⟩,
    fun _ => trivial⟩, fun _ => trivial⟩, fun _ => trivial⟩
  rcases s with _ | ⟨n⟩ | _ | _ <;> trivial

/-- The server recovers the handler's panic, 7, although the deferred end of the service panicked too; that panic, 99, was
reported. -/
example : (exec (server.traced registered) none).events =
    [.agent 1, .app 10, .agent 2, .printed (.value 99), .alert (.value 99), .app 7, .app 12] ∧
    (exec (server.traced registered) none).raised = none := by decide

/-- The same without the agent. -/
example : appEvents (exec server.untraced none).events = [10, 7, 12] := by decide

example : appEvents (exec (server.traced registered) none).events = [10, 7, 12] :=
  (C108_application_unchanged server server_uses none).1.trans (by decide)

/-- A calm application that panics: no alert. -/
def crasher : App := .deferTrace (.act (.agent 2) .done) (.act 10 (.panic (.value 7)))

example : alerts (exec (crasher.traced registered) none).events = [] :=
  C108_no_false_alert crasher ⟨⟨⟨⟨2, rfl⟩, trivial⟩, trivial⟩, trivial⟩ ⟨fun _ => rfl, trivial⟩ none

example : (exec (crasher.traced registered) none).raised = some (.value 7) := by decide

/-- A goroutine of `GoWithTrace` with a function that panics: the service is ended, and the panic goes on. -/
example : (exec (traceGoroutine registered (.agent 0) (.act (.agent 3) .done) (crasher.traced registered)) none).events =
      [.agent 0, .app 10, .agent 2, .agent 3] ∧
    (exec (traceGoroutine registered (.agent 0) (.act (.agent 3) .done) (crasher.traced registered)) none).raised =
      some (.value 7) := by decide

/-- Deferring the final handler, as was meant, would have caught a panic of the alert. -/
example : (exec (.defer reportScouterPanicFinal (.panic (.value 5))) none).raised = none ∧
    (exec (guarded (some (sendPanic fun _ => .panic (.value 5))) (.panic (.value 1))) none).raised = some (.value 5) := by decide

/-- A round of the counter that panics. -/
example : (exec (counterRound registered (.act (.agent 1) (.panic (.value 3))) .done) none).raised = some .nilPack := by decide

/-- A function of the application that is itself deferred by the agent's reporter in the middle of a panic of the application: a
`recover` in a function called by the deferred one finds nothing (Go language). -/
example : (exec (.defer (.call (.recover fun _ => .done) fun _ => .done) (.panic (.value 4))) none).raised = some (.value 4) := by
  decide

end Demo
end Deferring
end Scouter
