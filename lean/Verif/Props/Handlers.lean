import Verif.Spec.Answers
import Verif.Props.Services
import Verif.Props.Conf
import Verif.Props.MapAccess
/-! # C66 - C70: the answers to requests -/
namespace Scouter
namespace Handlers
open Trace TM Config Tcp Dump Spec

/-! ## What a request does to the tracing state -/

theorem quiet_activeRows {γ : Type} {core : Tctx → γ} (ps : List Nat) : Ev (Quiet core) (activeRows ps) := by
  induction ps with
  | nil => exact quiet_pure _
  | cons p ps ih =>
    exact quiet_bind (quiet_getT _) fun _ => quiet_bind (quiet_millisToNow _) fun _ => quiet_bind ih fun _ => quiet_pure _

theorem quiet_getActiveList {γ : Type} {core : Tctx → γ} (o : MapOrder (BitVec 64 × Nat)) : Ev (Quiet core) (getActiveList o) :=
  quiet_bind quiet_get fun _ => quiet_bind (quiet_activeRows _) fun _ => quiet_pure _

theorem quiet_getGoroutineDetail {γ : Type} {core : Tctx → γ} (p : Pack) : Ev (Quiet core) (getGoroutineDetail p) := by
  unfold getGoroutineDetail
  split
  · refine quiet_bind quiet_get fun w => ?_
    split
    · exact quiet_pure _
    · exact quiet_bind (quiet_getT _) fun _ => quiet_bind (quiet_millisToNow _) fun _ => quiet_pure _
  · exact quiet_pure _

/-- The tracing state after a request: quietly changed, then possibly given a new configuration. -/
def Touched (w w' : World) : Prop :=
  ∃ mid, (∀ {γ : Type} (core : Tctx → γ), Quiet core w mid) ∧ ∃ c s, w' = { mid with conf := c, sampler := s }

theorem Touched.refl (w : World) : Touched w w := ⟨w, fun _ => (Quiet.isPre _).refl w, w.conf, w.sampler, rfl⟩

theorem Touched.quiet {w w' : World} (h : ∀ {γ : Type} (core : Tctx → γ), Quiet core w w') : Touched w w' :=
  ⟨w', h, w'.conf, w'.sampler, rfl⟩

theorem Touched.conf {w w' : World} (h : Touched w w') (c : TraceConf) (s : Option Sampler) :
    Touched w { w' with conf := c, sampler := s } := by
  obtain ⟨mid, q, c', s', rfl⟩ := h
  exact ⟨mid, q, c, s, rfl⟩

theorem refresh_touches (m : Machine) (a a' : Agent) (h : a.refresh m = some a') : Touched a.world a'.world := by
  unfold Agent.refresh at h
  split at h
  · simp at h
  · next c hc =>
    simp only [Option.some.injEq] at h
    subst h
    have h1 : Touched a.world (if c.objRuns > a.conf.objRuns then (sendText .object c.objName { a.world with conf := c.traceConf }).2
        else { a.world with conf := c.traceConf }) := by
      split
      · refine ⟨{ (sendText .object c.objName { a.world with conf := c.traceConf }).2 with conf := a.world.conf }, fun core => ?_,
          c.traceConf, a.world.sampler, rfl⟩
        have q := quiet_sendText (core := core) .object c.objName { a.world with conf := c.traceConf }
        exact ⟨q.env, rfl, q.tick, q.len, q.cores, q.steps, q.metered, q.registry, q.xlogs, q.direct⟩
      · exact ⟨a.world, fun _ => (Quiet.isPre _).refl _, c.traceConf, a.world.sampler, rfl⟩
    simp only
    split
    · exact h1.conf _ _
    · exact h1

theorem announce_touches (a : Agent) : Touched a.world a.announce.world := by
  refine .quiet fun core => ?_
  unfold Agent.announce
  exact (Quiet.isPre core).trans (quiet_sendText (core := core) .object a.conf.objName a.world)
    (quiet_sendDirect (core := core) _ rfl _)

theorem pick {α : Type} {P : α → Prop} {c : Prop} [Decidable c] {x y : α} (hx : c → P x) (hy : ¬ c → P y) : P (if c then x else y) := by
  by_cases h : c
  · rw [if_pos h]; exact hx h
  · rw [if_neg h]; exact hy h

theorem handle_touches (m : Machine) (a : Agent) (cmd : Bytes) (pack : Pack) :
    Touched a.world (handle m a cmd pack).1.world := by
  have inW : ∀ code : TM Table, (∀ {γ : Type} (core : Tctx → γ), Ev (Quiet core) code) →
      Touched a.world (recovered none (do let t ← code; return some t) a.world).2 := fun code h =>
    Touched.quiet fun core => quiet_recovered (core := core) none (quiet_bind (h core) fun _ => quiet_pure _) a.world
  unfold handle
  extract_lets inWorld finish
  have hin : ∀ code : TM Table, (inWorld code).1.world = (recovered none (do let t ← code; return some t) a.world).2 := by
    intro code
    show (match recovered none (do let t ← code; return some t) a.world with
    | (.ok (some t), w) => (({ a with world := w }, withPack t) : Agent × Answer)
    | (_, w) => ({ a with world := w }, nothing)).1.world = _
    split <;> simp_all
  have hfin : ∀ r : Agent × Answer, Touched a.world r.1.world → Touched a.world (finish r).1.world := fun r h => h
  apply hfin
  clear hfin
  clear_value inWorld finish
  refine pick (P := fun r : Agent × Answer => Touched a.world r.1.world) (fun _ => ?_) fun _ => ?_
  · exact .refl _
  refine pick (P := fun r : Agent × Answer => Touched a.world r.1.world) (fun _ => ?_) fun _ => ?_
  · exact .quiet fun core => ⟨rfl, rfl, Nat.le_refl _, rfl, fun _ => rfl, Nat.le_refl _, rfl, rfl, rfl, List.prefix_refl _⟩
  refine pick (P := fun r : Agent × Answer => Touched a.world r.1.world) (fun _ => ?_) fun _ => ?_
  · exact .refl _
  refine pick (P := fun r : Agent × Answer => Touched a.world r.1.world) (fun _ => ?_) fun _ => ?_
  · exact .refl _
  refine pick (P := fun r : Agent × Answer => Touched a.world r.1.world) (fun _ => ?_) fun _ => ?_
  · split <;> exact .refl _
  refine pick (P := fun r : Agent × Answer => Touched a.world r.1.world) (fun _ => ?_) fun _ => ?_
  · exact .refl _
  refine pick (P := fun r : Agent × Answer => Touched a.world r.1.world) (fun _ => ?_) fun _ => ?_
  · exact .refl _
  refine pick (P := fun r : Agent × Answer => Touched a.world r.1.world) (fun _ => ?_) fun _ => ?_
  · exact .refl _
  refine pick (P := fun r : Agent × Answer => Touched a.world r.1.world) (fun _ => ?_) fun _ => ?_
  · split <;> exact .refl _
  refine pick (P := fun r : Agent × Answer => Touched a.world r.1.world) (fun _ => ?_) fun _ => ?_
  · split <;> exact .refl _
  refine pick (P := fun r : Agent × Answer => Touched a.world r.1.world) (fun _ => ?_) fun _ => ?_
  · exact .refl _
  refine pick (P := fun r : Agent × Answer => Touched a.world r.1.world) (fun _ => ?_) fun _ => ?_
  · exact .refl _
  refine pick (P := fun r : Agent × Answer => Touched a.world r.1.world) (fun _ => ?_) fun _ => ?_
  · exact .refl _
  refine pick (P := fun r : Agent × Answer => Touched a.world r.1.world) (fun _ => ?_) fun _ => ?_
  · exact .refl _
  refine pick (P := fun r : Agent × Answer => Touched a.world r.1.world) (fun _ => ?_) fun _ => ?_
  · have hs : Touched a.world (saveConfig m a pack).2.world := by
      unfold saveConfig
      split
      · extract_lets result text
        unfold saveConfigText
        by_cases hw : m.writable a.requests = true
        · simp only [if_pos hw]
          split
          · next h => exact .refl _
          · next a' h => exact refresh_touches m { a with text := some (m.mtime a.requests, text) } a' h
        · simp only [if_neg hw]
          exact .refl _
      · exact .refl _
    split
    · next t a' h => rw [h] at hs; exact hs
    · next a' h =>
      rw [h] at hs
      obtain ⟨mid, h1, c, s, h2⟩ := hs
      simp only at h2 ⊢
      refine ⟨{ (recovered () TM.panic a'.world).2 with conf := mid.conf, sampler := mid.sampler }, fun core => ?_, a'.world.conf, s, ?_⟩
      · refine (Quiet.isPre core).trans (h1 core) ?_
        have q := quiet_recovered (core := core) () (m := TM.panic) (fun w => (Quiet.isPre core).refl w) a'.world
        rw [h2] at q
        rw [h2]
        exact ⟨q.env, rfl, q.tick, q.len, q.cores, q.steps, q.metered, q.registry, q.xlogs, q.direct⟩
      · rw [h2]; rfl
  refine pick (P := fun r : Agent × Answer => Touched a.world r.1.world) (fun _ => ?_) fun _ => ?_
  · exact .refl _
  refine pick (P := fun r : Agent × Answer => Touched a.world r.1.world) (fun _ => ?_) fun _ => ?_
  · exact .refl _
  refine pick (P := fun r : Agent × Answer => Touched a.world r.1.world) (fun _ => ?_) fun _ => ?_
  · exact .refl _
  refine pick (P := fun r : Agent × Answer => Touched a.world r.1.world) (fun _ => ?_) fun _ => ?_
  · rw [hin]; exact inW _ fun core => quiet_getActiveList _
  refine pick (P := fun r : Agent × Answer => Touched a.world r.1.world) (fun _ => ?_) fun _ => ?_
  · rw [hin]; exact inW _ fun core => quiet_getGoroutineDetail _
  · exact .refl _

/-! ## Histories with requests -/

theorem Touched.tick {w w' : World} (h : Touched w w') : w.tick ≤ w'.tick := by
  obtain ⟨mid, q, c, s, rfl⟩ := h; exact (q shownOf).tick
theorem Touched.env {w w' : World} (h : Touched w w') : w'.env = w.env := by
  obtain ⟨mid, q, c, s, rfl⟩ := h; exact (q shownOf).env
theorem Touched.ledger {w w' : World} (h : Touched w w') (l : Ledger w) : Ledger w' := by
  obtain ⟨mid, q, c, s, rfl⟩ := h
  have := l.quiet (q shownOf)
  exact ⟨this.ids, this.made, this.once, this.ended, this.counted, this.logs, this.reg, this.active⟩
theorem Touched.exact {w w' : World} (h : Touched w w') (e : Exact w) : Exact w' := by
  obtain ⟨mid, q, c, s, rfl⟩ := h
  have q := q shownOf
  show mid.registry.abs = openAt (services mid)
  rw [q.registry, q.services_eq]; exact e
theorem Touched.tctxs {w w' : World} (h : Touched w w') : w'.tctxs = w.tctxs := by
  obtain ⟨mid, q, c, s, rfl⟩ := h
  have := (q id).map_cores
  simpa using this

theorem step_touches (m : Machine) (a : Agent) (e : Event) (h : ∀ c, e ≠ .call c) : Touched a.world (a.step m e).world := by
  cases e with
  | call c => exact absurd rfl (h c)
  | request cmd p => exact handle_touches m a cmd p
  | edit t => exact .refl _
  | refresh =>
    show Touched a.world ((a.refresh m).getD a).world
    cases hr : a.refresh m with
    | none => exact .refl _
    | some a' => exact refresh_touches m a a' hr
  | announce => exact announce_touches a

theorem step_tick (m : Machine) (a : Agent) (e : Event) : a.world.tick ≤ (a.step m e).world.tick := by
  by_cases hc : ∃ c, e = .call c
  · obtain ⟨c, rfl⟩ := hc; exact perform_tick _ c
  · exact (step_touches m a e fun c he => hc ⟨c, he⟩).tick
theorem step_env (m : Machine) (a : Agent) (e : Event) : (a.step m e).world.env = a.world.env := by
  by_cases hc : ∃ c, e = .call c
  · obtain ⟨c, rfl⟩ := hc; exact exec_env _ c
  · exact (step_touches m a e fun c he => hc ⟨c, he⟩).env
theorem life_tick (m : Machine) (a : Agent) (es : List Event) : a.world.tick ≤ (a.life m es).world.tick := by
  induction es generalizing a with
  | nil => exact Nat.le_refl _
  | cons e es ih => exact Nat.le_trans (step_tick m a e) (ih _)
theorem life_env (m : Machine) (a : Agent) (es : List Event) : (a.life m es).world.env = a.world.env := by
  induction es generalizing a with
  | nil => rfl
  | cons e es ih => exact (ih _).trans (step_env m a e)

theorem life_ledger (m : Machine) (a : Agent) (es : List Event) (hid : DistinctIds a.world.env (a.life m es).world.tick)
    (l : Ledger a.world) : Ledger (a.life m es).world := by
  induction es generalizing a with
  | nil => exact l
  | cons e es ih =>
    refine ih (a.step m e) (by rw [step_env]; exact hid) ?_
    by_cases hc : ∃ c, e = .call c
    · obtain ⟨c, rfl⟩ := hc; exact l.exec c (hid.mono (life_tick m (a.step m (.call c)) es))
    · exact (step_touches m a e fun c he => hc ⟨c, he⟩).ledger l

theorem life_exact (m : Machine) (a : Agent) (es : List Event) (hid : DistinctIds a.world.env (a.life m es).world.tick)
    (l : Ledger a.world) (x : Exact a.world) (hmax : AtMostRunning m a es 10000) : Exact (a.life m es).world := by
  induction es generalizing a with
  | nil => exact x
  | cons e es ih =>
    have hid1 := hid.mono (life_tick m (a.step m e) es)
    have hm : AtMostRunning m (a.step m e) es 10000 := fun k => by simpa [Agent.life] using hmax (k + 1)
    have h1 : (running (a.step m e).world).length ≤ 10000 := by simpa [Agent.life] using hmax 1
    refine ih (a.step m e) (by rw [step_env]; exact hid) ?_ ?_ hm
    · by_cases hc : ∃ c, e = .call c
      · obtain ⟨c, rfl⟩ := hc; exact l.exec c hid1
      · exact (step_touches m a e fun c he => hc ⟨c, he⟩).ledger l
    · by_cases hc : ∃ c, e = .call c
      · obtain ⟨c, rfl⟩ := hc
        by_cases hc : ∃ y, c = .conf y
        · obtain ⟨y, rfl⟩ := hc; exact x
        · exact x.move hid1 l (move_of_code c (fun y e => hc ⟨y, e⟩) a.world) (by rw [openAt_length_running]; exact h1)
      · exact (step_touches m a e fun c he => hc ⟨c, he⟩).exact x

/-! ## Dispatch -/

/-- A request answered from the tracing state. -/
def inWorld (a : Agent) (code : TM Table) : Agent × Answer :=
  match recovered none (do let t ← code; return some t) a.world with
  | (.ok (some t), w) => ({ a with world := w }, withPack t)
  | (_, w) => ({ a with world := w }, nothing)

/-- A request has been answered. -/
def finish (r : Agent × Answer) : Agent × Answer := ({ r.1 with requests := r.1.requests + 1 }, r.2)

theorem handle_KEEP_ALIVE (m : Machine) (a : Agent) (pack : Pack) : handle m a (ascii "KEEP_ALIVE") pack =
    finish (a, nothing) :=
  congrArg finish (if_pos rfl)

theorem handle_OBJECT_RESET_CACHE (m : Machine) (a : Agent) (pack : Pack) : handle m a (ascii "OBJECT_RESET_CACHE") pack =
    finish ({ a with world := { a.world with proxy := a.world.proxy.resetTextSent (m.textOrder a.requests) } }, ⟨[], some pack⟩) :=
  congrArg finish ((if_neg (by decide +kernel)).trans <| if_pos rfl)

theorem handle_TRIGGER_THREAD_DUMP (m : Machine) (a : Agent) (pack : Pack) : handle m a (ascii "TRIGGER_THREAD_DUMP") pack =
    finish ((threadDump m a).2, withPack (threadDump m a).1) :=
  congrArg finish ((if_neg (by decide +kernel)).trans <| (if_neg (by decide +kernel)).trans <| if_pos rfl)

theorem handle_OBJECT_DUMP_FILE_LIST (m : Machine) (a : Agent) (pack : Pack) : handle m a (ascii "OBJECT_DUMP_FILE_LIST") pack =
    finish (a, withPack (listDumpFiles m a)) :=
  congrArg finish ((if_neg (by decide +kernel)).trans <| (if_neg (by decide +kernel)).trans <| (if_neg (by decide +kernel)).trans <| if_pos rfl)

theorem handle_OBJECT_DUMP_FILE_DETAIL (m : Machine) (a : Agent) (pack : Pack) : handle m a (ascii "OBJECT_DUMP_FILE_DETAIL") pack =
    finish (match pack with
    | .map p => (a, ⟨streamDumpFileContents (m.sizes a.requests) a.fs m.dumpDir (p.table.getString (ascii "name")), none⟩)
    | _ => (a, nothing)) :=
  congrArg finish ((if_neg (by decide +kernel)).trans <| (if_neg (by decide +kernel)).trans <| (if_neg (by decide +kernel)).trans <| (if_neg (by decide +kernel)).trans <| if_pos rfl)

theorem handle_OBJECT_LIST_HEAP_DUMP (m : Machine) (a : Agent) (pack : Pack) : handle m a (ascii "OBJECT_LIST_HEAP_DUMP") pack =
    finish (a, withPack (listBinaryDumpFiles m a)) :=
  congrArg finish ((if_neg (by decide +kernel)).trans <| (if_neg (by decide +kernel)).trans <| (if_neg (by decide +kernel)).trans <| (if_neg (by decide +kernel)).trans <| (if_neg (by decide +kernel)).trans <| (if_neg (by decide +kernel)).trans <| (if_neg (by decide +kernel)).trans <| if_pos rfl)

theorem handle_OBJECT_DOWNLOAD_HEAP_DUMP (m : Machine) (a : Agent) (pack : Pack) : handle m a (ascii "OBJECT_DOWNLOAD_HEAP_DUMP") pack =
    finish (match pack with
    | .map p => (a, ⟨downloadBinaryDumpFiles a.fs m.binaryDir (p.table.getString (ascii "fileName")), none⟩)
    | _ => (a, nothing)) :=
  congrArg finish ((if_neg (by decide +kernel)).trans <| (if_neg (by decide +kernel)).trans <| (if_neg (by decide +kernel)).trans <| (if_neg (by decide +kernel)).trans <| (if_neg (by decide +kernel)).trans <| (if_neg (by decide +kernel)).trans <| (if_neg (by decide +kernel)).trans <| (if_neg (by decide +kernel)).trans <| if_pos rfl)

theorem handle_OBJECT_DELETE_HEAP_DUMP (m : Machine) (a : Agent) (pack : Pack) : handle m a (ascii "OBJECT_DELETE_HEAP_DUMP") pack =
    finish (match pack with
    | .map p =>
      let (t, fs) := deleteBinaryDumpFiles (m.removeError a.requests) a.fs m.binaryDir (p.table.getString (ascii "delfileName"))
      ({ a with fs := fs }, withPack t)
    | _ => (a, nothing)) :=
  congrArg finish ((if_neg (by decide +kernel)).trans <| (if_neg (by decide +kernel)).trans <| (if_neg (by decide +kernel)).trans <| (if_neg (by decide +kernel)).trans <| (if_neg (by decide +kernel)).trans <| (if_neg (by decide +kernel)).trans <| (if_neg (by decide +kernel)).trans <| (if_neg (by decide +kernel)).trans <| (if_neg (by decide +kernel)).trans <| if_pos rfl)

theorem handle_GET_CONFIGURE_WAS (m : Machine) (a : Agent) (pack : Pack) : handle m a (ascii "GET_CONFIGURE_WAS") pack =
    finish (a, withPack (loadConfig m a)) :=
  congrArg finish ((if_neg (by decide +kernel)).trans <| (if_neg (by decide +kernel)).trans <| (if_neg (by decide +kernel)).trans <| (if_neg (by decide +kernel)).trans <| (if_neg (by decide +kernel)).trans <| (if_neg (by decide +kernel)).trans <| (if_neg (by decide +kernel)).trans <| (if_neg (by decide +kernel)).trans <| (if_neg (by decide +kernel)).trans <| (if_neg (by decide +kernel)).trans <| (if_neg (by decide +kernel)).trans <| (if_neg (by decide +kernel)).trans <| (if_neg (by decide +kernel)).trans <| if_pos rfl)

theorem handle_SET_CONFIGURE_WAS (m : Machine) (a : Agent) (pack : Pack) : handle m a (ascii "SET_CONFIGURE_WAS") pack =
    finish (match saveConfig m a pack with
    | (some t, a) => (a, withPack t)
    | (none, a) => ({ a with world := (recovered () TM.panic a.world).2 }, nothing)) :=
  congrArg finish ((if_neg (by decide +kernel)).trans <| (if_neg (by decide +kernel)).trans <| (if_neg (by decide +kernel)).trans <| (if_neg (by decide +kernel)).trans <| (if_neg (by decide +kernel)).trans <| (if_neg (by decide +kernel)).trans <| (if_neg (by decide +kernel)).trans <| (if_neg (by decide +kernel)).trans <| (if_neg (by decide +kernel)).trans <| (if_neg (by decide +kernel)).trans <| (if_neg (by decide +kernel)).trans <| (if_neg (by decide +kernel)).trans <| (if_neg (by decide +kernel)).trans <| (if_neg (by decide +kernel)).trans <| if_pos rfl)

theorem handle_LIST_CONFIGURE_WAS (m : Machine) (a : Agent) (pack : Pack) : handle m a (ascii "LIST_CONFIGURE_WAS") pack =
    finish (a, withPack (listConfig a.conf.descs)) :=
  congrArg finish ((if_neg (by decide +kernel)).trans <| (if_neg (by decide +kernel)).trans <| (if_neg (by decide +kernel)).trans <| (if_neg (by decide +kernel)).trans <| (if_neg (by decide +kernel)).trans <| (if_neg (by decide +kernel)).trans <| (if_neg (by decide +kernel)).trans <| (if_neg (by decide +kernel)).trans <| (if_neg (by decide +kernel)).trans <| (if_neg (by decide +kernel)).trans <| (if_neg (by decide +kernel)).trans <| (if_neg (by decide +kernel)).trans <| (if_neg (by decide +kernel)).trans <| (if_neg (by decide +kernel)).trans <| (if_neg (by decide +kernel)).trans <| if_pos rfl)

theorem handle_CONFIGURE_VALUE_TYPE (m : Machine) (a : Agent) (pack : Pack) : handle m a (ascii "CONFIGURE_VALUE_TYPE") pack =
    finish (a, withPack (listConfigValueType a.conf.descs)) :=
  congrArg finish ((if_neg (by decide +kernel)).trans <| (if_neg (by decide +kernel)).trans <| (if_neg (by decide +kernel)).trans <| (if_neg (by decide +kernel)).trans <| (if_neg (by decide +kernel)).trans <| (if_neg (by decide +kernel)).trans <| (if_neg (by decide +kernel)).trans <| (if_neg (by decide +kernel)).trans <| (if_neg (by decide +kernel)).trans <| (if_neg (by decide +kernel)).trans <| (if_neg (by decide +kernel)).trans <| (if_neg (by decide +kernel)).trans <| (if_neg (by decide +kernel)).trans <| (if_neg (by decide +kernel)).trans <| (if_neg (by decide +kernel)).trans <| (if_neg (by decide +kernel)).trans <| if_pos rfl)

theorem handle_CONFIGURE_DESC (m : Machine) (a : Agent) (pack : Pack) : handle m a (ascii "CONFIGURE_DESC") pack =
    finish (a, withPack (listConfigDescription m a.conf.descs)) :=
  congrArg finish ((if_neg (by decide +kernel)).trans <| (if_neg (by decide +kernel)).trans <| (if_neg (by decide +kernel)).trans <| (if_neg (by decide +kernel)).trans <| (if_neg (by decide +kernel)).trans <| (if_neg (by decide +kernel)).trans <| (if_neg (by decide +kernel)).trans <| (if_neg (by decide +kernel)).trans <| (if_neg (by decide +kernel)).trans <| (if_neg (by decide +kernel)).trans <| (if_neg (by decide +kernel)).trans <| (if_neg (by decide +kernel)).trans <| (if_neg (by decide +kernel)).trans <| (if_neg (by decide +kernel)).trans <| (if_neg (by decide +kernel)).trans <| (if_neg (by decide +kernel)).trans <| (if_neg (by decide +kernel)).trans <| if_pos rfl)

theorem handle_OBJECT_ACTIVE_SERVICE_LIST (m : Machine) (a : Agent) (pack : Pack) : handle m a (ascii "OBJECT_ACTIVE_SERVICE_LIST") pack =
    finish (inWorld a (getActiveList (m.order a.requests))) :=
  congrArg finish ((if_neg (by decide +kernel)).trans <| (if_neg (by decide +kernel)).trans <| (if_neg (by decide +kernel)).trans <| (if_neg (by decide +kernel)).trans <| (if_neg (by decide +kernel)).trans <| (if_neg (by decide +kernel)).trans <| (if_neg (by decide +kernel)).trans <| (if_neg (by decide +kernel)).trans <| (if_neg (by decide +kernel)).trans <| (if_neg (by decide +kernel)).trans <| (if_neg (by decide +kernel)).trans <| (if_neg (by decide +kernel)).trans <| (if_neg (by decide +kernel)).trans <| (if_neg (by decide +kernel)).trans <| (if_neg (by decide +kernel)).trans <| (if_neg (by decide +kernel)).trans <| (if_neg (by decide +kernel)).trans <| (if_neg (by decide +kernel)).trans <| if_pos rfl)

theorem handle_OBJECT_THREAD_DETAIL (m : Machine) (a : Agent) (pack : Pack) : handle m a (ascii "OBJECT_THREAD_DETAIL") pack =
    finish (inWorld a (getGoroutineDetail pack)) :=
  congrArg finish ((if_neg (by decide +kernel)).trans <| (if_neg (by decide +kernel)).trans <| (if_neg (by decide +kernel)).trans <| (if_neg (by decide +kernel)).trans <| (if_neg (by decide +kernel)).trans <| (if_neg (by decide +kernel)).trans <| (if_neg (by decide +kernel)).trans <| (if_neg (by decide +kernel)).trans <| (if_neg (by decide +kernel)).trans <| (if_neg (by decide +kernel)).trans <| (if_neg (by decide +kernel)).trans <| (if_neg (by decide +kernel)).trans <| (if_neg (by decide +kernel)).trans <| (if_neg (by decide +kernel)).trans <| (if_neg (by decide +kernel)).trans <| (if_neg (by decide +kernel)).trans <| (if_neg (by decide +kernel)).trans <| (if_neg (by decide +kernel)).trans <| (if_neg (by decide +kernel)).trans <| if_pos rfl)

/-! ## C66 -/

/-- The rows made for services, in order, the clock being read once for each. -/
def rowsAt (w : World) : List (Nat × Tctx) → List Row
  | [] => []
  | (p, t) :: ps => ⟨p, t, w.env.clock w.tick⟩ :: rowsAt { w with tick := w.tick + 1 } ps

theorem activeRows_run (w : World) (ps : List Nat) (h : ∀ p ∈ ps, p < w.tctxs.length) :
    ∃ rows : List Row, (rows.map (·.at_)) = ps ∧ (∀ r ∈ rows, w.tctxs[r.at_]? = some r.ctx) ∧
      (∀ r ∈ rows, ∃ n, w.tick ≤ n ∧ n < w.tick + ps.length ∧ r.now = w.env.clock n) ∧
      activeRows ps w = (.ok (rows.map fun r => (r.ctx, r.elapsed)), { w with tick := w.tick + ps.length }) := by
  induction ps generalizing w with
  | nil => exact ⟨[], rfl, by simp, by simp, rfl⟩
  | cons p ps ih =>
    obtain ⟨t, ht⟩ : ∃ t, w.tctxs[p]? = some t := ⟨_, List.getElem?_eq_getElem (h p List.mem_cons_self)⟩
    obtain ⟨rows, h1, h2, h3, h4⟩ := ih { w with tick := w.tick + 1 } fun q hq => h q (List.mem_cons_of_mem _ hq)
    refine ⟨⟨p, t, w.env.clock w.tick⟩ :: rows, by simp [h1], ?_, ?_, ?_⟩
    · intro r hr
      rcases List.mem_cons.mp hr with rfl | hr
      · exact ht
      · exact h2 r hr
    · intro r hr
      rcases List.mem_cons.mp hr with rfl | hr
      · exact ⟨w.tick, Nat.le_refl _, by simp, rfl⟩
      · obtain ⟨n, a, b, c⟩ := h3 r hr
        simp only at a b
        exact ⟨n, by omega, by simp only [List.length_cons]; omega, c⟩
    · unfold activeRows
      rw [TM.bind_ok (getT_run ht)]
      have e1 : millisToNow t.startTime w = (.ok (millis t.startTime (w.env.clock w.tick)), { w with tick := w.tick + 1 }) := rfl
      rw [TM.bind_ok e1, TM.bind_ok h4]
      simp only [List.length_cons, Nat.add_assoc, Nat.add_comm 1]
      rfl

theorem insertKV_new {α : Type} (k : Bytes) (v : α) (t : List (Bytes × α)) (h : k ∉ t.map (·.1)) : insertKV k v t = t ++ [(k, v)] := by
  induction t with
  | nil => rfl
  | cons e t ih =>
    simp only [List.map_cons, List.mem_cons, not_or] at h
    rw [insertKV, if_neg (Ne.symm h.1), ih h.2]
    rfl

theorem get_of_mem (t : Table) (k : Bytes) (v : Value) (hn : (t.map (·.1)).Nodup) (h : (k, v) ∈ t) : t.get k = v := by
  induction t with
  | nil => simp at h
  | cons e t ih =>
    simp only [List.map_cons, List.nodup_cons] at hn
    rw [Table.get]
    rcases List.mem_cons.mp h with rfl | h
    · exact if_pos rfl
    · rw [if_neg (fun he => hn.1 (List.mem_map.mpr ⟨(k, v), h, he.symm⟩)), ih hn.2 h]

/-- Putting values under different keys one after the other. -/
theorem puts_eq {α : Type} (es t : List (Bytes × α)) (hn : ((t ++ es).map (·.1)).Nodup) :
    es.foldl (fun t e => insertKV e.1 e.2 t) t = t ++ es := by
  induction es generalizing t with
  | nil => simp
  | cons e es ih =>
    rw [List.foldl_cons, insertKV_new, ih]
    · simp
    · simpa using hn
    · intro hm
      rw [List.map_append, List.map_cons, List.nodup_append] at hn
      exact hn.2.2 _ hm _ (List.mem_cons_self) rfl

/-- The columns of the active-service list. -/
def activeCols (rs : List Shown) : Table :=
    [(ascii "id", .list (rs.map fun r => .dec (BitVec.ofInt 64 r.1.goid))),
     (ascii "elapsed", .list (rs.map fun r => .dec (r.2.signExtend 64))),
     (ascii "service", .list (rs.map fun r => .text r.1.serviceName)),
     (ascii "name", .list (rs.map fun r => .text (ascii "[goroutine] " ++ formatInt 10 r.1.goid))),
     (ascii "txid", .list (rs.map fun r => .text (intToXlogString32 r.1.txid))),
     (ascii "ip", .list (rs.map fun r => .text r.1.remoteIp)),
     (ascii "stat", .list (rs.map fun _ => .text (ascii "n/a"))),
     (ascii "cpu", .list (rs.map fun _ => .dec (-1))),
     (ascii "sql", .list (rs.map fun _ => .text (ascii "n/a"))),
     (ascii "subcall", .list (rs.map fun _ => .text (ascii "n/a"))),
     (ascii "complete", .bool true)]

theorem activeCols_keys (rs : List Shown) : ((activeCols rs).map (·.1)).Nodup := by
  show (["id", "elapsed", "service", "name", "txid", "ip", "stat", "cpu", "sql", "subcall", "complete"].map ascii).Nodup
  decide +kernel

theorem activeTable_eq (rs : List Shown) : activeTable rs = activeCols rs :=
  puts_eq (activeCols rs) [] (activeCols_keys rs)

theorem activeTable_shows (rows : List Row) : ShowsRows (activeTable (rows.map fun r => (r.ctx, r.elapsed))) rows := by
  constructor
  case keys => rw [activeTable_eq]; rfl
  all_goals
    rw [activeTable_eq]
    refine get_of_mem _ _ _ (activeCols_keys _) ?_
    unfold activeCols
    simp only [List.map_map]
    simp only [List.mem_cons, Prod.mk.injEq, true_and, and_true, true_or, or_true, Function.comp_def]

theorem running_lt {w : World} {p : Nat} (h : p ∈ running w) : p < w.tctxs.length :=
  List.mem_range.mp (List.mem_filter.mp h).1

theorem active_answer (m : Machine) (a : Agent) (pack : Pack)
    (h : ∀ p ∈ a.world.registry.getValues (m.order a.requests), p < a.world.tctxs.length) :
    let r := handle m a (ascii "OBJECT_ACTIVE_SERVICE_LIST") pack
    ∃ t rows, AnswersTable r.2 t ∧ ShowsRows t rows ∧ rows.map (·.at_) = a.world.registry.getValues (m.order a.requests) ∧
      (∀ x ∈ rows, a.world.tctxs[x.at_]? = some x.ctx) ∧
      (∀ x ∈ rows, ∃ n, a.world.tick ≤ n ∧ n < r.1.world.tick ∧ x.now = a.world.env.clock n) := by
  intro r
  obtain ⟨rows, h1, h2, h3, h4⟩ := activeRows_run a.world _ h
  have hr : r = finish (inWorld a (getActiveList (m.order a.requests))) := handle_OBJECT_ACTIVE_SERVICE_LIST m a pack
  have hw : recovered none (do let t ← getActiveList (m.order a.requests); return some t) a.world =
      (.ok (some (activeTable (rows.map fun r => (r.ctx, r.elapsed)))),
        { a.world with tick := a.world.tick + (a.world.registry.getValues (m.order a.requests)).length }) := by
    have e : getActiveList (m.order a.requests) a.world = (.ok (activeTable (rows.map fun r => (r.ctx, r.elapsed))),
        { a.world with tick := a.world.tick + (a.world.registry.getValues (m.order a.requests)).length }) := by
      unfold getActiveList
      rw [TM.get_bind, TM.bind_ok h4]
      rfl
    unfold recovered
    rw [TM.bind_ok e]
    rfl
  have hi : inWorld a (getActiveList (m.order a.requests)) =
      ({ a with world := { a.world with tick := a.world.tick + (a.world.registry.getValues (m.order a.requests)).length } },
        withPack (activeTable (rows.map fun r => (r.ctx, r.elapsed)))) := by
    unfold inWorld; rw [hw]
  rw [hi] at hr
  exact ⟨_, rows, by rw [hr]; rfl, activeTable_shows rows, h1, h2, by rw [hr]; exact h3⟩

/-- **C66**: after any history of calls and requests during which at most 10000 services were running, the answer to a request
for the active services has one row for each running service and no other, the same in every column. -/
theorem C66_active_list_exact (m : Machine) (env : Oracle) (c : Configure) (text : Option (Int × Bytes)) (fs : FS) (cap : Nat)
    (es : List Event) (pack : Pack)
    (hid : DistinctIds env (((Agent.start env c text fs cap).life m es).world.tick))
    (hmax : AtMostRunning m (Agent.start env c text fs cap) es 10000) :
    let a := (Agent.start env c text fs cap).life m es
    let r := handle m a (ascii "OBJECT_ACTIVE_SERVICE_LIST") pack
    ∃ t rows, AnswersTable r.2 t ∧ ShowsRows t rows ∧ (rows.map (·.at_)).Perm (running a.world) ∧
      (∀ x ∈ rows, a.world.tctxs[x.at_]? = some x.ctx) ∧
      (∀ x ∈ rows, ∃ n, a.world.tick ≤ n ∧ n < r.1.world.tick ∧ x.now = env.clock n) := by
  intro a r
  have hl := life_ledger m _ es hid (Ledger.start env c.traceConf cap)
  have hx := life_exact m _ es hid (Ledger.start env c.traceConf cap) rfl hmax
  have he : a.world.env = env := life_env m (Agent.start env c text fs cap) es
  have hp : (a.world.registry.getValues (m.order a.requests)).Perm (running a.world) :=
    (values_of_registry hl.reg _).trans (by rw [hx, openAt_running])
  obtain ⟨t, rows, h1, h2, h3, h4, h5⟩ := active_answer m a pack fun p hm => running_lt (hp.mem_iff.mp hm)
  exact ⟨t, rows, h1, h2, h3 ▸ hp, h4, he ▸ h5⟩

/-- **C66**, without a limit: only running services are listed, each once, and at most 10000. -/
theorem C66_active_list_sound (m : Machine) (env : Oracle) (c : Configure) (text : Option (Int × Bytes)) (fs : FS) (cap : Nat)
    (es : List Event) (pack : Pack)
    (hid : DistinctIds env (((Agent.start env c text fs cap).life m es).world.tick)) :
    let a := (Agent.start env c text fs cap).life m es
    let r := handle m a (ascii "OBJECT_ACTIVE_SERVICE_LIST") pack
    ∃ t rows, AnswersTable r.2 t ∧ ShowsRows t rows ∧ (∀ x ∈ rows, x.at_ ∈ running a.world) ∧ (rows.map (·.at_)).Nodup ∧
      rows.length ≤ 10000 ∧ (∀ x ∈ rows, a.world.tctxs[x.at_]? = some x.ctx) ∧
      (∀ x ∈ rows, ∃ n, a.world.tick ≤ n ∧ n < r.1.world.tick ∧ x.now = env.clock n) := by
  intro a r
  have hl := life_ledger m _ es hid (Ledger.start env c.traceConf cap)
  have he : a.world.env = env := life_env m (Agent.start env c text fs cap) es
  have hp := values_of_registry hl.reg (m.order a.requests)
  have hs : (a.world.registry.abs.filterMap (·.2)).Sublist (running a.world) := by
    rw [← openAt_running]
    exact hl.active.filterMap _
  have hsub : ∀ p ∈ a.world.registry.getValues (m.order a.requests), p ∈ running a.world := fun p hm => hs.subset (hp.mem_iff.mp hm)
  obtain ⟨t, rows, h1, h2, h3, h4, h5⟩ := active_answer m a pack fun p hm => running_lt (hsub p hm)
  refine ⟨t, rows, h1, h2, fun x hx => hsub _ (h3 ▸ List.mem_map_of_mem hx), ?_, ?_, h4, he ▸ h5⟩
  · rw [h3, hp.nodup_iff]
    exact hs.nodup (List.nodup_range.filter _)
  · rw [← List.length_map (f := (·.at_)), h3, hp.length_eq]
    exact Nat.le_trans (List.length_filterMap_le _ _) hl.reg.len

/-! ## C67 -/

theorem lookup_of_mem {V : Type} (l : List (BitVec 64 × V)) (k : BitVec 64) (v : V) (hn : (l.map (·.1)).Nodup) (h : (k, v) ∈ l) :
    l.lookup k = some v := by
  induction l with
  | nil => simp at h
  | cons e l ih =>
    obtain ⟨k', v'⟩ := e
    simp only [List.map_cons, List.nodup_cons] at hn
    rcases List.mem_cons.mp h with h | h
    · cases h; exact List.lookup_cons_self
    · have : (k == k') = false := by
        rw [beq_eq_false_iff_ne]; rintro rfl
        exact hn.1 (List.mem_map.mpr ⟨(k, v), by assumption, rfl⟩)
      rw [List.lookup_cons, this]; exact ih hn.2 h

theorem lookup_none {V : Type} (l : List (BitVec 64 × V)) (k : BitVec 64) (h : k ∉ l.map (·.1)) : l.lookup k = none := by
  induction l with
  | nil => rfl
  | cons e l ih =>
    simp only [List.map_cons, List.mem_cons, not_or] at h
    have : (k == e.1) = false := by rw [beq_eq_false_iff_ne]; exact h.1
    rw [List.lookup_cons, this]; exact ih h.2

theorem openAt_mem (w : World) (id : BitVec 64) (v : Option Nat) :
    (id, v) ∈ openAt (services w) ↔ ∃ p t, v = some p ∧ p ∈ running w ∧ w.tctxs[p]? = some t ∧ t.txid = id := by
  unfold openAt
  rw [List.mem_filterMap]
  constructor
  · rintro ⟨⟨⟨i, b⟩, p⟩, hm, he⟩
    have hm := List.mem_zipIdx_iff_getElem?.mp hm
    simp only at hm he
    cases b with
    | true => simp at he
    | false =>
      simp only [Bool.false_eq_true, if_false, Option.some.injEq, Prod.mk.injEq] at he
      obtain ⟨rfl, rfl⟩ := he
      unfold services at hm
      rw [List.getElem?_map, Option.map_eq_some_iff] at hm
      obtain ⟨t, ht, hs⟩ := hm
      simp only [shownOf, Prod.mk.injEq] at hs
      refine ⟨p, t, rfl, ?_, ht, hs.1⟩
      unfold running
      rw [List.mem_filter, List.mem_range]
      exact ⟨(List.getElem?_eq_some_iff.mp ht).1, by simp [ht, hs.2]⟩
  · rintro ⟨p, t, rfl, hr, ht, rfl⟩
    refine ⟨((t.txid, false), p), ?_, by simp⟩
    rw [List.mem_zipIdx_iff_getElem?]
    unfold running at hr
    rw [List.mem_filter, ht] at hr
    have hc : t.closed = false := by simpa using hr.2
    unfold services
    simp [ht, shownOf, hc]

theorem openAt_nodup {w : World} (h : ((services w).map (·.1)).Nodup) : ((openAt (services w)).map (·.1)).Nodup := by
  have : ((openAt (services w)).map (·.1)).Sublist ((services w).map (·.1)) := by
    unfold openAt
    generalize services w = l
    have gen : ∀ k, (((l.zipIdx k).filterMap fun s => if s.1.2 then none else some (s.1.1, some s.2)).map (·.1)).Sublist (l.map (·.1)) := by
      induction l with
      | nil => intro k; exact List.Sublist.refl _
      | cons a l ih =>
        intro k
        rw [List.zipIdx_cons, List.filterMap_cons, List.map_cons]
        by_cases hb : a.2 = true
        · simp only [hb, if_true]; exact (ih (k + 1)).cons _
        · simp only [hb, Bool.false_eq_true, if_false, List.map_cons]; exact (ih (k + 1)).cons_cons _
    exact gen 0
  exact this.nodup h

/-- Look through the puts a table was made by. -/
macro "seek" : tactic => `(tactic| repeat (
  refine (get_insertKV _ _ _ _).trans ?_
  first | refine (if_neg (by decide +kernel)).trans ?_ | exact if_pos rfl))

/-- What a request for the details of a running service shows. -/
structure ShowsDetail (t : Table) (c : Tctx) (now : Int) : Prop where
  txid : HasText t "Service Txid" (intToXlogString32 c.txid)
  service : HasText t "Service Name" c.serviceName
  elapsed : t.get (ascii "Service Elapsed") = .dec ((BitVec.ofInt 32 ((now - c.startTime).tdiv 1000000)).signExtend 64)
  thread : t.get (ascii "Thread Id") = .dec (-1)
  state : HasText t "State" (ascii "n/a")
  name : HasText t "Thread Name" (ascii "[goroutine] " ++ formatInt 10 c.goid)
  stack : HasText t "Stack Trace" (ascii "stacktrace for goroutine is not yet supported")
  method : HasText t "Last trace method" c.lastMethod

/-- **C67**: after any history during which at most 10000 services were running, a request for the details of the service with a
transaction id shows the running service with this id if there is one, and otherwise says that there is none. -/
theorem C67_thread_detail (m : Machine) (env : Oracle) (c : Configure) (text : Option (Int × Bytes)) (fs : FS) (cap : Nat)
    (es : List Event) (param : Table) (id : BitVec 64) (hk : param.get (ascii "txid") = .dec id)
    (hid : DistinctIds env (((Agent.start env c text fs cap).life m es).world.tick))
    (hmax : AtMostRunning m (Agent.start env c text fs cap) es 10000) :
    let a := (Agent.start env c text fs cap).life m es
    let r := handle m a (ascii "OBJECT_THREAD_DETAIL") (.map ⟨param⟩)
    (∀ p t, p ∈ running a.world → a.world.tctxs[p]? = some t → t.txid = id →
      ∃ out, AnswersTable r.2 out ∧ ShowsDetail out t (env.clock a.world.tick)) ∧
    ((∀ p t, p ∈ running a.world → a.world.tctxs[p]? = some t → t.txid ≠ id) →
      ∃ out, AnswersTable r.2 out ∧ HasText out "State" (ascii "end") ∧
        HasText out "Stack Trace" (ascii "[info] no traceContext. txid:" ++ intToXlogString32 id)) := by
  intro a r
  have hl := life_ledger m _ es hid (Ledger.start env c.traceConf cap)
  have hx : a.world.registry.abs = openAt (services a.world) := life_exact m _ es hid (Ledger.start env c.traceConf cap) rfl hmax
  have he : a.world.env = env := life_env m (Agent.start env c text fs cap) es
  have hr : r = finish (inWorld a (getGoroutineDetail (.map ⟨param⟩))) := handle_OBJECT_THREAD_DETAIL m a _
  have hg : a.world.registry.get id = ((openAt (services a.world)).lookup id).getD none := by rw [hl.reg.inv.get_eq, hx]
  have hi : param.getInt64 (ascii "txid") = id := by unfold Table.getInt64; rw [hk]
  have run : ∀ out w, getGoroutineDetail (.map ⟨param⟩) a.world = (.ok out, w) → AnswersTable r.2 out := by
    intro out w h
    rw [hr]
    unfold inWorld recovered
    rw [TM.bind_ok h]
    rfl
  constructor
  · intro p t hp ht htx
    have hlook : a.world.registry.get id = some p := by
      rw [hg, lookup_of_mem _ id (some p) (openAt_nodup hl.ids) ((openAt_mem a.world id (some p)).mpr ⟨p, t, rfl, hp, ht, htx⟩)]
      rfl
    refine ⟨_, run _ _ (by
      unfold getGoroutineDetail
      simp only
      rw [TM.get_bind, hi, hlook]
      simp only
      rw [TM.bind_ok (getT_run ht)]
      unfold millisToNow
      rfl), ?_⟩
    rw [he]
    constructor <;> (try unfold HasText) <;> seek
  · intro hno
    have hlook : a.world.registry.get id = none := by
      rw [hg, lookup_none]
      · rfl
      · intro hm
        obtain ⟨⟨i, v⟩, hv, rfl⟩ := List.mem_map.mp hm
        obtain ⟨p, t, rfl, hp, ht, htx⟩ := (openAt_mem a.world i v).mp hv
        exact hno p t hp ht htx
    refine ⟨_, run _ _ (by
      unfold getGoroutineDetail
      simp only
      rw [TM.get_bind, hi, hlook]
      rfl), ?_, ?_⟩ <;> (unfold HasText; seek)

/-- **C67**: parameters that are not a map are answered with a note, whatever the state. -/
theorem C67_wrong_parameters (m : Machine) (a : Agent) (pack : Pack) (hp : ∀ x, pack ≠ .map x) :
    ∃ out, AnswersTable (handle m a (ascii "OBJECT_THREAD_DETAIL") pack).2 out ∧ HasText out "State" (ascii "end") ∧
      HasText out "Stack Trace" (ascii "[info] scouter request param error.") := by
  have hrun : ∃ out, getGoroutineDetail pack a.world = (.ok out, a.world) ∧ HasText out "State" (ascii "end") ∧
      HasText out "Stack Trace" (ascii "[info] scouter request param error.") := by
    unfold getGoroutineDetail
    cases pack with
    | map x => exact absurd rfl (hp x)
    | _ => refine ⟨_, rfl, ?_, ?_⟩ <;> (unfold HasText; seek)
  obtain ⟨out, h1, h2, h3⟩ := hrun
  refine ⟨out, ?_, h2, h3⟩
  rw [handle_OBJECT_THREAD_DETAIL]
  unfold inWorld recovered
  rw [TM.bind_ok h1]
  rfl

/-! ## C36 with requests in between -/

/-- **C36**: also with requests of the collector, refreshes and changes of the configuration in between, no two transaction logs
carry the same transaction id, each belongs to an ended service, and never more services are counted than have ended. -/
theorem C36_once_in_any_life (m : Machine) (env : Oracle) (c : Configure) (text : Option (Int × Bytes)) (fs : FS) (cap : Nat)
    (es : List Event) (hid : DistinctIds env (((Agent.start env c text fs cap).life m es).world.tick)) :
    let w := ((Agent.start env c text fs cap).life m es).world
    (loggedIds w).Nodup ∧ (∀ id ∈ loggedIds w, id ∈ endedIds w) ∧ (loggedIds w).length ≤ w.metered.length ∧
      w.metered.length ≤ (endedIds w).length := by
  have h := life_ledger m _ es hid (Ledger.start env c.traceConf cap)
  refine ⟨h.once, fun id hi => List.mem_map.mpr ⟨(id, true), List.mem_filter.mpr ⟨h.ended id hi, rfl⟩, rfl⟩, h.logs, ?_⟩
  rw [endedIds, List.length_map, ← List.countP_eq_length_filter]
  exact h.counted

/-! ## A concrete life -/

namespace Demo

/-- A machine: the text "a" parses as one setting, everything can be read and written, time passes. -/
def machine : Machine where
  env := [ascii "HOME=/root"]
  host := some (ascii "h")
  parse t := if t = ascii "bad" then none else some fun k => if k = ascii "obj_name" then some t else none
  readable _ := true
  writable _ := true
  mtime n := 10 * (n + 1)
  order _ := ⟨id, fun _ => .refl _⟩
  textOrder _ := ⟨id, fun _ => .refl _⟩
  dumpDir := ⟨true, [ascii "d"]⟩
  binaryDir := ⟨true, [ascii "b"]⟩
  sizes _ _ := 1000
  stampText _ := ascii "now"
  «stacks» _ := ascii "stack"
  fileMillis _ _ := 7
  removeError _ := ascii "no"
  descText k := k

def conf0 : Configure := (Config.refresh machine.env machine.host .absent .absent Config.fresh).getD Config.fresh

def agent0 : Agent := Agent.start Scouter.Demo.env conf0 none [] 100

/-- Two services, one ended; a request for the active services, a new object name, an announcement. -/
def events : List Event :=
  [.call (.startService .plain (ascii "a") (ascii "1.2.3.4")), .request (ascii "KEEP_ALIVE") (.map ⟨[]⟩),
   .call (.startService .plain (ascii "b") []), .request (ascii "OBJECT_ACTIVE_SERVICE_LIST") (.map ⟨[]⟩),
   .call (.endService (.traced 0)), .request (ascii "SET_CONFIGURE_WAS") (.map ⟨[(ascii "setConfig", .text (ascii "nn"))]⟩),
   .announce, .refresh]

def agent : Agent := agent0.life machine events

example : running agent.world = [1] := by decide +kernel
example : agent.conf.objName = ascii "/h/nn" ∧ agent.text = some (30, ascii "nn") := by decide +kernel
example : (handle machine agent (ascii "OBJECT_ACTIVE_SERVICE_LIST") (.map ⟨[]⟩)).2.pack.isSome = true := by decide +kernel

/-- The hypotheses of C66 and C67 hold of this life. -/
example : DistinctIds Scouter.Demo.env agent.world.tick ∧ AtMostRunning machine agent0 events 10000 := by
  have hk : ∀ k ≤ 8, (running (agent0.life machine (events.take k)).world).length ≤ 10000 := by decide +kernel
  refine ⟨Scouter.Demo.ids_distinct _ (by decide +kernel), fun k => ?_⟩
  rcases Nat.le_or_ge k 8 with h | h
  · exact hk k h
  · rw [List.take_of_length_le (by exact h)]
    exact hk 8 (Nat.le_refl _)

end Demo
end Handlers
end Scouter
