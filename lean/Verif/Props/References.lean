import Verif.Proofs.References
import Verif.Props.Handlers
/-!
# C100: logs and profiles refer only to texts that were announced
-/
namespace Scouter
open Spec TM Trace

namespace Refs

theorem mem_xlogs {ps : List Pack} {x : XlogPack} (h : x ∈ xlogsOf ps) : Pack.xlog x ∈ ps := by
  simp only [xlogsOf, List.mem_filterMap] at h
  obtain ⟨a, ha, he⟩ := h
  cases a <;> simp at he
  subst he
  exact ha

theorem mem_profiles {ps : List Pack} {x : XlogProfilePack} (h : x ∈ profilesOf ps) : Pack.profile x ∈ ps := by
  simp only [profilesOf, List.mem_filterMap] at h
  obtain ⟨a, ha, he⟩ := h
  cases a <;> simp at he
  subst he
  exact ha

theorem inv_start (env : Oracle) (conf : TraceConf) (cap : Nat) : Inv 0 0 True (start env conf cap) := by
  refine ⟨Nat.zero_le _, fun k h hk => ?_, fun _ t ht => ?_, fun _ s hs => ?_, fun p hp => ?_⟩
  · simp [start, Proxy.init, Cache.new, Cache.contains] at hk
  · simp [start] at ht
  · simp [start] at hs
  · simp [start, Proxy.init] at hp

/-- Right after the caches are forgotten nothing needs to be known. -/
theorem inv_reset (w : World) (o : MapOrder (BitVec 32 × Nat)) :
    Inv w.proxy.offered.length w.proxy.direct.length False (perform w (.resetTexts o)) := by
  refine ⟨?_, fun k h hk => ?_, False.elim, False.elim, fun p hp => ?_⟩
  · simp [perform, Call.code, TM.modify, Proxy.resetTextSent]
  · simp [perform, Call.code, TM.modify, Proxy.resetTextSent, Cache.clear, Cache.contains] at hk
  · simp [perform, Call.code, TM.modify, Proxy.resetTextSent] at hp

/-- Nothing is lost and the references stay known. -/
def Kept (w w' : World) : Prop := ∀ (n d : Nat) (full : Prop), Inv n d full w → Inv n d full w' ∧ Le w w'

theorem Kept.refl (w : World) : Kept w w := fun _ _ _ h => ⟨h, Le.refl _⟩
theorem Kept.trans {a b c : World} (h1 : Kept a b) (h2 : Kept b c) : Kept a c := fun n d f h => ⟨(h2 n d f (h1 n d f h).1).1, (h1 n d f h).2.trans (h2 n d f (h1 n d f h).1).2⟩
theorem Kept.conf {w w' : World} (h : Kept w w') (c : TraceConf) (s : Option Sampler) : Kept w { w' with conf := c, sampler := s } :=
  fun n d f hi => ⟨(h n d f hi).1.of_eq rfl rfl rfl rfl rfl, (h n d f hi).2⟩
theorem Kept.of {α : Type} {m : TM α} {w : World} (h : ∀ {n d : Nat} {full : Prop}, S n d full w m Any) : Kept w (m w).2 :=
  fun _ _ _ hi => ⟨(h w (Le.refl _) hi).2.1, (h w (Le.refl _) hi).1⟩

section
open Handlers

theorem kept_refresh (m : Machine) (a a' : Agent) (h : a.refresh m = some a') : Kept a.world a'.world := by
  unfold Agent.refresh at h
  split at h
  · simp at h
  · next c hc =>
    simp only [Option.some.injEq] at h
    subst h
    have h0 : Kept a.world { a.world with conf := c.traceConf } := (Kept.refl _).conf _ a.world.sampler
    have h1 : Kept a.world (if c.objRuns > a.conf.objRuns then (sendText .object c.objName { a.world with conf := c.traceConf }).2
        else { a.world with conf := c.traceConf }) := by
      split
      · exact h0.trans (Kept.of ((S.sendText _ _).weaken fun _ _ _ _ => trivial))
      · exact h0
    simp only
    split
    · exact h1.conf _ _
    · exact h1

theorem kept_announce (a : Agent) : Kept a.world a.announce.world := by
  intro n d full hi
  unfold Agent.announce
  obtain ⟨h1, h2, h3⟩ := S.sendText (n := n) (d := d) (full := full) (w0 := a.world) .object a.conf.objName a.world (Le.refl _) hi
  have hk : Known (ann n (sendText .object a.conf.objName a.world).2) .object
      (match (sendText .object a.conf.objName a.world).1 with | .ok h => h | .panic => 0) := by
    cases hr : (sendText .object a.conf.objName a.world).1 with
    | ok h => exact h3 h hr
    | panic => exact Or.inl rfl
  simp only
  obtain ⟨g1, g2, -⟩ := S.sendDirect (n := n) (d := d) (full := full) (w0 := (sendText .object a.conf.objName a.world).2)
    (.object { objType := a.conf.textAt "ObjType", objHash := match (sendText .object a.conf.objName a.world).1 with | .ok h => h | .panic => 0, objName := a.conf.objName, address := [], version := ascii "0.0.0", alive := true, wakeup := 0, tags := [] })
    (fun w hl => Known.subset hl.ann hk) _ (Le.refl _) h2
  exact ⟨g2, h1.trans g1⟩

theorem s_activeRows {n d : Nat} {full : Prop} {w0 : World} (ps : List Nat) : S n d full w0 (activeRows ps) Any := by
  induction ps generalizing w0 with
  | nil => exact S.done _
  | cons p ps ih =>
    exact S.bind (S.getT p) fun _ _ _ _ => S.bind (s_millisToNow _) fun _ _ _ _ => S.bind ih fun _ _ _ _ => S.done _

theorem s_getActiveList {n d : Nat} {full : Prop} {w0 : World} (o : MapOrder (BitVec 64 × Nat)) : S n d full w0 (getActiveList o) Any :=
  S.bind S.get fun _ _ _ _ => S.bind (s_activeRows _) fun _ _ _ _ => S.done _

theorem s_getGoroutineDetail {n d : Nat} {full : Prop} {w0 : World} (p : Pack) : S n d full w0 (getGoroutineDetail p) Any := by
  unfold getGoroutineDetail
  split
  · refine S.bind S.get fun w1 w _ _ => ?_
    split
    · exact S.done _
    · exact S.bind (S.getT _) fun _ _ _ _ => S.bind (s_millisToNow _) fun _ _ _ _ => S.done _
  · exact S.done _

theorem kept_handle (m : Machine) (a : Agent) (cmd : Bytes) (pack : Pack) : Kept a.world (handle m a cmd pack).1.world := by
  have inW : ∀ code : TM Table, (∀ {n d : Nat} {full : Prop}, S n d full a.world code Any) →
      Kept a.world (recovered none (do let t ← code; return some t) a.world).2 := fun code h =>
    Kept.of (S.recovered none (S.bind h fun _ _ _ _ => S.done _) fun _ _ => trivial)
  unfold handle
  extract_lets inWorld finish
  have hin : ∀ code : TM Table, (inWorld code).1.world = (recovered none (do let t ← code; return some t) a.world).2 := by
    intro code
    show (match recovered none (do let t ← code; return some t) a.world with
    | (.ok (some t), w) => (({ a with world := w }, withPack t) : Agent × Tcp.Answer)
    | (_, w) => ({ a with world := w }, nothing)).1.world = _
    split <;> simp_all
  have hfin : ∀ r : Agent × Tcp.Answer, Kept a.world r.1.world → Kept a.world (finish r).1.world := fun r h => h
  apply hfin
  clear hfin
  clear_value inWorld finish
  refine pick (P := fun r : Agent × Tcp.Answer => Kept a.world r.1.world) (fun _ => ?_) fun _ => ?_
  · exact .refl _
  refine pick (P := fun r : Agent × Tcp.Answer => Kept a.world r.1.world) (fun _ => ?_) fun _ => ?_
  · exact Kept.of (m := (Call.resetTexts (m.textOrder a.requests)).code) (s_code _ (fun _ _ h => by cases h))
  refine pick (P := fun r : Agent × Tcp.Answer => Kept a.world r.1.world) (fun _ => ?_) fun _ => ?_
  · exact .refl _
  refine pick (P := fun r : Agent × Tcp.Answer => Kept a.world r.1.world) (fun _ => ?_) fun _ => ?_
  · exact .refl _
  refine pick (P := fun r : Agent × Tcp.Answer => Kept a.world r.1.world) (fun _ => ?_) fun _ => ?_
  · split <;> exact .refl _
  refine pick (P := fun r : Agent × Tcp.Answer => Kept a.world r.1.world) (fun _ => ?_) fun _ => ?_
  · exact .refl _
  refine pick (P := fun r : Agent × Tcp.Answer => Kept a.world r.1.world) (fun _ => ?_) fun _ => ?_
  · exact .refl _
  refine pick (P := fun r : Agent × Tcp.Answer => Kept a.world r.1.world) (fun _ => ?_) fun _ => ?_
  · exact .refl _
  refine pick (P := fun r : Agent × Tcp.Answer => Kept a.world r.1.world) (fun _ => ?_) fun _ => ?_
  · split <;> exact .refl _
  refine pick (P := fun r : Agent × Tcp.Answer => Kept a.world r.1.world) (fun _ => ?_) fun _ => ?_
  · split <;> exact .refl _
  refine pick (P := fun r : Agent × Tcp.Answer => Kept a.world r.1.world) (fun _ => ?_) fun _ => ?_
  · exact .refl _
  refine pick (P := fun r : Agent × Tcp.Answer => Kept a.world r.1.world) (fun _ => ?_) fun _ => ?_
  · exact .refl _
  refine pick (P := fun r : Agent × Tcp.Answer => Kept a.world r.1.world) (fun _ => ?_) fun _ => ?_
  · exact .refl _
  refine pick (P := fun r : Agent × Tcp.Answer => Kept a.world r.1.world) (fun _ => ?_) fun _ => ?_
  · exact .refl _
  refine pick (P := fun r : Agent × Tcp.Answer => Kept a.world r.1.world) (fun _ => ?_) fun _ => ?_
  · have hs : Kept a.world (saveConfig m a pack).2.world := by
      unfold saveConfig
      split
      · extract_lets result text
        unfold saveConfigText
        by_cases hw : m.writable a.requests = true
        · simp only [if_pos hw]
          split
          · next h => exact .refl _
          · next a' h => exact kept_refresh m { a with text := some (m.mtime a.requests, text) } a' h
        · simp only [if_neg hw]
          exact .refl _
      · exact .refl _
    split
    · next t a' h => rw [h] at hs; exact hs
    · next a' h =>
      rw [h] at hs
      exact hs.trans (Kept.of (m := recovered () TM.panic) (S.recovered () S.panic fun _ _ => trivial))
  refine pick (P := fun r : Agent × Tcp.Answer => Kept a.world r.1.world) (fun _ => ?_) fun _ => ?_
  · exact .refl _
  refine pick (P := fun r : Agent × Tcp.Answer => Kept a.world r.1.world) (fun _ => ?_) fun _ => ?_
  · exact .refl _
  refine pick (P := fun r : Agent × Tcp.Answer => Kept a.world r.1.world) (fun _ => ?_) fun _ => ?_
  · exact .refl _
  refine pick (P := fun r : Agent × Tcp.Answer => Kept a.world r.1.world) (fun _ => ?_) fun _ => ?_
  · rw [hin]; exact inW _ (s_getActiveList _)
  refine pick (P := fun r : Agent × Tcp.Answer => Kept a.world r.1.world) (fun _ => ?_) fun _ => ?_
  · rw [hin]; exact inW _ (s_getGoroutineDetail _)
  · exact .refl _

theorem handle_reset (m : Machine) (a : Agent) (pack : Pack) :
    ∃ o, (handle m a (ascii "OBJECT_RESET_CACHE") pack).1.world = perform a.world (.resetTexts o) := by
  refine ⟨m.textOrder a.requests, ?_⟩
  unfold handle
  extract_lets inWorld finish
  have hfin : ∀ r : Agent × Tcp.Answer, (finish r).1.world = r.1.world := fun r => rfl
  rw [hfin, if_neg (by decide +kernel), if_pos rfl]
  rfl

/-- The calls among the events. -/
def callsOf (es : List Event) : List Call := es.filterMap fun | .call c => some c | _ => none

theorem inv_life (m : Machine) {n d : Nat} {full : Prop} (es : List Event) (hc : full → OwnStepsPlain (callsOf es)) {a : Agent} (h : Inv n d full a.world) :
    Inv n d full (a.life m es).world ∧ Le a.world (a.life m es).world := by
  induction es generalizing a with
  | nil => exact ⟨h, Le.refl _⟩
  | cons e es ih =>
    have hs : Inv n d full (a.step m e).world ∧ Le a.world (a.step m e).world := by
      cases e with
      | call c =>
        obtain ⟨h1, h2, -⟩ := s_code (w0 := a.world) c (fun hf s hs => hc hf s (by rw [hs]; simp [callsOf])) a.world (Le.refl _) h
        exact ⟨h2, h1⟩
      | request cmd p => exact kept_handle m a cmd p _ _ _ h
      | edit t => exact ⟨h, Le.refl _⟩
      | refresh =>
        show Inv n d full ((a.refresh m).getD a).world ∧ Le a.world ((a.refresh m).getD a).world
        cases hr : a.refresh m with
        | none => exact ⟨h, Le.refl _⟩
        | some a' => exact kept_refresh m a a' hr _ _ _ h
      | announce => exact kept_announce a _ _ _ h
    obtain ⟨g1, g2⟩ := ih (fun hf s hm => hc hf s (by
      cases e with
      | call c => exact List.mem_cons_of_mem _ hm
      | _ => exact hm)) hs.1
    exact ⟨g1, hs.2.trans g2⟩

theorem resolved {w : World} (h : Inv 0 0 True w) : Resolved w.proxy.offered w.proxy.direct := by
  refine ⟨fun x hx r hr => ?_, fun o ho => h.packs _ ho, fun pk hp => h.packs _ (mem_profiles hp) trivial⟩
  have hk := h.packs _ (mem_xlogs hx)
  rcases List.mem_append.mp hr with hr | hr
  · exact hk.1 r hr
  · exact hk.2 trivial r hr

end
end Refs

/-- Whatever the application calls, every log and every profile sent refers only to texts announced before: with the kind it is looked up under,
the hash it is referred by, and the text having that hash. -/
theorem C100_no_dangling (env : Oracle) (conf : TraceConf) (cap : Nat) (cs : List Call) (hc : OwnStepsPlain cs) :
    Resolved (history (start env conf cap) cs).proxy.offered (history (start env conf cap) cs).proxy.direct :=
  Refs.resolved (Refs.inv_history cs (fun _ => hc) (Refs.inv_start env conf cap)).1

/-- The same for the whole life of an agent: calls, requests of the collector, edits and reloads of the configuration, and the announcements of
the object, whose packs likewise refer to an announced object name. -/
theorem C100_in_any_life (m : Handlers.Machine) (env : Oracle) (c : Config.Configure) (text : Option (Int × Bytes)) (fs : Dump.FS) (cap : Nat)
    (es : List Handlers.Event) (hc : OwnStepsPlain (es.filterMap fun | .call c => some c | _ => none)) :
    let w := ((Handlers.Agent.start env c text fs cap).life m es).world
    Resolved w.proxy.offered w.proxy.direct :=
  Refs.resolved (Refs.inv_life m es (fun _ => hc) (Refs.inv_start env c.traceConf cap)).1

/-- After the collector asks the agent to forget what it announced (it may be a new one), what the agent then sends is announced again before: the
service name, thread name, login and description of every log, the object's name of every announcement of the object. -/
theorem C100_after_a_reset (m : Handlers.Machine) (env : Oracle) (c : Config.Configure) (text : Option (Int × Bytes)) (fs : Dump.FS) (cap : Nat)
    (before after : List Handlers.Event) (pack : Pack) :
    let w := ((Handlers.Agent.start env c text fs cap).life m before).world
    let w' := ((Handlers.Agent.start env c text fs cap).life m (before ++ .request (ascii "OBJECT_RESET_CACHE") pack :: after)).world
    let sent := w'.proxy.direct.drop w.proxy.direct.length
    let announced := w'.proxy.offered.drop w.proxy.offered.length
    (∀ x ∈ xlogsOf sent, ∀ r ∈ resentRefs x, Known announced r.1 r.2) ∧ ∀ o, Pack.object o ∈ sent → Known announced .object o.objHash := by
  intro w w' sent announced
  have hi : Refs.Inv w.proxy.offered.length w.proxy.direct.length False
      (((Handlers.Agent.start env c text fs cap).life m before).step m (.request (ascii "OBJECT_RESET_CACHE") pack)).world := by
    obtain ⟨o, ho⟩ := Refs.handle_reset m ((Handlers.Agent.start env c text fs cap).life m before) pack
    show Refs.Inv _ _ _ (Handlers.handle m ((Handlers.Agent.start env c text fs cap).life m before) (ascii "OBJECT_RESET_CACHE") pack).1.world
    rw [ho]
    exact Refs.inv_reset w o
  have he : w' = ((((Handlers.Agent.start env c text fs cap).life m before).step m (.request (ascii "OBJECT_RESET_CACHE") pack)).life m after).world := by
    simp [w', Handlers.Agent.life, List.foldl_append]
  have h := (Refs.inv_life m after (fun hf => hf.elim) hi).1
  rw [← he] at h
  exact ⟨fun x hx r hr => (h.packs _ (Refs.mem_xlogs hx)).1 r hr, fun o ho => h.packs _ ho⟩

/-- The same at the level of the API: the caches being forgotten between two calls. -/
theorem C100_after_a_reset_call (env : Oracle) (conf : TraceConf) (cap : Nat) (before after : List Call) (o : MapOrder (BitVec 32 × Nat)) :
    let w := history (start env conf cap) before
    let w' := history (start env conf cap) (before ++ .resetTexts o :: after)
    ∀ x ∈ xlogsOf (w'.proxy.direct.drop w.proxy.direct.length),
      ∀ r ∈ resentRefs x, Known (w'.proxy.offered.drop w.proxy.offered.length) r.1 r.2 := by
  intro w w' x hx r hr
  have he : w' = history (perform w (.resetTexts o)) after := by simp [w, w', history, List.foldl_append]
  have h := (Refs.inv_history after (n := w.proxy.offered.length) (d := w.proxy.direct.length) (full := False) (fun hf => hf.elim) (Refs.inv_reset w o)).1
  rw [← he] at h
  exact (h.packs _ (Refs.mem_xlogs hx)).1 r hr

namespace Demo

/-- Any order. -/
def anyOrder : MapOrder (BitVec 32 × Nat) := ⟨id, fun _ => List.Perm.refl _⟩

/-- A service with an error, a method and a call of another service. -/
def refCalls : List Call :=
  [.startService .plain (ascii "a") [], .markAsError (.traced 0) (ascii "bad"), .startMethod (.traced 0) (ascii "f") [], .endMethod (.traced 0) (some 0)]

/-- The world before the caches are forgotten. -/
def refBefore : World := history (start env conf 100) refCalls

/-- The world after the service has ended, the caches having been forgotten meanwhile. -/
def refWorld : World := history (start env conf 100) (refCalls ++ .resetTexts anyOrder :: [.endService (.traced 0)])

-- the service's log was sent after the caches were forgotten, with its name and its error; no error was announced since
theorem refWorld_facts :
    (xlogsOf (refWorld.proxy.direct.drop refBefore.proxy.direct.length)).map (fun x => (x.service, x.error)) =
      [(crc32 (ascii "a"), crc32 (ascii "bad"))] ∧
    (∀ t ∈ refWorld.proxy.offered.drop refBefore.proxy.offered.length, t.xtype ≠ ascii "error") := by
  decide +kernel

example : OwnStepsPlain (refCalls ++ .resetTexts anyOrder :: [.endService (.traced 0)]) := by
  intro s hs
  simp [refCalls] at hs

example : (xlogsOf refWorld.proxy.direct).map (fun x => (resentRefs x ++ keptRefs x).map (·.2)) =
    [[crc32 (ascii "a"), crc32 (ascii "1"), 0, 0, crc32 (ascii "bad"), 0, 0]] ∧ (profilesOf refWorld.proxy.direct).length = 2 := by decide +kernel

end Demo

theorem Refs.dangling {w w' : World} {a e : BitVec 32} (he : e ≠ 0)
    (h1 : (xlogsOf (w'.proxy.direct.drop w.proxy.direct.length)).map (fun x => (x.service, x.error)) = [(a, e)])
    (h2 : ∀ t ∈ w'.proxy.offered.drop w.proxy.offered.length, t.xtype ≠ ascii "error") :
    ∃ x ∈ xlogsOf (w'.proxy.direct.drop w.proxy.direct.length), ¬ Known (w'.proxy.offered.drop w.proxy.offered.length) .error x.error := by
  have : (a, e) ∈ (xlogsOf (w'.proxy.direct.drop w.proxy.direct.length)).map (fun x => (x.service, x.error)) := by
    rw [h1]; exact List.mem_singleton.mpr rfl
  obtain ⟨x, hx, hp⟩ := List.mem_map.mp this
  refine ⟨x, hx, ?_⟩
  rintro (h0 | ⟨t, ht, -⟩)
  · have := congrArg Prod.snd hp
    exact he (this.symm.trans h0)
  · exact h2 _ ht rfl

/-- But the error a service was marked with, announced when it was marked, is not announced again: after the agent was told to forget what it
announced the log of a service still running refers to a text the collector is not told. -/
theorem C100_error_not_announced_again :
    ∃ (env : Oracle) (conf : TraceConf) (cap : Nat) (before after : List Call) (o : MapOrder (BitVec 32 × Nat)) (w w' : World),
      w = history (start env conf cap) before ∧ w' = history (start env conf cap) (before ++ .resetTexts o :: after) ∧
      OwnStepsPlain (before ++ .resetTexts o :: after) ∧
      ∃ x ∈ xlogsOf (w'.proxy.direct.drop w.proxy.direct.length), ¬ Known (w'.proxy.offered.drop w.proxy.offered.length) .error x.error := by
  have h : ∃ x ∈ xlogsOf (Demo.refWorld.proxy.direct.drop Demo.refBefore.proxy.direct.length),
      ¬ Known (Demo.refWorld.proxy.offered.drop Demo.refBefore.proxy.offered.length) .error x.error :=
    Refs.dangling (by decide +kernel) Demo.refWorld_facts.1 Demo.refWorld_facts.2
  have h1 : Demo.refBefore = history (start Demo.env Demo.conf 100) Demo.refCalls := rfl
  have h2 : Demo.refWorld = history (start Demo.env Demo.conf 100) (Demo.refCalls ++ .resetTexts Demo.anyOrder :: [.endService (.traced 0)]) := rfl
  exact ⟨Demo.env, Demo.conf, 100, Demo.refCalls, [.endService (.traced 0)], Demo.anyOrder, Demo.refBefore, Demo.refWorld, h1, h2,
    fun s hs => by simp [Demo.refCalls] at hs, h⟩

end Scouter
