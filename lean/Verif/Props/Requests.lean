import Verif.Props.Handlers
import Verif.Props.Dump
/-! # C68 - C70, C72: the configuration over the network, dispatch, the announcement of the object -/
namespace Scouter
namespace Handlers
open Trace TM Config Tcp Dump Spec

/-! ## What a request does to the configuration and its file -/

theorem handle_other (m : Machine) (a : Agent) (cmd : Bytes) (pack : Pack) (h : cmd ≠ ascii "SET_CONFIGURE_WAS") :
    (handle m a cmd pack).1.conf = a.conf ∧ (handle m a cmd pack).1.text = a.text ∧
      (handle m a cmd pack).1.world.conf = a.world.conf := by
  let P : Agent × Answer → Prop := fun r => r.1.conf = a.conf ∧ r.1.text = a.text ∧ r.1.world.conf = a.world.conf
  have hin : ∀ code : TM Table, Ev (Quiet id) code → P (inWorld a code) := by
    intro code hq
    have q := quiet_recovered (core := id) none (quiet_bind hq fun t => quiet_pure (some t)) a.world
    show P (match recovered none (do let t ← code; return some t) a.world with
      | (.ok (some t), w) => (({ a with world := w }, withPack t) : Agent × Answer)
      | (_, w) => ({ a with world := w }, nothing))
    split
    · next t w hw => rw [hw] at q; exact ⟨rfl, rfl, q.conf⟩
    · next r w hw => rw [hw] at q; exact ⟨rfl, rfl, q.conf⟩
  have hsame : ∀ x : Answer, P (a, x) := fun x => ⟨rfl, rfl, rfl⟩
  have main : P (handle m a cmd pack) := by
    show P (finish (if cmd = ascii "KEEP_ALIVE" then _ else _))
    have hfin : ∀ r : Agent × Answer, P r → P (finish r) := fun r h => h
    apply hfin
    refine pick (fun _ => hsame _) fun _ => ?_
    refine pick (fun _ => ⟨rfl, rfl, rfl⟩) fun _ => ?_
    refine pick (fun _ => ⟨rfl, rfl, rfl⟩) fun _ => ?_
    refine pick (fun _ => hsame _) fun _ => ?_
    refine pick (fun _ => by split <;> exact hsame _) fun _ => ?_
    refine pick (fun _ => hsame _) fun _ => ?_
    refine pick (fun _ => hsame _) fun _ => ?_
    refine pick (fun _ => hsame _) fun _ => ?_
    refine pick (fun _ => by split <;> exact hsame _) fun _ => ?_
    refine pick (fun _ => by split <;> exact ⟨rfl, rfl, rfl⟩) fun _ => ?_
    refine pick (fun _ => hsame _) fun _ => ?_
    refine pick (fun _ => hsame _) fun _ => ?_
    refine pick (fun _ => hsame _) fun _ => ?_
    refine pick (fun _ => hsame _) fun _ => ?_
    refine pick (fun hc => absurd hc h) fun _ => ?_
    refine pick (fun _ => hsame _) fun _ => ?_
    refine pick (fun _ => hsame _) fun _ => ?_
    refine pick (fun _ => hsame _) fun _ => ?_
    refine pick (fun _ => hin _ (quiet_getActiveList _)) fun _ => ?_
    refine pick (fun _ => hin _ (quiet_getGoroutineDetail _)) fun _ => ?_
    exact hsame _
  exact main

/-- An event that leaves the configuration file alone. -/
def KeepsFile : Event → Prop
  | .edit _ => False
  | .request cmd _ => cmd ≠ ascii "SET_CONFIGURE_WAS"
  | _ => True

theorem refresh_text (m : Machine) (a a' : Agent) (h : a.refresh m = some a') : a'.text = a.text ∧ a'.requests = a.requests := by
  unfold Agent.refresh at h
  split at h
  · simp at h
  · simp only [Option.some.injEq] at h
    subst h
    exact ⟨rfl, rfl⟩

theorem life_text (m : Machine) (a : Agent) (es : List Event) (h : ∀ e ∈ es, KeepsFile e) : (a.life m es).text = a.text := by
  induction es generalizing a with
  | nil => rfl
  | cons e es ih =>
    refine (ih (a.step m e) fun x hx => h x (List.mem_cons_of_mem _ hx)).trans ?_
    have he := h e List.mem_cons_self
    cases e with
    | call c => rfl
    | request cmd p => exact (handle_other m a cmd p he).2.1
    | edit t => exact he.elim
    | refresh =>
      show ((a.refresh m).getD a).text = a.text
      cases hr : a.refresh m with
      | none => rfl
      | some a' => exact (refresh_text m a a' hr).1
    | announce => rfl

/-- The state in which a request to save a configuration text refreshes. -/
def Agent.saved (m : Machine) (a : Agent) (text : Bytes) : Agent := { a with text := some (m.mtime a.requests, text) }

theorem set_run (m : Machine) (a : Agent) (param : Table) (text : Bytes) (hp : param.get (ascii "setConfig") = .text text)
    (hw : m.writable a.requests = true) :
    handle m a (ascii "SET_CONFIGURE_WAS") (.map ⟨param⟩) = finish (match (a.saved m text).refresh m with
      | none => ({ a.saved m text with world := (recovered () TM.panic a.world).2 }, nothing)
      | some a' => (a', withPack (MapPack.put (MapPack.put [] (ascii "result") (.bool false)) (ascii "result") (.string (ascii "true"))))) := by
  rw [handle_SET_CONFIGURE_WAS]
  have ht : param.getString (ascii "setConfig") = text := by unfold Table.getString; rw [hp]
  unfold saveConfig saveConfigText
  simp only [ht, if_pos hw]
  have e : ({ a with text := some (m.mtime a.requests, text) } : Agent) = a.saved m text := rfl
  rw [e]
  cases (a.saved m text).refresh m <;> rfl

theorem set_text (m : Machine) (a : Agent) (param : Table) (text : Bytes) (hp : param.get (ascii "setConfig") = .text text)
    (hw : m.writable a.requests = true) :
    (handle m a (ascii "SET_CONFIGURE_WAS") (.map ⟨param⟩)).1.text = some (m.mtime a.requests, text) := by
  rw [set_run m a param text hp hw]
  cases hr : (a.saved m text).refresh m with
  | none => rfl
  | some a' => exact (refresh_text m _ a' hr).1

/-! ## C68 -/

/-- **C68**: a text saved by a request is what later requests for the configuration show, whatever else happens that does not
change the file. -/
theorem C68_saved_text_is_shown (m : Machine) (a : Agent) (param : Table) (text : Bytes)
    (hp : param.get (ascii "setConfig") = .text text) (hw : m.writable a.requests = true) (es : List Event)
    (hes : ∀ e ∈ es, KeepsFile e) (q : Pack) :
    let a2 := (handle m a (ascii "SET_CONFIGURE_WAS") (.map ⟨param⟩)).1.life m es
    m.readable a2.requests = true →
    ∃ t, AnswersTable (handle m a2 (ascii "GET_CONFIGURE_WAS") q).2 t ∧ HasText t "agentConfig" text := by
  intro a2 hr
  have ht : a2.text = some (m.mtime a.requests, text) := (life_text m _ es hes).trans (set_text m a param text hp hw)
  refine ⟨loadConfig m a2, by rw [handle_GET_CONFIGURE_WAS]; rfl, ?_⟩
  have hl : loadConfigText m a2 = text := by unfold loadConfigText; rw [ht]; simp only [hr, if_true]
  unfold HasText loadConfig column
  rw [hl]
  seek

/-- **C68**: the answer is "true" exactly if the text has been written; if not, nothing changes. -/
theorem C68_answer_says_whether_saved (m : Machine) (henv : WellFormedEnv m.env) (a : Agent) (param : Table) (text : Bytes)
    (hp : param.get (ascii "setConfig") = .text text) :
    let r := handle m a (ascii "SET_CONFIGURE_WAS") (.map ⟨param⟩)
    ∃ t, AnswersTable r.2 t ∧
      (m.writable a.requests = true → HasText t "result" (ascii "true") ∧ r.1.text = some (m.mtime a.requests, text)) ∧
      (m.writable a.requests = false → t.get (ascii "result") = .bool false ∧ r.1 = { a with requests := a.requests + 1 }) := by
  intro r
  cases hw : m.writable a.requests with
  | true =>
    have hr := set_run m a param text hp hw
    have hs := set_text m a param text hp hw
    have hne : ∃ a', (a.saved m text).refresh m = some a' := by
      unfold Agent.refresh
      rcases refresh_cases henv m.host (m.file (a.saved m text)) (m.file (a.saved m text)) (a.saved m text).conf with h | ⟨c', h, -⟩ <;>
        rw [h] <;> exact ⟨_, rfl⟩
    obtain ⟨a', ha⟩ := hne
    rw [ha] at hr
    refine ⟨_, by show AnswersTable r.2 _; rw [show r = _ from hr]; rfl, fun _ => ⟨?_, hs⟩, by simp⟩
    unfold HasText
    seek
  | false =>
    have hr : r = finish (a, withPack (MapPack.put [] (ascii "result") (.bool false))) := by
      show handle m a _ _ = _
      rw [handle_SET_CONFIGURE_WAS]
      unfold saveConfig saveConfigText
      simp only [hw, Bool.false_eq_true, if_false]
    refine ⟨_, by rw [hr]; rfl, by simp, fun _ => ⟨?_, by rw [hr]; rfl⟩⟩
    seek

/-- **C68**: a saved text that can be read and whose file is newer than the one in effect is in effect when the answer comes,
also for the tracing calls. -/
theorem C68_saved_text_in_effect (m : Machine) (henv : WellFormedEnv m.env) (a : Agent) (param : Table) (text : Bytes)
    (hp : param.get (ascii "setConfig") = .text text) (hw : m.writable a.requests = true)
    (hr : m.readable a.requests = true) (props : Props) (hparse : m.parse text = some props)
    (hm : a.conf.lastModified < m.mtime a.requests) :
    let a1 := (handle m a (ascii "SET_CONFIGURE_WAS") (.map ⟨param⟩)).1
    InEffect m.env m.host (some props) a1.conf ∧ a1.world.conf = a1.conf.traceConf := by
  intro a1
  have h1 : a1 = _ := congrArg Prod.fst (set_run m a param text hp hw)
  have hf : m.file (a.saved m text) = .good (m.mtime a.requests) props := by
    unfold Machine.file Agent.saved
    simp only [hr, if_true, hparse]
  obtain ⟨c', hc, hl⟩ := refresh_loads henv m.host (f := m.file (a.saved m text)) (g := m.file (a.saved m text)) (a.saved m text).conf
    (Or.inr ⟨m.mtime a.requests, by rw [hf]; rfl, hm⟩) (Or.inr ⟨_, _, hf⟩)
  have hre : ∃ a', (a.saved m text).refresh m = some a' ∧ a'.conf = c' ∧ a'.world.conf = c'.traceConf := by
    unfold Agent.refresh
    rw [hc]
    refine ⟨_, rfl, rfl, ?_⟩
    simp only
    split <;> split <;> rfl
  obtain ⟨a', ha, hac, haw⟩ := hre
  rw [ha] at h1
  have hin := hl.inEffect
  rw [hf] at hin
  rw [h1]
  exact ⟨by show InEffect _ _ _ a'.conf; rw [hac]; exact hin, by show a'.world.conf = a'.conf.traceConf; rw [haw, hac]⟩

/-- **C68**, what "true" does not say: a saved text that is malformed, cannot be read back, or whose file is not newer than the
one in effect changes no setting. -/
theorem C68_saved_without_effect (m : Machine) (henv : WellFormedEnv m.env) (a : Agent) (param : Table) (text : Bytes)
    (hp : param.get (ascii "setConfig") = .text text) (hw : m.writable a.requests = true)
    (h : m.readable a.requests = false ∨ m.parse text = none ∨ m.mtime a.requests ≤ a.conf.lastModified) :
    let r := handle m a (ascii "SET_CONFIGURE_WAS") (.map ⟨param⟩)
    r.1.conf = a.conf ∧ ∃ t, AnswersTable r.2 t ∧ HasText t "result" (ascii "true") := by
  intro r
  obtain ⟨t, h1, h2, -⟩ := C68_answer_says_whether_saved m henv a param text hp
  refine ⟨?_, t, h1, (h2 hw).1⟩
  have hc : Config.refresh m.env m.host (m.file (a.saved m text)) (m.file (a.saved m text)) a.conf = some a.conf := by
    refine refresh_keeps henv m.host a.conf ?_
    unfold Machine.file Agent.saved
    simp only
    rcases h with h | h | h
    · rw [h]; exact Or.inr (Or.inr ⟨_, rfl⟩)
    · rw [h]
      split
      · exact Or.inr (Or.inr ⟨_, rfl⟩)
      · exact Or.inr (Or.inr ⟨_, rfl⟩)
    · split
      · split
        · exact Or.inr (Or.inr ⟨_, rfl⟩)
        · exact Or.inl (Or.inr ⟨_, rfl, h⟩)
      · exact Or.inr (Or.inr ⟨_, rfl⟩)
  have hre : ∃ a', (a.saved m text).refresh m = some a' ∧ a'.conf = a.conf := by
    unfold Agent.refresh
    rw [show (a.saved m text).conf = a.conf from rfl, hc]
    exact ⟨_, rfl, rfl⟩
  obtain ⟨a', ha, hac⟩ := hre
  have hr := set_run m a param text hp hw
  rw [ha] at hr
  rw [show r = _ from hr]
  exact hac

/-- **C68**: with an environment entry without '=' a text is saved, but the answer is the bare end mark. -/
theorem C68_bare_environment_entry (m : Machine) (env1 env2 : List Bytes) (h1 : WellFormedEnv env1) (e : Bytes) (he : (61 : Byte) ∉ e)
    (hm : m.env = env1 ++ e :: env2) (a : Agent) (param : Table) (text : Bytes)
    (hp : param.get (ascii "setConfig") = .text text) (hw : m.writable a.requests = true)
    (ht : a.conf.lastModified < m.mtime a.requests) :
    let r := handle m a (ascii "SET_CONFIGURE_WAS") (.map ⟨param⟩)
    AnswersNothing r.2 ∧ r.1.text = some (m.mtime a.requests, text) ∧ r.1.conf = a.conf := by
  intro r
  have hn : (a.saved m text).refresh m = none := by
    have hstamp : stamp (m.file (a.saved m text)) = some (m.mtime a.requests) := by
      unfold Machine.file Agent.saved
      simp only
      split
      · split <;> rfl
      · rfl
    have hr : Config.refresh m.env m.host (m.file (a.saved m text)) (m.file (a.saved m text)) a.conf = none := by
      have hb := C47_bare_environment_entry_panics env1 env2 h1 e he m.host a.conf
      have hp0 : envProps m.env (fun _ => none) = none := by
        have := hb .absent
        rw [hm]
        unfold Config.refresh at this
        simp only at this
        split at this
        · assumption
        · simp at this
      cases hf : m.file (a.saved m text) with
      | absent => rw [hf] at hstamp; simp [stamp] at hstamp
      | denied => rw [hf] at hstamp; simp [stamp] at hstamp
      | bad t =>
        rw [hf] at hstamp
        obtain rfl : t = m.mtime a.requests := by simpa [stamp] using hstamp
        unfold Config.refresh
        simp only [hp0]
        exact if_pos ht
      | good t x =>
        rw [hf] at hstamp
        obtain rfl : t = m.mtime a.requests := by simpa [stamp] using hstamp
        unfold Config.refresh
        simp only [hp0]
        exact if_pos ht
    unfold Agent.refresh
    rw [show (a.saved m text).conf = a.conf from rfl, hr]
  have hr := set_run m a param text hp hw
  rw [hn] at hr
  rw [show r = _ from hr]
  exact ⟨rfl, rfl, rfl⟩

/-! ## C69 -/

/-- The configuration is loaded and listed. -/
def InForce (m : Machine) (c : Configure) : Prop := ∃ file, InEffect m.env m.host file c ∧ c.descs = listing m.env file

theorem InForce.refresh {m : Machine} (henv : WellFormedEnv m.env) {a a' : Agent} (h : InForce m a.conf) (hr : a.refresh m = some a') :
    InForce m a'.conf := by
  unfold Agent.refresh at hr
  rcases refresh_cases henv m.host (m.file a) (m.file a) a.conf with hc | ⟨c', hc, hl⟩
  · rw [hc] at hr
    simp only [Option.some.injEq] at hr
    subst hr; exact h
  · rw [hc] at hr
    simp only [Option.some.injEq] at hr
    subst hr
    obtain ⟨file, h1, h2⟩ := h
    exact ⟨_, hl.inEffect, hl.listed (Listed.keys (Or.inr ⟨file, h1, h2⟩))⟩

theorem InForce.step {m : Machine} (henv : WellFormedEnv m.env) {a : Agent} (h : InForce m a.conf) (e : Event) :
    InForce m (a.step m e).conf := by
  cases e with
  | call c => exact h
  | edit t => exact h
  | announce => exact h
  | refresh =>
    show InForce m ((a.refresh m).getD a).conf
    cases hr : a.refresh m with
    | none => exact h
    | some a' => exact h.refresh henv hr
  | request cmd p =>
    by_cases hs : cmd = ascii "SET_CONFIGURE_WAS"
    · subst hs
      show InForce m (handle m a _ p).1.conf
      rw [handle_SET_CONFIGURE_WAS]
      have key : InForce m (saveConfig m a p).2.conf := by
        unfold saveConfig
        split
        · extract_lets result text
          unfold saveConfigText
          by_cases hw : m.writable a.requests = true
          · simp only [if_pos hw]
            split
            · exact h
            · next a' hr => exact InForce.refresh (a := a.saved m text) henv h hr
          · simp only [if_neg hw]; exact h
        · exact h
      show InForce m (match saveConfig m a p with
        | (some t, a) => ((a, withPack t) : Agent × Answer)
        | (none, a) => ({ a with world := (recovered () TM.panic a.world).2 }, nothing)).1.conf
      split <;> (next heq => rw [heq] at key; exact key)
    · show InForce m (handle m a cmd p).1.conf
      rw [(handle_other m a cmd p hs).1]; exact h

theorem InForce.life {m : Machine} (henv : WellFormedEnv m.env) {a : Agent} (h : InForce m a.conf) (es : List Event) :
    InForce m (a.life m es).conf := by
  induction es generalizing a with
  | nil => exact h
  | cons e es ih => exact ih (h.step henv e)

theorem listConfig_columns (ds : List (Bytes × Desc)) :
    HasColumn (listConfig ds) "key" (ds.map fun d => .text d.1) ∧ HasColumn (listConfig ds) "value" (ds.map fun d => .text d.2.value) ∧
    HasColumn (listConfig ds) "default" (ds.map fun d => .text d.2.default) := by
  unfold listConfig column HasColumn
  refine ⟨?_, ?_, ?_⟩ <;> seek

theorem foldl_puts (ds : List (Bytes × Desc)) (f : Bytes × Desc → Value) (put : Bytes × Desc → Any)
    (hput : ∀ t d, MapPack.put t d.1 (put d) = insertKV d.1 (f d) t) (hn : (ds.map (·.1)).Nodup) :
    ds.foldl (fun t d => MapPack.put t d.1 (put d)) [] = ds.map fun d => (d.1, f d) := by
  have := puts_eq (ds.map fun d => (d.1, f d)) [] (by simpa [List.map_map, Function.comp_def] using hn)
  rw [List.foldl_map, List.nil_append] at this
  rw [← this]
  congr 1
  funext t d
  exact hput t d

/-- **C69**: whatever happened since a configuration was loaded, the lists of settings the collector asks for are those of the
configuration in effect: every setting once with its value, its default, its kind and its description. -/
theorem C69_listings (m : Machine) (henv : WellFormedEnv m.env) (a0 : Agent) (h0 : InForce m a0.conf) (es : List Event) (q : Pack) :
    let a := a0.life m es
    ∃ file, InEffect m.env m.host file a.conf ∧
      (∃ t, AnswersTable (handle m a (ascii "LIST_CONFIGURE_WAS") q).2 t ∧
        HasColumn t "key" ((listing m.env file).map fun d => .text d.1) ∧
        HasColumn t "value" ((listing m.env file).map fun d => .text d.2.value) ∧
        HasColumn t "default" ((listing m.env file).map fun d => .text d.2.default)) ∧
      (∃ t, AnswersTable (handle m a (ascii "GET_CONFIGURE_WAS") q).2 t ∧
        HasColumn t "configKey" ((listing m.env file).map fun d => .text d.1)) ∧
      (∃ t, AnswersTable (handle m a (ascii "CONFIGURE_VALUE_TYPE") q).2 t ∧
        t = (listing m.env file).map fun d => (d.1, .dec ((BitVec.ofNat 32 d.2.valueType).signExtend 64))) ∧
      (∃ t, AnswersTable (handle m a (ascii "CONFIGURE_DESC") q).2 t ∧
        t = (listing m.env file).map fun d => (d.1, .text (m.descText d.1))) := by
  intro a
  obtain ⟨file, h1, h2⟩ := h0.life henv es
  have hn : ((listing m.env file).map (·.1)).Nodup := by
    unfold listing; rw [List.map_map]; exact keys_nodup
  have h2 : a.conf.descs = listing m.env file := h2
  refine ⟨file, h1, ⟨_, by rw [handle_LIST_CONFIGURE_WAS]; rfl, ?_⟩, ⟨_, by rw [handle_GET_CONFIGURE_WAS]; rfl, ?_⟩,
    ⟨_, by rw [handle_CONFIGURE_VALUE_TYPE]; rfl, ?_⟩, ⟨_, by rw [handle_CONFIGURE_DESC]; rfl, ?_⟩⟩
  · rw [h2]; exact listConfig_columns _
  · unfold loadConfig column HasColumn
    rw [h2]
    seek
  · rw [h2]; exact foldl_puts _ _ _ (fun _ _ => rfl) hn
  · rw [h2]; exact foldl_puts _ _ _ (fun _ _ => rfl) hn

/-! ## C70 -/

/-- **C70**: a request that is not one of the known commands, and the request to keep the connection alive, are answered with
the bare end mark and change nothing. -/
theorem C70_unknown_command (m : Machine) (a : Agent) (cmd : Bytes) (pack : Pack)
    (h : cmd ∉ commands ∨ cmd = ascii "KEEP_ALIVE") :
    AnswersNothing (handle m a cmd pack).2 ∧ (handle m a cmd pack).1 = { a with requests := a.requests + 1 } := by
  have key : handle m a cmd pack = finish (a, nothing) := by
    rcases h with h | rfl
    · unfold commands at h
      simp only [List.map_cons, List.map_nil, List.mem_cons, List.not_mem_nil, or_false, not_or] at h
      obtain ⟨h1, h2, h3, h4, h5, h6, h7, h8, h9, h10, h11, h12, h13, h14, h15, h16, h17, h18, h19, h20⟩ := h
      exact congrArg finish <| (if_neg h1).trans <| (if_neg h2).trans <| (if_neg h3).trans <| (if_neg h4).trans <|
        (if_neg h5).trans <| (if_neg h6).trans <| (if_neg h7).trans <| (if_neg h8).trans <| (if_neg h9).trans <|
        (if_neg h10).trans <| (if_neg h11).trans <| (if_neg h12).trans <| (if_neg h13).trans <| (if_neg h14).trans <|
        (if_neg h15).trans <| (if_neg h16).trans <| (if_neg h17).trans <| (if_neg h18).trans <| (if_neg h19).trans <|
        (if_neg h20)
    · exact handle_KEEP_ALIVE m a pack
  rw [key]
  exact ⟨rfl, rfl⟩

/-- The two commands answered with a stream of byte strings. -/
def streams : List Bytes := [ascii "OBJECT_DUMP_FILE_DETAIL", ascii "OBJECT_DOWNLOAD_HEAP_DUMP"]

/-- **C70**: every other command is answered with at most one pack, never with a stream; the two are answered with a stream of
byte strings of at most 4096 bytes and never with a pack.  So the collector can tell from its command what to expect. -/
theorem C70_kind_of_answer (m : Machine) (a : Agent) (cmd : Bytes) (pack : Pack) :
    (cmd ∉ streams → (handle m a cmd pack).2.blobs = []) ∧
    (cmd ∈ streams → (handle m a cmd pack).2.pack = none ∧ ∀ b ∈ (handle m a cmd pack).2.blobs, b.length ≤ 4096) := by
  let P : Agent × Answer → Prop := fun r => (cmd ∉ streams → r.2.blobs = []) ∧
    (cmd ∈ streams → r.2.pack = none ∧ ∀ b ∈ r.2.blobs, b.length ≤ 4096)
  have hno : ∀ a : Agent, P (a, nothing) := fun a => ⟨fun _ => rfl, fun _ => ⟨rfl, by simp [nothing]⟩⟩
  have hpack : ∀ (c : Bytes) (a : Agent) (x : Pack), c ∉ streams → cmd = c → P (a, ⟨[], some x⟩) := by
    intro c a x hc he
    refine ⟨fun _ => rfl, fun h => absurd (he ▸ h) hc⟩
  have hin : ∀ (c : Bytes) (code : TM Table), c ∉ streams → cmd = c → P (inWorld a code) := by
    intro c code hc he
    unfold inWorld
    split
    · exact hpack c _ _ hc he
    · exact hno _
  have hfin : ∀ r : Agent × Answer, P r → P (finish r) := fun r h => h
  have main : P (handle m a cmd pack) := by
    show P (finish (if cmd = ascii "KEEP_ALIVE" then _ else _))
    apply hfin
    refine pick (fun _ => hno _) fun _ => ?_
    refine pick (fun h => hpack _ _ _ (by decide +kernel) h) fun _ => ?_
    refine pick (fun h => hpack _ _ _ (by decide +kernel) h) fun _ => ?_
    refine pick (fun h => hpack _ _ _ (by decide +kernel) h) fun _ => ?_
    refine pick (fun h => ?_) fun _ => ?_
    · split
      · next p =>
        refine ⟨fun hc => absurd (by rw [h]; decide +kernel) hc, fun _ => ⟨rfl, ?_⟩⟩
        intro b hb
        unfold streamDumpFileContents at hb
        split at hb
        · simp at hb
        · simp at hb
        · next content _ => exact ((streamLoop_all _ _ 0 content (Nat.le_refl _)).2 b hb).2
      · exact hno _
    refine pick (fun _ => hno _) fun _ => ?_
    refine pick (fun _ => hno _) fun _ => ?_
    refine pick (fun h => hpack _ _ _ (by decide +kernel) h) fun _ => ?_
    refine pick (fun h => ?_) fun _ => ?_
    · split
      · next p =>
        refine ⟨fun hc => absurd (by rw [h]; decide +kernel) hc, fun _ => ⟨rfl, ?_⟩⟩
        intro b hb
        unfold downloadBinaryDumpFiles at hb
        split at hb
        · simp at hb
        · split at hb
          · simp at hb
          · simp at hb
          · next content _ =>
            obtain ⟨cs, h1, -, h3⟩ := downloadLoop_const content (content.length / 300 + 1) 0 0 (by omega) (by simp)
            rw [h1] at hb
            have := h3 b hb
            omega
      · exact hno _
    refine pick (fun h => ?_) fun _ => ?_
    · split
      · exact hpack _ _ _ (by decide +kernel) h
      · exact hno _
    refine pick (fun h => hpack _ _ _ (by decide +kernel) h) fun _ => ?_
    refine pick (fun h => hpack _ _ _ (by decide +kernel) h) fun _ => ?_
    refine pick (fun h => hpack _ _ _ (by decide +kernel) h) fun _ => ?_
    refine pick (fun h => hpack _ _ _ (by decide +kernel) h) fun _ => ?_
    refine pick (fun h => ?_) fun _ => ?_
    · split
      · exact hpack _ _ _ (by decide +kernel) h
      · exact hno _
    refine pick (fun h => hpack _ _ _ (by decide +kernel) h) fun _ => ?_
    refine pick (fun h => hpack _ _ _ (by decide +kernel) h) fun _ => ?_
    refine pick (fun h => hpack _ _ _ (by decide +kernel) h) fun _ => ?_
    refine pick (fun h => hin _ _ (by decide +kernel) h) fun _ => ?_
    refine pick (fun h => hin _ _ (by decide +kernel) h) fun _ => ?_
    exact hno _
  exact main

/-! ## C72 -/

/-- **C72**: whatever happened since a configuration was loaded, the announcement of the object names the object by the name and
type in effect, with the hash of this name. -/
theorem C72_announcement (m : Machine) (henv : WellFormedEnv m.env) (a0 : Agent) (h0 : InForce m a0.conf) (es : List Event) :
    let a := a0.life m es
    ∃ file, InEffect m.env m.host file a.conf ∧
      let name := ascii "/" ++ m.host.getD (ascii "unknown") ++ ascii "/" ++ (effectiveText m.env file (ascii "obj_name")).getD (ascii "go1")
      a.announce.world.proxy.direct = a.world.proxy.direct ++ [.object
        { objType := (effectiveText m.env file (ascii "obj_type")).getD (ascii "golang"), objHash := hash name, objName := name,
          address := [], version := ascii "0.0.0", alive := true, wakeup := 0, tags := [] }] := by
  intro a
  obtain ⟨file, h1, h2⟩ := h0.life henv es
  have h1 : InEffect m.env m.host file a.conf := h1
  refine ⟨file, h1, ?_⟩
  intro name
  have hn : a.conf.objName = name := h1.objName
  have ht : a.conf.textAt "ObjType" = (effectiveText m.env file (ascii "obj_type")).getD (ascii "golang") := by
    have := h1.fields ⟨"ObjType", ascii "obj_type", .text 1 (ascii "golang")⟩ (by simp [objRows])
    unfold Configure.textAt
    rw [this]
    rfl
  have hne : a.conf.objName ≠ [] := by rw [hn]; simp [name, ascii]
  have hs : ∀ (p : Proxy) (n : Bytes), n ≠ [] → (p.sendText .object n).2 = hash n ∧ (p.sendText .object n).1.direct = p.direct := by
    intro p n hne
    unfold Proxy.sendText
    rw [if_neg hne]
    simp only
    split
    · exact ⟨rfl, rfl⟩
    · refine ⟨rfl, ?_⟩
      unfold Proxy.addPack
      rfl
  obtain ⟨e1, e2⟩ := hs a.world.proxy a.conf.objName hne
  show (a.world.proxy.sendText .object a.conf.objName).1.direct ++ [_] = _
  rw [e2]
  congr 2
  show Pack.object ⟨a.conf.textAt "ObjType", (a.world.proxy.sendText .object a.conf.objName).2, a.conf.objName, [], ascii "0.0.0", true, 0, []⟩ = _
  rw [e1, ht, hn]

/-- **C72**: the configuration the tracing calls work with is the one in effect, whatever happened. -/
theorem C72_tracing_uses_it (m : Machine) (a0 : Agent) (h0 : a0.world.conf = a0.conf.traceConf) (es : List Event)
    (hes : ∀ c, Event.call (.conf c) ∉ es) :
    (a0.life m es).world.conf = (a0.life m es).conf.traceConf := by
  induction es generalizing a0 with
  | nil => exact h0
  | cons e es ih =>
    refine ih (a0.step m e) ?_ fun c hc => hes c (List.mem_cons_of_mem _ hc)
    have href : ∀ a a' : Agent, a.world.conf = a.conf.traceConf → a.refresh m = some a' → a'.world.conf = a'.conf.traceConf := by
      intro a a' h hr
      unfold Agent.refresh at hr
      split at hr
      · simp at hr
      · simp only [Option.some.injEq] at hr
        subst hr
        simp only
        split <;> split <;> rfl
    cases e with
    | call c =>
      have hc : ∀ x, c ≠ .conf x := fun x he => hes x (by rw [he]; exact List.mem_cons_self)
      exact ((move_of_code c hc a0.world).conf).trans h0
    | edit t => exact h0
    | announce =>
      refine Eq.trans ?_ h0
      show a0.announce.world.conf = a0.world.conf
      unfold Agent.announce
      exact ((Quiet.isPre id).trans (quiet_sendText (core := id) .object a0.conf.objName a0.world)
        (quiet_sendDirect (core := id) _ rfl _)).conf
    | refresh =>
      show ((a0.refresh m).getD a0).world.conf = ((a0.refresh m).getD a0).conf.traceConf
      cases hr : a0.refresh m with
      | none => exact h0
      | some a' => exact href a0 a' h0 hr
    | request cmd p =>
      by_cases hs : cmd = ascii "SET_CONFIGURE_WAS"
      · subst hs
        show (handle m a0 _ p).1.world.conf = (handle m a0 _ p).1.conf.traceConf
        rw [handle_SET_CONFIGURE_WAS]
        have key : (saveConfig m a0 p).2.world.conf = (saveConfig m a0 p).2.conf.traceConf := by
          unfold saveConfig
          split
          · extract_lets result text
            unfold saveConfigText
            by_cases hw : m.writable a0.requests = true
            · simp only [if_pos hw]
              split
              · exact h0
              · next a' hr => exact href (a0.saved m text) a' h0 hr
            · simp only [if_neg hw]; exact h0
          · exact h0
        show (match saveConfig m a0 p with
          | (some t, a) => ((a, withPack t) : Agent × Answer)
          | (none, a) => ({ a with world := (recovered () TM.panic a.world).2 }, nothing)).1.world.conf =
          (match saveConfig m a0 p with
          | (some t, a) => ((a, withPack t) : Agent × Answer)
          | (none, a) => ({ a with world := (recovered () TM.panic a.world).2 }, nothing)).1.conf.traceConf
        split
        · next heq => rw [heq] at key; exact key
        · next a' heq =>
          rw [heq] at key
          exact (quiet_recovered (core := id) () (m := TM.panic) (fun w => (Quiet.isPre id).refl w) a'.world).conf.trans key
      · obtain ⟨h1, h2, h3⟩ := handle_other m a0 cmd p hs
        show (handle m a0 cmd p).1.world.conf = (handle m a0 cmd p).1.conf.traceConf
        rw [h3, h1]; exact h0

/-! ## The hypotheses hold of a concrete life -/

namespace Demo

theorem env_ok : WellFormedEnv machine.env := by decide

/-- The configuration of the sample agent is loaded. -/
example : InForce machine agent0.conf := by
  obtain ⟨c', h, hl⟩ := refresh_loads env_ok machine.host (f := .absent) (g := .absent) Config.fresh (Or.inl rfl) (Or.inl rfl)
  have : agent0.conf = c' := by
    show (Config.refresh machine.env machine.host .absent .absent Config.fresh).getD Config.fresh = c'
    rw [h]; rfl
  rw [this]
  exact ⟨_, hl.inEffect, hl.listed (Or.inl rfl)⟩

example : agent0.world.conf = agent0.conf.traceConf := rfl
example : ∀ c, Event.call (.conf c) ∉ events := by simp [events]

/-- Saving is possible, and the text parses; another one does not. -/
example : machine.writable agent.requests = true ∧ agent.conf.lastModified < machine.mtime agent.requests ∧
    (machine.parse (ascii "zz")).isSome = true ∧ machine.parse (ascii "bad") = none := by
  refine ⟨rfl, ?_, by decide +kernel, rfl⟩
  decide +kernel


end Demo
end Handlers
end Scouter
