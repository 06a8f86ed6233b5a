import Verif.Spec.Options
import Verif.Props.Program
/-!
# Every option governs what it names (C117)

`Options.tracing` and `Options.collector` (Spec/Options) say which name of the configuration file sets which figure, and its default.
-/
namespace Scouter
open Spec Config Trace

section
variable {env : List Bytes} {host : Option Bytes} {file : Option Props} {c : Configure}

theorem Spec.InEffect.number (h : InEffect env host file c) (f k : String) (d : Int) (hr : (⟨f, ascii k, .int d⟩ : Config.Row) ∈ objRows ++ rows) :
    c.intAt f = Options.numberOr d (effectiveText env file (ascii k)) := by
  have := h.fields _ hr
  simp only at this
  simp [Configure.intAt, this, meaning, Options.numberOr]

theorem Spec.InEffect.number32 (h : InEffect env host file c) (f k : String) (d : Int) (hr : (⟨f, ascii k, .int32 d⟩ : Config.Row) ∈ objRows ++ rows) :
    c.int32At f = BitVec.ofInt 32 (Options.numberOr d (effectiveText env file (ascii k))) := by
  have := h.fields _ hr
  simp only at this
  simp [Configure.int32At, this, meaning, Options.numberOr]

theorem Spec.InEffect.yes (h : InEffect env host file c) (f k : String) (d : Bool) (hr : (⟨f, ascii k, .bool d⟩ : Config.Row) ∈ objRows ++ rows) :
    c.boolAt f = Options.yesOr d (effectiveText env file (ascii k)) := by
  have := h.fields _ hr
  simp only at this
  unfold Configure.boolAt
  rw [this]
  cases effectiveText env file (ascii k) <;> rfl

theorem Spec.InEffect.text (h : InEffect env host file c) (f k : String) (n : Nat) (d : Bytes) (hr : (⟨f, ascii k, .text n d⟩ : Config.Row) ∈ objRows ++ rows) :
    c.textAt f = Options.textOr d (effectiveText env file (ascii k)) := by
  have := h.fields _ hr
  simp only at this
  simp [Configure.textAt, this, meaning, Options.textOr]

/-- **C117**: the figures the tracing calls and the sampler work with are those of the options with their names. -/
theorem C117_options_govern_tracing (h : InEffect env host file c) :
    c.traceConf = Options.tracing (fun k => effectiveText env file (ascii k)) host := by
  unfold Configure.traceConf Options.tracing
  congr 1
  · exact h.number _ _ _ (by decide +kernel)
  · exact h.number _ _ _ (by decide +kernel)
  · rw [h.objHash, h.objName]; rfl
  · exact h.text _ _ 1 _ (by decide +kernel)
  · exact h.number _ _ _ (by decide +kernel)
  · exact h.yes _ _ _ (by decide +kernel)
  · exact h.yes _ _ _ (by decide +kernel)
  · exact h.number _ _ _ (by decide +kernel)
  · exact h.number _ _ _ (by decide +kernel)
  · exact h.yes _ _ _ (by decide +kernel)
  · exact h.yes _ _ _ (by decide +kernel)
  · exact h.text _ _ 4 _ (by decide +kernel)
  · exact h.text _ _ 1 _ (by decide +kernel)
  · unfold Configure.sample
    congr 1
    · exact h.text _ _ 4 _ (by decide +kernel)
    all_goals
      unfold Options.sampling
      congr 1
      · exact h.yes _ _ _ (by decide +kernel)
      · exact h.text _ _ 4 _ (by decide +kernel)
      · exact h.yes _ _ _ (by decide +kernel)
      · exact h.number32 _ _ _ (by decide +kernel)
      · exact h.number32 _ _ _ (by decide +kernel)
      · exact h.number32 _ _ _ (by decide +kernel)
      · exact h.number _ _ _ (by decide +kernel)
      · exact h.number _ _ _ (by decide +kernel)
      · exact h.number _ _ _ (by decide +kernel)
      · exact h.number _ _ _ (by decide +kernel)

/-- **C117**: datagrams are meant for the address and port, and of the length, set by the options with their names. -/
theorem C117_options_govern_sender (h : InEffect env host file c) :
    Program.target c = Options.collector fun k => effectiveText env file (ascii k) := by
  unfold Program.target Options.collector
  congr 1
  · exact h.text _ _ 1 _ (by decide +kernel)
  · exact h.number _ _ _ (by decide +kernel)
  · exact h.number _ _ _ (by decide +kernel)

end

/-- **C117**: the options shown are the documented ones, in that order, with their defaults and kinds, whatever the file and the environment say. -/
theorem C117_documented (env : List Bytes) (file : Option Props) :
    (listing env file).map (fun e => (e.1, e.2.default, e.2.valueType)) = Options.documented.map fun d => (ascii d.1, ascii d.2.1, d.2.2) := by
  have h : (listing env file).map (fun e => (e.1, e.2.default, e.2.valueType)) =
      (objRows ++ rows).map fun r => (r.key, (describe r none).default, (describe r none).valueType) := by
    unfold listing
    rw [List.map_map]
    refine List.map_congr_left fun r _ => ?_
    obtain ⟨f, k, rd⟩ := r
    cases rd <;> rfl
  rw [h]
  decide +kernel

/-- **C117**: whether errors of discarded services are to be shown, set or not, changes nothing: no setting of the tracing calls, the sampler
or the sender depends on it. -/
theorem C117_show_error_without_effect (t t' : String → Option Bytes) (host : Option Bytes)
    (h : ∀ k, k ≠ "xlog_discard_service_show_error" → t k = t' k) :
    Options.tracing t host = Options.tracing t' host ∧ Options.collector t = Options.collector t' := by
  unfold Options.tracing Options.collector Options.sampling
  constructor <;> simp (disch := decide) only [h]

/-! ## In the running program -/

namespace Program
open Handlers Counter

/-- The tracing calls and the sender work with the options of this file. -/
def Governed (m : Machine) (file : Option Props) (q : State) : Prop :=
  q.agent.world.conf = Options.tracing (fun k => effectiveText m.env file (ascii k)) m.host ∧
    q.udp.conf = Options.collector fun k => effectiveText m.env file (ascii k)

/-- The settings of the tracing calls are those of the agent. -/
def Follows (q : State) : Prop := q.agent.world.conf = q.agent.conf.traceConf

theorem touched_follows {m : Machine} {a a' : Agent} (hr : a.refresh m = some a') : a'.world.conf = a'.conf.traceConf := by
  unfold Agent.refresh at hr
  split at hr
  · simp at hr
  · simp only [Option.some.injEq] at hr
    subst hr
    simp only
    split <;> split <;> rfl

theorem handle_follows {m : Machine} {a : Agent} (h : a.world.conf = a.conf.traceConf) (cmd : Bytes) (pack : Pack) :
    (handle m a cmd pack).1.world.conf = (handle m a cmd pack).1.conf.traceConf :=
  C72_tracing_uses_it m a h [.request cmd pack] (by simp)

theorem announce_follows (m : Machine) {p q : State} (h : Follows p) (hq : announce p = some q) : Follows q := by
  unfold announce at hq
  split at hq
  · simp at hq
  · simp only [Option.some.injEq] at hq
    subst hq
    exact C72_tracing_uses_it m p.agent h [.announce] (by simp)

theorem boot_follows {m : Machine} {b : Boot} {p : State} (h : boot m b = some p) : Follows p := by
  unfold boot at h
  split at h
  · simp at h
  · simp only at h
    split at h
    · simp at h
    · split at h
      · simp at h
      · split at h
        · simp at h
        · refine announce_follows m ?_ h; rfl

theorem step_follows {f : Floats} {m : Machine} {p q : State} (hs : Sound p) (h : Follows p) (e : Event)
    (he : ∀ now c, e ≠ .call now (.conf c)) (hq : step f m p e = some q) : Follows q := by
  have hu : ∀ e : Reload.Event, udpEvent p e = some q → Follows q := by
    intro e hq
    unfold udpEvent at hq
    simp only at hq
    split at hq
    · simp at hq
    · simp only [Option.some.injEq] at hq
      subst hq
      exact h
  cases e with
  | call now c =>
    simp only [step] at hq
    obtain ⟨w', hw⟩ := hs.regs.no_panic c
    rw [hw] at hq
    simp only [Option.some.injEq] at hq
    subst hq
    have := (move_of_code c (fun x hx => he now x (by rw [hx])) p.agent.world).conf
    rw [hw] at this
    exact this.trans h
  | request cmd pack =>
    simp only [step, Option.some.injEq] at hq
    subst hq
    exact handle_follows h cmd pack
  | edit text => simp only [step, Option.some.injEq] at hq; subst hq; exact h
  | refresh =>
    simp only [step] at hq
    split at hq
    · simp at hq
    · rename_i a ha
      simp only [Option.some.injEq] at hq
      subst hq
      exact touched_follows ha
  | announce => exact announce_follows m h hq
  | realTime s o t =>
    simp only [step] at hq
    obtain ⟨pk, k, hk, hw, -⟩ := realTime_ok f p.agent.conf.objName s o t (monitor p) hs.regs
    rw [hk] at hq
    simp only [Option.some.injEq] at hq
    subst hq
    show k.world.conf = p.agent.conf.traceConf
    rw [hw]
    exact ((move_of_code (.activeCount o) (fun x => by simp) p.agent.world).conf).trans h
  | fiveMin read average => simp only [step, Option.some.injEq] at hq; subst hq; exact h
  | reload ok => exact hu _ hq
  | write ids a => exact hu _ hq
  | datagram i => exact hu _ hq

theorem life_follows {f : Floats} {m : Machine} (es : List Event) : ∀ {p q : State}, Sound p → Follows p →
    (∀ now c, .call now (.conf c) ∉ es) → life f m p es = some q → Follows q := by
  induction es with
  | nil => intro p q _ h _ hq; simp only [life, Option.some.injEq] at hq; exact hq ▸ h
  | cons e es ih =>
    intro p q hs h he hq
    simp only [life] at hq
    cases hr : step f m p e with
    | none => rw [hr] at hq; simp at hq
    | some r =>
      rw [hr] at hq
      exact ih (step_sound hs e hr) (step_follows hs h e (fun now c hc => he now c (by rw [← hc]; exact List.mem_cons_self)) hr)
        (fun now c hc => he now c (List.mem_cons_of_mem _ hc)) hq

theorem governed {m : Machine} {q : State} (hs : Sound q) (h : Follows q) {file : Option Props}
    (he : InEffect m.env m.host file q.agent.conf) : Governed m file q :=
  ⟨Eq.trans h (C117_options_govern_tracing he), hs.conf.trans (C117_options_govern_sender he)⟩

/-! ## Which texts the file has had -/

/-- The texts the configuration file is given by an event: by whoever edits it, or by a request to save one. -/
def written : Event → List Bytes
  | .edit (some (_, text)) => [text]
  | .request cmd (.map p) => if cmd = ascii "SET_CONFIGURE_WAS" then [match p.table.get (ascii "setConfig") with | .text s => s | _ => []] else []
  | _ => []

/-- The options in effect are those of no file or of one of these texts, and so is the file. -/
structure Known (m : Machine) (texts : List Bytes) (a : Agent) : Prop where
  text : ∀ t x, a.text = some (t, x) → x ∈ texts
  conf : ∃ file, (file = none ∨ ∃ x ∈ texts, ∃ props, m.parse x = some props ∧ file = some props) ∧ InEffect m.env m.host file a.conf

theorem Known.mono {m : Machine} {xs ys : List Bytes} {a : Agent} (h : Known m xs a) (hs : ∀ x ∈ xs, x ∈ ys) : Known m ys a := by
  obtain ⟨h1, file, h2, h3⟩ := h
  refine ⟨fun t x hx => hs x (h1 t x hx), file, ?_, h3⟩
  rcases h2 with h2 | ⟨x, hx, h2⟩
  · exact Or.inl h2
  · exact Or.inr ⟨x, hs x hx, h2⟩

theorem Known.refresh {m : Machine} (henv : WellFormedEnv m.env) {xs : List Bytes} {a a' : Agent} (h : Known m xs a) (hr : a.refresh m = some a') :
    Known m xs a' := by
  obtain ⟨ht, -⟩ := refresh_text m a a' hr
  refine ⟨by rw [ht]; exact h.text, ?_⟩
  unfold Agent.refresh at hr
  rcases refresh_cases henv m.host (m.file a) (m.file a) a.conf with hc | ⟨c', hc, hl⟩
  · rw [hc] at hr
    simp only [Option.some.injEq] at hr
    subst hr; exact h.conf
  · rw [hc] at hr
    simp only [Option.some.injEq] at hr
    subst hr
    refine ⟨_, ?_, hl.inEffect⟩
    unfold Machine.file
    split
    · exact Or.inl rfl
    · rename_i t x hx
      split
      · split
        · exact Or.inl rfl
        · rename_i p hp
          exact Or.inr ⟨x, h.text t x hx, p, hp, rfl⟩
      · exact Or.inl rfl

theorem Known.step {f : Floats} {m : Machine} (henv : WellFormedEnv m.env) {xs : List Bytes} {p q : State} (h : Known m xs p.agent) (e : Event)
    (hq : step f m p e = some q) : Known m (xs ++ written e) q.agent := by
  have keep : Known m (xs ++ written e) p.agent := h.mono fun x hx => List.mem_append_left _ hx
  have same : q.agent.text = p.agent.text → q.agent.conf = p.agent.conf → Known m (xs ++ written e) q.agent := fun h1 h2 =>
    ⟨by rw [h1]; exact keep.text, by rw [h2]; exact keep.conf⟩
  have hu : ∀ e' : Reload.Event, udpEvent p e' = some q → Known m (xs ++ written e) q.agent := by
    intro e hq
    unfold udpEvent at hq
    simp only at hq
    split at hq
    · simp at hq
    · simp only [Option.some.injEq] at hq
      subst hq
      exact keep
  cases e with
  | call now c =>
    simp only [Program.step] at hq
    split at hq
    · simp only [Option.some.injEq] at hq; subst hq; exact same rfl rfl
    · simp at hq
  | request cmd pack =>
    simp only [Program.step, Option.some.injEq] at hq
    subst hq
    show Known m (xs ++ written (.request cmd pack)) (handle m p.agent cmd pack).1
    by_cases hs : cmd = ascii "SET_CONFIGURE_WAS"
    · subst hs
      rw [handle_SET_CONFIGURE_WAS]
      have key : Known m (xs ++ written (.request (ascii "SET_CONFIGURE_WAS") pack)) (saveConfig m p.agent pack).2 := by
        unfold saveConfig
        split
        · rename_i pk
          extract_lets result text
          have htext : text ∈ xs ++ written (.request (ascii "SET_CONFIGURE_WAS") (.map pk)) := by
            refine List.mem_append_right _ ?_
            unfold written
            simp only [if_true, List.mem_singleton]
            rfl
          unfold saveConfigText
          by_cases hw : m.writable p.agent.requests = true
          · simp only [if_pos hw]
            have hk : Known m (xs ++ written (.request (ascii "SET_CONFIGURE_WAS") (.map pk)))
                { p.agent with text := some (m.mtime p.agent.requests, text) } :=
              ⟨fun t x hx => by simp only [Option.some.injEq, Prod.mk.injEq] at hx; exact hx.2 ▸ htext, keep.conf⟩
            split
            · exact hk
            · next a' hr => exact hk.refresh henv hr
          · simp only [if_neg hw]; exact keep
        · exact keep
      have hfin : ∀ (ys : List Bytes) (r : Agent × Tcp.Answer), Known m ys r.1 → Known m ys (finish r).1 := fun ys r h => ⟨h.text, h.conf⟩
      refine hfin _ _ ?_
      show Known m _ (match saveConfig m p.agent pack with
        | (some t, a) => ((a, withPack t) : Agent × Tcp.Answer)
        | (none, a) => ({ a with world := (recovered () TM.panic a.world).2 }, nothing)).1
      split <;> (next heq => rw [heq] at key; exact ⟨key.text, key.conf⟩)
    · obtain ⟨h1, h2, -⟩ := handle_other m p.agent cmd pack hs
      exact ⟨by rw [h2]; exact keep.text, by rw [h1]; exact keep.conf⟩
  | edit text =>
    simp only [Program.step, Option.some.injEq] at hq
    subst hq
    refine ⟨fun t x hx => ?_, keep.conf⟩
    simp only at hx
    subst hx
    simp [written]
  | refresh =>
    simp only [Program.step] at hq
    split at hq
    · simp at hq
    · rename_i a ha
      simp only [Option.some.injEq] at hq
      subst hq
      exact keep.refresh henv ha
  | announce =>
    simp only [Program.step] at hq
    unfold announce at hq
    split at hq
    · simp at hq
    · simp only [Option.some.injEq] at hq
      subst hq
      exact same rfl rfl
  | realTime s o t =>
    simp only [Program.step] at hq
    split at hq
    · simp at hq
    · simp only [Option.some.injEq] at hq; subst hq; exact same rfl rfl
  | fiveMin read average => simp only [Program.step, Option.some.injEq] at hq; subst hq; exact same rfl rfl
  | reload ok => exact hu _ hq
  | write ids a => exact hu _ hq
  | datagram i => exact hu _ hq

theorem Known.life {f : Floats} {m : Machine} (henv : WellFormedEnv m.env) (es : List Event) : ∀ {xs : List Bytes} {p q : State}, Known m xs p.agent →
    life f m p es = some q → Known m (xs ++ es.flatMap written) q.agent := by
  induction es with
  | nil => intro xs p q h hq; simp only [Program.life, Option.some.injEq] at hq; subst hq; simpa using h
  | cons e es ih =>
    intro xs p q h hq
    simp only [Program.life] at hq
    cases hs : Program.step f m p e with
    | none => rw [hs] at hq; simp at hq
    | some r =>
      rw [hs] at hq
      have := ih (h.step henv e hs) hq
      simpa [List.append_assoc] using this

theorem boot_known {m : Machine} (henv : WellFormedEnv m.env) {b : Boot} {p : State} {file : Option Props} (hf : Finds m b file) (h : boot m b = some p) :
    Known m (b.text.map (·.2)).toList p.agent := by
  obtain ⟨c, hc, he⟩ := boot_conf henv hf
  unfold boot at h
  split at h
  · simp at h
  · simp only [hc] at h
    split at h
    · simp at h
    · split at h
      · simp at h
      · unfold announce at h
        split at h
        · simp at h
        · simp only [Option.some.injEq] at h
          subst h
          refine ⟨fun t x hx => ?_, file, ?_, he⟩
          · have hx : b.text = some (t, x) := hx
            simp [hx]
          · rcases hf with ⟨-, rfl⟩ | ⟨t, text, content, ht, -, -, hp, rfl⟩
            · exact Or.inl rfl
            · exact Or.inr ⟨text, by simp [ht], content, hp, rfl⟩

/-- **C117**: however the program lives, after any history the tracing calls, the sampler and the sender work with the options of one file:
one whose text the configuration file has had, at the start, by an edit or by a request to save it, or none (then the environment and the
defaults decide). -/
theorem C117_governed (f : Floats) (m : Machine) (henv : WellFormedEnv m.env) (b : Boot) (file0 : Option Props) (hf : Finds m b file0) (p q : State)
    (hb : boot m b = some p) (es : List Event) (hes : ∀ now c, .call now (.conf c) ∉ es) (hq : life f m p es = some q) :
    ∃ file, (file = none ∨ ∃ x ∈ (b.text.map (·.2)).toList ++ es.flatMap written, ∃ props, m.parse x = some props ∧ file = some props) ∧
      Governed m file q := by
  obtain ⟨-, file, h1, h2⟩ := (boot_known henv hf hb).life henv es hq
  exact ⟨file, h1, governed (life_sound es (boot_sound hb) hq) (life_follows es (boot_sound hb) (boot_follows hb) hes hq) h2⟩

/-- **C117**: after a change of the file that can be read, is well-formed and has a later modification time, the next refresh puts its options
into effect, all of them at once for the calls that follow. -/
theorem C117_refresh_puts_into_effect (f : Floats) (m : Machine) (henv : WellFormedEnv m.env) (b : Boot) (p q : State)
    (hb : boot m b = some p) (es : List Event) (hq : life f m p es = some q)
    (time : Int) (text : Bytes) (props : Props) (hr : m.readable q.agent.requests = true) (hp : m.parse text = some props)
    (ht : q.agent.conf.lastModified < time) :
    ∃ q', life f m q [.edit (some (time, text)), .refresh] = some q' ∧ Governed m (some props) q' := by
  have hs := life_sound es (boot_sound hb) hq
  have hfile : m.file { q.agent with text := some (time, text) } = .good time props := by unfold Machine.file; simp [hr, hp]
  obtain ⟨c', hc, hl⟩ := refresh_loads henv m.host (f := .good time props) (g := .good time props) q.agent.conf
    (Or.inr ⟨time, rfl, ht⟩) (Or.inr ⟨time, _, rfl⟩)
  have hre : ∃ a', Agent.refresh m { q.agent with text := some (time, text) } = some a' ∧ a'.conf = c' := by
    unfold Agent.refresh
    rw [hfile]
    simp only [hc]
    exact ⟨_, rfl, rfl⟩
  obtain ⟨a', ha, rfl⟩ := hre
  have hl2 : life f m q [.edit (some (time, text)), .refresh] = some (retarget { q with agent := a' }) := by
    simp only [life, step, Option.bind_some]
    rw [ha]
    rfl
  refine ⟨_, hl2, governed (m := m) (life_sound _ hs hl2) ?_ hl.inEffect⟩
  exact touched_follows ha

/-! ## The hypotheses hold of a concrete life -/

namespace Demo
open Handlers.Demo

/-- A file that sets two limits, seen later. -/
def twoLimits : Props := fun k =>
  if k = ascii "trace_activeservice_yellow_time" then some (ascii "10")
  else if k = ascii "net_collector_udp_port" then some (ascii "77") else none

def limits : Machine := { machine with parse := fun _ => some twoLimits }

example : Finds limits booted none := Or.inl ⟨rfl, rfl⟩
example : WellFormedEnv limits.env := by decide +kernel
example : ∀ now c, Event.call now (.conf c) ∉ history := by simp [history]
example : ((boot limits booted).bind fun p => (life Scouter.Demo.floor limits p history).map fun q =>
    (limits.readable q.agent.requests, decide (q.agent.conf.lastModified < 60))) = some (true, true) := by decide +kernel
/-- What such a file sets. -/
example : (Options.tracing (fun k => effectiveText limits.env (limits.parse []) (ascii k)) limits.host).yellow = 10 ∧
    (Options.tracing (fun k => effectiveText limits.env (limits.parse []) (ascii k)) limits.host).red = 8000 ∧
    (Options.collector fun k => effectiveText limits.env (limits.parse []) (ascii k)) = ⟨ascii "127.0.0.1", 77, 60000⟩ := by
  decide +kernel

end Demo
end Program
end Scouter
