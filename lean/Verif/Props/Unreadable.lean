import Verif.Props.Conf
import Verif.Props.Handlers
/-!
# C93: a configuration file that cannot be read from the start
-/
namespace Scouter
open Config Spec

/-- The file is there but cannot be looked at, cannot be read, or is not well-formed. -/
def Unreadable (f : File) : Prop := f = .denied ∨ ∃ m, f = .bad m

/-- The file is unreadable throughout. -/
def FileEvent.Unreadable : FileEvent → Prop
  | .change f => Scouter.Unreadable f
  | .refresh f => Scouter.Unreadable f

/-- The value of a setting as the agent's code reads it: the zero value of its type where none was ever assigned. -/
def settingOf (c : Configure) (r : Row) : Setting :=
  match r.reading with
  | .bool _ => .bool (c.boolAt r.field)
  | .int _ => .int (c.intAt r.field)
  | .int32 _ => .int32 (c.int32At r.field)
  | .text _ _ => .text (c.textAt r.field)

/-- The numbers of the sampling options: thresholds and rates. -/
def samplingNumbers : List Bytes :=
  ["xlog_sampling", "xlog_patterned_sampling", "xlog_patterned2_sampling", "xlog_patterned3_sampling"].flatMap fun p =>
    ["_step1_ms", "_step1_rate_pct", "_step2_ms", "_step2_rate_pct", "_step3_ms", "_step3_rate_pct", "_over_rate_pct"].map fun q => ascii (p ++ q)

/-- **C93**: as long as the file is unreadable, no refresh has any effect, whatever the environment says: the configuration is the one
the agent was compiled with, and no observer has been told of any. -/
theorem C93_unreadable_file_has_no_effect (env : List Bytes) (henv : WellFormedEnv env) (host : Option Bytes) (f : File) (hf : Unreadable f)
    (es : List FileEvent) (he : ∀ e ∈ es, FileEvent.Unreadable e) :
    ∃ w, Site.run env host ⟨f, fresh⟩ es = some w ∧ w.conf = fresh ∧ w.conf.confRuns = 0 ∧ w.conf.objRuns = 0 := by
  suffices h : ∀ (es : List FileEvent) (f : File), Unreadable f → (∀ e ∈ es, FileEvent.Unreadable e) →
      ∃ w, Site.run env host ⟨f, fresh⟩ es = some w ∧ w.conf = fresh by
    obtain ⟨w, h1, h2⟩ := h es f hf he
    exact ⟨w, h1, h2, by rw [h2]; rfl, by rw [h2]; rfl⟩
  intro es
  induction es with
  | nil => intro f _ _; exact ⟨_, rfl, rfl⟩
  | cons e es ih =>
    intro f hf he
    have h1 := he e (by simp)
    have h2 := fun e h => he e (List.mem_cons_of_mem _ h)
    cases e with
    | change g =>
      obtain ⟨w, e1, e2⟩ := ih g h1 h2
      exact ⟨w, by simp only [Site.run, Site.step, Option.bind_some]; exact e1, e2⟩
    | refresh g =>
      obtain ⟨w, e1, e2⟩ := ih g h1 h2
      refine ⟨w, ?_, e2⟩
      simp only [Site.run, Site.step]
      rw [refresh_keeps henv host fresh (Or.inr h1)]
      exact e1

/-- **C93**: in that configuration every setting has its documented default, except the thresholds and rates of the sampling options,
which are 0 and do not matter because all sampling is off. -/
theorem C93_settings_without_a_file :
    (∀ r ∈ rows, r.key ∉ samplingNumbers → settingOf fresh r = meaning r.reading none) ∧ NoSampling fresh.traceConf.sample := by
  refine ⟨by decide +kernel, ?_⟩
  unfold NoSampling
  decide +kernel

/-- **C93**: but the object has neither name nor type, and its hash is 0: transaction logs carry the hash 0, and the object announced is
nameless, on every host alike, and no text is sent for it. -/
theorem C93_nameless_object (m : Handlers.Machine) (a : Handlers.Agent) (h : a.conf = fresh) :
    fresh.objName = [] ∧ fresh.traceConf.objHash = 0 ∧ fresh.traceConf.objType = [] ∧
    (Handlers.Agent.step m a .announce).world.proxy.direct = a.world.proxy.direct ++
      [.object { objType := [], objHash := 0, objName := [], address := [], version := ascii "0.0.0", alive := true, wakeup := 0, tags := [] }] ∧
    (Handlers.Agent.step m a .announce).world.proxy.offered = a.world.proxy.offered := by
  refine ⟨rfl, rfl, rfl, ?_, ?_⟩
  · show (Handlers.Agent.announce a).world.proxy.direct = _
    unfold Handlers.Agent.announce
    rw [h]
    rfl
  · show (Handlers.Agent.announce a).world.proxy.offered = _
    unfold Handlers.Agent.announce
    rw [h]
    rfl

/-- **C93**: the first refresh that finds a readable file (of a positive modification time), or none at all, puts it in effect, and the
object gets its name and its hash. -/
theorem C93_recovers (env : List Bytes) (henv : WellFormedEnv env) (host : Option Bytes) (f : File) (hf : Unreadable f)
    (es : List FileEvent) (he : ∀ e ∈ es, FileEvent.Unreadable e) (m : Int) (hm : 0 < m) (content : Props) :
    ∃ w, Site.run env host ⟨f, fresh⟩ es = some w ∧
      (∃ c, refresh env host (.good m content) (.good m content) w.conf = some c ∧ InEffect env host (some content) c ∧ c.objName ≠ []) ∧
      (∃ c, refresh env host .absent .absent w.conf = some c ∧ InEffect env host none c ∧ c.objName ≠ []) := by
  obtain ⟨w, h1, h2, -⟩ := C93_unreadable_file_has_no_effect env henv host f hf es he
  obtain ⟨⟨c1, r1, i1⟩, ⟨c2, r2, i2⟩⟩ := C48_precedence env henv host w.conf m content (by rw [h2]; exact hm)
  refine ⟨w, h1, ⟨c1, r1, i1, ?_⟩, ⟨c2, r2, i2, ?_⟩⟩
  · rw [i1.objName]; simp [ascii]
  · rw [i2.objName]; simp [ascii]

/-- A file with a mistake in it, edited once more without success. -/
example : Unreadable (.bad 5) ∧ ∀ e ∈ [FileEvent.refresh (.bad 5), .change (.bad 9), .refresh .denied], FileEvent.Unreadable e := by
  simp [Unreadable, FileEvent.Unreadable]

/-- 28 of the settings are numbers of sampling; the other 33 are covered. -/
example : (rows.filter fun r => r.key ∈ samplingNumbers).length = 28 ∧ (rows.filter fun r => ¬ r.key ∈ samplingNumbers).length = 33 := by
  decide +kernel

end Scouter
