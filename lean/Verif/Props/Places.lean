import Verif.Model.Places
import Verif.Props.Conf
import Verif.Props.Dump
/-!
# C94: where the agent's files are
-/
namespace Scouter
namespace Places
open Dump Config Spec

/-! ## Specification -/

/-- The agent's directory: the one named by SCOUTER_AGENT_HOME; without it the directory "scouter" in the working directory, or in the
directory for temporary files if there is no working directory. -/
def home (s : Surroundings) : Path :=
  if getenv s.env (ascii "SCOUTER_AGENT_HOME") ≠ [] then path (getenv s.env (ascii "SCOUTER_AGENT_HOME"))
  else ⟨(s.cwd.getD s.temp).rooted, (s.cwd.getD s.temp).parts ++ [ascii "scouter"]⟩

/-- Something in a directory. -/
def within (dir : Path) (names : List String) : Path := ⟨dir.rooted, dir.parts ++ names.map ascii⟩

/-- The surroundings are ordinary: the working directory and the directory for temporary files are absolute paths without "..". -/
structure Surroundings.Ordinary (s : Surroundings) : Prop where
  cwd : ∀ p, s.cwd = some p → p.rooted = true ∧ p.Good
  temp : s.temp.rooted = true ∧ s.temp.Good

/-! ## Proof -/

theorem ordinary_ascii : ∀ n ∈ ["conf", "scouter.conf", "dump", "binary_dump", "logs", "scouter.log", "scouter"],
    ascii n ≠ [] ∧ ascii n ≠ ascii "." ∧ ascii n ≠ ascii ".." ∧ (47 : Byte) ∉ ascii n ∧ splitByte 47 (ascii n) = [ascii n] := by
  decide +kernel

theorem foldl_good (rooted : Bool) (es kept : List Bytes) (h : ∀ e ∈ es, Dump.Ordinary e) :
    es.foldl (cleanStep rooted) kept = es.reverse ++ kept := by
  induction es generalizing kept with
  | nil => rfl
  | cons e es ih =>
    obtain ⟨h1, h2, h3, h4⟩ := h e (by simp)
    rw [List.foldl_cons, ih _ fun e he => h e (List.mem_cons_of_mem _ he)]
    simp [cleanStep, h1, h2, h3]

theorem clean_good (rooted : Bool) (es : List Bytes) (h : ∀ e ∈ es, Dump.Ordinary e) : clean rooted es = ⟨rooted, es⟩ := by
  unfold clean
  rw [foldl_good rooted es [] h]
  simp

theorem join_known {dir : Path} (hd : dir.Good) {n : String}
    (hn : n ∈ ["conf", "scouter.conf", "dump", "binary_dump", "logs", "scouter.log", "scouter"]) :
    join dir (ascii n) = ⟨dir.rooted, dir.parts ++ [ascii n]⟩ ∧ (⟨dir.rooted, dir.parts ++ [ascii n]⟩ : Path).Good := by
  obtain ⟨h1, h2, h3, h4, h5⟩ := ordinary_ascii n hn
  have hg : ∀ e ∈ dir.parts ++ [ascii n], Dump.Ordinary e := by
    intro e he
    rcases List.mem_append.1 he with he | he
    · exact hd e he
    · rw [List.mem_singleton] at he
      subst he
      exact ⟨h1, h2, h3, h4⟩
  unfold join
  rw [h5]
  exact ⟨clean_good _ _ hg, hg⟩

theorem getScouterPath_home (s : Surroundings) (hs : s.Ordinary) : getScouterPath s = home s := by
  unfold getScouterPath home
  by_cases h : getenv s.env (ascii "SCOUTER_AGENT_HOME") = []
  · rw [if_neg (not_not.2 h)]
    simp only [h, if_pos, getAppPath]
    have hg : (s.cwd.getD s.temp).Good := by
      cases hc : s.cwd with
      | none => exact hs.temp.2
      | some p => exact (hs.cwd p hc).2
    exact (join_known hg (by decide)).1
  · rw [if_pos h]
    simp [h]

/-! ## C94 -/

/-- **C94**: the configuration file is the one named by SCOUTER_CONFIG; without it the one named by scouter.config; without either
conf/scouter.conf in the agent's directory.  Dumps, profiles and the log are in their own directories there. -/
theorem C94_places (s : Surroundings) (hs : s.Ordinary) (hg : (home s).Good) :
    getConfFilePath s = (if getenv s.env (ascii "SCOUTER_CONFIG") ≠ [] then path (getenv s.env (ascii "SCOUTER_CONFIG"))
      else if getenv s.env (ascii "scouter.config") ≠ [] then path (getenv s.env (ascii "scouter.config"))
      else within (home s) ["conf", "scouter.conf"]) ∧
    getDumpPath s = within (home s) ["dump"] ∧ getBinaryDumpPath s = within (home s) ["binary_dump"] ∧
    getLogFile s = within (home s) ["logs", "scouter.log"] := by
  have two : ∀ a b, a ∈ ["conf", "scouter.conf", "dump", "binary_dump", "logs", "scouter.log", "scouter"] →
      b ∈ ["conf", "scouter.conf", "dump", "binary_dump", "logs", "scouter.log", "scouter"] →
      join (join (home s) (ascii a)) (ascii b) = within (home s) [a, b] := by
    intro a b ha hb
    obtain ⟨e1, g1⟩ := join_known hg ha
    rw [e1, (join_known g1 hb).1]
    simp [within]
  refine ⟨?_, ?_, ?_, ?_⟩
  · unfold getConfFilePath
    rw [getScouterPath_home s hs, two "conf" "scouter.conf" (by decide) (by decide)]
    by_cases h1 : getenv s.env (ascii "SCOUTER_CONFIG") = []
    · by_cases h2 : getenv s.env (ascii "scouter.config") = []
      · simp [h1, h2]
      · simp [h1, h2]
    · simp [h1]
  · unfold getDumpPath
    rw [getScouterPath_home s hs, (join_known hg (by decide)).1]; rfl
  · unfold getBinaryDumpPath
    rw [getScouterPath_home s hs, (join_known hg (by decide)).1]; rfl
  · unfold getLogFile
    rw [getScouterPath_home s hs, two "logs" "scouter.log" (by decide) (by decide)]

theorem within_apart {dir : Path} {a b : String} {as bs : List String} (h : ascii a ≠ ascii b) :
    ¬ Inside (within dir (a :: as)) (within dir (b :: bs)) := by
  rintro ⟨-, x, hx⟩
  simp only [within, List.append_assoc, List.append_cancel_left_eq, List.map_cons, List.cons_append, List.cons.injEq] at hx
  exact h hx.1.symm

/-- **C94**: unless a variable puts it elsewhere, no request for a dump file or a profile (without ".." in the name) reads, downloads or
deletes the configuration file or the log file, and dumps and profiles are not mixed up. -/
theorem C94_dump_requests_stay_off_other_files (s : Surroundings) (hs : s.Ordinary) (hg : (home s).Good)
    (h1 : getenv s.env (ascii "SCOUTER_CONFIG") = []) (h2 : getenv s.env (ascii "scouter.config") = []) (name : Bytes) (hn : NoDotDot name) :
    join (getDumpPath s) name ≠ getConfFilePath s ∧ join (getDumpPath s) name ≠ getLogFile s ∧
    join (getBinaryDumpPath s) name ≠ getConfFilePath s ∧ join (getBinaryDumpPath s) name ≠ getLogFile s ∧
    ∀ name', NoDotDot name' → join (getDumpPath s) name ≠ join (getBinaryDumpPath s) name' := by
  obtain ⟨e1, e2, e3, e4⟩ := C94_places s hs hg
  rw [if_neg (not_not.2 h1), if_neg (not_not.2 h2)] at e1
  have good : ∀ n ∈ ["conf", "scouter.conf", "dump", "binary_dump", "logs", "scouter.log", "scouter"], (within (home s) [n]).Good := by
    intro n hn
    exact (join_known hg hn).2
  have i1 := join_inside (getDumpPath s) name (by rw [e2]; exact good _ (by decide)) hn
  have i2 : ∀ name, NoDotDot name → Inside (getBinaryDumpPath s) (join (getBinaryDumpPath s) name) := fun name hn =>
    join_inside _ name (by rw [e3]; exact good _ (by decide)) hn
  rw [e2] at i1
  have i3 := i2 name hn
  refine ⟨fun e => ?_, fun e => ?_, fun e => ?_, fun e => ?_, fun name' hn' e => ?_⟩
  · rw [← e2, e, e1, e2] at i1; exact within_apart (by decide) i1
  · rw [← e2, e, e4, e2] at i1; exact within_apart (by decide) i1
  · rw [e, e1, e3] at i3; exact within_apart (by decide) i3
  · rw [e, e4, e3] at i3; exact within_apart (by decide) i3
  · have i4 := i2 name' hn'
    rw [← e, e3] at i4
    obtain ⟨-, x, hx⟩ := i1
    obtain ⟨-, y, hy⟩ := i4
    rw [e2] at hy
    rw [hx] at hy
    simp only [within, List.append_assoc, List.append_cancel_left_eq, List.map_cons, List.map_nil, List.cons_append, List.nil_append, List.cons.injEq] at hy
    exact absurd hy.1 (by decide)

/-- **C94**: with the configuration file or the agent's directory named by an absolute path, the program may change its working directory
as it likes: the agent always looks at the same file. -/
theorem C94_absolute_path_stays (s s' : Surroundings) (he : s'.env = s.env)
    (h : (path (getenv s.env (ascii "SCOUTER_CONFIG"))).rooted = true ∧ getenv s.env (ascii "SCOUTER_CONFIG") ≠ [] ∨
      getenv s.env (ascii "SCOUTER_CONFIG") = [] ∧ getenv s.env (ascii "scouter.config") = [] ∧
        getenv s.env (ascii "SCOUTER_AGENT_HOME") ≠ [] ∧ (path (getenv s.env (ascii "SCOUTER_AGENT_HOME"))).rooted = true) :
    resolve s' (getConfFilePath s') = resolve s (getConfFilePath s) := by
  rcases h with ⟨h1, h2⟩ | ⟨h1, h2, h3, h4⟩
  · have e : ∀ t : Surroundings, t.env = s.env → resolve t (getConfFilePath t) = path (getenv s.env (ascii "SCOUTER_CONFIG")) := by
      intro t ht
      unfold getConfFilePath resolve
      simp [ht, h2, h1]
    rw [e s' he, e s rfl]
  · have e : ∀ t : Surroundings, t.env = s.env → resolve t (getConfFilePath t) =
        join (join (path (getenv s.env (ascii "SCOUTER_AGENT_HOME"))) (ascii "conf")) (ascii "scouter.conf") := by
      intro t ht
      unfold getConfFilePath resolve getScouterPath
      have hr : (join (join (path (getenv s.env (ascii "SCOUTER_AGENT_HOME"))) (ascii "conf")) (ascii "scouter.conf")).rooted = true := h4
      simp [ht, h1, h2, h3, hr]
    rw [e s' he, e s rfl]

/-- The changes of the working directory left out. -/
def withoutChdir (es : List Event) : List Event := es.filter fun e => match e with | .chdir _ => false | _ => true

/-- **C94**: so in that case the configuration is, at every moment, what it would be without any change of the working directory. -/
theorem C94_chdir_immaterial (env : List Bytes) (host : Option Bytes) (temp : Path)
    (h : (path (getenv env (ascii "SCOUTER_CONFIG"))).rooted = true ∧ getenv env (ascii "SCOUTER_CONFIG") ≠ [] ∨
      getenv env (ascii "SCOUTER_CONFIG") = [] ∧ getenv env (ascii "scouter.config") = [] ∧
        getenv env (ascii "SCOUTER_AGENT_HOME") ≠ [] ∧ (path (getenv env (ascii "SCOUTER_AGENT_HOME"))).rooted = true)
    (es : List Event) (w : Site) :
    (w.run env host temp es).map Site.conf = (w.run env host temp (withoutChdir es)).map Site.conf := by
  suffices hs : ∀ (es : List Event) (w w' : Site), w'.files = w.files → w'.conf = w.conf →
      (w.run env host temp es).map Site.conf = (w'.run env host temp (withoutChdir es)).map Site.conf from hs es w w rfl rfl
  intro es
  induction es with
  | nil => intro w w' _ hc; simp [withoutChdir, Site.run, hc]
  | cons e es ih =>
    intro w w' hf hc
    cases e with
    | chdir p => exact ih { w with cwd := p } w' hf hc
    | change p f =>
      show (Site.run env host temp { w with files := _ } es).map _ = (Site.run env host temp { w' with files := _ } (withoutChdir es)).map _
      exact ih _ _ (by simp only [hf]) hc
    | refresh =>
      have hp : w'.confFile env temp = w.confFile env temp :=
        C94_absolute_path_stays (w.surroundings env temp) (w'.surroundings env temp) rfl h
      show ((w.step env host temp .refresh).bind fun w => w.run env host temp es).map _ =
        ((w'.step env host temp .refresh).bind fun w => w.run env host temp (withoutChdir es)).map _
      simp only [Site.step, hp, hf, hc]
      cases hr : Config.refresh env host (w.files (w.confFile env temp)) (w.files (w.confFile env temp)) w.conf with
      | none => rfl
      | some c =>
        simp only [Option.map_some, Option.bind_some]
        exact ih _ _ rfl rfl

/-- Where the file is looked for when no variable is set. -/
theorem confFile_default (env : List Bytes) (temp : Path) (w : Site) (hw : w.cwd.rooted = true ∧ w.cwd.Good) (ht : temp.rooted = true ∧ temp.Good)
    (h1 : getenv env (ascii "SCOUTER_CONFIG") = []) (h2 : getenv env (ascii "scouter.config") = [])
    (h3 : getenv env (ascii "SCOUTER_AGENT_HOME") = []) :
    w.confFile env temp = within w.cwd ["scouter", "conf", "scouter.conf"] := by
  have hs : (w.surroundings env temp).Ordinary := by
    refine ⟨fun p hp => ?_, ht⟩
    have : w.cwd = p := by simpa [Site.surroundings] using hp
    rw [← this]; exact hw
  have hh : home (w.surroundings env temp) = ⟨w.cwd.rooted, w.cwd.parts ++ [ascii "scouter"]⟩ := by
    unfold home Site.surroundings
    rw [if_neg (not_not.2 h3)]; rfl
  have hg : (home (w.surroundings env temp)).Good := by rw [hh]; exact (join_known hw.2 (n := "scouter") (by decide)).2
  have := (C94_places _ hs hg).1
  simp only [show (w.surroundings env temp).env = env from rfl] at this
  rw [if_neg (not_not.2 h1), if_neg (not_not.2 h2), hh] at this
  unfold Site.confFile
  rw [this]
  unfold resolve within
  simp [hw.1]

/-- **C94**, in general false: without these variables a program that changes its working directory loses its configuration at the next
refresh (the environment alone is in effect), and gets it back neither by returning nor by waiting: the file has no later modification
time than the one loaded before. -/
theorem C94_chdir_loses_configuration (env : List Bytes) (henv : WellFormedEnv env) (host : Option Bytes) (temp : Path)
    (ht : temp.rooted = true ∧ temp.Good) (h1 : getenv env (ascii "SCOUTER_CONFIG") = []) (h2 : getenv env (ascii "scouter.config") = [])
    (h3 : getenv env (ascii "SCOUTER_AGENT_HOME") = []) (dir other : Path) (hd : dir.rooted = true ∧ dir.Good)
    (ho : other.rooted = true ∧ other.Good) (m : Int) (hm : 0 < m) (content : Props) (w : Site) (hw : w.cwd = dir) (hc : w.conf = fresh)
    (hf : w.files (within dir ["scouter", "conf", "scouter.conf"]) = .good m content)
    (hf' : w.files (within other ["scouter", "conf", "scouter.conf"]) = .absent) (n : Nat) :
    (∃ w1, w.run env host temp [.refresh] = some w1 ∧ InEffect env host (some content) w1.conf) ∧
    (∃ w2, w.run env host temp [.refresh, .chdir other, .refresh] = some w2 ∧ InEffect env host none w2.conf) ∧
    (∃ w3, w.run env host temp ([.refresh, .chdir other, .refresh, .chdir dir] ++ List.replicate n .refresh) = some w3 ∧
      InEffect env host none w3.conf) := by
  have place : ∀ (x : Site) (d : Path), x.cwd = d → d.rooted = true ∧ d.Good → x.confFile env temp = within d ["scouter", "conf", "scouter.conf"] := by
    intro x d hx hd
    subst hx
    exact confFile_default env temp x hd ht h1 h2 h3
  obtain ⟨c1, hr1, hl1⟩ := refresh_loads henv host (f := .good m content) (g := .good m content) fresh
    (Or.inr ⟨m, rfl, hm⟩) (Or.inr ⟨m, content, rfl⟩)
  obtain ⟨c2, hr2, hl2⟩ := refresh_loads henv host (f := .absent) (g := .absent) c1 (Or.inl rfl) (Or.inl rfl)
  have ht2 : c2.lastModified = m := by rw [hl2.time, hl1.time]; rfl
  have s1 : w.step env host temp .refresh = some { w with conf := c1 } := by
    simp only [Site.step, place w dir hw hd, hf, hc, hr1, Option.map_some]
  have s2 : Site.step env host temp { w with conf := c1, cwd := other } .refresh = some { w with conf := c2, cwd := other } := by
    simp only [Site.step]
    rw [place { w with conf := c1, cwd := other } other rfl ho]
    simp only [hf', hr2, Option.map_some]
  have s3 : Site.step env host temp { w with conf := c2, cwd := dir } .refresh = some { w with conf := c2, cwd := dir } := by
    simp only [Site.step]
    rw [place { w with conf := c2, cwd := dir } dir rfl hd]
    simp only [hf]
    rw [refresh_keeps henv host (f := .good m content) (g := .good m content) c2 (Or.inl (Or.inr ⟨m, rfl, by omega⟩))]
    rfl
  have r3 : ∀ n, Site.run env host temp { w with conf := c2, cwd := dir } (List.replicate n .refresh) = some { w with conf := c2, cwd := dir } := by
    intro n
    induction n with
    | zero => rfl
    | succ n ih => rw [List.replicate_succ]; simp only [Site.run, s3, Option.bind_some]; exact ih
  have r1 : w.run env host temp [.refresh] = some { w with conf := c1 } := by simp only [Site.run, s1, Option.bind_some]
  have r2 : w.run env host temp [.refresh, .chdir other, .refresh] = some { w with conf := c2, cwd := other } := by
    simp only [Site.run, s1, Option.bind_some]
    have : Site.step env host temp { w with conf := c1 } (.chdir other) = some { w with conf := c1, cwd := other } := rfl
    rw [this, Option.bind_some, s2, Option.bind_some]
  have r4 : w.run env host temp ([.refresh, .chdir other, .refresh, .chdir dir] ++ List.replicate n .refresh) =
      some { w with conf := c2, cwd := dir } := by
    simp only [List.cons_append, List.nil_append, Site.run, s1, Option.bind_some]
    have : Site.step env host temp { w with conf := c1 } (.chdir other) = some { w with conf := c1, cwd := other } := rfl
    rw [this, Option.bind_some, s2, Option.bind_some]
    have : Site.step env host temp { w with conf := c2, cwd := other } (.chdir dir) = some { w with conf := c2, cwd := dir } := rfl
    rw [this, Option.bind_some]
    exact r3 n
  exact ⟨⟨_, r1, hl1.inEffect⟩, ⟨_, r2, hl2.inEffect⟩, ⟨_, r4, hl2.inEffect⟩⟩

/-- **C94**: starting the agent ends the program exactly if the log file in the agent's directory cannot be opened. -/
theorem C94_start_needs_log_file (s : Surroundings) (hs : s.Ordinary) (hg : (home s).Good) (hr : (home s).rooted = true) (canOpen : Path → Bool) :
    loggerInit s canOpen = canOpen (within (home s) ["logs", "scouter.log"]) := by
  unfold loggerInit
  rw [(C94_places s hs hg).2.2.2]
  unfold resolve within
  simp [hr]

/-! ## Concrete cases -/

namespace Demo

/-- An environment without the agent's variables, and one with SCOUTER_AGENT_HOME (its value has a '=' in it, which stays). -/
def plainEnv : List Bytes := [ascii "PATH=/bin", ascii "HOME=/root"]
def homeEnv : List Bytes := [ascii "PATH=/bin", ascii "SCOUTER_AGENT_HOME=/opt/a=b/../agent"]

example : getenv homeEnv (ascii "SCOUTER_AGENT_HOME") = ascii "/opt/a=b/../agent" ∧
    path (getenv homeEnv (ascii "SCOUTER_AGENT_HOME")) = ⟨true, [ascii "opt", ascii "agent"]⟩ := by decide +kernel

/-- Programs in /srv/app: the configuration is /srv/app/scouter/conf/scouter.conf, or /opt/agent/conf/scouter.conf. -/
example : getConfFilePath ⟨plainEnv, some ⟨true, [ascii "srv", ascii "app"]⟩, ⟨true, [ascii "tmp"]⟩⟩ =
      ⟨true, [ascii "srv", ascii "app", ascii "scouter", ascii "conf", ascii "scouter.conf"]⟩ ∧
    getConfFilePath ⟨homeEnv, some ⟨true, [ascii "srv", ascii "app"]⟩, ⟨true, [ascii "tmp"]⟩⟩ =
      ⟨true, [ascii "opt", ascii "agent", ascii "conf", ascii "scouter.conf"]⟩ := by decide +kernel

/-- The hypotheses of `C94_places` and of `C94_chdir_loses_configuration` on the environment and the directories are met. -/
example : WellFormedEnv plainEnv ∧ getenv plainEnv (ascii "SCOUTER_CONFIG") = [] ∧ getenv plainEnv (ascii "scouter.config") = [] ∧
    getenv plainEnv (ascii "SCOUTER_AGENT_HOME") = [] ∧ (⟨true, [ascii "srv", ascii "app"]⟩ : Path).Good ∧ (⟨true, []⟩ : Path).Good := by
  unfold WellFormedEnv Path.Good Dump.Ordinary
  decide +kernel

end Demo

end Places
end Scouter
