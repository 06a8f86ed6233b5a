import Verif.Model.Dump
import Verif.Model.Conf
/-!
# Where the agent keeps its files (scouterx/common/util/osutil.go, configure.go:168-181, dump.go:192-204, logger.go:12-20)

Every one of these functions reads the environment and the working directory anew at each call.  `filepath.Join` cleans the
path; a path given in a variable is looked at as the system looks at it, which for a tree without links is the cleaned path.
-/
namespace Scouter
namespace Places
open Dump Config

/-- `os.Getenv`: what follows the first '=' of the entry with this name; the empty text when there is none.  Library os;
configure.go:169-171, osutil.go:11 and :23. -/
def getenv (env : List Bytes) (k : Bytes) : Bytes :=
  match env.find? fun e => (e.takeWhile (· ≠ 61)) = k with
  | some e => (e.dropWhile (· ≠ 61)).drop 1
  | none => []

/-- The path written by a text.  Library path/filepath (`Clean`); osutil.go:22-33, configure.go:168-181. -/
def path (t : Bytes) : Path := clean (t.head? = some 47) (splitByte 47 t)

/-- What the functions depend on: the environment, the working directory (`none`: `os.Getwd` fails) and `os.TempDir()`.
   Library os; osutil.go:10-33. -/
structure Surroundings where
  env : List Bytes
  cwd : Option Path
  temp : Path

/-- `GetAppPath`, osutil.go:10-20; `none`: its error. -/
def getAppPath (s : Surroundings) : Option Path :=
  let c := getenv s.env (ascii "SCOUTER_AGENT_HOME")
  if c = [] then s.cwd else some (path c)

/-- `GetScouterPath`, osutil.go:22-33. -/
def getScouterPath (s : Surroundings) : Path :=
  let scouterPath := getenv s.env (ascii "SCOUTER_AGENT_HOME")
  if scouterPath = [] then
    let appPath := (getAppPath s).getD s.temp
    join appPath (ascii "scouter")
  else path scouterPath

/-- `getConfFilePath`, configure.go:168-181. -/
def getConfFilePath (s : Surroundings) : Path :=
  let f := getenv s.env (ascii "SCOUTER_CONFIG")
  let f := if f = [] then getenv s.env (ascii "scouter.config") else f
  if f = [] then join (join (getScouterPath s) (ascii "conf")) (ascii "scouter.conf") else path f

/-- `getDumpPath`, dump.go:192-197. -/
def getDumpPath (s : Surroundings) : Path := join (getScouterPath s) (ascii "dump")

/-- `getBinaryDumpPath`, dump.go:199-204. -/
def getBinaryDumpPath (s : Surroundings) : Path := join (getScouterPath s) (ascii "binary_dump")

/-- The log file, logger.go:13-16. -/
def getLogFile (s : Surroundings) : Path := join (join (getScouterPath s) (ascii "logs")) (ascii "scouter.log")

/-- The file meant by a path, seen from the working directory.  Library os; configure.go:214-215. -/
def resolve (s : Surroundings) (p : Path) : Path :=
  if p.rooted then p else clean true ((s.cwd.getD s.temp).parts ++ p.parts)

/-- `logger.Init`, logger.go:12-25: `log.Fatalln` ends the program when the log file cannot be opened. -/
def loggerInit (s : Surroundings) (canOpen : Path → Bool) : Bool := canOpen (resolve s (getLogFile s))

/-- The machine and the agent's configuration.  configure.go:210-260, with files at any path. -/
structure Site where
  cwd : Path
  files : Path → File
  conf : Configure

/-- Something that happens: the program changes its working directory (`os.Chdir`), a file changes, a refresh.
   Library os; configure.go:161-166. -/
inductive Event where
  | chdir (p : Path)
  | change (p : Path) (f : File)
  | refresh

/-- The surroundings of the agent.  Library os; osutil.go:10-33. -/
def Site.surroundings (env : List Bytes) (temp : Path) (w : Site) : Surroundings := ⟨env, some w.cwd, temp⟩

/-- The file `Refresh` looks at, configure.go:214-215 and :234. -/
def Site.confFile (env : List Bytes) (temp : Path) (w : Site) : Path :=
  resolve (w.surroundings env temp) (getConfFilePath (w.surroundings env temp))

/-- One event; `none`: the panic of a refresh.  configure.go:210-260. -/
def Site.step (env : List Bytes) (host : Option Bytes) (temp : Path) (w : Site) : Event → Option Site
  | .chdir p => some { w with cwd := p }
  | .change p f => some { w with files := fun q => if q = p then f else w.files q }
  | .refresh =>
    let f := w.files (w.confFile env temp)
    (Config.refresh env host f f w.conf).map fun c => { w with conf := c }

/-- A history of events.  Model only: configure.go:161-166 with what happens meanwhile. -/
def Site.run (env : List Bytes) (host : Option Bytes) (temp : Path) (w : Site) : List Event → Option Site
  | [] => some w
  | e :: es => (w.step env host temp e).bind fun w => w.run env host temp es

end Places
end Scouter
