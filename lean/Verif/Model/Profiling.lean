import Verif.Model.Dump
/-!
# Profiles taken on request (scouterx/dump/dump.go:85-189, netio/tcpclient/handlers.go:176-214)

A request starts a goroutine that takes a profile for thirty seconds and writes it to a file.  Any number of them may be under
way; a schedule says when each goroutine begins and when it finishes, and the application may use the same switches of the Go
runtime.  `os.Create` succeeds and the profiles exist (their absence would be a nil panic in a goroutine).  A CPU profile is
written to its file when it is stopped.
-/
namespace Scouter
namespace Profiling
open Dump

/-- The profiles a collector may ask for.  handlers.go:176-214. -/
inductive Kind where
  | cpu | block | blockBinary | mutex | mutexBinary
deriving DecidableEq, Repr

/-- The command of each: handlers.go:69-110. -/
def kindOf (cmd : Bytes) : Option Kind :=
  if cmd = ascii "OBJECT_CALL_CPU_PROFILE" then some .cpu
  else if cmd = ascii "TRIGGER_BLOCK_PROFILE" then some .block
  else if cmd = ascii "OBJECT_CALL_BLOCK_PROFILE" then some .blockBinary
  else if cmd = ascii "TRIGGER_MUTEX_PROFILE" then some .mutex
  else if cmd = ascii "OBJECT_CALL_MUTEX_PROFILE" then some .mutexBinary
  else none

/-- The switches of the Go runtime: the block profile rate (0: off), the mutex profile fraction, and whether a CPU profile is
being taken.  Library runtime, runtime/pprof; dump.go:93-189. -/
structure Runtime where
  blockRate : Int
  mutexFraction : Int
  cpu : Bool
deriving DecidableEq, Repr

/-- `runtime.SetBlockProfileRate`: not positive turns it off.  Library runtime; dump.go:127-128. -/
def Runtime.setBlock (r : Runtime) (rate : Int) : Runtime := { r with blockRate := if rate ≤ 0 then 0 else rate }

/-- `runtime.SetMutexProfileFraction`: a negative one changes nothing; the old one is returned.  Library runtime; dump.go:168-169. -/
def Runtime.setMutex (r : Runtime) (rate : Int) : Int × Runtime :=
  (r.mutexFraction, if rate < 0 then r else { r with mutexFraction := rate })

/-- Where the goroutine of a profile is; `running old`: it is asleep, and `old` is the mutex fraction it found.  dump.go:93-189. -/
inductive Phase where
  | asked
  | running (old : Int)
  | over
deriving DecidableEq, Repr

/-- A profile that was asked for.  dump.go:85-189. -/
structure Job where
  kind : Kind
  file : Path
  phase : Phase
deriving DecidableEq, Repr

/-- All there is.  Model only: the runtime, the files and the goroutines of dump.go:85-189. -/
structure State where
  rt : Runtime
  fs : FS
  jobs : List Job := []

/-- `os.Create` and writing: the file has this content afterwards.  Library os; dump.go:94, :134, :174. -/
def put (fs : FS) (p : Path) (content : Bytes) : FS := (p, .file content) :: fs.filter fun e => e.1 ≠ p

/-- The name of the file: dump.go:86, :111, :119, :153, :160. -/
def fileName (dumpDir binaryDir : Path) (stamp : Bytes) : Kind → Path
  | .cpu => join binaryDir (ascii "go_cpu_" ++ stamp ++ ascii "." ++ suffix)
  | .block => join dumpDir (ascii "go_block_" ++ stamp ++ ascii ".log")
  | .blockBinary => join binaryDir (ascii "go_block_" ++ stamp ++ ascii "." ++ suffix)
  | .mutex => join dumpDir (ascii "go_mutex_" ++ stamp ++ ascii ".log")
  | .mutexBinary => join binaryDir (ascii "go_mutex_" ++ stamp ++ ascii "." ++ suffix)

/-- What happens: a request of the collector at a second of the clock, the goroutine of the `i`-th profile begins, it finishes
(with what the profile writes), or the application sets the switches itself.  dump.go:85-189; the schedule is the model's. -/
inductive Event where
  | request (cmd stamp : Bytes)
  | start (i : Nat)
  | finish (i : Nat) (writes : List Bytes)
  | appBlock (rate : Int)
  | appMutex (rate : Int)
deriving Repr

/-- The first half of `profileCpu`, `profileBlock`, `profileMutex`, up to the sleep: dump.go:93-107, :126-129, :167-170.  The rates
are those of handlers.go:184-207. -/
def startJob (s : State) (j : Job) : State × Job :=
  match j.kind with
  | .cpu =>
    let s := { s with fs := put s.fs j.file [] }
    if s.rt.cpu then (s, { j with phase := .over })
    else ({ s with rt := { s.rt with cpu := true } }, { j with phase := .running 0 })
  | .block | .blockBinary => ({ s with rt := s.rt.setBlock 1000000 }, { j with phase := .running 0 })
  | .mutex => ({ s with rt := (s.rt.setMutex 10).2 }, { j with phase := .running (s.rt.setMutex 10).1 })
  | .mutexBinary => ({ s with rt := (s.rt.setMutex 5).2 }, { j with phase := .running (s.rt.setMutex 5).1 })

/-- The second half, after the sleep: dump.go:105, :131-148, :172-189.  What a CPU profile writes to a file that has been removed in
the meantime is lost. -/
def finishJob (s : State) (j : Job) (old : Int) (writes : List Bytes) : State :=
  match j.kind with
  | .cpu =>
    { s with
      rt := { s.rt with cpu := false }
      fs := match s.fs.at j.file with
        | some (.file _) => put s.fs j.file writes.flatten
        | _ => s.fs }
  | .block | .blockBinary => { s with fs := put s.fs j.file (profileToFile writes), rt := s.rt.setBlock (-1) }
  | .mutex | .mutexBinary => { s with fs := put s.fs j.file (profileToFile writes), rt := (s.rt.setMutex old).2 }

/-- One event.  handlers.go:69-110, dump.go:85-189.  (An event about a profile that cannot begin or finish changes nothing.) -/
def step (dumpDir binaryDir : Path) (s : State) : Event → State
  | .request cmd stamp =>
    match kindOf cmd with
    | none => s
    | some k => { s with jobs := s.jobs ++ [⟨k, fileName dumpDir binaryDir stamp k, .asked⟩] }
  | .start i =>
    match s.jobs[i]? with
    | some ⟨k, f, .asked⟩ =>
      let (s', j) := startJob s ⟨k, f, .asked⟩
      { s' with jobs := s.jobs.set i j }
    | _ => s
  | .finish i writes =>
    match s.jobs[i]? with
    | some ⟨k, f, .running old⟩ => { finishJob s ⟨k, f, .running old⟩ old writes with jobs := s.jobs.set i ⟨k, f, .over⟩ }
    | _ => s
  | .appBlock r => { s with rt := s.rt.setBlock r }
  | .appMutex r => { s with rt := (s.rt.setMutex r).2 }

/-- A history of events.  Model only: the schedule of the goroutines started at dump.go:88-161. -/
def life (dumpDir binaryDir : Path) (s : State) (es : List Event) : State := es.foldl (step dumpDir binaryDir) s

end Profiling
end Scouter
