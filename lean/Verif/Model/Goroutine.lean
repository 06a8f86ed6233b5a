import Verif.Model.Util
import Verif.Model.Conf
/-!
# What is said about a goroutine: its number (scouterx/common/panic.go) and its stack (scouterx/dump/dump.go)

What `runtime.Stack` and `runtime.Callers` give is an input.
-/
namespace Scouter
namespace Goroutine

/-- ASCII white space, `strings.Fields` (library strings; panic.go:29).  Simplification: white space outside of ASCII is not considered. -/
def isSpace (b : Byte) : Bool := b = 32 ∨ (9 ≤ b.toNat ∧ b.toNat ≤ 13)

/-- `strings.Fields(s)[0]`; panics without a field.  Library strings; panic.go:29. -/
def firstField (s : Bytes) : Go Bytes :=
  let r := s.dropWhile isSpace
  if r = [] then .panic else .ok (r.takeWhile (fun b => !isSpace b))

/-- `strings.TrimPrefix`.  Library strings; panic.go:29. -/
def trimPrefix (s pre : Bytes) : Bytes := if pre <+: s then s.drop pre.length else s

/-- How a call of `Goid` ends: it returns the number, it returns 0 having reported a panic, or the panic goes on (no reporter registered: calling the nil
function).  panic.go:17-36. -/
inductive Answer where
  | number (id : Int)
  | reported
  | crashed
deriving DecidableEq, Repr

/-- `Goid`, panic.go:25-36, with `ReportScouterPanic`, :17-23, deferred; `stack` is what `runtime.Stack` would write into a large enough buffer,
`registered` whether `RegisterSendPanicF`, :13-15, was called.  `Atoi` is `parseInt`. -/
def goid (registered : Bool) (stack : Bytes) : Answer :=
  let buf := stack.take 64
  let r : Go Int := do
    let idField ← firstField (trimPrefix buf (ascii "goroutine "))
    match Config.parseInt idField with
    | some id => .ok id
    | none => .panic
  match r with
  | .ok id => .number id
  | _ => if registered then .reported else .crashed

/-- What `runtime.FuncForPC` and `FileLine` say of a frame.  Library runtime; dump.go:35-37. -/
structure Frame where
  name : Bytes
  path : Bytes
  line : Nat

/-- The file of `path.Split`: what follows the last slash.  Library path; dump.go:38. -/
def splitFile (path : Bytes) : Bytes := (path.reverse.takeWhile (· ≠ 47)).reverse

/-- The loop of dump.go:34-46 with the text so far; a counter of zero has no function. -/
def traceLoop (sb : Bytes) : List (Option Frame) → Bytes
  | [] => sb
  | e :: es =>
    match e with
    | none => traceLoop sb es
    | some f =>
      if f.name ≠ [] then
        let str := f.name ++ ascii " " ++ splitFile f.path ++ ascii ":" ++ formatInt 10 f.line
        traceLoop (sb ++ (if sb.length = 0 then str else ascii "\n" ++ str)) es
      else traceLoop sb es

/-- `StackTrace`, dump.go:23-49: `frames` are all frames of the goroutine (from the caller on); the counters not filled in are zero.  A negative count
panics in `make`. -/
def stackTrace (count : Int) (frames : List (Option Frame)) : Go Bytes :=
  let pcLen := if count = 0 then 1 else count
  if pcLen < 0 then .panic
  else
    let n := min pcLen.toNat frames.length
    if n < 1 then .ok []
    else .ok (traceLoop [] (frames.take n ++ List.replicate (pcLen.toNat - n) none))

end Goroutine
end Scouter
