import Verif.Model.Identity
import Verif.Model.Trace
/-!
# What is recorded of an http request while the configuration is being loaded

Modelled: scouterx/conf/configure.go, scouterx/strace/tracemain.go.

`addToConf` assigns whether queries and headers are to be recorded, which headers, and the header with the client's address, one after the
other (configure.go:360-364), under a lock (configure.go:211-213) that `StartHttpService` does not take.  `StartHttpService` reads them one after
the other too, the two texts twice (tracemain.go:180-181, 502-505, 521).  As in `Model.Identity` each read and each write of a word is a step of its
own, in any interleaving, and the order of the two words of a text is free for each read and each write; the simplifications are those
named there.  Simplified: what a branch not taken would read is read as well and not looked at.
-/
namespace Scouter
namespace Disclosed
open Identity (Ref Heap)
open Trace

/-- The words of the configuration that tell what is recorded of a request, configure.go:70-74. -/
inductive Word where
  | query | enabled | keysPtr | keysLen | ipPtr | ipLen
deriving DecidableEq, Repr

/-- What the words hold; a switch is 1 or 0.  configure.go:70-74. -/
abbrev Mem := Word → Nat

/-- What one run of `addToConf` assigns, and for each text whether its place is written before its length.  configure.go:360-364. -/
structure Reload where
  query : Bool
  enabled : Bool
  keys : Ref
  ip : Ref
  keysFirst : Bool
  ipFirst : Bool
deriving DecidableEq, Repr

/-- Assigning a text.  Model only: configure.go:362, 364. -/
def assign (p l : Word) (r : Ref) (placeFirst : Bool) : List (Word × Nat) :=
  if placeFirst then [(p, r.ptr), (l, r.len)] else [(l, r.len), (p, r.ptr)]

/-- `addToConf` as far as these words are concerned, configure.go:360-364. -/
def Reload.code (r : Reload) : List (Word × Nat) :=
  [(.query, r.query.toNat), (.enabled, r.enabled.toNat)] ++ assign .keysPtr .keysLen r.keys r.keysFirst ++ assign .ipPtr .ipLen r.ip r.ipFirst

/-- What `StartHttpService` reads: whether there is a header with the client's address (tracemain.go:180) and which (tracemain.go:181), whether headers
   are recorded (tracemain.go:502), whether some are named (tracemain.go:503) and which (tracemain.go:505), whether the query is (tracemain.go:521). -/
inductive Slot where
  | ipSet | ipPtr | ipLen | enabled | keysSet | keysPtr | keysLen | query
deriving DecidableEq, Repr

/-- The word a read is of, tracemain.go:180-181, 502-505, 521. -/
def Slot.word : Slot → Word
  | .ipSet => .ipLen
  | .ipPtr => .ipPtr
  | .ipLen => .ipLen
  | .enabled => .enabled
  | .keysSet => .keysLen
  | .keysPtr => .keysPtr
  | .keysLen => .keysLen
  | .query => .query

/-- The reads of one `StartHttpService`, in order: `getRemoteIp`, tracemain.go:180-181, then `profileHttpHeaders`, tracemain.go:502-521. -/
def slots (ipFirst keysFirst : Bool) : List Slot :=
  [.ipSet] ++ (if ipFirst then [.ipPtr, .ipLen] else [.ipLen, .ipPtr]) ++ [.enabled, .keysSet] ++
    (if keysFirst then [.keysPtr, .keysLen] else [.keysLen, .keysPtr]) ++ [.query]

/-- A goroutine in `StartHttpService`: what it has read, what it is to read yet, and the values.  Model only: tracemain.go:153-176. -/
structure Starter where
  done : List Slot
  left : List Slot
  got : Slot → Nat

/-- `getRemoteIp`, tracemain.go:178-187, with what was read. -/
def Starter.address (h : Heap) (m : Starter) (r : Request) : Bytes :=
  if m.got .ipSet ≠ 0 then
    let headerIp := r.header (h.text ⟨m.got .ipPtr, m.got .ipLen⟩)
    if headerIp ≠ [] then headerIp else r.remoteAddr
  else r.remoteAddr

/-- The texts of the steps of `profileHttpHeaders`, tracemain.go:500-524, with what was read. -/
def Starter.lines (h : Heap) (m : Starter) (r : Request) : List Bytes :=
  (if m.got .enabled ≠ 0 then
    if m.got .keysSet > 0 then
      (splitByte 44 (h.text ⟨m.got .keysPtr, m.got .keysLen⟩)).filterMap fun k =>
        let values := r.values (trimSpace k)
        if values.length > 0 then some (ascii "header: " ++ k ++ ascii ": " ++ joinComma values) else none
    else r.headers.map fun (k, v) => ascii "header: " ++ k ++ ascii ": " ++ joinComma v
   else []) ++
  if m.got .query ≠ 0 then [ascii "query: " ++ r.rawQuery] else []

/-- The configuration, how many loads are complete, what is left of the one under way, the loads to come, and the requests being started.
   Model only: configure.go:70-74. -/
structure State where
  mem : Mem
  complete : Nat := 0
  now : List (Word × Nat) := []
  next : List Reload := []
  starters : List Starter := []

/-- A step of one of the goroutines: of the one loading the configuration, the beginning of a request, or a read of one begun.
   Model only: configure.go:334-364, tracemain.go:153-176. -/
inductive Event where
  | load
  | begin (ipFirst keysFirst : Bool)
  | read (i : Nat)
deriving DecidableEq, Repr

/-- A step.  configure.go:360-364 (`load`; loads run one after the other, configure.go:211-213), tracemain.go:180-181, 502-505, 521 (`read`). -/
def State.step (s : State) : Event → State
  | .load =>
    match s.now with
    | [] =>
      match s.next with
      | [] => s
      | r :: rs => { s with now := r.code, next := rs }
    | (w, v) :: is => { s with mem := fun x => if x = w then v else s.mem x, now := is, complete := if is = [] then s.complete + 1 else s.complete }
  | .begin i k => { s with starters := s.starters ++ [⟨[], slots i k, fun _ => 0⟩] }
  | .read i =>
    match s.starters[i]? with
    | none => s
    | some m =>
      match m.left with
      | [] => s
      | x :: xs =>
        { s with starters := s.starters.set i ⟨m.done ++ [x], xs, fun y => if y = x then s.mem x.word else m.got y⟩ }

/-- A run.  Model only: configure.go:210-252, tracemain.go:153-176. -/
def State.run (s : State) (es : List Event) : State := es.foldl State.step s

end Disclosed
end Scouter
