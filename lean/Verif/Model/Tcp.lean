import Verif.Model.Pack
/-!
# The TCP client (scouterx/netio/tcpclient/tcpclient.go, tcpmanager.go)

What arrives on the connection is a list of pieces; one `Read` of the connection returns bytes of the first piece only.  An
exhausted list is a closed or timed-out connection: every read of at least one byte then fails.  Writes to the connection
succeed (one that fails ends `Process` like any other error).  The request handlers are a parameter: see Model/Handlers.lean.
-/
namespace Scouter
namespace Tcp

/-- The bytes still to come, in the pieces in which `Read` of the connection returns them.
   Library net; tcpclient.go:67-120. -/
abbrev Conn := List Bytes

/-- `io.ReadFull` of `n` bytes (used by `binary.Read`): the bytes, or `none` when the connection ends before.
   Library io; tcpclient.go:67-120, datainputx.go:34-86. -/
def readFull : Nat → Conn → Option Bytes × Conn
  | 0, c => (some [], c)
  | _ + 1, [] => (none, [])
  | n + 1, piece :: c =>
    if piece.length ≤ n + 1 then
      let (r, c) := readFull (n + 1 - piece.length) c
      (r.map (piece ++ ·), c)
    else (some (piece.take (n + 1)), piece.drop (n + 1) :: c)
termination_by n c => (c.length, n)

/-- One `Read` of the connection into `n` bytes: `none` on failure.  Nothing is waited for when `n` is 0.
   Library net; datainputx.go:179-186. -/
def readOnce (n : Nat) (c : Conn) : Option Bytes × Conn :=
  if n = 0 then (some [], c)
  else match c with
    | [] => (none, [])
    | piece :: c => (some (piece.take n), if piece.length ≤ n then c else piece.drop n :: c)

/-- `ReadInt32` on a connection, datainputx.go:57-62: 0 on failure. -/
def readInt32 (c : Conn) : BitVec 32 × Conn :=
  match readFull 4 c with
  | (some [a, b, d, e], c) => (a ++ b ++ d ++ e, c)
  | (_, c) => (0, c)

/-- `ReadIntBytes` on a connection, datainputx.go:167-187: `make` panics on a negative length; the error of reading the
length is lost; the body is what one `Read` returns, and the rest of the slice stays zero. `none`: the read failed. -/
def readIntBytes (c : Conn) : Go (Option Bytes × Conn) :=
  let (n, c) := readInt32 c
  if n.toInt < 0 then .panic
  else match readOnce n.toNat c with
    | (none, c) => .ok (none, c)
    | (some b, c) => .ok (some (b ++ List.replicate (n.toNat - b.length) 0), c)

/-- `HasNEXT` and `NoNEXT`, tcpflag.go.  tcpflag.go:6. -/
def hasNext : Byte := 3
/-- `NoNEXT`, tcpflag.go:7. -/
def noNext : Byte := 4

/-- What a handler does: the blobs it writes to the reply, each after a `HasNEXT` (none: it panicked or wrote nothing), and
the pack it returns (`none`: nil, also after a recovered panic: handlers.go:40 defers `ReportScouterPanic`). -/
structure Answer where
  blobs : List Bytes
  pack : Option Pack

/-- What the handlers do in a state of the agent `W`.  handlers.go:39-153. -/
abbrev Handler (W : Type) := W → Bytes → Pack → W × Answer

/-- The reply put together by tcpclient.go:101-113 and the handler. -/
def reply (a : Answer) : Bytes :=
  let out := a.blobs.foldl (fun o b => (o.writeInt8 hasNext).writeBlob b) Out.new
  let out := match a.pack with
    | none => out
    | some p => (out.writeInt8 hasNext).writeIntBytes (Out.new.writePack p).bytes
  (out.writeInt8 noNext).bytes

/-- How `Process` ends: the configuration has changed, an error is returned, or a panic leaves it; `going` is only the
model's bound on the number of requests.  tcpclient.go:67-120. -/
inductive End where
  | changed
  | error
  | panicked
  | going
deriving DecidableEq, Repr

/-- One round of the loop of `Process`, tcpclient.go:84-118: the state afterwards and the reply, or the end. -/
def round {W : Type} (h : Handler W) (w : W) (c : Conn) : (W × Conn × Answer) ⊕ End :=
  match readIntBytes c with
  | .panic => .inr .panicked
  | .fuel => .inr .going
  | .ok (none, _) => .inr .error
  | .ok (some buff, c) =>
    match In.readString buff with
    | .panic => .inr .panicked
    | .fuel => .inr .going
    | .ok (cmd, _, in0) =>
      match In.readPack in0 with
      | .panic => .inr .panicked
      | .fuel => .inr .going
      | .ok (none, _, _) => .inr .error
      | .ok (some p, some _, _) => let _ := p; .inr .error
      | .ok (some p, none, _) =>
        let (w, a) := h w cmd p
        .inl (w, c, a)

/-- The loop of `Process`, tcpclient.go:83-119, for at most `n` requests; `same` says that the object's hash and the
collector's address are still those the connection was made with.  Result: the bytes sent, the answers, the state and the end. -/
def loop {W : Type} (h : Handler W) (same : W → Bool) : Nat → W → Conn → Bytes × List Answer × W × End
  | 0, w, _ => ([], [], w, .going)
  | n + 1, w, c =>
    if same w then
      match round h w c with
      | .inr e => ([], [], w, e)
      | .inl (w, c, a) =>
        let (bs, as, w, e) := loop h same n w c
        (reply a ++ bs, a :: as, w, e)
    else ([], [], w, .changed)

/-- `TCP_AGENT_V2`, netcafeconstant.go.  netcafeconstants.go:9. -/
def agentV2 : BitVec 32 := 0xCAFE1002

/-- `Process`, tcpclient.go:67-120. -/
def process {W : Type} (h : Handler W) (same : W → Bool) (objHash : BitVec 32) (n : Nat) (w : W) (c : Conn) :
    Bytes × List Answer × W × End :=
  let (bs, as, w, e) := loop h same n w c
  (((Out.new.writeInt32 agentV2).writeInt32 objHash).bytes ++ bs, as, w, e)

/-! ## Reconnecting -/

/-- How a round of `startTcp` goes: no connection, or `Process` ends with an error, without one, or with a panic.
   tcpmanager.go:15-44. -/
inductive Attempt where
  | refused
  | failed
  | ended
  | panicked
deriving DecidableEq, Repr

/-- One round of the loop of `startTcp`, tcpmanager.go:16-43: the pauses made (milliseconds), and the value `sleep` has at the
end of the round, after which the variable is made anew. -/
def tcpRound (a : Attempt) : List Nat × Nat :=
  let minSleep := 3000
  let sleep := minSleep
  let maxSleep := 60000
  let pause (sleep : Nat) : List Nat × Nat :=
    let p := if sleep < maxSleep then sleep else maxSleep
    let sleep := sleep * 2
    ([p], if sleep > maxSleep then maxSleep else sleep)
  match a with
  | .refused => let (ps, sleep) := pause sleep; (1000 :: ps, sleep)
  | .failed => let (ps, sleep) := pause sleep; (1000 :: ps, sleep)
  | .ended => ([1000], sleep)
  | .panicked => ([1000], sleep)

/-- `startTcp`, tcpmanager.go:15-44: the pauses of each round. -/
def startTcp (as : List Attempt) : List (List Nat) := as.map fun a => (tcpRound a).1

end Tcp
end Scouter
