import Verif.Model.Out
/-!
# UDP transport (scouterx/netio/udpclient/udpclient.go)

A call's observable effect is the list of datagrams handed to `Conn.Write`; the socket's own result is ignored by the
code, so it is not modelled.  `connected` says whether `Conn` is non-nil.  Generated packet ids (`keygen.Next()`) are
parameters.  `udpMaxBytes` is a Go `int` (an `Int` here: it is only compared, divided and multiplied with lengths of
slices, which cannot overflow 64 bits).
-/
namespace Scouter
namespace Udp

/-- netcafeconstants.go:3-5. -/
def cafe : Bytes := ascii "CAFE"
/-- `CAFE_N`, netcafeconstants.go:4. -/
def cafeN : Bytes := ascii "CAFN"
/-- `CAFE_MTU`, netcafeconstants.go:5. -/
def cafeMtu : Bytes := ascii "CAFM"

/-- `CopyArray`, scouterx/common/util/arrayutil.go:4-6: `data[pos : pos+length]`, which panics when the bounds are
negative, inverted or beyond the slice's capacity (the capacity is taken to be the length, its least possible value). -/
def copyArray (data : Bytes) (pos length : Int) : Go Bytes :=
  if 0 ≤ pos ∧ pos ≤ pos + length ∧ pos + length ≤ data.length then
    .ok ((data.drop pos.toNat).take length.toNat)
  else .panic

/-- `writeMTUSub`, udpclient.go:82-93.  The counters are truncated to `int16`. -/
def mtuDatagram (pkid : BitVec 64) (total num : Int) (data : Bytes) : Bytes :=
  let out := Out.new.write cafeMtu
  let out := out.writeInt32 0
  let out := out.writeInt64 pkid
  let out := out.writeInt16 (BitVec.ofInt 16 total)
  let out := out.writeInt16 (BitVec.ofInt 16 num)
  let out := out.writeBlob data
  out.bytes

/-- The loop of udpclient.go:73-75, with `left` iterations to go; returns the datagrams sent, the final `num`. -/
def mtuLoop (pkid : BitVec 64) (total packetSize : Int) (data : Bytes) : Nat → Int → Go (List Bytes × Int)
  | 0, num => .ok ([], num)
  | left + 1, num => do
    let chunk ← copyArray data (num * packetSize) packetSize
    let d := mtuDatagram pkid total num chunk
    let (ds, num') ← mtuLoop pkid total packetSize data left (num + 1)
    return (d :: ds, num')

/-- `writeMTU`, udpclient.go:61-80.  Go's `/` and `%` truncate and panic on a zero divisor. -/
def writeMTU (connected : Bool) (pkid : BitVec 64) (data : Bytes) (packetSize : Int) : Go (Bool × List Bytes) :=
  if connected = false then .ok (false, [])
  else if packetSize = 0 then .panic
  else do
    let quot := (data.length : Int).tdiv packetSize
    let remainder := (data.length : Int).tmod packetSize
    let total := if remainder > 0 then quot + 1 else quot
    let (ds, num) ← mtuLoop pkid total packetSize data quot.toNat 0
    if remainder > 0 then do
      let chunk ← copyArray data ((data.length : Int) - remainder) remainder
      return (true, ds ++ [mtuDatagram pkid total num chunk])
    else return (true, ds)

/-- `sendBufferList`, udpclient.go:95-103. -/
def listDatagram (count : BitVec 16) (data : Bytes) : Bytes :=
  (((Out.new.write cafeN).writeInt16 count).write data).bytes

/-- `WriteBuffer`, udpclient.go:106-119. -/
def writeBuffer (connected : Bool) (pkid : BitVec 64) (maxBytes : Int) (buff : Bytes) : Go (Bool × List Bytes) :=
  if connected = false then .ok (false, [])
  else if (buff.length : Int) > maxBytes then writeMTU connected pkid buff maxBytes
  else .ok (true, [((Out.new.write cafe).write buff).bytes])

/-- The loop of udpclient.go:127-141 over the remaining buffers, with `out` and `outCount`; the tail is
udpclient.go:142-144.  `ids k` is the `k`-th generated packet id, `k` the next one to use. -/
def bufferLoop (maxBytes : Int) (ids : Nat → BitVec 64) :
    List Bytes → Nat → Out → BitVec 16 → Go (List Bytes)
  | [], _, out, cnt => .ok (if 0 < out.size.toInt then [listDatagram cnt out.bytes] else [])
  | b :: bs, k, out, cnt =>
    if (b.length : Int) > maxBytes then do
      let (_, ds) ← writeMTU true (ids k) b maxBytes
      let rest ← bufferLoop maxBytes ids bs (k + 1) out cnt
      return ds ++ rest
    else if (b.length : Int) + out.size.toInt > maxBytes then do
      let d := listDatagram cnt out.bytes
      let rest ← bufferLoop maxBytes ids bs k (Out.new.write b) 1
      return d :: rest
    else
      bufferLoop maxBytes ids bs k (out.write b) (cnt + 1)

/-- `WriteBufferList`, udpclient.go:121-147. -/
def writeBufferList (connected : Bool) (ids : Nat → BitVec 64) (maxBytes : Int) (bufs : List Bytes) :
    Go (Bool × List Bytes) :=
  if connected = false then .ok (false, [])
  else do
    let ds ← bufferLoop maxBytes ids bufs 0 Out.new 0
    return (true, ds)

end Udp
end Scouter
