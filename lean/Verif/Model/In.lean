import Verif.Model.Base
/-!
# DataInputX (scouterx/common/netdata/datainputx.go)

The reader is modelled over an in-memory `bytes.Buffer` (`NewDataInputX([]byte)`, datainputx.go:17-29); reading from a
TCP connection is modelled in Model/Tcp.lean.  A read takes the unread bytes and returns the value, the error and the
bytes still unread.  `in.offset` is never read anywhere in the repository and is not modelled.
-/
namespace Scouter

/-- Value, error and remaining input of a read.  Go language: the result pairs of datainputx.go:34-199. -/
abbrev Res (α : Type) := α × Option Err × Bytes

namespace In

/-- `ReadInt8`/`ReadUInt8`, datainputx.go:34-45.  `binary.Read` = `io.ReadFull` of one byte. -/
def readInt8 (s : Bytes) : Res (BitVec 8) :=
  match s with
  | a :: r => (a, none, r)
  | [] => (0, some .eof, [])

/-- `ReadInt16`, datainputx.go:49-54.  `io.ReadFull`: nothing there gives EOF, a partial read gives ErrUnexpectedEOF
and consumes what was there; in both cases the value stays 0. -/
def readInt16 (s : Bytes) : Res (BitVec 16) :=
  match s with
  | a :: b :: r => (a ++ b, none, r)
  | [] => (0, some .eof, [])
  | _ => (0, some .unexpectedEOF, [])

/-- `ReadInt32`, datainputx.go:57-62. -/
def readInt32 (s : Bytes) : Res (BitVec 32) :=
  match s with
  | a :: b :: c :: d :: r => (a ++ b ++ c ++ d, none, r)
  | [] => (0, some .eof, [])
  | _ => (0, some .unexpectedEOF, [])

/-- `ReadInt64`, datainputx.go:65-70. -/
def readInt64 (s : Bytes) : Res (BitVec 64) :=
  match s with
  | a :: b :: c :: d :: e :: f :: g :: h :: r => (a ++ b ++ c ++ d ++ e ++ f ++ g ++ h, none, r)
  | [] => (0, some .eof, [])
  | _ => (0, some .unexpectedEOF, [])

/-- `ReadFloat32`, datainputx.go:73-78 (bit pattern; the zero value of float32 is the zero pattern). -/
def readFloat32 (s : Bytes) : Res (BitVec 32) :=
  match s with
  | a :: b :: c :: d :: r => (a ++ b ++ c ++ d, none, r)
  | [] => (0, some .eof, [])
  | _ => (0, some .unexpectedEOF, [])

/-- `ReadFloat64`, datainputx.go:80-85 (bit pattern). -/
def readFloat64 (s : Bytes) : Res (BitVec 64) :=
  match s with
  | a :: b :: c :: d :: e :: f :: g :: h :: r => (a ++ b ++ c ++ d ++ e ++ f ++ g ++ h, none, r)
  | [] => (0, some .eof, [])
  | _ => (0, some .unexpectedEOF, [])

/-- `make([]byte, n)` followed by one `bytes.Buffer.Read` of it and the `if err != nil { val = []byte{} }` clean-up
(datainputx.go:109-115 in ReadBlob and 180-186 in Read).  A negative `n` panics in `make`.  `bytes.Buffer.Read` on an
empty buffer returns EOF unless `n = 0`; otherwise it copies what is there and leaves the tail of `val` zero. -/
def readN (n : BitVec 32) (s : Bytes) : Go (Res Bytes) :=
  if n.toInt < 0 then .panic
  else if s.isEmpty && n.toNat != 0 then .ok ([], some .eof, [])
  else .ok (s.take n.toNat ++ List.replicate (n.toNat - s.length) 0, none, s.drop n.toNat)

/-- `ReadBlob`, datainputx.go:94-116.  The error of the length read is overwritten by the body read. -/
def readBlob (s : Bytes) : Go (Res Bytes) :=
  let (baseLen, err, s) := readInt8 s
  if baseLen = 255 then
    let (v, _, s) := readInt16 s
    readN (v.signExtend 32) s
  else if baseLen = 254 then
    let (v, _, s) := readInt32 s
    readN v s
  else if baseLen = 0 then .ok ([], err, s)
  else readN (baseLen.setWidth 32) s

/-- `ReadString`, datainputx.go:88-92. -/
def readString (s : Bytes) : Go (Res Bytes) := readBlob s

/-- `ReadDecimal`, datainputx.go:119-143. -/
def readDecimal (s : Bytes) : Res (BitVec 64) :=
  let (len, err, s) := readInt8 s
  if len = 0 then (0, err, s)
  else if len = 1 then
    let (v, err, s) := readInt8 s
    (v.signExtend 64, err, s)
  else if len = 2 then
    let (v, err, s) := readInt16 s
    (v.signExtend 64, err, s)
  else if len = 4 then
    let (v, err, s) := readInt32 s
    (v.signExtend 64, err, s)
  else if len = 8 then readInt64 s
  else (0, err, s)

/-- `ReadBoolean`, datainputx.go:146-153. -/
def readBoolean (s : Bytes) : Res Bool :=
  let (v, err, s) := readInt8 s
  if v = 0 then (false, err, s) else (true, err, s)

/-- `ReadIntBytes`, datainputx.go:167-177, on an in-memory buffer.  The error of the length read is overwritten. -/
def readIntBytes (s : Bytes) : Go (Res Bytes) :=
  let (length, _, s) := readInt32 s
  readN length s

end In
end Scouter
