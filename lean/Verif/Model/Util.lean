import Verif.Model.Base
/-!
# Small utilities (scouterx/common/util)

The standard-library functions used (`strings.Split` with a one-byte separator, `strconv.ParseUint(_, 10, 8)`,
`strings.IndexByte/HasPrefix/HasSuffix/Contains/Index`, `strconv.FormatInt`) are modelled from their documentation.
-/
namespace Scouter

/-- `strings.Split(s, sep)` for a one-byte separator: always at least one part (used by iputil.go:12, strmatch.go:123,
tracemain.go and configure.go). -/
def splitByte (sep : Byte) : Bytes → List Bytes
  | [] => [[]]
  | c :: cs =>
    if c = sep then [] :: splitByte sep cs
    else match splitByte sep cs with
      | [] => [[c]]
      | h :: t => (c :: h) :: t

/-- The digit loop of `strconv.ParseUint(s, 10, 8)` with accumulator `n` (called at iputil.go:17): a byte that is not
an ASCII digit is a syntax error, a value above 255 a range error; both are `none`. -/
def parseDigits8 (n : Nat) : Bytes → Option Nat
  | [] => some n
  | c :: cs =>
    if 48 ≤ c.toNat ∧ c.toNat ≤ 57 then
      if n * 10 + (c.toNat - 48) > 255 then none else parseDigits8 (n * 10 + (c.toNat - 48)) cs
    else none

/-- `strconv.ParseUint(s, 10, 8)` (called at iputil.go:17): the empty text is a syntax error. -/
def parseUint8 (s : Bytes) : Option Nat := if s = [] then none else parseDigits8 0 s

/-- The loop of `IpToBytes`, iputil.go:16-22: stops at the first part that does not parse. -/
def ipParts : List Bytes → Option Bytes
  | [] => some []
  | p :: ps =>
    match parseUint8 p with
    | none => none
    | some v => (ipParts ps).map (BitVec.ofNat 8 v :: ·)

/-- `IpToBytes`, iputil.go:10-24.  (The failure result is one shared slice in Go; no caller writes to it.) -/
def ipToBytes (ip : Bytes) : Bytes :=
  let split := splitByte 46 ip
  if split.length ≠ 4 then [0, 0, 0, 0]
  else match ipParts split with
    | none => [0, 0, 0, 0]
    | some r => r

/-- `asta`, strmatch.go:5. -/
def star : Byte := 42

/-- `compType`, strmatch.go:9-19. -/
inductive CompType where
  | equ | str | strMid | strEnd | mid | midMid | midEnd | end_ | any
deriving DecidableEq, Repr

/-- `StrMatch`, strmatch.go:21-25; the defaults are the Go zero values (`c_EQU` is 0). -/
structure StrMatch where
  pattern : Bytes
  comp : CompType := .equ
  start : Bytes := []
  end_ : Bytes := []
  mid : Bytes := []
  mid2 : Bytes := []
deriving DecidableEq, Repr

/-- `strings.IndexByte` (called at strmatch.go:42); `none` is -1. -/
def indexByte (c : Byte) : Bytes → Option Nat
  | [] => none
  | b :: bs => if b = c then some 0 else (indexByte c bs).map (· + 1)

/-- Go slicing `s[lo:hi]` for `lo ≤ hi ≤ len s`.  Go language; strmatch.go:27-82. -/
def slice (s : Bytes) (lo hi : Nat) : Bytes := (s.take hi).drop lo

/-- `NewStrMatch`, strmatch.go:27-82. -/
def newStrMatch (pattern : Bytes) : StrMatch :=
  if pattern = [star] ∨ pattern = [star, star] then { pattern := pattern, comp := .any }
  else
    let length := pattern.length
    if length < 2 then { pattern := pattern, comp := .equ, mid := pattern }
    else
      let anyStart := pattern[0]? = some star
      let anyEnd := pattern[length - 1]? = some star
      let apos : Option Nat := (indexByte star (pattern.drop 1)).map (· + 1)
      match apos with
      | some apos =>
        if apos < length - 1 then
          if anyStart ∧ anyEnd then
            { pattern := pattern, comp := .midMid, mid := slice pattern 1 apos,
              mid2 := slice pattern (apos + 1) (length - 1) }
          else if anyStart then
            { pattern := pattern, comp := .midEnd, mid := slice pattern 1 apos, end_ := pattern.drop (apos + 1) }
          else if anyEnd then
            { pattern := pattern, comp := .strMid, start := slice pattern 0 apos,
              mid := slice pattern (apos + 1) (length - 1) }
          else
            { pattern := pattern, comp := .strEnd, start := slice pattern 0 apos, end_ := pattern.drop (apos + 1) }
        else noMid pattern length anyStart anyEnd
      | none => noMid pattern length anyStart anyEnd
where
  /-- The branch without a star in the middle, strmatch.go:66-80. -/
  noMid (pattern : Bytes) (length : Nat) (anyStart anyEnd : Prop) [Decidable anyStart] [Decidable anyEnd] : StrMatch :=
    if anyStart ∧ anyEnd then { pattern := pattern, comp := .mid, mid := slice pattern 1 (length - 1) }
    else if anyStart then { pattern := pattern, comp := .end_, end_ := pattern.drop 1 }
    else if anyEnd then { pattern := pattern, comp := .str, start := pattern.take (length - 1) }
    else { pattern := pattern, comp := .equ, mid := pattern }

/-- `strings.HasPrefix` (strmatch.go:94-98). -/
def hasPrefix (t p : Bytes) : Bool := p.isPrefixOf t

/-- `strings.HasSuffix` (strmatch.go:98-110, dump.go). -/
def hasSuffix (t p : Bytes) : Bool := p.isSuffixOf t

/-- `strings.Contains`, and `strings.Index(_) >= 0` (strmatch.go:96-108). -/
def contains (t p : Bytes) : Bool :=
  p.isPrefixOf t || match t with
    | [] => false
    | _ :: t' => contains t' p

/-- `StrMatch.include`, strmatch.go:84-114. -/
def StrMatch.include (m : StrMatch) (target : Bytes) : Bool :=
  if target = [] then false
  else match m.comp with
    | .any => true
    | .equ => m.mid = target
    | .str => hasPrefix target m.start
    | .strMid => hasPrefix target m.start && contains target m.mid
    | .strEnd => hasPrefix target m.start && hasSuffix target m.end_
    | .mid => contains target m.mid
    | .midMid => if contains target m.mid then contains target m.mid2 && hasSuffix target m.end_ else false
    | .midEnd => contains target m.mid && hasSuffix target m.end_
    | .end_ => hasSuffix target m.end_

/-- `NewCommaSeparatedChainedStrMatcher`, strmatch.go:121-128: the patterns are stored without being compiled. -/
def newChainedMatcher (patterns : Bytes) : List StrMatch :=
  (splitByte 44 patterns).map (fun p => { pattern := p })

/-- `CommaSeparatedChainedStrMatcher.IsMatch`, strmatch.go:130-137. -/
def chainedIsMatch (m : List StrMatch) (target : Bytes) : Bool := m.any (·.include target)

/-- One digit of `strconv.FormatInt`: '0'..'9', 'a'..'z'.  Library strconv; hexautil.go:8-15. -/
def digitByte (d : Nat) : Byte := if d < 10 then BitVec.ofNat 8 (48 + d) else BitVec.ofNat 8 (87 + d)

/-- The digits of a number in the given base (at least 2), most significant first; "0" for 0.
   Library strconv; hexautil.go:8-15. -/
def formatNat (base : Nat) (u : Nat) : Bytes :=
  if _h : u < base ∨ base < 2 then [digitByte u]
  else formatNat base (u / base) ++ [digitByte (u % base)]
termination_by u
decreasing_by exact Nat.div_lt_self (by omega) (by omega)

/-- `strconv.FormatInt(v, base)`: a minus sign for negative numbers, then the digits of the magnitude.
   Library strconv; hexautil.go:8-15. -/
def formatInt (base : Nat) (v : Int) : Bytes :=
  if v < 0 then 45 :: formatNat base v.natAbs else formatNat base v.natAbs

/-- `IntToXlogString32`, hexautil.go:8-15; `-num` wraps. -/
def intToXlogString32 (num : BitVec 64) : Bytes :=
  if num.toInt < 0 then 122 :: formatInt 32 (-num).toInt else 120 :: formatInt 32 num.toInt

/-- The four figures of `GetDuration`, timeutil.go:14-17.  Go's `/` truncates toward zero; no product or difference
here can overflow an int64 because each is bounded in magnitude by the argument (`durationFigures_bounded`), so the
model uses unbounded integers. -/
def durationFigures (seconds : Int) : Int × Int × Int × Int :=
  let day := seconds.tdiv 86400
  let hour := (seconds - day * 86400).tdiv 3600
  let min := (seconds - day * 86400 - hour * 3600).tdiv 60
  let secs := seconds - day * 86400 - hour * 3600 - min * 60
  (day, hour, min, secs)

/-- `GetDuration`, timeutil.go:13-19. -/
def getDuration (seconds : Int) : Bytes :=
  let (d, h, m, s) := durationFigures seconds
  formatInt 10 d ++ ascii "D " ++ formatInt 10 h ++ ascii "H " ++ formatInt 10 m ++ ascii "M " ++ formatInt 10 s ++
    ascii "S"

end Scouter
