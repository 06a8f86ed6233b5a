import Verif.Model.Util
import Verif.Model.MapAccess
/-!
# Dump files (scouterx/dump/dump.go)

The file system is a finite list of entries; a path is the list of its elements, from the root or, for a relative path, from
the working directory.  Everything may be read and removed (permissions and other failures of the system are not modelled), no
links, and file names are compared byte by byte.  The directories needed exist (`MakeDir`, dump.go:195 and :202).
-/
namespace Scouter
namespace Dump

/-! ## Paths -/

/-- A cleaned path: whether it starts at the root, and its elements.
   Library path/filepath; dump.go:192-204, 249-306. -/
structure Path where
  rooted : Bool
  parts : List Bytes
deriving DecidableEq, Repr

/-- `filepath.Clean` (documented rules): the elements kept so far in reverse order, and the next element.  Empty elements and
"." are dropped; ".." removes the element before it, is dropped at the root, and is kept at the start of a relative path.
   Library path/filepath; dump.go:192-204. -/
def cleanStep (rooted : Bool) (kept : List Bytes) (e : Bytes) : List Bytes :=
  if e = [] then kept
  else if e = ascii "." then kept
  else if e = ascii ".." then
    match kept with
    | [] => if rooted then [] else [e]
    | k :: rest => if k = ascii ".." then e :: kept else rest
  else e :: kept

/-- `filepath.Clean` of elements.  Library path/filepath; dump.go:192-204. -/
def clean (rooted : Bool) (es : List Bytes) : Path := ⟨rooted, (es.foldl (cleanStep rooted) []).reverse⟩

/-- `filepath.Join(dir, name)` for a cleaned `dir`, as called at dump.go:254, :293 and :312. -/
def join (dir : Path) (name : Bytes) : Path := clean dir.rooted (dir.parts ++ splitByte 47 name)

/-! ## Files -/

/-- A file with its contents, or a directory (library os; dump.go:206-304). -/
inductive Entry where
  | dir
  | file (content : Bytes)
deriving DecidableEq, Repr

/-- The file system.  Library os; dump.go:206-304. -/
abbrev FS := List (Path × Entry)

/-- What is at a path (library os; dump.go:249-304). -/
def FS.at (fs : FS) (p : Path) : Option Entry := (fs.find? fun e => e.1 = p).map (·.2)

/-- Whether there is something inside a directory.  Library os; dump.go:285-304. -/
def FS.inhabited (fs : FS) (p : Path) : Bool :=
  fs.any fun e => e.1.rooted = p.rooted && e.1.parts.length > p.parts.length && e.1.parts.take p.parts.length = p.parts

/-- `os.Remove`: a file or an empty directory.  Library os; dump.go:285-304. -/
def FS.remove (fs : FS) (p : Path) : Option FS :=
  match fs.at p with
  | none => none
  | some .dir => if fs.inhabited p then none else some (fs.filter fun e => e.1 ≠ p)
  | some (.file _) => some (fs.filter fun e => e.1 ≠ p)

/-- `suffix`, dump.go:21. -/
def suffix : Bytes := ascii "pprof"

/-- The loop of `DownloadBinaryDumpFiles`, dump.go:263-281.  `f i` is the content of the file at the `i`-th `ReadAt`, which
returns up to 300 bytes from `offset`, with `io.EOF` when there are fewer.  `n` bounds the number of reads; `none`: still reading. -/
def downloadLoop (f : Nat → Bytes) : Nat → Nat → Nat → Option (List Bytes)
  | 0, _, _ => none
  | n + 1, i, offset =>
    let b := ((f i).drop offset).take 300
    if b.length < 300 then some [b]
    else (downloadLoop f n (i + 1) (offset + b.length)).map (b :: ·)

/-- `DownloadBinaryDumpFiles`, dump.go:249-283, for a file that does not change: the blobs written, each after a `HasNEXT`.
`ReadAt` of a directory fails with an error other than `io.EOF`. -/
def downloadBinaryDumpFiles (fs : FS) (dumpPath : Path) (fileName : Bytes) : List Bytes :=
  if fileName = [] ∨ ¬ hasSuffix fileName suffix then []
  else match fs.at (join dumpPath fileName) with
    | none => []
    | some .dir => []
    | some (.file content) => (downloadLoop (fun _ => content) (content.length / 300 + 1) 0 0).getD []

/-- `DeleteBinaryDumpFiles`, dump.go:285-304; `errText` is the text of the error of `os.Remove`. -/
def deleteBinaryDumpFiles (errText : Bytes) (fs : FS) (dumpPath : Path) (fileName : Bytes) : Table × FS :=
  if fileName = [] ∨ ¬ hasSuffix fileName suffix then
    (MapPack.put (MapPack.put [] (ascii "success") (.value (.bool false))) (ascii "msg") (.string (ascii "no fileName")), fs)
  else match fs.remove (join dumpPath fileName) with
    | none => (MapPack.put (MapPack.put [] (ascii "success") (.value (.bool false))) (ascii "msg") (.string errText), fs)
    | some fs => (MapPack.put (MapPack.put [] (ascii "success") (.value (.bool true))) (ascii "msg") (.string (ascii "success")), fs)

/-- The loop of `StreamDumpFileContents`, dump.go:324-333: a `Read` into 4096 bytes returns at least one byte while there are
some; how many is up to the system: at most `sizes i + 1` for the `i`-th. -/
def streamLoop (sizes : Nat → Nat) : Nat → Nat → Bytes → List Bytes
  | 0, _, _ => []
  | n + 1, i, rest =>
    match rest with
    | [] => []
    | _ => rest.take (min 4096 (sizes i + 1)) :: streamLoop sizes n (i + 1) (rest.drop (min 4096 (sizes i + 1)))

/-- `StreamDumpFileContents`, dump.go:306-336, after the parameter has been found to be a map pack. -/
def streamDumpFileContents (sizes : Nat → Nat) (fs : FS) (dumpPath : Path) (name : Bytes) : List Bytes :=
  match fs.at (join dumpPath name) with
  | none => []
  | some .dir => []
  | some (.file content) => streamLoop sizes content.length 0 content

/-! ## Writing dumps -/

/-- A `bufio.Writer` of 4096 bytes on a file: what is in the file and what is still in the buffer.
   Library bufio; dump.go:64-83. -/
structure Writer where
  file : Bytes := []
  buf : Bytes := []

/-- `bufio.Writer.Write`: as long as the bytes do not fit, an empty buffer is bypassed and a filled one is written.
   Library bufio; dump.go:64-83. -/
def Writer.write (w : Writer) (p : Bytes) : Writer :=
  if p.length ≤ 4096 - w.buf.length then { w with buf := w.buf ++ p }
  else if w.buf = [] then { w with file := w.file ++ p }
  else
    let n := 4096 - w.buf.length
    let w : Writer := { file := w.file ++ (w.buf ++ p.take n), buf := [] }
    let p := p.drop n
    if p.length ≤ 4096 then { w with buf := p } else { w with file := w.file ++ p }

/-- `bufio.Writer.Flush`.  Library bufio; dump.go:126-190. -/
def Writer.flush (w : Writer) : Writer := { file := w.file ++ w.buf, buf := [] }

/-- `heavyAllStackTrace`, dump.go:64-83: what is in the file after `f.Close`; `profile.WriteTo(w, 2)` writes the stacks of all
goroutines with one `Write`. -/
def heavyAllStackTrace (stacks : Bytes) : Bytes := (({} : Writer).write stacks).file

/-- `profileBlock` and `profileMutex`, dump.go:131-148 and :172-189, with the writes made by `profile.WriteTo`. -/
def profileToFile (writes : List Bytes) : Bytes := (writes.foldl Writer.write {}).flush.file

/-- The same writes as `heavyAllStackTrace` would make them for another level of detail: never flushed.
   dump.go:64-83. -/
def unflushed (writes : List Bytes) : Bytes := (writes.foldl Writer.write {}).file

end Dump
end Scouter
