import Verif.Model.Handlers
/-!
# Requests when the file system fails (scouterx/dump/dump.go, scouterx/conf/exthandler.go)

The requests that use files, with any of their system calls failing.  Model/Handlers.lean has the same requests with a file
system that does not fail (`C110_without_failures` says that they agree).  What a failing `os.Remove` does is there already:
nothing.
-/
namespace Scouter
namespace Failing
open Trace TM Tcp Dump Handlers

/-- An `os.FileInfo`.  Library os; dump.go:217-224 and :238-244. -/
structure Info where
  isDir : Bool
  name : Bytes
  size : BitVec 64
  modified : BitVec 64
deriving DecidableEq, Repr

/-- What fails: whether `os.Create` works, after how many bytes the writing of the dump fails (`none`: it does not), whether
`os.Open` works, which readings of the file fail (with another error than `io.EOF`), what `filepath.Walk` hands to its function
for a directory (`none`: no `FileInfo`, because `Lstat` failed: the directory is not there, or a file went away after its
directory was read), and after how many bytes the writing of the configuration file fails.
   Library os, path/filepath; dump.go:64-83, :206-336, exthandler.go:17-24. -/
structure Faults where
  created : Bool
  dumpWrite : Option Nat
  opened : Bool
  readFails : Nat → Bool
  visits : Path → List (Option Info)
  confWrite : Option Nat

/-- The calls of the function given to `filepath.Walk`: the files it adds, in this order.  `none`: a panic, at `info.IsDir()`
of a nil `info`.  dump.go:217-224 and :238-244 (there with a condition on the name). -/
def walk (add : Info → Bool) : List (Option Info) → Option (List Info)
  | [] => some []
  | none :: _ => none
  | some i :: vs => (walk add vs).map fun is => if !i.isDir && add i then i :: is else is

/-- `ListDumpFiles`, dump.go:206-227. -/
def listDumpFiles (f : Faults) (m : Machine) : Option Table :=
  (walk (fun _ => true) (f.visits m.dumpDir)).map fun is =>
    let t := column [] "name" (is.map fun i => .text i.name)
    let t := column t "size" (is.map fun i => .dec i.size)
    column t "last_modified" (is.map fun i => .dec i.modified)

/-- `ListBinaryDumpFiles`, dump.go:229-247. -/
def listBinaryDumpFiles (f : Faults) (m : Machine) : Option Table :=
  (walk (fun i => hasSuffix i.name suffix) (f.visits m.binaryDir)).map fun is =>
    let t := column [] "name" (is.map fun i => .text i.name)
    column t "size" (is.map fun i => .dec i.size)

/-- The loop of `DownloadBinaryDumpFiles`, dump.go:266-281: another error than `io.EOF` ends it, and nothing tells. -/
def downloadLoop (fails : Nat → Bool) (content : Bytes) : Nat → Nat → Nat → List Bytes
  | 0, _, _ => []
  | n + 1, i, offset =>
    if fails i then []
    else
      let b := (content.drop offset).take 300
      if b.length < 300 then [b] else b :: downloadLoop fails content n (i + 1) (offset + b.length)

/-- `DownloadBinaryDumpFiles`, dump.go:249-283. -/
def downloadBinaryDumpFiles (f : Faults) (fs : FS) (dumpPath : Path) (fileName : Bytes) : List Bytes :=
  if fileName = [] ∨ ¬ hasSuffix fileName suffix then []
  else if !f.opened then []
  else match fs.at (join dumpPath fileName) with
    | none => []
    | some .dir => []
    | some (.file content) => downloadLoop f.readFails content (content.length / 300 + 1) 0 0

/-- The loop of `StreamDumpFileContents`, dump.go:324-333: any error ends it, `io.EOF` or another. -/
def streamLoop (fails : Nat → Bool) (sizes : Nat → Nat) : Nat → Nat → Bytes → List Bytes
  | 0, _, _ => []
  | n + 1, i, rest =>
    if fails i then []
    else match rest with
      | [] => []
      | _ => rest.take (min 4096 (sizes i + 1)) :: streamLoop fails sizes n (i + 1) (rest.drop (min 4096 (sizes i + 1)))

/-- `StreamDumpFileContents`, dump.go:306-336. -/
def streamDumpFileContents (f : Faults) (sizes : Nat → Nat) (fs : FS) (dumpPath : Path) (name : Bytes) : List Bytes :=
  if !f.opened then []
  else match fs.at (join dumpPath name) with
    | none => []
    | some .dir => []
    | some (.file content) => streamLoop f.readFails sizes content.length 0 content

/-- `HeavyAllStackTrace` and `heavyAllStackTrace`, dump.go:54-83: with an error the reply has no name; a file whose writing
failed is left as it is.  Up to 4096 bytes are only put into the buffer (`Writer`), so there is no writing that could fail. -/
def threadDump (f : Faults) (m : Machine) (a : Agent) : Table × Agent :=
  if !f.created then ([], a)
  else
    let p := join m.dumpDir (ascii "go_dump_" ++ m.stampText a.requests ++ ascii ".log")
    let content := heavyAllStackTrace (m.stacks a.requests)
    let made (content : Bytes) : Agent := { a with fs := (p, .file content) :: a.fs.filter fun e => e.1 ≠ p }
    match f.dumpWrite with
    | some k => if k < content.length then ([], made (content.take k)) else (MapPack.put [] (ascii "name") (.string (Path.text p)), made content)
    | none => (MapPack.put [] (ascii "name") (.string (Path.text p)), made content)

/-- `SaveConfigText`, exthandler.go:17-24: `ioutil.WriteFile` opens the file, cutting it to nothing, and writes. -/
def saveConfigText (f : Faults) (m : Machine) (a : Agent) (text : Bytes) : Bool × Agent :=
  if !m.writable a.requests then (false, a)
  else match f.confWrite with
    | some k =>
      if k < text.length then (false, { a with text := some (m.mtime a.requests, text.take k) })
      else (true, { a with text := some (m.mtime a.requests, text) })
    | none => (true, { a with text := some (m.mtime a.requests, text) })

/-- `saveConfig`, handlers.go:301-314.  `none`: a panic. -/
def saveConfig (f : Faults) (m : Machine) (a : Agent) (pack : Pack) : Option Table × Agent :=
  let result := MapPack.put [] (ascii "result") (.bool false)
  match pack with
  | .map p =>
    let text := p.table.getString (ascii "setConfig")
    match saveConfigText f m a text with
    | (true, a) =>
      match a.refresh m with
      | none => (none, a)
      | some a => (some (MapPack.put result (ascii "result") (.string (ascii "true"))), a)
    | (false, a) => (some result, a)
  | _ => (some result, a)

/-- A panic inside `handle`: an alert is sent and there is no pack.  handlers.go:40, panic.go:17-23. -/
def panicked (a : Agent) : Agent × Answer := ({ a with world := (recovered () TM.panic a.world).2 }, nothing)

/-- `handle`, handlers.go:39-153, with failures; the requests that use no files are as in Model/Handlers.lean. -/
def handle (f : Faults) (m : Machine) (a : Agent) (cmd : Bytes) (pack : Pack) : Agent × Answer :=
  let finish (r : Agent × Answer) : Agent × Answer := ({ r.1 with requests := r.1.requests + 1 }, r.2)
  if cmd = ascii "TRIGGER_THREAD_DUMP" then
    let (t, a) := threadDump f m a
    finish (a, withPack t)
  else if cmd = ascii "OBJECT_DUMP_FILE_LIST" then
    finish (match listDumpFiles f m with | some t => (a, withPack t) | none => panicked a)
  else if cmd = ascii "OBJECT_DUMP_FILE_DETAIL" then
    finish (match pack with
      | .map p => (a, ⟨streamDumpFileContents f (m.sizes a.requests) a.fs m.dumpDir (p.table.getString (ascii "name")), none⟩)
      | _ => (a, nothing))
  else if cmd = ascii "OBJECT_LIST_HEAP_DUMP" then
    finish (match listBinaryDumpFiles f m with | some t => (a, withPack t) | none => panicked a)
  else if cmd = ascii "OBJECT_DOWNLOAD_HEAP_DUMP" then
    finish (match pack with
      | .map p => (a, ⟨downloadBinaryDumpFiles f a.fs m.binaryDir (p.table.getString (ascii "fileName")), none⟩)
      | _ => (a, nothing))
  else if cmd = ascii "SET_CONFIGURE_WAS" then
    finish (match saveConfig f m a pack with
      | (some t, a) => (a, withPack t)
      | (none, a) => panicked a)
  else Handlers.handle m a cmd pack

end Failing
end Scouter
