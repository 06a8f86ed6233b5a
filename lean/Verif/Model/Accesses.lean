import Verif.Model.LockOrder
/-!
# What goroutines touch, and under which lock

Every function that works on something several goroutines share is the list of its lock actions and its accesses, in order.  An access is an
action of its own, so that everything else can happen between any two of them; two goroutines that are both about to touch the same thing, one
of them writing, do so at the same time in some run.  Values are left out: where the code looks at values to decide what to touch, the call says
how it goes (known or new key, eviction or not, how many entries).  `sync.Once` and what a goroutine has for itself are left out.
-/
namespace Scouter
namespace Accesses
open LockOrder (Lock Mode)

/-- What is shared.  Caches and metering objects are numbered, there may be any number of each.  lra.go:11-17; cachemap.go:11-14;
cachemap2.go:13-18; cacheset.go:11-14; opserver.go:6-7; configure.go:30, 40-120; xlogsampler.go:14-26; keygen.go:17; metering.go:15-18;
serviceMetering.go:17-21. -/
inductive Place where
  /-- the Go map of a cache, lra.go:16 -/
  | lraTable (c : Nat)
  /-- the list of its entries, lra.go:15 -/
  | lraList (c : Nat)
  /-- the values of its entries, lra.go:23 -/
  | lraEntry (c : Nat)
  /-- the pointer to the linked hash map of a `cachemap`, cachemap.go:12 -/
  | mapField (c : Nat)
  /-- the Go map inside it (library gods) -/
  | mapTable (c : Nat)
  /-- the list inside it (library gods) -/
  | mapOrder (c : Nat)
  /-- the Go map of a `cachemap2`, cachemap2.go:14 -/
  | map2Table (c : Nat)
  /-- its list, cachemap2.go:15 -/
  | map2Order (c : Nat)
  /-- its second Go map, cachemap2.go:16 -/
  | map2Pos (c : Nat)
  /-- the pointer to the linked hash set of a `cacheset`, cacheset.go:12 -/
  | setField (c : Nat)
  /-- the Go map inside it (library gods) -/
  | setTable (c : Nat)
  /-- the list inside it (library gods) -/
  | setOrder (c : Nat)
  /-- the Go map of the observers of the configuration, opserver.go:6 -/
  | observers
  /-- the observer of the object's name, opserver.go:7 -/
  | nameObserver
  /-- the Go map of the described settings (library gods), configure.go:30 -/
  | descTable
  /-- the list of the described settings (library gods), configure.go:30 -/
  | descOrder
  /-- the settings, configure.go:43-120 -/
  | settings
  /-- the sampler's patterns, xlogsampler.go:15-25 -/
  | patterns
  /-- the pseudo-random source of ids, keygen.go:17 -/
  | random
  /-- the time and position of a ring of buckets, metering.go:16-17 -/
  | ring (i : Nat)
  /-- its buckets, metering.go:18; serviceMetering.go:17-21; valueMetering.go:17-20 -/
  | buckets (i : Nat)
deriving DecidableEq, Repr

/-- How something is touched: only its length (`len` of a Go map), read or iterated, or changed.  Library runtime. -/
inductive How where
  | len | read | write
deriving DecidableEq, Repr

/-- A lock action or an access.  lra.go:38-134. -/
inductive Act where
  | lock (a : LockOrder.Act)
  | touch (p : Place) (h : How)
deriving DecidableEq, Repr

/-- A goroutine: what it holds and what it has still to do.  Model only: goroutines of the agent, e.g. configure.go:160-166. -/
structure Gor where
  held : List (Lock × Mode) := []
  code : List Act
deriving DecidableEq, Repr

/-- The goroutine as the locks see it (`LockOrder.Gor`), lra.go:38-134. -/
def Gor.locks (g : Gor) : LockOrder.Gor := ⟨g.held, []⟩

/-- The next action of a goroutine, if it can be taken now: an access always can, a lock action as `LockOrder.Gor.step` says.  Library sync;
lra.go:8. -/
def Gor.step (gors : List Gor) (g : Gor) : Option Gor :=
  match g.code with
  | [] => none
  | .touch _ _ :: rest => some ⟨g.held, rest⟩
  | .lock a :: rest => (LockOrder.Gor.step (gors.map Gor.locks) ⟨g.held, [a]⟩).map fun g' => ⟨g'.held, rest⟩

/-- One step of the `i`-th goroutine.  Model only: the Go scheduler running e.g. configure.go:160-166. -/
def step (gors : List Gor) (i : Nat) : Option (List Gor) :=
  (gors[i]?).bind fun g => (g.step gors).map fun g' => gors.set i g'

/-- A schedule (which goroutine moves next); `none` if some chosen goroutine could not move.  Model only: the Go scheduler running e.g.
configure.go:160-166. -/
def exec (gors : List Gor) : List Nat → Option (List Gor)
  | [] => some gors
  | i :: is => (step gors i).bind fun gs => exec gs is

/-- A section under the write lock: `Lock` … `Unlock`.  Library sync; e.g. lra.go:39-40. -/
def locked (l : Lock) (inner : List Act) : List Act := [.lock (.announce l), .lock (.acquire l)] ++ inner ++ [.lock (.unlock l)]

/-- A section under the read lock: `RLock` … `RUnlock`.  Library sync; e.g. lra.go:54-55. -/
def reading (l : Lock) (inner : List Act) : List Act := [.lock (.rlock l)] ++ inner ++ [.lock (.runlock l)]

/-- The same actions `n` times.  Model only: loops, e.g. lra.go:125-134. -/
def times (n : Nat) (acts : List Act) : List Act := (List.replicate n acts).flatten

/-- Reading, changing, taking the length.  Model only: abbreviations for e.g. lra.go:41, 46, 122. -/
def rd (p : Place) : Act := .touch p .read
/-- Changing.  Model only: abbreviation for e.g. lra.go:46. -/
def wr (p : Place) : Act := .touch p .write
/-- Taking the length of a Go map.  Model only: abbreviation for e.g. cachemap2.go:21. -/
def ln (p : Place) : Act := .touch p .len

/-- The calls that touch shared things and neither refresh the configuration nor register observers.  The number `c` is that of the cache, `i`
that of the metering object.  lra.go:34-136; cachemap.go:16-108; cachemap2.go:20-125; cacheset.go:26-77; keygen.go:32-37; metering.go:42-91;
configure.go:262-272. -/
inductive Plain where
  /-- `Add` of a known key, lra.go:38-44 -/
  | lraAddKnown (c : Nat)
  /-- `Add` of a new key, with or without eviction, lra.go:38-50, 86-100 -/
  | lraAddNew (c : Nat) (evict : Bool)
  /-- `Get`, lra.go:53-60 -/
  | lraGet (c : Nat) (hit : Bool)
  /-- `Contains`, lra.go:62-69 -/
  | lraContains (c : Nat)
  /-- `Empty`, lra.go:71-75 (which calls `Size`) -/
  | lraEmpty (c : Nat)
  /-- `Size`, lra.go:102-106 -/
  | lraSize (c : Nat)
  /-- `Remove`, lra.go:78-84, 93-100 -/
  | lraRemove (c : Nat) (hit : Bool)
  /-- `Clear`, lra.go:108-119 -/
  | lraClear (c : Nat)
  /-- `GetValues` that goes over `n` entries, lra.go:121-136 -/
  | lraValues (c : Nat) (n : Nat)
  /-- `Add` of a `cachemap`: known or new key, number of evictions, cachemap.go:38-45, 52-68 -/
  | mapAdd (c : Nat) (new : Bool) (evictions : Nat)
  /-- `Remove`, cachemap.go:47-50 -/
  | mapRemove (c : Nat) (hit : Bool)
  /-- `Contains`, `Get`, cachemap.go:70-88 -/
  | mapGet (c : Nat)
  /-- `Empty`, cachemap.go:90-94 -/
  | mapEmpty (c : Nat)
  /-- `Size`, `String`, cachemap.go:96-98, 106-108 -/
  | mapSize (c : Nat)
  /-- `Clear`, cachemap.go:100-104 -/
  | mapClear (c : Nat)
  /-- `GetValues`, cachemap.go:16-28 -/
  | mapValues (c : Nat) (n : Nat)
  /-- `Add` of a `cachemap2`, cachemap2.go:57-66, 79-88 -/
  | map2Add (c : Nat) (new : Bool) (evictions : Nat)
  /-- `Remove`, cachemap2.go:68-77 -/
  | map2Remove (c : Nat)
  /-- `Contains`, `Get`, cachemap2.go:90-103 -/
  | map2Get (c : Nat)
  /-- `Empty`, cachemap2.go:105-109 -/
  | map2Empty (c : Nat)
  /-- `Size`, `String`, and the goroutine started by the first `New`, cachemap2.go:41-52, 111-113, 123-125 -/
  | map2Size (c : Nat)
  /-- `Clear`, cachemap2.go:115-121 -/
  | map2Clear (c : Nat)
  /-- `GetValues`, cachemap2.go:20-32 -/
  | map2Values (c : Nat) (n : Nat)
  /-- `Add` of a `cacheset`, cacheset.go:26-50 -/
  | setAdd (c : Nat) (new : Bool) (evictions : Nat)
  /-- `Contains`, cacheset.go:52-56 -/
  | setContains (c : Nat)
  /-- `Empty`, cacheset.go:58-62 -/
  | setEmpty (c : Nat)
  /-- `Size`, `String`, cacheset.go:64-66, 74-76 -/
  | setSize (c : Nat)
  /-- `Clear`, cacheset.go:68-72 -/
  | setClear (c : Nat)
  /-- `GetConfigureDescMap`, configure.go:262-272 -/
  | describe
  /-- using a setting, e.g. tctxmanager.go:89-100; dataproxy.go:170-171 -/
  | useSettings
  /-- the sampler's observer, some pattern having changed or not, xlogsampler.go:48-71 -/
  | samplerRun (changed : Bool)
  /-- the sampler's decision, xlogsampler.go:73-251 -/
  | decide
  /-- `SendServiceName` and the other functions that send a text, the text being known or new, dataproxy.go:49-200 -/
  | sendText (c : Nat) (known evict : Bool)
  /-- `Next`, keygen.go:32-37 -/
  | nextKey
  /-- `Add` of a metering object, `n` buckets being cleared because the clock went on, serviceMetering.go:49-58; valueMetering.go:37-43;
  metering.go:42-64 -/
  | meterAdd (i : Nat) (n : Nat)
  /-- `GetAllCounter` of a metering object that looks at `k` buckets, serviceMetering.go:60-87; valueMetering.go:45-65; metering.go:82-91 -/
  | meterGet (i : Nat) (n k : Nat)
deriving DecidableEq, Repr

/-- `getPosition`: `n` buckets are cleared.  metering.go:47-64. -/
def position (i n : Nat) : List Act :=
  locked (.ring i) ([rd (.ring i)] ++ times n [wr (.ring i), wr (.buckets i)] ++ (if n = 0 then [] else [wr (.ring i)]) ++ [rd (.ring i)])

/-- `Add` of a new key: the list is extended, then the map; if the cache is too long the last of the list is removed from both.
lra.go:45-49, 86-100. -/
def addNew (c : Nat) (evict : Bool) : List Act :=
  [rd (.lraTable c), wr (.lraList c), wr (.lraTable c), rd (.lraList c)] ++
    (if evict then [rd (.lraList c), wr (.lraList c), wr (.lraTable c)] else [])

/-- What each call does.  lra.go:34-136; cachemap.go:16-108; cachemap2.go:20-125; cacheset.go:26-77; dataproxy.go:49-200; keygen.go:32-37;
metering.go:42-91; configure.go:262-272; xlogsampler.go:48-251. -/
def Plain.acts : Plain → List Act
  | .lraAddKnown c => locked .lra [rd (.lraTable c), wr (.lraEntry c)]
  | .lraAddNew c evict => locked .lra (addNew c evict)
  | .lraGet c hit => reading .lra ([rd (.lraTable c)] ++ if hit then [rd (.lraEntry c)] else [])
  | .lraContains c => reading .lra [rd (.lraTable c)]
  | .lraEmpty c => reading .lra (reading .lra [rd (.lraList c)])
  | .lraSize c => reading .lra [rd (.lraList c)]
  | .lraRemove c hit => locked .lra ([rd (.lraTable c)] ++ if hit then [wr (.lraList c), wr (.lraTable c)] else [])
  | .lraClear c => locked .lra [wr (.lraList c), wr (.lraTable c)]
  | .lraValues c n => [rd (.lraList c), .lock (.rlock .lra), rd (.lraTable c)] ++
      times n [.lock (.runlock .lra), rd (.lraEntry c), .lock (.rlock .lra), rd (.lraTable c)] ++ [.lock (.runlock .lra)]
  | .mapAdd c new evictions => locked .cachemap ([rd (.mapField c), rd (.mapTable c)] ++ if new then
      [rd (.mapOrder c)] ++ times evictions [rd (.mapOrder c)] ++
        times evictions [rd (.mapTable c), wr (.mapTable c), rd (.mapOrder c), wr (.mapOrder c)] ++
        [rd (.mapTable c), wr (.mapOrder c), wr (.mapTable c)] else [])
  | .mapRemove c hit => locked .cachemap ([rd (.mapField c), rd (.mapTable c)] ++
      if hit then [wr (.mapTable c), rd (.mapOrder c), wr (.mapOrder c)] else [])
  | .mapGet c => reading .cachemap [rd (.mapField c), rd (.mapTable c)]
  | .mapEmpty c => locked .cachemap [rd (.mapField c), rd (.mapOrder c)]
  | .mapSize c => [rd (.mapField c), rd (.mapOrder c)]
  | .mapClear c => locked .cachemap [wr (.mapField c)]
  | .mapValues c n => [rd (.mapField c), rd (.mapOrder c), .lock (.rlock .cachemap), rd (.mapField c), rd (.mapOrder c), rd (.mapTable c)] ++
      times n [.lock (.runlock .cachemap), .lock (.rlock .cachemap)] ++ [.lock (.runlock .cachemap)]
  | .map2Add c new evictions => locked .cachemap2 ([rd (.map2Table c)] ++ if new then
      [rd (.map2Order c)] ++ times evictions [rd (.map2Order c), wr (.map2Order c), wr (.map2Pos c), wr (.map2Table c), rd (.map2Order c)] ++
        [wr (.map2Table c), wr (.map2Order c), rd (.map2Order c), wr (.map2Pos c)] else [])
  | .map2Remove c => locked .cachemap2 [wr (.map2Table c)]
  | .map2Get c => reading .cachemap2 [rd (.map2Table c)]
  | .map2Empty c => locked .cachemap2 [rd (.map2Order c)]
  | .map2Size c => [rd (.map2Order c)]
  | .map2Clear c => locked .cachemap2 [wr (.map2Table c), wr (.map2Order c), wr (.map2Pos c)]
  | .map2Values c n => [ln (.map2Table c), .lock (.rlock .cachemap2), rd (.map2Table c)] ++
      times n [.lock (.runlock .cachemap2), .lock (.rlock .cachemap2), rd (.map2Table c)] ++ [.lock (.runlock .cachemap2)]
  | .setAdd c new evictions => locked .cacheset ([rd (.setField c), rd (.setTable c)] ++ if new then
      [rd (.setOrder c)] ++ times evictions [rd (.setOrder c)] ++
        times evictions [rd (.setTable c), wr (.setTable c), rd (.setOrder c), wr (.setOrder c)] ++
        [rd (.setTable c), wr (.setTable c), wr (.setOrder c)] else [])
  | .setContains c => reading .cacheset [rd (.setField c), rd (.setTable c)]
  | .setEmpty c => locked .cacheset [rd (.setField c), rd (.setOrder c)]
  | .setSize c => [rd (.setField c), rd (.setOrder c)]
  | .setClear c => locked .cacheset [wr (.setField c)]
  | .describe => reading .desc [rd .descOrder, rd .descTable]
  | .useSettings => [rd .settings]
  | .samplerRun changed => [rd .patterns, rd .settings] ++ if changed then [wr .patterns] else []
  | .decide => [rd .settings, rd .patterns]
  | .sendText c known evict => reading .lra [rd (.lraTable c)] ++ if known then [] else locked .lra (addNew c evict)
  | .nextKey => locked .keygen [wr .random]
  | .meterAdd i n => locked (.meter i) (position i n ++ [wr (.buckets i)])
  | .meterGet i n k => position i n ++ times k [rd (.buckets i)]

/-- All calls: observers run plain calls.  configure.go:210-260; opserver.go:13-40. -/
inductive Call where
  | plain (p : Plain)
  /-- `Refresh` of a configuration that changed: whether the object's name changed, what the observer of the name does, what the other observers
  do, configure.go:191-260, 334-416 -/
  | refresh (renamed : Bool) (nameObserver : List Plain) (observers : List (List Plain))
  /-- `Refresh` of a file that did not change, configure.go:210-226 -/
  | refreshNothing
  /-- `AddToConfObserver`, opserver.go:13-18 -/
  | observe
  /-- `AddObjChangedObserver`, opserver.go:20-22 -/
  | observeName
deriving DecidableEq, Repr

/-- Reading one setting: its description is stored under the lock of the descriptions, then the setting itself is stored.
configure.go:274-333. -/
def setting : List Act := locked .desc [rd .descTable, wr .descOrder, wr .descTable] ++ [wr .settings]

/-- What each call does.  configure.go:191-260, 334-416; opserver.go:13-40. -/
def Call.acts : Call → List Act
  | .plain p => p.acts
  | .refresh renamed nameObserver observers => locked .conf
      ([rd .settings] ++ times 2 setting ++
        (if renamed then reading .observers ([rd .nameObserver] ++ (nameObserver.map Plain.acts).flatten) else []) ++
        times 61 setting ++ reading .observers ([rd .observers] ++ (observers.map fun o => (o.map Plain.acts).flatten ++ [rd .observers]).flatten))
  | .refreshNothing => locked .conf [rd .settings]
  | .observe => locked .observers [wr .observers]
  | .observeName => [wr .nameObserver]

/-- Before anything ran: each goroutine with its calls.  Model only: goroutines of the agent, e.g. configure.go:160-166. -/
def start (calls : List (List Call)) : List Gor := calls.map fun cs => { code := (cs.map Call.acts).flatten }

end Accesses
end Scouter
