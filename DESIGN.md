# Formal model of scouter-agent-golang: design

## 1. Approach

`lean/Verif/Model/*`  function-by-function models of the Go code (each definition cites file:lines in /repo).
`lean/Verif/Spec/*`   small independent specifications (collector wire grammar, CRC-32, wildcard reading,
                      insertion-ordered map, sliding window, ...). They never mention model helpers.
`lean/Verif/Proofs/*` helper lemmas.
`lean/Verif/Props/*`  the property theorems `Scouter.Cnn_*`, each with an `example` showing its hypotheses
                      are met by a concrete non-trivial case.

Modelling conventions

* Go `string` and `[]byte` are `List (BitVec 8)`; fixed-width integers are `BitVec n` wherever wrap-around or
  truncation is observable, otherwise `Nat`/`Int` (said in the definition's comment).
* Go panics are an explicit outcome `Go.panic`; unbounded loops are either structural (bounded by a number in the
  state) or take fuel, with `Go.fuel` as the out-of-fuel outcome and a theorem that enough fuel never yields it.
* Go errors are returned values; code that overwrites `err` is modelled as overwriting it.
* Go maps are association lists in iteration order; statements quantify over every list, hence every order.
* Time, randomness, generated ids, the OS and the network are parameters (oracles) of the steps.
* Mutation through pointers returns the new state; goroutines become interleaved atomic steps.

## 2. Per-property plan

| Id | Modelled | Proof |
|----|----------|-------|
| C01 | WriteDecimal/WriteDecimal32/ReadDecimal on byte lists, BitVec 64/32 | case split on the five ranges, sign-extension lemmas |
| C02 | all fixed-width writers/readers | BitVec extract/append lemmas |
| C03 | WriteBlob/ReadBlob with int16/int32 conversion and `make` panic | exact characterisation by length class |
| C04 | WriteString/ReadString | from C03 |
| C05 | Value tree, Write*/Read*, CreateValue | mutual structural induction on the value tree |
| C06 | Ip4Value write, reader picking BlobValue | refutation for every address |
| C07 | ReadValue with fuel on arbitrary bytes | induction on fuel; suffix and panic characterisation |
| C08 | DataOutputX with both `written` and buffer | every writer = append, lifted to op sequences |
| C09/C10 | packs, CreatePack, ReadPack | composition of C01-C05; witness for C10 |
| C11/C12 | XlogPack, profile, text, alert writers | independent collector decoder, decode-of-encode |
| C13/C14 | steps, StepsToBytes, SetMessage | induction on the list; split/join |
| C15 | Put/Get of map pack, map value, counter packs | refinement to `Key -> Option Value` over op lists |
| C16 | table-driven Hash | bitwise CRC spec; linearity; 256-entry table by kernel `decide` |
| C17 | Hash | step is a bijection of (state, byte window); induction |
| C18 | IpToBytes with Split and ParseUint | spec relation, both directions |
| C19 | NewStrMatch/include | wildcard relation, induction on lists |
| C20 | chained matcher | universal refutation |
| C21/C22 | IntToXlogString32, GetDuration | digits round-trip; div/mod arithmetic |
| C23-C25 | lra cache with element identities | refinement to an insertion-ordered list; callback log invariant |
| C26/C27 | cachemap, cacheset, cachemap2 | invariants over op lists; witnesses |
| C28 | sync.RWMutex state machine, lock programs of the operations | deadlock witness; progress invariant |
| C29/C30 | udpclient | list induction; collector parser |
| C31 | queue + sender loop small-step machine | history invariant over every interleaving |
| C32 | dataproxy text caches over the lra model and the queue | invariants over op lists; witnesses |
| C33-C35 | profile collector, SendProfile | stack-discipline invariant; conservation invariant; witness |
| C36-C44 | strace API as a state machine over contexts, registry, caches, outputs | invariants by induction over calls; interleaving witness for C37 |
| C45/C46 | metering ring | window invariant |
| C47/C48 | Refresh and property lookup | history induction; witnesses |
| C49-C51 | TCP framing, dispatch, reconnect loop | collector parser; witnesses; induction over rounds |
| C52/C53 | dump download loop, path join/clean | induction on file; path stack lemma; witness |
| C54 | GetActiveCount | fold invariant |
| C55 | ReadValue on arbitrary bytes | explicit ten-byte witness for each count, induction on the count |
| C56 | ReadBlob over a buffer that ends early | case split on the length class |
| C57 | DumpStep writer against the collector's step decoder | decode of the written bytes |
| C58 | HashUint | each round is a bijection of the state (odd multiplier) |
| C59 | every function of strace with its recover handler, panics as an outcome | no-panic invariant over all calls |
| C60 | GoWithTrace up to its go statement | from the invariant of C59; witness for an empty buffer |
| C61 | the end of a service in full, against an independent record of what the log should hold | symbolic execution of the end of a service |
| C62 | metering ring | window invariant re-based at the new time |
| C63 | descMap next to the fields | history invariant: fields and listing come from the same file |
| C64 | Refresh with run counters | case analysis of Refresh; induction over loads |
| C65 | `bufio.Writer` of 4096 bytes (library) and the two ways dump.go uses it | invariant file ++ buffer = everything written; case split on the length of the single write |
| C66 | agent state (tracing world, configuration, file text, file system) and every request handler; lives as lists of events | every event keeps the ledger of started/ended services (invariant over lives), the answer reads the registry |
| C67 | handler over the registry of running services | ledger invariant plus reading the answer's keys |
| C68 | saveConfig, SaveConfigText and Refresh with the file's time and readability as oracles | case analysis against the separate spec of what a text means (InEffect) |
| C69 | listing handlers over the table of keys | invariant that the configuration held is one a loaded text means |
| C70 | table of handlers as a dispatch function | case analysis over all commands |
| C71 | file system as a finite map from paths, walk as a filter | membership, no duplicates, join of ordinary names; distinct paths is an invariant of lives |
| C72 | announcement as an event; the refresh passes settings to tracing | invariant of lives |
| C73 | Model/Trace + Spec/Recording (`Wrote`: everything a call may change, exactly) | each call is run symbolically from an arbitrary reachable state (invariant `Good`), composing `Wrote` steps |
| C74 | Model/Trace startHttpService; Spec/Recording httpName, clientAddress, requestLines, named | symbolic run from any reachable state; separate lemmas that the configured key list is what requestLines says |
| C75 | Model/Trace startApiCallProp, endApiCall | symbolic run from any reachable state; induction over histories for the totals |
| C76 | Model/Trace startInheritance, goWithTrace, goBegin; Spec/Recording inheriting, groupOf | symbolic run from any reachable state |
| C77 | Model/Trace, Model/Calls; Props/Fields (nameGiven, textsGiven, apiCallTimes: read off the calls) | per-call frame lemma (what each call may set) and induction over the history; composed with C61 |
| C78 | countertask rounds over the tracing world and the meters; runtime figures are inputs | induction over events: the meter contents are the recorded history, then C45 |
| C79 | as C78 | ledger invariant of C36 along the events |
| C80 | collector.go as written | as C78 |
| C81 | the whole trace world: contexts, step heap, profile buffers, direct pack list | invariant over histories (Proofs/Stream): sent steps and bytes agree for each context, recorded steps are frozen; with C34 for the last flush |
| C82 | the position a call works on (Spec/Apart: about), the trace world | frame property per API function (Proofs/Apart), induction over the history |
| C83 | Spec/Story lists, call by call, the steps a call tells; Wire.steps decodes | C73-C76 per call, C81 for the stream, C13 for decoding; induction over the history |
| C84 | Handlers.handle, Dump paths and files | path algebra (join, written), C65, C71 |
| C85 | Model/Profiling: runtime switches, files and goroutines as a transition system | invariants over histories (Kept, CpuOk), file frame |
| C86 | Model/Recorders: loads and stores of the collector as instructions of goroutines over a shared heap (sequentially consistent) | simulation of the sequential model for turn-taking schedules; slot-count and room invariants for all schedules; witness schedules |
| C87 | Model/Announcers: contains / add / enqueue as separate steps of goroutines | invariant Covered (who told or is telling) and a count by call |
| C88 | Model/ListAccess | induction on the appends; C05 for transport |
| C89 | Model/Iterating: GetValues as small steps over the atomic cache operations, with the language specification's rules for ranging over a changing map | invariants over the events of a call (induction), a potential function for the count |
| C90 | Model/LockOrder: every locking call as its list of lock actions, RWMutex with writer preference | lock-order argument: the holder of a lock of the highest rank can go on; each call's actions fit the order |
| C91 | A state machine with one step per lock operation, clock reading, field clearing, field read and field write; two locks, a clock that ticks between any two steps. | Inductive invariant over all schedules: each bucket of the last 301 seconds holds what returned calls and the call under way have put there; scans are squeezed between begun and ended. Exhibits for the torn reading and for the necessity of the time limit. |
| C92 | the UDP client's calls (C29, C30) with the fragment ids they draw; a network that permutes, loses and repeats datagrams; a collector that joins fragments by id | each call's datagrams are those of a list of messages; fragments belong to one message because ids are distinct; induction over the messages |
| C93 | Refresh with a file that fails at os.Stat or LoadFile; the fields assigned by GetInstance before the first refresh | induction over the history; the settings by evaluation over the finite table |
| C94 | the path functions over environment, working directory and temporary directory; refreshes looking at the file so found | path algebra (Clean on ordinary elements); induction over histories; a concrete history for the loss |
| C95 | `Model/Reload`: the reloading goroutine, changes of the settings and calls in flight, interleaved at each read and write of a shared variable and each datagram. | Invariant on all schedules (clients only made for values the configuration has had, only the current one surely open); a distance of at most 14 that every step of the goroutine decreases; explicit schedules for what is not kept. |
| C96 | `Model/Marking`: the calls as sequences of single reads and writes of the three fields, any number of goroutines. | Invariants kept by every step of every goroutine (pending unguarded writes, provenance of what was read as a sub-multiset of what was added); simulation for schedules taking turns; explicit schedules for what is not kept. |
| C97 | `Model/Deciding`: `Refresh` as a sequence of assignments and renewals of the matchers, a decision as a tree of reads; any number of goroutines. | The results a decision can come to if each read gives what one of the configurations has (induction over the tree), an invariant of all schedules that every setting in effect is that of one of the configurations, and a bound on the reads left. |
| C98 | `Model/Session`: `Prepare` and `Process` over a connection that accepts any number of bytes (or all), with settings changed by others between the reads of them. | Induction over the requests: the written stream is a beginning of the stream of `Model/Tcp` on a perfect connection. |
| C99 | `Model/Program`: the start (log file, first refresh, the two `make`s, the first announcement) and a step for every goroutine, `none` where a panic is not recovered. | Invariant: the table of running services holds services (from C59), the sender's invariant (C95); the settings are always those of some readable file or the presets. |
| C100 | `Spec/References`: the references of each pack and what it means that one is known. The model is that of the API (`Model/Trace`, `Calls`) and of requests (`Model/Handlers`). | A Hoare-style judgment kept by every function: what the caches contain, what contexts and steps refer to and what was sent is known among the announcements counted from a chosen point, which only grow; start, or a reset, establishes it. |
| C101 | `Model/Stepwise`: the API as code (a free monad over 20 atomic accesses), goroutines with the heaps only they can reach and a shared rest, a schedule of single accesses; `Spec/Stepwise`. Contexts shared by several goroutines are the subject of C37, C86 and C96, `Send*` in two accesses that of C87; the configuration is constant here. | The code run alone is that of `Model/Trace` (function by function); a simulation relation between a goroutine in company and the one alone, for every reading plan that agrees with the readings made so far, kept by every access (case analysis) and by the accesses of others; the number of turns by induction over the code; consequences from C36 and C100. |
| C102 | `Model/Stepwise` as for C101, each goroutine with a ghost table without bound of its own; `State.start`. | Along every run of the code alone the ids entered are freshly read and those struck out were read (a predicate on code kept by sequencing, walked through all functions); so the shared table is within the union of the private ones, and equal to it while it has room; a private table is exact at the end of a history (induction over moves). |
| C103 | `Model/Keygen`: the source as any deterministic machine, a draw as two accesses between Lock and Unlock. | Invariant over schedules: one goroutine at most inside, the state read is the current one, the multiset drawn is a prefix of the sequence; progress by a measure that every access decreases. |
| C104 | `Model/Print`: the ToString methods, loops with the text so far; float formatting is an oracle. | `Holed` and `Inside` as inductive relations; structural induction over values; induction over reads for what is received. |
| C105 | `Model/Goroutine`: Goid with the recovered panics, StackTrace's loop; what the runtime says is an input. | Length of decimal texts by induction; the loop as an intercalation by induction over frames; the file name characterised by a relation shown to determine it. |
| C106 | `Model/Accesses`: every function as its list of lock actions (semantics of `LockOrder`) and accesses to places; goroutines interleaved at every action | invariant: what goroutines hold excludes each other, and the remaining code makes its accesses under their locks (compositional); races exhibited by schedules for every other place |
| C107 | Composition of C92 (network), C31 (queue), C100 (references), C36/C61 (logs) and C83 (profile); a collector specified by what it obtains (Spec/Collector) | Per call: what a collector obtains from a call's datagrams is a permutation of the call's packs; in-order arrival gives equality by sublist and length |
| C108 | Model/Deferring: a language of Go function bodies with the rules for panic, defer and recover; the reporter, the guarded functions, the goroutine of GoWithTrace and the counter round written in it; applications as programs with calls of the API | induction over the application: a guarded function that does not call recover itself leaves the panic it is run for and lets none out |
| C109 | Model/Trace, Dataproxy, Profile, Meter and Stepwise as they are; Spec/Bounded: what is counted | an invariant of the table sizes and of every collector, kept by each call (Proofs/Bounded) and by every turn of a schedule |
| C110 | Model/Failing: the handlers that use files with an oracle of failures; agrees with Model/Handlers when nothing fails | inductions over the reading loops; the rest by following the code; the refresh after a cut save by C47's lemma |
| C111 | Model/Propagation: the call on a request object with its header map (nil, absent or present), and applications holding requests | a simulation with the call of Model/Trace (same world, its headers added); induction over histories |
| C112 | Model/Floating: IEEE 754 binary formats over the rationals (rounding to nearest even, subnormals, infinities, not a number), their bits, and the computations of the packs; Model/Meter hands over the whole numbers the figures are computed from | rounding is monotone, nearest and within half a digit; error bands multiplied through each operation; bits decode to the number encoded; composition with C78 |
| C113 | Model/FloatText: FormatFloat with three decimals and RoundUp over the numbers of Model/Floating | decoding gives numbers of the format, every float32 is a float64; digits of the rounded thousandths; error bands; one worked counterexample |
| C114 | A state machine as for C91, for the value meter: one step per lock operation, clock reading, field clearing, field read and field write | The invariant of C91 for two fields, and one joint to both: the sum found so far is at most M times the count found so far (plus, between the two reads, the count now in the bucket), because recordings count first and readings read the count last. For the only recorder: nothing is under way while it reads |
| C115 | The table listed entry by entry as for C89 (starts and ends between any two), then the loop of GetActiveCount over what was listed, every read of the settings an arbitrary input | What C89 says of the listed entries (all that stay, none but what was there, at most once per entry), with fresh ids: the listed ids are different; then counting over sub-permutations |
| C116 | The tracing world of C33-C44; a context stays in it after its end | A relation between an ended context before and after (late steps, sent steps, what the buffer holds), kept by every piece of code; the stream of profile bytes of C81 |
| C117 | Model/Conf (the assignments of addToConf, the fields as they are read), Model/Program (the whole program) | A table of names, figures and defaults of its own (Spec/Options); the figures are equal for every configuration in effect; invariants of the life of the program: the tracing settings follow the agent's, the file in effect is one of those it has had |
| C118 | Model/Trace (getRemoteIp, normalizeIp, startService, ends), Model/Util (IpToBytes) | A specification of the texts that name an address (NamesAddress, from the octets of C18); the cut at the first colon is an address exactly if the text names it; the log from C74 and C77 |
| C119 | Model/Ends (endStuck, activeLoop), Model/Calls (activeCount) | A specification of what is told of one stuck service (Spec/Stuck); each end from endRest_full and the recording lemmas; induction over the services looked at, each leaving the others as they are; the profile from C81 |
| C120 | Model/Sweeping: GetActiveCount cut into the taking of each entry, reading the clock, and one look per service, with calls between; taking, look and call are atomic | Invariants over runs of events (Good, Ledger, Counted, Late) shown for a look by the lemmas of C119, C36 and C116; a refinement to the count made at once |
| C121 | Model/Identity: the words of the settings; one writer going through loads word by word, any number of readers each with the words it reads, in any interleaving; sequentially consistent | Each word at each moment is that of a configuration (complete or under way); configurations only advance; the hash is assigned before type and address and read after them |
| C122 | Model/Disclosed: the words of these options, one writer going through loads word by word, any number of requests reading them in the order of the code, in any interleaving; sequentially consistent | Each word is at each moment that of a configuration, no two words are more than one load apart, and configurations only advance; so what is read later is at most one load behind what is read earlier; witness schedules for what is found |
| C123 | Model/Looking: the five options, one writer going through loads assignment by assignment, any number of looks reading them in the order of the code, in any interleaving; sequentially consistent | As C122; moreover the colour limits are assigned last and read first, so they are never newer; a link to the look of Model/Sweeping; witness schedules for what is found |

## 3. Trusted base

1. **Lean's kernel** (Lean 4.33.0).  No `native_decide`, no `bv_decide`, no own axioms, no unfinished proofs.
   `decide +kernel` is used for concrete computations (the 256-entry CRC table, string constants, the worked
   examples and the counterexample histories); it is evaluated by the kernel.
2. **Axioms.** Every manifest theorem depends on at most `propext`, `Classical.choice` and `Quot.sound`; the list per
   theorem is in `AXIOMS.txt` (written by `tools/axioms.sh` from `#print axioms`, at each milestone).
3. **The model.** The theorems are about `lean/Verif/Model`, not about compiled Go.  That the model says what the Go
   code does has been established by reading only; each definition cites the lines it models
   (`tools/citations.py` checks that the citation is there and that the lines exist).
4. **The specifications** in `lean/Verif/Spec` and the definitions beside the theorems (they are what "the English
   says" in Lean).

### What is modelled

| /repo/scouterx | Model | Left out or simplified |
|---|---|---|
| common/netdata/dataoutputx.go, datainputx.go | Out, In | writing to a connection that fails (buffers never fail); floats are bit patterns |
| common/netdata/*value.go, valuecreator.go | Value, MapAccess, ListAccess, Print (`ToString`), FloatText (texts of floats) | |
| common/netdata/*pack.go, packcreator.go, packconstants.go | Pack, MapAccess, Print (`ToString`) | |
| common/netdata/*step.go | Step | |
| common/util/hashutil, hexautil, iputil, strmatch, timeutil, arrayutil | Hash, Util | `TimeToMillis` of dates beyond int64 |
| common/util/osutil, common/logger | Places | links in paths; `MakeDir` failing |
| common/util/mathutil | FloatText (`RoundUp`) | `math.Pow(10, n)` is exact (n up to 22) |
| common/util/fileutil | - | not modelled (`ReadFile`, unused) |
| common/util/keygen | Keygen; oracle `id` of Trace | the pseudo-random function itself (any deterministic source); elsewhere distinctness is a hypothesis (`DistinctIds`) |
| common/structure/lra, cachemap, cachemap2, cacheset | Lra, CacheMap, RWMutex, Iterating, LockOrder, Accesses | calls are atomic except `GetValues` in Iterating; in RWMutex and LockOrder only the locking is modelled, in Accesses the locking and what is touched |
| common/panic.go | `recovered`, `alertOf` in Trace; Goroutine (`Goid`); Deferring (the reporter under Go's rules for defer and recover) | text of the panic value (oracle); in Deferring what API functions do besides is any program, and `Goexit`, `panic(nil)` and runs without end are left out |
| conf/configure.go, exthandler.go | Conf, Handlers, Failing (a save that fails midway), Places (the path of the file), Deciding (the assignments one by one), Identity (name, hash, type and collector address, word by word), Disclosed (what is recorded of requests, word by word), Looking (the limits for active services) | whitespace/encoding rules of the properties library (oracle: what a text means) |
| conf/opserver.go | Conf, Handlers, LockOrder, Accesses | the observers are run in one order (Conf); `sync.Once` |
| counter/metering, serviceMetering, valueMetering | Meter, ConcurrentMeter and ConcurrentValue (the service meter and the value meter, step by step, with their unlocked reads) | in the step-by-step models (where a bucket is also cleared field by field) recorded values are whole numbers and sums exact |
| counter/collector, gocounter, const; task/countertask | Counter, Floating (IEEE 754 arithmetic and bits) | Go runtime statistics are inputs; each round is one step |
| dump/dump.go | Dump, Handlers, Failing (failures of the file system), Profiling, Goroutine (`StackTrace`) | contents of profiles (oracle); the thirty seconds (any schedule) |
| netio/dataproxy.go | Dataproxy, Announcers, Trace | |
| netio/profilecollector.go, tracecontext.go | Profile, Recorders, Marking, Trace | `checkDumpStep` (its body is a comment) |
| netio/tcpclient | Tcp, Session, Handlers | dial, time-outs and sleeps are how a round goes (oracle); in Tcp every write succeeds, in Session a write may fail at any byte and the settings may change at any moment |
| netio/udpclient, udpsender | Udp, Sender, Reload | the socket: what is handed to `Write`; loss, repetition and reordering are in the specification (Spec/Network, C92) |
| common/factory/channelfactory | Sender, Dataproxy (capacity), Program (a negative one) | |
| strace/tracemain.go, tctxmanager.go, xlogsampler.go | Trace, Calls, Stepwise, Ends, Marking, Sampler, Deciding, Propagation (outgoing requests as objects), Disclosed and Looking (reads of the options one by one), Counting (GetActiveCount over a table that changes), Sweeping (what its looks do to services between calls) | goroutines with contexts of their own are interleaved access by access (Stepwise); calls on one shared context are atomic except the ending of a service (Ends), recording (Recorders), errors and api calls (Marking), each in every interleaving; a decision is atomic except in Deciding (in every interleaving with a refresh; of the settings it reads single words: numbers, flags and lengths of texts; that reading a matcher, which is a slice, is not torn is assumed) |
| task/agenttask | Handlers (`announce`), Program (its trace) | its period |
| agent.go | Handlers (`Agent.start`, observer), Program (`boot`, `life`: what ends the process) | running out of memory, and `os.Exit` by others |

### Library behaviour assumed (written into the model from the documentation)

`encoding/binary` big-endian; `strconv.FormatInt/ParseInt/ParseUint/FormatBool`; `strings.Split/Join/TrimSpace/ToLower`
(ASCII); `sync.RWMutex` with writer preference; `container/list`; gods `linkedhashmap` and `hashset`; buffered channels with
`select`/`default`; `http.Header.Get/Values/Add`; `filepath.Clean/Join/Walk`; `os.Stat/Remove`; `bufio.Writer` of 4096
bytes; `io.ReadFull` and single `Read` of a connection; `context.WithValue`; magiconair `properties` (get, set, defaults,
`GetBool`, `GetInt`); Go's `defer`, `panic` and `recover` (which call of `recover` finds which panic).

## 4. What the proofs found

Statements that hold are theorems; where the code breaks what a user would expect, the theorem states exactly what
happens, and for which inputs.

* C03 - a blob or text of 32768..65535 bytes is written so that the agent's own reader panics; C55/C56 - ten bytes can
  decode to a list of any length, and a blob cut short is padded with zeros.
* C06/C10/C57 - an Ip4Value is read back as a blob, the object pack the agent sends cannot be read by its own reader, and
  dump steps look like method steps.
* C20 - a comma-separated pattern list matches nothing at all.
* C27/C28 - `cachemap2` miscounts after a removal; lra's `Empty` can deadlock with one writer.
* C32 - a text whose announcement was dropped by a full queue is remembered as announced.
* C33 - the second root step of a profile looks like a child of step 0.
* C35 - a log reports the profile steps sent before its last buffer was flushed.
* C37 - two goroutines ending the same service can send its log twice.
* C39/C40 - logs of child services are sent even when the parent was sampled away; an inner end closes the outer service,
  and starting a service on the context of an ended one is lost.
* C47/C48 - a configuration file restored with an older time is ignored forever; environment values are cut at the first
  `=`, and an entry without `=` stops the program; C63 - sampling times are cut to 32 bits.
* C50/C51 - frame bodies are read with one `Read`; the reconnection pause never grows.
* C53 - downloads and deletions can leave the dump directory; C65 - thread dumps are not flushed; C71 - files of
  subdirectories are listed by base name.
* C54 - the alert of a stuck service is formatted with a missing argument.
* C60 - with a profile buffer of no steps `GoWithTrace` does not run the caller's function.
* C62 - calls recorded before the clock is set back are reported in the wrong window or lost.
* C84 - the file name answered by a thread dump trigger does not fetch the file; C85 - overlapping mutex profiles leave the
  application with a changed fraction, a block profile turns the application's own block profiling off, and a second CPU
  profile at the same time leaves an empty file although the collector is told that it worked.
* C86 - goroutines recording on one service at the same time can lose a step, send steps twice, give two steps the same
  number or panic, and ending the service meanwhile can panic (its log is then not sent); C87 - the same text can be
  announced twice, and a hash can be sent before its text.
* C89 - a listing of the running services can name a key twice or one that is gone; C90 - an observer of the configuration
  that registers an observer or refreshes the configuration blocks for ever.
* C91 - the counters of a moment in which a call is being recorded can count the call without its time, or show an error rate of 200 %;
  C114 - likewise the average number of active services in the five-minute pack can be below all recorded values (never above).
* C93 - with a configuration file that cannot be parsed at start, environment variables are ignored and the agent reports
  as an object without name and with hash 0; C94 - unless an absolute path is configured, a program that changes its working
  directory loses the agent's configuration, and returning does not bring it back; a log file that cannot be opened ends the
  program.
* C68 - saving a configuration answers "true" also when it does not take effect; C70 - the replies of two triggers are
  dropped.
* C95 - a reload that looks between the assignments of a refresh connects to an address that was never configured (the
  new host with the old port) until the next round; a collector address that could not be resolved or dialled once is
  never tried again until the configuration changes; a pack whose client is replaced between two fragments is cut off; a
  `udp_max_bytes` of 0 ends the program with the next pack (the writers run in goroutines without recovery).
* C96 - error and api calls of a service are read and written without a lock: when calls overlap, a later error can replace
  the first, marking an error with an empty text can take another goroutine's error away (the service is then taken to have
  succeeded and may be discarded), api calls can be missing from the count while their time is counted, and an error marked
  during the end of the service can be in a log that is discarded.
* C97 - decisions read settings one by one while a refresh writes them: turning sampling on together with rates of 100
  percent drops services in between although both configurations keep them all.
* C98 - a collector whose address changes while the agent dials keeps being served under the old address: the session never
  ends for the change; a request whose reply is lost has been carried out.
* C99: three settings end the application. A negative `profile_step_max_keep_in_memory_count` or `send_queue_size` panics in a package
  variable's initialisation, before `main` (make with a negative size); `trace_obj_send` with a collector whose name cannot be resolved
  calls `RemoteAddr` on a nil connection, at start or at the next announcement after a refresh turned it on, in a goroutine that does not
  recover; `udp_max_bytes=0` divides by zero in the sending goroutine at the first datagram (as C29). The collector can cause the last two with
  `SET_CONFIGURE_WAS`.
* C100: `OBJECT_RESET_CACHE` makes the agent announce again what later calls announce, and a service's end announces its name, thread name, login and
  description; the error, user agent and referer of a service still running and the hashes its profile already contains are not announced again,
  so a collector that asks for it because it has lost its texts cannot show them.
* C102: `tctxmanager.Size()` is a stub that returns 0 (tctxmanager.go:26-29); the number of running services is that of the table (lra.go:102-106), which is what C102 is about. Nothing calls `Size()`.
* C103: the generator is seeded with the Unix second of the start, so two agents started in the same second hand out the same ids.
* C104: `ToString` of the boolean false is "fasle"; of an IP address its raw bytes; of a map with a nil entry a panic (lists with nil elements are fine).
* C105: until `RegisterSendPanicF` has been called, a panic recovered by the agent calls a nil function and so panics again.
* C106: what goroutines touch at the same time without a lock, one of them changing it: a cache's list (`GetValues` takes its length first) and
  the values of its entries, `Size` of cachemap, cachemap2 and cacheset, the observer of the object's name, the settings (texts among them, which Go
  keeps in two words), the sampler's patterns, the buckets of a meter. None of them is a Go map, so the runtime does not end the program for it;
  what such a race gives beyond the values modelled elsewhere is left open by Go's memory model.
* C107: a profile is a byte stream over several packs with no numbering; the collector's profile is the one sent only if those packs arrive in
  order (for logs and texts the order does not matter).
* C108: the application's panics pass unchanged. `reportScouterPanicFinal` is called, not deferred, so it never recovers anything: a panic while
  the alert is sent would reach the application. A panic of the application's own `Error` method inside `EndApiCall` is swallowed. A panic while
  the real-time counter gathers its figures is reported and then ends the program: the nil pack is sent.
* Memory (C109): the tables and buffers are bounded, but not what is on its way out. Every pack that is sent directly starts a goroutine
  of its own (udpsender.go:87-96), and these wait for the socket without any bound on their number; the lengths of the texts and of the
  packs held are the application's. Neither is counted by C109.
* Failures of the file system (C110): `filepath.Walk` hands a nil `FileInfo` to its function when an entry cannot be looked at, and
  dump.go:218 and :239 dereference it: one file that goes away while a list is made makes the whole list fail with a panic. A dump's
  text that broke off looks like a whole one. `SaveConfigText` truncates the file before it writes: a save that fails, and says so, has
  lost the old configuration, and the next refresh loads what is left.
* Outgoing requests (C111): `Header.Add` puts the propagated ids behind those a request has already, so a second attempt with the same
  request, or a request passed on with its headers, tells a receiver that takes the first value about the first call. A request without a
  header map (`&http.Request{}`) makes the call panic after it has opened its step: later steps hang from a step that is in no pack.
* Floating-point figures (C112): the two quotients are computed in `float32`, so from 2^24 + 1 services on an error rate of exactly 100 can be
  sent although a service succeeded. `GetGoCounter` divides by the nanoseconds since the previous round without looking: at the same
  nanosecond the pack carries infinities or "not a number" (a clock with a coarse resolution), after a clock set back negative rates.
* `RoundUp` (C113, unused by the agent itself) multiplies before it rounds up, and the product of 0.07 and 100 is a little more than 7: the
  result is 0.08.
* C115: GetActiveCount lists the table without a lock held throughout (lra.go:121-136), so a service that ends after it was listed and one
  that starts later can both be counted: the number of active services in the pack can be more than ever ran at once, and a service that has
  ended meanwhile can be reported stuck.
* C116: the end of a service sends its profile but does not empty the buffer (profilecollector.go:60-65), and the recording calls do not look
  whether the service has ended. Code that still runs after its service was ended as stuck (`stuck_service_base_time_ms`, five minutes by default), or a
  goroutine that outlives it, fills the buffer once more: the steps of the end are received twice, or the profile of a service that was sampled
  away is received after all; if the buffer does not fill, the late steps are lost.
* C117: `xlog_discard_service_show_error` is read and shown, and nothing depends on it.
* C118: an IPv6 client is shown as 0.0.0.0 (tracemain.go:189-192 cuts the address at its first colon); so is a client whose configured header lists several
  addresses (`X-Forwarded-For: 1.2.3.4, 5.6.7.8`), although the first and the connection's address are both known. A header is believed whoever sends it.
* C121 - texts of the configuration are two words, assigned while others read them without a lock: a new name (collector address) of another
  length can be told (called) cut short or run over; from `10.0.0.1` to `10.0.0.23` the agent may call `10.0.0.2`.
* C122 - one load that sets `profile_http_header_enabled=true` and `profile_http_header_keys=X-Request-Id` (configure.go:361-362, in this order): a request
  started between the two assignments has all its headers recorded and sent, `Authorization` and `Cookie` among them. Naming the headers in one
  load and turning the recording on in a later one is safe (`C122_named_before`).
* C123 - one load that sets `stuck_service_base_time_ms=1000` and `stuck_service_remove_enabled=false` (configure.go:350-351, in this order; it was 300000 and
  true): a service two seconds old that is looked at between the two assignments is ended by force and logged as failed. Loads that change one of the
  two at a time are safe (`C123_one_option`).
* Outside of the listed properties: the thread name of a log is made from the
  global id, not from the goroutine's id; the elapsed time of a profile pack is never written to the wire.

## 5. Testing the theorems

`seeded/LOG.jsonl` has one line per edit of the model that a realistic bug would make: what was edited, the claim it
breaks, which theorems (or the lemmas they rest on) stopped proving, and what was tightened when nothing did.
