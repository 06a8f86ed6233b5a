{"id": "C01", "title": "Decimal numbers survive the wire exactly and in shortest form", "statement": "Writing any int64 with WriteDecimal (or any int32 with WriteDecimal32) and reading it back with ReadDecimal returns the same number without error and leaves exactly the bytes that followed it unread; the encoding is the shortest of the five forms (1, 2, 3, 5 or 9 bytes) whose range contains the number.", "quantifier": "every int64, every int32, every trailing byte string", "why_tests_cant": "2^64 inputs and five boundary pairs; a test samples a handful", "anchors": ["scouterx/common/netdata/dataoutputx.go:WriteDecimal,WriteDecimal32", "scouterx/common/netdata/datainputx.go:ReadDecimal"]}
{"id": "C02", "title": "Fixed-width numbers are big-endian and round-trip", "statement": "For every int8/uint8/int16/int32/int64/float32/float64 bit pattern and every bool, the bytes written are the big-endian bytes of the value, and the matching Read returns the same value, no error, and leaves the following bytes unread. A Read on too short an input returns zero and an error and consumes what was left.", "quantifier": "every bit pattern, every trailing byte string, every truncated input", "why_tests_cant": "2^64 bit patterns per width", "anchors": ["scouterx/common/netdata/dataoutputx.go:WriteInt8..WriteFloat64,WriteBoolean", "scouterx/common/netdata/datainputx.go:ReadInt8..ReadFloat64,ReadBoolean"]}
{"id": "C03", "title": "Blobs round-trip at every length except the signed-16-bit window", "statement": "WriteBlob followed by ReadBlob returns the same bytes and leaves the following bytes unread for every length below 2^31 outside 32768..65535; for every blob whose length lies in 32768..65535 the agent's own ReadBlob panics. A collector that reads the two-byte length as unsigned recovers the blob at every length below 2^31.", "quantifier": "every byte string of length below 2^31, every trailing byte string", "why_tests_cant": "length classes meet at 0/253/254/32767/65535/65536; contents are unbounded", "anchors": ["scouterx/common/netdata/dataoutputx.go:WriteBlob", "scouterx/common/netdata/datainputx.go:ReadBlob"]}
{"id": "C04", "title": "Strings round-trip up to 100000 bytes and are replaced by a marker beyond that", "statement": "WriteString then ReadString returns the same string for every string of at most 100000 bytes outside the 32768..65535 window, and returns the text 'huge string omitted...' for every longer string; following bytes are left unread.", "quantifier": "every string, every trailing byte string", "why_tests_cant": "unbounded inputs and boundaries", "anchors": ["scouterx/common/netdata/dataoutputx.go:WriteString", "scouterx/common/netdata/datainputx.go:ReadString"]}
{"id": "C05", "title": "Every value tree round-trips for every map iteration order", "statement": "For every Value tree built from null, boolean, decimal, float, double, text, text-hash, blob, list and map values (arbitrarily nested, any map iteration order), ReadValue applied to what WriteValue wrote returns an equal tree (a nil element comes back as the null value, over-long text as its marker) with no error and leaves following bytes unread.", "quantifier": "every value tree of any depth and width within the length limits, every map iteration order, every trailing byte string", "why_tests_cant": "recursive type with unbounded nesting and nondeterministic map order", "anchors": ["scouterx/common/netdata/dataoutputx.go:WriteValue", "scouterx/common/netdata/datainputx.go:ReadValue", "scouterx/common/netdata/listvalue.go", "scouterx/common/netdata/mapvalue.go", "scouterx/common/netdata/valuecreator.go:CreateValue"]}
{"id": "C06", "title": "IPv4 address values round-trip", "statement": "A value made with NewIp4Value and written with WriteValue is read back by ReadValue as the same address. (The code reads it as a length-prefixed blob, so this is false: refuted for every address, with the exact result characterised for a leading zero byte.)", "quantifier": "every IPv4 address", "why_tests_cant": "2^32 addresses; the reader picks another decoder for the same type byte", "anchors": ["scouterx/common/netdata/ip4value.go", "scouterx/common/netdata/valuecreator.go:CreateValue"]}
{"id": "C07", "title": "Decoding arbitrary bytes stays inside the input and terminates", "statement": "ReadValue on any byte string terminates, consumes a prefix of it (never invents or rereads bytes: what is left is a suffix of the input), recursion depth is bounded by the input length, and it can panic only when a blob or string length field is negative.", "quantifier": "every byte string", "why_tests_cant": "adversarial input space", "anchors": ["scouterx/common/netdata/datainputx.go:ReadValue,ReadBlob", "scouterx/common/netdata/listvalue.go:Read", "scouterx/common/netdata/mapvalue.go:Read"]}
{"id": "C08", "title": "The reported write size equals the bytes produced", "statement": "After any sequence of write calls (numbers, blobs, strings, values, packs, steps) on an in-memory output, GetWriteSize/Size equals the number of bytes in Bytes() modulo 2^32, and earlier bytes are never changed by later writes.", "quantifier": "every sequence of write calls with any arguments", "why_tests_cant": "histories of unbounded length", "anchors": ["scouterx/common/netdata/dataoutputx.go:GetWriteSize,Size,Bytes"]}
{"id": "C09", "title": "Map, counter and object packs round-trip", "statement": "WritePack then ReadPack returns an equal pack for every map pack, performance-counter pack and version-2 object pack; the version-1 object pack and the K8S counter pack round-trip through their own Read. Following bytes are left unread. Reading a performance-counter pack whose data is a value of any other kind than a map panics.", "quantifier": "every pack content within length limits, every map order", "why_tests_cant": "unbounded field contents", "anchors": ["scouterx/common/netdata/datainputx.go:ReadPack", "scouterx/common/netdata/packcreator.go", "scouterx/common/netdata/mappack.go", "scouterx/common/netdata/perfcounterpack.go", "scouterx/common/netdata/objectpack.go", "scouterx/common/netdata/perfcounter_k8s_pack.go"]}
{"id": "C10", "title": "An object registration pack is readable by the agent's own reader", "statement": "What WritePack produces for the ObjectPack that the agent sends is read back as an object with the same name, type and hash by ReadPack. (False: ReadPack decodes type 80 as the version-2 layout; refuted with a witness.)", "quantifier": "every version-1 object pack", "why_tests_cant": "two incompatible layouts share one type byte", "anchors": ["scouterx/common/netdata/packcreator.go:CreatePack", "scouterx/common/netdata/objectpack.go"]}
{"id": "C100", "title": "Logs and profiles refer only to texts that were announced", "statement": "Logs, profile steps and object packs name texts by kind and hash. In every history of API calls, collector requests, configuration changes and announcements, every such reference in a pack the agent sent (the service name, thread name, login, description, error, user agent and referer of a log; the service name of a profile and the method, message, call, error and stack-element hashes of its steps; the object name of an object pack) is 0 or was announced before under exactly the kind it is looked up by, with a text having that hash; steps the application builds itself being without references. After the collector asks for the caches to be forgotten, the service name, thread name, login and description of every log and the object name of every object pack sent from then on are announced again before it; the error of a service marked before is not (nor what its profile already contains).", "quantifier": "all environments, configurations and histories of API calls, collector requests, refreshes, announcements and cache resets", "why_tests_cant": "A dangling hash shows only as an empty name in the collector, for some order of caches, resets, nested services and errors; it must not exist in any history.", "anchors": ["scouterx/netio/dataproxy.go: Send*, ResetTextSent", "scouterx/netio/tcpclient/handlers.go: ResetCache", "scouterx/strace/tracemain.go: all functions of the API", "scouterx/strace/tracecontext.go: ToXlog", "scouterx/task/agenttask/agenttask.go: SendObjPack"]}
{"id": "C101", "title": "Goroutines serving different requests do not disturb one another", "statement": "When any number of goroutines make API calls, each on trace contexts and steps of its own (made by it, or handed to it at its start), and their accesses to memory and to the other packages are interleaved in any order, while text caches are forgotten and the send queue fills and drains: each goroutine does exactly what it would do alone in the program, with the clock and the generators read at the moments it reads them. At every moment what it has sent and counted is the beginning of what it would send and count alone, and when it has finished its trace contexts, steps, packs and counts are the same as alone; two goroutines never get the same reading. Everything sent or counted comes from one goroutine, once. A goroutine that gets turns again and again finishes its calls. When all have finished, no two logs carry the same transaction id (generated ids being distinct), without sampling there is exactly one log for each ended service, and every text referred to has been announced.", "quantifier": "all environments, configurations, numbers of goroutines, lists of calls, handed-over contexts, and interleavings of single accesses with cache resets and queue changes", "why_tests_cant": "A race test samples schedules; mixing of two requests' data, a lost log or a text announced only by another goroutine's view must be excluded for every interleaving of accesses.", "anchors": ["scouterx/strace/tracemain.go: all functions of the API", "scouterx/strace/tctxmanager/tctxmanager.go: NewTraceContext, Start, End", "scouterx/netio/dataproxy.go: Send*, SendProfile, SendXlog", "scouterx/netio/tracecontext.go, profilecollector.go"]}
{"id": "C102", "title": "The table of running services is right under any interleaving of goroutines", "statement": "When any number of goroutines start and end services at once, access by access in any order: at every moment the table of running services has at most 10000 entries, every transaction id it lists belongs to a service started by one of the goroutines and looking the id up gives that service's context; a service ended by a goroutine that has made all its calls is not listed, whatever the others are doing; and as long as the table was never full, each service of a goroutine that has made its calls is listed exactly if it has not ended, and when all goroutines are through the number of entries is the number of services that have not ended (generated ids being distinct).", "quantifier": "all environments, configurations, numbers of goroutines, lists of calls, and interleavings of single accesses with cache resets and queue changes", "why_tests_cant": "A leaked or missing entry appears only for particular interleavings of the entering and striking out of entries with the evictions; the absence of leaks must hold for all of them.", "anchors": ["scouterx/strace/tctxmanager/tctxmanager.go: Start, End, GetTraceContextByTxid, GetAllTctx", "scouterx/common/structure/lra/lra.go: Add, Remove, Get, Contains, Size", "scouterx/strace/tracemain.go: startService, endAnyServiceOfTraceContext"]}
{"id": "C103", "title": "The id generator gives each number of its sequence to one caller, under every schedule", "statement": "However many goroutines ask for ids at once and however their accesses interleave: the numbers given out are exactly the first numbers of the seed's pseudo-random sequence (the lower 63 bits of each draw), each given to one call only and to each goroutine in the order of the sequence; no id is negative; no goroutine is ever stuck, all calls can return whatever has happened. As found: the seed is the second at which the program started, so two programs started in the same second hand out the same ids.", "quantifier": "all pseudo-random sources, seeds, numbers of goroutines and calls, and schedules of single accesses (read of the source's state, its replacement, lock, unlock)", "why_tests_cant": "A draw lost or given twice appears only for schedules in which two draws overlap; the exclusion must hold for all of them.", "anchors": ["scouterx/common/util/keygen/keygen.go: Next, getInstance, init"]}
{"id": "C104", "title": "Texts of values and packs (ToString)", "statement": "Asking a value for its text panics exactly when there is a nil entry in a map inside it (or it is nil itself); values read from the wire and maps filled by Put never have one. The text of a value contains the text of everything inside it and all keys; a list shows its elements in order after their indices; whole numbers read back as themselves; the order in which a map is iterated only reorders the lines. A pack shows its names, texts and numbers after their labels, and its table. As found: false is shown as \"fasle\" and an address as its raw bytes.", "quantifier": "all values of any nesting, all packs, all inputs read from the wire, all iteration orders", "why_tests_cant": "Values nest without bound and maps iterate in any order; the absence of panics must hold for everything received.", "anchors": ["scouterx/common/netdata/*value.go: ToString", "scouterx/common/netdata/*pack.go: ToString", "scouterx/netio/udpsender/udpsender.go: SendPackDirect"]}
{"id": "C105", "title": "The number and the stack reported of a goroutine", "statement": "The goroutine number recorded for a service is the one the runtime states, for every number below 2^63 and whatever follows it in the runtime's text (of which only 64 bytes are looked at); on a text that is not understood the call still returns, with the panic reported, once the reporter is registered. A stack trace is one line \"function file:line\" for each named frame among the first frames asked for, in order and separated by single newlines, the file being what follows the last slash of its path. As found: before the reporter is registered a panic of the agent is not contained.", "quantifier": "all goroutine numbers, all texts of the runtime, all stacks and depths", "why_tests_cant": "Tests see the few goroutine numbers and stacks of the test run; the fixed buffer of 64 bytes must suffice for all numbers.", "anchors": ["scouterx/common/panic.go: Goid, ReportScouterPanic, RegisterSendPanicF", "scouterx/dump/dump.go: StackTrace"]}
{"id": "C106", "title": "Shared maps are never touched at the same time; what can race is known exactly", "statement": "However many goroutines add to, read, list and clear any number of caches, refresh and list the configuration, register observers, decide about sampling, draw ids and meter, under every schedule of single accesses: no Go map of the agent is changed while another goroutine reads, iterates or changes it, which would end the program; the pseudo-random source and the position of a meter's ring are touched by one goroutine at a time. As found, exactly these can be changed while another goroutine uses them: the list and the values of a cache (listing it), pointer and list of a cachemap and a cacheset (Size), the length of a cachemap2's map and its list, the observer of the object's name, the settings, the sampler's patterns and the buckets of a meter.", "quantifier": "all numbers of goroutines, caches and meters, all lists of calls, all observers made of such calls, all schedules of single accesses and lock actions", "why_tests_cant": "a map touched at the wrong moment only ends the program in rare schedules; the race detector sees only the schedules that happen to run", "anchors": ["scouterx/common/structure/lra/lra.go: Cache", "scouterx/common/structure/cachemap/cachemap.go: CacheMap", "scouterx/common/structure/cachemap2/cachemap2.go: CacheMap", "scouterx/common/structure/cacheset/cacheset.go: CacheSet", "scouterx/conf/opserver.go: AddToConfObserver, AddObjChangedObserver, confChangeNotify", "scouterx/conf/configure.go: Refresh, GetConfigureDescMap", "scouterx/common/util/keygen/keygen.go: Next", "scouterx/counter/metering.go: getPosition, SearchOnHandler"]}
{"id": "C107", "title": "What the collector shows is what the application did", "statement": "From the API to the collector's screen: when the announcements are not dropped by the full queue and all datagrams arrive, in whatever order, (a) every hash in every transaction log and in every profile step the collector obtains is one it has also obtained a text for, of the right kind and with that hash; (b) a service that was ended and not discarded has exactly one log there, telling what its context said at its end, and its service name, thread name, login and description are shown as the very texts (unless another text was announced under the same hash); (c) if the packs sent directly arrive in order, with announcements anywhere in between, the profile of each transaction is byte for byte the one sent, and decodes to what the calls about the service told, call by call. Whatever is lost or repeated, no text is ever shown for a hash it does not have. So it is whether the service is ended by EndService or EndHttpService; in the latter case the log has the status of the response.", "quantifier": "every history of API calls by any number of services, every point at which a service ends, every interleaving of queue and sending goroutine, every maximum size and fragmentation, every order of arrival", "why_tests_cant": "The claim composes the tracing state machine, the text caches, the queue's schedules, datagram packing and fragmentation, and every order in which the network delivers; a test fixes one of each.", "anchors": ["scouterx/strace/tracemain.go: StartService, EndService", "scouterx/netio/dataproxy.go: SendServiceName, SendXlog, SendProfile", "scouterx/netio/udpsender/udpsender.go: AddPack, run, send", "scouterx/netio/udpclient/udpclient.go: WriteBuffer, WriteBufferList, sendMTU"]}
{"id": "C108", "title": "The agent does not hide the application's panics", "statement": "Whatever the application does — panic, defer, recover, call the tracing API directly or by defer, also while it is panicking and also when the API function panics inside — it does the same things in the same order, ends with the same panic and recovers the same panics as it would without the agent, and its panics are never reported as panics of the agent. A panic inside an API function is reported once, with its value, and does not come out. The goroutine of GoWithTrace panics exactly when the function it was given does, with the same value, after the service was ended. As found: the final handler is called instead of deferred and never finds anything, so a panic while the alert is sent comes out; before the reporter is registered a panic inside comes out as another one; a panic of the application's own code that the API calls (an error's Error method) is taken for one of the agent's; and a real-time counter round whose gathering panics ends the program with its nil pack.", "quantifier": "all application programs over defer, recover, panic, calls and API calls, all bodies of API functions that leave recovering to the reporter, all panic values", "why_tests_cant": "Programs nest calls, defers, recovers and panics without bound; Go's rule for which recover finds which panic must be followed through all of them.", "anchors": ["scouterx/common/panic.go: ReportScouterPanic", "scouterx/netio/dataproxy.go: SendPanic, reportScouterPanicFinal", "scouterx/strace/tracemain.go: GoWithTrace, EndService, EndApiCall", "scouterx/task/countertask/countertask.go: startRealTimeCounter"]}
{"id": "C109", "title": "What the agent holds in memory is bounded", "statement": "Whatever the application calls and for however long, even if it never ends the services it starts: the table of running services never has more than 10000 entries, each table of announced texts never more than 10000 (the one of object names 100), and the buffer of every trace never holds more profile steps than the largest step limit any configuration set, so that the agent holds at most 10000 times that limit of steps for the services in its table. The tables keep these bounds at every moment also when goroutines call concurrently. The two meters behind the counters keep their 301 buckets.", "quantifier": "all call histories of any length, all configurations and changes of them, all schedules of any number of goroutines, all cache-eviction choices, all sequences of counter rounds", "why_tests_cant": "A leak shows after days of traffic; only an invariant over all histories rules one out.", "anchors": ["scouterx/common/structure/lra/lra.go: Add", "scouterx/strace/tctxmanager/tctxmanager.go: Start, End", "scouterx/netio/dataproxy.go: ResetTextSent, SendServiceName", "scouterx/netio/profilecollector.go: Process, Push", "scouterx/counter/metering.go: NewMetering"]}
{"id": "C11", "title": "A collector recovers every field of a transaction log", "statement": "Decoding the bytes WritePack produces for an XlogPack by the documented field order recovers every field that is written, for every combination of field values; two packs with the same bytes agree on all those fields.", "quantifier": "every XlogPack within length limits", "why_tests_cant": "45 fields of full range", "anchors": ["scouterx/common/netdata/xlogpack.go:Write"]}
{"id": "C110", "title": "Requests when the file system fails", "statement": "Whatever fails in the file system while a request is answered - creating, opening, reading or writing a file, looking at a directory entry - the request is answered, in pieces of at most 4096 bytes, and nothing but what the request is about changes. What is sent of a file is that file from its start, in order. A binary download is known to be whole by its last piece, which is then and only then shorter than 300 bytes; a thread dump is named in the answer only if it was created and written without an error; a save that fails is answered with false. As found: a dump's text that broke off cannot be told from a whole one; a single directory entry that cannot be looked at (a file that goes away while the list is made, a directory that is not there) makes the whole list fail with a panic, which only an alert reports; a save that fails midway has already lost the old text, and the next refresh loads what is left of the new one. When nothing fails the answers are those of the other properties.", "quantifier": "all commands and parameters, all agents and files, all patterns of failing system calls", "why_tests_cant": "Which system call fails, and after how many bytes, is out of a test's hands; all patterns of failures must be covered.", "anchors": ["scouterx/dump/dump.go: heavyAllStackTrace, ListDumpFiles, ListBinaryDumpFiles, DownloadBinaryDumpFiles, StreamDumpFileContents", "scouterx/conf/exthandler.go: SaveConfigText", "scouterx/netio/tcpclient/handlers.go: handle, saveConfig"]}
{"id": "C111", "title": "Outgoing requests used for several calls, and requests without headers", "statement": "StartApiCallWithPropagation only ever adds to the headers of the request it is given: after any history of calls each header of a request the application does not change itself has the values it had at first, in that order, followed by one value for each api call made with the request, in the order of the calls, telling the group, the calling service, the callee id of the step and the object of that call. As found: so a request used again (a second attempt) or passed on with the headers it came with keeps telling a receiver that looks at the first value about the first call. With a nil request the step is opened and nothing else happens. With a request that has no header map the call returns no step and reports a panic by an alert, but as found the step has been opened: later steps of the service belong to it, it is not recorded, and nobody has it to end it.", "quantifier": "all reachable states, contexts, names, addresses and headers; all histories of calls, requests and changes to other requests", "why_tests_cant": "The values depend on the whole history of calls made with a request, in any interleaving with other calls and services.", "anchors": ["scouterx/strace/tracemain.go: StartApiCallWithPropagation, startApiCall"]}
{"id": "C112", "title": "Counter figures as floating-point numbers", "statement": "The figures of the counter packs, read as the IEEE 754 numbers they are sent as, are near the exact ones: services per second within one part in 2^22 (0 exactly when no service ended, exact when a whole number of at most 2^24 services, never smaller for more services); the percentage of failed services within one part in 2^21, always from 0 to 100 whatever the clock does, 0 exactly when none failed, 100 when all failed, and for at most 2^24 services only then; the mean of the active services within one part in 2^22 and between the least and the greatest number seen; collections per second and milliseconds of pause per second within one part in 2^22. Sums of whole numbers in the value meter are exact up to 2^53, whatever is in which bucket. As found: beyond 2^24 services an error rate of exactly 100 can be sent although one succeeded; when two rounds see the same nanosecond the garbage collection figures are infinite or not a number, and when the clock was set back they are negative.", "quantifier": "all counts, periods, histories of calls and rounds, samples of the Go runtime", "why_tests_cant": "Rounding errors depend on every pair of operands: 2^63 counts for each period; boundary cases are rare.", "anchors": ["scouterx/counter/serviceMetering.go: GetAllCounter", "scouterx/counter/valueMetering.go: Add, GetAllCounter", "scouterx/counter/gocounter/gocounter.go: GetGoCounter", "scouterx/common/netdata/perfcounterpack.go: Put", "scouterx/task/countertask/countertask.go"]}
{"id": "C113", "title": "Texts of floating-point values, and rounding up", "statement": "The text of a floating-point value is a possible minus sign, digits, a point and three digits, writing a number within half a thousandth of the value, and the value itself when that is a whole number of thousandths; a value of single precision is not changed by the widening; of two values the greater is not shown as smaller; infinities and what is not a number are shown as such. RoundUp gives the number nearest to a whole number of units of the last place, short of its argument by at most one part in 2^52 and exceeding it by at most one unit and one part in 2^51. As found: a number that has the places already need not stay, 0.07 rounded up to two places gives 0.08.", "quantifier": "all bit patterns of values; all numbers that are not extremely small or large, and up to 22 places", "why_tests_cant": "2^64 bit patterns; the boundary cases (ties, products rounded over a whole number) are rare.", "anchors": ["scouterx/common/netdata/doublevalue.go: ToString", "scouterx/common/netdata/floatvalue.go: ToString", "scouterx/common/util/mathutil.go: RoundUp"]}
{"id": "C114", "title": "Averages of values recorded and read at the same time", "statement": "Goroutines may record values (the number of active services) and read averages of the last seconds at the same time. Every value is recorded exactly once and nobody waits for ever. A reading's number and sum hold every value recorded before it began and none recorded after it ended, each by itself; a reading during which nothing is recorded is exact; and a goroutine that is the only one to record (as the sender of the real-time pack is) always reads its exact averages, however many others read. No average is ever above the largest value recorded in its seconds, however recordings and readings overlap, as long as no recording takes 300 seconds and no reading of p seconds 301-p. As found: there is no such bound from below, a reading overlapping a recording can answer an average of 0 although all values are at least 10.", "quantifier": "all goroutines, call sequences, schedules and clocks", "why_tests_cant": "Depends on every interleaving of single field accesses with a clock that may move in between.", "anchors": ["scouterx/counter/valueMetering.go: Add, GetAllCounter", "scouterx/counter/metering.go: getPosition, SearchOnHandler", "scouterx/task/countertask/countertask.go: startRealTimeCounter, start5MinCounter"]}
{"id": "C115", "title": "Counting the active services while services start and end", "statement": "GetActiveCount may run while other goroutines start and end services and while the settings are refreshed. Its three figures together are the number of services listed, at most 2000: no fewer than the services that run throughout the call, no more than those running when it began plus those started meanwhile. With unchanged settings and at most 2000 services listed, each colour's figure counts every service of that colour running throughout, once, and nothing but services of that colour that ran at some moment of the call; and the services found stuck (an alert each) are different services, all older than the stuck time, among them every such service running throughout. As found: the total can be more than ever ran at once, and an alert can be sent for a service that has ended meanwhile.", "quantifier": "all histories of services started and ended before and during the call, all orders of the map iteration, all settings as read and all clocks", "why_tests_cant": "Depends on every interleaving of starts and ends with a listing that gives up its lock between entries.", "anchors": ["scouterx/strace/tctxmanager/tctxmanager.go: GetActiveCount, Start, End", "scouterx/common/structure/lra/lra.go: GetValues"]}
{"id": "C116", "title": "What is recorded on a service after its end", "statement": "A service that has ended (by its own end, or forcibly because it was stuck while its code still runs) may still be named by recording calls. They are not refused: nothing panics, the steps they record are put behind the steps that were in its profile buffer at the end. As long as these together do not fill the buffer nothing more is received for the service and the late steps are lost; when they fill it, the server receives the steps the buffer held at the end once more (or for the first time, if the service was sampled away and its profile was to be dropped), followed by the late steps in their order, all but those still in the buffer. So it is whether the service is ended by EndService or EndHttpService.", "quantifier": "all histories of API calls before and after the end, all buffer sizes and settings (and changes of them) with positive limits, all clocks and ids", "why_tests_cant": "Depends on how many steps were in the buffer at the end and on every later call from any goroutine still holding the context.", "anchors": ["scouterx/netio/profilecollector.go: Process, Close", "scouterx/strace/tracemain.go: endAnyServiceOfTraceContext, endStuckServiceForcibly, AddMessageStep, EndMethod, EndApiCall", "scouterx/netio/dataproxy.go: SendProfile"]}
{"id": "C117", "title": "Every option governs what it names", "statement": "Each option of the configuration governs exactly the figure its name stands for, with its documented default: the steps kept and sent at a time, the object's name and type, the limits and switches for stuck services, the limits of the colours of active services, what is recorded of http requests, the header with the client's address, the patterns, limits and rates of the four sets of sampling options, the collector's address and port, and the maximum length of datagrams. After any life of the program (calls, requests, edits of the file, refreshes, the rounds of every goroutine) all of them are taken from one file: one whose text the configuration file has had (at the start, by an edit, by a request to save it), or none. A change that can be read, is well-formed and newer is in effect for tracing and sender after the next refresh. The list of options shown is the documented one. The option to show the errors of discarded services changes nothing.", "quantifier": "all environments with an '=' in every entry, all configuration files and texts, all hosts, all lives of the program", "why_tests_cant": "Sixty-three options times all texts and all histories; a swapped or misspelt option is seen only by the test that sets exactly this one.", "anchors": ["scouterx/conf/configure.go: addToConf, resetObjNameAndType, Refresh", "scouterx/netio/udpsender.go: GetInstance, reload", "scouterx/strace/tracemain.go, scouterx/strace/xlogsampler.go: reads of the configuration"]}
{"id": "C118", "title": "Which client address a log shows", "statement": "The log of a service, after any history and however it ends, shows as client address the four bytes of the IPv4 address named by its source: the text given to StartService; for an http request the value of the configured header if one is configured and the request has it, and the connection's address otherwise. A text names an address if it is one, alone or followed by a colon and anything (a port); if the source names none the log shows 0.0.0.0. So an IPv6 connection and a header listing several addresses are shown as 0.0.0.0, and a header that names no address is believed although the connection's address is known.", "quantifier": "all requests, header values, connection addresses and configurations; all histories of calls before and after the start; both ends", "why_tests_cant": "The address is any text, of any length, from the network; a test has a handful of them, and never the ones proxies send.", "anchors": ["scouterx/strace/tracemain.go: StartHttpService, getRemoteIp, normalizeIp, startService", "scouterx/netio/tracecontext.go: ToXlog", "scouterx/common/util/iputil.go: IpToBytes"]}
{"id": "C119", "title": "What is told of a service ended because it is stuck", "statement": "After any history, when the active services are counted and removal of stuck services is switched on, every service found stuck (running longer than the configured time, among the first 2000 looked at) is ended, and exactly these: for each, in the order they are looked at, the collector receives exactly one log, never sampled away whatever the sampling options, with what was kept about the service, its elapsed time read during the count, and an error: its own if it was marked already, otherwise the text that says it was stuck. Its complete profile is received, all recorded steps and one step more, at the error level, that says it was stuck. It is counted once, as failed. No other service is touched, logged or counted. With removal switched off no service is ended and nothing is logged.", "quantifier": "all histories of calls (services, steps, options, clock readings), all orders in which the active services are looked at, all numbers of stuck services, all sampling options", "why_tests_cant": "Any number of services in any state, with any options, may be stuck when the count comes; a test has one or two, and forgets those with an error of their own or a profile larger than one pack.", "anchors": ["scouterx/strace/tracemain.go: endStuckServiceForcibly, endAnyServiceOfTraceContext", "scouterx/strace/tctxmanager/tctxmanager.go: GetActiveCount"]}
{"id": "C12", "title": "A collector recovers profile, text and alert packs", "statement": "The bytes produced for XlogProfilePack, TextPack and AlertPack decode, by the documented layout, to the same time, hashes, texts, level, profile bytes and tags.", "quantifier": "every such pack within length limits", "why_tests_cant": "unbounded field contents", "anchors": ["scouterx/common/netdata/xlogprofilepack.go:Write", "scouterx/common/netdata/textpack.go:Write", "scouterx/common/netdata/alertpack.go:Write"]}
{"id": "C120", "title": "What a count does to the active services while the application goes on", "statement": "The active services are counted by a goroutine of its own; the application starts, uses and ends services between any two steps of it (its list is not taken at once, C89). Whatever the application does: what is taken for the list is a service running at that moment; from the clock reading on each service listed, up to 2000, is counted in exactly one of the three figures, by its running time at that reading, or still to be looked at. At the look at a stuck service one alert is sent; if removal is switched on and the service has not ended meanwhile it is ended, with exactly one log and its error (C119), and counted once, as failed; if it has ended meanwhile nothing is logged or counted again. No other service is touched. No two logs ever carry the same transaction id, every ended service is counted exactly once, and an ended service stays ended. Without calls in between the count is the one made at once. As found: for a service that ended meanwhile the alert that it is stuck is sent nevertheless.", "quantifier": "all interleavings of application calls with the looks of any number of counts, all configurations changing in between, all iteration orders", "why_tests_cant": "It needs the application to end a service in the moment between the taking of the list and the look at it; a test cannot arrange that, and there is one such moment per service.", "anchors": ["scouterx/strace/tctxmanager/tctxmanager.go: GetActiveCount", "scouterx/common/structure/lra/lra.go: GetValues", "scouterx/strace/tracemain.go: endStuckServiceForcibly, endAnyServiceOfTraceContext", "scouterx/task/countertask/countertask.go: getAllCounterOnPack"]}
{"id": "C121", "title": "Who the agent says it is, and whom it calls, while the configuration is being loaded", "statement": "The settings are assigned one after the other while other goroutines read them without a lock, and a text is two machine words. Whatever is read when: (a) if the object's name and type and the collector's address and ports are the same as before, every pack tells just these (and the hash of the name), and the collector is called there; (b) so it is, for the present configuration, with whatever is begun and finished between two loads; (c) the hash of an object announcement is always that of the name told with it, the hash of a log, profile, alert or session is that of a configured name, of a configuration not older than the type or the collector address it comes with, and what is begun after another never carries an older one; (d) if all names (addresses) have the same length, the name told (host called) is a configured one. (e) a session with the collector is not broken off by loads that leave the name and the collector's address and port as they were, and a look between loads ends it if they are others than it began with. As found: otherwise the name under which counters are told and the object is registered, and the host called and sent to, may be the beginning of one configured text or run over its end, in every order the two words may be written and read in.", "quantifier": "all interleavings of the word-by-word writes of any number of loads with the word-by-word reads of any number of packs, sessions and clients; all texts; both orders of the two words at each write and read", "why_tests_cant": "The window is between two machine instructions, and the race detector only tells that there is a race, not what can come of it.", "anchors": ["scouterx/conf/configure.go: resetObjNameAndType, addToConf, Refresh", "scouterx/task/agenttask/agenttask.go: SendObjPack", "scouterx/task/countertask/countertask.go: getAllCounterOnPack", "scouterx/netio/dataproxy.go: SendAlert, SendXlog, sendProfile0", "scouterx/netio/tcpclient/tcpclient.go: Prepare", "scouterx/netio/udpsender/udpsender.go: reloadUdpSender"]}
{"id": "C122", "title": "What is recorded of http requests while the configuration is being loaded", "statement": "Whether headers and queries are recorded, which headers are, and the header with the client's address are assigned one after the other while requests read them without a lock, the two texts twice and as two machine words. Whatever is read when: (a) a request dealt with between two loads is recorded, and its client address taken, just as the present configuration says; (b) loads that change none of these options are not noticed; (c) while no configuration has headers recorded, none is; (d) only the headers named are recorded if every configuration that has headers recorded, the one before it and all later ones name just these; (e) a client header that is the same in all configurations there are meanwhile decides on the address. As found: when one load turns the recording of headers on and names the headers, or turns it off and takes the names away, all headers of a request may be recorded, though neither configuration says so.", "quantifier": "all interleavings of the word-by-word writes of any number of loads with the word-by-word reads of any number of StartHttpService; all texts and requests; both orders of the two words at each write and read", "why_tests_cant": "The window is between two assignments of the loading goroutine, or between two reads of a request; what shows up in a profile then is a matter of schedule.", "anchors": ["scouterx/conf/configure.go: addToConf, Refresh", "scouterx/strace/tracemain.go: StartHttpService, getRemoteIp, profileHttpHeaders"]}
{"id": "C123", "title": "What a look at a running service comes to while the configuration is being loaded", "statement": "The limits and switches for stuck services and the limits of the colours are assigned one after the other while the counting of active services reads them, one after the other and anew for every service, without a lock. Whatever is read when: (a) a look between two loads does what the present configuration says, and that is what a look of GetActiveCount does with it; (b) if the configurations there are meanwhile differ in one option at most, the look does what one of them says; (c) a service is ended by force only if one of these configurations has services ended and it is older than the base time of one of them, and an alert has the level one of them gives and is sent only about a service older than the base time of one of them; (d) the colour limits a look uses are never of a newer configuration than its limits for stuck services. As found: when one load shortens the base time and has services no longer ended, or lengthens it and has them ended from then on, a service may be ended by force, and logged as failed, that neither configuration would end.", "quantifier": "all interleavings of the assignments of any number of loads with the reads of any number of looks; all options and all ages of services", "why_tests_cant": "The window is between two assignments of the loading goroutine or between two reads of the counting one; it is a matter of schedule whether a running service is cut off.", "anchors": ["scouterx/conf/configure.go: addToConf, Refresh", "scouterx/strace/tctxmanager/tctxmanager.go: GetActiveCount", "scouterx/strace/tracemain.go: endStuckServiceForcibly"]}
{"id": "C13", "title": "A profile byte stream decodes to the same list of steps", "statement": "StepsToBytes concatenates self-delimiting step records: for every list of method, message, hashed-message, parameterised-message, api-call and async-service steps (nil entries skipped) an independent decoder recovers exactly the steps in order with all their written fields.", "quantifier": "every list of steps of those kinds", "why_tests_cant": "unbounded lists", "anchors": ["scouterx/common/netdata/step.go:StepsToBytes", "scouterx/common/netdata/dataoutputx.go:WriteStep", "scouterx/common/netdata/methodstep.go", "scouterx/common/netdata/messagestep.go", "scouterx/common/netdata/hmessagestep.go", "scouterx/common/netdata/pmessagestep.go", "scouterx/common/netdata/apicallstep.go", "scouterx/common/netdata/threadstep.go"]}
{"id": "C14", "title": "Message parameters are recoverable", "statement": "The parameters given to a parameterised message are recovered by splitting at the ETX byte whenever no parameter contains that byte.", "quantifier": "every list of parameters", "why_tests_cant": "unbounded strings and lists", "anchors": ["scouterx/common/netdata/pmessagestep.go:SetMessage"]}
{"id": "C15", "title": "Typed map access: last Put wins, types do not mix, unsupported types are dropped", "statement": "After any sequence of Puts on a map pack, a typed Get returns the last supported value put under that key when its type matches (numbers truncated to the requested width) and the zero value otherwise; a Put of an unsupported type changes nothing. In particular MapValue.Put drops plain int, so SetStatus leaves the object's tags unchanged.", "quantifier": "every sequence of Puts, every key and type", "why_tests_cant": "histories of unbounded length", "anchors": ["scouterx/common/netdata/mappack.go:Put,Get*", "scouterx/common/netdata/mapvalue.go:Put", "scouterx/common/netdata/objectpack.go:SetStatus", "scouterx/common/netdata/perfcounterpack.go:Put"]}
{"id": "C16", "title": "Name hashes are CRC-32", "statement": "HashString returns, for every string, the standard reflected CRC-32 (polynomial 0xEDB88320, initial and final complement) of its bytes as a signed 32-bit number; the empty string hashes to 0.", "quantifier": "every string", "why_tests_cant": "unbounded inputs and a 256-entry table", "anchors": ["scouterx/common/util/hashutil.go:HashString,Hash"]}
{"id": "C17", "title": "Names that differ only inside a four-byte window never share a hash", "statement": "Two different strings of equal length that agree outside one window of at most four consecutive bytes have different hashes.", "quantifier": "every pair of such strings", "why_tests_cant": "pairs of unbounded strings", "anchors": ["scouterx/common/util/hashutil.go:Hash"]}
{"id": "C18", "title": "IP text conversion", "statement": "IpToBytes always returns four bytes; it returns a,b,c,d exactly for texts of four dot-separated non-empty decimal digit strings with values a,b,c,d at most 255, and 0.0.0.0 for every other text.", "quantifier": "every string", "why_tests_cant": "unbounded strings", "anchors": ["scouterx/common/util/iputil.go:IpToBytes"]}
{"id": "C19", "title": "A single pattern accepts every target its wildcard reading accepts", "statement": "For every supported pattern (literal, '*', '**', or stars only at the start, the end and one position in between) and every non-empty target: if the target matches the usual wildcard reading of the pattern then the matcher accepts it; conversely, acceptance implies the wildcard reading whenever the literal pieces occur without overlap in order (for the one-star and no-star forms: prefix, suffix, substring, equality exactly). Overlap false positives such as 'ab*ba' on 'aba' are exhibited.", "quantifier": "every supported pattern and every target", "why_tests_cant": "unbounded strings", "anchors": ["scouterx/common/util/strmatch.go:NewStrMatch,include"]}
{"id": "C20", "title": "Comma-separated service patterns select services", "statement": "A service name matching one of the comma-separated patterns configured for discarding, sampling or excluding is recognised as matching. (False: the chained matcher stores patterns uncompiled and accepts no target at all; proved for every pattern list and target.)", "quantifier": "every pattern list, every target", "why_tests_cant": "universal negative", "anchors": ["scouterx/common/util/strmatch.go:NewCommaSeparatedChainedStrMatcher,IsMatch"]}
{"id": "C21", "title": "Transaction ids render reversibly", "statement": "IntToXlogString32 maps distinct int64 values to distinct texts, and reading the text back (prefix x or z, base 32) recovers the number.", "quantifier": "every int64", "why_tests_cant": "2^64 inputs", "anchors": ["scouterx/common/util/hexautil.go:IntToXlogString32"]}
{"id": "C22", "title": "Durations decompose exactly", "statement": "The day, hour, minute and second figures printed by GetDuration recombine to the given number of seconds, and for non-negative input hour<24, minute<60, second<60.", "quantifier": "every int64", "why_tests_cant": "2^64 inputs", "anchors": ["scouterx/common/util/timeutil.go:GetDuration"]}
{"id": "C23", "title": "The bounded cache behaves as an insertion-ordered map", "statement": "For any sequence of Add/AddKey/Remove/Clear/Get/Contains/Size on an lra cache the answers are those of a simple insertion-ordered association list with the same bound: Get returns the value last added for a present key, re-adding a present key replaces its value without refreshing its age, the oldest insertion is the one evicted, and after each Add of a new key at a positive bound the size is min(previous+1, bound).", "quantifier": "every operation sequence, every bound, every key/value type", "why_tests_cant": "histories of unbounded length", "anchors": ["scouterx/common/structure/lra/lra.go"]}
{"id": "C24", "title": "The bounded cache never exceeds its bound, and its index and list agree", "statement": "After any sequence of operations with positive bound, size is at most the bound, keys are distinct, and the lookup index and the age list contain exactly the same entries; with bound 0 nothing is ever evicted.", "quantifier": "every operation sequence and bound", "why_tests_cant": "histories of unbounded length", "anchors": ["scouterx/common/structure/lra/lra.go"]}
{"id": "C25", "title": "Eviction callbacks account for every departed entry", "statement": "With an eviction callback installed, over any operation sequence every inserted entry is either still present or was reported to the callback exactly once with the value it last had.", "quantifier": "every operation sequence", "why_tests_cant": "histories of unbounded length", "anchors": ["scouterx/common/structure/lra/lra.go:removeElement,Clear"]}
{"id": "C26", "title": "Linked cache map and cache set: first value kept, oldest evicted, bound respected", "statement": "For any operation sequence on cachemap.CacheMap and cacheset.CacheSet with bound >= 1: at most bound entries, keys distinct in insertion order, Add of a present key changes nothing, Add of a new key at the bound removes exactly the oldest entry. With bound <= 0 the first Add panics.", "quantifier": "every operation sequence and bound", "why_tests_cant": "histories of unbounded length", "anchors": ["scouterx/common/structure/cachemap/cachemap.go", "scouterx/common/structure/cacheset/cacheset.go"]}
{"id": "C27", "title": "cachemap2 stays bounded", "statement": "For any operation sequence with bound >= 1 the second cache map never holds more than bound entries and every held key is tracked for eviction; with bound <= 0 an Add never returns. Size() need not equal the number of held entries after a Remove, and a removed and re-added key may be evicted before older keys (both exhibited).", "quantifier": "every operation sequence and bound", "why_tests_cant": "histories of unbounded length", "anchors": ["scouterx/common/structure/cachemap2/cachemap2.go"]}
{"id": "C28", "title": "Cache operations never deadlock", "statement": "Any number of goroutines each running any finite sequence of lra cache operations always make progress until all are finished. (False for Empty, which read-locks twice: a reachable deadlock with one concurrent writer is exhibited; proved for all sequences without Empty.)", "quantifier": "every number of goroutines, every program, every schedule", "why_tests_cant": "schedules", "anchors": ["scouterx/common/structure/lra/lra.go:Empty,Size"]}
{"id": "C29", "title": "Fragmented datagrams reassemble to the original", "statement": "For a buffer larger than a positive maximum, the datagrams sent carry the same packet id, the same total, numbers 0..total-1 each exactly once in order, payloads of at most the maximum, and concatenating the payloads by number gives the buffer; a collector parsing each datagram recovers these fields (total below 32768). A maximum of 0 panics.", "quantifier": "every buffer, every positive maximum", "why_tests_cant": "unbounded buffers and sizes", "anchors": ["scouterx/netio/udpclient/udpclient.go:WriteBuffer,writeMTU,writeMTUSub"]}
{"id": "C30", "title": "Batched datagrams carry every buffer exactly once", "statement": "WriteBufferList sends every non-empty buffer of the list exactly once: buffers above the maximum as fragments, the others packed in order into datagrams whose payload is at most the maximum and whose count field is the number of buffers inside (below 32768); no empty datagram is sent.", "quantifier": "every list of buffers, every positive maximum", "why_tests_cant": "unbounded lists", "anchors": ["scouterx/netio/udpclient/udpclient.go:WriteBufferList,sendBufferList"]}
{"id": "C31", "title": "The send queue is bounded, never blocks producers and delivers accepted buffers exactly once", "statement": "Under every interleaving of producers and the sending goroutine: the queue never exceeds its capacity, an add always returns (dropping exactly when full), the sender never blocks waiting for an item, and every accepted buffer is handed to the transport exactly once and in acceptance order. As found: with a queue size of 0 nothing is ever sent through the queue.", "quantifier": "every interleaving, every capacity", "why_tests_cant": "schedules", "anchors": ["scouterx/netio/udpsender/udpsender.go:AddPack,AddBuffer,run,send"]}
{"id": "C32", "title": "Dictionary texts are announced before use and only once", "statement": "Sending a non-empty name returns its hash, and the first time (since start, reset or eviction) a text pack with that hash and name is offered to the queue; repeating the name while it is remembered offers nothing; the empty name returns 0 and offers nothing. A name whose announcement was dropped by a full queue, or whose hash equals an earlier name's, is not announced (exhibited).", "quantifier": "every sequence of names, queue state and resets", "why_tests_cant": "histories of unbounded length", "anchors": ["scouterx/netio/dataproxy.go:SendServiceName..SendStackElement,ResetTextSent"]}
{"id": "C33", "title": "Profile step numbering forms a tree", "statement": "Along any sequence of Push/Pop/Add of fresh steps on a profile, the steps get indexes 0,1,2,... in order of Push/Add, each step's parent index is not larger than its own and is the innermost step pushed but not yet popped (0 if none was pushed before), for properly nested use; after a balanced segment the current parent is restored.", "quantifier": "every properly nested operation sequence", "why_tests_cant": "histories of unbounded length", "anchors": ["scouterx/netio/profilecollector.go"]}
{"id": "C34", "title": "Every recorded step is sent exactly once, in order, in bounded packets", "statement": "Over any sequence of recorded steps followed by Close(true), with positive limits that may change between operations, the profile packets sent contain every recorded step exactly once in recording order, each packet has between 1 and profile_step_max_count steps, and after Close(false) exactly the steps of already full buffers have been sent. So it is for a service ended by EndService or by EndHttpService.", "quantifier": "every sequence of steps, every positive limit history", "why_tests_cant": "histories of unbounded length", "anchors": ["scouterx/netio/profilecollector.go:Process,Close", "scouterx/netio/dataproxy.go:SendProfile,sendProfile0"]}
{"id": "C35", "title": "The transaction log states how many profile steps were sent", "statement": "The profile count in the transaction log sent for a service equals the number of profile steps sent for it. (False: the log is filled before the last buffer is flushed; it reports only the steps of earlier full buffers, 0 for a service whose steps fit the buffer.)", "quantifier": "every finished service", "why_tests_cant": "history dependent", "anchors": ["scouterx/strace/tracemain.go:endAnyServiceOfTraceContext", "scouterx/netio/tracecontext.go:ToXlog"]}
{"id": "C36", "title": "Ending a service is idempotent", "statement": "For any sequence of API calls, each started service produces at most one transaction log and exactly one contribution to the service counters once ended, no matter how many times and by whom it is ended. EndService and EndHttpService, with a response or without, both end it.", "quantifier": "every sequence of API calls", "why_tests_cant": "histories of unbounded length", "anchors": ["scouterx/strace/tracemain.go:EndService,EndHttpService,endAnyServiceOfTraceContext"]}
{"id": "C37", "title": "Concurrent ends do not duplicate the log", "statement": "Even when two goroutines end the same service at the same time only one transaction log is sent. (False: the closed flag is tested and set without synchronisation; an interleaving with two logs is exhibited, and the number of logs is bounded by the number of enders; with serialised ends it is one.)", "quantifier": "every interleaving of enders", "why_tests_cant": "schedules", "anchors": ["scouterx/strace/tracemain.go:endAnyServiceOfTraceContext"]}
{"id": "C38", "title": "A failed service is never dropped", "statement": "When a service has an error recorded (non-zero error hash) its transaction log and profile are always sent, whatever the sampling and discard configuration and the random draws. So it is however the service is ended, by EndService or EndHttpService.", "quantifier": "every configuration, service, elapsed time and random draw", "why_tests_cant": "configuration space times randomness", "anchors": ["scouterx/strace/tracemain.go:findXLogDiscard", "scouterx/strace/xlogsampler.go"]}
{"id": "C39", "title": "Sampling follows the configured rates", "statement": "With sampling off nothing is dropped; with sampling on, the log of an error-free service is kept for certain when the rate of its elapsed-time band is at least 100, dropped (or only its profile dropped, if so configured) for certain when the rate is at most 0, and otherwise dropped exactly for the draws not below the rate, so the number of keeping draws out of 100 is the rate; bands are chosen by the first limit the elapsed time is below. So it is whether the service is ended by EndService or EndHttpService.", "quantifier": "every configuration, elapsed time and draw", "why_tests_cant": "configuration space times randomness", "anchors": ["scouterx/strace/xlogsampler.go:eEvaluateXLogDiscard,sampling4Elapsed"]}
{"id": "C40", "title": "A nested start joins the running service", "statement": "Starting a service on a context that already carries one returns the same context and sends, registers and counts nothing; consequently the matching inner end closes the outer service.", "quantifier": "every context and state", "why_tests_cant": "state dependent", "anchors": ["scouterx/strace/tracemain.go:StartService,StartHttpService"]}
{"id": "C41", "title": "Child traces are linked to their parents", "statement": "A goroutine started with tracing gets its own transaction whose caller is the parent's transaction id and whose global id equals the parent's global id; a service started by inheritance likewise, taking over the parent's name, kind and error; at any nesting depth the global id is the root's transaction id; the parent's profile records a step naming the goroutine's transaction. Nothing called later changes these links.", "quantifier": "every history of calls, every chain of nested goroutines and inherited services", "why_tests_cant": "unbounded nesting", "anchors": ["scouterx/strace/tracemain.go:startChildGoroutineService,startService,inheritTctx"]}
{"id": "C42", "title": "The active service list is exactly the started and not ended services", "statement": "After any sequence of API calls with distinct transaction ids, the active list holds exactly the services started and not yet ended, as long as no more than 10000 are active at once; it never holds an ended service or more than 10000 entries.", "quantifier": "every sequence of API calls", "why_tests_cant": "histories of unbounded length", "anchors": ["scouterx/strace/tctxmanager/tctxmanager.go", "scouterx/common/structure/lra/lra.go"]}
{"id": "C43", "title": "The first error wins unless forced", "statement": "The error of a service is the hash of the first (non-empty) error text marked on it by MarkAsError or a failed api call; it starts without one (an inherited service starts with its parent's); only MarkAsErrorForcibly replaces it; no other call sets it, except that a service without an error that is found stuck and removed gets the stuck error.", "quantifier": "every history of calls on any services", "why_tests_cant": "histories of unbounded length", "anchors": ["scouterx/strace/tracemain.go:MarkAsError,MarkAsErrorForcibly,EndApiCall,endStuckServiceForcibly"]}
{"id": "C44", "title": "Calls without a trace are inert", "statement": "Every tracing call made with a nil context or with a context carrying no trace changes nothing: nothing is sent, counted or registered, and no panic escapes.", "quantifier": "every call and state", "why_tests_cant": "every state", "anchors": ["scouterx/strace/tracemain.go"]}
{"id": "C45", "title": "Windowed counters are exact", "statement": "With a non-decreasing clock, the counters reported for a period of p seconds (1..300) are exactly the sums over the calls recorded in the last p clock seconds including the current one; a larger period is cut to 300.", "quantifier": "every sequence of recordings and queries, every non-decreasing clock", "why_tests_cant": "histories of unbounded length", "anchors": ["scouterx/counter/metering.go", "scouterx/counter/serviceMetering.go", "scouterx/counter/valueMetering.go"]}
{"id": "C46", "title": "Reported error rate and average are consistent", "statement": "In every reachable state the number of errors counted in a window is between 0 and the number of calls, and the average elapsed time lies between 0 and the largest recorded elapsed time; an empty window reports 0.", "quantifier": "every history, period and clock", "why_tests_cant": "histories of unbounded length", "anchors": ["scouterx/counter/serviceMetering.go:GetAllCounter"]}
{"id": "C47", "title": "Configuration changes are picked up", "statement": "After a refresh the effective configuration is the one computed from the current environment and file. (True when every change of an existing file strictly increases its modification time past the last one loaded; false in general: a file restored with an older time is ignored forever, exhibited.)", "quantifier": "every history of file changes and refreshes", "why_tests_cant": "histories of unbounded length", "anchors": ["scouterx/conf/configure.go:Refresh"]}
{"id": "C48", "title": "Configuration precedence", "statement": "For every key the effective text is the file's value if non-empty; otherwise, if the file does not define the key, the environment's value if non-empty; otherwise the default. An environment value is cut at its first '=' (exhibited).", "quantifier": "every environment and file", "why_tests_cant": "unbounded maps", "anchors": ["scouterx/conf/configure.go:Refresh,stringOf,intOf,boolOf"]}
{"id": "C49", "title": "Each collector request gets exactly one well-formed reply", "statement": "For every sequence of well-formed requests the agent answers each with exactly one reply: zero or more marked records followed by the end mark, which a collector parses back to the handler's result pack; unknown commands and handler panics give the bare end mark.", "quantifier": "every sequence of requests and handler behaviours", "why_tests_cant": "histories of unbounded length", "anchors": ["scouterx/netio/tcpclient/tcpclient.go:Process", "scouterx/netio/tcpclient/handlers.go:handle"]}
{"id": "C50", "title": "Requests are framed independently of TCP segmentation", "statement": "A request frame is understood the same however TCP splits it. (False: the frame body is read with a single read and the missing part is replaced by zero bytes; exhibited; true when the body arrives in one piece.)", "quantifier": "every segmentation", "why_tests_cant": "network timing", "anchors": ["scouterx/common/netdata/datainputx.go:ReadIntBytes,Read", "scouterx/netio/tcpclient/tcpclient.go:Process"]}
{"id": "C51", "title": "Reconnection backs off", "statement": "The pause before reconnecting grows while failures repeat. (False: the delay variable is reset in every round; the pause is 3000 ms for every failure history, proved.)", "quantifier": "every history of connection attempts", "why_tests_cant": "histories of unbounded length", "anchors": ["scouterx/netio/tcpclient/tcpmanager.go:startTcp"]}
{"id": "C52", "title": "Dump downloads are complete", "statement": "For every file the chunks streamed by a dump download concatenate to exactly the file's contents, each at most 300 bytes and preceded by the has-next mark.", "quantifier": "every file content", "why_tests_cant": "unbounded contents", "anchors": ["scouterx/dump/dump.go:DownloadBinaryDumpFiles"]}
{"id": "C53", "title": "Dump requests stay inside the dump directory", "statement": "File names in collector requests resolve inside the dump directory. (False: names with '..' escape it, exhibited; true for names without '..' elements; whatever the name, the thing meant is the one reached by walking from the dump directory as the name says, never above the root.) A deletion answers success, and the thing is gone, exactly if the name ends in pprof and names a file or an empty directory; otherwise it answers failure with the reason and nothing changes.", "quantifier": "every requested name and every content of the file system", "why_tests_cant": "unbounded strings", "anchors": ["scouterx/dump/dump.go:DownloadBinaryDumpFiles,DeleteBinaryDumpFiles,StreamDumpFileContents"]}
{"id": "C54", "title": "Active service counts add up", "statement": "The three active-service figures add up to the number of active services, at most 2000, each service falling in the band of its elapsed time, and exactly the services (among those counted) over the stuck limit are ended and alerted.", "quantifier": "every set of active services and thresholds", "why_tests_cant": "unbounded sets", "anchors": ["scouterx/strace/tctxmanager/tctxmanager.go:GetActiveCount", "scouterx/strace/tracemain.go:endStuckServiceForcibly"]}
{"id": "C55", "title": "Short inputs can decode to arbitrarily long lists", "statement": "There is no bound in terms of the input on what ReadValue builds: for every n below 2^63 some input of at most ten bytes decodes, without an error, to a list of n null values (elements are read past the end of the input). A reader that trusts the count is exposed to memory exhaustion.", "quantifier": "every element count below 2^63", "why_tests_cant": "A test decodes a few small inputs; the claim ranges over every list length, most of which cannot be materialised in memory.", "anchors": ["scouterx/common/netdata/listvalue.go: ListValue.Read", "scouterx/common/netdata/datainputx.go: ReadValue"]}
{"id": "C56", "title": "A blob cut short is silently padded with zeros", "statement": "When the input ends inside a blob or string (at least one body byte present), ReadBlob returns, without an error, a byte string of the announced length whose missing tail is zero bytes.", "quantifier": "every blob of readable length and every truncation point inside its body", "why_tests_cant": "Truncation can happen at any byte of any blob; a test covers a few points.", "anchors": ["scouterx/common/netdata/datainputx.go: ReadBlob"]}
{"id": "C57", "title": "Dump steps are indistinguishable from method steps", "statement": "A dump step is written with the type code of a method step; a collector takes it for a method step (for a dump without stack hashes: hash, elapsed and cpu time 0) and takes its remaining bytes for further steps.", "quantifier": "every dump step without stack hashes and thread id below 2^56", "why_tests_cant": "The claim is about every field combination of the step, and about a decoder that is not part of the repository.", "anchors": ["scouterx/common/netdata/dumpstep.go: DumpStep.GetStepType, DumpStep.Write"]}
{"id": "C58", "title": "The unsigned string hash separates names differing in one byte", "statement": "HashUint is 32-bit FNV-1a; two different strings that differ in exactly one byte (same position, everything else equal) always have different hashes.", "quantifier": "all common prefixes and suffixes of any length and all pairs of different bytes", "why_tests_cant": "the set of string pairs is infinite; a hash collision is only found by luck", "anchors": ["scouterx/common/util/hashutil.go: HashUint"]}
{"id": "C59", "title": "Tracing never panics into the application", "statement": "No call of the tracing API lets a panic reach its caller, whatever was called before with whatever arguments and configuration. With positive profile limits and no nil request, step or parent context passed in, no call panics at all, so no Panic alert is ever sent.", "quantifier": "every finite history of API calls, configurations, clock readings and id draws", "why_tests_cant": "The panics depend on buffer fill levels and configuration changes between calls; there are infinitely many histories.", "anchors": ["scouterx/strace/tracemain.go", "scouterx/common/netio/profile.go: SingleProfile.Add", "scouterx/common/panic.go: ReportScouterPanic"]}
{"id": "C60", "title": "GoWithTrace runs the caller's function", "statement": "GoWithTrace always starts the goroutine that runs the function it is given: with a fresh child context when the caller's context is traced, with the caller's context otherwise. As found, this needs a positive profile buffer: with a buffer of no steps the panic recovered before the go statement loses the caller's function.", "quantifier": "every history of API calls and every context", "why_tests_cant": "Whether the function runs depends on the whole history and configuration before the call.", "anchors": ["scouterx/strace/tracemain.go: GoWithTrace, startChildGoroutineService"]}
{"id": "C61", "title": "A transaction log carries the data of its service", "statement": "Ending a running service sends at most one transaction log, after the rest of its profile, and the log carries the service's transaction, global and caller ids, name hash, elapsed time, error, status, client address, counts and texts, as they are at the end. A service ended by EndHttpService leaves the same logs as if ended by EndService at that moment, but for the status, which is that of the response if there is one.", "quantifier": "every state and every running service", "why_tests_cant": "The claim ranges over every combination of recorded data and every state of caches, buffers and sampler.", "anchors": ["scouterx/strace/tracemain.go: endAnyServiceOfTraceContext", "scouterx/netio/tracecontext.go: ToXlog"]}
{"id": "C62", "title": "A clock set back", "statement": "Recordings stay in the window of their own second when the clock is set back. (False: after the clock has been set back by d seconds a call recorded before is still reported in the 300 second window though its second lies ahead, unless d is 1 modulo 301, and it is lost once the clock has returned; proved for every time and every such d.)", "quantifier": "every time and every correction of the clock", "why_tests_cant": "clock histories", "anchors": ["scouterx/counter/metering.go:getPosition"]}
{"id": "C63", "title": "The configuration listing is what is in effect", "statement": "After any history of file changes and refreshes the listing of the configuration has every setting exactly once, in a fixed order, and every listed text, read as that setting, gives the value in effect. (Exhibited limit: a sampling step time of 2^31 or more is listed as given while only its low 32 bits are in effect.)", "quantifier": "every environment and history of file changes and refreshes", "why_tests_cant": "histories of unbounded length", "anchors": ["scouterx/conf/configure.go:GetConfigureDescMap,boolOf,intOf,stringOf,stringOfType,addToConf"]}
{"id": "C64", "title": "Observers of the configuration", "statement": "A refresh either changes nothing and runs no observer, or loads and runs the observers of the configuration once, and that of the object's name exactly when the name changed; the sampler always uses the patterns loaded last.", "quantifier": "every state, environment and file, every sequence of loaded configurations", "why_tests_cant": "histories of unbounded length", "anchors": ["scouterx/conf/configure.go:Refresh,resetObjNameAndType", "scouterx/conf/opserver.go", "scouterx/strace/xlogsampler.go:Run"]}
{"id": "C65", "title": "Dumps reach their file", "statement": "A dump the agent has written and reported is in its file. (False of thread dumps: the writer is never flushed, so a dump of at most 4096 bytes leaves an empty file, proved for every content; block and mutex profiles are complete for every sequence of writes.)", "quantifier": "every dump content and every way of writing it", "why_tests_cant": "unbounded contents and sequences of writes; a test with a large dump passes", "anchors": ["scouterx/dump/dump.go:heavyAllStackTrace,profileBlock,profileMutex"]}
{"id": "C66", "title": "Active-service list over TCP", "statement": "After any life of the agent (traced calls, requests, edits of the configuration file, refreshes, announcements), the answer to the active-service request has exactly one row for each service that was started and has not ended, with its id, name, elapsed time and thread, as long as no more than 10000 run; without that limit, every row still shows a running service. The request itself changes no service.", "quantifier": "every configuration, every finite interleaving of calls, requests, edits and refreshes", "why_tests_cant": "unbounded histories, arbitrary interleaving of tracing with requests", "anchors": ["scouterx/netio/tcpclient/handlers.go:handle,getActiveServiceList", "scouterx/strace/tctxmanager/tctxmanager.go", "scouterx/strace/tracemain.go"]}
{"id": "C67", "title": "Detail of one running service", "statement": "After any life of the agent the thread-detail request for the id of a running service answers with that service's row; a request for an id that is not running answers that it ended, and one whose parameters are not a map answers with the bare end mark; none of these changes anything.", "quantifier": "every life, every id, every parameter pack", "why_tests_cant": "unbounded histories and ids", "anchors": ["scouterx/netio/tcpclient/handlers.go:getThreadDetail"]}
{"id": "C68", "title": "Configuration saved over TCP", "statement": "The text given to the save request is what the later show request answers; the answer is \"true\" exactly when the file could be written; what is in effect afterwards is the saved text exactly when the file is readable, parses and is newer than the text in effect, and otherwise what was in effect before, although the answer is \"true\" all the same. With an environment entry lacking '=', the request ends with a bare end mark.", "quantifier": "every agent state, environment, text and outcome of the write", "why_tests_cant": "every text, including malformed ones, and every file time", "anchors": ["scouterx/netio/tcpclient/handlers.go:saveConfig,getConfig", "scouterx/conf/exthandler.go:SaveConfigText", "scouterx/conf/configure.go:Refresh"]}
{"id": "C69", "title": "Listings mirror the configuration in effect", "statement": "After any life the configuration listings show, for every key, the value in effect, its default, its kind and its description, and no other keys.", "quantifier": "every life of the agent", "why_tests_cant": "unbounded histories", "anchors": ["scouterx/netio/tcpclient/handlers.go:listConfigureWas,configDesc,configValueType", "scouterx/conf/configure.go"]}
{"id": "C70", "title": "Dispatch of requests", "statement": "A request the agent does not know, and the keep-alive, are answered with a bare end mark and change nothing; every request is answered by exactly one end mark, preceded by at most one pack or, for the two download requests, by blobs of at most 4096 bytes.", "quantifier": "every state, command name and parameter pack", "why_tests_cant": "every possible command name and pack", "anchors": ["scouterx/netio/tcpclient/handlers.go:handle,init", "scouterx/netio/tcpclient/tcpclient.go"]}
{"id": "C71", "title": "Dump files: list, fetch, delete", "statement": "The lists of dump files have one row for each file in or below their directory (for binary dumps: whose name ends in pprof) and no other, with name, size and time. A listed name directly in the directory can be fetched and gives exactly the file's content; a deletion answered with success removes that file and no other. (Limit, proved: a file in a subdirectory is listed by its last name only and cannot be fetched.)", "quantifier": "every file system, directory, name and content", "why_tests_cant": "all file trees and names", "anchors": ["scouterx/dump/dump.go:ListDumpFiles,ListBinaryDump,StreamDumpFileContents,DownloadBinaryDumpFiles,DeleteBinaryDumpFiles", "scouterx/netio/tcpclient/handlers.go"]}
{"id": "C72", "title": "Announcements and tracing use the configuration in effect", "statement": "After any life, the announcement of the object carries the object name, type and hash of the configuration in effect, and every later traced call is sampled by the configuration in effect.", "quantifier": "every life of the agent", "why_tests_cant": "unbounded histories of edits, refreshes and calls", "anchors": ["scouterx/agent.go", "scouterx/task/agenttask/agenttask.go", "scouterx/conf/configure.go", "scouterx/strace/xlogsampler.go"]}
{"id": "C73", "title": "Recording calls put exactly the step they describe into the profile", "statement": "AddMessageStep, AddHashedMessageStep, AddPMessageStep, AddStep, MarkAsError, StartMethodWithParam, StartCustomMethodWithParam, EndMethod, StartApiCall and EndApiCall add to the profile of the traced service exactly the steps they stand for: the given text (announced and referred to by hash where the step carries a hash), value, elapsed time, level and parameters, begun at the time since the service's start, numbered on from the previous step and attached to the innermost open method or api call; they change nothing else of that service (apart from its error or api-call totals where documented), nothing of any other service, and send nothing but profile packs carrying, in order and in full, the steps that leave the buffer.", "quantifier": "every state reachable by any history of API calls, every service (running or ended), every text, value, level, parameter list and clock", "why_tests_cant": "the claim is about every buffer fill level and every earlier history, including those in which the recorded step triggers a flush; a test fixes one", "anchors": ["scouterx/strace/tracemain.go: AddMessageStep, AddHashedMessageStep, AddPMessageStep, AddStep, MarkAsError, StartMethodWithParam, StartCustomMethodWithParam, EndMethod, StartApiCall, EndApiCall", "scouterx/netio/profilecollector.go: Add, Push, Pop, process"]}
{"id": "C74", "title": "An http service is started with the request's data", "statement": "StartHttpService on a context without a trace begins a service named path<method>, of the web-service kind, whose address is the value of the configured client-ip header if there is one and the connection's address otherwise, cut at the first colon, with the request's method and the announced user agent and referer; its profile begins with the goroutine step followed by one message step for each configured header the request has (all headers if none is configured, none if disabled), in the configured order with blanks around keys ignored and values joined by commas, and then the query if enabled; its log carries these data. StartService begins an app service of the given name and address. So it is however the service is ended; after EndHttpService the log has the status of the response.", "quantifier": "every reachable state, every request (path, method, headers, query, address), every configuration of header keys, every later history until the end of the service", "why_tests_cant": "ranges over all requests, header configurations and histories", "anchors": ["scouterx/strace/tracemain.go: StartHttpService, getRemoteIp, normalizeIp, profileHttpHeaders, StartService, startService"]}
{"id": "C75", "title": "Propagation headers identify the call, and api calls add up in the log", "statement": "StartApiCallWithPropagation adds to the outgoing request exactly the headers naming the service's group (its own id if it had none, which it then keeps), the service itself, the callee id of the recorded api-call step and this object; and after any history the log of a service counts exactly the api calls ended on it, with the sum of their times.", "quantifier": "every reachable state and service, every name and address, every history of calls", "why_tests_cant": "the header values depend on all earlier calls (group assignment) and the totals on every history", "anchors": ["scouterx/strace/tracemain.go: StartApiCallWithPropagation, startApiCall, EndApiCall"]}
{"id": "C76", "title": "Inherited and child services carry their parent's data", "statement": "StartNewInheritanceService begins a service with the parent's name and address, marked as its child, with the parent's group, kind, stream flag, error, http method, sql and api-call figures, user, agent, referer, login, description and texts, the parent as caller and this object as calling object, and records the goroutine step and an inheritance step; GoWithTrace begins a child of the background-thread kind with the parent as caller and the parent's group, records in the parent an async step with the child's id and announced name, and the child's time runs from the moment its goroutine begins.", "quantifier": "every reachable state, every parent service (running or ended), every name", "why_tests_cant": "ranges over all parent states and profile buffers", "anchors": ["scouterx/strace/tracemain.go: StartNewInheritanceService, inheritTctx, GoWithTrace, startChildGoroutineService"]}
{"id": "C77", "title": "The log tells the last name and texts given, and what the service was started with", "statement": "After any history of calls, the log sent when a service ends carries the last name SetServiceNameForcibly gave it (its first name otherwise), the last login, description and texts its user assigned, the number and time of its api calls, and the id, kind, caller, address, user agent and referer it was started with, which no call changes; IsStream answers true exactly when SetAsStream was called for the service (or it was a stream before). So it is however the service is ended; after EndHttpService the log has the status of the response.", "quantifier": "every reachable state, every service, every history of calls about it and about other services", "why_tests_cant": "quantifies over all histories of interleaved calls on any number of services", "anchors": ["scouterx/strace/tracemain.go: SetServiceNameForcibly, SetAsStream, IsStream, EndService, endAnyService", "scouterx/netio/tctxmanager/tctxmanager.go"]}
{"id": "C78", "title": "The counter packs carry exactly the documented figures", "statement": "With positive profile limits and a clock that never goes back, every round of the real-time counter sends exactly one pack, named after the object, with the runtime's goroutine, cgo and heap figures, the garbage collections per second and milliseconds of pause per second since the previous round (the runtime's 32-bit count may wrap around), the throughput, mean elapsed time and percentage of errors of the services that ended in the last 30 seconds, the mean of the active counts seen in the last 30 seconds and the services active now by colour; every round of the five-minute counter sends one pack with the same service figures over 300 seconds.", "quantifier": "every history of calls and counter rounds, every runtime sample, every iteration order of the registry, every non-decreasing clock", "why_tests_cant": "histories of unbounded length with interleaved rounds and calls", "anchors": ["scouterx/task/countertask/countertask.go: getAllCounterOnPack, getAll5MinCounterOnPack", "scouterx/counter/gocounter/gocounter.go: GetGoCounter", "scouterx/counter/serviceMetering.go", "scouterx/counter/valueMetering.go"]}
{"id": "C79", "title": "The counter packs count every service once", "statement": "As long as at most 10000 services run at once and ids are distinct, the numbers the real-time rounds average are exactly the numbers of running services (at most 2000 are looked at), and in every window the services counted as ended are exactly the services that ended in it, each once, including the ones a round ends as stuck.", "quantifier": "every history of calls and counter rounds, every window", "why_tests_cant": "histories of unbounded length", "anchors": ["scouterx/task/countertask/countertask.go", "scouterx/strace/tracemain.go: endAnyService", "scouterx/netio/tctxmanager/tctxmanager.go: GetActiveCount"]}
{"id": "C80", "title": "The counters sent on demand: runtime figures, and throughput and error rate swapped (as found)", "statement": "SendServiceCounter stores the percentage of failed services under the name of the throughput and the throughput under the name of the error rate, after every history. SendGoCounter sends the runtime's figures, with the garbage collection rates since the previous call of SendGoCounter itself (none for the first call), independent of the packs the counter goroutine sends.", "quantifier": "every history of calls and counter rounds, every sequence of runtime samples", "why_tests_cant": "histories of unbounded length", "anchors": ["scouterx/counter/collector.go: SendServiceCounter", "scouterx/counter/collector.go: SendGoCounter"]}
{"id": "C81", "title": "The profile a collector receives of a service is complete and in order", "statement": "At every moment, the profile bytes received for a service's id, over all profile packs sent so far, are those of the steps sent for it, one after another and as they are in memory; no profile bytes arrive for an id no service has; a step once recorded is altered by no later call (the API user finishing each step once); and when the service ends without being sampled away, the profile bytes received for it over its whole life are exactly those of all its recorded steps in the order recorded, however they were spread over packs.", "quantifier": "every history of calls of any number of services, every interleaving, every buffer size, every oracle for clock and random numbers that gives distinct ids", "why_tests_cant": "histories, numbers of services and buffer sizes are unbounded", "anchors": ["scouterx/netio/profilecollector.go: Add, Process, Close", "scouterx/strace/tracemain.go: endAny"]}
{"id": "C82", "title": "Calls about other services leave a service alone", "statement": "Any calls about other services or about none (starts, ends, steps, goroutines, configuration changes, sampler rounds, and active counts that do not find this service stuck and remove it) leave everything kept about a service exactly as it was, add nothing to the profile bytes received for it, and its transaction log tells what was kept before them. So it is whether the service is ended by EndService or EndHttpService; in the latter case the log has the status of the response.", "quantifier": "every state, every history of calls about other contexts", "why_tests_cant": "unboundedly many interleavings", "anchors": ["scouterx/strace/tracemain.go", "scouterx/netio/profilecollector.go", "scouterx/strace/tctxmanager/tctxmanager.go"]}
{"id": "C83", "title": "The profile tells exactly what the calls said", "statement": "A service is started (with StartService, StartHttpService, StartNewInheritanceService or GoWithTrace), any calls are made about it and about any other services, and it is ended (with EndService or EndHttpService); if it is not sampled away, what a collector decodes from the profile bytes received for its id is the steps of its start (the goroutine's, and for an http service one per line describing the request, for a continuing service one that says so) followed by exactly the steps that the calls about it told, in order, each with its parent, its index, its time and its contents (messages, hashed and parameterized messages, errors, parameters of methods, methods and api calls when they end, goroutines).", "quantifier": "every earlier history, every interleaving of calls, every argument, clock and id oracle with distinct ids", "why_tests_cant": "unbounded histories and interleavings; the packs in which the steps arrive depend on all of them", "anchors": ["scouterx/strace/tracemain.go", "scouterx/netio/profilecollector.go", "scouterx/common/netdata/step.go: StepsToBytes"]}
{"id": "C84", "title": "What a collector gets when it triggers a dump or a profile", "statement": "TRIGGER_THREAD_DUMP makes go_dump_<time>.log in the dump directory, touches no other file and nothing else of the agent, and answers with the file's full path; the file can be fetched under its own name, but (as found) not under the name answered, because the directory is put in front once more. The triggers of binary profiles answer success at once in every state; those of textual profiles answer nothing.", "quantifier": "every state of the agent, every directory, time and stack text, every request", "why_tests_cant": "all states and file systems", "anchors": ["scouterx/dump/dump.go: HeavyAllStackTrace, StreamDumpFileContents", "scouterx/netio/tcpclient/handlers.go: handle, triggerBinaryCpuProfile, triggerBlockProfile"]}
{"id": "C85", "title": "Profiles taken on request, under every schedule", "statement": "Whatever the schedule of the profiling goroutines: a mutex profile puts back the fraction it found; if mutex profiles do not overlap the application's own fraction is in force whenever none is under way, but two overlapping ones leave the first one's fraction for good (as found); after a block profile block profiling is off even if the application had it on (as found); never two CPU profiles are taken, and one asked for while another is taken leaves an empty file (as found); every other profile is in its file completely when it finishes, in the right directory under the right name, and binary ones can be downloaded.", "quantifier": "every history of requests, starts, ends and application settings, every number of profiles", "why_tests_cant": "all interleavings of the goroutines", "anchors": ["scouterx/dump/dump.go: ProfileBinaryCpu, profileCpu, ProfileBlock, profileBlock, ProfileMutex, profileMutex", "scouterx/netio/tcpclient/handlers.go: trigger*"]}
{"id": "C86", "title": "Several goroutines recording on the same service", "statement": "If goroutines sharing a service's context never record at the same time (no one makes a step while another is inside a recording call), everything recorded and sent is as if one goroutine had made the calls in the order they began. Under every schedule, what is sent holds only steps that were recorded, and once the calls have returned there is room for the next step: calls made afterwards one by one do not panic and lose nothing more. But (as found) recordings at the same time can lose a step, send steps twice, give two steps the same number, make a recording call panic, and make the end of the service panic.", "quantifier": "every number of goroutines, every list of calls each, every interleaving of their memory operations, every buffer size", "why_tests_cant": "data races: all interleavings at the level of loads and stores", "anchors": ["scouterx/netio/profilecollector.go: Push, Pop, Add, Process, Close", "scouterx/netio/dataproxy.go: SendProfile"]}
{"id": "C87", "title": "Several goroutines announcing texts", "statement": "Whatever the interleaving of goroutines that send texts, cache resets and the queue being emptied: every call returns the text's hash; when it has returned, a text with this kind and hash has been given to the send queue or is the next thing another goroutine does, and when all calls have returned it has been given; a text is given at most once per call that asked for it. As found, the same text can be given twice, and a hash can be handed out before its text is given to the queue.", "quantifier": "every number of goroutines and calls, every interleaving, every reset, every behaviour of the queue", "why_tests_cant": "all interleavings of the test, the insertion and the send", "anchors": ["scouterx/netio/dataproxy.go: SendServiceName, SendObjName, SendLogin, SendDesc, SendError, SendApicall, SendMethodName, SendSqlText, SendHashedMessage, SendReferer, SendUserAgent, ResetTextSent"]}
{"id": "C88", "title": "Typed access to lists", "statement": "What was appended to a list value with any of the Add functions is found at its position by the getter of its type (numbers cut to the width asked for), the getters of the other types answer the zero value there, and the size is the number of appends; at a negative position or from the size on every getter panics. The same answers are given by the list after it was sent and read back.", "quantifier": "every sequence of appends, every position, every type", "why_tests_cant": "all sequences and positions", "anchors": ["scouterx/common/netdata/listvalue.go: AddInt64, AddInt32, AddFloat, AddString, AddBoolean, Add, GetString, GetFloat, GetInt32, GetInt64, GetBoolean, Size"]}
{"id": "C89", "title": "Listing a cache (the running services) while it is being changed", "statement": "GetValues of the cache gives its lock back around every entry. Whatever is added, removed or cleared meanwhile by other goroutines: a key that has a value in the cache during the whole call is in the answer exactly once; every value in the answer was its key's value in the cache at some moment of the call; a key is in the answer at most once for having been there at the beginning plus once for each time it was inserted meanwhile (a running service, whose id is inserted once, at most once); and the call can always end by its own steps. As found, a key can be listed twice, and what is listed may already be gone (even after the cache was cleared).", "quantifier": "every number of goroutines listing and every history of writing calls between their steps, every bound of the cache, every order in which Go's map iteration produces entries", "why_tests_cant": "all interleavings and map iteration orders", "anchors": ["scouterx/common/structure/lra/lra.go: GetValues, Add, Remove, Clear", "scouterx/strace/tctxmanager/tctxmanager.go: GetAllTctx, GetActiveCount"]}
{"id": "C90", "title": "The agent's locks do not deadlock", "statement": "However many goroutines call into the agent (refreshing and listing the configuration, registering observers, sending texts, using and listing the caches, making ids, metering, counting) and however they are scheduled, they never block each other for good: as long as a call has not returned somebody can go on, every schedule is finite, and all calls can be brought to their end. This needs that observers of the configuration only take locks that come after the observers' lock, as the agent's own observers do; as found, an observer that registers an observer or refreshes the configuration blocks for ever.", "quantifier": "every number of goroutines, every list of calls, every schedule, every lists' length", "why_tests_cant": "all schedules of any number of goroutines", "anchors": ["scouterx/conf/configure.go: Refresh, GetConfigureDescMap", "scouterx/conf/opserver.go: AddToConfObserver, confChangeNotify, objChangeNotify", "scouterx/common/structure/lra/lra.go", "scouterx/common/structure/cachemap/cachemap.go", "scouterx/common/structure/cachemap2/cachemap2.go", "scouterx/common/structure/cacheset/cacheset.go", "scouterx/counter/serviceMetering.go: Add", "scouterx/counter/metering.go: getPosition", "scouterx/common/util/keygen/keygen.go: Next"]}
{"id": "C91", "title": "Metering from several goroutines: nothing is lost, readings are between before and after", "statement": "When several goroutines call Add and GetAllCounter of the service meter at the same time, in any interleaving of their single reads and writes and with the clock going on in between, no recorded call is lost or doubled, and the count, the time sum and the error count from which a reading of p seconds computes its answer each cover at least the calls of the last p seconds whose Add had returned when the reading began and at most those whose Add had begun when it ended - provided no recording takes longer than 300 seconds and the reading no longer than 301 - p. A reading during which nothing is recorded answers exactly the counters of the calls of those seconds. A reading made during a recording may be torn: it can count the call and miss its time (average 0 ms).", "quantifier": "all numbers of goroutines with all lists of Add and GetAllCounter calls, all schedules of their steps and of the clock in which no call is held up longer than that", "why_tests_cant": "The interleavings of field reads and writes are the scheduler's; a test sees a few of them and cannot show that none loses an update or reads a reused bucket.", "anchors": ["scouterx/counter/serviceMetering.go: ServiceMetering.Add, GetAllCounter", "scouterx/counter/metering.go: getPosition, Handle, GetCurrentBucket"]}
{"id": "C92", "title": "From the agent to the collector over a network that reorders, repeats and loses datagrams", "statement": "Packs given to the UDP client by any number of calls (a pack sent directly, or what the sending goroutine hands over), with any maximum datagram size, are sent without error. A collector that reads the datagrams by the documented formats (single, list, numbered fragment) obtains exactly the packs sent, each as often as sent, whatever the order in which the datagrams arrive; if datagrams are lost but none is repeated it obtains none more often than it was sent; and if datagrams are lost or repeated it obtains no pack that was not sent, and every pack of each call whose datagrams all arrived. Consequently the transaction logs it obtains from an application are those of its ended services, each once (without sampling, all of them).", "quantifier": "all sequences of calls of the client with all packs within the limits (fewer than 32768 packs and 32767 fragments), all maxima, all distinct fragment ids, all permutations, losses and repetitions of the datagrams, and all application histories", "why_tests_cant": "The number of arrival orders and loss patterns is unbounded, and a mistake (two fragment groups mixed up, a list cut at the wrong place) shows only for some sizes and orders.", "anchors": ["scouterx/netio/udpclient/udpclient.go: WriteBuffer, WriteBufferList, writeMTU", "scouterx/netio/udpsender/udpsender.go: SendPackDirect, run, send"]}
{"id": "C93", "title": "A configuration file that cannot be read from the start", "statement": "As long as the configuration file is there but cannot be looked at, read or parsed, no refresh has any effect, not even of environment variables: every setting has its documented default (sampling is off), but the object has no name, no type and the hash 0, which its logs and announcements then carry on every host alike. The first refresh that finds a readable file, or none, puts the settings and the name in effect.", "quantifier": "all environments, host names and histories of unreadable states of the file and refreshes", "why_tests_cant": "It is about every history of a file's failures, and about each of the 61 settings in a state tests do not set up.", "anchors": ["scouterx/conf/configure.go: GetInstance, Refresh, addToConf, resetObjNameAndType", "scouterx/task/agenttask/agenttask.go: SendObjPack"]}
{"id": "C94", "title": "Where the agent's files are, and what a change of the working directory does", "statement": "The configuration file is the one named by SCOUTER_CONFIG, else by scouter.config, else conf/scouter.conf in the agent's directory (SCOUTER_AGENT_HOME, else scouter in the working directory), where dumps, profiles and the log have their own directories; a dump or profile request without '..' never reaches the configuration or the log file. With an absolute SCOUTER_CONFIG or SCOUTER_AGENT_HOME the configuration at every moment is what it would be without any change of the working directory. Without them, a program that changes its working directory loses its configuration at the next refresh, and does not get it back by returning. The program ends at start if the log file cannot be opened.", "quantifier": "all environments, directories, file trees, and histories of directory changes, file changes and refreshes", "why_tests_cant": "The paths are computed anew at every refresh from process-wide state that the host program may change at any time.", "anchors": ["scouterx/conf/configure.go: getConfFilePath, Refresh", "scouterx/common/util/osutil.go: GetAppPath, GetScouterPath", "scouterx/dump/dump.go: getDumpPath, getBinaryDumpPath", "scouterx/common/logger/logger.go: Init"]}
{"id": "C95", "title": "Changing the collector while packs are being sent", "statement": "The agent follows a change of the collector's address, port or maximum datagram size: once the configuration stays as it is, the connection in use is made for exactly that address, port and maximum after at most two rounds of the reloading goroutine, whatever it was doing and whatever is sent meanwhile, and stays so. A call in flight during a change writes its datagrams in order, each at most once, all to the one collector it started with; datagrams are lost only when that connection has been replaced meanwhile, and then only a final part of them. Not kept: a reload that looks between the assignments of a refresh connects to an address that was never configured until the next round; an address that could not be resolved or dialled is never tried again until the configuration changes; a maximum of 0 ends the program at the next pack.", "quantifier": "all initial configurations, all changes of the three settings at all moments, all outcomes of resolving and dialling, all calls of the UDP client and all interleavings of them with the reloading goroutine, at every shared variable and every datagram", "why_tests_cant": "Which client a call uses and which settings the goroutine reads depend on the schedule; a test sees one of them, and two goroutines, a refresh and a name server cannot be stopped between any two reads.", "anchors": ["scouterx/netio/udpsender/udpsender.go: GetInstance, reloadUdpSender, SendPackDirect, run, send, sendList", "scouterx/netio/udpclient/udpclient.go: New, open, SetUDPMaxBytes, WriteBuffer, WriteBufferList", "scouterx/conf/configure.go: refresh, setConfigure"]}
{"id": "C96", "title": "Several goroutines reporting errors and ending api calls on one service, while it ends", "statement": "Goroutines sharing a service may report errors, end api calls and end the service at the same time. Under every schedule: the error of the service is one that was reported; once a call reporting an error has returned the service has an error ever after (no text being empty); once there is an error, only a forced one or one of a call already under way can replace it; a service that has an error when its end begins is not discarded and its log has an error; no api call is counted that was not ended, none twice, the total time is that of some of them each at most once, and at least one is counted if any ended. If the goroutines take turns all is as if one had made the calls: the first error stays, all api calls are counted. Not kept when calls overlap: a later error can replace the first, marking an empty text can take an error away, api calls can be lost from the count, and an error marked during the end can be in a log that is thrown away.", "quantifier": "all numbers of goroutines, all lists of calls each, all starting values, all interleavings of their reads and writes", "why_tests_cant": "The losing interleavings are a few instructions wide; no test can enumerate the schedules of any number of goroutines.", "anchors": ["scouterx/strace/tracemain.go: MarkAsError, MarkAsErrorForcibly, EndApiCall, endStuckServiceForcibly, endAnyServiceOfTraceContext, findXLogDiscard", "scouterx/netio/tracecontext.go: TraceContext, ToXlog"]}
{"id": "C97", "title": "Sampling decisions made while the configuration is being loaded", "statement": "The settings are written one after the other without a lock the readers take; services end meanwhile. Under every schedule of the single reads and writes, and for any sequence of configurations loaded: the decision about a service is the one that follows from a set of options of which each is that of the configuration in effect before or of one of those loaded; a service with an error is kept; nothing is dropped while no configuration samples, or while all their rates are 100 percent; if only one option changes, each decision is that of the old or that of the new configuration; decisions begun when all is loaded follow from the last configuration alone; a decision is never held up by the loading. Not kept: a service which both the old and the new configuration keep can be dropped in between (turning sampling on with rates of 100 percent, from the defaults).", "quantifier": "all configurations, all sequences of them loaded, all services ending (name, elapsed time, error, draw), any number of goroutines deciding, all interleavings", "why_tests_cant": "The window is a few instructions wide, and there are unboundedly many schedules and configurations.", "anchors": ["scouterx/conf/configure.go: Refresh, Configure", "scouterx/strace/xlogsampler.go: Run, eEvaluateXLogDiscard, sampling4Elapsed", "scouterx/strace/tracemain.go: findXLogDiscard"]}
{"id": "C98", "title": "A connection that fails, and settings that change under it", "statement": "The connection to the collector may fail at any byte, and the configuration may be refreshed at any moment of the session. What the collector receives is always a beginning of the stream a perfect connection would carry (greeting and the replies to its requests, in order); requests that arrived before the failure have been carried out in order, each once; only the last reply can be cut or missing, and its request has been carried out; with room for all replies nothing is lost; a request is only answered while the collector's address and the object's hash are those the session was opened with. Not kept: if the collector's address changes while the agent dials, the agent goes on serving the old collector, and does not end the connection for the change.", "quantifier": "all sequences of requests, all points of failure (every byte count), all handlers, all changes of the settings before, between and during the requests", "why_tests_cant": "The failure may come at every byte of every stream and the refresh at every point of the session.", "anchors": ["scouterx/netio/tcpclient/tcpclient.go: Prepare, Process, Close", "scouterx/netio/tcpclient/tcpmanager.go: StartTcp, startTcp"]}
{"id": "C99", "title": "The agent does not end the program it is part of", "statement": "With a well-formed environment the program starts with the agent exactly if the log file can be opened, `profile_step_max_keep_in_memory_count` and `send_queue_size` are not negative, and announcements are not traced (`trace_obj_send`) while the collector's address cannot be dialled; by default it starts whether or not the collector can be reached. Once started, no call of the API, request of the collector, change of the configuration file, refresh, announcement, counter round, reload of the sender or datagram ends the program, in any order, as long as no configuration asks for traced announcements or a maximum datagram of 0; the only ways it can end are a refresh with an environment entry without `=`, a traced announcement without a connection, and writing with a maximum of 0. The counters' rounds go on whatever happens.", "quantifier": "all machines, starts and histories of API calls, collector requests, file changes, refreshes, announcements, counter rounds and sender steps", "why_tests_cant": "Each of the agent's goroutines may panic in any state any history leads to; tests see a few histories.", "anchors": ["scouterx/agent.go: Init", "scouterx/task/agenttask/agenttask.go: SendObjPack", "scouterx/task/countertask/countertask.go: CounterTask", "scouterx/netio/udpsender/udpsender.go: GetInstance, reload, SendPackDirect", "scouterx/common/factory/channelfactory/channelfactory.go", "scouterx/conf/configure.go: GetInstance, Refresh"]}
