{
 "C03": {
  "note": "The round trip fails exactly in the window 32768..65535 (proved: panic); outside it and for collectors it holds."
 },
 "C06": {
  "note": "The property is false of the code: refuted for every address; exact results for first bytes 0..3."
 },
 "C10": {
  "note": "The property is false of the code: refuted for every registration whose type name is longer than four bytes."
 },
 "C60": {
  "note": "Holds for positive profile limits; a buffer of no steps loses the function (proved witness)."
 },
 "C61": {
  "note": "The profile count and size in the log are those before the last buffer (C35); the thread name is the hash of the global id."
 },
 "C35": {
  "note": "The property is false of the code: the log undercounts by exactly the buffered steps (proved), 0 for a service whose steps fit the buffer; refuted by a witness."
 },
 "C39": {
  "note": "Exact decision for every configuration, draw and service; the pattern options have no influence because their matchers never match (C20); a child service's log is sent even when dropped."
 },
 "C40": {
  "note": "Also: a service started on a context whose service has ended is lost."
 },
 "C54": {
  "status": "proved",
  "note": "In every state reached by proper calls with positive profile limits. The sum theorem needs distinct ids and at most 10000 running services (otherwise the registry evicts, see C42)."
 },
 "C37": {
  "status": "proved",
  "note": "The English claim is false of the code; what is proved is the refutation (any number of enders can log that often), the upper and lower bounds over all interleavings, and that serialised ends log once. The rest of the end (tracemain.go:379-397) is one atomic step of the machine."
 },
 "C62": {
  "note": "The property is false of the code; the exact effect is proved for every correction d with d % 301 != 1."
 },
 "C45": {
  "note": "Clock not before 1970 and non-decreasing; calls atomic; the figures are exact rationals, together with the whole numbers the program's floats are computed from (C112); recorded values are whole numbers."
 },
 "C46": {
  "note": "Any clock; calls atomic; exact rationals (floats: C112)."
 },
 "C47": {
  "note": "True when changes come with later modification times (proved for every such history, including changes during a refresh); false in general (proved witness). Environment entries without '=' crash (proved)."
 },
 "C48": {
  "note": "The properties library is modelled from its documentation, without ${} expansion; parsing of the file's syntax is not modelled."
 },
 "C65": {
  "note": "The property is false of the code for thread dumps: exact result proved for every dump.",
  "status": "proved"
 },
 "C49": {
  "note": "For every handler; requests are broken only outside their bodies (see C50)."
 },
 "C50": {
  "note": "The property is false of the code: refuted for every request whose last parameter is a text broken anywhere; true when bodies arrive whole (proved for any bodies)."
 },
 "C51": {
  "note": "The property is false of the code: the pauses are proved constant for every history."
 },
 "C53": {
  "note": "The property is false of the code: every file can be read, every pprof file removed; true for names without '..'."
 },
 "C80": {
  "note": "A defect of the code as found; nothing in the repository calls counter.Start."
 },
 "C81": {
  "note": "AllOnce: a step handed to AddStep, EndMethod or EndApiCall is not yet in a profile; re-ending an already recorded step would alter it in memory."
 },
 "C83": {
  "note": "Decoding (C83_decoded) is stated for steps that have a decoding: a user-made dump step has none (C57)."
 },
 "C84": {
  "note": "C84_answered_name_not_fetched is a finding: the answered full path does not fetch the file."
 },
 "C85": {
  "note": "Three as-found theorems: overlapping mutex profiles leak the fraction, block profiling is turned off, a second CPU profile is empty."
 },
 "C86": {
  "note": "Findings: C86_a_step_can_be_lost (for any state), C86_steps_can_be_sent_twice, C86_a_call_can_panic, C86_same_number, C86_close_can_panic. The memory model is sequential consistency; Go's racy behaviours beyond it are not modelled."
 },
 "C87": {
  "note": "C87_can_be_announced_twice and C87_hash_before_text are witness schedules from every state in which the text is not remembered."
 },
 "C88": {
  "note": "Panics outside of the list are what the code does (index expression), stated as such."
 },
 "C89": {
  "note": "C89_can_be_listed_twice and C89_listed_when_gone are witness histories."
 },
 "C90": {
  "note": "lra's Empty is left out here: it takes its read lock twice and can deadlock (C28_empty_can_deadlock). sync.Once is not modelled."
 },
 "C106": {
  "note": "sync.Once is not modelled; accesses are sequentially consistent (a race is a state, its outcome under Go's memory model is not modelled). The libraries gods (linkedhashmap, linkedhashset) and container/list are modelled by the accesses their functions make."
 },
 "C107": {
  "note": "The collector is specified (Spec/Collector, Spec/Network), not modelled from code: the collector is another program. The announcing calls are those of the sequential histories of Trace; the queue they go through is any reachable state of the queue model that accepted them all."
 },
 "C108": {
  "note": "The bodies of the API functions are any programs that do not call recover themselves (in the source only the two handlers do); their detailed behaviour is in Trace. Goexit, panic(nil) and runs without end are not in the language."
 },
 "C121": {
  "note": "Reads and writes of single words are sequentially consistent; the order of the two words of a string (the compiler's choice) is quantified over. What lies behind the bytes of a string is any memory, and reading it does not fault (on a machine it may). What a load assigns is any strings; how they come from the file is C47, C48, C63, C117."
 },
 "C122": {
  "note": "As for C121: single words are sequentially consistent, the order of the two words of a text is quantified over, and what lies behind the bytes of a text is any memory. Reads of branches not taken are made and ignored. What becomes of the lines is C74, of the address C118."
 },
 "C123": {
  "note": "What else a look does (the step, the log, the alert's text) is C36, C119 and C120, where the options do not change during a look. Single reads and writes are sequentially consistent; reads of branches not taken are made and ignored."
 }
}