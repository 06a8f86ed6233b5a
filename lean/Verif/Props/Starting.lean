import Verif.Props.Fields
import Verif.Props.Recording
/-!
# C74, C76: what a started service begins with

`w` is any state reached by a history of calls; the new service's context is the one after those in `w`, and `begun w` is
`w` with that context made and known to be active.
-/
namespace Scouter
open TM Trace

theorem trimmed_eq {pre key post : Bytes} (hpre : ∀ c ∈ pre, c ∈ ([9, 10, 11, 12, 13, 32] : Bytes))
    (hpost : ∀ c ∈ post, c ∈ ([9, 10, 11, 12, 13, 32] : Bytes))
    (h1 : ∀ c ∈ key.head?, c ∉ ([9, 10, 11, 12, 13, 32] : Bytes)) (h2 : ∀ c ∈ key.getLast?, c ∉ ([9, 10, 11, 12, 13, 32] : Bytes)) :
    trimmed (pre ++ key ++ post) = key := by
  unfold trimmed
  have dw : ∀ (a b : Bytes), (∀ c ∈ a, c ∈ ([9, 10, 11, 12, 13, 32] : Bytes)) →
      (a ++ b).dropWhile (· ∈ ([9, 10, 11, 12, 13, 32] : Bytes)) = b.dropWhile (· ∈ ([9, 10, 11, 12, 13, 32] : Bytes)) := by
    intro a b ha
    induction a with
    | nil => rfl
    | cons x a ih =>
      rw [List.cons_append, List.dropWhile_cons_of_pos (by simpa using ha x (by simp))]
      exact ih fun c hc => ha c (by simp [hc])
  have hd : ∀ (a : Bytes), (∀ c ∈ a.head?, c ∉ ([9, 10, 11, 12, 13, 32] : Bytes)) →
      a.dropWhile (· ∈ ([9, 10, 11, 12, 13, 32] : Bytes)) = a := by
    intro a ha
    cases a with
    | nil => rfl
    | cons x a => exact List.dropWhile_cons_of_neg (by simpa using ha x (by simp))
  rw [List.append_assoc, dw pre _ hpre]
  cases key with
  | nil =>
    rw [List.nil_append]
    have := dw post [] hpost
    rw [List.append_nil] at this
    rw [this]; rfl
  | cons k ks =>
    rw [hd ((k :: ks) ++ post) (by intro c hc; exact h1 c (by simpa using hc))]
    unfold List.rdropWhile
    rw [List.reverse_append, dw _ _ (by intro c hc; exact hpost c (by simpa using hc)), hd _ (by
      intro c hc; exact h2 c (by rwa [List.head?_reverse] at hc)), List.reverse_reverse]

theorem splitByte_join (sep : Byte) : ∀ (xs : List Bytes), xs ≠ [] → (∀ x ∈ xs, sep ∉ x) → splitByte sep ([sep].intercalate xs) = xs := by
  have one : ∀ (x rest : Bytes), sep ∉ x → splitByte sep (x ++ sep :: rest) = x :: splitByte sep rest := by
    intro x rest hx
    induction x with
    | nil => simp [splitByte]
    | cons c x ih =>
      have hc : c ≠ sep := by rintro rfl; exact hx (by simp)
      have := ih fun h => hx (by simp [h])
      simp only [List.cons_append, splitByte, hc, this, if_false]
  intro xs
  induction xs with
  | nil => intro h _; exact absurd rfl h
  | cons x xs ih =>
    intro _ hx
    cases xs with
    | nil => simpa [List.intercalate] using splitByte_none sep x (hx x (by simp))
    | cons y ys =>
      have e : [sep].intercalate (x :: y :: ys) = x ++ sep :: [sep].intercalate (y :: ys) := by simp [List.intercalate]
      rw [e, one x _ (hx x (by simp)), ih (by simp) fun z hz => hx z (by simp [hz])]

section
variable {w : World}

/-- **C74**: StartHttpService on a context without a trace begins a service named path<method>, of the kind web service,
with the client's address up to its port, the method and the announced agent and referer; it records a step naming the
goroutine and then one step per line describing the request. -/
theorem C74_http_start (hw : Reachable w) (c : Ctx) (hn : c ≠ .nil) (hc : traceOf w c = none) (r : Request) :
    ∃ w' t' now, startHttpService c (some r) w = (.ok (.traced w.tctxs.length), w') ∧
      ReadDuring (newborn w) (begun w) w' now ∧
      Wrote w.tctxs.length (newborn w) t' (fun t => { named w (httpName r) (clientAddress w.conf r) t with
          xType := 0, userAgent := textHash (r.header (ascii "User-Agent")), httpMethod := r.method
          referer := textHash (r.header (ascii "Referer")) })
        [(.service, httpName r), (.userAgent, r.header (ascii "User-Agent")), (.referer, r.header (ascii "Referer"))]
        (1 + (requestLines w.conf r).length)
        (w.steps ++ stepsAt (newborn w) 0 (goroutineStep w :: (requestLines w.conf r).map fun m => (now, .message m)))
        (List.range' w.steps.length (1 + (requestLines w.conf r).length)) 0 (begun w) w' := by
  obtain ⟨w', t', now, h1, -, h2, h3⟩ := startHttp_run hw.good hn hc r
  exact ⟨w', t', now, h1, h2, h3⟩

/-- **C74**: the configured headers are a list separated by commas, with blanks around each; those the request has are
recorded in the order configured, each with all its values. -/
theorem C74_configured_headers (conf : TraceConf) (r : Request) (items : List (Bytes × Bytes × Bytes)) (hne : items ≠ [])
    (hi : ∀ x ∈ items, (∀ c ∈ x.1, c ∈ ([9, 10, 11, 12, 13, 32] : Bytes)) ∧ (∀ c ∈ x.2.2, c ∈ ([9, 10, 11, 12, 13, 32] : Bytes)) ∧
      x.2.1 ≠ [] ∧ 44 ∉ x.2.1 ∧ (∀ c ∈ x.2.1.head?, c ∉ ([9, 10, 11, 12, 13, 32] : Bytes)) ∧
      ∀ c ∈ x.2.1.getLast?, c ∉ ([9, 10, 11, 12, 13, 32] : Bytes))
    (hk : conf.headerKeys = [44].intercalate (items.map fun x => x.1 ++ x.2.1 ++ x.2.2)) (he : conf.headerEnabled = true)
    (hq : conf.queryEnabled = false) :
    requestLines conf r = (items.filter fun x => r.values x.2.1 ≠ []).map fun x => headerLine (x.1 ++ x.2.1 ++ x.2.2) (r.values x.2.1) := by
  have hs : splitByte 44 conf.headerKeys = items.map fun x => x.1 ++ x.2.1 ++ x.2.2 := by
    rw [hk]
    refine splitByte_join 44 _ (by simpa using hne) ?_
    intro y hy
    obtain ⟨x, hx, rfl⟩ := List.mem_map.mp hy
    obtain ⟨a, b, -, c, -⟩ := hi x hx
    simp only [List.mem_append, not_or]
    exact ⟨⟨fun h => absurd (a _ h) (by decide), c⟩, fun h => absurd (b _ h) (by decide)⟩
  have hne' : conf.headerKeys ≠ [] := by
    intro h0
    rw [h0] at hs
    cases items with
    | nil => exact hne rfl
    | cons x xs =>
      have hx := (hi x (by simp)).2.2.1
      simp only [splitByte, List.map_cons, List.cons.injEq] at hs
      exact hx (by
        have := hs.1.symm
        simp only [List.append_eq_nil_iff] at this
        exact this.1.2)
  have ht : ∀ x ∈ items, trimmed (x.1 ++ x.2.1 ++ x.2.2) = x.2.1 := fun x hx => by
    obtain ⟨a, b, -, -, d, e⟩ := hi x hx
    exact trimmed_eq a b d e
  unfold requestLines
  rw [if_pos he, if_neg hne', hs, hq]
  simp only [Bool.false_eq_true, if_false, List.append_nil]
  clear hs hne' hk hne
  induction items with
  | nil => rfl
  | cons x xs ih =>
    have := ih (fun y hy => hi y (by simp [hy])) (fun y hy => ht y (by simp [hy]))
    rw [List.map_cons, List.filter_cons, List.filter_cons, ht x (by simp)]
    by_cases hv : r.values x.2.1 = []
    · simpa [hv] using this
    · simp only [hv, ne_eq, not_false_eq_true, decide_true, if_true, List.map_cons, ht x (by simp)]
      exact congrArg _ this

/-- **C74**: without configured headers all are recorded, when headers are not to be recorded none is; the query is
recorded last, when it is to be. -/
theorem C74_other_lines (conf : TraceConf) (r : Request) :
    (conf.headerEnabled = false → requestLines conf r = if conf.queryEnabled then [ascii "query: " ++ r.rawQuery] else []) ∧
    (conf.headerEnabled = true → conf.headerKeys = [] → requestLines conf r =
      (r.headers.map fun h => headerLine h.1 h.2) ++ if conf.queryEnabled then [ascii "query: " ++ r.rawQuery] else []) ∧
    ∀ q, requestLines { conf with queryEnabled := q } r =
      requestLines { conf with queryEnabled := false } r ++ if q then [ascii "query: " ++ r.rawQuery] else [] := by
  refine ⟨?_, ?_, ?_⟩
  · intro h; unfold requestLines; simp [h]
  · intro h h'; unfold requestLines; simp [h, h']
  · intro q; unfold requestLines; simp

/-- **C74**, **C77**: the log of an http service, after any history. -/
theorem C74_http_log (hw : Reachable w) (c : Ctx) (hn : c ≠ .nil) (hc : traceOf w c = none) (r : Request) (cs : List Call)
    (hwf : AllWellFormed (perform w (.startHttpService c (some r))) cs)
    (hopen : ∀ t', (history w (.startHttpService c (some r) :: cs)).tctxs[w.tctxs.length]? = some t' → t'.closed = false) :
    ∀ x ∈ xlogsOf (newPacks (history w (.startHttpService c (some r) :: cs))
        (perform (history w (.startHttpService c (some r) :: cs)) (.endService (.traced w.tctxs.length)))),
      x.txid = w.env.id w.tick ∧ x.xType = 0 ∧ x.caller = 0 ∧ x.ipaddr = ipToBytes (beforeColon (clientAddress w.conf r)) ∧
      x.userAgent = textHash (r.header (ascii "User-Agent")) ∧ x.referer = textHash (r.header (ascii "Referer")) ∧
      x.service = textHash (lastOr (httpName r) (cs.filterMap (nameGiven w.tctxs.length))) ∧
      x.apicallCount = BitVec.ofNat 32 (cs.countP (endsApiCall w.tctxs.length)) := by
  obtain ⟨w1, t1, now, h1, g1, -, a1⟩ := startHttp_run hw.good hn hc r
  have hp : perform w (.startHttpService c (some r)) = w1 := perform_of_run (TM.bind_ok h1)
  have c1 := a1.ctx (begun_ctx w)
  have hr : Reachable (perform w (.startHttpService c (some r))) := Reachable.perform hw (by simp [WellFormed])
  intro x hx
  obtain ⟨a, b, d, e, -, f, g, -, -, i, j, -⟩ :=
    C77_log_after_any_history hr (p := w.tctxs.length) (t := t1) (by rw [hp]; exact c1) cs hwf hopen x hx
  have k : ∀ {β : Type} (f : Tctx → β), f t1.sansProfile = f ({ named w (httpName r) (clientAddress w.conf r) (newborn w) with
          xType := 0, userAgent := textHash (r.header (ascii "User-Agent")), httpMethod := r.method
          referer := textHash (r.header (ascii "Referer")) } : Tctx).sansProfile := fun f => congrArg f a1.fields
  have k11 : t1.apicallCount = 0 := k (·.apicallCount)
  have k4 : t1.remoteIp = beforeColon (clientAddress w.conf r) := k (·.remoteIp)
  have k10 : t1.serviceName = httpName r := k (·.serviceName)
  have z : ∀ x : BitVec 32, 0 + x = x := BitVec.zero_add
  rw [k11, z] at j
  rw [k4] at e
  rw [k10] at i
  exact ⟨a.trans (k (·.txid)), b.trans (k (·.xType)), d.trans (k (·.caller)), e, f.trans (k (·.userAgent)), g.trans (k (·.referer)), i, j⟩

/-- **C74**: StartService begins a service of the given name and address, of the kind app service. -/
theorem C74_service_start (hw : Reachable w) (c : Ctx) (hc : traceOf w c = none) (name addr : Bytes) :
    ∃ w' t', startServiceApi c name addr w = (.ok (.traced w.tctxs.length), w') ∧
      Wrote w.tctxs.length (newborn w) t' (fun t => { named w name addr t with xType := 1 }) [(.service, name)] 1
        (w.steps ++ stepsAt (newborn w) 0 [goroutineStep w]) [w.steps.length] 0 (begun w) w' := by
  obtain ⟨w', t', h1, -, h3⟩ := startServiceApi_run hw.good hc name addr
  exact ⟨w', t', h1, h3⟩

/-- **C76**: StartNewInheritanceService begins a service with the name and address of the given one, marked as its
continuation, with its group, kind, error, figures and texts; it records the goroutine's step and one that says so. -/
theorem C76_inheritance (hw : Reachable w) (q : Nat) (u : Tctx) (hq : w.tctxs[q]? = some u) :
    ∃ w' t', startInheritance (some q) w = (.ok (.traced w.tctxs.length), w') ∧
      Wrote w.tctxs.length (newborn w) t' (fun t => inheriting u w.conf.objHash (named w u.serviceName u.remoteIp t))
        [(.service, u.serviceName)] 2
        (w.steps ++ stepsAt (newborn w) 0 [goroutineStep w, (0, .message (ascii "scouter inheritance step"))])
        [w.steps.length, w.steps.length + 1] 0 (begun w) w' := by
  obtain ⟨w', t', h1, -, h3⟩ := startInheritance_run hw.good hq
  exact ⟨w', t', h1, h3⟩

/-- **C76**: GoWithTrace begins a child service of the given name and the parent's address, of the kind background
thread, called by the parent and of its group (the parent's own, if it had none: it then has); the parent records a step
with the child's id and the hash of the announced name. -/
theorem C76_child (hw : Reachable w) (q : Nat) (u : Tctx) (hq : w.tctxs[q]? = some u) (name : Bytes) :
    ∃ w1 t1 w' u', goWithTrace (.traced q) name w = (.ok (some (.traced w.tctxs.length)), w') ∧
      Wrote w.tctxs.length (newborn w) t1
        (fun t => { named w name u.remoteIp t with xType := 4, caller := u.txid, gxid := groupOf u }) [(.service, name)] 1
        (w.steps ++ stepsAt (newborn w) 0 [goroutineStep w]) [w.steps.length] 0 (begun w) w1 ∧
      w1.tctxs[q]? = some u ∧
      Wrote q u u' (fun t => { t with gxid := groupOf t }) [(.apicall, name)] 1
        (w1.steps ++ [stepAt u 0 (sinceStart w1 u) (.async (newborn w).txid (textHash name) 0)]) [w1.steps.length]
        u.col.parentLevel w1 w' ∧ w1.tick < w'.tick := by
  obtain ⟨w1, t1, w', u', h1, -, h3, h4, h5, h6⟩ := startChild_run hw.good hq name
  exact ⟨w1, t1, w', u', recovered_run (TM.bind_ok h1), h3, h4, h5, h6⟩

/-- **C76**: the child's time runs from the moment its goroutine begins, and nothing else changes then. -/
theorem C76_child_goroutine_begins (p : Nat) (t : Tctx) (h : w.tctxs[p]? = some t) :
    perform w (.goBegin (.traced p)) =
      { w with tick := w.tick + 1, tctxs := w.tctxs.set p { t with startTime := w.env.clock w.tick } } := by
  refine perform_of_run ?_
  show goBegin (.traced p) w = _
  unfold goBegin
  rw [withTrace_run (traceOf_traced h), TM.reading_bind]
  exact modT_run (w := { w with tick := w.tick + 1 }) h _

end

/-! ## Non-vacuity -/

namespace Demo

def request : Request :=
  { path := ascii "/a/b", method := ascii "GET", rawQuery := ascii "x=1", remoteAddr := ascii "9.9.9.9:1234"
    values := fun k => if k = ascii "X-Real-Ip" then [ascii "1.2.3.4"] else if k = ascii "Accept" then [ascii "a", ascii "b"] else []
    headers := [(ascii "X-Real-Ip", [ascii "1.2.3.4"]), (ascii "Accept", [ascii "a", ascii "b"])] }

def httpConf : TraceConf := { conf with headerEnabled := true, queryEnabled := true, headerKeys := ascii "Accept, Cookie", ipHeaderKey := ascii "X-Real-Ip" }

example : clientAddress httpConf request = ascii "1.2.3.4" := by decide +kernel
example : requestLines httpConf request = [ascii "header: Accept: a,b", ascii "query: x=1"] := by decide +kernel
example : (requestLines { httpConf with headerKeys := [] } request).length = 3 := by decide +kernel
example : ascii "Accept, Cookie" = [44].intercalate ([([], ascii "Accept", []), (ascii " ", ascii "Cookie", [])].map fun x : Bytes × Bytes × Bytes => x.1 ++ x.2.1 ++ x.2.2) := by
  decide +kernel
example : Reachable (start env httpConf 100) := ⟨env, httpConf, 100, [], by decide, by decide, trivial, rfl⟩
example : (xlogsOf (newPacks (history (start env httpConf 100) [.startHttpService .plain (some request)])
    (perform (history (start env httpConf 100) [.startHttpService .plain (some request)]) (.endService (.traced 0))))).length = 1 := by
  decide +kernel

end Demo
end Scouter
