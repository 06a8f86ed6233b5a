import Verif.Props.HttpLog
import Verif.Props.IpText
/-!
# Which client address a log shows (C118)

The address of a log is four bytes, read from a text: the address given to `StartService`; for an http request the configured header when
the request has it, the address of the connection otherwise. What follows a colon is cut off first.
-/
namespace Scouter
open Trace Spec

namespace Spec
/-- A text that names an IPv4 address, alone or followed by a colon and anything (a port). -/
def NamesAddress (s : Bytes) (a b c d : Nat) : Prop :=
  ∃ t, IpText t a b c d ∧ (s = t ∨ ∃ rest, s = t ++ ascii ":" ++ rest)

/-- The four bytes shown for the source `s`: the address it names, and 0.0.0.0 if it names none. -/
def ShownFor (s ip : Bytes) : Prop :=
  (∀ a b c d, NamesAddress s a b c d → ip = [BitVec.ofNat 8 a, BitVec.ofNat 8 b, BitVec.ofNat 8 c, BitVec.ofNat 8 d]) ∧
  ((∀ a b c d, ¬ NamesAddress s a b c d) → ip = [0, 0, 0, 0])
end Spec

theorem Spec.Octet.no_byte {s : Bytes} {v : Nat} (h : Octet s v) {k : Byte} (hk : ¬ (48 ≤ k.toNat ∧ k.toNat ≤ 57)) : k ∉ s :=
  fun hm => hk (h.2.1 k hm)

/-- An address is made of digits and dots. -/
theorem Spec.IpText.no_byte {t : Bytes} {a b c d : Nat} (h : IpText t a b c d) {k : Byte} (hk : ¬ (48 ≤ k.toNat ∧ k.toNat ≤ 57)) (hd : k ≠ 46) :
    k ∉ t := by
  obtain ⟨p, q, r, s, rfl, hp, hq, hr, hs⟩ := h
  have e : ascii "." = [46] := by decide
  simp only [e, List.mem_append, List.mem_singleton, not_or]
  exact ⟨⟨⟨⟨⟨⟨hp.no_byte hk, hd⟩, hq.no_byte hk⟩, hd⟩, hr.no_byte hk⟩, hd⟩, hs.no_byte hk⟩

/-- An address begins with a digit. -/
theorem Spec.IpText.head {t : Bytes} {a b c d : Nat} (h : IpText t a b c d) : ∃ k l, t = k :: l ∧ IsDigit k := by
  obtain ⟨p, q, r, s, rfl, hp, -⟩ := h
  obtain ⟨k, l, rfl⟩ := List.exists_cons_of_ne_nil hp.1
  exact ⟨k, l ++ ascii "." ++ q ++ ascii "." ++ r ++ ascii "." ++ s, by simp, hp.2.1 k (by simp)⟩

theorem takeWhile_none {l : Bytes} (h : (58 : Byte) ∉ l) : l.takeWhile (· ≠ 58) = l := by
  rw [List.takeWhile_eq_self_iff]
  intro k hk
  have : k ≠ 58 := fun e => h (e ▸ hk)
  simpa using this

/-- What stands before the first colon is an address exactly if the text names it. -/
theorem beforeColon_iff (s : Bytes) (a b c d : Nat) : IpText (beforeColon s) a b c d ↔ NamesAddress s a b c d := by
  have e : ascii ":" = [58] := by decide
  constructor
  · intro h
    refine ⟨_, h, ?_⟩
    have hs := List.takeWhile_append_dropWhile (p := fun k : Byte => decide (k ≠ 58)) (l := s)
    cases hd : s.dropWhile (fun k : Byte => decide (k ≠ 58)) with
    | nil => left; rw [hd, List.append_nil] at hs; exact hs.symm
    | cons k l =>
      right
      have hk : k = 58 := by
        have := List.head?_dropWhile_not (fun k : Byte => decide (k ≠ 58)) s
        rw [hd] at this
        simpa using this
      subst hk
      rw [hd] at hs
      exact ⟨l, by rw [e, List.append_assoc]; exact hs.symm⟩
  · rintro ⟨t, ht, rfl | ⟨rest, rfl⟩⟩
    · have := ht.no_byte (k := 58) (by decide) (by decide)
      rwa [beforeColon, takeWhile_none this]
    · have h58 := ht.no_byte (k := 58) (by decide) (by decide)
      have : beforeColon (t ++ ascii ":" ++ rest) = t := by
        rw [beforeColon, e, List.append_assoc, List.takeWhile_append_of_pos]
        · simp
        · intro k hk
          have : k ≠ 58 := fun e => h58 (e ▸ hk)
          simpa using this
      rwa [this]

theorem shownFor_of (s : Bytes) : ShownFor s (ipToBytes (beforeColon s)) := by
  constructor
  · intro a b c d h
    exact C18_ip_text_parses _ a b c d ((beforeColon_iff s a b c d).2 h)
  · intro h
    exact C18_other_text_is_zero _ fun a b c d hh => h a b c d ((beforeColon_iff s a b c d).1 hh)

/-- **C118**: the log of an http service, after any history and however it ends, shows the address named by the configured header if one is configured
and the request has it, and by the connection otherwise; 0.0.0.0 if that text names none. -/
theorem C118_http_client_address {w : World} (hw : Reachable w) (c : Ctx) (hn : c ≠ .nil) (hc : traceOf w c = none) (r : Request) (cs : List Call)
    (hwf : AllWellFormed (perform w (.startHttpService c (some r))) cs)
    (hopen : ∀ t', (history w (.startHttpService c (some r) :: cs)).tctxs[w.tctxs.length]? = some t' → t'.closed = false)
    (e : Call) (he : EndOf w.tctxs.length e) :
    ∀ x ∈ xlogsOf (newPacks (history w (.startHttpService c (some r) :: cs)) (perform (history w (.startHttpService c (some r) :: cs)) e)),
      ((w.conf.ipHeaderKey = [] ∨ r.header w.conf.ipHeaderKey = []) → ShownFor r.remoteAddr x.ipaddr) ∧
      ((w.conf.ipHeaderKey ≠ [] ∧ r.header w.conf.ipHeaderKey ≠ []) → ShownFor (r.header w.conf.ipHeaderKey) x.ipaddr) := by
  intro x hx
  obtain ⟨-, -, -, h, -⟩ := C74_http_log_however_ended hw c hn hc r cs hwf hopen e he x hx
  rw [h]
  constructor
  · intro hk
    rw [clientAddress, if_pos hk]
    exact shownFor_of _
  · intro hk
    rw [clientAddress, if_neg (by rw [not_or]; exact hk)]
    exact shownFor_of _

/-- **C118**: the log of a service started with an address shows what that names. -/
theorem C118_given_address {w : World} (hw : Reachable w) (c : Ctx) (hc : traceOf w c = none) (name addr : Bytes) (cs : List Call)
    (hwf : AllWellFormed (perform w (.startService c name addr)) cs)
    (hopen : ∀ t', (history w (.startService c name addr :: cs)).tctxs[w.tctxs.length]? = some t' → t'.closed = false)
    (e : Call) (he : EndOf w.tctxs.length e) :
    ∀ x ∈ xlogsOf (newPacks (history w (.startService c name addr :: cs)) (perform (history w (.startService c name addr :: cs)) e)),
      ShownFor addr x.ipaddr := by
  have hr : Reachable (perform w (.startService c name addr)) := Reachable.perform hw trivial
  obtain ⟨w1, t1, h1, g1, a1⟩ := startServiceApi_run hw.good hc name addr
  have hp : perform w (.startService c name addr) = w1 := perform_of_run (TM.bind_ok h1)
  have c1 := a1.ctx (begun_ctx w)
  have h1 : (perform w (.startService c name addr)).tctxs[w.tctxs.length]? = some t1 := by rw [hp]; exact c1
  obtain ⟨t', h', -⟩ := C77_name h1 cs
  intro x hx
  have hx : x ∈ xlogsOf (newPacks (history (perform w (.startService c name addr)) cs)
    (perform (history (perform w (.startService c name addr)) cs) e)) := hx
  rw [C61_http_end_differs_in_status_only h' (hopen t' h') (hr.good.history cs hwf).bulk he] at hx
  obtain ⟨y, hy, rfl⟩ := List.mem_map.1 hx
  obtain ⟨-, -, -, h, -⟩ := C77_log_of_a_service hw c hc name addr cs hwf hopen y hy
  show ShownFor addr y.ipaddr
  rw [h]
  exact shownFor_of _

/-! ## Sources that name no address -/

/-- **C118**, a limit of the program: a text that does not begin with a digit names no address. So every IPv6 connection (Go writes these `[address]:port`)
is shown as 0.0.0.0. -/
theorem C118_bracketed_address_unknown {s ip : Bytes} (h : ShownFor (ascii "[" ++ s) ip) : ip = [0, 0, 0, 0] := by
  refine h.2 fun a b c d hn => ?_
  obtain ⟨t, ht, heq⟩ := hn
  obtain ⟨k, l, rfl, hk⟩ := ht.head
  have e : ascii "[" = [91] := by decide
  rw [e] at heq
  have : (91 : Byte) = k := by
    rcases heq with heq | ⟨rest, heq⟩
    · exact (List.cons.inj heq).1
    · exact (List.cons.inj (by simpa using heq)).1
  subst this
  exact absurd hk.2 (by decide)

/-- **C118**, a limit of the program: a list of addresses, such as the proxies of a request write, names none, even if it begins with one: a text with a comma
before any colon is shown as 0.0.0.0. -/
theorem C118_list_of_addresses_unknown {s s' ip : Bytes} (hs : (58 : Byte) ∉ s) (h : ShownFor (s ++ ascii "," ++ s') ip) : ip = [0, 0, 0, 0] := by
  refine h.2 fun a b c d hn => ?_
  have hn := (beforeColon_iff _ a b c d).2 hn
  have e : ascii "," = [44] := by decide
  refine hn.no_byte (k := 44) (by decide) (by decide) ?_
  rw [beforeColon, e, List.append_assoc, List.takeWhile_append_of_pos]
  · simp
  · intro k hk
    have : k ≠ 58 := fun e => hs (e ▸ hk)
    simpa using this

/-- **C118**, a limit of the program: a header that names no address is believed all the same: the log shows 0.0.0.0 although the address of the connection
is known. -/
theorem C118_header_is_believed {w : World} (hw : Reachable w) (c : Ctx) (hn : c ≠ .nil) (hc : traceOf w c = none) (r : Request) (cs : List Call)
    (hwf : AllWellFormed (perform w (.startHttpService c (some r))) cs)
    (hopen : ∀ t', (history w (.startHttpService c (some r) :: cs)).tctxs[w.tctxs.length]? = some t' → t'.closed = false)
    (e : Call) (he : EndOf w.tctxs.length e) (hk : w.conf.ipHeaderKey ≠ []) (hh : r.header w.conf.ipHeaderKey ≠ [])
    (hbad : ∀ a b c d, ¬ NamesAddress (r.header w.conf.ipHeaderKey) a b c d) :
    ∀ x ∈ xlogsOf (newPacks (history w (.startHttpService c (some r) :: cs)) (perform (history w (.startHttpService c (some r) :: cs)) e)),
      x.ipaddr = [0, 0, 0, 0] := fun x hx =>
  ((C118_http_client_address hw c hn hc r cs hwf hopen e he x hx).2 ⟨hk, hh⟩).2 hbad

/-- The four bytes shown are decided by the source. -/
theorem C118_shown_decided {s ip ip' : Bytes} (h : ShownFor s ip) (h' : ShownFor s ip') : ip = ip' := by
  by_cases hn : ∃ a b c d, NamesAddress s a b c d
  · obtain ⟨a, b, c, d, hn⟩ := hn
    rw [h.1 a b c d hn, h'.1 a b c d hn]
  · have hn : ∀ a b c d, ¬ NamesAddress s a b c d := fun a b c d hh => hn ⟨a, b, c, d, hh⟩
    rw [h.2 hn, h'.2 hn]

/-! ## Concrete sources -/

namespace Demo

theorem octet_of {s : Bytes} {v : Nat} (h : parseUint8 s = some v) : Octet s v := (parseUint8_eq s v).1 h

/-- A connection from a port. -/
example : NamesAddress (ascii "10.1.2.30:5123") 10 1 2 30 :=
  ⟨ascii "10.1.2.30", ⟨ascii "10", ascii "1", ascii "2", ascii "30", by decide +kernel, octet_of (by decide +kernel), octet_of (by decide +kernel),
    octet_of (by decide +kernel), octet_of (by decide +kernel)⟩, .inr ⟨ascii "5123", by decide +kernel⟩⟩

/-- A whole request: the address of the connection, and the header. -/
example : (xlogsOf (newPacks (history (start env httpConf 100) [.startHttpService .plain (some request)])
    (perform (history (start env httpConf 100) [.startHttpService .plain (some request)]) (.endHttpService (.traced 0) (some 200))))).map
      (·.ipaddr) = [[1, 2, 3, 4]] := by decide +kernel

/-- IPv6 and lists of addresses. -/
example : [ascii "[::1]:5123", ascii "1.2.3.4, 5.6.7.8", ascii "::ffff:1.2.3.4"].map (fun s => ipToBytes (beforeColon s)) =
    [[0, 0, 0, 0], [0, 0, 0, 0], [0, 0, 0, 0]] := by decide +kernel

end Demo
end Scouter
