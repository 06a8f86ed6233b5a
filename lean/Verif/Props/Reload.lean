import Verif.Model.Reload
import Mathlib.Tactic.ByContra
/-!
# C95: changing the collector while packs are being sent
-/
namespace Scouter
namespace Reload

/-! ## Vocabulary -/

/-- What the client in use is made for. -/
def State.target (s : State) : Option Target := (s.clients[s.current]?).map Client.target

/-- The client in use has a connection. -/
def State.connected (s : State) : Bool := ((s.clients[s.current]?).map Client.dialled).getD false

/-- The event leaves the configuration alone. -/
def Event.Calm : Event → Prop
  | .ip _ => False
  | .port _ => False
  | .max _ => False
  | _ => True

/-- How often the reloading goroutine gets to go on. -/
def rounds (es : List Event) : Nat := es.countP fun e => match e with | .reload _ => true | _ => false

/-! ## Invariant -/

/-- What is true of a call in flight. -/
structure FlightOk (clients : List Client) (f : Flight) : Prop where
  parts : f.delivered ++ f.lost ++ f.todo = f.all
  owner : ∃ c, clients[f.client]? = some c ∧ (f.lost ≠ [] → c.isOpen = false) ∧ (c.dialled = false → f.all = [])

/-- What is true of a client. -/
structure ClientOk (s : State) (c : Client) : Prop where
  ip : c.target.ip ∈ s.ips
  port : c.target.port ∈ s.ports
  max : c.target.max ∈ s.maxs
  dialled : c.isOpen = true → c.dialled = true

/-- Where the goroutine compares, sleeps or closes, the client in use is made for what it knows. -/
def PcOk (s : State) (cur : Client) : Prop :=
  match s.pc with
  | .asleep | .cmpIp | .cmpPort | .cmpMax => cur.target = s.known
  | .close prev => cur.target = s.known ∧ prev < s.clients.length ∧ prev ≠ s.current
  | .publish c => c ≠ s.current ∧ ∃ n, s.clients[c]? = some n ∧ n.target = s.known ∧ n.isOpen = n.dialled
  | _ => True

structure Inv (s : State) : Prop where
  cur : ∃ c, s.clients[s.current]? = some c ∧ c.isOpen = c.dialled ∧ PcOk s c
  flights : ∀ f ∈ s.flights, FlightOk s.clients f
  clients : ∀ c ∈ s.clients, ClientOk s c
  conf : s.conf.ip ∈ s.ips ∧ s.conf.port ∈ s.ports ∧ s.conf.max ∈ s.maxs
  known : s.known.ip ∈ s.ips ∧ s.known.port ∈ s.ports ∧ s.known.max ∈ s.maxs

theorem Inv.start (conf : Target) (ok : Bool) : Inv (State.start conf ok) := by
  refine ⟨⟨newClient conf ok, rfl, rfl, rfl⟩, by simp [State.start], ?_, by simp [State.start], by simp [State.start]⟩
  intro c hc
  simp only [State.start, List.mem_singleton] at hc
  subst hc
  exact ⟨by simp [State.start, newClient], by simp [State.start, newClient], by simp [State.start, newClient], fun h => h⟩

theorem ClientOk.mono {s s' : State} {c : Client} (h : ClientOk s c) (h1 : s.ips ⊆ s'.ips) (h2 : s.ports ⊆ s'.ports) (h3 : s.maxs ⊆ s'.maxs) :
    ClientOk s' c := ⟨h1 h.ip, h2 h.port, h3 h.max, h.dialled⟩

theorem FlightOk.append {cs : List Client} {f : Flight} (h : FlightOk cs f) (x : Client) : FlightOk (cs ++ [x]) f := by
  obtain ⟨hp, c, hc, h1, h2⟩ := h
  have hlt : f.client < cs.length := (List.getElem?_eq_some_iff.1 hc).1
  exact ⟨hp, c, by rw [List.getElem?_append_left hlt]; exact hc, h1, h2⟩

theorem FlightOk.close {cs : List Client} {f : Flight} (h : FlightOk cs f) (p : Nat) :
    FlightOk (cs.modify p fun c => { c with isOpen := false }) f := by
  obtain ⟨hp, c, hc, h1, h2⟩ := h
  refine ⟨hp, ?_⟩
  rw [List.getElem?_modify, hc]
  by_cases hpc : p = f.client
  · exact ⟨{ c with isOpen := false }, by simp [hpc], fun _ => rfl, h2⟩
  · exact ⟨c, by simp [hpc], h1, h2⟩

theorem Inv.reload {s : State} (h : Inv s) (ok : Bool) : Inv (reload ok s) := by
  obtain ⟨⟨cur, hcur, hopen, hpc⟩, hf, hc, hconf, hkn⟩ := h
  unfold Reload.reload
  unfold PcOk at hpc
  cases hp : s.pc with
  | asleep =>
    rw [hp] at hpc
    exact ⟨⟨cur, hcur, hopen, hpc⟩, hf, fun c hx => (hc c hx).mono (fun _ h => h) (fun _ h => h) (fun _ h => h), hconf, hkn⟩
  | cmpIp =>
    rw [hp] at hpc
    refine ⟨⟨cur, hcur, hopen, ?_⟩, hf, fun c hx => (hc c hx).mono (fun _ h => h) (fun _ h => h) (fun _ h => h), hconf, hkn⟩
    by_cases hne : s.known.ip ≠ s.conf.ip
    · simp [PcOk, hne]
    · simp only [PcOk, if_neg hne]; exact hpc
  | cmpPort =>
    rw [hp] at hpc
    refine ⟨⟨cur, hcur, hopen, ?_⟩, hf, fun c hx => (hc c hx).mono (fun _ h => h) (fun _ h => h) (fun _ h => h), hconf, hkn⟩
    by_cases hne : s.known.port ≠ s.conf.port
    · simp [PcOk, hne]
    · simp only [PcOk, if_neg hne]; exact hpc
  | cmpMax =>
    rw [hp] at hpc
    refine ⟨⟨cur, hcur, hopen, ?_⟩, hf, fun c hx => (hc c hx).mono (fun _ h => h) (fun _ h => h) (fun _ h => h), hconf, hkn⟩
    by_cases hne : s.known.max ≠ s.conf.max
    · simp [PcOk, hne]
    · simp only [PcOk, if_neg hne]; exact hpc
  | setIp =>
    exact ⟨⟨cur, hcur, hopen, trivial⟩, hf, fun c hx => (hc c hx).mono (fun _ h => h) (fun _ h => h) (fun _ h => h), hconf,
      hconf.1, hkn.2.1, hkn.2.2⟩
  | setPort =>
    exact ⟨⟨cur, hcur, hopen, trivial⟩, hf, fun c hx => (hc c hx).mono (fun _ h => h) (fun _ h => h) (fun _ h => h), hconf,
      hkn.1, hconf.2.1, hkn.2.2⟩
  | setMax =>
    exact ⟨⟨cur, hcur, hopen, trivial⟩, hf, fun c hx => (hc c hx).mono (fun _ h => h) (fun _ h => h) (fun _ h => h), hconf,
      hkn.1, hkn.2.1, hconf.2.2⟩
  | make =>
    have hlt : s.current < s.clients.length := (List.getElem?_eq_some_iff.1 hcur).1
    refine ⟨⟨cur, ?_, hopen, ?_⟩, fun f hx => (hf f hx).append _, ?_, hconf, hkn⟩
    · show (s.clients ++ [newClient s.known ok])[s.current]? = some cur
      rw [List.getElem?_append_left hlt]; exact hcur
    · refine ⟨fun e => by simp only at e; omega, newClient s.known ok, ?_, rfl, rfl⟩
      show (s.clients ++ [newClient s.known ok])[s.clients.length]? = _
      simp
    · intro c hx
      have hx : c ∈ s.clients ++ [newClient s.known ok] := hx
      rcases List.mem_append.1 hx with hx | hx
      · exact (hc c hx).mono (fun _ h => h) (fun _ h => h) (fun _ h => h)
      · rw [List.mem_singleton] at hx
        subst hx
        exact ⟨hkn.1, hkn.2.1, hkn.2.2, fun h => h⟩
  | publish k =>
    rw [hp] at hpc
    obtain ⟨hk, n, hn, ht, ho⟩ := hpc
    exact ⟨⟨n, hn, ho, ht, (List.getElem?_eq_some_iff.1 hcur).1, fun e => hk e.symm⟩, hf,
      fun c hx => (hc c hx).mono (fun _ h => h) (fun _ h => h) (fun _ h => h), hconf, hkn⟩
  | close prev =>
    rw [hp] at hpc
    obtain ⟨ht, hlt, hne⟩ := hpc
    refine ⟨⟨cur, ?_, hopen, ht⟩, fun f hx => (hf f hx).close _, ?_, hconf, hkn⟩
    · show (s.clients.modify prev _)[s.current]? = some cur
      rw [List.getElem?_modify, hcur]; simp [hne]
    · intro c hx
      obtain ⟨i, hi⟩ := List.mem_iff_getElem?.1 (show c ∈ s.clients.modify prev _ from hx)
      rw [List.getElem?_modify] at hi
      cases hci : s.clients[i]? with
      | none => rw [hci] at hi; simp at hi
      | some c0 =>
        rw [hci] at hi
        have h0 := hc c0 (List.mem_of_getElem? hci)
        simp only [Option.map_eq_map, Option.map_some, Option.some.injEq] at hi
        subst hi
        by_cases hpi : prev = i
        · simp only [if_pos hpi]
          exact ⟨h0.ip, h0.port, h0.max, by simp⟩
        · simp only [if_neg hpi]
          exact h0.mono (fun _ h => h) (fun _ h => h) (fun _ h => h)

/-- What a call will write. -/
def planned (ids : Nat → BitVec 64) (c : Client) : Sender.Call → Go (Bool × List Bytes)
  | .buffer b => Udp.writeBuffer c.dialled (ids 0) c.target.max b
  | .list bs => Udp.writeBufferList c.dialled ids c.target.max bs

theorem planned_unconnected (ids : Nat → BitVec 64) (c : Client) (hc : c.dialled = false) (a : Sender.Call) : planned ids c a = .ok (false, []) := by
  cases a <;> simp [planned, hc, Udp.writeBuffer, Udp.writeBufferList]

theorem call_cases (ids : Nat → BitVec 64) (a : Sender.Call) (s : State) {c : Client} (hc : s.clients[s.current]? = some c) :
    (∃ b ds, planned ids c a = .ok (b, ds) ∧ call ids a s = { s with flights := s.flights ++ [{ client := s.current, all := ds, todo := ds }] }) ∨
    ((∀ x, planned ids c a ≠ .ok x) ∧ call ids a s = { s with crashed := true }) := by
  have e : call ids a s = match planned ids c a with
      | .ok (_, ds) => { s with flights := s.flights ++ [{ client := s.current, all := ds, todo := ds }] }
      | _ => { s with crashed := true } := by
    unfold call
    rw [hc]
    cases a <;> rfl
  cases h : planned ids c a with
  | ok x =>
    rw [h] at e
    exact Or.inl ⟨x.1, x.2, rfl, e⟩
  | panic => rw [h] at e; exact Or.inr ⟨by simp, e⟩
  | fuel => rw [h] at e; exact Or.inr ⟨by simp, e⟩

theorem Inv.call {s : State} (h : Inv s) (ids : Nat → BitVec 64) (a : Sender.Call) : Inv (call ids a s) := by
  obtain ⟨⟨cur, hcur, hopen, hpc⟩, hf, hc, hconf, hkn⟩ := h
  rcases call_cases ids a s hcur with ⟨b, ds, hp, e⟩ | ⟨-, e⟩
  · rw [e]
    refine ⟨⟨cur, hcur, hopen, hpc⟩, ?_, fun c hx => (hc c hx).mono (fun _ h => h) (fun _ h => h) (fun _ h => h), hconf, hkn⟩
    intro f hx
    rcases List.mem_append.1 hx with hx | hx
    · exact hf f hx
    · rw [List.mem_singleton] at hx
      subst hx
      refine ⟨rfl, cur, hcur, by simp, fun hd => ?_⟩
      rw [planned_unconnected ids cur hd a] at hp
      injection hp with hp
      exact (Prod.mk.inj hp).2.symm
  · rw [e]
    exact ⟨⟨cur, hcur, hopen, hpc⟩, hf, fun c hx => (hc c hx).mono (fun _ h => h) (fun _ h => h) (fun _ h => h), hconf, hkn⟩

/-- A call in flight after its next datagram. -/
def Flight.next (f : Flight) (c : Client) (d : Bytes) (todo : List Bytes) : Flight :=
  if c.isOpen then { f with todo := todo, delivered := f.delivered ++ [d] } else { f with todo := todo, lost := f.lost ++ [d] }

/-- A write: nothing, or one flight moves on. -/
theorem write_cases (i : Nat) (s : State) : write i s = s ∨ ∃ f c d todo, s.flights[i]? = some f ∧ f.todo = d :: todo ∧ s.clients[f.client]? = some c ∧
    write i s = { s with flights := s.flights.set i (f.next c d todo) } := by
  unfold write
  cases hf : s.flights[i]? with
  | none => exact Or.inl rfl
  | some f =>
    cases ht : f.todo with
    | nil => simp only [ht]; exact Or.inl trivial
    | cons d todo =>
      cases hc : s.clients[f.client]? with
      | none => simp only [ht, hc]; exact Or.inl trivial
      | some c => simp only [ht, hc]; exact Or.inr ⟨f, c, d, todo, rfl, ht, hc, rfl⟩

theorem Inv.write {s : State} (h : Inv s) (i : Nat) : Inv (write i s) := by
  rcases write_cases i s with e | ⟨f, c, d, todo, hfi, ht, hci, e⟩
  · rw [e]; exact h
  · rw [e]
    obtain ⟨⟨cur, hcur, hopen, hpc⟩, hf, hc, hconf, hkn⟩ := h
    refine ⟨⟨cur, hcur, hopen, hpc⟩, ?_, fun c hx => (hc c hx).mono (fun _ h => h) (fun _ h => h) (fun _ h => h), hconf, hkn⟩
    intro g hg
    obtain ⟨hp, c', hc', h1, h2⟩ := hf f (List.mem_of_getElem? hfi)
    obtain rfl : c' = c := by rw [hc'] at hci; exact Option.some.inj hci
    rcases List.mem_or_eq_of_mem_set hg with hg | rfl
    · exact hf g hg
    · unfold Flight.next
      by_cases ho : c'.isOpen = true
      · rw [if_pos ho]
        have hl : f.lost = [] := by
          by_contra hl
          rw [h1 hl] at ho; cases ho
        refine ⟨?_, c', hc', fun hl' => absurd hl hl', h2⟩
        rw [← hp, hl, ht]; simp
      · rw [if_neg ho]
        refine ⟨?_, c', hc', fun _ => by simpa using ho, h2⟩
        rw [← hp, ht]; simp

theorem Inv.fire {s : State} (h : Inv s) (e : Event) : Inv (s.fire e) := by
  unfold State.fire
  by_cases hcr : s.crashed = true
  · rw [if_pos hcr]; exact h
  · rw [if_neg hcr]
    cases e with
    | reload ok => exact h.reload ok
    | call ids a => exact h.call ids a
    | write i => exact h.write i
    | ip v =>
      obtain ⟨⟨cur, hcur, hopen, hpc⟩, hf, hc, hconf, hkn⟩ := h
      refine ⟨⟨cur, hcur, hopen, hpc⟩, hf, fun c hx => (hc c hx).mono ?_ (fun _ h => h) (fun _ h => h), ?_, ?_⟩
      · exact fun _ h => List.mem_append_left _ h
      · exact ⟨List.mem_append_right _ (by simp), hconf.2⟩
      · exact ⟨List.mem_append_left _ hkn.1, hkn.2⟩
    | port v =>
      obtain ⟨⟨cur, hcur, hopen, hpc⟩, hf, hc, hconf, hkn⟩ := h
      refine ⟨⟨cur, hcur, hopen, hpc⟩, hf, fun c hx => (hc c hx).mono (fun _ h => h) ?_ (fun _ h => h), ?_, ?_⟩
      · exact fun _ h => List.mem_append_left _ h
      · exact ⟨hconf.1, List.mem_append_right _ (by simp), hconf.2.2⟩
      · exact ⟨hkn.1, List.mem_append_left _ hkn.2.1, hkn.2.2⟩
    | max v =>
      obtain ⟨⟨cur, hcur, hopen, hpc⟩, hf, hc, hconf, hkn⟩ := h
      refine ⟨⟨cur, hcur, hopen, hpc⟩, hf, fun c hx => (hc c hx).mono (fun _ h => h) (fun _ h => h) ?_, ?_, ?_⟩
      · exact fun _ h => List.mem_append_left _ h
      · exact ⟨hconf.1, hconf.2.1, List.mem_append_right _ (by simp)⟩
      · exact ⟨hkn.1, hkn.2.1, List.mem_append_left _ hkn.2.2⟩

theorem Inv.run {s : State} (h : Inv s) (es : List Event) : Inv (s.run es) := by
  unfold State.run
  induction es generalizing s with
  | nil => exact h
  | cons e es ih => exact ih (h.fire e)

/-! ## What stays -/

/-- Clients keep their place, their target and whether they were dialled; a closed one stays closed.  Calls keep their place, their client and
what they have to write, and what they delivered or lost. -/
structure Keeps (s s' : State) : Prop where
  clients : ∀ (i : Nat) (c : Client), s.clients[i]? = some c → ∃ c', s'.clients[i]? = some c' ∧ c'.target = c.target ∧ c'.dialled = c.dialled ∧ (c'.isOpen = true → c.isOpen = true)
  flights : ∀ (i : Nat) (f : Flight), s.flights[i]? = some f → ∃ f', s'.flights[i]? = some f' ∧ f'.client = f.client ∧ f'.all = f.all ∧
    f.delivered <+: f'.delivered ∧ f.lost <+: f'.lost

theorem Keeps.refl (s : State) : Keeps s s :=
  ⟨fun _ c h => ⟨c, h, rfl, rfl, fun h => h⟩, fun _ f h => ⟨f, h, rfl, rfl, List.prefix_refl _, List.prefix_refl _⟩⟩

theorem Keeps.trans {a b c : State} (h1 : Keeps a b) (h2 : Keeps b c) : Keeps a c := by
  constructor
  · intro i x hx
    obtain ⟨y, e1, e2, e3, e4⟩ := h1.clients i x hx
    obtain ⟨z, g1, g2, g3, g4⟩ := h2.clients i y e1
    exact ⟨z, g1, g2.trans e2, g3.trans e3, fun h => e4 (g4 h)⟩
  · intro i x hx
    obtain ⟨y, e1, e2, e3, e4, e5⟩ := h1.flights i x hx
    obtain ⟨z, g1, g2, g3, g4, g5⟩ := h2.flights i y e1
    exact ⟨z, g1, g2.trans e2, g3.trans e3, e4.trans g4, e5.trans g5⟩

theorem Keeps.of_eq {s s' : State} (hc : s'.clients = s.clients) (hf : s'.flights = s.flights) : Keeps s s' := by
  constructor
  · intro i x hx; rw [hc]; exact ⟨x, hx, rfl, rfl, fun h => h⟩
  · intro i x hx; rw [hf]; exact ⟨x, hx, rfl, rfl, List.prefix_refl _, List.prefix_refl _⟩

theorem keeps_reload (ok : Bool) (s : State) : Keeps s (reload ok s) := by
  unfold reload
  cases s.pc with
  | make =>
    refine ⟨fun i x hx => ⟨x, ?_, rfl, rfl, fun h => h⟩, fun i f h => ⟨f, h, rfl, rfl, List.prefix_refl _, List.prefix_refl _⟩⟩
    show (s.clients ++ [_])[i]? = some x
    rw [List.getElem?_append_left (List.getElem?_eq_some_iff.1 hx).1]; exact hx
  | close prev =>
    refine ⟨fun i x hx => ?_, fun i f h => ⟨f, h, rfl, rfl, List.prefix_refl _, List.prefix_refl _⟩⟩
    show ∃ c', (s.clients.modify prev _)[i]? = some c' ∧ _
    rw [List.getElem?_modify, hx]
    by_cases hpi : prev = i
    · exact ⟨{ x with isOpen := false }, by simp [hpi], rfl, rfl, fun h => by cases h⟩
    · exact ⟨x, by simp [hpi], rfl, rfl, fun h => h⟩
  | _ => exact Keeps.of_eq rfl rfl

theorem keeps_call (ids : Nat → BitVec 64) (a : Sender.Call) (s : State) : Keeps s (call ids a s) := by
  cases hc : s.clients[s.current]? with
  | none => unfold call; rw [hc]; exact .refl s
  | some c =>
    rcases call_cases ids a s hc with ⟨b, ds, -, e⟩ | ⟨-, e⟩
    · rw [e]
      refine ⟨fun i x hx => ⟨x, hx, rfl, rfl, fun h => h⟩, fun i f h => ⟨f, ?_, rfl, rfl, List.prefix_refl _, List.prefix_refl _⟩⟩
      show (s.flights ++ [_])[i]? = some f
      rw [List.getElem?_append_left (List.getElem?_eq_some_iff.1 h).1]; exact h
    · rw [e]; exact Keeps.of_eq rfl rfl

theorem keeps_write (j : Nat) (s : State) : Keeps s (write j s) := by
  rcases write_cases j s with e | ⟨f, c, d, todo, hfi, ht, hci, e⟩
  · rw [e]; exact .refl s
  · rw [e]
    refine ⟨fun i x hx => ⟨x, hx, rfl, rfl, fun h => h⟩, fun i g h => ?_⟩
    show ∃ f', (s.flights.set j _)[i]? = some f' ∧ _
    by_cases hij : j = i
    · subst hij
      obtain rfl : f = g := Option.some.inj (hfi.symm.trans h)
      have hlt := (List.getElem?_eq_some_iff.1 h).1
      refine ⟨_, List.getElem?_set_self hlt, ?_⟩
      unfold Flight.next
      by_cases ho : c.isOpen = true
      · rw [if_pos ho]; exact ⟨rfl, rfl, List.prefix_append _ _, List.prefix_refl _⟩
      · rw [if_neg ho]; exact ⟨rfl, rfl, List.prefix_refl _, List.prefix_append _ _⟩
    · rw [List.getElem?_set_ne hij]
      exact ⟨g, h, rfl, rfl, List.prefix_refl _, List.prefix_refl _⟩

theorem keeps_fire (s : State) (e : Event) : Keeps s (s.fire e) := by
  unfold State.fire
  by_cases hcr : s.crashed = true
  · rw [if_pos hcr]; exact .refl s
  · rw [if_neg hcr]
    cases e with
    | reload ok => exact keeps_reload ok s
    | call ids a => exact keeps_call ids a s
    | write i => exact keeps_write i s
    | ip v => exact Keeps.of_eq rfl rfl
    | port v => exact Keeps.of_eq rfl rfl
    | max v => exact Keeps.of_eq rfl rfl

theorem keeps_run (s : State) (es : List Event) : Keeps s (s.run es) := by
  unfold State.run
  induction es generalizing s with
  | nil => exact .refl s
  | cons e es ih => exact (keeps_fire s e).trans (ih (s.fire e))

/-! ## C95: calls -/

/-- **C95**: whatever happens around it - changes of the configuration, reloads, other calls - a call made at some moment writes its datagrams
in order, each at most once, all to the collector the client in use at that moment was made for: an address and a port that the configuration has
had.  Datagrams are lost only if that client has been replaced meanwhile, and then only from some point on; without a connection there are none. -/
theorem C95_call (conf : Target) (ok : Bool) (es es' : List Event) (ids : Nat → BitVec 64) (a : Sender.Call)
    (hcr : ((State.start conf ok).run es).crashed = false) (hcr' : (((State.start conf ok).run es).fire (.call ids a)).crashed = false) :
    let s := (State.start conf ok).run es
    let s' := (s.fire (.call ids a)).run es'
    ∃ (c c' : Client) (f : Flight) (b : Bool), s.clients[s.current]? = some c ∧ s'.flights[s.flights.length]? = some f ∧
      f.client = s.current ∧ s'.clients[f.client]? = some c' ∧ c'.target = c.target ∧
      c.target.ip ∈ s.ips ∧ c.target.port ∈ s.ports ∧ c.target.max ∈ s.maxs ∧
      planned ids c a = .ok (b, f.all) ∧ f.delivered ++ f.lost ++ f.todo = f.all ∧
      (f.lost ≠ [] → s'.current ≠ f.client) ∧ (c.dialled = false → f.all = []) := by
  intro s s'
  have hi : Inv s := (Inv.start conf ok).run es
  obtain ⟨c, hc, -, -⟩ := hi.cur
  have hcl := hi.clients c (List.mem_of_getElem? hc)
  have hi' : Inv s' := (hi.fire _).run es'
  have hfire : s.fire (.call ids a) = call ids a s := by
    unfold State.fire
    rw [if_neg (by rw [hcr]; simp)]
  rcases call_cases ids a s hc with ⟨b, ds, hp, e⟩ | ⟨-, e⟩
  · have hk : Keeps (s.fire (.call ids a)) s' := keeps_run _ es'
    have hk0 := keeps_fire s (.call ids a)
    obtain ⟨f, hf1, hf2, hf3, -⟩ := hk.flights s.flights.length { client := s.current, all := ds, todo := ds } (by
      rw [hfire, e]; simp)
    obtain ⟨c1, e1, e2, -⟩ := hk0.clients _ c hc
    obtain ⟨c', g1, g2, -⟩ := hk.clients _ c1 e1
    have hff : FlightOk s'.clients f := hi'.flights f (List.mem_of_getElem? hf1)
    refine ⟨c, c', f, b, hc, hf1, hf2, by rw [hf2]; exact g1, g2.trans e2, hcl.ip, hcl.port, hcl.max, by rw [hf3]; exact hp, hff.parts, ?_, ?_⟩
    · intro hl hcur
      obtain ⟨x, hx1, hx2, hx3⟩ := hff.owner
      obtain ⟨y, hy1, hy2, -⟩ := hi'.cur
      rw [hcur, hx1] at hy1
      obtain rfl := Option.some.inj hy1
      rw [hx2 hl] at hy2
      have := hx3 hy2.symm
      have hp := hff.parts
      rw [this] at hp
      simp only [List.append_eq_nil_iff] at hp
      exact hl hp.1.2
    · intro hd
      rw [planned_unconnected ids c hd a] at hp
      injection hp with hp
      rw [hf3]; exact (Prod.mk.inj hp).2.symm
  · rw [hfire, e] at hcr'
    cases hcr'

/-! ## C95: the new collector -/

/-- How far the goroutine is, at most, from having put the configuration in effect. -/
def dist (s : State) : Nat :=
  let b1 : Bool := s.known.ip = s.conf.ip
  let b2 : Bool := s.known.port = s.conf.port
  let b3 : Bool := s.known.max = s.conf.max
  match s.pc with
  | .asleep => if b1 && b2 && b3 then 0 else 9
  | .cmpIp => if b1 && b2 && b3 then 0 else 8
  | .cmpPort => if b1 && b2 && b3 then 0 else if b1 then 7 else 11
  | .cmpMax => if b1 && b2 && b3 then 0 else if b1 && b2 then 6 else 10
  | .setIp => 5
  | .setPort => if b1 then 4 else 14
  | .setMax => if b1 && b2 then 3 else 13
  | .make => if b1 && b2 && b3 then 2 else 12
  | .publish _ => if b1 && b2 && b3 then 1 else 11
  | .close _ => if b1 && b2 && b3 then 0 else 10

theorem dist_le (s : State) : dist s ≤ 14 := by
  unfold dist
  cases s.pc <;> simp only <;> (repeat' split) <;> omega

theorem dist_reload (ok : Bool) (s : State) : dist (reload ok s) ≤ dist s - 1 := by
  unfold dist reload
  by_cases h1 : s.known.ip = s.conf.ip <;> by_cases h2 : s.known.port = s.conf.port <;> by_cases h3 : s.known.max = s.conf.max <;>
    cases hp : s.pc <;> simp [h1, h2, h3]

theorem dist_other {s s' : State} (h1 : s'.known = s.known) (h2 : s'.conf = s.conf) (h3 : s'.pc = s.pc) : dist s' = dist s := by
  unfold dist
  rw [h1, h2, h3]

theorem fire_calm {s : State} {e : Event} (he : e.Calm) (hcr : s.crashed = false) :
    (∃ ok, e = .reload ok ∧ s.fire e = reload ok s) ∨
    ((∀ ok, e ≠ .reload ok) ∧ (s.fire e).known = s.known ∧ (s.fire e).conf = s.conf ∧ (s.fire e).pc = s.pc ∧ (s.fire e).current = s.current ∧
      (s.fire e).clients = s.clients) := by
  have hf : ¬ s.crashed = true := by rw [hcr]; simp
  cases e with
  | reload ok => exact Or.inl ⟨ok, rfl, by unfold State.fire; rw [if_neg hf]⟩
  | call ids a =>
    refine Or.inr ⟨by simp, ?_⟩
    have : s.fire (.call ids a) = call ids a s := by unfold State.fire; rw [if_neg hf]
    rw [this]
    cases hc : s.clients[s.current]? with
    | none => unfold call; rw [hc]; exact ⟨rfl, rfl, rfl, rfl, rfl⟩
    | some c =>
      rcases call_cases ids a s hc with ⟨b, ds, -, e⟩ | ⟨-, e⟩ <;> rw [e] <;> exact ⟨rfl, rfl, rfl, rfl, rfl⟩
  | write i =>
    refine Or.inr ⟨by simp, ?_⟩
    have : s.fire (.write i) = write i s := by unfold State.fire; rw [if_neg hf]
    rw [this]
    rcases write_cases i s with e | ⟨f, c, d, todo, -, -, -, e⟩ <;> rw [e] <;> exact ⟨rfl, rfl, rfl, rfl, rfl⟩
  | ip v => exact absurd he (by simp [Event.Calm])
  | port v => exact absurd he (by simp [Event.Calm])
  | max v => exact absurd he (by simp [Event.Calm])

theorem fire_crashed {s : State} (hcr : s.crashed = true) (e : Event) : s.fire e = s := by
  unfold State.fire; rw [if_pos hcr]

theorem run_crashed {s : State} (hcr : s.crashed = true) (es : List Event) : s.run es = s := by
  unfold State.run
  induction es with
  | nil => rfl
  | cons e es ih => rw [List.foldl_cons, fire_crashed hcr]; exact ih

theorem dist_run (es : List Event) : ∀ s : State, (∀ e ∈ es, e.Calm) → (s.run es).crashed = false →
    dist (s.run es) ≤ dist s - rounds es ∧ (s.run es).conf = s.conf := by
  induction es with
  | nil => intro s _ _; exact ⟨Nat.le_refl _, rfl⟩
  | cons e es ih =>
    intro s he hcr
    have hs : s.crashed = false := by
      by_contra h
      have h : s.crashed = true := by simpa using h
      rw [run_crashed h, h] at hcr; cases hcr
    have hrun : s.run (e :: es) = (s.fire e).run es := rfl
    rw [hrun] at hcr ⊢
    obtain ⟨h1, h2⟩ := ih (s.fire e) (fun e h => he e (List.mem_cons_of_mem _ h)) hcr
    rcases fire_calm (he e (by simp)) hs with ⟨ok, rfl, hf⟩ | ⟨hne, g1, g2, g3, -, -⟩
    · have hd := dist_reload ok s
      have hc : (reload ok s).conf = s.conf := by unfold reload; cases s.pc <;> rfl
      rw [hf] at h1 h2
      refine ⟨?_, by rw [hf]; exact h2.trans hc⟩
      rw [hf]
      have : rounds (Event.reload ok :: es) = rounds es + 1 := by simp [rounds]
      omega
    · have hd := dist_other g1 g2 g3
      refine ⟨?_, h2.trans g2⟩
      have : rounds (e :: es) = rounds es := by
        cases e with
        | reload ok => exact absurd rfl (hne ok)
        | _ => simp [rounds]
      omega

theorem dist_zero {s : State} (hi : Inv s) (h : dist s = 0) : s.target = some s.conf ∧ s.known = s.conf ∧
    (∀ p, s.pc ≠ .publish p) ∧ s.pc ≠ .make ∧ s.pc ≠ .setIp ∧ s.pc ≠ .setPort ∧ s.pc ≠ .setMax := by
  obtain ⟨c, hc, -, hpc⟩ := hi.cur
  have hk : s.known = s.conf → c.target = s.known → s.target = some s.conf ∧ s.known = s.conf := by
    intro h1 h2
    exact ⟨by rw [State.target, hc, Option.map_some, h2, h1], h1⟩
  have ext : s.known.ip = s.conf.ip → s.known.port = s.conf.port → s.known.max = s.conf.max → s.known = s.conf := by
    intro h1 h2 h3
    cases hx : s.known; cases hy : s.conf
    rw [hx, hy] at h1 h2 h3
    simp only at h1 h2 h3
    rw [h1, h2, h3]
  unfold dist at h
  unfold PcOk at hpc
  by_cases h1 : s.known.ip = s.conf.ip <;> by_cases h2 : s.known.port = s.conf.port <;> by_cases h3 : s.known.max = s.conf.max <;>
    cases hp : s.pc <;> simp [hp, h1, h2, h3] at h hpc
  · exact ⟨(hk (ext h1 h2 h3) hpc).1, ext h1 h2 h3, by simp⟩
  · exact ⟨(hk (ext h1 h2 h3) hpc).1, ext h1 h2 h3, by simp⟩
  · exact ⟨(hk (ext h1 h2 h3) hpc).1, ext h1 h2 h3, by simp⟩
  · exact ⟨(hk (ext h1 h2 h3) hpc).1, ext h1 h2 h3, by simp⟩
  · exact ⟨(hk (ext h1 h2 h3) hpc.1).1, ext h1 h2 h3, by simp⟩

/-- **C95**: once the configuration stays as it is, the client in use is made for exactly that address, port and maximum after at most 14 steps of
the reloading goroutine (less than two of its rounds of one second), whatever it was doing and whatever calls are made meanwhile, and remains so. -/
theorem C95_converges (conf : Target) (ok : Bool) (es es' : List Event) (hcalm : ∀ e ∈ es', e.Calm) (hr : 14 ≤ rounds es')
    (hcr : (((State.start conf ok).run es).run es').crashed = false) :
    (((State.start conf ok).run es).run es').target = some ((State.start conf ok).run es).conf := by
  have hi : Inv (((State.start conf ok).run es).run es') := ((Inv.start conf ok).run es).run es'
  obtain ⟨h1, h2⟩ := dist_run es' _ hcalm hcr
  have := dist_le ((State.start conf ok).run es)
  rw [(dist_zero hi (by omega)).1, h2]

/-- **C95**: a client that could not be dialled (a name that did not resolve when the agent started, say) is never tried again: as long as the
configuration stays as it is, every later call sends nothing, however long the address has been in order again. -/
theorem C95_never_dialled_again (conf : Target) (ok : Bool) (es es' : List Event) (hcalm : ∀ e ∈ es', e.Calm)
    (hk : ((State.start conf ok).run es).pc = .asleep) (hkn : ((State.start conf ok).run es).known = ((State.start conf ok).run es).conf)
    (hd : ((State.start conf ok).run es).connected = false) :
    let s := (State.start conf ok).run es
    (s.run es').connected = false ∧ ∀ i f, s.flights.length ≤ i → (s.run es').flights[i]? = some f → f.all = [] ∧ f.delivered = [] := by
  intro s
  have hi : Inv s := (Inv.start conf ok).run es
  have hz : dist s = 0 := by simp [dist, s, hk, hkn]
  -- the state stays disconnected
  suffices H : ∀ (es' : List Event) (t : State), Inv t → dist t = 0 → t.connected = false → (∀ i f, s.flights.length ≤ i → t.flights[i]? = some f → f.all = []) →
      s.flights.length ≤ t.flights.length → (∀ e ∈ es', e.Calm) →
      Inv (t.run es') ∧ (t.run es').connected = false ∧ ∀ i f, s.flights.length ≤ i → (t.run es').flights[i]? = some f → f.all = [] by
    obtain ⟨h1, h2, h3⟩ := H es' s hi hz hd (by
      intro i f hle hf
      have := (List.getElem?_eq_some_iff.1 hf).1
      omega) (Nat.le_refl _) hcalm
    refine ⟨h2, fun i f hle hf => ?_⟩
    have := h3 i f hle hf
    refine ⟨this, ?_⟩
    have hp := (h1.flights f (List.mem_of_getElem? hf)).parts
    rw [this] at hp
    simp only [List.append_eq_nil_iff] at hp
    exact hp.1.1
  intro es'
  induction es' with
  | nil => intro t h1 h2 h3 h4 _ _; exact ⟨h1, h3, h4⟩
  | cons e es' ih =>
    intro t h1 h2 h3 h4 h5 hc
    have hrun : t.run (e :: es') = (t.fire e).run es' := rfl
    rw [hrun]
    have hce := hc e (by simp)
    by_cases hcr : t.crashed = true
    · rw [fire_crashed hcr]
      exact ih t h1 h2 h3 h4 h5 fun e h => hc e (List.mem_cons_of_mem _ h)
    · have hcr : t.crashed = false := by simpa using hcr
      have h1' := h1.fire e
      rcases fire_calm hce hcr with ⟨ok', rfl, hf⟩ | ⟨hne, g1, g2, g3, g4, g5⟩
      · have hd := dist_reload ok' t
        rw [hf] at h1' ⊢
        have hfl : (reload ok' t).flights = t.flights := by unfold reload; cases t.pc <;> rfl
        refine ih _ h1' (by omega) ?_ (by rw [hfl]; exact h4) (by rw [hfl]; exact h5) fun e h => hc e (List.mem_cons_of_mem _ h)
        obtain ⟨-, -, hp, hm, -⟩ := dist_zero h1 h2
        obtain ⟨c, hcc, hco, hpc⟩ := h1.cur
        unfold State.connected at h3 ⊢
        rw [hcc] at h3
        unfold reload
        unfold PcOk at hpc
        cases hpp : t.pc with
        | publish p => exact absurd hpp (hp p)
        | make => exact absurd hpp hm
        | close prev =>
          rw [hpp] at hpc
          show (Option.map _ (List.modify _ _ _)[t.current]?).getD false = false
          rw [List.getElem?_modify, hcc]
          simp only [Option.map_eq_map, Option.map_some, if_neg hpc.2.2, Option.getD_some]
          simpa using h3
        | _ => simp only [hcc]; simpa using h3
      · have hz' : dist (t.fire e) = 0 := by rw [dist_other g1 g2 g3]; exact h2
        have h3' : (t.fire e).connected = false := by unfold State.connected; rw [g4, g5]; exact h3
        have hlen : s.flights.length ≤ (t.fire e).flights.length := by
          rcases Nat.eq_zero_or_pos t.flights.length with h0 | h0
          · omega
          · obtain ⟨f', hf', -⟩ := (keeps_fire t e).flights (t.flights.length - 1) (t.flights[t.flights.length - 1]) (by
              rw [List.getElem?_eq_getElem (by omega)])
            have := (List.getElem?_eq_some_iff.1 hf').1
            omega
        refine ih _ h1' hz' h3' ?_ hlen fun e h => hc e (List.mem_cons_of_mem _ h)
        intro i f hle hf
        by_cases hlt : i < t.flights.length
        · obtain ⟨f', hf', -, ha, -⟩ := (keeps_fire t e).flights i (t.flights[i]) (List.getElem?_eq_getElem hlt)
          obtain rfl := Option.some.inj (hf'.symm.trans hf)
          rw [ha]
          exact h4 i _ hle (List.getElem?_eq_getElem hlt)
        · -- a new call
          cases e with
          | reload ok => exact absurd rfl (hne ok)
          | write j =>
            have he : t.fire (.write j) = write j t := by unfold State.fire; rw [if_neg (by rw [hcr]; simp)]
            rw [he] at hf
            have hl : (write j t).flights.length = t.flights.length := by
              rcases write_cases j t with e | ⟨f, c, d, todo, -, -, -, e⟩ <;> rw [e]
              simp
            have := (List.getElem?_eq_some_iff.1 hf).1
            omega
          | call ids a =>
            have he : t.fire (.call ids a) = call ids a t := by unfold State.fire; rw [if_neg (by rw [hcr]; simp)]
            rw [he] at hf
            obtain ⟨c, hcc, -, -⟩ := h1.cur
            have hcd : c.dialled = false := by
              unfold State.connected at h3
              rw [hcc] at h3
              simpa using h3
            rcases call_cases ids a t hcc with ⟨b, ds, hp, e⟩ | ⟨hp, -⟩
            · rw [planned_unconnected ids c hcd a] at hp
              injection hp with hp
              have hds := (Prod.mk.inj hp).2
              rw [e] at hf
              have hf : (t.flights ++ [_])[i]? = some f := hf
              rw [List.getElem?_append_right (by omega)] at hf
              obtain ⟨hlt', hf⟩ := List.getElem?_eq_some_iff.1 hf
              simp only [List.length_singleton] at hlt'
              have h0 : i - t.flights.length = 0 := by omega
              simp only [h0, List.getElem_cons_zero] at hf
              rw [← hf, ← hds]
            · exact absurd (planned_unconnected ids c hcd a) (hp _)
          | ip v => exact absurd hce (by simp [Event.Calm])
          | port v => exact absurd hce (by simp [Event.Calm])
          | max v => exact absurd hce (by simp [Event.Calm])

/-- **C95**: a maximum of 0 ends the program: once it is in effect and the client has a connection, the next call with something to send panics. -/
theorem C95_zero_maximum_ends_the_program (s : State) (hcr : s.crashed = false) (c : Client) (hc : s.clients[s.current]? = some c)
    (hd : c.dialled = true) (h0 : c.target.max = 0) (ids : Nat → BitVec 64) (b : Bytes) (hb : b ≠ []) :
    (s.fire (.call ids (.buffer b))).crashed = true := by
  have hf : s.fire (.call ids (.buffer b)) = call ids (.buffer b) s := by unfold State.fire; rw [if_neg (by rw [hcr]; simp)]
  rw [hf]
  have hlen : 0 < b.length := List.length_pos_iff.2 hb
  have hp : planned ids c (.buffer b) = .panic := by
    simp only [planned, Udp.writeBuffer, hd, Bool.true_eq_false, if_false, Udp.writeMTU, h0, if_true]
    exact if_pos (by omega)
  rcases call_cases ids (.buffer b) s hc with ⟨x, ds, hp', -⟩ | ⟨-, e⟩
  · rw [hp] at hp'; cases hp'
  · rw [e]

/-! ## What can go wrong -/

namespace Demo

/-- From 10.0.0.1:6100 to 10.0.0.2:6200. -/
def before : Target := ⟨ascii "10.0.0.1", 6100, 60000⟩
def after : Target := ⟨ascii "10.0.0.2", 6200, 60000⟩

/-- The goroutine replaces the client of a call of three datagrams after the first one. -/
def replaced : List Event :=
  [.max 4, .reload true, .reload true, .reload true, .reload true, .reload true, .reload true, .reload true, .reload true, .reload true, .reload true,
   .call (fun n => BitVec.ofNat 64 (n + 1)) (.buffer (ascii "0123456789")), .write 0, .ip after.ip,
   .reload true, .reload true, .reload true, .reload true, .reload true, .reload true, .reload true, .reload true, .write 0, .write 0]

end Demo

/-- **C95**, in general false: the agent can send to an address that was never configured (the new host with the old port, until the next round),
when the goroutine looks between the assignments of a refresh. -/
theorem C95_torn_address : ∃ es : List Event,
    ((State.start Demo.before true).run es).target = some ⟨Demo.after.ip, Demo.before.port, 60000⟩ ∧
    ((State.start Demo.before true).run es).conf = Demo.after :=
  ⟨[.ip Demo.after.ip, .reload true, .reload true, .reload true, .reload true, .port Demo.after.port, .reload true, .reload true, .reload true],
    by decide +kernel⟩

/-- **C95**: a pack of three fragments whose client is replaced after the first: the other two are lost, and the collector cannot join the pack. -/
theorem C95_cut_off_by_a_reload : ∃ f, ((State.start Demo.before true).run Demo.replaced).flights = [f] ∧ f.delivered.length = 1 ∧ f.lost.length = 2 ∧ f.todo = [] := by
  refine ⟨_, rfl, ?_⟩
  decide +kernel

/-- A client that could not be dialled, with calls afterwards: the hypotheses of `C95_never_dialled_again` are met at once. -/
example : ((State.start Demo.before false).run []).pc = .asleep ∧ ((State.start Demo.before false).run []).connected = false := by decide +kernel

/-- 14 steps are needed from the worst moment: after the first setting has been copied. -/
example : ∃ es : List Event, dist ((State.start Demo.before true).run es) = 14 :=
  ⟨[.port 1, .reload true, .reload true, .reload true, .reload true, .ip Demo.after.ip], by decide +kernel⟩

/-- The configuration is changed to a maximum of 0; two rounds later the next byte ends the program. -/
example : (((State.start Demo.before true).run ([.max 0] ++ List.replicate 14 (.reload true))).fire (.call (fun _ => 7) (.buffer [1]))).crashed = true := by
  decide +kernel

end Reload
end Scouter
