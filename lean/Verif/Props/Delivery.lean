import Verif.Props.Udp
import Verif.Props.Sender
import Verif.Props.Packs
/-!
# C31: from the queue to the collector

The sender (C31), the transport (C29, C30) and the pack format (C12) together.
-/
namespace Scouter
open Wire Udp Sender Out Spec

/-- What the UDP client does for one transport call. -/
def callSend (ids : Nat → BitVec 64) (maxBytes : Int) : Call → Go (Bool × List Bytes)
  | .buffer b => writeBuffer true (ids 0) maxBytes b
  | .list bs => writeBufferList true ids maxBytes bs

/-- What the UDP client sends for a sequence of transport calls, all with the same maximum; `ids c` are the packet ids
generated during call number `c`. -/
def transmit (ids : Nat → Nat → BitVec 64) (maxBytes : Int) : Nat → List Call → Go (List Bytes)
  | _, [] => .ok []
  | c, call :: calls => do
    let (_, ds) ← callSend (ids c) maxBytes call
    let rest ← transmit ids maxBytes (c + 1) calls
    return ds ++ rest

theorem transmit_records {α γ : Type} (p : P α) (enc : γ → Bytes) (f : γ → α)
    (maxBytes : Nat) (hmax : 0 < maxBytes) (hmax' : maxBytes < 2 ^ 31) (ids : Nat → Nat → BitVec 64) :
    ∀ (calls : List Call) (c : Nat) (as : List γ), calls.flatMap Call.buffers = as.map enc →
    (∀ a ∈ as, ∀ r, p (enc a ++ r) = some (f a, r)) →
    (∀ a ∈ as, 0 < (enc a).length ∧ (enc a).length ≤ maxBytes) → as.length < 32768 →
    ∃ sent ds rs, transmit ids maxBytes c calls = .ok sent ∧
      sent.mapM datagram = some ds ∧ ds.mapM (records p) = some rs ∧ rs.flatten = as.map f := by
  intro calls
  induction calls with
  | nil =>
    intro c as h _ _ _
    cases as with
    | nil => exact ⟨[], [], [], rfl, rfl, rfl, rfl⟩
    | cons a as => simp at h
  | cons call calls ih =>
    intro c as h hp hsz hlen
    rw [List.flatMap_cons] at h
    obtain ⟨a1, a2, rfl, h1, h2⟩ := List.map_eq_append_iff.1 h.symm
    rw [List.length_append] at hlen
    obtain ⟨sent2, ds2, rs2, e1, e2, e3, e4⟩ := ih (c + 1) a2 h2.symm
      (fun a ha => hp a (List.mem_append_right _ ha)) (fun a ha => hsz a (List.mem_append_right _ ha)) (by omega)
    have hfirst : ∃ sent ds rs, callSend (ids c) maxBytes call = .ok (true, sent) ∧
        sent.mapM datagram = some ds ∧ ds.mapM (records p) = some rs ∧ rs.flatten = a1.map f := by
      cases call with
      | buffer b =>
        simp only [Call.buffers] at h1
        obtain ⟨a, ha, rfl⟩ : ∃ a, a1 = [a] ∧ enc a = b := by
          match a1, h1 with
          | [a], h1 => exact ⟨a, rfl, by simpa using h1⟩
        subst ha
        have hs := hsz a (by simp)
        obtain ⟨d, hd1, hd2⟩ := C29_small (ids c 0) maxBytes (enc a) (by omega)
        have hpa := hp a (by simp) []
        rw [List.append_nil] at hpa
        refine ⟨[d], [.one (enc a)], [[f a]], hd1, ?_, ?_, rfl⟩
        · simp [List.mapM_cons, hd2]
        · simp [List.mapM_cons, records, hpa]
      | list bs =>
        simp only [Call.buffers] at h1
        subst h1
        exact C30_collector_gets_all p enc f a1 (fun a ha => hp a (List.mem_append_left _ ha)) maxBytes hmax hmax'
          (fun a ha => hsz a (List.mem_append_left _ ha)) (ids c) (by omega)
    obtain ⟨sent1, ds1, rs1, g1, g2, g3, g4⟩ := hfirst
    refine ⟨sent1 ++ sent2, ds1 ++ ds2, rs1 ++ rs2, ?_, ?_, ?_, ?_⟩
    · simp only [transmit]
      rw [g1, Go.ok_bind]
      simp only [e1, Go.ok_bind, Go.pure_eq]
    · rw [List.mapM_append, g2, e2]; rfl
    · rw [List.mapM_append, g3, e3]; rfl
    · rw [List.flatten_append, g4, e4, List.map_append]

/-- **C31** Packs accepted by the queue reach the collector: from any reachable state whose accepted buffers are the
encodings of sendable packs of at most the maximum size, letting the goroutine run hands over everything, and a
collector reading the datagrams sent obtains exactly those packs, each once and in acceptance order. -/
theorem C31_packs_reach_collector (s : State) (h : Reachable s) (maxBytes : Nat)
    (hmax : 0 < maxBytes) (hmax' : maxBytes < 2 ^ 31) (ids : Nat → Nat → BitVec 64)
    (packs : List (Pack × WPack))
    (hacc : s.accepted = packs.map (fun q => (Out.new.writePack q.1).bytes))
    (hp : ∀ q ∈ packs, SendablePack q.1 ∧ denotePack q.1 = some q.2)
    (hsz : ∀ q ∈ packs, (Out.new.writePack q.1).bytes.length ≤ maxBytes)
    (hlen : packs.length < 32768) :
    ∃ s' sent ds rs, drain maxBytes (2 * s.cap + 1) s = some s' ∧
      transmit ids maxBytes 0 s'.calls = .ok sent ∧
      sent.mapM datagram = some ds ∧ ds.mapM (records Wire.pack) = some rs ∧ rs.flatten = packs.map (·.2) := by
  obtain ⟨s', hd, hc⟩ := C31_eventually_delivered s h maxBytes
  rw [hacc] at hc
  have hparse : ∀ q ∈ packs, ∀ r, Wire.pack ((Out.new.writePack q.1).bytes ++ r) = some (q.2, r) := by
    intro q hq r
    obtain ⟨bs, e, hb⟩ := C12_collector_reads_pack q.1 (hp q hq).1 q.2 (hp q hq).2 Out.new
    rw [bytes_new, List.nil_append] at e
    rw [e]; exact hb r
  obtain ⟨sent, ds, rs, e⟩ := transmit_records Wire.pack (fun q : Pack × WPack => (Out.new.writePack q.1).bytes) (·.2)
    maxBytes hmax hmax' ids s'.calls 0 packs hc hparse
    (by
      intro q hq
      refine ⟨?_, hsz q hq⟩
      apply List.length_pos_iff.2
      intro hnil
      have h1 := hparse q hq []
      rw [hnil] at h1
      exact absurd h1 (by simp [Wire.pack, bind_apply, Wire.u, Wire.bytes])) hlen
  exact ⟨s', sent, ds, rs, hd, e⟩

/-- The hypotheses are met by two queued text announcements. -/
example : ∃ s, Reachable s ∧
    s.accepted = [(Pack.text ⟨ascii "service", 5, ascii "/a"⟩, WPack.text (ascii "service") 5 (ascii "/a")),
      (Pack.text ⟨ascii "error", -1, ascii "boom"⟩, WPack.text (ascii "error") (-1) (ascii "boom"))].map
        (fun q => (Out.new.writePack q.1).bytes) :=
  ⟨_, exec_reachable [.inl _, .inl _] { cap := 5 } _ (.init 5) rfl, rfl⟩

end Scouter
