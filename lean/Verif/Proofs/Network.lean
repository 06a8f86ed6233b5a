import Verif.Spec.Network
import Verif.Props.Delivery
/-!
# Messages: what belongs together on the wire
-/
namespace Scouter
open Wire Udp Sender Out Spec

/-- A buffer alone, a run of buffers in one datagram, or the fragments of a buffer. -/
inductive Msg where
  | one (b : Bytes)
  | many (g : List Bytes)
  | big (id : Int) (pieces : List Bytes)

def Msg.datagrams : Msg → List Datagram
  | .one b => [.one b]
  | .many g => [.many g.length g.flatten]
  | .big id pieces => pieces.mapIdx fun n p => .frag 0 id pieces.length n p

def Msg.buffers : Msg → List Bytes
  | .one b => [b]
  | .many g => g
  | .big _ pieces => [pieces.flatten]

def Msg.id? : Msg → Option Int
  | .big id _ => some id
  | _ => none

/-- A message of fragments has some. -/
def Msg.Ok : Msg → Prop
  | .big _ pieces => pieces ≠ []
  | _ => True

theorem map_mapIdx {α β γ : Type} (f : Nat → α → β) (g : β → γ) (l : List α) :
    (l.mapIdx f).map g = l.mapIdx fun n a => g (f n a) := by
  apply List.ext_getElem (by simp)
  intro i h1 h2
  simp

theorem writeBuffer_msg (id : BitVec 64) (max : Nat) (b : Bytes) (h0 : 0 < max) (h1 : max < 2 ^ 31) (hb : b.length ≤ 32767 * max) :
    ∃ (sent : List Bytes) (m : Msg), writeBuffer true id max b = .ok (true, sent) ∧ sent.map datagram = m.datagrams.map some ∧
      m.buffers = [b] ∧ m.Ok ∧ (m.id? = none ∨ m.id? = some id.toInt) := by
  by_cases h : b.length ≤ max
  · obtain ⟨d, hd1, hd2⟩ := C29_small id max b (by omega)
    exact ⟨[d], .one b, hd1, by simp [Msg.datagrams, hd2], rfl, trivial, .inl rfl⟩
  · obtain ⟨ps, sent, e1, e2, e3, e4, e5⟩ := C29_fragments id max b h0 h1 (by omega) hb
    refine ⟨sent, .big id.toInt ps, e1, ?_, by simp [Msg.buffers, e3], ?_, .inr rfl⟩
    · rw [e2]
      simp only [Msg.datagrams, map_mapIdx]
    · show ps ≠ []
      intro e; rw [e] at e5; simp at e5

theorem bufferLoop_msgs (max : Nat) (h0 : 0 < max) (h1 : max < 2 ^ 31) (ids : Nat → BitVec 64) :
    ∀ (bs : List Bytes) (k : Nat) (g : List Bytes), g.flatten.length ≤ max → g.length + bs.length < 32768 →
    (∀ b ∈ g ++ bs, b ≠ []) → (∀ b ∈ bs, b.length ≤ 32767 * max) →
    ∃ (sent : List Bytes) (ms : List Msg) (n : Nat),
      bufferLoop max ids bs k (Out.new.write g.flatten) (BitVec.ofNat 16 g.length) = .ok sent ∧
      sent.map datagram = (ms.flatMap Msg.datagrams).map some ∧ (ms.flatMap Msg.buffers).Perm (g ++ bs) ∧
      (∀ m ∈ ms, m.Ok) ∧ n ≤ bs.length ∧ ms.filterMap Msg.id? = (List.range' k n).map fun j => (ids j).toInt := by
  intro bs
  induction bs with
  | nil =>
    intro k g hg hlen hne _
    simp only [List.length_nil, Nat.add_zero] at hlen
    by_cases h : g = []
    · subst h
      exact ⟨[], [], 0, rfl, rfl, by simp, by simp, Nat.le_refl _, rfl⟩
    · have hfl : g.flatten ≠ [] := by
        intro e
        obtain ⟨b, l, rfl⟩ := List.exists_cons_of_ne_nil h
        exact hne b (by simp) (List.flatten_eq_nil_iff.1 e b (by simp))
      have hpos : 0 < g.flatten.length := List.length_pos_iff.2 hfl
      refine ⟨[listDatagram (BitVec.ofNat 16 g.length) g.flatten], [.many g], 0, ?_, ?_, by simp [Msg.buffers], ?_, Nat.le_refl _, rfl⟩
      · simp only [bufferLoop]
        rw [size_write_new _ (by omega), if_pos (by omega), bytes_write, bytes_new]
        rfl
      · simp [Msg.datagrams, datagram_list _ _ hlen]
      · intro m hm
        rw [List.mem_singleton.1 hm]; trivial
  | cons b bs ih =>
    intro k g hg hlen hne hsz
    simp only [List.length_cons] at hlen
    by_cases hbig : max < b.length
    · obtain ⟨sent, ms, n, e1, e2, e3, e4, e5, e6⟩ := ih (k + 1) g hg (by omega)
        (fun x hx => hne x (by simp only [List.mem_append, List.mem_cons] at hx ⊢; tauto)) (fun x hx => hsz x (List.mem_cons_of_mem _ hx))
      obtain ⟨ps, fs, f1, f2, f3, -, f5⟩ := C29_fragments (ids k) max b h0 h1 hbig (hsz b (by simp))
      have hw : writeMTU true (ids k) b max = .ok (true, fs) := by
        rw [writeBuffer, if_neg (by simp), if_pos (by omega)] at f1
        exact f1
      refine ⟨fs ++ sent, .big (ids k).toInt ps :: ms, n + 1, ?_, ?_, ?_, ?_, by simp; omega, ?_⟩
      · rw [bufferLoop, if_pos (by omega), hw, Go.ok_bind]
        simp only [e1, Go.ok_bind, Go.pure_eq]
      · rw [List.map_append, f2, e2, List.flatMap_cons, List.map_append]
        simp only [Msg.datagrams, map_mapIdx]
      · rw [List.flatMap_cons]
        simp only [Msg.buffers, f3]
        exact (List.Perm.cons b e3).trans (List.perm_middle.symm)
      · intro m hm
        rcases List.mem_cons.1 hm with rfl | hm
        · show ps ≠ []
          intro e; rw [e] at f5; simp at f5
        · exact e4 m hm
      · rw [List.filterMap_cons, List.range'_succ]
        simp [Msg.id?, e6]
    · have hsz' := size_write_new g.flatten (by omega)
      by_cases hflush : (b.length : Int) + (g.flatten.length : Int) > max
      · obtain ⟨sent, ms, n, e1, e2, e3, e4, e5, e6⟩ := ih k [b] (by simp; omega) (by simp; omega)
          (fun x hx => hne x (by simp only [List.mem_append, List.mem_cons] at hx ⊢; tauto)) (fun x hx => hsz x (List.mem_cons_of_mem _ hx))
        refine ⟨listDatagram (BitVec.ofNat 16 g.length) g.flatten :: sent, .many g :: ms, n, ?_, ?_, ?_, ?_, by simp; omega, ?_⟩
        · rw [bufferLoop, if_neg (by omega), hsz', if_pos hflush]
          rw [List.flatten_cons, List.flatten_nil, List.append_nil] at e1
          simp only [List.length_cons, List.length_nil, Nat.zero_add] at e1
          rw [show (1 : BitVec 16) = BitVec.ofNat 16 1 from rfl, e1]
          simp only [Go.ok_bind, Go.pure_eq, bytes_write, bytes_new]
          rfl
        · rw [List.map_cons, e2, List.flatMap_cons, datagram_list _ _ (show g.length < 32768 by omega)]
          simp [Msg.datagrams]
        · rw [List.flatMap_cons]
          simp only [Msg.buffers]
          exact List.Perm.append_left g e3
        · intro m hm
          rcases List.mem_cons.1 hm with rfl | hm
          · trivial
          · exact e4 m hm
        · rw [List.filterMap_cons]; exact e6
      · obtain ⟨sent, ms, n, e1, e2, e3, e4, e5, e6⟩ := ih k (g ++ [b])
          (by simp only [List.flatten_append, List.flatten_cons, List.flatten_nil, List.append_nil,
                List.length_append]; omega) (by simp; omega)
          (fun x hx => hne x (by simp only [List.mem_append, List.mem_cons] at hx ⊢; tauto)) (fun x hx => hsz x (List.mem_cons_of_mem _ hx))
        refine ⟨sent, ms, n, ?_, e2, ?_, e4, by simp; omega, e6⟩
        · rw [bufferLoop, if_neg (by omega), hsz', if_neg hflush, write_write]
          rw [List.flatten_append, List.flatten_cons, List.flatten_nil, List.append_nil, List.length_append] at e1
          rw [← e1]
          congr 1
          simp [BitVec.ofNat_add]
        · simpa using e3

/-- What one call of the UDP client sends. -/
theorem callSend_msgs (t : Transmission) (ht : t.Fits) (hne : ∀ b ∈ t.buffers, b ≠ []) :
    ∃ (sent : List Bytes) (ms : List Msg), callSend t.ids t.max t.call = .ok (true, sent) ∧
      sent.map datagram = (ms.flatMap Msg.datagrams).map some ∧ (ms.flatMap Msg.buffers).Perm t.buffers ∧
      (∀ m ∈ ms, m.Ok) ∧ (ms.filterMap Msg.id?).Sublist (t.drawable.map BitVec.toInt) := by
  obtain ⟨call, max, ids⟩ := t
  obtain ⟨h0, h1, h2, h3⟩ := ht
  simp only [Transmission.drawable, Transmission.buffers] at *
  cases call with
  | buffer b =>
    obtain ⟨sent, m, e1, e2, e3, e4, e5⟩ := writeBuffer_msg (ids 0) max b h0 h1 (h3 b (by simp))
    refine ⟨sent, [m], e1, by simp [e2], by simp [e3], ?_, ?_⟩
    · intro m' hm
      rw [List.mem_singleton.1 hm]; exact e4
    · simp only [List.filterMap_cons, List.filterMap_nil]
      rcases e5 with e | e <;> rw [e]
      · exact List.nil_sublist _
      · exact List.Sublist.refl _
  | list bs =>
    obtain ⟨sent, ms, n, e1, e2, e3, e4, e5, e6⟩ := bufferLoop_msgs max h0 h1 ids bs 0 [] (by simp) (by simpa using h2)
      (by simpa using hne) h3
    refine ⟨sent, ms, ?_, e2, by simpa using e3, e4, ?_⟩
    · simp only [callSend, writeBufferList]
      rw [if_neg (by simp), show Out.new = Out.new.write [] from rfl, show (0 : BitVec 16) = BitVec.ofNat 16 0 from rfl]
      simp only [List.flatten_nil, List.length_nil] at e1
      rw [e1]; rfl
    · rw [e6, List.map_map, ← List.range_eq_range']
      refine List.Sublist.map (fun j => (ids j).toInt) ?_
      exact List.range_sublist.2 e5

/-! ## Reading -/

/-- Two fragments of the messages with the same packet id belong to the same message. -/
theorem frag_owner {ms : List Msg} (hn : (ms.filterMap Msg.id?).Nodup) {id : Int} {ps : List Bytes} (hm : Msg.big id ps ∈ ms)
    {h t n : Int} {p : Bytes} (hd : Datagram.frag h id t n p ∈ ms.flatMap Msg.datagrams) :
    ∃ j : Nat, ps[j]? = some p ∧ n = j ∧ t = ps.length := by
  induction ms with
  | nil => simp at hm
  | cons m ms ih =>
    rw [List.flatMap_cons, List.mem_append] at hd
    have key : ∀ {m' : Msg}, Datagram.frag h id t n p ∈ m'.datagrams → ∃ ps', m' = .big id ps' ∧ ∃ j : Nat, ps'[j]? = some p ∧ n = j ∧ t = ps'.length := by
      intro m' hd
      cases m' with
      | one b => simp [Msg.datagrams] at hd
      | many g => simp [Msg.datagrams] at hd
      | big id' ps' =>
        simp only [Msg.datagrams, List.mem_mapIdx, Datagram.frag.injEq] at hd
        obtain ⟨j, hj, -, e1, e2, e3, e4⟩ := hd
        subst e1
        exact ⟨ps', rfl, j, by rw [List.getElem?_eq_getElem hj, e4], e3.symm, e2.symm⟩
    have key' : ∀ {l : List Msg}, Datagram.frag h id t n p ∈ l.flatMap Msg.datagrams → id ∈ l.filterMap Msg.id? := by
      intro l hd
      obtain ⟨m', hm', hd⟩ := List.mem_flatMap.1 hd
      obtain ⟨ps', rfl, -⟩ := key hd
      exact List.mem_filterMap.2 ⟨_, hm', rfl⟩
    rcases List.mem_cons.1 hm with rfl | hm'
    · rcases hd with hd | hd
      · obtain ⟨ps', e, hj⟩ := key hd
        cases e
        exact hj
      · have h1 := key' hd
        simp only [List.filterMap_cons, Msg.id?, List.nodup_cons] at hn
        exact absurd h1 hn.1
    · rcases hd with hd | hd
      · obtain ⟨ps', rfl, -⟩ := key hd
        simp only [List.filterMap_cons, Msg.id?, List.nodup_cons] at hn
        exact absurd (List.mem_filterMap.2 ⟨Msg.big id ps, hm', rfl⟩ : id ∈ ms.filterMap Msg.id?) hn.1
      · refine ih ?_ hm' hd
        rw [List.filterMap_cons] at hn
        split at hn
        · exact hn
        · exact (List.nodup_cons.1 hn).2

theorem findFrag_mem {id num : Int} {b : Bytes} : ∀ {rs : List Datagram}, findFrag id num rs = some b → ∃ h t, Datagram.frag h id t num b ∈ rs := by
  intro rs
  induction rs with
  | nil => intro h; simp [findFrag] at h
  | cons d rs ih =>
    intro h
    cases d with
    | one r =>
      simp only [findFrag] at h
      obtain ⟨a, t, hm⟩ := ih h
      exact ⟨a, t, List.mem_cons_of_mem _ hm⟩
    | many c r =>
      simp only [findFrag] at h
      obtain ⟨a, t, hm⟩ := ih h
      exact ⟨a, t, List.mem_cons_of_mem _ hm⟩
    | frag a p t n b' =>
      simp only [findFrag] at h
      split at h
      · next e =>
        obtain ⟨rfl, rfl⟩ := e
        injection h with h
        subst h
        exact ⟨a, t, List.mem_cons_self ..⟩
      · obtain ⟨a, t, hm⟩ := ih h
        exact ⟨a, t, List.mem_cons_of_mem _ hm⟩

theorem foldr_some {id : Int} {rs : List Datagram} : ∀ {l : List Nat} {b : Bytes},
    l.foldr (fun (n : Nat) acc => do
      let b ← findFrag id n rs
      let r ← acc
      return b ++ r) (some []) = some b → ∀ n ∈ l, ∃ x, findFrag id (n : Int) rs = some x := by
  intro l
  induction l with
  | nil => intro b _ n hn; simp at hn
  | cons m l ih =>
    intro b h n hn
    rw [List.foldr_cons] at h
    cases hf : findFrag id (m : Int) rs with
    | none => rw [hf] at h; simp at h
    | some x =>
      rw [hf] at h
      cases hr : l.foldr (fun (n : Nat) acc => do
          let b ← findFrag id n rs
          let r ← acc
          return b ++ r) (some []) with
      | none => rw [hr] at h; simp at h
      | some y =>
        rcases List.mem_cons.1 hn with rfl | hn
        · exact ⟨x, hf⟩
        · exact ih hr n hn

/-- Fragments received of a message, all of them or not: what is joined, if anything, is the buffer. -/
theorem reassemble_sound {ms : List Msg} (hn : (ms.filterMap Msg.id?).Nodup) {id : Int} {ps : List Bytes} (hm : Msg.big id ps ∈ ms)
    {rs : List Datagram} (hsub : ∀ d ∈ rs, d ∈ ms.flatMap Msg.datagrams) {b : Bytes} (h : reassemble id ps.length rs = some b) :
    b = ps.flatten := by
  have hall := foldr_some h
  have hf : ∀ n ∈ List.range ps.length, findFrag id ((n : Nat) : Int) rs = some ((ps[n]?).getD []) := by
    intro n hn'
    obtain ⟨x, hx⟩ := hall n hn'
    obtain ⟨a, t, hmem⟩ := findFrag_mem hx
    obtain ⟨j, e1, e2, -⟩ := frag_owner hn hm (hsub _ hmem)
    have : j = n := by omega
    subst this
    rw [hx, e1]; rfl
  unfold reassemble at h
  rw [reassemble_eq id rs (fun n => (ps[n]?).getD []) _ hf] at h
  injection h with h
  rw [← h]
  congr 1
  apply List.ext_getElem (by simp)
  intro i h1 h2
  simp [h2]

theorem reassemble_complete {ms : List Msg} (hn : (ms.filterMap Msg.id?).Nodup) {id : Int} {ps : List Bytes} (hm : Msg.big id ps ∈ ms)
    {rs : List Datagram} (hsub : ∀ d ∈ rs, d ∈ ms.flatMap Msg.datagrams) (hall : ∀ d ∈ (Msg.big id ps).datagrams, d ∈ rs) :
    reassemble id ps.length rs = some ps.flatten := by
  have hf : ∀ n ∈ List.range ps.length, findFrag id ((n : Nat) : Int) rs = some ((ps[n]?).getD []) := by
    intro n hn'
    have hlt := List.mem_range.1 hn'
    refine findFrag_some _ _ _ _ ?_ ⟨0, ps.length, hall _ ?_⟩
    · intro a t b' hmem
      obtain ⟨j, e1, e2, -⟩ := frag_owner hn hm (hsub _ hmem)
      have : j = n := by omega
      subst this
      rw [e1]; rfl
    · simp only [Msg.datagrams, List.mem_mapIdx]
      exact ⟨n, hlt, by simp [hlt]⟩
  unfold reassemble
  rw [reassemble_eq id rs (fun n => (ps[n]?).getD []) _ hf]
  congr 2
  apply List.ext_getElem (by simp)
  intro i h1 h2
  simp [h2]

/-! ## What is obtained -/

open Classical in
/-- The pack a buffer encodes, if it encodes one. -/
noncomputable def meaning (b : Bytes) : Option WPack :=
  if h : ∃ q, ∀ r, pack (b ++ r) = some (q, r) then some (Classical.choose h) else none

theorem meaning_sound {b : Bytes} {q : WPack} (h : meaning b = some q) (r : Bytes) : pack (b ++ r) = some (q, r) := by
  unfold meaning at h
  split at h
  · next e =>
    injection h with h
    rw [← h]; exact Classical.choose_spec e r
  · simp at h

theorem meaning_of {b : Bytes} {q : WPack} (h : ∀ r, pack (b ++ r) = some (q, r)) : meaning b = some q := by
  unfold meaning
  have e : ∃ q, ∀ r, pack (b ++ r) = some (q, r) := ⟨q, h⟩
  rw [dif_pos e]
  have h1 := Classical.choose_spec e []
  rw [h []] at h1
  simp only [Option.some.injEq, Prod.mk.injEq, and_true] at h1
  rw [h1]

theorem times_buffers : ∀ (g : List Bytes) (qs : List WPack), g.map meaning = qs.map some →
    ∀ r, times pack g.length (g.flatten ++ r) = some (qs, r) := by
  intro g
  induction g with
  | nil => intro qs h r; cases qs <;> simp at h; rfl
  | cons b g ih =>
    intro qs h r
    cases qs with
    | nil => simp at h
    | cons q qs =>
      simp only [List.map_cons, List.cons.injEq] at h
      simp only [List.length_cons, times, List.flatten_cons, List.append_assoc]
      refine (bind_some (meaning_sound h.1 _)).trans ?_
      refine (bind_some (ih qs h.2 r)).trans ?_
      rfl

theorem obtained_msg {ms : List Msg} (hn : (ms.filterMap Msg.id?).Nodup) {m : Msg} (hm : m ∈ ms)
    (hok : m.Ok) {qs : List WPack} (hq : m.buffers.map meaning = qs.map some) {rs : List Datagram}
    (hsub : ∀ d ∈ rs, d ∈ ms.flatMap Msg.datagrams) :
    (∀ d ∈ m.datagrams, ∀ q ∈ obtainedFrom rs d, q ∈ qs) ∧
    ((∀ d ∈ m.datagrams, d ∈ rs) → m.datagrams.flatMap (obtainedFrom rs) = qs) := by
  cases m with
  | one b =>
    have hb : ∃ q, qs = [q] ∧ meaning b = some q := by
      cases qs with
      | nil => simp [Msg.buffers] at hq
      | cons q l =>
        cases l with
        | nil => exact ⟨q, rfl, by simpa [Msg.buffers] using hq⟩
        | cons a l => simp [Msg.buffers] at hq
    obtain ⟨q, rfl, hb⟩ := hb
    have hp := meaning_sound hb []
    rw [List.append_nil] at hp
    have e : obtainedFrom rs (.one b) = [q] := by simp [obtainedFrom, records, hp]
    constructor
    · intro d hd x hx
      simp only [Msg.datagrams, List.mem_singleton] at hd
      subst hd
      rw [e] at hx; exact hx
    · intro _
      simp [Msg.datagrams, e]
  | many g =>
    have ht := times_buffers g qs hq []
    rw [List.append_nil] at ht
    have e : obtainedFrom rs (.many g.length g.flatten) = qs := by simp [obtainedFrom, records, ht]
    constructor
    · intro d hd x hx
      simp only [Msg.datagrams, List.mem_singleton] at hd
      subst hd
      rw [e] at hx; exact hx
    · intro _
      simp [Msg.datagrams, e]
  | big id ps =>
    have hb : ∃ q, qs = [q] ∧ meaning ps.flatten = some q := by
      cases qs with
      | nil => simp [Msg.buffers] at hq
      | cons q l =>
        cases l with
        | nil => exact ⟨q, rfl, by simpa [Msg.buffers] using hq⟩
        | cons a l => simp [Msg.buffers] at hq
    obtain ⟨q, rfl, hb⟩ := hb
    have hp := meaning_sound hb []
    rw [List.append_nil] at hp
    constructor
    · intro d hd x hx
      simp only [Msg.datagrams, List.mem_mapIdx] at hd
      obtain ⟨n, hn', rfl⟩ := hd
      simp only [obtainedFrom, Int.toNat_natCast] at hx
      split at hx
      · split at hx
        · next b hr =>
          rw [reassemble_sound hn hm hsub hr, hp] at hx
          exact hx
        · simp at hx
      · simp at hx
    · intro hall
      have hr := reassemble_complete hn hm hsub hall
      obtain ⟨p, ps', rfl⟩ := List.exists_cons_of_ne_nil (show ps ≠ [] from hok)
      have e0 : obtainedFrom rs (.frag 0 id (p :: ps').length ((0 : Nat) : Int) p) = [q] := by
        have h0 : ((0 : Nat) : Int) = 0 := rfl
        simp only [obtainedFrom, Int.toNat_natCast, hr, hp]
        rw [if_pos h0]
      simp only [Msg.datagrams, List.mapIdx_cons, List.flatMap_cons]
      rw [e0]
      have : (List.mapIdx (fun i a => Datagram.frag 0 id (p :: ps').length ((i + 1 : Nat) : Int) a) ps').flatMap (obtainedFrom rs) = [] := by
        rw [List.flatMap_eq_nil_iff]
        intro d hd
        simp only [List.mem_mapIdx] at hd
        obtain ⟨n, hn', rfl⟩ := hd
        simp only [obtainedFrom]
        rw [if_neg (by omega)]
      rw [this]; rfl

/-- What is obtained from the datagrams of a message is its packs or part of them, each at most once. -/
theorem obtained_msg_sublist {ms : List Msg} (hn : (ms.filterMap Msg.id?).Nodup) {m : Msg} (hm : m ∈ ms)
    (hok : m.Ok) {qs : List WPack} (hq : m.buffers.map meaning = qs.map some) {rs : List Datagram}
    (hsub : ∀ d ∈ rs, d ∈ ms.flatMap Msg.datagrams) : (m.datagrams.flatMap (obtainedFrom rs)).Sublist qs := by
  cases m with
  | one b =>
    have hb : ∃ q, qs = [q] ∧ meaning b = some q := by
      cases qs with
      | nil => simp [Msg.buffers] at hq
      | cons q l =>
        cases l with
        | nil => exact ⟨q, rfl, by simpa [Msg.buffers] using hq⟩
        | cons a l => simp [Msg.buffers] at hq
    obtain ⟨q, rfl, hb⟩ := hb
    have hp := meaning_sound hb []
    rw [List.append_nil] at hp
    have e : obtainedFrom rs (.one b) = [q] := by simp [obtainedFrom, records, hp]
    simp [Msg.datagrams, e]
  | many g =>
    have ht := times_buffers g qs hq []
    rw [List.append_nil] at ht
    have e : obtainedFrom rs (.many g.length g.flatten) = qs := by simp [obtainedFrom, records, ht]
    simp [Msg.datagrams, e]
  | big id ps =>
    obtain ⟨p, ps', rfl⟩ := List.exists_cons_of_ne_nil (show ps ≠ [] from hok)
    have hs := (obtained_msg hn hm hok hq hsub).1
    have : (List.mapIdx (fun i a => Datagram.frag 0 id (p :: ps').length ((i + 1 : Nat) : Int) a) ps').flatMap (obtainedFrom rs) = [] := by
      rw [List.flatMap_eq_nil_iff]
      intro d hd
      simp only [List.mem_mapIdx] at hd
      obtain ⟨n, hn', rfl⟩ := hd
      simp only [obtainedFrom]
      rw [if_neg (by omega)]
    have h0 : ∀ q ∈ obtainedFrom rs (.frag 0 id (p :: ps').length ((0 : Nat) : Int) p), q ∈ qs :=
      hs _ (by simp [Msg.datagrams, List.mapIdx_cons])
    have hlen : (obtainedFrom rs (.frag 0 id (p :: ps').length ((0 : Nat) : Int) p)).length ≤ 1 := by
      simp only [obtainedFrom]
      split
      · split
        · split <;> simp
        · simp
      · simp
    simp only [Msg.datagrams, List.mapIdx_cons, List.flatMap_cons]
    rw [this, List.append_nil]
    generalize obtainedFrom rs (.frag 0 id (p :: ps').length ((0 : Nat) : Int) p) = l at h0 hlen ⊢
    cases l with
    | nil => exact List.nil_sublist _
    | cons x l =>
      have : l = [] := List.length_eq_zero_iff.1 (by simpa using hlen)
      subst this
      exact List.singleton_sublist.2 (h0 x (by simp))

end Scouter
