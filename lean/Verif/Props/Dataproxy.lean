import Verif.Model.Dataproxy
import Verif.Props.Lra
import Verif.Props.Hash
import Verif.Props.Sender
/-! # C32: dictionary texts -/
namespace Scouter
open Spec

/-! ## Specification: the agent remembers the latest announcements of each kind -/

namespace Spec

/-- The texts announced so far: per kind, the hashes announced since the last reset, oldest first. -/
abbrev Announced := TextKind → List (BitVec 32)

/-- How many announcements of a kind are remembered. -/
def memory : TextKind → Nat
  | .object => 100
  | _ => 10000

/-- The latest `n` elements. -/
def latest {α : Type} (n : Nat) (l : List α) : List α := l.drop (l.length - n)

/-- The kind's code on the wire. -/
def kindCode : TextKind → String
  | .error => "error"
  | .apicall => "apicall"
  | .method => "method"
  | .service => "service"
  | .object => "object"
  | .referer => "referer"
  | .userAgent => "ua"
  | .login => "login"
  | .desc => "desc"
  | .hashMessage => "hmsg"
  | .stackElement => "stackelem"

/-- One call: a non-empty text is announced, unless its hash is among the latest announcements of its kind. -/
def announce (a : Announced) : Proxy.Op → Announced × List TextPack
  | .send k name =>
    if name ≠ [] ∧ crc32 name ∉ latest (memory k) (a k) then
      (fun k' => if k' = k then a k ++ [crc32 name] else a k', [⟨ascii (kindCode k), crc32 name, name⟩])
    else (a, [])
  | .reset _ => (fun _ => [], [])
  | .queue _ => (a, [])

def announceAll (a : Announced) : List Proxy.Op → Announced × List TextPack
  | [] => (a, [])
  | op :: ops =>
    let (a1, t1) := announce a op
    let (a2, t2) := announceAll a1 ops
    (a2, t1 ++ t2)

end Spec

/-! ## Proof -/

theorem memory_eq (k : TextKind) : ((memory k : Nat) : Int) = k.limit ∧ 0 < memory k := by
  cases k <;> decide

theorem kindCode_eq (k : TextKind) : ascii (kindCode k) = k.textType := by
  cases k <;> rfl

/-- The cache of kind `k` holds exactly the latest announcements. -/
structure KindInv (k : TextKind) (c : Cache (BitVec 32) Unit) (l : List (BitVec 32)) : Prop where
  inv : c.Inv
  max : c.max = k.limit
  keys : c.abs.map (·.1) = latest (memory k) l

theorem KindInv.new (k : TextKind) : KindInv k (Cache.new k.limit false) [] :=
  ⟨Cache.inv_new _ _, rfl, by simp [latest, Cache.abs, Cache.new]⟩

theorem KindInv.contains {k : TextKind} {c : Cache (BitVec 32) Unit} {l : List (BitVec 32)} (h : KindInv k c l)
    (x : BitVec 32) : c.contains x = true ↔ x ∈ latest (memory k) l := by
  rw [h.inv.contains_eq, ← h.keys]
  cases hl : c.abs.lookup x with
  | none => simpa using lookup_none.1 hl
  | some v => simpa using ⟨v, mem_of_lookup hl⟩

theorem Cache.Inv.rel {K V : Type} [DecidableEq K] {c : Cache K V} (h : c.Inv) :
    Cache.Rel c { bound := c.max, entries := c.abs, departed := c.evicted } :=
  ⟨h, rfl, rfl, fun _ => List.Perm.refl _⟩

theorem KindInv.add {k : TextKind} {c : Cache (BitVec 32) Unit} {l : List (BitVec 32)} (h : KindInv k c l)
    (x : BitVec 32) (hx : x ∉ latest (memory k) l) : KindInv k (c.add x (some ())) (l ++ [x]) := by
  obtain ⟨hm1, hm2⟩ := memory_eq k
  have hr := h.inv.rel.add x (some ())
  have hk := h.keys
  have hlen := congrArg List.length hk
  simp only [List.length_map, latest, List.length_drop] at hlen
  refine ⟨hr.inv, ?_, ?_⟩
  · rw [← hr.bound, ← h.max]
    unfold OMap.add
    split
    · rfl
    · simp only []; split <;> rfl
  · rw [← hr.entries]
    unfold OMap.add
    rw [if_neg (by rw [← hk] at hx; exact hx)]
    simp only []
    have e0 : latest (memory k) (l ++ [x]) = (l.drop (l.length + 1 - memory k)) ++ [x] := by
      unfold latest
      rw [List.length_append, List.length_singleton, List.drop_append_of_le_length (by omega)]
    rw [e0, h.max]
    split
    · rename_i hc
      simp only [List.length_append, List.length_singleton] at hc
      have hge : memory k ≤ l.length := by omega
      rw [List.map_tail, List.map_append, hk]
      simp only [latest, List.map_cons, List.map_nil]
      have hne : l.drop (l.length - memory k) ≠ [] := by
        intro h0
        have := congrArg List.length h0
        simp at this; omega
      rw [List.tail_append_of_ne_nil hne, List.tail_drop]
      congr 2; omega
    · rename_i hc
      simp only [List.length_append, List.length_singleton] at hc
      have hlt : l.length < memory k ∨ memory k = 0 := by omega
      rw [List.map_append, hk]
      simp only [latest, List.map_cons, List.map_nil]
      have : l.length < memory k := by omega
      congr 2; omega

theorem KindInv.clear {k : TextKind} {c : Cache (BitVec 32) Unit} {l : List (BitVec 32)} (h : KindInv k c l)
    (o : MapOrder (BitVec 32 × Nat)) : KindInv k (c.clear o) [] := by
  have hr := h.inv.rel.clear o
  exact ⟨hr.inv, h.max, by rw [← hr.entries]; simp [OMap.clear, latest]⟩

/-- All caches. -/
def ProxyInv (p : Proxy) (a : Announced) : Prop := ∀ k, KindInv k (p.sent k) (a k)

theorem ProxyInv.init (cap : Nat) : ProxyInv (Proxy.init cap) (fun _ => []) := fun k => KindInv.new k

theorem ProxyInv.step {p : Proxy} {a : Announced} (h : ProxyInv p a) (op : Proxy.Op) :
    ProxyInv (p.step op).1 (announce a op).1 ∧
    (p.step op).1.offered = p.offered ++ (announce a op).2 := by
  cases op with
  | queue s => exact ⟨h, by simp [Proxy.step, announce]⟩
  | reset o => exact ⟨fun k => (h k).clear o, by simp [Proxy.step, announce, Proxy.resetTextSent]⟩
  | send k name =>
    simp only [Proxy.step, announce, Proxy.sendText]
    by_cases hn : name = []
    · simp only [hn, if_true, ne_eq, not_true, false_and, if_false, List.append_nil]
      exact ⟨h, trivial⟩
    · have hc := (h k).contains (hash name)
      rw [if_neg hn]
      by_cases hm : hash name ∈ latest (memory k) (a k)
      · rw [if_pos (hc.2 hm), if_neg (by rw [← C16_hash_is_crc32]; simp [hm])]
        exact ⟨h, by simp⟩
      · rw [if_neg (fun e => hm (hc.1 e)), if_pos ⟨hn, by rw [← C16_hash_is_crc32]; exact hm⟩]
        refine ⟨?_, ?_⟩
        · intro k'
          simp only [Proxy.addPack]
          by_cases hk : k' = k
          · subst hk
            simp only [if_true]
            rw [← C16_hash_is_crc32]
            exact (h k').add _ hm
          · simp only [hk, if_false]
            exact h k'
        · simp only [Proxy.addPack]
          rw [← C16_hash_is_crc32, kindCode_eq]

theorem ProxyInv.run : ∀ (ops : List Proxy.Op) (p : Proxy) (a : Announced), ProxyInv p a →
    ProxyInv (p.run ops) (announceAll a ops).1 ∧
    (p.run ops).offered = p.offered ++ (announceAll a ops).2 := by
  intro ops
  induction ops with
  | nil => intro p a h; exact ⟨h, by simp [Proxy.run, announceAll]⟩
  | cons op ops ih =>
    intro p a h
    obtain ⟨h1, h2⟩ := h.step op
    obtain ⟨h3, h4⟩ := ih _ _ h1
    exact ⟨h3, by simp only [Proxy.run, announceAll]; rw [h4, h2, List.append_assoc]⟩

/-- **C32** For every sequence of sends of any kinds and names, resets, and anything happening to the send queue
meanwhile: the text packs offered to the queue are exactly those of the specification (a non-empty text is announced
with its kind's code, hash and name unless its hash is among the latest 10000, or 100 for object names, announcements
of its kind since the last reset). -/
theorem C32_announcements (cap : Nat) (ops : List Proxy.Op) :
    ((Proxy.init cap).run ops).offered = (announceAll (fun _ => []) ops).2 := by
  have := ((ProxyInv.init cap).run ops _ _).2
  simpa [Proxy.init] using this

/-- **C32** The value returned is the text's hash, 0 for the empty text, in every state. -/
theorem C32_returns_hash (p : Proxy) (k : TextKind) (name : Bytes) :
    (p.sendText k name).2 = crc32 name := by
  unfold Proxy.sendText
  split
  · rename_i h; subst h; exact (by decide : (0 : BitVec 32) = crc32 [])
  · simp only []
    split <;> exact C16_hash_is_crc32 name

/-- The state after some calls. -/
def proxyAfter (cap : Nat) (ops : List Proxy.Op) : Proxy := (Proxy.init cap).run ops

theorem latest_append_mem {α : Type} (n : Nat) (hn : 0 < n) (l : List α) (x : α) : x ∈ latest n (l ++ [x]) := by
  unfold latest
  rw [List.length_append, List.length_singleton, List.drop_append_of_le_length (by omega)]
  simp

/-- **C32** The empty text is never announced; a text sent a second time, with nothing but sends of other kinds and
queue activity in between, is not announced again. -/
theorem C32_not_repeated (cap : Nat) (ops : List Proxy.Op) (k : TextKind) (name : Bytes)
    (between : List Proxy.Op)
    (hb : ∀ op ∈ between, ∀ k' n, op = .send k' n → k' ≠ k)
    (hr : ∀ op ∈ between, ∀ o, op ≠ .reset o) :
    let p := ((proxyAfter cap ops).sendText k name).1.run between
    (p.sendText k name).1 = p ∧ (p.sendText k []).1 = p := by
  intro p
  refine ⟨?_, by simp [Proxy.sendText]⟩
  by_cases hn : name = []
  · subst hn; simp [Proxy.sendText]
  · obtain ⟨h0, -⟩ := (ProxyInv.init cap).run ops _ _
    obtain ⟨h1, -⟩ := h0.step (.send k name)
    have hmem : hash name ∈ latest (memory k)
        ((announce (announceAll (fun _ => []) ops).1 (.send k name)).1 k) := by
      simp only [announce, ← C16_hash_is_crc32]
      split
      · simp only [if_true]
        exact latest_append_mem _ (memory_eq k).2 _ _
      · rename_i hh
        simp only [ne_eq, hn, not_false_eq_true, true_and, Classical.not_not] at hh
        exact hh
    have hkeep : ∀ (bs : List Proxy.Op) (a : Announced),
        (∀ op ∈ bs, ∀ k' n, op = .send k' n → k' ≠ k) → (∀ op ∈ bs, ∀ o, op ≠ .reset o) →
        (announceAll a bs).1 k = a k := by
      intro bs
      induction bs with
      | nil => intro a _ _; rfl
      | cons op bs ih =>
        intro a hb hr
        simp only [announceAll]
        rw [ih _ (fun o ho => hb o (List.mem_cons_of_mem _ ho)) (fun o ho => hr o (List.mem_cons_of_mem _ ho))]
        cases op with
        | queue s => rfl
        | reset o => exact absurd rfl (hr _ (List.mem_cons_self ..) o)
        | send k' n =>
          simp only [announce]
          split
          · have hne : ¬ k = k' := fun e => hb _ (List.mem_cons_self ..) k' n rfl e.symm
            simp only [hne, if_false]
          · rfl
    obtain ⟨h2, -⟩ := h1.run between _ _
    have hc := (h2 k).contains (hash name)
    rw [hkeep between _ hb hr] at hc
    replace hc : (p.sent k).contains (hash name) = true ↔ _ := hc
    unfold Proxy.sendText
    rw [if_neg hn]
    simp only []
    rw [if_pos (hc.2 hmem)]

/-- **C32** After a reset every non-empty text is announced again. -/
theorem C32_reset_announces_again (cap : Nat) (ops : List Proxy.Op) (o : MapOrder (BitVec 32 × Nat)) (k : TextKind)
    (name : Bytes) (hn : name ≠ []) :
    let p := (proxyAfter cap ops).resetTextSent o
    (p.sendText k name).1.offered = p.offered ++ [⟨ascii (kindCode k), crc32 name, name⟩] := by
  intro p
  obtain ⟨h0, -⟩ := (ProxyInv.init cap).run ops _ _
  obtain ⟨h1, -⟩ := h0.step (.reset o)
  obtain ⟨-, h2⟩ := h1.step (.send k name)
  have ha : (announce (announce (announceAll (fun _ => []) ops).1 (.reset o)).1 (.send k name)).2 =
      [⟨ascii (kindCode k), crc32 name, name⟩] := by
    rw [show (announce (announceAll (fun _ => []) ops).1 (.reset o)).1 = (fun _ => []) from rfl]
    simp only [announce]
    rw [if_pos ⟨hn, by simp [latest]⟩]
  rw [ha] at h2
  exact h2

/-- **C32** An announcement offered to a full queue is lost, and the text is nevertheless remembered: repeating it
announces nothing. -/
theorem C32_full_queue_loses_announcement (cap : Nat) (ops : List Proxy.Op) (k : TextKind) (name : Bytes)
    (hn : name ≠ []) (hnew : crc32 name ∉ latest (memory k) ((announceAll (fun _ => []) ops).1 k))
    (hfull : (proxyAfter cap ops).sender.cap ≤ (proxyAfter cap ops).sender.queue.length) :
    let p := ((proxyAfter cap ops).sendText k name).1
    p.sender = (proxyAfter cap ops).sender ∧ (p.sendText k name).1 = p := by
  refine ⟨?_, (C32_not_repeated cap ops k name [] (by simp) (by simp)).1⟩
  obtain ⟨h0, -⟩ := (ProxyInv.init cap).run ops _ _
  have hc : ((proxyAfter cap ops).sent k).contains (hash name) = true ↔ _ := (h0 k).contains (hash name)
  unfold Proxy.sendText
  rw [if_neg hn]
  simp only []
  rw [if_neg (fun e => hnew (C16_hash_is_crc32 name ▸ hc.1 e))]
  simp only [Proxy.addPack]
  exact (C31_add _ _).2 hfull

/-- The hypotheses are met: a queue of capacity one already holding an announcement. -/
example : (proxyAfter 1 [.send .service (ascii "/a")]).sender.cap ≤
      (proxyAfter 1 [.send .service (ascii "/a")]).sender.queue.length ∧
    crc32 (ascii "/b") ∉ latest (memory .service) ((announceAll (fun _ => []) [.send .service (ascii "/a")]).1 .service) := by
  decide +kernel

/-- **C32** Two different texts with the same hash: the second one is never announced, so a collector knows it only
by the first one's name. -/
theorem C32_collision_not_announced : ∃ a b : Bytes, a ≠ b ∧ a ≠ [] ∧ b ≠ [] ∧ ∀ (cap : Nat) (k : TextKind),
    ((proxyAfter cap [.send k a, .send k b]).offered = [⟨ascii (kindCode k), crc32 a, a⟩]) := by
  obtain ⟨hl, hne, hh⟩ : (ascii "plumless").length = (ascii "buckeroo").length ∧
    ascii "plumless" ≠ ascii "buckeroo" ∧ hash (ascii "plumless") = hash (ascii "buckeroo") :=
    ⟨by decide, by decide, by decide +kernel⟩
  have na : ascii "plumless" ≠ [] := by decide
  have nb : ascii "buckeroo" ≠ [] := by decide
  refine ⟨ascii "plumless", ascii "buckeroo", hne, na, nb, ?_⟩
  intro cap k
  rw [proxyAfter, C32_announcements]
  rw [C16_hash_is_crc32, C16_hash_is_crc32] at hh
  have h0 : memory k ≠ 0 := by cases k <;> decide
  simp only [announceAll, announce]
  rw [if_pos ⟨na, by simp [latest]⟩]
  simp only [if_true, List.nil_append, List.append_nil]
  rw [if_neg (by rintro ⟨-, hx⟩; rw [← hh] at hx; exact hx (latest_append_mem (memory k) (memory_eq k).2 [] _))]
  rfl

/-- A concrete run: a repeated name, an empty one, another kind, a reset. -/
example :
    ((Proxy.init 10).run [.send .service (ascii "/a"), .send .service (ascii "/a"), .send .service [],
      .send .error (ascii "/a"), .reset ⟨id, fun _ => .refl _⟩, .send .service (ascii "/a")]).offered.map (·.xtype) =
    [ascii "service", ascii "error", ascii "service"] := by
  rw [C32_announcements]
  decide +kernel

end Scouter
