import Verif.Model.Sender
/-! # C31: the send queue -/
namespace Scouter
open Sender

/-- The buffers a transport call is given. -/
def Sender.Call.buffers : Call → List Bytes
  | .buffer b => [b]
  | .list bs => bs

/-- The buffers the sending goroutine has taken off the queue and not yet handed over. -/
def Sender.State.held (s : State) : List Bytes :=
  match s.phase with
  | .batch _ _ l => l
  | _ => []

structure SInv (s : State) : Prop where
  bound : s.queue.length ≤ s.cap
  cons : s.accepted = (s.calls.flatMap Call.buffers) ++ s.held ++ s.queue
  one : s.phase = .one → 1 ≤ s.queue.length
  batch : ∀ left bytes l, s.phase = .batch left bytes l → 1 ≤ left ∧ left ≤ s.queue.length
  nonempty : ∀ c ∈ s.calls, c.buffers ≠ []

theorem sendList_buffers (l : List Bytes) : (sendList l).flatMap Call.buffers = l := by
  match l with
  | [] => rfl
  | [b] => rfl
  | a :: b :: l => simp [sendList, Call.buffers]

theorem sendList_ne (l : List Bytes) : ∀ c ∈ sendList l, c.buffers ≠ [] := by
  intro c hc
  match l with
  | [] => simp [sendList] at hc
  | [b] => simp [sendList] at hc; subst hc; simp [Call.buffers]
  | a :: b :: l => simp [sendList] at hc; subst hc; simp [Call.buffers]

theorem SInv.batchNext {s : State} {left : Nat} {bytes : Int} {l : List Bytes}
    (hb : s.queue.length ≤ s.cap)
    (hc : s.accepted = (s.calls.flatMap Call.buffers) ++ l ++ s.queue)
    (hl : left ≤ s.queue.length) (hne : l ≠ [])
    (hn : ∀ c ∈ s.calls, c.buffers ≠ []) : SInv (Sender.batchNext s left bytes l) := by
  unfold Sender.batchNext
  split
  · refine ⟨hb, ?_, by simp, by simp, ?_⟩
    · simp only [hc, State.held, List.flatMap_append, List.flatMap_cons, List.flatMap_nil, Call.buffers,
        List.append_nil]
    · intro c hm
      simp only [List.mem_append, List.mem_singleton] at hm
      rcases hm with hm | rfl
      · exact hn c hm
      · exact hne
  · refine ⟨hb, ?_, by simp, ?_, hn⟩
    · simp only [hc, State.held]
    · intro left' bytes' l' h
      cases h
      exact ⟨by omega, hl⟩

theorem SInv.sender {s s' : State} {m : Int} (h : SInv s) (hs : senderStep m s = some s') : SInv s' := by
  unfold senderStep at hs
  have hcons := h.cons
  have hone := h.one
  have hbatch := h.batch
  have hb := h.bound
  have hn := h.nonempty
  split at hs
  · rename_i hp
    simp only [State.held, hp, List.append_nil] at hcons
    split at hs
    · cases hs; exact h
    · rename_i hq
      cases hs
      exact ⟨hb, by simpa [State.held] using hcons, fun _ => by simp [hq], by simp, hn⟩
    · rename_i n h0 h1
      cases hs
      refine ⟨hb, by simpa [State.held] using hcons, by simp, ?_, hn⟩
      intro left bytes l he
      cases he
      exact ⟨Nat.pos_of_ne_zero h0, Nat.le_refl _⟩
  · rename_i hp
    simp only [State.held, hp, List.append_nil] at hcons
    split at hs
    · cases hs
    · rename_i p q hq
      cases hs
      rw [hq] at hb hcons
      simp only [List.length_cons] at hb
      refine ⟨by simp only; omega, ?_, by simp, by simp, ?_⟩
      · simp [hcons, State.held, Call.buffers]
      · intro c hm
        simp only [List.mem_append, List.mem_singleton] at hm
        rcases hm with hm | rfl
        · exact hn c hm
        · simp [Call.buffers]
  · rename_i left bytes l hp
    simp only [State.held, hp] at hcons
    obtain ⟨hl1, hl2⟩ := hbatch _ _ _ hp
    split at hs
    · cases hs
    · rename_i buf q hq
      rw [hq] at hb hcons hl2
      simp only [List.length_cons] at hb hl2
      simp only [] at hs
      split at hs
      · cases hs
        refine SInv.batchNext (by simp only; omega) ?_ (by simp only; omega) (by simp) ?_
        · simp [hcons, List.flatMap_append, sendList_buffers]
        · intro c hm
          simp only [List.mem_append] at hm
          rcases hm with hm | hm
          · exact hn c hm
          · exact sendList_ne _ c hm
      · cases hs
        refine SInv.batchNext (by simp only; omega) ?_ (by simp only; omega) (by simp) hn
        simp [hcons]

theorem SInv.add {s : State} (h : SInv s) (b : Bytes) : SInv (Sender.add s b) := by
  unfold Sender.add
  split
  · rename_i hlt
    refine ⟨by simp; omega, ?_, ?_, ?_, h.nonempty⟩
    · have := h.cons
      simp only [State.held] at this ⊢
      simp [this]
    · intro hp
      have := h.one hp
      simp
    · intro left bytes l hp
      have := h.batch left bytes l hp
      simp; omega
  · exact h

theorem SInv.reachable {s : State} (h : Reachable s) : SInv s := by
  induction h with
  | init cap => exact ⟨by simp, rfl, by simp, by simp, by simp⟩
  | step s s' _ hstep ih =>
    cases hstep with
    | add b => exact ih.add b
    | send _ m hs => exact ih.sender hs

/-- **C31** In every reachable state of every interleaving the queue is within its capacity. -/
theorem C31_queue_bounded (s : State) (h : Reachable s) : s.queue.length ≤ s.cap :=
  (SInv.reachable h).bound

/-- **C31** An add always returns in one step: it puts the buffer at the end of the queue when there is room, and
changes nothing when the queue is full. -/
theorem C31_add (s : State) (b : Bytes) :
    (s.queue.length < s.cap → (add s b).queue = s.queue ++ [b] ∧ (add s b).accepted = s.accepted ++ [b]) ∧
    (s.cap ≤ s.queue.length → add s b = s) := by
  constructor
  · intro h; simp [add, h]
  · intro h; rw [add, if_neg (by omega)]

/-- **C31** The sending goroutine is never blocked on the queue: in every reachable state, whatever the configured
maximum at that moment, it can move. -/
theorem C31_sender_never_blocks (s : State) (h : Reachable s) (maxBytes : Int) :
    ∃ s', senderStep maxBytes s = some s' := by
  have hi := SInv.reachable h
  unfold senderStep
  split
  · split <;> exact ⟨_, rfl⟩
  · rename_i hp
    have := hi.one hp
    split
    · rename_i hq; rw [hq] at this; simp at this
    · exact ⟨_, rfl⟩
  · rename_i left bytes l hp
    have := hi.batch _ _ _ hp
    split
    · rename_i hq; rw [hq] at this; simp at this; omega
    · simp only []
      split <;> exact ⟨_, rfl⟩

/-- **C31** Nothing is lost, duplicated or reordered: at every moment the accepted buffers are, in order, those handed
to the transport, then those the goroutine holds, then those still queued.  No transport call is empty. -/
theorem C31_exactly_once_in_order (s : State) (h : Reachable s) :
    s.accepted = (s.calls.flatMap Call.buffers) ++ s.held ++ s.queue ∧ ∀ c ∈ s.calls, c.buffers ≠ [] :=
  ⟨(SInv.reachable h).cons, (SInv.reachable h).nonempty⟩

/-- C31, as found: with a queue size of 0 nothing is ever sent through the queue, that is, no text announced at all (dataproxy.go:61-205); logs, profiles and counters do not go through it. -/
theorem C31_queue_size_zero (s : State) (h : Reachable s) (hc : s.cap = 0) : s.accepted = [] ∧ s.calls = [] := by
  induction h with
  | init cap => exact ⟨rfl, rfl⟩
  | step s s' hr hs ih =>
    have hq : ∀ t : State, Reachable t → t.cap = 0 → t.queue = [] := fun t ht h0 => by
      have := C31_queue_bounded t ht
      rw [h0] at this
      exact List.length_eq_zero_iff.1 (by omega)
    cases hs with
    | add b =>
      unfold Sender.add at hc ⊢
      split at hc
      · rename_i hlt
        simp only at hc
        omega
      · rename_i hlt
        rw [if_neg hlt]
        exact ih hc
    | send _ m hm =>
      unfold senderStep at hm
      have key : ∀ c0 : s.cap = 0, s' = s := by
        intro c0
        have q := hq s hr c0
        rw [q] at hm
        split at hm
        · simpa using hm.symm
        · simp at hm
        · simp at hm
      have c0 : s.cap = 0 := by
        rw [← hc]
        split at hm
        · split at hm <;> (cases hm; rfl)
        · split at hm
          · cases hm
          · cases hm; rfl
        · split at hm
          · cases hm
          · simp only at hm
            split at hm <;> (cases hm; unfold Sender.batchNext; split <;> rfl)
      rw [key c0]
      exact ih c0

/-- The work left for the goroutine. -/
def work (s : State) : Nat :=
  match s.phase with
  | .top => 2 * s.queue.length
  | .one => 2 * s.queue.length - 1
  | .batch left _ _ => 2 * (s.queue.length - left) + left

theorem batchNext_queue (s : State) (left : Nat) (bytes : Int) (l : List Bytes) :
    (batchNext s left bytes l).queue = s.queue ∧ (batchNext s left bytes l).accepted = s.accepted ∧
    work (batchNext s left bytes l) = 2 * (s.queue.length - left) + left := by
  unfold batchNext
  split
  · rename_i h; subst h; exact ⟨rfl, rfl, rfl⟩
  · exact ⟨rfl, rfl, rfl⟩

theorem sender_work {s s' : State} {m : Int} (hi : SInv s) (h : senderStep m s = some s') :
    s'.accepted = s.accepted ∧
    (work s' < work s ∨ (work s = 0 ∧ s' = s)) := by
  unfold senderStep at h
  split at h
  · rename_i hp
    split at h
    · rename_i hq
      cases h
      exact ⟨rfl, .inr ⟨by simp [work, hp, hq], rfl⟩⟩
    · rename_i hq
      cases h
      exact ⟨rfl, .inl (by simp [work, hp, hq])⟩
    · rename_i n h0 h1
      cases h
      refine ⟨rfl, .inl ?_⟩
      simp only [work, hp]
      have : s.queue.length ≠ 0 := h0
      omega
  · rename_i hp
    split at h
    · cases h
    · rename_i p q hq
      cases h
      exact ⟨rfl, .inl (by simp [work, hp, hq]; omega)⟩
  · rename_i left bytes l hp
    have hb := hi.batch _ _ _ hp
    split at h
    · cases h
    · rename_i b q hq
      rw [hq] at hb
      simp only [List.length_cons] at hb
      have hw : work s = 2 * (q.length + 1 - left) + left := by simp [work, hp, hq]
      simp only [] at h
      split at h
      · cases h
        obtain ⟨-, h2, h3⟩ := batchNext_queue { s with queue := q, calls := s.calls ++ sendList l } (left - 1)
          (b.length : Int) [b]
        refine ⟨h2, .inl ?_⟩
        rw [h3, hw]; simp only; omega
      · cases h
        obtain ⟨-, h2, h3⟩ := batchNext_queue { s with queue := q } (left - 1) (bytes + (b.length : Int)) (l ++ [b])
        refine ⟨h2, .inl ?_⟩
        rw [h3, hw]; simp only; omega

theorem drain_works (m : Int) : ∀ (n : Nat) (s : State), Reachable s → work s ≤ n →
    ∃ s', drain m n s = some s' ∧ Reachable s' ∧ s'.accepted = s.accepted ∧ work s' = 0 := by
  intro n
  induction n with
  | zero =>
    intro s hr hw
    exact ⟨s, rfl, hr, rfl, by omega⟩
  | succ n ih =>
    intro s hr hw
    obtain ⟨s1, h1⟩ := C31_sender_never_blocks s hr m
    obtain ⟨ha, hlt⟩ := sender_work (SInv.reachable hr) h1
    have hr1 : Reachable s1 := .step s s1 hr (.send s s1 m h1)
    obtain ⟨s', hd, hr', ha', hw'⟩ := ih s1 hr1 (by
      rcases hlt with h | ⟨h0, rfl⟩
      · omega
      · omega)
    exact ⟨s', by simp only [drain, h1, Option.bind_some, hd], hr', ha'.trans ha, hw'⟩

/-- **C31** Delivery: from every reachable state, letting the goroutine run alone for a bounded number of steps hands
every buffer accepted so far to the transport, exactly once and in acceptance order. -/
theorem C31_eventually_delivered (s : State) (h : Reachable s) (maxBytes : Int) :
    ∃ s', drain maxBytes (2 * s.cap + 1) s = some s' ∧ s'.calls.flatMap Call.buffers = s.accepted := by
  have hi := SInv.reachable h
  have hw : work s ≤ 2 * s.cap + 1 := by
    have hb := hi.bound
    unfold work
    split
    · omega
    · omega
    · rename_i left bytes l hp
      have := hi.batch _ _ _ hp
      omega
  obtain ⟨s', hd, hr', ha', hw'⟩ := drain_works maxBytes _ s h hw
  refine ⟨s', hd, ?_⟩
  have hi' := SInv.reachable hr'
  have hc := hi'.cons
  have hq : s'.queue = [] ∧ s'.held = [] := by
    unfold work at hw'
    split at hw'
    · rename_i hp
      refine ⟨List.length_eq_zero_iff.1 (by omega), by simp [State.held, hp]⟩
    · rename_i hp
      have := hi'.one hp
      omega
    · rename_i left bytes l hp
      have := hi'.batch _ _ _ hp
      omega
  rw [hq.1, hq.2, List.append_nil, List.append_nil] at hc
  rw [← hc, ha']

/-- While the configured maximum stays `m`: the byte counter is the size of the list being built, and every list
handed over is one buffer or totals less than `m`. -/
inductive ReachableAt (m : Int) : State → Prop
  | init (cap : Nat) : ReachableAt m { cap := cap }
  | add (s : State) (b : Bytes) : ReachableAt m s → ReachableAt m (add s b)
  | send (s s' : State) : ReachableAt m s → senderStep m s = some s' → ReachableAt m s'

def Fits (m : Int) (l : List Bytes) : Prop := l.length ≤ 1 ∨ (l.flatten.length : Int) < m

structure BInv (m : Int) (s : State) : Prop where
  calls : ∀ c ∈ s.calls, Fits m c.buffers
  list : ∀ left bytes l, s.phase = .batch left bytes l → bytes = (l.flatten.length : Int) ∧ Fits m l

theorem sendList_fits (m : Int) (l : List Bytes) (h : Fits m l) : ∀ c ∈ sendList l, Fits m c.buffers := by
  intro c hc
  match l with
  | [] => simp [sendList] at hc
  | [b] => simp [sendList] at hc; subst hc; exact h
  | a :: b :: l => simp [sendList] at hc; subst hc; exact h

theorem BInv.batchNext {m : Int} {s : State} {left : Nat} {bytes : Int} {l : List Bytes}
    (hc : ∀ c ∈ s.calls, Fits m c.buffers) (hb : bytes = (l.flatten.length : Int)) (hf : Fits m l) :
    BInv m (Sender.batchNext s left bytes l) := by
  unfold Sender.batchNext
  split
  · refine ⟨?_, by simp⟩
    intro c hm
    simp only [List.mem_append, List.mem_singleton] at hm
    rcases hm with hm | rfl
    · exact hc c hm
    · exact hf
  · refine ⟨hc, ?_⟩
    intro left' bytes' l' h
    cases h
    exact ⟨hb, hf⟩

theorem BInv.reachable {m : Int} {s : State} (h : ReachableAt m s) : BInv m s := by
  induction h with
  | init cap => exact ⟨by simp, by simp⟩
  | add s b _ ih =>
    unfold Sender.add
    split
    · exact ⟨ih.calls, ih.list⟩
    · exact ih
  | send s s' _ hs ih =>
    unfold senderStep at hs
    split at hs
    · split at hs
      · cases hs; exact ih
      · cases hs; exact ⟨ih.calls, by simp⟩
      · cases hs
        refine ⟨ih.calls, ?_⟩
        intro left bytes l h
        cases h
        exact ⟨rfl, .inl (by simp)⟩
    · split at hs
      · cases hs
      · cases hs
        refine ⟨?_, by simp⟩
        intro c hm
        simp only [List.mem_append, List.mem_singleton] at hm
        rcases hm with hm | rfl
        · exact ih.calls c hm
        · exact .inl (by simp [Call.buffers])
    · rename_i left bytes l hp
      obtain ⟨hbytes, hf⟩ := ih.list _ _ _ hp
      split at hs
      · cases hs
      · rename_i b q hq
        simp only [] at hs
        split at hs
        · cases hs
          refine BInv.batchNext ?_ (by simp) (.inl (by simp))
          intro c hm
          simp only [List.mem_append] at hm
          rcases hm with hm | hm
          · exact ih.calls c hm
          · exact sendList_fits m l hf c hm
        · rename_i hlt
          cases hs
          refine BInv.batchNext ih.calls (by simp [hbytes]) (.inr ?_)
          simp only [List.flatten_append, List.flatten_cons, List.flatten_nil, List.append_nil, List.length_append]
          omega

/-- **C31** With an unchanged configured maximum every transport call is given a single buffer, or several whose total
size is below the maximum (so that `WriteBufferList` puts them in one datagram). -/
theorem C31_calls_fit (m : Int) (s : State) (h : ReachableAt m s) :
    ∀ c ∈ s.calls, c.buffers.length ≤ 1 ∨ (c.buffers.flatten.length : Int) < m :=
  (BInv.reachable h).calls

/-- A schedule: `inl b` adds a buffer, `inr m` lets the goroutine move with maximum `m`. -/
def exec (s : State) : List (Bytes ⊕ Int) → Option State
  | [] => some s
  | .inl b :: es => exec (add s b) es
  | .inr m :: es => (senderStep m s).bind (fun s' => exec s' es)

theorem exec_reachable : ∀ (es : List (Bytes ⊕ Int)) (s s' : State), Reachable s → exec s es = some s' → Reachable s' := by
  intro es
  induction es with
  | nil => intro s s' h he; cases he; exact h
  | cons e es ih =>
    intro s s' h he
    cases e with
    | inl b => exact ih _ _ (.step _ _ h (.add s b)) he
    | inr m =>
      simp only [exec] at he
      cases hs : senderStep m s with
      | none => rw [hs] at he; cases he
      | some s1 =>
        rw [hs] at he
        exact ih _ _ (.step _ _ h (.send s s1 m hs)) he

/-- A non-trivial reachable state: four buffers are offered to a queue of three, the last one is dropped; the
goroutine hands over the first two together, then the third; a fifth one arriving meanwhile is queued. -/
example : ∃ s, Reachable s ∧ s.accepted = [[1], [2], [3, 3, 3], [5]] ∧ s.queue = [[5]] ∧
    s.calls = [.list [[1], [2]], .list [[3, 3, 3]]] := by
  refine ⟨_, exec_reachable [.inl [1], .inl [2], .inl [3, 3, 3], .inl [4], .inr 4, .inr 4, .inl [5], .inr 4, .inr 4]
    { cap := 3 } _ (.init 3) rfl, by decide, by decide, by decide⟩

end Scouter
