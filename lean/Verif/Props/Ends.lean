import Verif.Model.Ends
import Verif.Props.Services
import Verif.Proofs.Closing
/-!
# C37: goroutines ending the same service
-/
namespace Scouter
open TM Trace

/-- How many transaction logs there are for the transaction `id`. -/
def logsFor (w : World) (id : BitVec 64) : Nat := (loggedIds w).count id

namespace Trace.Enders

theorem endRest_eq (p : Nat) : endRest p = (modT p (fun t => { t with closed := true }) >>= fun _ => endFinish p) := rfl

/-- Assigning `Closed` and finishing is ending, as one call does it. -/
theorem finish_of_rest (p : Nat) (w : World) : endFinish p (modT p (fun t => { t with closed := true }) w).2 = endRest p w := by
  rw [endRest_eq, TM.bind_def]; rfl

theorem finish_closed {p : Nat} {w : World} {t : Tctx} (ht : w.tctxs[p]? = some t) (hc : t.closed = true) :
    endFinish p w = endRest p w := by
  rw [← finish_of_rest]
  congr 1
  have : w.tctxs.modify p (fun t => { t with closed := true }) = w.tctxs := by
    apply List.ext_getElem?
    intro i
    rw [List.getElem?_modify]
    by_cases hi : p = i
    · subst hi; rw [ht]; simp [← hc]
    · simp [hi]
  show w = { w with tctxs := w.tctxs.modify p (fun t => { t with closed := true }) }
  rw [this]

theorem no_xlogs {w : World} {t : Tctx} {ss : List (List Nat)} {ps : List Pack} (h : PacksFor w t ss ps) :
    xlogsOf ps = [] := by
  unfold PacksFor at h
  induction h with
  | nil => rfl
  | cons a _ ih => obtain ⟨e, rfl⟩ := a; simpa [xlogsOf] using ih

/-- What `finish` does when the service is marked ended. -/
theorem finish_run {p : Nat} {w : World} {t : Tctx} (ht : w.tctxs[p]? = some t) (hc : t.closed = true) (hb : 1 ≤ w.conf.bulk) :
    (endFinish p w).2.conf = w.conf ∧
    (∃ t', (endFinish p w).2.tctxs[p]? = some t' ∧ t'.closed = true ∧ t'.txid = t.txid) ∧
    logsFor (endFinish p w).2 t.txid ≤ logsFor w t.txid + 1 ∧
    (NoSampling w.conf.sample → logsFor (endFinish p w).2 t.txid = logsFor w t.txid + 1) := by
  rw [finish_closed ht hc]
  obtain ⟨w', ss, packs, h1, h2, h3, h4, h5, h6, h7, h8, h9, h10, h11, h12⟩ := endRest_full ht hb
  rw [h1]
  have hp : xlogsOf packs = [] := no_xlogs h11
  refine ⟨h3, ⟨afterSending ss.flatten.length (bytesOf w ss) ss.flatten (closing t), ?_, rfl, rfl⟩, ?_, ?_⟩
  · rw [h8, List.getElem?_modify, ht]; simp
  · show ((xlogsOf w'.proxy.direct).map (·.txid)).count _ ≤ _
    rw [h12, xlogsOf_append, xlogsOf_append, hp]
    split
    · simp [xlogsOf, xlogFor, logsFor, loggedIds]
    · simp [xlogsOf, logsFor, loggedIds]
  · intro hs
    show ((xlogsOf w'.proxy.direct).map (·.txid)).count _ = _
    have hk : keepsXlog (xlogFor t (decisionAt w t) (elapsedAt w t)) = true := by
      have : decisionAt w t = discardNone := findDiscard_off _ _ hs _ _ _ _
      rw [this]
      simp only [keepsXlog, xlogFor]
      have h1 : (discardNone != discardAll) = true := by decide
      have h2 : (discardNone != discardAllForce) = true := by decide
      rw [h1, h2]; rfl
    rw [h12, xlogsOf_append, xlogsOf_append, hp, if_pos hk]
    simp [xlogsOf, xlogFor, logsFor, loggedIds]

theorem run_nil (p : Nat) (s : Enders) : s.run p [] = s := rfl
theorem run_cons (p : Nat) (s : Enders) (i : Nat) (is : List Nat) : s.run p (i :: is) = (s.fire p i).run p is := rfl
theorem run_append (p : Nat) (s : Enders) (a b : List Nat) : s.run p (a ++ b) = (s.run p a).run p b := by
  simp [Enders.run]

/-- Goroutines that have not finished. -/
def left (s : Enders) : Nat := s.pcs.countP (· ≠ .done)

/-- The state of the machine: the service at `p` has transaction id `id`, the limits are positive, and a goroutine
about to do the rest has marked the service ended. -/
structure Ok (p : Nat) (id : BitVec 64) (conf : TraceConf) (s : Enders) : Prop where
  bulk : 1 ≤ conf.bulk
  conf : s.world.conf = conf
  ctx : ∃ t, s.world.tctxs[p]? = some t ∧ t.txid = id
  marked : EndPc.rest ∈ s.pcs → (s.world.tctxs[p]?.map (·.closed)) = some true

theorem left_set {pcs : List EndPc} {i : Nat} {a b : EndPc} (h : pcs[i]? = some a) :
    (pcs.set i b).countP (· ≠ .done) + (if a = .done then 0 else 1) = pcs.countP (· ≠ .done) + (if b = .done then 0 else 1) := by
  induction pcs generalizing i with
  | nil => simp at h
  | cons x xs ih =>
    cases i with
    | zero =>
      simp only [List.getElem?_cons_zero, Option.some.injEq] at h
      subst h
      simp only [List.set_cons_zero, List.countP_cons]
      cases x <;> cases b <;> simp
    | succ i =>
      simp only [List.getElem?_cons_succ] at h
      simp only [List.set_cons_succ, List.countP_cons]
      have := ih h
      omega

theorem le_one (b : EndPc) : (if b = .done then 0 else 1) ≤ 1 := by split <;> omega

theorem mem_set {pcs : List EndPc} {i : Nat} {b x : EndPc} (h : x ∈ pcs.set i b) : x = b ∨ x ∈ pcs := by
  rcases List.mem_or_eq_of_mem_set h with h | h
  · exact .inr h
  · exact .inl h

theorem mark_run {w : World} {p : Nat} {t : Tctx} (h : w.tctxs[p]? = some t) :
    (modT p (fun t => { t with closed := true }) w).2.tctxs[p]? = some { t with closed := true } := by
  show (w.tctxs.modify p _)[p]? = _
  rw [List.getElem?_modify, h]; simp

theorem Ok.fire {p : Nat} {id : BitVec 64} {conf : TraceConf} {s : Enders} (h : Ok p id conf s) (i : Nat) :
    Ok p id conf (s.fire p i) ∧ (s.fire p i).pcs.length = s.pcs.length ∧
      logsFor (s.fire p i).world id + (s.fire p i).left ≤ logsFor s.world id + s.left := by
  obtain ⟨t, ht, hid⟩ := h.ctx
  unfold Enders.fire
  split
  · rename_i hpc
    refine ⟨⟨h.bulk, h.conf, h.ctx, fun hm => ?_⟩, by simp, ?_⟩
    · refine h.marked ?_
      rcases mem_set hm with hm | hm
      · split at hm <;> cases hm
      · exact hm
    · have := left_set (b := if (s.world.tctxs[p]?.map (·.closed)) = some false then .test2 else .done) hpc
      have hle := le_one (if (s.world.tctxs[p]?.map (·.closed)) = some false then .test2 else .done)
      simp only [left]
      simp only [reduceCtorEq, if_false] at this
      omega
  · rename_i hpc
    refine ⟨⟨h.bulk, h.conf, h.ctx, fun hm => ?_⟩, by simp, ?_⟩
    · refine h.marked ?_
      rcases mem_set hm with hm | hm
      · split at hm <;> cases hm
      · exact hm
    · have := left_set (b := if (s.world.tctxs[p]?.map (·.closed)) = some false then .mark else .done) hpc
      have hle := le_one (if (s.world.tctxs[p]?.map (·.closed)) = some false then .mark else .done)
      simp only [left]
      simp only [reduceCtorEq, if_false] at this
      omega
  · rename_i hpc
    refine ⟨⟨h.bulk, h.conf, ⟨_, mark_run ht, hid⟩, fun _ => ?_⟩, by simp, ?_⟩
    · simp only; rw [mark_run ht]; rfl
    · have := left_set (b := .rest) hpc
      simp only [left]
      simp only [reduceCtorEq, if_false] at this
      have hl : logsFor (modT p (fun t => { t with closed := true }) s.world).2 id = logsFor s.world id := rfl
      omega
  · rename_i hpc
    have hc : t.closed = true := by
      have := h.marked (List.mem_of_getElem? hpc)
      rw [ht] at this
      simpa using this
    obtain ⟨h1, ⟨t', h2, h3, h4⟩, h5, -⟩ := finish_run ht hc (by rw [h.conf]; exact h.bulk)
    refine ⟨⟨h.bulk, h1.trans h.conf, ⟨t', h2, h4.trans hid⟩, fun _ => ?_⟩, by simp, ?_⟩
    · simp only; rw [h2]; simp [h3]
    · have := left_set (b := .done) hpc
      simp only [left]
      simp only [reduceCtorEq, if_false, if_true] at this
      rw [hid] at h5
      omega
  · exact ⟨h, rfl, Nat.le_refl _⟩

theorem Ok.run {p : Nat} {id : BitVec 64} {conf : TraceConf} {s : Enders} (h : Ok p id conf s) (is : List Nat) :
    Ok p id conf (s.run p is) ∧ (s.run p is).pcs.length = s.pcs.length ∧
      logsFor (s.run p is).world id + (s.run p is).left ≤ logsFor s.world id + s.left := by
  induction is generalizing s with
  | nil => exact ⟨h, rfl, Nat.le_refl _⟩
  | cons i is ih =>
    rw [run_cons]
    obtain ⟨h1, h2, h3⟩ := h.fire i
    obtain ⟨h4, h5, h6⟩ := ih h1
    exact ⟨h4, h5.trans h2, by omega⟩

theorem Ok.begin {w : World} {p n : Nat} {t : Tctx} (ht : w.tctxs[p]? = some t) (hb : 1 ≤ w.conf.bulk) :
    Ok p t.txid w.conf (Enders.begin w n) :=
  ⟨hb, rfl, ⟨t, ht, rfl⟩, fun h => by simp [Enders.begin, List.mem_replicate] at h⟩

/-- Not ended and nobody has marked it, or ended and either somebody is about to log it or it was logged. -/
structure Logged (p : Nat) (id : BitVec 64) (k : Nat) (s : Enders) : Prop where
  openCase : (s.world.tctxs[p]?.map (·.closed)) = some false → ∀ x ∈ s.pcs, x = .test1 ∨ x = .test2 ∨ x = .mark
  closedCase : (s.world.tctxs[p]?.map (·.closed)) = some true → .rest ∈ s.pcs ∨ k + 1 ≤ logsFor s.world id
  logs : k ≤ logsFor s.world id

theorem Logged.fire {p : Nat} {id : BitVec 64} {conf : TraceConf} {k : Nat} {s : Enders} (ho : Ok p id conf s)
    (h : Logged p id k s) (hs : NoSampling conf.sample) (i : Nat) : Logged p id k (s.fire p i) := by
  obtain ⟨t, ht, hid⟩ := ho.ctx
  unfold Enders.fire
  split
  · rename_i hpc
    refine ⟨fun ho x hx => ?_, fun hc => ?_, h.logs⟩
    · rcases mem_set hx with hx | hx
      · rw [if_pos ho] at hx; exact .inr (.inl hx)
      · exact h.openCase ho x hx
    · rcases h.closedCase hc with hr | hl
      · left
        obtain ⟨j, hj⟩ := List.mem_iff_getElem?.mp hr
        have hij : i ≠ j := fun e => by rw [e, hj] at hpc; cases hpc
        exact List.mem_of_getElem? (i := j) (by rw [List.getElem?_set]; simp [hij, hj])
      · exact .inr hl
  · rename_i hpc
    refine ⟨fun ho x hx => ?_, fun hc => ?_, h.logs⟩
    · rcases mem_set hx with hx | hx
      · rw [if_pos ho] at hx; exact .inr (.inr hx)
      · exact h.openCase ho x hx
    · rcases h.closedCase hc with hr | hl
      · left
        obtain ⟨j, hj⟩ := List.mem_iff_getElem?.mp hr
        have hij : i ≠ j := fun e => by rw [e, hj] at hpc; cases hpc
        exact List.mem_of_getElem? (i := j) (by rw [List.getElem?_set]; simp [hij, hj])
      · exact .inr hl
  · rename_i hpc
    refine ⟨fun ho => ?_, fun _ => .inl ?_, h.logs⟩
    · simp only at ho; rw [mark_run ht] at ho; simp at ho
    · have hi : i < s.pcs.length := (List.getElem?_eq_some_iff.mp hpc).1
      exact List.mem_of_getElem? (i := i) (by rw [List.getElem?_set]; simp [hi])
  · rename_i hpc
    have hc : t.closed = true := by
      have := ho.marked (List.mem_of_getElem? hpc)
      rw [ht] at this
      simpa using this
    obtain ⟨h1, ⟨t', h2, h3, h4⟩, -, h5⟩ := finish_run ht hc (by rw [ho.conf]; exact ho.bulk)
    have h5 := h5 (by rw [ho.conf]; exact hs)
    rw [hid] at h5
    have := h.logs
    refine ⟨fun ho => ?_, fun _ => .inr ?_, ?_⟩
    · simp only at ho; rw [h2] at ho; simp [h3] at ho
    · show k + 1 ≤ logsFor (endFinish p s.world).2 id; omega
    · show k ≤ logsFor (endFinish p s.world).2 id; omega
  · exact h

theorem Logged.run {p : Nat} {id : BitVec 64} {conf : TraceConf} {k : Nat} {s : Enders} (ho : Ok p id conf s)
    (h : Logged p id k s) (hs : NoSampling conf.sample) (is : List Nat) : Logged p id k (s.run p is) := by
  induction is generalizing s with
  | nil => exact h
  | cons i is ih => rw [run_cons]; exact ih (ho.fire i).1 (Logged.fire ho h hs i)

end Trace.Enders

open Trace.Enders

/-- **C37**, the bound: however `n` goroutines ending the same service are interleaved, at most `n` logs are sent for it. -/
theorem C37_at_most_one_log_per_ender (w : World) (p n : Nat) (t : Tctx) (ht : w.tctxs[p]? = some t) (hb : 1 ≤ w.conf.bulk)
    (schedule : List Nat) :
    logsFor ((Enders.begin w n).run p schedule).world t.txid ≤ logsFor w t.txid + n := by
  have h := ((Ok.begin (n := n) ht hb).run schedule).2.2
  have : (Enders.begin w n).left ≤ n := by
    unfold left
    refine Nat.le_trans List.countP_le_length ?_
    simp [Enders.begin]
  have hw : (Enders.begin w n).world = w := rfl
  rw [hw] at h
  omega

/-- **C37**, no log is lost: when they have all finished, the running service was logged at least once. -/
theorem C37_at_least_one_log (w : World) (p n : Nat) (t : Tctx) (ht : w.tctxs[p]? = some t) (hb : 1 ≤ w.conf.bulk)
    (hopen : t.closed = false) (hs : NoSampling w.conf.sample) (hn : 0 < n) (schedule : List Nat)
    (hdone : ∀ x ∈ ((Enders.begin w n).run p schedule).pcs, x = .done) :
    logsFor w t.txid + 1 ≤ logsFor ((Enders.begin w n).run p schedule).world t.txid := by
  have ho := Ok.begin (n := n) ht hb
  have h0 : Trace.Enders.Logged p t.txid (logsFor w t.txid) (Enders.begin w n) := by
    refine ⟨fun _ x hx => .inl (List.eq_of_mem_replicate hx), fun hc => ?_, Nat.le_refl _⟩
    have hc : (w.tctxs[p]?.map (·.closed)) = some true := hc
    rw [ht] at hc; simp [hopen] at hc
  have h := Trace.Enders.Logged.run ho h0 hs schedule
  obtain ⟨hok, hlen, -⟩ := ho.run schedule
  obtain ⟨t', ht', -⟩ := hok.ctx
  have hlen : ((Enders.begin w n).run p schedule).pcs.length = n := by rw [hlen]; simp [Enders.begin]
  cases hc : t'.closed with
  | false =>
    obtain ⟨x, hx⟩ : ∃ x, x ∈ ((Enders.begin w n).run p schedule).pcs := List.exists_mem_of_length_pos (by omega)
    have h1 := h.openCase (by rw [ht']; simp [hc]) x hx
    rw [hdone x hx] at h1
    simp at h1
  | true =>
    rcases h.closedCase (by rw [ht']; simp [hc]) with hr | hl
    · have := hdone _ hr; cases this
    · exact hl

namespace Trace.Enders

/-- All goroutines make one step, in order. -/
theorem phase {p n : Nat} {a b : EndPc} (I : Nat → World → Prop)
    (step : ∀ k w pcs, I k w → k < n → pcs[k]? = some a → I (k + 1) (Enders.fire p ⟨w, pcs⟩ k).world ∧
      (Enders.fire p ⟨w, pcs⟩ k).pcs = pcs.set k b) {w : World} (h0 : I 0 w) :
    I n ((Enders.mk w (List.replicate n a)).run p (List.range n)).world ∧
      ((Enders.mk w (List.replicate n a)).run p (List.range n)).pcs = List.replicate n b := by
  have key : ∀ k, k ≤ n → I k ((Enders.mk w (List.replicate n a)).run p (List.range k)).world ∧
      ((Enders.mk w (List.replicate n a)).run p (List.range k)).pcs = List.replicate k b ++ List.replicate (n - k) a := by
    intro k
    induction k with
    | zero => intro _; exact ⟨h0, by simp [Enders.run]⟩
    | succ k ih =>
      intro hk
      obtain ⟨h1, h2⟩ := ih (by omega)
      rw [List.range_succ, run_append]
      set s := (Enders.mk w (List.replicate n a)).run p (List.range k) with hs
      have hget : s.pcs[k]? = some a := by
        rw [h2, List.getElem?_append_right (by simp)]
        rw [List.getElem?_replicate, if_pos (by simp; omega)]
      obtain ⟨h3, h4⟩ := step k s.world s.pcs h1 (by omega) hget
      refine ⟨h3, ?_⟩
      show (s.fire p k).pcs = _
      rw [show s.fire p k = Enders.fire p ⟨s.world, s.pcs⟩ k from rfl, h4, h2]
      apply List.ext_getElem?
      intro j
      simp only [List.getElem?_set, List.length_append, List.length_replicate, List.getElem?_append, List.getElem?_replicate]
      by_cases hj : k = j
      · subst hj; simp; omega
      · by_cases h5 : j < k
        · have : j < k + 1 := by omega
          simp [hj, h5, this]
        · have : ¬ j < k + 1 := by omega
          have e : (j - k < n - k) ↔ (j - (k + 1) < n - (k + 1)) := by omega
          simp [hj, h5, this, e]
  have := key n (Nat.le_refl n)
  simpa using this

end Trace.Enders

/-- **C37 is false of the code**: for every number of goroutines ending a running service, some interleaving sends
that many transaction logs for it. -/
theorem C37_duplicates_are_possible (w : World) (p n : Nat) (t : Tctx) (ht : w.tctxs[p]? = some t) (hb : 1 ≤ w.conf.bulk)
    (hopen : t.closed = false) (hs : NoSampling w.conf.sample) :
    ∃ schedule, (∀ x ∈ ((Enders.begin w n).run p schedule).pcs, x = .done) ∧
      logsFor ((Enders.begin w n).run p schedule).world t.txid = logsFor w t.txid + n := by
  have hcl : (w.tctxs[p]?.map (·.closed)) = some false := by rw [ht]; simp [hopen]
  refine ⟨List.range n ++ (List.range n ++ (List.range n ++ List.range n)), ?_⟩
  rw [Trace.Enders.run_append, Trace.Enders.run_append, Trace.Enders.run_append]
  obtain ⟨a1, a2⟩ := phase (p := p) (n := n) (a := .test1) (b := .test2) (fun _ v => v = w)
    (by
      intro k v pcs hv hk hget
      subst hv
      simp only [Enders.fire, hget]
      rw [if_pos hcl]
      exact ⟨trivial, rfl⟩) (w := w) rfl
  have e1 : (Enders.begin w n).run p (List.range n) = ⟨w, List.replicate n .test2⟩ := by
    rw [← a2]
    have := a1
    unfold Enders.begin
    generalize (Enders.mk w (List.replicate n .test1)).run p (List.range n) = s at *
    cases s; simp_all
  rw [e1]
  obtain ⟨b1, b2⟩ := phase (p := p) (n := n) (a := .test2) (b := .mark) (fun _ v => v = w)
    (by
      intro k v pcs hv hk hget
      subst hv
      simp only [Enders.fire, hget]
      rw [if_pos hcl]
      exact ⟨trivial, rfl⟩) (w := w) rfl
  have e2 : (Enders.mk w (List.replicate n .test2)).run p (List.range n) = ⟨w, List.replicate n .mark⟩ := by
    rw [← b2]
    have := b1
    generalize (Enders.mk w (List.replicate n .test2)).run p (List.range n) = s at *
    cases s; simp_all
  rw [e2]
  obtain ⟨c1, c2⟩ := phase (p := p) (n := n) (a := .mark) (b := .rest)
    (fun k v => v.conf = w.conf ∧ logsFor v t.txid = logsFor w t.txid ∧ ∃ t', v.tctxs[p]? = some t' ∧ t'.txid = t.txid ∧ (0 < k → t'.closed = true))
    (by
      intro k v pcs hv hk hget
      obtain ⟨hv1, hv2, t', hv3, hv4, -⟩ := hv
      simp only [Enders.fire, hget]
      exact ⟨⟨hv1, hv2, _, mark_run hv3, hv4, fun _ => rfl⟩, trivial⟩) (w := w) ⟨rfl, rfl, t, ht, rfl, fun h => absurd h (by omega)⟩
  generalize (Enders.mk w (List.replicate n .mark)).run p (List.range n) = s at *
  obtain ⟨v, pcs⟩ := s
  simp only at c1 c2
  subst c2
  obtain ⟨c3, c4, t', c5, c6, c7⟩ := c1
  obtain ⟨d1, d2⟩ := phase (p := p) (n := n) (a := .rest) (b := .done)
    (fun k u => u.conf = w.conf ∧ logsFor u t.txid = logsFor w t.txid + k ∧ ∃ t', u.tctxs[p]? = some t' ∧ t'.txid = t.txid ∧ (0 < n → t'.closed = true))
    (by
      intro k u pcs hu hk hget
      obtain ⟨hu1, hu2, t2, hu3, hu4, hu5⟩ := hu
      obtain ⟨f1, ⟨t3, f2, f3, f4⟩, -, f5⟩ := finish_run hu3 (hu5 (by omega)) (by rw [hu1]; exact hb)
      have f5 := f5 (by rw [hu1]; exact hs)
      rw [hu4] at f5
      simp only [Enders.fire, hget]
      refine ⟨⟨f1.trans hu1, ?_, t3, f2, f4.trans hu4, fun _ => f3⟩, trivial⟩
      rw [f5, hu2]; omega) (w := v) ⟨c3, c4, t', c5, c6, c7⟩
  refine ⟨fun x hx => ?_, d1.2.1⟩
  rw [d2] at hx
  exact List.eq_of_mem_replicate hx

namespace Trace.Enders

/-- A goroutine running alone does exactly what the call does. -/
theorem fire_alone (p i : Nat) (w : World) (pcs : List EndPc) (hp : p < w.tctxs.length) (hi : pcs[i]? = some .test1) :
    (Enders.mk w pcs).run p [i, i, i, i] = ⟨(endAnyService (.traced p) w).2, pcs.set i .done⟩ := by
  have hlt : i < pcs.length := (List.getElem?_eq_some_iff.mp hi).1
  have ht := List.getElem?_eq_getElem hp
  have htr : traceOf w (.traced p) = some p := by simp [traceOf, hp]
  cases hc : w.tctxs[p].closed with
  | true =>
    have e : endAnyService (.traced p) w = (.ok (), w) := by
      unfold endAnyService
      rw [withTrace_run htr, TM.bind_ok (getT_run ht), if_pos hc]; rfl
    rw [e]
    have hcl : ¬ (w.tctxs[p]?.map (·.closed)) = some false := by rw [ht]; simp [hc]
    simp only [Enders.run, List.foldl_cons, List.foldl_nil]
    have h1 : Enders.fire p ⟨w, pcs⟩ i = ⟨w, pcs.set i .done⟩ := by
      simp only [Enders.fire, hi]; rw [if_neg hcl]
    have h2 : Enders.fire p ⟨w, pcs.set i .done⟩ i = ⟨w, pcs.set i .done⟩ := by
      simp [Enders.fire, hlt]
    rw [h1, h2, h2, h2]
  | false =>
    have hcl : (w.tctxs[p]?.map (·.closed)) = some false := by rw [ht]; simp [hc]
    have e : endAnyService (.traced p) w = endRest p w := by
      unfold endAnyService
      rw [withTrace_run htr, TM.bind_ok (getT_run ht), if_neg (by simp [hc])]
      unfold endTctx
      rw [TM.bind_ok (getT_run ht), if_neg (by simp [hc])]
    rw [e, ← finish_of_rest]
    simp only [Enders.run, List.foldl_cons, List.foldl_nil]
    have h1 : Enders.fire p ⟨w, pcs⟩ i = ⟨w, pcs.set i .test2⟩ := by
      simp only [Enders.fire, hi]; rw [if_pos hcl]
    have h2 : Enders.fire p ⟨w, pcs.set i .test2⟩ i = ⟨w, pcs.set i .mark⟩ := by
      simp only [Enders.fire, List.getElem?_set, hlt, if_true, List.set_set]; rw [if_pos hcl]
    have h3 : Enders.fire p ⟨w, pcs.set i .mark⟩ i = ⟨(modT p (fun t => { t with closed := true }) w).2, pcs.set i .rest⟩ := by
      simp only [Enders.fire, List.getElem?_set, hlt, if_true, List.set_set]
    have h4 : Enders.fire p ⟨(modT p (fun t => { t with closed := true }) w).2, pcs.set i .rest⟩ i =
        ⟨(endFinish p (modT p (fun t => { t with closed := true }) w).2).2, pcs.set i .done⟩ := by
      simp only [Enders.fire, List.getElem?_set, hlt, if_true, List.set_set]
    rw [h1, h2, h3, h4]

/-- One goroutine after the other. -/
def oneByOne (is : List Nat) : List Nat := is.flatMap fun i => [i, i, i, i]

theorem serial_closed {p : Nat} (is : List Nat) : ∀ (w : World) (pcs : List EndPc),
    (w.tctxs[p]?.map (·.closed)) = some true → (∀ x ∈ pcs, x = .test1 ∨ x = .done) →
    ((Enders.mk w pcs).run p (oneByOne is)).world = w := by
  have one : ∀ (w : World) (pcs : List EndPc) (i : Nat), (w.tctxs[p]?.map (·.closed)) = some true → (∀ x ∈ pcs, x = .test1 ∨ x = .done) →
      (Enders.fire p ⟨w, pcs⟩ i).world = w ∧ ∀ x ∈ (Enders.fire p ⟨w, pcs⟩ i).pcs, x = .test1 ∨ x = .done := by
    intro w pcs i hc hp
    cases hi : pcs[i]? with
    | none => simp only [Enders.fire, hi]; exact ⟨trivial, hp⟩
    | some a =>
      rcases hp a (List.mem_of_getElem? hi) with rfl | rfl
      · have hcl : ¬ (w.tctxs[p]?.map (·.closed)) = some false := by rw [hc]; simp
        simp only [Enders.fire, hi]
        refine ⟨trivial, fun x hx => ?_⟩
        rw [if_neg hcl] at hx
        rcases mem_set hx with hx | hx
        · exact .inr hx
        · exact hp x hx
      · simp only [Enders.fire, hi]; exact ⟨trivial, hp⟩
  have many : ∀ (js : List Nat) (w : World) (pcs : List EndPc), (w.tctxs[p]?.map (·.closed)) = some true →
      (∀ x ∈ pcs, x = .test1 ∨ x = .done) → ((Enders.mk w pcs).run p js).world = w := by
    intro js
    induction js with
    | nil => intro w pcs _ _; rfl
    | cons j js ih =>
      intro w pcs hc hp
      rw [run_cons]
      obtain ⟨h1, h2⟩ := one w pcs j hc hp
      generalize Enders.fire p ⟨w, pcs⟩ j = s at *
      obtain ⟨v, qs⟩ := s
      simp only at h1 h2
      subst h1
      exact ih v qs hc h2
  exact fun w pcs hc hp => many _ w pcs hc hp

end Trace.Enders

/-- **C37**, serialised ends: when the goroutines run one after the other, in any order and with any repetitions,
exactly one log is sent for the running service. -/
theorem C37_serialised_ends_log_once (w : World) (p n : Nat) (t : Tctx) (ht : w.tctxs[p]? = some t) (hb : 1 ≤ w.conf.bulk)
    (hopen : t.closed = false) (hs : NoSampling w.conf.sample) (i : Nat) (is : List Nat) (hi : i < n) :
    logsFor ((Enders.begin w n).run p (oneByOne (i :: is))).world t.txid = logsFor w t.txid + 1 := by
  have hp : p < w.tctxs.length := (List.getElem?_eq_some_iff.mp ht).1
  have hcut : oneByOne (i :: is) = [i, i, i, i] ++ oneByOne is := rfl
  have hget : (List.replicate n EndPc.test1)[i]? = some .test1 := by rw [List.getElem?_replicate, if_pos hi]
  rw [hcut, Trace.Enders.run_append]
  unfold Enders.begin
  rw [fire_alone p i w _ hp hget]
  have htr : traceOf w (.traced p) = some p := by simp [traceOf, hp]
  have e : endAnyService (.traced p) w = endRest p w := by
    unfold endAnyService
    rw [withTrace_run htr, TM.bind_ok (getT_run ht), if_neg (by simp [hopen])]
    unfold endTctx
    rw [TM.bind_ok (getT_run ht), if_neg (by simp [hopen])]
  rw [e, ← finish_of_rest]
  have hm := mark_run ht
  obtain ⟨f1, ⟨t', f2, f3, f4⟩, -, f5⟩ := finish_run hm rfl hb
  rw [serial_closed is _ _ (by rw [f2]; simp [f3])]
  · exact f5 hs
  · intro x hx
    rcases mem_set hx with hx | hx
    · exact .inr hx
    · exact .inl (List.eq_of_mem_replicate hx)

/-! Two goroutines ending the running service of `Demo.world` can log it twice. -/
example : (Demo.world.tctxs[1]?.map (·.closed)) = some false := by decide +kernel
example : logsFor ((Enders.begin Demo.world 2).run 1 [0, 1, 0, 1, 0, 1, 0, 1]).world 4 = 2 ∧
    (Demo.world.tctxs[1]?.map (·.txid)) = some 4 ∧ logsFor Demo.world 4 = 0 := by decide +kernel
example : logsFor ((Enders.begin Demo.world 2).run 1 (oneByOne [1, 0, 1])).world 4 = 1 := by decide +kernel

end Scouter
