import Verif.Spec.Stream
import Verif.Proofs.Safe
import Verif.Proofs.Hush
import Verif.Proofs.Frame
import Verif.Proofs.Wire
import Mathlib.Data.List.Nodup
/-!
# The profile bytes sent for a service are those of the steps sent
-/
namespace Scouter
open TM Trace

/-- What the accounting looks at in a context. -/
def strip (t : Tctx) : BitVec 64 × List Nat × List Nat × List Nat := (t.txid, t.sentSteps, t.col.kept, t.recorded)

/-- Nothing of the accounting changed, steps were only added. -/
structure StCalm (w w' : World) : Prop where
  env : w'.env = w.env
  tick : w.tick ≤ w'.tick
  core : w'.tctxs.map strip = w.tctxs.map strip
  packs : profilesOf w'.proxy.direct = profilesOf w.proxy.direct
  steps : w.steps <+: w'.steps

theorem StCalm.isPre : IsPre StCalm where
  refl w := ⟨rfl, Nat.le_refl _, rfl, rfl, List.prefix_refl _⟩
  trans h h' := ⟨h'.env.trans h.env, Nat.le_trans h.tick h'.tick, h'.core.trans h.core, h'.packs.trans h.packs, h.steps.trans h'.steps⟩

/-- A step is part of a profile. -/
def RecStep (w : World) (i : Nat) : Prop := ∃ t ∈ w.tctxs, i ∈ t.recorded

/-- The accounting; `K` says which steps were recorded at some time, and how they looked. -/
structure Stream (K : Nat → Option Step) (w : World) : Prop where
  ids : ∃ ks : List Nat, ks.Pairwise (· < ·) ∧ (∀ k ∈ ks, k < w.tick) ∧ w.tctxs.map (·.txid) = ks.map w.env.id
  known : ∀ pk ∈ profilesOf w.proxy.direct, ∃ t ∈ w.tctxs, t.txid = pk.txid
  ptrs : ∀ t ∈ w.tctxs, ∀ i ∈ t.sentSteps ++ t.col.kept, i ∈ t.recorded
  inside : ∀ i, RecStep w i → i < w.steps.length
  fixed : ∀ i s, K i = some s → w.steps[i]? = some s ∧ RecStep w i
  stream : ∀ t ∈ w.tctxs, profileStream w t.txid = stepsToBytes (t.sentSteps.map (w.steps[·]?))

theorem core_mem {w w' : World} (h : w'.tctxs.map strip = w.tctxs.map strip) {t' : Tctx} (ht : t' ∈ w'.tctxs) :
    ∃ t ∈ w.tctxs, strip t = strip t' := by
  have : strip t' ∈ w.tctxs.map strip := h ▸ List.mem_map_of_mem ht
  exact List.mem_map.mp this

theorem rec_core {w w' : World} (h : w'.tctxs.map strip = w.tctxs.map strip) {i : Nat} (hs : RecStep w' i) : RecStep w i := by
  obtain ⟨t', h1, h2⟩ := hs
  obtain ⟨t, h3, h4⟩ := core_mem h h1
  simp only [strip, Prod.mk.injEq] at h4
  exact ⟨t, h3, by rw [h4.2.2.2]; exact h2⟩

theorem Stream.keep {w w' : World} (s : Stream K w) (he : w'.env = w.env) (ht : w.tick ≤ w'.tick)
    (hc : w'.tctxs.map strip = w.tctxs.map strip) (hd : profilesOf w'.proxy.direct = profilesOf w.proxy.direct)
    (hs : ∀ i, RecStep w i → w'.steps[i]? = w.steps[i]?) (hl : w.steps.length ≤ w'.steps.length) : Stream K w' := by
  have hids : w'.tctxs.map (·.txid) = w.tctxs.map (·.txid) := by
    have := congrArg (List.map (fun c : BitVec 64 × List Nat × List Nat × List Nat => c.1)) hc
    simpa [List.map_map, Function.comp_def, strip] using this
  constructor
  · obtain ⟨ks, h1, h2, h3⟩ := s.ids
    exact ⟨ks, h1, fun k hk => Nat.lt_of_lt_of_le (h2 k hk) ht, by rw [hids, he]; exact h3⟩
  · intro pk hpk
    rw [hd] at hpk
    obtain ⟨t, h1, h2⟩ := s.known pk hpk
    have : t.txid ∈ w'.tctxs.map (·.txid) := hids ▸ List.mem_map_of_mem h1
    obtain ⟨t', h3, h4⟩ := List.mem_map.mp this
    exact ⟨t', h3, h4.trans h2⟩
  · intro t' ht' i hi
    obtain ⟨t, h1, h2⟩ := core_mem hc ht'
    simp only [strip, Prod.mk.injEq] at h2
    rw [← h2.2.1, ← h2.2.2.1] at hi
    rw [← h2.2.2.2]
    exact s.ptrs t h1 i hi
  · intro i hi
    exact Nat.lt_of_lt_of_le (s.inside i (rec_core hc hi)) hl
  · intro i x hx
    obtain ⟨h1, h2⟩ := s.fixed i x hx
    exact ⟨(hs i h2).trans h1, rec_core hc.symm h2⟩
  · intro t' ht'
    obtain ⟨t, h1, h2⟩ := core_mem hc ht'
    simp only [strip, Prod.mk.injEq] at h2
    have := s.stream t h1
    unfold profileStream at this ⊢
    rw [hd, ← h2.1, this, ← h2.2.1]
    congr 1
    refine List.map_congr_left fun i hi => ?_
    exact (hs i ⟨t, h1, s.ptrs t h1 i (List.mem_append_left _ hi)⟩).symm

theorem StCalm.stream {w w' : World} (c : StCalm w w') (s : Stream K w) : Stream K w' :=
  s.keep c.env c.tick c.core c.packs (fun i hi => by
    have hlt := s.inside i hi
    obtain ⟨r, hr⟩ := c.steps
    rw [← hr, List.getElem?_append_left hlt]) c.steps.length_le

/-- The accounting as long as at most `N` readings were taken. -/
def Flow (N : Nat) (K : Nat → Option Step) (w : World) : Prop := DistinctIds w.env N ∧ (w.tick ≤ N → Stream K w)

/-- The accounting is kept; the clock runs on. -/
structure Flows (N : Nat) (K : Nat → Option Step) (w w' : World) : Prop where
  tick : w.tick ≤ w'.tick
  flow : Flow N K w → Flow N K w'

theorem Flows.isPre (N : Nat) (K : Nat → Option Step) : IsPre (Flows N K) where
  refl w := ⟨Nat.le_refl _, id⟩
  trans h h' := ⟨Nat.le_trans h.tick h'.tick, h'.flow ∘ h.flow⟩

theorem StCalm.flows {N : Nat} {w w' : World} (c : StCalm w w') : Flows N K w w' :=
  ⟨c.tick, fun h => ⟨by rw [c.env]; exact h.1, fun ht => c.stream (h.2 (Nat.le_trans c.tick ht))⟩⟩

theorem Stream.nodup {w : World} (s : Stream K w) {N : Nat} (h : DistinctIds w.env N) (ht : w.tick ≤ N) :
    (w.tctxs.map (·.txid)).Nodup := by
  obtain ⟨ks, h1, h2, h3⟩ := s.ids
  rw [h3]
  refine (List.pairwise_map).mpr ?_
  refine h1.imp_of_mem fun {a b} ha hb hab he => ?_
  have := h a b (Nat.lt_of_lt_of_le (h2 a ha) ht) (Nat.lt_of_lt_of_le (h2 b hb) ht) he
  omega

theorem Stream.unique {w : World} (s : Stream K w) {N : Nat} (h : DistinctIds w.env N) (ht : w.tick ≤ N) {p q : Nat} {t u : Tctx}
    (hp : w.tctxs[p]? = some t) (hq : w.tctxs[q]? = some u) (he : t.txid = u.txid) : p = q := by
  have hn := s.nodup h ht
  have h1 : (w.tctxs.map (·.txid))[p]? = some t.txid := by simp [hp]
  have h2 : (w.tctxs.map (·.txid))[q]? = some t.txid := by simp [hq, he]
  obtain ⟨l1, e1⟩ := List.getElem?_eq_some_iff.mp h1
  obtain ⟨l2, e2⟩ := List.getElem?_eq_some_iff.mp h2
  exact (List.Nodup.getElem_inj_iff hn).mp (e1.trans e2.symm)

/-! ## Pieces of code -/

section
variable {N : Nat} {K : Nat → Option Step} {α β : Type}

abbrev FE (N : Nat) (K : Nat → Option Step) {α : Type} (m : TM α) : Prop := Ev (Flows N K) m

theorem st_bind {m : TM α} {f : α → TM β} (h : FE N K m) (hf : ∀ a, FE N K (f a)) : FE N K (m >>= f) := Ev.bind (Flows.isPre N K) h hf
theorem st_pure (a : α) : FE N K (pure a : TM α) := Ev.pure (Flows.isPre N K) a
theorem st_panic : FE N K (TM.panic : TM α) := Ev.panic (Flows.isPre N K)
theorem st_get : FE N K TM.get := Ev.get (Flows.isPre N K)
theorem st_ite {c : Prop} [Decidable c] {m n : TM α} (hm : FE N K m) (hn : FE N K n) : FE N K (if c then m else n) := Ev.ite hm hn
theorem st_calm {m : TM α} (h : Ev StCalm m) : FE N K m := fun w => (h w).flows

theorem stc_reading (f : Oracle → Nat → α) : Ev StCalm (TM.reading f) := fun w =>
  ⟨rfl, Nat.le_succ _, rfl, rfl, List.prefix_refl _⟩
theorem st_reading (f : Oracle → Nat → α) : FE N K (TM.reading f) := st_calm (stc_reading f)
theorem st_getT (p : Nat) : FE N K (getT p) := by
  intro w; unfold getT; split <;> exact (Flows.isPre N K).refl w
theorem st_getStep (p : Nat) : FE N K (getStep p) := by
  intro w; unfold getStep; split <;> exact (Flows.isPre N K).refl w
theorem map_modify_same {A B : Type} (l : List A) (p : Nat) (f : A → A) (g : A → B) (h : ∀ a, g (f a) = g a) :
    (l.modify p f).map g = l.map g := by
  apply List.ext_getElem?
  intro i
  rw [List.getElem?_map, List.getElem?_map, map_getElem?_modify l p f g h i]
theorem stc_modT {p : Nat} {f : Tctx → Tctx} (h : ∀ t, strip (f t) = strip t) : Ev StCalm (modT p f) := fun w =>
  ⟨rfl, Nat.le_refl _, map_modify_same _ _ _ _ h, rfl, List.prefix_refl _⟩
theorem st_modT {p : Nat} {f : Tctx → Tctx} (h : ∀ t, strip (f t) = strip t) : FE N K (modT p f) := st_calm (stc_modT h)
theorem stc_newStep (s : Step) : Ev StCalm (newStep s) := fun w =>
  ⟨rfl, Nat.le_refl _, rfl, rfl, List.prefix_append _ _⟩
theorem st_sendText (k : TextKind) (n : Bytes) : FE N K (Trace.sendText k n) := st_calm fun w => by
  obtain ⟨w', h1, h2, -⟩ := sendText_run k n w
  rw [h1]
  exact ⟨h2.env, by rw [h2.tick], by rw [h2.tctxs], by rw [h2.direct], by rw [h2.steps]; exact List.prefix_refl _⟩
theorem profilesOf_append' (a b : List Pack) : profilesOf (a ++ b) = profilesOf a ++ profilesOf b := by simp [profilesOf]
theorem st_sendDirect {p : Pack} (h : profilesOf [p] = []) : FE N K (sendDirect p) := st_calm fun w =>
  ⟨rfl, Nat.le_refl _, rfl, by
    show profilesOf (w.proxy.direct ++ [p]) = _
    rw [profilesOf_append', h, List.append_nil], List.prefix_refl _⟩
theorem st_meter (e : Int) (b : Bool) : FE N K (meter e b) := st_calm fun w => ⟨rfl, Nat.le_refl _, rfl, rfl, List.prefix_refl _⟩
theorem st_millisToNow (s : Int) : FE N K (millisToNow s) := st_bind (st_reading _) fun _ => st_pure _
theorem st_register (p : Nat) : FE N K (register p) :=
  st_bind (st_getT p) fun _ => st_calm fun w => ⟨rfl, Nat.le_refl _, rfl, rfl, List.prefix_refl _⟩
theorem st_unregister (p : Nat) : FE N K (unregister p) :=
  st_bind (st_getT p) fun _ => st_calm fun w => ⟨rfl, Nat.le_refl _, rfl, rfl, List.prefix_refl _⟩
theorem st_sendAlert (l : BitVec 8) (t m : Bytes) : FE N K (sendAlert l t m) := by
  unfold sendAlert
  exact st_ite (st_pure _) (st_bind st_get fun _ => st_sendDirect rfl)
theorem st_recovered (d : α) {m : TM α} (h : FE N K m) : FE N K (recovered d m) := by
  intro w
  unfold recovered
  have h := h w
  split
  · rename_i heq; rw [heq] at h; exact h
  · rename_i w' heq; rw [heq] at h
    exact (Flows.isPre N K).trans h (st_bind (st_reading _) (fun _ => st_bind (st_sendAlert _ _ _) fun _ => st_pure _) w')
theorem st_getSampler : FE N K getSampler := by
  intro w
  unfold getSampler
  rw [TM.get_bind]
  cases h : w.sampler with
  | some s => exact (Flows.isPre N K).refl w
  | none => exact StCalm.flows ⟨rfl, Nat.le_refl _, rfl, rfl, List.prefix_refl _⟩
theorem st_withTrace (c : Ctx) (d : α) (f : Nat → TM α) (h : ∀ p, FE N K (f p)) : FE N K (withTrace c d f) := by
  unfold withTrace
  refine st_bind st_get fun w => ?_
  split
  · exact h _
  · exact st_pure _

/-! ## Sending -/

theorem stepsToBytes_append (a b : List (Option Step)) : stepsToBytes (a ++ b) = stepsToBytes a ++ stepsToBytes b := by
  rw [Out.stepsToBytes_eq, Out.stepsToBytes_eq, Out.stepsToBytes_eq]
  simp

/-- Steps that can be sent: they exist and are recorded. -/
def Sendable (p : Nat) (w : World) (ptrs : List Nat) : Prop := ∀ i ∈ ptrs, i < w.steps.length ∧ ∀ t, w.tctxs[p]? = some t → i ∈ t.recorded

theorem sendProfile0_flow (p : Nat) (ptrs : List Nat) (w : World) (hs : Sendable p w ptrs) (h : Flow N K w) :
    Flow N K (sendProfile0 p ptrs w).2 ∧ w.tick ≤ (sendProfile0 p ptrs w).2.tick ∧
      (sendProfile0 p ptrs w).2.steps = w.steps ∧ ∀ (i : Nat) (t : Tctx), (sendProfile0 p ptrs w).2.tctxs[i]? = some t → ∃ t0, w.tctxs[i]? = some t0 ∧
        t.recorded = t0.recorded ∧ t.col = t0.col := by
  by_cases he : ptrs = []
  · have e : sendProfile0 p ptrs w = (.ok (), w) := by unfold sendProfile0; rw [if_pos he]; rfl
    rw [e]
    exact ⟨h, Nat.le_refl _, rfl, fun i t ht => ⟨t, ht, rfl, rfl⟩⟩
  cases ht : w.tctxs[p]? with
  | none =>
    have e : sendProfile0 p ptrs w = (.panic, w) := by
      have : getT p w = (.panic, w) := by simp [getT, ht]
      unfold sendProfile0
      rw [if_neg he]
      show TM.bind _ _ _ = _
      unfold TM.bind
      rw [this]
    rw [e]
    exact ⟨h, Nat.le_refl _, rfl, fun i t ht => ⟨t, ht, rfl, rfl⟩⟩
  | some t =>
    have hfin : sendProfile0 p ptrs w = (.ok (),
      { w with
        tick := w.tick + 1
        tctxs := w.tctxs.modify p (fun t => { t with
          profileCount := t.profileCount + ptrs.length
          profileSize := t.profileSize + (stepsToBytes (ptrs.map (fun i => w.steps[i]?))).length
          sentSteps := t.sentSteps ++ ptrs })
        proxy := { w.proxy with direct := w.proxy.direct ++ [.profile
          { time := 0, objHash := w.conf.objHash, service := t.serviceHash, txid := t.txid,
            elapsed := millis t.startTime (w.env.clock w.tick), profile := stepsToBytes (ptrs.map (fun i => w.steps[i]?)) }] } }) := by
      unfold sendProfile0
      rw [if_neg he, TM.bind_ok (getT_run ht), TM.get_bind]
      rfl
    rw [hfin]
    generalize hpr : stepsToBytes (ptrs.map (fun i => w.steps[i]?)) = profile
    refine ⟨⟨h.1, fun htk => ?_⟩, Nat.le_succ _, rfl, ?_⟩
    · have htk' : w.tick ≤ N := by
        have : w.tick + 1 ≤ N := htk
        omega
      have s := h.2 htk'
      have hmem : ∀ x ∈ w.tctxs.modify p (fun t => { t with
          profileCount := t.profileCount + ptrs.length
          profileSize := t.profileSize + profile.length
          sentSteps := t.sentSteps ++ ptrs }), (∃ i, i ≠ p ∧ w.tctxs[i]? = some x) ∨ x = { t with
          profileCount := t.profileCount + ptrs.length
          profileSize := t.profileSize + profile.length
          sentSteps := t.sentSteps ++ ptrs } := by
        intro x hx
        obtain ⟨i, hi⟩ := List.mem_iff_getElem?.mp hx
        rw [List.getElem?_modify] at hi
        by_cases hip : p = i
        · subst hip
          rw [ht] at hi
          simp only [if_true] at hi
          exact .inr (Option.some.inj hi).symm
        · simp [hip] at hi
          exact .inl ⟨i, fun e => hip e.symm, hi⟩
      constructor
      · obtain ⟨ks, h1, h2, h3⟩ := s.ids
        refine ⟨ks, h1, fun k hk => Nat.lt_succ_of_lt (h2 k hk), ?_⟩
        show (w.tctxs.modify p _).map _ = _
        rw [map_modify_same]
        · exact h3
        · intro a; rfl
      · intro pk hpk
        have hpk : pk ∈ profilesOf (w.proxy.direct ++ [_]) := hpk
        rw [profilesOf_append'] at hpk
        have hin : ∀ t0 ∈ w.tctxs, ∃ t' ∈ w.tctxs.modify p (fun t => { t with
          profileCount := t.profileCount + ptrs.length
          profileSize := t.profileSize + profile.length
          sentSteps := t.sentSteps ++ ptrs }), t'.txid = t0.txid := by
          intro t0 h0
          have : t0.txid ∈ (w.tctxs.modify p (fun t => { t with
            profileCount := t.profileCount + ptrs.length
            profileSize := t.profileSize + profile.length
            sentSteps := t.sentSteps ++ ptrs })).map (·.txid) := by
            rw [map_modify_same]
            · exact List.mem_map_of_mem h0
            · intro a; rfl
          obtain ⟨t', h1, h2⟩ := List.mem_map.mp this
          exact ⟨t', h1, h2⟩
        rcases List.mem_append.mp hpk with hpk | hpk
        · obtain ⟨t0, h1, h2⟩ := s.known pk hpk
          obtain ⟨t', h3, h4⟩ := hin t0 h1
          exact ⟨t', h3, h4.trans h2⟩
        · have hpk : pk ∈ [_] := hpk
          rw [List.mem_singleton] at hpk
          obtain ⟨t', h3, h4⟩ := hin t (List.mem_of_getElem? ht)
          exact ⟨t', h3, by rw [h4, hpk]⟩
      · intro x hx i hi
        rcases hmem x hx with ⟨j, -, hj⟩ | rfl
        · exact s.ptrs x (List.mem_of_getElem? hj) i hi
        · have hi : i ∈ (t.sentSteps ++ ptrs) ++ t.col.kept := hi
          show i ∈ t.recorded
          rcases List.mem_append.mp hi with hi | hi
          · rcases List.mem_append.mp hi with hi | hi
            · exact s.ptrs t (List.mem_of_getElem? ht) i (List.mem_append_left _ hi)
            · exact (hs i hi).2 t ht
          · exact s.ptrs t (List.mem_of_getElem? ht) i (List.mem_append_right _ hi)
      · intro i ⟨x, hx, hi⟩
        rcases hmem x hx with ⟨j, -, hj⟩ | rfl
        · exact s.inside i ⟨x, List.mem_of_getElem? hj, hi⟩
        · exact s.inside i ⟨t, List.mem_of_getElem? ht, hi⟩
      · intro i x hx
        obtain ⟨h1, t0, h2, h3⟩ := s.fixed i x hx
        refine ⟨h1, ?_⟩
        have : t0.recorded ∈ (w.tctxs.modify p (fun t => { t with
            profileCount := t.profileCount + ptrs.length
            profileSize := t.profileSize + profile.length
            sentSteps := t.sentSteps ++ ptrs })).map (·.recorded) := by
          rw [map_modify_same]
          · exact List.mem_map_of_mem h2
          · intro a; rfl
        obtain ⟨t', h4, h5⟩ := List.mem_map.mp this
        exact ⟨t', h4, by rw [h5]; exact h3⟩
      · intro x hx
        have hst : ∀ id, profileStream { w with
            tick := w.tick + 1
            tctxs := w.tctxs.modify p (fun t => { t with
              profileCount := t.profileCount + ptrs.length
              profileSize := t.profileSize + profile.length
              sentSteps := t.sentSteps ++ ptrs })
            proxy := { w.proxy with direct := w.proxy.direct ++ [.profile
              { time := 0, objHash := w.conf.objHash, service := t.serviceHash, txid := t.txid,
                elapsed := millis t.startTime (w.env.clock w.tick), profile := profile }] } } id =
            profileStream w id ++ (if t.txid = id then profile else []) := by
          intro id
          unfold profileStream
          show ((profilesOf (w.proxy.direct ++ [_])).filter _).flatMap _ = _
          rw [profilesOf_append', List.filter_append, List.flatMap_append]
          congr 1
          by_cases hid : t.txid = id
          · rw [if_pos hid]; simp [profilesOf, hid]
          · rw [if_neg hid]; simp [profilesOf, hid]
        rw [hst]
        rcases hmem x hx with ⟨j, hj, hjx⟩ | rfl
        · rw [if_neg, List.append_nil]
          · exact s.stream x (List.mem_of_getElem? hjx)
          · intro he'
            exact hj (s.unique h.1 htk' hjx ht he'.symm)
        · show profileStream w t.txid ++ (if t.txid = t.txid then profile else []) = stepsToBytes ((t.sentSteps ++ ptrs).map (w.steps[·]?))
          rw [if_pos rfl, List.map_append, stepsToBytes_append, s.stream t (List.mem_of_getElem? ht), hpr]
    · intro i x hx
      have hx : (w.tctxs.modify p _)[i]? = some x := hx
      rw [List.getElem?_modify] at hx
      cases hw : w.tctxs[i]? with
      | none => rw [hw] at hx; simp at hx
      | some t0 =>
        refine ⟨t0, rfl, ?_⟩
        rw [hw] at hx
        by_cases hip : p = i
        · simp [hip] at hx; subst hx; exact ⟨rfl, rfl⟩
        · simp [hip] at hx; subst hx; exact ⟨rfl, rfl⟩

theorem sendSlices_flow (p : Nat) (ss : List (List Nat)) : ∀ (w : World), Sendable p w ss.flatten → Flow N K w →
    Flow N K (sendSlices p ss w).2 ∧ w.tick ≤ (sendSlices p ss w).2.tick ∧ (sendSlices p ss w).2.steps = w.steps := by
  induction ss with
  | nil => intro w _ h; exact ⟨h, Nat.le_refl _, rfl⟩
  | cons s ss ih =>
    intro w hs h
    obtain ⟨h1, h2, h3, h4⟩ := sendProfile0_flow p s w (fun i hi => hs i (by simp [hi])) h
    show Flow N K ((sendProfile0 p s >>= fun _ => sendSlices p ss) w).2 ∧ _ ≤ ((sendProfile0 p s >>= fun _ => sendSlices p ss) w).2.tick ∧
      ((sendProfile0 p s >>= fun _ => sendSlices p ss) w).2.steps = _
    cases hr : sendProfile0 p s w with
    | mk o w1 =>
      rw [hr] at h1 h2 h3 h4
      cases o with
      | ok a =>
        rw [TM.bind_ok hr]
        obtain ⟨g1, g2, g3⟩ := ih w1 (fun i hi => by
          have := hs i (by rw [List.flatten_cons]; exact List.mem_append_right _ hi)
          refine ⟨by rw [h3]; exact this.1, fun t ht => ?_⟩
          obtain ⟨t0, e1, e2, -⟩ := h4 p t ht
          rw [e2]; exact this.2 t0 e1) h1
        exact ⟨g1, Nat.le_trans h2 g2, g3.trans h3⟩
      | panic =>
        have e : (sendProfile0 p s >>= fun _ => sendSlices p ss) w = (.panic, w1) := by
          show TM.bind _ _ _ = _
          unfold TM.bind
          rw [hr]
        rw [e]
        exact ⟨h1, h2, h3⟩

theorem profileLoop_mem {A : Type} (l : List A) (b : Int) : ∀ left i, ∀ s ∈ profileLoop l b left i, ∀ x ∈ s, x ∈ l := by
  intro left
  induction left with
  | zero => intro i s hs; simp [profileLoop] at hs
  | succ n ih =>
    intro i s hs x hx
    simp only [profileLoop, List.mem_cons] at hs
    rcases hs with rfl | hs
    · exact List.mem_of_mem_drop (List.mem_of_mem_take hx)
    · exact ih _ s hs x hx

theorem profileSlices_mem {A : Type} (l : List A) (b : Int) (ss : List (List A)) (h : profileSlices l b = some ss) :
    ∀ x ∈ ss.flatten, x ∈ l := by
  unfold profileSlices at h
  intro x hx
  obtain ⟨s, hs, hxs⟩ := List.mem_flatten.mp hx
  split at h
  · cases h; simp at hs
  · split at h
    · cases h
    · simp only at h
      split at h
      · cases h; rw [List.mem_singleton] at hs; subst hs; exact hxs
      · split at h
        · cases h
          rcases List.mem_append.mp hs with hs | hs
          · exact profileLoop_mem l b _ _ s hs x hxs
          · rw [List.mem_singleton] at hs; subst hs
            exact List.mem_of_mem_drop (List.mem_of_mem_take hxs)
        · cases h
          exact profileLoop_mem l b _ _ s hs x hxs

theorem sendProfile_flow (p : Nat) (ptrs : List Nat) (w : World) (hs : Sendable p w ptrs) (h : Flow N K w) :
    Flow N K (sendProfile p ptrs w).2 ∧ w.tick ≤ (sendProfile p ptrs w).2.tick ∧ (sendProfile p ptrs w).2.steps = w.steps := by
  unfold sendProfile
  rw [TM.get_bind]
  cases hsl : profileSlices ptrs w.conf.bulk with
  | none => exact ⟨h, Nat.le_refl _, rfl⟩
  | some ss => exact sendSlices_flow p ss w (fun i hi => hs i (profileSlices_mem ptrs _ ss hsl i hi)) h

theorem process_mem (keep : Int) (c : Collector) (ptr : Nat) :
    (∀ i ∈ (c.process keep ptr).1.kept, i ∈ c.kept ++ [ptr]) ∧
      ∀ o, (c.process keep ptr).2 = .full o → ∀ i ∈ o, i ∈ c.kept ++ [ptr] := by
  unfold Collector.process
  split
  · exact ⟨fun i hi => List.mem_append_left _ hi, fun o h => by cases h⟩
  · simp only
    split
    · split
      · exact ⟨fun i hi => hi, fun o h => by cases h⟩
      · refine ⟨fun i hi => by simp at hi, fun o h => ?_⟩
        cases h; exact fun i hi => hi
    · exact ⟨fun i hi => hi, fun o h => by cases h⟩

theorem Stream.recording {w : World} (s : Stream K w) {p ptr : Nat} {t : Tctx} (ht : w.tctxs[p]? = some t) (hk : ptr < w.steps.length)
    (c : Collector) (hc : ∀ i ∈ c.kept, i ∈ t.col.kept ++ [ptr]) :
    Stream K { w with tctxs := w.tctxs.modify p fun t => { t with col := c, recorded := t.recorded ++ [ptr] } } := by
  have hmem : ∀ x ∈ w.tctxs.modify p (fun t => { t with col := c, recorded := t.recorded ++ [ptr] }), x ∈ w.tctxs ∨
      x = { t with col := c, recorded := t.recorded ++ [ptr] } := by
    intro x hx
    obtain ⟨i, hi⟩ := List.mem_iff_getElem?.mp hx
    rw [List.getElem?_modify] at hi
    by_cases hip : p = i
    · subst hip
      rw [ht] at hi
      simp only [if_true] at hi
      exact .inr (Option.some.inj hi).symm
    · simp [hip] at hi
      exact .inl (List.mem_of_getElem? hi)
  have hids : (w.tctxs.modify p (fun t => { t with col := c, recorded := t.recorded ++ [ptr] })).map (·.txid) = w.tctxs.map (·.txid) := by
    rw [map_modify_same]
    intro a; rfl
  constructor
  · obtain ⟨ks, h1, h2, h3⟩ := s.ids
    exact ⟨ks, h1, h2, hids.trans h3⟩
  · intro pk hpk
    obtain ⟨t0, h1, h2⟩ := s.known pk hpk
    have : t0.txid ∈ w.tctxs.map (·.txid) := List.mem_map_of_mem h1
    rw [← hids] at this
    obtain ⟨t', h3, h4⟩ := List.mem_map.mp this
    exact ⟨t', h3, h4.trans h2⟩
  · intro x hx i hi
    rcases hmem x hx with hx | rfl
    · exact s.ptrs x hx i hi
    · have hs := s.ptrs t (List.mem_of_getElem? ht)
      show i ∈ t.recorded ++ [ptr]
      rcases List.mem_append.mp hi with hi | hi
      · exact List.mem_append_left _ (hs i (List.mem_append_left _ hi))
      · rcases List.mem_append.mp (hc i hi) with hi | hi
        · exact List.mem_append_left _ (hs i (List.mem_append_right _ hi))
        · rw [List.mem_singleton] at hi
          subst hi
          simp
  · intro i ⟨x, hx, hi⟩
    rcases hmem x hx with hx | rfl
    · exact s.inside i ⟨x, hx, hi⟩
    · have hi : i ∈ t.recorded ++ [ptr] := hi
      rcases List.mem_append.mp hi with hi | hi
      · exact s.inside i ⟨t, List.mem_of_getElem? ht, hi⟩
      · rw [List.mem_singleton] at hi
        subst hi
        exact hk
  · intro i x hx
    obtain ⟨h1, t0, h2, h3⟩ := s.fixed i x hx
    refine ⟨h1, ?_⟩
    obtain ⟨q, hq⟩ := List.mem_iff_getElem?.mp h2
    by_cases hqp : p = q
    · subst hqp
      rw [ht] at hq
      cases hq
      exact ⟨{ t with col := c, recorded := t.recorded ++ [ptr] }, List.mem_of_getElem? (i := p) (by simp [List.getElem?_modify, ht]), List.mem_append_left _ h3⟩
    · exact ⟨t0, List.mem_of_getElem? (i := q) (by simp [List.getElem?_modify, hqp, hq]), h3⟩
  · intro x hx
    rcases hmem x hx with hx | rfl
    · exact s.stream x hx
    · exact s.stream t (List.mem_of_getElem? ht)

theorem Flow.recording {w : World} (h : Flow N K w) {p ptr : Nat} {t : Tctx} (ht : w.tctxs[p]? = some t) (hk : ptr < w.steps.length)
    (c : Collector) (hc : ∀ i ∈ c.kept, i ∈ t.col.kept ++ [ptr]) :
    Flow N K { w with tctxs := w.tctxs.modify p fun t => { t with col := c, recorded := t.recorded ++ [ptr] } } :=
  ⟨h.1, fun htk => (h.2 htk).recording ht hk c hc⟩

/-- The clock runs on in the same environment. -/
def Ticks (w w' : World) : Prop := w.tick ≤ w'.tick ∧ w'.env = w.env
instance : Frame Ticks where
  pre := ⟨fun w => ⟨Nat.le_refl _, rfl⟩, fun h h' => ⟨Nat.le_trans h.1 h'.1, h'.2.trans h.2⟩⟩
  elem h := by cases h <;> exact ⟨by first | exact Nat.le_refl _ | exact Nat.le_succ _, rfl⟩
theorem ticks_sendProfile (p : Nat) (o : List Nat) (w : World) :
    w.tick ≤ (sendProfile p o w).2.tick ∧ (sendProfile p o w).2.env = w.env :=
  (fr_sendProfile p o : Ev Ticks _) w

theorem profileProcess_flow (p ptr : Nat) (w : World) (hk : ptr < w.steps.length) (h : Flow N K w) :
    Flow N K (profileProcess p ptr w).2 ∧ w.tick ≤ (profileProcess p ptr w).2.tick := by
  unfold profileProcess
  cases ht : w.tctxs[p]? with
  | none =>
    have : getT p w = (.panic, w) := by simp [getT, ht]
    have e : ∀ f : Tctx → TM Unit, (getT p >>= f) w = (.panic, w) := by
      intro f
      show TM.bind _ _ _ = _
      unfold TM.bind
      rw [this]
    rw [e]
    exact ⟨h, Nat.le_refl _⟩
  | some t =>
    rw [TM.bind_ok (getT_run ht), TM.get_bind]
    obtain ⟨m1, m2⟩ := process_mem w.conf.keep t.col ptr
    have hrec := h.recording ht hk _ m1
    cases hpr : t.col.process w.conf.keep ptr with
    | mk c r =>
      rw [hpr] at m2 hrec
      cases r with
      | done => exact ⟨hrec, Nat.le_refl _⟩
      | panicked => exact ⟨hrec, Nat.le_refl _⟩
      | full o =>
        have hm := m2 o rfl
        generalize hw1 : ({ w with tctxs := w.tctxs.modify p fun t => { t with col := c, recorded := t.recorded ++ [ptr] } } : World) = w1 at hrec
        have e1 : modT p (fun t => { t with col := c, recorded := t.recorded ++ [ptr] }) w = (.ok (), w1) := by rw [← hw1]; rfl
        simp only
        rw [TM.bind_ok e1]
        have hst : w1.steps = w.steps := by rw [← hw1]
        have htk : w1.tick = w.tick := by rw [← hw1]
        by_cases hN : w.tick ≤ N
        · have s := h.2 hN
          have := sendProfile_flow p o w1 (fun i hi => by
            have hin := hm i hi
            have g1 : w1.tctxs[p]? = some { t with col := c, recorded := t.recorded ++ [ptr] } := by
              rw [← hw1]; simp [List.getElem?_modify, ht]
            rw [hst]
            rcases List.mem_append.mp hin with hin | hin
            · have := s.ptrs t (List.mem_of_getElem? ht) i (List.mem_append_right _ hin)
              refine ⟨s.inside i ⟨t, List.mem_of_getElem? ht, this⟩, fun t' ht' => ?_⟩
              rw [g1] at ht'
              cases ht'
              exact List.mem_append_left _ this
            · rw [List.mem_singleton] at hin
              subst hin
              refine ⟨hk, fun t' ht' => ?_⟩
              rw [g1] at ht'
              cases ht'
              exact List.mem_append_right _ (by simp)) hrec
          exact ⟨this.1, by rw [← htk]; exact this.2.1⟩
        · have hmono : w1.tick ≤ (sendProfile p o w1).2.tick ∧ (sendProfile p o w1).2.env = w1.env := ticks_sendProfile p o w1
          refine ⟨⟨by rw [hmono.2, ← hw1]; exact h.1, fun hh => ?_⟩, by rw [← htk]; exact hmono.1⟩
          omega

/-! ## A step not sent yet -/

/-- The accounting, and a step that is in no pack. -/
def FlowV (N : Nat) (K : Nat → Option Step) (ptr : Nat) (w : World) : Prop := Flow N K w ∧ (w.tick ≤ N → ¬ RecStep w ptr)

structure FlowsV (N : Nat) (K : Nat → Option Step) (ptr : Nat) (w w' : World) : Prop where
  tick : w.tick ≤ w'.tick
  len : w.steps.length ≤ w'.steps.length
  flow : FlowV N K ptr w → FlowV N K ptr w'

theorem FlowsV.isPre (N : Nat) (K : Nat → Option Step) (ptr : Nat) : IsPre (FlowsV N K ptr) where
  refl w := ⟨Nat.le_refl _, Nat.le_refl _, id⟩
  trans h h' := ⟨Nat.le_trans h.tick h'.tick, Nat.le_trans h.len h'.len, h'.flow ∘ h.flow⟩

theorem StCalm.flowsV {ptr : Nat} {w w' : World} (c : StCalm w w') : FlowsV N K ptr w w' :=
  ⟨c.tick, c.steps.length_le, fun h => ⟨c.flows.flow h.1, fun ht hs => h.2 (Nat.le_trans c.tick ht) (rec_core c.core hs)⟩⟩

theorem v_modStep {ptr : Nat} (f : Step → Step) : Ev (FlowsV N K ptr) (modStep ptr f) := fun w =>
  ⟨Nat.le_refl _, by show w.steps.length ≤ (w.steps.modify ptr f).length; simp, fun h => ⟨⟨h.1.1, fun ht =>
    (h.1.2 ht).keep rfl (Nat.le_refl _) rfl rfl (fun i hi => by
      show (w.steps.modify ptr f)[i]? = w.steps[i]?
      rw [List.getElem?_modify]
      have : ptr ≠ i := fun e => h.2 ht (e ▸ hi)
      simp [this]) (by show w.steps.length ≤ (w.steps.modify ptr f).length; simp)⟩, fun ht => h.2 ht⟩⟩

/-- The last thing done with the step. -/
def Last (N : Nat) (K : Nat → Option Step) (ptr : Nat) (m : TM α) : Prop := ∀ w, FlowV N K ptr w → ptr < w.steps.length → Flow N K (m w).2 ∧ w.tick ≤ (m w).2.tick
/-- The same, not knowing whether there is such a step. -/
def Guard (N : Nat) (K : Nat → Option Step) (ptr : Nat) (m : TM α) : Prop := ∀ w, FlowV N K ptr w → Flow N K (m w).2 ∧ w.tick ≤ (m w).2.tick

theorem last_bind {ptr : Nat} {m : TM α} {f : α → TM β} (h : Ev (FlowsV N K ptr) m) (hf : ∀ a, Last N K ptr (f a)) : Last N K ptr (m >>= f) := by
  intro w hw hk
  have h1 := h w
  show Flow N K (TM.bind m f w).2 ∧ _ ≤ (TM.bind m f w).2.tick
  unfold TM.bind
  split
  · rename_i a w1 heq
    rw [heq] at h1
    have := hf a w1 (h1.flow hw) (Nat.lt_of_lt_of_le hk h1.len)
    exact ⟨this.1, Nat.le_trans h1.tick this.2⟩
  · rename_i w1 heq
    rw [heq] at h1
    exact ⟨(h1.flow hw).1, h1.tick⟩

theorem guard_bind {ptr : Nat} {m : TM α} {f : α → TM β} (h : Ev (FlowsV N K ptr) m) (hf : ∀ a, Guard N K ptr (f a)) : Guard N K ptr (m >>= f) := by
  intro w hw
  have h1 := h w
  show Flow N K (TM.bind m f w).2 ∧ _ ≤ (TM.bind m f w).2.tick
  unfold TM.bind
  split
  · rename_i a w1 heq
    rw [heq] at h1
    have := hf a w1 (h1.flow hw)
    exact ⟨this.1, Nat.le_trans h1.tick this.2⟩
  · rename_i w1 heq
    rw [heq] at h1
    exact ⟨(h1.flow hw).1, h1.tick⟩

theorem guard_getStep {ptr : Nat} {f : Step → TM β} (hf : ∀ a, Last N K ptr (f a)) : Guard N K ptr (getStep ptr >>= f) := by
  intro w hw
  show Flow N K (TM.bind (getStep ptr) f w).2 ∧ _ ≤ (TM.bind (getStep ptr) f w).2.tick
  unfold TM.bind getStep
  cases h : w.steps[ptr]? with
  | none => exact ⟨hw.1, Nat.le_refl _⟩
  | some s => exact hf s w hw (List.getElem?_eq_some_iff.mp h).1

theorem v_calm {ptr : Nat} {m : TM α} (h : Ev StCalm m) : Ev (FlowsV N K ptr) m := fun w => (h w).flowsV
theorem stc_getT (p : Nat) : Ev StCalm (getT p) := by
  intro w; unfold getT; split <;> exact StCalm.isPre.refl w
theorem stc_getStep (p : Nat) : Ev StCalm (getStep p) := by
  intro w; unfold getStep; split <;> exact StCalm.isPre.refl w
theorem stc_pure (a : α) : Ev StCalm (pure a : TM α) := Ev.pure StCalm.isPre a
theorem stc_bind {m : TM α} {f : α → TM β} (h : Ev StCalm m) (hf : ∀ a, Ev StCalm (f a)) : Ev StCalm (m >>= f) := Ev.bind StCalm.isPre h hf
theorem stc_millisToNow (s : Int) : Ev StCalm (millisToNow s) := stc_bind (stc_reading _) fun _ => stc_pure _
theorem stc_sendText (k : TextKind) (n : Bytes) : Ev StCalm (Trace.sendText k n) := fun w => by
  obtain ⟨w', h1, h2, -⟩ := sendText_run k n w
  rw [h1]
  exact ⟨h2.env, by rw [h2.tick], by rw [h2.tctxs], by rw [h2.direct], by rw [h2.steps]; exact List.prefix_refl _⟩

theorem last_profileProcess (p ptr : Nat) : Last N K ptr (profileProcess p ptr) := fun w h hk => profileProcess_flow p ptr w hk h.1
theorem last_profilePop (p ptr : Nat) : Last N K ptr (profilePop p ptr) :=
  last_bind (v_calm (stc_getStep _)) fun _ => last_bind (v_calm (stc_modT fun _ => rfl)) fun _ => last_profileProcess p ptr
theorem guard_profileAdd (p ptr : Nat) : Guard N K ptr (profileAdd p ptr) :=
  guard_bind (v_calm (stc_getT _)) fun _ => guard_getStep fun _ => last_bind (v_modStep _) fun _ =>
    last_bind (v_calm (stc_modT fun _ => rfl)) fun _ => last_profileProcess p ptr
theorem guard_profilePush (p ptr : Nat) : Guard N K ptr (profilePush p ptr) :=
  guard_bind (v_calm (stc_getT _)) fun _ => guard_getStep fun _ => last_bind (v_modStep _) fun _ =>
    fun w h _ => by
      have c := stc_modT (p := p) (f := fun t => { t with col := (t.col.push ‹Step›).1 }) (fun _ => rfl) w
      exact ⟨c.flows.flow h.1, c.tick⟩
theorem st_fresh (s : Step) {f : Nat → TM β} (hk : Ev Ticks (newStep s >>= f)) (hf : ∀ ptr, Guard N K ptr (f ptr)) :
    FE N K (newStep s >>= f) := by
  intro w
  refine ⟨(hk w).1, fun h => ?_⟩
  have e : (newStep s >>= f) w = f w.steps.length { w with steps := w.steps ++ [s] } := rfl
  rw [e]
  have hc := stc_newStep s w
  exact (hf _ _ ⟨hc.flows.flow h, fun ht hr => by
    have := (h.2 ht).inside _ hr
    omega⟩).1

theorem st_addNew (p : Nat) (s : BitVec 32) (b : StepBody) : FE N K (addNew p s b) :=
  st_fresh _ (fr_addNew p s b) fun ptr => guard_profileAdd p ptr

theorem st_pushNew (p : Nat) (s : Step) : FE N K (do let ptr ← newStep s; profilePush p ptr; pure ptr) := by
  refine st_fresh _ (fr_bind (fr_newStep _) fun _ => fr_bind (fr_profilePush _ _) fun _ => fr_pure _) fun ptr => ?_
  intro w h
  obtain ⟨h1, h2⟩ := guard_profilePush p ptr w h
  have : FE N K (pure ptr : TM Nat) := st_pure ptr
  show Flow N K (TM.bind (profilePush p ptr) _ w).2 ∧ _ ≤ (TM.bind (profilePush p ptr) _ w).2.tick
  unfold TM.bind
  split
  · rename_i heq; rw [heq] at h1 h2; exact ⟨h1, h2⟩
  · rename_i heq; rw [heq] at h1 h2; exact ⟨h1, h2⟩

theorem st_profileClose (p : Nat) (ok : Bool) : FE N K (profileClose p ok) := by
  intro w
  refine ⟨((fr_profileClose p ok : Ev Ticks _) w).1, fun h => ?_⟩
  unfold profileClose
  cases ht : w.tctxs[p]? with
  | none =>
    have : getT p w = (.panic, w) := by simp [getT, ht]
    have e : ∀ f : Tctx → TM Unit, (getT p >>= f) w = (.panic, w) := by
      intro f
      show TM.bind _ _ _ = _
      unfold TM.bind
      rw [this]
    rw [e]
    exact h
  | some t =>
    rw [TM.bind_ok (getT_run ht)]
    cases hc : t.col.close ok with
    | none => exact h
    | some o =>
      by_cases hN : w.tick ≤ N
      · refine (sendProfile_flow p o w (fun i hi => ?_) h).1
        have hi : i ∈ t.col.kept := by
          unfold Collector.close at hc
          split at hc
          · cases hc; exact hi
          · cases hc
        have := (h.2 hN).ptrs t (List.mem_of_getElem? ht) i (List.mem_append_right _ hi)
        refine ⟨(h.2 hN).inside i ⟨t, List.mem_of_getElem? ht, this⟩, fun t' ht' => ?_⟩
        rw [ht] at ht'
        cases ht'
        exact this
      · have := ticks_sendProfile p o w
        exact ⟨by rw [this.2]; exact h.1, fun hh => absurd (Nat.le_trans this.1 hh) hN⟩

theorem st_newTraceContext : FE N K newTraceContext := by
  intro w
  refine ⟨((fr_newTraceContext : Ev Ticks _) w).1, fun h => ?_⟩
  unfold newTraceContext
  rw [TM.reading_bind, TM.reading_bind, TM.get_bind]
  cases hk : Collector.new w.conf.keep with
  | none => 
    have : StCalm w { w with tick := w.tick + 1 + 1 } := ⟨rfl, by show w.tick ≤ w.tick + 1 + 1; omega, rfl, rfl, List.prefix_refl _⟩
    exact this.flows.flow h
  | some col =>
    refine ⟨h.1, fun ht => ?_⟩
    have ht : w.tick + 1 + 1 ≤ N := ht
    have s := h.2 (by omega)
    have hcol : col.kept = [] := by
      unfold Collector.new at hk
      split at hk
      · cases hk
      · cases hk; rfl
    have hnone : ∀ pk ∈ profilesOf w.proxy.direct, pk.txid ≠ w.env.id w.tick := by
      intro pk hpk e
      obtain ⟨t, h1, h2⟩ := s.known pk hpk
      obtain ⟨ks, k1, k2, k3⟩ := s.ids
      have : t.txid ∈ ks.map w.env.id := k3 ▸ List.mem_map_of_mem h1
      obtain ⟨k, hk1, hk2⟩ := List.mem_map.mp this
      have hlt := k2 k hk1
      have := h.1 k w.tick (by omega) (by omega) (hk2.trans (h2.trans e))
      omega
    constructor
    · obtain ⟨ks, k1, k2, k3⟩ := s.ids
      refine ⟨ks ++ [w.tick], ?_, ?_, ?_⟩
      · rw [List.pairwise_append]
        refine ⟨k1, List.pairwise_singleton _ _, fun a ha b hb => ?_⟩
        rw [List.mem_singleton] at hb
        rw [hb]; exact k2 a ha
      · intro k hk
        show k < w.tick + 1 + 1
        rcases List.mem_append.mp hk with hk | hk
        · have := k2 k hk; omega
        · rw [List.mem_singleton] at hk; omega
      · show (w.tctxs ++ [_]).map _ = (ks ++ [w.tick]).map w.env.id
        rw [List.map_append, List.map_append, k3]
        rfl
    · intro pk hpk
      obtain ⟨t, h1, h2⟩ := s.known pk hpk
      exact ⟨t, List.mem_append_left _ h1, h2⟩
    · intro t ht i hi
      have ht : t ∈ w.tctxs ++ [_] := ht
      rcases List.mem_append.mp ht with ht | ht
      · exact s.ptrs t ht i hi
      · rw [List.mem_singleton] at ht
        subst ht
        simp [hcol] at hi
    · intro i ⟨t, ht, hi⟩
      have ht : t ∈ w.tctxs ++ [_] := ht
      rcases List.mem_append.mp ht with ht | ht
      · exact s.inside i ⟨t, ht, hi⟩
      · rw [List.mem_singleton] at ht
        subst ht
        simp at hi
    · intro i x hx
      obtain ⟨h1, t, h2, h3⟩ := s.fixed i x hx
      exact ⟨h1, t, List.mem_append_left _ h2, h3⟩
    · intro t ht
      have ht : t ∈ w.tctxs ++ [_] := ht
      rcases List.mem_append.mp ht with ht | ht
      · exact s.stream t ht
      · rw [List.mem_singleton] at ht
        subst ht
        show ((profilesOf w.proxy.direct).filter (fun pk => pk.txid == w.env.id w.tick)).flatMap (·.profile) = stepsToBytes []
        rw [List.filter_eq_nil_iff.mpr (fun pk hpk => by simpa using hnone pk hpk)]
        rfl

/-- Goes through a piece of code. -/
macro "st" : tactic => `(tactic| repeat' first
  | exact st_pure _ | exact st_panic | exact st_get | exact st_reading _ | exact st_getT _ | exact st_getStep _
  | exact st_modT (fun _ => rfl) | exact st_sendText _ _
  | exact st_meter _ _ | exact st_millisToNow _ | exact st_register _ | exact st_unregister _ | exact st_sendAlert _ _ _
  | exact st_getSampler
  | apply st_recovered | refine st_withTrace _ _ _ (fun _ => ?_)
  | apply st_ite | refine st_bind ?_ (fun _ => ?_)
  | split)

theorem st_addMessages (p : Nat) (s : BitVec 32) (l : List Bytes) : FE N K (addMessages p s l) := by
  induction l with
  | nil => exact st_pure _
  | cons m ms ih => exact st_bind (st_addNew _ _ _) fun _ => ih
theorem st_addParams (p : Nat) (l : List (Option Bytes)) : FE N K (addParams p l) := by
  induction l with
  | nil => exact st_pure _
  | cons m ms ih =>
    cases m with
    | none => exact ih
    | some s =>
      exact st_bind (st_getT _) fun _ => st_bind (st_millisToNow _) fun _ => st_bind (st_millisToNow _) fun _ =>
        st_bind (st_addNew _ _ _) fun _ => ih
theorem st_startService (n a : Bytes) : FE N K (startService n a) := by
  unfold startService startRest
  refine st_bind st_newTraceContext fun p => st_bind (st_register p) fun _ => st_bind ?_ fun _ => st_pure _
  exact st_bind (st_modT (fun _ => rfl)) fun _ => st_bind (st_reading _) fun _ => st_bind (st_modT (fun _ => rfl)) fun _ =>
    st_bind (st_addNew _ _ _) fun _ => st_bind (st_modT (fun _ => rfl)) fun _ => st_bind (st_sendText _ _) fun _ => st_modT (fun _ => rfl)
theorem st_findXLogDiscard (t : Tctx) (e : BitVec 32) : FE N K (findXLogDiscard t e) := by unfold findXLogDiscard; st
theorem st_toXlog (t : Tctx) (d : BitVec 8) (e : BitVec 32) : FE N K (toXlog t d e) := by unfold toXlog sendIfSet; st
theorem st_endRest (p : Nat) : FE N K (endRest p) := by
  unfold endRest sendXlog
  exact st_bind (st_modT (fun _ => rfl)) fun _ => st_bind (st_getT _) fun _ => st_bind (st_sendText _ _) fun _ => st_bind (st_modT (fun _ => rfl)) fun _ =>
    st_bind (st_unregister _) fun _ => st_bind (st_getT _) fun _ => st_bind (st_millisToNow _) fun _ =>
    st_bind (st_findXLogDiscard _ _) fun _ => st_bind (st_toXlog _ _ _) fun _ => st_bind (st_profileClose _ _) fun _ =>
    st_bind (st_meter _ _) fun _ => st_ite (st_bind st_get fun _ => st_sendDirect rfl) (st_pure _)
theorem st_endTctx (p : Nat) : FE N K (endTctx p) := st_bind (st_getT _) fun _ => st_ite (st_pure _) (st_endRest p)
theorem st_endAnyService (c : Ctx) : FE N K (endAnyService c) :=
  st_withTrace _ _ _ fun _ => st_bind (st_getT _) fun _ => st_ite (st_pure _) (st_endTctx _)
theorem st_addPMessageStep (c : Ctx) (l : BitVec 8) (m : Bytes) (e : BitVec 32) (ps : List Bytes) :
    FE N K (addPMessageStep c l m e ps) :=
  st_recovered _ (st_withTrace _ _ _ fun _ => st_bind (st_getT _) fun _ => st_bind (st_millisToNow _) fun _ =>
    st_bind (st_sendText _ _) fun _ => st_addNew _ _ _)
theorem st_endStuck (p : Nat) : FE N K (endStuck p) := by
  refine st_recovered _ (st_bind st_get fun w => st_ite ?_ (st_pure _))
  refine st_bind (st_getT _) fun _ => st_bind (st_millisToNow _) fun _ => st_bind (st_sendText _ _) fun _ =>
    st_bind (st_addNew _ _ _) fun _ => st_bind (st_getT _) fun _ => st_ite ?_ (st_endTctx p)
  exact st_bind (st_sendText _ _) fun _ => st_bind (st_modT (fun _ => rfl)) fun _ => st_endTctx p
theorem st_activeLoop (now : Int) (ps : List Nat) : ∀ c a, FE N K (activeLoop now ps c a) := by
  induction ps with
  | nil => intro c a; exact st_pure _
  | cons p ps ih =>
    intro c a
    unfold activeLoop
    refine st_ite (st_pure _) (st_bind (st_getT _) fun t => st_bind st_get fun w => ?_)
    exact st_ite (st_bind (st_endStuck p) fun _ => st_bind (st_getT _) fun _ => st_bind st_get fun _ =>
      st_bind (st_sendAlert _ _ _) fun _ => ih _ _) (ih _ _)
theorem st_startHttpRest (r : Request) (p : Nat) : FE N K (startHttpRest r p) :=
  st_bind (st_modT (fun _ => rfl)) fun _ => st_bind (st_sendText _ _) fun _ => st_bind (st_modT (fun _ => rfl)) fun _ => st_bind (st_sendText _ _) fun _ =>
    st_bind (st_modT (fun _ => rfl)) fun _ => st_bind (st_getT _) fun _ => st_bind (st_millisToNow _) fun _ => st_bind st_get fun _ =>
    st_bind (st_addMessages _ _ _) fun _ => st_bind st_get fun _ => st_ite (st_addNew _ _ _) (st_pure _)
theorem st_inheritTctx (p q : Nat) : FE N K (inheritTctx p q) :=
  st_bind (st_getT _) fun _ => st_bind (st_modT (fun _ => rfl)) fun _ => st_bind (st_addNew _ _ _) fun _ => st_bind (st_getT _) fun _ =>
    st_bind st_get fun _ => st_modT (fun _ => rfl)
theorem st_startChild (c : Ctx) (n : Bytes) : FE N K (startChild c n) := by
  refine st_withTrace _ _ _ fun q => st_bind (st_getT _) fun parent => st_bind (st_startService _ _) fun p =>
    st_bind (st_getT _) fun parent => st_bind (st_modT (fun _ => rfl)) fun _ => ?_
  have hj : FE N K (do
      let child ← getT p
      let now ← millisToNow parent.startTime
      let h ← Trace.sendText .apicall n
      addNew q now (.async child.txid h 0)
      return Ctx.traced p) :=
    st_bind (st_getT _) fun _ => st_bind (st_millisToNow _) fun _ => st_bind (st_sendText _ _) fun _ =>
      st_bind (st_addNew _ _ _) fun _ => st_pure _
  exact st_ite (st_bind (st_modT (fun _ => rfl)) fun _ => st_bind (st_modT (fun _ => rfl)) fun _ => hj) hj
theorem st_startMethod0 (p : Nat) (f m : Bytes) (ps : List (Option Bytes)) : FE N K (startMethod0 p f m ps) :=
  st_bind (st_addParams _ _) fun _ => st_bind (st_modT (fun _ => rfl)) fun _ => st_bind (st_sendText _ _) fun _ => st_bind (st_getT _) fun _ =>
    st_bind (st_millisToNow _) fun _ => st_pushNew _ _
theorem st_startApiCall0 (p : Nat) (n a : Bytes) : FE N K (startApiCall0 p n a) :=
  st_bind (st_sendText _ _) fun _ => st_bind (st_getT _) fun _ => st_bind (st_millisToNow _) fun _ => st_bind (st_reading _) fun _ =>
    st_pushNew _ _

theorem guard_recovered {ptr : Nat} (d : α) {m : TM α} (h : Guard N K ptr m) : Guard N K ptr (recovered d m) := by
  intro w hw
  have h1 := h w hw
  unfold recovered
  split
  · rename_i heq; rw [heq] at h1; exact h1
  · rename_i w' heq; rw [heq] at h1
    have h2 := st_bind (st_reading (N := N) (K := K) (·.panicText)) (fun text => st_bind (st_sendAlert 3 (ascii "Panic") text) fun _ => st_pure d) w'
    exact ⟨h2.flow h1.1, Nat.le_trans h1.2 h2.tick⟩
theorem guard_withTrace {ptr : Nat} (c : Ctx) (d : α) (f : Nat → TM α) (h : ∀ p, Guard N K ptr (f p)) : Guard N K ptr (withTrace c d f) := by
  intro w hw
  unfold withTrace
  rw [TM.get_bind]
  cases traceOf w c with
  | some p => exact h p w hw
  | none => exact ⟨hw.1, Nat.le_refl _⟩

/-- A call that hands in a step. -/
def handsIn : Call → Option Nat
  | .addStep _ (some i) => some i
  | .endMethod _ (some i) => some i
  | .endApiCall _ (some i) _ => some i
  | _ => none

theorem guard_call (c : Call) (ptr : Nat) (h : handsIn c = some ptr) : Guard N K ptr c.code := by
  cases c with
  | addStep c p =>
    cases p with
    | none => cases h
    | some p => cases h; exact guard_recovered _ (guard_withTrace _ _ _ fun q => guard_profileAdd q ptr)
  | endMethod c p =>
    cases p with
    | none => cases h
    | some p =>
      cases h
      exact guard_recovered _ (guard_withTrace _ _ _ fun q => guard_bind (v_calm (stc_getT _)) fun _ => guard_getStep fun _ =>
        last_bind (v_calm (stc_millisToNow _)) fun _ => last_bind (v_modStep _) fun _ => last_profilePop q ptr)
  | endApiCall c p e =>
    cases p with
    | none => cases h
    | some p =>
      cases h
      refine guard_recovered _ (guard_withTrace _ _ _ fun q => guard_bind (v_calm (stc_getT _)) fun _ => guard_getStep fun _ =>
        last_bind (v_calm (stc_millisToNow _)) fun _ => last_bind (v_modStep _) fun _ =>
        last_bind (v_calm (stc_modT fun _ => rfl)) fun _ => ?_)
      cases e with
      | none => exact last_profilePop q ptr
      | some m => exact last_bind (v_calm (stc_sendText _ _)) fun _ => last_bind (v_modStep _) fun _ =>
          last_bind (v_calm (stc_modT fun _ => rfl)) fun _ => last_profilePop q ptr
  | _ => cases h

/-- Every other call. -/
theorem flow_call (c : Call) (h : handsIn c = none) : FE N K c.code := by
  have dr : ∀ {γ : Type} {m : TM γ}, FE N K m → FE N K (m >>= fun _ => pure ()) := fun h => st_bind h fun _ => st_pure ()
  cases c with
  | conf x => exact st_calm fun w => ⟨rfl, Nat.le_refl _, rfl, rfl, List.prefix_refl _⟩
  | isStream c => exact dr (by unfold Trace.isStream; st)
  | setAsStream c => exact dr (by unfold Trace.setAsStream; st)
  | markAsError c m =>
    exact st_recovered _ (st_withTrace _ _ _ fun _ => st_bind (st_getT _) fun _ => st_ite
      (st_bind (st_sendText _ _) fun _ => st_bind (st_modT (fun _ => rfl)) fun _ => st_addPMessageStep _ _ _ _ _)
      (st_addPMessageStep _ _ _ _ _))
  | markAsErrorForcibly c m =>
    exact st_recovered _ (st_withTrace _ _ _ fun _ => st_bind (st_sendText _ _) fun _ => st_modT (fun _ => rfl))
  | setServiceName c m =>
    exact st_recovered _ (st_withTrace _ _ _ fun _ => st_bind (st_modT (fun _ => rfl)) fun _ => st_bind (st_sendText _ _) fun _ => st_modT (fun _ => rfl))
  | addStep c p =>
    refine st_recovered _ (st_withTrace _ _ _ fun q => ?_)
    cases p with
    | none => exact st_panic
    | some p => cases h
  | addMessageStep c m =>
    exact st_recovered _ (st_withTrace _ _ _ fun _ => st_bind (st_getT _) fun _ => st_bind (st_millisToNow _) fun _ => st_addNew _ _ _)
  | addHashedMessageStep c m v e =>
    exact st_recovered _ (st_withTrace _ _ _ fun _ => st_bind (st_getT _) fun _ => st_bind (st_sendText _ _) fun _ =>
      st_bind (st_millisToNow _) fun _ => st_addNew _ _ _)
  | addPMessageStep c l m e ps => exact st_addPMessageStep _ _ _ _ _
  | startHttpService c r =>
    refine dr ?_
    unfold Trace.startHttpService
    refine st_ite (st_pure _) (st_bind st_get fun v => ?_)
    split
    · exact st_pure _
    · refine st_bind (st_recovered _ ?_) fun p? => ?_
      · split
        · exact st_panic
        · exact st_bind (st_startService _ _) fun _ => st_pure _
      · split
        · exact st_recovered _ (st_bind (st_startHttpRest _ _) fun _ => st_pure _)
        · exact st_pure _
  | endHttpService c s =>
    refine st_recovered _ ?_
    cases s with
    | none => exact st_endAnyService c
    | some code =>
      exact st_withTrace _ _ _ fun _ => st_bind (st_getT _) fun _ => st_ite (st_pure _) (st_bind (st_modT (fun _ => rfl)) fun _ => st_endAnyService c)
  | startService c n ip =>
    refine dr (st_bind st_get fun v => ?_)
    split
    · exact st_pure _
    · exact st_recovered _ (st_bind (st_startService _ _) fun _ => st_bind (st_modT (fun _ => rfl)) fun _ => st_pure _)
  | endService c => exact st_recovered _ (st_endAnyService c)
  | startInheritance q =>
    refine dr (st_bind (st_recovered _ ?_) fun p? => ?_)
    · split
      · exact st_panic
      · exact st_bind (st_getT _) fun _ => st_bind (st_startService _ _) fun _ => st_pure _
    · split
      · exact st_recovered _ (st_bind (st_inheritTctx _ _) fun _ => st_pure _)
      · exact st_pure _
  | goWithTrace c n => exact dr (st_recovered _ (st_bind (st_startChild c n) fun _ => st_pure _))
  | goBegin c => exact st_withTrace _ _ _ fun _ => st_bind (st_reading _) fun _ => st_modT (fun _ => rfl)
  | startMethod c f ps => exact dr (st_recovered _ (st_withTrace _ _ _ fun _ => st_bind (st_startMethod0 _ _ _ _) fun _ => st_pure _))
  | startCustomMethod c f ps => exact dr (st_recovered _ (st_withTrace _ _ _ fun _ => st_bind (st_startMethod0 _ _ _ _) fun _ => st_pure _))
  | endMethod c p =>
    refine st_recovered _ ?_
    cases p with
    | none => exact st_pure _
    | some p => cases h
  | startApiCall c n a => exact dr (st_recovered _ (st_withTrace _ _ _ fun _ => st_bind (st_startApiCall0 _ _ _) fun _ => st_pure _))
  | startApiCallProp c n a r =>
    refine dr (st_recovered _ (st_withTrace _ _ _ fun p => st_bind (st_startApiCall0 _ _ _) fun ptr => st_bind (st_getT _) fun _ => ?_))
    have hj : FE N K (do
        let t ← getT p
        let s ← getStep ptr
        let w ← get
        return (some ptr, if r then
          [(ascii "X-Scouter-Gxid", intToXlogString32 t.gxid),
           (ascii "X-Scouter-Caller", intToXlogString32 t.txid),
           (ascii "X-Scouter-Callee", intToXlogString32 (stepTxid s)),
           (ascii "X-Scouter-Caller-Obj", formatInt 10 w.conf.objHash.toInt)] else [])) :=
      st_bind (st_getT _) fun _ => st_bind (st_getStep _) fun _ => st_bind st_get fun _ => st_pure _
    exact st_ite (st_bind (st_modT (fun _ => rfl)) fun _ => hj) hj
  | endApiCall c p e =>
    refine st_recovered _ ?_
    cases p with
    | none => exact st_pure _
    | some p => cases h
  | activeCount o => exact dr (st_bind st_get fun _ => st_bind (st_reading _) fun _ => st_activeLoop _ _ _ _)
  | makeStep s => exact dr (st_calm (stc_newStep s))
  | setFields p l d t1 t2 t3 t4 t5 => exact st_modT (fun _ => rfl)
  | samplerRun => exact st_calm fun w => ⟨rfl, Nat.le_refl _, rfl, rfl, List.prefix_refl _⟩
  | resetTexts o => exact st_calm fun w => ⟨rfl, Nat.le_refl _, rfl, rfl, List.prefix_refl _⟩
  | queue s => exact st_calm fun w => ⟨rfl, Nat.le_refl _, rfl, rfl, List.prefix_refl _⟩

theorem flows_perform (w : World) (c : Call) (h : Once w c) : Flows N K w (perform w c) := by
  cases hc : handsIn c with
  | none => exact flow_call c hc w
  | some ptr =>
    have hr : ∀ t ∈ w.tctxs, ptr ∉ t.recorded := by
      cases c with
      | addStep c p => cases p <;> cases hc; exact h
      | endMethod c p => cases p <;> cases hc; exact h
      | endApiCall c p e => cases p <;> cases hc; exact h
      | _ => cases hc
    have hm : w.tick ≤ (perform w c).tick := (frame_call (R := Ticks) c (by rintro x rfl; cases hc) w).1
    exact ⟨hm, fun hf => (guard_call c ptr hc w ⟨hf, fun _ ⟨t, h1, h2⟩ => hr t h1 h2⟩).1⟩

theorem flows_history (w : World) (cs : List Call) (h : AllOnce w cs) : Flows N K w (history w cs) := by
  induction cs generalizing w with
  | nil => exact (Flows.isPre N K).refl w
  | cons c cs ih => exact (Flows.isPre N K).trans (flows_perform w c h.1) (ih _ h.2)

theorem stream_start (env : Oracle) (conf : TraceConf) (cap : Nat) : Stream (fun _ => none) (start env conf cap) :=
  ⟨⟨[], List.Pairwise.nil, by simp, rfl⟩, by intro pk h; simp [start, profilesOf, Proxy.init] at h, by intro t h; simp [start] at h,
    by rintro i ⟨t, h, -⟩; simp [start] at h, by intro i s h; simp at h, by intro t h; simp [start] at h⟩

theorem env_history (w : World) (cs : List Call) (h : AllOnce w cs) : (history w cs).env = w.env := by
  induction cs generalizing w with
  | nil => rfl
  | cons c cs ih => exact (ih _ h.2).trans (exec_env w c)

theorem Stream.history {w : World} (s : Stream K w) {cs : List Call} (hid : DistinctIds w.env (history w cs).tick) (h : AllOnce w cs) :
    Stream K (history w cs) :=
  ((flows_history (N := (Trace.history w cs).tick) w cs h).flow ⟨hid, fun _ => s⟩).2 (Nat.le_refl _)

end
end Scouter
