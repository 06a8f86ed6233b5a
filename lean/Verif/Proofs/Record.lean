import Verif.Props.Panics
import Verif.Spec.Recording
/-!
# Recording steps, exactly
-/
namespace Scouter
open TM Trace

theorem announcing_nil (p : Proxy) : announcing [] p = p := rfl

theorem Proxy.run_append (p : Proxy) (a b : List Proxy.Op) : p.run (a ++ b) = (p.run a).run b := by
  induction a generalizing p with
  | nil => rfl
  | cons x a ih => exact ih _

theorem announcing_append (a b : List (TextKind × Bytes)) (p : Proxy) :
    announcing (a ++ b) p = announcing b (announcing a p) := by
  unfold announcing; rw [List.map_append, Proxy.run_append]

theorem sendText_withDirect (p : Proxy) (k : TextKind) (n : Bytes) (d : List Pack) :
    ({ p with direct := d }.sendText k n).1 = { (p.sendText k n).1 with direct := d } := by
  unfold Proxy.sendText
  split
  · rfl
  · simp only
    split <;> rfl

theorem announcing_withDirect (ts : List (TextKind × Bytes)) (p : Proxy) (d : List Pack) :
    announcing ts { p with direct := d } = { announcing ts p with direct := d } := by
  induction ts generalizing p with
  | nil => rfl
  | cons x ts ih =>
    show announcing ts ({ p with direct := d }.sendText x.1 x.2).1 = { announcing ts (p.sendText x.1 x.2).1 with direct := d }
    rw [sendText_withDirect, ih]

theorem announcing_direct (ts : List (TextKind × Bytes)) (p : Proxy) : (announcing ts p).direct = p.direct := by
  induction ts generalizing p with
  | nil => rfl
  | cons x ts ih =>
    show (announcing ts (p.sendText x.1 x.2).1).direct = _
    rw [ih, sendText_direct]

theorem set_of_modify {A : Type} {l : List A} {p : Nat} {a : A} (h : l[p]? = some a) (f : A → A) :
    l.modify p f = l.set p (f a) := by
  apply List.ext_getElem?
  intro i
  rw [List.getElem?_modify, List.getElem?_set]
  by_cases hp : p = i
  · subst hp
    obtain ⟨h1, h2⟩ := List.getElem?_eq_some_iff.mp h
    simp [h1, h2]
  · simp [hp]

theorem set_self {A : Type} {l : List A} {p : Nat} {a : A} (h : l[p]? = some a) : l.set p a = l := by
  apply List.ext_getElem?
  intro i
  rw [List.getElem?_set]
  by_cases hp : p = i
  · subst hp
    obtain ⟨h1, h2⟩ := List.getElem?_eq_some_iff.mp h
    simp [h1, h2]
  · simp [hp]

theorem getElem?_set_self' {A : Type} {l : List A} {p : Nat} {a b : A} (h : l[p]? = some a) : (l.set p b)[p]? = some b := by
  rw [List.getElem?_set]; simp [(List.getElem?_eq_some_iff.mp h).1]

section
variable {w w' w'' : World} {p : Nat} {t t' t'' : Tctx}

/-- Nothing but the clock. -/
theorem Wrote.refl (h : w.tctxs[p]? = some t) : Wrote p t t id [] 0 w.steps [] t.col.parentLevel w w :=
  ⟨rfl, rfl, Nat.le_refl _, rfl, rfl, rfl, rfl, (set_self h).symm, rfl, by simp, rfl, by simp, [], [], by simp, by simp [announcing_nil],
    .nil, by simp⟩

theorem PacksFor.later {ss : List (List Nat)} {ps : List Pack} (hp : PacksFor w' t ss ps) (hc : w''.conf = w'.conf)
    (hs : ∀ i ∈ ss.flatten, w''.steps[i]? = w'.steps[i]?) : PacksFor w'' t ss ps := by
  unfold PacksFor at *
  induction hp with
  | nil => exact .nil
  | cons a _ ih =>
    rename_i s pk ss ps hh
    refine .cons ?_ (ih fun i hi => hs i (by simp [hi]))
    obtain ⟨e, rfl⟩ := a
    refine ⟨e, ?_⟩
    have : s.map (fun i => w''.steps[i]?) = s.map (fun i => w'.steps[i]?) :=
      List.map_congr_left fun i hi => hs i (by simp [hi])
    rw [hc, this]

theorem PacksFor.carrying {ss : List (List Nat)} {ps : List Pack} (h : PacksFor w t ss ps) :
    Carrying w t.txid [t.serviceHash, t.serviceHash] ss ps := by
  unfold PacksFor at h
  unfold Carrying
  induction h with
  | nil => exact .nil
  | cons a _ ih =>
    obtain ⟨e, rfl⟩ := a
    exact .cons ⟨e, t.serviceHash, by simp, rfl⟩ ih

variable {tx : BitVec 64} {hs hs' : List (BitVec 32)}

theorem Carrying.later {ss : List (List Nat)} {ps : List Pack} (hp : Carrying w' tx hs ss ps) (hc : w''.conf = w'.conf)
    (he : ∀ i ∈ ss.flatten, w''.steps[i]? = w'.steps[i]?) : Carrying w'' tx hs ss ps := by
  unfold Carrying at *
  induction hp with
  | nil => exact .nil
  | cons a _ ih =>
    rename_i s pk ss ps hh
    refine .cons ?_ (ih fun i hi => he i (by simp [hi]))
    obtain ⟨e, h, hm, rfl⟩ := a
    refine ⟨e, h, hm, ?_⟩
    have : s.map (fun i => w''.steps[i]?) = s.map (fun i => w'.steps[i]?) :=
      List.map_congr_left fun i hi => he i (by simp [hi])
    rw [hc, this]

theorem Carrying.append {ss ss' : List (List Nat)} {ps ps' : List Pack} (h : Carrying w tx hs ss ps) (h' : Carrying w tx hs ss' ps') :
    Carrying w tx hs (ss ++ ss') (ps ++ ps') := by
  unfold Carrying at *
  induction h with
  | nil => exact h'
  | cons a _ ih => exact .cons a ih

theorem Carrying.mono {ss : List (List Nat)} {ps : List Pack} (h : Carrying w tx hs ss ps) (hm : ∀ x ∈ hs, x ∈ hs') :
    Carrying w tx hs' ss ps := by
  unfold Carrying at *
  induction h with
  | nil => exact .nil
  | cons a _ ih =>
    obtain ⟨e, x, hx, hp⟩ := a
    exact .cons ⟨e, x, hm x hx, hp⟩ ih

theorem Wrote.trans {f g : Tctx → Tctx} {ts ts' : List (TextKind × Bytes)} {n n' : Nat} {m m' : List Step} {r r' : List Nat}
    {q q' : BitVec 32} (a : Wrote p t t' f ts n m r q w w') (b : Wrote p t' t'' g ts' n' m' r' q' w' w'')
    (hf : ∀ t, (f t).txid = t.txid) (hfg : (∀ t, (f t).serviceHash = t.serviceHash) ∨ ∀ t, (g t).serviceHash = t.serviceHash)
    (hh : ∀ i < m.length, m'[i]? = m[i]?)
    (hg : ∀ t t', t.sansProfile = t'.sansProfile → (g t).sansProfile = (g t').sansProfile) :
    Wrote p t t'' (g ∘ f) (ts ++ ts') (n + n') m' (r ++ r') q' w w'' := by
  obtain ⟨ss, ps, a1, a2, a3, a4⟩ := a.sent
  obtain ⟨ss', ps', b1, b2, b3, b4⟩ := b.sent
  have htx : t'.txid = t.txid := by
    have : t'.sansProfile.txid = (f t).sansProfile.txid := by rw [a.fields]
    exact this.trans (hf t)
  have hsh : t'.serviceHash = t.serviceHash ∨ t''.serviceHash = t'.serviceHash := by
    rcases hfg with hf | hg
    · left
      have : t'.sansProfile.serviceHash = (f t).sansProfile.serviceHash := by rw [a.fields]
      exact this.trans (hf t)
    · right
      have : t''.sansProfile.serviceHash = (g t').sansProfile.serviceHash := by rw [b.fields]
      exact this.trans (hg t')
  refine ⟨b.env.trans a.env, b.conf.trans a.conf, Nat.le_trans a.tick b.tick, b.metered.trans a.metered, b.registry.trans a.registry,
    b.sampler.trans a.sampler, b.steps, by rw [b.tctxs, a.tctxs, List.set_set],
    ?_, ?_, b.parentLevel, by rw [b.recorded, a.recorded, List.append_assoc], ss ++ ss', ps ++ ps', ?_, ?_, ?_, ?_⟩
  · rw [b.fields]
    exact hg _ _ a.fields
  · rw [b.level, a.level]
    apply BitVec.eq_of_toNat_eq
    simp [BitVec.toNat_add]
    omega
  · rw [b1, a1]; simp
  · rw [b2, a2, announcing_withDirect, announcing_append]
    simp
  · rw [htx] at b3
    refine Carrying.append ((a3.later b.conf fun i hi => ?_).mono ?_) (b3.mono ?_)
    rotate_left 1
    · rcases hsh with e | e <;> simp [e]
    · rcases hsh with e | e <;> simp [e]
    rw [b.steps, a.steps]
    exact hh i (by rw [← a.steps]; exact a4 i hi)
  · intro i hi
    simp only [List.flatten_append, List.mem_append] at hi
    rcases hi with hi | hi
    · have := a4 i hi
      rw [a.steps] at this
      have e := hh i this
      rw [List.getElem?_eq_getElem this, List.getElem?_eq_some_iff] at e
      rw [b.steps]; exact e.1
    · exact b4 i hi

/-- A change of fields. -/
theorem Wrote.field (h : w.tctxs[p]? = some t) (f : Tctx → Tctx) (hc : (f t).col = t.col) (hr : (f t).recorded = t.recorded)
    (hs : (f t).sentSteps = t.sentSteps) :
    Wrote p t (f t) f [] 0 w.steps [] t.col.parentLevel w { w with tctxs := w.tctxs.modify p f } :=
  ⟨rfl, rfl, Nat.le_refl _, rfl, rfl, rfl, rfl, set_of_modify h f, rfl, by simp [hc], by rw [hc], by simp [hr], [], [], by simp [hs],
    by simp [announcing_nil], .nil, by simp⟩

theorem Wrote.ctx {f : Tctx → Tctx} {ts : List (TextKind × Bytes)} {n : Nat} {m : List Step} {r : List Nat} {q : BitVec 32}
    (a : Wrote p t t' f ts n m r q w w') (h : w.tctxs[p]? = some t) : w'.tctxs[p]? = some t' := by
  rw [a.tctxs]; exact getElem?_set_self' h

theorem Wrote.change {f g : Tctx → Tctx} {ts : List (TextKind × Bytes)} {n : Nat} {m : List Step} {r : List Nat} {q : BitVec 32}
    (a : Wrote p t t' f ts n m r q w w') (h : (g t).sansProfile = (f t).sansProfile) : Wrote p t t' g ts n m r q w w' :=
  ⟨a.env, a.conf, a.tick, a.metered, a.registry, a.sampler, a.steps, a.tctxs, a.fields.trans h.symm, a.level, a.parentLevel,
    a.recorded, a.sent⟩

/-- Assignments after it. -/
theorem Wrote.andField {f : Tctx → Tctx} {ts : List (TextKind × Bytes)} {n : Nat} {m : List Step} {r : List Nat} {q : BitVec 32}
    (a : Wrote p t t' f ts n m r q w w') (g : Tctx → Tctx) (hc : (g t').col = t'.col) (hr : (g t').recorded = t'.recorded)
    (hs : (g t').sentSteps = t'.sentSteps) (hh : t'.serviceHash = t.serviceHash ∨ (g t').serviceHash = t'.serviceHash)
    (hg : ∀ t t', t.sansProfile = t'.sansProfile → (g t).sansProfile = (g t').sansProfile) :
    Wrote p t (g t') (g ∘ f) ts n m r q w { w' with tctxs := w'.tctxs.set p (g t') } := by
  refine ⟨a.env, a.conf, a.tick, a.metered, a.registry, a.sampler, a.steps, by show w'.tctxs.set p _ = _; rw [a.tctxs, List.set_set],
    hg _ _ a.fields, by rw [hc]; exact a.level, by rw [hc]; exact a.parentLevel, by rw [hr]; exact a.recorded, ?_⟩
  obtain ⟨ss, ps, s1, s2, s3, s4⟩ := a.sent
  refine ⟨ss, ps, by rw [hs]; exact s1, s2, Carrying.mono (w := { w' with tctxs := w'.tctxs.set p (g t') }) s3 ?_, s4⟩
  rcases hh with e | e <;> simp [e]

/-- A text sent after it. -/
theorem Wrote.andText {f : Tctx → Tctx} {ts : List (TextKind × Bytes)} {n : Nat} {m : List Step} {r : List Nat} {q : BitVec 32}
    (a : Wrote p t t' f ts n m r q w w') (k : TextKind) (x : Bytes) :
    Wrote p t t' f (ts ++ [(k, x)]) n m r q w { w' with proxy := (w'.proxy.sendText k x).1 } := by
  refine ⟨a.env, a.conf, a.tick, a.metered, a.registry, a.sampler, a.steps, a.tctxs, a.fields, a.level, a.parentLevel,
    a.recorded, ?_⟩
  obtain ⟨ss, ps, h1, h2, h3, h4⟩ := a.sent
  refine ⟨ss, ps, h1, ?_, h3, h4⟩
  show (w'.proxy.sendText k x).1 = _
  rw [h2, sendText_withDirect, announcing_append]
  rfl

/-- Readings after it. -/
theorem Wrote.andTick {f : Tctx → Tctx} {ts : List (TextKind × Bytes)} {n : Nat} {m : List Step} {r : List Nat} {q : BitVec 32}
    (a : Wrote p t t' f ts n m r q w w') {k : Nat} (hk : w'.tick ≤ k) : Wrote p t t' f ts n m r q w { w' with tick := k } :=
  ⟨a.env, a.conf, Nat.le_trans a.tick hk, a.metered, a.registry, a.sampler, a.steps, a.tctxs, a.fields, a.level, a.parentLevel,
    a.recorded, a.sent⟩

/-- A text. -/
theorem Wrote.text (h : w.tctxs[p]? = some t) (k : TextKind) (n : Bytes) :
    Wrote p t t id [(k, n)] 0 w.steps [] t.col.parentLevel w { w with proxy := (w.proxy.sendText k n).1 } :=
  ⟨rfl, rfl, Nat.le_refl _, rfl, rfl, rfl, rfl, (set_self h).symm, rfl, by simp, rfl, by simp, [], [], by simp,
    by rw [List.append_nil, ← sendText_direct w.proxy k n]; rfl, .nil, by simp⟩

/-- Readings. -/
theorem Wrote.ticked {f : Tctx → Tctx} {ts : List (TextKind × Bytes)} {n : Nat} {m : List Step} {r : List Nat} {q : BitVec 32} {k : Nat}
    (hk : w.tick ≤ k)
    (a : Wrote p t t' f ts n m r q { w with tick := k } w') : Wrote p t t' f ts n m r q w w' :=
  ⟨a.env, a.conf, Nat.le_trans hk a.tick, a.metered, a.registry, a.sampler, a.steps, a.tctxs, a.fields, a.level, a.parentLevel, a.recorded, a.sent⟩

end

/-- Only profile bookkeeping changed, when `ptr` was recorded and the steps in the heap were not touched. -/
theorem profileProcess_run {w : World} {p ptr : Nat} {t : Tctx} (g : Good w) (h : w.tctxs[p]? = some t) (hk : ptr < w.steps.length) :
    ∃ w' t', profileProcess p ptr w = (.ok (), w') ∧ Good w' ∧ Wrote p t t' id [] 0 w.steps [ptr] t.col.parentLevel w w' := by
  have gt := g.each t (List.mem_of_getElem? h)
  have hroom := gt.room
  obtain ⟨⟨⟩, w0, hw0, g0, -, -⟩ := safe_profileProcess (p := p) (ptr := ptr) (n := p + 1) (k := ptr + 1) (by omega) (by omega) w g
    (by have := (List.getElem?_eq_some_iff.mp h).1; omega) hk
  refine ⟨w0, ?_⟩
  unfold profileProcess at hw0 ⊢
  rw [hw0]
  rw [TM.bind_ok (getT_run h), TM.get_bind] at hw0
  have hneg : ¬ w.conf.keep < 0 := by have := g.keep; omega
  by_cases hfull : t.col.kept.length + 1 < t.col.cap
  · have e : t.col.process w.conf.keep ptr = ({ t.col with kept := t.col.kept ++ [ptr] }, .done) := by
      unfold Collector.process
      rw [if_neg (by omega)]; simp only
      rw [if_neg (by simp; omega)]
    rw [e] at hw0
    have hw0 := (congrArg Prod.snd hw0).symm
    refine ⟨{ t with col := { t.col with kept := t.col.kept ++ [ptr] }, recorded := t.recorded ++ [ptr] }, rfl, g0, ?_⟩
    subst hw0
    exact ⟨rfl, rfl, Nat.le_refl _, rfl, rfl, rfl, rfl, set_of_modify h _, rfl, by simp, rfl, rfl, [], [], by simp,
      by simp [announcing_nil, modT, TM.modify], .nil, by simp⟩
  · have e : t.col.process w.conf.keep ptr =
        ({ t.col with cap := w.conf.keep.toNat, kept := [] }, .full (t.col.kept ++ [ptr])) := by
      unfold Collector.process
      rw [if_neg (by omega)]; simp only
      rw [if_pos (by simp; omega), if_neg hneg]
    rw [e] at hw0
    simp only at hw0
    generalize hw1 : ({ w with tctxs := w.tctxs.modify p (fun t' => { t' with
      col := { t.col with cap := w.conf.keep.toNat, kept := [] }, recorded := t'.recorded ++ [ptr] }) } : World) = w1
    have e1 : modT p (fun t' => { t' with
      col := { t.col with cap := w.conf.keep.toNat, kept := [] }, recorded := t'.recorded ++ [ptr] }) w = (.ok (), w1) := by
      rw [← hw1]; rfl
    rw [TM.bind_ok e1] at hw0
    have g1 : w1.tctxs[p]? = some { t with
      col := { t.col with cap := w.conf.keep.toNat, kept := [] }, recorded := t.recorded ++ [ptr] } := by
      rw [← hw1]; simp [List.getElem?_modify, h]
    obtain ⟨w2, ss, h2, s2, hfl, -⟩ := sendProfile_run g1 (by rw [← hw1]; exact g.bulk) (t.col.kept ++ [ptr])
    rw [h2] at hw0
    cases hw0
    obtain ⟨ps, hp1, hp2⟩ := s2.packs
    refine ⟨afterSending ss.flatten.length (bytesOf w1 ss) ss.flatten { t with
      col := { t.col with cap := w.conf.keep.toNat, kept := [] }, recorded := t.recorded ++ [ptr] }, rfl, g0, ?_⟩
    have hst : w0.steps = w.steps := by rw [s2.steps, ← hw1]
    refine ⟨by rw [s2.env, ← hw1], by rw [s2.conf, ← hw1], by have := s2.tick; rw [← hw1] at this; exact this, by rw [s2.metered, ← hw1], by rw [s2.registry, ← hw1],
      by rw [s2.sampler, ← hw1], hst, ?_, rfl, by simp [afterSending], rfl, rfl, ss, ps, rfl, ?_, ?_, ?_⟩
    · rw [s2.tctxs, set_of_modify g1, ← hw1]
      show (w.tctxs.modify p _).set p _ = _
      rw [set_of_modify h, List.set_set]
    · rw [s2.proxy, hp1, announcing_nil, ← hw1]
    · exact (hp2.later s2.conf fun i _ => by rw [s2.steps]).carrying
    · intro i hi
      rw [hfl] at hi
      rw [hst]
      rcases List.mem_append.mp hi with hi | hi
      · exact gt.ptrs i hi
      · simp at hi; omega

theorem modT_run {w : World} {p : Nat} {t : Tctx} (h : w.tctxs[p]? = some t) (f : Tctx → Tctx) :
    modT p f w = (.ok (), { w with tctxs := w.tctxs.set p (f t) }) := by
  rw [← set_of_modify h f]; rfl

theorem modStep_run {w : World} {p : Nat} {s : Step} (h : w.steps[p]? = some s) (f : Step → Step) :
    modStep p f w = (.ok (), { w with steps := w.steps.set p (f s) }) := by
  rw [← set_of_modify h f]; rfl

theorem getStep_run {w : World} {p : Nat} {s : Step} (h : w.steps[p]? = some s) : getStep p w = (.ok s, w) := by
  simp [getStep, h]

theorem stepAt_zero (t : Tctx) (s : BitVec 32) (b : StepBody) : stepAt t 0 s b = ⟨⟨t.col.parentLevel, t.col.currentLevel, s⟩, b⟩ := by
  simp [stepAt]

/-- Recording a step made already: it gets the next number. -/
theorem profileAdd_run {w : World} {p ptr : Nat} {t : Tctx} {s : Step} (g : Good w) (h : w.tctxs[p]? = some t)
    (hs : w.steps[ptr]? = some s) :
    ∃ w' t', profileAdd p ptr w = (.ok (), w') ∧ Good w' ∧
      Wrote p t t' id [] 1 (w.steps.set ptr (stepAt t 0 s.ss.startTime s.body)) [ptr] t.col.parentLevel w w' := by
  have hk := (List.getElem?_eq_some_iff.mp hs).1
  unfold profileAdd
  have e0 : getStep ptr w = (.ok s, w) := by simp [getStep, hs]
  rw [TM.bind_ok (getT_run h), TM.bind_ok e0]
  generalize hw2 : ({ w with steps := w.steps.set ptr (stepAt t 0 s.ss.startTime s.body), tctxs := w.tctxs.set p { t with
    col := (t.col.addNumber s).1 } } : World) = w2
  have e1 : stepAt t 0 s.ss.startTime s.body = (t.col.addNumber s).2 := by rw [stepAt_zero]; rfl
  rw [TM.bind_ok (modStep_run hs _), TM.bind_ok (modT_run (w := { w with steps := w.steps.set ptr (t.col.addNumber s).2 }) h _)]
  rw [← e1, hw2]
  have h2 : w2.tctxs[p]? = some { t with col := (t.col.addNumber s).1 } := by
    rw [← hw2]; exact getElem?_set_self' h
  have g2 : Good w2 := by
    rw [← hw2]
    refine ⟨g.keep, g.bulk, ?_, g.calm, by simpa using g.regs⟩
    intro x hx
    show GoodT (w.steps.set _ _).length x
    rw [List.length_set]
    rcases List.mem_or_eq_of_mem_set hx with hx | rfl
    · exact g.each x hx
    · have gt := g.each t (List.mem_of_getElem? h)
      exact ⟨gt.room, gt.count, gt.all, gt.ptrs⟩
  obtain ⟨w', t', h3, g3, w3⟩ := profileProcess_run g2 h2 (ptr := ptr) (by rw [← hw2]; simpa using hk)
  refine ⟨w', t', h3, g3, ?_⟩
  refine ⟨by rw [w3.env, ← hw2], by rw [w3.conf, ← hw2], by have := w3.tick; rw [← hw2] at this; exact this, by rw [w3.metered, ← hw2], by rw [w3.registry, ← hw2],
    by rw [w3.sampler, ← hw2], by rw [w3.steps, ← hw2], ?_, w3.fields, ?_, w3.parentLevel, w3.recorded, ?_⟩
  · rw [w3.tctxs, ← hw2, List.set_set]
  · rw [w3.level]; simp [Collector.addNumber]
  · obtain ⟨ss, ps, s1, s2, s3, s4⟩ := w3.sent
    exact ⟨ss, ps, s1, by rw [s2, ← hw2], s3, s4⟩

/-- Recording a new step. -/
theorem addNew_run {w : World} {p : Nat} {t : Tctx} (g : Good w) (h : w.tctxs[p]? = some t) (st : BitVec 32) (b : StepBody) :
    ∃ w' t', addNew p st b w = (.ok (), w') ∧ Good w' ∧
      Wrote p t t' id [] 1 (w.steps ++ [stepAt t 0 st b]) [w.steps.length] t.col.parentLevel w w' := by
  unfold addNew
  have e1 : newStep ⟨⟨0, 0, st⟩, b⟩ w = (.ok w.steps.length, { w with steps := w.steps ++ [⟨⟨0, 0, st⟩, b⟩] }) := rfl
  have g1 : Good { w with steps := w.steps ++ [⟨⟨0, 0, st⟩, b⟩] } :=
    ⟨g.keep, g.bulk, fun t ht => (g.each t ht).mono (by simp), g.calm, g.regs⟩
  obtain ⟨w', t', h2, g2, w2⟩ := profileAdd_run (ptr := w.steps.length) (s := ⟨⟨0, 0, st⟩, b⟩) g1 h (by simp)
  refine ⟨w', t', by rw [TM.bind_ok e1]; exact h2, g2, ⟨w2.env, w2.conf, w2.tick, w2.metered, w2.registry, w2.sampler, ?_, w2.tctxs,
    w2.fields, w2.level, w2.parentLevel, w2.recorded, w2.sent⟩⟩
  rw [w2.steps]
  simp

theorem sendText_exact (k : TextKind) (n : Bytes) (w : World) :
    Trace.sendText k n w = (.ok (textHash n), { w with proxy := (w.proxy.sendText k n).1 }) := by
  simp only [Trace.sendText, ← sendText_hash w.proxy k n]

theorem millisToNow_run (s : Int) (w : World) :
    millisToNow s w = (.ok (millis s (w.env.clock w.tick)), { w with tick := w.tick + 1 }) := rfl

theorem Good.tick {w : World} (g : Good w) (n : Nat) : Good { w with tick := n } := ⟨g.keep, g.bulk, g.each, g.calm, g.regs⟩

theorem Good.text {w : World} (g : Good w) (k : TextKind) (n : Bytes) : Good { w with proxy := (w.proxy.sendText k n).1 } := by
  refine ⟨g.keep, g.bulk, g.each, ?_, g.regs⟩
  unfold NoPanicReported
  show ∀ a ∈ alertsOf (w.proxy.sendText k n).1.direct, _
  rw [sendText_direct]; exact g.calm

theorem Good.set {w : World} {p : Nat} {t t' : Tctx} (g : Good w) (h : w.tctxs[p]? = some t)
    (h' : GoodT w.steps.length t → GoodT w.steps.length t') : Good { w with tctxs := w.tctxs.set p t' } := by
  refine ⟨g.keep, g.bulk, ?_, g.calm, by simpa using g.regs⟩
  intro x hx
  rcases List.mem_or_eq_of_mem_set hx with hx | rfl
  · exact g.each x hx
  · exact h' (g.each t (List.mem_of_getElem? h))

theorem Good.setStep {w : World} {i : Nat} {s : Step} (g : Good w) : Good { w with steps := w.steps.set i s } :=
  ⟨g.keep, g.bulk, fun t ht => (g.each t ht).mono (by simp), g.calm, g.regs⟩

theorem Reachable.good {w : World} (h : Reachable w) : Good w := by
  obtain ⟨env, conf, cap, cs, hk, hb, hwf, rfl⟩ := h
  exact (Good.start env conf cap hk hb).history cs hwf

theorem AllWellFormed.append {cs : List Call} : ∀ {w : World} {ds : List Call}, AllWellFormed w cs → AllWellFormed (history w cs) ds →
    AllWellFormed w (cs ++ ds) := by
  induction cs with
  | nil => intro w ds _ h; exact h
  | cons c cs ih => intro w ds h h'; exact ⟨h.1, ih h.2 h'⟩

theorem Reachable.history {w : World} (h : Reachable w) {cs : List Call} (hcs : AllWellFormed w cs) : Reachable (history w cs) := by
  obtain ⟨env, conf, cap, ds, hk, hb, hwf, rfl⟩ := h
  exact ⟨env, conf, cap, ds ++ cs, hk, hb, hwf.append hcs, by simp [Trace.history]⟩

theorem Reachable.perform {w : World} (h : Reachable w) {c : Call} (hc : WellFormed w c) : Reachable (perform w c) :=
  Reachable.history h (cs := [c]) ⟨hc, trivial⟩

theorem perform_of_run {w w' : World} {c : Call} (h : c.code w = (.ok (), w')) : perform w c = w' := by unfold perform; rw [h]

theorem recovered_run {α : Type} {d a : α} {m : TM α} {w w' : World} (h : m w = (.ok a, w')) : recovered d m w = (.ok a, w') := by
  unfold recovered; rw [h]

theorem traceOf_traced {w : World} {p : Nat} {t : Tctx} (h : w.tctxs[p]? = some t) : traceOf w (.traced p) = some p := by
  simp [traceOf, (List.getElem?_eq_some_iff.mp h).1]

/-! ## Several steps -/

theorem stepsAt_shift {t t' : Tctx} {m : Nat} (hp : t'.col.parentLevel = t.col.parentLevel)
    (hl : t'.col.currentLevel = t.col.currentLevel + BitVec.ofNat 32 m) (xs : List (BitVec 32 × StepBody)) :
    ∀ n, stepsAt t' n xs = stepsAt t (m + n) xs := by
  induction xs with
  | nil => intro n; rfl
  | cons x xs ih =>
    intro n
    simp only [stepsAt]
    rw [ih (n + 1)]
    congr 1
    unfold stepAt
    rw [hp, hl, BitVec.add_assoc]
    congr 3
    apply BitVec.eq_of_toNat_eq
    simp [BitVec.toNat_add]

theorem stepsAt_length (t : Tctx) (xs : List (BitVec 32 × StepBody)) : ∀ n, (stepsAt t n xs).length = xs.length := by
  induction xs with
  | nil => intro n; rfl
  | cons x xs ih => intro n; simp [stepsAt, ih]

theorem stepsAt_append (t : Tctx) (xs ys : List (BitVec 32 × StepBody)) :
    ∀ n, stepsAt t n (xs ++ ys) = stepsAt t n xs ++ stepsAt t (n + xs.length) ys := by
  induction xs with
  | nil => intro n; rfl
  | cons x xs ih =>
    intro n
    simp only [stepsAt, List.cons_append, ih, List.length_cons]
    rw [Nat.add_assoc, Nat.add_comm 1]

section
variable {w w' w'' : World} {p : Nat} {t t' t'' : Tctx}

theorem Wrote.cons {f : Tctx → Tctx} {s : BitVec 32} {b : StepBody} {xs : List (BitVec 32 × StepBody)}
    (a : Wrote p t t' id [] 1 (w.steps ++ [stepAt t 0 s b]) [w.steps.length] t.col.parentLevel w w')
    (c : Wrote p t' t'' f [] xs.length (w'.steps ++ stepsAt t' 0 xs) (List.range' w'.steps.length xs.length) t'.col.parentLevel w' w'')
    (hf : ∀ t t', t.sansProfile = t'.sansProfile → (f t).sansProfile = (f t').sansProfile) :
    Wrote p t t'' f [] (xs.length + 1) (w.steps ++ stepsAt t 0 ((s, b) :: xs)) (List.range' w.steps.length (xs.length + 1))
      t.col.parentLevel w w'' := by
  have hp := a.parentLevel
  have h := a.trans c (fun _ => rfl) (.inl fun _ => rfl) (by
    intro i hi
    rw [a.steps]
    exact List.getElem?_append_left hi) hf
  rw [a.steps, stepsAt_shift (m := 1) hp a.level, hp, List.append_assoc, List.length_append] at h
  rw [List.range'_succ, Nat.add_comm xs.length 1]
  exact h

theorem Wrote.startTime {ts : List (TextKind × Bytes)} {n : Nat} {m : List Step} {r : List Nat} {q : BitVec 32}
    (a : Wrote p t t' id ts n m r q w w') : t'.startTime = t.startTime := by
  have : t'.sansProfile.startTime = t.sansProfile.startTime := by rw [a.fields]; rfl
  exact this

theorem ReadDuring.later {s : BitVec 32} {w0 : World} (h : ReadDuring t' w' w'' s) (h1 : w0.tick ≤ w'.tick) (h2 : w'.env = w0.env)
    (h3 : t'.startTime = t.startTime) : ReadDuring t w0 w'' s := by
  obtain ⟨k, a, b, c⟩ := h
  exact ⟨k, Nat.le_trans h1 a, b, by rw [c, h2, h3]⟩

theorem ReadDuring.longer {s : BitVec 32} (h : ReadDuring t w w' s) (h1 : w'.tick ≤ w''.tick) : ReadDuring t w w'' s := by
  obtain ⟨k, a, b, c⟩ := h
  exact ⟨k, a, Nat.lt_of_lt_of_le b h1, c⟩

end

theorem addMessages_run (st : BitVec 32) (ms : List Bytes) : ∀ {w : World} {p : Nat} {t : Tctx}, Good w → w.tctxs[p]? = some t →
    ∃ w' t', addMessages p st ms w = (.ok (), w') ∧ Good w' ∧
      Wrote p t t' id [] ms.length (w.steps ++ stepsAt t 0 (ms.map fun m => (st, .message m)))
        (List.range' w.steps.length ms.length) t.col.parentLevel w w' := by
  induction ms with
  | nil =>
    intro w p t g h
    refine ⟨w, t, rfl, g, ?_⟩
    have := Wrote.refl h
    simpa [stepsAt] using this
  | cons m ms ih =>
    intro w p t g h
    obtain ⟨w1, t1, h1, g1, a1⟩ := addNew_run g h st (.message m)
    obtain ⟨w2, t2, h2, g2, a2⟩ := ih g1 (a1.ctx h)
    refine ⟨w2, t2, by unfold addMessages; rw [TM.bind_ok h1]; exact h2, g2, ?_⟩
    have := a1.cons (xs := ms.map fun m => (st, .message m)) (f := id) (by simpa using a2) (fun _ _ h => h)
    simpa using this

theorem addParams_run (ps : List (Option Bytes)) : ∀ {w : World} {p : Nat} {t : Tctx}, Good w → w.tctxs[p]? = some t →
    ∃ w' t' xs, addParams p ps w = (.ok (), w') ∧ Good w' ∧
      xs.map (·.2) = (ps.filterMap id).map (fun s => StepBody.message (ascii "param: " ++ s)) ∧
      (∀ x ∈ xs, ReadDuring t w w' x.1) ∧
      Wrote p t t' id [] xs.length (w.steps ++ stepsAt t 0 xs) (List.range' w.steps.length xs.length) t.col.parentLevel w w' := by
  induction ps with
  | nil =>
    intro w p t g h
    refine ⟨w, t, [], rfl, g, rfl, by simp, ?_⟩
    have := Wrote.refl h
    simpa [stepsAt] using this
  | cons x ps ih =>
    intro w p t g h
    cases x with
    | none => exact ih g h
    | some s =>
      obtain ⟨w1, t1, h1, g1, a1⟩ := addNew_run (g.tick (w.tick + 2)) h (millis t.startTime (w.env.clock (w.tick + 1)))
        (.message (ascii "param: " ++ s))
      have a1 : Wrote p t t1 id [] 1 (w.steps ++ [stepAt t 0 (millis t.startTime (w.env.clock (w.tick + 1))) (.message (ascii "param: " ++ s))])
        [w.steps.length] t.col.parentLevel w w1 := a1.ticked (Nat.le_add_right _ _)
      have ht1 : w.tick + 2 ≤ w1.tick := by
        obtain ⟨w1', t1', h1', -, a1'⟩ := addNew_run (g.tick (w.tick + 2)) h (millis t.startTime (w.env.clock (w.tick + 1)))
          (.message (ascii "param: " ++ s))
        rw [h1] at h1'
        cases h1'
        exact a1'.tick
      obtain ⟨w2, t2, xs, h2, g2, hx, hr, a2⟩ := ih g1 (a1.ctx h)
      refine ⟨w2, t2, (millis t.startTime (w.env.clock (w.tick + 1)), .message (ascii "param: " ++ s)) :: xs, ?_, g2, ?_, ?_, ?_⟩
      · unfold addParams
        rw [TM.bind_ok (getT_run h), TM.bind_ok (millisToNow_run _ _), TM.bind_ok (millisToNow_run _ _), TM.bind_ok h1]
        exact h2
      · simp [hx]
      · intro x hxm
        rcases List.mem_cons.mp hxm with rfl | hxm
        · exact ⟨w.tick + 1, by omega, by have := a2.tick; omega, rfl⟩
        · exact (hr x hxm).later a1.tick a1.env a1.startTime
      · exact a1.cons a2 (fun _ _ h => h)

/-- Making a step and opening it: it is numbered but not recorded yet, and later steps belong to it. -/
theorem newPush_run {β : Type} {w : World} {p : Nat} {t : Tctx} (g : Good w) (h : w.tctxs[p]? = some t) (st : BitVec 32) (b : StepBody)
    (f : Nat → TM β) :
    ∃ w' t', (newStep ⟨⟨0, 0, st⟩, b⟩ >>= fun i => profilePush p i >>= fun _ => f i) w = f w.steps.length w' ∧ Good w' ∧ w'.tick = w.tick ∧
      Wrote p t t' id [] 1 (w.steps ++ [stepAt t 0 st b]) [] t.col.currentLevel w w' := by
  have e1 : newStep ⟨⟨0, 0, st⟩, b⟩ w = (.ok w.steps.length, { w with steps := w.steps ++ [⟨⟨0, 0, st⟩, b⟩] }) := rfl
  have g1 : Good { w with steps := w.steps ++ [⟨⟨0, 0, st⟩, b⟩] } :=
    ⟨g.keep, g.bulk, fun t ht => (g.each t ht).mono (by simp), g.calm, g.regs⟩
  have hs : ({ w with steps := w.steps ++ [⟨⟨0, 0, st⟩, b⟩] } : World).steps[w.steps.length]? = some ⟨⟨0, 0, st⟩, b⟩ := by simp
  have hst : ∀ s : Step, (w.steps ++ [(⟨⟨0, 0, st⟩, b⟩ : Step)]).set w.steps.length s = w.steps ++ [s] := by intro s; simp
  refine ⟨{ w with steps := w.steps ++ [stepAt t 0 st b], tctxs := w.tctxs.set p { t with col := (t.col.push ⟨⟨0, 0, st⟩, b⟩).1 } },
    { t with col := (t.col.push ⟨⟨0, 0, st⟩, b⟩).1 }, ?_, ?_, rfl, ?_⟩
  · rw [TM.bind_ok e1]
    unfold profilePush
    have e2 : (getT p >>= fun t => getStep w.steps.length >>= fun s => modStep w.steps.length (fun _ => (t.col.push s).2) >>= fun _ =>
        modT p (fun t => { t with col := (t.col.push s).1 })) { w with steps := w.steps ++ [⟨⟨0, 0, st⟩, b⟩] } =
        (.ok (), { w with steps := w.steps ++ [stepAt t 0 st b], tctxs := w.tctxs.set p { t with col := (t.col.push ⟨⟨0, 0, st⟩, b⟩).1 } }) := by
      rw [TM.bind_ok (getT_run (w := { w with steps := w.steps ++ [⟨⟨0, 0, st⟩, b⟩] }) h), TM.bind_ok (getStep_run hs), TM.bind_ok (modStep_run hs _)]
      apply Eq.trans
      · apply modT_run (t := t); exact h
      simp only [hst, stepAt_zero]
      rfl
    exact (TM.bind_ok e2)
  · refine ⟨g.keep, g.bulk, ?_, g.calm, by simpa using g.regs⟩
    intro x hx
    show GoodT (w.steps ++ [stepAt t 0 st b]).length x
    have hl : w.steps.length ≤ (w.steps ++ [stepAt t 0 st b]).length := by simp
    rcases List.mem_or_eq_of_mem_set hx with hx | rfl
    · exact (g.each x hx).mono hl
    · have gt := (g.each t (List.mem_of_getElem? h)).mono hl
      exact ⟨gt.room, gt.count, gt.all, gt.ptrs⟩
  · exact ⟨rfl, rfl, Nat.le_refl _, rfl, rfl, rfl, rfl, rfl, rfl, rfl, rfl, by simp, [], [], by simp, by simp [announcing_nil],
      .nil, by simp⟩

/-- Closing a step: it is recorded, and later steps belong to what it belongs to. -/
theorem profilePop_run {w : World} {p ptr : Nat} {t : Tctx} {s : Step} (g : Good w) (h : w.tctxs[p]? = some t)
    (hs : w.steps[ptr]? = some s) :
    ∃ w' t', profilePop p ptr w = (.ok (), w') ∧ Good w' ∧ Wrote p t t' id [] 0 w.steps [ptr] s.ss.parent w w' := by
  unfold profilePop
  rw [TM.bind_ok (getStep_run hs), TM.bind_ok (modT_run h _)]
  obtain ⟨w', t', h1, g1, a1⟩ := profileProcess_run (p := p) (ptr := ptr) (w := { w with tctxs := w.tctxs.set p { t with col := t.col.popParent s } })
    (g.set h fun g => ⟨g.room, g.count, g.all, g.ptrs⟩) (getElem?_set_self' h) (List.getElem?_eq_some_iff.mp hs).1
  refine ⟨w', t', h1, g1, a1.env, a1.conf, a1.tick, a1.metered, a1.registry, a1.sampler, a1.steps, ?_, a1.fields, a1.level,
    a1.parentLevel, a1.recorded, ?_⟩
  · rw [a1.tctxs]; exact List.set_set ..
  · obtain ⟨ss, ps, s1, s2, s3, s4⟩ := a1.sent
    exact ⟨ss, ps, s1, s2, s3, s4⟩

end Scouter
