import Verif.Spec.References
import Verif.Model.Calls
import Verif.Proofs.Trace
/-!
# References to texts: what every piece of code keeps
-/
namespace Scouter
open Spec TM Trace

theorem Known.mono {a b : List TextPack} (h : a <+: b) {k : TextKind} {x : BitVec 32} (hk : Known a k x) : Known b k x := by
  rcases hk with h0 | ⟨t, ht, hc⟩
  · exact Or.inl h0
  · exact Or.inr ⟨t, h.subset ht, hc⟩

theorem Known.subset {a b : List TextPack} (h : ∀ t ∈ a, t ∈ b) {k : TextKind} {x : BitVec 32} (hk : Known a k x) : Known b k x := by
  rcases hk with h0 | ⟨t, ht, hc⟩
  · exact Or.inl h0
  · exact Or.inr ⟨t, h _ ht, hc⟩

namespace Refs

/-- The announcements counted: those after the first `n`. -/
def ann (n : Nat) (w : World) : List TextPack := w.proxy.offered.drop n

/-- Every announcement so far remains. -/
def Le (w w' : World) : Prop := w.proxy.offered <+: w'.proxy.offered

theorem Le.refl (w : World) : Le w w := List.prefix_refl _
theorem Le.trans {a b c : World} (h1 : Le a b) (h2 : Le b c) : Le a c := List.IsPrefix.trans h1 h2
theorem Le.of_eq {w w' : World} (h : w'.proxy.offered = w.proxy.offered) : Le w w' := by unfold Le; rw [h]; exact List.prefix_refl _

theorem Le.ann {w w' : World} (h : Le w w') {n : Nat} : ∀ t ∈ ann n w, t ∈ Refs.ann n w' := by
  obtain ⟨l, hl⟩ := h
  intro t ht
  unfold Refs.ann at *
  rw [← hl, List.drop_append]
  exact List.mem_append_left _ ht

/-- A text of this kind and hash is known in the world. -/
abbrev K (n : Nat) (k : TextKind) (h : BitVec 32) (w : World) : Prop := Known (ann n w) k h

theorem K.le {n : Nat} {k : TextKind} {h : BitVec 32} {w w' : World} (hk : K n k h w) (hl : Le w w') : K n k h w' := hk.subset hl.ann

/-- The references of a step are known. -/
def KS (n : Nat) (s : Step) (w : World) : Prop := ∀ r ∈ stepRefs s, K n r.1 r.2 w

theorem KS.le {n : Nat} {s : Step} {w w' : World} (hk : KS n s w) (hl : Le w w') : KS n s w' := fun r hr => (hk r hr).le hl

/-- The references of a context are known. -/
structure KT (n : Nat) (t : Tctx) (w : World) : Prop where
  service : K n .service t.serviceHash w
  error : K n .error t.error w
  userAgent : K n .userAgent t.userAgent w
  referer : K n .referer t.referer w

theorem KT.le {n : Nat} {t : Tctx} {w w' : World} (hk : KT n t w) (hl : Le w w') : KT n t w' :=
  ⟨hk.service.le hl, hk.error.le hl, hk.userAgent.le hl, hk.referer.le hl⟩

/-- The references of a pack are known; all of them, or (`full` being false) those announced when a service ends. -/
def KP (n : Nat) (full : Prop) (p : Pack) (w : World) : Prop :=
  match p with
  | .xlog x => (∀ r ∈ resentRefs x, K n r.1 r.2 w) ∧ (full → ∀ r ∈ keptRefs x, K n r.1 r.2 w)
  | .profile pk => full → K n .service pk.service w ∧ ∃ ss : List Step, pk.profile = stepsToBytes (ss.map some) ∧ ∀ s ∈ ss, KS n s w
  | .object o => K n .object o.objHash w
  | _ => True

theorem KP.le {n : Nat} {full : Prop} {p : Pack} {w w' : World} (hk : KP n full p w) (hl : Le w w') : KP n full p w' := by
  cases p with
  | xlog x => exact ⟨fun r hr => (hk.1 r hr).le hl, fun hf r hr => (hk.2 hf r hr).le hl⟩
  | profile pk => exact fun hf => ⟨(hk hf).1.le hl, by obtain ⟨ss, h1, h2⟩ := (hk hf).2; exact ⟨ss, h1, fun s hs => (h2 s hs).le hl⟩⟩
  | object o => exact Known.subset hl.ann hk
  | _ => trivial

/-- What is kept: announcements are counted from the `n`-th, packs from the `d`-th. -/
structure Inv (n d : Nat) (full : Prop) (w : World) : Prop where
  some' : n ≤ w.proxy.offered.length
  cached : ∀ k h, (w.proxy.sent k).contains h = true → K n k h w
  ctxs : full → ∀ t ∈ w.tctxs, KT n t w
  steps : full → ∀ s ∈ w.steps, KS n s w
  packs : ∀ p ∈ w.proxy.direct.drop d, KP n full p w

/-- From a world that is at least `w0` the code keeps all this and its result is such. -/
def S (n d : Nat) (full : Prop) (w0 : World) {α : Type} (m : TM α) (Q : World → α → Prop) : Prop :=
  ∀ w, Le w0 w → Inv n d full w → Le w (m w).2 ∧ Inv n d full (m w).2 ∧ ∀ a, (m w).1 = .ok a → Q (m w).2 a

variable {n d : Nat} {full : Prop} {w0 : World} {α β : Type}

theorem S.bind {m : TM α} {f : α → TM β} {Q : World → α → Prop} {R : World → β → Prop} (h : S n d full w0 m Q)
    (hf : ∀ w1 a, Le w0 w1 → Q w1 a → S n d full w1 (f a) R) : S n d full w0 (m >>= f) R := by
  intro w hl hi
  obtain ⟨h1, h2, h3⟩ := h w hl hi
  rw [TM.bind_def]
  rcases hm : m w with ⟨r, w'⟩
  rw [hm] at h1 h2 h3
  cases r with
  | ok a =>
    obtain ⟨g1, g2, g3⟩ := hf w' a (hl.trans h1) (h3 a rfl) w' (Le.refl _) h2
    exact ⟨h1.trans g1, g2, g3⟩
  | panic => exact ⟨h1, h2, fun a ha => by simp at ha⟩

theorem S.weaken {m : TM α} {Q R : World → α → Prop} (h : S n d full w0 m Q) (hq : ∀ w a, Le w0 w → Q w a → R w a) : S n d full w0 m R := by
  intro w hl hi
  obtain ⟨h1, h2, h3⟩ := h w hl hi
  exact ⟨h1, h2, fun a ha => hq _ _ (hl.trans h1) (h3 a ha)⟩

abbrev Any : World → α → Prop := fun _ _ => True

theorem S.pure (a : α) {Q : World → α → Prop} (h : ∀ w, Le w0 w → Q w a) : S n d full w0 (Pure.pure a : TM α) Q :=
  fun w hl hi => ⟨Le.refl _, hi, fun b hb => by cases hb; exact h w hl⟩
theorem S.done (a : α) : S n d full w0 (Pure.pure a : TM α) Any := S.pure a fun _ _ => trivial
theorem S.panic {Q : World → α → Prop} : S n d full w0 (TM.panic : TM α) Q := fun w _ hi => ⟨Le.refl _, hi, fun b hb => by cases hb⟩
theorem S.get : S n d full w0 TM.get (fun w a => Inv n d full a ∧ Le a w) := fun w _ hi => ⟨Le.refl _, hi, fun b hb => by cases hb; exact ⟨hi, Le.refl _⟩⟩
theorem S.ite {c : Prop} [Decidable c] {m k : TM α} {Q : World → α → Prop} (hm : c → S n d full w0 m Q) (hk : ¬ c → S n d full w0 k Q) :
    S n d full w0 (if c then m else k) Q := by
  split
  · exact hm ‹_›
  · exact hk ‹_›
theorem S.later {w1 : World} {m : TM α} {Q : World → α → Prop} (h : S n d full w0 m Q) (hl : Le w0 w1) : S n d full w1 m Q :=
  fun w h1 hi => h w (hl.trans h1) hi

/-- A change that leaves alone what matters here. -/
theorem Inv.of_eq {w w' : World} (h : Inv n d full w) (hp : w'.proxy.offered = w.proxy.offered) (hs : w'.proxy.sent = w.proxy.sent)
    (hd : w'.proxy.direct = w.proxy.direct) (ht : w'.tctxs = w.tctxs) (hst : w'.steps = w.steps) : Inv n d full w' := by
  have hl : Le w w' := Le.of_eq hp
  refine ⟨by rw [hp]; exact h.some', ?_, ?_, ?_, ?_⟩
  · intro k x hx
    rw [hs] at hx
    exact (h.cached k x hx).le hl
  · intro hf t hm
    rw [ht] at hm
    exact (h.ctxs hf t hm).le hl
  · intro hf s hm
    rw [hst] at hm
    exact (h.steps hf s hm).le hl
  · intro p hm
    rw [hd] at hm
    exact (h.packs p hm).le hl

theorem S.same {m : TM α} (h : ∀ w, (m w).2.proxy.offered = w.proxy.offered ∧ (m w).2.proxy.sent = w.proxy.sent ∧
    (m w).2.proxy.direct = w.proxy.direct ∧ (m w).2.tctxs = w.tctxs ∧ (m w).2.steps = w.steps) : S n d full w0 m Any := by
  intro w _ hi
  obtain ⟨h1, h2, h3, h4, h5⟩ := h w
  exact ⟨Le.of_eq h1, hi.of_eq h1 h2 h3 h4 h5, fun _ _ => trivial⟩

theorem S.reading (f : Oracle → Nat → α) : S n d full w0 (TM.reading f) Any := S.same fun _ => ⟨rfl, rfl, rfl, rfl, rfl⟩

theorem S.getT (p : Nat) : S n d full w0 (Trace.getT p) (fun w t => full → KT n t w) := by
  intro w _ hi
  unfold Trace.getT
  cases h : w.tctxs[p]? with
  | none => exact ⟨Le.refl _, hi, fun a ha => by cases ha⟩
  | some t => exact ⟨Le.refl _, hi, fun a ha => by cases ha; exact fun hf => hi.ctxs hf t (List.mem_of_getElem? h)⟩

theorem S.getStep (p : Nat) : S n d full w0 (Trace.getStep p) (fun w s => full → KS n s w) := by
  intro w _ hi
  unfold Trace.getStep
  cases h : w.steps[p]? with
  | none => exact ⟨Le.refl _, hi, fun a ha => by cases ha⟩
  | some t => exact ⟨Le.refl _, hi, fun a ha => by cases ha; exact fun hf => hi.steps hf t (List.mem_of_getElem? h)⟩

theorem mem_modify {γ : Type} {l : List γ} {i : Nat} {f : γ → γ} {x : γ} (h : x ∈ l.modify i f) : x ∈ l ∨ ∃ y ∈ l, x = f y := by
  obtain ⟨j, hj⟩ := List.getElem?_of_mem h
  rw [List.getElem?_modify] at hj
  cases hy : l[j]? with
  | none => rw [hy] at hj; simp at hj
  | some y =>
    rw [hy] at hj
    have hm := List.mem_of_getElem? hy
    by_cases e : i = j
    · simp only [e, if_true, Option.map_eq_map, Option.map_some, Option.some.injEq] at hj; exact Or.inr ⟨y, hm, hj.symm⟩
    · simp only [e, if_false, Option.map_eq_map, Option.map_some, Option.some.injEq, id] at hj; exact Or.inl (hj ▸ hm)

theorem S.modT (p : Nat) (f : Tctx → Tctx) (h : full → ∀ t w, Le w0 w → KT n t w → KT n (f t) w) : S n d full w0 (Trace.modT p f) Any := by
  intro w hl hi
  refine ⟨Le.refl w, ⟨hi.some', hi.cached, fun hf t ht => ?_, hi.steps, hi.packs⟩, fun _ _ => trivial⟩
  rcases mem_modify ht with h1 | ⟨y, h1, rfl⟩
  · exact (hi.ctxs hf t h1).le (Le.refl w)
  · exact (h hf y w hl (hi.ctxs hf y h1)).le (Le.refl w)

theorem S.modStep (p : Nat) (f : Step → Step) (h : full → ∀ t w, Le w0 w → KS n t w → KS n (f t) w) : S n d full w0 (Trace.modStep p f) Any := by
  intro w hl hi
  refine ⟨Le.refl w, ⟨hi.some', hi.cached, fun hf t ht => (hi.ctxs hf t ht).le (Le.refl w), fun hf t ht => ?_, hi.packs⟩, fun _ _ => trivial⟩
  rcases mem_modify ht with h1 | ⟨y, h1, rfl⟩
  · exact hi.steps hf t h1
  · exact h hf y w hl (hi.steps hf y h1)

theorem S.newStep (s : Step) (h : full → ∀ w, Le w0 w → KS n s w) : S n d full w0 (Trace.newStep s) Any := by
  intro w hl hi
  refine ⟨Le.refl w, ⟨hi.some', hi.cached, fun hf t ht => (hi.ctxs hf t ht).le (Le.refl w), fun hf t ht => ?_, hi.packs⟩, fun _ _ => trivial⟩
  rcases List.mem_append.1 ht with h1 | h1
  · exact hi.steps hf t h1
  · rw [List.mem_singleton] at h1
    subst h1
    exact h hf w hl

theorem S.sendDirect (p : Pack) (h : ∀ w, Le w0 w → KP n full p w) : S n d full w0 (Trace.sendDirect p) Any := by
  intro w hl hi
  refine ⟨Le.refl w, ⟨hi.some', hi.cached, fun hf t ht => (hi.ctxs hf t ht).le (Le.refl w), hi.steps, fun q hq => ?_⟩, fun _ _ => trivial⟩
  have hq : q ∈ (w.proxy.direct ++ [p]).drop d := hq
  rw [List.drop_append, List.mem_append] at hq
  rcases hq with h1 | h1
  · exact hi.packs q h1
  · have := List.mem_of_mem_drop h1
    rw [List.mem_singleton] at this
    subst this
    exact h w hl

theorem contains_add {c : Cache (BitVec 32) Unit} {x y : BitVec 32} (h : (c.add x (some ())).contains y = true) : c.contains y = true ∨ y = x := by
  unfold Cache.add at h
  split at h
  · exact Or.inl h
  · have key : ∀ t : List (BitVec 32 × Nat), (∀ e ∈ t, e ∈ c.table ++ [(x, c.next)]) → (t.lookup y).isSome = true → c.contains y = true ∨ y = x := by
      intro t ht hs
      obtain ⟨v, hv⟩ := Option.isSome_iff_exists.1 hs
      have : (y, v) ∈ t := by
        clear ht hs
        induction t with
        | nil => simp at hv
        | cons a as ih =>
          rw [List.lookup_cons] at hv
          split at hv
          · rename_i e
            have : y = a.1 := by simpa using e
            cases hv
            rw [this]; simp
          · exact List.mem_cons_of_mem _ (ih hv)
      rcases List.mem_append.1 (ht _ this) with h1 | h1
      · left
        unfold Cache.contains
        clear hs hv ht this h
        rename_i hlook
        clear hlook
        generalize c.table = tb at *
        induction tb with
        | nil => simp at h1
        | cons a as ih =>
          rw [List.lookup_cons]
          split
          · rfl
          · rename_i e
            rcases List.mem_cons.1 h1 with h2 | h2
            · subst h2; simp at e
            · exact ih h2
      · simp at h1; exact Or.inr h1.1
    simp only at h
    split at h
    · unfold Cache.removeOldest at h
      split at h
      · unfold Cache.removeElement Cache.callback Cache.contains at h
        refine key _ ?_ (by split at h <;> exact h)
        intro e he
        exact (List.mem_filter.1 he).1
      · exact key _ (fun e he => he) h
    · exact key _ (fun e he => he) h

theorem S.sendText (k : TextKind) (name : Bytes) : S n d full w0 (Trace.sendText k name) (fun w h => K n k h w) := by
  intro w _ hi
  unfold Trace.sendText Proxy.sendText
  by_cases hn : name = []
  · rw [if_pos hn]
    exact ⟨Le.refl _, hi.of_eq rfl rfl rfl rfl rfl, fun a ha => by cases ha; exact Or.inl rfl⟩
  · rw [if_neg hn]
    simp only
    by_cases hc : (w.proxy.sent k).contains (hash name) = true
    · rw [if_pos hc]
      exact ⟨Le.refl _, hi.of_eq rfl rfl rfl rfl rfl, fun a ha => by cases ha; exact hi.cached k _ hc⟩
    · rw [if_neg hc]
      simp only [Proxy.addPack]
      have hle : w.proxy.offered <+: w.proxy.offered ++ [(⟨k.textType, hash name, name⟩ : TextPack)] := List.prefix_append _ _
      have hnew : Known ((w.proxy.offered ++ [(⟨k.textType, hash name, name⟩ : TextPack)]).drop n) k (hash name) := by
        refine Or.inr ⟨name, ?_, (C16_hash_is_crc32 name).symm⟩
        rw [List.drop_append_of_le_length hi.some', kindCode_eq]
        simp
      have old : ∀ k' h', K n k' h' w → Known ((w.proxy.offered ++ [(⟨k.textType, hash name, name⟩ : TextPack)]).drop n) k' h' := by
        intro k' h' hk
        refine hk.subset fun t ht => ?_
        rw [List.drop_append]
        exact List.mem_append_left _ ht
      refine ⟨hle, ⟨?_, ?_, ?_, ?_, ?_⟩, fun a ha => by cases ha; exact hnew⟩
      · simpa using Nat.le_succ_of_le hi.some'
      · intro k' h' hx
        simp only at hx
        by_cases e : k' = k
        · subst e
          rw [if_pos rfl] at hx
          rcases contains_add hx with h1 | h1
          · exact old _ _ (hi.cached _ _ h1)
          · exact h1 ▸ hnew
        · rw [if_neg e] at hx
          exact old _ _ (hi.cached _ _ hx)
      · exact fun hf t ht => ⟨old _ _ (hi.ctxs hf t ht).service, old _ _ (hi.ctxs hf t ht).error, old _ _ (hi.ctxs hf t ht).userAgent,
          old _ _ (hi.ctxs hf t ht).referer⟩
      · exact fun hf s hs r hr => old _ _ (hi.steps hf s hs r hr)
      · exact fun p hp => (hi.packs p hp).le hle

theorem S.recovered (a : α) {m : TM α} {Q : World → α → Prop} (h : S n d full w0 m Q) (hd : ∀ w, Le w0 w → Q w a) : S n d full w0 (Trace.recovered a m) Q := by
  intro w hl hi
  obtain ⟨h1, h2, h3⟩ := h w hl hi
  unfold Trace.recovered
  rcases hm : m w with ⟨r, w'⟩
  rw [hm] at h1 h2 h3
  cases r with
  | ok b => exact ⟨h1, h2, h3⟩
  | panic =>
    have : S n d full w' (do let text ← TM.reading (·.panicText); Trace.sendAlert 3 (ascii "Panic") text; return a) Q := by
      refine S.bind (S.reading _) fun w1 t hl1 _ => ?_
      refine S.bind (Q := Any) ?_ fun w2 _ hl2 _ => S.pure _ fun w3 hl3 => hd w3 (hl.trans (h1.trans (hl1.trans (hl2.trans hl3))))
      unfold Trace.sendAlert
      refine S.ite (fun _ => S.done _) fun _ => S.bind S.get fun _ _ _ _ => S.sendDirect _ fun _ _ => trivial
    obtain ⟨g1, g2, g3⟩ := this w' (Le.refl _) h2
    exact ⟨h1.trans g1, g2, g3⟩

theorem S.withTrace (c : Ctx) (a : α) {f : Nat → TM α} {Q : World → α → Prop} (h : ∀ p, S n d full w0 (f p) Q) (hd : ∀ w, Le w0 w → Q w a) :
    S n d full w0 (Trace.withTrace c a f) Q := by
  unfold Trace.withTrace
  refine S.bind S.get fun w1 x hl _ => ?_
  split
  · exact (h _).later hl
  · exact S.pure _ fun w hl' => hd w (hl.trans hl')

/-! ## The code -/

section code
variable {n d : Nat} {full : Prop} {w0 : World}

theorem stepsToBytes_filterMap {γ : Type} (f : γ → Option Step) (l : List γ) : stepsToBytes (l.map f) = stepsToBytes ((l.filterMap f).map some) := by
  unfold stepsToBytes
  congr 1
  generalize Out.new = o
  induction l generalizing o with
  | nil => rfl
  | cons a as ih =>
    simp only [List.map_cons, List.foldl_cons, List.filterMap_cons]
    cases f a with
    | none => exact ih o
    | some s => exact ih _

theorem s_sendProfile0 (p : Nat) (ptrs : List Nat) : S n d full w0 (sendProfile0 p ptrs) Any := by
  unfold sendProfile0
  refine S.ite (fun _ => S.done _) fun _ => ?_
  refine S.bind (S.getT p) fun w1 t hl1 ht => ?_
  refine S.bind S.get fun w2 w hl2 hw => ?_
  refine S.bind (S.reading _) fun w3 now hl3 _ => ?_
  refine S.bind (S.modT _ _ ?_) fun w4 _ hl4 _ => ?_
  · exact fun _ t w _ h => ⟨h.service, h.error, h.userAgent, h.referer⟩
  · refine S.sendDirect _ fun w5 hl5 hf => ⟨(ht hf).service.le (hl2.trans (hl3.trans (hl4.trans hl5))), _, stepsToBytes_filterMap _ _, ?_⟩
    intro s hs
    obtain ⟨i, -, hi⟩ := List.mem_filterMap.1 hs
    exact (hw.1.steps hf s (List.mem_of_getElem? hi)).le (hw.2.trans (hl3.trans (hl4.trans hl5)))

theorem s_sendSlices (p : Nat) (ss : List (List Nat)) : ∀ {w0 : World}, S n d full w0 (sendSlices p ss) Any := by
  induction ss with
  | nil => intro w0; exact S.done _
  | cons a as ih => intro w0; exact S.bind (s_sendProfile0 p a) fun _ _ _ _ => ih

theorem s_sendProfile (p : Nat) (ptrs : List Nat) : S n d full w0 (sendProfile p ptrs) Any := by
  unfold sendProfile
  refine S.bind S.get fun _ _ _ _ => ?_
  split
  · exact s_sendSlices _ _
  · exact S.panic

theorem modT_keep (p : Nat) (f : Tctx → Tctx) (h1 : ∀ t, (f t).serviceHash = t.serviceHash := by intro _; rfl) (h2 : ∀ t, (f t).error = t.error := by intro _; rfl)
    (h3 : ∀ t, (f t).userAgent = t.userAgent := by intro _; rfl) (h4 : ∀ t, (f t).referer = t.referer := by intro _; rfl) : S n d full w0 (modT p f) Any :=
  S.modT p f fun _ t w _ h => ⟨by rw [h1]; exact h.service, by rw [h2]; exact h.error, by rw [h3]; exact h.userAgent, by rw [h4]; exact h.referer⟩

theorem s_profileProcess (p ptr : Nat) : S n d full w0 (profileProcess p ptr) Any := by
  unfold profileProcess
  refine S.bind (S.getT p) fun _ _ _ _ => S.bind S.get fun _ _ _ _ => ?_
  split
  · exact modT_keep _ _
  · exact S.bind (modT_keep _ _) fun _ _ _ _ => s_sendProfile _ _
  · exact S.bind (modT_keep _ _) fun _ _ _ _ => S.panic

theorem s_profilePush (p ptr : Nat) : S n d full w0 (profilePush p ptr) Any := by
  unfold profilePush
  refine S.bind (S.getT p) fun w1 t hl1 ht => S.bind (S.getStep ptr) fun w2 s hl2 hs => ?_
  refine S.bind (S.modStep _ _ fun hf _ w hl _ => ?_) fun _ _ _ _ => modT_keep _ _
  exact (hs hf).le hl

theorem s_profilePop (p ptr : Nat) : S n d full w0 (profilePop p ptr) Any := by
  unfold profilePop
  exact S.bind (S.getStep ptr) fun w2 s hl2 hs => S.bind (modT_keep _ _) fun _ _ _ _ => s_profileProcess _ _

theorem s_profileAdd (p ptr : Nat) : S n d full w0 (profileAdd p ptr) Any := by
  unfold profileAdd
  refine S.bind (S.getT p) fun w1 t hl1 ht => S.bind (S.getStep ptr) fun w2 s hl2 hs => ?_
  refine S.bind (S.modStep _ _ fun hf _ w hl _ => ?_) fun _ _ _ _ => S.bind (modT_keep _ _) fun _ _ _ _ => s_profileProcess _ _
  exact (hs hf).le hl

theorem s_profileClose (p : Nat) (ok : Bool) : S n d full w0 (profileClose p ok) Any := by
  unfold profileClose
  refine S.bind (S.getT p) fun _ _ _ _ => ?_
  split
  · exact s_sendProfile _ _
  · exact S.done _

theorem s_addNew (p : Nat) (st : BitVec 32) (b : StepBody) (h : full → ∀ w, Le w0 w → KS n ⟨⟨0, 0, st⟩, b⟩ w) : S n d full w0 (addNew p st b) Any := by
  unfold addNew
  exact S.bind (S.newStep _ h) fun _ _ _ _ => s_profileAdd _ _

theorem ks_message (st : SingleStep) (m : Bytes) (w : World) : KS n ⟨st, .message m⟩ w := by intro r hr; simp [stepRefs] at hr

theorem s_addMessage (p : Nat) (st : BitVec 32) (m : Bytes) : S n d full w0 (addNew p st (.message m)) Any := s_addNew _ _ _ fun _ _ _ => ks_message _ _ _

theorem s_millisToNow (s : Int) : S n d full w0 (millisToNow s) Any := S.bind (S.reading _) fun _ _ _ _ => S.done _

theorem s_newTraceContext : S n d full w0 newTraceContext Any := by
  unfold newTraceContext
  refine S.bind (S.reading _) fun _ id _ _ => S.bind (S.reading _) fun _ st _ _ => S.bind S.get fun _ _ _ _ => ?_
  split
  · exact S.panic
  · rename_i col _
    refine S.bind (Q := Any) ?_ fun _ _ _ _ => S.done _
    intro w hl hi
    refine ⟨Le.refl w, ⟨hi.some', hi.cached, fun hf t ht => ?_, hi.steps, hi.packs⟩, fun _ _ => trivial⟩
    rcases List.mem_append.1 ht with h1 | h1
    · exact (hi.ctxs hf t h1).le (Le.refl w)
    · rw [List.mem_singleton] at h1
      subst h1
      exact ⟨Or.inl rfl, Or.inl rfl, Or.inl rfl, Or.inl rfl⟩

theorem s_register (p : Nat) : S n d full w0 (register p) Any :=
  S.bind (S.getT p) fun _ _ _ _ => S.same fun _ => ⟨rfl, rfl, rfl, rfl, rfl⟩

theorem s_startRest (p : Nat) (name addr : Bytes) : S n d full w0 (startRest p name addr) Any := by
  unfold startRest
  refine S.bind (modT_keep _ _) fun _ _ _ _ => S.bind (S.reading _) fun _ _ _ _ => S.bind (modT_keep _ _) fun _ _ _ _ => ?_
  refine S.bind (s_addMessage _ _ _) fun _ _ _ _ => S.bind (modT_keep _ _) fun _ _ _ _ => S.bind (S.sendText _ _) fun w1 h _ hk => ?_
  exact S.modT _ _ fun _ t w hl ht => ⟨hk.le hl, ht.error, ht.userAgent, ht.referer⟩

theorem s_startService (name addr : Bytes) : S n d full w0 (Trace.startService name addr) Any := by
  unfold Trace.startService
  exact S.bind s_newTraceContext fun _ _ _ _ => S.bind (s_register _) fun _ _ _ _ => S.bind (s_startRest _ _ _) fun _ _ _ _ => S.done _

theorem s_getSampler : S n d full w0 getSampler Any := by
  unfold getSampler
  refine S.bind S.get fun _ _ _ _ => ?_
  split
  · exact S.done _
  · exact S.bind (Q := Any) (S.same fun _ => ⟨rfl, rfl, rfl, rfl, rfl⟩) fun _ _ _ _ => S.done _

theorem s_findXLogDiscard (t : Tctx) (e : BitVec 32) : S n d full w0 (findXLogDiscard t e) Any := by
  unfold findXLogDiscard
  exact S.bind s_getSampler fun _ _ _ _ => S.bind S.get fun _ _ _ _ => S.bind (S.reading _) fun _ _ _ _ => S.done _

theorem s_sendIfSet (k : TextKind) (name : Bytes) : S n d full w0 (sendIfSet k name) (fun w h => K n k h w) := by
  unfold sendIfSet
  exact S.ite (fun _ => S.pure _ fun _ _ => Or.inl rfl) fun _ => S.sendText _ _

/-- The references of the log made. -/
theorem s_toXlog (t : Tctx) (disc : BitVec 8) (e : BitVec 32) (hs : K n .service t.serviceHash w0) (hk : full → KT n t w0) :
    S n d full w0 (toXlog t disc e) (fun w x => KP n full (.xlog x) w) := by
  unfold toXlog
  refine S.bind (S.sendText _ _) fun w1 h1 l1 k1 => S.bind (s_sendIfSet _ _) fun w2 h2 l2 k2 => S.bind (s_sendIfSet _ _) fun w3 h3 l3 k3 => ?_
  refine S.pure _ fun w hl => ⟨?_, ?_⟩
  · intro r hr
    simp only [resentRefs, List.mem_cons, List.not_mem_nil, or_false] at hr
    rcases hr with rfl | rfl | rfl | rfl
    · exact hs.le (l1.trans (l2.trans (l3.trans hl)))
    · exact k1.le (l2.trans (l3.trans hl))
    · exact k2.le (l3.trans hl)
    · exact k3.le hl
  · intro hf r hr
    have h := (hk hf).le (l1.trans (l2.trans (l3.trans hl)))
    simp only [keptRefs, List.mem_cons, List.not_mem_nil, or_false] at hr
    rcases hr with rfl | rfl | rfl
    · exact h.error
    · exact h.userAgent
    · exact h.referer

theorem s_named {α : Type} (p : Nat) (h : BitVec 32) (f : Tctx → TM α) {Q : World → α → Prop} (hk : K n .service h w0)
    (hf : ∀ w1 t, Le w0 w1 → K n .service t.serviceHash w1 → (full → KT n t w1) → S n d full w1 (f t) Q) :
    S n d full w0 (do modT p fun t => { t with serviceHash := h }; unregister p; let t ← getT p; f t) Q := by
  intro w hl hi
  have h1 : S n d full w0 (do modT p fun t => { t with serviceHash := h }; unregister p) Any := by
    refine S.bind (S.modT _ _ fun _ t w hl ht => ⟨hk.le hl, ht.error, ht.userAgent, ht.referer⟩) fun _ _ _ _ => ?_
    exact S.bind (S.getT p) fun _ _ _ _ => S.same fun _ => ⟨rfl, rfl, rfl, rfl, rfl⟩
  obtain ⟨g1, g2, -⟩ := h1 w hl hi
  have key : ∀ w', (((do modT p fun t => { t with serviceHash := h }; unregister p) : TM Unit) w).2 = w' → ∀ t, w'.tctxs[p]? = some t → t.serviceHash = h := by
    intro w' hw t ht
    subst hw
    simp only [modT, unregister, TM.bind_def, TM.modify] at ht
    rcases hq : getT p { w with tctxs := w.tctxs.modify p fun t => { t with serviceHash := h } } with ⟨r, w1⟩
    have hw1 : w1 = { w with tctxs := w.tctxs.modify p fun t => { t with serviceHash := h } } := by
      unfold getT at hq
      split at hq <;> cases hq <;> rfl
    rw [hq] at ht
    subst hw1
    cases r with
    | ok t0 =>
      simp only [List.getElem?_modify] at ht
      cases hp : w.tctxs[p]? with
      | none => rw [hp] at ht; simp at ht
      | some t1 => rw [hp] at ht; simp at ht; rw [← ht]
    | panic =>
      simp only [List.getElem?_modify] at ht
      cases hp : w.tctxs[p]? with
      | none => rw [hp] at ht; simp at ht
      | some t1 => rw [hp] at ht; simp at ht; rw [← ht]
  have assoc : (do modT p fun t => { t with serviceHash := h }; unregister p; let t ← getT p; f t : TM α) w =
      ((do modT p fun t => { t with serviceHash := h }; unregister p : TM Unit) >>= fun _ => getT p >>= f) w := by
    simp only [TM.bind_def]
    rcases hu : unregister p (modT p (fun t => { t with serviceHash := h }) w).2 with ⟨r, w2⟩
    have : (modT p (fun t => { t with serviceHash := h }) w) = (.ok (), (modT p (fun t => { t with serviceHash := h }) w).2) := rfl
    rw [this]
  rw [assoc, TM.bind_def]
  rcases hm : ((do modT p fun t => { t with serviceHash := h }; unregister p : TM Unit) w) with ⟨r, w'⟩
  rw [hm] at g1 g2
  cases r with
  | panic => exact ⟨g1, g2, fun a ha => by cases ha⟩
  | ok u =>
    simp only [TM.bind_def]
    unfold getT
    cases ht : w'.tctxs[p]? with
    | none => exact ⟨g1, g2, fun a ha => by cases ha⟩
    | some t =>
      simp only
      have hh := key w' (by rw [hm]) t ht
      obtain ⟨q1, q2, q3⟩ := hf w' t (hl.trans g1) (by rw [hh]; exact hk.le (hl.trans g1)) (fun hfull => g2.ctxs hfull t (List.mem_of_getElem? ht)) w' (Le.refl _) g2
      exact ⟨g1.trans q1, q2, q3⟩

theorem s_endRest (p : Nat) : S n d full w0 (endRest p) Any := by
  unfold endRest
  refine S.bind (modT_keep _ _) fun _ _ _ _ => S.bind (S.getT p) fun _ t0 _ _ => S.bind (S.sendText _ _) fun w1 h l1 k1 => ?_
  refine s_named p h _ k1 fun w2 t l2 k2 kt => ?_
  refine S.bind (s_millisToNow _) fun w3 e l3 _ => S.bind (s_findXLogDiscard _ _) fun w4 disc l4 _ => ?_
  refine S.bind (s_toXlog t disc e (k2.le (l3.trans l4)) fun hf => (kt hf).le (l3.trans l4)) fun w5 x l5 kx => ?_
  refine S.bind (s_profileClose _ _) fun w6 _ l6 _ => S.bind (Q := Any) (S.same fun _ => ⟨rfl, rfl, rfl, rfl, rfl⟩) fun w7 _ l7 _ => ?_
  refine S.ite (fun _ => ?_) fun _ => S.done _
  unfold sendXlog
  refine S.bind S.get fun w8 _ l8 _ => S.sendDirect _ fun w9 l9 => ?_
  have := KP.le kx (l6.trans (l7.trans (l8.trans l9)))
  exact this

theorem s_endTctx (p : Nat) : S n d full w0 (endTctx p) Any := by
  unfold endTctx
  exact S.bind (S.getT p) fun _ _ _ _ => S.ite (fun _ => S.done _) fun _ => s_endRest _

theorem triv {α : Type} {a : α} : ∀ w, Le w0 w → Any w a := fun _ _ => trivial

theorem s_endAnyService (c : Ctx) : S n d full w0 (endAnyService c) Any := by
  unfold endAnyService
  exact S.withTrace _ _ (fun p => S.bind (S.getT p) fun _ _ _ _ => S.ite (fun _ => S.done _) fun _ => s_endTctx _) triv

theorem ks_pmessage {h : BitVec 32} {w : World} (hk : K n .hashMessage h w) (st : SingleStep) (e : BitVec 32) (l : BitVec 8) (ps : Bytes) :
    KS n ⟨st, .pmessage h e l ps⟩ w := by
  intro r hr
  simp only [stepRefs, List.mem_singleton] at hr
  subst hr
  exact hk

theorem s_setError (p : Nat) (e : BitVec 32) (hk : K n .error e w0) : S n d full w0 (modT p fun t => { t with error := e }) Any :=
  S.modT _ _ fun _ t w hl ht => ⟨ht.service, hk.le hl, ht.userAgent, ht.referer⟩

theorem s_endStuck (p : Nat) : S n d full w0 (endStuck p) Any := by
  unfold endStuck
  refine S.recovered _ ?_ triv
  refine S.bind S.get fun _ _ _ _ => S.ite (fun _ => ?_) fun _ => S.done _
  refine S.bind (S.getT p) fun _ _ _ _ => S.bind (s_millisToNow _) fun _ _ _ _ => S.bind (S.sendText _ _) fun w1 h l1 k1 => ?_
  refine S.bind (s_addNew _ _ _ fun _ w hl => ks_pmessage (k1.le hl) _ _ _ _) fun _ _ _ _ => S.bind (S.getT p) fun _ _ _ _ => ?_
  extract_lets jp
  have hj : ∀ {w : World} u, S n d full w (jp u) Any := fun _ => s_endTctx _
  refine S.ite (fun _ => ?_) fun _ => hj ()
  exact S.bind (S.sendText _ _) fun _ e _ ke => S.bind (s_setError _ _ ke) fun _ _ _ _ => hj ()

theorem s_addPMessageStep (c : Ctx) (l : BitVec 8) (m : Bytes) (e : BitVec 32) (ps : List Bytes) : S n d full w0 (addPMessageStep c l m e ps) Any := by
  unfold addPMessageStep
  refine S.recovered _ (S.withTrace _ _ (fun p => ?_) triv) triv
  refine S.bind (S.getT p) fun _ _ _ _ => S.bind (s_millisToNow _) fun _ _ _ _ => S.bind (S.sendText _ _) fun w1 h l1 k1 => ?_
  exact s_addNew _ _ _ fun _ w hl => ks_pmessage (k1.le hl) _ _ _ _

theorem s_addMessages (p : Nat) (st : BitVec 32) (ms : List Bytes) : ∀ {w0 : World}, S n d full w0 (addMessages p st ms) Any := by
  induction ms with
  | nil => intro _; exact S.done _
  | cons a as ih => intro _; exact S.bind (s_addMessage _ _ _) fun _ _ _ _ => ih

theorem s_startHttpRest (r : Request) (p : Nat) : S n d full w0 (startHttpRest r p) Any := by
  unfold startHttpRest profileHttpHeaders
  refine S.bind (modT_keep _ _) fun _ _ _ _ => S.bind (S.sendText _ _) fun _ ua _ ku => ?_
  refine S.bind (S.modT _ _ fun _ t w hl ht => ⟨ht.service, ht.error, ku.le hl, ht.referer⟩) fun _ _ _ _ => S.bind (S.sendText _ _) fun _ rf _ kr => ?_
  refine S.bind (S.modT _ _ fun _ t w hl ht => ⟨ht.service, ht.error, ht.userAgent, kr.le hl⟩) fun _ _ _ _ => ?_
  refine S.bind (S.getT p) fun _ _ _ _ => S.bind (s_millisToNow _) fun _ _ _ _ => S.bind S.get fun _ _ _ _ => ?_
  refine S.bind (s_addMessages _ _ _) fun _ _ _ _ => S.bind S.get fun _ _ _ _ => ?_
  exact S.ite (fun _ => s_addMessage _ _ _) fun _ => S.done _

theorem s_inheritTctx (p q : Nat) : S n d full w0 (inheritTctx p q) Any := by
  unfold inheritTctx
  refine S.bind (S.getT q) fun _ _ _ _ => S.bind (modT_keep _ _) fun _ _ _ _ => S.bind (s_addMessage _ _ _) fun _ _ _ _ => ?_
  refine S.bind (S.getT q) fun w1 t l1 kt => S.bind S.get fun w2 _ l2 _ => ?_
  exact S.modT _ _ fun hf x w hl hx => ⟨hx.service, ((kt hf).le (l2.trans hl)).error, ((kt hf).le (l2.trans hl)).userAgent, ((kt hf).le (l2.trans hl)).referer⟩

theorem s_startChild (c : Ctx) (name : Bytes) : S n d full w0 (startChild c name) Any := by
  unfold startChild
  refine S.withTrace _ _ (fun q => ?_) triv
  refine S.bind (S.getT q) fun _ _ _ _ => S.bind (s_startService _ _) fun _ p _ _ => S.bind (S.getT q) fun _ t _ _ => ?_
  refine S.bind (modT_keep _ _) fun _ _ _ _ => ?_
  extract_lets jp
  suffices hj : ∀ {w : World} u, S n d full w (jp u) Any from
    S.ite (fun _ => S.bind (modT_keep _ _) fun _ _ _ _ => S.bind (modT_keep _ _) fun _ _ _ _ => hj ()) fun _ => hj ()
  intro w1 u
  refine S.bind (S.getT p) fun _ _ _ _ => S.bind (s_millisToNow _) fun _ _ _ _ => S.bind (S.sendText _ _) fun _ h _ kh => ?_
  refine S.bind (s_addNew _ _ _ fun _ w hl => ?_) fun _ _ _ _ => S.done _
  intro r hr
  simp only [stepRefs, List.mem_singleton] at hr
  subst hr
  exact kh.le hl

theorem s_addParams (p : Nat) (ps : List (Option Bytes)) : ∀ {w0 : World}, S n d full w0 (addParams p ps) Any := by
  induction ps with
  | nil => intro _; exact S.done _
  | cons a as ih =>
    intro _
    cases a with
    | none => exact ih
    | some s =>
      exact S.bind (S.getT p) fun _ _ _ _ => S.bind (s_millisToNow _) fun _ _ _ _ => S.bind (s_millisToNow _) fun _ _ _ _ =>
        S.bind (s_addMessage _ _ _) fun _ _ _ _ => ih

theorem s_startMethod0 (p : Nat) (f m : Bytes) (ps : List (Option Bytes)) : S n d full w0 (startMethod0 p f m ps) Any := by
  unfold startMethod0
  refine S.bind (s_addParams _ _) fun _ _ _ _ => S.bind (modT_keep _ _) fun _ _ _ _ => S.bind (S.sendText _ _) fun _ h _ kh => ?_
  refine S.bind (S.getT p) fun _ _ l1 _ => S.bind (s_millisToNow _) fun _ _ l2 _ => S.bind (S.newStep _ fun _ w hl => ?_) fun _ _ _ _ =>
    S.bind (s_profilePush _ _) fun _ _ _ _ => S.done _
  intro r hr
  simp only [stepRefs, List.mem_singleton] at hr
  subst hr
  exact kh.le (l1.trans (l2.trans hl))

theorem s_startApiCall0 (p : Nat) (name a : Bytes) : S n d full w0 (startApiCall0 p name a) Any := by
  unfold startApiCall0
  refine S.bind (S.sendText _ _) fun _ h _ kh => S.bind (S.getT p) fun _ _ l1 _ => S.bind (s_millisToNow _) fun _ _ l2 _ => ?_
  refine S.bind (S.reading _) fun _ _ l3 _ => S.bind (S.newStep _ fun _ w hl => ?_) fun _ _ _ _ => S.bind (s_profilePush _ _) fun _ _ _ _ => S.done _
  intro r hr
  simp only [stepRefs, List.mem_cons, List.not_mem_nil, or_false] at hr
  rcases hr with rfl | rfl
  · exact kh.le (l1.trans (l2.trans (l3.trans hl)))
  · exact Or.inl rfl

theorem ks_setElapsed {s : Step} {w : World} (h : KS n s w) (e : BitVec 32) : KS n (setElapsed e s) w := by
  unfold KS setElapsed at *
  cases hb : s.body <;> simpa [stepRefs, hb] using h

theorem ks_setStepError {s : Step} {w : World} (h : KS n s w) {e : BitVec 32} (he : K n .error e w) : KS n (setStepError e s) w := by
  unfold KS setStepError at *
  cases hb : s.body with
  | apicall txid hh el c er o a =>
    intro r hr
    simp only [stepRefs, List.mem_cons, List.not_mem_nil, or_false] at hr
    rcases hr with rfl | rfl
    · exact h (.apicall, hh) (by simp [stepRefs, hb])
    · exact he
  | _ => simpa [stepRefs, hb] using h

theorem s_activeLoop (now : Int) (ps : List Nat) : ∀ {w0 : World} (k : Nat) (a : Nat × Nat × Nat), S n d full w0 (activeLoop now ps k a) Any := by
  induction ps with
  | nil => intro _ _ _; exact S.done _
  | cons p ps ih =>
    intro _ k a
    unfold activeLoop
    refine S.ite (fun _ => S.done _) fun _ => S.bind (S.getT p) fun _ _ _ _ => S.bind S.get fun _ _ _ _ => ?_
    extract_lets el act jp
    have hj : ∀ {w : World} u, S n d full w (jp u) Any := fun _ => ih _ _
    refine S.ite (fun _ => ?_) fun _ => hj ()
    refine S.bind (s_endStuck _) fun _ _ _ _ => S.bind (S.getT p) fun _ _ _ _ => S.bind S.get fun _ _ _ _ => ?_
    refine S.bind (Q := Any) ?_ fun _ _ _ _ => hj ()
    unfold sendAlert
    exact S.ite (fun _ => S.done _) fun _ => S.bind S.get fun _ _ _ _ => S.sendDirect _ fun _ _ => trivial

theorem s_drop {α : Type} {m : TM α} {Q : World → α → Prop} (h : S n d full w0 m Q) : S n d full w0 (do let _ ← m) Any := S.bind h fun _ _ _ _ => S.done _

/-- A call keeps it all, except that a reset forgets and a step of the application's own must refer to nothing. -/
theorem s_code (c : Call) (hc : full → ∀ s, c = .makeStep s → ∀ r ∈ stepRefs s, r.2 = 0) : S n d full w0 c.code Any := by
  cases c with
  | isStream c => exact s_drop (S.recovered _ (S.withTrace _ _ (fun p => S.bind (S.getT p) fun _ _ _ _ => S.done _) triv) triv)
  | setAsStream c => exact s_drop (S.recovered _ (S.withTrace _ _ (fun p => S.bind (modT_keep _ _) fun _ _ _ _ => S.done _) triv) triv)
  | markAsError c m =>
    refine S.recovered _ (S.withTrace _ _ (fun p => S.bind (S.getT p) fun _ _ _ _ => ?_) triv) triv
    extract_lets jp
    have hj : ∀ {w : World} u, S n d full w (jp u) Any := fun _ => s_addPMessageStep _ _ _ _ _
    exact S.ite (fun _ => S.bind (S.sendText _ _) fun _ e _ ke => S.bind (s_setError _ _ ke) fun _ _ _ _ => hj ()) fun _ => hj ()
  | markAsErrorForcibly c m =>
    exact S.recovered _ (S.withTrace _ _ (fun p => S.bind (S.sendText _ _) fun _ e _ ke => s_setError _ _ ke) triv) triv
  | setServiceName c m =>
    refine S.recovered _ (S.withTrace _ _ (fun p => S.bind (modT_keep _ _) fun _ _ _ _ => S.bind (S.sendText _ _) fun _ h _ kh => ?_) triv) triv
    exact S.modT _ _ fun _ t w hl ht => ⟨kh.le hl, ht.error, ht.userAgent, ht.referer⟩
  | addStep c p =>
    refine S.recovered _ (S.withTrace _ _ (fun q => ?_) triv) triv
    split
    · exact s_profileAdd _ _
    · exact S.panic
  | addMessageStep c m =>
    exact S.recovered _ (S.withTrace _ _ (fun p => S.bind (S.getT p) fun _ _ _ _ => S.bind (s_millisToNow _) fun _ _ _ _ => s_addMessage _ _ _) triv) triv
  | addHashedMessageStep c m v e =>
    refine S.recovered _ (S.withTrace _ _ (fun p => S.bind (S.getT p) fun _ _ _ _ => S.bind (S.sendText _ _) fun _ h _ kh => ?_) triv) triv
    refine S.bind (s_millisToNow _) fun _ _ l1 _ => s_addNew _ _ _ fun _ w hl r hr => ?_
    simp only [stepRefs, List.mem_singleton] at hr
    subst hr
    exact kh.le (l1.trans hl)
  | addPMessageStep c l m e ps => exact s_addPMessageStep _ _ _ _ _
  | startHttpService c r =>
    refine s_drop (Q := Any) ?_
    unfold Trace.startHttpService
    refine S.ite (fun _ => S.done _) fun _ => S.bind S.get fun _ _ _ _ => ?_
    split
    · exact S.done _
    · refine S.bind (Q := Any) (S.recovered _ ?_ triv) fun _ _ _ _ => ?_
      · split
        · exact S.panic
        · exact S.bind (s_startService _ _) fun _ _ _ _ => S.done _
      · split
        · exact S.recovered _ (S.bind (s_startHttpRest _ _) fun _ _ _ _ => S.done _) triv
        · exact S.done _
  | endHttpService c s =>
    refine S.recovered _ ?_ triv
    split
    · refine S.withTrace _ _ (fun p => S.bind (S.getT p) fun _ _ _ _ => S.ite (fun _ => S.done _) fun _ => ?_) triv
      exact S.bind (modT_keep _ _) fun _ _ _ _ => s_endAnyService _
    · exact s_endAnyService _
  | startService c nm ip =>
    refine s_drop (Q := Any) ?_
    unfold Trace.startServiceApi
    refine S.bind S.get fun _ _ _ _ => ?_
    split
    · exact S.done _
    · exact S.recovered _ (S.bind (s_startService _ _) fun _ _ _ _ => S.bind (modT_keep _ _) fun _ _ _ _ => S.done _) triv
  | endService c => exact S.recovered _ (s_endAnyService _) triv
  | startInheritance q =>
    refine s_drop (Q := Any) ?_
    unfold Trace.startInheritance
    refine S.bind (Q := Any) (S.recovered _ ?_ triv) fun _ _ _ _ => ?_
    · split
      · exact S.panic
      · exact S.bind (S.getT _) fun _ _ _ _ => S.bind (s_startService _ _) fun _ _ _ _ => S.done _
    · split
      · exact S.recovered _ (S.bind (s_inheritTctx _ _) fun _ _ _ _ => S.done _) triv
      · exact S.done _
  | goWithTrace c m => exact s_drop (Q := Any) (S.recovered _ (S.bind (s_startChild _ _) fun _ _ _ _ => S.done _) triv)
  | goBegin c => exact S.withTrace _ _ (fun p => S.bind (S.reading _) fun _ _ _ _ => modT_keep _ _) triv
  | startMethod c f ps => exact s_drop (Q := Any) (S.recovered _ (S.withTrace _ _ (fun p => S.bind (s_startMethod0 _ _ _ _) fun _ _ _ _ => S.done _) triv) triv)
  | startCustomMethod c m ps => exact s_drop (Q := Any) (S.recovered _ (S.withTrace _ _ (fun p => S.bind (s_startMethod0 _ _ _ _) fun _ _ _ _ => S.done _) triv) triv)
  | endMethod c p =>
    refine S.recovered _ ?_ triv
    split
    · exact S.done _
    · refine S.withTrace _ _ (fun p => S.bind (S.getT p) fun _ _ _ _ => S.bind (S.getStep _) fun _ _ _ _ => S.bind (s_millisToNow _) fun _ _ _ _ => ?_) triv
      exact S.bind (S.modStep _ _ fun _ t w _ ht => ks_setElapsed ht _) fun _ _ _ _ => s_profilePop _ _
  | startApiCall c m a => exact s_drop (Q := Any) (S.recovered _ (S.withTrace _ _ (fun p => S.bind (s_startApiCall0 _ _ _) fun _ _ _ _ => S.done _) triv) triv)
  | startApiCallProp c m a r =>
    refine s_drop (Q := Any) (S.recovered _ (S.withTrace _ _ (fun p => S.bind (s_startApiCall0 _ _ _) fun _ _ _ _ => ?_) triv) triv)
    refine S.bind (S.getT p) fun _ _ _ _ => ?_
    extract_lets jp
    suffices hj : ∀ {w : World} u, S n d full w (jp u) Any from
      S.ite (fun _ => S.bind (modT_keep _ _) fun _ _ _ _ => hj ()) fun _ => hj ()
    intro w1 u
    exact S.bind (S.getT p) fun _ _ _ _ => S.bind (S.getStep _) fun _ _ _ _ => S.bind S.get fun _ _ _ _ => S.done _
  | endApiCall c p e =>
    refine S.recovered _ ?_ triv
    split
    · exact S.done _
    · refine S.withTrace _ _ (fun p => S.bind (S.getT p) fun _ _ _ _ => S.bind (S.getStep _) fun _ _ _ _ => S.bind (s_millisToNow _) fun _ _ _ _ => ?_) triv
      refine S.bind (S.modStep _ _ fun _ t w _ ht => ks_setElapsed ht _) fun _ _ _ _ => S.bind (modT_keep _ _) fun _ _ _ _ => ?_
      extract_lets jp
      have hj : ∀ {w : World} u, S n d full w (jp u) Any := fun _ => s_profilePop _ _
      split
      · refine S.bind (S.sendText _ _) fun _ er _ ke => S.bind (S.modStep _ _ fun _ t w hl ht => ks_setStepError ht (ke.le hl)) fun _ _ l1 _ => ?_
        refine S.bind (S.modT _ _ fun _ t w hl ht => ⟨ht.service, ?_, ht.userAgent, ht.referer⟩) fun _ _ _ _ => hj ()
        show K n .error (if t.error = 0 then er else t.error) w
        split
        · exact ke.le (l1.trans hl)
        · exact ht.error
      · exact hj ()
  | activeCount o => exact s_drop (S.bind S.get fun _ _ _ _ => S.bind (S.reading _) fun _ _ _ _ => s_activeLoop _ _ _ _)
  | makeStep s => exact s_drop (S.newStep _ fun hf w _ r hr => Or.inl (hc hf s rfl r hr))
  | setFields p l d t1 t2 t3 t4 t5 => exact modT_keep _ _
  | conf c => exact S.same fun _ => ⟨rfl, rfl, rfl, rfl, rfl⟩
  | samplerRun => exact S.same fun _ => ⟨rfl, rfl, rfl, rfl, rfl⟩
  | resetTexts o =>
    intro w hl hi
    refine ⟨Le.refl w, ⟨hi.some', fun k h hk => ?_, fun hf t ht => (hi.ctxs hf t ht).le (Le.refl w), hi.steps, hi.packs⟩, fun _ _ => trivial⟩
    simp [Call.code, TM.modify, Proxy.resetTextSent, Cache.clear, Cache.contains] at hk
  | queue s => exact S.same fun _ => ⟨rfl, rfl, rfl, rfl, rfl⟩

theorem inv_history (cs : List Call) (hc : full → OwnStepsPlain cs) : ∀ {w : World}, Inv n d full w → Inv n d full (history w cs) ∧ Le w (history w cs) := by
  induction cs with
  | nil => intro w h; exact ⟨h, Le.refl _⟩
  | cons c cs ih =>
    intro w h
    obtain ⟨h1, h2, -⟩ := s_code (w0 := w) c (fun hf s hs => hc hf s (by rw [hs]; simp)) w (Le.refl _) h
    obtain ⟨g1, g2⟩ := ih (fun hf s hs => hc hf s (List.mem_cons_of_mem _ hs)) (w := perform w c) h2
    exact ⟨g1, h1.trans g2⟩

end code

end Refs
end Scouter
