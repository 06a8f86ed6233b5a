import Verif.Spec.Story
import Verif.Proofs.Stream
import Verif.Proofs.Apart
import Verif.Props.Recording
import Verif.Props.Starting
import Verif.Props.Fields
import Verif.Props.Nested
import Verif.Props.Ending
/-!
# From calls to the profile a collector decodes
-/
namespace Scouter
open TM Trace

/-- What one call about a service did to its profile. -/
def Said (p : Nat) (w w' : World) (t : Tctx) (now : List Step) : Prop :=
  ∃ t' rec, w'.tctxs[p]? = some t' ∧ t'.recorded = t.recorded ++ rec ∧ rec.map (w'.steps[·]?) = now.map some ∧
    t'.closed = t.closed ∧ t'.txid = t.txid

theorem Wrote.said {p : Nat} {t t' : Tctx} {change : Tctx → Tctx} {texts : List (TextKind × Bytes)} {n : Nat} {heap : List Step}
    {rec : List Nat} {parent : BitVec 32} {w w' : World} (h : Wrote p t t' change texts n heap rec parent w w')
    (ht : w.tctxs[p]? = some t) {now : List Step} (hs : rec.map (heap[·]?) = now.map some)
    (hc : (change t).closed = t.closed) (hi : (change t).txid = t.txid) : Said p w w' t now := by
  have hlt : p < w.tctxs.length := (List.getElem?_eq_some_iff.mp ht).1
  refine ⟨t', rec, ?_, h.recorded, ?_, ?_, ?_⟩
  · rw [h.tctxs]; simp [hlt]
  · rw [h.steps]; exact hs
  · exact (congrArg Tctx.closed h.fields).trans hc
  · exact (congrArg Tctx.txid h.fields).trans hi

theorem said_nothing {p : Nat} {w w' : World} {t t' : Tctx} (h : w'.tctxs[p]? = some t') (hr : t'.recorded = t.recorded)
    (hc : t'.closed = t.closed) (hi : t'.txid = t.txid) : Said p w w' t [] :=
  ⟨t', [], h, by simp [hr], rfl, hc, hi⟩

theorem last_new {w : World} {s : Step} : [w.steps.length].map ((w.steps ++ [s])[·]?) = [s].map some := by simp
theorem set_old {w : World} {i : Nat} {s x : Step} (h : w.steps[i]? = some s) : [i].map ((w.steps.set i x)[·]?) = [x].map some := by
  have := (List.getElem?_eq_some_iff.mp h).1
  simp [this]

theorem range_new (l r : List Step) (tail : List Step) :
    (List.range' l.length r.length).map ((l ++ (r ++ tail))[·]?) = r.map some := by
  induction r generalizing l with
  | nil => rfl
  | cons x xs ih =>
    have := ih (l ++ [x])
    simp only [List.length_append, List.length_cons, List.length_nil, List.append_assoc, List.cons_append, List.nil_append] at this
    rw [List.length_cons, List.range'_succ, List.map_cons, List.map_cons]
    simp only [List.cons_append]
    rw [this]
    simp

section
variable {p : Nat} {w : World} {t : Tctx}

theorem method_said {fn mn : Bytes} {ps : List (Option Bytes)} {r : Outcome (Option Nat) × World} (h : w.tctxs[p]? = some t)
    (hm : MethodStarted p t fn mn ps w r) : ∃ xs : List (BitVec 32 × StepBody),
      xs.map (·.2) = (ps.filterMap id).map (fun s => StepBody.message (ascii "param: " ++ s)) ∧
      (∀ x ∈ xs, ReadDuring t w r.2 x.1) ∧ Said p w r.2 t (stepsAt t 0 xs) := by
  obtain ⟨t', xs, start, -, h2, h3, -, a⟩ := hm
  refine ⟨xs, h2, h3, a.said h ?_ rfl rfl⟩
  have e : ∀ n, stepsAt t n (xs ++ [(start, .method (textHash mn) 0 0)]) = stepsAt t n xs ++ stepsAt t (n + xs.length) [(start, .method (textHash mn) 0 0)] := by
    clear h2 h3 a
    induction xs with
    | nil => intro n; rfl
    | cons x xs ih =>
      intro n
      have := ih (n + 1)
      simp only [List.cons_append, stepsAt, List.length_cons] at this ⊢
      rw [this, show n + 1 + xs.length = n + (xs.length + 1) by omega]
  rw [e, ← stepsAt_length t xs 0]
  exact range_new _ _ _

theorem methodNameOf_any (fn : Bytes) (hw : Reachable w) (h : w.tctxs[p]? = some t) (ps : List (Option Bytes)) :
    MethodStarted p t fn (methodNameOf fn) ps w (startMethod (.traced p) fn ps w) := by
  obtain ⟨w', t', xs, start, h1, -, h3, h4, h5, a⟩ := startMethod0_run hw.good h fn (methodNameOf fn) ps
  have e : startMethod (.traced p) fn ps w = (.ok (some (w.steps.length + xs.length)), w') := by
    refine recovered_run ?_
    rw [withTrace_run (traceOf_traced h), TM.bind_ok h1]
    rfl
  rw [e]
  exact ⟨t', xs, start, rfl, h3, h4, h5, a⟩

theorem perform_drop {α : Type} {m : TM α} {c : Call} (hc : c.code = (m >>= fun _ => pure ())) (w : World) : perform w c = (m w).2 := by
  unfold perform
  rw [hc, TM.bind_def]
  split <;> rename_i heq <;> rw [heq]
  rfl

/-- What a call that tells nothing leaves alone. -/
abbrev Told (t : Tctx) := (t.recorded, t.closed, t.txid)

/-- A call that sets other things about the context tells nothing. -/
theorem tells_nothing (h : w.tctxs[p]? = some t) (c : Call) (D : Ev (Same Told p) c.code) :
    Said p w (perform w c) t [] := by
  obtain ⟨t', h1, h2⟩ := D w t h
  simp only [Told, Prod.mk.injEq] at h2
  exact said_nothing h1 h2.1 h2.2.1 h2.2.2

/-- Each call about a service says what `Tells` lists. -/
theorem call_tells (hw : Reachable w) (h : w.tctxs[p]? = some t) (c : Call) (hc : about c = some p) (hg : Goes p w c) (hf : WellFormed w c) :
    ∃ now, Tells p w t c now ∧ Said p w (perform w c) t now := by
  have ctx : ∀ {c : Ctx}, ctxOf c = some p → c = .traced p := by
    intro c hc
    cases c <;> cases hc
    rfl
  have hlt : p < w.tctxs.length := (List.getElem?_eq_some_iff.mp h).1
  have inert : ∀ {c : Call}, perform w c = w → Said p w (perform w c) t [] := by
    intro c e; rw [e]; exact said_nothing h rfl rfl rfl
  have dr : ∀ {δ : Type} {m : TM δ}, Ev (Same Told p) m → Ev (Same Told p) (m >>= fun _ => pure ()) := fun h => same_bind h fun _ => same_pure ()
  have sg : ∀ {q : Nat}, Ev (Same Told p) (getT q) := same_of_quiet (quiet_getT _)
  cases c with
  | isStream c =>
    cases ctx hc
    exact ⟨[], .askStream, tells_nothing h _ (dr (same_recovered _ (same_withTrace _ _ _ fun q _ => same_bind sg fun _ => same_pure _)))⟩
  | setAsStream c =>
    cases ctx hc
    exact ⟨[], .asStream, tells_nothing h _ (dr (same_recovered _ (same_withTrace _ _ _ fun q _ => same_bind (same_modT fun _ => rfl) fun _ => same_pure _)))⟩
  | markAsError c m =>
    cases ctx hc
    obtain ⟨t', a⟩ := C73_error_mark hw h m
    exact ⟨_, .error m, a.said h last_new rfl rfl⟩
  | markAsErrorForcibly c m =>
    cases ctx hc
    exact ⟨[], .forcedError m, tells_nothing h _ (same_recovered _ (same_withTrace _ _ _ fun q _ =>
      same_bind (same_of_quiet (quiet_sendText _ _)) fun _ => same_modT fun _ => rfl))⟩
  | setServiceName c m =>
    cases ctx hc
    exact ⟨[], .rename m, tells_nothing h _ (same_recovered _ (same_withTrace _ _ _ fun q _ =>
      same_bind (same_modT fun _ => rfl) fun _ => same_bind (same_of_quiet (quiet_sendText _ _)) fun _ => same_modT fun _ => rfl))⟩
  | addStep c x =>
    cases ctx hc
    obtain ⟨i, rfl, hi⟩ := hf
    obtain ⟨s, hs⟩ : ∃ s, w.steps[i]? = some s := ⟨_, List.getElem?_eq_getElem hi⟩
    obtain ⟨t', a⟩ := C73_given_step hw h i s hs
    exact ⟨_, .given i s hs, a.said h (set_old hs) rfl rfl⟩
  | addMessageStep c m =>
    cases ctx hc
    obtain ⟨t', a⟩ := C73_message hw h m
    exact ⟨_, .message m, a.said h last_new rfl rfl⟩
  | addHashedMessageStep c m v e =>
    cases ctx hc
    obtain ⟨t', a⟩ := C73_hashed_message hw h m v e
    exact ⟨_, .hashed m v e, a.said h last_new rfl rfl⟩
  | addPMessageStep c l m e ps =>
    cases ctx hc
    obtain ⟨t', a⟩ := C73_parameterized_message hw h l m e ps
    exact ⟨_, .parameterized l m e ps, a.said h last_new rfl rfl⟩
  | startHttpService c r =>
    cases ctx hc
    refine ⟨[], .nestedHttp r, inert ?_⟩
    exact perform_of_run (TM.bind_ok (C40_nested_start_joins w p hlt [] [] r).2)
  | endHttpService c s => exact absurd hc hg
  | startService c n ip =>
    cases ctx hc
    refine ⟨[], .nested n ip, inert ?_⟩
    exact perform_of_run (TM.bind_ok (C40_nested_start_joins w p hlt n ip none).1)
  | endService c => exact absurd hc hg
  | startInheritance q => cases hc
  | goWithTrace c n =>
    cases ctx hc
    obtain ⟨w1, t1, w', u', h1, a1, h2, a2, a3⟩ := C76_child hw p t h n
    have e : perform w (.goWithTrace (.traced p) n) = w' := perform_of_run (TM.bind_ok h1)
    rw [e]
    have hs : Said p w1 w' t [stepAt t 0 (sinceStart w1 t) (.async (newborn w).txid (textHash n) 0)] := a2.said h2 last_new rfl rfl
    refine ⟨_, .child n (sinceStart w1 t) ?_, hs⟩
    rw [e]
    refine ⟨w1.tick, ?_, ?_, ?_⟩
    · have := a1.tick
      have : w.tick + 2 ≤ w1.tick := this
      omega
    · exact a3
    · have : w1.env = w.env := a1.env
      unfold sinceStart
      rw [this]
  | goBegin c =>
    cases ctx hc
    exact ⟨[], .childBegins, tells_nothing h _ (same_withTrace _ _ _ fun q _ => same_bind (same_of_quiet (quiet_reading _)) fun _ => same_modT fun _ => rfl)⟩
  | startMethod c f ps =>
    cases ctx hc
    obtain ⟨xs, h1, h2, h3⟩ := method_said h (methodNameOf_any f hw h ps)
    have e := perform_drop (c := .startMethod (.traced p) f ps) rfl w
    rw [← e] at h2 h3
    exact ⟨_, .methodBegin f ps xs h1 h2, h3⟩
  | startCustomMethod c f ps =>
    cases ctx hc
    obtain ⟨xs, h1, h2, h3⟩ := method_said h (C73_custom_method_start hw h f ps)
    have e := perform_drop (c := .startCustomMethod (.traced p) f ps) rfl w
    rw [← e] at h2 h3
    exact ⟨_, .customMethodBegin f ps xs h1 h2, h3⟩
  | endMethod c x =>
    cases ctx hc
    cases x with
    | none => exact ⟨[], .noMethodEnd, inert rfl⟩
    | some i =>
      obtain ⟨ss, hh, e, cpu, hs⟩ := hg
      obtain ⟨t', a⟩ := C73_method_end hw h i ss hh e cpu hs
      exact ⟨_, .methodEnd i ss hh e cpu hs, a.said h (set_old hs) rfl rfl⟩
  | startApiCall c n a =>
    cases ctx hc
    obtain ⟨i, w', h1, h2, t', b⟩ := C73_api_call_start hw h n a
    have e : perform w (.startApiCall (.traced p) n a) = w' := perform_of_run (TM.bind_ok h1)
    rw [e]
    exact ⟨[], .apiBegin n a, b.said h rfl rfl rfl⟩
  | startApiCallProp c n a r =>
    cases ctx hc
    obtain ⟨i, w', h1, h2, t', b⟩ := C75_propagation hw h n a r
    have e : perform w (.startApiCallProp (.traced p) n a r) = w' := perform_of_run (TM.bind_ok h1)
    rw [e]
    exact ⟨[], .apiBeginProp n a r, b.said h rfl rfl rfl⟩
  | endApiCall c x err =>
    cases ctx hc
    cases x with
    | none => exact ⟨[], .noApiEnd err, inert rfl⟩
    | some i =>
      obtain ⟨ss, tx, hh, e, cpu, er, o, ad, hs⟩ := hg
      obtain ⟨t', a⟩ := C73_api_call_end hw h i ss tx hh e cpu er o ad hs err
      exact ⟨_, .apiEnd i ss tx hh e cpu er o ad err hs, a.said h (set_old hs) rfl rfl⟩
  | activeCount o => cases hc
  | makeStep s => cases hc
  | setFields q l d t1 t2 t3 t4 t5 =>
    cases hc
    exact ⟨[], .fields l d t1 t2 t3 t4 t5, tells_nothing h _ (same_modT fun _ => rfl)⟩
  | conf x => cases hc
  | samplerRun => cases hc
  | resetTexts o => cases hc
  | queue s => cases hc

/-- A recorded step stays as it is. -/
theorem recorded_fixed {w : World} (s : Stream (fun _ => none) w) {cs : List Call} (hid : DistinctIds w.env (history w cs).tick)
    (h : AllOnce w cs) {i : Nat} (hi : RecStep w i) : (history w cs).steps[i]? = w.steps[i]? := by
  have hlt := s.inside i hi
  have hs : w.steps[i]? = some w.steps[i] := List.getElem?_eq_getElem hlt
  have s' : Stream (fun j => if j = i then w.steps[i]? else none) w :=
    ⟨s.ids, s.known, s.ptrs, s.inside, fun j x hx => by
      by_cases hj : j = i
      · subst hj; simp at hx; exact ⟨by rw [hs, ← hx, hs], hi⟩
      · simp [hj] at hx, s.stream⟩
  have := (s'.history hid h).fixed i w.steps[i] (by simp)
  rw [this.1, hs]


/-- A history tells its story. -/
theorem history_tells (cs : List Call) : ∀ {w : World} {t : Tctx}, Reachable w → Stream (fun _ => none) w →
    DistinctIds w.env (history w cs).tick → w.tctxs[p]? = some t → AllOnce w cs → AllWellFormed w cs → AllGo p w cs →
    ∃ ss, Story p w cs ss ∧ Said p w (history w cs) t ss := by
  induction cs with
  | nil =>
    intro w t _ _ _ ht _ _ _
    exact ⟨[], .done w, said_nothing ht rfl rfl rfl⟩
  | cons c cs ih =>
    intro w t hr hs hid ht ho hf hg
    have hid1 : DistinctIds w.env (perform w c).tick := fun a b ha hb => hid a b (Nat.lt_of_lt_of_le ha (history_tick _ cs)) (Nat.lt_of_lt_of_le hb (history_tick _ cs))
    have hr1 : Reachable (perform w c) := Reachable.perform hr hf.1
    have hs1 : Stream (fun _ => none) (perform w c) := hs.history (cs := [c]) hid1 ⟨ho.1, trivial⟩
    have hid2 : DistinctIds (perform w c).env (history (perform w c) cs).tick := by rw [exec_env]; exact hid
    by_cases ha : about c = some p
    · obtain ⟨now, h1, t1, rec1, e1, e2, e3, e4, e5⟩ := call_tells hr ht c ha hg.1 hf.1
      obtain ⟨later, h2, t2, rec2, f1, f2, f3, f4, f5⟩ := ih hr1 hs1 hid2 e1 ho.2 hf.2 hg.2
      refine ⟨now ++ later, .tells ht h1 h2, t2, rec1 ++ rec2, f1, by rw [f2, e2, List.append_assoc], ?_, f4.trans e4, f5.trans e5⟩
      rw [List.map_append, List.map_append]
      refine congrArg₂ _ ?_ f3
      rw [← e3]
      refine List.map_congr_left fun i hi => ?_
      exact recorded_fixed hs1 hid2 ho.2 ⟨t1, List.mem_of_getElem? e1, by rw [e2]; exact List.mem_append_right _ hi⟩
    · have he : Elsewhere p w c := ⟨ha, fun o e => by subst e; exact hg.1⟩
      obtain ⟨ss, h2, h3⟩ := ih hr1 hs1 hid2 (elsewhere_keeps he ht) ho.2 hf.2 hg.2
      exact ⟨ss, .elsewhere he h2, h3⟩

end
end Scouter
