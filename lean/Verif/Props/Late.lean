import Verif.Props.Story
import Verif.Proofs.Late
/-!
# What is recorded on a service after its end (C116)
-/
namespace Scouter
open TM Trace

private theorem conf_of_wf {w : World} : ∀ {ds : List Call}, AllWellFormed w ds → ∀ f, Call.conf f ∈ ds → 1 ≤ f.keep ∧ 1 ≤ f.bulk := by
  intro ds
  induction ds generalizing w with
  | nil => intro _ f h; cases h
  | cons c cs ih =>
    intro h f hf
    rcases List.mem_cons.1 hf with rfl | hf
    · exact h.1
    · exact ih h.2 f hf

private theorem roomy_of_good {w : World} (g : Good w) : Late.Roomy w := ⟨g.keep, g.bulk, fun t ht => (g.each t ht).room⟩

/-- **C116**: calls naming a service that has ended are not refused.  The steps they record (`late`) are put behind those the
buffer held at the end: as long as the buffer has room for all of them nothing is sent, and they are lost if it stays so;
once it is full, what is sent is again what it held at the end, followed by late steps (all but those still in the buffer). -/
theorem C116_late_steps {w : World} (hw : Reachable w) (p : Nat) (t : Tctx) (h : w.tctxs[p]? = some t) (hc : t.closed = true)
    (ds : List Call) (hwf : AllWellFormed w ds) :
    ∃ t' late, (history w ds).tctxs[p]? = some t' ∧ t'.closed = true ∧ t'.txid = t.txid ∧ t'.recorded = t.recorded ++ late ∧
      (t.col.kept.length + late.length < t.col.cap → t'.sentSteps = t.sentSteps) ∧
      (t.col.cap ≤ t.col.kept.length + late.length →
        ∃ more, more ++ t'.col.kept = late ∧ t'.sentSteps = t.sentSteps ++ (t.col.kept ++ more)) := by
  have g := hw.good
  have g' := g.history ds hwf
  obtain ⟨t', late, sent, h1, a⟩ := Late.lates_history ds w (roomy_of_good g) (conf_of_wf hwf) p t h hc
  refine ⟨t', late, h1, a.closed, a.txid, a.recorded, fun hl => ?_, fun hl => ?_⟩
  · rcases a.when with ⟨rfl, -⟩ | ⟨h2, -⟩
    · rw [a.sentSteps, List.append_nil]
    · omega
  · rcases a.when with ⟨rfl, h2⟩ | ⟨-, more, rfl⟩
    · have hr := (g'.each t' (List.mem_of_getElem? h1)).room
      have := congrArg List.length a.same
      simp only [List.nil_append, List.length_append] at this
      omega
    · have := a.same
      rw [List.append_assoc, List.append_cancel_left_eq] at this
      exact ⟨more, this, a.sentSteps⟩

theorem allOnce_split (cs ds : List Call) : ∀ (w : World), AllOnce w (cs ++ ds) → AllOnce w cs ∧ AllOnce (history w cs) ds := by
  induction cs with
  | nil => intro w h; exact ⟨trivial, h⟩
  | cons c cs ih => intro w h; have := ih _ h.2; exact ⟨⟨h.1, this.1⟩, this.2⟩

theorem allWf_split (cs ds : List Call) : ∀ (w : World), AllWellFormed w (cs ++ ds) → AllWellFormed w cs ∧ AllWellFormed (history w cs) ds := by
  induction cs with
  | nil => intro w h; exact ⟨trivial, h⟩
  | cons c cs ih => intro w h; have := ih _ h.2; exact ⟨⟨h.1, this.1⟩, this.2⟩

/-- **C116**: what the collector server receives for an ended service.  After the end (`cs`) the calls `ds` are made:
nothing more is received for it while the late steps fit in the buffer; when they do not, the steps the buffer held at the
end are received (again), and after them late steps. -/
theorem C116_stream (env : Oracle) (conf : TraceConf) (cap : Nat) (cs ds : List Call) (hk : 1 ≤ conf.keep) (hb : 1 ≤ conf.bulk)
    (hwf : AllWellFormed (start env conf cap) (cs ++ ds)) (ho : AllOnce (start env conf cap) (cs ++ ds))
    (hid : DistinctIds env (history (start env conf cap) (cs ++ ds)).tick) (p : Nat) (t : Tctx)
    (h : (history (start env conf cap) cs).tctxs[p]? = some t) (hc : t.closed = true) :
    let w := history (start env conf cap) cs
    let w' := history (start env conf cap) (cs ++ ds)
    ∃ t' late, w'.tctxs[p]? = some t' ∧ t'.recorded = t.recorded ++ late ∧
      (t.col.kept.length + late.length < t.col.cap → profileStream w' t.txid = profileStream w t.txid) ∧
      (t.col.cap ≤ t.col.kept.length + late.length →
        ∃ more, more ++ t'.col.kept = late ∧
          profileStream w' t.txid = profileStream w t.txid ++ stepsToBytes ((t.col.kept ++ more).map (w'.steps[·]?))) := by
  intro w w'
  have e : w' = history w ds := List.foldl_append ..
  obtain ⟨wf1, wf2⟩ := allWf_split cs ds _ hwf
  obtain ⟨o1, o2⟩ := allOnce_split cs ds _ ho
  have hr : Reachable w := ⟨env, conf, cap, cs, hk, hb, wf1, rfl⟩
  obtain ⟨t', late, h1, h2, h3, h4, h5, h6⟩ := C116_late_steps hr p t h hc ds wf2
  rw [← e] at h1
  have hid1 : DistinctIds env w.tick := fun a b ha hb => hid a b
    (Nat.lt_of_lt_of_le ha (by show w.tick ≤ w'.tick; rw [e]; exact history_tick _ ds))
    (Nat.lt_of_lt_of_le hb (by show w.tick ≤ w'.tick; rw [e]; exact history_tick _ ds))
  have s1 := (stream_of env conf cap cs hid1 o1)
  have tm := List.mem_of_getElem? h
  have st1 : profileStream w t.txid = stepsToBytes (t.sentSteps.map (w'.steps[·]?)) := by
    rw [s1.stream t tm]
    congr 1
    apply List.map_congr_left
    intro i hi
    exact (C81_recorded_steps_stay env conf cap cs ds hid ho t tm i (s1.ptrs t tm i (List.mem_append_left _ hi))).symm
  have st2 := (C81_stream env conf cap (cs ++ ds) hid ho).1 t' (List.mem_of_getElem? h1)
  rw [h3] at st2
  refine ⟨t', late, h1, h4, fun hl => ?_, fun hl => ?_⟩
  · rw [st1]; exact st2.trans (by rw [h5 hl])
  · obtain ⟨more, m1, m2⟩ := h6 hl
    refine ⟨more, m1, ?_⟩
    rw [st1, ← stepsToBytes_append, ← List.map_append]
    exact st2.trans (by rw [m2])

/-- **C116**: the same seen from the end of a service that had recorded `t.recorded` and sent `t.sentSteps` of it: those not
sent before the end (`rest`) are sent at the end unless the service is sampled away; they are sent once more, or in that case
for the first time, when late steps fill the buffer. -/
theorem C116_after_the_end (env : Oracle) (conf : TraceConf) (cap : Nat) (cs ds : List Call) (hk : 1 ≤ conf.keep) (hb : 1 ≤ conf.bulk)
    (p : Nat) (hwf : AllWellFormed (start env conf cap) (cs ++ .endService (.traced p) :: ds))
    (ho : AllOnce (start env conf cap) (cs ++ .endService (.traced p) :: ds))
    (hid : DistinctIds env (history (start env conf cap) (cs ++ .endService (.traced p) :: ds)).tick) (t : Tctx)
    (h : (history (start env conf cap) cs).tctxs[p]? = some t) (hc : t.closed = false) :
    let w := history (start env conf cap) cs
    let w' := history (start env conf cap) (cs ++ .endService (.traced p) :: ds)
    ∃ t' late rest, w'.tctxs[p]? = some t' ∧ t'.recorded = t.recorded ++ late ∧ t.recorded = t.sentSteps ++ rest ∧
      profileStream w' t.txid = stepsToBytes ((t.sentSteps ++
        (if decisionAt w t = discardNone then rest else []) ++
        (if rest.length + late.length < t.col.cap then [] else rest ++ late.take (late.length - t'.col.kept.length))).map (w'.steps[·]?)) := by
  intro w w'
  have ec : cs ++ Call.endService (.traced p) :: ds = (cs ++ [.endService (.traced p)]) ++ ds := by simp
  have e1 : history (start env conf cap) (cs ++ [.endService (.traced p)]) = perform w (.endService (.traced p)) := by
    simp [history, List.foldl_append, w]
  have hwf' := hwf
  have ho' := ho
  have hid' := hid
  rw [ec] at hwf' ho' hid'
  obtain ⟨wf1, -⟩ := allWf_split cs _ _ hwf
  have hr : Reachable w := ⟨env, conf, cap, cs, hk, hb, wf1, rfl⟩
  have g := hr.good
  have gt := g.each t (List.mem_of_getElem? h)
  obtain ⟨ss, -, -, k2, k3, -, -, -⟩ := endService_full h hc g.bulk
  have ht1 : (history (start env conf cap) (cs ++ [.endService (.traced p)])).tctxs[p]? =
      some (afterSending ss.flatten.length (bytesOf w ss) ss.flatten (closing t)) := by
    rw [e1, k2, List.getElem?_modify, h]; simp only [if_true]; rfl
  obtain ⟨t', late, h1, h2, h3, h4⟩ := C116_stream env conf cap (cs ++ [.endService (.traced p)]) ds hk hb hwf' ho' hid' p _ ht1 rfl
  have ew : w' = history (start env conf cap) ((cs ++ [.endService (.traced p)]) ++ ds) := by rw [← ec]
  rw [← ew] at h1 h3 h4
  have tl : (history (start env conf cap) (cs ++ [.endService (.traced p)])).tick ≤
      (history (start env conf cap) ((cs ++ [.endService (.traced p)]) ++ ds)).tick := by
    have e2 : history (start env conf cap) ((cs ++ [.endService (.traced p)]) ++ ds) =
      history (history (start env conf cap) (cs ++ [.endService (.traced p)])) ds := List.foldl_append ..
    rw [e2]; exact history_tick _ ds
  obtain ⟨o1, -⟩ := allOnce_split _ ds _ ho'
  have s1 := stream_of env conf cap (cs ++ [.endService (.traced p)])
    (fun a b ha hb => hid' a b (Nat.lt_of_lt_of_le ha tl) (Nat.lt_of_lt_of_le hb tl)) o1
  have tm := List.mem_of_getElem? ht1
  have st1 := s1.stream _ tm
  have st1' : profileStream (history (start env conf cap) (cs ++ [.endService (.traced p)])) t.txid =
      stepsToBytes ((t.sentSteps ++ (if decisionAt w t = discardNone then t.col.kept else [])).map (w'.steps[·]?)) := by
    refine st1.trans ?_
    show stepsToBytes ((t.sentSteps ++ ss.flatten).map _) = _
    rw [k3]
    congr 1
    apply List.map_congr_left
    intro i hi
    rw [ew]
    refine (C81_recorded_steps_stay env conf cap _ ds hid' ho' _ tm i (s1.ptrs _ tm i ?_)).symm
    refine List.mem_append_left _ ?_
    show i ∈ t.sentSteps ++ ss.flatten
    rw [k3]; exact hi
  refine ⟨t', late, t.col.kept, h1, h2, (gt.all hc).symm, ?_⟩
  by_cases hl : t.col.kept.length + late.length < t.col.cap
  · rw [if_pos hl, List.append_nil, ← st1']
    exact h3 hl
  · rw [if_neg hl]
    obtain ⟨more, m1, m2⟩ := h4 (Nat.not_lt.1 hl)
    have em : late.take (late.length - t'.col.kept.length) = more := by
      rw [← m1, List.length_append, Nat.add_sub_cancel, List.take_left']
      rfl
    rw [em, List.map_append, stepsToBytes_append, ← st1']
    exact m2

namespace Demo

/-- A service of two steps is ended; three late steps fill its buffer of four. -/
def lateConf : TraceConf := { conf with keep := 4 }
def lateBefore : List Call := [.startService .plain (ascii "a") [], .addMessageStep (.traced 0) (ascii "m")]
def lateAfter : List Call :=
  [.addMessageStep (.traced 0) (ascii "x"), .addMessageStep (.traced 0) (ascii "y"), .addMessageStep (.traced 0) (ascii "z")]
def lateCalls : List Call := lateBefore ++ .endService (.traced 0) :: lateAfter

example : AllWellFormed (start env lateConf 100) lateCalls := ⟨trivial, trivial, trivial, trivial, trivial, trivial, trivial⟩
example : AllOnce (start env lateConf 100) lateCalls := ⟨trivial, trivial, trivial, trivial, trivial, trivial, trivial⟩
example : DistinctIds env (history (start env lateConf 100) lateCalls).tick := ids_distinct _ (by decide +kernel)
example : (history (start env lateConf 100) lateBefore).tctxs[0]?.map (·.closed) = some false := by decide +kernel
example : (history (start env lateConf 100) (lateBefore ++ [.endService (.traced 0)])).tctxs[0]?.map (·.closed) = some true := by decide +kernel
/-- As found: the two steps of the service are received twice, the second time with two steps recorded after its end. -/
example : (history (start env lateConf 100) lateCalls).tctxs[0]?.map (·.sentSteps) = some [0, 1, 0, 1, 2, 3] := by decide +kernel
/-- The log, made before the profile is sent at the end, counts none of them. -/
example : (xlogsOf (history (start env lateConf 100) lateCalls).proxy.direct).map (·.profileCount) = [0] := by decide +kernel
/-- As found: the third late step is not sent, unless a further late step fills the buffer. -/
example : (history (start env lateConf 100) lateCalls).tctxs[0]?.map (fun t => (t.recorded, t.col.kept)) = some ([0, 1, 2, 3, 4], [4]) := by
  decide +kernel

end Demo
end Scouter
