import Verif.Proofs.Interleaving
import Verif.Props.Services
import Verif.Props.References
/-!
# C101: goroutines do not disturb one another

The API run access by access (`Model/Stepwise`), many goroutines at once, in any order of their accesses.
-/
namespace Scouter
namespace Stepwise
open Trace (Call history start)

/-- Goroutines about to make calls, with the contexts and steps given to each. -/
def beginning (env : Oracle) (conf : TraceConf) (cap : Nat) (gs : List (List Tctx × List Step × List Call)) : State :=
  { shared := start env conf cap, gs := gs.map fun g => .fresh g.1 g.2.1 g.2.2 }

theorem start_eq (env : Oracle) (conf : TraceConf) (cap : Nat) (css : List (List Call)) :
    State.start env conf cap css = beginning env conf cap (css.map fun cs => ([], [], cs)) := by
  simp [State.start, beginning, Goroutine.fresh, Function.comp_def]

theorem inv_run (r0 : Cache (BitVec 64) Nat) (env : Oracle) (conf : TraceConf) (cap : Nat) (gs : List (List Tctx × List Step × List Call)) (ts : List Turn) :
    Inv r0 cap (beginning env conf cap gs) ((beginning env conf cap gs).run ts) := by
  refine (Inv.begin r0 env conf cap _ fun g hg => ?_).run ts
  obtain ⟨x, -, e⟩ := List.mem_map.1 hg
  subst e
  exact ⟨rfl, rfl, rfl, rfl⟩

/-- What is known of a goroutine after a schedule. -/
theorem behind (env : Oracle) (conf : TraceConf) (cap : Nat) (gs : List (List Tctx × List Step × List Call)) (ts : List Turn) {i : Nat}
    {ctxs : List Tctx} {steps : List Step} {cs : List Call} {g : Goroutine} (h0 : gs[i]? = some (ctxs, steps, cs)) (hown : ∀ c ∈ cs, own c = true)
    (hg : ((beginning env conf cap gs).run ts).gs[i]? = some g) (σ : Nat → Nat) (hf : Follows σ g.ticks) :
    ∃ v, g.todo.seq v = (.ok (), byItself (env.at σ) conf cap ctxs steps cs) ∧ Rel σ v ((beginning env conf cap gs).run ts).shared g := by
  obtain ⟨v, e, r, -⟩ := (inv_run (Cache.new 10000 false) env conf cap gs ts).sim i (.fresh ctxs steps cs) g (by simp [beginning, h0]) hg σ hf
  exact ⟨v, e.seq.symm.trans (seq_codes cs hown _), r⟩

theorem finished_eq {g : Goroutine} (h : Finished g) {v w : World} (e : g.todo.seq v = (.ok (), w)) : v = w := by
  rw [h] at e
  exact congrArg Prod.snd e

theorem len_run (env : Oracle) (conf : TraceConf) (cap : Nat) (gs : List (List Tctx × List Step × List Call)) (ts : List Turn) :
    ((beginning env conf cap gs).run ts).gs.length = gs.length := by
  rw [(inv_run (Cache.new 10000 false) env conf cap gs ts).len]
  simp [beginning]

end Stepwise
open Stepwise
open Trace (Call history start)

/-- **C101**.  Goroutines make their calls, each with trace contexts and steps of its own (those given to it at the start and those it makes), access by
access in any order, while the collector may have the text caches forgotten and the queue may fill and drain.  Then each does what it would do alone in
the program, with the clock and the generators read at the moments it read them: what it has sent and counted so far is the beginning of what it would
send and count, and once it has finished, its contexts and steps are the same too.  The moments of different goroutines' readings are different. -/
theorem C101_as_if_alone (env : Oracle) (conf : TraceConf) (cap : Nat) (gs : List (List Tctx × List Step × List Call))
    (hown : ∀ x ∈ gs, ∀ c ∈ x.2.2, own c = true) (ts : List Turn) :
    ∃ σ : Nat → Nat → Nat, Dealt gs.length σ ∧
      ∀ (i : Nat) (ctxs : List Tctx) (steps : List Step) (cs : List Call) (g : Goroutine), gs[i]? = some (ctxs, steps, cs) →
        ((beginning env conf cap gs).run ts).gs[i]? = some g →
        let w := byItself (env.at (σ i)) conf cap ctxs steps cs
        g.sent <+: w.proxy.direct ∧ g.counted <+: w.metered ∧
          (Finished g → g.tctxs = w.tctxs ∧ g.steps = w.steps ∧ g.sent = w.proxy.direct ∧ g.counted = w.metered ∧
            ∀ k, k < w.tick → σ i k < ((beginning env conf cap gs).run ts).shared.tick) := by
  have hi := inv_run (Cache.new 10000 false) env conf cap gs ts
  refine ⟨dealt _, len_run env conf cap gs ts ▸ hi.dealt, fun i ctxs steps cs g h0 hg => ?_⟩
  obtain ⟨v, e, r⟩ := behind env conf cap gs ts h0 (hown _ (List.mem_of_getElem? h0)) hg _ (dealt_follows hg)
  have gr := seq_grows g.todo v
  rw [e] at gr
  refine ⟨r.sent ▸ gr.direct, r.counted ▸ gr.metered, fun hfin => ?_⟩
  have ev := finished_eq hfin e
  rw [← ev]
  refine ⟨r.tctxs.symm, r.steps.symm, r.sent.symm, r.counted.symm, fun k hk => ?_⟩
  rw [r.tick] at hk
  rcases dealt_cases hg k with ⟨h1, h2⟩ | ⟨h1, -⟩
  · rw [h2]; exact (hi.incr i g hg).2 _ (List.getElem_mem h1)
  · omega

/-- **C101** for goroutines that make all their contexts themselves: each is a run of the API as in the other properties, which therefore hold for it. -/
theorem C101_each_is_a_history (env : Oracle) (conf : TraceConf) (cap : Nat) (css : List (List Call)) (hown : ∀ cs ∈ css, ∀ c ∈ cs, own c = true)
    (ts : List Turn) :
    ∃ σ : Nat → Nat → Nat, Dealt css.length σ ∧
      ∀ (i : Nat) (cs : List Call) (g : Goroutine), css[i]? = some cs → ((State.start env conf cap css).run ts).gs[i]? = some g →
        let w := history (start (env.at (σ i)) conf cap) cs
        g.sent <+: w.proxy.direct ∧ g.counted <+: w.metered ∧
          (Finished g → g.tctxs = w.tctxs ∧ g.steps = w.steps ∧ g.sent = w.proxy.direct ∧ g.counted = w.metered ∧
            ∀ k, k < w.tick → σ i k < ((State.start env conf cap css).run ts).shared.tick) := by
  rw [start_eq]
  obtain ⟨σ, hd, h⟩ := C101_as_if_alone env conf cap (css.map fun cs => ([], [], cs)) (fun x hx c hc => by
    obtain ⟨cs, hm, e⟩ := List.mem_map.1 hx
    subst e
    exact hown cs hm c hc) ts
  refine ⟨σ, by simpa using hd, fun i cs g h0 hg => ?_⟩
  exact h i [] [] cs g (by simp [h0]) hg

/-- Whatever was sent was sent by one of the goroutines, once, and likewise what was counted. -/
theorem C101_nothing_lost (env : Oracle) (conf : TraceConf) (cap : Nat) (gs : List (List Tctx × List Step × List Call)) (ts : List Turn) :
    let s := (beginning env conf cap gs).run ts
    s.shared.proxy.direct.Perm (s.gs.map (·.sent)).flatten ∧ s.shared.metered.Perm (s.gs.map (·.counted)).flatten :=
  ⟨(inv_run (Cache.new 10000 false) env conf cap gs ts).sent, (inv_run (Cache.new 10000 false) env conf cap gs ts).counted⟩

/-- A goroutine that gets turns again and again finishes, whatever the others do. -/
theorem C101_finishes (env : Oracle) (conf : TraceConf) (cap : Nat) (gs : List (List Tctx × List Step × List Call))
    (hown : ∀ x ∈ gs, ∀ c ∈ x.2.2, own c = true) (i : Nat) (hi : i < gs.length) (sched : Nat → Turn) (hs : ∀ n, ∃ m, n ≤ m ∧ sched m = .go i) :
    ∃ n g, ((beginning env conf cap gs).run ((List.range n).map sched)).gs[i]? = some g ∧ Finished g := by
  obtain ⟨n, g, -, hg, h⟩ := finishes i sched hs (beginning env conf cap gs) _ 0 _
    (List.getElem?_eq_getElem (by rw [len_run]; exact hi)) rfl
  refine ⟨n, g, hg, ?_⟩
  rcases h with h | h
  · exact h
  · exfalso
    obtain ⟨v, e, -⟩ := behind env conf cap gs _ (List.getElem?_eq_getElem hi) (hown _ (List.getElem_mem hi)) hg _ (dealt_follows hg)
    rw [h] at e
    cases e

namespace Stepwise

/-- Transaction ids of the logs among packs. -/
def idsOf (packs : List Pack) : List (BitVec 64) := (xlogsOf packs).map (·.txid)

/-- All goroutines have nothing more to do. -/
def AllFinished (s : State) : Prop := ∀ g ∈ s.gs, Finished g

theorem idsOf_append (a b : List Pack) : idsOf (a ++ b) = idsOf a ++ idsOf b := by simp [idsOf, xlogsOf]

theorem idsOf_flatten (l : List (List Pack)) : idsOf l.flatten = (l.map idsOf).flatten := by
  induction l with
  | nil => rfl
  | cons a as ih => rw [List.flatten_cons, idsOf_append, ih]; rfl

theorem idsOf_perm {a b : List Pack} (h : a.Perm b) : (idsOf a).Perm (idsOf b) := (h.filterMap _).map _

theorem xlogs_of {packs : List Pack} {x : XlogPack} : x ∈ xlogsOf packs ↔ Pack.xlog x ∈ packs := by
  unfold xlogsOf
  rw [List.mem_filterMap]
  constructor
  · rintro ⟨p, hp, e⟩
    split at e
    · injection e with e; subst e; exact hp
    · cases e
  · exact fun h => ⟨_, h, rfl⟩

theorem profiles_of {packs : List Pack} {x : XlogProfilePack} : x ∈ profilesOf packs ↔ Pack.profile x ∈ packs := by
  unfold profilesOf
  rw [List.mem_filterMap]
  constructor
  · rintro ⟨p, hp, e⟩
    split at e
    · injection e with e; subst e; exact hp
    · cases e
  · exact fun h => ⟨_, h, rfl⟩

/-- Ids read at different moments are different. -/
theorem distinct_at {env : Oracle} {σ : Nat → Nat} {T n : Nat} (hid : DistinctIds env T) (hσ : ∀ k l, k < l → σ k < σ l) (hn : ∀ k, k < n → σ k < T) :
    DistinctIds (env.at σ) n := by
  intro i j hi hj he
  have := hid (σ i) (σ j) (hn i hi) (hn j hj) he
  rcases Nat.lt_trichotomy i j with h | h | h
  · exact absurd this (Nat.ne_of_lt (hσ _ _ h))
  · exact h
  · exact absurd this.symm (Nat.ne_of_lt (hσ _ _ h))

end Stepwise

/-- Once all have finished, no two logs carry the same transaction id, among all the goroutines (ids generated by the agent being distinct), and every
log is that of a service its goroutine ended. -/
theorem C101_at_most_one_log (env : Oracle) (conf : TraceConf) (cap : Nat) (css : List (List Call)) (hown : ∀ cs ∈ css, ∀ c ∈ cs, own c = true)
    (ts : List Turn) (s : State) (hs : s = (State.start env conf cap css).run ts) (hf : AllFinished s) (hid : DistinctIds env s.shared.tick) :
    (idsOf s.shared.proxy.direct).Nodup ∧
      ∀ id ∈ idsOf s.shared.proxy.direct, ∃ g ∈ s.gs, ∃ t ∈ g.tctxs, t.txid = id ∧ t.closed = true := by
  subst hs
  obtain ⟨σ, hd, hw⟩ := C101_each_is_a_history env conf cap css hown ts
  have hlen : ((State.start env conf cap css).run ts).gs.length = css.length := by rw [start_eq, len_run]; simp
  generalize hs : (State.start env conf cap css).run ts = s at *
  have hperm : (idsOf s.shared.proxy.direct).Perm ((s.gs.map (·.sent)).map idsOf).flatten := by
    rw [← idsOf_flatten, ← hs, start_eq]
    exact idsOf_perm (C101_nothing_lost env conf cap _ ts).1
  have each : ∀ (i : Nat) (g : Goroutine), s.gs[i]? = some g → (idsOf g.sent).Nodup ∧
      (∀ id ∈ idsOf g.sent, ∃ k, σ i k < s.shared.tick ∧ id = env.id (σ i k)) ∧
      ∀ id ∈ idsOf g.sent, ∃ t ∈ g.tctxs, t.txid = id ∧ t.closed = true := by
    intro i g hg
    have hi : i < css.length := hlen ▸ (List.getElem?_eq_some_iff.1 hg).1
    obtain ⟨-, -, h⟩ := hw i css[i] g (List.getElem?_eq_getElem hi) hg
    obtain ⟨e1, -, e3, -, e5⟩ := h (hf g (List.mem_of_getElem? hg))
    have hL := (Ledger.start (env.at (σ i)) conf cap).history css[i] 
      (by rw [show (start (env.at (σ i)) conf cap).env = env.at (σ i) from rfl]; exact distinct_at (σ := σ i) hid (hd.increasing i hi) e5)
    have henv : (history (start (env.at (σ i)) conf cap) css[i]).env = env.at (σ i) := by
      rw [history_env]; rfl
    rw [e3, e1]
    refine ⟨hL.once, fun id hm => ?_, fun id hm => ?_⟩
    · obtain ⟨n, h1, h2⟩ := hL.made _ (hL.ended id hm)
      exact ⟨n, e5 n h1, by rw [henv] at h2; exact h2⟩
    · obtain ⟨t, ht, e⟩ := List.mem_map.1 (hL.ended id hm)
      exact ⟨t, ht, congrArg Prod.fst e, congrArg Prod.snd e⟩
  constructor
  · rw [hperm.nodup_iff, List.nodup_flatten]
    constructor
    · intro l hl
      obtain ⟨x, hx, rfl⟩ := List.mem_map.1 hl
      obtain ⟨g, hg, rfl⟩ := List.mem_map.1 hx
      obtain ⟨i, hi⟩ := List.getElem?_of_mem hg
      exact (each i g hi).1
    · rw [List.pairwise_iff_getElem]
      intro i j hi hj hij
      simp only [List.getElem_map, List.length_map] at hi hj ⊢
      intro id h1 h2
      obtain ⟨k, hk, e⟩ := (each i _ (List.getElem?_eq_getElem hi)).2.1 id h1
      obtain ⟨l, hl, e'⟩ := (each j _ (List.getElem?_eq_getElem hj)).2.1 id h2
      exact hd.apart i j (hlen ▸ hi) (hlen ▸ hj) (Nat.ne_of_lt hij) k l (hid _ _ hk hl (e.symm.trans e'))
  · intro id hm
    obtain ⟨l, hl, hm⟩ := List.mem_flatten.1 (hperm.subset hm)
    obtain ⟨x, hx, rfl⟩ := List.mem_map.1 hl
    obtain ⟨g, hg, rfl⟩ := List.mem_map.1 hx
    obtain ⟨i, hi⟩ := List.getElem?_of_mem hg
    exact ⟨g, hg, (each i g hi).2.2 id hm⟩

/-- Without sampling, once all have finished, the logs are exactly those of the ended services, of all the goroutines. -/
theorem C101_exactly_one_log_without_sampling (env : Oracle) (conf : TraceConf) (cap : Nat) (css : List (List Call))
    (hown : ∀ cs ∈ css, ∀ c ∈ cs, own c = true) (hc : conf.bulk ≠ 0 ∧ NoSampling conf.sample)
    (ts : List Turn) (s : State) (hs : s = (State.start env conf cap css).run ts) (hf : AllFinished s) :
    (idsOf s.shared.proxy.direct).Perm (((s.gs.flatMap (·.tctxs)).filter (·.closed)).map (·.txid)) := by
  subst hs
  obtain ⟨σ, hd, hw⟩ := C101_each_is_a_history env conf cap css hown ts
  have hlen : ((State.start env conf cap css).run ts).gs.length = css.length := by rw [start_eq, len_run]; simp
  generalize hs : (State.start env conf cap css).run ts = s at *
  have hperm : (idsOf s.shared.proxy.direct).Perm ((s.gs.map (·.sent)).map idsOf).flatten := by
    rw [← idsOf_flatten, ← hs, start_eq]
    exact idsOf_perm (C101_nothing_lost env conf cap _ ts).1
  have each : ∀ (i : Nat) (g : Goroutine), s.gs[i]? = some g → (idsOf g.sent).Perm ((g.tctxs.filter (·.closed)).map (·.txid)) := by
    intro i g hg
    have hi : i < css.length := hlen ▸ (List.getElem?_eq_some_iff.1 hg).1
    obtain ⟨-, -, h⟩ := hw i css[i] g (List.getElem?_eq_getElem hi) hg
    obtain ⟨e1, -, e3, -, -⟩ := h (hf g (List.mem_of_getElem? hg))
    have hno : ∀ c, Call.conf c ∉ css[i] := fun c hm => by simpa [own] using hown _ (List.getElem_mem hi) _ hm
    have := C36_exactly_one_log_without_sampling (env.at (σ i)) conf cap css[i] ⟨hc, fun c hm => absurd hm (hno c)⟩
    rw [e3, e1]
    refine this.trans (List.Perm.of_eq ?_)
    simp [endedIds, services, List.filter_map, Function.comp_def, shownOf]
  refine hperm.trans ?_
  clear hperm hw hf hs hlen
  generalize s.gs = l at each
  induction l with
  | nil => exact List.Perm.refl _
  | cons a as ih =>
    simp only [List.map_cons, List.flatten_cons, List.flatMap_cons, List.filter_append, List.map_append]
    exact (each 0 a rfl).append (ih fun i g hg => each (i + 1) g hg)

/-- Once all have finished, every text a log or a profile refers to has been announced, by whichever goroutine. -/
theorem C101_no_dangling (env : Oracle) (conf : TraceConf) (cap : Nat) (css : List (List Call)) (hown : ∀ cs ∈ css, ∀ c ∈ cs, own c = true)
    (hp : ∀ cs ∈ css, OwnStepsPlain cs) (ts : List Turn) (s : State) (hs : s = (State.start env conf cap css).run ts) (hf : AllFinished s) :
    Resolved s.shared.proxy.offered s.shared.proxy.direct := by
  subst hs
  rw [start_eq] at hf ⊢
  generalize hgs : (css.map fun cs => (([] : List Tctx), ([] : List Step), cs)) = gs at *
  have key : ∀ p ∈ ((beginning env conf cap gs).run ts).shared.proxy.direct, ∃ (v : World), p ∈ v.proxy.direct ∧
      Resolved v.proxy.offered v.proxy.direct ∧ ∀ k h, Known v.proxy.offered k h → Known ((beginning env conf cap gs).run ts).shared.proxy.offered k h := by
    intro p hm
    obtain ⟨l, hl, hm⟩ := List.mem_flatten.1 ((C101_nothing_lost env conf cap gs ts).1.subset hm)
    obtain ⟨g, hg, rfl⟩ := List.mem_map.1 hl
    obtain ⟨i, hi⟩ := List.getElem?_of_mem hg
    have hlt : i < gs.length := len_run env conf cap gs ts ▸ (List.getElem?_eq_some_iff.1 hi).1
    have hlt' : i < css.length := by rw [← hgs] at hlt; simpa using hlt
    have h0 : gs[i]? = some ([], [], css[i]) := by rw [← hgs]; simp [hlt']
    obtain ⟨v, e, r⟩ := behind env conf cap gs ts h0 (hown _ (List.getElem_mem _)) hi _ (dealt_follows hi)
    have ev := finished_eq (hf g hg) e
    refine ⟨v, r.sent ▸ hm, ?_, r.known⟩
    rw [ev]
    exact C100_no_dangling _ conf cap _ (hp _ (List.getElem_mem _))
  refine ⟨fun x hx q hq => ?_, fun o ho => ?_, fun pk hk => ?_⟩
  · obtain ⟨v, h1, h2, h3⟩ := key _ (xlogs_of.1 hx)
    exact h3 _ _ (h2.1 x (xlogs_of.2 h1) q hq)
  · obtain ⟨v, h1, h2, h3⟩ := key _ ho
    exact h3 _ _ (h2.2.1 o h1)
  · obtain ⟨v, h1, h2, h3⟩ := key _ (profiles_of.1 hk)
    obtain ⟨a, ss, b, c⟩ := h2.2.2 pk (profiles_of.2 h1)
    exact ⟨h3 _ _ a, ss, b, fun s hs r hr => h3 _ _ (c s hs r hr)⟩

/-! ## A concrete case -/

namespace Demo

/-- Three goroutines: two services (one with an error), and one that starts a service without ending it. -/
def threeCalls : List (List Call) :=
  [[.startService .plain (ascii "/a") (ascii "10.0.0.1"), .addMessageStep (.traced 0) (ascii "m"), .endService (.traced 0)],
   [.startService .plain (ascii "/b") (ascii "10.0.0.2"), .markAsError (.traced 0) (ascii "e"), .endService (.traced 0)],
   [.startService .plain (ascii "/a") [], .isStream (.traced 0)]]

/-- Turns one after the other, the caches being forgotten in between. -/
def roundRobin (n : Nat) : List Turn := (List.range n).flatMap fun k => [.go 0, .go 1, .go 2] ++ if k = 20 then [.reset Demo.anyOrder] else []

/-- Nothing left to do. -/
def done : Prog Unit → Bool
  | .pure _ => true
  | _ => false

/-- The three goroutines after 80 rounds. -/
def threeAfter : State := (State.start env conf 100 threeCalls).run (roundRobin 80)

theorem threeFinished : AllFinished threeAfter := by
  have h : threeAfter.gs.all (fun g => done g.todo) = true := by decide +kernel
  intro g hg
  have := List.all_eq_true.1 h g hg
  unfold Finished
  cases hk : g.todo with
  | pure a => rfl
  | panic => rw [hk] at this; cases this
  | op a k => rw [hk] at this; cases this

example : ∀ cs ∈ threeCalls, ∀ c ∈ cs, own c = true := by simp [threeCalls, own]
example : ∀ cs ∈ threeCalls, OwnStepsPlain cs := by simp [threeCalls, OwnStepsPlain]
example : DistinctIds env threeAfter.shared.tick := ids_distinct _ (by decide +kernel)
example : idsOf threeAfter.shared.proxy.direct = [1, 2] ∧ threeAfter.gs.map (·.ticks) = [[0, 3, 6, 9, 11, 13, 14], [1, 4, 7, 10, 12, 15, 16], [2, 5, 8]] := by
  decide +kernel

end Demo
end Scouter
