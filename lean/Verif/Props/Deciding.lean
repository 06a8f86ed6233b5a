import Verif.Spec.Deciding
import Verif.Props.Sampling
/-!
# C97: sampling decisions while the configuration is being loaded
-/
namespace Scouter
namespace Deciding

/-! ## What a decision can come to -/

/-- The results a decision can come to if each read gives what one of the configurations has. -/
inductive Can (cs : List SampleConf) : Prog → BitVec 8 → Prop
  | done (d : BitVec 8) : Can cs (.done d) d
  | read {f : Setting} {k : f.Ty → Prog} {d : BitVec 8} (c : SampleConf) (hc : c ∈ cs) (h : Can cs (k (setting c f)) d) : Can cs (.read f k) d
  | look {l : Lst} {k : List StrMatch → Prog} {d : BitVec 8} (m : List StrMatch) (hm : ∀ n, chainedIsMatch m n = false) (h : Can cs (k m) d) :
    Can cs (.look l k) d

section
variable {cs : List SampleConf}

theorem can_read {f : Setting} {k : f.Ty → Prog} {d : BitVec 8} (h : Can cs (.read f k) d) : ∃ c ∈ cs, Can cs (k (setting c f)) d := by
  cases h with
  | read c hc h => exact ⟨c, hc, h⟩

theorem can_look {l : Lst} {k : List StrMatch → Prog} {d : BitVec 8} (h : Can cs (.look l k) d) :
    ∃ m, (∀ n, chainedIsMatch m n = false) ∧ Can cs (k m) d := by
  cases h with
  | look m hm h => exact ⟨m, hm, h⟩

/-- Patterns never match (C20). -/
theorem can_isPattern {l : Lst} {name : Bytes} {k : Bool → Prog} {d : BitVec 8} (h : Can cs (isPattern l name k) d) : Can cs (k false) d := by
  have test : ∀ t : Bytes, Can cs (if t = [] then k false else .look l fun m => k (chainedIsMatch m name)) d → Can cs (k false) d := by
    intro t h
    split at h
    · exact h
    · obtain ⟨m, hm, h⟩ := can_look h
      rwa [hm] at h
  cases l <;> (obtain ⟨c, -, h⟩ := can_read h; exact test _ h)

theorem can_rule {w : Which} {l : Lst} {draw : Nat} {elapsed : BitVec 32} {name : Bytes} {mode : BitVec 8} {k : Bool → BitVec 8 → Prog} {d : BitVec 8}
    (h : Can cs (rule w l draw elapsed name false mode k) d) : Can cs (k false mode) d := by
  unfold rule at h
  rw [if_neg (by simp)] at h
  obtain ⟨c, -, h⟩ := can_read h
  split at h
  · simpa using can_isPattern h
  · exact h

theorem can_sampling {draw : Nat} {elapsed : BitVec 32} {mode : BitVec 8} {k : BitVec 8 → Prog} {d : BitVec 8}
    (h : Can cs (sampling .general draw elapsed mode k) d) (r : RateConf) (hr : Mixture (cs.map (·.general)) r) :
    ∃ r', Mixture (cs.map (·.general)) r' ∧ r'.enabled = r.enabled ∧ Can cs (k (Sampler.sampling r' draw elapsed mode)) d := by
  have hm : ∀ {α : Type} (f : RateConf → α) {c : SampleConf}, c ∈ cs → ∃ x ∈ cs.map (·.general), f c.general = f x :=
    fun f c hc => ⟨c.general, List.mem_map.2 ⟨c, hc, rfl⟩, rfl⟩
  have judge : ∀ rate : Int, Can cs (if (draw : Int) ≥ rate then .read (.of .general .onlyProfile) fun (p : Bool) => k (Sampler.profileMode p) else k mode) d →
      ∃ p : Bool, (∃ x ∈ cs.map (·.general), p = x.onlyProfile) ∧ Can cs (k (if (draw : Int) ≥ rate then Sampler.profileMode p else mode)) d := by
    intro rate h
    split at h
    · rename_i hh
      obtain ⟨c, hc, h⟩ := can_read h
      exact ⟨c.general.onlyProfile, hm (·.onlyProfile) hc, by rw [if_pos hh]; exact h⟩
    · rename_i hh
      exact ⟨r.onlyProfile, hr.onlyProfile, by rw [if_neg hh]; exact h⟩
  unfold sampling at h
  obtain ⟨c1, h1, h⟩ := can_read h
  try dsimp only at h
  split at h
  · rename_i g1
    obtain ⟨c2, h2, h⟩ := can_read h
    obtain ⟨p, hp, h⟩ := judge _ h
    refine ⟨{ r with step1Ms := c1.general.step1Ms, rate1 := c2.general.rate1, onlyProfile := p },
      { hr with step1Ms := hm (·.step1Ms) h1, rate1 := hm (·.rate1) h2, onlyProfile := hp }, rfl, ?_⟩
    unfold Sampler.sampling
    rw [if_pos (by exact g1)]; exact h
  · rename_i g1
    obtain ⟨c2, h2, h⟩ := can_read h
    try dsimp only at h
    split at h
    · rename_i g2
      obtain ⟨c3, h3, h⟩ := can_read h
      obtain ⟨p, hp, h⟩ := judge _ h
      refine ⟨{ r with step1Ms := c1.general.step1Ms, step2Ms := c2.general.step2Ms, rate2 := c3.general.rate2, onlyProfile := p },
        { hr with step1Ms := hm (·.step1Ms) h1, step2Ms := hm (·.step2Ms) h2, rate2 := hm (·.rate2) h3, onlyProfile := hp }, rfl, ?_⟩
      unfold Sampler.sampling
      rw [if_neg (by exact g1), if_pos (by exact g2)]; exact h
    · rename_i g2
      obtain ⟨c3, h3, h⟩ := can_read h
      try dsimp only at h
      split at h
      · rename_i g3
        obtain ⟨c4, h4, h⟩ := can_read h
        obtain ⟨p, hp, h⟩ := judge _ h
        refine ⟨{ r with step1Ms := c1.general.step1Ms, step2Ms := c2.general.step2Ms, step3Ms := c3.general.step3Ms, rate3 := c4.general.rate3, onlyProfile := p },
          { hr with step1Ms := hm (·.step1Ms) h1, step2Ms := hm (·.step2Ms) h2, step3Ms := hm (·.step3Ms) h3, rate3 := hm (·.rate3) h4, onlyProfile := hp }, rfl, ?_⟩
        unfold Sampler.sampling
        rw [if_neg (by exact g1), if_neg (by exact g2), if_pos (by exact g3)]; exact h
      · rename_i g3
        obtain ⟨c4, h4, h⟩ := can_read h
        obtain ⟨p, hp, h⟩ := judge _ h
        refine ⟨{ r with step1Ms := c1.general.step1Ms, step2Ms := c2.general.step2Ms, step3Ms := c3.general.step3Ms, over := c4.general.over, onlyProfile := p },
          { hr with step1Ms := hm (·.step1Ms) h1, step2Ms := hm (·.step2Ms) h2, step3Ms := hm (·.step3Ms) h3, over := hm (·.over) h4, onlyProfile := hp }, rfl, ?_⟩
        unfold Sampler.sampling
        rw [if_neg (by exact g1), if_neg (by exact g2), if_neg (by exact g3)]; exact h

theorem mixture_of_mem {rs : List RateConf} {r : RateConf} (h : r ∈ rs) : Mixture rs r :=
  ⟨⟨r, h, rfl⟩, ⟨r, h, rfl⟩, ⟨r, h, rfl⟩, ⟨r, h, rfl⟩, ⟨r, h, rfl⟩, ⟨r, h, rfl⟩, ⟨r, h, rfl⟩, ⟨r, h, rfl⟩, ⟨r, h, rfl⟩, ⟨r, h, rfl⟩⟩

theorem can_evaluate {draw : Nat} {elapsed : BitVec 32} {name : Bytes} {k : BitVec 8 → Prog} {d : BitVec 8}
    (h : Can cs (evaluate draw elapsed name k) d) (hk : ∀ b, Can cs (isPattern .exclude name fun b' => if b' then k discardNone else b) d → Can cs b d) :
    ∃ c ∈ cs, Can cs (if c.general.enabled then sampling .general draw elapsed discardNone k else k discardNone) d := by
  unfold evaluate at h
  obtain ⟨c1, -, h⟩ := can_read h
  split at h
  · have h := can_rule (can_rule (can_rule (hk _ h)))
    rw [if_neg (by simp)] at h
    exact can_read h
  · have h := can_rule (can_rule (can_rule h))
    rw [if_neg (by simp)] at h
    exact can_read h

theorem can_code {q : Question} {d : BitVec 8} (hne : cs ≠ []) (h : Can cs q.code d) : ∃ r, Mixture (cs.map (·.general)) r ∧ d = fate r q := by
  have hm : ∀ {c : SampleConf}, c ∈ cs → Mixture (cs.map (·.general)) c.general := fun {c} hc =>
    mixture_of_mem (List.mem_map.2 ⟨c, hc, rfl⟩)
  unfold Question.code at h
  have last : ∀ mode : BitVec 8, Can cs ((fun mode : BitVec 8 => isPattern .discard q.name fun b =>
      .done (if b then (if q.error ≠ 0 then discardNone else discardAllForce) else mode)) mode) d → d = mode := by
    intro mode h
    have h := can_isPattern h
    cases h
    rfl
  revert h last
  generalize (fun mode : BitVec 8 => isPattern .discard q.name fun b =>
      .done (if b then (if q.error ≠ 0 then discardNone else discardAllForce) else mode)) = k
  intro h last
  by_cases he : q.error = 0#32
  · have h : Can cs (evaluate q.draw q.elapsed q.name k) d := by
      have e : ¬ q.error ≠ 0 := fun h => h he
      rw [if_neg e] at h; exact h
    obtain ⟨c, hc, h⟩ := can_evaluate h fun b h => by simpa using can_isPattern h
    split at h
    · rename_i hen
      obtain ⟨r, hr, hre, h⟩ := can_sampling h c.general (hm hc)
      refine ⟨r, hr, ?_⟩
      rw [last _ h, sampling_rate]
      unfold fate RateConf.keeps
      rw [hre, hen, he]
      by_cases hd : (q.draw : Int) < r.rateOf q.elapsed <;> simp [hd]
    · rename_i hen
      refine ⟨c.general, hm hc, ?_⟩
      have hen : c.general.enabled = false := by simpa using hen
      rw [last _ h, fate, if_pos (by simp [RateConf.keeps, hen])]
  · have h : Can cs (k discardNone) d := by
      have e : q.error ≠ 0 := he
      rw [if_pos e] at h; exact h
    obtain ⟨c, hc⟩ := List.exists_mem_of_ne_nil cs hne
    refine ⟨c.general, hm hc, ?_⟩
    rw [last _ h, fate, if_pos (by simp [RateConf.keeps, he])]
end

/-! ## Every schedule -/

/-- Every setting in effect is that of one of the configurations. -/
structure Inv (cs : List SampleConf) (s : State) : Prop where
  conf : ∀ f, ∃ c ∈ cs, setting s.conf f = setting c f
  sampler : Inert s.sampler
  ahead : ∀ f new, Instr.assign f new ∈ s.refresher → new ∈ cs

theorem inert_renewList {s : Sampler} (h : Inert s) (c : SampleConf) (l : Lst) : Inert (renewList s c l) := by
  cases l
  · exact { h with exclude := inert_renew h.exclude _ }
  · exact { h with discard := inert_renew h.discard _ }
  · exact { h with pat1 := inert_renew h.pat1 _ }
  · exact { h with pat2 := inert_renew h.pat2 _ }
  · exact { h with pat3 := inert_renew h.pat3 _ }

theorem setting_copy (new old : SampleConf) (f g : Setting) :
    setting (copySetting new old f) g = if f = g then setting new g else setting old g := by
  cases f with
  | discardPatterns =>
    cases g with
    | discardPatterns => rfl
    | of w i => cases w <;> rfl
  | of w i =>
    cases g with
    | discardPatterns => cases w <;> rfl
    | of w' j => cases w <;> cases w' <;> first | rfl | (cases i <;> cases j <;> rfl)

theorem inert_matcher {s : Sampler} (h : Inert s) (l : Lst) : ∀ n, chainedIsMatch (matcher s l) n = false := by
  cases l
  · exact h.exclude
  · exact h.discard
  · exact h.pat1
  · exact h.pat2
  · exact h.pat3

theorem inv_fire {cs : List SampleConf} {s : State} (h : Inv cs s) (i : Nat) : Inv cs (s.fire i) := by
  cases i with
  | succ i => exact ⟨h.conf, h.sampler, h.ahead⟩
  | zero =>
    show Inv cs s.refreshStep
    unfold State.refreshStep
    split
    · exact h
    · rename_i f new is e
      refine ⟨fun g => ?_, h.sampler, fun g n hg => h.ahead g n (by rw [e]; exact List.mem_cons_of_mem _ hg)⟩
      rw [setting_copy]
      split
      · exact ⟨new, h.ahead f new (by rw [e]; simp), rfl⟩
      · exact h.conf g
    · rename_i l is e
      exact ⟨h.conf, inert_renewList h.sampler _ _, fun g n hg => h.ahead g n (by rw [e]; exact List.mem_cons_of_mem _ hg)⟩

theorem can_step {cs : List SampleConf} {s : State} (h : Inv cs s) (p : Prog) (d : BitVec 8) (hd : Can cs (p.step s.conf s.sampler) d) : Can cs p d := by
  cases p with
  | done x => exact hd
  | read f k =>
    obtain ⟨c, hc, e⟩ := h.conf f
    refine .read c hc ?_
    rw [← e]; exact hd
  | look l k => exact .look _ (inert_matcher h.sampler l) hd

theorem can_run {cs : List SampleConf} (is : List Nat) : ∀ {s : State} (_ : Inv cs s) (i : Nat) (p : Prog) (_ : s.deciders[i]? = some p) (d : BitVec 8)
    (_ : (s.run is).decided i d), Can cs p d := by
  induction is with
  | nil =>
    intro s h i p hp d hd
    have : s.deciders[i]? = some (.done d) := hd
    rw [hp] at this
    injection this with this
    rw [this]; exact .done d
  | cons j is ih =>
    intro s h i p hp d hd
    have hd : ((s.fire j).run is).decided i d := hd
    cases j with
    | zero =>
      refine ih (inv_fire h 0) i p ?_ d hd
      show s.refreshStep.deciders[i]? = some p
      unfold State.refreshStep
      split <;> exact hp
    | succ j =>
      by_cases hij : j = i
      · subst hij
        refine can_step h p d (ih (inv_fire h (j + 1)) j (p.step s.conf s.sampler) ?_ d hd)
        show (s.deciders.modify j _)[j]? = _
        rw [List.getElem?_modify, hp]; simp
      · refine ih (inv_fire h (j + 1)) i p ?_ d hd
        show (s.deciders.modify j _)[i]? = _
        rw [List.getElem?_modify, hp]; simp [hij]

theorem inv_start (c made : SampleConf) (cs : List SampleConf) (qs : List Question) : Inv (c :: cs) (State.start c made cs qs) := by
  refine ⟨fun f => ⟨c, by simp, rfl⟩, Inert.new made, fun f new h => ?_⟩
  obtain ⟨c', hc', h⟩ := List.mem_flatMap.1 (show Instr.assign f new ∈ cs.flatMap refresh from h)
  unfold refresh at h
  rcases List.mem_append.1 h with h | h
  · obtain ⟨g, -, e⟩ := List.mem_map.1 h
    injection e with e1 e2
    rw [← e2]; exact List.mem_cons_of_mem _ hc'
  · simp at h

theorem start_waiting {c made : SampleConf} {cs : List SampleConf} {qs : List Question} {i : Nat} {q : Question} (h : qs[i]? = some q) :
    (State.start c made cs qs).waiting i q := by
  show (qs.map Question.code)[i]? = _
  rw [List.getElem?_map, h]; rfl

/-- **C97**: services end while configurations are loaded, one after the other (`cs`, after `c`).  Under every schedule of the single reads and
writes of settings, each decision is the one that follows from a set of options of which each is that of one of those configurations. -/
theorem C97_decision_of_a_mixture (c made : SampleConf) (cs : List SampleConf) (qs : List Question) (is : List Nat) (i : Nat) (q : Question)
    (hq : qs[i]? = some q) (d : BitVec 8) (hd : ((State.start c made cs qs).run is).decided i d) :
    ∃ r, Mixture ((c :: cs).map (·.general)) r ∧ d = fate r q :=
  can_code (by simp) (can_run is (inv_start c made cs qs) i _ (start_waiting hq) d hd)

theorem rateOf_cases (r : RateConf) (e : BitVec 32) : r.rateOf e = r.rate1 ∨ r.rateOf e = r.rate2 ∨ r.rateOf e = r.rate3 ∨ r.rateOf e = r.over := by
  unfold RateConf.rateOf RateConf.bands
  by_cases h1 : e.toInt < r.step1Ms.toInt
  · simp [h1]
  · by_cases h2 : e.toInt < r.step2Ms.toInt
    · simp [h1, h2]
    · by_cases h3 : e.toInt < r.step3Ms.toInt
      · simp [h1, h2, h3]
      · simp [h1, h2, h3]

/-- **C97**: a service with an error is kept, whatever is being loaded. -/
theorem C97_failed_service_kept (c made : SampleConf) (cs : List SampleConf) (qs : List Question) (is : List Nat) (i : Nat) (q : Question)
    (hq : qs[i]? = some q) (he : q.error ≠ 0) (d : BitVec 8) (hd : ((State.start c made cs qs).run is).decided i d) : d = discardNone := by
  obtain ⟨r, -, rfl⟩ := C97_decision_of_a_mixture c made cs qs is i q hq d hd
  rw [fate, if_pos]
  have he : ¬ q.error = 0#32 := he
  simp [RateConf.keeps, he]

/-- **C97**: while none of the configurations samples, nothing is dropped. -/
theorem C97_off_drops_nothing (c made : SampleConf) (cs : List SampleConf) (qs : List Question) (is : List Nat) (i : Nat) (q : Question)
    (hq : qs[i]? = some q) (hoff : ∀ x ∈ c :: cs, x.general.enabled = false) (d : BitVec 8)
    (hd : ((State.start c made cs qs).run is).decided i d) : d = discardNone := by
  obtain ⟨r, hr, rfl⟩ := C97_decision_of_a_mixture c made cs qs is i q hq d hd
  obtain ⟨x, hx, e⟩ := hr.enabled
  obtain ⟨y, hy, rfl⟩ := List.mem_map.1 hx
  have : r.enabled = false := by rw [e, hoff y hy]
  rw [fate, if_pos (by simp [RateConf.keeps, this])]

/-- **C97**: while all rates of all configurations are 100 or more, nothing is dropped, also when sampling is being turned on or off. -/
theorem C97_full_rates_drop_nothing (c made : SampleConf) (cs : List SampleConf) (qs : List Question) (is : List Nat) (i : Nat) (q : Question)
    (hq : qs[i]? = some q) (hdraw : q.draw < 100) (hfull : ∀ x ∈ c :: cs, RateFull x.general) (d : BitVec 8)
    (hd : ((State.start c made cs qs).run is).decided i d) : d = discardNone := by
  obtain ⟨r, hr, rfl⟩ := C97_decision_of_a_mixture c made cs qs is i q hq d hd
  have hf : RateFull r := by
    refine ⟨?_, ?_, ?_, ?_⟩
    · obtain ⟨x, hx, e⟩ := hr.rate1
      obtain ⟨y, hy, rfl⟩ := List.mem_map.1 hx
      rw [e]; exact (hfull y hy).1
    · obtain ⟨x, hx, e⟩ := hr.rate2
      obtain ⟨y, hy, rfl⟩ := List.mem_map.1 hx
      rw [e]; exact (hfull y hy).2.1
    · obtain ⟨x, hx, e⟩ := hr.rate3
      obtain ⟨y, hy, rfl⟩ := List.mem_map.1 hx
      rw [e]; exact (hfull y hy).2.2.1
    · obtain ⟨x, hx, e⟩ := hr.over
      obtain ⟨y, hy, rfl⟩ := List.mem_map.1 hx
      rw [e]; exact (hfull y hy).2.2.2
  have : (q.draw : Int) < r.rateOf q.elapsed := by
    obtain ⟨h1, h2, h3, h4⟩ := hf
    rcases rateOf_cases r q.elapsed with e | e | e | e <;> rw [e] <;> omega
  rw [fate, if_pos (by simp [RateConf.keeps, this])]

/-- **C97**: if the configuration loaded differs from that in effect in one option of the general set (and in whatever patterns, patterned sets and
settings that have nothing to do with sampling), each decision is the one of the old configuration or the one of the new. -/
theorem C97_one_option_is_atomic (old new made : SampleConf) (qs : List Question) (is : List Nat) (i : Nat) (q : Question)
    (hq : qs[i]? = some q) (hone : OneOption old.general new.general) (d : BitVec 8)
    (hd : ((State.start old made [new] qs).run is).decided i d) : d = fate old.general q ∨ d = fate new.general q := by
  obtain ⟨r, hr, rfl⟩ := C97_decision_of_a_mixture old made [new] qs is i q hq d hd
  obtain ⟨o, ho⟩ := hone
  have ext : ∀ a b : RateConf, (∀ j, item a j = item b j) → a = b := by
    intro a b h
    obtain ⟨⟩ := a; obtain ⟨⟩ := b
    have h1 := h .enabled; have h2 := h .patterns; have h3 := h .onlyProfile; have h4 := h .step1Ms; have h5 := h .step2Ms
    have h6 := h .step3Ms; have h7 := h .rate1; have h8 := h .rate2; have h9 := h .rate3; have h10 := h .over
    simp only [item] at h1 h2 h3 h4 h5 h6 h7 h8 h9 h10
    subst h1 h2 h3 h4 h5 h6 h7 h8 h9 h10; rfl
  have each : ∀ j, item r j = item old.general j ∨ item r j = item new.general j := by
    have two : ∀ {α : Type} (f : RateConf → α), (∃ x ∈ [old, new].map (·.general), f r = f x) → f r = f old.general ∨ f r = f new.general := by
      intro α f ⟨x, hx, e⟩
      simp only [List.map_cons, List.map_nil, List.mem_cons, List.not_mem_nil, or_false] at hx
      rcases hx with rfl | rfl
      · exact .inl e
      · exact .inr e
    intro j
    cases j
    · exact two (·.enabled) hr.enabled
    · exact two (·.patterns) hr.patterns
    · exact two (·.onlyProfile) hr.onlyProfile
    · exact two (·.step1Ms) hr.step1Ms
    · exact two (·.rate1) hr.rate1
    · exact two (·.step2Ms) hr.step2Ms
    · exact two (·.rate2) hr.rate2
    · exact two (·.step3Ms) hr.step3Ms
    · exact two (·.rate3) hr.rate3
    · exact two (·.over) hr.over
  rcases each o with h | h
  · left
    rw [ext r old.general fun j => ?_]
    by_cases hj : j = o
    · rw [hj]; exact h
    · rcases each j with e | e
      · exact e
      · rw [e, ho j hj]
  · right
    rw [ext r new.general fun j => ?_]
    by_cases hj : j = o
    · rw [hj]; exact h
    · rcases each j with e | e
      · rw [e, ho j hj]
      · exact e

/-! ## When all is loaded -/

/-- The settings once the rest has been done. -/
def finalConf : List Instr → SampleConf → SampleConf
  | [], c => c
  | .assign f new :: is, c => finalConf is (copySetting new c f)
  | .renew _ :: is, c => finalConf is c

theorem finalConf_append (a b : List Instr) : ∀ c, finalConf (a ++ b) c = finalConf b (finalConf a c) := by
  induction a with
  | nil => intro c; rfl
  | cons i a ih => intro c; cases i <;> exact ih _

theorem setting_finalConf (new : SampleConf) (g : Setting) (l : List Setting) :
    ∀ c, setting (finalConf (l.map (.assign · new)) c) g = if g ∈ l then setting new g else setting c g := by
  induction l with
  | nil => intro c; simp [finalConf]
  | cons f l ih =>
    intro c
    rw [List.map_cons]
    unfold finalConf
    rw [ih, setting_copy]
    by_cases h1 : g ∈ l
    · simp [h1]
    · by_cases h2 : f = g
      · simp [h2]
      · simp [h1, h2, Ne.symm h2]

theorem rate_ext {a b : RateConf} (h : ∀ j, item a j = item b j) : a = b := by
  obtain ⟨⟩ := a; obtain ⟨⟩ := b
  have h1 := h .enabled; have h2 := h .patterns; have h3 := h .onlyProfile; have h4 := h .step1Ms; have h5 := h .step2Ms
  have h6 := h .step3Ms; have h7 := h .rate1; have h8 := h .rate2; have h9 := h .rate3; have h10 := h .over
  simp only [item] at h1 h2 h3 h4 h5 h6 h7 h8 h9 h10
  subst h1 h2 h3 h4 h5 h6 h7 h8 h9 h10; rfl

theorem conf_ext {a b : SampleConf} (h : ∀ f, setting a f = setting b f) : a = b := by
  have h0 : a.discardPatterns = b.discardPatterns := h .discardPatterns
  have h1 : a.general = b.general := rate_ext fun j => h (.of .general j)
  have h2 : a.pat1 = b.pat1 := rate_ext fun j => h (.of .pat1 j)
  have h3 : a.pat2 = b.pat2 := rate_ext fun j => h (.of .pat2 j)
  have h4 : a.pat3 = b.pat3 := rate_ext fun j => h (.of .pat3 j)
  obtain ⟨⟩ := a; obtain ⟨⟩ := b
  simp only at h0 h1 h2 h3 h4
  subst h0 h1 h2 h3 h4; rfl

theorem finalConf_refresh (new c : SampleConf) : finalConf (refresh new) c = new := by
  refine conf_ext fun f => ?_
  unfold refresh
  rw [finalConf_append]
  simp only [finalConf]
  rw [setting_finalConf, if_pos]
  cases f with
  | discardPatterns => decide
  | of w i => cases w <;> cases i <;> decide

theorem finalConf_run (is : List Nat) : ∀ s : State, finalConf (s.run is).refresher (s.run is).conf = finalConf s.refresher s.conf := by
  induction is with
  | nil => intro s; rfl
  | cons j is ih =>
    intro s
    rw [show s.run (j :: is) = (s.fire j).run is from rfl, ih]
    cases j with
    | succ j => rfl
    | zero =>
      show finalConf s.refreshStep.refresher s.refreshStep.conf = _
      unfold State.refreshStep
      split
      · rfl
      · rename_i f new is e; rw [e]; rfl
      · rename_i l is e; rw [e]; rfl

theorem finalConf_flatMap (cs : List SampleConf) : ∀ c, finalConf (cs.flatMap refresh) c = cs.getLastD c := by
  induction cs with
  | nil => intro c; rfl
  | cons x cs ih =>
    intro c
    rw [List.flatMap_cons, finalConf_append, finalConf_refresh, ih, List.getLastD_cons]

/-- **C97**: once the configurations are loaded, the settings in effect are those of the last, and every decision begun then follows from them alone. -/
theorem C97_settled (c made : SampleConf) (cs : List SampleConf) (qs : List Question) (is : List Nat)
    (hl : ((State.start c made cs qs).run is).loaded) :
    ((State.start c made cs qs).run is).conf = cs.getLastD c ∧
    ∀ (i : Nat) (q : Question) (is' : List Nat) (d : BitVec 8), ((State.start c made cs qs).run is).waiting i q →
      (((State.start c made cs qs).run is).run is').decided i d → d = fate (cs.getLastD c).general q := by
  have hconf : ((State.start c made cs qs).run is).conf = cs.getLastD c := by
    have h := finalConf_run is (State.start c made cs qs)
    rw [show ((State.start c made cs qs).run is).refresher = [] from hl] at h
    exact h.trans (finalConf_flatMap cs c)
  refine ⟨hconf, fun i q is' d hw hd => ?_⟩
  have hinert : ∀ (is : List Nat) (s : State), Inert s.sampler → Inert (s.run is).sampler := by
    intro is
    induction is with
    | nil => intro s h; exact h
    | cons j is ih =>
      intro s h
      refine ih (s.fire j) ?_
      cases j with
      | succ j => exact h
      | zero =>
        show Inert s.refreshStep.sampler
        unfold State.refreshStep
        split
        · exact h
        · exact h
        · exact inert_renewList h _ _
  have hinv : Inv [cs.getLastD c] ((State.start c made cs qs).run is) :=
    ⟨fun f => ⟨_, List.mem_singleton.2 rfl, by rw [hconf]⟩, hinert is _ (Inert.new made), fun f new h => by
      rw [show ((State.start c made cs qs).run is).refresher = [] from hl] at h; exact absurd h (by simp)⟩
  obtain ⟨r, hr, rfl⟩ := can_code (by simp) (can_run is' hinv i _ hw d hd)
  have one : ∀ {α : Type} (f : RateConf → α), (∃ x ∈ [cs.getLastD c].map (·.general), f r = f x) → f r = f (cs.getLastD c).general := by
    intro α f ⟨x, hx, e⟩
    simp only [List.map_cons, List.map_nil, List.mem_cons, List.not_mem_nil, or_false] at hx
    rw [e, hx]
  have : r = (cs.getLastD c).general := by
    have h1 := one (·.enabled) hr.enabled; have h2 := one (·.patterns) hr.patterns; have h3 := one (·.onlyProfile) hr.onlyProfile
    have h4 := one (·.step1Ms) hr.step1Ms; have h5 := one (·.step2Ms) hr.step2Ms; have h6 := one (·.step3Ms) hr.step3Ms
    have h7 := one (·.rate1) hr.rate1; have h8 := one (·.rate2) hr.rate2; have h9 := one (·.rate3) hr.rate3; have h10 := one (·.over) hr.over
    generalize (cs.getLastD c).general = g at *
    obtain ⟨⟩ := r; obtain ⟨⟩ := g
    simp only at h1 h2 h3 h4 h5 h6 h7 h8 h9 h10
    subst h1 h2 h3 h4 h5 h6 h7 h8 h9 h10; rfl
  rw [this]

/-! ## Decisions end -/

/-- At most `n` reads are left, whatever they give. -/
inductive Within : Nat → Prog → Prop
  | done {n : Nat} (d : BitVec 8) : Within n (.done d)
  | read {n : Nat} {f : Setting} {k : f.Ty → Prog} (h : ∀ v, Within n (k v)) : Within (n + 1) (.read f k)
  | look {n : Nat} {l : Lst} {k : List StrMatch → Prog} (h : ∀ m, Within n (k m)) : Within (n + 1) (.look l k)

theorem Within.mono {n : Nat} {p : Prog} (h : Within n p) : ∀ {m : Nat}, n ≤ m → Within m p := by
  induction h with
  | done d => intro m _; exact .done d
  | read _ ih =>
    intro m hm
    obtain ⟨m, rfl⟩ := Nat.exists_eq_succ_of_ne_zero (n := m) (by omega)
    exact .read fun v => ih v (by omega)
  | look _ ih =>
    intro m hm
    obtain ⟨m, rfl⟩ := Nat.exists_eq_succ_of_ne_zero (n := m) (by omega)
    exact .look fun v => ih v (by omega)

theorem within_isPattern {n : Nat} {l : Lst} {name : Bytes} {k : Bool → Prog} (h : ∀ b, Within n (k b)) : Within (n + 2) (isPattern l name k) := by
  have test : ∀ t : Bytes, Within (n + 1) (if t = [] then k false else .look l fun m => k (chainedIsMatch m name)) := by
    intro t
    split
    · exact (h _).mono (by omega)
    · exact .look fun m => h _
  cases l <;> exact .read test

theorem within_sampling {n : Nat} {w : Which} {draw : Nat} {elapsed : BitVec 32} {mode : BitVec 8} {k : BitVec 8 → Prog} (h : ∀ b, Within n (k b)) :
    Within (n + 5) (sampling w draw elapsed mode k) := by
  have judge : ∀ rate : Int, Within (n + 1)
      (if (draw : Int) ≥ rate then .read (.of w .onlyProfile) fun (p : Bool) => k (Sampler.profileMode p) else k mode) := by
    intro rate
    split
    · exact .read fun _ => h _
    · exact (h _).mono (by omega)
  unfold sampling
  refine .read fun v => ?_
  try dsimp only
  split
  · exact Within.read fun rate => (judge rate).mono (by omega)
  · refine .read fun v => ?_
    try dsimp only
    split
    · exact Within.read fun rate => (judge rate).mono (by omega)
    · refine .read fun v => ?_
      try dsimp only
      split
      · exact Within.read judge
      · exact Within.read judge

theorem within_rule {n : Nat} {w : Which} {l : Lst} {draw : Nat} {elapsed : BitVec 32} {name : Bytes} {b : Bool} {mode : BitVec 8}
    {k : Bool → BitVec 8 → Prog} (h : ∀ b m, Within n (k b m)) : Within (n + 8) (rule w l draw elapsed name b mode k) := by
  unfold rule
  split
  · exact (h _ _).mono (by omega)
  · refine .read fun v => ?_
    try dsimp only
    split
    · refine within_isPattern fun b => ?_
      split
      · exact within_sampling fun m => h _ _
      · exact (h _ _).mono (by omega)
    · exact (h _ _).mono (by omega)

theorem within_evaluate {draw : Nat} {elapsed : BitVec 32} {name : Bytes} {k : BitVec 8 → Prog} (last : ∀ m, Within 2 (k m)) :
    Within 36 (evaluate draw elapsed name k) := by
  have rest : ∀ rest : Prog, Within 32 rest → Within 36 (.read (.of .general .enabled) fun (e : Bool) =>
      if e then isPattern .exclude name fun b => if b then k discardNone else rest
      else rest) := by
    intro rest h
    refine .read fun v => ?_
    split
    · refine (within_isPattern (n := 32) fun b => ?_).mono (by omega)
      split
      · exact (last _).mono (by omega)
      · exact h
    · exact h.mono (by omega)
  unfold evaluate
  refine rest _ ?_
  refine within_rule fun b m => within_rule fun b m => within_rule fun b m => ?_
  split
  · exact (last _).mono (by omega)
  · refine .read fun v => ?_
    split
    · exact (within_sampling fun m => last m).mono (by omega)
    · exact (last _).mono (by omega)

theorem within_code (q : Question) : Within 36 q.code := by
  have last : ∀ mode : BitVec 8, Within 2 ((fun mode : BitVec 8 => isPattern .discard q.name fun b =>
      .done (if b then (if q.error ≠ 0 then discardNone else discardAllForce) else mode)) mode) := fun mode => within_isPattern fun _ => .done _
  unfold Question.code
  revert last
  generalize (fun mode : BitVec 8 => isPattern .discard q.name fun b =>
      .done (if b then (if q.error ≠ 0 then discardNone else discardAllForce) else mode)) = k
  intro last
  show Within 36 (if q.error ≠ 0 then k discardNone else evaluate q.draw q.elapsed q.name k)
  split
  · exact (last _).mono (by omega)
  · exact within_evaluate last

theorem within_run (is : List Nat) : ∀ (s : State) (i : Nat) (p : Prog) (n : Nat), s.deciders[i]? = some p → Within n p →
    ∃ p', (s.run is).deciders[i]? = some p' ∧ Within (n - is.count (i + 1)) p' := by
  induction is with
  | nil => intro s i p n hp h; exact ⟨p, hp, h⟩
  | cons j is ih =>
    intro s i p n hp h
    rw [show s.run (j :: is) = (s.fire j).run is from rfl]
    by_cases hj : j = i + 1
    · subst hj
      have hp' : (s.fire (i + 1)).deciders[i]? = some (p.step s.conf s.sampler) := by
        show (s.deciders.modify i _)[i]? = _
        rw [List.getElem?_modify, hp]; simp
      have h' : Within (n - 1) (p.step s.conf s.sampler) := by
        cases h with
        | done d => exact .done d
        | read h => exact h _
        | look h => exact h _
      obtain ⟨p', e, hw⟩ := ih _ i _ (n - 1) hp' h'
      refine ⟨p', e, ?_⟩
      rw [List.count_cons_self, show n - (List.count (i + 1) is + 1) = n - 1 - List.count (i + 1) is by omega]
      exact hw
    · have hp' : (s.fire j).deciders[i]? = some p := by
        cases j with
        | zero =>
          show s.refreshStep.deciders[i]? = some p
          unfold State.refreshStep
          split <;> exact hp
        | succ j =>
          show (s.deciders.modify j _)[i]? = _
          rw [List.getElem?_modify, hp]; simp [show j ≠ i by omega]
      obtain ⟨p', e, hw⟩ := ih _ i _ n hp' h
      refine ⟨p', e, ?_⟩
      rw [List.count_cons_of_ne (by exact hj)]
      exact hw

/-- **C97**: loading a configuration never holds a decision up: it is there after 36 steps of its goroutine, whatever the others do. -/
theorem C97_decision_ends (c made : SampleConf) (cs : List SampleConf) (qs : List Question) (is : List Nat) (i : Nat) (q : Question)
    (hq : qs[i]? = some q) (hn : 36 ≤ is.count (i + 1)) : ∃ d, ((State.start c made cs qs).run is).decided i d := by
  obtain ⟨p, e, h⟩ := within_run is (State.start c made cs qs) i _ 36 (start_waiting hq) (within_code q)
  rw [show 36 - is.count (i + 1) = 0 by omega] at h
  cases h with
  | done d => exact ⟨d, e⟩

/-! ## What is not kept -/

/-- The result, if there is one. -/
def Prog.result : Prog → Option (BitVec 8)
  | .done d => some d
  | _ => none

theorem decided_of_result {s : State} {i : Nat} {d : BitVec 8} (h : s.deciders[i]?.bind Prog.result = some d) : s.decided i d := by
  unfold State.decided
  rcases e : s.deciders[i]? with _ | p
  · rw [e] at h; cases h
  · rw [e] at h
    cases p with
    | done x => cases h; rfl
    | read f k => cases h
    | look l k => cases h

theorem loaded_of_isEmpty {s : State} (h : s.refresher.isEmpty = true) : s.loaded := List.isEmpty_iff.1 h

theorem waiting_refresh (n : Nat) : ∀ {s : State} {i : Nat} {q : Question}, s.waiting i q → (s.run (List.replicate n 0)).waiting i q := by
  induction n with
  | zero => intro s i q h; exact h
  | succ n ih =>
    intro s i q h
    refine ih (s := s.refreshStep) ?_
    unfold State.waiting State.refreshStep
    split <;> exact h

namespace Demo

/-- The default options: sampling off, rates of 2, 7, 15 and 3000 percent. -/
def defaults : RateConf := ⟨false, [], false, 100, 500, 1000, 2, 7, 15, 3000⟩

/-- Sampling on, with rates of 100 percent. -/
def full : RateConf := { defaults with enabled := true, rate1 := 100, rate2 := 100, rate3 := 100, over := 100 }

def oldConf : SampleConf := ⟨[], defaults, defaults, defaults, defaults⟩
def newConf : SampleConf := { oldConf with general := full }

/-- A service of 20 ms, drawing 50. -/
def short : Question := ⟨50, 0, 20, ascii "/short"⟩

/-- The sampling flag is loaded (the third assignment), then the decision is made, then the rest is loaded. -/
def unlucky : List Nat := List.replicate 3 0 ++ List.replicate 20 1 ++ List.replicate 60 0

end Demo

/-- **C97**, in general false: *a service that both the old and the new configuration keep is kept*.  From the defaults (sampling off), sampling is
turned on with all rates at 100 percent; in between the flag is on and the rates are still the default ones. -/
theorem C97_dropped_by_neither : ∃ is, let s := (State.start Demo.oldConf Demo.oldConf [Demo.newConf] [Demo.short]).run is
    s.decided 0 discardAll ∧ s.loaded ∧ fate Demo.oldConf.general Demo.short = discardNone ∧ fate Demo.newConf.general Demo.short = discardNone :=
  ⟨Demo.unlucky, decided_of_result (by decide +kernel), loaded_of_isEmpty (by decide +kernel), by decide +kernel, by decide +kernel⟩

/-- The hypotheses of the theorems above are met: a decision under way while one option is being loaded. -/
example : OneOption Demo.defaults { Demo.defaults with enabled := true } :=
  ⟨.enabled, fun j hj => by cases j <;> first | exact absurd rfl hj | rfl⟩

example : ((State.start Demo.oldConf Demo.oldConf [{ Demo.oldConf with general := { Demo.defaults with enabled := true } }] [Demo.short]).run
    Demo.unlucky).decided 0 discardAll := decided_of_result (by decide +kernel)

example : RateFull Demo.full := by unfold RateFull; decide

example : ((State.start Demo.oldConf Demo.oldConf [Demo.newConf] [Demo.short]).run (List.replicate 46 0)).loaded ∧
    ((State.start Demo.oldConf Demo.oldConf [Demo.newConf] [Demo.short]).run (List.replicate 46 0)).waiting 0 Demo.short :=
  ⟨loaded_of_isEmpty (by decide +kernel), waiting_refresh 46 (start_waiting rfl)⟩

end Deciding
end Scouter
