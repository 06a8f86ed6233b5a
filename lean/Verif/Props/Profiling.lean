import Verif.Spec.Profiling
import Verif.Props.Triggers
/-! # C85: profiles taken on request, under every schedule of their goroutines -/
namespace Scouter
namespace Profiling
open Dump

variable {dd bd : Path}

/-! ## Small facts -/

theorem put_at (fs : FS) (p : Path) (c : Bytes) : FileAt (put fs p c) p c := by simp [FileAt, put, FS.at]

theorem put_other (fs : FS) (p q : Path) (c : Bytes) (h : q ≠ p) : (put fs p c).at q = fs.at q := by
  rw [← find_filter_ne fs q p h]
  unfold put FS.at
  rw [List.find?_cons_of_neg (by simpa using Ne.symm h)]

/-- What a job is, and which file it writes, stays; a job under way stays so until it is finished. -/
theorem step_job (s : State) (e : Event) (i : Nat) (k : Kind) (f : Path) (ph : Phase) (h : s.jobs[i]? = some ⟨k, f, ph⟩) :
    ∃ ph', (step dd bd s e).jobs[i]? = some ⟨k, f, ph'⟩ ∧ (e.spares i → ∀ old, ph = .running old → ph' = .running old) := by
  have hlt : i < s.jobs.length := (List.getElem?_eq_some_iff.mp h).1
  cases e with
  | request cmd stamp =>
    unfold step
    dsimp only
    split
    · exact ⟨ph, h, fun _ _ h => h⟩
    · exact ⟨ph, by simp [List.getElem?_append_left hlt, h], fun _ _ h => h⟩
  | start j =>
    unfold step
    dsimp only
    split
    · next k' f' hj =>
      by_cases hij : j = i
      · subst hij
        rw [h] at hj
        cases hj
        have : ∃ ph', (startJob s ⟨k, f, .asked⟩).2 = ⟨k, f, ph'⟩ := by
          unfold startJob
          cases k <;> dsimp only <;> first | exact ⟨_, rfl⟩ | (split <;> exact ⟨_, rfl⟩)
        obtain ⟨ph', hp⟩ := this
        refine ⟨ph', ?_, fun _ old ho => by cases ho⟩
        show (s.jobs.set j (startJob s ⟨k, f, .asked⟩).2)[j]? = _
        rw [hp]
        simp [hlt]
      · exact ⟨ph, by show (s.jobs.set j _)[i]? = _; rw [List.getElem?_set_ne hij, h], fun _ _ h => h⟩
    · exact ⟨ph, h, fun _ _ h => h⟩
  | finish j ws =>
    unfold step
    dsimp only
    split
    · next k' f' old hj =>
      by_cases hij : j = i
      · subst hij
        rw [h] at hj
        cases hj
        exact ⟨.over, by simp [hlt], fun hs => absurd rfl hs⟩
      · exact ⟨ph, by show (s.jobs.set j _)[i]? = _; rw [List.getElem?_set_ne hij, h], fun _ _ h => h⟩
    · exact ⟨ph, h, fun _ _ h => h⟩
  | appBlock r => exact ⟨ph, h, fun _ _ h => h⟩
  | appMutex r => exact ⟨ph, h, fun _ _ h => h⟩

theorem life_running (s : State) (es : List Event) (i : Nat) (k : Kind) (f : Path) (old : Int)
    (h : s.jobs[i]? = some ⟨k, f, .running old⟩) (hes : ∀ e ∈ es, e.spares i) :
    (life dd bd s es).jobs[i]? = some ⟨k, f, .running old⟩ := by
  induction es generalizing s with
  | nil => exact h
  | cons e es ih =>
    obtain ⟨ph', h1, h2⟩ := step_job (dd := dd) (bd := bd) s e i k f _ h
    rw [h2 (hes e (by simp)) old rfl] at h1
    exact ih _ h1 fun e he => hes e (by simp [he])

theorem life_job (s : State) (es : List Event) (i : Nat) (k : Kind) (f : Path) (ph : Phase)
    (h : s.jobs[i]? = some ⟨k, f, ph⟩) : ∃ ph', (life dd bd s es).jobs[i]? = some ⟨k, f, ph'⟩ := by
  induction es generalizing s ph with
  | nil => exact ⟨ph, h⟩
  | cons e es ih => obtain ⟨ph', h1, -⟩ := step_job (dd := dd) (bd := bd) s e i k f _ h; exact ih _ _ h1

theorem life_append (s : State) (es fs : List Event) : life dd bd s (es ++ fs) = life dd bd (life dd bd s es) fs := List.foldl_append ..

/-! ## Mutex profiles -/

theorem start_mutex (s : State) (i : Nat) (k : Kind) (f : Path) (h : s.jobs[i]? = some ⟨k, f, .asked⟩) (hk : k.ofMutex = true) :
    (step dd bd s (.start i)).jobs[i]? = some ⟨k, f, .running s.rt.mutexFraction⟩ ∧
    (step dd bd s (.start i)).rt.mutexFraction = k.fraction := by
  have hlt : i < s.jobs.length := (List.getElem?_eq_some_iff.mp h).1
  unfold step
  simp only [h]
  cases k <;> simp [Kind.ofMutex] at hk <;> simp [startJob, Runtime.setMutex, Kind.fraction, hlt]

theorem finish_mutex (s : State) (i : Nat) (k : Kind) (f : Path) (old : Int) (ws : List Bytes)
    (h : s.jobs[i]? = some ⟨k, f, .running old⟩) (hk : k.ofMutex = true) (ho : 0 ≤ old) :
    (step dd bd s (.finish i ws)).rt.mutexFraction = old := by
  have : ¬ old < 0 := by omega
  unfold step
  simp only [h]
  cases k <;> simp [Kind.ofMutex] at hk <;> simp [finishJob, Runtime.setMutex, this]

/-- **C85**: a mutex profile puts back the fraction it found when it began, whatever happened in between. -/
theorem C85_mutex_puts_back (s : State) (i : Nat) (k : Kind) (f : Path) (h : s.jobs[i]? = some ⟨k, f, .asked⟩) (hk : k.ofMutex = true)
    (h0 : 0 ≤ s.rt.mutexFraction) (es : List Event) (hes : ∀ e ∈ es, e.spares i) (ws : List Bytes) :
    (life dd bd s (.start i :: es ++ [.finish i ws])).rt.mutexFraction = s.rt.mutexFraction := by
  rw [life_append]
  exact finish_mutex (dd := dd) (bd := bd) _ i k f _ ws (life_running _ es i k f _ (start_mutex s i k f h hk).1 hes) hk h0

/-- **C85**, as found: when a mutex profile begins while another is under way, and they finish in the order they began (as they
do: both take thirty seconds), the application is left with the fraction of the first profile, whatever it had set before. -/
theorem C85_overlapping_mutex_profiles_leak (s : State) (i j : Nat) (ki kj : Kind) (fi fj : Path)
    (hi : s.jobs[i]? = some ⟨ki, fi, .asked⟩) (hj : s.jobs[j]? = some ⟨kj, fj, .asked⟩) (hij : i ≠ j)
    (hki : ki.ofMutex = true) (hkj : kj.ofMutex = true) (es1 es2 es3 : List Event) (wi wj : List Bytes)
    (h1 : ∀ e ∈ es1, e.distant) (h2 : ∀ e ∈ es2, e.spares j) (h3 : ∀ e ∈ es3, e.spares j) :
    (life dd bd s (.start i :: es1 ++ .start j :: es2 ++ .finish i wi :: es3 ++ [.finish j wj])).rt.mutexFraction = ki.fraction := by
  have far : ∀ (es : List Event) (s : State), (∀ e ∈ es, e.distant) →
      (life dd bd s es).rt.mutexFraction = s.rt.mutexFraction ∧ ∀ (x : Job), s.jobs[j]? = some x → (life dd bd s es).jobs[j]? = some x := by
    intro es
    induction es with
    | nil => exact fun s _ => ⟨rfl, fun _ h => h⟩
    | cons e es ih =>
      intro s hes
      have he := hes e (by simp)
      obtain ⟨a, b⟩ := ih (step dd bd s e) fun e he => hes e (by simp [he])
      have : (step dd bd s e).rt.mutexFraction = s.rt.mutexFraction ∧ ∀ (x : Job), s.jobs[j]? = some x → (step dd bd s e).jobs[j]? = some x := by
        cases e <;> simp only [Event.distant] at he
        · unfold step
          dsimp only
          split
          · exact ⟨rfl, fun _ h => h⟩
          · exact ⟨rfl, fun x h => by rw [List.getElem?_append_left (List.getElem?_eq_some_iff.mp h).1]; exact h⟩
        · exact ⟨rfl, fun _ h => h⟩
      exact ⟨a.trans this.1, fun x hx => b x (this.2 x hx)⟩
  have hs1 := start_mutex (dd := dd) (bd := bd) s i ki fi hi hki
  have hj1 : (step dd bd s (.start i)).jobs[j]? = some ⟨kj, fj, .asked⟩ := by
    unfold step
    simp only [hi]
    show (s.jobs.set i _)[j]? = _
    rw [List.getElem?_set_ne hij, hj]
  obtain ⟨a1, a2⟩ := far es1 (step dd bd s (.start i)) h1
  have hs2 := start_mutex (dd := dd) (bd := bd) (life dd bd (step dd bd s (.start i)) es1) j kj fj (a2 _ hj1) hkj
  rw [a1, hs1.2] at hs2
  have e : Event.start i :: es1 ++ .start j :: es2 ++ .finish i wi :: es3 ++ [.finish j wj] =
      Event.start i :: es1 ++ (.start j :: (es2 ++ (.finish i wi :: (es3 ++ [.finish j wj])))) := by simp
  rw [e, life_append]
  show (life dd bd (step dd bd (life dd bd (step dd bd s (.start i)) es1) (.start j)) (es2 ++ (.finish i wi :: (es3 ++ [.finish j wj])))).rt.mutexFraction = _
  have e2 : es2 ++ (.finish i wi :: (es3 ++ [.finish j wj])) = (es2 ++ .finish i wi :: es3) ++ [Event.finish j wj] := by simp
  rw [e2, life_append]
  refine finish_mutex (dd := dd) (bd := bd) _ j kj fj _ wj (life_running _ _ j kj fj _ hs2.1 ?_) hkj (by cases ki <;> simp [Kind.fraction])
  intro e he
  rcases List.mem_append.mp he with h | h
  · exact h2 e h
  · rcases List.mem_cons.mp h with h | h
    · rw [h]; exact hij
    · exact h3 e h

/-- What holds while mutex profiles keep apart: those under way are one at most, and it has noted the wanted fraction. -/
structure Kept (s : State) (f : Int) : Prop where
  nonneg : 0 ≤ f
  one : ∀ i j, Running s Kind.ofMutex i → Running s Kind.ofMutex j → i = j
  noted : ∀ (i : Nat) (k : Kind) (p : Path) (old : Int), s.jobs[i]? = some ⟨k, p, .running old⟩ → k.ofMutex = true → old = f
  idle : Idle s Kind.ofMutex → s.rt.mutexFraction = f

theorem Kept.same {s s' : State} {f : Int} (h : Kept s f) (hj : ∀ i, Running s' Kind.ofMutex i → s'.jobs[i]? = s.jobs[i]?)
    (hj' : ∀ i, Running s Kind.ofMutex i → s'.jobs[i]? = s.jobs[i]?)
    (hf : s'.rt.mutexFraction = s.rt.mutexFraction) : Kept s' f := by
  have hr : ∀ i, Running s' Kind.ofMutex i → Running s Kind.ofMutex i := by
    intro i hi
    obtain ⟨k, p, old, h1, h2⟩ := hi
    exact ⟨k, p, old, (hj i ⟨k, p, old, h1, h2⟩) ▸ h1, h2⟩
  have hr' : ∀ i, Running s Kind.ofMutex i → Running s' Kind.ofMutex i := by
    intro i hi
    obtain ⟨k, p, old, h1, h2⟩ := hi
    exact ⟨k, p, old, (hj' i ⟨k, p, old, h1, h2⟩).trans h1, h2⟩
  refine ⟨h.nonneg, fun i j hi hj => h.one i j (hr i hi) (hr j hj), fun i k p old h1 h2 => ?_, fun hi => ?_⟩
  · exact h.noted i k p old ((hj i ⟨k, p, old, h1, h2⟩) ▸ h1) h2
  · exact hf.trans (h.idle fun i hx => hi i (hr' i hx))

theorem startJob_mutex (s : State) (k : Kind) (f : Path) (hk : k.ofMutex = false) :
    (startJob s ⟨k, f, .asked⟩).1.rt.mutexFraction = s.rt.mutexFraction ∧ (startJob s ⟨k, f, .asked⟩).2.kind = k := by
  cases k <;> simp [Kind.ofMutex] at hk <;> simp [startJob, Runtime.setBlock]
  split <;> simp

theorem finishJob_mutex (s : State) (j : Job) (old : Int) (ws : List Bytes) (hk : j.kind.ofMutex = false) :
    (finishJob s j old ws).rt.mutexFraction = s.rt.mutexFraction := by
  obtain ⟨k, f, ph⟩ := j
  cases k <;> simp [Kind.ofMutex] at hk <;> simp [finishJob, Runtime.setBlock]

/-- Changing a job that is not a mutex profile under way, and does not become one, does not matter. -/
theorem set_running {s s' : State} {i : Nat} {x : Job} (hs : s'.jobs = s.jobs.set i x) (hx : ∀ old, x.phase = .running old → x.kind.ofMutex = false)
    (hi : ¬ Running s Kind.ofMutex i) :
    (∀ n, Running s' Kind.ofMutex n → s'.jobs[n]? = s.jobs[n]?) ∧ (∀ n, Running s Kind.ofMutex n → s'.jobs[n]? = s.jobs[n]?) := by
  refine ⟨fun n hn => ?_, fun n hn => ?_⟩
  · by_cases h : i = n
    · subst h
      obtain ⟨k, f, old, h1, h2⟩ := hn
      rw [hs] at h1
      by_cases hlt : i < s.jobs.length
      · simp only [List.getElem?_set_self hlt, Option.some.injEq] at h1
        have := hx old (by rw [h1])
        rw [h1] at this
        simp [h2] at this
      · rw [hs, List.set_eq_of_length_le (by omega)]
    · rw [hs, List.getElem?_set_ne h]
  · have h : i ≠ n := fun h => hi (h ▸ hn)
    rw [hs, List.getElem?_set_ne h]

theorem Kept.step {s : State} {f : Int} (h : Kept s f) (e : Event) (es : List Event) (ha : Apart dd bd s (e :: es)) :
    Kept (step dd bd s e) (wanted f [e]) := by
  cases e with
  | request cmd stamp =>
    show Kept _ f
    unfold Profiling.step
    dsimp only
    split
    · exact h
    · refine h.same ?_ ?_ rfl
      · intro i hi
        obtain ⟨k, p, old, h1, h2⟩ := hi
        by_cases hlt : i < s.jobs.length
        · exact List.getElem?_append_left hlt
        · exfalso
          rw [show ({ s with jobs := s.jobs ++ _ } : State).jobs = s.jobs ++ _ from rfl, List.getElem?_append_right (by omega)] at h1
          cases hn : i - s.jobs.length with
          | zero => rw [hn] at h1; simp at h1
          | succ n => rw [hn] at h1; simp at h1
      · intro i hi
        obtain ⟨k, p, old, h1, h2⟩ := hi
        exact List.getElem?_append_left (List.getElem?_eq_some_iff.mp h1).1
  | appBlock r => exact h.same (fun _ _ => rfl) (fun _ _ => rfl) rfl
  | appMutex r =>
    have hi : Idle s Kind.ofMutex := ha.1
    show Kept _ (if r < 0 then f else r)
    have hf := h.idle hi
    refine ⟨?_, fun i _ hx => absurd hx (hi i), fun i k p old h1 h2 => absurd ⟨k, p, old, h1, h2⟩ (hi i), fun _ => ?_⟩
    · have := h.nonneg
      split <;> omega
    · show ((s.rt.setMutex r).2).mutexFraction = _
      unfold Runtime.setMutex
      split <;> simp_all
  | start i =>
    show Kept _ f
    cases hi : s.jobs[i]? with
    | none => unfold Profiling.step; simp only [hi]; exact h
    | some x =>
      obtain ⟨k, p, ph⟩ := x
      cases ph with
      | running _ => unfold Profiling.step; simp only [hi]; exact h
      | over => unfold Profiling.step; simp only [hi]; exact h
      | asked =>
        by_cases hk : k.ofMutex = true
        · have hid : Idle s Kind.ofMutex := ha.1 k p hi hk
          have hs := start_mutex (dd := dd) (bd := bd) s i k p hi hk
          have only : ∀ n, Running (Profiling.step dd bd s (.start i)) Kind.ofMutex n → n = i := by
            intro n hn
            by_cases hne : n = i
            · exact hne
            · exfalso
              obtain ⟨k', p', old', h1, h2⟩ := hn
              refine hid n ⟨k', p', old', ?_, h2⟩
              unfold Profiling.step at h1
              simp only [hi] at h1
              rwa [List.getElem?_set_ne (Ne.symm hne)] at h1
          refine ⟨h.nonneg, fun a b ha hb => (only a ha).trans (only b hb).symm, fun n k' p' old' h1 h2 => ?_, fun hno => ?_⟩
          · have := only n ⟨k', p', old', h1, h2⟩
            subst this
            rw [hs.1] at h1
            simp only [Option.some.injEq, Job.mk.injEq, Phase.running.injEq] at h1
            rw [← h1.2.2]
            exact h.idle hid
          · exact absurd ⟨k, p, _, hs.1, hk⟩ (hno i)
        · have hk' : k.ofMutex = false := by simpa using hk
          have hsj := startJob_mutex s k p hk'
          have hjobs : (Profiling.step dd bd s (.start i)).jobs = s.jobs.set i (startJob s ⟨k, p, .asked⟩).2 := by
            unfold Profiling.step; simp only [hi]
          have hr := set_running (s := s) (s' := Profiling.step dd bd s (.start i)) hjobs
            (fun _ _ => by rw [hsj.2]; exact hk')
            (fun ⟨k', p', old', h1, h2⟩ => by rw [hi] at h1; simp at h1)
          refine h.same hr.1 hr.2 ?_
          unfold Profiling.step
          simp only [hi]
          exact hsj.1
  | finish i ws =>
    show Kept _ f
    cases hi : s.jobs[i]? with
    | none => unfold Profiling.step; simp only [hi]; exact h
    | some x =>
      obtain ⟨k, p, ph⟩ := x
      cases ph with
      | asked => unfold Profiling.step; simp only [hi]; exact h
      | over => unfold Profiling.step; simp only [hi]; exact h
      | running old =>
        have hjobs : (Profiling.step dd bd s (.finish i ws)).jobs = s.jobs.set i ⟨k, p, .over⟩ := by
          unfold Profiling.step; simp only [hi]
        by_cases hk : k.ofMutex = true
        · have ho := h.noted i k p old hi hk
          subst ho
          have hf := finish_mutex (dd := dd) (bd := bd) s i k p old ws hi hk h.nonneg
          have none' : Idle (Profiling.step dd bd s (.finish i ws)) Kind.ofMutex := by
            intro n hn
            obtain ⟨k', p', old', h1, h2⟩ := hn
            by_cases hne : i = n
            · subst hne
              rw [hjobs, List.getElem?_set_self (List.getElem?_eq_some_iff.mp hi).1] at h1
              simp at h1
            · rw [hjobs, List.getElem?_set_ne hne] at h1
              exact hne (h.one i n ⟨k, p, old, hi, hk⟩ ⟨k', p', old', h1, h2⟩)
          exact ⟨h.nonneg, fun a _ ha => absurd ha (none' a), fun n k' p' old' h1 h2 => absurd ⟨k', p', old', h1, h2⟩ (none' n), fun _ => hf⟩
        · have hk' : k.ofMutex = false := by simpa using hk
          have hr := set_running (s := s) (s' := Profiling.step dd bd s (.finish i ws)) hjobs (fun _ h => by cases h)
            (fun ⟨k', p', old', h1, h2⟩ => by rw [hi] at h1; cases h1; simp [hk'] at h2)
          refine h.same hr.1 hr.2 ?_
          unfold Profiling.step
          simp only [hi]
          exact finishJob_mutex s _ old ws hk'

/-- **C85**: as long as mutex profiles do not overlap (and the application does not set the fraction during one), the fraction
is the application's own whenever no mutex profile is under way, under every schedule of everything else. -/
theorem C85_mutex_fraction_kept (s : State) (h0 : 0 ≤ s.rt.mutexFraction) (hs : Idle s Kind.ofMutex) (es : List Event)
    (ha : Apart dd bd s es) (hi : Idle (life dd bd s es) Kind.ofMutex) :
    (life dd bd s es).rt.mutexFraction = wanted s.rt.mutexFraction es := by
  have main : ∀ (es : List Event) (s : State) (f : Int), Kept s f → Apart dd bd s es → Kept (life dd bd s es) (wanted f es) := by
    intro es
    induction es with
    | nil => exact fun s f h _ => h
    | cons e es ih =>
      intro s f h ha
      have := ih _ _ (h.step e es ha) ha.2
      have e' : wanted (wanted f [e]) es = wanted f (e :: es) := by cases e <;> rfl
      rw [← e']
      exact this
  exact (main es s _ ⟨h0, fun i _ hx => absurd hx (hs i), fun i k p old h1 h2 => absurd ⟨k, p, old, h1, h2⟩ (hs i), fun _ => rfl⟩ ha).idle hi

/-! ## Block profiles -/

theorem finish_block (s : State) (i : Nat) (k : Kind) (f : Path) (old : Int) (ws : List Bytes)
    (h : s.jobs[i]? = some ⟨k, f, .running old⟩) (hk : k.ofBlock = true) : (step dd bd s (.finish i ws)).rt.blockRate = 0 := by
  unfold step
  simp only [h]
  cases k <;> simp [Kind.ofBlock] at hk <;> simp [finishJob, Runtime.setBlock]

/-- **C85**, as found: when a block profile finishes, block profiling is off, also when the application had turned it on, and
also when another block profile is still under way; and it stays off until something turns it on. -/
theorem C85_block_profiling_off_afterwards (s : State) (i : Nat) (k : Kind) (f : Path) (old : Int) (ws : List Bytes)
    (h : s.jobs[i]? = some ⟨k, f, .running old⟩) (hk : k.ofBlock = true) (es : List Event) (hes : ∀ e ∈ es, ¬ e.begins) :
    (life dd bd s (.finish i ws :: es)).rt.blockRate = 0 := by
  have h0 := finish_block (dd := dd) (bd := bd) s i k f old ws h hk
  show (life dd bd (step dd bd s (.finish i ws)) es).rt.blockRate = 0
  generalize step dd bd s (.finish i ws) = s1 at *
  clear h s
  induction es generalizing s1 with
  | nil => exact h0
  | cons e es ih =>
    refine ih (fun e he => hes e (by simp [he])) (step dd bd s1 e) ?_
    have he := hes e (by simp)
    cases e with
    | request cmd stamp => unfold step; dsimp only; split <;> exact h0
    | start j => exact absurd trivial he
    | appBlock r => exact absurd trivial he
    | appMutex r =>
      show ((s1.rt.setMutex r).2).blockRate = 0
      unfold Runtime.setMutex
      split <;> exact h0
    | finish j ws' =>
      unfold step
      dsimp only
      split
      · next k' f' old' hj =>
        show (finishJob s1 ⟨k', f', .running old'⟩ old' ws').rt.blockRate = 0
        cases k' <;> simp [finishJob, Runtime.setBlock, Runtime.setMutex, h0]
        · split <;> simp [h0]
        · split <;> simp [h0]
      · exact h0

/-- **C85**: when a profile begins, what it records is switched on (a CPU profile: unless another is being taken), and it stays on until a profile
begins or finishes or the application changes the switches. -/
theorem C85_switched_on (s : State) (i : Nat) (k : Kind) (f : Path) (h : s.jobs[i]? = some ⟨k, f, .asked⟩)
    (hc : k = .cpu → s.rt.cpu = false) (es : List Event) (hes : ∀ e ∈ es, e.aside) :
    Recording (life dd bd s (.start i :: es)).rt k ∧ ∃ old, (life dd bd s (.start i :: es)).jobs[i]? = some ⟨k, f, .running old⟩ := by
  have hlt : i < s.jobs.length := (List.getElem?_eq_some_iff.mp h).1
  have h1 : Recording (step dd bd s (.start i)).rt k ∧ ∃ old, (step dd bd s (.start i)).jobs[i]? = some ⟨k, f, .running old⟩ := by
    unfold step
    simp only [h]
    cases k <;> simp [startJob, Runtime.setMutex, Runtime.setBlock, Recording, Kind.fraction, hlt, hc]
  have main : ∀ (es : List Event) (s : State), (∀ e ∈ es, e.aside) → Recording s.rt k ∧ (∃ old, s.jobs[i]? = some ⟨k, f, .running old⟩) →
      Recording (life dd bd s es).rt k ∧ ∃ old, (life dd bd s es).jobs[i]? = some ⟨k, f, .running old⟩ := by
    intro es
    induction es with
    | nil => exact fun s _ h => h
    | cons e es ih =>
      intro s hes h
      refine ih _ (fun e he => hes e (by simp [he])) ?_
      have he := hes e (by simp)
      cases e with
      | request cmd stamp =>
        have hl : i < s.jobs.length := by obtain ⟨-, old, h⟩ := h; exact (List.getElem?_eq_some_iff.mp h).1
        unfold step
        dsimp only
        split
        · exact h
        · refine ⟨h.1, ?_⟩
          obtain ⟨-, old, h⟩ := h
          exact ⟨old, by simp [List.getElem?_append_left hl, h]⟩
      | _ => exact absurd he (by simp [Event.aside])
  exact main es _ hes h1

/-! ## CPU profiles -/

/-- Whether a CPU profile is under way. -/
def ofCpu : Kind → Bool
  | .cpu => true
  | _ => false

/-- The runtime's switch tells whether a CPU profile of the agent is under way, and there is one at most. -/
structure CpuOk (s : State) : Prop where
  one : ∀ i j, Running s ofCpu i → Running s ofCpu j → i = j
  tells : s.rt.cpu = true ↔ ∃ i, Running s ofCpu i

theorem finishJob_cpu (s : State) (j : Job) (old : Int) (ws : List Bytes) :
    (finishJob s j old ws).rt.cpu = if ofCpu j.kind then false else s.rt.cpu := by
  obtain ⟨k, f, ph⟩ := j
  cases k <;> simp [ofCpu, finishJob, Runtime.setBlock, Runtime.setMutex]
  · split <;> rfl
  · split <;> rfl

theorem CpuOk.step {s : State} (h : CpuOk s) (e : Event) : CpuOk (step dd bd s e) := by
  -- jobs other than the one the event is about are as they were
  have keep : ∀ {s' : State}, s'.rt.cpu = s.rt.cpu → (∀ n, Running s' ofCpu n ↔ Running s ofCpu n) → CpuOk s' := by
    intro s' hc hr
    exact ⟨fun i j hi hj => h.one i j ((hr i).mp hi) ((hr j).mp hj), by rw [hc, h.tells]; exact exists_congr fun n => (hr n).symm⟩
  have setr : ∀ {s' : State} {i : Nat} {x : Job}, s'.jobs = s.jobs.set i x → (∀ old, x.phase = .running old → ofCpu x.kind = false) →
      ¬ Running s ofCpu i → ∀ n, Running s' ofCpu n ↔ Running s ofCpu n := by
    intro s' i x hs hx hi n
    by_cases hn : i = n
    · subst hn
      refine ⟨fun ⟨k, f, old, h1, h2⟩ => ?_, fun h => absurd h hi⟩
      rw [hs] at h1
      by_cases hlt : i < s.jobs.length
      · rw [List.getElem?_set_self hlt] at h1
        cases h1
        rw [hx old rfl] at h2
        cases h2
      · rw [List.set_eq_of_length_le (by omega)] at h1
        exact absurd ⟨k, f, old, h1, h2⟩ hi
    · unfold Running
      rw [hs, List.getElem?_set_ne hn]
  cases e with
  | request cmd stamp =>
    unfold Profiling.step
    dsimp only
    split
    · exact h
    · refine keep rfl fun n => ?_
      unfold Running
      by_cases hlt : n < s.jobs.length
      · rw [show ({ s with jobs := s.jobs ++ _ } : State).jobs = s.jobs ++ _ from rfl, List.getElem?_append_left hlt]
      · rw [show ({ s with jobs := s.jobs ++ _ } : State).jobs = s.jobs ++ _ from rfl, List.getElem?_append_right (by omega)]
        have hnone : s.jobs[n]? = none := List.getElem?_eq_none (by omega)
        rw [hnone]
        cases hn : n - s.jobs.length <;> simp
  | appBlock r => exact keep rfl fun _ => Iff.rfl
  | appMutex r =>
    refine keep ?_ fun _ => Iff.rfl
    show ((s.rt.setMutex r).2).cpu = _
    unfold Runtime.setMutex
    split <;> rfl
  | start i =>
    cases hi : s.jobs[i]? with
    | none => unfold Profiling.step; simp only [hi]; exact h
    | some x =>
      obtain ⟨k, p, ph⟩ := x
      have hlt : i < s.jobs.length := (List.getElem?_eq_some_iff.mp hi).1
      cases ph with
      | running _ => unfold Profiling.step; simp only [hi]; exact h
      | over => unfold Profiling.step; simp only [hi]; exact h
      | asked =>
        have hnr : ¬ Running s ofCpu i := fun ⟨k', p', old', h1, h2⟩ => by rw [hi] at h1; simp at h1
        have hjobs : (Profiling.step dd bd s (.start i)).jobs = s.jobs.set i (startJob s ⟨k, p, .asked⟩).2 := by
          unfold Profiling.step; simp only [hi]
        have hrt : (Profiling.step dd bd s (.start i)).rt = (startJob s ⟨k, p, .asked⟩).1.rt := by
          unfold Profiling.step; simp only [hi]
        by_cases hk : k = .cpu
        · subst hk
          by_cases hc : s.rt.cpu = true
          · have e1 : (startJob s ⟨.cpu, p, .asked⟩).2 = ⟨.cpu, p, .over⟩ := by simp [startJob, hc]
            refine keep (by rw [hrt]; simp [startJob, hc]) (setr hjobs (fun old h => by rw [e1] at h; cases h) hnr)
          · have e1 : (startJob s ⟨.cpu, p, .asked⟩).2 = ⟨.cpu, p, .running 0⟩ := by simp [startJob, hc]
            have hno : ∀ n, ¬ Running s ofCpu n := fun n hn => hc (h.tells.mpr ⟨n, hn⟩)
            have only : ∀ n, Running (Profiling.step dd bd s (.start i)) ofCpu n → n = i := by
              intro n hn
              by_cases hne : i = n
              · exact hne.symm
              · exfalso
                obtain ⟨k', p', old', h1, h2⟩ := hn
                rw [hjobs, List.getElem?_set_ne hne] at h1
                exact hno n ⟨k', p', old', h1, h2⟩
            refine ⟨fun a b ha hb => (only a ha).trans (only b hb).symm, ?_⟩
            refine ⟨fun _ => ⟨i, .cpu, p, 0, ?_, rfl⟩, fun _ => ?_⟩
            · rw [hjobs, e1, List.getElem?_set_self hlt]
            · rw [hrt]; simp [startJob, hc]
        · have hkc : ofCpu k = false := by cases k <;> first | rfl | exact absurd rfl hk
          have hkk : (startJob s ⟨k, p, .asked⟩).2.kind = k ∧ (startJob s ⟨k, p, .asked⟩).1.rt.cpu = s.rt.cpu := by
            cases k <;> simp [startJob, Runtime.setBlock, Runtime.setMutex] at *
          exact keep (by rw [hrt]; exact hkk.2) (setr hjobs (fun _ _ => by rw [hkk.1]; exact hkc) hnr)
  | finish i ws =>
    cases hi : s.jobs[i]? with
    | none => unfold Profiling.step; simp only [hi]; exact h
    | some x =>
      obtain ⟨k, p, ph⟩ := x
      have hlt : i < s.jobs.length := (List.getElem?_eq_some_iff.mp hi).1
      cases ph with
      | asked => unfold Profiling.step; simp only [hi]; exact h
      | over => unfold Profiling.step; simp only [hi]; exact h
      | running old =>
        have hjobs : (Profiling.step dd bd s (.finish i ws)).jobs = s.jobs.set i ⟨k, p, .over⟩ := by
          unfold Profiling.step; simp only [hi]
        have hrt : (Profiling.step dd bd s (.finish i ws)).rt.cpu = if ofCpu k then false else s.rt.cpu := by
          unfold Profiling.step
          simp only [hi]
          exact finishJob_cpu s ⟨k, p, .running old⟩ old ws
        by_cases hk : ofCpu k = true
        · have none' : ∀ n, ¬ Running (Profiling.step dd bd s (.finish i ws)) ofCpu n := by
            intro n hn
            obtain ⟨k', p', old', h1, h2⟩ := hn
            by_cases hne : i = n
            · subst hne
              rw [hjobs, List.getElem?_set_self hlt] at h1
              simp at h1
            · rw [hjobs, List.getElem?_set_ne hne] at h1
              exact hne (h.one i n ⟨k, p, old, hi, hk⟩ ⟨k', p', old', h1, h2⟩)
          exact ⟨fun a _ ha => absurd ha (none' a), by rw [hrt, if_pos hk]; simp [none']⟩
        · refine keep (by rw [hrt, if_neg hk]) (setr hjobs (fun _ h => by cases h) ?_)
          intro ⟨k', p', old', h1, h2⟩
          rw [hi] at h1
          cases h1
          exact hk h2

/-- **C85**: at no time two CPU profiles are taken, under any schedule. -/
theorem C85_one_cpu_profile (rt : Runtime) (fs : FS) (hc : rt.cpu = false) (es : List Event) :
    CpuOk (life dd bd { rt := rt, fs := fs } es) := by
  have main : ∀ (es : List Event) (s : State), CpuOk s → CpuOk (life dd bd s es) := by
    intro es
    induction es with
    | nil => exact fun s h => h
    | cons e es ih => exact fun s h => ih _ (h.step e)
  refine main es _ ⟨fun i j hi => ?_, ?_⟩
  · obtain ⟨k, f, old, h1, -⟩ := hi; simp at h1
  · rw [show ({ rt := rt, fs := fs } : State).rt.cpu = false from hc]
    simp [Running]

/-- **C85**, as found: a CPU profile that is asked for while another is being taken leaves an empty file, and no profile is
taken (the collector was told that it worked, C84). -/
theorem C85_second_cpu_profile_empty (s : State) (i : Nat) (f : Path) (h : s.jobs[i]? = some ⟨.cpu, f, .asked⟩) (hc : s.rt.cpu = true)
    (ws : List Bytes) : let s' := step dd bd s (.start i)
    FileAt s'.fs f [] ∧ s'.jobs[i]? = some ⟨.cpu, f, .over⟩ ∧ step dd bd s' (.finish i ws) = s' := by
  have hlt : i < s.jobs.length := (List.getElem?_eq_some_iff.mp h).1
  have e : step dd bd s (.start i) = { s with fs := put s.fs f [], jobs := s.jobs.set i ⟨.cpu, f, .over⟩ } := by
    unfold step
    simp [h, startJob, hc]
  intro s'
  show FileAt s'.fs f [] ∧ _
  rw [show s' = _ from e]
  refine ⟨put_at _ _ _, by simp [hlt], ?_⟩
  unfold step
  simp [hlt]

/-! ## The files -/

/-- **C85**: a block or mutex profile is in its file completely when it finishes. -/
theorem C85_profile_complete (s : State) (i : Nat) (k : Kind) (f : Path) (old : Int) (ws : List Bytes)
    (h : s.jobs[i]? = some ⟨k, f, .running old⟩) (hk : k ≠ .cpu) : FileAt (step dd bd s (.finish i ws)).fs f ws.flatten := by
  rw [← C65_profiles_complete]
  unfold step
  simp only [h]
  cases k <;> first | exact absurd rfl hk | exact put_at _ _ _

/-- What an event writes. -/
theorem step_fs (s : State) (e : Event) (i : Nat) (f : Path) (x : Bytes) (hx : FileAt s.fs f x)
    (hother : ∀ n k p ph, s.jobs[n]? = some ⟨k, p, ph⟩ → n ≠ i → p ≠ f) (hs : e.spares i) (hst : e ≠ .start i) :
    FileAt (step dd bd s e).fs f x := by
  cases e with
  | request cmd stamp => unfold step; dsimp only; split <;> exact hx
  | appBlock r => exact hx
  | appMutex r => exact hx
  | start n =>
    unfold step
    dsimp only
    split
    · next k p hn =>
      have hne : n ≠ i := fun h => hst (by rw [h])
      have hp : f ≠ p := Ne.symm (hother n k p _ hn hne)
      show FileAt (startJob s ⟨k, p, .asked⟩).1.fs f x
      cases k <;> simp only [startJob] <;> first | exact hx | skip
      split <;> exact (put_other s.fs p f [] hp).trans hx
    · exact hx
  | finish n ws =>
    unfold step
    dsimp only
    split
    · next k p old hn =>
      have hp : f ≠ p := Ne.symm (hother n k p _ hn hs)
      show FileAt (finishJob s ⟨k, p, .running old⟩ old ws).fs f x
      cases k <;> simp only [finishJob]
      · split
        · exact (put_other s.fs p f _ hp).trans hx
        · exact hx
      all_goals exact (put_other s.fs p f _ hp).trans hx
    · exact hx

/-- **C85**: a CPU profile that begins while none is being taken is in its file completely when it finishes, if no other profile
has the same file. -/
theorem C85_cpu_profile_complete (s : State) (i : Nat) (f : Path) (h : s.jobs[i]? = some ⟨.cpu, f, .asked⟩) (hc : s.rt.cpu = false)
    (es : List Event) (hes : ∀ e ∈ es, e.spares i) (ws : List Bytes)
    (hother : ∀ n k p ph, (life dd bd s (.start i :: es)).jobs[n]? = some ⟨k, p, ph⟩ → n ≠ i → p ≠ f) :
    FileAt (life dd bd s (.start i :: es ++ [.finish i ws])).fs f ws.flatten := by
  have hlt : i < s.jobs.length := (List.getElem?_eq_some_iff.mp h).1
  have e : step dd bd s (.start i) = { s with rt := { s.rt with cpu := true }, fs := put s.fs f [], jobs := s.jobs.set i ⟨.cpu, f, .running 0⟩ } := by
    unfold step
    simp [h, startJob, hc]
  have main : ∀ (es : List Event) (s : State), s.jobs[i]? = some ⟨.cpu, f, .running 0⟩ → FileAt s.fs f [] → (∀ e ∈ es, e.spares i) →
      (∀ n k p ph, (life dd bd s es).jobs[n]? = some ⟨k, p, ph⟩ → n ≠ i → p ≠ f) → FileAt (life dd bd s es).fs f [] := by
    intro es
    induction es with
    | nil => exact fun s _ hf _ _ => hf
    | cons e es ih =>
      intro s hj hf hes ho
      have hj' : (step dd bd s e).jobs[i]? = some ⟨.cpu, f, .running 0⟩ := life_running s [e] i .cpu f 0 hj (by simpa using hes e (by simp))
      refine ih _ hj' ?_ (fun e he => hes e (by simp [he])) ho
      have hother : ∀ n k p ph, s.jobs[n]? = some ⟨k, p, ph⟩ → n ≠ i → p ≠ f := by
        intro n k p ph hn hne
        obtain ⟨ph', h'⟩ := life_job (dd := dd) (bd := bd) s (e :: es) n k p ph hn
        exact ho n k p ph' h' hne
      by_cases hst : e = .start i
      · subst hst
        unfold step
        simp only [hj]
        exact hf
      · exact step_fs s e i f [] hf hother (hes e (by simp)) hst
  have hj : (step dd bd s (.start i)).jobs[i]? = some ⟨.cpu, f, .running 0⟩ := by rw [e]; simp [hlt]
  have hf : FileAt (step dd bd s (.start i)).fs f [] := by rw [e]; exact put_at _ _ _
  have h1 := life_running (dd := dd) (bd := bd) _ es i .cpu f 0 hj hes
  have h2 := main es _ hj hf hes hother
  rw [life_append]
  show FileAt (step dd bd (life dd bd (step dd bd s (.start i)) es) (.finish i ws)).fs f ws.flatten
  generalize life dd bd (step dd bd s (.start i)) es = s2 at *
  unfold step
  simp only [h1, finishJob]
  rw [show s2.fs.at f = some (.file []) from h2]
  exact put_at _ _ _

/-- The name of the file of a profile. -/
def profileName (stamp : Bytes) : Kind → Bytes
  | .cpu => ascii "go_cpu_" ++ stamp ++ ascii ".pprof"
  | .block => ascii "go_block_" ++ stamp ++ ascii ".log"
  | .blockBinary => ascii "go_block_" ++ stamp ++ ascii ".pprof"
  | .mutex => ascii "go_mutex_" ++ stamp ++ ascii ".log"
  | .mutexBinary => ascii "go_mutex_" ++ stamp ++ ascii ".pprof"

/-- The directory it is in. -/
def profileDir (dd bd : Path) : Kind → Path
  | .block | .mutex => dd
  | _ => bd

/-- **C85**: the file of a profile is directly in the dump directory (textual ones) or the directory of binary dumps, under the
name of its kind and the time of the request. -/
theorem C85_file_of_request (s : State) (cmd stamp : Bytes) (k : Kind) (hk : kindOf cmd = some k) (hd : dd.Good) (hb : bd.Good)
    (hs : (47 : Byte) ∉ stamp) :
    let dir := profileDir dd bd k
    Ordinary (profileName stamp k) ∧
    (step dd bd s (.request cmd stamp)).jobs = s.jobs ++ [⟨k, ⟨dir.rooted, dir.parts ++ [profileName stamp k]⟩, .asked⟩] := by
  have hsuf : ∀ x : Bytes, x ++ ascii "." ++ suffix = x ++ ascii ".pprof" := by
    intro x
    rw [List.append_assoc]
    congr 1
  have ho : Ordinary (profileName stamp k) := by
    cases k <;> exact Handlers.ordinary_name _ _ _ (by decide +kernel) (by decide +kernel) hs (by decide +kernel)
  refine ⟨ho, ?_⟩
  have hf : fileName dd bd stamp k = ⟨(profileDir dd bd k).rooted, (profileDir dd bd k).parts ++ [profileName stamp k]⟩ := by
    cases k <;> simp only [fileName, hsuf] <;> first | exact Handlers.join_ordinary _ _ hd ho | exact Handlers.join_ordinary _ _ hb ho
  unfold step
  simp only [hk, hf]

/-- **C85**: a finished binary block or mutex profile can be downloaded under its name. -/
theorem C85_profile_downloads (m : Handlers.Machine) (a : Handlers.Agent) (hd : m.dumpDir.Good) (hb : m.binaryDir.Good) (stamp : Bytes)
    (hs : (47 : Byte) ∉ stamp) (s : State) (i : Nat) (k : Kind) (hk : k = .blockBinary ∨ k = .mutexBinary) (old : Int) (ws : List Bytes)
    (hj : s.jobs[i]? = some ⟨k, ⟨m.binaryDir.rooted, m.binaryDir.parts ++ [profileName stamp k]⟩, .running old⟩) (param : Table)
    (hp : param.get (ascii "fileName") = .text (profileName stamp k)) :
    (Handlers.handle m { a with fs := (step m.dumpDir m.binaryDir s (.finish i ws)).fs } (ascii "OBJECT_DOWNLOAD_HEAP_DUMP")
      (.map ⟨param⟩)).2.blobs.flatten = ws.flatten := by
  have ho : Ordinary (profileName stamp k) := by
    cases k <;> exact Handlers.ordinary_name _ _ _ (by decide +kernel) (by decide +kernel) hs (by decide +kernel)
  refine Handlers.C71_listed_binary_downloads m _ hb _ _ ho ?_ (C85_profile_complete s i k _ old ws hj ?_) param hp
  · have : ∀ x : Bytes, hasSuffix (x ++ ascii ".pprof") (ascii "pprof") = true := by
      intro x
      rw [show ascii ".pprof" = ascii "." ++ ascii "pprof" by decide +kernel, ← List.append_assoc]
      simp only [hasSuffix, List.isSuffixOf_iff_suffix]
      exact List.suffix_append _ _
    rcases hk with h | h <;> rw [h] <;> exact this _
  · rcases hk with h | h <;> rw [h] <;> simp

/-! ## Non-vacuity -/

namespace Demo

/-- Two mutex profiles, the second begun before the first is over; the application had mutex profiling off. -/
def twoMutex : List Event :=
  [.request (ascii "TRIGGER_MUTEX_PROFILE") (ascii "20240101_000000"), .request (ascii "OBJECT_CALL_MUTEX_PROFILE") (ascii "20240101_000010"),
   .start 0, .appBlock 3, .start 1, .finish 0 [[1, 2]], .finish 1 [[3]]]

def idleState : State := { rt := ⟨0, 0, false⟩, fs := [] }

theorem idle_of_all {s : State} {what : Kind → Bool}
    (h : (s.jobs.all fun j => match j.phase with | .running _ => !what j.kind | _ => true) = true) : Idle s what := by
  intro i hi
  obtain ⟨k, f, old, h1, h2⟩ := hi
  have := List.all_eq_true.mp h _ (List.mem_of_getElem? h1)
  simp [h2] at this

/-- Profiles of mutexes one after the other. -/
def inTurn : List Event :=
  [.request (ascii "TRIGGER_MUTEX_PROFILE") (ascii "1"), .request (ascii "OBJECT_CALL_MUTEX_PROFILE") (ascii "2"), .start 0, .appBlock 3,
   .finish 0 [[1, 2]], .appMutex 7, .start 1, .finish 1 []]

example : Apart ⟨true, [ascii "d"]⟩ ⟨true, [ascii "b"]⟩ idleState inTurn ∧ Idle (life ⟨true, [ascii "d"]⟩ ⟨true, [ascii "b"]⟩ idleState inTurn) Kind.ofMutex := by
  refine ⟨⟨trivial, trivial, fun _ _ _ _ => idle_of_all ?_, trivial, trivial, idle_of_all ?_, fun _ _ _ _ => idle_of_all ?_, trivial, trivial⟩,
    idle_of_all ?_⟩ <;> decide +kernel

example : (life ⟨true, [ascii "d"]⟩ ⟨true, [ascii "b"]⟩ idleState twoMutex).rt = ⟨3, 10, false⟩ := by decide +kernel
/-- One after the other. -/
example : (life ⟨true, [ascii "d"]⟩ ⟨true, [ascii "b"]⟩ idleState
    (twoMutex.take 4 ++ [.finish 0 [[1, 2]], .appMutex 7, .start 1, .finish 1 []])).rt = ⟨3, 7, false⟩ := by decide +kernel
/-- Two CPU profiles at once: the second file is empty. -/
example : (life ⟨true, [ascii "d"]⟩ ⟨true, [ascii "b"]⟩ idleState
    [.request (ascii "OBJECT_CALL_CPU_PROFILE") (ascii "1"), .request (ascii "OBJECT_CALL_CPU_PROFILE") (ascii "2"), .start 0, .start 1,
     .finish 1 [[9]], .finish 0 [[1], [2]]]).fs =
    [(⟨true, [ascii "b", ascii "go_cpu_1.pprof"]⟩, .file [1, 2]), (⟨true, [ascii "b", ascii "go_cpu_2.pprof"]⟩, .file [])] := by
  decide +kernel

end Demo
end Profiling
end Scouter
