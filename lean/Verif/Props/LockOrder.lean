import Verif.Model.LockOrder
import Mathlib.Tactic.ByContra
/-! # C90: the agent's locks -/
namespace Scouter
namespace LockOrder

/-! ## What the statements say -/

/-- Somebody has still something to do and nobody can do the next step. -/
def Deadlocked (gors : List Gor) : Prop := (∃ g ∈ gors, g.code ≠ []) ∧ ∀ i, step gors i = none

/-- The order in which locks are taken: the configuration's first, then those taken inside of it. -/
def rank : Lock → Nat
  | .conf => 0
  | .observers => 1
  | .desc => 2
  | .meter _ => 2
  | .ring _ => 3
  | .lra => 3
  | .cachemap => 3
  | .cachemap2 => 3
  | .cacheset => 3
  | .keygen => 3
  | .stats => 3

/-- An observer may take the locks that come after the observers' lock, in order (as the agent's own observers do): its actions leave nothing
held, and can be done by a goroutine that holds the configuration's lock and reads the list of observers. -/
def Allowed (held : List (Lock × Mode)) : List Act → Prop
  | [] => held = []
  | .rlock l :: rest => 1 < rank l ∧ (∀ x ∈ held, rank x.1 < rank l) ∧ Allowed ((l, .read) :: held) rest
  | .announce l :: .acquire l' :: rest => l' = l ∧ 1 < rank l ∧ (∀ x ∈ held, rank x.1 < rank l) ∧ Allowed ((l, .write) :: held) rest
  | .announce _ :: _ => False
  | .acquire _ :: _ => False
  | .runlock l :: rest => (l, .read) ∈ held ∧ Allowed (held.erase (l, .read)) rest
  | .unlock l :: rest => (l, .write) ∈ held ∧ Allowed (held.erase (l, .write)) rest

/-- A call whose observers are allowed ones. -/
def Call.Polite : Call → Prop
  | .refresh _ objObserver observers => Allowed [] objObserver ∧ ∀ o ∈ observers, Allowed [] o
  | _ => True

/-! ## Code that respects the order -/

/-- The actions can be done in order by a goroutine that holds `held`: locks are taken in increasing rank, only held locks are given back, and
nothing is held at the end. -/
def ordered (held : List (Lock × Mode)) : List Act → Prop
  | [] => held = []
  | .rlock l :: rest => (∀ x ∈ held, x.2 ≠ .announced) ∧ (∀ x ∈ held, rank x.1 < rank l) ∧ ordered ((l, .read) :: held) rest
  | .announce l :: rest => (∀ x ∈ held, x.2 ≠ .announced) ∧ (∀ x ∈ held, rank x.1 < rank l) ∧ ordered ((l, .announced) :: held) rest
  | .acquire l :: rest => ∃ h', held = (l, .announced) :: h' ∧ (∀ x ∈ h', x.2 ≠ .announced) ∧ (∀ x ∈ h', rank x.1 < rank l) ∧
      ordered ((l, .write) :: h') rest
  | .runlock l :: rest => (∀ x ∈ held, x.2 ≠ .announced) ∧ (l, .read) ∈ held ∧ ordered (held.erase (l, .read)) rest
  | .unlock l :: rest => (∀ x ∈ held, x.2 ≠ .announced) ∧ (l, .write) ∈ held ∧ ordered (held.erase (l, .write)) rest

/-- Every goroutine's code fits what it holds. -/
def AllOrdered (gors : List Gor) : Prop := ∀ g ∈ gors, ordered g.held g.code

theorem ordered_step {gors : List Gor} {g g' : Gor} (h : ordered g.held g.code) (hs : g.step gors = some g') : ordered g'.held g'.code := by
  unfold Gor.step at hs
  obtain ⟨held, code⟩ := g
  cases code with
  | nil => cases hs
  | cons a rest =>
    cases a with
    | rlock l => simp only at hs; split at hs <;> cases hs; exact h.2.2
    | announce l => simp only at hs; split at hs <;> cases hs; exact h.2.2
    | acquire l =>
      simp only at hs
      split at hs
      · cases hs
        obtain ⟨h', hh, -, -, ho⟩ := h
        simp only at hh
        subst hh
        simpa using ho
      · cases hs
    | runlock l => simp only at hs; split at hs <;> cases hs; exact h.2.2
    | unlock l => simp only at hs; split at hs <;> cases hs; exact h.2.2

theorem AllOrdered.step {gors gs : List Gor} (h : AllOrdered gors) {i : Nat} (hs : step gors i = some gs) : AllOrdered gs := by
  unfold LockOrder.step at hs
  cases hg : gors[i]? with
  | none => rw [hg] at hs; cases hs
  | some g =>
    rw [hg] at hs
    simp only [Option.bind_some, Option.map_eq_some_iff] at hs
    obtain ⟨g', h1, rfl⟩ := hs
    intro x hx
    rcases List.mem_or_eq_of_mem_set hx with hx | rfl
    · exact h x hx
    · exact ordered_step (h g (List.mem_of_getElem? hg)) h1

theorem AllOrdered.exec {gors gs : List Gor} (h : AllOrdered gors) (is : List Nat) (hs : exec gors is = some gs) : AllOrdered gs := by
  induction is generalizing gors with
  | nil => cases hs; exact h
  | cons i is ih =>
    simp only [LockOrder.exec, Option.bind_eq_some_iff] at hs
    obtain ⟨g1, h1, h2⟩ := hs
    exact ih (h.step h1) h2

/-! ## Progress -/

theorem exists_max {α : Type} (f : α → Nat) (l : List α) (h : l ≠ []) : ∃ x ∈ l, ∀ y ∈ l, f y ≤ f x := by
  induction l with
  | nil => exact absurd rfl h
  | cons a l ih =>
    by_cases hl : l = []
    · subst hl
      exact ⟨a, List.mem_cons_self, by intro y hy; simp only [List.mem_singleton] at hy; rw [hy]; exact Nat.le_refl _⟩
    · obtain ⟨x, hx, hm⟩ := ih hl
      by_cases hc : f x ≤ f a
      · refine ⟨a, List.mem_cons_self, ?_⟩
        intro y hy
        rcases List.mem_cons.1 hy with rfl | hy
        · exact Nat.le_refl _
        · exact Nat.le_trans (hm y hy) hc
      · refine ⟨x, List.mem_cons_of_mem _ hx, ?_⟩
        intro y hy
        rcases List.mem_cons.1 hy with rfl | hy
        · omega
        · exact hm y hy

theorem has_iff {gors : List Gor} {l : Lock} {m : Mode} : has gors l m = true ↔ ∃ g ∈ gors, (l, m) ∈ g.held := by
  simp [has]

theorem can_move {gors : List Gor} {g : Gor} (hg : g ∈ gors) (h : (g.step gors).isSome) : ∃ i, (step gors i).isSome := by
  obtain ⟨i, hi⟩ := List.mem_iff_getElem?.1 hg
  refine ⟨i, ?_⟩
  unfold LockOrder.step
  rw [hi]
  simpa using h

/-- Whoever respects the order is never stuck together with others who do. -/
theorem progress {gors : List Gor} (h : AllOrdered gors) : ¬ Deadlocked gors := by
  rintro ⟨⟨g0, hg0, hc0⟩, hstuck⟩
  have hnone : ∀ g ∈ gors, g.step gors = none := by
    intro g hg
    cases hs : g.step gors with
    | none => rfl
    | some g' =>
      obtain ⟨i, hi⟩ := can_move hg (by rw [hs]; rfl)
      rw [hstuck i] at hi
      cases hi
  by_cases hall : (gors.map (·.held)).flatten = []
  · -- nobody holds anything
    have hh : ∀ g ∈ gors, g.held = [] := by
      intro g hg
      have := List.flatten_eq_nil_iff.1 hall g.held (List.mem_map.2 ⟨g, hg, rfl⟩)
      exact this
    have hno : ∀ l m, has gors l m = false := by
      intro l m
      rw [Bool.eq_false_iff]
      intro hc
      obtain ⟨g, hg, hm⟩ := has_iff.1 hc
      rw [hh g hg] at hm
      cases hm
    have hord := h g0 hg0
    have hst := hnone g0 hg0
    unfold Gor.step at hst
    obtain ⟨held, code⟩ := g0
    have hheld := hh _ hg0
    simp only at hheld
    subst hheld
    cases code with
    | nil => exact hc0 rfl
    | cons a rest =>
      cases a with
      | rlock l => simp [hno] at hst
      | announce l => simp [hno] at hst
      | acquire l => obtain ⟨h', hh', -⟩ := hord; cases hh'
      | runlock l => exact absurd hord.2.1 (by simp)
      | unlock l => exact absurd hord.2.1 (by simp)
  · obtain ⟨⟨l, m⟩, hx, hmax⟩ := exists_max (fun x : Lock × Mode => rank x.1) _ hall
    obtain ⟨held0, hheld0, hmem⟩ := List.mem_flatten.1 hx
    obtain ⟨g, hg, rfl⟩ := List.mem_map.1 hheld0
    have hmax' : ∀ l', rank l < rank l' → ∀ m', has gors l' m' = false := by
      intro l' hl' m'
      rw [Bool.eq_false_iff]
      intro hc
      obtain ⟨g', hg', hm'⟩ := has_iff.1 hc
      have := hmax (l', m') (List.mem_flatten.2 ⟨g'.held, List.mem_map.2 ⟨g', hg', rfl⟩, hm'⟩)
      simp only at this
      omega
    -- a goroutine that holds a lock of the highest rank and is not waiting for its writer's turn can move
    have move_holder : ∀ g ∈ gors, ∀ m', (l, m') ∈ g.held → (∀ x ∈ g.held, x.2 ≠ .announced) → False := by
      intro g hg m' hm' hna
      have hord := h g hg
      have hst := hnone g hg
      unfold Gor.step at hst
      obtain ⟨held, code⟩ := g
      cases code with
      | nil => simp only [ordered] at hord; rw [hord] at hm'; cases hm'
      | cons a rest =>
        cases a with
        | rlock l' =>
          have := hmax' l' (hord.2.1 _ hm')
          simp [this] at hst
        | announce l' =>
          have := hmax' l' (hord.2.1 _ hm')
          simp [this] at hst
        | acquire l' =>
          obtain ⟨h', hh', -⟩ := hord
          simp only at hh'
          exact hna (l', .announced) (by simp [hh']) rfl
        | runlock l' => simp only at hst; rw [if_pos hord.2.1] at hst; cases hst
        | unlock l' => simp only at hst; rw [if_pos hord.2.1] at hst; cases hst
    -- the one that announced itself moves if nobody reads
    have announcer : ∀ g ∈ gors, ∀ l', (l', Mode.announced) ∈ g.held → ∃ rest h', g.code = .acquire l' :: rest ∧
        g.held = (l', .announced) :: h' ∧ (∀ x ∈ h', x.2 ≠ .announced) ∧ ∀ x ∈ h', rank x.1 < rank l' := by
      intro g hg l' hm'
      have hord := h g hg
      obtain ⟨held, code⟩ := g
      cases code with
      | nil => simp only [ordered] at hord; rw [hord] at hm'; cases hm'
      | cons a rest =>
        cases a with
        | rlock _ => exact absurd rfl (hord.1 _ hm')
        | announce _ => exact absurd rfl (hord.1 _ hm')
        | runlock _ => exact absurd rfl (hord.1 _ hm')
        | unlock _ => exact absurd rfl (hord.1 _ hm')
        | acquire l2 =>
          obtain ⟨h', hh', hna, hrk, -⟩ := hord
          simp only at hh'
          subst hh'
          rcases List.mem_cons.1 hm' with he | he
          · cases he; exact ⟨rest, h', rfl, rfl, hna, hrk⟩
          · exact absurd rfl (hna _ he)
    by_cases hann : ∀ x ∈ g.held, x.2 ≠ .announced
    · exact move_holder g hg m hmem hann
    · simp only [not_forall, not_not] at hann
      obtain ⟨⟨l1, m1⟩, hx1, hm1⟩ := hann
      simp only at hm1
      subst hm1
      obtain ⟨rest, h', hcode, hheld, hna, hrk⟩ := announcer g hg l1 hx1
      have hst := hnone g hg
      unfold Gor.step at hst
      rw [hcode] at hst
      simp only at hst
      have hrd : has gors l1 .read = true := by
        by_contra hr
        rw [Bool.not_eq_true] at hr
        rw [if_pos ⟨by rw [hheld]; exact List.mem_cons_self, hr⟩] at hst
        cases hst
      obtain ⟨r, hr, hrl⟩ := has_iff.1 hrd
      -- the announced lock is the one of the highest rank
      have hle : ∀ g ∈ gors, ∀ x ∈ g.held, rank x.1 ≤ rank l := fun g hg x hx =>
        hmax x (List.mem_flatten.2 ⟨g.held, List.mem_map.2 ⟨g, hg, rfl⟩, hx⟩)
      have hl1 : l = l1 := by
        rw [hheld] at hmem
        rcases List.mem_cons.1 hmem with he | he
        · cases he; rfl
        · have h1 := hrk _ he
          have h2 := hle g hg _ hx1
          simp only at h1 h2
          omega
      subst hl1
      by_cases hrn : ∀ x ∈ r.held, x.2 ≠ .announced
      · exact move_holder r hr .read hrl hrn
      · simp only [not_forall, not_not] at hrn
        obtain ⟨⟨l2, m2⟩, hx2, hm2⟩ := hrn
        simp only at hm2
        subst hm2
        obtain ⟨rest2, h2', -, hheld2, -, hrk2⟩ := announcer r hr l2 hx2
        have hin : (l, Mode.read) ∈ h2' := by
          rw [hheld2] at hrl
          rcases List.mem_cons.1 hrl with he | he
          · cases he
          · exact he
        have h1 := hrk2 _ hin
        have h2 := hle r hr _ hx2
        simp only at h1 h2
        omega

/-! ## The agent's calls respect the order -/

/-- Actions that can be put in front of anything a goroutine does while it holds locks of rank at most `b`. -/
def Fits (b : Int) (p : List Act) : Prop :=
  ∀ held r, (∀ x ∈ held, x.2 ≠ Mode.announced) → (∀ x ∈ held, (rank x.1 : Int) ≤ b) → ordered held r → ordered held (p ++ r)

theorem fits_nil (b : Int) : Fits b [] := fun _ _ _ _ h => h

theorem Fits.append {b : Int} {p q : List Act} (hp : Fits b p) (hq : Fits b q) : Fits b (p ++ q) := by
  intro held r h1 h2 h3
  rw [List.append_assoc]
  exact hp held _ h1 h2 (hq held r h1 h2 h3)

theorem fits_flatten {b : Int} {ps : List (List Act)} (h : ∀ p ∈ ps, Fits b p) : Fits b ps.flatten := by
  induction ps with
  | nil => exact fits_nil b
  | cons p ps ih =>
    rw [List.flatten_cons]
    exact (h p List.mem_cons_self).append (ih fun q hq => h q (List.mem_cons_of_mem _ hq))

theorem fits_times {b : Int} {p : List Act} (n : Nat) (h : Fits b p) : Fits b (times n p) := by
  refine fits_flatten ?_
  intro q hq
  rw [(List.mem_replicate.1 hq).2]
  exact h

theorem fits_locked {b : Int} {l : Lock} (hl : b < rank l) {p : List Act} (hp : Fits (rank l) p) : Fits b (locked l p) := by
  intro held r h1 h2 h3
  have hr : ∀ x ∈ held, rank x.1 < rank l := fun x hx => by have := h2 x hx; omega
  simp only [locked, List.cons_append, List.nil_append, List.append_assoc, ordered]
  refine ⟨h1, hr, held, rfl, h1, hr, ?_⟩
  refine hp _ _ ?_ ?_ ?_
  · intro x hx
    rcases List.mem_cons.1 hx with rfl | hx
    · simp
    · exact h1 x hx
  · intro x hx
    rcases List.mem_cons.1 hx with rfl | hx
    · exact Int.le_refl _
    · have := hr x hx; omega
  · refine ⟨?_, List.mem_cons_self, by simpa using h3⟩
    intro x hx
    rcases List.mem_cons.1 hx with rfl | hx
    · simp
    · exact h1 x hx

theorem fits_reading {b : Int} {l : Lock} (hl : b < rank l) {p : List Act} (hp : Fits (rank l) p) : Fits b (reading l p) := by
  intro held r h1 h2 h3
  have hr : ∀ x ∈ held, rank x.1 < rank l := fun x hx => by have := h2 x hx; omega
  simp only [reading, List.cons_append, List.nil_append, List.append_assoc, ordered]
  refine ⟨h1, hr, ?_⟩
  refine hp _ _ ?_ ?_ ?_
  · intro x hx
    rcases List.mem_cons.1 hx with rfl | hx
    · simp
    · exact h1 x hx
  · intro x hx
    rcases List.mem_cons.1 hx with rfl | hx
    · exact Int.le_refl _
    · have := hr x hx; omega
  · refine ⟨?_, List.mem_cons_self, by simpa using h3⟩
    intro x hx
    rcases List.mem_cons.1 hx with rfl | hx
    · simp
    · exact h1 x hx

theorem values_eq (l : Lock) (n : Nat) :
    [Act.rlock l] ++ times n [.runlock l, .rlock l] ++ [.runlock l] = times (n + 1) (reading l []) := by
  induction n with
  | zero => rfl
  | succ n ih =>
    have h1 : times (n + 1) [Act.runlock l, .rlock l] = [.runlock l, .rlock l] ++ times n [.runlock l, .rlock l] := by
      simp [times, List.replicate_succ]
    have h2 : times (n + 2) (reading l []) = reading l [] ++ times (n + 1) (reading l []) := by
      simp [times, List.replicate_succ]
    rw [h1, h2, ← ih]
    simp [reading]

theorem fits_values {b : Int} {l : Lock} (hl : b < rank l) (n : Nat) :
    Fits b ([Act.rlock l] ++ times n [.runlock l, .rlock l] ++ [.runlock l]) := by
  rw [values_eq]
  exact fits_times _ (fits_reading hl (fits_nil _))

theorem fits_send {b : Int} (hb : b < 3) (known : Bool) : Fits b (sendActs known) := by
  unfold sendActs
  refine Fits.append (fits_reading (l := .lra) hb (fits_nil _)) ?_
  split
  · exact fits_nil _
  · exact fits_locked (l := .lra) hb (fits_nil _)

/-- What an allowed observer does can be done inside of `Refresh`. -/
theorem fits_allowed {p : List Act} (h : Allowed [] p) : Fits 1 p := by
  suffices hs : ∀ (n : Nat) (p : List Act), p.length ≤ n → ∀ (own held : List (Lock × Mode)) (r : List Act), Allowed own p →
      (∀ x ∈ own, x.2 ≠ Mode.announced) → (∀ x ∈ held, x.2 ≠ Mode.announced) → (∀ x ∈ held, (rank x.1 : Int) ≤ 1) →
      (∀ x ∈ own, 1 < rank x.1) → ordered held r → ordered (own ++ held) (p ++ r) by
    intro held r h1 h2 h3
    exact hs p.length p (Nat.le_refl _) [] held r h (by simp) h1 h2 (by simp) h3
  intro n
  induction n with
  | zero =>
    intro p hp own held r ha _ _ _ _ h3
    have : p = [] := List.length_eq_zero_iff.1 (by omega)
    subst this
    simp only [Allowed] at ha
    subst ha
    exact h3
  | succ n ih =>
    intro p hp own held r ha ho1 h1 h2 ho2 h3
    have hna : ∀ x ∈ own ++ held, x.2 ≠ Mode.announced := by
      intro x hx
      rcases List.mem_append.1 hx with hx | hx
      · exact ho1 x hx
      · exact h1 x hx
    cases p with
    | nil =>
      simp only [Allowed] at ha
      subst ha
      exact h3
    | cons a rest =>
      simp only [List.length_cons] at hp
      cases a with
      | rlock l =>
        simp only [Allowed] at ha
        obtain ⟨hl, hr, ha⟩ := ha
        refine ⟨hna, ?_, ?_⟩
        · intro x hx
          rcases List.mem_append.1 hx with hx | hx
          · exact hr x hx
          · have := h2 x hx; omega
        · refine ih rest (by omega) ((l, .read) :: own) held r ha ?_ h1 h2 ?_ h3
          · intro x hx
            rcases List.mem_cons.1 hx with rfl | hx
            · simp
            · exact ho1 x hx
          · intro x hx
            rcases List.mem_cons.1 hx with rfl | hx
            · exact hl
            · exact ho2 x hx
      | announce l =>
        cases rest with
        | nil => simp [Allowed] at ha
        | cons a2 rest =>
          cases a2 with
          | acquire l2 =>
            simp only [Allowed] at ha
            obtain ⟨rfl, hl, hr, ha⟩ := ha
            simp only [List.length_cons] at hp
            have hrk : ∀ x ∈ own ++ held, rank x.1 < rank l2 := by
              intro x hx
              rcases List.mem_append.1 hx with hx | hx
              · exact hr x hx
              · have := h2 x hx; omega
            refine ⟨hna, hrk, own ++ held, rfl, hna, hrk, ?_⟩
            refine ih rest (by omega) ((l2, .write) :: own) held r ha ?_ h1 h2 ?_ h3
            · intro x hx
              rcases List.mem_cons.1 hx with rfl | hx
              · simp
              · exact ho1 x hx
            · intro x hx
              rcases List.mem_cons.1 hx with rfl | hx
              · exact hl
              · exact ho2 x hx
          | _ => simp [Allowed] at ha
      | acquire l => simp [Allowed] at ha
      | runlock l =>
        simp only [Allowed] at ha
        refine ⟨hna, List.mem_append_left _ ha.1, ?_⟩
        rw [List.erase_append_left _ ha.1]
        exact ih rest (by omega) _ held r ha.2 (fun x hx => ho1 x (List.mem_of_mem_erase hx)) h1 h2
          (fun x hx => ho2 x (List.mem_of_mem_erase hx)) h3
      | unlock l =>
        simp only [Allowed] at ha
        refine ⟨hna, List.mem_append_left _ ha.1, ?_⟩
        rw [List.erase_append_left _ ha.1]
        exact ih rest (by omega) _ held r ha.2 (fun x hx => ho1 x (List.mem_of_mem_erase hx)) h1 h2
          (fun x hx => ho2 x (List.mem_of_mem_erase hx)) h3

theorem fits_mono {b b' : Int} (h : b ≤ b') {p : List Act} (hp : Fits b' p) : Fits b p :=
  fun held r h1 h2 h3 => hp held r h1 (fun x hx => Int.le_trans (h2 x hx) h) h3

theorem fits_call (c : Call) (hc : c.Polite) : Fits (-1) c.acts := by
  cases c with
  | refresh renamed objObserver observers =>
    refine fits_locked (by simp [rank]) ?_
    have hdesc : Fits (rank .conf : Nat) (locked .desc []) := fits_locked (by simp [rank]) (fits_nil _)
    refine Fits.append (Fits.append (Fits.append (fits_times 2 hdesc) ?_) (fits_times 61 hdesc)) ?_
    · split
      · exact fits_reading (by simp [rank]) (fits_allowed hc.1)
      · exact fits_nil _
    · exact fits_reading (by simp [rank]) (fits_flatten fun o ho => fits_allowed (hc.2 o ho))
  | refreshNothing => exact fits_locked (by simp [rank]) (fits_nil _)
  | describe => exact fits_reading (by simp [rank]) (fits_nil _)
  | observe => exact fits_locked (by simp [rank]) (fits_nil _)
  | lraWrite => exact fits_locked (by simp [rank]) (fits_nil _)
  | lraRead => exact fits_reading (by simp [rank]) (fits_nil _)
  | lraValues n => exact fits_values (by simp [rank]) n
  | sendText known => exact fits_send (by decide) known
  | mapWrite => exact fits_locked (by simp [rank]) (fits_nil _)
  | mapRead => exact fits_reading (by simp [rank]) (fits_nil _)
  | mapValues n => exact fits_values (by simp [rank]) n
  | map2Write => exact fits_locked (by simp [rank]) (fits_nil _)
  | map2Read => exact fits_reading (by simp [rank]) (fits_nil _)
  | map2Values n => exact fits_values (by simp [rank]) n
  | setWrite => exact fits_locked (by simp [rank]) (fits_nil _)
  | setRead => exact fits_reading (by simp [rank]) (fits_nil _)
  | nextKey => exact fits_locked (by simp [rank]) (fits_nil _)
  | goCounter => exact fits_locked (by simp [rank]) (fits_nil _)
  | meterAdd i => exact fits_locked (by simp [rank]) (fits_locked (by simp [rank]) (fits_nil _))
  | meterGet i => exact fits_locked (by simp [rank]) (fits_nil _)

theorem AllOrdered.start (calls : List (List Call)) (hp : ∀ cs ∈ calls, ∀ c ∈ cs, c.Polite) : AllOrdered (start calls) := by
  intro g hg
  obtain ⟨cs, hcs, rfl⟩ := List.mem_map.1 hg
  have := fits_flatten (b := -1) (ps := cs.map Call.acts) (by
    intro p hpm
    obtain ⟨c, hc, rfl⟩ := List.mem_map.1 hpm
    exact fits_call c (hp cs hcs c hc))
  have := this [] [] (by simp) (by simp) rfl
  rwa [List.append_nil] at this

/-- **The agent's locks never deadlock**: whatever calls any number of goroutines make and however they are scheduled - as long as the observers
of the configuration keep to the locks that come after their own. -/
theorem C90_no_deadlock (calls : List (List Call)) (hp : ∀ cs ∈ calls, ∀ c ∈ cs, c.Polite) (schedule : List Nat) (gors : List Gor)
    (hs : exec (start calls) schedule = some gors) : ¬ Deadlocked gors :=
  progress ((AllOrdered.start calls hp).exec schedule hs)

/-- **The agent's own observers are allowed ones.** -/
theorem C90_own_observers (known : Bool) : Allowed [] (objObserverActs known) ∧ Allowed [] samplerActs := by
  refine ⟨?_, rfl⟩
  cases known <;> simp [objObserverActs, sendActs, reading, locked, Allowed, rank]

/-- The number of actions left. -/
def left (gors : List Gor) : Nat := (gors.map (·.code.length)).sum

theorem le_sum {gors : List Gor} {g : Gor} (hg : g ∈ gors) : g.code.length ≤ (gors.map (·.code.length)).sum := by
  induction gors with
  | nil => cases hg
  | cons x gors ih =>
    simp only [List.map_cons, List.sum_cons]
    rcases List.mem_cons.1 hg with rfl | hg
    · omega
    · have := ih hg; omega

theorem step_left {gors gs : List Gor} {i : Nat} (h : step gors i = some gs) : left gs + 1 = left gors := by
  unfold step at h
  cases hg : gors[i]? with
  | none => rw [hg] at h; cases h
  | some g =>
    rw [hg] at h
    simp only [Option.bind_some, Option.map_eq_some_iff] at h
    obtain ⟨g', h1, rfl⟩ := h
    have hlen : g'.code.length + 1 = g.code.length := by
      unfold Gor.step at h1
      obtain ⟨held, code⟩ := g
      cases code with
      | nil => cases h1
      | cons a rest => cases a <;> simp only at h1 <;> split at h1 <;> cases h1 <;> rfl
    unfold left
    clear h1
    induction gors generalizing i with
    | nil => simp at hg
    | cons x gors ih =>
      cases i with
      | zero =>
        simp only [List.getElem?_cons_zero, Option.some.injEq] at hg
        subst hg
        simp only [List.set_cons_zero, List.map_cons, List.sum_cons]
        omega
      | succ i =>
        simp only [List.getElem?_cons_succ] at hg
        simp only [List.set_cons_succ, List.map_cons, List.sum_cons]
        have := ih hg
        omega

/-- **Every schedule ends**: each step is one action, so no schedule is longer than the actions of the calls; with `C90_no_deadlock`, going on
as long as somebody can move brings every call to its end. -/
theorem C90_every_schedule_ends (calls : List (List Call)) (schedule : List Nat) (gors : List Gor)
    (hs : exec (start calls) schedule = some gors) : schedule.length + left gors = left (start calls) := by
  generalize start calls = s at hs
  induction schedule generalizing s with
  | nil => cases hs; simp
  | cons i is ih =>
    simp only [exec, Option.bind_eq_some_iff] at hs
    obtain ⟨g1, h1, h2⟩ := hs
    have := ih g1 h2
    have := step_left h1
    simp only [List.length_cons]
    omega

/-- **Every call ends**: from wherever a schedule has come, the goroutines can go on until every call has returned and nothing is held. -/
theorem C90_all_calls_end (calls : List (List Call)) (hp : ∀ cs ∈ calls, ∀ c ∈ cs, c.Polite) (schedule : List Nat) (gors : List Gor)
    (hs : exec (start calls) schedule = some gors) :
    ∃ more gs, exec (start calls) (schedule ++ more) = some gs ∧ ∀ g ∈ gs, g.code = [] ∧ g.held = [] := by
  have happ : ∀ (is js : List Nat) (s : List Gor), exec s (is ++ js) = (exec s is).bind fun t => exec t js := by
    intro is js
    induction is with
    | nil => intro s; rfl
    | cons i is ih =>
      intro s
      simp only [List.cons_append, exec, Option.bind_assoc]
      congr 1
      funext t
      exact ih t
  suffices h : ∀ (n : Nat) (gors : List Gor), AllOrdered gors → left gors ≤ n →
      ∃ more gs, exec gors more = some gs ∧ ∀ g ∈ gs, g.code = [] ∧ g.held = [] by
    obtain ⟨more, gs, h1, h2⟩ := h _ gors ((AllOrdered.start calls hp).exec schedule hs) (Nat.le_refl _)
    exact ⟨more, gs, by rw [happ, hs]; exact h1, h2⟩
  intro n
  induction n with
  | zero =>
    intro gors ho hl
    refine ⟨[], gors, rfl, ?_⟩
    intro g hg
    have hc : g.code = [] := by
      have : g.code.length ≤ left gors := by
        unfold left
        exact le_sum hg
      exact List.length_eq_zero_iff.1 (by omega)
    have := ho g hg
    rw [hc] at this
    exact ⟨hc, this⟩
  | succ n ih =>
    intro gors ho hl
    by_cases hd : ∃ g ∈ gors, g.code ≠ []
    · have : ∃ i, step gors i ≠ none := by
        by_contra hn
        simp only [not_exists, not_not] at hn
        exact progress ho ⟨hd, hn⟩
      obtain ⟨i, hi⟩ := this
      obtain ⟨g1, h1⟩ := Option.ne_none_iff_exists'.1 hi
      have := step_left h1
      obtain ⟨more, gs, h2, h3⟩ := ih g1 (ho.step h1) (by omega)
      exact ⟨i :: more, gs, by simp only [exec, h1, Option.bind_some]; exact h2, h3⟩
    · refine ⟨[], gors, rfl, ?_⟩
      intro g hg
      have hc : g.code = [] := by
        by_contra hc
        exact hd ⟨g, hg, hc⟩
      have := ho g hg
      rw [hc] at this
      exact ⟨hc, this⟩

/-! ## What an observer must not do -/

/-- Whether nobody can move. -/
def stuck (gors : List Gor) : Bool := (List.range gors.length).all fun i => (step gors i).isNone

theorem deadlocked_of_stuck {gors : List Gor} (h1 : (gors.any fun g => !g.code.isEmpty) = true) (h2 : stuck gors = true) : Deadlocked gors := by
  refine ⟨?_, ?_⟩
  · obtain ⟨g, hg, hc⟩ := List.any_eq_true.1 h1
    exact ⟨g, hg, by simpa using hc⟩
  · intro i
    by_cases hi : i < gors.length
    · have := List.all_eq_true.1 h2 i (List.mem_range.2 hi)
      simpa using this
    · unfold step
      rw [List.getElem?_eq_none (by omega)]
      rfl

/-- **An observer that registers an observer never returns**: it waits for the readers of the list to leave, and it is one of them. -/
theorem C90_registering_observer_deadlocks : ∃ schedule gors,
    exec (start [[.refresh false [] [Call.observe.acts]]]) schedule = some gors ∧ Deadlocked gors := by
  refine ⟨List.replicate 193 0, (exec (start [[.refresh false [] [Call.observe.acts]]]) (List.replicate 193 0)).getD [], ?_, ?_⟩
  · decide +kernel
  · exact deadlocked_of_stuck (by decide +kernel) (by decide +kernel)

/-- **An observer that refreshes the configuration never returns.** -/
theorem C90_refreshing_observer_deadlocks : ∃ schedule gors,
    exec (start [[.refresh false [] [Call.refreshNothing.acts]]]) schedule = some gors ∧ Deadlocked gors := by
  refine ⟨List.replicate 192 0, (exec (start [[.refresh false [] [Call.refreshNothing.acts]]]) (List.replicate 192 0)).getD [], ?_, ?_⟩
  · decide +kernel
  · exact deadlocked_of_stuck (by decide +kernel) (by decide +kernel)

/-- Non-vacuity: a refresh with the agent's observers, a registration, a listing and recordings. -/
example : ∀ cs ∈ [[Call.refresh true (objObserverActs false) [samplerActs]], [.observe, .describe], [.lraValues 3, .meterAdd 0], [.sendText false]],
    ∀ c ∈ cs, c.Polite := by
  intro cs hcs c hc
  simp only [List.mem_cons, List.not_mem_nil, or_false] at hcs
  rcases hcs with rfl | rfl | rfl | rfl <;> simp only [List.mem_cons, List.not_mem_nil, or_false] at hc
  · subst hc
    refine ⟨(C90_own_observers false).1, ?_⟩
    intro o ho
    simp only [List.mem_singleton] at ho
    subst ho
    exact (C90_own_observers false).2
  · rcases hc with rfl | rfl <;> trivial
  · rcases hc with rfl | rfl <;> trivial
  · subst hc; trivial

end LockOrder
end Scouter
