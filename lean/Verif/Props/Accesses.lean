import Verif.Spec.Accesses
import Mathlib.Tactic.ByContra
/-! # C106: what goroutines touch at the same time -/
namespace Scouter
namespace Accesses
open LockOrder (Lock Mode)

/-! ## Locks exclude each other -/

/-- What two goroutines hold goes together. -/
def Apart (gors : List Gor) : Prop := ∀ (i j : Nat) (g g' : Gor), i ≠ j → gors[i]? = some g → gors[j]? = some g' → ∀ l,
  ((l, Mode.write) ∈ g.held → ∀ m, (l, m) ∉ g'.held) ∧ ((l, Mode.announced) ∈ g.held → (l, Mode.announced) ∉ g'.held)

/-- What is held after a lock action. -/
def after (held : List (Lock × Mode)) : LockOrder.Act → List (Lock × Mode)
  | .rlock l => (l, .read) :: held
  | .announce l => (l, .announced) :: held
  | .acquire l => (l, .write) :: held.erase (l, .announced)
  | .runlock l => held.erase (l, .read)
  | .unlock l => held.erase (l, .write)

/-- What must hold for a lock action to be taken. -/
theorem lock_step {gors : List Gor} {held : List (Lock × Mode)} {a : LockOrder.Act} {g' : LockOrder.Gor}
    (h : LockOrder.Gor.step (gors.map Gor.locks) ⟨held, [a]⟩ = some g') :
    g'.held = after held a ∧ (∀ l, a = .rlock l ∨ a = .announce l → ∀ g ∈ gors, (l, Mode.announced) ∉ g.held ∧ (l, Mode.write) ∉ g.held) ∧
      (∀ l, a = .acquire l → (l, Mode.announced) ∈ held ∧ ∀ g ∈ gors, (l, Mode.read) ∉ g.held) := by
  have hno : ∀ l m, LockOrder.has (gors.map Gor.locks) l m = false → ∀ g ∈ gors, (l, m) ∉ g.held := by
    intro l m hf g hg hm
    have : LockOrder.has (gors.map Gor.locks) l m = true := by
      simp only [LockOrder.has, List.any_map, List.any_eq_true]
      exact ⟨g, hg, decide_eq_true hm⟩
    rw [this] at hf; cases hf
  cases a with
  | rlock l =>
    simp only [LockOrder.Gor.step] at h
    split at h <;> cases h
    rename_i hc
    simp only [not_or, Bool.not_eq_true] at hc
    refine ⟨rfl, ?_, by rintro _ ⟨⟩⟩
    rintro l' (e | e) <;> cases e
    exact fun g hg => ⟨hno _ _ hc.1 g hg, hno _ _ hc.2 g hg⟩
  | announce l =>
    simp only [LockOrder.Gor.step] at h
    split at h <;> cases h
    rename_i hc
    simp only [not_or, Bool.not_eq_true] at hc
    refine ⟨rfl, ?_, by rintro _ ⟨⟩⟩
    rintro l' (e | e) <;> cases e
    exact fun g hg => ⟨hno _ _ hc.1 g hg, hno _ _ hc.2 g hg⟩
  | acquire l =>
    simp only [LockOrder.Gor.step] at h
    split at h <;> cases h
    rename_i hc
    refine ⟨rfl, (by rintro _ (e | e) <;> cases e), ?_⟩
    rintro l' e; cases e
    exact ⟨hc.1, hno _ _ hc.2⟩
  | runlock l =>
    simp only [LockOrder.Gor.step] at h
    split at h <;> cases h
    exact ⟨rfl, (by rintro _ (e | e) <;> cases e), by rintro _ ⟨⟩⟩
  | unlock l =>
    simp only [LockOrder.Gor.step] at h
    split at h <;> cases h
    exact ⟨rfl, (by rintro _ (e | e) <;> cases e), by rintro _ ⟨⟩⟩

theorem step_some {gors gs : List Gor} {i : Nat} (h : step gors i = some gs) :
    ∃ g g', gors[i]? = some g ∧ g.step gors = some g' ∧ gs = gors.set i g' := by
  unfold step at h
  cases hg : gors[i]? with
  | none => rw [hg] at h; cases h
  | some g =>
    rw [hg] at h
    simp only [Option.bind_some, Option.map_eq_some_iff] at h
    obtain ⟨g', h1, h2⟩ := h
    exact ⟨g, g', rfl, h1, h2.symm⟩

/-- The goroutine after its step, and what the others had when it took it. -/
theorem gor_step {gors : List Gor} {g g' : Gor} (h : g.step gors = some g') :
    (∃ p hw, g.code = .touch p hw :: g'.code ∧ g'.held = g.held) ∨
    ∃ a, g.code = .lock a :: g'.code ∧ g'.held = after g.held a ∧
      (∀ l, a = .rlock l ∨ a = .announce l → ∀ g ∈ gors, (l, Mode.announced) ∉ g.held ∧ (l, Mode.write) ∉ g.held) ∧
      (∀ l, a = .acquire l → (l, Mode.announced) ∈ g.held ∧ ∀ g ∈ gors, (l, Mode.read) ∉ g.held) := by
  unfold Gor.step at h
  obtain ⟨held, code⟩ := g
  cases code with
  | nil => cases h
  | cons a rest =>
    cases a with
    | touch p hw => cases h; exact .inl ⟨p, hw, rfl, rfl⟩
    | lock a =>
      simp only [Option.map_eq_some_iff] at h
      obtain ⟨x, h1, rfl⟩ := h
      obtain ⟨k1, k2, k3⟩ := lock_step h1
      exact .inr ⟨a, rfl, k1, k2, k3⟩

theorem Apart.step {gors gs : List Gor} (H : Apart gors) {i : Nat} (h : step gors i = some gs) : Apart gs := by
  obtain ⟨g, g', hg, hs, rfl⟩ := step_some h
  have hi : i < gors.length := (List.getElem?_eq_some_iff.mp hg).1
  -- what the moved goroutine has against any other
  have key : ∀ (j : Nat) (x : Gor), j ≠ i → gors[j]? = some x → ∀ l,
      ((l, Mode.write) ∈ g'.held → ∀ m, (l, m) ∉ x.held) ∧ ((l, Mode.write) ∈ x.held → ∀ m, (l, m) ∉ g'.held) ∧
      ((l, Mode.announced) ∈ g'.held → (l, Mode.announced) ∉ x.held) ∧ ((l, Mode.announced) ∈ x.held → (l, Mode.announced) ∉ g'.held) := by
    intro j x hj hx l
    have a1 := H i j g x (Ne.symm hj) hg hx l
    have a2 := H j i x g hj hx hg l
    have hxm : x ∈ gors := List.mem_of_getElem? hx
    rcases gor_step hs with ⟨p, hw, -, he⟩ | ⟨a, -, he, k1, k2⟩
    · rw [he]; exact ⟨a1.1, a2.1, a1.2, a2.2⟩
    · rw [he]
      cases a with
      | rlock l' =>
        have k := k1 l' (.inl rfl) x hxm
        refine ⟨?_, ?_, ?_, ?_⟩
        · intro hm; simp only [after, List.mem_cons, Prod.mk.injEq, reduceCtorEq, and_false, false_or] at hm; exact a1.1 hm
        · intro hm m hm'
          simp only [after, List.mem_cons, Prod.mk.injEq] at hm'
          rcases hm' with ⟨rfl, -⟩ | hm'
          · exact k.2 hm
          · exact a2.1 hm m hm'
        · intro hm; simp only [after, List.mem_cons, Prod.mk.injEq, reduceCtorEq, and_false, false_or] at hm; exact a1.2 hm
        · intro hm hm'; simp only [after, List.mem_cons, Prod.mk.injEq, reduceCtorEq, and_false, false_or] at hm'; exact a2.2 hm hm'
      | announce l' =>
        have k := k1 l' (.inr rfl) x hxm
        refine ⟨?_, ?_, ?_, ?_⟩
        · intro hm; simp only [after, List.mem_cons, Prod.mk.injEq, reduceCtorEq, and_false, false_or] at hm; exact a1.1 hm
        · intro hm m hm'
          simp only [after, List.mem_cons, Prod.mk.injEq] at hm'
          rcases hm' with ⟨rfl, -⟩ | hm'
          · exact k.2 hm
          · exact a2.1 hm m hm'
        · intro hm hm'
          simp only [after, List.mem_cons, Prod.mk.injEq, and_true] at hm
          rcases hm with rfl | hm
          · exact k.1 hm'
          · exact a1.2 hm hm'
        · intro hm hm'
          simp only [after, List.mem_cons, Prod.mk.injEq, and_true] at hm'
          rcases hm' with rfl | hm'
          · exact k.1 hm
          · exact a2.2 hm hm'
      | acquire l' =>
        obtain ⟨k, kr⟩ := k2 l' rfl
        have kr := kr x hxm
        have e1 := H i j g x (Ne.symm hj) hg hx l'
        have e2 := H j i x g hj hx hg l'
        refine ⟨?_, ?_, ?_, ?_⟩
        · intro hm m hm'
          simp only [after, List.mem_cons, Prod.mk.injEq, and_true] at hm
          rcases hm with rfl | hm
          · cases m with
            | read => exact kr hm'
            | announced => exact e1.2 k hm'
            | write => exact e2.1 hm' _ k
          · exact a1.1 (List.mem_of_mem_erase hm) m hm'
        · intro hm m hm'
          simp only [after, List.mem_cons, Prod.mk.injEq] at hm'
          rcases hm' with ⟨rfl, -⟩ | hm'
          · exact e2.1 hm _ k
          · exact a2.1 hm m (List.mem_of_mem_erase hm')
        · intro hm
          simp only [after, List.mem_cons, Prod.mk.injEq, reduceCtorEq, and_false, false_or] at hm
          exact a1.2 (List.mem_of_mem_erase hm)
        · intro hm hm'
          simp only [after, List.mem_cons, Prod.mk.injEq, reduceCtorEq, and_false, false_or] at hm'
          exact a2.2 hm (List.mem_of_mem_erase hm')
      | runlock l' =>
        exact ⟨fun hm => a1.1 (List.mem_of_mem_erase hm), fun hm m hm' => a2.1 hm m (List.mem_of_mem_erase hm'),
          fun hm => a1.2 (List.mem_of_mem_erase hm), fun hm hm' => a2.2 hm (List.mem_of_mem_erase hm')⟩
      | unlock l' =>
        exact ⟨fun hm => a1.1 (List.mem_of_mem_erase hm), fun hm m hm' => a2.1 hm m (List.mem_of_mem_erase hm'),
          fun hm => a1.2 (List.mem_of_mem_erase hm), fun hm hm' => a2.2 hm (List.mem_of_mem_erase hm')⟩
  intro a b x y hab hx hy l
  by_cases ha : a = i
  · subst ha
    rw [List.getElem?_set_self hi] at hx
    rw [List.getElem?_set_ne (by omega)] at hy
    cases hx
    have := key b y (Ne.symm hab) hy l
    exact ⟨this.1, this.2.2.1⟩
  · rw [List.getElem?_set_ne (by omega)] at hx
    by_cases hb : b = i
    · subst hb
      rw [List.getElem?_set_self hi] at hy
      cases hy
      have := key a x hab hx l
      exact ⟨this.2.1, this.2.2.2⟩
    · rw [List.getElem?_set_ne (by omega)] at hy
      exact H a b x y hab hx hy l

/-! ## Accesses under locks -/

/-- The lock under which something is read and changed. -/
def guard : Place → Option Lock
  | .lraTable _ => some .lra
  | .mapTable _ => some .cachemap
  | .map2Table _ | .map2Pos _ => some .cachemap2
  | .setTable _ => some .cacheset
  | .observers => some .observers
  | .descTable | .descOrder => some .desc
  | .random => some .keygen
  | .ring i => some (.ring i)
  | _ => none

/-- The access is made under its lock. -/
def Under (held : List (Lock × Mode)) (p : Place) : How → Prop
  | .write => ∀ l, guard p = some l → (l, Mode.write) ∈ held
  | .read => ∀ l, guard p = some l → (l, Mode.write) ∈ held ∨ (l, Mode.read) ∈ held
  | .len => ¬ Exclusive p

/-- All accesses of the code are. -/
def guarded : List (Lock × Mode) → List Act → Prop
  | _, [] => True
  | held, .touch p h :: rest => Under held p h ∧ guarded held rest
  | held, .lock a :: rest => guarded (after held a) rest

theorem guarded_step {gors : List Gor} {g g' : Gor} (H : guarded g.held g.code) (h : g.step gors = some g') : guarded g'.held g'.code := by
  rcases gor_step h with ⟨p, hw, hc, he⟩ | ⟨a, hc, he, -⟩
  · rw [hc] at H; rw [he]; exact H.2
  · rw [hc] at H; rw [he]; exact H

/-- The code keeps what is held and makes its accesses under locks. -/
def Keeps (held : List (Lock × Mode)) (code : List Act) : Prop := ∀ rest, guarded held rest → guarded held (code ++ rest)

theorem Keeps.nil {held : List (Lock × Mode)} : Keeps held [] := fun _ h => h

theorem Keeps.append {held : List (Lock × Mode)} {c d : List Act} (hc : Keeps held c) (hd : Keeps held d) : Keeps held (c ++ d) := by
  intro rest h; rw [List.append_assoc]; exact hc _ (hd _ h)

theorem Keeps.flatten {held : List (Lock × Mode)} {cs : List (List Act)} (h : ∀ c ∈ cs, Keeps held c) : Keeps held cs.flatten := by
  induction cs with
  | nil => exact Keeps.nil
  | cons c cs ih =>
    rw [List.flatten_cons]
    exact (h c (List.mem_cons_self ..)).append (ih fun d hd => h d (List.mem_cons_of_mem _ hd))

theorem Keeps.times {held : List (Lock × Mode)} {c : List Act} (n : Nat) (h : Keeps held c) : Keeps held (times n c) :=
  Keeps.flatten fun d hd => by rw [List.eq_of_mem_replicate hd]; exact h

theorem Keeps.locked {held : List (Lock × Mode)} {l : Lock} {c : List Act} (h : Keeps ((l, .write) :: held) c) : Keeps held (locked l c) := by
  intro rest hr
  simp only [Accesses.locked, List.append_assoc, List.cons_append, List.nil_append, guarded, after, List.erase_cons_head]
  refine h _ ?_
  simpa [guarded, after] using hr

theorem Keeps.reading {held : List (Lock × Mode)} {l : Lock} {c : List Act} (h : Keeps ((l, .read) :: held) c) : Keeps held (reading l c) := by
  intro rest hr
  simp only [Accesses.reading, List.append_assoc, List.cons_append, List.nil_append, guarded, after]
  refine h _ ?_
  simpa [guarded, after] using hr

theorem Keeps.cons {held : List (Lock × Mode)} {p : Place} {h : How} {c : List Act} (hu : Under held p h) (hc : Keeps held c) :
    Keeps held (.touch p h :: c) := fun rest hr => ⟨hu, hc rest hr⟩

theorem Keeps.cond {held : List (Lock × Mode)} {b : Prop} [Decidable b] {c d : List Act} (hc : Keeps held c) (hd : Keeps held d) :
    Keeps held (if b then c else d) := by split <;> assumption

/-- One by one. -/
macro "held" : tactic => `(tactic| first
  | exact Keeps.nil
  | (refine Keeps.cons (by simp [Under, guard, Exclusive]) ?_)
  | exact Keeps.times _ (by repeat (first | exact Keeps.nil | (refine Keeps.cons (by simp [Under, guard, Exclusive]) ?_)))
  | refine Keeps.locked ?_
  | refine Keeps.reading ?_
  | refine Keeps.cond ?_ ?_
  | refine Keeps.append ?_ ?_)

/-- Giving a read lock back around something keeps it held. -/
theorem keeps_around {held : List (Lock × Mode)} {l : Lock} {c d : List Act} (hc : Keeps held c) (hd : Keeps ((l, .read) :: held) d) :
    Keeps ((l, .read) :: held) ([.lock (.runlock l)] ++ c ++ [.lock (.rlock l)] ++ d) := by
  intro rest hr
  simp only [List.append_assoc, List.cons_append, List.nil_append, guarded, after, List.erase_cons_head]
  refine hc _ ?_
  simp only [guarded, after]
  exact hd _ hr

theorem keeps_position (held : List (Lock × Mode)) (i n : Nat) : Keeps held (position i n) := by
  unfold position rd wr
  repeat held

theorem keeps_plain (held : List (Lock × Mode)) (p : Plain) : Keeps held p.acts := by
  cases p with
  | lraValues c n =>
    have hl := keeps_around (held := held) (l := .lra) (c := [rd (.lraEntry c)]) (d := [rd (.lraTable c)])
      (by unfold rd; repeat held) (by unfold rd; repeat held)
    have e : Plain.acts (.lraValues c n) = [rd (.lraList c)] ++ reading .lra ([rd (.lraTable c)] ++
        times n ([.lock (.runlock .lra)] ++ [rd (.lraEntry c)] ++ [.lock (.rlock .lra)] ++ [rd (.lraTable c)])) := by
      simp [Plain.acts, reading]
    rw [e]
    refine Keeps.append (by unfold rd; repeat held) (Keeps.reading (Keeps.append (by unfold rd; repeat held) (Keeps.times n hl)))
  | mapValues c n =>
    have hl := keeps_around (held := held) (l := .cachemap) (c := []) (d := []) Keeps.nil Keeps.nil
    have e : Plain.acts (.mapValues c n) = [rd (.mapField c), rd (.mapOrder c)] ++ reading .cachemap ([rd (.mapField c), rd (.mapOrder c),
        rd (.mapTable c)] ++ times n ([.lock (.runlock .cachemap)] ++ [] ++ [.lock (.rlock .cachemap)] ++ [])) := by
      simp [Plain.acts, reading]
    rw [e]
    refine Keeps.append (by unfold rd; repeat held) (Keeps.reading (Keeps.append (by unfold rd; repeat held) (Keeps.times n hl)))
  | map2Values c n =>
    have hl := keeps_around (held := held) (l := .cachemap2) (c := []) (d := [rd (.map2Table c)]) Keeps.nil (by unfold rd; repeat held)
    have e : Plain.acts (.map2Values c n) = [ln (.map2Table c)] ++ reading .cachemap2 ([rd (.map2Table c)] ++
        times n ([.lock (.runlock .cachemap2)] ++ [] ++ [.lock (.rlock .cachemap2)] ++ [rd (.map2Table c)])) := by
      simp [Plain.acts, reading]
    rw [e]
    refine Keeps.append (by unfold ln; repeat held) (Keeps.reading (Keeps.append (by unfold rd; repeat held) (Keeps.times n hl)))
  | meterAdd i n =>
    unfold Plain.acts wr
    refine Keeps.locked (Keeps.append (keeps_position _ _ _) ?_)
    repeat held
  | meterGet i n k =>
    unfold Plain.acts rd
    refine Keeps.append (keeps_position _ _ _) ?_
    repeat held
  | _ =>
    unfold Plain.acts
    try unfold addNew
    try unfold rd
    try unfold wr
    repeat held

theorem keeps_setting (held : List (Lock × Mode)) : Keeps held setting := by
  unfold setting rd wr
  repeat held

theorem keeps_call (c : Call) : Keeps [] c.acts := by
  cases c with
  | plain p => exact keeps_plain _ p
  | refreshNothing => unfold Call.acts rd; repeat held
  | observe => unfold Call.acts wr; repeat held
  | observeName => unfold Call.acts wr; repeat held
  | refresh renamed nameObserver observers =>
    unfold Call.acts
    have hp : ∀ held ps, Keeps held (List.map Plain.acts ps).flatten := by
      intro held ps
      refine Keeps.flatten ?_
      intro d hd
      obtain ⟨p, -, rfl⟩ := List.mem_map.mp hd
      exact keeps_plain _ p
    refine Keeps.locked (Keeps.append (Keeps.append (Keeps.append (Keeps.append ?_ (Keeps.times _ (keeps_setting _))) ?_)
      (Keeps.times _ (keeps_setting _))) ?_)
    · unfold rd; repeat held
    · refine Keeps.cond (Keeps.reading (Keeps.append ?_ (hp _ _))) Keeps.nil
      unfold rd; repeat held
    · refine Keeps.reading (Keeps.append ?_ (Keeps.flatten ?_))
      · unfold rd; repeat held
      · intro d hd
        obtain ⟨o, -, rfl⟩ := List.mem_map.mp hd
        refine Keeps.append (hp _ _) ?_
        unfold rd; repeat held

/-! ## Whatever the schedule -/

/-- What every reachable state has. -/
structure Inv (gors : List Gor) : Prop where
  apart : Apart gors
  guarded : ∀ g ∈ gors, guarded g.held g.code

theorem Inv.start (calls : List (List Call)) : Inv (start calls) where
  apart := by
    intro i j g g' _ hg _ l
    have : g ∈ Accesses.start calls := List.mem_of_getElem? hg
    simp only [Accesses.start, List.mem_map] at this
    obtain ⟨cs, -, rfl⟩ := this
    exact ⟨fun h => (by cases h), fun h => by cases h⟩
  guarded := by
    intro g hg
    simp only [Accesses.start, List.mem_map] at hg
    obtain ⟨cs, -, rfl⟩ := hg
    have : Keeps [] (cs.map Call.acts).flatten := by
      refine Keeps.flatten ?_
      intro d hd
      obtain ⟨c, -, rfl⟩ := List.mem_map.mp hd
      exact keeps_call c
    have := this [] trivial
    simpa using this

theorem Inv.step {gors gs : List Gor} (H : Inv gors) {i : Nat} (h : step gors i = some gs) : Inv gs where
  apart := H.apart.step h
  guarded := by
    obtain ⟨g, g', hg, hs, rfl⟩ := step_some h
    intro x hx
    rcases List.mem_or_eq_of_mem_set hx with hx | rfl
    · exact H.guarded x hx
    · exact guarded_step (H.guarded g (List.mem_of_getElem? hg)) hs

theorem Inv.exec {gors gs : List Gor} (H : Inv gors) {is : List Nat} (h : exec gors is = some gs) : Inv gs := by
  induction is generalizing gors with
  | nil => cases h; exact H
  | cons i is ih =>
    simp only [Accesses.exec, Option.bind_eq_some_iff] at h
    obtain ⟨g1, h1, h2⟩ := h
    exact ih (H.step h1) h2

theorem Inv.exclusive {gors : List Gor} (H : Inv gors) {p : Place} {l : Lock} (hl : guard p = some l) {i j : Nat} {g g' : Gor} (hij : i ≠ j)
    (hg : gors[i]? = some g) (hg' : gors[j]? = some g') (hw : AboutTo g p .write) {h : How} (hh : h ≠ .len) (ha : AboutTo g' p h) : False := by
  obtain ⟨r, hr⟩ := hw
  obtain ⟨r', hr'⟩ := ha
  have k := H.guarded g (List.mem_of_getElem? hg)
  have k' := H.guarded g' (List.mem_of_getElem? hg')
  rw [hr] at k
  rw [hr'] at k'
  have w : (l, Mode.write) ∈ g.held := k.1 l hl
  have no := (H.apart i j g g' hij hg hg' l).1 w
  cases h with
  | len => exact hh rfl
  | read => rcases k'.1 l hl with h | h <;> exact no _ h
  | write => exact no _ (k'.1 l hl)

theorem guard_of_exclusive {p : Place} (h : Exclusive p) : ∃ l, guard p = some l := by
  cases p <;> simp [Exclusive] at h <;> exact ⟨_, rfl⟩

theorem Inv.not_racing {gors : List Gor} (H : Inv gors) {p : Place} (hp : Exclusive p) : ¬ Racing gors p := by
  rintro ⟨i, j, g, g', hij, hg, hg', hw, h, ha⟩
  obtain ⟨l, hl⟩ := guard_of_exclusive hp
  refine H.exclusive hl hij hg hg' hw (h := h) ?_ ha
  rintro rfl
  obtain ⟨r', hr'⟩ := ha
  have k' := H.guarded g' (List.mem_of_getElem? hg')
  rw [hr'] at k'
  exact k'.1 hp

/-- **C106**. However many goroutines work on any number of caches, the configuration, the sampler, the id generator and the meters, in any
order: no Go map of the agent is ever changed while another goroutine reads, iterates or changes it (which would end the program). -/
theorem C106_maps_are_safe (calls : List (List Call)) (schedule : List Nat) (gors : List Gor) (hs : exec (start calls) schedule = some gors)
    (p : Place) (hp : GoMap p) : ¬ Fatal gors p := by
  have H := (Inv.start calls).exec hs
  rintro ⟨i, j, g, g', hij, hg, hg', hw, ha⟩
  obtain ⟨l, hl⟩ : ∃ l, guard p = some l := by cases p <;> simp [GoMap] at hp <;> exact ⟨_, rfl⟩
  rcases ha with ha | ha
  · exact H.exclusive hl hij hg hg' hw (by decide) ha
  · exact H.exclusive hl hij hg hg' hw (by decide) ha

theorem racing_of {gors : List Gor} {p : Place} {h : How} (r r' : List Act) (x y : List (Lock × Mode))
    (hg : gors = [⟨x, .touch p h :: r⟩, ⟨y, .touch p .write :: r'⟩]) : Racing gors p := by
  subst hg
  exact ⟨1, 0, _, _, by decide, rfl, rfl, ⟨_, rfl⟩, h, ⟨_, rfl⟩⟩

/-- And which shared things two goroutines can touch at the same time, one of them changing it, is known exactly: those are the list and the
entries of a cache, the lists and pointers of the other caches, the length of a map, the observer of the name, the settings, the sampler's
patterns and the buckets of a meter; everything else is always touched under its lock. -/
theorem C106_what_can_race (p : Place) :
    (∃ calls schedule gors, exec (start calls) schedule = some gors ∧ Racing gors p) ↔ ¬ Exclusive p := by
  constructor
  · rintro ⟨calls, schedule, gors, hs, hr⟩ hp
    exact ((Inv.start calls).exec hs).not_racing hp hr
  · intro hp
    cases p with
    | lraTable c => exact absurd trivial hp
    | mapTable c => exact absurd trivial hp
    | map2Pos c => exact absurd trivial hp
    | setTable c => exact absurd trivial hp
    | observers => exact absurd trivial hp
    | descTable => exact absurd trivial hp
    | descOrder => exact absurd trivial hp
    | random => exact absurd trivial hp
    | ring i => exact absurd trivial hp
    | lraList c => exact ⟨[[.plain (.lraValues c 0)], [.plain (.lraAddNew c false)]], [1, 1, 1], _, rfl, racing_of _ _ _ _ rfl⟩
    | lraEntry c => exact ⟨[[.plain (.lraValues c 1)], [.plain (.lraAddKnown c)]], [0, 0, 0, 0, 1, 1, 1], _, rfl, racing_of _ _ _ _ rfl⟩
    | mapField c => exact ⟨[[.plain (.mapSize c)], [.plain (.mapClear c)]], [1, 1], _, rfl, racing_of _ _ _ _ rfl⟩
    | mapOrder c => exact ⟨[[.plain (.mapSize c)], [.plain (.mapAdd c true 0)]], [0, 1, 1, 1, 1, 1, 1], _, rfl, racing_of _ _ _ _ rfl⟩
    | map2Table c => exact ⟨[[.plain (.map2Values c 0)], [.plain (.map2Remove c)]], [1, 1], _, rfl, racing_of _ _ _ _ rfl⟩
    | map2Order c => exact ⟨[[.plain (.map2Size c)], [.plain (.map2Clear c)]], [1, 1, 1], _, rfl, racing_of _ _ _ _ rfl⟩
    | setField c => exact ⟨[[.plain (.setSize c)], [.plain (.setClear c)]], [1, 1], _, rfl, racing_of _ _ _ _ rfl⟩
    | setOrder c => exact ⟨[[.plain (.setSize c)], [.plain (.setAdd c true 0)]], [0, 1, 1, 1, 1, 1, 1, 1], _, rfl, racing_of _ _ _ _ rfl⟩
    | nameObserver => exact ⟨[[.refresh true [] []], [.observeName]], List.replicate 18 0, _, rfl, racing_of _ _ _ _ rfl⟩
    | settings => exact ⟨[[.plain .useSettings], [.refresh false [] []]], List.replicate 9 1, _, rfl, racing_of _ _ _ _ rfl⟩
    | patterns => exact ⟨[[.plain .decide], [.refresh false [] [[.samplerRun true]]]], 0 :: List.replicate 448 1,
        [⟨[], [rd .patterns]⟩, ⟨[(.observers, .read), (.conf, .write)], [wr .patterns, rd .observers, .lock (.runlock .observers),
          .lock (.unlock .conf)]⟩], by decide +kernel, racing_of _ _ _ _ rfl⟩
    | buckets i =>
      exact ⟨[[.plain (.meterGet i 0 1)], [.plain (.meterAdd i 0)]], List.replicate 5 0 ++ List.replicate 7 1,
        [⟨[], [rd (.buckets i)]⟩, ⟨[(.meter i, .write)], [wr (.buckets i), .lock (.unlock (.meter i))]⟩], by
        simp [exec, start, step, Gor.step, LockOrder.Gor.step, LockOrder.has, Plain.acts, Call.acts, position, locked, times, rd, wr,
          List.replicate, Gor.locks], racing_of _ _ _ _ rfl⟩

/-! ## Concrete cases -/

/-- Two goroutines with a lot to do on the same cache, the configuration being refreshed meanwhile. -/
def Demo.busy : List (List Call) :=
  [[.plain (.lraAddNew 0 true), .plain (.lraValues 0 2), .plain (.sendText 0 false false)], [.plain (.lraRemove 0 true), .plain .nextKey],
    [.refresh true [.sendText 0 false true] [[.samplerRun true]], .observe]]

-- the first adds while the second waits for the lock and the third has come to the settings
example : (exec (start Demo.busy) ([0, 0, 0, 0] ++ List.replicate 9 2)).map (fun gs => gs.map fun g => (g.held, g.code.head?)) =
    some [([(.lra, .write)], some (wr (.lraTable 0))), ([], some (.lock (.announce .lra))), ([(.conf, .write)], some (wr .settings))] := by
  decide +kernel
-- while it adds, the second cannot go on
example : (exec (start Demo.busy) [0, 0, 0, 0, 1]).isSome = false := by decide +kernel
-- and all can come to the end
example : (exec (start Demo.busy) (List.replicate 32 0 ++ List.replicate 10 1 ++ List.replicate 472 2)).map (fun gs => gs.map fun g => (g.held, g.code)) =
    some [([], []), ([], []), ([], [])] := by decide +kernel

end Accesses
end Scouter
