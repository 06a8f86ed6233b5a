import Verif.Spec.Recorders
import Verif.Props.Profile
import Mathlib.Tactic.ByContra
/-!
# C86: goroutines recording on the same profile
-/
namespace Scouter
namespace Recorders

/-! ## Slices of a mapped list -/

theorem profileLoop_map {α β : Type} (f : α → β) (l : List α) (b : Int) : ∀ n i,
    profileLoop (l.map f) b n i = (profileLoop l b n i).map (List.map f) := by
  intro n
  induction n with
  | zero => intro i; rfl
  | succ n ih => intro i; simp [profileLoop, ih, List.map_take, List.map_drop]

theorem profileSlices_map {α β : Type} (f : α → β) (l : List α) (b : Int) :
    profileSlices (l.map f) b = (profileSlices l b).map (List.map (List.map f)) := by
  unfold profileSlices
  simp only [List.length_map, profileLoop_map]
  split
  · rfl
  · split
    · rfl
    · split
      · rfl
      · split <;> simp [List.map_take, List.map_drop]

theorem filterMap_some (l : List Nat) : (l.map some).filterMap id = l := by
  induction l with
  | nil => rfl
  | cons a l ih => simp [ih]

/-! ## Taking turns -/

/-- A call run to its end without interruption. -/
def runCode (keep bulk : Int) : List Instr → Shared → Regs → Shared
  | [], s, _ => s
  | i :: code, s, r =>
    match exec keep bulk s r i with
    | (s, r, .goOn) => runCode keep bulk code s r
    | (s, _, .finished) => s
    | (s, _, .panicked) => { s with panics := s.panics + 1 }

theorem run_cons (keep bulk : Int) (s : State) (i : Nat) (is : List Nat) :
    s.run keep bulk (i :: is) = (s.fire keep bulk i).run keep bulk is := rfl

theorem run_append (keep bulk : Int) (s : State) (a b : List Nat) :
    s.run keep bulk (a ++ b) = (s.run keep bulk a).run keep bulk b := by
  simp [State.run]

/-- The rest of the call goroutine `i` is in, done at once. -/
def settle (keep bulk : Int) (s : State) (i : Nat) : Shared :=
  match s.gors[i]? with
  | some g => runCode keep bulk g.code s.shared g.regs
  | none => s.shared

theorem settle_fire_inside {keep bulk : Int} {s : State} {i : Nat} {g : Gor} (hg : s.gors[i]? = some g) (hc : g.code ≠ []) :
    settle keep bulk (s.fire keep bulk i) i = settle keep bulk s i := by
  have hi : i < s.gors.length := (List.getElem?_eq_some_iff.1 hg).1
  obtain ⟨code, r, todo⟩ := g
  cases code with
  | nil => exact absurd rfl hc
  | cons a code =>
    unfold settle State.fire
    simp only [hg, Gor.step]
    rw [List.getElem?_set_self hi]
    simp only [runCode]
    rcases h : exec keep bulk s.shared r a with ⟨s', r', n⟩
    cases n <;> simp [runCode]

theorem fire_other {keep bulk : Int} {s : State} {i j : Nat} (h : j ≠ i) :
    (s.fire keep bulk i).gors[j]? = s.gors[j]? := by
  unfold State.fire
  split
  · rfl
  · simp [List.getElem?_set_ne (Ne.symm h)]

/-- Goroutines that take turns do what the calls do one after the other: for any relation between what they share and some
abstract state that each uninterrupted call keeps. -/
theorem turns_sim {σ : Type} (keep bulk : Int) (R : Shared → σ → Prop) (f : σ → ProfOp → σ)
    (hcall : ∀ s (g : Gor) op a, g.code = [] → R s a →
      R (runCode keep bulk (beginCall s g op).2.code (beginCall s g op).1 (beginCall s g op).2.regs) (f a op)) :
    ∀ (is : List Nat) (s : State) (a : σ) (b : Option Nat),
      (match b with | none => s.idle ∧ R s.shared a
                    | some i => (∀ j g, j ≠ i → s.gors[j]? = some g → g.code = []) ∧ R (settle keep bulk s i) a) →
      Turns keep bulk s is → (s.run keep bulk is).idle →
      R (s.run keep bulk is).shared ((callsMade keep bulk s is).foldl f a) := by
  have settled : ∀ (s : State) (i : Nat), s.idle → settle keep bulk s i = s.shared := by
    intro s i h
    unfold settle
    split
    · rename_i g hg
      rw [h g (List.mem_of_getElem? hg)]; rfl
    · rfl
  intro is
  induction is with
  | nil =>
    intro s a b hb _ hidle
    cases b with
    | none => exact hb.2
    | some i =>
      obtain ⟨-, h2⟩ := hb
      have hidle : s.idle := hidle
      rw [settled s i hidle] at h2
      exact h2
  | cons i is ih =>
    intro s a b hb ht hidle
    have ht' : Turns keep bulk (s.fire keep bulk i) is := by
      intro pre j post he
      exact ht (i :: pre) j post (by rw [he]; rfl)
    have hothers : ∀ j g, j ≠ i → s.gors[j]? = some g → g.code = [] := ht [] i is rfl
    -- in terms of goroutine `i`
    have hR : R (settle keep bulk s i) a := by
      cases b with
      | none => rw [settled s i hb.1]; exact hb.2
      | some k =>
        by_cases hk : k = i
        · subst hk; exact hb.2
        · have hall : s.idle := by
            intro g hg
            obtain ⟨j, hj⟩ := List.mem_iff_getElem?.1 hg
            by_cases hji : j = i
            · exact hb.1 j g (by omega) hj
            · exact hothers j g hji hj
          have := hb.2
          rw [settled s k hall] at this
          rw [settled s i hall]; exact this
    rw [run_cons] at hidle ⊢
    simp only [callsMade, List.foldl_append]
    refine ih _ _ (some i) ⟨?_, ?_⟩ ht' hidle
    · intro j g hj hg
      rw [fire_other hj] at hg
      exact hothers j g hj hg
    · cases hg : s.gors[i]? with
      | none =>
        have : s.fire keep bulk i = s := by unfold State.fire; rw [hg]
        rw [this]; exact hR
      | some g =>
        by_cases hc : g.code = []
        · have hi : i < s.gors.length := (List.getElem?_eq_some_iff.1 hg).1
          simp only [hc, if_true]
          have hs : settle keep bulk s i = s.shared := by unfold settle; rw [hg]; simp only; rw [hc]; rfl
          rw [hs] at hR
          cases htd : g.todo with
          | nil =>
            have : settle keep bulk (s.fire keep bulk i) i = s.shared := by
              unfold settle State.fire
              simp only [hg, Gor.step, hc, htd]
              rw [List.getElem?_set_self hi]
              simp [hc, runCode]
            rw [this]; simpa using hR
          | cons op todo =>
            have : settle keep bulk (s.fire keep bulk i) i =
                runCode keep bulk (beginCall s.shared { g with todo := todo } op).2.code
                  (beginCall s.shared { g with todo := todo } op).1 (beginCall s.shared { g with todo := todo } op).2.regs := by
              unfold settle State.fire
              simp only [hg, Gor.step, hc, htd]
              rw [List.getElem?_set_self hi]
            rw [this]
            exact hcall s.shared { g with todo := todo } op a hc hR
        · simp only [hc, if_false]
          rw [settle_fire_inside hg hc]
          exact hR

/-! ## One call after the other is the sequential profile -/

/-- What the goroutines share looks like the sequential profile. -/
structure Rel (bulk : Int) (s : Shared) (p : ProfState) : Prop where
  heap : s.heap = p.heap
  recorded : s.recorded = p.recorded
  packets : s.packets = p.packets
  level : s.currentLevel = p.col.currentLevel
  parent : s.parentLevel = p.col.parentLevel
  panicked : p.panicked = decide (0 < s.panics)
  pos : s.pos = p.col.kept.length
  counted : 1 ≤ bulk → s.counted = s.packets.flatten.length
  buf : ∃ b, s.bufs[s.cur]? = some b ∧ b.length = p.col.cap ∧ b.take s.pos = p.col.kept.map some

theorem sent_count {bulk : Int} {c n : Nat} {pk : List (List Nat)} {o : List Nat} {ps : List (List Nat)}
    (h : 1 ≤ bulk → c = pk.flatten.length) (hn : n = o.length) (hps : profileSlices o bulk = some ps) :
    1 ≤ bulk → c + n = (pk ++ ps).flatten.length := by
  intro hb
  obtain ⟨ps', h1, h2, -⟩ := C34_slices o bulk hb
  rw [hps] at h1
  injection h1 with h1
  subst h1
  rw [List.flatten_append, List.length_append, h2, h hb, hn]

theorem rel_process {keep bulk : Int} {s : Shared} {p : ProfState} (h : Rel bulk s p) (r : Regs) :
    Rel bulk (runCode keep bulk processCode s r) (p.process keep bulk r.me) := by
  obtain ⟨h1, h2, h3, h4, h5, h6, h7, h8, b, hb1, hb2, hb3⟩ := h
  have hcur : s.cur < s.bufs.length := (List.getElem?_eq_some_iff.1 hb1).1
  have hle : p.col.kept.length ≤ b.length := by
    have := congrArg List.length hb3
    simp only [List.length_take, List.length_map] at this
    omega
  unfold ProfState.process
  simp only [processCode, afterStore, List.cons_append, List.nil_append, runCode, exec, hb1, Option.getD_some]
  by_cases hroom : s.pos < b.length
  · rw [if_pos hroom]
    have hmod : (s.bufs.modify s.cur (·.set s.pos (some r.me)))[s.cur]? = some (b.set s.pos (some r.me)) := by
      rw [List.getElem?_modify]; simp [hb1]
    have hmodlen : (s.bufs.modify s.cur (·.set s.pos (some r.me))).length = s.bufs.length := List.length_modify ..
    generalize hB : s.bufs.modify s.cur (·.set s.pos (some r.me)) = B at hmod hmodlen
    simp only [hmod, Option.getD_some, List.length_set]
    have hkeep : (b.set s.pos (some r.me)).take (s.pos + 1) = (p.col.kept ++ [r.me]).map some := by
      rw [List.map_append, ← hb3, List.take_succ, List.take_set_of_le (Nat.le_refl _)]
      simp [hroom]
    by_cases hfull : s.pos + 1 < b.length
    · have e : p.col.process keep r.me = ({ p.col with kept := p.col.kept ++ [r.me] }, .done) := by
        unfold Collector.process
        rw [if_neg (by omega)]; simp only
        rw [if_neg (by simp; omega)]
      rw [e, if_neg (by omega)]
      exact ⟨h1, by simp [h2], h3, h4, h5, h6, by simp [h7], h8, _, hmod, by simpa using hb2, hkeep⟩
    · have hall : b.set s.pos (some r.me) = (p.col.kept ++ [r.me]).map some := by
        rw [← hkeep]; symm; apply List.take_of_length_le; simp; omega
      rw [if_pos (by omega)]
      simp only
      by_cases hk : keep < 0
      · have e : p.col.process keep r.me = ({ p.col with kept := p.col.kept ++ [r.me] }, .panicked) := by
          unfold Collector.process
          rw [if_neg (by omega)]; simp only
          rw [if_pos (by simp; omega), if_pos hk]
        rw [e, if_pos hk]
        exact ⟨h1, by simp [h2], h3, h4, h5, by simp, by simp [h7], h8, _, hmod, by simpa using hb2, hkeep⟩
      · have e : p.col.process keep r.me = ({ p.col with cap := keep.toNat, kept := [] }, .full (p.col.kept ++ [r.me])) := by
          unfold Collector.process
          rw [if_neg (by omega)]; simp only
          rw [if_pos (by simp; omega), if_neg hk]
        rw [e, if_neg hk]
        simp only [ProfState.send]
        have hget : (B ++ [List.replicate keep.toNat none])[s.cur]? = some (b.set s.pos (some r.me)) := by
          rw [List.getElem?_append_left (by omega)]; exact hmod
        have hnew : (B ++ [List.replicate keep.toNat (none : Option Nat)])[B.length]? = some (List.replicate keep.toNat none) := by
          simp
        simp only [hget, Option.getD_some]
        unfold sendSlots
        rw [hall, profileSlices_map]
        cases hps : profileSlices (p.col.kept ++ [r.me]) bulk with
        | none =>
          simp only [Option.map_none]
          exact ⟨h1, by simp [h2], h3, h4, h5, by simp, rfl, h8, _, hnew, by simp, by simp⟩
        | some ps =>
          simp only [Option.map_some]
          have : (ps.map (List.map some)).map (·.filterMap id) = ps := by
            rw [List.map_map]
            conv => rhs; rw [← List.map_id ps]
            apply List.map_congr_left
            intro x _
            exact filterMap_some x
          rw [this]
          exact ⟨h1, by simp [h2], by simp [h3], h4, h5, h6, rfl, sent_count h8 (by simp) hps, _, hnew, by simp, by simp⟩
  · have e : p.col.process keep r.me = (p.col, .panicked) := by
      unfold Collector.process
      rw [if_pos (by omega)]
    rw [if_neg hroom, e]
    exact ⟨h1, by simp [h2], h3, h4, h5, by simp, by simp [h7], h8, b, hb1, hb2, hb3⟩

theorem rel_call {keep bulk : Int} (s : Shared) (g : Gor) (op : ProfOp) (p : ProfState) (hc : g.code = []) (h : Rel bulk s p) :
    Rel bulk (runCode keep bulk (beginCall s g op).2.code (beginCall s g op).1 (beginCall s g op).2.regs) (p.step keep bulk op) := by
  have hm : ∀ (l : List Step) (a : Step) (f : Step → Step), (l ++ [a]).modify l.length f = l ++ [f a] := by
    intro l a f
    apply List.ext_getElem?
    intro i
    rw [List.getElem?_modify]
    rcases Nat.lt_trichotomy i l.length with hi | hi | hi
    · simp [List.getElem?_append_left hi, Nat.ne_of_gt hi]
    · subst hi; simp
    · rw [List.getElem?_eq_none (by simp; omega), List.getElem?_eq_none (by simp; omega)]; rfl
  cases op with
  | push st =>
    obtain ⟨h1, h2, h3, h4, h5, h6, h7, h8, b, hb1, hb2, hb3⟩ := h
    simp only [beginCall, pushCode, runCode, exec, hm, ProfState.step, Collector.push]
    exact ⟨by simp [h1, h4, h5], h2, h3, by simp [h4], by simp [h4], h6, h7, h8, b, hb1, hb2, hb3⟩
  | add st =>
    have key : Rel bulk { s with heap := s.heap ++ [(p.col.addNumber st).2], currentLevel := s.currentLevel + 1 }
        { p with col := (p.col.addNumber st).1, heap := p.heap ++ [(p.col.addNumber st).2] } := by
      obtain ⟨h1, h2, h3, h4, h5, h6, h7, h8, b, hb1, hb2, hb3⟩ := h
      exact ⟨by simp [h1], h2, h3, by simp [h4, Collector.addNumber], h5, h6, h7, h8, b, hb1, hb2, hb3⟩
    have := rel_process (keep := keep) (bulk := bulk) key { g.regs with me := s.heap.length, level := s.currentLevel }
    simp only [beginCall, addCode, List.cons_append, List.nil_append, runCode, exec, hm, ProfState.step]
    rw [← h.heap]
    simp only [Collector.addNumber, ← h.heap] at this ⊢
    rw [← h.level, ← h.parent] at this ⊢
    exact this
  | pop ptr =>
    simp only [ProfState.step, beginCall, ← h.heap]
    by_cases hp : ptr < s.heap.length
    · rw [if_pos hp, List.getElem?_eq_getElem hp]
      simp only [popCode, runCode, exec, List.getElem?_eq_getElem hp, Option.map_some, Option.getD_some]
      refine rel_process (s := { s with parentLevel := s.heap[ptr].ss.parent })
        (p := { p with heap := s.heap, col := p.col.popParent s.heap[ptr] }) ?_ { g.regs with me := ptr }
      exact ⟨rfl, h.recorded, h.packets, h.level, rfl, h.panicked, h.pos, h.counted, h.buf⟩
    · rw [if_neg hp, List.getElem?_eq_none (by omega)]
      simp only [hc, runCode]; exact h
  | close ok =>
    obtain ⟨h1, h2, h3, h4, h5, h6, h7, h8, b, hb1, hb2, hb3⟩ := h
    simp only [beginCall, closeCode, runCode, exec, ProfState.step, Collector.close, ← h7]
    by_cases ho : 0 < s.pos ∧ ok = true
    · rw [if_pos ho, if_pos ho]
      have hle : s.pos ≤ b.length := by
        have := congrArg List.length hb3
        simp only [List.length_take, List.length_map] at this
        omega
      simp only [hb1, Option.getD_some]
      rw [if_pos hle, hb3]
      unfold sendSlots ProfState.send
      rw [profileSlices_map]
      cases hps : profileSlices p.col.kept bulk with
      | none =>
        simp only [Option.map_none]
        exact ⟨h1, h2, h3, h4, h5, by simp, h7, h8, b, hb1, hb2, hb3⟩
      | some ps =>
        simp only [Option.map_some]
        have : (ps.map (List.map some)).map (·.filterMap id) = ps := by
          rw [List.map_map]
          conv => rhs; rw [← List.map_id ps]
          apply List.map_congr_left
          intro x _
          exact filterMap_some x
        rw [this]
        exact ⟨h1, h2, by simp [h3], h4, h5, h6, h7, sent_count h8 (by simp) hps, b, hb1, hb2, hb3⟩
    · rw [if_neg ho, if_neg ho]
      exact ⟨h1, h2, h3, h4, h5, h6, h7, h8, b, hb1, hb2, hb3⟩

theorem oneByOne_snoc (keep bulk : Int) (p : ProfState) (cs : List ProfOp) :
    p.run (cs.map fun c => (keep, bulk, c)) = cs.foldl (fun p c => p.step keep bulk c) p := by
  induction cs generalizing p with
  | nil => rfl
  | cons c cs ih => simp only [List.map_cons, ProfState.run, List.foldl_cons]; exact ih _

/-- **Taking turns is safe**: if no goroutine makes a step while another is inside a call, the numbers given to the steps, what was
recorded, what was sent, what is still kept and what the log counts are those of the same calls made one after the other, in the order in which they
began — to which C33 and C34 apply. -/
theorem C86_taking_turns (keep bulk : Int) (hk : 0 ≤ keep) (todos : List (List ProfOp)) (is : List Nat)
    (ht : Turns keep bulk (State.start keep todos) is) (hi : ((State.start keep todos).run keep bulk is).idle) :
    let s := ((State.start keep todos).run keep bulk is).shared
    let p := oneByOne keep bulk (callsMade keep bulk (State.start keep todos) is)
    s.heap = p.heap ∧ s.recorded = p.recorded ∧ s.packets = p.packets ∧ (s.panics = 0 ↔ p.panicked = false) ∧
      ((s.bufs[s.cur]?).getD []).take s.pos = p.col.kept.map some ∧ (1 ≤ bulk → s.counted = p.packets.flatten.length) := by
  have := turns_sim keep bulk (Rel bulk) (fun p c => p.step keep bulk c) (fun s g op p => rel_call s g op p) is
    (State.start keep todos) { col := { cap := keep.toNat } } none
    ⟨by intro g hg
        simp only [State.start, List.mem_map] at hg
        obtain ⟨t, -, rfl⟩ := hg; rfl,
     rfl, rfl, rfl, rfl, rfl, rfl, rfl, fun _ => rfl, List.replicate keep.toNat none, rfl, by simp, rfl⟩ ht hi
  rw [← oneByOne_snoc] at this
  obtain ⟨h1, h2, h3, h4, h5, h6, h7, h8, b, hb1, hb2, hb3⟩ := this
  refine ⟨h1, h2, h3, ?_, by rw [hb1]; exact hb3, fun h => ?_⟩
  rotate_left
  · have := h8 h
    rw [h3] at this
    exact this
  show _ ↔ (ProfState.run _ _).panicked = false
  rw [h6]; simp

/-! ## Any schedule: what cannot happen -/

/-- Every slot holds a step given to the collector, no step is in more slots than it was recorded, and packs hold recorded steps. -/
structure Sound (s : Shared) : Prop where
  slots : ∀ p, s.bufs.flatten.count (some p) ≤ s.recorded.count p
  packets : ∀ p ∈ s.packets.flatten, p ∈ s.recorded
  known : ∀ p ∈ s.recorded, p < s.heap.length

theorem Sound.slot {s : Shared} (h : Sound s) {i : Nat} {p : Nat} (hp : some p ∈ (s.bufs[i]?).getD []) : p ∈ s.recorded := by
  cases hb : s.bufs[i]? with
  | none => simp [hb] at hp
  | some b =>
    rw [hb] at hp
    have : some p ∈ s.bufs.flatten := List.mem_flatten.2 ⟨b, List.mem_of_getElem? hb, hp⟩
    have := List.count_pos_iff.2 this
    exact List.count_pos_iff.1 (lt_of_lt_of_le this (h.slots p))

theorem mem_profileLoop {α : Type} (l : List α) (b : Int) (x : α) : ∀ n i, x ∈ (profileLoop l b n i).flatten → x ∈ l := by
  intro n
  induction n with
  | zero => intro i h; simp [profileLoop] at h
  | succ n ih =>
    intro i h
    simp only [profileLoop, List.flatten_cons, List.mem_append] at h
    rcases h with h | h
    · exact List.mem_of_mem_drop (List.mem_of_mem_take h)
    · exact ih _ h

theorem mem_profileSlices {α : Type} (l : List α) (b : Int) (ps : List (List α)) (h : profileSlices l b = some ps) (x : α)
    (hx : x ∈ ps.flatten) : x ∈ l := by
  unfold profileSlices at h
  split at h
  · cases h; simp at hx
  · split at h
    · simp at h
    · simp only at h
      split at h
      · cases h; simpa using hx
      · split at h
        · cases h
          rw [List.flatten_append, List.mem_append] at hx
          rcases hx with hx | hx
          · exact mem_profileLoop l b x _ _ hx
          · simp only [List.flatten_cons, List.flatten_nil, List.append_nil] at hx
            exact List.mem_of_mem_drop (List.mem_of_mem_take hx)
        · cases h
          exact mem_profileLoop l b x _ _ hx

theorem sendSlots_sound {s s' : Shared} (h : Sound s) {bulk : Int} {o : List (Option Nat)} (ho : ∀ p, some p ∈ o → p ∈ s.recorded)
    (hs : sendSlots s bulk o = some s') : Sound s' ∧ s'.heap = s.heap := by
  unfold sendSlots at hs
  cases hp : profileSlices o bulk with
  | none => simp [hp] at hs
  | some ps =>
    rw [hp] at hs
    simp only [Option.map_some, Option.some.injEq] at hs
    subst hs
    refine ⟨⟨h.slots, ?_, h.known⟩, rfl⟩
    intro p hp'
    simp only [List.flatten_append, List.mem_append] at hp'
    rcases hp' with hp' | hp'
    · exact h.packets p hp'
    · obtain ⟨l, hl, hpl⟩ := List.mem_flatten.1 hp'
      obtain ⟨l', hl', rfl⟩ := List.mem_map.1 hl
      obtain ⟨a, ha, hae⟩ := List.mem_filterMap.1 hpl
      simp only [id] at hae; subst hae
      exact ho p (mem_profileSlices o bulk ps hp _ (List.mem_flatten.2 ⟨l', hl', ha⟩))

theorem count_flatten_modify (bufs : List (List (Option Nat))) (i j : Nat) (x p : Nat) :
    (bufs.modify i (·.set j (some x))).flatten.count (some p) ≤ bufs.flatten.count (some p) + [x].count p := by
  induction bufs generalizing i with
  | nil => simp
  | cons b bufs ih =>
    cases i with
    | zero =>
      simp only [List.modify_zero_cons, List.flatten_cons, List.count_append]
      have : (b.set j (some x)).count (some p) ≤ b.count (some p) + [x].count p := by
        by_cases hj : j < b.length
        · rw [List.count_set hj]
          have : [x].count p = if (some x == some p) = true then 1 else 0 := by
            by_cases hxp : x = p <;> simp [hxp]
          rw [this]; omega
        · rw [List.set_eq_of_length_le (by omega)]; omega
      omega
    | succ i =>
      simp only [List.modify_succ_cons, List.flatten_cons, List.count_append]
      have := ih i
      omega

theorem exec_sound {keep bulk : Int} {s : Shared} {r : Regs} (h : Sound s) (i : Instr) (hme : i = .store → r.me < s.heap.length) :
    Sound (exec keep bulk s r i).1 ∧ (exec keep bulk s r i).1.heap.length = s.heap.length ∧
      (exec keep bulk s r i).2.1.me = r.me := by
  have hmod : ∀ f : Step → Step, (s.heap.modify r.me f).length = s.heap.length := fun f => List.length_modify ..
  cases i with
  | setIndex => exact ⟨⟨h.slots, h.packets, by simpa [exec, hmod] using h.known⟩, by simp [exec], rfl⟩
  | setParent => exact ⟨⟨h.slots, h.packets, by simpa [exec, hmod] using h.known⟩, by simp [exec], rfl⟩
  | readLevel => exact ⟨h, rfl, rfl⟩
  | writeParent => exact ⟨⟨h.slots, h.packets, h.known⟩, rfl, rfl⟩
  | bumpLevel => exact ⟨⟨h.slots, h.packets, h.known⟩, rfl, rfl⟩
  | restoreParent => exact ⟨⟨h.slots, h.packets, h.known⟩, rfl, rfl⟩
  | readSteps => exact ⟨h, rfl, rfl⟩
  | readPos => exact ⟨h, rfl, rfl⟩
  | store =>
    have hk : ∀ p ∈ s.recorded ++ [r.me], p < s.heap.length := by
      intro p hp
      rcases List.mem_append.1 hp with hp | hp
      · exact h.known p hp
      · rw [List.mem_singleton] at hp; subst hp; exact hme rfl
    have hp : ∀ p ∈ s.packets.flatten, p ∈ s.recorded ++ [r.me] := fun p hp => List.mem_append_left _ (h.packets p hp)
    simp only [exec]
    split
    · refine ⟨⟨?_, hp, hk⟩, rfl, rfl⟩
      intro p
      have := count_flatten_modify s.bufs r.buf r.pos r.me p
      have := h.slots p
      simp only [List.count_append]
      omega
    · refine ⟨⟨?_, hp, hk⟩, rfl, rfl⟩
      intro p
      have := h.slots p
      simp only [List.count_append]
      omega
  | bumpPos => exact ⟨⟨h.slots, h.packets, h.known⟩, rfl, rfl⟩
  | testFull => exact ⟨h, rfl, rfl⟩
  | newSteps =>
    simp only [exec]
    split
    · exact ⟨h, rfl, rfl⟩
    · refine ⟨⟨?_, h.packets, h.known⟩, rfl, rfl⟩
      intro p
      have := h.slots p
      simp only [List.flatten_append, List.count_append, List.flatten_cons, List.flatten_nil, List.append_nil]
      have : (List.replicate keep.toNat (none : Option Nat)).count (some p) = 0 := by
        rw [List.count_eq_zero]; simp
      omega
  | zeroPos => exact ⟨⟨h.slots, h.packets, h.known⟩, rfl, rfl⟩
  | sendAll =>
    simp only [exec]
    cases hs : sendSlots s bulk ((s.bufs[r.buf]?).getD []) with
    | none => exact ⟨h, rfl, rfl⟩
    | some s' =>
      obtain ⟨h1, h2⟩ := sendSlots_sound h (fun p hp => h.slot hp) hs
      exact ⟨h1, by rw [h2], rfl⟩
  | testAny ok => exact ⟨h, rfl, rfl⟩
  | sendKept =>
    simp only [exec]
    split
    · cases hs : sendSlots s bulk (((s.bufs[r.buf]?).getD []).take r.pos) with
      | none => exact ⟨h, rfl, rfl⟩
      | some s' =>
        obtain ⟨h1, h2⟩ := sendSlots_sound h (fun p hp => h.slot (List.mem_of_mem_take hp)) hs
        exact ⟨h1, by rw [h2], rfl⟩
    · exact ⟨h, rfl, rfl⟩

/-- As `Sound`, with the goroutines: the step a goroutine is going to store exists. -/
structure AllSound (s : State) : Prop where
  shared : Sound s.shared
  me : ∀ g ∈ s.gors, Instr.store ∈ g.code → g.regs.me < s.shared.heap.length

theorem AllSound.fire {keep bulk : Int} {s : State} (h : AllSound s) (i : Nat) : AllSound (s.fire keep bulk i) := by
  unfold State.fire
  cases hg : s.gors[i]? with
  | none => exact h
  | some g =>
    have hgm := List.mem_of_getElem? hg
    -- what is needed of the goroutine's step
    suffices hh : Sound (g.step keep bulk s.shared).1 ∧ s.shared.heap.length ≤ (g.step keep bulk s.shared).1.heap.length ∧
        (Instr.store ∈ (g.step keep bulk s.shared).2.code →
          (g.step keep bulk s.shared).2.regs.me < (g.step keep bulk s.shared).1.heap.length) by
      refine ⟨hh.1, ?_⟩
      intro g' hg' hst
      rcases List.mem_or_eq_of_mem_set hg' with hg' | rfl
      · exact lt_of_lt_of_le (h.me g' hg' hst) hh.2.1
      · exact hh.2.2 hst
    obtain ⟨code, r, todo⟩ := g
    cases code with
    | nil =>
      cases todo with
      | nil => exact ⟨h.shared, Nat.le_refl _, by simp [Gor.step]⟩
      | cons op todo =>
        have hs := h.shared
        cases op with
        | push st =>
          refine ⟨⟨hs.slots, hs.packets, fun p hp => ?_⟩, by simp [Gor.step, beginCall], by simp [Gor.step, beginCall]⟩
          have := hs.known p hp
          simp only [Gor.step, beginCall, List.length_append, List.length_singleton]; omega
        | add st =>
          refine ⟨⟨hs.slots, hs.packets, fun p hp => ?_⟩, by simp [Gor.step, beginCall], by simp [Gor.step, beginCall]⟩
          have := hs.known p hp
          simp only [Gor.step, beginCall, List.length_append, List.length_singleton]; omega
        | pop ptr =>
          simp only [Gor.step, beginCall]
          split
          · rename_i hp
            exact ⟨hs, Nat.le_refl _, fun _ => hp⟩
          · exact ⟨hs, Nat.le_refl _, by simp⟩
        | close ok => exact ⟨hs, Nat.le_refl _, by simp [Gor.step, beginCall, closeCode]⟩
    | cons a code =>
      have hme := h.me _ hgm
      obtain ⟨h1, h2, h3⟩ := exec_sound (keep := keep) (bulk := bulk) (r := r) h.shared a
        (by rintro rfl; exact hme (by simp))
      simp only [Gor.step]
      rcases he : exec keep bulk s.shared r a with ⟨s', r', n⟩
      rw [he] at h1 h2 h3
      simp only at h1 h2 h3
      cases n with
      | goOn =>
        refine ⟨h1, by simp only; omega, fun hst => ?_⟩
        have := hme (List.mem_cons_of_mem _ hst)
        simp only at this ⊢
        omega
      | finished => exact ⟨h1, by simp only; omega, by simp⟩
      | panicked => exact ⟨⟨h1.slots, h1.packets, h1.known⟩, by simp only; omega, by simp⟩

theorem AllSound.start (keep : Int) (todos : List (List ProfOp)) : AllSound (State.start keep todos) := by
  refine ⟨⟨?_, by simp [State.start], by simp [State.start]⟩, ?_⟩
  · intro p
    simp only [State.start, List.flatten_cons, List.flatten_nil, List.append_nil]
    rw [List.count_eq_zero.2 (by simp)]; exact Nat.zero_le _
  · intro g hg hst
    simp only [State.start, List.mem_map] at hg
    obtain ⟨t, -, rfl⟩ := hg
    simp at hst

theorem AllSound.run {keep bulk : Int} {s : State} (h : AllSound s) (is : List Nat) : AllSound (s.run keep bulk is) := by
  induction is generalizing s with
  | nil => exact h
  | cons i is ih => exact ih (h.fire i)

/-- **Nothing is invented**: under every schedule, the packs sent hold only steps that were recorded on this profile, and a step is in
the arrays at most as often as it was recorded. -/
theorem C86_nothing_invented (keep bulk : Int) (todos : List (List ProfOp)) (is : List Nat) :
    let s := ((State.start keep todos).run keep bulk is).shared
    (∀ pack ∈ s.packets, ∀ p ∈ pack, p ∈ s.recorded) ∧ (∀ p ∈ s.recorded, p < s.heap.length) ∧
      ∀ p, s.bufs.flatten.count (some p) ≤ s.recorded.count p := by
  have h := ((AllSound.start keep todos).run (keep := keep) (bulk := bulk) is).shared
  exact ⟨fun pack hpk p hp => h.packets p (List.mem_flatten.2 ⟨pack, hpk, hp⟩), h.known, h.slots⟩

/-! ## Any schedule: room for the next step -/

/-- Wherever `c.pos` is advanced, the test for a full buffer follows. -/
def Shaped : List Instr → Prop
  | [] => True
  | .bumpPos :: rest => rest = afterStore.drop 2 ∧ Shaped rest
  | _ :: rest => Shaped rest

/-- The goroutine is going to notice that the buffer is full, or has noticed. -/
def Clearing (keep : Nat) (g : Gor) : Prop :=
  g.code = afterStore.drop 2 ∨ (g.code = afterStore.drop 3 ∧ keep ≤ g.regs.pos) ∨ g.code = afterStore.drop 4 ∨
    g.code = afterStore.drop 5 ∨ g.code = afterStore.drop 6

/-- All arrays have the configured length, and when `c.pos` is beyond it somebody is about to put it back. -/
structure Roomy (keep : Nat) (s : State) : Prop where
  size : ∀ b ∈ s.shared.bufs, b.length = keep
  cur : s.shared.cur < s.shared.bufs.length
  shape : ∀ g ∈ s.gors, Shaped g.code
  full : keep ≤ s.shared.pos → ∃ g ∈ s.gors, Clearing keep g

theorem Shaped.tail {a : Instr} {code : List Instr} (h : Shaped (a :: code)) : Shaped code := by
  cases a <;> first | exact h.2 | exact h

theorem buf_length {keep : Nat} {s : Shared} (hsize : ∀ b ∈ s.bufs, b.length = keep) (hcur : s.cur < s.bufs.length) :
    ((s.bufs[s.cur]?).getD []).length = keep := by
  rw [List.getElem?_eq_getElem hcur]
  exact hsize _ (List.getElem_mem _)

theorem sendSlots_kept {s s' : Shared} {bulk : Int} {o : List (Option Nat)} (hs : sendSlots s bulk o = some s') :
    s'.bufs = s.bufs ∧ s'.cur = s.cur ∧ s'.pos = s.pos ∧ s'.panics = s.panics ∧ s'.recorded = s.recorded := by
  unfold sendSlots at hs
  cases hp : profileSlices o bulk with
  | none => simp [hp] at hs
  | some ps =>
    rw [hp] at hs
    simp only [Option.map_some, Option.some.injEq] at hs
    subst hs
    exact ⟨rfl, rfl, rfl, rfl, rfl⟩

/-- A step keeps the arrays' lengths; only the write of `c.pos++` can move `c.pos` beyond the end. -/
theorem exec_room {keep : Nat} {bulk : Int} {s : Shared} {r : Regs} (i : Instr) (hk : 1 ≤ keep)
    (hsize : ∀ b ∈ s.bufs, b.length = keep) (hcur : s.cur < s.bufs.length) :
    (∀ b ∈ (exec keep bulk s r i).1.bufs, b.length = keep) ∧
    (exec keep bulk s r i).1.cur < (exec keep bulk s r i).1.bufs.length ∧
    (i ≠ .bumpPos → i ≠ .zeroPos → (exec keep bulk s r i).1.pos = s.pos) ∧
    (i = .zeroPos → (exec keep bulk s r i).1.pos = 0) := by
  cases i with
  | store =>
    simp only [exec]
    split
    · refine ⟨?_, by simpa using hcur, fun _ _ => rfl, by simp⟩
      intro b hb
      obtain ⟨j, hj⟩ := List.mem_iff_getElem?.1 hb
      rw [List.getElem?_modify] at hj
      cases hbj : s.bufs[j]? with
      | none => simp [hbj] at hj
      | some b' =>
        rw [hbj] at hj
        have hb' := hsize b' (List.mem_of_getElem? hbj)
        simp only [Option.map_eq_map, Option.map_some, Option.some.injEq] at hj
        subst hj
        split <;> simp [hb']
    · exact ⟨hsize, hcur, fun _ _ => rfl, by simp⟩
  | newSteps =>
    simp only [exec]
    rw [if_neg (by omega)]
    refine ⟨?_, by simp, fun _ _ => rfl, by simp⟩
    intro b hb
    rcases List.mem_append.1 hb with hb | hb
    · exact hsize b hb
    · rw [List.mem_singleton] at hb; subst hb; simp
  | sendAll =>
    simp only [exec]
    cases hs : sendSlots s bulk ((s.bufs[r.buf]?).getD []) with
    | none => exact ⟨hsize, hcur, fun _ _ => rfl, by simp⟩
    | some s' =>
      obtain ⟨h1, h2, h3, -, -⟩ := sendSlots_kept hs
      exact ⟨by rw [h1]; exact hsize, by rw [h1, h2]; exact hcur, fun _ _ => h3, by simp⟩
  | sendKept =>
    simp only [exec]
    split
    · cases hs : sendSlots s bulk (((s.bufs[r.buf]?).getD []).take r.pos) with
      | none => exact ⟨hsize, hcur, fun _ _ => rfl, by simp⟩
      | some s' =>
        obtain ⟨h1, h2, h3, -, -⟩ := sendSlots_kept hs
        exact ⟨by rw [h1]; exact hsize, by rw [h1, h2]; exact hcur, fun _ _ => h3, by simp⟩
    · exact ⟨hsize, hcur, fun _ _ => rfl, by simp⟩
  | bumpPos => exact ⟨hsize, hcur, fun h => absurd rfl h, by simp⟩
  | zeroPos => exact ⟨hsize, hcur, fun _ h => absurd rfl h, fun _ => rfl⟩
  | _ => exact ⟨hsize, hcur, fun _ _ => rfl, by simp⟩

theorem Roomy.fire {keep : Nat} {bulk : Int} (hk : 1 ≤ keep) {s : State} (h : Roomy keep s) (i : Nat) :
    Roomy keep (s.fire keep bulk i) := by
  unfold State.fire
  cases hg : s.gors[i]? with
  | none => exact h
  | some g =>
    have hi : i < s.gors.length := (List.getElem?_eq_some_iff.1 hg).1
    have hgm := List.mem_of_getElem? hg
    have hself : ∀ g', g' ∈ s.gors.set i g' := fun g' => List.mem_set hi g'
    have hother : ∀ g' g'', g'' ∈ s.gors → g'' ≠ g → g'' ∈ s.gors.set i g' := by
      intro g' g'' hm hne
      obtain ⟨j, hj⟩ := List.mem_iff_getElem?.1 hm
      have hji : j ≠ i := by
        rintro rfl
        rw [hg] at hj
        exact hne (Option.some.inj hj).symm
      refine List.mem_iff_getElem?.2 ⟨j, ?_⟩
      rw [List.getElem?_set_ne (Ne.symm hji)]; exact hj
    -- what is needed of the goroutine's step
    suffices hh : (∀ b ∈ (g.step keep bulk s.shared).1.bufs, b.length = keep) ∧
        (g.step keep bulk s.shared).1.cur < (g.step keep bulk s.shared).1.bufs.length ∧
        Shaped (g.step keep bulk s.shared).2.code ∧
        (keep ≤ (g.step keep bulk s.shared).1.pos →
          Clearing keep (g.step keep bulk s.shared).2 ∨ (keep ≤ s.shared.pos ∧ ¬ Clearing keep g)) by
      refine ⟨hh.1, hh.2.1, ?_, ?_⟩
      · intro g' hg'
        rcases List.mem_or_eq_of_mem_set hg' with hg' | rfl
        · exact h.shape g' hg'
        · exact hh.2.2.1
      · intro hf
        rcases hh.2.2.2 hf with hc | ⟨hp, hn⟩
        · exact ⟨_, hself _, hc⟩
        · obtain ⟨g', hg', hc'⟩ := h.full hp
          exact ⟨g', hother _ g' hg' (by rintro rfl; exact hn hc'), hc'⟩
    have hshape := h.shape g hgm
    obtain ⟨code, r, todo⟩ := g
    cases code with
    | nil =>
      have hn : ∀ r todo, ¬ Clearing keep ⟨[], r, todo⟩ := by intro r todo; simp [Clearing, afterStore]
      cases todo with
      | nil => exact ⟨h.size, h.cur, trivial, fun hp => .inr ⟨hp, hn _ _⟩⟩
      | cons op todo =>
        cases op with
        | push st => exact ⟨h.size, h.cur, by simp [Gor.step, beginCall, pushCode, Shaped], fun hp => .inr ⟨hp, hn _ _⟩⟩
        | add st =>
          exact ⟨h.size, h.cur, by simp [Gor.step, beginCall, addCode, processCode, afterStore, Shaped],
            fun hp => .inr ⟨hp, hn _ _⟩⟩
        | pop ptr =>
          simp only [Gor.step, beginCall]
          split
          · exact ⟨h.size, h.cur, by simp [popCode, processCode, afterStore, Shaped], fun hp => .inr ⟨hp, hn _ _⟩⟩
          · exact ⟨h.size, h.cur, trivial, fun hp => .inr ⟨hp, hn _ _⟩⟩
        | close ok => exact ⟨h.size, h.cur, by simp [Gor.step, beginCall, closeCode, Shaped], fun hp => .inr ⟨hp, hn _ _⟩⟩
    | cons a code =>
      obtain ⟨h1, h2, h3, h4⟩ := exec_room (bulk := bulk) (r := r) a hk h.size h.cur
      have hbl := buf_length h.size h.cur
      have htail := hshape.tail
      -- the goroutine's step keeps it on the way to clearing
      have hclear : Clearing keep ⟨a :: code, r, todo⟩ → keep ≤ s.shared.pos →
          a = .zeroPos ∨ Clearing keep (Gor.step keep bulk s.shared ⟨a :: code, r, todo⟩).2 := by
        intro hc hp
        simp only [Clearing, afterStore, List.drop_succ_cons, List.drop_zero, List.cons.injEq] at hc
        rcases hc with ⟨rfl, rfl⟩ | ⟨⟨rfl, rfl⟩, hpos⟩ | ⟨rfl, rfl⟩ | ⟨rfl, rfl⟩ | ⟨rfl, rfl⟩
        · right; right; left
          exact ⟨rfl, hp⟩
        · right; right; right; left
          simp only [Gor.step, exec, hbl]
          rw [if_pos hpos]; rfl
        · right; right; right; right; left; rfl
        · right; right; right; right; right
          simp only [Gor.step, exec]
          rw [if_neg (by omega)]; rfl
        · left; rfl
      have hbump : a = .bumpPos → Clearing keep (Gor.step keep bulk s.shared ⟨a :: code, r, todo⟩).2 := by
        rintro rfl
        left
        exact hshape.1
      have hfull : keep ≤ (Gor.step keep bulk s.shared ⟨a :: code, r, todo⟩).1.pos →
          (Gor.step keep bulk s.shared ⟨a :: code, r, todo⟩).1.pos = (exec keep bulk s.shared r a).1.pos →
          Clearing keep (Gor.step keep bulk s.shared ⟨a :: code, r, todo⟩).2 ∨
            (keep ≤ s.shared.pos ∧ ¬ Clearing keep ⟨a :: code, r, todo⟩) := by
        intro hf he
        by_cases hb : a = .bumpPos
        · exact .inl (hbump hb)
        · by_cases hz : a = .zeroPos
          · rw [he, h4 hz] at hf; omega
          · rw [he, h3 hb hz] at hf
            by_cases hc : Clearing keep ⟨a :: code, r, todo⟩
            · exact .inl ((hclear hc hf).resolve_left hz)
            · exact .inr ⟨hf, hc⟩
      rcases he : exec keep bulk s.shared r a with ⟨s', r', n⟩
      simp only [Gor.step, he] at hfull h1 h2 ⊢
      cases n with
      | goOn => exact ⟨h1, h2, htail, fun hf => hfull hf rfl⟩
      | finished => exact ⟨h1, h2, trivial, fun hf => hfull hf rfl⟩
      | panicked => exact ⟨h1, h2, trivial, fun hf => hfull hf rfl⟩

theorem Roomy.start {keep : Nat} (hk : 1 ≤ keep) (todos : List (List ProfOp)) : Roomy keep (State.start keep todos) := by
  refine ⟨?_, by simp [State.start], ?_, ?_⟩
  · intro b hb
    simp only [State.start, List.mem_singleton] at hb
    subst hb; simp
  · intro g hg
    simp only [State.start, List.mem_map] at hg
    obtain ⟨t, -, rfl⟩ := hg
    trivial
  · intro h
    have : (State.start keep todos).shared.pos = 0 := rfl
    omega

theorem Roomy.run {keep : Nat} {bulk : Int} (hk : 1 ≤ keep) {s : State} (h : Roomy keep s) (is : List Nat) :
    Roomy keep (s.run keep bulk is) := by
  induction is generalizing s with
  | nil => exact h
  | cons i is ih => exact ih (h.fire hk i)

/-- **The race does no lasting damage to the buffer**: whatever the schedule was, once nobody is inside a call there is a free slot. -/
theorem C86_room_afterwards (keep : Nat) (hk : 1 ≤ keep) (bulk : Int) (todos : List (List ProfOp)) (is : List Nat)
    (hi : ((State.start keep todos).run keep bulk is).idle) :
    let s := ((State.start keep todos).run keep bulk is).shared
    ∃ b, s.bufs[s.cur]? = some b ∧ s.pos < b.length := by
  have h := (Roomy.start hk todos).run (bulk := bulk) hk is
  refine ⟨_, List.getElem?_eq_getElem h.cur, ?_⟩
  rw [h.size _ (List.getElem_mem _)]
  by_contra hc
  obtain ⟨g, hg, hcl⟩ := h.full (by omega)
  have := hi g hg
  simp [Clearing, this, afterStore] at hcl

/-! ## After a race: one call after the other loses nothing more -/

/-- The steps waiting in the buffer. -/
def waiting (s : Shared) : List Nat := (((s.bufs[s.cur]?).getD []).take s.pos).filterMap id

/-- Between calls: a free slot, `n` panics so far; as long as only recording calls are made (`ok`), everything recorded since `rec`
follows what was sent or waiting at that time. -/
structure After (keep n : Nat) (rec base : List Nat) (s : Shared) (ok : Bool) : Prop where
  size : ∀ b ∈ s.bufs, b.length = keep
  cur : s.cur < s.bufs.length
  room : s.pos < keep
  panics : s.panics = n
  all : ok = true → ∃ new, s.recorded = rec ++ new ∧ s.packets.flatten ++ waiting s = base ++ new

theorem flatten_filterMap (ps : List (List (Option Nat))) : (ps.map (·.filterMap id)).flatten = ps.flatten.filterMap id := by
  induction ps with
  | nil => rfl
  | cons p ps ih => rw [List.map_cons, List.flatten_cons, List.flatten_cons, List.filterMap_append, ih]

theorem After.congr {keep n : Nat} {rec base : List Nat} {s s' : Shared} {ok : Bool} (h : After keep n rec base s ok)
    (h1 : s'.bufs = s.bufs) (h2 : s'.cur = s.cur) (h3 : s'.pos = s.pos) (h4 : s'.panics = s.panics)
    (h5 : s'.recorded = s.recorded) (h6 : s'.packets = s.packets) : After keep n rec base s' ok := by
  obtain ⟨a, b, c, d, e⟩ := h
  refine ⟨by rw [h1]; exact a, by rw [h1, h2]; exact b, by rw [h3]; exact c, by rw [h4]; exact d, ?_⟩
  unfold waiting at e ⊢
  rw [h1, h2, h3, h5, h6]; exact e

theorem After.process {keep n : Nat} {rec base : List Nat} {s : Shared} {ok : Bool} (hk : 1 ≤ keep) {bulk : Int} (hb : 1 ≤ bulk)
    (h : After keep n rec base s ok) (r : Regs) : After keep n rec base (runCode keep bulk processCode s r) ok := by
  obtain ⟨hsize, hcur, hroom, hpan, hall⟩ := h
  obtain ⟨b, hb1⟩ : ∃ b, s.bufs[s.cur]? = some b := ⟨_, List.getElem?_eq_getElem hcur⟩
  have hbl : b.length = keep := hsize b (List.mem_of_getElem? hb1)
  have hmod : (s.bufs.modify s.cur (·.set s.pos (some r.me)))[s.cur]? = some (b.set s.pos (some r.me)) := by
    rw [List.getElem?_modify]; simp [hb1]
  have hmodlen : (s.bufs.modify s.cur (·.set s.pos (some r.me))).length = s.bufs.length := List.length_modify ..
  have hsize' : ∀ b' ∈ s.bufs.modify s.cur (·.set s.pos (some r.me)), b'.length = keep := by
    have := (exec_room (bulk := bulk) (r := { r with buf := s.cur, pos := s.pos }) .store hk hsize hcur).1
    simp only [exec, hb1, Option.getD_some] at this
    rw [if_pos (by omega)] at this
    exact this
  have hw : waiting s = (b.take s.pos).filterMap id := by unfold waiting; rw [hb1]; rfl
  simp only [processCode, afterStore, List.cons_append, List.nil_append, runCode, exec, hb1, Option.getD_some]
  rw [if_pos (by omega)]
  generalize hB : s.bufs.modify s.cur (·.set s.pos (some r.me)) = B at hmod hmodlen hsize'
  simp only [hmod, Option.getD_some, List.length_set]
  have hkeep : ((b.set s.pos (some r.me)).take (s.pos + 1)).filterMap id = waiting s ++ [r.me] := by
    rw [List.take_succ, List.take_set_of_le (Nat.le_refl _), hw]
    simp [hbl, hroom]
  generalize waiting s = W at hkeep hall
  by_cases hfull : s.pos + 1 < b.length
  · rw [if_neg (by omega)]
    refine ⟨hsize', by simp only; omega, by simp only; omega, hpan, fun ho => ?_⟩
    obtain ⟨new, h1, h2⟩ := hall ho
    refine ⟨new ++ [r.me], by simp [h1], ?_⟩
    simp only [waiting, hmod, Option.getD_some, hkeep]
    rw [← List.append_assoc, h2, List.append_assoc]
  · rw [if_pos (by omega)]
    simp only
    rw [if_neg (by omega)]
    have hget : (B ++ [List.replicate (keep : Int).toNat none])[s.cur]? = some (b.set s.pos (some r.me)) := by
      rw [List.getElem?_append_left (by omega)]; exact hmod
    simp only [hget, Option.getD_some]
    obtain ⟨ps, hps, hfl, -⟩ := C34_slices (b.set s.pos (some r.me)) bulk hb
    simp only [sendSlots, hps, Option.map_some]
    refine ⟨?_, by simp, by simp only; omega, hpan, fun ho => ?_⟩
    · intro b' hb'
      rcases List.mem_append.1 hb' with hb' | hb'
      · exact hsize' b' hb'
      · rw [List.mem_singleton] at hb'; subst hb'; simp
    · obtain ⟨new, h1, h2⟩ := hall ho
      refine ⟨new ++ [r.me], by simp [h1], ?_⟩
      have ht : (b.set s.pos (some r.me)).take (s.pos + 1) = b.set s.pos (some r.me) :=
        List.take_of_length_le (by simp; omega)
      rw [ht] at hkeep
      simp only [waiting, List.take_zero, List.filterMap_nil, List.append_nil, List.flatten_append, flatten_filterMap, hfl, hkeep]
      rw [← List.append_assoc, h2, List.append_assoc]

theorem After.call {keep n : Nat} {rec base : List Nat} (hk : 1 ≤ keep) {bulk : Int} (hb : 1 ≤ bulk) (s : Shared) (g : Gor) (op : ProfOp)
    (ok : Bool) (hc : g.code = []) (h : After keep n rec base s ok) :
    After keep n rec base (runCode keep bulk (beginCall s g op).2.code (beginCall s g op).1 (beginCall s g op).2.regs)
      (ok && op.recording) := by
  cases op with
  | push st =>
    simp only [beginCall, pushCode, runCode, exec, ProfOp.recording, Bool.and_true]
    exact ⟨h.size, h.cur, h.room, h.panics, h.all⟩
  | add st =>
    simp only [beginCall, addCode, List.cons_append, List.nil_append, runCode, exec, ProfOp.recording, Bool.and_true]
    refine After.process hk hb ?_ _
    exact h.congr rfl rfl rfl rfl rfl rfl
  | pop ptr =>
    simp only [beginCall, ProfOp.recording, Bool.and_true]
    split
    · simp only [popCode, runCode, exec]
      refine After.process hk hb ?_ _
      exact h.congr rfl rfl rfl rfl rfl rfl
    · simp only [hc, runCode]; exact h
  | close ok' =>
    simp only [beginCall, closeCode, runCode, exec, ProfOp.recording, Bool.and_false]
    by_cases ho : 0 < s.pos ∧ ok' = true
    · rw [if_pos ho]
      simp only
      have hbl := buf_length h.size h.cur
      have hroom := h.room
      rw [if_pos (by omega)]
      obtain ⟨ps, hps, hfl, -⟩ := C34_slices (((s.bufs[s.cur]?).getD []).take s.pos) bulk hb
      simp only [sendSlots, hps, Option.map_some]
      exact ⟨h.size, h.cur, h.room, h.panics, by simp⟩
    · rw [if_neg ho]
      exact ⟨h.size, h.cur, h.room, h.panics, by simp⟩

theorem after_race (keep : Nat) (hk : 1 ≤ keep) (bulk : Int) (hb : 1 ≤ bulk) (todos : List (List ProfOp)) (race turns : List Nat)
    (hi : ((State.start keep todos).run keep bulk race).idle)
    (ht : Turns keep bulk ((State.start keep todos).run keep bulk race) turns)
    (hi' : ((State.start keep todos).run keep bulk (race ++ turns)).idle) :
    let s := ((State.start keep todos).run keep bulk race)
    let s' := ((State.start keep todos).run keep bulk (race ++ turns))
    After keep s.shared.panics s.shared.recorded (s.shared.packets.flatten ++ waiting s.shared) s'.shared
      ((callsMade keep bulk s turns).all (·.recording)) := by
  intro s s'
  have hr := (Roomy.start hk todos).run (bulk := bulk) hk race
  have hs' : s' = s.run keep bulk turns := run_append ..
  have hroom : s.shared.pos < keep := by
    by_contra hc
    obtain ⟨g, hg, hcl⟩ := hr.full (by show keep ≤ s.shared.pos; omega)
    have := hi g hg
    simp [Clearing, this, afterStore] at hcl
  have := turns_sim keep bulk (After keep s.shared.panics s.shared.recorded (s.shared.packets.flatten ++ waiting s.shared))
    (fun ok op => ok && op.recording) (fun s g op a => After.call hk hb s g op a) turns s true none
    ⟨hi, hr.size, hr.cur, hroom, rfl, fun _ => ⟨[], by simp, by simp⟩⟩ ht (by rw [← hs']; exact hi')
  rw [hs']
  have hfold : ∀ (l : List ProfOp) (a : Bool), l.foldl (fun ok op => ok && op.recording) a = (a && l.all (·.recording)) := by
    intro l
    induction l with
    | nil => intro a; simp
    | cons c l ih => intro a; simp [ih, Bool.and_assoc]
  rw [hfold, Bool.true_and] at this
  exact this

/-- **No call panics after a race**: once the racing calls have returned, calls made one after the other (recording or closing) do not
panic. -/
theorem C86_no_panic_afterwards (keep : Nat) (hk : 1 ≤ keep) (bulk : Int) (hb : 1 ≤ bulk) (todos : List (List ProfOp))
    (race turns : List Nat) (hi : ((State.start keep todos).run keep bulk race).idle)
    (ht : Turns keep bulk ((State.start keep todos).run keep bulk race) turns)
    (hi' : ((State.start keep todos).run keep bulk (race ++ turns)).idle) :
    ((State.start keep todos).run keep bulk (race ++ turns)).shared.panics =
      ((State.start keep todos).run keep bulk race).shared.panics :=
  (after_race keep hk bulk hb todos race turns hi ht hi').panics

/-- **Nothing more is lost after a race**: the steps recorded from then on, one call after the other, all follow in order what had been
sent or was waiting. -/
theorem C86_complete_afterwards (keep : Nat) (hk : 1 ≤ keep) (bulk : Int) (hb : 1 ≤ bulk) (todos : List (List ProfOp))
    (race turns : List Nat) (hi : ((State.start keep todos).run keep bulk race).idle)
    (ht : Turns keep bulk ((State.start keep todos).run keep bulk race) turns)
    (hi' : ((State.start keep todos).run keep bulk (race ++ turns)).idle)
    (hrec : ∀ c ∈ callsMade keep bulk ((State.start keep todos).run keep bulk race) turns, c.recording = true) :
    let s := ((State.start keep todos).run keep bulk race).shared
    let s' := ((State.start keep todos).run keep bulk (race ++ turns)).shared
    ∃ new, s'.recorded = s.recorded ++ new ∧
      s'.packets.flatten ++ waiting s' = s.packets.flatten ++ waiting s ++ new :=
  (after_race keep hk bulk hb todos race turns hi ht hi').all (by simpa using hrec)

/-! ## What the log counts -/

theorem sendSlots_count {bulk : Int} (hb : 1 ≤ bulk) {s t : Shared} {o : List (Option Nat)} (h : s.packets.flatten.length ≤ s.counted)
    (hs : sendSlots s bulk o = some t) : t.packets.flatten.length ≤ t.counted := by
  obtain ⟨ps, h1, h2, -⟩ := C34_slices o bulk hb
  unfold sendSlots at hs
  rw [h1] at hs
  simp only [Option.map_some, Option.some.injEq] at hs
  subst hs
  simp only [List.flatten_append, List.length_append, flatten_filterMap, h2]
  have := List.length_filterMap_le id o
  omega

theorem exec_count {keep bulk : Int} (hb : 1 ≤ bulk) {s : Shared} (r : Regs) (i : Instr) (h : s.packets.flatten.length ≤ s.counted) :
    (exec keep bulk s r i).1.packets.flatten.length ≤ (exec keep bulk s r i).1.counted := by
  cases i <;> simp only [exec] <;> try exact h
  · split <;> exact h
  · split <;> exact h
  · split
    · next hs => exact sendSlots_count hb h hs
    · exact h
  · split
    · split
      · next hs => exact sendSlots_count hb h hs
      · exact h
    · exact h

/-- **The log never counts fewer steps than were sent**, in any schedule: each slot sent is counted, filled or not. -/
theorem C86_count_covers_what_was_sent (keep bulk : Int) (hb : 1 ≤ bulk) (todos : List (List ProfOp)) (is : List Nat) :
    ((State.start keep todos).run keep bulk is).shared.packets.flatten.length ≤ ((State.start keep todos).run keep bulk is).shared.counted := by
  suffices h : ∀ (is : List Nat) (s : State), s.shared.packets.flatten.length ≤ s.shared.counted →
      (s.run keep bulk is).shared.packets.flatten.length ≤ (s.run keep bulk is).shared.counted from h is _ (Nat.le_refl _)
  intro is
  induction is with
  | nil => intro s h; exact h
  | cons i is ih =>
    intro s h
    refine ih _ ?_
    unfold State.fire
    split
    · exact h
    · rename_i g _
      unfold Gor.step
      split
      · split
        · exact h
        · rename_i op _ _
          cases op <;> simp only [beginCall] <;> try exact h
          split <;> exact h
      · rename_i i' code _
        have := exec_count (keep := keep) hb g.regs i' h
        split <;> (rename_i he; rw [he] at this; exact this)

/-! ## What a race can do -/

theorem modify_twice (l : List (List (Option Nat))) (i j : Nat) (x y : Option Nat) :
    (l.modify i (·.set j x)).modify i (·.set j y) = l.modify i (·.set j y) := by
  rw [List.modify_modify_eq]
  congr 1
  funext b
  simp

/-- Two goroutines about to record one step each.  -/
def pair (s : Shared) (x y : Step) : State := ⟨s, [{ todo := [.add x] }, { todo := [.add y] }]⟩

/-- **A race can lose a step**: wherever the profile stands (with room for three more steps), two goroutines that record one step each
can run so that both calls return normally and the first step is nowhere: not sent, not in any buffer. -/
theorem C86_a_step_can_be_lost (keep bulk : Int) (s : Shared) (b : List (Option Nat)) (hb : s.bufs[s.cur]? = some b)
    (hl : s.pos + 2 < b.length) (hnew : ∀ b ∈ s.bufs, some s.heap.length ∉ b) (x y : Step) :
    ∃ is : List Nat, let t := (pair s x y).run keep bulk is
      t.quiet ∧ t.shared.recorded = s.recorded ++ [s.heap.length, s.heap.length + 1] ∧ t.shared.packets = s.packets ∧
      (∀ b ∈ t.shared.bufs, some s.heap.length ∉ b) ∧ t.shared.pos = s.pos + 2 ∧ t.shared.panics = s.panics := by
  refine ⟨List.replicate 7 0 ++ List.replicate 7 1 ++ List.replicate 5 0 ++ List.replicate 5 1, ?_⟩
  have h1 : s.pos < b.length := by omega
  have h3 : ¬ b.length ≤ s.pos + 1 := by omega
  have h4 : ¬ b.length ≤ s.pos + 2 := by omega
  simp [pair, List.replicate, State.run, State.fire, Gor.step, beginCall, addCode, processCode, afterStore, exec, hb, h1, h3, h4,
    State.quiet, modify_twice]
  intro b' hb'
  obtain ⟨j, hj⟩ := List.mem_iff_getElem?.1 hb'
  rw [List.getElem?_modify] at hj
  cases hbj : s.bufs[j]? with
  | none => simp [hbj] at hj
  | some c =>
    rw [hbj] at hj
    have hc := hnew c (List.mem_of_getElem? hbj)
    simp only [Option.map_eq_map, Option.map_some, Option.some.injEq] at hj
    subst hj
    split
    · intro hm
      rcases List.mem_or_eq_of_mem_set hm with hm | hm
      · exact hc hm
      · simp at hm
    · exact hc

end Recorders

namespace Demo
open Recorders

/-- A message step. -/
def recStep (n : BitVec 32) : Step := ⟨⟨0, 0, n⟩, .hashed n 0 0⟩

/-- Two goroutines that record one step each on a new profile of `keep` slots. -/
def recPair (keep : Int) : State := State.start keep [[.add (recStep 1)], [.add (recStep 2)]]

/-- Both goroutines notice the full buffer. -/
def recTwice : List Nat :=
  List.replicate 10 0 ++ List.replicate 10 1 ++ [0, 1, 0, 1] ++ [0, 1] ++ List.replicate 4 0 ++ List.replicate 4 1

/-- A goroutine records while the other one is about to replace the full buffer. -/
def recBetween : List Nat := List.replicate 10 0 ++ List.replicate 10 1 ++ List.replicate 8 0

/-- Both goroutines read the same level. -/
def recSame : List Nat := [0, 0, 1, 1] ++ List.replicate 15 0 ++ List.replicate 15 1

/-- Two goroutines record while a third one closes the profile. -/
def recClosing : State := State.start 1 [[.add (recStep 1)], [.add (recStep 2)], [.close true]]

/-- The schedule that leads to the end of `Close`. -/
def recUntilClose : List Nat := List.replicate 8 0 ++ List.replicate 8 1 ++ [0, 0] ++ [1, 1] ++ List.replicate 5 2

end Demo

namespace Recorders
open Demo

/-- **A race can send steps twice**: both goroutines see the full buffer and send it. -/
theorem C86_steps_can_be_sent_twice : ∃ is, ((recPair 2).run 2 10 is).shared.packets = [[0, 1], [0, 1]] ∧
    ((recPair 2).run 2 10 is).shared.recorded = [0, 1] ∧ ((recPair 2).run 2 10 is).shared.panics = 0 :=
  ⟨recTwice, by decide +kernel⟩

/-- **A race can make a recording call panic** (index out of range; the API function catches it, sends an alert, and the step is lost). -/
theorem C86_a_call_can_panic : ∃ is, ((recPair 1).run 1 10 is).shared.panics = 1 ∧
    ((recPair 1).run 1 10 is).shared.packets = [[0]] ∧ ((recPair 1).run 1 10 is).shared.recorded = [0, 1] :=
  ⟨recBetween, by decide +kernel⟩

/-- **A race can give two steps the same number.** -/
theorem C86_same_number : ∃ is, ((recPair 4).run 4 10 is).shared.heap.map (·.ss.index) = [0, 0] ∧
    ((recPair 4).run 4 10 is).shared.recorded = [0, 1] :=
  ⟨recSame, by decide +kernel⟩

/-- **Closing during a race can panic**: the next step of the closing goroutine slices beyond the end of the buffer, nothing is sent, and
what the end of the service does after `Close` (its counters and its log) does not happen. -/
theorem C86_close_can_panic : ∃ is, let t := recClosing.run 1 10 is
    (t.gors[2]?.map (·.code)) = some [.sendKept] ∧ t.shared.panics = 0 ∧ (t.fire 1 10 2).shared.panics = 1 ∧
      (t.fire 1 10 2).shared.packets = [] :=
  ⟨recUntilClose, by decide +kernel⟩

/-- A check for `Turns`. -/
def turnsCheck (keep bulk : Int) (s : State) : List Nat → Bool
  | [] => true
  | i :: is => (List.range s.gors.length).all (fun j => j == i || ((s.gors[j]?.map (·.code)).getD []).isEmpty) &&
      turnsCheck keep bulk (s.fire keep bulk i) is

theorem turns_of_check (keep bulk : Int) : ∀ (is : List Nat) (s : State), turnsCheck keep bulk s is = true → Turns keep bulk s is := by
  intro is
  induction is with
  | nil => intro s _ pre i post h; simp at h
  | cons a is ih =>
    intro s h pre i post he j g hj hg
    simp only [turnsCheck, Bool.and_eq_true, List.all_eq_true, List.mem_range] at h
    cases pre with
    | nil =>
      simp only [List.nil_append, List.cons.injEq] at he
      obtain ⟨rfl, rfl⟩ := he
      have hlt : j < s.gors.length := (List.getElem?_eq_some_iff.1 hg).1
      have := h.1 j hlt
      have hg : s.gors[j]? = some g := hg
      simp only [hg, Bool.or_eq_true, beq_iff_eq, hj, false_or] at this
      simpa using this
    | cons b pre =>
      simp only [List.cons_append, List.cons.injEq] at he
      obtain ⟨rfl, rfl⟩ := he
      exact ih _ h.2 pre i post rfl j g hj hg

/-- Non-vacuity of C86_taking_turns: the goroutines record and close in turn. -/
example : Turns 4 10 (recPair 4) (List.replicate 12 0 ++ List.replicate 12 1) ∧
    ((recPair 4).run 4 10 (List.replicate 12 0 ++ List.replicate 12 1)).idle ∧
    callsMade 4 10 (recPair 4) (List.replicate 12 0 ++ List.replicate 12 1) = [.add (recStep 1), .add (recStep 2)] :=
  ⟨turns_of_check _ _ _ _ (by decide +kernel), by unfold State.idle; decide +kernel, rfl⟩

/-- Non-vacuity of the theorems about what happens after a race: the race that sends twice ends with nobody inside a call. -/
example : ((recPair 2).run 2 10 recTwice).quiet := by unfold State.quiet; decide +kernel

end Recorders
end Scouter
