import Verif.Spec.Counting
import Verif.Props.Iterating
import Mathlib.Data.List.Nodup
import Mathlib.Data.List.Perm.Subperm
/-!
# C115: counting the active services while services start and end
-/
namespace Scouter
namespace Counting
open Iterating

/-! ## The loop -/

theorem look_get (f : Figures) (now : Int) (s : Settings) (e : Entry) (c : Colour) :
    (f.look now s e).get c = f.get c + if s.colour (age now e) = c then 1 else 0 := by
  unfold Figures.look
  have h : Trace.activeElapsed now e.2 = age now e := rfl
  simp only [h, Settings.colour]
  by_cases h1 : age now e ≤ s.yellow
  · by_cases h3 : age now e > s.stuck <;> cases c <;> simp [h1, h3, Figures.get]
  · by_cases h2 : age now e ≤ s.red <;> by_cases h3 : age now e > s.stuck <;> cases c <;> simp [h1, h2, h3, Figures.get]

theorem look_stuck (f : Figures) (now : Int) (s : Settings) (e : Entry) :
    (f.look now s e).stuck = f.stuck ++ if s.stuck < age now e then [e.1] else [] := by
  unfold Figures.look
  have h : Trace.activeElapsed now e.2 = age now e := rfl
  simp only [h]
  by_cases h1 : age now e ≤ s.yellow
  · by_cases h3 : age now e > s.stuck <;> simp [h1, h3]
  · by_cases h2 : age now e ≤ s.red <;> by_cases h3 : age now e > s.stuck <;> simp [h1, h2, h3]

/-- How many of the listed services have a colour, with what was read of the settings for each. -/
def coloured (now : Int) (settings : Nat → Settings) (c : Colour) : List Entry → Nat → Nat
  | [], _ => 0
  | e :: es, i => (if (settings i).colour (age now e) = c then 1 else 0) + coloured now settings c es (i + 1)

/-- The ids of those that have been running for longer than the stuck time. -/
def older (now : Int) (settings : Nat → Settings) : List Entry → Nat → List (BitVec 64)
  | [], _ => []
  | e :: es, i => (if (settings i).stuck < age now e then [e.1] else []) ++ older now settings es (i + 1)

theorem loop_get (now : Int) (settings : Nat → Settings) (c : Colour) (es : List Entry) : ∀ (i : Nat) (f : Figures), i ≤ 2000 →
    (loop now settings es i f).get c = f.get c + coloured now settings c (es.take (2000 - i)) i := by
  induction es with
  | nil => intro i f _; simp [loop, coloured]
  | cons e es ih =>
    intro i f hi
    unfold loop
    split
    · have : i = 2000 := by omega
      subst this
      simp [coloured]
    · rw [ih (i + 1) _ (by omega), look_get, show 2000 - i = (2000 - (i + 1)) + 1 by omega, List.take_succ_cons]
      simp only [coloured]; omega

theorem loop_stuck (now : Int) (settings : Nat → Settings) (es : List Entry) : ∀ (i : Nat) (f : Figures), i ≤ 2000 →
    (loop now settings es i f).stuck = f.stuck ++ older now settings (es.take (2000 - i)) i := by
  induction es with
  | nil => intro i f _; simp [loop, older]
  | cons e es ih =>
    intro i f hi
    unfold loop
    split
    · have : i = 2000 := by omega
      subst this
      simp [older]
    · rw [ih (i + 1) _ (by omega), look_stuck, show 2000 - i = (2000 - (i + 1)) + 1 by omega, List.take_succ_cons]
      simp only [older, List.append_assoc]

theorem count_get (now : Int) (settings : Nat → Settings) (c : Colour) (es : List Entry) :
    (count now settings es).get c = coloured now settings c (es.take 2000) 0 := by
  rw [count, loop_get _ _ _ _ _ _ (by omega)]
  cases c <;> simp [Figures.get]

theorem count_stuck (now : Int) (settings : Nat → Settings) (es : List Entry) :
    (count now settings es).stuck = older now settings (es.take 2000) 0 := by
  rw [count, loop_stuck _ _ _ _ _ (by omega)]
  rfl

theorem coloured_const (now : Int) (s : Settings) (c : Colour) (es : List Entry) (i : Nat) :
    coloured now (fun _ => s) c es i = es.countP fun e => s.colour (age now e) = c := by
  induction es generalizing i with
  | nil => rfl
  | cons e es ih =>
    rw [coloured, ih, List.countP_cons]
    simp only [decide_eq_true_eq]
    omega

theorem older_const (now : Int) (s : Settings) (es : List Entry) (i : Nat) :
    older now (fun _ => s) es i = (es.filter fun e => s.stuck < age now e).map (·.1) := by
  induction es generalizing i with
  | nil => rfl
  | cons e es ih =>
    rw [older, ih, List.filter_cons]
    by_cases h : s.stuck < age now e <;> simp [h]

theorem coloured_total (now : Int) (settings : Nat → Settings) (es : List Entry) (i : Nat) :
    coloured now settings .green es i + coloured now settings .yellow es i + coloured now settings .red es i = es.length := by
  induction es generalizing i with
  | nil => rfl
  | cons e es ih =>
    have := ih (i + 1)
    simp only [coloured, List.length_cons]
    cases (settings i).colour (age now e) <;> simp <;> omega

theorem count_total (now : Int) (settings : Nat → Settings) (es : List Entry) : (count now settings es).total = min 2000 es.length := by
  have h := coloured_total now settings (es.take 2000) 0
  rw [← count_get, ← count_get, ← count_get, List.length_take] at h
  exact h

/-! ## Who is listed -/

theorem insertions_le (k : BitVec 64) (s : State (BitVec 64) Int) (es : List (Event (BitVec 64) Int)) : insertions k s es ≤ (started es).count k := by
  induction es generalizing s with
  | nil => exact Nat.le_refl _
  | cons e es ih =>
    have h := ih (s.fire e)
    unfold insertions
    cases e with
    | write w =>
      cases w with
      | add k' v =>
        simp only [inserts, started, List.count_cons]
        by_cases hk : k' = k
        · subst hk
          simp only [beq_self_eq_true, if_true]
          split <;> omega
        · rw [if_neg (fun e => hk e.1)]
          omega
      | _ => simpa [inserts, started] using h
    | _ => simpa [inserts, started] using h

variable {max : Int} {n : Nat} {pre es : List (Event (BitVec 64) Int)} {i : Nat} {it : Iter (BitVec 64) Int}

/-- The ids of the services started during the call are new: each is used once and none is in the table already. -/
structure FreshIds (max : Int) (n : Nat) (pre es : List (Event (BitVec 64) Int)) (i : Nat) : Prop where
  once : (started es).Nodup
  new : ∀ k ∈ started es, (cacheAt max n pre i []).contains k = false

theorem listed_nodup (hc : Calls max n pre i es it) (hf : FreshIds max n pre es i) : (it.out.map (·.1)).Nodup := by
  rw [List.nodup_iff_count_le_one]
  intro k
  have h := C89_at_most_once_per_entry max n pre es i it hc k
  have h2 := insertions_le k ((State.start max n : State (BitVec 64) Int).run (pre ++ [.begin i])) es
  have h3 := List.nodup_iff_count_le_one.mp hf.once k
  by_cases hk : k ∈ started es
  · rw [hf.new k hk] at h
    simp only [Bool.false_eq_true, if_false] at h
    omega
  · rw [List.count_eq_zero.mpr hk] at h2
    split at h <;> omega

theorem stays_mem (hc : Calls max n pre i es it) (hd : it.pc = .done) {k : BitVec 64} {v : Int}
    (hk : ∀ m, m <+: es → (cacheAt max n pre i m).get k = some v) : (k, v) ∈ it.out := by
  have h := C89_who_stays_is_listed_once max n pre es i it hc hd k fun m hm => ⟨v, hk m hm⟩
  have hmem : k ∈ it.out.map (·.1) := by
    rw [← List.count_pos_iff, h]; omega
  obtain ⟨⟨k', v'⟩, hm, rfl⟩ := List.mem_map.mp hmem
  obtain ⟨m, hm', hg⟩ := C89_only_what_was_there max n pre es i it hc _ _ hm
  rw [hk m hm'] at hg
  injection hg with hg
  rw [hg]; exact hm

theorem contains_key {c : Cache (BitVec 64) Int} (h : c.Inv) {k : BitVec 64} (hk : c.contains k = true) : k ∈ c.lst.map (·.key) := by
  rw [h.contains_eq] at hk
  obtain ⟨v, hv⟩ := Option.isSome_iff_exists.mp hk
  have : (k, v) ∈ c.abs := mem_of_lookup hv
  simp only [Cache.abs, List.mem_map, List.mem_reverse] at this
  obtain ⟨e, he, h'⟩ := this
  exact List.mem_map.mpr ⟨e, he, congrArg Prod.fst h'⟩

theorem listed_from (hc : Calls max n pre i es it) {k : BitVec 64} (hk : k ∈ it.out.map (·.1)) :
    k ∈ (cacheAt max n pre i []).lst.map (·.key) ++ started es := by
  have h := C89_at_most_once_per_entry max n pre es i it hc k
  have h2 := insertions_le k ((State.start max n : State (BitVec 64) Int).run (pre ++ [.begin i])) es
  have h1 := List.count_pos_iff.mpr hk
  rw [List.mem_append]
  by_cases h0 : (cacheAt max n pre i []).contains k = true
  · have hg := (Good.start (K := BitVec 64) (V := Int) max n).run (pre ++ [.begin i])
    exact .inl (contains_key hg.inv h0)
  · rw [if_neg h0] at h
    exact .inr (List.count_pos_iff.mp (by omega))

/-! ## C115 -/

/-- **C115**: whatever services start and end and whatever the settings become while `GetActiveCount` goes through the table, its three figures
together are the number of services listed, at most 2000; listed are no more than there were plus those started meanwhile, and all that run
throughout are among them. -/
theorem C115_total (hc : Calls max n pre i es it) (hd : it.pc = .done) (hf : FreshIds max n pre es i) (now : Int) (settings : Nat → Settings)
    (stay : List Entry) (hn : (stay.map (·.1)).Nodup) (hs : ∀ e ∈ stay, ∀ m, m <+: es → (cacheAt max n pre i m).get e.1 = some e.2) :
    min 2000 stay.length ≤ (count now settings it.out).total ∧
    (count now settings it.out).total ≤ min 2000 ((cacheAt max n pre i []).size + (started es).length) := by
  rw [count_total]
  have h1 : stay.length ≤ it.out.length := by
    have : stay.Subperm it.out := (List.Nodup.of_map _ hn).subperm fun e he => stays_mem hc hd fun m hm => hs e he m hm
    exact this.length_le
  have h2 : it.out.length ≤ (cacheAt max n pre i []).size + (started es).length := by
    have h := ((listed_nodup hc hf).subperm fun k hk => listed_from hc hk).length_le
    simpa [Cache.size] using h
  omega

/-- **C115**: with unchanged settings and at most 2000 services listed, the figure of each colour counts every service of that colour that runs
throughout, and counts nothing but services of that colour that were in the table at some moment of the call, each once. -/
theorem C115_colours (hc : Calls max n pre i es it) (hd : it.pc = .done) (hf : FreshIds max n pre es i) (hl : it.out.length ≤ 2000)
    (now : Int) (s : Settings) (c : Colour) :
    (∀ stay : List Entry, (stay.map (·.1)).Nodup → (∀ e ∈ stay, ∀ m, m <+: es → (cacheAt max n pre i m).get e.1 = some e.2) →
      (stay.countP fun e => s.colour (age now e) = c) ≤ (count now (fun _ => s) it.out).get c) ∧
    ∃ seen : List Entry, (seen.map (·.1)).Nodup ∧ (∀ e ∈ seen, s.colour (age now e) = c ∧ ∃ m, m <+: es ∧ (cacheAt max n pre i m).get e.1 = some e.2) ∧
      (count now (fun _ => s) it.out).get c = seen.length := by
  have hnd := listed_nodup hc hf
  rw [count_get, coloured_const, List.take_of_length_le hl]
  constructor
  · intro stay hn hs
    have : stay.Subperm it.out := (List.Nodup.of_map _ hn).subperm fun e he => stays_mem hc hd fun m hm => hs e he m hm
    exact this.countP_le _
  · refine ⟨it.out.filter fun e => s.colour (age now e) = c, ?_, ?_, List.countP_eq_length_filter⟩
    · exact hnd.sublist ((List.filter_sublist).map _)
    · intro e he
      obtain ⟨h1, h2⟩ := List.mem_filter.mp he
      exact ⟨of_decide_eq_true h2, C89_only_what_was_there max n pre es i it hc e.1 e.2 h1⟩

/-- **C115**: with unchanged settings and at most 2000 services listed, the services found stuck (for which an alert is sent, and which are ended if
that is configured) are different ones, each had been running for longer than the stuck time and was in the table at some moment of the call; and
all such that run throughout are found. -/
theorem C115_stuck (hc : Calls max n pre i es it) (hd : it.pc = .done) (hf : FreshIds max n pre es i) (hl : it.out.length ≤ 2000)
    (now : Int) (s : Settings) :
    (count now (fun _ => s) it.out).stuck.Nodup ∧
    (∀ k ∈ (count now (fun _ => s) it.out).stuck, ∃ t, s.stuck < age now (k, t) ∧ ∃ m, m <+: es ∧ (cacheAt max n pre i m).get k = some t) ∧
    ∀ k t, s.stuck < age now (k, t) → (∀ m, m <+: es → (cacheAt max n pre i m).get k = some t) → k ∈ (count now (fun _ => s) it.out).stuck := by
  rw [count_stuck, older_const, List.take_of_length_le hl]
  refine ⟨(listed_nodup hc hf).sublist ((List.filter_sublist).map _), ?_, ?_⟩
  · intro k hk
    obtain ⟨e, he, rfl⟩ := List.mem_map.mp hk
    obtain ⟨h1, h2⟩ := List.mem_filter.mp he
    exact ⟨e.2, of_decide_eq_true h2, C89_only_what_was_there max n pre es i it hc e.1 e.2 h1⟩
  · intro k t ht hk
    exact List.mem_map.mpr ⟨(k, t), List.mem_filter.mpr ⟨stays_mem hc hd hk, decide_eq_true ht⟩, rfl⟩

/-! ## Examples -/

namespace Demo

/-- Two services run: 7 since 0, 8 since 9 s. -/
def earlier : List (Event (BitVec 64) Int) := [.write (.add 7 (some 0)), .write (.add 8 (some 9000000000))]

/-- While they are being listed 7 ends, after it was listed, and 9 starts. -/
def during : List (Event (BitVec 64) Int) :=
  [.next 0 0, .read 0, .write (.remove 7), .write (.add 9 (some 9500000000)), .lock 0, .next 0 1, .read 0, .lock 0, .next 0 2, .read 0, .lock 0,
    .finish 0]

def call : Iter (BitVec 64) Int :=
  { pc := .done, must := [], seen := [2, 1, 0], out := [(7, 0), (8, 9000000000), (9, 9500000000)] }

theorem calls : Calls 10000 1 earlier 0 during call := ⟨by decide +kernel, by
  have h : ((State.start 10000 1 : State (BitVec 64) Int).run (earlier ++ .begin 0 :: during)).iters = [call] := rfl
  rw [h]; rfl⟩

theorem fresh : FreshIds 10000 1 earlier during 0 := ⟨by decide +kernel, by
  have h : started during = [9] := rfl
  rw [h]
  intro k hk
  rw [List.mem_singleton.mp hk]
  decide +kernel⟩

/-- Service 8 runs throughout. -/
theorem stays : ∀ m, m <+: during → (cacheAt 10000 1 earlier 0 m).get 8 = some 9000000000 := by
  have h : ∀ j ≤ during.length, (cacheAt 10000 1 earlier 0 (during.take j)).get 8 = some 9000000000 := by decide +kernel
  intro m hm
  rw [List.prefix_iff_eq_take.mp hm]
  exact h _ hm.length_le

def settings : Settings := ⟨1000, 8000, 9000⟩

/-- Hypotheses of the C115 theorems met. -/
example := C115_total calls rfl fresh 10000000000 (fun _ => settings) [(8, 9000000000)] (by decide) (fun e he m hm => by
  rw [List.mem_singleton.mp he]; exact stays m hm)
example := C115_colours calls rfl fresh (by decide) 10000000000 settings .green
example := C115_stuck calls rfl fresh (by decide) 10000000000 settings

end Demo

/-- **C115**: what is counted need not be what runs at any one moment: here three services are counted although never more than two run, and the one
that has ended meanwhile is found stuck (an alert is sent for it). -/
theorem C115_more_than_ever_ran : ∃ (pre es : List (Event (BitVec 64) Int)) (it : Iter (BitVec 64) Int), Calls 10000 1 pre 0 es it ∧ it.pc = .done ∧
    FreshIds 10000 1 pre es 0 ∧ (∀ m, m <+: es → (cacheAt 10000 1 pre 0 m).size ≤ 2) ∧
    count 10000000000 (fun _ => ⟨1000, 8000, 9000⟩) it.out = { green := 2, yellow := 0, red := 1, stuck := [7] } ∧
    (cacheAt 10000 1 pre 0 es).contains 7 = false := by
  refine ⟨Demo.earlier, Demo.during, Demo.call, Demo.calls, rfl, Demo.fresh, ?_, by decide +kernel, by decide +kernel⟩
  have h : ∀ j ≤ Demo.during.length, (cacheAt 10000 1 Demo.earlier 0 (Demo.during.take j)).size ≤ 2 := by decide +kernel
  intro m hm
  rw [List.prefix_iff_eq_take.mp hm]
  exact h _ hm.length_le

end Counting
end Scouter
