import Verif.Model.Announcers
import Verif.Props.Dataproxy
/-!
# C87: goroutines announcing texts
-/
namespace Scouter
namespace Announcers
open Spec Cache

/-- A text with this kind and hash has been given to the send queue. -/
def Told (s : State) (k : TextKind) (h : BitVec 32) : Prop := ∃ name, crc32 name = h ∧ (⟨ascii (kindCode k), h, name⟩ : TextPack) ∈ s.proxy.offered

/-- A goroutine's next step gives a text with this kind and hash to the send queue. -/
def Telling (s : State) (k : TextKind) (h : BitVec 32) : Prop := ∃ g ∈ s.gors, ∃ name, g.pc = .marked k name ∧ crc32 name = h

/-- Every call has returned. -/
def Quiet (s : State) : Prop := ∀ g ∈ s.gors, g.pc = .idle ∧ g.todo = []

theorem kind_code (k : TextKind) : k.textType = ascii (kindCode k) := by cases k <;> rfl

theorem contains_add {K V : Type} [DecidableEq K] (c : Cache K V) (x y : K) (v : Option V) (h : (c.add x v).contains y = true) :
    y = x ∨ c.contains y = true := by
  have key : ∀ (l : List (K × Nat)), (l.lookup y).isSome = true ↔ y ∈ l.map (·.1) := by
    intro l
    have := lookup_none (l := l) (k := y)
    cases hl : l.lookup y with
    | none => simpa using this.1 hl
    | some a =>
      simp only [Option.isSome_some, true_iff]
      by_cases hm : y ∈ l.map (·.1)
      · exact hm
      · rw [this.2 hm] at hl; simp at hl
  unfold Cache.contains at h ⊢
  rw [key] at h ⊢
  unfold Cache.add at h
  cases hl : c.table.lookup x with
  | some id => rw [hl] at h; exact .inr h
  | none =>
    rw [hl] at h
    simp only at h
    have hmem : y ∈ (c.table ++ [(x, c.next)]).map (·.1) := by
      split at h
      · unfold Cache.removeOldest at h
        split at h
        · rename_i e _
          unfold Cache.removeElement Cache.callback at h
          have : y ∈ ((c.table ++ [(x, c.next)]).filter (fun p => p.1 ≠ e.key)).map (·.1) := by
            split at h <;> exact h
          obtain ⟨p, hp, rfl⟩ := List.mem_map.1 this
          exact List.mem_map_of_mem (List.mem_filter.1 hp).1
        · exact h
      · exact h
    simp only [List.map_append, List.map_cons, List.map_nil, List.mem_append, List.mem_singleton] at hmem
    exact hmem.symm

/-- The invariant: every marked text, and every text whose hash was returned, has been announced or is about to be. -/
structure Covered (s : State) : Prop where
  marked : ∀ k h, (s.proxy.sent k).contains h = true → Told s k h ∨ Telling s k h
  returned : ∀ g ∈ s.gors, ∀ k name h, (k, name, h) ∈ g.returned → h = crc32 name ∧ (name ≠ [] → Told s k h ∨ Telling s k h)

theorem Covered.fire {s : State} (hs : Covered s) (e : Event) : Covered (s.fire e) := by
  cases e with
  | queue q => exact ⟨hs.marked, hs.returned⟩
  | clear k o =>
    refine ⟨?_, hs.returned⟩
    intro k' h hc
    simp only [State.fire] at hc
    split at hc
    · simp [Cache.clear, Cache.contains] at hc
    · exact hs.marked k' h hc
  | go i =>
    simp only [State.fire]
    cases hg : s.gors[i]? with
    | none => exact hs
    | some g =>
      have hi : i < s.gors.length := (List.getElem?_eq_some_iff.1 hg).1
      have hgm := List.mem_of_getElem? hg
      simp only
      have hself : ∀ g', g' ∈ s.gors.set i g' := fun g' => List.mem_set hi g'
      have hother : ∀ g' g'', g'' ∈ s.gors → g'' ≠ g → g'' ∈ s.gors.set i g' := by
        intro g' g'' hm hne
        obtain ⟨j, hj⟩ := List.mem_iff_getElem?.1 hm
        have hji : j ≠ i := by
          rintro rfl
          rw [hg] at hj
          exact hne (Option.some.inj hj).symm
        refine List.mem_iff_getElem?.2 ⟨j, ?_⟩
        rw [List.getElem?_set_ne (Ne.symm hji)]; exact hj
      obtain ⟨pc, todo, ret⟩ := g
      have hret := hs.returned _ hgm
      cases pc with
      | idle =>
        -- the packs and the marks do not change; nobody was about to announce who is not any more
        have keep : ∀ (g' : Gor) k h, Told s k h ∨ Telling s k h →
            Told ⟨s.proxy, s.gors.set i g'⟩ k h ∨ Telling ⟨s.proxy, s.gors.set i g'⟩ k h := by
          rintro g' k h (ha | ⟨g'', hm, name, hpc, hh⟩)
          · exact .inl ha
          · exact .inr ⟨g'', hother g' g'' hm (by rintro rfl; simp at hpc), name, hpc, hh⟩
        have gen : ∀ g' : Gor, (∀ k name h, (k, name, h) ∈ g'.returned →
              (k, name, h) ∈ ret ∨ (h = crc32 name ∧ (name ≠ [] → Told s k h ∨ Telling s k h))) →
            Covered ⟨s.proxy, s.gors.set i g'⟩ := by
          intro g' hr
          refine ⟨fun k h hc => keep g' k h (hs.marked k h hc), ?_⟩
          intro g'' hg'' k name h hm
          rcases List.mem_or_eq_of_mem_set hg'' with hg'' | rfl
          · exact ⟨(hs.returned g'' hg'' k name h hm).1, fun hn => keep g' k h ((hs.returned g'' hg'' k name h hm).2 hn)⟩
          · rcases hr k name h hm with hm | ⟨hh, hm⟩
            · exact ⟨(hret k name h hm).1, fun hn => keep _ k h ((hret k name h hm).2 hn)⟩
            · exact ⟨hh, fun hn => keep _ k h (hm hn)⟩
        cases todo with
        | nil => exact gen _ (fun k name h hm => .inl hm)
        | cons c todo =>
          obtain ⟨k, name⟩ := c
          simp only [Gor.step]
          by_cases hn : name = []
          · rw [if_pos hn]
            refine gen _ (fun k' name' h hm => ?_)
            rcases List.mem_append.1 hm with hm | hm
            · exact .inl hm
            · simp only [List.mem_singleton, Prod.mk.injEq] at hm
              obtain ⟨rfl, rfl, rfl⟩ := hm
              subst hn
              exact .inr ⟨by decide, fun h => absurd rfl h⟩
          · rw [if_neg hn]
            by_cases hc : (s.proxy.sent k).contains (hash name) = true
            · rw [if_pos hc]
              refine gen _ (fun k' name' h hm => ?_)
              rcases List.mem_append.1 hm with hm | hm
              · exact .inl hm
              · simp only [List.mem_singleton, Prod.mk.injEq] at hm
                obtain ⟨rfl, rfl, rfl⟩ := hm
                exact .inr ⟨C16_hash_is_crc32 _, fun _ => hs.marked _ _ hc⟩
            · rw [if_neg hc]
              exact gen _ (fun k name h hm => .inl hm)
      | missing k name =>
        simp only [Gor.step]
        have keep : ∀ k' h, Told s k' h ∨ Telling s k' h →
            Told ⟨markSent s.proxy k (hash name), s.gors.set i ⟨.marked k name, todo, ret⟩⟩ k' h ∨
            Telling ⟨markSent s.proxy k (hash name), s.gors.set i ⟨.marked k name, todo, ret⟩⟩ k' h := by
          rintro k' h (ha | ⟨g'', hm, name', hpc, hh⟩)
          · exact .inl ha
          · exact .inr ⟨g'', hother _ g'' hm (by rintro rfl; simp at hpc), name', hpc, hh⟩
        refine ⟨?_, ?_⟩
        · intro k' h hc
          simp only [markSent] at hc
          split at hc
          · rename_i hk
            subst hk
            rcases contains_add _ _ _ _ hc with rfl | hc
            · exact .inr ⟨_, hself _, name, rfl, (C16_hash_is_crc32 name).symm⟩
            · exact keep _ h (hs.marked _ h hc)
          · exact keep k' h (hs.marked k' h hc)
        · intro g'' hg'' k' name' h hm
          rcases List.mem_or_eq_of_mem_set hg'' with hg'' | rfl
          · exact ⟨(hs.returned g'' hg'' k' name' h hm).1, fun hn => keep k' h ((hs.returned g'' hg'' k' name' h hm).2 hn)⟩
          · exact ⟨(hret k' name' h hm).1, fun hn => keep k' h ((hret k' name' h hm).2 hn)⟩
      | marked k name =>
        simp only [Gor.step]
        have hoff : (s.proxy.addPack ⟨k.textType, hash name, name⟩).offered = s.proxy.offered ++ [⟨k.textType, hash name, name⟩] := rfl
        have hann : Told ⟨s.proxy.addPack ⟨k.textType, hash name, name⟩,
            s.gors.set i ⟨.idle, todo, ret ++ [(k, name, hash name)]⟩⟩ k (crc32 name) := by
          refine ⟨name, rfl, ?_⟩
          show _ ∈ (s.proxy.addPack _).offered
          rw [hoff, C16_hash_is_crc32, kind_code]
          simp
        have keep : ∀ k' h, Told s k' h ∨ Telling s k' h →
            Told ⟨s.proxy.addPack ⟨k.textType, hash name, name⟩, s.gors.set i ⟨.idle, todo, ret ++ [(k, name, hash name)]⟩⟩ k' h ∨
            Telling ⟨s.proxy.addPack ⟨k.textType, hash name, name⟩, s.gors.set i ⟨.idle, todo, ret ++ [(k, name, hash name)]⟩⟩ k' h := by
          rintro k' h (⟨name', hh, hm⟩ | ⟨g'', hm, name', hpc, hh⟩)
          · exact .inl ⟨name', hh, by show _ ∈ (s.proxy.addPack _).offered; rw [hoff]; exact List.mem_append_left _ hm⟩
          · by_cases he : g'' = ⟨.marked k name, todo, ret⟩
            · subst he
              simp only [Pc.marked.injEq] at hpc
              obtain ⟨rfl, rfl⟩ := hpc
              subst hh
              exact .inl hann
            · exact .inr ⟨g'', hother _ g'' hm he, name', hpc, hh⟩
        refine ⟨fun k' h hc => keep k' h (hs.marked k' h hc), ?_⟩
        intro g'' hg'' k' name' h hm
        rcases List.mem_or_eq_of_mem_set hg'' with hg'' | rfl
        · exact ⟨(hs.returned g'' hg'' k' name' h hm).1, fun hn => keep k' h ((hs.returned g'' hg'' k' name' h hm).2 hn)⟩
        · rcases List.mem_append.1 hm with hm | hm
          · exact ⟨(hret k' name' h hm).1, fun hn => keep k' h ((hret k' name' h hm).2 hn)⟩
          · simp only [List.mem_singleton, Prod.mk.injEq] at hm
            obtain ⟨rfl, rfl, rfl⟩ := hm
            refine ⟨C16_hash_is_crc32 _, fun _ => .inl ?_⟩
            rw [C16_hash_is_crc32 name']
            rw [C16_hash_is_crc32 name'] at hann
            exact hann

theorem Covered.run {s : State} (hs : Covered s) (es : List Event) : Covered (s.run es) := by
  induction es generalizing s with
  | nil => exact hs
  | cons e es ih => exact ih (hs.fire e)

theorem Covered.start (cap : Nat) (todos : List (List (TextKind × Bytes))) : Covered (State.start cap todos) := by
  refine ⟨fun k h hc => ?_, ?_⟩
  · simp [State.start, Proxy.init, Cache.new, Cache.contains] at hc
  · intro g hg k name h hm
    simp only [State.start, List.mem_map] at hg
    obtain ⟨t, -, rfl⟩ := hg
    simp at hm

/-- **Every text whose hash was handed out is announced**: under every schedule, with resets of the caches and anything happening to the
queue in between, a call that has returned gave the text's hash, and a text of that kind and hash has been given to the send queue or
is the next thing some goroutine does. -/
theorem C87_announced_or_about_to_be (cap : Nat) (todos : List (List (TextKind × Bytes))) (es : List Event) (g : Gor)
    (hg : g ∈ ((State.start cap todos).run es).gors) (k : TextKind) (name : Bytes) (h : BitVec 32) (hr : (k, name, h) ∈ g.returned) :
    h = crc32 name ∧ (name ≠ [] → Told ((State.start cap todos).run es) k h ∨ Telling ((State.start cap todos).run es) k h) :=
  ((Covered.start cap todos).run es).returned g hg k name h hr

/-- ... and when every call has returned it has been given to the send queue. -/
theorem C87_announced_in_the_end (cap : Nat) (todos : List (List (TextKind × Bytes))) (es : List Event)
    (hq : Quiet ((State.start cap todos).run es)) (g : Gor) (hg : g ∈ ((State.start cap todos).run es).gors) (k : TextKind)
    (name : Bytes) (h : BitVec 32) (hr : (k, name, h) ∈ g.returned) (hn : name ≠ []) :
    ∃ name', crc32 name' = crc32 name ∧
      (⟨ascii (kindCode k), crc32 name, name'⟩ : TextPack) ∈ ((State.start cap todos).run es).proxy.offered := by
  obtain ⟨rfl, h2⟩ := C87_announced_or_about_to_be cap todos es g hg k name h hr
  rcases h2 hn with ⟨name', h3, h4⟩ | ⟨g', hg', name', hpc, -⟩
  · exact ⟨name', h3, h4⟩
  · rw [(hq g' hg').1] at hpc; simp at hpc

/-! ## Nothing is announced that was not asked for, and never more often than asked -/

/-- How often a goroutine has announced, or is going to announce, this text. -/
def Gor.owes (k : TextKind) (name : Bytes) (g : Gor) : Nat :=
  match g.pc with
  | .idle => 0
  | .missing k' n => if (k', n) = (k, name) then 1 else 0
  | .marked k' n => if (k', n) = (k, name) then 1 else 0

/-- How many calls with this text a goroutine has begun. -/
def Gor.begun (k : TextKind) (name : Bytes) (g : Gor) : Nat :=
  (g.returned.map fun r => (r.1, r.2.1)).count (k, name) + g.owes k name

theorem sum_set (f : Gor → Nat) : ∀ (l : List Gor) (i : Nat) (g g' : Gor), l[i]? = some g →
    ((l.set i g').map f).sum + f g = (l.map f).sum + f g' := by
  intro l
  induction l with
  | nil => intro i g g' h; simp at h
  | cons a l ih =>
    intro i g g' h
    cases i with
    | zero => simp only [List.getElem?_cons_zero, Option.some.injEq] at h; subst h; simp; omega
    | succ i =>
      have := ih i g g' (by simpa using h)
      simp only [List.set_cons_succ, List.map_cons, List.sum_cons]; omega

theorem kindCode_inj {k k' : TextKind} (h : ascii (kindCode k) = ascii (kindCode k')) : k = k' := by
  revert h; cases k <;> cases k' <;> decide

/-- The balance kept by every event: announcements made and owed never exceed the calls begun. -/
theorem fire_balance (k : TextKind) (name : Bytes) (s : State) (e : Event)
    (h : s.proxy.offered.count ⟨ascii (kindCode k), crc32 name, name⟩ + (s.gors.map (Gor.owes k name)).sum ≤
      (s.gors.map (Gor.begun k name)).sum) :
    (s.fire e).proxy.offered.count ⟨ascii (kindCode k), crc32 name, name⟩ + ((s.fire e).gors.map (Gor.owes k name)).sum ≤
      ((s.fire e).gors.map (Gor.begun k name)).sum := by
  cases e with
  | queue q => exact h
  | clear k o => exact h
  | go i =>
    simp only [State.fire]
    cases hg : s.gors[i]? with
    | none => exact h
    | some g =>
      simp only
      have h1 := sum_set (Gor.owes k name) s.gors i g (g.step s.proxy).2 hg
      have h2 := sum_set (Gor.begun k name) s.gors i g (g.step s.proxy).2 hg
      -- the goroutine's own balance
      have hle : (g.step s.proxy).1.offered.count ⟨ascii (kindCode k), crc32 name, name⟩ + (g.step s.proxy).2.owes k name + g.begun k name ≤
          s.proxy.offered.count ⟨ascii (kindCode k), crc32 name, name⟩ + g.owes k name + (g.step s.proxy).2.begun k name := by
        obtain ⟨pc, todo, ret⟩ := g
        cases pc with
        | idle =>
          cases todo with
          | nil => simp [Gor.step]
          | cons c todo =>
            obtain ⟨k', n⟩ := c
            simp only [Gor.step]
            split
            · simp [Gor.owes, Gor.begun]
            · split
              · simp [Gor.owes, Gor.begun]
              · simp [Gor.owes, Gor.begun]; omega
        | missing k' n =>
          simp only [Gor.step, Gor.owes, Gor.begun, markSent]; omega
        | marked k' n =>
          simp only [Gor.step, Gor.owes, Gor.begun, Proxy.addPack, List.count_append, List.map_append, List.map_cons, List.map_nil,
            List.count_singleton]
          have : ((⟨k'.textType, hash n, n⟩ : TextPack) == ⟨ascii (kindCode k), crc32 name, name⟩) = true → (k', n) = (k, name) := by
            intro he
            have he := eq_of_beq he
            simp only [TextPack.mk.injEq] at he
            obtain ⟨e1, -, rfl⟩ := he
            rw [kind_code] at e1
            rw [kindCode_inj e1]
          by_cases he : (k', n) = (k, name)
          · have : ((k', n) == (k, name)) = true := by simpa using he
            simp only [he, this, if_true]
            split <;> simp
          · have h3 : ((k', n) == (k, name)) = false := by simpa using he
            rw [if_neg (fun hb => he (this hb))]
            simp [he, h3]
      omega

/-- **Never more often than asked**: under every schedule a text is given to the send queue at most as often as calls with this kind and
text have been begun; in particular nothing is announced that nobody asked for. -/
theorem C87_at_most_once_per_call (cap : Nat) (todos : List (List (TextKind × Bytes))) (es : List Event) (k : TextKind) (name : Bytes) :
    ((State.start cap todos).run es).proxy.offered.count ⟨ascii (kindCode k), crc32 name, name⟩ ≤
      (((State.start cap todos).run es).gors.map (Gor.begun k name)).sum := by
  suffices h : ∀ (es : List Event) (s : State),
      s.proxy.offered.count ⟨ascii (kindCode k), crc32 name, name⟩ + (s.gors.map (Gor.owes k name)).sum ≤
        (s.gors.map (Gor.begun k name)).sum →
      (s.run es).proxy.offered.count ⟨ascii (kindCode k), crc32 name, name⟩ + ((s.run es).gors.map (Gor.owes k name)).sum ≤
        ((s.run es).gors.map (Gor.begun k name)).sum by
    have h0 := h es (State.start cap todos) (by
      have : ∀ t : List (List (TextKind × Bytes)), ((t.map fun t => ({ todo := t } : Gor)).map (Gor.owes k name)).sum = 0 := by
        intro t; induction t with
        | nil => rfl
        | cons a t ih => simp only [List.map_cons, List.sum_cons, ih]; rfl
      show 0 + _ ≤ _
      rw [State.start, this]; omega)
    omega
  intro es
  induction es with
  | nil => intro s h; exact h
  | cons e es ih => intro s h; exact ih _ (fire_balance k name s e h)

/-! ## What a race can do -/

/-- **Announced twice**: in any state in which the text is not remembered, two goroutines that send it can both announce it. -/
theorem C87_can_be_announced_twice (p : Proxy) (k : TextKind) (name : Bytes) (hn : name ≠ [])
    (hnew : (p.sent k).contains (hash name) = false) :
    ∃ es, (State.run ⟨p, [{ todo := [(k, name)] }, { todo := [(k, name)] }]⟩ es).proxy.offered =
      p.offered ++ [⟨k.textType, hash name, name⟩, ⟨k.textType, hash name, name⟩] := by
  refine ⟨[.go 0, .go 1, .go 0, .go 1, .go 0, .go 1], ?_⟩
  simp [State.run, State.fire, Gor.step, hn, hnew, markSent, Proxy.addPack]

/-- **A hash can be handed out before its text is announced**: another goroutine is about to do it. -/
theorem C87_hash_before_text (p : Proxy) (k : TextKind) (name : Bytes) (hn : name ≠ [])
    (hnew : (p.sent k).contains (hash name) = false) (hadd : ((p.sent k).add (hash name) (some ())).contains (hash name) = true) :
    ∃ es, let s := State.run ⟨p, [{ todo := [(k, name)] }, { todo := [(k, name)] }]⟩ es
      s.proxy.offered = p.offered ∧ (s.gors[1]?.map (·.returned)) = some [(k, name, hash name)] := by
  refine ⟨[.go 0, .go 0, .go 1], ?_⟩
  simp [State.run, State.fire, Gor.step, hn, hnew, markSent, hadd]

/-- Non-vacuity: a schedule after which every call has returned. -/
example : Quiet ((State.start 8 [[(.service, ascii "/a")], [(.service, ascii "/a"), (.login, ascii "kim")]]).run
    [.go 0, .go 1, .go 0, .go 1, .go 0, .go 1, .go 1, .go 1, .go 1]) := by
  unfold Quiet; decide +kernel

example : ((Proxy.init 8).sent .service).contains (hash (ascii "/a")) = false ∧
    (((Proxy.init 8).sent .service).add (hash (ascii "/a")) (some ())).contains (hash (ascii "/a")) = true := by decide +kernel

end Announcers
end Scouter
