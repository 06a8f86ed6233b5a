import Verif.Spec.Disclosed
import Verif.Props.Identity
import Verif.Props.Starting
/-!
# C122: what is recorded of requests while the configuration is being loaded
-/
namespace Scouter
namespace Disclosed
open Identity (Ref Heap text_length)
open Trace

/-- The words written by a load, in order. -/
def order (a b : Bool) : List Word :=
  [.query, .enabled] ++ (if a then [.keysPtr, .keysLen] else [.keysLen, .keysPtr]) ++ (if b then [.ipPtr, .ipLen] else [.ipLen, .ipPtr])

theorem code_words (r : Reload) : r.code.map Prod.fst = order r.keysFirst r.ipFirst := by
  unfold Reload.code order assign
  cases r.keysFirst <;> cases r.ipFirst <;> rfl

theorem order_all (a b : Bool) (w : Word) : w ∈ order a b := by cases a <;> cases b <;> cases w <;> decide

theorem order_nodup (a b : Bool) : (order a b).Nodup := by cases a <;> cases b <;> decide

theorem code_value (r : Reload) (w : Word) (v : Nat) (hm : (w, v) ∈ r.code) : v = r.version.words w := by
  unfold Reload.code assign at hm
  cases hk : r.keysFirst <;> cases hi : r.ipFirst <;> simp [hk, hi] at hm <;>
    rcases hm with ⟨rfl, rfl⟩ | ⟨rfl, rfl⟩ | ⟨rfl, rfl⟩ | ⟨rfl, rfl⟩ | ⟨rfl, rfl⟩ | ⟨rfl, rfl⟩ <;>
    first
      | rfl
      | (show r.query.toNat = _; cases hq : r.query <;> simp [Version.words, Reload.version, hq])
      | (show r.enabled.toNat = _; cases hq : r.enabled <;> simp [Version.words, Reload.version, hq])

/-- The configuration a word is of. -/
def verOf (s : State) (w : Word) : Nat :=
  if s.now = [] then s.complete else if w ∈ s.now.map Prod.fst then s.complete else s.complete + 1

theorem verOf_ge (s : State) (w : Word) : s.complete ≤ verOf s w := by
  unfold verOf
  split
  · exact Nat.le_refl _
  · split <;> omega

theorem verOf_le (s : State) (w : Word) : verOf s w ≤ s.begun := by
  unfold verOf State.begun
  split
  · exact Nat.le_refl _
  · split <;> omega

theorem begun_le (s : State) : s.begun ≤ s.complete + 1 := by
  unfold State.begun
  split <;> omega

/-- No word is more than one load behind another. -/
theorem verOf_near (s : State) (w x : Word) : verOf s w ≤ verOf s x + 1 := by
  have := verOf_le s w
  have := verOf_ge s x
  have := begun_le s
  omega

/-- What holds at every moment of the words. -/
structure Sound (v : Version) (rs : List Reload) (s : State) : Prop where
  next : s.next = rs.drop s.begun
  now : s.now ≠ [] → ∃ r, rs[s.complete]? = some r ∧ s.now <:+ r.code
  words : ∀ w, ∃ u, (versions v rs)[verOf s w]? = some u ∧ s.mem w = u.words w

/-- The words only become newer. -/
theorem verOf_step (s : State) (e : Event) (w : Word) : verOf s w ≤ verOf (s.step e) w := by
  cases e with
  | begin i k => exact Nat.le_refl _
  | read i =>
    simp only [State.step]
    split
    · exact Nat.le_refl _
    · split <;> exact Nat.le_refl _
  | load =>
    simp only [State.step]
    split
    · next hn =>
      have e0 : verOf s w = s.complete := by rw [verOf, if_pos hn]
      split
      · exact Nat.le_refl _
      · next r rest _ =>
        rw [e0]
        exact verOf_ge { s with now := r.code, next := rest } w
    · next x v is hn =>
      by_cases hi : is = []
      · subst hi
        show verOf s w ≤ s.complete + 1
        exact Nat.le_trans (verOf_le s w) (begun_le s)
      · unfold verOf
        simp only [hn, hi, if_false, List.map_cons, List.mem_cons, reduceCtorEq]
        by_cases hw : w ∈ is.map Prod.fst
        · rw [if_pos (.inr hw), if_pos hw]
        · rw [if_neg hw]
          split <;> omega

theorem sound_step {v : Version} {rs : List Reload} {s : State} (hs : Sound v rs s) (e : Event) : Sound v rs (s.step e) := by
  cases e with
  | begin i k => exact ⟨hs.next, hs.now, hs.words⟩
  | read i =>
    simp only [State.step]
    split
    · exact hs
    · split
      · exact hs
      · exact ⟨hs.next, hs.now, hs.words⟩
  | load =>
    simp only [State.step]
    split
    · next hn =>
      have hnext := hs.next
      rw [State.begun, if_pos hn] at hnext
      split
      · exact hs
      · next r rest hr =>
        rw [hr] at hnext
        have hcode : r.code ≠ [] := by simp [Reload.code]
        have hget : rs[s.complete]? = some r := by
          have := congrArg List.head? hnext
          rw [List.head?_drop] at this
          exact this.symm
        refine ⟨?_, fun _ => ⟨r, hget, List.suffix_refl _⟩, fun w => ?_⟩
        · show rest = _
          rw [State.begun, if_neg (show r.code ≠ [] from hcode)]
          show rest = rs.drop (s.complete + 1)
          rw [← List.drop_drop, ← hnext]
          rfl
        · obtain ⟨u, hu, hm⟩ := hs.words w
          refine ⟨u, ?_, hm⟩
          rw [← hu]
          congr 1
          show verOf _ w = verOf s w
          unfold verOf
          rw [if_pos hn, if_neg (show r.code ≠ [] from hcode), if_pos (by
            show w ∈ r.code.map Prod.fst
            rw [code_words]
            exact order_all _ _ _)]
    · next x y is hn =>
      obtain ⟨r, hr, hsuf⟩ := hs.now (by rw [hn]; simp)
      rw [hn] at hsuf
      have hnew : (versions v rs)[s.complete + 1]? = some r.version := by simp [versions, hr]
      have hnd : x ∉ is.map Prod.fst := by
        have : (x :: is.map Prod.fst) <:+ order r.keysFirst r.ipFirst := by
          rw [← code_words]
          exact hsuf.map Prod.fst
        exact (List.nodup_cons.mp (this.sublist.nodup (order_nodup _ _))).1
      have hbeg : s.begun = s.complete + 1 := by rw [State.begun, if_neg (by rw [hn]; simp)]
      refine ⟨?_, fun hne => ?_, fun w => ?_⟩
      · rw [hs.next, hbeg]
        by_cases hi : is = []
        · simp [State.begun, hi]
        · simp [State.begun, hi]
      · have hne : is ≠ [] := hne
        refine ⟨r, ?_, (List.suffix_cons _ is).trans hsuf⟩
        show rs[if is = [] then s.complete + 1 else s.complete]? = some r
        rw [if_neg hne]
        exact hr
      · by_cases hw : w = x
        · subst hw
          refine ⟨r.version, ?_, ?_⟩
          · rw [← hnew]
            congr 1
            unfold verOf
            by_cases hi : is = []
            · simp [hi]
            · simp only [hi, if_false, if_neg hnd]
          · show (if w = w then y else s.mem w) = _
            rw [if_pos rfl]
            exact code_value r w y (hsuf.subset (List.mem_cons_self ..))
        · obtain ⟨u, hu, hm⟩ := hs.words w
          refine ⟨u, ?_, ?_⟩
          · rw [← hu]
            congr 1
            unfold verOf
            simp only [hn, List.map_cons, List.mem_cons, hw, false_or, reduceCtorEq, if_false]
            by_cases hi : is = []
            · simp [hi]
            · simp [hi]
          · show (if w = x then y else s.mem w) = _
            rw [if_neg hw, hm]

theorem sound_agent (v : Version) (rs : List Reload) : Sound v rs (agent v rs) :=
  ⟨rfl, fun hn => absurd rfl hn, fun _ => ⟨v, rfl, rfl⟩⟩

theorem sound_run {v : Version} {rs : List Reload} (es : List Event) : ∀ {s : State}, Sound v rs s → Sound v rs (s.run es) := by
  induction es with
  | nil => exact fun hs => hs
  | cons e es ih => exact fun hs => ih (sound_step hs e)

theorem slots_nodup (a b : Bool) : (slots a b).Nodup := by cases a <;> cases b <;> decide

/-- What holds of a request begun at `s₀`, at `s`. -/
def Made (vs : List Version) (a b : Bool) (s₀ s : State) (m : Starter) : Prop :=
  m.done ++ m.left = slots a b ∧ ∃ ver : Slot → Nat,
    (∀ x ∈ m.done, (∃ u, vs[ver x]? = some u ∧ m.got x = u.words x.word) ∧ verOf s₀ x.word ≤ ver x ∧ ver x ≤ verOf s x.word ∧
      ∀ w, ver x ≤ verOf s w + 1) ∧
    m.done.Pairwise fun x y => ver x ≤ ver y + 1

theorem Made.later {vs : List Version} {a b : Bool} {s₀ s t : State} {m : Starter} (g : Made vs a b s₀ s m) (hm : ∀ w, verOf s w ≤ verOf t w) :
    Made vs a b s₀ t m := by
  obtain ⟨h1, ver, h2, h3⟩ := g
  refine ⟨h1, ver, fun x hx => ?_, h3⟩
  obtain ⟨p, q, r, t⟩ := h2 x hx
  exact ⟨p, q, Nat.le_trans r (hm _), fun w => Nat.le_trans (t w) (Nat.succ_le_succ (hm w))⟩

theorem made_step {v : Version} {rs : List Reload} {a b : Bool} {s₀ s : State} (hs : Sound v rs s) (h0 : ∀ w, verOf s₀ w ≤ verOf s w) {n : Nat}
    {m : Starter} (hm : s.starters[n]? = some m) (g : Made (versions v rs) a b s₀ s m) (e : Event) :
    ∃ m', (s.step e).starters[n]? = some m' ∧ Made (versions v rs) a b s₀ (s.step e) m' := by
  have mono := verOf_step s e
  cases e with
  | begin i k =>
    refine ⟨m, ?_, g.later mono⟩
    show (s.starters ++ _)[n]? = _
    rw [List.getElem?_append_left (List.getElem?_eq_some_iff.mp hm).1]
    exact hm
  | load =>
    refine ⟨m, ?_, g.later mono⟩
    simp only [State.step]
    split
    · split <;> exact hm
    · exact hm
  | read i =>
    by_cases hi : i = n
    · subst hi
      cases hl : m.left with
      | nil =>
        have he : s.step (.read i) = s := by simp only [State.step, hm, hl]
        rw [he]
        exact ⟨m, hm, g⟩
      | cons x xs =>
        have he : s.step (.read i) = { s with starters := s.starters.set i ⟨m.done ++ [x], xs, fun y => if y = x then s.mem x.word else m.got y⟩ } := by
          simp only [State.step, hm, hl]
        rw [he]
        have hlt := (List.getElem?_eq_some_iff.mp hm).1
        obtain ⟨h1, ver, h2, h3⟩ := g
        rw [hl] at h1
        have hx : x ∉ m.done := by
          intro hmem
          have := slots_nodup a b
          rw [← h1] at this
          exact (List.nodup_append.mp this).2.2 x hmem x (List.mem_cons_self ..) rfl
        have hne : ∀ y ∈ m.done, y ≠ x := fun y hy h => hx (h ▸ hy)
        refine ⟨_, List.getElem?_set_self hlt, by simpa using h1, fun y => if y = x then verOf s x.word else ver y, fun y hy => ?_, ?_⟩
        · rcases List.mem_append.mp hy with hy | hy
          · have := h2 y hy
            simp only [if_neg (hne y hy)]
            exact this
          · have hy : y = x := by simpa using hy
            subst hy
            simp only [if_true]
            exact ⟨hs.words _, h0 _, Nat.le_refl _, fun w => verOf_near s _ w⟩
        · refine List.pairwise_append.mpr ⟨?_, List.pairwise_singleton _ _, ?_⟩
          · refine h3.imp_of_mem fun {y z} hy hz hyz => ?_
            simpa only [if_neg (hne y hy), if_neg (hne z hz)] using hyz
          · intro y hy z hz
            have hz : z = x := by simpa using hz
            subst hz
            simp only [if_neg (hne y hy), if_true]
            exact (h2 y hy).2.2.2 _
    · have he : (s.step (.read i)).starters[n]? = s.starters[n]? := by
        simp only [State.step]
        split
        · rfl
        · split
          · rfl
          · exact List.getElem?_set_ne hi
      exact ⟨m, he.trans hm, g.later mono⟩

theorem made_run {v : Version} {rs : List Reload} {a b : Bool} {s₀ : State} {n : Nat} (es : List Event) : ∀ {s : State} {m : Starter}, Sound v rs s →
    (∀ w, verOf s₀ w ≤ verOf s w) → s.starters[n]? = some m → Made (versions v rs) a b s₀ s m →
    ∃ m', (s.run es).starters[n]? = some m' ∧ Made (versions v rs) a b s₀ (s.run es) m' := by
  induction es with
  | nil => exact fun _ _ hm g => ⟨_, hm, g⟩
  | cons e es ih =>
    intro s m hs h0 hm g
    obtain ⟨m', h1, h2⟩ := made_step hs h0 hm g e
    exact ih (sound_step hs e) (fun w => Nat.le_trans (h0 w) (verOf_step s e w)) h1 h2

/-- The state after a run in which a request is begun after `pre`. -/
theorem made_begun (v : Version) (rs : List Reload) (pre : List Event) (a b : Bool) (mid : List Event) (m : Starter)
    (hm : ((agent v rs).run (pre ++ .begin a b :: mid)).starters[((agent v rs).run pre).starters.length]? = some m) :
    Made (versions v rs) a b ((agent v rs).run pre) ((agent v rs).run (pre ++ .begin a b :: mid)) m := by
  have hs := sound_run (v := v) (rs := rs) pre (sound_agent v rs)
  have e : (agent v rs).run (pre ++ .begin a b :: mid) = (((agent v rs).run pre).step (.begin a b)).run mid := by
    simp [State.run, List.foldl_append]
  rw [e] at hm ⊢
  obtain ⟨m', h1, h2⟩ := made_run (a := a) (b := b) (s₀ := (agent v rs).run pre) (n := ((agent v rs).run pre).starters.length) mid
    (sound_step hs (.begin a b)) (fun w => Nat.le_refl _)
    (m := ⟨[], slots a b, fun _ => 0⟩) (by simp [State.step]) ⟨rfl, fun _ => 0, by simp, List.Pairwise.nil⟩
  rw [h1] at hm
  rw [← Option.some.inj hm]
  exact h2

/-! ## The lines -/

theorem listed_eq (keys : Bytes) (r : Request) :
    ((splitByte 44 keys).filterMap fun k =>
        let values := r.values (trimSpace k)
        if values.length > 0 then some (ascii "header: " ++ k ++ ascii ": " ++ joinComma values) else none) = listed keys r := by
  unfold listed
  generalize splitByte 44 keys = ks
  induction ks with
  | nil => rfl
  | cons k ks ih =>
    rw [List.filterMap_cons, List.filter_cons]
    simp only [trimSpace_eq, joinComma_eq] at ih ⊢
    by_cases hv : r.values (trimmed k) = []
    · simp only [hv, ne_eq, not_true_eq_false, decide_false, Bool.false_eq_true, if_false, List.length_nil, gt_iff_lt, Nat.lt_irrefl]
      exact ih
    · have := List.length_pos_iff.mpr hv
      simp only [this, if_true, hv, ne_eq, not_false_eq_true, decide_true, List.map_cons, headerLine]
      exact congrArg _ ih

theorem all_eq (r : Request) : (r.headers.map fun (k, v) => ascii "header: " ++ k ++ ascii ": " ++ joinComma v) = allHeaders r :=
  List.map_congr_left fun h _ => by obtain ⟨k, v⟩ := h; show _ ++ joinComma v = _; rw [joinComma_eq]; rfl

theorem text_nil (h : Heap) (r : Ref) : h.text r = [] ↔ r.len = 0 := by
  rw [← List.length_eq_zero_iff, text_length]

theorem requestLines_conf (h : Heap) (c : TraceConf) (v : Version) (r : Request) :
    requestLines (v.conf h c) r = (if v.enabled then if h.text v.keys = [] then allHeaders r else listed (h.text v.keys) r else []) ++
      queryLine v.query r := rfl

/-- The lines, from what was read. -/
theorem lines_eq (h : Heap) (m : Starter) (r : Request) :
    m.lines h r = (if m.got .enabled ≠ 0 then if m.got .keysSet = 0 then allHeaders r else listed (h.text ⟨m.got .keysPtr, m.got .keysLen⟩) r
      else []) ++ queryLine (m.got .query ≠ 0) r := by
  unfold Starter.lines
  rw [listed_eq, all_eq]
  congr 1
  · by_cases h1 : m.got .enabled ≠ 0
    · rw [if_pos h1, if_pos h1]
      by_cases h2 : m.got .keysSet = 0
      · rw [if_pos h2, if_neg (by omega)]
      · rw [if_neg h2, if_pos (by omega)]
    · rw [if_neg h1, if_neg h1]
  · unfold queryLine
    by_cases h1 : m.got .query ≠ 0
    · rw [if_pos h1, if_pos (by simpa using h1)]
    · rw [if_neg h1, if_neg (by simpa using h1)]

theorem switch_ne (b : Bool) : ((if b then 1 else 0 : Nat) ≠ 0) ↔ b = true := by cases b <;> simp

/-- **C122**: what a request begun when `complete` loads were complete and dealt with when `begun` had begun has recorded is put together from the
   configurations there were meanwhile, as `MayRecord` tells, and so is the client's address. -/
theorem C122_what_is_recorded (h : Heap) (v : Version) (rs : List Reload) (pre : List Event) (a b : Bool) (mid : List Event) (m : Starter)
    (hm : ((agent v rs).run (pre ++ .begin a b :: mid)).starters[((agent v rs).run pre).starters.length]? = some m) (hl : m.left = []) (r : Request) :
    MayRecord h (versions v rs) ((agent v rs).run pre).complete ((agent v rs).run (pre ++ .begin a b :: mid)).begun r (m.lines h r) ∧
    MayCome h (versions v rs) ((agent v rs).run pre).complete ((agent v rs).run (pre ++ .begin a b :: mid)).begun r (m.address h r) := by
  obtain ⟨h1, ver, h2, h3⟩ := made_begun v rs pre a b mid m hm
  rw [hl, List.append_nil] at h1
  rw [h1] at h2 h3
  have all : ∀ x : Slot, x ∈ slots a b := by
    intro x
    cases a <;> cases b <;> cases x <;> decide
  have get : ∀ x : Slot, ∃ u, Among (versions v rs) ((agent v rs).run pre).complete ((agent v rs).run (pre ++ .begin a b :: mid)).begun (ver x) u ∧
      m.got x = u.words x.word := by
    intro x
    obtain ⟨⟨u, hu, hg⟩, p, q, -⟩ := h2 x (all x)
    exact ⟨u, ⟨hu, Nat.le_trans (verOf_ge _ _) p, Nat.le_trans q (verOf_le _ _)⟩, hg⟩
  have near : ver .enabled ≤ ver .keysSet + 1 ∧ ver .enabled ≤ ver .keysPtr + 1 ∧ ver .enabled ≤ ver .keysLen + 1 := by
    clear h1 h2
    cases a <;> cases b <;> simp [slots] at h3 <;> omega
  refine ⟨?_, ?_⟩
  · obtain ⟨ei, ai, gi⟩ := get .enabled
    obtain ⟨ej, aj, gj⟩ := get .keysSet
    obtain ⟨ea, aa, ga⟩ := get .keysPtr
    obtain ⟨eb, ab, gb⟩ := get .keysLen
    obtain ⟨eq, aq, gq⟩ := get .query
    refine ⟨_, ei, _, ej, _, ea, _, eb, _, eq, ai, aj, aa, ab, aq, near.1, near.2.1, near.2.2, ?_⟩
    rw [lines_eq, gi, gj, ga, gb, gq]
    simp only [Slot.word, Version.words, switch_ne, text_nil, Bool.decide_eq_true]
    by_cases he : ei.enabled = true <;> by_cases hk : ej.keys.len = 0 <;> simp [he, hk]
  · obtain ⟨ei, ai, gi⟩ := get .ipSet
    obtain ⟨ea, aa, ga⟩ := get .ipPtr
    obtain ⟨eb, ab, gb⟩ := get .ipLen
    refine ⟨_, ei, _, ea, _, eb, ai, aa, ab, ?_⟩
    unfold Starter.address
    rw [gi, ga, gb]
    simp only [Slot.word, Version.words, text_nil]
    by_cases hz : ei.ip.len = 0
    · simp [hz]
    · simp only [hz, ne_eq, not_false_eq_true, if_true, false_or]
      split <;> rename_i hv <;> simp [hv]

theorem among_unique {vs : List Version} {n i : Nat} {u : Version} (g : Among vs n n i u) : vs[n]? = some u := by
  obtain ⟨h1, h2, h3⟩ := g
  rw [← h1]
  congr 1
  omega

/-- **C122**: a request dealt with between two loads is recorded as the configuration there is says. -/
theorem C122_between_loads (h : Heap) (v : Version) (rs : List Reload) (pre : List Event) (a b : Bool) (mid : List Event) (m : Starter)
    (hm : ((agent v rs).run (pre ++ .begin a b :: mid)).starters[((agent v rs).run pre).starters.length]? = some m) (hl : m.left = [])
    (hq : ((agent v rs).run (pre ++ .begin a b :: mid)).begun = ((agent v rs).run pre).complete) (r : Request) (c : TraceConf) :
    ∃ u, (versions v rs)[((agent v rs).run pre).complete]? = some u ∧ m.lines h r = requestLines (u.conf h c) r ∧
      m.address h r = clientAddress (u.conf h c) r := by
  obtain ⟨h1, h2⟩ := C122_what_is_recorded h v rs pre a b mid m hm hl r
  rw [hq] at h1 h2
  obtain ⟨i, ei, j, ej, p, ep, l, el, q, eq, gi, gj, gp, gl, gq, -, -, -, e1⟩ := h1
  obtain ⟨i', ei', p', ep', l', el', gi', gp', gl', e2⟩ := h2
  have same : ∀ {k x}, Among (versions v rs) ((agent v rs).run pre).complete ((agent v rs).run pre).complete k x → x = ei := fun g =>
    Option.some.inj ((among_unique g).symm.trans (among_unique gi))
  refine ⟨ei, among_unique gi, ?_, ?_⟩
  · rw [e1, same gj, same gp, same gl, same gq, requestLines_conf]
  · rw [e2, same gi', same gp', same gl']
    rfl

theorem same_len {h : Heap} {x y : Ref} (e : h.text x = h.text y) : x.len = y.len := by rw [← text_length h x, ← text_length h y, e]

/-- **C122**: loads that change none of these options are not noticed, though the texts are made anew. -/
theorem C122_same_again (h : Heap) (v : Version) (rs : List Reload) (hsame : ∀ r ∈ rs, r.query = v.query ∧ r.enabled = v.enabled ∧
      h.text r.keys = h.text v.keys ∧ h.text r.ip = h.text v.ip) (pre : List Event) (a b : Bool) (mid : List Event) (m : Starter)
    (hm : ((agent v rs).run (pre ++ .begin a b :: mid)).starters[((agent v rs).run pre).starters.length]? = some m) (hl : m.left = [])
    (r : Request) (c : TraceConf) : m.lines h r = requestLines (v.conf h c) r ∧ m.address h r = clientAddress (v.conf h c) r := by
  obtain ⟨h1, h2⟩ := C122_what_is_recorded h v rs pre a b mid m hm hl r
  obtain ⟨i, ei, j, ej, p, ep, l, el, q, eq, gi, gj, gp, gl, gq, -, -, -, e1⟩ := h1
  obtain ⟨i', ei', p', ep', l', el', gi', gp', gl', e2⟩ := h2
  have all : ∀ {lo hi k u}, Among (versions v rs) lo hi k u → u.query = v.query ∧ u.enabled = v.enabled ∧ h.text u.keys = h.text v.keys ∧
      h.text u.ip = h.text v.ip := by
    intro lo hi k u g
    rcases List.mem_cons.mp (List.mem_of_getElem? g.1) with rfl | hu
    · exact ⟨rfl, rfl, rfl, rfl⟩
    · obtain ⟨x, hx, rfl⟩ := List.mem_map.mp hu
      exact hsame x hx
  refine ⟨?_, ?_⟩
  · have : el.keys.len = ep.keys.len := (same_len (all gl).2.2.1).trans (same_len (all gp).2.2.1).symm
    rw [e1, (all gi).2.1, (all gj).2.2.1, (all gq).1, this, requestLines_conf]
    have := (all gp).2.2.1
    rw [← this]
  · have : el'.ip.len = ep'.ip.len := (same_len (all gl').2.2.2).trans (same_len (all gp').2.2.2).symm
    have hp := (all gp').2.2.2
    rw [e2, (all gi').2.2.2, this]
    simp only [hp]
    rfl

/-- **C122**: while no configuration records headers, none is recorded. -/
theorem C122_off (h : Heap) (v : Version) (rs : List Reload) (pre : List Event) (a b : Bool) (mid : List Event) (m : Starter)
    (hm : ((agent v rs).run (pre ++ .begin a b :: mid)).starters[((agent v rs).run pre).starters.length]? = some m) (hl : m.left = [])
    (hoff : ∀ i u, Among (versions v rs) ((agent v rs).run pre).complete ((agent v rs).run (pre ++ .begin a b :: mid)).begun i u → u.enabled = false)
    (r : Request) : ∃ q, m.lines h r = queryLine q r := by
  obtain ⟨⟨i, ei, j, ej, p, ep, l, el, q, eq, gi, gj, gp, gl, gq, -, -, -, e1⟩, -⟩ := C122_what_is_recorded h v rs pre a b mid m hm hl r
  refine ⟨eq.query, ?_⟩
  rw [e1, hoff i ei gi]
  rfl

/-- **C122**: only the headers named in `keys` are recorded if every configuration that records headers, the one before it and all later ones name
   just these: so who names them first and has headers recorded by a later load is safe. -/
theorem C122_named_before (h : Heap) (v : Version) (rs : List Reload) (keys : Bytes) (hne : keys ≠ [])
    (hk : ∀ (i : Nat) (u : Version) (j : Nat) (x : Version), (versions v rs)[i]? = some u → u.enabled = true → (versions v rs)[j]? = some x → i ≤ j + 1 →
      h.text x.keys = keys)
    (pre : List Event) (a b : Bool) (mid : List Event) (m : Starter)
    (hm : ((agent v rs).run (pre ++ .begin a b :: mid)).starters[((agent v rs).run pre).starters.length]? = some m) (hl : m.left = [])
    (r : Request) : ∃ q, m.lines h r = queryLine q r ∨ m.lines h r = listed keys r ++ queryLine q r := by
  obtain ⟨⟨i, ei, j, ej, p, ep, l, el, q, eq, gi, gj, gp, gl, gq, n1, n2, n3, e1⟩, -⟩ := C122_what_is_recorded h v rs pre a b mid m hm hl r
  refine ⟨eq.query, ?_⟩
  cases he : ei.enabled with
  | false =>
    left
    rw [e1, he]
    rfl
  | true =>
    right
    have hj := hk i ei j ej gi.1 he gj.1 n1
    have hp := hk i ei p ep gi.1 he gp.1 n2
    have hl' := hk i ei l el gi.1 he gl.1 n3
    have : el.keys.len = ep.keys.len := same_len (hl'.trans hp.symm)
    rw [e1, he, hj, if_pos rfl, if_neg hne, this]
    show listed (h.text ep.keys) r ++ _ = _
    rw [hp]

/-- **C122**: if the header with the client's address is the same in all configurations there are meanwhile, it decides. -/
theorem C122_client_address (h : Heap) (v : Version) (rs : List Reload) (key : Bytes) (pre : List Event) (a b : Bool) (mid : List Event) (m : Starter)
    (hm : ((agent v rs).run (pre ++ .begin a b :: mid)).starters[((agent v rs).run pre).starters.length]? = some m) (hl : m.left = [])
    (hk : ∀ i u, Among (versions v rs) ((agent v rs).run pre).complete ((agent v rs).run (pre ++ .begin a b :: mid)).begun i u → h.text u.ip = key)
    (r : Request) : m.address h r = if key = [] ∨ r.header key = [] then r.remoteAddr else r.header key := by
  obtain ⟨-, i, ei, p, ep, l, el, gi, gp, gl, e⟩ := C122_what_is_recorded h v rs pre a b mid m hm hl r
  have hp := hk p ep gp
  have : el.ip.len = ep.ip.len := same_len ((hk l el gl).trans hp.symm)
  rw [e, hk i ei gi, this]
  simp only [hp]

theorem reads_run (mem : Mem) (c : Nat) (now : List (Word × Nat)) (next : List Reload) (ys xs : List Slot) : ∀ (d : List Slot) (g : Slot → Nat),
    ∃ g', (⟨mem, c, now, next, [⟨d, xs ++ ys, g⟩]⟩ : State).run (List.replicate xs.length (.read 0)) = ⟨mem, c, now, next, [⟨d ++ xs, ys, g'⟩]⟩ ∧
      (∀ x ∈ xs, g' x = mem x.word) ∧ ∀ x, x ∉ xs → g' x = g x := by
  induction xs with
  | nil => exact fun d g => ⟨g, by simp [State.run], by simp, by simp⟩
  | cons x xs ih =>
    intro d g
    obtain ⟨g', h1, h2, h3⟩ := ih (d ++ [x]) fun y => if y = x then mem x.word else g y
    refine ⟨g', ?_, fun y hy => ?_, fun y hy => ?_⟩
    · rw [show d ++ x :: xs = d ++ [x] ++ xs by simp]
      exact h1
    · by_cases hm : y ∈ xs
      · exact h2 y hm
      · have : y = x := by simpa [hm] using hy
        rw [h3 y hm, if_pos this, this]
    · have hy : y ≠ x ∧ y ∉ xs := by simpa using hy
      rw [h3 y hy.2, if_neg hy.1]

theorem begin_run (mem : Mem) (c : Nat) (now : List (Word × Nat)) (next : List Reload) (a b : Bool) (es : List Event) :
    (⟨mem, c, now, next, []⟩ : State).run (.begin a b :: es) = (⟨mem, c, now, next, [⟨[], slots a b, fun _ => 0⟩]⟩ : State).run es := by
  rw [State.run, List.foldl_cons, State.run]
  rfl

theorem reads_all (mem : Mem) (c : Nat) (now : List (Word × Nat)) (next : List Reload) (a b : Bool) :
    ∃ m, ((⟨mem, c, now, next, []⟩ : State).run (.begin a b :: List.replicate 8 (.read 0))).starters[0]? = some m ∧ m.left = [] ∧
      m.got .enabled = mem .enabled ∧ m.got .keysSet = mem .keysLen ∧ m.got .query = mem .query := by
  obtain ⟨g, h1, h2, -⟩ := reads_run mem c now next [] (slots a b) [] fun _ => 0
  rw [List.append_nil, show (slots a b).length = 8 by cases a <;> cases b <;> rfl] at h1
  refine ⟨⟨slots a b, [], g⟩, ?_, rfl, h2 .enabled ?_, h2 .keysSet ?_, h2 .query ?_⟩
  · rw [begin_run, h1]
    rfl
  all_goals cases a <;> cases b <;> decide

/-- **C122**: when a load both has headers recorded and names which, where none was named before, there is a run in which all headers of a request are
   recorded, whichever words are written and read first. -/
theorem C122_all_disclosed (h : Heap) (v : Version) (l : Reload) (rs : List Reload) (hv : h.text v.keys = []) (hl : l.enabled = true) (a b : Bool)
    (r : Request) : ∃ es m, ((agent v (l :: rs)).run es).starters[0]? = some m ∧ m.left = [] ∧ m.lines h r = allHeaders r ++ queryLine l.query r := by
  have half : ∃ mem now next, (agent v (l :: rs)).run [.load, .load, .load] = ⟨mem, 0, now, next, []⟩ ∧
      mem .enabled = l.enabled.toNat ∧ mem .keysLen = v.keys.len ∧ mem .query = l.query.toNat := by
    obtain ⟨x, y, k, i, p, q⟩ := l
    cases p <;> cases q <;> exact ⟨_, _, _, rfl, rfl, rfl, rfl⟩
  obtain ⟨mem, now, next, e, e1, e2, e3⟩ := half
  obtain ⟨m, h1, h2, h3, h4, h5⟩ := reads_all mem 0 now next a b
  refine ⟨[.load, .load, .load] ++ .begin a b :: List.replicate 8 (.read 0), m, ?_, h2, ?_⟩
  · rw [State.run, List.foldl_append]
    exact (congrArg (fun s : State => (s.run _).starters[0]?) e).trans h1
  · rw [lines_eq, h3, h4, h5, e1, e2, e3, hl, (text_nil h _).mp hv]
    cases l.query <;> rfl

/-- **C122**: likewise when a load has headers no longer recorded and takes away which are named. -/
theorem C122_all_disclosed_at_the_end (h : Heap) (v : Version) (l : Reload) (rs : List Reload) (hv : v.enabled = true) (hl : h.text l.keys = [])
    (a b : Bool) (r : Request) :
    ∃ es m, ((agent v (l :: rs)).run es).starters[0]? = some m ∧ m.left = [] ∧ m.lines h r = allHeaders r ++ queryLine l.query r := by
  obtain ⟨g, h1, h2, -⟩ := reads_run v.words 0 [] (l :: rs) ((slots a b).drop 4) ((slots a b).take 4) [] fun _ => 0
  rw [List.take_append_drop, show ((slots a b).take 4).length = 4 by cases a <;> cases b <;> rfl] at h1
  have loads : ∀ m, ∃ mem, (⟨v.words, 0, [], l :: rs, [m]⟩ : State).run (List.replicate 7 .load) = ⟨mem, 1, [], rs, [m]⟩ ∧
      mem .keysLen = l.keys.len ∧ mem .query = l.query.toNat := by
    intro m
    obtain ⟨x, y, k, i, p, q⟩ := l
    cases p <;> cases q <;> exact ⟨_, rfl, rfl, rfl⟩
  obtain ⟨mem, h3, e1, e2⟩ := loads ⟨[] ++ (slots a b).take 4, (slots a b).drop 4, g⟩
  obtain ⟨g', h4, h5, h6⟩ := reads_run mem 1 [] rs [] ((slots a b).drop 4) ([] ++ (slots a b).take 4) g
  rw [List.append_nil, show ((slots a b).drop 4).length = 4 by cases a <;> cases b <;> rfl] at h4
  refine ⟨.begin a b :: (List.replicate 4 (.read 0) ++ List.replicate 7 .load ++ List.replicate 4 (.read 0)),
    ⟨[] ++ (slots a b).take 4 ++ (slots a b).drop 4, [], g'⟩, ?_, rfl, ?_⟩
  · have split : ∀ (s : State) (x y : List Event), s.run (x ++ y) = (s.run x).run y := fun s x y => List.foldl_append ..
    rw [show agent v (l :: rs) = ⟨v.words, 0, [], l :: rs, []⟩ from rfl, begin_run, split, split, h1, h3, h4]
    rfl
  · have k1 : g' .enabled = v.words .enabled := by
      rw [h6 .enabled (by cases a <;> cases b <;> decide)]
      exact h2 .enabled (by cases a <;> cases b <;> decide)
    have k2 : g' .keysSet = l.keys.len := (h5 .keysSet (by cases a <;> cases b <;> decide)).trans e1
    have k3 : g' .query = l.query.toNat := (h5 .query (by cases a <;> cases b <;> decide)).trans e2
    rw [lines_eq]
    simp only [k1, k2, k3, (text_nil h _).mp hl]
    simp only [Version.words, hv]
    cases l.query <;> rfl

end Disclosed

namespace Demo
open Disclosed Trace

/-- Two lists of headers in memory, and two names of the header with the client's address. -/
def dHeap : Identity.Heap := fun p i =>
  ((match p with
    | 1 => ascii "X-Request-Id"
    | 2 => ascii "X-Forwarded-For"
    | 3 => ascii "X-Real-Ip"
    | 4 => ascii "X-Request-Id#"
    | _ => [])[i]?).getD 0

/-- A request with a secret. -/
def dRequest : Request :=
  { path := ascii "/a", method := ascii "GET", rawQuery := ascii "x=1", remoteAddr := ascii "9.9.9.9:1"
    values := fun k => if k = ascii "X-Request-Id" then [ascii "7"] else if k = ascii "Authorization" then [ascii "secret"]
      else if k = ascii "X-Real-Ip" then [ascii "1.2.3.4"] else if k = ascii "X-Forwar" then [ascii "6.6.6.6"] else []
    headers := [(ascii "X-Request-Id", [ascii "7"]), (ascii "Authorization", [ascii "secret"])] }

/-- Nothing is recorded. -/
def dOff : Disclosed.Version := ⟨false, false, ⟨0, 0⟩, ⟨3, 9⟩⟩

/-- One header is to be recorded. -/
def dOn : Disclosed.Reload := ⟨false, true, ⟨1, 12⟩, ⟨3, 9⟩, true, false⟩

/-- The header is named, nothing is recorded yet. -/
def dNamed : Disclosed.Reload := ⟨false, false, ⟨4, 12⟩, ⟨3, 9⟩, false, true⟩

/-- The secret is recorded though neither configuration says so. -/
example : requestLines (dOff.conf dHeap httpConf) dRequest = [] ∧
    requestLines (dOn.version.conf dHeap httpConf) dRequest = [ascii "header: X-Request-Id: 7"] ∧
    ((Disclosed.agent dOff [dOn]).run ([.load, .load, .load] ++ .begin true true :: List.replicate 8 (.read 0))).starters[0]?.map
      (fun m => (m.left, m.lines dHeap dRequest)) = some ([], [ascii "header: X-Request-Id: 7", ascii "header: Authorization: secret"]) := by
  decide +kernel

/-- The hypotheses of `C122_named_before` are met by naming the header a load earlier, and the run that told the secret does not tell it. -/
example : (∀ (i : Nat) (u : Disclosed.Version) (j : Nat) (x : Disclosed.Version), (Disclosed.versions dOff [dNamed, dOn])[i]? = some u → u.enabled = true →
      (Disclosed.versions dOff [dNamed, dOn])[j]? = some x → i ≤ j + 1 → dHeap.text x.keys = ascii "X-Request-Id") ∧
    ((Disclosed.agent dOff [dNamed, dOn]).run (List.replicate 7 .load ++ [.load, .load, .load] ++ .begin true true ::
      List.replicate 8 (.read 0))).starters[0]?.map (fun m => (m.left, m.lines dHeap dRequest)) = some ([], [ascii "header: X-Request-Id: 7"]) := by
  refine ⟨?_, by decide +kernel⟩
  intro i u j x hi he hj hij
  match i, j with
  | 0, _ => cases hi; cases he
  | 1, _ => cases hi; cases he
  | 2, 0 => omega
  | 2, 1 => cases hj; decide +kernel
  | 2, 2 => cases hj; decide +kernel
  | 2, _ + 3 => simp [Disclosed.versions] at hj
  | _ + 3, _ => simp [Disclosed.versions] at hi

/-- Those of `C122_same_again` and `C122_client_address` by a text made anew with the same bytes. -/
example : (∀ r ∈ [{ dNamed with enabled := true }], r.query = dOn.version.query ∧ r.enabled = dOn.version.enabled ∧
      dHeap.text r.keys = dHeap.text dOn.version.keys ∧ dHeap.text r.ip = dHeap.text dOn.version.ip) ∧
    ((Disclosed.agent dOn.version [{ dNamed with enabled := true }]).run ([] ++ .begin true false :: (List.replicate 6 (.read 0) ++
      [.load, .load, .load, .load] ++ List.replicate 2 (.read 0)))).starters[0]?.map (fun m => (m.left, m.lines dHeap dRequest,
        m.address dHeap dRequest)) = some ([], [ascii "header: X-Request-Id: 7"], ascii "1.2.3.4") := by decide +kernel

/-- The client's address is taken from a header neither configuration names. -/
example : ((Disclosed.agent { dOff with ip := ⟨2, 15⟩ } [{ dOn with ip := ⟨3, 8⟩ }]).run (List.replicate 6 .load ++
      .begin true true :: List.replicate 8 (.read 0))).starters[0]?.map (fun m => (m.left, m.address dHeap dRequest))
    = some ([], ascii "6.6.6.6") := by decide +kernel

/-- A request between two loads, and one while no configuration records headers. -/
example : let s := (Disclosed.agent dOff [dOn]).run (List.replicate 7 .load)
    let t := (Disclosed.agent dOff [dOn]).run (List.replicate 7 .load ++ .begin false true :: List.replicate 8 (.read 0))
    t.begun = s.complete ∧ s.complete = 1 ∧
    t.starters[s.starters.length]?.map (fun m => (m.left, m.lines dHeap dRequest)) = some ([], [ascii "header: X-Request-Id: 7"]) ∧
    (Disclosed.versions dOff [dNamed]).all (fun u => !u.enabled) ∧
    ((Disclosed.agent dOff [dNamed]).run ([] ++ .begin true true :: (.read 0 :: List.replicate 7 .load ++ List.replicate 7 (.read 0)))).starters[0]?.map
      (fun m => (m.left, m.lines dHeap dRequest)) = some ([], []) := by decide +kernel

end Demo
end Scouter
