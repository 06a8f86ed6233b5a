import Verif.Spec.Identity
/-!
# C121: who the agent says it is while the configuration is being loaded
-/
namespace Scouter
open Spec
namespace Identity

/-- The word a step writes. -/
def Instr.word : Instr → Word
  | .write w _ => w
  | .rehash => .hash

/-- The words written by a load, in order. -/
def order (a b c d : Bool) : List Word :=
  readText .simplePtr .simpleLen a ++ readText .namePtr .nameLen b ++ [.hash] ++ readText .typePtr .typeLen c ++ readText .ipPtr .ipLen d ++
    [.udpPort, .tcpPort]

theorem code_words (r : Reload) : r.code.map Instr.word = order r.simpleFirst r.nameFirst r.typeFirst r.ipFirst := by
  unfold Reload.code order assign readText
  cases r.simpleFirst <;> cases r.nameFirst <;> cases r.typeFirst <;> cases r.ipFirst <;> rfl

theorem order_all (a b c d : Bool) (w : Word) : w ∈ order a b c d := by
  cases a <;> cases b <;> cases c <;> cases d <;> cases w <;> decide

theorem order_nodup (a b c d : Bool) : (order a b c d).Nodup := by
  cases a <;> cases b <;> cases c <;> cases d <;> decide

theorem order_length (a b c d : Bool) : (order a b c d).length = 11 := by
  cases a <;> cases b <;> cases c <;> cases d <;> rfl

theorem order_suffix {a b c d : Bool} {l : List Word} (hs : l <:+ order a b c d) : ∃ n < 12, l = (order a b c d).drop n :=
  ⟨_, by rw [order_length]; omega, List.suffix_iff_eq_drop.mp hs⟩

theorem order_hash (a b c d : Bool) (is : List Word) (hs : (Word.hash :: is) <:+ order a b c d) : Word.namePtr ∉ is ∧ Word.nameLen ∉ is := by
  have key : ∀ n < 12, ((order a b c d).drop n).head? = some Word.hash →
      Word.namePtr ∉ ((order a b c d).drop n).tail ∧ Word.nameLen ∉ ((order a b c d).drop n).tail := by
    cases a <;> cases b <;> cases c <;> cases d <;> decide
  obtain ⟨n, hn, he⟩ := order_suffix hs
  have := key n hn
  rw [← he] at this
  exact this rfl

/-- What is assigned after the hash, and read before it. -/
def Behind (w : Word) : Prop := w = .typePtr ∨ w = .typeLen ∨ w = .ipPtr ∨ w = .ipLen ∨ w = .tcpPort

theorem order_behind (a b c d : Bool) (is : List Word) (hs : is <:+ order a b c d) (hm : Word.hash ∈ is) (w : Word) (hw : Behind w) : w ∈ is := by
  have key : ∀ n < 12, Word.hash ∈ (order a b c d).drop n → Word.typePtr ∈ (order a b c d).drop n ∧ Word.typeLen ∈ (order a b c d).drop n ∧
      Word.ipPtr ∈ (order a b c d).drop n ∧ Word.ipLen ∈ (order a b c d).drop n ∧ Word.tcpPort ∈ (order a b c d).drop n := by
    cases a <;> cases b <;> cases c <;> cases d <;> decide
  obtain ⟨n, hn, he⟩ := order_suffix hs
  rw [he] at hm ⊢
  obtain ⟨h1, h2, h3, h4, h5⟩ := key n hn hm
  rcases hw with rfl | rfl | rfl | rfl | rfl <;> assumption

theorem code_value (h : Heap) (r : Reload) (w : Word) (v : Nat) (hm : Instr.write w v ∈ r.code) : v = r.version.words h w := by
  unfold Reload.code assign at hm
  cases hs : r.simpleFirst <;> cases hn : r.nameFirst <;> cases ht : r.typeFirst <;> cases hi : r.ipFirst <;> simp [hs, hn, ht, hi] at hm <;>
    rcases hm with ⟨rfl, rfl⟩ | ⟨rfl, rfl⟩ | ⟨rfl, rfl⟩ | ⟨rfl, rfl⟩ | ⟨rfl, rfl⟩ | ⟨rfl, rfl⟩ | ⟨rfl, rfl⟩ | ⟨rfl, rfl⟩ | ⟨rfl, rfl⟩ |
      ⟨rfl, rfl⟩ <;> rfl

/-- The configuration a word is of. -/
def verOf (s : State) (w : Word) : Nat :=
  if s.now = [] then s.complete else if w ∈ s.now.map Instr.word then s.complete else s.complete + 1

theorem verOf_ge (s : State) (w : Word) : s.complete ≤ verOf s w := by
  unfold verOf
  split
  · exact Nat.le_refl _
  · split <;> omega

theorem verOf_le (s : State) (w : Word) : verOf s w ≤ s.begun := by
  unfold verOf State.begun
  split
  · exact Nat.le_refl _
  · split <;> omega

/-- What holds at every moment of the words. -/
structure Sound (h : Heap) (v : Version) (rs : List Reload) (s : State) : Prop where
  next : s.next = rs.drop s.begun
  now : s.now ≠ [] → ∃ r, rs[s.complete]? = some r ∧ s.now <:+ r.code
  words : ∀ w, ∃ u, (versions v rs)[verOf s w]? = some u ∧ s.mem w = u.words h w

/-- The words only become newer. -/
theorem verOf_step {h : Heap} {v : Version} {rs : List Reload} {s : State} (hs : Sound h v rs s) (e : Event) (w : Word) :
    verOf s w ≤ verOf (s.step h e) w := by
  cases e with
  | begin k => exact Nat.le_refl _
  | read i =>
    simp only [State.step]
    split
    · exact Nat.le_refl _
    · split <;> exact Nat.le_refl _
  | load =>
    simp only [State.step]
    split
    · next hn =>
      have e0 : verOf s w = s.complete := by rw [verOf, if_pos hn]
      split
      · exact Nat.le_refl _
      · next r rest _ =>
        rw [e0]
        exact verOf_ge { s with now := r.code, next := rest } w
    · next i is hn =>
      obtain ⟨r, -, hsuf⟩ := hs.now (by rw [hn]; simp)
      by_cases hi : is = []
      · subst hi
        show verOf s w ≤ s.complete + 1
        have := verOf_le s w
        rw [State.begun, if_neg (by rw [hn]; simp)] at this
        exact this
      · unfold verOf
        simp only [hn, hi, if_false, List.map_cons, List.mem_cons, reduceCtorEq]
        by_cases hw : w ∈ is.map Instr.word
        · simp [hw]
        · rw [if_neg hw]
          split <;> omega

theorem sound_step {h : Heap} {v : Version} {rs : List Reload} {s : State} (hs : Sound h v rs s) (e : Event) : Sound h v rs (s.step h e) := by
  cases e with
  | begin k => exact ⟨hs.next, hs.now, hs.words⟩
  | read i =>
    simp only [State.step]
    split
    · exact hs
    · split
      · exact hs
      · exact ⟨hs.next, hs.now, hs.words⟩
  | load =>
    simp only [State.step]
    split
    · next hn =>
      have hnext := hs.next
      rw [State.begun, if_pos hn] at hnext
      split
      · exact hs
      · next r rest hr =>
        rw [hr] at hnext
        have hcode : r.code ≠ [] := by
          intro h0
          have := order_all r.simpleFirst r.nameFirst r.typeFirst r.ipFirst .hash
          rw [← code_words, h0] at this
          simp at this
        have hget : rs[s.complete]? = some r := by
          have := congrArg List.head? hnext
          rw [List.head?_drop] at this
          exact this.symm
        refine ⟨?_, fun _ => ⟨r, hget, List.suffix_refl _⟩, fun w => ?_⟩
        · show rest = _
          rw [State.begun, if_neg (show r.code ≠ [] from hcode)]
          show rest = rs.drop (s.complete + 1)
          rw [← List.drop_drop, ← hnext]
          rfl
        · obtain ⟨u, hu, hm⟩ := hs.words w
          refine ⟨u, ?_, hm⟩
          rw [← hu]
          congr 1
          show verOf _ w = verOf s w
          unfold verOf
          rw [if_pos hn, if_neg (show r.code ≠ [] from hcode), if_pos (by
            show w ∈ r.code.map Instr.word
            rw [code_words]
            exact order_all _ _ _ _ _)]
    · next i is hn =>
      obtain ⟨r, hr, hsuf⟩ := hs.now (by rw [hn]; simp)
      rw [hn] at hsuf
      have hnew : (versions v rs)[s.complete + 1]? = some r.version := by
        simp [versions, hr]
      have hwsuf : (i.word :: is.map Instr.word) <:+ order r.simpleFirst r.nameFirst r.typeFirst r.ipFirst := by
        rw [← code_words]
        exact hsuf.map Instr.word
      have hnd : i.word ∉ is.map Instr.word := by
        have := (hwsuf.sublist.nodup (order_nodup _ _ _ _))
        exact (List.nodup_cons.mp this).1
      have hbeg : s.begun = s.complete + 1 := by rw [State.begun, if_neg (by rw [hn]; simp)]
      have hval : i.run h s.mem i.word = r.version.words h i.word := by
        cases i with
        | write w x =>
          show (s.mem.set w x) w = _
          rw [Mem.set, if_pos rfl]
          exact code_value h r w x (hsuf.subset (List.mem_cons_self ..))
        | rehash =>
          show (s.mem.set .hash _) .hash = _
          rw [Mem.set, if_pos rfl]
          obtain ⟨h1, h2⟩ := order_hash _ _ _ _ _ hwsuf
          have get : ∀ w, w ∉ is.map Instr.word → w ≠ .hash → s.mem w = r.version.words h w := by
            intro w hw hne
            obtain ⟨u, hu, hm⟩ := hs.words w
            have : verOf s w = s.complete + 1 := by
              unfold verOf
              rw [hn, if_neg (by simp), if_neg]
              simp only [List.map_cons, List.mem_cons, not_or]
              exact ⟨hne, hw⟩
            rw [this, hnew] at hu
            rw [hm, ← Option.some.inj hu]
          rw [get _ h1 (by decide), get _ h2 (by decide), C16_hash_is_crc32]
          rfl
      have hother : ∀ w, w ≠ i.word → i.run h s.mem w = s.mem w := by
        intro w hw
        cases i with
        | write w' x => exact if_neg hw
        | rehash => exact if_neg hw
      refine ⟨?_, fun hne => ?_, fun w => ?_⟩
      · rw [hs.next, hbeg]
        by_cases hi : is = []
        · simp [State.begun, hi]
        · simp [State.begun, hi]
      · have hne : is ≠ [] := hne
        refine ⟨r, ?_, (List.suffix_cons i is).trans hsuf⟩
        show rs[if is = [] then s.complete + 1 else s.complete]? = some r
        rw [if_neg hne]
        exact hr
      · by_cases hw : w = i.word
        · subst hw
          refine ⟨r.version, ?_, hval⟩
          rw [← hnew]
          congr 1
          unfold verOf
          by_cases hi : is = []
          · simp [hi]
          · simp only [hi, if_false, if_neg hnd]
        · obtain ⟨u, hu, hm⟩ := hs.words w
          refine ⟨u, ?_, (hother w hw).trans hm⟩
          rw [← hu]
          congr 1
          unfold verOf
          simp only [hn, List.map_cons, List.mem_cons, hw, false_or, reduceCtorEq, if_false]
          by_cases hi : is = []
          · simp [hi]
          · simp [hi]

theorem sound_agent (h : Heap) (v : Version) (rs : List Reload) : Sound h v rs (agent h v rs) :=
  ⟨rfl, fun hn => absurd rfl hn, fun _ => ⟨v, rfl, rfl⟩⟩

theorem sound_run {h : Heap} {v : Version} {rs : List Reload} (es : List Event) :
    ∀ {s : State}, Sound h v rs s → Sound h v rs (s.run h es) := by
  induction es with
  | nil => exact fun hs => hs
  | cons e es ih => exact fun hs => ih (sound_step hs e)

theorem verOf_run {h : Heap} {v : Version} {rs : List Reload} (es : List Event) (w : Word) :
    ∀ {s : State}, Sound h v rs s → verOf s w ≤ verOf (s.run h es) w := by
  induction es with
  | nil => exact fun _ => Nat.le_refl _
  | cons e es ih => exact fun hs => Nat.le_trans (verOf_step hs e w) (ih (sound_step hs e))

/-- The type and the collector's address are never newer than the hash. -/
theorem hash_first {h : Heap} {v : Version} {rs : List Reload} {s : State} (hs : Sound h v rs s) (w : Word) (hb : Behind w) :
    verOf s w ≤ verOf s .hash := by
  by_cases hn : s.now = []
  · simp [verOf, hn]
  · obtain ⟨r, -, hsuf⟩ := hs.now hn
    have hw : s.now.map Instr.word <:+ order r.simpleFirst r.nameFirst r.typeFirst r.ipFirst := by
      rw [← code_words]
      exact hsuf.map _
    unfold verOf
    simp only [if_neg hn]
    by_cases hh : Word.hash ∈ s.now.map Instr.word
    · rw [if_pos (order_behind _ _ _ _ _ hw hh w hb), if_pos hh]
      exact Nat.le_refl _
    · rw [if_neg hh]
      split <;> omega

/-- A word that was read is that of a configuration there was meanwhile. -/
def Got (h : Heap) (vs : List Version) (m : Maker) (w : Word) (lo hi : Nat) : Prop :=
  ∃ i u, Among vs lo hi i u ∧ m.got w = u.words h w

theorem Got.mono {h : Heap} {vs : List Version} {m : Maker} {w : Word} {lo hi hi' : Nat} (g : Got h vs m w lo hi) (hh : hi ≤ hi') :
    Got h vs m w lo hi' := by
  obtain ⟨i, u, ⟨h1, h2, h3⟩, h4⟩ := g
  exact ⟨i, u, ⟨h1, h2, Nat.le_trans h3 hh⟩, h4⟩

/-- What holds of a pack begun at `s₀`, at `s`. -/
structure Made (h : Heap) (vs : List Version) (s₀ s : State) (m : Maker) : Prop where
  left : m.left <:+ m.kind.words
  got : ∀ w ∈ m.kind.words, w ∉ m.left → Got h vs m w (verOf s₀ w) (verOf s w)
  last : m.kind.words.getLast? = some .hash → m.left = [] → ∃ j u, Among vs (verOf s₀ .hash) (verOf s .hash) j u ∧
    m.got .hash = u.words h .hash ∧ ∀ w ∈ m.kind.words, w ≠ .hash → Got h vs m w (verOf s₀ w) j

theorem Made.later {h : Heap} {vs : List Version} {s₀ s t : State} {m : Maker} (g : Made h vs s₀ s m) (hm : ∀ w, verOf s w ≤ verOf t w) :
    Made h vs s₀ t m := by
  refine ⟨g.left, fun w hw hl => (g.got w hw hl).mono (hm w), fun hb hl => ?_⟩
  obtain ⟨j, u, ⟨h1, h2, h3⟩, h4⟩ := g.last hb hl
  exact ⟨j, u, ⟨h1, h2, Nat.le_trans h3 (hm _)⟩, h4⟩

theorem words_nodup (k : Kind) : k.words.Nodup := by
  rcases k with (_ | _) | ⟨(_ | _), (_ | _)⟩ | (_ | _) | _ | (_ | _) | (_ | _) | (_ | _) <;> decide

theorem words_behind (k : Kind) (hk : k.words.getLast? = some .hash) : ∀ w ∈ k.words, w ≠ .hash → Behind w := by
  rcases k with (_ | _) | ⟨(_ | _), (_ | _)⟩ | (_ | _) | _ | (_ | _) | (_ | _) | (_ | _) <;> simp [Kind.words, readText, Behind] at hk ⊢

theorem made_step {h : Heap} {v : Version} {rs : List Reload} {s₀ s : State} (hs : Sound h v rs s) (h0 : ∀ w, verOf s₀ w ≤ verOf s w) {n : Nat}
    {m : Maker} (hm : s.makers[n]? = some m) (g : Made h (versions v rs) s₀ s m) (e : Event) :
    ∃ m', (s.step h e).makers[n]? = some m' ∧ Made h (versions v rs) s₀ (s.step h e) m' ∧ m'.kind = m.kind := by
  have mono := verOf_step hs e
  cases e with
  | begin k =>
    refine ⟨m, ?_, g.later mono, rfl⟩
    show (s.makers ++ _)[n]? = _
    rw [List.getElem?_append_left (List.getElem?_eq_some_iff.mp hm).1]
    exact hm
  | load =>
    refine ⟨m, ?_, g.later mono, rfl⟩
    simp only [State.step]
    split
    · split <;> exact hm
    · exact hm
  | read i =>
    by_cases hi : i = n
    · subst hi
      cases hl : m.left with
      | nil =>
        have he : s.step h (.read i) = s := by simp only [State.step, hm, hl]
        rw [he]
        exact ⟨m, hm, g, rfl⟩
      | cons w ws =>
        have he : s.step h (.read i) = { s with makers := s.makers.set i { m with left := ws, got := m.got.set w (s.mem w) } } := by
          simp only [State.step, hm, hl]
        rw [he]
        have hlt := (List.getElem?_eq_some_iff.mp hm).1
        have hleft := g.left
        rw [hl] at hleft
        have hnd := List.nodup_cons.mp (hleft.sublist.nodup (words_nodup _))
        obtain ⟨u, hu, hval⟩ := hs.words w
        have old : ∀ x ∈ m.kind.words, x ∉ m.left → ∀ lo hi, Got h (versions v rs) m x lo hi →
            Got h (versions v rs) { m with left := ws, got := m.got.set w (s.mem w) } x lo hi := by
          rintro x - hx lo hi ⟨i, u, h1, h2⟩
          refine ⟨i, u, h1, ?_⟩
          show (m.got.set w _) x = _
          rw [Mem.set, if_neg, h2]
          rintro rfl
          exact hx (by rw [hl]; simp)
        have new : Got h (versions v rs) { m with left := ws, got := m.got.set w (s.mem w) } w (verOf s₀ w) (verOf s w) :=
          ⟨verOf s w, u, ⟨hu, h0 w, Nat.le_refl _⟩, by
            show (m.got.set w _) w = _
            rw [Mem.set, if_pos rfl, hval]⟩
        refine ⟨{ m with left := ws, got := m.got.set w (s.mem w) }, by simp [hlt], ⟨(List.suffix_cons w ws).trans hleft, fun x hx hxl => ?_, fun hb hws => ?_⟩, rfl⟩
        · by_cases hxw : x = w
          · subst hxw
            exact new
          · have hxl : x ∉ ws := hxl
            have hxm : x ∉ m.left := by
              rw [hl, List.mem_cons, not_or]
              exact ⟨hxw, hxl⟩
            exact old x hx hxm _ _ (g.got x hx hxm)
        · have hb : m.kind.words.getLast? = some .hash := hb
          have hws : ws = [] := hws
          subst hws
          have hwh : w = .hash := by
            obtain ⟨p, hp⟩ := hleft
            have := congrArg List.getLast? hp
            rw [List.getLast?_append, hb] at this
            simpa using this
          subst hwh
          refine ⟨verOf s .hash, u, ⟨hu, h0 _, Nat.le_refl _⟩, ?_, fun x hx hne => ?_⟩
          · show (m.got.set .hash (s.mem .hash)) .hash = _
            rw [Mem.set, if_pos rfl]
            exact hval
          · have hxl : x ∉ m.left := by
              rw [hl, List.mem_singleton]
              exact hne
            exact old _ hx hxl _ _ ((g.got _ hx hxl).mono (hash_first hs _ (words_behind _ hb _ hx hne)))
    · refine ⟨m, ?_, g.later mono, rfl⟩
      simp only [State.step]
      split
      · exact hm
      · split
        · exact hm
        · rw [List.getElem?_set, if_neg hi]
          exact hm

theorem made_run {h : Heap} {v : Version} {rs : List Reload} {s₀ : State} {n : Nat} (es : List Event) :
    ∀ {s : State} {m : Maker}, Sound h v rs s → (∀ w, verOf s₀ w ≤ verOf s w) → s.makers[n]? = some m → Made h (versions v rs) s₀ s m →
    ∃ m', (s.run h es).makers[n]? = some m' ∧ Made h (versions v rs) s₀ (s.run h es) m' ∧ m'.kind = m.kind := by
  induction es with
  | nil => exact fun _ _ hm g => ⟨_, hm, g, rfl⟩
  | cons e es ih =>
    intro s m hs h0 hm g
    obtain ⟨m1, h1, g1, k1⟩ := made_step hs h0 hm g e
    obtain ⟨m2, h2, g2, k2⟩ := ih (sound_step hs e) (fun w => Nat.le_trans (h0 w) (verOf_step hs e w)) h1 g1
    exact ⟨m2, h2, g2, k2.trans k1⟩

/-- A pack begun after `pre`. -/
theorem made_begun (h : Heap) (v : Version) (rs : List Reload) (pre : List Event) (k : Kind) (mid : List Event) (m : Maker)
    (hm : ((agent h v rs).run h (pre ++ .begin k :: mid)).makers[((agent h v rs).run h pre).makers.length]? = some m) :
    m.kind = k ∧ Made h (versions v rs) ((agent h v rs).run h pre) ((agent h v rs).run h (pre ++ .begin k :: mid)) m := by
  have hs := sound_run pre (sound_agent h v rs)
  generalize hS : (agent h v rs).run h pre = S at *
  have hrun : (agent h v rs).run h (pre ++ .begin k :: mid) = (S.step h (.begin k)).run h mid := by
    rw [← hS]
    simp [State.run]
  rw [hrun] at hm ⊢
  have h1 : (S.step h (.begin k)).makers[S.makers.length]? = some ⟨k, k.words, fun _ => 0⟩ := by
    simp [State.step]
  have h2 : Made h (versions v rs) S (S.step h (.begin k)) ⟨k, k.words, fun _ => 0⟩ := by
    refine ⟨List.suffix_refl _, fun w hw hl => absurd hw hl, fun hb hl => ?_⟩
    have hl : k.words = [] := hl
    have hb : k.words.getLast? = some .hash := hb
    rw [hl] at hb
    cases hb
  obtain ⟨m', h3, h4, h5⟩ := made_run mid (sound_step hs (.begin k)) (fun w => verOf_step hs _ w) h1 h2
  rw [hm] at h3
  obtain rfl := Option.some.inj h3
  exact ⟨h5, h4⟩

theorem text_take (h : Heap) (p : Nat) {a b : Nat} (hab : a ≤ b) : h.text ⟨p, a⟩ = (h.text ⟨p, b⟩).take a := by
  unfold Heap.text
  rw [← List.map_take, List.take_range, Nat.min_eq_left hab]

theorem text_length (h : Heap) (r : Ref) : (h.text r).length = r.len := by simp [Heap.text]

theorem words_hash (h : Heap) (v : Version) : BitVec.ofNat 32 (v.words h .hash) = crc32 (h.text v.name) := by
  simp [Version.words]

theorem sentName_eq (n : Bytes) : sentName n = crc32 n := by
  unfold sentName
  split
  · next h => rw [h, ← C16_hash_is_crc32, C16_hash_empty]
  · exact C16_hash_is_crc32 n

/-- **C121**: a pack is begun at any moment and made while the configuration is being loaded any number of times.  The name and the type it
   tells are each the text at the place of one configuration's, of the length of another's; the object's hash is always that of the name told
   with it; the hash of an alert, a log or a profile is that of some configuration's name, in an alert of one that is not older than the type.
   The collector is called at the text at the place of one configuration's address, of the length of another's, and at the port of another, and the
   session is registered under the hash of a configuration not older than these.  Datagrams go likewise to such an address, and to the port of one.
   All are configurations there were between the beginning of the pack and its end. -/
theorem C121_what_is_told (h : Heap) (v : Version) (rs : List Reload) (pre : List Event) (k : Kind) (mid : List Event) (m : Maker)
    (hm : ((agent h v rs).run h (pre ++ .begin k :: mid)).makers[((agent h v rs).run h pre).makers.length]? = some m) (hl : m.left = []) :
    MaySay h (versions v rs) ((agent h v rs).run h pre).complete ((agent h v rs).run h (pre ++ .begin k :: mid)).begun (m.said h) := by
  obtain ⟨rfl, g⟩ := made_begun h v rs pre k mid m hm
  generalize (agent h v rs).run h pre = S at *
  generalize (agent h v rs).run h (pre ++ .begin m.kind :: mid) = T at *
  have got : ∀ w ∈ m.kind.words, Got h (versions v rs) m w S.complete T.begun := by
    intro w hw
    obtain ⟨i, u, ⟨h1, h2, h3⟩, h4⟩ := g.got w hw (by rw [hl]; simp)
    exact ⟨i, u, ⟨h1, Nat.le_trans (verOf_ge _ _) h2, Nat.le_trans h3 (verOf_le _ _)⟩, h4⟩
  have name : Word.namePtr ∈ m.kind.words → Word.nameLen ∈ m.kind.words →
      NameOf h (versions v rs) S.complete T.begun (h.text ⟨m.got .namePtr, m.got .nameLen⟩) := by
    intro h1 h2
    obtain ⟨i, u, a1, b1⟩ := got _ h1
    obtain ⟨j, x, a2, b2⟩ := got _ h2
    exact ⟨i, u, j, x, a1, a2, by rw [b1, b2]; rfl⟩
  have type : Word.typePtr ∈ m.kind.words → Word.typeLen ∈ m.kind.words →
      TypeOf h (versions v rs) S.complete T.begun (h.text ⟨m.got .typePtr, m.got .typeLen⟩) := by
    intro h1 h2
    obtain ⟨i, u, a1, b1⟩ := got _ h1
    obtain ⟨j, x, a2, b2⟩ := got _ h2
    exact ⟨i, u, j, x, a1, a2, by rw [b1, b2]; rfl⟩
  unfold Maker.said
  cases hk : m.kind with
  | counters b =>
    rw [hk] at name
    exact name (by cases b <;> decide) (by cases b <;> decide)
  | object a b =>
    rw [hk] at name type
    exact ⟨name (by cases a <;> cases b <;> decide) (by cases a <;> cases b <;> decide), sentName_eq _,
      type (by cases a <;> cases b <;> decide) (by cases a <;> cases b <;> decide)⟩
  | alert b =>
    obtain ⟨j, u, ⟨h1, h2, h3⟩, h4, h5⟩ := g.last (by rw [hk]; cases b <;> rfl) hl
    obtain ⟨i1, u1, ⟨a1, a2, a3⟩, a4⟩ := h5 .typePtr (by rw [hk]; cases b <;> decide) (by decide)
    obtain ⟨i2, u2, ⟨b1, b2, b3⟩, b4⟩ := h5 .typeLen (by rw [hk]; cases b <;> decide) (by decide)
    refine ⟨j, u, ⟨h1, Nat.le_trans (verOf_ge _ _) h2, Nat.le_trans h3 (verOf_le _ _)⟩, ?_, ?_⟩
    · show BitVec.ofNat 32 (m.got .hash) = _
      rw [h4, words_hash]
    · exact ⟨i1, u1, i2, u2, ⟨a1, Nat.le_trans (verOf_ge _ _) a2, a3⟩, ⟨b1, Nat.le_trans (verOf_ge _ _) b2, b3⟩, by rw [a4, b4]; rfl⟩
  | log =>
    rw [hk] at got
    obtain ⟨j, u, a, b⟩ := got .hash (by decide)
    refine ⟨j, u, a, ?_⟩
    show BitVec.ofNat 32 (m.got .hash) = _
    rw [b, words_hash]
  | dial b =>
    obtain ⟨j, u, ⟨h1, h2, h3⟩, h4, h5⟩ := g.last (by rw [hk]; cases b <;> rfl) hl
    obtain ⟨i1, u1, ⟨a1, a2, a3⟩, a4⟩ := h5 .ipPtr (by rw [hk]; cases b <;> decide) (by decide)
    obtain ⟨i2, u2, ⟨b1, b2, b3⟩, b4⟩ := h5 .ipLen (by rw [hk]; cases b <;> decide) (by decide)
    obtain ⟨i3, u3, ⟨c1, c2, c3⟩, c4⟩ := h5 .tcpPort (by rw [hk]; cases b <;> decide) (by decide)
    refine ⟨j, u, ⟨h1, Nat.le_trans (verOf_ge _ _) h2, Nat.le_trans h3 (verOf_le _ _)⟩, ?_, ?_, ?_⟩
    · show BitVec.ofNat 32 (m.got .hash) = _
      rw [h4, words_hash]
    · exact ⟨i1, u1, i2, u2, ⟨a1, Nat.le_trans (verOf_ge _ _) a2, a3⟩, ⟨b1, Nat.le_trans (verOf_ge _ _) b2, b3⟩, by rw [a4, b4]; rfl⟩
    · exact ⟨i3, u3, ⟨c1, Nat.le_trans (verOf_ge _ _) c2, c3⟩, c4⟩
  | udp b =>
    rw [hk] at got
    obtain ⟨i1, u1, a1, b1⟩ := got .ipPtr (by cases b <;> decide)
    obtain ⟨i2, u2, a2, b2⟩ := got .ipLen (by cases b <;> decide)
    obtain ⟨i3, u3, a3, b3⟩ := got .udpPort (by cases b <;> decide)
    exact ⟨⟨i1, u1, i2, u2, a1, a2, by rw [b1, b2]; rfl⟩, i3, u3, a3, b3⟩
  | watch b =>
    rw [hk] at got
    obtain ⟨i1, u1, a1, b1⟩ := got .ipPtr (by cases b <;> decide)
    obtain ⟨i2, u2, a2, b2⟩ := got .ipLen (by cases b <;> decide)
    obtain ⟨i3, u3, a3, b3⟩ := got .tcpPort (by cases b <;> decide)
    obtain ⟨i4, u4, a4, b4⟩ := got .hash (by cases b <;> decide)
    refine ⟨⟨i4, u4, a4, ?_⟩, ⟨i1, u1, i2, u2, a1, a2, by rw [b1, b2]; rfl⟩, i3, u3, a3, b3⟩
    show BitVec.ofNat 32 (m.got .hash) = _
    rw [b4, words_hash]

/-- **C121**: a pack made while the configuration is not being loaded tells the name, hash and type of the configuration there is. -/
theorem C121_between_loads (h : Heap) (v : Version) (rs : List Reload) (pre : List Event) (k : Kind) (mid : List Event) (m : Maker)
    (hm : ((agent h v rs).run h (pre ++ .begin k :: mid)).makers[((agent h v rs).run h pre).makers.length]? = some m) (hl : m.left = [])
    (hq : ((agent h v rs).run h (pre ++ .begin k :: mid)).begun = ((agent h v rs).run h pre).complete) :
    ∃ u, (versions v rs)[((agent h v rs).run h pre).complete]? = some u ∧ m.said h = u.says h k := by
  have hsay := C121_what_is_told h v rs pre k mid m hm hl
  obtain ⟨hk, -⟩ := made_begun h v rs pre k mid m hm
  rw [hq] at hsay
  generalize ((agent h v rs).run h pre).complete = n at *
  have hkind : ∀ u : Version, m.said h = u.says h m.kind → m.said h = u.says h k := fun u hu => hk ▸ hu
  have one : ∀ {lo hi i j : Nat} {x y : Version}, Among (versions v rs) n n i x → Among (versions v rs) lo hi j y → lo = n → hi ≤ n → x = y ∧
      (versions v rs)[n]? = some x := by
    rintro lo hi i j x y ⟨h1, h2, h3⟩ ⟨h4, h5, h6⟩ rfl hh
    obtain rfl : i = lo := Nat.le_antisymm h3 h2
    obtain rfl : j = i := Nat.le_antisymm (Nat.le_trans h6 hh) h5
    rw [h1] at h4
    exact ⟨Option.some.inj h4, h1⟩
  unfold Maker.said at hsay hkind ⊢
  cases hmk : m.kind with
  | counters b =>
    rw [hmk] at hsay hkind
    obtain ⟨i, x, j, y, a, b', e⟩ := hsay
    obtain ⟨rfl, hx⟩ := one a b' rfl (Nat.le_refl _)
    exact ⟨x, hx, hkind x (congrArg Said.counters e)⟩
  | object b c =>
    rw [hmk] at hsay hkind
    obtain ⟨⟨i, x, j, y, a, b', e⟩, e2, ⟨i', x', j', y', a', b'', e3⟩⟩ := hsay
    obtain ⟨rfl, hx⟩ := one a b' rfl (Nat.le_refl _)
    obtain ⟨rfl, -⟩ := one a a' rfl (Nat.le_refl _)
    obtain ⟨rfl, -⟩ := one a b'' rfl (Nat.le_refl _)
    refine ⟨x, hx, hkind x ?_⟩
    show Said.object _ _ _ = Said.object _ _ _
    rw [e2, e, e3]
  | alert b =>
    rw [hmk] at hsay hkind
    obtain ⟨j, x, a, e, ⟨i', x', j', y', a', b'', e3⟩⟩ := hsay
    have hj : j ≤ n := a.2.2
    obtain ⟨rfl, hx⟩ := one a a' rfl hj
    obtain ⟨rfl, -⟩ := one a b'' rfl hj
    refine ⟨x, hx, hkind x ?_⟩
    show Said.alert _ _ = Said.alert _ _
    rw [e, e3]
  | log =>
    rw [hmk] at hsay hkind
    obtain ⟨j, x, a, e⟩ := hsay
    obtain ⟨-, hx⟩ := one a a rfl (Nat.le_refl _)
    exact ⟨x, hx, hkind x (congrArg Said.log e)⟩
  | dial b =>
    rw [hmk] at hsay hkind
    obtain ⟨j, x, a, e, ⟨i', x', j', y', a', b'', e3⟩, i'', y'', c, e4⟩ := hsay
    have hj : j ≤ n := a.2.2
    obtain ⟨rfl, hx⟩ := one a a' rfl hj
    obtain ⟨rfl, -⟩ := one a b'' rfl hj
    obtain ⟨rfl, -⟩ := one a c rfl hj
    refine ⟨x, hx, hkind x ?_⟩
    show Said.dial _ _ _ = Said.dial _ _ _
    rw [e, e3, e4]
  | udp b =>
    rw [hmk] at hsay hkind
    obtain ⟨⟨i', x', j', y', a', b'', e3⟩, i'', y'', c, e4⟩ := hsay
    obtain ⟨rfl, hx⟩ := one a' b'' rfl (Nat.le_refl _)
    obtain ⟨rfl, -⟩ := one a' c rfl (Nat.le_refl _)
    refine ⟨x', hx, hkind x' ?_⟩
    show Said.udp _ _ = Said.udp _ _
    rw [e3, e4]
  | watch b =>
    rw [hmk] at hsay hkind
    obtain ⟨⟨j, x, a, e⟩, ⟨i', x', j', y', a', b'', e3⟩, i'', y'', c, e4⟩ := hsay
    obtain ⟨rfl, hx⟩ := one a a' rfl (Nat.le_refl _)
    obtain ⟨rfl, -⟩ := one a b'' rfl (Nat.le_refl _)
    obtain ⟨rfl, -⟩ := one a c rfl (Nat.le_refl _)
    refine ⟨x, hx, hkind x ?_⟩
    show Said.watch _ _ _ = Said.watch _ _ _
    rw [e, e3, e4]

theorem among_mem {vs : List Version} {lo hi i : Nat} {u : Version} (a : Among vs lo hi i u) : u ∈ vs := List.mem_of_getElem? a.1

/-- **C121**: if the loads make the same name, type and collector address again, every pack tells just these and the hash of the name, and the
   collector is called there, however the reads and the writes are interleaved, and although the strings are other ones each time. -/
theorem C121_same_again (h : Heap) (v : Version) (rs : List Reload)
    (hsame : ∀ r ∈ rs, h.text r.name = h.text v.name ∧ h.text r.type = h.text v.type ∧ h.text r.ip = h.text v.ip ∧ r.tcp = v.tcp ∧ r.udp = v.udp)
    (pre : List Event) (k : Kind) (mid : List Event) (m : Maker)
    (hm : ((agent h v rs).run h (pre ++ .begin k :: mid)).makers[((agent h v rs).run h pre).makers.length]? = some m) (hl : m.left = []) :
    m.said h = v.says h k := by
  have hsay := C121_what_is_told h v rs pre k mid m hm hl
  obtain ⟨rfl, -⟩ := made_begun h v rs pre k mid m hm
  have all : ∀ u ∈ versions v rs, h.text u.name = h.text v.name ∧ h.text u.type = h.text v.type ∧ h.text u.ip = h.text v.ip ∧ u.tcp = v.tcp ∧ u.udp = v.udp := by
    intro u hu
    rcases List.mem_cons.mp hu with rfl | hu
    · exact ⟨rfl, rfl, rfl, rfl, rfl⟩
    · obtain ⟨r, hr, rfl⟩ := List.mem_map.mp hu
      exact hsame r hr
  have name : ∀ {lo hi n}, NameOf h (versions v rs) lo hi n → n = h.text v.name := by
    rintro lo hi n ⟨i, x, j, y, a, b, rfl⟩
    have hx := (all x (among_mem a)).1
    have hy := (all y (among_mem b)).1
    rw [← hx]
    have : y.name.len = x.name.len := by rw [← text_length h, ← text_length h x.name, hx, hy]
    rw [this]
  have type : ∀ {lo hi n}, TypeOf h (versions v rs) lo hi n → n = h.text v.type := by
    rintro lo hi n ⟨i, x, j, y, a, b, rfl⟩
    have hx := (all x (among_mem a)).2.1
    have hy := (all y (among_mem b)).2.1
    rw [← hx]
    have : y.type.len = x.type.len := by rw [← text_length h, ← text_length h x.type, hx, hy]
    rw [this]
  have host : ∀ {lo hi n}, HostOf h (versions v rs) lo hi n → n = h.text v.ip := by
    rintro lo hi n ⟨i, x, j, y, a, b, rfl⟩
    have hx := (all x (among_mem a)).2.2.1
    have hy := (all y (among_mem b)).2.2.1
    rw [← hx]
    have : y.ip.len = x.ip.len := by rw [← text_length h, ← text_length h x.ip, hx, hy]
    rw [this]
  unfold Maker.said at hsay ⊢
  cases hk : m.kind with
  | counters b =>
    rw [hk] at hsay
    exact congrArg Said.counters (name hsay)
  | object b c =>
    rw [hk] at hsay
    obtain ⟨h1, h2, h3⟩ := hsay
    show Said.object _ _ _ = Said.object _ _ _
    rw [h2, name h1, type h3]
  | alert b =>
    rw [hk] at hsay
    obtain ⟨j, u, a, h2, h3⟩ := hsay
    show Said.alert _ _ = Said.alert _ _
    rw [h2, type h3, (all u (among_mem a)).1]
  | log =>
    rw [hk] at hsay
    obtain ⟨j, u, a, h2⟩ := hsay
    show Said.log _ = Said.log _
    rw [h2, (all u (among_mem a)).1]
  | dial b =>
    rw [hk] at hsay
    obtain ⟨j, u, a, h2, h3, i, y, c, h4⟩ := hsay
    show Said.dial _ _ _ = Said.dial _ _ _
    rw [h2, host h3, h4, (all u (among_mem a)).1, (all y (among_mem c)).2.2.2.1]
  | udp b =>
    rw [hk] at hsay
    obtain ⟨h3, i, y, c, h4⟩ := hsay
    show Said.udp _ _ = Said.udp _ _
    rw [host h3, h4, (all y (among_mem c)).2.2.2.2]
  | watch b =>
    rw [hk] at hsay
    obtain ⟨⟨j, u, a, h2⟩, h3, i, y, c, h4⟩ := hsay
    show Said.watch _ _ _ = Said.watch _ _ _
    rw [h2, host h3, h4, (all u (among_mem a)).1, (all y (among_mem c)).2.2.2.1]

/-- **C121**: if the names are all of one length, the name told, in counters or of the object, is that of some configuration. -/
theorem C121_same_length (h : Heap) (v : Version) (rs : List Reload) (hlen : ∀ r ∈ rs, (h.text r.name).length = (h.text v.name).length)
    (pre : List Event) (k : Kind) (mid : List Event) (m : Maker)
    (hm : ((agent h v rs).run h (pre ++ .begin k :: mid)).makers[((agent h v rs).run h pre).makers.length]? = some m) (hl : m.left = [])
    (n : Bytes) (hn : m.said h = .counters n ∨ ∃ x t, m.said h = .object n x t) : ∃ u ∈ versions v rs, n = h.text u.name := by
  have hsay := C121_what_is_told h v rs pre k mid m hm hl
  have all : ∀ u ∈ versions v rs, u.name.len = v.name.len := by
    intro u hu
    rcases List.mem_cons.mp hu with rfl | hu
    · rfl
    · obtain ⟨r, hr, rfl⟩ := List.mem_map.mp hu
      have := hlen r hr
      rwa [text_length, text_length] at this
  have name : ∀ {lo hi}, NameOf h (versions v rs) lo hi n → ∃ u ∈ versions v rs, n = h.text u.name := by
    rintro lo hi ⟨i, x, j, y, a, b, rfl⟩
    exact ⟨x, among_mem a, by rw [all y (among_mem b), ← all x (among_mem a)]⟩
  rcases hn with hn | ⟨x, t, hn⟩
  · rw [hn] at hsay
    exact name hsay
  · rw [hn] at hsay
    exact name hsay.1

/-- **C121**: in any case a name told has the length of some configuration's name, and it is the beginning of the name of one, or the whole name
   of one with other bytes behind it. -/
theorem C121_cut_or_overrun (h : Heap) (v : Version) (rs : List Reload) (pre : List Event) (k : Kind) (mid : List Event) (m : Maker)
    (hm : ((agent h v rs).run h (pre ++ .begin k :: mid)).makers[((agent h v rs).run h pre).makers.length]? = some m) (hl : m.left = [])
    (n : Bytes) (hn : m.said h = .counters n ∨ ∃ x t, m.said h = .object n x t) :
    (∃ u ∈ versions v rs, n.length = (h.text u.name).length) ∧ ∃ u ∈ versions v rs, n <+: h.text u.name ∨ h.text u.name <+: n := by
  have hsay := C121_what_is_told h v rs pre k mid m hm hl
  have name : ∀ {lo hi}, NameOf h (versions v rs) lo hi n →
      (∃ u ∈ versions v rs, n.length = (h.text u.name).length) ∧ ∃ u ∈ versions v rs, n <+: h.text u.name ∨ h.text u.name <+: n := by
    rintro lo hi ⟨i, x, j, y, a, b, rfl⟩
    refine ⟨⟨y, among_mem b, by simp only [text_length]⟩, x, among_mem a, ?_⟩
    rcases Nat.le_total y.name.len x.name.len with hle | hle
    · exact .inl (by rw [text_take h _ hle]; exact List.take_prefix _ _)
    · exact .inr (by
        have := text_take h x.name.ptr hle
        rw [show h.text x.name = _ from this]
        exact List.take_prefix _ _)
  rcases hn with hn | ⟨x, t, hn⟩
  · rw [hn] at hsay
    exact name hsay
  · rw [hn] at hsay
    exact name hsay.1

/-- **C121**: the host called, or that datagrams go to: it is a configured one if these are all of one length; in any case it has the length of a
   configured one, and it is the beginning of one or a whole one with other bytes behind it. -/
theorem C121_host (h : Heap) (v : Version) (rs : List Reload) (pre : List Event) (k : Kind) (mid : List Event) (m : Maker)
    (hm : ((agent h v rs).run h (pre ++ .begin k :: mid)).makers[((agent h v rs).run h pre).makers.length]? = some m) (hl : m.left = [])
    (n : Bytes) (p : Nat) (hn : m.said h = .udp n p ∨ ∃ x, m.said h = .dial n p x) :
    ((∀ r ∈ rs, (h.text r.ip).length = (h.text v.ip).length) → ∃ u ∈ versions v rs, n = h.text u.ip) ∧
    (∃ u ∈ versions v rs, n.length = (h.text u.ip).length) ∧ ∃ u ∈ versions v rs, n <+: h.text u.ip ∨ h.text u.ip <+: n := by
  have hsay := C121_what_is_told h v rs pre k mid m hm hl
  have host : ∀ {lo hi}, HostOf h (versions v rs) lo hi n →
      ((∀ r ∈ rs, (h.text r.ip).length = (h.text v.ip).length) → ∃ u ∈ versions v rs, n = h.text u.ip) ∧
      (∃ u ∈ versions v rs, n.length = (h.text u.ip).length) ∧ ∃ u ∈ versions v rs, n <+: h.text u.ip ∨ h.text u.ip <+: n := by
    rintro lo hi ⟨i, x, j, y, a, b, rfl⟩
    refine ⟨fun hlen => ?_, ⟨y, among_mem b, by simp only [text_length]⟩, x, among_mem a, ?_⟩
    · have all : ∀ u ∈ versions v rs, u.ip.len = v.ip.len := by
        intro u hu
        rcases List.mem_cons.mp hu with rfl | hu
        · rfl
        · obtain ⟨r, hr, rfl⟩ := List.mem_map.mp hu
          have := hlen r hr
          rwa [text_length, text_length] at this
      exact ⟨x, among_mem a, by rw [all y (among_mem b), ← all x (among_mem a)]⟩
    · rcases Nat.le_total y.ip.len x.ip.len with hle | hle
      · exact .inl (by rw [text_take h _ hle]; exact List.take_prefix _ _)
      · exact .inr (by
          have := text_take h x.ip.ptr hle
          rw [show h.text x.ip = _ from this]
          exact List.take_prefix _ _)
  rcases hn with hn | ⟨x, hn⟩
  · rw [hn] at hsay
    exact host hsay.1
  · rw [hn] at hsay
    obtain ⟨j, u, -, -, h3, -⟩ := hsay
    exact host h3

theorem filed_of {h : Heap} {vs : List Version} {s₀ s : State} {m : Maker} (g : Made h vs s₀ s m) (hl : m.left = []) {x : BitVec 32}
    (hx : (m.said h).filed = some x) : ∃ j u, Among vs (verOf s₀ .hash) (verOf s .hash) j u ∧ x = crc32 (h.text u.name) := by
  have key : Word.hash ∈ m.kind.words ∧ x = BitVec.ofNat 32 (m.got .hash) := by
    unfold Maker.said at hx
    cases hk : m.kind with
    | counters b => rw [hk] at hx; cases hx
    | object b c => rw [hk] at hx; cases hx
    | alert b => rw [hk] at hx; exact ⟨by cases b <;> decide, (Option.some.inj hx).symm⟩
    | log => rw [hk] at hx; exact ⟨by decide, (Option.some.inj hx).symm⟩
    | udp b => rw [hk] at hx; cases hx
    | watch b => rw [hk] at hx; cases hx
    | dial b => rw [hk] at hx; exact ⟨by cases b <;> decide, (Option.some.inj hx).symm⟩
  obtain ⟨j, u, a, b⟩ := g.got .hash key.1 (by rw [hl]; simp)
  exact ⟨j, u, a, by rw [key.2, b, words_hash]⟩

/-- **C121**: a pack begun after another was made never carries an older hash: once one transaction log, profile, alert or session is filed under
   the new object, all later ones are. -/
theorem C121_never_back (h : Heap) (v : Version) (rs : List Reload) (pre : List Event) (k : Kind) (mid : List Event) (k' : Kind) (mid' : List Event)
    (m m' : Maker)
    (hm : ((agent h v rs).run h (pre ++ .begin k :: mid)).makers[((agent h v rs).run h pre).makers.length]? = some m) (hl : m.left = [])
    (hm' : ((agent h v rs).run h ((pre ++ .begin k :: mid) ++ .begin k' :: mid')).makers[((agent h v rs).run h (pre ++ .begin k :: mid)).makers.length]?
      = some m') (hl' : m'.left = []) (x x' : BitVec 32) (hx : (m.said h).filed = some x) (hx' : (m'.said h).filed = some x') :
    ∃ (i : Nat) (u : Version) (j : Nat) (w : Version), i ≤ j ∧ (versions v rs)[i]? = some u ∧ (versions v rs)[j]? = some w ∧ x = crc32 (h.text u.name) ∧ x' = crc32 (h.text w.name) := by
  obtain ⟨-, g⟩ := made_begun h v rs pre k mid m hm
  obtain ⟨-, g'⟩ := made_begun h v rs (pre ++ .begin k :: mid) k' mid' m' hm'
  obtain ⟨i, u, ⟨a1, a2, a3⟩, e⟩ := filed_of g hl hx
  obtain ⟨j, w, ⟨b1, b2, b3⟩, e'⟩ := filed_of g' hl' hx'
  exact ⟨i, u, j, w, Nat.le_trans a3 b2, a1, b1, e, e'⟩

/-- **C121**: no session is broken off by loads that change neither the name nor the collector's address and port (whatever else they change, and
   although the strings are other ones): whenever it looks, it goes on. -/
theorem C121_session_goes_on (h : Heap) (v : Version) (rs : List Reload)
    (hsame : ∀ r ∈ rs, h.text r.name = h.text v.name ∧ h.text r.ip = h.text v.ip ∧ r.tcp = v.tcp)
    (pre : List Event) (b : Bool) (mid : List Event) (m : Maker)
    (hm : ((agent h v rs).run h (pre ++ .begin (.watch b) :: mid)).makers[((agent h v rs).run h pre).makers.length]? = some m) (hl : m.left = []) :
    (m.said h).goesOn (crc32 (h.text v.name)) (h.text v.ip) v.tcp := by
  have hsay := C121_what_is_told h v rs pre (.watch b) mid m hm hl
  obtain ⟨hk, -⟩ := made_begun h v rs pre (.watch b) mid m hm
  have all : ∀ u ∈ versions v rs, h.text u.name = h.text v.name ∧ h.text u.ip = h.text v.ip ∧ u.tcp = v.tcp := by
    intro u hu
    rcases List.mem_cons.mp hu with rfl | hu
    · exact ⟨rfl, rfl, rfl⟩
    · obtain ⟨r, hr, rfl⟩ := List.mem_map.mp hu
      exact hsame r hr
  unfold Maker.said at hsay ⊢
  rw [hk] at hsay ⊢
  obtain ⟨⟨j, u, a, h2⟩, ⟨i', x, j', y, a', b', h3⟩, i, z, c, h4⟩ := hsay
  refine ⟨?_, ?_, ?_⟩
  · rw [h2, (all u (among_mem a)).1]
  · have hx := (all x (among_mem a')).2.1
    have hy := (all y (among_mem b')).2.1
    have : y.ip.len = x.ip.len := by rw [← text_length h, ← text_length h x.ip, hx, hy]
    rw [h3, this, ← hx]
  · rw [h4, (all z (among_mem c)).2.2]

/-- **C121**: a look made between two loads ends the session unless name's hash, address and port are those it began with. -/
theorem C121_session_ends (h : Heap) (v : Version) (rs : List Reload) (pre : List Event) (b : Bool) (mid : List Event) (m : Maker)
    (hm : ((agent h v rs).run h (pre ++ .begin (.watch b) :: mid)).makers[((agent h v rs).run h pre).makers.length]? = some m) (hl : m.left = [])
    (hq : ((agent h v rs).run h (pre ++ .begin (.watch b) :: mid)).begun = ((agent h v rs).run h pre).complete)
    (hash : BitVec 32) (host : Bytes) (port : Nat) :
    ∃ u, (versions v rs)[((agent h v rs).run h pre).complete]? = some u ∧
      ((m.said h).goesOn hash host port ↔ hash = crc32 (h.text u.name) ∧ host = h.text u.ip ∧ port = u.tcp) := by
  obtain ⟨u, hu, hs⟩ := C121_between_loads h v rs pre (.watch b) mid m hm hl hq
  exact ⟨u, hu, by rw [hs]; rfl⟩

/-- The load up to the middle of the assignment of the name. -/
def halfway : List Event := [.load, .load, .load, .load]

theorem half_loaded (h : Heap) (v : Version) (r : Reload) (rs : List Reload) :
    ∃ mem now next, (agent h v (r :: rs)).run h halfway = ⟨mem, 0, now, next, []⟩ ∧
      mem .namePtr = (if r.nameFirst then r.name.ptr else v.name.ptr) ∧ mem .nameLen = (if r.nameFirst then v.name.len else r.name.len) ∧
      mem .typePtr = v.type.ptr ∧ mem .typeLen = v.type.len := by
  obtain ⟨s, n, t, i, up, tp, x, y, z, z'⟩ := r
  cases x <;> cases y <;> cases z <;> cases z' <;> exact ⟨_, _, _, rfl, rfl, rfl, rfl, rfl⟩

theorem two_reads (h : Heap) (mem : Mem) (c : Nat) (now : List Instr) (next : List Reload) (a : Bool) :
    ∃ m, ((⟨mem, c, now, next, []⟩ : State).run h [.begin (.counters a), .read 0, .read 0]).makers[0]? = some m ∧ m.left = [] ∧
      m.kind = .counters a ∧ m.got .namePtr = mem .namePtr ∧ m.got .nameLen = mem .nameLen := by
  cases a <;> exact ⟨_, rfl, rfl, rfl, rfl, rfl⟩

/-- **C121**: whichever of its two words is written first, and whichever is read first, there is a run in which the counters are told under the
   place of one name with the length of the other: the new name cut to the old one's length (or run over), or the old one likewise. -/
theorem C121_torn_counters (h : Heap) (v : Version) (r : Reload) (rs : List Reload) (b : Bool) :
    ∃ m, ((agent h v (r :: rs)).run h (halfway ++ [.begin (.counters b), .read 0, .read 0])).makers[0]? = some m ∧ m.left = [] ∧
      m.said h = .counters (if r.nameFirst then h.text ⟨r.name.ptr, v.name.len⟩ else h.text ⟨v.name.ptr, r.name.len⟩) := by
  obtain ⟨mem, now, next, e, e1, e2, -⟩ := half_loaded h v r rs
  obtain ⟨m, h1, h2, h3, h4, h5⟩ := two_reads h mem 0 now next b
  refine ⟨m, ?_, h2, ?_⟩
  · rw [State.run, List.foldl_append]
    exact (congrArg (fun s : State => (s.run h _).makers[0]?) e).trans h1
  · simp only [Maker.said, h3, h4, h5, e1, e2]
    split <;> rfl

theorem four_reads (h : Heap) (mem : Mem) (c : Nat) (now : List Instr) (next : List Reload) (a b : Bool) :
    ∃ m, ((⟨mem, c, now, next, []⟩ : State).run h [.begin (.object a b), .read 0, .read 0, .read 0, .read 0]).makers[0]? = some m ∧ m.left = [] ∧
      m.kind = .object a b ∧ m.got .namePtr = mem .namePtr ∧ m.got .nameLen = mem .nameLen ∧ m.got .typePtr = mem .typePtr ∧
      m.got .typeLen = mem .typeLen := by
  cases a <;> cases b <;> exact ⟨_, rfl, rfl, rfl, rfl, rfl, rfl, rfl⟩

theorem torn_object (h : Heap) (v : Version) (r : Reload) (rs : List Reload) (b c : Bool) :
    ∃ m, ((agent h v (r :: rs)).run h (halfway ++ [.begin (.object b c), .read 0, .read 0, .read 0, .read 0])).makers[0]? = some m ∧ m.left = [] ∧
      m.kind = .object b c ∧ m.got .namePtr = (if r.nameFirst then r.name.ptr else v.name.ptr) ∧
      m.got .nameLen = (if r.nameFirst then v.name.len else r.name.len) ∧ m.got .typePtr = v.type.ptr ∧ m.got .typeLen = v.type.len := by
  obtain ⟨mem, now, next, e, e1, e2, e3, e4⟩ := half_loaded h v r rs
  obtain ⟨m, h1, h2, h3, h4, h5, h6, h7⟩ := four_reads h mem 0 now next b c
  refine ⟨m, ?_, h2, h3, h4.trans e1, h5.trans e2, h6.trans e3, h7.trans e4⟩
  rw [State.run, List.foldl_append]
  exact (congrArg (fun s : State => (s.run h _).makers[0]?) e).trans h1

/-- **C121**: so it is with the object itself: it is then registered under that name, and with that name's hash. -/
theorem C121_torn_object (h : Heap) (v : Version) (r : Reload) (rs : List Reload) (b c : Bool) :
    ∃ m, ((agent h v (r :: rs)).run h (halfway ++ [.begin (.object b c), .read 0, .read 0, .read 0, .read 0])).makers[0]? = some m ∧ m.left = [] ∧
      let n := if r.nameFirst then h.text ⟨r.name.ptr, v.name.len⟩ else h.text ⟨v.name.ptr, r.name.len⟩
      m.said h = .object n (crc32 n) (h.text v.type) := by
  obtain ⟨m, h1, h2, h3, h4, h5, h6, h7⟩ := torn_object h v r rs b c
  refine ⟨m, h1, h2, ?_⟩
  simp only [Maker.said, h3, h4, h5, h6, h7, sentName_eq]
  split <;> rfl

/-- The load up to the middle of the assignment of the collector's address. -/
def halfwayIp : List Event := List.replicate 9 .load

theorem half_loaded_ip (h : Heap) (v : Version) (r : Reload) (rs : List Reload) :
    ∃ mem now next, (agent h v (r :: rs)).run h halfwayIp = ⟨mem, 0, now, next, []⟩ ∧
      mem .ipPtr = (if r.ipFirst then r.ip.ptr else v.ip.ptr) ∧ mem .ipLen = (if r.ipFirst then v.ip.len else r.ip.len) ∧ mem .tcpPort = v.tcp := by
  obtain ⟨s, n, t, i, up, tp, x, y, z, z'⟩ := r
  cases x <;> cases y <;> cases z <;> cases z' <;> exact ⟨_, _, _, rfl, rfl, rfl, rfl⟩

theorem dial_reads (h : Heap) (mem : Mem) (c : Nat) (now : List Instr) (next : List Reload) (a : Bool) :
    ∃ m, ((⟨mem, c, now, next, []⟩ : State).run h [.begin (.dial a), .read 0, .read 0, .read 0, .read 0]).makers[0]? = some m ∧ m.left = [] ∧
      m.kind = .dial a ∧ m.got .ipPtr = mem .ipPtr ∧ m.got .ipLen = mem .ipLen ∧ m.got .tcpPort = mem .tcpPort := by
  cases a <;> exact ⟨_, rfl, rfl, rfl, rfl, rfl, rfl⟩

/-- **C121**: whichever words are written and read first, there is a run in which the agent calls the host at the place of one address with the
   length of the other, at the old port. -/
theorem C121_torn_address (h : Heap) (v : Version) (r : Reload) (rs : List Reload) (b : Bool) :
    ∃ es m, ((agent h v (r :: rs)).run h es).makers[0]? = some m ∧ m.left = [] ∧
      ∃ x, m.said h = .dial (if r.ipFirst then h.text ⟨r.ip.ptr, v.ip.len⟩ else h.text ⟨v.ip.ptr, r.ip.len⟩) v.tcp x := by
  obtain ⟨mem, now, next, e, e1, e2, e3⟩ := half_loaded_ip h v r rs
  obtain ⟨m, h1, h2, h3, h4, h5, h6⟩ := dial_reads h mem 0 now next b
  refine ⟨halfwayIp ++ [.begin (.dial b), .read 0, .read 0, .read 0, .read 0], m, ?_, h2, BitVec.ofNat 32 (m.got .hash), ?_⟩
  · rw [State.run, List.foldl_append]
    exact (congrArg (fun s : State => (s.run h _).makers[0]?) e).trans h1
  · simp only [Maker.said, h3, h4, h5, h6, e1, e2, e3]
    split <;> rfl

/-- **C121**: if the place is written first and the new name is not shorter, that is the new name cut to the length of the old one. -/
theorem C121_cut_name (h : Heap) (v : Version) (r : Reload) (rs : List Reload) (b : Bool) (hf : r.nameFirst = true)
    (hlen : (h.text v.name).length ≤ (h.text r.name).length) :
    ∃ es m, ((agent h v (r :: rs)).run h es).makers[0]? = some m ∧ m.left = [] ∧
      m.said h = .counters ((h.text r.name).take (h.text v.name).length) := by
  obtain ⟨m, h1, h2, h3⟩ := C121_torn_counters h v r rs b
  refine ⟨_, m, h1, h2, ?_⟩
  rw [h3, if_pos hf, text_length]
  rw [text_length, text_length] at hlen
  exact congrArg Said.counters (text_take h _ hlen)

end Identity

namespace Demo
open Identity

/-- Two names and two types in memory. -/
def idHeap : Heap := fun p i =>
  ((match p with
    | 1 => ascii "/h/go1"
    | 2 => ascii "/h/shop"
    | 3 => ascii "golang"
    | 4 => ascii "tomcat"
    | 5 => ascii "/h/go1#"
    | 6 => ascii "10.0.0.1"
    | 7 => ascii "10.0.0.23"
    | _ => [])[i]?).getD 0

/-- The agent as it is started. -/
def idOld : Identity.Version := ⟨⟨0, 0⟩, ⟨1, 6⟩, ⟨3, 6⟩, ⟨6, 8⟩, 6100, 6100⟩

/-- Its name and type are changed. -/
def idNew : Identity.Reload := ⟨⟨0, 0⟩, ⟨2, 7⟩, ⟨4, 6⟩, ⟨7, 9⟩, 6100, 6200, true, true, true, true⟩

/-- The file is changed elsewhere: the same name is made again. -/
def idSame : Identity.Reload := ⟨⟨0, 0⟩, ⟨5, 6⟩, ⟨3, 6⟩, ⟨6, 8⟩, 6100, 6100, true, false, true, false⟩

/-- The counters are told under the name of an object there never was. -/
example : (((agent idHeap idOld [idNew]).run idHeap (halfway ++ [.begin (.counters true), .read 0, .read 0])).makers[0]?.map (Maker.said idHeap))
    = some (.counters (ascii "/h/sho")) := by decide +kernel

/-- An alert of the new object with the old type, and the other way round the object under its old name with the new type. -/
example : (((agent idHeap idOld [idNew]).run idHeap ([.load, .load, .load, .load, .begin (.object true true), .begin (.alert true), .read 1,
      .read 1, .load, .load, .read 1])).makers[1]?.map (Maker.said idHeap))
    = some (.alert (ascii "golang") (crc32 (ascii "/h/shop"))) := by decide +kernel

example : (((agent idHeap idOld [idNew]).run idHeap ([.begin (.object true true), .read 0, .read 0] ++ List.replicate 12 .load ++
      [.read 0, .read 0])).makers[0]?.map (Maker.said idHeap))
    = some (.object (ascii "/h/go1") (crc32 (ascii "/h/go1")) (ascii "tomcat")) := by decide +kernel

/-- The hypotheses of `C121_same_again` are met by other strings with the same bytes. -/
example : (∀ r ∈ [idSame, idSame], idHeap.text r.name = idHeap.text idOld.name ∧ idHeap.text r.type = idHeap.text idOld.type ∧
      idHeap.text r.ip = idHeap.text idOld.ip ∧ r.tcp = idOld.tcp ∧ r.udp = idOld.udp) ∧
    ((agent idHeap idOld [idSame, idSame]).run idHeap (halfway ++ .begin (.counters true) :: [.read 0, .load, .read 0])).makers[0]?.map
      (fun m => (m.left, m.said idHeap)) = some ([], .counters (ascii "/h/go1")) := by decide +kernel

/-- Those of `C121_between_loads`: a pack made after the load. -/
example : let s := (agent idHeap idOld [idNew]).run idHeap (List.replicate 12 .load)
    let t := (agent idHeap idOld [idNew]).run idHeap (List.replicate 12 .load ++ .begin (.alert false) :: [.read 0, .read 0, .read 0])
    t.begun = s.complete ∧ s.complete = 1 ∧
    t.makers[s.makers.length]?.map (fun m => (m.left, m.said idHeap)) = some ([], .alert (ascii "tomcat") (crc32 (ascii "/h/shop"))) := by
  decide +kernel

/-- Those of `C121_never_back`: a log before and one after. -/
example : let pre : List Event := []
    let t := (agent idHeap idOld [idNew]).run idHeap (pre ++ .begin .log :: (.read 0 :: List.replicate 12 .load))
    let u := (agent idHeap idOld [idNew]).run idHeap ((pre ++ .begin .log :: (.read 0 :: List.replicate 12 .load)) ++ .begin .log :: [.read 1])
    t.makers[0]?.map (fun m => (m.left, (m.said idHeap).filed)) = some ([], some (crc32 (ascii "/h/go1"))) ∧
    u.makers[t.makers.length]?.map (fun m => (m.left, (m.said idHeap).filed)) = some ([], some (crc32 (ascii "/h/shop"))) := by
  decide +kernel

/-- The agent calls a host that is in no configuration, at the old port, as the new object. -/
example : (((agent idHeap idOld [idNew]).run idHeap (halfwayIp ++ [.begin (.dial true), .read 0, .read 0, .read 0, .read 0])).makers[0]?.map
    (Maker.said idHeap)) = some (.dial (ascii "10.0.0.2") 6100 (crc32 (ascii "/h/shop"))) := by decide +kernel

/-- So it is with the datagrams. -/
example : (((agent idHeap idOld [idNew]).run idHeap (halfwayIp ++ [.begin (.udp false), .read 0, .read 0, .read 0])).makers[0]?.map
    (Maker.said idHeap)) = some (.udp (ascii "10.0.0.2") 6100) := by decide +kernel

/-- The hypotheses of `C121_same_length` and `C121_host` are met, with the name and the address of the one or the other. -/
example : (((agent idHeap idOld [idSame]).run idHeap ([] ++ .begin (.udp true) :: [.read 0, .load, .read 0, .read 0])).makers[0]?.map
    (fun m => (m.left, m.said idHeap))) = some ([], .udp (ascii "10.0.0.1") 6100) ∧
    (idHeap.text idSame.name).length = (idHeap.text idOld.name).length := by decide +kernel

/-- A load that changes only the type does not end a session; one that changes the address does. -/
example : (∀ r ∈ [{ idSame with type := ⟨4, 6⟩ }], idHeap.text r.name = idHeap.text idOld.name ∧ idHeap.text r.ip = idHeap.text idOld.ip ∧
      r.tcp = idOld.tcp) ∧
    ((agent idHeap idOld [{ idSame with type := ⟨4, 6⟩ }]).run idHeap (halfway ++ .begin (.watch true) :: (List.replicate 5 .load ++
      List.replicate 4 (.read 0)))).makers[0]?.map (fun m => (m.left, m.said idHeap))
      = some ([], .watch (crc32 (ascii "/h/go1")) (ascii "10.0.0.1") 6100) ∧
    ((agent idHeap idOld [idNew]).run idHeap (List.replicate 12 .load ++ .begin (.watch true) :: List.replicate 4 (.read 0))).makers[0]?.map
      (fun m => (m.left, m.said idHeap)) = some ([], .watch (crc32 (ascii "/h/shop")) (ascii "10.0.0.23") 6200) := by decide +kernel

end Demo
end Scouter
