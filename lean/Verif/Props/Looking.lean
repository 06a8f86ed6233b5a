import Verif.Spec.Looking
import Verif.Props.Sweeping
import Verif.Props.Starting
/-!
# C123: looks at active services while the configuration is being loaded
-/
namespace Scouter
namespace Looking

/-- The options written by a load, in order. -/
def order : List Opt := [.base, .remove, .alert, .yellow, .red]

theorem code_words (r : Limits) : r.code.map Prod.fst = order := rfl

theorem order_all (w : Opt) : w ∈ order := by cases w <;> decide

theorem order_nodup : order.Nodup := by decide

theorem code_value (r : Limits) (w : Opt) (v : Int) (hm : (w, v) ∈ r.code) : v = r.words w := by
  simp only [Limits.code, List.mem_cons, Prod.mk.injEq, List.not_mem_nil, or_false] at hm
  rcases hm with ⟨rfl, rfl⟩ | ⟨rfl, rfl⟩ | ⟨rfl, rfl⟩ | ⟨rfl, rfl⟩ | ⟨rfl, rfl⟩ <;> rfl

/-- The configuration a word is of. -/
def verOf (s : State) (w : Opt) : Nat :=
  if s.now = [] then s.complete else if w ∈ s.now.map Prod.fst then s.complete else s.complete + 1

theorem verOf_ge (s : State) (w : Opt) : s.complete ≤ verOf s w := by
  unfold verOf
  split
  · exact Nat.le_refl _
  · split <;> omega

theorem verOf_le (s : State) (w : Opt) : verOf s w ≤ s.begun := by
  unfold verOf State.begun
  split
  · exact Nat.le_refl _
  · split <;> omega

theorem begun_le (s : State) : s.begun ≤ s.complete + 1 := by
  unfold State.begun
  split <;> omega

/-- No word is more than one load behind another. -/
theorem verOf_near (s : State) (w x : Opt) : verOf s w ≤ verOf s x + 1 := by
  have := verOf_le s w
  have := verOf_ge s x
  have := begun_le s
  omega

/-- What holds at every moment of the words. -/
structure Sound (v : Limits) (rs : List Limits) (s : State) : Prop where
  next : s.next = rs.drop s.begun
  now : s.now ≠ [] → ∃ r, rs[s.complete]? = some r ∧ s.now <:+ r.code
  words : ∀ w, ∃ u, (v :: rs)[verOf s w]? = some u ∧ s.mem w = u.words w

/-- The words only become newer. -/
theorem verOf_step (s : State) (e : Event) (w : Opt) : verOf s w ≤ verOf (s.step e) w := by
  cases e with
  | begin => exact Nat.le_refl _
  | read i =>
    simp only [State.step]
    split
    · exact Nat.le_refl _
    · split <;> exact Nat.le_refl _
  | load =>
    simp only [State.step]
    split
    · next hn =>
      have e0 : verOf s w = s.complete := by rw [verOf, if_pos hn]
      split
      · exact Nat.le_refl _
      · next r rest _ =>
        rw [e0]
        exact verOf_ge { s with now := r.code, next := rest } w
    · next x v is hn =>
      by_cases hi : is = []
      · subst hi
        show verOf s w ≤ s.complete + 1
        exact Nat.le_trans (verOf_le s w) (begun_le s)
      · unfold verOf
        simp only [hn, hi, if_false, List.map_cons, List.mem_cons, reduceCtorEq]
        by_cases hw : w ∈ is.map Prod.fst
        · rw [if_pos (.inr hw), if_pos hw]
        · rw [if_neg hw]
          split <;> omega

theorem sound_step {v : Limits} {rs : List Limits} {s : State} (hs : Sound v rs s) (e : Event) : Sound v rs (s.step e) := by
  cases e with
  | begin => exact ⟨hs.next, hs.now, hs.words⟩
  | read i =>
    simp only [State.step]
    split
    · exact hs
    · split
      · exact hs
      · exact ⟨hs.next, hs.now, hs.words⟩
  | load =>
    simp only [State.step]
    split
    · next hn =>
      have hnext := hs.next
      rw [State.begun, if_pos hn] at hnext
      split
      · exact hs
      · next r rest hr =>
        rw [hr] at hnext
        have hcode : r.code ≠ [] := by simp [Limits.code]
        have hget : rs[s.complete]? = some r := by
          have := congrArg List.head? hnext
          rw [List.head?_drop] at this
          exact this.symm
        refine ⟨?_, fun _ => ⟨r, hget, List.suffix_refl _⟩, fun w => ?_⟩
        · show rest = _
          rw [State.begun, if_neg (show r.code ≠ [] from hcode)]
          show rest = rs.drop (s.complete + 1)
          rw [← List.drop_drop, ← hnext]
          rfl
        · obtain ⟨u, hu, hm⟩ := hs.words w
          refine ⟨u, ?_, hm⟩
          rw [← hu]
          congr 1
          show verOf _ w = verOf s w
          unfold verOf
          rw [if_pos hn, if_neg (show r.code ≠ [] from hcode), if_pos (by
            show w ∈ r.code.map Prod.fst
            rw [code_words]
            exact order_all _)]
    · next x y is hn =>
      obtain ⟨r, hr, hsuf⟩ := hs.now (by rw [hn]; simp)
      rw [hn] at hsuf
      have hnew : (v :: rs)[s.complete + 1]? = some r := by simp [hr]
      have hnd : x ∉ is.map Prod.fst := by
        have : (x :: is.map Prod.fst) <:+ order := by
          rw [← code_words]
          exact hsuf.map Prod.fst
        exact (List.nodup_cons.mp (this.sublist.nodup order_nodup)).1
      have hbeg : s.begun = s.complete + 1 := by rw [State.begun, if_neg (by rw [hn]; simp)]
      refine ⟨?_, fun hne => ?_, fun w => ?_⟩
      · rw [hs.next, hbeg]
        by_cases hi : is = []
        · simp [State.begun, hi]
        · simp [State.begun, hi]
      · have hne : is ≠ [] := hne
        refine ⟨r, ?_, (List.suffix_cons _ is).trans hsuf⟩
        show rs[if is = [] then s.complete + 1 else s.complete]? = some r
        rw [if_neg hne]
        exact hr
      · by_cases hw : w = x
        · subst hw
          refine ⟨r, ?_, ?_⟩
          · rw [← hnew]
            congr 1
            unfold verOf
            by_cases hi : is = []
            · simp [hi]
            · simp only [hi, if_false, if_neg hnd]
          · show (if w = w then y else s.mem w) = _
            rw [if_pos rfl]
            exact code_value r w y (hsuf.subset (List.mem_cons_self ..))
        · obtain ⟨u, hu, hm⟩ := hs.words w
          refine ⟨u, ?_, ?_⟩
          · rw [← hu]
            congr 1
            unfold verOf
            simp only [hn, List.map_cons, List.mem_cons, hw, false_or, reduceCtorEq, if_false]
            by_cases hi : is = []
            · simp [hi]
            · simp [hi]
          · show (if w = x then y else s.mem w) = _
            rw [if_neg hw, hm]

theorem sound_agent (v : Limits) (rs : List Limits) : Sound v rs (agent v rs) :=
  ⟨rfl, fun hn => absurd rfl hn, fun _ => ⟨v, rfl, rfl⟩⟩

theorem sound_run {v : Limits} {rs : List Limits} (es : List Event) : ∀ {s : State}, Sound v rs s → Sound v rs (s.run es) := by
  induction es with
  | nil => exact fun hs => hs
  | cons e es ih => exact fun hs => ih (sound_step hs e)

theorem reads_nodup : reads.Nodup := by decide

/-- The limits of the colours. -/
def Late (w : Opt) : Prop := w = .yellow ∨ w = .red

/-- They are never newer than the other options. -/
theorem verOf_late {v : Limits} {rs : List Limits} {s : State} (hs : Sound v rs s) {w x : Opt} (hw : Late w) (hx : ¬ Late x) :
    verOf s w ≤ verOf s x := by
  by_cases hn : s.now = []
  · simp [verOf, hn]
  · obtain ⟨r, -, hsuf⟩ := hs.now hn
    have hs' : s.now.map Prod.fst <:+ order := by
      rw [← code_words r]
      exact hsuf.map _
    have key : ∀ n < 6, ∀ x ∈ ([.base, .remove, .alert] : List Opt), x ∈ order.drop n → Opt.yellow ∈ order.drop n ∧ Opt.red ∈ order.drop n := by decide
    have hd := List.suffix_iff_eq_drop.mp hs'
    unfold verOf
    simp only [if_neg hn]
    by_cases hh : x ∈ s.now.map Prod.fst
    · have hxl : x ∈ ([.base, .remove, .alert] : List Opt) := by
        cases x <;> simp [Late] at hx ⊢
      have := key (order.length - (s.now.map Prod.fst).length) (by simp [order]; omega) x hxl (hd ▸ hh)
      rw [← hd] at this
      rw [if_pos hh, if_pos (hw.elim (fun h => h ▸ this.1) fun h => h ▸ this.2)]
    · rw [if_neg hh]
      split <;> omega

/-- What is known of the configuration of what is read before, compared with what is read after. -/
def Fits (x y : Opt) (i j : Nat) : Prop := i ≤ j + 1 ∧ (Late x → ¬ Late y → i ≤ j)

theorem Fits.mono {x y : Opt} {i j k : Nat} (f : Fits x y i j) (h : j ≤ k) : Fits x y i k :=
  ⟨Nat.le_trans f.1 (Nat.succ_le_succ h), fun hx hy => Nat.le_trans (f.2 hx hy) h⟩

/-- What holds of a look begun at `s₀`, at `s`. -/
def Made (vs : List Limits) (s₀ s : State) (m : Looker) : Prop :=
  m.done ++ m.left = reads ∧ ∃ ver : Opt → Nat,
    (∀ x ∈ m.done, (∃ u, vs[ver x]? = some u ∧ m.got x = u.words x) ∧ verOf s₀ x ≤ ver x ∧ ver x ≤ verOf s x ∧
      ∀ w, Fits x w (ver x) (verOf s w)) ∧
    m.done.Pairwise fun x y => Fits x y (ver x) (ver y)

theorem Made.later {vs : List Limits} {s₀ s t : State} {m : Looker} (g : Made vs s₀ s m) (hm : ∀ w, verOf s w ≤ verOf t w) :
    Made vs s₀ t m := by
  obtain ⟨h1, ver, h2, h3⟩ := g
  refine ⟨h1, ver, fun x hx => ?_, h3⟩
  obtain ⟨p, q, r, t⟩ := h2 x hx
  exact ⟨p, q, Nat.le_trans r (hm _), fun w => (t w).mono (hm w)⟩

theorem made_step {v : Limits} {rs : List Limits} {s₀ s : State} (hs : Sound v rs s) (h0 : ∀ w, verOf s₀ w ≤ verOf s w) {n : Nat}
    {m : Looker} (hm : s.lookers[n]? = some m) (g : Made (v :: rs) s₀ s m) (e : Event) :
    ∃ m', (s.step e).lookers[n]? = some m' ∧ Made (v :: rs) s₀ (s.step e) m' := by
  have mono := verOf_step s e
  cases e with
  | begin =>
    refine ⟨m, ?_, g.later mono⟩
    show (s.lookers ++ _)[n]? = _
    rw [List.getElem?_append_left (List.getElem?_eq_some_iff.mp hm).1]
    exact hm
  | load =>
    refine ⟨m, ?_, g.later mono⟩
    simp only [State.step]
    split
    · split <;> exact hm
    · exact hm
  | read i =>
    by_cases hi : i = n
    · subst hi
      cases hl : m.left with
      | nil =>
        have he : s.step (.read i) = s := by simp only [State.step, hm, hl]
        rw [he]
        exact ⟨m, hm, g⟩
      | cons x xs =>
        have he : s.step (.read i) = { s with lookers := s.lookers.set i ⟨m.done ++ [x], xs, fun y => if y = x then s.mem x else m.got y⟩ } := by
          simp only [State.step, hm, hl]
        rw [he]
        have hlt := (List.getElem?_eq_some_iff.mp hm).1
        obtain ⟨h1, ver, h2, h3⟩ := g
        rw [hl] at h1
        have hx : x ∉ m.done := by
          intro hmem
          have := reads_nodup
          rw [← h1] at this
          exact (List.nodup_append.mp this).2.2 x hmem x (List.mem_cons_self ..) rfl
        have hne : ∀ y ∈ m.done, y ≠ x := fun y hy h => hx (h ▸ hy)
        refine ⟨_, List.getElem?_set_self hlt, by simpa using h1, fun y => if y = x then verOf s x else ver y, fun y hy => ?_, ?_⟩
        · rcases List.mem_append.mp hy with hy | hy
          · have := h2 y hy
            simp only [if_neg (hne y hy)]
            exact this
          · have hy : y = x := by simpa using hy
            subst hy
            simp only [if_true]
            exact ⟨hs.words _, h0 _, Nat.le_refl _, fun w => ⟨verOf_near s _ w, fun hx hy => verOf_late hs hx hy⟩⟩
        · refine List.pairwise_append.mpr ⟨?_, List.pairwise_singleton _ _, ?_⟩
          · refine h3.imp_of_mem fun {y z} hy hz hyz => ?_
            simpa only [if_neg (hne y hy), if_neg (hne z hz)] using hyz
          · intro y hy z hz
            have hz : z = x := by simpa using hz
            subst hz
            simp only [if_neg (hne y hy), if_true]
            exact (h2 y hy).2.2.2 _
    · have he : (s.step (.read i)).lookers[n]? = s.lookers[n]? := by
        simp only [State.step]
        split
        · rfl
        · split
          · rfl
          · exact List.getElem?_set_ne hi
      exact ⟨m, he.trans hm, g.later mono⟩

theorem made_run {v : Limits} {rs : List Limits} {s₀ : State} {n : Nat} (es : List Event) : ∀ {s : State} {m : Looker}, Sound v rs s →
    (∀ w, verOf s₀ w ≤ verOf s w) → s.lookers[n]? = some m → Made (v :: rs) s₀ s m →
    ∃ m', (s.run es).lookers[n]? = some m' ∧ Made (v :: rs) s₀ (s.run es) m' := by
  induction es with
  | nil => exact fun _ _ hm g => ⟨_, hm, g⟩
  | cons e es ih =>
    intro s m hs h0 hm g
    obtain ⟨m', h1, h2⟩ := made_step hs h0 hm g e
    exact ih (sound_step hs e) (fun w => Nat.le_trans (h0 w) (verOf_step s e w)) h1 h2

/-- The state after a run in which a look is begun after `pre`. -/
theorem made_begun (v : Limits) (rs : List Limits) (pre : List Event) (mid : List Event) (m : Looker)
    (hm : ((agent v rs).run (pre ++ .begin :: mid)).lookers[((agent v rs).run pre).lookers.length]? = some m) :
    Made (v :: rs) ((agent v rs).run pre) ((agent v rs).run (pre ++ .begin :: mid)) m := by
  have hs := sound_run (v := v) (rs := rs) pre (sound_agent v rs)
  have e : (agent v rs).run (pre ++ .begin :: mid) = (((agent v rs).run pre).step (.begin)).run mid := by
    simp [State.run, List.foldl_append]
  rw [e] at hm ⊢
  obtain ⟨m', h1, h2⟩ := made_run (s₀ := (agent v rs).run pre) (n := ((agent v rs).run pre).lookers.length) mid
    (sound_step hs (.begin)) (fun w => Nat.le_refl _)
    (m := ⟨[], reads, fun _ => 0⟩) (by simp [State.step]) ⟨rfl, fun _ => 0, by simp, List.Pairwise.nil⟩
  rw [h1] at hm
  rw [← Option.some.inj hm]
  exact h2

theorem verdict_eq (m : Looker) (e : Int) (l : Limits) (hb : m.got .base = l.base) (hm : m.got .remove = if l.remove then 1 else 0)
    (ha : m.got .alert = if l.alert then 1 else 0) (hy : m.got .yellow = l.yellow) (hr : m.got .red = l.red) : m.verdict e = l.says e := by
  have s1 : ∀ b : Bool, decide ((if b then 1 else 0 : Int) ≠ 0) = b := by decide
  have s2 : ∀ b : Bool, (if (if b then 1 else 0 : Int) ≠ 0 then 2 else 1) = if b then 2 else 1 := by decide
  unfold Looker.verdict Limits.says
  rw [Verdict.mk.injEq, hb, hm, ha, hy, hr]
  refine ⟨rfl, ?_, ?_⟩
  · by_cases h : e > l.base
    · rw [if_pos h, decide_eq_true h, Bool.true_and]
      exact s1 _
    · rw [if_neg h, decide_eq_false h, Bool.false_and]
  · by_cases h : e > l.base
    · rw [if_pos h, if_pos h]
      exact congrArg some (s2 _)
    · rw [if_neg h, if_neg h]

/-- **C123**: what a look begun when `complete` loads were complete and taken when `begun` had begun comes to is put together from the configurations
   there were meanwhile, as `MayCome` tells. -/
theorem C123_what_a_look_comes_to (v : Limits) (rs : List Limits) (pre mid : List Event) (m : Looker)
    (hm : ((agent v rs).run (pre ++ .begin :: mid)).lookers[((agent v rs).run pre).lookers.length]? = some m) (hl : m.left = []) (elapsed : Int) :
    MayCome (v :: rs) ((agent v rs).run pre).complete ((agent v rs).run (pre ++ .begin :: mid)).begun elapsed (m.verdict elapsed) := by
  obtain ⟨h1, ver, h2, h3⟩ := made_begun v rs pre mid m hm
  rw [hl, List.append_nil] at h1
  rw [h1] at h2 h3
  have all : ∀ x : Opt, x ∈ reads := by
    intro x
    cases x <;> decide
  have get : ∀ x : Opt, ∃ u, Among (v :: rs) ((agent v rs).run pre).complete ((agent v rs).run (pre ++ .begin :: mid)).begun (ver x) u ∧
      m.got x = u.words x := by
    intro x
    obtain ⟨⟨u, hu, hg⟩, p, q, -⟩ := h2 x (all x)
    exact ⟨u, ⟨hu, Nat.le_trans (verOf_ge _ _) p, Nat.le_trans q (verOf_le _ _)⟩, hg⟩
  have near : ver .yellow ≤ ver .base ∧ ver .red ≤ ver .base ∧ ver .yellow ≤ ver .remove ∧ ver .red ≤ ver .remove ∧ ver .yellow ≤ ver .alert ∧
      ver .red ≤ ver .alert ∧ ver .yellow ≤ ver .red + 1 ∧ ver .base ≤ ver .remove + 1 ∧ ver .base ≤ ver .alert + 1 ∧
      ver .remove ≤ ver .alert + 1 := by
    clear h1 h2
    simp [reads, Fits, Late] at h3
    omega
  obtain ⟨ly, ay, gy⟩ := get .yellow
  obtain ⟨lr, ar, gr⟩ := get .red
  obtain ⟨lb, ab, gb⟩ := get .base
  obtain ⟨lm, am, gm⟩ := get .remove
  obtain ⟨la, aa, ga⟩ := get .alert
  obtain ⟨n1, n2, n3, n4, n5, n6, n7, n8, n9, n10⟩ := near
  refine ⟨_, ly, _, lr, _, lb, _, lm, _, la, ay, ar, ab, am, aa, n1, n2, n3, n4, n5, n6, n7, n8, n9, n10, ?_⟩
  exact verdict_eq m elapsed _ gb gm ga gy gr

theorem among_unique {vs : List Limits} {n i : Nat} {u : Limits} (g : Among vs n n i u) : vs[n]? = some u := by
  obtain ⟨h1, h2, h3⟩ := g
  rw [← h1]
  congr 1
  omega

/-- **C123**: a look taken between two loads comes to what the configuration there is says. -/
theorem C123_between_loads (v : Limits) (rs : List Limits) (pre mid : List Event) (m : Looker)
    (hm : ((agent v rs).run (pre ++ .begin :: mid)).lookers[((agent v rs).run pre).lookers.length]? = some m) (hl : m.left = [])
    (hq : ((agent v rs).run (pre ++ .begin :: mid)).begun = ((agent v rs).run pre).complete) (elapsed : Int) :
    ∃ u, (v :: rs)[((agent v rs).run pre).complete]? = some u ∧ m.verdict elapsed = u.says elapsed := by
  have h := C123_what_a_look_comes_to v rs pre mid m hm hl elapsed
  rw [hq] at h
  obtain ⟨y, ly, r, lr, b, lb, k, lm, a, la, gy, gr, gb, gm, ga, -, -, -, -, -, -, -, -, -, -, e⟩ := h
  have same : ∀ {i x}, Among (v :: rs) ((agent v rs).run pre).complete ((agent v rs).run pre).complete i x → x = ly := fun g =>
    Option.some.inj ((among_unique g).symm.trans (among_unique gy))
  exact ⟨ly, among_unique gy, by rw [e, same gr, same gb, same gm, same ga]⟩

/-- **C123**: if the configurations there are meanwhile differ in one option at most (`o`), the look comes to what one of them says. -/
theorem C123_one_option (v : Limits) (rs : List Limits) (pre mid : List Event) (m : Looker)
    (hm : ((agent v rs).run (pre ++ .begin :: mid)).lookers[((agent v rs).run pre).lookers.length]? = some m) (hl : m.left = []) (o : Opt)
    (ho : ∀ i l j k, Among (v :: rs) ((agent v rs).run pre).complete ((agent v rs).run (pre ++ .begin :: mid)).begun i l →
      Among (v :: rs) ((agent v rs).run pre).complete ((agent v rs).run (pre ++ .begin :: mid)).begun j k → ∀ x, x ≠ o → l.words x = k.words x)
    (elapsed : Int) :
    ∃ i u, Among (v :: rs) ((agent v rs).run pre).complete ((agent v rs).run (pre ++ .begin :: mid)).begun i u ∧ m.verdict elapsed = u.says elapsed := by
  obtain ⟨y, ly, r, lr, b, lb, k, lm, a, la, gy, gr, gb, gm, ga, -, -, -, -, -, -, -, -, -, -, e⟩ := C123_what_a_look_comes_to v rs pre mid m hm hl elapsed
  have sw : ∀ p q : Bool, ((if p then 1 else 0 : Int) = if q then 1 else 0) → p = q := by decide
  have key : ∀ {i u}, Among (v :: rs) ((agent v rs).run pre).complete ((agent v rs).run (pre ++ .begin :: mid)).begun i u →
      (o = .base → lb.base = u.base) → (o = .remove → lm.remove = u.remove) → (o = .alert → la.alert = u.alert) → (o = .yellow → ly.yellow = u.yellow) →
      (o = .red → lr.red = u.red) → m.verdict elapsed = u.says elapsed := by
    intro i u g h1 h2 h3 h4 h5
    have e1 : lb.base = u.base := if h : o = .base then h1 h else ho _ _ _ _ gb g .base (Ne.symm h)
    have e2 : lm.remove = u.remove := if h : o = .remove then h2 h else sw _ _ (ho _ _ _ _ gm g .remove (Ne.symm h))
    have e3 : la.alert = u.alert := if h : o = .alert then h3 h else sw _ _ (ho _ _ _ _ ga g .alert (Ne.symm h))
    have e4 : ly.yellow = u.yellow := if h : o = .yellow then h4 h else ho _ _ _ _ gy g .yellow (Ne.symm h)
    have e5 : lr.red = u.red := if h : o = .red then h5 h else ho _ _ _ _ gr g .red (Ne.symm h)
    rw [e, e1, e2, e3, e4, e5]
  cases o with
  | base => exact ⟨_, _, gb, key gb (fun _ => rfl) (by simp) (by simp) (by simp) (by simp)⟩
  | remove => exact ⟨_, _, gm, key gm (by simp) (fun _ => rfl) (by simp) (by simp) (by simp)⟩
  | alert => exact ⟨_, _, ga, key ga (by simp) (by simp) (fun _ => rfl) (by simp) (by simp)⟩
  | yellow => exact ⟨_, _, gy, key gy (by simp) (by simp) (by simp) (fun _ => rfl) (by simp)⟩
  | red => exact ⟨_, _, gr, key gr (by simp) (by simp) (by simp) (by simp) (fun _ => rfl)⟩

/-- **C123**: a service is ended by force only if one of the configurations there are meanwhile has services ended, and it is older than the base time
   of one of them; so is it with alerts; and it is counted under a colour that lies between those the configurations give it. -/
theorem C123_needs_a_reason (v : Limits) (rs : List Limits) (pre mid : List Event) (m : Looker)
    (hm : ((agent v rs).run (pre ++ .begin :: mid)).lookers[((agent v rs).run pre).lookers.length]? = some m) (hl : m.left = []) (elapsed : Int) :
    let there := fun l => ∃ i, Among (v :: rs) ((agent v rs).run pre).complete ((agent v rs).run (pre ++ .begin :: mid)).begun i l
    ((m.verdict elapsed).ended = true → (∃ l, there l ∧ l.remove = true) ∧ ∃ l, there l ∧ elapsed > l.base) ∧
    (∀ x, (m.verdict elapsed).level = some x → (∃ l, there l ∧ x = if l.alert then 2 else 1) ∧ ∃ l, there l ∧ elapsed > l.base) ∧
    ((m.verdict elapsed).colour = 0 → ∃ l, there l ∧ (l.says elapsed).colour = 0) ∧
    ((m.verdict elapsed).colour = 2 → ∃ l, there l ∧ elapsed > l.yellow) ∧
    ((m.verdict elapsed).colour = 2 → ∃ l, there l ∧ elapsed > l.red) := by
  obtain ⟨y, ly, r, lr, b, lb, k, lm, a, la, gy, gr, gb, gm, ga, -, -, -, -, -, -, -, -, -, -, e⟩ := C123_what_a_look_comes_to v rs pre mid m hm hl elapsed
  rw [e]
  simp only [Limits.says]
  refine ⟨fun h => ?_, fun x h => ?_, fun h => ?_, fun h => ?_, fun h => ?_⟩
  · simp only [Bool.and_eq_true, decide_eq_true_eq] at h
    exact ⟨⟨lm, ⟨_, gm⟩, h.2⟩, lb, ⟨_, gb⟩, h.1⟩
  · by_cases hb : elapsed > lb.base
    · rw [if_pos hb] at h
      exact ⟨⟨la, ⟨_, ga⟩, (Option.some.inj h).symm⟩, lb, ⟨_, gb⟩, hb⟩
    · rw [if_neg hb] at h
      cases h
  · by_cases hy : elapsed ≤ ly.yellow
    · exact ⟨ly, ⟨_, gy⟩, by rw [if_pos hy]⟩
    · rw [if_neg hy] at h
      split at h <;> cases h
  · by_cases hy : elapsed ≤ ly.yellow
    · rw [if_pos hy] at h
      cases h
    · exact ⟨ly, ⟨_, gy⟩, by omega⟩
  · by_cases hr : elapsed ≤ lr.red
    · rw [if_pos hr] at h
      split at h <;> cases h
    · exact ⟨lr, ⟨_, gr⟩, by omega⟩

/-- **C123**: when one load shortens the base time and has services no longer ended, there is a run in which a service is ended by force that neither
   configuration would end. -/
theorem C123_ended_for_nothing (v l : Limits) (rs : List Limits) (elapsed : Int) (h1 : v.remove = true) (h2 : l.remove = false)
    (h3 : l.base < elapsed) (h4 : elapsed ≤ v.base) :
    (v.says elapsed).ended = false ∧ (l.says elapsed).ended = false ∧
    ∃ es m, ((agent v (l :: rs)).run es).lookers[0]? = some m ∧ m.left = [] ∧ (m.verdict elapsed).ended = true := by
  refine ⟨by simp [Limits.says]; omega, by simp [Limits.says, h2], [.load, .load, .begin, .read 0, .read 0, .read 0, .read 0, .read 0], _, rfl, rfl, ?_⟩
  show (if elapsed > l.base then decide (v.words .remove ≠ 0) else false) = true
  rw [if_pos h3]
  simp [Limits.words, h1]

/-- **C123**: likewise when one load lengthens the base time and has services ended from then on. -/
theorem C123_ended_too_early (v l : Limits) (rs : List Limits) (elapsed : Int) (h1 : v.remove = false) (h2 : l.remove = true)
    (h3 : v.base < elapsed) (h4 : elapsed ≤ l.base) :
    (v.says elapsed).ended = false ∧ (l.says elapsed).ended = false ∧
    ∃ es m, ((agent v (l :: rs)).run es).lookers[0]? = some m ∧ m.left = [] ∧ (m.verdict elapsed).ended = true := by
  refine ⟨by simp [Limits.says, h1], by simp [Limits.says]; omega,
    [.begin, .read 0, .read 0, .read 0, .load, .load, .load, .read 0, .read 0], _, rfl, rfl, ?_⟩
  show (if elapsed > v.base then decide ((if l.remove then 1 else 0 : Int) ≠ 0) else false) = true
  rw [if_pos h3, h2]
  rfl

open Trace Sweeping in
/-- **C123**: what the configuration says of a look is what a look of `GetActiveCount` made with it does (`C120_each_look`): the service is counted
   under the colour, an alert of the level sent, and its log sent if it is ended and has not ended before. -/
theorem C123_as_looked_at {w : World} (hw : Reachable w) {p : Nat} {t : Tctx} (h : w.tctxs[p]? = some t) (now : Int) (a : Nat × Nat × Nat) :
    let v := (⟨w.conf.stuckBase, w.conf.stuckRemove, w.conf.stuckAlert, w.conf.yellow, w.conf.red⟩ : Limits).says ((now - t.startTime).tdiv 1000000)
    ∃ w' a', look now p a w = (.ok a', w') ∧
      a' = (if v.colour = 0 then (a.1 + 1, a.2.1, a.2.2) else if v.colour = 1 then (a.1, a.2.1 + 1, a.2.2) else (a.1, a.2.1, a.2.2 + 1)) ∧
      (∃ new, alertsOf w'.proxy.direct = alertsOf w.proxy.direct ++ new ∧ new.map (fun x => x.level.toNat) = v.level.toList) ∧
      (xlogsOf w'.proxy.direct).length = (xlogsOf w.proxy.direct).length + if v.ended = true ∧ t.closed = false then 1 else 0 := by
  intro v
  obtain ⟨w', a', h1, -, -, -, h2, h3, -, h4⟩ := look_run hw.good h now a
  have hel : runningMs w now p = (now - t.startTime).tdiv 1000000 := by unfold runningMs startedAt; rw [h]; rfl
  refine ⟨w', a', h1, ?_, ⟨_, h3, ?_⟩, ?_⟩
  · rw [h2]
    unfold Active.plus byColour
    simp only [List.countP_cons, List.countP_nil, Nat.zero_add, hel, v, Limits.says]
    by_cases k1 : (now - t.startTime).tdiv 1000000 ≤ w.conf.yellow
    · have : ¬ w.conf.yellow < (now - t.startTime).tdiv 1000000 := by omega
      simp [k1, this]
    · have k1' : w.conf.yellow < (now - t.startTime).tdiv 1000000 := by omega
      by_cases k2 : (now - t.startTime).tdiv 1000000 ≤ w.conf.red
      · have : ¬ w.conf.red < (now - t.startTime).tdiv 1000000 := by omega
        simp [k1, k1', k2, this]
      · have k2' : w.conf.red < (now - t.startTime).tdiv 1000000 := by omega
        simp [k1', k2', k1, k2]
  · by_cases k : w.conf.stuckBase < (now - t.startTime).tdiv 1000000
    · rw [if_pos (show isStuck w now t from k)]
      simp only [v, Limits.says]
      rw [if_pos k]
      by_cases ha : w.conf.stuckAlert = true <;> simp [stuckAlertOf, ha]
    · rw [if_neg (show ¬ isStuck w now t from k)]
      simp only [v, Limits.says]
      rw [if_neg k]
      rfl
  · have hv : v.ended = true ↔ isStuck w now t ∧ w.conf.stuckRemove = true := by
      simp only [v, Limits.says, Bool.and_eq_true, decide_eq_true_eq]
      exact Iff.rfl
    by_cases k : isStuck w now t ∧ w.conf.stuckRemove = true ∧ t.closed = false
    · rw [if_pos k] at h4
      obtain ⟨x, -, hx, -⟩ := h4
      rw [hx, if_pos ⟨hv.mpr ⟨k.1, k.2.1⟩, k.2.2⟩]
      simp
    · rw [if_neg k] at h4
      rw [h4.1, if_neg fun hc => k ⟨(hv.mp hc.1).1, (hv.mp hc.1).2, hc.2⟩]
      rfl

end Looking

namespace Demo
open Looking

/-- Services that run for more than five minutes are ended. -/
def lOld : Limits := ⟨300000, true, true, 3000, 8000⟩

/-- Warnings from a second on, and no service is ended. -/
def lNew : Limits := ⟨1000, false, false, 3000, 8000⟩

/-- Only a limit of a colour is changed. -/
def lRed : Limits := { lOld with red := 9000 }

/-- A service that has been running for two seconds is ended by force, and an error told. -/
example : lOld.says 2000 = ⟨0, false, none⟩ ∧ lNew.says 2000 = ⟨0, false, some 1⟩ ∧
    ((Looking.agent lOld [lNew]).run ([.load, .load] ++ .begin :: List.replicate 5 (.read 0))).lookers[0]?.map (fun m => (m.left, m.verdict 2000)) =
      some ([], ⟨0, true, some 2⟩) := by decide +kernel

/-- The hypotheses of `C123_one_option` are met by a load that changes one. -/
example : (∀ x, x ≠ Opt.red → lOld.words x = lRed.words x) ∧
    ((Looking.agent lOld [lRed]).run ([.load, .load, .load] ++ .begin :: ([.read 0] ++ List.replicate 3 .load ++ List.replicate 4 (.read 0)))).lookers[0]?.map
      (fun m => (m.left, m.verdict 8500)) = some ([], ⟨1, false, none⟩) := by
  refine ⟨fun x hx => ?_, by decide +kernel⟩
  cases x <;> first | rfl | exact absurd rfl hx

/-- A look between two loads. -/
example : let s := (Looking.agent lOld [lNew]).run (List.replicate 6 .load)
    let t := (Looking.agent lOld [lNew]).run (List.replicate 6 .load ++ .begin :: List.replicate 5 (.read 0))
    t.begun = s.complete ∧ s.complete = 1 ∧ t.lookers[s.lookers.length]?.map (fun m => (m.left, m.verdict 5000)) = some ([], ⟨1, false, some 1⟩) := by
  decide +kernel

open Trace in
/-- Those of `C123_as_looked_at`: a request has been started. -/
example : Reachable (perform (start env httpConf 100) (.startHttpService .plain (some request))) ∧
    (perform (start env httpConf 100) (.startHttpService .plain (some request))).tctxs.length = 1 :=
  ⟨Reachable.perform ⟨env, httpConf, 100, [], by decide, by decide, trivial, rfl⟩ (by simp [WellFormed]), by decide +kernel⟩

end Demo
end Scouter
