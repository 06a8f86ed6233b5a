import Verif.Spec.Program
import Verif.Props.Panics
import Verif.Props.Requests
import Verif.Proofs.Plain
import Verif.Props.Counters
import Verif.Props.Reload
import Verif.Props.Conf
import Verif.Props.Udp
import Mathlib.Data.List.Induction
/-!
# C99: the agent does not end the program
-/
namespace Scouter
namespace Program
open Trace Handlers Counter Config TM Spec

/-! ## Writing -/

theorem writeMTU_ok (pkid : BitVec 64) (data : Bytes) (max : Int) (h : max ≠ 0) : ∃ x, Udp.writeMTU true pkid data max = .ok x := by
  by_cases hp : 0 < max
  · obtain ⟨n, rfl⟩ : ∃ n : Nat, max = n := ⟨max.toNat, by omega⟩
    exact ⟨_, Scouter.writeMTU_eq pkid data n (by omega)⟩
  · obtain ⟨n, rfl⟩ : ∃ n : Nat, max = -(n : Int) := ⟨(-max).toNat, by omega⟩
    have := Scouter.C29_negative_max_loses pkid n (by omega) data
    by_cases hd : (data.length : Int) > -(n : Int)
    · rw [Udp.writeBuffer, if_neg (by simp), if_pos hd] at this
      exact ⟨_, this⟩
    · omega

theorem bufferLoop_ok (max : Int) (h : max ≠ 0) (ids : Nat → BitVec 64) (bs : List Bytes) :
    ∀ k out cnt, ∃ x, Udp.bufferLoop max ids bs k out cnt = .ok x := by
  induction bs with
  | nil => intro k out cnt; exact ⟨_, rfl⟩
  | cons b bs ih =>
    intro k out cnt
    unfold Udp.bufferLoop
    split
    · obtain ⟨x, hx⟩ := writeMTU_ok (ids k) b max h
      obtain ⟨y, hy⟩ := ih (k + 1) out cnt
      rw [hx, Go.ok_bind, hy]
      exact ⟨_, rfl⟩
    · split
      · obtain ⟨y, hy⟩ := ih k (Out.new.write b) 1
        simp only [hy, Go.ok_bind]
        exact ⟨_, rfl⟩
      · exact ih k _ _

theorem planned_ok (ids : Nat → BitVec 64) (c : Reload.Client) (a : Sender.Call) (h : c.target.max ≠ 0) :
    ∃ x, Reload.planned ids c a = .ok x := by
  cases hd : c.dialled with
  | false => exact ⟨_, Reload.planned_unconnected ids c hd a⟩
  | true =>
    cases a with
    | buffer b =>
      show ∃ x, Udp.writeBuffer c.dialled (ids 0) c.target.max b = .ok x
      rw [hd, Udp.writeBuffer, if_neg (by simp)]
      split
      · exact writeMTU_ok _ _ _ h
      · exact ⟨_, rfl⟩
    | list bs =>
      show ∃ x, Udp.writeBufferList c.dialled ids c.target.max bs = .ok x
      rw [hd, Udp.writeBufferList, if_neg (by simp)]
      obtain ⟨x, hx⟩ := bufferLoop_ok c.target.max h ids bs 0 Out.new 0
      rw [hx]
      exact ⟨_, rfl⟩

theorem bufferLoop_zero (ids : Nat → BitVec 64) (bs : List Bytes) :
    ∀ k cnt, (∀ b ∈ bs, b = []) → ∃ x, Udp.bufferLoop 0 ids bs k Out.new cnt = .ok x := by
  induction bs with
  | nil => intro k cnt _; exact ⟨_, rfl⟩
  | cons b bs ih =>
    intro k cnt h
    have hb : b = [] := h b (by simp)
    subst hb
    unfold Udp.bufferLoop
    rw [if_neg (by simp), if_neg (by decide)]
    have e : Out.new.write [] = Out.new := by simp [Out.write, Out.new]
    rw [e]
    exact ih k _ fun b hb => h b (by simp [hb])

/-- With a maximum of 0 a call panics exactly when it writes something. -/
theorem planned_zero (ids : Nat → BitVec 64) (c : Reload.Client) (a : Sender.Call) (h : c.target.max = 0) (hd : c.dialled = true) :
    (∀ x, Reload.planned ids c a ≠ .ok x) ↔ Writes a := by
  cases a with
  | buffer b =>
    have e : Reload.planned ids c (.buffer b) = Udp.writeBuffer true (ids 0) 0 b := by show Udp.writeBuffer _ _ _ _ = _; rw [hd, h]
    rw [e]
    constructor
    · intro hn hb
      subst hb
      exact hn _ rfl
    · intro hb
      rw [Scouter.C29_zero_max_panics _ _ hb]; simp
  | list bs =>
    have e : Reload.planned ids c (.list bs) = Udp.writeBufferList true ids 0 bs := by show Udp.writeBufferList _ _ _ _ = _; rw [hd, h]
    rw [e]
    constructor
    · intro hn
      refine Classical.byContradiction fun hw => ?_
      have hall : ∀ b ∈ bs, b = [] := fun b hb => Classical.byContradiction fun hne => hw ⟨b, hb, hne⟩
      obtain ⟨x, hx⟩ := bufferLoop_zero ids bs 0 0 hall
      refine hn (true, x) ?_
      rw [Udp.writeBufferList, if_neg (by simp), hx]; rfl
    · rintro ⟨b, hb, hne⟩ x hx
      rw [Udp.writeBufferList, if_neg (by simp)] at hx
      have key : ∀ (bs : List Bytes), b ∈ bs → ∀ k cnt out, ∀ y, Udp.bufferLoop 0 ids bs k out cnt ≠ .ok y := by
        intro bs
        induction bs with
        | nil => intro h; simp at h
        | cons a as ih =>
          intro hm k cnt out y
          unfold Udp.bufferLoop
          by_cases ha : a = []
          · subst ha
            have hm' : b ∈ as := by
              rcases List.mem_cons.1 hm with h | h
              · exact absurd h hne
              · exact h
            rw [if_neg (by simp)]
            split
            · intro hy
              cases hr : Udp.bufferLoop 0 ids as k (Out.new.write []) 1 with
              | ok z => exact ih hm' _ _ _ z hr
              | panic => rw [hr] at hy; simp [Go.panic_bind] at hy
              | fuel => rw [hr] at hy; simp [Go.fuel_bind] at hy
            · exact ih hm' _ _ _ y
          · have hlen : 0 < a.length := List.length_pos_iff.2 ha
            rw [if_pos (by omega)]
            simp [Udp.writeMTU]
      cases hr : Udp.bufferLoop 0 ids bs 0 Out.new 0 with
      | ok z => exact key bs hb _ _ _ z hr
      | panic => rw [hr] at hx; simp at hx
      | fuel => rw [hr] at hx; simp at hx

/-! ## What holds while the program runs -/

/-- What holds of the running program: the table of running services holds services, the sender is in order. -/
structure Sound (p : State) : Prop where
  regs : Regs p.agent.world
  udp : Reload.Inv p.udp
  alive : p.udp.crashed = false
  conf : p.udp.conf = target p.agent.conf

theorem Regs.touched {w w' : World} (h : Regs w) (t : Touched w w') : Regs w' := by
  obtain ⟨mid, q, c, s, rfl⟩ := t
  exact Regs.quiet (w' := mid) h (q shownOf)

theorem retarget_udp (p : State) : (retarget p).agent = p.agent ∧ (retarget p).udp = p.udp.run
    [.ip (target p.agent.conf).ip, .port (target p.agent.conf).port, .max (target p.agent.conf).max] := ⟨rfl, rfl⟩

theorem run_target (u : Reload.State) (t : Reload.Target) (h : u.crashed = false) : u.run [.ip t.ip, .port t.port, .max t.max] =
    { u with conf := t, ips := u.ips ++ [t.ip], ports := u.ports ++ [t.port], maxs := u.maxs ++ [t.max] } := by
  simp [Reload.State.run, Reload.State.fire, h]

theorem Sound.retarget {p : State} (regs : Regs p.agent.world) (udp : Reload.Inv p.udp) (alive : p.udp.crashed = false) : Sound (retarget p) where
  regs := regs
  udp := udp.run _
  alive := by rw [(retarget_udp p).2, run_target _ _ alive]; exact alive
  conf := by rw [(retarget_udp p).2, run_target _ _ alive]; rfl

theorem connected_eq (u : Reload.State) : connected u = u.connected := by
  unfold connected Reload.State.connected
  cases u.clients[u.current]? <;> rfl

theorem announce_sound {p q : State} (h : Sound p) (hq : announce p = some q) : Sound q := by
  unfold announce at hq
  split at hq
  · simp at hq
  · simp only [Option.some.injEq] at hq
    subst hq
    exact ⟨Regs.touched h.regs (announce_touches p.agent), h.udp, h.alive, h.conf⟩

theorem realTime_ok (f : Floats) (name : Bytes) (s : Sample) (o : MapOrder (BitVec 64 × Nat)) (t : Seconds) (k : Monitor)
    (h : Regs k.world) : ∃ pk q, getAllCounterOnPack f name s o t k = (some pk, q) ∧ q.world = perform k.world (.activeCount o) ∧
      pk.timetype = 1 ∧ pk.objName = name := by
  obtain ⟨r, hr⟩ := h.active o
  unfold getAllCounterOnPack
  simp only [hr]
  exact ⟨_, _, rfl, rfl, rfl, rfl⟩

theorem sent_regs {k : Monitor} (pk : PerfCounterPack) (h : Regs k.world) : Regs (sent pk k).world := h

theorem fire_conf {u : Reload.State} (e : Reload.Event) (he : e.Calm) : (u.fire e).conf = u.conf := by
  by_cases hc : u.crashed = true
  · rw [Reload.fire_crashed hc]
  · rcases Reload.fire_calm (s := u) he (by simpa using hc) with ⟨ok, -, e'⟩ | ⟨-, -, h, -⟩
    · rw [e']; unfold Reload.reload; split <;> rfl
    · exact h

theorem fire_maxs {u : Reload.State} (e : Reload.Event) (he : e.Calm) : (u.fire e).maxs = u.maxs := by
  by_cases hc : u.crashed = true
  · rw [Reload.fire_crashed hc]
  · unfold Reload.State.fire
    rw [if_neg hc]
    cases e with
    | ip v => exact he.elim
    | port v => exact he.elim
    | max v => exact he.elim
    | reload ok => simp only; unfold Reload.reload; split <;> rfl
    | call ids a =>
      simp only
      unfold Reload.call
      split
      · rfl
      · simp only
        split <;> rfl
    | write i =>
      simp only
      unfold Reload.write
      split
      · rfl
      · split
        · rfl
        · split <;> rfl

theorem udpEvent_sound {p q : State} (h : Sound p) (e : Reload.Event) (he : e.Calm) (hq : udpEvent p e = some q) : Sound q := by
  unfold udpEvent at hq
  simp only at hq
  split at hq
  · simp at hq
  · rename_i hc
    simp only [Option.some.injEq] at hq
    subst hq
    exact ⟨h.regs, h.udp.fire e, by simpa using hc, (fire_conf e he).trans h.conf⟩

theorem step_sound {f : Floats} {m : Machine} {p q : State} (h : Sound p) (e : Event) (hq : step f m p e = some q) : Sound q := by
  cases e with
  | call now c =>
    simp only [step] at hq
    obtain ⟨w', hw⟩ := h.regs.no_panic c
    rw [hw] at hq
    simp only [Option.some.injEq] at hq
    subst hq
    refine ⟨?_, h.udp, h.alive, h.conf⟩
    have := h.regs.call c
    unfold perform at this
    rw [hw] at this
    exact this
  | request cmd pack =>
    simp only [step, Option.some.injEq] at hq
    subst hq
    exact Sound.retarget (Regs.touched h.regs (handle_touches m p.agent cmd pack)) h.udp h.alive
  | edit text =>
    simp only [step, Option.some.injEq] at hq
    subst hq
    exact ⟨h.regs, h.udp, h.alive, h.conf⟩
  | refresh =>
    simp only [step] at hq
    split at hq
    · simp at hq
    · rename_i a ha
      simp only [Option.some.injEq] at hq
      subst hq
      exact Sound.retarget (Regs.touched h.regs (refresh_touches m p.agent a ha)) h.udp h.alive
  | announce => exact announce_sound h hq
  | realTime s o t =>
    simp only [step] at hq
    obtain ⟨pk, k, hk, hw, -⟩ := realTime_ok f p.agent.conf.objName s o t (monitor p) h.regs
    rw [hk] at hq
    simp only [Option.some.injEq] at hq
    subst hq
    refine ⟨?_, h.udp, h.alive, h.conf⟩
    show Regs (sent pk k).world
    refine sent_regs pk ?_
    rw [hw]
    exact h.regs.call _
  | fiveMin read average =>
    simp only [step, Option.some.injEq] at hq
    subst hq
    exact ⟨sent_regs _ h.regs, h.udp, h.alive, h.conf⟩
  | reload ok => exact udpEvent_sound h _ (by simp [Reload.Event.Calm]) hq
  | write ids a => exact udpEvent_sound h _ (by simp [Reload.Event.Calm]) hq
  | datagram i => exact udpEvent_sound h _ (by simp [Reload.Event.Calm]) hq

theorem life_sound {f : Floats} {m : Machine} (es : List Event) : ∀ {p q : State}, Sound p → life f m p es = some q → Sound q := by
  induction es with
  | nil => intro p q h hq; simp only [life, Option.some.injEq] at hq; exact hq ▸ h
  | cons e es ih =>
    intro p q h hq
    simp only [life] at hq
    cases hs : step f m p e with
    | none => rw [hs] at hq; simp at hq
    | some r => rw [hs] at hq; exact ih (step_sound h e hs) hq

theorem boot_sound {m : Machine} {b : Boot} {p : State} (h : boot m b = some p) : Sound p := by
  unfold boot at h
  split at h
  · simp at h
  · simp only at h
    split at h
    · simp at h
    · rename_i c _
      split at h
      · simp at h
      · split at h
        · simp at h
        · exact announce_sound ⟨Regs.start _ _ _, Reload.Inv.start _ _, rfl, rfl⟩ h

/-! ## Where the maxima come from -/

theorem life_append (f : Floats) (m : Machine) (es es' : List Event) : ∀ p, life f m p (es ++ es') = (life f m p es).bind fun q => life f m q es' := by
  induction es with
  | nil => intro p; rfl
  | cons e es ih =>
    intro p
    simp only [List.cons_append, life]
    cases step f m p e with
    | none => rfl
    | some q => exact ih q

/-- Every maximum the sender has seen was in effect at some moment. -/
def Seen (f : Floats) (m : Machine) (p : State) (es : List Event) (u : Reload.State) : Prop :=
  ∀ v ∈ u.maxs, ∃ n r, life f m p (es.take n) = some r ∧ maxBytes r = v

theorem announce_udp {p q : State} (h : announce p = some q) : q.udp = p.udp ∧ q.agent.conf = p.agent.conf := by
  unfold announce at h
  split at h
  · simp at h
  · simp only [Option.some.injEq] at h
    subst h
    exact ⟨rfl, rfl⟩

theorem boot_maxs {m : Machine} {b : Boot} {p : State} (h : boot m b = some p) : p.udp.maxs = [maxBytes p] := by
  unfold boot at h
  split at h
  · simp at h
  · simp only at h
    split at h
    · simp at h
    · split at h
      · simp at h
      · split at h
        · simp at h
        · obtain ⟨h1, h2⟩ := announce_udp h
          unfold maxBytes
          rw [h1, h2]
          rfl

theorem step_maxs {f : Floats} {m : Machine} {p q : State} (h : Sound p) (e : Event) (hq : step f m p e = some q) :
    ∀ v ∈ q.udp.maxs, v ∈ p.udp.maxs ∨ v = maxBytes q := by
  have hr : ∀ (a : Agent), ∀ v ∈ (retarget { p with agent := a }).udp.maxs, v ∈ p.udp.maxs ∨ v = maxBytes (retarget { p with agent := a }) := by
    intro a v hv
    rw [(retarget_udp _).2, run_target _ _ h.alive] at hv
    rcases List.mem_append.1 hv with hv | hv
    · exact Or.inl hv
    · rw [List.mem_singleton] at hv
      exact Or.inr hv
  have hu : ∀ e : Reload.Event, e.Calm → udpEvent p e = some q → ∀ v ∈ q.udp.maxs, v ∈ p.udp.maxs ∨ v = maxBytes q := by
    intro e he hq v hv
    unfold udpEvent at hq
    simp only at hq
    split at hq
    · simp at hq
    · simp only [Option.some.injEq] at hq
      subst hq
      left
      rw [← fire_maxs e he]
      exact hv
  cases e with
  | call now c =>
    simp only [step] at hq
    split at hq
    · simp only [Option.some.injEq] at hq; subst hq; exact fun v hv => Or.inl hv
    · simp at hq
  | request cmd pack =>
    simp only [step, Option.some.injEq] at hq
    subst hq
    exact hr _
  | edit text =>
    simp only [step, Option.some.injEq] at hq; subst hq; exact fun v hv => Or.inl hv
  | refresh =>
    simp only [step] at hq
    split at hq
    · simp at hq
    · simp only [Option.some.injEq] at hq
      subst hq
      exact hr _
  | announce => rw [(announce_udp hq).1]; exact fun v hv => Or.inl hv
  | realTime s o t =>
    simp only [step] at hq
    split at hq
    · simp at hq
    · simp only [Option.some.injEq] at hq; subst hq; exact fun v hv => Or.inl hv
  | fiveMin read average =>
    simp only [step, Option.some.injEq] at hq; subst hq; exact fun v hv => Or.inl hv
  | reload ok => exact hu _ (by simp [Reload.Event.Calm]) hq
  | write ids a => exact hu _ (by simp [Reload.Event.Calm]) hq
  | datagram i => exact hu _ (by simp [Reload.Event.Calm]) hq

theorem life_seen {f : Floats} {m : Machine} {p : State} (hp : Sound p) (h0 : p.udp.maxs = [maxBytes p]) (es : List Event) :
    ∀ q, life f m p es = some q → Seen f m p es q.udp := by
  induction es using List.reverseRecOn with
  | nil =>
    intro q hq v hv
    simp only [life, Option.some.injEq] at hq
    subst hq
    rw [h0, List.mem_singleton] at hv
    exact ⟨0, p, rfl, hv.symm⟩
  | append_singleton es e ih =>
    intro q hq v hv
    have hq0 := hq
    rw [life_append] at hq
    cases hr : life f m p es with
    | none => rw [hr] at hq; simp at hq
    | some r =>
      rw [hr] at hq
      simp only [Option.bind_some, life] at hq
      cases hs : step f m r e with
      | none => rw [hs] at hq; simp at hq
      | some r' =>
        rw [hs] at hq
        simp only [Option.bind_some, Option.some.injEq] at hq
        subst hq
        rcases step_maxs (life_sound es hp hr) e hs v hv with h | h
        · obtain ⟨n, x, h1, h2⟩ := ih r hr v h
          refine ⟨min n es.length, x, ?_, h2⟩
          rw [List.take_append_of_le_length (Nat.min_le_right _ _), ← h1]
          congr 1
          rw [Nat.min_def]
          split
          · rfl
          · rw [List.take_of_length_le (Nat.le_refl _), List.take_of_length_le (by omega)]
        · exact ⟨(es ++ [e]).length, r', by rw [List.take_length]; exact hq0, h.symm⟩

/-! ## The theorems -/

theorem refresh_some (m : Machine) (a : Agent) (h : WellFormedEnv m.env) : ∃ a', a.refresh m = some a' := by
  unfold Agent.refresh
  have : ∃ c, Config.refresh m.env m.host (m.file a) (m.file a) a.conf = some c := by
    generalize m.file a = g
    by_cases hl : (g = .absent ∨ ∃ t, stamp g = some t ∧ t > a.conf.lastModified) ∧ (g = .absent ∨ ∃ t x, g = .good t x)
    · obtain ⟨c, hc, -⟩ := refresh_loads h m.host (f := g) (g := g) a.conf hl.1 hl.2
      exact ⟨c, hc⟩
    · refine ⟨_, refresh_keeps h m.host (f := g) (g := g) a.conf ?_⟩
      cases g with
      | absent => simp at hl
      | denied => exact Or.inl (Or.inl rfl)
      | bad t => exact Or.inr (Or.inr ⟨t, rfl⟩)
      | good t x =>
        refine Or.inl (Or.inr ⟨t, rfl, ?_⟩)
        refine Int.not_lt.1 fun hlt => hl ⟨Or.inr ⟨t, rfl, hlt⟩, Or.inr ⟨t, x, rfl⟩⟩
  obtain ⟨c, hc⟩ := this
  rw [hc]
  exact ⟨_, rfl⟩

/-- **C99**: a running program is ended by the agent in three ways only: by a refresh when the environment has an entry without `=`; by an
announcement while announcements are traced and the sender has no connection; by writing something with a maximum of 0, which was
in effect at some moment. -/
theorem C99_ends_only (f : Floats) (m : Machine) (b : Boot) (p : State) (hb : boot m b = some p) (es : List Event) (q : State)
    (hl : life f m p es = some q) (e : Event) (he : step f m q e = none) :
    (e = .refresh ∧ ¬ WellFormedEnv m.env) ∨
    (e = .announce ∧ traced q = true ∧ connected q.udp = false) ∨
    ∃ ids a, e = .write ids a ∧ Writes a ∧ connected q.udp = true ∧ ∃ n r, life f m p (es.take n) = some r ∧ maxBytes r = 0 := by
  have hs := life_sound es (boot_sound hb) hl
  have hseen := life_seen (boot_sound hb) (boot_maxs hb) es q hl
  cases e with
  | call now c =>
    simp only [step] at he
    obtain ⟨w', hw⟩ := hs.regs.no_panic c
    rw [hw] at he
    simp at he
  | request cmd pack => simp [step] at he
  | edit text => simp [step] at he
  | refresh =>
    refine Or.inl ⟨rfl, fun henv => ?_⟩
    obtain ⟨a, ha⟩ := refresh_some m q.agent henv
    simp only [step, ha] at he
    simp at he
  | announce =>
    refine Or.inr (Or.inl ⟨rfl, ?_⟩)
    simp only [step, announce] at he
    split at he
    · assumption
    · simp at he
  | realTime s o t =>
    simp only [step] at he
    obtain ⟨pk, k, hk, -, -⟩ := realTime_ok f q.agent.conf.objName s o t (monitor q) hs.regs
    rw [hk] at he
    simp at he
  | fiveMin read average => simp [step] at he
  | reload ok =>
    simp only [step, udpEvent, Reload.State.fire, hs.alive] at he
    have : (Reload.reload ok q.udp).crashed = q.udp.crashed := by unfold Reload.reload; split <;> rfl
    simp [this, hs.alive] at he
  | datagram i =>
    simp only [step, udpEvent, Reload.State.fire, hs.alive] at he
    have : (Reload.write i q.udp).crashed = q.udp.crashed := by
      rcases Reload.write_cases i q.udp with h | ⟨_, _, _, _, _, _, _, h⟩ <;> rw [h]
    simp [this, hs.alive] at he
  | write ids a =>
    refine Or.inr (Or.inr ⟨ids, a, rfl, ?_⟩)
    simp only [step, udpEvent, Reload.State.fire, hs.alive] at he
    obtain ⟨c, hc, -, -⟩ := hs.udp.cur
    have hco : connected q.udp = c.dialled := by unfold connected; rw [hc]
    rcases Reload.call_cases ids a q.udp hc with ⟨x, ds, -, e'⟩ | ⟨hp, -⟩
    · simp [e', hs.alive] at he
    · have h0 : c.target.max = 0 := Classical.byContradiction fun h => by
        obtain ⟨x, hx⟩ := planned_ok ids c a h
        exact hp x hx
      have hd : c.dialled = true := by
        cases hd : c.dialled with
        | true => rfl
        | false => exact absurd (Reload.planned_unconnected ids c hd a) (hp _)
      refine ⟨(planned_zero ids c a h0 hd).1 hp, by rw [hco, hd], ?_⟩
      exact hseen 0 (h0 ▸ (hs.udp.clients c (List.mem_of_getElem? hc)).max)

/-- **C99**: in a well-formed environment, as long as the maximum in effect is never 0 and announcements are never traced without a
connection, nothing the application, the collector, the network or the clock does makes the agent end the program. -/
theorem C99_survives (f : Floats) (m : Machine) (b : Boot) (p : State) (hb : boot m b = some p) (es : List Event) (henv : WellFormedEnv m.env)
    (hmax : Throughout f m (fun q => maxBytes q ≠ 0) p es)
    (htr : Throughout f m (fun q => traced q = true → connected q.udp = true) p es) : ∃ q, life f m p es = some q := by
  induction es using List.reverseRecOn with
  | nil => exact ⟨p, rfl⟩
  | append_singleton es e ih =>
    have short : ∀ P, Throughout f m P p (es ++ [e]) → Throughout f m P p es := by
      intro P h n q hq
      refine h (min n es.length) q ?_
      rw [List.take_append_of_le_length (Nat.min_le_right _ _), ← hq]
      congr 1
      rw [Nat.min_def]
      split
      · rfl
      · rw [List.take_of_length_le (Nat.le_refl _), List.take_of_length_le (by omega)]
    obtain ⟨q, hq⟩ := ih (short _ hmax) (short _ htr)
    rw [life_append, hq]
    simp only [Option.bind_some, life]
    cases hs : step f m q e with
    | some r => exact ⟨r, rfl⟩
    | none =>
      exfalso
      have hq' : life f m p ((es ++ [e]).take es.length) = some q := by rw [List.take_left]; exact hq
      rcases C99_ends_only f m b p hb es q hq e hs with ⟨-, h⟩ | ⟨-, h1, h2⟩ | ⟨-, -, -, -, -, n, r, h1, h2⟩
      · exact h henv
      · rw [htr _ q hq' h1] at h2; cases h2
      · exact short _ hmax n r h1 h2

/-- **C99**: and these ways do end it: announcing with tracing on and no connection; writing something with a connection and a maximum of 0. -/
theorem C99_ends_so (f : Floats) (m : Machine) (q : State) (hs : Sound q) :
    (traced q = true → connected q.udp = false → step f m q .announce = none) ∧
    ∀ c, q.udp.clients[q.udp.current]? = some c → c.dialled = true → c.target.max = 0 → ∀ ids a, Writes a → step f m q (.write ids a) = none := by
  refine ⟨fun h1 h2 => if_pos ⟨h1, h2⟩, fun c hc hd h0 ids a hw => ?_⟩
  simp only [step, udpEvent, Reload.State.fire, hs.alive]
  rcases Reload.call_cases ids a q.udp hc with ⟨x, ds, h, -⟩ | ⟨-, e⟩
  · exact absurd h ((planned_zero ids c a h0 hd).2 hw _)
  · simp [e]

/-! ## The start -/

/-- The number in effect for a key: of the file or the environment, else the default. -/
def number (m : Machine) (file : Option Props) (key : String) (default : Int) : Int :=
  ((effectiveText m.env file (ascii key)).bind wholeNumber).getD default

/-- Announcements are traced according to this file and the environment. -/
def asksTrace (m : Machine) (file : Option Props) : Bool := ((effectiveText m.env file (ascii "trace_obj_send")).map isYes).getD false

theorem inEffect_int {m : Machine} {file : Option Props} {c : Configure} (h : InEffect m.env m.host file c) (f : String) (k : String) (d : Int)
    (hr : (⟨f, ascii k, .int d⟩ : Config.Row) ∈ objRows ++ rows) : c.intAt f = number m file k d := by
  have := h.fields _ hr
  simp only at this
  simp [Configure.intAt, this, meaning, number]

theorem inEffect_trace {m : Machine} {file : Option Props} {c : Configure} (h : InEffect m.env m.host file c) :
    c.boolAt "TraceObjSend" = asksTrace m file := by
  have := h.fields ⟨"TraceObjSend", ascii "trace_obj_send", .bool false⟩ (by decide +kernel)
  simp only at this
  unfold Configure.boolAt
  rw [this]
  unfold asksTrace
  cases effectiveText m.env file (ascii "trace_obj_send") <;> rfl

theorem boot_conf {m : Machine} (henv : WellFormedEnv m.env) {b : Boot} {file : Option Props} (h : Finds m b file) :
    ∃ c, Config.refresh m.env m.host (m.file (Agent.start b.oracle fresh b.text b.fs 0)) (m.file (Agent.start b.oracle fresh b.text b.fs 0)) fresh = some c ∧
      InEffect m.env m.host file c := by
  rcases h with ⟨ht, rfl⟩ | ⟨t, text, content, ht, hpos, hread, hparse, rfl⟩
  · have hf : m.file (Agent.start b.oracle fresh b.text b.fs 0) = .absent := by unfold Machine.file Agent.start; simp [ht]
    rw [hf]
    obtain ⟨c, hc, hl⟩ := refresh_loads henv m.host (f := .absent) (g := .absent) fresh (Or.inl rfl) (Or.inl rfl)
    exact ⟨c, hc, hl.inEffect⟩
  · have hf : m.file (Agent.start b.oracle fresh b.text b.fs 0) = .good t content := by
      unfold Machine.file Agent.start; simp [ht, hread, hparse]
    rw [hf]
    obtain ⟨c, hc, hl⟩ := refresh_loads henv m.host (f := .good t content) (g := .good t content) fresh (Or.inr ⟨t, rfl, hpos⟩) (Or.inr ⟨t, _, rfl⟩)
    exact ⟨c, hc, hl.inEffect⟩

/-- **C99**: the program with the agent starts exactly if the log file can be opened, neither the number of profile steps kept in
memory nor the size of the queue is set to a negative number, and announcements are not traced while the collector's address cannot be dialled. -/
theorem C99_starts (m : Machine) (henv : WellFormedEnv m.env) (b : Boot) (file : Option Props) (h : Finds m b file) :
    (∃ p, boot m b = some p) ↔ b.logOpens = true ∧ 0 ≤ number m file "profile_step_max_keep_in_memory_count" 2048 ∧
      0 ≤ number m file "send_queue_size" 3000 ∧ (asksTrace m file = true → b.dials = true) := by
  obtain ⟨c, hc, he⟩ := boot_conf henv h
  have h1 := inEffect_int he "ProfileStepMaxKeepInMemoryCount" "profile_step_max_keep_in_memory_count" 2048 (by decide +kernel)
  have h2 := inEffect_int he "SendQueueSize" "send_queue_size" 3000 (by decide +kernel)
  have h3 := inEffect_trace he
  have hd : ∀ t ok, connected (Reload.State.start t ok) = ok := fun t ok => rfl
  unfold boot
  simp only [hc, h1, h2]
  by_cases a1 : b.logOpens = false
  · simp [a1]
  · by_cases a2 : number m file "profile_step_max_keep_in_memory_count" 2048 < 0
    · simp [a1, a2]
    · by_cases a3 : number m file "send_queue_size" 3000 < 0
      · simp [a1, a2, a3]
      · rw [if_neg a1, if_neg a2, if_neg a3]
        unfold announce
        have e : (Agent.start b.oracle c b.text b.fs (number m file "send_queue_size" 3000).toNat).conf = c := rfl
        simp only [e, hd, h3]
        simp only [Bool.not_eq_false] at a1
        by_cases a4 : asksTrace m file = true ∧ b.dials = false
        · rw [if_pos a4]
          simp [a4.1, a4.2]
        · rw [if_neg a4]
          refine ⟨fun _ => ⟨a1, by omega, by omega, fun ht => ?_⟩, fun _ => ⟨_, rfl⟩⟩
          by_contra hn
          exact a4 ⟨ht, by simpa using hn⟩

/-- **C99**: with none of these settings made, it starts whenever the log file can be opened, whether or not the collector can be reached. -/
theorem C99_starts_by_default (m : Machine) (henv : WellFormedEnv m.env) (b : Boot) (file : Option Props) (h : Finds m b file) (hlog : b.logOpens = true)
    (hk : ∀ k ∈ ["profile_step_max_keep_in_memory_count", "send_queue_size", "trace_obj_send"], effectiveText m.env file (ascii k) = none) :
    ∃ p, boot m b = some p := by
  refine (C99_starts m henv b file h).2 ⟨hlog, ?_, ?_, fun ht => ?_⟩
  · rw [number, hk _ (by simp)]; decide
  · rw [number, hk _ (by simp)]; decide
  · rw [asksTrace, hk _ (by simp)] at ht; cases ht

/-! ## Settings that never end it -/

/-- The settings are those of a file that can be read or of none, or those before any was read. -/
def Settled (m : Machine) (c : Configure) : Prop :=
  c.fields = fresh.fields ∨ ∃ file, (file = none ∨ ∃ text, m.parse text = file) ∧ InEffect m.env m.host file c

theorem Settled.refresh {m : Machine} (henv : WellFormedEnv m.env) {a : Agent} {c : Configure} (h : Settled m a.conf)
    (hr : Config.refresh m.env m.host (m.file a) (m.file a) a.conf = some c) : Settled m c := by
  rcases refresh_cases henv m.host (m.file a) (m.file a) a.conf with hc | ⟨c', hc, hl⟩
  · rw [hc] at hr
    simp only [Option.some.injEq] at hr
    subst hr; exact h
  · rw [hc] at hr
    simp only [Option.some.injEq] at hr
    subst hr
    refine Or.inr ⟨_, ?_, hl.inEffect⟩
    unfold Machine.file
    split
    · exact Or.inl rfl
    · split
      · split
        · exact Or.inl rfl
        · rename_i x _ p hp
          exact Or.inr ⟨_, hp⟩
      · exact Or.inl rfl

theorem Settled.agent {m : Machine} (henv : WellFormedEnv m.env) {a a' : Agent} (h : Settled m a.conf) (hr : a.refresh m = some a') : Settled m a'.conf := by
  unfold Agent.refresh at hr
  cases hc : Config.refresh m.env m.host (m.file a) (m.file a) a.conf with
  | none => rw [hc] at hr; simp at hr
  | some c =>
    rw [hc] at hr
    simp only [Option.some.injEq] at hr
    subst hr
    exact h.refresh henv hc

theorem Settled.handle {m : Machine} (henv : WellFormedEnv m.env) {a : Agent} (h : Settled m a.conf) (cmd : Bytes) (p : Pack) :
    Settled m (handle m a cmd p).1.conf := by
  by_cases hs : cmd = ascii "SET_CONFIGURE_WAS"
  · subst hs
    rw [handle_SET_CONFIGURE_WAS]
    have key : Settled m (saveConfig m a p).2.conf := by
      unfold saveConfig
      split
      · extract_lets result text
        unfold saveConfigText
        by_cases hw : m.writable a.requests = true
        · simp only [if_pos hw]
          split
          · exact h
          · next a' hr => exact Settled.agent (a := a.saved m text) henv h hr
        · simp only [if_neg hw]; exact h
      · exact h
    show Settled m (match saveConfig m a p with
      | (some t, a) => ((a, withPack t) : Agent × Tcp.Answer)
      | (none, a) => ({ a with world := (recovered () TM.panic a.world).2 }, nothing)).1.conf
    split <;> (next heq => rw [heq] at key; exact key)
  · rw [(handle_other m a cmd p hs).1]; exact h

theorem step_settled {f : Floats} {m : Machine} (henv : WellFormedEnv m.env) {p q : State} (h : Settled m p.agent.conf) (e : Event)
    (hq : step f m p e = some q) : Settled m q.agent.conf := by
  have hu : ∀ e : Reload.Event, udpEvent p e = some q → Settled m q.agent.conf := by
    intro e hq
    unfold udpEvent at hq
    simp only at hq
    split at hq
    · simp at hq
    · simp only [Option.some.injEq] at hq
      subst hq
      exact h
  cases e with
  | call now c =>
    simp only [step] at hq
    split at hq
    · simp only [Option.some.injEq] at hq; subst hq; exact h
    · simp at hq
  | request cmd pack =>
    simp only [step, Option.some.injEq] at hq
    subst hq
    exact h.handle henv cmd pack
  | edit text => simp only [step, Option.some.injEq] at hq; subst hq; exact h
  | refresh =>
    simp only [step] at hq
    split at hq
    · simp at hq
    · rename_i a ha
      simp only [Option.some.injEq] at hq
      subst hq
      exact h.agent henv ha
  | announce => rw [(announce_udp hq).2]; exact h
  | realTime s o t =>
    simp only [step] at hq
    split at hq
    · simp at hq
    · simp only [Option.some.injEq] at hq; subst hq; exact h
  | fiveMin read average => simp only [step, Option.some.injEq] at hq; subst hq; exact h
  | reload ok => exact hu _ hq
  | write ids a => exact hu _ hq
  | datagram i => exact hu _ hq

theorem boot_settled {m : Machine} (henv : WellFormedEnv m.env) {b : Boot} {p : State} (h : boot m b = some p) : Settled m p.agent.conf := by
  unfold boot at h
  split at h
  · simp at h
  · simp only at h
    split at h
    · simp at h
    · rename_i c hc
      split at h
      · simp at h
      · split at h
        · simp at h
        · rw [(announce_udp h).2]
          exact Settled.refresh (a := Agent.start b.oracle fresh b.text b.fs 0) henv (Or.inl rfl) hc

theorem life_settled {f : Floats} {m : Machine} (henv : WellFormedEnv m.env) (es : List Event) :
    ∀ {p q : State}, Settled m p.agent.conf → life f m p es = some q → Settled m q.agent.conf := by
  induction es with
  | nil => intro p q h hq; simp only [life, Option.some.injEq] at hq; exact hq ▸ h
  | cons e es ih =>
    intro p q h hq
    simp only [life] at hq
    cases hs : step f m p e with
    | none => rw [hs] at hq; simp at hq
    | some r => rw [hs] at hq; exact ih (step_settled henv h e hs) hq

/-- **C99**: if no text of the configuration file, nor the environment alone, asks for tracing announcements or for a maximum of 0, the agent
never ends the program, whatever the file becomes, whoever changes it, whatever the collector asks, the network does and the application calls. -/
theorem C99_never_ends (f : Floats) (m : Machine) (b : Boot) (p : State) (hb : boot m b = some p) (es : List Event) (henv : WellFormedEnv m.env)
    (hset : ∀ file, (file = none ∨ ∃ text, m.parse text = file) → asksTrace m file = false ∧ number m file "udp_max_bytes" 60000 ≠ 0) :
    ∃ q, life f m p es = some q := by
  have key : ∀ c, Settled m c → c.boolAt "TraceObjSend" = false ∧ c.intAt "UDPMaxBytes" ≠ 0 := by
    rintro c (h | ⟨file, hf, he⟩)
    · unfold Configure.boolAt Configure.intAt
      rw [h]
      decide +kernel
    · rw [inEffect_trace he, inEffect_int he "UDPMaxBytes" "udp_max_bytes" 60000 (by decide +kernel)]
      exact hset file hf
  refine C99_survives f m b p hb es henv (fun n q hq => ?_) (fun n q hq ht => ?_)
  · exact (key _ (life_settled henv _ (boot_settled henv hb) hq)).2
  · have := (key _ (life_settled henv _ (boot_settled henv hb) hq)).1
    unfold traced at ht
    rw [ht] at this; cases this

/-- **C99**: and at every moment of such a history every round of the counters sends its pack: what has been sent so far remains, and the last
pack is the counter's. -/
theorem C99_counters_go_on (f : Floats) (m : Machine) (b : Boot) (p : State) (hb : boot m b = some p) (es : List Event) (q : State)
    (hl : life f m p es = some q) (s : Sample) (o : MapOrder (BitVec 64 × Nat)) (t : Seconds) (read average : Int) :
    (∃ r mid pk, step f m q (.realTime s o t) = some r ∧
      r.agent.world.proxy.direct = q.agent.world.proxy.direct ++ mid ++ [.perfCounter pk] ∧ pk.timetype = 1 ∧ pk.objName = q.agent.conf.objName) ∧
    ∃ r pk, step f m q (.fiveMin read average) = some r ∧
      r.agent.world.proxy.direct = q.agent.world.proxy.direct ++ [.perfCounter pk] ∧ pk.timetype = 3 ∧ pk.objName = q.agent.conf.objName := by
  have hs := life_sound es (boot_sound hb) hl
  constructor
  · obtain ⟨pk, k, hk, hw, ht, hn⟩ := realTime_ok f q.agent.conf.objName s o t (monitor q) hs.regs
    obtain ⟨⟨mid, hm, -⟩, -⟩ := grow_code (.activeCount o) q.agent.world
    refine ⟨withMonitor q (sent pk k), mid, pk, by simp only [step, hk], ?_, ?_⟩
    · show k.world.proxy.direct ++ [_] = _
      rw [hw]
      show (perform q.agent.world (.activeCount o)).proxy.direct ++ _ = _
      unfold perform
      rw [hm]
    · exact ⟨ht, hn⟩
  · exact ⟨_, _, rfl, rfl, rfl, rfl⟩

/-! ## Cases -/

namespace Demo
open Handlers.Demo

/-- A start without a configuration file. -/
def booted : Boot := ⟨true, none, [], true, 90, Scouter.Demo.env⟩

/-- A machine whose configuration file may ask for traced announcements, a maximum of 0 or a negative queue. -/
def asking (key value : String) : Machine := { machine with parse := fun _ => some fun k => if k = ascii key then some (ascii value) else none }

def bootedWith (dials : Bool) : Boot := { booted with text := some (5, []), dials := dials }

/-- Services, a request, a changed file, the rounds of every goroutine. -/
def history : List Event :=
  [.call 91 (.startService .plain (ascii "a") []), .announce, .realTime Scouter.Demo.sampleA Scouter.Demo.inOrder ⟨92, 92, 92, 92⟩,
   .edit (some (50, ascii "nn")), .refresh, .reload true, .write (fun _ => 7) (.buffer [1, 2]), .datagram 0,
   .request (ascii "KEEP_ALIVE") (.map ⟨[]⟩), .call 93 (.endService (.traced 0)), .fiveMin 94 94, .announce]

example : (boot machine booted).isSome = true := by decide +kernel
example : ((boot machine booted).bind fun p => life Scouter.Demo.floor machine p history).isSome = true := by decide +kernel
example : Finds machine booted none := Or.inl ⟨rfl, rfl⟩
example : WellFormedEnv machine.env := by decide +kernel
/-- Negative sizes, and tracing with no connection: it does not start. -/
example : (boot (asking "send_queue_size" "-1") (bootedWith true)).isNone = true ∧
    (boot (asking "profile_step_max_keep_in_memory_count" "-1") (bootedWith true)).isNone = true ∧
    (boot (asking "trace_obj_send" "on") (bootedWith false)).isNone = true ∧ (boot (asking "trace_obj_send" "on") (bootedWith true)).isSome = true ∧
    (boot machine { booted with logOpens := false }).isNone = true ∧ (boot machine { booted with dials := false }).isSome = true := by decide +kernel
/-- A collector whose address cannot be dialled, and tracing turned on later. -/
example : ((boot machine { booted with dials := false }).bind fun p => life Scouter.Demo.floor (asking "trace_obj_send" "on") p
    [.announce, .edit (some (50, [])), .refresh]).isSome = true ∧
    ((boot machine { booted with dials := false }).bind fun p => life Scouter.Demo.floor (asking "trace_obj_send" "on") p
    [.announce, .edit (some (50, [])), .refresh, .announce]).isNone = true := by decide +kernel
/-- A maximum of 0, at the first datagram. -/
example : ((boot (asking "udp_max_bytes" "0") (bootedWith true)).bind fun p => life Scouter.Demo.floor machine p
    [.announce, .refresh]).isSome = true ∧ ((boot (asking "udp_max_bytes" "0") (bootedWith true)).bind fun p => life Scouter.Demo.floor machine p
    [.announce, .refresh, .write (fun _ => 7) (.buffer [1])]).isNone = true := by decide +kernel
/-- The hypothesis of `C99_never_ends` holds of this machine. -/
example : ∀ file, (file = none ∨ ∃ text, machine.parse text = file) → asksTrace machine file = false ∧ number machine file "udp_max_bytes" 60000 ≠ 0 := by
  have key : ∀ k, k ≠ ascii "obj_name" → envValue machine.env k = none → ∀ file, (file = none ∨ ∃ text, machine.parse text = file) →
      effectiveText machine.env file k = none := by
    rintro k hk he file (rfl | ⟨text, rfl⟩)
    · simp [effectiveText, he]
    · unfold effectiveText machine
      simp only
      split
      · rename_i v hv
        split at hv
        · simp at hv
        · simp [hk] at hv
      · rw [show envValue [ascii "HOME=/root"] k = none from he]; rfl
  intro file hf
  rw [asksTrace, number, key _ (by decide +kernel) (by decide +kernel) file hf, key _ (by decide +kernel) (by decide +kernel) file hf]
  exact ⟨rfl, by decide⟩

end Demo
end Program
end Scouter
