import Verif.Spec.Session
import Verif.Props.Tcp
/-!
# C98: a connection that fails, and settings that change under it
-/
namespace Scouter
namespace Session
open Tcp

/-! ## Writes that fail -/

theorem write_none (bs : Bytes) : write none bs = (none, bs, true) := rfl
theorem write_fits {n : Nat} {bs : Bytes} (hn : bs.length ≤ n) : write (some n) bs = (some (n - bs.length), bs, true) := if_pos hn
theorem write_fails {n : Nat} {bs : Bytes} (hn : ¬ bs.length ≤ n) : write (some n) bs = (some 0, bs.take n, false) := if_neg hn

/-- How a run `r` on a connection that fails after `m` bytes compares with the run `full` on one that does not. -/
structure Cut {W : Type} (m : Nat) (full r : Result W) : Prop where
  whole : full.sent = (full.answers.map reply).flatten
  sent : r.sent = full.sent.take m
  answers : ∃ k, r.answers = full.answers.take k ∧ k ≤ full.answers.length ∧
    (∀ j < k, ((full.answers.take j).map reply).flatten.length ≤ m) ∧
    (k < full.answers.length → m < ((full.answers.take k).map reply).flatten.length)
  fits : full.sent.length ≤ m → r = full
  fails : m < full.sent.length → r.last = .error ∧ ∃ as a part rest, r.answers = as ++ [a] ∧ reply a = part ++ rest ∧ rest ≠ [] ∧
    r.sent = (as.map reply).flatten ++ part

theorem cut_nothing {W : Type} (m : Nat) (w : W) (e : End) (ts : List Target) : Cut m ⟨[], [], w, e, ts⟩ ⟨[], [], w, e, ts⟩ :=
  ⟨rfl, by simp, ⟨0, by simp, by simp, by simp, by simp⟩, fun _ => rfl, fun h => absurd h (Nat.not_lt_zero _)⟩

theorem cut_cons {W : Type} {m : Nat} {full r : Result W} (a : Answer) (t : Target) (hf : (reply a).length ≤ m) (hc : Cut (m - (reply a).length) full r) :
    Cut m ⟨reply a ++ full.sent, a :: full.answers, full.world, full.last, t :: full.seen⟩
      ⟨reply a ++ r.sent, a :: r.answers, r.world, r.last, t :: r.seen⟩ := by
  obtain ⟨h6, h1, ⟨k, h2, h3, h4, h5⟩, h7, h8⟩ := hc
  refine ⟨?_, ?_, ⟨k + 1, ?_, ?_, ?_, ?_⟩, ?_, ?_⟩
  · simp only [List.map_cons, List.flatten_cons, ← h6]
  · simp only [h1]
    rw [List.take_append, List.take_of_length_le hf]
  · simp only [List.take_succ_cons, h2]
  · simp only [List.length_cons]; omega
  · intro j hj
    cases j with
    | zero => simp
    | succ j =>
      have := h4 j (by omega)
      simp only [List.take_succ_cons, List.map_cons, List.flatten_cons, List.length_append]; omega
  · intro hk
    simp only [List.length_cons] at hk
    have := h5 (by omega)
    simp only [List.take_succ_cons, List.map_cons, List.flatten_cons, List.length_append]; omega
  · intro hl
    simp only [List.length_append] at hl
    rw [h7 (by omega)]
  · intro hl
    simp only [List.length_append] at hl
    obtain ⟨e, as, b, part, rest, e1, e2, e3, e4⟩ := h8 (by omega)
    exact ⟨e, a :: as, b, part, rest, by simp [e1], e2, e3, by simp [e4]⟩

section
variable {W : Type} (h : Handler W) (look : W → Target) (ok : Target → Bool) (o : Others W)

/-- The loop on a connection that fails after `m` bytes, next to the one on a connection that does not. -/
theorem loop_cut (n : Nat) : ∀ (i : Nat) (w : W) (c : Conn) (m : Nat),
    Cut m (loop h look ok o n i w c none) (loop h look ok o n i w c (some m)) := by
  induction n with
  | zero => intro i w c m; exact cut_nothing ..
  | succ n ih =>
    intro i w c m
    unfold loop
    by_cases hs : ok (look (o.before i w)) = true
    · simp only [hs, if_true]
      cases hr : round h (o.waiting i (o.before i w)) c with
      | inr e => exact cut_nothing ..
      | inl x =>
        obtain ⟨w', c', a⟩ := x
        simp only [write_none]
        by_cases hf : (reply a).length ≤ m
        · rw [write_fits hf]
          exact cut_cons a _ hf (ih (i + 1) w' c' _)
        · rw [write_fails hf]
          have h6 := (ih (i + 1) w' c' 0).whole
          refine ⟨?_, ?_, ⟨1, ?_, ?_, ?_, ?_⟩, ?_, ?_⟩
          · simp only [List.map_cons, List.flatten_cons, ← h6]
          · simp only
            rw [List.take_append_of_le_length (by omega)]
          · simp
          · simp
          · intro j hj
            have : j = 0 := by omega
            subst this; simp
          · intro _
            simp only [List.take_succ_cons, List.take_zero, List.map_cons, List.map_nil, List.flatten_cons, List.flatten_nil, List.append_nil]
            omega
          · intro hl
            simp only [List.length_append] at hl
            omega
          · intro _
            refine ⟨rfl, [], a, (reply a).take m, (reply a).drop m, rfl, (List.take_append_drop _ _).symm, ?_, rfl⟩
            intro e
            have := congrArg List.length e
            simp at this; omega
    · simp only [hs]
      exact cut_nothing ..

end

theorem greeting_length (o : BitVec 32) : (greeting o).length = 8 := rfl

theorem version_length : (Out.new.writeInt32 agentV2).bytes.length = 4 := rfl
theorem hash_length (o : BitVec 32) : (Out.new.writeInt32 o).bytes.length = 4 := rfl

section
variable {W : Type} (h : Handler W) (look : W → Target) (o : Others W)

theorem process_none (objHash : BitVec 32) (n : Nat) (w : W) (c : Conn) :
    process h look o objHash n w c none =
      { loop h look (same objHash (look w)) o n 0 w c none with sent := greeting objHash ++ (loop h look (same objHash (look w)) o n 0 w c none).sent } := rfl

theorem process_small (objHash : BitVec 32) (n : Nat) (w : W) (c : Conn) (m : Nat) (hm : m < 8) :
    process h look o objHash n w c (some m) = ⟨(greeting objHash).take m, [], w, .error, []⟩ := by
  unfold process
  by_cases h4 : 4 ≤ m
  · rw [write_fits (show (Out.new.writeInt32 agentV2).bytes.length ≤ m from h4)]
    simp only
    rw [write_fails (by rw [hash_length, version_length]; omega)]
    simp only
    rw [show greeting objHash = (Out.new.writeInt32 agentV2).bytes ++ (Out.new.writeInt32 objHash).bytes from rfl, List.take_append,
      List.take_of_length_le (l := (Out.new.writeInt32 agentV2).bytes) (by rw [version_length]; exact h4)]
  · rw [write_fails (by rw [version_length]; exact h4)]
    simp only
    rw [write_fails (by rw [hash_length]; omega)]
    simp only [List.take_zero, List.append_nil]
    rw [show greeting objHash = (Out.new.writeInt32 agentV2).bytes ++ (Out.new.writeInt32 objHash).bytes from rfl,
      List.take_append_of_le_length (by rw [version_length]; omega)]

theorem process_large (objHash : BitVec 32) (n : Nat) (w : W) (c : Conn) (m : Nat) (hm : 8 ≤ m) :
    process h look o objHash n w c (some m) =
      { loop h look (same objHash (look w)) o n 0 w c (some (m - 8)) with
        sent := greeting objHash ++ (loop h look (same objHash (look w)) o n 0 w c (some (m - 8))).sent } := by
  unfold process
  rw [write_fits (show (Out.new.writeInt32 agentV2).bytes.length ≤ m by rw [version_length]; omega)]
  simp only
  rw [write_fits (by rw [hash_length, version_length]; omega)]
  simp only
  rw [show m - (Out.new.writeInt32 agentV2).bytes.length - (Out.new.writeInt32 objHash).bytes.length = m - 8 by
    rw [hash_length, hash_length]; omega]
  rfl

/-- **C98**: whatever bytes come, whatever handlers and other goroutines do, and whenever the connection fails: what it has accepted is the
beginning of what would have been sent on a connection that does not fail. -/
theorem C98_beginning_of_the_stream (n : Nat) (w : W) (c : Conn) (room : Room) :
    (attempt h look o n w c room).2.sent = room.cut (attempt h look o n w c none).2.sent := by
  cases room with
  | none => rfl
  | some m =>
    show (process h look o _ n _ c (some m)).sent = (process h look o _ n _ c none).sent.take m
    rw [process_none]
    by_cases hm : m < 8
    · rw [process_small _ _ _ _ _ _ _ _ hm]
      simp only
      rw [List.take_append_of_le_length (by rw [greeting_length]; omega)]
    · rw [process_large _ _ _ _ _ _ _ _ (by omega)]
      simp only
      rw [List.take_append, List.take_of_length_le (by rw [greeting_length]; omega), greeting_length, (loop_cut ..).sent]

/-- **C98**: the requests carried out are the first ones; the `j`-th (from 0) of those that would have been carried out on a connection that does not
fail is carried out if and only if the greeting and the replies to those before it have been accepted. -/
theorem C98_requests_carried_out (n : Nat) (w : W) (c : Conn) (m : Nat) :
    let full := (attempt h look o n w c none).2
    let r := (attempt h look o n w c (some m)).2
    r.answers = full.answers.take r.answers.length ∧ ∀ j < full.answers.length, j < r.answers.length ↔ upTo j full.answers ≤ m := by
  intro full r
  have hfull : full = process h look o (look w).objHash n (o.dialing w) c none := rfl
  have hr : r = process h look o (look w).objHash n (o.dialing w) c (some m) := rfl
  clear_value full r
  rw [process_none] at hfull
  by_cases hm : m < 8
  · rw [process_small _ _ _ _ _ _ _ _ hm] at hr
    subst hr
    refine ⟨rfl, fun j hj => ?_⟩
    simp only [List.length_nil, upTo]
    omega
  · rw [process_large _ _ _ _ _ _ _ _ (by omega)] at hr
    obtain ⟨k, e, hk, h1, h2⟩ := (loop_cut h look (same (look w).objHash (look (o.dialing w))) o n 0 (o.dialing w) c (m - 8)).answers
    have ef : full.answers = (loop h look (same (look w).objHash (look (o.dialing w))) o n 0 (o.dialing w) c none).answers := by rw [hfull]
    have er : r.answers = full.answers.take k := by rw [hr, ef]; exact e
    rw [← ef] at hk h1 h2
    have hlen : r.answers.length = k := by rw [er, List.length_take]; omega
    rw [hlen]
    refine ⟨er, fun j hj => ⟨fun hj' => ?_, fun hj' => ?_⟩⟩
    · have := h1 j hj'
      unfold upTo; omega
    · apply Classical.byContradiction
      intro hge
      have h2 := h2 (by omega)
      have : ((full.answers.take k).map reply).flatten.length ≤ ((full.answers.take j).map reply).flatten.length := by
        rw [show full.answers.take k = (full.answers.take j).take k by rw [List.take_take]; congr 1; omega, List.map_take]
        have e := List.take_append_drop k ((full.answers.take j).map reply)
        conv => rhs; rw [← e]
        rw [List.flatten_append, List.length_append]; omega
      unfold upTo at hj'
      omega

/-- **C98**: if the connection fails before everything is sent, the agent ends it with an error, and the collector lacks (the end of) the reply to
the last request carried out, and nothing else; or not even the greeting was accepted and nothing was carried out. -/
theorem C98_only_the_last_reply_is_cut (n : Nat) (w : W) (c : Conn) (m : Nat)
    (hm : m < (attempt h look o n w c none).2.sent.length) :
    let r := (attempt h look o n w c (some m)).2
    r.last = .error ∧
    ((m < 8 ∧ r.answers = [] ∧ r.world = o.dialing w ∧ r.sent = (greeting (look w).objHash).take m) ∨
     ∃ as a part rest, r.answers = as ++ [a] ∧ reply a = part ++ rest ∧ rest ≠ [] ∧
      r.sent = greeting (look w).objHash ++ (as.map reply).flatten ++ part) := by
  intro r
  have hr : r = process h look o (look w).objHash n (o.dialing w) c (some m) := rfl
  clear_value r
  have hm : m < (process h look o (look w).objHash n (o.dialing w) c none).sent.length := hm
  rw [process_none] at hm
  simp only [List.length_append, greeting_length] at hm
  by_cases h8 : m < 8
  · rw [process_small _ _ _ _ _ _ _ _ h8] at hr
    subst hr
    exact ⟨rfl, .inl ⟨h8, rfl, rfl, rfl⟩⟩
  · rw [process_large _ _ _ _ _ _ _ _ (by omega)] at hr
    obtain ⟨e, as, a, part, rest, e1, e2, e3, e4⟩ := (loop_cut h look (same (look w).objHash (look (o.dialing w))) o n 0 (o.dialing w) c (m - 8)).fails (by omega)
    subst hr
    exact ⟨e, .inr ⟨as, a, part, rest, e1, e2, e3, by simp only [e4, List.append_assoc]⟩⟩

/-- **C98**: a connection that accepts everything there is to send might as well never fail. -/
theorem C98_enough_room (n : Nat) (w : W) (c : Conn) (m : Nat) (hm : (attempt h look o n w c none).2.sent.length ≤ m) :
    attempt h look o n w c (some m) = attempt h look o n w c none := by
  have hm : (process h look o (look w).objHash n (o.dialing w) c none).sent.length ≤ m := hm
  show (_, process h look o (look w).objHash n (o.dialing w) c (some m)) = (_, process h look o (look w).objHash n (o.dialing w) c none)
  rw [process_none] at hm ⊢
  simp only [List.length_append, greeting_length] at hm
  rw [process_large _ _ _ _ _ _ _ _ (by omega)]
  rw [(loop_cut h look (same (look w).objHash (look (o.dialing w))) o n 0 (o.dialing w) c (m - 8)).fits (by omega)]

end

/-! ## What the requests did -/

theorem loop_serves {W : Type} (h : Handler W) (look : W → Target) (ok : Target → Bool) (rs : List Request) (hr : ∀ r ∈ rs, r.Good) (n : Nat) :
    ∀ (i : Nat) (w : W) (c : Conn) (room : Room) (_ : Delivers c (rs.map Request.body)),
    let r := loop h look ok Others.none n i w c room
    r.answers.length ≤ rs.length ∧ r.answers = (serve h w (rs.take r.answers.length)).1 ∧ r.world = (serve h w (rs.take r.answers.length)).2 := by
  induction n generalizing rs with
  | zero => intro i w c room _; exact ⟨by simp [loop], rfl, rfl⟩
  | succ n ih =>
    intro i w c room hd
    unfold loop
    by_cases hs : ok (look w) = true
    · simp only [Others.none, id_eq, hs, if_true]
      cases rs with
      | nil => rw [round_end h w c hd]; exact ⟨by simp, rfl, rfl⟩
      | cons q rs =>
        obtain ⟨c', he, hd'⟩ := round_request h w c q (hr q (by simp)) _ hd
        rw [he]
        simp only
        rcases hw : write room (reply (h w q.cmd (.map ⟨q.params⟩)).2) with ⟨room', bs, b⟩
        cases b with
        | false => exact ⟨by simp, rfl, rfl⟩
        | true =>
          obtain ⟨h1, h2, h3⟩ := ih rs (fun q h => hr q (by simp [h])) (i + 1) (h w q.cmd (.map ⟨q.params⟩)).1 c' room' hd'
          simp only [Others.none] at h1 h2 h3
          refine ⟨by simpa using h1, ?_, ?_⟩
          · simp only [List.length_cons, List.take_succ_cons, serve]
            rw [← h2]
          · simp only [List.length_cons, List.take_succ_cons, serve]
            rw [← h3]
    · simp only [Others.none, id_eq, hs]
      exact ⟨by simp, rfl, rfl⟩

/-- **C98**: for requests broken between bodies only, with nobody else at work: the requests carried out are the first ones, each once and in order, and
the agent is left in the state they lead to; also the one whose reply was cut has been carried out. -/
theorem C98_lost_reply_request_done {W : Type} (h : Handler W) (look : W → Target) (rs : List Request) (hr : ∀ r ∈ rs, r.Good) (n : Nat) (w : W) (c : Conn)
    (room : Room) (hd : Delivers c (rs.map Request.body)) :
    let r := (attempt h look Others.none n w c room).2
    r.answers.length ≤ rs.length ∧ r.answers = (serve h w (rs.take r.answers.length)).1 ∧ r.world = (serve h w (rs.take r.answers.length)).2 := by
  intro r
  have key := fun room => loop_serves h look (same (look w).objHash (look w)) rs hr n 0 w c room hd
  have hrr : r = process h look Others.none (look w).objHash n w c room := rfl
  clear_value r
  cases room with
  | none => rw [process_none] at hrr; subst hrr; exact key none
  | some m =>
    by_cases h8 : m < 8
    · rw [process_small _ _ _ _ _ _ _ _ h8] at hrr
      subst hrr; exact ⟨Nat.zero_le _, rfl, rfl⟩
    · rw [process_large _ _ _ _ _ _ _ _ (by omega)] at hrr
      subst hrr; exact key (some (m - 8))

/-! ## Settings that change -/

section
variable {W : Type} (h : Handler W) (look : W → Target) (o : Others W)

theorem loop_seen (ok : Target → Bool) (n : Nat) : ∀ (i : Nat) (w : W) (c : Conn) (room : Room),
    let r := loop h look ok o n i w c room
    r.answers.length ≤ r.seen.length ∧ (∀ j t, j < r.answers.length → r.seen[j]? = some t → ok t = true) ∧
    (∀ j t, r.seen[j]? = some t → ok t = false → r.seen.length = j + 1 ∧ r.answers.length = j ∧ r.last = .changed) := by
  induction n with
  | zero => intro i w c room; simp [loop]
  | succ n ih =>
    intro i w c room
    unfold loop
    by_cases hs : ok (look (o.before i w)) = true
    · simp only [hs, if_true]
      cases hr : round h (o.waiting i (o.before i w)) c with
      | inr e =>
        refine ⟨by simp, by simp, fun j t hj ht => ?_⟩
        cases j with
        | zero => simp at hj; rw [← hj, hs] at ht; cases ht
        | succ j => simp at hj
      | inl x =>
        obtain ⟨w', c', a⟩ := x
        simp only
        rcases hw : write room (reply a) with ⟨room', bs, b⟩
        cases b with
        | false =>
          refine ⟨by simp, fun j t hj he => ?_, fun j t hj ht => ?_⟩
          · have : j = 0 := by simpa using hj
            subst this
            simp at he; rw [← he, hs]
          · cases j with
            | zero => simp at hj; rw [← hj, hs] at ht; cases ht
            | succ j => simp at hj
        | true =>
          obtain ⟨h1, h2, h3⟩ := ih (i + 1) w' c' room'
          refine ⟨by simpa using h1, fun j t hj he => ?_, fun j t hj ht => ?_⟩
          · cases j with
            | zero => simp at he; rw [← he, hs]
            | succ j => exact h2 j t (by simpa using hj) (by simpa using he)
          · cases j with
            | zero => simp at hj; rw [← hj, hs] at ht; cases ht
            | succ j =>
              obtain ⟨a1, a2, a3⟩ := h3 j t (by simpa using hj) ht
              exact ⟨by simpa using a1, by simpa using a2, a3⟩
    · simp only [hs]
      refine ⟨by simp, by simp, fun j t hj ht => ?_⟩
      cases j with
      | zero => simp
      | succ j => simp at hj

theorem process_seen (objHash : BitVec 32) (n : Nat) (w : W) (c : Conn) (room : Room) :
    let r := process h look o objHash n w c room
    r.answers.length ≤ r.seen.length ∧ (∀ j t, j < r.answers.length → r.seen[j]? = some t → same objHash (look w) t = true) ∧
    (∀ j t, r.seen[j]? = some t → same objHash (look w) t = false → r.seen.length = j + 1 ∧ r.answers.length = j ∧ r.last = .changed) := by
  cases room with
  | none => rw [process_none]; exact loop_seen ..
  | some m =>
    by_cases h8 : m < 8
    · rw [process_small _ _ _ _ _ _ _ _ h8]
      simp
    · rw [process_large _ _ _ _ _ _ _ _ (by omega)]
      exact loop_seen ..

theorem same_iff (t : Target) (now : Target) : same t.objHash t now = true ↔ now = t := by
  unfold same
  cases t; cases now
  simp only [Bool.and_eq_true, decide_eq_true_eq, Target.mk.injEq]
  constructor
  · rintro ⟨⟨h1, h2⟩, h3⟩; exact ⟨h2.symm, h3.symm, h1.symm⟩
  · rintro ⟨h1, h2, h3⟩; exact ⟨⟨h3.symm, h1.symm⟩, h2.symm⟩

/-- **C98**: if the settings are not changed while the agent dials, then, whatever is changed later: when the agent begins to wait for a request it then
answers, the collector dialled and the object announced are those configured; once they are found to be others no request is answered any more and the
connection is ended. -/
theorem C98_answers_only_the_configured_collector (n : Nat) (w : W) (c : Conn) (room : Room) (hd : look (o.dialing w) = look w) :
    let dialled := (attempt h look o n w c room).1
    let r := (attempt h look o n w c room).2
    r.answers.length ≤ r.seen.length ∧ (∀ j t, j < r.answers.length → r.seen[j]? = some t → t = dialled) ∧
    (∀ j t, r.seen[j]? = some t → t ≠ dialled → r.seen.length = j + 1 ∧ r.answers.length = j ∧ r.last = .changed) := by
  intro dialled r
  obtain ⟨h1, h2, h3⟩ := process_seen h look o (look w).objHash n (o.dialing w) c room
  rw [hd] at h2 h3
  refine ⟨h1, fun j t hj he => (same_iff _ _).1 (h2 j t hj he), fun j t he hne => h3 j t he ?_⟩
  rw [Bool.eq_false_iff]
  exact fun e => hne ((same_iff _ _).1 e)

theorem round_world {w w' : W} {c c' : Conn} {a : Answer} (hr : round h w c = .inl (w', c', a)) : ∃ cmd p, w' = (h w cmd p).1 := by
  revert hr
  unfold round
  repeat' split
  all_goals intro hx
  all_goals try (cases hx; done)
  rename_i cmd _ _ _ _ p _ _ _ _ _ e
  injection hx with hx
  injection hx with h1 h2
  exact ⟨_, _, by rw [e]; exact h1.symm⟩

/-- The loop, when nobody touches the settings any more and the test held once. -/
theorem loop_leaves (hl : Leaves h look o) (ok : Target → Bool) (n : Nat) : ∀ (i : Nat) (w : W) (c : Conn) (room : Room) (_ : ok (look w) = true),
    let r := loop h look ok o n i w c room
    r.last ≠ .changed ∧ ∀ t ∈ r.seen, t = look w := by
  induction n with
  | zero => intro i w c room _; simp [loop]
  | succ n ih =>
    intro i w c room hw
    have e : look (o.before i w) = look w := hl.before i w
    unfold loop
    simp only [e, hw, if_true]
    cases hr : round h (o.waiting i (o.before i w)) c with
    | inr x =>
      refine ⟨?_, by simp⟩
      simp only
      intro hx
      subst hx
      revert hr
      unfold round
      repeat' split
      all_goals intro hx; cases hx
    | inl x =>
      obtain ⟨w', c', a⟩ := x
      simp only
      have e' : look w' = look w := by
        obtain ⟨cmd, p, rfl⟩ := round_world h hr
        rw [hl.handler, hl.waiting, e]
      rcases hwr : write room (reply a) with ⟨room', bs, b⟩
      cases b with
      | false => exact ⟨by simp, by simp⟩
      | true =>
        obtain ⟨h1, h2⟩ := ih (i + 1) w' c' room' (by rw [e']; exact hw)
        refine ⟨h1, fun t ht => ?_⟩
        simp only [List.mem_cons] at ht
        rcases ht with rfl | ht
        · rfl
        · rw [h2 t ht, e']

theorem loop_answers (hl : Leaves h look o) (ok : Target → Bool) (rs : List Request) (hr : ∀ r ∈ rs, r.Good) (n : Nat) :
    ∀ (i : Nat) (w : W) (c : Conn) (_ : ok (look w) = true) (_ : Delivers c (rs.map Request.body)) (_ : rs.length < n),
    (loop h look ok o n i w c none).answers.length = rs.length ∧ (loop h look ok o n i w c none).last = .error := by
  induction n generalizing rs with
  | zero => intro i w c _ _ hn; omega
  | succ n ih =>
    intro i w c hw hd hn
    have e : look (o.before i w) = look w := hl.before i w
    unfold loop
    simp only [e, hw, if_true]
    cases rs with
    | nil => rw [round_end h _ c hd]; exact ⟨rfl, rfl⟩
    | cons q rs =>
      obtain ⟨c', he, hd'⟩ := round_request h (o.waiting i (o.before i w)) c q (hr q (by simp)) _ hd
      rw [he]
      simp only [write_none, List.length_cons]
      obtain ⟨h1, h2⟩ := ih rs (fun q h => hr q (by simp [h])) (i + 1) (h (o.waiting i (o.before i w)) q.cmd (.map ⟨q.params⟩)).1 c'
        (by rw [hl.handler, hl.waiting, e]; exact hw) hd' (by simpa using hn)
      exact ⟨by rw [h1], h2⟩

/-- **C98**: as long as nobody changes the settings, all requests are answered. -/
theorem C98_all_answered (hl : Leaves h look o) (n : Nat) (w : W) (c : Conn) (rs : List Request) (hr : ∀ r ∈ rs, r.Good)
    (hd : Delivers c (rs.map Request.body)) (hn : rs.length < n) (hdial : look (o.dialing w) = look w) :
    (attempt h look o n w c none).2.answers.length = rs.length := by
  show (process h look o _ n _ c none).answers.length = _
  rw [process_none]
  exact (loop_answers h look o hl _ rs hr n 0 _ c (by rw [hdial]; exact (same_iff _ _).2 rfl) hd hn).1

/-- **C98**, as found: *the agent leaves a collector that is no longer configured* fails when the address changes while the agent dials (and not
the object): the agent then takes the connection to the old collector to be one to the new, serves it and never ends it for the change, however
many requests come. -/
theorem C98_stale_collector (hl : Leaves h look o) (n : Nat) (w : W) (c : Conn) (room : Room)
    (hh : (look (o.dialing w)).objHash = (look w).objHash) (hne : (look (o.dialing w)).ip ≠ (look w).ip) :
    let dialled := (attempt h look o n w c room).1
    let r := (attempt h look o n w c room).2
    r.last ≠ .changed ∧ (∀ t ∈ r.seen, t.ip ≠ dialled.ip) ∧
    ∀ rs : List Request, (∀ r ∈ rs, r.Good) → Delivers c (rs.map Request.body) → rs.length < n → room = none → r.answers.length = rs.length := by
  intro dialled r
  have hw : same (look w).objHash (look (o.dialing w)) (look (o.dialing w)) = true := by
    rw [← hh]; exact (same_iff _ _).2 rfl
  have hr : r = process h look o (look w).objHash n (o.dialing w) c room := rfl
  have hdial : dialled = look w := rfl
  clear_value r dialled
  subst hdial
  have key := fun room => loop_leaves h look o hl _ n 0 (o.dialing w) c room hw
  cases room with
  | none =>
    rw [process_none] at hr; subst hr
    exact ⟨(key none).1, fun t ht => by rw [(key none).2 t ht]; exact hne, fun rs hr hd hn _ => (loop_answers h look o hl _ rs hr n 0 _ c hw hd hn).1⟩
  | some m =>
    by_cases h8 : m < 8
    · rw [process_small _ _ _ _ _ _ _ _ h8] at hr
      subst hr; exact ⟨by simp, by simp, fun _ _ _ _ e => nomatch e⟩
    · rw [process_large _ _ _ _ _ _ _ _ (by omega)] at hr
      subst hr
      exact ⟨(key (some (m - 8))).1, fun t ht => by rw [(key (some (m - 8))).2 t ht]; exact hne, fun _ _ _ _ e => nomatch e⟩

end

/-! ## Examples -/

namespace Demo

/-- The state is the settings and the number of requests carried out; the handlers count and echo. -/
def counting : Handler (Target × Nat) := fun w cmd p => ((w.1, w.2 + 1), (echo w.2 cmd p).2)

def here : Target := ⟨[49], 6100, 7⟩
def there : Target := ⟨[50], 6100, 7⟩

/-- The address changes while the agent dials. -/
def moving : Others (Target × Nat) := ⟨fun w => (there, w.2), fun _ => id, fun _ => id⟩

/-- Two requests in one piece. -/
def both : Conn := [(([sampleRequest, ⟨ascii "GET", []⟩].map Request.body).map frame).flatten]

def two : List Request := [sampleRequest, ⟨ascii "GET", []⟩]

theorem two_good : ∀ r ∈ two, r.Good := by
  intro r hr
  simp only [two, List.mem_cons, List.not_mem_nil, or_false] at hr
  rcases hr with rfl | rfl
  · exact sampleRequest_good
  · refine ⟨⟨by decide +kernel, by decide +kernel, by decide +kernel⟩, ⟨?_, ?_⟩, by decide +kernel⟩
    · simp only [Spec.Readable, Spec.ReadableM]; decide +kernel
    · simp [Spec.Plain, Spec.PlainM]

theorem both_delivers : Delivers both (two.map Request.body) := delivers_whole _ (by simp)

theorem leaves_moving : Leaves counting (·.1) moving := ⟨fun _ _ => rfl, fun _ _ => rfl, fun _ _ _ => rfl⟩
theorem leaves_none : Leaves counting (·.1) Others.none := ⟨fun _ _ => rfl, fun _ _ => rfl, fun _ _ _ => rfl⟩

/-- The connection fails inside the reply to the first request: it was carried out, the second was not. -/
example : (attempt counting (·.1) Others.none 5 (here, 0) both (some 20)).2.world.2 = 1 := by
  have hfull := C98_all_answered counting (·.1) Others.none leaves_none 5 (here, 0) both two two_good both_delivers (by decide) rfl
  have h1 := C98_lost_reply_request_done counting (·.1) two two_good 5 (here, 0) both none both_delivers
  have h2 := C98_lost_reply_request_done counting (·.1) two two_good 5 (here, 0) both (some 20) both_delivers
  have h3 := C98_requests_carried_out counting (·.1) Others.none 5 (here, 0) both 20
  simp only at h1 h2 h3
  rw [hfull] at h1 h3
  rw [h1.2.1] at h3
  have a0 := (h3.2 0 (by decide)).2 (by decide +kernel)
  have a1 := mt (h3.2 1 (by decide)).1 (by decide +kernel)
  rw [h2.2.2, show (attempt counting (·.1) Others.none 5 (here, 0) both (some 20)).2.answers.length = 1 by omega]
  rfl

/-- The collector that is no longer configured is served. -/
example : (attempt counting (·.1) moving 5 (here, 0) both none).2.answers.length = two.length := by
  have hne : there.ip ≠ here.ip := by decide +kernel
  obtain ⟨-, -, h⟩ := C98_stale_collector counting (·.1) moving leaves_moving 5 (here, 0) both none rfl hne
  exact h two two_good both_delivers (by decide) rfl

/-- The settings are changed after the first reply: nothing more is answered. -/
def later : Others (Target × Nat) := ⟨id, fun i w => if i = 1 then (there, w.2) else w, fun _ => id⟩

example : (attempt counting (·.1) later 5 (here, 0) both none).2.answers.length = 1 := by
  obtain ⟨c', he, hd'⟩ := round_request counting (here, 0) both sampleRequest sampleRequest_good _ both_delivers
  have hseen : (attempt counting (·.1) later 5 (here, 0) both none).2.seen[1]? = some there := by
    show (process counting (·.1) later _ 5 _ both none).seen[1]? = _
    rw [process_none]
    have e1 : same here.objHash here here = true := (same_iff _ _).2 rfl
    have e2 : ¬ same here.objHash here there = true := by decide +kernel
    rw [loop]
    simp only [later, id_eq, Nat.zero_ne_one, if_false]
    rw [if_pos e1, he]
    simp only [write_none]
    rw [loop]
    simp only [Nat.zero_add, if_true]
    rw [if_neg e2]
    rfl
  exact ((C98_answers_only_the_configured_collector counting (·.1) later 5 (here, 0) both none rfl).2.2 1 there hseen (by decide +kernel)).2.1

end Demo
end Session
end Scouter
