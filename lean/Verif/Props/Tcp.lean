import Verif.Spec.Requests
/-! # C49 - C51: the conversation with the collector -/
namespace Scouter
namespace Tcp
open Spec Out In

/-! ## Reading from the connection -/

/-- The connection after `n` more bytes have been read. -/
def advance : Nat → Conn → Conn
  | 0, c => c
  | _ + 1, [] => []
  | n + 1, p :: c => if p.length ≤ n + 1 then advance (n + 1 - p.length) c else p.drop (n + 1) :: c
termination_by n c => (c.length, n)

theorem readFull_eq (n : Nat) (c : Conn) (h : n ≤ c.flatten.length) :
    readFull n c = (some (c.flatten.take n), advance n c) := by
  induction c generalizing n with
  | nil =>
    have : n = 0 := by simpa using h
    subst this; simp [readFull, advance]
  | cons p c ih =>
    cases n with
    | zero => simp [readFull, advance]
    | succ n =>
      rw [readFull, advance]
      split
      · next hp =>
        rw [ih _ (by simp only [List.flatten_cons, List.length_append] at h; omega)]
        simp only [Option.map_some, List.flatten_cons, List.take_append]
        rw [List.take_of_length_le hp]
      · next hp =>
        simp only [List.flatten_cons, List.take_append]
        rw [show n + 1 - p.length = 0 by omega, List.take_zero, List.append_nil]

theorem readFull_short (n : Nat) (c : Conn) (h : c.flatten.length < n) : readFull n c = (none, []) := by
  induction c generalizing n with
  | nil => cases n with
    | zero => simp at h
    | succ n => simp [readFull]
  | cons p c ih =>
    cases n with
    | zero => simp at h
    | succ n =>
      simp only [List.flatten_cons, List.length_append] at h
      rw [readFull, if_pos (by omega), ih _ (by omega)]
      rfl

theorem advance_flatten (n : Nat) (c : Conn) : (advance n c).flatten = c.flatten.drop n := by
  induction c generalizing n with
  | nil => cases n <;> simp [advance]
  | cons p c ih =>
    cases n with
    | zero => simp [advance]
    | succ n =>
      rw [advance]
      split
      · next hp => rw [ih, List.flatten_cons, List.drop_append, List.drop_eq_nil_of_le hp, List.nil_append]
      · next hp =>
        rw [List.flatten_cons, List.flatten_cons, List.drop_append, show n + 1 - p.length = 0 by omega, List.drop_zero]

theorem advance_nonempty (n : Nat) (c : Conn) (h : [] ∉ c) : [] ∉ advance n c := by
  induction c generalizing n with
  | nil => cases n <;> simp [advance]
  | cons p c ih =>
    cases n with
    | zero => simpa [advance] using h
    | succ n =>
      simp only [List.mem_cons, not_or] at h
      rw [advance]
      split
      · exact ih _ h.2
      · next hp =>
        simp only [List.mem_cons, not_or]
        refine ⟨fun e => ?_, h.2⟩
        have := congrArg List.length e
        simp at this; omega

theorem advance_cut (n : Nat) (c : Conn) (hn : n ≤ c.flatten.length) (x : Nat) (h : Cut (advance n c) x) :
    x = 0 ∨ Cut c (n + x) := by
  induction c generalizing n with
  | nil =>
    have : n = 0 := by simpa using hn
    subst this
    rw [advance] at h
    exact .inr (by simpa using h)
  | cons p c ih =>
    cases n with
    | zero => rw [advance] at h; exact .inr (by simpa using h)
    | succ n =>
      rw [advance] at h
      split at h
      · next hp =>
        simp only [List.flatten_cons, List.length_append] at hn
        rcases ih _ (by omega) h with h | ⟨a, b, e, hl⟩
        · exact .inl h
        · refine .inr ⟨p :: a, b, by rw [e]; rfl, ?_⟩
          simp only [List.flatten_cons, List.length_append, hl]; omega
      · next hp =>
        obtain ⟨a, b, e, hl⟩ := h
        cases a with
        | nil => left; simpa using hl.symm
        | cons q a =>
          simp only [List.cons_append, List.cons.injEq] at e
          obtain ⟨rfl, rfl⟩ := e
          refine .inr ⟨p :: a, b, rfl, ?_⟩
          simp only [List.flatten_cons, List.length_append, List.length_drop] at hl ⊢
          omega

theorem readOnce_eq (n : Nat) (c : Conn) (h0 : [] ∉ c) (hn : n ≤ c.flatten.length)
    (hc : ∀ x, 0 < x → x < n → ¬ Cut c x) : readOnce n c = (some (c.flatten.take n), advance n c) := by
  unfold readOnce
  split
  · next h => subst h; simp [advance]
  · next h =>
    cases c with
    | nil => simp at hn; omega
    | cons p c =>
      have hp : 0 < p.length := by
        cases p with
        | nil => simp at h0
        | cons => simp
      have : n ≤ p.length := Nat.le_of_not_lt fun hlt => hc _ hp hlt ⟨[p], c, rfl, by simp⟩
      simp only [List.flatten_cons, List.take_append_of_le_length this]
      cases n with
      | zero => exact absurd rfl h
      | succ n =>
        rw [advance]
        by_cases he : p.length ≤ n + 1
        · simp only [he, if_true]
          rw [show n + 1 - p.length = 0 by omega, advance]
        · simp [he]

theorem readInt32_conn (v : BitVec 32) (c : Conn) (r : Bytes) (h : c.flatten = be32 v ++ r) :
    readInt32 c = (v, advance 4 c) := by
  have h4 : (be32 v).length = 4 := rfl
  unfold readInt32
  rw [readFull_eq 4 c (by rw [h, List.length_append]; omega), h, List.take_append_of_le_length (by omega),
    List.take_of_length_le (by omega)]
  simp [be32, un32]

theorem readIntBytes_conn (body r : Bytes) (c : Conn) (hb : body.length < 2 ^ 31) (h0 : [] ∉ c)
    (h : c.flatten = frame body ++ r) (hc : ∀ x, 4 < x → x < 4 + body.length → ¬ Cut c x) :
    readIntBytes c = .ok (some body, advance body.length (advance 4 c)) := by
  have hf : frame body = be32 (BitVec.ofNat 32 body.length) ++ body := by
    rw [frame, writeIntBytes_eq, bytes_new_write]; rfl
  rw [hf, List.append_assoc] at h
  have h4 : (be32 (BitVec.ofNat 32 body.length)).length = 4 := rfl
  have hlen : 4 + body.length ≤ c.flatten.length := by simp only [h, List.length_append, h4]; omega
  have hN : (BitVec.ofNat 32 body.length).toNat = body.length := by rw [BitVec.toNat_ofNat]; omega
  have hI : (BitVec.ofNat 32 body.length).toInt = body.length := by
    rw [BitVec.toInt_eq_toNat_of_lt (by omega), hN]
  have hr : (advance 4 c).flatten = body ++ r := by
    rw [advance_flatten, h, List.drop_append, h4, List.drop_eq_nil_of_le (by omega)]; rfl
  unfold readIntBytes
  rw [readInt32_conn _ _ _ h]
  simp only [hN, hI]
  rw [if_neg (by omega), readOnce_eq _ _ (advance_nonempty _ _ h0) (by rw [hr]; simp)]
  · simp only [hr, List.take_left']
    simp
  · intro x hx hx' hcut
    rcases advance_cut 4 c (by omega) x hcut with h | h
    · omega
    · exact hc _ (by omega) (by omega) h

theorem readIntBytes_frame (c : Conn) (body : Bytes) (bodies : List Bytes) (hb : body.length < 2 ^ 31)
    (h : Delivers c (body :: bodies)) : ∃ c', readIntBytes c = .ok (some body, c') ∧ Delivers c' bodies := by
  obtain ⟨h0, hf, hc⟩ := h
  have hf' : c.flatten = frame body ++ (bodies.map frame).flatten := by rw [hf]; rfl
  have hl : (frame body).length = 4 + body.length := by
    rw [frame, writeIntBytes_eq, bytes_new_write]; simp [encIntBytes, be32]; omega
  refine ⟨_, readIntBytes_conn body _ c hb h0 hf' fun x h1 h2 => hc [] body bodies rfl x (by simpa using h1) (by simpa using h2),
    advance_nonempty _ _ (advance_nonempty _ _ h0), ?_, ?_⟩
  · rw [advance_flatten, advance_flatten, List.drop_drop, hf', ← hl, List.drop_left']
    rfl
  · intro done b rest e x h1 h2 hcut
    have h4 : 4 ≤ c.flatten.length := by rw [hf', List.length_append]; omega
    have hbl : body.length ≤ (advance 4 c).flatten.length := by
      rw [advance_flatten, List.length_drop, hf', List.length_append]; omega
    rcases advance_cut _ _ hbl x hcut with h | h
    · omega
    · rcases advance_cut _ _ h4 _ h with h | h
      · omega
      · refine hc (body :: done) b rest (by rw [e]; rfl) _ ?_ ?_ h <;>
          simp only [List.map_cons, List.flatten_cons, List.length_append, hl] <;> omega

theorem readIntBytes_end (c : Conn) (h : Delivers c []) : readIntBytes c = .ok (some [], []) := by
  obtain ⟨h0, hf, -⟩ := h
  have : c = [] := by
    cases c with
    | nil => rfl
    | cons p c =>
      cases p with
      | nil => simp at h0
      | cons => simp at hf
  subst this
  unfold readIntBytes readInt32
  rw [readFull_short 4 [] (by simp)]
  rfl

theorem round_request {W : Type} (h : Handler W) (w : W) (c : Conn) (r : Request) (hr : r.Good) (bodies : List Bytes)
    (hd : Delivers c (r.body :: bodies)) :
    ∃ c', round h w c = .inl ((h w r.cmd (.map ⟨r.params⟩)).1, c', (h w r.cmd (.map ⟨r.params⟩)).2) ∧ Delivers c' bodies := by
  obtain ⟨c', he, hd'⟩ := readIntBytes_frame c r.body bodies hr.2.2 hd
  refine ⟨c', ?_, hd'⟩
  have hb : r.body = encString r.cmd ++ (Out.new.writePack (.map ⟨r.params⟩)).bytes := by
    obtain ⟨bs, hbs⟩ := writePack_exists (.map ⟨r.params⟩)
    rw [Request.body, writeString_eq, hbs, hbs, write_write, bytes_new_write, bytes_new_write]
  have hp := C09_map_pack_roundtrip ⟨r.params⟩ hr.2.1.1 []
  rw [List.append_nil] at hp
  unfold round
  rw [he]
  simp only []
  rw [hb, readString_enc _ _ hr.1.readable]
  simp only []
  rw [hp, hr.1.shown, hr.2.1.received]

theorem round_end {W : Type} (h : Handler W) (w : W) (c : Conn) (hd : Delivers c []) : round h w c = .inr .error := by
  unfold round
  rw [readIntBytes_end c hd]
  rfl

theorem loop_serve {W : Type} (h : Handler W) (same : W → Bool) (hs : ∀ w, same w = true) (rs : List Request)
    (hr : ∀ r ∈ rs, r.Good) (n : Nat) (hn : rs.length < n) (w : W) (c : Conn) (hd : Delivers c (rs.map Request.body)) :
    loop h same n w c = (((serve h w rs).1.map reply).flatten, (serve h w rs).1, (serve h w rs).2, .error) := by
  induction rs generalizing n w c with
  | nil =>
    cases n with
    | zero => omega
    | succ n => rw [loop, if_pos (hs w), round_end h w c hd]; rfl
  | cons r rs ih =>
    cases n with
    | zero => omega
    | succ n =>
      obtain ⟨c', he, hd'⟩ := round_request h w c r (hr r (by simp)) _ hd
      rw [loop, if_pos (hs w), he]
      simp only []
      rw [ih (fun r h => hr r (by simp [h])) n (by simpa using hn) _ c' hd']
      rfl

/-! ## Replies -/

theorem reply_eq (a : Answer) : reply a =
    (a.blobs.map fun b => 3 :: encBlob b).flatten ++
      (match a.pack with | none => [] | some p => 3 :: encIntBytes (Out.new.writePack p).bytes) ++ [4] := by
  have hb : ∀ (bs : List Bytes) (o : Out), bs.foldl (fun o b => (o.writeInt8 hasNext).writeBlob b) o =
      o.write (bs.map fun b => 3 :: encBlob b).flatten := by
    intro bs
    induction bs with
    | nil => intro o; simp [write_nil]
    | cons b bs ih =>
      intro o
      rw [List.foldl_cons, ih, writeInt8_eq, writeBlob_eq, write_write, write_write]
      simp [hasNext]
  unfold reply
  rw [hb]
  cases a.pack with
  | none => simp [writeInt8_eq, write_write, bytes_new_write, noNext]
  | some p => simp [writeInt8_eq, writeIntBytes_eq, write_write, bytes_new_write, noNext, hasNext]

theorem streamReplyN_enc (bs : List Bytes) (hb : ∀ b ∈ bs, b.length < 2 ^ 31) (r : Bytes) (n : Nat) (hn : bs.length ≤ n) :
    Wire.streamReplyN n ((bs.map fun b => 3 :: encBlob b).flatten ++ (4 :: r)) = some (bs, r) := by
  induction bs generalizing n with
  | nil =>
    cases n with
    | zero =>
      simp only [Wire.streamReplyN, List.map_nil, List.flatten_nil, List.nil_append]
      rw [Wire.bind_some (Wire.u1_cons _ _), if_pos (by decide)]; rfl
    | succ n =>
      simp only [Wire.streamReplyN, List.map_nil, List.flatten_nil, List.nil_append]
      rw [Wire.bind_some (Wire.u1_cons _ _), if_pos (by decide)]; rfl
  | cons b bs ih =>
    cases n with
    | zero => simp at hn
    | succ n =>
      simp only [Wire.streamReplyN, List.map_cons, List.flatten_cons, List.cons_append, List.append_assoc]
      rw [Wire.bind_some (Wire.u1_cons _ _), if_neg (by decide), if_pos (by decide),
        Wire.bind_some (Wire.blob_enc _ _ (hb b (by simp))),
        Wire.bind_some (ih (fun b h => hb b (by simp [h])) n (by simpa using hn))]
      rfl

theorem streamReply_enc (bs : List Bytes) (hb : ∀ b ∈ bs, b.length < 2 ^ 31) (r : Bytes) :
    Wire.streamReply (reply ⟨bs, none⟩ ++ r) = some (.stream bs, r) := by
  rw [reply_eq]
  simp only [List.append_nil, List.append_assoc, List.cons_append, List.nil_append]
  unfold Wire.streamReply
  rw [Wire.bind_some (streamReplyN_enc bs hb r _ ?_)]
  · rfl
  · simp only [List.length_append, List.length_flatten, List.map_map]
    have : bs.length ≤ (bs.map (List.length ∘ fun b => 3 :: encBlob b)).sum := by
      clear hb
      induction bs with
      | nil => simp
      | cons b bs ih => simp at ih ⊢; omega
    omega

theorem packReply_enc (p : Pack) (d : Wire.WPack) (h1 : SendablePack p) (h2 : denotePack p = some d)
    (h3 : (Out.new.writePack p).bytes.length < 2 ^ 32) (r : Bytes) :
    Wire.packReply (reply ⟨[], some p⟩ ++ r) = some (.pack d, r) := by
  obtain ⟨bs, hbs, hp⟩ := Wire.pack_enc p h1 Out.new d h2
  have hbs' : (Out.new.writePack p).bytes = bs := by rw [hbs]; rfl
  have hp0 := hp []
  rw [List.append_nil] at hp0
  rw [hbs'] at h3
  rw [reply_eq]
  simp only [hbs', List.map_nil, List.flatten_nil, List.nil_append, List.cons_append, encIntBytes, List.append_assoc]
  have hN : (BitVec.ofNat 32 bs.length).toNat = bs.length := by rw [BitVec.toNat_ofNat]; omega
  unfold Wire.packReply
  rw [Wire.bind_some (Wire.u1_cons _ _), if_neg (by decide), if_pos (by decide), Wire.bind_some (Wire.u4_be _ _), hN,
    Wire.bind_some (Wire.bytes_append bs _), Wire.bind_some (Wire.u1_cons _ _), if_pos (by decide), hp0]
  rfl

theorem nothing_enc (r : Bytes) : Wire.packReply (reply ⟨[], none⟩ ++ r) = some (.nothing, r) := by
  rw [reply_eq]
  simp only [List.map_nil, List.flatten_nil, List.nil_append, List.cons_append]
  unfold Wire.packReply
  rw [Wire.bind_some (Wire.u1_cons _ _), if_pos (by decide)]
  rfl

theorem replies_enc (ks : List Wire.Kind) (as : List Answer) (ds : List Wire.WReply) (h : All3 Means ks as ds) (r : Bytes) :
    Wire.replies ks ((as.map reply).flatten ++ r) = some (ds, r) := by
  induction h with
  | nil => rfl
  | cons h _ ih =>
    cases h with
    | nothing =>
      simp only [List.map_cons, List.flatten_cons, List.append_assoc, Wire.replies]
      rw [Wire.bind_some (nothing_enc _), Wire.bind_some ih]; rfl
    | pack p d h1 h2 h3 =>
      simp only [List.map_cons, List.flatten_cons, List.append_assoc, Wire.replies]
      rw [Wire.bind_some (packReply_enc p d h1 h2 h3 _), Wire.bind_some ih]; rfl
    | stream bs h =>
      simp only [List.map_cons, List.flatten_cons, List.append_assoc, Wire.replies]
      rw [Wire.bind_some (streamReply_enc bs h _), Wire.bind_some ih]; rfl

theorem greeting_enc (o : BitVec 32) (r : Bytes) :
    Wire.greeting (((Out.new.writeInt32 agentV2).writeInt32 o).bytes ++ r) = some (o.toInt, r) := by
  rw [writeInt32_eq, writeInt32_eq, write_write, bytes_new_write, List.append_assoc]
  unfold Wire.greeting
  rw [Wire.bind_some (Wire.u4_be _ _), if_pos (by decide), Wire.i4_be]

/-! ## C49 -/

/-- C49: for every sequence of well-formed requests, however the frames are broken between bodies, and for every behaviour of
the handlers, the collector understands everything the agent sends as: the agent's object hash and one reply per request, in
order, each with the meaning of the handler's answer to that request; and nothing else.  The agent gives up only when the
connection ends. -/
theorem C49_one_reply_each {W : Type} (h : Handler W) (same : W → Bool) (hs : ∀ w, same w = true) (objHash : BitVec 32)
    (rs : List Request) (hr : ∀ r ∈ rs, r.Good) (w : W) (c : Conn) (hc : Delivers c (rs.map Request.body))
    (ks : List Wire.Kind) (ds : List Wire.WReply) (hm : All3 Means ks (serve h w rs).1 ds) (n : Nat) (hn : rs.length < n) :
    Wire.conversation ks (process h same objHash n w c).1 = some (objHash.toInt, ds) ∧
    (process h same objHash n w c).2 = ((serve h w rs).1, (serve h w rs).2, .error) := by
  unfold process
  rw [loop_serve h same hs rs hr n hn w c hc]
  refine ⟨?_, rfl⟩
  unfold Wire.conversation
  have := replies_enc ks _ ds hm []
  rw [List.append_nil] at this
  rw [Wire.bind_some (greeting_enc _ _), Wire.bind_some this]
  rfl

/-- C49: whatever arrives, even bytes that are not requests, the agent sends its greeting and whole replies only. -/
theorem C49_only_whole_replies {W : Type} (h : Handler W) (same : W → Bool) (objHash : BitVec 32) (n : Nat) (w : W) (c : Conn) :
    (process h same objHash n w c).1 =
      be32 0xCAFE1002 ++ be32 objHash ++ ((process h same objHash n w c).2.1.map reply).flatten := by
  have hl : ∀ n w c, (loop h same n w c).1 = ((loop h same n w c).2.1.map reply).flatten := by
    intro n
    induction n with
    | zero => intros; rfl
    | succ n ih =>
      intro w c
      rw [loop]
      split
      · cases round h w c with
        | inr e => rfl
        | inl r => simp [ih]
      · rfl
  simp only [process, hl]
  rw [writeInt32_eq, writeInt32_eq, write_write, bytes_new_write]
  rfl

/-- C49: when the object's name or the collector's address changes, the requests served are the first ones, up to the first
after which the configuration differs; each has had its reply. -/
theorem C49_served_until_change {W : Type} (h : Handler W) (same : W → Bool) (objHash : BitVec 32)
    (rs : List Request) (hr : ∀ r ∈ rs, r.Good) (w : W) (c : Conn) (hc : Delivers c (rs.map Request.body)) (n : Nat)
    (hn : rs.length < n) :
    ∃ k, k ≤ rs.length ∧ (∀ j < k, same (serve h w (rs.take j)).2 = true) ∧
      ((same (serve h w (rs.take k)).2 = false ∧ (process h same objHash n w c).2.2.2 = .changed) ∨
        (k = rs.length ∧ same (serve h w (rs.take k)).2 = true ∧ (process h same objHash n w c).2.2.2 = .error)) ∧
      (process h same objHash n w c).2.1 = (serve h w (rs.take k)).1 ∧
      (process h same objHash n w c).2.2.1 = (serve h w (rs.take k)).2 := by
  simp only [process]
  induction rs generalizing n w c with
  | nil =>
    cases n with
    | zero => omega
    | succ n =>
      refine ⟨0, by simp, by simp, ?_⟩
      rw [loop]
      by_cases hs : same w = true
      · rw [if_pos hs, round_end h w c hc]
        exact ⟨.inr ⟨rfl, hs, rfl⟩, rfl, rfl⟩
      · rw [if_neg hs]
        exact ⟨.inl ⟨by simpa [serve] using hs, rfl⟩, rfl, rfl⟩
  | cons r rs ih =>
    cases n with
    | zero => omega
    | succ n =>
      rw [loop]
      by_cases hs : same w = true
      · obtain ⟨c', he, hd'⟩ := round_request h w c r (hr r (by simp)) _ hc
        rw [if_pos hs, he]
        obtain ⟨k, hk, h1, h2, h3, h4⟩ := ih (fun r h => hr r (by simp [h])) (h w r.cmd (.map ⟨r.params⟩)).1 c' hd' n
          (by simpa using hn)
        refine ⟨k + 1, by simpa using hk, ?_, ?_, ?_, ?_⟩
        · intro j hj
          cases j with
          | zero => exact hs
          | succ j => exact h1 j (by omega)
        · rcases h2 with ⟨a, b⟩ | ⟨a, b⟩
          · exact .inl ⟨a, b⟩
          · exact .inr ⟨by simp [a], b⟩
        · simp only [h3]; rfl
        · simp only [h4]; rfl
      · refine ⟨0, by simp, by simp, ?_⟩
        rw [if_neg hs]
        exact ⟨.inl ⟨by simpa [serve] using hs, rfl⟩, rfl, rfl⟩

/-! ## C50 -/

/-- C50: frames are understood the same however TCP breaks them, as long as no break falls inside a body: for every behaviour
of the handlers and any bodies, requests or not, everything sent and done is the same for two such deliveries. -/
theorem C50_same_if_bodies_whole {W : Type} (h : Handler W) (same : W → Bool) (objHash : BitVec 32) (bodies : List Bytes)
    (hb : ∀ b ∈ bodies, b.length < 2 ^ 31) (c c' : Conn) (hc : Delivers c bodies) (hc' : Delivers c' bodies) (n : Nat) (w : W) :
    process h same objHash n w c = process h same objHash n w c' := by
  have key : loop h same n w c = loop h same n w c' := by
    induction n generalizing w c c' bodies with
    | zero => rfl
    | succ n ih =>
      rw [loop, loop]
      by_cases hs : same w = true
      · rw [if_pos hs, if_pos hs]
        cases bodies with
        | nil => rw [round_end h w c hc, round_end h w c' hc']
        | cons b bodies =>
          obtain ⟨d, he, hd⟩ := readIntBytes_frame c b bodies (hb b (by simp)) hc
          obtain ⟨d', he', hd'⟩ := readIntBytes_frame c' b bodies (hb b (by simp)) hc'
          unfold round
          rw [he, he']
          simp only []
          cases In.readString b with
          | panic => rfl
          | fuel => rfl
          | ok x =>
            obtain ⟨cmd, e, i⟩ := x
            simp only []
            cases In.readPack i with
            | panic => rfl
            | fuel => rfl
            | ok x =>
              obtain ⟨p, e, i⟩ := x
              cases p with
              | none => rfl
              | some p =>
                cases e with
                | some e => rfl
                | none =>
                  simp only []
                  rw [ih bodies (fun b h => hb b (by simp [h])) d d' hd hd']
      · rw [if_neg hs, if_neg hs]
  simp only [process, key]

/-- All frames in one piece. -/
theorem delivers_whole (bodies : List Bytes) (hne : bodies ≠ []) : Delivers [(bodies.map frame).flatten] bodies := by
  refine ⟨?_, by simp, ?_⟩
  · cases bodies with
    | nil => exact absurd rfl hne
    | cons b bs =>
      rw [List.map_cons, List.flatten_cons, frame, writeIntBytes_eq, bytes_new_write]
      simp [encIntBytes, be32]
  · rintro done b rest e x h1 h2 ⟨a, d, e', hl⟩
    cases a with
    | nil => simp at hl; omega
    | cons p a =>
      cases a with
      | cons q a => simp at e'
      | nil =>
        simp only [List.cons_append, List.nil_append, List.cons.injEq] at e'
        rw [← e'.1, e] at hl
        simp only [List.map_append, List.map_cons, List.flatten_append, List.flatten_cons, List.flatten_nil,
          List.append_nil, List.length_append] at hl
        have : (frame b).length = 4 + b.length := by
          rw [frame, writeIntBytes_eq, bytes_new_write]; simp [encIntBytes, be32]; omega
        omega

/-- A body of which only the first part comes with the frame's length is completed with zeros, and the rest is left for the
next request. -/
theorem readIntBytes_broken (b1 b2 : Bytes) (h1 : b1 ≠ []) (h2 : b2 ≠ []) (hl : (b1 ++ b2).length < 2 ^ 31) (c : Conn) :
    readIntBytes ((be32 (BitVec.ofNat 32 (b1 ++ b2).length) ++ b1) :: b2 :: c) =
      .ok (some (b1 ++ List.replicate b2.length 0), b2 :: c) := by
  have hN : (BitVec.ofNat 32 (b1 ++ b2).length).toNat = (b1 ++ b2).length := by rw [BitVec.toNat_ofNat]; omega
  have hI : (BitVec.ofNat 32 (b1 ++ b2).length).toInt = (b1 ++ b2).length := by
    rw [BitVec.toInt_eq_toNat_of_lt (by omega), hN]
  have hb1 : 0 < b1.length := List.length_pos_iff.mpr h1
  have hb2 : 0 < b2.length := List.length_pos_iff.mpr h2
  unfold readIntBytes
  rw [readInt32_conn (BitVec.ofNat 32 (b1 ++ b2).length) _ (b1 ++ (b2 ++ c.flatten)) (by simp)]
  have ha : ∀ v : BitVec 32, advance 4 ((be32 v ++ b1) :: b2 :: c) = b1 :: b2 :: c := by
    intro v
    rw [advance, if_neg (by simp only [be32, List.length_append, List.length_cons, List.length_nil]; omega)]
    rfl
  simp only [ha, hN, hI]
  rw [if_neg (by omega)]
  unfold readOnce
  simp only [List.length_append] at hN ⊢
  rw [if_neg (by omega)]
  simp only []
  rw [if_pos (by omega), List.take_of_length_le (by omega)]
  simp

theorem encEntries_append (a b : List (Bytes × Value)) : encEntries (a ++ b) = encEntries a ++ encEntries b := by
  induction a with
  | nil => rfl
  | cons e a ih => obtain ⟨k, v⟩ := e; simp [encEntries, ih]

theorem readableM_append (a b : List (Bytes × Value)) : ReadableM (a ++ b) ↔ ReadableM a ∧ ReadableM b := by
  induction a with
  | nil => simp [ReadableM]
  | cons e a ih => obtain ⟨k, v⟩ := e; simp [ReadableM, ih, and_assoc]

theorem plainM_append (a b : List (Bytes × Value)) : PlainM (a ++ b) ↔ PlainM a ∧ PlainM b := by
  induction a with
  | nil => simp [PlainM]
  | cons e a ih => obtain ⟨k, v⟩ := e; simp [PlainM, ih, and_assoc]

theorem goodTable_text {t : Table} {k s s' : Bytes} (hs : s.length = s'.length) (h : GoodTable (t ++ [(k, .text s)])) :
    GoodTable (t ++ [(k, .text s')]) := by
  obtain ⟨h1, h2⟩ := h
  simp only [Readable, readableM_append, ReadableM, Plain, plainM_append, PlainM] at h1 h2
  have hle : s.length ≤ 100000 := h2.2.2.2.1
  have e1 : Wire.shown s = s := shown_of_le hle
  have e2 : Wire.shown s' = s' := shown_of_le (hs ▸ hle)
  refine ⟨?_, ?_⟩
  · simp only [Readable, readableM_append, ReadableM]
    rw [e1] at h1
    rw [e2, ← hs]
    simpa using h1
  · simp only [Plain, plainM_append, PlainM]
    rw [← hs]
    simpa using h2

theorem encBlob_split (b : Bytes) : ∃ pre, pre.length ≤ 5 ∧ encBlob b = pre ++ b ∧
    ∀ b', b'.length = b.length → encBlob b' = pre ++ b' := by
  unfold encBlob
  split
  · next h =>
    refine ⟨[0], by simp, by simp [List.length_eq_zero_iff.mp h], fun b' h' => ?_⟩
    rw [if_pos (by omega)]; simp [List.length_eq_zero_iff.mp (h'.trans h)]
  · split
    · refine ⟨[_], by simp, rfl, fun b' h' => ?_⟩
      rw [if_neg (by omega), if_pos (by omega), h']; rfl
    · split
      · refine ⟨255 :: be16 _, by simp [be16], rfl, fun b' h' => ?_⟩
        rw [if_neg (by omega), if_neg (by omega), if_pos (by omega), h']; rfl
      · refine ⟨254 :: be32 _, by simp [be32], rfl, fun b' h' => ?_⟩
        rw [if_neg (by omega), if_neg (by omega), if_neg (by omega), h']; rfl

/-- The body of a request whose last parameter is a text ends with the bytes of that text. -/
theorem body_text (cmd : Bytes) (t : Table) (k s : Bytes) (hs : s.length ≤ 100000) :
    ∃ pre, pre ≠ [] ∧ Request.body ⟨cmd, t ++ [(k, .text s)]⟩ = pre ++ s ∧
      ∀ s', s'.length = s.length → Request.body ⟨cmd, t ++ [(k, .text s')]⟩ = pre ++ s' := by
  obtain ⟨q, -, e, he⟩ := encBlob_split s
  have hb : ∀ s' : Bytes, s'.length = s.length → Request.body ⟨cmd, t ++ [(k, .text s')]⟩ =
      (encString cmd ++ ([10] ++ (encDec (BitVec.ofNat 64 (t.length + 1)) ++ (encEntries t ++ (encString k ++ ([50] ++ q)))))) ++ s' := by
    intro s' hl
    rw [Request.body, writeString_eq, writePack, writeInt8_eq, writeMapPack_eq, write_write, write_write, bytes_new_write]
    simp only [encEntries_append, encEntries, encValue, Pack.packType, List.append_nil, List.length_append, List.length_cons,
      List.length_nil, List.append_assoc]
    rw [show encString s' = encBlob s' by unfold encString; rw [if_neg (by omega)], he s' hl]
    simp
  refine ⟨_, ?_, hb s rfl, hb⟩
  simp

/-- C50 is false when a break falls inside a body: for every command, every parameters and every text as last parameter, if the
text is broken anywhere, the handler is given the text with its missing part replaced by zeros, and its answer to that is sent
as the reply. -/
theorem C50_broken_text_replaced {W : Type} (h : Handler W) (same : W → Bool) (hs : ∀ w, same w = true) (objHash : BitVec 32)
    (cmd : Bytes) (t : Table) (k s1 s2 : Bytes) (h2 : s2 ≠ [])
    (hr : (⟨cmd, t ++ [(k, .text (s1 ++ s2))]⟩ : Request).Good) (w : W) (later : Conn) :
    ∃ first, first ++ s2 = frame (Request.body ⟨cmd, t ++ [(k, .text (s1 ++ s2))]⟩) ∧
      (process h same objHash 1 w (first :: s2 :: later)).2.1 =
        [(h w cmd (.map ⟨t ++ [(k, .text (s1 ++ List.replicate s2.length 0))]⟩)).2] := by
  have hlen : (s1 ++ s2).length ≤ 100000 := by
    have := hr.2.1.2
    simp only [Plain, plainM_append, PlainM] at this
    exact this.2.2.2.1
  obtain ⟨pre, hp, e, he⟩ := body_text cmd t k (s1 ++ s2) hlen
  have he := he (s1 ++ List.replicate s2.length 0) (by simp)
  have hgood := goodTable_text (s' := s1 ++ List.replicate s2.length 0) (by simp) hr.2.1
  have hbl := hr.2.2
  rw [e] at hbl
  refine ⟨be32 (BitVec.ofNat 32 (pre ++ s1 ++ s2).length) ++ (pre ++ s1), ?_, ?_⟩
  · rw [e, frame, writeIntBytes_eq, bytes_new_write, encIntBytes]; simp
  · unfold process
    simp only []
    rw [loop, if_pos (hs w)]
    unfold round
    rw [readIntBytes_broken (pre ++ s1) s2 (by simp [hp]) h2 (by simpa using hbl)]
    simp only []
    rw [List.append_assoc, ← he]
    have hb : Request.body ⟨cmd, t ++ [(k, .text (s1 ++ List.replicate s2.length 0))]⟩ =
        encString cmd ++ (Out.new.writePack (.map ⟨t ++ [(k, .text (s1 ++ List.replicate s2.length 0))]⟩)).bytes := by
      obtain ⟨bs, hbs⟩ := writePack_exists (.map ⟨t ++ [(k, .text (s1 ++ List.replicate s2.length 0))]⟩)
      rw [Request.body, writeString_eq, hbs, hbs, write_write, bytes_new_write, bytes_new_write]
    have hp := C09_map_pack_roundtrip ⟨_⟩ hgood.1 []
    rw [List.append_nil] at hp
    rw [hb, readString_enc _ _ hr.1.readable]
    simp only []
    rw [hp, hr.1.shown, hgood.received]
    rfl

/-! ## C51 -/

/-- C51 is false: whatever the history, the agent pauses one second before every attempt and three seconds after every refused
connection and every conversation that ended with an error; the pause never grows. -/
theorem C51_constant_pause (as : List Attempt) :
    startTcp as = as.map fun a => if a = .refused ∨ a = .failed then [1000, 3000] else [1000] := by
  unfold startTcp
  refine List.map_congr_left fun a _ => ?_
  cases a <;> rfl

/-! ## Examples -/

/-- A request used as an example. -/
def sampleRequest : Request := ⟨ascii "SET_CONFIGURE_WAS", [(ascii "setConfig", .text (ascii "trace=true"))]⟩

theorem sampleRequest_good : sampleRequest.Good := by
  refine ⟨⟨by decide +kernel, by decide +kernel, by decide +kernel⟩, ⟨?_, ?_⟩, by decide +kernel⟩
  · simp only [sampleRequest, Readable, ReadableM, ReadableLen]; decide +kernel
  · simp only [sampleRequest, Plain, PlainM]; decide +kernel

/-- A handler that answers with the parameters it was given, or streams them when the command is `GET`. -/
def echo : Handler Nat := fun w cmd p => (w + 1, if cmd = ascii "GET" then ⟨[[1, 2], [3]], none⟩ else ⟨[], some p⟩)

example : Delivers [(([sampleRequest, ⟨ascii "GET", []⟩].map Request.body).map frame).flatten]
    ([sampleRequest, ⟨ascii "GET", []⟩].map Request.body) := delivers_whole _ (by simp)
example : All3 Means [.pack, .stream] (serve echo 0 [sampleRequest, ⟨ascii "GET", []⟩]).1
    [.pack (.map (denoteM sampleRequest.params)), .stream [[1, 2], [3]]] := by
  have e : (serve echo 0 [sampleRequest, ⟨ascii "GET", []⟩]).1 =
      [⟨[], some (.map ⟨sampleRequest.params⟩)⟩, ⟨[[1, 2], [3]], none⟩] := by
    simp only [serve, echo]
    rw [if_neg (by decide +kernel), if_pos True.intro]
  rw [e]
  refine .cons (.pack _ _ ?_ rfl ?_) (.cons (.stream _ ?_) .nil)
  · simp [SendablePack, sampleRequest, Sendable, SendableM]
  · decide +kernel
  · simp
/-- The two halves of a text broken in the middle. -/
example : (⟨ascii "SET_CONFIGURE_WAS", [] ++ [(ascii "setConfig", .text (ascii "trace=" ++ ascii "true"))]⟩ : Request).Good := by
  simpa [sampleRequest, ascii] using sampleRequest_good
example : startTcp (List.replicate 100 .failed) = List.replicate 100 [1000, 3000] := by
  rw [C51_constant_pause]; simp

end Tcp
end Scouter
