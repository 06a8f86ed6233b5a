import Verif.Spec.Failing
import Verif.Props.Handlers
import Verif.Props.Dump
import Verif.Props.Requests
/-! # C110: requests when the file system fails -/
namespace Scouter
namespace Failing
open Trace TM Tcp Dump Handlers Config Spec

/-! ## Dispatch -/

theorem handle_thread_dump (f : Faults) (m : Machine) (a : Agent) (pack : Pack) :
    handle f m a (ascii "TRIGGER_THREAD_DUMP") pack = finish ((threadDump f m a).2, withPack (threadDump f m a).1) := by
  unfold handle; exact if_pos rfl

theorem handle_list (f : Faults) (m : Machine) (a : Agent) (pack : Pack) :
    handle f m a (ascii "OBJECT_DUMP_FILE_LIST") pack =
      finish (match listDumpFiles f m with | some t => (a, withPack t) | none => panicked a) := by
  unfold handle
  exact (if_neg (by decide +kernel)).trans <| if_pos rfl

theorem handle_detail (f : Faults) (m : Machine) (a : Agent) (p : MapPack) :
    handle f m a (ascii "OBJECT_DUMP_FILE_DETAIL") (.map p) =
      finish (a, ⟨streamDumpFileContents f (m.sizes a.requests) a.fs m.dumpDir (p.table.getString (ascii "name")), none⟩) := by
  unfold handle
  exact (if_neg (by decide +kernel)).trans <| (if_neg (by decide +kernel)).trans <| if_pos rfl

theorem handle_binary_list (f : Faults) (m : Machine) (a : Agent) (pack : Pack) :
    handle f m a (ascii "OBJECT_LIST_HEAP_DUMP") pack =
      finish (match listBinaryDumpFiles f m with | some t => (a, withPack t) | none => panicked a) := by
  unfold handle
  exact (if_neg (by decide +kernel)).trans <| (if_neg (by decide +kernel)).trans <| (if_neg (by decide +kernel)).trans <| if_pos rfl

theorem handle_download (f : Faults) (m : Machine) (a : Agent) (p : MapPack) :
    handle f m a (ascii "OBJECT_DOWNLOAD_HEAP_DUMP") (.map p) =
      finish (a, ⟨downloadBinaryDumpFiles f a.fs m.binaryDir (p.table.getString (ascii "fileName")), none⟩) := by
  unfold handle
  exact (if_neg (by decide +kernel)).trans <| (if_neg (by decide +kernel)).trans <| (if_neg (by decide +kernel)).trans <|
    (if_neg (by decide +kernel)).trans <| if_pos rfl

theorem handle_set (f : Faults) (m : Machine) (a : Agent) (pack : Pack) :
    handle f m a (ascii "SET_CONFIGURE_WAS") pack =
      finish (match saveConfig f m a pack with | (some t, a) => (a, withPack t) | (none, a) => panicked a) := by
  unfold handle
  exact (if_neg (by decide +kernel)).trans <| (if_neg (by decide +kernel)).trans <| (if_neg (by decide +kernel)).trans <|
    (if_neg (by decide +kernel)).trans <| (if_neg (by decide +kernel)).trans <| if_pos rfl

/-! ## Lists -/

theorem walk_some (add : Info → Bool) (vs : List (Option Info)) (h : ∀ v ∈ vs, v ≠ none) :
    walk add vs = some ((vs.filterMap id).filter fun i => !i.isDir && add i) := by
  induction vs with
  | nil => rfl
  | cons v vs ih =>
    cases v with
    | none => exact absurd rfl (h none (List.mem_cons_self ..))
    | some i =>
      rw [walk, ih fun v hv => h v (List.mem_cons_of_mem _ hv)]
      simp only [Option.map_some, List.filterMap_cons, id_eq, List.filter_cons]

theorem walk_none (add : Info → Bool) (vs : List (Option Info)) (h : none ∈ vs) : walk add vs = none := by
  induction vs with
  | nil => cases h
  | cons v vs ih =>
    cases v with
    | none => rfl
    | some i =>
      have : none ∈ vs := by simpa using h
      rw [walk, ih this]; rfl

theorem panicked_alert (a : Agent) : OneAlertMore a (finish (panicked a)).1 where
  conf := rfl
  text := rfl
  fs := rfl
  requests := rfl
  alert := ⟨_, rfl⟩
  tctxs := rfl
  registry := rfl
  settings := rfl
  offered := rfl

/-- **C110**, the list of dumps: when every entry can be looked at, the answer lists exactly the files that were found, in their
order.  When one cannot (the directory is not there, or a file went away while the list was made), the whole request fails: no
list is answered, and the one trace of it is an alert. -/
theorem C110_listing (f : Faults) (m : Machine) (a : Agent) (pack : Pack) :
    let r := handle f m a (ascii "OBJECT_DUMP_FILE_LIST") pack
    ((∀ v ∈ f.visits m.dumpDir, v ≠ none) → r.1 = { a with requests := a.requests + 1 } ∧
      ∃ t, AnswersTable r.2 t ∧
        let files := ((f.visits m.dumpDir).filterMap id).filter fun i => !i.isDir
        HasColumn t "name" (files.map fun i => .text i.name) ∧ HasColumn t "size" (files.map fun i => .dec i.size) ∧
        HasColumn t "last_modified" (files.map fun i => .dec i.modified)) ∧
    (none ∈ f.visits m.dumpDir → AnswersNothing r.2 ∧ OneAlertMore a r.1) := by
  intro r
  constructor
  · intro h
    have e : listDumpFiles f m = some _ := congrArg (Option.map _) (walk_some (fun _ => true) _ h)
    have hr : r = finish (a, withPack _) := (handle_list f m a pack).trans (by rw [e])
    rw [hr]
    refine ⟨rfl, _, rfl, ?_⟩
    simp only [Bool.and_true]
    unfold column HasColumn
    refine ⟨?_, ?_, ?_⟩ <;> seek
  · intro h
    have e : listDumpFiles f m = none := congrArg (Option.map _) (walk_none (fun _ => true) _ h)
    have hr : r = finish (panicked a) := (handle_list f m a pack).trans (by rw [e])
    rw [hr]
    exact ⟨rfl, panicked_alert a⟩

/-- **C110**, the list of binary dumps: the same, for the files whose name ends in "pprof". -/
theorem C110_binary_listing (f : Faults) (m : Machine) (a : Agent) (pack : Pack) :
    let r := handle f m a (ascii "OBJECT_LIST_HEAP_DUMP") pack
    ((∀ v ∈ f.visits m.binaryDir, v ≠ none) → r.1 = { a with requests := a.requests + 1 } ∧
      ∃ t, AnswersTable r.2 t ∧
        let files := ((f.visits m.binaryDir).filterMap id).filter fun i => !i.isDir && hasSuffix i.name (ascii "pprof")
        HasColumn t "name" (files.map fun i => .text i.name) ∧ HasColumn t "size" (files.map fun i => .dec i.size)) ∧
    (none ∈ f.visits m.binaryDir → AnswersNothing r.2 ∧ OneAlertMore a r.1) := by
  intro r
  constructor
  · intro h
    have e : listBinaryDumpFiles f m = some _ := congrArg (Option.map _) (walk_some (fun i => hasSuffix i.name suffix) _ h)
    have hr : r = finish (a, withPack _) := (handle_binary_list f m a pack).trans (by rw [e])
    rw [hr]
    refine ⟨rfl, _, rfl, ?_⟩
    unfold column HasColumn
    refine ⟨?_, ?_⟩ <;> seek
  · intro h
    have e : listBinaryDumpFiles f m = none := congrArg (Option.map _) (walk_none _ _ h)
    have hr : r = finish (panicked a) := (handle_binary_list f m a pack).trans (by rw [e])
    rw [hr]
    exact ⟨rfl, panicked_alert a⟩

/-! ## Downloads -/

theorem downloadLoop_prefix (fails : Nat → Bool) (content : Bytes) (n : Nat) : ∀ (i offset : Nat),
    (downloadLoop fails content n i offset).flatten <+: content.drop offset := by
  induction n with
  | zero => intro i o; exact List.nil_prefix
  | succ n ih =>
    intro i o
    unfold downloadLoop
    split
    · exact List.nil_prefix
    · simp only
      split
      · simp only [List.flatten_cons, List.flatten_nil, List.append_nil]; exact List.take_prefix ..
      · next hl =>
        have h3 : ((content.drop o).take 300).length = 300 := by
          have : ((content.drop o).take 300).length ≤ 300 := List.length_take_le ..
          omega
        rw [List.flatten_cons, h3]
        obtain ⟨t, ht⟩ := ih (i + 1) (o + 300)
        refine ⟨t, ?_⟩
        rw [List.append_assoc, ht, ← List.drop_drop]
        exact List.take_append_drop 300 _

theorem downloadLoop_full (fails : Nat → Bool) (content : Bytes) (n : Nat) : ∀ (i offset : Nat),
    ∀ b ∈ (downloadLoop fails content n i offset).dropLast, b.length = 300 := by
  induction n with
  | zero => intro i o b hb; cases hb
  | succ n ih =>
    intro i o b hb
    unfold downloadLoop at hb
    split at hb
    · cases hb
    · simp only at hb
      split at hb
      · cases hb
      · next hl =>
        have h3 : ((content.drop o).take 300).length = 300 := by
          have : ((content.drop o).take 300).length ≤ 300 := List.length_take_le ..
          omega
        cases hd : downloadLoop fails content n (i + 1) (o + ((content.drop o).take 300).length) with
        | nil => rw [hd] at hb; cases hb
        | cons x xs =>
          rw [hd, List.dropLast_cons_of_ne_nil (by simp)] at hb
          rcases List.mem_cons.1 hb with rfl | hb
          · exact h3
          · exact ih _ _ b (by rw [hd]; exact hb)

theorem downloadLoop_short (fails : Nat → Bool) (content : Bytes) (n : Nat) : ∀ (i offset : Nat) (b : Bytes),
    (downloadLoop fails content n i offset).getLast? = some b → b.length < 300 →
    (downloadLoop fails content n i offset).flatten = content.drop offset := by
  induction n with
  | zero => intro i o b h; cases h
  | succ n ih =>
    intro i o b h hb
    unfold downloadLoop at h ⊢
    split at h
    · cases h
    · simp only at h
      rename_i hf
      rw [if_neg hf]
      simp only
      split at h
      · next hl =>
        rw [if_pos hl]
        simp only [List.flatten_cons, List.flatten_nil, List.append_nil]
        rw [List.length_take] at hl
        exact List.take_of_length_le (by omega)
      · next hl =>
        rw [if_neg hl]
        have h3 : ((content.drop o).take 300).length = 300 := by
          have : ((content.drop o).take 300).length ≤ 300 := List.length_take_le ..
          omega
        rw [h3] at h ⊢
        cases hd : downloadLoop fails content n (i + 1) (o + 300) with
        | nil =>
          rw [hd] at h
          simp only [List.getLast?_singleton, Option.some.injEq] at h
          rw [← h, h3] at hb; omega
        | cons x xs =>
          rw [hd, List.getLast?_cons_cons, ← hd] at h
          rw [← hd, List.flatten_cons, ih _ _ b h hb, ← List.drop_drop]
          exact List.take_append_drop 300 _

theorem downloadLoop_sound (fails : Nat → Bool) (content : Bytes) (hf : ∀ i, fails i = false) (n : Nat) : ∀ (i offset : Nat),
    content.length < offset + 300 * n → offset ≤ content.length →
    some (downloadLoop fails content n i offset) = Dump.downloadLoop (fun _ => content) n i offset ∧
    ∃ b, (downloadLoop fails content n i offset).getLast? = some b ∧ b.length < 300 := by
  induction n with
  | zero => intro i o h1 h2; omega
  | succ n ih =>
    intro i o h1 h2
    unfold downloadLoop Dump.downloadLoop
    rw [if_neg (by simp [hf i])]
    simp only
    split
    · next hl => exact ⟨rfl, _, rfl, hl⟩
    · next hl =>
      have h3 : ((content.drop o).take 300).length = 300 := by
        have : ((content.drop o).take 300).length ≤ 300 := List.length_take_le ..
        omega
      have h4 : o + 300 ≤ content.length := by
        rw [List.length_take, List.length_drop] at h3; omega
      rw [h3]
      obtain ⟨e1, b, e2, e3⟩ := ih (i + 1) (o + 300) (by omega) h4
      refine ⟨by rw [← e1]; rfl, b, ?_, e3⟩
      cases hd : downloadLoop fails content n (i + 1) (o + 300) with
      | nil => rw [hd] at e2; cases e2
      | cons x xs => rw [List.getLast?_cons_cons, ← hd]; exact e2

/-- **C110**, downloads: whatever fails, the pieces sent are the file from its start, in order, each but the last of 300 bytes; if
the last piece is shorter than 300 bytes, the file was sent whole, and it is shorter if no reading fails.  So a collector that
counts can tell a download that broke off from a whole one. -/
theorem C110_download (f : Faults) (m : Machine) (a : Agent) (p : MapPack) (name content : Bytes)
    (hp : p.table.get (ascii "fileName") = .text name) (hs : ascii "pprof" <:+ name)
    (hc : FileAt a.fs (join m.binaryDir name) content) :
    let r := handle f m a (ascii "OBJECT_DOWNLOAD_HEAP_DUMP") (.map p)
    r.1 = { a with requests := a.requests + 1 } ∧ r.2.pack = none ∧ r.2.blobs.flatten <+: content ∧
    (∀ b ∈ r.2.blobs.dropLast, b.length = 300) ∧
    (∀ b, r.2.blobs.getLast? = some b → b.length < 300 → r.2.blobs.flatten = content) ∧
    (f.opened = true → (∀ i, f.readFails i = false) → ∃ b, r.2.blobs.getLast? = some b ∧ b.length < 300) ∧
    (f.opened = false → r.2.blobs = []) := by
  intro r
  have hname : p.table.getString (ascii "fileName") = name := by
    unfold Table.getString; rw [hp]
  have hne : ¬(name = [] ∨ ¬ hasSuffix name suffix) := by
    intro h
    have hsuf : hasSuffix name suffix = true := by
      unfold hasSuffix; exact List.isSuffixOf_iff_suffix.2 hs
    rcases h with h | h
    · rw [h] at hsuf; exact absurd hsuf (by decide +kernel)
    · exact h hsuf
  have hb : r.2.blobs = if !f.opened then [] else downloadLoop f.readFails content (content.length / 300 + 1) 0 0 := by
    show (handle f m a (ascii "OBJECT_DOWNLOAD_HEAP_DUMP") (.map p)).2.blobs = _
    rw [handle_download]
    show downloadBinaryDumpFiles f a.fs m.binaryDir (p.table.getString (ascii "fileName")) = _
    rw [hname]
    unfold downloadBinaryDumpFiles
    rw [if_neg hne, show a.fs.at (join m.binaryDir name) = some (.file content) from hc]
  have h0 : r.1 = { a with requests := a.requests + 1 } ∧ r.2.pack = none := by
    show (handle f m a (ascii "OBJECT_DOWNLOAD_HEAP_DUMP") (.map p)).1 = _ ∧ (handle f m a (ascii "OBJECT_DOWNLOAD_HEAP_DUMP") (.map p)).2.pack = _
    rw [handle_download]; exact ⟨rfl, rfl⟩
  refine ⟨h0.1, h0.2, ?_⟩
  rw [hb]
  cases ho : f.opened with
  | false => exact ⟨List.nil_prefix, by simp, by simp, by simp, fun _ => rfl⟩
  | true =>
    simp only [Bool.not_true, Bool.false_eq_true, if_false]
    have hlen : content.length < 0 + 300 * (content.length / 300 + 1) := by omega
    refine ⟨by simpa using downloadLoop_prefix f.readFails content (content.length / 300 + 1) 0 0,
      downloadLoop_full _ _ _ _ _, fun b h1 h2 => by simpa using downloadLoop_short _ _ _ _ _ b h1 h2, fun _ hf => ?_, fun h => by cases h⟩
    exact (downloadLoop_sound _ content hf _ 0 0 hlen (by omega)).2

/-! ## Streams -/

theorem streamLoop_prefix (fails : Nat → Bool) (sizes : Nat → Nat) (n : Nat) : ∀ (i : Nat) (rest : Bytes),
    (streamLoop fails sizes n i rest).flatten <+: rest := by
  induction n with
  | zero => intro i r; exact List.nil_prefix
  | succ n ih =>
    intro i r
    unfold streamLoop
    split
    · exact List.nil_prefix
    · split
      · exact List.nil_prefix
      · rw [List.flatten_cons]
        obtain ⟨t, ht⟩ := ih (i + 1) (r.drop (min 4096 (sizes i + 1)))
        exact ⟨t, by rw [List.append_assoc, ht, List.take_append_drop]⟩

/-- The pieces of what was sent, sent by themselves, are the same pieces. -/
theorem streamLoop_again (fails : Nat → Bool) (sizes : Nat → Nat) (n : Nat) : ∀ (i k : Nat) (rest : Bytes),
    (streamLoop fails sizes n i rest).flatten.length ≤ k →
    Dump.streamLoop sizes k i (streamLoop fails sizes n i rest).flatten = streamLoop fails sizes n i rest := by
  have nil : ∀ k i, Dump.streamLoop sizes k i [] = [] := by intro k i; cases k <;> rfl
  induction n with
  | zero => intro i k r _; exact nil k i
  | succ n ih =>
    intro i k r
    unfold streamLoop
    split
    · intro _; exact nil k i
    · split
      · intro _; exact nil k i
      · next hne =>
        intro hk
        rw [List.flatten_cons] at hk ⊢
        have hsz : 0 < min 4096 (sizes i + 1) := by omega
        generalize hs : min 4096 (sizes i + 1) = s at hk hsz ⊢
        have hr : 0 < r.length := by
          cases r with
          | nil => exact absurd rfl (fun h => hne h)
          | cons => simp
        have hx : 0 < (r.take s).length := by rw [List.length_take]; omega
        rw [List.length_append] at hk
        obtain ⟨k, rfl⟩ : ∃ k', k = k' + 1 := ⟨k - 1, by omega⟩
        unfold Dump.streamLoop
        rw [hs]
        by_cases hl : s ≤ r.length
        · have e1 : (r.take s ++ (streamLoop fails sizes n (i + 1) (r.drop s)).flatten).take s = r.take s := by
            rw [List.take_append_of_le_length (by rw [List.length_take]; omega), List.take_take, Nat.min_self]
          have e2 : (r.take s ++ (streamLoop fails sizes n (i + 1) (r.drop s)).flatten).drop s =
              (streamLoop fails sizes n (i + 1) (r.drop s)).flatten := by
            rw [List.drop_append_of_le_length (by rw [List.length_take]; omega), List.drop_take]; simp
          split
          · next h0 => rw [(List.append_eq_nil_iff.1 h0).1] at hx; exact absurd hx (by simp)
          · rw [e1, e2, ih _ _ _ (by omega)]
        · have hd : r.drop s = [] := List.drop_eq_nil_of_le (by omega)
          have hz : streamLoop fails sizes n (i + 1) (r.drop s) = [] := by
            have := streamLoop_prefix fails sizes n (i + 1) (r.drop s)
            rw [hd]
            cases n with
            | zero => rfl
            | succ n => unfold streamLoop; split <;> rfl
          rw [hz]
          simp only [List.flatten_nil, List.append_nil]
          split
          · next h0 => rw [h0] at hx; exact absurd hx (by simp)
          · rw [List.take_take, Nat.min_self, List.drop_take, Nat.sub_self]; simp [nil]

theorem streamLoop_sound (fails : Nat → Bool) (hf : ∀ i, fails i = false) (sizes : Nat → Nat) (n : Nat) : ∀ (i : Nat) (rest : Bytes),
    streamLoop fails sizes n i rest = Dump.streamLoop sizes n i rest := by
  induction n with
  | zero => intro i r; rfl
  | succ n ih =>
    intro i r
    unfold streamLoop Dump.streamLoop
    rw [if_neg (by simp [hf i])]
    cases r with
    | nil => rfl
    | cons x xs => simp only [ih]

/-- **C110**, a dump's text: whatever fails, what is sent is the file from its start.  As found, nothing tells that it is not all:
the reply is exactly the one that a file which ends there gives when nothing fails. -/
theorem C110_stream (f : Faults) (m : Machine) (a : Agent) (p : MapPack) (name content : Bytes)
    (hp : p.table.get (ascii "name") = .text name) (hc : FileAt a.fs (join m.dumpDir name) content) :
    let r := handle f m a (ascii "OBJECT_DUMP_FILE_DETAIL") (.map p)
    r.1 = { a with requests := a.requests + 1 } ∧ r.2.pack = none ∧ r.2.blobs.flatten <+: content ∧
    (f.opened = true → (∀ i, f.readFails i = false) → r.2.blobs.flatten = content) ∧
    (∀ b : Agent, b.requests = a.requests → FileAt b.fs (join m.dumpDir name) r.2.blobs.flatten →
      (Handlers.handle m b (ascii "OBJECT_DUMP_FILE_DETAIL") (.map p)).2 = r.2) := by
  intro r
  have hname : p.table.getString (ascii "name") = name := by unfold Table.getString; rw [hp]
  have hr : r = finish (a, ⟨if !f.opened then [] else streamLoop f.readFails (m.sizes a.requests) content.length 0 content, none⟩) := by
    refine (handle_detail f m a p).trans ?_
    rw [hname]
    unfold streamDumpFileContents
    rw [show a.fs.at (join m.dumpDir name) = some (.file content) from hc]
  rw [hr]
  refine ⟨rfl, rfl, ?_, ?_, ?_⟩
  · show List.flatten (if !f.opened then [] else _) <+: content
    split
    · exact List.nil_prefix
    · exact streamLoop_prefix _ _ _ _ _
  · intro ho hf
    show List.flatten (if !f.opened then [] else _) = content
    rw [if_neg (by simp [ho]), streamLoop_sound _ hf]
    exact (streamLoop_all _ _ _ _ (Nat.le_refl _)).1
  · intro b hb hfile
    rw [handle_OBJECT_DUMP_FILE_DETAIL]
    show Answer.mk (Dump.streamDumpFileContents (m.sizes b.requests) b.fs m.dumpDir (p.table.getString (ascii "name"))) none = Answer.mk _ none
    rw [hname, hb]
    unfold Dump.streamDumpFileContents
    rw [show b.fs.at (join m.dumpDir name) = some (.file _) from hfile]
    simp only [finish]
    congr 1
    cases f.opened with
    | false => rfl
    | true =>
      simp only [Bool.not_true, Bool.false_eq_true, if_false]
      exact streamLoop_again _ _ _ _ _ _ (Nat.le_refl _)

/-! ## Thread dumps -/

/-- **C110**, thread dumps: the answer names the file exactly when it could be created and no writing failed; then the file is there
with what was written (C84).  Without a file nothing changes; a file whose writing failed is there with the part that was
written, and is not named. -/
theorem C110_thread_dump (f : Faults) (m : Machine) (a : Agent) (pack : Pack) :
    let r := handle f m a (ascii "TRIGGER_THREAD_DUMP") pack
    let whole := Handlers.handle m a (ascii "TRIGGER_THREAD_DUMP") pack
    let p := join m.dumpDir (ascii "go_dump_" ++ m.stampText a.requests ++ ascii ".log")
    ∃ t, AnswersTable r.2 t ∧
      (f.created = false → t = [] ∧ r.1 = { a with requests := a.requests + 1 }) ∧
      (f.created = true → ∀ c, FileAt whole.1.fs p c →
        (∀ k, f.dumpWrite = some k → k < c.length → t = [] ∧ FileAt r.1.fs p (c.take k)) ∧
        ((∀ k, f.dumpWrite = some k → c.length ≤ k) → r = whole)) ∧
      (∀ q, q ≠ p → r.1.fs.at q = a.fs.at q) := by
  intro r whole p
  have hr : r = finish ((threadDump f m a).2, withPack (threadDump f m a).1) := handle_thread_dump f m a pack
  have hw : whole = finish ((Handlers.threadDump m a).2, withPack (Handlers.threadDump m a).1) := handle_TRIGGER_THREAD_DUMP m a pack
  have other : ∀ (c : Bytes) q, q ≠ p → FS.at ((p, .file c) :: a.fs.filter fun e => e.1 ≠ p) q = a.fs.at q := by
    intro c q hq
    rw [← find_filter_ne a.fs q p hq]
    unfold FS.at
    rw [List.find?_cons_of_neg (by simpa using fun h => hq h.symm)]
  have here : ∀ (c : Bytes), FS.at ((p, .file c) :: a.fs.filter fun e => e.1 ≠ p) p = some (.file c) := by
    intro c
    unfold FS.at
    rw [List.find?_cons_of_pos (by simp)]; rfl
  rw [hr, hw]
  refine ⟨_, rfl, ?_, ?_, ?_⟩
  · intro hc
    unfold threadDump
    rw [if_pos (by simp [hc])]
    exact ⟨rfl, rfl⟩
  · intro hc c hfile
    have hcc : c = heavyAllStackTrace (m.stacks a.requests) := by
      have h1 : FS.at ((p, .file (heavyAllStackTrace (m.stacks a.requests))) :: a.fs.filter fun e => e.1 ≠ p) p = some (.file c) := hfile
      rw [here] at h1
      simpa using h1.symm
    unfold threadDump
    rw [if_neg (by simp [hc])]
    simp only
    constructor
    · intro k hk hlt
      rw [hk]
      simp only
      rw [if_pos (by rw [← hcc]; exact hlt)]
      refine ⟨rfl, ?_⟩
      rw [hcc]
      exact here _
    · intro hk
      cases hd : f.dumpWrite with
      | none => rfl
      | some k =>
        have := hk k hd
        simp only
        rw [if_neg (by rw [← hcc]; omega)]
        rfl
  · intro q hq
    unfold threadDump
    split
    · rfl
    · simp only
      split
      · split
        · exact other _ q hq
        · exact other _ q hq
      · exact other _ q hq

/-! ## Saving the configuration -/

/-- **C110**, saving a configuration: when the writing fails after `k` bytes, the answer is "false" and the settings stay as they
are, but the configuration file now holds the first `k` bytes of the new text: the old text is lost.  So the next refresh loads
what is left (`C110_half_a_configuration`). -/
theorem C110_save (f : Faults) (m : Machine) (a : Agent) (param : Table) (text : Bytes) (k : Nat)
    (hp : param.get (ascii "setConfig") = .text text) (hw : m.writable a.requests = true) (hf : f.confWrite = some k)
    (hk : k < text.length) :
    let r := handle f m a (ascii "SET_CONFIGURE_WAS") (.map ⟨param⟩)
    (∃ t, AnswersTable r.2 t ∧ t.get (ascii "result") = .bool false) ∧
    r.1 = { a with requests := a.requests + 1, text := some (m.mtime a.requests, text.take k) } := by
  intro r
  have hname : param.getString (ascii "setConfig") = text := by unfold Table.getString; rw [hp]
  have e : saveConfig f m a (.map ⟨param⟩) = (some (MapPack.put [] (ascii "result") (.bool false)),
      { a with text := some (m.mtime a.requests, text.take k) }) := by
    unfold saveConfig
    simp only
    rw [hname]
    unfold saveConfigText
    rw [hw, hf]
    simp only [Bool.not_true, Bool.false_eq_true, if_false]
    rw [if_pos hk]
  have hr : r = finish ({ a with text := some (m.mtime a.requests, text.take k) }, withPack (MapPack.put [] (ascii "result") (.bool false))) := by
    refine (handle_set f m a _).trans ?_
    rw [e]
  rw [hr]
  refine ⟨⟨_, rfl, ?_⟩, rfl⟩
  seek

/-- **C110**, as found: a save that fails and says so still changes the settings.  After it the next refresh takes its settings from
the part that was written: every setting has the value the cut text gives it, or its default if that part does not mention it,
whatever was set before. -/
theorem C110_half_a_configuration (f : Faults) (m : Machine) (henv : WellFormedEnv m.env) (a : Agent) (param : Table) (text : Bytes) (k : Nat)
    (hp : param.get (ascii "setConfig") = .text text) (hw : m.writable a.requests = true) (hf : f.confWrite = some k)
    (hk : k < text.length) (props : Props) (hr : m.readable (a.requests + 1) = true) (hparse : m.parse (text.take k) = some props)
    (hnew : a.conf.lastModified < m.mtime a.requests) :
    let b := (handle f m a (ascii "SET_CONFIGURE_WAS") (.map ⟨param⟩)).1
    b.conf = a.conf ∧ ∃ b', b.refresh m = some b' ∧ InEffect m.env m.host (some props) b'.conf ∧ b'.world.conf = b'.conf.traceConf := by
  intro b
  have hb : b = _ := (C110_save f m a param text k hp hw hf hk).2
  have hconf : b.conf = a.conf := by rw [hb]
  have hfile : m.file b = .good (m.mtime a.requests) props := by
    rw [hb]
    unfold Machine.file
    simp only [hr, if_true, hparse]
  obtain ⟨c', hc, hl⟩ := refresh_loads henv m.host (f := m.file b) (g := m.file b) b.conf
    (Or.inr ⟨m.mtime a.requests, by rw [hfile]; rfl, by rw [hconf]; exact hnew⟩) (Or.inr ⟨_, _, hfile⟩)
  refine ⟨hconf, ?_⟩
  have hin := hl.inEffect
  rw [hfile] at hin
  unfold Agent.refresh
  rw [hc]
  refine ⟨_, rfl, hin, ?_⟩
  simp only
  split <;> split <;> rfl

/-! ## Any request -/

theorem streamLoop_small (fails : Nat → Bool) (sizes : Nat → Nat) (n : Nat) : ∀ (i : Nat) (rest : Bytes),
    ∀ b ∈ streamLoop fails sizes n i rest, b.length ≤ 4096 := by
  induction n with
  | zero => intro i r b hb; cases hb
  | succ n ih =>
    intro i r b hb
    unfold streamLoop at hb
    split at hb
    · cases hb
    · split at hb
      · cases hb
      · rcases List.mem_cons.1 hb with rfl | hb
        · have : (r.take (min 4096 (sizes i + 1))).length ≤ min 4096 (sizes i + 1) := List.length_take_le ..
          omega
        · exact ih _ _ b hb

theorem downloadLoop_small (fails : Nat → Bool) (content : Bytes) (n : Nat) : ∀ (i offset : Nat),
    ∀ b ∈ downloadLoop fails content n i offset, b.length ≤ 300 := by
  induction n with
  | zero => intro i o b hb; cases hb
  | succ n ih =>
    intro i o b hb
    unfold downloadLoop at hb
    split at hb
    · cases hb
    · simp only at hb
      split at hb
      · rw [List.mem_singleton.1 hb]; exact List.length_take_le ..
      · rcases List.mem_cons.1 hb with rfl | hb
        · exact List.length_take_le ..
        · exact ih _ _ b hb

/-- **C110**: the pieces of a reply are at most 4096 bytes long, whatever fails: each is written in a form the collector can read
(C03). -/
theorem C110_pieces (f : Faults) (m : Machine) (a : Agent) (cmd : Bytes) (pack : Pack) :
    ∀ b ∈ (handle f m a cmd pack).2.blobs, b.length ≤ 4096 := by
  let P : Agent × Answer → Prop := fun r => ∀ b ∈ r.2.blobs, b.length ≤ 4096
  have hno : ∀ a : Agent, P (finish (a, nothing)) := fun a b hb => by cases hb
  have hpack : ∀ (a : Agent) (t : Table), P (finish (a, withPack t)) := fun a t b hb => by cases hb
  show P (handle f m a cmd pack)
  unfold handle
  simp only
  refine pick (fun _ => hpack _ _) fun h1 => ?_
  refine pick (fun _ => ?_) fun h2 => ?_
  · cases listDumpFiles f m with
    | some t => exact hpack _ _
    | none => exact hno _
  refine pick (fun _ => ?_) fun h3 => ?_
  · cases pack with
    | map p =>
      intro b hb
      have hb : b ∈ streamDumpFileContents f (m.sizes a.requests) a.fs m.dumpDir (p.table.getString (ascii "name")) := hb
      unfold streamDumpFileContents at hb
      split at hb
      · cases hb
      · split at hb
        · cases hb
        · cases hb
        · exact streamLoop_small _ _ _ _ _ b hb
    | _ => exact hno _
  refine pick (fun _ => ?_) fun h4 => ?_
  · cases listBinaryDumpFiles f m with
    | some t => exact hpack _ _
    | none => exact hno _
  refine pick (fun _ => ?_) fun h5 => ?_
  · cases pack with
    | map p =>
      intro b hb
      have hb : b ∈ downloadBinaryDumpFiles f a.fs m.binaryDir (p.table.getString (ascii "fileName")) := hb
      unfold downloadBinaryDumpFiles at hb
      split at hb
      · cases hb
      · split at hb
        · cases hb
        · split at hb
          · cases hb
          · cases hb
          · have := downloadLoop_small _ _ _ _ _ b hb; omega
    | _ => exact hno _
  refine pick (fun _ => ?_) fun h6 => ?_
  · split
    · exact hpack _ _
    · exact hno _
  · intro b hb
    rw [(C70_kind_of_answer m a cmd pack).1 (by
      intro hm
      rcases List.mem_cons.1 hm with h | h
      · exact h3 h
      · exact h5 (List.mem_singleton.1 h))] at hb
    cases hb

/-- Nothing fails: the lists are those of Model/Handlers.lean. -/
theorem walk_plain (add : Info → Bool) (m : Machine) (a : Agent) (dir : Path) :
    walk add (plainVisits m a dir) = some (((filesBelow a.fs dir).map fun e =>
      ({ isDir := false, name := baseName e.1, size := BitVec.ofNat 64 e.2.length, modified := m.fileMillis a.requests e.1 } : Info)).filter add) := by
  unfold plainVisits
  generalize filesBelow a.fs dir = l
  induction l with
  | nil => rfl
  | cons x l ih =>
    rw [List.map_cons, walk, ih]
    simp only [Option.map_some, Bool.not_false, Bool.true_and, List.map_cons, List.filter_cons]

/-- **C110**: when nothing fails, every request is answered as C49-C53, C66-C72 and C84 say. -/
theorem C110_without_failures (f : Faults) (m : Machine) (a : Agent) (cmd : Bytes) (pack : Pack) (h : Sound f m a) :
    handle f m a cmd pack = Handlers.handle m a cmd pack := by
  by_cases h1 : cmd = ascii "TRIGGER_THREAD_DUMP"
  · rw [h1, handle_thread_dump, handle_TRIGGER_THREAD_DUMP]
    unfold threadDump Handlers.threadDump
    rw [h.created, h.dumpWrite]
    rfl
  by_cases h2 : cmd = ascii "OBJECT_DUMP_FILE_LIST"
  · rw [h2, handle_list, handle_OBJECT_DUMP_FILE_LIST]
    unfold listDumpFiles
    rw [h.visits, walk_plain]
    unfold Handlers.listDumpFiles
    simp only [Option.map_some, List.filter_true, List.map_map, Function.comp_def]
  by_cases h3 : cmd = ascii "OBJECT_DUMP_FILE_DETAIL"
  · rw [h3]
    cases pack with
    | map p =>
      rw [handle_detail, handle_OBJECT_DUMP_FILE_DETAIL]
      unfold streamDumpFileContents Dump.streamDumpFileContents
      rw [h.opened]
      simp only [Bool.not_true, Bool.false_eq_true, if_false, streamLoop_sound _ h.reads]
      rfl
    | _ =>
      rw [handle_OBJECT_DUMP_FILE_DETAIL]
      unfold handle
      exact (if_neg (by decide +kernel)).trans <| (if_neg (by decide +kernel)).trans <| if_pos rfl
  by_cases h4 : cmd = ascii "OBJECT_LIST_HEAP_DUMP"
  · rw [h4, handle_binary_list, handle_OBJECT_LIST_HEAP_DUMP]
    unfold listBinaryDumpFiles
    rw [h.visits, walk_plain]
    unfold Handlers.listBinaryDumpFiles
    simp only [Option.map_some, List.filter_map, List.map_map, Function.comp_def]
  by_cases h5 : cmd = ascii "OBJECT_DOWNLOAD_HEAP_DUMP"
  · rw [h5]
    cases pack with
    | map p =>
      rw [handle_download, handle_OBJECT_DOWNLOAD_HEAP_DUMP]
      unfold downloadBinaryDumpFiles Dump.downloadBinaryDumpFiles
      rw [h.opened]
      simp only [Bool.not_true, Bool.false_eq_true, if_false]
      have key : ∀ content : Bytes, downloadLoop f.readFails content (content.length / 300 + 1) 0 0 =
          (Dump.downloadLoop (fun _ => content) (content.length / 300 + 1) 0 0).getD [] := by
        intro content
        rw [← (downloadLoop_sound f.readFails content h.reads (content.length / 300 + 1) 0 0 (by omega) (by omega)).1]
        rfl
      simp only [key]
      rfl
    | _ =>
      rw [handle_OBJECT_DOWNLOAD_HEAP_DUMP]
      unfold handle
      exact (if_neg (by decide +kernel)).trans <| (if_neg (by decide +kernel)).trans <| (if_neg (by decide +kernel)).trans <|
        (if_neg (by decide +kernel)).trans <| if_pos rfl
  by_cases h6 : cmd = ascii "SET_CONFIGURE_WAS"
  · rw [h6, handle_set, handle_SET_CONFIGURE_WAS]
    have key : saveConfig f m a pack = Handlers.saveConfig m a pack := by
      have e : ∀ text, saveConfigText f m a text = Handlers.saveConfigText m a text := by
        intro text
        unfold saveConfigText Handlers.saveConfigText
        rw [h.confWrite]
        cases m.writable a.requests <;> rfl
      cases pack with
      | map p =>
        unfold saveConfig Handlers.saveConfig
        simp only [e]
        rfl
      | _ => rfl
    rw [key]
    rfl
  unfold handle
  exact (if_neg h1).trans <| (if_neg h2).trans <| (if_neg h3).trans <| (if_neg h4).trans <| (if_neg h5).trans <| if_neg h6

/-! ## The hypotheses are met -/

namespace Demo
open Handlers.Demo

/-- The second reading fails, the disk is full after one byte, and a file goes away while the list is made. -/
def faults : Faults where
  created := true
  dumpWrite := some 1
  opened := true
  readFails i := i == 1
  visits _ := [some ⟨true, ascii "d", 0, 0⟩, some ⟨false, ascii "x.pprof", 700, 7⟩, none]
  confWrite := some 1

/-- A dump of 700 bytes. -/
def files : FS := [(⟨true, [ascii "b", ascii "x.pprof"]⟩, .file (List.replicate 700 65)), (⟨true, [ascii "d", ascii "x"]⟩, .file (List.replicate 1500 66))]

def site : Agent := { agent with fs := files }

def ask (key : String) (v : Bytes) : MapPack := ⟨[(ascii key, .text v)]⟩

example : (ask "fileName" (ascii "x.pprof")).table.get (ascii "fileName") = .text (ascii "x.pprof") ∧ ascii "pprof" <:+ ascii "x.pprof" ∧
    FileAt site.fs (join machine.binaryDir (ascii "x.pprof")) (List.replicate 700 65) := by
  refine ⟨rfl, ⟨ascii "x.", by decide +kernel⟩, ?_⟩
  unfold FileAt
  decide +kernel

/-- The download broke off after 300 bytes, and the text of the other dump after 1001: its reply does not show it. -/
example : (handle faults machine site (ascii "OBJECT_DOWNLOAD_HEAP_DUMP") (.map (ask "fileName" (ascii "x.pprof")))).2.blobs.map List.length = [300] ∧
    (handle faults machine site (ascii "OBJECT_DUMP_FILE_DETAIL") (.map (ask "name" (ascii "x")))).2.blobs.map List.length = [1001] := by
  decide +kernel

example : FileAt site.fs (join machine.dumpDir (ascii "x")) (List.replicate 1500 66) := by unfold FileAt; decide +kernel

/-- Lists: one with a file that went away, one without. -/
example : none ∈ faults.visits machine.dumpDir ∧ ∀ v ∈ ({ faults with visits := plainVisits machine site } : Faults).visits machine.dumpDir, v ≠ none := by
  refine ⟨by simp [faults], ?_⟩
  intro v hv
  simp only [plainVisits, List.mem_map] at hv
  obtain ⟨e, -, rfl⟩ := hv
  simp

/-- A saved text of which one byte was written: the name of the object changes from "nn" to "z", though the answer was "false". -/
example : machine.writable site.requests = true ∧ faults.confWrite = some 1 ∧ 1 < (ascii "zz").length ∧
    machine.readable (site.requests + 1) = true ∧ (machine.parse ((ascii "zz").take 1)).isSome = true ∧
    site.conf.lastModified < machine.mtime site.requests ∧ site.conf.objName = ascii "/h/nn" ∧
    (((handle faults machine site (ascii "SET_CONFIGURE_WAS") (.map (ask "setConfig" (ascii "zz")))).1.refresh machine).map fun a => a.conf.objName) =
      some (ascii "/h/z") := by
  refine ⟨rfl, rfl, by decide, rfl, by decide +kernel, by decide +kernel, by decide +kernel, by decide +kernel⟩

/-- Nothing fails. -/
example : Sound { faults with dumpWrite := none, readFails := fun _ => false, visits := plainVisits machine site, confWrite := none } machine site :=
  ⟨rfl, rfl, rfl, fun _ => rfl, fun _ => rfl, rfl⟩

end Demo
end Failing
end Scouter
