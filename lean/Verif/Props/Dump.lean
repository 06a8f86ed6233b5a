import Verif.Spec.Files
import Verif.Props.IpText
import Verif.Props.Tcp
/-! # C52, C53, C65: dump files -/
namespace Scouter
namespace Dump
open Tcp

/-! ## C52 -/

theorem downloadLoop_const (content : Bytes) (n i offset : Nat) (ho : offset ≤ content.length)
    (hn : (content.length - offset) / 300 < n) :
    ∃ cs, downloadLoop (fun _ => content) n i offset = some cs ∧ cs.flatten = content.drop offset ∧ ∀ b ∈ cs, b.length ≤ 300 := by
  induction n generalizing i offset with
  | zero => omega
  | succ n ih =>
    rw [downloadLoop]
    simp only [List.length_take, List.length_drop]
    by_cases h : content.length - offset < 300
    · rw [if_pos (by omega)]
      refine ⟨_, rfl, ?_, by simp; omega⟩
      rw [List.flatten_cons, List.flatten_nil, List.append_nil, List.take_of_length_le (by simp; omega)]
    · rw [if_neg (by omega), Nat.min_eq_left (by omega)]
      obtain ⟨cs, h1, h2, h3⟩ := ih (i + 1) (offset + 300) (by omega) (by omega)
      rw [h1]
      refine ⟨_, rfl, ?_, ?_⟩
      · rw [List.flatten_cons, h2, ← List.drop_drop, List.take_append_drop]
      · intro b hb
        rcases List.mem_cons.mp hb with rfl | hb
        · simp; omega
        · exact h3 b hb

/-- C52: for every file, the parts sent for a download make up exactly the file, and none is longer than 300 bytes. -/
theorem C52_download_complete (fs : FS) (dir : Path) (name content : Bytes) (hn : hasSuffix name (ascii "pprof") = true)
    (hf : FileAt fs (join dir name) content) :
    (downloadBinaryDumpFiles fs dir name).flatten = content ∧ ∀ b ∈ downloadBinaryDumpFiles fs dir name, b.length ≤ 300 := by
  unfold downloadBinaryDumpFiles
  have hne : name ≠ [] := by rintro rfl; revert hn; decide
  rw [if_neg (by simp [hne, suffix, hn]), hf]
  obtain ⟨cs, h1, h2, h3⟩ := downloadLoop_const content (content.length / 300 + 1) 0 0 (by omega) (by simp)
  simp only [h1, Option.getD_some]
  exact ⟨h2, h3⟩

/-- C52: the collector finds exactly these parts in the reply, so it has the whole file. -/
theorem C52_collector_gets_file (fs : FS) (dir : Path) (name content : Bytes) (hn : hasSuffix name (ascii "pprof") = true)
    (hf : FileAt fs (join dir name) content) (rest : Bytes) :
    ∃ bs, Wire.streamReply (reply ⟨downloadBinaryDumpFiles fs dir name, none⟩ ++ rest) = some (.stream bs, rest) ∧
      bs.flatten = content := by
  obtain ⟨h1, h2⟩ := C52_download_complete fs dir name content hn hf
  exact ⟨_, streamReply_enc _ (fun b hb => by have := h2 b hb; omega) rest, h1⟩

theorem downloadLoop_growing (f : Nat → Bytes) (hf : Growing f) (n i offset : Nat) (ho : offset ≤ (f i).length) (cs : List Bytes)
    (h : downloadLoop f n i offset = some cs) :
    ∃ j, i ≤ j ∧ j < i + n ∧ (f i).take offset ++ cs.flatten = f j := by
  induction n generalizing i offset cs with
  | zero => simp [downloadLoop] at h
  | succ n ih =>
    rw [downloadLoop] at h
    simp only [List.length_take, List.length_drop] at h
    by_cases hl : (f i).length - offset < 300
    · rw [if_pos (by omega)] at h
      simp only [Option.some.injEq] at h
      subst h
      refine ⟨i, Nat.le_refl _, by omega, ?_⟩
      rw [List.flatten_cons, List.flatten_nil, List.append_nil, List.take_of_length_le (l := List.drop offset (f i)) (by simp; omega),
        List.take_append_drop]
    · rw [if_neg (by omega), Nat.min_eq_left (by omega), Option.map_eq_some_iff] at h
      obtain ⟨cs', h1, rfl⟩ := h
      have hp := hf i (i + 1) (by omega)
      obtain ⟨j, hj1, hj2, hj⟩ := ih (i + 1) (offset + 300) (by have := hp.length_le; omega) cs' h1
      refine ⟨j, by omega, by omega, ?_⟩
      rw [← hj, List.flatten_cons, ← List.append_assoc]
      congr 1
      obtain ⟨t, ht⟩ := hp
      rw [← ht, List.take_append_of_le_length (by omega), List.take_add]

/-- C52: when the file is still being written during the download, what is sent is the file as it was at the last read: no
part is missing, repeated or mixed. -/
theorem C52_growing_file (f : Nat → Bytes) (hf : Growing f) (reads : Nat) (cs : List Bytes)
    (h : downloadLoop f reads 0 0 = some cs) : ∃ j < reads, cs.flatten = f j := by
  obtain ⟨j, -, h2, h3⟩ := downloadLoop_growing f hf reads 0 0 (by omega) cs h
  exact ⟨j, by omega, by simpa using h3⟩

theorem streamLoop_all (sizes : Nat → Nat) (n i : Nat) (rest : Bytes) (h : rest.length ≤ n) :
    (streamLoop sizes n i rest).flatten = rest ∧ ∀ b ∈ streamLoop sizes n i rest, 1 ≤ b.length ∧ b.length ≤ 4096 := by
  induction n generalizing i rest with
  | zero =>
    have : rest = [] := List.length_eq_zero_iff.mp (by omega)
    subst this; simp [streamLoop]
  | succ n ih =>
    cases rest with
    | nil => simp [streamLoop]
    | cons c rest =>
      rw [streamLoop]
      · obtain ⟨h1, h2⟩ := ih (i + 1) ((c :: rest).drop (min 4096 (sizes i + 1))) (by simp at h ⊢; omega)
        refine ⟨by rw [List.flatten_cons, h1, List.take_append_drop], ?_⟩
        intro b hb
        rcases List.mem_cons.mp hb with rfl | hb
        · simp only [List.length_take, List.length_cons]; omega
        · exact h2 b hb
      · simp

/-- C52: a text dump is streamed completely, in parts of 1 to 4096 bytes, however the system cuts the reads. -/
theorem C52_stream_complete (sizes : Nat → Nat) (fs : FS) (dir : Path) (name content : Bytes)
    (hf : FileAt fs (join dir name) content) (rest : Bytes) :
    ∃ bs, Wire.streamReply (reply ⟨streamDumpFileContents sizes fs dir name, none⟩ ++ rest) = some (.stream bs, rest) ∧
      bs.flatten = content ∧ ∀ b ∈ bs, 1 ≤ b.length ∧ b.length ≤ 4096 := by
  have hs := streamLoop_all sizes content.length 0 content (Nat.le_refl _)
  have he : streamDumpFileContents sizes fs dir name = streamLoop sizes content.length 0 content := by
    unfold streamDumpFileContents; rw [hf]
  rw [he]
  exact ⟨_, streamReply_enc _ (fun b hb => by have := hs.2 b hb; omega) rest, hs⟩

/-! ## C53 -/

theorem foldl_ordinary (rooted : Bool) (es kept : List Bytes) (h : ascii ".." ∉ es) :
    es.foldl (cleanStep rooted) kept = (es.filter fun e => e ≠ [] ∧ e ≠ ascii ".").reverse ++ kept := by
  induction es generalizing kept with
  | nil => rfl
  | cons e es ih =>
    simp only [List.mem_cons, not_or] at h
    rw [List.foldl_cons, ih _ h.2, List.filter_cons]
    unfold cleanStep
    split
    · next he => simp [he]
    · next he =>
      split
      · next hd => simp [hd]
      · next hd =>
        rw [if_neg (Ne.symm h.1), if_pos (by simp [he, hd])]
        simp

theorem join_parts (dir : Path) (name : Bytes) (hd : dir.Good) (hn : NoDotDot name) :
    join dir name = ⟨dir.rooted, dir.parts ++ (splitByte 47 name).filter fun e => e ≠ [] ∧ e ≠ ascii "."⟩ := by
  unfold join clean
  rw [foldl_ordinary]
  · have : dir.parts.filter (fun e => e ≠ [] ∧ e ≠ ascii ".") = dir.parts :=
      List.filter_eq_self.mpr fun e he => by have := hd e he; simp [this.1, this.2.1]
    rw [List.filter_append, this]
    simp
  · intro h
    rcases List.mem_append.mp h with h | h
    · exact (hd _ h).2.2.1 rfl
    · exact hn h

theorem join_inside (dir : Path) (name : Bytes) (hd : dir.Good) (hn : NoDotDot name) : Inside dir (join dir name) := by
  rw [join_parts dir name hd hn]; exact ⟨rfl, _, rfl⟩

theorem clean_walks (es here kept : List Bytes) (hk : kept.reverse = here) (hd : ∀ e ∈ here, e ≠ ascii "..") :
    (es.foldl (cleanStep true) kept).reverse = es.foldl stepFrom here ∧ ∀ e ∈ es.foldl stepFrom here, e ≠ ascii ".." := by
  induction es generalizing here kept with
  | nil => exact ⟨hk, hd⟩
  | cons e es ih =>
    rw [List.foldl_cons, List.foldl_cons]
    refine ih _ _ ?_ ?_
    · unfold cleanStep stepFrom
      by_cases h1 : e = []
      · rw [if_pos h1, if_pos (.inl h1)]; exact hk
      · rw [if_neg h1]
        by_cases h2 : e = ascii "."
        · rw [if_pos h2, if_pos (.inr h2)]; exact hk
        · rw [if_neg h2, if_neg (show ¬ (e = [] ∨ e = ascii ".") from fun h => h.elim h1 h2)]
          by_cases h3 : e = ascii ".."
          · rw [if_pos h3, if_pos h3, ← hk]
            cases kept with
            | nil => rfl
            | cons k rest =>
              have : k ≠ ascii ".." := hd k (by rw [← hk]; simp)
              simp [this]
          · rw [if_neg h3, if_neg h3, ← hk]; simp
    · intro x hx
      unfold stepFrom at hx
      split at hx
      · exact hd x hx
      · split at hx
        · exact hd x (List.dropLast_subset _ hx)
        · next h3 =>
          rcases List.mem_append.mp hx with hx | hx
          · exact hd x hx
          · rw [List.mem_singleton.mp hx]; exact h3

/-- **C53**: whatever the name of a request, the thing it is about is the one reached by walking from the dump directory as the name says, element by
element; there is no way above the root. -/
theorem C53_names_are_walked (dir : Path) (name : Bytes) (hd : dir.Good) (hr : dir.rooted = true) :
    join dir name = ⟨true, (splitByte 47 name).foldl stepFrom dir.parts⟩ ∧ ascii ".." ∉ (join dir name).parts := by
  have h := clean_walks (splitByte 47 name) dir.parts dir.parts.reverse (List.reverse_reverse _) fun e he => (hd e he).2.2.1
  have e : join dir name = ⟨true, (splitByte 47 name).foldl stepFrom dir.parts⟩ := by
    unfold join clean
    rw [hr, List.foldl_append]
    have h0 : dir.parts.foldl (cleanStep true) [] = dir.parts.reverse := by
      rw [foldl_ordinary true dir.parts [] fun h => (hd _ h).2.2.1 rfl, List.filter_eq_self.mpr fun e he => by
        have := hd e he; simp [this.1, this.2.1]]
      simp
    rw [h0, h.1]
  refine ⟨e, ?_⟩
  rw [e]
  exact fun hx => h.2 _ hx rfl

/-- A name that leaves the directory by more steps than there are. -/
example : join ⟨true, [ascii "home", ascii "dump"]⟩ (ascii "x/../../../../etc/./passwd") = ⟨true, [ascii "etc", ascii "passwd"]⟩ ∧
    Path.Good ⟨true, [ascii "home", ascii "dump"]⟩ := by
  refine ⟨by decide +kernel, fun e he => ?_⟩
  rcases List.mem_cons.mp he with rfl | he
  · exact ⟨by decide +kernel, by decide +kernel, by decide +kernel, by decide +kernel⟩
  · rw [List.mem_singleton.mp he]
    exact ⟨by decide +kernel, by decide +kernel, by decide +kernel, by decide +kernel⟩

/-- C53, for names without "..": downloads and streams show only what is inside the dump directory. -/
theorem C53_reads_only_inside (fs fs' : FS) (dir : Path) (name : Bytes) (hd : dir.Good) (hn : NoDotDot name)
    (h : ∀ p, Inside dir p → fs.at p = fs'.at p) (sizes : Nat → Nat) :
    downloadBinaryDumpFiles fs dir name = downloadBinaryDumpFiles fs' dir name ∧
    streamDumpFileContents sizes fs dir name = streamDumpFileContents sizes fs' dir name := by
  unfold downloadBinaryDumpFiles streamDumpFileContents
  rw [h _ (join_inside dir name hd hn)]
  exact ⟨rfl, rfl⟩

theorem find_filter_ne (fs : FS) (p q : Path) (h : p ≠ q) : FS.at (fs.filter fun e => e.1 ≠ q) p = fs.at p := by
  unfold FS.at
  congr 1
  induction fs with
  | nil => rfl
  | cons e fs ih =>
    rw [List.filter_cons]
    by_cases he : e.1 = q
    · rw [if_neg (by simp [he]), ih, List.find?_cons_of_neg (by simp [he]; exact fun h' => h h'.symm)]
    · rw [if_pos (by simp [he])]
      by_cases hp : e.1 = p
      · rw [List.find?_cons_of_pos (by simp [hp]), List.find?_cons_of_pos (by simp [hp])]
      · rw [List.find?_cons_of_neg (by simp [hp]), List.find?_cons_of_neg (by simp [hp]), ih]

theorem remove_other (fs fs' : FS) (p q : Path) (h : p ≠ q) (hr : fs.remove q = some fs') : fs'.at p = fs.at p := by
  unfold FS.remove at hr
  split at hr
  · simp at hr
  · split at hr
    · simp at hr
    · rw [← Option.some.inj hr]; exact find_filter_ne fs p q h
  · rw [← Option.some.inj hr]; exact find_filter_ne fs p q h

/-- C53, for names without "..": a deletion leaves everything outside the dump directory. -/
theorem C53_deletes_only_inside (errText : Bytes) (fs : FS) (dir : Path) (name : Bytes) (hd : dir.Good) (hn : NoDotDot name)
    (p : Path) (hp : ¬ Inside dir p) : (deleteBinaryDumpFiles errText fs dir name).2.at p = fs.at p := by
  have hne : p ≠ join dir name := fun e => hp (e ▸ join_inside dir name hd hn)
  unfold deleteBinaryDumpFiles
  split
  · rfl
  · split
    · rfl
    · next h => exact remove_other fs _ p _ hne h

/-- Nothing is removed except, at most, the one thing named. -/
theorem C53_deletes_one (errText : Bytes) (fs : FS) (dir : Path) (name : Bytes) (p : Path) (hp : p ≠ join dir name) :
    (deleteBinaryDumpFiles errText fs dir name).2.at p = fs.at p := by
  unfold deleteBinaryDumpFiles
  split
  · rfl
  · split
    · rfl
    · next h => exact remove_other fs _ p _ hp h

/-- There is something inside the directory at `p`. -/
def Occupied (fs : FS) (p : Path) : Prop := ∃ e ∈ fs, Inside p e.1 ∧ e.1 ≠ p

theorem inhabited_iff (fs : FS) (p : Path) : fs.inhabited p = true ↔ Occupied fs p := by
  simp only [FS.inhabited, List.any_eq_true, Bool.and_eq_true, decide_eq_true_eq, Occupied, Inside]
  constructor
  · rintro ⟨e, he, ⟨h1, h2⟩, h3⟩
    refine ⟨e, he, ⟨h1, e.1.parts.drop p.parts.length, ?_⟩, fun h => ?_⟩
    · conv => rhs; lhs; rw [← h3]
      exact (List.take_append_drop _ _).symm
    · rw [h] at h2; omega
  · rintro ⟨e, he, ⟨h1, x, h2⟩, h3⟩
    refine ⟨e, he, ⟨h1, ?_⟩, by rw [h2]; simp⟩
    cases x with
    | nil =>
      refine absurd ?_ h3
      rw [List.append_nil] at h2
      rcases e with ⟨⟨r, ps⟩, en⟩
      rcases p with ⟨r', ps'⟩
      simp only at h1 h2
      rw [h1, h2]
    | cons a x => rw [h2]; simp

theorem at_filter_self (fs : FS) (p : Path) : FS.at (fs.filter fun e => e.1 ≠ p) p = none := by
  unfold FS.at
  rw [Option.map_eq_none_iff, List.find?_eq_none]
  intro e he
  simpa using (List.mem_filter.mp he).2

/-- **C53**: what a deletion answers is what happened.  It answers success, and the thing is gone, exactly if the name ends in
"pprof" and names a file or a directory with nothing in it; otherwise it answers failure, with the reason, and nothing is
changed. -/
theorem C53_deletion_answers (errText : Bytes) (fs : FS) (dir : Path) (name : Bytes) :
    let r := deleteBinaryDumpFiles errText fs dir name
    let p := join dir name
    let deletable := hasSuffix name (ascii "pprof") = true ∧
      ((∃ content, FileAt fs p content) ∨ (fs.at p = some .dir ∧ ¬ Occupied fs p))
    (deletable → r.2.at p = none ∧ r.1 = [(ascii "success", .bool true), (ascii "msg", .text (ascii "success"))]) ∧
    (¬ deletable → r.2 = fs ∧ r.1 = [(ascii "success", .bool false),
      (ascii "msg", .text (if hasSuffix name (ascii "pprof") = true then errText else ascii "no fileName"))]) := by
  have hempty : hasSuffix [] (ascii "pprof") = false := by decide +kernel
  have put2 : ∀ (b : Bool) (s : Bytes), MapPack.put (MapPack.put [] (ascii "success") (.value (.bool b))) (ascii "msg") (.string s) =
      [(ascii "success", .bool b), (ascii "msg", .text s)] := by
    intro b s; rfl
  dsimp only
  unfold deleteBinaryDumpFiles
  by_cases hs : hasSuffix name (ascii "pprof") = true
  · have hne : name ≠ [] := fun e => by rw [e, hempty] at hs; exact absurd hs (by decide)
    rw [if_neg (by simp [hne, suffix, hs])]
    unfold FS.remove
    cases ha : fs.at (join dir name) with
    | none =>
      refine ⟨fun h => ?_, fun _ => ?_⟩
      · rcases h.2 with ⟨c, hc⟩ | ⟨hc, -⟩
        · rw [FileAt, ha] at hc; exact absurd hc (by simp)
        · exact absurd hc (by simp)
      · simp [hs, put2]
    | some e =>
      cases e with
      | file content =>
        refine ⟨fun _ => ⟨at_filter_self _ _, put2 _ _⟩, fun h => absurd ⟨hs, .inl ⟨content, ha⟩⟩ h⟩
      | dir =>
        by_cases ho : Occupied fs (join dir name)
        · have hi := (inhabited_iff fs _).mpr ho
          refine ⟨fun h => ?_, fun _ => by simp [hs, put2, hi]⟩
          rcases h.2 with ⟨c, hc⟩ | ⟨-, hc⟩
          · rw [FileAt, ha] at hc; exact absurd hc (by simp)
          · exact absurd ho hc
        · have hi : fs.inhabited (join dir name) = false := by
            rw [Bool.eq_false_iff]; exact fun h => ho ((inhabited_iff fs _).mp h)
          refine ⟨fun _ => ?_, fun h => absurd ⟨hs, .inr ⟨rfl, ho⟩⟩ h⟩
          simp only [hi, Bool.false_eq_true, if_false]
          exact ⟨at_filter_self _ _, put2 _ _⟩
  · rw [if_pos (.inr (by simpa [suffix] using hs))]
    exact ⟨fun h => absurd h.1 hs, fun _ => ⟨rfl, by rw [if_neg hs]; exact put2 _ _⟩⟩

theorem splitByte_joinByte (sep : Byte) (es : List Bytes) (hne : es ≠ []) (h : ∀ e ∈ es, sep ∉ e) :
    splitByte sep (joinByte sep es) = es := by
  induction es with
  | nil => exact absurd rfl hne
  | cons e es ih =>
    cases es with
    | nil => simpa [joinByte] using splitByte_none sep e (h e (by simp))
    | cons e' es =>
      rw [joinByte, splitByte_append _ _ _ (h e (by simp)), ih (by simp) fun e he => h e (by simp [he])]
      simp

theorem foldl_up (kept : List Bytes) (h : ascii ".." ∉ kept) (n : Nat) (hn : n = kept.length) :
    (List.replicate n (ascii "..")).foldl (cleanStep true) kept = [] := by
  induction kept generalizing n with
  | nil => subst hn; rfl
  | cons k kept ih =>
    subst hn
    simp only [List.mem_cons, not_or] at h
    rw [List.length_cons, List.replicate_succ, List.foldl_cons]
    have : cleanStep true (k :: kept) (ascii "..") = kept := by
      rw [cleanStep, if_neg (by decide), if_neg (by decide), if_pos rfl]
      simp [Ne.symm h.1]
    rw [this]
    exact ih h.2 _ rfl

/-- The name that leads from `dir` to `target`: as many ".." as `dir` has elements, then the target's. -/
def nameOf (dir target : Path) : Bytes := joinByte 47 (List.replicate dir.parts.length (ascii "..") ++ target.parts)

theorem join_nameOf (dir target : Path) (hd : dir.Good) (ht : target.Good) (hr : dir.rooted = true) (hr' : target.rooted = true)
    (hne : target.parts ≠ []) : join dir (nameOf dir target) = target := by
  have hdots : ∀ {l : List Bytes}, (∀ e ∈ l, Ordinary e) → ascii ".." ∉ l := fun h m => (h _ m).2.2.1 rfl
  unfold join clean nameOf
  rw [splitByte_joinByte _ _ (by simp [hne])]
  · rw [List.foldl_append, List.foldl_append, foldl_ordinary _ _ _ (hdots hd), hr]
    have hf : dir.parts.filter (fun e => e ≠ [] ∧ e ≠ ascii ".") = dir.parts :=
      List.filter_eq_self.mpr fun e he => by have := hd e he; simp [this.1, this.2.1]
    have hf' : target.parts.filter (fun e => e ≠ [] ∧ e ≠ ascii ".") = target.parts :=
      List.filter_eq_self.mpr fun e he => by have := ht e he; simp [this.1, this.2.1]
    rw [hf, foldl_up _ _ _ (by simp), foldl_ordinary _ _ _ (hdots ht), hf']
    · cases target; simp at hr'; simp [hr']
    · simp only [List.append_nil, List.mem_reverse]; exact hdots hd
  · intro e he
    rcases List.mem_append.mp he with he | he
    · rw [List.eq_of_mem_replicate he]; decide
    · exact (ht e he).2.2.2

/-- C53 is false: every file of the system, wherever the dump directory is, can be read with a suitable name. -/
theorem C53_any_file_readable (sizes : Nat → Nat) (fs : FS) (dir target : Path) (content : Bytes) (hd : dir.Good)
    (ht : target.Good) (hr : dir.rooted = true) (hr' : target.rooted = true) (hne : target.parts ≠ [])
    (hf : FileAt fs target content) :
    ∃ name, (streamDumpFileContents sizes fs dir name).flatten = content := by
  refine ⟨nameOf dir target, ?_⟩
  unfold streamDumpFileContents
  rw [join_nameOf dir target hd ht hr hr' hne, hf]
  exact (streamLoop_all sizes _ 0 content (Nat.le_refl _)).1

theorem joinByte_suffix (sep : Byte) (es : List Bytes) (last : Bytes) : last <:+ joinByte sep (es ++ [last]) := by
  induction es with
  | nil => exact List.suffix_refl _
  | cons e es ih =>
    cases es with
    | nil => exact (ih.trans (List.suffix_cons _ _)).trans (List.suffix_append _ _)
    | cons e' es => exact (ih.trans (List.suffix_cons _ _)).trans (List.suffix_append _ _)

/-- C53 is false: every file of the system whose name ends in "pprof" can be downloaded, and removed, with a suitable name. -/
theorem C53_any_pprof_removable (errText : Bytes) (fs : FS) (dir target : Path) (content : Bytes) (hd : dir.Good)
    (ht : target.Good) (hr : dir.rooted = true) (hr' : target.rooted = true) (up : List Bytes) (last : Bytes)
    (hl : target.parts = up ++ [last]) (hs : hasSuffix last (ascii "pprof") = true) (hf : FileAt fs target content) :
    ∃ name, (downloadBinaryDumpFiles fs dir name).flatten = content ∧
      (deleteBinaryDumpFiles errText fs dir name).2.at target = none := by
  have hne : target.parts ≠ [] := by rw [hl]; simp
  have hj := join_nameOf dir target hd ht hr hr' hne
  have hsuf : hasSuffix (nameOf dir target) (ascii "pprof") = true := by
    unfold hasSuffix at hs ⊢
    rw [List.isSuffixOf_iff_suffix] at hs ⊢
    unfold nameOf
    rw [hl, ← List.append_assoc]
    exact hs.trans (joinByte_suffix _ _ _)
  have hnm : nameOf dir target ≠ [] := by intro e; rw [e] at hsuf; revert hsuf; decide
  refine ⟨nameOf dir target, (C52_download_complete fs dir _ content hsuf (by rw [hj]; exact hf)).1, ?_⟩
  unfold deleteBinaryDumpFiles
  rw [if_neg (by simp [hnm, suffix, hsuf]), hj]
  unfold FS.remove
  rw [show fs.at target = some (.file content) from hf]
  simp only []
  unfold FS.at
  rw [Option.map_eq_none_iff, List.find?_eq_none]
  intro e he
  simpa using (List.mem_filter.mp he).2

/-! ## C65 -/

theorem write_total (w : Writer) (p : Bytes) (h : w.buf.length ≤ 4096) :
    (w.write p).file ++ (w.write p).buf = w.file ++ w.buf ++ p ∧ (w.write p).buf.length ≤ 4096 := by
  unfold Writer.write
  split
  · next h' => simp; omega
  · split
    · next hb => simp [hb]
    · simp only []
      split
      · next h' =>
        refine ⟨?_, by simpa using h'⟩
        simp [List.append_assoc]
      · simp [List.append_assoc]

theorem writes_total (ps : List Bytes) (w : Writer) (h : w.buf.length ≤ 4096) :
    (ps.foldl Writer.write w).file ++ (ps.foldl Writer.write w).buf = w.file ++ w.buf ++ ps.flatten ∧
      (ps.foldl Writer.write w).buf.length ≤ 4096 := by
  induction ps generalizing w with
  | nil => simpa using h
  | cons p ps ih =>
    obtain ⟨h1, h2⟩ := write_total w p h
    obtain ⟨h3, h4⟩ := ih (w.write p) h2
    refine ⟨?_, h4⟩
    rw [List.foldl_cons, h3, h1]
    simp

/-- C65: block and mutex profiles reach their file completely, however they are written. -/
theorem C65_profiles_complete (writes : List Bytes) : profileToFile writes = writes.flatten := by
  obtain ⟨h, -⟩ := writes_total writes {} (by simp)
  simpa [profileToFile, Writer.flush] using h

/-- C65 is false of thread dumps: a dump of at most 4096 bytes leaves an empty file; a longer one is complete. -/
theorem C65_thread_dump_lost (stacks : Bytes) :
    heavyAllStackTrace stacks = if stacks.length ≤ 4096 then [] else stacks := by
  unfold heavyAllStackTrace Writer.write
  simp only [List.length_nil, Nat.sub_zero]
  split <;> simp

/-- C65: with any sequence of writes and no flush, the file lacks exactly an end of at most 4096 bytes. -/
theorem C65_unflushed_prefix (writes : List Bytes) :
    ∃ lost, unflushed writes ++ lost = writes.flatten ∧ lost.length ≤ 4096 := by
  obtain ⟨h, h'⟩ := writes_total writes {} (by simp)
  exact ⟨_, by simpa [unflushed] using h, h'⟩

/-! ## Examples -/

def sampleDir : Path := ⟨true, [ascii "opt", ascii "scouter", ascii "dump"]⟩
def samplePasswd : Path := ⟨true, [ascii "etc", ascii "passwd"]⟩
def sampleFS : FS := [(samplePasswd, .file (ascii "root")), (⟨true, [ascii "opt", ascii "scouter", ascii "dump", ascii "a.log"]⟩, .file [1, 2, 3])]

example : nameOf sampleDir samplePasswd = ascii "../../../etc/passwd" := by decide +kernel
def sampleDumps : FS := [(⟨true, [ascii "opt", ascii "scouter", ascii "dump", ascii "a.pprof"]⟩, .file [1, 2, 3]),
  (⟨true, [ascii "opt", ascii "scouter", ascii "dump", ascii "d.pprof"]⟩, .dir),
  (⟨true, [ascii "opt", ascii "scouter", ascii "dump", ascii "d.pprof", ascii "x"]⟩, .file [])]
example : (deleteBinaryDumpFiles [] sampleDumps sampleDir (ascii "a.pprof")).2.length = 2 := by decide +kernel
example : (deleteBinaryDumpFiles [] sampleDumps sampleDir (ascii "d.pprof")).2 = sampleDumps := by decide +kernel
example : streamDumpFileContents (fun _ => 0) sampleFS sampleDir (ascii "../../../etc/passwd") = (ascii "root").map ([·]) := by decide +kernel
example : streamDumpFileContents (fun _ => 9) sampleFS sampleDir (ascii "./a.log") = [[1, 2, 3]] := by decide +kernel
example : sampleDir.Good ∧ samplePasswd.Good := by
  constructor <;> intro e he <;> simp [sampleDir, samplePasswd] at he <;> rcases he with rfl | rfl | rfl <;>
    exact ⟨by decide +kernel, by decide +kernel, by decide +kernel, by decide +kernel⟩
example : NoDotDot (ascii "./a.log") := by unfold NoDotDot; decide +kernel
example : FileAt sampleFS samplePasswd (ascii "root") := by unfold FileAt; decide +kernel
example : (downloadLoop (fun _ => List.replicate 600 7) 3 0 0).map (·.map List.length) = some [300, 300, 0] := by decide +kernel

end Dump
end Scouter
