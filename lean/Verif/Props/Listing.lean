import Verif.Props.Requests
/-! # C71: listing, fetching and deleting dump files -/
namespace Scouter
namespace Handlers
open Trace TM Config Tcp Dump Spec

/-- No path occurs twice in the file system. -/
def OnePerPath (fs : FS) : Prop := (fs.map (·.1)).Nodup

theorem at_of_mem {fs : FS} (hn : OnePerPath fs) {p : Path} {e : Entry} (h : (p, e) ∈ fs) : fs.at p = some e := by
  unfold OnePerPath at hn
  unfold FS.at
  induction fs with
  | nil => simp at h
  | cons x fs ih =>
    simp only [List.map_cons, List.nodup_cons] at hn
    rcases List.mem_cons.mp h with rfl | h
    · simp
    · have hne : x.1 ≠ p := fun he => hn.1 (he ▸ List.mem_map.mpr ⟨(p, e), h, rfl⟩)
      rw [List.find?_cons_of_neg (by simpa using hne)]
      exact ih hn.2 h

theorem mem_of_at {fs : FS} {p : Path} {e : Entry} (h : fs.at p = some e) : (p, e) ∈ fs := by
  unfold FS.at at h
  rw [Option.map_eq_some_iff] at h
  obtain ⟨x, hx, rfl⟩ := h
  have h1 := List.mem_of_find?_eq_some hx
  have h2 : x.1 = p := by simpa using List.find?_some hx
  rw [← h2]; exact h1

theorem mem_filesBelow {fs : FS} (hn : OnePerPath fs) (dir p : Path) (c : Bytes) :
    (p, c) ∈ filesBelow fs dir ↔ FileAt fs p c ∧ Inside dir p := by
  have hpre : ∀ q : Path, (q.rooted = dir.rooted ∧ q.parts.take dir.parts.length = dir.parts) ↔ Inside dir q := by
    intro q
    refine and_congr_right fun _ => ?_
    constructor
    · intro h
      exact ⟨q.parts.drop dir.parts.length, by conv_rhs => rw [← h, List.length_take]
                                               have : min dir.parts.length q.parts.length = dir.parts.length := by
                                                 have := congrArg List.length h
                                                 rw [List.length_take] at this; exact this
                                               rw [this, List.take_append_drop]⟩
    · rintro ⟨x, hx⟩
      rw [hx, List.take_left]
  unfold filesBelow
  rw [List.mem_filterMap]
  constructor
  · rintro ⟨⟨q, e⟩, hm, he⟩
    cases e with
    | dir => simp at he
    | file content =>
      simp only at he
      split at he
      · next hi =>
        simp only [Option.some.injEq, Prod.mk.injEq] at he
        obtain ⟨rfl, rfl⟩ := he
        exact ⟨at_of_mem hn hm, (hpre q).mp hi⟩
      · simp at he
  · rintro ⟨h1, h2⟩
    refine ⟨(p, .file c), mem_of_at h1, ?_⟩
    simp only
    rw [if_pos ((hpre p).mpr h2)]

theorem filesBelow_nodup {fs : FS} (hn : OnePerPath fs) (dir : Path) : ((filesBelow fs dir).map (·.1)).Nodup := by
  have : ((filesBelow fs dir).map (·.1)).Sublist (fs.map (·.1)) := by
    unfold filesBelow
    clear hn
    induction fs with
    | nil => exact List.Sublist.refl _
    | cons x fs ih =>
      rw [List.filterMap_cons, List.map_cons]
      split
      · exact ih.cons _
      · next y hy =>
        have : y.1 = x.1 := by
          split at hy
          · simp at hy
          · split at hy
            · simp only [Option.some.injEq] at hy; rw [← hy]
            · simp at hy
        rw [List.map_cons, this]
        exact ih.cons_cons _
  exact this.nodup hn

theorem listDumpFiles_columns (m : Machine) (a : Agent) :
    HasColumn (listDumpFiles m a) "name" ((filesBelow a.fs m.dumpDir).map fun f => .text (baseName f.1)) ∧
    HasColumn (listDumpFiles m a) "size" ((filesBelow a.fs m.dumpDir).map fun f => .dec (BitVec.ofNat 64 f.2.length)) ∧
    HasColumn (listDumpFiles m a) "last_modified" ((filesBelow a.fs m.dumpDir).map fun f => .dec (m.fileMillis a.requests f.1)) := by
  unfold listDumpFiles column HasColumn
  refine ⟨?_, ?_, ?_⟩ <;> seek

theorem listBinaryDumpFiles_columns (m : Machine) (a : Agent) :
    HasColumn (listBinaryDumpFiles m a) "name"
      (((filesBelow a.fs m.binaryDir).filter fun f => hasSuffix (baseName f.1) suffix).map fun f => .text (baseName f.1)) ∧
    HasColumn (listBinaryDumpFiles m a) "size"
      (((filesBelow a.fs m.binaryDir).filter fun f => hasSuffix (baseName f.1) suffix).map fun f => .dec (BitVec.ofNat 64 f.2.length)) := by
  unfold listBinaryDumpFiles column HasColumn
  refine ⟨?_, ?_⟩ <;> seek

/-- **C71**: the list of dump files has one row for each file in or below the dump directory and no other, with its name, size and
time of modification. -/
theorem C71_list_is_exact (m : Machine) (a : Agent) (hn : OnePerPath a.fs) (q : Pack) :
    ∃ (t : Table) (files : List (Path × Bytes)), AnswersTable (handle m a (ascii "OBJECT_DUMP_FILE_LIST") q).2 t ∧
      (∀ p c, (p, c) ∈ files ↔ FileAt a.fs p c ∧ Inside m.dumpDir p) ∧ (files.map (·.1)).Nodup ∧
      HasColumn t "name" (files.map fun f => .text (baseName f.1)) ∧
      HasColumn t "size" (files.map fun f => .dec (BitVec.ofNat 64 f.2.length)) ∧
      HasColumn t "last_modified" (files.map fun f => .dec (m.fileMillis a.requests f.1)) :=
  ⟨_, filesBelow a.fs m.dumpDir, by rw [handle_OBJECT_DUMP_FILE_LIST]; rfl, mem_filesBelow hn m.dumpDir,
    filesBelow_nodup hn _, listDumpFiles_columns m a⟩

/-- **C71**: the list of binary dumps has one row for each file in or below their directory whose name ends in "pprof". -/
theorem C71_binary_list_is_exact (m : Machine) (a : Agent) (hn : OnePerPath a.fs) (q : Pack) :
    ∃ (t : Table) (files : List (Path × Bytes)), AnswersTable (handle m a (ascii "OBJECT_LIST_HEAP_DUMP") q).2 t ∧
      (∀ p c, (p, c) ∈ files ↔ FileAt a.fs p c ∧ Inside m.binaryDir p ∧ ascii "pprof" <:+ baseName p) ∧ (files.map (·.1)).Nodup ∧
      HasColumn t "name" (files.map fun f => .text (baseName f.1)) ∧
      HasColumn t "size" (files.map fun f => .dec (BitVec.ofNat 64 f.2.length)) := by
  refine ⟨_, (filesBelow a.fs m.binaryDir).filter fun f => hasSuffix (baseName f.1) suffix,
    by rw [handle_OBJECT_LIST_HEAP_DUMP]; rfl, ?_, ?_, listBinaryDumpFiles_columns m a⟩
  · intro p c
    rw [List.mem_filter, mem_filesBelow hn, and_assoc]
    simp only [hasSuffix, suffix, List.isSuffixOf_iff_suffix]
  · exact ((List.filter_sublist (l := filesBelow a.fs m.binaryDir)).map _).nodup (filesBelow_nodup hn _)

theorem splitByte_none (sep : Byte) (e : Bytes) (h : sep ∉ e) : splitByte sep e = [e] := Config.splitByte_one sep e h

theorem noDotDot_ordinary {name : Bytes} (h : Ordinary name) : NoDotDot name := by
  unfold NoDotDot
  rw [splitByte_none 47 name h.2.2.2]
  simpa using Ne.symm h.2.2.1

theorem join_ordinary (dir : Path) (name : Bytes) (hd : dir.Good) (h : Ordinary name) :
    join dir name = ⟨dir.rooted, dir.parts ++ [name]⟩ := by
  rw [join_parts dir name hd (noDotDot_ordinary h), splitByte_none 47 name h.2.2.2, List.filter_cons_of_pos (by simp [h.1, h.2.1])]
  rfl

/-- **C71**: a file directly in the dump directory is listed under its name, and asking for this name gives its content. -/
theorem C71_listed_name_fetches (m : Machine) (a : Agent) (hd : m.dumpDir.Good) (name content : Bytes)
    (hname : Ordinary name) (hf : FileAt a.fs ⟨m.dumpDir.rooted, m.dumpDir.parts ++ [name]⟩ content) (param : Table)
    (hp : param.get (ascii "name") = .text name) :
    baseName ⟨m.dumpDir.rooted, m.dumpDir.parts ++ [name]⟩ = name ∧
      (handle m a (ascii "OBJECT_DUMP_FILE_DETAIL") (.map ⟨param⟩)).2.blobs.flatten = content := by
  refine ⟨by simp [baseName], ?_⟩
  rw [handle_OBJECT_DUMP_FILE_DETAIL]
  have ht : param.getString (ascii "name") = name := by unfold Table.getString; rw [hp]
  show (streamDumpFileContents _ a.fs m.dumpDir (param.getString (ascii "name"))).flatten = content
  rw [ht]
  unfold streamDumpFileContents
  rw [join_ordinary _ _ hd hname, hf]
  exact (streamLoop_all _ _ 0 content (Nat.le_refl _)).1

/-- **C71**: the same for binary dumps. -/
theorem C71_listed_binary_downloads (m : Machine) (a : Agent) (hd : m.binaryDir.Good) (name content : Bytes)
    (hname : Ordinary name) (hs : hasSuffix name (ascii "pprof") = true)
    (hf : FileAt a.fs ⟨m.binaryDir.rooted, m.binaryDir.parts ++ [name]⟩ content) (param : Table)
    (hp : param.get (ascii "fileName") = .text name) :
    (handle m a (ascii "OBJECT_DOWNLOAD_HEAP_DUMP") (.map ⟨param⟩)).2.blobs.flatten = content := by
  rw [handle_OBJECT_DOWNLOAD_HEAP_DUMP]
  have ht : param.getString (ascii "fileName") = name := by unfold Table.getString; rw [hp]
  show (downloadBinaryDumpFiles a.fs m.binaryDir (param.getString (ascii "fileName"))).flatten = content
  rw [ht]
  exact (C52_download_complete a.fs m.binaryDir name content hs (by rw [join_ordinary _ _ hd hname]; exact hf)).1

/-- **C71**, false in general: a file further below is listed under its last name only, and asking for this name gives nothing. -/
theorem C71_deeper_file_not_fetched (m : Machine) (a : Agent) (hd : m.dumpDir.Good) (sub : List Bytes) (name content : Bytes)
    (hname : Ordinary name) (hf : FileAt a.fs ⟨m.dumpDir.rooted, m.dumpDir.parts ++ sub ++ [name]⟩ content)
    (hno : a.fs.at ⟨m.dumpDir.rooted, m.dumpDir.parts ++ [name]⟩ = none) (param : Table) (hp : param.get (ascii "name") = .text name) :
    baseName ⟨m.dumpDir.rooted, m.dumpDir.parts ++ sub ++ [name]⟩ = name ∧
      (handle m a (ascii "OBJECT_DUMP_FILE_DETAIL") (.map ⟨param⟩)).2.blobs = [] := by
  refine ⟨by simp [baseName], ?_⟩
  rw [handle_OBJECT_DUMP_FILE_DETAIL]
  have ht : param.getString (ascii "name") = name := by unfold Table.getString; rw [hp]
  show streamDumpFileContents _ a.fs m.dumpDir (param.getString (ascii "name")) = []
  rw [ht]
  unfold streamDumpFileContents
  rw [join_ordinary _ _ hd hname, hno]

/-- **C71**: deleting a listed binary dump is answered with success, removes it, and leaves every other file. -/
theorem C71_deleted_is_gone (m : Machine) (a : Agent) (hd : m.binaryDir.Good) (name content : Bytes)
    (hname : Ordinary name) (hs : hasSuffix name (ascii "pprof") = true)
    (hf : FileAt a.fs ⟨m.binaryDir.rooted, m.binaryDir.parts ++ [name]⟩ content) (param : Table)
    (hp : param.get (ascii "delfileName") = .text name) :
    let r := handle m a (ascii "OBJECT_DELETE_HEAP_DUMP") (.map ⟨param⟩)
    (∃ t, AnswersTable r.2 t ∧ t.get (ascii "success") = .bool true) ∧
      r.1.fs.at ⟨m.binaryDir.rooted, m.binaryDir.parts ++ [name]⟩ = none ∧
      ∀ p, p ≠ ⟨m.binaryDir.rooted, m.binaryDir.parts ++ [name]⟩ → r.1.fs.at p = a.fs.at p := by
  intro r
  have ht : param.getString (ascii "delfileName") = name := by unfold Table.getString; rw [hp]
  have hne : name ≠ [] := hname.1
  have hj := join_ordinary _ _ hd hname
  have hr : r = finish ({ a with fs := a.fs.filter fun e => e.1 ≠ ⟨m.binaryDir.rooted, m.binaryDir.parts ++ [name]⟩ },
      withPack (MapPack.put (MapPack.put [] (ascii "success") (.value (.bool true))) (ascii "msg") (.string (ascii "success")))) := by
    show handle m a _ _ = _
    rw [handle_OBJECT_DELETE_HEAP_DUMP]
    simp only [ht]
    unfold deleteBinaryDumpFiles
    rw [if_neg (by simp [hne, suffix, hs]), hj]
    unfold FS.remove
    rw [hf]
  rw [hr]
  refine ⟨⟨_, rfl, ?_⟩, ?_, fun p hp => find_filter_ne a.fs p _ hp⟩
  · seek
  · show FS.at (a.fs.filter _) _ = none
    unfold FS.at
    rw [Option.map_eq_none_iff, List.find?_eq_none]
    intro x hx
    simpa using (List.mem_filter.mp hx).2

/-- No event but a thread dump or a deletion touches the files, and none makes a path occur twice. -/
theorem onePerPath_step (m : Machine) (a : Agent) (h : OnePerPath a.fs) (e : Event) : OnePerPath (a.step m e).fs := by
  have hfilter : ∀ f : Path × Entry → Bool, OnePerPath (a.fs.filter f) := fun f =>
    ((List.filter_sublist (l := a.fs) (p := f)).map _).nodup h
  cases e with
  | call c => exact h
  | edit t => exact h
  | announce => exact h
  | refresh =>
    show OnePerPath ((a.refresh m).getD a).fs
    unfold Agent.refresh
    split <;> exact h
  | request cmd pack =>
    let P : Agent × Answer → Prop := fun r => OnePerPath r.1.fs
    have hsame : ∀ (x : Answer), P (a, x) := fun x => h
    have hin : ∀ code : TM Table, P (inWorld a code) := by
      intro code; show OnePerPath (inWorld a code).1.fs; unfold inWorld; split <;> exact h
    have hfin : ∀ r : Agent × Answer, P r → P (finish r) := fun r h => h
    have main : P (handle m a cmd pack) := by
      show P (finish (if cmd = ascii "KEEP_ALIVE" then _ else _))
      apply hfin
      refine pick (fun _ => hsame _) fun _ => ?_
      refine pick (fun _ => h) fun _ => ?_
      refine pick (fun _ => ?_) fun _ => ?_
      · show OnePerPath (threadDump m a).2.fs
        unfold threadDump OnePerPath
        simp only [List.map_cons, List.nodup_cons]
        refine ⟨?_, hfilter _⟩
        intro hm
        obtain ⟨x, hx, he⟩ := List.mem_map.mp hm
        have := (List.mem_filter.mp hx).2
        simp only [decide_eq_true_eq] at this
        exact this he
      refine pick (fun _ => hsame _) fun _ => ?_
      refine pick (fun _ => by split <;> exact hsame _) fun _ => ?_
      refine pick (fun _ => hsame _) fun _ => ?_
      refine pick (fun _ => hsame _) fun _ => ?_
      refine pick (fun _ => hsame _) fun _ => ?_
      refine pick (fun _ => by split <;> exact hsame _) fun _ => ?_
      refine pick (fun _ => ?_) fun _ => ?_
      · split
        · next p =>
          show OnePerPath (deleteBinaryDumpFiles _ a.fs m.binaryDir _).2
          unfold deleteBinaryDumpFiles
          split
          · exact h
          · split
            · exact h
            · next fs hr =>
              unfold FS.remove at hr
              split at hr
              · simp at hr
              · split at hr
                · simp at hr
                · simp only [Option.some.injEq] at hr; subst hr; exact hfilter _
              · simp only [Option.some.injEq] at hr; subst hr; exact hfilter _
        · exact hsame _
      refine pick (fun _ => hsame _) fun _ => ?_
      refine pick (fun _ => hsame _) fun _ => ?_
      refine pick (fun _ => hsame _) fun _ => ?_
      refine pick (fun _ => hsame _) fun _ => ?_
      refine pick (fun _ => ?_) fun _ => ?_
      · have key : (saveConfig m a pack).2.fs = a.fs := by
          unfold saveConfig
          split
          · extract_lets result text
            unfold saveConfigText
            by_cases hw : m.writable a.requests = true
            · simp only [if_pos hw]
              unfold Agent.refresh
              split
              · rfl
              · next a' hr =>
                split at hr
                · simp at hr
                · simp only [Option.some.injEq] at hr; subst hr; rfl
            · simp only [if_neg hw]
          · rfl
        split
        · next heq => rw [heq] at key; show OnePerPath _; simp only at key ⊢; rw [key]; exact h
        · next heq => rw [heq] at key; show OnePerPath _; simp only at key ⊢; rw [key]; exact h
      refine pick (fun _ => hsame _) fun _ => ?_
      refine pick (fun _ => hsame _) fun _ => ?_
      refine pick (fun _ => hsame _) fun _ => ?_
      refine pick (fun _ => hin _) fun _ => ?_
      refine pick (fun _ => hin _) fun _ => ?_
      exact hsame _
    exact main

/-- **C71**: the condition of the theorems above, that no path occurs twice, is kept by every life. -/
theorem C71_paths_stay_distinct (m : Machine) (a : Agent) (h : OnePerPath a.fs) (es : List Event) : OnePerPath (a.life m es).fs := by
  induction es generalizing a with
  | nil => exact h
  | cons e es ih => exact ih _ (onePerPath_step m a h e)

/-! ## The hypotheses hold of a concrete agent -/

namespace Demo

def files : FS := [(⟨true, [ascii "d", ascii "x.log"]⟩, .file [1, 2, 3]), (⟨true, [ascii "d", ascii "s", ascii "y.log"]⟩, .file [4]),
  (⟨true, [ascii "b", ascii "m.pprof"]⟩, .file [5])]

def agentF : Agent := { agent with fs := files }

example : OnePerPath agentF.fs := by unfold OnePerPath; decide +kernel
example : machine.dumpDir.Good ∧ machine.binaryDir.Good := by
  refine ⟨fun e he => ?_, fun e he => ?_⟩ <;>
    (simp only [machine, List.mem_cons, List.not_mem_nil, or_false] at he; subst he; refine ⟨?_, ?_, ?_, ?_⟩ <;> decide +kernel)
example : Ordinary (ascii "x.log") := by refine ⟨?_, ?_, ?_, ?_⟩ <;> decide +kernel
example : FileAt agentF.fs ⟨true, [ascii "d", ascii "x.log"]⟩ [1, 2, 3] := by unfold FileAt; decide +kernel
example : FileAt agentF.fs ⟨true, [ascii "d", ascii "s", ascii "y.log"]⟩ [4] ∧
  agentF.fs.at ⟨true, [ascii "d", ascii "y.log"]⟩ = none := by unfold FileAt; decide +kernel
example : (handle machine agentF (ascii "OBJECT_DUMP_FILE_DETAIL") (.map ⟨[(ascii "name", .text (ascii "x.log"))]⟩)).2.blobs = [[1, 2, 3]] := by
  decide +kernel

end Demo
end Handlers
end Scouter
