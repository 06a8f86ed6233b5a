import Verif.Props.Listing
import Verif.Model.Profiling
/-! # C84: what a collector gets when it triggers a dump or a profile -/
namespace Scouter
namespace Handlers
open Trace TM Config Tcp Dump Spec

/-- A path as it is written: its elements with slashes between them, and one in front if it starts at the root. -/
def written (p : Path) : Bytes := (if p.rooted then [47] else []) ++ joinByte 47 p.parts

theorem foldl_join (t : Bytes) (es : List Bytes) (ht : t ≠ []) :
    es.foldl (fun t e => if t = [] then e else t ++ 47 :: e) t = joinByte 47 (t :: es) := by
  induction es generalizing t with
  | nil => rfl
  | cons e es ih =>
    rw [List.foldl_cons, if_neg ht, ih _ (by simp)]
    cases es with
    | nil => simp [joinByte]
    | cons x xs => simp [joinByte]

theorem text_written (p : Path) (hg : p.Good) (hp : p.parts ≠ []) : Path.text p = written p := by
  obtain ⟨r, parts⟩ := p
  cases parts with
  | nil => exact absurd rfl hp
  | cons e es =>
    have he : e ≠ [] := (hg e (by simp)).1
    unfold Path.text written
    simp only [List.foldl_cons, if_true]
    rw [foldl_join e es he]
    have hj : joinByte 47 (e :: es) ≠ [] := by
      cases es with
      | nil => simpa [joinByte] using he
      | cons x xs => simp [joinByte]
    cases r with
    | true => simp
    | false =>
      simp only [Bool.false_eq_true, if_false, List.nil_append]
      exact if_neg hj

theorem ordinary_name (a s b : Bytes) (ha : 2 < a.length) (h1 : (47 : Byte) ∉ a) (h2 : (47 : Byte) ∉ s) (h3 : (47 : Byte) ∉ b) :
    Ordinary (a ++ s ++ b) := by
  have hl : 2 < (a ++ s ++ b).length := by simp; omega
  refine ⟨?_, ?_, ?_, fun h => (List.mem_append.mp h).elim (fun h => (List.mem_append.mp h).elim h1 h2) h3⟩ <;> intro h <;> rw [h] at hl <;> revert hl <;> decide +kernel

/-- The name of the file of a thread dump. -/
def dumpName (stamp : Bytes) : Bytes := ascii "go_dump_" ++ stamp ++ ascii ".log"

theorem dumpName_ordinary (stamp : Bytes) (h : (47 : Byte) ∉ stamp) : Ordinary (dumpName stamp) :=
  ordinary_name _ _ _ (by decide +kernel) (by decide +kernel) h (by decide +kernel)

/-- **C84**: triggering a thread dump makes the file `go_dump_<time>.log` in the dump directory (with the stacks as far as C65
says), touches no other file and nothing else of the agent, and answers with the full path of the file. -/
theorem C84_thread_dump (m : Machine) (a : Agent) (q : Pack) (hd : m.dumpDir.Good) (hs : (47 : Byte) ∉ m.stampText a.requests) :
    let r := handle m a (ascii "TRIGGER_THREAD_DUMP") q
    let p : Path := ⟨m.dumpDir.rooted, m.dumpDir.parts ++ [dumpName (m.stampText a.requests)]⟩
    AnswersTable r.2 [(ascii "name", .text (written p))] ∧
    FileAt r.1.fs p (if (m.stacks a.requests).length ≤ 4096 then [] else m.stacks a.requests) ∧
    (∀ p', p' ≠ p → r.1.fs.at p' = a.fs.at p') ∧ r.1.world = a.world ∧ r.1.conf = a.conf ∧ r.1.text = a.text := by
  have ho := dumpName_ordinary _ hs
  have hj : join m.dumpDir (ascii "go_dump_" ++ m.stampText a.requests ++ ascii ".log") =
      ⟨m.dumpDir.rooted, m.dumpDir.parts ++ [dumpName (m.stampText a.requests)]⟩ := join_ordinary _ _ hd ho
  intro r p
  have hr : r = finish ((threadDump m a).2, withPack (threadDump m a).1) := handle_TRIGGER_THREAD_DUMP m a q
  have ht : threadDump m a = ([(ascii "name", .text (written p))],
      { a with fs := (p, .file (heavyAllStackTrace (m.stacks a.requests))) :: a.fs.filter fun e => e.1 ≠ p }) := by
    have key : Path.text p = written p → threadDump m a = ([(ascii "name", .text (written p))],
      { a with fs := (p, .file (heavyAllStackTrace (m.stacks a.requests))) :: a.fs.filter fun e => e.1 ≠ p }) := by
      intro htext
      unfold threadDump
      rw [hj]
      show (MapPack.put [] (ascii "name") (.string (Path.text p)), _) = _
      rw [htext]
      rfl
    refine key (text_written p ?_ ?_)
    · intro e he
      rcases List.mem_append.mp he with h | h
      · exact hd e h
      · simp only [List.mem_singleton] at h; rw [h]; exact ho
    · simp [p]
  rw [hr, ht, ← C65_thread_dump_lost]
  refine ⟨rfl, ?_, ?_, rfl, rfl, rfl⟩
  · show FS.at (_ :: _) p = _
    simp [FS.at]
  · intro p' hp'
    show FS.at (_ :: _) p' = _
    rw [← find_filter_ne a.fs p' p hp']
    unfold FS.at
    rw [List.find?_cons_of_neg (by simpa using Ne.symm hp')]

/-- **C84**: asking for the file by its own name gives what it holds... -/
theorem C84_dump_fetched_by_name (m : Machine) (a : Agent) (q : Pack) (hd : m.dumpDir.Good) (hs : (47 : Byte) ∉ m.stampText a.requests)
    (param : Table) (hp : param.get (ascii "name") = .text (dumpName (m.stampText a.requests))) :
    (handle m (handle m a (ascii "TRIGGER_THREAD_DUMP") q).1 (ascii "OBJECT_DUMP_FILE_DETAIL") (.map ⟨param⟩)).2.blobs.flatten =
      if (m.stacks a.requests).length ≤ 4096 then [] else m.stacks a.requests :=
  (C71_listed_name_fetches m _ hd _ _ (dumpName_ordinary _ hs) (C84_thread_dump m a q hd hs).2.1 param hp).2

/-- ...but **C84**, as found: asking for it by the name the trigger answered looks in another place (the directory's path is put
in front of the full path once more), and gives nothing when nothing is there. -/
theorem C84_answered_name_not_fetched (m : Machine) (a : Agent) (q : Pack) (hd : m.dumpDir.Good) (hs : (47 : Byte) ∉ m.stampText a.requests)
    (hne : m.dumpDir.parts ≠ [])
    (hno : a.fs.at ⟨m.dumpDir.rooted, m.dumpDir.parts ++ m.dumpDir.parts ++ [dumpName (m.stampText a.requests)]⟩ = none) :
    ∃ name, AnswersTable (handle m a (ascii "TRIGGER_THREAD_DUMP") q).2 [(ascii "name", .text name)] ∧
      ∀ param : Table, param.get (ascii "name") = .text name →
        (handle m (handle m a (ascii "TRIGGER_THREAD_DUMP") q).1 (ascii "OBJECT_DUMP_FILE_DETAIL") (.map ⟨param⟩)).2.blobs = [] := by
  obtain ⟨h1, -, h3, -⟩ := C84_thread_dump m a q hd hs
  refine ⟨_, h1, fun param hp => ?_⟩
  generalize (handle m a (ascii "TRIGGER_THREAD_DUMP") q).1 = b at *
  rw [handle_OBJECT_DUMP_FILE_DETAIL]
  generalize hn : dumpName (m.stampText a.requests) = n at *
  have ho : Ordinary n := hn ▸ dumpName_ordinary _ hs
  have hg : ∀ e ∈ m.dumpDir.parts ++ [n], Ordinary e := by
    intro e he
    rcases List.mem_append.mp he with h | h
    · exact hd e h
    · simp only [List.mem_singleton] at h; rw [h]; exact ho
  have ht : param.getString (ascii "name") = written ⟨m.dumpDir.rooted, m.dumpDir.parts ++ [n]⟩ := by unfold Table.getString; rw [hp]
  have hsp : splitByte 47 (written ⟨m.dumpDir.rooted, m.dumpDir.parts ++ [n]⟩) =
      (if m.dumpDir.rooted then [[]] else []) ++ (m.dumpDir.parts ++ [n]) := by
    unfold written
    cases m.dumpDir.rooted with
    | false => simpa using splitByte_joinByte 47 (m.dumpDir.parts ++ [n]) (by simp) fun e he => (hg e he).2.2.2
    | true =>
      have := splitByte_append 47 [] (joinByte 47 (m.dumpDir.parts ++ [n])) (by simp)
      rw [splitByte_joinByte 47 (m.dumpDir.parts ++ [n]) (by simp) fun e he => (hg e he).2.2.2] at this
      simpa using this
  have hj : join m.dumpDir (written ⟨m.dumpDir.rooted, m.dumpDir.parts ++ [n]⟩) =
      ⟨m.dumpDir.rooted, m.dumpDir.parts ++ m.dumpDir.parts ++ [n]⟩ := by
    have hnd : NoDotDot (written ⟨m.dumpDir.rooted, m.dumpDir.parts ++ [n]⟩) := by
      unfold NoDotDot
      rw [hsp]
      intro hm
      rcases List.mem_append.mp hm with h | h
      · split at h
        · simp only [List.mem_singleton] at h; revert h; decide +kernel
        · cases h
      · exact (hg _ h).2.2.1 rfl
    rw [join_parts _ _ hd hnd, hsp, List.filter_append]
    have e1 : (if m.dumpDir.rooted = true then [([] : Bytes)] else []).filter (fun e => e ≠ [] ∧ e ≠ ascii ".") = [] := by
      split <;> simp
    have e2 : (m.dumpDir.parts ++ [n]).filter (fun e => e ≠ [] ∧ e ≠ ascii ".") = m.dumpDir.parts ++ [n] :=
      List.filter_eq_self.mpr fun e he => by simpa using ⟨(hg e he).1, (hg e he).2.1⟩
    simp only [e1, e2, List.nil_append, List.append_assoc]
  show streamDumpFileContents _ b.fs m.dumpDir (param.getString (ascii "name")) = []
  rw [ht]
  unfold streamDumpFileContents
  rw [hj, h3, hno]
  intro h
  have := congrArg (fun p : Path => p.parts.length) h
  simp at this
  exact hne this

/-- **C84**: the three triggers of binary profiles answer at once that it worked and takes about thirty seconds, whatever the
state and the parameters, so also when it will not work (C85); those of textual ones answer nothing. -/
theorem C84_profile_triggers (m : Machine) (a : Agent) (cmd : Bytes) (q : Pack) (k : Profiling.Kind) (hk : Profiling.kindOf cmd = some k) :
    let r := handle m a cmd q
    r.1 = { a with requests := a.requests + 1 } ∧
    (k = .cpu ∨ k = .blockBinary ∨ k = .mutexBinary →
      AnswersTable r.2 [(ascii "success", .bool true), (ascii "msg", .text (ascii "Success. it take about 30 seconds."))]) ∧
    (k = .block ∨ k = .mutex → AnswersNothing r.2) := by
  unfold Profiling.kindOf at hk
  split at hk
  · next h =>
    cases hk
    rw [h, show handle m a (ascii "OBJECT_CALL_CPU_PROFILE") q = finish (a, withPack triggered) from congrArg finish
      ((if_neg (by decide +kernel)).trans <| (if_neg (by decide +kernel)).trans <| (if_neg (by decide +kernel)).trans <|
      (if_neg (by decide +kernel)).trans <| (if_neg (by decide +kernel)).trans <| (if_neg (by decide +kernel)).trans <|
      (if_neg (by decide +kernel)).trans <| (if_neg (by decide +kernel)).trans <| (if_neg (by decide +kernel)).trans <|
      (if_neg (by decide +kernel)).trans <| if_pos rfl)]
    exact ⟨rfl, fun _ => rfl, fun h => by simp at h⟩
  split at hk
  · next h =>
    cases hk
    rw [h, show handle m a (ascii "TRIGGER_BLOCK_PROFILE") q = finish (a, nothing) from congrArg finish
      ((if_neg (by decide +kernel)).trans <| (if_neg (by decide +kernel)).trans <| (if_neg (by decide +kernel)).trans <|
      (if_neg (by decide +kernel)).trans <| (if_neg (by decide +kernel)).trans <| if_pos rfl)]
    exact ⟨rfl, fun h => by simp at h, fun _ => rfl⟩
  split at hk
  · next h =>
    cases hk
    rw [h, show handle m a (ascii "OBJECT_CALL_BLOCK_PROFILE") q = finish (a, withPack triggered) from congrArg finish
      ((if_neg (by decide +kernel)).trans <| (if_neg (by decide +kernel)).trans <| (if_neg (by decide +kernel)).trans <|
      (if_neg (by decide +kernel)).trans <| (if_neg (by decide +kernel)).trans <| (if_neg (by decide +kernel)).trans <|
      (if_neg (by decide +kernel)).trans <| (if_neg (by decide +kernel)).trans <| (if_neg (by decide +kernel)).trans <|
      (if_neg (by decide +kernel)).trans <| (if_neg (by decide +kernel)).trans <| if_pos rfl)]
    exact ⟨rfl, fun _ => rfl, fun h => by simp at h⟩
  split at hk
  · next h =>
    cases hk
    rw [h, show handle m a (ascii "TRIGGER_MUTEX_PROFILE") q = finish (a, nothing) from congrArg finish
      ((if_neg (by decide +kernel)).trans <| (if_neg (by decide +kernel)).trans <| (if_neg (by decide +kernel)).trans <|
      (if_neg (by decide +kernel)).trans <| (if_neg (by decide +kernel)).trans <| (if_neg (by decide +kernel)).trans <| if_pos rfl)]
    exact ⟨rfl, fun h => by simp at h, fun _ => rfl⟩
  split at hk
  · next h =>
    cases hk
    rw [h, show handle m a (ascii "OBJECT_CALL_MUTEX_PROFILE") q = finish (a, withPack triggered) from congrArg finish
      ((if_neg (by decide +kernel)).trans <| (if_neg (by decide +kernel)).trans <| (if_neg (by decide +kernel)).trans <|
      (if_neg (by decide +kernel)).trans <| (if_neg (by decide +kernel)).trans <| (if_neg (by decide +kernel)).trans <|
      (if_neg (by decide +kernel)).trans <| (if_neg (by decide +kernel)).trans <| (if_neg (by decide +kernel)).trans <|
      (if_neg (by decide +kernel)).trans <| (if_neg (by decide +kernel)).trans <| (if_neg (by decide +kernel)).trans <| if_pos rfl)]
    exact ⟨rfl, fun _ => rfl, fun h => by simp at h⟩
  · cases hk

/-! ## Non-vacuity -/

namespace Demo

example : (47 : Byte) ∉ machine.stampText agentF.requests := by decide +kernel
example : machine.dumpDir.parts ≠ [] := by decide +kernel
example : agentF.fs.at ⟨machine.dumpDir.rooted, machine.dumpDir.parts ++ machine.dumpDir.parts ++ [dumpName (machine.stampText agentF.requests)]⟩ = none := by
  decide +kernel
example : Profiling.kindOf (ascii "OBJECT_CALL_MUTEX_PROFILE") = some .mutexBinary := by decide +kernel

end Demo
end Handlers
end Scouter
