import Verif.Model.Goroutine
import Verif.Props.Conf
/-!
# C105: the number and the stack of a goroutine
-/
namespace Scouter
namespace Goroutine

/-! ## Specification -/

/-- The name of the file at a path: what follows the last slash. -/
def IsFile (path file : Bytes) : Prop := 47 ∉ file ∧ (path = file ∨ ∃ dir, path = dir ++ 47 :: file)

/-- The line for a frame; a frame of no function, or of one without a name, has none. -/
def lineOf (file : Bytes → Bytes) : Option Frame → Option Bytes
  | none => none
  | some f => if f.name = [] then none else some (f.name ++ ascii " " ++ file f.path ++ ascii ":" ++ formatInt 10 f.line)

/-! ## Proofs -/

open Config Spec in
theorem formatNat_length (k u : Nat) (h : u < 10 ^ (k + 1)) : (formatNat 10 u).length ≤ k + 1 := by
  induction k generalizing u with
  | zero => rw [formatNat, dif_pos (by omega)]; simp
  | succ k ih =>
    rw [formatNat]
    split
    · simp
    · have := ih (u / 10) (by rw [Nat.div_lt_iff_lt_mul (by decide), ← Nat.pow_succ]; exact h)
      simp only [List.length_append, List.length_singleton]
      omega

open Config Spec in
theorem digits_not_space (u : Nat) : ∀ b ∈ formatNat 10 u, isSpace b = false := by
  intro b hb
  have := List.all_eq_true.1 (formatNat_digits u).1 b hb
  unfold isDigit at this
  unfold isSpace
  simp only [decide_eq_true_eq] at this
  simp only [decide_eq_false_iff_not, not_or, not_and, Nat.not_le]
  exact ⟨fun e => by subst e; simp at this, fun _ => by omega⟩

theorem firstField_of {f rest : Bytes} (hne : f ≠ []) (hf : ∀ b ∈ f, isSpace b = false) (hr : rest = [] ∨ ∃ r, rest = 32 :: r) :
    firstField (f ++ rest) = .ok f := by
  have h1 : (f ++ rest).dropWhile isSpace = f ++ rest := by
    cases f with
    | nil => exact absurd rfl hne
    | cons b bs => rw [List.cons_append, List.dropWhile_cons_of_neg]; simp [hf b List.mem_cons_self]
  unfold firstField
  simp only [h1]
  rw [if_neg (by simp [hne])]
  congr 1
  rw [List.takeWhile_append_of_pos (by simpa using hf)]
  rcases hr with rfl | ⟨r, rfl⟩
  · simp
  · rw [List.takeWhile_cons_of_neg (by decide)]
    simp

theorem isFile_split (p : Bytes) : IsFile p (splitFile p) := by
  refine ⟨?_, ?_⟩
  · unfold splitFile
    intro h
    have := List.all_eq_true.1 (List.all_takeWhile (p := (· ≠ (47 : Byte))) (l := p.reverse)) _ (List.mem_reverse.1 h)
    simp at this
  · unfold splitFile
    have h := List.takeWhile_append_dropWhile (p := (· ≠ (47 : Byte))) (l := p.reverse)
    cases hd : p.reverse.dropWhile (· ≠ (47 : Byte)) with
    | nil =>
      left
      rw [hd, List.append_nil] at h
      rw [h, List.reverse_reverse]
    | cons b bs =>
      right
      have hb : b = 47 := by
        have := List.head?_dropWhile_not (p := (· ≠ (47 : Byte))) p.reverse
        rw [hd] at this
        simpa using this
      subst hb
      refine ⟨bs.reverse, ?_⟩
      have := congrArg List.reverse h
      rw [hd, List.reverse_append, List.reverse_reverse] at this
      simpa using this.symm

theorem isFile_unique {p f g : Bytes} (hf : IsFile p f) (hg : IsFile p g) : f = g := by
  have key : ∀ {a b c d : Bytes}, (47 : Byte) ∉ b → 47 ∉ d → a ++ 47 :: b = c ++ 47 :: d → b = d := by
    intro a b c d hb hd h
    rcases List.append_eq_append_iff.1 h with ⟨x, hx, hy⟩ | ⟨x, hx, hy⟩
    · cases x with
      | nil => simpa using hy
      | cons y ys =>
        injection hy with _ hy
        exact absurd (by rw [hy]; simp) hb
    · cases x with
      | nil => simpa using hy.symm
      | cons y ys =>
        injection hy with _ hy
        exact absurd (by rw [hy]; simp) hd
  obtain ⟨hf1, hf2⟩ := hf
  obtain ⟨hg1, hg2⟩ := hg
  rcases hf2 with rfl | ⟨a, rfl⟩ <;> rcases hg2 with h | ⟨b, h⟩
  · exact h
  · exact absurd (by rw [h]; simp) hf1
  · exact absurd (by rw [← h]; simp) hg1
  · exact key hf1 hg1 h

theorem none_lines (file : Bytes → Bytes) (n : Nat) : (List.replicate n (none : Option Frame)).filterMap (lineOf file) = [] := by
  induction n with
  | zero => rfl
  | succ n ih => rw [List.replicate_succ, List.filterMap_cons]; exact ih

theorem traceLoop_eq (es : List (Option Frame)) (sb : Bytes) :
    traceLoop sb es = if sb = [] then List.intercalate (ascii "\n") (es.filterMap (lineOf splitFile))
      else sb ++ ((es.filterMap (lineOf splitFile)).map (ascii "\n" ++ ·)).flatten := by
  induction es generalizing sb with
  | nil => by_cases h : sb = [] <;> simp [traceLoop, h, List.intercalate]
  | cons e es ih =>
    cases e with
    | none => rw [traceLoop, ih]; simp [List.filterMap_cons, lineOf]
    | some f =>
      by_cases hn : f.name = []
      · rw [traceLoop, if_neg (by simpa using hn), ih]; simp [lineOf, hn]
      · simp only [traceLoop, ne_eq, hn, not_false_iff, if_true]
        rw [ih]
        have hlen : ∀ str : Bytes, sb ++ (if sb.length = 0 then f.name ++ str else ascii "\n" ++ (f.name ++ str)) ≠ [] := by
          intro str
          split <;> simp [hn, ascii]
        have e : ∀ (a b c d : Bytes), f.name ++ a ++ b ++ c ++ d = f.name ++ (a ++ b ++ c ++ d) := by simp
        rw [e, if_neg (hlen _)]
        by_cases hs : sb = []
        · subst hs
          simp only [List.length_nil, if_true, List.nil_append, lineOf, hn, if_false, List.filterMap_cons]
          rw [e]
          generalize f.name ++ (ascii " " ++ splitFile f.path ++ ascii ":" ++ formatInt 10 ↑f.line) = x
          generalize List.filterMap (lineOf splitFile) es = ls
          clear ih hlen e hn
          induction ls generalizing x with
          | nil => simp [List.intercalate]
          | cons y ls ih =>
            have := ih y
            simp only [List.intercalate, List.intersperse_cons_cons, List.flatten_cons, List.map_cons] at this ⊢
            rw [← this]
            simp
        · rw [if_neg hs]
          have : sb.length ≠ 0 := by simpa using hs
          simp only [this, if_false, lineOf, hn, List.filterMap_cons, List.map_cons, List.flatten_cons]
          simp
end Goroutine
open Goroutine

/-- **C105**.  The number of a goroutine is what `runtime.Stack` says, for every number and whatever follows it. -/
theorem C105_goroutine_number (registered : Bool) (id : Nat) (hid : id < 2 ^ 63) (rest : Bytes) :
    goid registered (ascii "goroutine " ++ formatInt 10 id ++ ascii " " ++ rest) = .number id := by
  have hfmt : formatInt 10 (id : Int) = formatNat 10 id := by unfold formatInt; rw [if_neg (by omega)]; simp
  have hlen := formatNat_length 18 id (by omega)
  have h0 : (ascii "goroutine ").length = 10 := by decide +kernel
  have hsp : ascii " " = [32] := by decide +kernel
  have htake : (ascii "goroutine " ++ formatInt 10 id ++ ascii " " ++ rest).take 64 =
      ascii "goroutine " ++ (formatNat 10 id ++ 32 :: rest.take (53 - (formatNat 10 id).length)) := by
    rw [hfmt, hsp]
    rw [show ascii "goroutine " ++ formatNat 10 id ++ [32] ++ rest = (ascii "goroutine " ++ (formatNat 10 id ++ [32])) ++ rest by simp]
    rw [List.take_append]
    rw [List.take_of_length_le (by simp [h0]; omega)]
    simp only [List.length_append, h0, List.length_singleton]
    rw [show 64 - (10 + ((formatNat 10 id).length + 1)) = 53 - (formatNat 10 id).length by omega]
    simp
  have htrim : ∀ x, trimPrefix (ascii "goroutine " ++ x) (ascii "goroutine ") = x := by
    intro x
    unfold trimPrefix
    rw [if_pos (List.prefix_append _ _), List.drop_left]
  have hne : formatNat 10 id ≠ [] := by
    obtain ⟨-, -, c, cs, e, -⟩ := Config.formatNat_digits id
    rw [e]; simp
  have hnum : Config.parseInt (formatNat 10 id) = some (id : Int) := by
    rw [Config.parseInt_spec, ← hfmt]
    exact Config.wholeNumber_format _ (by omega)
  unfold goid
  simp only [htake, htrim, firstField_of hne (digits_not_space id) (.inr ⟨_, rfl⟩), Go.ok_bind, hnum]

/-- Whatever the text is: once a reporter is registered the call returns, with a number of 64 bits or, having reported the panic, with none. -/
theorem C105_never_crashes_once_registered (stack : Bytes) :
    (∃ id, goid true stack = .number id ∧ -2 ^ 63 ≤ id ∧ id < 2 ^ 63) ∨ goid true stack = .reported := by
  unfold goid
  dsimp only
  cases hf : firstField (trimPrefix (stack.take 64) (ascii "goroutine ")) with
  | panic => exact .inr rfl
  | fuel => exact .inr rfl
  | ok f =>
    simp only [Go.ok_bind]
    cases hp : Config.parseInt f with
    | none => exact .inr rfl
    | some id =>
      rw [Config.parseInt_spec] at hp
      exact .inl ⟨id, rfl, Config.wholeNumber_range hp⟩

/-- As found: before a reporter is registered a text that is not understood ends the program's goroutine. -/
theorem C105_crashes_before_registration (stack : Bytes) : goid false stack = .crashed ↔ goid true stack = .reported := by
  unfold goid
  dsimp only
  split <;> simp

/-- The stack of a goroutine: one line for each named frame among the first `count` (one, for a count of zero), in order, one under the other. -/
theorem C105_stack_lines (file : Bytes → Bytes) (hfile : ∀ p, IsFile p (file p)) (count : Nat) (frames : List (Option Goroutine.Frame)) :
    stackTrace count frames = .ok (List.intercalate (ascii "\n") ((frames.take (max 1 count)).filterMap (lineOf file))) := by
  have hf : file = splitFile := funext fun p => isFile_unique (hfile p) (isFile_split p)
  subst hf
  unfold stackTrace
  have hpc : (if (count : Int) = 0 then 1 else (count : Int)) = ((max 1 count : Nat) : Int) := by
    split <;> omega
  dsimp only
  rw [hpc, if_neg (by omega)]
  simp only [Int.toNat_natCast]
  cases frames with
  | nil => simp [List.intercalate]
  | cons e es =>
    rw [if_neg (by simp), traceLoop_eq, if_pos rfl]
    congr 2
    rw [List.filterMap_append, none_lines splitFile, List.append_nil]
    congr 1
    rw [Nat.min_def]
    split
    · rfl
    · rw [List.take_of_length_le (by omega), List.take_of_length_le (by omega)]

/-! ## Concrete cases -/

namespace Goroutine.Demo

example : goid false (ascii "goroutine 17 [running]:\nmain.main()") = .number 17 := by
  have := C105_goroutine_number false 17 (by decide) (ascii "[running]:\nmain.main()")
  refine Eq.trans ?_ this
  congr 1
  have : formatInt 10 ((17 : Nat) : Int) = ascii "17" := by
    simp [formatInt, formatNat, digitByte, ascii]
  rw [this]
  decide +kernel

example : goid true (ascii "thread 17") = .reported := by decide +kernel
example : goid false (ascii "thread 17") = .crashed := by decide +kernel

def frames : List (Option Goroutine.Frame) := [some ⟨ascii "a.b", ascii "/x/y.go", 12⟩, none, some ⟨ascii "c", ascii "z.go", 3⟩]

example : (frames.take 100).filterMap (lineOf splitFile) =
    [ascii "a.b" ++ ascii " " ++ ascii "y.go" ++ ascii ":" ++ formatInt 10 12, ascii "c" ++ ascii " " ++ ascii "z.go" ++ ascii ":" ++ formatInt 10 3] := by
  have h1 : splitFile (ascii "/x/y.go") = ascii "y.go" := by decide +kernel
  have h2 : splitFile (ascii "z.go") = ascii "z.go" := by decide +kernel
  have h3 : ascii "a.b" ≠ [] := by decide +kernel
  have h4 : ascii "c" ≠ [] := by decide +kernel
  simp [frames, lineOf, h1, h2, h3, h4, List.filterMap_cons]

example (p : Bytes) : IsFile p (splitFile p) := isFile_split p

end Goroutine.Demo
end Scouter
