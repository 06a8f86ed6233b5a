import Verif.Spec.Config
import Verif.Spec.Services
import Verif.Props.Text
import Verif.Props.Sampling
import Mathlib.Data.List.Nodup
/-!
# C47, C48, C63, C64: the configuration
-/
namespace Scouter
open Config Spec

namespace Config

/-! ## Environment -/

theorem splitByte_head (sep : Byte) (e : Bytes) : ∃ rest, splitByte sep e = e.takeWhile (· ≠ sep) :: rest := by
  induction e with
  | nil => exact ⟨[], rfl⟩
  | cons c cs ih =>
    obtain ⟨rest, hr⟩ := ih
    by_cases hc : c = sep
    · exact ⟨splitByte sep cs, by simp [splitByte, hc]⟩
    · exact ⟨rest, by simp [splitByte, hc, hr]⟩

theorem splitByte_second (sep : Byte) (e : Bytes) (h : sep ∈ e) :
    ∃ rest, splitByte sep e = e.takeWhile (· ≠ sep) :: ((e.dropWhile (· ≠ sep)).drop 1).takeWhile (· ≠ sep) :: rest := by
  induction e with
  | nil => simp at h
  | cons c cs ih =>
    by_cases hc : c = sep
    · obtain ⟨rest, hr⟩ := splitByte_head sep cs
      exact ⟨rest, by simp [splitByte, hc, hr]⟩
    · obtain ⟨rest, hr⟩ := ih (by simpa [Ne.symm hc] using h)
      exact ⟨rest, by simp [splitByte, hc, hr]⟩

theorem splitByte_two (e : Bytes) (h : (61 : Byte) ∈ e) : ∃ rest, splitByte 61 e = envName e :: envText e :: rest :=
  splitByte_second 61 e h

theorem splitByte_one (sep : Byte) (e : Bytes) (h : sep ∉ e) : splitByte sep e = [e] := by
  induction e with
  | nil => rfl
  | cons c cs ih =>
    simp only [List.mem_cons, not_or] at h
    have hc : ¬ c = sep := Ne.symm h.1
    simp [splitByte, hc, ih h.2]

theorem envProps_spec (env : List Bytes) (h : ∀ e ∈ env, (61 : Byte) ∈ e) (p : Props) :
    ∃ q, envProps env p = some q ∧ ∀ k, k ≠ [] → q k = (envValue env k).or (p k) := by
  induction env generalizing p with
  | nil => exact ⟨p, rfl, fun k _ => by simp [envValue]⟩
  | cons e es ih =>
    obtain ⟨rest, hr⟩ := splitByte_two e (h e (by simp))
    obtain ⟨q, hq, hk⟩ := ih (fun e he => h e (by simp [he])) (p.set (envName e) (envText e))
    refine ⟨q, by simp only [envProps, hr]; exact hq, fun k hne => ?_⟩
    rw [hk k hne]
    unfold envValue
    by_cases hn : envName e = k
    · simp only [List.filter_cons, hn, decide_true, if_true, List.getLast?_cons, Option.map_some, Option.some_or]
      cases (es.filter (envName · = k)).getLast? with
      | none => simp [Props.set, hne]
      | some x => simp
    · simp only [List.filter_cons, hn, decide_false, Bool.false_eq_true, if_false]
      have : p.set (envName e) (envText e) k = p k := by
        unfold Props.set
        split
        · rfl
        · exact if_neg (Ne.symm hn)
      rw [this]

/-! ## Reading a text -/

theorem digitLoop_spec (ds : Bytes) (n : Nat) :
    digitLoop n ds = if ds.all isDigit = true ∧ ds.foldl (fun n d => n * 10 + (d.toNat - 48)) n < 2 ^ 64 then
      some (ds.foldl (fun n d => n * 10 + (d.toNat - 48)) n) else if ds = [] then some n else none := by
  have mono : ∀ (ds : Bytes) (n : Nat), n ≤ ds.foldl (fun n d => n * 10 + (d.toNat - 48)) n := by
    intro ds
    induction ds with
    | nil => intro n; exact Nat.le_refl _
    | cons d ds ih => intro n; exact Nat.le_trans (by omega) (ih (n * 10 + (d.toNat - 48)))
  induction ds generalizing n with
  | nil => simp [digitLoop]
  | cons d ds ih =>
    simp only [digitLoop]
    by_cases hd : 48 ≤ d.toNat ∧ d.toNat ≤ 57
    · have hd' : isDigit d = true := by simp [isDigit, hd]
      rw [if_pos hd]
      simp only [List.all_cons, hd', Bool.true_and, List.foldl_cons, reduceCtorEq, if_false]
      by_cases hover : n * 10 + (d.toNat - 48) ≥ 2 ^ 64
      · rw [if_pos hover, if_neg]
        intro ⟨_, h⟩
        have := mono ds (n * 10 + (d.toNat - 48))
        omega
      · rw [if_neg hover, ih]
        by_cases hnil : ds = []
        · subst hnil; simp at hover ⊢; omega
        · simp only [hnil, if_false]
    · have hd' : isDigit d = false := by simp only [isDigit]; exact decide_eq_false hd
      rw [if_neg hd]
      simp [hd']

theorem parseInt_spec (v : Bytes) : parseInt v = wholeNumber v := by
  unfold parseInt wholeNumber
  by_cases hv : v = []
  · simp [hv]
  · rw [if_neg hv]
    generalize hds : (if v.head? = some 43 ∨ v.head? = some 45 then v.tail else v) = ds
    simp only [parseUint]
    by_cases hn : ds = []
    · simp [hn]
    · rw [if_neg hn, digitLoop_spec, if_neg hn]
      by_cases ha : ds.all isDigit = true
      · simp only [ha, true_and, ne_eq, hn, not_false_eq_true, if_true]
        show (match (if digitsValue ds < 2 ^ 64 then some (digitsValue ds) else none) with
          | none => none
          | some un => _) = _
        generalize digitsValue ds = N
        by_cases hneg : v.head? = some 45
        · simp only [hneg, if_true, not_true, false_and, if_false, true_and]
          by_cases h64 : N < 2 ^ 64
          · simp only [h64, if_true]
            by_cases h63 : N > 2 ^ 63
            · rw [if_pos h63, if_neg (by omega)]
            · rw [if_neg h63, if_pos (by omega)]
          · simp only [h64, if_false]
            rw [if_neg (by omega)]
        · simp only [hneg, if_false, not_false_eq_true, true_and, false_and]
          by_cases h64 : N < 2 ^ 64
          · simp only [h64, if_true]
            by_cases h63 : N ≥ 2 ^ 63
            · rw [if_pos h63, if_neg (by omega)]
            · rw [if_neg h63, if_pos (by omega)]
          · simp only [h64, if_false]
            rw [if_neg (by omega)]
      · simp [ha]

theorem read_spec (r : Reading) (p : Props) (k : Bytes) : (r.read p k).1 = meaning r (p k) := by
  cases r with
  | bool d =>
    simp only [Reading.read, getBool]
    cases p k with
    | none => rfl
    | some v =>
      simp only [meaning, isYes]
      congr 1
      simp only [List.mem_cons, List.not_mem_nil, or_false]
      rfl
  | int d =>
    simp only [Reading.read, getInt, meaning]
    cases p k with
    | none => rfl
    | some v => simp [parseInt_spec]
  | int32 d =>
    simp only [Reading.read, getInt, meaning]
    cases p k with
    | none => rfl
    | some v => simp [parseInt_spec]
  | text t d => rfl

/-! ## Loading -/

theorem assign_field (p : Props) (c : Configure) (r : Row) (f : String) :
    (assign p c r).fields f = if f = r.field then some (meaning r.reading (p r.key)) else c.fields f := by
  show (if f = r.field then some (r.reading.read p r.key).1 else c.fields f) = _
  rw [read_spec]

theorem foldl_assign_other (p : Props) (rs : List Row) (c : Configure) (f : String) (h : ∀ r ∈ rs, r.field ≠ f) :
    (rs.foldl (assign p) c).fields f = c.fields f := by
  induction rs generalizing c with
  | nil => rfl
  | cons r rs ih =>
    rw [List.foldl_cons, ih _ fun r hr => h r (by simp [hr]), assign_field, if_neg (Ne.symm (h r (by simp)))]

theorem foldl_assign (p : Props) (rs : List Row) (hn : (rs.map (·.field)).Nodup) (c : Configure) (r : Row) (hr : r ∈ rs) :
    (rs.foldl (assign p) c).fields r.field = some (meaning r.reading (p r.key)) := by
  induction rs generalizing c with
  | nil => simp at hr
  | cons r' rs ih =>
    rw [List.map_cons, List.nodup_cons] at hn
    rcases List.mem_cons.mp hr with rfl | hr'
    · rw [List.foldl_cons, foldl_assign_other p rs _ _ (fun x hx he => hn.1 (by rw [← he]; exact List.mem_map_of_mem hx)), assign_field, if_pos rfl]
    · exact ih hn.2 _ hr'

theorem assign_core (p : Props) (c : Configure) (r : Row) :
    (assign p c r).trace = c.trace ∧ (assign p c r).objName = c.objName ∧ (assign p c r).objHash = c.objHash ∧
      (assign p c r).lastModified = c.lastModified ∧ (assign p c r).confRuns = c.confRuns ∧ (assign p c r).objRuns = c.objRuns :=
  ⟨rfl, rfl, rfl, rfl, rfl, rfl⟩

theorem foldl_assign_core (p : Props) (rs : List Row) (c : Configure) :
    let c' := rs.foldl (assign p) c
    c'.trace = c.trace ∧ c'.objName = c.objName ∧ c'.objHash = c.objHash ∧
      c'.lastModified = c.lastModified ∧ c'.confRuns = c.confRuns ∧ c'.objRuns = c.objRuns := by
  induction rs generalizing c with
  | nil => exact ⟨rfl, rfl, rfl, rfl, rfl, rfl⟩
  | cons r rs ih => exact ih (assign p c r)

theorem fields_nodup : ((objRows ++ rows).map (·.field)).Nodup := by decide +kernel

/-- `resetObjNameAndType`, restated. -/
theorem reset_eq (host : Option Bytes) (p : Props) (c : Configure) :
    ∃ n d, resetObjNameAndType host p c =
      { objRows.foldl (assign p) c with
        objName := n, objHash := hash n, objRuns := d } ∧
      n = ascii "/" ++ host.getD (ascii "unknown") ++ ascii "/" ++ (p (ascii "obj_name")).getD (ascii "go1") ∧
      d = c.objRuns + (if c.objName = n then 0 else 1) := by
  refine ⟨_, _, ?_, rfl, rfl⟩
  by_cases h : c.objName = ascii "/" ++ host.getD (ascii "unknown") ++ ascii "/" ++ (p (ascii "obj_name")).getD (ascii "go1")
  · rw [if_pos h, Nat.add_zero]
    exact if_neg (fun hh => hh h)
  · rw [if_neg h]
    exact if_pos h

theorem addToConf_spec (host : Option Bytes) (p : Props) (c : Configure) :
    let c' := addToConf host p c
    (∀ r ∈ objRows ++ rows, c'.fields r.field = some (meaning r.reading (p r.key))) ∧
    c'.trace = ((p (ascii "_trace")).map isYes).getD false ∧
    c'.objName = ascii "/" ++ host.getD (ascii "unknown") ++ ascii "/" ++ (p (ascii "obj_name")).getD (ascii "go1") ∧
    c'.objHash = hash c'.objName ∧ c'.lastModified = c.lastModified ∧ c'.confRuns = c.confRuns ∧
    c'.objRuns = c.objRuns + (if c.objName = c'.objName then 0 else 1) := by
  obtain ⟨n, d, he, hn, hd⟩ := reset_eq host p c
  intro c'
  have hc' : c' = rows.foldl (assign p) { resetObjNameAndType host p c with trace := getBool p (ascii "_trace") false } := rfl
  have core := foldl_assign_core p rows { resetObjNameAndType host p c with trace := getBool p (ascii "_trace") false }
  simp only [← hc'] at core
  obtain ⟨h1, h2, h3, h4, h5, h6⟩ := core
  obtain ⟨g1, g2, g3, g4, g5, g6⟩ := foldl_assign_core p objRows c
  have hname : c'.objName = n := by rw [h2, he]
  refine ⟨?_, ?_, by rw [hname, hn], by rw [h3, hname, he], by rw [h4, he]; exact g4, by rw [h5, he]; exact g5, by
    rw [h6, he, hname]; exact hd⟩
  · intro r hr
    have nd := fields_nodup
    rw [List.map_append, List.nodup_append] at nd
    rcases List.mem_append.mp hr with hr | hr
    · rw [hc', foldl_assign_other p rows _ _ (fun x hx hxe => nd.2.2 r.field (List.mem_map_of_mem hr) x.field (List.mem_map_of_mem hx) hxe.symm), he]
      exact foldl_assign p objRows nd.1 c r hr
    · rw [hc', foldl_assign p rows nd.2.1 _ r hr]
  · rw [h1]
    show getBool p (ascii "_trace") false = _
    cases hp : p (ascii "_trace") with
    | none => simp [getBool, hp]
    | some v =>
      have h := read_spec (.bool false) p (ascii "_trace")
      rw [hp] at h
      simpa [Reading.read, meaning] using h

/-! ## The listing -/

theorem read_describe (r : Row) (p : Props) : (r.reading.read p r.key).2 = describe r (p r.key) := by
  have h := read_spec r.reading p r.key
  unfold describe
  cases hr : r.reading with
  | bool d =>
    rw [hr] at h
    simp only [Reading.read, meaning] at h ⊢
    cases hp : p r.key with
    | none => simp [hp, getBool, formatBool]
    | some v =>
      rw [hp] at h
      simp only [meaning, Setting.bool.injEq] at h
      simp only [h, formatBool, Option.map_some, Option.getD_some]
  | int d =>
    rw [hr] at h
    simp only [Reading.read, meaning, Setting.int.injEq] at h ⊢
    rw [h]
  | int32 d =>
    have h := read_spec (.int d) p r.key
    simp only [Reading.read, meaning, Setting.int.injEq] at h ⊢
    rw [h]
  | text t d => rfl

theorem putDesc_new (ds : List (Bytes × Desc)) (k : Bytes) (d : Desc) (h : k ∉ ds.map (·.1)) : putDesc ds k d = ds ++ [(k, d)] := by
  unfold putDesc
  rw [if_neg]
  intro ha
  obtain ⟨e, he, hk⟩ := List.any_eq_true.mp ha
  exact h (List.mem_map.mpr ⟨e, he, by simpa using hk⟩)

theorem putDesc_known (xs ys : List (Bytes × Desc)) (k : Bytes) (d0 d : Desc) (hx : k ∉ xs.map (·.1)) (hy : k ∉ ys.map (·.1)) :
    putDesc (xs ++ (k, d0) :: ys) k d = xs ++ (k, d) :: ys := by
  unfold putDesc
  have keep : ∀ zs : List (Bytes × Desc), k ∉ zs.map (·.1) → (zs.map fun e => if e.1 = k then (k, d) else e) = zs := by
    intro zs hz
    induction zs with
    | nil => rfl
    | cons z zs ih =>
      simp only [List.map_cons, List.mem_cons, not_or] at hz
      rw [List.map_cons, if_neg (Ne.symm hz.1), ih hz.2]
  rw [if_pos (by simp), List.map_append, List.map_cons, keep xs hx, keep ys hy]
  simp

/-- The listing has no entry yet or exactly one per setting, in order. -/
def ListingKeys (rs : List Row) (ds : List (Bytes × Desc)) : Prop := ds = [] ∨ ds.map (·.1) = rs.map (·.key)

theorem foldl_descs (p : Props) (rs : List Row) : ∀ (done : List (Bytes × Desc)) (rest : List (Bytes × Desc)) (c : Configure),
    c.descs = done ++ rest → ListingKeys rs rest → (rs.map (·.key)).Nodup → (∀ r ∈ rs, r.key ∉ done.map (·.1)) →
    (rs.foldl (assign p) c).descs = done ++ rs.map fun r => (r.key, describe r (p r.key)) := by
  induction rs with
  | nil =>
    intro done rest c hc hr _ _
    rcases hr with hr | hr
    · rw [hr] at hc; exact hc
    · have : rest = [] := by simpa using hr
      rw [this] at hc; exact hc
  | cons r rs ih =>
    intro done rest c hc hr hn hd
    rw [List.map_cons, List.nodup_cons] at hn
    have hnew : (assign p c r).descs = putDesc c.descs r.key (describe r (p r.key)) := by
      show putDesc c.descs r.key (r.reading.read p r.key).2 = _
      rw [read_describe]
    have hdone : ∀ r' ∈ rs, r'.key ∉ (done ++ [(r.key, describe r (p r.key))]).map (·.1) := by
      intro r' hr' hmem
      rw [List.map_append, List.mem_append] at hmem
      rcases hmem with hmem | hmem
      · exact hd r' (by simp [hr']) hmem
      · have : r'.key = r.key := by simpa using hmem
        exact hn.1 (by rw [← this]; exact List.mem_map_of_mem hr')
    rw [List.foldl_cons]
    rcases hr with hr | hr
    · subst hr
      rw [ih (done ++ [(r.key, describe r (p r.key))]) [] (assign p c r) (by
        rw [hnew, hc, List.append_nil, List.append_nil, putDesc_new _ _ _ (hd r (by simp))]) (Or.inl rfl) hn.2 hdone]
      simp
    · obtain ⟨⟨k0, d0⟩, rest', rfl, hk0, hrest⟩ := List.map_eq_cons_iff.mp (hr.trans (List.map_cons ..))
      simp only at hk0
      subst hk0
      rw [ih (done ++ [(r.key, describe r (p r.key))]) rest' (assign p c r) (by
        rw [hnew, hc, putDesc_known _ _ _ _ _ (hd r (by simp)) (by rw [hrest]; exact hn.1)]; simp) (Or.inr hrest) hn.2 hdone]
      simp

theorem keys_nodup : ((objRows ++ rows).map (·.key)).Nodup := by decide +kernel
theorem keys_nonempty : ∀ r ∈ objRows ++ rows, r.key ≠ [] := by decide +kernel

theorem addToConf_descs (host : Option Bytes) (p : Props) (c : Configure) (h : ListingKeys (objRows ++ rows) c.descs) :
    (addToConf host p c).descs = (objRows ++ rows).map fun r => (r.key, describe r (p r.key)) := by
  obtain ⟨n, d, he, hn, hd⟩ := reset_eq host p c
  have key := foldl_descs p (objRows ++ rows) [] c.descs c rfl h keys_nodup (by simp)
  rw [List.nil_append] at key
  rw [← key, List.foldl_append]
  have same : ∀ (rs : List Row) (c c' : Configure), c.descs = c'.descs →
      (rs.foldl (assign p) c).descs = (rs.foldl (assign p) c').descs := by
    intro rs
    induction rs with
    | nil => intro c c' h; exact h
    | cons r rs ih =>
      intro c c' h
      refine ih _ _ ?_
      show putDesc c.descs _ _ = putDesc c'.descs _ _
      rw [h]
  unfold addToConf
  refine same rows _ _ ?_
  show (resetObjNameAndType host p c).descs = _
  rw [he]

/-! ## Refreshing -/

/-- What a file defines, for a file that can be read or is not there. -/
def contentOf : File → Option Props
  | .good _ c => some c
  | _ => none

theorem nonEmpty_env {env : List Bytes} {p : Props} (h : ∀ k, k ≠ [] → p k = envValue env k) (k : Bytes) (hk : k ≠ []) :
    p.nonEmpty k = effectiveText env none k := by
  unfold Props.nonEmpty effectiveText
  rw [h k hk]
  cases envValue env k with
  | none => rfl
  | some v => by_cases hv : v = [] <;> simp [hv]

theorem nonEmpty_merge {env : List Bytes} {p : Props} (h : ∀ k, k ≠ [] → p k = envValue env k) (content : Props) (k : Bytes) (hk : k ≠ []) :
    (p.merge content).nonEmpty k = effectiveText env (some content) k := by
  unfold Props.nonEmpty Props.merge effectiveText
  simp only [Option.bind_some]
  cases hc : content k with
  | some v => by_cases hv : v = [] <;> simp [hv]
  | none =>
    simp only [h k hk]
    cases envValue env k with
    | none => rfl
    | some v => by_cases hv : v = [] <;> simp [hv]

/-- A refresh that loads. -/
structure Loaded (env : List Bytes) (host : Option Bytes) (f g : File) (c c' : Configure) : Prop where
  inEffect : InEffect env host (contentOf g) c'
  time : c'.lastModified = (stamp f).getD c.lastModified
  confRuns : c'.confRuns = c.confRuns + 1
  objRuns : c'.objRuns = c.objRuns + if c.objName = c'.objName then 0 else 1
  listed : ListingKeys (objRows ++ rows) c.descs → c'.descs = listing env (contentOf g)

theorem inEffect_of {env : List Bytes} {host : Option Bytes} {file : Option Props} {p : Props} (c : Configure)
    (hp : ∀ k, k ≠ [] → p k = effectiveText env file k) : InEffect env host file (addToConf host p c) := by
  obtain ⟨h1, h2, h3, h4, -⟩ := addToConf_spec host p c
  refine ⟨?_, ?_, ?_, h4⟩
  · intro r hr
    rw [h1 r hr, hp _ (keys_nonempty r hr)]
  · rw [h2, hp _ (by decide)]
  · rw [h3, hp _ (by decide)]

theorem refresh_loads {env : List Bytes} (he : ∀ e ∈ env, (61 : Byte) ∈ e) (host : Option Bytes) {f g : File} (c : Configure)
    (hf : f = .absent ∨ ∃ m, stamp f = some m ∧ m > c.lastModified) (hg : g = .absent ∨ ∃ m x, g = .good m x) :
    ∃ c', refresh env host f g c = some c' ∧ Loaded env host f g c c' := by
  obtain ⟨q, hq, hk⟩ := envProps_spec env he (fun _ => none)
  have hk' : ∀ k, k ≠ [] → q k = envValue env k := by
    intro k hne; rw [hk k hne]; cases envValue env k <;> rfl
  -- the configuration loaded from the effective texts
  let p : Props := match g with
    | .good _ content => (q.merge content).nonEmpty
    | _ => q.nonEmpty
  have hp : ∀ k, k ≠ [] → p k = effectiveText env (contentOf g) k := by
    intro k hne
    rcases hg with rfl | ⟨m, x, rfl⟩
    · exact nonEmpty_env hk' k hne
    · exact nonEmpty_merge hk' x k hne
  have build : ∀ t : Int, Loaded env host f g c { addToConf host p c with lastModified := t, confRuns := (addToConf host p c).confRuns + 1 } ↔
      t = (stamp f).getD c.lastModified := by
    intro t
    constructor
    · intro h; exact h.time
    · intro ht
      obtain ⟨h1, h2, h3, h4, h5, h6, h7⟩ := addToConf_spec host p c
      have hin := inEffect_of (host := host) c hp
      have hdesc := addToConf_descs host p c
      generalize addToConf host p c = A at *
      refine ⟨⟨hin.fields, hin.trace, hin.objName, hin.objHash⟩, ht, congrArg (· + 1) h6, h7, ?_⟩
      intro hl
      refine (hdesc hl).trans ?_
      unfold listing
      refine List.map_congr_left fun r hr => ?_
      rw [hp _ (keys_nonempty r hr)]
  have hlast : (addToConf host p c).lastModified = c.lastModified := (addToConf_spec host p c).2.2.2.2.1
  have same_time : ∀ d : Configure, d.lastModified = c.lastModified →
      ({ d with confRuns := d.confRuns + 1 } : Configure) = { d with lastModified := c.lastModified, confRuns := d.confRuns + 1 } := by
    intro d h; rw [← h]
  have hgo : refresh env host f g c = some { addToConf host p c with
      lastModified := (stamp f).getD c.lastModified, confRuns := (addToConf host p c).confRuns + 1 } := by
    rcases hf with rfl | ⟨m, hm, hgt⟩
    · rcases hg with rfl | ⟨m, x, rfl⟩
      · simp only [refresh, hq, stamp, Option.getD_none]
        congr 1
        exact same_time _ hlast
      · simp only [refresh, hq, stamp, Option.getD_none]
        congr 1
        exact same_time _ hlast
    · cases f with
      | absent => simp [stamp] at hm
      | denied => simp [stamp] at hm
      | bad m' =>
        obtain rfl : m' = m := by simpa [stamp] using hm
        rcases hg with rfl | ⟨m, x, rfl⟩
        · simp only [refresh, hq, if_pos hgt, stamp, Option.getD_some]; rfl
        · simp only [refresh, hq, if_pos hgt, stamp, Option.getD_some]; rfl
      | good m' y =>
        obtain rfl : m' = m := by simpa [stamp] using hm
        rcases hg with rfl | ⟨m, x, rfl⟩
        · simp only [refresh, hq, if_pos hgt, stamp, Option.getD_some]; rfl
        · simp only [refresh, hq, if_pos hgt, stamp, Option.getD_some]; rfl
  exact ⟨_, hgo, (build _).mpr rfl⟩

/-- A refresh that does not load changes nothing. -/
theorem refresh_keeps {env : List Bytes} (he : ∀ e ∈ env, (61 : Byte) ∈ e) (host : Option Bytes) {f g : File} (c : Configure)
    (h : (f = .denied ∨ ∃ m, stamp f = some m ∧ m ≤ c.lastModified) ∨ g = .denied ∨ ∃ m, g = .bad m) :
    refresh env host f g c = some c := by
  obtain ⟨q, hq, hk⟩ := envProps_spec env he (fun _ => none)
  rcases h with (rfl | ⟨m, hm, hle⟩) | hg
  · rfl
  · cases f with
    | absent => simp [stamp] at hm
    | denied => rfl
    | bad m' =>
      obtain rfl : m' = m := by simpa [stamp] using hm
      exact if_neg (by omega)
    | good m' y =>
      obtain rfl : m' = m := by simpa [stamp] using hm
      exact if_neg (by omega)
  · have : ∀ f : File, refresh env host f g c = some c := by
      intro f
      rcases hg with rfl | ⟨m, rfl⟩ <;> cases f <;> simp [refresh, hq]
    exact this f

end Config

namespace Spec.Site

/-- One event. -/
def step (env : List Bytes) (host : Option Bytes) (w : Site) : FileEvent → Option Site
  | .change f => some { w with file := f }
  | .refresh after => (Config.refresh env host w.file after w.conf).map fun c => { file := after, conf := c }

/-- A history of events. -/
def run (env : List Bytes) (host : Option Bytes) (w : Site) : List FileEvent → Option Site
  | [] => some w
  | e :: es => (w.step env host e).bind fun w => w.run env host es

end Spec.Site

namespace Config

/-- The invariant of a history: the time remembered and the file's are not later than `top`, and a file not later than the
time remembered is the one in effect. -/
structure Fresh (env : List Bytes) (host : Option Bytes) (top : Int) (w : Site) : Prop where
  time : w.conf.lastModified ≤ top
  file : ∀ m, stamp w.file = some m → m ≤ top
  effect : ∀ m content, w.file = .good m content → m ≤ w.conf.lastModified → InEffect env host (some content) w.conf
  keys : ListingKeys (objRows ++ rows) w.conf.descs

theorem later_top {top : Int} {f : File} (h : Later top f) : top ≤ (stamp f).getD top ∧ ∀ m, stamp f = some m → m ≤ (stamp f).getD top := by
  cases hs : stamp f with
  | none => simp
  | some m => have := h m hs; simp; omega

theorem Fresh.change {env : List Bytes} {host : Option Bytes} {top : Int} {w : Site} (h : Fresh env host top w) {f : File} (hl : Later top f) :
    Fresh env host ((stamp f).getD top) { w with file := f } := by
  obtain ⟨ht, hm⟩ := later_top hl
  refine ⟨Int.le_trans h.time ht, hm, ?_, h.keys⟩
  intro m content hf hle
  have hf : f = .good m content := hf
  have hle : m ≤ w.conf.lastModified := hle
  have := hl m (by rw [hf]; rfl)
  have := h.time
  omega

theorem Fresh.step {env : List Bytes} (he : ∀ e ∈ env, (61 : Byte) ∈ e) {host : Option Bytes} {top : Int} {w : Site}
    (h : Fresh env host top w) (g : File) {top' : Int} (hg : g = w.file ∧ top' = top ∨ Later top g ∧ top' = (stamp g).getD top) :
    ∃ c', refresh env host w.file g w.conf = some c' ∧ Fresh env host top' ⟨g, c'⟩ := by
  have htop : top ≤ top' ∧ ∀ m, stamp g = some m → m ≤ top' := by
    rcases hg with ⟨rfl, rfl⟩ | ⟨hl, rfl⟩
    · exact ⟨Int.le_refl _, h.file⟩
    · exact later_top hl
  have keep : refresh env host w.file g w.conf = some w.conf →
      ∃ c', refresh env host w.file g w.conf = some c' ∧ Fresh env host top' ⟨g, c'⟩ := by
    intro hk
    refine ⟨_, hk, Int.le_trans h.time htop.1, htop.2, ?_, h.keys⟩
    intro m content hgm hle
    rcases hg with ⟨hgw, -⟩ | ⟨hl, -⟩
    · exact h.effect m content (hgw ▸ hgm) hle
    · have hgm : g = .good m content := hgm
      have hle : m ≤ w.conf.lastModified := hle
      have := hl m (by rw [hgm]; rfl)
      have := h.time
      omega
  by_cases hk : (w.file = .denied ∨ ∃ m, stamp w.file = some m ∧ m ≤ w.conf.lastModified) ∨ g = .denied ∨ ∃ m, g = .bad m
  · exact keep (refresh_keeps he host w.conf hk)
  · have hf : w.file = .absent ∨ ∃ m, stamp w.file = some m ∧ m > w.conf.lastModified := by
      cases hw : w.file with
      | absent => exact Or.inl rfl
      | denied => exact absurd (Or.inl (Or.inl hw)) hk
      | bad m =>
        refine Or.inr ⟨m, rfl, ?_⟩
        exact Int.not_le.mp fun hc => hk (Or.inl (Or.inr ⟨m, by rw [hw]; rfl, hc⟩))
      | good m x =>
        refine Or.inr ⟨m, rfl, ?_⟩
        exact Int.not_le.mp fun hc => hk (Or.inl (Or.inr ⟨m, by rw [hw]; rfl, hc⟩))
    have hg' : g = .absent ∨ ∃ m x, g = .good m x := by
      cases g with
      | absent => exact Or.inl rfl
      | denied => exact absurd (Or.inr (Or.inl rfl)) hk
      | bad m => exact absurd (Or.inr (Or.inr ⟨m, rfl⟩)) hk
      | good m x => exact Or.inr ⟨m, x, rfl⟩
    obtain ⟨c', hr, hl⟩ := refresh_loads he host w.conf hf hg'
    refine ⟨c', hr, ?_, htop.2, ?_, ?_⟩
    · show c'.lastModified ≤ top'
      rw [hl.time]
      cases hs : stamp w.file with
      | none => have := h.time; simp; omega
      | some m => have := h.file m hs; simp; omega
    · intro m content hgm _
      have hgm : g = .good m content := hgm
      have := hl.inEffect
      rw [hgm] at this
      exact this
    · refine Or.inr ?_
      show c'.descs.map (·.1) = _
      rw [hl.listed h.keys]
      unfold listing
      rw [List.map_map]; rfl

theorem Fresh.run {env : List Bytes} (he : ∀ e ∈ env, (61 : Byte) ∈ e) {host : Option Bytes} (es : List FileEvent) :
    ∀ {top : Int} {w : Site}, Fresh env host top w → Stamped top w.file es →
      ∃ w' top', w.run env host es = some w' ∧ Fresh env host top' w' := by
  induction es with
  | nil => intro top w h _; exact ⟨w, top, rfl, h⟩
  | cons e es ih =>
    intro top w h hs
    cases e with
    | change f =>
      obtain ⟨hl, hs⟩ := hs
      exact ih (h.change hl) hs
    | refresh g =>
      have : ∃ top', (g = w.file ∧ top' = top ∨ Later top g ∧ top' = (stamp g).getD top) ∧ Stamped top' g es := by
        rcases hs with ⟨hgw, hs⟩ | ⟨hl, hs⟩
        · exact ⟨top, Or.inl ⟨hgw, rfl⟩, hgw ▸ hs⟩
        · exact ⟨_, Or.inr ⟨hl, rfl⟩, hs⟩
      obtain ⟨top', hg, hs⟩ := this
      obtain ⟨c', hr, hf⟩ := h.step he g hg
      obtain ⟨w', top'', hrun, hfin⟩ := ih hf hs
      refine ⟨w', top'', ?_, hfin⟩
      simp only [Site.run, Site.step, hr, Option.map_some, Option.bind_some]
      exact hrun

theorem Fresh.start (env : List Bytes) (host : Option Bytes) : Fresh env host 0 ⟨.absent, fresh⟩ :=
  ⟨Int.le_refl _, by simp [stamp], by simp, Or.inl rfl⟩

end Config

/-- The environment's entries all have a name and a value. -/
abbrev WellFormedEnv (env : List Bytes) : Prop := ∀ e ∈ env, (61 : Byte) ∈ e

/-- **C47**: whatever happened before, when every change of the file came with a later modification time, a refresh puts the
current file in effect, or the environment alone when there is no file; a file that cannot be read changes nothing. -/
theorem C47_refresh_is_up_to_date (env : List Bytes) (henv : WellFormedEnv env) (host : Option Bytes) (es : List FileEvent)
    (hs : Stamped 0 .absent es) :
    ∃ w, Site.run env host ⟨.absent, fresh⟩ es = some w ∧ ∃ c', Config.refresh env host w.file w.file w.conf = some c' ∧
      (∀ m content, w.file = .good m content → InEffect env host (some content) c') ∧
      (w.file = .absent → InEffect env host none c') ∧
      (w.file = .denied ∨ (∃ m, w.file = .bad m) → c' = w.conf) := by
  obtain ⟨w, top, hrun, hf⟩ := Fresh.run henv es (Fresh.start env host) hs
  refine ⟨w, hrun, ?_⟩
  cases hw : w.file with
  | denied => exact ⟨w.conf, rfl, by simp, by simp, fun _ => rfl⟩
  | absent =>
    obtain ⟨c', hr, hl⟩ := refresh_loads henv host (f := .absent) (g := .absent) w.conf (Or.inl rfl) (Or.inl rfl)
    exact ⟨c', hr, by simp, fun _ => hl.inEffect, by simp⟩
  | bad m => exact ⟨w.conf, refresh_keeps henv host w.conf (Or.inr (Or.inr ⟨m, rfl⟩)), by simp, by simp, fun _ => rfl⟩
  | good m content =>
    by_cases hm : m ≤ w.conf.lastModified
    · refine ⟨w.conf, refresh_keeps henv host w.conf (Or.inl (Or.inr ⟨m, rfl, hm⟩)), ?_, by simp, fun _ => rfl⟩
      intro m' content' he
      injection he with h1 h2
      exact hf.effect m' content' (by rw [hw, h1, h2]) (h1 ▸ hm)
    · obtain ⟨c', hr, hl⟩ := refresh_loads henv host (f := .good m content) (g := .good m content) w.conf
        (Or.inr ⟨m, rfl, by omega⟩) (Or.inr ⟨m, content, rfl⟩)
      refine ⟨c', hr, ?_, by simp, by simp⟩
      intro m' content' he
      injection he with h1 h2
      rw [← h2]; exact hl.inEffect

/-- **C47**, in general false: a file that was deleted and comes back with its old modification time stays without effect
however often the agent looks. -/
theorem C47_restored_file_ignored (env : List Bytes) (henv : WellFormedEnv env) (host : Option Bytes) (m : Int) (hm : 0 < m)
    (content : Props) (n : Nat) :
    ∃ w, Site.run env host ⟨.absent, fresh⟩
        ([.change (.good m content), .refresh (.good m content), .change .absent, .refresh .absent, .change (.good m content)] ++
          List.replicate n (.refresh (.good m content))) = some w ∧
      w.file = .good m content ∧ InEffect env host none w.conf := by
  obtain ⟨c1, hr1, hl1⟩ := refresh_loads henv host (f := .good m content) (g := .good m content) fresh
    (Or.inr ⟨m, rfl, hm⟩) (Or.inr ⟨m, content, rfl⟩)
  obtain ⟨c2, hr2, hl2⟩ := refresh_loads henv host (f := .absent) (g := .absent) c1 (Or.inl rfl) (Or.inl rfl)
  have ht : c2.lastModified = m := by rw [hl2.time, hl1.time]; rfl
  refine ⟨⟨.good m content, c2⟩, ?_, rfl, hl2.inEffect⟩
  simp only [List.cons_append, List.nil_append, Site.run, Site.step, Option.bind_some, hr1, Option.map_some, hr2]
  induction n with
  | zero => rfl
  | succ n ih =>
    rw [List.replicate_succ]
    simp only [Site.run, Site.step, refresh_keeps henv host (f := .good m content) (g := .good m content) c2 (Or.inl (Or.inr ⟨m, rfl, by omega⟩)),
      Option.map_some, Option.bind_some]
    exact ih

/-- **C47**: an environment entry without '=' ends the program at the first refresh. -/
theorem C47_bare_environment_entry_panics (env1 env2 : List Bytes) (h1 : WellFormedEnv env1) (e : Bytes) (he : (61 : Byte) ∉ e)
    (host : Option Bytes) (c : Configure) (g : File) : Config.refresh (env1 ++ e :: env2) host .absent g c = none := by
  have : ∀ (env1 : List Bytes), WellFormedEnv env1 → ∀ p, envProps (env1 ++ e :: env2) p = none := by
    intro env1
    induction env1 with
    | nil => intro _ p; simp only [List.nil_append, envProps, splitByte_one 61 e he]
    | cons a as ih =>
      intro h p
      obtain ⟨rest, hr⟩ := splitByte_two a (h a (by simp))
      simp only [List.cons_append, envProps, hr]
      exact ih (fun x hx => h x (by simp [hx])) _
  simp only [Config.refresh, this env1 h1]

/-- **C48**: a refresh that loads (no file, or a file newer than the one loaded last) gives every setting the value of its
key: the file's text if not empty; without one in the file the environment's; otherwise the default. -/
theorem C48_precedence (env : List Bytes) (henv : WellFormedEnv env) (host : Option Bytes) (c : Configure) (m : Int) (content : Props)
    (hm : c.lastModified < m) :
    (∃ c', Config.refresh env host (.good m content) (.good m content) c = some c' ∧ InEffect env host (some content) c') ∧
    (∃ c', Config.refresh env host .absent .absent c = some c' ∧ InEffect env host none c') := by
  obtain ⟨c1, hr1, hl1⟩ := refresh_loads henv host (f := .good m content) (g := .good m content) c
    (Or.inr ⟨m, rfl, hm⟩) (Or.inr ⟨m, content, rfl⟩)
  obtain ⟨c2, hr2, hl2⟩ := refresh_loads henv host (f := .absent) (g := .absent) c (Or.inl rfl) (Or.inl rfl)
  exact ⟨⟨c1, hr1, hl1.inEffect⟩, ⟨c2, hr2, hl2.inEffect⟩⟩

/-- **C48**: every setting is read from the key with its own name: the key without '_' is the field's name in lower case. -/
theorem C48_fields_read_their_own_key :
    ∀ r ∈ rows, r.key.filter (· ≠ 95) = (ascii r.field).map (fun b => if 65 ≤ b.toNat ∧ b.toNat ≤ 90 then b + 32 else b) := by
  decide +kernel

/-- **C48**: the part of an environment value after another '=' is lost. -/
theorem C48_environment_value_cut (k v rest : Bytes) (hk : (61 : Byte) ∉ k) (hv : (61 : Byte) ∉ v) (hne : k ≠ []) (hv0 : v ≠ []) :
    effectiveText [k ++ 61 :: v ++ 61 :: rest] none k = some v := by
  have hall : ∀ l : Bytes, (61 : Byte) ∉ l → ∀ x ∈ l, decide (x ≠ 61) = true := by
    intro l hl x hx
    exact decide_eq_true fun h => hl (h ▸ hx)
  have h1 : envName (k ++ 61 :: v ++ 61 :: rest) = k := by
    unfold envName
    rw [List.append_assoc, List.takeWhile_append_of_pos (hall k hk)]
    simp
  have h2 : envText (k ++ 61 :: v ++ 61 :: rest) = v := by
    unfold envText
    rw [List.append_assoc, List.dropWhile_append_of_pos (hall k hk)]
    simp only [List.cons_append, ne_eq]
    rw [List.dropWhile_cons_of_neg (by simp), List.drop_one, List.tail_cons, List.takeWhile_append_of_pos (hall v hv)]
    simp
  unfold effectiveText envValue
  generalize k ++ 61 :: v ++ 61 :: rest = e at h1 h2 ⊢
  simp [h1, h2, hv0]

/-- **C48**: where neither file nor environment say anything of sampling, nothing is sampled or discarded (the assumption of
C36 and C42). -/
theorem C48_no_sampling_by_default (env : List Bytes) (host : Option Bytes) (file : Option Props) (c : Configure)
    (h : InEffect env host file c)
    (hk : ∀ k ∈ [ascii "xlog_sampling_enabled", ascii "xlog_patterned_sampling_enabled", ascii "xlog_patterned2_sampling_enabled",
      ascii "xlog_patterned3_sampling_enabled", ascii "xlog_discard_service_patterns"], effectiveText env file k = none) :
    NoSampling c.traceConf.sample := by
  have get : ∀ f k r, (⟨f, k, r⟩ : Row) ∈ objRows ++ rows → effectiveText env file k = none → c.fields f = some (meaning r none) := by
    intro f k r hr he
    rw [← he]; exact h.fields _ hr
  have off : ∀ f k, (⟨f, k, .bool false⟩ : Row) ∈ objRows ++ rows → effectiveText env file k = none → c.boolAt f = false := by
    intro f k hr he
    simp [Configure.boolAt, get f k _ hr he, meaning]
  refine ⟨off _ (ascii "xlog_sampling_enabled") (by decide +kernel) (hk _ (by simp)),
    off _ (ascii "xlog_patterned_sampling_enabled") (by decide +kernel) (hk _ (by simp)),
    off _ (ascii "xlog_patterned2_sampling_enabled") (by decide +kernel) (hk _ (by simp)),
    off _ (ascii "xlog_patterned3_sampling_enabled") (by decide +kernel) (hk _ (by simp)), ?_⟩
  show c.textAt "XlogDiscardServicePatterns" = []
  simp [Configure.textAt, get "XlogDiscardServicePatterns" (ascii "xlog_discard_service_patterns") (.text 4 []) (by decide +kernel) (hk _ (by simp)), meaning]

/-- The keys of the thresholds and rates of the set of sampling options with this prefix. -/
def rateKeys (pre : String) : List Bytes :=
  ["_step1_ms", "_step1_rate_pct", "_step2_ms", "_step2_rate_pct", "_step3_ms", "_step3_rate_pct", "_over_rate_pct"].map fun q => ascii (pre ++ q)

/-- Two percent of the services below 100 ms, seven below 500 ms, fifteen below a second, and (with 3000 percent) all longer ones. -/
def DocumentedRates (r : RateConf) : Prop :=
  r.step1Ms = 100 ∧ r.rate1 = 2 ∧ r.step2Ms = 500 ∧ r.rate2 = 7 ∧ r.step3Ms = 1000 ∧ r.rate3 = 15 ∧ r.over = 3000

/-- **C48**: in each of the four sets of sampling options, if none of the keys of its thresholds and rates is set, they are the
documented ones, whatever else is set. -/
theorem C48_sampling_defaults (env : List Bytes) (host : Option Bytes) (file : Option Props) (c : Configure) (h : InEffect env host file c) :
    ((∀ k ∈ rateKeys "xlog_sampling", effectiveText env file k = none) → DocumentedRates c.traceConf.sample.general) ∧
    ((∀ k ∈ rateKeys "xlog_patterned_sampling", effectiveText env file k = none) → DocumentedRates c.traceConf.sample.pat1) ∧
    ((∀ k ∈ rateKeys "xlog_patterned2_sampling", effectiveText env file k = none) → DocumentedRates c.traceConf.sample.pat2) ∧
    ((∀ k ∈ rateKeys "xlog_patterned3_sampling", effectiveText env file k = none) → DocumentedRates c.traceConf.sample.pat3) := by
  have get : ∀ f k r, (⟨f, k, r⟩ : Row) ∈ objRows ++ rows → effectiveText env file k = none → c.fields f = some (meaning r none) := by
    intro f k r hr he
    rw [← he]; exact h.fields _ hr
  have num : ∀ f k n, (⟨f, k, .int n⟩ : Row) ∈ objRows ++ rows → effectiveText env file k = none → c.intAt f = n := by
    intro f k n hr he
    simp [Configure.intAt, get f k _ hr he, meaning]
  have num32 : ∀ f k n, (⟨f, k, .int32 n⟩ : Row) ∈ objRows ++ rows → effectiveText env file k = none → c.int32At f = BitVec.ofInt 32 n := by
    intro f k n hr he
    simp [Configure.int32At, get f k _ hr he, meaning]
  refine ⟨fun hk => ?_, fun hk => ?_, fun hk => ?_, fun hk => ?_⟩
  · exact ⟨num32 "XlogSamplingStep1Ms" (ascii "xlog_sampling_step1_ms") 100 (by decide +kernel) (hk _ (by decide +kernel)),
      num "XlogSamplingStep1RatePct" (ascii "xlog_sampling_step1_rate_pct") 2 (by decide +kernel) (hk _ (by decide +kernel)),
      num32 "XlogSamplingStep2Ms" (ascii "xlog_sampling_step2_ms") 500 (by decide +kernel) (hk _ (by decide +kernel)),
      num "XlogSamplingStep2RatePct" (ascii "xlog_sampling_step2_rate_pct") 7 (by decide +kernel) (hk _ (by decide +kernel)),
      num32 "XlogSamplingStep3Ms" (ascii "xlog_sampling_step3_ms") 1000 (by decide +kernel) (hk _ (by decide +kernel)),
      num "XlogSamplingStep3RatePct" (ascii "xlog_sampling_step3_rate_pct") 15 (by decide +kernel) (hk _ (by decide +kernel)),
      num "XlogSamplingOverRatePct" (ascii "xlog_sampling_over_rate_pct") 3000 (by decide +kernel) (hk _ (by decide +kernel))⟩
  · exact ⟨num32 "XlogPatternedSamplingStep1Ms" (ascii "xlog_patterned_sampling_step1_ms") 100 (by decide +kernel) (hk _ (by decide +kernel)),
      num "XlogPatternedSamplingStep1RatePct" (ascii "xlog_patterned_sampling_step1_rate_pct") 2 (by decide +kernel) (hk _ (by decide +kernel)),
      num32 "XlogPatternedSamplingStep2Ms" (ascii "xlog_patterned_sampling_step2_ms") 500 (by decide +kernel) (hk _ (by decide +kernel)),
      num "XlogPatternedSamplingStep2RatePct" (ascii "xlog_patterned_sampling_step2_rate_pct") 7 (by decide +kernel) (hk _ (by decide +kernel)),
      num32 "XlogPatternedSamplingStep3Ms" (ascii "xlog_patterned_sampling_step3_ms") 1000 (by decide +kernel) (hk _ (by decide +kernel)),
      num "XlogPatternedSamplingStep3RatePct" (ascii "xlog_patterned_sampling_step3_rate_pct") 15 (by decide +kernel) (hk _ (by decide +kernel)),
      num "XlogPatternedSamplingOverRatePct" (ascii "xlog_patterned_sampling_over_rate_pct") 3000 (by decide +kernel) (hk _ (by decide +kernel))⟩
  · exact ⟨num32 "XlogPatterned2SamplingStep1Ms" (ascii "xlog_patterned2_sampling_step1_ms") 100 (by decide +kernel) (hk _ (by decide +kernel)),
      num "XlogPatterned2SamplingStep1RatePct" (ascii "xlog_patterned2_sampling_step1_rate_pct") 2 (by decide +kernel) (hk _ (by decide +kernel)),
      num32 "XlogPatterned2SamplingStep2Ms" (ascii "xlog_patterned2_sampling_step2_ms") 500 (by decide +kernel) (hk _ (by decide +kernel)),
      num "XlogPatterned2SamplingStep2RatePct" (ascii "xlog_patterned2_sampling_step2_rate_pct") 7 (by decide +kernel) (hk _ (by decide +kernel)),
      num32 "XlogPatterned2SamplingStep3Ms" (ascii "xlog_patterned2_sampling_step3_ms") 1000 (by decide +kernel) (hk _ (by decide +kernel)),
      num "XlogPatterned2SamplingStep3RatePct" (ascii "xlog_patterned2_sampling_step3_rate_pct") 15 (by decide +kernel) (hk _ (by decide +kernel)),
      num "XlogPatterned2SamplingOverRatePct" (ascii "xlog_patterned2_sampling_over_rate_pct") 3000 (by decide +kernel) (hk _ (by decide +kernel))⟩
  · exact ⟨num32 "XlogPatterned3SamplingStep1Ms" (ascii "xlog_patterned3_sampling_step1_ms") 100 (by decide +kernel) (hk _ (by decide +kernel)),
      num "XlogPatterned3SamplingStep1RatePct" (ascii "xlog_patterned3_sampling_step1_rate_pct") 2 (by decide +kernel) (hk _ (by decide +kernel)),
      num32 "XlogPatterned3SamplingStep2Ms" (ascii "xlog_patterned3_sampling_step2_ms") 500 (by decide +kernel) (hk _ (by decide +kernel)),
      num "XlogPatterned3SamplingStep2RatePct" (ascii "xlog_patterned3_sampling_step2_rate_pct") 7 (by decide +kernel) (hk _ (by decide +kernel)),
      num32 "XlogPatterned3SamplingStep3Ms" (ascii "xlog_patterned3_sampling_step3_ms") 1000 (by decide +kernel) (hk _ (by decide +kernel)),
      num "XlogPatterned3SamplingStep3RatePct" (ascii "xlog_patterned3_sampling_step3_rate_pct") 15 (by decide +kernel) (hk _ (by decide +kernel)),
      num "XlogPatterned3SamplingOverRatePct" (ascii "xlog_patterned3_sampling_over_rate_pct") 3000 (by decide +kernel) (hk _ (by decide +kernel))⟩

/-! ## C63: the listing -/

namespace Config

theorem digitByte_digit : ∀ d : Fin 10, isDigit (digitByte d.val) = true ∧ (digitByte d.val).toNat - 48 = d.val ∧
    digitByte d.val ≠ 43 ∧ digitByte d.val ≠ 45 := by decide +kernel

theorem formatNat_digits (u : Nat) : (formatNat 10 u).all isDigit = true ∧ digitsValue (formatNat 10 u) = u ∧
    ∃ c cs, formatNat 10 u = c :: cs ∧ c ≠ 43 ∧ c ≠ 45 := by
  induction u using Nat.strongRecOn with
  | _ u ih =>
    rw [formatNat]
    split
    · rename_i h
      obtain ⟨h1, h2, h3, h4⟩ := digitByte_digit ⟨u, by omega⟩
      simp only at h1 h2 h3 h4
      exact ⟨by simp [h1], by simp [digitsValue, h2], _, _, rfl, h3, h4⟩
    · rename_i h
      obtain ⟨i1, i2, c, cs, i3, i4, i5⟩ := ih (u / 10) (by omega)
      obtain ⟨h1, h2, h3, h4⟩ := digitByte_digit ⟨u % 10, by omega⟩
      simp only at h1 h2 h3 h4
      refine ⟨by simp [h1, i1], ?_, c, cs ++ [digitByte (u % 10)], by rw [i3]; rfl, i4, i5⟩
      unfold digitsValue at i2 ⊢
      rw [List.foldl_append, i2]
      simp only [List.foldl_cons, List.foldl_nil, h2]
      omega

theorem wholeNumber_format (v : Int) (h : -2 ^ 63 ≤ v ∧ v < 2 ^ 63) : wholeNumber (formatInt 10 v) = some v := by
  obtain ⟨h1, h2, c, cs, h3, h4, h5⟩ := formatNat_digits v.natAbs
  unfold formatInt wholeNumber
  by_cases hv : v < 0
  · have hz : -(digitsValue (formatNat 10 v.natAbs) : Int) = v := by rw [h2]; omega
    simp only [hv, if_true, List.head?_cons, or_true, List.tail_cons, h1, and_true]
    rw [if_pos (by rw [h3]; simp), hz, if_pos h]
  · have hz : (digitsValue (formatNat 10 v.natAbs) : Int) = v := by rw [h2]; omega
    have hh : (formatNat 10 v.natAbs).head? = some c := by rw [h3]; rfl
    have e1 : ¬ (some c = some (43 : Byte) ∨ some c = some (45 : Byte)) := by
      rintro (h | h)
      · exact h4 (Option.some.inj h)
      · exact h5 (Option.some.inj h)
    have e2 : ¬ (some c = some (45 : Byte)) := fun h => e1 (Or.inr h)
    simp only [hv, if_false, hh]
    rw [if_neg e1, if_neg e2, hz, if_pos ⟨by rw [h3]; simp, h1⟩, if_pos h]

theorem wholeNumber_range {v : Bytes} {n : Int} (h : wholeNumber v = some n) : -2 ^ 63 ≤ n ∧ n < 2 ^ 63 := by
  unfold wholeNumber at h
  generalize (if v.head? = some 43 ∨ v.head? = some 45 then v.tail else v) = ds at h
  by_cases h1 : ds ≠ [] ∧ ds.all isDigit = true
  · rw [if_pos h1] at h
    generalize (if v.head? = some 45 then - (digitsValue ds : Int) else digitsValue ds) = z at h
    by_cases h2 : -2 ^ 63 ≤ z ∧ z < 2 ^ 63
    · rw [if_pos h2] at h
      rw [← Option.some.inj h]; exact h2
    · rw [if_neg h2] at h; simp at h
  · rw [if_neg h1] at h; simp at h

/-- A default that is no number or fits 64 bits. -/
def Reading.fits : Reading → Bool
  | .int d => -2 ^ 63 ≤ d ∧ d < 2 ^ 63
  | .int32 d => -2 ^ 63 ≤ d ∧ d < 2 ^ 63
  | _ => true

/-- The default of every numeric setting fits 64 bits. -/
theorem defaults_fit : ∀ r ∈ objRows ++ rows, r.reading.fits = true := by decide +kernel

theorem describe_reads_back (r : Row) (hr : r ∈ objRows ++ rows) (t : Option Bytes) :
    meaning r.reading (some (describe r t).value) = meaning r.reading t := by
  have hd := defaults_fit r hr
  have fits : ∀ d : Int, (-2 ^ 63 ≤ d ∧ d < 2 ^ 63) → -2 ^ 63 ≤ (t.bind wholeNumber).getD d ∧ (t.bind wholeNumber).getD d < 2 ^ 63 := by
    intro d hd
    cases ht : t.bind wholeNumber with
    | none => exact hd
    | some n =>
      obtain ⟨v, _, hv⟩ := Option.bind_eq_some_iff.mp ht
      exact wholeNumber_range hv
  unfold describe
  cases hk : r.reading with
  | bool d =>
    simp only [meaning]
    have yes : isYes (ascii "true") = true ∧ isYes (ascii "false") = false := by decide +kernel
    cases t with
    | none => cases d <;> simp [yes]
    | some v => cases h : isYes v <;> simp [yes, h]
  | int d =>
    rw [hk] at hd
    replace hd := of_decide_eq_true hd
    simp only [meaning, Option.bind_some]
    rw [wholeNumber_format _ (fits d hd)]; rfl
  | int32 d =>
    rw [hk] at hd
    replace hd := of_decide_eq_true hd
    simp only [meaning, Option.bind_some]
    rw [wholeNumber_format _ (fits d hd)]; rfl
  | text k d => rfl

/-- Nothing has been loaded, or some configuration is in effect and listed. -/
def Listed (env : List Bytes) (host : Option Bytes) (c : Configure) : Prop :=
  c = fresh ∨ ∃ file, InEffect env host file c ∧ c.descs = listing env file

theorem Listed.keys {env : List Bytes} {host : Option Bytes} {c : Configure} (h : Listed env host c) : ListingKeys (objRows ++ rows) c.descs := by
  rcases h with rfl | ⟨file, _, hd⟩
  · exact Or.inl rfl
  · refine Or.inr ?_
    rw [hd]; unfold listing; rw [List.map_map]; rfl

/-- A refresh either changes nothing or loads. -/
theorem refresh_cases {env : List Bytes} (he : ∀ e ∈ env, (61 : Byte) ∈ e) (host : Option Bytes) (f g : File) (c : Configure) :
    refresh env host f g c = some c ∨ ∃ c', refresh env host f g c = some c' ∧ Loaded env host f g c c' := by
  by_cases hk : (f = .denied ∨ ∃ m, stamp f = some m ∧ m ≤ c.lastModified) ∨ g = .denied ∨ ∃ m, g = .bad m
  · exact Or.inl (refresh_keeps he host c hk)
  · refine Or.inr (refresh_loads he host c ?_ ?_)
    · cases hf : f with
      | absent => exact Or.inl rfl
      | denied => exact absurd (Or.inl (Or.inl hf)) hk
      | bad m => exact Or.inr ⟨m, rfl, Int.not_le.mp fun hc => hk (Or.inl (Or.inr ⟨m, by rw [hf]; rfl, hc⟩))⟩
      | good m x => exact Or.inr ⟨m, rfl, Int.not_le.mp fun hc => hk (Or.inl (Or.inr ⟨m, by rw [hf]; rfl, hc⟩))⟩
    · cases g with
      | absent => exact Or.inl rfl
      | denied => exact absurd (Or.inr (Or.inl rfl)) hk
      | bad m => exact absurd (Or.inr (Or.inr ⟨m, rfl⟩)) hk
      | good m x => exact Or.inr ⟨m, x, rfl⟩

theorem Listed.run {env : List Bytes} (he : ∀ e ∈ env, (61 : Byte) ∈ e) {host : Option Bytes} (es : List FileEvent) :
    ∀ {w : Site}, Listed env host w.conf → ∃ w', w.run env host es = some w' ∧ Listed env host w'.conf := by
  induction es with
  | nil => intro w h; exact ⟨w, rfl, h⟩
  | cons e es ih =>
    intro w h
    cases e with
    | change f => exact ih (w := { w with file := f }) h
    | refresh g =>
      rcases refresh_cases he host w.file g w.conf with hr | ⟨c', hr, hl⟩
      · obtain ⟨w', hw, hl⟩ := ih (w := ⟨g, w.conf⟩) h
        refine ⟨w', ?_, hl⟩
        simp only [Site.run, Site.step, hr, Option.map_some, Option.bind_some]; exact hw
      · obtain ⟨w', hw, hl⟩ := ih (w := ⟨g, c'⟩) (Or.inr ⟨_, hl.inEffect, hl.listed h.keys⟩)
        refine ⟨w', ?_, hl⟩
        simp only [Site.run, Site.step, hr, Option.map_some, Option.bind_some]; exact hw

end Config

/-- **C63**: after any history of file changes and refreshes, the configuration in effect is that of the environment and one
file (or none), and the listing has every setting exactly once, in a fixed order, with its value and its default. -/
theorem C63_listing_shows_what_is_in_effect (env : List Bytes) (henv : WellFormedEnv env) (host : Option Bytes) (es : List FileEvent) :
    ∃ w, Site.run env host ⟨.absent, fresh⟩ es = some w ∧
      (w.conf = fresh ∨ ∃ file, InEffect env host file w.conf ∧ w.conf.descs = listing env file) :=
  Listed.run henv es (w := ⟨.absent, fresh⟩) (Or.inl rfl)

/-- **C63**: a listed text read as a setting gives the value in effect. -/
theorem C63_listed_text_reads_back (env : List Bytes) (host : Option Bytes) (file : Option Props) (c : Configure)
    (h : InEffect env host file c) (r : Row) (hr : r ∈ objRows ++ rows) (d : Desc) (hd : (r.key, d) ∈ listing env file) :
    c.fields r.field = some (meaning r.reading (some d.value)) := by
  have hnd := Config.keys_nodup
  unfold listing at hd
  obtain ⟨r', hr', he⟩ := List.mem_map.mp hd
  have hrr : r' = r := by
    have hk : r'.key = r.key := (Prod.mk.inj he).1
    exact List.inj_on_of_nodup_map hnd hr' hr hk
  have hdd : d = describe r (effectiveText env file r.key) := by rw [← hrr]; exact (Prod.mk.inj he).2.symm
  rw [h.fields r hr, hdd, describe_reads_back r hr]

/-- **C63**, the limit: a time of a sampling step of 2^31 or more is listed as given, while 32 bits of it are in effect. -/
theorem C63_wide_number_listed_but_cut : ∃ (content : Props) (c : Configure),
    Config.refresh [] none (.good 1 content) (.good 1 content) fresh = some c ∧
      c.fields "XlogSamplingStep1Ms" = some (.int32 100) ∧
      (c.descs.lookup (ascii "xlog_sampling_step1_ms")).map (·.value) = some (ascii "4294967396") := by
  refine ⟨fun k => if k = ascii "xlog_sampling_step1_ms" then some (ascii "4294967396") else none, _, rfl, ?_, ?_⟩ <;> decide +kernel

/-! ## C64: observers and the object's name -/

/-- **C64**: a refresh changes nothing and runs no observer, or it loads: the observers of the configuration run once, that of
the object's name runs exactly if the name has changed, and the object's hash is the hash of its name. -/
theorem C64_observers (env : List Bytes) (henv : WellFormedEnv env) (host : Option Bytes) (f g : File) (c : Configure) :
    ∃ c', Config.refresh env host f g c = some c' ∧
      (c' = c ∨ (c'.confRuns = c.confRuns + 1 ∧
        c'.objRuns = c.objRuns + (if c'.objName = c.objName then 0 else 1) ∧ c'.objHash = hash c'.objName)) := by
  rcases refresh_cases henv host f g c with hr | ⟨c', hr, hl⟩
  · exact ⟨c, hr, Or.inl rfl⟩
  · refine ⟨c', hr, Or.inr ⟨hl.confRuns, ?_, hl.inEffect.objHash⟩⟩
    rw [hl.objRuns]
    by_cases h : c.objName = c'.objName
    · rw [if_pos h, if_pos h.symm]
    · rw [if_neg h, if_neg fun h' => h h'.symm]

/-- **C64**: the sampler, once created and registered, uses the patterns of the configuration loaded last. -/
theorem C64_sampler_follows (c0 : SampleConf) (cs : List SampleConf) :
    madeSampler c0 cs = Sampler.new ((c0 :: cs).getLast (by simp)) := by
  have hrun : ∀ c c' : SampleConf, (Sampler.new c).run c' = Sampler.new c' := by
    intro c c'
    have : ∀ a b : Bytes, Sampler.renew (a, newChainedMatcher a) b = (b, newChainedMatcher b) := by
      intro a b
      unfold Sampler.renew
      by_cases h : a = b
      · simp [h]
      · simp [h]
    simp [Sampler.run, Sampler.new, this]
  induction cs generalizing c0 with
  | nil => rfl
  | cons c cs ih =>
    have : madeSampler c0 (c :: cs) = madeSampler c cs := by
      unfold madeSampler
      rw [List.foldl_cons, hrun]
    rw [this, ih]
    rfl

/-! A case: two variables, a file with two keys, one of them empty. -/
namespace ConfDemo

def env : List Bytes := [ascii "obj_name=a=b", ascii "net_collector_ip=10.0.0.1", ascii "udp_max_bytes=9"]
def content : Props := fun k =>
  if k = ascii "net_collector_ip" then some [] else if k = ascii "xlog_sampling_enabled" then some (ascii "Yes") else none
def after : Configure := (Config.refresh env (some (ascii "h")) (.good 7 content) (.good 7 content) fresh).getD fresh

example : WellFormedEnv env := by decide +kernel
example : after.objName = ascii "/h/a" := by decide +kernel
example : after.fields "NetCollectorIP" = some (.text (ascii "127.0.0.1")) := by decide +kernel
example : after.fields "UDPMaxBytes" = some (.int 9) := by decide +kernel
example : after.fields "XlogSamplingEnabled" = some (.bool true) := by decide +kernel
example : after.descs.length = 63 := by decide +kernel
example : after.traceConf.keep = 2048 := by decide +kernel
example : Stamped 0 .absent [.change (.good 7 content), .refresh (.good 7 content), .change .absent, .refresh (.good 9 content)] :=
  ⟨by simp [Later, stamp], Or.inl ⟨rfl, by simp [Later, stamp], Or.inr ⟨by simp [Later, stamp], trivial⟩⟩⟩

end ConfDemo
end Scouter
