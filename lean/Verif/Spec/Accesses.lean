import Verif.Model.Accesses
/-! # Vocabulary for what goroutines touch at the same time -/
namespace Scouter
namespace Accesses

/-- The next thing the goroutine does is to touch `p` so. -/
def AboutTo (g : Gor) (p : Place) (h : How) : Prop := ∃ rest, g.code = .touch p h :: rest

/-- Two goroutines are about to touch the same thing, one of them changing it. -/
def Racing (gors : List Gor) (p : Place) : Prop := ∃ (i j : Nat) (g g' : Gor), i ≠ j ∧ gors[i]? = some g ∧ gors[j]? = some g' ∧
  AboutTo g p .write ∧ ∃ h, AboutTo g' p h

/-- What the Go runtime does not forgive (`fatal error: concurrent map writes` and the like): one goroutine changes a map while another reads,
iterates or changes it.  Taking the length is forgiven. -/
def Fatal (gors : List Gor) (p : Place) : Prop := ∃ (i j : Nat) (g g' : Gor), i ≠ j ∧ gors[i]? = some g ∧ gors[j]? = some g' ∧
  AboutTo g p .write ∧ (AboutTo g' p .read ∨ AboutTo g' p .write)

/-- The Go maps among the shared things. -/
def GoMap : Place → Prop
  | .lraTable _ | .mapTable _ | .map2Table _ | .map2Pos _ | .setTable _ | .observers | .descTable => True
  | _ => False

/-- What is only ever touched by one goroutine at a time, or by readers. -/
def Exclusive : Place → Prop
  | .lraTable _ | .mapTable _ | .map2Pos _ | .setTable _ | .observers | .descTable | .descOrder | .random | .ring _ => True
  | _ => False

end Accesses
end Scouter
