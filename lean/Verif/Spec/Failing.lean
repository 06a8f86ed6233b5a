import Verif.Model.Failing
import Verif.Spec.Answers
import Verif.Spec.Files
/-! # Vocabulary for requests that fail (C110) -/
namespace Scouter
namespace Failing
open Trace Dump Handlers Tcp

/-- What `filepath.Walk` hands over for the files in and below a directory, when nothing fails. -/
def plainVisits (m : Machine) (a : Agent) (dir : Path) : List (Option Info) :=
  (filesBelow a.fs dir).map fun e =>
    some { isDir := false, name := baseName e.1, size := BitVec.ofNat 64 e.2.length, modified := m.fileMillis a.requests e.1 }

/-- Nothing fails. -/
structure Sound (f : Faults) (m : Machine) (a : Agent) : Prop where
  created : f.created = true
  dumpWrite : f.dumpWrite = none
  opened : f.opened = true
  reads : ∀ i, f.readFails i = false
  visits : ∀ dir, f.visits dir = plainVisits m a dir
  confWrite : f.confWrite = none

/-- The two agents differ at most in this: the second has sent one more alert (a fatal one, with the title "Panic"), made with
another reading of the machine's oracles, and has counted a request more. -/
structure OneAlertMore (a b : Agent) : Prop where
  conf : b.conf = a.conf
  text : b.text = a.text
  fs : b.fs = a.fs
  requests : b.requests = a.requests + 1
  alert : ∃ msg, b.world.proxy.direct = a.world.proxy.direct ++ [.alert
    { time := 0, objType := a.world.conf.objType, objHash := a.world.conf.objHash, level := 3, title := ascii "Panic", message := msg, tags := [] }]
  tctxs : b.world.tctxs = a.world.tctxs
  registry : b.world.registry = a.world.registry
  settings : b.world.conf = a.world.conf
  offered : b.world.proxy.offered = a.world.proxy.offered

end Failing
end Scouter
