import Verif.Model.Value
/-!
# Profile steps (scouterx/common/netdata/*step.go)
-/
namespace Scouter

/-- step.go:39-43. -/
structure SingleStep where
  parent : BitVec 32
  index : BitVec 32
  startTime : BitVec 32
deriving DecidableEq, Repr

/-- The implementations of `Step` (step.go:28-37): methodstep.go:3-8, messagestep.go:3-6, hmessagestep.go:3-8,
pmessagestep.go:16-23 (`tempMap` is never used and omitted), apicallstep.go:3-12, threadstep.go:3-8,
dumpstep.go:3-12. -/
inductive StepBody where
  | method (hash elapsed cpuTime : BitVec 32)
  | message (message : Bytes)
  | hashed (hash time value : BitVec 32)
  | pmessage (hash elapsed : BitVec 32) (level : BitVec 8) (paramString : Bytes)
  | apicall (txid : BitVec 64) (hash elapsed cpuTime error : BitVec 32) (opt : BitVec 8) (address : Bytes)
  | async (txid : BitVec 64) (hash elapsed : BitVec 32)
  | dump (stacks : List (BitVec 32)) (threadId : BitVec 64) (threadName threadState : Bytes)
      (lockOwnerId : BitVec 64) (lockName lockOwnerName : Bytes)
deriving DecidableEq, Repr

/-- A step: the embedded `SingleStep` and the rest.  step.go:29-94. -/
structure Step where
  ss : SingleStep
  body : StepBody
deriving DecidableEq, Repr

/-- `GetStepType`: step.go:3-19, methodstep.go:15, messagestep.go:15, hmessagestep.go:17, pmessagestep.go:32,
apicallstep.go:19, threadstep.go:15, dumpstep.go:19 (which returns METHOD). -/
def StepBody.stepType : StepBody → BitVec 8
  | method .. => 1
  | message .. => 3
  | hashed .. => 9
  | pmessage .. => 17
  | apicall .. => 6
  | async .. => 14
  | dump .. => 1

/-- `SetMessage`'s parameter string, pmessagestep.go:48-56: every parameter followed by the ETX byte. -/
def paramString (params : List Bytes) : Bytes :=
  params.foldl (fun b s => b ++ s ++ [3]) []

namespace Out

/-- `SingleStep.Write`, step.go:66-74. -/
def writeSingleStep (o : Out) (ss : SingleStep) : Out :=
  let o := o.writeDecimal32 ss.parent
  let o := o.writeDecimal32 ss.index
  let o := o.writeDecimal32 ss.startTime
  o.writeDecimal32 0

/-- The `Write` methods of the steps: methodstep.go:19-29, messagestep.go:19-24, hmessagestep.go:21-30,
pmessagestep.go:36-46, apicallstep.go:23-39, threadstep.go:19-29, dumpstep.go:23-37. -/
def writeStepBody (o : Out) (s : Step) : Out :=
  let o := o.writeSingleStep s.ss
  match s.body with
  | .method hash elapsed cpuTime =>
    ((o.writeDecimal32 hash).writeDecimal32 elapsed).writeDecimal32 cpuTime
  | .message m => o.writeString m
  | .hashed hash time value =>
    ((o.writeDecimal32 hash).writeDecimal32 time).writeDecimal32 value
  | .pmessage hash elapsed level ps =>
    (((o.writeDecimal32 hash).writeDecimal32 elapsed).writeDecimal32 (level.setWidth 32)).writeString ps
  | .apicall txid hash elapsed cpuTime error opt address =>
    let o := (((((o.writeDecimal txid).writeDecimal32 hash).writeDecimal32 elapsed).writeDecimal32
      cpuTime).writeDecimal32 error).writeInt8 opt
    if opt = 1 then o.writeString address else o
  | .async txid hash elapsed =>
    (((o.writeDecimal txid).writeDecimal32 hash).writeDecimal32 elapsed).writeInt8 1
  | .dump stacks threadId threadName threadState lockOwnerId lockName lockOwnerName =>
    let o := o.writeInt32Array stacks
    let o := o.writeInt64 threadId
    let o := o.writeString threadName
    let o := o.writeString threadState
    let o := o.writeInt64 lockOwnerId
    let o := o.writeString lockName
    o.writeString lockOwnerName

/-- `WriteStep`, dataoutputx.go:165-169. -/
def writeStep (o : Out) (s : Step) : Out := (o.writeInt8 s.body.stepType).writeStepBody s

end Out

/-- The loop body of `StepsToBytes`, step.go:86-90; `none` is a nil step. -/
def Out.writeStepOpt (dout : Out) (step : Option Step) : Out :=
  match step with
  | some s => dout.writeStep s
  | none => dout

/-- `StepsToBytes`, step.go:81-92.  (A nil slice gives nil, i.e. no bytes, like the empty slice.) -/
def stepsToBytes (steps : List (Option Step)) : Bytes :=
  (steps.foldl Out.writeStepOpt Out.new).bytes

end Scouter
