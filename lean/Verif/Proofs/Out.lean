import Verif.Model.Pack
import Verif.Model.Step
/-! # Every writer is `write` of a fixed byte string (helper lemmas for C01-C14) -/
namespace Scouter
open Out

namespace Out

theorem write_write (o : Out) (a b : Bytes) : (o.write a).write b = o.write (a ++ b) := by
  simp [write, BitVec.ofNat_add, BitVec.add_assoc]

theorem write_nil (o : Out) : o.write [] = o := by
  cases o; simp [write]

theorem bytes_write (o : Out) (a : Bytes) : (o.write a).bytes = o.bytes ++ a := rfl
@[simp] theorem bytes_new : Out.new.bytes = [] := rfl

theorem writeInt8_eq (o : Out) (v) : o.writeInt8 v = o.write [v] := rfl
theorem writeInt16_eq (o : Out) (v) : o.writeInt16 v = o.write (be16 v) := rfl
theorem writeInt32_eq (o : Out) (v) : o.writeInt32 v = o.write (be32 v) := rfl
theorem writeInt64_eq (o : Out) (v) : o.writeInt64 v = o.write (be64 v) := rfl
theorem writeFloat32_eq (o : Out) (v) : o.writeFloat32 v = o.write (be32 v) := rfl
theorem writeFloat64_eq (o : Out) (v) : o.writeFloat64 v = o.write (be64 v) := rfl

def encBool (v : Bool) : Bytes := if v = true then [1] else [0]
theorem writeBoolean_eq (o : Out) (v) : o.writeBoolean v = o.write (encBool v) := by
  unfold writeBoolean encBool; split <;> rfl

def encDec (v : BitVec 64) : Bytes :=
  if v = 0 then [0]
  else if -128 ≤ v.toInt ∧ v.toInt ≤ 127 then 1 :: [v.setWidth 8]
  else if -32768 ≤ v.toInt ∧ v.toInt ≤ 32767 then 2 :: be16 (v.setWidth 16)
  else if -2147483648 ≤ v.toInt ∧ v.toInt ≤ 2147483647 then 4 :: be32 (v.setWidth 32)
  else 8 :: be64 v

theorem writeDecimal_eq (o : Out) (v) : o.writeDecimal v = o.write (encDec v) := by
  unfold writeDecimal encDec
  repeat' split
  all_goals simp [writeInt8_eq, writeInt16_eq, writeInt32_eq, writeInt64_eq, write_write]

def encDec32 (v : BitVec 32) : Bytes :=
  if v = 0 then [0]
  else if -128 ≤ v.toInt ∧ v.toInt ≤ 127 then 1 :: [v.setWidth 8]
  else if -32768 ≤ v.toInt ∧ v.toInt ≤ 32767 then 2 :: be16 (v.setWidth 16)
  else 4 :: be32 v

theorem writeDecimal32_eq (o : Out) (v) : o.writeDecimal32 v = o.write (encDec32 v) := by
  unfold writeDecimal32 encDec32
  repeat' split
  all_goals simp [writeInt8_eq, writeInt16_eq, writeInt32_eq, write_write]

def encBlob (b : Bytes) : Bytes :=
  if b.length = 0 then [0]
  else if b.length ≤ 253 then BitVec.ofNat 8 b.length :: b
  else if b.length ≤ 65535 then 255 :: (be16 (BitVec.ofNat 16 b.length) ++ b)
  else 254 :: (be32 (BitVec.ofNat 32 b.length) ++ b)

theorem writeBlob_eq (o : Out) (b) : o.writeBlob b = o.write (encBlob b) := by
  unfold writeBlob encBlob
  simp only []
  repeat' split
  all_goals simp [writeInt8_eq, writeInt16_eq, writeInt32_eq, write_write]

def encString (b : Bytes) : Bytes := if b.length > 100000 then encBlob hugeMarker else encBlob b

theorem writeString_eq (o : Out) (b) : o.writeString b = o.write (encString b) := by
  unfold writeString encString
  split
  · next h => simp [h, writeInt8_eq, encBlob]
  · split <;> simp [writeBlob_eq]

def encIntBytes (b : Bytes) : Bytes := be32 (BitVec.ofNat 32 b.length) ++ b
theorem writeIntBytes_eq (o : Out) (b) : o.writeIntBytes b = o.write (encIntBytes b) := by
  simp [writeIntBytes, writeInt32_eq, write_write, encIntBytes]

def encInt32Array (vs : List (BitVec 32)) : Bytes := be16 (BitVec.ofNat 16 vs.length) ++ vs.flatMap be32

theorem foldl_writeInt32 (o : Out) (vs : List (BitVec 32)) :
    vs.foldl (fun o v => o.writeInt32 v) o = o.write (vs.flatMap be32) := by
  induction vs generalizing o with
  | nil => simp [write_nil]
  | cons v vs ih => rw [List.foldl_cons, ih, writeInt32_eq, write_write]; rfl

theorem writeInt32Array_eq (o : Out) (vs) : o.writeInt32Array vs = o.write (encInt32Array vs) := by
  simp [writeInt32Array, foldl_writeInt32, writeInt16_eq, write_write, encInt32Array]

mutual
def encValue (v : Value) : Bytes :=
  match v with
  | .goNil => [0]
  | .null => [0]
  | .bool b => 10 :: encBool b
  | .dec v => 20 :: encDec v
  | .float v => 30 :: be32 v
  | .double v => 40 :: be64 v
  | .text s => 50 :: encString s
  | .textHash v => 51 :: be32 v
  | .blob b => 60 :: encBlob b
  | .ip4 b => 61 :: b
  | .list vs => 70 :: (encDec (BitVec.ofNat 64 vs.length) ++ encValues vs)
  | .map es => 80 :: (encDec (BitVec.ofNat 64 es.length) ++ encEntries es)
def encValues (vs : List Value) : Bytes :=
  match vs with
  | [] => []
  | v :: vs => encValue v ++ encValues vs
def encEntries (es : List (Bytes × Value)) : Bytes :=
  match es with
  | [] => []
  | (k, v) :: es => encString k ++ (encValue v ++ encEntries es)
end

mutual
theorem writeValue_eq (o : Out) (v : Value) : o.writeValue v = o.write (encValue v) := by
  cases v <;> simp [writeValue, encValue, writeInt8_eq, writeBoolean_eq, writeDecimal_eq, writeFloat32_eq,
    writeFloat64_eq, writeString_eq, writeInt32_eq, writeBlob_eq, write_write, writeValues_eq, writeEntries_eq]
theorem writeValues_eq (o : Out) (vs : List Value) : o.writeValues vs = o.write (encValues vs) := by
  cases vs with
  | nil => simp [writeValues, encValues, write_nil]
  | cons v vs => simp [writeValues, encValues, writeValue_eq o v, writeValues_eq _ vs, write_write]
theorem writeEntries_eq (o : Out) (es : List (Bytes × Value)) : o.writeEntries es = o.write (encEntries es) := by
  cases es with
  | nil => simp [writeEntries, encEntries, write_nil]
  | cons e es =>
    obtain ⟨k, v⟩ := e
    simp [writeEntries, encEntries, writeString_eq, writeValue_eq _ v, writeEntries_eq _ es, write_write]
end

/-- All the "writer = write of bytes" lemmas. -/
theorem writeMapPack_eq (o : Out) (p) : o.writeMapPack p =
    o.write (encDec (BitVec.ofNat 64 p.table.length) ++ encEntries p.table) := by
  simp [writeMapPack, writeDecimal_eq, writeEntries_eq, write_write]

theorem writeTextPack_eq (o : Out) (p) : o.writeTextPack p =
    o.write (encString p.xtype ++ (be32 p.hash ++ encString p.text)) := by
  simp [writeTextPack, writeString_eq, writeInt32_eq, write_write]

theorem writePerfCounterPack_eq (o : Out) (p) : o.writePerfCounterPack p =
    o.write (be64 p.time ++ (encString p.objName ++ ([p.timetype] ++ encValue (.map p.data)))) := by
  simp [writePerfCounterPack, writeString_eq, writeInt64_eq, writeInt8_eq, writeValue_eq, write_write]

theorem writePerfCounterK8SPack_eq (o : Out) (p) : o.writePerfCounterK8SPack p =
    o.write (be64 p.time ++ (encString p.siteID ++ (encString p.cluster ++ (encString p.nameSpace ++
      (encString p.nodeName ++ (encString p.daemonSetName ++ (encString p.deploymentName ++ (encString p.podName ++
      (encString p.containerName ++ (encString p.objName ++ ([p.timetype] ++ ([p.metricLevel] ++
      encValue (.map p.data))))))))))))) := by
  simp only [writePerfCounterK8SPack, writeString_eq, writeInt64_eq, writeInt8_eq, writeValue_eq, write_write,
    List.append_assoc]

theorem writeObjectPack2_eq (o : Out) (p) : o.writeObjectPack2 p =
    o.write (encString p.siteID ++ (encString p.objType ++ (encDec32 p.objHash ++ (encString p.objName ++
      (encString p.address ++ (encString p.version ++ (encBool p.alive ++ (encDec p.wakeup ++ ([p.family] ++
      encValue (.map p.tags)))))))))) := by
  simp only [writeObjectPack2, writeString_eq, writeInt8_eq, writeValue_eq, writeDecimal_eq, writeDecimal32_eq,
    writeBoolean_eq, write_write, List.append_assoc]

theorem writeObjectPack_eq (o : Out) (p) : o.writeObjectPack p =
    o.write (encString p.objType ++ (encDec32 p.objHash ++ (encString p.objName ++
      (encString p.address ++ (encString p.version ++ (encBool p.alive ++ (encDec p.wakeup ++
      encValue (.map p.tags)))))))) := by
  simp only [writeObjectPack, writeString_eq, writeValue_eq, writeDecimal_eq, writeDecimal32_eq,
    writeBoolean_eq, write_write, List.append_assoc]

theorem writeAlertPack_eq (o : Out) (p) : o.writeAlertPack p =
    o.write (be64 p.time ++ ([p.level] ++ (encString p.objType ++ (be32 p.objHash ++
      (encString p.title ++ (encString p.message ++ encValue (.map p.tags))))))) := by
  simp only [writeAlertPack, writeString_eq, writeInt8_eq, writeInt32_eq, writeInt64_eq, writeValue_eq, write_write,
    List.append_assoc]

theorem writeXlogProfilePack_eq (o : Out) (p) : o.writeXlogProfilePack p =
    o.write (encDec p.time ++ (encDec32 p.objHash ++ (encDec32 p.service ++ (be64 p.txid ++ encBlob p.profile)))) := by
  simp only [writeXlogProfilePack, writeDecimal_eq, writeDecimal32_eq, writeInt64_eq, writeBlob_eq, write_write,
    List.append_assoc]

def encXlogInner (p : XlogPack) : Bytes :=
  encDec p.endTime ++ (encDec32 p.objHash ++ (encDec32 p.service ++ (be64 p.txid ++ (be64 p.caller ++ (be64 p.gxid ++
  (encDec32 p.elapsed ++ (encDec32 p.error ++ (encDec32 p.cpu ++ (encDec32 p.sqlCount ++ (encDec32 p.sqlTime ++
  (encBlob p.ipaddr ++ (encDec32 p.kbytes ++ (encDec32 p.status ++ (encDec p.userid ++ (encDec32 p.userAgent ++
  (encDec32 p.referer ++ (encDec32 p.group ++ (encDec32 p.apicallCount ++ (encDec32 p.apicallTime ++
  (encString p.countryCode ++ (encDec32 p.city ++ ([p.xType] ++ (encDec32 p.login ++ (encDec32 p.desc ++
  (encDec32 p.webHash ++ (encDec32 p.webTime ++ ([p.hasDump] ++ (encDec32 p.threadNameHash ++ (encString p.text1 ++
  (encString p.text2 ++ (encDec32 p.queuingHostHash ++ (encDec32 p.queuingTime ++ (encDec32 p.queuing2ndHostHash ++
  (encDec32 p.queuing2ndTime ++ (encString p.text3 ++ (encString p.text4 ++ (encString p.text5 ++
  (encDec32 p.profileCount ++ (encBool p.b3Mode ++ (encDec32 p.profileSize ++ ([p.discardType] ++
  encBool p.ignoreGlobalConsequentSampling)))))))))))))))))))))))))))))))))))))))))

theorem writeXlogInner_eq (o : Out) (p) : o.writeXlogInner p = o.write (encXlogInner p) := by
  simp only [writeXlogInner, encXlogInner, writeString_eq, writeInt8_eq, writeInt64_eq, writeDecimal_eq,
    writeDecimal32_eq, writeBoolean_eq, writeBlob_eq, write_write, List.append_assoc]

theorem writeXlogPack_eq (o : Out) (p) : o.writeXlogPack p = o.write (encBlob (encXlogInner p)) := by
  simp [writeXlogPack, writeXlogInner_eq, writeBlob_eq, bytes_write]

/-- Every pack writer appends a fixed byte string. -/
theorem writePack_exists (p : Pack) : ∃ bs, ∀ o : Out, o.writePack p = o.write bs := by
  cases p <;> simp only [writePack, writeInt8_eq, writeMapPack_eq, writeTextPack_eq, writePerfCounterPack_eq,
    writePerfCounterK8SPack_eq, writeObjectPack_eq, writeObjectPack2_eq, writeAlertPack_eq, writeXlogPack_eq,
    writeXlogProfilePack_eq, write_write] <;> exact ⟨_, fun _ => rfl⟩

def encSS (ss : SingleStep) : Bytes :=
  encDec32 ss.parent ++ (encDec32 ss.index ++ (encDec32 ss.startTime ++ encDec32 0))

def encBody (b : StepBody) : Bytes :=
  match b with
  | .method hash elapsed cpuTime => encDec32 hash ++ (encDec32 elapsed ++ encDec32 cpuTime)
  | .message m => encString m
  | .hashed hash time value => encDec32 hash ++ (encDec32 time ++ encDec32 value)
  | .pmessage hash elapsed level ps =>
    encDec32 hash ++ (encDec32 elapsed ++ (encDec32 (level.setWidth 32) ++ encString ps))
  | .apicall txid hash elapsed cpuTime error opt address =>
    encDec txid ++ (encDec32 hash ++ (encDec32 elapsed ++ (encDec32 cpuTime ++ (encDec32 error ++ ([opt] ++
      if opt = 1 then encString address else [])))))
  | .async txid hash elapsed => encDec txid ++ (encDec32 hash ++ (encDec32 elapsed ++ [1]))
  | .dump stacks threadId threadName threadState lockOwnerId lockName lockOwnerName =>
    encInt32Array stacks ++ (be64 threadId ++ (encString threadName ++ (encString threadState ++
      (be64 lockOwnerId ++ (encString lockName ++ encString lockOwnerName)))))

def encStep (s : Step) : Bytes := s.body.stepType :: (encSS s.ss ++ encBody s.body)

theorem writeStep_eq (o : Out) (s : Step) : o.writeStep s = o.write (encStep s) := by
  obtain ⟨ss, body⟩ := s
  cases body <;> simp only [writeStep, writeStepBody, writeSingleStep, encStep, encSS, encBody, writeString_eq,
    writeInt8_eq, writeInt64_eq, writeDecimal_eq, writeDecimal32_eq, writeInt32Array_eq, write_write,
    List.append_assoc, List.cons_append, List.nil_append]
  case apicall => split <;> simp

theorem stepsToBytes_eq (steps : List (Option Step)) :
    stepsToBytes steps = (steps.filterMap id).flatMap encStep := by
  have : ∀ o : Out, steps.foldl writeStepOpt o = o.write ((steps.filterMap id).flatMap encStep) := by
    induction steps with
    | nil => intro o; simp [write_nil]
    | cons x xs ih =>
      intro o
      cases x with
      | none => simpa [writeStepOpt] using ih o
      | some s => simp [writeStepOpt, ih, writeStep_eq, write_write]
  simp [stepsToBytes, this, bytes_write]

end Out
end Scouter
