import Verif.Props.Values
import Verif.Proofs.WirePack
/-! # C09 - C12: packs on the wire -/
namespace Scouter
open Out In Spec
open Wire (shown)

namespace Spec
/-- The table of a map after a round trip. -/
def receivedTable (t : Table) : Table := lastWins (receivedM t)
/-- A table the agent's reader can read. -/
def ReadableTable (t : Table) : Prop := Readable (.map t)
/-- A text the agent's reader can read. -/
def ReadableText (s : Bytes) : Prop := ReadableLen (shown s).length
/-- A text that is transmitted unchanged and that the agent's reader can read. -/
def GoodText (s : Bytes) : Prop := s.length ≤ 100000 ∧ ReadableLen s.length
/-- A table that is transmitted unchanged and that the agent's reader can read. -/
def GoodTable (t : Table) : Prop := Readable (.map t) ∧ Plain (.map t)
end Spec

theorem Spec.GoodText.readable {s : Bytes} (h : GoodText s) : ReadableText s := by
  unfold ReadableText; rw [shown_of_le h.1]; exact h.2
theorem Spec.GoodText.shown {s : Bytes} (h : GoodText s) : shown s = s := shown_of_le h.1
theorem Spec.GoodTable.received {t : Table} (h : GoodTable t) : receivedTable t = t := by
  have := received_plain _ h.2
  simpa [Spec.received, receivedTable] using this

theorem readTable_enc (t : Table) (h : ReadableTable t) (r : Bytes) :
    readValue (encValue (.map t) ++ r) = .ok (.map (receivedTable t), none, r) := by
  have := readValue_enc (.map t) h r
  simpa only [Spec.received, receivedTable] using this

/-- C09: map packs, for every table and iteration order. -/
theorem C09_map_pack_roundtrip (p : MapPack) (h : ReadableTable p.table) (rest : Bytes) :
    readPack ((Out.new.writePack (.map p)).bytes ++ rest) =
      .ok (some (.map ⟨receivedTable p.table⟩), none, rest) := by
  rw [writePack, writeInt8_eq, writeMapPack_eq, write_write, bytes_new_write]
  have hr : readMapPack (encDec (BitVec.ofNat 64 p.table.length) ++ (encEntries p.table ++ rest)) =
      .ok (⟨receivedTable p.table⟩, none, rest) := by
    simp only [ReadableTable, Readable] at h
    simp only [readMapPack, readDecimal_enc, toInt_ofNat63 _ h.1]
    rw [readEntries_readValue_enc _ h.2 _ _ (by simp)]
    rfl
  simp only [List.cons_append, List.nil_append, List.append_assoc, readPack, Pack.packType]
  rw [if_pos (by decide), hr]; rfl

/-- C09: performance-counter packs. -/
theorem C09_counter_pack_roundtrip (p : PerfCounterPack) (hn : ReadableText p.objName) (h : ReadableTable p.data)
    (rest : Bytes) :
    readPack ((Out.new.writePack (.perfCounter p)).bytes ++ rest) =
      .ok (some (.perfCounter { p with objName := shown p.objName, data := receivedTable p.data }), none, rest) := by
  rw [writePack, writeInt8_eq, writePerfCounterPack_eq, write_write, bytes_new_write]
  have hr : ∀ r, readPerfCounterPack (be64 p.time ++ (encString p.objName ++ (p.timetype :: (encValue (.map p.data) ++ r)))) =
      .ok ({ p with objName := shown p.objName, data := receivedTable p.data }, none, r) := by
    intro r
    simp only [readPerfCounterPack, readInt64_be, readString_enc _ _ hn, Go.ok_bind, readInt8_cons,
      readTable_enc _ h, assertMap]
    rfl
  simp only [List.cons_append, List.nil_append, List.append_assoc, readPack, Pack.packType]
  rw [if_neg (by decide), if_neg (by decide), if_pos (by decide), hr]; rfl

/-- **C09**: the data of a counter pack must be a map: with any other value in its place the pack is not read as one with other or no data,
the reader panics. -/
theorem C09_counter_pack_needs_a_map (time : BitVec 64) (name : Bytes) (hn : ReadableText name) (timetype : BitVec 8) (v : Value) (hv : Readable v)
    (hm : ∀ es, v ≠ .map es) (rest : Bytes) :
    readPack ((((((Out.new.writeInt8 60).writeInt64 time).writeString name).writeInt8 timetype).writeValue v).bytes ++ rest) = .panic := by
  have hr : assertMap (received v) = .panic := by
    cases v <;> simp only [Spec.received, assertMap] <;> exact absurd rfl (hm _)
  rw [writeInt8_eq, writeInt64_eq, writeString_eq, writeInt8_eq, writeValue_eq]
  simp only [write_write, bytes_new_write, List.cons_append, List.nil_append, List.append_assoc, readPack]
  rw [if_neg (by decide), if_neg (by decide), if_pos (by decide)]
  simp only [readPerfCounterPack, readInt64_be, readString_enc _ _ hn, Go.ok_bind, readInt8_cons, readValue_enc v hv, hr]
  rfl

/-- C09: version-2 object packs. -/
theorem C09_object2_pack_roundtrip (p : ObjectPack2) (h1 : ReadableText p.siteID) (h2 : ReadableText p.objType)
    (h3 : ReadableText p.objName) (h4 : ReadableText p.address) (h5 : ReadableText p.version)
    (h : ReadableTable p.tags) (rest : Bytes) :
    readPack ((Out.new.writePack (.object2 p)).bytes ++ rest) =
      .ok (some (.object2 { p with
        siteID := shown p.siteID, objType := shown p.objType, objName := shown p.objName, address := shown p.address,
        version := shown p.version, tags := receivedTable p.tags }), none, rest) := by
  rw [writePack, writeInt8_eq, writeObjectPack2_eq, write_write, bytes_new_write]
  simp only [List.cons_append, List.nil_append, List.append_assoc, readPack, Pack.packType]
  rw [if_neg (by decide), if_neg (by decide), if_neg (by decide), if_pos (by decide)]
  simp only [readObjectPack2, readString_enc _ _ h1, readString_enc _ _ h2, readString_enc _ _ h3,
    readString_enc _ _ h4, readString_enc _ _ h5, Go.ok_bind, readInt8_cons, readDecimal_enc, readDecimal_enc32,
    readBoolean_enc, setWidth_signExtend, readTable_enc _ h, assertMap]
  rfl

/-- C09: the version-1 object pack through its own `Read`. -/
theorem C09_object_pack_own_read (p : ObjectPack) (h2 : ReadableText p.objType)
    (h3 : ReadableText p.objName) (h4 : ReadableText p.address) (h5 : ReadableText p.version)
    (h : ReadableTable p.tags) (rest : Bytes) :
    readObjectPack ((Out.new.writeObjectPack p).bytes ++ rest) =
      .ok ({ p with
        objType := shown p.objType, objName := shown p.objName, address := shown p.address,
        version := shown p.version, tags := receivedTable p.tags }, none, rest) := by
  rw [writeObjectPack_eq, bytes_new_write]
  simp only [List.cons_append, List.nil_append, List.append_assoc, readObjectPack, readString_enc _ _ h2,
    readString_enc _ _ h3, readString_enc _ _ h4, readString_enc _ _ h5, Go.ok_bind, readDecimal_enc,
    readDecimal_enc32, readBoolean_enc, setWidth_signExtend, readTable_enc _ h, assertMap]
  rfl

/-- C09: the K8S counter pack through its own `Read`. -/
theorem C09_counterK8S_own_read (p : PerfCounterK8SPack) (h1 : ReadableText p.siteID) (h2 : ReadableText p.cluster)
    (h3 : ReadableText p.nameSpace) (h4 : ReadableText p.nodeName) (h5 : ReadableText p.daemonSetName)
    (h6 : ReadableText p.deploymentName) (h7 : ReadableText p.podName) (h8 : ReadableText p.containerName)
    (h9 : ReadableText p.objName) (h : ReadableTable p.data) (rest : Bytes) :
    readPerfCounterK8SPack ((Out.new.writePerfCounterK8SPack p).bytes ++ rest) =
      .ok ({ p with
        siteID := shown p.siteID, cluster := shown p.cluster, nameSpace := shown p.nameSpace,
        nodeName := shown p.nodeName, daemonSetName := shown p.daemonSetName,
        deploymentName := shown p.deploymentName, podName := shown p.podName,
        containerName := shown p.containerName, objName := shown p.objName,
        data := receivedTable p.data }, none, rest) := by
  rw [writePerfCounterK8SPack_eq, bytes_new_write]
  simp only [List.cons_append, List.nil_append, List.append_assoc, readPerfCounterK8SPack, readInt64_be,
    readString_enc _ _ h1, readString_enc _ _ h2,
    readString_enc _ _ h3, readString_enc _ _ h4, readString_enc _ _ h5, readString_enc _ _ h6,
    readString_enc _ _ h7, readString_enc _ _ h8, readString_enc _ _ h9, Go.ok_bind, readInt8_cons,
    readTable_enc _ h, assertMap]
  rfl

/-- C09: with texts and tables that travel unchanged, the packs themselves come back. -/
theorem C09_unchanged (m : MapPack) (c : PerfCounterPack) (o : ObjectPack2) (rest : Bytes)
    (hm : GoodTable m.table) (hc : GoodText c.objName ∧ GoodTable c.data)
    (ho : GoodText o.siteID ∧ GoodText o.objType ∧ GoodText o.objName ∧ GoodText o.address ∧ GoodText o.version ∧
      GoodTable o.tags) :
    readPack ((Out.new.writePack (.map m)).bytes ++ rest) = .ok (some (.map m), none, rest) ∧
    readPack ((Out.new.writePack (.perfCounter c)).bytes ++ rest) = .ok (some (.perfCounter c), none, rest) ∧
    readPack ((Out.new.writePack (.object2 o)).bytes ++ rest) = .ok (some (.object2 o), none, rest) := by
  obtain ⟨h1, h2, h3, h4, h5, h6⟩ := ho
  rw [C09_map_pack_roundtrip m hm.1, C09_counter_pack_roundtrip c hc.1.readable hc.2.1,
    C09_object2_pack_roundtrip o h1.readable h2.readable h3.readable h4.readable h5.readable h6.1]
  rw [hm.received, hc.2.received, h6.received, hc.1.shown, h1.shown, h2.shown, h3.shown, h4.shown, h5.shown]
  exact ⟨rfl, rfl, rfl⟩

/-- A map pack used as an example. -/
def sampleMapPack : MapPack := ⟨[(ascii "key", .list [.dec 3, .text (ascii "v")]), (ascii "n", .float 1)]⟩
example : GoodTable sampleMapPack.table := by
  refine ⟨?_, ?_⟩
  · simp only [sampleMapPack, Readable, ReadableM, ReadableL, ReadableLen]; decide
  · simp [sampleMapPack, Plain, PlainM, PlainL, ascii]

theorem readBlob_small_length (w : Byte) (hw : w.toNat ≤ 4) (s : Bytes) (b e r)
    (h : readBlob (w :: s) = .ok (b, e, r)) : b.length ≤ 4 := by
  rw [readBlob_cons] at h
  have h255 : ¬ w = 255 := by intro c; subst c; simp at hw
  have h254 : ¬ w = 254 := by intro c; subst c; simp at hw
  rw [if_neg h255, if_neg h254] at h
  split at h
  · cases h; simp
  · unfold readN at h
    repeat' split at h
    · cases h
    · cases h; simp
    · cases h
      simp
      omega

theorem encDec32_cons (v : BitVec 32) : ∃ w r, encDec32 v = w :: r ∧ w.toNat ≤ 4 := by
  unfold encDec32
  repeat' split
  · exact ⟨0, [], rfl, by decide⟩
  · exact ⟨1, _, rfl, by decide⟩
  · exact ⟨2, _, rfl, by decide⟩
  · exact ⟨4, _, rfl, by decide⟩

/-- C10 is false, for every registration whose type name is longer than four bytes (the default is "golang"):
whatever ReadPack returns for it, it is a version-2 object whose site is the type that was sent and whose type is
something else. -/
theorem C10_registration_not_readable (p : ObjectPack) (ht : GoodText p.objType) (hl : 4 < p.objType.length)
    (rest : Bytes) (q : Option Pack) (e : Option Err) (r : Bytes)
    (h : readPack ((Out.new.writePack (.object p)).bytes ++ rest) = .ok (q, e, r)) :
    ∃ q2, q = some (.object2 q2) ∧ q2.siteID = p.objType ∧ q2.objType ≠ p.objType := by
  rw [writePack, writeInt8_eq, writeObjectPack_eq, write_write, bytes_new_write] at h
  simp only [List.cons_append, List.nil_append, List.append_assoc, readPack, Pack.packType] at h
  rw [if_neg (by decide), if_neg (by decide), if_neg (by decide), if_pos (by decide)] at h
  obtain ⟨⟨q2, e2, r2⟩, h1, h2⟩ := Go.bind_eq_ok.mp h
  simp only [Go.pure_eq, Go.ok.injEq, Prod.mk.injEq] at h2
  obtain ⟨rfl, rfl, rfl⟩ := h2
  refine ⟨q2, rfl, ?_⟩
  obtain ⟨w, t, ew, hw⟩ := encDec32_cons p.objHash
  rw [ew] at h1
  simp only [readObjectPack2, readString_enc _ _ ht.readable, Go.ok_bind, ht.shown] at h1
  simp only [Go.bind_eq_ok, Go.pure_eq] at h1
  obtain ⟨⟨b, e3, s3⟩, hb, h1⟩ := h1
  have hb4 := readBlob_small_length w hw _ b e3 s3 hb
  obtain ⟨⟨_, _, _⟩, _, h1⟩ := h1
  obtain ⟨⟨_, _, _⟩, _, h1⟩ := h1
  obtain ⟨⟨_, _, _⟩, _, h1⟩ := h1
  obtain ⟨⟨_, _, _⟩, _, h1⟩ := h1
  obtain ⟨_, _, h1⟩ := h1
  cases h1
  refine ⟨rfl, ?_⟩
  intro c
  simp only at c
  rw [← c] at hl
  omega

/-- A registration used as an example: alone it makes the reader panic, followed by more bytes it is
misread. -/
def sampleObject : ObjectPack := ⟨ascii "golang", 7, ascii "/h/a", ascii "10.0.0.1", ascii "1", true, 0, []⟩

/-- A transaction log used as an example. -/
def sampleXlog : XlogPack :=
  { XlogPack.new with elapsed := 1234, error := -5, txid := 99, ipaddr := [10, 0, 0, 1], text1 := ascii "abc" }

/-- C11: the collector recovers every field of a transaction log, whatever the other bytes of the stream. -/
theorem C11_collector_reads_xlog (p : XlogPack) (h : p.ipaddr.length < 2 ^ 30) (o : Out) :
    ∃ bs, (o.writePack (.xlog p)).bytes = o.bytes ++ bs ∧
      ∀ rest, Wire.pack (bs ++ rest) = some (.xlog (denoteXlog p), rest) :=
  Wire.pack_enc (.xlog p) h o _ rfl

/-- C11: so two transaction logs with the same bytes agree on every field that is written (numbers exactly, texts up
to the 100000-byte limit). -/
theorem C11_same_bytes_same_fields (p q : XlogPack) (hp : p.ipaddr.length < 2 ^ 30) (hq : q.ipaddr.length < 2 ^ 30)
    (h : (Out.new.writePack (.xlog p)).bytes = (Out.new.writePack (.xlog q)).bytes) :
    denoteXlog p = denoteXlog q := by
  obtain ⟨b1, e1, h1⟩ := C11_collector_reads_xlog p hp Out.new
  obtain ⟨b2, e2, h2⟩ := C11_collector_reads_xlog q hq Out.new
  rw [e1, e2] at h
  have hb : b1 = b2 := by simpa using h
  subst hb
  have := (h1 []).symm.trans (h2 [])
  simpa using this

/-- C12: the collector recovers every field of map, text, counter, alert, object and profile packs. -/
theorem C12_collector_reads_pack (p : Pack) (h : SendablePack p) (d : Wire.WPack) (hd : denotePack p = some d)
    (o : Out) :
    ∃ bs, (o.writePack p).bytes = o.bytes ++ bs ∧ ∀ rest, Wire.pack (bs ++ rest) = some (d, rest) :=
  Wire.pack_enc p h o d hd

example : (sampleXlog.ipaddr.length < 2 ^ 30) ∧ (denoteXlog sampleXlog).elapsed = 1234 ∧
    (denoteXlog sampleXlog).error = -5 := by decide
example : SendablePack (.alert ⟨1700000000000, ascii "golang", 77, 2, ascii "t", ascii "m", [(ascii "k", .dec 1)]⟩) := by
  simp [SendablePack, Sendable, SendableM]
example : ReadableText (ascii "/h/a") ∧ Readable (.list [.dec 5, .text (ascii "x")]) ∧ ∀ es, Value.list [.dec 5, .text (ascii "x")] ≠ .map es := by
  refine ⟨⟨by decide +kernel, by decide +kernel⟩, ?_, by simp⟩
  simp only [Readable, ReadableL, ReadableLen]
  decide +kernel
example : SendablePack (.profile ⟨1, 2, 3, 4, 5, [1, 2, 3]⟩) := by simp [SendablePack]

example : GoodText sampleObject.objType ∧ 4 < sampleObject.objType.length := by
  refine ⟨⟨by decide, by decide, by decide⟩, by decide⟩
example : readPack (Out.new.writePack (.object sampleObject)).bytes = .panic := by rfl
example : readPack ((Out.new.writePack (.object sampleObject)).bytes ++ [3, 80, 0]) =
    .ok (some (.object2 ⟨ascii "golang", [7], 0x2f682f61, ascii "10.0.0.1", ascii "1", [0], true, 0, 3, []⟩),
      none, []) := by rfl

end Scouter
