import Verif.Proofs.Simulate
import Verif.Model.Binary
import Verif.Model.Compact
/-
The methods of the binary and the compact protocol read with `readAll` only.
-/

namespace Thrift.Binary

theorem readInt_steady (n : Nat) : Steady (readInt n) :=
  Steady.bind (Steady.readAll _) fun _ => Steady.pure _

theorem readBinary_steady (cfg : Cfg) : Steady (readBinary cfg) :=
  Steady.bind (readInt_steady 4) fun _ => Steady.bind (Steady.lift _) fun _ => Steady.readAll _

theorem readString_steady (cfg : Cfg) : Steady (readString cfg) :=
  Steady.bind (readBinary_steady cfg) fun _ => Steady.lift _

theorem readListBegin_steady (cfg : Cfg) : Steady (readListBegin cfg) :=
  Steady.bind (readInt_steady 1) fun _ => Steady.bind (readInt_steady 4) fun _ =>
    Steady.bind (Steady.lift _) fun _ => Steady.pure _

theorem steadyOps (cfg : Cfg) : SteadyOps (rd cfg) where
  structBegin := Steady.pure _
  structEnd := Steady.pure _
  fieldBegin := Steady.bind (readInt_steady 1) fun _ => Steady.ite (Steady.pure _)
    (Steady.bind (readInt_steady 2) fun _ => Steady.pure _)
  fieldEnd := Steady.pure _
  mapBegin := Steady.bind (readInt_steady 1) fun _ => Steady.bind (readInt_steady 1) fun _ =>
    Steady.bind (readInt_steady 4) fun _ => Steady.bind (Steady.lift _) fun _ => Steady.pure _
  mapEnd := Steady.pure _
  listBegin := readListBegin_steady cfg
  listEnd := Steady.pure _
  setBegin := readListBegin_steady cfg
  setEnd := Steady.pure _
  bool := Steady.bind (readInt_steady 1) fun _ => Steady.ite (Steady.pure _) (Steady.pure _)
  byte := readInt_steady 1
  i16 := readInt_steady 2
  i32 := readInt_steady 4
  i64 := readInt_steady 8
  double := Steady.bind (Steady.readAll _) fun _ => Steady.pure _
  string := readString_steady cfg
  binary := readBinary_steady cfg
  uuid := Steady.readAll _

theorem readMessageBegin_steady (cfg : Cfg) : Steady (readMessageBegin cfg) := by
  refine Steady.bind (readInt_steady 4) fun sz => Steady.ite (Steady.ite (Steady.raise _) ?_)
    (Steady.ite (Steady.raise _) ?_)
  · exact Steady.bind (readString_steady cfg) fun _ => Steady.bind (readInt_steady 4) fun _ =>
      Steady.pure _
  · exact Steady.bind (Steady.readAll _) fun _ => Steady.bind (Steady.lift _) fun _ =>
      Steady.bind (readInt_steady 1) fun _ => Steady.bind (readInt_steady 4) fun _ => Steady.pure _

end Thrift.Binary

namespace Thrift.Compact

theorem readUByte_steady : Steady readUByte := Steady.bind (Steady.readAll _) fun _ => Steady.pure _
theorem readByteRaw_steady : Steady readByteRaw :=
  Steady.bind (Steady.readAll _) fun _ => Steady.pure _

theorem readVarintLoop_steady (k r sh : Nat) : Steady (readVarintLoop k r sh) := by
  induction k generalizing r sh with
  | zero => exact Steady.raise _
  | succ k ih =>
    exact Steady.bind (Steady.readAll _) fun _ => Steady.ite (Steady.pure _) (ih _ _)

theorem readVarint_steady : Steady readVarint := readVarintLoop_steady _ _ _
theorem readZigZag_steady : Steady readZigZag := Steady.bind readVarint_steady fun _ => Steady.pure _
theorem readSize_steady : Steady readSize :=
  Steady.bind readVarint_steady fun _ => Steady.ite (Steady.raise _) (Steady.pure _)
theorem readBinaryRaw_steady (cfg : Cfg) : Steady (readBinaryRaw cfg) :=
  Steady.bind readSize_steady fun _ => Steady.bind (Steady.lift _) fun _ => Steady.readAll _

theorem reader_steady {α : Type} {m : P St α} (h : Steady m) : Steady (reader m) :=
  Steady.bind Steady.get fun _ => Steady.bind (Steady.assert _) fun _ => h

theorem readFieldBegin_steady : Steady readFieldBegin := by
  refine Steady.bind Steady.get fun _ => Steady.bind (Steady.assert _) fun _ =>
    Steady.bind readUByte_steady fun _ => Steady.ite (Steady.pure _) ?_
  refine Steady.ite (Steady.bind readZigZag_steady fun _ => ?_)
    (Steady.bind Steady.get fun _ => Steady.bind (Steady.pure _) fun _ => ?_) <;>
  exact Steady.bind (Steady.modify _) fun _ =>
    Steady.ite (Steady.bind (Steady.modify _) fun _ => Steady.bind (Steady.lift _) fun _ => Steady.pure _)
      (Steady.ite
        (Steady.bind (Steady.modify _) fun _ => Steady.bind (Steady.lift _) fun _ => Steady.pure _)
        (Steady.bind (Steady.modify _) fun _ => Steady.bind (Steady.lift _) fun _ => Steady.pure _))

theorem readStructBegin_steady : Steady readStructBegin :=
  Steady.bind Steady.get fun _ => Steady.bind (Steady.assert _) fun _ => Steady.modify _

theorem readStructEnd_steady : Steady readStructEnd := by
  refine Steady.bind Steady.get fun _ => Steady.bind (Steady.assert _) fun _ => ?_
  split
  · exact Steady.raise _
  · exact Steady.set _

theorem readFieldEnd_steady : Steady readFieldEnd :=
  Steady.bind Steady.get fun _ => Steady.bind (Steady.assert _) fun _ => Steady.modify _

theorem readCollectionBegin_steady (cfg : Cfg) : Steady (readCollectionBegin cfg) := by
  refine Steady.bind Steady.get fun _ => Steady.bind (Steady.assert _) fun _ =>
    Steady.bind readUByte_steady fun _ => Steady.bind (Steady.lift _) fun _ => ?_
  exact Steady.ite
    (Steady.bind readSize_steady fun _ => Steady.bind (Steady.lift _) fun _ =>
      Steady.bind (Steady.modify _) fun _ => Steady.pure _)
    (Steady.bind (Steady.pure _) fun _ => Steady.bind (Steady.lift _) fun _ =>
      Steady.bind (Steady.modify _) fun _ => Steady.pure _)

theorem readMapBegin_steady (cfg : Cfg) : Steady (readMapBegin cfg) := by
  refine Steady.bind Steady.get fun _ => Steady.bind (Steady.assert _) fun _ =>
    Steady.bind readSize_steady fun _ => Steady.bind (Steady.lift _) fun _ => ?_
  exact Steady.ite
    (Steady.bind readUByte_steady fun _ => Steady.bind (Steady.lift _) fun _ =>
      Steady.bind (Steady.lift _) fun _ => Steady.bind (Steady.modify _) fun _ => Steady.pure _)
    (Steady.bind (Steady.pure _) fun _ => Steady.bind (Steady.lift _) fun _ =>
      Steady.bind (Steady.lift _) fun _ => Steady.bind (Steady.modify _) fun _ => Steady.pure _)

theorem readCollectionEnd_steady : Steady readCollectionEnd := by
  refine Steady.bind Steady.get fun _ => Steady.bind (Steady.assert _) fun _ => ?_
  split
  · exact Steady.raise _
  · exact Steady.set _

theorem steadyOps (cfg : Cfg) : SteadyOps (rd cfg) where
  structBegin := readStructBegin_steady
  structEnd := readStructEnd_steady
  fieldBegin := readFieldBegin_steady
  fieldEnd := readFieldEnd_steady
  mapBegin := readMapBegin_steady cfg
  mapEnd := readCollectionEnd_steady
  listBegin := readCollectionBegin_steady cfg
  listEnd := readCollectionEnd_steady
  setBegin := readCollectionBegin_steady cfg
  setEnd := readCollectionEnd_steady
  bool := Steady.bind Steady.get fun _ => Steady.ite (Steady.pure _) (Steady.ite
    (Steady.bind readByteRaw_steady fun _ => Steady.pure _) (Steady.raise _))
  byte := reader_steady readByteRaw_steady
  i16 := reader_steady readZigZag_steady
  i32 := reader_steady readZigZag_steady
  i64 := reader_steady readZigZag_steady
  double := reader_steady (Steady.bind (Steady.readAll _) fun _ => Steady.pure _)
  string := Steady.bind (reader_steady (readBinaryRaw_steady cfg)) fun _ => Steady.lift _
  binary := reader_steady (readBinaryRaw_steady cfg)
  uuid := reader_steady (Steady.readAll _)

theorem readMessageBegin_steady (cfg : Cfg) : Steady (readMessageBegin cfg) :=
  Steady.bind Steady.get fun _ => Steady.bind (Steady.assert _) fun _ =>
    Steady.bind readUByte_steady fun _ => Steady.ite (Steady.raise _)
      (Steady.bind readUByte_steady fun _ => Steady.ite (Steady.raise _)
        (Steady.bind readVarint_steady fun _ => Steady.bind (readBinaryRaw_steady cfg) fun _ =>
          Steady.bind (Steady.lift _) fun _ => Steady.pure _))

end Thrift.Compact
