import Verif.Proofs.Varint
import Verif.Proofs.Utf8
import Verif.Proofs.TokOK
/-
The compact protocol as a language of tokens, and its writing methods.
-/

namespace Thrift.Compact
open Spec

/-- Where in a value the protocol object is. -/
inductive Pos where
  | clear | field | value | container | boolDone
  deriving DecidableEq, Repr

structure Q where
  pos : Pos
  lastFid : Int
  structs : List (Pos × Int)
  containers : List Pos

/-- The type code of a wire type. -/
def codeOf (tt : Int) : Nat :=
  if tt = 2 then 1 else if tt = 3 then 3 else if tt = 4 then 7 else if tt = 6 then 4
  else if tt = 8 then 5 else if tt = 10 then 6 else if tt = 11 then 8 else if tt = 12 then 12
  else if tt = 13 then 11 else if tt = 14 then 10 else if tt = 15 then 9 else 13

theorem codeOf_ttype (t : Ty) : codeOf t.ttype = Spec.Compact.typeCode t := by
  cases t <;> rfl

theorem codeOf_lt (tt : Int) : 1 ≤ codeOf tt ∧ codeOf tt < 16 := by
  unfold codeOf
  repeat' split
  all_goals omega

theorem ctypes_eq {tt : Int} (h : IsTType tt) : ctypes tt = .ok (codeOf tt : Int) := by
  rcases h.cases with h | h | h | h | h | h | h | h | h | h | h | h <;> subst h <;> rfl

theorem ttypes_codeOf {tt : Int} (h : IsTType tt) : ttypes (codeOf tt : Int) = .ok tt := by
  rcases h.cases with h | h | h | h | h | h | h | h | h | h | h | h <;> subst h <;> rfl

/-- Where a token may stand. -/
def posOk (q : Q) : Tok → Prop
  | .structBegin => q.pos = .clear ∨ q.pos = .value ∨ q.pos = .container
  | .structEnd => q.pos = .field ∧ q.structs ≠ []
  | .fieldBegin _ _ => q.pos = .field
  | .boolField _ _ => q.pos = .field
  | .fieldStop => q.pos = .field
  | .fieldEnd => q.pos = .value ∨ q.pos = .boolDone
  | .mapEnd | .listEnd | .setEnd => q.pos = .container ∧ q.containers ≠ []
  | .bool _ => q.pos = .container
  | _ => q.pos = .value ∨ q.pos = .container

def stepQ (q : Q) : Tok → Q
  | .structBegin => { q with pos := .field, lastFid := 0, structs := (q.pos, q.lastFid) :: q.structs }
  | .structEnd =>
    match q.structs with
    | [] => q
    | (p, f) :: rest => { q with pos := p, lastFid := f, structs := rest }
  | .fieldBegin _ fid => { q with pos := .value, lastFid := fid }
  | .boolField fid _ => { q with pos := .boolDone, lastFid := fid }
  | .fieldEnd => { q with pos := .field }
  | .mapBegin _ _ _ | .listBegin _ _ | .setBegin _ _ =>
    { q with pos := .container, containers := q.pos :: q.containers }
  | .mapEnd | .listEnd | .setEnd =>
    match q.containers with
    | [] => q
    | p :: rest => { q with pos := p, containers := rest }
  | _ => q

/-- The bytes of a token. -/
def tokBytes (q : Q) : Tok → Bytes
  | .fieldBegin tt fid => Spec.Compact.fieldHeader q.lastFid (codeOf tt) fid
  | .boolField fid b => Spec.Compact.fieldHeader q.lastFid (Spec.Compact.boolCode b) fid
  | .fieldStop => [0]
  | .mapBegin k v n => Spec.Compact.mapHeader (codeOf k) (codeOf v) n
  | .listBegin e n => Spec.Compact.listHeader (codeOf e) n
  | .setBegin e n => Spec.Compact.listHeader (codeOf e) n
  | .bool b => [UInt8.ofNat (Spec.Compact.boolCode b)]
  | .byte i => beInt 1 i
  | .i16 i => Spec.Compact.int i
  | .i32 i => Spec.Compact.int i
  | .i64 i => Spec.Compact.int i
  | .double x => leInt 8 x.toNat
  | .str s => Spec.Compact.blob (utf8 s)
  | .bin b => Spec.Compact.blob b
  | .uuid u => u
  | _ => []

def lang (sl cl : Option Int) : Lang where
  Q := Q
  ok := fun q T => TokOK sl cl T ∧ posOk q T
  step := stepQ
  bytes := tokBytes

/-! ### Small writes -/

theorem writeUByte_eq {n : Nat} (h : n < 256) (s : St) (out : Bytes) :
    writeUByte (n : Int) s out = (.ok (), s, out ++ [UInt8.ofNat n]) := by
  have e : packU 1 (n : Int) = .ok [UInt8.ofNat n] := by
    unfold packU
    rw [if_pos (by omega)]
    simp [beBytes]
  unfold writeUByte
  rw [e]
  rfl

theorem beInt_small {n : Nat} : beInt 1 (n : Int) = [UInt8.ofNat n] := by
  unfold beInt
  simp
  apply UInt8.toNat_inj.mp
  simp
  omega

theorem writeByteRaw_eq {i : Int} (h : InRange 8 i) (s : St) (out : Bytes) :
    writeByteRaw i s out = (.ok (), s, out ++ beInt 1 i) := by
  unfold writeByteRaw
  rw [packS_eq (n := 1) h]
  rfl

theorem writeByteRaw_small {n : Nat} (h : n < 128) (s : St) (out : Bytes) :
    writeByteRaw (n : Int) s out = (.ok (), s, out ++ [UInt8.ofNat n]) := by
  rw [writeByteRaw_eq (by unfold InRange; omega), beInt_small]

theorem or_shl {d c : Nat} (hd : d < 16) (hc : c < 16) :
    pyOr (pyShl (d : Int) 4) (c : Int) = ((16 * d + c : Nat) : Int) := by
  have : ∀ d c : Fin 16, pyOr (pyShl ((d.val : Nat) : Int) 4) ((c.val : Nat) : Int)
      = ((16 * d.val + c.val : Nat) : Int) := by decide +kernel
  exact this ⟨d, hd⟩ ⟨c, hc⟩

theorem or_f0 {c : Nat} (hc : c < 16) : pyOr 0xf0 (c : Int) = ((0xF0 + c : Nat) : Int) := by
  have : ∀ c : Fin 16, pyOr 0xf0 ((c.val : Nat) : Int) = ((0xF0 + c.val : Nat) : Int) := by
    decide +kernel
  exact this ⟨c, hc⟩

theorem writeFieldHeader_eq {code : Nat} {fid : Int} (hc : code < 16) (hf : InRange 16 fid)
    (s : St) (out : Bytes) :
    writeFieldHeader (code : Int) fid s out
      = (.ok (), { s with lastFid := fid }, out ++ Spec.Compact.fieldHeader s.lastFid code fid) := by
  unfold writeFieldHeader Spec.Compact.fieldHeader
  refine (W.bind_ok (m := W.get) rfl).trans ?_
  by_cases hd : 0 < fid - s.lastFid ∧ fid - s.lastFid ≤ 15
  · rw [if_pos hd, if_pos (by omega)]
    obtain ⟨d, hn⟩ : ∃ d : Nat, fid - s.lastFid = d := ⟨(fid - s.lastFid).toNat, by omega⟩
    rw [hn] at hd ⊢
    rw [Int.toNat_natCast]
    refine (W.bind_ok (s' := s) (out' := out ++ [UInt8.ofNat (16 * d + code)]) (a := ()) ?_).trans rfl
    rw [or_shl (by omega) hc, writeUByte_eq (by omega)]
  · rw [if_neg hd, if_neg (by omega)]
    refine (W.bind_ok (writeByteRaw_small (by omega) s out)).trans ?_
    refine (W.bind_ok (writeZigZag_eq hf s _)).trans ?_
    simp

theorem writeBinaryRaw_eq (b : Bytes) (s : St) (out : Bytes) :
    writeBinaryRaw b s out = (.ok (), s, out ++ Spec.Compact.blob b) := by
  unfold writeBinaryRaw writeSize Spec.Compact.blob
  refine (W.bind_ok (writeVarint_eq _ s out)).trans ?_
  simp

/-! ### The writing methods -/

def wState : Pos → State
  | .clear => .CLEAR
  | .field => .FIELD_WRITE
  | .value => .VALUE_WRITE
  | .container => .CONTAINER_WRITE
  | .boolDone => .BOOL_WRITE

/-- The protocol object is at the position `q`; the caches `boolFid` and `boolValue` do not
matter. -/
def RelW (bs : List (State × Int)) (bc : List State) (s : St) (q : Q) : Prop :=
  s.state = wState q.pos ∧ s.lastFid = q.lastFid ∧
  s.structs = q.structs.map (fun x => (wState x.1, x.2)) ++ bs ∧
  s.containers = q.containers.map wState ++ bc

variable {bs : List (State × Int)} {bc : List State}

theorem writer_eq {m : W St Unit} {s : St} {q : Q} (h : RelW bs bc s q)
    (hp : q.pos = .value ∨ q.pos = .container) (out : Bytes) : writer m s out = m s out := by
  unfold writer
  refine (W.bind_ok (m := W.get) rfl).trans ?_
  refine (W.bind_ok (s' := s) (out' := out) (a := ()) ?_).trans rfl
  rw [h.1]
  rcases hp with hp | hp <;> rw [hp] <;> rfl

theorem writeCollectionBegin_eq {e : Int} {n : Nat} {s : St} {q : Q} (h : RelW bs bc s q)
    (hp : q.pos = .value ∨ q.pos = .container) (he : IsTType e) (out : Bytes) :
    writeCollectionBegin e n s out = (.ok (),
      { s with containers := s.state :: s.containers, state := .CONTAINER_WRITE },
      out ++ Spec.Compact.listHeader (codeOf e) n) := by
  have hc := codeOf_lt e
  unfold writeCollectionBegin Spec.Compact.listHeader
  refine (W.bind_ok (m := W.get) rfl).trans ?_
  refine (W.bind_ok (s' := s) (out' := out) (a := ()) ?_).trans ?_
  · rw [h.1]
    rcases hp with hp | hp <;> rw [hp] <;> rfl
  · rw [ctypes_eq he]
    by_cases hn : n ≤ 14
    · rw [if_pos (by omega), if_pos hn]
      refine (W.bind_ok (m := W.lift _) (s' := s) (out' := out) rfl).trans ?_
      refine (W.bind_ok (s' := s) (out' := out ++ [UInt8.ofNat (16 * n + codeOf e)]) (a := ()) ?_).trans rfl
      rw [or_shl (by omega) hc.2, writeUByte_eq (by omega)]
    · rw [if_neg (by omega), if_neg hn]
      refine (W.bind_ok (m := W.lift _) (s' := s) (out' := out) rfl).trans ?_
      refine (W.bind_ok (s' := s) (out' := out ++ [UInt8.ofNat (0xF0 + codeOf e)]) (a := ()) ?_).trans ?_
      · rw [or_f0 hc.2, writeUByte_eq (by omega)]
      · refine (W.bind_ok (writeVarint_eq n s _)).trans ?_
        simp

theorem writeMapBegin_eq {k v : Int} {n : Nat} {s : St} {q : Q} (h : RelW bs bc s q)
    (hp : q.pos = .value ∨ q.pos = .container) (hk : IsTType k) (hv : IsTType v) (out : Bytes) :
    writeMapBegin k v n s out = (.ok (),
      { s with containers := s.state :: s.containers, state := .CONTAINER_WRITE },
      out ++ Spec.Compact.mapHeader (codeOf k) (codeOf v) n) := by
  have hck := codeOf_lt k
  have hcv := codeOf_lt v
  unfold writeMapBegin Spec.Compact.mapHeader
  refine (W.bind_ok (m := W.get) rfl).trans ?_
  refine (W.bind_ok (s' := s) (out' := out) (a := ()) ?_).trans ?_
  · rw [h.1]
    rcases hp with hp | hp <;> rw [hp] <;> rfl
  · rw [ctypes_eq hk, ctypes_eq hv]
    by_cases hn : n = 0
    · rw [if_pos (by omega), if_pos hn]
      refine (W.bind_ok (writeByteRaw_small (n := 0) (by omega) s out)).trans rfl
    · rw [if_neg (by omega), if_neg hn]
      refine (W.bind_ok (writeVarint_eq n s _)).trans ?_
      refine (W.bind_ok (m := W.lift _) (s' := s) rfl).trans ?_
      refine (W.bind_ok (m := W.lift _) (s' := s) rfl).trans ?_
      refine (W.bind_ok (s' := s) (out' := out ++ Spec.Compact.varint n ++
        [UInt8.ofNat (16 * codeOf k + codeOf v)]) (a := ()) ?_).trans ?_
      · rw [or_shl hck.2 hcv.2, writeUByte_eq (by omega)]
      · simp

theorem writeCollectionEnd_eq {s : St} {q : Q} (h : RelW bs bc s q) {p : Pos} {rest : List Pos}
    (hp : q.pos = .container) (hc : q.containers = p :: rest) (out : Bytes) :
    writeCollectionEnd s out
      = (.ok (), { s with state := wState p, containers := rest.map wState ++ bc }, out) := by
  unfold writeCollectionEnd
  refine (W.bind_ok (m := W.get) rfl).trans ?_
  refine (W.bind_ok (s' := s) (out' := out) (a := ()) ?_).trans ?_
  · rw [h.1, hp]; rfl
  · have := h.2.2.2
    rw [hc] at this
    rw [this]
    rfl

theorem rel_push {s : St} {q : Q} (h : RelW bs bc s q) :
    RelW bs bc { s with containers := s.state :: s.containers, state := .CONTAINER_WRITE }
      { q with pos := .container, containers := q.pos :: q.containers } :=
  ⟨rfl, h.2.1, h.2.2.1, by simp [h.1, h.2.2.2]⟩

theorem rel_pop {s : St} {q : Q} (h : RelW bs bc s q) {p : Pos} {rest : List Pos} :
    RelW bs bc { s with state := wState p, containers := rest.map wState ++ bc }
      { q with pos := p, containers := rest } :=
  ⟨rfl, h.2.1, h.2.2.1, rfl⟩

theorem writeEnd_tok {s : St} {q : Q} (h : RelW bs bc s q) (hp : q.pos = .container)
    (hne : q.containers ≠ []) (out : Bytes) :
    ∃ s', writeCollectionEnd s out = (.ok (), s', out ++ []) ∧ RelW bs bc s' (stepQ q .listEnd) ∧
      s'.depth = s.depth := by
  cases hc : q.containers with
  | nil => exact absurd hc hne
  | cons p rest =>
    refine ⟨{ s with state := wState p, containers := rest.map wState ++ bc }, ?_, ?_, rfl⟩
    · rw [List.append_nil]; exact writeCollectionEnd_eq h hp hc out
    · simp only [stepQ, hc]; exact rel_pop h

theorem writerLaws (sl cl : Option Int) : WriterLaws (lang sl cl) wr (RelW bs bc) where
  depth := fun s q d h => h
  tok := by
    intro T s q out ho h
    obtain ⟨ht, hp⟩ := ho
    show ∃ s', wrTok wr T s out = (.ok (), s', out ++ tokBytes q T) ∧ RelW bs bc s' (stepQ q T) ∧ s'.depth = s.depth
    cases T with
    | structBegin =>
      refine ⟨{ s with structs := (s.state, s.lastFid) :: s.structs, state := .FIELD_WRITE, lastFid := 0 },
        ?_, ⟨rfl, rfl, by simp [stepQ, h.1, h.2.1, h.2.2.1], h.2.2.2⟩, rfl⟩
      show writeStructBegin s out = _
      unfold writeStructBegin
      refine (W.bind_ok (m := W.get) rfl).trans ?_
      refine (W.bind_ok (s' := s) (out' := out) (a := ()) ?_).trans ?_
      · rw [h.1]
        rcases hp with hp | hp | hp <;> rw [hp] <;> rfl
      · simp [tokBytes]
    | structEnd =>
      obtain ⟨hp, hne⟩ := hp
      cases hs : q.structs with
      | nil => exact absurd hs hne
      | cons x rest =>
        obtain ⟨p, f⟩ := x
        have h3 := h.2.2.1
        rw [hs] at h3
        refine ⟨{ s with state := wState p, lastFid := f, structs := rest.map (fun x => (wState x.1, x.2)) ++ bs },
          ?_, ?_, rfl⟩
        · show writeStructEnd s out = _
          unfold writeStructEnd
          refine (W.bind_ok (m := W.get) rfl).trans ?_
          refine (W.bind_ok (s' := s) (out' := out) (a := ()) ?_).trans ?_
          · rw [h.1, hp]; rfl
          · rw [h3]
            simp [tokBytes]
        · simp only [stepQ, hs]
          exact ⟨rfl, rfl, rfl, h.2.2.2⟩
    | fieldBegin tt fid =>
      refine ⟨{ s with state := .VALUE_WRITE, lastFid := fid }, ?_, ⟨rfl, rfl, h.2.2.1, h.2.2.2⟩, rfl⟩
      show writeFieldBegin tt fid s out = _
      unfold writeFieldBegin
      refine (W.bind_ok (m := W.get) rfl).trans ?_
      refine (W.bind_ok (s' := s) (out' := out) (a := ()) ?_).trans ?_
      · rw [h.1, hp]; rfl
      · rw [if_neg ht.2.2]
        refine (W.bind_ok (m := W.modify _) (s' := { s with state := .VALUE_WRITE }) (out' := out) (a := ()) rfl).trans ?_
        rw [ctypes_eq ht.1]
        refine (W.bind_ok (m := W.lift _) rfl).trans ?_
        rw [writeFieldHeader_eq (codeOf_lt tt).2 ht.2.1]
        simp only [tokBytes, h.2.1]
    | boolField fid b =>
      refine ⟨{ s with state := .BOOL_WRITE, boolFid := fid, lastFid := fid }, ?_,
        ⟨rfl, rfl, h.2.2.1, h.2.2.2⟩, rfl⟩
      show (writeFieldBegin TType.BOOL fid >>= fun _ => writeBool b) s out = _
      refine (W.bind_ok (s' := { s with state := .BOOL_WRITE, boolFid := fid }) (out' := out) (a := ()) ?_).trans ?_
      · unfold writeFieldBegin
        refine (W.bind_ok (m := W.get) rfl).trans ?_
        refine (W.bind_ok (s' := s) (out' := out) (a := ()) ?_).trans ?_
        · rw [h.1, hp]; rfl
        · rfl
      · unfold writeBool
        refine (W.bind_ok (m := W.get) rfl).trans ?_
        rw [if_pos rfl]
        have e : (if b = true then CompactType.TRUE else CompactType.FALSE)
            = ((Spec.Compact.boolCode b : Nat) : Int) := by cases b <;> rfl
        simp only [e]
        rw [writeFieldHeader_eq (by cases b <;> decide) ht]
        simp only [tokBytes, h.2.1]
    | fieldEnd =>
      refine ⟨{ s with state := .FIELD_WRITE }, ?_, ⟨rfl, h.2.1, h.2.2.1, h.2.2.2⟩, rfl⟩
      show writeFieldEnd s out = _
      unfold writeFieldEnd
      refine (W.bind_ok (m := W.get) rfl).trans ?_
      refine (W.bind_ok (s' := s) (out' := out) (a := ()) ?_).trans ?_
      · rw [h.1]
        rcases hp with hp | hp <;> rw [hp] <;> rfl
      · simp [tokBytes]
    | fieldStop =>
      exact ⟨s, writeByteRaw_small (n := 0) (by omega) s out, h, rfl⟩
    | mapBegin k v n => exact ⟨_, writeMapBegin_eq h hp ht.1 ht.2.1 out, rel_push h, rfl⟩
    | listBegin e n => exact ⟨_, writeCollectionBegin_eq h hp ht.1 out, rel_push h, rfl⟩
    | setBegin e n => exact ⟨_, writeCollectionBegin_eq h hp ht.1 out, rel_push h, rfl⟩
    | mapEnd => exact writeEnd_tok h hp.1 hp.2 out
    | listEnd => exact writeEnd_tok h hp.1 hp.2 out
    | setEnd => exact writeEnd_tok h hp.1 hp.2 out
    | bool b =>
      refine ⟨s, ?_, h, rfl⟩
      show writeBool b s out = _
      unfold writeBool
      refine (W.bind_ok (m := W.get) rfl).trans ?_
      rw [if_neg (by rw [h.1, hp]; decide), if_pos (by rw [h.1, hp]; rfl)]
      cases b
      · exact writeByteRaw_small (n := 2) (by omega) s out
      · exact writeByteRaw_small (n := 1) (by omega) s out
    | byte i => exact ⟨s, (writer_eq h hp out).trans (writeByteRaw_eq ht s out), h, rfl⟩
    | i16 i => exact ⟨s, (writer_eq h hp out).trans (writeZigZag_eq ht s out), h, rfl⟩
    | i32 i => exact ⟨s, (writer_eq h hp out).trans (writeZigZag_eq ht s out), h, rfl⟩
    | i64 i => exact ⟨s, (writer_eq h hp out).trans (writeZigZag_eq ht s out), h, rfl⟩
    | double x =>
      refine ⟨s, (writer_eq h hp out).trans ?_, h, rfl⟩
      simp only [tokBytes, leInt_eq_reverse, ← beBytes8_eq]
      rfl
    | str x =>
      refine ⟨s, ?_, h, rfl⟩
      show writeString x s out = _
      unfold writeString
      rw [utf8Encode_eq ht.1.1]
      exact (writer_eq h hp out).trans (writeBinaryRaw_eq _ s out)
    | bin b => exact ⟨s, (writer_eq h hp out).trans (writeBinaryRaw_eq b s out), h, rfl⟩
    | uuid u => exact ⟨s, (writer_eq h hp out).trans rfl, h, rfl⟩

end Thrift.Compact
