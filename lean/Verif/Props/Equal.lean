import Verif.Props.Hints
import Verif.Spec.Equal
/-
C101: what arrives is `==` to what was sent.
-/

namespace Thrift.Equal
open Thrift.Hints Thrift.Spec.Hints Thrift.Spec.Equal

/-! ## Numbers -/

theorem fits_iff (k : Kind) (i : Int) : fits k i = true ↔ Range k i := by
  cases k <;> simp only [fits, Range, decide_eq_true_eq] <;> omega

theorem nan_iff (d : UInt64) : nan d = true ↔ IsNaN d := by
  have h : (d &&& 0x7fffffffffffffff).toNat = d.toNat % 2 ^ 63 := by
    rw [UInt64.toNat_and]
    exact Nat.and_two_pow_sub_one_eq_mod d.toNat 63
  have hd := d.toNat_lt
  rw [nan, decide_eq_true_eq, UInt64.lt_iff_toNat_lt, h, IsNaN]
  have : (0x7ff0000000000000 : UInt64).toNat = 0x7ff0000000000000 := by decide
  rw [this]
  omega

/-- Two objects are equal, whichever is asked. -/
def Same (a b : Obj) : Prop := eq a b = true ∧ eq b a = true

theorem same_float {d : UInt64} (h : ¬ IsNaN d) : Same (.float d) (.float d) := by
  have hn : nan d = false := by
    cases hc : nan d with
    | false => rfl
    | true => exact absurd ((nan_iff d).mp hc) h
  have : eq (.float d) (.float d) = true := by
    rw [eq, floatEq, hn]; simp
  exact ⟨this, this⟩

theorem eq_nan {d : UInt64} (h : IsNaN d) (o : Obj) : eq (.float d) o = false := by
  cases o <;> simp [eq, num, floatEq, (nan_iff d).mpr h]

/-! ## Containers -/

/-- Objects one by one -/
def Alike : List Obj → List Obj → Prop
  | [], [] => True
  | x :: xs, y :: ys => Same x y ∧ Alike xs ys
  | _, _ => False

def AlikeP : List (Obj × Obj) → List (Obj × Obj) → Prop
  | [], [] => True
  | p :: ps, q :: qs => (Same p.1 q.1 ∧ Same p.2 q.2) ∧ AlikeP ps qs
  | _, _ => False

theorem alike_comm : ∀ {xs ys : List Obj}, Alike xs ys → Alike ys xs
  | [], [], _ => trivial
  | [], _ :: _, h => h
  | _ :: _, [], h => h
  | _ :: _, _ :: _, h => ⟨⟨h.1.2, h.1.1⟩, alike_comm h.2⟩

theorem alikeP_comm : ∀ {ps qs : List (Obj × Obj)}, AlikeP ps qs → AlikeP qs ps
  | [], [], _ => trivial
  | [], _ :: _, h => h
  | _ :: _, [], h => h
  | _ :: _, _ :: _, h => ⟨⟨⟨h.1.1.2, h.1.1.1⟩, h.1.2.2, h.1.2.1⟩, alikeP_comm h.2⟩

theorem alike_length : ∀ {xs ys : List Obj}, Alike xs ys → xs.length = ys.length
  | [], [], _ => rfl
  | [], _ :: _, h => h.elim
  | _ :: _, [], h => h.elim
  | _ :: _, _ :: _, h => congrArg (· + 1) (alike_length h.2)

theorem alikeP_length : ∀ {ps qs : List (Obj × Obj)}, AlikeP ps qs → ps.length = qs.length
  | [], [], _ => rfl
  | [], _ :: _, h => h.elim
  | _ :: _, [], h => h.elim
  | _ :: _, _ :: _, h => congrArg (· + 1) (alikeP_length h.2)

theorem alike_eqAll : ∀ {xs ys : List Obj}, Alike xs ys → eqAll xs ys = true
  | [], [], _ => by rw [eqAll]
  | [], _ :: _, h => h.elim
  | _ :: _, [], h => h.elim
  | _ :: _, _ :: _, h => by rw [eqAll, h.1.1, alike_eqAll h.2]; rfl

theorem contains_of {x y : Obj} (h : eq x y = true) : ∀ {ys : List Obj}, y ∈ ys → contains x ys = true
  | z :: ys, hy => by
    rw [contains]
    rcases List.mem_cons.mp hy with rfl | hy
    · rw [h]; rfl
    · rw [contains_of h hy, Bool.or_true]

theorem alike_subset : ∀ {xs ys zs : List Obj}, Alike xs ys → (∀ y ∈ ys, y ∈ zs) → subset xs zs = true
  | [], [], _, _, _ => by rw [subset]
  | [], _ :: _, _, h, _ => h.elim
  | _ :: _, [], _, h, _ => h.elim
  | _ :: _, y :: _, _, h, hz => by
    rw [subset, contains_of h.1.1 (hz y List.mem_cons_self), alike_subset h.2 fun y hy => hz y (List.mem_cons_of_mem _ hy)]; rfl

theorem maps_of {k v k' v' : Obj} (hk : eq k k' = true) (hv : eq v v' = true) : ∀ {qs : List (Obj × Obj)}, (k', v') ∈ qs → maps k v qs = true
  | (a, b) :: qs, hq => by
    rw [maps]
    rcases List.mem_cons.mp hq with e | hq
    · cases e; rw [hk, hv]; rfl
    · rw [maps_of hk hv hq, Bool.or_true]

theorem alike_submap : ∀ {ps qs rs : List (Obj × Obj)}, AlikeP ps qs → (∀ q ∈ qs, q ∈ rs) → submap ps rs = true
  | [], [], _, _, _ => by rw [submap]
  | [], _ :: _, _, h, _ => h.elim
  | _ :: _, [], _, h, _ => h.elim
  | (k, v) :: _, q :: _, _, h, hz => by
    rw [submap, maps_of h.1.1.1 h.1.2.1 (hz q List.mem_cons_self), alike_submap h.2 fun y hy => hz y (List.mem_cons_of_mem _ hy)]; rfl

theorem sets_eq {xs ys : List Obj} (h : Alike xs ys) : (xs.length == ys.length && subset xs ys) = true := by
  rw [alike_subset h (fun _ h => h), alike_length h]; simp

theorem dicts_eq {ps qs : List (Obj × Obj)} (h : AlikeP ps qs) : (ps.length == qs.length && submap ps qs) = true := by
  rw [alike_submap h (fun _ h => h), alikeP_length h]; simp

theorem same_set {xs ys : List Obj} (h : Alike xs ys) {a b : Obj} (ha : a = .set xs ∨ a = .frozenset xs) (hb : b = .set ys ∨ b = .frozenset ys) : Same a b := by
  rcases ha with rfl | rfl <;> rcases hb with rfl | rfl <;> refine ⟨?_, ?_⟩ <;> rw [eq] <;> first | exact sets_eq h | exact sets_eq (alike_comm h)

theorem same_dict {ps qs : List (Obj × Obj)} (h : AlikeP ps qs) {a b : Obj} (ha : a = .dict ps ∨ a = .frozendict ps)
    (hb : b = .dict qs ∨ b = .frozendict qs) : Same a b := by
  rcases ha with rfl | rfl <;> rcases hb with rfl | rfl <;> refine ⟨?_, ?_⟩ <;> rw [eq] <;> first | exact dicts_eq h | exact dicts_eq (alikeP_comm h)

/-! ## Writing -/

theorem write_ty {S : Schema} : ∀ {t : Ty} {o : Obj} {w : Wire}, write S t o = .ok w → w.ty = t.wire
  | .alias t, o, w, h => by rw [write] at h; exact write_ty (t := t) h
  | .void, o, w, h => by cases o <;> simp [write] at h
  | .bool, o, w, h => by cases o <;> simp [write] at h; subst h; rfl
  | .int k, o, w, h => by
    cases o <;> simp only [write, reduceCtorEq] at h
    split at h <;> cases h
    rfl
  | .double, o, w, h => by cases o <;> simp [write] at h; subst h; rfl
  | .string, o, w, h => by cases o <;> simp [write] at h; subst h; rfl
  | .binary, o, w, h => by cases o <;> simp [write] at h; subst h; rfl
  | .uuid, o, w, h => by cases o <;> simp [write] at h; subst h; rfl
  | .enum _, o, w, h => by
    cases o <;> simp only [write, reduceCtorEq] at h
    split at h <;> cases h
    rfl
  | .list _ _, o, w, h => by
    cases o <;> simp only [write, reduceCtorEq] at h <;> (obtain ⟨_, _, h⟩ := ok_bind h; cases h; rfl)
  | .set _ _, o, w, h => by
    cases o <;> simp only [write, reduceCtorEq] at h <;> (obtain ⟨_, _, h⟩ := ok_bind h; cases h; rfl)
  | .map _ _ _, o, w, h => by
    cases o <;> simp only [write, reduceCtorEq] at h <;> (obtain ⟨_, _, h⟩ := ok_bind h; cases h; rfl)
  | .struct _, o, w, h => by
    cases o <;> simp only [write, reduceCtorEq] at h
    split at h
    · obtain ⟨_, _, h⟩ := ok_bind h; cases h; rfl
    · cases h

theorem writeAll_ok {S : Schema} {t : Ty} : ∀ {xs : List Obj}, (∀ x ∈ xs, ∃ w, write S t x = .ok w) → ∃ ws, writeAll S t xs = .ok ws
  | [], _ => ⟨[], by rw [writeAll]⟩
  | x :: xs, h => by
    obtain ⟨w, hw⟩ := h x List.mem_cons_self
    obtain ⟨ws, hws⟩ := writeAll_ok fun y hy => h y (List.mem_cons_of_mem _ hy)
    exact ⟨w :: ws, by rw [writeAll, hw, hws]; rfl⟩

theorem writePairs_ok {S : Schema} {k v : Ty} : ∀ {ps : List (Obj × Obj)}, (∀ p ∈ ps, ∃ w, write S k p.1 = .ok w) →
    (∀ p ∈ ps, ∃ w, write S v p.2 = .ok w) → ∃ ws, writePairs S k v ps = .ok ws
  | [], _, _ => ⟨[], by rw [writePairs]⟩
  | (x, y) :: ps, hk, hv => by
    obtain ⟨a, ha⟩ := hk _ List.mem_cons_self
    obtain ⟨b, hb⟩ := hv _ List.mem_cons_self
    obtain ⟨ws, hws⟩ := writePairs_ok (fun p hp => hk p (List.mem_cons_of_mem _ hp)) (fun p hp => hv p (List.mem_cons_of_mem _ hp))
    exact ⟨(a, b) :: ws, by rw [writePairs]; dsimp only at ha hb; rw [ha, hb, hws]; rfl⟩

theorem isNone_iff {a : Obj} : a.isNone = true ↔ a = .none := by
  cases a <;> simp [Obj.isNone]

theorem writeFields_ok {S : Schema} : ∀ {fs : List Field} {as : List Obj},
    (∀ (i : Nat) f a, fs[i]? = some f → as[i]? = some a → a ≠ .none → ∃ w, write S f.ty a = .ok w) → ∃ ws, writeFields S fs as = .ok ws
  | [], _, _ => ⟨[], by rw [writeFields]; nofun⟩
  | _ :: _, [], _ => ⟨[], by rw [writeFields]; nofun⟩
  | f :: fs, a :: as, h => by
    obtain ⟨ws, hws⟩ := writeFields_ok fun i g b hg hb => h (i + 1) g b hg hb
    rw [writeFields]
    cases hn : a.isNone with
    | true => exact ⟨ws, by rw [if_pos rfl]; exact hws⟩
    | false =>
      obtain ⟨w, hw⟩ := h 0 f a rfl rfl (fun e => by rw [isNone_iff.mpr e] at hn; cases hn)
      exact ⟨(f.fid, w) :: ws, by rw [hw, hws]; rfl⟩

theorem validate_iff : ∀ {fs : List Field} {as : List Obj}, as.length = fs.length →
    (validate fs as = true ↔ ∀ (i : Nat) f, fs[i]? = some f → f.required = true → as[i]? ≠ some .none)
  | [], [], _ => by simp [validate]
  | [], _ :: _, h => by cases h
  | _ :: _, [], h => by cases h
  | f :: fs, a :: as, h => by
    have ih := validate_iff (fs := fs) (as := as) (Nat.succ.inj h)
    rw [validate, Bool.and_eq_true, ih]
    constructor
    · rintro ⟨h0, hs⟩ i g hg hr
      cases i with
      | zero =>
        cases hg
        intro e
        have e : a = .none := Option.some.inj e
        rw [isNone_iff.mpr e, hr] at h0
        cases h0
      | succ i => exact hs i g hg hr
    · intro hs
      refine ⟨?_, fun i g hg hr => hs (i + 1) g hg hr⟩
      cases hr : f.required with
      | false => rfl
      | true =>
        cases hn : a.isNone with
        | false => rfl
        | true => exact absurd (congrArg some (isNone_iff.mp hn)) (hs 0 f rfl hr)

/-- A usable object is written, unless a required member is `None` somewhere. -/
theorem write_ok {S : Schema} {t : Ty} {o : Obj} (hu : Usable S t o) (hv : Valid S o) : ∃ w, write S t o = .ok w := by
  induction hu with
  | bool | double | string | binary | uuid => exact ⟨_, by rw [write]⟩
  | int k i hr => exact ⟨_, by rw [write, if_pos ((fits_iff k i).mpr hr)]⟩
  | enum e i _ hr => exact ⟨_, by rw [write, if_pos ((fits_iff .i32 i).mpr hr)]⟩
  | list t xs _ ih | tuple t xs _ ih | set _ t xs _ ih | frozenset _ t xs _ ih =>
    obtain ⟨ws, h⟩ := writeAll_ok fun x hx => ih x hx ((valid_iff.mp hv).2 x hx)
    exact ⟨_, by rw [write, h]; rfl⟩
  | dict _ k v ps _ _ ih1 ih2 | frozendict _ k v ps _ _ ih1 ih2 =>
    obtain ⟨ws, h⟩ := writePairs_ok
      (fun p hp => ih1 p hp ((valid_iff.mp hv).2 _ (mem_pairs.mpr ⟨p, hp, .inl rfl⟩)))
      (fun p hp => ih2 p hp ((valid_iff.mp hv).2 _ (mem_pairs.mpr ⟨p, hp, .inr rfl⟩)))
    exact ⟨_, by rw [write, h]; rfl⟩
  | inst s as hl _ ih =>
    obtain ⟨ws, h⟩ := writeFields_ok (S := S) (fs := (S.structs s).fields) (as := as)
      fun i f a hf ha hn => ih i f a hf ha hn ((valid_iff.mp hv).2 a (List.mem_of_getElem? ha))
    exact ⟨_, by rw [write, if_pos ((validate_iff hl).mpr ((valid_iff.mp hv).1 s as rfl)), h]; rfl⟩
  | alias t o _ ih =>
    obtain ⟨w, h⟩ := ih hv
    exact ⟨w, by rw [write]; exact h⟩

/-! ## Reading back -/

theorem readAll_back {fast : Bool} {S : Schema} {t : Ty} : ∀ {xs : List Obj} {ws : List Wire},
    (∀ x ∈ xs, ∀ w, write S t x = .ok w → ∃ y, read fast S t w = .ok y ∧ Same x y) → writeAll S t xs = .ok ws →
    ∃ ys, readAll fast S t ws = .ok ys ∧ Alike xs ys
  | [], ws, _, h => by rw [writeAll] at h; cases h; exact ⟨[], by rw [readAll], trivial⟩
  | x :: xs, ws, ih, h => by
    rw [writeAll] at h
    obtain ⟨w, h1, h⟩ := ok_bind h
    obtain ⟨ws', h2, h⟩ := ok_bind h
    cases h
    obtain ⟨y, hy, e⟩ := ih x List.mem_cons_self w h1
    obtain ⟨ys, hys, es⟩ := readAll_back (fun x hx => ih x (List.mem_cons_of_mem _ hx)) h2
    exact ⟨y :: ys, by rw [readAll, hy, hys]; rfl, e, es⟩

theorem readPairs_back {fast : Bool} {S : Schema} {k v : Ty} : ∀ {ps : List (Obj × Obj)} {ws : List (Wire × Wire)},
    (∀ p ∈ ps, ∀ w, write S k p.1 = .ok w → ∃ y, read fast S k w = .ok y ∧ Same p.1 y) →
    (∀ p ∈ ps, ∀ w, write S v p.2 = .ok w → ∃ y, read fast S v w = .ok y ∧ Same p.2 y) → writePairs S k v ps = .ok ws →
    ∃ qs, readPairs fast S k v ws = .ok qs ∧ AlikeP ps qs
  | [], ws, _, _, h => by rw [writePairs] at h; cases h; exact ⟨[], by rw [readPairs], trivial⟩
  | (x, y) :: ps, ws, ih1, ih2, h => by
    rw [writePairs] at h
    obtain ⟨a, h1, h⟩ := ok_bind h
    obtain ⟨b, h2, h⟩ := ok_bind h
    obtain ⟨ws', h3, h⟩ := ok_bind h
    cases h
    obtain ⟨x', hx, ex⟩ := ih1 _ List.mem_cons_self a h1
    obtain ⟨y', hy, ey⟩ := ih2 _ List.mem_cons_self b h2
    obtain ⟨qs, hqs, es⟩ := readPairs_back (fun p hp => ih1 p (List.mem_cons_of_mem _ hp)) (fun p hp => ih2 p (List.mem_cons_of_mem _ hp)) h3
    exact ⟨(x', y') :: qs, by rw [readPairs, hx, hy, hqs]; rfl, ⟨ex, ey⟩, es⟩

/-- The members after reading: `None` was not sent, and what was there remains. -/
def Back : List Obj → List Obj → List Obj → Prop
  | [], [], [] => True
  | a :: as, r :: rs, b :: bs => ((a = .none ∧ b = r) ∨ (a ≠ .none ∧ Same a b)) ∧ Back as rs bs
  | _, _, _ => False

theorem position_at {pre fs : List Field} {f : Field} (h : ((pre ++ f :: fs).map (·.fid)).Nodup) : position (pre ++ f :: fs) f.fid = some pre.length := by
  rw [position, List.findIdx?_eq_some_iff_getElem]
  refine ⟨by simp, by simp, fun j hj => ?_⟩
  rw [List.map_append, List.nodup_append] at h
  have := h.2.2 (pre[j]'hj).fid (List.mem_map_of_mem (List.getElem_mem hj)) f.fid (by simp)
  simp [List.getElem_append_left hj, this]

theorem assign_back {fast : Bool} {S : Schema} {d : Struct} {f : Field} {a b : Obj} {w : Wire} (hu : Usable S f.ty a) (hw : write S f.ty a = .ok w)
    (hr : read fast S f.ty w = .ok b) (hs : Same a b) : ∃ c, assign S d f b = .ok c ∧ Same a c := by
  rw [assign]
  split
  · exact ⟨b, rfl, hs⟩
  · revert hu hw hr
    cases f.ty <;> try (intro _ _ _; exact ⟨b, rfl, hs⟩)
    rename_i e
    intro hu hw hr
    cases hu with
    | enum _ i hi hrg =>
      rw [write, if_pos ((fits_iff .i32 i).mpr hrg)] at hw
      cases hw
      have hm : Same (.member e i) (.member e i) := by
        refine ⟨?_, ?_⟩ <;> simp [eq, num]
      rw [Hints.read, readEnum] at hr
      split at hr
      · cases hr
        exact ⟨.member e i, by rw [store, call, if_pos hi]; simp, hm⟩
      · rw [call, if_pos hi] at hr
        cases hr
        exact ⟨.member e i, by rw [store], hm⟩

theorem readFields_back {fast : Bool} {S : Schema} {d : Struct} (hd : (d.fields.map (·.fid)).Nodup) :
    ∀ (fs : List Field) (as rs : List Obj) (pre : List Field) (done : List Obj) (ws : List (Int × Wire)), d.fields = pre ++ fs → done.length = pre.length →
      as.length = fs.length → rs.length = fs.length →
      (∀ (i : Nat) f a, fs[i]? = some f → as[i]? = some a → a ≠ .none → Usable S f.ty a) →
      (∀ (i : Nat) f a, fs[i]? = some f → as[i]? = some a → a ≠ .none → ∀ w, write S f.ty a = .ok w → ∃ b, read fast S f.ty w = .ok b ∧ Same a b) →
      writeFields S fs as = .ok ws → ∃ bs, readFields fast S d ws (done ++ rs) = .ok (done ++ bs) ∧ Back as rs bs
  | [], as, rs, pre, done, ws, _, _, ha, hr, _, _, h => by
    cases List.length_eq_zero_iff.mp ha
    cases List.length_eq_zero_iff.mp hr
    rw [writeFields] at h
    · cases h
      exact ⟨[], by rw [readFields], trivial⟩
    · nofun
  | f :: fs, [], _, _, _, _, _, _, ha, _, _, _, _ => by cases ha
  | f :: fs, _ :: _, [], _, _, _, _, _, _, hr, _, _, _ => by cases hr
  | f :: fs, a :: as, r :: rs, pre, done, ws, hf, hl, ha, hr, hu, ih, h => by
    have next := fun (b : Obj) (ws' : List (Int × Wire)) (h' : writeFields S fs as = .ok ws') =>
      readFields_back (fast := fast) hd fs as rs (pre ++ [f]) (done ++ [b]) ws' (by rw [hf, List.append_assoc]; rfl) (by simp [hl])
        (Nat.succ.inj ha) (Nat.succ.inj hr) (fun i g c hg hc => hu (i + 1) g c hg hc) (fun i g c hg hc => ih (i + 1) g c hg hc) h'
    rw [writeFields] at h
    cases hn : a.isNone with
    | true =>
      rw [hn, if_pos rfl] at h
      obtain ⟨bs, h1, h2⟩ := next r ws h
      refine ⟨r :: bs, ?_, .inl ⟨isNone_iff.mp hn, rfl⟩, h2⟩
      rw [List.append_assoc, List.append_assoc] at h1
      exact h1
    | false =>
      have hne : a ≠ .none := fun e => by rw [isNone_iff.mpr e] at hn; cases hn
      rw [hn] at h
      simp only [Bool.false_eq_true, if_false] at h
      obtain ⟨w, h1, h⟩ := ok_bind h
      obtain ⟨ws', h2, h⟩ := ok_bind h
      cases h
      obtain ⟨b, hb, hs⟩ := ih 0 f a rfl rfl hne w h1
      obtain ⟨c, hc, hs⟩ := assign_back (d := d) (hu 0 f a rfl rfl hne) h1 hb hs
      obtain ⟨bs, h3, h4⟩ := next c ws' h2
      refine ⟨c :: bs, ?_, .inr ⟨hne, hs⟩, h4⟩
      have hp : position d.fields f.fid = some pre.length := by
        rw [hf]; exact position_at (hf ▸ hd)
      have hg : d.fields[pre.length]? = some f := by rw [hf]; simp
      have hset : (done ++ r :: rs).set pre.length c = done ++ c :: rs := by
        rw [← hl, List.set_append]; simp
      rw [readFields, hp]
      simp only [hg, write_ty h1, if_true, hb, hc, bind, Except.bind, hset]
      rw [List.append_assoc, List.append_assoc] at h3
      exact h3

theorem back_alike {fs : List Field} : ∀ {as bs : List Obj}, Back as (defaults fs) bs →
    (∀ (i : Nat) f, fs[i]? = some f → as[i]? = some .none → f.dflt = none) → Alike as bs := by
  induction fs with
  | nil =>
    intro as bs h _
    match as, bs, h with
    | [], [], _ => trivial
  | cons f fs ih =>
    intro as bs h he
    match as, bs, h with
    | a :: as, b :: bs, h =>
      refine ⟨?_, ih h.2 fun i g hg hn => he (i + 1) g hg hn⟩
      rcases h.1 with ⟨rfl, e⟩ | ⟨_, hs⟩
      · have := he 0 f rfl rfl
        dsimp only at e
        rw [this] at e
        rw [e]
        exact ⟨by rw [Option.getD_none, eq], by rw [Option.getD_none, eq]⟩
      · exact hs

theorem storeAll_noenum {S : Schema} {imm : Bool} : ∀ {fs : List Field} {as : List Obj}, as.length = fs.length → (∀ f ∈ fs, ∀ e, f.ty ≠ .enum e) →
    storeAll S imm fs as = .ok as
  | [], [], _, _ => rfl
  | [], _ :: _, h, _ => by cases h
  | _ :: _, [], h, _ => by cases h
  | f :: fs, a :: as, h, he => by
    have h1 : store S imm f.ty a = .ok a := by
      have := he f List.mem_cons_self
      revert this
      cases f.ty <;> first | (intro _; rfl) | (intro h; exact absurd rfl (h _))
    have h2 := storeAll_noenum (S := S) (imm := imm) (Nat.succ.inj h) fun g hg => he g (List.mem_cons_of_mem _ hg)
    show (do let v ← store S imm f.ty a; let vs ← storeAll S imm fs as; Except.ok (v :: vs)) = _
    rw [h1, h2]; rfl

theorem back_length : ∀ {as rs bs : List Obj}, Back as rs bs → bs.length = rs.length
  | [], [], [], _ => rfl
  | _ :: _, _ :: _, _ :: _, h => congrArg (· + 1) (back_length h.2)
  | [], [], _ :: _, h => h.elim
  | [], _ :: _, _, h => by cases ‹List Obj› <;> exact h.elim
  | _ :: _, [], _, h => by cases ‹List Obj› <;> exact h.elim
  | _ :: _, _ :: _, [], h => h.elim

theorem read_back {fast : Bool} {S : Schema} (hD : Defaults S) (hI : Distinct S) (hF : fast = false ∨ NoFrozenEnums S) {t : Ty} {o : Obj}
    (hu : Usable S t o) : NoNaN o → Explicit S o → ∀ w, write S t o = .ok w → ∃ o', read fast S t w = .ok o' ∧ Same o o' := by
  induction hu with
  | bool b => intro _ _ w h; rw [write] at h; cases h; exact ⟨.bool b, by rw [Hints.read], by simp [Same, eq, num]⟩
  | int k i hr => intro _ _ w h; rw [write, if_pos ((fits_iff k i).mpr hr)] at h; cases h; exact ⟨.int i, by rw [Hints.read, if_pos rfl], by simp [Same, eq, num]⟩
  | double d => intro hn _ w h; rw [write] at h; cases h; exact ⟨_, by rw [Hints.read], same_float (hn d .here)⟩
  | string b => intro _ _ w h; rw [write] at h; cases h; exact ⟨.str b, by rw [Hints.read], by simp [Same, eq]⟩
  | binary b => intro _ _ w h; rw [write] at h; cases h; exact ⟨.bytes b, by rw [Hints.read], by simp [Same, eq]⟩
  | uuid b => intro _ _ w h; rw [write] at h; cases h; exact ⟨.uuid b, by rw [Hints.read], by simp [Same, eq]⟩
  | enum e i hi hr =>
    intro _ _ w h
    rw [write, if_pos ((fits_iff .i32 i).mpr hr)] at h
    cases h
    rw [Hints.read, readEnum]
    cases fast with
    | true => exact ⟨.int i, rfl, by simp [Same, eq, num]⟩
    | false => exact ⟨.member e i, by rw [call, if_pos hi]; rfl, by simp [Same, eq, num]⟩
  | list t xs _ ih =>
    intro hn he w h
    rw [write] at h
    obtain ⟨ws, h1, h⟩ := ok_bind h
    cases h
    obtain ⟨ys, hy, hs⟩ := readAll_back (fast := fast) (fun x hx => ih x hx (fun d hd => hn d (.part hx hd)) fun s as hi => he s as (.part hx hi)) h1
    exact ⟨.list ys, by rw [Hints.read, hy]; rfl, by rw [eq]; exact alike_eqAll hs, by rw [eq]; exact alike_eqAll (alike_comm hs)⟩
  | tuple t xs _ ih =>
    intro hn he w h
    rw [write] at h
    obtain ⟨ws, h1, h⟩ := ok_bind h
    cases h
    obtain ⟨ys, hy, hs⟩ := readAll_back (fast := fast) (fun x hx => ih x hx (fun d hd => hn d (.part hx hd)) fun s as hi => he s as (.part hx hi)) h1
    exact ⟨.tuple ys, by rw [Hints.read, hy]; rfl, by rw [eq]; exact alike_eqAll hs, by rw [eq]; exact alike_eqAll (alike_comm hs)⟩
  | set fr t xs _ ih =>
    intro hn he w h
    rw [write] at h
    obtain ⟨ws, h1, h⟩ := ok_bind h
    cases h
    obtain ⟨ys, hy, hs⟩ := readAll_back (fast := fast) (fun x hx => ih x hx (fun d hd => hn d (.part hx hd)) fun s as hi => he s as (.part hx hi)) h1
    refine ⟨if fr then .frozenset ys else .set ys, by rw [Hints.read, hy]; rfl, same_set hs (.inl rfl) ?_⟩
    cases fr <;> simp
  | frozenset fr t xs _ ih =>
    intro hn he w h
    rw [write] at h
    obtain ⟨ws, h1, h⟩ := ok_bind h
    cases h
    obtain ⟨ys, hy, hs⟩ := readAll_back (fast := fast) (fun x hx => ih x hx (fun d hd => hn d (.part hx hd)) fun s as hi => he s as (.part hx hi)) h1
    refine ⟨if fr then .frozenset ys else .set ys, by rw [Hints.read, hy]; rfl, same_set hs (.inr rfl) ?_⟩
    cases fr <;> simp
  | dict fr k v ps _ _ ih1 ih2 =>
    intro hn he w h
    rw [write] at h
    obtain ⟨ws, h1, h⟩ := ok_bind h
    cases h
    have m1 : ∀ p ∈ ps, p.1 ∈ parts (.dict ps) := fun p hp => mem_pairs.mpr ⟨p, hp, .inl rfl⟩
    have m2 : ∀ p ∈ ps, p.2 ∈ parts (.dict ps) := fun p hp => mem_pairs.mpr ⟨p, hp, .inr rfl⟩
    obtain ⟨qs, hq, hs⟩ := readPairs_back (fast := fast)
      (fun p hp => ih1 p hp (fun d hd => hn d (.part (m1 p hp) hd)) fun s as hi => he s as (.part (m1 p hp) hi))
      (fun p hp => ih2 p hp (fun d hd => hn d (.part (m2 p hp) hd)) fun s as hi => he s as (.part (m2 p hp) hi)) h1
    refine ⟨if fr then .frozendict qs else .dict qs, by rw [Hints.read, hq]; rfl, same_dict hs (.inl rfl) ?_⟩
    cases fr <;> simp
  | frozendict fr k v ps _ _ ih1 ih2 =>
    intro hn he w h
    rw [write] at h
    obtain ⟨ws, h1, h⟩ := ok_bind h
    cases h
    have m1 : ∀ p ∈ ps, p.1 ∈ parts (.frozendict ps) := fun p hp => mem_pairs.mpr ⟨p, hp, .inl rfl⟩
    have m2 : ∀ p ∈ ps, p.2 ∈ parts (.frozendict ps) := fun p hp => mem_pairs.mpr ⟨p, hp, .inr rfl⟩
    obtain ⟨qs, hq, hs⟩ := readPairs_back (fast := fast)
      (fun p hp => ih1 p hp (fun d hd => hn d (.part (m1 p hp) hd)) fun s as hi => he s as (.part (m1 p hp) hi))
      (fun p hp => ih2 p hp (fun d hd => hn d (.part (m2 p hp) hd)) fun s as hi => he s as (.part (m2 p hp) hi)) h1
    refine ⟨if fr then .frozendict qs else .dict qs, by rw [Hints.read, hq]; rfl, same_dict hs (.inr rfl) ?_⟩
    cases fr <;> simp
  | inst s as hl hu ih =>
    intro hn he w h
    rw [write] at h
    split at h
    · obtain ⟨ws, h1, h⟩ := ok_bind h
      cases h
      have hdl : (defaults (S.structs s).fields).length = (S.structs s).fields.length := List.length_map _
      obtain ⟨bs, hb, hk⟩ := readFields_back (fast := fast) (hI s) (S.structs s).fields as (defaults (S.structs s).fields) [] [] ws rfl rfl hl hdl hu
        (fun i f a hf ha hne => ih i f a hf ha hne (fun d hd => hn d (.part (List.mem_of_getElem? ha) hd))
          fun s as hi => he s as (.part (List.mem_of_getElem? ha) hi)) h1
      simp only [List.nil_append] at hb
      have hs : Alike as bs := back_alike hk fun i f hf ha => he s as .here i f hf ha
      have hS : Same (.inst s as) (.inst s bs) := by
        refine ⟨?_, ?_⟩ <;> rw [eq]
        · rw [alike_eqAll hs]; simp
        · rw [alike_eqAll (alike_comm hs)]; simp
      refine ⟨.inst s bs, ?_, hS⟩
      rw [Hints.read]
      split
      · rename_i him
        have : storeAll S true (S.structs s).fields bs = .ok bs := by
          rcases hF with rfl | hF
          · exact storeAll_eq true (readFields_made hD (.inl rfl) s ws _ bs (defaults_filled hD s) hb)
          · exact storeAll_noenum ((back_length hk).trans hdl) (hF s him)
        simp only [hb, this, bind, Except.bind]
      · simp only [storeAll_eq false (defaults_filled hD s), hb, bind, Except.bind]
    · cases h
  | alias t o _ ih =>
    intro hn he w h
    rw [write] at h
    obtain ⟨o', h1, h2⟩ := ih hn he w h
    exact ⟨o', by rw [Hints.read]; exact h1, h2⟩

theorem writeAll_each {S : Schema} {t : Ty} : ∀ {xs : List Obj} {ws : List Wire}, writeAll S t xs = .ok ws → ∀ x ∈ xs, ∃ w, write S t x = .ok w
  | x :: xs, ws, h, y, hy => by
    rw [writeAll] at h
    obtain ⟨w, h1, h⟩ := ok_bind h
    obtain ⟨ws', h2, h⟩ := ok_bind h
    rcases List.mem_cons.mp hy with rfl | hy
    · exact ⟨w, h1⟩
    · exact writeAll_each h2 y hy

theorem writePairs_each {S : Schema} {k v : Ty} : ∀ {ps : List (Obj × Obj)} {ws : List (Wire × Wire)}, writePairs S k v ps = .ok ws →
    ∀ p ∈ ps, (∃ w, write S k p.1 = .ok w) ∧ ∃ w, write S v p.2 = .ok w
  | (x, y) :: ps, ws, h, p, hp => by
    rw [writePairs] at h
    obtain ⟨a, h1, h⟩ := ok_bind h
    obtain ⟨b, h2, h⟩ := ok_bind h
    obtain ⟨ws', h3, h⟩ := ok_bind h
    rcases List.mem_cons.mp hp with rfl | hp
    · exact ⟨⟨a, h1⟩, b, h2⟩
    · exact writePairs_each h3 p hp

theorem writeFields_each {S : Schema} : ∀ {fs : List Field} {as : List Obj} {ws : List (Int × Wire)}, writeFields S fs as = .ok ws →
    ∀ (i : Nat) f a, fs[i]? = some f → as[i]? = some a → a ≠ .none → ∃ w, write S f.ty a = .ok w
  | [], _, _, _, i, f, a, hf, _, _ => by cases hf
  | _ :: _, [], _, _, i, f, a, _, ha, _ => by cases ha
  | f :: fs, a :: as, ws, h, i, g, b, hg, hb, hn => by
    rw [writeFields] at h
    cases hc : a.isNone with
    | true =>
      rw [hc, if_pos rfl] at h
      cases i with
      | zero => cases hb; exact absurd (isNone_iff.mp hc) hn
      | succ i => exact writeFields_each h i g b hg hb hn
    | false =>
      rw [hc] at h
      simp only [Bool.false_eq_true, if_false] at h
      obtain ⟨w, h1, h⟩ := ok_bind h
      obtain ⟨ws', h2, h⟩ := ok_bind h
      cases i with
      | zero => cases hb; cases hg; exact ⟨w, h1⟩
      | succ i => exact writeFields_each h2 i g b hg hb hn

/-! ## C101 -/

/-- A usable object is written if and only if no required member is `None` in any instance in it. -/
theorem write_iff {S : Schema} {t : Ty} {o : Obj} (hu : Usable S t o) : (∃ w, write S t o = .ok w) ↔ Valid S o := by
  refine ⟨fun hw => ?_, write_ok hu⟩
  induction hu with
  | bool | double | string | binary | uuid | int | enum => exact valid_iff.mpr ⟨nofun, nofun⟩
  | list t xs _ ih | tuple t xs _ ih | set _ t xs _ ih | frozenset _ t xs _ ih =>
    obtain ⟨w, h⟩ := hw
    rw [write] at h
    obtain ⟨ws, h1, _⟩ := ok_bind h
    exact valid_iff.mpr ⟨nofun, fun x hx => ih x hx (writeAll_each h1 x hx)⟩
  | dict _ k v ps _ _ ih1 ih2 | frozendict _ k v ps _ _ ih1 ih2 =>
    obtain ⟨w, h⟩ := hw
    rw [write] at h
    obtain ⟨ws, h1, _⟩ := ok_bind h
    refine valid_iff.mpr ⟨nofun, fun x hx => ?_⟩
    obtain ⟨p, hp, rfl | rfl⟩ := mem_pairs.mp hx
    · exact ih1 p hp (writePairs_each h1 p hp).1
    · exact ih2 p hp (writePairs_each h1 p hp).2
  | inst s as hl _ ih =>
    obtain ⟨w, h⟩ := hw
    rw [write] at h
    split at h
    · rename_i hv
      obtain ⟨ws, h1, _⟩ := ok_bind h
      refine valid_iff.mpr ⟨fun s' as' e => by cases e; exact (validate_iff hl).mp hv, fun a ha => ?_⟩
      obtain ⟨i, hi⟩ := List.mem_iff_getElem?.mp ha
      by_cases hn : a = .none
      · subst hn; exact valid_iff.mpr ⟨nofun, nofun⟩
      · have hlt : i < (S.structs s).fields.length := hl ▸ (List.getElem?_eq_some_iff.mp hi).1
        have hf : (S.structs s).fields[i]? = some (S.structs s).fields[i] := List.getElem?_eq_getElem hlt
        exact ih i _ a hf hi hn (writeFields_each h1 i _ a hf hi hn)
    · cases h
  | alias t o _ ih =>
    obtain ⟨w, h⟩ := hw
    rw [write] at h
    exact ih ⟨w, h⟩

/-- What is sent arrives, and it is equal to what was sent, if it is written at all, has no NaN in it, and no member that has a default is `None`. With `fast` the
receiver uses the C extension; then no immutable class may have an enum as a member. What is missing is false: see `nan_unequal`, `default_returns`,
`list_for_tuple` and `fast_immutable_unequal`. -/
theorem sent_equal_partial {S : Schema} (hD : Defaults S) (hI : Distinct S) (fast : Bool) (hF : fast = false ∨ NoFrozenEnums S) {t : Ty} {o : Obj}
    (hu : Usable S t o) (hv : Valid S o) (hn : NoNaN o) (he : Explicit S o) :
    ∃ w o', write S t o = .ok w ∧ read fast S t w = .ok o' ∧ eq o o' = true ∧ eq o' o = true := by
  obtain ⟨w, hw⟩ := write_ok hu hv
  obtain ⟨o', hr, hs⟩ := read_back hD hI hF hu hn he w hw
  exact ⟨w, o', hw, hr, hs.1, hs.2⟩

theorem eqAll_never {p : Obj} (h : ∀ q, eq p q = false) : ∀ {xs : List Obj} (ys), p ∈ xs → eqAll xs ys = false
  | x :: xs, [], _ => by simp [eqAll]
  | x :: xs, y :: ys, hp => by
    rw [eqAll]
    rcases List.mem_cons.mp hp with rfl | hp
    · rw [h]; rfl
    · rw [eqAll_never h ys hp, Bool.and_false]

theorem contains_never {p : Obj} (h : ∀ q, eq p q = false) : ∀ (ys : List Obj), contains p ys = false
  | [] => by rw [contains]
  | y :: ys => by rw [contains, h, contains_never h ys]; rfl

theorem subset_never {p : Obj} (h : ∀ q, eq p q = false) : ∀ {xs : List Obj} (ys), p ∈ xs → subset xs ys = false
  | x :: xs, ys, hp => by
    rw [subset]
    rcases List.mem_cons.mp hp with rfl | hp
    · rw [contains_never h]; rfl
    · rw [subset_never h ys hp, Bool.and_false]

theorem maps_never {k v : Obj} (h : (∀ q, eq k q = false) ∨ ∀ q, eq v q = false) : ∀ (qs : List (Obj × Obj)), maps k v qs = false
  | [] => by rw [maps]
  | (a, b) :: qs => by
    rw [maps, maps_never h qs]
    rcases h with h | h <;> simp [h]

theorem submap_never {p : Obj} (h : ∀ q, eq p q = false) : ∀ {ps : List (Obj × Obj)} (qs), p ∈ ps.flatMap (fun p => [p.1, p.2]) → submap ps qs = false
  | (k, v) :: ps, qs, hp => by
    rw [submap]
    obtain ⟨r, hr, e⟩ := mem_pairs.mp hp
    rcases List.mem_cons.mp hr with rfl | hr
    · rw [maps_never (e.imp (fun e q => (congrArg (eq · q) e.symm).trans (h q)) fun e q => (congrArg (eq · q) e.symm).trans (h q))]; rfl
    · rw [submap_never h qs (mem_pairs.mpr ⟨r, hr, e⟩), Bool.and_false]

/-- An object with a NaN in it is not equal to anything: not to what the peer receives, nor to itself. -/
theorem nan_unequal {d : UInt64} (hd : IsNaN d) {o : Obj} (h : Inside (.float d) o) : ∀ o', eq o o' = false := by
  induction h with
  | here => exact eq_nan hd
  | @part p o hp _ ih =>
    intro o'
    cases o with
    | list xs | tuple xs =>
      have := fun ys => eqAll_never ih ys (show p ∈ xs from hp)
      cases o' <;> simp [eq, num, this]
    | inst s as =>
      have := fun ys => eqAll_never ih ys (show p ∈ as from hp)
      cases o' <;> simp [eq, num, this]
    | set xs | frozenset xs =>
      have := fun ys => subset_never ih ys (show p ∈ xs from hp)
      cases o' <;> simp [eq, num, this]
    | dict ps | frozendict ps =>
      have := fun qs => submap_never ih qs (show p ∈ ps.flatMap (fun p => [p.1, p.2]) from hp)
      cases o' <;> simp [eq, num, this]
    | _ => exact absurd hp List.not_mem_nil

theorem back_at : ∀ {as rs bs : List Obj}, Back as rs bs → ∀ {i : Nat} {r : Obj}, as[i]? = some .none → rs[i]? = some r → r ≠ .none → eqAll as bs = false
  | a :: as, r :: rs, b :: bs, h, 0, r', ha, hr, hn => by
    cases ha; cases hr
    rw [eqAll]
    have : eq .none b = false := by
      rcases h.1 with ⟨_, rfl⟩ | ⟨hs, _⟩
      · cases b <;> first | exact absurd rfl hn | simp [eq, num]
      · exact absurd rfl hs
    rw [this]; rfl
  | a :: as, r :: rs, b :: bs, h, i + 1, r', ha, hr, hn => by
    rw [eqAll, back_at h.2 ha hr hn, Bool.and_false]

/-- A member that has a default and is `None`: the receiver has the default, and the objects differ. -/
theorem default_returns {S : Schema} (hD : Defaults S) (hI : Distinct S) (fast : Bool) (hF : fast = false ∨ NoFrozenEnums S) {s : Name} {as : List Obj}
    (hu : Usable S (.struct s) (.inst s as)) (hn : NoNaN (.inst s as)) (he : ∀ a ∈ as, Explicit S a) {i : Nat} {f : Field} {v : Obj}
    (hf : (S.structs s).fields[i]? = some f) (ha : as[i]? = some .none) (hd : f.dflt = some v) {w : Wire}
    (hw : write S (.struct s) (.inst s as) = .ok w) : ∃ o', read fast S (.struct s) w = .ok o' ∧ eq (.inst s as) o' = false := by
  cases hu with
  | inst _ _ hl hu =>
    rw [write] at hw
    split at hw
    · obtain ⟨ws, h1, h⟩ := ok_bind hw
      cases h
      have hdl : (defaults (S.structs s).fields).length = (S.structs s).fields.length := List.length_map _
      obtain ⟨bs, hb, hk⟩ := readFields_back (fast := fast) (hI s) (S.structs s).fields as (defaults (S.structs s).fields) [] [] ws rfl rfl hl hdl hu
        (fun i f a hf ha hne => read_back hD hI hF (hu i f a hf ha hne) (fun d hd => hn d (.part (List.mem_of_getElem? ha) hd))
          (he a (List.mem_of_getElem? ha))) h1
      simp only [List.nil_append] at hb
      have hdv : (defaults (S.structs s).fields)[i]? = some v := by rw [defaults, List.getElem?_map, hf, Option.map_some, hd]; rfl
      have hne : eqAll as bs = false := back_at hk ha hdv (made_not_none (hD s f (List.mem_of_getElem? hf) v hd))
      refine ⟨.inst s bs, ?_, by rw [eq, hne, Bool.and_false]⟩
      rw [Hints.read]
      split
      · rename_i him
        have : storeAll S true (S.structs s).fields bs = .ok bs := by
          rcases hF with rfl | hF
          · exact storeAll_eq true (readFields_made hD (.inl rfl) s ws _ bs (defaults_filled hD s) hb)
          · exact storeAll_noenum ((back_length hk).trans hdl) (hF s him)
        simp only [hb, this, bind, Except.bind]
      · simp only [storeAll_eq false (defaults_filled hD s), hb, bind, Except.bind]
    · cases hw

/-- A list in the place of an immutable list is written, but what is read is a tuple: never equal. -/
theorem list_for_tuple {S : Schema} (hD : Defaults S) (hI : Distinct S) (fast : Bool) (hF : fast = false ∨ NoFrozenEnums S) {t : Ty} {xs : List Obj}
    (hu : Usable S (.list false t) (.list xs)) (hv : Valid S (.list xs)) (hn : NoNaN (.list xs)) (he : Explicit S (.list xs)) :
    ∃ w o', write S (.list true t) (.list xs) = .ok w ∧ read fast S (.list true t) w = .ok o' ∧ eq (.list xs) o' = false := by
  obtain ⟨w, hw⟩ := write_ok hu hv
  obtain ⟨o', hr, _⟩ := read_back hD hI hF hu hn he w hw
  rw [write] at hw
  obtain ⟨ws, h1, h⟩ := ok_bind hw
  cases h
  rw [Hints.read] at hr
  obtain ⟨ys, hy, _⟩ := ok_bind hr
  exact ⟨.list ws, .tuple ys, by rw [write, h1]; rfl, by rw [Hints.read, hy]; rfl, by simp [eq, num]⟩

/-- With the C extension, an enum that is a member of an instance of an immutable class does not arrive: it is `None`, and the instances differ. -/
theorem fast_immutable_unequal {S : Schema} {s e : Name} {fid i : Int} {required : Bool} (hs : S.structs s = ⟨true, [⟨fid, .enum e, required, none⟩]⟩)
    (hi : Range .i32 i) :
    ∃ w o', write S (.struct s) (.inst s [.member e i]) = .ok w ∧ read true S (.struct s) w = .ok o' ∧ eq (.inst s [.member e i]) o' = false := by
  have hf : fits .i32 i = true := (fits_iff _ _).mpr hi
  refine ⟨.struct [(fid, .int .i32 i)], .inst s [.none], ?_, ?_, ?_⟩
  · rw [write, hs]
    simp [validate, Obj.isNone, writeFields, write, hf, bind, Except.bind]
  · simp [Hints.read, hs, storeAll, defaults, store, readFields, position, assign, readEnum, bind, Except.bind, Wire.ty, Ty.wire]
  · simp [eq, eqAll, num]

/-! ## A concrete case

The schema `shop` of `Verif.Props.Hints`: a garage with a tuple of two cars, one of them without parts.
-/

def redCar : Obj := .inst 0 [.member 0 1, .list [], .none]
def truck : Obj := .inst 0 [.member 0 3, .list [.member 0 3, .member 0 1], .frozendict [(.str [119], .int 6)]]
def garage : Obj := .inst 1 [.tuple [redCar, truck], .none]

theorem shop_distinct : Distinct shop := by
  intro s
  match s with
  | 0 => decide
  | 1 => decide
  | 2 => decide
  | _ + 3 => exact List.nodup_nil

theorem redCar_usable : Usable shop (.struct 0) redCar := by
  refine .inst _ _ rfl fun i f a hf ha hn => ?_
  match i, hf, ha with
  | 0, hf, ha => cases hf; cases ha; exact .enum _ _ (by decide) ((fits_iff _ _).mp (by decide))
  | 1, hf, ha => cases hf; cases ha; exact .list _ _ nofun
  | 2, hf, ha => cases ha; exact absurd rfl hn
  | _ + 3, hf, _ => cases hf

theorem truck_usable : Usable shop (.struct 0) truck := by
  refine .inst _ _ rfl fun i f a hf ha hn => ?_
  match i, hf, ha with
  | 0, hf, ha => cases hf; cases ha; exact .enum _ _ (by decide) ((fits_iff _ _).mp (by decide))
  | 1, hf, ha =>
    cases hf; cases ha
    refine .list _ _ fun x hx => .alias _ _ ?_
    rcases List.mem_cons.mp hx with rfl | hx
    · exact .enum _ _ (by decide) ((fits_iff _ _).mp (by decide))
    · cases List.mem_singleton.mp hx; exact .enum _ _ (by decide) ((fits_iff _ _).mp (by decide))
  | 2, hf, ha =>
    cases hf; cases ha
    refine .frozendict _ _ _ _ (fun p hp => ?_) (fun p hp => ?_) <;> cases List.mem_singleton.mp hp
    · exact .string _
    · exact .int _ _ ((fits_iff _ _).mp (by decide))
  | _ + 3, hf, _ => cases hf

theorem garage_usable : Usable shop (.struct 1) garage := by
  refine .inst _ _ rfl fun i f a hf ha hn => ?_
  match i, hf, ha with
  | 0, hf, ha =>
    cases hf; cases ha
    refine .tuple _ _ fun x hx => ?_
    rcases List.mem_cons.mp hx with rfl | hx
    · exact redCar_usable
    · cases List.mem_singleton.mp hx; exact truck_usable
  | 1, hf, ha => cases ha; exact absurd rfl hn
  | _ + 2, hf, _ => cases hf

/-- What is in an object is the object or in one of its parts: to be applied until there are none. -/
theorem noNaN_iff {o : Obj} : NoNaN o ↔ (∀ d, o = .float d → ¬ IsNaN d) ∧ ∀ p ∈ parts o, NoNaN p := by
  constructor
  · intro h
    exact ⟨fun d e => h d (e ▸ .here), fun p hp d hi => h d (.part hp hi)⟩
  · rintro ⟨h, hp⟩ d hi
    rcases inside_iff.mp hi with e | ⟨p, hm, hi⟩
    · exact h d e.symm
    · exact hp p hm d hi

theorem explicit_iff {S : Schema} {o : Obj} : Explicit S o ↔
    (∀ s as, o = .inst s as → ∀ (i : Nat) f, (S.structs s).fields[i]? = some f → as[i]? = some .none → f.dflt = none) ∧ ∀ p ∈ parts o, Explicit S p := by
  constructor
  · intro h
    exact ⟨fun s as e => h s as (e ▸ .here), fun p hp s as hi => h s as (.part hp hi)⟩
  · rintro ⟨h, hp⟩ s as hi
    rcases inside_iff.mp hi with e | ⟨p, hm, hi⟩
    · exact h s as e.symm
    · exact hp p hm s as hi

theorem garage_good : NoNaN garage ∧ Valid shop garage ∧ Explicit shop garage := by
  have car : ∀ a as, (∀ (i : Nat) f, (shop.structs 0).fields[i]? = some f → (a :: as)[i]? = some Obj.none → f.dflt = none) → a ≠ .none →
      (∀ p ∈ a :: as, NoNaN p ∧ Valid shop p ∧ Explicit shop p) →
      NoNaN (.inst 0 (a :: as)) ∧ Valid shop (.inst 0 (a :: as)) ∧ Explicit shop (.inst 0 (a :: as)) := by
    intro a as h1 h2 h3
    refine ⟨noNaN_iff.mpr ⟨nofun, fun p hp => (h3 p hp).1⟩, valid_iff.mpr ⟨?_, fun p hp => (h3 p hp).2.1⟩,
      explicit_iff.mpr ⟨fun s bs e => by cases e; exact h1, fun p hp => (h3 p hp).2.2⟩⟩
    rintro s bs e i f hf hr
    cases e
    match i, hf with
    | 0, _ => exact fun e => h2 (Option.some.inj e)
    | 1, hf => cases hf; cases hr
    | 2, hf => cases hf; cases hr
    | _ + 3, hf => cases hf
  have leaf : ∀ o : Obj, parts o = [] → (∀ d, o ≠ .float d) → (∀ s as, o ≠ .inst s as) → NoNaN o ∧ Valid shop o ∧ Explicit shop o := fun o hp hf hi =>
    ⟨noNaN_iff.mpr ⟨fun d e => absurd e (hf d), by simp [hp]⟩, valid_iff.mpr ⟨fun s as e => absurd e (hi s as), by simp [hp]⟩,
      explicit_iff.mpr ⟨fun s as e => absurd e (hi s as), by simp [hp]⟩⟩
  have inner : ∀ o : Obj, (∀ d, o ≠ .float d) → (∀ s as, o ≠ .inst s as) → (∀ p ∈ parts o, NoNaN p ∧ Valid shop p ∧ Explicit shop p) →
      NoNaN o ∧ Valid shop o ∧ Explicit shop o := fun o hf hi hp =>
    ⟨noNaN_iff.mpr ⟨fun d e => absurd e (hf d), fun p h => (hp p h).1⟩, valid_iff.mpr ⟨fun s as e => absurd e (hi s as), fun p h => (hp p h).2.1⟩,
      explicit_iff.mpr ⟨fun s as e => absurd e (hi s as), fun p h => (hp p h).2.2⟩⟩
  have red : NoNaN redCar ∧ Valid shop redCar ∧ Explicit shop redCar := by
    refine car _ _ (fun i f hf ha => ?_) nofun fun p hp => ?_
    · match i, hf, ha with
      | 2, hf, _ => cases hf; rfl
      | _ + 3, hf, _ => cases hf
    · rcases List.mem_cons.mp hp with rfl | hp
      · exact leaf _ rfl nofun nofun
      · rcases List.mem_cons.mp hp with rfl | hp
        · exact leaf _ rfl nofun nofun
        · cases List.mem_singleton.mp hp; exact leaf _ rfl nofun nofun
  have blue : NoNaN truck ∧ Valid shop truck ∧ Explicit shop truck := by
    refine car _ _ (fun i f hf ha => ?_) nofun fun p hp => ?_
    · match i, hf, ha with
      | _ + 3, hf, _ => cases hf
    · rcases List.mem_cons.mp hp with rfl | hp
      · exact leaf _ rfl nofun nofun
      · rcases List.mem_cons.mp hp with rfl | hp
        · refine inner _ nofun nofun fun p hp => ?_
          rcases List.mem_cons.mp hp with rfl | hp
          · exact leaf _ rfl nofun nofun
          · cases List.mem_singleton.mp hp; exact leaf _ rfl nofun nofun
        · cases List.mem_singleton.mp hp
          refine inner _ nofun nofun fun p hp => ?_
          rcases List.mem_cons.mp hp with rfl | hp
          · exact leaf _ rfl nofun nofun
          · cases List.mem_singleton.mp hp; exact leaf _ rfl nofun nofun
  have cars : NoNaN (.tuple [redCar, truck]) ∧ Valid shop (.tuple [redCar, truck]) ∧ Explicit shop (.tuple [redCar, truck]) := by
    refine inner _ nofun nofun fun p hp => ?_
    rcases List.mem_cons.mp hp with rfl | hp
    · exact red
    · cases List.mem_singleton.mp hp; exact blue
  have all : ∀ p ∈ [Obj.tuple [redCar, truck], .none], NoNaN p ∧ Valid shop p ∧ Explicit shop p := fun p hp => by
    rcases List.mem_cons.mp hp with rfl | hp
    · exact cars
    · cases List.mem_singleton.mp hp; exact leaf _ rfl nofun nofun
  refine ⟨noNaN_iff.mpr ⟨nofun, fun p hp => (all p hp).1⟩, valid_iff.mpr ⟨?_, fun p hp => (all p hp).2.1⟩,
    explicit_iff.mpr ⟨?_, fun p hp => (all p hp).2.2⟩⟩
  · rintro s as e i f hf hr
    cases e
    match i, hf with
    | 0, hf => cases hf; cases hr
    | 1, hf => cases hf; cases hr
    | _ + 2, hf => cases hf
  · rintro s as e i f hf ha
    cases e
    match i, hf with
    | 0, hf => cases hf; rfl
    | 1, hf => cases hf; rfl
    | _ + 2, hf => cases hf

theorem shop_mutable : NoFrozenEnums shop := by
  intro s h
  match s, h with
  | 0, h => cases h
  | 1, h => cases h
  | 2, h => cases h
  | _ + 3, h => cases h

/-- The garage arrives, with the C extension and without it. -/
example (fast : Bool) : ∃ w o', write shop (.struct 1) garage = .ok w ∧ read fast shop (.struct 1) w = .ok o' ∧ eq garage o' = true ∧ eq o' garage = true :=
  sent_equal_partial shop_defaults shop_distinct fast (.inr shop_mutable) garage_usable garage_good.2.1 garage_good.1 garage_good.2.2

/-- `frozendict` was sent, and `dict` arrives. -/
example : eq truck (.inst 0 [.member 0 3, .list [.int 3, .int 1], .dict [(.str [119], .int 6)]]) = true := by
  simp [truck, eq, eqAll, submap, maps, num]

/-- A car without stripes, `None` for a list whose default is `[BLUE]`, gets stripes on the way. -/
example : ∃ w o', write shop (.struct 0) (.inst 0 [.member 0 1, .none, .none]) = .ok w ∧ read false shop (.struct 0) w = .ok o' ∧
    eq (.inst 0 [.member 0 1, .none, .none]) o' = false := by
  have hu : Usable shop (.struct 0) (.inst 0 [.member 0 1, .none, .none]) := by
    refine .inst _ _ rfl fun i f a hf ha hn => ?_
    match i, hf, ha with
    | 0, hf, ha => cases hf; cases ha; exact .enum _ _ (by decide) ((fits_iff _ _).mp (by decide))
    | 1, _, ha => cases ha; exact absurd rfl hn
    | 2, _, ha => cases ha; exact absurd rfl hn
    | _ + 3, hf, _ => cases hf
  have leaf : ∀ o ∈ [Obj.member 0 1, .none, .none], (∀ d, ¬ Inside (.float d) o) ∧ ∀ s as, ¬ Inside (.inst s as) o := by
    intro o ho
    have : o = .member 0 1 ∨ o = .none := by simpa using ho
    rcases this with rfl | rfl <;> refine ⟨fun d h => ?_, fun s as h => ?_⟩ <;> rcases inside_iff.mp h with e | ⟨p, hp, _⟩ <;> first | cases e | cases hp
  have hw : write shop (.struct 0) (.inst 0 [.member 0 1, .none, .none]) = .ok (.struct [(1, .int .i32 1)]) := by
    simp [write, shop, validate, Obj.isNone, writeFields, fits, bind, Except.bind]
  obtain ⟨o', h1, h2⟩ := default_returns shop_defaults shop_distinct false (.inl rfl) hu
    (noNaN_iff.mpr ⟨nofun, fun p hp d h => absurd h ((leaf p hp).1 d)⟩) (fun a ha s as h => absurd h ((leaf a ha).2 s as)) (i := 1) rfl rfl rfl hw
  exact ⟨_, o', hw, h1, h2⟩

/-- 0x7ff8000000000000 is a NaN, and infinity is none. -/
example : IsNaN 0x7ff8000000000000 ∧ ¬ IsNaN 0x7ff0000000000000 := by
  constructor
  · exact (nan_iff _).mp (by decide)
  · exact fun h => absurd ((nan_iff _).mpr h) (by decide)

end Thrift.Equal
