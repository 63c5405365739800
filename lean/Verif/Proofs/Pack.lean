import Verif.Model.Pack
/-
Facts about `pack`, `unpack` and UTF-8.
-/

namespace Thrift

theorem beNat_foldl (b : Bytes) (acc : Nat) :
    b.foldl (fun acc x => acc * 256 + x.toNat) acc = acc * 256 ^ b.length + beNat b := by
  induction b generalizing acc with
  | nil => simp [beNat]
  | cons x b ih =>
    simp only [List.foldl_cons, beNat, List.length_cons]
    rw [ih, ih (0 * 256 + x.toNat)]
    rw [Nat.pow_succ, Nat.add_mul]
    simp only [Nat.zero_mul, Nat.zero_add]
    rw [Nat.mul_assoc, Nat.mul_comm 256]
    omega

@[simp] theorem beNat_nil : beNat [] = 0 := rfl

theorem beNat_cons (x : UInt8) (b : Bytes) :
    beNat (x :: b) = x.toNat * 256 ^ b.length + beNat b := by
  have := beNat_foldl b (0 * 256 + x.toNat)
  simp only [Nat.zero_mul, Nat.zero_add] at this
  simpa [beNat] using this

theorem beNat_lt (b : Bytes) : beNat b < 256 ^ b.length := by
  induction b with
  | nil => simp
  | cons x b ih =>
    rw [beNat_cons, List.length_cons, Nat.pow_succ]
    have := x.toNat_lt
    have h : x.toNat * 256 ^ b.length ≤ 255 * 256 ^ b.length :=
      Nat.mul_le_mul_right _ (by omega)
    omega

@[simp] theorem beBytes_length (n x : Nat) : (beBytes n x).length = n := by
  induction n with
  | zero => rfl
  | succ n ih => simp [beBytes, ih]

theorem beBytes_mod (n x : Nat) : beBytes n (x % 256 ^ n) = beBytes n x := by
  suffices h : ∀ m, n ≤ m → beBytes n (x % 256 ^ m) = beBytes n x from h n (Nat.le_refl n)
  intro m hm
  induction n with
  | zero => rfl
  | succ n ih =>
    simp only [beBytes]
    congr 1
    · obtain ⟨k, rfl⟩ : ∃ k, m = n + 1 + k := ⟨m - (n + 1), by omega⟩
      have : x % 256 ^ (n + 1 + k) / 256 ^ n = x / 256 ^ n % 256 ^ (1 + k) := by
        rw [show 256 ^ (n + 1 + k) = 256 ^ n * 256 ^ (1 + k) by rw [← Nat.pow_add]; congr 1; omega]
        rw [Nat.mod_mul_right_div_self]
      rw [this]
      apply UInt8.toNat_inj.mp
      simp only [UInt8.toNat_ofNat']
      rw [Nat.mod_mod_of_dvd]
      exact ⟨256 ^ k, by rw [Nat.pow_add]⟩
    · exact ih (by omega)

theorem beNat_beBytes (n x : Nat) : beNat (beBytes n x) = x % 256 ^ n := by
  induction n with
  | zero => simp [beBytes, Nat.mod_one]
  | succ n ih =>
    simp only [beBytes, beNat_cons, beBytes_length, UInt8.toNat_ofNat', ih]
    rw [show 256 ^ (n + 1) = 256 ^ n * 256 from Nat.pow_succ _ _, Nat.mod_mul, Nat.mul_comm,
      Nat.add_comm]

theorem beNat_beBytes_of_lt {n x : Nat} (h : x < 256 ^ n) : beNat (beBytes n x) = x := by
  rw [beNat_beBytes, Nat.mod_eq_of_lt h]

theorem beBytes_beNat (b : Bytes) : beBytes b.length (beNat b) = b := by
  induction b with
  | nil => rfl
  | cons x b ih =>
    have hlt := beNat_lt b
    have hx := x.toNat_lt
    simp only [List.length_cons, beBytes, beNat_cons]
    congr 1
    · apply UInt8.toNat_inj.mp
      rw [UInt8.toNat_ofNat', Nat.mul_comm, Nat.mul_add_div (Nat.pow_pos (by omega)),
        Nat.div_eq_of_lt hlt]
      simp only [Nat.reducePow]
      omega
    · have : beBytes b.length ((x.toNat * 256 ^ b.length + beNat b) % 256 ^ b.length) = b := by
        rw [Nat.mul_comm, Nat.mul_add_mod, Nat.mod_eq_of_lt hlt, ih]
      rw [beBytes_mod] at this
      exact this

theorem pow256 (n : Nat) : (256 : Nat) ^ n = 2 ^ (8 * n) := by
  rw [Nat.pow_mul]

theorem packS_ok {n : Nat} {i : Int} {b : Bytes} (h : packS n i = .ok b) :
    b.length = n ∧ -(2 ^ (8 * n - 1) : Int) ≤ i ∧ i < (2 ^ (8 * n - 1) : Int) := by
  unfold packS at h
  split at h
  · rename_i hr
    injection h with h
    subst h
    exact ⟨beBytes_length _ _, hr⟩
  · contradiction

theorem unpackS_packS {n : Nat} {i : Int} {b : Bytes} (hn : 0 < n) (h : packS n i = .ok b) :
    unpackS b = i := by
  obtain ⟨hl, h1, h2⟩ := packS_ok h
  unfold packS at h
  rw [if_pos ⟨h1, h2⟩] at h
  injection h with h
  obtain ⟨k, hk⟩ : ∃ k, 8 * n = k + 1 := ⟨8 * n - 1, by omega⟩
  have e1 : 8 * n - 1 = k := by omega
  rw [e1] at h1 h2
  have hpk : (0 : Int) < 2 ^ k := Int.pow_pos (by omega)
  have e2 : (2 ^ (8 * n) : Int) = 2 * 2 ^ k := by rw [hk, Int.pow_succ]; omega
  have hm0 : 0 ≤ i % (2 ^ (8 * n) : Int) := Int.emod_nonneg _ (by omega)
  have hm1 : i % (2 ^ (8 * n) : Int) < 2 ^ (8 * n) := Int.emod_lt_of_pos _ (by omega)
  have hlt : (i % (2 ^ (8 * n) : Int)).toNat < 256 ^ n := by
    rw [pow256]
    have : ((2 ^ (8 * n) : Nat) : Int) = 2 ^ (8 * n) := by simp
    omega
  have hbe : beNat b = (i % (2 ^ (8 * n) : Int)).toNat := by
    rw [← h, beNat_beBytes_of_lt hlt]
  unfold unpackS
  rw [hbe, hl, e1]
  have hc : ((2 ^ k : Nat) : Int) = 2 ^ k := by simp
  by_cases hi : 0 ≤ i
  · have : i % (2 ^ (8 * n) : Int) = i := Int.emod_eq_of_lt hi (by omega)
    rw [this, if_pos (by omega)]
    omega
  · have : i % (2 ^ (8 * n) : Int) = i + 2 ^ (8 * n) := by
      rw [← Int.add_emod_right, Int.emod_eq_of_lt (by omega) (by omega)]
    rw [this, if_neg (by omega)]
    omega

theorem packS_in_range {n : Nat} {i : Int}
    (h1 : -(2 ^ (8 * n - 1) : Int) ≤ i) (h2 : i < (2 ^ (8 * n - 1) : Int)) :
    packS n i = .ok (beBytes n (i % (2 ^ (8 * n) : Int)).toNat) := by
  unfold packS; rw [if_pos ⟨h1, h2⟩]

/-- What `unpack` returns is always in the range of the format. -/
theorem unpackS_range {b : Bytes} (h : 0 < b.length) :
    -(2 ^ (8 * b.length - 1) : Int) ≤ unpackS b ∧ unpackS b < (2 ^ (8 * b.length - 1) : Int) := by
  have hlt := beNat_lt b
  rw [pow256] at hlt
  obtain ⟨k, hk⟩ : ∃ k, 8 * b.length = k + 1 := ⟨8 * b.length - 1, by omega⟩
  unfold unpackS
  rw [hk] at hlt ⊢
  have hc : ((2 ^ k : Nat) : Int) = 2 ^ k := by simp
  have hc2 : ((2 ^ (k + 1) : Nat) : Int) = 2 * 2 ^ k := by
    rw [Int.natCast_pow, Int.pow_succ, Int.mul_comm]; rfl
  have hc3 : (2 ^ (k + 1) : Int) = 2 * 2 ^ k := by rw [Int.pow_succ]; omega
  simp only [Nat.add_sub_cancel]
  have hpk : (0 : Int) < 2 ^ k := Int.pow_pos (by omega)
  split
  · constructor <;> omega
  · rw [hc3]
    constructor <;> omega

/-- `unpack` and `pack` are inverse also the other way round. -/
theorem packS_unpackS {b : Bytes} (h : 0 < b.length) : packS b.length (unpackS b) = .ok b := by
  have hr := unpackS_range h
  rw [packS_in_range hr.1 hr.2]
  congr 1
  have hlt := beNat_lt b
  rw [pow256] at hlt
  have hc : ((2 ^ (8 * b.length) : Nat) : Int) = 2 ^ (8 * b.length) := by simp
  have : (unpackS b % (2 ^ (8 * b.length) : Int)).toNat = beNat b := by
    unfold unpackS
    split
    · rw [Int.emod_eq_of_lt (by omega) (by omega)]; omega
    · rw [Int.sub_emod_right, Int.emod_eq_of_lt (by omega) (by omega)]; omega
  rw [this, beBytes_beNat]

/-! ### UTF-8 -/

theorem utf8Decode_encodeChar {c : Nat} {b : Bytes} (h : utf8EncodeChar c = .ok b) (rest : Bytes) :
    utf8Decode (b ++ rest) = (utf8Decode rest).map (c :: ·) := by
  unfold utf8EncodeChar at h
  split at h
  · contradiction
  rename_i hs
  simp only [isScalar, Bool.not_eq_true', Bool.or_eq_false_iff, decide_eq_false_iff_not,
    Bool.and_eq_false_imp, decide_eq_true_eq, not_and] at hs
  have hsc : c < 0xD800 ∨ (0xE000 ≤ c ∧ c < 0x110000) := by omega
  split at h
  · injection h with h
    subst h
    rw [List.cons_append, List.nil_append, utf8Decode.eq_def]
    dsimp only
    have : (UInt8.ofNat c).toNat = c := by rw [UInt8.toNat_ofNat']; omega
    rw [if_pos (by omega), this]
  split at h
  · injection h with h
    subst h
    simp only [List.cons_append, List.nil_append]
    rw [utf8Decode]
    have e0 : (UInt8.ofNat (0xC0 + c / 0x40)).toNat = 0xC0 + c / 0x40 := by
      rw [UInt8.toNat_ofNat']; omega
    have e1 : (UInt8.ofNat (0x80 + c % 0x40)).toNat = 0x80 + c % 0x40 := by
      rw [UInt8.toNat_ofNat']; omega
    rw [if_neg (by omega), if_neg (by omega), if_pos (by omega)]
    have : cp2 (UInt8.ofNat (0xC0 + c / 0x40)) (UInt8.ofNat (0x80 + c % 0x40)) = c := by
      unfold cp2; rw [e0, e1]; omega
    simp only [this]
    rw [if_pos (by simp [isCont]; omega)]
  split at h
  · injection h with h
    subst h
    simp only [List.cons_append, List.nil_append]
    rw [utf8Decode]
    have e0 : (UInt8.ofNat (0xE0 + c / 0x1000)).toNat = 0xE0 + c / 0x1000 := by
      rw [UInt8.toNat_ofNat']; omega
    have e1 : (UInt8.ofNat (0x80 + c / 0x40 % 0x40)).toNat = 0x80 + c / 0x40 % 0x40 := by
      rw [UInt8.toNat_ofNat']; omega
    have e2 : (UInt8.ofNat (0x80 + c % 0x40)).toNat = 0x80 + c % 0x40 := by
      rw [UInt8.toNat_ofNat']; omega
    rw [if_neg (by omega), if_neg (by omega), if_neg (by omega), if_pos (by omega)]
    have : cp3 (UInt8.ofNat (0xE0 + c / 0x1000)) (UInt8.ofNat (0x80 + c / 0x40 % 0x40))
        (UInt8.ofNat (0x80 + c % 0x40)) = c := by
      unfold cp3; rw [e0, e1, e2]; omega
    simp only [this]
    rw [if_pos (by simp [isCont, isScalar]; omega)]
  · injection h with h
    subst h
    simp only [List.cons_append, List.nil_append]
    rw [utf8Decode]
    have e0 : (UInt8.ofNat (0xF0 + c / 0x40000)).toNat = 0xF0 + c / 0x40000 := by
      rw [UInt8.toNat_ofNat']; omega
    have e1 : (UInt8.ofNat (0x80 + c / 0x1000 % 0x40)).toNat = 0x80 + c / 0x1000 % 0x40 := by
      rw [UInt8.toNat_ofNat']; omega
    have e2 : (UInt8.ofNat (0x80 + c / 0x40 % 0x40)).toNat = 0x80 + c / 0x40 % 0x40 := by
      rw [UInt8.toNat_ofNat']; omega
    have e3 : (UInt8.ofNat (0x80 + c % 0x40)).toNat = 0x80 + c % 0x40 := by
      rw [UInt8.toNat_ofNat']; omega
    rw [if_neg (by omega), if_neg (by omega), if_neg (by omega), if_neg (by omega),
      if_pos (by omega)]
    have : cp4 (UInt8.ofNat (0xF0 + c / 0x40000)) (UInt8.ofNat (0x80 + c / 0x1000 % 0x40))
        (UInt8.ofNat (0x80 + c / 0x40 % 0x40)) (UInt8.ofNat (0x80 + c % 0x40)) = c := by
      unfold cp4; rw [e0, e1, e2, e3]; omega
    simp only [this]
    rw [if_pos (by simp [isCont, isScalar]; omega)]

theorem utf8Decode_encode {s : PyStr} {b : Bytes} (h : utf8Encode s = .ok b) :
    utf8Decode b = .ok s := by
  induction s generalizing b with
  | nil => simp [utf8Encode] at h; subst h; rfl
  | cons c cs ih =>
    rw [utf8Encode] at h
    cases hc : utf8EncodeChar c with
    | error e => rw [hc] at h; contradiction
    | ok x =>
      rw [hc] at h
      cases hr : utf8Encode cs with
      | error e => simp only [hr] at h; contradiction
      | ok y =>
        simp only [hr] at h
        injection h with h
        subst h
        rw [utf8Decode_encodeChar hc, ih hr]; rfl

/-- A text of valid code points can be encoded. -/
theorem utf8Encode_ok {s : PyStr} (h : ∀ c ∈ s, isScalar c = true) :
    ∃ b, utf8Encode s = .ok b := by
  induction s with
  | nil => exact ⟨[], rfl⟩
  | cons c cs ih =>
    obtain ⟨y, hy⟩ := ih (fun c hc => h c (List.mem_cons_of_mem _ hc))
    have hc := h c List.mem_cons_self
    have : ∃ x, utf8EncodeChar c = .ok x := by
      unfold utf8EncodeChar
      rw [hc]
      simp only [Bool.not_true, Bool.false_eq_true, if_false]
      split
      · exact ⟨_, rfl⟩
      split
      · exact ⟨_, rfl⟩
      split <;> exact ⟨_, rfl⟩
    obtain ⟨x, hx⟩ := this
    exact ⟨x ++ y, by rw [utf8Encode, hx, hy]⟩

end Thrift
