import Verif.Model.Json
import Verif.Spec.Json
import Verif.Proofs.Layout
import Verif.Proofs.TokOK
/-
The texts of scalars in JSON documents: what the model writes is what the specification says, and what the
model reads back.
-/

namespace Thrift.Json
open Spec Spec.Json

/-- A bytes object as a text. -/
def toPy (b : Bytes) : PyStr := b.map (·.toNat)

/-! ### Decimal numbers -/

theorem digitChar_ascii (d : Nat) (h : d < 10) :
    UInt8.ofNat (Nat.digitChar d).toNat = UInt8.ofNat (48 + d) := by
  have : ∀ d < 10, UInt8.ofNat (Nat.digitChar d).toNat = UInt8.ofNat (48 + d) := by decide
  exact this d h

theorem natDigits_eq (n : Nat) : natDigits n = ascii n.repr := by
  induction n using Nat.strongRecOn with
  | ind n ih =>
    rw [natDigits]
    unfold ascii Nat.repr at *
    simp only [String.toList_ofList] at *
    rw [Nat.toDigits_eq_if (by omega)]
    split
    · rename_i h
      simp [digitChar_ascii n h]
    · rename_i h
      rw [List.map_append, ih (n / 10) (by omega)]
      simp [digitChar_ascii (n % 10) (by omega)]

theorem intDigits_eq (i : Int) : intDigits i = decimal i := by
  unfold intDigits decimal
  cases i with
  | ofNat n =>
    rw [if_neg (by simp), natDigits_eq]
    rfl
  | negSucc n =>
    rw [if_pos (by simp), natDigits_eq]
    have e : toString (Int.negSucc n) = "-" ++ (n + 1).repr := rfl
    rw [e, Int.natAbs_negSucc]
    unfold ascii
    rw [String.toList_append, List.map_append]
    rfl

theorem natDigits_ne (n : Nat) : natDigits n ≠ [] := by
  rw [natDigits]; split <;> simp

theorem natDigits_digit (n : Nat) : ∀ x ∈ natDigits n, Rfc8259.Digit x := by
  induction n using Nat.strongRecOn with
  | ind n ih =>
    rw [natDigits]
    split
    · intro x hx
      simp only [List.mem_singleton] at hx
      subst hx
      unfold Rfc8259.Digit
      simp only [UInt8.toNat_ofNat']
      omega
    · intro x hx
      rcases List.mem_append.mp hx with h | h
      · exact ih _ (by omega) x h
      · simp only [List.mem_singleton] at h
        subst h
        unfold Rfc8259.Digit
        simp only [UInt8.toNat_ofNat']
        omega

theorem natDigits_zero : natDigits 0 = [48] := by rw [natDigits]; rfl

theorem head_append {α : Type} {a b : List α} (h : a ≠ []) : (a ++ b).head? = a.head? := by
  cases a with
  | nil => exact absurd rfl h
  | cons x a => rfl

theorem natDigits_head (n : Nat) (h : 0 < n) : (natDigits n).head? ≠ some 48 := by
  induction n using Nat.strongRecOn with
  | ind n ih =>
    rw [natDigits]
    split
    · rename_i hn
      simp only [List.head?_cons, ne_eq, Option.some.injEq]
      intro e
      have := congrArg UInt8.toNat e
      simp only [UInt8.toNat_ofNat', UInt8.reduceToNat] at this
      omega
    · rename_i hn
      rw [head_append (natDigits_ne _)]
      exact ih _ (by omega) (by omega)

theorem number_intDigits (i : Int) : Rfc8259.Number (intDigits i) := by
  have hint : ∀ n, Rfc8259.Integral (natDigits n) := by
    intro n
    refine ⟨⟨natDigits_ne n, natDigits_digit n⟩, ?_⟩
    by_cases h : n = 0
    · left; rw [h, natDigits_zero]
    · right; exact natDigits_head n (by omega)
  unfold intDigits
  split
  · exact ⟨[45], natDigits i.natAbs, [], [], by simp, .inr rfl, hint _, .inl rfl, .inl rfl⟩
  · exact ⟨[], natDigits i.natAbs, [], [], by simp, .inl rfl, hint _, .inl rfl, .inl rfl⟩

theorem digitsVal_append (xs ys : PyStr) (acc : Nat) :
    digitsVal acc (xs ++ ys) = (digitsVal acc xs).bind fun a => digitsVal a ys := by
  induction xs generalizing acc with
  | nil => rfl
  | cons x xs ih =>
    simp only [List.cons_append, digitsVal]
    split
    · exact ih _
    · rfl

theorem digitsVal_natDigits (n : Nat) : digitsVal 0 (toPy (natDigits n)) = some n := by
  induction n using Nat.strongRecOn with
  | ind n ih =>
    rw [natDigits]
    split
    · rename_i h
      simp only [toPy, List.map_cons, List.map_nil, digitsVal, UInt8.toNat_ofNat']
      rw [if_pos (by omega)]
      congr 1
      omega
    · rename_i h
      unfold toPy at *
      rw [List.map_append, digitsVal_append, ih _ (by omega)]
      simp only [Option.bind_some, List.map_cons, List.map_nil, digitsVal, UInt8.toNat_ofNat']
      rw [if_pos (by omega)]
      congr 1
      omega

theorem pyInt_intDigits (i : Int) : pyInt (toPy (intDigits i)) = some i := by
  unfold intDigits
  have hv := digitsVal_natDigits i.natAbs
  have hne := natDigits_ne i.natAbs
  have hd := natDigits_digit i.natAbs
  cases hn : natDigits i.natAbs with
  | nil => exact absurd hn hne
  | cons x xs =>
    rw [hn] at hv hd
    have hx := hd x (by simp)
    unfold Rfc8259.Digit at hx
    split
    · rename_i h
      simp only [toPy, List.map_cons] at hv ⊢
      unfold pyInt
      dsimp only
      rw [if_pos (by rfl)]
      rw [hv]
      simp only [Option.map_some]
      congr 1
      omega
    · rename_i h
      simp only [toPy, List.map_cons] at hv ⊢
      unfold pyInt
      dsimp only
      rw [if_neg (by omega), if_neg (by omega), hv]
      simp only [Option.map_some]
      congr 1
      omega

theorem numeric_intDigits (i : Int) : ∀ x ∈ intDigits i, isNumeric [x] = true := by
  have hn : ∀ x, Rfc8259.Digit x → isNumeric [x] = true := by
    intro x hx
    unfold Rfc8259.Digit at hx
    have h1 : (48 : UInt8) ≤ x := by rw [UInt8.le_iff_toNat_le]; exact hx.1
    have h2 : x ≤ (57 : UInt8) := by rw [UInt8.le_iff_toNat_le]; exact hx.2
    simp [isNumeric, h1, h2]
  intro x hx
  unfold intDigits at hx
  split at hx
  · rcases List.mem_cons.mp hx with rfl | hx
    · rfl
    · exact hn x (natDigits_digit _ x hx)
  · exact hn x (natDigits_digit _ x hx)

theorem intDigits_ne (i : Int) : intDigits i ≠ [] := by
  unfold intDigits
  split
  · simp
  · exact natDigits_ne _

/-! ### base64 -/

theorem alphabet_get (k : Nat) (h : k < 64) : alphabet.getD k 0 = b64Char k := by
  have : ∀ k < 64, alphabet.getD k 0 = b64Char k := by decide +kernel
  exact this k h

theorem b64Val_char (k : Nat) (h : k < 64) : b64Val (b64Char k).toNat = some k := by
  have : ∀ k < 64, b64Val (b64Char k).toNat = some k := by decide +kernel
  exact this k h

/-- A byte that stands for itself inside a string. -/
def Plain (x : UInt8) : Prop := 0x20 ≤ x.toNat ∧ x.toNat < 0x80 ∧ x.toNat ≠ 0x22 ∧ x.toNat ≠ 0x5C

instance (x : UInt8) : Decidable (Plain x) := by unfold Plain; exact inferInstance

theorem b64Char_plain (k : Nat) : Plain (b64Char k) := by
  have h : ∀ k < 64, Plain (b64Char k) := by decide +kernel
  by_cases hk : k < 64
  · exact h k hk
  · have : b64Char k = 47 := by
      unfold b64Char
      rw [if_neg (by omega), if_neg (by omega), if_neg (by omega), if_neg (by omega)]
    rw [this]; decide

theorem sextets_triple (x y z : UInt8) (l : List Nat) :
    sextets (bits x ++ (bits y ++ (bits z ++ l))) =
      b64Char (x.toNat / 4) :: b64Char (x.toNat % 4 * 16 + y.toNat / 16) ::
      b64Char (y.toNat % 16 * 4 + z.toNat / 64) :: b64Char (z.toNat % 64) :: sextets l := by
  have hx := x.toNat_lt
  have hy := y.toNat_lt
  have hz := z.toNat_lt
  simp only [bits, List.map_cons, List.map_nil, List.cons_append, List.nil_append, sextets]
  rw [alphabet_get, alphabet_get, alphabet_get, alphabet_get]
  · congr 2
    · simp only [ofBits, List.foldl_cons, List.foldl_nil]; omega
    congr 2
    · simp only [ofBits, List.foldl_cons, List.foldl_nil]; omega
    congr 2
    · simp only [ofBits, List.foldl_cons, List.foldl_nil]; omega
    congr 2
    · simp only [ofBits, List.foldl_cons, List.foldl_nil]; omega
  all_goals (simp only [ofBits, List.foldl_cons, List.foldl_nil]; omega)

theorem sextets_pair (x y : UInt8) :
    sextets (bits x ++ bits y) =
      [b64Char (x.toNat / 4), b64Char (x.toNat % 4 * 16 + y.toNat / 16), b64Char (y.toNat % 16 * 4)] := by
  have hx := x.toNat_lt
  have hy := y.toNat_lt
  simp only [bits, List.map_cons, List.map_nil, List.cons_append, List.nil_append, sextets,
    List.take_succ_cons, List.take_zero]
  rw [alphabet_get, alphabet_get, alphabet_get]
  · congr 2
    · simp only [ofBits, List.foldl_cons, List.foldl_nil]; omega
    congr 2
    · simp only [ofBits, List.foldl_cons, List.foldl_nil]; omega
    congr 2
    · simp only [ofBits, List.foldl_cons, List.foldl_nil]; omega
  all_goals (simp only [ofBits, List.foldl_cons, List.foldl_nil]; omega)

theorem sextets_single (x : UInt8) :
    sextets (bits x) = [b64Char (x.toNat / 4), b64Char (x.toNat % 4 * 16)] := by
  have hx := x.toNat_lt
  simp only [bits, List.map_cons, List.map_nil, sextets, List.cons_append, List.nil_append,
    List.take_succ_cons, List.take_zero]
  rw [alphabet_get, alphabet_get]
  · congr 2
    · simp only [ofBits, List.foldl_cons, List.foldl_nil]; omega
    congr 2
    · simp only [ofBits, List.foldl_cons, List.foldl_nil]; omega
  all_goals (simp only [ofBits, List.foldl_cons, List.foldl_nil]; omega)

theorem b64encode_eq (b : Bytes) : b64encode b = base64 b := by
  fun_induction b64encode b with
  | case1 => rfl
  | case2 x =>
    unfold base64
    simp only [List.flatMap_cons, List.flatMap_nil, List.append_nil, sextets_single]
    rfl
  | case3 x y =>
    unfold base64
    simp only [List.flatMap_cons, List.flatMap_nil, List.append_nil, sextets_pair]
    rfl
  | case4 x y z rest ih =>
    rw [ih]
    unfold base64
    simp only [List.flatMap_cons, sextets_triple, List.length_cons, List.cons_append, List.cons.injEq, true_and]
    congr 2
    omega

theorem b64encode_plain (b : Bytes) : ∀ x ∈ b64encode b, Plain x := by
  fun_induction b64encode b with
  | case1 => simp
  | case2 x => simp only [List.mem_cons, List.not_mem_nil, or_false, forall_eq_or_imp, forall_eq, b64Char_plain, true_and]; decide
  | case3 x y => simp only [List.mem_cons, List.not_mem_nil, or_false, forall_eq_or_imp, forall_eq, b64Char_plain, true_and]; decide
  | case4 x y z rest ih =>
    simp only [List.mem_cons, forall_eq_or_imp, b64Char_plain, true_and]
    exact ih

theorem b64encode_length (b : Bytes) : (b64encode b).length % 4 = 0 := by
  fun_induction b64encode b with
  | case1 => rfl
  | case2 => simp
  | case3 => simp
  | case4 x y z rest ih => simp only [List.length_cons]; omega

theorem b64Char_ne (k : Nat) (h : k < 64) : (b64Char k).toNat ≠ 61 := by
  have : ∀ k < 64, (b64Char k).toNat ≠ 61 := by decide +kernel
  exact this k h

theorem b64Loop_char {pos left pads k : Nat} {cs : PyStr} (h : k < 64) :
    b64Loop pos left pads ((b64Char k).toNat :: cs) =
      if pos = 0 then b64Loop 1 k 0 cs
      else if pos = 1 then (b64Loop 2 (k % 16) 0 cs).map (UInt8.ofNat (left * 4 + k / 16) :: ·)
      else if pos = 2 then (b64Loop 3 (k % 4) 0 cs).map (UInt8.ofNat (left * 16 + k / 4) :: ·)
      else (b64Loop 0 0 0 cs).map (UInt8.ofNat (left * 64 + k) :: ·) := by
  have e := b64Char_ne k h
  cases pos <;> (rw [b64Loop]; rw [if_neg e, b64Val_char k h])

theorem b64Loop_encode (b : Bytes) : b64Loop 0 0 0 (toPy (b64encode b)) = .ok b := by
  fun_induction b64encode b with
  | case1 => rfl
  | case2 x =>
    have hx := x.toNat_lt
    simp only [toPy, List.map_cons, List.map_nil]
    rw [b64Loop_char (by omega), if_pos rfl, b64Loop_char (by omega), if_neg (by omega), if_pos rfl]
    have e1 : UInt8.ofNat (x.toNat / 4 * 4 + x.toNat % 4 * 16 / 16) = x := by
      apply UInt8.toNat_inj.mp; simp only [UInt8.toNat_ofNat']; omega
    rw [e1]
    simp [b64Loop, Except.map]
  | case3 x y =>
    have hx := x.toNat_lt
    have hy := y.toNat_lt
    simp only [toPy, List.map_cons, List.map_nil]
    rw [b64Loop_char (by omega), if_pos rfl, b64Loop_char (by omega), if_neg (by omega), if_pos rfl,
      b64Loop_char (by omega), if_neg (by omega), if_neg (by omega), if_pos rfl]
    have e1 : UInt8.ofNat (x.toNat / 4 * 4 + (x.toNat % 4 * 16 + y.toNat / 16) / 16) = x := by
      apply UInt8.toNat_inj.mp; simp only [UInt8.toNat_ofNat']; omega
    have e2 : UInt8.ofNat ((x.toNat % 4 * 16 + y.toNat / 16) % 16 * 16 + y.toNat % 16 * 4 / 4) = y := by
      apply UInt8.toNat_inj.mp; simp only [UInt8.toNat_ofNat']; omega
    rw [e1, e2]
    simp [b64Loop, Except.map]
  | case4 x y z rest ih =>
    have hx := x.toNat_lt
    have hy := y.toNat_lt
    have hz := z.toNat_lt
    unfold toPy at *
    simp only [List.map_cons]
    rw [b64Loop_char (by omega), if_pos rfl, b64Loop_char (by omega), if_neg (by omega), if_pos rfl,
      b64Loop_char (by omega), if_neg (by omega), if_neg (by omega), if_pos rfl,
      b64Loop_char (by omega), if_neg (by omega), if_neg (by omega), if_neg (by omega), ih]
    have e1 : UInt8.ofNat (x.toNat / 4 * 4 + (x.toNat % 4 * 16 + y.toNat / 16) / 16) = x := by
      apply UInt8.toNat_inj.mp; simp only [UInt8.toNat_ofNat']; omega
    have e2 : UInt8.ofNat ((x.toNat % 4 * 16 + y.toNat / 16) % 16 * 16 + (y.toNat % 16 * 4 + z.toNat / 64) / 4) = y := by
      apply UInt8.toNat_inj.mp; simp only [UInt8.toNat_ofNat']; omega
    have e3 : UInt8.ofNat ((y.toNat % 16 * 4 + z.toNat / 64) % 4 * 64 + z.toNat % 64) = z := by
      apply UInt8.toNat_inj.mp; simp only [UInt8.toNat_ofNat']; omega
    rw [e1, e2, e3]
    simp [Except.map]

theorem b64decode_encode (b : Bytes) : b64decode (toPy (b64encode b)) = .ok b := by
  unfold b64decode
  rw [if_pos, b64Loop_encode]
  simp only [List.all_eq_true, toPy, List.mem_map, forall_exists_index, and_imp, forall_apply_eq_imp_iff₂,
    decide_eq_true_eq]
  intro x hx
  exact (b64encode_plain b x hx).2.1

/-! ### UUIDs -/

theorem hexChar_get (k : Nat) (h : k < 16) : (ascii "0123456789abcdef").getD k 0 = UInt8.ofNat (hexChar k) := by
  have : ∀ k < 16, (ascii "0123456789abcdef").getD k 0 = UInt8.ofNat (hexChar k) := by decide +kernel
  exact this k h

theorem hexChar_lt (k : Nat) (h : k < 16) : hexChar k < 128 ∧ hexChar k ≠ 45 ∧ hexChar k ≠ 58 ∧ hexChar k ≠ 123 ∧
    hexChar k ≠ 125 ∧ hexChar k ≠ 43 ∧ isSpace (hexChar k) = false ∧ hexChar k ≠ 120 ∧ hexChar k ≠ 88 ∧
    hexVal (hexChar k) = some k ∧ Plain (UInt8.ofNat (hexChar k)) := by
  have : ∀ k < 16, hexChar k < 128 ∧ hexChar k ≠ 45 ∧ hexChar k ≠ 58 ∧ hexChar k ≠ 123 ∧
    hexChar k ≠ 125 ∧ hexChar k ≠ 43 ∧ isSpace (hexChar k) = false ∧ hexChar k ≠ 120 ∧ hexChar k ≠ 88 ∧
    hexVal (hexChar k) = some k ∧ Plain (UInt8.ofNat (hexChar k)) := by decide +kernel
  exact this k h

/-- A character of the hexadecimal notation. -/
def IsHex (c : Nat) : Prop := ∃ k < 16, c = hexChar k

theorem hexByte_isHex (x : UInt8) : ∀ c ∈ hexByte x, IsHex c := by
  have hx := x.toNat_lt
  intro c hc
  simp only [hexByte, List.mem_cons, List.not_mem_nil, or_false] at hc
  rcases hc with rfl | rfl
  · exact ⟨x.toNat / 16, by omega, rfl⟩
  · exact ⟨x.toNat % 16, by omega, rfl⟩

theorem flatMap_isHex (u : Bytes) : ∀ c ∈ u.flatMap hexByte, IsHex c := by
  intro c hc
  obtain ⟨x, -, h⟩ := List.mem_flatMap.mp hc
  exact hexByte_isHex x c h

theorem hex_eq (u : Bytes) : Spec.Json.hex u = (u.flatMap hexByte).map UInt8.ofNat := by
  unfold Spec.Json.hex
  rw [List.map_flatMap]
  congr 1
  funext x
  have hx := x.toNat_lt
  simp only [hexByte, List.map_cons, List.map_nil]
  rw [hexChar_get _ (by omega), hexChar_get _ (by omega)]

theorem uuidText_eq (u : Bytes) : Spec.Json.uuidText u = (Json.uuidText u).map UInt8.ofNat := by
  unfold Spec.Json.uuidText Json.uuidText
  simp only [hex_eq, List.map_append, List.map_cons, List.append_assoc, List.cons_append]
  rfl

/-- A character of the text of a UUID. -/
theorem uuidText_chars (u : Bytes) : ∀ c ∈ Json.uuidText u, c = 45 ∨ IsHex c := by
  intro c hc
  unfold Json.uuidText at hc
  simp only [List.mem_append, List.mem_cons] at hc
  rcases hc with (((hc | hc | hc) | hc | hc) | hc | hc) | hc | hc <;>
    first | exact .inl hc | exact .inr (flatMap_isHex _ c hc)

theorem uuidText_plain (u : Bytes) : ∀ x ∈ (Json.uuidText u).map UInt8.ofNat, Plain x := by
  intro x hx
  obtain ⟨c, hc, rfl⟩ := List.mem_map.mp hx
  rcases uuidText_chars u c hc with rfl | ⟨k, hk, rfl⟩
  · decide
  · exact (hexChar_lt k hk).2.2.2.2.2.2.2.2.2.2

theorem removeAll_id (pat text : PyStr) (x : Nat) (hx : x ∈ pat) (h : x ∉ text) : removeAll pat text = text := by
  induction text with
  | nil => rw [removeAll]
  | cons c cs ih =>
    rw [removeAll, if_neg, ih (fun hm => h (by simp [hm]))]
    rintro ⟨-, hp⟩
    rw [List.isPrefixOf_iff_prefix] at hp
    exact h (hp.subset hx)

theorem removeAll_dash (text : PyStr) : removeAll [45] text = text.filter (· ≠ 45) := by
  induction text with
  | nil => rw [removeAll]; rfl
  | cons c cs ih =>
    rw [removeAll]
    by_cases hc : c = 45
    · subst hc
      rw [if_pos ⟨by simp, rfl⟩]
      simp [ih]
    · rw [if_neg]
      · simp [ih, hc]
      · rintro ⟨-, hp⟩
        rw [List.isPrefixOf_iff_prefix] at hp
        have : (45 : Nat) = c := by
          obtain ⟨t, ht⟩ := hp
          simp at ht
          exact ht.1
        exact hc this.symm

theorem dropWhile_id {α : Type} (p : α → Bool) (l : List α) (h : ∀ x ∈ l, p x = false) : l.dropWhile p = l := by
  cases l with
  | nil => rfl
  | cons x l => rw [List.dropWhile_cons]; simp [h x (by simp)]

theorem stripBraces_id (text : PyStr) (h : ∀ c ∈ text, c ≠ 123 ∧ c ≠ 125) : stripBraces text = text := by
  unfold stripBraces
  simp only
  rw [dropWhile_id _ text, dropWhile_id, List.reverse_reverse]
  · intro c hc
    have := h c (List.mem_reverse.mp hc)
    simp [this.1, this.2]
  · intro c hc
    have := h c hc
    simp [this.1, this.2]

theorem hexDigits_bytes (u : Bytes) (acc : Nat) (digit : Bool) (h : u = [] → digit = true) :
    hexDigits acc digit (u.flatMap hexByte) = some (u.foldl (fun acc x => acc * 256 + x.toNat) acc) := by
  induction u generalizing acc digit with
  | nil =>
    simp [hexDigits, h rfl]
  | cons x u ih =>
    have hx := x.toNat_lt
    simp only [List.flatMap_cons, hexByte, List.cons_append, List.nil_append, List.foldl_cons]
    rw [hexDigits, (hexChar_lt (x.toNat / 16) (by omega)).2.2.2.2.2.2.2.2.2.1]
    simp only
    rw [hexDigits, (hexChar_lt (x.toNat % 16) (by omega)).2.2.2.2.2.2.2.2.2.1]
    simp only
    have e : (acc * 16 + x.toNat / 16) * 16 + x.toNat % 16 = acc * 256 + x.toNat := by omega
    rw [e]
    exact ih _ _ (fun _ => rfl)

theorem filter_isHex (l : PyStr) (h : ∀ c ∈ l, IsHex c) : l.filter (· ≠ 45) = l := by
  rw [List.filter_eq_self]
  intro c hc
  obtain ⟨k, hk, rfl⟩ := h c hc
  simp [(hexChar_lt k hk).2.1]

theorem flatMap_hexByte_length (u : Bytes) : (u.flatMap hexByte).length = 2 * u.length := by
  induction u with
  | nil => rfl
  | cons x u ih => simp only [List.flatMap_cons, List.length_append, ih, hexByte, List.length_cons, List.length_nil]; omega

theorem parseUuid_text (u : Bytes) (h : u.length = 16) : parseUuid (Json.uuidText u) = some u := by
  have hc := uuidText_chars u
  have hno : ∀ x : Nat, x = 58 ∨ x = 123 ∨ x = 125 → x ∉ Json.uuidText u := by
    intro x hx hm
    rcases hc x hm with rfl | ⟨k, hk, rfl⟩
    · simp at hx
    · have := hexChar_lt k hk
      rcases hx with e | e | e <;> simp [e] at this
  unfold parseUuid
  rw [removeAll_id _ _ 58 (by simp) (hno 58 (by simp)), removeAll_id _ _ 58 (by simp) (hno 58 (by simp)),
    stripBraces_id _ (fun c hm => ⟨fun e => hno 123 (by simp) (e ▸ hm), fun e => hno 125 (by simp) (e ▸ hm)⟩),
    removeAll_dash]
  have hf : (Json.uuidText u).filter (· ≠ 45) = u.flatMap hexByte := by
    unfold Json.uuidText
    simp only [List.filter_append, List.filter_cons, ne_eq, not_true_eq_false, decide_false, Bool.false_eq_true,
      if_false]
    have e := fun l : Bytes => filter_isHex (l.flatMap hexByte) (flatMap_isHex l)
    simp only [ne_eq] at e
    rw [e, e, e, e, e, ← List.flatMap_append, ← List.flatMap_append, ← List.flatMap_append, ← List.flatMap_append]
    congr 1
    rw [show (u.drop 8) = (u.drop 6).drop 2 by rw [List.drop_drop], show (u.drop 10) = ((u.drop 6).drop 2).drop 2 by
      rw [List.drop_drop, List.drop_drop]]
    rw [show (u.drop 6) = (u.drop 4).drop 2 by rw [List.drop_drop]]
    simp only [List.append_assoc, List.take_append_drop]
  rw [hf]
  simp only
  rw [if_neg (by rw [flatMap_hexByte_length, h]; decide)]
  have hp : pyInt16 (u.flatMap hexByte) = some (beNat u : Int) := by
    match u, h with
    | x :: u', h =>
      have hx := x.toNat_lt
      unfold pyInt16
      rw [dropWhile_id _ _ (fun c hm => by
        obtain ⟨k, hk, rfl⟩ := flatMap_isHex _ c hm
        exact (hexChar_lt k hk).2.2.2.2.2.2.1)]
      have ha := hexChar_lt (x.toNat / 16) (by omega)
      have hb := hexChar_lt (x.toNat % 16) (by omega)
      have hpre : hexPrefix ((x :: u').flatMap hexByte) = (x :: u').flatMap hexByte := by
        simp only [List.flatMap_cons, hexByte, List.cons_append, List.nil_append]
        generalize e1 : hexChar (x.toNat / 16) = a at *
        generalize e2 : hexChar (x.toNat % 16) = b at *
        unfold hexPrefix
        split
        · rename_i heq
          injection heq with h1 h2
          injection h2 with h2 h3
          subst h2
          rw [if_neg (by rintro (e | e) <;> simp [e] at hb)]
          rw [h1, h3]
        · rfl
      split
      · rename_i heq
        simp only [List.flatMap_cons, hexByte, List.cons_append, List.cons.injEq] at heq
        exact absurd heq.1 ha.2.1
      · rename_i heq
        simp only [List.flatMap_cons, hexByte, List.cons_append, List.cons.injEq] at heq
        exact absurd heq.1 ha.2.2.2.2.2.1
      · rw [hpre]
        rw [show hexDigits 0 false ((x :: u').flatMap hexByte) = _ from hexDigits_bytes (x :: u') 0 false (by simp)]
        rfl
  rw [hp]
  simp only [uuidBytes]
  have := beBytes_beNat u
  rw [h] at this
  exact congrArg some this

end Thrift.Json
