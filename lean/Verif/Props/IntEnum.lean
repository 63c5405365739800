import Verif.Spec.IntEnum
/-
C82: the option `enum`.
-/

namespace Thrift.IntEnum
open Spec.IntEnum

theorem map_ok {α β : Type} {f : α → β} {a : α} : (Except.ok a : Except Exc α).map f = .ok (f a) := rfl

theorem store_wt {S : Schema} {immutable : Bool} {t : Ty} {v : V} (h : v = .none ∨ WT S t v) : store S immutable t v = .ok v := by
  rcases h with rfl | h
  · cases t <;> rfl
  · cases t <;> cases v <;> first | rfl | exact h.elim

mutual
theorem write_ok {fast : Bool} {S : Schema} : ∀ (v : V) (t : Ty), WT S t v → ∃ w, write fast S t v = .ok w ∧ (fast = false → read false S t w = .ok v) ∧
    write true S t v = .ok w
  | .none, t, h => by cases t <;> exact h.elim
  | .int _, t, h => by cases t <;> exact h.elim
  | .base b, t, h => by
    cases t <;> first | exact ⟨_, rfl, fun _ => rfl, rfl⟩ | exact h.elim
  | .member e i, t, h => by
    cases t <;> first | exact h.elim | skip
    all_goals
      obtain ⟨rfl, hi⟩ := h
      exact ⟨_, rfl, fun _ => by simp only [read, readEnum, call]; rw [if_neg (by decide), if_pos hi], rfl⟩
  | .list xs, t, h => by
    cases t <;> first | exact h.elim | skip
    obtain ⟨ws, h1, h2, h3⟩ := writeAll_ok (fast := fast) xs _ h
    refine ⟨.list ws, by simp only [write, h1, map_ok], fun hf => by simp only [read, h2 hf, map_ok], by simp only [write, h3, map_ok]⟩
  | .map ps, t, h => by
    cases t <;> first | exact h.elim | skip
    obtain ⟨ws, h1, h2, h3⟩ := writePairs_ok (fast := fast) ps _ _ h
    refine ⟨.map ws, by simp only [write, h1, map_ok], fun hf => by simp only [read, h2 hf, map_ok], by simp only [write, h3, map_ok]⟩
  | .struct s fs, t, h => by
    cases t <;> first | exact h.elim | skip
    obtain ⟨rfl, h⟩ := h
    obtain ⟨ws, h1, h2, h3⟩ := writeFields_ok (fast := fast) (S.structs s).immutable fs _ h
    refine ⟨.struct ws, by simp only [write, h1, map_ok], fun hf => by simp only [read, h2 hf, map_ok], by simp only [write, h3, map_ok]⟩

theorem writeAll_ok {fast : Bool} {S : Schema} : ∀ (xs : List V) (t : Ty), WTs S t xs →
    ∃ ws, writeAll fast S t xs = .ok ws ∧ (fast = false → readAll false S t ws = .ok xs) ∧ writeAll true S t xs = .ok ws
  | [], _, _ => ⟨[], rfl, fun _ => rfl, rfl⟩
  | x :: xs, t, h => by
    obtain ⟨w, a1, a2, a3⟩ := write_ok (fast := fast) x t h.1
    obtain ⟨ws, b1, b2, b3⟩ := writeAll_ok (fast := fast) xs t h.2
    refine ⟨w :: ws, ?_, fun hf => ?_, ?_⟩
    · simp only [writeAll, a1, b1]; rfl
    · simp only [readAll, a2 hf, b2 hf]; rfl
    · simp only [writeAll, a3, b3]; rfl

theorem writePairs_ok {fast : Bool} {S : Schema} : ∀ (ps : List (V × V)) (k v : Ty), WTp S k v ps →
    ∃ ws, writePairs fast S k v ps = .ok ws ∧ (fast = false → readPairs false S k v ws = .ok ps) ∧ writePairs true S k v ps = .ok ws
  | [], _, _, _ => ⟨[], rfl, fun _ => rfl, rfl⟩
  | (x, y) :: ps, k, v, h => by
    obtain ⟨w, a1, a2, a3⟩ := write_ok (fast := fast) x k h.1
    obtain ⟨u, c1, c2, c3⟩ := write_ok (fast := fast) y v h.2.1
    obtain ⟨ws, b1, b2, b3⟩ := writePairs_ok (fast := fast) ps k v h.2.2
    refine ⟨(w, u) :: ws, ?_, fun hf => ?_, ?_⟩
    · simp only [writePairs, a1, b1, c1]; rfl
    · simp only [readPairs, a2 hf, b2 hf, c2 hf]; rfl
    · simp only [writePairs, a3, b3, c3]; rfl

theorem writeFields_ok {fast : Bool} {S : Schema} (im : Bool) : ∀ (vs : List V) (ts : List Ty), WTf S ts vs →
    ∃ ws, writeFields fast S ts vs = .ok ws ∧ (fast = false → readFields false S im ts ws = .ok vs) ∧ writeFields true S ts vs = .ok ws
  | [], [], _ => ⟨[], rfl, fun _ => rfl, rfl⟩
  | [], _ :: _, h => h.elim
  | _ :: _, [], h => h.elim
  | v :: vs, t :: ts, h => by
    obtain ⟨ws, b1, b2, b3⟩ := writeFields_ok (fast := fast) im vs ts h.2
    have hst := store_wt (immutable := im) h.1
    by_cases hv : v = .none
    · subst hv
      refine ⟨none :: ws, ?_, fun hf => ?_, ?_⟩
      · simp only [writeFields, b1]; rfl
      · simp only [readFields, b2 hf]
        show (do let v ← store S im t .none; Except.ok (v :: vs)) = _
        rw [hst]; rfl
      · simp only [writeFields, b3]; rfl
    · have hw : WT S t v := by
        exact h.1.resolve_left hv
      obtain ⟨w, a1, a2, a3⟩ := write_ok (fast := fast) v t hw
      refine ⟨some w :: ws, ?_, fun hf => ?_, ?_⟩
      · cases v <;> first | exact (hv rfl).elim | (simp only [writeFields, a1, b1]; rfl)
      · simp only [readFields, a2 hf, b2 hf]
        show (do let v ← store S im t v; Except.ok (v :: vs)) = _
        rw [hst]; rfl
      · cases v <;> first | exact (hv rfl).elim | (simp only [writeFields, a3, b3]; rfl)
end

/-- **C82, values**: with the option `enum` the Python protocols write every value of its type, wherever in it there are enums, and read the same value. -/
theorem python_roundtrip {S : Schema} {t : Ty} {v : V} (h : WT S t v) : ∃ w, write false S t v = .ok w ∧ read false S t w = .ok v := by
  obtain ⟨w, h1, h2, _⟩ := write_ok (fast := false) v t h
  exact ⟨w, h1, h2 rfl⟩

/-- **C82**: the accelerated protocols write the same. -/
theorem fast_writes_same {S : Schema} {t : Ty} {v : V} (h : WT S t v) : write true S t v = write false S t v := by
  obtain ⟨w, h1, _, h3⟩ := write_ok (fast := false) v t h
  rw [h1, h3]

theorem map_eq_ok {α β : Type} {f : α → β} (hf : Function.Injective f) (x : Except Exc α) (a : α) : x.map f = .ok (f a) ↔ x = .ok a := by
  cases x with
  | error e => exact ⟨(fun h => nomatch h), (fun h => nomatch h)⟩
  | ok b =>
    constructor
    · intro h
      have := Except.ok.inj h
      rw [hf this]
    · intro h
      rw [h]
      rfl

theorem cons_eq_ok {α : Type} (x : Except Exc α) (y : Except Exc (List α)) (a : α) (as : List α) :
    (do let a ← x; let as ← y; Except.ok (a :: as)) = .ok (a :: as) ↔ x = .ok a ∧ y = .ok as := by
  cases x with
  | error e => exact ⟨(fun h => nomatch h), (fun h => nomatch h.1)⟩
  | ok b =>
    cases y with
    | error e => exact ⟨(fun h => nomatch h), (fun h => nomatch h.2)⟩
    | ok bs =>
      constructor
      · intro h
        have := List.cons.inj (Except.ok.inj h)
        exact ⟨by rw [this.1], by rw [this.2]⟩
      · rintro ⟨h1, h2⟩
        cases h1; cases h2; rfl

theorem store_other {S : Schema} {im : Bool} {t : Ty} (ht : ∀ e, t ≠ .enum e) (v : V) : store S im t v = .ok v := by
  cases t <;> first | rfl | exact (ht _ rfl).elim

mutual
theorem fast_iff {S : Schema} : ∀ (v : V) (t : Ty), WT S t v → ∃ w, write true S t v = .ok w ∧ (read true S t w = .ok v ↔ Plain S t v)
  | .none, t, h => by cases t <;> exact h.elim
  | .int _, t, h => by cases t <;> exact h.elim
  | .base b, t, h => by
    cases t <;> first | exact ⟨_, rfl, fun _ => trivial, fun _ => rfl⟩ | exact h.elim
  | .member e i, t, h => by
    cases t <;> first | exact h.elim | skip
    all_goals exact ⟨_, rfl, (fun h => nomatch Except.ok.inj h), fun h => h.elim⟩
  | .list xs, t, h => by
    cases t <;> first | exact h.elim | skip
    obtain ⟨ws, h1, h2⟩ := fastAll_iff xs _ h
    refine ⟨.list ws, by simp only [write, h1, map_ok], ?_⟩
    simp only [read]
    rw [map_eq_ok (fun _ _ h => V.list.inj h), h2]
    exact Iff.rfl
  | .map ps, t, h => by
    cases t <;> first | exact h.elim | skip
    obtain ⟨ws, h1, h2⟩ := fastPairs_iff ps _ _ h
    refine ⟨.map ws, by simp only [write, h1, map_ok], ?_⟩
    simp only [read]
    rw [map_eq_ok (fun _ _ h => V.map.inj h), h2]
    exact Iff.rfl
  | .struct s fs, t, h => by
    cases t <;> first | exact h.elim | skip
    obtain ⟨rfl, h⟩ := h
    obtain ⟨ws, h1, h2⟩ := fastFields_iff (S.structs s).immutable fs _ h
    refine ⟨.struct ws, by simp only [write, h1, map_ok], ?_⟩
    simp only [read]
    rw [map_eq_ok (fun _ _ h => (V.struct.inj h).2), h2]
    exact Iff.rfl

theorem fastAll_iff {S : Schema} : ∀ (xs : List V) (t : Ty), WTs S t xs →
    ∃ ws, writeAll true S t xs = .ok ws ∧ (readAll true S t ws = .ok xs ↔ PlainAll S t xs)
  | [], _, _ => ⟨[], rfl, fun _ => trivial, fun _ => rfl⟩
  | x :: xs, t, h => by
    obtain ⟨w, a1, a2⟩ := fast_iff x t h.1
    obtain ⟨ws, b1, b2⟩ := fastAll_iff xs t h.2
    refine ⟨w :: ws, by simp only [writeAll, a1, b1]; rfl, ?_⟩
    simp only [readAll]
    rw [cons_eq_ok, a2, b2]
    exact Iff.rfl

theorem fastPairs_iff {S : Schema} : ∀ (ps : List (V × V)) (k v : Ty), WTp S k v ps →
    ∃ ws, writePairs true S k v ps = .ok ws ∧ (readPairs true S k v ws = .ok ps ↔ PlainPairs S k v ps)
  | [], _, _, _ => ⟨[], rfl, fun _ => trivial, fun _ => rfl⟩
  | (x, y) :: ps, k, v, h => by
    obtain ⟨w, a1, a2⟩ := fast_iff x k h.1
    obtain ⟨u, c1, c2⟩ := fast_iff y v h.2.1
    obtain ⟨ws, b1, b2⟩ := fastPairs_iff ps k v h.2.2
    refine ⟨(w, u) :: ws, by simp only [writePairs, a1, b1, c1]; rfl, ?_⟩
    simp only [readPairs]
    have := cons_eq_ok (do let x ← read true S k w; let y ← read true S v u; Except.ok (x, y)) (readPairs true S k v ws) (x, y) ps
    have h2 : (do let x ← read true S k w; let y ← read true S v u; Except.ok (x, y)) = .ok (x, y) ↔
        read true S k w = .ok x ∧ read true S v u = .ok y := by
      cases read true S k w with
      | error e => exact ⟨(fun h => nomatch h), (fun h => nomatch h.1)⟩
      | ok b =>
        cases read true S v u with
        | error e => exact ⟨(fun h => nomatch h), (fun h => nomatch h.2)⟩
        | ok c =>
          constructor
          · intro h
            have := Prod.mk.inj (Except.ok.inj h)
            exact ⟨by rw [this.1], by rw [this.2]⟩
          · rintro ⟨h1, h2⟩
            cases h1; cases h2; rfl
    rw [h2, a2, c2, b2] at this
    simp only [PlainPairs]
    rw [← and_assoc, ← this]
    cases read true S k w with
    | error e => exact Iff.rfl
    | ok b => cases read true S v u <;> exact Iff.rfl

theorem fastFields_iff {S : Schema} (im : Bool) : ∀ (vs : List V) (ts : List Ty), WTf S ts vs →
    ∃ ws, writeFields true S ts vs = .ok ws ∧ (readFields true S im ts ws = .ok vs ↔ PlainFields S im ts vs)
  | [], [], _ => ⟨[], rfl, fun _ => trivial, fun _ => rfl⟩
  | [], _ :: _, h => h.elim
  | _ :: _, [], h => h.elim
  | v :: vs, t :: ts, h => by
    obtain ⟨ws, b1, b2⟩ := fastFields_iff im vs ts h.2
    by_cases hv : v = .none
    · subst hv
      refine ⟨none :: ws, by simp only [writeFields, b1]; rfl, ?_⟩
      have hs : store S im t .none = .ok .none := by cases t <;> rfl
      have := cons_eq_ok (store S im t .none) (readFields true S im ts ws) .none vs
      rw [b2] at this
      simp only [readFields, PlainFields]
      refine Iff.trans this ?_
      rw [hs]
      exact ⟨fun h => ⟨by simp, h.2⟩, fun h => ⟨rfl, h.2⟩⟩
    · have hw := h.1.resolve_left hv
      obtain ⟨w, a1, a2⟩ := fast_iff v t hw
      refine ⟨some w :: ws, by cases v <;> first | exact (hv rfl).elim | (simp only [writeFields, a1, b1]; rfl), ?_⟩
      have := cons_eq_ok (read true S t w >>= store S im t) (readFields true S im ts ws) v vs
      rw [b2] at this
      have hp : (read true S t w >>= store S im t) = .ok v ↔ (v = .none ∨ ((∃ e, t = .enum e) ∧ im = false) ∨ Plain S t v) := by
        by_cases ht : ∃ e, t = .enum e
        · obtain ⟨e, rfl⟩ := ht
          cases v <;> first | exact hw.elim | skip
          obtain ⟨rfl, hi⟩ := hw
          cases a1
          cases im with
          | true => exact ⟨(fun h => nomatch Except.ok.inj h), fun h => h.elim (fun h => nomatch h) fun h => h.elim (fun h => nomatch h.2) fun h => h.elim⟩
          | false =>
            refine ⟨fun _ => .inr (.inl ⟨⟨_, rfl⟩, rfl⟩), fun _ => ?_⟩
            show call S _ _ = _
            unfold call
            rw [if_pos hi]
        · have hst : ∀ v, store S im t v = .ok v := store_other fun e he => ht ⟨e, he⟩
          have hr : (read true S t w >>= store S im t) = read true S t w := by
            cases read true S t w with
            | error e => rfl
            | ok b => exact hst b
          rw [hr, a2]
          exact ⟨fun h => .inr (.inr h), fun h => (h.resolve_left hv).resolve_left fun h => ht h.1⟩
      simp only [readFields, PlainFields]
      rw [← hp]
      refine Iff.trans ?_ this
      cases read true S t w <;> exact Iff.rfl
end

/-- **C82, the accelerated protocols**: they give back a value exactly if there are enums only in members of mutable structs, and not by typedefs. (This is the
claim for them restricted to such values, with the proof that it fails for all others.) -/
theorem fast_roundtrip_partial {S : Schema} {t : Ty} {v : V} (h : WT S t v) :
    ∃ w, write true S t v = .ok w ∧ (read true S t w = .ok v ↔ Plain S t v) := fast_iff v t h

/-! ### Numbers that are not in the enum -/

theorem bind_error {α β : Type} (e : Exc) (f : α → Except Exc β) : ((Except.error e : Except Exc α) >>= f) = .error e := rfl

mutual
theorem read_cases {S : Schema} : ∀ (w : Wire) (t : Ty), Numbers S (fun _ _ => True) t w →
    (Numbers S (fun e i => i ∈ S.enums e) t w ∧ ∃ v, read false S t w = .ok v ∧ WT S t v) ∨
    (¬ Numbers S (fun e i => i ∈ S.enums e) t w ∧ read false S t w = .error .valueError)
  | .base b, t, h => by
    cases t <;> first | exact h.elim | exact .inl ⟨trivial, _, rfl, trivial⟩
  | .int i, t, h => by
    cases t <;> first | exact h.elim | skip
    all_goals
      next e =>
      by_cases hi : i ∈ S.enums e
      · exact .inl ⟨hi, .member e i, by simp only [read, readEnum, call]; rw [if_neg (by decide), if_pos hi], rfl, hi⟩
      · exact .inr ⟨hi, by simp only [read, readEnum, call]; rw [if_neg (by decide), if_neg hi]⟩
  | .list ws, t, h => by
    cases t <;> first | exact h.elim | skip
    rcases readAll_cases ws _ h with ⟨hk, vs, hv, hw⟩ | ⟨hk, he⟩
    · exact .inl ⟨hk, .list vs, by simp only [read, hv, map_ok], hw⟩
    · exact .inr ⟨hk, by simp only [read, he]; rfl⟩
  | .map ws, t, h => by
    cases t <;> first | exact h.elim | skip
    rcases readPairs_cases ws _ _ h with ⟨hk, vs, hv, hw⟩ | ⟨hk, he⟩
    · exact .inl ⟨hk, .map vs, by simp only [read, hv, map_ok], hw⟩
    · exact .inr ⟨hk, by simp only [read, he]; rfl⟩
  | .struct ws, t, h => by
    cases t <;> first | exact h.elim | skip
    next s =>
    rcases readFields_cases (S.structs s).immutable ws _ h with ⟨hk, vs, hv, hw⟩ | ⟨hk, he⟩
    · exact .inl ⟨hk, .struct s vs, by simp only [read, hv, map_ok], rfl, hw⟩
    · exact .inr ⟨hk, by simp only [read, he]; rfl⟩

theorem readAll_cases {S : Schema} : ∀ (ws : List Wire) (t : Ty), NumbersAll S (fun _ _ => True) t ws →
    (NumbersAll S (fun e i => i ∈ S.enums e) t ws ∧ ∃ vs, readAll false S t ws = .ok vs ∧ WTs S t vs) ∨
    (¬ NumbersAll S (fun e i => i ∈ S.enums e) t ws ∧ readAll false S t ws = .error .valueError)
  | [], _, _ => .inl ⟨trivial, [], rfl, trivial⟩
  | w :: ws, t, h => by
    rcases read_cases w t h.1 with ⟨hk, v, hv, hw⟩ | ⟨hk, he⟩
    · rcases readAll_cases ws t h.2 with ⟨hk', vs, hvs, hws⟩ | ⟨hk', he⟩
      · exact .inl ⟨⟨hk, hk'⟩, v :: vs, by simp only [readAll, hv, hvs]; rfl, hw, hws⟩
      · exact .inr ⟨fun h => hk' h.2, by simp only [readAll, hv, he]; rfl⟩
    · exact .inr ⟨fun h => hk h.1, by simp only [readAll, he]; rfl⟩

theorem readPairs_cases {S : Schema} : ∀ (ws : List (Wire × Wire)) (k v : Ty), NumbersPairs S (fun _ _ => True) k v ws →
    (NumbersPairs S (fun e i => i ∈ S.enums e) k v ws ∧ ∃ vs, readPairs false S k v ws = .ok vs ∧ WTp S k v vs) ∨
    (¬ NumbersPairs S (fun e i => i ∈ S.enums e) k v ws ∧ readPairs false S k v ws = .error .valueError)
  | [], _, _, _ => .inl ⟨trivial, [], rfl, trivial⟩
  | (x, y) :: ws, k, v, h => by
    rcases read_cases x k h.1 with ⟨hk, a, ha, hw⟩ | ⟨hk, he⟩
    · rcases read_cases y v h.2.1 with ⟨hl, b, hb, hx⟩ | ⟨hl, he⟩
      · rcases readPairs_cases ws k v h.2.2 with ⟨hk', vs, hvs, hws⟩ | ⟨hk', he⟩
        · exact .inl ⟨⟨hk, hl, hk'⟩, (a, b) :: vs, by simp only [readPairs, ha, hb, hvs]; rfl, hw, hx, hws⟩
        · exact .inr ⟨fun h => hk' h.2.2, by simp only [readPairs, ha, hb, he]; rfl⟩
      · exact .inr ⟨fun h => hl h.2.1, by simp only [readPairs, ha, he]; rfl⟩
    · exact .inr ⟨fun h => hk h.1, by simp only [readPairs, he]; rfl⟩

theorem readFields_cases {S : Schema} (im : Bool) : ∀ (ws : List (Option Wire)) (ts : List Ty), NumbersFields S (fun _ _ => True) ts ws →
    (NumbersFields S (fun e i => i ∈ S.enums e) ts ws ∧ ∃ vs, readFields false S im ts ws = .ok vs ∧ WTf S ts vs) ∨
    (¬ NumbersFields S (fun e i => i ∈ S.enums e) ts ws ∧ readFields false S im ts ws = .error .valueError)
  | [], [], _ => .inl ⟨trivial, [], rfl, trivial⟩
  | [], _ :: _, h => h.elim
  | none :: _, [], h => h.elim
  | some _ :: _, [], h => h.elim
  | none :: ws, t :: ts, h => by
    have hs : store S im t .none = .ok .none := by cases t <;> rfl
    rcases readFields_cases im ws ts h with ⟨hk', vs, hvs, hws⟩ | ⟨hk', he⟩
    · refine .inl ⟨hk', .none :: vs, ?_, .inl rfl, hws⟩
      simp only [readFields, hvs]
      show (do let v ← store S im t .none; Except.ok (v :: vs)) = _
      rw [hs]; rfl
    · refine .inr ⟨hk', ?_⟩
      simp only [readFields, he]
      show (do let v ← store S im t .none; Except.error _) = _
      rw [hs]; rfl
  | some w :: ws, t :: ts, h => by
    rcases read_cases w t h.1 with ⟨hk, v, hv, hw⟩ | ⟨hk, he⟩
    · have hs : store S im t v = .ok v := store_wt (.inr hw)
      rcases readFields_cases im ws ts h.2 with ⟨hk', vs, hvs, hws⟩ | ⟨hk', he⟩
      · refine .inl ⟨⟨hk, hk'⟩, v :: vs, ?_, .inr hw, hws⟩
        simp only [readFields, hv, hvs]
        show (do let v ← store S im t v; Except.ok (v :: vs)) = _
        rw [hs]; rfl
      · refine .inr ⟨fun h => hk' h.2, ?_⟩
        simp only [readFields, hv, he]
        show (do let v ← store S im t v; Except.error _) = _
        rw [hs]; rfl
    · exact .inr ⟨fun h => hk h.1, by simp only [readFields, he]; rfl⟩
end

/-- **C82, negation**: a reader that knows fewer values of an enum than the writer cannot read what has been written: one number that is not in its enum,
anywhere, and the whole is refused with a `ValueError`; if all are known, the value is read. -/
theorem unknown_value {S : Schema} {t : Ty} {w : Wire} (h : Numbers S (fun _ _ => True) t w) :
    (Numbers S (fun e i => i ∈ S.enums e) t w → ∃ v, read false S t w = .ok v ∧ WT S t v) ∧
    (¬ Numbers S (fun e i => i ∈ S.enums e) t w → read false S t w = .error .valueError) := by
  rcases read_cases w t h with ⟨hk, hv⟩ | ⟨hk, he⟩
  · exact ⟨fun _ => hv, fun hn => (hn hk).elim⟩
  · exact ⟨fun hn => (hk hn).elim, fun _ => he⟩

/-! ### Where values get lost -/

def readOpt (S : Schema) (t : Ty) : Option Wire → Except Exc V
  | none => .ok .none
  | some w => read true S t w

theorem readFields_immutable {S : Schema} : ∀ (ts : List Ty) (ws : List (Option Wire)) (vs : List V), readFields true S true ts ws = .ok vs →
    ∀ (k : Nat) (e : Name) (v : V), ts[k]? = some (.enum e) → vs[k]? = some v → v = .none
  | [], _, vs, h, k, e, v, ht, _ => by simp at ht
  | _ :: _, [], vs, h, k, e, v, _, hv => by
    simp only [readFields, Except.ok.injEq] at h
    subst h
    simp at hv
  | t :: ts, w :: ws, vs, h, k, e, v, ht, hv => by
    have h' : (readOpt S t w >>= fun v => store S true t v >>= fun v =>
        readFields true S true ts ws >>= fun vs => Except.ok (v :: vs)) = .ok vs := by
      cases w <;> exact h
    clear h
    have h := h'
    cases hx : readOpt S t w with
    | error x => rw [hx] at h; exact nomatch h
    | ok a =>
      rw [hx] at h
      cases hs : store S true t a with
      | error x =>
        have : (Except.error x : Except Exc (List V)) = .ok vs := by
          rw [← h]
          show _ = (store S true t a >>= _)
          rw [hs]
          rfl
        exact nomatch this
      | ok b =>
        cases hr : readFields true S true ts ws with
        | error x =>
          have : (Except.error x : Except Exc (List V)) = .ok vs := by
            rw [← h]
            show _ = (store S true t a >>= _)
            rw [hs, hr]
            rfl
          exact nomatch this
        | ok bs =>
          have : (Except.ok (b :: bs) : Except Exc (List V)) = .ok vs := by
            rw [← h]
            show _ = (store S true t a >>= _)
            rw [hs, hr]
            rfl
          cases this
          cases k with
          | succ k => exact readFields_immutable ts ws bs hr k e v (by simpa using ht) (by simpa using hv)
          | zero =>
            simp only [List.getElem?_cons_zero, Option.some.injEq] at ht hv
            subst ht hv
            cases w with
            | none => cases hx; cases hs; rfl
            | some w =>
              cases w <;> first | (cases hx; cases hs; rfl) | exact nomatch hx

/-- **C82, negation**: an accelerated protocol reads an immutable struct with `None` in the place of every enum, whatever has been sent. -/
theorem fast_immutable {S : Schema} {s : Name} (him : (S.structs s).immutable = true) {w : Wire} {vs : List V}
    (h : read true S (.struct s) w = .ok (.struct s vs)) (k : Nat) (e : Name) (v : V) (ht : (S.structs s).fields[k]? = some (.enum e))
    (hv : vs[k]? = some v) : v = .none := by
  obtain ⟨ws, rfl⟩ : ∃ ws, w = .struct ws := by
    cases w <;> first | exact ⟨_, rfl⟩ | (simp only [read] at h; exact nomatch h)
  simp only [read, him] at h
  rw [map_eq_ok (fun _ _ h => (V.struct.inj h).2)] at h
  exact readFields_immutable _ ws vs h k e v ht hv

/-- **C82, negation**: an accelerated protocol reads the enums in a list as numbers, and what it has read the Python protocols refuse to write. -/
theorem fast_list {S : Schema} {e : Name} {x : V} {xs : List V} (h : WT S (.list (.enum e)) (.list (x :: xs))) :
    ∃ w ys, write true S (.list (.enum e)) (.list (x :: xs)) = .ok w ∧ read true S (.list (.enum e)) w = .ok (.list ys) ∧
      ys.length = (x :: xs).length ∧ write false S (.list (.enum e)) (.list ys) = .error .attributeError := by
  have key : ∀ xs, WTs S (.enum e) xs → ∃ ws ys, writeAll true S (.enum e) xs = .ok ws ∧ readAll true S (.enum e) ws = .ok ys ∧ ys.length = xs.length := by
    intro xs
    induction xs with
    | nil => exact fun _ => ⟨[], [], rfl, rfl, rfl⟩
    | cons x xs ih =>
      intro h
      obtain ⟨ws, ys, h1, h2, h3⟩ := ih h.2
      have hx := h.1
      cases x <;> first | exact hx.elim | skip
      next e' i =>
      refine ⟨.int i :: ws, .int i :: ys, ?_, ?_, congrArg (· + 1) h3⟩
      · simp only [writeAll, write, writeEnum, h1]; rfl
      · simp only [readAll, read, readEnum, h2]; rfl
  obtain ⟨ws, ys, h1, h2, h3⟩ := key xs h.2
  have hx := h.1
  cases x <;> first | exact hx.elim | skip
  next e' i =>
  refine ⟨.list (.int i :: ws), .int i :: ys, ?_, ?_, congrArg (· + 1) h3, ?_⟩
  · simp only [write, writeAll, writeEnum, h1]; rfl
  · simp only [read, readAll, readEnum, h2]; rfl
  · simp only [write, writeAll, writeEnum]; rfl

/-- **C82, numbers in the place of members**: a mutable class turns a number into the member with that value, and refuses a number that has none. -/
theorem number_mutable {S : Schema} {s e : Name} (hm : (S.structs s).immutable = false) (hf : (S.structs s).fields = [.enum e]) (i : Int) :
    construct S s [.int i] = if i ∈ S.enums e then .ok (.struct s [.member e i]) else .error .valueError := by
  unfold construct
  rw [hf]
  simp only [construct.go, hm, store, call]
  split
  · next h => exact absurd h (by decide)
  · split <;> rfl

/-- **C82, negation**: an immutable class turns every number into `None`: the value is lost, also if the enum has it. -/
theorem number_immutable {S : Schema} {s e : Name} (hm : (S.structs s).immutable = true) (hf : (S.structs s).fields = [.enum e]) (i : Int) :
    construct S s [.int i] = .ok (.struct s [.none]) := by
  unfold construct
  rw [hf]
  simp only [construct.go, hm, store]
  rfl

/-- **C82, negation**: with a typedef of the enum, or if the enum is declared after the struct, the number stays a number, and then the instance cannot be
written. -/
theorem number_typedef {S : Schema} {s e : Name} (hf : (S.structs s).fields = [.alias e]) (i : Int) :
    construct S s [.int i] = .ok (.struct s [.int i]) ∧ write false S (.struct s) (.struct s [.int i]) = .error .attributeError := by
  constructor
  · unfold construct
    rw [hf]
    rfl
  · simp only [write, hf, writeFields, writeEnum]
    rfl

/-! ### Examples: an enum 0 with the values 1 and 2; a mutable struct 0 and an immutable struct 1 with a member of this type and a list of it -/

def sample : Schema := ⟨fun _ => [1, 2], fun s => ⟨s = 1, [.enum 0, .list (.enum 0)]⟩⟩

example : WT sample (.struct 0) (.struct 0 [.member 0 1, .list [.member 0 2]]) := ⟨rfl, .inr ⟨rfl, by decide⟩, .inr ⟨⟨rfl, by decide⟩, trivial⟩, trivial⟩

example : WT sample (.struct 0) (.struct 0 [.member 0 1, .none]) ∧ Plain sample (.struct 0) (.struct 0 [.member 0 1, .none]) :=
  ⟨⟨rfl, .inr ⟨rfl, by decide⟩, .inl rfl, trivial⟩, .inr (.inl ⟨⟨_, rfl⟩, rfl⟩), .inl rfl, trivial⟩

-- a value that has been added to the enum
example : read false sample (.struct 0) (.struct [some (.int 3), none]) = .error .valueError :=
  (unknown_value (S := sample) (t := .struct 0) (w := .struct [some (.int 3), none]) ⟨trivial, trivial⟩).2 fun h => absurd h.1 (by show ¬ (3 : Int) ∈ [1, 2]; decide)

example : read true sample (.struct 1) (.struct [some (.int 2), none]) = .ok (.struct 1 [.none, .none]) := rfl

end Thrift.IntEnum
