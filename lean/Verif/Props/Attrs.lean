import Verif.Proofs.Attrs
/-
C73: the values of the members of an instance, whatever their names. C74: equality, hashes and immutability of instances.
-/

namespace Thrift.Attrs
open Rpc Names Locals Spec.Attrs

variable {V : Type}

/-! ### C73 -/

/-- An instance can be built from the values of its members, and they are found under the names of the parameters.
Missing: members named as Python keywords, in immutable classes and in classes with slots; names that begin with two underscores; and with slots
the names of methods. See the theorems below. -/
theorem construct_partial {c : Cls} (hp : Plain c) (hs : c.slots = true → NoMethod c)
    (hk : c.immutable = true ∨ c.slots = true ∧ c.exc = false → NoKeyword c) (vals : PyStr → Option V) :
    ∃ o, construct c (kwargs c vals) = .ok o ∧ o.cls = c ∧ Has o vals :=
  ⟨_, construct_kwargs hp hs (fun h1 h2 _ => hk (.inr ⟨h1, h2⟩)) vals, rfl, built_has hp (fun h => hk (.inl h)) vals⟩

/-- A new instance writes the members that are set, in generated Python code; with the C extension too, if there are no keywords. -/
theorem construct_write_partial {c : Cls} (hp : Plain c) (hm : NoMethod c)
    (hk : c.immutable = true ∨ c.slots = true ∧ c.exc = false → NoKeyword c) (vals : PyStr → Option V) :
    ∃ o, construct c (kwargs c vals) = .ok o ∧ write o = .ok (fields c vals) ∧ (NoKeyword c → fastWrite o = .ok (fields c vals)) := by
  have hw : (built c vals).attrs.lookup (pyStr "write") = none :=
    built_none vals (by rw [built_method hp (by decide +kernel)]; exact fun h => hm _ h (by decide +kernel))
  have hv : (built c vals).attrs.lookup (pyStr "validate") = none :=
    built_none vals (by rw [built_method hp (by decide +kernel)]; exact fun h => hm _ h (by decide +kernel))
  have hh := built_has hp (fun h => hk (.inl h)) vals
  exact ⟨_, construct_kwargs hp (fun _ => hm) (fun h1 h2 _ => hk (.inr ⟨h1, h2⟩)) vals, write_has (o := built c vals) hp hh hw hv,
    fun hk' => fastWrite_has (o := built c vals) hk' hh hw hv⟩

/-- A program can assign the members of an instance of a mutable class one by one: the others keep their values. -/
theorem assign_partial {o : Inst V} (hp : Plain o.cls) (hi : o.cls.immutable = false)
    (hk : o.cls.slots = true → o.cls.exc = false → NoKeyword o.cls) {vals : PyStr → Option V} (hh : Has o vals)
    {m : PyStr} (hm : m ∈ o.cls.members) (v : Option V) :
    ∃ o', setattr o (escape m) v = .ok o' ∧ o'.cls = o.cls ∧ Has o' fun n => if n = m then v else vals n :=
  assign hp hi (fun h1 h2 _ => hk h1 h2) hh hm v

/-- Reading gives each member the value received last, or `None`; `fast`: with the C extension. -/
theorem read_partial {c : Cls} (fast : Bool) (hp : Plain c) (hm : NoMethod c)
    (hk : c.immutable = true ∨ c.slots = true ∧ c.exc = false ∨ fast = true → NoKeyword c) {ws : List (PyStr × V)}
    (hw : ∀ w ∈ ws, w.1 ∈ c.members) : ∃ o, readNew fast c ws = .ok o ∧ o.cls = c ∧ Has o (last ws) := by
  have hs : c.slots = true → NoMethod c := fun _ => hm
  have hk' : c.slots = true → c.exc = false → c.immutable = false → NoKeyword c := fun h1 h2 _ => hk (.inr (.inl ⟨h1, h2⟩))
  unfold readNew
  by_cases hi : c.immutable = true
  · rw [if_pos hi]
    have hnk := hk (.inl hi)
    refine ⟨built c (last ws), ?_, rfl, built_has hp (fun _ => hnk) _⟩
    cases fast with
    | false =>
      rw [if_neg (by simp)]
      refine construct_with hp hs hk' _ ?_ ?_
      · intro a ha
        obtain ⟨b, hb, rfl⟩ := List.mem_map.1 ha
        obtain ⟨m, hm, rfl⟩ := List.mem_map.1 hb
        exact List.mem_map_of_mem hm
      · intro m hm
        rw [show ((latest c ws).map fun a => (escape a.1, a.2)) = kwargs c (last ws) by
          unfold latest kwargs last; rw [List.map_map]; rfl, kwargs_lookup hp _ hm]
        rfl
    | true =>
      rw [if_pos rfl]
      have hnd : ((latest c ws).map (·.1)).Nodup := by
        unfold latest
        rw [List.map_map]
        show (c.members.map fun m => m).Nodup
        rw [List.map_id']; exact members_nodup hp
      refine construct_with hp hs hk' _ ?_ ?_
      · intro a ha
        obtain ⟨m, hm, rfl⟩ := List.mem_map.1 (List.mem_filter.1 ha).1
        exact List.mem_map.2 ⟨m, hm, escape_noKeyword (hnk m hm)⟩
      · intro m hm
        rw [escape_noKeyword (hnk m hm)]
        have hmem : (m, last ws m) ∈ latest c ws := List.mem_map.2 ⟨m, hm, rfl⟩
        cases hl : last ws m with
        | some v =>
          rw [lookup_mem (v := some v) (List.Nodup.sublist (List.filter_sublist.map _) hnd)
            (List.mem_filter.2 ⟨hl ▸ hmem, rfl⟩)]
          rfl
        | none =>
          rw [lookup_none]
          · rfl
          · intro h
            obtain ⟨a, ha, e⟩ := List.mem_map.1 h
            obtain ⟨ha1, ha2⟩ := List.mem_filter.1 ha
            obtain ⟨m', hm', e'⟩ := List.mem_map.1 ha1
            have h1 : a.1 = m' := by rw [← e']
            have h2 : a.2 = last ws m' := by rw [← e']; rfl
            rw [h2, ← h1, e, hl] at ha2
            cases ha2
  · rw [if_neg hi]
    have hi' : c.immutable = false := by simpa using hi
    have hc : construct c [] = .ok (built c (fun _ => (none : Option V))) :=
      construct_with hp hs hk' _ (by intro a ha; cases ha) (by intro m _; rfl)
    have hr : (built c (fun _ => (none : Option V))).attrs.lookup (pyStr "read") = none :=
      built_none _ (by rw [built_method hp (by decide +kernel)]; exact fun h => hm _ h (by decide +kernel))
    rw [hc, ok_bind, call_ok hr, ok_bind]
    obtain ⟨o, ho, hcls, hh⟩ := readFields_ok ws (built c fun _ => none) (fun _ => none) hp hi' hk'
      (built_has hp (fun h => absurd h hi) _) hw
    refine ⟨o, ?_, hcls, ?_⟩
    · cases fast with
      | false => rw [if_neg (by simp)]; exact ho
      | true =>
        rw [if_pos rfl, fastFields_eq ws (built c fun _ => none) hp (hk (.inr (.inr rfl))) hw]
        exact ho
    · intro m hm
      rw [hh m hm]
      dsimp only
      cases last ws m <;> rfl

/-- A member of an immutable class that is named as a keyword, for example `from`: instances can be built, but the member is not found
under its name, and they can be neither written nor hashed. -/
theorem immutable_keyword {c : Cls} (hp : Plain c) (hm : NoMethod c) (hi : c.immutable = true) {k : PyStr} (hk : k ∈ c.members)
    (hkw : k ∈ keywords) (vals : PyStr → Option V) :
    ∃ o, construct c (kwargs c vals) = .ok o ∧ get o (escape k) = .error .attributeError ∧ write o = .error .attributeError := by
  have hb : ∀ m ∈ c.members, m ∈ keywords → (built c vals).attrs.lookup (escape m) = none := by
    intro m hm' hmk
    refine built_none vals ?_
    rw [List.map_congr_left fun m hm => target_plain hp hm]
    simp only [hi, if_true, List.map_id']
    intro h
    -- `from` and `from_` are not both members
    have hne : escape m ≠ m := by
      unfold escape; rw [if_pos hmk]
      intro e
      have := congrArg List.length e
      rw [List.length_append] at this
      have : (pyStr "_").length = 1 := rfl
      omega
    have hnk : escape m ∉ keywords := (show ∀ m ∈ keywords, escape m ∉ keywords by decide +kernel) m hmk
    exact hne (upd_member.List.inj_on_of_nodup_map' (escapes_nodup hp) h hm' (escape_noKeyword hnk))
  refine ⟨built c vals, construct_kwargs hp (fun _ => hm) (fun _ _ h => by rw [hi] at h; cases h) vals, get_error (hb k hk hkw), ?_⟩
  have hw : (built c vals).attrs.lookup (pyStr "write") = none :=
    built_none vals (by rw [built_method hp (by decide +kernel)]; exact fun h => hm _ h (by decide +kernel))
  have hv : (built c vals).attrs.lookup (pyStr "validate") = none :=
    built_none vals (by rw [built_method hp (by decide +kernel)]; exact fun h => hm _ h (by decide +kernel))
  unfold write
  rw [call_ok hw, ok_bind, call_ok hv, ok_bind]
  rw [mapM_error (e := .attributeError) (built c vals).cls.members (fun m _ => get_or _ _ _) ⟨k, hk, ?_⟩]
  · rfl
  · show (do pure (k, ← get (built c vals) (c.attr k)) : Except PyErr (PyStr × Option V)) = _
    rw [attr_plain hp hk, get_error (hb k hk hkw)]; rfl

/-- A member named as a keyword in a mutable class with slots that is no exception: no instance can be built. -/
theorem slots_keyword {c : Cls} (hp : Plain c) (hm : NoMethod c) (hi : c.immutable = false) (hs : c.slots = true) (he : c.exc = false)
    {k : PyStr} (hk : k ∈ c.members) (hkw : k ∈ keywords) (vals : PyStr → Option V) :
    construct c (kwargs c vals) = .error .attributeError := by
  unfold construct
  rw [create_ok hp (fun _ => hm), ok_bind, if_pos]
  · have hna : ¬ Allowed c (escape k) := by
      rintro (h | h | h)
      · rw [hs] at h; cases h
      · rw [he] at h; cases h
      · rw [slotNames_plain hp hs] at h
        have hne : escape k ≠ k := by
          unfold escape; rw [if_pos hkw]
          intro e
          have := congrArg List.length e
          rw [List.length_append] at this
          have : (pyStr "_").length = 1 := rfl
          omega
        have hnk : escape k ∉ keywords := (show ∀ m ∈ keywords, escape m ∉ keywords by decide +kernel) k hkw
        exact hne (upd_member.List.inj_on_of_nodup_map' (escapes_nodup hp) h hk (escape_noKeyword hnk))
    have : ∀ (ms : List PyStr) (o : Inst V), o.cls = c → (∀ m ∈ ms, m ∈ c.members) → k ∈ ms →
        initBody c (ms.map fun m => (m, ((kwargs c vals).lookup (c.attr m)).getD none)) o = .error .attributeError := by
      intro ms
      induction ms with
      | nil => intro o _ _ h; cases h
      | cons a ms ih =>
        intro o ho hsub hkm
        rw [List.map_cons]
        unfold initBody
        rw [if_neg (by rw [hi]; simp), attr_plain hp (hsub a (by simp))]
        by_cases hal : Allowed o.cls (escape a)
        · rw [objSet_ok hal, ok_bind]
          rcases List.mem_cons.1 hkm with rfl | hkm
          · exact absurd (ho ▸ hal) hna
          · exact ih _ ho (fun m h => hsub m (by simp [h])) hkm
        · rw [objSet_error hal]; rfl
    exact this c.members ⟨c, []⟩ rfl (fun _ h => h) hk
  · intro a ha
    obtain ⟨m, hm', rfl⟩ := List.mem_map.1 ha
    rw [List.map_congr_left fun m hm => attr_plain hp hm]
    exact List.mem_map_of_mem hm'

/-- With the C extension a member named as a keyword is lost: an instance that has it cannot be written, … -/
theorem fast_write_keyword {c : Cls} (hp : Plain c) (hm : NoMethod c) (hi : c.immutable = false) (hs : c.slots = false) {k : PyStr}
    (hk : k ∈ c.members) (hkw : k ∈ keywords) (vals : PyStr → Option V) :
    ∃ o, construct c (kwargs c vals) = .ok o ∧ write o = .ok (fields c vals) ∧ fastWrite o = .error .attributeError := by
  have hno : ∀ m ∈ c.members, m ∈ keywords → (built c vals).attrs.lookup m = none := by
    intro m hm' hmk
    refine built_none vals ?_
    rw [List.map_congr_left fun m hm => target_plain hp hm]
    simp only [hi, Bool.false_eq_true, if_false]
    intro h
    obtain ⟨m', _, e⟩ := List.mem_map.1 h
    exact (show ∀ m ∈ keywords, m.getLast? ≠ (pyStr "_").getLast? by decide +kernel) m hmk (by
      unfold escape at e
      by_cases hk' : m' ∈ keywords
      · rw [if_pos hk'] at e; rw [← e, List.getLast?_append]; rfl
      · rw [if_neg hk'] at e; exact absurd (e ▸ hmk) hk')
  have hw : (built c vals).attrs.lookup (pyStr "write") = none :=
    built_none vals (by rw [built_method hp (by decide +kernel)]; exact fun h => hm _ h (by decide +kernel))
  have hv : (built c vals).attrs.lookup (pyStr "validate") = none :=
    built_none vals (by rw [built_method hp (by decide +kernel)]; exact fun h => hm _ h (by decide +kernel))
  have hh := built_has hp (fun h => by rw [hi] at h; cases h) vals
  refine ⟨built c vals, construct_kwargs hp (fun _ => hm) (fun h => by rw [hs] at h; cases h) vals,
    write_has (o := built c vals) hp hh hw hv, ?_⟩
  unfold fastWrite
  rw [call_ok hw, ok_bind, call_ok hv, ok_bind]
  rw [mapM_error (e := .attributeError) (built c vals).cls.members (fun m _ => get_or _ _ _) ⟨k, hk, ?_⟩]
  · rfl
  · rw [get_error (hno k hk hkw)]; rfl

/-- … and reading one succeeds, but the value of the member is not there under its name: it is `None`, whatever was sent. -/
theorem fast_read_keyword {c : Cls} (hp : Plain c) (hm : NoMethod c) (hi : c.immutable = false) (hs : c.slots = false) {k : PyStr}
    (hk : k ∈ c.members) (hkw : k ∈ keywords) {ws : List (PyStr × V)} (hw : ∀ w ∈ ws, w.1 ∈ c.members) :
    ∃ o, readNew true c ws = .ok o ∧ get o (escape k) = .ok none := by
  have hc : construct c [] = .ok (built c (fun _ => (none : Option V))) :=
    construct_with hp (fun _ => hm) (fun h => by rw [hs] at h; cases h) _ (by intro a ha; cases ha) (by intro m _; rfl)
  have hr : (built c (fun _ => (none : Option V))).attrs.lookup (pyStr "read") = none :=
    built_none _ (by rw [built_method hp (by decide +kernel)]; exact fun h => hm _ h (by decide +kernel))
  unfold readNew
  rw [if_neg (by rw [hi]; simp), hc, ok_bind, call_ok hr, ok_bind, if_pos rfl]
  have hesc : escape k ∉ c.members := by
    intro h
    have hne : escape k ≠ k := by
      unfold escape; rw [if_pos hkw]
      intro e
      have := congrArg List.length e
      rw [List.length_append] at this
      have : (pyStr "_").length = 1 := rfl
      omega
    have hnk : escape k ∉ keywords := (show ∀ m ∈ keywords, escape m ∉ keywords by decide +kernel) k hkw
    exact hne (upd_member.List.inj_on_of_nodup_map' (escapes_nodup hp) h hk (escape_noKeyword hnk))
  have step : ∀ (ws : List (PyStr × V)) (o : Inst V), o.cls = c → (∀ w ∈ ws, w.1 ∈ c.members) → get o (escape k) = .ok none →
      ∃ o', fastFields o ws = .ok o' ∧ get o' (escape k) = .ok none := by
    intro ws
    induction ws with
    | nil => intro o _ _ h; exact ⟨o, rfl, h⟩
    | cons w ws ih =>
      intro o ho hw h
      obtain ⟨m, v⟩ := w
      have hset : setattr o m (some v) = .ok { o with attrs := (m, some v) :: o.attrs.filter fun a => a.1 ≠ m } := by
        unfold setattr
        rw [if_neg (by rw [ho, hi]; simp), objSet_ok (.inl (by rw [ho, hs]))]
      unfold fastFields
      rw [hset, ok_bind]
      refine ih _ ho (fun w hw' => hw w (by simp [hw'])) (get_ok ?_)
      rw [lookup_objSet, if_neg]
      · exact lookup_of_get h
      · intro e
        exact hesc (e ▸ hw (m, v) (by simp))
  refine step ws _ rfl hw ?_
  exact built_has hp (fun h => by rw [hi] at h; cases h) (fun _ => none) k hk

/-- In an immutable class, the C extension raises a `TypeError` when such a member was received. -/
theorem fast_read_immutable_keyword {c : Cls} (hp : Plain c) (hm : NoMethod c) (hi : c.immutable = true) {k : PyStr} (hk : k ∈ c.members)
    (hkw : k ∈ keywords) {ws : List (PyStr × V)} {v : V} (hw : (k, v) ∈ ws) : readNew true c ws = .error .typeError := by
  unfold readNew construct
  rw [if_pos hi, if_pos rfl, create_ok hp (fun _ => hm), ok_bind, if_neg]
  intro h
  have hmem : (k, last ws k) ∈ (latest c ws).filter fun a => a.2.isSome := by
    refine List.mem_filter.2 ⟨List.mem_map.2 ⟨k, hk, rfl⟩, ?_⟩
    unfold last
    cases hl : (ws.filter fun w => decide (w.1 = k)).getLast? with
    | some w => rfl
    | none =>
      rw [List.getLast?_eq_none_iff] at hl
      have : (k, v) ∈ ws.filter fun w => decide (w.1 = k) := List.mem_filter.2 ⟨hw, by simp⟩
      rw [hl] at this
      cases this
  have := h _ hmem
  rw [List.map_congr_left fun m hm => attr_plain hp hm] at this
  obtain ⟨m', _, e⟩ := List.mem_map.1 this
  refine (show ∀ m ∈ keywords, m.getLast? ≠ (pyStr "_").getLast? by decide +kernel) k hkw ?_
  dsimp only at e
  unfold escape at e
  by_cases hk' : m' ∈ keywords
  · rw [if_pos hk'] at e; rw [← e, List.getLast?_append]; rfl
  · rw [if_neg hk'] at e; exact absurd (e ▸ hkw) hk'

/-- A member named `write` or `validate`: no new instance can be written. -/
theorem method_hidden {c : Cls} (hp : Plain c) (hs : c.slots = false) (h : pyStr "write" ∈ c.members ∨ pyStr "validate" ∈ c.members)
    (vals : PyStr → Option V) : ∃ o, construct c (kwargs c vals) = .ok o ∧ write o = .error .typeError ∧ fastWrite o = .error .typeError := by
  refine ⟨built c vals, construct_kwargs hp (fun h => by rw [hs] at h; cases h) (fun h => by rw [hs] at h; cases h) vals, ?_⟩
  have hl : ∀ n ∈ own, n ∈ c.members → ∃ v, (built c vals).attrs.lookup n = some v := by
    intro n hn hm
    obtain ⟨m, hm', e⟩ := List.mem_map.1 ((built_method hp hn).2 hm)
    exact ⟨vals m, e ▸ built_lookup hp vals hm'⟩
  unfold write fastWrite
  by_cases hw : pyStr "write" ∈ c.members
  · obtain ⟨v, hv⟩ := hl _ (by decide +kernel) hw
    rw [call_error hv]
    exact ⟨rfl, rfl⟩
  · have hw' : (built c vals).attrs.lookup (pyStr "write") = none := built_none vals (by rwa [built_method hp (by decide +kernel)])
    obtain ⟨v, hv⟩ := hl _ (by decide +kernel) (h.resolve_left hw)
    rw [call_ok hw', ok_bind, call_error hv]
    exact ⟨rfl, rfl⟩

/-- A member named `read` of a mutable class: no instance can be read. -/
theorem method_hidden_read {c : Cls} (hp : Plain c) (hs : c.slots = false) (hi : c.immutable = false) (h : pyStr "read" ∈ c.members)
    (fast : Bool) (ws : List (PyStr × V)) : readNew fast c ws = .error .typeError := by
  have hc : construct c [] = .ok (built c (fun _ => (none : Option V))) :=
    construct_with hp (fun h => by rw [hs] at h; cases h) (fun h => by rw [hs] at h; cases h) _ (by intro a ha; cases ha) (by intro m _; rfl)
  obtain ⟨m, hm', e⟩ := List.mem_map.1 ((built_method hp (show pyStr "read" ∈ own by decide +kernel)).2 h)
  have hl := built_lookup hp (fun _ => (none : Option V)) hm'
  rw [e] at hl
  unfold readNew
  rw [if_neg (by rw [hi]; simp), hc, ok_bind, call_error hl]
  rfl

/-- With slots, a member with the name of a class attribute: the module cannot be imported. -/
theorem slots_method {c : Cls} (hp : Plain c) (hs : c.slots = true) {m : PyStr} (hm : m ∈ c.members)
    (h : m ∈ ["thrift_spec", "read", "write", "validate"].map pyStr) (kw : List (PyStr × Option V)) : construct c kw = .error .valueError := by
  unfold construct create
  rw [if_pos hp.1, if_pos ⟨hs, m, hm, h⟩]
  rfl

/-- A member that begins with two underscores and does not end with two: the parameter of the constructor has another name. -/
theorem construct_mangled {c : Cls} (ha : Accepted c.members) (hs : c.slots = true → NoMethod c) {m : PyStr} (hm : m ∈ c.members)
    (h1 : pyStr "__" <+: m) (h2 : ¬ pyStr "__" <:+ m) (hc : ∃ x ∈ c.name, x ≠ 95) (vals : PyStr → Option V) :
    construct c (kwargs c vals) = .error .typeError := by
  have hne : c.name.dropWhile (· = 95) ≠ [] := by
    intro h
    obtain ⟨x, hx, hx'⟩ := hc
    have : ∀ l : PyStr, l.dropWhile (· = 95) = [] → ∀ x ∈ l, x = 95 := by
      intro l
      induction l with
      | nil => simp
      | cons a l ih =>
        intro h y hy
        by_cases ha : a = 95
        · rw [List.dropWhile_cons_of_pos (by simpa using ha)] at h
          rcases List.mem_cons.1 hy with rfl | hy
          · exact ha
          · exact ih h y hy
        · rw [List.dropWhile_cons_of_neg (by simpa using ha)] at h; cases h
    exact hx' (this _ h x hx)
  have hmk : m ∉ keywords := fun h => (show ∀ m ∈ keywords, ¬ pyStr "__" <+: m by decide +kernel) m h h1
  have hem := escape_noKeyword hmk
  unfold construct create
  rw [if_pos ha, if_neg (by rintro ⟨h1, m, hm, h2⟩; exact hs h1 m hm h2), ok_bind, if_neg]
  intro h
  obtain ⟨n, hn, e⟩ := List.mem_map.1 (h (escape m, vals m) (List.mem_map.2 ⟨m, hm, rfl⟩))
  dsimp only at e
  unfold Cls.attr mangle at e
  dsimp only at e
  by_cases hn' : pyStr "__" <+: escape n ∧ ¬ pyStr "__" <:+ escape n ∧ c.name.dropWhile (· = 95) ≠ []
  · rw [if_pos hn', hem] at e
    have hh := List.head_dropWhile_not (fun x => decide (x = 95)) hne
    cases hd : c.name.dropWhile (fun x => decide (x = 95)) with
    | nil => exact hne hd
    | cons x xs =>
      simp only [hd, List.head_cons] at hh
      rw [hd] at e
      rw [← e] at h1
      have : x = 95 := by
        obtain ⟨t, ht⟩ := h1
        have h3 : pyStr "__" = [95, 95] := by decide +kernel
        have h4 : pyStr "_" = [95] := by decide +kernel
        rw [h3, h4] at ht
        simp only [List.cons_append, List.nil_append, List.cons.injEq, true_and] at ht
        exact ht.1.symm
      simp [this] at hh
  · rw [if_neg hn'] at e
    have : n = m := upd_member.List.inj_on_of_nodup_map' (List.nodup_cons.1 ha.1).2 hn hm e
    subst this
    exact hn' ⟨by rwa [hem], by rwa [hem], hne⟩

/-! ### C74 -/

/-- What a program does with an instance -/
inductive Op (V : Type) where
  | set (n : PyStr) (v : Option V)
  | del (n : PyStr)

/-- The instance after the operation: an exception leaves it as it was. -/
def Op.run (o : Inst V) : Op V → Inst V
  | .set n v => match setattr o n v with
    | .ok o' => o'
    | .error _ => o
  | .del n => match delattr o n with
    | .ok o' => o'
    | .error _ => o

theorem run_frozen {o : Inst V} (hi : o.cls.immutable = true) (op : Op V) :
    (op.run o).cls = o.cls ∧ ∀ m ∈ o.cls.members, (op.run o).attrs.lookup m = o.attrs.lookup m := by
  cases op with
  | set n v =>
    unfold Op.run setattr objSet
    dsimp only
    rw [if_pos hi]
    by_cases h : o.cls.slots = true ∧ n ∉ o.cls.members
    · rw [if_pos h]
      split
      · rename_i o' ho
        split at ho
        · injection ho with ho
          subst ho
          refine ⟨rfl, fun m hm => ?_⟩
          rw [lookup_objSet, if_neg]
          rintro rfl
          exact h.2 hm
        · cases ho
      · exact ⟨rfl, fun _ _ => rfl⟩
    · rw [if_neg h]; exact ⟨rfl, fun _ _ => rfl⟩
  | del n =>
    unfold Op.run delattr objDel
    dsimp only
    rw [if_pos hi]
    by_cases h : o.cls.slots = true ∧ n ∉ o.cls.members
    · rw [if_pos h]
      split
      · rename_i o' ho
        split at ho
        · injection ho with ho
          subst ho
          refine ⟨rfl, fun m hm => ?_⟩
          dsimp only
          rw [lookup_filter, if_neg]
          rintro rfl
          exact h.2 hm
        · cases ho
      · exact ⟨rfl, fun _ _ => rfl⟩
    · rw [if_neg h]; exact ⟨rfl, fun _ _ => rfl⟩

/-- After any sequence of assignments and deletions, an instance of an immutable class has the values it was built with. -/
theorem immutable_frozen {c : Cls} (hp : Plain c) (hs : c.slots = true → NoMethod c) (hi : c.immutable = true) (hk : NoKeyword c)
    {vals : PyStr → Option V} {o : Inst V} (ho : construct c (kwargs c vals) = .ok o) (ops : List (Op V)) :
    (ops.foldl Op.run o).cls = c ∧ Has (ops.foldl Op.run o) vals := by
  rw [construct_kwargs hp hs (fun _ _ _ => hk)] at ho
  injection ho with ho
  have hh := built_has hp (fun _ => hk) vals
  rw [ho] at hh
  have hc : o.cls = c := by rw [← ho]; rfl
  clear ho
  induction ops generalizing o with
  | nil => exact ⟨hc, hh⟩
  | cons op ops ih =>
    obtain ⟨h1, h2⟩ := run_frozen (hc ▸ hi) op
    refine ih (o := op.run o) ?_ (h1.trans hc)
    intro m hm
    rw [h1] at hm
    have := lookup_of_get (hh m hm)
    rw [escape_noKeyword (hk m (hc ▸ hm))] at this ⊢
    exact get_ok (by rw [h2 m hm, this])

/-- Every assignment and every deletion of a member raises a `TypeError`. -/
theorem immutable_raises {o : Inst V} (hi : o.cls.immutable = true) {m : PyStr} (hm : m ∈ o.cls.members) (v : Option V) :
    setattr o m v = .error .typeError ∧ delattr o m = .error .typeError := by
  unfold setattr delattr
  rw [if_pos hi, if_pos hi, if_neg (fun h => h.2 hm), if_neg (fun h => h.2 hm)]
  exact ⟨rfl, rfl⟩

/-- Without slots other attributes cannot be set either, although the generator means them to be (`__traceback__` of an exception, which
`contextlib` sets). -/
theorem immutable_other_raises {o : Inst V} (hi : o.cls.immutable = true) (hs : o.cls.slots = false) (n : PyStr) (v : Option V) :
    setattr o n v = .error .typeError := by
  unfold setattr
  rw [if_pos hi, if_neg (by rw [hs]; simp)]

/-- With slots they can, in exceptions. -/
theorem immutable_other_slots {o : Inst V} (hi : o.cls.immutable = true) (hs : o.cls.slots = true) (he : o.cls.exc = true) {n : PyStr}
    (hn : n ∉ o.cls.members) (v : Option V) : ∃ o', setattr o n v = .ok o' ∧ get o' n = .ok v := by
  unfold setattr
  rw [if_pos hi, if_pos ⟨hs, hn⟩, objSet_ok (.inr (.inl he))]
  exact ⟨_, rfl, get_ok (by rw [lookup_objSet, if_pos rfl])⟩

theorem walk_eq {veq : V → V → Bool} {a b : Inst V} {va vb : PyStr → Option V} : ∀ (ms : List PyStr),
    (∀ m ∈ ms, get a m = .ok (va m)) → (∀ m ∈ ms, get b m = .ok (vb m)) →
    eq.walk a b (Same veq) ms = .ok (ms.all fun m => Same veq (va m) (vb m)) := by
  intro ms
  induction ms with
  | nil => intro _ _; rfl
  | cons m ms ih =>
    intro ha hb
    unfold eq.walk
    rw [ha m (by simp), ok_bind, hb m (by simp), ok_bind, List.all_cons]
    by_cases h : Same veq (va m) (vb m) = true
    · rw [if_pos h, h, ih (fun m h => ha m (by simp [h])) (fun m h => hb m (by simp [h]))]; rfl
    · rw [if_neg h]
      have : Same veq (va m) (vb m) = false := by simpa using h
      rw [this]; rfl

/-- Two new instances are equal exactly if they are of the same class and their members are equal.
Missing: members named as Python keywords with slots, see `eq_keyword`. -/
theorem eq_partial {c : Cls} (hp : Plain c) (hs : c.slots = true → NoMethod c) (hk : c.immutable = true ∨ c.slots = true → NoKeyword c)
    (veq : V → V → Bool) {va vb : PyStr → Option V} {a b : Inst V} (ha : construct c (kwargs c va) = .ok a)
    (hb : construct c (kwargs c vb) = .ok b) : eq veq a b = .ok (c.members.all fun m => Same veq (va m) (vb m)) := by
  rw [construct_kwargs hp hs (fun h _ _ => hk (.inr h))] at ha hb
  injection ha with ha
  injection hb with hb
  subst ha hb
  unfold eq
  dsimp only
  rw [if_neg (by simp [built])]
  have hsame : (fun x y => match x, y with
    | some x, some y => veq x y
    | none, none => true
    | _, _ => false) = Same veq := by
    funext x y
    cases x <;> cases y <;> rfl
  by_cases hsl : c.slots = true
  · rw [if_pos (show (built c va).cls.slots = true from hsl)]
    have hk' := hk (.inr hsl)
    have h : ∀ vals : PyStr → Option V, ∀ m ∈ c.members, get (built c vals) m = .ok (vals m) := by
      intro vals m hm
      have := built_has hp (fun _ => hk') vals m hm
      rwa [escape_noKeyword (hk' m hm)] at this
    have := walk_eq (veq := veq) c.members (h va) (h vb)
    rw [← hsame] at this
    exact this.trans (by rw [hsame])
  · rw [if_neg (show ¬ (built c va).cls.slots = true from hsl)]
    congr 1
    have hlen : (built c va).attrs.length = (built c vb).attrs.length := by
      unfold built; simp
    rw [decide_eq_true hlen, Bool.true_and]
    unfold built
    dsimp only
    rw [List.all_reverse, List.all_map]
    refine Bool.eq_iff_iff.2 ?_
    rw [List.all_eq_true, List.all_eq_true]
    refine forall_congr' fun m => forall_congr' fun hm => ?_
    have hl := built_lookup hp vb hm
    unfold built at hl
    dsimp only at hl
    rw [Function.comp_apply]
    dsimp only
    rw [hl]
    dsimp only
    cases va m <;> cases vb m <;> exact Iff.rfl

/-- Instances of different classes are not equal. -/
theorem eq_other (veq : V → V → Bool) {a b : Inst V} (h : b.cls ≠ a.cls) : eq veq a b = .ok false := by
  unfold eq
  dsimp only
  rw [if_pos h]

/-- Equal instances of immutable classes have equal hashes, and if one is not hashable neither is the other, as far as this holds of the
values of the members. -/
theorem eq_hash_partial {c : Cls} (hp : Plain c) (hs : c.slots = true → NoMethod c) (hi : c.immutable = true) (hk : NoKeyword c)
    (veq : V → V → Bool) (vhash : Option V → Option Int) (mix : Cls → List Int → Int)
    (law : ∀ x y, veq x y = true → vhash (some x) = vhash (some y)) {va vb : PyStr → Option V} {a b : Inst V}
    (ha : construct c (kwargs c va) = .ok a) (hb : construct c (kwargs c vb) = .ok b) (he : eq veq a b = .ok true) :
    hash vhash mix a = hash vhash mix b := by
  rw [eq_partial hp hs (fun _ => hk) veq ha hb] at he
  injection he with he
  rw [List.all_eq_true] at he
  rw [construct_kwargs hp hs (fun _ _ _ => hk)] at ha hb
  injection ha with ha
  injection hb with hb
  subst ha hb
  unfold hash
  rw [if_pos (show (built c va).cls.immutable = true from hi), if_pos (show (built c vb).cls.immutable = true from hi)]
  have hva := built_has hp (fun _ => hk) va
  have hvb := built_has hp (fun _ => hk) vb
  have : ∀ ms : List PyStr, (∀ m ∈ ms, m ∈ c.members) →
      (ms.mapM fun m => (do
        match vhash (← get (built c va) (c.attr m)) with
        | some h => pure h
        | none => .error .typeError : Except PyErr Int)) =
      (ms.mapM fun m => (do
        match vhash (← get (built c vb) (c.attr m)) with
        | some h => pure h
        | none => .error .typeError : Except PyErr Int)) := by
    intro ms
    induction ms with
    | nil => intro _; rfl
    | cons m ms ih =>
      intro hsub
      have hm := hsub m (by simp)
      rw [List.mapM_cons, List.mapM_cons, ih fun m h => hsub m (by simp [h]), attr_plain hp hm, hva m hm, hvb m hm]
      have : vhash (va m) = vhash (vb m) := by
        have h := he m hm
        cases h1 : va m with
        | none => cases h2 : vb m with
          | none => rfl
          | some y => rw [h1, h2] at h; cases h
        | some x => cases h2 : vb m with
          | none => rw [h1, h2] at h; cases h
          | some y => rw [h1, h2] at h; exact law x y h
      rw [ok_bind, ok_bind, this]
  exact congrArg (fun r => r >>= fun hs => pure (mix c hs)) (this c.members fun _ h => h)

/-- Instances of mutable classes have no hash: they cannot be elements of sets or keys. -/
theorem mutable_unhashable {o : Inst V} (hi : o.cls.immutable = false) (vhash : Option V → Option Int) (mix : Cls → List Int → Int) :
    hash vhash mix o = .error .typeError := by
  unfold hash
  rw [if_neg (by rw [hi]; simp)]

/-- With slots, comparing an instance of a mutable exception class that has a member named as a keyword, with itself, raises an
`AttributeError`. -/
theorem eq_keyword {c : Cls} (hp : Plain c) (hm : NoMethod c) (hi : c.immutable = false) (hs : c.slots = true) (he : c.exc = true) {k : PyStr}
    (hk : k ∈ c.members) (hkw : k ∈ keywords) (veq : V → V → Bool) (hrefl : ∀ x, veq x x = true) (vals : PyStr → Option V) :
    ∃ o, construct c (kwargs c vals) = .ok o ∧ eq veq o o = .error .attributeError := by
  refine ⟨built c vals, construct_kwargs hp (fun _ => hm) (fun _ h => by rw [he] at h; cases h) vals, ?_⟩
  have hno : (built c vals).attrs.lookup k = none := by
    refine built_none vals ?_
    rw [List.map_congr_left fun m hm => target_plain hp hm]
    simp only [hi, Bool.false_eq_true, if_false]
    intro h
    obtain ⟨m', _, e⟩ := List.mem_map.1 h
    exact (show ∀ m ∈ keywords, m.getLast? ≠ (pyStr "_").getLast? by decide +kernel) k hkw (by
      unfold escape at e
      by_cases hk' : m' ∈ keywords
      · rw [if_pos hk'] at e; rw [← e, List.getLast?_append]; rfl
      · rw [if_neg hk'] at e; exact absurd (e ▸ hkw) hk')
  unfold eq
  dsimp only
  rw [if_neg (by simp), if_pos (show (built c vals).cls.slots = true from hs)]
  have : ∀ ms : List PyStr, k ∈ ms → eq.walk (built c vals) (built c vals) (fun x y => match x, y with
    | some x, some y => veq x y
    | none, none => true
    | _, _ => false) ms = .error .attributeError := by
    intro ms
    induction ms with
    | nil => intro h; cases h
    | cons m ms ih =>
      intro hkm
      unfold eq.walk
      cases hl : (built c vals).attrs.lookup m with
      | none => rw [get_error hl]; rfl
      | some v =>
        rw [get_ok hl, ok_bind, ok_bind, if_pos]
        · rcases List.mem_cons.1 hkm with rfl | hkm
          · rw [hno] at hl; cases hl
          · exact ih hkm
        · cases v with
          | none => rfl
          | some x => exact hrefl x
  exact this c.members hk

/-! ### Examples -/

namespace Example

/-- `struct Flight { 1: string to, 2: i32 stops }` -/
def flight : Cls := ⟨pyStr "Flight", true, true, false, [pyStr "to", pyStr "stops"]⟩

theorem flight_plain : Plain flight := by unfold Plain; decide +kernel
theorem flight_method : NoMethod flight := by unfold NoMethod; decide +kernel
theorem flight_keyword : NoKeyword flight := by unfold NoKeyword; decide +kernel

def vals (n : PyStr) : Option Nat := if n = pyStr "to" then some 7 else none

example : ∃ o, construct flight (kwargs flight vals) = .ok o ∧ write o = .ok [(pyStr "to", 7)] ∧ fastWrite o = .ok [(pyStr "to", 7)] := by
  obtain ⟨o, h1, h2, h3⟩ := construct_write_partial flight_plain flight_method (fun _ => flight_keyword) vals
  exact ⟨o, h1, h2, h3 flight_keyword⟩

example : ∃ o, readNew true flight [(pyStr "stops", 1), (pyStr "stops", 2)] = .ok o ∧ get o (pyStr "stops") = .ok (some 2) := by
  obtain ⟨o, h1, h2, h3⟩ := read_partial (c := flight) true flight_plain flight_method (fun _ => flight_keyword)
    (ws := [(pyStr "stops", 1), (pyStr "stops", 2)]) (by decide +kernel)
  exact ⟨o, h1, h3 (pyStr "stops") (by rw [h2]; decide +kernel)⟩

/-- `exception Missing { 1: string from, 2: string to }`, immutable as all exceptions -/
def missing (immutable slots exc : Bool) : Cls := ⟨pyStr "Missing", immutable, slots, exc, [pyStr "from", pyStr "to"]⟩

theorem missing_plain (i s e : Bool) : Plain (missing i s e) := by
  show Accepted [pyStr "from", pyStr "to"] ∧ ∀ m ∈ [pyStr "from", pyStr "to"], ¬ pyStr "__" <+: m
  decide +kernel
theorem missing_noMethod (i s e : Bool) : NoMethod (missing i s e) := by
  revert i s e
  unfold NoMethod
  decide +kernel

example : ∃ o, construct (missing true false true) (kwargs (missing true false true) vals) = .ok o ∧
    get o (pyStr "from_") = .error .attributeError ∧ write o = .error .attributeError :=
  immutable_keyword (missing_plain ..) (missing_noMethod _ _ _) rfl (k := pyStr "from") (by decide +kernel) (by decide +kernel) vals

example : construct (missing false true false) (kwargs (missing false true false) vals) = .error .attributeError :=
  slots_keyword (missing_plain ..) (missing_noMethod _ _ _) rfl rfl rfl (k := pyStr "from") (by decide +kernel) (by decide +kernel) vals

example : ∃ o, readNew true (missing false false false) [(pyStr "from", 5)] = .ok o ∧ get o (pyStr "from_") = .ok none :=
  fast_read_keyword (missing_plain ..) (missing_noMethod _ _ _) rfl rfl (k := pyStr "from") (by decide +kernel) (by decide +kernel)
    (by decide +kernel)

/-- Reading without the extension finds it. -/
example : ∃ o, readNew false (missing false false false) [(pyStr "from", 5)] = .ok o ∧ get o (pyStr "from_") = .ok (some 5) := by
  obtain ⟨o, h1, h2, h3⟩ := read_partial (c := missing false false false) false (missing_plain ..) (missing_noMethod _ _ _) (by simp [missing])
    (ws := [(pyStr "from", 5)]) (by decide +kernel)
  exact ⟨o, h1, h3 (pyStr "from") (by rw [h2]; decide +kernel)⟩

/-- `struct Access { 1: bool read, 2: bool write }` -/
example : ∃ o, construct ⟨pyStr "Access", false, false, false, [pyStr "read", pyStr "write"]⟩ [(pyStr "read", some 1), (pyStr "write", none)] = .ok o ∧
    write o = .error .typeError :=
  let ⟨o, h1, h2, _⟩ := method_hidden (c := ⟨pyStr "Access", false, false, false, [pyStr "read", pyStr "write"]⟩)
    (by unfold Plain; decide +kernel) rfl (.inl (by decide +kernel)) (fun n => if n = pyStr "read" then some 1 else none)
  ⟨o, h1, h2⟩

example : construct ⟨pyStr "_Node", false, false, false, [pyStr "__next"]⟩ [(pyStr "__next", some 1)] = .error .typeError :=
  construct_mangled (c := ⟨pyStr "_Node", false, false, false, [pyStr "__next"]⟩) (by decide +kernel) (fun h => nomatch h)
    (m := pyStr "__next") (by decide +kernel) (by decide +kernel) (by decide +kernel) (by decide +kernel) (fun _ => some 1)

example : construct ⟨pyStr "_Node", false, false, false, [pyStr "__next"]⟩ [(pyStr "_Node__next", some 1)] =
    .ok ⟨⟨pyStr "_Node", false, false, false, [pyStr "__next"]⟩, [(pyStr "_Node__next", some 1)]⟩ := by decide +kernel

/-- The members of an exception stay as they are, whatever is tried. -/
example : ∃ o, construct flight (kwargs flight vals) = .ok o ∧
    get ([Op.set (pyStr "to") (some 1), .del (pyStr "stops"), .set (pyStr "x") none].foldl Op.run o) (pyStr "to") = .ok (some 7) := by
  obtain ⟨o, h1, _⟩ := construct_partial flight_plain (fun _ => flight_method) (fun _ => flight_keyword) vals
  obtain ⟨h2, h3⟩ := immutable_frozen flight_plain (fun _ => flight_method) rfl flight_keyword h1
    [Op.set (pyStr "to") (some 1), .del (pyStr "stops"), .set (pyStr "x") none]
  exact ⟨o, h1, h3 (pyStr "to") (by rw [h2]; decide +kernel)⟩

end Example

end Thrift.Attrs
