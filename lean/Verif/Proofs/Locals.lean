import Verif.Spec.Locals
/-
Lemmas about frames and escaped names.
-/

namespace Thrift.Locals
open Rpc Names

theorem escape_eq_iff {n : PyStr} (hk : n ∉ keywords) (hl : n.getLast? ≠ (pyStr "_").getLast?) (p : PyStr) : escape p = n ↔ p = n := by
  unfold escape
  by_cases h : p ∈ keywords
  · rw [if_pos h]
    constructor
    · intro e
      exfalso
      apply hl
      rw [← e, List.getLast?_append]
      rfl
    · intro e
      exact absurd (e ▸ h) hk
  · rw [if_neg h]

/-- The names that the generated code uses, and those of methods -/
def own : List PyStr :=
  ["self", "cls", "iprot", "oprot", "args", "result", "seqid", "msg_type", "future", "error", "fname", "ftype", "fid", "read", "write",
    "validate", "success", "async", "await"].map pyStr

theorem own_ok : ∀ n ∈ own, n ∉ keywords ∧ n.getLast? ≠ (pyStr "_").getLast? := by decide +kernel

theorem escape_own {n : PyStr} (h : n ∈ own) (p : PyStr) : escape p = n ↔ p = n := escape_eq_iff (own_ok n h).1 (own_ok n h).2 p

theorem mem_escape_own {n : PyStr} (h : n ∈ own) (ps : List PyStr) : n ∈ ps.map escape ↔ n ∈ ps := by
  rw [List.mem_map]
  constructor
  · rintro ⟨p, hp, e⟩
    exact (escape_own h p).1 e ▸ hp
  · intro hp
    exact ⟨n, hp, (escape_own h n).2 rfl⟩

theorem reserved_escaped : ∀ n ∈ Spec.Names.reserved, n ∉ [pyStr "async", pyStr "await"] → n ∈ keywords := by decide +kernel

theorem keywords_escaped : ∀ n ∈ keywords, escape n ∉ Spec.Names.reserved := by decide +kernel

theorem escape_not_reserved (p : PyStr) : escape p ∉ Spec.Names.reserved ↔ p ≠ pyStr "async" ∧ p ≠ pyStr "await" := by
  by_cases h : p ∈ keywords
  · constructor
    · intro _
      constructor
      · rintro rfl; revert h; decide +kernel
      · rintro rfl; revert h; decide +kernel
    · exact fun _ => keywords_escaped p h
  · have : escape p = p := by unfold escape; rw [if_neg h]
    rw [this]
    constructor
    · intro hr
      constructor
      · rintro rfl; exact hr (by decide +kernel)
      · rintro rfl; exact hr (by decide +kernel)
    · rintro ⟨h1, h2⟩ hr
      exact h (reserved_escaped p hr (by simp [h1, h2]))

theorem accepted_iff (ns : List PyStr) : Accepted ns ↔ Spec.Locals.Names ns := by
  unfold Accepted Spec.Locals.Names
  refine and_congr_right fun _ => ?_
  simp only [escape_not_reserved]
  constructor
  · intro h
    exact ⟨fun hm => (h _ hm).1 rfl, fun hm => (h _ hm).2 rfl⟩
  · rintro ⟨h1, h2⟩ n hn
    exact ⟨fun e => h1 (e ▸ hn), fun e => h2 (e ▸ hn)⟩

variable {V : Type}

theorem lookup_put (n m : PyStr) (o : Obj V) (f : Frame V) : (put m o f).lookup n = if n = m then some o else f.lookup n := by
  unfold put
  by_cases h : n = m
  · subst h; simp
  · rw [if_neg h, List.lookup_cons]
    have : (n == m) = false := by simpa using h
    rw [this]

theorem lookup_del (n m : PyStr) (f : Frame V) : (del m f).lookup n = if n = m then none else f.lookup n := by
  unfold del
  induction f with
  | nil => simp
  | cons a f ih =>
    obtain ⟨x, o⟩ := a
    rw [List.filter_cons]
    by_cases hx : x = m
    · subst hx
      simp only [ne_eq, not_true_eq_false, decide_false, Bool.false_eq_true, if_false]
      rw [ih, List.lookup_cons]
      by_cases hn : n = x
      · simp [hn]
      · have : (n == x) = false := by simpa using hn
        rw [this]
    · simp only [ne_eq, hx, not_false_eq_true, decide_true, if_true]
      rw [List.lookup_cons, List.lookup_cons, ih]
      by_cases hn : n = x
      · subst hn; simp [hx]
      · have : (n == x) = false := by simpa using hn
        rw [this]

theorem look_ok {f : Frame V} {n : PyStr} {o : Obj V} (h : f.lookup n = some o) : look f n = .ok o := by
  unfold look; rw [h]

theorem look_error {f : Frame V} {n : PyStr} (h : f.lookup n = none) : look f n = .error .unboundLocal := by
  unfold look; rw [h]

variable [DecidableEq V]

theorem expect_ok {f : Frame V} {n : PyStr} {o : Obj V} {e : PyErr} (h : f.lookup n = some o) : expect f n o e = .ok () := by
  unfold expect; rw [look_ok h]; show (if o = o then _ else _) = _; rw [if_pos rfl]; rfl

theorem expect_error {f : Frame V} {n : PyStr} {o p : Obj V} {e : PyErr} (h : f.lookup n = some p) (hp : p ≠ o) :
    expect f n o e = .error e := by
  unfold expect; rw [look_ok h]; show (if p = o then _ else _) = _; rw [if_neg hp]

theorem expect_unbound {f : Frame V} {n : PyStr} {o : Obj V} {e : PyErr} (h : f.lookup n = none) :
    expect f n o e = .error .unboundLocal := by
  unfold expect; rw [look_error h]; rfl

omit [DecidableEq V] in
theorem mapM_ok {α β : Type} {g : α → Except PyErr β} {g' : α → β} (l : List α) (h : ∀ a ∈ l, g a = .ok (g' a)) :
    l.mapM g = .ok (l.map g') := by
  induction l with
  | nil => rfl
  | cons a l ih =>
    rw [List.mapM_cons, h a (by simp), ih fun b hb => h b (by simp [hb])]
    rfl

/-! ### Reading -/

/-- What a field on the wire does to the variable `n` -/
def upd (ms : List (Mem V)) (n : PyStr) (o : Option (Obj V)) (w : Wire V) : Option (Obj V) :=
  match ms.find? (fun m => decide (w.fid = m.key)) with
  | some m => if w.ftype = m.ttype ∧ n = m.var then some (.val w.v) else o
  | none => o

omit [DecidableEq V] in
theorem lookup_branch (ms : List (Mem V)) (w : Wire V) (f : Frame V) (n : PyStr) :
    (branch ms w f).lookup n = upd ms n (f.lookup n) w := by
  unfold branch upd
  cases ms.find? (fun m => decide (w.fid = m.key)) with
  | none => rfl
  | some m =>
    by_cases h : w.ftype = m.ttype
    · simp only [h, if_true, true_and]; exact lookup_put _ _ _ _
    · simp [h]

omit [DecidableEq V] in
theorem upd_other {ms : List (Mem V)} {n : PyStr} (hn : n ∉ ms.map Mem.var) (o : Option (Obj V)) (w : Wire V) : upd ms n o w = o := by
  unfold upd
  cases h : ms.find? (fun m => decide (w.fid = m.key)) with
  | none => rfl
  | some m =>
    have hm := List.mem_of_find?_eq_some h
    have : n ≠ m.var := fun e => hn (e ▸ List.mem_map_of_mem hm)
    simp [this]

omit [DecidableEq V] in
theorem upd_member {ms : List (Mem V)} (hk : (ms.map Mem.key).Nodup) (hv : (ms.map Mem.var).Nodup) {m : Mem V} (hm : m ∈ ms)
    (o : Option (Obj V)) (w : Wire V) : upd ms m.var o w = if w.fid = m.key ∧ w.ftype = m.ttype then some (.val w.v) else o := by
  unfold upd
  cases h : ms.find? (fun m => decide (w.fid = m.key)) with
  | none =>
    have := List.find?_eq_none.1 h m hm
    simp only [decide_eq_true_eq] at this
    simp [this]
  | some m' =>
    have hm' := List.mem_of_find?_eq_some h
    have hw := List.find?_some h
    simp only [decide_eq_true_eq] at hw
    by_cases hf : w.fid = m.key
    · have : m' = m := List.inj_on_of_nodup_map' hk hm' hm (hw.symm.trans hf)
      subst this
      simp [hf]
    · have : m.var ≠ m'.var := fun e => hf (by rw [hw, List.inj_on_of_nodup_map' hv hm hm' e])
      simp [this, hf]
where
  List.inj_on_of_nodup_map' {α β : Type} {g : α → β} {l : List α} (h : (l.map g).Nodup) {a b : α} (ha : a ∈ l) (hb : b ∈ l)
      (e : g a = g b) : a = b := by
    induction l with
    | nil => cases ha
    | cons c l ih =>
      rw [List.map_cons, List.nodup_cons] at h
      rcases List.mem_cons.1 ha with rfl | ha'
      · rcases List.mem_cons.1 hb with rfl | hb'
        · rfl
        · exact absurd (e ▸ List.mem_map_of_mem hb') h.1
      · rcases List.mem_cons.1 hb with rfl | hb'
        · exact absurd (e ▸ List.mem_map_of_mem ha') h.1
        · exact ih h.2 ha' hb'

/-- The variables after the loop -/
def after (ms : List (Mem V)) (ws : List (Wire V)) (n : PyStr) (o : Option (Obj V)) : Option (Obj V) :=
  if n = pyStr "fid" then some (.int 0) else if n = pyStr "ftype" then some (.int 0) else if n = pyStr "fname" then some .none
  else ws.foldl (upd ms n) o

theorem readLoop_ok {ms : List (Mem V)} (hi : pyStr "iprot" ∉ ms.map Mem.var) : ∀ (ws : List (Wire V)) (f : Frame V),
    f.lookup (pyStr "iprot") = some .iprot → ∃ f', readLoop ms ws f = .ok f' ∧ ∀ n, f'.lookup n = after ms ws n (f.lookup n) := by
  intro ws
  induction ws with
  | nil =>
    intro f hf
    refine ⟨put (pyStr "fid") (.int 0) (put (pyStr "ftype") (.int 0) (put (pyStr "fname") .none f)), ?_, ?_⟩
    · unfold readLoop; rw [expect_ok hf]; rfl
    · intro n; rw [lookup_put, lookup_put, lookup_put]; rfl
  | cons w ws ih =>
    intro f hf
    unfold readLoop
    rw [expect_ok hf]
    have h1 : (branch ms w (put (pyStr "fid") (.int w.fid) (put (pyStr "ftype") (.int w.ftype) (put (pyStr "fname") .none f)))).lookup
        (pyStr "iprot") = some .iprot := by
      rw [lookup_branch, upd_other hi, lookup_put, lookup_put, lookup_put, if_neg (by decide +kernel), if_neg (by decide +kernel),
        if_neg (by decide +kernel), hf]
    obtain ⟨f', hr, hl⟩ := ih _ h1
    refine ⟨f', ?_, ?_⟩
    · show (do expect _ _ _ _; readLoop ms ws _) = _
      rw [expect_ok h1]
      exact hr
    · intro n
      rw [hl n]
      unfold after
      by_cases h1 : n = pyStr "fid"
      · rw [if_pos h1, if_pos h1]
      · by_cases h2 : n = pyStr "ftype"
        · rw [if_neg h1, if_neg h1, if_pos h2, if_pos h2]
        · by_cases h3 : n = pyStr "fname"
          · rw [if_neg h1, if_neg h1, if_neg h2, if_neg h2, if_pos h3, if_pos h3]
          · rw [if_neg h1, if_neg h1, if_neg h2, if_neg h2, if_neg h3, if_neg h3, List.foldl_cons, lookup_branch, lookup_put, lookup_put,
              lookup_put, if_neg h1, if_neg h2, if_neg h3]

theorem readLoop_error {ms : List (Mem V)} {ws : List (Wire V)} {f : Frame V} {o : Obj V} (h : f.lookup (pyStr "iprot") = some o)
    (ho : o ≠ .iprot) : readLoop ms ws f = .error .attributeError := by
  cases ws <;> (unfold readLoop; rw [expect_error h ho]; rfl)

/-- The variables before the loop -/
def start (ms : List (Mem V)) : Frame V :=
  ms.foldl (fun f m => put m.var (orNone m.dflt) f) [(pyStr "iprot", .iprot), (pyStr "cls", .cls)]

omit [DecidableEq V] in
theorem foldl_other (n : PyStr) : ∀ (ms : List (Mem V)), n ∉ ms.map Mem.var → ∀ (f : Frame V),
    (ms.foldl (fun f m => put m.var (orNone m.dflt) f) f).lookup n = f.lookup n := by
  intro ms
  induction ms with
  | nil => intro _ f; rfl
  | cons a ms ih =>
    intro hn f
    rw [List.map_cons, List.mem_cons, not_or] at hn
    rw [List.foldl_cons, ih hn.2, lookup_put, if_neg hn.1]

omit [DecidableEq V] in
theorem foldl_member : ∀ (ms : List (Mem V)), (ms.map Mem.var).Nodup → ∀ m ∈ ms, ∀ (f : Frame V),
    (ms.foldl (fun f m => put m.var (orNone m.dflt) f) f).lookup m.var = some (orNone m.dflt) := by
  intro ms
  induction ms with
  | nil => intro _ m hm; cases hm
  | cons a ms ih =>
    intro hv m hm f
    rw [List.map_cons, List.nodup_cons] at hv
    rw [List.foldl_cons]
    rcases List.mem_cons.1 hm with rfl | hm
    · rw [foldl_other _ _ hv.1, lookup_put, if_pos rfl]
    · exact ih hv.2 m hm _

omit [DecidableEq V] in
theorem fold_received (m : Mem V) : ∀ (ws : List (Wire V)) (o : Obj V),
    ws.foldl (fun o w => if w.fid = m.key ∧ w.ftype = m.ttype then some (.val w.v) else o) (some o) =
      some (match (ws.filter fun w => decide (w.fid = m.key ∧ w.ftype = m.ttype)).getLast? with
        | some w => .val w.v
        | none => o) := by
  intro ws
  induction ws with
  | nil => intro o; rfl
  | cons w ws ih =>
    intro o
    rw [List.foldl_cons]
    by_cases h : w.fid = m.key ∧ w.ftype = m.ttype
    · rw [if_pos h, ih, List.filter_cons_of_pos (by simpa using h), List.getLast?_cons]
      cases (ws.filter fun w => decide (w.fid = m.key ∧ w.ftype = m.ttype)).getLast? <;> rfl
    · rw [if_neg h, ih, List.filter_cons_of_neg (by simpa using h)]

/-- What a member is read as -/
def gets (ws : List (Wire V)) (m : Mem V) : Obj V :=
  if m.name = pyStr "fid" then .int 0 else if m.name = pyStr "ftype" then .int 0 else if m.name = pyStr "fname" then .none
  else Spec.Locals.received ws m

omit [DecidableEq V] in
theorem vars_nodup {ms : List (Mem V)} (ha : Accepted (ms.map Mem.name)) : (ms.map Mem.var).Nodup := by
  have := (List.nodup_cons.1 ha.1).2
  rwa [List.map_map] at this

omit [DecidableEq V] in
theorem var_mem {n : PyStr} (h : n ∈ own) (ms : List (Mem V)) : n ∈ ms.map Mem.var ↔ n ∈ ms.map Mem.name := by
  have := mem_escape_own h (ms.map Mem.name)
  rwa [List.map_map] at this

omit [DecidableEq V] in
theorem after_member {ms : List (Mem V)} (hk : (ms.map Mem.key).Nodup) (hv : (ms.map Mem.var).Nodup) {m : Mem V} (hm : m ∈ ms)
    (ws : List (Wire V)) : after ms ws m.var ((start ms).lookup m.var) = some (gets ws m) := by
  unfold after gets Mem.var
  simp only [escape_own (show pyStr "fid" ∈ own by decide +kernel), escape_own (show pyStr "ftype" ∈ own by decide +kernel),
    escape_own (show pyStr "fname" ∈ own by decide +kernel)]
  by_cases h1 : m.name = pyStr "fid"
  · rw [if_pos h1, if_pos h1]
  · by_cases h2 : m.name = pyStr "ftype"
    · rw [if_neg h1, if_neg h1, if_pos h2, if_pos h2]
    · by_cases h3 : m.name = pyStr "fname"
      · rw [if_neg h1, if_neg h1, if_neg h2, if_neg h2, if_pos h3, if_pos h3]
      · rw [if_neg h1, if_neg h1, if_neg h2, if_neg h2, if_neg h3, if_neg h3]
        have hs : (start ms).lookup (escape m.name) = some (orNone m.dflt) := foldl_member ms hv m hm _
        rw [hs]
        have : upd ms (escape m.name) = fun o w => if w.fid = m.key ∧ w.ftype = m.ttype then some (.val w.v) else o := by
          funext o w
          exact upd_member hk hv hm o w
        rw [this, fold_received]
        rfl

theorem read_iprot {ms : List (Mem V)} (ha : Accepted (ms.map Mem.name)) (hi : pyStr "iprot" ∈ ms.map Mem.name) (ws : List (Wire V)) :
    readImmutable ms ws = .error .attributeError := by
  unfold readImmutable
  rw [if_pos ha]
  rw [← var_mem (by decide +kernel)] at hi
  obtain ⟨m, hm, e⟩ := List.mem_map.1 hi
  have h := foldl_member ms (vars_nodup ha) m hm ([(pyStr "iprot", .iprot), (pyStr "cls", .cls)] : Frame V)
  rw [e] at h
  show (do let f ← readLoop ms ws _; _) = _
  rw [readLoop_error h (by cases m.dflt <;> simp [orNone])]
  rfl

theorem read_exact {ms : List (Mem V)} (ha : Accepted (ms.map Mem.name)) (hk : (ms.map Mem.key).Nodup)
    (hi : pyStr "iprot" ∉ ms.map Mem.name) (ws : List (Wire V)) :
    readImmutable ms ws =
      if pyStr "cls" ∈ ms.map Mem.name then .error .typeError else .ok (ms.map fun m => (m.var, gets ws m)) := by
  unfold readImmutable
  rw [if_pos ha]
  have hi' : pyStr "iprot" ∉ ms.map Mem.var := by rwa [var_mem (by decide +kernel)]
  have hs : (start ms).lookup (pyStr "iprot") = some .iprot := by
    unfold start; rw [foldl_other _ _ hi']; rfl
  obtain ⟨f', hr, hl⟩ := readLoop_ok hi' ws _ hs
  show (do let f ← readLoop ms ws (start ms); _) = _
  rw [hr]
  have h1 : f'.lookup (pyStr "iprot") = some .iprot := by
    rw [hl, hs]
    unfold after
    rw [if_neg (by decide +kernel), if_neg (by decide +kernel), if_neg (by decide +kernel)]
    have : upd ms (pyStr "iprot") = fun o _ => o := by funext o w; exact upd_other hi' o w
    rw [this]
    clear hr hl
    induction ws with
    | nil => rfl
    | cons w ws ih => exact ih
  show (do expect f' _ _ _; expect f' _ _ _; _) = _
  rw [expect_ok h1]
  show (do expect f' _ _ _; _) = _
  by_cases hc : pyStr "cls" ∈ ms.map Mem.name
  · rw [if_pos hc]
    obtain ⟨m, hm, e⟩ := List.mem_map.1 hc
    have hv : m.var = pyStr "cls" := by unfold Mem.var; rw [e]; decide +kernel
    have h2 := hl m.var
    rw [after_member hk (vars_nodup ha) hm, hv] at h2
    rw [expect_error h2 ?_]
    · rfl
    · unfold gets Spec.Locals.received
      rw [e, if_neg (by decide +kernel), if_neg (by decide +kernel), if_neg (by decide +kernel)]
      split
      · simp
      · cases m.dflt <;> simp [orNone]
  · rw [if_neg hc]
    have hc' : pyStr "cls" ∉ ms.map Mem.var := by rwa [var_mem (by decide +kernel)]
    have h2 : f'.lookup (pyStr "cls") = some .cls := by
      rw [hl, show (start ms).lookup (pyStr "cls") = some .cls by unfold start; rw [foldl_other _ _ hc']; rfl]
      unfold after
      rw [if_neg (by decide +kernel), if_neg (by decide +kernel), if_neg (by decide +kernel)]
      have : upd ms (pyStr "cls") = fun o _ => o := by funext o w; exact upd_other hc' o w
      rw [this]
      clear hr hl
      induction ws with
      | nil => rfl
      | cons w ws ih => exact ih
    rw [expect_ok h2]
    refine mapM_ok ms fun m hm => ?_
    have := hl m.var
    rw [after_member hk (vars_nodup ha) hm] at this
    rw [look_ok this]
    rfl

/-! ### Calling -/

omit [DecidableEq V] in
theorem lookup_enter_other {as : List (PyStr × Obj V)} {n : PyStr} (h : n ∉ as.map fun a => escape a.1) :
    (enter as).lookup n = if n = pyStr "self" then some .self else none := by
  unfold enter
  induction as with
  | nil =>
    show List.lookup n [(pyStr "self", Obj.self)] = _
    rw [List.lookup_cons]
    by_cases hn : n = pyStr "self"
    · subst hn; simp
    · have : (n == pyStr "self") = false := by simpa using hn
      rw [this, if_neg hn]; rfl
  | cons a as ih =>
    rw [List.map_cons, List.mem_cons, not_or] at h
    rw [List.map_cons, List.cons_append, List.lookup_cons]
    have : (n == escape a.1) = false := by simpa using h.1
    rw [this]
    exact ih h.2

omit [DecidableEq V] in
theorem lookup_enter {as : List (PyStr × Obj V)} (h : (as.map fun a => escape a.1).Nodup) {a : PyStr × Obj V} (ha : a ∈ as) :
    (enter as).lookup (escape a.1) = some a.2 := by
  unfold enter
  induction as with
  | nil => cases ha
  | cons b as ih =>
    rw [List.map_cons, List.nodup_cons] at h
    rw [List.map_cons, List.cons_append, List.lookup_cons]
    rcases List.mem_cons.1 ha with rfl | ha
    · simp
    · have : (escape a.1 == escape b.1) = false := by
        simp only [beq_eq_false_iff_ne, ne_eq]
        intro e
        exact h.1 (e ▸ List.mem_map_of_mem (f := fun a => escape a.1) ha)
      rw [this]
      exact ih h.2 ha

/-- What `send` passes on -/
def sends (k : Kind) (a : PyStr × Obj V) : Obj V :=
  if a.1 = pyStr "args" then .args else if k ≠ .blocking ∧ a.1 = pyStr "oprot" then .oprot else a.2

theorem callWrite_eq (ms : List PyStr) :
    callWrite ms = if pyStr "write" ∈ ms ∨ pyStr "validate" ∈ ms then .error .typeError else .ok () := by
  unfold callWrite method
  simp only [mem_escape_own (show pyStr "write" ∈ own by decide +kernel), mem_escape_own (show pyStr "validate" ∈ own by decide +kernel)]
  by_cases h1 : pyStr "write" ∈ ms
  · simp only [h1, true_or, if_true]; rfl
  · by_cases h2 : pyStr "validate" ∈ ms
    · simp only [h1, h2, false_or, if_true, if_false]; rfl
    · simp only [h1, h2, or_self, if_false]; rfl

theorem ok_bind {α β : Type} (a : α) (g : α → Except PyErr β) : (Except.ok a >>= g) = g a := rfl

theorem error_bind {α β : Type} (e : PyErr) (g : α → Except PyErr β) : (Except.error e >>= g) = .error e := rfl

theorem mapM_map {α β γ : Type} (l : List α) (g : α → β) (h : β → Except PyErr γ) : (l.map g).mapM h = l.mapM fun a => h (g a) := by
  induction l with
  | nil => rfl
  | cons a l ih => rw [List.map_cons, List.mapM_cons, List.mapM_cons, ih]

theorem send_exact {as : List (PyStr × Obj V)} (ha : Accepted (as.map (·.1))) (k : Kind) :
    send k as = if pyStr "write" ∈ as.map (·.1) ∨ pyStr "validate" ∈ as.map (·.1) then .error .typeError
      else .ok (as.map fun a => (escape a.1, sends k a)) := by
  have hn := List.nodup_cons.1 ha.1
  rw [List.map_map] at hn
  have hs : (enter as).lookup (pyStr "self") = some .self := by
    rw [lookup_enter_other hn.1, if_pos rfl]
  let f : Frame V := put (pyStr "args") .args (if k = .blocking then enter as else put (pyStr "oprot") .oprot (enter as))
  have hf : ∀ n, f.lookup n = if n = pyStr "args" then some .args else if k ≠ .blocking ∧ n = pyStr "oprot" then some .oprot
      else (enter as).lookup n := by
    intro n
    show (put _ _ _).lookup n = _
    rw [lookup_put]
    by_cases h1 : n = pyStr "args"
    · rw [if_pos h1, if_pos h1]
    · rw [if_neg h1, if_neg h1]
      by_cases hk : k = .blocking
      · simp [hk]
      · rw [if_neg hk, lookup_put]; simp [hk]
  have hargs : f.lookup (pyStr "args") = some .args := by rw [hf, if_pos rfl]
  have hset : setArgs f (as.map (·.1)) = .ok (as.map fun a => (escape a.1, sends k a)) := by
    unfold setArgs
    rw [mapM_map]
    refine mapM_ok as fun a ha' => ?_
    have : f.lookup (escape a.1) = some (sends k a) := by
      rw [hf]
      unfold sends
      rw [lookup_enter hn.2 ha']
      simp only [escape_own (show pyStr "args" ∈ own by decide +kernel), escape_own (show pyStr "oprot" ∈ own by decide +kernel)]
      split
      · rfl
      · split <;> rfl
    rw [look_ok this]; rfl
  show (do expect (enter as) _ _ _; let attrs ← setArgs f _; expect f _ _ _; callWrite _
           if k = Kind.blocking then expect f _ _ _ else expect f _ _ _
           pure attrs) = _
  rw [expect_ok hs, ok_bind, hset, ok_bind, expect_ok hargs, ok_bind, callWrite_eq]
  by_cases hw : pyStr "write" ∈ as.map (·.1) ∨ pyStr "validate" ∈ as.map (·.1)
  · rw [if_pos hw, if_pos hw]; rfl
  · rw [if_neg hw, if_neg hw, ok_bind]
    by_cases hk : k = .blocking
    · have : f.lookup (pyStr "self") = some .self := by
        rw [hf, if_neg (by decide +kernel), if_neg (by simp [hk]), hs]
      simp only [if_pos hk, expect_ok this]; rfl
    · have : f.lookup (pyStr "oprot") = some .oprot := by
        rw [hf, if_neg (by decide +kernel), if_pos ⟨hk, rfl⟩]
      simp only [if_neg hk, expect_ok this]; rfl

/-- What a client method passes to `send` -/
def passes (k : Kind) (oneway : Bool) (n : Int) (a : PyStr × V) : Obj V :=
  match k with
  | .blocking => .val a.2
  | .twisted => if a.1 = pyStr "seqid" then .int n else .val a.2
  | .tornado => if oneway = false ∧ a.1 = pyStr "future" then .future else .val a.2

theorem call_exact {as : List (PyStr × V)} (ha : Accepted (as.map (·.1))) (k : Kind) (oneway : Bool) (n : Int) :
    call k oneway n as = if pyStr "write" ∈ as.map (·.1) ∨ pyStr "validate" ∈ as.map (·.1) then .error .typeError
      else .ok (as.map fun a => (escape a.1, sends k (a.1, passes k oneway n a))) := by
  have hn := List.nodup_cons.1 ha.1
  rw [List.map_map] at hn
  have hn1 : pyStr "self" ∉ (as.map fun a => (a.1, Obj.val a.2)).map fun a => escape a.1 := by rw [List.map_map]; exact hn.1
  have hn2 : ((as.map fun a => (a.1, Obj.val a.2)).map fun a => escape a.1).Nodup := by rw [List.map_map]; exact hn.2
  have hs : (enter (as.map fun a => (a.1, Obj.val a.2))).lookup (pyStr "self") = some .self := by
    rw [lookup_enter_other hn1, if_pos rfl]
  have he : ∀ a ∈ as, (enter (as.map fun a => (a.1, Obj.val a.2))).lookup (escape a.1) = some (.val a.2) := fun a h =>
    lookup_enter (a := (a.1, Obj.val a.2)) hn2 (List.mem_map_of_mem (f := fun a => (a.1, Obj.val a.2)) h)
  unfold call
  rw [if_pos ha]
  show (do expect (enter _) _ _ _; _) = _
  rw [expect_ok hs]
  show (do let bs ← as.mapM _; send k bs) = _
  rw [mapM_ok (g' := fun a => (a.1, passes k oneway n a)) as ?_]
  · show send k (as.map _) = _
    have hm : (as.map fun a => (a.1, passes k oneway n a)).map (·.1) = as.map (·.1) := by rw [List.map_map]; rfl
    rw [send_exact (by rw [hm]; exact ha), hm, List.map_map]
    rfl
  · intro a h
    unfold passes
    cases k with
    | blocking =>
      show (do let x ← look _ _; pure (a.1, x)) = _
      rw [look_ok (he a h)]; rfl
    | twisted =>
      show (do let x ← look _ _; pure (a.1, x)) = _
      rw [look_ok (o := if a.1 = pyStr "seqid" then .int n else .val a.2) ?_]
      · rfl
      · rw [lookup_put]
        simp only [escape_own (show pyStr "seqid" ∈ own by decide +kernel), he a h]
        split <;> rfl
    | tornado =>
      show (do let x ← look (if oneway then _ else _) _; pure (a.1, x)) = _
      rw [look_ok (o := if oneway = false ∧ a.1 = pyStr "future" then .future else .val a.2) ?_]
      · rfl
      · cases oneway with
        | true => simpa using he a h
        | false =>
          simp only [Bool.false_eq_true, if_false, true_and]
          rw [lookup_put]
          simp only [escape_own (show pyStr "future" ∈ own by decide +kernel), he a h]
          split <;> rfl

/-! ### Processing -/

theorem foldl_append : ∀ (l acc : List (PyStr × Int)), (l.map (·.1)).Nodup → (l.map (·.2)).Nodup → (∀ a ∈ acc, ∀ m ∈ l, a.2 ≠ m.2) →
    l.foldl append acc = acc ++ l.filter fun m => decide (m.1 ∉ acc.map (·.1)) := by
  intro l
  induction l with
  | nil => intro acc _ _ _; simp
  | cons m l ih =>
    intro acc h1 h2 h3
    rw [List.map_cons, List.nodup_cons] at h1 h2
    rw [List.foldl_cons]
    by_cases hm : m.1 ∈ acc.map (·.1)
    · have : append acc m = acc := by
        unfold append
        obtain ⟨a, ha, e⟩ := List.mem_map.1 hm
        rw [if_pos (List.any_eq_true.2 ⟨a, ha, by simp [e]⟩)]
      rw [this, ih acc h1.2 h2.2 fun a ha n hn => h3 a ha n (by simp [hn]), List.filter_cons_of_neg (by simpa using hm)]
    · have : append acc m = acc ++ [m] := by
        unfold append
        rw [if_neg]
        intro h
        obtain ⟨a, ha, e⟩ := List.any_eq_true.1 h
        simp only [decide_eq_true_eq] at e
        rcases e with e | e
        · exact h3 a ha m (by simp) e
        · exact hm (e ▸ List.mem_map_of_mem ha)
      rw [this, ih _ h1.2 h2.2, List.filter_cons_of_pos (by simpa using hm), List.append_assoc]
      · congr 1
        show m :: _ = m :: _
        congr 1
        refine List.filter_congr fun n hn => ?_
        have : n.1 ≠ m.1 := fun e => h1.1 (e ▸ List.mem_map_of_mem (f := (·.1)) hn)
        simp [this]
      · intro a ha n hn
        rcases List.mem_append.1 ha with ha | ha
        · exact h3 a ha n (by simp [hn])
        · rw [List.mem_singleton] at ha
          subst ha
          exact fun e => h2.1 (e ▸ List.mem_map_of_mem (f := (·.2)) hn)

/-- The declared exceptions have different names and keys, as the compiler requires, and no key is that of the result. -/
def Declared (s : Sig) : Prop := (s.throws.map (·.1)).Nodup ∧ (s.throws.map (·.2)).Nodup ∧ (0 : Int) ∉ s.throws.map (·.2)

theorem members_void {s : Sig} (h : Declared s) (hv : s.void = true) : s.members = s.throws := by
  unfold Sig.members
  rw [if_pos hv, foldl_append _ _ h.1 h.2.1 (by simp)]
  simp

theorem members_result {s : Sig} (h : Declared s) (hv : s.void = false) :
    s.members = (pyStr "success", 0) :: s.throws.filter fun m => decide (m.1 ≠ pyStr "success") := by
  unfold Sig.members
  rw [hv, if_neg (by simp), foldl_append _ _ h.1 h.2.1 ?_]
  · simp
  · intro a ha m hm e
    rw [List.mem_singleton] at ha
    subst ha
    exact h.2.2 (List.mem_map.2 ⟨m, hm, e.symm⟩)

theorem mem_members {s : Sig} (h : Declared s) {n : PyStr} (hn : n ≠ pyStr "success") :
    n ∈ s.members.map (·.1) ↔ n ∈ s.throws.map (·.1) := by
  cases hv : s.void with
  | true => rw [members_void h hv]
  | false =>
    rw [members_result h hv, List.map_cons, List.mem_cons]
    constructor
    · rintro (e | hm)
      · exact absurd e hn
      · obtain ⟨m, hm, e⟩ := List.mem_map.1 hm
        exact List.mem_map.2 ⟨m, (List.mem_filter.1 hm).1, e⟩
    · intro hm
      obtain ⟨m, hm, e⟩ := List.mem_map.1 hm
      exact .inr (List.mem_map.2 ⟨m, List.mem_filter.2 ⟨hm, by simpa [e] using hn⟩, e⟩)

theorem accepted_members {s : Sig} (h : Declared s) (ha : Accepted (s.throws.map (·.1))) : Accepted (s.members.map (·.1)) := by
  cases hv : s.void with
  | true => rwa [members_void h hv]
  | false =>
    rw [members_result h hv]
    have hsub : ((s.throws.filter fun m => decide (m.1 ≠ pyStr "success")).map (·.1)).Sublist (s.throws.map (·.1)) :=
      List.filter_sublist.map _
    have hn := List.nodup_cons.1 ha.1
    refine ⟨?_, ?_⟩
    · rw [List.map_cons, List.map_cons, List.nodup_cons, List.nodup_cons]
      refine ⟨?_, ?_, hn.2.sublist (hsub.map _)⟩
      · rw [List.mem_cons, not_or]
        refine ⟨by decide +kernel, fun hm => hn.1 ((hsub.map _).subset hm)⟩
      · rw [show escape (pyStr "success") = pyStr "success" by decide +kernel, mem_escape_own (by decide +kernel)]
        intro hm
        obtain ⟨m, hm, e⟩ := List.mem_map.1 hm
        have := (List.mem_filter.1 hm).2
        simp [e] at this
    · intro n hn'
      rw [List.map_cons, List.mem_cons] at hn'
      rcases hn' with rfl | hn'
      · show escape (pyStr "success") ∉ Spec.Names.reserved
        decide +kernel
      · exact ha.2 n (hsub.subset hn')

omit [DecidableEq V] in
theorem written_one {ms : List (PyStr × Int)} (h : (ms.map fun m => escape m.1).Nodup) {m : PyStr × Int} (hm : m ∈ ms) (o : Obj V) :
    written ms [(escape m.1, o)] = [(m.2, o)] := by
  unfold written
  have hl : ∀ n : PyStr, List.lookup n [(escape m.1, o)] = if n = escape m.1 then some o else none := by
    intro n
    rw [List.lookup_cons]
    by_cases e : n = escape m.1
    · subst e; simp
    · have : (n == escape m.1) = false := by simpa using e
      rw [this, if_neg e]; rfl
  simp only [hl]
  have hnone : ∀ l : List (PyStr × Int), escape m.1 ∉ l.map (fun m => escape m.1) →
      (l.filterMap fun a => (if escape a.1 = escape m.1 then some o else none).map fun o => (a.2, o)) = [] := by
    intro l hl'
    rw [List.filterMap_eq_nil_iff]
    intro a ha
    have : escape a.1 ≠ escape m.1 := fun e => hl' (e ▸ List.mem_map_of_mem (f := fun m => escape m.1) ha)
    simp [this]
  induction ms with
  | nil => cases hm
  | cons a ms ih =>
    rw [List.map_cons, List.nodup_cons] at h
    rcases List.mem_cons.1 hm with rfl | hm
    · rw [List.filterMap_cons_some (b := (m.2, o)) (by simp), hnone ms h.1]
    · rw [List.filterMap_cons_none]
      · exact ih h.2 hm
      · have : escape a.1 ≠ escape m.1 := fun e => h.1 (e ▸ List.mem_map_of_mem (f := fun m => escape m.1) hm)
        simp [this]

theorem answer_exact {s : Sig} {f : Frame V} {attrs : List (PyStr × Obj V)} {t q : Obj V} (h1 : f.lookup (pyStr "oprot") = some .oprot)
    (h2 : f.lookup (pyStr "msg_type") = some t) (h3 : f.lookup (pyStr "seqid") = some q)
    (h4 : f.lookup (pyStr "result") = some .result) :
    answer s f attrs = if pyStr "write" ∈ s.members.map (·.1) ∨ pyStr "validate" ∈ s.members.map (·.1) then .error .typeError
      else .ok ⟨t, q, written s.members attrs⟩ := by
  unfold answer
  rw [expect_ok h1, ok_bind, look_ok h2, ok_bind, look_ok h3, ok_bind, expect_ok h4, ok_bind, callWrite_eq]
  split <;> rfl

theorem answer_unbound {s : Sig} {f : Frame V} {attrs : List (PyStr × Obj V)}
    (h0 : f.lookup (pyStr "oprot") = some .oprot ∨ f.lookup (pyStr "oprot") = none)
    (h : f.lookup (pyStr "oprot") = none ∨ f.lookup (pyStr "msg_type") = none ∨ f.lookup (pyStr "seqid") = none) :
    answer s f attrs = .error .unboundLocal := by
  unfold answer
  rcases h0 with h0 | h0
  · rw [expect_ok h0, ok_bind]
    rcases h with h | h | h
    · rw [h] at h0; cases h0
    · rw [look_error h, error_bind]
    · cases h2 : f.lookup (pyStr "msg_type") with
      | none => rw [look_error h2, error_bind]
      | some t => rw [look_ok h2, ok_bind, look_error h, error_bind]
  · rw [expect_unbound h0, error_bind]

/-- The variables of `process_f`, and of `write_results_exception_f` -/
def processFrame (k : Kind) (seqid : Int) : Frame V :=
  match k with
  | .twisted =>
    [(pyStr "msg_type", .int 2), (pyStr "oprot", .oprot), (pyStr "seqid", .int seqid), (pyStr "result", .result), (pyStr "error", .error),
      (pyStr "self", .self)]
  | .tornado =>
    [(pyStr "msg_type", .int 2), (pyStr "result", .result), (pyStr "args", .args), (pyStr "oprot", .oprot), (pyStr "iprot", .iprot),
      (pyStr "seqid", .int seqid), (pyStr "self", .self)]
  | .blocking =>
    [(pyStr "result", .result), (pyStr "args", .args), (pyStr "oprot", .oprot), (pyStr "iprot", .iprot),
      (pyStr "seqid", .int seqid), (pyStr "self", .self)]

omit [DecidableEq V] in
theorem processFrame_lookup (k : Kind) (seqid : Int) :
    (processFrame (V := V) k seqid).lookup (pyStr "oprot") = some .oprot ∧ (processFrame (V := V) k seqid).lookup (pyStr "seqid") = some (.int seqid) ∧
    (processFrame (V := V) k seqid).lookup (pyStr "result") = some .result ∧
    (k ≠ .blocking → (processFrame (V := V) k seqid).lookup (pyStr "msg_type") = some (.int 2)) := by
  cases k <;> exact ⟨rfl, rfl, rfl, fun h => by first | rfl | exact absurd rfl h⟩

/-- The key under which the exception is written -/
def keyOf (s : Sig) (x : PyStr × Int) : Int := if s.void = false ∧ x.1 = pyStr "success" then 0 else x.2

theorem process_exact {s : Sig} (hd : Declared s) (hp : Accepted s.params) (ha : Accepted (s.throws.map (·.1))) (k : Kind) (q : Int)
    {x : PyStr × Int} (hx : x ∈ s.throws) (e : V) :
    processRaises k s q x.1 e =
      if pyStr "read" ∈ s.params then .error .typeError
      else if x.1 = pyStr "result" then .error .typeError
      else if x.1 = pyStr "oprot" ∨ x.1 = pyStr "msg_type" ∨ x.1 = pyStr "seqid" then .error .unboundLocal
      else if pyStr "write" ∈ s.throws.map (·.1) ∨ pyStr "validate" ∈ s.throws.map (·.1) then .error .typeError
      else .ok ⟨.int 2, .int q, [(keyOf s x, .val e)]⟩ := by
  have hm := accepted_members hd ha
  have hxr : escape x.1 ∉ Spec.Names.reserved := ha.2 _ (List.mem_map_of_mem (f := (·.1)) hx)
  obtain ⟨l1, l2, l3, l4⟩ := processFrame_lookup (V := V) k q
  let f : Frame V := if k = .blocking then put (pyStr "msg_type") (.int 2) (put (escape x.1) (.val e) (processFrame k q))
    else put (escape x.1) (.val e) (processFrame k q)
  have hf : ∀ n, n ≠ pyStr "msg_type" → f.lookup n = if n = escape x.1 then some (.val e) else (processFrame k q).lookup n := by
    intro n hn
    show (if k = .blocking then _ else _ : Frame V).lookup n = _
    by_cases hk : k = .blocking
    · rw [if_pos hk, lookup_put, if_neg hn, lookup_put]
    · rw [if_neg hk, lookup_put]
  have hmsg : pyStr "msg_type" ≠ escape x.1 → f.lookup (pyStr "msg_type") = some (.int 2) := by
    intro hn
    show (if k = .blocking then _ else _ : Frame V).lookup _ = _
    by_cases hk : k = .blocking
    · rw [if_pos hk, lookup_put, if_pos rfl]
    · rw [if_neg hk, lookup_put, if_neg hn, l4 hk]
  have hself : ∃ a, f.lookup (escape x.1) = some a ∧ (x.1 ≠ pyStr "msg_type" → a = .val e) := by
    by_cases hn : escape x.1 = pyStr "msg_type"
    · have h' := (escape_own (by decide +kernel) x.1).1 hn
      show ∃ a, (if k = .blocking then _ else _ : Frame V).lookup _ = _ ∧ _
      by_cases hk : k = .blocking
      · exact ⟨.int 2, by rw [if_pos hk, lookup_put, if_pos hn], fun h => absurd h' h⟩
      · exact ⟨.val e, by rw [if_neg hk, lookup_put, if_pos rfl], fun h => absurd h' h⟩
    · exact ⟨.val e, by rw [hf _ hn, if_pos rfl], fun _ => rfl⟩
  obtain ⟨a, hself, haval⟩ := hself
  have own_ne : ∀ n ∈ own, n = escape x.1 ↔ x.1 = n := fun n hn => by rw [eq_comm]; exact escape_own hn x.1
  have run : processRaises k s q x.1 e = (do
      method s.params "read"
      let a ← look f (escape x.1)
      expect f (pyStr "result") .result .typeError
      answer s (del (escape x.1) f) [(escape x.1, a)]) := by
    unfold processRaises
    rw [if_pos ⟨hp, hm, hxr⟩]
    cases k <;> rfl
  rw [run]
  unfold method
  simp only [mem_escape_own (show pyStr "read" ∈ own by decide +kernel)]
  by_cases hr : pyStr "read" ∈ s.params
  · rw [if_pos hr, if_pos hr]; rfl
  rw [if_neg hr, if_neg hr]
  show (do let a ← look f (escape x.1); _) = _
  rw [look_ok hself, ok_bind]
  by_cases h1 : x.1 = pyStr "result"
  · rw [if_pos h1, expect_error (p := .val e) ?_ (by simp)]
    · rfl
    · rw [hf _ (by decide +kernel), if_pos ((own_ne _ (by decide +kernel)).2 h1)]
  have hres : f.lookup (pyStr "result") = some .result := by
    rw [hf _ (by decide +kernel), if_neg (fun h => h1 ((own_ne _ (by decide +kernel)).1 h)), l3]
  rw [if_neg h1, expect_ok hres, ok_bind]
  have hdel : ∀ n, (del (escape x.1) f).lookup n = if n = escape x.1 then none else f.lookup n := fun n => lookup_del _ _ _
  by_cases h2 : x.1 = pyStr "oprot" ∨ x.1 = pyStr "msg_type" ∨ x.1 = pyStr "seqid"
  · rw [if_pos h2]
    apply answer_unbound
    · rw [hdel]
      by_cases ho : pyStr "oprot" = escape x.1
      · rw [if_pos ho]; exact .inr rfl
      · rw [if_neg ho, hf _ (by decide +kernel), if_neg ho, l1]; exact .inl rfl
    · simp only [hdel]
      rcases h2 with h | h | h
      · exact .inl (by rw [if_pos ((own_ne _ (by decide +kernel)).2 h)])
      · exact .inr (.inl (by rw [if_pos ((own_ne _ (by decide +kernel)).2 h)]))
      · exact .inr (.inr (by rw [if_pos ((own_ne _ (by decide +kernel)).2 h)]))
  · rw [if_neg h2]
    simp only [not_or] at h2
    have n1 : pyStr "oprot" ≠ escape x.1 := fun h => h2.1 ((own_ne _ (by decide +kernel)).1 h)
    have n2 : pyStr "msg_type" ≠ escape x.1 := fun h => h2.2.1 ((own_ne _ (by decide +kernel)).1 h)
    have n3 : pyStr "seqid" ≠ escape x.1 := fun h => h2.2.2 ((own_ne _ (by decide +kernel)).1 h)
    have n4 : pyStr "result" ≠ escape x.1 := fun h => h1 ((own_ne _ (by decide +kernel)).1 h)
    rw [answer_exact (t := .int 2) (q := .int q) (by rw [hdel, if_neg n1, hf _ (by decide +kernel), if_neg n1, l1])
      (by rw [hdel, if_neg n2, hmsg n2]) (by rw [hdel, if_neg n3, hf _ (by decide +kernel), if_neg n3, l2])
      (by rw [hdel, if_neg n4, hres])]
    simp only [mem_members hd (show pyStr "write" ≠ pyStr "success" by decide +kernel),
      mem_members hd (show pyStr "validate" ≠ pyStr "success" by decide +kernel)]
    have hw : written s.members [(escape x.1, a)] = [(keyOf s x, .val e)] := by
      rw [haval h2.2.1]
      have hn := (List.nodup_cons.1 hm.1).2
      rw [List.map_map] at hn
      unfold keyOf
      by_cases hs : s.void = false ∧ x.1 = pyStr "success"
      · rw [if_pos hs, hs.2]
        exact written_one (m := (pyStr "success", 0)) hn (by rw [members_result hd hs.1]; simp) _
      · rw [if_neg hs]
        refine written_one (m := x) hn ?_ _
        cases hv : s.void with
        | true => rw [members_void hd hv]; exact hx
        | false =>
          rw [members_result hd hv]
          exact List.mem_cons_of_mem _ (List.mem_filter.2 ⟨hx, by simpa [hv] using hs⟩)
    rw [hw]

end Thrift.Locals
