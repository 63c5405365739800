import Verif.Spec.Http
import Verif.Props.Transport
import Mathlib.Data.List.Forall2
/-
C45: `THttpClient`.
-/

namespace Thrift.Http
open Spec Spec.Http
variable {ρ : Type}

/-! ## Requests -/

theorem heads_append (l l' : List Act) : heads (l ++ l') = heads l ++ heads l' := by
  induction l with
  | nil => rfl
  | cons a l ih => cases a <;> simp [heads, ih]

theorem bodies_append (l l' : List Act) : bodies (l ++ l') = bodies l ++ bodies l' := by
  induction l with
  | nil => rfl
  | cons a l ih => cases a <;> simp [bodies, ih]

theorem created_append (l l' : List Act) : created (l ++ l') = created l ++ created l' := by
  induction l with
  | nil => rfl
  | cons a l ih => cases a <;> simp [created, ih]

theorem valuesOf_append (n : String) (l l' : List Header) :
    valuesOf n (l ++ l') = valuesOf n l ++ valuesOf n l' := by simp [valuesOf]

theorem valuesOf_nil (n : String) : valuesOf n [] = [] := rfl

theorem getHeader_values (n : String) (l : List Header) : getHeader n l = (valuesOf n l).head? := by
  induction l with
  | nil => rfl
  | cons h l ih =>
    simp only [getHeader, valuesOf, List.filter_cons, ← lower.eq_1] at ih ⊢
    by_cases hk : lower h.1 = lower n
    · simp [hk]
    · simp only [hk, if_false, decide_false, Bool.false_eq_true]
      exact ih

/-- The fields that `flush` sends and that have one of the names this property is about. -/
theorem fields_length (cfg : Cfg) (s : St ρ) (data : Bytes) :
    valuesOf "Content-Length" (fields cfg s data) =
      toString data.length :: valuesOf "Content-Length" (s.custom.getD []) := by
  have e1 : ∀ v, valuesOf "Content-Length" [("Content-Type", v)] = [] := by
    intro v; simp [valuesOf]
  have e2 : ∀ v, valuesOf "Content-Length" [("Content-Length", v)] = [v] := by intro v; simp [valuesOf]
  have e3 : ∀ v, valuesOf "Content-Length" [("Proxy-Authorization", v)] = [] := by
    intro v; simp [valuesOf]
  have e4 : ∀ v, valuesOf "Content-Length" [("User-Agent", v)] = [] := by
    intro v; simp [valuesOf]
  have e5 : ∀ v, valuesOf "Content-Length" [("Cookie", v)] = [] := by
    intro v; simp [valuesOf]
  have e0 : valuesOf "Content-Length" [("Content-Type", "application/x-thrift"), ("Content-Length", toString data.length)] =
      [toString data.length] := by
    rw [show [("Content-Type", "application/x-thrift"), ("Content-Length", toString data.length)] =
      [("Content-Type", "application/x-thrift")] ++ [("Content-Length", toString data.length)] from rfl, valuesOf_append, e1, e2]
    rfl
  unfold fields
  dsimp only
  repeat' split
  all_goals simp only [valuesOf_append, e0, e3, e4, e5, List.append_nil]
  all_goals rfl

theorem fields_cookie (cfg : Cfg) (s : St ρ) (data : Bytes) :
    valuesOf "Cookie" (fields cfg s data) =
      valuesOf "Cookie" (s.custom.getD []) ++ (valuesOf "Set-Cookie" (s.headers.getD [])).take 1 := by
  have e1 : ∀ v, valuesOf "Cookie" [("Content-Type", v)] = [] := by
    intro v; simp [valuesOf]
  have e2 : ∀ v, valuesOf "Cookie" [("Content-Length", v)] = [] := by
    intro v; simp [valuesOf]
  have e3 : ∀ v, valuesOf "Cookie" [("Proxy-Authorization", v)] = [] := by
    intro v; simp [valuesOf]
  have e4 : ∀ v, valuesOf "Cookie" [("User-Agent", v)] = [] := by
    intro v; simp [valuesOf]
  have e5 : ∀ v, valuesOf "Cookie" [("Cookie", v)] = [v] := by intro v; simp [valuesOf]
  have e0 : valuesOf "Cookie" [("Content-Type", "application/x-thrift"), ("Content-Length", toString data.length)] = [] := by
    rw [show [("Content-Type", "application/x-thrift"), ("Content-Length", toString data.length)] =
      [("Content-Type", "application/x-thrift")] ++ [("Content-Length", toString data.length)] from rfl, valuesOf_append, e1, e2]
    rfl
  unfold fields
  dsimp only
  rw [getHeader_values]
  cases hv : valuesOf "Set-Cookie" (s.headers.getD []) with
  | nil =>
    simp only [List.head?_nil, List.take_nil, List.append_nil]
    repeat' split
    all_goals simp only [valuesOf_append, e0, e3, e4, List.nil_append]
  | cons v l =>
    simp only [List.head?_cons, List.take_succ_cons, List.take_zero]
    repeat' split
    all_goals simp only [valuesOf_append, e0, e3, e4, e5, List.nil_append]

/-- What a flush does, in one equation per attribute. -/
structure Flushed (cfg : Cfg) (f : Fate ρ) (s s' : St ρ) : Prop where
  wbuf : s'.wbuf = BytesIO.of []
  http : s'.http = some s.next
  next : s'.next = s.next + 1
  custom : s'.custom = s.custom
  response : s'.response = match f with
    | .answered r => some r.body
    | _ => if s.http = none then s.response else none
  headers : s'.headers = match f with
    | .answered r => some r.msg
    | _ => s.headers
  log : ∃ h, s'.log = s.log ++ (s.http.toList.map .close ++ [.create s.next]) ++
    ((if reachesHead f then [.head s.next (target cfg) h] else []) ++
      (if reachesBody f then [.body s.next s.wbuf.value] else [])) ∧
    (reachesHead f = true → valuesOf "Content-Length" h = toString s.wbuf.value.length :: valuesOf "Content-Length" (s.custom.getD []) ∧
      valuesOf "Cookie" h = valuesOf "Cookie" (s.custom.getD []) ++ (valuesOf "Set-Cookie" (s.headers.getD [])).take 1)

theorem flush_spec (cfg : Cfg) (f : Fate ρ) (s : St ρ) : Flushed cfg f s (flush cfg f s).2 := by
  cases hh : s.http with
  | none =>
    cases f <;>
      refine ⟨?_, ?_, ?_, ?_, ?_, ?_, ⟨fields cfg (open_ s) s.wbuf.value, ?_, fun _ => ⟨?_, ?_⟩⟩⟩ <;>
      first
        | (simp [flush, isOpen, open_, hh, reachesHead, reachesBody, fields]; done)
        | (rw [fields_length]; rfl)
        | (rw [fields_cookie]; rfl)
  | some c =>
    cases f <;>
      refine ⟨?_, ?_, ?_, ?_, ?_, ?_, ⟨fields cfg (open_ s) s.wbuf.value, ?_, fun _ => ⟨?_, ?_⟩⟩⟩ <;>
      first
        | (simp [flush, isOpen, open_, close, hh, reachesHead, reachesBody, fields]; done)
        | (rw [fields_length]; rfl)
        | (rw [fields_cookie]; rfl)

theorem heads_flush {cfg : Cfg} {f : Fate ρ} {s s' : St ρ} (h : Flushed cfg f s s') :
    ∃ hd, (reachesHead f = true → valuesOf "Content-Length" hd = toString s.wbuf.value.length :: valuesOf "Content-Length" (s.custom.getD []) ∧
      valuesOf "Cookie" hd = valuesOf "Cookie" (s.custom.getD []) ++ (valuesOf "Set-Cookie" (s.headers.getD [])).take 1) ∧
    heads s'.log = heads s.log ++ (if reachesHead f then [(s.next, target cfg, hd)] else []) ∧
    bodies s'.log = bodies s.log ++ (if reachesBody f then [s.wbuf.value] else []) := by
  obtain ⟨hd, hl, hv⟩ := h.log
  refine ⟨hd, hv, ?_, ?_⟩
  · rw [hl]
    simp only [heads_append]
    have : heads (s.http.toList.map Act.close) = [] := by cases s.http <;> rfl
    rw [this]
    cases f <;> simp [reachesHead, reachesBody, heads]
  · rw [hl]
    simp only [bodies_append]
    have : bodies (s.http.toList.map Act.close) = [] := by cases s.http <;> rfl
    rw [this]
    cases f <;> simp [reachesHead, reachesBody, bodies]

/-- What a call other than `flush` adds to the buffer. -/
def added : Op ρ → Bytes
  | .write (.bytes b) => b
  | _ => []

/-- The custom fields after a call. -/
def customAfter (c : Option (List Header)) : Op ρ → Option (List Header)
  | .setCustomHeaders h => h
  | _ => c

theorem BytesIO_write_nil (w : BytesIO) : w.write [] = w := by simp [BytesIO.write]

/-- Calls other than `flush` send nothing. -/
theorem call_quiet {cfg : Cfg} {step : Nat → ρ → Option (Except Exc Bytes × ρ)} {op : Op ρ} {s s' : St ρ} {r : Ret}
    (h : call cfg step op s = some (r, s')) (hop : ∀ f, op ≠ .flush f) :
    heads s'.log = heads s.log ∧ bodies s'.log = bodies s.log ∧ s'.headers = s.headers ∧
    s'.wbuf = s.wbuf.write (added op) ∧ s'.custom = customAfter s.custom op := by
  cases op with
  | flush f => exact absurd rfl (hop f)
  | write b => cases b <;> (simp only [call, write, Option.some.injEq, Prod.mk.injEq] at h; obtain ⟨-, rfl⟩ := h; exact ⟨rfl, rfl, rfl, by simp [added, BytesIO_write_nil], rfl⟩)
  | read n =>
    simp only [call, read] at h
    cases hr : s.response with
    | none =>
      rw [hr] at h
      simp only [Option.map_some, Option.some.injEq, Prod.mk.injEq] at h
      obtain ⟨-, rfl⟩ := h
      exact ⟨rfl, rfl, rfl, by simp [added, BytesIO_write_nil], rfl⟩
    | some b =>
      rw [hr] at h
      simp only at h
      cases hs : step n b with
      | none => rw [hs] at h; simp at h
      | some x =>
        rw [hs] at h
        simp only [Option.map_some, Option.some.injEq, Prod.mk.injEq] at h
        obtain ⟨-, rfl⟩ := h
        exact ⟨rfl, rfl, rfl, by simp [added, BytesIO_write_nil], rfl⟩
  | close =>
    simp only [call, close] at h
    cases hh : s.http <;>
      (rw [hh] at h; simp only [Option.some.injEq, Prod.mk.injEq] at h; obtain ⟨-, rfl⟩ := h
       simp [heads_append, bodies_append, heads, bodies, added, customAfter, BytesIO_write_nil])
  | open_ =>
    simp only [call, open_, Option.some.injEq, Prod.mk.injEq] at h
    obtain ⟨-, rfl⟩ := h
    simp [heads_append, bodies_append, heads, bodies, added, customAfter, BytesIO_write_nil]
  | setCustomHeaders x =>
    simp only [call, Option.some.injEq, Prod.mk.injEq] at h
    obtain ⟨-, rfl⟩ := h
    exact ⟨rfl, rfl, rfl, by simp [added, BytesIO_write_nil], rfl⟩

theorem run_cons {cfg : Cfg} {step : Nat → ρ → Option (Except Exc Bytes × ρ)} {op : Op ρ} {ops : List (Op ρ)}
    {s s' : St ρ} {rs : List Ret} (h : run cfg step (op :: ops) s = some (rs, s')) :
    ∃ r s₁ rs', call cfg step op s = some (r, s₁) ∧ run cfg step ops s₁ = some (rs', s') ∧ rs = r :: rs' := by
  unfold run at h
  cases hc : call cfg step op s with
  | none => rw [hc] at h; simp at h
  | some x =>
    obtain ⟨r, s₁⟩ := x
    rw [hc] at h
    simp only [Option.map_eq_some_iff, Prod.mk.injEq] at h
    obtain ⟨⟨rs', s''⟩, h1, h2, h3⟩ := h
    exact ⟨r, s₁, rs', rfl, by rw [h1]; simp_all, h2.symm⟩

theorem flushes_quiet {op : Op ρ} (hop : ∀ f, op ≠ .flush f) (p : Bytes) (ops : List (Op ρ)) :
    flushes p (op :: ops) = flushes (p ++ added op) ops := by
  cases op with
  | flush f => exact absurd rfl (hop f)
  | write b => cases b <;> simp [flushes, added]
  | _ => simp [flushes, added]

theorem wbuf_quiet {op : Op ρ} {w w' : BytesIO} (hp : w.pos = w.value.length)
    (h : w' = w.write (added op)) :
    w'.pos = w'.value.length ∧ w'.value = w.value ++ added op := by
  subst h
  exact ⟨(BytesIO.write_end w _ hp).2.1, (BytesIO.write_end w _ hp).1⟩

/-- The last answer after a flush. -/
def answerAfter (a : Option (Response ρ)) : Fate ρ → Option (Response ρ)
  | .answered r => some r
  | _ => a

theorem bodies_run (cfg : Cfg) (step : Nat → ρ → Option (Except Exc Bytes × ρ)) (ops : List (Op ρ)) :
    ∀ (s s' : St ρ) (rs : List Ret), s.wbuf.pos = s.wbuf.value.length → run cfg step ops s = some (rs, s') →
      bodies s'.log = bodies s.log ++ ((flushes s.wbuf.value ops).filter fun x => reachesBody x.2).map (·.1) := by
  induction ops with
  | nil =>
    intro s s' rs hp h
    simp only [run, Option.some.injEq, Prod.mk.injEq] at h
    obtain ⟨-, rfl⟩ := h
    simp [flushes]
  | cons op ops ih =>
    intro s s' rs hp h
    obtain ⟨r, s₁, rs', h1, h2, -⟩ := run_cons h
    by_cases hop : ∃ f, op = .flush f
    · obtain ⟨f, rfl⟩ := hop
      simp only [call, Option.some.injEq, Prod.mk.injEq] at h1
      obtain ⟨-, rfl⟩ := h1
      have hf := flush_spec cfg f s
      obtain ⟨hd, -, -, hb⟩ := heads_flush hf
      rw [ih _ _ _ (by rw [hf.wbuf]; rfl) h2, hb, hf.wbuf]
      simp only [flushes, List.filter_cons, BytesIO.of]
      cases reachesBody f <;> simp
    · have hop' : ∀ f, op ≠ .flush f := fun f e => hop ⟨f, e⟩
      obtain ⟨-, hb, -, hw, -⟩ := call_quiet h1 hop'
      obtain ⟨hp', hv⟩ := wbuf_quiet hp hw
      rw [ih _ _ _ hp' h2, hb, hv, flushes_quiet hop']

/-- C45: whatever is done with a `THttpClient`, the bodies sent are exactly what was written between
the flushes: one body per flush whose request reached the peer's connection, in order, holding the
bytes written since the flush before it. What was written for a flush that failed is not sent again
by a later one. -/
theorem http_bodies (cfg : Cfg) (step : Nat → ρ → Option (Except Exc Bytes × ρ)) (ops : List (Op ρ))
    {rs : List Ret} {s : St ρ} (h : run cfg step ops {} = some (rs, s)) :
    bodies s.log = ((flushes [] ops).filter fun x => reachesBody x.2).map (·.1) := by
  simpa [bodies, BytesIO.of] using bodies_run cfg step ops {} s rs rfl h

theorem heads_run (cfg : Cfg) (step : Nat → ρ → Option (Except Exc Bytes × ρ)) (ops : List (Op ρ)) :
    ∀ (s s' : St ρ) (rs : List Ret), s.wbuf.pos = s.wbuf.value.length → run cfg step ops s = some (rs, s') →
      valuesOf "Content-Length" (s.custom.getD []) = [] → NoCustom "Content-Length" ops →
      ∃ new, heads s'.log = heads s.log ++ new ∧
        List.Forall₂ (fun hd x => hd.2.1 = target cfg ∧ valuesOf "Content-Length" hd.2.2 = [toString x.1.length])
          new ((flushes s.wbuf.value ops).filter fun x => reachesHead x.2) := by
  induction ops with
  | nil =>
    intro s s' rs hp h hc hn
    simp only [run, Option.some.injEq, Prod.mk.injEq] at h
    obtain ⟨-, rfl⟩ := h
    exact ⟨[], by simp, by simp [flushes]⟩
  | cons op ops ih =>
    intro s s' rs hp h hc hn
    obtain ⟨r, s₁, rs', h1, h2, -⟩ := run_cons h
    have hn' : NoCustom "Content-Length" ops := fun hs hm => hn hs (by simp [hm])
    by_cases hop : ∃ f, op = .flush f
    · obtain ⟨f, rfl⟩ := hop
      simp only [call, Option.some.injEq, Prod.mk.injEq] at h1
      obtain ⟨-, rfl⟩ := h1
      have hf := flush_spec cfg f s
      obtain ⟨hd, hv, hh, -⟩ := heads_flush hf
      obtain ⟨new, hl, hr⟩ := ih _ _ _ (by rw [hf.wbuf]; rfl) h2 (by rw [hf.custom]; exact hc) hn'
      rw [hf.wbuf] at hr
      rw [hh] at hl
      cases hf' : reachesHead f with
      | false =>
        refine ⟨new, by simpa [hf'] using hl, ?_⟩
        simp only [flushes, List.filter_cons, hf', Bool.false_eq_true, if_false]
        exact hr
      | true =>
        refine ⟨(s.next, target cfg, hd) :: new, by simpa [hf'] using hl, ?_⟩
        simp only [flushes, List.filter_cons, hf', if_true]
        refine List.Forall₂.cons ⟨rfl, ?_⟩ hr
        rw [(hv hf').1, hc]
    · have hop' : ∀ f, op ≠ .flush f := fun f e => hop ⟨f, e⟩
      obtain ⟨hh, -, -, hw, hcu⟩ := call_quiet h1 hop'
      obtain ⟨hp', hv⟩ := wbuf_quiet hp hw
      rw [flushes_quiet hop', ← hv, ← hh]
      refine ih _ _ _ hp' h2 ?_ hn'
      rw [hcu]
      cases op with
      | setCustomHeaders x =>
        cases x with
        | none => rfl
        | some x => exact hn x (by simp)
      | _ => exact hc

/-- C45: there is one request head per flush that got as far as sending it; it goes to the configured
target, and its only `Content-Length` is the number of bytes written since the flush before it,
provided the user does not add such a field. -/
theorem http_length (cfg : Cfg) (step : Nat → ρ → Option (Except Exc Bytes × ρ)) (ops : List (Op ρ))
    {rs : List Ret} {s : St ρ} (h : run cfg step ops {} = some (rs, s)) (hn : NoCustom "Content-Length" ops) :
    List.Forall₂ (fun hd x => hd.2.1 = target cfg ∧ valuesOf "Content-Length" hd.2.2 = [toString x.1.length])
      (heads s.log) ((flushes [] ops).filter fun x => reachesHead x.2) := by
  obtain ⟨new, hl, hr⟩ := heads_run cfg step ops {} s rs rfl h rfl hn
  have : heads s.log = new := by simpa [heads] using hl
  rw [this]
  exact hr

theorem cookies_run (cfg : Cfg) (step : Nat → ρ → Option (Except Exc Bytes × ρ)) (ops : List (Op ρ)) :
    ∀ (s s' : St ρ) (rs : List Ret) (a : Option (Response ρ)), run cfg step ops s = some (rs, s') →
      valuesOf "Cookie" (s.custom.getD []) = [] → NoCustom "Cookie" ops → s.headers = a.map (·.msg) →
      ∃ new, heads s'.log = heads s.log ++ new ∧
        List.Forall₂ (fun hd x => valuesOf "Cookie" hd.2.2 = cookie x) new (answersBefore a ops) := by
  induction ops with
  | nil =>
    intro s s' rs a h hc hn ha
    simp only [run, Option.some.injEq, Prod.mk.injEq] at h
    obtain ⟨-, rfl⟩ := h
    exact ⟨[], by simp, by simp [answersBefore]⟩
  | cons op ops ih =>
    intro s s' rs a h hc hn ha
    obtain ⟨r, s₁, rs', h1, h2, -⟩ := run_cons h
    have hn' : NoCustom "Cookie" ops := fun hs hm => hn hs (by simp [hm])
    by_cases hop : ∃ f, op = .flush f
    · obtain ⟨f, rfl⟩ := hop
      simp only [call, Option.some.injEq, Prod.mk.injEq] at h1
      obtain ⟨-, rfl⟩ := h1
      have hf := flush_spec cfg f s
      obtain ⟨hd, hv, hh, -⟩ := heads_flush hf
      obtain ⟨new, hl, hr⟩ := ih _ _ _ (answerAfter a f) h2 (by rw [hf.custom]; exact hc) hn'
        (by rw [hf.headers]; cases f <;> simp [ha, answerAfter])
      rw [hh] at hl
      cases hf' : reachesHead f with
      | false =>
        refine ⟨new, by simpa [hf'] using hl, ?_⟩
        cases f <;> simp [reachesHead] at hf'
        exact hr
      | true =>
        refine ⟨(s.next, target cfg, hd) :: new, by simpa [hf'] using hl, ?_⟩
        have e : answersBefore a (.flush f :: ops) = a :: answersBefore (answerAfter a f) ops := by
          cases f <;> simp [reachesHead] at hf' <;> rfl
        rw [e]
        refine List.Forall₂.cons ?_ hr
        rw [(hv hf').2, hc, ha]
        cases a <;> simp [cookie, valuesOf_nil]
    · have hop' : ∀ f, op ≠ .flush f := fun f e => hop ⟨f, e⟩
      obtain ⟨hh, -, hhd, -, hcu⟩ := call_quiet h1 hop'
      have e : answersBefore a (op :: ops) = answersBefore a ops := by
        cases op with
        | flush f => exact absurd rfl (hop' f)
        | _ => rfl
      rw [e, ← hh]
      refine ih _ _ _ a h2 ?_ hn' (by rw [hhd, ha])
      rw [hcu]
      cases op with
      | setCustomHeaders x =>
        cases x with
        | none => rfl
        | some x => exact hn x (by simp)
      | _ => exact hc

/-- C45: a request carries the first cookie set by the last answer received before it, and no other,
provided the user does not add such a field. Flushes that were not answered do not change it. -/
theorem http_cookie (cfg : Cfg) (step : Nat → ρ → Option (Except Exc Bytes × ρ)) (ops : List (Op ρ))
    {rs : List Ret} {s : St ρ} (h : run cfg step ops {} = some (rs, s)) (hn : NoCustom "Cookie" ops) :
    List.Forall₂ (fun hd x => valuesOf "Cookie" hd.2.2 = cookie x) (heads s.log) (answersBefore none ops) := by
  obtain ⟨new, hl, hr⟩ := cookies_run cfg step ops {} s rs none h rfl hn rfl
  have : heads s.log = new := by simpa [heads] using hl
  rw [this]
  exact hr

/-- C45: a flush returns normally exactly if its request was answered; otherwise it raises what
`http.client` raised. -/
theorem http_outcome (cfg : Cfg) (step : Nat → ρ → Option (Except Exc Bytes × ρ)) (ops : List (Op ρ)) :
    ∀ (s s' : St ρ) (rs : List Ret) (p : Bytes), run cfg step ops s = some (rs, s') →
      flushLog ops rs = (flushes p ops).map fun x => Spec.Http.outcome x.2 := by
  induction ops with
  | nil =>
    intro s s' rs p h
    simp [flushLog, flushes]
  | cons op ops ih =>
    intro s s' rs p h
    obtain ⟨r, s₁, rs', h1, h2, rfl⟩ := run_cons h
    by_cases hop : ∃ f, op = .flush f
    · obtain ⟨f, rfl⟩ := hop
      simp only [call, Option.some.injEq, Prod.mk.injEq] at h1
      obtain ⟨rfl, rfl⟩ := h1
      simp only [flushLog, flushes, List.map_cons, ih _ _ _ [] h2, List.cons.injEq, and_true]
      cases f <;> rfl
    · have hop' : ∀ f, op ≠ .flush f := fun f e => hop ⟨f, e⟩
      rw [flushes_quiet hop', ← ih _ _ _ _ h2]
      cases op with
      | flush f => exact absurd rfl (hop' f)
      | _ => simp [flushLog]

/-! ## Connections -/

theorem quiet_log {cfg : Cfg} {step : Nat → ρ → Option (Except Exc Bytes × ρ)} {op : Op ρ} {s s' : St ρ} {r : Ret}
    (h : call cfg step op s = some (r, s')) (hop : ∀ f, op ≠ .flush f) (ho : op ≠ .open_) :
    s'.next = s.next ∧ ((s'.log = s.log ∧ s'.http = s.http) ∨
      ∃ c, s.http = some c ∧ s'.http = none ∧ s'.log = s.log ++ [.close c]) := by
  cases op with
  | flush f => exact absurd rfl (hop f)
  | open_ => exact absurd rfl ho
  | write b => cases b <;> (simp only [call, write, Option.some.injEq, Prod.mk.injEq] at h; obtain ⟨-, rfl⟩ := h; exact ⟨rfl, .inl ⟨rfl, rfl⟩⟩)
  | read n =>
    simp only [call, read] at h
    cases hr : s.response with
    | none =>
      rw [hr] at h
      simp only [Option.map_some, Option.some.injEq, Prod.mk.injEq] at h
      obtain ⟨-, rfl⟩ := h
      exact ⟨rfl, .inl ⟨rfl, rfl⟩⟩
    | some b =>
      rw [hr] at h
      simp only at h
      cases hs : step n b with
      | none => rw [hs] at h; simp at h
      | some x =>
        rw [hs] at h
        simp only [Option.map_some, Option.some.injEq, Prod.mk.injEq] at h
        obtain ⟨-, rfl⟩ := h
        exact ⟨rfl, .inl ⟨rfl, rfl⟩⟩
  | close =>
    simp only [call, close] at h
    cases hh : s.http <;> rw [hh] at h <;> simp only [Option.some.injEq, Prod.mk.injEq] at h <;> obtain ⟨-, rfl⟩ := h
    · exact ⟨rfl, .inl ⟨rfl, hh⟩⟩
    · exact ⟨rfl, .inr ⟨_, rfl, rfl, rfl⟩⟩
  | setCustomHeaders x =>
    simp only [call, Option.some.injEq, Prod.mk.injEq] at h
    obtain ⟨-, rfl⟩ := h
    exact ⟨rfl, .inl ⟨rfl, rfl⟩⟩

/-- The connections created so far are `0 … next - 1`; the current one is open and all others are
closed. -/
structure Conns (s : St ρ) : Prop where
  created : created s.log = List.range s.next
  current : ∀ c, s.http = some c → c < s.next
  closed : ∀ c, .close c ∈ s.log ↔ c < s.next ∧ s.http ≠ some c
  posted : ((heads s.log).map (·.1)).Nodup ∧ ∀ x ∈ heads s.log, x.1 < s.next

theorem Conns.close {s s' : St ρ} (h : Conns s) {c : Nat} (hc : s.http = some c) (hh : s'.http = none)
    (hl : s'.log = s.log ++ [.close c]) (hn : s'.next = s.next) : Conns s' := by
  refine ⟨?_, by simp [hh], ?_, ?_⟩
  · rw [hl, hn, created_append, h.created]; simp [Spec.Http.created]
  · intro d
    have hlt := h.current c hc
    rw [hl, List.mem_append, h.closed d, hh, hc, hn]
    simp only [ne_eq, Option.some.injEq, List.mem_singleton, Act.close.injEq, reduceCtorEq, not_false_eq_true, and_true]
    omega
  · rw [hl, heads_append, hn]; simpa [heads] using h.posted

theorem Conns.flush {cfg : Cfg} {f : Fate ρ} {s s' : St ρ} (h : Conns s) (hf : Flushed cfg f s s') : Conns s' := by
  obtain ⟨hd, hl, -⟩ := hf.log
  obtain ⟨hd', -, hh, -⟩ := heads_flush hf
  have hcl : ∀ l : Option Nat, Spec.Http.created (l.toList.map Act.close) = [] := by
    intro l; cases l <;> rfl
  refine ⟨?_, ?_, ?_, ?_⟩
  · rw [hl, hf.next]
    simp only [created_append, h.created, hcl]
    cases f <;> simp [Spec.Http.created, reachesHead, reachesBody, List.range_succ]
  · intro c hc
    rw [hf.http] at hc
    rw [hf.next]
    simp only [Option.some.injEq] at hc
    omega
  · intro d
    have hm : Act.close d ∈ s'.log ↔ Act.close d ∈ s.log ∨ s.http = some d := by
      rw [hl]
      cases hs : s.http <;> cases f <;> simp [reachesHead, reachesBody, eq_comm]
    rw [hm, hf.http, h.closed, hf.next]
    have hcur := h.current d
    simp only [Option.some.injEq, ne_eq]
    by_cases e : s.http = some d
    · have := hcur e
      simp only [e, not_true_eq_false, and_false, or_true, true_iff]
      omega
    · simp only [e, not_false_eq_true, and_true, or_false]
      omega
  · rw [hh, hf.next]
    refine ⟨?_, ?_⟩
    · cases reachesHead f
      · simpa using h.posted.1
      · simp only [if_true, List.map_append, List.map_cons, List.map_nil]
        rw [List.nodup_append]
        refine ⟨h.posted.1, by simp, ?_⟩
        intro a ha b hb
        simp only [List.mem_singleton] at hb
        subst hb
        simp only [List.mem_map] at ha
        obtain ⟨x, hx, rfl⟩ := ha
        have := h.posted.2 x hx
        omega
    · intro x hx
      rw [List.mem_append] at hx
      rcases hx with hx | hx
      · have := h.posted.2 x hx
        omega
      · simp only [List.mem_ite_nil_right, List.mem_singleton] at hx
        rw [hx.2]
        simp

theorem conns_run (cfg : Cfg) (step : Nat → ρ → Option (Except Exc Bytes × ρ)) (ops : List (Op ρ)) :
    ∀ (s s' : St ρ) (rs : List Ret), run cfg step ops s = some (rs, s') → .open_ ∉ ops → Conns s → Conns s' := by
  induction ops with
  | nil =>
    intro s s' rs h ho hc
    simp only [run, Option.some.injEq, Prod.mk.injEq] at h
    obtain ⟨-, rfl⟩ := h
    exact hc
  | cons op ops ih =>
    intro s s' rs h ho hc
    simp only [List.mem_cons, not_or] at ho
    obtain ⟨r, s₁, rs', h1, h2, -⟩ := run_cons h
    refine ih _ _ _ h2 ho.2 ?_
    by_cases hop : ∃ f, op = .flush f
    · obtain ⟨f, rfl⟩ := hop
      simp only [call, Option.some.injEq, Prod.mk.injEq] at h1
      obtain ⟨-, rfl⟩ := h1
      exact hc.flush (flush_spec cfg f s)
    · have hop' : ∀ f, op ≠ .flush f := fun f e => hop ⟨f, e⟩
      obtain ⟨hn, ⟨hl, hh⟩ | ⟨c, hs, hh, hl⟩⟩ := quiet_log h1 hop' (fun e => ho.1 e.symm)
      · exact ⟨by rw [hl, hn]; exact hc.created, by rw [hh, hn]; exact hc.current, by rw [hl, hh, hn]; exact hc.closed,
          by rw [hl, hn]; exact hc.posted⟩
      · exact hc.close hs hh hl hn

/-- C45: no two requests share a connection, and at any time at most the last connection is open, if
the user leaves it to `flush` to open the client. -/
theorem http_connections (cfg : Cfg) (step : Nat → ρ → Option (Except Exc Bytes × ρ)) (ops : List (Op ρ))
    {rs : List Ret} {s : St ρ} (h : run cfg step ops {} = some (rs, s)) (ho : .open_ ∉ ops) :
    ((heads s.log).map (·.1)).Nodup ∧ openConnections s.log = s.http.toList := by
  have hc := conns_run cfg step ops {} s rs h ho
    ⟨rfl, by simp, by simp, by simp [heads]⟩
  refine ⟨hc.posted.1, ?_⟩
  unfold openConnections
  rw [hc.created]
  have e : ∀ c ∈ List.range s.next, (!(s.log.contains (.close c))) = decide (s.http = some c) := by
    intro c hm
    have hlt : c < s.next := by simpa using hm
    have := hc.closed c
    rw [Bool.eq_iff_iff]
    simp only [Bool.not_eq_true', decide_eq_true_eq]
    rw [← Bool.not_eq_true, List.contains_iff_mem, this]
    simp [hlt]
  rw [List.filter_congr e]
  cases hs : s.http with
  | none => simp
  | some d =>
    have hd := hc.current d hs
    simp only [Option.some.injEq, Option.toList_some]
    generalize s.next = n at hd
    clear * - hd
    induction n with
    | zero => omega
    | succ n ih =>
      rw [List.range_succ, List.filter_append]
      by_cases h : d < n
      · rw [ih h]
        simp [show d ≠ n by omega]
      · have : d = n := by omega
        subst this
        simp only [List.filter_cons, decide_true, if_true, List.filter_nil]
        rw [List.filter_eq_nil_iff.mpr]
        · rfl
        · intro a ha
          simp only [List.mem_range] at ha
          simp only [decide_eq_true_eq]
          omega

/-! ## Answers -/

theorem session_append {step : Nat → ρ → Option (Except Exc Bytes × ρ)} {a b c : ρ} {l l' : List (Nat × Except Exc Bytes)}
    (h : Session step a l b) (h' : Session step b l' c) : Session step a (l ++ l') c := by
  induction h with
  | done _ => exact h'
  | call h1 _ ih => exact .call h1 (ih h')

theorem flush_reading {cfg : Cfg} {f : Fate ρ} {s s' : St ρ}
    (hf : Flushed cfg f s s') (hn : s.http = none → s.response = none) :
    (s'.http = none → s'.response = none) ∧
    s'.response = (match f with | .answered r => some r.body | _ => none) := by
  refine ⟨by rw [hf.http]; simp, ?_⟩
  rw [hf.response]
  cases f <;> simp only
  all_goals
    split
    · rename_i h; exact hn h
    · rfl

/-- Calls that keep the answer read it in order. -/
theorem keeps_call {cfg : Cfg} {step : Nat → ρ → Option (Except Exc Bytes × ρ)} {op : Op ρ} {s s' : St ρ} {r : Ret}
    (h : call cfg step op s = some (r, s')) (hk : keepsAnswer op = true) :
    (∀ b, s.response = some b → ∃ b', Session step b (readLog [op] [r]) b' ∧ s'.response = some b') ∧
    (s.response = none → s'.response = none) ∧ (s'.http = none → s.http = none) := by
  cases op with
  | flush f => simp [keepsAnswer] at hk
  | close => simp [keepsAnswer] at hk
  | write b =>
    cases b <;>
      (simp only [call, write, Option.some.injEq, Prod.mk.injEq] at h; obtain ⟨rfl, rfl⟩ := h
       exact ⟨fun b hb => ⟨b, .done _, hb⟩, id, id⟩)
  | open_ =>
    simp only [call, open_, Option.some.injEq, Prod.mk.injEq] at h
    obtain ⟨rfl, rfl⟩ := h
    exact ⟨fun b hb => ⟨b, .done _, hb⟩, id, by simp⟩
  | setCustomHeaders x =>
    simp only [call, Option.some.injEq, Prod.mk.injEq] at h
    obtain ⟨rfl, rfl⟩ := h
    exact ⟨fun b hb => ⟨b, .done _, hb⟩, id, id⟩
  | read n =>
    simp only [call, read] at h
    cases hr : s.response with
    | none =>
      rw [hr] at h
      simp only [Option.map_some, Option.some.injEq, Prod.mk.injEq] at h
      obtain ⟨rfl, rfl⟩ := h
      exact ⟨by simp, fun _ => hr, id⟩
    | some b =>
      rw [hr] at h
      simp only at h
      cases hs : step n b with
      | none => rw [hs] at h; simp at h
      | some x =>
        rw [hs] at h
        simp only [Option.map_some, Option.some.injEq, Prod.mk.injEq] at h
        obtain ⟨rfl, rfl⟩ := h
        refine ⟨?_, by simp, id⟩
        intro b' hb'
        simp only [Option.some.injEq] at hb'
        subst hb'
        exact ⟨x.2, .call hs (.done _), rfl⟩

theorem readLog_cons (op : Op ρ) (ops : List (Op ρ)) (r : Ret) (rs : List Ret) :
    readLog (op :: ops) (r :: rs) = readLog [op] [r] ++ readLog ops rs := by
  cases op <;> cases r <;> simp [readLog]

theorem keeps_run (cfg : Cfg) (step : Nat → ρ → Option (Except Exc Bytes × ρ)) (ops : List (Op ρ)) :
    ∀ (s s' : St ρ) (rs : List Ret) (b : ρ), run cfg step ops s = some (rs, s') → (∀ op ∈ ops, keepsAnswer op = true) →
      s.response = some b → ∃ b', Session step b (readLog ops rs) b' ∧ s'.response = some b' := by
  induction ops with
  | nil =>
    intro s s' rs b h hk hb
    simp only [run, Option.some.injEq, Prod.mk.injEq] at h
    obtain ⟨rfl, rfl⟩ := h
    exact ⟨b, .done _, hb⟩
  | cons op ops ih =>
    intro s s' rs b h hk hb
    obtain ⟨r, s₁, rs', h1, h2, rfl⟩ := run_cons h
    obtain ⟨b₁, hs, hb₁⟩ := (keeps_call h1 (hk op (by simp))).1 b hb
    obtain ⟨b', hs', hb'⟩ := ih _ _ _ b₁ h2 (fun o ho => hk o (by simp [ho])) hb₁
    rw [readLog_cons]
    exact ⟨b', session_append hs hs', hb'⟩

theorem run_append {cfg : Cfg} {step : Nat → ρ → Option (Except Exc Bytes × ρ)} {ops ops' : List (Op ρ)} :
    ∀ {s s' : St ρ} {rs : List Ret}, run cfg step (ops ++ ops') s = some (rs, s') →
    ∃ rs₁ s₁ rs₂, run cfg step ops s = some (rs₁, s₁) ∧ run cfg step ops' s₁ = some (rs₂, s') ∧ rs = rs₁ ++ rs₂ ∧
      rs₁.length = ops.length := by
  induction ops with
  | nil => intro s s' rs h; exact ⟨[], s, rs, rfl, h, rfl, rfl⟩
  | cons op ops ih =>
    intro s s' rs h
    obtain ⟨r, s₁, rs', h1, h2, rfl⟩ := run_cons h
    obtain ⟨rs₁, s₂, rs₂, h3, h4, rfl, h5⟩ := ih h2
    exact ⟨r :: rs₁, s₂, rs₂, by simp [run, h1, h3], h4, rfl, by simp [h5]⟩

/-- C45: after an answered flush, and whatever was done with the client before, the reads deliver the
body of that answer in order, from its first byte on, until the next flush or close. -/
theorem http_reply (cfg : Cfg) (step : Nat → ρ → Option (Except Exc Bytes × ρ)) (rest : ρ → Bytes)
    (hstep : Faithful step rest) (before after : List (Op ρ)) (a : Response ρ)
    (hk : ∀ op ∈ after, keepsAnswer op = true) (hpos : ∀ n, .read n ∈ after → 0 < n)
    {rs : List Ret} {s : St ρ} (h : run cfg step (before ++ .flush (.answered a) :: after) {} = some (rs, s)) :
    ∃ left, rest a.body = delivered (readLog after (rs.drop (before.length + 1))) ++ left ∧
      ∃ b, s.response = some b ∧ rest b = left := by
  obtain ⟨rs₁, s₁, rs₂, h1, h2, rfl, hlen⟩ := run_append h
  obtain ⟨r, s₂, rs₃, h3, h4, rfl⟩ := run_cons h2
  simp only [call, Option.some.injEq, Prod.mk.injEq] at h3
  obtain ⟨-, rfl⟩ := h3
  obtain ⟨b, hs, hb⟩ := keeps_run cfg step after _ _ _ a.body h4 hk (flush_spec cfg (.answered a) s₁).response
  have e : (rs₁ ++ r :: rs₃).drop (before.length + 1) = rs₃ := by
    rw [← hlen, ← List.drop_drop, List.drop_left]; rfl
  rw [e]
  have hp : ∀ (ops : List (Op ρ)) (rs : List Ret), (∀ n, .read n ∈ ops → 0 < n) → ∀ x ∈ readLog ops rs, 0 < x.1 := by
    intro ops
    induction ops with
    | nil => intro rs _ x hx; simp [readLog] at hx
    | cons op ops ih =>
      intro rs hn x hx
      cases rs with
      | nil => cases op <;> simp [readLog] at hx
      | cons r rs =>
        rw [readLog_cons, List.mem_append] at hx
        rcases hx with hx | hx
        · cases op <;> cases r <;> simp [readLog] at hx
          subst hx
          exact hn _ (by simp)
        · exact ih rs (fun n hm => hn n (by simp [hm])) x hx
  exact ⟨rest b, (faithful_session hstep hs (hp _ _ hpos)).1, b, hb, rfl⟩

/-- What is left of the answer. -/
def unread (rest : ρ → Bytes) (s : St ρ) : Bytes :=
  match s.response with
  | none => []
  | some b => rest b

/-- C45: as a transport to read from, the client is what the body of the answer is: a request is
answered with the next bytes, at most as many as asked for, with none only at the end, and an
exception takes nothing. So what is proved about protocols on such transports holds on top of it. -/
theorem http_faithful (step : Nat → ρ → Option (Except Exc Bytes × ρ)) (rest : ρ → Bytes)
    (h : Faithful step rest) : Faithful (read step) (unread rest) := by
  intro n s
  unfold read
  cases hr : s.response with
  | none => exact ⟨.error .attributeError, s, rfl, rfl⟩
  | some b =>
    obtain ⟨r, b', h1, h2⟩ := h n b
    refine ⟨r, { s with response := some b' }, by simp [h1], ?_⟩
    cases r with
    | error e => simpa [unread, hr] using h2
    | ok p => simpa [unread, hr] using h2

theorem stale_run (cfg : Cfg) (step : Nat → ρ → Option (Except Exc Bytes × ρ)) (ops : List (Op ρ)) :
    ∀ (s s' : St ρ) (rs : List Ret) (a : Option (Response ρ)), run cfg step ops s = some (rs, s') →
      (s.http = none → s.response = none) → (a = none → s.response = none) →
      lastAnswer a ops = none → s'.response = none := by
  induction ops with
  | nil =>
    intro s s' rs a h hn hs hl
    simp only [run, Option.some.injEq, Prod.mk.injEq] at h
    obtain ⟨-, rfl⟩ := h
    exact hs hl
  | cons op ops ih =>
    intro s s' rs a h hn hs hl
    obtain ⟨r, s₁, rs', h1, h2, rfl⟩ := run_cons h
    cases hk : keepsAnswer op with
    | true =>
      obtain ⟨-, h3, h4⟩ := keeps_call h1 hk
      have e : lastAnswer a (op :: ops) = lastAnswer a ops := by
        cases op <;> first | rfl | (simp [keepsAnswer] at hk)
      rw [e] at hl
      exact ih _ _ _ a h2 (fun hh => h3 (hn (h4 hh))) (fun ha => h3 (hs ha)) hl
    | false =>
      cases op <;> simp [keepsAnswer] at hk
      case flush f =>
        simp only [call, Option.some.injEq, Prod.mk.injEq] at h1
        obtain ⟨-, rfl⟩ := h1
        obtain ⟨h3, h4⟩ := flush_reading (flush_spec cfg f s) hn
        cases f with
        | answered r => exact ih _ _ _ (some r) h2 h3 (by simp) hl
        | _ => exact ih _ _ _ none h2 h3 (fun _ => h4) hl
      case close =>
        simp only [call, close] at h1
        cases hh : s.http with
        | none =>
          rw [hh] at h1
          simp only [Option.some.injEq, Prod.mk.injEq] at h1
          obtain ⟨-, rfl⟩ := h1
          exact ih _ _ _ none h2 hn (fun _ => hn hh) hl
        | some c =>
          rw [hh] at h1
          simp only [Option.some.injEq, Prod.mk.injEq] at h1
          obtain ⟨-, rfl⟩ := h1
          exact ih _ _ _ none h2 (fun _ => rfl) (fun _ => rfl) hl

/-- C45: before the first flush, after a flush that raised, and after `close`, nothing can be read:
no byte of an earlier answer is taken for a part of a new one. -/
theorem http_no_stale (cfg : Cfg) (step : Nat → ρ → Option (Except Exc Bytes × ρ)) (ops : List (Op ρ))
    {rs : List Ret} {s : St ρ} (h : run cfg step ops {} = some (rs, s)) (hl : lastAnswer none ops = none) (n : Nat) :
    read step n s = some (.error .attributeError, s) := by
  have := stale_run cfg step ops {} s rs none h (fun _ => rfl) (fun _ => rfl) hl
  simp [read, this]

/-! ## A concrete history and where expectations fail -/

/-- An answer body held in memory. -/
def memBody (n : Nat) (b : Bytes) : Option (Except Exc Bytes × Bytes) := some (.ok (b.take n), b.drop n)

theorem memBody_faithful : Faithful memBody id := by
  intro n b
  refine ⟨.ok (b.take (n + 1)), b.drop (n + 1), rfl, (List.take_append_drop _ b).symm, ?_, ?_⟩
  · simp; omega
  · cases b <;> simp

/-- A history with a rejected argument, a failed flush and two answered ones. -/
def history : List (Op Bytes) :=
  [.write (.bytes [1, 2]), .flush (.unreachable .osError), .write (.bytes [3]), .write .other, .write (.bytes [4, 5]),
    .flush (.answered ⟨200, [("Set-Cookie", "k=v"), ("set-cookie", "z=1")], [7, 8, 9]⟩), .read 2,
    .write (.bytes [6]), .flush (.answered ⟨500, [], [10]⟩), .read 4]

/-- What the history does, as far as it can be compared. -/
def summary (x : Option (List Ret × St Bytes)) : Option (List Bytes × List String × List Bytes × List Nat) :=
  x.map fun (rs, s) => (bodies s.log, (heads s.log).flatMap fun h => valuesOf "Content-Length" h.2.2 ++ valuesOf "Cookie" h.2.2,
    rs.filterMap fun | .bytes (.ok b) => some b | _ => none, openConnections s.log)

example : summary (run ⟨false, "/x", none, "u"⟩ memBody history {}) =
    some ([[3, 4, 5], [6]], ["2", "3", "1", "k=v"], [[7, 8], [10]], [2]) := by decide +kernel

example : (flushes [] history).map (·.1) = [[1, 2], [3, 4, 5], [6]] := by decide +kernel

example : NoCustom "Content-Length" history ∧ NoCustom "Cookie" history := by
  constructor <;> intro hs hm <;> simp [history] at hm

/-- A history ends in a state with a decidable property. -/
theorem of_check {x : Option (List Ret × St Bytes)} {p : St Bytes → Bool} (h : (x.any fun y => p y.2) = true) :
    ∃ s : St Bytes, ∃ rs, x = some (rs, s) ∧ p s = true := by
  cases x with
  | none => simp at h
  | some y => exact ⟨y.2, y.1, rfl, by simpa using h⟩

/-- Not a consequence of C45 that HTTP errors are noticed: the status of the answer makes no
difference to what `flush` and the reads return. -/
theorem http_status (cfg : Cfg) (st st' : Nat) (m : List Header) (b : ρ) (s : St ρ) :
    (flush cfg (.answered ⟨st, m, b⟩) s).1 = .ok () ∧
    (flush cfg (.answered ⟨st, m, b⟩) s).2 = { (flush cfg (.answered ⟨st', m, b⟩) s).2 with code := some st } := by
  simp [flush]

/-- C45 fails for custom fields with this name: the request names two lengths. -/
theorem http_length_twice : ∃ s : St Bytes, ∃ rs,
    run ⟨false, "/x", none, "u"⟩ memBody
      [.setCustomHeaders (some [("content-length", "99")]), .write (.bytes [1, 2]), .flush (.noAnswer .osError)] {} = some (rs, s) ∧
    (heads s.log).map (fun h => valuesOf "Content-Length" h.2.2) = [["2", "99"]] := by
  obtain ⟨s, rs, h1, h2⟩ := of_check (x := run ⟨false, "/x", none, "u"⟩ memBody
      [.setCustomHeaders (some [("content-length", "99")]), .write (.bytes [1, 2]), .flush (.noAnswer .osError)] {})
    (p := fun s => decide ((heads s.log).map (fun h => valuesOf "Content-Length" h.2.2) = [["2", "99"]])) (by decide +kernel)
  exact ⟨s, rs, h1, of_decide_eq_true h2⟩

/-- `close` raises `AttributeError` exactly if the client is not open. -/
theorem http_close (s : St ρ) : (close s).1 = .error .attributeError ↔ isOpen s = false := by
  unfold close isOpen
  cases s.http <;> simp

/-- C45 needs that the user leaves opening to `flush`: a connection replaced by `open` is never
closed. -/
theorem http_open_leaks : ∃ s : St Bytes, ∃ rs,
    run ⟨false, "/x", none, "u"⟩ memBody
      [.flush (.answered ⟨200, [], []⟩), .open_, .flush (.answered ⟨200, [], []⟩), .close] {} = some (rs, s) ∧
    openConnections s.log = [0] ∧ (heads s.log).map (·.1) = [0, 2] ∧ s.http = none := by
  obtain ⟨s, rs, h1, h2⟩ := of_check (x := run ⟨false, "/x", none, "u"⟩ memBody
      [.flush (.answered ⟨200, [], []⟩), .open_, .flush (.answered ⟨200, [], []⟩), .close] {})
    (p := fun s => decide (openConnections s.log = [0] ∧ (heads s.log).map (·.1) = [0, 2] ∧ s.http = none)) (by decide +kernel)
  exact ⟨s, rs, h1, of_decide_eq_true h2⟩

end Thrift.Http
