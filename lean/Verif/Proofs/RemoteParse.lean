import Verif.Proofs.RemoteText
import Verif.Spec.Remote
/-
Reading the command line of `<Service>-remote`.
-/

namespace Thrift.Remote
open Rpc Spec Spec.Remote

variable {α ρ : Type}

/-! ### Addresses and URLs -/

theorem split_free (sep : Nat) {h : PyStr} (hh : sep ∉ h) : split sep h = [h] := by
  induction h with
  | nil => rfl
  | cons c h ih =>
    rw [split, if_neg (fun e => hh (by simp [e])), ih fun e => hh (by simp [e])]

theorem split_at (sep : Nat) {h : PyStr} (r : PyStr) (hh : sep ∉ h) : split sep (h ++ sep :: r) = h :: split sep r := by
  induction h with
  | nil => simp [split]
  | cons c h ih =>
    rw [List.cons_append, split, if_neg (fun e => hh (by simp [e])), ih fun e => hh (by simp [e])]

theorem decimal_digits {n c : Nat} (h : c ∈ decimal n) : 48 ≤ c ∧ c ≤ 57 := by
  unfold decimal at h
  obtain ⟨d, hd, rfl⟩ := List.mem_map.1 h
  have := Nat.isDigit_of_mem_toDigits (by decide) (by decide) hd
  simp only [Char.isDigit, Bool.and_eq_true, decide_eq_true_eq, ge_iff_le, UInt32.le_iff_toNat_le] at this
  exact this

theorem hostPort_address {w : World α ρ} (hw : Ints w) (d : Int) {h : PyStr} (hh : 58 ∉ h) (p : Option Nat) :
    hostPort w d (address h p) = .ok (h, (p.map Int.ofNat).getD d) := by
  unfold hostPort
  cases p with
  | none => rw [address, split_free _ hh]; rfl
  | some n =>
    rw [address, split_at _ _ hh, split_free (h := decimal n) _ (fun e => by have := decimal_digits e; omega)]
    dsimp only
    rw [hw n]; rfl

theorem span_loop {p : Nat → Bool} (a b acc : PyStr) (h1 : ∀ c ∈ a, p c = true) (h2 : ∀ c, b.head? = some c → p c = false) : List.span.loop p (a ++ b) acc = (acc.reverse ++ a, b) := by
  induction a generalizing acc with
  | nil =>
    cases b with
    | nil => simp [List.span.loop]
    | cons x b => simp [List.span.loop, h2 x rfl]
  | cons c a ih =>
    rw [List.cons_append, List.span.loop, h1 c (by simp)]
    dsimp only
    rw [ih _ fun d hd => h1 d (by simp [hd])]
    simp

theorem span_at {p : Nat → Bool} {a : PyStr} (x : Nat) (b : PyStr) (h1 : ∀ c ∈ a, p c = true) (h2 : p x = false) : (a ++ x :: b).span p = (a, x :: b) :=
  span_loop a (x :: b) [] h1 (by simpa using h2)

theorem span_all {p : Nat → Bool} {a : PyStr} (h1 : ∀ c ∈ a, p c = true) : a.span p = (a, []) := by
  have := span_loop a [] [] h1 (by simp)
  rwa [List.append_nil] at this

theorem cut_at {c : Nat} {a : PyStr} (b : PyStr) (h : c ∉ a) : cut c (a ++ c :: b) = (a, b) := by
  unfold cut
  rw [span_at c b (fun d hd => by simp; rintro rfl; exact h hd) (by simp)]

theorem cut_free {c : Nat} {a : PyStr} (h : c ∉ a) : cut c a = (a, []) := by
  unfold cut
  rw [span_all (fun d hd => by simp; rintro rfl; exact h hd)]

theorem cut_query {r q : PyStr} (h : 63 ∉ r) : cut 63 (r ++ queryText q) = (r, q) := by
  unfold queryText
  split
  · rename_i hq; subst hq; rw [List.append_nil, cut_free h]
  · exact cut_at _ h

theorem splitParams_free {p : PyStr} (h : 59 ∉ p) : splitParams p = (p, []) := by
  have h1 : 59 ∉ (p.reverse.takeWhile (· != 47)).reverse := by
    intro e
    rw [List.mem_reverse] at e
    exact h (List.mem_reverse.1 ((List.takeWhile_sublist _).mem e))
  unfold splitParams
  dsimp only
  rw [cut_free h1]
  dsimp only
  have h2 := List.takeWhile_append_dropWhile (p := (· != 47)) (l := p.reverse)
  have h3 : p = (p.reverse.dropWhile (· != 47)).reverse ++ (p.reverse.takeWhile (· != 47)).reverse := by
    rw [← List.reverse_append, h2, List.reverse_reverse]
  generalize (p.reverse.takeWhile (· != 47)).reverse = l at *
  generalize (p.reverse.dropWhile (· != 47)).reverse = d at *
  subst h3
  simp

/-- The parameters of the last segment of a path -/
theorem splitParams_at {d a b : PyStr} (ha : 47 ∉ a) (h : 59 ∉ a) (hb : 47 ∉ b) : splitParams (d ++ 47 :: (a ++ 59 :: b)) = (d ++ 47 :: a, b) := by
  unfold splitParams
  have h1 : (d ++ 47 :: (a ++ 59 :: b)).reverse.takeWhile (· != 47) = (a ++ 59 :: b).reverse := by
    rw [List.reverse_append, List.reverse_cons, List.append_assoc, List.singleton_append, List.takeWhile_append_of_pos]
    · simp
    · intro c hc
      simp only [List.mem_reverse, List.mem_append, List.mem_cons] at hc
      simp only [bne_iff_ne, ne_eq]
      rintro rfl
      rcases hc with hc | hc | hc
      · exact ha hc
      · cases hc
      · exact hb hc
  dsimp only
  rw [h1, List.reverse_reverse, cut_at _ h]
  have h2 : (d ++ 47 :: (a ++ 59 :: b)).length - (a ++ 59 :: b).length = (d ++ [47]).length := by simp; omega
  rw [h2, show d ++ 47 :: (a ++ 59 :: b) = (d ++ [47]) ++ (a ++ 59 :: b) by simp, List.take_left]
  simp

/-- The parts of a URL -/
theorem urlparse_eq (scheme : String) (hsc : scheme = "http" ∨ scheme = "https") {netloc path q : PyStr} (hn : ∀ c ∈ netloc, c ≠ 47 ∧ c ≠ 63 ∧ c ≠ 35 ∧ c ≠ 91 ∧ c ≠ 93)
    (hp : path = [] ∨ ∃ r, path = 47 :: r) (hpath : 63 ∉ path ∧ 35 ∉ path) (hq : 35 ∉ q) :
    urlparse (pyStr scheme ++ (pyStr "://" ++ (netloc ++ (path ++ queryText q)))) =
      .ok { scheme := pyStr scheme, netloc := netloc, path := (splitParams path).1, params := (splitParams path).2, query := q, fragment := [] } := by
  have e1 : splitScheme (pyStr scheme ++ (pyStr "://" ++ (netloc ++ (path ++ queryText q)))) = (pyStr scheme, 47 :: 47 :: (netloc ++ (path ++ queryText q))) := by
    have e : pyStr "://" ++ (netloc ++ (path ++ queryText q)) = 58 :: 47 :: 47 :: (netloc ++ (path ++ queryText q)) := rfl
    unfold splitScheme
    rw [e]
    rcases hsc with rfl | rfl
    · rw [span_at 58 _ (by decide) (by decide)]
      dsimp only
      rw [if_pos (by decide)]; rfl
    · rw [span_at 58 _ (by decide) (by decide)]
      dsimp only
      rw [if_pos (by decide)]; rfl
  have e2 : splitNetloc (47 :: 47 :: (netloc ++ (path ++ queryText q))) = (netloc, path ++ queryText q) := by
    rw [splitNetloc]
    have hall : ∀ c ∈ netloc, (c != 47 && c != 63 && c != 35) = true := fun c hc => by have := hn c hc; simp [this]
    rcases hp with rfl | ⟨r, rfl⟩
    · unfold queryText
      split
      · rw [List.append_nil, List.append_nil, span_all hall]
      · exact span_at _ _ hall (by decide)
    · exact span_at _ _ hall (by decide)
  have h35 : 35 ∉ path ++ queryText q := by
    unfold queryText
    split
    · simpa using hpath.2
    · simpa using ⟨hpath.2, hq⟩
  have hu : pyStr scheme ∈ usesParams := by rcases hsc with rfl | rfl <;> decide
  have hb : ¬ ((91 ∈ netloc) ≠ (93 ∈ netloc)) := by
    have h1 : 91 ∉ netloc := fun h => (hn _ h).2.2.2.1 rfl
    have h2 : 93 ∉ netloc := fun h => (hn _ h).2.2.2.2 rfl
    simp [h1, h2]
  unfold urlparse
  rw [e1]; dsimp only
  rw [e2]; dsimp only
  rw [if_neg hb, cut_free h35]; dsimp only
  rw [cut_query hpath.1]; dsimp only
  rw [if_pos hu]

theorem address_chars {bad : List Nat} (hbad : ∀ c ∈ bad, ¬ (48 ≤ c ∧ c ≤ 58)) {h : PyStr} (hh : ∀ c ∈ h, c ∉ bad) (p : Option Nat) : ∀ c ∈ address h p, c ∉ bad := by
  intro c hc hb
  cases p with
  | none => exact hh c hc hb
  | some n =>
    rw [address, List.mem_append, List.mem_cons] at hc
    rcases hc with hc | rfl | hc
    · exact hh c hc hb
    · exact hbad _ hb (by omega)
    · have := decimal_digits hc; exact hbad _ hb (by omega)

theorem netloc_ok {h : PyStr} (hh : Host h) (p : Option Nat) : ∀ c ∈ address h p, c ≠ 47 ∧ c ≠ 63 ∧ c ≠ 35 ∧ c ≠ 91 ∧ c ≠ 93 := by
  intro c hc
  have := address_chars (bad := [47, 63, 35, 91, 93]) (by simp) (fun c hc hb => (hh c hc).2.2 (by simp at hb ⊢; omega)) p c hc
  simpa using this

theorem host_colon {h : PyStr} (hh : Host h) : 58 ∉ h := fun e => (hh _ e).2.2 (by simp)

theorem path_free {p : PyStr} (h : Path p) : 63 ∉ p ∧ 35 ∉ p ∧ 59 ∉ p :=
  ⟨fun e => (h.2 _ e).2.2 (by simp), fun e => (h.2 _ e).2.2 (by simp), fun e => (h.2 _ e).2.2 (by simp)⟩

/-! ### The options -/

/-- The options that come after `-u` -/
def later : List PyStr := ["-f", "-framed", "-s", "-ssl", "-novalidate", "-ca_certs", "-keyfile", "-certfile"].map pyStr

/-- The variables after the options -/
def optsOf : Target → Opts
  | .socket a f t =>
    { host := (a.map Prod.fst).getD (pyStr "localhost"), port := ((a.bind Prod.snd).map Int.ofNat).getD 9090, framed := f.isSome, ssl := t.isSome,
      validate := (t.map fun t => !t.noValidate).getD true, caCerts := t.bind TlsReq.caCerts, keyfile := t.bind TlsReq.keyfile, certfile := t.bind TlsReq.certfile, parts := a.isSome }
  | .web h p path q => { host := h, port := (p.map Int.ofNat).getD 80, uri := path ++ queryText q, http := true, parts := true, url := true }

theorem optFlag_no {ns : List PyStr} {set : Opts → Opts} {o : Opts} {a : PyStr} {r : List PyStr} (h : a ∉ ns) : optFlag ns set o (a :: r) = .ok (o, a :: r) := by
  rw [optFlag, if_neg h]
theorem optFlag_yes {ns : List PyStr} {set : Opts → Opts} {o : Opts} {a : PyStr} {r : List PyStr} (h : a ∈ ns) : optFlag ns set o (a :: r) = .ok (set o, r) := by
  rw [optFlag, if_pos h]
theorem optValue_no {n : PyStr} {set : Opts → PyStr → Opts} {o : Opts} {a : PyStr} {r : List PyStr} (h : a ≠ n) : optValue n set o (a :: r) = .ok (o, a :: r) := by
  rw [optValue.eq_def]; dsimp only; rw [if_neg h]
theorem optValue_yes {n : PyStr} {set : Opts → PyStr → Opts} {o : Opts} {v : PyStr} {r : List PyStr} : optValue n set o (n :: v :: r) = .ok (set o v, r) := by
  rw [optValue, if_pos rfl]

/-- Is there a first word, and is it none of these? -/
def Starts (bad : List PyStr) (l : List PyStr) : Prop := ∃ a r, l = a :: r ∧ a ∉ bad

theorem Starts.cons {bad : List PyStr} {a : PyStr} (h : a ∉ bad) (r : List PyStr) : Starts bad (a :: r) := ⟨a, r, rfl, h⟩

theorem Starts.option {bad : List PyStr} {n : PyStr} (h : n ∉ bad) (v : Option PyStr) {r : List PyStr} (hr : Starts bad r) : Starts bad (option n v ++ r) := by
  cases v with
  | none => exact hr
  | some v => exact ⟨n, v :: r, rfl, h⟩

theorem optHost_no {w : World α ρ} {o : Opts} {l : List PyStr} (h : Starts [pyStr "-h"] l) : optHost w o l = .ok (o, l) := by
  obtain ⟨a, r, rfl, ha⟩ := h
  rw [optHost.eq_def]; dsimp only; rw [if_neg (by simpa using ha)]
theorem optUrl_no {w : World α ρ} {o : Opts} {l : List PyStr} (h : Starts [pyStr "-u"] l) : optUrl w o l = .ok (o, l) := by
  obtain ⟨a, r, rfl, ha⟩ := h
  rw [optUrl.eq_def]; dsimp only; rw [if_neg (by simpa using ha)]
theorem optFlag_skip {ns : List PyStr} {set : Opts → Opts} {o : Opts} {l : List PyStr} (h : Starts ns l) : optFlag ns set o l = .ok (o, l) := by
  obtain ⟨a, r, rfl, ha⟩ := h
  exact optFlag_no ha
theorem optValue_opt {n : PyStr} {set : Opts → PyStr → Opts} {o : Opts} (v : Option PyStr) {l : List PyStr} (h : Starts [n] l) :
    optValue n set o (option n v ++ l) = .ok (v.elim o (set o), l) := by
  cases v with
  | none =>
    obtain ⟨a, r, rfl, ha⟩ := h
    exact optValue_no (by simpa using ha)
  | some v => exact optValue_yes

theorem Except.ok_bind {ε β γ : Type} (x : β) (f : β → Except ε γ) : (Except.ok x : Except ε β).bind f = f x := rfl

/-- The options of TLS and the rest -/
def tail (o : Opts) (r : List PyStr) : Except Exc (Opts × PyStr × List PyStr) :=
  (optFlag [pyStr "-s", pyStr "-ssl"] (fun o => { o with ssl := true }) o r).bind fun (o, r) =>
  (optFlag [pyStr "-novalidate"] (fun o => { o with validate := false }) o r).bind fun (o, r) =>
  (optValue (pyStr "-ca_certs") (fun o v => { o with caCerts := some v }) o r).bind fun (o, r) =>
  (optValue (pyStr "-keyfile") (fun o v => { o with keyfile := some v }) o r).bind fun (o, r) =>
  (optValue (pyStr "-certfile") (fun o v => { o with certfile := some v }) o r).bind fun (o, r) =>
  match r with
  | [] => .error .indexError
  | cmd :: args => .ok (o, cmd, args)

theorem parse_eq (w : World α ρ) (l : List PyStr) : parse w l =
    (optHost w {} l).bind fun (o, r) => (optUrl w o r).bind fun (o, r) =>
      (optFlag [pyStr "-f", pyStr "-framed"] (fun o => { o with framed := true }) o r).bind fun (o, r) => tail o r := rfl

theorem not_later {x : PyStr} (h : x ∉ later) : x ∉ [pyStr "-f", pyStr "-framed"] ∧ x ∉ [pyStr "-s", pyStr "-ssl"] ∧ x ∉ [pyStr "-novalidate"] ∧ x ∉ [pyStr "-ca_certs"] ∧ x ∉ [pyStr "-keyfile"] ∧ x ∉ [pyStr "-certfile"] := by
  simp only [later, List.map_cons, List.map_nil, List.mem_cons, List.not_mem_nil, or_false, not_or] at h ⊢
  obtain ⟨a, b, c, d, e, f, g, i⟩ := h
  exact ⟨⟨a, b⟩, ⟨c, d⟩, e, f, g, i⟩

theorem tail_words (o : Opts) (t : Option TlsReq) {x : PyStr} (hx : x ∉ later) (r : List PyStr) (hd : o.ssl = false ∧ o.validate = true ∧ o.caCerts = none ∧ o.keyfile = none ∧ o.certfile = none) :
    tail o (tlsWords t ++ x :: r) =
      .ok ({ o with ssl := t.isSome, validate := (t.map fun t => !t.noValidate).getD true, caCerts := t.bind TlsReq.caCerts, keyfile := t.bind TlsReq.keyfile, certfile := t.bind TlsReq.certfile }, x, r) := by
  obtain ⟨_, n1, n2, n3, n4, n5⟩ := not_later hx
  obtain ⟨d1, d2, d3, d4, d5⟩ := hd
  unfold tail
  cases t with
  | none =>
    simp only [tlsWords, List.nil_append]
    rw [optFlag_no n1, Except.ok_bind]; dsimp only
    rw [optFlag_no n2, Except.ok_bind]; dsimp only
    rw [optValue_no (by simpa using n3), Except.ok_bind]; dsimp only
    rw [optValue_no (by simpa using n4), Except.ok_bind]; dsimp only
    rw [optValue_no (by simpa using n5), Except.ok_bind]
    cases o
    simp_all
  | some t =>
    have s5 : Starts [pyStr "-certfile"] (x :: r) := .cons n5 _
    have s4 : Starts [pyStr "-keyfile"] (option (pyStr "-certfile") t.certfile ++ x :: r) := .option (by decide) _ (.cons n4 _)
    have s3 : Starts [pyStr "-ca_certs"] (option (pyStr "-keyfile") t.keyfile ++ (option (pyStr "-certfile") t.certfile ++ x :: r)) :=
      .option (by decide) _ (.option (by decide) _ (.cons n3 _))
    have s2 : Starts [pyStr "-novalidate"] (option (pyStr "-ca_certs") t.caCerts ++ (option (pyStr "-keyfile") t.keyfile ++ (option (pyStr "-certfile") t.certfile ++ x :: r))) :=
      .option (by decide) _ (.option (by decide) _ (.option (by decide) _ (.cons n2 _)))
    simp only [tlsWords, List.append_assoc, List.cons_append, List.nil_append]
    rw [optFlag_yes (by cases t.long <;> decide), Except.ok_bind]; dsimp only
    have e : ∀ o : Opts, optFlag [pyStr "-novalidate"] (fun o => { o with validate := false }) o
        ((if t.noValidate = true then [pyStr "-novalidate"] else []) ++ (option (pyStr "-ca_certs") t.caCerts ++ (option (pyStr "-keyfile") t.keyfile ++ (option (pyStr "-certfile") t.certfile ++ x :: r)))) =
        .ok (if t.noValidate = true then { o with validate := false } else o, option (pyStr "-ca_certs") t.caCerts ++ (option (pyStr "-keyfile") t.keyfile ++ (option (pyStr "-certfile") t.certfile ++ x :: r))) := by
      intro o
      cases t.noValidate with
      | true => exact optFlag_yes (by simp)
      | false => exact optFlag_skip s2
    rw [e, Except.ok_bind]; dsimp only
    rw [optValue_opt _ s3, Except.ok_bind]; dsimp only
    rw [optValue_opt _ s4, Except.ok_bind]; dsimp only
    rw [optValue_opt _ s5, Except.ok_bind]
    cases o
    obtain ⟨l, nv, ca, key, cert⟩ := t
    cases nv <;> cases ca <;> cases key <;> cases cert <;> simp_all

theorem starts_tls {bad : List PyStr} (h1 : pyStr "-s" ∉ bad ∧ pyStr "-ssl" ∉ bad) {x : PyStr} (t : Option TlsReq) (h2 : t = none → x ∉ bad) (r : List PyStr) : Starts bad (tlsWords t ++ x :: r) := by
  cases t with
  | none => exact .cons (h2 rfl) _
  | some t =>
    simp only [tlsWords, List.append_assoc, List.cons_append, List.nil_append]
    apply Starts.cons
    cases t.long
    · exact h1.1
    · exact h1.2

theorem starts_flags {bad : List PyStr} (h1 : ∀ o ∈ ["-s", "-ssl", "-f", "-framed"], pyStr o ∉ bad) {x : PyStr} (f : Option Bool) (t : Option TlsReq) (h2 : f = none → t = none → x ∉ bad) (r : List PyStr) :
    Starts bad (flag "-f" "-framed" f ++ (tlsWords t ++ x :: r)) := by
  cases f with
  | none => exact starts_tls ⟨h1 _ (by decide), h1 _ (by decide)⟩ t (h2 rfl) r
  | some b =>
    apply Starts.cons
    cases b
    · exact h1 _ (by decide)
    · exact h1 _ (by decide)

theorem flag_words (o : Opts) (ho : o.framed = false) (f : Option Bool) (t : Option TlsReq) {x : PyStr} (hx : x ∉ later) (r : List PyStr) :
    optFlag [pyStr "-f", pyStr "-framed"] (fun o => { o with framed := true }) o (flag "-f" "-framed" f ++ (tlsWords t ++ x :: r)) = .ok ({ o with framed := f.isSome }, tlsWords t ++ x :: r) := by
  cases f with
  | none =>
    rw [flag, List.nil_append, optFlag_skip (starts_tls (by decide) t (fun _ => (not_later hx).1) r)]
    cases o; simp_all
  | some b =>
    cases b <;> exact optFlag_yes (by decide)

/-- The options of a socket are read, whatever comes next, unless it is an option that can still come. -/
theorem parse_socket {w : World α ρ} (hw : Ints w) {a : Option (PyStr × Option Nat)} (ha : ∀ h p, a = some (h, p) → 58 ∉ h) (f : Option Bool) (t : Option TlsReq) {x : PyStr} (hx : x ∉ later)
    (hx' : f = none → t = none → x ≠ pyStr "-h" ∧ x ≠ pyStr "-u") (r : List PyStr) : parse w (words (.socket a f t) ++ x :: r) = .ok (optsOf (.socket a f t), x, r) := by
  rw [parse_eq, words, List.append_assoc, List.append_assoc]
  have su := starts_flags (bad := [pyStr "-u"]) (by decide) f t (fun h1 h2 => by simpa using (hx' h1 h2).2) r
  have hu : ∀ o : Opts, optUrl w o (flag "-f" "-framed" f ++ (tlsWords t ++ x :: r)) = .ok (o, flag "-f" "-framed" f ++ (tlsWords t ++ x :: r)) := fun o => optUrl_no su
  have hh : optHost w {} (hostWords a ++ (flag "-f" "-framed" f ++ (tlsWords t ++ x :: r))) =
      .ok ({ host := (a.map Prod.fst).getD (pyStr "localhost"), port := ((a.bind Prod.snd).map Int.ofNat).getD 9090, parts := a.isSome }, flag "-f" "-framed" f ++ (tlsWords t ++ x :: r)) := by
    cases a with
    | none => exact optHost_no (starts_flags (bad := [pyStr "-h"]) (by decide) f t (fun h1 h2 => by simpa using (hx' h1 h2).1) r)
    | some hp =>
      obtain ⟨h, p⟩ := hp
      simp only [hostWords, List.cons_append, List.nil_append]
      rw [optHost, if_pos rfl]
      dsimp only
      rw [hostPort_address hw _ (ha h p rfl)]
      rfl
  rw [hh, Except.ok_bind]; dsimp only
  rw [hu, Except.ok_bind]; dsimp only
  rw [flag_words _ rfl _ _ hx, Except.ok_bind]; dsimp only
  rw [tail_words _ _ hx _ ⟨rfl, rfl, rfl, rfl, rfl⟩]
  rfl

/-- A URL, and options after it -/
theorem parse_url {w : World α ρ} {text : PyStr} {u : Url} (hu : urlparse text = .ok u) {h : PyStr} {p : Int} (hp : hostPort w 80 u.netloc = .ok (h, p)) (f : Option Bool) (t : Option TlsReq) {x : PyStr}
    (hx : x ∉ later) (r : List PyStr) : parse w (pyStr "-u" :: text :: (flag "-f" "-framed" f ++ (tlsWords t ++ x :: r))) =
      .ok ({ host := h, port := p, uri := u.path ++ queryText u.query, framed := f.isSome, ssl := t.isSome, validate := (t.map fun t => !t.noValidate).getD true, caCerts := t.bind TlsReq.caCerts,
             keyfile := t.bind TlsReq.keyfile, certfile := t.bind TlsReq.certfile, http := true, parts := true, url := true }, x, r) := by
  rw [parse_eq, optHost_no (.cons (by decide) _), Except.ok_bind]; dsimp only
  have e : ∀ l, optUrl w {} (pyStr "-u" :: text :: l) = .ok ({ host := h, port := p, uri := u.path ++ queryText u.query, http := true, parts := true, url := true }, l) := by
    intro l
    rw [optUrl, if_pos rfl]
    dsimp only
    rw [hu]
    dsimp only
    rw [hp]
    dsimp only
    congr 3
    unfold queryText
    by_cases hq : u.query = [] <;> simp [hq]
  rw [e, Except.ok_bind]; dsimp only
  rw [flag_words _ rfl _ _ hx, Except.ok_bind]; dsimp only
  rw [tail_words _ _ hx _ ⟨rfl, rfl, rfl, rfl, rfl⟩]

/-- The options of a request are read. -/
theorem parse_words {w : World α ρ} (hw : Ints w) {t : Target} (ht : Valid w t) {x : PyStr} (hx : x ∉ later) (hx' : x ≠ pyStr "-h" ∧ x ≠ pyStr "-u") (r : List PyStr) :
    parse w (words t ++ x :: r) = .ok (optsOf t, x, r) := by
  cases t with
  | socket a f t => exact parse_socket hw (fun h p e => (ht.1 h p e).2) f t hx (fun _ _ => hx') r
  | web h p path q =>
    obtain ⟨h1, h2, h3⟩ := ht
    obtain ⟨p1, p2, p3⟩ := path_free h2
    have e := urlparse_eq "http" (.inl rfl) (netloc_ok h1 p) (path := path) (.inr h2.1) ⟨p1, p2⟩ (q := q) (fun e => (h3 _ e).2.2 (by simp))
    rw [splitParams_free p3] at e
    exact parse_url e (hostPort_address hw 80 (host_colon h1) p) none none hx r

/-! ### Without a function -/

theorem tail_end (o : Opts) (t : Option TlsReq) : tail o (tlsWords t) = .error .indexError := by
  cases t with
  | none => rfl
  | some t =>
    obtain ⟨l, nv, ca, key, cert⟩ := t
    cases l <;> cases nv <;> cases ca <;> cases key <;> cases cert <;>
      simp (decide := true) only [tail, tlsWords, Spec.Remote.option, optFlag, optValue, Except.bind, if_true, if_false, List.append_nil, List.nil_append, List.cons_append, Bool.false_eq_true]

theorem flag_end (o : Opts) (f : Option Bool) (t : Option TlsReq) :
    ((optFlag [pyStr "-f", pyStr "-framed"] (fun o => { o with framed := true }) o (flag "-f" "-framed" f ++ tlsWords t)).bind fun (o, r) => tail o r) = .error .indexError := by
  cases f with
  | none =>
    cases t with
    | none => rfl
    | some t =>
      have e : optFlag [pyStr "-f", pyStr "-framed"] (fun o => { o with framed := true }) o (flag "-f" "-framed" none ++ tlsWords (some t)) = .ok (o, tlsWords (some t)) := by
        apply optFlag_skip
        apply Starts.cons
        cases t.long <;> decide
      rw [e]
      exact tail_end o (some t)
  | some b =>
    have e : optFlag [pyStr "-f", pyStr "-framed"] (fun o => { o with framed := true }) o (flag "-f" "-framed" (some b) ++ tlsWords t) = .ok ({ o with framed := true }, tlsWords t) := by
      apply optFlag_yes
      cases b <;> decide
    rw [e]
    exact tail_end _ t

theorem rest_end (w : World α ρ) (o : Opts) (f : Option Bool) (t : Option TlsReq) :
    ((optUrl w o (flag "-f" "-framed" f ++ tlsWords t)).bind fun (o, r) =>
      (optFlag [pyStr "-f", pyStr "-framed"] (fun o => { o with framed := true }) o r).bind fun (o, r) => tail o r) = .error .indexError := by
  rcases f with _ | b
  · rcases t with _ | t
    · rfl
    · rw [optUrl_no (by apply Starts.cons; cases t.long <;> decide)]
      exact flag_end o none (some t)
  · rw [optUrl_no (by apply Starts.cons; cases b <;> decide)]
    exact flag_end o (some b) t

/-- Options and nothing else -/
theorem parse_end {w : World α ρ} (hw : Ints w) {t : Target} (ht : Valid w t) : parse w (words t) = .error .indexError := by
  rw [parse_eq]
  cases t with
  | socket a f t =>
    rw [words]
    cases a with
    | some hp =>
      obtain ⟨h, p⟩ := hp
      simp only [hostWords, List.cons_append, List.nil_append]
      rw [optHost, if_pos rfl]
      dsimp only
      rw [hostPort_address hw _ (ht.1 h p rfl).2]
      exact rest_end w _ f t
    | none =>
      rw [hostWords, List.nil_append]
      rcases f with _ | b
      · rcases t with _ | t
        · rfl
        · rw [optHost_no (by apply Starts.cons; cases t.long <;> decide)]
          exact rest_end w _ none (some t)
      · rw [optHost_no (by apply Starts.cons; cases b <;> decide)]
        exact rest_end w _ (some b) t
  | web h p path q =>
    obtain ⟨h1, h2, h3⟩ := ht
    obtain ⟨p1, p2, p3⟩ := path_free h2
    have e := urlparse_eq "http" (.inl rfl) (netloc_ok h1 p) (path := path) (.inr h2.1) ⟨p1, p2⟩ (q := q) (fun e => (h3 _ e).2.2 (by simp))
    rw [words, optHost_no (.cons (by decide) _), Except.ok_bind]; dsimp only
    rw [optUrl, if_pos rfl]
    dsimp only
    rw [urlText, e]
    dsimp only
    rw [hostPort_address hw 80 (host_colon h1) p]
    rfl

end Thrift.Remote
