import Verif.Proofs.RemoteParse
/-
Running the script `<Service>-remote`.
-/

namespace Thrift.Remote
open Rpc Spec Spec.Remote

variable {α ρ : Type}

/-! ### Requests -/

theorem build_ok {w : World α ρ} {t : Target} (ht : Valid w t) : build w (optsOf t) = .ok (connection t) := by
  cases t with
  | web h p path q =>
    obtain ⟨_, ⟨⟨r, rfl⟩, _⟩, _⟩ := ht
    rfl
  | socket a f t =>
    cases t with
    | none => rfl
    | some t =>
      obtain ⟨h1, h2⟩ := (ht.2 t rfl).1
      obtain ⟨l, nv, ca, key, cert⟩ := t
      dsimp only at h1 h2
      have hc : (!falsy cert && denied w cert) = false := by
        cases cert with
        | none => rfl
        | some c =>
          cases c with
          | nil => rfl
          | cons x y => simp [falsy, denied, h1 _ rfl (by simp)]
      simp only [build, optsOf, Option.bind_some, Option.isSome_some, if_true, Option.map_some, Option.getD_some, hc, connection]
      rcases h2 with rfl | ⟨c, rfl, hc1, hc2⟩
      · rfl
      · have : c.isEmpty = false := by cases c with | nil => exact absurd rfl hc1 | cons x y => rfl
        simp [falsy, denied, hc2, this]

theorem variables_mem (t : Target) (n : PyStr) : n ∈ variables (optsOf t) ↔ n ∈ scriptNames t := by
  unfold variables scriptNames
  cases t with
  | web h p path q =>
    simp only [optsOf, if_true, List.append_nil, List.append_assoc, List.mem_append]
    simp only [List.mem_cons, List.not_mem_nil, or_false]
    constructor <;> rintro (h | h | h) <;> simp only [h, true_or, or_true]
  | socket a f t =>
    cases a with
    | none => simp [optsOf]
    | some a =>
      simp only [optsOf, Option.isSome_some, if_true, Bool.false_eq_true, if_false, List.append_nil, List.append_assoc, List.mem_append, List.mem_cons, List.not_mem_nil, or_false]
      constructor <;> rintro (h | h | h) <;> simp only [h, true_or, or_true]

theorem scope_names (s : Script) (t : Target) : scope s (pyStr "client" :: variables (optsOf t)) = Spec.Remote.names s t := by
  funext n
  unfold scope Spec.Remote.names
  simp only [List.mem_cons, variables_mem]
  rfl

theorem scope_service {s : Script} {t : Target} (h : Known s t) : scope s (variables (optsOf t)) (Names.escape s.service) = some .imports := by
  unfold scope
  rw [if_neg (fun e => h.2 ((variables_mem t _).1 e)), if_neg h.1, if_pos (by simp [imported])]

theorem find_nearest {s : Script} {f : Fn} (h : Nearest s f) : (functions s).find? (·.name = f.name) = some f := by
  obtain ⟨pre, post, e, hp⟩ := h
  rw [functions, e, List.find?_append, List.find?_eq_none.2 (by simpa using hp)]
  simp

theorem root_other {ty : ArgTy} : (∃ x, ty = .typedef x) ∨ ty = .other → ∀ (w : World α ρ) (s : Script) (o : Opts) (a : PyStr),
    convert w s o ty a = (w.eval (scope s (pyStr "client" :: variables o)) a).map .obj := by
  rintro (⟨x, rfl⟩ | rfl) <;> intros <;> rfl

theorem convert_fits {w : World α ρ} {s : Script} {t : Target} {ty : ArgTy} {g : Given α} (h : Fits w (Spec.Remote.names s t) ty g) :
    convert w s (optsOf t) ty (fsDecode (onLine g)) = .ok (value g) := by
  cases ty <;> cases g <;> simp only [Fits] at h <;> try exact h.elim
  · exact congrArg (Except.map ArgVal.bytes) ((encode_fsDecode _).1 h)
  · simp only [convert, onLine, value, fsDecode_utf8 h]
  · rw [root_other (.inl ⟨_, rfl⟩), scope_names, onLine, fsDecode_utf8 h.2.1, h.2.2]; rfl
  · rw [root_other (.inr rfl), scope_names, onLine, fsDecode_utf8 h.1, h.2]; rfl

theorem convertAll_fit {w : World α ρ} {s : Script} {t : Target} : ∀ {tys : List ArgTy} {gs : List (Given α)}, AllFit w (Spec.Remote.names s t) tys gs →
    convertAll w s (optsOf t) tys (gs.map fun g => fsDecode (onLine g)) = .ok (gs.map value) ∧ gs.length = tys.length
  | [], [], _ => ⟨rfl, rfl⟩
  | ty :: tys, g :: gs, h => by
    obtain ⟨h1, h2⟩ := convertAll_fit h.2
    refine ⟨?_, by simp [h2]⟩
    rw [List.map_cons, convertAll, convert_fits h.1]
    dsimp only [Except.bind]
    rw [h1]; rfl

/-- The script once the options are read -/
theorem run_of {w : World α ρ} {s : Script} {argv : List Bytes} {L : List PyStr} (hL : argv.map fsDecode = L) (hh : L.head? ≠ some (pyStr "--help")) {o : Opts} {cmd : PyStr} {args : List PyStr}
    (hp : parse w L = .ok (o, cmd, args)) : run w s argv =
      match build w o with
      | .error e => [.raised e]
      | .ok t =>
        if scope s (variables o) (Names.escape s.service) ≠ some .imports then [.raised .attributeError]
        else
          match w.refused t with
          | some e => [.raised e]
          | none => .opened t :: dispatch w s o t cmd args := by
  unfold run
  rw [hL]
  cases L with
  | nil => cases hp
  | cons a r =>
    dsimp only
    rw [if_neg (by simpa using hh), hp]
    rfl

theorem map_words {l : List PyStr} (h : ∀ x ∈ l, Text x) : (l.map utf8).map fsDecode = l := by
  induction l with
  | nil => rfl
  | cons x l ih => rw [List.map_cons, List.map_cons, fsDecode_utf8 (h x (by simp)), ih fun y hy => h y (by simp [hy])]

theorem text_ascii {s : PyStr} (h : ∀ c ∈ s, c < 128) : Text s := fun c hc => .inl (by have := h c hc; omega)

theorem decimal_text (n : Nat) : Text (decimal n) := text_ascii fun c hc => by have := decimal_digits hc; omega

theorem text_append {a b : PyStr} (ha : Text a) (hb : Text b) : Text (a ++ b) := fun c hc => by
  rcases List.mem_append.1 hc with h | h
  · exact ha c h
  · exact hb c h

theorem text_cons {c : Nat} {b : PyStr} (ha : c < 128) (hb : Text b) : Text (c :: b) := fun d hd => by
  rcases List.mem_cons.1 hd with rfl | h
  · exact .inl (by omega)
  · exact hb d h

theorem address_text {h : PyStr} (hh : Text h) (p : Option Nat) : Text (address h p) := by
  cases p with
  | none => exact hh
  | some n => exact text_append hh (text_cons (by decide) (decimal_text n))

theorem plain_text {bad : List Nat} {s : PyStr} (h : Plain bad s) : Text s := text_ascii fun c hc => by have := h c hc; omega

theorem query_text {q : PyStr} (h : Text q) : Text (queryText q) := by
  unfold queryText
  split
  · exact fun c hc => by cases hc
  · exact text_cons (by decide) h

theorem url_text (scheme : String) (hsc : scheme = "http" ∨ scheme = "https") {h : PyStr} (hh : Text h) (p : Option Nat) {path q : PyStr} (hp : Text path) (hq : Text q) : Text (urlText scheme h p path q) := by
  have : Text (pyStr scheme) := by rcases hsc with rfl | rfl <;> exact text_ascii (by decide)
  exact text_append this (text_append (text_ascii (by decide)) (text_append (address_text hh p) (text_append hp (query_text hq))))

theorem option_text {n : PyStr} (hn : Text n) {v : Option PyStr} (h : ∀ c, v = some c → Text c) : ∀ x ∈ option n v, Text x := by
  cases v with
  | none => simp [Spec.Remote.option]
  | some v =>
    simp only [Spec.Remote.option, List.mem_cons, List.not_mem_nil, or_false]
    rintro x (rfl | rfl)
    · exact hn
    · exact h _ rfl

theorem flag_text (f : Option Bool) : ∀ x ∈ flag "-f" "-framed" f, Text x := by
  rcases f with _ | _ | _
  · simp [flag]
  · simp only [flag, List.mem_singleton]; rintro x rfl; exact text_ascii (by decide)
  · simp only [flag, List.mem_singleton]; rintro x rfl; exact text_ascii (by decide)

theorem tls_text {t : Option TlsReq} (h : ∀ q, t = some q → TlsTexts q) : ∀ x ∈ tlsWords t, Text x := by
  cases t with
  | none => simp [tlsWords]
  | some t =>
    have ht := h t rfl
    intro x hx
    simp only [tlsWords, List.mem_append, List.mem_singleton] at hx
    rcases hx with hx | hx | hx | hx | hx
    · subst hx; cases t.long <;> exact text_ascii (by decide)
    · cases hn : t.noValidate with
      | false => rw [hn] at hx; simp at hx
      | true => rw [hn] at hx; simp at hx; subst hx; exact text_ascii (by decide)
    · exact option_text (text_ascii (by decide)) (ht _ (by simp)) x hx
    · exact option_text (text_ascii (by decide)) (ht _ (by simp)) x hx
    · exact option_text (text_ascii (by decide)) (ht _ (by simp)) x hx

theorem words_text {w : World α ρ} {t : Target} (ht : Valid w t) : ∀ x ∈ words t, Text x := by
  cases t with
  | socket a f t =>
    intro x hx
    simp only [words, List.mem_append] at hx
    rcases hx with hx | hx | hx
    · cases a with
      | none => simp [hostWords] at hx
      | some hp =>
        obtain ⟨h, p⟩ := hp
        simp only [hostWords, List.mem_cons, List.not_mem_nil, or_false] at hx
        rcases hx with rfl | rfl
        · exact text_ascii (by decide)
        · exact address_text (ht.1 h p rfl).1 p
    · exact flag_text f x hx
    · exact tls_text (fun q hq => (ht.2 q hq).2) x hx
  | web h p path q =>
    obtain ⟨h1, h2, h3⟩ := ht
    intro x hx
    simp only [words, List.mem_cons, List.not_mem_nil, or_false] at hx
    rcases hx with rfl | rfl
    · exact text_ascii (by decide)
    · exact url_text _ (.inl rfl) (plain_text h1) p (plain_text h2.2) (plain_text h3)

/-- The first word is not `--help`. -/
theorem words_head (t : Target) {x : PyStr} (hx : x ≠ pyStr "--help") (r : List PyStr) : (words t ++ x :: r).head? ≠ some (pyStr "--help") := by
  cases t with
  | web h p path q => simp only [words, List.cons_append, List.head?_cons, ne_eq, Option.some.injEq]; decide
  | socket a f t =>
    rw [words, List.append_assoc, List.append_assoc]
    cases a with
    | some hp => obtain ⟨h, p⟩ := hp; simp only [hostWords, List.cons_append, List.head?_cons, ne_eq, Option.some.injEq]; decide
    | none =>
      obtain ⟨y, z, e, hy⟩ := starts_flags (bad := [pyStr "--help"]) (by decide) f t (fun _ _ => by simpa using hx) r
      rw [hostWords, List.nil_append, e, List.head?_cons]
      simpa using hy

theorem ident_later {x : PyStr} (h : Ident x) : x ∉ later ∧ (x ≠ pyStr "-h" ∧ x ≠ pyStr "-u") ∧ x ≠ pyStr "--help" := by
  have : ∀ y : PyStr, y.head? = some 45 → x ≠ y := by rintro y hy rfl; exact h.2 hy
  refine ⟨?_, ⟨this _ (by decide), this _ (by decide)⟩, this _ (by decide)⟩
  intro hx
  have : ∀ y ∈ later, y.head? = some 45 := by decide
  exact h.2 (this x hx)

/-- Once a request is written properly, all that matters is the function. -/
theorem run_line {w : World α ρ} (hw : Ints w) {s : Script} {t : Target} (ht : Valid w t) (hk : Known s t) (ho : w.refused (connection t) = none) {cmd : PyStr} (hc : Ident cmd) (args : List Bytes) :
    run w s (line t cmd args) = .opened (connection t) :: dispatch w s (optsOf t) (connection t) cmd (args.map fsDecode) := by
  obtain ⟨i1, i2, i3⟩ := ident_later hc
  rw [run_of (L := words t ++ cmd :: args.map fsDecode) (by rw [line, List.map_append, map_words (words_text ht), List.map_cons, fsDecode_utf8 hc.1]) (words_head t i3 _) (parse_words hw ht i1 i2 _), build_ok ht]
  dsimp only
  rw [if_neg (by rw [scope_service hk]; simp), ho]

/-- A URL and options after it -/
theorem run_url {w : World α ρ} {s : Script} (hw : Ints w) {scheme : String} (hsc : scheme = "http" ∨ scheme = "https") {h path q : PyStr} (hh : Host h) (hp : path = [] ∨ ∃ r, path = 47 :: r) (hpath : Plain [63, 35] path) (hq : Query q) (p : Option Nat)
    (fr : Option Bool) {tls : Option TlsReq} (htls : ∀ q, tls = some q → TlsTexts q) (hk : Known s (.web h p path q)) {cmd : PyStr} (hc : Ident cmd) (args : List Bytes) :
    run w s ((pyStr "-u" :: urlText scheme h p path q :: (flag "-f" "-framed" fr ++ tlsWords tls)).map utf8 ++ utf8 cmd :: args) =
      if (splitParams path).1 ++ queryText q = [] then [.raised .assertion]
      else
        match w.refused (.http h ((p.map Int.ofNat).getD 80) ((splitParams path).1 ++ queryText q)) with
        | some e => [.raised e]
        | none => .opened (.http h ((p.map Int.ofNat).getD 80) ((splitParams path).1 ++ queryText q)) ::
          dispatch w s { host := h, port := (p.map Int.ofNat).getD 80, uri := (splitParams path).1 ++ queryText q, framed := fr.isSome, ssl := tls.isSome, validate := (tls.map fun t => !t.noValidate).getD true,
                         caCerts := tls.bind TlsReq.caCerts, keyfile := tls.bind TlsReq.keyfile, certfile := tls.bind TlsReq.certfile, http := true, parts := true, url := true }
            (.http h ((p.map Int.ofNat).getD 80) ((splitParams path).1 ++ queryText q)) cmd (args.map fsDecode) := by
  obtain ⟨i1, i2, i3⟩ := ident_later hc
  have hu := urlparse_eq scheme hsc (netloc_ok hh p) (path := path) hp ⟨fun e => (hpath _ e).2.2 (by simp), fun e => (hpath _ e).2.2 (by simp)⟩ (q := q) (fun e => (hq _ e).2.2 (by simp))
  have hparse := parse_url hu (hostPort_address hw 80 (host_colon hh) p) fr tls i1 (args.map fsDecode)
  have hv : ∀ x ∈ pyStr "-u" :: urlText scheme h p path q :: (flag "-f" "-framed" fr ++ tlsWords tls), Text x := by
    intro x hx
    simp only [List.mem_cons, List.mem_append] at hx
    rcases hx with rfl | rfl | hx | hx
    · exact text_ascii (by decide)
    · exact url_text _ hsc (plain_text hh) p (plain_text hpath) (plain_text hq)
    · exact flag_text fr x hx
    · exact tls_text htls x hx
  rw [run_of (L := pyStr "-u" :: urlText scheme h p path q :: (flag "-f" "-framed" fr ++ (tlsWords tls ++ cmd :: args.map fsDecode))) (by rw [List.map_append, map_words hv, List.map_cons, fsDecode_utf8 hc.1]; simp)
    (by simp only [List.head?_cons, ne_eq, Option.some.injEq]; decide) hparse]
  by_cases h0 : (splitParams path).1 ++ queryText q = []
  · rw [if_pos h0]
    simp only [build, if_true, h0]
  · rw [if_neg h0]
    simp only [build, if_true, if_neg h0]
    rw [if_neg (c := scope s _ _ ≠ some Src.imports)]
    rw [show variables { host := h, port := (p.map Int.ofNat).getD 80, uri := (splitParams path).1 ++ queryText q, framed := fr.isSome, ssl := tls.isSome, validate := (tls.map fun t => !t.noValidate).getD true, caCerts := tls.bind TlsReq.caCerts, keyfile := tls.bind TlsReq.keyfile, certfile := tls.bind TlsReq.certfile, http := true, parts := true, url := true } = variables (optsOf (.web h p path q)) from rfl, scope_service hk]
    simp

/-! ### Any command line -/

/-- What every step does to the list of words and to the name of the host -/
def Stage (o : Opts) (l : List PyStr) : Except Exc (Opts × List PyStr) → Prop
  | .ok (o', r) => (∃ p, l = p ++ r) ∧ (58 ∉ o.host → 58 ∉ o'.host)
  | .error _ => True

theorem split_head (sep : Nat) (t : PyStr) : ∀ h r, split sep t = h :: r → sep ∉ h := by
  induction t with
  | nil => intro h r e; cases e; simp
  | cons c t ih =>
    intro h r e
    rw [split] at e
    split at e
    · cases e; simp
    · rename_i hc
      cases hs : split sep t with
      | nil =>
        rw [hs] at e
        cases e
        simp only [List.mem_singleton]
        exact fun e => hc e.symm
      | cons p ps =>
        have := ih p ps hs
        rw [hs] at e
        cases e
        simp only [List.mem_cons, not_or]
        exact ⟨fun e => hc e.symm, this⟩

theorem hostPort_host {w : World α ρ} {d : Int} {t h : PyStr} {p : Int} (e : hostPort w d t = .ok (h, p)) : 58 ∉ h := by
  unfold hostPort at e
  split at e
  · rename_i x y z hs
    split at e
    · cases e; exact split_head 58 t _ _ hs
    · cases e
  · rename_i x hs
    cases e; exact split_head 58 t _ _ hs
  · cases e

theorem stage_host (w : World α ρ) (o : Opts) (l : List PyStr) : Stage o l (optHost w o l) := by
  rw [optHost.eq_def]
  cases l with
  | nil => trivial
  | cons a r =>
    dsimp only
    split
    · cases r with
      | nil => trivial
      | cons v r =>
        dsimp only
        cases hp : hostPort w o.port v with
        | error e => trivial
        | ok x =>
          obtain ⟨h, p⟩ := x
          exact ⟨⟨[a, v], rfl⟩, fun _ => hostPort_host hp⟩
    · exact ⟨⟨[], rfl⟩, id⟩

theorem stage_url (w : World α ρ) (o : Opts) (l : List PyStr) : Stage o l (optUrl w o l) := by
  rw [optUrl.eq_def]
  cases l with
  | nil => trivial
  | cons a r =>
    dsimp only
    split
    · cases r with
      | nil => trivial
      | cons v r =>
        dsimp only
        cases hu : urlparse v with
        | error e => trivial
        | ok u =>
          dsimp only
          cases hp : hostPort w 80 u.netloc with
          | error e => trivial
          | ok x =>
            obtain ⟨h, p⟩ := x
            exact ⟨⟨[a, v], rfl⟩, fun _ => hostPort_host hp⟩
    · exact ⟨⟨[], rfl⟩, id⟩

theorem stage_flag (ns : List PyStr) (set : Opts → Opts) (hs : ∀ o, (set o).host = o.host) (o : Opts) (l : List PyStr) : Stage o l (optFlag ns set o l) := by
  rw [optFlag.eq_def]
  cases l with
  | nil => trivial
  | cons a r =>
    dsimp only
    split
    · exact ⟨⟨[a], rfl⟩, fun h => by rw [hs]; exact h⟩
    · exact ⟨⟨[], rfl⟩, id⟩

theorem stage_value (n : PyStr) (set : Opts → PyStr → Opts) (hs : ∀ o v, (set o v).host = o.host) (o : Opts) (l : List PyStr) : Stage o l (optValue n set o l) := by
  rw [optValue.eq_def]
  cases l with
  | nil => trivial
  | cons a r =>
    dsimp only
    split
    · cases r with
      | nil => trivial
      | cons v r => exact ⟨⟨[a, v], rfl⟩, fun h => by rw [hs]; exact h⟩
    · exact ⟨⟨[], rfl⟩, id⟩

theorem stage_bind {o : Opts} {l : List PyStr} {x : Except Exc (Opts × List PyStr)} (hx : Stage o l x) {f : Opts × List PyStr → Except Exc (Opts × PyStr × List PyStr)} {o' : Opts} {c : PyStr} {a : List PyStr}
    (h : x.bind f = .ok (o', c, a)) : ∃ o1 r p, f (o1, r) = .ok (o', c, a) ∧ l = p ++ r ∧ (58 ∉ o.host → 58 ∉ o1.host) := by
  cases x with
  | error e => cases h
  | ok y =>
    obtain ⟨o1, r⟩ := y
    obtain ⟨⟨p, hp⟩, hh⟩ := hx
    exact ⟨o1, r, p, h, hp, hh⟩

theorem parse_inv {w : World α ρ} {l : List PyStr} {o : Opts} {c : PyStr} {a : List PyStr} (h : parse w l = .ok (o, c, a)) : (∃ p, l = p ++ c :: a) ∧ 58 ∉ o.host := by
  unfold parse at h
  obtain ⟨o1, r1, p1, h, e1, k1⟩ := stage_bind (by exact stage_host _ _ _) h
  dsimp only at h
  obtain ⟨o2, r2, p2, h, e2, k2⟩ := stage_bind (by exact stage_url _ _ _) h
  dsimp only at h
  obtain ⟨o3, r3, p3, h, e3, k3⟩ := stage_bind (by apply stage_flag; intros; rfl) h
  dsimp only at h
  obtain ⟨o4, r4, p4, h, e4, k4⟩ := stage_bind (by apply stage_flag; intros; rfl) h
  dsimp only at h
  obtain ⟨o5, r5, p5, h, e5, k5⟩ := stage_bind (by apply stage_flag; intros; rfl) h
  dsimp only at h
  obtain ⟨o6, r6, p6, h, e6, k6⟩ := stage_bind (by apply stage_value; intros; rfl) h
  dsimp only at h
  obtain ⟨o7, r7, p7, h, e7, k7⟩ := stage_bind (by apply stage_value; intros; rfl) h
  dsimp only at h
  obtain ⟨o8, r8, p8, h, e8, k8⟩ := stage_bind (by apply stage_value; intros; rfl) h
  dsimp only at h
  cases r8 with
  | nil => cases h
  | cons x y =>
    simp only [Except.ok.injEq, Prod.mk.injEq] at h
    obtain ⟨rfl, rfl, rfl⟩ := h
    refine ⟨⟨p1 ++ p2 ++ p3 ++ p4 ++ p5 ++ p6 ++ p7 ++ p8, ?_⟩, k8 (k7 (k6 (k5 (k4 (k3 (k2 (k1 (by decide))))))))⟩
    rw [e1, e2, e3, e4, e5, e6, e7, e8]
    simp

theorem build_host {w : World α ρ} {o : Opts} {t : Trans} (h : build w o = .ok t) : (∃ p q, t = .http o.host p q) ∨ ∃ p f l, t = .socket o.host p f l := by
  unfold build at h
  repeat' split at h
  all_goals first | (cases h; done) | (cases h; simp)

/-- What happens at all -/
theorem run_cases (w : World α ρ) (s : Script) (argv : List Bytes) :
    run w s argv = [.usage, .exit 0] ∨ (∃ e, run w s argv = [.raised e]) ∨
      ∃ o cmd args t, parse w (argv.map fsDecode) = .ok (o, cmd, args) ∧ build w o = .ok t ∧ run w s argv = .opened t :: dispatch w s o t cmd args := by
  unfold run
  cases argv.map fsDecode with
  | nil => exact .inl rfl
  | cons a r =>
    dsimp only
    split
    · exact .inl rfl
    · right
      cases hp : parse w (a :: r) with
      | error e => exact .inl ⟨e, rfl⟩
      | ok x =>
        obtain ⟨o, cmd, args⟩ := x
        dsimp only
        cases hb : build w o with
        | error e => exact .inl ⟨e, rfl⟩
        | ok t =>
          dsimp only
          split
          · exact .inl ⟨_, rfl⟩
          · cases w.refused t with
            | some e => exact .inl ⟨e, rfl⟩
            | none => exact .inr ⟨o, cmd, args, t, rfl, hb, rfl⟩

theorem received {w : World α ρ} {s : Script} {o : Opts} {ty : ArgTy} {b : Bytes} {v : ArgVal α} (h : convert w s o ty (fsDecode b) = .ok v) : Received ty b v := by
  cases ty with
  | binary =>
    simp only [convert] at h
    by_cases hb : IsUtf8 b
    · rw [(encode_fsDecode b).1 hb] at h; cases h; rfl
    · rw [(encode_fsDecode b).2 hb] at h; cases h
  | string =>
    simp only [convert] at h
    cases h
    exact fun ht => fsDecode_all ht
  | typedef x =>
    rw [root_other (.inl ⟨_, rfl⟩)] at h
    cases he : w.eval (scope s (pyStr "client" :: variables o)) (fsDecode b) with
    | error e => rw [he] at h; cases h
    | ok a => rw [he] at h; cases h; trivial
  | other =>
    rw [root_other (.inr rfl)] at h
    cases he : w.eval (scope s (pyStr "client" :: variables o)) (fsDecode b) with
    | error e => rw [he] at h; cases h
    | ok a => rw [he] at h; cases h; trivial

theorem all_received {w : World α ρ} {s : Script} {o : Opts} : ∀ {tys : List ArgTy} {bs : List Bytes} {vs : List (ArgVal α)}, bs.length = tys.length →
    convertAll w s o tys (bs.map fsDecode) = .ok vs → AllReceived tys bs vs
  | [], [], vs, _, h => by cases h; trivial
  | ty :: tys, b :: bs, vs, hl, h => by
    rw [List.map_cons, convertAll] at h
    cases hc : convert w s o ty (fsDecode b) with
    | error e => rw [hc] at h; cases h
    | ok v =>
      rw [hc] at h
      dsimp only [Except.bind] at h
      cases hr : convertAll w s o tys (bs.map fsDecode) with
      | error e => rw [hr] at h; cases h
      | ok vs' =>
        rw [hr] at h
        cases h
        exact ⟨received hc, all_received (by simpa using hl) hr⟩

theorem nearest_find {s : Script} {f : Fn} {n : PyStr} (h : (functions s).find? (·.name = n) = some f) : f.name = n ∧ Nearest s f := by
  rw [List.find?_eq_some_iff_append] at h
  obtain ⟨h1, pre, post, e, h2⟩ := h
  have h1 : f.name = n := by simpa using h1
  refine ⟨h1, pre, post, e, ?_⟩
  intro g hg
  have := h2 g hg
  rw [h1]
  simpa using this

end Thrift.Remote
