import Verif.Proofs.RemoteRun
/-
C95: the generated script `<Service>-remote` calls the function one asks for, at the server one asks for, with the arguments one gives.

`w` is what is not modelled (`int`, `eval`, files, the network, the generated client), `s` what the script is generated from. `line t cmd args` is the command line for the target `t`.
-/

namespace Thrift.Remote
open Rpc Spec Spec.Remote

variable {α ρ : Type} {w : World α ρ} {s : Script} {t : Target}

/-- C95. For all services, targets, functions and arguments of any number and length: the script connects to the target, calls the function with exactly these arguments, prints the result and closes the connection. What is
missing is in the conditions: hosts without colon and URLs of `http` with a path (`Valid`), bytes that are UTF-8, no typedef of `string` or `binary` (`AllFit`), a service whose name the script does not use (`Known`). -/
theorem calls_partial (hw : Ints w) (ht : Valid w t) (hk : Known s t) {f : Fn} (hf : Nearest s f) (hi : Ident f.name) {gs : List (Given α)} (hg : AllFit w (Spec.Remote.names s t) f.args gs)
    (ho : w.refused (connection t) = none) {r : ρ} (hr : w.call (Names.escape f.name) (gs.map value) = .ok r) :
    run w s (line t f.name (gs.map onLine)) = [.opened (connection t), .called (Names.escape f.name) (gs.map value), .result r, .closed (connection t)] := by
  obtain ⟨h1, h2⟩ := convertAll_fit hg
  rw [run_line hw ht hk ho hi, dispatch, find_nearest hf]
  simp only [List.map_map, List.length_map, h2, ne_eq, not_true_eq_false, if_false]
  rw [show (fsDecode ∘ onLine : Given α → PyStr) = fun g => fsDecode (onLine g) from rfl, h1]
  dsimp only
  rw [hr]

/-- The same if the call fails: the exception ends the script, which does not close the connection. -/
theorem calls_raises (hw : Ints w) (ht : Valid w t) (hk : Known s t) {f : Fn} (hf : Nearest s f) (hi : Ident f.name) {gs : List (Given α)} (hg : AllFit w (Spec.Remote.names s t) f.args gs)
    (ho : w.refused (connection t) = none) {e : Exc} (hr : w.call (Names.escape f.name) (gs.map value) = .error e) :
    run w s (line t f.name (gs.map onLine)) = [.opened (connection t), .called (Names.escape f.name) (gs.map value), .raised e] := by
  obtain ⟨h1, h2⟩ := convertAll_fit hg
  rw [run_line hw ht hk ho hi, dispatch, find_nearest hf]
  simp only [List.map_map, List.length_map, h2, ne_eq, not_true_eq_false, if_false]
  rw [show (fsDecode ∘ onLine : Given α → PyStr) = fun g => fsDecode (onLine g) from rfl, h1]
  dsimp only
  rw [hr]

/-- Whatever the command line: the script calls at most one function, over one connection, and then it is one that the last words name, with as many arguments as are declared. Texts and bytes are those of the command line. -/
theorem only_asked {argv : List Bytes} {m : PyStr} {vs : List (ArgVal α)} (h : .called m vs ∈ run w s argv) :
    ∃ pre cmd args f c, argv = pre ++ cmd :: args ∧ Nearest s f ∧ (Text f.name → cmd = utf8 f.name) ∧ m = Names.escape f.name ∧ AllReceived f.args args vs ∧
      ((∃ e, run w s argv = [.opened c, .called m vs, .raised e]) ∨ ∃ r, run w s argv = [.opened c, .called m vs, .result r, .closed c]) := by
  rcases run_cases w s argv with e | ⟨e, e'⟩ | ⟨o, cmd, args, c, hp, hb, e⟩
  · rw [e] at h; simp at h
  · rw [e'] at h; simp at h
  · obtain ⟨⟨p, hp⟩, -⟩ := parse_inv hp
    obtain ⟨pre, l, rfl, rfl, hl⟩ := List.map_eq_append_iff.1 hp
    obtain ⟨cmd', args', rfl, rfl, rfl⟩ := List.map_eq_cons_iff.1 hl
    rw [e] at h
    simp only [List.mem_cons, reduceCtorEq, false_or] at h
    rw [dispatch] at h
    cases hf : (functions s).find? (·.name = fsDecode cmd') with
    | none =>
      rw [hf] at h
      dsimp only at h
      split at h <;> simp at h
    | some f =>
      rw [hf] at h
      dsimp only at h
      by_cases hl : (args'.map fsDecode).length ≠ f.args.length
      · rw [if_pos hl] at h; simp at h
      · rw [if_neg hl] at h
        have hl' : args'.length = f.args.length := by simpa using hl
        cases hc : convertAll w s o f.args (args'.map fsDecode) with
        | error x => rw [hc] at h; simp at h
        | ok vs' =>
          rw [hc] at h
          dsimp only at h
          have hm : m = Names.escape f.name ∧ vs = vs' := by
            cases hr : w.call (Names.escape f.name) vs' with
            | error x => rw [hr] at h; simpa using h
            | ok r => rw [hr] at h; simpa using h
          obtain ⟨rfl, rfl⟩ := hm
          obtain ⟨hn, hnear⟩ := nearest_find hf
          have hrun : run w s (pre ++ cmd' :: args') = .opened c :: .called (Names.escape f.name) vs :: (match w.call (Names.escape f.name) vs with
              | .error e => [.raised e]
              | .ok r => [.result r, .closed c]) := by
            rw [e, dispatch, hf]
            dsimp only
            rw [if_neg hl, hc]
            rfl
          have hcmd : Text f.name → cmd' = utf8 f.name := fun ht => by rw [hn, fsDecode_all (by rw [← hn]; exact ht)]
          cases hr : w.call (Names.escape f.name) vs with
          | error x =>
            rw [hr] at hrun
            exact ⟨pre, cmd', args', f, c, rfl, hnear, hcmd, rfl, all_received hl' hc, .inl ⟨x, hrun⟩⟩
          | ok r =>
            rw [hr] at hrun
            exact ⟨pre, cmd', args', f, c, rfl, hnear, hcmd, rfl, all_received hl' hc, .inr ⟨r, hrun⟩⟩

/-- A function that is not there is noticed only after the connection is made. -/
theorem unknown_function (hw : Ints w) (ht : Valid w t) (hk : Known s t) (ho : w.refused (connection t) = none) {cmd : PyStr} (hc : Ident cmd) (hn : ∀ f ∈ s.chain.flatten, f.name ≠ cmd) (h0 : s.chain.flatten ≠ [])
    (args : List Bytes) : run w s (line t cmd args) = [.opened (connection t), .unrecognized cmd, .exit 1] := by
  rw [run_line hw ht hk ho hc, dispatch, show (functions s).find? (·.name = cmd) = none from List.find?_eq_none.2 (by simpa [functions] using hn)]
  dsimp only
  rw [if_neg (show functions s ≠ [] from h0)]

/-- The same if there are too many or too few arguments. -/
theorem wrong_number (hw : Ints w) (ht : Valid w t) (hk : Known s t) (ho : w.refused (connection t) = none) {f : Fn} (hf : Nearest s f) (hi : Ident f.name) {args : List Bytes} (hl : args.length ≠ f.args.length) :
    run w s (line t f.name args) = [.opened (connection t), .requires f.name f.args.length, .exit 1] := by
  rw [run_line hw ht hk ho hi, dispatch, find_nearest hf]
  dsimp only
  rw [if_pos (by simpa using hl)]

/-- No words, or `--help`: the script explains itself and connects to nothing. -/
theorem help (w : World α ρ) (s : Script) (rest : List Bytes) : run w s [] = [.usage, .exit 0] ∧ run w s (utf8 (pyStr "--help") :: rest) = [.usage, .exit 0] := by
  refine ⟨rfl, ?_⟩
  rw [run, List.map_cons, fsDecode_utf8 (text_ascii (by decide))]
  dsimp only
  rw [if_pos rfl]

/-! ### What goes wrong -/

/-- Options count only in one order: after another option, `-h` or `-u` is the name of a function. The script connects to `localhost`, or to wherever the first words say. -/
theorem late_target (hw : Ints w) {a : Option (PyStr × Option Nat)} {fr : Option Bool} {tls : Option TlsReq} (ht : Valid w (.socket a fr tls)) (hk : Known s (.socket a fr tls))
    (ho : w.refused (connection (.socket a fr tls)) = none) (h1 : fr.isSome ∨ tls.isSome) {x : PyStr} (hx : x = pyStr "-h" ∨ x = pyStr "-u") (hn : ∀ f ∈ s.chain.flatten, Ident f.name) (h0 : s.chain.flatten ≠ []) (rest : List Bytes) :
    run w s (line (.socket a fr tls) x rest) = [.opened (connection (.socket a fr tls)), .unrecognized x, .exit 1] := by
  have hl : x ∉ later ∧ x ≠ pyStr "--help" ∧ Text x ∧ x.head? = some 45 := by
    rcases hx with rfl | rfl <;> exact ⟨by decide, by decide, text_ascii (by decide), by decide⟩
  obtain ⟨l1, l2, l3, l4⟩ := hl
  have hp := parse_socket hw (fun h p e => (ht.1 h p e).2) fr tls l1 (fun e1 e2 => by subst e1 e2; simp at h1) (rest.map fsDecode)
  rw [run_of (by rw [line, List.map_append, map_words (words_text ht), List.map_cons, fsDecode_utf8 l3]) (words_head _ l2 _) hp, build_ok ht]
  dsimp only
  rw [if_neg (by rw [scope_service hk]; simp), ho]
  dsimp only
  rw [dispatch, show (functions s).find? (·.name = x) = none from List.find?_eq_none.2 (by
    intro f hf
    have := (hn f (by simpa [functions] using hf)).2
    simp only [decide_eq_true_eq]
    rintro rfl
    exact this l4)]
  dsimp only
  rw [if_neg (show functions s ≠ [] from h0)]

/-- Options without a function are an `IndexError`. -/
theorem no_function (hw : Ints w) (ht : Valid w t) (h0 : words t ≠ []) : run w s ((words t).map utf8) = [.raised .indexError] := by
  have hh : (words t).head? ≠ some (pyStr "--help") := by
    obtain ⟨x, r, e⟩ : ∃ x r, words t = x :: r := by
      cases hws : words t with
      | nil => exact absurd hws h0
      | cons x r => exact ⟨x, r, rfl⟩
    have := words_head t (x := []) (by decide) []
    rw [e] at this ⊢
    exact this
  unfold run
  rw [map_words (words_text ht)]
  have hp := parse_end hw ht
  cases hws : words t with
  | nil => exact absurd hws h0
  | cons x r =>
    rw [hws] at hp hh
    dsimp only
    rw [if_neg (by simpa using hh), hp]

/-- No host has a colon, so the script cannot connect to an address of IPv6. -/
theorem no_ipv6 {argv : List Bytes} {c : Trans} (h : .opened c ∈ run w s argv) : (∃ h p q, c = .http h p q ∧ 58 ∉ h) ∨ ∃ h p f l, c = .socket h p f l ∧ 58 ∉ h := by
  rcases run_cases w s argv with e | ⟨e, e'⟩ | ⟨o, cmd, args, t, hp, hb, e⟩
  · rw [e] at h; simp at h
  · rw [e'] at h; simp at h
  · have hh := (parse_inv hp).2
    have hc : c = t := by
      rw [e] at h
      simp only [List.mem_cons, Act.opened.injEq] at h
      rcases h with h | h
      · exact h
      · exfalso
        rw [dispatch] at h
        cases hf : (functions s).find? (·.name = cmd) with
        | none => rw [hf] at h; dsimp only at h; split at h <;> simp at h
        | some f =>
          rw [hf] at h
          dsimp only at h
          split at h
          · simp at h
          · cases hc : convertAll w s o f.args args with
            | error x => rw [hc] at h; simp at h
            | ok vs =>
              rw [hc] at h
              dsimp only at h
              cases hr : w.call (Names.escape f.name) vs with
              | error x => rw [hr] at h; simp at h
              | ok r => rw [hr] at h; simp at h
    subst hc
    rcases build_host hb with ⟨p, q, rfl⟩ | ⟨p, f, l, rfl⟩
    · exact .inl ⟨_, _, _, rfl, hh⟩
    · exact .inr ⟨_, _, _, _, rfl, hh⟩

/-- The scheme of a URL and `-ssl` after it do not count: the script connects to a URL of `https` without TLS, to port 80. -/
theorem https_plain (hw : Ints w) {scheme : String} (hsc : scheme = "http" ∨ scheme = "https") {h path q : PyStr} (hh : Host h) (hp : Path path) (hq : Query q) (p : Option Nat) (fr : Option Bool) {tls : Option TlsReq}
    (htls : ∀ q, tls = some q → TlsTexts q) (hk : Known s (.web h p path q)) (ho : w.refused (.http h ((p.map Int.ofNat).getD 80) (path ++ queryText q)) = none) {cmd : PyStr} (hc : Ident cmd) (args : List Bytes) :
    (run w s ((pyStr "-u" :: urlText scheme h p path q :: (flag "-f" "-framed" fr ++ tlsWords tls)).map utf8 ++ utf8 cmd :: args)).head? = some (.opened (.http h ((p.map Int.ofNat).getD 80) (path ++ queryText q))) := by
  rw [run_url hw hsc hh (.inr hp.1) (fun c hc => by have := hp.2 c hc; simp at this ⊢; omega) hq p fr htls hk hc args, splitParams_free (path_free hp).2.2, if_neg (by obtain ⟨⟨r, rfl⟩, _⟩ := hp; simp), ho]
  rfl

/-- A URL needs a path, if only `/`. -/
theorem no_path (hw : Ints w) {scheme : String} (hsc : scheme = "http" ∨ scheme = "https") {h : PyStr} (hh : Host h) (p : Option Nat) (hk : Known s (.web h p [] [])) {cmd : PyStr} (hc : Ident cmd) (args : List Bytes) :
    run w s ([pyStr "-u", urlText scheme h p [] []].map utf8 ++ utf8 cmd :: args) = [.raised .assertion] := by
  have := run_url hw hsc hh (path := []) (q := []) (.inl rfl) (fun c hc => by cases hc) (fun c hc => by cases hc) p none (tls := none) (by simp) hk hc args
  exact this

/-- The parameters of the last segment of the path are dropped. -/
theorem params_dropped (hw : Ints w) {scheme : String} (hsc : scheme = "http" ∨ scheme = "https") {h d a b q : PyStr} (hh : Host h) (hd : ∃ r, d ++ [47] = 47 :: r) (hpd : Plain [63, 35] d) (ha : Plain [63, 35, 47, 59] a)
    (hb : Plain [63, 35, 47] b) (hq : Query q) (p : Option Nat) (hk : Known s (.web h p (d ++ 47 :: (a ++ 59 :: b)) q)) (ho : w.refused (.http h ((p.map Int.ofNat).getD 80) (d ++ 47 :: a ++ queryText q)) = none) {cmd : PyStr}
    (hc : Ident cmd) (args : List Bytes) :
    (run w s ([pyStr "-u", urlText scheme h p (d ++ 47 :: (a ++ 59 :: b)) q].map utf8 ++ utf8 cmd :: args)).head? = some (.opened (.http h ((p.map Int.ofNat).getD 80) (d ++ 47 :: a ++ queryText q))) := by
  have hpl : Plain [63, 35] (d ++ 47 :: (a ++ 59 :: b)) := by
    intro c hc
    simp only [List.mem_append, List.mem_cons] at hc
    rcases hc with hc | rfl | hc | rfl | hc
    · exact hpd c hc
    · simp
    · have := ha c hc; simp at this ⊢; omega
    · simp
    · have := hb c hc; simp at this ⊢; omega
  have hsl : ∃ r, d ++ 47 :: (a ++ 59 :: b) = 47 :: r := by
    obtain ⟨r, hr⟩ := hd
    refine ⟨r ++ (a ++ 59 :: b), ?_⟩
    have := congrArg (· ++ (a ++ 59 :: b)) hr
    simpa using this
  have e := run_url hw hsc hh (.inr hsl) hpl hq p none (tls := none) (by simp) hk hc args
  rw [splitParams_at (fun e => (ha _ e).2.2 (by simp)) (fun e => (ha _ e).2.2 (by simp)) (fun e => (hb _ e).2.2 (by simp)), if_neg (by simp), ho] at e
  have e' : run w s ([pyStr "-u", urlText scheme h p (d ++ 47 :: (a ++ 59 :: b)) q].map utf8 ++ utf8 cmd :: args) = _ := e
  rw [e']
  rfl

/-- `-ssl` alone does not work: the script wants `-ca_certs` or `-novalidate`. -/
theorem ssl_needs_certs (hw : Ints w) {a : Option (PyStr × Option Nat)} (ha : ∀ h p, a = some (h, p) → Text h ∧ 58 ∉ h) (fr : Option Bool) {tls : TlsReq} (h1 : tls.noValidate = false) (h2 : tls.caCerts = none) (h3 : tls.certfile = none)
    (hts : TlsTexts tls) {cmd : PyStr} (hc : Ident cmd) (args : List Bytes) : run w s (line (.socket a fr (some tls)) cmd args) = [.raised .valueError] := by
  obtain ⟨i1, i2, i3⟩ := ident_later hc
  have hv : ∀ x ∈ words (.socket a fr (some tls)), Text x := by
    intro x hx
    simp only [words, List.mem_append] at hx
    rcases hx with hx | hx | hx
    · cases a with
      | none => simp [hostWords] at hx
      | some hp =>
        obtain ⟨h, p⟩ := hp
        simp only [hostWords, List.mem_cons, List.not_mem_nil, or_false] at hx
        rcases hx with rfl | rfl
        · exact text_ascii (by decide)
        · exact address_text (ha h p rfl).1 p
    · exact flag_text fr x hx
    · exact tls_text (fun q hq => by cases hq; exact hts) x hx
  have hp := parse_socket hw (fun h p e => (ha h p e).2) fr (some tls) i1 (fun _ _ => i2) (args.map fsDecode)
  rw [run_of (by rw [line, List.map_append, map_words hv, List.map_cons, fsDecode_utf8 hc.1]) (words_head _ i3 _) hp]
  have : build w (optsOf (.socket a fr (some tls))) = .error .valueError := by
    simp [build, optsOf, h1, h2, h3, falsy]
  rw [this]

/-- Files that cannot be read: the script says so, and does not connect. -/
theorem ssl_unreadable (hw : Ints w) {a : Option (PyStr × Option Nat)} (ha : ∀ h p, a = some (h, p) → Text h ∧ 58 ∉ h) (fr : Option Bool) {tls : TlsReq}
    (hd : (∃ c, tls.certfile = some c ∧ c ≠ [] ∧ w.readable c = false) ∨
      (tls.noValidate = false ∧ ∃ c, tls.caCerts = some c ∧ c ≠ [] ∧ w.readable c = false))
    (hts : TlsTexts tls) {cmd : PyStr} (hc : Ident cmd) (args : List Bytes) : run w s (line (.socket a fr (some tls)) cmd args) = [.raised .osError] := by
  obtain ⟨i1, i2, i3⟩ := ident_later hc
  have hv : ∀ x ∈ words (.socket a fr (some tls)), Text x := by
    intro x hx
    simp only [words, List.mem_append] at hx
    rcases hx with hx | hx | hx
    · cases a with
      | none => simp [hostWords] at hx
      | some hp =>
        obtain ⟨h, p⟩ := hp
        simp only [hostWords, List.mem_cons, List.not_mem_nil, or_false] at hx
        rcases hx with rfl | rfl
        · exact text_ascii (by decide)
        · exact address_text (ha h p rfl).1 p
    · exact flag_text fr x hx
    · exact tls_text (fun q hq => by cases hq; exact hts) x hx
  have hp := parse_socket hw (fun h p e => (ha h p e).2) fr (some tls) i1 (fun _ _ => i2) (args.map fsDecode)
  rw [run_of (by rw [line, List.map_append, map_words hv, List.map_cons, fsDecode_utf8 hc.1]) (words_head _ i3 _) hp]
  have : build w (optsOf (.socket a fr (some tls))) = .error .osError := by
    rcases hd with ⟨c, h1, h2, h3⟩ | ⟨h0, c, h1, h2, h3⟩
    · simp [build, optsOf, h1, h2, h3, falsy, denied]
    · simp [build, optsOf, h0, h1, h2, h3, falsy, denied]
  rw [this]

/-- Bytes that are not UTF-8 cannot be given. -/
theorem binary_raises (hw : Ints w) (ht : Valid w t) (hk : Known s t) (ho : w.refused (connection t) = none) {f : Fn} (hf : Nearest s f) (hi : Ident f.name) (hargs : f.args = [.binary]) {b : Bytes} (hb : ¬ IsUtf8 b) :
    run w s (line t f.name [b]) = [.opened (connection t), .raised .unicodeError] := by
  rw [run_line hw ht hk ho hi, dispatch, find_nearest hf]
  dsimp only
  rw [if_neg (by simp [hargs]), hargs, List.map_cons, convertAll, convert, (encode_fsDecode b).2 hb]
  rfl

/-- A text for an argument whose type is a typedef of `string` (or `binary`) is evaluated as an expression of Python. -/
theorem typedef_evaluated (hw : Ints w) (ht : Valid w t) (hk : Known s t) (ho : w.refused (connection t) = none) {f : Fn} (hf : Nearest s f) (hi : Ident f.name) {ty : ArgTy} (hargs : f.args = [.typedef ty]) {x : PyStr} (hx : Text x) :
    (∀ e, w.eval (Spec.Remote.names s t) x = .error e → run w s (line t f.name [utf8 x]) = [.opened (connection t), .raised e]) ∧
      ∀ v, w.eval (Spec.Remote.names s t) x = .ok v → .called (Names.escape f.name) [.obj v] ∈ run w s (line t f.name [utf8 x]) := by
  have e : ∀ y, w.eval (Spec.Remote.names s t) x = y → convertAll w s (optsOf t) f.args ([utf8 x].map fsDecode) = (y.map ArgVal.obj).map fun v => [v] := by
    rintro y rfl
    rw [hargs, List.map_cons, convertAll, root_other (.inl ⟨_, rfl⟩), scope_names, fsDecode_utf8 hx]
    cases w.eval (Spec.Remote.names s t) x <;> rfl
  rw [run_line hw ht hk ho hi, dispatch, find_nearest hf]
  dsimp only
  rw [if_neg (by simp [hargs])]
  refine ⟨fun y hy => ?_, fun y hy => ?_⟩
  · rw [e _ hy]; rfl
  · rw [e _ hy]
    simp [Except.map]

/-- In expressions the names of types mean the types, unless the script has a variable of this name. `w.eval` only looks the name up here. -/
theorem names_hidden (hw : Ints w) (ht : Valid w t) (hk : Known s t) (ho : w.refused (connection t) = none) {f : Fn} (hf : Nearest s f) (hi : Ident f.name) (hargs : f.args = [.other]) {mk : Option Src → α}
    (he : ∀ g n, w.eval g n = .ok (mk (g n))) {n : PyStr} (hn : n ∈ s.types) (hx : Text n) :
    (n ∈ pyStr "client" :: scriptNames t → .called (Names.escape f.name) [.obj (mk (some .script))] ∈ run w s (line t f.name [utf8 n])) ∧
      (n ∉ pyStr "client" :: scriptNames t → .called (Names.escape f.name) [.obj (mk (some .types))] ∈ run w s (line t f.name [utf8 n])) := by
  have e : convertAll w s (optsOf t) f.args ([utf8 n].map fsDecode) = .ok [.obj (mk (Spec.Remote.names s t n))] := by
    rw [hargs, List.map_cons, convertAll, root_other (.inr rfl), scope_names, fsDecode_utf8 hx, he]
    rfl
  rw [run_line hw ht hk ho hi, dispatch, find_nearest hf]
  dsimp only
  rw [if_neg (by simp [hargs]), e]
  unfold Spec.Remote.names
  constructor
  · intro h; rw [if_pos h]; simp
  · intro h; rw [if_neg h, if_pos hn]; simp

/-- A service with the name of a type, or of a variable of the script, cannot be called at all. -/
theorem service_hidden (hw : Ints w) (ht : Valid w t) (hk : ¬ Known s t) {cmd : PyStr} (hc : Ident cmd) (args : List Bytes) : run w s (line t cmd args) = [.raised .attributeError] := by
  obtain ⟨i1, i2, i3⟩ := ident_later hc
  rw [run_of (L := words t ++ cmd :: args.map fsDecode) (by rw [line, List.map_append, map_words (words_text ht), List.map_cons, fsDecode_utf8 hc.1]) (words_head t i3 _) (parse_words hw ht i1 i2 _), build_ok ht]
  dsimp only
  rw [if_pos]
  unfold scope
  split
  · simp
  · rename_i h1
    rw [variables_mem] at h1
    split
    · simp
    · rename_i h2; exact absurd ⟨h2, h1⟩ hk

/-! ### Examples -/

/-- A world where everything can be opened and read, and where an expression is the name of a global -/
def world : World (Option Src) Nat where
  int t := some (Nat.ofDigitChars 10 (t.map Char.ofNat) 0 : Nat)
  eval g n := .ok (g n)
  readable _ := true
  refused _ := none
  call _ vs := .ok vs.length

/-- Calls fail. -/
def failing : World (Option Src) Nat := { world with call := fun _ _ => .error (.tapplication 1) }
/-- Nothing is an expression. -/
def strict : World (Option Src) Nat := { world with eval := fun _ _ => .error (.user 0) }

theorem world_ints : Ints world := by
  intro n
  have h : ∀ l : List Char, (l.map Char.toNat).map Char.ofNat = l := by
    intro l
    rw [List.map_map]
    conv => rhs; rw [← List.map_id l]
    apply List.map_congr_left
    intro c _
    exact Char.ofNat_toNat c
  show some ((Nat.ofDigitChars 10 ((decimal n).map Char.ofNat) 0 : Nat) : Int) = _
  rw [decimal, h, Nat.ofDigitChars_ten_toDigits]

def work : Fn := ⟨pyStr "work", [.string, .binary, .other]⟩
/-- The name is a keyword of Python. -/
def print : Fn := ⟨pyStr "print", [.typedef .string]⟩
def store : Fn := ⟨pyStr "store", [.binary]⟩
def find : Fn := ⟨pyStr "find", [.other]⟩

/-- A service that extends another one, in a file with the types `Work` and `host` -/
def calculator : Script := ⟨pyStr "Calc", [[work, print], [store, find, ⟨pyStr "work", []⟩]], [pyStr "Work", pyStr "host"]⟩

/-- `-h example.org:9091 -framed -ssl -ca_certs ca.pem` -/
def secure : Target := .socket (some (pyStr "example.org", some 9091)) (some true) (some ⟨true, false, some (pyStr "ca.pem"), none, none⟩)
/-- `-u http://example.org/rpc?x=1` -/
def web : Target := .web (pyStr "example.org") none (pyStr "/rpc") (pyStr "x=1")

theorem secure_valid (w : World (Option Src) Nat) (h : w.readable = world.readable) : Valid w secure := by
  refine ⟨fun h0 p e => ?_, fun q e => ?_⟩
  · cases e; exact ⟨text_ascii (by decide), by decide⟩
  · cases e
    refine ⟨⟨(fun c h0 => by cases h0), .inr ⟨_, rfl, by decide, by rw [h]; rfl⟩⟩, ?_⟩
    intro o ho c hc
    simp only [List.mem_cons, List.not_mem_nil, or_false] at ho
    rcases ho with rfl | rfl | rfl
    · cases hc; exact text_ascii (by decide)
    · cases hc
    · cases hc

theorem web_valid : Valid world web := by
  refine ⟨?_, ⟨⟨_, rfl⟩, ?_⟩, ?_⟩
  · unfold Host Plain; decide
  · unfold Plain; decide
  · unfold Query Plain; decide

theorem ident_of {n : PyStr} (h1 : ∀ c ∈ n, c < 128) (h2 : n.head? ≠ some 45) : Ident n := ⟨text_ascii h1, h2⟩

example : words secure = ["-h", "example.org:9091", "-framed", "-ssl", "-ca_certs", "ca.pem"].map pyStr := by decide +kernel
example : words web = ["-u", "http://example.org/rpc?x=1"].map pyStr := by decide +kernel

/-- `calls_partial` -/
example : run world calculator (line secure (pyStr "work") [utf8 (pyStr "é"), [0x41], utf8 (pyStr "Work")]) =
    [.opened (.socket (pyStr "example.org") 9091 true (some ⟨true, some (pyStr "ca.pem"), none, none⟩)), .called (pyStr "work") [.text [233], .bytes [0x41], .obj (some .types)], .result 3,
      .closed (.socket (pyStr "example.org") 9091 true (some ⟨true, some (pyStr "ca.pem"), none, none⟩))] :=
  calls_partial (gs := [.text (pyStr "é"), .bytes [0x41], .expr (pyStr "Work") (some .types)]) world_ints (secure_valid _ rfl) (by unfold Spec.Remote.Known; decide) (f := work) ⟨[], _, rfl, by simp⟩ (ident_of (by decide) (by decide))
    ⟨by unfold Fits Text; decide, ⟨[0x41], by decide, by decide⟩, ⟨by unfold Text; decide, by decide⟩, trivial⟩ rfl rfl

/-- The method has the escaped name, the command line the name of the IDL. -/
example : .called (pyStr "print_") [.obj none] ∈ run world calculator (line web (pyStr "print") [utf8 (pyStr "hello")]) :=
  (typedef_evaluated world_ints web_valid (by unfold Spec.Remote.Known; decide) rfl (f := print) ⟨[work], _, rfl, by decide⟩ (ident_of (by decide) (by decide)) rfl (text_ascii (by decide))).2 _ (by decide)

/-- `calls_raises` and `typedef_evaluated`: the call fails, or the text is no expression. -/
example : run failing calculator (line secure (pyStr "find") [utf8 (pyStr "Work")]) =
    [.opened (connection secure), .called (pyStr "find") [.obj (some .types)], .raised (.tapplication 1)] :=
  calls_raises (w := failing) (s := calculator) (gs := [.expr (pyStr "Work") (some .types)]) world_ints (secure_valid _ rfl) (by unfold Spec.Remote.Known; decide) (f := find) ⟨[work, print, store], _, rfl, by decide⟩ (ident_of (by decide) (by decide))
    ⟨⟨by unfold Text; decide, by decide⟩, trivial⟩ rfl rfl
example : run strict calculator (line secure (pyStr "print") [utf8 (pyStr "hello")]) = [.opened (connection secure), .raised (.user 0)] :=
  (typedef_evaluated (w := strict) (s := calculator) (x := pyStr "hello") world_ints (secure_valid _ rfl) (by unfold Spec.Remote.Known; decide) rfl (f := print) ⟨[work], _, rfl, by decide⟩ (ident_of (by decide) (by decide)) rfl (text_ascii (by decide))).1 _ rfl

/-- `only_asked`, `no_ipv6` -/
example : .called (pyStr "find") [.obj (some .types)] ∈ run world calculator (line web (pyStr "find") [utf8 (pyStr "Work")]) ∧ .opened (connection web) ∈ run world calculator (line web (pyStr "find") [utf8 (pyStr "Work")]) := by
  have := calls_partial (gs := [.expr (pyStr "Work") (some .types)]) world_ints web_valid (s := calculator) (by unfold Spec.Remote.Known; decide) (f := find) ⟨[work, print, store], _, rfl, by decide⟩ (ident_of (by decide) (by decide))
    ⟨⟨by unfold Text; decide, by decide⟩, trivial⟩ rfl rfl
  have e : line web find.name ([Given.expr (pyStr "Work") (some Src.types)].map onLine) = line web (pyStr "find") [utf8 (pyStr "Work")] := rfl
  rw [← e, this]
  simp [Spec.Remote.value]
  decide

/-- `unknown_function`, `wrong_number` -/
example : run world calculator (line web (pyStr "walk") []) = [.opened (connection web), .unrecognized (pyStr "walk"), .exit 1] :=
  unknown_function world_ints web_valid (by unfold Spec.Remote.Known; decide) rfl (ident_of (by decide) (by decide)) (by decide) (by decide) []
example : run world calculator (line web (pyStr "work") []) = [.opened (connection web), .requires (pyStr "work") 3, .exit 1] :=
  wrong_number world_ints web_valid (by unfold Spec.Remote.Known; decide) rfl (f := work) ⟨[], _, rfl, by simp⟩ (ident_of (by decide) (by decide)) (by decide)

/-- `late_target`: `-f -h example.org find Work` asks `localhost`. -/
example : run world calculator (line (.socket none (some false) none) (pyStr "-h") [utf8 (pyStr "example.org"), utf8 (pyStr "find"), utf8 (pyStr "Work")]) =
    [.opened (.socket (pyStr "localhost") 9090 true none), .unrecognized (pyStr "-h"), .exit 1] :=
  late_target world_ints ⟨fun _ _ e => (by cases e), fun _ e => (by cases e)⟩ (by unfold Spec.Remote.Known; decide) rfl (.inl rfl) (.inl rfl)
    (fun f hf => by have : f.name ∈ (calculator.chain.flatten.map Fn.name) := List.mem_map_of_mem hf; revert this; generalize f.name = n; intro hn; revert n; unfold Ident Text; decide) (by decide) _

/-- `no_function` -/
example : run world calculator ((words web).map utf8) = [.raised .indexError] := no_function world_ints web_valid (by decide +kernel)

/-- `https_plain`, `no_path`, `params_dropped` -/
example : (run world calculator ((pyStr "-u" :: urlText "https" (pyStr "example.org") none (pyStr "/rpc") [] :: (flag "-f" "-framed" none ++ tlsWords (some ⟨false, false, some (pyStr "ca.pem"), none, none⟩))).map utf8 ++ utf8 (pyStr "find") :: [])).head? =
    some (.opened (.http (pyStr "example.org") 80 (pyStr "/rpc"))) :=
  https_plain world_ints (.inr rfl) web_valid.1 web_valid.2.1 (fun c hc => by cases hc) none none (fun q e => ((secure_valid world rfl).2 _ rfl).2 |> fun h => by cases e; exact h) (by unfold Spec.Remote.Known; decide) rfl (ident_of (by decide) (by decide)) []
example : run world calculator ([pyStr "-u", urlText "http" (pyStr "example.org") none [] []].map utf8 ++ utf8 (pyStr "find") :: []) = [.raised .assertion] :=
  no_path world_ints (.inl rfl) web_valid.1 none (by unfold Spec.Remote.Known; decide) (ident_of (by decide) (by decide)) []
example : (run world calculator ([pyStr "-u", urlText "http" (pyStr "example.org") none ([] ++ 47 :: (pyStr "rpc" ++ 59 :: pyStr "v=2")) []].map utf8 ++ utf8 (pyStr "find") :: [])).head? =
    some (.opened (.http (pyStr "example.org") 80 (pyStr "/rpc"))) :=
  params_dropped world_ints (.inl rfl) web_valid.1 (d := []) ⟨[], rfl⟩ (by unfold Plain; decide) (by unfold Plain; decide) (by unfold Plain; decide) (fun c hc => by cases hc) none (by unfold Spec.Remote.Known; decide) rfl
    (ident_of (by decide) (by decide)) []

/-- `ssl_needs_certs`, `binary_raises` -/
example : run world calculator (line (.socket none none (some ⟨true, false, none, none, none⟩)) (pyStr "find") []) = [.raised .valueError] :=
  ssl_needs_certs world_ints (fun _ _ e => by cases e) none rfl rfl rfl (by intro o ho c hc; simp at ho; rw [ho] at hc; cases hc) (ident_of (by decide) (by decide)) []
example : run world calculator (line web (pyStr "store") [[0xFF]]) = [.opened (connection web), .raised .unicodeError] :=
  binary_raises world_ints web_valid (by unfold Spec.Remote.Known; decide) rfl (f := store) ⟨[work, print], _, rfl, by decide⟩ (ident_of (by decide) (by decide)) rfl (by
    rintro ⟨x, hx, e⟩
    have := utf8Decode_utf8 hx
    rw [e, show utf8Decode [0xFF] = .error .unicodeError by decide] at this
    cases this)

/-- `names_hidden`: there is a type `host`, but the name means the variable. -/
example : .called (pyStr "find") [.obj (some .script)] ∈ run world calculator (line web (pyStr "find") [utf8 (pyStr "host")]) :=
  (names_hidden world_ints web_valid (by unfold Spec.Remote.Known; decide) rfl (f := find) ⟨[work, print, store], _, rfl, by decide⟩ (ident_of (by decide) (by decide)) rfl (mk := id) (fun _ _ => rfl) (by decide) (text_ascii (by decide))).1 (by decide)

/-- `service_hidden` -/
example : run world { calculator with service := pyStr "transport" } (line web (pyStr "find") []) = [.raised .attributeError] :=
  service_hidden world_ints web_valid (by unfold Spec.Remote.Known; decide) (ident_of (by decide) (by decide)) []

end Thrift.Remote
