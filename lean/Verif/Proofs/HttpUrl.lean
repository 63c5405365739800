import Verif.Proofs.RemoteParse
import Verif.Proofs.Layout
import Verif.Spec.HttpUrl
/-
Reading URLs, and the request of a `THttpClient`.
-/

namespace Thrift.HttpUrl
open Rpc Spec.HttpUrl
open Spec.Remote (Plain queryText)
open Remote (urlparse splitParams cut_at cut_free cut_query splitScheme splitNetloc span_at span_all usesParams)

/-! ### Texts -/

theorem part_at {c : Nat} {a : PyStr} (b : PyStr) (h : c ∉ a) : part c (a ++ c :: b) = (a, some b) := by
  rw [part, span_at (p := (· != c)) c b (fun d hd => by simp only [bne_iff_ne, ne_eq]; rintro rfl; exact h hd) (by simp)]

theorem part_free {c : Nat} {a : PyStr} (h : c ∉ a) : part c a = (a, none) := by
  rw [part, span_all (p := (· != c)) (fun d hd => by simp only [bne_iff_ne, ne_eq]; rintro rfl; exact h hd)]

theorem rpart_at {c : Nat} (a : PyStr) {b : PyStr} (h : c ∉ b) : rpart c (a ++ c :: b) = (some a, b) := by
  have e : (a ++ c :: b).reverse = b.reverse ++ c :: a.reverse := by simp
  rw [rpart, e, part_at _ (by simpa using h)]
  simp

theorem rpart_free {c : Nat} {a : PyStr} (h : c ∉ a) : rpart c a = (none, a) := by
  rw [rpart, part_free (by simpa using h)]
  simp

theorem digits (n : Nat) : ∀ c ∈ decimal n, 48 ≤ c ∧ c ≤ 57 := fun _ h => Remote.decimal_digits (n := n) h

theorem decimal_ne (n : Nat) : decimal n ≠ [] := by
  unfold decimal
  intro h
  have := List.map_eq_nil_iff.1 h
  exact Nat.toDigits_ne_nil this

theorem digitChar_toNat {n : Nat} (h : n < 10) : (Nat.digitChar n).toNat = n + 48 := by
  match n, h with
  | 0, _ | 1, _ | 2, _ | 3, _ | 4, _ | 5, _ | 6, _ | 7, _ | 8, _ | 9, _ => rfl

theorem number_append (a : PyStr) (c : Nat) : number (a ++ [c]) = 10 * number a + (c - 48) := by
  simp [number]

theorem number_decimal (n : Nat) : number (decimal n) = n := by
  induction n using Nat.strongRecOn with
  | ind n ih =>
    by_cases h : n < 10
    · rw [decimal, Nat.toDigits_of_lt_base h]
      simp [number, digitChar_toNat h]
    · have e := Nat.toDigits_append_toDigits (b := 10) (n := n / 10) (d := n % 10) (by decide) (by omega) (by omega)
      have e2 : 10 * (n / 10) + n % 10 = n := by omega
      rw [e2, Nat.toDigits_of_lt_base (Nat.mod_lt _ (by decide))] at e
      rw [decimal, ← e, List.map_append, List.map_singleton, number_append, digitChar_toNat (Nat.mod_lt _ (by decide))]
      have := ih (n / 10) (by omega)
      rw [decimal] at this
      rw [this]; omega

/-! ### The authority -/

/-- The characters of a text are not in a list. -/
def Free (bad : List Nat) (t : PyStr) : Prop := ∀ c ∈ t, c ∉ bad

theorem Free.of_plain {without bad : List Nat} {t : PyStr} (h : Plain without t) (hs : ∀ c ∈ bad, c ∈ without) : Free bad t :=
  fun c hc hb => (h c hc).2.2 (hs c hb)

theorem Free.append {bad : List Nat} {a b : PyStr} (ha : Free bad a) (hb : Free bad b) : Free bad (a ++ b) :=
  fun c hc => (List.mem_append.1 hc).elim (ha c) (hb c)

theorem Free.cons {bad : List Nat} {x : Nat} {b : PyStr} (ha : x ∉ bad) (hb : Free bad b) : Free bad (x :: b) :=
  fun c hc => (List.mem_cons.1 hc).elim (fun e => e ▸ ha) (hb c)

theorem Free.nil {bad : List Nat} : Free bad [] := fun _ h => nomatch h

theorem Free.not {bad : List Nat} {t : PyStr} (h : Free bad t) {c : Nat} (hc : c ∈ bad) : c ∉ t := fun e => h c e hc

theorem free_port {bad : List Nat} (hb : ∀ c ∈ bad, ¬ (48 ≤ c ∧ c ≤ 58)) (p : Option Nat) : Free bad (portText p) := by
  cases p with
  | none => exact Free.nil
  | some n =>
    intro c hc h
    simp only [portText, List.mem_cons] at hc
    rcases hc with rfl | hc
    · exact hb _ h (by omega)
    · exact hb _ h (by have := digits n c hc; omega)

theorem free_v6 {bad : List Nat} (hb : ∀ c ∈ bad, ¬ ((48 ≤ c ∧ c ≤ 58) ∨ (97 ≤ c ∧ c ≤ 102) ∨ (65 ≤ c ∧ c ≤ 70) ∨ c = 46)) {a : PyStr} (ha : (Host.v6 a).Valid) : Free bad a :=
  fun c hc h => hb c h (ha.2 c hc)

/-- Host and port -/
def hostport (u : Url) : PyStr := u.host.text ++ portText u.port

theorem free_hostport {u : Url} (hu : u.Valid) : Free [47, 63, 35, 64] (hostport u) := by
  refine Free.append ?_ (free_port (by simp) _)
  cases hh : u.host with
  | name h => have := hu.host; rw [hh] at this; exact Free.of_plain this.2 (by simp)
  | v6 a =>
    have := hu.host; rw [hh] at this
    exact Free.cons (by simp) (Free.append (free_v6 (by simp) this) (Free.cons (by simp) Free.nil))

theorem free_user {u : Url} (hu : u.Valid) : Free [47, 63, 35, 91, 93] (userText u.user) := by
  cases h : u.user with
  | none => exact Free.nil
  | some x =>
    obtain ⟨n, p⟩ := x
    obtain ⟨h0, h1, h2⟩ := hu.user n p h
    cases p with
    | none => exact Free.append (Free.of_plain h1 (by simp)) (Free.cons (by simp) Free.nil)
    | some q => exact Free.append (Free.of_plain h1 (by simp)) (Free.cons (by simp) (Free.append (Free.of_plain (h2 q rfl) (by simp)) (Free.cons (by simp) Free.nil)))

theorem rpart_authority {u : Url} (hu : u.Valid) : (rpart 64 (authority u)).2 = hostport u := by
  have hf := (free_hostport hu).not (c := 64) (by simp)
  rw [authority]
  change (rpart 64 (userText u.user ++ hostport u)).2 = _
  cases h : u.user with
  | none => rw [show userText none = [] from rfl, List.nil_append, rpart_free hf]
  | some x =>
    obtain ⟨n, p⟩ := x
    cases p with
    | none =>
      rw [show userText (some (n, none)) ++ hostport u = n ++ 64 :: hostport u by simp [userText], rpart_at _ hf]
    | some q =>
      rw [show userText (some (n, some q)) ++ hostport u = (n ++ 58 :: q) ++ 64 :: hostport u by simp [userText], rpart_at _ hf]

theorem userinfo_authority {u : Url} (hu : u.Valid) : userinfo (authority u) = (u.user.map Prod.fst, u.user.bind Prod.snd) := by
  have hf := (free_hostport hu).not (c := 64) (by simp)
  rw [authority]
  change userinfo (userText u.user ++ hostport u) = _
  unfold userinfo
  cases h : u.user with
  | none => rw [show userText none = [] from rfl, List.nil_append, rpart_free hf]; rfl
  | some x =>
    obtain ⟨n, p⟩ := x
    have hn : 58 ∉ n := fun e => (((hu.user n p h).2.1) _ e).2.2 (by simp)
    cases p with
    | none =>
      rw [show userText (some (n, none)) ++ hostport u = n ++ 64 :: hostport u by simp [userText], rpart_at _ hf]
      dsimp only
      rw [part_free hn]; rfl
    | some q =>
      rw [show userText (some (n, some q)) ++ hostport u = (n ++ 58 :: q) ++ 64 :: hostport u by simp [userText], rpart_at _ hf]
      dsimp only
      rw [part_at _ hn]; rfl

/-- The host without brackets -/
def raw : Host → PyStr
  | .name h => h
  | .v6 a => a

theorem hostinfo_authority {u : Url} (hu : u.Valid) : hostinfo (authority u) = (raw u.host, u.port.map decimal) := by
  have hport : ∀ p : Option Nat, (part 58 (portText p)).2 = p.map decimal := by
    intro p
    cases p with
    | none => rfl
    | some n => exact congrArg Prod.snd (part_at (a := []) _ (by simp))
  have hne : ∀ p : Option Nat, p.map decimal ≠ some [] := by
    intro p
    cases p with
    | none => simp
    | some n => simpa using decimal_ne n
  unfold hostinfo
  rw [rpart_authority hu, hostport]
  have hv := hu.host
  cases hh : u.host with
  | name h =>
    rw [hh] at hv
    have h91 : 91 ∉ h ++ portText u.port := (Free.append (bad := [91]) (Free.of_plain hv.2 (by simp)) (free_port (by simp) _)).not (by simp)
    have h58 : 58 ∉ h := (Free.of_plain (bad := [58]) hv.2 (by simp)).not (by simp)
    dsimp only [Host.text]
    rw [part_free h91]
    dsimp only
    cases u.port with
    | none => rw [show h ++ portText none = h by simp [portText], part_free h58]; simp [raw]
    | some n =>
      rw [show portText (some n) = 58 :: decimal n from rfl, part_at _ h58]
      dsimp only
      rw [if_neg (by simpa using decimal_ne n)]; rfl
  | v6 a =>
    rw [hh] at hv
    have h93 : 93 ∉ a := (free_v6 (bad := [93]) (by simp) hv).not (by simp)
    dsimp only [Host.text]
    rw [show 91 :: (a ++ [93]) ++ portText u.port = [] ++ 91 :: (a ++ 93 :: portText u.port) by simp, part_at _ (by simp)]
    dsimp only
    simp only [part_at _ h93, Option.getD_some, hport, if_neg (hne _)]; rfl

theorem lowercase_eq (t : PyStr) : t.map Remote.lower = lowercase t := rfl

theorem while_free {t : PyStr} (h : 37 ∉ t) : t.takeWhile (· != 37) = t ∧ t.dropWhile (· != 37) = [] := by
  induction t with
  | nil => exact ⟨rfl, rfl⟩
  | cons c t ih =>
    have h1 : (c != 37) = true := by simp only [bne_iff_ne, ne_eq]; rintro rfl; exact h (by simp)
    obtain ⟨h2, h3⟩ := ih fun e => h (by simp [e])
    rw [List.takeWhile_cons, List.dropWhile_cons, if_pos h1, if_pos h1, h2, h3]
    exact ⟨rfl, rfl⟩

theorem hostname_authority {u : Url} (hu : u.Valid) : hostname (authority u) = some u.host.key := by
  unfold hostname
  rw [hostinfo_authority hu]
  have hv := hu.host
  have key : ∀ t : PyStr, t ≠ [] → 37 ∉ t → (match t with
      | [] => (none : Option PyStr)
      | h => some ((h.takeWhile (· != 37)).map Remote.lower ++ h.dropWhile (· != 37))) = some (lowercase t) := by
    intro t h0 h37
    obtain ⟨e1, e2⟩ := while_free h37
    cases t with
    | nil => exact absurd rfl h0
    | cons c t => dsimp only; rw [e1, e2, List.append_nil]; rfl
  cases hh : u.host with
  | name h => rw [hh] at hv; exact key h hv.1 ((Free.of_plain (bad := [37]) hv.2 (by simp)).not (by simp))
  | v6 a => rw [hh] at hv; exact key a (List.ne_nil_of_mem hv.1) ((free_v6 (bad := [37]) (by simp) hv).not (by simp))

theorem port_authority {u : Url} (hu : u.Valid) : port (authority u) = .ok u.port := by
  unfold port
  rw [hostinfo_authority hu]
  cases hp : u.port with
  | none => rfl
  | some n =>
    dsimp only [Option.map_some]
    rw [if_pos, number_decimal, if_pos (hu.port n hp)]
    rw [List.all_eq_true]
    intro c hc
    simpa using digits n c hc

/-! ### The whole URL -/

theorem urlparse_text {u : Url} (hu : u.Valid) : urlparse u.text =
    .ok { scheme := pyStr (if u.https then "https" else "http"), netloc := authority u, path := (splitParams u.path).1, params := (splitParams u.path).2, query := u.query, fragment := u.fragment } := by
  have hn : Free [47, 63, 35] (authority u) :=
    Free.append (fun c hc h => free_user hu c hc (by simp at h ⊢; omega)) (fun c hc h => free_hostport hu c hc (by simp at h ⊢; omega))
  have hp := hu.path.1
  have hpath : 63 ∉ u.path ∧ 35 ∉ u.path := ⟨fun e => (hu.path.2 _ e).2.2 (by simp), fun e => (hu.path.2 _ e).2.2 (by simp)⟩
  have hq : 35 ∉ u.query := fun e => (hu.query _ e).2.2 (by simp)
  have hsc : ∀ r : PyStr, splitScheme (pyStr (if u.https then "https" else "http") ++ (pyStr "://" ++ r)) = (pyStr (if u.https then "https" else "http"), 47 :: 47 :: r) := by
    intro r
    have e : pyStr "://" ++ r = 58 :: 47 :: 47 :: r := rfl
    unfold splitScheme
    rw [e]
    cases u.https
    · rw [span_at 58 _ (by decide) (by decide)]
      dsimp only
      rw [if_pos (by decide)]; rfl
    · rw [span_at 58 _ (by decide) (by decide)]
      dsimp only
      rw [if_pos (by decide)]; rfl
  have hnet : ∀ r : PyStr, (r = [] ∨ ∃ c s, r = c :: s ∧ (c = 47 ∨ c = 63 ∨ c = 35)) → splitNetloc (47 :: 47 :: (authority u ++ r)) = (authority u, r) := by
    intro r hr
    have hall : ∀ c ∈ authority u, (c != 47 && c != 63 && c != 35) = true := fun c hc => by have := hn c hc; simp at this; simp [this]
    rw [splitNetloc]
    rcases hr with rfl | ⟨c, s, rfl, hc⟩
    · rw [List.append_nil, span_all hall]
    · exact span_at _ _ hall (by rcases hc with rfl | rfl | rfl <;> decide)
  have h35 : 35 ∉ u.path ++ queryText u.query := by
    unfold queryText
    split
    · simpa using hpath.2
    · simpa using ⟨hpath.2, hq⟩
  have hcut : Remote.cut 35 (u.path ++ (queryText u.query ++ fragmentText u.fragment)) = (u.path ++ queryText u.query, u.fragment) := by
    rw [← List.append_assoc, fragmentText]
    split
    · next h => rw [List.append_nil, cut_free h35, h]
    · exact cut_at _ h35
  have hrest : (u.path ++ (queryText u.query ++ fragmentText u.fragment)) = [] ∨ ∃ c s, u.path ++ (queryText u.query ++ fragmentText u.fragment) = c :: s ∧ (c = 47 ∨ c = 63 ∨ c = 35) := by
    rcases hp with h | ⟨r, h⟩
    · rw [h, List.nil_append]
      by_cases h1 : u.query = []
      · by_cases h2 : u.fragment = []
        · left; simp [queryText, fragmentText, h1, h2]
        · right; exact ⟨35, u.fragment, by simp [queryText, fragmentText, h1, h2], by simp⟩
      · right; exact ⟨63, u.query ++ fragmentText u.fragment, by simp [queryText, h1], by simp⟩
    · right; exact ⟨47, r ++ (queryText u.query ++ fragmentText u.fragment), by simp [h], by simp⟩
  have hb : ¬ ((91 ∈ authority u) ≠ (93 ∈ authority u)) := by
    have h1 := (free_user hu).not (c := 91) (by simp)
    have h2 := (free_user hu).not (c := 93) (by simp)
    have h3 := (free_port (bad := [91, 93]) (by simp) u.port).not (c := 91) (by simp)
    have h4 := (free_port (bad := [91, 93]) (by simp) u.port).not (c := 93) (by simp)
    have hv := hu.host
    cases hh : u.host with
    | name h =>
      rw [hh] at hv
      have h5 := (Free.of_plain (bad := [91, 93]) hv.2 (by simp)).not (c := 91) (by simp)
      have h6 := (Free.of_plain (bad := [91, 93]) hv.2 (by simp)).not (c := 93) (by simp)
      simp [authority, hh, Host.text, h1, h2, h3, h4, h5, h6]
    | v6 a => simp [authority, hh, Host.text]
  have hup : pyStr (if u.https then "https" else "http") ∈ usesParams := by cases u.https <;> decide
  unfold urlparse Url.text
  rw [hsc]; dsimp only
  rw [hnet _ hrest]; dsimp only
  rw [if_neg hb, hcut]; dsimp only
  rw [cut_query hpath.1]; dsimp only
  rw [if_pos hup]

/-! ### The object -/

/-- Where the last segment of a path begins -/
theorem last_segment {t : PyStr} (h : 47 ∈ t) : ∃ d l, t = d ++ 47 :: l ∧ 47 ∉ l := by
  induction t with
  | nil => cases h
  | cons c t ih =>
    by_cases h1 : 47 ∈ t
    · obtain ⟨d, l, rfl, h2⟩ := ih h1
      exact ⟨c :: d, l, rfl, h2⟩
    · have : c = 47 := by simpa [h1, eq_comm] using h
      exact ⟨[], t, by rw [this]; rfl, h1⟩

theorem splitParams_last {d l : PyStr} (h1 : 47 ∉ l) (h2 : 59 ∉ l) : splitParams (d ++ 47 :: l) = (d ++ 47 :: l, []) := by
  have e : (d ++ 47 :: l).reverse.takeWhile (· != 47) = l.reverse := by
    rw [List.reverse_append, List.reverse_cons, List.append_assoc, List.singleton_append, List.takeWhile_append_of_pos]
    · simp
    · intro c hc
      simp only [List.mem_reverse] at hc
      simp only [bne_iff_ne, ne_eq]
      rintro rfl
      exact h1 hc
  unfold splitParams
  dsimp only
  rw [e, List.reverse_reverse, cut_free h2]
  have h3 : (d ++ 47 :: l).length - l.length = (d ++ [47]).length := by simp; omega
  rw [h3, show d ++ 47 :: l = (d ++ [47]) ++ l by simp, List.take_left]

theorem splitParams_no {p : PyStr} (hp : p = [] ∨ ∃ r, p = 47 :: r) (h : NoParams p) : splitParams p = (p, []) := by
  rcases hp with rfl | ⟨r, rfl⟩
  · rfl
  · obtain ⟨d, l, e, h1⟩ := last_segment (t := 47 :: r) (by simp)
    rw [e, splitParams_last h1 (h d l e h1)]

theorem context_ok {w : World} {a : TlsArgs} (h : TlsOk w a) : context w a = .ok (ctx a) := by
  unfold context ctx
  by_cases hc : a.context = true
  · simp [hc]
  · have hc' : a.context = false := by simpa using hc
    rcases h with h | ⟨h1, h2, h3⟩ | ⟨c, h1, h2, h3, h4⟩
    · exact absurd h hc
    · have b : ∀ {t : Option PyStr}, Blank t → truthy t = false := by
        intro t ht
        cases t with
        | none => rfl
        | some t => rw [show t = [] from ht]; rfl
      rw [b h1, b h3, h2]
      simp [hc', truthy]
    · have : truthy a.cert = true := by simp [h1, truthy, h2]
      rw [if_pos (by simp [this, hc']), h3]
      dsimp only
      rw [h1]; dsimp only
      rw [h4]; simp [hc']

/-- `port or default` -/
def portOr (u : Url) : Nat := if u.port = none ∨ u.port = some 0 then standard u.https else u.port.getD 0

theorem portOr_eq {u : Url} (h : u.port ≠ some 0) : portOr u = u.portNumber := by
  unfold portOr Url.portNumber
  cases hp : u.port with
  | none => simp
  | some n => simp only [hp] at h; rw [if_neg (by simpa using h)]; rfl

/-- The object before the proxy is looked up -/
def plainClient (u : Url) (c : Ctx) : Client :=
  { https := u.https, host := some u.host.key, port := some (portOr u), path := (splitParams u.path).1 ++ queryText u.query, ctx := c, realhost := none, realport := none, auth := none }

theorem init_text {w : World} {u : Url} (hu : u.Valid) (path : Option PyStr) (a : TlsArgs) :
    init w u.text none path a = (if u.https then context w a else .ok .default).bind fun c => withProxy w (plainClient u c) := by
  unfold init
  dsimp only
  rw [urlparse_text hu, Remote.Except.ok_bind]
  dsimp only
  rw [port_authority hu, Remote.Except.ok_bind]
  have hs : decide (pyStr (if u.https then "https" else "http") = pyStr "https") = u.https := by cases u.https <;> decide
  have hs2 : ¬ (pyStr (if u.https then "https" else "http") ≠ pyStr "http" ∧ pyStr (if u.https then "https" else "http") ≠ pyStr "https") := by cases u.https <;> decide
  rw [if_neg hs2, hs, hostname_authority hu]
  have hq : (if u.query = [] then (splitParams u.path).1 else (splitParams u.path).1 ++ 63 :: u.query) = (splitParams u.path).1 ++ queryText u.query := by
    unfold queryText; split <;> simp
  rw [hq]
  rfl

theorem withProxy_none {w : World} {u : Url} (h : NoProxy w u) (c : Ctx) : withProxy w (plainClient u c) = .ok (plainClient u c) := by
  unfold withProxy
  have e : w.proxies (pyStr (if (plainClient u c).https then "https" else "http")) = w.proxies (pyStr (if u.https then "https" else "http")) := rfl
  have e2 : w.bypass (plainClient u c).host = w.bypass (some u.host.key) := rfl
  rcases h with h | h | h
  · rw [e, h]
  · rw [e, h]
    cases w.bypass (plainClient u c).host <;> rfl
  · rw [e, e2, h]
    cases w.proxies (pyStr (if u.https then "https" else "http")) <;> rfl

/-- The object with a proxy -/
def proxyClient (u p : Url) (c : Ctx) (auth : Option PyStr) : Client :=
  { plainClient u c with host := some p.host.key, port := p.port, realhost := some u.host.key, realport := some (portOr u), auth := auth }

theorem text_ne (p : Url) : ∃ c r, p.text = c :: r := by
  unfold Url.text
  cases p.https
  · exact ⟨104, _, rfl⟩
  · exact ⟨104, _, rfl⟩

theorem withProxy_some {w : World} {u p : Url} (hp : p.Valid) (h : Proxy w u p) (c : Ctx) :
    withProxy w (plainClient u c) = (proxyAuth w (authority p)).bind fun auth => .ok (proxyClient u p c auth) := by
  unfold withProxy
  have e : w.proxies (pyStr (if (plainClient u c).https then "https" else "http")) = some p.text := h.1
  have e2 : w.bypass (plainClient u c).host = false := h.2
  rw [e, e2]
  obtain ⟨x, r, et⟩ := text_ne p
  have key := urlparse_text hp
  rw [et] at key ⊢
  dsimp only
  rw [if_neg (by decide)]
  dsimp only
  rw [key, Remote.Except.ok_bind]
  dsimp only
  rw [port_authority hp, Remote.Except.ok_bind, hostname_authority hp]
  rfl

/-! ### The request -/

theorem key_chars {h : Host} (hv : h.Valid) : ∀ c ∈ h.key, 33 ≤ c ∧ c ≤ 126 ∧ c ≠ 91 ∧ c ≠ 37 := by
  intro c hc
  have low : ∀ d : Nat, c = (if 65 ≤ d ∧ d ≤ 90 then d + 32 else d) → 33 ≤ d ∧ d ≤ 126 ∧ d ≠ 91 ∧ d ≠ 37 → 33 ≤ c ∧ c ≤ 126 ∧ c ≠ 91 ∧ c ≠ 37 := by
    intro d e h
    split at e <;> omega
  cases h with
  | name t =>
    obtain ⟨d, hd, e⟩ := List.mem_map.1 hc
    refine low d e.symm ?_
    have := hv.2 d hd
    simp at this
    omega
  | v6 t =>
    obtain ⟨d, hd, e⟩ := List.mem_map.1 hc
    refine low d e.symm ?_
    have := hv.2 d hd
    omega

theorem head_ne {h : Host} (hv : h.Valid) : h.key.head? ≠ some 91 := by
  intro e
  exact (key_chars hv 91 (List.mem_of_head? e)).2.2.1 rfl

theorem control_key {h : Host} (hv : h.Valid) : control h.key = false := by
  unfold control
  rw [List.any_eq_false]
  intro c hc
  have := key_chars hv c hc
  simp; omega

theorem getHostPort_some {w : World} {b : Bool} {h : Host} (hv : h.Valid) (n : Nat) : getHostPort w b (some h.key) (some n) = .ok (h.key, n) := by
  unfold getHostPort
  dsimp only
  rw [Remote.Except.ok_bind]
  dsimp only
  have e : (if h.key.head? = some 91 ∧ h.key.getLast? = some 93 then h.key.tail.dropLast else h.key) = h.key := if_neg (fun e => head_ne hv e.1)
  rw [e, if_neg (by rw [control_key hv]; simp)]

theorem mem_lowercase {t : PyStr} (c : Nat) (hc : c < 65) : c ∈ lowercase t ↔ c ∈ t := by
  unfold lowercase
  rw [List.mem_map]
  constructor
  · rintro ⟨d, hd, e⟩
    split at e
    · omega
    · exact e ▸ hd
  · intro h
    exact ⟨c, h, by rw [if_neg (by omega)]⟩

theorem hostHeader_rel {b : Bool} {t : PyStr} (ht : t.head? ≠ some 104) {h : Host} (hv : h.Valid) (n : Nat) :
    hostHeader b t h.key n = .ok (h.header ++ (if n = standard b then [] else 58 :: decimal n)) := by
  unfold hostHeader
  have hp : ¬ pyStr "http" <+: t := by
    rintro ⟨r, e⟩
    rw [← e] at ht
    exact ht rfl
  dsimp only
  rw [if_neg hp, Remote.Except.ok_bind, if_neg (by simp)]
  have hfin : ∀ e : PyStr, (if n = (if b then 443 else 80) then e else e ++ 58 :: decimal n) = e ++ (if n = standard b then [] else 58 :: decimal n) := by
    intro e
    unfold standard
    by_cases h : n = (if b then 443 else 80)
    · rw [if_pos h, if_pos h, List.append_nil]
    · rw [if_neg h, if_neg h]
  cases h with
  | name s =>
    have h58 : 58 ∉ (Host.name s).key := by
      rw [Host.key, mem_lowercase _ (by omega)]
      exact (Free.of_plain (bad := [58]) hv.2 (by simp)).not (by simp)
    have e : wrap (Host.name s).key = (Host.name s).key := if_neg (fun e => h58 e.1)
    rw [e, if_neg h58]
    exact congrArg Except.ok (hfin _)
  | v6 s =>
    have h58 : 58 ∈ (Host.v6 s).key := by
      rw [Host.key, mem_lowercase _ (by omega)]; exact hv.1
    have h37 : 37 ∉ 91 :: ((Host.v6 s).key ++ [93]) := by
      simp only [List.mem_cons, List.mem_append, List.not_mem_nil, or_false, not_or]
      exact ⟨by decide, fun e => (key_chars hv _ e).2.2.2 rfl, by decide⟩
    have e : wrap (Host.v6 s).key = 91 :: ((Host.v6 s).key ++ [93]) := if_pos ⟨h58, head_ne hv⟩
    rw [e, if_pos h58, stripZone, part_free h37]
    exact congrArg Except.ok (hfin _)

/-- The characters of a request line -/
def Line (t : PyStr) : Prop := ∀ c ∈ t, 33 ≤ c ∧ c ≤ 126

theorem Line.control {t : PyStr} (h : Line t) : control t = false := by
  unfold HttpUrl.control
  rw [List.any_eq_false]
  intro c hc
  have := h c hc
  simp; omega

theorem Line.ascii {t : PyStr} (h : Line t) : t.any (128 ≤ ·) = false := by
  rw [List.any_eq_false]
  intro c hc
  have := h c hc
  simp; omega

theorem Line.append {a b : PyStr} (ha : Line a) (hb : Line b) : Line (a ++ b) :=
  fun c hc => (List.mem_append.1 hc).elim (ha c) (hb c)

theorem Line.of_plain {bad : List Nat} {a : PyStr} (h : Plain bad a) : Line a := fun c hc => ⟨(h c hc).1, (h c hc).2.1⟩

theorem line_query {u : Url} (hu : u.Valid) : Line (queryText u.query) := by
  unfold queryText
  split
  · intro c hc; cases hc
  · intro c hc
    rcases List.mem_cons.1 hc with rfl | hc
    · omega
    · exact Line.of_plain hu.query c hc

theorem cut_sub {c d : Nat} {t : PyStr} (h : d ∈ (Remote.cut c t).1) : d ∈ t := by
  by_cases hc : c ∈ t
  · obtain ⟨a, b, rfl, h1⟩ := List.eq_append_cons_of_mem hc
    rw [cut_at _ h1] at h
    simp [h]
  · rwa [cut_free hc] at h

theorem splitParams_sub {p : PyStr} {c : Nat} (h : c ∈ (splitParams p).1) : c ∈ p := by
  unfold splitParams at h
  dsimp only at h
  rcases List.mem_append.1 h with h | h
  · exact List.mem_of_mem_take h
  · have := cut_sub h
    rw [List.mem_reverse] at this
    exact List.mem_reverse.1 ((List.takeWhile_sublist _).mem this)

theorem line_path {u : Url} (hu : u.Valid) : Line ((splitParams u.path).1 ++ queryText u.query) :=
  Line.append (fun c hc => Line.of_plain hu.path.2 c (splitParams_sub hc)) (line_query hu)

theorem path_head {u : Url} (hu : u.Valid) :
    (splitParams u.path).1 ++ queryText u.query = [] ∨ (∃ r, (splitParams u.path).1 ++ queryText u.query = 47 :: r) ∨ ∃ r, (splitParams u.path).1 ++ queryText u.query = 63 :: r := by
  rcases hu.path.1 with h | ⟨r, h⟩
  · rw [h, show (splitParams []).1 = [] from rfl, List.nil_append]
    unfold queryText
    split
    · exact Or.inl rfl
    · exact Or.inr (Or.inr ⟨_, rfl⟩)
  · refine Or.inr (Or.inl ?_)
    obtain ⟨d, l, e, h1⟩ := last_segment (t := 47 :: r) (by simp)
    have h2 : ∃ l', (splitParams (d ++ 47 :: l)).1 = d ++ 47 :: l' := by
      by_cases h3 : 59 ∈ l
      · obtain ⟨a, b, rfl, h4⟩ := List.eq_append_cons_of_mem h3
        have h5 : 47 ∉ a ∧ 47 ∉ b := ⟨fun e => h1 (by simp [e]), fun e => h1 (by simp [e])⟩
        exact ⟨a, by rw [Remote.splitParams_at h5.1 h4 h5.2]⟩
      · exact ⟨l, by rw [splitParams_last h1 h3]⟩
    obtain ⟨l', h3⟩ := h2
    rw [h, e, h3]
    cases d with
    | nil => exact ⟨l' ++ queryText u.query, rfl⟩
    | cons x d =>
      have : x = 47 := by simp only [List.cons_append, List.cons.injEq] at e; exact e.1.symm
      exact ⟨d ++ 47 :: l' ++ queryText u.query, by rw [this]; rfl⟩

theorem request_plain {w : World} {u : Url} (hu : u.Valid) (c : Ctx) : request w (plainClient u c) =
    .ok { peer := (u.host.key, portOr u), connect := none, tls := if u.https then some (u.host.key, c) else none
          target := if (splitParams u.path).1 ++ queryText u.query = [] then [47] else (splitParams u.path).1 ++ queryText u.query
          host := u.host.header ++ (if portOr u = standard u.https then [] else 58 :: decimal (portOr u)), auth := none } := by
  have ht : target (plainClient u c) = (splitParams u.path).1 ++ queryText u.query := rfl
  have hl : Line (if (splitParams u.path).1 ++ queryText u.query = [] then [47] else (splitParams u.path).1 ++ queryText u.query) := by
    split
    · intro c hc; simp at hc; omega
    · exact line_path hu
  have hh : (if (splitParams u.path).1 ++ queryText u.query = [] then [47] else (splitParams u.path).1 ++ queryText u.query).head? ≠ some 104 := by
    rcases path_head hu with h | ⟨r, h⟩ | ⟨r, h⟩ <;> rw [h] <;> simp
  unfold request
  rw [show getHostPort w (plainClient u c).https (plainClient u c).host (plainClient u c).port = .ok (u.host.key, portOr u) from getHostPort_some hu.host _, Remote.Except.ok_bind]
  dsimp only
  rw [ht, if_neg (by rw [hl.control]; simp), if_neg (by rw [hl.ascii]; simp)]
  have e : tunnel (plainClient u c) = none := rfl
  rw [e]
  dsimp only
  rw [show (plainClient u c).https = u.https from rfl, hostHeader_rel hh hu.host, Remote.Except.ok_bind]
  rfl

/-- A request through a proxy, without TLS to the peer or with it: everything but the host in the header -/
theorem request_proxy {w : World} {u p : Url} (hu : u.Valid) (c : Ctx) (auth : Option PyStr) {h : PyStr} {n : Nat} (hg : getHostPort w u.https (some p.host.key) p.port = .ok (h, n)) {url hh : PyStr}
    (hurl : url = (if target (proxyClient u p c auth) = [] then [47] else target (proxyClient u p c auth))) (hl : Line url) (hhh : hostHeader u.https url u.host.key (portOr u) = .ok hh) :
    request w (proxyClient u p c auth) =
    .ok { peer := (h, n), connect := some (u.host.key, portOr u, auth.getD (pyStr "None")), tls := if u.https then some (u.host.key, c) else none
          target := url, host := hh, auth := if u.https then none else auth } := by
  unfold request
  rw [show getHostPort w (proxyClient u p c auth).https (proxyClient u p c auth).host (proxyClient u p c auth).port = .ok (h, n) from hg, Remote.Except.ok_bind]
  dsimp only
  rw [← hurl, if_neg (by rw [hl.control]; simp), if_neg (by rw [hl.ascii]; simp)]
  have e : tunnel (proxyClient u p c auth) = some (u.host.key, portOr u, auth.getD (pyStr "None")) := by
    unfold tunnel
    rw [show (proxyClient u p c auth).realhost = some u.host.key from rfl, Option.map_some, if_neg (fun e => head_ne hu.host e.1)]
    rfl
  rw [e]
  dsimp only
  rw [show (proxyClient u p c auth).https = u.https from rfl, hhh, Remote.Except.ok_bind]
  cases u.https <;> rfl

theorem proxyAuth_none {w : World} {p : Url} (hp : p.Valid) (h : p.user = none) : proxyAuth w (authority p) = .ok none := by
  unfold proxyAuth
  rw [userinfo_authority hp, h]
  rfl

theorem proxyAuth_user {w : World} {p : Url} (hp : p.Valid) {n : PyStr} (h : p.user = some (n, none)) : proxyAuth w (authority p) = .error .typeError := by
  unfold proxyAuth
  have := (hp.user n none h).1
  rw [userinfo_authority hp, h]
  cases n with
  | nil => exact absurd rfl this
  | cons c n => rfl

theorem proxyAuth_both {w : World} (hw : Texts w) {p : Url} (hp : p.Valid) {n q : PyStr} (h : p.user = some (n, some q)) :
    proxyAuth w (authority p) = .ok (some (credentials w.unquote n q)) := by
  unfold proxyAuth
  obtain ⟨h0, h1, h2⟩ := hp.user n (some q) h
  have sc : ∀ {bad : List Nat} {t : PyStr}, Plain bad t → ∀ c ∈ (if 37 ∈ t then w.unquote t else t), Spec.Scalar c := by
    intro bad t ht c hc
    split at hc
    · exact hw t c hc
    · have := ht c hc
      exact Or.inl (by omega)
  have ev : ∀ t : PyStr, (if 37 ∈ t then w.unquote t else t) = (fun t : PyStr => if 37 ∈ t then w.unquote t else t) t := fun _ => rfl
  rw [userinfo_authority hp, h]
  cases n with
  | nil => exact absurd rfl h0
  | cons x n =>
    dsimp only [Option.map_some, Option.bind_some]
    rw [unquote, Remote.Except.ok_bind, unquote, Remote.Except.ok_bind, utf8Encode_eq, Remote.Except.ok_bind]
    · rfl
    · intro c hc
      rcases List.mem_append.1 hc with hc | hc
      · exact sc h1 c hc
      · rcases List.mem_cons.1 hc with rfl | hc
        · exact Or.inl (by omega)
        · exact sc (h2 q rfl) c hc

end Thrift.HttpUrl
