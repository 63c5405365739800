import Verif.Proofs.HttpUrl
/-
C96: a `THttpClient` sends its requests to the server that its URL names, for the resource in the URL, and shows the credentials of a proxy to the proxy only.
-/

namespace Thrift.HttpUrl
open Rpc Spec.HttpUrl
open Spec.Remote (Plain queryText)
open Remote (urlparse splitParams)

theorem resource_eq {u : Url} (hu : u.Valid) (hn : NoParams u.path) (hq : u.path ≠ [] ∨ u.query = []) :
    (if (splitParams u.path).1 ++ queryText u.query = [] then [47] else (splitParams u.path).1 ++ queryText u.query) = u.resource := by
  rw [splitParams_no hu.path.1 hn]
  unfold Url.resource
  by_cases h : u.path = []
  · have h2 : u.query = [] := hq.resolve_left (fun e => e h)
    simp [h, h2, queryText]
  · simp [h]

theorem init_ok {w : World} {u : Url} (hu : u.Valid) (path : Option PyStr) {a : TlsArgs} (ht : u.https = true → TlsOk w a) :
    ∃ c, (u.https = true → c = ctx a) ∧ init w u.text none path a = withProxy w (plainClient u c) := by
  by_cases h : u.https = true
  · exact ⟨ctx a, fun _ => rfl, by rw [init_text hu, if_pos h, context_ok (ht h)]; rfl⟩
  · exact ⟨.default, fun e => absurd e h, by rw [init_text hu, if_neg h]; rfl⟩

theorem bind_inv {α β : Type} {x : Except Exc α} {f : α → Except Exc β} {y : β} (h : x.bind f = .ok y) : ∃ a, x = .ok a ∧ f a = .ok y := by
  cases x with
  | error e => cases h
  | ok a => exact ⟨a, rfl, h⟩

theorem request_inv {w : World} {c : Client} {x : Wire} (h : request w c = .ok x) :
    ∃ hn, getHostPort w c.https c.host c.port = .ok hn ∧ x.peer = hn ∧ x.connect = tunnel c ∧ x.tls = (if c.https then some (((tunnel c).map Prod.fst).getD hn.1, c.ctx) else none) ∧
      x.auth = if c.realhost.isSome && !c.https then c.auth else none := by
  unfold request at h
  cases hg : getHostPort w c.https c.host c.port with
  | error e => rw [hg] at h; cases h
  | ok hn =>
    rw [hg, Remote.Except.ok_bind] at h
    dsimp only at h
    generalize (if target c = [] then [47] else target c) = url at h
    split at h
    · cases h
    · split at h
      · cases h
      · obtain ⟨hh, _, h⟩ := bind_inv h
        injection h with h
        subst h
        exact ⟨hn, rfl, rfl, rfl, rfl, rfl⟩

/-- Without a proxy, the request goes to the host and the port of the URL, with TLS for `https` where the certificate must be for that host, and asks for the path and the query. User, password and fragment of the
URL and the argument `path` play no role. Missing: parameters in the last segment of the path (`params_dropped`), a query without a path (`query_alone`), the port 0 (`port_zero`). -/
theorem direct_partial {w : World} {u : Url} (hu : u.Valid) (hpar : NoParams u.path) (hq : u.path ≠ [] ∨ u.query = []) (h0 : u.port ≠ some 0) (hw : NoProxy w u) {a : TlsArgs} (ht : u.https = true → TlsOk w a)
    (path : Option PyStr) : post w u.text none path a = .ok (direct u a) := by
  obtain ⟨c, hc, e⟩ := init_ok hu path ht
  unfold post
  rw [e, withProxy_none hw, Remote.Except.ok_bind, request_plain hu, resource_eq hu hpar hq, portOr_eq h0]
  unfold direct Url.hostHeader
  by_cases h : u.https = true
  · rw [hc h]; rfl
  · simp only [h]; rfl

/-- With `https` and a proxy, the connection goes to the proxy, which gets its credentials; what comes after that is for the server of the URL: the certificate must be its certificate, and the request has no credentials
of the proxy. Missing: what is missing in `direct_partial`, a proxy without a port (`proxy_port`, `proxy_v6`), a proxy without a user (`proxy_none`), without a password (`password_needed`). -/
theorem tunnel_partial {w : World} (hx : Texts w) {u p : Url} (hu : u.Valid) (hs : u.https = true) (hpar : NoParams u.path) (hq : u.path ≠ [] ∨ u.query = []) (h0 : u.port ≠ some 0) (hp : p.Valid) (hw : Proxy w u p)
    {n : Nat} (hn : p.port = some n) {user pass : PyStr} (hc : p.user = some (user, some pass)) {a : TlsArgs} (ht : TlsOk w a) (path : Option PyStr) :
    post w u.text none path a =
      .ok { direct u a with peer := (p.host.key, n), connect := some (u.host.key, u.portNumber, credentials w.unquote user pass) } := by
  obtain ⟨c, hcc, e⟩ := init_ok hu path (fun _ => ht)
  unfold post
  have htar : target (proxyClient u p c (some (credentials w.unquote user pass))) = (splitParams u.path).1 ++ queryText u.query := by
    unfold target
    rw [show (proxyClient u p c (some (credentials w.unquote user pass))).realhost = some u.host.key from rfl]
    dsimp only
    exact if_pos hs
  have hl : Line u.resource := by
    rw [← resource_eq hu hpar hq]
    split
    · intro c hc; simp at hc; omega
    · exact line_path hu
  have hh : u.resource.head? ≠ some 104 := by
    rw [← resource_eq hu hpar hq]
    rcases path_head hu with h | ⟨r, h⟩ | ⟨r, h⟩ <;> rw [h] <;> simp
  rw [e, withProxy_some hp hw, proxyAuth_both hx hp hc, Remote.Except.ok_bind, Remote.Except.ok_bind,
    request_proxy hu _ _ (by rw [hn]; exact getHostPort_some hp.host n) (by rw [htar, resource_eq hu hpar hq]) hl (hostHeader_rel hh hu.host _), portOr_eq h0]
  unfold direct Url.hostHeader
  rw [hcc hs]
  simp only [hs]; rfl

/-- The URL that is asked for through a proxy without TLS -/
def absolute (u : Url) : Url := { https := false, host := .name u.host.key, port := some u.portNumber, path := u.path, query := u.query }

theorem absolute_valid {u : Url} (hu : u.Valid) {h : PyStr} (hh : u.host = .name h) : (absolute u).Valid where
  user := fun _ _ h => nomatch h
  host := by
    have hv := hu.host
    rw [hh] at hv
    constructor
    · rw [hh]
      intro e
      exact hv.1 (List.map_eq_nil_iff.1 e)
    · rw [hh]
      intro c hc
      obtain ⟨d, hd, e⟩ := List.mem_map.1 hc
      have := hv.2 d hd
      simp only [List.mem_cons, List.not_mem_nil, or_false, not_or] at this ⊢
      split at e <;> omega
  port := by
    intro p e
    cases e
    unfold Url.portNumber
    cases hp : u.port with
    | none => simp [standard]; split <;> omega
    | some n => exact hu.port n hp
  path := hu.path
  query := hu.query
  fragment := fun _ h => nomatch h

theorem lowercase_lowercase (t : PyStr) : lowercase (lowercase t) = lowercase t := by
  unfold lowercase
  rw [List.map_map]
  apply List.map_congr_left
  intro c _
  simp only [Function.comp_apply]
  by_cases h : 65 ≤ c ∧ c ≤ 90
  · rw [if_pos h, if_neg (by omega)]
  · rw [if_neg h, if_neg h]

/-- The request for `http` through a proxy: there is a tunnel to the server of the URL, and the request in the tunnel is one for a proxy: its target is the whole URL, and it has the credentials of the proxy. -/
theorem plain_proxy {w : World} (hx : Texts w) {u p : Url} (hu : u.Valid) (hs : u.https = false) {h : PyStr} (hh : u.host = .name h) (hpar : NoParams u.path) (h0 : u.port ≠ some 0) (hp : p.Valid) (hw : Proxy w u p)
    {n : Nat} (hn : p.port = some n) (hc : ∀ user, p.user ≠ some (user, none)) (a : TlsArgs) (path : Option PyStr) :
    post w u.text none path a =
      .ok { peer := (p.host.key, n), connect := some (u.host.key, u.portNumber, ((p.user.bind fun x => x.2.map (credentials w.unquote x.1)).getD (pyStr "None")))
            tls := none, target := (absolute u).text, host := u.host.key ++ 58 :: decimal u.portNumber
            auth := p.user.bind fun x => x.2.map (credentials w.unquote x.1) } := by
  obtain ⟨c, _, e⟩ := init_ok (w := w) (a := a) hu path (fun h => by rw [hs] at h; cases h)
  have ha : proxyAuth w (authority p) = .ok (p.user.bind fun x => x.2.map (credentials w.unquote x.1)) := by
    cases hpu : p.user with
    | none => exact proxyAuth_none hp hpu
    | some x =>
      obtain ⟨us, pw⟩ := x
      cases pw with
      | none => exact absurd hpu (hc us)
      | some pw => exact proxyAuth_both hx hp hpu
  unfold post
  rw [e, withProxy_some hp hw, ha, Remote.Except.ok_bind, Remote.Except.ok_bind]
  generalize (p.user.bind fun x => x.2.map (credentials w.unquote x.1)) = auth
  have htxt : (absolute u).text = pyStr "http://" ++ (u.host.key ++ 58 :: (decimal u.portNumber ++ (u.path ++ queryText u.query))) := by
    unfold Url.text authority absolute
    simp only [userText, Host.text, portText, fragmentText, Bool.false_eq_true, if_false, if_true, List.nil_append, List.append_nil, List.append_assoc, List.cons_append]
    rfl
  have htar : target (proxyClient u p c auth) = (absolute u).text := by
    unfold target
    rw [show (proxyClient u p c auth).realhost = some u.host.key from rfl]
    dsimp only
    rw [show (proxyClient u p c auth).https = false from hs, if_neg (by decide), htxt]
    have e1 : (proxyClient u p c auth).realport.getD 0 = u.portNumber := portOr_eq h0
    have e2 : (proxyClient u p c auth).path = u.path ++ queryText u.query := by
      change (splitParams u.path).1 ++ queryText u.query = _
      rw [splitParams_no hu.path.1 hpar]
    rw [e1, e2]
  have hl : Line (absolute u).text := by
    rw [htxt]
    refine Line.append (by unfold Line; decide) (Line.append (fun c hc => ?_) ?_)
    · have := key_chars hu.host c hc; omega
    · intro c hc
      rcases List.mem_cons.1 hc with rfl | hc
      · omega
      · rcases List.mem_append.1 hc with hc | hc
        · have := digits _ c hc; omega
        · exact Line.append (Line.of_plain hu.path.2) (line_query hu) c hc
  obtain ⟨x, r, hne⟩ := text_ne (absolute u)
  have hv := absolute_valid hu hh
  have hhh : hostHeader u.https (absolute u).text u.host.key (portOr u) = .ok (u.host.key ++ 58 :: decimal u.portNumber) := by
    unfold hostHeader
    have hpre : pyStr "http" <+: (absolute u).text := by
      rw [htxt]; exact ⟨pyStr "://" ++ (u.host.key ++ 58 :: (decimal u.portNumber ++ (u.path ++ queryText u.query))), rfl⟩
    have hau : authority (absolute u) = u.host.key ++ 58 :: decimal u.portNumber := rfl
    dsimp only
    rw [if_pos hpre, urlparse_text hv, Except.map, Remote.Except.ok_bind]
    dsimp only
    rw [hau, if_pos (by simp), stripZone, part_free]
    intro h37
    rcases List.mem_append.1 h37 with h37 | h37
    · exact (key_chars hu.host _ h37).2.2.2 rfl
    · rcases List.mem_cons.1 h37 with h37 | h37
      · cases h37
      · have := digits _ _ h37; omega
  rw [request_proxy hu _ _ (by rw [hn]; exact getHostPort_some hp.host n) (by rw [htar, hne]; rfl) hl hhh, portOr_eq h0, hs]
  rfl

/-- The credentials of the proxy are sent to every `http` server that is reached through the proxy, in the tunnel. -/
theorem leaks {w : World} (hx : Texts w) {u p : Url} (hu : u.Valid) (hs : u.https = false) {h : PyStr} (hh : u.host = .name h) (hpar : NoParams u.path) (h0 : u.port ≠ some 0) (hp : p.Valid) (hw : Proxy w u p)
    {n : Nat} (hn : p.port = some n) {user pass : PyStr} (hc : p.user = some (user, some pass)) (a : TlsArgs) :
    ∃ x, post w u.text none none a = .ok x ∧ x.connect = some (u.host.key, u.portNumber, credentials w.unquote user pass) ∧ x.tls = none ∧ x.auth = some (credentials w.unquote user pass) := by
  refine ⟨_, plain_proxy hx hu hs hh hpar h0 hp hw hn (by rw [hc]; simp) a none, ?_, rfl, ?_⟩
  · dsimp only; rw [hc]; rfl
  · dsimp only; rw [hc]; rfl

/-- A request in TLS never has the credentials of a proxy, whatever the arguments and the environment. -/
theorem https_private (w : World) (uri : PyStr) (port : Option Nat) (path : Option PyStr) (a : TlsArgs) {x : Wire} (h : post w uri port path a = .ok x) (ht : x.tls.isSome) : x.auth = none := by
  unfold post at h
  cases hi : init w uri port path a with
  | error e => rw [hi] at h; cases h
  | ok c =>
    rw [hi, Remote.Except.ok_bind] at h
    obtain ⟨hn, _, _, _, h3, h4⟩ := request_inv h
    rw [h3] at ht
    rw [h4]
    cases hc : c.https with
    | false => rw [hc] at ht; simp at ht
    | true => simp

/-- A proxy without a user: `CONNECT` has the header `Proxy-Authorization: None`. -/
theorem proxy_none {w : World} (hx : Texts w) {u p : Url} (hu : u.Valid) (hs : u.https = false) {h : PyStr} (hh : u.host = .name h) (hpar : NoParams u.path) (h0 : u.port ≠ some 0) (hp : p.Valid) (hw : Proxy w u p)
    {n : Nat} (hn : p.port = some n) (hc : p.user = none) (a : TlsArgs) :
    ∃ x, post w u.text none none a = .ok x ∧ x.connect = some (u.host.key, u.portNumber, pyStr "None") ∧ x.auth = none := by
  refine ⟨_, plain_proxy hx hu hs hh hpar h0 hp hw hn (by rw [hc]; simp) a none, ?_, ?_⟩
  · dsimp only; rw [hc]; rfl
  · dsimp only; rw [hc]; rfl

/-- A proxy with a user and no password: no object is made, for any URL that the proxy is used for. -/
theorem password_needed {w : World} {u p : Url} (hu : u.Valid) (hp : p.Valid) (hw : Proxy w u p) {user : PyStr} (hc : p.user = some (user, none)) {a : TlsArgs} (ht : u.https = true → TlsOk w a) (path : Option PyStr) :
    init w u.text none path a = .error .typeError := by
  obtain ⟨c, _, e⟩ := init_ok hu path ht
  rw [e, withProxy_some hp hw, proxyAuth_user hp hc]
  rfl

/-- The parameters of the last segment of the path are left out. -/
theorem params_dropped {w : World} {u : Url} (hu : u.Valid) {d s q : PyStr} (hpath : u.path = d ++ 47 :: (s ++ 59 :: q)) (h1 : 47 ∉ s) (h2 : 59 ∉ s) (h3 : 47 ∉ q) (hw : NoProxy w u) {a : TlsArgs}
    (ht : u.https = true → TlsOk w a) : ∃ x, post w u.text none none a = .ok x ∧ x.target = d ++ 47 :: s ++ queryText u.query := by
  obtain ⟨c, hc, e⟩ := init_ok hu none ht
  unfold post
  rw [e, withProxy_none hw, Remote.Except.ok_bind, request_plain hu]
  refine ⟨_, rfl, ?_⟩
  dsimp only
  rw [hpath, Remote.splitParams_at h1 h2 h3, if_neg (by simp)]

/-- A query without a path: the target is no target of a request. -/
theorem query_alone {w : World} {u : Url} (hu : u.Valid) (hpath : u.path = []) (hq : u.query ≠ []) (hw : NoProxy w u) {a : TlsArgs}
    (ht : u.https = true → TlsOk w a) : ∃ x, post w u.text none none a = .ok x ∧ x.target = 63 :: u.query := by
  obtain ⟨c, hc, e⟩ := init_ok hu none ht
  unfold post
  rw [e, withProxy_none hw, Remote.Except.ok_bind, request_plain hu]
  refine ⟨_, rfl, ?_⟩
  dsimp only
  rw [hpath, show (splitParams []).1 = [] from rfl, queryText, if_neg hq]
  rfl

/-- The port 0 means the port of the scheme. -/
theorem port_zero {w : World} {u : Url} (hu : u.Valid) (h0 : u.port = some 0) (hw : NoProxy w u) {a : TlsArgs}
    (ht : u.https = true → TlsOk w a) : ∃ x, post w u.text none none a = .ok x ∧ x.peer = (u.host.key, standard u.https) := by
  obtain ⟨c, hc, e⟩ := init_ok hu none ht
  unfold post
  rw [e, withProxy_none hw, Remote.Except.ok_bind, request_plain hu]
  refine ⟨_, rfl, ?_⟩
  dsimp only
  rw [portOr, if_pos (Or.inr h0)]

/-- To check the server with a `cafile`, as the documentation says, is not possible without a certificate of the client. -/
theorem cafile_raises {w : World} {u : Url} (hu : u.Valid) (hs : u.https = true) {a : TlsArgs} {f : PyStr} (hf : a.cafile = some f) (hne : f ≠ []) (hc : a.cert = none) (hx : a.context = false) (path : Option PyStr) :
    ∃ e, init w u.text none path a = .error e ∧ (w.ca a.cafile = none → e = .typeError) := by
  rw [init_text hu, if_pos hs]
  unfold context
  rw [if_pos (by simp [truthy, hf, hne, hx])]
  cases hca : w.ca a.cafile with
  | some e => exact ⟨e, rfl, fun h => nomatch h⟩
  | none =>
    dsimp only
    rw [hc]
    exact ⟨_, rfl, fun _ => rfl⟩

/-- A URL with the argument `port`, as in the documentation: the whole URL is the name of the host, and there is no TLS. -/
theorem port_argument {w : World} (hw : w.proxies (pyStr "http") = none) (u : Url) (n : Nat) (path : PyStr) (a : TlsArgs) {x : Wire} (h : post w u.text (some n) (some path) a = .ok x) :
    x.peer = (u.text, n) ∧ x.tls = none := by
  obtain ⟨t0, tr, ht, hx⟩ : ∃ c r, u.text = c :: r ∧ c ≠ 91 := by
    unfold Url.text
    cases u.https
    · exact ⟨104, _, rfl, by decide⟩
    · exact ⟨104, _, rfl, by decide⟩
  have h91 : ¬ (u.text.head? = some 91 ∧ u.text.getLast? = some 93) := by
    rintro ⟨h, _⟩
    rw [ht] at h
    injection h with h
    exact hx h
  cases path with
  | nil => cases h
  | cons p path =>
    unfold post init at h
    dsimp only at h
    unfold withProxy at h
    rw [show pyStr (if (false : Bool) then "https" else "http") = pyStr "http" from rfl, hw] at h
    dsimp only at h
    rw [Remote.Except.ok_bind] at h
    obtain ⟨hn, h1, h2, _, h3, _⟩ := request_inv h
    refine ⟨?_, h3⟩
    rw [h2]
    unfold getHostPort at h1
    dsimp only at h1
    rw [Remote.Except.ok_bind] at h1
    dsimp only at h1
    have e : (if u.text.head? = some 91 ∧ u.text.getLast? = some 93 then u.text.tail.dropLast else u.text) = u.text := if_neg h91
    rw [e] at h1
    split at h1
    · cases h1
    · injection h1 with h1; exact h1.symm

/-- Whatever the arguments are: a request that goes out has no blanks and no control characters in its target, and none in the name that is looked up, so that nothing can be slipped into the request line. -/
theorem no_injection {w : World} {uri : PyStr} {port : Option Nat} {path : Option PyStr} {a : TlsArgs} {x : Wire} (h : post w uri port path a = .ok x) :
    (∀ c ∈ x.target, 33 ≤ c ∧ c ≤ 126) ∧ ∀ c ∈ x.peer.1, 33 ≤ c ∧ c ≠ 127 := by
  unfold post at h
  obtain ⟨c, _, h⟩ := bind_inv h
  unfold request at h
  obtain ⟨⟨hh, n⟩, hg, h⟩ := bind_inv h
  dsimp only at h
  generalize (if target c = [] then [47] else target c) = url at h
  split at h
  · cases h
  · rename_i h1
    split at h
    · cases h
    · rename_i h2
      obtain ⟨hd, _, h⟩ := bind_inv h
      injection h with h
      subst h
      constructor
      · intro k hk
        have a1 : ¬ (k ≤ 32 ∨ k = 127) := fun e => h1 (List.any_eq_true.mpr ⟨k, hk, by simpa using e⟩)
        have a2 : ¬ 128 ≤ k := fun e => h2 (List.any_eq_true.mpr ⟨k, hk, by simpa using e⟩)
        omega
      · unfold getHostPort at hg
        obtain ⟨⟨g, m⟩, _, hg⟩ := bind_inv hg
        dsimp only at hg
        cases g with
        | none => cases hg
        | some g =>
          dsimp only at hg
          generalize (if g.head? = some 91 ∧ g.getLast? = some 93 then g.tail.dropLast else g) = f at hg
          split at hg
          · cases hg
          · rename_i h3
            injection hg with hg
            injection hg with e1 e2
            subst e1
            intro k hk
            have : ¬ (k ≤ 32 ∨ k = 127) := fun e => h3 (List.any_eq_true.mpr ⟨k, hk, by simpa using e⟩)
            omega

/-- An IPv6 address with a zone, given with a port: the zone is for the socket only, the header `Host` does not have it. -/
theorem zone_dropped {w : World} (hw : w.proxies (pyStr "http") = none) {b z path : PyStr} (h58 : 58 ∈ b) (h91 : b.head? ≠ some 91) (h37 : 37 ∉ b) {n : Nat} (hn : n ≠ 80)
    (hp : ¬ pyStr "http" <+: path) {a : TlsArgs} {x : Wire} (h : post w (b ++ 37 :: z) (some n) (some path) a = .ok x) :
    x.peer = (b ++ 37 :: z, n) ∧ x.host = 91 :: (b ++ 93 :: 58 :: decimal n) := by
  obtain ⟨b0, br, rfl⟩ : ∃ c r, b = c :: r := by
    cases b with
    | nil => simp at h58
    | cons c r => exact ⟨c, r, rfl⟩
  have hb0 : b0 ≠ 91 := fun e => h91 (by rw [e]; rfl)
  cases path with
  | nil => cases h
  | cons p path =>
    unfold post init at h
    dsimp only at h
    unfold withProxy at h
    rw [show pyStr (if (false : Bool) then "https" else "http") = pyStr "http" from rfl, hw] at h
    dsimp only at h
    rw [Remote.Except.ok_bind] at h
    unfold request at h
    obtain ⟨⟨hh, m⟩, hg, h⟩ := bind_inv h
    have hg' : (hh, m) = (b0 :: br ++ 37 :: z, n) := by
      unfold getHostPort at hg
      dsimp only at hg
      rw [Remote.Except.ok_bind] at hg
      dsimp only at hg
      have e : (if (b0 :: br ++ 37 :: z).head? = some 91 ∧ (b0 :: br ++ 37 :: z).getLast? = some 93 then (b0 :: br ++ 37 :: z).tail.dropLast else b0 :: br ++ 37 :: z) =
          b0 :: br ++ 37 :: z := if_neg (by rintro ⟨e, _⟩; injection e with e; exact hb0 e)
      rw [e] at hg
      split at hg
      · cases hg
      · injection hg with hg; exact hg.symm
    injection hg' with e1 e2
    subst e1 e2
    dsimp only at h
    have et : target { https := false, host := some (b0 :: br ++ 37 :: z), port := some m, path := p :: path, ctx := .default, realhost := none, realport := none, auth := none } = p :: path := rfl
    have eu : (if p :: path = [] then [47] else p :: path) = p :: path := if_neg (by simp)
    rw [et, eu] at h
    split at h
    · cases h
    · split at h
      · cases h
      · obtain ⟨hd, h1, h⟩ := bind_inv h
        injection h with h
        subst h
        refine ⟨rfl, ?_⟩
        have h1 : hostHeader false (p :: path) (b0 :: br ++ 37 :: z) m = .ok hd := h1
        unfold hostHeader at h1
        rw [if_neg hp] at h1
        dsimp only at h1
        rw [Remote.Except.ok_bind, if_neg (by simp), if_pos (List.mem_append_left _ h58)] at h1
        have e1 : wrap (b0 :: br ++ 37 :: z) = (91 :: b0 :: br) ++ 37 :: (z ++ [93]) := by
          rw [wrap, if_pos ⟨List.mem_append_left _ h58, by simpa using hb0⟩]
          simp
        have e2 : stripZone (wrap (b0 :: br ++ 37 :: z)) = .ok (91 :: (b0 :: br ++ [93])) := by
          rw [e1, stripZone, part_at _ (by intro e; rcases List.mem_cons.mp e with e | e; · cases e
                                           · exact h37 e)]
          rfl
        rw [e2] at h1
        have h1 : Except.ok (if m = 80 then 91 :: (b0 :: br ++ [93]) else (91 :: (b0 :: br ++ [93])) ++ 58 :: decimal m) = Except.ok hd := h1
        rw [if_neg hn] at h1
        injection h1 with h1
        subst h1
        simp

/-- A proxy with a password and an empty user: as without a user. -/
theorem empty_user (w : World) (pass : PyStr) {hostport : PyStr} (h : 64 ∉ hostport) : proxyAuth w (58 :: (pass ++ 64 :: hostport)) = .ok none := by
  have e : userinfo (58 :: (pass ++ 64 :: hostport)) = (some [], some pass) := by
    rw [userinfo, show 58 :: (pass ++ 64 :: hostport) = (58 :: pass) ++ 64 :: hostport from rfl, rpart_at _ h]
    dsimp only
    rw [show 58 :: pass = [] ++ 58 :: pass from rfl, part_at _ (by simp)]
  rw [proxyAuth, e]

/-- A proxy without a port: the port depends on the scheme of the URL of the server, not on the URL of the proxy. -/
theorem proxy_port {w : World} {u p : Url} (hu : u.Valid) (hp : p.Valid) (hw : Proxy w u p) (hs : u.https = true) {h : PyStr} (hh : p.host = .name h) (hn : p.port = none) (hc : p.user = none) {a : TlsArgs}
    (ht : TlsOk w a) : ∃ x, post w u.text none none a = .ok x ∧ x.peer = (p.host.key, 443) := by
  obtain ⟨c, hcc, e⟩ := init_ok hu none (fun _ => ht)
  have hg : getHostPort w u.https (some p.host.key) p.port = .ok (p.host.key, 443) := by
    have h58 : 58 ∉ p.host.key := by
      have hv := hp.host
      rw [hh] at hv ⊢
      rw [Host.key, mem_lowercase _ (by omega)]
      exact (Free.of_plain (bad := [58]) hv.2 (by simp)).not (by simp)
    unfold getHostPort
    rw [hn]
    dsimp only
    rw [rpart_free h58, hs]
    dsimp only
    rw [Remote.Except.ok_bind]
    dsimp only
    have e : (if p.host.key.head? = some 91 ∧ p.host.key.getLast? = some 93 then p.host.key.tail.dropLast else p.host.key) = p.host.key := if_neg (fun e => head_ne hp.host e.1)
    rw [e, if_neg (by rw [control_key hp.host]; simp)]
    rfl
  have htar : target (proxyClient u p c none) = (splitParams u.path).1 ++ queryText u.query := by
    unfold target
    rw [show (proxyClient u p c none).realhost = some u.host.key from rfl]
    dsimp only
    exact if_pos hs
  have hl : Line (if target (proxyClient u p c none) = [] then [47] else target (proxyClient u p c none)) := by
    rw [htar]
    split
    · intro c hc; simp at hc; omega
    · exact line_path hu
  have hhd : (if target (proxyClient u p c none) = [] then [47] else target (proxyClient u p c none)).head? ≠ some 104 := by
    rw [htar]
    rcases path_head hu with h | ⟨r, h⟩ | ⟨r, h⟩ <;> rw [h] <;> simp
  unfold post
  rw [e, withProxy_some hp hw, proxyAuth_none hp hc, Remote.Except.ok_bind, Remote.Except.ok_bind, request_proxy hu _ _ hg rfl hl (hostHeader_rel hhd hu.host _)]
  exact ⟨_, rfl, rfl⟩

/-- A proxy given as `host:port`, without a scheme: the object is made, and no request can be sent. -/
theorem proxy_bare {w : World} {u : Url} (hu : u.Valid) {h : PyStr} (hne : h ≠ []) (hh : ∀ c ∈ h, Remote.isSchemeChar c = true) (n : Nat) (hw : w.proxies (pyStr (if u.https then "https" else "http")) = some (h ++ 58 :: decimal n))
    (hb : w.bypass (some u.host.key) = false) {a : TlsArgs} (ht : u.https = true → TlsOk w a) :
    (∃ c, init w u.text none none a = .ok c) ∧ post w u.text none none a = .error .attributeError := by
  obtain ⟨c, hcc, e⟩ := init_ok hu none ht
  have hall : ∀ c ∈ h, (c != 58) = true := by
    intro c hc
    have := hh c hc
    simp only [bne_iff_ne, ne_eq]
    rintro rfl
    exact absurd this (by decide)
  have h47 : ∀ r, decimal n ≠ 47 :: r := by
    intro r e
    have := digits n 47 (by rw [e]; simp)
    omega
  have hsn : Remote.splitNetloc (decimal n) = ([], decimal n) := by
    unfold Remote.splitNetloc
    split
    · next r h => exact absurd h (h47 _)
    · rfl
  have hparse : ∃ v : Remote.Url, urlparse (h ++ 58 :: decimal n) = .ok v ∧ v.netloc = [] := by
    have e : Remote.splitScheme (h ++ 58 :: decimal n) = (h.map Remote.lower, decimal n) := by
      unfold Remote.splitScheme
      rw [Remote.span_at 58 _ hall (by decide)]
      dsimp only
      rw [if_pos ⟨hne, List.all_eq_true.2 hh⟩]
    unfold urlparse
    rw [e]
    dsimp only
    rw [hsn]
    dsimp only
    rw [if_neg (by simp)]
    exact ⟨_, rfl, rfl⟩
  obtain ⟨v, hv, hnl⟩ := hparse
  have hwp : withProxy w (plainClient u c) = .ok { plainClient u c with host := none, port := none, realhost := some u.host.key, realport := some (portOr u), auth := none } := by
    unfold withProxy
    have e1 : w.proxies (pyStr (if (plainClient u c).https then "https" else "http")) = some (h ++ 58 :: decimal n) := hw
    have e2 : w.bypass (plainClient u c).host = false := hb
    rw [e1, e2]
    cases h with
    | nil => exact absurd rfl hne
    | cons x h =>
      rw [List.cons_append] at hv ⊢
      dsimp only
      rw [if_neg (by decide)]
      dsimp only
      rw [hv, Remote.Except.ok_bind, hnl]
      rfl
  refine ⟨⟨_, e.trans hwp⟩, ?_⟩
  unfold post
  rw [e, hwp, Remote.Except.ok_bind]
  rfl

/-- An IPv6 proxy without a port: the last part of the address is taken for the port. -/
theorem proxy_v6 {w : World} {u p : Url} (hu : u.Valid) (hp : p.Valid) (hw : Proxy w u p) {b t : PyStr} (hh : p.host = .v6 (b ++ 58 :: t)) (h58 : 58 ∉ t) (hn : p.port = none) (hc : p.user = none) {n : Nat}
    (hi : w.int (lowercase t) = some n) {a : TlsArgs} (ht : u.https = true → TlsOk w a) {x : Wire} (h : post w u.text none none a = .ok x) : x.peer = (lowercase b, n) := by
  obtain ⟨c, _, e⟩ := init_ok hu none ht
  unfold post at h
  rw [e, withProxy_some hp hw, proxyAuth_none hp hc, Remote.Except.ok_bind, Remote.Except.ok_bind] at h
  obtain ⟨hn', h1, h2, _⟩ := request_inv h
  rw [h2]
  have hv := hp.host
  have hhd := head_ne hv
  have hkey : p.host.key = lowercase b ++ 58 :: lowercase t := by rw [hh]; simp [Host.key, lowercase]
  have h93 : 93 ∉ lowercase t := by
    intro h93
    have h93 : 93 ∈ lowercase (b ++ 58 :: t) := by simp [lowercase] at h93 ⊢; exact Or.inr h93
    rw [hh] at hv
    obtain ⟨d, hd, ed⟩ := List.mem_map.1 h93
    have := hv.2 d hd
    split at ed <;> omega
  have h91 : (lowercase b).head? ≠ some 91 := by
    intro h91
    apply hhd
    rw [hkey, List.head?_append, h91]; rfl
  have e1 : (proxyClient u p c none).host = some (lowercase b ++ 58 :: lowercase t) := congrArg some hkey
  have e2 : (proxyClient u p c none).port = none := hn
  rw [e1, e2] at h1
  unfold getHostPort at h1
  dsimp only at h1
  rw [rpart_at _ (by rw [mem_lowercase _ (by omega)]; exact h58)] at h1
  dsimp only at h1
  rw [if_neg h93, hi] at h1
  dsimp only at h1
  rw [Remote.Except.ok_bind] at h1
  dsimp only at h1
  have e3 : (if (lowercase b).head? = some 91 ∧ (lowercase b).getLast? = some 93 then (lowercase b).tail.dropLast else lowercase b) = lowercase b := if_neg (fun e => h91 e.1)
  rw [e3] at h1
  split at h1
  · cases h1
  · injection h1 with h1; exact h1.symm

/-! ### Examples -/

/-- `https://Example.com:8443/api/v1?k=v#x` and the same without TLS -/
def api (https : Bool) : Url :=
  { https, host := .name (pyStr "Example.com"), port := some 8443, path := pyStr "/api/v1", query := pyStr "k=v", fragment := pyStr "x" }

/-- `http://me:secret@[2001:DB8::1]:3128/` -/
def gate : Url := { https := false, user := some (pyStr "me", some (pyStr "secret")), host := .v6 (pyStr "2001:DB8::1"), port := some 3128, path := pyStr "/" }

theorem plain_text {bad : List Nat} {t : PyStr} (h : (t.all fun c => decide (33 ≤ c ∧ c ≤ 126 ∧ c ∉ bad)) = true) : Plain bad t := by
  intro c hc
  simpa using List.all_eq_true.1 h c hc

theorem api_valid (b : Bool) : (api b).Valid where
  user := fun _ _ h => nomatch h
  host := ⟨by decide, plain_text (by decide)⟩
  port := by intro p h; cases h; decide
  path := ⟨Or.inr ⟨_, rfl⟩, plain_text (by cases b <;> decide)⟩
  query := plain_text (by cases b <;> decide)
  fragment := plain_text (by cases b <;> decide)

theorem gate_valid : gate.Valid where
  user := by intro n p h; cases h; exact ⟨by decide, plain_text (by decide), fun q h => by cases h; exact plain_text (by decide)⟩
  host := by
    refine ⟨by decide, fun c hc => ?_⟩
    simp [pyStr] at hc
    omega
  port := by intro p h; cases h; decide
  path := ⟨Or.inr ⟨_, rfl⟩, plain_text (by decide)⟩
  query := plain_text (by decide)
  fragment := plain_text (by decide)

theorem api_params (b : Bool) : NoParams (api b).path := by
  intro d l h _ h2
  have : 59 ∈ (api b).path := by rw [h]; simp [h2]
  exact absurd this (by cases b <;> decide)

/-- An environment with the proxy for both schemes, or with none -/
def world (proxy : Bool) : World where
  proxies := fun _ => if proxy then some gate.text else none
  bypass := fun h => h == some (pyStr "localhost")
  unquote := fun _ => pyStr "?"
  int := fun _ => none
  ca := fun _ => none
  chain := fun _ _ => none

theorem world_texts (b : Bool) : Texts (world b) := by
  intro t c hc
  have : c = 63 := by simpa [world, pyStr] using hc
  exact Or.inl (by omega)

example (a : TlsArgs) (ha : a.context = true) : post (world false) (api true).text none none a = .ok (direct (api true) a) :=
  direct_partial (api_valid _) (api_params _) (Or.inl (by decide)) (by decide) (Or.inl rfl) (fun _ => Or.inl ha) none

example : direct (api true) { context := true } =
    { peer := (pyStr "example.com", 8443), connect := none, tls := some (pyStr "example.com", .given), target := pyStr "/api/v1?k=v", host := pyStr "example.com:8443", auth := none } := by
  decide +kernel

example : post (world true) (api true).text none none {} =
    .ok { direct (api true) {} with peer := (pyStr "2001:db8::1", 3128), connect := some (pyStr "example.com", 8443, pyStr "Basic bWU6c2VjcmV0") } := by
  rw [tunnel_partial (a := {}) (world_texts _) (api_valid _) rfl (api_params _) (Or.inl (by decide)) (by decide) gate_valid ⟨rfl, by decide +kernel⟩ rfl rfl (Or.inr (Or.inl ⟨trivial, rfl, trivial⟩)) none]
  decide +kernel

example : ∃ x, post (world true) (api false).text none none {} = .ok x ∧ x.target = pyStr "http://example.com:8443/api/v1?k=v" ∧ x.connect = some (pyStr "example.com", 8443, pyStr "Basic bWU6c2VjcmV0") ∧
    x.auth = some (pyStr "Basic bWU6c2VjcmV0") := by
  refine ⟨_, plain_proxy (world_texts _) (api_valid false) rfl rfl (api_params _) (by decide) gate_valid ⟨rfl, by decide +kernel⟩ rfl (by intro u; simp [gate]) {} none, ?_, ?_, ?_⟩ <;> decide +kernel

/-- The parameters of `http://h/a;v=1` -/
example : (post (world false) (pyStr "http://h/a;v=1") none none {}).map (·.target) = .ok (pyStr "/a") := by decide +kernel
/-- `https://h?q` -/
example : (post (world false) (pyStr "https://h?q") none none {}).map (·.target) = .ok (pyStr "?q") := by decide +kernel
example : (post (world false) (pyStr "http://h:0/") none none {}).map (·.peer) = .ok (pyStr "h", 80) := by decide +kernel
example : init (world false) (pyStr "https://h/") none none { cafile := some (pyStr "ca.pem") } = .error .typeError := by decide +kernel
example : (post (world false) (pyStr "https://h/") (some 9090) (some (pyStr "/x")) {}).map (fun x => (x.peer, x.tls)) = .ok ((pyStr "https://h/", 9090), none) := by decide +kernel
example : post { world false with proxies := fun _ => some (pyStr "proxy:3128") } (pyStr "http://h/") none none {} = .error .attributeError := by decide +kernel
example : init { world false with proxies := fun _ => some (pyStr "http://me@proxy:3128") } (pyStr "http://h/") none none {} = .error .typeError := by decide +kernel
example : (post { world false with proxies := fun _ => some (pyStr "http://proxy") } (pyStr "https://h/") none none {}).map (fun x => (x.peer, x.connect)) =
    .ok ((pyStr "proxy", 443), some (pyStr "h", 443, pyStr "None")) := by decide +kernel
example : (post { world false with proxies := fun _ => some (pyStr "http://[fe80::12]"), int := fun t => if t = pyStr "12" then some 12 else none } (pyStr "https://h/") none none {}).map (·.peer) =
    .ok (pyStr "fe80:", 12) := by decide +kernel

example : (post { world false with proxies := fun _ => some (pyStr "http://:pw@proxy:3128") } (pyStr "http://h/") none none {}).map (·.auth) = .ok none := by decide +kernel
example : (post { world false with proxies := fun _ => some [] } (pyStr "http://h/") none none {}).map (·.peer) = .ok (pyStr "h", 80) := by decide +kernel
example : (post (world false) (pyStr "https://h/") none none { cafile := some [], key := some [] }).map (·.tls) = .ok (some (pyStr "h", .default)) := by decide +kernel
example : post (world false) (pyStr "http://h/a b") none none {} = .error invalidUrl := by decide +kernel
example : (post (world false) (pyStr "fe80::1%eth0") (some 9090) (some (pyStr "/x")) {}).map (fun x => (x.peer, x.host)) =
    .ok ((pyStr "fe80::1%eth0", 9090), pyStr "[fe80::1]:9090") := by decide +kernel

end Thrift.HttpUrl
