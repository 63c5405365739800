import Verif.Spec.Ssl
import Verif.Props.Socket
/-
C50: the checks of `TSSLSocket.open` and `TSSLServerSocket.accept`; C61: what the options mean;
C62: a `TSSLSocket` after a failed `open`.
-/

namespace Thrift.Ssl
open Spec.Ssl

/-! ## The loop over the addresses -/

/-- The context changes only by getting the requested mode. -/
theorem wrapSocket_ctx {c c' : Ctx} {reqs : Option Reqs} {side : Bool} {h : Option String} {x : Except Exc Unit}
    {r : Except Exc Unit} (e : wrapSocket c reqs side h x = (c', r)) :
    c'.version = c.version ∧ c'.checkHostname = c.checkHostname ∧
    (reqs = none → c' = c) ∧
    (r = .ok () → (∀ q, reqs = some q → c'.verify = q ∧ ¬ (q = .none ∧ c.checkHostname = true)) ∧ wrap c' side h = .ok ()) := by
  unfold wrapSocket setVerify at e
  cases reqs with
  | none =>
    simp only [Prod.mk.injEq] at e
    obtain ⟨rfl, rfl⟩ := e
    exact ⟨rfl, rfl, fun _ => rfl, fun hr => ⟨by simp, hr⟩⟩
  | some q =>
    by_cases hb : q = .none ∧ c.checkHostname = true
    · simp only [if_pos hb, Prod.mk.injEq] at e
      obtain ⟨rfl, rfl⟩ := e
      exact ⟨rfl, rfl, by simp, by simp⟩
    · simp only [if_neg hb] at e
      cases x with
      | error _ =>
        simp only [Prod.mk.injEq] at e
        obtain ⟨rfl, rfl⟩ := e
        exact ⟨rfl, rfl, by simp, by simp⟩
      | ok _ =>
        simp only [Prod.mk.injEq] at e
        obtain ⟨rfl, rfl⟩ := e
        refine ⟨rfl, rfl, by simp, fun hr => ⟨?_, hr⟩⟩
        intro q' hq
        simp only [Option.some.injEq] at hq
        subst hq
        exact ⟨rfl, hb⟩

/-- What is known about a connection made by the loop. -/
structure Good (isFor : Cert → String → Bool) (s : St) (c₀ c : Ctx) (p : Peer) : Prop where
  admits : c.admitsServer isFor s.hostname p = true
  check : c.checkHostname = c₀.checkHostname
  version : c.version = c₀.version
  custom : s.reqs = none → c = c₀
  reqs : ∀ q, s.reqs = some q → c.verify = q ∧ ¬ (q = .none ∧ c.checkHostname = true)
  wrapped : wrap c false s.hostname = .ok ()

theorem openLoop_ok (isFor : Cert → String → Bool) (s : St) (l : List Attempt) :
    ∀ (c : Ctx) (i : Nat), (openLoop isFor s c i l).1 = .ok () →
      ∃ j p, (openLoop isFor s c i l).2.1 = some (j, p) ∧ i ≤ j ∧ l[j - i]?.any (reaches p) = true ∧
        Good isFor s c (openLoop isFor s c i l).2.2.1 p := by
  induction l with
  | nil => intro c i h; simp [openLoop] at h
  | cons a as ih =>
    intro c i h
    have again : ∀ c', (openLoop isFor s c' (i + 1) as).1 = .ok () → c'.version = c.version → c'.checkHostname = c.checkHostname →
        (s.reqs = none → c' = c) →
        ∃ j p, (openLoop isFor s c' (i + 1) as).2.1 = some (j, p) ∧ i ≤ j ∧
          (a :: as)[j - i]?.any (reaches p) = true ∧ Good isFor s c (openLoop isFor s c' (i + 1) as).2.2.1 p := by
      intro c' h1 hv hc hn
      obtain ⟨j, p, h2, h3, h4, h5⟩ := ih c' (i + 1) h1
      refine ⟨j, p, h2, by omega, ?_, ⟨h5.admits, by rw [h5.check, hc], by rw [h5.version, hv], fun hr => by rw [h5.custom hr, hn hr], h5.reqs, h5.wrapped⟩⟩
      rw [show j - i = (j - (i + 1)) + 1 by omega, List.getElem?_cons_succ]
      exact h4
    unfold openLoop at h ⊢
    cases a with
    | noSocket e => simp at h
    | badWrap e =>
      simp only at h ⊢
      cases hw : wrapSocket c s.reqs false s.hostname (.error e) with
      | mk c' r =>
        simp only [hw] at h ⊢
        cases r with
        | error _ => simp at h
        | ok _ =>
          obtain ⟨w1, w2, w3, w4⟩ := wrapSocket_ctx hw
          exact again c' h w1 w2 w3
    | badOption e =>
      simp only at h
      cases hw : wrapSocket c s.reqs false s.hostname (.ok ()) with
      | mk c' r => simp only [hw] at h; cases r <;> simp at h
    | broken e =>
      simp only at h
      cases hw : wrapSocket c s.reqs false s.hostname (.ok ()) with
      | mk c' r => simp only [hw] at h; cases r <;> simp at h
    | refused =>
      simp only at h ⊢
      cases hw : wrapSocket c s.reqs false s.hostname (.ok ()) with
      | mk c' r =>
        simp only [hw] at h ⊢
        cases r with
        | error _ => simp at h
        | ok _ =>
          obtain ⟨w1, w2, w3, w4⟩ := wrapSocket_ctx hw
          exact again c' h w1 w2 w3
    | peer p =>
      simp only at h ⊢
      cases hw : wrapSocket c s.reqs false s.hostname (.ok ()) with
      | mk c' r =>
        simp only [hw] at h ⊢
        cases r with
        | error _ => simp at h
        | ok _ =>
          obtain ⟨w1, w2, w3, w4⟩ := wrapSocket_ctx hw
          simp only at h ⊢
          by_cases ha : c'.admitsServer isFor s.hostname p = true
          · simp only [if_pos ha]
            refine ⟨i, p, rfl, Nat.le_refl _, by simp [reaches], ⟨ha, w2, w1, w3, fun q hq => ?_, (w4 rfl).2⟩⟩
            have := (w4 rfl).1 q hq
            rw [w2]
            exact this
          · simp only [if_neg ha] at h ⊢
            exact again c' h w1 w2 w3

/-- The loop reports success exactly if it leaves a handle. -/
theorem openLoop_handle (isFor : Cert → String → Bool) (s : St) (l : List Attempt) :
    ∀ (c : Ctx) (i : Nat), (openLoop isFor s c i l).1 = .ok () ↔ (openLoop isFor s c i l).2.1 ≠ none := by
  induction l with
  | nil => intro c i; simp [openLoop]
  | cons a as ih =>
    intro c i
    unfold openLoop
    cases a <;> simp only <;> try (simp; done)
    all_goals
      split
      · simp
      · first
          | exact ih _ _
          | (simp; done)
          | (split
             · simp
             · exact ih _ _)

/-! ## C50 -/

/-- C50: if `open` returns, there is a connection to one of the resolved addresses, and if the mode of
the context is not `CERT_NONE`, then the peer has a certificate of a trusted authority, the validate
callback was given this certificate and the configured host name and accepted them, and `is_valid` and
`peercert` say so. If the context checks host names, the certificate is for that host. -/
theorem ssl_open (isFor : Cert → String → Bool) (res : Resolved) (s : St)
    (h : (open_ isFor res s).1 = .ok ()) :
    ∃ l p, res = .addrs l ∧ connected (open_ isFor res s).2.1 = some p ∧ (∃ j : Nat, l[j]?.any (reaches p) = true) ∧
      ((open_ isFor res s).2.1.ctx.verify ≠ .none →
        Trusted p ∧ s.callback p.cert s.hostname = .ok () ∧ (open_ isFor res s).2.1.isValid = true ∧
        (open_ isFor res s).2.1.peercert = p.cert ∧
        (s.ctx.checkHostname = true → IsFor isFor p s.hostname)) := by
  unfold open_ baseOpen at h ⊢
  cases hh : s.handle with
  | some x => simp [hh] at h
  | none =>
    cases res with
    | gaierror => simp [hh] at h
    | raises e => simp [hh] at h
    | addrs l =>
      simp only [hh] at h ⊢
      cases hl : (openLoop isFor s s.ctx 0 l).1 with
      | error e => simp [hl] at h
      | ok u =>
        obtain ⟨j, p, h2, -, h4, h5⟩ := openLoop_ok isFor s l s.ctx 0 hl
        simp only [hl, h2] at h ⊢
        refine ⟨l, p, rfl, ?_⟩
        by_cases hv : (openLoop isFor s s.ctx 0 l).2.2.1.verify = .none
        · simp only [hv, ne_eq, not_true_eq_false, if_false]
          exact ⟨rfl, ⟨j - 0, h4⟩, fun hx => absurd hx (by simp)⟩
        · simp only [ne_eq, hv, not_false_eq_true, if_true, Option.bind_some] at h ⊢
          cases hc : s.callback p.cert s.hostname with
          | error e =>
            rw [hc] at h
            simp only at h
            split at h <;> simp at h
          | ok _ =>
            refine ⟨rfl, ⟨j - 0, h4⟩, fun _ => ?_⟩
            have ha := h5.admits
            unfold Ctx.admitsServer at ha
            have hp : ∃ cert, p.cert = some cert ∧ p.trusted = true ∧
                ((openLoop isFor s s.ctx 0 l).2.2.1.checkHostname = true → isFor cert (s.hostname.getD "") = true) := by
              cases hpc : p.cert with
              | none => rw [hpc] at ha; revert ha hv; cases (openLoop isFor s s.ctx 0 l).2.2.1.verify <;> simp
              | some cert =>
                rw [hpc] at ha
                refine ⟨cert, rfl, ?_⟩
                revert ha hv
                cases (openLoop isFor s s.ctx 0 l).2.2.1.verify <;>
                  cases (openLoop isFor s s.ctx 0 l).2.2.1.checkHostname <;> simp
            obtain ⟨cert, hp1, hp2, hp3⟩ := hp
            refine ⟨⟨by simp [hp1], hp2⟩, rfl, rfl, rfl, fun hck => ?_⟩
            rw [← h5.check] at hck
            have hwr := h5.wrapped
            unfold wrap at hwr
            rw [hck] at hwr
            cases hn : s.hostname with
            | none => simp [hn] at hwr
            | some n =>
              refine ⟨cert, n, hp1, rfl, ?_⟩
              have := hp3 hck
              rwa [hn] at this

/-! ## Histories -/

/-- What calls do not change. -/
structure Same (s s' : St) : Prop where
  reqs : s'.reqs = s.reqs
  hostname : s'.hostname = s.hostname
  callback : s'.callback = s.callback
  check : s'.ctx.checkHostname = s.ctx.checkHostname
  version : s'.ctx.version = s.ctx.version
  custom : s.reqs = none → s'.ctx = s.ctx

theorem Same.rfl' (s : St) : Same s s := ⟨rfl, rfl, rfl, rfl, rfl, fun _ => rfl⟩

theorem Same.trans {a b c : St} (h : Same a b) (h' : Same b c) : Same a c :=
  ⟨by rw [h'.reqs, h.reqs], by rw [h'.hostname, h.hostname], by rw [h'.callback, h.callback], by rw [h'.check, h.check],
    by rw [h'.version, h.version], fun hr => by rw [h'.custom (by rw [h.reqs]; exact hr), h.custom hr]⟩

theorem openLoop_ctx (isFor : Cert → String → Bool) (s : St) (l : List Attempt) :
    ∀ (c : Ctx) (i : Nat), (openLoop isFor s c i l).2.2.1.version = c.version ∧
      (openLoop isFor s c i l).2.2.1.checkHostname = c.checkHostname ∧
      (s.reqs = none → (openLoop isFor s c i l).2.2.1 = c) := by
  induction l with
  | nil => intro c i; simp [openLoop]
  | cons a as ih =>
    intro c i
    unfold openLoop
    cases a <;> simp only <;> try (simp; done)
    all_goals
      split
      · rename_i hw
        obtain ⟨w1, w2, w3, -⟩ := wrapSocket_ctx hw
        exact ⟨w1, w2, w3⟩
      · rename_i c' hw
        obtain ⟨w1, w2, w3, -⟩ := wrapSocket_ctx hw
        have hi := ih c' (i + 1)
        have hi' : (openLoop isFor s c' (i + 1) as).2.2.1.version = c.version ∧
            (openLoop isFor s c' (i + 1) as).2.2.1.checkHostname = c.checkHostname ∧
            (s.reqs = none → (openLoop isFor s c' (i + 1) as).2.2.1 = c) :=
          ⟨by rw [hi.1, w1], by rw [hi.2.1, w2], fun hr => by rw [hi.2.2 hr, w3 hr]⟩
        first
          | exact hi'
          | exact ⟨w1, w2, w3⟩
          | (split
             · exact ⟨w1, w2, w3⟩
             · exact hi')

theorem open_same (isFor : Cert → String → Bool) (res : Resolved) (s : St) : Same s (open_ isFor res s).2.1 := by
  have hb : Same s (baseOpen isFor res s).2.1 := by
    unfold baseOpen
    split
    · exact .rfl' s
    · split
      · exact .rfl' s
      · exact .rfl' s
      · rename_i l
        obtain ⟨h1, h2, h3⟩ := openLoop_ctx isFor s l s.ctx 0
        exact ⟨rfl, rfl, rfl, h2, h1, h3⟩
  unfold open_
  generalize baseOpen isFor res s = x at hb
  obtain ⟨r, s', cs⟩ := x
  cases r with
  | error e => exact hb
  | ok u =>
    dsimp only
    split
    · split
      · exact ⟨hb.reqs, hb.hostname, hb.callback, hb.check, hb.version, hb.custom⟩
      · split <;> exact ⟨hb.reqs, hb.hostname, hb.callback, hb.check, hb.version, hb.custom⟩
    · exact hb

theorem close_same (u : Except Exc Unit) (s : St) : Same s (close u s).2.1 := by
  unfold close
  split
  · exact .rfl' s
  · split <;> exact ⟨rfl, rfl, rfl, rfl, rfl, fun _ => rfl⟩

theorem run_same (isFor : Cert → String → Bool) (ops : List Op) : ∀ s, Same s (run isFor ops s).2 := by
  induction ops with
  | nil => intro s; exact .rfl' s
  | cons op ops ih =>
    intro s
    unfold run call
    cases op with
    | open_ res => exact (open_same isFor res s).trans (ih _)
    | close u => exact (close_same u s).trans (ih _)

/-- After a successful `open` the mode of the context is the one asked for. -/
theorem open_verify (isFor : Cert → String → Bool) (res : Resolved) (s : St) (h : (open_ isFor res s).1 = .ok ()) (q : Reqs)
    (hq : s.reqs = some q) :
    (open_ isFor res s).2.1.ctx.verify = q ∧ ¬ (q = .none ∧ s.ctx.checkHostname = true) := by
  unfold open_ baseOpen at h ⊢
  cases hh : s.handle with
  | some x => simp [hh] at h
  | none =>
    cases res with
    | gaierror => simp [hh] at h
    | raises e => simp [hh] at h
    | addrs l =>
      simp only [hh] at h ⊢
      cases hl : (openLoop isFor s s.ctx 0 l).1 with
      | error e => simp [hl] at h
      | ok u =>
        obtain ⟨j, p, h2, -, h4, h5⟩ := openLoop_ok isFor s l s.ctx 0 hl
        obtain ⟨hr, hr'⟩ := h5.reqs q hq
        rw [h5.check] at hr'
        simp only
        refine ⟨?_, hr'⟩
        split
        · split
          · exact hr
          · split <;> exact hr
        · exact hr

/-- C50, C61: whatever was done with a `TSSLSocket` before, if `open` returns, then: if the
configuration asks for verification, the peer has a certificate of a trusted authority, and the
validate callback accepted this certificate for the configured host name; and if also OpenSSL was
told to check host names, the certificate is for that host name. -/
theorem ssl_open_configured (isFor : Cert → String → Bool) (o : Opts) (host : Option String) (cb : Callback) {s₀ : St}
    (hm : make o host cb = .ok s₀) (ops : List Op) (res : Resolved)
    (h : (open_ isFor res (run isFor ops s₀).2).1 = .ok ()) (hv : verifies o = true) :
    ∃ p, connected (open_ isFor res (run isFor ops s₀).2).2.1 = some p ∧ Trusted p ∧ cb p.cert host = .ok () ∧
      (open_ isFor res (run isFor ops s₀).2).2.1.isValid = true ∧
      (checks o = true → IsFor isFor p host) := by
  have hs := run_same isFor ops s₀
  generalize (run isFor ops s₀).2 = s at h hs ⊢
  obtain ⟨l, p, -, h2, -, h3⟩ := ssl_open isFor res s h
  have ho := open_same isFor res s
  unfold make init at hm
  cases o with
  | context c =>
    simp only [Except.ok.injEq] at hm
    subst hm
    have hc : (open_ isFor res s).2.1.ctx = c := by rw [ho.custom hs.reqs, hs.custom rfl]
    rw [hc] at h3
    obtain ⟨t1, t2, t3, t4, t5⟩ := h3 (of_decide_eq_true hv)
    rw [hs.callback, hs.hostname] at t2
    rw [hs.check, hs.hostname] at t5
    exact ⟨p, h2, t1, t2, t3, t5⟩
  | options v q ca =>
    have hm' : s₀ = { ctx := Ctx.fresh v, reqs := some q, hostname := host, callback := cb } := by
      dsimp only at hm
      split at hm
      · simp at hm
      · rename_i c r he
        simp only [Except.ok.injEq] at hm
        subst hm
        split at he
        · split at he <;> simp at he
          obtain ⟨rfl, rfl⟩ := he; rfl
        · simp at he; obtain ⟨rfl, rfl⟩ := he; rfl
    subst hm'
    obtain ⟨hq, -⟩ := open_verify isFor res s h q hs.reqs
    rw [hq] at h3
    obtain ⟨t1, t2, t3, t4, t5⟩ := h3 (of_decide_eq_true hv)
    rw [hs.callback, hs.hostname] at t2
    rw [hs.check, hs.hostname] at t5
    refine ⟨p, h2, t1, t2, t3, fun hck => t5 ?_⟩
    simp only [checks, decide_eq_true_eq] at hck
    subst hck
    rfl

/-- Certificates and peers for the examples. -/
def certFor (name : String) : Cert := { subject := some [.rdn [["commonName", name]]], altNames := [name] }
def isForName (c : Cert) (h : String) : Bool := c.altNames.contains h
def peerOf (name : String) : Peer := { cert := some (certFor name), trusted := true }

/-- The results of a history and what is left, in a form that can be compared. -/
def shows (x : List (Except Exc Unit) × St) : List (Option Exc) × Option (Nat × Peer) × Bool :=
  (x.1.map fun | .ok _ => none | .error e => some e, x.2.handle, x.2.isValid)

/-- The history of a socket made with options; `none` if it cannot be made. -/
def story (o : Opts) (host : String) (cb : Callback) (ops : List Op) : Option (List (Option Exc) × Option (Nat × Peer) × Bool) :=
  match make o (some host) cb with
  | .error _ => none
  | .ok s => some (shows (run isForName ops s))

/-- The default options: the right peer is accepted at the second address, the first one has another
certificate. -/
example : story (.options .client .required .readable) "a" match312
    [.open_ (.addrs [.peer (peerOf "b"), .peer (peerOf "a")])] = some ([none], some (1, peerOf "a"), true) := by decide +kernel

/-! ## The legacy callback -/

theorem legacyLoop_ok (host : Option String) (fs : List Field) :
    legacyLoop host fs = .ok () →
    ∃ pre v more rest post, fs = pre ++ .rdn (("commonName" :: v :: more) :: rest) :: post ∧ host = some v := by
  induction fs with
  | nil => simp [legacyLoop]
  | cons f fs ih =>
    intro h
    have skip : legacyLoop host fs = .ok () → ∃ pre v more rest post,
        f :: fs = pre ++ .rdn (("commonName" :: v :: more) :: rest) :: post ∧ host = some v := by
      intro h
      obtain ⟨pre, v, more, rest, post, rfl, e⟩ := ih h
      exact ⟨f :: pre, v, more, rest, post, rfl, e⟩
    unfold legacyLoop at h
    split at h
    · simp at *
    · rename_i e; simp only [List.cons.injEq] at e; obtain ⟨rfl, rfl⟩ := e; exact skip h
    · simp at h
    · rename_i pair rest fs' e
      simp only [List.cons.injEq] at e
      obtain ⟨rfl, rfl⟩ := e
      split at h
      · rename_i k v more
        split at h
        · exact skip h
        · split at h
          · rename_i hk hv
            refine ⟨[], v, more, rest, fs, ?_, hv.symm⟩
            simp only [ne_eq, Decidable.not_not] at hk
            simp [hk]
          · simp at h
      · exact skip h

/-- C50: the legacy callback accepts a certificate only if it has a subject with the host name as a
common name. -/
theorem ssl_legacy (cert : Option Cert) (host : Option String) (h : legacy cert host = .ok ()) :
    ∃ c fields n, cert = some c ∧ c.subject = some fields ∧ host = some n ∧ n ∈ commonNames fields := by
  unfold legacy at h
  cases cert with
  | none => simp at h
  | some c =>
    simp only at h
    cases hs : c.subject with
    | none => simp [hs] at h
    | some fields =>
      rw [hs] at h
      obtain ⟨pre, v, more, rest, post, rfl, rfl⟩ := legacyLoop_ok host fields h
      refine ⟨c, _, v, rfl, hs, rfl, ?_⟩
      simp [commonNames]

/-- C50 for subjects as they usually are (the statement in full is about all subjects): the legacy
callback accepts exactly if the first common name is the host name. -/
theorem ssl_legacy_first_partial (c : Cert) (fields : List Field) (host : String) (hs : c.subject = some fields)
    (h1 : SingleValued fields) :
    legacy (some c) (some host) = .ok () ↔ (commonNames fields).head? = some host := by
  unfold legacy
  simp only [hs]
  clear hs
  induction fields with
  | nil => simp [legacyLoop, commonNames]
  | cons f fs ih =>
    obtain ⟨k, v, rfl⟩ := h1 f (by simp)
    have ih := ih fun f hf => h1 f (by simp [hf])
    simp only [legacyLoop, commonNames, List.flatMap_cons] at ih ⊢
    by_cases hk : k = "commonName"
    · subst hk
      simp only [ne_eq, not_true_eq_false, if_false, Option.some.injEq, List.filterMap_cons, if_true, List.filterMap_nil, List.cons_append,
        List.head?_cons]
      split <;> simp_all
    · simp only [ne_eq, hk, not_false_eq_true, if_true, List.filterMap_cons, if_false, List.filterMap_nil, List.nil_append]
      exact ih

example : SingleValued [.rdn [["countryName", "X"]], .rdn [["commonName", "a"]], .rdn [["commonName", "b"]]] ∧
    legacy (some ⟨some [.rdn [["countryName", "X"]], .rdn [["commonName", "a"]], .rdn [["commonName", "b"]]], []⟩) (some "a") = .ok () := by
  refine ⟨?_, by rfl⟩
  intro f hf
  simp only [List.mem_cons, List.not_mem_nil, or_false] at hf
  rcases hf with rfl | rfl | rfl <;> exact ⟨_, _, rfl⟩

/-- C50 fails for subjects with several pairs in one element: the first common name is not the host
name, but the certificate is accepted. -/
theorem ssl_legacy_multivalued : ∃ c fields, c.subject = some fields ∧ (commonNames fields).head? = some "evil" ∧
    legacy (some c) (some "good") = .ok () :=
  ⟨⟨some [.rdn [["organizationName", "x"], ["commonName", "evil"]], .rdn [["commonName", "good"]]], []⟩, _, rfl,
    by decide +kernel, by rfl⟩

/-! ## C61: what the options mean -/

/-- With the default `ssl_version`, a `TSSLSocket` with `cert_reqs=CERT_NONE` never opens. -/
theorem ssl_cert_none (isFor : Cert → String → Bool) (ca : Ca) (host : Option String) (cb : Callback) {s₀ : St}
    (hm : make (.options .client .none ca) host cb = .ok s₀) (ops : List Op) (res : Resolved) :
    (open_ isFor res (run isFor ops s₀).2).1 ≠ .ok () := by
  intro h
  have hs := run_same isFor ops s₀
  generalize (run isFor ops s₀).2 = s at h hs
  have e : s₀ = { ctx := Ctx.fresh .client, reqs := some .none, hostname := host, callback := cb } := by
    unfold make init at hm
    cases ca <;> simp [Ctx.fresh] at hm
    exact hm.symm
  subst e
  obtain ⟨-, h2⟩ := open_verify isFor res s h .none hs.reqs
  exact h2 ⟨rfl, by rw [hs.check]; rfl⟩

example : (make (.options .client .none .readable) (some "a") match312).isOk = true ∧
    story (.options .client .none .readable) "a" match312 [.open_ (.addrs [.peer (peerOf "a")])] =
      some ([some TTransportException.NOT_OPEN], none, false) := by decide +kernel

/-- With the default `ssl_version`, `ca_certs` is needed whatever `cert_reqs` is; with another version
it is not needed whatever `cert_reqs` is. -/
theorem ssl_ca_certs (q : Reqs) (host : Option String) (cb : Callback) :
    make (.options .client q .missing) host cb = .error .valueError ∧
    (make (.options .both q .missing) host cb).isOk = true := by
  cases q <;> exact ⟨rfl, rfl⟩

/-- C61 fails: with another `ssl_version` than the default (and without a custom context) nobody checks
the host name, if the validate callback is the default one of Python 3.12. -/
theorem ssl_hostname_unchecked :
    story (.options .both .required .readable) "good" match312 [.open_ (.addrs [.peer (peerOf "evil")])] =
      some ([none], some (0, peerOf "evil"), true) := by decide +kernel

/-- The same with `ssl.match_hostname` or another callback that looks at the name: the connection is
refused. -/
theorem ssl_hostname_callback (isFor : Cert → String → Bool) (v : Version) (q : Reqs) (ca : Ca) (host : String) (cb : Callback)
    (hcb : ∀ c, cb (some c) (some host) = .ok () → isFor c host = true) (hq : q ≠ .none) {s₀ : St}
    (hm : make (.options v q ca) (some host) cb = .ok s₀) (ops : List Op) (res : Resolved)
    (h : (open_ isFor res (run isFor ops s₀).2).1 = .ok ()) :
    ∃ p, connected (open_ isFor res (run isFor ops s₀).2).2.1 = some p ∧ IsFor isFor p (some host) := by
  obtain ⟨p, h1, h2, h3, -⟩ := ssl_open_configured isFor _ _ cb hm ops res h (decide_eq_true hq)
  refine ⟨p, h1, ?_⟩
  obtain ⟨hc, -⟩ := h2
  cases hp : p.cert with
  | none => simp [hp] at hc
  | some c => rw [hp] at h3; exact ⟨c, host, hp, rfl, hcb c h3⟩

/-! ## C62: after a failed `open` -/

/-- C62 fails: when the callback rejects the certificate, `open` raises, but the socket is open. -/
theorem ssl_rejected_open (isFor : Cert → String → Bool) (res : Resolved) (s : St) (hb : (baseOpen isFor res s).1 = .ok ())
    (hv : (baseOpen isFor res s).2.1.ctx.verify ≠ .none) (e : Exc)
    (hc : s.callback ((baseOpen isFor res s).2.1.handle.bind fun h => h.2.cert) s.hostname = .error e) :
    (∃ t, (open_ isFor res s).1 = .error (.ttransport t)) ∧ isOpen (open_ isFor res s).2.1 = true ∧
    ∀ res', (open_ isFor res' (open_ isFor res s).2.1).1 = .error TTransportException.ALREADY_OPEN := by
  have hcb : (baseOpen isFor res s).2.1.callback = s.callback ∧ (baseOpen isFor res s).2.1.hostname = s.hostname ∧
      (baseOpen isFor res s).2.1.handle ≠ none := by
    unfold baseOpen at hb ⊢
    cases hh : s.handle with
    | some x => simp [hh] at hb
    | none =>
      cases res with
      | gaierror => simp [hh] at hb
      | raises e => simp [hh] at hb
      | addrs l =>
        simp only [hh] at hb ⊢
        exact ⟨trivial, trivial, (openLoop_handle isFor s l s.ctx 0).mp hb⟩
  obtain ⟨h1, h2, h3⟩ := hcb
  have key : (∃ t, (open_ isFor res s).1 = .error (.ttransport t)) ∧ (open_ isFor res s).2.1.handle ≠ none := by
    unfold open_
    generalize baseOpen isFor res s = x at hb hv hc h1 h2 h3
    obtain ⟨r, s', cs⟩ := x
    simp only at hb hv hc h1 h2 h3
    subst hb
    simp only [ne_eq, hv, not_false_eq_true, if_true, h1, h2, hc]
    cases e <;> simp [isTransport, h3, TTransportException.UNKNOWN]
  refine ⟨key.1, ?_, ?_⟩
  · unfold isOpen
    cases h : (open_ isFor res s).2.1.handle with
    | none => exact absurd h key.2
    | some _ => rfl
  · intro res'
    have again : ∀ s' : St, s'.handle ≠ none → (open_ isFor res' s').1 = .error TTransportException.ALREADY_OPEN := by
      intro s' h
      unfold open_ baseOpen
      cases hs : s'.handle with
      | none => exact absurd hs h
      | some _ => rfl
    exact again _ key.2

/-- C62 fails, a case: OpenSSL admits the peer, the callback does not. -/
theorem ssl_rejected_open_case :
    story (.options .both .required .readable) "good" legacy [.open_ (.addrs [.peer (peerOf "evil")])] =
      some ([some TTransportException.UNKNOWN], some (0, peerOf "evil"), false) := by decide +kernel

/-- C62 fails: `is_valid` stays true when a later `open` finds a peer that the callback rejects. -/
theorem ssl_stale_valid :
    story (.options .both .required .readable) "good" legacy
      [.open_ (.addrs [.peer (peerOf "good")]), .close (.ok ()), .open_ (.addrs [.peer (peerOf "evil")])] =
      some ([none, none, some TTransportException.UNKNOWN], some (0, peerOf "evil"), true) := by decide +kernel

theorem leftOpen_loop (isFor : Cert → String → Bool) (s : St) (l : List Attempt) (hu : ∀ a ∈ l, usual a = true) :
    ∀ (c : Ctx) (i : Nat), Socket.leftOpen (openLoop isFor s c i l).2.2.2 = (openLoop isFor s c i l).2.1.toList.map (·.1) := by
  induction l with
  | nil => intro c i; rfl
  | cons a as ih =>
    have ih := ih fun a ha => hu a (by simp [ha])
    have ha := hu a (by simp)
    intro c i
    have again : ∀ c', Socket.leftOpen ([.create i, .connect i, .close i] ++ (openLoop isFor s c' (i + 1) as).2.2.2) =
        (openLoop isFor s c' (i + 1) as).2.1.toList.map (·.1) := by
      intro c'
      rw [← ih c' (i + 1)]
      simp [Socket.leftOpen]
    unfold openLoop
    cases a <;> simp only <;> try (simp [usual] at ha; done)
    · rfl
    all_goals
      split
      · simp [Socket.leftOpen]
      · first
          | exact again _
          | (split
             · simp [Socket.leftOpen]
             · exact again _)

/-- C62, what holds (in full: after any `open` that raises the socket is closed and no connection is
left): if the validate callback accepts everything, then after an `open` that raises on a socket that
was not open, the socket is not open and every connection that was made is closed. Excluded are
exceptions of `setsockopt`, and exceptions of `connect` that are not `socket.error`. -/
theorem ssl_failed_open_partial (isFor : Cert → String → Bool) (l : List Attempt) (s : St) (hc : ∀ c h, s.callback c h = .ok ())
    (hn : s.handle = none) (hu : ∀ a ∈ l, usual a = true) {e : Exc} (h : (open_ isFor (.addrs l) s).1 = .error e) :
    isOpen (open_ isFor (.addrs l) s).2.1 = false ∧ Socket.leftOpen (open_ isFor (.addrs l) s).2.2 = [] := by
  unfold open_ baseOpen at h ⊢
  simp only [hn] at h ⊢
  have hh := openLoop_handle isFor s l s.ctx 0
  have hl := leftOpen_loop isFor s l hu s.ctx 0
  cases hr : (openLoop isFor s s.ctx 0 l).1 with
  | ok u =>
    simp only [hr, hc] at h
    split at h <;> simp at h
  | error e' =>
    have hnone : (openLoop isFor s s.ctx 0 l).2.1 = none := by
      cases hx : (openLoop isFor s s.ctx 0 l).2.1 with
      | none => rfl
      | some x => have := hh.mpr (by simp [hx]); rw [hr] at this; simp at this
    simp only [isOpen, hnone, Option.isSome_none, true_and]
    rw [hl, hnone]
    rfl

example : usual (.peer (peerOf "b")) = true ∧ usual .refused = true := ⟨rfl, rfl⟩

/-- `close` on a socket that is not open raises `AttributeError`; on an open one it closes the
connection, unless `unwrap` raises something else than an `OSError`. -/
theorem ssl_close (u : Except Exc Unit) (s : St) :
    ((close u s).1 = .error .attributeError ∧ (close u s).2.1.handle = s.handle ↔
      s.handle = none ∨ u = .error .attributeError) ∧
    (∀ i p, s.handle = some (i, p) → (u = .ok () ∨ u = .error .osError) →
      close u s = (.ok (), { s with handle := none }, [.close i])) := by
  constructor
  · unfold close
    cases hh : s.handle with
    | none => simp [hh]
    | some x =>
      obtain ⟨i, p⟩ := x
      cases u with
      | ok _ => simp
      | error e => cases e <;> simp [hh]
  · intro i p hh hu
    unfold close
    rcases hu with rfl | rfl <;> simp [hh]

/-! ## `TSSLServerSocket` -/

/-- The server's context is as `makeServer` made it, up to the mode. -/
structure SameServer (s s' : Server) : Prop where
  reqs : s'.reqs = s.reqs
  callback : s'.callback = s.callback
  check : s'.ctx.checkHostname = s.ctx.checkHostname
  custom : s.reqs = none → s'.ctx = s.ctx

/-- The results of a sequence of calls of `accept`, and the server afterwards. -/
def accepts : List Arrival → Server → List (Accepted × Bool) × Server
  | [], s => ([], s)
  | a :: as, s =>
    let (r, s) := accept a s
    let (rs, s) := accepts as s
    (r :: rs, s)

theorem accept_same (a : Arrival) (s : Server) : SameServer s (accept a s).2 := by
  unfold accept
  cases hw : wrapSocket s.ctx s.reqs true none a.extra with
  | mk c r =>
    obtain ⟨w1, w2, w3, -⟩ := wrapSocket_ctx hw
    have : SameServer s { s with ctx := c } := ⟨rfl, rfl, w2, w3⟩
    cases r with
    | error e => cases e <;> exact this
    | ok u =>
      simp only
      split
      · exact this
      · split
        · split
          · exact this
          · split <;> exact this
        · exact this

theorem accepts_same (as : List Arrival) : ∀ s, SameServer s (accepts as s).2 := by
  induction as with
  | nil => intro s; exact ⟨rfl, rfl, rfl, fun _ => rfl⟩
  | cons a as ih =>
    intro s
    have h := accept_same a s
    have h' := ih (accept a s).2
    exact ⟨by simp only [accepts]; rw [h'.reqs, h.reqs], by simp only [accepts]; rw [h'.callback, h.callback],
      by simp only [accepts]; rw [h'.check, h.check], fun hr => by simp only [accepts]; rw [h'.custom (by rw [h.reqs]; exact hr), h.custom hr]⟩

/-- C50, server side: `accept` returns a connection only if, when the configuration asks for
verification, the callback accepted the certificate of the client (or its absence, with
`CERT_OPTIONAL`) for the address it comes from, and a certificate that is there comes from a trusted
authority; with `CERT_REQUIRED` it is there. If `accept` returns `None` the connection is closed. -/
theorem ssl_accept (o : Opts) (cb : Callback) {s₀ : Server} (hm : makeServer o cb = .ok s₀) (before : List Arrival) (a : Arrival) :
    ((accept a (accepts before s₀).2).1.1 = .socket → verifies o = true →
      (∃ host, a.addr = some host ∧ cb a.peer.cert (some host) = .ok ()) ∧
      (a.peer.cert ≠ none → a.peer.trusted = true) ∧
      (mode o = .required → a.peer.cert ≠ none)) ∧
    ((accept a (accepts before s₀).2).1.1 = .none → (accept a (accepts before s₀).2).1.2 = true) := by
  have hs := accepts_same before s₀
  generalize (accepts before s₀).2 = s at hs ⊢
  constructor
  · intro h hv
    have hmode : ∀ c r, wrapSocket s.ctx s.reqs true none a.extra = (c, r) → r = .ok () →
        c.verify = mode o := by
      intro c r hw hr
      obtain ⟨-, -, w3, w4⟩ := wrapSocket_ctx hw
      unfold makeServer init at hm
      cases o with
      | context c₀ =>
        simp only [Except.ok.injEq] at hm
        subst hm
        rw [w3 hs.reqs, hs.custom rfl]
        rfl
      | options v q ca =>
        have e : s₀.reqs = some q := by
          dsimp only at hm
          split at hm
          · simp at hm
          · rename_i c r he
            simp only [Except.ok.injEq] at hm
            subst hm
            split at he
            · split at he <;> simp at he
              obtain ⟨rfl, rfl⟩ := he; rfl
            · simp at he; obtain ⟨rfl, rfl⟩ := he; rfl
        exact ((w4 hr).1 q (by rw [hs.reqs, e])).1
    have hcb : s.callback = cb := by
      rw [hs.callback]
      unfold makeServer at hm
      split at hm <;> simp at hm
      subst hm; rfl
    have hne : mode o ≠ .none := by
      simpa [verifies] using hv
    generalize mode o = mode at hmode hne ⊢
    unfold accept at h
    cases hw : wrapSocket s.ctx s.reqs true none a.extra with
    | mk c r =>
      rw [hw] at h
      cases r with
      | error e => cases e <;> simp at h
      | ok u =>
        have hc := hmode c _ hw rfl
        simp only at h
        split at h
        · simp at h
        · rename_i hadm
          have hadm : c.admitsClient a.peer = true := by simpa using hadm
          rw [if_pos (by rw [hc]; exact hne)] at h
          cases ha : a.addr with
          | none => rw [ha] at h; simp at h
          | some host =>
            rw [ha] at h
            simp only [hcb] at h
            cases hk : cb a.peer.cert (some host) with
            | error e => rw [hk] at h; simp at h
            | ok u =>
              refine ⟨⟨host, rfl, hk⟩, ?_, ?_⟩
              · intro hp
                unfold Ctx.admitsClient at hadm
                rw [hc] at hadm
                cases mode with
                | none => exact absurd rfl hne
                | optional =>
                  simp only [Bool.or_eq_true, Option.isNone_iff_eq_none] at hadm
                  exact hadm.resolve_left hp
                | required => simp only [Bool.and_eq_true] at hadm; exact hadm.2
              · intro hq hp
                unfold Ctx.admitsClient at hadm
                rw [hc, hq] at hadm
                simp [hp] at hadm
  · intro h
    unfold accept at h ⊢
    cases hw : wrapSocket s.ctx s.reqs true none a.extra with
    | mk c r =>
      rw [hw] at h
      cases r with
      | error e => cases e <;> simp at h ⊢
      | ok u =>
        simp only at h ⊢
        split
        · rfl
        · rename_i hadm
          rw [if_neg hadm] at h
          split
          · rename_i hv
            rw [if_pos hv] at h
            cases ha : a.addr with
            | none => rw [ha] at h; simp at h
            | some host =>
              rw [ha] at h
              simp only at h ⊢
              split at h <;> simp_all
          · rename_i hv
            rw [if_neg hv] at h
            simp at h

/-- A server with a context of its own that demands certificates: a client from the named host is
served, one with a certificate for another host is not. -/
example : ((accepts [⟨peerOf "1.2.3.4", some "1.2.3.4", .ok ()⟩, ⟨peerOf "b", some "1.2.3.4", .ok ()⟩, ⟨⟨none, false⟩, some "1.2.3.4", .ok ()⟩]
    ⟨⟨.server, .required, false⟩, none, legacy⟩).1) = [(.socket, false), (.none, true), (.none, true)] := by decide +kernel

/-- C61 fails: a `TSSLServerSocket` without a custom context and with the default `ssl_version` accepts
nobody: it cannot be made without `ca_certs`, and with it every `accept` raises `ValueError` and leaves
the connection unclosed. -/
theorem ssl_server_default (q : Reqs) (ca : Ca) (cb : Callback) :
    makeServer (.options .client q .missing) cb = .error .valueError ∧
    ∀ s₀, makeServer (.options .client q ca) cb = .ok s₀ → ∀ (before : List Arrival) (a : Arrival),
      (a.extra = .ok () → (accept a (accepts before s₀).2).1 = (.raised .valueError, false)) ∧
      (accept a (accepts before s₀).2).1.1 ≠ .socket := by
  refine ⟨by cases q <;> rfl, ?_⟩
  intro s₀ hm before a
  have hs := accepts_same before s₀
  generalize (accepts before s₀).2 = s at hs ⊢
  have e : s₀ = { ctx := Ctx.fresh .client, reqs := some q, callback := cb } := by
    unfold makeServer init at hm
    cases ca <;> simp [Ctx.fresh] at hm
    exact hm.symm
  subst e
  have hck : s.ctx.checkHostname = true := hs.check
  have key : ∀ c r, wrapSocket s.ctx s.reqs true none a.extra = (c, r) → r ≠ .ok () ∧ (a.extra = .ok () → r = .error .valueError) := by
    intro c r hw
    obtain ⟨-, w2, -, w4⟩ := wrapSocket_ctx hw
    refine ⟨?_, ?_⟩
    · intro hr
      have := (w4 hr).2
      unfold wrap at this
      rw [w2, hck] at this
      simp at this
    · intro hx
      rw [hx, hs.reqs] at hw
      unfold wrapSocket setVerify wrap at hw
      simp only [hck] at hw
      split at hw
      · rename_i he
        split at he
        · simp at he
          subst he
          simp at hw
          exact hw.2.symm
        · simp at he
      · rename_i c' he
        split at he
        · simp at he
        · simp only [Except.ok.injEq] at he
          subst he
          simp at hw
          exact hw.2.symm
  unfold accept
  cases hw : wrapSocket s.ctx s.reqs true none a.extra with
  | mk c r =>
    obtain ⟨h1, h2⟩ := key c r hw
    cases r with
    | ok u => exact absurd rfl h1
    | error e =>
      refine ⟨fun hx => ?_, by cases e <;> simp⟩
      have := h2 hx
      simp only [Except.error.injEq] at this
      subst this
      rfl

example : (makeServer (.options .client .none .readable) match312).isOk = true := rfl

/-- C50's server side does not serve unix sockets: with verification, `accept` raises `IndexError` for
every client that OpenSSL admits, and leaves the connection unclosed. -/
theorem ssl_accept_unix (c : Ctx) (cb : Callback) (p : Peer) (hv : c.verify ≠ .none) (hck : c.checkHostname = false)
    (hver : c.version ≠ .client) (hp : c.admitsClient p = true) :
    (accept ⟨p, none, .ok ()⟩ ⟨c, none, cb⟩).1 = (.raised .indexError, false) := by
  unfold accept wrapSocket wrap
  simp [hck, hver, hp, hv]

example : (⟨.server, .required, false⟩ : Ctx).admitsClient (peerOf "a") = true := by decide +kernel

end Thrift.Ssl
