import Verif.Model.Ssl
/-
What a user expects of certificate checks.
-/

namespace Thrift.Spec.Ssl
open Thrift.Ssl

/-- The common names in a subject, in order: the values of all pairs with that key. -/
def commonNames (fields : List Field) : List String :=
  fields.flatMap fun
    | .other => []
    | .rdn pairs => pairs.filterMap fun
      | k :: v :: _ => if k = "commonName" then some v else none
      | _ => none

/-- A subject as it usually is: every element is a tuple of one pair of two strings. -/
def SingleValued (fields : List Field) : Prop := ∀ f ∈ fields, ∃ k v, f = .rdn [[k, v]]

/-- The peer at the other end of an open `TSSLSocket`. -/
def connected (s : St) : Option Peer := s.handle.map (·.2)

/-- The attempt reaches this peer. -/
def reaches (p : Peer) : Attempt → Bool
  | .peer q => q = p
  | _ => false

/-- The certificate of a peer comes from a trusted authority. -/
def Trusted (p : Peer) : Prop := p.cert.isSome ∧ p.trusted = true

/-- The certificate of a peer is for this host. -/
def IsFor (isFor : Cert → String → Bool) (p : Peer) (hostname : Option String) : Prop :=
  ∃ c h, p.cert = some c ∧ hostname = some h ∧ isFor c h = true

/-- What the configuration asks for: the mode of a custom context, or `cert_reqs`. -/
def mode : Opts → Reqs
  | .context c => c.verify
  | .options _ q _ => q

/-- The configuration asks for verification. -/
def verifies (o : Opts) : Bool := mode o ≠ .none

/-- The configuration lets OpenSSL check host names: a custom context says so; otherwise the default
`ssl_version` does. -/
def checks : Opts → Bool
  | .context c => c.checkHostname
  | .options v _ _ => v = .client

/-- The attempt does not end the loop in an unusual way after the socket was made. -/
def usual : Attempt → Bool
  | .badOption _ => false
  | .broken _ => false
  | _ => true

end Thrift.Spec.Ssl
