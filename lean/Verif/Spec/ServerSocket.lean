import Verif.Model.ServerSocket
/-
Who is reached by clients that connect to a path or an address.
-/

namespace Thrift.Spec.ServerSocket
open Thrift.ServerSocket

/-- Nobody has begun. There may be files of any kind, also sockets that nobody has open any more. -/
structure Start (w : World) : Prop where
  idle : ∀ n, (w.servers n).handle = none ∧ (w.servers n).phase = .idle
  closed : ∀ i, w.os.socks i = .closed
  old : ∀ p i, w.os.fs p = some (.socket i) → i < w.os.next

/-- A client that connects to the path gets to server `n`. -/
def Reaches (w : World) (p : Path) (n : Nat) : Prop := ∃ i, w.os.connect p = .ok i ∧ (w.servers n).handle = some i

/-- Server `n` has ended its last call of `listen` normally and was not closed since. -/
def Listens (w : World) (n : Nat) : Prop := (w.servers n).phase = .returned

/-- Server `n` has found that connections are refused, and is about to remove the file. -/
def Removing (w : World) (n : Nat) : Prop := (w.servers n).phase = .refused

/-- The history leaves server `n` alone, and nobody but servers removes the file. -/
def Spares (as : List Act) (n : Nat) (p : Path) : Prop := Act.close n ∉ as ∧ Act.call n ∉ as ∧ Act.remove p ∉ as

/-- A client that connects to address `t` gets to the endpoint: it is the address, or the wildcard address of the family, or the wildcard address of IPv6 unless that is for IPv6 only. -/
def Accepts (e : Endpoint) (t : Addr) : Prop :=
  e.addr.port = t.port ∧ (e.addr.family = t.family ∧ (e.addr.host = t.host ∨ e.addr.host = none) ∨ e.addr.family = .inet6 ∧ e.addr.host = none ∧ e.v6only = false ∧ t.family = .inet)

instance (e : Endpoint) (t : Addr) : Decidable (Accepts e t) := by
  unfold Accepts
  infer_instance

end Thrift.Spec.ServerSocket
