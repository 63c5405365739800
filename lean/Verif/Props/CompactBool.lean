import Verif.Proofs.CompactLang
/-
C05: booleans in containers of the compact protocol.
-/

namespace Thrift.Compact

/-- Whatever byte a peer writes for an element, 1 is true and everything else is false, also 0, which other implementations write for false. -/
theorem compact_bool_element (s : St) (h : s.state = .CONTAINER_READ) (x : UInt8) (rest : Bytes) :
    exec readBool s (x :: rest) = some ((.ok (decide (x = 1)), s), rest) := by
  have hr : exec readByteRaw s (x :: rest) = some ((.ok (unpackS [x]), s), rest) := rfl
  have hv : (unpackS [x] == CompactType.TRUE) = decide (x = 1) := by
    have : ∀ n : Fin 256, (unpackS [UInt8.ofNat n.val] == CompactType.TRUE) = decide (UInt8.ofNat n.val = 1) := by decide +kernel
    have h := this ⟨x.toNat, x.toNat_lt⟩
    rwa [UInt8.ofNat_toNat] at h
  have : exec readBool s (x :: rest) = exec (do let b ← readByteRaw; pure (b == CompactType.TRUE)) s (x :: rest) := by
    show exec (if s.state = .BOOL_READ then pure s.boolValue
      else if s.state = .CONTAINER_READ then do
        let b ← readByteRaw
        pure (b == CompactType.TRUE)
      else P.raise .assertion) s (x :: rest) = _
    rw [if_neg (by rw [h]; decide), if_pos h]
  rw [this, exec_bind, hr, ← hv]
  rfl

example : exec readBool { state := .CONTAINER_READ } [0, 1] = some ((.ok false, { state := .CONTAINER_READ }), [1]) :=
  compact_bool_element _ rfl 0 [1]

end Thrift.Compact
