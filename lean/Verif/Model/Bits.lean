/-
Python's `&`, `|`, `^`, `<<`, `>>` on unbounded integers (infinite two's complement).
-/

namespace Thrift

/-- `a & ~b` on naturals. -/
def natAndNot (a b : Nat) : Nat := a ^^^ (a &&& b)

/-- Python `a & b`. `Int.negSucc n` is `~n`. -/
def pyAnd : Int → Int → Int
  | .ofNat a, .ofNat b => .ofNat (a &&& b)
  | .ofNat a, .negSucc b => .ofNat (natAndNot a b)
  | .negSucc a, .ofNat b => .ofNat (natAndNot b a)
  | .negSucc a, .negSucc b => .negSucc (a ||| b)

/-- Python `a | b`. -/
def pyOr : Int → Int → Int
  | .ofNat a, .ofNat b => .ofNat (a ||| b)
  | .ofNat a, .negSucc b => .negSucc (natAndNot b a)
  | .negSucc a, .ofNat b => .negSucc (natAndNot a b)
  | .negSucc a, .negSucc b => .negSucc (a &&& b)

/-- Python `a ^ b`. -/
def pyXor : Int → Int → Int
  | .ofNat a, .ofNat b => .ofNat (a ^^^ b)
  | .ofNat a, .negSucc b => .negSucc (a ^^^ b)
  | .negSucc a, .ofNat b => .negSucc (a ^^^ b)
  | .negSucc a, .negSucc b => .ofNat (a ^^^ b)

/-- Python `a << k`. -/
def pyShl (a : Int) (k : Nat) : Int := a * 2 ^ k

/-- Python `a >> k` (floor). -/
def pyShr (a : Int) (k : Nat) : Int := a / 2 ^ k

end Thrift
