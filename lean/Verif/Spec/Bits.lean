import Verif.Basic
/- Specification vocabulary for memory faults. -/
namespace Verif.Spec

/-- flip bit `k` (Lsb0) of a byte string: XOR byte `k/8` with the mask `1 << (k%8)`. -/
def flipBit (l : Bytes) (k : Nat) : Bytes :=
  l.modify (k / 8) (fun b => b ^^^ UInt8.ofNat (2 ^ (k % 8)))

end Verif.Spec
