/-! Specification helper: counting. -/

namespace Spec

/-- How many of `0, ..., n-1` satisfy `p`. -/
def count (p : Nat → Bool) : Nat → Nat
  | 0 => 0
  | n + 1 => count p n + (if p n then 1 else 0)

end Spec
