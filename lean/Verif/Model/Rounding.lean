import Mathlib.Analysis.SpecialFunctions.Sqrt

/-!
# Rounded arithmetic

`double` arithmetic is modelled by reals with a rounding function applied after every operation.
`rnd = id` is exact arithmetic.  IEEE binary64 round-to-nearest with unbounded exponent range is an
instance (monotone, idempotent, odd; `sqrtSq` is the theorem that in radix 2 the rounded square root of
the rounded square is the identity).  Overflow and underflow are not covered.
-/

namespace VoroCrust

/-- A rounding mode. -/
structure Rounding where
  rnd : ℝ → ℝ
  mono : Monotone rnd
  idem : ∀ x, rnd (rnd x) = rnd x
  neg : ∀ x, rnd (-x) = -rnd x
  sqrtSq : ∀ x, 0 ≤ x → rnd x = x → rnd (Real.sqrt (rnd (x * x))) = x

/-- Exact real arithmetic. -/
noncomputable def Rounding.exact : Rounding where
  rnd := id
  mono := monotone_id
  idem _ := rfl
  neg _ := rfl
  sqrtSq x hx _ := Real.sqrt_mul_self hx

end VoroCrust
