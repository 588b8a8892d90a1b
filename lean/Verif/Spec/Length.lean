import Verif.Spec.PointSet
import Mathlib.Data.Real.Sqrt

/-!
# Specification vocabulary: lengths of segments
-/

namespace Clipping

/-- A way to measure lengths of segments, which depends on the difference of the ends only and is proportional in every direction. -/
structure Length where
  of : ℚ → ℚ → ℝ
  nonneg : ∀ x y, 0 ≤ of x y
  scale : ∀ t x y : ℚ, of (t * x) (t * y) = |(t : ℝ)| * of x y

namespace Length

/-- length of a segment -/
def segment (N : Length) (s : Segment) : ℝ := N.of (s.stop.x - s.start.x) (s.stop.y - s.start.y)

/-- length of several segments -/
def total (N : Length) (l : List Segment) : ℝ := (l.map N.segment).sum

/-- the usual length -/
noncomputable def euclidean : Length where
  of x y := √((x : ℝ) ^ 2 + (y : ℝ) ^ 2)
  nonneg x y := Real.sqrt_nonneg _
  scale t x y := by
    push_cast
    rw [show ((t : ℝ) * x) ^ 2 + ((t : ℝ) * y) ^ 2 = (t : ℝ) ^ 2 * ((x : ℝ) ^ 2 + (y : ℝ) ^ 2) by ring, Real.sqrt_mul (sq_nonneg _),
      Real.sqrt_sq_eq_abs]

/-- the sum of the differences of the coordinates -/
def taxicab : Length where
  of x y := |(x : ℝ)| + |(y : ℝ)|
  nonneg x y := by positivity
  scale t x y := by
    push_cast
    rw [abs_mul, abs_mul]
    ring

/-- the difference of the abscissas: vertical segments have none -/
def horizontal : Length where
  of x _ := |(x : ℝ)|
  nonneg x y := by positivity
  scale t x y := by
    push_cast
    rw [abs_mul]

end Length

end Clipping
