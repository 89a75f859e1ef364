import Mathlib.Analysis.SpecialFunctions.Trigonometric.Basic
/- Ellipses and covariance matrices of two dimensions. -/
namespace Xmm

/-- The matrix `[[a, b], [b, c]]` has the eigenvalue `l₁` in the direction `(cos θ, sin θ)` and the eigenvalue `l₂` in the orthogonal one. -/
structure Axes (a b c l₁ l₂ θ : ℝ) : Prop where
  xx : a = l₁ * Real.cos θ ^ 2 + l₂ * Real.sin θ ^ 2
  xy : b = (l₁ - l₂) * (Real.cos θ * Real.sin θ)
  yy : c = l₁ * Real.sin θ ^ 2 + l₂ * Real.cos θ ^ 2

/-- `(u, v)` is a point where the quadratic form of the inverse of `[[a, b], [b, c]]` has the value `q` (multiplied by the determinant) -/
def OnContour (a b c q u v : ℝ) : Prop := c * u ^ 2 - 2 * b * (u * v) + a * v ^ 2 = q * (a * c - b ^ 2)

/-- the point number `t` of the ellipse centered at 0 with semi-axes `w` and `h`, turned by `θ` -/
noncomputable def ellipsePoint (w h θ t : ℝ) : ℝ × ℝ :=
  (w * Real.cos t * Real.cos θ - h * Real.sin t * Real.sin θ, w * Real.cos t * Real.sin θ + h * Real.sin t * Real.cos θ)

end Xmm
