import Verif.Model.Float
import Mathlib.Analysis.SpecialFunctions.Trigonometric.Arctan
/-
The ellipse of a Gaussian distribution on two of its dimensions.  Covariances and means are real numbers; what is computed from them may be a NaN (`Fl`, without
rounding).
-/
namespace Xmm

/-- `atan` without rounding -/
noncomputable def Fl.atan : Fl → Fl
  | .fin a => .fin (Real.arctan a)
  | .inf false => .fin (Real.pi / 2)
  | .inf true => .fin (-(Real.pi / 2))
  | .nan => .nan

/-- `std::tan` without rounding, for an argument that is not a multiple of a quarter turn that has no tangent (no `float` is) -/
noncomputable def Fl.tan : Fl → Fl
  | .fin a => .fin (Real.tan a)
  | _ => .nan

/-- `struct Ellipse`, xmmGaussianDistribution.hpp:47-72; the center is made of numbers -/
structure Ellipse where
  x : ℝ
  y : ℝ
  width : Fl
  height : Fl
  angle : Fl

namespace Gauss
open Fl

/-- the constant 5.991 -/
noncomputable def ellipseLevel : ℝ := 5991 / 1000

/-- The cells `a`, `b`, `c` of the covariance, xmmGaussianDistribution.cpp:515-526. -/
noncomputable def ellipseCells {σ : Type} (g : Gauss ℝ) (d1 d2 : Nat) : Prog σ (ℝ × ℝ × ℝ) :=
  match g.mode with
  | .full => do
    let a ← rd g.cov (d1 * g.dim + d1)
    let b ← rd g.cov (d1 * g.dim + d2)
    let c ← rd g.cov (d2 * g.dim + d2)
    pure (a, b, c)
  | .diagonal => do
    let a ← rd g.cov d1
    let c ← rd g.cov d2
    pure (a, 0, c)

/-- `eigenVal1` (sign `1`) and `eigenVal2` (sign `-1`), xmmGaussianDistribution.cpp:529-532; the argument of the square root is
    `(a - c)² + 4 b²`, so that they are numbers -/
noncomputable def eigenVal (sign a b c : ℝ) : ℝ := 1 / 2 * ((a + c) + sign * Real.sqrt ((a + c) * (a + c) - 4 * (a * c - b * b)))

/-- `angle`, xmmGaussianDistribution.cpp:535-538; `halfPi` is `M_PI_2` converted to `float` -/
noncomputable def ellipseAngle (halfPi a b c : ℝ) : Fl :=
  if (atan (div (fin b) (fin (eigenVal 1 a b c - c)))).isnan then fin halfPi else atan (div (fin b) (fin (eigenVal 1 a b c - c)))

/-- `toEllipse(dimension1, dimension2)`, xmmGaussianDistribution.cpp:505-541. -/
noncomputable def toEllipse (halfPi : ℝ) (d1 d2 : Nat) : Prog (Gauss ℝ) Ellipse := do
  let g ← Prog.get
  if g.dim ≤ d1 ∨ g.dim ≤ d2 then Prog.throw .outOfRange
  else do
    let x ← rd g.mean d1
    let y ← rd g.mean d2
    let (a, b, c) ← ellipseCells g d1 d2
    pure { x := x
           y := y
           width := sqrt (fin (ellipseLevel * eigenVal 1 a b c))
           height := sqrt (fin (ellipseLevel * eigenVal (-1) a b c))
           angle := ellipseAngle halfPi a b c }

/-- `a`, `b`, `c`, xmmGaussianDistribution.cpp:552-559 -/
noncomputable def ellipseCov (E : Ellipse) : Fl × Fl × Fl :=
  let e1 := div (mul E.width E.width) (fin ellipseLevel)
  let e2 := div (mul E.height E.height) (fin ellipseLevel)
  let t := tan E.angle
  let b := div (mul (sub e1 e2) t) (add (mul t t) (fin 1))
  (add e2 (div b t), b, sub e1 (div b t))

/-- The cells that are written, xmmGaussianDistribution.cpp:561-569. -/
noncomputable def writeCells (d1 d2 : Nat) (a b c : ℝ) : Prog (Gauss ℝ) Unit := do
  let g ← Prog.get
  match g.mode with
  | .full => do
    let _ ← rd g.cov (d1 * g.dim + d1)
    let _ ← rd g.cov (d1 * g.dim + d2)
    let _ ← rd g.cov (d2 * g.dim + d1)
    let _ ← rd g.cov (d2 * g.dim + d2)
    Prog.set { g with cov := (((g.cov.set (d1 * g.dim + d1) a).set (d1 * g.dim + d2) b).set (d2 * g.dim + d1) b).set (d2 * g.dim + d2) c }
  | .diagonal => do
    let _ ← rd g.cov d1
    let _ ← rd g.cov d2
    Prog.set { g with cov := (g.cov.set d1 a).set d2 c }

/-- `fromEllipse(gaussian_ellipse, dimension1, dimension2)`, xmmGaussianDistribution.cpp:543-571.  The result is false if one of the cells computed from the ellipse
    is not a number: then the covariance holds it, which is not in the model. -/
noncomputable def fromEllipse (E : Ellipse) (d1 d2 : Nat) : Prog (Gauss ℝ) Bool := do
  let g ← Prog.get
  if g.dim ≤ d1 ∨ g.dim ≤ d2 then Prog.throw .outOfRange
  else do
    let _ ← rd g.mean d1
    let _ ← rd g.mean d2
    Prog.set { g with mean := (g.mean.set d1 E.x).set d2 E.y }
    match ellipseCov E with
    | (fin a, fin b, fin c) => do
      writeCells d1 d2 a b c
      updateInverseCovariance
      pure true
    | _ => pure false

end Gauss
end Xmm
