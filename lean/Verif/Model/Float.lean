import Verif.Model.Gaussian
import Mathlib.Analysis.SpecialFunctions.Sqrt
import Mathlib.Analysis.SpecialFunctions.Exp
import Mathlib.Analysis.SpecialFunctions.Trigonometric.Basic
/-
Values of the type `double` as the likelihood code can distinguish them: NaN, the infinities and finite numbers.
Signed zeros and rounding are not represented; `Arith.Ieee` leaves every arithmetic operation arbitrary (so rounding,
overflow and underflow are all allowed), `Fl.exact` is the arithmetic without rounding.
-/
namespace Xmm

/-- a `double` -/
inductive Fl where
  | nan
  | inf (neg : Bool)
  | fin (x : ℝ)

namespace Fl
open Classical

/-- `a < b`: false as soon as an operand is NaN -/
noncomputable def lt : Fl → Fl → Bool
  | fin a, fin b => decide (a < b)
  | fin _, inf s => !s
  | inf s, fin _ => s
  | inf s, inf t => s && !t
  | _, _ => false

/-- `a == b`: false as soon as an operand is NaN -/
noncomputable def eq : Fl → Fl → Bool
  | fin a, fin b => decide (a = b)
  | inf s, inf t => s == t
  | _, _ => false

/-- `std::isnan` -/
def isnan : Fl → Bool
  | nan => true
  | _ => false

/-- `std::isinf(fabs(p))` -/
def isinf : Fl → Bool
  | inf _ => true
  | _ => false

/-- addition without rounding -/
noncomputable def add : Fl → Fl → Fl
  | fin a, fin b => fin (a + b)
  | fin _, inf s => inf s
  | inf s, fin _ => inf s
  | inf s, inf t => if s = t then inf s else nan
  | _, _ => nan

/-- change of sign -/
noncomputable def neg : Fl → Fl
  | fin a => fin (-a)
  | inf s => inf (!s)
  | nan => nan

/-- subtraction without rounding -/
noncomputable def sub (a b : Fl) : Fl := add a (neg b)

/-- multiplication without rounding -/
noncomputable def mul : Fl → Fl → Fl
  | fin a, fin b => fin (a * b)
  | fin a, inf s => if a = 0 then nan else inf (xor s (decide (a < 0)))
  | inf s, fin a => if a = 0 then nan else inf (xor s (decide (a < 0)))
  | inf s, inf t => inf (xor s t)
  | _, _ => nan

/-- division without rounding; zero counts as positive -/
noncomputable def div : Fl → Fl → Fl
  | fin a, fin b => if b = 0 then (if a = 0 then nan else inf (decide (a < 0))) else fin (a / b)
  | fin _, inf _ => fin 0
  | inf s, fin b => inf (xor s (decide (b < 0)))
  | inf _, inf _ => nan
  | _, _ => nan

/-- exponential without rounding -/
noncomputable def exp : Fl → Fl
  | fin a => fin (Real.exp a)
  | inf false => inf false
  | inf true => fin 0
  | nan => nan

/-- square root without rounding -/
noncomputable def sqrt : Fl → Fl
  | fin a => if a < 0 then nan else fin (Real.sqrt a)
  | inf false => inf false
  | _ => nan

/-- power with a natural exponent -/
noncomputable def pow : Fl → Nat → Fl
  | fin a, n => fin (a ^ n)
  | inf s, n => if n = 0 then fin 1 else inf (s && n % 2 == 1)
  | nan, n => if n = 0 then fin 1 else nan

/-- floating-point arithmetic without rounding -/
noncomputable def exact : Gauss.Arith Fl :=
  { add := add, sub := sub, mul := mul, div := div, exp := exp, sqrt := sqrt, pow := pow, lit := fun q => fin q,
    pi := fin Real.pi, lt := lt, eq := eq, isnan := isnan, isinf := isinf }

end Fl

/-- An arithmetic whose comparisons and classification are those of IEEE 754; the operations are arbitrary. -/
structure Gauss.Arith.Ieee (A : Gauss.Arith Fl) : Prop where
  lt : A.lt = Fl.lt
  eq : A.eq = Fl.eq
  isnan : A.isnan = Fl.isnan
  isinf : A.isinf = Fl.isinf
  floor : A.lit (1 / 10 ^ 180) = Fl.fin (1 / 10 ^ 180)
  zero : A.lit 0 = Fl.fin 0

/-- a distribution of real numbers, seen as one of `double`s -/
noncomputable def Gauss.toFl (g : Gauss ℝ) : Gauss Fl :=
  { bimodal := g.bimodal, dim := g.dim, dimMin := g.dimMin, di := g.di, diMax := g.diMax, mode := g.mode,
    mean := g.mean.map .fin, cov := g.cov.map .fin, inv := g.inv.map .fin, det := .fin g.det, invIn := g.invIn.map .fin,
    detIn := .fin g.detIn, outCov := g.outCov.map .fin }

end Xmm
