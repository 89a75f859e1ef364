import Verif.Model.KMeans
import Mathlib.Algebra.BigOperators.Group.Finset.Basic
import Mathlib.Data.Real.Basic
import Mathlib.Data.Real.Sqrt
import Mathlib.Data.Finset.Fold
import Mathlib.Data.Finset.Range
import Mathlib.Algebra.BigOperators.Group.List.Basic
/- What k-means clustering means. -/
namespace Xmm.KMeans

/-- coordinate `d` of center `k` -/
def center (c : List ℝ) (dim k d : Nat) : ℝ := c.getD (k * dim + d) 0

/-- squared Euclidean distance between a frame and center `k` -/
def sqDist (dim : Nat) (x c : List ℝ) (k : Nat) : ℝ := ∑ d ∈ Finset.range dim, (x.getD d 0 - center c dim k d) ^ 2

/-- `k` is the nearest center, the one of lowest index if there are several -/
def Nearest (clusters dim : Nat) (c x : List ℝ) (k : Nat) : Prop :=
  k < clusters ∧ (∀ j < clusters, sqDist dim x c k ≤ sqDist dim x c j) ∧ ∀ j < k, sqDist dim x c k < sqDist dim x c j

open Classical in
/-- the frames whose nearest center is `k` -/
noncomputable def members (clusters dim : Nat) (c : List ℝ) (frames : List (List ℝ)) (k : Nat) : List (List ℝ) :=
  frames.filter fun x => decide (Nearest clusters dim c x k)

/-- mean of coordinate `d` -/
noncomputable def meanOf (l : List (List ℝ)) (d : Nat) : ℝ := (l.map fun x => x.getD d 0).sum / (l.length : ℝ)

/-- the total squared distance of the frames to centers they are assigned to -/
def inertia (dim : Nat) (c : List ℝ) (frames : List (List ℝ)) (assigned : List ℝ → Nat) : ℝ :=
  (frames.map fun x => sqDist dim x c (assigned x)).sum

/-- Euclidean distance between center `k` of `a` and center `l` of `b` -/
noncomputable def gap (dim : Nat) (a b : List ℝ) (k l : Nat) : ℝ :=
  Real.sqrt (∑ d ∈ Finset.range dim, (center a dim k d - center b dim l d) ^ 2)

/-- the sum of the distances between different centers -/
noncomputable def spreadOf (clusters dim : Nat) (c : List ℝ) : ℝ :=
  ∑ k ∈ Finset.range clusters, ∑ l ∈ Finset.range clusters, if k = l then 0 else gap dim c c k l

/-- the largest distance covered by a center -/
noncomputable def maxMove (clusters dim : Nat) (prev c : List ℝ) : ℝ :=
  (Finset.range clusters).fold max 0 fun k => gap dim prev c k k

/-- the criterion that ends the training: there are at least two clusters, not all at one place, and the largest move of a
    center, divided by the number of clusters, is below the threshold relatively to the mean distance between centers -/
def Converged (threshold : ℝ) (clusters dim : Nat) (prev c : List ℝ) : Prop :=
  2 ≤ clusters ∧ spreadOf clusters dim c ≠ 0 ∧
    maxMove clusters dim prev c / (clusters : ℝ) /
      (spreadOf clusters dim c / ((clusters * (clusters - 1) : Nat) : ℝ)) < threshold

/-- mean of coordinate `d` of the frames `[k·n, (k+1)·n)` of a phrase; `0` if `n = 0` -/
noncomputable def segmentMean (phrase : List (List ℝ)) (n k d : Nat) : ℝ :=
  ∑ t ∈ Finset.range n, (phrase.getD (k * n + t) []).getD d 0 / (n : ℝ)

/-- `c` is the result of k-means on the frames, from the centers `init`: at most `maxIter` times every center moves to the mean of the frames nearest to it (to the origin if
    there are none), and this stops the first time that the criterion holds -/
def IsClustering (threshold : ℝ) (clusters maxIter dim : Nat) (frames : List (List ℝ)) (init : Nat → Nat → ℝ) (c : List ℝ) : Prop :=
  ∃ (n : Nat) (cs : Nat → List ℝ), cs n = c ∧ n ≤ maxIter ∧ (∀ k < clusters, ∀ d < dim, center (cs 0) dim k d = init k d) ∧
    (∀ i < n, ∀ k < clusters, ∀ d < dim, center (cs (i + 1)) dim k d =
      if members clusters dim (cs i) frames k = [] then 0 else meanOf (members clusters dim (cs i) frames k) d) ∧
    (∀ i, i + 1 < n → ¬ Converged threshold clusters dim (cs i) (cs (i + 1))) ∧
    (n < maxIter → 0 < n ∧ Converged threshold clusters dim (cs (n - 1)) (cs n))

end Xmm.KMeans
