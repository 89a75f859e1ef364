import Verif.Model.Gaussian
/-
Model of src/models/kmeans/xmmKMeans.cpp.

The vectors are lists and every access is checked: an access outside a vector is undefined behaviour.  `float` is an
ordered field with a function `sqrt`; where a quotient by zero decides a test, the outcome of the test is that of IEEE
arithmetic (see `converged`).

Simplification: a training set is given by the frames of its phrases, in index order: `phrase->getValue(t, d)` and
`phrase->getPointer(t)[d]` read value `d` of frame `t`, which is the value recorded (C13, C14).
-/
namespace Xmm
open Phrase (loop)
open Gauss (rd resize)

/-- the training data: dimension and the frames of each phrase -/
structure KData (K : Type) where
  dim : Nat
  phrases : List (List (List K))

/-- all frames, phrase by phrase: the order of the loops of xmmKMeans.cpp:149-151 -/
def KData.frames {K : Type} (data : KData K) : List (List K) := data.phrases.flatten

/-- `KMeans` with its configuration, xmmKMeans.hpp:126-150 and xmmKMeansParameters.hpp; `biased` is
    `initialization_mode == Biased`. `dim` is `shared_parameters->dimension`. -/
structure KMeans (K : Type) where
  clusters : Nat
  maxIter : Nat
  threshold : K
  biased : Bool
  dim : Nat
  centers : List K
  distances : List K
  likeliest : Nat
  deriving DecidableEq, Repr

namespace KMeans
variable {K : Type} [Field K] [LinearOrder K] (sqrt : K → K)

/-- `euclidean_distance(&a[ia], &b[ib], dim)`, xmmKMeans.cpp:276-284. -/
def dist {σ : Type} (a : List K) (ia : Nat) (b : List K) (ib dim : Nat) : Prog σ K := do
  let s ← loop dim 0 (fun acc d => do
    let x ← rd a (ia + d)
    let y ← rd b (ib + d)
    pure (acc + (x - y) * (x - y)))
  pure (sqrt s)

/-- The cluster of one frame, xmmKMeans.cpp:152-183: the first center, then every other one that is strictly nearer. -/
def nearest {σ : Type} (prev frame : List K) (clusters dim : Nat) : Prog σ Nat := do
  let m0 ← dist sqrt frame 0 prev 0 dim
  let r ← loop (clusters - 1) (0, m0) (fun acc k => do
    let δ ← dist sqrt frame 0 prev ((k + 1) * dim) dim
    pure (if δ < acc.2 then (k + 1, δ) else acc))
  pure r.1

/-- Accumulation of one frame in its cluster, xmmKMeans.cpp:184-188. -/
def addFrame {σ : Type} (frame : List K) (dim k : Nat) (acc : List K × List Nat) : Prog σ (List K × List Nat) := do
  let n ← rd acc.2 k
  let c ← loop dim acc.1 (fun c d => do
    let v ← rd frame d
    let x ← rd c (k * dim + d)
    pure (c.set (k * dim + d) (x + v)))
  pure (c, acc.2.set k (n + 1))

/-- The loop over the frames, xmmKMeans.cpp:145-190. -/
def accumulate {σ : Type} (prev : List K) (clusters dim : Nat) (frames : List (List K)) : Prog σ (List K × List Nat) :=
  frames.foldlM (fun acc frame => do
    let k ← nearest sqrt prev frame clusters dim
    addFrame frame dim k acc) (List.replicate (clusters * dim) 0, List.replicate clusters 0)

/-- The division by the numbers of frames, xmmKMeans.cpp:191-196. -/
def average {σ : Type} (clusters dim : Nat) (sums : List K) (counts : List Nat) : Prog σ (List K) :=
  loop clusters sums (fun c k => do
    let n ← rd counts k
    if 0 < n then
      loop dim c (fun c d => do
        let x ← rd c (k * dim + d)
        pure (c.set (k * dim + d) (x / (n : K))))
    else pure c)

/-- `updateCenters(previous_centers, trainingSet)`, xmmKMeans.cpp:140-197: the new centers. -/
def updateCenters {σ : Type} (prev : List K) (clusters dim : Nat) (frames : List (List K)) : Prog σ (List K) := do
  let acc ← accumulate sqrt prev clusters dim frames
  average clusters dim acc.1 acc.2

/-- `initClustersWithFirstPhrase(phrase)`, xmmKMeans.cpp:110-127: each center is the mean of a segment of the phrase. -/
def initBiased {σ : Type} (clusters dim : Nat) (phrase : List (List K)) (centers : List K) : Prog σ (List K) :=
  loop clusters centers (fun c k => do
    let step := phrase.length / clusters
    let c ← loop dim c (fun c d => do
      let _ ← rd c (k * dim + d)
      pure (c.set (k * dim + d) 0))
    loop step c (fun c t => loop dim c (fun c d => do
      let f ← rd phrase (k * step + t)
      let v ← rd f d
      let x ← rd c (k * dim + d)
      pure (c.set (k * dim + d) (x + v / (step : K))))))

/-- `randomizeClusters(trainingSetVariance)`, xmmKMeans.cpp:129-138; `rnd k d` is the value of `random() / RAND_MAX` in that
    iteration. -/
def initRandom {σ : Type} (rnd : Nat → Nat → K) (clusters dim : Nat) (sd : List K) (centers : List K) : Prog σ (List K) :=
  loop clusters centers (fun c k => loop dim c (fun c d => do
    let s ← rd sd d
    let _ ← rd c (k * dim + d)
    pure (c.set (k * dim + d) (s * (2 * rnd k d - 1)))))

/-- The sum of the distances between the centers, xmmKMeans.cpp:90-97. -/
def spread {σ : Type} (clusters dim : Nat) (centers : List K) : Prog σ K :=
  loop clusters 0 (fun m k => loop clusters m (fun m l =>
    if k ≠ l then do
      let δ ← dist sqrt centers (k * dim) centers (l * dim) dim
      pure (m + δ)
    else pure m))

/-- The largest distance covered by a center, xmmKMeans.cpp:98-101. -/
def variation {σ : Type} (clusters dim : Nat) (prev centers : List K) : Prog σ K :=
  loop clusters 0 (fun v k => do
    let δ ← dist sqrt prev (k * dim) centers (k * dim) dim
    pure (if δ > v then δ else v))

/-- The test that ends the training, xmmKMeans.cpp:103-108.  With one cluster the mean distance is 0/0, and if all centers
    coincide the variation is divided by 0: the comparison of a NaN or an infinity with the threshold is false. -/
def converged {σ : Type} (threshold : K) (clusters dim : Nat) (prev centers : List K) : Prog σ Bool := do
  let m ← spread sqrt clusters dim centers
  let v ← variation sqrt clusters dim prev centers
  if clusters * (clusters - 1) = 0 ∨ m = 0 then pure false
  else pure (decide (v / (clusters : K) / (m / ((clusters * (clusters - 1) : Nat) : K)) < threshold))

/-- The training loop, xmmKMeans.cpp:79-108, with `n` iterations left. -/
def iterate {σ : Type} (threshold : K) (clusters dim : Nat) (frames : List (List K)) : Nat → List K → Prog σ (List K)
  | 0, c => pure c
  | n + 1, c => do
    let c' ← updateCenters sqrt c clusters dim frames
    let stop ← converged sqrt threshold clusters dim c c'
    if stop then pure c' else iterate threshold clusters dim frames n c'

/-- The choice of the initialisation, xmmKMeans.cpp:71-74. -/
def initCenters {σ : Type} (rnd : Nat → Nat → K) (sd : List K) (first : List (List K)) (m : KMeans K) : Prog σ (List K) :=
  if m.biased then initBiased m.clusters m.dim first m.centers else initRandom rnd m.clusters m.dim sd m.centers

/-- `train(trainingSet)`, xmmKMeans.cpp:65-108; `sd` is `trainingSet->standardDeviation()` (C24). -/
def train (rnd : Nat → Nat → K) (sd : List K) (data : KData K) : Prog (KMeans K) Unit := do
  match data.phrases with
  | [] => pure ()
  | first :: _ => do
    Prog.modify fun m => { m with dim := data.dim, centers := resize (m.clusters * data.dim) m.centers }
    let m ← Prog.get
    let c ← initCenters rnd sd first m
    let c ← iterate sqrt m.threshold m.clusters m.dim data.frames m.maxIter c
    Prog.set { m with centers := c }

/-- `reset()`, xmmKMeans.cpp:199-201. -/
def reset : Prog (KMeans K) Unit := Prog.modify fun m => { m with distances := resize m.clusters m.distances }

/-- `filter(observation)`, xmmKMeans.cpp:203-217; `fmax` is `std::numeric_limits<float>::max()`. -/
def filter (fmax : K) (obs : List K) : Prog (KMeans K) Unit := do
  let m ← Prog.get
  if obs.length ≠ m.dim then Prog.throw .runtimeError
  else do
    let r ← loop m.clusters (m.distances, 0, fmax) (fun acc k => do
      let δ ← dist sqrt obs 0 m.centers (k * m.dim) m.dim
      let _ ← rd acc.1 k
      pure (if δ < acc.2.2 then (acc.1.set k δ, k, δ) else (acc.1.set k δ, acc.2)))
    Prog.set { m with distances := r.1, likeliest := r.2.1 }

end KMeans
end Xmm
