import Verif.Model.KMeans
/-
Model of the copies and the JSON of a k-means model, src/models/kmeans/xmmKMeans.cpp:44-63 and 219-273.
-/
namespace Xmm

/-- A k-means model as an object: `shared` says whether its pointer `shared_parameters` is set (then `body.dim` is `shared_parameters->dimension`); a null pointer must not be
    used.  Simplification: the sharing of `shared_parameters` between objects is not modelled; no copy of a k-means model shares them. -/
structure KMeansObj (K : Type) where
  shared : Bool
  body : KMeans K

namespace KMeansObj
variable {K : Type} [Field K] [LinearOrder K] (sqrt : K → K)

/-- The constructor `KMeans(clusters)`, xmmKMeans.cpp:44-48, with the defaults of xmmKMeansParameters.cpp; the dimension is 1 (xmmModelSharedParameters.cpp:36-37), there are no
    centers and no results.  `likeliest`, which is not initialised, is 0 here. -/
def make (clusters maxIter : Nat) (threshold : K) : KMeansObj K := ⟨true, ⟨clusters, maxIter, threshold, false, 1, [], [], 0⟩⟩

/-- The copy constructor, xmmKMeans.cpp:50-53: `shared_parameters` is null, the results are empty. -/
def copy (src : KMeansObj K) : KMeansObj K := ⟨false, { src.body with dim := 0, distances := [], likeliest := 0 }⟩

/-- `operator=`, xmmKMeans.cpp:55-62: `shared_parameters` and the results stay those of the target. -/
def assign (src tgt : KMeansObj K) : KMeansObj K :=
  ⟨tgt.shared, { tgt.body with biased := src.body.biased, clusters := src.body.clusters, maxIter := src.body.maxIter, threshold := src.body.threshold,
                               centers := src.body.centers }⟩

/-- an operation that uses `shared_parameters` -/
def using_ {α : Type} (p : Prog (KMeans K) α) : Prog (KMeansObj K) α := fun s =>
  if s.shared then
    match p s.body with
    | .ret a b => .ret a { s with body := b }
    | .throw e b => .throw e { s with body := b }
    | .ub => .ub
  else .ub

/-- `train(trainingSet)`, xmmKMeans.cpp:65-108: nothing happens if the training set is empty. -/
def train (rnd : Nat → Nat → K) (sd : List K) (data : KData K) : Prog (KMeansObj K) Unit :=
  if data.phrases.isEmpty then pure () else using_ (KMeans.train sqrt rnd sd data)

/-- `reset()`, xmmKMeans.cpp:199-201 -/
def reset : Prog (KMeansObj K) Unit := Prog.modify fun s => { s with body := { s.body with distances := Gauss.resize s.body.clusters s.body.distances } }

/-- `filter(observation)`, xmmKMeans.cpp:203-217 -/
def filter (fmax : K) (obs : List K) : Prog (KMeansObj K) Unit := using_ (KMeans.filter sqrt fmax obs)

/-- `toJson()`, xmmKMeans.cpp:221-230: `null` -/
def toJson (_ : KMeansObj K) : Option Unit := none

/-- `fromJson(root)`, xmmKMeans.cpp:232-273: the body is commented out. -/
def fromJson (_ : Option Unit) : Prog (KMeansObj K) Unit := pure ()

end KMeansObj
end Xmm
