import Verif.Model.GmmTrain
/- Training of k-means on a training set in memory, src/models/kmeans/xmmKMeans.cpp:65-108. -/
namespace Xmm
open TS
namespace KMeans
variable {K : Type} [Field K] [LinearOrder K]

/-- `train(trainingSet)`, xmmKMeans.cpp:65-108: the frames of all phrases of the set, whatever their labels (149-151), its dimension (68) and, in the Random mode, its
    standard deviation (71-72).  An empty set changes nothing (66).  Simplification: the frames are read once, at the beginning; the training does not change them. -/
def trainSet (sqrt : K → K) (rnd : Nat → Nat → K) (w : World K String) (t : TSet String) : Prog (KMeans K) Unit := do
  if t.phrases.isEmpty then pure ()
  else do
    let m ← Prog.get
    let frames ← GmmModel.reading w.store (TSStats.allFrames (t.phrases.map Prod.snd))
    let sd ← if m.biased then pure [] else GmmModel.reading w.store (TSStats.standardDeviation sqrt t.dims.dim (t.phrases.map Prod.snd))
    train sqrt rnd sd ⟨t.dims.dim, frames⟩

end KMeans
end Xmm
