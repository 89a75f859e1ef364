import Verif.Model.Cpp
import Verif.Model.Attribute
import Verif.Spec.Attribute
import Verif.Props.Attribute
import Verif.Model.CircularBuffer
import Verif.Props.CircularBuffer
import Verif.Model.StdMap
import Verif.Lemmas.StdMap
import Verif.Model.Events
import Verif.Spec.Events
import Verif.Props.Events
import Verif.Model.Flat
import Verif.Lemmas.Flat
import Verif.Model.Matrix
import Verif.Spec.Matrix
import Verif.Lemmas.Matrix
import Verif.Props.Matrix
import Verif.Model.Json
import Verif.Props.Json
import Verif.Model.Phrase
import Verif.Spec.Phrase
import Verif.Lemmas.Phrase
import Verif.Props.Phrase
import Verif.Model.PhraseHeap
import Verif.Props.PhraseCopy
import Verif.Model.PhraseStats
import Verif.Props.PhraseStats
import Verif.Lemmas.Hoare
import Verif.Model.TrainingSet
import Verif.Spec.TrainingSet
import Verif.Lemmas.TrainingSet
import Verif.Lemmas.TrainingSetWorld
import Verif.Props.TrainingSet
import Verif.Lemmas.TrainingSetFrame
import Verif.Spec.TrainingSetCopy
import Verif.Props.TrainingSetCopy
import Verif.Props.TrainingSetDims
import Verif.Model.TrainingSetStats
import Verif.Spec.TrainingSetStats
import Verif.Props.TrainingSetStats
import Verif.Model.Gaussian
import Verif.Model.Float
import Verif.Spec.Gaussian
import Verif.Spec.GaussianDensity
import Verif.Lemmas.Gaussian
import Verif.Props.Gaussian
import Verif.Props.GaussianUpdate
import Verif.Props.GaussianModes
import Verif.Props.GaussianRegression
import Verif.Props.GaussianDensity
import Verif.Props.GaussianRegularize
import Verif.Props.GaussianAttributes
import Verif.Props.TrainingSetAdd
import Verif.Lemmas.Loop
import Verif.Model.KMeans
import Verif.Spec.KMeans
import Verif.Props.KMeans
import Verif.Props.KMeansTrain
import Verif.Props.KMeansInertia
import Verif.Model.Gmm
import Verif.Spec.Gmm
import Verif.Lemmas.Gmm
import Verif.Props.GmmEm
import Verif.Props.GmmLaws
import Verif.Props.GmmNormalize
import Verif.Props.MatrixRegular
import Verif.Props.GaussianRegular
import Verif.Model.Likelihoods
import Verif.Model.GmmFilter
import Verif.Spec.Recognition
import Verif.Lemmas.Smoothing
import Verif.Props.GmmFilter
import Verif.Props.GmmRecognition
import Verif.Props.GmmTrained
import Verif.Props.Recognition
import Verif.Props.GmmModel
import Verif.Model.Hmm
import Verif.Spec.Hmm
import Verif.Lemmas.Fill
import Verif.Lemmas.Paths
import Verif.Props.HmmForward
import Verif.Props.HmmWindow
import Verif.Props.HmmRegression
import Verif.Props.HmmFilter
import Verif.Props.HmmStream
import Verif.Props.HmmRecognition
import Verif.Props.HmmResults
import Verif.Props.HmmParams
import Verif.Model.BaumWelch
import Verif.Spec.BaumWelch
import Verif.Lemmas.Posterior
import Verif.Props.BaumWelchForward
import Verif.Props.BaumWelchEStep
import Verif.Props.WeightedFit
import Verif.Props.BaumWelchMStep
import Verif.Props.BaumWelchUpdate
import Verif.Props.BaumWelchTraining
import Verif.Model.HierHmm
import Verif.Spec.HierHmm
import Verif.Spec.FlatHmm
import Verif.Props.HierClass
import Verif.Props.HierForward
import Verif.Props.HierDistribution
import Verif.Props.HierReport
import Verif.Props.HierFilter
import Verif.Props.HierStream
import Verif.Props.HierRecognition
import Verif.Props.HierModel
import Verif.Props.HierProperties
import Verif.Props.HierResults
import Verif.Props.HierFlat
import Verif.Props.HierFlatWindow
import Verif.Lemmas.Reads
import Verif.Spec.JsonFile
import Verif.Spec.ClassFile
import Verif.Props.JsonLoading
import Verif.Props.ClassLoading
import Verif.Props.HierClasses
import Verif.Props.PoolModes
import Verif.Props.ClassSet
import Verif.Model.SharedParams
import Verif.Model.ClassParams
import Verif.Spec.SharedParams
import Verif.Spec.ClassParams
import Verif.Props.SharedParams
import Verif.Props.SharedHistory
import Verif.Props.SharedJson
import Verif.Props.ClassParams
import Verif.Model.Configuration
import Verif.Spec.Configuration
import Verif.Props.Configuration
import Verif.Props.ConfigHistory
import Verif.Props.ConfigJson
import Verif.Model.GaussianJson
import Verif.Spec.GaussianJson
import Verif.Props.GaussianJson
import Verif.Props.GaussianCopy
import Verif.Model.ModelJson
import Verif.Spec.ModelJson
import Verif.Lemmas.Sim
import Verif.Props.GmmJson
import Verif.Props.HmmJson
import Verif.Props.ModelJson
import Verif.Props.ModelJsonFail
import Verif.Props.ModelJsonExamples
import Verif.Props.JsonTraining
import Verif.Model.PhraseJson
import Verif.Spec.PhraseJson
import Verif.Props.PhraseJson
import Verif.Model.TrainingSetJson
import Verif.Props.TrainingSetJson
import Verif.Model.ModelCopy
import Verif.Spec.ModelCopy
import Verif.Props.ModelCopy
import Verif.Props.ModelCopyFilter
import Verif.Model.GmmInit
import Verif.Spec.GmmInit
import Verif.Lemmas.GmmInit
import Verif.Props.GmmInit
import Verif.Model.ClassSet
import Verif.Model.ClassTraining
import Verif.Model.Pool
import Verif.Model.Training
import Verif.Props.ClassTraining
import Verif.Props.Pool
import Verif.Props.Training
import Verif.Spec.CircularBuffer
import Verif.Spec.ClassSet
import Verif.Spec.Pool
import Verif.Spec.Training
import Verif.Spec.HmmInit
import Verif.Lemmas.HmmInit
import Verif.Props.HmmInit
import Verif.Spec.OneGaussian
import Verif.Props.OneGaussian
import Verif.Props.PoolMutex
import Verif.Props.HierNormalize
import Verif.Props.Ellipse
import Verif.Model.PoolCancel
import Verif.Spec.PoolCancel
import Verif.Props.PoolCancel
import Verif.Props.PoolCancelOne
import Verif.Model.KMeansCopy
import Verif.Props.KMeansCopy
import Verif.Lemmas.Limits
import Verif.Model.LoadedModel
import Verif.Props.LoadedFilter
import Verif.Spec.LoadedTrain
import Verif.Props.LoadedTrain
import Verif.Props.LoadedTrainExamples
import Verif.Spec.LoadedTrainHmm
import Verif.Props.LoadedTrainHmm
import Verif.Props.LoadedTrainHmmExamples
import Verif.Props.Uninitialised
import Verif.Props.UninitialisedSequential
import Verif.Props.LoadedTrainSequential
import Verif.Props.ShortTraining
import Verif.Props.ShortClass
import Verif.Props.AxesSequential
import Verif.Props.MoreStates
import Verif.Props.MoreStatesLoaded
import Verif.Props.LoadedTrainAll
import Verif.Props.LoadedFilterExamples
import Verif.Props.PoolCancelOrder
import Verif.Spec.ModelLoad
import Verif.Model.ModelLoad
import Verif.Props.ModelLoad
import Verif.Props.ModelLoadExamples
import Verif.Spec.TrainingSetFile
import Verif.Props.TrainingSetLoading
import Verif.Props.TrainingSetLoadingExamples
import Verif.Model.HmmLoad
import Verif.Props.HmmLoading
import Verif.Props.HmmLoadingExamples
import Verif.Spec.SharedFile
import Verif.Props.SharedLoading
import Verif.Spec.Ellipse
import Verif.Model.Ellipse
import Verif.Spec.ModelFile
import Verif.Props.ModelLoading
import Verif.Props.ModelLoadingExamples
import Verif.Spec.TrainCall
import Verif.Model.TrainCall
import Verif.Props.TrainCall
import Verif.Model.JsonError
import Verif.Spec.JsonError
import Verif.Props.JsonError
import Verif.Lemmas.LogDet
import Verif.Lemmas.FitGain
import Verif.Spec.EmMonotone
import Verif.Props.EmMonotone
import Verif.Lemmas.PathGain
import Verif.Spec.HmmMonotone
import Verif.Props.HmmMonotone
import Verif.Spec.BrokenSample
import Verif.Props.WindowMemory
import Verif.Props.BrokenSample
import Verif.Spec.Axes
import Verif.Props.Axes
import Verif.Props.AxesOrigin
import Verif.Props.AxesBimodal
import Verif.Spec.AxesHmm
import Verif.Props.AxesTrain
import Verif.Props.AxesHmm
import Verif.Props.AxesHmmTrain
import Verif.Spec.AxesModel
import Verif.Props.AxesModel
import Verif.Props.AxesPredict
import Verif.Props.AxesHmmOut
import Verif.Props.AxesHier
import Verif.Spec.Rewritten
import Verif.Props.Rewritten
import Verif.Lemmas.Calm
import Verif.Spec.PhraseOrder
import Verif.Props.PhraseOrder
import Verif.Props.PhraseOrderHmm
import Verif.Props.PhraseOrderExamples
import Verif.Model.PhraseShared
import Verif.Spec.PhraseShared
import Verif.Props.PhraseShared
import Verif.Model.Takes
import Verif.Spec.Takes
import Verif.Lemmas.Takes
import Verif.Props.Takes
import Verif.Model.GmmTrain
import Verif.Spec.GmmTrain
import Verif.Lemmas.GmmTrain
import Verif.Props.GmmTrain
import Verif.Model.HmmTrain
import Verif.Spec.HmmTrain
import Verif.Lemmas.HmmTrain
import Verif.Props.HmmTrain
import Verif.Spec.FlatTrain
import Verif.Props.FlatTrain
import Verif.Model.SequentialTrain
import Verif.Spec.SequentialTrain
import Verif.Props.SequentialTrain
import Verif.Props.SequentialOwnTakes
import Verif.Props.SequentialFlat
import Verif.Props.SequentialRefusals
import Verif.Props.SequentialClasses
import Verif.Props.EmptySession
import Verif.Lemmas.Commutes
import Verif.Lemmas.GmmBlind
import Verif.Props.GmmRetrain
import Verif.Model.Retrain
import Verif.Spec.Retrain
import Verif.Props.Retrain
import Verif.Model.SequentialClass
import Verif.Spec.SequentialClass
import Verif.Props.SequentialClass
import Verif.Lemmas.HmmBlind
import Verif.Props.HmmClassRetrain
import Verif.Model.HmmRetrain
import Verif.Spec.HmmRetrain
import Verif.Props.HmmRetrain
import Verif.Spec.Repeated
import Verif.Lemmas.Copies
import Verif.Props.Repeated
import Verif.Props.RepeatedHmm
import Verif.Model.KMeansTrain
import Verif.Spec.KMeansTrain
import Verif.Props.KMeansSession
import Verif.Spec.Renaming
import Verif.Props.Renaming
import Verif.Props.RenamingHier
import Verif.Props.RenamingHmm
import Verif.Props.RenamingSequential
