# Formal model of xmm (Ircam-RnD/xmm) in Lean 4

Everything below `/verif/lean/Verif` is checked by Lean 4.33.0's kernel.
The C++ was read as text; it was not compiled or run.

## Layout

* `Verif/Model/*.lean` – the model, function by function. Each definition cites the file and lines of
  `/repo` it models and says where it simplifies.
* `Verif/Spec/*.lean` – small, independent specifications (what a user would write down without
  reading the code).
* `Verif/Lemmas/*.lean` – helper lemmas.
* `Verif/Props/*.lean` – the property theorems `Cnn_…` and, beside each, a concrete non-trivial case
  meeting its hypotheses. Violations of a property by the code are theorems named `Cnn_…_violated`
  with a concrete witness; what still holds is `Cnn_…_partial`.

## Modelling conventions

* **C++ effects.** A method is a function from object state to an outcome `Res σ α` with three cases:
  `ret` (value, new state), `throw` (exception class, state *at the moment of the throw* – C++ does not
  roll back), and `ub` (undefined behaviour: out-of-bounds access, null/uninitialised pointer,
  integer division by zero, call through a dangling listener …). A theorem that says "returns" thereby
  also says "does not throw and has no undefined behaviour".
* **Containers.** `std::vector`/arrays are lists (with checked access giving `ub`) in the stateful models,
  and `Fin n → K` in the numeric kernels, where the index arithmetic of the flat arrays is discharged
  when the definition is elaborated. `std::map` is a list of entries sorted by key. `shared_ptr` aliasing
  is modelled with an explicit heap and addresses.
* **Numbers.** `float`/`double` data are elements of an arbitrary linearly ordered field `K` (ℝ where
  `exp`/`log`/`sqrt` occur): rounding, overflow and the float/double narrowing are *not* modelled, except in
  the properties that are about them (C29), where the floating-point value is an explicit type with NaN and
  infinities. Consequently theorems on numeric kernels are statements about exact arithmetic.
  `unsigned int`/`int` are unbounded `Nat`/`Int` unless the property is about wrap-around.
* **Threads** are modelled as interleavings of atomic steps of a transition system; memory-model effects
  below that level are not modelled.

## Trusted base

Lean's kernel; the axioms `propext`, `Classical.choice`, `Quot.sound` (printed for every property theorem by
`#print axioms`; no other axiom is used, no `sorry`, no `native_decide`, no `bv_decide`); the correspondence
model/code established by reading, as cited in each definition.

## Modelled / not modelled

Modelled, function by function:

* `core/common`: `Attribute` (scalar and vector), `CircularBuffer`, `EventGenerator`, `Matrix`, the JSON helpers and the part of jsoncpp they use.
* `core/trainingset`: `Phrase` (own and shared memory, both modalities, statistics, copies on an explicit heap, JSON), `TrainingSet` (phrases shared through
  pointers, listeners, sub-sets, statistics, normalisation, copies, JSON).
* `core/distributions`: `GaussianDistribution` (attributes, inverse covariance, likelihoods on extended floats, regression, regularisation, ellipses, copies, JSON).
* `core/model`: `SharedParameters`, `Configuration`, `SingleClassProbabilisticModel::train` with its events and lock, the class set and the training of several classes
  in the modes Sequential, Parallel and Background (transition system `Pool`) and its cancellation (`Canceller`), `MultiClassResults`, copies of models, JSON.
* `models/kmeans`: initialisation, training loop, filtering. `models/gmm`: initialisation, EM, filtering, regression, JSON, copies. `models/hmm`:
  initialisation, forward and backward passes, Baum-Welch, window of states, progress, regression, hierarchical forward pass, transitions between classes, JSON.

Not modelled: JSON text parsing and printing (the jsoncpp reader and writer), the Python/SWIG wrappers, `rand()` (the initial values of k-means are arbitrary
parameters), the initialisers of `SingleClassHMM` that no code calls (xmmHmmSingleClass.cpp:139-248), IEEE rounding, memory allocation failure, wrap-around of
products of sizes.

## Plan per property

| id | modelled | proof |
|---|---|---|
| C01 C02 C03 | `Attr` state with value, limits, changed, listener; `set`, limit setters, copy, assignment | invariant by induction over op lists; trace of callbacks; C03 violated by the implicit copy assignment |
| C04 C05 C06 | storage list + write index + full flag | refinement: contents are a permutation (rotation) of the last L pushes; C06 violated on growth |
| C07 | map owner→callback | refinement to a function owner→option callback by induction over ops |
| C08 C09 C10 C11 | matrices as functions on `Fin r × Fin c`; Gauss-Jordan as a loop over pivots on the augmented matrix | loop invariant (left half reduced, row operations preserve `left = right * A`); determinant via Mathlib `det` of row operations; C10 violated by a swap witness |
| C12 | JSON value type with jsoncpp accessor semantics | round-trip by induction on lists |
| C13–C20 | phrase state with per-modality buffers, capacity and the three lengths; heap cells uninitialised/initialised | refinement to lists of recorded frames, by induction over op histories; violations: C17 (empty and shared sources), C18 (unimodal clearInput), C19 (bimodal) |
| C21–C24 | training set over a heap of phrases with listener registrations | invariant over op histories; C23 violated by copy construction |
| C25 C27 C33 C57 | toJson / Json constructors | round-trip theorems; violations: C27 (HMM `hierarchical`), C33 (Diagonal mode) |
| C26 | attribute group with callbacks | invariant over op histories; violated by bimodal true→false |
| C28 | defaults + map label→parameters | refinement to `label → params` |
| C29 | extended floats NaN/±inf/finite, raw result arbitrary | case analysis for every raw value |
| C30 C31 C32 | covariance as flat array; inverse via the modelled Gauss-Jordan | linear algebra; C30 violated by redundant set |
| C34 C35 | one iteration and the outer loop | argmin lemma over loops, fuel-free recursion on iterations |
| C36 C37 C38 | EM update over an arbitrary ordered field | algebra of finite sums, quadratic forms |
| C39 C40 | updateResults, filter | finite sums, argmax over loops, reuse of C04/C05 |
| C41–C47 | forward, backward, window, progress | induction over observation sequences; path-sum spec |
| C48–C51 | hierarchical forward and top-level parameters | induction over frames / op histories |
| C52 | the EM loop as a function of an oracle giving each step's outcome | induction on remaining iterations |
| C53 C54 | transition system: main thread, workers, joiner | inductive invariants over all schedules |
| C55 C56 | class map operations, copy with shared-parameter pointer | refinement / aliasing witness |
| C57 | JSON of classes and models, loading into default-constructed objects | round trip on the saved members; violated in Diagonal mode and for `hierarchical` |
| C58 C63 | `removePhrase`, `removePhrasesOfClass`, `addPhrase` | frame conditions on a heap of phrases |
| C59 C60 C61 | output covariance, likelihoods in exact arithmetic on extended floats | Schur complement; equality with the normal density; C60 violated by the sign of the determinant |
| C62 C68 | `regularize` and the inversion afterwards | algebra; positive definite ⇒ no pivot exchange |
| C64 C80 | attributes of a distribution with callbacks bound to objects | invariant over histories; C80 violated by assignment |
| C65 C66 C82 C84 | k-means step and initialisation, segments, EM with one component | descent argument; frame counts; closed form of the estimates |
| C67 C73 | one EM / Baum-Welch iteration | each parameter equals the weighted statistic; no exception, no undefined behaviour |
| C69 C72 | regression estimators | convex combination of the predictions |
| C70 C71 C85 | smoothing, `reset`, filtering with and without hierarchy | simulation between two states of the model; sliding-window specification |
| C74 C75 C76 | hierarchical forward pass | sums over paths of states and classes |
| C77 C78 | class set operations, non-hierarchical mode | refinement to the list of calls; violated in non-hierarchical mode |
| C79 C81 C83 | training of a class end to end | induction over iterations, from initialisation to the last event |
| C86 | `fromJson` on arbitrary JSON | inversion of the readers: a throw leaves the object, a return determines it |
| C87 | `toEllipse`, `fromEllipse` on real covariances with NaN outcomes | spectral decomposition of a 2×2 matrix |
| C88 | `cancelTraining()`, `cancelTraining(label)` as one more thread of the transition system of C53 | invariants over all schedules, a decreasing bound, witness schedules for the races |
| C89 | copy constructor, `operator=`, `toJson`, `fromJson` of `KMeans`, with the null pointer of a copy | the programs of training do not depend on the results of earlier observations; reduction to C34, C35; witnesses |
| C90 | the models of C57 (what is saved) and those of C51 and C71 (what filters) as views of one object (Model/LoadedModel.lean) | the loaded model is a copy of the original without the limits of the dimensions of its components; a simulation shows that recognition does not read them, the rest is C51 and C56 |
| C91 | `fromJson` of `Model` and of `HierarchicalHMM` as sequences of the JSON constructor, `operator=` and the destructor of the temporary, on the heap of C56, with the listeners of each model (Model/ModelLoad.lean) | case analysis of `fromJson` for an arbitrary result of the constructor; an invariant of all programs (no dangling addresses) gives the frame; recognition is C90 |
| C92 | `train`, `train(label)`, `cancelTraining` and `clear` of a model with its shared parameters (Model/TrainCall.lean on ClassSet and SharedParams); the training set is what they read of it: labels, dimensions, column names (Spec/TrainCall.lean) | symbolic execution from any state of the parameters that calls can reach: the invariants of C18 (`WInv`) and the lower limit of the input dimension tell which setter throws; violated for a bimodal model and a set without input or output: the negation is proved for every such call (Props/TrainCall.lean) |
| C93 | `JsonException` with the storage of its local string (Model/JsonError.lean); origins of an exception: thrown, thrown again, copied (Spec/JsonError.lean) | induction over the origin; violated: the pointer returned by `what()` dangles, proved undefined for every exception |
| C94 | two iterations of `emUpdate` in a row (Model/Gmm.lean), all iterations of a training (Model/GmmInit.lean); the log-likelihood, the share of the regularisation and the effect of the floor (Spec/EmMonotone.lean) | Jensen's inequality for the mixture; for each component, the fitted covariance minimises the quadratic bound up to the trace of the regularisation (`log det` below the trace, Lemmas/LogDet.lean, Lemmas/FitGain.lean); a concrete decrease |
| C95 | an iteration of the Baum-Welch algorithm (`Hmm.emUpdate`, Model/BaumWelch.lean); the log-likelihood and the three losses (Spec/HmmMonotone.lean) | Jensen's inequality over the paths of states (Lemmas/PathGain.lean), Gibbs' inequality for start probabilities, transitions and coefficients, the argument of C94 for each component; a concrete decrease |
| C96 | the likelihood functions over `Fl` (Model/Gaussian.lean, Model/Float.lean); models whose observations are words read as `Fl` (`Dens.reading`, Spec/BrokenSample.lean) | a loop that once meets a broken number ends broken; `exp` and the division leave 0 or a broken number, both raised to 1e-180; then C39, C97, the recursion of C41 and C74 with constant likelihoods |
| C97 | `GMM::filter` (Model/GmmFilter.lean) with its circular buffer | the smoothed log-likelihood is an average of the last logs (C40); the summary of the classes determines the results |
| C98 | `SingleClassGMM::train` (Model/GmmInit.lean), k-means (Model/KMeans.lean), `filter` (Model/GmmFilter.lean) | Spec/Axes.lean: signed permutation of the columns plus a shift; k-means, the initial covariances and one EM step commute with it, then induction over the steps; the density is invariant (determinant and quadratic form). With two modalities (Props/AxesBimodal.lean) the marginal density, the conditional mean and the conditional covariance are carried over (bilinear form with the inverse of the input block). Idle centers of k-means: violation. Left-right hidden Markov models (Spec/AxesHmm.lean, Props/AxesTrain.lean, AxesHmm.lean, AxesHmmTrain.lean): the posterior probabilities are the same, the fits of the states are carried over, every component keeps a positive mass; two trainings side by side |
| C99 | all JSON readers (Model/PhraseJson, TrainingSetJson, GaussianJson, SharedParams, ClassParams, Configuration, ModelJson, HmmLoad, ModelLoad) | Spec/Rewritten.lean: two JSON values that differ only in the writing of whole numbers and flags; each reader, as a program, is equal on both (structural induction on the lists of the file) |
| C100 | k-means, `SingleClassGMM::train`, `SingleClassHMM::train` (Model/KMeans, GmmInit, GmmEm, HmmInit, HmmEm) | Spec/PhraseOrder.lean: permutations of the phrases that keep the first one; every sum over phrases or frames is a permutation of the other (loops of reading programs commute), then induction over k-means updates, EM and Baum-Welch iterations; the working variables alpha and beta are shown not to be read again. First phrase: violation |
| C101 | `connect`, `connect_input`, `connect_output`, `disconnect` and the user's writes to their own arrays (Model/PhraseShared.lean on Model/Phrase.lean) | Spec/PhraseShared.lean: two windows on a table of arrays; refinement by induction over the history. Dimension change with a connected output array: undefined behaviour |
| C102 | a recording session on a training set and what training reads of it (Model/Takes.lean on Model/TrainingSet.lean, Model/Phrase.lean) | Spec/Takes.lean: a numbered collection of labelled lists of frames; forward simulation, by induction over the session (Lemmas/Takes.lean) |
| C103 | `Model::train`, `joinTraining` on a training set in memory (Model/GmmTrain.lean on Model/Takes.lean, Model/ClassTraining.lean, Model/GmmFilter.lean) | Spec/GmmTrain.lean: the class trained alone on the frames of its takes; composition of C102, C81, C39 (Props/GmmTrain.lean) |
| C104 | the same | two sessions compared, from C103 and C51 |
| C105 | `HierarchicalHMM::train` on a training set of the program (`Model/HmmTrain.lean`): the memory of the set, `addModelForClass`, a thread per class with the Baum-Welch training, `joinTraining`, the parameters of the hierarchy | the session refines a map of takes (C102); every new class is the same whatever the others are (invariant of the loop over the labels); C83 for each class; reset and the update of the hierarchy keep the parameters; recognition by C48; two sessions compared |
| C106 | `HierarchicalHMM::train` on a training set with the parameter `hierarchical` off, then `filter` (`Model/HmmTrain.lean`, `Model/HierHmm.lean`) | the steps of C105 up to the last reset; the model before it satisfies the hypotheses of C85, which gives the stream of each class alone; if a class is missing the number of classes differs from the size of the prior, the default exit probabilities are requested outside the hierarchy and the call throws: proved as a violation with a session that meets the hypotheses |
| C107 | `train` in the multithreading mode Sequential, for mixtures and for hidden Markov models (`Model/SequentialTrain.lean`) | the model when the training of the classes starts is the same as in the mode Parallel; induction over the classes gives the results of the threads one after the other; if all are done nothing is erased and the sizes of the top level agree, so that `reset()` is all that is missing; without it the vectors of the results are empty and the first write of `filter` is outside of them |
| C108 | `train(set, label)` for mixture models, on the memory of the training set (`Model/Retrain.lean`), in the modes Parallel and Sequential (`Model/SequentialClass.lean`) | a map of states that changes only what a former training left (`Gmm.withPast`) commutes with every step of the training (`Commutes`): the steps read nothing of it before they overwrite it, so that an existing class and a new one end in the same model; then induction over the list of labels, with what is settled for each label as invariant |
| C109 | `train(set, label)` for hierarchical HMMs, on the memory of the training set (`Model/HmmRetrain.lean`) | as C108: what a former training left commutes with the steps of `emAlgorithmInit` (`Hmm.withPast`, `Lemmas/HmmBlind.lean`); the iterations are compared by their results, since each is determined by the paths (`EStep.Exact.unique`); the exit probabilities are the one thing that is read before it is overwritten, so the proof needs a number of states that does not grow, and a witness shows what happens if it does |
| C110 | k-means, `SingleClassGMM` and the training loop; an iteration of `SingleClassHMM` | a list that is `k` copies of another in any order (`Copies`) gives `k` times the sums and counts; a step of expectation-maximisation is determined by its weighted averages (`Gmm.Updated.unique`); two training loops that see proportional log-likelihoods run in step (`Trainer.train_scaled`); for hidden Markov models the re-estimation formulas of C73 are compared, which shows the constant that is added on one side only |
| C111 | `TrainingSet` in memory, `KMeans::train`, `reset`, `filter` | the simulation of a session by its takes (C102) gives the frames and the standard deviations that training reads; then C35, and induction over the observations with C34 |
| C112 | `TrainingSet` in memory, `GMM::train`, `reset`, `filter`, `updateResults`; `HierarchicalHMM::train` | takes renamed by an injective map: every operation of the training set commutes with it (induction on the session); the classes then correspond by C103/C105, the reports are a permutation, likeliest and mixture from C39 and C69; for the hierarchy, a permutation of the numbers of the classes under which the forward algorithm is invariant (induction on the stream), and after training the hierarchy is the default one (invariant of all steps of `train`); at a tie the negation is proved |
| C113 | `TrainingSet` in memory, `GMM::train`, `reset`, `filter`, `updateResults`, `SingleClassGMM::regression` | each class is the one trained alone on its takes (C103), which C98 relates to the one trained in the new axes; equal likelihoods of the classes give equal reports and the same likeliest class; the mixed output by linearity, with weights that add up to 1. Hidden Markov models: classes that carry the same parameters (C98) emit the same likelihoods, and an induction over the stream shows that the two hierarchies stay in step; the output of a state moves with the axes, that of a class and of the model by linearity. Mode Sequential: all classes are done in the first session, so the classes of the two models (equal) show that they are done in the second, and C107 applies to both |
| C114 | constructors of `GMM` and `HierarchicalHMM` from JSON, `Model::train(set, label)` and everything it calls, on the loaded model and on the original, `reset`, `filter` | the loaded model is a copy of the original without the limits of the components (C57, C90) and has the same settings; training a class does not read what differs (C108, C109), and the parameters of a hierarchy are kept or uniform; both models have the same classes, and what recognition reads of them is equal (C51); `train(set)` forgets all classes, so C115 applies to the two models; in the mode Sequential, followed by `reset()`, C107, C108 and C109 reduce to the mode Parallel |
| C115 | `Model::train` for one and for all classes, the constructors of `SingleClassHMM` and `SingleClassGMM` with any value of the members they leave uninitialised, `HierarchicalHMM::updateTransitionParameters`, `reset`, `filter` | a new class with other uninitialised members is the same class with another past, which training does not read (C109); the hierarchy is uniform after a training (C105), so both models have the same parameters, and what recognition reads of them is equal (C51); in the mode Sequential, followed by `reset()`, the models are those of the mode Parallel (C107) |

## Findings

Places where the code does not satisfy the property, each a theorem with a witness or for every object described.

* `C01_violated_after_limit_edit` (Attribute.lean): What the unchanged code does not guarantee: the current value is not re-validated when a limit moves, so with limit edits the value can be outside the limits.
* `C01_violated_by_nan` (Attribute.lean): C01 is violated for floating-point attributes by NaN: with finite limits, `set(NaN)` is accepted (both comparisons of `checkLimits<double>` are false).
* `C03_assign_violated` (Attribute.lean): C03 is violated by assignment: for *every* target, and every source with a listener `o`, the next in-range `set` on the target calls the owner of the *source*, and never the target's own former owner.
* `C04_zero_length_push_is_ub` (CircularBuffer.lean): Precondition the code relies on: pushing into a buffer of length 0 is undefined behaviour (`likelihood_window` is bounded below by 1, xmmModelSharedParameters.cpp:54).
* `C06_grow_violated` (CircularBuffer.lean): C06 violated, growing: a full buffer of length 3 that has just wrapped loses everything when it grows.
* `C06_shrink_violated` (CircularBuffer.lean): C06 violated, shrinking: after pushing 1,2,3 into a buffer of length 3, `resize(1)` keeps the *oldest* value 1 instead of the most recent value 3.
* `C10_violated` (Matrix.lean): C10 violated: for this symmetric positive definite matrix (determinant 3/4) the inversion succeeds but reports the determinant −3/4, because a row exchange does not flip the sign.
* `C14_incoherent_dims_ub` (Phrase.lean): What happens outside that hypothesis (a defect): lowering `dimension` below `dimension_input` is accepted, and the next record is undefined behaviour.
* `C17_empty_copy_violated` (PhraseCopy.lean): The full statement fails for a source without data (a defect): the copy of a phrase in which nothing was ever recorded has uninitialised data pointers; destroying it, or recording into it, is undefined behaviour.
* `C17_shared_copy_violated` (PhraseCopy.lean): Copying a phrase that does not own its memory is undefined behaviour.
* `C18_unimodal_violated` (Phrase.lean): The full statement for unimodal phrases fails: after any history, recording a frame and then calling `clearInput()` or `clearOutput()` gives a unimodal phrase with `size() == 0` but `empty()` false.
* `C19_bimodal_ub` (PhraseStats.lean): Rescaling a bimodal phrase holding one complete frame accesses memory that was never written.
* `C19_bimodal_violated` (PhraseStats.lean): C19 fails for bimodal phrases (a defect): the output row is indexed with the column number of the whole frame. With one input frame and two output frames of dimension 1, rescaling leaves the output value of frame 0 untouched and instead changes the output of frame 1, which is not even a frame of the phrase (`size() == 1`).
* `C21_dangling_listener_violated` (TrainingSet.lean): A training set that is destroyed stays registered with the phrases it held: relabelling such a phrase later is undefined behaviour (the callback is bound to the destroyed object).
* `C21_incoherent_dims_violated` (TrainingSet.lean): C21 is violated when the input dimension is not below the dimension: after `dimension.set(3)`, `dimension_input.set(2)`, `dimension.set(2)`, adding a phrase throws `domain_error`, but the phrase stays in the training set, which then holds a phrase and reports no label.
* `C22_copy_constructed_violated` (TrainingSetDims.lean): C22 is violated by copy construction, because the two sets share their phrases: changing the dimension of the source changes that of the phrases held by the copy.
* `C22_input_dimension_violated` (TrainingSetDims.lean): C22 is violated when the input dimension of a new bimodal set is set to its dimension 2, which the set accepts: the phrase rejects it with `domain_error`, and keeps its input dimension 1.
* `C23_copy_constructor_violated` (TrainingSetCopy.lean): C23 is violated by the copy constructor: the copy holds the phrases of its source. Recording a frame in a phrase of the source after the copy changes the phrase read through the copy, whose recorded length goes from 1 to 2.
* `C23_copy_of_empty_phrase_ub` (TrainingSetCopy.lean): Copying a training set that holds a phrase without data is undefined behaviour (the discarded deep copy is destroyed with uninitialised pointers).
* `C24_normalize_bimodal_violated` (TrainingSetStats.lean): C24 fails for bimodal sets (a defect inherited from `Phrase::rescale`): a set holding one bimodal phrase with inputs 0, 2 and outputs 0, 2, 7 has mean 1 and standard deviation 1 in both columns; after `normalize()` the mean of the output column is 1/2, not 0.
* `C24_normalize_shared_violated` (TrainingSetStats.lean): C24 fails when the same phrase object is held under two indices: it is rescaled once per index. The phrase holds 0 and 2; after `normalize()` the mean of the set is -1.
* `C25_phrase_fromJson_empty_violated` (PhraseJson.lean): The full statement fails (a defect) when no complete frame was saved: `fromJson` returns, but leaves uninitialised data pointers, which the destructor deletes.
* `C25_phrase_names_ub` (PhraseJson.lean): The full statement fails (a defect) for a phrase with more column names than dimensions (`column_names` is a public vector): the JSON constructor writes outside its own vector of names.
* `C25_phrase_unimodal_violated` (PhraseJson.lean): The full statement fails (a defect) for a unimodal phrase whose input dimension is not 0 (accepted by the attribute after the dimension has been set): the file written by `toJson` is refused by the JSON constructor.
* `C25_trainingset_fromJson_empty_violated` (TrainingSetJson.lean): The full statement fails (a defect): if the saved training set holds a phrase without a complete frame, `fromJson` returns, and the phrase at its index has uninitialised data pointers, which its destruction deletes.
* `C25_trainingset_unimodal_violated` (TrainingSetJson.lean): The full statement fails (a defect): in a unimodal training set of dimension 3 the input dimension can be set to 1, phrases can be added and the set can be saved, but its file is refused by the JSON constructor.
* `C26_assigned_violated` (SharedHistory.lean): C26 (violated). After an assignment `a = b` the callbacks of `a` are those of `b`: switching bimodal on in a copy of a new object leaves dimension 1 and input dimension 0, and when `b` has been destroyed the call is undefined.
* `C26_fresh_columns_violated` (SharedHistory.lean): C26 (violated). A new object has dimension 1 and no column name; any number of names is accepted.
* `C26_off_on_violated` (SharedHistory.lean): C26 (violated). Switching bimodal off when it is already off makes switching it on impossible: after `dimension.set(n)` (n at least 2) and `bimodal.set(false)`, both of which succeed, `bimodal.set(true)` throws `domain_error` and leaves the object bimodal with input dimension 0.
* `C26_off_violated` (SharedHistory.lean): C26 (violated). Bimodal can never be switched off: in every careful history that has made the object bimodal, `bimodal.set(false)` throws `domain_error`, after having stored `false`: the object is left unimodal with a non-zero input dimension.
* `C26_shrink_violated` (SharedHistory.lean): C26 (violated). Lowering the dimension of a bimodal object to its input dimension or below is accepted.
* `C26_unimodal_violated` (SharedHistory.lean): C26 (violated). Once the dimension of a unimodal object has been set, a non-zero input dimension is accepted.
* `C27_gmm_float_violated` (ClassParams.lean): C27 (violated), GMM parameters. The regularizations are restored only up to their conversion to `float`; if the conversion falls below the minimum, reading throws `domain_error`.
* `C27_hmm_hierarchical_violated` (ClassParams.lean): C27 (violated), HMM parameters. A non-hierarchical configuration is lost: assigned to a new object, or saved and read into a new object, it becomes hierarchical.
* `C27_shared_float_violated` (SharedJson.lean): C27 (violated), shared parameters. A change threshold is restored only up to its conversion to `float`; if that conversion leaves the limits, reading throws `domain_error`.
* `C27_shared_iterations_violated` (SharedJson.lean): C27 (violated), shared parameters. A minimum number of iterations from 2^31 on (accepted by `set`) is written and cannot be read back: reading throws jsoncpp's logic error.
* `C27_shared_names_violated` (SharedJson.lean): C27 (violated), shared parameters. Naming the columns of a new object makes it impossible to save: `toJson` throws `out_of_range`.
* `C27_shared_new_violated` (SharedJson.lean): C27 (violated), shared parameters. A new object, which has no column name, is read back with one empty name.
* `C28_hierarchical_violated` (ConfigHistory.lean): C28 (violated), HMM. After every history that ends with a non-hierarchical default and no parameters of its own for `l`, `configuration[l]` is hierarchical.
* `C30_same_diagonal_ub` (GaussianModes.lean): C30 violated: setting Diagonal on a distribution of at least two dimensions that is already in Diagonal mode reads outside its covariance vector.
* `C30_same_full_violated` (GaussianModes.lean): C30 violated: setting Full on a distribution that is already in Full mode destroys its covariance: from [[2,1],[1,3]] it becomes [[2,0],[0,1]].
* `C31_shrunk_dimension_ub` (GaussianUpdate.lean): C31 violated outside that condition: a bimodal distribution of dimension 4 with 3 input dimensions may be set to dimension 2; its update then runs outside its vectors.
* `C33_diagonal_ub` (GaussianCopy.lean): C33 (undefined behaviour): a JSON in Diagonal mode with a full covariance matrix writes outside the vector.
* `C33_diagonal_violated` (GaussianJson.lean): C33 (false in Diagonal mode): for every distribution of two dimensions or more stored in Diagonal mode, reading its own JSON throws and leaves the target unchanged.
* `C33_output_covariance_violated` (GaussianJson.lean): C33 (false for the conditional output covariance): it is written, but after reading it is empty.
* `C33_unimodal_input_violated` (GaussianJson.lean): C33 (false for a unimodal distribution whose `dimension_input` has been set): its own JSON is rejected.
* `C34_filter_without_reset_ub` (KMeansTrain.lean): C34 violated without `reset()`: filtering with a model that was just trained writes outside the (empty) vector of distances.
* `C39_filter_without_reset_ub` (GmmModel.lean): Without `reset()` the results are undefined behaviour: a model of one class that has never been reset.
* `C44_reset_violated` (HmmParams.lean): C44, filtering set-up: `reset()` of a class with two states or more sets the probability of going from its last state to its first one to 1/20 and leaves everything else as it is, so that the probabilities of leaving the last state no longer sum to 1 unless that one was 1/20.
* `C44_single_frames_violated` (BaumWelchTraining.lean): C44 does not hold for an Ergodic model trained on phrases of one frame: after any iteration all its transition probabilities are 0, and `normalizeTransitions()` divides 0 by 0.
* `C46_hierarchical_violated` (HierResults.lean): C46 is violated in a hierarchy: in a left-right class of two states whose first state goes to the second one, which may go back to the root, the time progression is greater than 1 after two observations, whatever they are.
* `C47_one_state_violated` (HmmRecognition.lean): C47 is false for a model with one state: the window is empty.
* `C48_ergodic_violated` (HierProperties.lean): C48 is violated by the first observation after `reset()` in a model that has already been used and has an ergodic class: the forward variables sum to less than 1.
* `C50_more_states_violated` (HmmParams.lean): C50 is false when the number of states grows: a class trained with `n` states, then set to `k > n` states and trained again, keeps the exit probability 1/10 of its former last state.
* `C52_allocate_violated` (Training.lean): C52 is violated if `allocate()` throws: the exception leaves `train` with the lock held, in a class that is still marked as training, and no event has been sent.
* `C53_background_handle_violated` (PoolModes.lean): C53 is violated in the mode Background, also with one class: if it ends its training before its thread is stored, the training completes, but the thread is stored afterwards and never joined.
* `C53_background_terminate_violated` (PoolModes.lean): C53 is violated in the mode Background: an execution in which the detached thread resets the model just after the second class was started: `reset` throws, the exception leaves the thread, and `std::terminate` ends the program.
* `C53_background_violated` (PoolModes.lean): C53 is violated in the mode Background: if the first class ends its training before the second one is started, Alldone is notified before the second class has an outcome; the second class then fails and is still in the model when all threads have ended, and its thread is never joined.
* `C53_sequential_violated` (PoolModes.lean): C53 is violated in the mode Sequential: when `train` returns, every class has notified its outcome, but the classes whose training failed are still there, and Alldone was not notified. (The training state is left after the last outcome.)
* `C53_spurious_violated` (PoolModes.lean): C53 is violated in the mode Parallel if `compare_exchange_weak` fails spuriously (line 490): `train` returns while the class is being trained, nothing joins its thread, and the model never leaves the training state.
* `C53_unknown_mode_violated` (PoolModes.lean): C53 is violated if the configuration was loaded from a file whose number "multithreading" is none of the three modes, which is accepted (`C86_configuration_modes_violated`): `train` trains the classes one after the other and returns; then every class has notified its outcome and no thread is left, but the model is still in the training state, and no thread makes it leave it (only a call of `cancelTraining` would).
* `C54_background_violated` (PoolModes.lean): C54 is violated in the mode Background: an execution in which the model has left the training state, so that queries are accepted, while the class `b` is being trained.
* `C54_gmm_reset_violated` (ClassSet.lean): C54 is violated by `reset` of a GMM: if the first class is in training, runtime_error is thrown after the results have been resized.
* `C54_remove_violated` (ClassSet.lean): C54 is violated by `removeClass`: if the class is not (or no longer) in training, but the model is, the class is erased before runtime_error is thrown.
* `C54_size_violated` (ClassSet.lean): C54 is violated by `size`, which answers during the training.
* `C56_gmm_params_ineffective_violated` (ModelCopyFilter.lean): C56 is violated, for `GMM`: a change of the likelihood window of the copy does not take effect: whatever the value, what the functions of the copy see is unchanged.
* `C56_gmm_source_changes_copy_violated` (ModelCopyFilter.lean): C56 is violated: a change of the likelihood window of the source changes the copy. The model `i` is trained and copied to `j`; the window of `i` is set to `n`: then the windows of all classes of the copy are `n`.
* `C56_hierarchical_params_ineffective_violated` (ModelCopyFilter.lean): C56 is violated, for hidden Markov models: a change of the likelihood window of the copy does not take effect on its classes.
* `C56_hierarchical_source_changes_copy_violated` (ModelCopyFilter.lean): C56 is violated, for hidden Markov models, in the same way.
* `C56_without_reset_violated` (ModelCopyFilter.lean): C56 is violated without `reset()`: a class whose window holds at least two likelihoods, that has been reset, and its copy, as it is in a copy of the model. They return the same likelihoods for two observations, but the smoothed log-likelihood of the original is the average of the two logarithms, and that of the copy is the last one: the buffer of a copy has length 1.
* `C57_gmm_diagonal_violated` (ModelJsonFail.lean): C57 (violated), GMM. If one of the trained classes has Diagonal covariances in dimension at least 2, `toJson` returns but no model can be constructed from its result: `JsonException`.
* `C57_hmm_hierarchical_violated` (ModelJsonFail.lean): C57 (violated), hierarchical HMM. Whatever is read, the model is hierarchical: the parameter `hierarchical` of a model saved in non-hierarchical mode is lost.
* `C57_hmm_rejected_violated` (ModelJsonFail.lean): C57 (violated), hierarchical HMM. If one of the trained classes has Diagonal covariances in dimension at least 2, or has a number of exit probabilities that is not its number of states, `toJson` returns but no model can be constructed from its result: `JsonException`.
* `C60_violated` (GaussianDensity.lean): C60 violated: a distribution with a symmetric covariance matrix of positive diagonal and determinant 3/4 — positive definite — is updated without error, and then the likelihood of every observation, including its own mean, is 1e-180, although the density at the mean is above 1/10.
* `C69_class_mode_ub` (GmmModel.lean): C69 is violated when a class has its own covariance mode: a class in Diagonal mode in a model whose default is Full has an output covariance that is too short, and the mixture estimator reads past its end (two outputs or more).
* `C70_flat_violated` (HierFlatWindow.lean): C70 is false without hierarchy: the model has a likelihood window of two observations, but after two observations, at 0 and at 1, the smoothed log-likelihood of the class is not the average of the two logarithms.
* `C71_ergodic_violated` (HierProperties.lean): C71 is violated by ergodic classes of a hierarchical model: the same observation, twice, with `reset()` before each: the second instantaneous likelihood is greater than the first.
* `C72_hierarchical_full_violated` (HierResults.lean): C72 is violated in a hierarchy of two classes or more with the estimator `Full`, which is the default: the weights of the states of a class sum to less than 1, so where all the states predict the same positive value, the output is smaller.
* `C72_one_state_windowed_violated` (HmmResults.lean): C72 is false for one state with the estimator `Windowed`: all the values of the output are 0, whatever the state predicts.
* `C73_empty_phrase_ub` (BaumWelchUpdate.lean): C73 does not hold for an Ergodic model if a phrase of its class is empty (`baumWelch_estimatePrior` reads the variables of its first frame): the behaviour of the program is not defined.
* `C76_prediction_violated` (HierResults.lean): C76 is violated: in a model whose transition probabilities sum to 1, the instantaneous likelihoods of the classes are sums of the likelihoods of the observation in the states with weights that sum to 1 plus `∑ α (e / (1 - e))`, where `α` is the probability of being in a state and staying in the class and `e` its exit probability. So the sum of the instantaneous likelihoods can be greater than the greatest likelihood of the observation in a state: this is the case when an ergodic class can be left from each of its states and the observation is equally likely in all the states.
* `C78_remove_class_violated` (HierClasses.lean): C78 is violated in the non-hierarchical mode: the call that removes one of several classes removes it and throws.
* `C78_train_class_violated` (HierClasses.lean): C78 is violated in the non-hierarchical mode, by every model with a class that has been trained: the call that trains a further class throws, and the model then is in training for ever: filtering and `reset()` throw.
* `C79_progression_violated` (Training.lean): C79 is violated by every training that stops by convergence (as with the parameters by default) after more than `em_algorithm_min_iterations` iterations: the progression exceeds 1.
* `C80_assigned_ub` (GaussianCopy.lean): C80 (undefined behaviour for an assigned distribution whose source has been destroyed): any later accepted change of a dimension or of the mode.
* `C80_assigned_violated` (GaussianCopy.lean): C80 (false for an assigned distribution, the source living): the assignment restores every value, but then a new dimension is recorded without resizing anything.
* `C80_fromJson_ub` (GaussianCopy.lean): C80, C33 (undefined behaviour after `fromJson`): the callbacks are bound to the temporary, which is gone; every later change of the mode is undefined behaviour, and so is every accepted change of a dimension.
* `C82_short_phrases_violated` (GmmInit.lean): C82 violated: if every phrase has fewer frames than there are components (10 by default), the initial covariances are NaN and the first iteration makes all components equal; no later iteration separates them. The mixture is one Gaussian, whatever the data are.
* `C83_short_phrases_violated` (HmmInit.lean): C83 is violated by phrases that are all shorter than the number of states: no state is initialised, so that the first iteration throws, and the only event of the training is Error (or Cancel, if a cancellation was requested).
* `C85_ergodic_ub` (HierFlat.lean): C85 is false for ergodic classes that have just been trained: a class is created as part of a hierarchy, and `reset()` frees its state probabilities before it takes the class out of the hierarchy. With the parameter `hierarchical` set to false, `train`, `reset` and the first `filter` write past the end of an empty vector.
* `C86_class_dimensions_violated` (JsonLoading.lean): C86 (classes, a defect): the dimensions of the components are not compared with those of the model: a class for observations of dimension 1 is accepted although its component has dimension 2, full covariance and a determinant other than 0. For every such component, computing the likelihood of an observation of dimension 1, in any arithmetic, reads outside the observation.
* `C86_components_ub` (JsonLoading.lean): C86 (classes, a defect): a file with more components than declared Gaussians makes the constructor write outside the vector of components (the components before the first excessive one being readable).
* `C86_configuration_modes_violated` (ModelLoadingExamples.lean): C86 (configurations, a defect): a file whose number of multithreading mode or of regression estimator is none of the modes is accepted, and the configuration has this number, whatever it is. For what training then does, see `C53_unknown_mode_violated`.
* `C86_gauss_dimensions_violated` (JsonLoading.lean): C86 (distributions, a defect): a distribution whose input dimension exceeds its dimension, and one without dimensions, are accepted
* `C86_hmm_class_grown_ub` (HmmLoading.lean): C86 (HMM classes, a defect): `fromJson` does not resize the variables of the hierarchical forward algorithm. A class loaded from a file with more states than it had when it was last reset (or that was never reset) reads outside these variables when it is filtered without a reset.
* `C86_hmm_class_states_violated` (HmmLoadingExamples.lean): C86 (HMM classes, a defect): the states of the file are compared neither with the declared number of states nor with the declared number of Gaussians: a class of two states of one Gaussian is accepted although the file has one state, with two Gaussians. The missing state has the mixture coefficient 0.
* `C86_shared_input_violated` (SharedLoading.lean): C86 (shared parameters, a defect): a unimodal file with an input dimension is accepted: the shared parameters are then not coherent.
* `C86_states_ub` (HmmLoading.lean): C86 (HMM classes, a defect): a file with more states than declared makes the constructor write outside the vector of states (the states before the first excessive one being readable).
* `C86_trainingset_dimensions_violated` (TrainingSetLoadingExamples.lean): C86 (training sets, a defect): the dimensions of the phrases are not compared with those of the training set: a training set of dimension 1 with a phrase of dimension 2 is accepted.
* `C86_trainingset_names_ub` (TrainingSetLoadingExamples.lean): C86 (training sets, a defect): a file with more column names than dimensions makes the constructor, and so `fromJson`, write outside the vector of names.
* `C87_axes_violated` (Ellipse.lean): C87 (violated). The documentation (xmmGaussianDistribution.hpp:58-66) says that `width` is the length of the minor axis and `height` that of the major axis: it is the other way round whenever the axes differ.
* `C87_axis_aligned_violated` (Ellipse.lean): C87 (violated). If the covariance between the two dimensions is 0 and the first variance is the larger one — in particular for every such distribution in Diagonal mode — `fromEllipse` given the result of `toEllipse` replaces both variances by NaN.
* `C87_flat_violated` (Ellipse.lean): C87 (violated). A flat ellipse (height 0) is refused for a distribution of two dimensions in Full mode, but mean and covariance have been replaced when the exception is thrown.
* `C87_horizontal_violated` (Ellipse.lean): C87 (violated). Every ellipse at angle 0, whatever its size, makes the variances NaN.
* `C88_alldone_violated` (PoolCancel.lean): C88 is violated: if the last class in training ends successfully between the test of `is_training_` and the request, the detached thread and `cancelTraining()` may both join the training: Alldone is notified twice.
* `C88_background_ub` (PoolCancel.lean): C88 is violated: if the last class in training fails between the test of `is_training_` and the request, the detached thread removes the class that the loop of `cancelTraining()` designates, and the loop uses it: undefined behaviour.
* `C88_label_fails_violated` (PoolCancel.lean): C88 is violated by `cancelTraining(label)`: if the only class in training fails during the call, the call may see that the class is not in training before the failure is notified; then nobody joins the training. All threads have ended, and the model stays in training: Alldone is never notified, the failed class is not removed, and queries are refused.
* `C88_label_violated` (PoolCancel.lean): C88 is violated by `cancelTraining(label)`: if the last other class ends between the test of `models_still_training_` and the end of the call, nobody joins the training. All threads have ended, and the model stays in training: Alldone is never notified and queries are refused.
* `C88_parallel_ub` (PoolCancel.lean): C88 is violated in the mode Parallel, in which another thread than the one that called `train` cancels: the thread in `train` removes the cancelled class while `cancelTraining()` waits on it: undefined behaviour.
* `C88_sequential_violated` (PoolCancel.lean): C88 is violated in the mode Sequential (and when the classes are not all started): `cancelTraining()` returns, and Alldone is notified, before the class `b` is started; the thread in `train` then trains it to the end. At that time the model is not in training (queries are accepted).
* `C89_assign_violated` (KMeansCopy.lean): C89 violated by the assignment: the dimension is not assigned. If the target had another dimension (a new object has dimension 1), it refuses every observation that the original accepts, although it has the clusters and the centers of the original.
* `C89_assign_wrong_violated` (KMeansCopy.lean): C89 violated by the assignment, with wrong results: a new object (of dimension 1) that is assigned a model with the centers (0, 5) and (9, 9) compares an observation of one value with the numbers 0 and 5, which belong to the first center.
* `C89_copy_ub` (KMeansCopy.lean): C89 violated by the copy constructor: a copy has no shared parameters. Whatever the original, `filter` with a copy is undefined behaviour for every observation, and so is training it with a training set that is not empty.
* `C89_json_violated` (KMeansCopy.lean): C89 violated by the JSON: what is saved of a k-means model is `null`, the same for all models, and loading it, like loading anything else, changes nothing: the clusters are lost.
* `C90_gmm_without_reset_ub` (LoadedFilter.lean): C90 (undefined), GMM. `filter` on the model constructed from the JSON of a trained model, before `reset()`, writes the likelihood of the first class outside of the results.
* `C90_hierarchical_without_reset_violated` (LoadedFilter.lean): C90 (violated), hierarchical HMM. `filter` on the model constructed from the JSON of a hierarchical model, before `reset()`, does not return: its classes are there but there is no room for their likelihoods in the results, and the first of them is written outside.
* `C91_gmm_params_violated` (ModelLoad.lean): C91 is violated, GMM: after `fromJson`, a change of the likelihood window of the model does not take effect on its classes, whatever the value.
* `C91_gmm_results_violated` (ModelLoad.lean): C91 is violated, GMM: the results of the model before loading stay, although its classes are others: with every document, and whatever `results` was; for instance, `results.likeliest` still names a class of the former model that the new one does not have.
* `C91_hierarchical_listeners_violated` (ModelLoad.lean): C91 is violated, hierarchical HMM: after `fromJson` nobody listens to the model any more: whoever listened before, no training event reaches them.
* `C91_hierarchical_params_violated` (ModelLoad.lean): C91 is violated, hierarchical HMM: after `fromJson`, a change of the likelihood window of the model does not take effect on its classes.
* `C92_class_refused_violated` (TrainCall.lean): C92 (one class, violated): a bimodal model without classes that is called to train one class with a training set without input or without output throws std::domain_error and stays in training.
* `C92_train_refused_violated` (TrainCall.lean): C92 (violated): a bimodal model that is called to train with a training set without input or without output, for example a unimodal one, throws std::domain_error; by then it has lost all its classes, it stays in training, so that hasClass, getIndex, reset, and likewise filter and toJson, throw std::runtime_error, and it may have a dimension that is not above its input dimension.
* `C93_what_ub` (JsonError.lean): C93 is violated by every JSON exception: reading the message that `what()` returns, as every handler does, is undefined behaviour, because the string was destroyed when `what()` returned.
* `C95_monotone_violated` (HmmMonotone.lean): C95: an iteration does lower the log-likelihood, though neither the regularisation nor the floor has an effect. The model has one state, with the mean and the (regularised) covariance of the two frames, and stays in this state with probability 1. The iteration divides the one transition by the two frames, and the probability is about 1/2 after it.
* `C98_origin_violated` (AxesOrigin.lean): C98 violated: when the first phrase has fewer frames than there are components, or when k-means leaves a center without frames, that center is at the origin, and the training depends on where the origin is. Three frames at the same place, two components: the log-likelihood of the first iteration is not the same if the place is the origin.
* `C100_first_phrase_violated` (PhraseOrderExamples.lean): C100 violated when the first phrase changes: the first centers are the averages of the segments of the first phrase (xmmKMeans.cpp:110-127), and the clustering found from them depends on which phrase that is. Two clusters, the frames 1, 1 in one phrase and 1, 3 in the other: the first center ends at 3/2 or at 1.
* `C101_dimension_change_ub` (PhraseShared.lean): C101 (violated without the condition on dimensions): changing the dimension of a bimodal phrase in shared memory while an output array is connected deletes the user's array (xmmPhrase.cpp:571-576).
* `C106_partial_failure_violated` (FlatTrain.lean): C106 (violated): without hierarchy, if the training of one class is cancelled or fails while that of another class is done, `train` ends with a runtime error. (The classes whose training failed are erased and the others are kept, but the default exit probabilities cannot be set in classes outside a hierarchy.)
* `C107_gmm_failed_class_violated` (SequentialTrain.lean): C107 (violated), mixture models. A class whose training is not done (it was cancelled, or the last log-likelihoods are 0) is in the model that the mode Sequential leaves, and not in that of the mode Parallel.
* `C107_gmm_without_reset_ub` (SequentialTrain.lean): C107 (undefined), mixture models. If no training is cancelled, `filter` on the model that the mode Sequential leaves, without `reset()`, writes the likelihood of the first class outside of the results. (The mode Parallel calls `reset()`.)
* `C107_hmm_failed_class_violated` (SequentialTrain.lean): C107 (violated), hidden Markov models. A class whose training is not done is in the model that the mode Sequential leaves. In a hierarchy it is not in that of the mode Parallel.
* `C107_hmm_flat_without_reset_ub` (SequentialFlat.lean): C107 (undefined), hidden Markov models outside a hierarchy. If the training of every class is done, `filter` on the model that the mode Sequential leaves, without `reset()`, reads the forward probabilities of the first class outside of their vector.
* `C107_hmm_without_reset_ub` (SequentialTrain.lean): C107 (undefined), hidden Markov models. If the training of every class is done, `filter` on the hierarchical model that the mode Sequential leaves, without `reset()`, writes the likelihood of the first class outside of the results.
* `C108_failed_class_violated` (Retrain.lean): C108 (violated): a training that fails does not leave the class as it was. If the training of `label` is not done, for instance because it is cancelled, a class `label` that was trained before does not exist any more.
* `C108_sequential_failed_class_violated` (SequentialClass.lean): C108 (violated), mode Sequential. A class whose training is not done, for instance because it is cancelled, is in the model that the mode Sequential leaves, also if it did not exist before.
* `C108_sequential_without_reset_ub` (SequentialClass.lean): C108 (undefined), mode Sequential. If a class is added to a model that can be used, then `filter`, without `reset()`, writes the likelihood of the last class outside of the results. (The mode Parallel calls `reset()`.)
* `C109_failed_class_violated` (HmmRetrain.lean): C109 (violated): a training that fails does not leave the class as it was. If the training of `label` is not done, for instance because it is cancelled, a class `label` that was trained before does not exist any more.
* `C109_more_states_violated` (HmmRetrain.lean): C109 (violated): a class that is trained again with more states than before is not the one that would be trained alone. Its former last state remains an exit point: it is left from there with probability 1/10, where the class trained alone is not left.
* `C109_sequential_failed_class_violated` (SequentialClass.lean): C109 (violated), mode Sequential. A class whose training is not done, for instance because it is cancelled, is in the model that the mode Sequential leaves, also if it did not exist before.
* `C109_sequential_without_reset_ub` (SequentialClass.lean): C109 (undefined), mode Sequential. If a class is added to a hierarchical model that is at the start of a recognition (after `reset()`, or without classes), and its training is done, then `filter`, without `reset()`, writes the likelihood of the last class outside of the results.
* `C110_transitions_violated` (RepeatedHmm.lean): C110 is violated for hidden Markov models: with every phrase recorded twice or more, an iteration of the training of a LeftRight model gives every state a higher probability to stay in it.
* `C112_tie_violated` (Renaming.lean): C112 is violated at a tie: a model with two equal classes "a" and "b" is the same model under the exchanged names, but the likeliest class is "a" in both: the first one in the order of the names.
