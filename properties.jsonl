{"id": "C01", "title": "Attribute values stay inside their limits", "statement": "A bounded attribute whose limits are not edited always holds a value inside its limits: set() with an out-of-range value throws domain_error and leaves the value unchanged, and set() with an in-range value stores exactly that value.", "quantifier": "every limit pair, every initial value accepted by the constructor, every finite history of set calls, failed ones included", "why_tests_cant": "a test samples a handful of values and histories; the guarantee is about all of them, including failing calls followed by further use", "anchors": ["src/core/common/xmmAttribute.hpp:Attribute::set", "src/core/common/xmmAttribute.cpp:checkLimits"]}
{"id": "C02", "title": "Attribute notification is exact", "statement": "Each accepted non-silent set() calls the registered listener exactly once, with the new value already stored; a rejected or silent set() calls nobody; the changed flag is raised by every accepted set().", "quantifier": "every history of set / onAttributeChange / removeListener calls", "why_tests_cant": "counting notifications over every interleaving of accepted, rejected and silent sets is an unbounded history property", "anchors": ["src/core/common/xmmAttribute.hpp:Attribute::set", "src/core/common/xmmAttribute.hpp:Attribute::onAttributeChange"]}
{"id": "C03", "title": "Copying or assigning an attribute must not transfer its listener", "statement": "The documentation says copying/assigning an attribute copies value and limits but not the listener, so a change on the target never calls back the source's owner.", "quantifier": "every source and target attribute state", "why_tests_cant": "an aliasing bug shows only when the source owner is later destroyed or inspected; a finite suite never enumerates owner lifetimes", "anchors": ["src/core/common/xmmAttribute.hpp:Attribute(Attribute const&)", "src/core/common/xmmAttribute.hpp:Attribute::operator="]}
{"id": "C04", "title": "Circular buffer holds exactly the most recent values", "statement": "After any sequence of pushes a circular buffer of length L>0 reports min(n,L) values, and the values readable through operator() are exactly the last min(n,L) values pushed, each once; reading at or past the reported size throws out_of_range.", "quantifier": "every buffer length, every push history", "why_tests_cant": "wrap-around is periodic in the history length; tests stop after a few wraps", "anchors": ["src/core/common/xmmCircularbuffer.hpp:push", "src/core/common/xmmCircularbuffer.hpp:operator()"]}
{"id": "C05", "title": "Circular buffer mean is the mean of the window", "statement": "mean() is the arithmetic mean, per channel, of the last min(n,L) values pushed.", "quantifier": "every length, channel count and non-empty push history", "why_tests_cant": "the stored order is rotated; equality of the mean for every rotation cannot be sampled", "anchors": ["src/core/common/xmmCircularbuffer.hpp:mean"]}
{"id": "C06", "title": "Resizing a circular buffer keeps the most recent values", "statement": "After resize(L2) the buffer exposes only values that were in the window before, and it exposes as many of the most recent ones as fit in L2.", "quantifier": "every pair of lengths and every push history before the resize", "why_tests_cant": "depends jointly on write position, fullness and both lengths", "anchors": ["src/core/common/xmmCircularbuffer.hpp:resize"]}
{"id": "C07", "title": "Event delivery is exact", "statement": "A notification calls every currently registered owner exactly once with the callback it registered first since its last removal, and never calls an owner that was removed.", "quantifier": "every history of addListener/removeListener/removeListeners and every set of owners", "why_tests_cant": "registration histories are unbounded", "anchors": ["src/core/common/xmmEvents.hpp:EventGenerator"]}
{"id": "C08", "title": "Matrix transpose and product are the mathematical ones", "statement": "transpose() and product() return the transpose and the matrix product (exact arithmetic); product throws runtime_error exactly when the inner dimensions differ; transposing twice is the identity.", "quantifier": "all sizes and all entries", "why_tests_cant": "all shapes and all entries", "anchors": ["src/core/common/xmmMatrix.hpp:transpose", "src/core/common/xmmMatrix.hpp:product"]}
{"id": "C09", "title": "Matrix inversion never returns a wrong inverse", "statement": "If pinv() of a square matrix returns, the result is a two-sided inverse of the input; a singular matrix always makes it throw; it never divides by zero.", "quantifier": "all sizes and all real entries, whatever row swaps the pivoting does", "why_tests_cant": "Gauss-Jordan with pivoting has as many control paths as permutations", "anchors": ["src/core/common/xmmMatrix.hpp:gauss_jordan_inverse", "src/core/common/xmmMatrix.hpp:pinv"]}
{"id": "C10", "title": "The determinant reported with the inverse is the determinant", "statement": "The determinant returned with the inverse equals the determinant of the matrix.", "quantifier": "all sizes and entries for which inversion succeeds", "why_tests_cant": "sign errors depend on the parity of the row swaps", "anchors": ["src/core/common/xmmMatrix.hpp:gauss_jordan_inverse"]}
{"id": "C11", "title": "Pseudo-inverse of a non-square matrix", "statement": "For a tall matrix, if pinv() returns X then X*A is the identity; for a wide matrix A*X is the identity.", "quantifier": "all non-square shapes and entries", "why_tests_cant": "all shapes and all entries", "anchors": ["src/core/common/xmmMatrix.hpp:pinv"]}
{"id": "C12", "title": "Numeric arrays survive JSON", "statement": "Reading back a vector written to JSON with the declared size returns the same values; a node that is not an array or has another length raises JsonException before anything is written.", "quantifier": "all vectors and lengths, all JSON nodes", "why_tests_cant": "all lengths and all malformed nodes", "anchors": ["src/core/common/xmmJson.hpp:vector2json", "src/core/common/xmmJson.hpp:json2vector", "src/core/common/xmmJson.cpp"]}
{"id": "C13", "title": "A recorded phrase reads back exactly what was recorded", "statement": "For a unimodal own-memory phrase, after any history of record and clear calls, size() is the number of accepted records since the last clear and getValue(t,d) is component d of the t-th of them; internal reallocation never alters recorded data.", "quantifier": "every dimension and every history of any length, including across reallocation boundaries", "why_tests_cant": "reallocation happens every 256 frames; a test fixes lengths", "anchors": ["src/core/trainingset/xmmPhrase.cpp:record", "src/core/trainingset/xmmPhrase.cpp:getValue", "src/core/trainingset/xmmPhrase.cpp:reallocateLength"]}
{"id": "C14", "title": "Bimodal phrases stay frame-aligned", "statement": "For a bimodal own-memory phrase, after any history of record, record_input, record_output, clearInput, clearOutput and clear, size() is the minimum of the two modality lengths and frame t pairs the t-th recorded input with the t-th recorded output.", "quantifier": "every pair of dimensions and every history", "why_tests_cant": "interleavings of the two streams are unbounded", "anchors": ["src/core/trainingset/xmmPhrase.cpp:record_input", "src/core/trainingset/xmmPhrase.cpp:record_output", "src/core/trainingset/xmmPhrase.cpp:trim"]}
{"id": "C15", "title": "Rejected recordings change nothing", "statement": "record, record_input and record_output throw on a wrong observation size, on a shared-memory phrase, or on a modality mismatch, and after the throw the phrase reads exactly as before.", "quantifier": "every phrase state and every observation vector", "why_tests_cant": "every reachable state and malformed input", "anchors": ["src/core/trainingset/xmmPhrase.cpp:record", "src/core/trainingset/xmmPhrase.cpp:record_input", "src/core/trainingset/xmmPhrase.cpp:record_output"]}
{"id": "C16", "title": "Reading a phrase never goes out of bounds", "statement": "getValue, getPointer, getPointer_input and getPointer_output throw out_of_range for every frame index at or past the recorded length of the modality that is read, and every dimension >= dimension; for in-range arguments the memory cell accessed was written by a recording.", "quantifier": "every history and all argument values", "why_tests_cant": "memory safety over all histories", "anchors": ["src/core/trainingset/xmmPhrase.cpp:getValue", "src/core/trainingset/xmmPhrase.cpp:getPointer"]}
{"id": "C17", "title": "A copied phrase is an independent equal phrase", "statement": "Copying (construct or assign) an own-memory phrase yields a phrase with the same readable content, and later recordings into either do not affect the other.", "quantifier": "every source history and every later history", "why_tests_cant": "aliasing is a property of all later histories", "anchors": ["src/core/trainingset/xmmPhrase.cpp:Phrase(Phrase const&)", "src/core/trainingset/xmmPhrase.cpp:operator="]}
{"id": "C18", "title": "empty() agrees with size()", "statement": "A phrase reports empty() exactly when its size() is 0 (own memory, unimodal), or when neither modality holds data (bimodal).", "quantifier": "every history of recording and clearing calls", "why_tests_cant": "history property", "anchors": ["src/core/trainingset/xmmPhrase.cpp:empty", "src/core/trainingset/xmmPhrase.cpp:clearInput", "src/core/trainingset/xmmPhrase.cpp:clearOutput", "src/core/trainingset/xmmPhrase.cpp:trim"]}
{"id": "C19", "title": "rescale applies one affine map per column", "statement": "rescale(offset,gain) replaces every value v in column d by (v-offset[d])*gain[d] and leaves lengths, labels and everything else unchanged.", "quantifier": "every phrase, offset and gain", "why_tests_cant": "bimodal indexing errors touch other frames", "anchors": ["src/core/trainingset/xmmPhrase.cpp:rescale"]}
{"id": "C20", "title": "Phrase statistics are exact", "statement": "For a non-empty phrase minmax()[d] is the least and greatest value of column d, both attained, mean()[d] is the arithmetic mean of the column and lies between them, and standardDeviation()[d] is the non-negative root of the mean squared deviation.", "quantifier": "every phrase", "why_tests_cant": "all data", "anchors": ["src/core/trainingset/xmmPhrase.cpp:minmax", "src/core/trainingset/xmmPhrase.cpp:mean"]}
{"id": "C21", "title": "The label index is always exact", "statement": "labels() is exactly the set of labels of the phrases in the training set, and getPhrasesOfClass(l) holds exactly the phrases with label l under the same indices.", "quantifier": "every history of addPhrase, removePhrase, removePhrasesOfClass, clear and phrase relabelling", "why_tests_cant": "histories are unbounded and relabelling happens through a callback", "anchors": ["src/core/trainingset/xmmTrainingSet.cpp:update", "src/core/trainingset/xmmTrainingSet.cpp:onPhraseEvent", "src/core/trainingset/xmmTrainingSet.cpp:getPhrasesOfClass"]}
{"id": "C22", "title": "Training-set dimensions are consistent", "statement": "Every phrase created through the training set has the dimension and input dimension of the training set, after any later change of these attributes.", "quantifier": "every history of attribute changes and phrase creations", "why_tests_cant": "histories", "anchors": ["src/core/trainingset/xmmTrainingSet.cpp:onAttributeChange", "src/core/trainingset/xmmTrainingSet.cpp:addPhrase"]}
{"id": "C23", "title": "A copied training set is independent", "statement": "Copying a training set yields one with equal phrases, and recording into, relabelling or removing phrases of one never affects the other.", "quantifier": "every source and every later history", "why_tests_cant": "aliasing is a property of all later histories", "anchors": ["src/core/trainingset/xmmTrainingSet.cpp:TrainingSet(TrainingSet const&)", "src/core/trainingset/xmmTrainingSet.cpp:operator="]}
{"id": "C24", "title": "Training-set statistics and normalisation", "statement": "minmax() of a training set bounds every value of every phrase and is attained; mean() and standardDeviation() are those of all frames of all phrases together; after normalize() of a unimodal set of distinct phrases every column whose standard deviation was not zero has mean 0 and standard deviation 1.", "quantifier": "every training set", "why_tests_cant": "all data", "anchors": ["src/core/trainingset/xmmTrainingSet.cpp:minmax", "src/core/trainingset/xmmTrainingSet.cpp:normalize", "src/core/trainingset/xmmTrainingSet.cpp:rescale"]}
{"id": "C25", "title": "Phrase and training set JSON round-trip", "statement": "fromJson(toJson(x)) restores size, dimensions, modality, column names, label and every value, for phrases and training sets in own memory.", "quantifier": "every phrase and training set", "why_tests_cant": "all structures", "anchors": ["src/core/trainingset/xmmPhrase.cpp:toJson", "src/core/trainingset/xmmPhrase.cpp:Phrase(Json)", "src/core/trainingset/xmmTrainingSet.cpp:toJson", "src/core/trainingset/xmmTrainingSet.cpp:TrainingSet(Json)"]}
{"id": "C26", "title": "Shared parameters stay coherent", "statement": "bimodal implies dimension>=2 and 1<=dimension_input<dimension; unimodal implies dimension_input==0; column names count equals the dimension; and the caller can switch bimodal on and off.", "quantifier": "every history of attribute sets on the shared parameters", "why_tests_cant": "histories of coupled attribute updates", "anchors": ["src/core/model/xmmModelSharedParameters.cpp:onAttributeChange"]}
{"id": "C27", "title": "Class parameters survive JSON and assignment", "statement": "fromJson(toJson(p)) and assignment restore every parameter of a class (k-means, GMM, HMM) and of the shared parameters.", "quantifier": "every admissible parameter valuation", "why_tests_cant": "all valuations of all parameters", "anchors": ["src/models/gmm/xmmGmmParameters.cpp", "src/models/hmm/xmmHmmParameters.cpp", "src/models/kmeans/xmmKMeansParameters.cpp", "src/core/model/xmmModelSharedParameters.cpp"]}
{"id": "C28", "title": "Class-specific configuration overrides the default only for its class", "statement": "configuration[l] starts equal to the defaults and edits to it affect label l only; training uses the class-specific parameters for configured labels and the defaults for all others; reset() returns all labels to the defaults.", "quantifier": "every history of configuration edits and every label", "why_tests_cant": "histories over an unbounded label set", "anchors": ["src/core/model/xmmModelConfiguration.hpp:Configuration::operator[]", "src/core/model/xmmModel.hpp:addModelForClass"]}
{"id": "C29", "title": "Likelihoods are strictly positive and finite", "statement": "likelihood, likelihood_input and likelihood_bimodal either throw or return a finite double not below 1e-180, whatever the intermediate floating-point result (NaN, infinities, underflow).", "quantifier": "every observation, mean and covariance, every outcome of the floating-point expression", "why_tests_cant": "covers every NaN/inf/underflow outcome of IEEE arithmetic", "anchors": ["src/core/distributions/xmmGaussianDistribution.cpp:likelihood", "src/core/distributions/xmmGaussianDistribution.cpp:likelihood_input", "src/core/distributions/xmmGaussianDistribution.cpp:likelihood_bimodal"]}
{"id": "C30", "title": "Covariance mode conversion keeps the variances", "statement": "Switching Full to Diagonal keeps exactly the diagonal, switching back gives the diagonal matrix with the same variances, and setting the mode it already has changes nothing.", "quantifier": "all dimensions and covariances", "why_tests_cant": "all dimensions and all mode histories", "anchors": ["src/core/distributions/xmmGaussianDistribution.cpp:onAttributeChange"]}
{"id": "C31", "title": "Inverse covariance is the inverse", "statement": "If updateInverseCovariance succeeds then covariance times inverse covariance is the identity (Full) or entrywise reciprocal (Diagonal), likewise for the input block, and non-positive diagonal variances throw.", "quantifier": "all dimensions and covariances", "why_tests_cant": "all matrices", "anchors": ["src/core/distributions/xmmGaussianDistribution.cpp:updateInverseCovariance"]}
{"id": "C32", "title": "Gaussian regression is the conditional mean", "statement": "regression(x) is mean_out + S_oi * inverse(S_ii) * (x - mean_in); at x = mean_in it returns mean_out; it is affine in x; with zero cross-covariance it is constant.", "quantifier": "all dimensions, parameters and inputs", "why_tests_cant": "all real inputs", "anchors": ["src/core/distributions/xmmGaussianDistribution.cpp:regression"]}
{"id": "C33", "title": "Gaussian JSON round-trip", "statement": "fromJson(toJson(g)) restores every parameter of the distribution in both covariance modes.", "quantifier": "every distribution", "why_tests_cant": "all dimensions and modes", "anchors": ["src/core/distributions/xmmGaussianDistribution.cpp:toJson", "src/core/distributions/xmmGaussianDistribution.cpp:GaussianDistribution(Json)"]}
{"id": "C34", "title": "k-means assigns to a nearest center and re-centers on the mean", "statement": "One k-means iteration assigns every frame to a center at minimal distance (the lowest index on ties) and replaces each center by the mean of the frames assigned to it; filter() reports the lowest-index nearest center.", "quantifier": "all data, dimensions, cluster counts and centers", "why_tests_cant": "all data sets", "anchors": ["src/models/kmeans/xmmKMeans.cpp:updateCenters", "src/models/kmeans/xmmKMeans.cpp:filter"]}
{"id": "C35", "title": "k-means training terminates within the iteration limit", "statement": "train() performs at most max_iterations center updates and always terminates.", "quantifier": "all data and parameters", "why_tests_cant": "termination over all inputs", "anchors": ["src/models/kmeans/xmmKMeans.cpp:train"]}
{"id": "C36", "title": "Mixture coefficients are a probability distribution", "statement": "After every EM update and after every normalisation the mixture coefficients of a class are non-negative and sum to 1.", "quantifier": "all data, all iterations, all component counts", "why_tests_cant": "all data and all iteration counts", "anchors": ["src/models/gmm/xmmGmmSingleClass.cpp:emAlgorithmUpdate", "src/models/gmm/xmmGmmSingleClass.cpp:normalizeMixtureCoeffs"]}
{"id": "C37", "title": "Trained covariances are symmetric and regularised", "statement": "After an EM update in Full mode every covariance matrix is symmetric and its quadratic form is at least the regularisation offset; in Diagonal mode every variance is at least the regularisation offset.", "quantifier": "all data, all iterations", "why_tests_cant": "all data and all iteration counts", "anchors": ["src/models/gmm/xmmGmmSingleClass.cpp:emAlgorithmUpdate", "src/core/distributions/xmmGaussianDistribution.cpp:regularize"]}
{"id": "C38", "title": "GMM regression is a convex combination", "statement": "The responsibilities used for regression are non-negative and sum to 1, so each predicted output lies between the least and greatest prediction of the individual components.", "quantifier": "all models and inputs", "why_tests_cant": "all inputs", "anchors": ["src/models/gmm/xmmGmmSingleClass.cpp:likelihood", "src/models/gmm/xmmGmmSingleClass.cpp:regression"]}
{"id": "C39", "title": "Multi-class results are consistent", "statement": "After reset() and filter() on a model with at least one class: the normalised instantaneous and smoothed likelihoods are each non-negative and sum to 1 over the classes, and likeliest is the first label in label order with maximal smoothed log-likelihood. (Without reset() filter() writes outside the result vectors.)", "quantifier": "every number of classes >= 1 and every observation sequence", "why_tests_cant": "all class counts and observations", "anchors": ["src/models/gmm/xmmGmm.cpp:updateResults", "src/models/hmm/xmmHierarchicalHmm.cpp:updateResults"]}
{"id": "C40", "title": "Smoothed likelihood of a mixture is the average over the likelihood window", "statement": "After n calls of filter() on a class of a Gaussian mixture model since reset(), its log-likelihood is the average of the logs of its last min(n, likelihood_window) instantaneous likelihoods, and its instantaneous likelihood is the last one returned.", "quantifier": "every window length and observation sequence", "why_tests_cant": "history length unbounded", "anchors": ["src/models/gmm/xmmGmmSingleClass.cpp:updateResults, likelihood, filter", "src/core/model/xmmModelSingleClass.cpp:reset", "src/core/common/xmmCircularbuffer.hpp"]}
{"id": "C41", "title": "HMM state probabilities are a distribution at every frame", "statement": "In non-hierarchical filtering the state probabilities are non-negative and sum to 1 after every observation, and the underflow branch is never taken for a trained model.", "quantifier": "every trained model, every observation sequence of any length", "why_tests_cant": "unbounded sequences", "anchors": ["src/models/hmm/xmmHmmSingleClass.cpp:forward_init", "src/models/hmm/xmmHmmSingleClass.cpp:forward_update", "src/models/hmm/xmmHmmSingleClass.cpp:filter"]}
{"id": "C42", "title": "HMM forward recursion computes the sequence likelihood", "statement": "The product of the instantaneous likelihoods reported for an observation sequence equals the sum over all state paths of prior, transition and observation probabilities.", "quantifier": "all models and sequences", "why_tests_cant": "number of paths is exponential; sequences unbounded", "anchors": ["src/models/hmm/xmmHmmSingleClass.cpp:forward_init", "src/models/hmm/xmmHmmSingleClass.cpp:forward_update"]}
{"id": "C43", "title": "Left-right models advance at most one state per frame", "statement": "In a left-right model without cyclic transition, after t frames every state beyond index t-1 has probability 0.", "quantifier": "all left-right models and sequences", "why_tests_cant": "unbounded sequences", "anchors": ["src/models/hmm/xmmHmmSingleClass.cpp:setLeftRight", "src/models/hmm/xmmHmmSingleClass.cpp:forward_update"]}
{"id": "C44", "title": "HMM transition rows are probability distributions", "statement": "After training each row of the transition matrix (and the prior) is non-negative and sums to 1, and filtering set-up preserves this.", "quantifier": "all models with positive row mass", "why_tests_cant": "all data", "anchors": ["src/models/hmm/xmmHmmSingleClass.cpp:normalizeTransitions", "src/models/hmm/xmmHmmSingleClass.cpp:setErgodic", "src/models/hmm/xmmHmmSingleClass.cpp:setLeftRight", "src/models/hmm/xmmHmmSingleClass.cpp:addCyclicTransition", "src/models/hmm/xmmHmmSingleClass.cpp:reset"]}
{"id": "C45", "title": "Baum-Welch posteriors are consistent", "statement": "For every phrase, the variables that Baum-Welch training computes are the posterior probabilities of the states, components and transitions given the whole phrase (sums over all state paths); the state posteriors of each frame sum to 1, the transition posteriors sum over destinations to the state posterior of the frame and over origins to that of the next frame, and the log-likelihood returned is that of the phrase.", "quantifier": "all models, phrases and frames", "why_tests_cant": "all lengths", "anchors": ["src/models/hmm/xmmHmmSingleClass.cpp:baumWelch_forwardBackward"]}
{"id": "C46", "title": "Time progression is within [0,1]", "statement": "The reported time progression of a class is in [0,1] after every frame.", "quantifier": "all models and sequences", "why_tests_cant": "all sequences", "anchors": ["src/models/hmm/xmmHmmSingleClass.cpp:updateResults", "src/models/hmm/xmmHmmSingleClass.cpp:updateAlphaWindow"]}
{"id": "C47", "title": "The regression window contains the likeliest state", "statement": "The window of states used for windowed regression lies inside the valid state range and contains the likeliest state.", "quantifier": "all state counts and state probabilities", "why_tests_cant": "all sizes", "anchors": ["src/models/hmm/xmmHmmSingleClass.cpp:updateAlphaWindow", "src/models/hmm/xmmHmmSingleClass.cpp:regression"]}
{"id": "C48", "title": "Hierarchical forward variables are a distribution at every frame", "statement": "In hierarchical filtering all forward variables are non-negative and sum to 1 over classes, exit kinds and states after every frame.", "quantifier": "all sets of classes, all observation sequences", "why_tests_cant": "unbounded sequences and class counts", "anchors": ["src/models/hmm/xmmHierarchicalHmm.cpp:forward_init", "src/models/hmm/xmmHierarchicalHmm.cpp:forward_update"]}
{"id": "C49", "title": "Top-level parameters follow the class set", "statement": "After any history of training, class removal and clearing, a hierarchical model has one prior, one exit transition and one transition row per class, the prior and every row sum to 1; normalizing divides by the sums.", "quantifier": "every history of class-set operations", "why_tests_cant": "histories", "anchors": ["src/models/hmm/xmmHierarchicalHmm.cpp:updateTransitionParameters", "src/models/hmm/xmmHierarchicalHmm.cpp:removeClass", "src/models/hmm/xmmHierarchicalHmm.cpp:clear"]}
{"id": "C50", "title": "Only the last state exits by default", "statement": "Unless exit points were added by the caller, only the last state of a class has non-zero exit probability.", "quantifier": "every history of allocation, re-training and parameter changes", "why_tests_cant": "histories of re-allocation with changing state counts", "anchors": ["src/models/hmm/xmmHmmSingleClass.cpp:updateExitProbabilities", "src/models/hmm/xmmHmmSingleClass.cpp:allocate", "src/models/hmm/xmmHmmSingleClass.cpp:addExitPoint"]}
{"id": "C51", "title": "Filtering with mixtures after reset does not depend on the past", "statement": "After reset() of a Gaussian mixture model, the results for a non-empty observation sequence (likelihoods, normalised likelihoods, likeliest class, outputs and output covariance) are the same whatever was filtered before.", "quantifier": "all earlier and later observation sequences", "why_tests_cant": "pairs of unbounded histories", "anchors": ["src/models/gmm/xmmGmm.cpp:reset, filter", "src/models/gmm/xmmGmmSingleClass.cpp:filter"]}
{"id": "C52", "title": "Training a class terminates and reports exactly one outcome", "statement": "Training one class performs at most 1000 EM iterations (when nothing fails or is cancelled: exactly min(max_iterations, 1000) if max_iterations >= min_iterations; otherwise up to the first iteration from the number min_iterations on that changes the log-likelihood by at most percent_chg per cent), emits any number of Run events followed by exactly one of Done, Error or Cancel, and releases its training lock on every path.", "quantifier": "every objective sequence the EM step can produce, failures and cancellation at any point", "why_tests_cant": "every failure point and cancellation point", "anchors": ["src/core/model/xmmModelSingleClass.cpp:train", "src/core/model/xmmModelSingleClass.cpp:emAlgorithmHasConverged", "src/core/model/xmmModelSingleClass.cpp:cancelTrainingIfRequested"]}
{"id": "C53", "title": "Training ends with exactly the classes that were trained successfully", "statement": "When training is over, the model contains exactly the labels of the training set whose training did not fail or get cancelled, none of them is marked training, and Alldone was notified once, after every class's final event. At most one thread at a time joins the threads of the classes.", "quantifier": "every thread interleaving, every subset of failing classes, all multithreading modes", "why_tests_cant": "all schedules and failure subsets", "anchors": ["src/core/model/xmmModel.hpp:train", "src/core/model/xmmModel.hpp:joinTraining", "src/core/model/xmmModel.hpp:onTrainingEvent"]}
{"id": "C54", "title": "A model in training rejects queries", "statement": "While any class is being trained, filter, reset, size, toJson, hasClass, getIndex and removeClass throw runtime_error and change nothing; the training state of the model ends only after every class has finished.", "quantifier": "every schedule", "why_tests_cant": "all schedules", "anchors": ["src/core/model/xmmModel.hpp:checkTraining", "src/core/model/xmmModel.hpp:joinTraining", "src/core/model/xmmModel.hpp:toJson", "src/models/hmm/xmmHierarchicalHmm.cpp:toJson"]}
{"id": "C55", "title": "Class bookkeeping", "statement": "size(), hasClass and getIndex agree: labels are indexed 0..n-1 in label order, removeClass removes exactly that class and throws out_of_range for an unknown one, clear removes all.", "quantifier": "every history of class additions and removals", "why_tests_cant": "histories over unbounded label sets", "anchors": ["src/core/model/xmmModel.hpp:size", "src/core/model/xmmModel.hpp:hasClass", "src/core/model/xmmModel.hpp:getIndex", "src/core/model/xmmModel.hpp:removeClass", "src/core/model/xmmModel.hpp:clear"]}
{"id": "C56", "title": "A copied model is independent and equal", "statement": "Copying a trained model gives one that filters identically, and later parameter changes on the copy take effect on the copy and do not affect the source.", "quantifier": "every trained model and later history", "why_tests_cant": "aliasing across later histories", "anchors": ["src/core/model/xmmModel.hpp:Model(Model const&)", "src/core/model/xmmModel.hpp:operator="]}
{"id": "C57", "title": "GMM and HMM JSON round-trip", "statement": "fromJson(toJson(m)) restores every class with its parameters, mixture coefficients, Gaussian components, transitions, prior and exit probabilities, and the top-level parameters.", "quantifier": "every trained model", "why_tests_cant": "all structures", "anchors": ["src/models/gmm/xmmGmmSingleClass.cpp:toJson", "src/models/hmm/xmmHmmSingleClass.cpp:toJson", "src/models/hmm/xmmHierarchicalHmm.cpp:toJson", "src/core/model/xmmModel.hpp:toJson"]}
{"id": "C58", "title": "Removing phrases removes exactly those phrases", "statement": "removePhrase(k) removes exactly the phrase at index k; removePhrasesOfClass(l) terminates and removes exactly the phrases labelled l; all other phrases keep their index and content.", "quantifier": "every reachable training set, every index and label", "why_tests_cant": "the removal loop edits the container it iterates over; all contents must be covered", "anchors": ["src/core/trainingset/xmmTrainingSet.cpp:removePhrase", "src/core/trainingset/xmmTrainingSet.cpp:removePhrasesOfClass"]}
{"id": "C59", "title": "Output covariance is the conditional covariance", "statement": "After a successful updateInverseCovariance on a bimodal distribution the output covariance is S_oo - S_oi * inverse(S_ii) * S_io, in both covariance modes.", "quantifier": "every bimodal distribution, all dimensions", "why_tests_cant": "all matrices", "anchors": ["src/core/distributions/xmmGaussianDistribution.cpp:updateOutputCovariance"]}
{"id": "C60", "title": "Likelihood is the normal density", "statement": "After a successful updateInverseCovariance, without rounding, likelihood(x) is the density of the normal distribution with the distribution's mean and covariance, raised to 1e-180 where it is smaller; likelihood_input is the density of its input marginal.", "quantifier": "every distribution with positive definite covariance and every observation", "why_tests_cant": "all real observations and covariances", "anchors": ["src/core/distributions/xmmGaussianDistribution.cpp:likelihood", "src/core/distributions/xmmGaussianDistribution.cpp:likelihood_input", "src/core/distributions/xmmGaussianDistribution.cpp:updateInverseCovariance"]}
{"id": "C61", "title": "Bimodal likelihood is the joint likelihood", "statement": "On a bimodal distribution likelihood_bimodal(x, y) equals likelihood of the frame x followed by y, bit for bit, whatever rounding does.", "quantifier": "every bimodal distribution, every input and output, every floating-point arithmetic", "why_tests_cant": "all inputs and every rounding behaviour", "anchors": ["src/core/distributions/xmmGaussianDistribution.cpp:likelihood_bimodal", "src/core/distributions/xmmGaussianDistribution.cpp:likelihood"]}
{"id": "C62", "title": "Regularisation adds exactly its offsets to the variances", "statement": "regularize(r) on a Gaussian distribution returns normally, adds r[d] to the variance of every dimension d, leaves every covariance between different dimensions and everything else unchanged, and so increases the quadratic form of the covariance by at least the smallest offset times the squared norm.", "quantifier": "all dimensions, both covariance modes, all covariances and offsets", "why_tests_cant": "quantifies over all dimensions and real matrices", "anchors": ["src/core/distributions/xmmGaussianDistribution.cpp:regularize"]}
{"id": "C63", "title": "Adding a phrase changes exactly one index of one training set", "statement": "addPhrase(index, label) or addPhrase(index, phrase) returns normally, stores at that index a new phrase with the given label (with the dimensions and column names of the set, or the frames of the phrase copied), keeps every other index, every other training set and every existing phrase, makes the label index exact, and gives every class set the dimensions and column names of the whole set.", "quantifier": "all histories of calls before the addition, all indices and labels", "why_tests_cant": "quantifies over all histories", "anchors": ["src/core/trainingset/xmmTrainingSet.cpp:addPhrase", "src/core/trainingset/xmmTrainingSet.cpp:update"]}
{"id": "C64", "title": "The dimensions of a Gaussian distribution respect their limits", "statement": "After any history of changes of dimension and dimension_input, accepted or rejected: the dimension is at least 1 (2 if bimodal), a smaller one is rejected with domain_error without effect, an input dimension not below the dimension is rejected without effect, any other value is stored, and the vectors have the sizes given by the dimensions.", "quantifier": "all constructor arguments and all histories of changes", "why_tests_cant": "quantifies over all histories", "anchors": ["src/core/distributions/xmmGaussianDistribution.cpp:onAttributeChange", "src/core/distributions/xmmGaussianDistribution.cpp:allocate"]}
{"id": "C65", "title": "k-means never increases the total squared distance", "statement": "One iteration of k-means does not increase the sum over all frames of the squared distance to the nearest center, even when clusters become empty.", "quantifier": "all data, dimensions, cluster counts and centers", "why_tests_cant": "real-valued inequality over all data", "anchors": ["src/models/kmeans/xmmKMeans.cpp:updateCenters"]}
{"id": "C66", "title": "Biased initialisation segments the first phrase", "statement": "With biased initialisation each center starts at the mean of its segment of the first phrase: with n = frames / clusters (integer division), center k is the mean of frames k*n .. (k+1)*n-1; with fewer frames than clusters all centers start at the origin. No read leaves the phrase. With random initialisation each coordinate starts at the standard deviation of that dimension times 2r-1 for a draw r in [0,1], hence between minus and plus one standard deviation.", "quantifier": "all phrases, dimensions and cluster counts", "why_tests_cant": "all lengths, including those not divisible by the number of clusters", "anchors": ["src/models/kmeans/xmmKMeans.cpp:initClustersWithFirstPhrase"]}
{"id": "C67", "title": "An EM update computes the weighted statistics", "statement": "One training update of a class of a mixture model replaces each mixture coefficient by the average responsibility of its component, each mean by the responsibility-weighted mean of all frames and each covariance by the responsibility-weighted covariance plus the regularisation on the diagonal, and reports the log-likelihood of the data under the previous parameters; it never accesses memory out of bounds, and with a regularisation of at least 1e-9 it never fails.", "quantifier": "all training data, all parameters, all iterations", "why_tests_cant": "the claim is about every data set and every iteration count; a test compares a few data sets with a reference implementation within a tolerance", "anchors": ["src/models/gmm/xmmGmmSingleClass.cpp: SingleClassGMM::emAlgorithmUpdate, addCovarianceOffset, updateInverseCovariances"]}
{"id": "C68", "title": "A regularised covariance is always inverted with the right determinant", "statement": "A symmetric covariance matrix whose quadratic form is at least 1e-9 times the squared length is always inverted, and the determinant used in the likelihood is its determinant, so the likelihood is the normal density.", "quantifier": "all symmetric matrices of every dimension with that bound", "why_tests_cant": "the pivoting depends on all entries, and the failures (exception, wrong sign of the determinant) occur only on particular matrices", "anchors": ["src/core/common/xmmMatrix.hpp: Matrix::gauss_jordan_inverse, Matrix::pinv", "src/core/distributions/xmmGaussianDistribution.cpp: GaussianDistribution::updateInverseCovariance, likelihood"]}
{"id": "C69", "title": "The output of a multi-class regression is that of the likeliest class or the weighted average", "statement": "After filter() on a bimodal mixture model, with the Likeliest estimator the output values and covariance are those of the likeliest class; with the Mixture estimator they are the sums of those of the classes weighted by the normalised smoothed likelihoods.", "quantifier": "all numbers of classes and components, all observations", "why_tests_cant": "all models and observations; reading past a vector often goes unnoticed in a test", "anchors": ["src/models/gmm/xmmGmm.cpp:filter"]}
{"id": "C70", "title": "Smoothed likelihood of a hidden Markov model is the average over the likelihood window", "statement": "After n calls of filter() on a hidden Markov model since reset(), the log-likelihood of each class is the average of the logs of its last min(n, likelihood_window) instantaneous likelihoods.", "quantifier": "every window length and observation sequence", "why_tests_cant": "history length unbounded", "anchors": ["src/models/hmm/xmmHmmSingleClass.cpp:filter, updateResults", "src/models/hmm/xmmHierarchicalHmm.cpp:filter"]}
{"id": "C71", "title": "Filtering with hidden Markov models after reset does not depend on the past", "statement": "After reset() of a hidden Markov model, the results for a non-empty observation sequence are the same whatever was filtered before.", "quantifier": "all earlier and later observation sequences", "why_tests_cant": "pairs of unbounded histories", "anchors": ["src/models/hmm/xmmHierarchicalHmm.cpp:reset, forward_init", "src/models/hmm/xmmHmmSingleClass.cpp:reset, forward_init"]}
{"id": "C72", "title": "Output of a hidden Markov model is an average of its states' predictions", "statement": "In a bimodal hidden Markov model the output after each frame is a weighted average of the outputs predicted by the states for that frame, with non-negative weights that sum to 1: the state probabilities (Full), those of the window renormalised (Windowed), or the likeliest state alone (Likeliest).", "quantifier": "all bimodal models, estimators and observation sequences", "why_tests_cant": "It ranges over all models and sequences; tests compare a few outputs only.", "anchors": ["src/models/hmm/xmmHmmSingleClass.cpp: SingleClassHMM::regression, SingleClassHMM::updateAlphaWindow"]}
{"id": "C73", "title": "An iteration of hidden Markov model training re-estimates all parameters from the posteriors and cannot fail", "statement": "One iteration of the Baum-Welch training of a hidden Markov model on any training set whose frames have the dimension of the model returns the log-likelihood of the training set under the current parameters, sets the mixture of each state (coefficients, means, covariances plus regularisation) to the weighted estimates with the posterior probabilities of its components, the start probabilities (ergodic models) to the mean posteriors of the first frames and the transition probabilities to the expected transition counts over the expected state counts (regularised in left-right models), changes no other parameter, and never throws.", "quantifier": "every training set (number and lengths of phrases, values), every current parameters with distributions not vanishing, every number of states, components, dimensions, covariance and transition modes", "why_tests_cant": "The posteriors are sums over all state paths of phrases of any length; a test checks a few sequences and tolerances, and cannot show that no training set makes an iteration fail.", "anchors": ["src/models/hmm/xmmHmmSingleClass.cpp: SingleClassHMM::emAlgorithmUpdate, baumWelch_forwardBackward, baumWelch_gammaSum, baumWelch_estimateMixtureCoefficients, baumWelch_estimateMeans, baumWelch_estimateCovariances, baumWelch_estimatePrior, baumWelch_estimateTransitions"]}
{"id": "C74", "title": "Hierarchical forward recursion", "statement": "After reset() of a hierarchical model, the forward variables after each observation follow from those before it and from the likelihoods of the observation in the states: at the first observation each class starts with its prior probability, then a path stays in its class, or leaves it to another class or to the root, by the transition, exit and prior probabilities; the reported instantaneous likelihood of each class is the sum of the joint weights of its states.", "quantifier": "all trained hierarchical models, all sequences of observations", "why_tests_cant": "unbounded sequences, all numbers of classes and states", "anchors": ["src/models/hmm/xmmHierarchicalHmm.cpp:forward_init, forward_update, likelihoodAlpha, filter"]}
{"id": "C75", "title": "Exit likelihood and exit ratio of a class", "statement": "From the second observation after reset(), the exit ratio of a class of a hierarchical model is the share of its forward variables that leaves the class, it is in [0,1), and the exit likelihood is the exit ratio times the instantaneous likelihood.", "quantifier": "all trained hierarchical models and sequences of two observations or more", "why_tests_cant": "all models and sequences", "anchors": ["src/models/hmm/xmmHierarchicalHmm.cpp:forward_update"]}
{"id": "C76", "title": "The likelihoods of the classes average the likelihoods of the states", "statement": "In a hierarchical model whose transition probabilities sum to 1, the sum of the instantaneous likelihoods of the classes is an average of the likelihoods of the observation in the states, with weights that sum to 1.", "quantifier": "all trained hierarchical models and sequences", "why_tests_cant": "all models and sequences", "anchors": ["src/models/hmm/xmmHierarchicalHmm.cpp:forward_update"]}
{"id": "C77", "title": "The classes are those of the calls", "statement": "After any history of training on a set, training one class, removing a class, clearing and resetting, a hierarchical model has exactly the classes that were trained and not removed, cleared or lost by a failed training since, in increasing order of their labels; removing a class that does not exist throws std::out_of_range and changes nothing.", "quantifier": "every history of class-set operations, every outcome of the training of each class", "why_tests_cant": "histories and training outcomes are unbounded", "anchors": ["src/core/model/xmmModel.hpp:train", "src/core/model/xmmModel.hpp:removeClass", "src/core/model/xmmModel.hpp:joinTraining", "src/core/model/xmmModel.hpp:addModelForClass"]}
{"id": "C78", "title": "The class set can be changed in the non-hierarchical mode", "statement": "With hierarchical = false, training one more class of a trained model, or removing one of its classes, returns and leaves a model that can filter.", "quantifier": "every trained model, every label", "why_tests_cant": "the failure depends on the mode and on the history of resets", "anchors": ["src/models/hmm/xmmHierarchicalHmm.cpp:updateExitProbabilities", "src/models/hmm/xmmHierarchicalHmm.cpp:addModelForClass", "src/models/hmm/xmmHierarchicalHmm.cpp:removeClass"]}
{"id": "C79", "title": "Reported training progression stays between 0 and 1", "statement": "Every Run event of a class training carries a progression value in (0,1] that never decreases during one training.", "quantifier": "every objective sequence the EM step can produce, every choice of minimum and maximum iteration numbers", "why_tests_cant": "every iteration count and parameter combination", "anchors": ["src/core/model/xmmModelSingleClass.cpp:train"]}
{"id": "C80", "title": "A copied Gaussian distribution follows later changes of its parameters", "statement": "After a Gaussian distribution has been copied, assigned or read from JSON, changing its dimension, input dimension or covariance mode has the same effect on it as it would have had on the source, and involves no other object.", "quantifier": "every source, every later history of parameter changes, whether the source still exists or not", "why_tests_cant": "callbacks bound to another object only show up after later changes, and only for some object lifetimes", "anchors": ["src/core/distributions/xmmGaussianDistribution.cpp:GaussianDistribution(GaussianDistribution const&)", "src/core/distributions/xmmGaussianDistribution.cpp:operator=", "src/core/distributions/xmmGaussianDistribution.cpp:fromJson", "src/core/common/xmmAttribute.hpp:Attribute"]}
{"id": "C81", "title": "Training a GMM always yields a class that can recognise", "statement": "For every admissible configuration and every non-empty training set of the right dimension, train on a GMM class returns with exactly one final event: Cancel only if a cancellation was requested, Error only if the log-likelihoods of the last two iterations are both 0, otherwise Done. Unless it was cancelled, allocation, initialisation and every iteration ran without exception and without reading outside the arrays, and filter is defined on the class for every observation. It is done after max_iterations iterations (1000 at most) if that is not below min_iterations, otherwise after the first iteration from the number min_iterations on that changes the log-likelihood by at most percent_chg per cent.", "quantifier": "every number of components, dimension, covariance mode, single-modality or bimodal, every training set with at least one frame, every absolute regularisation of at least 1e-9, every bound on the iterations, every moment of a cancellation request", "why_tests_cant": "one training set never shows that no degenerate data (constant frames, short phrases, repeated frames) breaks allocation, initialisation or some later iteration", "anchors": ["src/models/gmm/xmmGmmSingleClass.cpp:emAlgorithmInit", "src/models/gmm/xmmGmmSingleClass.cpp:initMeansWithKMeans", "src/models/gmm/xmmGmmSingleClass.cpp:initCovariances_fullyObserved", "src/models/gmm/xmmGmmSingleClass.cpp:emAlgorithmUpdate", "src/core/model/xmmModelSingleClass.cpp:train"]}
{"id": "C82", "title": "GMM training starts from k-means centers and segment covariances", "statement": "Before the first EM iteration the components have equal weights, their means are the centers found by k-means started from the segments of the data, and component c has the regularised covariance of the c-th segment of all phrases, so that the components differ whenever the data do.", "quantifier": "every configuration and training set", "why_tests_cant": "depends on all lengths of phrases relative to the number of components", "anchors": ["src/models/gmm/xmmGmmSingleClass.cpp:initMeansWithKMeans", "src/models/gmm/xmmGmmSingleClass.cpp:initCovariances_fullyObserved", "src/models/kmeans/xmmKMeans.cpp:initClustersWithFirstPhrase"]}
{"id": "C83", "title": "Training a hidden Markov model always ends with one outcome, and after Done the class can recognise", "statement": "Training a class of a hidden Markov model with admissible parameters, on any training set of the right dimension in which some phrase has at least as many frames as there are states, never throws and never reads out of bounds: every phrase is cut in as many segments of equal length as there are states, state n starts from the means and covariances of the mixture that training yields on the segments number n, with the default transition probabilities; then exactly one final event is sent: Cancel only if a cancellation was requested, Error only if the last two log-likelihoods are both 0, or Done. After Done the transition probabilities are stochastic and the class can recognise, on its own or in a hierarchy. It is done after max_iterations iterations (1000 at most) if that is not below min_iterations, otherwise after the first iteration from the number min_iterations on that changes the log-likelihood by at most percent_chg per cent.", "quantifier": "all admissible parameters, all training sets (phrases of any lengths), all bounds on the number of iterations, all moments of a cancellation request, all likelihood functions that satisfy the floor of C29", "why_tests_cant": "The property quantifies over all training sets and parameters, all numbers of iterations and all moments of a cancellation; a test trains on a few data sets, and misses e.g. that phrases shorter than the number of states make every training fail.", "anchors": ["src/models/hmm/xmmHmmSingleClass.cpp: emAlgorithmInit, initMeansCovariancesWithGMMEM, emAlgorithmUpdate, emAlgorithmTerminate", "src/core/model/xmmModelSingleClass.cpp: train"]}
{"id": "C84", "title": "One component per state or class: the normal distribution of the data", "statement": "A mixture trained with one Gaussian component is the normal distribution of the training set: its weight is 1, its mean is the average of all frames and its covariance that of the frames plus the regularisation on the diagonal, whatever the iteration limits and the arrangement of the frames in phrases. A hidden Markov model with one component per state starts from the normal distributions of its segments.", "quantifier": "every admissible configuration with one component, every training set, every cancellation", "why_tests_cant": "all data sets, dimensions and numbers of iterations", "anchors": ["src/models/gmm/xmmGmmSingleClass.cpp:emAlgorithmUpdate", "src/models/gmm/xmmGmmSingleClass.cpp:emAlgorithmInit", "src/models/hmm/xmmHmmSingleClass.cpp:initMeansCovariancesWithGMMEM", "src/core/model/xmmModelSingleClass.cpp:train"]}
{"id": "C85", "title": "Without hierarchy every class is filtered on its own", "statement": "When the parameter `hierarchical` of a hidden Markov model with several classes is false, reset() followed by any stream of filter() reports for each class the likelihoods, state probabilities, progress, likeliest state and output that the class would report if it was used alone; the model's results are computed from those of its classes.", "quantifier": "every trained model, number of classes, states, components and window, and every stream of observations", "why_tests_cant": "all models and unbounded streams; the mode is only a flag that several functions of the model and the class consult", "anchors": ["src/models/hmm/xmmHierarchicalHmm.cpp:filter", "src/models/hmm/xmmHierarchicalHmm.cpp:reset", "src/models/hmm/xmmHmmSingleClass.cpp:filter", "src/models/hmm/xmmHmmSingleClass.cpp:reset"]}
{"id": "C86", "title": "Loading JSON is all or nothing", "statement": "fromJson of any JSON either throws, and then the object is unchanged, or it returns, and then the object is coherent: it has the values of the file, sizes that agree with the declared dimensions, and values within the limits of the attributes. It never corrupts memory.", "quantifier": "every JSON document (not only those written by the library), every object and every state of it", "why_tests_cant": "all documents, including malformed ones; a test only loads what it has written", "anchors": ["src/core/trainingset/xmmPhrase.cpp:fromJson", "src/core/distributions/xmmGaussianDistribution.cpp:fromJson", "src/models/gmm/xmmGmmSingleClass.cpp:fromJson", "src/models/gmm/xmmGmmParameters.cpp:fromJson", "src/core/model/xmmModelSharedParameters.cpp:fromJson", "src/core/common/xmmJson.cpp:json2vector", "src/core/trainingset/xmmTrainingSet.cpp:fromJson", "src/models/hmm/xmmHmmSingleClass.cpp:fromJson", "src/core/model/xmmModelConfiguration.hpp:fromJson", "src/core/model/xmmModel.hpp:fromJson", "src/models/hmm/xmmHierarchicalHmm.cpp:fromJson"]}
{"id": "C87", "title": "The ellipse of a distribution", "statement": "toEllipse(d1, d2) returns the confidence ellipse of the distribution on the two dimensions: centered at the mean, along the eigenvectors of the covariance, through the points at one Mahalanobis distance, and changes nothing; fromEllipse(e, d1, d2) makes the distribution have that ellipse, keeps the means and covariances of the other dimensions, and updates the inverse; the two are inverse to each other; dimensions out of range throw.", "quantifier": "every distribution, mode, pair of dimensions and ellipse", "why_tests_cant": "continuous parameters; the boundary cases (axes parallel to the dimensions) are where the formulas divide by zero", "anchors": ["src/core/distributions/xmmGaussianDistribution.cpp:toEllipse", "src/core/distributions/xmmGaussianDistribution.cpp:fromEllipse"]}
{"id": "C88", "title": "Cancelling a training ends it cleanly", "statement": "cancelTraining() called while the classes of a model are being trained returns; when it returns every class has notified exactly one outcome, the model keeps exactly the classes whose outcome is Done (and those this training did not touch), no class and no thread is in training, Alldone has been notified exactly once and last, and later trainings are not affected. It touches no class that was already removed from the model. cancelTraining(label) stops the class `label` and leaves the training of the other classes to end as if it had not been called. On a model that is not in training both calls return and change nothing.", "quantifier": "every number of classes, every outcome and number of iterations of each class, every interleaving of the training threads, the detached joining thread, the thread in train and the cancelling thread", "why_tests_cant": "the failures need a class to end between two adjacent memory accesses of the cancelling thread; a test meets such a schedule by chance only, and the number of schedules is unbounded", "anchors": ["src/core/model/xmmModel.hpp: Model::cancelTraining, Model::joinTraining, Model::onTrainingEvent", "src/core/model/xmmModelSingleClass.cpp: cancelTraining, cancelTrainingIfRequested"]}
{"id": "C89", "title": "A copy of a k-means model, and a saved one, answers like the original", "statement": "A KMeans object built by copying another one, one that is assigned another one, and one that loads what another one saved, report after reset() for every observation the distances and the nearest cluster that the original reports, accept and refuse the same observations, and can be trained like the original.", "quantifier": "every configuration and every set of centers, every target of the assignment, every observation, every training set and sequence of random numbers", "why_tests_cant": "the answers range over all observations and centers; whether a null pointer is met depends on the history of the object (built, copied, assigned, trained, loaded)", "anchors": ["src/models/kmeans/xmmKMeans.cpp: KMeans(KMeans const&), operator=, toJson, fromJson, filter, train"]}
{"id": "C90", "title": "A model loaded from its JSON recognises like the original", "statement": "A GMM or a hierarchical HMM constructed from what toJson() of a trained model has written reports, after reset() and for every stream of observations passed to filter(), the results that the original reports after reset(): the likelihoods of the classes, their normalised and smoothed values, the likeliest class, the progress in each class and the output of the regression.", "quantifier": "every trained model that can be saved (any number of classes, components, states, any parameters and configuration), every stream of observations", "why_tests_cant": "the streams and the models are unbounded; the loaded object is assembled by constructors, copies and attribute assignments, each of which may drop a member that recognition reads much later", "anchors": ["src/core/model/xmmModel.hpp: Model(Json::Value const&), toJson, fromJson", "src/models/gmm/xmmGmm.cpp: GMM(Json::Value const&), reset, filter", "src/models/hmm/xmmHierarchicalHmm.cpp: HierarchicalHMM(Json::Value const&), reset, filter", "src/core/distributions/xmmGaussianDistribution.cpp: fromJson, likelihood, regression"]}
{"id": "C91", "title": "Loading JSON into an existing model replaces it", "statement": "fromJson on a model that exists either throws, and then this model and all others are as before; or it returns, and then the model is the one that was saved, with the same recognition, its parameters are in effect on its classes, and the listeners of the model are still registered.", "quantifier": "every program and history, every JSON document, every target model", "why_tests_cant": "what matters is the aliasing of the parameters and what is left of the former model; it depends on both models and on what is done later", "anchors": ["src/core/model/xmmModel.hpp:fromJson", "src/core/model/xmmModel.hpp:operator=", "src/models/hmm/xmmHierarchicalHmm.cpp:fromJson", "src/core/common/xmmEvents.hpp:EventGenerator"]}
{"id": "C92", "title": "A call of train either trains the model or leaves it as it was", "statement": "train(trainingSet) and train(trainingSet, label) either return, and then the model has the dimensions and the column names of the training set, exactly the classes whose training succeeded (with a label: that class and the classes it had before), and is ready for use; or they throw, and then the classes, the parameters and the readiness of the model are as before the call.", "quantifier": "every history of the parameters of the model, every set of classes it has, whether or not it is in training, every training set, every outcome of the training of the classes", "why_tests_cant": "the exceptions come from the setters of parameters whose limits depend on the whole history of calls; the states left by an exception multiply with it", "anchors": ["src/core/model/xmmModel.hpp:train", "src/core/model/xmmModel.hpp:cancelTraining", "src/core/model/xmmModel.hpp:clear", "src/core/model/xmmModelSharedParameters.hpp:SharedParameters::onAttributeChange", "src/core/common/xmmAttribute.hpp:Attribute::set"]}
{"id": "C93", "title": "The message of a JSON exception can be read", "statement": "The text that what() of a JsonException returns is the documented message, naming the kind of the error and the nodes at which it occurred, however often the exception has been caught, thrown again from an enclosing node and copied; it can be read as long as the exception lives.", "quantifier": "every kind of error, every sequence of node names, rethrows and copies", "why_tests_cant": "the defect is the lifetime of a string: a test that reads the stale characters often finds them intact", "anchors": ["src/core/common/xmmJson.hpp:JsonException::what", "src/core/common/xmmJson.hpp:JsonException"]}
{"id": "C94", "title": "An iteration of the training of a mixture lowers the log-likelihood at most by the effect of the regularisation and of the floor", "statement": "While a Gaussian mixture trains, each iteration reports the log-likelihood of the training set under the parameters it starts from. From one iteration to the next this number never falls, except by the effect of the two deliberate distortions of the algorithm: half of the decrease, per frame, of the share of the regularisation in the covariances (at most half the dimension per frame; next to nothing when the regularisation is small compared with the variances), and the excess of the densities that were raised to 1e-180 (nothing when none is below). With a regularisation that matters the log-likelihood does fall in some iterations.", "quantifier": "every mixture (any number of components, any dimension, both covariance modes, one modality or two), every training set, every number of iterations, regularisation at least 1e-9, in exact real arithmetic", "why_tests_cant": "monotone convergence is a statement about all data and all starting points; a test sees one run, and rounding hides small decreases", "anchors": ["src/models/gmm/xmmGmmSingleClass.cpp:SingleClassGMM::emAlgorithmUpdate", "src/models/gmm/xmmGmmSingleClass.cpp:SingleClassGMM::addCovarianceOffset", "src/core/distributions/xmmGaussianDistribution.cpp:GaussianDistribution::likelihood", "src/core/model/xmmModelSingleClass.cpp:SingleClassProbabilisticModel::train"]}
{"id": "C95", "title": "An iteration of the Baum-Welch algorithm lowers the log-likelihood at most by three known effects", "statement": "While a hidden Markov model trains, each iteration reports the log-likelihood of the training set under the parameters it starts from. Under the parameters it leaves (what the next iteration reports) this number is never lower, except by three effects: half of the decrease, per frame, of the share of the regularisation in the covariances (at most half the dimension per frame), the excess of the densities that were raised to 1e-180 (nothing when none is below), and the denominators of the new transition probabilities, which count all frames in a state, with 2e-5 more, where only frames followed by another one have a transition (at most 1 for each phrase and 2e-5 for each state, when the rows sum to at most 1). The third effect is not negligible: a model that already fits its data loses log-likelihood.", "quantifier": "every hidden Markov model (Ergodic or LeftRight, any number of states and components, any dimension, both covariance modes, one modality or two), every training set, every iteration, regularisation at least 1e-9, in exact real arithmetic", "why_tests_cant": "monotone convergence is a statement about all data and all starting points; a test sees one run", "anchors": ["src/models/hmm/xmmHmmSingleClass.cpp:SingleClassHMM::emAlgorithmUpdate", "src/models/hmm/xmmHmmSingleClass.cpp:SingleClassHMM::baumWelch_estimateMeans", "src/models/hmm/xmmHmmSingleClass.cpp:SingleClassHMM::baumWelch_estimateTransitions", "src/core/model/xmmModelSingleClass.cpp:SingleClassProbabilisticModel::train"]}
{"id": "C96", "title": "A broken sample carries no evidence and does no lasting harm", "statement": "The likelihood of an observation in which a sample is NaN or infinite is exactly 1e-180, the smallest likelihood there is, whatever the distribution and the other samples. So a unimodal model that hears such an observation goes on: a mixture model reports the likelihood 1e-180 and the same normalised likelihood for all classes, and reports what it would have reported without the broken observations as soon as likelihood_window further ones have been heard; a hidden Markov model moves its state probabilities by one transition, and they stay a distribution; a hierarchical model updates its forward variables as for an observation that is equally likely everywhere.", "quantifier": "every Gaussian distribution (both covariance modes, any dimension, determinant not 0), every observation with at least one NaN or infinite sample, every rounding of the finite results; every usable unimodal model and every stream before and after, in real arithmetic", "why_tests_cant": "which sample is broken, and in which of the nested sums of which covariance mode it ends up, has no finite list; and whether anything of it survives in the state of the model shows only after all continuations", "anchors": ["src/core/distributions/xmmGaussianDistribution.cpp:GaussianDistribution::likelihood", "src/core/distributions/xmmGaussianDistribution.cpp:GaussianDistribution::likelihood_input", "src/core/distributions/xmmGaussianDistribution.cpp:GaussianDistribution::likelihood_bimodal", "src/models/gmm/xmmGmmSingleClass.cpp:SingleClassGMM::filter", "src/models/hmm/xmmHmmSingleClass.cpp:SingleClassHMM::filter", "src/models/hmm/xmmHierarchicalHmm.cpp:HierarchicalHMM::filter"]}
{"id": "C97", "title": "A mixture model remembers exactly the last likelihood_window observations", "statement": "After a stream of at least likelihood_window observations, a mixture model with one or several classes reports results (likelihoods, normalised likelihoods, smoothed log-likelihoods, likeliest class and, if it is bimodal, outputs) that depend on that stream only: any two models with the same parameters report the same, whatever each of them heard before and whether or not it was reset.", "quantifier": "every trained mixture model, every pair of histories, every stream that is at least as long as the window of every class", "why_tests_cant": "the claim compares all pairs of histories, of any length; the buffer wraps around at a place that depends on them", "anchors": ["src/models/gmm/xmmGmm.cpp:GMM::filter", "src/models/gmm/xmmGmmSingleClass.cpp:SingleClassGMM::filter", "src/core/common/xmmCircularbuffer.hpp:CircularBuffer::push", "src/core/model/xmmModelSingleClass.hpp:SingleClassProbabilisticModel::updateResults"]}
{"id": "C98", "title": "Training and recognition do not depend on the axes", "statement": "Training a mixture, or a left-right hidden Markov model, on data whose columns are in another order, or have the opposite sign, or are measured from another origin, gives the same model in the new axes: every iteration reports the same log-likelihood and the training stops at the same iteration, the weights and the transition probabilities are the same, the means and covariances are those of the transformed columns. Recognising transformed observations with it gives the same instantaneous and smoothed likelihoods, progress and state probabilities as recognising the original observations with the original model. With two modalities, if the input columns stay input columns, the outputs that a mixture predicts and their covariances are the original ones in the new axes.", "quantifier": "every training set, every permutation and change of sign of the columns, every translation, every number of iterations, every stream of observations (exact arithmetic)", "why_tests_cant": "The data, the transformation and the number of iterations are unbounded; an example shows one dataset, and rounding hides whether a small difference is systematic.", "anchors": ["src/models/gmm/xmmGmmSingleClass.cpp:SingleClassGMM::emAlgorithmInit", "src/models/gmm/xmmGmmSingleClass.cpp:SingleClassGMM::emAlgorithmUpdate", "src/models/gmm/xmmGmmSingleClass.cpp:SingleClassGMM::initMeansWithKMeans", "src/models/kmeans/xmmKMeans.cpp:KMeans::initClustersWithFirstPhrase", "src/models/kmeans/xmmKMeans.cpp:KMeans::updateCenters", "src/core/distributions/xmmGaussianDistribution.cpp:GaussianDistribution::likelihood", "src/core/distributions/xmmGaussianDistribution.cpp:GaussianDistribution::regression", "src/models/gmm/xmmGmmSingleClass.cpp:SingleClassGMM::regression", "src/models/hmm/xmmHmmSingleClass.cpp:SingleClassHMM::emAlgorithmInit", "src/models/hmm/xmmHmmSingleClass.cpp:SingleClassHMM::emAlgorithmUpdate", "src/models/hmm/xmmHmmSingleClass.cpp:SingleClassHMM::filter"]}
{"id": "C99", "title": "A file saved again by another JSON writer loads the same", "statement": "fromJson of a phrase, a training set, a Gaussian distribution, the parameters, a class or a whole GMM or HMM does not depend on how whole numbers and flags are written in the JSON value: 2 and 2.0 are interchangeable everywhere, and so are true, 1 and 1.0, and false, 0 and 0.0. The loaded object, the exception and everything else are the same, as long as the texts (labels and column names) are unchanged.", "quantifier": "every JSON value and every way of writing the whole numbers and flags in it, every object that is loaded into", "why_tests_cant": "JavaScript and most other writers print 2.0 as 2, so every file that passes through another program mixes integers and reals in places a test cannot enumerate; a reader that checks the type of one member would reject or misread some of them.", "anchors": ["src/core/common/xmmJson.cpp:json2vector", "src/core/trainingset/xmmPhrase.cpp:Phrase::Phrase(Json::Value const&)", "src/core/trainingset/xmmTrainingSet.cpp:TrainingSet::fromJson", "src/core/distributions/xmmGaussianDistribution.cpp:GaussianDistribution::fromJson", "src/core/model/xmmModelSharedParameters.cpp:SharedParameters::fromJson", "src/core/model/xmmModelConfiguration.hpp:Configuration::fromJson", "src/core/model/xmmModel.hpp:Model::fromJson", "src/models/hmm/xmmHierarchicalHmm.cpp:HierarchicalHMM::fromJson"]}
{"id": "C100", "title": "The order of the phrases does not matter, except for the first", "statement": "Training on the same phrases in another order gives the same model, as long as the first phrase stays the first (for an HMM: the first phrase that has a frame for every state). The training takes the same number of iterations, reports the same log-likelihoods and the same outcome, and the trained parameters are equal; an HMM only differs in working variables that the reset before recognition clears or overwrites, so the results of recognition are equal too. With random first centers, k-means does not even depend on which phrase is first. If another phrase becomes the first the trained model can be another one.", "quantifier": "every list of phrases of any lengths, every permutation of it that keeps the first (long enough) phrase, every configuration, every number of iterations, every moment of cancellation, every stream of samples recognised afterwards", "why_tests_cant": "Training sets are maps keyed by numbers that users assign in the order they record; that re-recording or deleting and adding a phrase leaves the model unchanged concerns all permutations of all training sets, and the sums, the k-means iterations, and every pass of EM and Baum-Welch.", "anchors": ["src/models/kmeans/xmmKMeans.cpp:KMeans::train", "src/models/kmeans/xmmKMeans.cpp:KMeans::initClustersWithFirstPhrase", "src/models/gmm/xmmGmmSingleClass.cpp:SingleClassGMM::emAlgorithmInit", "src/models/gmm/xmmGmmSingleClass.cpp:SingleClassGMM::emAlgorithmUpdate", "src/models/hmm/xmmHmmSingleClass.cpp:SingleClassHMM::emAlgorithmInit", "src/models/hmm/xmmHmmSingleClass.cpp:SingleClassHMM::emAlgorithmUpdate", "src/core/model/xmmModelSingleClass.cpp:SingleClassProbabilisticModel::train"]}
{"id": "C101", "title": "A phrase in shared memory is a window on the user's arrays", "statement": "A phrase created without its own memory reads, at every moment, what the user's connected arrays hold at that moment: its size is the connected length (the smaller one of the two modalities if the phrase is bimodal), and a value is the cell of the array that was connected last, also after the user has written to the array. Connecting again replaces the window, disconnecting closes it (size 0, no reading), record calls are refused with an exception and change nothing, and no call ever writes to the user's arrays. Phrases with their own memory refuse every connection. Changing the dimension keeps the window, unless an output array is connected to a bimodal phrase: the phrase then deletes memory it does not own.", "quantifier": "every history of connections, disconnections, attempts to record, dimension changes and writes by the user to their own arrays, every array and length, unimodal and bimodal", "why_tests_cant": "Which array a pointer designates, and whether a call frees or overwrites it, depends on the whole history of connections and on what the user does with the array in between; a test observes one history and cannot see that no cell was written.", "anchors": ["src/core/trainingset/xmmPhrase.cpp:Phrase::connect", "src/core/trainingset/xmmPhrase.cpp:Phrase::connect_input", "src/core/trainingset/xmmPhrase.cpp:Phrase::connect_output", "src/core/trainingset/xmmPhrase.cpp:Phrase::disconnect", "src/core/trainingset/xmmPhrase.cpp:Phrase::getValue", "src/core/trainingset/xmmPhrase.cpp:Phrase::getPointer", "src/core/trainingset/xmmPhrase.cpp:Phrase::onAttributeChange"]}
{"id": "C102", "title": "A training set holds exactly the takes of the recording session", "statement": "Starting from a new training set with given dimensions, after any session of calls (adding numbered takes, recording into them, clearing them, changing their labels, removing takes, removing classes, clearing the set, with exceptions caught) the set is the numbered collection of labelled recordings that the user has in mind: the classes are exactly the labels of the takes, and the set handed to the training of a class contains, in the order of their numbers, exactly the takes with that label; reading it gives exactly the complete frames that were recorded (in bimodal mode an input frame followed by the output frame with the same number). A call raises an exception exactly when the frame does not fit, and then changes nothing. Recording a take again replaces it and leaves the others alone.", "quantifier": "every valid pair of dimensions, unimodal or bimodal, every session of any length, any numbers, labels and frames, any other training sets in the program", "why_tests_cant": "The frames a class is trained on are the result of buffers that grow, maps of shared pointers, an index that is rebuilt after most calls and events that connect phrases to their set; that no frame is ever lost, duplicated or attributed to another class concerns all sessions.", "anchors": ["src/core/trainingset/xmmTrainingSet.cpp:TrainingSet::addPhrase", "src/core/trainingset/xmmTrainingSet.cpp:TrainingSet::removePhrase", "src/core/trainingset/xmmTrainingSet.cpp:TrainingSet::removePhrasesOfClass", "src/core/trainingset/xmmTrainingSet.cpp:TrainingSet::clear", "src/core/trainingset/xmmTrainingSet.cpp:TrainingSet::getPhrasesOfClass", "src/core/trainingset/xmmTrainingSet.cpp:TrainingSet::update", "src/core/trainingset/xmmTrainingSet.cpp:TrainingSet::onPhraseEvent", "src/core/trainingset/xmmPhrase.cpp:Phrase::record", "src/core/trainingset/xmmPhrase.cpp:Phrase::getValue"]}
{"id": "C103", "title": "From the recordings to recognition", "statement": "A user who opens a training set, records and edits takes in any order, trains a Gaussian mixture model on the set and then filters a stream never meets undefined behaviour or an exception, provided every class has a take with a complete frame and the attributes have valid values. After training the model is idle and can recognise; its classes are labels of takes that are in the set at the end of the session, and each class is exactly what training it alone on the complete frames of its own takes gives. A label has no class only if its training was cancelled, or if its last two log-likelihoods are both 0. On every stream of observations of the right size the likeliest class is a label the user recorded, and the normalised likelihoods are a probability distribution.", "quantifier": "every valid pair of dimensions, unimodal or bimodal, every recording session of any length, all valid settings per class, every idle model, every moment of cancellation of each class, every stream", "why_tests_cant": "The result goes through all layers: buffers, phrase events, class index, statistics, initialisation, EM, removal of failed classes, reset, filtering. A test covers one session and one data set.", "anchors": ["src/core/model/xmmModel.hpp:Model::train", "src/core/model/xmmModel.hpp:Model::joinTraining", "src/core/model/xmmModel.hpp:Model::addModelForClass", "src/core/model/xmmModelSingleClass.cpp:SingleClassProbabilisticModel::train", "src/core/trainingset/xmmTrainingSet.cpp:TrainingSet::getPhrasesOfClass", "src/core/trainingset/xmmTrainingSet.cpp:TrainingSet::standardDeviation", "src/models/gmm/xmmGmm.cpp:GMM::reset", "src/models/gmm/xmmGmm.cpp:GMM::filter"]}
{"id": "C104", "title": "A class is trained on its own takes only", "statement": "Take any two recording sessions, on any two training sets and models. If the takes with a label hold the same frames in the same order and the settings of this class are the same, then after training the class exists in both models or in neither, has the same parameters in both, and after a reset gives the same likelihoods on every stream, whatever the other takes, the other classes, the numbers of the takes and the previous contents of the models are.", "quantifier": "every two sessions, all other classes, all settings of the other classes, every moment of cancellation of the other classes, every stream", "why_tests_cant": "Independence of all other classes and of the past of the objects is a relation between two runs; a leak would only show for particular pairs of sessions.", "anchors": ["src/core/model/xmmModel.hpp:Model::train", "src/core/model/xmmModel.hpp:Model::joinTraining", "src/core/trainingset/xmmTrainingSet.cpp:TrainingSet::getPhrasesOfClass", "src/core/model/xmmModelSingleClass.cpp:SingleClassProbabilisticModel::train"]}
{"id": "C105", "title": "From the recordings to recognition with a hierarchical HMM", "statement": "A user who opens a training set, records and edits takes in any order, trains a hierarchical hidden Markov model with left-right classes on the set and then filters a stream never meets undefined behaviour or an exception, provided every class has a take with at least as many complete frames as the class has states and the attributes have valid values. After training the model is idle and can recognise without another call; its classes are labels of takes that are in the set at the end of the session, and each class has exactly the parameters that training it alone on the complete frames of its own takes gives, whatever the other classes are, which of them fail or are cancelled, and what the model held before. A label has no class only if its training was cancelled, or if its last two log-likelihoods are both 0. On every stream of observations of the right size the likeliest class is a label the user recorded, the normalised likelihoods of the classes are a probability distribution, and so are the forward variables of all states together from the first observation on.", "quantifier": "every valid pair of dimensions, unimodal or bimodal, every recording session of any length, all valid settings per class, every idle model with any previous classes, every moment of cancellation of each class, all values of uninitialised members, every stream; every two sessions", "why_tests_cant": "The result goes through all layers: buffers, phrase events, class index, segmentation of the phrases, initialisation of the states, Baum-Welch, removal of failed classes, parameters of the hierarchy, reset, filtering. A test covers one session and one data set.", "anchors": ["src/core/model/xmmModel.hpp:Model::train", "src/core/model/xmmModel.hpp:Model::joinTraining", "src/models/hmm/xmmHierarchicalHmm.cpp:HierarchicalHMM::addModelForClass", "src/models/hmm/xmmHierarchicalHmm.cpp:HierarchicalHMM::joinTraining", "src/models/hmm/xmmHierarchicalHmm.cpp:HierarchicalHMM::updateTransitionParameters", "src/models/hmm/xmmHierarchicalHmm.cpp:HierarchicalHMM::reset", "src/models/hmm/xmmHierarchicalHmm.cpp:HierarchicalHMM::filter", "src/core/model/xmmModelSingleClass.cpp:SingleClassProbabilisticModel::train", "src/models/hmm/xmmHmmSingleClass.cpp:SingleClassHMM::emAlgorithmInit", "src/core/trainingset/xmmTrainingSet.cpp:TrainingSet::getPhrasesOfClass"]}
{"id": "C106", "title": "From the recordings to recognition without hierarchy", "statement": "A user who records takes, trains a model of several left-right hidden Markov models with the parameter hierarchical off and then filters a stream gets what the classes alone give: training returns without exception, the classes of the model are the labels of the takes whose training succeeds, and on every stream of observations of the right size the likelihoods, state probabilities, progress and output reported for a class are those of the class trained alone on its own takes and used alone. The cancellation or failure of one class leaves the others usable.", "quantifier": "every valid pair of dimensions, unimodal or bimodal, every recording session of any length, all valid settings per class, every idle model with any previous classes, every moment of cancellation of each class, every non-empty stream", "why_tests_cant": "The result goes through all layers, from the buffers of the phrases to the normalised likelihoods, and the failure of a class depends on the data and on the moment of a cancellation in another thread. A test covers one session and one schedule.", "anchors": ["src/core/model/xmmModel.hpp:Model::train", "src/core/model/xmmModel.hpp:Model::joinTraining", "src/models/hmm/xmmHierarchicalHmm.cpp:HierarchicalHMM::joinTraining", "src/models/hmm/xmmHierarchicalHmm.cpp:HierarchicalHMM::updateTransitionParameters", "src/models/hmm/xmmHierarchicalHmm.cpp:HierarchicalHMM::updateExitProbabilities", "src/models/hmm/xmmHierarchicalHmm.cpp:HierarchicalHMM::reset", "src/models/hmm/xmmHierarchicalHmm.cpp:HierarchicalHMM::filter", "src/models/hmm/xmmHmmSingleClass.cpp:SingleClassHMM::updateExitProbabilities"]}
{"id": "C107", "title": "Training in the mode Sequential gives what the mode Parallel gives", "statement": "A user who changes the multithreading mode from Parallel to Sequential gets the same model: train raises no exception, each class is the one that its training alone on its own takes gives, the classes whose training fails or is cancelled are left out, and filter can be called right after train.", "quantifier": "every valid pair of dimensions, unimodal or bimodal, every recording session of any length, all valid settings per class, every model with any previous classes, every moment of cancellation of each class, every observation of the right size", "why_tests_cant": "The two modes run different code after the training of the classes, and what differs depends on which classes fail, that is on the data and on the moment of a cancellation. A test covers one session, one mode and one outcome for each class.", "anchors": ["src/core/model/xmmModel.hpp:Model::train", "src/core/model/xmmModel.hpp:Model::joinTraining", "src/core/model/xmmModel.hpp:Model::reset", "src/models/hmm/xmmHierarchicalHmm.cpp:HierarchicalHMM::joinTraining", "src/models/hmm/xmmHierarchicalHmm.cpp:HierarchicalHMM::filter", "src/models/gmm/xmmGmm.cpp:GMM::filter", "src/models/gmm/xmmGmm.cpp:GMM::reset"]}
{"id": "C108", "title": "Training one class again replaces that class only, and training class by class gives what training all classes gives", "statement": "train with a label trains that class on its takes: the class becomes the one that a new class would become, nothing of its former training remains, all other classes stay as they are and the model can recognise. Calling it for all labels of the set, in any order and any number of times, gives a model that recognises as the one of train with the whole set. A label that the set does not have and a set of other dimensions raise an exception and change nothing, and a training that fails leaves the class as it was.", "quantifier": "every valid pair of dimensions, unimodal or bimodal, every recording session of any length, all valid settings per class, every model with any classes trained before, every label, every moment of cancellation, every order and repetition of the labels, every stream", "why_tests_cant": "What a class keeps of its former training depends on everything it was trained on, configured with and used for before, and each field has to be overwritten before it is read. A test covers one history and one order of the labels.", "anchors": ["src/core/model/xmmModel.hpp:Model::train", "src/core/model/xmmModel.hpp:Model::joinTraining", "src/core/model/xmmModel.hpp:Model::addModelForClass", "src/core/model/xmmModelSingleClass.cpp:SingleClassProbabilisticModel::train", "src/models/gmm/xmmGmmSingleClass.cpp:SingleClassGMM::allocate", "src/models/gmm/xmmGmmSingleClass.cpp:SingleClassGMM::emAlgorithmInit"]}
{"id": "C109", "title": "Training one class of a hierarchy again replaces that class only, and training class by class gives the classes that training all classes gives", "statement": "For a hierarchical HMM, train with a label trains that class on its takes: the class becomes the one that a new class would become, nothing of its former training remains, all other classes stay as they are, as do the priors and transitions between the classes if the set of classes does not change, which are uniform again if it does, and the model can recognise. Calling it for all labels of the set, in any order and any number of times, gives the classes that train with the whole set gives. A label that the set does not have and a set of other dimensions raise an exception and change nothing, and a training that fails leaves the class as it was.", "quantifier": "every valid pair of dimensions, unimodal or bimodal, every recording session of any length in which every class has a take as long as its number of states, all settings of LeftRight classes per class, every hierarchical model with any classes trained before, every label, every moment of cancellation, every order and repetition of the labels", "why_tests_cant": "What a class keeps of its former training depends on everything it was trained on, configured with and used for before, and each field has to be overwritten before it is read. A test covers one history, one change of the number of states and one order of the labels.", "anchors": ["src/core/model/xmmModel.hpp:Model::train", "src/models/hmm/xmmHierarchicalHmm.cpp:HierarchicalHMM::joinTraining", "src/models/hmm/xmmHierarchicalHmm.cpp:HierarchicalHMM::addModelForClass", "src/models/hmm/xmmHmmSingleClass.cpp:SingleClassHMM::allocate", "src/models/hmm/xmmHmmSingleClass.cpp:SingleClassHMM::emAlgorithmInit", "src/models/hmm/xmmHmmSingleClass.cpp:SingleClassHMM::updateExitProbabilities"]}
{"id": "C110", "title": "Recording every phrase several times gives the same class as recording it once", "statement": "If every phrase of a class is in the training set k times instead of once, in any order as long as the first phrase is the same, training gives the same class: the same standard deviations, the same clusters, the same initial parameters, the same number of iterations, the same events and the same parameters; only the log-likelihood is k times as large.", "quantifier": "every number of copies k, every order of the copies, every training set and configuration, every pair of dimensions, unimodal or bimodal, both covariance modes, every moment of cancellation; for hidden Markov models every iteration, LeftRight or Ergodic", "why_tests_cant": "Each place that adds up frames has to divide by a number that grows in the same way, at every iteration, and the test of convergence must not depend on the size of the log-likelihood. A test compares two trainings up to a tolerance that hides a constant added on one side only.", "anchors": ["src/models/kmeans/xmmKMeans.cpp:KMeans::train", "src/models/gmm/xmmGmmSingleClass.cpp:SingleClassGMM::emAlgorithmInit", "src/models/gmm/xmmGmmSingleClass.cpp:SingleClassGMM::emAlgorithmUpdate", "src/core/model/xmmModelSingleClass.cpp:SingleClassProbabilisticModel::train", "src/models/hmm/xmmHmmSingleClass.cpp:SingleClassHMM::emAlgorithmUpdate", "src/models/hmm/xmmHmmSingleClass.cpp:SingleClassHMM::baumWelch_estimateTransitions"]}
{"id": "C111", "title": "From the recordings to the clusters", "statement": "After any recording session (phrases added, recorded, cleared, relabelled, removed), training a k-means model with at least one cluster returns normally whatever the random numbers are. Its centers are the k-means clustering of the complete frames of all phrases of the set, whatever their labels, starting from the segments of the phrase with the lowest number (Biased) or from random points within the standard deviation (Random). An empty set changes nothing. After reset(), every observation of the dimension of the session is assigned to the nearest of these centers, whatever came before; an observation of another dimension raises an exception and changes nothing. Labels do not matter.", "quantifier": "every valid pair of dimensions, unimodal or bimodal, every sequence of calls on the training set, every sequence of observations at a finite distance from the centers, every number of clusters, threshold and number of iterations, all random numbers", "why_tests_cant": "The frames pass through the memory of the phrases, the map of the set and a loop with a data-dependent end; a test fixes one session, one seed and a few observations.", "anchors": ["src/models/kmeans/xmmKMeans.cpp:KMeans::train", "src/models/kmeans/xmmKMeans.cpp:KMeans::updateCenters", "src/models/kmeans/xmmKMeans.cpp:KMeans::initClustersWithFirstPhrase", "src/models/kmeans/xmmKMeans.cpp:KMeans::randomizeClusters", "src/models/kmeans/xmmKMeans.cpp:KMeans::reset", "src/models/kmeans/xmmKMeans.cpp:KMeans::filter", "src/core/trainingset/xmmTrainingSet.cpp:TrainingSet::addPhrase"]}
{"id": "C112", "title": "The names of the classes do not matter", "statement": "If the same recording session is done with other (different) names of the classes, and the settings go with the names, training gives the same classes under the other names. On every stream, after reset(), each class gets the same likelihoods, the likeliest class is the same one under its other name, and the regression gives the same output.", "quantifier": "every recording session, every injective renaming (in particular every change of the alphabetical order of the classes), all settings, every previous contents of the two models, every moment of cancellation, every stream of observations, unimodal or bimodal", "why_tests_cant": "The order of the classes in memory follows their names, and all sums, normalisations and comparisons run in that order; a test fixes a few names, in one order.", "anchors": ["src/core/model/xmmModel.hpp:Model::train", "src/core/model/xmmModel.hpp:Model::addModelForClass", "src/core/trainingset/xmmTrainingSet.cpp:TrainingSet::addPhrase", "src/models/gmm/xmmGmm.cpp:GMM::filter", "src/models/gmm/xmmGmm.cpp:GMM::updateResults", "src/models/hmm/xmmHierarchicalHmm.cpp:HierarchicalHMM::addModelForClass"]}
{"id": "C113", "title": "From the recordings to the answers, the axes do not matter", "statement": "If all takes of a recording session are recorded in other axes (the columns in another order, some with the opposite sign, another origin; with two modalities the input columns stay input columns), the trained model (a mixture model or a hidden Markov model) has the same classes. After reset(), on every stream given in these axes, all instantaneous, smoothed and normalised likelihoods of all classes and the likeliest class are the same, and the predicted output and its covariance are the original ones in the new axes, for both estimators over the classes. With hidden Markov models the progress and the likeliest state of each class are the same too.", "quantifier": "every recording session, every permutation and change of sign of the columns, every translation, all settings of the classes, every previous contents of the two models, every stream of observations, unimodal or bimodal (exact arithmetic)", "why_tests_cant": "The sessions, the classes, the transformation and the streams are unbounded; a test shows one session in two orientations, and rounding hides whether a small difference is systematic.", "anchors": ["src/core/model/xmmModel.hpp:Model::train", "src/core/model/xmmModel.hpp:Model::addModelForClass", "src/core/trainingset/xmmTrainingSet.cpp:TrainingSet::getPhrasesOfClass", "src/core/trainingset/xmmTrainingSet.cpp:TrainingSet::standardDeviation", "src/models/gmm/xmmGmm.cpp:GMM::filter", "src/models/gmm/xmmGmm.cpp:GMM::updateResults", "src/models/gmm/xmmGmmSingleClass.cpp:SingleClassGMM::regression", "src/models/hmm/xmmHierarchicalHmm.cpp:HierarchicalHMM::filter", "src/models/hmm/xmmHierarchicalHmm.cpp:HierarchicalHMM::forward_update", "src/models/hmm/xmmHierarchicalHmm.cpp:HierarchicalHMM::updateResults", "src/models/hmm/xmmHmmSingleClass.cpp:SingleClassHMM::emAlgorithmInit", "src/models/hmm/xmmHmmSingleClass.cpp:SingleClassHMM::regression"]}
{"id": "C114", "title": "A model that has been loaded can be trained further as the original", "statement": "Training a class, new or existing, or a whole training set with a model constructed from the JSON of a trained model gives what the same call on the original gives: the call is defined, needs no reset() before, uses the parameters of the file, the classes afterwards are the same, and on every stream both models report the same.", "quantifier": "every model that can be saved with any number of classes and any settings, every recording session of any length, every label, every moment of cancellation, every content of the results, every stream", "why_tests_cant": "A loaded model differs from the original in everything that is not saved: buffers, limits, results, scratch vectors. Whether training reads any of it depends on the whole training and on all classes, for all data; a test compares one file and one session.", "anchors": ["src/core/model/xmmModel.hpp:Model::Model(Json::Value const&)", "src/core/model/xmmModel.hpp:Model::train", "src/core/model/xmmModel.hpp:Model::addModelForClass", "src/core/model/xmmModel.hpp:Model::joinTraining", "src/models/gmm/xmmGmmSingleClass.cpp:SingleClassGMM::fromJson", "src/models/gmm/xmmGmm.cpp:GMM::reset", "src/models/hmm/xmmHierarchicalHmm.cpp:HierarchicalHMM::HierarchicalHMM(Json::Value const&)", "src/models/hmm/xmmHierarchicalHmm.cpp:HierarchicalHMM::joinTraining", "src/models/hmm/xmmHmmSingleClass.cpp:SingleClassHMM::fromJson"]}
{"id": "C115", "title": "Training a model depends on the takes and the parameters only", "statement": "What train gives, for all classes or for one, is determined by the recorded takes, the parameters and, for one class, the other classes: it does not depend on what the model has learnt or recognised before, on other training sets, nor on the members that a new class leaves uninitialised. Two such models have the same classes afterwards and report the same likelihoods and results on every stream.", "quantifier": "every two models with the same parameters and any past, every content of the uninitialised members, every recording session of any length, every moment of cancellation, every stream of observations", "why_tests_cant": "The members without an initial value (window normalisation, likelihoods, progress) hold whatever the allocator returns, usually zeros in a test. That no training and no recognition ever reads them must hold for every content and all data.", "anchors": ["src/models/hmm/xmmHmmSingleClass.cpp:SingleClassHMM::SingleClassHMM", "src/models/hmm/xmmHmmSingleClass.hpp:SingleClassHMM", "src/models/gmm/xmmGmmSingleClass.cpp:SingleClassGMM::SingleClassGMM", "src/core/model/xmmModelResults.hpp:ClassResults", "src/core/model/xmmModel.hpp:Model::train", "src/core/model/xmmModel.hpp:Model::addModelForClass", "src/core/model/xmmModel.hpp:Model::joinTraining", "src/models/hmm/xmmHierarchicalHmm.cpp:HierarchicalHMM::updateTransitionParameters", "src/models/hmm/xmmHierarchicalHmm.cpp:HierarchicalHMM::reset", "src/models/hmm/xmmHierarchicalHmm.cpp:HierarchicalHMM::filter", "src/models/gmm/xmmGmm.cpp:GMM::filter"]}
