{
"C01": ["partial", "Set accepts exactly in-range values and the invariant holds for fixed limits; editing limits afterwards and NaN break it (negations proved)."],
"C02": ["proved", "Exactly one notification per accepted set, none otherwise."],
"C03": ["partial", "Copy construction drops the listener; the implicit copy assignment keeps the source's listener (negation proved)."],
"C04": ["proved", "For every positive length; pushing into a zero-length buffer is undefined behaviour (proved)."],
"C05": ["proved", "Mean of the window for every push/clear history."],
"C06": ["partial", "Resizing an empty buffer is exact; growing and shrinking lose or keep the wrong samples (negations proved)."],
"C07": ["proved", "Each listener registered at the time of the event is called once, in registration order."],
"C08": ["proved", "Transpose, product, and the size check of product."],
"C09": ["proved", "Exact arithmetic: a returned matrix is a two-sided inverse; singular matrices throw."],
"C10": ["partial", "Determinant correct up to the sign of the row swaps, exact for diagonal matrices; false in general even for positive definite input (negation proved)."],
"C11": ["proved", "Left/right inverse for tall/wide matrices of full rank (exact arithmetic)."],
"C12": ["proved", "Round trip, rejection of malformed arrays, no out-of-bounds writes."],
"C13": ["proved", "Refinement of the list machine for every history."],
"C14": ["proved", "Every history that keeps 1 <= dimension_input < dimension; outside, recording is undefined behaviour (C14_incoherent_dims_ub)."],
"C15": ["proved", "Exceptions exactly as specified and state unchanged; shared phrases always reject."],
"C16": ["proved", "getValue and getPointer* never leave the recorded cells."],
"C17": ["partial", "Heap model: copy and assignment of a phrase holding data are independent for all interleaved histories; copying an empty or shared-memory phrase is undefined behaviour (negations proved)."],
"C18": ["partial", "Bimodal exact; unimodal false after clearInput/clearOutput (negation proved), otherwise exact."],
"C19": ["partial", "Unimodal exact; bimodal false (negation and undefined behaviour proved)."],
"C20": ["proved", "Bounds attained and bounding, mean exact and between, standard deviation exact (real arithmetic), for values in the float range."],
"C21": ["proved", "Every admissible history over any number of training sets; adding a phrase while dimension_input >= dimension throws half-way (negation proved), and a destroyed training set stays registered with its phrases (undefined behaviour proved)."],
"C22": ["partial", "Proved for every history of calls through the set that keeps dimension_input below dimension; setting it to the dimension on a new set, and copy construction, break it (negations proved)."],
"C23": ["partial", "Assignment gives equal, independent training sets for every later interleaving; the copy constructor shares the phrases (negation proved) and is undefined behaviour with an empty phrase."],
"C24": ["proved", "Bounds and moments for unimodal and bimodal sets; normalisation for unimodal sets of distinct phrases. Negations proved for bimodal sets and for a phrase held twice."],
"C25": ["partial", "Phrases and training sets: toJson then the JSON constructor restores attributes, labels, names (completed with empty ones) and every complete frame; later calls on the restored object behave as on the original and the two are independent. fromJson on an existing object does the same if every phrase has a complete frame. Proved violations: fromJson of a phrase without complete frame leaves wild pointers; unimodal phrases or sets with an input dimension are refused when read; more column names than dimensions write out of bounds."],
"C26": ["partial", "Proved for every history of careful calls from a new object (dimension set, no lowering below the input dimension, no switching off, no input dimension on a unimodal object), with settability; bounds and column count for every history. False otherwise, with theorems: bimodal can never be switched off, the dimension can be lowered under the input dimension, unimodal objects accept an input dimension, a new object has no column name, assignment leaves the callbacks bound to the source."],
"C27": ["partial", "JSON round trip and assignment of k-means, GMM, HMM and shared parameters for every admissible valuation whose real values are floats. False in general, with theorems: the regularizations and the change threshold go through float and can be rejected, iteration counts from 2^31 on are unreadable, named columns of a new object cannot be saved, `hierarchical` is lost by assignment and fromJson."],
"C28": ["partial", "Proved for every history of edits, accesses and resets and every label, for GMM and HMM, including the parameters handed over by train(set) and train(set, label) and the behaviour of copies. False for one parameter: configuration[l].hierarchical of a HMM does not start equal to the default (C28_hierarchical_violated)."],
"C29": ["proved", "For any arithmetic with IEEE comparisons: a returned likelihood is finite and at least 1e-180; throws exactly on a zero determinant; never out of bounds."],
"C30": ["partial", "Both conversions and the round trip proved; setting the mode the distribution already has destroys the covariance (Full) or reads out of bounds (Diagonal): negations proved."],
"C31": ["proved", "Two-sided inverse in both modes and for the input block, determinants (up to sign in Full mode), failures, no undefined behaviour; shrinking dimension below dimension_input makes it undefined (proved)."],
"C32": ["proved", "Closed form, end-to-end with the true inverse, at the mean, affine, uncorrelated."],
"C33": ["partial", "Proved for Full mode and for dimension 1: parameters, cached values, all likelihoods and the regression. False for every distribution of two or more dimensions in Diagonal mode (its own JSON is rejected), for a unimodal one with dimension_input set, and for the conditional output covariance, which is written but not read. A malformed Diagonal JSON writes outside the vector."],
"C34": ["proved", "Exact arithmetic over the reals. filter() needs the vector of distances allocated by reset(): C34_filter_without_reset_ub. A center without frames moves to the origin."],
"C35": ["proved", "With a single cluster (the default) the convergence test is never met and all iterations are run."],
"C36": ["proved", "Exact arithmetic; C29 provides that the densities are positive and finite. All iterations: C36_all_iterations."],
"C37": ["proved", "Exact arithmetic, for all iterations through C36_all_iterations."],
"C38": ["proved", "For every mixture that can filter (C38_trained_filters: every trained one). Exact arithmetic."],
"C39": ["proved", "updateResults is the same code in xmmGmm.cpp and xmmHierarchicalHmm.cpp; C39_filter is for mixtures, C39_hierarchical for hierarchical hidden Markov models. C39_filter_without_reset_ub shows the need of reset()."],
"C40": ["proved", "Whatever the previous history of the buffer and window changes before reset()."],
"C41": ["proved", "class of a hidden Markov model outside a hierarchy, exact arithmetic"],
"C42": ["proved", "class of a hidden Markov model outside a hierarchy, exact arithmetic"],
"C43": ["proved", "class of a hidden Markov model outside a hierarchy; the cyclic transition set by reset() leaves only from the last state"],
"C44": ["partial", "Default and normalised parameters, any number of training iterations of a left-right model, and of an ergodic one as long as its re-estimated rows keep some mass, give distributions. Violated by reset() for a non-hierarchical left-right model (last row sums to 1.05) and by ergodic training on single-frame phrases (rows of zeros, 0/0)."],
"C45": ["proved", "C45_posteriors: for a phrase of any length, any model in training (LeftRight or Ergodic), gamma, gamma per mixture and epsilon are the path-sum posteriors; exact arithmetic."],
"C46": ["partial", "proved outside a hierarchy; violated in a hierarchy, where the paths that go back to the root are counted in the numerator only: C46_hierarchical_partial bounds it"],
"C47": ["partial", "proved for two states or more, in a hierarchy or not; violated for one state: the window is empty"],
"C48": ["partial", "proved from the second observation on, and at the first one if no ergodic class keeps a likelihood from before reset(); violated otherwise (C48_ergodic_violated)"],
"C49": ["partial", "Every history in the hierarchical mode (configuration.hierarchical = true), with training in joined threads or without threads; no call has undefined behaviour. Missing: Background training, and the non-hierarchical mode (see C78: the calls throw there)."],
"C50": ["partial", "Proved when the number of states is unchanged or shrinks, for the default, and for added exit points. Violated when the number of states grows: the former last state keeps its exit probability (C50_more_states_violated)."],
"C51": ["proved", "For one class and for a whole bimodal or unimodal model."],
"C52": ["partial", "Proved for every EM environment (objective values, exceptions of init/update, cancellation requests at each test) that the events are Run* followed by exactly one final event, with the iteration bound and lock release; the number of iterations is exact in both modes (C52_iterations, C52_convergence: the first small change from min_iterations on). Missing: allocate() is called outside the try block; C52_allocate_violated proves that its exception escapes with the lock held and without a final event."],
"C53": ["partial", "Proved for every number of classes, outcome and interleaving in mode Parallel (result, progress, termination), and in mode Background when no class ends before train returns. Missing: the other cases, where it is false: Sequential keeps failed classes and sends no Alldone; Background races (Alldone too early, std::terminate, unjoined thread); a spurious failure of compare_exchange_weak in mode Parallel. With a number that is no mode (accepted from a file) the model never leaves the training state (C53_unknown_mode_violated)."],
"C54": ["partial", "Proved: the training flag drops only after all outcomes (Parallel; Background when no class ends before train returns); hasClass, getIndex, filter and reset throw without effect. Missing, because false: Background race, size() answers, removeClass erases before it throws, GMM::reset resizes the results before it throws. toJson throws without effect: an HMM by the flag of the model (C54_hmm_json), a GMM, whose toJson does not look at that flag, by the class in training (C54_gmm_json, C54_class_json)."],
"C55": ["proved", "For every history of train, train(label), removeClass, clear and reset (mode Parallel) of any type of model whose class operations return; models whose class operations throw are in C77 and C78."],
"C56": ["partial", "Proved in full: no operation on the copy changes what the source sees, in every history (C56_source_unaffected); after train the copy is independent and its parameters are effective (C56_trained_copy_independent, C56_trained_copy_params). Equality of recognition proved after reset() for GMM and for hierarchical HMMs with left-right classes (C56_gmm_filters_partial, C56_hierarchical_filters_partial). Violated by the code: the classes of a copy keep the shared parameters of the source, so changes on the copy have no effect and changes on the source change the copy (C56_*_params_ineffective_violated, C56_*_source_changes_copy_violated); without reset() the copy smooths over one likelihood (C56_without_reset_violated)."],
"C57": ["partial", "Round trip proved for GMMs and hierarchical HMMs with Full covariances (or dimension 1), any history of shared parameters and configuration whose reals are floats. Refuted: Diagonal covariances in dimension >= 2 (own JSON rejected), classes retrained in non-hierarchical mode with another number of states (own JSON rejected), the parameter hierarchical (lost)."],
"C58": ["proved", "removePhrase and removePhrasesOfClass return and remove exactly the requested phrases; termination of the class loop included."],
"C59": ["proved", "Both covariance modes, exact arithmetic."],
"C60": ["partial", "Proved in Diagonal mode and in Full mode when the reported determinant is positive; a positive definite covariance can get a negative determinant and then every likelihood is 1e-180 (negation proved)."],
"C61": ["proved", "For every arithmetic and both modes."],
"C62": ["proved", "Vectors of the sizes of the dimensions (see C64)."],
"C63": ["proved", "In states where every training set has its input dimension below its dimension. After the dimension of a non-empty set changed, column_names.set throws: C63_column_names_after_dimension_throws."],
"C64": ["proved", "In a unimodal distribution whose dimension was never changed, every non-zero input dimension is rejected."],
"C65": ["proved", "Exact arithmetic over the reals."],
"C66": ["proved", "Exact arithmetic over the reals."],
"C67": ["proved", "Exact arithmetic."],
"C68": ["proved", "Exact arithmetic."],
"C69": ["partial", "Proved (C39_filter, OutputsOf) when the covariance mode of the classes is the default one; violated otherwise: C69_class_mode_ub."],
"C70": ["partial", "Proved for a class used alone and for a hierarchical model; false for a model of several classes with hierarchical = false (C70_flat_violated): every log-likelihood enters the window twice, so it covers half as many observations (C85_half_window)."],
"C71": ["partial", "proved for a class outside a hierarchy and for hierarchical models without ergodic classes; violated by ergodic classes of a hierarchy (C71_ergodic_violated)"],
"C72": ["partial", "violated for one state with the windowed estimator, where the output is 0, and in a hierarchy of two classes or more with the estimator Full; proved otherwise"],
"C73": ["proved", "Exact arithmetic; likelihood functions are a parameter that is at least 1e-180 where the determinant is not 0 (proved of the program's one over the reals). An ergodic model with an empty phrase is excluded: there the behaviour is undefined (C73_empty_phrase_ub)."],
"C74": ["proved", "the recursion of the code: `first3`, `next3` in Spec/HierHmm"],
"C75": ["proved", ""],
"C76": ["partial", "violated: the weights sum to 1 plus an excess, which is given exactly; proved: the likelihoods are sums with non-negative weights"],
"C77": ["partial", "Hierarchical mode; training in joined threads or without threads. Missing: Background training."],
"C78": ["partial", "The property is violated: C78_train_class_violated and C78_remove_class_violated prove, for every trained non-hierarchical model, that the calls throw std::runtime_error, and that the model then stays in training after train(set, label)."],
"C79": ["partial", "Proved when max_iterations >= min_iterations. C79_progression_violated: in percent-change mode (the default parameters) the progression exceeds 1 after min_iterations."],
"C80": ["partial", "Proved for every history after construction or copy construction. False after assignment (the change is recorded but nothing is resized when the source lives, undefined behaviour when it is gone) and hence after fromJson (always undefined behaviour)."],
"C81": ["proved", "C81_training: the whole of train for a class (outcome, events, resulting class); C81_trained_usable: any number n>=1 of iterations. C81_done: exactly when it stops. C81_short_training: with a fixed number of 1 or 2 iterations training never ends with Error. Floats are exact, absolute regularisation at least 1e-9."],
"C82": ["partial", "C82_initialised: exact initial parameters if some phrase has as many frames as there are components. Otherwise false in the code: C82_short_phrases_violated (0/0 covariances; all components are equal after the first iteration and stay equal)."],
"C83": ["partial", "C83_training for LeftRight models (with the exact number of iterations) and C83_training_one_state for one state are unconditional; C83_training_ergodic_partial needs that the re-estimated transition probabilities out of each state keep some mass (missing: a characterisation of the training sets of Ergodic models for which they do). C83_short_phrases_violated: if all phrases are shorter than the number of states, training always ends with Error at the first iteration. C83_short_training: with a fixed number of 1 or 2 iterations training of a LeftRight model never ends with Error."],
"C84": ["proved", "In exact arithmetic, for an absolute regularisation of at least 1e-9 (default 1e-3) and a minimal number of iterations of at least 1; a cancelled training is only known to have been requested."],
"C85": ["partial", "Proved for left-right classes, and for ergodic classes that have been reset since their training with hierarchical = false; violated for ergodic classes that have just been trained (C85_ergodic_ub: reset() frees the state probabilities and filter() writes past the end). The smoothed log-likelihood differs (C85_half_window, C70_flat_violated)."],
"C86": ["partial", "Proved for every JSON document: if fromJson throws, the phrase, Gaussian distribution, GMM class, class parameters (K-Means, GMM, HMM), shared parameters and configuration are unchanged (C86_*_unchanged); what is accepted holds exactly the numbers of the file with the declared sizes, for phrases (constructor, and fromJson when at least one frame is declared), Gaussian distributions, GMM parameters (also within their limits) and GMM classes (coefficients, and exactly as many components as declared Gaussians, each that of the file with its cached inverses recomputed from its covariance: C86_class_components). Violated parts: Gaussian distributions with an input dimension above the dimension, or without dimensions, are accepted (C86_gauss_dimensions_violated); the dimensions of the components of a class are not compared with those of the model (C86_class_dimensions_violated, then reading outside the observation); more components than declared Gaussians are undefined behaviour (C86_components_ub; likewise C25_phrase_names_ub, C33_diagonal_ub); see also C25_phrase_fromJson_empty_violated. Training sets: an exception leaves every set as it was (C86_trainingset_unchanged), what is accepted has the attributes, indices, labels and phrases of the file (C86_trainingset_constructed, C86_trainingset_accepted_partial; the frames of phrases without frames are excepted), except that a phrase may have other dimensions than the set (C86_trainingset_dimensions_violated) and that more column names than dimensions are undefined behaviour (C86_trainingset_names_ub). Whole models that are refused are unchanged by C91_*_unchanged. HMM classes, their parameters and K-Means parameters: C86_hmm_class_unchanged, C86_hmm_class_constructed_partial, C86_hmm_class_accepted_partial, C86_hmm_parameters_accepted_partial, C86_kmeans_parameters_accepted; the states of the file are compared neither with the declared number of states nor with that of Gaussians (C86_hmm_class_states_violated), more states than declared are undefined behaviour (C86_states_ub), and filtering a class that grew by loading without reset reads outside its forward variables (C86_hmm_class_grown_ub). Shared parameters: C86_shared_accepted_partial; a unimodal file with an input dimension is accepted (C86_shared_input_violated). Configurations and whole models: what is accepted has the parameters of the file, classes exactly for its labels, each loaded from the first element with the label, and (hierarchical HMM) the prior, transition and exit probabilities of the file in the sizes required (C86_gmm_configuration_accepted_partial, C86_hmm_configuration_accepted_partial, C86_gmm_model_accepted_partial, C86_hmm_model_accepted_partial); numbers that are no mode are accepted as modes (C86_configuration_modes_violated). Not proved: that what is accepted is otherwise usable, which the violated parts contradict."],
"C87": ["partial", "Proved in exact arithmetic for every positive semidefinite covariance on the two dimensions: toEllipse returns the contour at level 5.991 with the mean as center and the eigenvectors as axes (C87_to_ellipse); fromEllipse of an ellipse that is neither horizontal nor vertical sets exactly that covariance and keeps the rest (C87_from_ellipse); the round trip is the identity if the covariance between the two dimensions is not 0 (C87_round_trip). Violated: width and height are the major and the minor axis, not as documented (C87_axes_violated); with uncorrelated dimensions, the first having the larger variance, and for every ellipse at angle 0, the variances become NaN (C87_axis_aligned_violated, C87_horizontal_violated); a flat ellipse throws after the distribution has been changed (C87_flat_violated). Missing: rounding, and the uncorrelated case with the second variance larger, where M_PI_2 is rounded."],
"C88": ["partial", "Proved for the mode Background when the request is registered before the last class in training ends (InTime), and for cancelTraining(label) when the cancelled class does not fail during the call and no class ends as the last one during the call except the cancelled one after the request (InTimeOne). Outside these schedules the property is violated (undefined behaviour, two Alldone, model left in training for ever; also in the modes Parallel and Sequential): C88_background_ub, C88_alldone_violated, C88_parallel_ub, C88_sequential_violated, C88_label_violated, C88_label_fails_violated."],
"C89": ["partial", "Assignment: proved when the target has the dimension of the original (C89_assign_partial), and without that condition after both are trained on the same data (C89_assign_train, C89_assign_trained). Violated otherwise: a copy has no shared parameters, filter and train with it are undefined behaviour (C89_copy_ub); a target of another dimension refuses every observation that the original accepts (C89_assign_violated) or answers wrongly (C89_assign_wrong_violated); the JSON holds nothing (C89_json_violated)."],
"C90": ["partial", "Proved after reset() for GMM with Full covariances and for hierarchical models of left-right classes with Full covariances. Violated without reset(): filter on the loaded model writes outside of the results (C90_gmm_without_reset_ub, C90_hierarchical_without_reset_violated). Missing: Diagonal covariances and models that are not hierarchical, which do not survive the JSON (C57_gmm_diagonal_violated, C57_hmm_hierarchical_violated), and ergodic classes, whose first likelihood depends on what they have heard before (C71_ergodic_violated)."],
"C91": ["partial", "Proved for every document and every reachable program: if fromJson throws no model and no set of listeners changes (C91_gmm_unchanged, C91_hierarchical_unchanged); if it returns the model is a copy of what the JSON constructor makes, other models are unchanged and the listeners of a GMM stay (C91_gmm_loaded, C91_hierarchical_loaded_partial); after reset() it recognises like the saved model, under the conditions of C90 (C91_*_recognises_partial). Violated by the code: a GMM keeps the results of the former model (C91_gmm_results_violated); a hierarchical HMM loses its listeners (C91_hierarchical_listeners_violated); later changes of the shared parameters do not reach the classes (C91_*_params_violated), whereas they do after the JSON constructor (C91_*_constructed_params)."],
"C92": ["partial", "Proved for every history of the parameters, every class set and every training set that has labels and one name for each column: if the model is unimodal, or the set has at least one input and one output column, train returns with exactly the classes that could be trained, the dimensions and names of the set and the other parameters unchanged, also from a model left in training (C92_train_accepted, C92_class_accepted); with a label that is unknown, or dimensions that differ from those of a model with classes, train(set, label) throws and changes nothing (C92_class_refused); cancelTraining() and clear() bring every model back to use (C92_recovers). Violated by the code: a bimodal model called with a training set that has no input or no output column (a unimodal set, say) throws std::domain_error after its classes are gone, stays in training and may have a dimension below its input dimension (C92_train_refused_violated, C92_class_refused_violated). Partial for that reason; mode Parallel, training of a class being an outcome (Sequential and Background modes: C49, C54, C77)."],
"C93": ["partial", "C93_message_partial: the text that what() builds is the documented one for every origin. Violated: C93_what_ub proves that reading the pointer that what() returns is undefined behaviour for every exception (it points into a destroyed local string)."],
"C94": ["proved", "In exact real arithmetic. C94_iteration: the exact bound for one iteration and the next; C94_bounded: its form without floored densities; C94_training: all iterations of a training (the first is excluded when no phrase has as many frames as components: it starts from covariances that have not been inverted, see C81). C94_not_monotone: the log-likelihood falls in a concrete case. Not covered: rounding."],
"C95": ["proved", "In exact real arithmetic. C95_iteration: the exact bound for one iteration, and the next one returns the new log-likelihood; C95_bounded: its numeric form; C95_training: every iteration after the first in the training of a LeftRight model (of an Ergodic one the rows must keep some mass, see C44). C95_monotone_violated: a model that fits its data loses more than 2/5 in one iteration, because frames that end a phrase are counted in the denominators of the transitions. Not covered: rounding."],
"C96": ["proved", "C96_likelihood, C96_likelihood_input, C96_likelihood_bimodal: any arithmetic that follows IEEE 754 on NaN and infinities (Gauss.Arith.Propagates), with any rounding. GmmModel.C96_no_evidence, GmmModel.C96_recovers, Hmm.C96_no_evidence, HierHmm.C96_no_evidence: unimodal models, the likelihoods evaluated with NaN and infinities, the rest of the recursion on reals (the likelihoods it gets are reals: C29). Bimodal models compute their outputs from the broken input and are not covered. The first observation of a hierarchical model: for classes that are not ergodic (see C71)."],
"C97": ["proved", "C97_class_memory: one class; C97_memory: two models of the same classes and settings with any histories; C97_history: one model after any stream. Real arithmetic: the average is recomputed from the buffer at each observation, as in the code."],
"C98": ["partial", "Proved for every order of the columns and every change of sign; for a change of origin, when the first phrase has as many frames as there are components and k-means leaves no center without frames. Otherwise violated: k-means puts an idle center at the origin (C98_origin_violated: the log-likelihoods differ). Recognition with one modality: C98_recognition_partial; recognition and regression with two, for changes that keep the columns of the input among themselves: C98_regression_partial. Whole training of a mixture, with the decision to stop: Gmm.C98_train. Left-right hidden Markov models: Hmm.C98_training (initialisation, iterations, normalisation), Hmm.C98_stream and Hmm.C98_recognition_partial (recognition, one modality); with one component in each state, as by default, every change of origin is allowed: Hmm.C98_one_gaussian; with two modalities, including the predicted output: Hmm.C98_regression_stream and Hmm.C98_regression_partial (not for a window over one state when the origin of the output moves, see C72). Not covered: Ergodic hidden Markov models."],
"C99": ["proved", "All readers, including those of classes and whole models, give equal results as programs. The conversion of a real to an int is abstract (`JsonReal.toInt`); it is assumed exact on whole numbers (`TruncatesWhole`). Labels and column names are excluded because a label written 1 reads as \"1\" and a label written 1.0 as the text jsoncpp prints for a real."],
"C100": ["partial", "k-means, GMM and LeftRight HMM (and HMM with one state): proved over the real numbers. Ergodic HMM with several states: under the hypothesis of C83 that the transitions keep their mass. In floating point the sums of another order are rounded differently, which is not stated. `C100_first_phrase_violated`: the unrestricted statement fails for k-means started from the first phrase."],
"C101": ["partial", "Proved for every history in which a bimodal phrase does not change its dimensions while an output array is connected. `C101_dimension_change_ub`: in that case the phrase deletes the user's array (xmmPhrase.cpp:571-576)."],
"C102": ["proved", "Sessions that record into phrases created by the set (`addPhrase(index, label)`), with the dimensions fixed at the beginning. Phrases shared between sets and later changes of the dimensions are the subject of C22, C23 and C63."],
"C103": ["proved", "Parallel mode; the classes share no memory that training writes (C49, C77 treat the other modes). Exact real arithmetic; the data of the set are read once. Settings: at least one Gaussian, a window of at least 1, a minimum of at least one iteration and an absolute regularisation of at least 1e-9; in bimodal mode all classes have the covariance mode of the configuration."],
"C104": ["proved", "Gaussian mixture models, Parallel mode (C104_own_takes) and Sequential mode, where the class is in both models whatever the outcome of its training is (C104_sequential_own_takes); hidden Markov models: C105_own_takes, C105_sequential_own_takes. A session that leaves no take changes nothing (C104_no_takes). Exact real arithmetic."],
"C105": ["proved", "Hierarchical mode, left-right classes (for ergodic classes see C44, C83), Parallel mode, exact real arithmetic; the data of the set are read once. Mode Sequential: C107, and C105_sequential_own_takes. A session that leaves no take changes nothing (C105_no_takes, hierarchical or not). Settings: at least one state and one Gaussian per state, a window of at least 1, a minimum of at least one iteration and an absolute regularisation of at least 1e-9; at most 10^90 frames per class; in bimodal mode all classes have the covariance mode of the configuration."],
"C106": ["partial", "Holds if the training of every class is done (C106_train) or of none (C106_no_class). Violated otherwise: if some classes fail and some do not, train ends with std::runtime_error (C106_partial_failure_violated): joinTraining resets the remaining classes to the mode without hierarchy and then asks them for default exit probabilities. Left-right classes, Parallel mode, exact real arithmetic, settings as in C105."],
"C107": ["partial", "Holds after a call of reset() if the training of every class is done (C107_gmm_train, C107_hmm_train, hierarchical or not): the model is then equal to that of the mode Parallel. With a fixed number of 1 or 2 iterations and nothing cancelled the training of every class is done (C107_gmm_short_train, C107_hmm_short_train). A session that leaves no take changes nothing (C107_gmm_no_takes, C107_hmm_no_takes). Violated otherwise: Sequential does not call joinTraining, so that filter right after train writes outside of the results (C107_gmm_without_reset_ub, C107_hmm_without_reset_ub; outside a hierarchy, reads the forward probabilities of the first class outside of their vector: C107_hmm_flat_without_reset_ub) and a class whose training failed or was cancelled stays in the model (C107_gmm_failed_class_violated, C107_hmm_failed_class_violated). For hidden Markov models: left-right classes, settings as in C105. Exact real arithmetic."],
"C108": ["partial", "Proved for mixture models in the mode Parallel, from the recordings on: a class replaced as if it were new, the others unchanged (C108_train_class), any order and repetition of labels (C108_class_by_class), same recognition as train with the whole set (C108_same_as_train), the two exceptions (C108_unknown_label, C108_other_dimensions). Violated: a training that fails or is cancelled removes a class that was trained before (C108_failed_class_violated). Hidden Markov models: see C109. Mode Sequential: the same model as in the mode Parallel after a call of reset() if the training is done (C108_sequential_class), any order and repetition of labels with one reset() at the end (C108_sequential_class_by_class), with the same two exceptions (C108_sequential_unknown_label, C108_sequential_other_dimensions); without reset(), filter after a class is added writes outside of the results (C108_sequential_without_reset_ub), and a class whose training failed stays in the model (C108_sequential_failed_class_violated). With a fixed number of 1 or 2 iterations and no cancellation no class is ever lost (C108_short_class). Not covered: the mode Background. Exact real arithmetic."],
"C109": ["partial", "Proved for hierarchical HMMs in the mode Parallel, LeftRight classes left from their last state, from the recordings on: a class replaced as if it were new if it has no more states than before, the others, the priors and the transitions unchanged or, if a class is added or removed, uniform (C109_train_class), any order and repetition of labels (C109_class_by_class), the classes of train with the whole set (C109_same_as_train), the two exceptions (C109_unknown_label, C109_other_dimensions). Violated: a class that is trained again with more states than before keeps its former last state as an exit point (C109_more_states_violated); C109_more_states: that is the only difference, and everything else in the model remains; C109_not_done: a training that is not done removes the class, whatever its number of states was, and nothing else; a training that fails or is cancelled removes a class that was trained before (C109_failed_class_violated). Mode Sequential: the same model as in the mode Parallel after a call of reset() if the training is done (C109_sequential_class), any order and repetition of labels whose trainings are done with one reset() at the end (C109_sequential_class_by_class), with the same two exceptions (C109_sequential_unknown_label, C109_sequential_other_dimensions); without reset(), filter after a class is added writes outside of the results (C109_sequential_without_reset_ub); a class whose training failed stays in the model (C109_sequential_failed_class_violated). With a fixed number of 1 or 2 iterations and no cancellation no class is ever lost (C109_short_class). Not covered: the mode Background, Ergodic classes, exit points added by the user. Exact real arithmetic."],
"C110": ["partial", "Proved for the standard deviations (C110_deviations), for k-means (C110_clusters) and for the whole training of a mixture: same iterations, events, outcome and mixture, the log-likelihood k times as large (C110_training; if the training has no maximal number of iterations, for a minimal number of at least two, since the first comparison is with the lowest number). For an iteration of a hidden Markov model: same states and start probabilities, same proportions of the transition probabilities (C110_iteration_partial). Violated: the transition regularisation is added once per phrase to the numerators but once per training set to the denominators, so that copies raise the probability to stay in a state (C110_transitions_violated). Not covered: the whole training of a hidden Markov model. Exact real arithmetic."],
"C111": ["proved", "From the calls on the training set to the results: C111_train (centers), C111_performance (reset and observations, including those of a wrong dimension), C111_labels (labels and gaps in the numbering do not matter); C111_example gives sessions that meet the hypotheses. Exact real arithmetic; filtering without reset() after training is undefined (C34_filter_without_reset_ub)."],
"C112": ["partial", "Proved from the recordings on, for mixture models (C112_names, C112_recognition) and for hierarchical hidden Markov models (C112_hmm_names, C112_hmm_recognition): same classes and same hierarchy under the other names, same reports of the classes up to their order, same progress and likeliest state of each class, same likeliest class and same output when one class is strictly likelier than all others, same mixed output always. Violated at a tie: the likeliest class is the first one in the order of the names (C112_tie_violated). In the mode Sequential, after a call of reset(), if the training of every class is done in the first session: C112_sequential_names, C112_sequential_hmm_names. Training of ergodic classes is not covered (C105). Exact real arithmetic."],
"C113": ["partial", "Proved for mixture models from the recordings on, for every permutation and change of sign (C113_axes_partial), and for every translation too when every class has one component (C113_one_gaussian) or when, for every class, the first take has as many frames as components and k-means leaves no center without frames; without such a condition translations change the training (C98). For LeftRight hidden Markov models in a hierarchy (the default), with one or two modalities, the same with C113_hmm_axes_partial and C113_hmm_one_gaussian. The outputs, when the origin of the output columns moves: only with the regression estimators Likeliest, and Windowed with at least two states; with Full the shares of the states do not sum to 1 in a hierarchy (C72). The training of any class may be cancelled at any moment, the same in both axes. In the mode Sequential (C113_sequential_axes_partial, C113_sequential_hmm_axes_partial): after a call of reset(), if the training of every class is done in the first session. Not covered: Ergodic hidden Markov models. Exact real arithmetic."],
"C114": ["partial", "Modes Parallel and Sequential. train(set) of a loaded model, with all classes of the set: C114_gmm_all_partial and C114_hierarchical_all_partial (loaded_train_all_example, loaded_train_all_hmm_example). train(set, label) of mixture models: C114_gmm_partial, for every model that can be saved (C57), used or never used since it was loaded, and every session in which every class has a complete frame. Hierarchical HMMs with LeftRight classes: C114_hierarchical_partial, for a new class or one that has no more states than before (C109), and C114_hierarchical_any_partial, whatever its number of states was (loaded_more_states_example). loaded_train_example, loaded_train_hmm_example: models with the classes \"b\" and \"c\" and a session with \"a\" and \"b\". In the mode Sequential, if the training is done and reset() is called: C114_gmm_all_sequential_partial, C114_gmm_sequential_partial, C114_hierarchical_sequential_partial (loaded_train_sequential_example, loaded_train_sequential_hmm_example). Missing: models with Diagonal covariances, which cannot be loaded (C57); Ergodic classes; the mode Background; in the mode Sequential a training that is cancelled or fails."],
"C115": ["partial", "Mode Parallel, and the mode Sequential if the classes are trained and reset() is called (train(set): C115_sequential_partial, C115_gmm_sequential_partial; train(set, label): C115_class_sequential_partial). Hierarchical HMMs with LeftRight classes that are left from their last state: train(set) on two models with any past and any uninitialised members (C115_train_partial), and train(set, label) on two models with the same classes (C115_class_partial). Mixture models: train(set) on two models with any past (C115_gmm_partial), and the training of a class with any uninitialised members (C115_gmm_class_partial). A class may get more states than before (C115_any_class_partial, C115_class_more_states_partial, also in the mode Sequential). Missing: Ergodic classes, the mode Background."]
}
