{
 "C02": "Lists: proved in full. Dictionaries: the code accepts dictionaries giving two names the same index (C02_setNames_dict_violated); under distinct indices the result is exact (_partial).",
 "C03": "Proved for distinct identifiers and distinct new names; repeated new names / repeated None are accepted by the code and break the invariant (witnesses).",
 "C04": "Integers and names proved in full. Floats are accepted without a range check and hasName raises on an empty axis (witnesses).",
 "C46": "setNames (both forms), permute, insert/append, extract/delete, retain and transpose are modelled as sequences of writes in the order of the code (Model/Atomic.lean); proved that a refusal leaves data, shape and names as shown before and that no refusal can follow the first write. sort by several keys sorts key by key and raises midway: the witness shows the object changed, C46_sort_refused_state_partial says exactly what it is then. Missing: operations not listed (fill, transform, merge, replace...).",
 "C47": "The code refuses compatible partial names (witness); C47_agreeing_names_accepted_partial and C12_insert_accepts_iff give the exact condition.",
 "C20": "Proved for every shuffle that is a permutation and every number of folds; group folds for every list of group labels.",
 "C21": "Alignment, disjointness and coverage proved for the fold iteration over any list of objects. Partial because a validation that raises leaves the fold iterator in the middle, so the next validation tests only the remaining folds (witness).",
 "C23": "Proved when the performance comparison is a strict weak order; a NaN performance recorded first is never replaced (witness).",
 "C24": "Proved for any number of loops when every tuned argument has at least two values (for one loop the first and last may have one); an argument with a single value in the middle ends the tuning early (witness).",
 "C25": "get after set, get(section), get() and the file contents proved without assumptions on values; that saving is unobservable holds for values without interpolation syntax only: a percent sign changes on saving and get() copies interpolated values into the changes (witnesses). Reading/writing of the ini file itself is assumed to be faithful.",
 "C26": "Setting an option back to the value in the file changes the effective value without calling the hook (witness); every other successful set calls it.",
 "C43": "Exact rationals; rounding to 12 digits is a function within eps of its argument. Equal ends raise, some accepted multiplicative ranges never end and Tune(range(a, b, -s)) misses the documented end (witnesses).",
 "C50": "numpy refuses a seed after Python's generator has been reseeded (witness); otherwise proved.",
 "C28": "Vector functions constant/forwardFill/backwardFill/mean-median-mode/interpolate proved in full (np.interp as documented by numpy, statistic a parameter). fillMatching with a match function proved for every selection; with a boolean object it is correct only when the selection is in increasing order (witnesses: unsorted points and a single name use the wrong row of the matcher).",
 "C29": "Proved for the parser on all strings; the conversion of the value to a number is outside the model. Element queries containing a newline are truncated (C29_newline_violated).",
 "C51": "Values, order and number proved in full; names proved when all points (in order) or fewer than all are selected; false when all points are listed in another order (witness).",
 "C52": "Success and acceptance proved in full; atomicity is false (C52_transform_atomic_violated).",
 "C30": "The calls made to the mapper and reducer are proved in full. The returned object equals the reductions when automatic name detection does not fire on them; otherwise the first reduction becomes the header (witness).",
 "C31": "Proved for every object whose grouping values have a printable key; a NaN other than numpy.nan makes the call raise, and the text 'numpy.nan' shares a key with a missing value (witness).",
 "C35": "unique: proved when the stored cells are unchanged by nimble.data (text such as 'NA' becomes nan, witness) and there is at least one point. repeat: proved unless names were created as default only (raises TypeError, witness) or there are no points.",
 "C53": "Explicit names, automatic with and without a header, and ragged rows proved for every list of rows with at least one column; rows without columns and a given width get uninitialised values, a repeated header raises (witnesses).",
 "C32": "Proved in full for elements with a reflexive equality (nan objects unequal to themselves are outside the model).",
 "C33": "Proved when the feature is named or the object has no feature names, values print differently and the new names are free; otherwise the call raises after the feature was removed (witnesses). For Sparse objects (C33_sparse_*) the encoding is one-hot only when the feature holds no zero: the new feature for zero is never set (C33_sparse_zero_violated).",
 "C34": "No labels and label objects proved in full; identifiers when at least one test point results. With an empty test set the training labels are empty, and a label object with a default name raises (witnesses). The product testFraction*n is exact in the model.",
 "C05": "Proved (accepted exactly when the key denotes positions, and the result shows exactly those) for keys without floats, without lists mixing booleans and identifiers and without a negative step with an omitted end, on non-empty axes; each excluded case has a witness that the documented meaning fails there.",
 "C54": "Proved for two single identifiers and for two list/slice/boolean keys that do not select a whole axis; a whole axis or one single and one list key raises TypeError (witness).",
 "C40": "Proved for views of objects (every window, both axes) and for views of views with in-window non-negative positions; names, negative and out-of-window positions of a view of a view resolve against the source, and assigning through a Matrix view writes the source (witnesses).",
 "C16": "List storage: isIdentical holds exactly when names, sizes and elements agree, and is an equivalence, for every lawful element comparison. Matrix storage: proved for values without missing values, dates or the text 'nan'; None against nan, dates and 'nan' are witnesses of the excluded cases.",
 "C14": "Acceptance of flatten and unflatten, the position of every element, and the round trip of the data proved in full for 2D objects; the round trip of names when each axis is fully named (no ' | ', no generated prefix, no point name ending in ' |') or unnamed and there are two elements or more. Single elements, partially named axes and names ending in ' |' lose or change names, colliding names leave a broken object, negative dimensions are accepted (witnesses).",
 "C41": "Proved in full without a point filter, for a number of points (at least 2) and for in-object ranges of at least two points with room for three rows or all of them; a range with room for two rows shows point 0 even when it is outside the range, one-point ranges are refused, ranges beyond the object raise TypeError and points=1 raises IndexError (witnesses).",
 "C55": "Termination, order, placeholder and width bound proved for every number of columns and widths except one column of width 2 in a width of 5, where the loop never ends (witness). All columns are shown when they fit if there are two or more, each at least two wide; a single fitting column may be left out (witness). Column widths are parameters of the model.",
 "C36": "Proved for the List, Matrix and DataFrame code (Sparse has its own): the split table, names and acceptance in full when what is turned into a numpy array keeps its cells; combine when the feature with names precedes (or lies among) the retained features as documented and the features with values are given by name or are one; the round trip for named collapsed features and at least one point. Witnesses: values before names lose data silently, a List with mixed cells has its numbers turned into texts, a refused split leaves a changed, inconsistent object.",
 "C39": "Exact arithmetic over a field; linalg.inv is a parameter assumed to return the inverse. The power of an empty object to 0 is refused (witness).",
 "C45": "Values are exact rationals or text, float(text) is a parameter. Witnesses: numeric text first seen as a duplicate raises TypeError, not the documented error.",
 "C56": "Proved over any semiring, for every object and all names.",
 "C18": "Coordinate storage with its recorded order (Model/Sparse.lean): element access and assignment, transpose, permute, insert, select/delete, repeat, unique, views, equality, counts, zero-preserving scalar operations and any history of them agree with the dense table (full theorems; C18_history_partial). Missing: zero replacement and zero-preserving transformation leave a stale index (violated), % of two Sparse objects is wrong (violated), merge, splitByCollapsing and numpy dtypes are not modelled.",
 "C57": "List: full for given ends. Without ends the code uses the number of points for the width and does not check that the object fits (violated). Sparse: the in-place walk is proved for constants and objects unless all stored elements lie above the rectangle, where it raises (violated).",
 "C17": "Heap with addresses for _data, rows and _dims of List objects. Elements: proved for every history. Shapes: proved for every history in which no object sharing its _dims is resized, in particular without arithmetic operators returning new objects, or without resizing; false in general (base.py:5436), with two witnesses. Names and the other representations are not in the heap model.",
 "C19": "Model/Merge.lean: merge of two List objects (left/union/intersection, one axis strict, onFeature by name or index) with in-place filling and name reassignment. Full join semantics proved for arbitrary name overlap, under the hypotheses that fail in the code, each with a proved counterexample: intersection lists features in dict order but labels them in index order (needs names created in order); onFeature with feature='left' uses the wrong column unless every earlier feature is common; a missing left value with several right matches is filled from the first one and then conflicts; empty objects raise IndexError; a refused merge leaves the caller changed (strict force renames); onFeature=0 with union is not sorted. Conversion of other representations before the merge is not modelled.",
 "C42": "Model/Metrics.lean: confusionMatrix (no labels, list, dict, fractions), the validation of performance functions, fractionCorrect/Incorrect and all binary metrics, with exact arithmetic. Proved for all label vectors: counts, row/column sums, total, diagonal = fractionCorrect, textbook formulas, range, refusals. Violated: without labels a predicted value never known raises ValueError; a label like '50%' raises ValueError (Python formatting); f1Score is undefined when there is no true positive.",
 "C58": "Real arithmetic, vectors of equal length; the decorator's validation is in Model/Metrics.lean. Full for all seven functions with a declared best value (meanFeaturewiseRootMeanSquareError is the mean of RMSE over features and is not stated separately).",
 "C59": "Model/Normalize.lean: the vectors (exact numbers, missing values) of all five functions; getting the vector out of the object and back is not modelled. Range, mean and standard deviation: full. Percentiles: proved for any order in which argsort leaves equal values, with at most one missing value. Violated: the divisor is n-2 for any number of missing values, so with two or more every percentile is too small; a single value raises ZeroDivisionError; a repeated minimum (maximum) gets 0 (1) in values2 and another percentile in values1.",
 "C37": "Proved for objects whose features are numbers, truth values or strings with at least one word, whose texts and names are safe for the writer, for names flagged by the user and for automatic detection. Violated otherwise: quotes without a comma are lost, line breaks without a comma split points, a first value beginning with # or a blank only value loses the point, carriage returns never come back, numeric strings become numbers, partially named axes cannot be saved (TypeError), automatic detection misses or mistakes names. Not modelled: separator detection (csv.Sniffer), encoding, keepPoints/keepFeatures, treatAsMissing, names given as a dictionary; floats are abstract with Python's repr/float laws assumed as hypotheses (met by a concrete parser).",
 "C60": "Proved if the first value of the feature is not empty in both orders; violated if it is empty (the feature is then text).",
 "C61": "Proved for files of at least two rows whose first value is not empty. Violated: files of one row, featureNames=False with given point names, and a wrong number of point names (names a, l, l instead of an error from the reader).",
 "C44": "Model/MultiClass.lean: training data, votes and the three score modes; learners are abstract (their outcomes are inputs). Proved: each pair trained once, training data (labels last or all features named), winners, bestScore, allScores, combination of pairwise scores (except which format three scores have, decided by a trial run). Violated: OneVsOne with an index of another feature than the last and no feature names trains on wrong data; ties depend on the order of a set; allScores with text labels raises ValueError; a single label (OneVsOne) cannot be trained; strategies in lower case are accepted and ignored.",
 "C62": "Model/Statistic.lean over exact numbers, elements numbers or missing. Proved: proportionMissing, minimum, maximum, mean, variance for any stored entries; proportionZero, mode, uniqueCount when no zero is stored (and violated otherwise: a scipy matrix given by the user may store zeros); the mode is characterised independently of the program; all statistics are invariant under permutation. Not modelled: non-numeric elements, rounding, median and quartiles (which convert to a dense array first).",
 "C63": "Model/Convert.lean. Proved for names without duplicates (at most one unnamed feature or point) and objects with points and features. Violated: with two or more unnamed features all keys are None and only the last value is left; copy('python list', rowsArePoints=False) turns numbers beside texts into texts (numpy promotion); a dictionary of lists whose first list is text above numbers is refused by nimble.data unless featureNames=False. Conversions to numpy, scipy and pandas are not modelled.",
 "C64": "Model/Stretch.lean. Proved for a single point or feature with at least two entries whose repeated axis was never given generated default names, for nameless 1x1 objects, and for two stretches with at least two entries each. Violated: reading the default names of the stretched axis first makes the operation fail (InvalidArgumentValue, or TypeError with two stretches); a named 1x1 object raises IndexError against a longer named vector, and contradicting names on the really shared axis are not reported; logical operators (&, |, ^) drop all names. Conversion to numbers, zero division and the Sparse implementation are not modelled.",
 "C65": "Model/Knn.lean, exact arithmetic; the square root enters only through its monotonicity. The module's description of ties (use k=1) differs from the code: C65_tie_differs_from_k1.",
 "C66": "Model/Knn.lean, for any neighbour learner. Proved when applied to the training data. Violated for other data: the positions filled are those missing in the training data, so values missing only in the new data stay missing, present ones are replaced and points beyond the training data are lost.",
 "C67": "Model/Ridge.lean, Mathlib matrices over any ordered field: exact arithmetic, numpy's inverse is the inverse. A negative lamb is not refused by the code and not covered.",
 "C68": "Model/Log.lean; the sqlite table is a list, each insert is committed at once. Violated: a logger opened while another one is open that has not logged yet shares its session number. Reading and writing of the database file by sqlite is trusted.",
 "C69": "Model/Log.lean. The filters, their order, the dates in all three formats and the search are proved as described, with sessions least <= ago < most. Violated: the session mostSessionsAgo before the newest is excluded and equal bounds show nothing; datetime objects raise AttributeError; parts of dates may be signed or padded with blanks; % and _ in the searched text are wildcards; 'prep' entries are hidden at level 1 although documented there; maximumEntries counts entries hidden by the level of detail. Regular expressions are a parameter; the text of an entry (repr) and its layout are not modelled.",
 "C70": "Model/Entry.lean. Proved for the user's calls in one thread. Violated: every nested call after the first is taken for the user's; a user's call in a second thread during another call is not.",
 "C71": "Model/Match.lean. Proved for all predicates, containers and any/all. Violated: numpy's True/False are not matched by true/false (identity test); a one-shot iterator given as container is used up by earlier calls; for plain lists a TypeError of the match function is masked by AttributeError.",
 "C72": "Model/LearnFill.lean. Proved for learners whose result has the shape of trainX. Violated: the shape of the learner's result is not checked (values of another feature, or a half changed trainX); a boolean object without names is refused for a trainX with names.",
 "C73": "Model/Learner.lean: learners, dictionaries and backends in a memory with sharing. Proved: isolation over all histories, the effect of retrain, the arguments of apply. Violated: arguments after retrain lacks values still in force; required arguments must be repeated; a failing retrain or a refused Tune changes the learner; incrementalTrain after retrain forgets arguments; retrain of a multi-class learner does not train its learners.",
 "C74": "Model/Holdout.lean. Proved: performances (without incremental training, sets with the same names), best result, model of the returned learner, other learners unchanged. Violated: the arguments (and the stored arguments used by apply) of the returned learner are those of a set validated later. Not modelled: randomSeed and multiClassStrategy are not passed to nimble.train (tune.py:605-606).",
 "C75": "Model/Iterative.lean (performance an arbitrary function of the set) and the validator of Model/Holdout.lean. Proved: values, first set, limit, best of the selected, local optimum for one tuned argument whose value never has two better neighbours, copy. Violated: if both neighbours are better the worse is taken and the index goes the other way; improvements are combined without checking; for every learner that cannot be trained incrementally all trials after the first measure the same model and the returned learner has the model of the first set; Tuning.copy always raises TypeError for iterative selection. Timeouts and incremental learners not modelled.",
 "C76": "Proved for the ranking, its alignment and stability, the fold results and the accepted choices. Violated: the Tuning object keeps the performance function of the first trainAndTest call, so a later call with another function selects by the old one (C76_reuse_violated); after a tuning that raises, best* belongs to the failed tuning and all* to the earlier one (C76_failed_tuning_violated).",
 "C77": "Proved: the label list after any history, predictions, allScores, bestScore against both, point names, accepted test shapes and modes. The learner proper and the one-vs-one test for three labels are parameters. Violated: other spellings of a mode pass the check and are refused after the work (C77_spelling_violated); retrain keeps the old label names (C77_retrain_names_violated); a refused incrementalTrain adds labels and breaks the scores (C77_failed_incremental_violated); a label feature called bestScore (C77_best_name_violated).",
 "C78": "Proved: the split of HoldoutProportion (a permutation of the points, sizes, labels aligned; accepted for every p in (0,1) and label object of equal length), LeaveOneGroupOut (points kept, labels aligned, folds are the groups of equal values), default validation labels, equal lengths. Violations proved: with p*n < 1 the validation data is empty and the object is made; the check that foldFeature and Y differ compares identifiers as written, so the same feature by name and by index, or by 0 and -n, is accepted. Not modelled: lists of identifiers for Y and foldFeature, float rounding of p*n.",
 "C79": "Model/TrainRun.lean, learner proper and performance function are parameters. Proved: trainAndApply and normalizeData in full, trainAndTest whenever the labels used belong to the test data, trainAndTestOnTrainingData = trainAndTest without test data. Violations proved: with testX but no testY a label object of trainX is used as the labels of testX (without comparing lengths); testY without testX raises AttributeError; normalizeData with labels given as a feature of trainX is refused for every learner and data; incrementalTrain does not separate labels given as a feature. Not modelled: arguments, seeds, tuning, multi-class strategies, score modes (C77), cross-validation in trainAndTestOnTrainingData (C20, C21).",
 "C80": "Model/CustomSig.lean: signatures, Python's binding of keyword arguments, the validation of classes and arguments. Proved: which classes and arguments are accepted (iff), apply works with all accepted arguments, train exactly when none of them is a parameter of apply only, the choice among parameter sets. Violations proved: arguments of apply are passed to train (TypeError), so an apply parameter without default makes a learner untrainable; a required parameter of both methods is always reported missing; a default of one method hides that the other needs it; getScores is called without the parameters it must have; parameters after * cannot be given; incrementalTrain gets all arguments; the last parameter set that lacks nothing is chosen although an earlier one matches; short signatures give IndexError. Not modelled: *args, values of arguments.",
 "C81": "Model/DetectBest.lean, the function under test is any pure function, the random numbers are universally quantified. Proved: what a trial means (iff), completeness for consistent functions, soundness of the returned direction, invariance under increasing and reversal under decreasing changes. Violations proved: the trials with only zeros / only ones are compared with each other but not with the main result, so an inconsistent function is accepted for all random numbers; with labels the single repeated trial is always forgiven, so the answer can depend on the random numbers; a function of best scores is refused when all drawn scores are 0. Not modelled: functions that change their arguments, infinities, messages.",
 "C82": "Model/AxisReplace.lean on two-dimensional objects. Proved for all objects and locations: exact effect with locations, by name, of equal shape; acceptance iff; flat lists on both axes; rows as objects; refused calls change nothing. Violations proved: with data of the same shape the names of the data are ignored (point a gets the values of b); rows of one value are always taken for one point, so an object with one feature cannot have several points replaced by a list of rows. Not modelled: dataKwds other than names, objects with more than two dimensions, Sparse internals.",
 "C83": "Proved for rowsArePoints=True (C83_keep, C83_keep_succeeds, C83_keep_all). Violated for rowsArePoints=False: the keep lists are applied to the rows, i.e. to features (C83_rows_are_features, two witnesses). In-memory lists of rows only; convertToType not modelled.",
 "C84": "Proved for files whose point names are given, read or absent (not guessed). Violated: two unnamed features cannot both be kept; the index after the last feature gives IndexError; all features by index (reordering) is refused without a header; a duplicate header name silently takes the first; with guessed point names the kept features are shifted after a repetition. ignoreNonNumericalFeatures=True and floats in keep lists are not modelled.",
 "C85": "Proved for List/DataFrame (C85_transform, C85_transform_succeeds, C85_dict), Matrix with a non-boolean array (C85_matrix) and Sparse when zeros are preserved, or the function never returns None and the result does not look like a table under names (C85_sparse). Violated: integers put into a boolean Matrix become True; a Sparse object loses its first point (or is left inconsistent) if the new values look like a header (C85_sparse_header_violated); None is not stored in Sparse; a failing call leaves the elements before changed; False is taken for 0. Functions with state, float rounding, datetimes not modelled.",
 "C86": "Proved: C86_calculate, C86_calculate_only, C86_matching, C86_count, C86_sparse_zeros. Violated: an empty list counts as all points (C86_empty_violated); numpy gives all values the type of the first, so 1/2 after an integer is 0 and None after a string is 'None' (C86_first_type_violated); a first point of strings over numbers becomes feature names and is lost (C86_header_violated); matchingElements calls a three-argument function at (0,0,0) (C86_probe_violated); countElements does not count False (C86_count_violated); Sparse with preserveZeros and a subset returns the wrong shape or a TypeError (C86_sparse_subset_violated).",
 "C87": "Proved for dense objects and for Sparse with every internal order of the entries (the iterator as a state machine, the tally from numpy's distinct values and the code's own mapping of objects to numbers). Violated: iterateElements of Sparse asks `only` about 0 even if no element is zero, so a predicate undefined at 0 raises; countUniqueElements(i, j) with two single identifiers raises; in object arrays missing numbers that are different Python objects get a key each; a Sparse object of object dtype without stored entries is refused. numpy's copying of an object to an array (dtype, object identities) is a parameter; changing a Matrix during iteration is not modelled.",
 "C88": "Proved for nested lists of any depth: creation, refusal of points of different (rectangular) dimensions, copy to lists and round trip (when numpy keeps the values), points[i], copy/extract/delete/retain, insert of equal dimensions, flatten/unflatten, isIdentical. Violated by the code: data ragged off the first path is accepted, a single value is repeated over a row, text is taken apart, points[[..]] loses the dimensions, append compares only the number of flattened values, copy('python list') retypes mixed values.",
 "C89": "Scalar operators (also reflected and in place), unary and logical operators with numeric conversion, validation and error classification are proved for every object; the arithmetic itself is a parameter. Partial because the code violates parts: abs(obj) loses the point names if the features have none (base.py:5205); a refused in-place operation has already converted text to numbers; booleans plus a boolean is `or`, minus is a TypeError. Dates, DataFrames with boolean next to other features and Sparse shortcuts (C18) are not modelled.",
 "C90": "proved: content, names and exact acceptance for lists of dictionaries, dictionaries of elements/lists/dictionaries, lists of elements, lists of nimble vectors. Violated (proved): featureNames=False is ignored for a dictionary of elements or a list of elements; a dictionary of lists whose first list is text loses that list as a header or is refused; vectors without names mixed with named ones.",
 "C91": "proved: what is converted, exact acceptance (iff), the errors, and the same through nimble.data. Violated (proved): the caller's dictionary is emptied so a second call converts nothing; a negative index is silently ignored (names) or refused (no names); with rowsArePoints=False the types go to the points of the result; the empty list for an object without features is an IndexError; for Sparse only stored entries are converted.",
 "C92": "Violated: a new name that is already taken by another feature is only noticed after the data were replaced (C92_taken_name_violated: refused with changed data and a stale names table); a separator of several characters in a list is only skipped by one character (C92_list_separator_violated); a list of places with a place before the preceding one (C92_places_violated); Sparse: numbers among the parts (C92_sparse_numbers_violated). C92_accepted_partial/C92_sparse_partial are proved for the rules of the predicate Plain (separator, position, function), lists of places by C92_items.",
 "C93": "Violated: not atomic if the function returns a wrong number of values for the second object (C93_atomic_violated); with applyResultTo a single identifier is refused: an integer always, a name is iterated character by character (C93_single_index_violated, C93_single_name_violated). Everything else proved, including acceptance iff (C93_accepted).",
 "C94": "Matrix: the same as List (state and outcome, C94_matrix_same_partial) if the caller has no missing value in a common feature; violated otherwise: a Matrix never fills a missing value of the caller (C94_matrix_missing_violated, the assignment goes to a copy). Sparse: the documented join, on point names and on a feature, for any internal order of the stored entries (C94_sparse_join_partial, C94_sparse_on_partial) under the conditions that fail in the code, each with a proved counterexample: a zero in the feature merged on (C94_sparse_zero_violated, C94_sparse_lost_violated: places of stored values are taken for point indices), zeros in features only the other object has (C94_sparse_moved_violated: values move to the wrong features), text or an empty join (C94_sparse_refused_violated). DataFrame: pandas' documented join is an assumption (Model/MergeDf.lean); the documented join on point names for every mode, for 'union' if the names are in alphabetical order or equal (C94_df_join_partial), and on a feature (C94_df_on_partial, C94_df_on_union_partial: any order pandas may give). Violated: for 'union' the points get each other's names otherwise (C94_df_order_violated, exactly described by C94_df_union_rows); missing values of the feature merged on are equal to each other (C94_df_missing_violated); a refused merge leaves pandas' frame in the object (C94_df_refused_violated).",
 "C95": "Partial because the code violates the claim: a Sparse object multiplied by an infinity or nan, or divided by nan, keeps its zeros (C95_scalar_violated); floating point errors are silent in + - * / of two Sparse objects (C95_silent_violated); // of two Sparse objects is the rounded quotient, which differs from // (C95_floordiv_violated); sparse % sparse is refused with ValueError as soon as the left object has a zero (C95_mod_violated). numpy's and scipy's arithmetic are parameters with the laws stated in Lawful and Agrees.",
 "C96": "Partial because the code violates the claim: one zero in a collapsed feature makes splitByCollapsingFeatures fail with an index error (C96_split_zero_violated), zeros among the retained values are moved to the end (C96_split_shift_violated), features not given from left to right can get each other's values (C96_split_order_violated), and zeros are stored explicitly (C96_split_stored_violated, C96_combine_stored_violated). What is written is stated exactly by C96_split_written; combineByExpandingFeatures is proved equal to the other types without condition on zeros (C96_combine).",
 "C97": "Proved: the text written for a Sparse object is the text written for the table of its elements by the code of the List type (C51), for every well-formed storage, and the object keeps its elements. Hypothesis: the text of the zero of the data type has no comma.",
 "C98": "Proved for names without commas and line breaks whose last one does not end in white space (all object types, each axis with or without names). Violated: any other names are never read back (C98_lost_violated: no file text makes the loader return them); the code saves such names without refusing. Objects with some but not all names are refused with a TypeError. Values are proved for List, whose writer is nimble code; for the other types scipy writes them.",
 "C99": "Proved: names and remaining table are exact whenever the names are different (and, if both axes are taken out, no point is named zero); duplicate point names and two zero feature names are refused; with two or more rows detection agrees with the list of rows. Violated: one feature name occurring twice is accepted and one of the two features is called '0' (C99_feature_duplicate_violated); a point named zero is refused when feature names are taken out too (C99_zero_point_violated); the only row of a matrix of texts is taken for feature names (C99_one_row_violated).",
 "C100": "Proved for arrays of dtype bool, int64, float64 and object, up to the type of numbers and of missing values. For other numeric dtypes it is false: a Matrix of 32-bit integers cuts off fractions (C100_matrix_int32_violated), transforming one point of a float32 Sparse object can change other points (C100_sparse_float32_violated).",
 "C101": "The statistics are parameters of the model (any value or exception). C101_report and C101_dtypes: every report that is made shows the right values under the right names, whatever raises. Distinct names fail for names that already look numbered (f, f, 'f (0)': C101_names_violated), hence the hypothesis Plain in C101_names_distinct_partial and C101_accepted_partial; an object without features is refused (C101_no_features_refused).",
 "C102": "Float arithmetic is a parameter (Arith) for C102_range, C102_same and C102_false_definite; C102_value, C102_true and C102_change_seen are for exact arithmetic with arbitrary rational weights. 'Every two objects can be compared' is false: round(nan) raises, so an object with a missing value cannot be compared with anything of its shape, not even with itself (C102_missing_violated).",
 "C103": "An argument whose comparison with its default raises anything but TypeError (a numpy array against None: ValueError) makes the call raise after the object was changed, without a log entry (C103_raises_violated); hence the hypothesis in C103_arguments_partial and C103_call_partial. The text of a lambda is cut at a bracket in a string constant and at the comma after a default value with a colon (C103_lambda_violated); C103_lambda_partial is for one source line with matching brackets. literal_eval/repr of constants are parameters of C103_readable and C103_unchanged.",
 "C104": "Real arithmetic; scipy's quantile function is a parameter (Quantile: zero at 1/2, monotone). The lower end of the interval of the root mean square error is nan whenever the half-width exceeds the mean squared error, e.g. two predictions of which one is right (C104_rmse_violated); the interval of the fraction leaves [0, 1] (C104_fraction_violated); points with missing values count as observations (C104_missing_violated) and as incorrect, and a feature against a point is compared by broadcasting (C104_wrong_fraction_violated).",
 "C105": "The accepted name 'count' has no function: ValueError for every object (C105_count_violated). The functions of nimble.calculate are parameters here (their values are C57); case and whitespace of ASCII characters.",
 "C106": "Exact real arithmetic; nan and infinite values are both missing (np.isfinite). Vectors of length zero: the sample covariance is 0 although undefined (C106_empty_violated). The dot product is stated for complete data (C106_dotProduct); positive semidefiniteness for complete data.",
 "C107": "Rational numbers or missing values; the result is the list of names and values, not the object made of it.",
 "C108": "scipy's routines are parameters with their contracts (SolvesExactly, SolvesLeastSquares), exact arithmetic. The code does not compare a b of a single value with A (C108_single_violated), and the result is always one point although the documentation promises the shape of b (C108_shape_violated).",
 "C109": "Proved for every world of interfaces whose names do not overlap and every history of calls: resolution, refusals, growth of the available interfaces, learnerNames and its round trip, classes. Violated part: the aliases 'tensorflow.keras' and 'tf.keras' of keras are known to learnerNames(package), but 'tf.keras.X' as the name of a learner is always refused with InvalidArgumentValue, since it is split at the first dot (C109_dotted_alias_violated). Not modelled: the options set in the configuration when an interface becomes available, and the registration of the user's own learners.",
 "C110": "Proved for every table whose rows have the same number of cells, all headers, justifications and separators (C110_table, C110_aligned, C110_refused, C110_snip). Violated parts: with maxRowsToShow below the number of lines the call always fails with an IndexError, because the table is read at the index at which it was just cut (C110_limit_violated); the caller's list of headers is changed by the call, since it becomes the first row of the table after the copy was made (C110_headers_violated). Cells are texts already: rounding of floats and str are not modelled, nor the ValueError for unknown justifications.",
 "C111": "Proved over every linearly ordered field with exact arithmetic, for every routine which returns a minimiser of the squared errors of each column (contract LeastSquares, met by the example one): shape, names, the three defining facts of the residuals, and their uniqueness. Not modelled: rounding of floats, the conversion of types, and the checks that the arguments are objects and scipy is installed."
}