{"id": "C01", "title": "Axis names stay a bijection through every history", "statement": "After any history of successful public operations on a data object (full renaming with setNames, structural extract/delete/retain, permute/sort, insert/append, transpose) the point names and the feature names satisfy checkInvariants: the name list has exactly as many entries as the axis, every non-default name occurs once, getIndex(getName(i)) == i for every named i, and every name that getIndex accepts is the name getName returns at that index.", "quantifier": "every initial object, every finite sequence of the listed operations with every argument", "why_tests_cant": "the number of histories is infinite and the two internal maps are updated by different code in every operation", "anchors": ["nimble/core/data/axis.py:_setNames", "nimble/core/data/axis.py:_genericStructuralFrontend", "nimble/core/data/axis.py:_permute", "nimble/core/data/axis.py:_setInsertedCountAndNames", "nimble/core/data/base.py:checkInvariants", "nimble/core/data/base.py:transpose"]}
{"id": "C02", "title": "setNames on a whole axis is exact", "statement": "points.setNames(list) / features.setNames(list) succeeds exactly when the list has one entry per point/feature and no non-None name occurs twice; afterwards getNames() returns that very list. When it is refused the names are what they were before.", "quantifier": "every axis length, every prior name state, every list of names and Nones", "why_tests_cant": "quantifies over all lists of names and prior states, including the refusal branches", "anchors": ["nimble/core/data/axis.py:_setNames", "nimble/core/data/axis.py:_getNames"]}
{"id": "C03", "title": "Partial renaming renames exactly the given entries", "statement": "points.setNames(new, oldIdentifiers=old) with distinct identifiers and distinct new names that are not used elsewhere gives getNames() with exactly those entries replaced, keeps lookup and listing consistent, and with a name already in use elsewhere is refused without effect. (Repeated new names or repeated Nones are accepted by the code and break the invariant.)", "quantifier": "every name state, every list of identifiers and new names", "why_tests_cant": "the failure needs a particular coincidence of repeated None/new names over several entries; a universally quantified statement exposes it", "anchors": ["nimble/core/data/axis.py:_setNames"]}
{"id": "C04", "title": "Identifier resolution", "statement": "getIndex(int) wraps one negative turn and is accepted exactly for -n <= i < n; getIndex(str) is accepted exactly for existing names and returns their position; the result is always a valid index; an empty axis accepts nothing. With obj[...]-style float identifiers only integral floats are accepted (and then the code checks no range).", "quantifier": "every axis length, every name state, every integer, string or float identifier", "why_tests_cant": "boundary behaviour for all lengths and all integers", "anchors": ["nimble/core/data/axis.py:_getIndex", "nimble/core/data/axis.py:_getIndexByName", "nimble/core/data/axis.py:_hasName"]}
{"id": "C05", "title": "Slice, list and boolean keys select the documented indices", "statement": "Slice keys are inclusive at both ends and default to the whole axis; a list key selects the given identifiers in the given order and is refused if two identifiers denote the same index; a full-length boolean key selects the True positions; every accepted key other than floats/over-long booleans selects only valid distinct indices.", "quantifier": "every axis length and name state, every slice (start, stop, step), list and boolean key", "why_tests_cant": "all combinations of negative, omitted and stepped bounds", "anchors": ["nimble/core/data/axis.py:_processMultiple", "nimble/core/data/axis.py:_getitem", "nimble/core/data/base.py:__getitem__"]}
{"id": "C06", "title": "extract is a partition of the object", "statement": "points.extract / features.extract with any selector returns exactly the selected points (features) in selection order with their names and leaves exactly the others in their original order with their names; nothing is lost, duplicated or altered, and shapes add up.", "quantifier": "every well-formed object, either axis, every accepted selector (identifiers, function, start/end, number)", "why_tests_cant": "all sizes, selectors and orders", "anchors": ["nimble/core/data/axis.py:_extract", "nimble/core/data/axis.py:_genericStructuralFrontend", "nimble/core/data/listAxis.py:_structuralBackend_implementation", "nimble/core/data/matrixAxis.py:_structuralBackend_implementation"]}
{"id": "C07", "title": "copy, retain, delete and count agree with extract", "statement": "For the same selector points.copy returns what extract would return and leaves the object unchanged; retain leaves in the object what extract would return; delete leaves what extract leaves; count returns the number of points extract would return.", "quantifier": "every well-formed object, either axis, every accepted selector", "why_tests_cant": "relational property between four operations for all inputs", "anchors": ["nimble/core/data/axis.py:_copy", "nimble/core/data/axis.py:_retain", "nimble/core/data/axis.py:_delete", "nimble/core/data/axis.py:_count", "nimble/core/data/axis.py:_genericStructuralFrontend"]}
{"id": "C08", "title": "Range and number selectors", "statement": "start/end selectors are inclusive on both ends with omitted ends meaning the first/last element; number=k keeps the first k of the selected and is refused exactly when k < 1 or more than are selected; randomize without number is refused; a selector together with a range is refused.", "quantifier": "every axis length, start, end, number", "why_tests_cant": "boundary conditions over all integers", "anchors": ["nimble/core/data/axis.py:_genericStructuralFrontend", "nimble/core/data/axis.py:_validateStructuralArguments", "nimble/core/data/axis.py:_validateStartEndRange"]}
{"id": "C09", "title": "permute applies one permutation to data and names together", "statement": "permute(order) is accepted exactly when order resolves to a permutation of all indices; afterwards position k holds the point formerly at order[k], with its name; permuting by the inverse order restores the object.", "quantifier": "every well-formed object, either axis, every order list", "why_tests_cant": "all permutations of all sizes", "anchors": ["nimble/core/data/axis.py:_permute", "nimble/core/data/listAxis.py:_permute_implementation", "nimble/core/data/matrixAxis.py:_permute_implementation"]}
{"id": "C10", "title": "sort is a stable lexicographic sort carrying names", "statement": "sort(by=[f1,...,fk]) produces a rearrangement of the same points (with names attached) that is sorted lexicographically by f1,...,fk; points equal in all keys keep their order, also when reverse=True.", "quantifier": "every object, every non-empty key list, both directions, every total preorder of values", "why_tests_cant": "stability and lexicographic order over all data", "anchors": ["nimble/core/data/axis.py:_sort", "nimble/core/data/axis.py:_sortByIdentifier", "nimble/core/data/axis.py:_sortByNames", "nimble/core/data/axis.py:_sortByFunction"]}
{"id": "C11", "title": "insert then extract is the identity", "statement": "points.insert(i, other) / append places other's points, in order and with names, immediately before index i and moves nothing else; deleting that range gives the original object back; the argument is not modified.", "quantifier": "every pair of well-formed objects of compatible shape, every position, either axis", "why_tests_cant": "round trip over all sizes and positions", "anchors": ["nimble/core/data/axis.py:_insert", "nimble/core/data/axis.py:_setInsertedCountAndNames", "nimble/core/data/axis.py:_validateInsertableData"]}
{"id": "C12", "title": "insert aligns the other axis by name or refuses", "statement": "When both objects have fully specified names on the other axis, insert/append matches columns by name regardless of order, and is refused when the name sets differ or when an inserted name is already used on the inserted axis.", "quantifier": "every pair of objects and name assignments", "why_tests_cant": "all permutations of names", "anchors": ["nimble/core/data/axis.py:_alignNames", "nimble/core/data/axis.py:_validateReorderedNames", "nimble/core/data/axis.py:_validateEmptyNamesIntersection", "nimble/core/data/_dataHelpers.py:inconsistentNames"]}
{"id": "C13", "title": "transpose is an involution that swaps coordinates", "statement": "After transpose element (i,j) is the former element (j,i), point and feature names are exchanged, and transposing twice gives an object identical to the original.", "quantifier": "every well-formed object", "why_tests_cant": "all shapes including degenerate ones", "anchors": ["nimble/core/data/base.py:transpose", "nimble/core/data/list.py:_transpose_implementation"]}
{"id": "C14", "title": "flatten/unflatten round trip", "statement": "flatten(order) followed by unflatten(original shape, same order) gives back the same data for both orders; it gives back the names when every name was given (and no name contains the separator), and no names when none was given. unflatten refuses exactly when the shape product differs, there are fewer than two dimensions or the object is not one-dimensional.", "quantifier": "every non-empty object, both orders", "why_tests_cant": "all shapes and names; the name round trip fails when default and non-default names are mixed", "anchors": ["nimble/core/data/base.py:flatten", "nimble/core/data/base.py:_flattenNames", "nimble/core/data/base.py:unflatten", "nimble/core/data/base.py:_unflattenNames"]}
{"id": "C15", "title": "Name consistency check for binary operations", "statement": "The name check used by binary operations and insertion accepts two name lists exactly when no position carries two different names and no name carried at a position defaulted on the other side occurs elsewhere on the other side; the merged names then contain each side's names at their positions and remain distinct.", "quantifier": "every pair of equally long name lists with and without defaults", "why_tests_cant": "all placements of default names", "anchors": ["nimble/core/data/_dataHelpers.py:inconsistentNames", "nimble/core/data/_dataHelpers.py:mergeNames", "nimble/core/data/base.py:_validateEqualNames", "nimble/core/data/base.py:_genericBinary_axisNames"]}
{"id": "C16", "title": "isIdentical is an equivalence relation", "statement": "isIdentical is reflexive, symmetric and transitive on well-formed objects, treats missing values as equal, treats an absent name list like an all-default one, and implies equal shape and equal elements.", "quantifier": "every triple of objects", "why_tests_cant": "equivalence laws range over triples of arbitrary objects", "anchors": ["nimble/core/data/base.py:isIdentical", "nimble/core/data/_dataHelpers.py:equalNames", "nimble/core/data/_dataHelpers.py:unequalNames", "nimble/core/data/_dataHelpers.py:allDataIdentical"]}
{"id": "C17", "title": "Arithmetic results are independent of their operands", "statement": "Modifying the object returned by a binary arithmetic operation never changes the shape or contents of the operands.", "quantifier": "every operand pair and every later sequence of structural modifications", "why_tests_cant": "needs a history of two objects; a shared mutable list only shows up after a later operation", "anchors": ["nimble/core/data/base.py:_genericBinaryOperations", "nimble/core/data/axis.py:_genericStructuralFrontend"]}
{"id": "C18", "title": "Every representation computes the same result (Sparse against dense)", "statement": "The Sparse representation answers element access, structural copy/extract, permute, insert, transpose and equality exactly as the dense representation holding the same values does.", "quantifier": "every sparse object in any internal order, every operation and argument of the kind", "why_tests_cant": "refinement over all operation sequences and internal orders", "anchors": ["nimble/core/data/sparse.py:_getitem_implementation", "nimble/core/data/sparse.py:_sortInternal", "nimble/core/data/sparseAxis.py:_structuralBackend_implementation", "nimble/core/data/sparseAxis.py:_insert_implementation"]}
{"id": "C19", "title": "merge is the documented join", "statement": "merge on point names or on a feature yields for left/union/intersection exactly the documented points and features; each element comes from the caller or the callee when present there and is missing otherwise; conflicting values are refused.", "quantifier": "every pair of objects with names, every point/feature mode", "why_tests_cant": "all overlaps of name sets and values", "anchors": ["nimble/core/data/base.py:merge", "nimble/core/data/base.py:_genericMergeFrontend", "nimble/core/data/list.py:_merge_implementation"]}
{"id": "C20", "title": "K-fold cross validation partitions the points", "statement": "The folds made for n points and k folds are disjoint, cover every point exactly once, are non-empty and differ in size by at most one; it is refused exactly when k <= 0 or k > n.", "quantifier": "every n, k and every shuffle", "why_tests_cant": "all n, k and random shuffles", "anchors": ["nimble/core/tune.py:KFoldIterator.makeFoldList"]}
{"id": "C21", "title": "Cross validation keeps X and Y aligned and never trains on test points", "statement": "In every fold the training and testing sets of X and Y are cut and shuffled by the same indices, so row i of trainX still belongs to row i of trainY; train and test are disjoint and together are all points; across all folds every point is tested exactly once.", "quantifier": "every data list, every fold list that partitions the points, every shuffle", "why_tests_cant": "quantifies over random shuffles", "anchors": ["nimble/core/tune.py:FoldIterator.__next__", "nimble/core/tune.py:GroupFoldIterator.makeFoldList", "nimble/core/tune.py:CrossValidator._validate"]}
{"id": "C22", "title": "Brute force tuning tries every combination exactly once", "statement": "BruteForce yields every element of the product of all Tune values (fixed arguments held fixed) exactly once and then stops.", "quantifier": "every argument dictionary", "why_tests_cant": "all numbers and sizes of Tune values", "anchors": ["nimble/core/tune.py:BruteForce.__init__", "nimble/core/tune.py:BruteForce.__next__"]}
{"id": "C23", "title": "The validator remembers the best result", "statement": "After any sequence of recorded validations the best result is the optimum of all recorded performances in the performance function's direction, with the arguments of its first occurrence; unrecorded validations have no effect.", "quantifier": "every sequence of validations", "why_tests_cant": "all histories", "anchors": ["nimble/core/tune.py:Validator.validate"]}
{"id": "C24", "title": "Consecutive tuning visits one argument at a time", "statement": "Consecutive tuning with one loop tries the first values of all Tune arguments and then, argument by argument in order, each remaining value while earlier arguments are held at their best and later ones at their first values; no combination is tried twice; it terminates.", "quantifier": "every argument dictionary, order and performance function", "why_tests_cant": "all shapes of search spaces", "anchors": ["nimble/core/tune.py:Consecutive.__next__"]}
{"id": "C25", "title": "Configuration get reflects the latest set; saving changes nothing observable", "statement": "get(section, option) returns the last value set, else the value in the file; saveChanges (of everything, a section or one option) does not change what get returns and makes the file agree on what was saved; get() and get(section) return the same values option by option and do not change later answers.", "quantifier": "every history of set/get/saveChanges/setDefault calls", "why_tests_cant": "all histories of a stateful store with two layers", "anchors": ["nimble/core/configuration.py:SessionConfiguration.set", "nimble/core/configuration.py:SessionConfiguration.get", "nimble/core/configuration.py:SessionConfiguration.saveChanges"]}
{"id": "C26", "title": "Configuration hooks see every new value", "statement": "Whenever set() changes the effective value of a hooked option the hook is called with that value; a hook set to None can never be replaced.", "quantifier": "every history of set/hook/saveChanges calls", "why_tests_cant": "all histories; the early return when a value returns to the file's value skips the hook", "anchors": ["nimble/core/configuration.py:SessionConfiguration.set", "nimble/core/configuration.py:SessionConfiguration.hook"]}
{"id": "C27", "title": "Alternate randomness never leaks", "statement": "Leaving random.alternateControl, normally or by an exception, restores both generators and the permission to set the seed to what they were on entry, whatever happened inside, including nested uses; setSeed is refused inside.", "quantifier": "every nested program of draws, setSeed calls, exceptions and alternateControl blocks", "why_tests_cant": "all nestings and exception points", "anchors": ["nimble/random/randomness.py:alternateControl", "nimble/random/randomness.py:setSeed"]}
{"id": "C28", "title": "Fill functions change matched elements only", "statement": "fill.constant/forwardFill/backwardFill/mean/median/mode/interpolate return a vector of the same length in which every unmatched element is unchanged; matched elements become the constant, the nearest unmatched value before/after, the statistic of the unmatched values, or the interpolated value; forward (backward) fill is refused exactly when the first (last) element matches.", "quantifier": "every vector and matcher", "why_tests_cant": "all vectors and match patterns", "anchors": ["nimble/fill/fill.py:constant", "nimble/fill/fill.py:forwardFill", "nimble/fill/fill.py:backwardFill", "nimble/fill/fill.py:statsBackend", "nimble/fill/fill.py:interpolate"]}
{"id": "C29", "title": "Query strings mean what they say", "statement": "'name op value' built from a name and value without padded operators or 'is' parses to exactly that name, operator and value; 'op value' parses as an element query; strings with several padded operators are refused rather than guessed.", "quantifier": "every name, operator and value string", "why_tests_cant": "all strings", "anchors": ["nimble/match/query.py:QueryString.__init__", "nimble/match/query.py:QueryString.__call__"]}
{"id": "C30", "title": "mapReduce groups all mapped values by key", "statement": "mapReduce calls the reducer once per distinct key, in order of first occurrence, with exactly the mapped values of that key in order, and the result has one point per non-None reduction.", "quantifier": "every data, mapper and reducer", "why_tests_cant": "all mappers and data", "anchors": ["nimble/core/data/axis.py:_mapReduce"]}
{"id": "C31", "title": "groupByFeature partitions the points", "statement": "The groups of groupByFeature contain every point exactly once (without the grouping feature), in original order, under the key of its grouping value(s); countUniqueValueOnly gives the sizes of these groups.", "quantifier": "every data object and grouping feature(s)", "why_tests_cant": "all data", "anchors": ["nimble/core/data/base.py:groupByFeature"]}
{"id": "C32", "title": "transformFeatureToIntegers is a reversible relabelling", "statement": "The feature is replaced by integers 0..k-1, equal values getting equal integers and different values different ones, zero staying zero, and the returned dictionary maps every integer back to the value it replaced; other features are untouched.", "quantifier": "every feature vector", "why_tests_cant": "all vectors and positions of zero", "anchors": ["nimble/core/data/base.py:transformFeatureToIntegers"]}
{"id": "C33", "title": "replaceFeatureWithBinaryFeatures is a one-hot encoding", "statement": "The feature is replaced in place by one 0/1 feature per distinct value; every point has exactly one 1, in the column of its value; all other features keep their values and relative order.", "quantifier": "every object and feature", "why_tests_cant": "all data", "anchors": ["nimble/core/data/base.py:replaceFeatureWithBinaryFeatures"]}
{"id": "C34", "title": "trainAndTestSets splits data and labels consistently", "statement": "The train and test sets are disjoint and together contain every point once, the test set has round(testFraction*n) points, and rows of X and Y sets correspond, for label objects and for label identifiers.", "quantifier": "every object, labels, fraction and shuffle", "why_tests_cant": "all sizes, fractions and shuffles", "anchors": ["nimble/core/data/base.py:trainAndTestSets"]}
{"id": "C35", "title": "repeat and unique", "statement": "repeat(k) contains each point k times (block-wise or consecutively) with distinct names; unique keeps exactly the first occurrence of each distinct point in order with its name, and is idempotent.", "quantifier": "every object, k, both orders, both axes", "why_tests_cant": "all data", "anchors": ["nimble/core/data/axis.py:_repeat", "nimble/core/data/axis.py:_unique", "nimble/core/data/_dataHelpers.py:denseAxisUniqueArray", "nimble/core/data/listAxis.py:_repeat_implementation"]}
{"id": "C36", "title": "Collapsing and expanding features are inverse", "statement": "splitByCollapsingFeatures produces one point per (point, collapsed feature) with the retained values; combineByExpandingFeatures on the two new features gives the original table back when retained values identify points.", "quantifier": "every object and feature selection", "why_tests_cant": "round trip over all tables", "anchors": ["nimble/core/data/points.py:_splitByCollapsingFeatures", "nimble/core/data/points.py:_combineByExpandingFeatures", "nimble/core/data/_dataHelpers.py:fillArrayWithCollapsedFeatures", "nimble/core/data/_dataHelpers.py:fillArrayWithExpandedFeatures"]}
{"id": "C37", "title": "CSV names and values survive a save/load round trip", "statement": "A value or name written by save(...csv) is read back unchanged by the csv reader.", "quantifier": "every name string and cell string", "why_tests_cant": "all strings; quoting depends on commas only, so quotes and line breaks without a comma are not protected", "anchors": ["nimble/core/data/_dataHelpers.py:csvCommaFormat", "nimble/core/data/base.py:_writeFeatureNamesToCSV", "nimble/core/data/list.py:_saveCSV_implementation"]}
{"id": "C38", "title": "Arguments and keyword arguments merge without loss", "statement": "mergeArguments returns exactly the union of both dictionaries and is refused exactly when they disagree on a common key; neither input is modified or aliased.", "quantifier": "every pair of dictionaries", "why_tests_cant": "all dictionaries", "anchors": ["nimble/_utility.py:mergeArguments"]}
{"id": "C39", "title": "matrixPower is repeated multiplication", "statement": "matrixPower(p) equals the product of p copies of the matrix (the identity for 0, copies of the inverse for negative p) and powers add: A^(m+n) = A^m A^n.", "quantifier": "every square matrix and integer power", "why_tests_cant": "all sizes and exponents", "anchors": ["nimble/core/data/base.py:matrixPower"]}
{"id": "C40", "title": "Views read exactly their window and are read only", "statement": "view(ps, pe, fs, fe) shows exactly the elements and names of the window with inclusive ends; views of views compose; every modifying method of a view is refused and leaves the source unchanged.", "quantifier": "every object and window", "why_tests_cant": "all windows and nestings", "anchors": ["nimble/core/data/base.py:_view_backend", "nimble/core/data/views.py:BaseView", "nimble/core/data/views.py:AxisView"]}
{"id": "C41", "title": "Displayed index selection is within bounds", "statement": "When a display is truncated the shown row (column) indices are strictly increasing, within range, take indices from both ends and number no more than allowed.", "quantifier": "every allowed count and range", "why_tests_cant": "all sizes", "anchors": ["nimble/core/data/_dataHelpers.py:indicesSplit"]}
{"id": "C42", "title": "Confusion-matrix based metrics are consistent", "statement": "The confusion matrix counts every prediction once; fractionCorrect + fractionIncorrect = 1; recall, precision, specificity and F1 equal their textbook counts and lie in [0,1] when defined.", "quantifier": "every pair of label vectors", "why_tests_cant": "all vectors", "anchors": ["nimble/calculate/loss.py", "nimble/calculate/binary.py", "nimble/calculate/similarity.py"]}
{"id": "C43", "title": "Tune ranges stay within their bounds", "statement": "Tune(start, end, change, changeType) generates the values start, start∘change, ... up to and never beyond end, in both directions, and always terminates.", "quantifier": "every start, end, change and change type", "why_tests_cant": "all numeric combinations", "anchors": ["nimble/core/tune.py:Tune.__init__"]}
{"id": "C44", "title": "Multi-class reductions vote correctly", "statement": "One-vs-all assigns each point the label of its highest scoring binary problem and one-vs-one the label with the most votes among the pairwise problems, each unordered pair of labels being trained exactly once.", "quantifier": "every set of labels and every binary outcome", "why_tests_cant": "all label sets and outcomes", "anchors": ["nimble/core/interfaces/universal_interface.py", "nimble/core/interfaces/_interface_helpers.py"]}
{"id": "C45", "title": "Sparse duplicates are merged without changing the matrix", "statement": "Removing duplicate coordinates from a coordinate-format matrix leaves each coordinate once with the sum of its numeric entries; the represented matrix is unchanged, the operation is idempotent, and duplicates with a non-numeric entry are refused.", "quantifier": "every coordinate list", "why_tests_cant": "all coordinate multisets", "anchors": ["nimble/_utility.py:removeDuplicatesNative"]}
{"id": "C46", "title": "Refused operations leave the object unchanged", "statement": "A structural operation, renaming or sort that raises an exception leaves the data and names of the object as they were before the call.", "quantifier": "every object, every operation and argument for which the call raises", "why_tests_cant": "Every argument that can make some step of an operation fail must be considered, including those that fail after earlier steps succeeded.", "anchors": ["nimble/core/data/axis.py:_sortByIdentifier", "nimble/core/data/axis.py:_genericStructuralFrontend", "nimble/core/data/axis.py:_setNames"]}
{"id": "C47", "title": "Objects with non-conflicting names can be joined", "statement": "insert/append accepts an object whose names along the other axis agree with the caller's wherever both are given (no position carries two different names, no name occurs at different positions).", "quantifier": "every pair of objects with arbitrary partial names", "why_tests_cant": "Name lists with arbitrary patterns of missing names are unboundedly many.", "anchors": ["nimble/core/data/axis.py:_alignNames", "nimble/core/data/axis.py:_validateReorderedNames"]}
{"id": "C48", "title": "Seeded randomness is reproducible", "statement": "A block run under random.alternateControl(seed), or a program started by a successful random.setSeed(seed), draws the same values and ends the same way whatever the state of the generators before.", "quantifier": "every program using the two generators (any draws, nested alternate control, refused seeds, exceptions, decisions depending on draws) and every prior generator state", "why_tests_cant": "Programs and prior histories are unboundedly many.", "anchors": ["nimble/random/randomness.py:setSeed", "nimble/random/randomness.py:alternateControl"]}
{"id": "C49", "title": "random.data does not disturb the generators and its representations agree", "statement": "random.data with a randomSeed leaves the global generators as they were and gives the same data for the same seed; without one it takes exactly one draw; the Sparse and dense return types hold the same matrix, with exactly as many nonzero elements as positions were drawn.", "quantifier": "every size, every choice of distinct positions and values, every seed and generator state", "why_tests_cant": "Sizes, positions and seeds range over unbounded sets.", "anchors": ["nimble/random/randomness.py:data", "nimble/random/randomness.py:_getValidSeed"]}
{"id": "C50", "title": "A refused setSeed has no effect", "statement": "random.setSeed either reseeds both generators or raises and leaves both as they were.", "quantifier": "every seed and every generator state", "why_tests_cant": "A test sees one refused seed; the claim is about all seeds refused by either generator.", "anchors": ["nimble/random/randomness.py:setSeed"]}
{"id": "C51", "title": "calculate keeps results and names together", "statement": "points.calculate(f, points=ids) / features.calculate returns one point (feature) per selected one, in the order requested, holding exactly what f returned for it, and named like the point it was computed from.", "quantifier": "every object, every function, every points/features argument in every order", "why_tests_cant": "the names are attached by a separate rule depending on how many points are selected; tests use increasing selections", "anchors": ["nimble/core/data/axis.py:_calculate_backend", "nimble/core/data/axis.py:_calculate_implementation"]}
{"id": "C52", "title": "transform changes exactly the selected points", "statement": "points.transform(f, points=ids) / features.transform replaces each selected point (feature) by f of it and leaves everything else, the names and the shape unchanged; it raises only if f raises on or returns the wrong number of values for a selected point; a call that raises leaves the object unchanged.", "quantifier": "every object, every function (also raising), every selection", "why_tests_cant": "all functions and all failure points", "anchors": ["nimble/core/data/axis.py:_transform", "nimble/core/data/listAxis.py:_transform_implementation"]}
{"id": "C53", "title": "nimble.data stores exactly the given rows", "statement": "nimble.data(rows, pointNames, featureNames) holds exactly the given rows, values treated as missing stored as nan, under exactly the given names; with automatic names the first row is taken as feature names exactly when it is a header (only text above a row with a number) and no other row is dropped, and nothing is invented; rows of different lengths are refused.", "quantifier": "all lists of rows, all name arguments, all missing-value settings", "why_tests_cant": "the header detection depends on the contents of the first two rows, which range over an unbounded set", "anchors": ["nimble/core/create.py:data", "nimble/core/_createHelpers.py:autoDetectNamesFromRaw", "nimble/core/_createHelpers.py:extractNamesFromRawList", "nimble/core/_createHelpers.py:_replaceMissingData", "nimble/core/_createHelpers.py:convertData"]}
{"id": "C54", "title": "Assignment writes exactly the addressed cells", "statement": "obj[x, y] = v, with keys that denote positions (identifiers, lists, slices or booleans), writes v in exactly the addressed cells and changes no other element, no name and not the shape; a key that denotes nothing is refused and leaves the object unchanged.", "quantifier": "every object, every pair of keys and every value", "why_tests_cant": "ranges over all shapes, name states and keys; a test only assigns through a few keys", "anchors": ["nimble/core/data/base.py:__setitem__", "nimble/core/data/axis.py:_processMultiple", "nimble/core/data/list.py:_setitem_implementation"]}
{"id": "C55", "title": "toString terminates and fits the line width", "statement": "toString returns for every object and width limit; the features shown are the first and the last ones in order, with a placeholder exactly when some are left out, the lines are no wider than the limit, and features that all fit are all shown.", "quantifier": "every number of features, every column width and every width limit", "why_tests_cant": "termination of a loop whose bookkeeping can shrink; all widths and limits", "anchors": ["nimble/core/data/base.py:toString", "nimble/core/data/base.py:_arrangeDataWithLimits"]}
{"id": "C56", "title": "Matrix multiplication", "statement": "a @ b (and matrixMultiply) is accepted exactly when both objects have points and features, the left feature count equals the right point count and the names on the inner axes agree wherever both are set; the result is the matrix product with the left operand's point names and the right operand's feature names, and the product is associative.", "quantifier": "every pair (triple) of numeric objects with any names", "why_tests_cant": "all sizes, values and names", "anchors": ["nimble/core/data/base.py:__matmul__", "nimble/core/data/base.py:_genericMatMul", "nimble/core/data/base.py:matrixMultiply"]}
{"id": "C57", "title": "replaceRectangle replaces exactly the rectangle", "statement": "replaceRectangle(value, pointStart, featureStart, pointEnd, featureEnd) makes exactly the elements between the start and the end (both included) equal to the constant, or to the elements of the given object, whose size must be that of the rectangle; without ends the rectangle has the size of the object and must fit; every other element, the shape and the names stay; a refused call changes nothing.", "quantifier": "every object in every representation and internal order, every rectangle, constant and replacement object", "why_tests_cant": "all sizes, positions and internal orders of stored entries; a walk that overwrites the arrays it is reading", "anchors": ["nimble/core/data/base.py:replaceRectangle", "nimble/core/data/list.py:_replaceRectangle_implementation", "nimble/core/data/sparse.py:_replaceRectangle_implementation"]}
{"id": "C58", "title": "The declared best value of a performance function is its bound", "statement": "For every performance function which declares an optimal direction and a best value (root mean square error, mean absolute error, fraction incorrect, variance fraction remaining, fraction correct, r squared, cosine similarity), no prediction is scored better than the declared best, a perfect prediction is scored exactly it, and except for the cosine similarity only a perfect prediction is.", "quantifier": "every pair of numeric label vectors of the same length", "why_tests_cant": "all vectors of numbers; tuning stops or compares by this bound", "anchors": ["nimble/calculate/loss.py", "nimble/calculate/similarity.py", "nimble/calculate/utility.py:performanceFunction"]}
{"id": "C59", "title": "Normalization functions meet their definitions for all data, and values2 is normalized with the parameters of values1", "statement": "rangeNormalize maps the least value to start and the greatest to end by one increasing linear function applied to both objects; meanNormalize leaves values1 with mean 0; meanStandardDeviationNormalize leaves it with mean 0 and standard deviation 1 (or only subtracts the mean if all values are equal); percentileNormalize turns each value into (k-1)/(n-1) for its rank k (mean rank for equal values) among the n values which are not missing, whatever order the sort leaves equal values in, and interpolates the values of values2 between their neighbours in values1, a value occurring in values1 getting the same percentile. Missing values stay missing and do not count.", "quantifier": "all pairs of vectors with missing values anywhere, all start < end, all orders of equal values", "why_tests_cant": "The results depend on ties, on the number of missing values, on constant vectors and on where the values of values2 fall; a test fixes a few vectors (and never two missing values).", "anchors": ["nimble/calculate/normalize.py:meanNormalize", "nimble/calculate/normalize.py:meanStandardDeviationNormalize", "nimble/calculate/normalize.py:rangeNormalize", "nimble/calculate/normalize.py:percentileNormalize", "nimble/calculate/normalize.py:_interpPercentile"]}
{"id": "C60", "title": "The type of a csv feature does not depend on the order of the points", "statement": "Loading a csv file, the type of a feature (int, float, bool or string) is a function of the set of its values only: the same points in another order give features of the same types.", "quantifier": "every list of texts of a feature, and every permutation of it", "why_tests_cant": "all columns of texts and all their orders; the type is tracked row by row", "anchors": ["nimble/core/_createHelpers.py:_csvColTypeTracking", "nimble/core/_createHelpers.py:_loadcsvUsingPython"]}
{"id": "C61", "title": "Names given when loading a csv file are the names of the object", "statement": "When point names or feature names are given as a list for loading a csv file, the object has exactly these names, or an error is raised.", "quantifier": "every file, every list of names, every other argument", "why_tests_cant": "all files and arguments; the detection of names rewrites the arguments", "anchors": ["nimble/core/_createHelpers.py:autoDetectNamesFromRaw", "nimble/core/_createHelpers.py:_checkCSVForNames", "nimble/core/_createHelpers.py:_loadcsvUsingPython"]}
{"id": "C62", "title": "Statistics of a Sparse vector are those of its elements", "statement": "For every point or feature of a Sparse object, nimble.calculate.proportionMissing, proportionZero, minimum, maximum, mean, variance (sample or population), mode and uniqueCount return what they return for the same elements in another type: missing values are ignored by the numeric statistics, zeros which are not stored count, the mode is the middle (left of the middle) of the sorted most frequent values, and the order of the elements does not matter.", "quantifier": "all vectors (any length, any number and position of zeros, missing values and duplicates, any order of the stored entries)", "why_tests_cant": "The Sparse program works from the stored entries and counts; agreement with the dense program must hold for every pattern of zeros, missing values and ties.", "anchors": ["nimble/calculate/statistic.py: proportionMissing, proportionZero, _minmax, mean, mode, variance, uniqueCount", "nimble/core/data/sparse.py: _iterateElements_implementation"]}
{"id": "C63", "title": "Copies as Python lists and dictionaries keep every element and name", "statement": "obj.copy('python list') contains exactly the elements, by point or (rowsArePoints=False) by feature; outputAs1D gives the elements of a single point or feature in order and is refused otherwise; copy('list of dict') has one dictionary per point whose keys are the feature names in order and whose values are the elements; copy('dict of list') maps each feature name to its values. nimble.data of such a copy gives the elements and names back, for dictionaries also with the feature names given in any other order.", "quantifier": "all objects with all names, both orientations, every reordering of names given to nimble.data", "why_tests_cant": "Key collisions, automatic name detection and numpy's type promotion depend on the names and elements; the round trip must hold for every object.", "anchors": ["nimble/core/data/base.py: copy, _copy_outputAs1D, _copy_pythonList, _copy_nestedPythonTypes", "nimble/core/data/_dataHelpers.py: createListOfDict, createDictOfList", "nimble/core/_createHelpers.py: _extractNamesFromDict, _extractNamesFromListOfDict, _dictNames"]}
{"id": "C64", "title": "Broadcasting a single point or feature", "statement": "v.stretch op X combines the only point (feature) v with every point (feature) of X element by element; it is accepted exactly when the lengths along the shared axis are equal and the names along it do not contradict each other, and whether default names were ever read makes no difference; names of the shared axis are the names of both sides; along the repeated axis X's names are kept when v's name is a default, v_1, v_2, ... are used when X has no names, and no names remain when both have some; with two stretches (a point and a feature) the result is the table of all pairs; logical operators follow the same name rules.", "quantifier": "all objects v with one point or one feature, all X, all name assignments, all element-wise functions", "why_tests_cant": "The output name rule has eight branches depending on the histories of both name tables and the lengths of both axes; tests check a few combinations.", "anchors": ["nimble/core/data/stretch.py:Stretch", "nimble/core/data/base.py:Base.stretch", "nimble/core/data/_dataHelpers.py:mergeNames"]}
{"id": "C65", "title": "k-nearest-neighbour classification", "statement": "nimble.KNNClassifier predicts, for every point, a label that is most frequent among the k training points with the smallest Euclidean distance (all of them when there are fewer; equally distant points in training order), and among equally frequent labels the one met first when going from the nearest neighbour outwards; the scores of a point are the numbers of those neighbours per label, sum to the number of neighbours, and the predicted label has the highest; without neighbours an exception is raised.", "quantifier": "all training sets, labels, test points and k", "why_tests_cant": "The dot product formula for distances, stable sorting, vote counting and two tie rules interact; tests try a handful of small sets and cannot rule out a wrong tie or cut for others.", "anchors": ["nimble/learners/knn_classification.py:KNNClassifier"]}
{"id": "C66", "title": "k-nearest-neighbour imputation", "statement": "nimble.KNNImputation changes only missing values: every present value and the shape are kept, each missing value is replaced by what the neighbour learner predicts from the points with no missing value in the features concerned, never from the point itself and never from missing values; so nothing missing is left; this holds for any data the trained learner is applied to.", "quantifier": "all data, all patterns of missing values, all neighbour learners, all pairs of training and applied data", "why_tests_cant": "There are exponentially many patterns of missing values; the index lists are built and shrunk in place while looping.", "anchors": ["nimble/learners/knn_imputation.py:KNNImputation"]}
{"id": "C67", "title": "Ridge regression", "statement": "nimble.RidgeRegression learns, for each predicted feature, the weights minimising the sum of squared errors plus lamb times the sum of squared weights, which are unique; with lamb > 0 training always succeeds, with lamb = 0 exactly when ordinary least squares has a unique solution, and otherwise raises numpy's LinAlgError; predictions are the linear function of each point with those weights; the order of the training points is irrelevant; nimble.MultiOutputRidgeRegression predicts the same, feature by feature.", "quantifier": "all training and test data of any size, all labels, all lamb >= 0, over any ordered field", "why_tests_cant": "Optimality is a statement about all alternative weight vectors; tests compare a few learned weights with another library.", "anchors": ["nimble/learners/ridge_regression.py:RidgeRegression", "nimble/learners/multioutput_ridge_regression.py:MultiOutputRidgeRegression"]}
{"id": "C68", "title": "The log keeps every entry under its session", "statement": "Whatever loggers are opened, used and closed in whatever order, nothing recorded is lost or changed and every logged message is recorded exactly once, in order; all entries of a session carry one number, different sessions have different numbers, and consecutive sessions that logged something are numbered 0, 1, 2, ...; nimble.log refuses headings over 50 characters without recording anything.", "quantifier": "all histories of opening, logging and closing by any number of processes", "why_tests_cant": "The number of a session depends on what other processes had recorded when it was opened; tests run one process.", "anchors": ["nimble/core/logger/session_logger.py:SessionLogger.setup", "nimble/core/logger/session_logger.py:SessionLogger.log", "nimble/core/logger/session_logger.py:log"]}
{"id": "C69", "title": "showLog shows exactly the requested entries", "statement": "showLog shows the entries that satisfy all filters, in the order recorded, under a heading with their session: sessions from leastSessionsAgo to mostSessionsAgo (inclusive) before the newest, times from startDate to endDate (strings in the three documented formats or datetime objects, anything else refused), types or texts containing the searched text, at the documented level of detail; of those the latest maximumEntries.", "quantifier": "all logs, all valid times, all combinations of filters, all search texts", "why_tests_cant": "The filters combine freely, times are compared as texts and the search text becomes an SQL pattern; tests compare sizes of a few outputs.", "anchors": ["nimble/core/logger/session_logger.py:showLog", "nimble/core/logger/session_logger.py:_showLogQueryAndValues", "nimble/core/logger/session_logger.py:_showLogOutputString", "nimble/core/logger/session_logger.py:stringToDatetime"]}
{"id": "C70", "title": "Every learning call of the user is checked", "statement": "train, trainAndApply, trainAndTest, normalizeData, fillMatching and a trained learner's apply and test recognise each call made by the user as such (and check its arguments), whatever was called before, whatever raised, and in whatever thread; the calls they make in turn are not taken for the user's.", "quantifier": "all histories of nested calls with exceptions, all interleavings of threads", "why_tests_cant": "The decision is kept in a global flag changed by every call; it depends on the whole history of calls.", "anchors": ["nimble/core/_learnHelpers.py:trackEntry", "nimble/core/learn.py:train"]}
{"id": "C71", "title": "The match functions say what they are named after", "statement": "missing, numeric, zero, positive, negative, infinity, boolean, integer, floating, true and false (and their non- counterparts) hold of exactly the values their documentation names; a match argument given as a constant or container matches exactly the values equal to it (or one of its members), with nan matching nan; anyX(data) holds iff some element of the object or list matches and allX(data) iff all do, whatever the shape of the object, and a failure of the match function is reported as it is.", "quantifier": "all values (None, Python and numpy booleans, integers, floats incl. infinities and nan, strings), all match arguments, all lists and all objects of every shape", "why_tests_cant": "The predicates are composed and applied to every element of objects of every shape; tests check selected values.", "anchors": ["nimble/match/match.py:missing", "nimble/match/match.py:anyAllValuesBackend", "nimble/match/match.py:_convertMatchToFunction"]}
{"id": "C72", "title": "nimble.fillMatching replaces exactly the matching elements by the learner's predictions", "statement": "After nimble.fillMatching(learner, matching, trainX, points=, features=) each matching element within the given points and features is the element at that position of the learner's result, every other element, the shape and all names are unchanged; nan outside the matching elements is refused; a failing call leaves trainX as it was.", "quantifier": "all objects, all learners, all match functions and boolean objects, all point and feature limits", "why_tests_cant": "The learner is arbitrary and the positions to fill are determined by the data; tests use a few imputers.", "anchors": ["nimble/core/learn.py:fillMatching", "nimble/core/data/base.py:Base.transformElements"]}
{"id": "C73", "title": "A TrainedLearner behaves as the last training says, and learners do not influence each other", "statement": "Over any history of train, retrain, incrementalTrain and apply calls, failing or not, a trained learner is changed only by calls made on it; after training and any number of successful retrain calls it predicts like a learner newly trained on the data of the last call, with every argument having the value it was given last; its arguments attribute says these values; a failing retrain leaves it as it was; apply uses the arguments of the call, else those of the training, and refuses others; a learner made with a multi-class strategy obeys the same rules.", "quantifier": "all histories of calls on any number of learners, all learners, data and argument values", "why_tests_cant": "The property is about histories of unbounded length and about hidden sharing between objects; tests retrain once or twice.", "anchors": ["nimble/core/interfaces/universal_interface.py:TrainedLearner.retrain", "nimble/core/interfaces/universal_interface.py:TrainedLearner.incrementalTrain", "nimble/core/interfaces/universal_interface.py:UniversalInterface.train", "nimble/core/interfaces/universal_interface.py:TrainedLearners"]}
{"id": "C74", "title": "Data-holdout tuning measures each argument set on its own and returns the best learner", "statement": "With Tuning(validation='data') the performance recorded for an argument set is that of a learner trained on the training data with exactly this set, however many sets were validated before; the learner returned by nimble.train has been trained with the best set, says so in its arguments, and tests with the recorded performance; other learners are unchanged.", "quantifier": "all sequences of validated argument sets, all learners, data and performance functions", "why_tests_cant": "The validator reuses one learner for all the sets, so the result for a set may depend on the whole history; tests try a few sequences.", "anchors": ["nimble/core/tune.py:HoldoutData", "nimble/core/learn.py:train"]}
{"id": "C75", "title": "Iterative selection walks to a local optimum among the given values", "statement": "With Tuning(selection='iterative') every selected argument set has the fixed values given and one of the tuned values for each tuned argument, the first has the middle values, at most maxIterations sets are selected, the best of the selected ones is kept, and unless the limit, the time or the threshold is reached the best set is one for which no change of an argument to a neighbouring value measures better; the performances measured are those of the sets tried, and nimble.train returns the best learner.", "quantifier": "all argument dictionaries with any number of tuned arguments and values, all performance functions, limits and learners", "why_tests_cant": "The walk depends on the performances of all neighbours met; tests use learners with one or two shapes of performance.", "anchors": ["nimble/core/tune.py:Iterative", "nimble/core/tune.py:HoldoutData", "nimble/core/tune.py:Tuning.copy"]}
{"id": "C76", "title": "A Tuning object reports the results of its last tuning", "statement": "After a successful tuning, allResults and allArguments list exactly the recorded validations, aligned, from best to worst (ties in the order of validation), and their heads are bestResult and bestArguments; for cross-validation deepResults is aligned with them; a Tuning object with its own performance function uses it in every call, one without uses the function of the call. A selection that may not use training data is accepted only with separate validation data.", "quantifier": "all performance functions that order their values strictly, all sequences of validations and all sequences of calls with one Tuning object", "why_tests_cant": "Alignment and stability must hold for every sequence of results and every history of calls with one object; tests use one tuning per object.", "anchors": ["nimble/core/tune.py: Tuning.__init__, Tuning.tune, bestResult, bestArguments, allResults, allArguments, deepResults", "nimble/core/tune.py: CrossValidator._validate, Validator.validate", "nimble/core/learn.py: _trainAndTestBackend"]}
{"id": "C77", "title": "Predictions and scores belong to the points and labels they are named after", "statement": "apply returns, for every test point, the learner's prediction under the name of the label feature it was trained on; with scoreMode='allScores' one feature per known label, in increasing order and named after it, holding the learner's score for that label; with 'bestScore' the same prediction followed by exactly the score 'allScores' has for the predicted label; point names are those of the test data. The known labels are those given since the last successful training. Only the documented score modes are accepted.", "quantifier": "all learners, all label sets with a linear order, all test data, all histories of train, retrain and incrementalTrain, failing or not", "why_tests_cant": "The alignment of scores, labels and names depends on label order, number of labels and the history of trainings; tests use a few label sets and single trainings.", "anchors": ["nimble/core/interfaces/universal_interface.py: TrainedLearner.apply, getScores, _formatScoresToOvA, _validTestData, retrain", "nimble/core/interfaces/custom_learner.py: _trainer, _incrementalTrainer, _getScoresOrder", "nimble/core/_learnHelpers.py: _validScoreMode, _2dOutputFlagCheck"]}
{"id": "C78", "title": "Holdout and group validation never use a point on both sides", "statement": "HoldoutProportion divides the points into int(p*n) validation points and all others as training points: no point is in both, none is lost, and every point keeps its own label, whether labels are an object or a feature of X. LeaveOneGroupOut drops from X and Y alike the points without a fold value, and its folds are the groups of equal fold values, so no group is both trained and tested on. X and Y (and validateX and validateY) always have equally many points; labels missing for validateX are the same feature of it that gives the training labels. The validation data is not empty and the labels are not the fold feature (violated).", "quantifier": "all data, labels as object or identifier, proportions, random choices without replacement, and fold features", "why_tests_cant": "The split is random; that no choice, size or way of writing an identifier mixes points up is a statement about all of them.", "anchors": ["nimble/core/tune.py: HoldoutProportion, HoldoutValidator, Validator.__init__, LeaveOneGroupOut, GroupFoldIterator"]}
{"id": "C79", "title": "Training, applying and testing in one call use the data they are given", "statement": "trainAndApply trains on trainX without its labels and on exactly those labels, and returns the learner's answer for testX, or for the very data it was trained on if there is no testX, under the point names of that data and the names of the labels. trainAndTest returns the performance of the answer for the test data, separated from its labels, against the labels that belong to it; without test data it is the training data; trainAndTestOnTrainingData is the same as trainAndTest without test data. normalizeData normalizes trainX and testX with one learner trained on trainX, and keeps point names, and feature names when the number of features does not change. Labels may be given as an object or as a feature of the data in all of these and in incrementalTrain.", "quantifier": "all learners, performance functions, data, names, and ways of giving the labels", "why_tests_cant": "That no combination of arguments compares the answers with labels of other points, or trains on the label feature, is a statement about all combinations and all data.", "anchors": ["nimble/core/learn.py: trainAndApply, trainAndTest, _trainAndTestBackend, trainAndTestOnTrainingData, normalizeData", "nimble/core/interfaces/universal_interface.py: train, TrainedLearner.test, TrainedLearner.apply, TrainedLearner.incrementalTrain"]}
{"id": "C80", "title": "A custom learner that passes validation works with the arguments that pass validation", "statement": "A CustomLearner subclass is accepted exactly when its learner type is known, train, incrementalTrain and apply start with the documented parameters, train or incrementalTrain is provided, getScores (if provided) has the parameters of apply, and it can be made without arguments; only a missing train is replaced, by incrementalTrain. Arguments are accepted exactly when every parameter of train and apply without a default is given and nothing else is. Accepted arguments can then be passed: train, apply, getScores and incrementalTrain do not fail because of the names of their arguments. Among several parameter sets one is chosen that lacks nothing whenever there is one.", "quantifier": "all classes (signatures, defaults, overridden methods), all sets of arguments", "why_tests_cant": "The claim ranges over all signatures and argument sets a user may write; tests use a handful of learner classes.", "anchors": ["nimble/core/interfaces/custom_learner.py: validateCustomLearnerSubclass, CustomLearnerInterface", "nimble/core/interfaces/universal_interface.py: _argumentValueValidation, _chooseBestParameterSet, _getMethodArguments"]}
{"id": "C81", "title": "The direction of a performance function is found and depends only on the order of its values", "statement": "calculate.detectBestResult(f) returns the declared `optimal` of f if it is 'min' or 'max'. Otherwise each trial runs f on known labels 0/1 and predictions of which none, the first, the first two, ... all are wrong (for labels, label and best score, or all scores), and says 'max' exactly when the values of f fall with the wrong predictions and strictly from all right to all wrong, 'min' when they rise. A function that falls (rises) for all known values in every format it accepts is found to be 'max' ('min') whatever random numbers are drawn; 'max' is returned only if the values fell in the main trial of some format (in all trials of a format with scores) and no format consistently rises. A strictly increasing change of the values of f never changes the answer, a strictly decreasing one swaps 'min' and 'max' and keeps refusals. Inconsistent functions are refused.", "quantifier": "all performance functions (that raise, return nan or a number, per format), all random numbers drawn by the trials, all strictly monotone changes of the values", "why_tests_cant": "the functions are arbitrary user code and the trials are random: a test runs one function with a few seeds", "anchors": ["nimble/calculate/utility.py:detectBestResult", "nimble/calculate/utility.py:_runTrialGivenParameters", "nimble/calculate/utility.py:_generatePredicted", "nimble/calculate/utility.py:_makeIncorrect", "nimble/calculate/utility.py:_generateMixedRandom", "nimble/core/tune.py:Validator.__init__"]}
{"id": "C82", "title": "replace exchanges exactly the named points or features", "statement": "points.replace(data, points) and features.replace(data, features) write the points (features) of data, in order, to the given locations and change nothing else: shape, names and all other points stay; if a location is given twice the last one counts. With an object as data it is accepted exactly when the locations are valid, as many as the points of data, and of the same length as the points of the object. Without locations the points of data replace the points of the same names (or all points if data replaces all). A flat list replaces one point or one feature, a list of rows the points. A refused call changes nothing.", "quantifier": "all well formed objects, data (objects or rows of any size and names), location lists and both axes", "why_tests_cant": "the combinations of shapes, names, duplicate and negative locations and the transposition of one-dimensional data are unbounded", "anchors": ["nimble/core/data/axis.py:Axis._replace", "nimble/core/data/points.py:Points.replace", "nimble/core/data/features.py:Features.replace", "nimble/core/data/_dataHelpers.py:constructIndicesList"]}
{"id": "C83", "title": "keepPoints and keepFeatures of nimble.data select exactly the named points and features, in that order", "statement": "nimble.data of a list of rows with keepPoints and/or keepFeatures gives the same object as loading everything and then keeping the points and features the lists name (index, negative index or name), in the order of the lists, with values and names following; names given for as many points (features) as are kept are the names of the kept ones. It succeeds whenever every member of the lists stands for a different point (feature) and the names are valid; a duplicate or unknown member is refused. With 'all' it is plain nimble.data. With rowsArePoints=False the lists still name points and features of the resulting object.", "quantifier": "all lists of rows, name arguments (automatic, True, False, lists), keep lists and both values of rowsArePoints", "why_tests_cant": "the interplay of name extraction, names for all or only the kept points, order of the lists and orientation has unboundedly many combinations", "anchors": ["nimble/core/_createHelpers.py:initDataObject", "nimble/core/_createHelpers.py:getKeepIndexValues", "nimble/core/_createHelpers.py:_checkForDuplicates"]}
{"id": "C84", "title": "keepPoints and keepFeatures of a csv file are applied correctly while it is read", "statement": "Loading a csv file with keepPoints and/or keepFeatures loads exactly the rows and columns the members of the lists stand for (an index from 0, or a name from the header, the first column or the given names), each member stands for exactly one point and no two for the same one, in the order of the lists, with the names following. The types of the features are determined from the kept values. With 'all' for both it is the plain loading of the file. Every valid list is accepted, every invalid one is refused with InvalidArgumentValue.", "quantifier": "all csv texts, name arguments, keep lists and number parsers", "why_tests_cant": "the rows are dropped while the file is read, in one pass with name detection and type tracking; all files, orders and combinations of names matter", "anchors": ["nimble/core/_createHelpers.py:_loadcsvUsingPython", "nimble/core/_createHelpers.py:_limitToKeptFeatures", "nimble/core/_createHelpers.py:_keepIndexValuesValidation"]}
{"id": "C85", "title": "transformElements changes exactly the chosen elements, to what the function returns", "statement": "transformElements(f, points, features, preserveZeros, skipNoneReturnValues): each element in the given points and features (by name or index, negative indices included) becomes what the function (of the value, or of value, point index and feature index; or a dictionary of values) returns for it; a zero stays zero if preserveZeros is given or the function of one argument maps 0 to 0; None is skipped if asked. All other elements, the names and the shape are unchanged. The call succeeds exactly if the function returns an element wherever it is asked. Matrix, List, DataFrame and Sparse objects end with the same elements.", "quantifier": "all objects, functions, dictionaries, limits and flags, for all four types", "why_tests_cant": "the loop changes the object while it reads it; Matrix changes the type of its array on the way depending on the values returned; Sparse visits only the stored entries", "anchors": ["nimble/core/data/base.py:Base.transformElements", "nimble/core/data/_dataHelpers.py:validateElementFunction", "nimble/core/data/_dataHelpers.py:modifyNumpyArrayValue", "nimble/core/data/matrix.py:Matrix._transform_implementation", "nimble/core/data/list.py:List._transform_implementation", "nimble/core/data/sparse.py:Sparse._transform_implementation"]}
{"id": "C86", "title": "calculateOnElements, matchingElements and countElements give the function's answer for every element", "statement": "calculateOnElements(f, points, features, ...) returns an object whose elements are what f gives for the elements of the chosen points and features, in the order of the lists, with no element lost, moved or changed; it fails only if f gives no element somewhere. matchingElements returns the truth values and the names of the chosen points and features. countElements returns the number of elements for which the condition holds. All four object types agree.", "quantifier": "all objects, functions, lists of points and features, flags and types", "why_tests_cant": "the values pass through numpy vectorization (typed by the first value) and through nimble.data with automatic detection of names, so the outcome depends on the values returned", "anchors": ["nimble/core/data/base.py:Base.calculateOnElements", "nimble/core/data/base.py:Base._calculate_backend", "nimble/core/data/base.py:Base._calculate_genericVectorized", "nimble/core/data/base.py:Base.matchingElements", "nimble/core/data/base.py:Base.countElements", "nimble/core/data/_dataHelpers.py:wrapMatchFunctionFactory", "nimble/core/data/sparse.py:Sparse._calculate_implementation", "nimble/core/data/dataframe.py:DataFrame._calculate_implementation"]}
{"id": "C87", "title": "iterateElements visits every element once in the stated order; countUniqueElements counts every element once", "statement": "obj.iterateElements(order, only) gives, one per next(), exactly the elements for which only answers true (all without only), each position once, point by point for order 'point' and feature by feature for order 'feature', and StopIteration ever after; other orders and a non-callable only are refused.  A Sparse object gives the same sequence as the dense object with the same elements, whatever the internal order of its entries, and is not changed.  obj.countUniqueElements(points, features) gives a dictionary whose keys are the distinct values at the chosen points and features (missing values counted as one value) and whose numbers say how often each occurs; the numbers add up to the number of chosen elements; Sparse and dense objects agree.", "quantifier": "all objects, element values, orders, predicates (that answer), number of calls of next(), all keys for points and features, all orders of the stored entries of a Sparse object", "why_tests_cant": "the sequence and the tally must be right for every table, predicate, selection and every internal order a Sparse object can have after any history", "anchors": ["nimble/core/data/base.py:iterateElements,countUniqueElements", "nimble/core/data/_dataHelpers.py:NimbleElementIterator,denseCountUnique,_limitAndConvertToArray", "nimble/core/data/sparse.py:_iterateElements_implementation,_countUnique_implementation,_sortInternal"]}
{"id": "C88", "title": "Data with more than two dimensions", "statement": "nimble.data of rectangular nested lists of three or more dimensions gives an object with exactly these dimensions and the given element at every path of indices, and refuses data that is not rectangular; copy('python list') gives the nested lists back; points[i] is the object of the remaining dimensions with the elements of point i; points[[i,...]], points.copy, extract, delete and retain keep the further dimensions and every element of the selected points; insert/append accept only objects of the same further dimensions and put the points at the asked position; flatten gives every element at its row-major position and unflatten undoes it; isIdentical compares the dimensions and the element at every path.", "quantifier": "all nested lists of any depth and size, all well-formed objects of any number of dimensions, all selectors, positions and paths of indices", "why_tests_cant": "The number of dimensions, their sizes and the paths are unbounded; flattening records the dimensions along one path only, so what happens elsewhere depends on arbitrary irregular data.", "anchors": ["nimble/core/_createHelpers.py:isHighDimensionData", "nimble/core/_createHelpers.py:flattenToOneDimension", "nimble/core/_createHelpers.py:flattenHighDimensionFeatures", "nimble/core/data/axis.py:_getitem", "nimble/core/data/axis.py:_genericStructuralFrontend", "nimble/core/data/axis.py:_validateInsertableData", "nimble/core/data/base.py:flatten", "nimble/core/data/base.py:unflatten", "nimble/core/data/base.py:_copy_pythonList", "nimble/core/data/list.py:_createNestedObject"]}
{"id": "C89", "title": "Arithmetic with a number, unary and logical operators", "statement": "obj op c and c op obj (+, -, *, /, //, %, **) give an object with the shape and names of obj in which every element is the element of obj at the same place combined with the number, in that order; text that is no number, a scalar that is no number and divisions by zero are refused with the documented exceptions. obj op= c makes the object equal to obj op c, and if refused changes nothing. -obj, +obj and abs(obj) have the names of obj and the negated, same and absolute values. &, | and ^ accept exactly objects of equal shape holding only True, False, 0 and 1 and give the element-wise result; ~obj is true exactly where obj is false.", "quantifier": "every object with any names and elements (numbers, text, booleans, missing values), every scalar, operator and storage type, every arithmetic", "why_tests_cant": "all mixtures of element types, names and special values; order of operands and which operand is checked only show for some of them", "anchors": ["nimble/core/data/base.py:_genericBinaryOperations", "nimble/core/data/base.py:_validateDivMod", "nimble/core/data/base.py:_diagnoseFailureAndRaiseException", "nimble/core/data/base.py:__abs__", "nimble/core/data/base.py:__neg__", "nimble/core/data/base.py:_genericLogicalBinary", "nimble/core/data/base.py:_logicalValidationAndConversion", "nimble/core/data/list.py:_convertToNumericTypes_implementation"]}
{"id": "C90", "title": "nimble.data from dictionaries, lists of elements and lists of vectors", "statement": "nimble.data given a list of dictionaries, a dictionary of elements, lists or dictionaries, a list of elements or a list of nimble vectors holds exactly the given values: the value stored under key k goes to the feature (or point) named k whatever the order of the keys in each dictionary, names given by the user only reorder, every vector's elements are in that vector's row and vectors whose names disagree are refused; a source that does not fit is refused.", "quantifier": "all such sources of any size, with keys in any order, all pointNames/featureNames arguments", "why_tests_cant": "The pairing of keys and values must hold for every order of the keys in every dictionary and every combination of given and default names.", "anchors": ["nimble/core/_createHelpers.py: convertData, extractNames, _extractNamesFromDict, initDataObject", "nimble/core/create.py: data"]}
{"id": "C91", "title": "convertToType converts exactly the features it names", "statement": "With convertToType, nimble.data converts every element of a feature to the type asked for that feature (one type for all, a list with a type or None per feature, or a dictionary by index or name) and leaves every other element, every name and the dimensions alone; an argument that does not describe the features, that gives two types for one feature, or a value that cannot be converted is refused with InvalidArgumentValue; the argument itself is not changed.", "quantifier": "all objects, types, and convertToType arguments", "why_tests_cant": "The type must reach the right feature for every mixture of index and name keys, every set of names and every orientation of the source.", "anchors": ["nimble/core/_createHelpers.py: convertToTypeDictToList, elementTypeConvert, initDataObject"]}
{"id": "C92", "title": "splitByParsing replaces a feature by the parts of its values", "statement": "After obj.features.splitByParsing(feature, rule, names) succeeds, the feature is gone and in its place stand len(names) features with the given names, in order; in each point they hold the parts of its value according to the rule (a separator, a position, a list of both read from left to right, or a function); all other features, their order and names, and the points are unchanged. A rule that does not divide some value into exactly that many parts is refused and the object is unchanged.", "quantifier": "every well-formed object, feature identifier, rule, list of names, and all values of the feature", "why_tests_cant": "texts of any length with separators anywhere, lists of rules of any length and all combinations of existing and new names", "anchors": ["nimble/core/data/features.py:Features.splitByParsing", "nimble/core/data/listAxis.py:ListFeatures._splitByParsing_implementation", "nimble/core/data/sparseAxis.py:SparseFeatures._splitByParsing_implementation"]}
{"id": "C93", "title": "features.normalize treats both objects feature by feature", "statement": "obj.features.normalize(function, applyResultTo=other, features=...) replaces each chosen feature of obj and the same feature of other by the two results of the function on the pair of features as they were before the call; all other features, names and shapes of both are unchanged. It is accepted exactly if both objects have the same number of features, their feature names are equal where both have some, the chosen features exist and the function returns as many values as each object has points. A single identifier may be given.", "quantifier": "every pair of well-formed objects, every function, every choice of features", "why_tests_cant": "it speaks of all user functions, also ones that raise at some feature or return a wrong number of values, and of all ways to choose features", "anchors": ["nimble/core/data/features.py:Features.normalize", "nimble/core/data/axis.py:Axis._transform"]}
{"id": "C94", "title": "merge does not depend on the representation", "statement": "The merge of two Matrix, two Sparse or two DataFrame objects is the same documented join as for List (C19): the same points and features in the same order, every element from the caller where it has one, missing values of the caller replaced by the value of the other object, and a conflict of values refused.", "quantifier": "every pair of objects with names, every point/feature mode, on point names or on a feature, every representation", "why_tests_cant": "all overlaps of name sets and values, every pattern of zeros and missing values and every internal order of stored entries", "anchors": ["nimble/core/data/matrix.py:Matrix._merge_implementation", "nimble/core/data/sparse.py:Sparse._merge_implementation", "nimble/core/data/base.py:_genericMergeFrontend", "nimble/core/data/dataframe.py:DataFrame._merge_implementation"]}
{"id": "C95", "title": "Arithmetic of Sparse objects", "statement": "For a Sparse object, obj op c, c op obj (c a number) and obj op other (other a Sparse object of the same size), op one of + - * / // % **, give the object whose element (i, j) is the operation on the elements (i, j), exactly as for the other types: zeros that are not stored take part, the outcome does not depend on which values are stored or in which order, results that are zero are not stored, floating point errors are raised, and divisors with a zero are refused.", "quantifier": "all Sparse objects in any internal order, all numbers including infinities and nan, all operators, all arithmetics with the usual laws for 0 and 1", "why_tests_cant": "the shortcut taken depends on operator, side, number and on where the zeros are; tests use a few finite numbers", "anchors": ["nimble/core/data/sparse.py: Sparse._binaryOperations_implementation, _scalarBinary_implementation, _scalarZeroPreservingBinary_implementation, _genericMod_implementation, _genericFloordiv_implementation, _genericPow_implementation, _genericMul_implementation, _containsZero_implementation", "nimble/core/data/base.py: Base._genericBinaryOperations, _genericBinary_validation, _validateDivMod"]}
{"id": "C96", "title": "Collapsing and expanding features of Sparse objects", "statement": "points.splitByCollapsingFeatures and points.combineByExpandingFeatures of a Sparse object give the same table, names and refusals as for the other types, whatever elements are zero, however the values are stored and in whatever order the features are given; only values other than zero are stored afterwards.", "quantifier": "all Sparse objects, all selections of features in any order, all placements of zeros", "why_tests_cant": "whether the call fails, moves values or swaps them depends on where the zeros are and on the order of the features; the tests use tables without zeros and features from left to right", "anchors": ["nimble/core/data/sparseAxis.py: SparsePoints._splitByCollapsingFeatures_implementation, _combineByExpandingFeatures_implementation", "nimble/core/data/points.py: Points.splitByCollapsingFeatures, combineByExpandingFeatures"]}
{"id": "C97", "title": "Saving Sparse objects to csv files", "statement": "Saving a Sparse object to a csv file writes exactly the text the other types write for the same elements, with or without names and with the same refusals, however its values are stored, and leaves the elements of the object as they are.", "quantifier": "all Sparse objects in any internal order, all placements of zeros, all point and feature names, with and without names", "why_tests_cant": "the writer walks the stored entries with a pointer that must meet every stored position in order; an entry out of order or at the end of a row would silently shift or drop values, for arbitrary shapes and placements", "anchors": ["nimble/core/data/sparse.py: Sparse._saveCSV_implementation", "nimble/core/data/base.py: Base.save, _writeFeatureNamesToCSV"]}
{"id": "C98", "title": "Names and values in Matrix Market files", "statement": "Saving an object of any type to a Matrix Market file and loading the file gives the same point and feature names, and none where there were none or they were not asked for; names which the file cannot hold are refused. The values a List object writes are read back as its table.", "quantifier": "all object types, all names, with and without names, all tables", "why_tests_cant": "whether names survive depends on their characters (commas, line breaks, white space at the end), on which axis has names and on the type that writes the comment; tests use a few plain names", "anchors": ["nimble/core/data/list.py: List._saveMTX_implementation", "nimble/core/data/matrix.py: Matrix._saveMTX_implementation", "nimble/core/data/dataframe.py: DataFrame._saveMTX_implementation", "nimble/core/data/sparse.py: Sparse._saveMTX_implementation", "nimble/core/_createHelpers.py: _loadmtxForAuto"]}
{"id": "C99", "title": "Names taken out of scipy sparse matrices", "statement": "nimble.data of a scipy sparse matrix with pointNames=True and/or featureNames=True gives an object whose names are exactly the values in the first column and first row (a zero that is not stored is the name '0') and whose table is exactly the rest; names that are not different are refused; automatic detection takes the same names as for the same table given as a list of rows.", "quantifier": "all sparse matrices in any entry order, all placements of zeros, both axes", "why_tests_cant": "the outcome depends on which names are zero and hence not stored, on repeated names and on the order of the stored entries; tests have a few matrices with distinct names", "anchors": ["nimble/core/_createHelpers.py: extractNamesFromScipySparse, extractNames, autoDetectNamesFromRaw", "nimble/core/data/axis.py: Axis.__init__, _setNames"]}
{"id": "C100", "title": "transform keeps the elements whatever their types and the representation", "statement": "points.transform / features.transform of a Matrix or Sparse object stores, for every selected point (feature), exactly the elements the function returned for it, and leaves the elements of all others as they were, even though the element type of the whole underlying array may have to change (bool, int, float, object); the names are untouched; a function that returns the right number of values is always accepted; a refused transform of a Sparse object changes nothing.", "quantifier": "every Matrix and Sparse object, axis, function on points or features returning values of any mixture of types, and selection", "why_tests_cant": "The dtype of the result depends on the history of types returned by the user's function across all points; tests fix a function and a dtype.", "anchors": ["nimble/core/data/matrixAxis.py: MatrixAxis._convertBaseDtype, MatrixPoints._transform_implementation, MatrixFeatures._transform_implementation", "nimble/core/data/sparseAxis.py: SparseAxis._transform_implementation", "nimble/core/data/_dataHelpers.py: validateAxisFunction"]}
{"id": "C101", "title": "features.report shows for every feature the statistics its columns are named after", "statement": "features.report returns one point per feature, in the order of the features and under their names; the point of feature i holds the index i, then the value of every requested basic statistic of that feature's own elements (nan exactly when the calculation raises a ValueError), then the value of every extra function, each in the column carrying its name, then the element type if dtypes=True; columns whose name would be repeated are numbered so that all names are distinct; a report can be made for every object with features.", "quantifier": "every object, choice of basic statistics (any order, with repetitions), list of extra functions with any names, and every behaviour (value or exception) of the statistics", "why_tests_cant": "The pairing of values with columns depends on remembered quartiles, on which statistics raise, and on collisions among arbitrary function names.", "anchors": ["nimble/core/data/features.py: Features.report"]}
{"id": "C102", "title": "hashCode and isApproximatelyEqual depend on the elements only, and False is definite", "statement": "hashCode is an integer in 0 <= x < 10^9 that depends only on the elements: objects with equal elements have equal hashes whatever their names, representation and number types; therefore isApproximatelyEqual never returns False for objects with the same elements, and returns False for different shapes; changing one number by an amount that moves the weighted average by more than a billionth (and less than one) changes the hash; every two objects can be compared.", "quantifier": "every pair of objects, representations, mixture of element types, rounding behaviour of float arithmetic (for the first part), changed element", "why_tests_cant": "The promise that False is definite ranges over all pairs of objects with the same elements and all float roundings; tests compare a few.", "anchors": ["nimble/core/data/base.py: hashCodeFunc, Base.hashCode, Base.isApproximatelyEqual"]}
{"id": "C103", "title": "The log records exactly the non-default arguments of a call", "statement": "With logging on, a successful call of a data method adds exactly one log entry whose arguments are those given (by position or by keyword) and different from their defaults, each with its text: the function's name or lambda source, the object's name (or log id), or str() of the value; a call with logging off adds none; a lambda's text is its source up to the end of the argument; the arguments recorded for a run can always be read back, unchanged if they are literals.", "quantifier": "every signature, defaults, positional and keyword arguments, comparison behaviour of argument values, source line of a lambda, nested argument structure", "why_tests_cant": "Arguments can be of any type, with any == and any nesting, and lambda sources are arbitrary text; tests try a handful.", "anchors": ["nimble/core/logger/session_logger.py: _buildArgDict, _extractFunctionString, _lambdaFunctionString, literalOnlyArguments, SessionLogger.logPrep", "nimble/core/data/_dataHelpers.py: prepLog"]}
{"id": "C104", "title": "Confidence intervals contain the error they are about", "statement": "For predictions and known values of the same number (at least two) of points, the confidence interval functions return two numbers low <= high around the error which rootMeanSquareError, meanAbsoluteError or fractionIncorrect return; the interval of the mean absolute error and of the fraction is centred at it with half-width quantile times standard error; a larger confidence gives a wider interval; swapping known and predicted does not matter; equal errors give an interval of one number; ends of the fraction's interval are fractions.", "quantifier": "every pair of vectors of the same length >= 2, confidence in [0,1), quantile function of a symmetric distribution", "why_tests_cant": "The tests estimate coverage by one seeded simulation of 1000 samples with normal errors; containment, monotony and being a number must hold for all data.", "anchors": ["nimble/calculate/confidence.py: rootMeanSquareErrorConfidenceInterval, meanAbsoluteErrorConfidenceInterval, fractionIncorrectConfidenceInterval", "nimble/calculate/statistic.py: mean, standardDeviation"]}
{"id": "C105", "title": "points.statistics and features.statistics give every point or feature its own statistic under its own name", "statement": "statistics(name) of the points (features) of an object returns an object with, for every point (feature) in order and under its name, the statistic of exactly that vector, and along the other axis the name of the statistic in lower case without whitespace (quartile1, quartile2, quartile3 for quartiles); every documented name is accepted whatever its case and whitespace and stands for its function, others are refused; max(), mean(), ... are the same; features.statistics(name, groupByFeature) has the groups of groupByFeature with the statistics of the features of each.", "quantifier": "every object with any names on both axes, both axes, every accepted and not accepted name, every grouping, statistics functions as parameters", "why_tests_cant": "Names and results must stay aligned for all shapes and name tables, and every spelling of a name must be understood.", "anchors": ["nimble/core/data/axis.py: Axis._statistics, Axis._statisticsBackend, Axis._process_statistics", "nimble/_utility.py: acceptedStats, _getStatsFunction", "nimble/core/data/_dataHelpers.py: validateInputString, cleanKeywordInput"]}
{"id": "C106", "title": "points.similarities and features.similarities are symmetric tables of textbook values under the right names", "statement": "similarities('correlation' | 'covariance' | 'sample covariance' | 'population covariance' | 'dot product') of the points (features) returns a square object with every point (feature) as row and as column under its own name, whose entry for two of them is Pearson's correlation, the covariance or the dot product of their values at the positions where both are known, the same number whether the data is complete or not; the table is symmetric, correlations lie between -1 and 1 and are 1 on the diagonal where defined, covariances have the variances on the diagonal and are positive semidefinite for complete data, a change of units scales covariances and leaves correlations alone; the features' similarities are those of the points of the transposed object; undefined values are missing; other names are refused.", "quantifier": "every object with any names and missing values, both axes, every spelling of the names, every pair of points (features)", "why_tests_cant": "The two code paths must agree, and the bounds and symmetries must hold, for all real data and all patterns of missing values.", "anchors": ["nimble/calculate/similarity.py: _nanCovCorr, correlation, covariance", "nimble/core/data/axis.py: Axis._similarities"]}
{"id": "C107", "title": "obj.report states the size and the overall proportions of zeros and missing values", "statement": "report of an object with elements has one value for every of its names: the number of all elements, the numbers of points and features (the dimensions for more than two), and the proportions of all elements of the object which are zero and which are missing; they lie between 0 and 1, together not above 1, and do not depend on the arrangement of the elements; an object without points or features is refused.", "quantifier": "every object of any number of dimensions, any pattern of zeros and missing values", "why_tests_cant": "The averages over the features must be the overall proportions for all shapes and data.", "anchors": ["nimble/core/data/base.py: Base.report, Base._treatAs2D", "nimble/calculate/statistic.py: proportionZero, proportionMissing"]}
{"id": "C108", "title": "solve and leastSquaresSolution answer the equations that were asked", "statement": "calculate.solve(A, b) returns, with the features of A under their names, values x for which every point of A times x is the value of b for that point, and leastSquaresSolution(A, b) values with the least sum of squared errors, for b given as one point or as one feature; the result has the shape of b; a not square A for solve, a b which is no vector, and a b whose number of values is not the number of points of A are refused with the documented exceptions.", "quantifier": "every A with any feature names, every b of either orientation, every routine of scipy which keeps its own contract", "why_tests_cant": "The orientation of b and the names must be right for all shapes and values, and all wrong shapes must be refused.", "anchors": ["nimble/calculate/linalg.py: solve, leastSquaresSolution, _backendSolvers, _backendSolversValidation"]}
{"id": "C109", "title": "The name of a learner stands for one package and one learner, whatever was asked before", "statement": "'package.learner' stands for the learner of the interface which answers to the package by its canonical name or by an alias, in letters of any case, with everything behind the first dot as the name of the learner; it is refused with PackageException if that package is not installed and with InvalidArgumentValue if there is no dot or no such package. This does not depend on what was asked before: interfaces once available stay available and only usable ones become so. learnerNames() lists each learner of each usable interface once, under the canonical name, and each of these names resolves back to its learner; learnerNames(package) takes every name of the interface. Classes of learners go to the interface of their first module, to keras or to custom.", "quantifier": "every set of interfaces whose names do not overlap, every set of installed packages, every sequence of earlier calls, every name", "why_tests_cant": "The available interfaces grow with the calls; that no order of calls changes what a name stands for is a statement over all histories.", "anchors": ["nimble/core/_learnHelpers.py: findBestInterface, initAvailablePredefinedInterfaces, _unpackLearnerName", "nimble/core/learn.py: learnerNames", "nimble/core/interfaces/universal_interface.py: isAlias", "nimble/core/interfaces/keras_interface.py: isAlias"]}
{"id": "C110", "title": "Tables printed as text show every cell uncut in its own column", "statement": "The text of a table has one line for the headers, if given, and one for each row in order; in each line each cell stands uncut in a field of the width of its column, at the side asked for (row headers, column headers, values), all lines have the same length and each column starts at the same place in all lines; columns are no wider than their widest text. No rows give no text, too many headers an IndexError. With a limit for the number of rows, or a place to cut at, the rows up to there and a line of dots are shown; the arguments of the call are not changed.", "quantifier": "every table whose rows have the same number of cells, all texts, all headers, every choice of justifications and separator, every limit", "why_tests_cant": "Widths and padding depend on every cell; the alignment has to hold for all texts and all shapes.", "anchors": ["nimble/_utility.py: tableString", "nimble/core/configuration.py: showAvailablePackages", "nimble/core/data/base.py: _validateEqualNames"]}
{"id": "C111", "title": "residuals is what the control variables leave unexplained", "statement": "calculate.residuals(toPredict, controlVars) has the shape and the names of toPredict; each of its features is that feature of toPredict less a linear combination of the control variables and a constant, sums to zero and is orthogonal to every control variable, and is thereby determined by the data alone, whichever least squares routine is used. Objects of different numbers of points are refused with InvalidArgumentValueCombination, empty ones with InvalidArgumentValue.", "quantifier": "every toPredict and controlVars over any ordered field, dependent control variables included, every routine of scipy which keeps its own contract", "why_tests_cant": "The orthogonality and the independence of the routine, when control variables are dependent, hold for all data or not at all.", "anchors": ["nimble/calculate/statistic.py: residuals"]}
