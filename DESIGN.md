# Formal model of willfind/nimble in Lean 4 — design

## Layout

* `lean/Verif/Py.lean` – the Python fragments the model needs: exception values, insertion-ordered
  dictionaries (`PyDict`), list picking.
* `lean/Verif/Model/*.lean` – the model: small total functions, one per Python function, each with a
  comment citing the file and lines in `/repo` it models and any simplification.
* `lean/Verif/Lemmas/*.lean` – helper lemmas (no property statements).
* `lean/Verif/Props/*.lean` – the property theorems, stated in terms of the observable API
  (`getNames`, `getIndex`, element access, returned objects, raised errors), and next to each an
  `example` showing that a concrete non-trivial case meets the hypotheses; counterexamples
  (`…_violated`) where the unchanged code violates the full property.

Exceptions are values (`Except Err`), mutation is state passing, random draws are parameters
(oracles) constrained only by what the library documents (e.g. "a shuffle is a permutation"),
user callbacks are arbitrary functions.

## Trusted base

* Lean 4.33.0's kernel. Theorems depend on at most `propext`, `Classical.choice`, `Quot.sound`
  (vcheck audits this; no own axioms, no compiled evaluation).
* The reading of `/repo` that produced the model: nothing is extracted mechanically. The citation
  on every definition is the audit trail.
* Python/numpy/scipy/pandas primitives are modelled by their documented behaviour
  (`dict` insertion order, `sorted` stability, `zip` truncation, numpy fancy indexing).
* Floating point is not modelled. Where numbers matter the model uses `Int`/`Rat` or an abstract
  value type; NaN is an explicit "missing" value where the code treats it specially.

## Per property: what is modelled, how it is proved

| id | model | proof |
|----|-------|-------|
| C01 | `Model/Names`, `Model/Obj`, `Model/Structural`, `Model/Permute`, `Model/Insert`: op datatype, `step` | invariant by induction over the op list |
| C02 | `_setNames` full branch (list and dict) | characterisation of success, round trip, frame on failure |
| C03 | `_setNames` partial branch | fold characterisation under distinctness; negation with witness otherwise (`_partial`) |
| C04 | `_getIndex`, `_getIndexByName`, `_hasName` | case analysis; float branch exposed |
| C05 | `_processMultiple` (Python `range`, slices, bool keys) | decision-logic statements |
| C06–C08 | `_genericStructuralFrontend`, `_validate*`, List/Matrix back ends | partition lemma over index lists |
| C09 | `_permute` + back ends | pick/inverse-permutation lemmas |
| C10 | `_sort*` with stable merge sort | stability composed by induction over keys |
| C11, C12 | `_insert`, `_validateInsertableData`, `_alignNames`, `_setInsertedCountAndNames` | list surgery lemmas |
| C13, C14 | `transpose`, `flatten`, `unflatten`, name (de)coding on `String` | coordinate lemmas; round trip by index arithmetic |
| C15, C16 | `inconsistentNames`, `mergeNames`, `equalNames`, `isIdentical` | pointwise characterisation |
| C17 | heap model with shared `_dims` cells | negation with witness; positive theorem for in-place operators |
| C18 | COO model of `Sparse` with abstraction to dense | refinement, operation by operation |
| C19 | `merge` front end and List back end | pointwise characterisation of the joined table |
| C20, C21, C23 | fold lists, fold iteration, validator bookkeeping | arithmetic + permutation lemmas; invariants |
| C22, C24 | `BruteForce`, `Consecutive` state machines | enumeration lemma; run characterisation |
| C25, C26 | `SessionConfiguration` as two-layer store with aliasing of nested dicts | refinement to a map |
| C27 | programs with nested alternate control and exceptions | induction on programs |
| C28 | `fill` functions | list recursion |
| C29 | `QueryString` on `List Char`/tokens | parser round trip |
| C30–C36 | `mapReduce`, `groupByFeature`, integer relabelling, one-hot, train/test split, repeat/unique, collapse/expand | fold invariants |
| C37 | csv writer/reader on character lists | round trip where it holds, witness where it fails |
| C38, C39, C41–C45 | small pure functions | direct |
| C40 | windows as offsets into a source | composition of offsets |
| C46–C54 | added while modelling (see properties.jsonl): names, tuning, calculate, create, window, set/get item | as the neighbouring ids |
| C55 | column choice of the text display | loop invariant and termination |
| C56 | matrix multiplication with names | reduction to Mathlib's matrix product |

Nothing in the list is declared inexpressible. What the models cannot exhibit (float rounding, dtype
coercions, file system, third-party learners) is named per module below and in the MANIFEST notes.

<!-- generated tail: tools/mkdesign.py -->

## Modelled code, module by module

The code outside the cited lines is not modelled.

| module | code cited |
|---|---|
| ApplyScores | universal_interface.py 293-312, 969-979, 1239-1306, 1464-1478, 1562-1666; custom_learner.py 131-175; scikit_learn_interface.py 191-211; _interface_helpers.py 224-225; axis.py 533-535; _learnHelpers.py 625-672 |
| Atomic | axis.py 188-351, 415-420, 461-487, 619-638, 1026-1028, 1133-1274, 1480-1501; _dataHelpers.py 305-333; listAxis.py 66-96; base.py 3634-3640 |
| AxisReplace | axis.py 641-697 |
| AxisStats | axis.py 899-928, 1572-1668; _utility.py 42-46, 596-637; _dataHelpers.py 193-224; base.py 1425-1447 |
| Binary | base.py 5293-5446, 5946-5983; _dataHelpers.py 84-104 |
| CalcElements | base.py 823-1196; dataframe.py 114-130; sparse.py 201-239; _dataHelpers.py 515-551; _createHelpers.py 456-477 |
| Calculate | axis.py 512-616 |
| Collapse | points.py 1866-2210; listAxis.py 211-240; matrixAxis.py 198-216; _dataHelpers.py 335-377 |
| CollapseSparse | sparseAxis.py 391-449; points.py 1975-2005, 2126-2210 |
| Confidence | confidence.py 27-99; statistic.py 209-210, 331-362 |
| Config | configuration.py 56-321 |
| Convert | base.py 3680-3869; _createHelpers.py 499-575, 643-671, 703-708; _utility.py; list.py 270-271; _dataHelpers.py 398-424 |
| ConvertType | _createHelpers.py 894-972, 1329-1372, 1448-1726 |
| Create | create.py 38-289; _createHelpers.py 163-215, 253-276, 744-828, 974-1046, 1404-1415, 1448-1726; list.py 66-131; axis.py 700-754 |
| Csv | base.py 1850-1924; list.py 202-224; _createHelpers.py 173-215, 2248-2248, 2350-2506, 2799-3105; _dataHelpers.py 769-777 |
| CsvKeep | _createHelpers.py 2556-2657, 2799-3104 |
| CustomSig | custom_learner.py 43-43, 97-184, 249-418; universal_interface.py 322-527, 1513-1524; _utility.py 58-91 |
| DetectBest | utility.py 41-349 |
| Display | base.py 2495-2696, 5689-5931; _dataHelpers.py 161-191 |
| Elements | base.py 682-818, 1119-1120, 5644-5687; _dataHelpers.py 553-611, 699-704, 1157-1172; list.py 139-156; dataframe.py 92-111; matrix.py 87-103; sparse.py 144-199; _createHelpers.py 62-62, 163-170, 290-291 |
| Encode | base.py 520-678; _dataHelpers.py 463-513; list.py 528-533 |
| EncodeSparse | sparse.py 241-255, 784-797; base.py 568-601 |
| Entry | _learnHelpers.py 686-705; learn.py 492-492, 632-632, 793-800, 833-836, 989-989, 1196-1196, 1361-1361; universal_interface.py 1124-1124, 1240-1240 |
| ExtractSparse | _createHelpers.py 357-453, 724-728, 1611-1627; axis.py 94-108 |
| FeatureReport | features.py 2330-2458; exceptions.py 47-94 |
| Fill | fill.py 28-32, 86-94, 316-332, 389-409, 469-536; listAxis.py 199-205, 292-299; _dataHelpers.py 285-303, 613-671; axis.py 490-506, 757-802 |
| Flatten | base.py 4005-4344; list.py 345-373 |
| Folds | tune.py 54-338; axis.py 736-741; base.py 1430-1437 |
| GetItem | base.py 2102-2178, 2233-2260; axis.py 363-374, 1047-1098; listAxis.py 55-96; list.py 535-539 |
| Group | base.py 1330-1448 |
| HashCode | base.py 86-90, 1450-1518 |
| Heap | base.py 197-240, 3634-3636, 3826-3828, 5391-5446, 5644-5687; list.py 66-178, 541-542; listAxis.py 66-113, 172-190, 268-292; axis.py 415-420, 1222-1232, 1480-1495 |
| HighDim | _createHelpers.py 1137-1304, 1545-1627; base.py 197-197, 1809-1818, 3795-3856, 4103-4129, 4182-4344, 5671-5680; axis.py 363-420, 619-638, 1133-1244, 1285-1325, 1480-1500; list.py 116-131, 541-579 |
| Holdout | tune.py 232-234, 536-633, 1087-1129; exceptions.py 38-85 |
| Identical | base.py 1794-1818; list.py 188-200; matrix.py 126-129; _dataHelpers.py 380-396, 866-917; dataframe.py 148-152 |
| Insert | axis.py 321-351, 461-487, 619-638, 1285-1360, 1408-1501; _dataHelpers.py 319-331; listAxis.py 181-197 |
| Iterate | base.py 464-512, 1198-1243; _dataHelpers.py 454-512, 728-767; list.py 654-656; matrix.py 494-495; dataframe.py 570-571; sparse.py 241-255, 1281-1287 |
| Iterative | tune.py 1004-1136, 1642-1717, 1810-1812 |
| Keep | _createHelpers.py 783-828, 1306-1327, 1448-1726, 2556-2592; axis.py 345-350, 446-458, 1276-1279; create.py 256-273 |
| Knn | knn_classification.py 46-124; knn_imputation.py 44-99 |
| LearnFill | learn.py 526-673; base.py 809-812, 1050-1079, 2133-2150, 2490-2494; list.py 139-155 |
| Learner | universal_interface.py 225-424, 501-527, 969-976, 1009-1013, 1248-1266, 1333-1525, 1716-1731; custom_learner.py 138-184; learn.py 805-805 |
| LearnerLookup | _learnHelpers.py 40-91, 544-571; learn.py 138-164; universal_interface.py 112-126; keras_interface.py 207-210; scikit_learn_interface.py 452-455; _collect_interfaces.py 74-87 |
| Log | session_logger.py 58-177, 239-326, 760-767, 812-866, 901-954, 1280-1330 |
| LogArgs | session_logger.py 406-446, 1180-1278, 1332-1358; _dataHelpers.py 1197-1208 |
| MatMul | base.py 4853-5008; list.py 621-640; create.py 530-550; linalg.py 32-109 |
| Match | match.py 54-54, 86-86, 120-121, 156-156, 188-188, 220-220, 252-255, 287-323, 354-412, 444-444, 476-476, 522-525, 571-1629, 1673-1692; exceptions.py 38-85; base.py 453-459; _dataHelpers.py 706-726 |
| Merge | base.py 4347-4784; list.py 375-526; axis.py 1517-1527 |
| MergeDf | dataframe.py 326-402; merge.py; base.py 4577-4582, 4679-4784 |
| MergeReps | matrix.py 247-390; sparse.py 612-781; base.py 4679-4784 |
| Metrics | similarity.py 125-374; loss.py 33-122; binary.py 24-171; utility.py 352-539 |
| MetricsReal | loss.py 33-135; similarity.py 34-143; utility.py 479-533; statistic.py 335-335 |
| Mtx | base.py 1850-1913; list.py 226-264; matrix.py 153-182; dataframe.py 177-193; sparse.py 326-352; _createHelpers.py 2660-2719 |
| MultiClass | universal_interface.py 199-281, 1562-1600, 1800-1948; _interface_helpers.py 301-340, 552-660; _learnHelpers.py 636-646; axis.py 1456-1480 |
| NameChecks | _dataHelpers.py 831-864 |
| Names | axis.py 79-113, 185-380, 1014-1045 |
| Normalize | normalize.py 27-146, 189-296; statistic.py 142-169, 209-210, 332-362 |
| NormalizeFeatures | features.py 1989-2018; axis.py 503-504 |
| Obj | list.py 66-131, 165-183; listAxis.py 55-109; matrixAxis.py 55-85; axis.py 79-108, 385-425, 461-487, 1027-1028, 1104-1274, 1671-1740; base.py 164-201, 3600-3640, 5644-5687; _dataHelpers.py 305-333 |
| Parsing | features.py 2143-2196; matrixAxis.py 273-286; listAxis.py 305-320; sparseAxis.py 490-514 |
| Query | query.py 117-206 |
| Random | randomness.py 34-60, 175-324; saved.py; st.py |
| RepeatUnique | axis.py 805-857, 1503-1515; listAxis.py 115-152; _dataHelpers.py 272-277 |
| Replace | base.py 3880-3998; list.py 333-342; sparse.py 408-610 |
| Report | base.py 414-431, 1733-1787 |
| Residuals | statistic.py 444-498; base.py 5420-5422 |
| Ridge | ridge_regression.py 39-78; multioutput_ridge_regression.py 35-55 |
| ScalarOps | base.py 5172-5291, 5371-5513; list.py 642-652; matrix.py 490-498; dataframe.py 566-568; sparse.py 1276-1290; _dataHelpers.py 127-137 |
| Similarities | similarity.py 46-123; axis.py 860-897 |
| Solve | linalg.py 194-368 |
| Sources | _createHelpers.py 233-235, 278-279, 499-670, 810-813, 1448-1726; list.py 82-92; base.py 453-455 |
| Sparse | sparse.py 95-122, 179-199, 251-287, 581-610, 799-958, 1020-1025, 1181-1261, 1292-1294, 1331-1350; sparseAxis.py 51-82, 125-374 |
| SparseArith | sparse.py 371-375, 1020-1223; base.py 5227-5291, 5391-5460; _dataHelpers.py |
| SparseCsv | sparse.py 292-324; base.py 1850-1922 |
| SparseDup | _utility.py 370-437 |
| Statistic | statistic.py 54-96, 142-208, 263-335, 392-400, 433-443; base.py 434-450; _dataHelpers.py 728-769; match.py 24-50, 158-180; sparse.py 1282-1284 |
| Stretch | stretch.py 43-53, 112-251; base.py 5946-5983; _dataHelpers.py 844-862; matrix.py 457-471; list.py 613-619; dataframe.py 487-540 |
| TableString | _utility.py 500-594 |
| TrainRun | learn.py 491-525, 988-1045, 1191-1202, 1360-1369; universal_interface.py 283-312, 925-981, 1128-1139, 1239-1306, 1513-1524, 1647-1666; _learnHelpers.py 574-614; utility.py 482-487; custom_learner.py 138-177 |
| TrainTest | base.py 1651-1725 |
| TransformTypes | matrixAxis.py 129-140, 180-192, 255-267; sparseAxis.py 84-123; _dataHelpers.py 613-696; _utility.py 147-153; axis.py 490-506; sparse.py 799-826 |
| TuneRange | tune.py 1382-1449 |
| TuneResults | tune.py 283-283, 329-329, 1643-1804; learn.py 806-822, 1018-1032 |
| Tuning | _utility.py 94-126; tune.py 232-263, 716-781, 821-887 |
| ValidatorData | tune.py 172-222, 455-515, 669-688 |
| View | base.py 2238-2426; views.py 38-160; list.py 538-565, 659-771; matrix.py 403-428 |

## Disagreements between code and property

Each is a theorem with a concrete witness about the unchanged code as modelled.

* `C02_setNames_dict_violated` – The unchanged code violates C02 for dicts: `setNames({'a': 0, 'b': 0})` on an axis of length 2 is accepted, after which `getIndex('a')` is 0 but the name at 0 is 'b'.
* `C03_repeated_name_violated` – Likewise a repeated new name: `setNames(['z','z'], ['a','b'])` is accepted, 'a' stays in the list at position 0 but is no longer found.
* `C03_repeated_none_violated` – The unchanged code violates the full C03: `setNames([None, None], ['a','b'])` is accepted, but the name list still shows 'a', which can no longer be looked up.
* `C04_float_violated` – The unchanged code accepts a float that denotes no element.
* `C04_hasName_empty_violated` – On an empty axis the unchanged `hasName` raises instead of answering `False`.
* `C05_boolean_violated` – **C05 does not hold in general (over-long boolean key).** A list with as many booleans as there are points is taken for a boolean key whatever else it contains: `[True, True, True, False, 5]` is accepted and asks for point 4 of a 4 point object.
* `C05_empty_axis_violated` – **C05 does not hold in general (empty axis).** For an axis of length 0 any list without booleans passes for a boolean key: `[7]` asks for position 0 although there is none.
* `C05_float_violated` – **C05 does not hold in general (floats).** Floats are not normalised to a position: `obj.points[[-1.0, 3]]` is accepted although both denote the last of the four points, which is then shown twice.
* `C05_negative_step_violated` – **C05 does not hold in general (negative step).** `obj.points[::-1]` should be all points in reverse order; it is empty.
* `C14_default_names_asked_violated` – The feature names after `flatten` depend on whether default names were ever asked for.
* `C14_flatten_collision_violated` – When two joined names agree `flatten` raises, and leaves an object whose names no longer belong to its features.
* `C14_negative_dimensions_violated` – `unflatten` accepts negative dimensions and then drops the data.
* `C14_partial_names_violated` – C14 fails for a partially named axis: its names are lost.
* `C14_single_element_violated` – C14 fails for an object with one element: its names are lost.
* `C14_trailing_bar_violated` – C14 fails for a point name ending in ' |', although it does not contain ' | ': other names come back.
* `C16_matrix_violated` – **C16 does not hold in general (Matrix).** `isIdentical` of two Matrix objects raises a `TypeError` when they hold different dates; and the string 'nan' passes for a missing value.
* `C16_missing_violated` – **C16 does not hold in general (missing values).** None and nan are both missing values, but a List does not treat them as equal; a Matrix does.
* `C17_operand_violated` – The same through the operand: adding points to `a` after `c = a * 2` changes the shape of `c`.
* `C17_shape_violated` – **C17 does not hold for the shape.** `c = a + b` refers to the very list in which `a` records its shape (base.py:5436), and removing or adding points changes that list in place (axis.py:1232, 1490): after `c.points.delete(0)` of two 2 x 1 objects, `a` has the shape 1 x 1 while it still holds two points.
* `C18_mod_violated` – `a % b` of two Sparse objects combines the stored values by their position in memory, not by their coordinates (sparse.py:1181-1204): in `[[5, 0], [4, 7]] % [[3, 3], [2, 0]]` the element `4 % 2` comes out as `4 % 3`.
* `C18_replaceZeros_stale_violated` – Reading an element makes a Sparse object remember where its points start. Replacing a rectangle with zero removes entries without updating this (sparse.py:581-610), so that a later read of an untouched element returns a wrong value: after `a[0, 0]` and `a.replaceRectangle(0, 0, 0, 0, 0)` the element `a[1, 0]` of `[[0, 2], [3, 4]]` is read as 0.
* `C18_transform_stale_violated` – The same for `transformElements(f, preserveZeros=True)` (sparse.py:179-199) when `f` maps a non-zero element to zero.
* `C19_empty_violated` – C19 violated. Merging with an object without points (which has nothing to add) raises an IndexError.
* `C19_fill_violated` – C19 violated. The value of the left point is missing, so it contradicts nothing; but it is filled from the first right point, and the second one is then refused.
* `C19_intersection_labels_violated` – C19 violated. The same, merging on a feature: the merge succeeds, with the values of the features 'a' and 'b' exchanged.
* `C19_intersection_order_violated` – C19 violated. Two objects with the same names and the same values: `feature='intersection'` is refused for different values, because the features of the left object are taken in the order of their indices and those of the right object in the order of the dict of names.
* `C19_left_on_violated` – C19 violated. `merge(point='intersection', feature='left', onFeature='id')`: both objects have the ids 1 and 2, but as a feature which is not common comes before 'id' in the left object, the ids of the right are compared with the values of that feature, and the result is empty.
* `C19_refused_merge_violated` – C19 violated. A refused merge on point names leaves the object with the point names as an additional first column of the data.
* `C19_sort_index_violated` – C19 violated. `point='union'` sorts by the feature merged on, but not when it is given by the index 0; and the index is used for sorting after the features have changed: an index which was valid raises an IndexError when `feature='intersection'` has removed features.
* `C19_strict_force_violated` – C19 violated. `merge(point='strict', force=True)` with default names must be refused when the given names at an index differ (base.py:4660-4664); the point 'x' is joined with the point 'y'.
* `C19_strict_leak_violated` – C19 violated. A refused strict merge leaves the names made up for it in the object.
* `C21_validation_after_failure_violated` – C21 fails after an exception: the iterator is not reset, so the next (successful) validation tests only the remaining folds and leaves some points untested.
* `C23_nan_violated` – C23 fails when the first recorded performance is NaN: it stays the best forever, whatever is recorded later.
* `C24_single_value_violated` – C24 fails when an argument in the middle has a single value: tuning stops there and the remaining arguments are never varied (here `c = 8` is never tried).
* `C25_getAll_then_save_violated` – C25 violated: `get()` is not free of effects: it copies the interpolated value of an option that was never set into the changes of its section, so the next `saveChanges()` rewrites it.
* `C25_percent_violated` – C25 violated: a value with a percent sign changes when it is saved: set to `100%%`, `get` returns `100%%`, but after `saveChanges()` it returns `100%`.
* `C26_set_back_violated` – C26 violated: setting an option back to the value in the file changes the value `get` returns from `2` to `1` without calling the hook.
* `C28_fillMatching_name_violated` – The claim is false for a point name with a boolean object: the iterator runs over the characters of the name, so `points="ab"` consults the row of point "a" (and raises when there is no such point).
* `C28_fillMatching_order_violated` – The claim is false for an unsorted `points` argument with a boolean object: filling `points=[1, 0]` of `[[1], [2]]` where only point 0 matches changes point 1 instead of point 0.
* `C29_newline_violated` – Element queries are not faithful across newlines: the value of `"== a⏎b"` is cut at the newline, and `"is missing⏎x"` is accepted as `"is missing"`.
* `C30_mapReduce_header_violated` – **C30 violated.** If the first reduction is a pair of texts and the second contains a number, the first reduction is taken as feature names: two non-None reductions give one point.
* `C31_groupByFeature_missing_violated` – **C31 violated (missing values).** A missing value read from a float array makes the whole call raise, and the key made for `np.nan` can be the key of a text, so two different values fall into one group.
* `C33_atomic_violated` – C33 (refusal leaves the object alone) is false: when a new name is taken the call raises and the feature is gone.
* `C33_default_name_violated` – C33 is false for a feature without a name in an object that has feature names: the call raises and the feature is gone.
* `C33_sparse_zero_violated` – C33 is false for Sparse objects: a feature holding a zero gets a new feature for zero, but the point holding the zero is one in none of the new features (the loop sees only stored elements, sparse.py:788).
* `C34_label_default_name_violated` – C34 is false for a label object with a default feature name when both objects have feature names: the call raises.
* `C34_label_identifiers_violated` – C34 is false for label identifiers when the fraction rounds to no test points: the training labels are then empty and the label feature stays among the training features.
* `C35_repeat_default_names_violated` – **C35 violated (default names).** If some point has a default name, or if the names have merely been looked at (which creates default names for an unnamed axis), `repeat` raises.
* `C35_repeat_no_points_violated` – **C35 violated (no points).** Repeating the unnamed features of an object without points gives an object without features.
* `C35_unique_missing_violated` – **C35 violated (values).** `unique` passes the kept points through `nimble.data`, which turns the texts `'NA'`, `'None'`, `''`, ... into nan: a kept value is altered.
* `C35_unique_no_points_violated` – Without points every feature is kept, although all of them are equal.
* `C36_list_mixed_violated` – A `List` whose collapsed features mix numbers and texts has its numbers turned into texts.
* `C36_refused_changed_violated` – A refused call need not leave the object as it was: with a name that a retained feature already has, the error comes after the table and the sizes have been replaced; the object left behind has four points and two point names.
* `C36_values_before_names_violated` – When a feature with values precedes the feature with the names, values are lost silently: here the second time is in no cell of the result, and the athlete stands in two features.
* `C37_automatic_violated` – C37, violated. Names not found automatically: feature names above a point without a number become a point; point names without feature names become a feature; a first feature called `pointNames` becomes the names of the points.
* `C37_blank_header_violated` – C37, violated. A file with a blank header over a first column whose values repeat after two points (so that they are values and not names) cannot be loaded: the types found for the features are those of their left neighbours.
* `C37_carriage_return_violated` – C37, violated. No string loaded from any file contains a carriage return: a string with one is never read back.
* `C37_linebreak_violated` – C37, violated. A text with a line break and no comma makes two points.
* `C37_lost_points_violated` – C37, violated. A first point beginning with `#` is lost, as is a point whose only value is empty.
* `C37_mixed_violated` – C37, violated. In a feature of a number and a word the number comes back as a string.
* `C37_numeric_string_violated` – C37, violated. A string which is the text of an int comes back as the int.
* `C37_partial_names_violated` – C37, violated. If some but not all points, or some but not all features, have names, nothing is saved (`TypeError`).
* `C37_quotes_violated` – C37, violated. Quotes around a text are lost.
* `C39_empty_violated` – An empty square object (0×0) has a first power but no other power: the power 0 and every power above 1 raise, although the 0×0 matrix has all powers.
* `C40_matrix_view_read_only_violated` – **C40 does not hold in general (read only).** Views do not override item assignment: assigning one element through a view of a Matrix changes the source, for every view and every element.
* `C40_view_of_view_violated` – **C40 does not hold in general (views of views).** A view of a view looks identifiers up in the source and then adds the offset of the view. For a view showing the points b, c of a, b, c, d: asking it for 'b' gives c, asking it for its last point is refused, asking it for 'c' gives d, which the view does not contain, and so does asking it for index 2.
* `C41_one_point_range_violated` – C41 fails for a filter naming one point: it is refused whatever the limit.
* `C41_points_one_violated` – C41 fails for `points=1`: asking for one of several points raises.
* `C41_range_outside_violated` – C41 fails for a filter reaching out of the object: documented to be cut off, it raises.
* `C41_range_start_violated` – C41 fails for a filter with room for two rows: point 0, outside the filter, is shown.
* `C42_confusion_percent_violated` – C42 violated. A known label for which `label % 1` raises a `ValueError`, such as the string `'50%'`, makes the function fail.
* `C42_confusion_unseen_violated` – C42 violated. Without `labels`, one predicted value which is not among the known values makes the function fail with a `ValueError`: that prediction is not counted.
* `C42_f1_zero_violated` – C42 violated. Both classes are known and predicted, no positive is found: recall and precision are 0, and the textbook F1 score `2 tp / (2 tp + fp + fn)` is 0, but `f1Score` is undefined.
* `C42_percent_witness_violated` – C42 violated. A perfect prediction of the labels '<50%' and 'more'.
* `C42_unseen_witness_violated` – C42 violated. Three known labels 0, 1 and a prediction 2 never seen: no matrix.
* `C43_descending_range_violated` – C43 fails for descending Python ranges: `Tune(range(2, 0, -1))` holds 0 and -1, which are not in the range.
* `C43_equal_ends_violated` – C43 fails for equal ends: `Tune(start=x, end=x)` crashes with an unbound variable, although the range is the single value `x`.
* `C43_never_returns_violated` – C43 fails for accepted multiplicative ranges: with the default start 0 (or the default change 1) the constructor never returns.
* `C44_one_vs_all_order_violated` – C44, violated. If two binary problems score best, the label depends on the order in which the set of labels is listed, which for strings is not the same from one run to the next.
* `C44_one_vs_one_order_violated` – C44, violated. If the votes are tied the label depends on the order of the set of labels: each of three labels beats one other.
* `C44_one_vs_one_scores_violated` – C44, violated. `allScores` fails with a `ValueError` if a label is not a number (`float` of a text).
* `C44_pair_training_violated` – C44, violated. With the labels in another feature than the last and no feature names, the points of the pairs after the first are looked for in the wrong feature: here the problem of the labels 1 and 2 is trained without a point.
* `C44_single_label_violated` – C44, violated. One against one with a single label: nothing is trained (`IndexError` when the trained learners are put together).
* `C44_strategy_violated` – C44, violated. A strategy in lower case is accepted and has no effect.
* `C45_error_class_violated` – The promised `ValueError` is a bare `TypeError` when the text comes first.
* `C45_numeric_text_violated` – The documentation says that duplicates involving non-numeric data raise; the text `'4'` after a number is added to it instead, and the text before the number raises.
* `C46_refused_sort_violated` – C10/C46 (violated). A sort that is refused because of an unknown key is not without effect: the keys after it have already been applied.
* `C47_append_partial_names_violated` – C47 (violated). Off-axis names that agree wherever both are given do not suffice: appending an object with fewer names (or more) along the other axis is refused although nothing conflicts.
* `C50_refused_setSeed_violated` – C50 (a refused `setSeed` has no effect) violated: a seed that numpy refuses raises an exception after the Python generator has already been reseeded.
* `C51_calculate_violated` – The claim is false when `points` lists all points in another order: `calculate(sum, points=["b", "a"])` labels b's sum "a" and a's sum "b".
* `C52_transform_atomic_violated` – A transformation that raises on a later point has already changed the earlier ones: the function doubles and refuses the point `[2]`.
* `C53_data_duplicate_header_violated` – A duplicate of the first header cell is not noticed by the detection, and the call is refused although declining names would have stored the rows.
* `C53_data_invents_values_violated` – **C53 violated: invented values.** Rows without any value together with feature names give an object filled with whatever was in memory, instead of an error.
* `C54_whole_axis_violated` – **C54 does not hold in general.** Assigning to a whole point (`obj['a', :] = v`, also `obj['a'] = v`), to all elements (`obj[:, :] = v`) and to one point and several features (`obj['a', [0, 1]] = v`) raises a `TypeError` although every key denotes positions.
* `C55_fitting_column_violated` – C55 fails for tables which fit but leave no room for the placeholder: one column of width 5 in a width of eight is left out.
* `C55_never_ends_violated` – C55 fails for one column of width 2 in a width of five: the loop never ends.
* `C57_default_end_violated` – Without `featureEnd` the number of points of the object is used for the width (base.py:3967): putting a 1 x 2 object at the corner of a 2 x 3 `List` object makes the first row four values long, so the object is broken.
* `C57_default_fit_violated` – Without ends it is not checked that the object fits (base.py:3955-3975): a 2 x 2 object placed at the last feature of a 2 x 2 `List` object makes its rows three values long.
* `C57_sparse_empty_rows_violated` – Replacing a rectangle below all stored elements raises an IndexError (sparse.py:441): with `a = [[1], [0]]` as Sparse, `a.replaceRectangle(5, 1, 0, 1, 0)` does not make it `[[1], [5]]`.
* `C59_percentile_missing_violated` – C59, violated. With two or more missing values every percentile is too small: `n - 2` counts one missing value only, so that even the maximum, occurring once, gets a percentile below 1.
* `C59_percentile_repeated_min_violated` – C59, violated. The minimum of the first object, if it occurs several times, has a positive percentile there and the percentile 0 in the second object, although it is the same value.
* `C59_percentile_single_violated` – C59, violated. A single value, without or with one missing value, raises a `ZeroDivisionError`.
* `C60_first_empty_violated` – C60, violated. A feature whose first value is empty is text, whatever the other values are; with the same values in another order it is a feature of ints.
* `C61_no_feature_names_violated` – C61, violated. With `featureNames=False` the point names given by the user are ignored, for every file.
* `C61_single_row_violated` – C61, violated. In a file with a single row the names given by the user, for points and for features, are ignored without an error: the result is that of loading the file without names.
* `C61_wrong_number_violated` – C61, violated. With point names whose number is not that of the points the result has the names `a`, `l` and `l`, and no error is raised by the reader.
* `C62_stored_zero_violated` – C62 is violated: a zero which is stored (a scipy matrix given by the user may contain one) is not counted as a zero: [0, 1] has no zeros, one distinct value, and the mode is 1.
* `C63_dict_of_list_back_violated` – C63 is violated: a dictionary of lists (here the copy of an object whose first feature is text and second numbers) is not accepted back: the first list is taken for the names of features, although names cannot be embedded in dictionaries; with `featureNames=False` it is accepted.
* `C63_python_list_violated` – C63 is violated: a copy as a list, feature by feature, turns numbers beside texts into texts.
* `C63_unnamed_violated` – C63 is violated: without feature names every feature of a point has the key None, and only the last one is left.
* `C66_missing_in_test_only_violated` – Applied to data other than the training data, the positions filled are those missing in the *training* data: a value missing in the test data but present in the training data stays missing.
* `C66_missing_in_training_only_violated` – … a value present in the test data but missing in the training data is replaced by a learned one …
* `C66_points_lost_violated` – … and points beyond the number of training points are lost.
* `C68_overlapping_sessions_violated` – Two loggers open at the same time: the second gets a number of its own only if the first has logged something before; otherwise the entries of both carry the same session number.
* `C69_datetime_object_violated` – `datetime` objects are documented for the dates but refused.
* `C69_limit_counts_hidden_violated` – The limit counts entries that the level of detail then hides: behind `n` deep entries an earlier one is not shown, although nothing else is.
* `C69_loose_date_violated` – The parts of a date need not be digits only.
* `C69_most_sessions_excluded_violated` – A session exactly `mostSessionsAgo` sessions ago is never included, although it is documented as the last one included; equal bounds are accepted and show nothing.
* `C69_preparation_level_violated` – Data preparation is documented as level 1 but not shown there.
* `C69_search_wildcards_violated` – `_` and `%` in the searched text stand for anything.
* `C70_later_inner_calls_violated` – Any further inner call is taken for the user's: it is checked, and logged if it asks for it.
* `C70_threads_violated` – With two threads a call of the user that starts while another is running is not recognised: its arguments are not checked, and `train` does not log it.
* `C71_iterator_violated` – The documentation also allows an "iterable". An iterator without nan is used up by the check for nan values, before the first element is looked at: the matcher answers `False` to everything, also to the values the iterator was to deliver.
* `C71_list_typeError_violated` – A matcher that raises a `TypeError` on a plain list: the user sees an `AttributeError` about `features` instead.
* `C71_true_false_violated` – numpy's `True` is a "boolean type equal to True", but `true` says `False`; the same for `false`.
* `C72_mask_names_violated` – **C72 violated**: the check compares the names as well. If `trainX` names a feature and the boolean object does not, the call is refused with "filling requires all unmatched elements to be non-nan" — whatever the data, also when nothing is missing or every missing element is matched.
* `C72_shape_silent_violated` – Restricted to feature 1 the call even succeeds, with the values of feature 2.
* `C72_shape_violated` – **C72 violated**: the shape of the learner's result is not checked. Feature 1 gets the values the learner computed for feature 2, then the call raises `IndexError` with `trainX` half changed.
* `C73_arguments_violated` – C73. `arguments` of a learner is not what it was trained with: after `train(k=1, p=2)` and `retrain(k=3)` the value `p=2` is still used, but `arguments` is `{k: 3}`.
* `C73_failed_retrain_violated` – C73. A failing `retrain` changes the learner: after `train(k=1, p=2)` and a call `retrain(k=1, p=3)` that fails during training, `apply` uses the old model with `p=3`.
* `C73_incremental_violated` – C73. `incrementalTrain` after `retrain` forgets the arguments of `train` that are still in force: after `train(k=1, p=2)` and `retrain(k=3)` it trains with `{k: 3}` only, and arguments given to `incrementalTrain` are not used by `apply`.
* `C73_multi_class_violated` – C73. `retrain` of a learner made with a multi-class strategy does not train its learners again: on the data 1 and 2 (two binary problems) with `p=2`, then `retrain` on 7 with `p=3`. Both learners still answer with the models of the old data, and the first one alone is applied with the new `p`.
* `C73_required_violated` – C73. A required argument must be repeated: after `train(k=1)`, `retrain(p=2)` is refused although `k` was set before.
* `C73_tune_violated` – C73. A refused `Tune` object has the same effect for the arguments before it.
* `C74_returned_violated` – C74. The learner returned is not the one that was best: with `p` = 3, 7, 1 and the higher performance being the better one, `p = 7` is best with 77, but the learner returned has `arguments` `{p: 1}` and its performance on the same data is 71.
* `C75_both_better_violated` – C75 violated: with performances 0, 1, 0, 2, 9 for the values 1 to 5, both neighbours of 3 are better; the worse one, 2, is selected, while the position moves to 4. The next candidates are the neighbours of 4, that is 3 and 5, so 5 is compared although 2 was selected; then the position is beyond 5. With the performances 0, 1, 0, 2, 0, the selection ends with 2 (performance 1) though 4 with performance 2 was measured in the first step.
* `C75_copy_violated` – C75 violated: `Tuning.copy`, which `nimble.train` calls after every tuning (learn.py:818-820), passes `allowIncremental` to a constructor without such a parameter.
* `C75_joint_move_violated` – C75 violated with two arguments: every improving move is made at once. From (p, q) = (1, 1) with performance 10, the changes to p = 2 and to q = 2 each measure 11, and (2, 2), with performance 0, is selected; the best set returned by the tuning is (1, 1) with 10.
* `C75_returned_model_violated` – C75 violated, for every run: with a learner that cannot be trained incrementally, whatever argument sets the selector validates and whichever performs best, the learner kept as the best one, and returned by `nimble.train`, has the model trained with the very first argument set.
* `C75_trial_performances_violated` – C75 violated, for every run: with a learner that cannot be trained incrementally, after the first set `a` and one trial of another set `c`, every further performance is the same, whatever arguments are tried: that of the model of the first set.
* `C76_failed_tuning_violated` – C76 violated: after a tuning that raises, `bestResult` and `bestArguments` are those of the failed tuning and `allResults` those of the one before.
* `C76_reuse_violated` – C76 violated: every later call tunes with the function of the first one, also if the first one raised: a `trainAndTest` with `g` after one with `f` selects the arguments that are best for `f`.
* `C77_best_name_violated` – C77 violated: with label features one of which is called "bestScore" the mode 'bestScore' is refused.
* `C77_failed_incremental_violated` – C77 violated: an `incrementalTrain` that the learner refuses still adds its labels, and the scores of the unchanged learner are read as those of pairs: a learner of four labels, refused the label 5, has no scores any more.
* `C77_retrain_names_violated` – C77 violated: predictions after retraining have the feature names of the first training, whatever the label features of the last training are called.
* `C77_spelling_violated` – C77 violated: the check lets through every spelling of the two modes, but only one is understood: with 'bestscore' or 'AllScores' the learner is asked for scores and labels and then the call is refused.
* `C78_empty_violated` – C78 violated: with the default proportion 0.2 and at most four points the validation data is empty, and the object is made without complaint.
* `C78_same_feature_violated` – C78 violated: the labels cannot be the fold feature, but only if both are written alike: with the labels given by name and the fold feature by index, or by indices 0 and -2, the same feature is accepted, and then the labels of a fold never occur in its training data.
* `C79_incremental_violated` – C79 violated: `incrementalTrain` does not separate labels given as a feature of trainX: a classification learner fails with AttributeError, any other learner is handed trainX with its label feature, and the identifier.
* `C79_normalize_identifier_violated` – C79 violated: labels given to `normalizeData` as a feature of trainX (documented) are always refused, for the learner trained without that feature is then applied to trainX with it.
* `C79_test_labels_violated` – C79 violated: with testX but no testY, a label object given for trainX is taken for the labels of testX, and nothing compares their numbers of points: the performance is computed against the labels of other points. And testY without testX is refused with an AttributeError.
* `C80_apply_argument_violated` – C80 violated: an accepted argument that is a parameter of `apply` makes `train` fail, and the error is no nimble exception.
* `C80_apply_required_violated` – C80 violated: a parameter of `apply` without a default must be given when training, and is then passed to `train`: such a learner cannot be trained at all.
* `C80_choose_violated` – C80 violated: the last set that lacks nothing is chosen, not the one that matches best: `a` and `b` are given and are exactly the parameters of the first set, but the second set is chosen and `b` is refused.
* `C80_hidden_default_violated` – C80 violated: a default of `apply` hides that `train` needs the same parameter: here `m` is not given.
* `C80_incremental_violated` – C80 violated: `incrementalTrain` gets every argument, also those of `train` only: a learner trained with `m` cannot be trained incrementally.
* `C80_keyword_only_violated` – C80 violated: a parameter of `train` after `*` without a default makes the learner unusable: it is not among the parameters that may be given.
* `C80_scores_violated` – C80 violated: `getScores` must have the parameters of `apply` but is called without any: with a parameter without a default it always fails, and a given value is never used.
* `C80_shared_parameter_violated` – C80 violated: a parameter of both `train` and `apply` without defaults is reported missing whatever is given, so such a learner cannot be trained.
* `C80_short_signature_violated` – C80 violated: a method with too few parameters is refused with IndexError instead of the message for it.
* `C81_best_scores_violated` – **Violated.** "A function of labels and best scores whose values fall with wrong labels is found to be 'max'": the sum of the scores of the rightly labelled points is, unless all scores that are drawn (0 or 1) are 0 in one of the eleven trials.
* `C81_inconsistent_refused_violated` – **Violated.** "A function that is inconsistent in attributing high or low values to right predictions is refused": this function falls with wrong labels when all known labels are equal and rises otherwise. Both further trials say 'max' and the others 'min', for all random numbers, but the further trials are only compared with each other (utility.py:155-161), and 'min' is returned.
* `C81_same_answer_violated` – **Violated.** "The answer does not depend on the random numbers": with labels one deviating repeated trial is always forgiven, and there is only one (utility.py:100, 106, 116-118), so for an inconsistent function the main trial alone decides.
* `C82_matching_names_violated` – **Violated.** "If no points are given, the data replaces the points of the same names": when the data has as many points and features as the object its names are ignored (axis.py:672-673), so that `a` gets the values of `b`.
* `C82_single_feature_violated` – **Violated.** "The rows of the data replace the points": rows of one value are taken for one point (axis.py:660-663), so for an object with one feature, data with two or more points given as rows is refused for every choice of points.
* `C83_rows_are_features_names_violated` – **C83 violated (`rowsArePoints=False`, names).** A point named by the user cannot be kept by its name.
* `C83_rows_are_features_violated` – **C83 violated (`rowsArePoints=False`).** Two features of three points, and only the first point is wanted (`keepPoints=[0]`): the object has all three points and has lost a feature instead.
* `C84_ambiguous_violated` – **C84 violated (a name that stands for two features).** The first one is taken, without a complaint.
* `C84_guessed_names_violated` – **C84 violated (point names which turn out to be values).** The header begins with an empty name, so the first values are taken for point names until one of them is repeated; then the kept features are off by one: only `b` is to be kept, but the third point has the value of `a`, and one value less than the others.
* `C84_index_violated` – **C84 violated (index one too large).** The index after the last feature is not recognised as too large: an `IndexError` instead of the documented exception, which a larger index gives.
* `C84_reorder_violated` – **C84 violated (all features, by their index).** A list of all features, only to change their order, is refused; with the names of the features it is accepted.
* `C84_unnamed_violated` – **C84 violated (two unnamed features).** Two features without a name in the header cannot both be kept: the second one is taken for the first one.
* `C85_atomic_violated` – **C85 violated (the failed call).** When the function fails, the elements before have been changed already.
* `C85_bool_matrix_violated` – **C85 violated (boolean Matrix).** An integer put into an array of booleans becomes a boolean: with a function that returns 5 for everything, a List holds 5 afterwards and the Matrix holds True.
* `C85_false_violated` – **C85 violated (False is taken for 0).** Zeros are "preserved" as soon as the function maps 0 to something equal to 0; then `False` is replaced by 0.0 without asking the function, even if the function tells the two apart.
* `C85_sparse_header_violated` – **C85 violated (a point becomes feature names).** If the new values of the first point are strings and the second point has a number, the Sparse object loses its first point: the new array is given to `nimble.data`, which takes the first row for feature names. Nothing tells the user. If the points have names there is an exception, and the object is left with two names and one point.
* `C85_sparse_none_violated` – **C85 violated (Sparse and `None`).** A function that returns `None` makes the elements missing; those of a Sparse object stay what they are.
* `C86_count_violated` – **C86 violated (countElements and False).** The condition "is a boolean" does not hold for 0, so False, which equals 0, is not counted.
* `C86_empty_violated` – **C86 violated (empty lists).** An empty list of points or features counts as all of them, for all objects but DataFrames.
* `C86_first_type_violated` – **C86 violated (the type of the first value).** The values get the type of the first one: after an integer, 1/2 is 0; after a string, a missing value is the string that `str(None)` is; a DataFrame has the values themselves.
* `C86_header_violated` – **C86 violated (a point becomes feature names).** If a function of three arguments gives different strings for the first point and some integer for the second one, the result has no first point.
* `C86_probe_violated` – **C86 violated (the probing call).** A function of three arguments is called with (0, 0, 0) before anything else: if it fails there, `matchingElements` fails, whatever it says about the elements.
* `C86_sparse_subset_violated` – **C86 violated (Sparse, zeros preserved, chosen points).** For points [1] and features [1] of a Sparse object with 2 points and 2 features the result should have one element; it has four. If only points or only features are given there is a TypeError.
* `C87_count_element_violated` – **C87 violated (one element).** A single point and a single feature are refused, although one element can be counted.
* `C87_count_missing_violated` – **C87 violated (missing values).** In an object array every missing number that is another Python object (as when a float column of a DataFrame becomes part of an object array) has a key of its own.
* `C87_count_sparse_zeros_violated` – **C87 violated (Sparse, only zeros).** A Sparse object of object dtype that stores nothing is refused; the dense object counts its zeros.
* `C87_iterate_sparse_zero_violated` – **C87 violated (Sparse).** The function `1 / v > 0` answers for every element of a table without zeros, and a dense object gives them; the Sparse object asks it about 0 and raises.
* `C88_append_other_dimensions_violated` – **C88 violated (5).** Only the number of flattened values is compared when points are appended: a 1 x 3 x 2 object is appended to a 2 x 2 x 3 one, and its elements are found under other indices.
* `C88_copy_list_retyped_violated` – **C88 violated (6).** `copy('python list')` of numbers and text gives text only.
* `C88_points_list_flattened_violated` – **C88 violated (4).** `points[[1, 0]]` gives the two points without their dimensions, while `points.copy([1, 0])` keeps them.
* `C88_ragged_accepted_violated` – **C88 violated (1).** Data whose points are ragged in a way that the first path does not show is accepted: `[[[1,2],[3]],[[4,5],[6]]]` gives an object of dimensions (2, 2, 2) with rows of three values, which `copy('python list')` then fails to copy.
* `C88_text_split_violated` – **C88 violated (3).** Text standing where a list is expected is taken apart into characters.
* `C88_value_repeated_violated` – **C88 violated (2).** A later point with a single value is silently repeated over the row: `[[[1],[2,3]],[[5],[]]]` becomes rows `1 2 3` and `5 5 5`.
* `C89_abs_violated` – **C89 violated (`abs(obj)`).** If the features have no names, `abs(obj)` has no names of points either.
* `C89_bool_violated` – **C89 violated (booleans).** True + True is true: 1, and not 2; and booleans cannot be subtracted.
* `C89_inplace_text_violated` – **C89 violated (refused in place).** A refused `obj /= 0` has turned the text of the object into numbers.
* `C90_dict_of_elements_featureNames_violated` – **C90 violated: feature names of a dictionary of elements.** A name given for the only feature is accepted and dropped, and so is a list of names that does not fit the data.
* `C90_dict_of_rows_lost_violated` – … and without point names the first list disappears into the feature names.
* `C90_dict_of_rows_text_violated` – **C90 violated: a first list of text.** With the default arguments, every dictionary whose first list is text and whose second list has a number is refused: the first list is taken for feature names although the keys of a dictionary name its points, and then the keys are one too many.
* `C90_list_of_elements_featureNames_violated` – **C90 violated: a list of elements as feature names.** `featureNames=True` always ends in an `IndexError`, although the same names inside one more pair of brackets make an object with these features and no point.
* `C90_vectors_mixed_violated` – **C90 violated: vectors of both directions.** A feature after a point gives the new point the name of the feature's first element.
* `C90_vectors_unnamed_violated` – **C90 violated: missing names.** "All objects must have identical feature names" is only enforced when every object has names: with `featureNames=True`, an object without names takes those of the first.
* `C91_dictionary_used_up_violated` – **C91 violated: the dictionary is used up.** The caller's own dictionary loses every key that named a feature: for every object and every dictionary, a second call with the same dictionary object converts nothing and raises nothing.
* `C91_empty_list_violated` – **C91 violated: no features.** For an object without features the list with one type per feature is an `IndexError`.
* `C91_negative_index_violated` – **C91 violated: negative indices.** A negative index is no feature for `convertToType`: if the features have names it is passed over without a word, otherwise the call is refused.
* `C91_rows_are_features_refused_violated` – The same rows as features: what was said of feature `b` is refused, …
* `C91_rows_are_features_violated` – **C91 violated: `rowsArePoints=False`.** For every source whose rows are features the types are applied before the object is turned: what the user says about feature `j` is done to *point* `j` of the result.
* `C91_sparse_stored_only_violated` – **C91 violated: `Sparse`.** Only the stored entries are converted: no coordinate is added, so a value that is not stored stays the zero it was, whatever the type would make of a zero (a string, a date).
* `C92_list_separator_violated` – **C92 violated: a list with longer texts.** As an item of a list a separator of two or more characters is only cut off by one character: the next part begins with what is left of it.
* `C92_places_violated` – **C92 violated: places out of order.** An integer before the place already reached repeats characters that belong to the part before it, and one beyond the end of the value gives empty parts; neither is refused.
* `C92_sparse_numbers_violated` – **C92 violated: `Sparse` numbers.** If the stored values are numbers and the rule (a function) returns a text, every other number of the object becomes a text as well.
* `C92_taken_name_violated` – **C92 violated: a name that is taken.** If a new name is already the name of another feature (or occurs twice) the call is refused, but only after the data have been replaced: the object has the new data, claims the new number of features and has still the names of the old features.
* `C93_atomic_violated` – **Violated.** "A call that raises leaves the objects as they were": if the function returns the wrong number of values for the second object, the first one has already been changed, so the two are no longer normalised alike.
* `C93_single_index_violated` – **Violated.** "`features` may be a single identifier" (features.py:1886-1889): true of the call without `applyResultTo`; with it a single integer is always refused.
* `C93_single_name_violated` – **Violated.** And a single name is taken character by character: a name with a character that is not itself the name of a feature is always refused, also if it names a feature.
* `C94_df_missing_violated` – C94 is violated by the code: in DataFrame objects a missing value of the feature merged on is equal to another one.
* `C94_df_order_violated` – C94 is violated by the code: the points of a union of DataFrame objects get each other's names when the documented order is not alphabetical: the point 'b' has the value of 'a'.
* `C94_df_refused_violated` – C94, C19 are violated by the code: a merge of DataFrame objects which is refused leaves the frame of pandas in the object, with columns of both objects.
* `C94_matrix_missing_violated` – **Violated.** "A missing value of the calling object is replaced by the value of the other one": in a merge of two `Matrix` objects on point names that keeps the features of the caller, every element of the caller is afterwards what it was; so a missing one is still missing, whatever the other object has there.
* `C94_sparse_lost_violated` – **Violated.** With a zero in the feature merged on, a left join has one point less, without any message.
* `C94_sparse_moved_violated` – **Violated.** A point only the other object has, with a zero in one of its own features: its later values move to the wrong features (here the 8 of 'z' becomes the value of 'y', and 'z' is zero).
* `C94_sparse_refused_violated` – **Violated.** Objects with text cannot be merged, and a join without points is an `AttributeError`; as `List` objects both work.
* `C94_sparse_zero_violated` – **Violated.** With a zero in the feature merged on, the places of the stored values are taken for the places of the points: the join is refused because the wrong point (with the value 0) is compared. The `List` merge is the join.
* `C95_floordiv_violated` – **C95 (`//`), violated.** Wherever `x // y` is not the rounded quotient (in floating point arithmetic `1 // 0.1` is 9 and `1 / 0.1` rounded down is 10; `inf // 1` is an error and `inf / 1` is inf) Sparse objects disagree with the other types.
* `C95_mod_violated` – **C95 (`%`), violated.** A left object with a zero is refused (unless it is a single element), whatever the other elements are: only the stored values are handed to numpy, and there are not as many as in the right object.
* `C95_scalar_violated` – **C95, violated.** In the operations left out above a zero stays 0, although 0 times an infinity, and 0 times or divided by nan, is nan (or a floating point error).
* `C95_silent_violated` – **C95 (`+`, `-`, `*`, `/`), violated.** A floating point error, such as infinity minus infinity, is raised by the other types but not by Sparse: the operation succeeds.
* `C96_combine_stored_violated` – **C96 (how expanding stores the result).** Every element of the result is stored explicitly, the zeros too: the invariant of Sparse objects that only values other than zero are stored is lost as soon as the result has a zero.
* `C96_split_order_violated` – **C96 (features given in another order).** Next to the name of the feature `cidx[q]` stands the value of the feature `(writtenFts …)[q]`; if these differ in a point, the table is not the documented one.
* `C96_split_shift_violated` – **C96 (zeros among the retained values).** If a point has a zero in a retained feature and a value that is not zero in a retained feature further right, the call writes a wrong table: it is not the documented one.
* `C96_split_stored_violated` – **C96 (how collapsing stores the result).** A collapsed feature without a name is named by its index: for the first feature the cell with the index is a zero and is stored explicitly.
* `C96_split_zero_violated` – **C96 (a zero in a collapsed feature).** A single zero in one of the collapsed features makes the call fail with an index error, whatever the other elements are; the values and the names stay as they were.
* `C98_lost_violated` – **C98 (violation).** Names which are not storable - with a comma or a line break, with white space at the end of the last one - are never read back: no text at all, so no file saved, makes the loader return them.
* `C99_feature_duplicate_violated` – **C99 (violation, features).** When one feature name occurs twice in the first row and all others are different the matrix is accepted: one of the two features gets the name `'0'`, which is nowhere in the matrix.
* `C99_one_row_violated` – **C99 (violation, one row).** A matrix with one row of different texts: its only point is taken for feature names, while in the same table given as a list no names are detected and the point is kept.
* `C99_zero_point_violated` – **C99 (violation, a point named zero).** When point and feature names are taken out and a point has the name zero the matrix is refused, although all names are different.
