# Formal model of hetero-secure-boost: design

The code under study is the Python project in `/repo` (a vertical-federated
gradient boosting library: one *guest* holds labels, several *hosts* hold
features; gradients travel encrypted with Paillier).  The model is written in
Lean 4 (+ Mathlib) under `/verif/lean/Verif`.

## Layout

* `Verif/Model/*.lean` – the model.  One definition per Python function, same
  branch structure, with a comment citing file and lines in `/repo`.
* `Verif/Spec/*.lean` – small specifications that do not use the model
  (used to state properties independently of the model's helpers).
* `Verif/Lemmas/*.lean` – auxiliary lemmas.
* `Verif/Props/Cxx*.lean` – the property theorems, each with `example`s showing
  that the hypotheses are met by a concrete non-trivial case, and with proved
  *negative* theorems (`…_refuted`, `…_fails`) where the code violates the
  English property.

Python exceptions are values (`Except PyErr α`).  Python loops are structural
recursion/folds, `while` loops are well-founded recursion or fuel-free
inductive runs.  Python `None` is `Option.none`.

## Trusted base

* Lean's kernel and the three standard axioms `propext`, `Classical.choice`,
  `Quot.sound` (recorded per theorem in the last section of this file).
* The hand translation from Python to Lean described below (no extraction).
* Numbers: Python `int` is `Int`/`Nat` (exact).  Python/NumPy floats are
  modelled by exact ordered-field numbers (`Rat`, `Real`, or an arbitrary
  ordered field).  In growing trees and adding up scores the results of
  float operations go through an arbitrary rounding function (C68, C69); elsewhere
  rounding is not modelled, except in the fixed-point encoder, where every
  operation on the float (multiplication by a power of two, `round`) is exact
  and the float itself is a dyadic rational.  NaN, infinities and overflow of
  IEEE doubles are modelled in the search for splits (C74) and *not* elsewhere.
* Random draws (`random`, `np.random`, `randrange`) are universally quantified
  parameters.
* `gmpy2` primitives (`powmod`, `invert`, primality) are modelled by their
  mathematical definition; pickle by an arbitrary injective serialiser with a
  left inverse; TCP by a byte stream that may be cut anywhere.
* Logging, time, file-system access, protobuf wire format are not modelled
  (protobuf field defaults for `None` are modelled).

## Plan per property

| id | what is modelled, how it is proved |
|----|------------------------------------|
| C01 | `DTable` as an insertion-ordered association list built by the constructor loop; error iff duplicate (`List.Nodup` of keys); induction over the input list |
| C02 | `join`, `union`, `subtractByKey` loops; lookup characterisation against `Option` spec, order and `Nodup` of keys |
| C03 | `filter`, `mapValues`, `reduce`; permutation of the two halves; fold split law with non-`None` hypotheses plus a counterexample with `None` |
| C04 | sender writes header+body; receiver = loop of `recv` with an adversary choosing how many bytes each `recv` yields; round trip by induction over messages; `_partial` because the code reads the header with one `recv(16)`; counterexample schedule |
| C05 | connection array; send/recv by index as state transformers |
| C06 | `data_split` with the seeded shuffle as a permutation of positions depending on the length only |
| C07 | CSV text as list of lines split on commas; pops by position; cell parser a parameter |
| C08 | `FixedPointNumber.encode/decode` over `Rat` with floats as dyadics `m·2^e`; banker's rounding |
| C09 | `__add__`, `__sub__`, comparisons, alignment; modulus `Q` hard-wired as in the code |
| C10 | `raw_encrypt`, `apply_obfuscator`, `raw_decrypt` with CRT; number theory in `ZMod`/`Nat.ModEq` |
| C11 | `EncryptedNumber` operations incl. exponent alignment; induction over expression trees |
| C12 | key checks; bound `2·max_int < n - max_int` |
| C13 | RSA wrapper; Fermat + CRT |
| C14 | affine cipher; algebra mod n, window test |
| C15 | `EncryptModeCalculator` as a state machine over an abstract additively homomorphic cipher; induction over histories; key-set hypothesis and refutation without it |
| C16 | GK summary: insert/head-buffer/compress/merge; invariants by induction; refutation for multi-batch (tail dropped by `_insert_head_buffer`), `_partial` for a single batch |
| C17 | rank error for one batch + compress; `query` loop |
| C18 | monotone `query`; `fit_split_points` dedup |
| C19 | sparse percentile conversion over `Rat` |
| C20 | `get_bin_num` loop; equivalence bin test/threshold test |
| C21 | `data_format_transform`, sparse conversion, `get_data` default |
| C22 | `batch_calculate_histogram` + `accumulate` against a direct sum over samples |
| C23 | same computation over a cipher type; additive map `dec` commutes with every step; instantiated with C11 |
| C24 | splitter loops against a spec of admissible candidates |
| C25 | host candidate scan + guest/host merge |
| C26, C27 | level-by-level tree growth as a transition system with arbitrary split decisions; invariants by induction |
| C28 | dispatch of samples along levels; invariant "current node = node reached by walking the finished prefix" |
| C29 | guest/host alternating traversal; termination measure child id > parent id; refinement to central walk |
| C30 | message contents (masked nodes, split infos, final tree); non-interference statement; refutation for gradient sums in the final tree |
| C31 | parties as processes over FIFO channels; confluence of every schedule + completion of one schedule |
| C32 | boosting loops over a flat tree list; fold algebra |
| C33 | `check_label` and label decoding |
| C34 | convergence state machine and boosting loop |
| C35 | importance dictionaries over split histories |
| C36 | export/import with protobuf defaults; prediction unchanged |
| C37 | `Real.exp` based sigmoid/softmax |
| C38 | `HasDerivAt` for each loss; refutations (LAE at 0, Tweedie) |
| C39 | `SummaryStatistics` over `Rat` with sentinel min/max; merge homomorphism |
| C40 | parameter objects as finite trees |
| C41 | check functions over a small Python-value type |
| C42 | feature mask from a duplicate-free draw |
| C43 | heap with row objects; refuted by the code, partial for tables whose rows are copied |
| C44 | `powmod`, `invert` |
| C45 | quadratic optimisation over an ordered field |
| C46 | `mapPartitions` type check makes `get_mean` raise: refuted |
| C47 | `reduce_add`, `dot`, `norm` |
| C48 | the same transition system; sums of a node against the samples dispatched to it |
| C49 | the run driver of `model_base.py` (`_run_data`, `fit`/`predict` dispatch); refuted for validation data, partial for one table |
| C50 | totality of the composed training function: every step of `fit` returns under conditions on the raw data, the key and the settings |
| C51 | the tree of a run against a direct description: at each node the best admissible split over all parties, within stated tolerances |
| C52 | `mapReducePartitions` (group by key) against lookup of grouped values |
| C53 | totality of the boosting loop; invariants on the scores carried over rounds |
| C54 | the centralised program of `xgboost/` as a second model; simulation of the federated tree by it, level by level |
| C55 | simulation of the boosting loops, round by round, on top of C54 |
| C56 | composition: text of the files → C07, C06, C01 → preparation (C21) and label check (C33) → C53's run → C29/C33 for prediction |
| C57 | refuted: the outcome does not depend on the identifier columns, and a concrete reordering changes the accuracy; holds for equal orders |
| C58 | encoding error of a float (C08) and homomorphism (C11) give ciphertexts with bounded errors; arithmetic of the bounds gives the hypotheses of C51, C53 and C56 |
| C59 | the draw loops as recursion over the list of draws; Bertrand's postulate for the next prime; invariants of the loop give the length; Lucas certificates for the default length |
| C60 | the object as a record of two optional keys; element-wise round trip from C08 and C10, lifted over lists and tables |
| C61 | frequencies over the finite set of random numbers; fibres of `r ↦ r^n` on the units as cosets, compared by multiplication with a unit |
| C62 | the objects as functions from state and argument to verdict and state; induction over the calls; in-place updates as a second run function whose memory is the current array |
| C63 | the functions over the reals with the exponential as an argument, so that "never called at a positive argument" is "does not depend on its values there" |
| C64 | the comparison program as one function on the two files; preparation of the joined columns from C55's notion of joined data, then C55 and C56; label assignment and accuracy do not depend on the order of the scores |
| C65 | each program as a process that reads its own file; the composed run gives one completing execution of the processes (as in C31), confluence gives all others |
| C66 | steps extended by ended connections; a dialog for each connection that both sides keep to whatever they compute, kept as an invariant with the messages on the way; a star of such dialogs always has a step; programs are well-founded trees, so executions are finite |
| C67 | when the composed computation raises, the lockstep execution of the processes leads to a process that has raised; by confluence every execution can still be led there, so none has all programs returned |
| C68 | the model of trees and scores has a rounding function as parameter; C28 and C32 hold for all of them, the bounds follow by induction over the additions |
| C69 | errors of histogram sums by induction over the additions (`RoundError`), of gains from those of sums (`RoundGain`); the rounded run is shown to follow rules (`Rules`: which sums, leaves and splits are allowed) whose consequences for whole runs are those of C51 |
| C70 | both runs are nearly greedy (C69); strong induction over the node numbers: clear decisions agree, so children, levels and samples of later nodes agree |
| C71 | the loop over rounds is cut at the smaller limit (`Longer`); a simulation shows that the states of the two runs agree up to the leaves made by the depth limit |
| C72 | the scores are sums of the weights of the leaves reached (C32); the walk only reads the values asked for |
| C73 | every function of training and prediction commutes with renaming (`Rename`, `RenameBoost`); any two lists of distinct numbers are exchanged by a one-to-one function; counterexamples for equal numbers |
| C74 | a second model of the search with infinities and NaN (`Model/Numpy`); the running best is an invariant over the list of candidates in the extended rationals |
| C75 | both trees are nearly greedy (C69); the splits on offer correspond, so clear decisions are the same; induction over the nodes (`Moved`); counterexample with a near tie |
| C76 | reciprocal and encodings composed as relative errors (`Close`); product by C09, ciphertext by C11; counterexamples by evaluation |
| C77 | the object's known columns characterised by `Picked`; summaries per column in closed form; conversion loops in closed form; failing rows by induction |
| C78 | while nothing leaves the buffer, a summary depends only on the sorted values (`Reorder`); conversion is per row; then C75 |
| C79 | exact trees of both runs by C75's matching; gradients of tree n depend only on earlier weights, so induction over the trees, then over the rounds for losses and stopping (`MovedBoost`) |
| C80 | case analysis of the checked settings (C41) against the types of the message fields; the run with stored settings is the same loop (`Meta`) |
| C81 | the matched trees of C79 name splits that are best in both runs; in terms of raw values such a split of the second run is one of the first, so new samples take the same way (`MovedPredict`) |
| C82 | relational proof: summaries, queries and split points of tables in step stay in step (`OrderQuantile`, `OrderPrepare`), so bins are equal; training uses only bins and numbers of split points; thresholds and new values compare alike (`OrderTree`, `OrderRun`) |
| C83 | the samples that reach a node and its chosen bin are known from growing (`GrownBy`); bins and thresholds separate raw values alike (`BinOk`); leaves hold disjoint sets of samples (`Lemmas/Sides`) |
| C84 | induction on the number of dimensions, rows by C60; failures are traced back to the conversion of ciphertexts to floats |

## What is modelled

Per file of `/repo`; everything not listed is not modelled.

| file | modelled in | not modelled |
|------|-------------|--------------|
| `computing/_computing.py`, `d_table.py` | `Model/DTable`, `DTableM`, `Py` | printing; the constructor's flag only as two functions `ofPairs`/`ofValues` |
| `federation/transfer_inst.py` | `Model/Transport` (bytes), `Model/Network` (processes and channels) | socket set-up and tear-down, reconnects, pickle's format |
| `guest.py`, `host.py`, `i_o/utils.py` | `Model/Data` (reading, splitting), `Model/Program` (whole programs, guest and hosts composed), `Model/Processes` (whole programs as separate processes), `Model/Closing` (ended connections) | command line, sockets, printing |
| `ml/model_base.py` | `Model/Run` | logging; the data set and model dictionaries only as far as `run` inspects them |
| `ml/tree/*.py` (guest) | `Model/Fit`, `Grow`, `Splitter`, `Numpy`, `SplitChoice`, `Histogram`, `EncHistogram`, `Predict`, `Save`, `Boost`, `Sampling`, `Protocol`, `Rounding`, `Meta` (settings stored with the trees) | log output, multiprocessing |
| `ml/tree/*.py` (host) | same, and as separate processes in `Model/Protocol` | – |
| `xgboost/*.py`, `test_xgboost.py` | `Model/Central`, `CentralBoost`, `CentralProgram` | printing |
| `ml/feature/*`, `ml/feature/binning/*`, `data_overview.is_sparse_data` | `Model/Quantile`, `Binning`, `Selected` (any columns, dense rows, repeated calls), `Alias` | `sparse_vector.count_zeros`, printing |
| `ml/secureprotol/*` | `Model/Paillier`, `FixedPoint`, `GmpyMath`, `Division`, `Affine`, `Rsa`, `EncryptMode`, `GuestEncrypt`, `KeyGen`, `Encrypter`, `Recursive` | key hashing |
| `ml/statistic/statics.py` | `Model/Statics` | – |
| `ml/loss/*`, `ml/optim/*` | `Model/Loss`, `Activation`, `Converge`, `Boost` (convergence in training) | floating-point rounding |
| `ml/param/*`, `ml/utils/param_extract.py`, `abnormal_detection.py` | `Model/Params`, `Evaluate`, `ParamExtract`, `Value` | deprecated-parameter warnings |
| `ml/utils/classfiy_label_checker.py`, `fate_operator.py` | `Model/Labels`, `Operator` | – |

Simplifications that a reader should know:

* Floats are rational numbers.  In growing trees (histograms of the guest, gains,
  weights, node sums, thresholds) and in adding up scores every sum, difference,
  product and quotient is rounded by a function that is a parameter of the
  model (`Config.rnd`, `Rate.rnd`); theorems that need exact arithmetic have
  the hypothesis `Exact` (rounding is the identity), the others hold for every
  rounding.  Elsewhere (losses, quantiles, convergence test, importances,
  accuracy) float results are exact.  Infinities and NaN are modelled in the
  search for splits only (`Model/Numpy`, C74).
* Where runs on ciphertexts are compared exactly with
  other runs (C25, C35, C54, C55) the gradients are assumed to be exactly
  encodable in the fixed-point format; C48, C51, C53, C56 and C69 allow encoding
  errors, and C58 shows that these stay within bounds for all floats.
* Training runs leave out storing the tree settings with each tree, which fails
  for some accepted settings; C80 says for which, and that the runs are the same
  for all others.
* Random draws are arguments: a list of draws for key generation (a loop that
  uses up the list is `unfinished`), a number per encryption.
* In the composed model of training the hosts' copies of nodes are identified
  with the guest's; C31 proves that the separate processes compute the
  composed result in every order of steps.
* `np.array` of split points of different lengths is taken to succeed, as in
  NumPy before 1.24; later versions raise `ValueError`.
* The dictionary of `predict` details is keyed by codes for binary and by labels
  for multi-class problems, as in the code; only the predicted label and scores
  enter the theorems.
* Fitting twice with the same object fails in the code; a run is a fresh object.

## Where the code disagrees with the claim

Each has a theorem with a concrete witness (or for all inputs where stated).

* C04 – the 16-byte header is read by one `recv`; a short read gives a wrong message.
* C09 – sums of fixed-point numbers wrap silently when alignment leaves the
  window; the class constant `Q` is used instead of the operands' modulus.
* C10 – encryption randomness is drawn from 1..n-1 without checking that it is
  coprime to n; exactly p+q-2 of the pq-1 draws break decryption, for every key.
* C12 – sums of three ciphertexts, or of two with different exponents, can
  overflow without being detected.
* C15 – in fast mode records not in the previous table are dropped.
* C16, C17 – flushing the insert buffer below a stored sample drops the tail of
  the stored samples.
* C18, C20 – split points of sparse columns with entries of both signs are not
  increasing.
* C19 – the zero region is closed, so 0 is returned without any zero entry;
  uncompressed summaries divide by zero.
* C22 – without a feature mask the histogram is wrong.
* C25 – without hosts the guest raises `IndexError`.
* C29 – a sample missing at a host is silently dropped from predictions.
* C30 – the finished tree is sent to all hosts with plaintext gradient sums; at
  a leaf with one sample this is the gradient of that sample.
* C38 – least absolute error has the wrong sign just above the label and
  hessian 1; Tweedie's gradient and hessian are not derivatives of its loss.
* C39 – extremes of columns outside ±2^63; variances below 1e-6 become 0.
* C41 – run mode, prediction and cross-validation settings are unchecked; NaN is
  accepted; `TransformParam.check` rejects everything; binning error 1.0 is
  accepted and integer 0 rejected; `method = None` raises `AttributeError`.
* C40 – a string in place of a section of the configuration is ignored.
* C43 – training overwrites the caller's rows with bin numbers.
* C44 – `powmod(1, …)` is 1 also for modulus 1.
* C46 – regression objectives fail at the start for every input.
* C47 – the second vector of `reduce_add` is cut off if longer.
* C49 – predictions for validation data are computed and dropped.
* C54 – the guest's split is preferred within 1e-6, so that a near tie can give
  a tree other than that of centralised training.  The centralised predictor
  calls a missing method if some sample is not at a leaf after its loop.
* C57 – identifiers are never compared; a host file with another order of lines
  is joined line by line with other samples.
* C59 – key lengths 0 and 1 raise (1 passes the parameter check); lengths 2, 3, 5
  and 9 never return; odd lengths practically never do.
* C11 – adding ciphertexts whose exponents are far apart raises `ValueError`
  although both numbers and their sum can be encoded; an unlucky random number
  (a multiple of a factor of n) gives wrong sums.
* C66 – `recv_data` does not look at empty results of `recv`: when the sender
  dies within a message, the loop over the body never ends.
* C64 – the comparison program puts the column names of both files in one list
  and bins by name; in the data that the program reads both parties use the same names.
* C62 – the absolute check takes negative losses of any size as converged; the
  weight check keeps a reference to the caller's array.
* C63 – `softplus` calls the exponential function at positive arguments.
* C61 – the exponent of an encrypted float is visible and shows its size; hosts send
  sums that are not obfuscated again; generated keys may have p | q-1.
* C60 – encryption methods other than Paillier pass the check and are refused at
  the start of training.
* C77 – selecting columns fails with `KeyError` on sparse rows that store other
  columns; a column selected by a negative index is fitted but not converted; a
  second fit keeps the first split points; a misspelt attribute makes conversion
  with given split points raise `AttributeError`.
* C80 – settings that pass the checks (a depth of 2^31, a list of parameters of the
  criterion that starts with a number) cannot be stored with the tree; training
  fails after the first tree.
* C81 – when two columns agree on all training samples, the first one in the order
  of the parties is chosen, so the predictions for new samples depend on who holds them.
* C82 – adding a constant to a column can change its bins, since zeros are counted apart.
* C84 – `recursive_encrypt` never returns ciphertexts: it converts them to
  floats, which raises `TypeError`; without a key it returns NaN.

## Testing of the theorems

`seeded/LOG.jsonl` records edits of the model as a realistic bug would make
them, one per line, with the theorems that failed to build.  Edits that
survived led to the tightenings named in the record.

## Axioms of each theorem

Output of `#print axioms` for the 416 theorems of MANIFEST.json, grouped.

* **none** (5): C01_not_list_rejected, C03_reduce_none_restarts, C03_reduce_empty, C04_short_header_refuted, C46_median_refuted.
* **propext** (15): C03_reduce_fold, C05_recv_all, C05_recv_invalid, C06_no_shuffle, C10_key_rejected, C13_missing_key, C13_public_only, C13_new, C14_add_refused, C41_empty, C44_powmod, C44_powmod_one_refuted, C49_last_wins, C49_not_run, C66_between.
* **propext, Quot.sound** (16): C01_non_pair_rejected, C03_reduce_split, C04_header_width, C06_partition, C06_aligned, C06_aligned_pairs, C07_labelled, C07_non_numeric_rejected, C07_unlabelled, C21_no_such_column, C30_host_thresholds, C41_transform_refuted, C41_method, C77_refused, C80_any, C80_host.
* **propext, Classical.choice, Quot.sound** (380): C01_build_iff, C01_duplicate_rejected, C01_contents, C01_values, C02_join, C02_union, C02_union_default, C02_subtract, C02_closed, C03_filter_partition, C03_mapValues, C04_roundtrip_partial, C04_truncated_never_returned, C05_send, C05_history, C05_recv_one, C06_size, C07_lengths, C07_ragged_accepted, C08_window, C08_int_roundtrip, C08_int_rejected, C08_roundtrip, C08_float_relative_error, C08_int_exact_at_any_exponent, C08_accept_or_reject, C08_float_rejected, C08_other_type, C08_float_exact_refuted, C09_encode_overQ, C09_add_exact, C09_add_overflow_partial, C09_add_overflow_refuted, C09_add_other_modulus_refuted, C09_compare, C09_sub_exact, C09_mul, C10_key_constructed, C10_raw_roundtrip_partial, C10_decrypt_encrypt_partial, C10_obfuscate_partial, C10_all_draws_refuted, C10_draws_iff, C10_bad_draws, C11_homomorphic_partial, C11_encoded_int, C11_gap, C11_draw_refuted, C11_gap_refuted, C12_add_other_key, C12_sub_other_key, C12_decrypt_other_key, C12_two_sum_partial, C12_mixed_exponents_refuted, C12_three_sum_refuted, C13_roundtrip, C14_key, C14_combination, C14_roundtrip, C14_sum, C14_outside_window, C14_encoder, C15_strict, C15_incremental_partial, C15_exact_partial, C15_new_record_refuted, C16_sorted, C16_samples_inserted, C16_count, C16_weight_bound, C16_weight_partial, C16_weight_refuted, C17_rank_error_partial, C17_promise_partial, C17_column_partial, C17_rejected, C17_empty, C17_lost_samples_refuted, C18_query_monotone, C18_split_points_increasing, C18_sparse_split_points_partial, C18_sparse_refuted, C19_zero_iff, C19_percentile, C19_no_zero_refuted, C19_unflushed_refuted, C20_bin_is_interval, C20_bin_monotone, C20_bin_test_iff_threshold_test, C20_dense_column, C20_sparse_column_partial, C20_unsorted_refuted, C21_row, C21_agrees_with_dense, C21_table, C21_wide_row, C22_histogram, C22_last_bin, C22_thresholds, C22_aggregate, C22_no_mask_refuted, C22_no_nodes, C23_follows_plain, C23_true_sums, C24_best_split, C24_on_samples, C24_too_small, C24_zero_division, C25_choice, C25_within, C25_no_hosts, C25_samples, C26_well_formed, C26_decided, C27_depth, C27_size, C27_depth_zero, C28_every_sample_once, C28_increasing, C28_run, C29_prediction_is_walk, C29_trained_usable, C29_training_data, C29_missing_sample_dropped, C30_messages, C30_ciphertexts, C30_guest_thresholds, C30_host_view, C30_guest_view, C30_prediction, C30_sums_refuted, C30_sample_refuted, C31_tree, C31_training, C31_thresholds, C31_prediction, C31_run, C32_prediction, C32_training, C32_training_data, C33_encoding, C33_codes, C33_too_many, C33_mixed, C33_binary, C33_multi, C33_known, C34_stop, C34_hosts, C34_losses, C35_tree_count, C35_tree_gain, C35_gains, C35_run, C35_run_count, C36_reload, C36_trained, C37_binary, C37_softmax, C37_shift, C37_empty, C37_label, C38_logistic, C38_lse, C38_huber, C38_fair, C38_log_cosh, C38_softmax, C38_lae_partial, C38_lae_refuted, C38_tweedie_refuted, C38_reported, C39_definitions, C39_extremes_partial, C39_merge, C39_parts, C39_columns, C39_table_parts, C39_extremes_refuted, C39_variance_refuted, C40_settings, C40_errors, C40_absent, C40_not_dict, C40_bad_section, C40_idempotent, C41_tree, C41_objective, C41_encrypt, C41_boosting_partial, C41_default, C41_unchecked_refuted, C41_binning_partial, C41_binning_refuted, C41_uncalled, C41_evaluate, C42_count, C42_all, C42_any, C42_no_features, C43_overwritten_refuted, C43_separate_partial, C43_prediction_partial, C43_prediction_refuted, C43_empty, C43_shared_refuted, C43_trees_read, C44_powmod_canonical, C44_invert, C44_invert_error_iff, C45_weight_optimal, C45_node_score, C45_gain, C45_gain_nonneg, C45_gain_regularised_negative, C45_zero_division, C46_classification_partial, C46_mean_refuted, C47_add, C47_none, C47_sum, C47_order, C47_numbers, C47_mixed, C47_dot, C47_dot_short, C47_matrix, C48_right_child, C48_children, C48_root, C48_leaves, C48_samples, C48_samples_encoded, C49_single_partial, C49_validation_refuted, C49_no_train_prediction, C50_training_completes, C51_greedy, C51_greedy_encoded, C52_group, C53_run, C54_lossless, C54_near_tie_differs, C55_lossless_run, C56_program, C56_no_train, C56_no_test, C57_same_id_partial, C57_ids_ignored, C57_order_matters, C58_encrypt, C58_run, C58_trees, C58_program, C59_key_partial, C59_default, C59_length_refuted, C59_never_refuted, C59_odd_refuted, C59_affine_partial, C59_affine_refuted, C60_lists, C60_tables, C60_public_only, C60_no_key, C60_guest, C60_method_refuted, C60_handed_over, C60_both_keys, C61_refresh, C61_like_fresh, C61_uniform, C61_exponent_refuted, C61_one_to_one_partial, C61_generated, C61_sums_refuted, C61_collision_refuted, C62_diff, C62_abs_partial, C62_abs_refuted, C62_weights_partial, C62_lengths, C62_weights_refuted, C63_sigmoid, C63_sigmoid_shape, C63_log, C63_hard_sigmoid, C63_signs, C63_no_overflow_partial, C63_softplus_refuted, C64_same_result_partial, C64_shared_bins, C64_names_refuted, C65_processes, C65_run, C66_whole, C66_within_refuted, C66_no_deadlock, C66_finite, C67_tree, C67_training, C67_prediction, C67_programs, C67_agree, C67_failure, C68_reproduced, C68_exact_scores, C68_score_error, C68_root_error, C68_children_error, C68_sums_refuted, C69_completes, C69_nearly_greedy, C70_same_tree, C71_rounds, C71_stopped, C71_depth, C72_scores, C72_labels, C73_tree, C73_run, C73_prediction, C73_numbers, C73_equal_numbers_refuted, C74_agrees, C74_total, C74_best, C74_infinite, C74_weight, C74_host, C74_agrees_host, C74_zero_division, C75_same_tree, C75_near_tie_refuted, C76_div, C76_div_fixed, C76_rdiv, C76_rsub, C76_cipher, C76_by_zero, C76_zero_numerator_refuted, C76_exact_refuted, C77_dense, C77_sparse, C77_sparse_unpicked, C77_all, C77_refit, C77_bad_index, C77_tree_calls, C77_given, C77_empty, C78_prepare, C78_summary, C78_columns, C78_same_tree, C78_buffer_refuted, C79_same_run, C79_reordered, C80_storable, C80_read_back, C80_training, C80_training_fails, C80_accepted_refuted, C81_predictions, C81_equal_columns_refuted, C82_prepare, C82_tree, C82_run, C82_rescaled, C82_shift_refuted, C83_separates, C83_rounded, C83_unused, C83_ignored, C83_run, C83_run_ignored, C84_decrypt, C84_decrypt_table, C84_encrypt_refuted, C84_no_key.
