{
 "claims": [
  {
   "property": "C01",
   "status": "proved",
   "theorems": [
    "Verif.C01_build_iff",
    "Verif.C01_duplicate_rejected",
    "Verif.C01_contents",
    "Verif.C01_non_pair_rejected",
    "Verif.C01_values",
    "Verif.C01_not_list_rejected"
   ],
   "note": "Constructor, collect, take, first, count modelled as loops over an insertion-ordered dict; the error branch is covered."
  },
  {
   "property": "C02",
   "status": "proved",
   "theorems": [
    "Verif.C02_join",
    "Verif.C02_union",
    "Verif.C02_union_default",
    "Verif.C02_subtract",
    "Verif.C02_closed"
   ],
   "note": "join/union/subtractByKey characterised by lookup, key order and absence of duplicates."
  },
  {
   "property": "C03",
   "status": "proved",
   "theorems": [
    "Verif.C03_filter_partition",
    "Verif.C03_mapValues",
    "Verif.C03_reduce_fold",
    "Verif.C03_reduce_split",
    "Verif.C03_reduce_none_restarts",
    "Verif.C03_reduce_empty"
   ],
   "note": "Includes the None-restart behaviour of reduce as a concrete theorem."
  },
  {
   "property": "C04",
   "status": "partial",
   "theorems": [
    "Verif.C04_roundtrip_partial",
    "Verif.C04_short_header_refuted",
    "Verif.C04_truncated_never_returned",
    "Verif.C04_header_width"
   ],
   "note": "Round trip proved for every message sequence and every segmentation of the bodies when each 16-byte header is delivered by its single recv call. The code does not loop on the header read, so the unrestricted claim is false: C04_short_header_refuted gives a schedule that yields a wrong message."
  },
  {
   "property": "C05",
   "status": "proved",
   "theorems": [
    "Verif.C05_send",
    "Verif.C05_history",
    "Verif.C05_recv_one",
    "Verif.C05_recv_all",
    "Verif.C05_recv_invalid"
   ],
   "note": "Send/receive by index as state transformers over the connection list, incl. any history of sends and the rejection branch."
  },
  {
   "property": "C06",
   "status": "proved",
   "theorems": [
    "Verif.C06_partition",
    "Verif.C06_no_shuffle",
    "Verif.C06_size",
    "Verif.C06_aligned",
    "Verif.C06_aligned_pairs"
   ],
   "note": "Shuffle modelled as CPython's Fisher-Yates with arbitrary draws depending on the length only; the float product n*ratio is an arbitrary rational in C06_partition/C06_aligned, exact in C06_size."
  },
  {
   "property": "C07",
   "status": "proved",
   "theorems": [
    "Verif.C07_labelled",
    "Verif.C07_lengths",
    "Verif.C07_non_numeric_rejected",
    "Verif.C07_unlabelled",
    "Verif.C07_ragged_accepted"
   ],
   "note": "Stated as reading back rendered tables; ragged rows are accepted by the code (C07_ragged_accepted), \\r\\n translation not modelled."
  },
  {
   "property": "C08",
   "status": "proved",
   "theorems": [
    "Verif.C08_window",
    "Verif.C08_int_roundtrip",
    "Verif.C08_int_rejected",
    "Verif.C08_roundtrip",
    "Verif.C08_float_relative_error",
    "Verif.C08_int_exact_at_any_exponent",
    "Verif.C08_accept_or_reject",
    "Verif.C08_float_rejected",
    "Verif.C08_other_type",
    "Verif.C08_float_exact_refuted"
   ],
   "note": "Floats are exact rationals (dyadics); integers round-trip exactly or are rejected, floats round-trip within relative error 2^-50. Exactness for floats is refuted separately (C08_float_exact_refuted)."
  },
  {
   "property": "C09",
   "status": "partial",
   "theorems": [
    "Verif.C09_encode_overQ",
    "Verif.C09_add_exact",
    "Verif.C09_add_overflow_partial",
    "Verif.C09_add_overflow_refuted",
    "Verif.C09_add_other_modulus_refuted",
    "Verif.C09_compare",
    "Verif.C09_sub_exact",
    "Verif.C09_mul"
   ],
   "note": "Exact whenever the aligned operands and the result stay in the window. The exponent alignment can wrap silently, and the class constant Q is used instead of the operand modulus in some branches: C09_add_overflow_refuted, C09_add_other_modulus_refuted."
  },
  {
   "property": "C10",
   "status": "partial",
   "theorems": [
    "Verif.C10_key_constructed",
    "Verif.C10_key_rejected",
    "Verif.C10_raw_roundtrip_partial",
    "Verif.C10_decrypt_encrypt_partial",
    "Verif.C10_obfuscate_partial",
    "Verif.C10_all_draws_refuted",
    "Verif.C10_draws_iff",
    "Verif.C10_bad_draws"
   ],
   "note": "Proved for every key pair with distinct primes and every randomness coprime to n. The claim for all draws is false: the code draws from 1..n-1 without checking (C10_all_draws_refuted). C10_draws_iff characterises the harmless draws exactly (those coprime to n), for every key, and C10_bad_draws counts the others: p+q-2 of the pq-1 draws."
  },
  {
   "property": "C11",
   "status": "partial",
   "theorems": [
    "Verif.C11_homomorphic_partial",
    "Verif.C11_encoded_int",
    "Verif.C11_gap",
    "Verif.C11_draw_refuted",
    "Verif.C11_gap_refuted"
   ],
   "note": "Simulation theorem over arbitrary expression trees of ciphertext operations; hypotheses are usable randomness (coprime to n) and exponent gaps whose factor is encodable. Both are needed: a larger gap makes the addition of any two ciphertexts raise ValueError (C11_gap), also where the sum fits (C11_gap_refuted); a random number that shares a factor with n spoils the sum (C11_draw_refuted)."
  },
  {
   "property": "C12",
   "status": "partial",
   "theorems": [
    "Verif.C12_add_other_key",
    "Verif.C12_sub_other_key",
    "Verif.C12_decrypt_other_key",
    "Verif.C12_two_sum_partial",
    "Verif.C12_mixed_exponents_refuted",
    "Verif.C12_three_sum_refuted"
   ],
   "note": "Key mixing rejected for all operands; a two-term sum with equal exponents is decrypted correctly or reported as overflow. Mixed exponents and three-term sums can wrap silently (refuted with witnesses)."
  },
  {
   "property": "C13",
   "status": "proved",
   "theorems": [
    "Verif.C13_roundtrip",
    "Verif.C13_missing_key",
    "Verif.C13_public_only",
    "Verif.C13_new"
   ],
   "note": "Textbook RSA round trip for all distinct primes, incl. missing-key branches."
  },
  {
   "property": "C14",
   "status": "proved",
   "theorems": [
    "Verif.C14_key",
    "Verif.C14_combination",
    "Verif.C14_roundtrip",
    "Verif.C14_sum",
    "Verif.C14_outside_window",
    "Verif.C14_encoder",
    "Verif.C14_add_refused"
   ],
   "note": "Arbitrary affine expressions of ciphertexts; window needed for decoding is explicit and shown necessary (C14_outside_window)."
  },
  {
   "property": "C15",
   "status": "partial",
   "theorems": [
    "Verif.C15_strict",
    "Verif.C15_incremental_partial",
    "Verif.C15_exact_partial",
    "Verif.C15_new_record_refuted"
   ],
   "note": "All modes, rates, draws and history lengths over an abstract cipher with stated accuracy; strict mode without restriction, other modes for histories whose records were in the previous table. In fast mode new records are dropped: C15_new_record_refuted."
  },
  {
   "property": "C16",
   "status": "partial",
   "theorems": [
    "Verif.C16_sorted",
    "Verif.C16_samples_inserted",
    "Verif.C16_count",
    "Verif.C16_weight_bound",
    "Verif.C16_weight_partial",
    "Verif.C16_weight_refuted"
   ],
   "note": "Ordering, sample origin and counts hold for every program of insert/compress/merge/query; total weight equals the number of insertions for programs that never flush below a stored sample. Otherwise the flush loop drops the tail of the old samples: C16_weight_refuted (upper bound C16_weight_bound holds always)."
  },
  {
   "property": "C17",
   "status": "partial",
   "theorems": [
    "Verif.C17_rank_error_partial",
    "Verif.C17_promise_partial",
    "Verif.C17_column_partial",
    "Verif.C17_rejected",
    "Verif.C17_empty",
    "Verif.C17_lost_samples_refuted"
   ],
   "note": "Two-sided rank guarantee for all programs that do not lose samples (see C16), with an explicit extra term per merge; false when samples are lost (C17_lost_samples_refuted). Out-of-range and empty cases proved for all programs."
  },
  {
   "property": "C18",
   "status": "partial",
   "theorems": [
    "Verif.C18_query_monotone",
    "Verif.C18_split_points_increasing",
    "Verif.C18_sparse_split_points_partial",
    "Verif.C18_sparse_refuted"
   ],
   "note": "Monotonicity and strictly increasing split points for every dense column and every program; sparse columns only if the stored entries have one sign. With mixed signs the claim is false under the default configuration: C18_sparse_refuted."
  },
  {
   "property": "C19",
   "status": "partial",
   "theorems": [
    "Verif.C19_zero_iff",
    "Verif.C19_percentile",
    "Verif.C19_no_zero_refuted",
    "Verif.C19_unflushed_refuted"
   ],
   "note": "Zero region and percentile conversion proved for compressed summaries; the zero region is closed, so 0 is returned even when no entry is zero (C19_no_zero_refuted), and uncompressed summaries divide by zero (C19_unflushed_refuted)."
  },
  {
   "property": "C20",
   "status": "partial",
   "theorems": [
    "Verif.C20_bin_is_interval",
    "Verif.C20_bin_monotone",
    "Verif.C20_bin_test_iff_threshold_test",
    "Verif.C20_dense_column",
    "Verif.C20_sparse_column_partial",
    "Verif.C20_unsorted_refuted"
   ],
   "note": "For every strictly increasing list of split points the bin number is the interval number and the bin test equals the threshold test; dense columns always have such lists. Sparse columns only when the stored entries have one sign: C20_unsorted_refuted."
  },
  {
   "property": "C21",
   "status": "proved",
   "theorems": [
    "Verif.C21_row",
    "Verif.C21_agrees_with_dense",
    "Verif.C21_table",
    "Verif.C21_wide_row",
    "Verif.C21_no_such_column"
   ],
   "note": "Whole preparation pipeline (alignment, fitting, conversion) on tables of rows; values beyond the header raise IndexError."
  },
  {
   "property": "C22",
   "status": "proved",
   "theorems": [
    "Verif.C22_histogram",
    "Verif.C22_last_bin",
    "Verif.C22_thresholds",
    "Verif.C22_aggregate",
    "Verif.C22_no_mask_refuted",
    "Verif.C22_no_nodes"
   ],
   "note": "Whole computation (join, per-record loop, correction for entries not stored, accumulation), for any number of samples, nodes, features and any mask; linked to raw values and thresholds through the preparation pipeline (C22_thresholds). Without a mask (valid_features=None) the claim is false: C22_no_mask_refuted."
  },
  {
   "property": "C23",
   "status": "proved",
   "theorems": [
    "Verif.C23_follows_plain",
    "Verif.C23_true_sums"
   ],
   "note": "Same code run on Paillier ciphertexts, by a simulation between the two arithmetics; hypotheses: usable randomness and exponents of the gradients within an encodable distance; each entry decrypts to the true sum when it lies in the plaintext range."
  },
  {
   "property": "C24",
   "status": "proved",
   "theorems": [
    "Verif.C24_best_split",
    "Verif.C24_on_samples",
    "Verif.C24_too_small",
    "Verif.C24_zero_division"
   ],
   "note": "Search over any histogram and, with C22, over the samples at the nodes of any batch; ties, disabled features, size limits and the ZeroDivisionError branch covered. Float results are not rounded here (hypothesis Exact; see C68)."
  },
  {
   "property": "C25",
   "status": "proved",
   "theorems": [
    "Verif.C25_choice",
    "Verif.C25_within",
    "Verif.C25_no_hosts",
    "Verif.C25_samples"
   ],
   "note": "For any number of hosts, nodes and splits: first over any encryption with stated accuracy, then (C25_samples) for the Paillier implementation from the samples of a run. Rational arithmetic instead of floats. The comparison is in favour of the guest by 1e-6 and hosts' gains carry the encryption error, both explicit in the statement. Without hosts the code raises IndexError (C25_no_hosts). Float results are not rounded here (hypothesis Exact; see C68)."
  },
  {
   "property": "C26",
   "status": "proved",
   "theorems": [
    "Verif.C26_well_formed",
    "Verif.C26_decided"
   ],
   "note": "Every successful training run with max_depth >= 1, any data, cipher and batch size: ids are positions, every non-root node has one parent, inner nodes have two children and a deciding party that holds a threshold."
  },
  {
   "property": "C27",
   "status": "proved",
   "theorems": [
    "Verif.C27_depth",
    "Verif.C27_size",
    "Verif.C27_depth_zero"
   ],
   "note": "Depth and node count bounds for every successful run; max_depth 0 yields an empty tree (C27_depth_zero)."
  },
  {
   "property": "C28",
   "status": "proved",
   "theorems": [
    "Verif.C28_every_sample_once",
    "Verif.C28_increasing",
    "Verif.C28_run"
   ],
   "note": "C28_every_sample_once for every successful run; C28_run for every Paillier run with usual settings (min_leaf_node >= 1, gradients encrypted with bounded errors), with no condition on the split points; C28_increasing for any cipher when split points increase. Rational arithmetic instead of floats. For all roundings of floats, except the theorems about runs that are shown to end."
  },
  {
   "property": "C29",
   "status": "proved",
   "theorems": [
    "Verif.C29_prediction_is_walk",
    "Verif.C29_trained_usable",
    "Verif.C29_training_data",
    "Verif.C29_missing_sample_dropped"
   ],
   "note": "Model/Predict.lean models alignment of the rows, the guest walk, the host walks and the merge of the two, round by round. C29_prediction_is_walk: for every usable tree and every set of rows held by all parties, prediction succeeds and gives each sample the weight of the leaf at the end of its walk (each test made at the party that owns the node). C29_trained_usable: every tree produced by training is usable. C29_training_data: predicting the training rows returns the weights assigned in training. C29_missing_sample_dropped: a sample absent at a host is silently dropped from the result. For all roundings of floats, except the theorems about runs that are shown to end."
  },
  {
   "property": "C30",
   "status": "partial",
   "theorems": [
    "Verif.C30_messages",
    "Verif.C30_ciphertexts",
    "Verif.C30_host_thresholds",
    "Verif.C30_guest_thresholds",
    "Verif.C30_host_view",
    "Verif.C30_guest_view",
    "Verif.C30_prediction",
    "Verif.C30_sums_refuted",
    "Verif.C30_sample_refuted"
   ],
   "note": "Thresholds and bins: proved for every run and every order of steps, also failing runs. C30_messages: no message contains the bin of a split or the leaf weight of a sample; gradients of samples and gains travel only as the encrypter returns them (C30_ciphertexts: as Paillier ciphertexts). C30_host_view, C30_guest_view: with other split points of the same number, all messages and the other parties' states in training are the same, whatever programs the others run. C30_prediction: prediction depends on thresholds only through comparisons with the own rows. The second half of the claim is false of the code: the finished tree is sent with plaintext sums to all hosts (C30_sums_refuted), for a node with one sample this is the gradient of that sample up to the encoding error (C30_sample_refuted). Not claimed: secrecy of bin contents, which the order of the candidates and the partition of samples do show."
  },
  {
   "property": "C31",
   "status": "proved",
   "theorems": [
    "Verif.C31_tree",
    "Verif.C31_training",
    "Verif.C31_thresholds",
    "Verif.C31_prediction",
    "Verif.C31_run"
   ],
   "note": "Guest and hosts are separate programs over first-in-first-out connections (Model/Network, Model/Protocol), in lockstep with the composed functions of the other properties. C31_tree, C31_training, C31_prediction: whenever the composed function returns, every order of steps ends, nobody raises, nobody waits forever, with or without buffering, and each party has its part of the composed result. C31_run: under the checkable conditions of C53 this holds for training followed by prediction without further hypotheses. A message of an unexpected kind is an exception in the model. For all roundings of floats, except the theorems about runs that are shown to end."
  },
  {
   "property": "C32",
   "status": "proved",
   "theorems": [
    "Verif.C32_prediction",
    "Verif.C32_training",
    "Verif.C32_training_data"
   ],
   "note": "Model/Boost.lean models the boosting loop over trees, score updates and prediction. C32_prediction: predicted scores are the initial score plus rate times the sum of the tree weights of each component, for every list of usable trees. C32_training: the scores kept during training are the same sums over the weights assigned in training. C32_training_data: predicting the training rows with the trained trees returns the training scores. Gradient and loss functions are parameters; rationals instead of floats."
  },
  {
   "property": "C33",
   "status": "proved",
   "theorems": [
    "Verif.C33_encoding",
    "Verif.C33_codes",
    "Verif.C33_too_many",
    "Verif.C33_mixed",
    "Verif.C33_binary",
    "Verif.C33_multi",
    "Verif.C33_known"
   ],
   "note": "Labels are int, float or any other totally ordered type. C33_encoding/C33_codes: all comparable columns with at most 1000 different values; more are refused with ValueError (C33_too_many), mixed types with TypeError (C33_mixed). C33_binary / C33_multi / C33_known for prediction, any score transforms. The test for labels already in 0..k-1 compares with True instead of the number of classes, so labels are always re-mapped except for a single class 0; the result is the same."
  },
  {
   "property": "C34",
   "status": "proved",
   "theorems": [
    "Verif.C34_stop",
    "Verif.C34_hosts",
    "Verif.C34_losses"
   ],
   "note": "C34_stop and C34_hosts for every run that ends without exception; C34_losses says which scores each loss belongs to. The stopping test is the difference test the trainer configures (DiffConverge)."
  },
  {
   "property": "C35",
   "status": "proved",
   "theorems": [
    "Verif.C35_tree_count",
    "Verif.C35_tree_gain",
    "Verif.C35_gains",
    "Verif.C35_run",
    "Verif.C35_run_count"
   ],
   "note": "C35_tree_count / C35_run_count: exact counts for every successful tree and boosting run with split importance. C35_tree_gain / C35_gains: with gain importance each inner node contributes one gain, above the minimum; in Paillier runs it is the gain of the split computed from the node's sums (exact for guest splits, within the encryption error for host splits). C35_run: a run adds up the importances of its trees. For all roundings of floats, except the theorems about runs that are shown to end."
  },
  {
   "property": "C36",
   "status": "proved",
   "theorems": [
    "Verif.C36_reload",
    "Verif.C36_trained"
   ],
   "note": "Model/Save.lean models export and import of a tree through the protobuf messages (unset fields read as defaults, 32-bit range checks). C36_reload: for every usable tree that was saved, prediction after loading has the same outcome (table or exception) on all rows of all parties. C36_trained: every trained tree of depth at most 31 can be saved, so the claim holds for it. The boosting object itself keeps its list of trees in memory; the repository has no export of the whole ensemble (its load_model is a stub)."
  },
  {
   "property": "C37",
   "status": "proved",
   "theorems": [
    "Verif.C37_binary",
    "Verif.C37_softmax",
    "Verif.C37_shift",
    "Verif.C37_empty",
    "Verif.C37_label"
   ],
   "note": "Exact real arithmetic; the code's floats may round to 0 or 1."
  },
  {
   "property": "C38",
   "status": "partial",
   "theorems": [
    "Verif.C38_logistic",
    "Verif.C38_lse",
    "Verif.C38_huber",
    "Verif.C38_fair",
    "Verif.C38_log_cosh",
    "Verif.C38_softmax",
    "Verif.C38_lae_partial",
    "Verif.C38_lae_refuted",
    "Verif.C38_tweedie_refuted",
    "Verif.C38_reported"
   ],
   "note": "Logistic, softmax, least squares, pseudo-Huber, fair (parameter > 0) and log-cosh: all labels and scores. False for the other two: least absolute error has the wrong sign within 1e-6 above the label and a constant hessian 1 (C38_lae_refuted, C38_lae_partial); Tweedie's gradient and hessian are not derivatives of its loss (C38_tweedie_refuted). C38_reported: the reported loss is the mean over the samples. Exact real arithmetic."
  },
  {
   "property": "C39",
   "status": "partial",
   "theorems": [
    "Verif.C39_definitions",
    "Verif.C39_extremes_partial",
    "Verif.C39_merge",
    "Verif.C39_parts",
    "Verif.C39_columns",
    "Verif.C39_table_parts",
    "Verif.C39_extremes_refuted",
    "Verif.C39_variance_refuted"
   ],
   "note": "Merging of partial summaries is exact and independent of the partition and column order; counts, sums, means and variances match their definitions. False: maximum and minimum of columns whose values all lie outside +-2^63 (C39_extremes_refuted), variances below 1e-6 are reported as 0 (C39_variance_refuted)."
  },
  {
   "property": "C40",
   "status": "proved",
   "theorems": [
    "Verif.C40_settings",
    "Verif.C40_errors",
    "Verif.C40_absent",
    "Verif.C40_not_dict",
    "Verif.C40_bad_section",
    "Verif.C40_idempotent"
   ],
   "note": "Parameter objects and configurations of any shape and depth; C40_errors says exactly when an error is raised when the sections are dictionaries, C40_not_dict and C40_bad_section cover the others. A string given in place of a section may be silently ignored, as the code tests membership with `in`."
  },
  {
   "property": "C41",
   "status": "partial",
   "theorems": [
    "Verif.C41_tree",
    "Verif.C41_objective",
    "Verif.C41_encrypt",
    "Verif.C41_boosting_partial",
    "Verif.C41_default",
    "Verif.C41_unchecked_refuted",
    "Verif.C41_transform_refuted",
    "Verif.C41_binning_partial",
    "Verif.C41_binning_refuted",
    "Verif.C41_method",
    "Verif.C41_uncalled",
    "Verif.C41_evaluate",
    "Verif.C41_empty"
   ],
   "note": "Exact for tree, objective and encryption settings. Missing: run mode, prediction and cross-validation settings are not checked at all (C41_unchecked_refuted), NaN passes the range tests, the transform check rejects everything (C41_transform_refuted), binning accepts error 1.0 and rejects integer 0 (C41_binning_refuted)."
  },
  {
   "property": "C42",
   "status": "proved",
   "theorems": [
    "Verif.C42_count",
    "Verif.C42_all",
    "Verif.C42_any",
    "Verif.C42_no_features"
   ],
   "note": "For every sequence of outcomes of the random choice."
  },
  {
   "property": "C43",
   "status": "partial",
   "theorems": [
    "Verif.C43_overwritten_refuted",
    "Verif.C43_separate_partial",
    "Verif.C43_prediction_partial",
    "Verif.C43_prediction_refuted",
    "Verif.C43_empty",
    "Verif.C43_shared_refuted",
    "Verif.C43_trees_read"
   ],
   "note": "Heap model of the row objects. Training overwrites the features of the caller's row objects with bin numbers (C43_overwritten_refuted, all tables and settings), so prediction on the training table gives other weights (C43_prediction_refuted, concrete run); two samples sharing a row object are binned twice (C43_shared_refuted). Proved: rows not shared with the training table are unaffected (C43_separate_partial) and prediction keeps the values (C43_prediction_partial). Trees read from the overwritten objects exactly what binning computes (C43_trees_read)."
  },
  {
   "property": "C44",
   "status": "proved",
   "theorems": [
    "Verif.C44_powmod",
    "Verif.C44_powmod_canonical",
    "Verif.C44_powmod_one_refuted",
    "Verif.C44_invert",
    "Verif.C44_invert_error_iff"
   ],
   "note": "powmod/invert agree with modular arithmetic for all inputs; the shortcut powmod(1,...) returns 1 even for modulus 1 (C44_powmod_one_refuted, congruent but not canonical)."
  },
  {
   "property": "C45",
   "status": "proved",
   "theorems": [
    "Verif.C45_weight_optimal",
    "Verif.C45_node_score",
    "Verif.C45_gain",
    "Verif.C45_gain_nonneg",
    "Verif.C45_gain_regularised_negative",
    "Verif.C45_zero_division"
   ],
   "note": "Optimality over all real weights of the regularised second-order objective; gain is the decrease of that objective; ZeroDivisionError branch covered. With lambda > 0 the gain can be negative (C45_gain_regularised_negative). Float results are not rounded here (hypothesis Exact; see C68)."
  },
  {
   "property": "C46",
   "status": "partial",
   "theorems": [
    "Verif.C46_classification_partial",
    "Verif.C46_mean_refuted",
    "Verif.C46_median_refuted"
   ],
   "note": "Classification starts at zero. With a regression objective the start fails for every input: TypeError for the mean (C46_mean_refuted), AttributeError for the median (C46_median_refuted)."
  },
  {
   "property": "C47",
   "status": "proved",
   "theorems": [
    "Verif.C47_add",
    "Verif.C47_none",
    "Verif.C47_sum",
    "Verif.C47_order",
    "Verif.C47_numbers",
    "Verif.C47_mixed",
    "Verif.C47_dot",
    "Verif.C47_dot_short",
    "Verif.C47_matrix"
   ],
   "note": "Lengths and None covered; a longer second vector is silently cut off (C47_add), a shorter one raises."
  },
  {
   "property": "C48",
   "status": "proved",
   "theorems": [
    "Verif.C48_right_child",
    "Verif.C48_children",
    "Verif.C48_root",
    "Verif.C48_leaves",
    "Verif.C48_samples",
    "Verif.C48_samples_encoded"
   ],
   "note": "Children add up to the parent, root and leaves hold the totals, for every successful run; each node holds the sums of the samples routed to it by raw values, for every Paillier run with usual settings: exactly if the gradients are exactly encodable (C48_samples), and up to max_depth times the sum of the encoding errors otherwise (C48_samples_encoded). Float results are not rounded here (hypothesis Exact; see C68)."
  },
  {
   "property": "C49",
   "status": "partial",
   "theorems": [
    "Verif.C49_single_partial",
    "Verif.C49_validation_refuted",
    "Verif.C49_no_train_prediction",
    "Verif.C49_last_wins",
    "Verif.C49_not_run"
   ],
   "note": "Runs with one table return all its predictions. With both, the union is computed and dropped: for every component and every pair of tables the validation samples are missing (C49_validation_refuted)."
  },
  {
   "property": "C50",
   "status": "proved",
   "theorems": [
    "Verif.C50_training_completes"
   ],
   "note": "For prepared data of all parties, usual settings (max_depth >= 1, at least one host, min_leaf_node >= 1, H + lambda bounded below) and a key whose plaintext range holds the sums of the gradients. The encrypted gradients and hessians may be off by bounded errors; C58 shows that strict encryption of floats meets this. With min_leaf_node 0 a host may send a plain 0 that cannot be decrypted. Float results are not rounded here (hypothesis Exact; see C68)."
  },
  {
   "property": "C51",
   "status": "proved",
   "theorems": [
    "Verif.C51_greedy",
    "Verif.C51_greedy_encoded"
   ],
   "note": "Every node of every such run. Tolerances (2e-6 plus the encryption error of gains for leaves, 1e-6 plus twice that error for inner nodes) are explicit; the gain of the chosen split is the best of its own party exactly. C51_greedy for exactly encodable gradients, C51_greedy_encoded for gradients that are encrypted with errors, with the resulting shift of the gains in the tolerance. Float results are not rounded here (hypothesis Exact; see C68)."
  },
  {
   "property": "C52",
   "status": "proved",
   "theorems": [
    "Verif.C52_group"
   ],
   "note": "C52_group for all tables, mappers and combiners."
  },
  {
   "property": "C53",
   "status": "proved",
   "theorems": [
    "Verif.C53_run"
   ],
   "note": "For every prepared data set, key and settings in the stated window (PaillierBoost), all rounds complete, and prediction on the training rows returns the training scores. The encrypted gradients may be off by bounded errors (see C58). Float results are not rounded here (hypothesis Exact; see C68)."
  },
  {
   "property": "C54",
   "status": "proved",
   "theorems": [
    "Verif.C54_lossless",
    "Verif.C54_near_tie_differs"
   ],
   "note": "C54_lossless compares the model of ml/tree with the model of the centralised program in xgboost/. Both runs always succeed; the trees are the same if the choice is clear at every node (DecisiveTree: no gain within 5e-6 above the minimum, best gains of two parties equal or more than 5e-6 apart). C54_near_tie_differs shows that the exception is needed: the guest is preferred within 1e-6. Float results are not rounded here (hypothesis Exact; see C68)."
  },
  {
   "property": "C55",
   "status": "proved",
   "theorems": [
    "Verif.C55_lossless_run"
   ],
   "note": "C55_lossless_run composes C54 over all rounds and components. DecisiveRun asks for a clear choice at every node of every tree, as in C54. Feature importances are not compared: gains computed on ciphertexts carry an error of up to 1e-6. Float results are not rounded here (hypothesis Exact; see C68)."
  },
  {
   "property": "C56",
   "status": "proved",
   "theorems": [
    "Verif.C56_program",
    "Verif.C56_no_train",
    "Verif.C56_no_test"
   ],
   "note": "C56_program goes from the text of the files to the printed number. A proportion that leaves no training lines fails at once (C56_no_train), one that leaves no test lines makes the guest fail after the whole training (C56_no_test). The encrypted gradients may be off by bounded errors (see C58_program). Float results are not rounded here (hypothesis Exact; see C68)."
  },
  {
   "property": "C57",
   "status": "partial",
   "theorems": [
    "Verif.C57_same_id_partial",
    "Verif.C57_ids_ignored",
    "Verif.C57_order_matters"
   ],
   "note": "Refuted: the identifier columns are never looked at (C57_ids_ignored: the outcome is the same whatever they contain), and a different order of lines silently joins different samples and changes the accuracy (C57_order_matters). C57_same_id_partial: the claim holds if the files list the same identifiers in the same order."
  },
  {
   "property": "C58",
   "status": "proved",
   "theorems": [
    "Verif.C58_encrypt",
    "Verif.C58_run",
    "Verif.C58_trees",
    "Verif.C58_program"
   ],
   "note": "C58_encrypt: every table of numbers can be encrypted in strict mode and decrypts up to a 2^-50th part. C58_run, C58_trees, C58_program: whole runs under bounds on sizes only (key of more than 1000 bits, at most 2^100 samples, (samples * largest gradient)^2 <= 5e8 * (lambda plus smallest hessian)). Floats are rational numbers; infinities and NaN are not modelled. Float results are not rounded here (hypothesis Exact; see C68)."
  },
  {
   "property": "C59",
   "status": "partial",
   "theorems": [
    "Verif.C59_key_partial",
    "Verif.C59_default",
    "Verif.C59_length_refuted",
    "Verif.C59_never_refuted",
    "Verif.C59_odd_refuted",
    "Verif.C59_affine_partial",
    "Verif.C59_affine_refuted"
   ],
   "note": "A returned pair is valid and of exactly the requested length for all lengths >= 2 and all draws (C59_key_partial), and the default length 1024 can be returned (C59_default). The full claim fails: lengths 0 and 1 raise though the parameter check accepts 1, lengths 2, 3, 5, 9 never return, odd lengths return only when a draw lies above all primes of that size. Affine keys are valid for moduli >= 2; 0 and 1 raise. Not proved: that generation for every even length >= 4 can return (needs finer prime gaps than Bertrand's)."
  },
  {
   "property": "C60",
   "status": "partial",
   "theorems": [
    "Verif.C60_lists",
    "Verif.C60_tables",
    "Verif.C60_public_only",
    "Verif.C60_no_key",
    "Verif.C60_guest",
    "Verif.C60_method_refuted",
    "Verif.C60_handed_over",
    "Verif.C60_both_keys"
   ],
   "note": "Round trips of lists and tables, no decryption without the private key, no plain value without a key, and the guest's encrypter are proved for all inputs. The part of the claim that every accepted method can be used is false: the parameter check accepts every string, the guest refuses all but Paillier (C60_method_refuted). recursive_encrypt/recursive_decrypt are not modelled (nobody calls them)."
  },
  {
   "property": "C61",
   "status": "partial",
   "theorems": [
    "Verif.C61_refresh",
    "Verif.C61_like_fresh",
    "Verif.C61_uniform",
    "Verif.C61_exponent_refuted",
    "Verif.C61_one_to_one_partial",
    "Verif.C61_generated",
    "Verif.C61_sums_refuted",
    "Verif.C61_collision_refuted"
   ],
   "note": "Proved for all keys, numbers and computations: all objects that can be an encryption are equally likely for all plaintexts (C61_uniform), a result that is obfuscated again is distributed exactly as a fresh encryption (C61_refresh, C61_like_fresh), random numbers and ciphertexts correspond one to one unless a prime divides the other one minus 1 (C61_one_to_one_partial; for generated keys only if one is twice the other plus 1, C61_generated, and then it fails, C61_collision_refuted). The full claim is false: the exponent shows the size of every float up to a factor 16 (C61_exponent_refuted), and hosts send sums without obfuscating them, so that the guest can tell the bins of single samples (C61_sums_refuted). Not expressible here: that ciphertexts of different plaintexts cannot be told apart by a bounded computation (an assumption on the cryptosystem)."
  },
  {
   "property": "C62",
   "status": "partial",
   "theorems": [
    "Verif.C62_diff",
    "Verif.C62_abs_partial",
    "Verif.C62_abs_refuted",
    "Verif.C62_weights_partial",
    "Verif.C62_lengths",
    "Verif.C62_weights_refuted"
   ],
   "note": "Loss differences: proved in full for all sequences (C62_diff). Weights: proved for fresh arrays (C62_weights_partial); if the caller updates its array in place the check remembers a reference and always answers yes (C62_weights_refuted). Absolute check: proved to compare the loss itself (C62_abs_partial); negative losses of any size count as converged (C62_abs_refuted). Exact reals."
  },
  {
   "property": "C63",
   "status": "partial",
   "theorems": [
    "Verif.C63_sigmoid",
    "Verif.C63_sigmoid_shape",
    "Verif.C63_log",
    "Verif.C63_hard_sigmoid",
    "Verif.C63_signs",
    "Verif.C63_no_overflow_partial",
    "Verif.C63_softplus_refuted"
   ],
   "note": "All shapes proved for all real arguments; sigmoid, softmax and log_logistic use the exponential at non-positive arguments only (C63_no_overflow_partial). softplus does not (C63_softplus_refuted): its float evaluation overflows for arguments above 709. Exact reals; rounding is not modelled."
  },
  {
   "property": "C64",
   "status": "partial",
   "theorems": [
    "Verif.C64_same_result_partial",
    "Verif.C64_shared_bins",
    "Verif.C64_names_refuted"
   ],
   "note": "Proved for one host if no column name occurs in both files and the choice of the split is clear at every node (C64_same_result_partial). With a column name in both files, as in the data the program reads, the claim is false (C64_names_refuted): the comparison program bins by name, so both columns share their split points (C64_shared_bins, for all data). Float results are not rounded here (hypothesis Exact; see C68)."
  },
  {
   "property": "C65",
   "status": "proved",
   "theorems": [
    "Verif.C65_processes",
    "Verif.C65_run"
   ],
   "note": "C65_processes for every ending run of the composed programs; C65_run with conditions on files and settings only. For all roundings of floats, except the theorems about runs that are shown to end."
  },
  {
   "property": "C66",
   "status": "partial",
   "theorems": [
    "Verif.C66_between",
    "Verif.C66_whole",
    "Verif.C66_within_refuted",
    "Verif.C66_no_deadlock",
    "Verif.C66_finite"
   ],
   "note": "Proved for programs that end between messages (exceptions of their own computations): no deadlock in any reachable state (C66_no_deadlock), no infinite execution (C66_finite; the loops of prediction are modelled with a bound on their turns), an ended connection is reported between messages (C66_between) and whole messages are still read (C66_whole). False for a sender that dies within a message (C66_within_refuted): recv_data then loops for ever."
  },
  {
   "property": "C67",
   "status": "proved",
   "theorems": [
    "Verif.C67_tree",
    "Verif.C67_training",
    "Verif.C67_prediction",
    "Verif.C67_programs",
    "Verif.C67_agree",
    "Verif.C67_failure"
   ],
   "note": "Converse of C31 and C65 for the error branches: one tree (C67_tree), training (C67_training), prediction (C67_prediction), the whole programs including ended connections (C67_programs), the equivalence (C67_agree) and what happens after a failure (C67_failure). The loops of prediction are modelled with a bound on their turns, in the composed computation and in the processes alike."
  },
  {
   "property": "C68",
   "status": "proved",
   "theorems": [
    "Verif.C68_reproduced",
    "Verif.C68_exact_scores",
    "Verif.C68_score_error",
    "Verif.C68_root_error",
    "Verif.C68_children_error",
    "Verif.C68_sums_refuted"
   ],
   "note": "All rounding functions, with no assumption for C68_reproduced (features with increasing split points); the error bounds need accuracy in the range used. C68_sums_refuted: exact additivity fails with rounding. Infinities and NaN are not modelled; the errors of histogram sums are not bounded here."
  },
  {
   "property": "C69",
   "status": "proved",
   "theorems": [
    "Verif.C69_completes",
    "Verif.C69_nearly_greedy"
   ],
   "note": "RoundedRun lists what is assumed: rounding moves numbers up to M by at most eps, everything computed stays within M, errors of hessians stay below half the least value of lambda plus hessian. The split points of each feature are distinct, since with rounding an empty bin can look occupied by a tiny amount. Quantiles are computed exactly; infinities and NaN are not modelled."
  },
  {
   "property": "C70",
   "status": "proved",
   "theorems": [
    "Verif.C70_same_tree"
   ],
   "note": "The accuracy (tolerance) is that of C69, about 2e-6 plus the rounding errors. Thresholds may differ within a gap between training values, so only the training samples are compared. A node whose best split can be had with left and right swapped does not count as clear."
  },
  {
   "property": "C71",
   "status": "proved",
   "theorems": [
    "Verif.C71_rounds",
    "Verif.C71_stopped",
    "Verif.C71_depth"
   ],
   "note": "Draws are functions of the round, tree, level and batch, so both runs use the same ones. Leaves of the shallower tree at its depth limit may be split in the deeper one; all other nodes are the same."
  },
  {
   "property": "C72",
   "status": "proved",
   "theorems": [
    "Verif.C72_scores",
    "Verif.C72_labels"
   ],
   "note": "The trees are those of training (their features are then usable). Every party has the rows of the sample; a sample that a host lacks is dropped (C29_missing_sample_dropped)."
  },
  {
   "property": "C73",
   "status": "proved",
   "theorems": [
    "Verif.C73_tree",
    "Verif.C73_run",
    "Verif.C73_prediction",
    "Verif.C73_numbers",
    "Verif.C73_equal_numbers_refuted"
   ],
   "note": "Full equations, exceptions included. For whole runs, encryption and loss are assumed to go by values and not by identifiers (Renamed). C73_equal_numbers_refuted: equal host numbers are accepted and give an exception or other weights."
  },
  {
   "property": "C74",
   "status": "proved",
   "theorems": [
    "Verif.C74_agrees",
    "Verif.C74_total",
    "Verif.C74_best",
    "Verif.C74_infinite",
    "Verif.C74_weight",
    "Verif.C74_host",
    "Verif.C74_agrees_host",
    "Verif.C74_zero_division"
   ],
   "note": "C74_best and C74_infinite in exact arithmetic, the others for every rounding. The rational model of the other theorems stops with ZeroDivisionError in these cases; C74_zero_division shows the difference on an example. Overflow is part of the rounding (R may give infinities)."
  },
  {
   "property": "C75",
   "status": "proved",
   "theorems": [
    "Verif.C75_same_tree",
    "Verif.C75_near_tie_refuted"
   ],
   "note": "For one tree. Clear decisions are a hypothesis on the first tree only (ClearTree); C75_near_tie_refuted shows that it cannot be dropped. The columns of both runs have the same split points (they are computed per column, C21; from reordered rows, C78)."
  },
  {
   "property": "C76",
   "status": "proved",
   "theorems": [
    "Verif.C76_div",
    "Verif.C76_div_fixed",
    "Verif.C76_rdiv",
    "Verif.C76_rsub",
    "Verif.C76_cipher",
    "Verif.C76_by_zero",
    "Verif.C76_zero_numerator_refuted",
    "Verif.C76_exact_refuted"
   ],
   "note": "The rounding of the reciprocal is a parameter; decode is exact in the model as in C09. Sizes are hypotheses (dividend up to 70 bits, numbers between about 1e-200 and 1e200, quotients up to 2^120)."
  },
  {
   "property": "C77",
   "status": "proved",
   "theorems": [
    "Verif.C77_dense",
    "Verif.C77_sparse",
    "Verif.C77_sparse_unpicked",
    "Verif.C77_all",
    "Verif.C77_refit",
    "Verif.C77_bad_index",
    "Verif.C77_refused",
    "Verif.C77_tree_calls",
    "Verif.C77_given",
    "Verif.C77_empty"
   ],
   "note": "Column names are assumed distinct; the in-place update of the rows is left to C43. For sparse rows the stored values are at least 1e-6 in absolute value, as the tree code stores them."
  },
  {
   "property": "C78",
   "status": "proved",
   "theorems": [
    "Verif.C78_prepare",
    "Verif.C78_summary",
    "Verif.C78_columns",
    "Verif.C78_same_tree",
    "Verif.C78_buffer_refuted"
   ],
   "note": "Column names are distinct and rows have one value per column. The trees match in shape, samples per node, sums and weights; which of two equally good columns a node names is left open. C78_buffer_refuted uses a buffer of three values."
  },
  {
   "property": "C79",
   "status": "proved",
   "theorems": [
    "Verif.C79_same_run",
    "Verif.C79_reordered"
   ],
   "note": "Errors of encrypted gradients and hessians are 0 (they are encoded exactly). Which of two columns that divide the samples alike a node names is left open, so predictions for other samples need a condition on these (C81). Where decisions are not clear the claim fails (C75_near_tie_refuted)."
  },
  {
   "property": "C80",
   "status": "proved",
   "theorems": [
    "Verif.C80_storable",
    "Verif.C80_read_back",
    "Verif.C80_training",
    "Verif.C80_training_fails",
    "Verif.C80_accepted_refuted",
    "Verif.C80_any",
    "Verif.C80_host"
   ],
   "note": "The stronger claim that every accepted setting can be stored is refuted (C80_accepted_refuted). The run with stored settings is that of the guest; the other theorems on training leave the settings out, which C80_training justifies."
  },
  {
   "property": "C81",
   "status": "proved",
   "theorems": [
    "Verif.C81_predictions",
    "Verif.C81_equal_columns_refuted"
   ],
   "note": "Errors of encrypted gradients and hessians are 0 (they are encoded exactly). Without the condition on the new samples the claim fails (C81_equal_columns_refuted): two columns that divide the training samples alike may be exchanged."
  },
  {
   "property": "C82",
   "status": "proved",
   "theorems": [
    "Verif.C82_prepare",
    "Verif.C82_tree",
    "Verif.C82_run",
    "Verif.C82_rescaled",
    "Verif.C82_shift_refuted"
   ],
   "note": "Values are rationals; a float computation of the rescaled values is covered when its results keep the order. Abnormal values (abnormal_list) must be empty, as in the code's defaults."
  },
  {
   "property": "C83",
   "status": "proved",
   "theorems": [
    "Verif.C83_separates",
    "Verif.C83_rounded",
    "Verif.C83_unused",
    "Verif.C83_ignored",
    "Verif.C83_run",
    "Verif.C83_run_ignored"
   ],
   "note": "min_leaf_node is at least 1, as the splitter's default. With rounding (C83_rounded) the split points of every column must be increasing, as in C69."
  },
  {
   "property": "C84",
   "status": "proved",
   "theorems": [
    "Verif.C84_decrypt",
    "Verif.C84_decrypt_table",
    "Verif.C84_encrypt_refuted",
    "Verif.C84_no_key"
   ],
   "note": "No caller of these two functions is left in the code. Arrays are taken after np.array has made them from lists; the shape of arrays without elements is not modelled. Rounding of integers to floats is a parameter."
  }
 ]
}
