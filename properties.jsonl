{"id": "C01", "title": "A table built from records holds exactly those records", "statement": "Building a distributed table from a list of (key, value) pairs succeeds exactly when no key is repeated, and then collecting, counting, taking and reading the first record give back the supplied pairs in the supplied order. Building it from bare values always succeeds and numbers them 0..n-1 in order. A repeated key is reported as an error, never silently overwritten.", "quantifier": "every list of records of any length, every key and value type with decidable key equality", "why_tests_cant": "tests try a handful of short lists; duplicate keys can sit at any two positions of a list of any length", "anchors": ["computing/d_table.py:DTable.__init__", "computing/d_table.py:DTable.collect", "computing/d_table.py:DTable.take", "computing/d_table.py:DTable.first", "computing/d_table.py:DTable.count"]}
{"id": "C02", "title": "Join, union and subtraction are the finite-map operations", "statement": "Looking a key up in a.join(b, f) gives f(a[k], b[k]) when both tables have k and nothing otherwise; in a.union(b, f) it gives f(a[k], b[k]) when both have it, else the one value present; in a.subtractByKey(b) it gives a[k] exactly when b lacks k. The result never holds a key twice, and join output follows the record order of the second table, union output the order of the first followed by new keys of the second.", "quantifier": "all pairs of tables, all combining functions, all keys", "why_tests_cant": "the behaviour depends on every overlap pattern between two key sets, which cannot be enumerated", "anchors": ["computing/d_table.py:DTable.join", "computing/d_table.py:DTable.union", "computing/d_table.py:DTable.subtractByKey"]}
{"id": "C03", "title": "Filtering partitions a table and mapping keeps its keys", "statement": "filter(f) together with subtractByKey of that result splits a table into two disjoint tables that together hold every record once; mapValues keeps keys, order and count; reduce with an associative function gives the same answer as folding the values of any split of the table into two consecutive parts and combining, as long as no value or partial result is None; reduce of an empty table is None.", "quantifier": "all tables, all predicates, all functions, all split points", "why_tests_cant": "the None-as-missing convention inside reduce fails only on particular intermediate values, so sampled inputs do not settle it", "anchors": ["computing/d_table.py:DTable.filter", "computing/d_table.py:DTable.mapValues", "computing/d_table.py:DTable.reduce", "computing/d_table.py:DTable.subtractByKey"]}
{"id": "C04", "title": "Messages survive every segmentation of the byte stream", "statement": "If one party sends any sequence of messages over a connection, the other party receives exactly the same messages in the same order, no matter how the network cuts the byte stream into pieces.", "quantifier": "all message sequences, all payload sizes, all ways the transport may deliver partial reads", "why_tests_cant": "a loopback test delivers small messages whole; the number of segmentations of a stream is exponential in its length", "anchors": ["federation/transfer_inst.py:send_data", "federation/transfer_inst.py:recv_data"]}
{"id": "C05", "title": "Messages go to the host that was addressed", "statement": "Sending with host index i delivers to host i and to no other; index -1 delivers one copy to every host; receiving with index -1 returns one message per host in host order, and receiving with index i returns the message of host i; any other index is rejected without sending or consuming anything. Messages on different connections never mix.", "quantifier": "any number of hosts, any index (including negative and too large), any queue contents, any history of sends and receives", "why_tests_cant": "tests run with one or two hosts; the claim is about any number and about what happens to all the other connections", "anchors": ["federation/transfer_inst.py:TransferInstGuest.send_data_to_hosts", "federation/transfer_inst.py:TransferInstGuest.recv_data_from_hosts", "federation/transfer_inst.py:TransferInstHost"]}
{"id": "C06", "title": "Train/test split is a partition and keeps the parties aligned", "statement": "Splitting a data list by a ratio returns two lists that together contain every row exactly once, the first having floor(n*ratio) rows; and when the parties split lists of equal length with the same ratio, row j of the guest's part and row j of the host's part come from the same original position.", "quantifier": "all list lengths, all ratios in [0,1], whatever permutation the seeded generator produces for that length", "why_tests_cant": "tests check sizes on one data set; losing or duplicating a row depends on length and ratio rounding", "anchors": ["guest.py:data_split", "host.py:data_split"]}
{"id": "C07", "title": "CSV rows keep id, label and features together", "statement": "Reading a CSV returns, for every data line in order, the id from the first column, the label from the second (guest) and the remaining columns as features in header order; the three outputs have the same length as the number of data lines, and a line with a non-numeric feature is rejected rather than shifted.", "quantifier": "all files (any number of lines and columns, any cell text)", "why_tests_cant": "column removal by position is only observably wrong on certain widths and row shapes", "anchors": ["i_o/utils.py:read_from_csv_with_lable", "i_o/utils.py:read_from_csv_with_no_lable"]}
{"id": "C08", "title": "Fixed-point encoding round-trips", "statement": "Encoding an integer and decoding it returns the same integer; encoding a floating-point number and decoding it returns a number within half a unit of the chosen fixed-point grid (so relative error below 2^-49); numbers too large for the modulus are rejected with an error and never wrap to a different value.", "quantifier": "every integer and every finite float, every modulus and every larger requested exponent", "why_tests_cant": "the error appears only for particular mantissa/exponent residues and at the overflow boundary; there are 2^64 floats", "anchors": ["ml/secureprotol/fixedpoint.py:FixedPointNumber.encode", "ml/secureprotol/fixedpoint.py:FixedPointNumber.decode"]}
{"id": "C09", "title": "Fixed-point arithmetic agrees with exact arithmetic", "statement": "Adding, subtracting or comparing two encoded numbers and decoding gives the exact sum, difference or order of the decoded operands whenever the result fits; sums of two in-range operands that do not fit are reported as overflow.", "quantifier": "all pairs of encoded numbers, all exponents, all moduli", "why_tests_cant": "operands with different exponents and signs near the overflow boundary form an unbounded space", "anchors": ["ml/secureprotol/fixedpoint.py:FixedPointNumber.__add__", "ml/secureprotol/fixedpoint.py:FixedPointNumber.__sub__", "ml/secureprotol/fixedpoint.py:FixedPointNumber.__lt__", "ml/secureprotol/fixedpoint.py:FixedPointNumber.increase_exponent_to"]}
{"id": "C10", "title": "Paillier decryption inverts encryption", "statement": "For every key pair the library builds, every plaintext and every random value drawn during encryption, decrypting an encryption returns the plaintext (the encoded number); obfuscating any number of times never changes what is decrypted.", "quantifier": "all distinct prime pairs, all plaintexts below n, all random values the encryptor may draw, any number of re-randomisations", "why_tests_cant": "the correctness is number-theoretic and the failing random values are a vanishing fraction no test hits", "anchors": ["ml/secureprotol/fate_paillier.py:PaillierPublicKey.raw_encrypt", "ml/secureprotol/fate_paillier.py:PaillierPublicKey.apply_obfuscator", "ml/secureprotol/fate_paillier.py:PaillierPrivateKey.raw_decrypt", "ml/secureprotol/fate_paillier.py:PaillierPrivateKey.decrypt"]}
{"id": "C11", "title": "Arithmetic on ciphertexts is arithmetic on plaintexts", "statement": "Any combination of additions, subtractions and scalar multiplications performed on encrypted numbers decrypts to the same combination of the encoded plaintexts, whenever the final value fits the plaintext range.", "quantifier": "all expression trees of any size over ciphertexts and scalars, all keys, all randomness, all exponents", "why_tests_cant": "circuits have unbounded depth; modular wrap-around and exponent alignment errors show only for particular magnitudes", "anchors": ["ml/secureprotol/fate_paillier.py:PaillierEncryptedNumber"]}
{"id": "C12", "title": "Ciphertexts of different keys are never mixed", "statement": "Adding two encrypted numbers made with different public keys, or decrypting an encrypted number with another key's private key, is always reported as an error; and decrypting the sum of two encrypted in-range numbers either gives the exact sum or reports overflow, never a wrong number.", "quantifier": "all pairs of keys, all ciphertexts, all in-range plaintext pairs", "why_tests_cant": "silent wrap-around occurs only at the edge of a 2^1024-sized plaintext space", "anchors": ["ml/secureprotol/fate_paillier.py:PaillierEncryptedNumber.__add_encryptednumber", "ml/secureprotol/fate_paillier.py:PaillierPrivateKey.decrypt"]}
{"id": "C13", "title": "RSA decryption inverts encryption", "statement": "With matching exponents the RSA wrapper decrypts every encrypted residue back to itself; without the relevant key it returns None instead of a value.", "quantifier": "all RSA moduli that are products of two distinct primes, all matching exponent pairs, all residues", "why_tests_cant": "includes residues sharing a factor with the modulus, which random tests never hit", "anchors": ["ml/secureprotol/encrypt.py:RsaEncrypt.encrypt", "ml/secureprotol/encrypt.py:RsaEncrypt.decrypt", "ml/secureprotol/gmpy_math.py:powmod"]}
{"id": "C14", "title": "Affine cipher round-trips and is additive", "statement": "The affine cipher decrypts every encrypted integer in the representable window back to itself, and any sum, difference or integer multiple of ciphertexts decrypts to the same combination of plaintexts when that lies in the window; the encoder loses less than one unit of its multiplier.", "quantifier": "all keys with an invertible multiplier, all integers in the window, all linear combinations of any length", "why_tests_cant": "linear combinations are unbounded and the sign boundary at 0.9 n is not reachable by sampling", "anchors": ["ml/secureprotol/affine.py:AffineCipher", "ml/secureprotol/affine.py:AffineCipherKey.raw_decrypt", "ml/secureprotol/affine_encoder.py:AffineEncoder"]}
{"id": "C15", "title": "Incremental encryption decrypts to the current data", "statement": "Whatever mode (strict, fast, balance) is configured and whatever history of tables was encrypted before, the table returned by the encrypting calculator decrypts, record by record, to the table that was just passed in.", "quantifier": "all modes and rates, all histories of input tables of any length, all random draws", "why_tests_cant": "fast and balance modes carry state from round to round, so the claim ranges over histories", "anchors": ["ml/secureprotol/encrypt_mode.py:EncryptModeCalculator.encrypt"]}
{"id": "C16", "title": "A quantile summary accounts for every inserted value", "statement": "After any sequence of insertions, compressions and merges, the weights stored in a quantile summary add up to the number of values inserted, its samples are sorted and every sample is one of the inserted values.", "quantifier": "all insertion sequences of any length, all buffer sizes and thresholds, all compressions and merges", "why_tests_cant": "loss of samples only happens when more values than the buffer size arrive in a particular order", "anchors": ["ml/feature/quantile_summaries.py:QuantileSummaries.insert", "ml/feature/quantile_summaries.py:QuantileSummaries._insert_head_buffer", "ml/feature/quantile_summaries.py:QuantileSummaries.compress", "ml/feature/quantile_summaries.py:QuantileSummaries.merge"]}
{"id": "C17", "title": "Quantile queries respect the promised rank error", "statement": "The value returned for quantile q is an inserted value whose rank among the inserted values differs from q times the count by at most the configured relative error (doubled, as documented) times the count, plus rounding.", "quantifier": "all data sets, all errors in [0,1], all quantiles in [0,1]", "why_tests_cant": "rank guarantees must hold for adversarial data of any size", "anchors": ["ml/feature/quantile_summaries.py:QuantileSummaries.query", "ml/feature/quantile_summaries.py:QuantileSummaries._compress_immut"]}
{"id": "C18", "title": "Larger quantiles never give smaller split points", "statement": "For one summary, querying a larger quantile never returns a smaller value, so the list of split points produced for a feature is strictly increasing.", "quantifier": "all data sets, all pairs of quantiles, all numbers of bins", "why_tests_cant": "monotonicity over all pairs of quantiles and data sets is a universally quantified claim", "anchors": ["ml/feature/quantile_summaries.py:QuantileSummaries.query", "ml/feature/binning/quantile_binning.py:QuantileBinning.fit_split_points"]}
{"id": "C19", "title": "Sparse quantiles treat missing entries as zeros", "statement": "A quantile query on a sparse feature never fails for a quantile in [0,1]; it returns 0 exactly when that quantile falls among the zero entries, and otherwise queries the stored values at a percentile that is again in [0,1] and on the correct side of zero.", "quantifier": "all counts of negative, positive and missing entries, all quantiles in [0,1]", "why_tests_cant": "percentile conversion breaks at boundary counts (no zeros, no positives, all zeros)", "anchors": ["ml/feature/quantile_summaries.py:SparseQuantileSummaries.query", "ml/feature/quantile_summaries.py:SparseQuantileSummaries._convert_query_percentile"]}
{"id": "C20", "title": "A bin index test and a threshold test decide the same way", "statement": "For increasing split points, the bin assigned to a value is the unique index whose half-open interval contains it, bin assignment is monotone, and testing bin(value) <= b gives the same answer as testing value <= split point b, for every b a trained node can carry.", "quantifier": "all values, all increasing lists of split points of any length, all bin indices", "why_tests_cant": "an off-by-one at a boundary is visible only for values exactly equal to a split point", "anchors": ["ml/feature/binning/base_binning.py:Binning.get_bin_num", "ml/tree/hetero_decision_tree_guest.py:HeteroDecisionTreeGuest.dispatch_node", "ml/tree/hetero_decision_tree_guest.py:HeteroDecisionTreeGuest.traverse_tree"]}
{"id": "C21", "title": "Sparse storage does not change the binned data", "statement": "Dropping near-zero entries from a row and binning the remaining ones gives, read back with the bin of zero as default, the same bin for every feature as binning the dense row would (with near-zero values read as zero). Rows with a value that is not near zero beyond the names of the header are refused with IndexError.", "quantifier": "all rows of any width, all split points, all subsets of zero entries", "why_tests_cant": "depends on every pattern of zero and non-zero entries", "anchors": ["ml/tree/boosting_tree.py:BoostingTree.data_format_transform", "ml/feature/binning/base_binning.py:Binning._convert_sparse_data", "ml/feature/binning/base_binning.py:Binning.get_sparse_bin", "ml/feature/sparse_vector.py:SparseVector.get_data"]}
{"id": "C22", "title": "Histograms are the true per-bin sums", "statement": "For every node, feature and bin the histogram entry handed to split finding equals the sum of gradient, hessian and count over exactly the samples that sit in that node and whose bin for that feature is at most that bin; the last entry equals the node totals. Skipping zero entries and adding them back does not change this.", "quantifier": "all data sets, all assignments of samples to nodes, all feature masks, all sparsity patterns", "why_tests_cant": "the zero optimisation touches a different bin per feature and node; correctness is over all data sets", "anchors": ["ml/tree/feateur_histogram.py:FeatureHistogram.batch_calculate_histogram", "ml/tree/feateur_histogram.py:FeatureHistogram.accumulate_histogram", "ml/tree/feateur_histogram.py:FeatureHistogram.aggregate_histogram"]}
{"id": "C23", "title": "Histograms over ciphertexts decrypt to plaintext histograms", "statement": "The histogram a host computes on encrypted gradients and hessians decrypts, entry by entry, to the histogram that would have been computed on the plaintext values.", "quantifier": "all data sets, node assignments and additively homomorphic schemes (instantiated with the library's Paillier scheme)", "why_tests_cant": "relates two runs of an unbounded computation, one of which is on randomised ciphertexts", "anchors": ["ml/tree/feateur_histogram.py:FeatureHistogram", "ml/tree/hetero_decision_tree_host.py:HeteroDecisionTreeHost.get_histograms", "ml/secureprotol/fate_paillier.py:PaillierEncryptedNumber.__add__"]}
{"id": "C24", "title": "Split finding returns the best admissible split", "statement": "The split reported for a node has the largest gain among all (feature, bin) splits of enabled features whose gain exceeds the minimum impurity and whose two sides each hold at least the minimum number of samples per leaf, with ties broken by lowest feature and bin; if there is none (or the node is too small to split), no feature is reported.", "quantifier": "all histograms with any number of features and bins, all thresholds; float results not rounded (for rounding see C68)", "why_tests_cant": "optimality is a universally quantified claim over all candidate splits", "anchors": ["ml/tree/splitter.py:Splitter.find_split_single_histogram_guest", "ml/tree/splitter.py:Splitter.find_split"]}
{"id": "C25", "title": "Federated split choice matches the centralised one", "statement": "For every node, the split finally chosen among the guest's and all hosts' proposals has a gain within 1e-6 of the largest gain that any admissible split of any party has, i.e. of what a centralised learner that sees all features would choose; the guest is preferred within that tolerance and among hosts the first best one wins.", "quantifier": "any number of hosts, any histograms, any candidates; float results not rounded (for rounding see C68)", "why_tests_cant": "ranges over all parties and candidate sets; tests use one host", "anchors": ["ml/tree/hetero_decision_tree_guest.py:HeteroDecisionTreeGuest.find_best_split_guest_and_host", "ml/tree/hetero_decision_tree_guest.py:HeteroDecisionTreeGuest.find_host_split", "ml/tree/splitter.py:Splitter.find_split_host", "ml/tree/hetero_decision_tree_guest.py:HeteroDecisionTreeGuest.merge_splitinfo"]}
{"id": "C26", "title": "A trained tree is a well-formed binary tree", "statement": "In every tree produced by training, node number i is stored at position i, every inner node has two distinct children with larger numbers that exist, every node other than the root is the child of exactly one inner node, and every node is either a leaf with a weight or an inner node with a feature; no node is left undecided.", "quantifier": "all training runs: any data, any number of levels, any split decisions at each level", "why_tests_cant": "structure is an invariant over a level-by-level history with arbitrary split decisions", "anchors": ["ml/tree/hetero_decision_tree_guest.py:HeteroDecisionTreeGuest.update_tree_node_queue", "ml/tree/hetero_decision_tree_guest.py:HeteroDecisionTreeGuest.fit"]}
{"id": "C27", "title": "Tree depth and size are bounded by the configuration", "statement": "With maximum depth d, no root-to-leaf path of a trained tree has more than d nodes and the tree has at most 2^d - 1 nodes.", "quantifier": "all training runs and all maximum depths", "why_tests_cant": "an off-by-one in the depth test only shows when every level splits", "anchors": ["ml/tree/hetero_decision_tree_guest.py:HeteroDecisionTreeGuest.fit", "ml/tree/hetero_decision_tree_guest.py:HeteroDecisionTreeGuest.update_tree_node_queue"]}
{"id": "C28", "title": "Every training sample gets the weight of exactly one leaf, the one prediction finds", "statement": "After training a tree, each training sample has exactly one leaf weight, and it is the weight of the leaf that walking the finished tree with the sample's raw feature values arrives at; splits owned by any party are treated alike.", "quantifier": "all data sets, any number of hosts, all split decisions, all depths", "why_tests_cant": "relates the incremental level-by-level dispatch on bins with the final walk on raw thresholds for all histories", "anchors": ["ml/tree/hetero_decision_tree_guest.py:HeteroDecisionTreeGuest.redispatch_node", "ml/tree/hetero_decision_tree_guest.py:HeteroDecisionTreeGuest.dispatch_all_node_to_root", "ml/tree/hetero_decision_tree_host.py:HeteroDecisionTreeHost.dispatch_node"]}
{"id": "C29", "title": "Federated prediction equals walking the whole tree", "statement": "The multi-round prediction protocol between guest and hosts terminates and gives every sample the weight found by walking the complete tree with all parties' features in one place.", "quantifier": "all well-formed trees, all ownerships of nodes by any number of parties, all samples", "why_tests_cant": "the number of rounds depends on how ownership alternates along a path; unbounded depth and parties", "anchors": ["ml/tree/hetero_decision_tree_guest.py:HeteroDecisionTreeGuest.predict", "ml/tree/hetero_decision_tree_guest.py:HeteroDecisionTreeGuest.traverse_tree", "ml/tree/hetero_decision_tree_host.py:HeteroDecisionTreeHost.traverse_tree", "ml/tree/hetero_decision_tree_host.py:HeteroDecisionTreeHost.predict"]}
{"id": "C30", "title": "Split thresholds stay with the party that owns them", "statement": "No message a party sends during training or prediction contains a split threshold or bin index of one of its own splits, and the guest reveals no gradient statistics to hosts in plaintext.", "quantifier": "all training and prediction runs, all messages", "why_tests_cant": "absence of a leak is a claim about all messages of all runs", "anchors": ["ml/tree/hetero_decision_tree_guest.py:HeteroDecisionTreeGuest.encode", "ml/tree/hetero_decision_tree_guest.py:HeteroDecisionTreeGuest.sync_tree_node_queue", "ml/tree/hetero_decision_tree_guest.py:HeteroDecisionTreeGuest.sync_tree", "ml/tree/hetero_decision_tree_host.py:HeteroDecisionTreeHost.sync_final_splitinfo_host"]}
{"id": "C31", "title": "Guest and hosts never deadlock or mistake one message for another", "statement": "With equal tree-count, depth, batch-size and early-stopping settings, training and prediction run to completion under every interleaving of the parties: no party waits forever and each receives the message kind it expects.", "quantifier": "all schedules, any number of hosts, all data-dependent stopping points", "why_tests_cant": "deadlocks depend on interleavings and on data-dependent early exits, which tests exercise once", "anchors": ["ml/tree/hetero_decision_tree_guest.py:HeteroDecisionTreeGuest.fit", "ml/tree/hetero_decision_tree_host.py:HeteroDecisionTreeHost.fit", "ml/tree/hetero_secureboosting_tree_guest.py:HeteroSecureBoostingTreeGuest.fit", "ml/tree/hetero_secureboosting_tree_host.py:HeteroSecureBoostingTreeHost.fit"]}
{"id": "C32", "title": "Scores are the initial score plus the learning rate times the trees", "statement": "The score prediction computes for a sample and class equals the initial score plus the learning rate times the sum of that class's trees, and for a training sample it equals the score maintained during training.", "quantifier": "all numbers of rounds, classes, samples, all trees and learning rates", "why_tests_cant": "trees are stored in one flat list; mis-indexing appears only with several classes and rounds", "anchors": ["ml/tree/hetero_secureboosting_tree_guest.py:HeteroSecureBoostingTreeGuest.predict_f_value", "ml/tree/hetero_secureboosting_tree_guest.py:HeteroSecureBoostingTreeGuest.update_f_value", "ml/tree/hetero_secureboosting_tree_guest.py:HeteroSecureBoostingTreeGuest.accumulate_f", "ml/tree/hetero_secureboosting_tree_guest.py:HeteroSecureBoostingTreeGuest.fit"]}
{"id": "C33", "title": "Labels are encoded reversibly and predictions are known labels", "statement": "Training encodes each label as its position among the sorted distinct labels, so decoding gives the original label back, distinct labels get distinct codes 0..k-1, and every predicted label is one of the labels seen in training; a binary prediction is the second label exactly when its score exceeds the threshold.", "quantifier": "all label columns of any type with a total order, any number of classes", "why_tests_cant": "integer labels, string labels and gapped labels take different branches", "anchors": ["ml/tree/hetero_secureboosting_tree_guest.py:HeteroSecureBoostingTreeGuest.check_label", "ml/tree/hetero_secureboosting_tree_guest.py:HeteroSecureBoostingTreeGuest.predict", "ml/utils/classfiy_label_checker.py:ClassifyLabelChecker.validate_y"]}
{"id": "C34", "title": "Boosting stops exactly at the first converged round", "statement": "Training performs the configured number of rounds, or stops right after the first round whose loss differs from the previous round's loss by less than the tolerance (never after the first round), keeps one tree per class per performed round, and all hosts perform the same number of rounds.", "quantifier": "all loss sequences, tolerances and round limits", "why_tests_cant": "depends on an arbitrary history of losses", "anchors": ["ml/optim/convergence.py:DiffConverge.is_converge", "ml/tree/hetero_secureboosting_tree_guest.py:HeteroSecureBoostingTreeGuest.fit", "ml/tree/hetero_secureboosting_tree_host.py:HeteroSecureBoostingTreeHost.fit"]}
{"id": "C35", "title": "Feature importances count the splits", "statement": "With split-count importance, the importance reported for a party's feature equals the number of inner nodes over all trees that split on it, and the importances add up to the total number of inner nodes; with gain importance it is the sum of the gains of those splits.", "quantifier": "all training runs", "why_tests_cant": "counts accumulate over an arbitrary history of splits in all trees", "anchors": ["ml/tree/hetero_decision_tree_guest.py:HeteroDecisionTreeGuest.update_feature_importance", "ml/tree/hetero_secureboosting_tree_guest.py:HeteroSecureBoostingTreeGuest.update_feature_importance"]}
{"id": "C36", "title": "A saved and reloaded model predicts the same", "statement": "Exporting a trained model and loading it into a fresh object on each party gives the same prediction for every sample.", "quantifier": "all trained models, all samples", "why_tests_cant": "None-valued fields are replaced by defaults on export; equality of predictions must hold for all models and inputs", "anchors": ["ml/tree/hetero_decision_tree_guest.py:HeteroDecisionTreeGuest.get_model_param", "ml/tree/hetero_decision_tree_guest.py:HeteroDecisionTreeGuest.set_model_param", "ml/tree/hetero_decision_tree_host.py:HeteroDecisionTreeHost.set_model_param", "ml/tree/hetero_secureboosting_tree_guest.py:HeteroSecureBoostingTreeGuest.predict_f_value"]}
{"id": "C37", "title": "Predicted probabilities are probabilities", "statement": "The binary score transform lies strictly between 0 and 1, is increasing in the score and maps 0 to 1/2; the multi-class transform gives positive numbers adding up to 1, unchanged by shifting all scores, with the same ranking as the scores.", "quantifier": "all real scores and score vectors of any length (exact real arithmetic)", "why_tests_cant": "claim over all reals", "anchors": ["ml/optim/activation.py:sigmoid", "ml/optim/activation.py:softmax", "ml/loss/cross_entropy.py:SigmoidBinaryCrossEntropyLoss.predict", "ml/loss/cross_entropy.py:SoftmaxCrossEntropyLoss.predict"]}
{"id": "C38", "title": "Reported gradients and hessians are the derivatives of the loss", "statement": "For every loss offered, the gradient the training uses is the derivative of the reported loss with respect to the raw score and the hessian is the derivative of that gradient.", "quantifier": "all labels and scores (exact real arithmetic), all loss parameters accepted by the configuration check", "why_tests_cant": "finite differences at sample points do not establish derivatives everywhere", "anchors": ["ml/loss/cross_entropy.py", "ml/loss/regression_loss.py"]}
{"id": "C39", "title": "Summary statistics are independent of how data are partitioned", "statement": "Count, sum, mean, variance, minimum and maximum computed by merging the summaries of two parts equal those of the whole data, and equal their mathematical definitions.", "quantifier": "all data sets, all splits into parts", "why_tests_cant": "holds for all partitions of all data", "anchors": ["ml/statistic/statics.py:SummaryStatistics"]}
{"id": "C40", "title": "Configuration extraction changes exactly the named settings", "statement": "Extracting a configuration into a parameter object sets every setting named at its place in the configuration, leaves every other setting at its previous value, ignores unknown names, and, when the configuration and its sections are dictionaries, reports an error exactly when nesting exceeds the supported depth.", "quantifier": "all parameter objects and configurations of any shape", "why_tests_cant": "recursive structure of arbitrary nesting", "anchors": ["ml/utils/param_extract.py:ParamExtract.parse_param_from_config"]}
{"id": "C41", "title": "Accepted configurations satisfy the documented constraints", "statement": "The configuration check accepts exactly the configurations in which every setting is in its documented range, and reports an error for all others. The evaluation settings, which the code never checks, would be accepted exactly if the type is binary, multi or regression and the label is a string or a number. A table is refused with ValueError exactly if it has no record.", "quantifier": "all setting values", "why_tests_cant": "a check that is skipped or always true only shows for values nobody tried", "anchors": ["ml/param/boosting_tree_param.py:BoostingTreeParam.check", "ml/param/boosting_tree_param.py:DecisionTreeParam.check", "ml/param/boosting_tree_param.py:ObjectiveParam.check", "ml/param/encrypt_param.py:EncryptParam.check", "ml/param/feature_binning_param.py:TransformParam.check", "ml/param/evaluation_param.py:EvaluateParam.check", "ml/utils/abnormal_detection.py:empty_table_detection"]}
{"id": "C42", "title": "Feature subsampling enables the right number of features", "statement": "Each tree enables max(1, floor(rate*n)) distinct features out of n and no others; with rate 1 all features are enabled.", "quantifier": "all feature counts, all rates in (0,1], all random choices", "why_tests_cant": "claim over all random draws", "anchors": ["ml/tree/hetero_secureboosting_tree_guest.py:HeteroSecureBoostingTreeGuest.sample_valid_features", "ml/tree/hetero_secureboosting_tree_host.py:HeteroSecureBoostingTreeHost.sample_valid_features"]}
{"id": "C43", "title": "Training leaves the caller's data usable", "statement": "Training does not change the feature values in the table the caller passed, so predicting on the training table afterwards uses the raw values. If no two samples share a row object, training itself reads from the overwritten objects exactly the bins of the values.", "quantifier": "all training tables", "why_tests_cant": "aliasing bugs depend on object identity, not on values checked in tests", "anchors": ["ml/feature/binning/base_binning.py:Binning._convert_sparse_data", "ml/tree/boosting_tree.py:BoostingTree.data_format_transform", "ml/tree/hetero_secureboosting_tree_guest.py:HeteroSecureBoostingTreeGuest.fit"]}
{"id": "C44", "title": "Modular helpers compute modular powers and inverses", "statement": "powmod(a,b,c) is congruent to a^b modulo c (and lies in [0,c) for c>1), and invert(a,b) returns the inverse of a modulo b when one exists and reports an error otherwise.", "quantifier": "all integers a, b>=0, c>0", "why_tests_cant": "shortcut for a = 1 and non-coprime inputs", "anchors": ["ml/secureprotol/gmpy_math.py:powmod", "ml/secureprotol/gmpy_math.py:invert"]}
{"id": "C45", "title": "Leaf weights and gains are optimal for the regularised objective", "statement": "The weight given to a leaf minimises G*w + (H+lambda)*w^2/2 over all real w, the node score is twice the achieved reduction, and the gain of a split is twice the improvement of the optimal objective by splitting; with lambda >= 0 and positive hessians the gain of splitting without regularisation is never negative.", "quantifier": "all gradient and hessian sums and regularisation strengths with H+lambda > 0; float results not rounded (for rounding see C68)", "why_tests_cant": "optimality over all reals", "anchors": ["ml/tree/creterion.py:XgboostCriterion"]}
{"id": "C46", "title": "Training starts from a defined score", "statement": "Training starts from zero for classification, and from the mean (median for least absolute error) of the labels for regression, without failing.", "quantifier": "all label tables", "why_tests_cant": "the failing path is reached for every input but only inside a full federated run", "anchors": ["ml/loss/regression_loss.py", "ml/statistic/statics.py:MultivariateStatisticalSummary", "ml/feature/binning/quantile_binning.py:QuantileBinning.fit_split_points"]}
{"id": "C47", "title": "Vector helpers compute the usual sums", "statement": "The element-wise accumulation used to merge partial results adds vectors of equal length position by position with None as identity, and the dot product that skips tiny entries differs from the exact one by at most the skipped entries' contribution.", "quantifier": "all vectors of any length", "why_tests_cant": "skipping thresholds matter only for specific magnitudes", "anchors": ["ml/utils/fate_operator.py:reduce_add", "ml/utils/fate_operator.py:dot"]}
{"id": "C48", "title": "Child statistics add up to the parent's", "statement": "In every trained tree the gradient and hessian sums of the two children of an inner node add up to the parent's, the sums of all leaves add up to the totals of the data set, and each node's sums are the sums over the samples that reach it.", "quantifier": "all training runs; float results not rounded (for rounding see C68)", "why_tests_cant": "invariant over all levels of all trees", "anchors": ["ml/tree/hetero_decision_tree_guest.py:HeteroDecisionTreeGuest.update_tree_node_queue", "ml/tree/splitter.py:Splitter.find_split_single_histogram_guest", "ml/tree/hetero_decision_tree_guest.py:HeteroDecisionTreeGuest.get_grad_hess_sum"]}
{"id": "C49", "title": "A run with validation data returns predictions for both data sets", "statement": "When a validation table is supplied, the task returns the predictions of the training table and of the validation table together.", "quantifier": "all pairs of training and validation tables", "why_tests_cant": "the missing half only shows when the returned value is compared with both inputs", "anchors": ["ml/model_base.py:ModelBase._run_data", "computing/d_table.py:DTable.union"]}
{"id": "C50", "title": "Training runs to completion", "statement": "With prepared data, the default kind of settings and a key large enough for the gradients, training a tree across the guest and any number of hosts raises no exception and returns a well-formed tree.", "quantifier": "all aligned data sets of all parties, all usual settings, all keys and randomness; float results not rounded (for rounding see C68)", "why_tests_cant": "exceptions in rare branches (empty bins, undecryptable cells, unsplittable nodes) need specific data", "anchors": ["ml/tree/hetero_decision_tree_guest.py:HeteroDecisionTreeGuest.fit", "ml/tree/hetero_decision_tree_host.py:HeteroDecisionTreeHost.fit"]}
{"id": "C51", "title": "The federated tree is the tree greedy training on the joined data would grow", "statement": "Every node of the trained tree holds the exact gradient and hessian sums of the samples that reach it by raw feature values and the optimal weight for them; a node is a leaf only at the depth limit or when no admissible split of any party has a gain above the minimum; otherwise it is split by the admissible split of highest gain over all parties' features (ties and differences within the stated tolerance aside).", "quantifier": "all training runs with Paillier encryption: any number of hosts, samples, features, depth; float results not rounded (for rounding see C68)", "why_tests_cant": "relates the encrypted distributed computation to centralised training on all data sets", "anchors": ["ml/tree/hetero_decision_tree_guest.py:HeteroDecisionTreeGuest.fit", "ml/tree/hetero_decision_tree_host.py:HeteroDecisionTreeHost.fit", "ml/tree/splitter.py:Splitter", "ml/tree/feateur_histogram.py:FeatureHistogram"]}
{"id": "C52", "title": "Grouping by key combines all values of a key", "statement": "Grouping a table with a mapper and a combiner gives, for every key the mapper produced and for no other, the combination of all values produced for it in the order they were produced; no key appears twice.", "quantifier": "all tables, mappers and combiners", "why_tests_cant": "loss of a value depends on how many records share a key and in which order they come", "anchors": ["computing/d_table.py:DTable.mapReducePartitions"]}
{"id": "C53", "title": "A whole encrypted boosting run completes and prediction reproduces it", "statement": "With prepared data of all parties, usual settings and a key whose range holds the gradient sums of every round, boosting runs through all rounds without an exception, and predicting the training samples afterwards gives exactly the scores training ended with.", "quantifier": "all data sets, numbers of hosts, rounds, class counts, keys and randomness within the stated ranges; float results not rounded (for rounding see C68)", "why_tests_cant": "composes preparation, encryption, tree growth, score updates and prediction over all rounds and parties", "anchors": ["ml/tree/hetero_secureboosting_tree_guest.py:HeteroSecureBoostingTreeGuest.fit", "ml/tree/hetero_secureboosting_tree_guest.py:HeteroSecureBoostingTreeGuest.predict_f_value"]}
{"id": "C54", "title": "Federated training loses nothing against training on the joined columns", "statement": "Training across the guest and any number of hosts on Paillier ciphertexts gives the same tree as the centralised program run on the columns of all parties side by side with the same gradients: the same nodes, sums, weights, split columns and thresholds, the same leaf weight for every training sample, and the same predictions on any other rows; unless at some node the best splits of two parties have gains that differ by less than the tolerance of the merge.", "quantifier": "all data sets split by columns over any number of hosts, all tree settings, keys and randomness, all rows to predict; float results not rounded (for rounding see C68)", "why_tests_cant": "compares two programs over all data sets; a discrepancy needs particular ties, bins or row orders", "anchors": ["ml/tree/hetero_decision_tree_guest.py:HeteroDecisionTreeGuest.fit", "ml/tree/hetero_decision_tree_guest.py:HeteroDecisionTreeGuest.merge_splitinfo", "xgboost/hetero_decision_tree_guest.py:HeteroDecisionTreeGuest.fit", "xgboost/hetero_decision_tree_guest.py:HeteroDecisionTreeGuest.predict"]}
{"id": "C55", "title": "A whole boosting run across parties equals the run on the joined columns", "statement": "Fitting the boosted model across the guest and any number of hosts on Paillier ciphertexts succeeds whenever the settings and data meet conditions that can be checked beforehand; and the centralised program, run on the columns of all parties side by side with the same labels, loss and settings, then trains as many trees, pairwise the same, records the same losses, stops in the same round, ends with the same score for every training sample, and predicts the same scores for any other rows; unless at some node of some tree the best splits of two parties, or a gain and the minimum gain, nearly coincide.", "quantifier": "all data sets split by columns over any number of hosts, all numbers of rounds and score components, all loss functions with bounded gradients, keys and randomness, all rows to predict; float results not rounded (for rounding see C68)", "why_tests_cant": "compares whole runs of two programs; a discrepancy in one tree changes the gradients of all later ones and no finite set of data sets covers the combinations", "anchors": ["ml/tree/hetero_secureboosting_tree_guest.py:HeteroSecureBoostingTreeGuest.fit", "ml/tree/hetero_secureboosting_tree_guest.py:HeteroSecureBoostingTreeGuest.predict", "xgboost/hetero_secureboosting_tree_guest.py:HeteroSecureBoostingTreeGuest.fit", "xgboost/hetero_secureboosting_tree_guest.py:HeteroSecureBoostingTreeGuest.predict"]}
{"id": "C56", "title": "The programs run from files to accuracy on the same samples at every party", "statement": "Started with files that have the same number of lines and with the same proportion, the guest and host programs end without an error and print an accuracy; all parties use the same line numbers for training and testing; the model is trained on the training lines only, with the guest's labels; every test line gets exactly one prediction, decided by walking the trees with the features that all parties have on that line; and the accuracy is the fraction of test lines predicted correctly.", "quantifier": "all file contents, numbers of hosts, lines, columns and classes, all proportions that leave training and test lines, all shuffles, keys and randomness; float results not rounded (for rounding see C68)", "why_tests_cant": "the test would need the whole distributed system, and a finite number of data sets cannot show that no data set makes the parties disagree on the split or makes a run fail", "anchors": ["guest.py:test_hetero_secure_boost_guest", "guest.py:data_split", "host.py:test_hetero_seucre_boost_host", "host.py:data_split", "i_o/utils.py:read_from_csv_with_lable", "i_o/utils.py:read_from_csv_with_no_lable", "ml/tree/hetero_secureboosting_tree_guest.py:HeteroSecureBoostingTreeGuest.fit", "ml/tree/hetero_secureboosting_tree_guest.py:HeteroSecureBoostingTreeGuest.predict"]}
{"id": "C57", "title": "Samples of different parties are joined by identifier", "statement": "When guest and hosts train and predict from their files, the features that are combined for one sample are those of the lines with the same identifier in all files, whatever the order of the lines; files that do not list the same samples are refused.", "quantifier": "all file contents, orders of lines and identifiers, numbers of hosts", "why_tests_cant": "a test with files in the same order cannot see the difference; the claim is about all orders", "anchors": ["guest.py:test_hetero_secure_boost_guest", "host.py:test_hetero_seucre_boost_host", "i_o/utils.py:read_from_csv_with_lable", "i_o/utils.py:read_from_csv_with_no_lable"]}
{"id": "C58", "title": "With the default encryption, gradients of any value can be trained on", "statement": "With the default (strict) encryption and a Paillier key of the default size, every table of gradients and hessians can be encrypted, and decrypting gives each number back with a relative error of at most 2^-50. Training on them completes, prediction reproduces the training scores, and at every node the recorded sums, the weight and the chosen split are those of the exact greedy algorithm up to errors of that size: only bounds on the sizes of gradients, hessians and sample numbers are needed.", "quantifier": "all tables of gradients and hessians, all losses with bounded gradients, all data sets, numbers of hosts, rounds and components, all keys of more than 1000 bits and all random numbers; float results not rounded (for rounding see C68)", "why_tests_cant": "the rounding of the encoding differs for every float; tests sample a few values and cannot bound the error over all of them, nor exclude that some value makes a long run fail", "anchors": ["ml/tree/hetero_decision_tree_guest.py:HeteroDecisionTreeGuest.fit", "ml/secureprotol/encrypt_mode.py:EncryptModeCalculator.encrypt", "ml/secureprotol/encrypt.py:PaillierEncrypt.encrypt", "ml/secureprotol/fixedpoint.py:FixedPointNumber.encode", "ml/secureprotol/fate_paillier.py:PaillierPublicKey.encrypt"]}
{"id": "C59", "title": "Generated keys are valid and have the requested length", "statement": "Generating a Paillier key pair of a requested length returns a modulus with exactly that many bits which is the product of two different primes, and the matching private key, so that decryption inverts encryption; generating an affine-cipher key returns a multiplier with an inverse for the modulus.", "quantifier": "all requested lengths that the parameter check accepts, all outcomes of the random draws", "why_tests_cant": "the draws are random: a test sees a few keys of a few lengths; that no draw gives equal primes, a modulus one bit short or a wrong private key, and that some lengths can never be returned, are statements about all of them", "anchors": ["ml/secureprotol/fate_paillier.py:PaillierKeypair.generate_keypair", "ml/secureprotol/gmpy_math.py:getprimeover", "ml/secureprotol/affine.py:AffineCipher.generate_keypair"]}
{"id": "C60", "title": "Encrypter objects encrypt whole lists and tables and never pass plain values on", "statement": "With a matching key pair, encrypting a list or table and decrypting the result gives the numbers back in the same order or under the same keys, integers exactly and floats up to the rounding of the encoding. A party that was only given the public key gets no value from decrypting; without any key encrypting yields no value rather than the plain one. The guest obtains an encrypter for every encryption method that its parameter check accepts, and the method then holds a key pair of the configured length. Setting one key keeps the other: an object that was given both keys, in either order, encrypts and decrypts.", "quantifier": "all lists, tables, keys, sequences of key settings, random numbers and encryption methods", "why_tests_cant": "ranges over all numbers, keys and sequences of set-key calls; the leak of a plain value would need exactly the untested combination", "anchors": ["ml/secureprotol/encrypt.py:Encrypt.encrypt_list", "ml/secureprotol/encrypt.py:Encrypt.decrypt_list", "ml/secureprotol/encrypt.py:Encrypt.distribute_encrypt", "ml/secureprotol/encrypt.py:Encrypt.distribute_decrypt", "ml/secureprotol/encrypt.py:PaillierEncrypt", "ml/tree/hetero_secureboosting_tree_guest.py:HeteroSecureBoostingTreeGuest.generate_encrypter"]}
{"id": "C61", "title": "An encrypted number shows nothing but its plaintext, and that only to the key holder", "statement": "Whoever sees an encrypted number without the private key learns nothing about the number it holds from how it looks: the visible parts other than the randomised ciphertext do not depend on the number, every possible ciphertext is equally likely, and different random numbers give different ciphertexts. The result of a computation looks like a fresh encryption of its value: the key holder learns the value and nothing about how it was computed, so that from the sums that a host sends the guest learns the sums only.", "quantifier": "all keys, plaintexts, random numbers and computations on ciphertexts", "why_tests_cant": "a statement about the distribution over all random numbers; a test sees single ciphertexts and cannot tell a biased or linkable one from a good one", "anchors": ["ml/secureprotol/fate_paillier.py:PaillierPublicKey.encrypt", "ml/secureprotol/fate_paillier.py:PaillierPublicKey.apply_obfuscator", "ml/secureprotol/fate_paillier.py:PaillierEncryptedNumber.apply_obfuscator", "ml/secureprotol/fate_paillier.py:PaillierEncryptedNumber.__add__", "ml/secureprotol/fixedpoint.py:FixedPointNumber.encode", "ml/tree/splitter.py:Splitter.find_split_host"]}
{"id": "C62", "title": "Convergence checks compare the right two iterations", "statement": "A convergence check answers yes exactly if two successive iterations are close: the loss-difference check if the loss differs by less than the tolerance from the loss of the call before (and never on a first call without a starting loss), the absolute check if the absolute value of the loss is at most the tolerance, the weight check if the weights moved by less than the tolerance relative to their size, whether the caller passes a new array or updates its array in place.", "quantifier": "all tolerances, starting values and sequences of losses or weights of any length", "why_tests_cant": "the verdict depends on the state left by all earlier calls; a test tries a few sequences, and one that passes new arrays cannot see that a reference is kept", "anchors": ["ml/optim/convergence.py:DiffConverge.is_converge", "ml/optim/convergence.py:AbsConverge.is_converge", "ml/optim/convergence.py:WeightDiffConverge.is_converge", "ml/utils/fate_operator.py:norm"]}
{"id": "C63", "title": "Activation functions have their mathematical shape and never overflow", "statement": "The sigmoid is 1/(1+exp(-x)) on both branches, strictly increasing, between 0 and 1 and symmetric; log_logistic is its logarithm; softplus is minus log_logistic of the negated argument and lies between max(x,0) and max(x,0)+log 2; hard_sigmoid is 0 below -2.5, 1 above 2.5 and linear between; softsign and tanh are odd and lie between -1 and 1. None of them evaluates the exponential function at a positive argument, where floats overflow.", "quantifier": "all real arguments, all lists of scores of any length, all functions in place of the exponential that agree with it up to 0", "why_tests_cant": "claims about all real arguments and both branches; a test samples a few values and does not notice an overflow beyond them", "anchors": ["ml/optim/activation.py:sigmoid", "ml/optim/activation.py:softmax", "ml/optim/activation.py:log_logistic", "ml/optim/activation.py:softplus", "ml/optim/activation.py:hard_sigmoid", "ml/optim/activation.py:softsign", "ml/optim/activation.py:tanh"]}
{"id": "C64", "title": "The comparison program without federation gives the federated result", "statement": "Running the comparison program (training without federation on the two parties' files joined line by line) prints the accuracy that the guest and host programs print on the same files, with the same losses in every round and the same predicted row for every test line, whatever names the columns have.", "quantifier": "all pairs of files with any number of lines and columns, all settings of trees, rounds, binning and losses, all shuffles, all key pairs large enough, all random numbers of the encryption; float results not rounded (for rounding see C68)", "why_tests_cant": "it relates two programs that share little code, over all files and settings; a test compares one data set, and on the one that the program reads both parties use the same column names, where the two programs may differ", "anchors": ["test_xgboost.py:test", "test_xgboost.py:data_split", "guest.py", "host.py", "xgboost/hetero_secureboosting_tree_guest.py:HeteroSecureBoostingTreeGuest.fit", "ml/feature/binning/base_binning.py:Binning.convert_feature_to_bin", "ml/feature/binning/quantile_binning.py:QuantileBinning.insert_datas"]}
{"id": "C65", "title": "Separately started programs end with one result under every order of steps", "statement": "If the guest program and the host programs are started with suitable files and settings, every one of them ends normally, however their steps interleave and however much the sockets buffer, and the guest always ends with the same model, predictions and accuracy: those of the programs executed as one computation.", "quantifier": "all files, settings, shuffles and numbers of hosts for which the composed computation ends (sufficient conditions on files and settings are given), all interleavings of the processes, all buffering behaviour of the connections", "why_tests_cant": "the number of interleavings and buffer sizes is unbounded; a test sees one schedule on one machine", "anchors": ["guest.py:test_hetero_secure_boost_guest", "host.py:test_hetero_seucre_boost_host", "federation/transfer_inst.py:TransferInstGuest", "federation/transfer_inst.py:TransferInstHost", "ml/tree/hetero_secureboosting_tree_guest.py:HeteroSecureBoostingTreeGuest.fit", "ml/tree/hetero_secureboosting_tree_host.py:HeteroSecureBoostingTreeHost.fit"]}
{"id": "C66", "title": "When one program ends early, the others end too", "statement": "If one of the programs ends early, by any exception at any point, no other program is left waiting: every execution of the guest and host programs is finite and ends with all programs ended, whatever the files and settings. A receiver whose connection has ended is told so by an exception.", "quantifier": "all files and settings, suitable or not; all numbers of hosts; all executions, with programs ending at any point and connections reporting this at any later call; for one connection, all messages and all points at which the bytes stop", "why_tests_cant": "failures can occur at every point of every execution; deadlocks after a failure depend on which side waits for which message, and a hang is not observed by a test that expects a result", "anchors": ["federation/transfer_inst.py:TransferInst.recv_data", "federation/transfer_inst.py:TransferInst.send_data", "guest.py:test_hetero_secure_boost_guest", "host.py:test_hetero_seucre_boost_host", "ml/tree/hetero_decision_tree_guest.py:HeteroDecisionTreeGuest.fit", "ml/tree/hetero_decision_tree_host.py:HeteroDecisionTreeHost.fit", "ml/tree/hetero_decision_tree_host.py:HeteroDecisionTreeHost.predict"]}
{"id": "C67", "title": "All programs end normally only if the whole computation succeeds", "statement": "If the guest and all hosts, run as separate programs, end normally, then the computation they carry out together raises no exception, and the guest ends with exactly its model, predictions and accuracy. The computation fails exactly when no execution of the programs lets all of them end normally; in that case, wherever the programs have got to, they go on until one of them raises.", "quantifier": "all files and settings, suitable or not; all numbers of hosts; all executions and interleavings of the programs, with or without buffers, and with programs noticing ended connections; the same for training one tree, training and prediction alone, for all data", "why_tests_cant": "a failure at one party, at any point, must not be hidden by an interleaving in which the others go on with stale or missing data; interleavings cannot be enumerated", "anchors": ["guest.py:test_hetero_secure_boost_guest", "host.py:test_hetero_seucre_boost_host", "ml/tree/hetero_secureboosting_tree_guest.py:HeteroSecureBoostingTreeGuest.fit", "ml/tree/hetero_secureboosting_tree_host.py:HeteroSecureBoostingTreeHost.fit", "ml/tree/hetero_decision_tree_guest.py:HeteroDecisionTreeGuest.fit", "ml/tree/hetero_decision_tree_host.py:HeteroDecisionTreeHost.fit", "ml/tree/hetero_decision_tree_host.py:HeteroDecisionTreeHost.predict"]}
{"id": "C68", "title": "Rounding of floats: predictions still reproduce training exactly, errors stay bounded", "statement": "Whatever the rounding of float arithmetic in growing the trees and in adding up the scores: if training ends, prediction on the training rows returns exactly the scores of training. If rounding moves numbers in the range used by at most eps, a score differs from the exact sum of its contributions by at most two eps per tree, the sums at the root differ from those of the data set by at most one eps per sample, and the sums of two children from those of their parent by at most one eps. The sums need not be exactly additive.", "quantifier": "all rounding functions (different ones for trees and scores), all runs: any number of hosts, samples, trees, components; any gradients, hessians and weights", "why_tests_cant": "tests see one machine's rounding and few runs; that no comparison between training and prediction depends on how a number was rounded is a statement about all roundings", "anchors": ["ml/tree/hetero_secureboosting_tree_guest.py:HeteroSecureBoostingTreeGuest.fit", "ml/tree/hetero_secureboosting_tree_guest.py:HeteroSecureBoostingTreeGuest.predict", "ml/tree/hetero_secureboosting_tree_guest.py:HeteroSecureBoostingTreeGuest.accumulate_f", "ml/tree/hetero_decision_tree_guest.py:HeteroDecisionTreeGuest.fit", "ml/tree/creterion.py:XgboostCriterion", "ml/tree/splitter.py:Splitter"]}
{"id": "C69", "title": "With rounded floats and inexact encryption, training completes and the tree is nearly greedy", "statement": "Training on any rows, with the result of every float operation rounded and with encrypted gradients, hessians and gains that are off, ends at all parties without an exception, and every sample gets the weight of the leaf it reaches. At each node the sums and the weight are those of the samples that reach it up to stated error bounds. A leaf is at the depth limit or no party has a split whose exact gain is noticeably above the minimum; an inner node uses a split of some party whose exact gain is not noticeably below the minimum, and no admissible split of any party is noticeably better. The bounds grow linearly in samples, bins and depth.", "quantifier": "all rounding functions that move numbers in the range used by at most eps, all keys and encryption draws, all rows, numbers of parties, samples, features, bins and depth; gradients of any sign, hessians plus lambda bounded below; split points of a feature distinct", "why_tests_cant": "rounding errors pile up along histograms, cumulated bins, differences of cells and levels of the tree, and pass through decisions; tests see one machine and few data sets, not the worst case", "anchors": ["ml/tree/hetero_decision_tree_guest.py:HeteroDecisionTreeGuest.fit", "ml/tree/hetero_decision_tree_host.py:HeteroDecisionTreeHost.fit", "ml/tree/feateur_histogram.py:FeatureHistogram", "ml/tree/splitter.py:Splitter", "ml/tree/creterion.py:XgboostCriterion", "ml/secureprotol/fixedpoint.py:FixedPointNumber.decode"]}
{"id": "C70", "title": "Where the decisions are clear, the tree does not depend on rounding, keys, random draws and batches", "statement": "Two training runs on the same data and limits, with differently rounded floats, different keys, random draws, encodings, kinds of importance and numbers of nodes per batch, both end without an exception. If every decision in the tree of the first run is clear by the accuracy of the two runs (the best gain is not close to the minimum, and all splits that are best up to the accuracy divide the samples of the node in the same way), both trees have the same nodes and children, the same samples reach the same nodes, and sums, weights and the weight every sample gets differ by at most stated bounds.", "quantifier": "all pairs of rounding functions within the accuracy, all keys, draws and encodings, all rows, numbers of parties, samples, features, bins and depth; split points of a feature distinct", "why_tests_cant": "reproducibility across machines and keys cannot be tested on one machine; the margin that is enough is a worst-case statement over all roundings", "anchors": ["ml/tree/hetero_decision_tree_guest.py:HeteroDecisionTreeGuest.fit", "ml/tree/hetero_decision_tree_host.py:HeteroDecisionTreeHost.fit", "ml/tree/splitter.py:Splitter.find_split", "ml/tree/feateur_histogram.py:FeatureHistogram"]}
{"id": "C71", "title": "Longer runs continue shorter ones", "statement": "Training with more rounds repeats the run with fewer rounds and goes on: the trees, losses and stop flags of the shorter run are the first ones of the longer run, and the shorter run ends without an exception if the longer does. A run that stops early gives the same result for every limit on the rounds that it does not reach. Training a tree with a larger depth limit keeps the upper levels: every inner node of the shallower tree is in the deeper tree with the same site, feature, sums, weight and children, and the same samples reach it.", "quantifier": "all pairs of round limits and of depth limits from one on, all runs (for depths: hosts numbered differently that have the samples of the guest): any number of hosts, samples, features, components; any rounding, keys and draws (the same in both runs)", "why_tests_cant": "a test compares a few pairs of limits on a few data sets; it is a statement about all pairs and all data, and depends on no state leaking from the limit into earlier rounds or levels", "anchors": ["ml/tree/hetero_secureboosting_tree_guest.py:HeteroSecureBoostingTreeGuest.fit", "ml/tree/hetero_decision_tree_guest.py:HeteroDecisionTreeGuest.fit", "ml/tree/hetero_decision_tree_guest.py:HeteroDecisionTreeGuest.update_tree_node_queue", "ml/optim/convergence.py:DiffConverge.is_converge"]}
{"id": "C72", "title": "A prediction depends on nothing but the sample's own values", "statement": "Two samples, in whatever tables, that have the same values of the features the trees ask for get the same scores from the same trees, whatever their identifiers, their position and the other samples in the tables. The predicted label, score and details depend only on the scores of the sample.", "quantifier": "all trained models, all pairs of tables and samples; any number of hosts, trees and samples", "why_tests_cant": "samples are predicted together, in tables that are joined, filtered and subtracted over many rounds; that no sample influences another is a statement about all tables", "anchors": ["ml/tree/hetero_secureboosting_tree_guest.py:HeteroSecureBoostingTreeGuest.predict", "ml/tree/hetero_decision_tree_guest.py:HeteroDecisionTreeGuest.predict", "ml/tree/hetero_decision_tree_host.py:HeteroDecisionTreeHost.predict", "ml/tree/hetero_decision_tree_guest.py:HeteroDecisionTreeGuest.traverse_tree"]}
{"id": "C73", "title": "Sample identifiers and host numbers are only names", "statement": "Training and prediction with other sample identifiers and other distinct host numbers (run_time_idx) give the same result under the new names: the same scores, losses, stop flags, thresholds, weights and nodes up to the names, and the same exception if one is raised. In particular any two choices of distinct host numbers give the same thresholds and weights. With equal host numbers, which no code rejects, this fails: training can raise an exception or give a sample the weight of another leaf.", "quantifier": "all one-to-one renamings of identifiers and host numbers, all runs: any number of hosts, samples, trees, components; any rounding, encryption and draws", "why_tests_cant": "tests use the host numbers 0 and 1 and one kind of identifiers; independence of all other choices is a statement about all renamings", "anchors": ["host.py:test_hetero_seucre_boost_host", "ml/tree/hetero_decision_tree_guest.py:HeteroDecisionTreeGuest.fit", "ml/tree/hetero_decision_tree_host.py:HeteroDecisionTreeHost.dispatch_node", "ml/tree/hetero_decision_tree_guest.py:HeteroDecisionTreeGuest.merge_splitinfo", "computing/d_table.py:DTable"]}
{"id": "C74", "title": "Division by zero with numpy floats: infinite gains win, NaN is never chosen", "statement": "With lambda = 0 and a side without hessians the score is a division by zero. For the guest's own splits the operands are numpy floats, so no exception is raised: the search over any histogram ends, returns the first split with the largest gain among those whose gain is defined, where infinite gains count as the largest, and never a split whose gain is NaN. If a split on offer has a side with gradients but no hessians, the chosen gain is infinite; the weight of such a node is infinite with the sign opposite to its gradients (NaN without gradients). For a host's candidates the sums are Python floats: if the guest answers at all, no left side has a zero denominator and no gain is infinite (ZeroDivisionError and OverflowError otherwise). Where nothing is divided by zero, both searches give what they give in rational arithmetic.", "quantifier": "all histograms, candidate lists, configurations and node sums; any rounding, for totality and agreement also infinities and NaN in the histogram", "why_tests_cant": "needs lambda = 0 and samples with vanishing hessians at one side of a candidate; the default lambda is positive, and the outcome differs between the parties' splits", "anchors": ["ml/tree/splitter.py:Splitter.find_split_single_histogram_guest", "ml/tree/creterion.py:XgboostCriterion.split_gain", "ml/tree/creterion.py:XgboostCriterion.node_weight", "ml/tree/hetero_decision_tree_guest.py:HeteroDecisionTreeGuest.find_host_split"]}
{"id": "C75", "title": "It does not matter which party holds which column, nor in which order the samples are", "statement": "Take two federated training runs on the same samples, gradients and columns with the same limits, but with the columns distributed in different ways over the parties: another number of hosts, other host numbers and orders, other columns at the guest, other positions of columns, with the samples in another order, and with other keys, draws, rounding of floats and batch sizes. If every decision of the first tree is clear by the accuracy of both runs, then both runs succeed and the trees have the same shape, every sample goes through the same nodes in both, and sums and weights differ by no more than the stated errors. Where a decision is not clear the claim fails: exchanging the columns of guest and host can give a sample another weight, even without encryption and rounding.", "quantifier": "all pairs of distributions of all data sets, all orders of the samples; any number of hosts, samples and features; any keys, draws, rounding and batch sizes", "why_tests_cant": "a test compares a few distributions of one data set; the guest's splits are treated differently from the hosts' (encryption, tie-breaking) and the claim is about all of them", "anchors": ["ml/tree/hetero_decision_tree_guest.py:HeteroDecisionTreeGuest.fit", "ml/tree/hetero_decision_tree_guest.py:HeteroDecisionTreeGuest.merge_splitinfo", "ml/tree/hetero_decision_tree_guest.py:HeteroDecisionTreeGuest.find_host_split", "ml/tree/hetero_decision_tree_host.py:HeteroDecisionTreeHost.fit", "ml/tree/splitter.py:Splitter.find_split_single_histogram_guest"]}
{"id": "C76", "title": "Division and reversed subtraction of fixed-point numbers and ciphertexts", "statement": "Dividing a fixed-point number by a plain or fixed-point number, dividing a plain number by a fixed-point number, subtracting a fixed-point number from a plain number, and dividing a ciphertext by a plain number succeed for operands of moderate size and give the exact result up to a stated relative error, which depends on the rounding u of one reciprocal: 2u+2^-48 for quotients (also after decryption), 8u+2^-45 for plain over fixed-point, about 2^-49 for the difference. Division by zero raises ZeroDivisionError. Two natural expectations fail: zero divided by any fixed-point number raises ZeroDivisionError as well, and 6/3 does not decode to 2.", "quantifier": "all numbers within the stated sizes; all rounding functions with relative error at most u; all keys, draws and ciphertext expressions", "why_tests_cant": "error bounds over all operands and all keys; a test sees single quotients", "anchors": ["ml/secureprotol/fixedpoint.py:FixedPointNumber.__truediv__", "ml/secureprotol/fixedpoint.py:FixedPointNumber.__rtruediv__", "ml/secureprotol/fixedpoint.py:FixedPointNumber.__rsub__", "ml/secureprotol/fate_paillier.py:PaillierEncryptedNumber.__truediv__"]}
{"id": "C77", "title": "Binning of selected columns", "statement": "A quantile binning object set to a list of column indices fits split points to exactly those columns (negative indices count from the end), each to its own values. Converting any later table replaces the values of the requested columns by their bins, leaves all other values alone, and returns the split points of the selected columns packed together. The setting -1 is the selection of all columns and gives what the tree code gets. Limits shown: a column selected by a negative index is fitted but never converted; on sparse rows one stored value in an unselected column ends the fit with KeyError; a second fit, on any table, changes nothing; conversion before a fit raises AttributeError even when split points are passed in; indices beyond the header raise ValueError or IndexError, unfitted columns RuntimeError. Split points passed to the conversion are used for the rows and for the bins of zero, but the split points returned are still those of the fit. Fitting with bin_num 0 is a ZeroDivisionError; fitting or converting an empty table is an AttributeError.", "quantifier": "all configurations, headers, selections and tables of any size; all later tables and requested columns", "why_tests_cant": "all selections and tables; repeated calls on the same object; the failing cases are rare in test data because tests select all columns", "anchors": ["ml/feature/binning/base_binning.py:Binning._init_cols", "ml/feature/binning/base_binning.py:Binning.convert_feature_to_bin", "ml/feature/binning/quantile_binning.py:QuantileBinning.fit_split_points", "ml/statistic/data_overview.py:is_sparse_data"]}
{"id": "C78", "title": "The order of the rows does not matter for tables that fit into the buffer", "statement": "Prepare a table of fewer than head_size rows (default 10000) for tree training, and prepare the same rows in any other order with the same settings: split points and bins of zero are the same and every row gets the same bins. If all parties' rows and the guest's gradients are reordered, independently of each other, and every decision of the first tree is clear by the accuracy of both runs, then both trainings succeed and grow the same tree up to the stated small errors, also with other keys, draws, rounding and batch sizes. For a table larger than the buffer the claim fails: the same rows in ascending and descending order get different split points.", "quantifier": "all tables of fewer than head_size rows, all reorderings, all quantile settings and headers; any number of parties, samples and features", "why_tests_cant": "there are n! orders; a test compares two of them, and tests use small tables, so the case beyond the buffer does not show", "anchors": ["ml/feature/quantile_summaries.py:QuantileSummaries.insert", "ml/feature/quantile_summaries.py:QuantileSummaries._insert_head_buffer", "ml/feature/quantile_summaries.py:QuantileSummaries.compress", "ml/feature/binning/quantile_binning.py:QuantileBinning.fit_split_points", "ml/tree/hetero_decision_tree_guest.py:HeteroDecisionTreeGuest.fit"]}
{"id": "C79", "title": "Whole training runs do not depend on who holds which column or on the order of the samples", "statement": "Train twice with Paillier encryption (conditions of C53, exact arithmetic apart from the encryption of gains) with the same limits, loss, initial scores, labels and columns, but with the columns spread over the parties in another way (other number of hosts, other columns at the guest, other positions), the samples listed in other orders, other keys, random numbers and batch sizes, and the same columns sampled for each tree. Both trainings succeed. If every decision of the first one is clear by 5e-6, they train the same number of trees, pairwise with the same nodes, children, sums and weights and the same path for every training sample, record the same losses, send the same stop flags and end with the same scores. Runs in which only rows and labels are reordered are a special case, for tables that fit into the buffer of a quantile summary.", "quantifier": "all numbers of hosts, samples, features, rounds and components; all distributions of the columns and orders of the samples; all keys, draws and losses that meet the conditions", "why_tests_cant": "a test compares single runs; distributions and orders are too many to try, and agreement over all rounds must hold for every one", "anchors": ["ml/tree/hetero_secureboosting_tree_guest.py:HeteroSecureBoostingTreeGuest.fit", "ml/tree/hetero_secureboosting_tree_host.py:HeteroSecureBoostingTreeHost.fit", "ml/tree/hetero_decision_tree_guest.py:HeteroDecisionTreeGuest.fit", "ml/tree/splitter.py:Splitter.find_split"]}
{"id": "C80", "title": "Tree settings are stored with the model and read back, or training fails after the first tree", "statement": "Of the tree settings that pass the check, the guest can store with a trained tree exactly those whose max_depth, min_sample_split and min_leaf_node fit into 32 bits with sign and whose criterion_params are all numbers (min_impurity_split and these within the range of floats); a host stores no criterion and needs the limits only. Loading stored settings into any object gives the same limits, criterion name and parameters, as numbers of the same value (whole numbers up to 2^53); at a host the criterion stays as it was. With settings that can be stored, training has the same outcome as without storing them. With other settings - the check accepts max_depth=2^31 and criterion_params=[1.0, 'a'] - no training with at least one tree succeeds: it ends with that ValueError or TypeError once the first tree has been grown. Settings that were never checked can be stored by the guest exactly if the three limits are whole numbers within 32 bits or truth values (stored as 1 and 0), the impurity is a number, the criterion is a string or None (stored as the empty string) and its parameters a list of numbers or None (stored as none); a host's message never has a criterion.", "quantifier": "all settings of any type, all conversions of whole numbers to floats, all training runs", "why_tests_cant": "the settings are unbounded values of any type; the failing ones are accepted by the check and fail late, after a complete tree", "anchors": ["ml/tree/hetero_decision_tree_guest.py:HeteroDecisionTreeGuest.get_model_meta", "ml/tree/hetero_decision_tree_guest.py:HeteroDecisionTreeGuest.set_model_meta", "ml/tree/hetero_decision_tree_host.py:HeteroDecisionTreeHost.get_model_meta", "ml/param/boosting_tree_param.py:DecisionTreeParam.check"]}
{"id": "C81", "title": "Models trained on other distributions of the columns predict the same for new samples", "statement": "Two training runs with Paillier encryption have the same limits, loss, labels and columns, but the columns are held by other parties and listed in another order; keys, draws, batches and numbers of hosts differ too. New samples are distributed among the parties in the same two ways. If every decision in the first run is clear by 5e-6, and at every node all splits that are best up to that send the new samples that come there to the same side, both models give every new sample the same scores, as many as there are new samples.", "quantifier": "all pairs of runs and of tables of new samples that satisfy the conditions, of any size", "why_tests_cant": "relates two complete trainings with different keys and different parties, for every way of dividing the columns, followed by predictions on arbitrary rows", "anchors": ["ml/tree/hetero_secureboosting_tree_guest.py:HeteroSecureBoostingTreeGuest.predict", "ml/tree/hetero_decision_tree_guest.py:HeteroDecisionTreeGuest.predict", "ml/tree/hetero_secureboosting_tree_guest.py:HeteroSecureBoostingTreeGuest.fit"]}
{"id": "C82", "title": "Only the order of the values in a column matters", "statement": "Put the values of every column on another scale, one for every column: strictly increasing, zero stays zero, and the same values count as zero (below 1e-6). Binning gives the same bins, and split points that correspond to the old ones. Training gives the same nodes, scores, losses, stop flags, sample weights and feature importances, with corresponding thresholds, and the new model predicts the same scores for rescaled new samples. This holds for every encryption, rounding and tie, for tables of any size, and more generally whenever corresponding values (zero included) of training and new samples compare in the same way. It fails for shifts: adding a constant to a column can change its bins, because zeros are counted apart.", "quantifier": "all tables, changes of scale, quantile settings without abnormal values, cipher and rounding functions, numbers of parties, rounds and trees, depth limits of at least 1", "why_tests_cant": "relates two complete trainings and predictions for all tables and all increasing changes of scale", "anchors": ["ml/feature/quantile_summaries.py:QuantileSummaries.query", "ml/feature/binning/quantile_binning.py:QuantileBinning.fit_split_points", "ml/tree/hetero_decision_tree_guest.py:HeteroDecisionTreeGuest.fit", "ml/tree/hetero_decision_tree_guest.py:HeteroDecisionTreeGuest.predict", "ml/tree/hetero_secureboosting_tree_guest.py:HeteroSecureBoostingTreeGuest.fit", "ml/tree/hetero_secureboosting_tree_guest.py:HeteroSecureBoostingTreeGuest.predict"]}
{"id": "C83", "title": "Splits of trained trees separate the training samples", "statement": "In every tree that is trained, at every split, at least min_sample_split training samples come to the node, and by the raw values of the party that owns the split at least min_leaf_node of them are not above the threshold and at least min_leaf_node are above it; these are all of them. Every node but the root is reached by at least min_leaf_node training samples. No split is on a column that has the same value in all training samples. If the tree has a split, the number of leaves times min_leaf_node is at most the number of training samples. This holds with exact arithmetic of the guest, and also if every operation of the guest rounds. Predictions of a tree, and scores of a model, depend only on the columns that are split on; new samples that differ only in columns that were constant in training get the same predictions from a trained tree, and the same scores from a trained model.", "quantifier": "all tables, numbers of parties and features, depth limits, Paillier keys and random numbers for which a training run goes through, all roundings within the stated accuracy", "why_tests_cant": "about every node of every tree over all tables, keys and roundings; the counts of the code are made over bins of encrypted histograms, the claim is about raw values", "anchors": ["ml/tree/splitter.py:Splitter.find_split_single_histogram_guest", "ml/tree/splitter.py:Splitter.find_split_single_histogram_host", "ml/tree/hetero_decision_tree_guest.py:HeteroDecisionTreeGuest.fit", "ml/tree/hetero_decision_tree_guest.py:HeteroDecisionTreeGuest.predict"]}
{"id": "C84", "title": "Arrays of any dimension are decrypted elementwise, but never encrypted", "statement": "recursive_decrypt turns an array of ciphertexts, with any number of dimensions, into an array of the same shape (an array with one dimension gets a second one) that holds the encrypted numbers as floats, at the same places; a table is decrypted as one row of its values. recursive_encrypt does not work: with a public key it raises an exception for every array that has an element, a TypeError if all numbers can be encrypted, because the ciphertexts are stored as floats; for a table it always raises TypeError. Without a public key it returns NaN for every number without an exception.", "quantifier": "all numbers of dimensions, arrays and tables, Paillier keys, random numbers coprime to the modulus, integers within the plaintext range and floats up to 2^1023", "why_tests_cant": "unbounded number of dimensions and sizes, all keys and random numbers", "anchors": ["ml/secureprotol/encrypt.py:Encrypt.recursive_decrypt", "ml/secureprotol/encrypt.py:Encrypt.recursive_encrypt", "ml/secureprotol/encrypt.py:PaillierEncrypt.decrypt"]}
