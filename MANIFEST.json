{
 "claims": [
  {
   "property": "C01",
   "status": "proved",
   "theorems": [
    "ModSSC.Sampling.C01_holdout_partition"
   ],
   "note": "All n, fractions, label vectors, generators and argsort tie-breaks."
  },
  {
   "property": "C02",
   "status": "proved",
   "theorems": [
    "ModSSC.Sampling.C02_holdout_sizes"
   ],
   "note": "Exact sizes for plain and stratified splitting."
  },
  {
   "property": "C03",
   "status": "proved",
   "theorems": [
    "ModSSC.Sampling.C03_stratified_within_one"
   ],
   "note": "Both the test and the val holdout."
  },
  {
   "property": "C04",
   "status": "proved",
   "theorems": [
    "ModSSC.Sampling.C04_kfold_partition",
    "ModSSC.Sampling.C04_kfold_tests_partition",
    "ModSSC.Sampling.C04_kfold_rejects"
   ],
   "note": "Includes rejection of k < 2 and of out-of-range folds."
  },
  {
   "property": "C05",
   "status": "proved",
   "theorems": [
    "ModSSC.Sampling.C05_kfold_balanced",
    "ModSSC.Sampling.C05_kfold_class_balanced"
   ],
   "note": "Plain and stratified."
  },
  {
   "property": "C06",
   "status": "proved",
   "theorems": [
    "ModSSC.Sampling.C06_labeled_subset",
    "ModSSC.Sampling.C06_fixed_indices",
    "ModSSC.Sampling.C06_empty_train_ignores_fixed",
    "ModSSC.Sampling.C06_never_fails"
   ],
   "note": "C06_empty_train_ignores_fixed records the one exception: an empty training set returns [] before fixed_indices is checked."
  },
  {
   "property": "C07",
   "status": "proved",
   "theorems": [
    "ModSSC.Sampling.C07_exact_label_count"
   ],
   "note": "Exact count for every mode."
  },
  {
   "property": "C08",
   "status": "proved",
   "theorems": [
    "ModSSC.Sampling.C08_min_per_class"
   ],
   "note": "Lower bound and upper bound per class."
  },
  {
   "property": "C09",
   "status": "partial",
   "theorems": [
    "ModSSC.Sampling.C09_balanced_partial",
    "ModSSC.Sampling.C09_balanced_violated",
    "ModSSC.Sampling.C09_per_class_violated",
    "ModSSC.Sampling.C09_per_class_partial"
   ],
   "note": "Full claim is false of the code (C09_balanced_violated, C09_per_class_violated: the whole surplus after rounding goes to one class). The partial theorems give the conditions under which it holds."
  },
  {
   "property": "C10",
   "status": "proved",
   "theorems": [
    "ModSSC.Sampling.C10_imbalance_subset",
    "ModSSC.Sampling.C10_none",
    "ModSSC.Sampling.C10_subsample_cap",
    "ModSSC.Sampling.C10_rejects",
    "ModSSC.Sampling.C10_long_tail"
   ],
   "note": "Subset, exact caps, long-tail formula and rejection of bad parameters."
  },
  {
   "property": "C11",
   "status": "proved",
   "theorems": [
    "ModSSC.Sampling.C11_sample_partition",
    "ModSSC.Sampling.C11_validation_never_rejects"
   ],
   "note": "The final validation is shown never to reject."
  },
  {
   "property": "C12",
   "status": "proved",
   "theorems": [
    "ModSSC.Sampling.C12_official_test_respected",
    "ModSSC.Sampling.C12_otherwise_not_referenced"
   ],
   "note": "Both directions."
  },
  {
   "property": "C13",
   "status": "proved",
   "theorems": [
    "ModSSC.Sampling.C13_masks_consistent",
    "ModSSC.Sampling.C13_official_masks",
    "ModSSC.Sampling.C13_generated_masks"
   ],
   "note": "Generated and official masks."
  },
  {
   "property": "C14",
   "status": "partial",
   "theorems": [
    "ModSSC.Sampling.C14_inductive_train_capped_partial",
    "ModSSC.Sampling.C14_inductive_long_tail_partial",
    "ModSSC.Sampling.C14_graph_violated"
   ],
   "note": "Holds for inductive datasets (cap and long tail); false for graphs: C14_graph_violated."
  },
  {
   "property": "C15",
   "status": "proved",
   "theorems": [
    "ModSSC.Sampling.C15_plan_roundtrip",
    "ModSSC.Sampling.C15_roundtrip_same_sampling",
    "ModSSC.Sampling.C15_unknown_keys_rejected",
    "ModSSC.Sampling.C15_defaults"
   ],
   "note": "Round trip, same sampling, unknown keys, defaults. Integer-valued counts required for equality, because as_dict truncates."
  },
  {
   "property": "C16",
   "status": "partial",
   "theorems": [
    "ModSSC.Sampling.Storage.C16_save_load",
    "ModSSC.Sampling.Storage.C16_existing_refused",
    "ModSSC.Sampling.Storage.C16_fresh_crash_partial",
    "ModSSC.Sampling.Storage.C16_overwrite_crash_partial",
    "ModSSC.Sampling.Storage.C16_overwrite_violated",
    "ModSSC.Sampling.Storage.C16_recovery"
   ],
   "note": "Full crash-atomicity claim is false of the code: split.json is replaced before arrays.npz is rewritten (C16_overwrite_violated). Partial theorems give what every crash point guarantees; C16_recovery: a rerun repairs."
  },
  {
   "property": "C17",
   "status": "proved",
   "theorems": [
    "ModSSC.Json.C17_text_iff_same",
    "ModSSC.Json.C17_fingerprint",
    "ModSSC.Json.C17_escape_digits",
    "ModSSC.Json.C17_seed_text_injective"
   ],
   "note": "Equality of canonical text characterised exactly (iff same data up to key order). Fingerprints: under injectivity of the hash, stated as hypothesis."
  },
  {
   "property": "C18",
   "status": "proved",
   "theorems": [
    "ModSSC.Utils.C18_range",
    "ModSSC.Utils.C18_mix_bijective",
    "ModSSC.Utils.C18_state_eq_iff",
    "ModSSC.Utils.C18_sum",
    "ModSSC.Utils.C18_surjective"
   ],
   "note": "Range, bijectivity of the mixing step, and exact collision characterisation."
  },
  {
   "property": "C19",
   "status": "proved",
   "theorems": [
    "ModSSC.Utils.C19_inside_root",
    "ModSSC.Utils.C19_absolute_rejected",
    "ModSSC.Utils.C19_plain_accepted",
    "ModSSC.Utils.C19_climbing"
   ],
   "note": "Lexical resolution; symbolic links are not modelled."
  },
  {
   "property": "C20",
   "status": "proved",
   "theorems": [
    "ModSSC.Utils.C20_write_once",
    "ModSSC.Utils.C20_accept_iff",
    "ModSSC.Utils.C20_reregister_noop",
    "ModSSC.Utils.C20_listing"
   ],
   "note": "State machine over arbitrary histories."
  },
  {
   "property": "C21",
   "status": "proved",
   "theorems": [
    "ModSSC.Hpo.C21_grid_complete",
    "ModSSC.Hpo.C21_grid_distinct",
    "ModSSC.Hpo.C21_grid_only_leaves",
    "ModSSC.Hpo.C21_grid_count",
    "ModSSC.Hpo.C21_grid_total"
   ],
   "note": "Completeness, distinctness, count, exact domain of success, and that patches contain nothing but leaves."
  },
  {
   "property": "C22",
   "status": "proved",
   "theorems": [
    "ModSSC.Hpo.C22_patch_wins",
    "ModSSC.Hpo.C22_patch_mapping",
    "ModSSC.Hpo.C22_both_mappings",
    "ModSSC.Hpo.C22_base_kept",
    "ModSSC.Hpo.C22_branch_replaced",
    "ModSSC.Hpo.C22_idempotent",
    "ModSSC.Hpo.C22_key_order",
    "ModSSC.Hpo.C22_flatten",
    "ModSSC.Hpo.C22_flatten_dot_collision"
   ],
   "note": "All five cases of a key path, idempotence, key order, and the flat view for dot-free keys (C22_flatten_dot_collision shows why dot-free is needed). Absence of aliasing follows from the code's deepcopy and is not modelled."
  },
  {
   "property": "C23",
   "status": "proved",
   "theorems": [
    "ModSSC.Hpo.C23_best_trial",
    "ModSSC.Hpo.C23_always_returns",
    "ModSSC.Hpo.C23_only_method_params",
    "ModSSC.Hpo.C23_other_targets_rejected"
   ],
   "note": "Whole run_hpo loop with arbitrary objective; NaN and infinities included."
  },
  {
   "property": "C24",
   "status": "proved",
   "theorems": [
    "ModSSC.Evaluation.C24_accuracy_textbook",
    "ModSSC.Evaluation.C24_balanced_textbook",
    "ModSSC.Evaluation.C24_macro_f1_textbook",
    "ModSSC.Evaluation.C24_bounded",
    "ModSSC.Evaluation.C24_perfect_iff",
    "ModSSC.Evaluation.C24_empty",
    "ModSSC.Evaluation.C24_requested_metrics",
    "ModSSC.Evaluation.C24_metric_names"
   ],
   "note": "Each metric proved equal to its textbook formula; iff-perfect for all three; integer labels."
  },
  {
   "property": "C25",
   "status": "proved",
   "theorems": [
    "ModSSC.Evaluation.C25_order_irrelevant",
    "ModSSC.Evaluation.C25_names_irrelevant",
    "ModSSC.Evaluation.C25_onehot_same"
   ],
   "note": "Order and arbitrary injective renaming; one-hot inputs."
  },
  {
   "property": "C26",
   "status": "partial",
   "theorems": [
    "ModSSC.DataLoader.Lock.C26_mutual_exclusion_violated",
    "ModSSC.DataLoader.Lock.C26_retry_violated",
    "ModSSC.DataLoader.Lock.C26_holder_disturbed_violated",
    "ModSSC.DataLoader.Lock.C26_exclusion_partial",
    "ModSSC.DataLoader.Lock.C26_held_refuses_partial",
    "ModSSC.DataLoader.Lock.C26_stale_lock_partial"
   ],
   "note": "False of the code: the finally clause of a refused attempt unlinks the holder's lock file (three-process schedule proved as counterexample). Proved: exclusion for all schedules without a refused clean-up, including kills."
  },
  {
   "property": "C27",
   "status": "partial",
   "theorems": [
    "ModSSC.DataLoader.Store.C27_purge_order_partial",
    "ModSSC.DataLoader.Store.C27_first_download_partial",
    "ModSSC.DataLoader.Store.C27_first_download_recovers_partial",
    "ModSSC.DataLoader.Store.C27_never_mixed_partial",
    "ModSSC.DataLoader.Store.C27_force_repairs_partial",
    "ModSSC.DataLoader.Store.C27_force_violated",
    "ModSSC.DataLoader.Store.C27_purge_violated",
    "ModSSC.DataLoader.Store.C27_corrupt_healed_partial",
    "ModSSC.DataLoader.Store.C27_offline_partial"
   ],
   "note": "First downloads proved for every crash point; forced re-downloads and purges violate it (old manifest survives the cleared directory; witnesses). Never-mixed and repair theorems cover all histories."
  },
  {
   "property": "C28",
   "status": "proved",
   "theorems": [
    "ModSSC.DataLoader.Index.C28_rebuild",
    "ModSSC.DataLoader.Index.C28_refines_map",
    "ModSSC.DataLoader.Index.C28_list",
    "ModSSC.DataLoader.Index.C28_latest_manifest"
   ],
   "note": "Histories of completed operations refined to a map; SQL ORDER BY is an arbitrary order compatible with the keys."
  },
  {
   "property": "C29",
   "status": "proved",
   "theorems": [
    "ModSSC.DataLoader.Index.C29_gc_newest",
    "ModSSC.DataLoader.Index.C29_gc_files",
    "ModSSC.DataLoader.Index.C29_purge_dataset"
   ],
   "note": "All index contents, ties broken arbitrarily by the database."
  },
  {
   "property": "C30",
   "status": "proved",
   "theorems": [
    "ModSSC.DataLoader.C30_format_parse",
    "ModSSC.DataLoader.C30_accepts_iff",
    "ModSSC.DataLoader.C30_canonical"
   ],
   "note": "White space predicate arbitrary; strings as character lists."
  },
  {
   "property": "C31",
   "status": "proved",
   "theorems": [
    "ModSSC.DataLoader.C31_class_filter",
    "ModSSC.DataLoader.C31_limit_prefix",
    "ModSSC.DataLoader.C31_limit_shuffled",
    "ModSSC.DataLoader.C31_filter_then_limit"
   ],
   "note": "Statement adjusted to the code: with a seed the kept rows are in shuffled order."
  },
  {
   "property": "C32",
   "status": "proved",
   "theorems": [
    "ModSSC.Preprocess.C32_resolve",
    "ModSSC.Preprocess.C32_skip_reasons",
    "ModSSC.Preprocess.C32_unknown_step"
   ],
   "note": "Order, indices, exact skip conditions with their reasons, and exactly when resolution fails."
  },
  {
   "property": "C33",
   "status": "partial",
   "theorems": [
    "ModSSC.Preprocess.C33_purge_copy_raw_violated",
    "ModSSC.Preprocess.C33_purge_same_partial",
    "ModSSC.Preprocess.C33_purge_returns_iff_partial",
    "ModSSC.Preprocess.C33_purge_fails_violated"
   ],
   "note": "False of the code: purging drops raw.X, which the final lookup requires even when the output key is present (C33_purge_fails_violated for every plan with a step producing the output key; C33_purge_copy_raw_violated concretely). Partial theorems: whenever the purged run returns, it returns the same splits; and the exact condition for it to return."
  },
  {
   "property": "C34",
   "status": "partial",
   "theorems": [
    "ModSSC.Preprocess.C34_transparent_partial",
    "ModSSC.Preprocess.C34_transparent_after_crash_partial",
    "ModSSC.Preprocess.C34_undeclared_read_violated",
    "ModSSC.Preprocess.C34_crash_random_violated",
    "ModSSC.Preprocess.C34_incomplete_random_violated",
    "ModSSC.Preprocess.C34_crash_incomplete_violated"
   ],
   "note": "For every history of completed runs (C34_transparent_partial) and every history with failures and kills at any file operation (C34_transparent_after_crash_partial) the cached call returns or raises exactly what the uncached one does, provided steps read only what they declare, hashes do not collide, and artifacts are read back as stored; incomplete outputs and torn files are covered. False of the code otherwise, with four executable witnesses: undeclared reads (labels.to_torch), a kill inside a step that draws random numbers when transforming, a random step returning fewer artifacts than declared (no kill needed), and a kill while incomplete outputs are rewritten."
  },
  {
   "property": "C35",
   "status": "partial",
   "theorems": [
    "ModSSC.Preprocess.C35_names_distinct_partial",
    "ModSSC.Preprocess.C35_save_load_partial",
    "ModSSC.Preprocess.C35_manifest_partial",
    "ModSSC.Preprocess.C35_names_collide_violated"
   ],
   "note": "Proved for keys made of letters, digits, '.', '_' and '-' without '__' (all keys of the built-in steps, checked). False in general: C35_names_collide_violated gives two keys stored under one name."
  },
  {
   "property": "C36",
   "status": "proved",
   "theorems": [
    "ModSSC.Labels.C36_encode",
    "ModSSC.Labels.C36_order",
    "ModSSC.Labels.C36_unique"
   ],
   "note": "Labels are values of an arbitrary linear order. C36_unique shows the specification pins the encoding down."
  },
  {
   "property": "C37",
   "status": "partial",
   "theorems": [
    "ModSSC.Preprocess.Tokens.C37_hash_partial",
    "ModSSC.Preprocess.Tokens.C37_hash_small_violated",
    "ModSSC.Preprocess.Tokens.C37_vocab_partial",
    "ModSSC.Preprocess.Tokens.C37_vocab_pad_violated"
   ],
   "note": "Tokens are given (the regular expression that splits text is not modelled). False for vocab_size below 3 and for the pad/unk handling shown in C37_vocab_pad_violated."
  },
  {
   "property": "C38",
   "status": "partial",
   "theorems": [
    "ModSSC.Labels.C38_clamp",
    "ModSSC.Labels.C38_supervised_partial",
    "ModSSC.Labels.C38_supervised_modulo_partial",
    "ModSSC.Labels.C38_negative_violated",
    "ModSSC.Labels.C38_utils_partial",
    "ModSSC.Labels.C38_hard_clamp",
    "ModSSC.Labels.C38_ensure_onehot"
   ],
   "note": "Transductive operator and the one-hot preprocessing step proved for all inputs. False for negative labels in supervised.utils.onehot and in the method utilities: -1 is taken for the last class; C38_supervised_modulo_partial describes the code on all integers."
  },
  {
   "property": "C39",
   "status": "proved",
   "theorems": [
    "ModSSC.Graph.C39_weighted",
    "ModSSC.Graph.C39_unweighted",
    "ModSSC.Graph.C39_modes"
   ],
   "note": "Edges are given with end points inside the graph (ValidEdges); the code clips other node ids. Weights in an arbitrary ordered field; the symmetric weight is the average of the (maximum) weights of the two directions, or the weight of the only direction present."
  },
  {
   "property": "C40",
   "status": "proved",
   "theorems": [
    "ModSSC.Graph.C40_add",
    "ModSSC.Graph.C40_idempotent"
   ],
   "note": "Proved for all edge lists with end points inside the graph; added loops carry the caller-given weight; idempotent."
  },
  {
   "property": "C41",
   "status": "proved",
   "theorems": [
    "ModSSC.Graph.C41_rw",
    "ModSSC.Graph.C41_sym",
    "ModSSC.Graph.C41_modes"
   ],
   "note": "Weights in an arbitrary ordered field. rw: outgoing sums equal 1 (exactly when the sum is at least eps, otherwise sum/eps); sym: each weight divided by the square roots of both out-sums, symmetric input stays symmetric. The square root is a parameter with its defining law (met by Real.sqrt)."
  },
  {
   "property": "C42",
   "status": "proved",
   "theorems": [
    "ModSSC.Graph.C42_knn",
    "ModSSC.Graph.C42_epsilon"
   ],
   "note": "numpy backend, points of equal dimension, exact arithmetic in an ordered field; argpartition, argsort and sqrt enter by contract (NumpyExt.Lawful), with lawful instances over Rat-like demo data and over the reals."
  },
  {
   "property": "C43",
   "status": "proved",
   "theorems": [
    "ModSSC.Graph.C43_resume",
    "ModSSC.Graph.C43_chunk_size",
    "ModSSC.Graph.C43_other_input"
   ],
   "note": "Work directory reached by any history of interrupted runs on the same input; C43_other_input shows that work files are not tied to the input, so a work directory shared by different inputs returns stale chunks (build_graph avoids this by using one directory per fingerprint, C73)."
  },
  {
   "property": "C44",
   "status": "proved",
   "theorems": [
    "ModSSC.Graph.C44_roundtrip",
    "ModSSC.Graph.C44_outside"
   ],
   "note": "C44_outside documents what happens outside the property: negative shard sizes lose edges, overwrite=False can keep stale weights."
  },
  {
   "property": "C45",
   "status": "partial",
   "theorems": [
    "ModSSC.Graph.C45_new_entry",
    "ModSSC.Graph.C45_overwrite_partial",
    "ModSSC.Graph.C45_overwrite_violated"
   ],
   "note": "New entries are proved. For overwriting, directory clearing order matters: C45_overwrite_violated gives a crash point after which the manifest exists but the edge file is gone; C45_overwrite_partial proves the claim when the manifest is removed first."
  },
  {
   "property": "C46",
   "status": "proved",
   "theorems": [
    "ModSSC.Graph.C46_masks"
   ],
   "note": "One-dimensional index arrays."
  },
  {
   "property": "C47",
   "status": "proved",
   "theorems": [
    "ModSSC.Graph.C47_roundtrip",
    "ModSSC.Graph.C47_fingerprint",
    "ModSSC.Graph.C47_accepted",
    "ModSSC.Graph.C47_accepted_featurizer",
    "ModSSC.Graph.C47_empty_dict"
   ],
   "note": "k, radius, n_anchors, sigma and view names are arbitrary Python values in the round trip, scalars in the fingerprint theorem. C47_empty_dict documents that an empty dictionary does not give the default builder spec. Numeric strings are not modelled."
  },
  {
   "property": "C48",
   "status": "partial",
   "theorems": [
    "ModSSC.Graph.C48_transparent_partial",
    "ModSSC.Graph.C48_shape",
    "ModSSC.Graph.C48_fallback",
    "ModSSC.Graph.C48_features_violated",
    "ModSSC.Graph.C48_weights_violated"
   ],
   "note": "Partial: dense features and the hash of the entry key taken as collision free; structural embeddings are an external function. Transparent when only labels or masks differ. Refuted: datasets that differ in features (when the raw fingerprint in meta coincides) or in edge weights share an entry."
  },
  {
   "property": "C49",
   "status": "proved",
   "theorems": [
    "ModSSC.Views.C49_views",
    "ModSSC.Views.C49_partition",
    "ModSSC.Views.C49_returns"
   ],
   "note": "Proved for every dataset on which generation returns; the success condition is an iff. Contract: the generator's choice without replacement returns distinct positions in range."
  },
  {
   "property": "C50",
   "status": "proved",
   "theorems": [
    "ModSSC.Supervised.C50_votes",
    "ModSSC.Supervised.C50_distribution",
    "ModSSC.Supervised.C50_returns",
    "ModSSC.Supervised.C50_predict",
    "ModSSC.Supervised.C50_batch",
    "ModSSC.Supervised.C50_needs_positive_batch"
   ],
   "note": "Votes are the weights of the k nearest training rows by exact distance; rows are distributions; predict returns the first class of maximal share; independent of the batch size and of the other query rows. Contract assumption: np.argpartition returns a k-smallest selection (sortPart shows one exists). C50_needs_positive_batch shows the empty result of a negative batch size."
  },
  {
   "property": "C51",
   "status": "proved",
   "theorems": [
    "ModSSC.Supervised.C51_unavailable",
    "ModSSC.Supervised.C51_auto",
    "ModSSC.Supervised.C51_explicit",
    "ModSSC.Supervised.C51_params",
    "ModSSC.Supervised.C51_lstm"
   ],
   "note": "C51_auto assumes no preferred backend is the empty string (true of every builtin). C51_params covers all classifiers but lstm_scratch; C51_lstm covers its aliases. import of the factory and construction are not modelled. C51_unavailable: asking for a backend that is not installed raises and names the missing extra."
  },
  {
   "property": "C52",
   "status": "proved",
   "theorems": [
    "ModSSC.Transductive.C52_needs_nonnegative_weights",
    "ModSSC.Transductive.C52_labeled",
    "ModSSC.Transductive.C52_stochastic",
    "ModSSC.Transductive.C52_substochastic",
    "ModSSC.Transductive.C52_support"
   ],
   "note": "Proved over any linear ordered field, so over exact arithmetic. C52_needs_nonnegative_weights shows that negative weights, which the code accepts, break the distribution claim."
  },
  {
   "property": "C53",
   "status": "partial",
   "theorems": [
    "ModSSC.Transductive.C53_validation",
    "ModSSC.Transductive.C53_accepts",
    "ModSSC.Transductive.C53_accepts_spreading",
    "ModSSC.Transductive.C53_columns_partial",
    "ModSSC.Transductive.C53_missing_class_violated",
    "ModSSC.Transductive.C53_empty_violated"
   ],
   "note": "C53_validation gives the exact meaning of validation, C53_accepts the exact set of accepted datasets. The property as stated is violated: a validated dataset with a class that only unlabeled nodes have is refused (C53_missing_class_violated), as is an empty dataset (C53_empty_violated)."
  },
  {
   "property": "C54",
   "status": "proved",
   "theorems": [
    "ModSSC.Transductive.C54_reachable",
    "ModSSC.Transductive.C54_minimum",
    "ModSSC.Transductive.C54_returns"
   ],
   "note": "scipy's maximum_flow is a parameter with a recorded contract (Feasible, Maximum); solver_exists shows that the contract can be met. Capacities are unbounded integers."
  },
  {
   "property": "C55",
   "status": "proved",
   "theorems": [
    "ModSSC.Inductive.C55_pseudo_label",
    "ModSSC.Inductive.C55_self_training"
   ],
   "note": "pseudo_label.py and self_training.py, both backends through one model. The classifier is an arbitrary state machine constrained only by output shapes (Clf.Shapes). Proved for every run that returns: one relation per round (fit on the current training set, top selection, move), conservation of samples at every classifier fit, prefix property of given labels, round and call bounds, reason for stopping. max_new_labels negative (Python slice from the end) is outside the theorem."
  },
  {
   "property": "C56",
   "status": "proved",
   "theorems": [
    "ModSSC.Inductive.C56_confident",
    "ModSSC.Inductive.C56_per_class"
   ],
   "note": "select_confident and select_top_per_class for numpy (any argsort) and torch (any topk). max_new and k_per_class must be nonnegative; scores are exact rationals without NaN."
  },
  {
   "property": "C57",
   "status": "partial",
   "theorems": [
    "ModSSC.Inductive.C57_agreed_column_partial",
    "ModSSC.Inductive.C57_agreed_label_partial",
    "ModSSC.Inductive.C57_agreed_label_violated",
    "ModSSC.Inductive.C57_agreed_label_bootstrap_violated",
    "ModSSC.Inductive.C57_own"
   ],
   "note": "Partial: the pseudo-label is the column both peers rank first, and equals both peers' label when the class list of each is 0..C-1 (SortedClasses contract). Refuted in general: with string-like/shifted integer labels the column number is stored instead of the label, and a bootstrap that misses a class makes equal columns mean different labels. Bootstrap draws enter as lists. C57_own: each classifier object stays its own (whatever training keeps of classifier i holds of classifier i after fit)."
  },
  {
   "property": "C58",
   "status": "proved",
   "theorems": [
    "ModSSC.Inductive.C58_co_training"
   ],
   "note": "co_training.py fit, both backends through one model (any argsort / any topk). View payload shape checks are not modelled; k_per_class nonnegative."
  },
  {
   "property": "C59",
   "status": "proved",
   "theorems": [
    "ModSSC.Bench.C59_limited",
    "ModSSC.Bench.C59_bound",
    "ModSSC.Bench.C59_others",
    "ModSSC.Bench.C59_report",
    "ModSSC.Bench.C59_idempotent",
    "ModSSC.Bench.C59_missing",
    "ModSSC.Bench.C59_resolve"
   ],
   "note": "Configurations are plain data without shared parts; dataset.options is a mapping, null or missing (guaranteed by the schema check that runs before). int() on text is a parameter."
  },
  {
   "property": "C60",
   "status": "proved",
   "theorems": [
    "ModSSC.Bench.C60_seeds",
    "ModSSC.Bench.C60_others",
    "ModSSC.Bench.C60_absent",
    "ModSSC.Bench.C60_last",
    "ModSSC.Bench.C60_list",
    "ModSSC.Bench.C60_distinct"
   ],
   "note": "deepcopy is the value itself (plain data). Also: accepted seed lists, consecutive seeds for a run count, distinct names."
  },
  {
   "property": "C61",
   "status": "partial",
   "theorems": [
    "ModSSC.Bench.C61_rows",
    "ModSSC.Bench.C61_aligned",
    "ModSSC.Bench.C61_negative",
    "ModSSC.Bench.C61_mapping",
    "ModSSC.Bench.C61_edges",
    "ModSSC.Bench.C61_mapping_accepts",
    "ModSSC.Bench.C61_empty_violated"
   ],
   "note": "Arrays and tensors are lists of rows. torch_geometric's subgraph is modelled by its documented contract. C61_mapping_accepts: a mapping whose entries all reach the requested rows is accepted. C61_empty_violated: selecting no rows from a mapping with a 0-dimensional entry raises, although selecting any row succeeds."
  },
  {
   "property": "C62",
   "status": "partial",
   "theorems": [
    "ModSSC.Augment.C62_function_partial",
    "ModSSC.Augment.C62_strategy_partial",
    "ModSSC.Augment.C62_contexts",
    "ModSSC.Augment.C62_torch_violated"
   ],
   "note": "C62_function_partial / C62_strategy_partial: a pipeline's result is a function of sample and context, independent of the process state, except swap noise on torch tensors (C62_torch_violated: it uses torch's global generator). C62_contexts: the hashed text determines seed, epoch and sample id. The hash, default_rng and seeded torch generators are arbitrary functions."
  },
  {
   "property": "C63",
   "status": "proved",
   "theorems": [
    "ModSSC.Augment.C63_token_swap_once",
    "ModSSC.Augment.C63_token_swap_short",
    "ModSSC.Augment.C63_gaussian_noise",
    "ModSSC.Augment.C63_word_dropout",
    "ModSSC.Augment.C63_random_swap",
    "ModSSC.Augment.C63_per_item",
    "ModSSC.Augment.C63_token_mask",
    "ModSSC.Augment.C63_token_swap",
    "ModSSC.Augment.C63_edge_dropout",
    "ModSSC.Augment.C63_drop_entries",
    "ModSSC.Augment.C63_time_shift",
    "ModSSC.Augment.C63_swap_noise"
   ],
   "note": "One theorem per text, graph, tabular and audio operation, for any generator that satisfies numpy's range contracts (Gen.Lawful). Gaussian noise has no property here beyond C62."
  },
  {
   "property": "C64",
   "status": "proved",
   "theorems": [
    "ModSSC.Hpo.C64_random_inside",
    "ModSSC.Hpo.C64_random_rejects"
   ],
   "note": "Contract of numpy draws and exp/log stated in Draw.Lawful; floating-point rounding not modelled."
  },
  {
   "property": "C65",
   "status": "proved",
   "theorems": [
    "ModSSC.DataLoader.Store.C65_store_load",
    "ModSSC.DataLoader.Store.C65_files_distinct"
   ],
   "note": "Mask names containing path separators are outside the model (np.save would fail)."
  },
  {
   "property": "C66",
   "status": "proved",
   "theorems": [
    "ModSSC.DataLoader.C66_report_partition",
    "ModSSC.DataLoader.C66_always_returns",
    "ModSSC.DataLoader.C66_extras_grouped",
    "ModSSC.DataLoader.C66_selection"
   ],
   "note": "The single download is an arbitrary state transformer."
  },
  {
   "property": "C67",
   "status": "proved",
   "theorems": [
    "ModSSC.DataLoader.C67_rebase",
    "ModSSC.DataLoader.C67_rebase_idempotent"
   ],
   "note": "Paths as component lists."
  },
  {
   "property": "C68",
   "status": "partial",
   "theorems": [
    "ModSSC.Preprocess.C68_other_datasets_partial",
    "ModSSC.Preprocess.C68_same_shape_violated"
   ],
   "note": "Proved if datasets in use have different fingerprints. False for datasets without a recorded fingerprint: the fallback only looks at shapes."
  },
  {
   "property": "C72",
   "status": "partial",
   "theorems": [
    "ModSSC.Labels.C72_same_ids_partial",
    "ModSSC.Labels.C72_missing_class_violated"
   ],
   "note": "Proved when both splits contain the same label values. False when a class is missing from a split, because every split is encoded on its own."
  },
  {
   "property": "C73",
   "status": "partial",
   "theorems": [
    "ModSSC.Graph.C73_edges",
    "ModSSC.Graph.C73_transparent",
    "ModSSC.Graph.C73_concurrent_violated"
   ],
   "note": "C73_transparent covers all sequential histories, one backend, for inputs whose fingerprints differ (injectivity of the hash is a hypothesis). C73_concurrent_violated: when a second process that also missed the cache overwrites a finished entry and is killed, every later call raises."
  },
  {
   "property": "C74",
   "status": "partial",
   "theorems": [
    "ModSSC.Graph.C74_identifies_partial",
    "ModSSC.Graph.C74_large_violated"
   ],
   "note": "Dense branch. The byte view keeps the matrix shape, so max_bytes slices rows, not bytes: identification is proved up to 2*max_bytes rows and refuted beyond."
  },
  {
   "property": "C75",
   "status": "partial",
   "theorems": [
    "ModSSC.Graph.C75_scipy_partial",
    "ModSSC.Graph.C75_repeated_violated"
   ],
   "note": "Partial: equal when no edge is repeated. Refuted for repeated edges: the dense adjacency overwrites, the sparse one adds."
  },
  {
   "property": "C76",
   "status": "proved",
   "theorems": [
    "ModSSC.Graph.C76_range"
   ],
   "note": "Exact rational arithmetic, both adjacency paths without repeated edges as in the model."
  },
  {
   "property": "C77",
   "status": "proved",
   "theorems": [
    "ModSSC.Graph.C77_walks",
    "ModSSC.Graph.C77_counts",
    "ModSSC.Graph.C77_walk_counts",
    "ModSSC.Graph.C77_bias"
   ],
   "note": "numpy choice enters as a function returning an item of its list. The PPMI matrix and SVD are not modelled."
  },
  {
   "property": "C78",
   "status": "partial",
   "theorems": [
    "ModSSC.Graph.C78_streams_partial",
    "ModSSC.Graph.C78_shifted_violated"
   ],
   "note": "Partial: the 64-bit mixer is injective in seed+salt, so walks of one run get different 64-bit states; truncation to 32 bits can still collide. Refuted across seeds: walk w+1 under seed s is walk w under seed s+1."
  },
  {
   "property": "C80",
   "status": "partial",
   "theorems": [
    "ModSSC.Inductive.C80_co_unnamed_partial",
    "ModSSC.Inductive.C80_co_rows_partial",
    "ModSSC.Inductive.C80_co_rows_violated",
    "ModSSC.Inductive.C80_tri_unnamed_partial",
    "ModSSC.Inductive.C80_tri_proba",
    "ModSSC.Inductive.C80_tri_predict_partial",
    "ModSSC.Inductive.C80_co_predict_partial",
    "ModSSC.Inductive.C80_co_disagree",
    "ModSSC.Inductive.C80_tri_unnamed",
    "ModSSC.Inductive.C80_labels_violated",
    "ModSSC.Inductive.C80_negative_sum_violated"
   ],
   "note": "Partial: proved when the classifiers share the class list and the sum of mean scores is not negative; tri-training probabilities are proved for all class lists. Refuted: tri-training maps the aligned column through the first classifier's classes (wrong label or IndexError); decision values with negative sum flip the order. C80_co_unnamed_partial, C80_co_rows_partial, C80_tri_unnamed_partial: classifiers without class lists and row counts; C80_co_rows_violated: a view with a single row is broadcast against the other view instead of being refused."
  },
  {
   "property": "C81",
   "status": "partial",
   "theorems": [
    "ModSSC.Inductive.C81_single_partial",
    "ModSSC.Inductive.C81_tri_partial",
    "ModSSC.Inductive.C81_co_partial",
    "ModSSC.Inductive.C81_decision_values_violated"
   ],
   "note": "Partial: distributions in, distributions out (any class lists). Refuted for decision values. Exact arithmetic."
  },
  {
   "property": "C82",
   "status": "proved",
   "theorems": [
    "ModSSC.Inductive.C82_allocation"
   ],
   "note": "Exact rational arithmetic instead of float64."
  },
  {
   "property": "C83",
   "status": "proved",
   "theorems": [
    "ModSSC.Inductive.C83_setred_run",
    "ModSSC.Inductive.C83_setred_rng"
   ],
   "note": "z, sqrt, edge weights and distances are parameters; the graph is any function meeting GraphOf, instantiated for the relative neighbourhood graph with symmetric distances (C83_setred_rng). Classifier is external (Clf.Shapes)."
  },
  {
   "property": "C84",
   "status": "partial",
   "theorems": [
    "ModSSC.Inductive.C84_rng_graph",
    "ModSSC.Inductive.C84_knn_graph_partial",
    "ModSSC.Inductive.C84_knn_self_violated"
   ],
   "note": "rng graph proved for every symmetric distance. knn graph proved when different points have positive distance; with duplicate points a point may become its own neighbour (C84_knn_self_violated)."
  },
  {
   "property": "C86",
   "status": "proved",
   "theorems": [
    "ModSSC.Transductive.C86_rows",
    "ModSSC.Transductive.C86_support"
   ],
   "note": "Numpy computation over a linear ordered field."
  },
  {
   "property": "C87",
   "status": "proved",
   "theorems": [
    "ModSSC.Transductive.C87_random_walk",
    "ModSSC.Transductive.C87_residual",
    "ModSSC.Transductive.C87_solution",
    "ModSSC.Transductive.C87_symmetric",
    "ModSSC.Transductive.C87_symmetric_real"
   ],
   "note": "Numpy computation over a linear ordered field; C87_symmetric_real instantiates the symmetric mode with the real square root."
  },
  {
   "property": "C88",
   "status": "partial",
   "theorems": [
    "ModSSC.Transductive.C88_columns_partial",
    "ModSSC.Transductive.C88_class_ids_violated"
   ],
   "note": "Proved for labeled classes 0 and 1. Violated otherwise: with labeled classes 0 and 2 the labeled nodes of class 2 get column 1 (C88_class_ids_violated)."
  },
  {
   "property": "C89",
   "status": "partial",
   "theorems": [
    "ModSSC.Supervised.C89_history_partial",
    "ModSSC.Supervised.C89_failed_fit_violated"
   ],
   "note": "C89_history_partial: after any history the state left by a successful fit is that of a fresh classifier fitted on the same data, and predictions raise while no fit succeeded. C89_failed_fit_violated: a refit rejected for its label count has already overwritten classes_, so later predictions are labels the retained training set does not have."
  },
  {
   "property": "C90",
   "status": "partial",
   "theorems": [
    "ModSSC.Supervised.C90_register",
    "ModSSC.Supervised.C90_register_backend",
    "ModSSC.Supervised.C90_bootstrap",
    "ModSSC.Supervised.C90_stable_partial",
    "ModSSC.Supervised.C90_order_violated"
   ],
   "note": "C90_stable_partial: any history only extends the registry. C90_order_violated: registering a backend for a builtin before the first use raises, after it succeeds; registering a builtin backend first makes every later use raise. C90_register, C90_register_backend and C90_bootstrap: what one registration adds and when it is refused."
  },
  {
   "property": "C91",
   "status": "partial",
   "theorems": [
    "ModSSC.Views.C91_meta_partial",
    "ModSSC.Views.C91_shared_violated"
   ],
   "note": "Holds when the input has no view metadata. Violated otherwise: the dictionary of the input is changed in place and shared by the views (witness C91_shared_violated)."
  },
  {
   "property": "C92",
   "status": "partial",
   "theorems": [
    "ModSSC.Bench.C92_effective_partial",
    "ModSSC.Bench.C92_null_violated"
   ],
   "note": "Holds unless the configuration has an explicit null, boolean or non-numeric entry; explicit null is kept, which means no limit (witness C92_null_violated)."
  },
  {
   "property": "C93",
   "status": "partial",
   "theorems": [
    "ModSSC.Bench.C93_sections_partial",
    "ModSSC.Bench.C93_plain_violated"
   ],
   "note": "Violated: the sweep writes the seed itself into each section, a plain run derives a section seed by hashing. Partial: what a sweep run uses."
  },
  {
   "property": "C94",
   "status": "partial",
   "theorems": [
    "ModSSC.Bench.C94_short_partial",
    "ModSSC.Bench.C94_weights_violated"
   ],
   "note": "Violated by per-edge entries at least as long as the largest index (witness). Partial: shorter entries are kept."
  },
  {
   "property": "C95",
   "status": "proved",
   "theorems": [
    "ModSSC.Augment.C95_flip",
    "ModSSC.Augment.C95_cutout",
    "ModSSC.Augment.C95_crop"
   ],
   "note": "Flip, cutout and padded crop for numpy and torch layouts; pixel dtype conversions are not modelled."
  },
  {
   "property": "C96",
   "status": "partial",
   "theorems": [
    "ModSSC.Augment.C96_layout_partial",
    "ModSSC.Augment.C96_layout_violated"
   ],
   "note": "Partial: agreement is proved for 1, 3 or 4 channels and more than 4 rows and columns; refuted for two channels first."
  },
  {
   "property": "C97",
   "status": "partial",
   "theorems": [
    "ModSSC.Augment.C97_requests_partial",
    "ModSSC.Augment.C97_listing_partial",
    "ModSSC.Augment.C97_plan",
    "ModSSC.Augment.C97_plan_accepted_partial",
    "ModSSC.Augment.C97_override_violated",
    "ModSSC.Augment.C97_retry_violated",
    "ModSSC.Augment.C97_modality_violated"
   ],
   "note": "Partial: proved for programs that register no own class under a built-in id (C97_requests_partial, C97_listing_partial); C97_plan holds for every registry. Refuted: own class under a built-in id makes the module's other operations unavailable (C97_override_violated), a failed request can succeed when repeated (C97_retry_violated), and a step's own modality parameter defeats the plan check (C97_modality_violated)."
  },
  {
   "property": "C98",
   "status": "partial",
   "theorems": [
    "ModSSC.Augment.C98_rows_partial",
    "ModSSC.Augment.C98_two_edges_violated"
   ],
   "note": "Partial: holds unless there are exactly two edges; refuted there."
  },
  {
   "property": "C99",
   "status": "partial",
   "theorems": [
    "ModSSC.Transductive.C99_labeled",
    "ModSSC.Transductive.C99_harmonic_partial",
    "ModSSC.Transductive.C99_bounds",
    "ModSSC.Transductive.C99_distribution_partial",
    "ModSSC.Transductive.C99_solvable_partial",
    "ModSSC.Transductive.C99_self_loop_violated"
   ],
   "note": "Labels, bounds for both backends and all graphs; averages, distributions and solvability for torch on all graphs and for numpy on graphs without self-loops at unlabeled nodes. Violated for numpy with self-loops: the loop weight is in the diagonal of the Laplacian but not removed, so scores shrink and unreachable nodes get zero rows silently (C99_self_loop_violated). np.linalg.solve / torch.linalg.solve enter as an exact solver contract; arithmetic is exact over any ordered field."
  },
  {
   "property": "C100",
   "status": "partial",
   "theorems": [
    "ModSSC.Transductive.C100_scores",
    "ModSSC.Transductive.C100_accepts",
    "ModSSC.Transductive.C100_component",
    "ModSSC.Transductive.C100_columns_partial",
    "ModSSC.Transductive.C100_columns_violated"
   ],
   "note": "Proved for all inputs except the claim on columns, which holds when the classes are 0 and 1 (C100_columns_partial) and is false when the two labeled classes are others (C100_columns_violated: a node labeled 1 gets its score in column 0). Square root and linear solver are exact contracts, met by the reals."
  },
  {
   "property": "C101",
   "status": "proved",
   "theorems": [
    "ModSSC.Transductive.C101_residual",
    "ModSSC.Transductive.C101_converges",
    "ModSSC.Transductive.C101_exact",
    "ModSSC.Transductive.C101_improves",
    "ModSSC.Transductive.C101_breakdown"
   ],
   "note": "Proved for all sizes and operators over any ordered field with an exact square root (the reals). C101_breakdown shows why positivity is needed: on an indefinite system the solver stops at once, without claiming convergence."
  },
  {
   "property": "C102",
   "status": "partial",
   "theorems": [
    "ModSSC.Transductive.C102_system",
    "ModSSC.Transductive.C102_solves_partial",
    "ModSSC.Transductive.C102_exact_partial",
    "ModSSC.Transductive.C102_proba_violated",
    "ModSSC.Transductive.C102_rw_violated",
    "ModSSC.Transductive.C102_accepts",
    "ModSSC.Transductive.C102_missing_class_violated",
    "ModSSC.Transductive.C102_unweighted_violated"
   ],
   "note": "Shape, residual and iteration bound hold for every accepted run (C102_system). The equation is solved up to tol for symmetric graphs with the symmetric Laplacian, eps > 0 and max_iter >= n (C102_solves_partial, C102_exact_partial); for the random-walk Laplacian this fails (C102_rw_violated: three rounds on a path of three nodes leave an error above tol, and a result is returned). C102_accepts says exactly which datasets are accepted; a class without labeled node is refused (C102_missing_class_violated), a graph without weights is refused by the torch backend only (C102_unweighted_violated), and the rows predict_proba returns sum to zero (C102_proba_violated)."
  },
  {
   "property": "C103",
   "status": "partial",
   "theorems": [
    "ModSSC.Transductive.C103_rounds",
    "ModSSC.Transductive.C103_labeled",
    "ModSSC.Transductive.C103_scores",
    "ModSSC.Transductive.C103_component",
    "ModSSC.Transductive.C103_accepts",
    "ModSSC.Transductive.C103_proba_violated"
   ],
   "note": "C103_rounds is the exact refinement to a matrix iteration, for every selection among tied neighbours; C103_labeled, C103_scores, C103_component and C103_accepts are proved for all inputs. The last sentence fails: C103_proba_violated (a node with score 43/20)."
  },
  {
   "property": "C104",
   "status": "proved",
   "theorems": [
    "ModSSC.Transductive.C104_proba",
    "ModSSC.Transductive.C104_harmonic",
    "ModSSC.Transductive.C104_newton",
    "ModSSC.Transductive.C104_isolated",
    "ModSSC.Transductive.C104_accepts"
   ],
   "note": "Exact arithmetic; square root, exponential and |d|**(p-2) are parameters with contracts RootLaw, ExpLaw, PowLaw (met by the real functions). C104_proba, C104_accepts and C104_isolated need no assumption on the solver; C104_harmonic and C104_newton assume symmetrize, non-negative weights, eps > 0 and cg_max_iter >= n. A masked node whose label is negative keeps a zero row."
  },
  {
   "property": "C105",
   "status": "partial",
   "theorems": [
    "ModSSC.Transductive.C105_run",
    "ModSSC.Transductive.C105_residual",
    "ModSSC.Transductive.C105_onehot",
    "ModSSC.Transductive.C105_unreached",
    "ModSSC.Transductive.C105_conserve",
    "ModSSC.Transductive.C105_accepts",
    "ModSSC.Transductive.C105_labels_violated",
    "ModSSC.Transductive.C105_proba_violated"
   ],
   "note": "C105_run: refinement of the array code by a recursion on functions (weights usedWeight, sources, mboRound). C105_residual, C105_onehot, C105_unreached, C105_conserve, C105_accepts. C105_labels_violated: star graph, all nodes labeled, class 0 disappears although its target volume is 1/2. C105_proba_violated: Nouter = 0 gives negative rows summing to 0. Exact arithmetic instead of float32."
  },
  {
   "property": "C106",
   "status": "proved",
   "theorems": [
    "ModSSC.Deep.C106_accepts",
    "ModSSC.Deep.C106_epochs"
   ],
   "note": "Proved for all lawful randperm. Number of batches is computed with floats in the code, exactly in the model."
  },
  {
   "property": "C107",
   "status": "partial",
   "theorems": [
    "ModSSC.Deep.C107_accepts",
    "ModSSC.Deep.C107_order",
    "ModSSC.Deep.C107_dist_partial",
    "ModSSC.Deep.C107_effect",
    "ModSSC.Deep.C107_pseudo",
    "ModSSC.Deep.C107_dist_violated"
   ],
   "note": "Power function and argmax by contract; real power shown to satisfy it. Mass 1 fails when the powers sum below 1e-12 (C107_dist_violated)."
  },
  {
   "property": "C108",
   "status": "partial",
   "theorems": [
    "ModSSC.Deep.C108_rows",
    "ModSSC.Deep.C108_labels",
    "ModSSC.Deep.C108_graph_partial",
    "ModSSC.Deep.C108_graph_violated",
    "ModSSC.Deep.C108_empty",
    "ModSSC.Deep.C108_mode_partial",
    "ModSSC.Deep.C108_mode_violated",
    "ModSSC.Deep.C108_unfitted",
    "ModSSC.Deep.C108_freeze"
   ],
   "note": "Violated: graph predictions depend on the batch size; the model stays in eval mode after an exception; predict on an empty input raises (C108_empty)."
  },
  {
   "property": "C109",
   "status": "partial",
   "theorems": [
    "ModSSC.Deep.C109_accepts",
    "ModSSC.Deep.C109_slice_partial",
    "ModSSC.Deep.C109_whole",
    "ModSSC.Deep.C109_weights_violated",
    "ModSSC.Deep.C109_concat",
    "ModSSC.Deep.C109_concat_weights",
    "ModSSC.Deep.C109_concat_extra",
    "ModSSC.Deep.C109_concat_keys",
    "ModSSC.Deep.C109_concat_violated"
   ],
   "note": "Violated: edge weights are copied unsliced or indexed by node when cutting a batch; concatenation misaligns weights when only some blocks have them and drops all edges when mixed with a plain tensor."
  },
  {
   "property": "C110",
   "status": "partial",
   "theorems": [
    "ModSSC.Deep.C110_curriculum",
    "ModSSC.Deep.C110_threshold",
    "ModSSC.Deep.C110_positions_partial",
    "ModSSC.Deep.C110_positions_violated",
    "ModSSC.Deep.C110_refit_violated"
   ],
   "note": "Violated: negative or duplicate positions are accepted when ulb_size is given (a negative one writes to the end of the pool); a second fit starts from the state of the first. Partial: positions theorem says exactly what is accepted."
  },
  {
   "property": "C111",
   "status": "partial",
   "theorems": [
    "ModSSC.Deep.C111_state",
    "ModSSC.Deep.C111_mask",
    "ModSSC.Deep.C111_threshold",
    "ModSSC.Deep.C111_refit_violated"
   ],
   "note": "Quantile and argmax by contract. Violated: state survives a second fit."
  },
  {
   "property": "C112",
   "status": "partial",
   "theorems": [
    "ModSSC.Deep.C112_state",
    "ModSSC.Deep.C112_aligned_partial",
    "ModSSC.Deep.C112_aligned_violated",
    "ModSSC.Deep.C112_refit_violated",
    "ModSSC.Deep.C112_relative",
    "ModSSC.Deep.C112_weight",
    "ModSSC.Deep.C112_stats",
    "ModSSC.Deep.C112_class_violated"
   ],
   "note": "Violated: rows aligned to a learned target can sum to less than one (1e-12 floor); state survives a second fit; in per-class mode classes with fewer than two samples in a batch have their running mean pulled to zero."
  },
  {
   "property": "C113",
   "status": "partial",
   "theorems": [
    "ModSSC.Deep.C113_targets_partial",
    "ModSSC.Deep.C113_bias_violated"
   ],
   "note": "Violated: the correction uses alpha^(epoch+1) after only epoch updates, so targets are zero in the first epoch and sum to (1-alpha^k)/(1-alpha^(k+1)) < 1 in epoch k (proved for all trainings)."
  },
  {
   "property": "C114",
   "status": "partial",
   "theorems": [
    "ModSSC.Deep.C114_mixup",
    "ModSSC.Deep.C114_targets",
    "ModSSC.Deep.C114_onehot",
    "ModSSC.Deep.C114_seed_violated"
   ],
   "note": "Beta sampler and randperm by contract. Violated: the mixing weights come from the global torch generator, not from the seeded one."
  },
  {
   "property": "C115",
   "status": "proved",
   "theorems": [
    "ModSSC.Deep.C115_warmup",
    "ModSSC.Deep.C115_teacher"
   ],
   "note": "Proved for parameters; buffers (batch norm statistics) are not averaged by the code and not modelled."
  },
  {
   "property": "C116",
   "status": "partial",
   "theorems": [
    "ModSSC.Deep.C116_scores",
    "ModSSC.Deep.C116_bounds",
    "ModSSC.Deep.C116_select",
    "ModSSC.Deep.C116_majority",
    "ModSSC.Deep.C116_monotone_violated"
   ],
   "note": "Rationals; argmax by contract. Violated: with no confident majority prediction the share is taken as one, so the thresholds of the other classes drop to their minimum."
  },
  {
   "property": "C117",
   "status": "proved",
   "theorems": [
    "ModSSC.Inductive.C117_selection",
    "ModSSC.Inductive.C117_safe",
    "ModSSC.Inductive.C117_accepts"
   ],
   "note": "Classifiers are external objects (Clf); NumPy branch and accuracy modelled; argsort arbitrary."
  },
  {
   "property": "C118",
   "status": "proved",
   "theorems": [
    "ModSSC.Deep.C118_tsa",
    "ModSSC.Deep.C118_sup",
    "ModSSC.Deep.C118_confident",
    "ModSSC.Deep.C118_defix",
    "ModSSC.Deep.C118_smooth",
    "ModSSC.Deep.C118_feedback",
    "ModSSC.Deep.C118_teacher"
   ],
   "note": "exp by contract; gradients and optimisers not modelled."
  },
  {
   "property": "C119",
   "status": "partial",
   "theorems": [
    "ModSSC.Deep.C119_memory_partial",
    "ModSSC.Deep.C119_recent",
    "ModSSC.Deep.C119_labeled_violated",
    "ModSSC.Deep.C119_pseudo",
    "ModSSC.Deep.C119_dist_partial",
    "ModSSC.Deep.C119_graph",
    "ModSSC.Deep.C119_mass_violated"
   ],
   "note": "Partial: rows of a batch beyond queue_size never enter the memory. Violated: with a batch larger than the queue the first rows are kept, so the labeled ones (last) are lost; at low temperature the clamp at 1e-12 makes pseudo-labels lose mass."
  },
  {
   "property": "C120",
   "status": "proved",
   "theorems": [
    "ModSSC.Deep.C120_pseudo",
    "ModSSC.Deep.C120_pretrain"
   ],
   "note": "exp, pow, sqrt, argmax by contract; exact arithmetic; the averaged network is an input (its update is C115)."
  },
  {
   "property": "C85",
   "status": "partial",
   "theorems": [
    "ModSSC.Inductive.C85_training",
    "ModSSC.Inductive.C85_sets",
    "ModSSC.Inductive.C85_error_partial",
    "ModSSC.Inductive.C85_prediction",
    "ModSSC.Inductive.C85_accepts",
    "ModSSC.Inductive.C85_error_violated",
    "ModSSC.Inductive.C85_zero_violated"
   ],
   "note": "Classifiers are external objects (Clf); NumPy branch; normal quantile and sqrt by contract NormalLaw. Violated: samples whose estimated error rate is 100% are added when the learner set is more than three times the labeled set; predict_proba rows are all zero when all learner weights are zero."
  },
  {
   "property": "C69",
   "status": "partial",
   "theorems": [
    "ModSSC.Preprocess.C69_roundtrip_partial",
    "ModSSC.Preprocess.C69_reads",
    "ModSSC.Preprocess.C69_refuses",
    "ModSSC.Preprocess.C69_id_violated",
    "ModSSC.Preprocess.C69_modality_violated"
   ],
   "note": "Partial: round trip for non-empty ids. Violated: a step without id is accepted with the id \"None\"; `modalities: text` is read as a list of letters. YAML and str() by contract."
  },
  {
   "property": "C70",
   "status": "partial",
   "theorems": [
    "ModSSC.Preprocess.Vision.C70_order",
    "ModSSC.Preprocess.Vision.C70_channels",
    "ModSSC.Preprocess.Vision.C70_resize",
    "ModSSC.Preprocess.Vision.C70_normalize",
    "ModSSC.Preprocess.Vision.C70_normalize_accepts",
    "ModSSC.Preprocess.Vision.C70_squeeze",
    "ModSSC.Preprocess.Vision.C70_other",
    "ModSSC.Preprocess.Vision.C70_order_violated",
    "ModSSC.Preprocess.Vision.C70_grey_violated",
    "ModSSC.Preprocess.Vision.C70_resize_violated"
   ],
   "note": "Violated: a channels-first batch of width 3 is taken for channels-last; three grey images are taken for one image of three channels (two samples dropped); resize turns values in [0,1) to 0. linspace in exact arithmetic."
  },
  {
   "property": "C71",
   "status": "partial",
   "theorems": [
    "ModSSC.Preprocess.Edges.C71_sparsify",
    "ModSSC.Preprocess.Edges.C71_sparsify_pairs_partial",
    "ModSSC.Preprocess.Edges.C71_kept",
    "ModSSC.Preprocess.Edges.C71_accepts",
    "ModSSC.Preprocess.Edges.C71_attach",
    "ModSSC.Preprocess.Edges.C71_symmetric_violated",
    "ModSSC.Preprocess.Edges.C71_pairs_violated"
   ],
   "note": "Partial: arrays with one edge per row unless there are exactly two edges. Violated: two edges given as rows are read as a 2-row index, giving non-edges; the directions of an undirected edge are kept independently. Draws by contract."
  },
  {
   "property": "C121",
   "status": "partial",
   "theorems": [
    "ModSSC.Preprocess.OneHot.C121_fit",
    "ModSSC.Preprocess.OneHot.C121_transform",
    "ModSSC.Preprocess.OneHot.C121_distinguishes",
    "ModSSC.Preprocess.OneHot.C121_accepts",
    "ModSSC.Preprocess.OneHot.C121_train_violated",
    "ModSSC.Preprocess.OneHot.C121_missing_violated"
   ],
   "note": "Violated: a column numeric in the fit rows with text elsewhere makes the transform fail; the text \"__missing__\" collides with a missing value. Encoder, float() and str() by contract."
  },
  {
   "property": "C79",
   "status": "partial",
   "theorems": [
    "ModSSC.Graph.Anchor.C79_found_partial",
    "ModSSC.Graph.Anchor.C79_missing_violated",
    "ModSSC.Graph.Anchor.C79_anchor",
    "ModSSC.Graph.Anchor.C79_exact",
    "ModSSC.Graph.Anchor.C79_refuses",
    "ModSSC.Graph.Anchor.C79_few_violated"
   ],
   "note": "Violated: nodes sharing no anchor are never candidates; with every node an anchor and anchors_k=1 there are no edges at all. Anchors an approximate faiss index does not find count as the last anchor. Exact arithmetic; k-means, scikit-learn/faiss queries, choices by contract. Negative chunk sizes (uninitialised memory) not modelled."
  },
  {
   "property": "C122",
   "status": "proved",
   "theorems": [
    "ModSSC.Preprocess.Pca.C122_fit",
    "ModSSC.Preprocess.Pca.C122_transform"
   ],
   "note": "Exact arithmetic; np.linalg.svd by contract IsRightSvd."
  },
  {
   "property": "C123",
   "status": "proved",
   "theorems": [
    "ModSSC.Preprocess.Pca.C123_whiten"
   ],
   "note": "Exact arithmetic; np.linalg.eigh by contract IsEigen, sqrt by contract; flattened samples."
  },
  {
   "property": "C124",
   "status": "proved",
   "theorems": [
    "ModSSC.Bench.C124_data",
    "ModSSC.Bench.C124_no_leak",
    "ModSSC.Bench.C124_accepts",
    "ModSSC.Bench.C124_graph",
    "ModSSC.Bench.C124_strict"
   ],
   "note": "Views and augmented inputs as row lists; tensors as lists of rows."
  },
  {
   "property": "C125",
   "status": "partial",
   "theorems": [
    "ModSSC.Bench.C125_masks",
    "ModSSC.Bench.C125_hidden_partial",
    "ModSSC.Bench.C125_graph_partial",
    "ModSSC.Bench.C125_count",
    "ModSSC.Bench.C125_unlabeled_partial",
    "ModSSC.Bench.C125_heldout_violated"
   ],
   "note": "Masks exact; labels of unlabeled nodes hidden (partial). Violated: labels of validation and test nodes are visible in the observed labels, and a test label decides whether label propagation succeeds."
  },
  {
   "property": "C126",
   "status": "proved",
   "theorems": [
    "ModSSC.Bench.C126_inductive",
    "ModSSC.Bench.C126_transductive",
    "ModSSC.Bench.C126_transductive_nodes"
   ],
   "note": "predict as a parameter; metrics as modelled for C12-C14."
  },
  {
   "property": "C127",
   "status": "partial",
   "theorems": [
    "ModSSC.Bench.C127_outputs_partial",
    "ModSSC.Bench.C127_outputs_iff",
    "ModSSC.Bench.C127_outputs_violated",
    "ModSSC.Bench.C127_columns_violated"
   ],
   "note": "Labels that are exactly 0..k-1 get k outputs (iff). Violated: labels {0,2} give two outputs; a supervised kNN on classes {1,2} that predicts everything correctly is reported with accuracy 0."
  },
  {
   "property": "C128",
   "status": "partial",
   "theorems": [
    "ModSSC.Bench.C128_final",
    "ModSSC.Bench.C128_trials_partial",
    "ModSSC.Bench.C128_trials_violated"
   ],
   "note": "The final run obeys the limits; trials do when limiting would change nothing. Violated: a trial runs with a value above the limit, and its score is reported for a configuration that is not run."
  },
  {
   "property": "C129",
   "status": "proved",
   "theorems": [
    "ModSSC.Bench.C129_factory",
    "ModSSC.Bench.C129_meaning"
   ],
   "note": "Full equivalence (iff) between the parser and a declarative meaning, given that \"torch\" is not blank. str(), int(), lower(), strip() and the metric list are parameters; non-string keys are outside the model."
  },
  {
   "property": "C130",
   "status": "partial",
   "theorems": [
    "ModSSC.Bench.C130_sweep",
    "ModSSC.Bench.C130_limits",
    "ModSSC.Bench.C130_trials",
    "ModSSC.Bench.C130_search_kind",
    "ModSSC.Bench.C130_search_partial",
    "ModSSC.Bench.C130_final",
    "ModSSC.Bench.C130_grid_violated"
   ],
   "note": "Sweeps, limits, trials and final runs all proved closed. Partial: the search can be carried out unless it is a grid search over a continuous distribution; violated there (accepted by the schema, fails when the search starts). Dictionaries have distinct keys (Valid)."
  },
  {
   "property": "C131",
   "status": "partial",
   "theorems": [
    "ModSSC.Bench.C131_errors_partial",
    "ModSSC.Bench.C131_seed_violated"
   ],
   "note": "Proved for configurations whose run.seed, if given, is a number or numeric text. Violated: seed null raises TypeError and seed \"one\" ValueError."
  },
  {
   "property": "C132",
   "status": "partial",
   "theorems": [
    "ModSSC.Bench.C132_trials_violated",
    "ModSSC.Bench.C132_test_violated",
    "ModSSC.Bench.C132_accepts",
    "ModSSC.Bench.C132_message",
    "ModSSC.Bench.C132_trials_partial"
   ],
   "note": "The acceptance condition is an equivalence (iff) and the message is exact. Partial for trials: entries left to auto can only appear inside the method parameters chosen by the search; violated there (a search over classifier_backend may pick \"auto\"), and selection on the test split is accepted."
  },
  {
   "property": "C133",
   "status": "proved",
   "theorems": [
    "ModSSC.Bench.C133_fit_rows",
    "ModSSC.Bench.C133_view_rows",
    "ModSSC.Bench.C133_no_test"
   ],
   "note": "For index samplings and graph masks that are valid (parts inside train or val, apart from test). The preprocess computation itself is C32-C38."
  },
  {
   "property": "C134",
   "status": "partial",
   "theorems": [
    "ModSSC.Bench.C134_meaning",
    "ModSSC.Bench.C134_views",
    "ModSSC.Bench.C134_modality_violated"
   ],
   "note": "Full equivalence with a declarative meaning. Violated with respect to intent: a modality given as a text is read as its letters."
  },
  {
   "property": "C135",
   "status": "partial",
   "theorems": [
    "ModSSC.Bench.C135_fresh",
    "ModSSC.Bench.C135_exclusive_partial",
    "ModSSC.Bench.C135_no_search",
    "ModSSC.Bench.C135_rename_violated",
    "ModSSC.Bench.C135_sweep_violated"
   ],
   "note": "Proved for runs (any number, any schedule) as long as a rename hits a name that is still free; for runs without search nothing is missing. Violated: rename onto an empty directory made meanwhile (POSIX rename), and two sweeps started in the same second share the root. POSIX mkdir/rename semantics are the model."
  },
  {
   "property": "C136",
   "status": "partial",
   "theorems": [
    "ModSSC.Bench.C136_report_partial",
    "ModSSC.Bench.C136_no_views",
    "ModSSC.Bench.C136_code_reported",
    "ModSSC.Bench.C136_report_violated",
    "ModSSC.Bench.C136_keep_going",
    "ModSSC.Bench.C136_fail_fast",
    "ModSSC.Bench.C136_exit_zero",
    "ModSSC.Bench.C136_num_runs",
    "ModSSC.Bench.C136_plain"
   ],
   "note": "Single run: proved unless the views entry cannot be iterated; violated there (views: {views: null} makes a directory, writes no report and raises even without fail_fast). Sweeps: full. Writing the report is assumed to succeed; metrics of a run that fails after computing them are not modelled."
  },
  {
   "property": "C137",
   "status": "partial",
   "theorems": [
    "ModSSC.Gnn.C137_spmm",
    "ModSSC.Gnn.C137_coalesce",
    "ModSSC.Gnn.C137_self_loops",
    "ModSSC.Gnn.C137_rw",
    "ModSSC.Gnn.C137_rw_range",
    "ModSSC.Gnn.C137_sym",
    "ModSSC.Gnn.C137_contraction",
    "ModSSC.Gnn.C137_directed_violated"
   ],
   "note": "Exact over an ordered field; sqrt is a parameter with its law (met by the reals). Violated on directed graphs (in-degree used for both ends)."
  },
  {
   "property": "C138",
   "status": "partial",
   "theorems": [
    "ModSSC.Gnn.C138_power",
    "ModSSC.Gnn.C138_appnp_series",
    "ModSSC.Gnn.C138_contraction",
    "ModSSC.Gnn.C138_range",
    "ModSSC.Gnn.C138_appnp_converges",
    "ModSSC.Gnn.C138_mix_bound",
    "ModSSC.Gnn.C138_chebyshev",
    "ModSSC.Gnn.C138_ngcn_powers",
    "ModSSC.Gnn.C138_dense",
    "ModSSC.Gnn.C138_direction_violated"
   ],
   "note": "Exact arithmetic. Violated for N-GCN and H-GCN without symmetrize: they propagate along reversed edges."
  },
  {
   "property": "C139",
   "status": "partial",
   "theorems": [
    "ModSSC.Gnn.C139_best",
    "ModSSC.Gnn.C139_no_validation",
    "ModSSC.Gnn.C139_fullbatch",
    "ModSSC.Gnn.C139_grafn",
    "ModSSC.Gnn.C139_zero_epochs_violated",
    "ModSSC.Gnn.C139_nan_violated",
    "ModSSC.Gnn.C139_graphhop_partial",
    "ModSSC.Gnn.C139_graphhop_violated"
   ],
   "note": "train_fullbatch, GRAND and GraFN: full for usable measures, up to the tolerance of the code. GraphHop compares with the epoch before: partial and violated. Also violated: max_epochs = 0 raises, a NaN in the first epoch is kept."
  },
  {
   "property": "C140",
   "status": "partial",
   "theorems": [
    "ModSSC.Gnn.C140_seed_first",
    "ModSSC.Gnn.C140_init_first_partial",
    "ModSSC.Gnn.C140_init_first_violated"
   ],
   "note": "GraFN and GraphHop seed first: proved. All others create the network before seeding: violated, partial relative to equal initial weights. PyTorch kernels are taken as deterministic."
  },
  {
   "property": "C141",
   "status": "partial",
   "theorems": [
    "ModSSC.Gnn.C141_cache_partial",
    "ModSSC.Gnn.C141_stale_violated"
   ],
   "note": "Proved for histories without later writes; violated by in-place writes."
  },
  {
   "property": "C142",
   "status": "partial",
   "theorems": [
    "ModSSC.Gnn.C142_hidden_partial",
    "ModSSC.Gnn.C142_columns_violated"
   ],
   "note": "Proved up to the largest label; violated through the number of output columns."
  },
  {
   "property": "C143",
   "status": "partial",
   "theorems": [
    "ModSSC.Gnn.C143_distance",
    "ModSSC.Gnn.C143_average",
    "ModSSC.Gnn.C143_direction_violated"
   ],
   "note": "Violated without symmetrize in direction (neighbours are the targets of outgoing edges)."
  },
  {
   "property": "C144",
   "status": "partial",
   "theorems": [
    "ModSSC.Tsvm.C144_encode",
    "ModSSC.Tsvm.C144_binary",
    "ModSSC.Tsvm.C144_fit_labels_partial",
    "ModSSC.Tsvm.C144_leak_violated",
    "ModSSC.Tsvm.C144_epoch",
    "ModSSC.Tsvm.C144_pseudo_sign",
    "ModSSC.Tsvm.C144_balance",
    "ModSSC.Tsvm.C144_balance_order_partial",
    "ModSSC.Tsvm.C144_balance_order_violated",
    "ModSSC.Tsvm.C144_weight",
    "ModSSC.Tsvm.C144_weight_bound_partial",
    "ModSSC.Tsvm.C144_weight_bound_violated",
    "ModSSC.Tsvm.C144_no_unlabeled",
    "ModSSC.Tsvm.C144_repeat",
    "ModSSC.Tsvm.C144_proba",
    "ModSSC.Tsvm.C144_columns_violated"
   ],
   "note": "The gradient step and the decision function are parameters. Partial: labels need two classes among the labeled nodes (else the true labels of unlabeled nodes are read: violated); balancing with all-negative scores is reversed (violated); C_u_max below 1/1000 is exceeded in the first iteration (violated); columns are positions, not labels (violated for labels other than 0 and 1)."
  },
  {
   "property": "C145",
   "status": "proved",
   "theorems": [
    "ModSSC.Gnn.C145_partition",
    "ModSSC.Gnn.C145_equivalent",
    "ModSSC.Gnn.C145_size",
    "ModSSC.Gnn.C145_weights",
    "ModSSC.Gnn.C145_matrix",
    "ModSSC.Gnn.C145_adjacency",
    "ModSSC.Gnn.C145_partner"
   ],
   "note": "Full for one step, which is applied repeatedly. The scores are a parameter."
  },
  {
   "property": "C146",
   "status": "partial",
   "theorems": [
    "ModSSC.Gnn.C146_support",
    "ModSSC.Gnn.C146_support_labels",
    "ModSSC.Gnn.C146_distribution",
    "ModSSC.Gnn.C146_targets",
    "ModSSC.Gnn.C146_edges",
    "ModSSC.Gnn.C146_drop_all_violated",
    "ModSSC.Gnn.C146_features"
   ],
   "note": "Random draws are parameters with the contract of Generator.choice. Violated: when every edge would be dropped (always for p = 1) none is."
  },
  {
   "property": "C147",
   "status": "partial",
   "theorems": [
    "ModSSC.Node2vec.C147_adjacency",
    "ModSSC.Node2vec.C147_walk",
    "ModSSC.Node2vec.C147_count",
    "ModSSC.Node2vec.C147_law",
    "ModSSC.Node2vec.C147_pairs",
    "ModSSC.Node2vec.C147_pairs_symmetric",
    "ModSSC.Node2vec.C147_step",
    "ModSSC.Node2vec.C147_supervised_all",
    "ModSSC.Node2vec.C147_supervised",
    "ModSSC.Node2vec.C147_seed_partial",
    "ModSSC.Node2vec.C147_seed_violated"
   ],
   "note": "Walks, step law, training pairs and supervised batches are proved. Reproducibility is partial: torch is never seeded by Planetoid and the node2vec step, so the initial weights depend on the global generator (C147_seed_violated). Skip-gram training itself is a parameter."
  },
  {
   "property": "C148",
   "status": "partial",
   "theorems": [
    "ModSSC.Wave.C148_fit",
    "ModSSC.Wave.C148_batch",
    "ModSSC.Wave.C148_rate_partial",
    "ModSSC.Wave.C148_channels",
    "ModSSC.Wave.C148_rate_violated",
    "ModSSC.Wave.C148_mono_violated"
   ],
   "note": "Violated: without target_sample_rate files of different rates end up in one table (C148_rate_violated); mono=False has no effect (C148_mono_violated). Decoding and resampling of files are parameters."
  },
  {
   "property": "C149",
   "status": "partial",
   "theorems": [
    "ModSSC.Preprocess.Scale.C149_standardized",
    "ModSSC.Preprocess.Scale.C149_scaler_fit",
    "ModSSC.Preprocess.Scale.C149_scaler_rows",
    "ModSSC.Preprocess.Scale.C149_impute_value",
    "ModSSC.Preprocess.Scale.C149_scaler_options",
    "ModSSC.Preprocess.Scale.C149_impute_partial",
    "ModSSC.Preprocess.Scale.C149_impute_fit",
    "ModSSC.Preprocess.Scale.C149_impute_width_violated",
    "ModSSC.Preprocess.Scale.C149_projection_fit",
    "ModSSC.Preprocess.Scale.C149_projection_linear"
   ],
   "note": "scikit-learn estimators are written out in exact arithmetic. Violated: a column with no value on the fit rows is dropped by the imputer, so later columns move (C149_impute_width_violated). TF-IDF is not modelled."
  },
  {
   "property": "C150",
   "status": "partial",
   "theorems": [
    "ModSSC.Encode.C150_rows_partial",
    "ModSSC.Encode.C150_grey_clip_violated",
    "ModSSC.Encode.C150_grey_torchvision_violated",
    "ModSSC.Encode.C150_batch_size_violated",
    "ModSSC.Encode.C150_stub",
    "ModSSC.Encode.C150_stub_position_violated",
    "ModSSC.Encode.C150_stub_head_violated",
    "ModSSC.Encode.C150_cache_partial",
    "ModSSC.Encode.C150_cache_model_violated",
    "ModSSC.Encode.C150_auto",
    "ModSSC.Encode.C150_auto_table_violated"
   ],
   "note": "Networks are parameters that treat the images of a batch independently. Violated: N grey images become one row in OpenCLIP, and in torchvision if N or the width is 1, 3 or 4; negative batch sizes give no rows in OpenCLIP; the stub encoder mixes the position into the row and looks at the first 1024 bytes only; a changed model_id does not reload; lists of lists of numbers are taken for audio."
  },
  {
   "property": "C151",
   "status": "partial",
   "theorems": [
    "ModSSC.Simclr.C151_accept",
    "ModSSC.Simclr.C151_result_partial",
    "ModSSC.Simclr.C151_result_violated",
    "ModSSC.Simclr.C151_stages",
    "ModSSC.Simclr.C151_refit_violated",
    "ModSSC.Simclr.C151_refit_partial",
    "ModSSC.Simclr.C151_teacher_fixed_partial",
    "ModSSC.Simclr.C151_teacher_fixed_violated",
    "ModSSC.Simclr.C151_pairs",
    "ModSSC.Simclr.C151_contrastive"
   ],
   "note": "Violated: distilling without fine-tuning and student bundle keeps the pretrained model, or none (C151_result_violated); with a student bundle the teacher stays frozen and a second fit fails (C151_refit_violated); modules named in meta keep pointing to the student (C151_teacher_fixed_violated). The stages themselves are parameters."
  },
  {
   "property": "C152",
   "status": "partial",
   "theorems": [
    "ModSSC.Trinet.C152_schedule",
    "ModSSC.Trinet.C152_thresholds",
    "ModSSC.Trinet.C152_interval_violated",
    "ModSSC.Trinet.C152_pool",
    "ModSSC.Trinet.C152_label",
    "ModSSC.Trinet.C152_filter",
    "ModSSC.Trinet.C152_pseudo",
    "ModSSC.Trinet.C152_kept",
    "ModSSC.Trinet.C152_train_set",
    "ModSSC.Trinet.C152_classes_violated",
    "ModSSC.Trinet.C152_loss",
    "ModSSC.Trinet.C152_single_class_violated",
    "ModSSC.Trinet.C152_width",
    "ModSSC.Trinet.C152_smear",
    "ModSSC.Trinet.C152_predict",
    "ModSSC.Trinet.C152_predict_width",
    "ModSSC.Trinet.C152_seeds_partial",
    "ModSSC.Trinet.C152_seeds_violated"
   ],
   "note": "Violated: fine_tune_interval=1 with a full first pool never uses unlabeled data (C152_interval_violated); heads with more outputs than labeled classes fail, or with one labeled class are trained towards the uniform prediction (C152_classes_violated, C152_single_class_violated); seeds repeat beyond 99 rounds (C152_seeds_violated). Networks are parameters; optimizer steps are not modelled."
  },
  {
   "property": "C153",
   "status": "partial",
   "theorems": [
    "ModSSC.Adv.C153_vat_norm",
    "ModSSC.Adv.C153_vat_zero_violated",
    "ModSSC.Adv.C153_vat_probe",
    "ModSSC.Adv.C153_vat_errors",
    "ModSSC.Adv.C153_fgsm",
    "ModSSC.Adv.C153_fgsm_clip_partial",
    "ModSSC.Adv.C153_fgsm_clip_violated",
    "ModSSC.Adv.C153_targets",
    "ModSSC.Adv.C153_warm",
    "ModSSC.Adv.C153_warm_full_partial",
    "ModSSC.Adv.C153_warm_full_violated",
    "ModSSC.Adv.C153_kl",
    "ModSSC.Adv.C153_js",
    "ModSSC.Adv.C153_predict",
    "ModSSC.Adv.C153_batch_sizes"
   ],
   "note": "Violated: a zero gradient leaves the sample unperturbed (C153_vat_zero_violated, torch semantics); clipping moves data outside the bounds arbitrarily far (C153_fgsm_clip_violated); unsup_warm_up of 1 or more never reaches full weight (C153_warm_full_violated). Gradients and the norm are parameters."
  },
  {
   "property": "C154",
   "status": "partial",
   "theorems": [
    "ModSSC.Bench.C154_total",
    "ModSSC.Bench.C154_metric_partial",
    "ModSSC.Bench.C154_stats",
    "ModSSC.Bench.C154_mean_between",
    "ModSSC.Bench.C154_order",
    "ModSSC.Bench.C154_runs",
    "ModSSC.Bench.C154_status_partial",
    "ModSSC.Bench.C154_status_violated",
    "ModSSC.Bench.C154_metric_violated"
   ],
   "note": "Violated: a metric that is a number in one run and a dictionary in another loses its mean (C154_metric_violated; C154_metric_partial excludes that clash); a run that raises before writing its report is not counted, so the aggregate can say success (C154_status_violated, C154_status_partial)."
  },
  {
   "property": "C155",
   "status": "proved",
   "theorems": [
    "ModSSC.Bench.C155_schema",
    "ModSSC.Bench.C155_written",
    "ModSSC.Bench.C155_never_refused"
   ],
   "note": ""
  },
  {
   "property": "C156",
   "status": "partial",
   "theorems": [
    "ModSSC.Bench.C156_names",
    "ModSSC.Bench.C156_replace",
    "ModSSC.Bench.C156_plain",
    "ModSSC.Bench.C156_missing",
    "ModSSC.Bench.C156_document",
    "ModSSC.Bench.C156_error_path",
    "ModSSC.Bench.C156_env_first",
    "ModSSC.Bench.C156_no_default",
    "ModSSC.Bench.C156_root_partial",
    "ModSSC.Bench.C156_root_violated",
    "ModSSC.Bench.C156_load",
    "ModSSC.Bench.C156_escape"
   ],
   "note": "Violated: an empty MODSSC_CACHE_ROOT gives a different root than the library uses (C156_root_violated). The escape character before a placeholder stays in the text (C156_escape). YAML parsing is a parameter."
  },
  {
   "property": "C157",
   "status": "partial",
   "theorems": [
    "ModSSC.Bench.Aug.C157_rows_partial",
    "ModSSC.Bench.Aug.C157_rectangular",
    "ModSSC.Bench.Aug.C157_complete",
    "ModSSC.Bench.Aug.C157_alone_partial",
    "ModSSC.Bench.Aug.C157_second_view",
    "ModSSC.Bench.Aug.C157_contexts",
    "ModSSC.Bench.Aug.C157_skip",
    "ModSSC.Bench.Aug.C157_refused",
    "ModSSC.Bench.Aug.C157_ids",
    "ModSSC.Bench.Aug.C157_graph",
    "ModSSC.Bench.Aug.C157_plan",
    "ModSSC.Bench.Aug.C157_modality_violated",
    "ModSSC.Bench.Aug.C157_alone_violated"
   ],
   "note": "Violated: swap noise on tensors draws from the global generator, so views depend on the samples before (C157_alone_violated); the modality stated in a plan has no effect (C157_modality_violated); runs with neighbouring seeds share augmentations (C157_second_view). Number types are not modelled."
  },
  {
   "property": "C158",
   "status": "partial",
   "theorems": [
    "ModSSC.Supervised.Torch.C158_accepts",
    "ModSSC.Supervised.Torch.C158_failed_fit",
    "ModSSC.Supervised.Torch.C158_history",
    "ModSSC.Supervised.Torch.C158_votes",
    "ModSSC.Supervised.Torch.C158_distribution",
    "ModSSC.Supervised.Torch.C158_returns",
    "ModSSC.Supervised.Torch.C158_predict",
    "ModSSC.Supervised.Torch.C158_batch",
    "ModSSC.Supervised.Torch.C158_agree",
    "ModSSC.Supervised.Torch.C158_ties_needed",
    "ModSSC.Supervised.Torch.C158_batch_size_violated"
   ],
   "note": "Violated for a negative batch_size, which is accepted and then gives every query the smallest class (C158_batch_size_violated); the other theorems assume a positive one. Ties between equally distant rows may be broken differently (C158_ties_needed). That the classifier keeps the caller's tensor, not a copy, is not modelled."
  },
  {
   "property": "C159",
   "status": "partial",
   "theorems": [
    "ModSSC.Supervised.Net.C159_trained_mlp",
    "ModSSC.Supervised.Net.C159_trained_logreg",
    "ModSSC.Supervised.Net.C159_trained_image",
    "ModSSC.Supervised.Net.C159_trained_pretrained",
    "ModSSC.Supervised.Net.C159_trained_loader",
    "ModSSC.Supervised.Net.C159_reproducible_mlp",
    "ModSSC.Supervised.Net.C159_reproducible_error",
    "ModSSC.Supervised.Net.C159_reproducible_image",
    "ModSSC.Supervised.Net.C159_reproducible_loader",
    "ModSSC.Supervised.Net.C159_no_seed",
    "ModSSC.Supervised.Net.C159_logreg_partial",
    "ModSSC.Supervised.Net.C159_predict_mlp",
    "ModSSC.Supervised.Net.C159_predict_logreg",
    "ModSSC.Supervised.Net.C159_predict_image",
    "ModSSC.Supervised.Net.C159_predict_pretrained",
    "ModSSC.Supervised.Net.C159_predict_loader",
    "ModSSC.Supervised.Net.C159_accepts",
    "ModSSC.Supervised.Net.C159_image_accepts",
    "ModSSC.Supervised.Net.C159_pretrained_accepts",
    "ModSSC.Supervised.Net.C159_failed_fit_partial",
    "ModSSC.Supervised.Net.C159_sage_partial",
    "ModSSC.Supervised.Net.C159_logreg_violated",
    "ModSSC.Supervised.Net.C159_failed_fit_violated",
    "ModSSC.Supervised.Net.C159_image_shape_violated",
    "ModSSC.Supervised.Net.C159_image_history_violated",
    "ModSSC.Supervised.Net.C159_pretrained_violated",
    "ModSSC.Supervised.Net.C159_loader_violated",
    "ModSSC.Supervised.Net.C159_sage_violated"
   ],
   "note": "Training and answers are proved for all five. Reproducibility holds for the perceptron, for images given with all axes, and for seeded sequence classifiers; it is violated for the logistic regression, whose layer is created before the generator is seeded (C159_logreg_violated), and for flattened images, which are read in the shape of an earlier fit (C159_image_history_violated). A failed fit is harmless only when the network itself never raises (C159_failed_fit_partial); otherwise classes, shape or network are already replaced (C159_failed_fit_violated, C159_image_shape_violated, C159_pretrained_violated, C159_loader_violated). GraphSAGE predicts labels that never occur (C159_sage_violated)."
  },
  {
   "property": "C160",
   "status": "partial",
   "theorems": [
    "ModSSC.Inductive.Adapt.C160_torch_accepts",
    "ModSSC.Inductive.Adapt.C160_torch_result",
    "ModSSC.Inductive.Adapt.C160_torch_idempotent",
    "ModSSC.Inductive.Adapt.C160_resolve",
    "ModSSC.Inductive.Adapt.C160_accelerator_violated",
    "ModSSC.Inductive.Adapt.C160_numpy",
    "ModSSC.Inductive.Adapt.C160_agree",
    "ModSSC.Inductive.Adapt.C160_rows_violated",
    "ModSSC.Inductive.Adapt.C160_dict_violated",
    "ModSSC.Inductive.Adapt.C160_error_violated"
   ],
   "note": "Acceptance is characterised for datasets whose features and labels can be read (Readable); the result, idempotence and the numpy adapter need no hypothesis. Violations: with device cuda or mps no dataset is ever accepted, since the resolved device has no number (C160_accelerator_violated); augmentations of another number of rows than X_u are accepted (C160_rows_violated); dictionaries without features, or with numpy features, are accepted (C160_dict_violated); a labeled dictionary without features raises an attribute error instead of the validation error (C160_error_violated)."
  },
  {
   "property": "C161",
   "status": "partial",
   "theorems": [
    "ModSSC.Deep.Fit.C161_refused",
    "ModSSC.Deep.Fit.C161_steps",
    "ModSSC.Deep.Fit.C161_cat",
    "ModSSC.Deep.Fit.C161_accepts",
    "ModSSC.Deep.Fit.C161_weights",
    "ModSSC.Deep.Fit.C161_fixmatch",
    "ModSSC.Deep.Fit.C161_uda",
    "ModSSC.Deep.Fit.C161_history",
    "ModSSC.Deep.Fit.C161_label_violated",
    "ModSSC.Deep.Fit.C161_refit_violated",
    "ModSSC.Deep.Fit.C161_history_violated",
    "ModSSC.Deep.Fit.C161_schedule_violated"
   ],
   "note": "C161_steps, C161_refused and C161_weights hold for any network with a row of logits per row; C161_fixmatch, C161_uda, C161_cat and C161_accepts for networks that treat rows separately (no batch norm, no dropout). Violations: labels outside the classes are noticed only when their batch comes up, after training on others (C161_label_violated); an unknown tsa_schedule is refused only in the first step (C161_schedule_violated); FlexMatch keeps its state, so a refit on a larger pool fails (C161_history_violated); refitting continues from the trained network (C161_refit_violated)."
  },
  {
   "property": "C162",
   "status": "partial",
   "theorems": [
    "ModSSC.Deep.Bundle.C162_dense_builds",
    "ModSSC.Deep.Bundle.C162_image_builds",
    "ModSSC.Deep.Bundle.C162_audio_builds",
    "ModSSC.Deep.Bundle.C162_text_builds",
    "ModSSC.Deep.Bundle.C162_tokens_builds",
    "ModSSC.Deep.Bundle.C162_graph_builds",
    "ModSSC.Deep.Bundle.C162_pretrained_builds",
    "ModSSC.Deep.Bundle.C162_embedded",
    "ModSSC.Deep.Bundle.C162_refused",
    "ModSSC.Deep.Bundle.C162_bundle",
    "ModSSC.Deep.Bundle.C162_dense",
    "ModSSC.Deep.Bundle.C162_dense_features",
    "ModSSC.Deep.Bundle.C162_image",
    "ModSSC.Deep.Bundle.C162_image_flat_violated",
    "ModSSC.Deep.Bundle.C162_audio",
    "ModSSC.Deep.Bundle.C162_audio_flat_violated",
    "ModSSC.Deep.Bundle.C162_text",
    "ModSSC.Deep.Bundle.C162_text_violated",
    "ModSSC.Deep.Bundle.C162_tokens",
    "ModSSC.Deep.Bundle.C162_tokens_guessed",
    "ModSSC.Deep.Bundle.C162_tokens_violated",
    "ModSSC.Deep.Bundle.C162_graph",
    "ModSSC.Deep.Bundle.C162_pretrained_image",
    "ModSSC.Deep.Bundle.C162_pretrained_audio",
    "ModSSC.Deep.Bundle.C162_violated"
   ],
   "note": "Shapes are modelled exactly, weights are not. Proved: C162_refused, C162_bundle, C162_dense (mlp and logreg score a batch exactly if rows have one axis), C162_dense_features, C162_image, C162_audio, C162_text (channels first), C162_tokens (with vocab_size), C162_graph, C162_pretrained_image/audio (backbones as lawful parameters). Violations: single-channel images or sounds given without channel axis build a network that refuses them (C162_image_flat_violated, C162_audio_flat_violated); text_cnn with its default layout refuses what it was built for (C162_text_violated); lstm guesses its vocabulary from the first row (C162_tokens_violated); C162_violated negates the full claim."
  },
  {
   "property": "C163",
   "status": "partial",
   "theorems": [
    "ModSSC.Bench.Inject.C163_untouched",
    "ModSSC.Bench.Inject.C163_fields",
    "ModSSC.Bench.Inject.C163_refused",
    "ModSSC.Bench.Inject.C163_seeds",
    "ModSSC.Bench.Inject.C163_networks",
    "ModSSC.Bench.Inject.C163_factory_violated",
    "ModSSC.Bench.Inject.C163_trinet_partial",
    "ModSSC.Bench.Inject.C163_trinet_image_violated",
    "ModSSC.Bench.Inject.C163_trinet_tokens_violated"
   ],
   "note": "Proved: C163_untouched, C163_fields, C163_refused, C163_seeds, C163_networks, C163_trinet_partial (dense, audio and text networks). Violations: with image_cnn TriNet refuses the output of its shared network (C163_trinet_image_violated); with lstm_scratch the heads are built for the scores but used on the hidden state (C163_trinet_tokens_violated); a user factory gets no seed (C163_factory_violated)."
  },
  {
   "property": "C164",
   "status": "partial",
   "theorems": [
    "ModSSC.Bench.Convert.C164_training_torch",
    "ModSSC.Bench.Convert.C164_evaluation_torch",
    "ModSSC.Bench.Convert.C164_containers_violated",
    "ModSSC.Bench.Convert.C164_strict",
    "ModSSC.Bench.Convert.C164_converted",
    "ModSSC.Bench.Convert.C164_followed",
    "ModSSC.Bench.Convert.C164_kept",
    "ModSSC.Bench.Convert.C164_labels",
    "ModSSC.Bench.Convert.C164_becomes_torch",
    "ModSSC.Bench.Convert.C164_evaluated",
    "ModSSC.Bench.Convert.C164_evaluated_torch",
    "ModSSC.Bench.Convert.C164_evaluated_strict",
    "ModSSC.Bench.Convert.C164_found",
    "ModSSC.Bench.Convert.C164_evaluated_violated",
    "ModSSC.Bench.Convert.C164_scale_violated",
    "ModSSC.Bench.Convert.C164_report_violated",
    "ModSSC.Bench.Convert.C164_views",
    "ModSSC.Bench.Convert.C164_views_kept",
    "ModSSC.Bench.Convert.C164_views_evaluated_kept",
    "ModSSC.Bench.Convert.C164_has_device"
   ],
   "note": "Proved: C164_strict (exactly when a strict run accepts, and that nothing is changed), C164_converted, C164_followed, C164_kept, C164_labels, C164_becomes_torch, C164_training_torch, C164_evaluation_torch, C164_evaluated and C164_evaluated_torch (when the evaluation finds the device), C164_evaluated_strict, C164_found (exactly when it does), C164_views, C164_views_kept. Violations: methods keeping classifiers in a list (Tri-Training, Democratic Co-Learning) or torch nearest neighbours get numpy arrays in the evaluation after training on tensors (C164_evaluated_violated); 8-bit features are scaled but augmented rows in single precision are not (C164_scale_violated); the report always says nothing was converted (C164_report_violated); training and evaluation disagree on what torch data is (C164_containers_violated). Availability of devices and np.asarray of lists are parameters."
  },
  {
   "property": "C165",
   "status": "partial",
   "theorems": [
    "ModSSC.Deep.Cons.C165_pi_refused",
    "ModSSC.Deep.Cons.C165_pi_steps",
    "ModSSC.Deep.Cons.C165_pi_targets",
    "ModSSC.Deep.Cons.C165_pi_accepts",
    "ModSSC.Deep.Cons.C165_teacher_refused",
    "ModSSC.Deep.Cons.C165_teacher_steps",
    "ModSSC.Deep.Cons.C165_teacher_targets",
    "ModSSC.Deep.Cons.C165_teacher_accepts",
    "ModSSC.Deep.Cons.C165_vat_steps",
    "ModSSC.Deep.Cons.C165_vat_targets",
    "ModSSC.Deep.Cons.C165_vat_refused",
    "ModSSC.Deep.Cons.C165_ensemble_refused",
    "ModSSC.Deep.Cons.C165_ensemble_steps",
    "ModSSC.Deep.Cons.C165_ensemble_targets",
    "ModSSC.Deep.Cons.C165_ensemble_accepts",
    "ModSSC.Deep.Cons.C165_first_step",
    "ModSSC.Deep.Cons.C165_single_step_violated",
    "ModSSC.Deep.Cons.C165_label_violated",
    "ModSSC.Deep.Cons.C165_zero_target_violated"
   ],
   "note": "Proved: C165_{pi,teacher,ensemble,vat}_refused (nothing changed), C165_{pi,teacher,ensemble,vat}_steps (any network that logs its steps), C165_{pi,teacher,ensemble,vat}_targets (row-wise networks), C165_{pi,teacher,ensemble}_accepts (exactly when fit returns), C165_first_step. Violations: with one step in total and the default warm-up the unlabeled samples have weight 0 (C165_single_step_violated); a label without a class is found after steps that have changed the network (C165_label_violated); the targets of the first epoch of Temporal Ensembling are zero vectors and are used if there is no warm-up (C165_zero_target_violated). Numbers are exact; gradients, the perturbation search (C153) and batch norm are parameters; graph dictionaries are not modelled."
  },
  {
   "property": "C166",
   "status": "partial",
   "theorems": [
    "ModSSC.Inductive.C166_train",
    "ModSSC.Inductive.C166_proba",
    "ModSSC.Inductive.C166_refused",
    "ModSSC.Inductive.C166_labels",
    "ModSSC.Inductive.C166_unfitted",
    "ModSSC.Inductive.C166_indicator",
    "ModSSC.Inductive.C166_indicator_partial",
    "ModSSC.Inductive.C166_label_only",
    "ModSSC.Inductive.C166_source",
    "ModSSC.Inductive.C166_flat",
    "ModSSC.Inductive.C166_methods",
    "ModSSC.Inductive.C166_labels_violated",
    "ModSSC.Inductive.C166_columns_violated",
    "ModSSC.Inductive.C166_empty_violated"
   ],
   "note": "Proved: C166_train (iff), C166_proba (every method), C166_refused and C166_labels (methods that look at the input), C166_unfitted, C166_indicator and C166_label_only (classifiers with classes_), C166_source, C166_flat. Violations: predict of self-training, pseudo-label, SETRED and S4VM never compares the input with the stored backend and hands it to the classifier (C166_labels_violated); without classes_ the columns mean different labels in different calls (C166_columns_violated; what holds is C166_indicator_partial); S4VM fails on an empty array with more than two axes (C166_empty_violated). Dtypes are not modelled; classifiers are parameters. C166_methods: which methods look at the data of a prediction."
  },
  {
   "property": "C167",
   "status": "partial",
   "theorems": [
    "ModSSC.DataLoader.Provider.C167_reference_blanks",
    "ModSSC.DataLoader.Provider.C167_hf_reference",
    "ModSSC.DataLoader.Provider.C167_tfds_reference",
    "ModSSC.DataLoader.Provider.C167_canonical_round_trip",
    "ModSSC.DataLoader.Provider.C167_canonical_injective",
    "ModSSC.DataLoader.Provider.C167_hf_organisation_violated",
    "ModSSC.DataLoader.Provider.C167_class_reference",
    "ModSSC.DataLoader.Provider.C167_openml_version_read",
    "ModSSC.DataLoader.Provider.C167_openml_last",
    "ModSSC.DataLoader.Provider.C167_openml_reference",
    "ModSSC.DataLoader.Provider.C167_openml_options",
    "ModSSC.DataLoader.Provider.C167_openml_versions_violated",
    "ModSSC.DataLoader.Provider.C167_gc_removes_version_violated"
   ],
   "note": "Proved: C167_hf_reference, C167_tfds_reference, C167_class_reference, C167_openml_reference, C167_openml_options, C167_canonical_round_trip and C167_canonical_injective (Hugging Face, TFDS). Violations: a Hugging Face dataset of an organisation (organisation/name) cannot be requested at all (C167_hf_organisation_violated); all versions of an OpenML dataset share one canonical URI, which resolves to the default version (C167_openml_versions_violated), so garbage collection deletes other versions (C167_gc_removes_version_violated). Modality, task and meta texts are not modelled; digits are ASCII."
  },
  {
   "property": "C168",
   "status": "partial",
   "theorems": [
    "ModSSC.DataLoader.Provider.C168_limits",
    "ModSSC.DataLoader.Provider.C168_hf",
    "ModSSC.DataLoader.Provider.C168_hf_missing",
    "ModSSC.DataLoader.Provider.C168_tfds",
    "ModSSC.DataLoader.Provider.C168_tfds_limits_violated",
    "ModSSC.DataLoader.Provider.C168_tfds_dictionaries_violated",
    "ModSSC.DataLoader.Provider.C168_tfds_dictionaries_fail",
    "ModSSC.DataLoader.Provider.C168_openml",
    "ModSSC.DataLoader.Provider.C168_tv_objects",
    "ModSSC.DataLoader.Provider.C168_torchvision",
    "ModSSC.DataLoader.Provider.C168_ta_objects",
    "ModSSC.DataLoader.Provider.C168_ta_files",
    "ModSSC.DataLoader.Provider.C168_ta_waveforms",
    "ModSSC.DataLoader.Provider.C168_torchaudio",
    "ModSSC.DataLoader.Provider.C168_toy"
   ],
   "note": "Proved: C168_limits, C168_hf, C168_hf_missing, C168_tfds, C168_tfds_dictionaries_fail, C168_openml, C168_tv_objects, C168_torchvision, C168_ta_objects, C168_ta_files, C168_ta_waveforms, C168_torchaudio, C168_toy. Violations: TFDS ignores class filter and limits (C168_tfds_limits_violated), delivers feature names instead of samples for two-feature dictionaries (C168_tfds_dictionaries_violated), and takes any failure of the test split for its absence (second part of C168_tfds). Labels are integers; the libraries themselves are parameters."
  },
  {
   "property": "C169",
   "status": "partial",
   "theorems": [
    "ModSSC.Deep.Noisy.C169_refused",
    "ModSSC.Deep.Noisy.C169_training",
    "ModSSC.Deep.Noisy.C169_teacher",
    "ModSSC.Deep.Noisy.C169_accepts",
    "ModSSC.Deep.Noisy.C169_late_violated",
    "ModSSC.Deep.Noisy.C169_given_teacher_violated"
   ],
   "note": "C169_training: any student, teacher row-wise in evaluation mode. C169_accepts: row-wise networks. Violations proved: an unfit ema_model is rejected only after the network was trained; a given teacher is overwritten."
  },
  {
   "property": "C170",
   "status": "partial",
   "theorems": [
    "ModSSC.Deep.Mpl.C170_refused",
    "ModSSC.Deep.Mpl.C170_parameters_partial",
    "ModSSC.Deep.Mpl.C170_training",
    "ModSSC.Deep.Mpl.C170_accepts",
    "ModSSC.Deep.Mpl.C170_late_violated",
    "ModSSC.Deep.Mpl.C170_temperature_violated"
   ],
   "note": "C170_training, C170_accepts: networks that treat rows by themselves. C170_refused: any networks. C170_parameters_partial: refused parameters leave student and object, but not the teacher, as they were. Violations proved: the teacher is overwritten before the parameters are checked; uda_temperature is only checked in the first step."
  },
  {
   "property": "C171",
   "status": "partial",
   "theorems": [
    "ModSSC.DataLoader.Pyg.C171_graph",
    "ModSSC.DataLoader.Pyg.C171_errors",
    "ModSSC.DataLoader.Pyg.C171_reference",
    "ModSSC.DataLoader.Pyg.C171_distinct",
    "ModSSC.DataLoader.Pyg.C171_mask_columns_violated",
    "ModSSC.DataLoader.Pyg.C171_graph_label_violated",
    "ModSSC.DataLoader.Pyg.C171_no_features_violated"
   ],
   "note": "C171_graph: graphs with one flag per node and mask. Violations proved: a mask with several splits is flattened, so a node gets the flag of another node; the label of a whole graph becomes that of its first node and further graphs are dropped; a graph without features and labels loses its edges."
  },
  {
   "property": "C172",
   "status": "partial",
   "theorems": [
    "ModSSC.DataLoader.Service.C172_history",
    "ModSSC.DataLoader.Service.C172_provenance",
    "ModSSC.DataLoader.Service.C172_meta",
    "ModSSC.DataLoader.Service.C172_offline",
    "ModSSC.DataLoader.Service.C172_isolated",
    "ModSSC.DataLoader.Service.C172_again",
    "ModSSC.DataLoader.Service.C172_failed",
    "ModSSC.DataLoader.Service.C172_catalog",
    "ModSSC.DataLoader.Service.C172_meta_violated",
    "ModSSC.DataLoader.Service.C172_keys_violated",
    "ModSSC.DataLoader.Service.C172_two_names"
   ],
   "note": "C172_provenance: the fingerprint (SHA-256 of canonical JSON) is assumed to tell identities apart; C172_again: equality of metadata for small JSON and datasets without path rebasing. Completed calls of one process; crashes are C27, the lock is C26. Violations proved: lists of more than 50 elements and keys that print alike are lost when metadata passes the cache."
  },
  {
   "property": "C173",
   "status": "proved",
   "theorems": [
    "ModSSC.Deep.Dct.C173_refused",
    "ModSSC.Deep.Dct.C173_training",
    "ModSSC.Deep.Dct.C173_accepts"
   ],
   "note": "Networks with batch norm or dropout are covered only by C173_refused. Tensors only (no graph dictionaries); the label -100, which torch ignores, counts as refused; the gradient and the optimizers are parameters."
  },
  {
   "property": "C174",
   "status": "partial",
   "theorems": [
    "ModSSC.Deep.Mix.C174_refused",
    "ModSSC.Deep.Mix.C174_training",
    "ModSSC.Deep.Mix.C174_accepts",
    "ModSSC.Deep.Mix.C174_global",
    "ModSSC.Deep.Mix.C174_seed_violated"
   ],
   "note": "C174_refused, C174_training, C174_accepts and C174_global prove the first part; C174_seed_violated refutes that the seed fixes the training. Networks with batch norm or dropout are covered by C174_refused and C174_global only. Tensors only (no graph dictionaries); a missing head or features are not modelled; neither is broadcasting of a single class."
  },
  {
   "property": "C175",
   "status": "proved",
   "theorems": [
    "ModSSC.Deep.AdshFit.C175_refused",
    "ModSSC.Deep.AdshFit.C175_training",
    "ModSSC.Deep.AdshFit.C175_accepts",
    "ModSSC.Deep.AdshFit.C175_labels",
    "ModSSC.Deep.AdshFit.C175_modes"
   ],
   "note": "C175_refused, C175_accepts, C175_labels, C175_training (row-wise networks) and C175_modes (any network). The threshold formula itself is C116. Exact rationals; tensors only (no graph dictionaries); majority_class is an integer or absent; detach_target is part of the optimizer step."
  },
  {
   "property": "C176",
   "status": "partial",
   "theorems": [
    "ModSSC.Deep.Defix.C176_refused",
    "ModSSC.Deep.Defix.C176_accepts",
    "ModSSC.Deep.Defix.C176_training",
    "ModSSC.Deep.Defix.C176_cancel",
    "ModSSC.Deep.Defix.C176_cat",
    "ModSSC.Deep.Defix.C176_default_violated"
   ],
   "note": "C176_refused, C176_accepts, C176_training, C176_cancel and C176_cat. Violated without a strong labeled view (C176_default_violated): the rows of X_l are then used on both sides, and nothing in the package provides X_l_s, so the default run subtracts a different quantity. Row-wise networks, tensors only, exact rationals."
  },
  {
   "property": "C177",
   "status": "partial",
   "theorems": [
    "ModSSC.Bench.Node.C177_edges_partial",
    "ModSSC.Bench.Node.C177_two_edges_violated",
    "ModSSC.Bench.Node.C177_features",
    "ModSSC.Bench.Node.C177_field_violated",
    "ModSSC.Bench.Node.C177_well_formed",
    "ModSSC.Bench.Node.C177_fits",
    "ModSSC.Bench.Node.C177_cache_partial",
    "ModSSC.Bench.Node.C177_cache_violated",
    "ModSSC.Bench.Node.C177_choice"
   ],
   "note": "C177_features, C177_well_formed, C177_fits, C177_choice, C177_edges_partial, C177_cache_partial. Violated in three ways: an edge list of exactly two pairs is read as two rows, so other edges result (C177_two_edges_violated); a feature field that no step produced silently falls back to the features of the data set (C177_field_violated); the cache entry of a graph does not depend on whether the test split is included, so a run after one with the official test set gets a graph with too many nodes and fails (C177_cache_violated, for every hash function). The transparency of the cache is proved under the assumption that runs with the same entry have the same input. Dense features, integer edges, one-dimensional labels."
  },
  {
   "property": "C178",
   "status": "proved",
   "theorems": [
    "ModSSC.Transductive.C178_report",
    "ModSSC.Transductive.C178_labels",
    "ModSSC.Transductive.C178_rows",
    "ModSSC.Transductive.C178_approach",
    "ModSSC.Transductive.C178_approach_sym",
    "ModSSC.Transductive.C178_error",
    "ModSSC.Transductive.C178_solution",
    "ModSSC.Transductive.C178_backends",
    "ModSSC.Transductive.C178_needs_hypotheses"
   ],
   "note": "C178_report, C178_labels, C178_rows, C178_approach, C178_approach_sym, C178_error, C178_solution, C178_backends. The solver checks neither alpha nor the weights: without the hypotheses the scores leave [0, 1] (C178_needs_hypotheses). Exact arithmetic."
  },
  {
   "property": "C179",
   "status": "proved",
   "theorems": [
    "ModSSC.Deep.Fit.C179_flexmatch",
    "ModSSC.Deep.Fit.C179_freematch",
    "ModSSC.Deep.Fit.C179_adamatch",
    "ModSSC.Deep.Fit.C179_softmatch",
    "ModSSC.Deep.Fit.C179_uda"
   ],
   "note": "C179_flexmatch, C179_freematch, C179_adamatch, C179_softmatch, C179_uda: exact losses of all steps of a first fit, from the history of the training. For a later fit of the same object see C110_refit_violated, C111_refit_violated, C112_refit_violated. FlexMatch: positions within the pool (C110_positions_violated). FreeMatch: at most 10^12 classes. Exact arithmetic, networks without batch norm and dropout."
  },
  {
   "property": "C180",
   "status": "proved",
   "theorems": [
    "ModSSC.Deep.CoFit.C180_refused",
    "ModSSC.Deep.CoFit.C180_accepts",
    "ModSSC.Deep.CoFit.C180_training",
    "ModSSC.Deep.CoFit.C180_fresh",
    "ModSSC.Deep.CoFit.C180_cat",
    "ModSSC.Deep.CoFit.C180_detach"
   ],
   "note": "C180_refused, C180_accepts, C180_training (loss and pseudo-labels of every step, refining C119), C180_fresh, C180_cat, C180_detach. Row-wise networks for accepts, training and cat; tensors only (graph dictionaries are not modelled), exact arithmetic. A label outside the classes is noticed only when its batch comes up (example beside the theorems, cf. C161_label_violated)."
  },
  {
   "property": "C181",
   "status": "proved",
   "theorems": [
    "ModSSC.Deep.DasoFit.C181_refused",
    "ModSSC.Deep.DasoFit.C181_accepts",
    "ModSSC.Deep.DasoFit.C181_training",
    "ModSSC.Deep.DasoFit.C181_cat",
    "ModSSC.Deep.DasoFit.C181_pretraining"
   ],
   "note": "C181_refused, C181_accepts, C181_training (loss, prototypes, pseudo-labels and averaged parameters of every step, refining C120), C181_cat, C181_pretraining. Row-wise networks for all but refusal; tensors only (graph dictionaries are not modelled), exact arithmetic."
  },
  {
   "property": "C182",
   "status": "partial",
   "theorems": [
    "ModSSC.Gnn.Grafn.C182_view",
    "ModSSC.Gnn.Grafn.C182_training",
    "ModSSC.Gnn.Grafn.C182_accepts",
    "ModSSC.Gnn.Grafn.C182_predict",
    "ModSSC.Gnn.Grafn.C182_hidden_violated",
    "ModSSC.Gnn.Grafn.C182_hidden_partial",
    "ModSSC.Gnn.Grafn.C182_failed_violated",
    "ModSSC.Gnn.Grafn.C182_graph_violated"
   ],
   "note": "Holds: acceptance exactly, the loss, support, views and targets of every epoch, the choice of the network, and that predictions are distributions. Violated: a class that occurs only in hidden labels makes fit fail; after a failed first fit predict_proba answers with an untrained network; predict_proba ignores the graph of the data it is given and uses the graph of the fit. prepare_data and its errors are C141, C160; torch's network, gradients and Adam are parameters."
  },
  {
   "property": "C183",
   "status": "partial",
   "theorems": [
    "ModSSC.Gnn.Grand.C183_training",
    "ModSSC.Gnn.Grand.C183_accepts",
    "ModSSC.Gnn.Grand.C183_consistency",
    "ModSSC.Gnn.Grand.C183_no_noise",
    "ModSSC.Gnn.Grand.C183_predict",
    "ModSSC.Gnn.Grand.C183_hidden_partial",
    "ModSSC.Gnn.Grand.C183_dropnode_violated",
    "ModSSC.Gnn.Grand.C183_empty_violated",
    "ModSSC.Gnn.Grand.C183_hidden_violated",
    "ModSSC.Gnn.Grand.C183_failed_violated"
   ],
   "note": "Holds: acceptance exactly, augmentations and loss of every epoch, sign of the consistency loss, the choice of the network, and predictions on the graph that is given. Violated: dropnode drops single features, not nodes; fitting without training nodes succeeds with losses that are not numbers; a class that occurs only in hidden labels gets a column; after a failed first fit predict_proba answers with an untrained network. prepare_data and its errors are C141, C160; torch's gradients and Adam are parameters; that the weights become NaN is not modelled, only the loss."
  },
  {
   "property": "C184",
   "status": "partial",
   "theorems": [
    "ModSSC.Sampling.Validate.C184_inductive",
    "ModSSC.Sampling.Validate.C184_graph",
    "ModSSC.Sampling.Validate.C184_accessors",
    "ModSSC.Sampling.Validate.C184_refs_violated",
    "ModSSC.Sampling.Validate.C184_both_violated",
    "ModSSC.Sampling.Validate.C184_leakfree_partial",
    "ModSSC.Sampling.Validate.C184_sampler"
   ],
   "note": "Holds: exact acceptance for index arrays and for masks, that accepted results partition as stated, that no sample is in two parts when labeled and unlabeled arrays refer to the training split, and that the sampler's check is the same. Violated: the reference of the labeled array is not looked at, so labeled samples may be test samples; with masks the index arrays are not looked at. Arrays are one-dimensional."
  },
  {
   "property": "C185",
   "status": "partial",
   "theorems": [
    "ModSSC.Bench.Resolve.C185_transductive",
    "ModSSC.Bench.Resolve.C185_strict",
    "ModSSC.Bench.Resolve.C185_inductive",
    "ModSSC.Bench.Resolve.C185_inductive_auto_violated",
    "ModSSC.Bench.Resolve.C185_report_violated",
    "ModSSC.Bench.Resolve.C185_label_propagation",
    "ModSSC.Bench.Resolve.C185_report_partial"
   ],
   "note": "Holds: exactly when a run is prepared and with which settings, for both runners; that strict transductive runs leave neither device nor backend open; that a named backend is the reported one. Violated: the inductive runner itself lets a strict run through whose device or default backend is to be chosen (the configuration check, C132, is what refuses these); with backend 'auto' the report repeats 'auto', and methods without such a setting report nothing although torch computes. Dataclass fields have distinct names and no hooks; injection of networks is C163."
  },
  {
   "property": "C186",
   "status": "partial",
   "theorems": [
    "ModSSC.Gnn.Gat.C186_attention",
    "ModSSC.Gnn.Gat.C186_reach",
    "ModSSC.Gnn.Gat.C186_edge_order",
    "ModSSC.Gnn.Gat.C186_relabel",
    "ModSSC.Gnn.Gat.C186_edge_set",
    "ModSSC.Gnn.Gat.C186_unweighted",
    "ModSSC.Gnn.Gat.C186_zero_weight_violated",
    "ModSSC.Gnn.Gat.C186_twice_violated",
    "ModSSC.Gnn.Gat.C186_score",
    "ModSSC.Gnn.Gat.C186_hidden",
    "ModSSC.Gnn.Gat.C186_predict"
   ],
   "note": "Holds: attention equals softmax up to eps, two-step reach, independence of edge order and node names, dependence on the set of edges only with self-loops, distributions, and that a node without edges into it gets a prediction that ignores all features. Violated: weights are ignored, so an edge of weight zero still gets attention; without self-loops an edge listed twice counts twice. Evaluation mode; dropout and training are C139."
  },
  {
   "property": "C187",
   "status": "partial",
   "theorems": [
    "ModSSC.Gnn.Nets.C187_local",
    "ModSSC.Gnn.Nets.C187_reach",
    "ModSSC.Gnn.Nets.C187_edge_order",
    "ModSSC.Gnn.Nets.C187_relabel",
    "ModSSC.Gnn.Nets.C187_distribution",
    "ModSSC.Gnn.Nets.C187_data_partial",
    "ModSSC.Gnn.Nets.C187_data_violated"
   ],
   "note": "Holds: reach, order of edges, names of nodes, distributions; predictions are for the given data except for SGC. Violated: SGC predicts for the data it was fitted on and ignores features and edges of the data given, checking only the number of nodes. Evaluation mode; dropout and training are C139."
  },
  {
   "property": "C188",
   "status": "partial",
   "theorems": [
    "ModSSC.Gnn.Hgcn.C188_accept",
    "ModSSC.Gnn.Hgcn.C188_weights",
    "ModSSC.Gnn.Hgcn.C188_total",
    "ModSSC.Gnn.Hgcn.C188_order",
    "ModSSC.Gnn.Hgcn.C188_adjacency",
    "ModSSC.Gnn.Hgcn.C188_coefficient",
    "ModSSC.Gnn.Hgcn.C188_layer",
    "ModSSC.Gnn.Hgcn.C188_components_partial",
    "ModSSC.Gnn.Hgcn.C188_components_violated",
    "ModSSC.Gnn.Hgcn.C188_direction_violated",
    "ModSSC.Gnn.Hgcn.C188_distribution",
    "ModSSC.Gnn.Hgcn.C188_data_violated",
    "ModSSC.Gnn.Hgcn.C188_features_only"
   ],
   "note": "Holds: acceptance, weights count original nodes, embedding lookups and prediction never fail, distributions, and if no coarsened graph has an isolated node predictions depend only on the connected part. Violated: nodes without edges count as equivalent and are merged, so the prediction for one changes with features of another; without symmetrization features flow against the edges; the edges of the data given to prediction are ignored."
  },
  {
   "property": "C189",
   "status": "partial",
   "theorems": [
    "ModSSC.Gnn.Ngcn.C189_accept",
    "ModSSC.Gnn.Ngcn.C189_powers",
    "ModSSC.Gnn.Ngcn.C189_reach",
    "ModSSC.Gnn.Ngcn.C189_direction_violated",
    "ModSSC.Gnn.Ngcn.C189_relabel",
    "ModSSC.Gnn.Ngcn.C189_undirected",
    "ModSSC.Gnn.Ngcn.C189_undirected_violated",
    "ModSSC.Gnn.Ngcn.C189_outputs",
    "ModSSC.Gnn.Ngcn.C189_distribution",
    "ModSSC.Gnn.Ngcn.C189_data_violated"
   ],
   "note": "Holds: acceptance, what powers of the adjacency contain, reach, renaming, undirected lists of nonnegative edges, distributions. Violated: without symmetrization features flow against the edges; an edge of negative weight listed once disappears when symmetrizing; the edges of the data given to prediction are ignored."
  },
  {
   "property": "C190",
   "status": "partial",
   "theorems": [
    "ModSSC.Gnn.GraphHop.C190_accept",
    "ModSSC.Gnn.GraphHop.C190_sum",
    "ModSSC.Gnn.GraphHop.C190_distribution_partial",
    "ModSSC.Gnn.GraphHop.C190_graph",
    "ModSSC.Gnn.GraphHop.C190_hidden_partial",
    "ModSSC.Gnn.GraphHop.C190_losses",
    "ModSSC.Gnn.GraphHop.C190_temperature",
    "ModSSC.Gnn.GraphHop.C190_warm",
    "ModSSC.Gnn.GraphHop.C190_validation_violated",
    "ModSSC.Gnn.GraphHop.C190_history",
    "ModSSC.Gnn.GraphHop.C190_distribution_violated",
    "ModSSC.Gnn.GraphHop.C190_hidden_violated",
    "ModSSC.Gnn.GraphHop.C190_given_data_violated"
   ],
   "note": "Holds: acceptance, row sums, graph invariance, what is optimized, history of stored predictions. Violated: prediction weights that do not add up to one are accepted and rows then do not add up to one; a hidden label of a class without training node makes fit refuse; predictions ignore the data given, and a refused refit leaves the old predictions in place."
  },
  {
   "property": "C191",
   "status": "partial",
   "theorems": [
    "ModSSC.Preprocess.Dgi.C191_accept",
    "ModSSC.Preprocess.Dgi.C191_forms_partial",
    "ModSSC.Preprocess.Dgi.C191_reach",
    "ModSSC.Preprocess.Dgi.C191_isolated",
    "ModSSC.Preprocess.Dgi.C191_contrast",
    "ModSSC.Preprocess.Dgi.C191_seed_partial",
    "ModSSC.Preprocess.Dgi.C191_seed_violated",
    "ModSSC.Preprocess.Dgi.C191_forms_violated"
   ],
   "note": "Holds: acceptance, number of rows, reach, isolated nodes, what the optimization sees. Violated: the networks are created before torch is seeded, so the seed does not decide the embeddings; exactly two edges given as rows are taken for other edges."
  },
  {
   "property": "C192",
   "status": "partial",
   "theorems": [
    "ModSSC.Sampling.Report.C192_counts",
    "ModSSC.Sampling.Report.C192_sum",
    "ModSSC.Sampling.Report.C192_graph_counts",
    "ModSSC.Sampling.Report.C192_warn",
    "ModSSC.Sampling.Report.C192_graph_silent",
    "ModSSC.Sampling.Report.C192_warn_violated",
    "ModSSC.Sampling.Report.C192_fingerprint"
   ],
   "note": "Holds: counts of index and graph results, sums, warnings for index results, choice of fingerprint. Violated: for graphs no warning is ever given, although a class of the training nodes can be without labeled node."
  },
  {
   "property": "C193",
   "status": "partial",
   "theorems": [
    "ModSSC.Transductive.Torch.C193_propagation_partial",
    "ModSSC.Transductive.Torch.C193_spreading_partial",
    "ModSSC.Transductive.Torch.C193_backends_partial",
    "ModSSC.Transductive.Torch.C193_dispatch",
    "ModSSC.Transductive.Torch.C193_fit_partial",
    "ModSSC.Transductive.Torch.C193_positions",
    "ModSSC.Transductive.Torch.C193_empty",
    "ModSSC.Transductive.Torch.C193_fit_violated",
    "ModSSC.Transductive.Torch.C193_edges_violated"
   ],
   "note": "Holds exactly (over exact numbers) if the graph has nodes, its edges join nodes, and one of the nodes marked as labeled has a label. Violated: if no node marked as labeled has a label, numpy takes the classes of all nodes and torch only one, so a fit succeeds without torch and is refused with it; torch counts a negative source from the end where numpy refuses it; without nodes and iterations torch gives a result."
  },
  {
   "property": "C194",
   "status": "partial",
   "theorems": [
    "ModSSC.Inductive.Group.C194_named",
    "ModSSC.Inductive.Group.C194_found",
    "ModSSC.Inductive.Group.C194_use",
    "ModSSC.Inductive.Group.C194_refused",
    "ModSSC.Inductive.Group.C194_ignored_violated"
   ],
   "note": "Holds: named entries, order of the known names, when labels are propagated, refusals. Violated: an entry under a known name with a wrong number of ids is passed over silently, and labels are not propagated."
  },
  {
   "property": "C195",
   "status": "partial",
   "theorems": [
    "ModSSC.CachePath.C195_repository",
    "ModSSC.CachePath.C195_base",
    "ModSSC.CachePath.C195_own",
    "ModSSC.CachePath.C195_default",
    "ModSSC.CachePath.C195_separate",
    "ModSSC.CachePath.C195_split_dirs",
    "ModSSC.CachePath.C195_split_root",
    "ModSSC.CachePath.C195_views_violated",
    "ModSSC.CachePath.C195_views_partial",
    "ModSSC.CachePath.C195_placeholder_partial",
    "ModSSC.CachePath.C195_placeholder_views_violated",
    "ModSSC.CachePath.C195_placeholder_repo_violated",
    "ModSSC.CachePath.C195_model_root",
    "ModSSC.CachePath.C195_model_own",
    "ModSSC.CachePath.C195_model_default",
    "ModSSC.CachePath.C195_torch_told",
    "ModSSC.CachePath.C195_torch_again",
    "ModSSC.CachePath.C195_torch_empty_violated",
    "ModSSC.CachePath.C195_flags"
   ],
   "note": "Holds: precedence of the variables, the closest repository, separation of the five kinds when no directory is named, model directories, flags. Violated: graphs kept in a directory called graph_views share it with their views; the placeholder for views differs from the library's directory when the graphs' directory is named, and placeholders differ for a configuration of another repository; with TORCH_HOME empty torch is not told the reported directory."
  },
  {
   "property": "C196",
   "status": "partial",
   "theorems": [
    "ModSSC.Inductive.C196_fit",
    "ModSSC.Inductive.C196_predict",
    "ModSSC.Inductive.C196_classes",
    "ModSSC.Inductive.C196_unknown",
    "ModSSC.Inductive.C196_unknown_violated"
   ],
   "note": "Holds in exact arithmetic for classifiers that know and predict only the labels they were trained with: fit, probabilities, predictions; acceptance of class lists. Violated: with torch a predicted label that is no class counts as a vote for the next class above it, so a class no learner predicted can win, where numpy refuses."
  },
  {
   "property": "C197",
   "status": "partial",
   "theorems": [
    "ModSSC.Graph.Neighbor.C197_faiss_exact",
    "ModSSC.Graph.Neighbor.C197_faiss_any",
    "ModSSC.Graph.Neighbor.C197_approximate_violated",
    "ModSSC.Graph.Neighbor.C197_sklearn",
    "ModSSC.Graph.Neighbor.C197_sklearn_partial",
    "ModSSC.Graph.Neighbor.C197_sklearn_violated",
    "ModSSC.Graph.Neighbor.C197_sklearn_radius",
    "ModSSC.Graph.Neighbor.C197_same_distances"
   ],
   "note": "Holds for an exact faiss index, for the radius graph, and for scikit-learn where no other point equals the node; two exact results always have the same distances. Any index: at most k distinct others with true distances. Violated: with equal points scikit-learn can give a node k + 1 neighbours; with the default approximate faiss index a node can be left without any."
  },
  {
   "property": "C198",
   "status": "partial",
   "theorems": [
    "ModSSC.Supervised.TextCnn.C198_trained",
    "ModSSC.Supervised.TextCnn.C198_accepts",
    "ModSSC.Supervised.TextCnn.C198_reproducible",
    "ModSSC.Supervised.TextCnn.C198_layout",
    "ModSSC.Supervised.TextCnn.C198_predict",
    "ModSSC.Supervised.TextCnn.C198_feature",
    "ModSSC.Supervised.TextCnn.C198_stretches",
    "ModSSC.Supervised.TextCnn.C198_failed_fit_violated"
   ],
   "note": "Holds in exact arithmetic for networks that keep their sizes: acceptance, kernels, training, independence of earlier fits, layouts, answers and refusals, and what the scores depend on. Violated: when a step of a second fit raises, the classifier has the labels of the second fit with the network of the first, and answers with them."
  },
  {
   "property": "C199",
   "status": "partial",
   "theorems": [
    "ModSSC.Graph.C199_kinds",
    "ModSSC.Graph.C199_values",
    "ModSSC.Graph.C199_heat",
    "ModSSC.Graph.C199_plain",
    "ModSSC.Graph.C199_normalized",
    "ModSSC.Graph.C199_shape",
    "ModSSC.Graph.C199_walk",
    "ModSSC.Graph.C199_cosine_violated"
   ],
   "note": "Holds in exact arithmetic for all combinations of options; sums to one only where the weights before normalization sum to at least eps. Violated: cosine weights of opposite vectors are negative, and normalized with rw they are multiplied by 1/eps instead of scaled to sum to one."
  },
  {
   "property": "C200",
   "status": "partial",
   "theorems": [
    "ModSSC.Trinet.C200_bundles",
    "ModSSC.Trinet.C200_parameters",
    "ModSSC.Trinet.C200_run",
    "ModSSC.Trinet.C200_frozen",
    "ModSSC.Trinet.C200_single",
    "ModSSC.Trinet.C200_steps",
    "ModSSC.Trinet.C200_round",
    "ModSSC.Trinet.C200_smeared",
    "ModSSC.Trinet.C200_total",
    "ModSSC.Trinet.C200_failed_fit_violated",
    "ModSSC.Trinet.C200_refit_violated"
   ],
   "note": "Networks with their optimizers are abstract; the step functions are parameters. Holds except the last sentence. Violated: fit works on the networks of the specification in place, so a fit that raises in a round has changed them, and a second fit goes on from the first one's networks."
  },
  {
   "property": "C201",
   "status": "partial",
   "theorems": [
    "ModSSC.Supervised.AudioPre.C201_features",
    "ModSSC.Supervised.AudioPre.C201_accepts",
    "ModSSC.Supervised.AudioPre.C201_trained",
    "ModSSC.Supervised.AudioPre.C201_answers",
    "ModSSC.Supervised.AudioPre.C201_layouts",
    "ModSSC.Supervised.AudioPre.C201_failed_fit_violated"
   ],
   "note": "Backbone, head and optimiser are parameters with stated contracts. Holds except the last sentence. Violated: the classes and the backbone are stored before the number of labels is checked, so after a refused fit the old head answers with the new labels."
  },
  {
   "property": "C202",
   "status": "partial",
   "theorems": [
    "ModSSC.Inductive.Views.C202_fit_view",
    "ModSSC.Inductive.Views.C202_predict_view",
    "ModSSC.Inductive.Views.C202_reuse_partial",
    "ModSSC.Inductive.Views.C202_tuple_violated",
    "ModSSC.Inductive.Views.C202_plain_graph_violated",
    "ModSSC.Inductive.Views.C202_enlarge_array",
    "ModSSC.Inductive.Views.C202_enlarge_graph",
    "ModSSC.Inductive.Views.C202_enlarge_range",
    "ModSSC.Inductive.Views.C202_weights_violated",
    "ModSSC.Inductive.Views.C202_mixed_violated"
   ],
   "note": "Violated in four ways: tuples accepted for fitting are refused for prediction; a graph that is itself the view is refused for prediction; edge weights are not extended; a view of a graph and an array is accepted but cannot be joined."
  },
  {
   "property": "C203",
   "status": "partial",
   "theorems": [
    "ModSSC.Utils.Logging.C203_names",
    "ModSSC.Utils.Logging.C203_precedence_partial",
    "ModSSC.Utils.Logging.C203_blank_env_violated",
    "ModSSC.Utils.Logging.C203_blank_option_violated",
    "ModSSC.Utils.Logging.C203_once",
    "ModSSC.Utils.Logging.C203_configure",
    "ModSSC.Utils.Logging.C203_not_passed_on",
    "ModSSC.Utils.Logging.C203_passed_on",
    "ModSSC.Utils.Logging.C203_refused"
   ],
   "note": "Python's logging is modelled as loggers with levels, handler lists and a propagate flag. Violated for blanks: a blank environment variable raises, and the command line refuses a blank option that the library takes as not given."
  },
  {
   "property": "C204",
   "status": "partial",
   "theorems": [
    "ModSSC.Supervised.Sage.C204_hidden_sizes",
    "ModSSC.Supervised.Sage.C204_no_sizes",
    "ModSSC.Supervised.Sage.C204_layers_partial",
    "ModSSC.Supervised.Sage.C204_layers_violated",
    "ModSSC.Supervised.Sage.C204_width_violated",
    "ModSSC.Supervised.Sage.C204_forward",
    "ModSSC.Supervised.Sage.C204_inputs",
    "ModSSC.Supervised.Sage.C204_weights_violated",
    "ModSSC.Supervised.Sage.C204_classes",
    "ModSSC.Supervised.Sage.C204_activation_violated"
   ],
   "note": "Convolutions and activations are parameters; training itself is in NetModel. Violated: num_layers below one gives one layer, hidden_channels is not checked, edge weights are ignored, an unknown activation is refused only by fit, after the classes were replaced."
  },
  {
   "property": "C205",
   "status": "partial",
   "theorems": [
    "ModSSC.Sampling.History.C205_returned",
    "ModSSC.Sampling.History.C205_reproducible",
    "ModSSC.Sampling.History.C205_place",
    "ModSSC.Sampling.History.C205_raised",
    "ModSSC.Sampling.History.C205_refused",
    "ModSSC.Sampling.History.C205_history",
    "ModSSC.Sampling.History.C205_first_stays",
    "ModSSC.Sampling.History.C205_again_violated",
    "ModSSC.Sampling.History.C205_other_data_violated"
   ],
   "note": "Samplers and the hash are parameters; the place theorem assumes that the hash does not collide on the two requests. Violated: a repeated saving call raises instead of returning the stored split; two different datasets with the same fingerprint share a place."
  },
  {
   "property": "C206",
   "status": "partial",
   "theorems": [
    "ModSSC.DataLoader.Manifest.C206_summary",
    "ModSSC.DataLoader.Manifest.C206_contents_hidden",
    "ModSSC.DataLoader.Manifest.C206_writable",
    "ModSSC.DataLoader.Manifest.C206_round_trip_partial",
    "ModSSC.DataLoader.Manifest.C206_older",
    "ModSSC.DataLoader.Manifest.C206_lost_key",
    "ModSSC.DataLoader.Manifest.C206_names_violated",
    "ModSSC.DataLoader.Manifest.C206_distinguish_violated"
   ],
   "note": "The json module is trusted; values of another kind than to_dict writes are a type error in the model. Violated: integer mask names come back as text; a manifest does not tell datasets with equal shapes apart."
  },
  {
   "property": "C207",
   "status": "partial",
   "theorems": [
    "ModSSC.Utils.Builtin.C207_found",
    "ModSSC.Utils.Builtin.C207_listed",
    "ModSSC.Utils.Builtin.C207_isolated_violated",
    "ModSSC.Utils.Builtin.C207_loadable_violated"
   ],
   "note": "The list of built-in methods and the import are parameters. Violated: registering a built-in id with another path before the first use is accepted and makes every later listing and lookup raise; a path with two colons is accepted and cannot be loaded."
  }
 ]
}