{"id": "C01", "title": "Holdout splitting never leaks or loses a sample", "statement": "make_holdout_split returns train, val and test index arrays that are sorted, duplicate-free, pairwise disjoint, and whose union is exactly {0,...,n_samples-1}.", "quantifier": "every dataset size, label vector, test/val fraction, stratify flag and random generator behaviour", "why_tests_cant": "The split depends on the random permutation, on float rounding and on class counts; a test fixes a seed and a label vector.", "anchors": ["src/modssc/sampling/splitters.py:random_split", "src/modssc/sampling/splitters.py:stratified_holdout", "src/modssc/sampling/splitters.py:make_holdout_split"]}
{"id": "C02", "title": "Holdout sizes are exactly the rounded fractions", "statement": "The test part of make_holdout_split has exactly round(test_fraction*n) elements clamped to [0,n], and the val part exactly round(val_fraction*(n-|test|)) clamped; this holds for plain and stratified splitting alike.", "quantifier": "every size, fraction, label vector and random generator behaviour", "why_tests_cant": "Largest-remainder apportionment could lose or gain a unit for particular class-count vectors; tests try a handful of them.", "anchors": ["src/modssc/sampling/splitters.py:stratified_holdout", "src/modssc/sampling/splitters.py:make_holdout_split"]}
{"id": "C03", "title": "Stratified holdout keeps class proportions to within one sample", "statement": "In a stratified holdout of h out of n samples, a class with c members contributes either floor(c*h/n) or floor(c*h/n)+1 members to the holdout.", "quantifier": "every index set, label vector, holdout size and random generator behaviour", "why_tests_cant": "Proportionality has to hold for every class-count vector and tie-break of the remainder sort.", "anchors": ["src/modssc/sampling/splitters.py:stratified_holdout", "src/modssc/sampling/common.py:class_counts"]}
{"id": "C04", "title": "K-fold test folds partition the data and train is the complement", "statement": "For fixed k and generator, the test parts of make_kfold_split over fold=0..k-1 are pairwise disjoint and cover all samples exactly once; for each fold train, val and test partition the samples.", "quantifier": "every n, k>=2, fold, label vector, shuffle/stratify flag, val fraction and generator behaviour", "why_tests_cant": "Each fold is computed by a separate call; only quantification over all folds and generators shows that no sample is tested twice or never.", "anchors": ["src/modssc/sampling/splitters.py:make_kfold_split", "src/modssc/sampling/splitters.py:plain_kfold", "src/modssc/sampling/splitters.py:stratified_kfold"]}
{"id": "C05", "title": "K-fold sizes are balanced", "statement": "Test folds of plain k-fold differ in size by at most one; with stratification each class is spread over the folds so that the per-class fold counts differ by at most one.", "quantifier": "every n, k, label vector and generator behaviour", "why_tests_cant": "Balance is an arithmetic fact for every n and k (including n<k), which tests sample.", "anchors": ["src/modssc/sampling/splitters.py:plain_kfold", "src/modssc/sampling/splitters.py:stratified_kfold"]}
{"id": "C06", "title": "Labeled selection picks distinct training samples", "statement": "select_labeled returns a sorted duplicate-free array that is a subset of the training indices; with fixed_indices it returns exactly those indices, and it raises if one of them is outside the training set or repeated.", "quantifier": "every training index set, label vector, labeling spec and generator behaviour", "why_tests_cant": "The per-class allocation loop adjusts counts in data-dependent ways.", "anchors": ["src/modssc/sampling/labeling.py:select_labeled"]}
{"id": "C07", "title": "The number of labeled samples is exactly the requested target, raised only by min_per_class", "statement": "For every mode (with non-negative value), |labeled| = max(target, m*B) where target is the clamped request, m is min_per_class and B the number of classes with at least m members; in particular the request is honoured exactly whenever m*B <= target.", "quantifier": "every class-count vector, mode, strategy, value and tie-break of the sorts", "why_tests_cant": "The correction loops (remove from largest, add where possible) have to land exactly on target for every count vector.", "anchors": ["src/modssc/sampling/labeling.py:select_labeled"]}
{"id": "C08", "title": "min_per_class is honoured for every class that can afford it", "statement": "Every class with at least min_per_class members in the training set receives at least min_per_class labeled samples, and no class receives more labels than it has members.", "quantifier": "every class-count vector, mode, strategy and tie-break", "why_tests_cant": "The removal loop could undercut the floor for an unlucky order.", "anchors": ["src/modssc/sampling/labeling.py:select_labeled"]}
{"id": "C09", "title": "Balanced and per-class labeling give every class its share", "statement": "strategy='balanced' gives labeled class counts differing by at most one unless a class is exhausted, and mode='per_class' never labels more than `value` samples of one class.", "quantifier": "every class-count vector and target", "why_tests_cant": "Only imbalanced class vectors with an exhausted class expose the top-up loop that concentrates the surplus on one class.", "anchors": ["src/modssc/sampling/labeling.py:select_labeled"]}
{"id": "C10", "title": "Imbalance only removes samples and respects its caps", "statement": "apply_imbalance returns a sorted duplicate-free subset of its input; subsample_max_per_class leaves min(cap,count) samples of every class; long_tail leaves min(count, max(min_per_class, round(max_count*alpha^rank))) and never empties a class when min_per_class>=1.", "quantifier": "every index set, label vector, spec and generator behaviour", "why_tests_cant": "Caps must hold for every class-count vector and every rank order.", "anchors": ["src/modssc/sampling/imbalance.py:apply_imbalance"]}
{"id": "C11", "title": "sample() always returns a leak-free labeled/unlabeled/val/test partition (inductive)", "statement": "Whenever sample() on a non-graph dataset returns, train, val (and test when it refers to the training pool) are disjoint and in range, labeled and unlabeled partition train; and its final validation never rejects a result built by the pipeline.", "quantifier": "every dataset, plan (split, labeling, imbalance, policy), seed-derived generator", "why_tests_cant": "The pipeline composes split, imbalance and labeling; the composition has to keep the partition for all plans.", "anchors": ["src/modssc/sampling/services/service.py:_sample_inductive", "src/modssc/sampling/result.py:SamplingResult.validate"]}
{"id": "C12", "title": "The official test split is respected", "statement": "With an official test split, respect_official_test=True and allow_override_official=False, the test indices are exactly all official test samples, referencing dataset.test, and train and val together cover only training samples; otherwise the official test is never referenced.", "quantifier": "every dataset and plan", "why_tests_cant": "A policy over all plan variants (holdout/kfold, imbalance, labeling).", "anchors": ["src/modssc/sampling/services/service.py:_sample_inductive"]}
{"id": "C13", "title": "Graph sampling masks are a consistent partition", "statement": "For graph datasets the five masks satisfy: train/val/test pairwise disjoint, labeled subset of train, unlabeled = train minus labeled; when masks are generated they cover all nodes; official masks are passed through unchanged and overlapping official masks are rejected.", "quantifier": "every graph dataset, plan and generator behaviour", "why_tests_cant": "Holds across generated and official masks, all labeling specs.", "anchors": ["src/modssc/sampling/services/service.py:_sample_graph", "src/modssc/sampling/services/service.py:_idx_to_mask", "src/modssc/sampling/result.py:SamplingResult._validate_graph"]}
{"id": "C14", "title": "Imbalance requested on the training set changes the training set", "statement": "If the plan asks for imbalance with apply_to='train', the returned training set satisfies the imbalance caps, for graph and non-graph datasets.", "quantifier": "every dataset and plan", "why_tests_cant": "The graph path has to be compared with the inductive path on all plans.", "anchors": ["src/modssc/sampling/services/service.py:_sample_graph", "src/modssc/sampling/services/service.py:_sample_inductive"]}
{"id": "C15", "title": "Sampling plans survive the dict round trip", "statement": "SamplingPlan.from_dict(plan.as_dict()) == plan for every plan whose count-like values are integers (as_dict truncates a fractional count), a plan and its round trip always sample identically, and from_dict rejects unknown keys.", "quantifier": "every plan", "why_tests_cant": "Round trips must hold for every combination of sub-specs and optional fields.", "anchors": ["src/modssc/sampling/plan.py:SamplingPlan.as_dict", "src/modssc/sampling/plan.py:SamplingPlan.from_dict"]}
{"id": "C16", "title": "Saved splits load back identically and crashes never mix two splits silently", "statement": "load_split(save_split(r)) returns r; if save_split is interrupted at any point while overwriting, a later load either fails or returns one of the two complete results.", "quantifier": "every result and every crash point of the save", "why_tests_cant": "Crash points between the two file writes are not exercised by tests.", "anchors": ["src/modssc/sampling/storage.py:save_split", "src/modssc/sampling/storage.py:load_split"]}
{"id": "C17", "title": "Fingerprints depend on content, not on key order", "statement": "stable_hash/fingerprint of two JSON-like objects that are equal up to dictionary ordering are equal, and two objects with different canonical text have different hash inputs.", "quantifier": "every JSON-like value and every reordering of its mappings", "why_tests_cant": "All orderings of all nested mappings cannot be enumerated.", "anchors": ["src/modssc/sampling/fingerprint.py:stable_hash", "src/modssc/preprocess/fingerprint.py:fingerprint", "src/modssc/graph/fingerprint.py:canonical_json"]}
{"id": "C18", "title": "Seed mixing stays in range and separates salts", "statement": "mix_seed32-style seed derivation always returns a value in [0,2^32); for a fixed salt the 64-bit mixing stage is a bijection of the seed modulo 2^64; the result depends on seed and salt only through their sum.", "quantifier": "every integer seed and salt", "why_tests_cant": "Bijectivity over 2^64 values cannot be tested.", "anchors": ["src/modssc/utils/seed.py:mix_seed32"]}
{"id": "C19", "title": "Relative paths cannot escape their root", "statement": "resolve_relative_path either raises or returns a path inside the given root; absolute paths and any sequence of segments that ends outside the root are rejected; plain relative names are accepted.", "quantifier": "every root and relative path", "why_tests_cant": "All combinations of '.', '..' and names at any depth.", "anchors": ["src/modssc/utils/io.py:resolve_relative_path"]}
{"id": "C20", "title": "Method registries are write-once maps", "statement": "After any sequence of registrations, each id maps to the import path of its first successful registration; re-registering the same pair changes no mapping (it can only refresh the status); a conflicting registration raises and changes nothing; listing is sorted and hides planned methods unless asked.", "quantifier": "every sequence of register/list/lookup operations", "why_tests_cant": "A property of all operation histories.", "anchors": ["src/modssc/utils/registry.py", "src/modssc/inductive/registry.py", "src/modssc/transductive/registry.py", "src/modssc/supervised/registry.py"]}
{"id": "C21", "title": "Grid search enumerates every combination exactly once", "statement": "Space.iter_grid yields exactly the Cartesian product of the leaf value lists, each combination once, with consecutive indices from 0, and the patch of each trial assigns each leaf path its value.", "quantifier": "every search space (any nesting, any number of leaves and values)", "why_tests_cant": "The space structure is unbounded.", "anchors": ["src/modssc/hpo/space.py:Space.from_dict", "src/modssc/hpo/space.py:Space.iter_grid", "src/modssc/hpo/space.py:_assign"]}
{"id": "C22", "title": "deep_merge: the patch wins, everything else is kept", "statement": "For every key path, deep_merge(base, patch) has the patch's leaf value where the patch defines one and the base's value elsewhere; merging is idempotent and does not modify its inputs.", "quantifier": "every pair of nested configurations and every path", "why_tests_cant": "Nested configurations are unbounded.", "anchors": ["src/modssc/hpo/patching.py:deep_merge", "src/modssc/hpo/patching.py:flatten_patch"]}
{"id": "C23", "title": "The tuner reports the best trial, earliest on ties", "statement": "run_hpo returns the patch of a trial whose aggregated score is optimal in the requested direction among all trials (NaN counts as worst), and the one with the smallest index among the optimal ones; a space can only target method.params.*.", "quantifier": "every list of trial scores including NaN and every direction", "why_tests_cant": "The running comparison has to be right for every order of scores.", "anchors": ["bench/orchestrators/hpo.py:run_hpo", "bench/orchestrators/hpo.py:_is_better", "bench/orchestrators/hpo.py:_validate_space_targets"]}
{"id": "C24", "title": "Metrics are bounded, and perfect exactly on perfect predictions", "statement": "accuracy, balanced_accuracy and macro_f1 lie in [0,1] on non-empty inputs; accuracy and balanced accuracy equal 1 iff the predictions equal the labels; perfect predictions give macro_f1 = 1.", "quantifier": "every pair of label vectors of equal length", "why_tests_cant": "Arithmetic over arbitrary confusion matrices.", "anchors": ["src/modssc/evaluation/metrics.py:accuracy", "src/modssc/evaluation/metrics.py:balanced_accuracy", "src/modssc/evaluation/metrics.py:macro_f1"]}
{"id": "C25", "title": "Metrics ignore sample order and class names", "statement": "Applying the same permutation to labels and predictions, or the same injective order-preserving renaming of classes to both, changes none of the metrics.", "quantifier": "every label vectors, permutation and renaming", "why_tests_cant": "All permutations/renamings.", "anchors": ["src/modssc/evaluation/metrics.py:compute_metrics", "src/modssc/evaluation/metrics.py:_pred_indices_for_classes"]}
{"id": "C26", "title": "The dataset cache lock gives mutual exclusion", "statement": "At no time are two processes inside cache_lock for the same fingerprint; a process that finds the lock held fails without entering and without disturbing the holder.", "quantifier": "every number of processes and every interleaving of their lock operations", "why_tests_cant": "Needs quantification over schedules; the contention path of the context manager is exactly what unit tests do not interleave.", "anchors": ["src/modssc/data_loader/cache.py:cache_lock"]}
{"id": "C27", "title": "A crash during download never leaves a dataset that looks cached but is not loadable", "statement": "If a download is interrupted at any point, is_cached answers False or the stored dataset loads completely.", "quantifier": "every crash point of a first download and of a forced re-download", "why_tests_cant": "Crash points inside the store/manifest sequence.", "anchors": ["src/modssc/data_loader/services/service.py:_download_and_store", "src/modssc/data_loader/cache.py:is_cached", "src/modssc/data_loader/storage/files.py"]}
{"id": "C28", "title": "The cache index behaves like a map from fingerprint to manifest", "statement": "After any sequence of downloads, purges, gc and rebuilds, index_list returns exactly one row per stored variant with its latest manifest data, newest first; rebuild_index reconstructs the rows of exactly those variants whose manifest and processed directory exist.", "quantifier": "every operation history", "why_tests_cant": "History quantification.", "anchors": ["src/modssc/data_loader/cache.py:index_upsert", "src/modssc/data_loader/cache.py:index_list", "src/modssc/data_loader/cache.py:rebuild_index", "src/modssc/data_loader/cache.py:purge_fingerprint"]}
{"id": "C29", "title": "Garbage collection keeps exactly the newest variant of every dataset", "statement": "gc_keep_latest removes every variant for which a newer indexed variant of the same canonical URI exists and keeps one newest variant per URI; no URI disappears, and the deleted files are exactly the removed variants'.", "quantifier": "every index content", "why_tests_cant": "All index contents, including ties in created_at.", "anchors": ["src/modssc/data_loader/cache.py:gc_keep_latest", "src/modssc/data_loader/cache.py:purge_dataset"]}
{"id": "C30", "title": "Dataset URIs parse unambiguously", "statement": "parse_uri(format(provider, reference)) recovers provider and reference whenever they are well-formed, and malformed strings are rejected.", "quantifier": "every string", "why_tests_cant": "All strings.", "anchors": ["src/modssc/data_loader/uri.py:parse_uri"]}
{"id": "C31", "title": "Class filters and sample limits keep rows aligned", "statement": "apply_class_filter keeps exactly the pairs with an allowed class, in order; limit_samples keeps min(n, max_samples) pairs: the first ones in order without a seed, distinct ones chosen by the seeded shuffle with one. Features and labels stay aligned throughout.", "quantifier": "every dataset, class set and limit", "why_tests_cant": "All datasets.", "anchors": ["src/modssc/data_loader/providers/common.py:apply_class_filter", "src/modssc/data_loader/providers/common.py:limit_samples"]}
{"id": "C32", "title": "Plan resolution runs exactly the enabled, applicable steps in order", "statement": "resolve_plan splits the plan's steps into resolved and skipped; resolved steps keep plan order and index; a step is skipped iff disabled, of the wrong modality, or a required field is neither initial nor produced by an earlier resolved step.", "quantifier": "every dataset field set, modality, plan and step registry", "why_tests_cant": "Plans are arbitrary sequences with data-dependent skipping.", "anchors": ["src/modssc/preprocess/services/pipeline.py:resolve_plan"]}
{"id": "C33", "title": "Purging unused artifacts does not change the result", "statement": "preprocess(..., purge_unused_artifacts=True) returns the same features and labels as without purging.", "quantifier": "every dataset and plan whose steps read only what they declare", "why_tests_cant": "Depends on the interaction of keep-sets with the output key over all plans.", "anchors": ["src/modssc/preprocess/services/pipeline.py:preprocess", "src/modssc/preprocess/services/pipeline.py:_build_purge_keep_sets", "src/modssc/preprocess/services/pipeline.py:_final_keep_keys"]}
{"id": "C34", "title": "The preprocessing cache is transparent", "statement": "Running a plan with a warm step cache (filled by any earlier runs of any plans on the same dataset) returns the same artifacts as running it without a cache.", "quantifier": "every history of earlier runs and every plan", "why_tests_cant": "A stale hit needs two particular plans sharing a step fingerprint; histories are unbounded.", "anchors": ["src/modssc/preprocess/services/pipeline.py:preprocess", "src/modssc/preprocess/cache.py", "src/modssc/preprocess/catalog.py"]}
{"id": "C35", "title": "Cached artifacts are stored under distinct names", "statement": "Two different artifact keys of one step are stored in different files, so saving and loading step outputs returns every artifact under its own key.", "quantifier": "every set of artifact keys", "why_tests_cant": "Collisions require particular key pairs.", "anchors": ["src/modssc/preprocess/cache.py:_safe_name"]}
{"id": "C36", "title": "Label encoding is invertible and order-preserving", "statement": "labels.encode / encode_labels maps labels to 0..C-1 so that decoding returns the original labels, and the order of class ids is the order of the class values.", "quantifier": "every label vector", "why_tests_cant": "All label vectors.", "anchors": ["src/modssc/supervised/utils.py:encode_labels", "src/modssc/preprocess/steps/labels/encode.py"]}
{"id": "C37", "title": "Tokenized ids stay within the vocabulary and the requested length", "statement": "Text tokenization to ids returns sequences of exactly max_length whose ids are all below the vocabulary size, with padding only at the end.", "quantifier": "every text and tokenizer configuration", "why_tests_cant": "All texts.", "anchors": ["src/modssc/preprocess/steps/text/hash_tokenizer.py:HashTokenizerStep", "src/modssc/preprocess/steps/text/vocab_tokenizer.py:VocabTokenizerStep"]}
{"id": "C38", "title": "One-hot encoding puts a single one at the label", "statement": "One-hot encoders produce rows with a single 1 at the label's column for valid labels and reject labels outside the class range (negative = unlabeled gives a zero row).", "quantifier": "every label vector and class count", "why_tests_cant": "All label vectors.", "anchors": ["src/modssc/transductive/operators/clamp.py:labels_to_onehot", "src/modssc/supervised/utils.py:onehot"]}
{"id": "C39", "title": "Symmetrization produces exactly the OR / mutual graph", "statement": "symmetrize_edges(mode='or') contains edge (u,v) iff the input has (u,v) or (v,u); mode='mutual' iff it has both; output has no duplicates, is symmetric in support and weights.", "quantifier": "every edge list with duplicates, loops and weights", "why_tests_cant": "All edge lists.", "anchors": ["src/modssc/graph/construction/ops/symmetrize.py:symmetrize_edges"]}
{"id": "C40", "title": "Self-loop addition is idempotent and adds only missing loops", "statement": "add_self_loops returns the input edges plus a weight-1 loop for every node without one; applying it twice changes nothing more.", "quantifier": "every graph", "why_tests_cant": "All graphs.", "anchors": ["src/modssc/graph/construction/ops/self_loops.py:add_self_loops"]}
{"id": "C41", "title": "Random-walk normalization makes outgoing weights sum to one", "statement": "With mode='rw' and non-negative weights, the normalised weights of every node with out-degree weight >= eps sum to 1, all weights stay non-negative and the edge set is unchanged.", "quantifier": "every weighted graph", "why_tests_cant": "All graphs.", "anchors": ["src/modssc/graph/construction/ops/normalize.py:normalize_edge_weights"]}
{"id": "C42", "title": "kNN and epsilon graphs contain exactly the right neighbours", "statement": "epsilon_edges contains (i,j) iff i != j and dist(i,j) <= radius; knn gives every node exactly min(k,n-1) distinct neighbours, never itself, and no closer point is left out.", "quantifier": "every point set, metric and k/radius", "why_tests_cant": "All point sets incl. ties and duplicates.", "anchors": ["src/modssc/graph/construction/backends/numpy_backend.py:knn_edges_numpy", "src/modssc/graph/construction/backends/numpy_backend.py:epsilon_edges_numpy"]}
{"id": "C43", "title": "Chunking and resuming do not change the graph", "statement": "The kNN edge list is independent of chunk size, and a run resumed from the work files of an interrupted run returns the same edges as an uninterrupted one.", "quantifier": "every chunk size and every crash point/resume history", "why_tests_cant": "Crash points and chunk boundaries.", "anchors": ["src/modssc/graph/construction/backends/numpy_backend.py:knn_edges_numpy"]}
{"id": "C44", "title": "Sharded graph storage round-trips", "statement": "GraphCache.save of a new entry, or with overwrite=True, followed by load returns the same edges and weights for every non-negative shard size (or none).", "quantifier": "every graph, every shard size >= 0 or None, every previous content of the entry", "why_tests_cant": "All sizes incl. boundary cases of the shard count.", "anchors": ["src/modssc/graph/cache.py:GraphCache"]}
{"id": "C45", "title": "A graph cache entry that exists is loadable after any crash", "statement": "If a save is interrupted at any point, the entry is either absent or loads completely.", "quantifier": "every crash point, fresh save and overwrite", "why_tests_cant": "Crash points.", "anchors": ["src/modssc/graph/cache.py:GraphCache.save", "src/modssc/graph/cache.py:GraphCache.exists"]}
{"id": "C46", "title": "Node masks derived from indices are consistent", "statement": "masks_from_indices raises unless n is positive and all indices lie in [0, n); otherwise its masks are true exactly at the given indices, and unlabeled is true exactly at the train nodes that are not labeled (without labeled indices: at the nodes outside train).", "quantifier": "every index sets and n", "why_tests_cant": "All index sets.", "anchors": ["src/modssc/graph/masks.py:masks_from_indices"]}
{"id": "C47", "title": "Graph builder specs survive the dict round trip", "statement": "from_dict(to_dict(spec)) == spec for every builder and featurizer spec; specs, seeds and dataset fingerprints that differ get different graph / view fingerprints; exactly the documented specs are accepted.", "quantifier": "every spec", "why_tests_cant": "All field combinations.", "anchors": ["src/modssc/graph/specs.py"]}
{"id": "C48", "title": "Cached graph views belong to the graph and features they were computed from", "statement": "graph_to_views with a cache returns the views of the dataset it is given, whatever was cached before.", "quantifier": "every pair of datasets and cache history", "why_tests_cant": "A stale hit requires two datasets sharing a fingerprint.", "anchors": ["src/modssc/graph/featurization/api.py:graph_to_views"]}
{"id": "C49", "title": "A two-view random feature split is a partition of the columns", "statement": "For the two-view plan, whenever generation succeeds the two column sets are disjoint, non-empty, sorted and cover all features, and every generated view keeps rows, labels and masks; it succeeds exactly if there are at least two features and the rounded fraction leaves a column for the second view.", "quantifier": "every number of features >= 2, fraction and generator behaviour", "why_tests_cant": "Rounding and rng for all sizes.", "anchors": ["src/modssc/views/services/service.py:_resolve_columns", "src/modssc/views/plan.py:two_view_random_feature_split"]}
{"id": "C50", "title": "kNN probabilities are distributions and predictions are known classes", "statement": "predict_proba rows are non-negative and sum to 1, predictions are training labels, and the prediction of a sample does not depend on the batch it is in.", "quantifier": "every training set, query set and k", "why_tests_cant": "All inputs.", "anchors": ["src/modssc/supervised/backends/numpy/knn.py:NumpyKNNClassifier"]}
{"id": "C51", "title": "Automatic backend choice picks the first available preferred backend", "statement": "create_classifier(backend='auto') uses the first available backend in the documented preference order and fails only if none is available; explicit parameters are never overridden by runtime defaults.", "quantifier": "every availability set and parameter map", "why_tests_cant": "All availability combinations.", "anchors": ["src/modssc/supervised/api.py:create_classifier"]}
{"id": "C52", "title": "Label propagation keeps labeled nodes fixed and rows stochastic", "statement": "Label propagation keeps the scores of labeled nodes one-hot at their given label; with non-negative edge weights and row normalisation every row is non-negative and sums to one or is zero, in random-walk mode it sums to at most one; with positive weights a node has a positive score for a class exactly when a node labeled with that class reaches it through unlabeled nodes within the reported number of iterations; the iteration stops after at most max_iter rounds, earlier only when the last change is at most tol.", "quantifier": "every graph, labeling and iteration count", "why_tests_cant": "Invariant over all iterations and graphs.", "anchors": ["src/modssc/transductive/methods/classic/label_propagation.py:label_propagation_numpy", "src/modssc/transductive/methods/utils.py:spmm_numpy", "src/modssc/transductive/methods/utils.py:normalize_edge_weight_numpy"]}
{"id": "C53", "title": "Label propagation accepts every validated dataset", "statement": "If validation accepts a node dataset with at least one labeled node, label propagation returns scores with one column per class of the dataset.", "quantifier": "every validated dataset", "why_tests_cant": "Needs a class that is absent from the labeled nodes.", "anchors": ["src/modssc/transductive/methods/classic/label_propagation.py", "src/modssc/transductive/validation.py:validate_node_dataset"]}
{"id": "C54", "title": "Graph mincut labels are the source side of the residual graph and optimal", "statement": "The reachability search marks exactly the nodes reachable from the source through positive residual capacity. Whatever feasible flow the solver returns, a returned result puts every labeled node on its side and the edges leaving the source side have the least total capacity among all splits that respect the labels. With a solver that returns maximum flows, graph mincuts returns exactly when the graph is valid, labels and mask fit, exactly two classes are labeled and the scale is positive (minimum capacity not negative).", "quantifier": "every graph, weights, labeling, capacity scale, minimum capacity and flow solver", "why_tests_cant": "All networks.", "anchors": ["src/modssc/transductive/methods/classic/graph_mincuts.py:_reachable_from_source_csr", "src/modssc/transductive/methods/classic/graph_mincuts.py:graph_mincuts"]}
{"id": "C55", "title": "Self-training style loops conserve samples", "statement": "In pseudo-label and self-training, at every iteration the labeled and unlabeled pools partition the original samples, original labels are never changed, each unlabeled sample is pseudo-labeled at most once, and the loop ends within max_iter iterations.", "quantifier": "every dataset, classifier behaviour and parameters", "why_tests_cant": "The classifier is an arbitrary function; loops are data dependent.", "anchors": ["src/modssc/inductive/methods/pseudo_label.py", "src/modssc/inductive/methods/self_training.py"]}
{"id": "C56", "title": "Pseudo-labels come only from confident predictions", "statement": "select_confident returns distinct in-range indices, all with confidence at least the threshold, at most max_new, and no unselected eligible sample is more confident than a selected one; select_top_per_class returns at most k per class, all above threshold.", "quantifier": "every score matrix, threshold and limit", "why_tests_cant": "All score matrices.", "anchors": ["src/modssc/inductive/methods/helpers/classifier_bridge.py:select_confident", "src/modssc/inductive/methods/helpers/classifier_bridge.py:select_top_per_class"]}
{"id": "C57", "title": "Tri-training pseudo-labels are the labels the two peers agree on", "statement": "Each pseudo-label that tri-training adds for a classifier is the class label predicted by both other classifiers for that sample.", "quantifier": "every label set and classifier behaviour", "why_tests_cant": "Fails only when class labels are not 0..C-1 or a bootstrap misses a class.", "anchors": ["src/modssc/inductive/methods/tri_training.py"]}
{"id": "C58", "title": "Co-training never assigns a sample twice and keeps views aligned", "statement": "In co-training both views' unlabeled pools always list the same samples in the same order; a sample leaves the pool at most once; loop ends within max_iter.", "quantifier": "every dataset and classifier behaviours", "why_tests_cant": "Data-dependent loop.", "anchors": ["src/modssc/inductive/methods/co_training.py"]}
{"id": "C59", "title": "Resource limits are upper bounds and never increase a value", "statement": "apply_limits yields a configuration in which each limited integer entry is at most its limit, entries already below are untouched, other entries unchanged, and applying it twice equals once.", "quantifier": "every configuration and limit profile", "why_tests_cant": "All configurations.", "anchors": ["bench/limits.py:apply_limits", "bench/limits.py:resolve_limits"]}
{"id": "C60", "title": "A seed sweep changes nothing but seeds", "statement": "apply_global_seed sets every seeded section's seed to the global seed and leaves everything else, including the input configuration, unchanged.", "quantifier": "every configuration and seed", "why_tests_cant": "All configurations.", "anchors": ["bench/seed_sweep.py:apply_global_seed"]}
{"id": "C61", "title": "Row selection keeps features and labels aligned", "statement": "select_rows(X, idx) returns rows in idx order for arrays and lists, so selecting X and y with the same indices keeps them aligned; per-node entries of mappings are sliced, negative indices are rejected, and every selection of existing rows is accepted.", "quantifier": "every container and index vector", "why_tests_cant": "Mapping entries are sliced by a size heuristic depending on the largest index.", "anchors": ["bench/orchestrators/slicing.py:select_rows"]}
{"id": "C62", "title": "Augmentation is a function of the sample and its context", "statement": "Applying a pipeline to the same input with the same (seed, epoch, sample_id) gives the same output, independent of what else was augmented before.", "quantifier": "every pipeline, input, context and history of other applications", "why_tests_cant": "Histories of other applications are unbounded.", "anchors": ["src/modssc/data_augmentation/api.py:AugmentationPipeline.apply", "src/modssc/data_augmentation/ops/tabular.py:SwapNoise"]}
{"id": "C63", "title": "Text and graph augmentations keep the structure they promise", "statement": "Word dropout returns a non-empty subsequence of the words; random swap and token swap return a permutation; token mask only changes non-padding positions and only to the mask id; edge dropout returns a sublist of edges with their own weights and leaves nodes alone; time shift is a rotation.", "quantifier": "every input and generator behaviour", "why_tests_cant": "All inputs and draws.", "anchors": ["src/modssc/data_augmentation/ops/text.py", "src/modssc/data_augmentation/ops/graph.py:EdgeDropout", "src/modssc/data_augmentation/ops/audio.py:TimeShift"]}
{"id": "C64", "title": "Random search stays inside the space", "statement": "Space.iter_random on an accepted space yields exactly n_trials trials numbered from 0, each giving every leaf one of its options or a number in its stated range and nothing else; a non-positive n_trials is rejected.", "quantifier": "every accepted space, seed and number of trials", "why_tests_cant": "Every space, every generator state.", "anchors": ["src/modssc/hpo/space.py:Space.iter_random", "src/modssc/hpo/samplers.py:sample_distribution"]}
{"id": "C65", "title": "A stored dataset loads as it was stored", "statement": "After a complete download the dataset is cached and indexed, and loading it returns the same features, labels, edges, masks and metadata for train and test; no two arrays share a file.", "quantifier": "every dataset (any mask names, text and numeric arrays, with and without test split) and every previous state of the cache directory", "why_tests_cant": "All mask names and previous directory states.", "anchors": ["src/modssc/data_loader/storage/files.py:FileStorage.save", "src/modssc/data_loader/storage/files.py:FileStorage.load", "src/modssc/data_loader/services/service.py:_download_and_store"]}
{"id": "C66", "title": "Bulk download accounts for every selected dataset", "statement": "download_all_datasets processes exactly the selected catalogue keys in sorted order; its report lists each of them exactly once as downloaded, already cached, skipped for a missing extra or failed; a failing dataset does not stop the others; the per-extra lists partition the skipped ones.", "quantifier": "every catalogue, selection and outcome of the individual downloads", "why_tests_cant": "All outcome sequences.", "anchors": ["src/modssc/data_loader/services/service.py:download_all_datasets", "src/modssc/data_loader/services/service.py:_select_catalog_keys"]}
{"id": "C67", "title": "Cached audio paths are rebased onto the current cache root", "statement": "A path cached under another cache root becomes the current source directory followed by the part after the last 'source' component; every other path is unchanged; rebasing is idempotent.", "quantifier": "every path and cache root", "why_tests_cant": "All paths.", "anchors": ["src/modssc/data_loader/services/service.py:_rebase_cached_path"]}
{"id": "C68", "title": "Cache entries of one dataset are never served for another", "statement": "After any sequence of preprocessing calls on several datasets sharing one cache, a cached call returns what the uncached call returns: entries written for one dataset are not used for another.", "quantifier": "every set of datasets, plans and call history", "why_tests_cant": "Only particular pairs of datasets and histories collide.", "anchors": ["src/modssc/preprocess/services/pipeline.py:_dataset_fingerprint", "src/modssc/preprocess/cache.py:CacheManager"]}
{"id": "C72", "title": "Labels get the same class id in every split", "statement": "The label-encoding preprocessing step gives equal label values of the training and test splits equal class ids, and different values different ids.", "quantifier": "every pair of label vectors", "why_tests_cant": "Only splits with different label sets show the difference.", "anchors": ["src/modssc/preprocess/steps/labels/encode.py:EncodeStep", "src/modssc/preprocess/services/pipeline.py:preprocess"]}
{"id": "C73", "title": "Cached graph construction is transparent", "statement": "build_graph with a cache directory returns exactly the graph (or raises exactly the error) it gives with cache=False.", "quantifier": "every history of earlier calls on the same cache directory, with any inputs, shard sizes, resume flags and processes killed at any point", "why_tests_cant": "Histories and crash points: a stale hit or a half-written chunk file only shows up after particular interruptions.", "anchors": ["src/modssc/graph/construction/services/service.py:build_graph", "src/modssc/graph/cache.py:GraphCache", "src/modssc/graph/construction/backends/numpy_backend.py:knn_edges_numpy"]}
{"id": "C74", "title": "The fallback fingerprint of a feature matrix identifies the matrix", "statement": "Two arrays with the same fingerprint_array have the same shape, dtype and contents.", "quantifier": "every pair of arrays", "why_tests_cant": "All pairs of arrays; collisions need arrays of millions of rows.", "anchors": ["src/modssc/graph/fingerprint.py:fingerprint_array"]}
{"id": "C75", "title": "The diffusion view does not depend on optional dependencies", "statement": "The diffusion view of a graph dataset is the same whether or not scipy is installed (sparse and dense adjacency paths).", "quantifier": "All graphs, edge weights, feature matrices, restart weights and step counts.", "why_tests_cant": "The two paths differ only on unusual graphs (repeated edges), which a sample does not cover.", "anchors": ["src/modssc/graph/featurization/views/diffusion.py:diffusion_view", "src/modssc/graph/featurization/ops/adjacency.py"]}
{"id": "C76", "title": "Diffusion stays within the range of the features", "statement": "Every value of the diffusion view lies between the smallest and the largest value (or zero) of its feature column, and the view has the shape of the features.", "quantifier": "All graphs with nonnegative weights, all alpha in [0,1], all step counts.", "why_tests_cant": "An invariant over an unbounded iteration on arbitrary graphs.", "anchors": ["src/modssc/graph/featurization/views/diffusion.py:diffusion_view"]}
{"id": "C77", "title": "Random walks follow edges and the counts are what was visited", "statement": "The structural view draws num_walks_per_node walks of walk_length nodes from every node; each step follows an edge, or stays at a node without outgoing edges. The co-occurrence count of (u, v) is the number of position pairs within the window holding u and v; counts are symmetric, row sums equal column sums and add up to the total.", "quantifier": "All graphs, seeds, generators, walk lengths, walk numbers, windows, p and q.", "why_tests_cant": "Ranges over every random stream and every graph.", "anchors": ["src/modssc/graph/featurization/views/struct.py:_iter_random_walks", "src/modssc/graph/featurization/views/struct.py:_cooccurrence_counts"]}
{"id": "C78", "title": "Walks use unrelated random streams", "statement": "Different walks of a run, and the same walk in runs with different seeds, use different random streams.", "quantifier": "All seeds, start nodes and walk numbers.", "why_tests_cant": "A relation between all pairs of seeds; a test would look at a few.", "anchors": ["src/modssc/utils/seed.py:mix_seed32", "src/modssc/graph/featurization/views/struct.py:_iter_random_walks"]}
{"id": "C80", "title": "Ensemble prediction returns the label with the best mean score", "statement": "predict of co-training and tri-training returns, for every sample, a class label whose score averaged over the classifiers is the largest; classifiers whose classes cannot be matched cause an error, not a label.", "quantifier": "every set of classifier outputs: scores, class lists, number of samples", "why_tests_cant": "Wrong labels appear only for particular class lists (a bootstrap that misses a class) or for scores with a negative sum.", "anchors": ["src/modssc/inductive/methods/co_training.py:predict", "src/modssc/inductive/methods/tri_training.py:predict"]}
{"id": "C81", "title": "predict_proba rows are probability distributions", "statement": "Every row of predict_proba of the self-labelling methods is nonnegative and sums to 1.", "quantifier": "every classifier output", "why_tests_cant": "Depends on the base classifier: decision values are not probabilities.", "anchors": ["src/modssc/inductive/methods/co_training.py:predict_proba", "src/modssc/inductive/methods/tri_training.py:predict_proba", "src/modssc/inductive/methods/self_training.py:predict_proba", "src/modssc/inductive/methods/pseudo_label.py:predict_proba", "src/modssc/inductive/methods/setred.py:predict_proba"]}
{"id": "C82", "title": "setred distributes new labels by largest remainder", "statement": "When setred picks up to N new samples per round, the per-class quotas sum to exactly N, every quota is the class's proportional share rounded down or up, and no class is rounded up while a class with a larger remainder is rounded down.", "quantifier": "every N > 0 and every list of class counts with positive sum", "why_tests_cant": "The rounding, leftover and tie cases depend on all counts together; a test table covers a few vectors.", "anchors": ["src/modssc/inductive/methods/setred.py", "_allocate_per_class"]}
{"id": "C83", "title": "setred moves only accepted samples and loses none", "statement": "A setred fit runs at most max_iter rounds; each round a model fitted on the current training set proposes, per class, the most confident samples of a drawn pool part within the quota; only those passing the local cut-edge test move, with their predicted labels; every sample stays exactly once in training set or pool, given labels never change, and the final model is fitted on the final training set.", "quantifier": "every classifier, data set, random generator, distance, neighbourhood graph and parameter setting for which fit returns", "why_tests_cant": "The composition of three index spaces (pool, pool part, candidates) over any number of rounds has unbounded histories.", "anchors": ["src/modssc/inductive/methods/setred.py", "SetredMethod.fit", "_select_candidates_by_class", "_filter_setred_numpy"]}
{"id": "C84", "title": "setred neighbourhood graphs are what they are called", "statement": "The rng graph joins exactly the pairs with no third point closer to both; the knn graph joins each point with its k nearest other points, symmetrically, and no point with itself.", "quantifier": "every symmetric distance matrix, every number of points and every k", "why_tests_cant": "Quantifies over all distance matrices; the self-loop with duplicate points only appears under particular sort tie orders.", "anchors": ["src/modssc/inductive/methods/setred.py", "_build_rng_graph_numpy", "_build_knn_graph_numpy"]}
{"id": "C86", "title": "Label spreading scores are distributions supported by connected labels", "statement": "With non-negative weights label spreading returns non-negative scores, one row per node; with row normalisation each row sums to one or is zero; in random-walk mode it sums to at most one. With positive weights and alpha > 0 a node has a positive score for a class exactly when a node labeled with this class is at most the reported number of iterations edges away. It stops after at most max_iter rounds, earlier only when the last change is at most tol.", "quantifier": "every graph, weights, labeling, alpha and iteration count", "why_tests_cant": "Invariant over all iterations and graphs.", "anchors": ["src/modssc/transductive/methods/classic/label_spreading.py:label_spreading_numpy", "src/modssc/transductive/methods/utils.py:normalize_edge_weight_numpy"]}
{"id": "C87", "title": "Label spreading converges geometrically to the closed-form solution", "statement": "Without row normalisation, the scores after t iterations are within alpha^t times the initial distance of every solution of G = alpha S G + (1 - alpha) Y, in the maximum norm for random-walk mode and in the norm weighted by the square roots of the degrees in symmetric mode; in random-walk mode a solution exists and the reported residual is at most alpha^t.", "quantifier": "every graph with non-negative weights, labeling, alpha in [0,1) and iteration count", "why_tests_cant": "A convergence rate is a statement about all graphs and iteration counts.", "anchors": ["src/modssc/transductive/methods/classic/label_spreading.py:label_spreading_numpy"]}
{"id": "C88", "title": "Graph mincut columns are the class ids", "statement": "After fitting graph mincuts on a validated dataset, the score of a labeled node is 1 in the column of its class and 0 elsewhere.", "quantifier": "every validated dataset with two labeled classes", "why_tests_cant": "Needs labeled classes other than 0 and 1.", "anchors": ["src/modssc/transductive/methods/classic/graph_mincuts.py:GraphMincutsMethod.fit", "src/modssc/transductive/methods/classic/graph_mincuts.py:graph_mincuts"]}
{"id": "C89", "title": "A failed fit leaves the classifier usable as before", "statement": "If NumpyKNNClassifier.fit raises, later predictions are those of the last fit that succeeded.", "quantifier": "every sequence of fit and predict calls, some of which raise", "why_tests_cant": "The property is about histories with failures.", "anchors": ["src/modssc/supervised/backends/numpy/knn.py:NumpyKNNClassifier.fit"]}
{"id": "C90", "title": "Registered classifiers are stable and independent of call order", "statement": "Once a classifier or backend is registered, no later registration or use changes it; registering a backend for a documented classifier works whether or not the registry was used before.", "quantifier": "every sequence of registrations and uses", "why_tests_cant": "All interleavings of registration with lazy bootstrap.", "anchors": ["src/modssc/supervised/registry.py:register_classifier", "src/modssc/supervised/registry.py:register_backend", "src/modssc/supervised/registry.py:ensure_bootstrap"]}
{"id": "C91", "title": "Generating views leaves the input's metadata alone", "statement": "Generating views of a dataset leaves the dataset's metadata as it was, and the metadata of each view describes that view only.", "quantifier": "every dataset, plan and metadata", "why_tests_cant": "Depends on whether the input already carries view metadata; histories of repeated generation.", "anchors": ["src/modssc/views/services/service.py"]}
{"id": "C92", "title": "A configured sample or chunk limit is effective", "statement": "If a limit on training samples, test samples or graph chunk size is configured, the configuration that is run has an integer of at most that limit at the corresponding place.", "quantifier": "every configuration accepted by the schema, and every limit", "why_tests_cant": "Null, missing, textual and boolean values each take a different branch.", "anchors": ["bench/limits.py:apply_limits", "bench/limits.py:_clamp_key"]}
{"id": "C93", "title": "A sweep run is the plain run with that seed", "statement": "Running a sweep over a seed gives the same sampling, preprocessing, views, graph and augmentation as a plain run of the same configuration with that run seed.", "quantifier": "every configuration and seed", "why_tests_cant": "The agreement is between two code paths for every configuration.", "anchors": ["bench/seed_sweep.py:apply_global_seed", "bench/context.py:RunContext.seed_for"]}
{"id": "C94", "title": "Selecting nodes of a graph keeps each edge's attributes", "statement": "When rows are selected from a graph mapping, each remaining edge keeps its own weight and other per-edge entries.", "quantifier": "every graph mapping and index vector", "why_tests_cant": "Whether an entry is sliced depends on its length and the largest index.", "anchors": ["bench/orchestrators/slicing.py:select_rows", "bench/orchestrators/slicing.py:_should_slice_by_dim0"]}
{"id": "C95", "title": "Image augmentations only move pixels or cover squares", "statement": "A horizontal flip leaves an image unchanged or mirrors every row; cutout sets the pixels of the requested number of squares of the requested side to the fill value and changes nothing else, with the squares inside the image whenever they fit; a padded crop moves the image by at most the padding in each direction, mirrored at the edges. All three keep the shape.", "quantifier": "all images, shapes, layouts, parameters and generator states", "why_tests_cant": "pixel positions, offsets and generator draws range over unbounded sets; tests sample a few images and seeds", "anchors": ["src/modssc/data_augmentation/ops/vision.py::RandomHorizontalFlip.apply", "src/modssc/data_augmentation/ops/vision.py::Cutout.apply", "src/modssc/data_augmentation/ops/vision.py::RandomCropPad.apply"]}
{"id": "C96", "title": "Numpy images and torch images are read with the same layout", "statement": "For one and the same image, given as a numpy array or as a torch tensor, the augmentations use the same axes as height, width and channels.", "quantifier": "all image shapes", "why_tests_cant": "the two heuristics must agree on every shape; tests try usual shapes only", "anchors": ["src/modssc/data_augmentation/utils.py::split_image_channels_last", "src/modssc/data_augmentation/ops/vision.py::_torch_hw_layout"]}
{"id": "C97", "title": "Augmentation operations are found, listed and checked against the plan regardless of history", "statement": "Whatever a program requested, built or registered before: a built-in id gives the built-in operation, another id gives the operation first registered for it, the listing contains just the ids that can be requested (for a modality: those of that modality or any), and a pipeline built from a plan has one operation per step with the step's parameters and a modality that fits the plan.", "quantifier": "all programs of registrations, requests and pipeline builds, all plans", "why_tests_cant": "imports happen lazily and failed ones leave traces, so every order of calls matters", "anchors": ["src/modssc/data_augmentation/registry.py::register_op", "src/modssc/data_augmentation/registry.py::get_op", "src/modssc/data_augmentation/registry.py::available_ops", "src/modssc/data_augmentation/api.py::build_pipeline"]}
{"id": "C98", "title": "Both orientations of an edge list mean the same edges to the augmentations", "statement": "A graph's edges given as an array with one row per edge are augmented as the same edges as when given as a row of sources and a row of targets.", "quantifier": "all edge lists", "why_tests_cant": "holds or fails depending on the number of edges; tests use one size", "anchors": ["src/modssc/data_augmentation/utils.py::ensure_edge_index_2xE"]}
{"id": "C99", "title": "Laplace learning keeps labels and gives every unlabeled node the weighted average of its neighbours", "statement": "The transductive Laplace learning method returns one row of class scores per node. The row of a labeled node is the indicator of its label. The row of an unlabeled node is the average of the rows of the nodes with an edge to it, weighted by the edge weights. With non-negative weights the scores are non-negative and every row sums to one. The method raises ValueError exactly when some node cannot be reached from a labeled node along edges of positive weight. The numpy and the torch backend behave alike.", "quantifier": "all graphs (edge lists with repeated edges, self-loops, any weights), labels and masks; both backends", "why_tests_cant": "averages, bounds and solvability depend on the connectivity of the graph, which tests sample only on small fixed graphs", "anchors": ["src/modssc/transductive/methods/classic/laplace_learning.py::laplace_learning_numpy", "src/modssc/transductive/methods/classic/laplace_learning.py::laplace_learning_torch", "src/modssc/transductive/methods/classic/laplace_learning.py::LaplaceLearningMethod"]}
{"id": "C100", "title": "Lazy random walks classify by the walk equation and answer whenever the graph allows", "statement": "With two classes a < b among the labels, lazy random walk gives every node exactly one class: b where the unique solution of f = alpha S f + y (y = +1 for b, -1 for a, 0 for unlabeled nodes, S the symmetrically normalised graph without self-loops) is non-negative, a elsewhere. With non-negative weights it answers exactly when 0 < alpha < 1, the inputs fit together, some node is labeled, there are exactly two classes and every node has an edge of positive weight to or from another node; otherwise it raises ValueError. A node whose component carries labels of one class only gets that class, a node without a labeled node in its component gets class b. The column of a class is its class id.", "quantifier": "all graphs with weights, labelings, masks and 0 < alpha < 1", "why_tests_cant": "solvability and the sign of the solution depend on all entries of an inverse matrix; tests check a few small graphs", "anchors": ["src/modssc/transductive/methods/classic/lazy_random_walk.py::lazy_random_walk_numpy", "src/modssc/transductive/methods/classic/lazy_random_walk.py::lazy_random_walk_torch", "src/modssc/transductive/methods/classic/lazy_random_walk.py::LazyRandomWalkMethod", "src/modssc/transductive/methods/classic/common.py::build_affinity_matrix"]}
{"id": "C101", "title": "Conjugate gradient reports its residual truthfully and solves every symmetric positive definite system in n rounds", "statement": "For every linear operator, right-hand side and starting vector, cg_solve returns a vector whose reported residual norm is the norm of b - A x for that vector, makes at most max_iter rounds, and reports convergence only if the residual norm is at most tol (or the start already was an exact solution). On a symmetric positive definite system of size n, with tol >= 0 and max_iter >= n, it reports convergence within n rounds; with tol = 0 the result is the exact solution. Whenever it stops, the result is at least as near to the solution (in the norm of the operator) as the starting vector.", "quantifier": "all sizes n, linear operators, right-hand sides, starting vectors, tolerances and iteration limits (exact arithmetic)", "why_tests_cant": "Convergence in n rounds is a statement about every symmetric positive definite operator; tests run a handful of matrices and cannot exclude a wrong update that happens to converge on them.", "anchors": ["src/modssc/transductive/backends/numpy_backend.py:cg_solve", "src/modssc/transductive/backends/torch_backend.py:cg_solve", "src/modssc/transductive/solvers/cg.py:cg_solve_numpy"]}
{"id": "C102", "title": "Poisson learning solves the Poisson equation of every class", "statement": "Poisson learning returns one row per node and one column per different label of the labeled nodes. Each column solves (L + eps I + (1/n) 1 1^T) f = b up to the tolerance, where b is the zero-sum source of the class on the labeled nodes (minus the class share, or minus the mean over all nodes), and the residual returned is the largest error of a column. A dataset that validation accepts is accepted when some node is labeled; backends agree; predict_proba returns probabilities.", "quantifier": "all graphs with weights, labelings, masks and parameters", "why_tests_cant": "The equation has to hold for every graph, weighting and labeling; whether the iterative solver reaches it depends on symmetry and definiteness of an operator, which examples cannot establish.", "anchors": ["src/modssc/transductive/methods/pde/poisson_learning.py:poisson_learning_numpy", "src/modssc/transductive/methods/pde/poisson_learning.py:_build_sources", "src/modssc/transductive/methods/pde/poisson_learning.py:PoissonLearningMethod", "src/modssc/transductive/operators/laplacian.py:laplacian_matvec_numpy"]}
{"id": "C103", "title": "Dynamic label propagation keeps the given labels and runs exactly max_iter rounds of label and kernel updates", "statement": "Dynamic label propagation returns one row per node and one column per class id. It is the state after exactly max_iter rounds, in each of which labels move one step of the current transition matrix, the given labels are put back, and the transition matrix becomes P (P_t + alpha Y Y^T) P^T + lambda I, where P keeps k most probable steps of every node (never staying there) scaled to sum one. A labeled node keeps score 1 for its label and 0 elsewhere; a class nobody is labeled with has score 0 everywhere; scores are never negative for non-negative weights and lambda; with alpha = 0 labels stay in their connected component. It answers for every well-formed graph without isolated nodes and raises ValueError otherwise. predict_proba returns probabilities.", "quantifier": "all graphs with weights, labelings, masks, parameters and selections of tied neighbours", "why_tests_cant": "The rounds feed back into the transition matrix, so an error shows only after several rounds on particular graphs; ties in the neighbour selection depend on the numpy version.", "anchors": ["src/modssc/transductive/methods/classic/dynamic_label_propagation.py:dynamic_label_propagation_numpy", "src/modssc/transductive/methods/classic/dynamic_label_propagation.py:dynamic_label_propagation_torch", "src/modssc/transductive/methods/classic/dynamic_label_propagation.py:_knn_matrix_numpy", "src/modssc/transductive/methods/classic/dynamic_label_propagation.py:_knn_matrix_torch", "src/modssc/transductive/methods/classic/dynamic_label_propagation.py:DynamicLabelPropagationMethod"]}
{"id": "C104", "title": "p-Laplace learning returns probabilities of potentials that solve the p-Laplace equation", "statement": "For every graph, labels and mask p_laplace_learning accepts, the result has one row per node and one column per class up to the largest label, each class being carried by a labeled node; the row of a labeled node is its label and the row of every other node is a strictly positive distribution summing to 1. Those rows are the softmax of per-class potentials that equal the labels on the labeled nodes. On a symmetrised graph with non-negative weights, eps > 0 and cg_max_iter at least the number of nodes: for p = 2 the potentials are harmonic (eps*v_i + sum_j w_ij (v_i - v_j) vanishes at the unlabeled nodes up to the reported residual, at most cg_tol); for p > 2 the last Newton round is v = ((p-2) prev + lin)/(p-1) with lin the solution up to cg_tol of the system with weights w_ij |prev_i - prev_j|^(p-2), no value moved by more than the reported residual, at most max_iter rounds were made and the residual is at most tol unless all were used. A node no path of edges joins to a labeled node gets the uniform distribution. A call is accepted exactly when p >= 2, the graph is well formed, every class up to the largest label has a labeled node, and there is no unlabeled node or some edge joins a labeled to an unlabeled node; otherwise ValueError is raised.", "quantifier": "all graphs (any number of nodes, edges, duplicate and self edges), labels, masks, p, tolerances, round limits and flags", "why_tests_cant": "A unit test runs a small graph for a few Newton rounds; that the returned rows come from a solution of the linearised equation, and that unreachable nodes get the uniform row, must hold for every graph and every number of rounds.", "anchors": ["src/modssc/transductive/methods/pde/p_laplace_learning.py: p_laplace_learning_numpy, _coalesce_edges, _symmetrize_edges, PLaplaceLearningMethod.fit", "src/modssc/transductive/solvers/cg.py: cg_solve_numpy"]}
{"id": "C105", "title": "Poisson MBO runs the published scheme; what it keeps and what it loses", "statement": "Poisson MBO on a graph returns exactly what its scheme prescribes: T Poisson steps from zero, scores scaled by target volume over label share, then Nouter rounds of Ninner heat steps of length 1/max degree, n_volume_iters clipped volume adjustments and thresholding to the first best class. After at least one round every row is one-hot. The residual is the largest change of the last step and n_iter is T + Nouter*Ninner. Before the rounds the degree-weighted scores of each class sum to zero. A node that no path joins to a label gets class 0. A call is accepted exactly when the graph, labels, masks and volumes are valid and every class is labeled, otherwise ValueError. Labels and target volumes are not guaranteed to be kept, and without rounds the returned rows are not probabilities.", "quantifier": "all graphs, weights, labels, masks and settings", "why_tests_cant": "The scheme is an iteration on arbitrary graphs with data-dependent thresholding; tests can only compare a few runs.", "anchors": ["src/modssc/transductive/methods/pde/poisson_mbo.py::poisson_mbo_numpy", "src/modssc/transductive/methods/pde/poisson_mbo.py::PoissonMBOMethod"]}
{"id": "C106", "title": "Mini-batch training uses every sample, fairly, with its own label and view", "statement": "The training loop shared by the deep methods (FixMatch, Mean Teacher, Pi model, UDA, MixMatch, FlexMatch, FreeMatch, SoftMatch, AdaMatch, Temporal Ensembling) starts exactly when labeled rows and labels match, the two unlabeled views match, none is empty, and batch_size and max_epochs are positive. It then runs max_epochs epochs of max(ceil(n_l/b), ceil(n_u/b)) steps. In each epoch every labeled and every unlabeled sample is used, none more than once more often than another; no batch is empty, larger than b or contains a sample twice; rows keep their labels and the strong view of a batch belongs to the same samples as the weak one.", "quantifier": "all data sizes, batch sizes, epochs, seeds and generators whose randperm is a permutation", "why_tests_cant": "Coverage and fairness depend on how two cyclic iterators over different lengths interleave, for all sizes; tests sample a few.", "anchors": ["src/modssc/inductive/methods/helpers/torch_support.py::num_batches", "src/modssc/inductive/methods/helpers/torch_support.py::_iter_batch_indices", "src/modssc/inductive/methods/helpers/torch_support.py::cycle_batch_indices", "src/modssc/inductive/methods/helpers/torch_support.py::cycle_batches", "src/modssc/inductive/methods/fixmatch.py::FixMatchMethod.fit"]}
{"id": "C107", "title": "Sharpening keeps the order of classes; pseudo-labels come from confident samples only", "statement": "Sharpening probabilities is refused exactly for temperatures <= 0. It keeps the order of the classes of each row, so the pseudo-label does not depend on the temperature; a temperature below one does not lower the largest probability, one above does not raise it; the result of a distribution is a distribution. The hard-label unlabeled loss of FixMatch is the average, over exactly the samples whose weak view reaches the cutoff, of the loss at a most probable class, and zero when there is none.", "quantifier": "all probability matrices, temperatures and cutoffs", "why_tests_cant": "The clamp in the denominator only matters for inputs whose powers nearly vanish; order and mass must hold for all real inputs.", "anchors": ["src/modssc/inductive/methods/helpers/torch_support.py::sharpen_probs", "src/modssc/inductive/methods/fixmatch.py::FixMatchMethod.fit"]}
{"id": "C108", "title": "Batched prediction equals row-wise prediction and leaves the model as it was", "statement": "For a model that treats rows independently predict_proba returns the softmax of the logits of each row in input order, for every batch size, and predict a most probable class per row. Predicting does not change the training mode of the model; freezing batch normalisation is undone exactly, also after an exception. Calling before fit raises RuntimeError. Predictions on a graph do not depend on the batch size.", "quantifier": "all inputs, batch sizes, models and modes", "why_tests_cant": "Batch boundaries, empty inputs, exceptions in the model and edges across batches are combinations tests do not enumerate.", "anchors": ["src/modssc/inductive/methods/helpers/torch_support.py::predict_proba_from_bundle", "src/modssc/inductive/methods/helpers/torch_support.py::TorchBundlePredictMixin.predict_proba", "src/modssc/inductive/methods/helpers/torch_support.py::ArgmaxPredictMixin.predict", "src/modssc/inductive/methods/helpers/torch_support.py::freeze_batchnorm"]}
{"id": "C109", "title": "Slicing and concatenating graph inputs keep nodes, edges and weights together", "statement": "A batch cut from a graph input is the subgraph induced by the chosen nodes: rows in the chosen order, exactly the edges between them with their weights, and the node-wise tensors of the same nodes; positions outside of the graph raise; taking all nodes gives the graph back. Concatenating graph inputs gives their disjoint union with every edge keeping its weight.", "quantifier": "all graphs, positions and lists of graphs", "why_tests_cant": "Whether weights stay with their edges depends on coincidences of sizes (number of edges equal to number of nodes) tests do not hit.", "anchors": ["src/modssc/inductive/methods/helpers/torch_support.py::slice_data", "src/modssc/inductive/methods/helpers/torch_support.py::concat_data"]}
{"id": "C110", "title": "FlexMatch thresholds are a function of the training history", "statement": "In every training of FlexMatch the label kept for a pool sample is that of the last prediction on it that reached the cutoff, and the sample j of batch t is used exactly when its confidence reaches cutoff*beta/(2-beta), where beta is the number of samples learned so far for its predicted class over the largest such number (with warm-up, over the number of samples not learned yet if larger). Thresholds lie in [0, cutoff], equal the cutoff exactly for a best-learned class and grow with the number learned. Positions given by the user are accepted exactly when they identify the samples of the pool. Fitting again gives what a fresh object gives.", "quantifier": "all pools, histories of batches, numbers of classes, cutoffs", "why_tests_cant": "The thresholds depend on the whole history of overwritten labels; tests observe one or two steps.", "anchors": ["src/modssc/inductive/methods/flexmatch.py::FlexMatchMethod.fit", "src/modssc/inductive/methods/flexmatch.py::FlexMatchMethod._update_classwise_acc", "src/modssc/inductive/methods/flexmatch.py::FlexMatchMethod._get_idx_u", "src/modssc/inductive/methods/flexmatch.py::FlexMatchMethod._init_state"]}
{"id": "C111", "title": "FreeMatch thresholds follow the exponentially weighted history", "statement": "After any history of batches FreeMatch keeps two distributions: the exponentially weighted averages of the mean predictions and of the shares of predicted classes, starting from uniform. Its global threshold is the same average of the batch confidences, stays in [1/C, 1] and, when clipped, at most 0.95. A sample is used exactly when its confidence reaches the global threshold times the average probability of its predicted class over that of the class with the largest average, all counted including the current batch. Fitting again gives what a fresh object gives.", "quantifier": "all histories of batches of probability rows, momenta in [0,1), numbers of classes", "why_tests_cant": "The state after n steps is a function of the whole history; tests check one update.", "anchors": ["src/modssc/inductive/methods/free_match.py::FreeMatchMethod._update_state", "src/modssc/inductive/methods/free_match.py::FreeMatchMethod.fit"]}
{"id": "C112", "title": "Distribution alignment and soft weights of SoftMatch and AdaMatch", "statement": "After any history the average prediction and the target are distributions given by exponentially weighted averages (the uniform target stays uniform). Alignment multiplies each class by target over average prediction and rescales the row by one positive factor; the result is a distribution. AdaMatch uses exactly the samples whose aligned confidence reaches p_cutoff times the mean labeled confidence. SoftMatch weights are in (0,1], equal to 1 exactly from the running mean confidence on, and grow with confidence; the running mean stays among possible confidences and the variance is non-negative. Fitting again gives what a fresh object gives.", "quantifier": "all histories of labeled and unlabeled batches, momenta in [0,1), numbers of classes", "why_tests_cant": "Floors in the denominators and classes missing from a batch matter only after particular histories.", "anchors": ["src/modssc/inductive/methods/softmatch.py::SoftMatchMethod._dist_align", "src/modssc/inductive/methods/softmatch.py::SoftMatchMethod._update_stats", "src/modssc/inductive/methods/adamatch.py::AdaMatchMethod._update_alignment", "src/modssc/inductive/methods/adamatch.py::AdaMatchMethod.fit"]}
{"id": "C113", "title": "Temporal ensembling targets are bias-corrected averages of past predictions", "statement": "In every epoch after the first the target of an unlabeled sample in Temporal Ensembling is the exponentially weighted average of the last predictions (mean of the two views) made for it in each earlier epoch, rescaled so that it is a probability distribution.", "quantifier": "all numbers of samples, classes and epochs, all alpha in [0,1), all orders of batches", "why_tests_cant": "The correction factor is right or wrong for every epoch and alpha; a test on one epoch sees zeros only.", "anchors": ["src/modssc/inductive/methods/temporal_ensembling.py::TemporalEnsemblingMethod.fit"]}
{"id": "C114", "title": "MixUp mixes inputs and targets alike and keeps targets distributions", "statement": "MixUp fails exactly for an empty batch or different numbers of rows. Otherwise every row is replaced by lam times itself plus 1-lam times a partner row, with the same lam in [1/2,1] and partner for its target; every row is partner exactly once; alpha <= 0 changes nothing. Mixed targets are distributions and a labeled row keeps at least half of the mass on its label. The result depends on the seed only.", "quantifier": "all batches, alphas, seeded generators and Beta samplers", "why_tests_cant": "Needs all permutations and mixing weights.", "anchors": ["src/modssc/inductive/methods/mixmatch.py::_mixup", "src/modssc/inductive/methods/mixmatch.py::MixMatchMethod.fit"]}
{"id": "C115", "title": "Warm-up factor and Mean Teacher weights", "statement": "The factor of the unlabeled loss is in [0,1], never decreases, is 1 throughout without warm-up, and otherwise grows linearly from 0 to 1 over the rounded share of the steps, at least one. The teacher of Mean Teacher is accepted exactly if it is another object with equal parameter sizes and the decay lies in [0,1]; every parameter of it then is the exponentially weighted average of the values of the student at the start and after each step, whatever it held before.", "quantifier": "all numbers of steps, warm-up shares, decays and parameter histories", "why_tests_cant": "Averages over unbounded histories.", "anchors": ["src/modssc/inductive/methods/mean_teacher.py::MeanTeacherMethod._check_teacher", "src/modssc/inductive/methods/mean_teacher.py::MeanTeacherMethod._update_teacher", "src/modssc/inductive/methods/mean_teacher.py::MeanTeacherMethod.fit"]}
{"id": "C116", "title": "ADSH thresholds let pass the same share of every class", "statement": "When ADSH updates its thresholds the majority class gets the cutoff, a class nobody is predicted as keeps its threshold, and every other class a threshold at most the cutoff that lets pass, up to rounding and ties, the same share of its predicted samples as the cutoff does for the majority class. Thresholds stay in (0, cutoff]. A sample is used exactly when a probability reaches the threshold of its class and gets a label that does. The majority class is the given one if it is a class, else a most frequent label. Fewer confident majority predictions never lower the thresholds of the other classes.", "quantifier": "all pools of predictions, cutoffs, numbers of classes and epochs", "why_tests_cant": "Order statistics with rounding at all sizes, and the histories of classes that disappear.", "anchors": ["src/modssc/inductive/methods/adsh.py::_update_scores", "src/modssc/inductive/methods/adsh.py::ADSHMethod._resolve_majority_class", "src/modssc/inductive/methods/adsh.py::ADSHMethod.fit"]}
{"id": "C117", "title": "S4VM never loses labeled accuracy against its baseline", "statement": "When S4VM succeeds the labels have exactly two values and the classifier it keeps is the first of the most accurate ones, on the labeled samples, among the one trained on the labeled samples alone and k candidates trained on all samples; candidate i uses the predictions of the first with the round(min(rate*(i+1),1/2)*n) least confident ones moved to the other class. So it is never less accurate on the labeled samples than the baseline and is the baseline on ties. It succeeds exactly when there are labels, one per sample and with exactly two values, and an unlabeled array is given.", "quantifier": "all classifiers, labeled and unlabeled sets, numbers of candidates, flip rates, seeds and argsort tie breaks", "why_tests_cant": "The guarantee must hold for classifiers the tests never train.", "anchors": ["src/modssc/inductive/methods/s4vm.py::S4VMMethod.fit"]}
{"id": "C118", "title": "Losses of UDA, Noisy Student, DeFixMatch and Meta Pseudo Labels count exactly the intended samples", "statement": "UDA training signal annealing exists for the three schedules, grows strictly from at least 1/C to below 1; the labeled loss sums exactly the samples whose true class is below the threshold. The unlabeled loss of UDA, Noisy Student and Meta Pseudo Labels is the average over exactly the confident samples and 0 without any. DeFixMatch subtracts the same average over the confident labeled samples and reduces to the supervised loss when both batches look the same. Smoothed labels are distributions with the label the unique mode. The Meta Pseudo Labels feedback is mpl_ema times the excess of the change of the student loss over the weighted average of earlier changes.", "quantifier": "all batches, numbers of classes, steps, thresholds and histories of losses", "why_tests_cant": "Masks and averages are right or wrong for every batch composition, including empty selections.", "anchors": ["src/modssc/inductive/methods/uda.py::_tsa_threshold", "src/modssc/inductive/methods/uda.py::UDAMethod.fit", "src/modssc/inductive/methods/noisy_student.py::NoisyStudentMethod.fit", "src/modssc/inductive/methods/defixmatch.py::DeFixMatchMethod.fit", "src/modssc/inductive/methods/meta_pseudo_labels.py::_label_smoothed_ce", "src/modssc/inductive/methods/meta_pseudo_labels.py::MetaPseudoLabelsMethod._uda_loss", "src/modssc/inductive/methods/meta_pseudo_labels.py::MetaPseudoLabelsMethod.fit"]}
{"id": "C119", "title": "CoMatch memory, pseudo-labels and pseudo-label graph", "statement": "The CoMatch memory holds the most recent queue_size stored rows (features with labels), of every step all labeled samples. In every step pseudo-labels are predictions aligned by the average of the mean predictions of the last da_len steps and mixed with what the memory proposes once it is filled; they are probability distributions. The pseudo-label graph is row-stochastic, has all self-loops and exactly the pairs whose similarity reaches the threshold.", "quantifier": "all histories of batches of any size, queue sizes, temperatures, thresholds and mixing weights", "why_tests_cant": "A ring buffer over unbounded histories of batches with different sizes.", "anchors": ["src/modssc/inductive/methods/comatch.py::CoMatchMethod._update_memory", "src/modssc/inductive/methods/comatch.py::CoMatchMethod._memory_smooth", "src/modssc/inductive/methods/comatch.py::CoMatchMethod._dist_align", "src/modssc/inductive/methods/comatch.py::CoMatchMethod._build_pseudo_graph", "src/modssc/inductive/methods/comatch.py::CoMatchMethod.fit"]}
{"id": "C120", "title": "DASO prototypes, class shares and blended pseudo-labels", "statement": "In every step of a DASO training the prototype of a class is the mean of the last queue_size features of labeled samples of this class seen so far, zero if there are none. The pseudo-label of an unlabeled sample is the prediction of the network during the first pretrain_steps steps and later a mixture of it with the softmax of the similarities to the prototypes; the weight is interp_alpha, or (dist_aware) a weight in (0,1] that does not decrease with the share of the predicted class among the pseudo-labels of the last complete update period (uniform before the first). Every pseudo-label is a distribution. A training of at most pretrain_steps steps never uses the prototypes.", "quantifier": "all histories of batches, queue sizes, periods, temperatures and pretraining lengths", "why_tests_cant": "Queues, counts and periods over unbounded histories.", "anchors": ["src/modssc/inductive/methods/daso.py::DASOMethod.fit", "src/modssc/inductive/methods/daso.py::_cosine_similarity"]}
{"id": "C85", "title": "Democratic co-learning labels only by weighted majority and grows its training sets soundly", "statement": "In every round an unlabeled sample is offered only to the learners whose prediction differs from the weighted majority, with the majority label, and only if the total accuracy weight behind this label exceeds every other; the training set of a learner is the labeled set plus a growing selection of unlabeled samples, none twice, and it grows only in rounds in which the estimated quality improves; additions whose estimated error rate is at least one half are never accepted; training stops after a round without additions or after max_iter rounds. Predictions combine the learners by mean accuracy weight, and the predicted label is a label of the training data with maximal combined score. Rows of predict_proba are distributions. The run succeeds exactly for valid inputs.", "quantifier": "all learners, labeled and unlabeled sets, confidence levels and numbers of rounds", "why_tests_cant": "Depends on the whole history of predictions of arbitrary classifiers.", "anchors": ["src/modssc/inductive/methods/democratic_co_learning.py::DemocraticCoLearningMethod.fit", "src/modssc/inductive/methods/democratic_co_learning.py::DemocraticCoLearningMethod.predict_proba", "src/modssc/inductive/methods/democratic_co_learning.py::DemocraticCoLearningMethod.predict", "src/modssc/inductive/methods/democratic_co_learning.py::_weighted_majority_numpy", "src/modssc/inductive/methods/democratic_co_learning.py::_combine_scores_numpy", "src/modssc/inductive/methods/democratic_co_learning.py::_accuracy_confidence_interval"]}
{"id": "C69", "title": "Preprocess plan files are read back as written and defects are refused", "statement": "A plan that is written to a file and loaded again is the same plan. Of a well-formed file every step means what its entry says, in the order of the file, with the documented defaults; the modalities of a step are the names given and every step must define an id. A file whose root is no mapping, whose steps are no list or with a step that is no mapping is refused with a validation error.", "quantifier": "all plans and all YAML documents", "why_tests_cant": "Files are written by hand; the space of documents is unbounded.", "anchors": ["src/modssc/preprocess/plan.py::load_plan", "src/modssc/preprocess/plan.py::dump_plan", "src/modssc/preprocess/plan.py::PreprocessPlan.to_dict"]}
{"id": "C70", "title": "Image steps keep the pixels", "statement": "On a batch of images whose storage order is given or can be told from its shape: channels_order stores the same pixels in the requested order; ensure_num_channels gives exactly the requested number of channels (one channel repeated, surplus dropped, missing padded by the documented rule); resize gives images of exactly the requested size whose pixels are pixels of the input at evenly spaced positions; normalize replaces every value by (x-mean)/std of its channel and accepts exactly fitting parameter lists; squeeze removes the channel axis of grey images. What is no image batch is left alone.", "quantifier": "all batches of any size, layouts, target sizes, channel counts and parameters", "why_tests_cant": "Shapes are unbounded and the guess of the storage order depends on their relation.", "anchors": ["src/modssc/preprocess/steps/vision/layout.py::prepare_image_array", "src/modssc/preprocess/steps/vision/channels_order.py::ChannelsOrderStep.transform", "src/modssc/preprocess/steps/vision/ensure_num_channels.py::EnsureNumChannelsStep.transform", "src/modssc/preprocess/steps/vision/normalize.py::NormalizeStep.transform", "src/modssc/preprocess/steps/vision/resize.py::ResizeStep.transform", "src/modssc/preprocess/steps/vision/squeeze.py::SqueezeStep.transform"]}
{"id": "C71", "title": "Edge sparsification keeps exactly the drawn edges with their weights", "statement": "Edge sparsification keeps exactly the edges whose draw is below the fraction (one picked edge if there is none), in order, with the weights at the same positions, for edge indices with two rows and for arrays with one edge per row; all edges for fraction 1 and at least one if there is one. An undirected graph stays undirected. It succeeds exactly for fractions in (0,1] and weights that fit. Attached weights are one per edge; existing weights are kept.", "quantifier": "all edge lists, weights, probabilities and draws", "why_tests_cant": "Must hold for every graph and every sequence of draws.", "anchors": ["src/modssc/preprocess/steps/graph/edge_sparsify.py::EdgeSparsifyStep.transform", "src/modssc/preprocess/steps/graph/attach_edge_weight.py::AttachEdgeWeightStep.transform"]}
{"id": "C121", "title": "Tabular one-hot encoding is lossless on fitted values", "statement": "Fitting looks only at the fit rows and splits the columns into numeric ones and categorical ones whose categories are exactly the texts that occur there. Transforming gives, row by row, the numbers of the numeric columns and one indicator block per categorical column, with the same number of features for every row and table; two known values have the same block only if they are equal, an unknown one has a block of zeros. A fitted step accepts exactly tables whose numeric columns are read as numbers and (unless ignored) whose categories are known; it can transform the table it was fitted on, and a missing value is different from every text.", "quantifier": "all tables, mixtures of column types, missing patterns and unseen values", "why_tests_cant": "Tables are unbounded, and column types depend on all rows.", "anchors": ["src/modssc/preprocess/steps/tabular/one_hot.py::TabularOneHotStep.fit", "src/modssc/preprocess/steps/tabular/one_hot.py::TabularOneHotStep.transform", "src/modssc/preprocess/steps/tabular/one_hot.py::_is_missing", "src/modssc/preprocess/steps/tabular/one_hot.py::_is_numeric_column"]}
{"id": "C79", "title": "Anchor graphs connect nodes to their nearest candidates", "statement": "The anchor graph has as many anchors as asked for (at least one, at most one per node; points of the data in the random scheme); every node is attached to its nearest anchors; its candidates are the nodes attached to one of the same anchors (itself only with include_self), all of them or candidate_limit of them; its neighbours are the nearest k candidates with their true distances, closest first. When every node is attached to all anchors and candidates are not limited, the graph is the exact nearest-neighbour graph. Every node gets k neighbours if there are enough nodes. Unknown methods and backends are refused.", "quantifier": "all point sets, metrics, numbers of anchors, neighbours and candidates, chunk sizes, random choices and tie breaks", "why_tests_cant": "The candidate set depends on the whole geometry; ties and chunk boundaries are unbounded.", "anchors": ["src/modssc/graph/construction/schemes/anchor.py::anchor_edges", "src/modssc/graph/construction/schemes/anchor.py::_knn_query_numpy", "src/modssc/graph/construction/schemes/anchor.py::_choose_anchors"]}
{"id": "C122", "title": "PCA learns from the fit rows only and keeps the most variance", "statement": "Fitting succeeds exactly when the fit positions lie inside the table and there is one. What is learned depends on the fit rows only: the averages of their present values (0 for a column without any), and min(max(1,n_components), rows, columns) orthonormal components that capture at least as much of the prepared fit rows (their variance, when centered) as any other orthonormal directions of this number. Transforming maps every row of any table on its own, whatever the chunk it is in; when centering, a missing value contributes nothing.", "quantifier": "all tables of any size, missing patterns, fit positions and numbers of components", "why_tests_cant": "Optimality is a statement over all directions; chunking and missing patterns are unbounded.", "anchors": ["src/modssc/preprocess/steps/core/pca.py::PcaStep.fit", "src/modssc/preprocess/steps/core/pca.py::PcaStep.transform", "src/modssc/preprocess/steps/base.py::fit_subset"]}
{"id": "C123", "title": "ZCA whitening decorrelates the fit rows", "statement": "ZCA whitening fits exactly when the fit positions lie inside the table, there is one and samples are not larger than max_features. It learns from the fit rows only the mean and a symmetric matrix; the whitened fit rows have mean 0 and a covariance with the same eigenvectors as before, where each eigenvalue s is replaced by s/(s+eps).", "quantifier": "all tables, fit positions, eps > 0 and decompositions", "why_tests_cant": "A statement about the covariance of any data set.", "anchors": ["src/modssc/preprocess/steps/vision/zca_whitening.py::ZcaWhiteningStep.fit", "src/modssc/preprocess/steps/vision/zca_whitening.py::ZcaWhiteningStep.transform"]}
{"id": "C124", "title": "A benchmarked inductive method gets the labels of its labeled examples only", "statement": "The data given to an inductive method for training is: the training samples at the positions the split calls labeled with their labels, in order; the samples at the positions it calls unlabeled without labels; and the views/augmented versions of the same rows. Two data sets that differ only in labels of samples outside the labeled positions (unlabeled, validation, test) give the same training data or the same error. It is refused exactly when positions are out of range or something is missing; a split given as masks means the positions where the masks are true; strict mode adds only checks.", "quantifier": "all data sets, splits, views and label arrays of any size", "why_tests_cant": "Absence of a leak is a statement over all pairs of label assignments.", "anchors": ["bench/orchestrators/method_inductive.py::run", "bench/orchestrators/method_inductive.py::_labels", "bench/main.py::_run_experiment_single"]}
{"id": "C125", "title": "A benchmarked transductive method cannot see hidden labels", "statement": "The node data set given to a transductive method has one mask per split which is true exactly at that split's nodes (test nodes behind the training nodes when the test set is separate); observed labels are the true labels at visible nodes and -1 elsewhere, so that the labels of evaluation nodes cannot influence training.", "quantifier": "all data sets and splits of any size", "why_tests_cant": "A statement over all pairs of label assignments and all masks.", "anchors": ["bench/orchestrators/method_transductive.py::run", "bench/orchestrators/method_transductive.py::_build_masks", "bench/orchestrators/method_transductive.py::_labels_observed"]}
{"id": "C126", "title": "Reported benchmark scores are the metrics of that split's predictions", "statement": "The score reported for a split and metric is the metric of the predictions of the method on the samples of exactly that split against their true labels, for every split listed (in list order), whatever the kind of split (positions in the training or the test set, graph masks).", "quantifier": "all predictors, data sets, splits, lists of splits and metrics", "why_tests_cant": "Every sample of every split has to be paired with its own prediction.", "anchors": ["bench/orchestrators/evaluation.py::evaluate_inductive", "bench/orchestrators/evaluation.py::evaluate_transductive", "bench/orchestrators/method_transductive.py::_build_masks"]}
{"id": "C127", "title": "Score columns stand for classes", "statement": "Column j of the scores of a trained method is class j of the labels: models get one output for every class that occurs, and a method that classifies every sample correctly is reported with accuracy 1.", "quantifier": "all label sets", "why_tests_cant": "A statement about every label set, including those with gaps or not starting at 0.", "anchors": ["bench/orchestrators/method_inductive.py::run", "bench/utils/models.py", "src/modssc/evaluation/metrics.py", "src/modssc/supervised/api.py", "src/modssc/inductive/methods/supervised.py"]}
{"id": "C128", "title": "Configured limits hold in every run of a search", "statement": "With limits configured, every configuration that is trained (each search trial and the final run) obeys the limits, and the score reported for the best trial is that of the configuration finally run.", "quantifier": "all configurations, limits, search spaces and patches", "why_tests_cant": "A statement about every place of every configuration a search generates.", "anchors": ["bench/main.py::_run_experiment_single", "bench/orchestrators/hpo.py::run", "bench/utils/limits.py::apply_limits"]}
{"id": "C129", "title": "An experiment configuration means what its document says, and nothing unknown is accepted", "statement": "A configuration mapping is accepted exactly when each section has only documented keys, every required entry is present with the right type, seeds, limits, kinds, metrics and search spaces are valid, custom factories are allowed by the run section if used, and a strict benchmark run fails fast; the resulting configuration then has exactly the values written, with the documented defaults for what is absent.", "quantifier": "all configuration mappings", "why_tests_cant": "Acceptance is a statement about every mapping; tests sample a few broken ones.", "anchors": ["bench/schema.py::ExperimentConfig.from_dict", "bench/schema.py::_validate_search_space", "src/modssc/hpo/space.py::Space.from_dict"]}
{"id": "C130", "title": "A valid configuration stays valid in every run derived from it", "statement": "Every run of a seed sweep, every run after limits, every trial of its search and the final run of a search of an accepted configuration is accepted again, and differs only in what that derivation is about (seeds, name and directory; limited entries; method parameters); and a search that was accepted can be carried out.", "quantifier": "all accepted configurations, seeds, limits, search kinds, random draws and trials", "why_tests_cant": "Every derived configuration of every accepted one; a failure appears hours into an experiment.", "anchors": ["bench/schema.py::ExperimentConfig.from_dict", "bench/main.py::_run_experiment_single", "bench/main.py::_apply_global_seed", "bench/utils/limits.py::apply_limits", "bench/orchestrators/hpo.py::run"]}
{"id": "C131", "title": "A bad configuration is reported as a configuration error", "statement": "Loading a configuration mapping either succeeds or raises a configuration error, never another Python error.", "quantifier": "all configuration mappings", "why_tests_cant": "Every malformed mapping has to be considered.", "anchors": ["bench/schema.py::ExperimentConfig.from_dict"]}
{"id": "C132", "title": "A benchmark run leaves nothing to be decided at run time", "statement": "In benchmark mode a configuration may run only if no backend, device or similar entry is left to \"auto\" anywhere in it, every model and graph backend is named, every fittable preprocessing step names the rows it is fitted on, and model selection is not done on a split that is not allowed; a refusal lists exactly the offending entries; and the same holds for each trial of a search.", "quantifier": "all configurations (any nesting), all searches and trials", "why_tests_cant": "Entries can be nested at any depth and reach the run through a search space; tests look at a few shapes.", "anchors": ["bench/main.py::_benchmark_contract_preflight", "bench/main.py::_preflight", "bench/main.py::_run_experiment_single", "bench/orchestrators/hpo.py::run"]}
{"id": "C133", "title": "Preprocessing never learns from test samples", "statement": "A preprocessing step (of the main plan or of a view) that is fitted on data is fitted exactly on the rows of the part of the data that the configuration names, and none of those rows is a test sample; the test part cannot be named.", "quantifier": "all configurations, all valid samplings (index lists and masks), all steps and views", "why_tests_cant": "It is a statement about every plan and every sampling; leakage does not make a test fail.", "anchors": ["bench/orchestrators/preprocess.py::resolve_fit_indices", "bench/orchestrators/preprocess.py::run", "bench/orchestrators/views.py::run", "bench/main.py::_preflight"]}
{"id": "C134", "title": "A preprocessing plan is read as it is written", "statement": "A mapping is accepted as a preprocessing plan exactly if it has the documented form, and the plan then has the steps written, in order, with their parameters, modalities, required fields and enabled flags.", "quantifier": "all mappings", "why_tests_cant": "Equivalence over every mapping; tests sample a few.", "anchors": ["bench/orchestrators/preprocess.py::_plan_from_dict"]}
{"id": "C135", "title": "Runs never share a directory", "statement": "However many benchmark runs and sweeps are started at the same time, each gets a directory that did not exist before and that only it writes to, and no file that existed before is changed or lost; a run directory is the wanted name or that name with the first free number.", "quantifier": "all schedules of any number of processes, all contents of the output directory", "why_tests_cant": "The property is about interleavings between the check for a free name and the creation or renaming of the directory.", "anchors": ["bench/context.py::next_available_run_dir", "bench/context.py::RunContext.ensure_dirs", "bench/main.py::_sync_ctx_run_identity", "bench/main.py::run_experiment"]}
{"id": "C136", "title": "Reports and exit codes tell the truth", "statement": "Every run that made a directory leaves exactly one report that says whether it succeeded, with the metrics or the error; the exit code is 0 exactly on success and an error is raised exactly if the run failed and was asked to stop on failure; a sweep without fail_fast runs every seed, has every returned run in its summary and exits with 0 exactly if all runs did; with fail_fast it runs no seed after the first failure.", "quantifier": "all configurations, seed lists, run counts and outcomes of the single runs", "why_tests_cant": "It ranges over every pattern of failures over every list of seeds and every place where a run can fail.", "anchors": ["bench/main.py::run_experiment", "bench/main.py::_run_experiment_single", "bench/orchestrators/reporting.py::write_run_summary"]}
{"id": "C137", "title": "The propagation matrix of a graph network is the documented normalization of the graph", "statement": "Preparing a graph for a graph network keeps its adjacency: duplicate edges are summed, self-loops add the wanted weight to every diagonal entry, random-walk weights make every row with positive degree sum to one, symmetric weights divide by the roots of both degrees, and applying the result is multiplication with that matrix; propagation with random-walk weights never leaves the range of the features and propagation with symmetric weights never makes them longer.", "quantifier": "all edge lists, weights, node features", "why_tests_cant": "It is an algebraic statement about every weighted graph.", "anchors": ["src/modssc/transductive/methods/gnn/common.py::coalesce_edges", "src/modssc/transductive/methods/gnn/common.py::add_self_loops_coalesce", "src/modssc/transductive/methods/gnn/common.py::normalize_edge_weight", "src/modssc/transductive/methods/gnn/common.py::spmm"]}
{"id": "C138", "title": "Each graph network propagates with the polynomial of its paper", "statement": "K rounds of SGC and GRAND multiply with the K-th power, APPNP with the truncated personalised PageRank series and converges to its solution geometrically, ChebNet feeds the Chebyshev polynomials, N-GCN the powers 0 to K-1; no number of rounds makes features larger.", "quantifier": "all graphs, features, numbers of rounds and teleport probabilities", "why_tests_cant": "Unbounded number of rounds, all graphs.", "anchors": ["src/modssc/transductive/methods/gnn/sgc.py::SGCMethod", "src/modssc/transductive/methods/gnn/appnp.py::APPNPMethod", "src/modssc/transductive/methods/gnn/grand.py::GRANDMethod", "src/modssc/transductive/methods/gnn/chebnet.py::ChebNetMethod", "src/modssc/transductive/methods/gnn/n_gcn.py::NGCNMethod", "src/modssc/transductive/methods/gnn/gcnii.py::GCNIIMethod"]}
{"id": "C139", "title": "Early stopping returns the best model seen", "statement": "With validation nodes a graph network ends with the parameters of the epoch with the best validation measure of all epochs run, and stops when patience epochs brought nothing better; without validation nodes all epochs are run and the last parameters are kept.", "quantifier": "all training dynamics, epochs, patience values and sequences of validation losses (also NaN)", "why_tests_cant": "Quantifies over every possible sequence of losses.", "anchors": ["src/modssc/transductive/methods/gnn/common.py::train_fullbatch", "src/modssc/transductive/methods/gnn/grafn.py::GraFNMethod.fit", "src/modssc/transductive/methods/gnn/graphhop.py::_train_lr"]}
{"id": "C140", "title": "The seed decides the fitted graph network", "statement": "Fitting a graph network twice with the same data and seed gives the same network, whatever random numbers were drawn before.", "quantifier": "all networks, data, seeds and states of the global generator", "why_tests_cant": "It quantifies over every earlier use of the global generator.", "anchors": ["src/modssc/transductive/methods/gnn/common.py::set_torch_seed", "src/modssc/transductive/methods/gnn/gcn.py::GCNMethod.fit", "src/modssc/transductive/methods/gnn/grafn.py::GraFNMethod.fit", "src/modssc/transductive/methods/gnn/graphhop.py::GraphHopMethod.fit"]}
{"id": "C141", "title": "Cached graph data is what the dataset contains", "statement": "A graph network that keeps prepared data between calls gives in every call what it would give with the data prepared anew.", "quantifier": "all histories of calls and of changes to the dataset", "why_tests_cant": "A statement about every history of calls and writes.", "anchors": ["src/modssc/transductive/methods/gnn/common.py::prepare_data_cached"]}
{"id": "C142", "title": "Graph networks do not see the labels they are evaluated on", "statement": "The fitted graph network depends on the labels of the training and validation nodes only.", "quantifier": "all datasets, masks and hidden labels", "why_tests_cant": "Noninterference: compares every pair of labelings.", "anchors": ["src/modssc/transductive/methods/gnn/common.py::prepare_data_cached", "src/modssc/transductive/methods/gnn/common.py::train_fullbatch"]}
{"id": "C143", "title": "GraphHop averages over the nodes at each distance", "statement": "The features of hop h of a node are the average over exactly the nodes at distance h from it, zero if there is none.", "quantifier": "all graphs, features and numbers of hops", "why_tests_cant": "Distances in arbitrary graphs.", "anchors": ["src/modssc/transductive/methods/gnn/graphhop.py::GraphHopMethod"]}
{"id": "C144", "title": "The transductive SVM uses its data as documented", "statement": "The transductive SVM codes the two labels of the labeled nodes as -1 and +1 and uses no other label; every epoch uses every row once; pseudo-labels follow the sign of the score and, when all nodes are on one side and balancing is on, the half with the higher scores becomes positive; the weight of unlabeled nodes grows to but never beyond C_u_max; probabilities are distributions whose larger column is the side of the boundary.", "quantifier": "all datasets, masks, scores, settings, random draws", "why_tests_cant": "Quantifies over all scores and random orders.", "anchors": ["src/modssc/transductive/methods/classic/tsvm.py::TSVMMethod", "src/modssc/transductive/methods/classic/tsvm.py::_encode_binary", "src/modssc/transductive/methods/classic/tsvm.py::_batch_indices"]}
{"id": "C145", "title": "Coarsening a graph loses nothing", "statement": "A coarsening step of H-GCN groups every node with at most one other, equivalent or neighbouring, until no pair of free neighbours is left; the coarse graph keeps the total number of nodes and edge weight, entry by entry the sums over the groups.", "quantifier": "all graphs, scores and visiting orders", "why_tests_cant": "Partition and conservation statements for all graphs.", "anchors": ["src/modssc/transductive/methods/gnn/h_gcn.py::HGCNMethod"]}
{"id": "C146", "title": "GraFN samples support nodes and targets fairly", "statement": "The support set of GraFN has equally many distinct labeled nodes of every class with their own labels, only labels of training nodes are used; soft predictions are distributions; labeled nodes always have their label as target; the augmented views keep a sublist of the edges and zero whole feature columns.", "quantifier": "all labelings, masks, random draws, scores and probabilities", "why_tests_cant": "Quantifies over all random draws and label configurations.", "anchors": ["src/modssc/transductive/methods/gnn/grafn.py::_sample_support", "src/modssc/transductive/methods/gnn/grafn.py::_snn", "src/modssc/transductive/methods/gnn/grafn.py::_drop_edges", "src/modssc/transductive/methods/gnn/grafn.py::_drop_features"]}
{"id": "C147", "title": "Random walks of node2vec and Planetoid follow the graph", "statement": "Every walk goes along edges and is shorter than asked only if it ended in a node one cannot leave; every node one can leave starts exactly num_walks walks; a biased step chooses every neighbour with positive probability in the proportions 1/p, 1, 1/q; the training pairs are exactly the nodes at most window_size apart on a walk; the supervised batches of Planetoid hold labeled nodes only; with a seed the embedding is reproducible.", "quantifier": "all graphs, walk lengths, p, q, window sizes, generators and global generator states", "why_tests_cant": "It quantifies over every graph and every outcome of the random draws.", "anchors": ["src/modssc/graph/featurization/node2vec.py::_random_walks_node2vec", "src/modssc/transductive/methods/gnn/planetoid.py::PlanetoidMethod", "src/modssc/preprocess/steps/graph/node2vec.py"]}
{"id": "C148", "title": "Loaded waveforms are cut, padded and resampled as asked", "statement": "Every row has exactly max_length samples: a shorter waveform is followed by the pad value, of a longer one the consecutive samples at the start, middle or end are kept; without max_length waveforms stay unchanged and must be equally long; several channels are averaged; with a target sample rate every row is at that rate; wrong settings are refused.", "quantifier": "all lists of files and arrays, settings, sample rates", "why_tests_cant": "All lengths and settings, and every mix of inputs.", "anchors": ["src/modssc/preprocess/steps/audio/load_waveform.py::LoadWaveformStep"]}
{"id": "C149", "title": "Scaling, imputing and projecting depend on the fit rows only and do what they promise", "statement": "The standard scaler, the imputer and the random projection depend on the rows chosen for fitting only (the projection on none) and work row by row; the rows fitted on get mean 0 and mean square 1 in every column that is not constant; scaling keeps the order of the values of a column; imputing keeps observed values, leaves nothing missing and puts in a value within the range seen; the projection is linear.", "quantifier": "all tables, choices of fit rows, options and random matrices", "why_tests_cant": "It is an algebraic statement about every table.", "anchors": ["src/modssc/preprocess/steps/tabular/standard_scaler.py::TabularStandardScalerStep", "src/modssc/preprocess/steps/tabular/impute.py::TabularImputeStep", "src/modssc/preprocess/steps/core/random_projection.py::RandomProjectionStep"]}
{"id": "C150", "title": "An embedding step gives one row per sample, by the encoder asked for", "statement": "Embedding gives exactly one row per sample, in order, independent of the batch size; a sample gets the same row wherever it stands; the encoder used is the one of the current model and device, and is loaded only when needed; embeddings.auto sends text, images, audio and numbers each the right way.", "quantifier": "all lists and arrays of samples, batch sizes, histories of transforms, kinds of raw input", "why_tests_cant": "All inputs and every history of transforms with changing settings.", "anchors": ["src/modssc/preprocess/models_backends/stub.py::StubEncoder", "src/modssc/preprocess/models_backends/open_clip.py::OpenClipEncoder", "src/modssc/preprocess/models_backends/torchvision_image.py::TorchvisionImageEncoder", "src/modssc/preprocess/steps/embeddings/common.py::get_cached_encoder", "src/modssc/preprocess/steps/embeddings/auto.py::AutoEmbeddingStep"]}
{"id": "C151", "title": "SimCLRv2 runs its stages on the right models and keeps the right one", "statement": "A fit pretrains, fine-tunes and distils in this order: the student learns from the fine-tuned model, which started from the pretrained parameters; other models stay unchanged; the method keeps the model trained last and can predict; a method can be fitted again; the teacher stays fixed while the student learns; the contrastive loss matches the two views of a sample and is never negative; unusable data and settings are refused.", "quantifier": "all numbers of epochs, choices of the three bundles, data sizes, optimizers and similarity matrices", "why_tests_cant": "Every combination of stages and bundles, and histories of fits.", "anchors": ["src/modssc/inductive/methods/simclr_v2.py::SimCLRv2Method", "src/modssc/inductive/methods/simclr_v2.py::_nt_xent_loss", "src/modssc/inductive/methods/simclr_v2.py::_rebind_meta"]}
{"id": "C152", "title": "Tri-Net trains each head on rows the two other heads agree on", "statement": "The rounds, pool sizes and thresholds follow the stated schedule, every threshold between 0 and 1; a pool holds different unlabeled rows; a head is trained on all labeled rows and on exactly the pool rows that the two other heads give the same class with enough average confidence and that pass the filter with dropout, whatever the batch size; smeared labels are distributions; the loss is the cross-entropy of the given labels; predictions are the mean of the three heads; no two draws of a fit use the same seed.", "quantifier": "all configurations, pools, networks, outcomes of dropout and noise, batch sizes", "why_tests_cant": "All configurations and every outcome of the networks and random draws.", "anchors": ["src/modssc/inductive/methods/trinet.py::TriNetMethod", "src/modssc/inductive/methods/trinet.py::_label_unlabeled", "src/modssc/inductive/methods/trinet.py::_dropout_filter", "src/modssc/inductive/methods/trinet.py::_sample_pool", "src/modssc/inductive/methods/trinet.py::_output_smearing"]}
{"id": "C153", "title": "Adversarial examples stay as close as asked", "statement": "The perturbation VAT makes has norm eps for every sample with a gradient and never more, after probing the model only within xi; deep co-training changes every entry by eps in the direction of the gradient and stays within eps and the clipping bounds; labeled rows are attacked with their labels, others with the predictions; the divergences are never negative; the unsupervised weight rises from 0 to 1 within the fit; the labeled batches of the two models always match; predictions are the mean of the two models.", "quantifier": "all batches, gradients, norms, clipping bounds, numbers of steps, generator states, distributions", "why_tests_cant": "It is a bound over every gradient and distribution.", "anchors": ["src/modssc/inductive/methods/vat.py::VATMethod", "src/modssc/inductive/methods/vat.py::_l2_normalize", "src/modssc/inductive/methods/deep_co_training.py::_fgsm_adversarial", "src/modssc/inductive/methods/deep_co_training.py::_js_divergence", "src/modssc/inductive/methods/deep_co_training.py::DeepCoTrainingMethod"]}
{"id": "C154", "title": "The summary of a sweep says what its runs reported", "statement": "The aggregate of a sweep lists every run that left a report, in order, with its status and reason; for every metric path of the successful runs it gives the number of values, mean, population standard deviation, smallest and largest value of exactly the numbers those runs reported; the mean lies between the extremes; the order of the runs does not change the statistics; the aggregate is computed for every content of the reports; the overall status says whether a run failed.", "quantifier": "all lists of report files, nested metric dictionaries and values", "why_tests_cant": "Metric dictionaries are nested arbitrarily and runs can fail at any point; the statistics must hold for every list.", "anchors": ["bench/orchestrators/reporting.py::write_seed_sweep_summary", "bench/orchestrators/reporting.py::_iter_numeric_metric_leaves", "bench/orchestrators/reporting.py::_set_nested"]}
{"id": "C155", "title": "Every run leaves a complete report", "statement": "Whatever the sections of a run produced, a payload with every required section and key is accepted by the report schema and every payload lacking one is refused; the report main.py writes always has them, so writing the report never fails because of its shape, and what is written is the payload.", "quantifier": "all payload dictionaries, all run outcomes and sections", "why_tests_cant": "The shape must be right for every run outcome, including failures at every stage.", "anchors": ["bench/report_schema.py::validate_run_payload", "bench/orchestrators/reporting.py::write_run_summary", "bench/main.py::main"]}
{"id": "C156", "title": "Placeholders in configuration files are replaced as written", "statement": "In every string of a configuration the placeholders $NAME and ${NAME} are found exactly where the pattern allows, each is replaced by the value of its variable, everything else stays; a variable without value gives an error naming the variables and the place; a document changes only in its strings; environment variables come before the defaults; the default dataset directory lies under the cache directory; loading refuses documents that are no mapping.", "quantifier": "all strings, nested documents, environments", "why_tests_cant": "All strings and nested documents.", "anchors": ["bench/utils/io.py::_expand_env_vars", "bench/utils/io.py::load_yaml", "bench/utils/io.py::_resolve_env_var"]}
{"id": "C157", "title": "Augmented views belong to their samples", "statement": "The augmentation stage returns one row per unlabeled sample in their order: the weak, strong and (if asked for) second strong view of that sample, computed from the run's seed and the sample's own id only; the views of a sample do not depend on which other samples there are; results are rectangular; nothing is refused without a reason; empty and missing data are passed through; graphs are one sample; plans are read as written and refused if they have no meaning.", "quantifier": "all arrays, tensors and graphs, ids, seeds, plans, operations and generator behaviours", "why_tests_cant": "Independence of the other samples is a statement about all pairs of datasets.", "anchors": ["bench/orchestrators/augmentation.py::run", "bench/orchestrators/augmentation.py::_plan_from_dict"]}
{"id": "C158", "title": "Torch nearest neighbours agree with numpy", "statement": "The torch nearest-neighbour classifier gives each query the vote shares of its nearest training rows, as distributions over the labels seen, independently of the batch size and the other queries; it accepts exactly the valid training sets, and a fit that raises leaves it as it was, so after any history of fits it is a new classifier fitted on the last accepted training set; wherever no two training rows are equally far from a query it returns the same probabilities and predictions as the numpy classifier.", "quantifier": "all tensors, devices, labels, parameters, queries, batch sizes, histories of fits and lawful topk and argpartition implementations", "why_tests_cant": "Agreement of two implementations and independence of histories range over all inputs and call sequences.", "anchors": ["src/modssc/supervised/backends/torch/knn.py::TorchKNNClassifier.fit", "src/modssc/supervised/backends/torch/knn.py::TorchKNNClassifier.predict_scores", "src/modssc/supervised/backends/torch/knn.py::TorchKNNClassifier.predict", "src/modssc/supervised/backends/numpy/knn.py::NumpyKNNClassifier"]}
{"id": "C159", "title": "Torch classifiers are trained on every sample, reproducibly, or left alone", "statement": "A successful fit of a torch classifier (logistic regression, perceptron, image, pretrained image, sequence) stores the labels that occur and a network trained for the asked number of epochs, each showing every sample exactly once with its own label in batches of at most the batch size; with a seed the result depends only on the arguments and the data, not on earlier fits nor on the state of the random generator; predictions are training labels with the largest probability; a fit that raises leaves the classifier as it was.", "quantifier": "all tensors, devices, labels, parameters, histories of fits, generator states and networks (initialisation, step and output are parameters)", "why_tests_cant": "Coverage of the epochs and independence of history range over all data sizes, batch sizes and earlier calls.", "anchors": ["src/modssc/supervised/backends/torch/mlp.py::TorchMLPClassifier.fit", "src/modssc/supervised/backends/torch/logreg.py::TorchLogRegClassifier.fit", "src/modssc/supervised/backends/torch/image_cnn.py::TorchImageCNNClassifier.fit", "src/modssc/supervised/backends/torch/image_pretrained.py::TorchImagePretrainedClassifier.fit", "src/modssc/supervised/backends/torch/lstm_scratch.py::TorchLSTMClassifier.fit", "src/modssc/supervised/backends/torch/graphsage_inductive.py::TorchGraphSAGEClassifier.fit", "src/modssc/supervised/backends/torch/common.py::predict_from_scores"]}
{"id": "C160", "title": "The dataset adapters accept exactly the consistent datasets and change nothing", "statement": "The numpy and torch adapters of the inductive methods accept a dataset exactly when its labeled features have at least two axes, labels have one or two axes and as many rows, unlabeled features agree in the second axis, weak and strong augmentations have equally many rows, views are named arrays and (torch) all tensors are on one device, the one asked for; what they return is what they were given, except that torch turns the indices in meta into integer tensors on the device of the unlabeled features; the result is accepted again unchanged; the two adapters accept the same data.", "quantifier": "all datasets (arrays, tensors, dictionaries, other objects; any shapes and devices), all requested devices and all machines", "why_tests_cant": "The acceptance condition is an equivalence over all shapes, optional fields and device placements.", "anchors": ["src/modssc/inductive/validation.py::validate_inductive_dataset", "src/modssc/inductive/adapters/numpy.py::to_numpy_dataset", "src/modssc/inductive/adapters/torch.py::to_torch_dataset", "src/modssc/runtime/device.py::resolve_device_name"]}
{"id": "C161", "title": "Pseudo-label training makes the steps it should, with the loss it should", "statement": "fit of FixMatch, FlexMatch, FreeMatch, SoftMatch, AdaMatch and UDA either refuses its data, model or parameters before touching anything, or makes exactly one optimizer step per batch of max_epochs fair epochs, each with a loss over exactly the rows of the batch: labeled rows with their own labels, each strong view with the weak view of the same sample; pseudo-labels are weighted by numbers at least zero that add up to at most one; FixMatch and UDA use the loss of the papers with the network of the moment; use_cat makes no difference for networks that treat rows separately; fit does not depend on earlier calls.", "quantifier": "all networks and optimizers (as black boxes), datasets, parameters, seeds and generators", "why_tests_cant": "The loss of every step of every training, for any network, is a statement about unboundedly long executions.", "anchors": ["src/modssc/inductive/methods/fixmatch.py::FixMatchMethod.fit", "src/modssc/inductive/methods/flexmatch.py::FlexMatchMethod.fit", "src/modssc/inductive/methods/free_match.py::FreeMatchMethod.fit", "src/modssc/inductive/methods/softmatch.py::SoftMatchMethod.fit", "src/modssc/inductive/methods/adamatch.py::AdaMatchMethod.fit", "src/modssc/inductive/methods/uda.py::UDAMethod.fit"]}
{"id": "C162", "title": "A built network scores every batch of data like its sample", "statement": "A torch bundle built for a classifier, a data sample and a number of classes either is refused with an error, or its network gives, for every batch of rows of the shape of the sample, one score per row and class; the bundle carries the seed and device asked for, an averaged copy exactly if asked for, and an optimizer over the parameters meant to be trained; a network that reports features gives one feature row per input row.", "quantifier": "all classifiers of the factory, sample shapes, parameters, numbers of classes, seeds and batches of any size", "why_tests_cant": "Shapes, layer counts and batch sizes are unbounded; tests try a few shapes per classifier.", "anchors": ["src/modssc/inductive/deep/bundle_factories/factory.py::build_torch_bundle_from_classifier", "src/modssc/inductive/deep/bundle_factories/factory.py::_build_mlp_model", "src/modssc/inductive/deep/bundle_factories/factory.py::_build_image_cnn_bundle"]}
{"id": "C163", "title": "A benchmark gives a method the networks its configuration describes", "statement": "With a model configuration, a benchmark run fills exactly the network fields of the method specification; every network is the one built for the configured classifier, the labeled sample and the number of different labels, with seeds counted up from the run seed so that no two networks of a method start alike, and with an averaged copy only if configured or for Mean Teacher; unusable configurations are refused; the networks given to TriNet fit together: heads take the features of the shared network.", "quantifier": "all method specifications, configurations, labeled data, labels and seeds", "why_tests_cant": "Configurations, label sets and data shapes are unbounded and combine freely.", "anchors": ["bench/orchestrators/method_inductive.py::_inject_model_bundle", "src/modssc/inductive/methods/trinet.py::_forward_shared", "src/modssc/inductive/methods/trinet.py::_forward_head"]}
{"id": "C164", "title": "Training and evaluation data reach a method in one representation", "statement": "A strict benchmark run hands the data to the method exactly as prepared or refuses it (torch data for torch methods, at least two axes, floating tensors, as many labels as rows). Other runs hand arrays to torch methods as tensors on the configured device with the same keys, shapes and numbers (8-bit values as fractions of 255), labels and views on the device of the features; the rows of the evaluation arrive in the representation of the training rows; the run reports whether it converted anything.", "quantifier": "all data (arrays, tensors, nested dictionaries and sequences of them), configurations, methods and views", "why_tests_cant": "Data containers nest to any depth and mix representations freely; tests use single arrays.", "anchors": ["bench/orchestrators/method_inductive.py::run", "bench/orchestrators/method_inductive.py::_smart_to_torch", "bench/orchestrators/method_inductive.py::_validate_strict_inputs", "bench/orchestrators/method_inductive.py::_build_views", "bench/orchestrators/evaluation.py::evaluate_inductive", "bench/orchestrators/evaluation.py::_infer_method_device", "bench/orchestrators/evaluation.py::_views_for_split"]}
{"id": "C165", "title": "Consistency training follows every batch with the right targets", "statement": "fit of PiModel, MeanTeacher, TemporalEnsembling and VAT is refused with the network unchanged when data or parameters are not acceptable; otherwise it makes one optimizer step per batch of max_epochs fair epochs, whose loss is the mean cross entropy of the labeled rows of the batch plus lambda_u times the warm-up factor of that step times the distance of exactly the unlabeled samples of the batch to their targets: what the network says of the weak view at that moment (Pi-Model), what the averaged teacher says (Mean Teacher; its parameters are the exponential average of the students after each step), the bias-corrected average of the earlier epochs for that sample (Temporal Ensembling), the prediction for the unperturbed sample (VAT).", "quantifier": "all networks, data sets, batch sizes, numbers of epochs, warm-ups, decays, seeds and perturbation searches", "why_tests_cant": "Targets depend on the whole history of the run, on sample positions within shuffled batches and on the step number; tests run one epoch of tiny networks and look at shapes.", "anchors": ["src/modssc/inductive/methods/pi_model.py::PiModelMethod.fit", "src/modssc/inductive/methods/mean_teacher.py::MeanTeacherMethod.fit", "src/modssc/inductive/methods/temporal_ensembling.py::TemporalEnsemblingMethod.fit", "src/modssc/inductive/methods/vat.py::VATMethod.fit", "src/modssc/inductive/methods/vat.py::VATMethod._vat_loss"]}
{"id": "C166", "title": "A fitted method answers only the kind of data it was trained on", "statement": "Classifier-based methods train on numpy arrays with a numpy or scikit-learn classifier and on torch data with a torch classifier, and on nothing else. Afterwards predict_proba and predict answer only data in that representation, other data gets a validation error; predict_proba is computed from the scores of the classifier for exactly this input, and for a classifier that only predicts labels it is the indicator of the predicted label in columns that stand for the classes of the classifier.", "quantifier": "all inputs (arrays, tensors, dictionaries, anything else), classifiers with any subset of predict_scores, predict_proba, predict and classes_, and fitted states", "why_tests_cant": "Which check fires depends on stored state and on the type of the input; unit tests never predict with the other representation on a fitted object with an unusual classifier.", "anchors": ["src/modssc/inductive/methods/helpers/classifier_bridge.py::detect_backend", "src/modssc/inductive/methods/helpers/classifier_bridge.py::ensure_classifier_backend", "src/modssc/inductive/methods/helpers/classifier_bridge.py::predict_scores", "src/modssc/inductive/methods/helpers/classifier_bridge.py::flatten_if_numpy", "src/modssc/inductive/methods/supervised.py::SupervisedMethod.predict", "src/modssc/inductive/methods/self_training.py::SelfTrainingMethod.predict", "src/modssc/inductive/methods/pseudo_label.py::PseudoLabelMethod.predict", "src/modssc/inductive/methods/setred.py::SetredMethod.predict", "src/modssc/inductive/methods/s4vm.py::S4VMMethod.predict"]}
{"id": "C167", "title": "A dataset reference names one dataset and its canonical URI names it again", "statement": "A provider reads a reference in one way: name/config for Hugging Face (the configuration in the reference wins over the option), name/version for TFDS, a class name for torchvision and torchaudio, a number or name=...,version=... for OpenML (options win). The library is asked for exactly that dataset. The canonical URI of the identity resolves, without options, to the same request, and two requests with the same canonical URI load the same dataset, so that cache operations by URI never touch another dataset.", "quantifier": "all references and options, any notion of white space that leaves letters, digits and punctuation alone, any cache content", "why_tests_cant": "References are free text; tests try a handful of names and never compare the URIs of two different requests.", "anchors": ["src/modssc/data_loader/providers/hf.py::_split_ref", "src/modssc/data_loader/providers/hf.py::HuggingFaceDatasetsProvider.resolve", "src/modssc/data_loader/providers/tfds.py::_split_name_version", "src/modssc/data_loader/providers/tfds.py::TFDSProvider.resolve", "src/modssc/data_loader/providers/torchvision.py::TorchvisionProvider.resolve", "src/modssc/data_loader/providers/torchaudio.py::TorchaudioProvider.resolve", "src/modssc/data_loader/providers/openml.py::_parse_openml_ref", "src/modssc/data_loader/providers/openml.py::OpenMLProvider.resolve", "src/modssc/data_loader/cache.py::gc_keep_latest"]}
{"id": "C168", "title": "A provider delivers the samples, labels and splits of its source", "statement": "The training rows are rows of the source's training split, the test rows are rows of its official test split (none when there is none), every sample with its own label. With options, they are as many of the rows with an allowed label as the limit keeps, each source row at most once, the first ones in order when no seed is given; without options all rows in order. A missing split or column is an error, never a substitute.", "quantifier": "all source contents, filters, limits, seeds, dataset classes and file trees", "why_tests_cant": "Providers are tested with two-row stubs; which rows end up where must hold for every source.", "anchors": ["src/modssc/data_loader/providers/common.py::apply_limits_to_split", "src/modssc/data_loader/providers/hf.py::_extract_official_test", "src/modssc/data_loader/providers/hf.py::HuggingFaceDatasetsProvider.load_canonical", "src/modssc/data_loader/providers/tfds.py::_materialize_tfds", "src/modssc/data_loader/providers/tfds.py::TFDSProvider.load_canonical", "src/modssc/data_loader/providers/openml.py::OpenMLProvider.load_canonical", "src/modssc/data_loader/providers/torchvision.py::_make_train_test", "src/modssc/data_loader/providers/torchvision.py::_extract_xy", "src/modssc/data_loader/providers/torchvision.py::TorchvisionProvider.load_canonical", "src/modssc/data_loader/providers/torchaudio.py::_official_or_single", "src/modssc/data_loader/providers/torchaudio.py::_paths_from_walker", "src/modssc/data_loader/providers/torchaudio.py::_labels_from_paths", "src/modssc/data_loader/providers/torchaudio.py::_extract_xy", "src/modssc/data_loader/providers/toy.py::ToyProvider.load_canonical"]}
{"id": "C169", "title": "Noisy Student first trains on labels alone, then follows one fixed teacher", "statement": "A fit that returns made exactly teacher_epochs passes over the labeled rows, each row once per pass with its own label and the supervised loss alone, and then one optimizer step for each batch of max_epochs fair epochs. All pseudo-labels of the second phase come from one network fixed before its first step: a copy of the student after the first phase, in evaluation mode, never updated. The pseudo-label of a sample is the teacher's prediction for its weak view (X_u without views), is used for the strong view of the same sample, and counts only if the teacher is confident, averaged over the confident samples and weighted by lambda_u and the warm-up. A fit with unacceptable data, bundle or parameters raises and leaves network, teacher and object untouched.", "quantifier": "all data, parameters, seeds, student networks, teachers that treat rows by themselves in evaluation mode, and generators", "why_tests_cant": "Tests run one epoch with a linear network on a few rows; which network gave which label cannot be seen from a loss value.", "anchors": ["src/modssc/inductive/methods/noisy_student.py::NoisyStudentMethod._train_teacher", "src/modssc/inductive/methods/noisy_student.py::NoisyStudentMethod._check_teacher", "src/modssc/inductive/methods/noisy_student.py::NoisyStudentMethod._init_teacher", "src/modssc/inductive/methods/noisy_student.py::NoisyStudentMethod.fit", "src/modssc/inductive/methods/noisy_student.py::_kl_divergence", "src/modssc/inductive/methods/helpers/torch_support.py::should_freeze_batchnorm", "src/modssc/inductive/methods/helpers/torch_support.py::cycle_batches"]}
{"id": "C170", "title": "Meta Pseudo Labels gives the teacher the feedback of its own pseudo-labels", "statement": "A fit that returns made, for every batch of max_epochs fair epochs, exactly one student step and one teacher step. The student learned the strong views of that batch from the predictions of the teacher as it was before its own step of that batch, and never saw a label. The teacher learned from the smoothed labels of the strong versions of the labeled rows (each row with its own strong version: X_l_s, else X_l_strong, else labeled_strong, else the row itself), from its own tempered predictions for the weak views of the samples that pass the threshold, averaged over these, and from the feedback times its entropy. The feedback is the change of the student's labeled loss caused by the student step of the same batch, minus the moving average of these changes. A fit with unacceptable data or bundles raises and leaves both networks and the object untouched.", "quantifier": "all data, parameters, seeds, generators, and pairs of networks that treat rows by themselves", "why_tests_cant": "Tests run one step with linear networks; which network state produced which target, and the feedback over a whole history of steps, cannot be read off a loss value.", "anchors": ["src/modssc/inductive/methods/meta_pseudo_labels.py::MetaPseudoLabelsMethod.fit", "src/modssc/inductive/methods/meta_pseudo_labels.py::MetaPseudoLabelsMethod._check_models", "src/modssc/inductive/methods/meta_pseudo_labels.py::MetaPseudoLabelsMethod._init_teacher", "src/modssc/inductive/methods/meta_pseudo_labels.py::MetaPseudoLabelsMethod._uda_loss", "src/modssc/inductive/methods/meta_pseudo_labels.py::_label_smoothed_ce", "src/modssc/inductive/methods/meta_pseudo_labels.py::_entropy_loss", "src/modssc/inductive/methods/meta_pseudo_labels.py::_soft_cross_entropy"]}
{"id": "C171", "title": "A PyG dataset is loaded as the subgraph on the chosen nodes", "statement": "Loading a pyg: dataset gives the part of its first graph on a set of nodes: features, labels and mask flags of these nodes in their order, and exactly the edges between them, renumbered to point at the same nodes. The nodes are those whose label passes class_filter, at most max_nodes of them, without a seed the first ones. Class/Name and Class name the dataset; different requests have different canonical URIs. A missing class, a failing constructor and an empty dataset raise.", "quantifier": "all graphs, filters, limits, seeds and shuffles, references", "why_tests_cant": "Renumbering errors show only on graphs where kept and dropped nodes interleave; tests use one small graph.", "anchors": ["src/modssc/data_loader/providers/pyg.py::PyGProvider.resolve", "src/modssc/data_loader/providers/pyg.py::PyGProvider.load_canonical", "src/modssc/data_loader/providers/pyg.py::_subset_graph", "src/modssc/data_loader/providers/pyg.py::_pad_labels", "src/modssc/data_loader/providers/pyg.py::_as_edge_index"]}
{"id": "C172", "title": "load_dataset answers as a cache of what the providers delivered", "statement": "Over every history of load_dataset, download_dataset and purge calls from an empty cache directory, a request is answered from the cache iff its dataset was delivered and not purged since and force is not set; otherwise the provider is asked exactly once, if download allows. Every dataset returned was delivered by the provider for exactly the identity asked for. A request that returned is answered again with the same data, offline too, without a provider call; a request that raises leaves the cache as it was; a request touches only the files of its own dataset. A catalogue key means the URI of its entry with the user options laid over its own. Plain JSON metadata survives the cache.", "quantifier": "all histories, catalogues, providers (answers may differ between calls), options and metadata", "why_tests_cant": "Cache errors show only in particular orders of forced, offline, failed and purged requests for several datasets.", "anchors": ["src/modssc/data_loader/services/service.py::load_dataset", "src/modssc/data_loader/services/service.py::download_dataset", "src/modssc/data_loader/services/service.py::_resolve_identity", "src/modssc/data_loader/services/service.py::_download_and_store", "src/modssc/data_loader/services/service.py::_load_processed_or_purge", "src/modssc/data_loader/services/service.py::_load_processed", "src/modssc/data_loader/storage/json.py::to_jsonable", "src/modssc/data_loader/storage/json.py::mapping_to_jsonable", "src/modssc/data_loader/types.py::DatasetIdentity.fingerprint_payload"]}
{"id": "C173", "title": "Deep Co-Training trains both networks together as specified", "statement": "For networks that treat every row by itself, DeepCoTrainingMethod.fit returns iff data, bundles and parameters are acceptable, both networks have the same classes and the labels are among them; unacceptable data, bundles or parameters raise a validation error and leave the networks and the object untouched. A fit that returns made one common step of both optimizers per batch. Each epoch is fair to the labeled rows, for each network on its own, and to the unlabeled rows; every batch gives both networks equally many labeled rows and the same unlabeled rows. In each step the loss is: cross entropy of each network on its own labeled rows; lambda_cot times the divergence of both on the unlabeled rows; lambda_dif times the cross entropy of each network, on rows moved adv_eps along the sign of the other network's gradient and clipped, with what the other network says of the original rows. The gradient is that of the labels for labeled rows and of the network's own guess for unlabeled rows. All quantities are those of the networks just before the step.", "quantifier": "all row-wise networks, data, parameters, seeds and generators", "why_tests_cant": "Which rows meet in a batch, and which network is attacked with which rows and compared with which targets, cannot be seen from results of a stochastic training.", "anchors": ["src/modssc/inductive/methods/deep_co_training.py::DeepCoTrainingMethod.fit", "src/modssc/inductive/methods/deep_co_training.py::DeepCoTrainingMethod._check_models", "src/modssc/inductive/methods/deep_co_training.py::_fgsm_adversarial", "src/modssc/inductive/methods/deep_co_training.py::_soft_cross_entropy", "src/modssc/inductive/methods/helpers/torch_support.py::cycle_batches", "src/modssc/inductive/methods/helpers/torch_support.py::cycle_batch_indices"]}
{"id": "C174", "title": "MixMatch trains on mixed rows and guesses as specified, and its seed does not fix the training", "statement": "For networks that treat every row by itself, MixMatchMethod.fit returns iff data, bundle and parameters are acceptable and the labels are among the classes; unacceptable data, bundles or parameters raise and leave the network, the object and torch's global generator untouched. A fit that returns made one optimizer step per batch of fair epochs (every labeled row and every unlabeled row is seen, equally often up to one, with its own label or its own second view), although the labeled batches and the permutations of MixUp come from one generator. In each step the rows of the batch, or their features when mixing on the manifold, are mixed with partners from a permutation of the same batch with a weight of at least 1/2, and so are the targets: one-hot labels for labeled rows and, for both views of an unlabeled sample, the sharpened mean of the predictions for them. Labeled rows come first; the rest is weighted with lambda_u times the ramp. With mixup_alpha 0 nothing is mixed and torch's global generator does not matter. A user also expects that the seed fixes the training; this fails for every positive mixup_alpha, since the weights come from torch's global generator.", "quantifier": "all row-wise networks, data, parameters, seeds, generators and states of torch's global generator", "why_tests_cant": "Which rows are mixed with which, and that targets are mixed in the same way, cannot be seen from the result of a stochastic training; that the seed does not determine the result shows only when the global generator differs.", "anchors": ["src/modssc/inductive/methods/mixmatch.py::MixMatchMethod.fit", "src/modssc/inductive/methods/mixmatch.py::_mixup", "src/modssc/inductive/methods/mixmatch.py::_forward_features", "src/modssc/inductive/methods/mixmatch.py::_forward_head", "src/modssc/inductive/methods/mixmatch.py::_ensure_mixmatch_tensor_input", "src/modssc/inductive/methods/helpers/torch_support.py::cycle_batches", "src/modssc/inductive/methods/helpers/torch_support.py::cycle_batch_indices"]}
{"id": "C175", "title": "ADSH adapts its thresholds once per epoch, in evaluation mode, and trains with them as specified", "statement": "ADSHMethod.fit returns iff data, bundle and parameters are acceptable, every label is a class of the network and a given majority_class is one (for networks that treat every row by itself). Unacceptable data, bundles or parameters raise and leave network and object untouched; labels without a class and a wrong majority class raise before any training, with parameters and mode as before. A fit that returns made one optimizer step per batch of fair epochs. Before each epoch from score_warmup_epochs on, the class thresholds are adjusted once to the predictions, on the whole weak pool, of the network as it is then; before that they are p_cutoff. Every step uses the thresholds of its epoch: the strong view of a sample is trained towards the class whose probability on the weak view is largest relative to its threshold, if some class reaches its threshold, and the mean is over the whole batch. For any network, the class probe and the threshold updates look at rows in evaluation mode, each pool row once and in order, everything that is trained on is looked at in training mode, and fit leaves the network in training mode.", "quantifier": "all networks (or all row-wise ones), data, parameters, seeds and generators", "why_tests_cant": "Which thresholds a step used and from which network state they came is not visible in the result; a test with a few epochs and classes cannot show it for all histories of predictions.", "anchors": ["src/modssc/inductive/methods/adsh.py::ADSHMethod.fit", "src/modssc/inductive/methods/adsh.py::_update_scores", "src/modssc/inductive/methods/adsh.py::ADSHMethod._resolve_majority_class", "src/modssc/inductive/methods/helpers/torch_support.py::cycle_batches", "src/modssc/inductive/methods/helpers/torch_support.py::cycle_batch_indices"]}
{"id": "C176", "title": "DeFixMatch subtracts on the labeled rows exactly what FixMatch adds on the unlabeled ones", "statement": "DeFixMatchMethod.fit returns iff data, bundle and parameters are acceptable (including a strong view of the labeled rows, taken from the first of X_l_s, X_l_strong, labeled_strong that is present, of the shape of X_l) and every label is a class of the network (for networks that treat every row by itself). Unacceptable ones raise and leave network and object untouched. A fit that returns made one optimizer step per batch of fair epochs in which weak view, strong view and label of a labeled sample stay together. Its loss is half the mean cross entropy on each view of the labeled rows, plus lambda_u times the difference of the confident pseudo-label loss of the unlabeled pairs of views and the same of the labeled ones. So where the unlabeled samples of a step are its labeled ones with the same views, the pseudo-label part vanishes whatever the loss of a row is. use_cat changes nothing. A fit without a strong view of the labeled rows should not silently lose this.", "quantifier": "all row-wise networks, data, parameters, seeds and generators", "why_tests_cant": "That the two parts cancel for every batch order, every confidence pattern and every row loss is an identity over all batches; a test sees one loss value.", "anchors": ["src/modssc/inductive/methods/defixmatch.py::DeFixMatchMethod.fit", "src/modssc/inductive/methods/defixmatch.py::_non_batch_shape", "src/modssc/inductive/methods/helpers/torch_support.py::cycle_batches", "src/modssc/inductive/methods/helpers/torch_support.py::cycle_batch_indices"]}
{"id": "C177", "title": "The graph of a transductive benchmark is over the samples of that run", "statement": "In a transductive run, node q of the graph, row q of the features, entry q of the observed labels and of every mask belong to the same sample: training sample q, or test sample q - n_train when the test set is separate. A graph enabled in the configuration is built on the feature field asked for, and replaces the edges of the data set; otherwise the edges of the data set, given as two rows or as pairs, alone or with weights, become exactly the edges of the graph, and edges outside the nodes or a wrong number of weights raise. The method is fitted only if graph, features, labels and masks have the same number of nodes, and a graph built for the run always has it. A cached graph is the one that would be built.", "quantifier": "all data sets, edge lists, splits, feature artifacts, graph specs, hash functions and histories of runs on the cache, each finished or killed anywhere", "why_tests_cant": "A shifted or foreign graph has valid shapes in most cases, and a cache hit needs a particular earlier run; tests with one run and one split do not see either.", "anchors": ["bench/orchestrators/graph.py::build", "bench/orchestrators/graph.py::_feature_from_artifacts", "bench/orchestrators/method_transductive.py::graph_from_dataset", "bench/orchestrators/method_transductive.py::run", "bench/main.py::_run_experiment_single", "src/modssc/graph/artifacts.py::NodeDataset", "src/modssc/graph/construction/services/service.py::build_graph"]}
{"id": "C178", "title": "The fixed-point diffusion solver is truthful and approaches the solution", "statement": "The scores returned by the fixed-point diffusion solver are those after n_iter rounds starting from Y, where a round adds alpha times the normalised weights into each node to (1 - alpha) times Y, puts the labeled rows back and optionally divides each row by its sum; the residual is the Euclidean norm of the change of the last round, and fewer than max_iter rounds are made only when it is at most tol. Labeled nodes keep their row of Y. With random-walk normalisation, non-negative weights and alpha in [0, 1] the rows stay non-negative with sum at most one. With alpha below one there is exactly one solution of the clamped diffusion equation; the scores approach it by the factor alpha in every round (also with symmetric normalisation, in a weighted norm), and differ from it by at most alpha / (1 - alpha) times the reported residual. The numpy and the torch solver return the same.", "quantifier": "all graphs, weights, scores, masks, parameters, epsilons and square-root functions; the number of rounds is not bounded", "why_tests_cant": "A unit test compares one small graph after a few rounds; that the reported residual bounds the error concerns the limit for every graph.", "anchors": ["src/modssc/transductive/solvers/fixed_point.py::fixed_point_diffusion_numpy", "src/modssc/transductive/solvers/fixed_point.py::fixed_point_diffusion_torch", "src/modssc/transductive/solvers/fixed_point.py::FixedPointResult", "src/modssc/transductive/operators/clamp.py::hard_clamp", "src/modssc/transductive/operators/clamp.py::row_normalize", "src/modssc/transductive/operators/normalize.py::normalize_edges_numpy", "src/modssc/transductive/operators/spmm.py::spmm_numpy", "src/modssc/transductive/backends/numpy_backend.py::spmm", "src/modssc/transductive/backends/torch_backend.py::spmm"]}
{"id": "C179", "title": "Every loss of an adaptive-threshold training follows from the whole history", "statement": "In a first fit of FlexMatch, FreeMatch, AdaMatch, SoftMatch or UDA with annealing, the loss of every optimizer step is determined by the batches and networks of the steps so far: FlexMatch uses exactly the samples whose confidence reaches p_cutoff * beta / (2 - beta), beta being the learning effect of the predicted class over everything predicted before; FreeMatch those reaching the global threshold scaled by the relative average probability of the class, and adds its fairness term exactly if a sample is used; AdaMatch those whose aligned confidence reaches p_cutoff times the mean confidence on the labeled batch, with targets from the aligned predictions; SoftMatch weighs all samples by a Gaussian of the running mean and variance of the confidence; UDA counts the labeled samples whose true class is predicted with a probability below the threshold of that step. The loss is the mean cross entropy of the labels plus lambda_u times the weighted cross entropy of the strong views with the pseudo-label of the weak view of the same sample, averaged over the used samples.", "quantifier": "all data sets, batch sizes, epochs, seeds, networks (row-wise, over C classes), softmax, power, argmax, exponential and quantile functions meeting their contracts; the number of steps is not bounded", "why_tests_cant": "The threshold of a step depends on every prediction of every earlier step; unit tests look at one step with a prepared state.", "anchors": ["src/modssc/inductive/methods/flexmatch.py::FlexMatchMethod.fit", "src/modssc/inductive/methods/free_match.py::FreeMatchMethod.fit", "src/modssc/inductive/methods/adamatch.py::AdaMatchMethod.fit", "src/modssc/inductive/methods/softmatch.py::SoftMatchMethod.fit", "src/modssc/inductive/methods/uda.py::UDAMethod.fit"]}
{"id": "C180", "title": "CoMatch training: every step has the CoMatch loss, with pseudo-labels that follow from the training so far", "statement": "CoMatchMethod.fit returns iff data, bundle and parameters are acceptable (a weak view, a first strong view from X_u_s or the first of X_u_s0, X_u_s_0, X_u_s, X_u_strong0 among the views, a second from X_u_s1, X_u_s_1, X_u_strong1, X_u_s2, X_u_s_2) and every label is a class of the network (for networks that treat every row by itself). Unacceptable ones raise and leave network and object untouched. A fit that returns made one optimizer step per batch of fair epochs in which a weak view and both strong views of a sample stay together. The loss of each step is the mean cross entropy of the labels, plus lambda_u times the mean cross entropy of the first strong views with their pseudo-labels over the confident samples, plus lambda_c times the mean contrastive cross entropy of first against second strong views, weighted by the agreement of the pseudo-labels of the two samples scaled to sum one. The pseudo-labels are the aligned predictions, mixed with what the memory of the last queue_size rows of the earlier steps of this training proposes. Nothing is carried over from earlier calls of fit; use_cat changes nothing for such networks, and detach_target nothing without use_cat.", "quantifier": "all data, views, parameters, seeds and generators; all networks for refusal, history and detaching, row-wise networks for the rest; any number of steps", "why_tests_cant": "Pseudo-labels of a step depend on everything the network said in all earlier steps; unit tests run one or two steps on a fixed network.", "anchors": ["src/modssc/inductive/methods/comatch.py::CoMatchMethod.fit", "src/modssc/inductive/methods/comatch.py::_contrastive_loss", "src/modssc/inductive/methods/comatch.py::_build_pseudo_graph"]}
{"id": "C181", "title": "DASO training: every step has the DASO loss, with prototypes and pseudo-labels that follow from the training so far", "statement": "DASOMethod.fit returns iff data, bundle and parameters are acceptable, an ema_model in use is another network with parameters of the same shapes, and every label is a class of the network (for networks that treat every row by itself); otherwise unacceptable input raises and leaves network and object untouched. A fit that returns made one optimizer step per batch of fair epochs. The loss of each step is the mean cross entropy of the labels, plus lambda_u times the mean cross entropy of the strong views with their pseudo-labels over the confident samples, plus, after pretrain_steps steps and for lambda_align not zero, lambda_align times the mean cross entropy between the similarities to the class prototypes of the weak and the strong view. A prototype is the mean of the last queue_size features of its class seen in this training, computed by the averaged network, whose parameters are the weighted averages of those the network had at the start and after each earlier step, whatever the bundle's ema_model held before; without use_ema they are computed by the network itself. use_cat changes nothing for such networks. In a training of at most pretrain_steps steps the temperatures, queue size, period, mixing weight, dist_aware and the averaging have no influence on the network that results.", "quantifier": "all data, parameters, seeds, generators and ema models; all networks for refusal, row-wise networks for the rest; any number of steps", "why_tests_cant": "Prototypes, class shares and averaged parameters depend on all earlier steps; unit tests run one or two steps on a fixed network.", "anchors": ["src/modssc/inductive/methods/daso.py::DASOMethod.fit", "src/modssc/inductive/methods/daso.py::_init_ema", "src/modssc/inductive/methods/daso.py::_update_ema"]}
{"id": "C182", "title": "GraFN training: every epoch has the GraFN loss for its own support set, views and targets; what is accepted and what is predicted", "statement": "GraFN accepts exactly the configurations with positive tau, a threshold between 0 and 1, usable layer sizes and optimizer settings, and the datasets with a training node of every class; every epoch draws equally many distinct labeled nodes of every class, a strong and a weak view, uses the labels of training nodes and confident soft labels of the others as targets, and takes an optimizer step for the GraFN loss of the parameters it starts with; the network with the best validation accuracy is kept; predictions are distributions, of the network that was trained, on the data that is given; hidden labels do not matter; a method without a completed fit refuses to predict.", "quantifier": "all configurations, datasets that validation accepts, networks, optimizers, generators, seeds, numbers of epochs and earlier states of the method object", "why_tests_cant": "Whether a loss uses the right nodes and targets in every epoch cannot be seen from the fitted network; tests use one small graph with all classes labeled and the same data for fit and predict.", "anchors": ["src/modssc/transductive/methods/gnn/grafn.py: GraFNMethod.fit, predict_proba, _snn, _build_augmented_view, _sample_support"]}
{"id": "C183", "title": "GRAND training: every epoch has the GRAND loss under its own augmentations; what is accepted and what is predicted", "statement": "GRAND accepts exactly the settings with a usable network size, optimizer, number of augmentations and dropout probabilities, and data whose training and validation labels are classes; every epoch draws the augmentations from the generator of the seed, and takes an optimizer step for the mean cross-entropy of the training nodes plus the weighted distance of the predictions from their mean, which is never negative and vanishes without noise; the network with the lowest validation loss is kept; predictions are distributions, of the network that was trained, on the data that is given; whole nodes are dropped; there is something to learn from; hidden labels do not matter; a method without a completed fit refuses to predict.", "quantifier": "all settings, datasets that validation accepts, optimizers, initial networks, generators, seeds, numbers of epochs and earlier states of the method object", "why_tests_cant": "The loss of an epoch under random augmentations cannot be seen from the fitted network; tests run one small graph with a few epochs.", "anchors": ["src/modssc/transductive/methods/gnn/grand.py: GRANDMethod.fit, predict_proba, _propagate", "src/modssc/transductive/methods/gnn/common.py: TwoLayerMLP"]}
{"id": "C184", "title": "A split result is accepted exactly if it is sound, and a sound one leaks nothing", "statement": "Validation of a split result accepts it exactly if it is a sound split, and otherwise reports a validation error. Of every accepted result the labeled and unlabeled indices are the training indices, each once, and training, validation and test have no sample in common; every index array is distinct positions of the split it refers to, and labeled samples are training samples; masks, where present, agree with any index arrays. The check the sampler makes on its own split is the same one.", "quantifier": "all split results, whatever keys, reference names, element types and masks they hold, and all split sizes", "why_tests_cant": "Soundness ranges over every result a plan or a stored file can produce; tests reject a handful of broken ones.", "anchors": ["src/modssc/sampling/result.py: SamplingResult.validate, train_idx, val_idx, test_idx, labeled_idx, unlabeled_idx"]}
{"id": "C185", "title": "A benchmark run gives a method the asked device and its defaults with the parameters written over; strict runs leave nothing to be chosen", "statement": "A run of a method is prepared exactly if its device can be settled, every parameter is a setting of the method, and the libraries of the backend are there; the method is given the device that was asked for and its default settings with the parameters written over them, none lost and none added. In a strict run neither device nor backend is left to be chosen, and the reported backend is the one that computes.", "quantifier": "all method classes, however their construction ends and whatever settings they have; all parameters, devices, installed libraries and modes", "why_tests_cant": "Which settings reach the method depends on every combination of parameters, defaults and mode; tests try a few classes.", "anchors": ["bench/orchestrators/method_transductive.py: _resolve_method_device, _default_spec, _build_spec, _resolve_method_backend, _ensure_backend_dependencies, run", "bench/orchestrators/method_inductive.py: _default_spec, _build_spec, _resolve_method_backend, run"]}
{"id": "C186", "title": "The graph attention network: attention is a softmax, predictions reach two steps and do not depend on names or order", "statement": "In a fitted graph attention network the attention over the edges into a node is their softmax up to the tiny constant that guards the division, and sums to one up to it. The prediction of a node is a distribution; it depends only on the features of nodes at most two steps before it and on the edges on the way; it does not depend on the order of edges or the names of nodes; with self-loops it depends only on which edges there are, and every node attends to itself; an edge of weight zero, or listed twice, changes nothing.", "quantifier": "all graphs, features, network parameters, numbers of heads and channels, and renamings of nodes", "why_tests_cant": "Locality and symmetry range over all graphs and permutations; tests look at shapes of outputs for one graph.", "anchors": ["src/modssc/transductive/methods/gnn/gat.py: GATMethod.predict_proba, GATSpec", "src/modssc/transductive/methods/gnn/common.py: prepare_data"]}
{"id": "C187", "title": "Propagation networks look exactly as far as their depth, and do not depend on names or order", "statement": "The scores of a node under GCN, SGC, APPNP, ChebNet, GCNII or GraphSAGE depend only on features of nodes at most as many edges before it as the network propagates: two for GCN and GraphSAGE, the number of steps for SGC and APPNP, twice the order for ChebNet, the number of layers for GCNII. They do not depend on the order of edges, and renaming nodes renames them. Predictions are distributions, for the data given to the prediction call.", "quantifier": "all graphs, features, network parameters, depths, renamings of nodes and data given to fit and to prediction", "why_tests_cant": "Locality and symmetry range over all graphs, depths and permutations; tests look at shapes of outputs for one graph.", "anchors": ["src/modssc/transductive/methods/gnn/gcn.py: GCNMethod.predict_proba", "src/modssc/transductive/methods/gnn/sgc.py: SGCMethod.predict_proba", "src/modssc/transductive/methods/gnn/appnp.py: APPNPMethod.predict_proba", "src/modssc/transductive/methods/gnn/chebnet.py: ChebNetMethod.predict_proba", "src/modssc/transductive/methods/gnn/gcnii.py: GCNIIMethod.predict_proba", "src/modssc/transductive/methods/gnn/graphsage.py: GraphSAGEMethod.predict_proba", "src/modssc/transductive/methods/gnn/common.py: prepare_data"]}
{"id": "C188", "title": "H-GCN: a sound hierarchy, and predictions for a node that depend on its part of the given graph", "statement": "H-GCN accepts exactly an odd number of layers from three on, at least one channel, an embedding of at least one number and a graph with nodes. In the hierarchy it builds every original node is stood for on every level, and the weight of a node is the number of original nodes it stands for, so that weights always have an embedding and prediction never fails for as many nodes. Predictions are distributions; the prediction of a node depends only on features of nodes from which edges lead to it, for the graph given to the prediction call.", "quantifier": "all graphs, weights, settings, network parameters and data given to fit and to prediction", "why_tests_cant": "The hierarchy depends on the whole graph and its depth on the settings; tests build hierarchies of a few graphs and look at shapes.", "anchors": ["src/modssc/transductive/methods/gnn/h_gcn.py: HGCNMethod.fit, HGCNMethod.predict_proba, HGCNSpec"]}
{"id": "C189", "title": "N-GCN: predictions reach as far as powers and layers allow, along the edges of the given graph, whatever the names", "statement": "N-GCN accepts exactly at least one power, one replica, one layer and a known classifier. The prediction of a node depends only on features of nodes at most (powers - 1) times layers links away; with one power the graph plays no role. Renaming nodes renames predictions; with symmetrization it makes no difference whether edges are listed once or both ways. Predictions are distributions, follow the direction of edges, and are for the graph given to the prediction call.", "quantifier": "all graphs, weights, settings, network parameters, renamings and data given to fit and to prediction", "why_tests_cant": "Locality and symmetry range over all graphs, powers and permutations; tests look at shapes of outputs for one graph.", "anchors": ["src/modssc/transductive/methods/gnn/n_gcn.py: NGCNMethod.fit, NGCNMethod.predict_proba, NGCNSpec"]}
{"id": "C190", "title": "GraphHop: acceptance, probabilities, labels that count, stored predictions", "statement": "GraphHop accepts exactly at least one hop, a positive temperature, a training node for every class and one weight for each hop. Predictions are distributions over the classes. Only which nodes are joined matters of the edges. Labels of nodes that are neither training nor validation nodes play no role. Every optimization fits the true classes of the training nodes and is judged on the true classes of the validation nodes, on features side by side with their averages over the nodes at each distance. Predictions are those of the last fit, for the data given.", "quantifier": "all graphs, features, labels, masks, settings, optimizers and sequences of fit calls", "why_tests_cant": "Which labels count and that outputs are distributions must hold for every graph, weight setting and optimizer result; tests fit one small graph.", "anchors": ["src/modssc/transductive/methods/gnn/graphhop.py: GraphHopMethod.fit, GraphHopMethod.predict_proba, GraphHopSpec"]}
{"id": "C191", "title": "Graph embeddings: accepted inputs, forms of edges, reach, isolated nodes, seed", "statement": "The graph embedding step accepts exactly edges between existing rows, features in a list or table, as many weights as edges and settings in their ranges, and gives one row for each row of features. It makes no difference whether edges are given as columns or as rows. With the learned network given, an embedding depends only on features at most two edges before the node; without self-loops a node without edges into it is embedded as zero. The seed of the pipeline decides the embeddings.", "quantifier": "all edge arrays, weights, features, settings, seeds, optimizers and histories of the global random generator", "why_tests_cant": "Reproducibility must hold for every earlier use of the global generator; tests seed it themselves or compare shapes.", "anchors": ["src/modssc/preprocess/steps/graph/dgi.py: GraphDGIStep.transform"]}
{"id": "C192", "title": "The statistics of a split count what is in it, and classes without labels are reported", "statement": "The statistics returned with a split give the number of samples of each part, list exactly the classes that occur in it and count each; labeled and unlabeled samples add up to the training samples. A class of the training set without labeled sample, and an empty training or labeled set, is reported by a warning, and nothing else is. The fingerprint of the dataset given to the call is used before the one in the metadata, and a call without any is refused.", "quantifier": "all labels, plans, seeds, lawful generators, results and metadata", "why_tests_cant": "A count can be wrong for particular combinations of parts and classes, and a warning that never fires passes every test that does not look for it.", "anchors": ["src/modssc/sampling/stats.py: class_distribution, build_inductive_stats, build_graph_stats", "src/modssc/sampling/services/service.py: _warn_on_sampling_stats, _resolve_dataset_fingerprint, sample"]}
{"id": "C193", "title": "Label propagation and spreading give the same result with numpy and with torch", "statement": "Label propagation and label spreading give the same scores, number of iterations, residual and refusals whether they are computed with numpy or with torch, so the result of a fit depends neither on whether torch is installed nor on whether a device is named; an unknown backend, or torch when it is missing, is refused.", "quantifier": "all graphs, weights, labels, masks, settings, backends and installations", "why_tests_cant": "A test compares the backends on a few graphs; that they treat every label pattern, edge and size alike is a statement about all inputs, and the differences are in the corners.", "anchors": ["src/modssc/transductive/methods/classic/label_propagation.py: label_propagation_torch, label_propagation, LabelPropagationMethod.fit", "src/modssc/transductive/methods/classic/label_spreading.py: label_spreading_torch, label_spreading, LabelSpreadingMethod.fit", "src/modssc/transductive/methods/utils.py: spmm_torch, degrees_torch, normalize_edge_weight_torch"]}
{"id": "C194", "title": "Self-training uses the group ids it is given", "statement": "Group ids given to self-training in the metadata are used or refused: a named entry has to be there and hold one id for each unlabeled sample (with torch as an integer tensor), otherwise the fit is refused; without a name the first valid entry under a known name is used. Labels are propagated in groups exactly if that is asked for or, when nothing is said, if ids were found; asked for without ids the fit is refused.", "quantifier": "all metadata, names, settings, numbers of samples and backends", "why_tests_cant": "Which of many optional entries is taken depends on combinations of names and shapes, and an entry that is passed over raises nothing.", "anchors": ["src/modssc/inductive/methods/self_training.py: _resolve_group_ids, _normalize_group_ids_numpy, _normalize_group_ids_torch, SelfTrainingMethod.fit"]}
{"id": "C195", "title": "Caches are kept where the environment says", "statement": "Datasets, preprocessing results, splits, graphs and graph views are each kept in the directory named by their own environment variable; without it, in a directory of their own below the cache root variable, else below the cache of the closest repository, else below the user's cache. Different kinds never share a directory, and the placeholders of configuration files name the directories the library uses. Model libraries follow their own variables, else the root for models; torch is told the directory that is reported. A flag variable is off exactly if it is missing or spells a false value.", "quantifier": "all environments, file systems, working directories and configuration files", "why_tests_cant": "The result depends on every combination of some fifteen variables and on what exists in the directories above; tests run in one environment.", "anchors": ["src/modssc/runtime/paths.py: find_repo_root, default_local_cache_root, default_local_cache_subdir", "src/modssc/data_loader/cache.py: default_cache_dir", "src/modssc/preprocess/cache.py: default_cache_dir", "src/modssc/sampling/services/service.py: default_split_cache_dir, split_dir_for", "src/modssc/graph/cache.py: default_cache_dir, default_views_cache_dir", "src/modssc/cache/model.py", "bench/utils/io.py: _default_modssc_env"]}
{"id": "C196", "title": "Democratic co-learning gives the same result with numpy and with torch", "statement": "For the same data, learners and settings, democratic co-learning with torch tensors keeps the same classifiers, weights and classes as with numpy arrays and predicts the same probabilities and labels. Class lists offered by the classifiers are accepted exactly if they are the labels; a predicted label that is no class is refused.", "quantifier": "all labeled and unlabeled data, numbers of learners and rounds, confidence levels, and classifiers", "why_tests_cant": "The two branches are separate code that a test compares on a few data sets; a difference shows only for particular votes, ties or labels after several rounds.", "anchors": ["src/modssc/inductive/methods/democratic_co_learning.py: DemocraticCoLearningMethod.fit, predict_proba, predict, _resolve_classes_torch, _encode_predictions_torch, _weighted_majority_torch, _combine_scores_torch"]}
{"id": "C197", "title": "The scikit-learn and faiss backends give every node its k nearest neighbours, or its neighbours within the radius", "statement": "Whichever backend finds the neighbours, every node gets exactly min(k, n - 1) edges, to its nearest other nodes and with their distances, and never an edge to itself; the distances are the same for every backend. With a radius every node gets exactly the other nodes within it.", "quantifier": "all numbers of nodes, distances (also equal points), k, and searches that meet the contract of the library", "why_tests_cant": "Which of several equal points a search returns depends on the library and the data; tests without duplicated points never see the node missing from its own result.", "anchors": ["src/modssc/graph/construction/backends/sklearn_backend.py: knn_edges_sklearn, epsilon_edges_sklearn", "src/modssc/graph/construction/backends/faiss_backend.py: knn_search_faiss, knn_edges_faiss"]}
{"id": "C198", "title": "The text CNN classifier uses the kernels that fit, is trained on every text, and answers every text that is long enough", "statement": "A fit is accepted exactly for non-empty texts with as many labels and parameters in range, if some kernel fits; the network then has exactly the kernels that fit. It does not depend on earlier fits, and giving the axes in the other layout changes nothing. Afterwards texts no shorter than the longest kernel used get a distribution over the training labels and its most probable label; shorter ones are refused. The scores depend only on the stretches that occur in a text, not on where or how often.", "quantifier": "all texts, labels, kernel sizes, layouts, training parameters, networks and earlier states", "why_tests_cant": "Tests use a few shapes; which kernels remain depends on the length of the texts, and the invariance of the scores concerns all texts.", "anchors": ["src/modssc/supervised/backends/torch/text_cnn.py: TorchTextCNNClassifier.fit, _prepare_X, _scores, _TextCNN.forward"]}
{"id": "C199", "title": "A built graph has the edges and weights its specification asks for", "statement": "Distances become weights exactly for binary weights, heat weights with a positive width, and cosine weights of cosine distances. Binary weights are one; heat weights lie between zero and one and shorter edges weigh more; cosine weights are one minus the distance. Without further options the graph has the edges found, directed, with these weights. With self loops every node is joined to itself; the graph is marked undirected exactly if symmetrization is asked for, and then has every edge in both directions. Normalization comes last and changes only weights; random-walk weights are not negative and those leaving a node sum to one.", "quantifier": "all edge lists, distances, weight kinds, widths, metrics, symmetrization, loop and normalization options", "why_tests_cant": "Tests check single options on a few edges; the order of the steps matters for every combination of options and every list of distances.", "anchors": ["src/modssc/graph/construction/ops/weights.py: compute_edge_weights", "src/modssc/graph/construction/services/service.py: build_graph", "src/modssc/graph/construction/ops/normalize.py: normalize_edge_weights"]}
{"id": "C200", "title": "Tri-Net trains each head on the data and with the networks it should", "statement": "Tri-Net accepts a shared network and exactly three heads no two of which have a parameter in common, and its parameters exactly in their documented ranges. A training run of a head goes through its rows in the given number of epochs, in each of which every row is used once; a batch of a single row is taken twice, which leaves its mean loss as it is. At the start and when the heads are trained again, each is trained on its own smeared targets together with the shared network. In other rounds each head is trained on the labeled rows and on rows labeled by the two other heads as they are at that time, and only the first head's training changes the shared network. Fit raises only if the pseudo-labeling does. A failed fit leaves the networks, and the predictions of an earlier fit, as they were, and fitting twice gives the same networks.", "quantifier": "all networks, data, batch sizes, numbers of epochs and rounds, seeds and pseudo-labeling outcomes", "why_tests_cant": "The order of in-place updates of four networks over arbitrarily many rounds and batches cannot be enumerated; tests train tiny heads for one round.", "anchors": ["src/modssc/inductive/methods/trinet.py: _train_head", "src/modssc/inductive/methods/trinet.py: _validate_bundle_set", "src/modssc/inductive/methods/trinet.py: TriNetMethod.fit"]}
{"id": "C201", "title": "The pretrained audio classifier trains and answers as described", "statement": "With a loadable backbone, a fit succeeds exactly for waveforms and labels on one device, the waveforms with one axis (a single one), two axes, or three with one channel, not empty, as many labels as waveforms, and positive batch size, epochs and learning rate. The result does not depend on earlier fits. The head starts from the seed and sees every waveform once per epoch with its own label; a frozen backbone stays the pretrained one. Features with a time axis are averaged over time; of tuples the first entry and of lists the last is used. A channel axis of length one changes nothing and a single waveform is a batch of one. Answers are distributions over the training labels with the most probable class first. A refused fit leaves the predictions of an earlier fit as they were.", "quantifier": "all waveforms, layouts, labels, hyperparameters, backbones, heads, seeds and histories of fits", "why_tests_cant": "Tests replace the backbone by one toy network and fit a few waveforms; the claims are about every backbone output, layout and sequence of fits.", "anchors": ["src/modssc/supervised/backends/torch/audio_pretrained.py: TorchAudioPretrainedClassifier", "src/modssc/supervised/backends/torch/audio_pretrained.py: _extract_features", "src/modssc/supervised/backends/torch/common.py: predict_from_scores"]}
{"id": "C202", "title": "The views of co-training are taken, reused and enlarged as described", "statement": "For fitting, a view is a mapping with X_l and X_u or a tuple of two; for prediction X of a mapping is used, without it X_u, without both X_l, or the array given itself; each must be an array, or with torch a graph, with at least two axes, and in a torch fit on one device. A view accepted for fitting is accepted for prediction. The samples picked by the other classifier follow the training samples in the order picked; with graphs the training graph is joined with the subgraph of the picked nodes, no edge between them, and every edge keeps its weight. Samples of an accepted view can always be joined.", "quantifier": "all views, backends, arrays, graphs, extra entries and picked positions", "why_tests_cant": "Tests use arrays and one small graph without weights; the claims are about every form of view, every graph and every choice of samples.", "anchors": ["src/modssc/inductive/methods/co_training.py: _view_payload_numpy", "src/modssc/inductive/methods/co_training.py: _view_payload_torch", "src/modssc/inductive/methods/co_training.py: _view_predict_payload_numpy", "src/modssc/inductive/methods/co_training.py: _view_predict_payload_torch", "src/modssc/inductive/methods/co_training.py: _index_torch", "src/modssc/inductive/methods/co_training.py: _cat_torch"]}
{"id": "C203", "title": "Log levels are chosen and applied as described, however often they are configured", "statement": "The levels are none (quiet), basic and detailed (full), up to case and surrounding blanks; anything else raises and changes nothing. A given level is used, else the environment variable, else none; a blank one counts as not given, from wherever it comes. Configuring sets the level of the two loggers; a logger without handlers gets one handler with the level and format, and later calls adjust that handler; a logger with only other handlers keeps exactly those. Handlers of others keep their settings. After any history no logger has a handler twice, no handler of the library is on two loggers, and a logger with one does not pass records on, while every other logger does.", "quantifier": "all level texts, environment values, formats and histories of configuring, adding and removing handlers", "why_tests_cant": "Tests call it once or twice; the claims are about every history of calls and of handlers added or removed by others.", "anchors": ["src/modssc/runtime/logging.py: normalize_log_level", "src/modssc/runtime/logging.py: resolve_log_level", "src/modssc/runtime/logging.py: configure_logging", "src/modssc/runtime/logging.py: _configure_logger", "src/modssc/runtime/logging.py: _validate_log_level"]}
{"id": "C204", "title": "The GraphSAGE classifier builds the network its options describe and uses the graph it is given", "statement": "Hidden widths are accepted exactly if positive and num_layers is not given or one more than their number, and replace hidden_channels; without them there are num_layers layers of width hidden_channels. The layers lead from the features to the classes and are applied in order with the activation after each but the last. A fit takes dicts with two-axis features and an edge index of two rows and as many labels as nodes; prediction also takes bare features as nodes without edges. The classes are 0 up to the largest label. Widths and layer counts that make no network and unknown activations are refused by the constructor, edge weights are used, and a refused fit changes nothing.", "quantifier": "all options, inputs, labels, convolutions and activations", "why_tests_cant": "Tests construct a few networks on one small graph; the claims are about every combination of options and every input form.", "anchors": ["src/modssc/supervised/backends/torch/graphsage_inductive.py: TorchGraphSAGEClassifier", "src/modssc/supervised/backends/torch/graphsage_inductive.py: _coerce_graph_input", "src/modssc/supervised/backends/torch/graphsage_inductive.py: _normalize_hidden_sizes", "src/modssc/supervised/backends/torch/graphsage_inductive.py: _resolve_activation"]}
{"id": "C205", "title": "Any history of sample calls leaves at each place the last split reported as stored there", "statement": "sample names the dataset by a non-empty argument or else its metadata, samples as a graph exactly if the training data has edges or masks, with the three seeds derived from the given one, and returns the same arrays for the same data, name, plan and seed whatever is stored. With save it stores the result at a place fixed by name, plan and seed: two requests share a place only if these agree. A call that raises stores nothing; saving is refused exactly if the place is taken and overwrite was not asked for. After any history of calls each place loads the split of the last call that reported storing there, and without overwrite the first one stays. Asking again for a stored split gives it back, and a stored split is only replaced by one of the same data.", "quantifier": "all histories of calls, datasets, plans, seeds, samplers and starting stores", "why_tests_cant": "Tests save one split and load it; the claims are about every sequence of saving, refused, failing and overwriting calls over many datasets.", "anchors": ["src/modssc/sampling/services/service.py: sample", "src/modssc/sampling/services/service.py: split_dir_for", "src/modssc/sampling/services/service.py: _resolve_dataset_fingerprint", "src/modssc/sampling/storage.py: save_split"]}
{"id": "C206", "title": "The manifest of a cached dataset describes its parts and is read back as written", "statement": "A manifest has, for the training and, exactly if there is one, the test split, an entry for features and labels, for the edges exactly if there are edges and for every mask under its name; an entry gives the type name and the shape and dtype exactly if they can be read. Contents do not show: datasets whose parts look alike have the same manifest. A manifest can be written exactly if the masks of each split have names of one kind, and is read back as it was written. A file without metadata or environment is read with empty ones; without any other key it is refused with a key error. Different datasets have different manifests.", "quantifier": "all datasets, identities, metadata, environments and files", "why_tests_cant": "Tests write one manifest and read it; the claims are about every dataset and every file with missing keys.", "anchors": ["src/modssc/data_loader/manifest.py: dataset_summary", "src/modssc/data_loader/manifest.py: Manifest", "src/modssc/data_loader/manifest.py: build_manifest", "src/modssc/data_loader/manifest.py: read_manifest"]}
{"id": "C207", "title": "Built-in methods are found whatever the program registered or asked for before", "statement": "If the program gives no built-in id a path of its own, then after any history of registrations, listings and lookups a built-in id gives the built-in class and keeps its built-in status in listings, another id gives the class first registered for it, and an unknown id raises a key error. A registration concerns only its own id, and a path that was accepted can be loaded.", "quantifier": "all lists of built-in methods, histories of registrations, listings and lookups, and imports", "why_tests_cant": "Tests register one method and look up one; the claims are about every order of registrations and uses.", "anchors": ["src/modssc/utils/registry.py: make_get_method_class", "src/modssc/utils/registry.py: make_available_methods", "src/modssc/utils/registry.py: load_method_class", "src/modssc/inductive/registry.py: register_builtin_methods", "src/modssc/transductive/registry.py: register_builtin_methods"]}
