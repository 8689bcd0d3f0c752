# Design: a Lean 4 model of ModSSC

## 1. What is being built

`/verif/lean/Verif` contains a shallow Lean 4 model of the parts of ModSSC whose
correctness is *logic* (index bookkeeping, allocation arithmetic, state machines over
files, decision code, loops around classifiers), and machine-checked proofs of the
properties in `properties.jsonl` about that model.

Layout, one directory per area of the code:

| file | contents |
|------|----------|
| `Verif/<Area>/Model.lean` | the model: one Lean definition per Python function, each with a comment citing `file:lines` in `/repo` and naming every simplification |
| `Verif/<Area>/Spec.lean`  | the small specification vocabulary the theorems are stated in; it does not import the model (where it exists) |
| `Verif/<Area>/Lemmas.lean`| helper lemmas, not part of the claims |
| `Verif/<Area>/Props.lean` | the property theorems, each followed by an `example` showing that a concrete non-trivial case meets its hypotheses |

`MANIFEST.json` maps properties to theorem names.

## 2. Trusted base

* Lean 4.33.0's kernel. No axioms are added; every property theorem depends on at most
  `propext`, `Classical.choice` and `Quot.sound` (checked with `#print axioms`). No `sorry`,
  `admit`, `native_decide`, `bv_decide`, `implemented_by`, `unsafe`.
* The reading of the Python code: the code is not executed here. Every model definition
  cites the lines it transcribes.
* Conventions of the model, used everywhere:
  * Python exceptions are values (`Except PyErr`), one branch per `raise`.
  * numpy integer arrays are `List Nat`/`List Int`; bool arrays `List Bool`; `np.sort` is a
    merge sort, `np.unique` is sort + dedup. Integer overflow of int64 is not modelled.
  * The random generator is an arbitrary state type with `permutation`/`choice`/`integers`
    operations; the only assumption (`Rng.Lawful`, explicit hypothesis or structure field)
    is numpy's documented contract: `permutation` returns a permutation,
    `choice(replace=False)` returns that many distinct positions of its input.
  * `np.argsort` (numpy's default is unstable) is an arbitrary function returning a
    permutation of the positions that is sorted by key; the theorems hold for every such
    function, i.e. for every tie-break.
  * Floating point: real-valued quantities are modelled by exact rationals (`Rat`) or by
    integer arithmetic. Rounding errors, overflow, NaN are not modelled unless a property
    says so (NaN is modelled in the tuner's comparison). `round` is banker's rounding.
  * Hash functions (sha256, blake2b) are arbitrary functions; where a theorem needs
    collision-freeness it is an explicit hypothesis (injectivity on the canonical text).
  * Files: a directory is a finite map from names to contents; the individual operations
    (unlink, write, replace) are atomic steps, and a crash may happen between any two of
    them (or in the middle of a non-atomic write, modelled as a torn file).

* Contracts of external code. Each is an explicit hypothesis or a structure field of the theorems that use it, and each
  has a concrete instance in the same file (so it can be met):
  * `Rng.Lawful`, `Gen.Lawful`, `TorchGen.Lawful`, `Draws.Lawful`, `Draw.Lawful`, `BetaLaw`, `NormalLaw`: ranges and
    permutation properties of numpy's and torch's random functions. Nothing is assumed about their distribution.
  * `IsArgsortQ`, `IsTopK`, `ArgmaxLaw`, `QuantileLaw`: sorting and selection with arbitrary tie-breaks.
  * `SqrtLaw`/`RootLaw`, `ExpLaw`, `PowLaw`/`PowerLaw`: the defining inequalities or equations of real functions over an
    ordered field.
  * `Spec.Solver` (dense linear solver returns a solution when there is exactly one), `IsRightSvd`, `IsEigen` (numpy
    `svd`/`eigh` return a decomposition), scipy `maximum_flow` returns a maximum flow.
  * `TextLaw` (YAML/JSON text round trip), `EncoderLaw`, `EnvLaw` (str/int/lower/strip of the configuration schema).
  * torch_geometric `subgraph` keeps exactly the edges between the kept nodes.
  * POSIX: `mkdir` fails on an existing directory, `rename` replaces an empty directory, `os.replace` is atomic.
  * Classifiers are external objects (`Clf`) with arbitrary behaviour; networks are arbitrary functions of their input
    (and of an explicit parameter state where training is modelled).
  * Mappings have distinct string keys (`Valid`); configurations have no shared or cyclic parts.

## 3. Property by property: what was planned (C01-C63; later properties are in section 4)

Status words: *proved* (full statement), *partial* (see the note), *violated* (the code
contradicts the property: the negation is proved with a concrete witness and the largest
true part is proved as `..._partial`).

### Sampling (`Verif/Sampling`)
* C01, C02, C03 – `random_split`, `stratified_holdout`, `class_counts`, `make_holdout_split`
  transcribed over `List Nat` indices. Partition: `keep ++ holdout` is a permutation of the
  input; exact size from the largest-remainder argument (sum of floors + remaining, where the
  number of classes with nonzero remainder bounds the deficit).
* C04, C05 – `plain_kfold`, `stratified_kfold`, `make_kfold_split`, `np.array_split`.
  The concatenation of all folds is a permutation of the indices; sizes from `n/k`, `n%k`.
* C06, C07, C08 – `select_labeled` with its two while loops transcribed as recursions.
  Invariant of the removal loop: classes with enough members stay at or above the minimum;
  on exit the total is the target or everything removable has been removed.
* C09 – expected to be violated (surplus goes to one class): negation by witness.
* C10 – `apply_imbalance`.
* C11, C12, C13, C14 – `_sample_inductive`, `_sample_graph`, `SamplingResult.validate`:
  composition of the lemmas above; the final validation is shown never to raise. C14 is
  expected to be violated on graphs.
* C15 – dictionary round trip of the plan dataclasses over a JSON value type.
* C16 – `save_split`/`load_split` as a two-file state machine with crash points; expected
  to be violated for overwriting (new metadata + old arrays), partial: fresh save.

### Utilities (`Verif/Utils`)
* C17 – canonical JSON rendering over a JSON type; permutation invariance by induction.
* C18 – `mix_seed32` over `Nat` modulo 2^64 with xor/shift (bitwise lemmas on `BitVec 64`/`Nat`).
* C19 – paths as lists of segments, lexical resolution.
* C20 – registry as an operation-history state machine refined to a write-once map.

### HPO, evaluation (`Verif/Hpo`, `Verif/Evaluation`)
* C21 – search-space tree, `iter_grid`, `_assign`. Membership iff pointwise membership, nodup,
  count = product of lengths.
* C22 – `deep_merge` on nested maps; path-lookup characterisation.
* C23 – fold with `_is_better`, scores are `Option Rat` (none = NaN).
* C24, C25 – metrics over `Rat`.

### Data loader (`Verif/DataLoader`)
* C26 – interleaving semantics of `cache_lock`; expected violated: contention path unlinks
  the holder's lock. Negation with a 3-process schedule; partial: without contention.
* C27 – download as a list of file-system steps with crash; force re-download expected violated.
* C28, C29 – index as list of rows; refinement to a finite map; gc.
* C30 – `parse_uri` on lists of characters. C31 – list functions.

### Preprocess (`Verif/Preprocess`)
* C32 – `resolve_plan`. C33 – pipeline fold with purge; expected violated (eager
  `require("raw.X")`). C34 – pipeline with cache, provenance fingerprints; proved for steps whose
  reads are covered by `consumes` (and that do not share the rng between train and test);
  violated in general. C35 – `_safe_name` collisions, expected violated.
* C36, C37, C38 – label encoding, tokenizers, one-hot.

### Graph (`Verif/Graph`)
* C39–C43 – edge-list functions over `List (Nat × Nat)` with rational weights.
* C44, C45 – cache entry as a file map with crash points; C45 expected violated on overwrite.
* C46, C47 – masks, spec round trips. C48 – expected violated (fingerprint ignores X).

### Views, supervised, transductive, inductive (`Verif/Views`, `Verif/Supervised`, ...)
* C49–C58 – as listed in `properties.jsonl`; classifiers are arbitrary functions.
  C53, C57 expected violated.

### Bench and augmentation (`Verif/Bench`, `Verif/Augmentation`)
* C59–C61; C62 (torch `swap_noise` uses the global generator: expected violated), C63.

## 4. Index of properties, generated

One line per property: status, the modules with its theorems, and what the theorems leave open or contradict. Generated by
`tools/gen_design.py` from `MANIFEST.json`.

<!-- index begin -->
* C01 Holdout splitting never leaks or loses a sample (proved; Sampling/SplitProps). All n, fractions, label vectors, generators and argsort tie-breaks.
* C02 Holdout sizes are exactly the rounded fractions (proved; Sampling/SplitProps). Exact sizes for plain and stratified splitting.
* C03 Stratified holdout keeps class proportions to within one sample (proved; Sampling/SplitProps). Both the test and the val holdout.
* C04 K-fold test folds partition the data and train is the complement (proved; Sampling/SplitProps). Includes rejection of k < 2 and of out-of-range folds.
* C05 K-fold sizes are balanced (proved; Sampling/SplitProps). Plain and stratified.
* C06 Labeled selection picks distinct training samples (proved; Sampling/LabelProps). C06_empty_train_ignores_fixed records the one exception: an empty training set returns [] before fixed_indices is checked.
* C07 The number of labeled samples is exactly the requested target, raised only by min_per_class (proved; Sampling/LabelProps). Exact count for every mode.
* C08 min_per_class is honoured for every class that can afford it (proved; Sampling/LabelProps). Lower bound and upper bound per class.
* C09 Balanced and per-class labeling give every class its share (partial; Sampling/LabelProps). Full claim is false of the code (C09_balanced_violated, C09_per_class_violated: the whole surplus after rounding goes to one class). The partial theorems give the conditions under which it holds.
* C10 Imbalance only removes samples and respects its caps (proved; Sampling/LabelProps). Subset, exact caps, long-tail formula and rejection of bad parameters.
* C11 sample() always returns a leak-free labeled/unlabeled/val/test partition (inductive) (proved; Sampling/SampleProps). The final validation is shown never to reject.
* C12 The official test split is respected (proved; Sampling/SampleProps). Both directions.
* C13 Graph sampling masks are a consistent partition (proved; Sampling/SampleProps). Generated and official masks.
* C14 Imbalance requested on the training set changes the training set (partial; Sampling/SampleProps). Holds for inductive datasets (cap and long tail); false for graphs: C14_graph_violated.
* C15 Sampling plans survive the dict round trip (proved; Sampling/PlanProps). Round trip, same sampling, unknown keys, defaults. Integer-valued counts required for equality, because as_dict truncates.
* C16 Saved splits load back identically and crashes never mix two splits silently (partial; Sampling/StorageProps). Full crash-atomicity claim is false of the code: split.json is replaced before arrays.npz is rewritten (C16_overwrite_violated). Partial theorems give what every crash point guarantees; C16_recovery: a rerun repairs.
* C17 Fingerprints depend on content, not on key order (proved; Utils/JsonProps). Equality of canonical text characterised exactly (iff same data up to key order). Fingerprints: under injectivity of the hash, stated as hypothesis.
* C18 Seed mixing stays in range and separates salts (proved; Utils/Props). Range, bijectivity of the mixing step, and exact collision characterisation.
* C19 Relative paths cannot escape their root (proved; Utils/Props). Lexical resolution; symbolic links are not modelled.
* C20 Method registries are write-once maps (proved; Utils/Props). State machine over arbitrary histories.
* C21 Grid search enumerates every combination exactly once (proved; Hpo/SpaceProps). Completeness, distinctness, count, exact domain of success, and that patches contain nothing but leaves.
* C22 deep_merge: the patch wins, everything else is kept (proved; Hpo/MergeProps). All five cases of a key path, idempotence, key order, and the flat view for dot-free keys (C22_flatten_dot_collision shows why dot-free is needed). Absence of aliasing follows from the code's deepcopy and is not modelled.
* C23 The tuner reports the best trial, earliest on ties (proved; Hpo/TunerProps). Whole run_hpo loop with arbitrary objective; NaN and infinities included.
* C24 Metrics are bounded, and perfect exactly on perfect predictions (proved; Evaluation/Props). Each metric proved equal to its textbook formula; iff-perfect for all three; integer labels.
* C25 Metrics ignore sample order and class names (proved; Evaluation/Props). Order and arbitrary injective renaming; one-hot inputs.
* C26 The dataset cache lock gives mutual exclusion (partial; DataLoader/LockProps). False of the code: the finally clause of a refused attempt unlinks the holder's lock file (three-process schedule proved as counterexample). Proved: exclusion for all schedules without a refused clean-up, including kills.
* C27 A crash during download never leaves a dataset that looks cached but is not loadable (partial; DataLoader/PurgeProps, DataLoader/StoreProps). First downloads proved for every crash point; forced re-downloads and purges violate it (old manifest survives the cleared directory; witnesses). Never-mixed and repair theorems cover all histories.
* C28 The cache index behaves like a map from fingerprint to manifest (proved; DataLoader/IndexProps). Histories of completed operations refined to a map; SQL ORDER BY is an arbitrary order compatible with the keys.
* C29 Garbage collection keeps exactly the newest variant of every dataset (proved; DataLoader/IndexProps). All index contents, ties broken arbitrarily by the database.
* C30 Dataset URIs parse unambiguously (proved; DataLoader/UriProps). White space predicate arbitrary; strings as character lists.
* C31 Class filters and sample limits keep rows aligned (proved; DataLoader/UriProps). Statement adjusted to the code: with a seed the kept rows are in shuffled order.
* C32 Plan resolution runs exactly the enabled, applicable steps in order (proved; Preprocess/ResolveProps). Order, indices, exact skip conditions with their reasons, and exactly when resolution fails.
* C33 Purging unused artifacts does not change the result (partial; Preprocess/Demo, Preprocess/PurgeProps). False of the code: purging drops raw.X, which the final lookup requires even when the output key is present (C33_purge_fails_violated for every plan with a step producing the output key; C33_purge_copy_raw_violated concretely). Partial theorems: whenever the purged run returns, it returns the same splits; and the exact condition for it to return.
* C34 The preprocessing cache is transparent (partial; Preprocess/CacheProps, Preprocess/DemoHash). For every history of completed runs (C34_transparent_partial) and every history with failures and kills at any file operation (C34_transparent_after_crash_partial) the cached call returns or raises exactly what the uncached one does, provided steps read only what they declare, hashes do not collide, and artifacts are read back as stored; incomplete outputs and torn files are covered. False of the code otherwise, with four executable witnesses: undeclared reads (labels.to_torch), a kill inside a step that draws random numbers when transforming, a random step returning fewer artifacts than declared (no kill needed), and a kill while incomplete outputs are rewritten.
* C35 Cached artifacts are stored under distinct names (partial; Preprocess/NameProps). Proved for keys made of letters, digits, '.', '_' and '-' without '__' (all keys of the built-in steps, checked). False in general: C35_names_collide_violated gives two keys stored under one name.
* C36 Label encoding is invertible and order-preserving (proved; Labels/Props). Labels are values of an arbitrary linear order. C36_unique shows the specification pins the encoding down.
* C37 Tokenized ids stay within the vocabulary and the requested length (partial; Preprocess/TokenProps). Tokens are given (the regular expression that splits text is not modelled). False for vocab_size below 3 and for the pad/unk handling shown in C37_vocab_pad_violated.
* C38 One-hot encoding puts a single one at the label (partial; Labels/Props). Transductive operator and the one-hot preprocessing step proved for all inputs. False for negative labels in supervised.utils.onehot and in the method utilities: -1 is taken for the last class; C38_supervised_modulo_partial describes the code on all integers.
* C39 Symmetrization produces exactly the OR / mutual graph (proved; Graph/OpsProps). Edges are given with end points inside the graph (ValidEdges); the code clips other node ids. Weights in an arbitrary ordered field; the symmetric weight is the average of the (maximum) weights of the two directions, or the weight of the only direction present.
* C40 Self-loop addition is idempotent and adds only missing loops (proved; Graph/NormProps). Proved for all edge lists with end points inside the graph; added loops carry the caller-given weight; idempotent.
* C41 Random-walk normalization makes outgoing weights sum to one (proved; Graph/NormProps). Weights in an arbitrary ordered field. rw: outgoing sums equal 1 (exactly when the sum is at least eps, otherwise sum/eps); sym: each weight divided by the square roots of both out-sums, symmetric input stays symmetric. The square root is a parameter with its defining law (met by Real.sqrt).
* C42 kNN and epsilon graphs contain exactly the right neighbours (proved; Graph/KnnProps). numpy backend, points of equal dimension, exact arithmetic in an ordered field; argpartition, argsort and sqrt enter by contract (NumpyExt.Lawful), with lawful instances over Rat-like demo data and over the reals.
* C43 Chunking and resuming do not change the graph (proved; Graph/KnnProps). Work directory reached by any history of interrupted runs on the same input; C43_other_input shows that work files are not tied to the input, so a work directory shared by different inputs returns stale chunks (build_graph avoids this by using one directory per fingerprint, C73).
* C44 Sharded graph storage round-trips (proved; Graph/CacheProps). C44_outside documents what happens outside the property: negative shard sizes lose edges, overwrite=False can keep stale weights.
* C45 A graph cache entry that exists is loadable after any crash (partial; Graph/CacheProps). New entries are proved. For overwriting, directory clearing order matters: C45_overwrite_violated gives a crash point after which the manifest exists but the edge file is gone; C45_overwrite_partial proves the claim when the manifest is removed first.
* C46 Node masks derived from indices are consistent (proved; Graph/MaskProps). One-dimensional index arrays.
* C47 Graph builder specs survive the dict round trip (proved; Graph/SpecProps). k, radius, n_anchors, sigma and view names are arbitrary Python values in the round trip, scalars in the fingerprint theorem. C47_empty_dict documents that an empty dictionary does not give the default builder spec. Numeric strings are not modelled.
* C48 Cached graph views belong to the graph and features they were computed from (partial; Graph/ViewsCacheProps). Partial: dense features and the hash of the entry key taken as collision free; structural embeddings are an external function. Transparent when only labels or masks differ. Refuted: datasets that differ in features (when the raw fingerprint in meta coincides) or in edge weights share an entry.
* C49 A two-view random feature split is a partition of the columns (proved; Views/Props). Proved for every dataset on which generation returns; the success condition is an iff. Contract: the generator's choice without replacement returns distinct positions in range.
* C50 kNN probabilities are distributions and predictions are known classes (proved; Supervised/KnnProps). Votes are the weights of the k nearest training rows by exact distance; rows are distributions; predict returns the first class of maximal share; independent of the batch size and of the other query rows. Contract assumption: np.argpartition returns a k-smallest selection (sortPart shows one exists). C50_needs_positive_batch shows the empty result of a negative batch size.
* C51 Automatic backend choice picks the first available preferred backend (proved; Supervised/RegistryMore, Supervised/RegistryProps). C51_auto assumes no preferred backend is the empty string (true of every builtin). C51_params covers all classifiers but lstm_scratch; C51_lstm covers its aliases. import of the factory and construction are not modelled. C51_unavailable: asking for a backend that is not installed raises and names the missing extra.
* C52 Label propagation keeps labeled nodes fixed and rows stochastic (proved; Transductive/PropConv, Transductive/PropProps). Proved over any linear ordered field, so over exact arithmetic. C52_needs_nonnegative_weights shows that negative weights, which the code accepts, break the distribution claim.
* C53 Label propagation accepts every validated dataset (partial; Transductive/FitProps). C53_validation gives the exact meaning of validation, C53_accepts the exact set of accepted datasets. The property as stated is violated: a validated dataset with a class that only unlabeled nodes have is refused (C53_missing_class_violated), as is an empty dataset (C53_empty_violated).
* C54 Graph mincut labels are the source side of the residual graph and optimal (proved; Transductive/MincutProps). scipy's maximum_flow is a parameter with a recorded contract (Feasible, Maximum); solver_exists shows that the contract can be met. Capacities are unbounded integers.
* C55 Self-training style loops conserve samples (proved; Inductive/LoopProps). pseudo_label.py and self_training.py, both backends through one model. The classifier is an arbitrary state machine constrained only by output shapes (Clf.Shapes). Proved for every run that returns: one relation per round (fit on the current training set, top selection, move), conservation of samples at every classifier fit, prefix property of given labels, round and call bounds, reason for stopping. max_new_labels negative (Python slice from the end) is outside the theorem.
* C56 Pseudo-labels come only from confident predictions (proved; Inductive/SelectProps). select_confident and select_top_per_class for numpy (any argsort) and torch (any topk). max_new and k_per_class must be nonnegative; scores are exact rationals without NaN.
* C57 Tri-training pseudo-labels are the labels the two peers agree on (partial; Inductive/TriProps). Partial: the pseudo-label is the column both peers rank first, and equals both peers' label when the class list of each is 0..C-1 (SortedClasses contract). Refuted in general: with string-like/shifted integer labels the column number is stored instead of the label, and a bootstrap that misses a class makes equal columns mean different labels. Bootstrap draws enter as lists. C57_own: each classifier object stays its own (whatever training keeps of classifier i holds of classifier i after fit).
* C58 Co-training never assigns a sample twice and keeps views aligned (proved; Inductive/CoProps). co_training.py fit, both backends through one model (any argsort / any topk). View payload shape checks are not modelled; k_per_class nonnegative.
* C59 Resource limits are upper bounds and never increase a value (proved; Bench/LimitsProps). Configurations are plain data without shared parts; dataset.options is a mapping, null or missing (guaranteed by the schema check that runs before). int() on text is a parameter.
* C60 A seed sweep changes nothing but seeds (proved; Bench/SweepProps). deepcopy is the value itself (plain data). Also: accepted seed lists, consecutive seeds for a run count, distinct names.
* C61 Row selection keeps features and labels aligned (partial; Bench/SliceProps). Arrays and tensors are lists of rows. torch_geometric's subgraph is modelled by its documented contract. C61_mapping_accepts: a mapping whose entries all reach the requested rows is accepted. C61_empty_violated: selecting no rows from a mapping with a 0-dimensional entry raises, although selecting any row succeeds.
* C62 Augmentation is a function of the sample and its context (partial; Augment/Props). C62_function_partial / C62_strategy_partial: a pipeline's result is a function of sample and context, independent of the process state, except swap noise on torch tensors (C62_torch_violated: it uses torch's global generator). C62_contexts: the hashed text determines seed, epoch and sample id. The hash, default_rng and seeded torch generators are arbitrary functions.
* C63 Text and graph augmentations keep the structure they promise (proved; Augment/OnceProps, Augment/Props). One theorem per text, graph, tabular and audio operation, for any generator that satisfies numpy's range contracts (Gen.Lawful). Gaussian noise has no property here beyond C62.
* C64 Random search stays inside the space (proved; Hpo/SpaceProps). Contract of numpy draws and exp/log stated in Draw.Lawful; floating-point rounding not modelled.
* C65 A stored dataset loads as it was stored (proved; DataLoader/StoreProps). Mask names containing path separators are outside the model (np.save would fail).
* C66 Bulk download accounts for every selected dataset (proved; DataLoader/UriProps). The single download is an arbitrary state transformer.
* C67 Cached audio paths are rebased onto the current cache root (proved; DataLoader/UriProps). Paths as component lists.
* C68 Cache entries of one dataset are never served for another (partial; Preprocess/CacheMulti). Proved if datasets in use have different fingerprints. False for datasets without a recorded fingerprint: the fallback only looks at shapes.
* C69 Preprocess plan files are read back as written and defects are refused (partial; Preprocess/PlanProps). Partial: round trip for non-empty ids. Violated: a step without id is accepted with the id "None"; `modalities: text` is read as a list of letters. YAML and str() by contract.
* C70 Image steps keep the pixels (partial; Preprocess/VisionProps). Violated: a channels-first batch of width 3 is taken for channels-last; three grey images are taken for one image of three channels (two samples dropped); resize turns values in [0,1) to 0. linspace in exact arithmetic.
* C71 Edge sparsification keeps exactly the drawn edges with their weights (partial; Preprocess/EdgeProps). Partial: arrays with one edge per row unless there are exactly two edges. Violated: two edges given as rows are read as a 2-row index, giving non-edges; the directions of an undirected edge are kept independently. Draws by contract.
* C72 Labels get the same class id in every split (partial; Labels/Props). Proved when both splits contain the same label values. False when a class is missing from a split, because every split is encoded on its own.
* C73 Cached graph construction is transparent (partial; Graph/BuildProps). C73_transparent covers all sequential histories, one backend, for inputs whose fingerprints differ (injectivity of the hash is a hypothesis). C73_concurrent_violated: when a second process that also missed the cache overwrites a finished entry and is killed, every later call raises.
* C74 The fallback fingerprint of a feature matrix identifies the matrix (partial; Graph/ArrayFp). Dense branch. The byte view keeps the matrix shape, so max_bytes slices rows, not bytes: identification is proved up to 2*max_bytes rows and refuted beyond.
* C75 The diffusion view does not depend on optional dependencies (partial; Graph/FeatProps). Partial: equal when no edge is repeated. Refuted for repeated edges: the dense adjacency overwrites, the sparse one adds.
* C76 Diffusion stays within the range of the features (proved; Graph/FeatProps). Exact rational arithmetic, both adjacency paths without repeated edges as in the model.
* C77 Random walks follow edges and the counts are what was visited (proved; Graph/WalkProps). numpy choice enters as a function returning an item of its list. The PPMI matrix and SVD are not modelled.
* C78 Walks use unrelated random streams (partial; Graph/WalkProps). Partial: the 64-bit mixer is injective in seed+salt, so walks of one run get different 64-bit states; truncation to 32 bits can still collide. Refuted across seeds: walk w+1 under seed s is walk w under seed s+1.
* C79 Anchor graphs connect nodes to their nearest candidates (partial; Graph/AnchorMissing, Graph/AnchorProps). Violated: nodes sharing no anchor are never candidates; with every node an anchor and anchors_k=1 there are no edges at all. Anchors an approximate faiss index does not find count as the last anchor. Exact arithmetic; k-means, scikit-learn/faiss queries, choices by contract. Negative chunk sizes (uninitialised memory) not modelled.
* C80 Ensemble prediction returns the label with the best mean score (partial; Inductive/PredictMore, Inductive/PredictProps). Partial: proved when the classifiers share the class list and the sum of mean scores is not negative; tri-training probabilities are proved for all class lists. Refuted: tri-training maps the aligned column through the first classifier's classes (wrong label or IndexError); decision values with negative sum flip the order. C80_co_unnamed_partial, C80_co_rows_partial, C80_tri_unnamed_partial: classifiers without class lists and row counts; C80_co_rows_violated: a view with a single row is broadcast against the other view instead of being refused.
* C81 predict_proba rows are probability distributions (partial; Inductive/PredictProps). Partial: distributions in, distributions out (any class lists). Refuted for decision values. Exact arithmetic.
* C82 setred distributes new labels by largest remainder (proved; Inductive/SetredProps). Exact rational arithmetic instead of float64.
* C83 setred moves only accepted samples and loses none (proved; Inductive/SetredProps). z, sqrt, edge weights and distances are parameters; the graph is any function meeting GraphOf, instantiated for the relative neighbourhood graph with symmetric distances (C83_setred_rng). Classifier is external (Clf.Shapes).
* C84 setred neighbourhood graphs are what they are called (partial; Inductive/SetredProps). rng graph proved for every symmetric distance. knn graph proved when different points have positive distance; with duplicate points a point may become its own neighbour (C84_knn_self_violated).
* C85 Democratic co-learning labels only by weighted majority and grows its training sets soundly (partial; Inductive/DemProps). Classifiers are external objects (Clf); NumPy branch; normal quantile and sqrt by contract NormalLaw. Violated: samples whose estimated error rate is 100% are added when the learner set is more than three times the labeled set; predict_proba rows are all zero when all learner weights are zero.
* C86 Label spreading scores are distributions supported by connected labels (proved; Transductive/PropProps). Numpy computation over a linear ordered field.
* C87 Label spreading converges geometrically to the closed-form solution (proved; Transductive/PropConv). Numpy computation over a linear ordered field; C87_symmetric_real instantiates the symmetric mode with the real square root.
* C88 Graph mincut columns are the class ids (partial; Transductive/MincutProps). Proved for labeled classes 0 and 1. Violated otherwise: with labeled classes 0 and 2 the labeled nodes of class 2 get column 1 (C88_class_ids_violated).
* C89 A failed fit leaves the classifier usable as before (partial; Supervised/KnnProps). C89_history_partial: after any history the state left by a successful fit is that of a fresh classifier fitted on the same data, and predictions raise while no fit succeeded. C89_failed_fit_violated: a refit rejected for its label count has already overwritten classes_, so later predictions are labels the retained training set does not have.
* C90 Registered classifiers are stable and independent of call order (partial; Supervised/RegistryMore, Supervised/RegistryProps). C90_stable_partial: any history only extends the registry. C90_order_violated: registering a backend for a builtin before the first use raises, after it succeeds; registering a builtin backend first makes every later use raise. C90_register, C90_register_backend and C90_bootstrap: what one registration adds and when it is refused.
* C91 Generating views leaves the input's metadata alone (partial; Views/Props). Holds when the input has no view metadata. Violated otherwise: the dictionary of the input is changed in place and shared by the views (witness C91_shared_violated).
* C92 A configured sample or chunk limit is effective (partial; Bench/LimitsProps). Holds unless the configuration has an explicit null, boolean or non-numeric entry; explicit null is kept, which means no limit (witness C92_null_violated).
* C93 A sweep run is the plain run with that seed (partial; Bench/SweepProps). Violated: the sweep writes the seed itself into each section, a plain run derives a section seed by hashing. Partial: what a sweep run uses.
* C94 Selecting nodes of a graph keeps each edge's attributes (partial; Bench/SliceProps). Violated by per-edge entries at least as long as the largest index (witness). Partial: shorter entries are kept.
* C95 Image augmentations only move pixels or cover squares (proved; Augment/ImageProps). Flip, cutout and padded crop for numpy and torch layouts; pixel dtype conversions are not modelled.
* C96 Numpy images and torch images are read with the same layout (partial; Augment/ImageProps). Partial: agreement is proved for 1, 3 or 4 channels and more than 4 rows and columns; refuted for two channels first.
* C97 Augmentation operations are found, listed and checked against the plan regardless of history (partial; Augment/RegistryProps). Partial: proved for programs that register no own class under a built-in id (C97_requests_partial, C97_listing_partial); C97_plan holds for every registry. Refuted: own class under a built-in id makes the module's other operations unavailable (C97_override_violated), a failed request can succeed when repeated (C97_retry_violated), and a step's own modality parameter defeats the plan check (C97_modality_violated).
* C98 Both orientations of an edge list mean the same edges to the augmentations (partial; Augment/RegistryProps). Partial: holds unless there are exactly two edges; refuted there.
* C99 Laplace learning keeps labels and gives every unlabeled node the weighted average of its neighbours (partial; Transductive/LaplaceProps). Labels, bounds for both backends and all graphs; averages, distributions and solvability for torch on all graphs and for numpy on graphs without self-loops at unlabeled nodes. Violated for numpy with self-loops: the loop weight is in the diagonal of the Laplacian but not removed, so scores shrink and unreachable nodes get zero rows silently (C99_self_loop_violated). np.linalg.solve / torch.linalg.solve enter as an exact solver contract; arithmetic is exact over any ordered field.
* C100 Lazy random walks classify by the walk equation and answer whenever the graph allows (partial; Transductive/LazyProps). Proved for all inputs except the claim on columns, which holds when the classes are 0 and 1 (C100_columns_partial) and is false when the two labeled classes are others (C100_columns_violated: a node labeled 1 gets its score in column 0). Square root and linear solver are exact contracts, met by the reals.
* C101 Conjugate gradient reports its residual truthfully and solves every symmetric positive definite system in n rounds (proved; Transductive/CgProps). Proved for all sizes and operators over any ordered field with an exact square root (the reals). C101_breakdown shows why positivity is needed: on an indefinite system the solver stops at once, without claiming convergence.
* C102 Poisson learning solves the Poisson equation of every class (partial; Transductive/PoissonProps, Transductive/PoissonWitness). Shape, residual and iteration bound hold for every accepted run (C102_system). The equation is solved up to tol for symmetric graphs with the symmetric Laplacian, eps > 0 and max_iter >= n (C102_solves_partial, C102_exact_partial); for the random-walk Laplacian this fails (C102_rw_violated: three rounds on a path of three nodes leave an error above tol, and a result is returned). C102_accepts says exactly which datasets are accepted; a class without labeled node is refused (C102_missing_class_violated), a graph without weights is refused by the torch backend only (C102_unweighted_violated), and the rows predict_proba returns sum to zero (C102_proba_violated).
* C103 Dynamic label propagation keeps the given labels and runs exactly max_iter rounds of label and kernel updates (partial; Transductive/DynamicProps). C103_rounds is the exact refinement to a matrix iteration, for every selection among tied neighbours; C103_labeled, C103_scores, C103_component and C103_accepts are proved for all inputs. The last sentence fails: C103_proba_violated (a node with score 43/20).
* C104 p-Laplace learning returns probabilities of potentials that solve the p-Laplace equation (proved; Transductive/PLaplaceRun). Exact arithmetic; square root, exponential and |d|**(p-2) are parameters with contracts RootLaw, ExpLaw, PowLaw (met by the real functions). C104_proba, C104_accepts and C104_isolated need no assumption on the solver; C104_harmonic and C104_newton assume symmetrize, non-negative weights, eps > 0 and cg_max_iter >= n. A masked node whose label is negative keeps a zero row.
* C105 Poisson MBO runs the published scheme; what it keeps and what it loses (partial; Transductive/MboRun). C105_run: refinement of the array code by a recursion on functions (weights usedWeight, sources, mboRound). C105_residual, C105_onehot, C105_unreached, C105_conserve, C105_accepts. C105_labels_violated: star graph, all nodes labeled, class 0 disappears although its target volume is 1/2. C105_proba_violated: Nouter = 0 gives negative rows summing to 0. Exact arithmetic instead of float32.
* C106 Mini-batch training uses every sample, fairly, with its own label and view (proved; Deep/BatchProps). Proved for all lawful randperm. Number of batches is computed with floats in the code, exactly in the model.
* C107 Sharpening keeps the order of classes; pseudo-labels come from confident samples only (partial; Deep/SharpProps). Power function and argmax by contract; real power shown to satisfy it. Mass 1 fails when the powers sum below 1e-12 (C107_dist_violated).
* C108 Batched prediction equals row-wise prediction and leaves the model as it was (partial; Deep/GraphProps). Violated: graph predictions depend on the batch size; the model stays in eval mode after an exception; predict on an empty input raises (C108_empty).
* C109 Slicing and concatenating graph inputs keep nodes, edges and weights together (partial; Deep/GraphProps). Violated: edge weights are copied unsliced or indexed by node when cutting a batch; concatenation misaligns weights when only some blocks have them and drops all edges when mixed with a plain tensor.
* C110 FlexMatch thresholds are a function of the training history (partial; Deep/FlexProps). Violated: negative or duplicate positions are accepted when ulb_size is given (a negative one writes to the end of the pool); a second fit starts from the state of the first. Partial: positions theorem says exactly what is accepted.
* C111 FreeMatch thresholds follow the exponentially weighted history (partial; Deep/EmaProps). Quantile and argmax by contract. Violated: state survives a second fit.
* C112 Distribution alignment and soft weights of SoftMatch and AdaMatch (partial; Deep/AlignProps). Violated: rows aligned to a learned target can sum to less than one (1e-12 floor); state survives a second fit; in per-class mode classes with fewer than two samples in a batch have their running mean pulled to zero.
* C113 Temporal ensembling targets are bias-corrected averages of past predictions (partial; Deep/EnsProps). Violated: the correction uses alpha^(epoch+1) after only epoch updates, so targets are zero in the first epoch and sum to (1-alpha^k)/(1-alpha^(k+1)) < 1 in epoch k (proved for all trainings).
* C114 MixUp mixes inputs and targets alike and keeps targets distributions (partial; Deep/EnsProps). Beta sampler and randperm by contract. Violated: the mixing weights come from the global torch generator, not from the seeded one.
* C115 Warm-up factor and Mean Teacher weights (proved; Deep/EnsProps). Proved for parameters; buffers (batch norm statistics) are not averaged by the code and not modelled.
* C116 ADSH thresholds let pass the same share of every class (partial; Deep/AdshProps). Rationals; argmax by contract. Violated: with no confident majority prediction the share is taken as one, so the thresholds of the other classes drop to their minimum.
* C117 S4VM never loses labeled accuracy against its baseline (proved; Inductive/S4vmProps). Classifiers are external objects (Clf); NumPy branch and accuracy modelled; argsort arbitrary.
* C118 Losses of UDA, Noisy Student, DeFixMatch and Meta Pseudo Labels count exactly the intended samples (proved; Deep/LossProps). exp by contract; gradients and optimisers not modelled.
* C119 CoMatch memory, pseudo-labels and pseudo-label graph (partial; Deep/BankProps, Deep/CoProps). Partial: rows of a batch beyond queue_size never enter the memory. Violated: with a batch larger than the queue the first rows are kept, so the labeled ones (last) are lost; at low temperature the clamp at 1e-12 makes pseudo-labels lose mass.
* C120 DASO prototypes, class shares and blended pseudo-labels (proved; Deep/DasoProps). exp, pow, sqrt, argmax by contract; exact arithmetic; the averaged network is an input (its update is C115).
* C121 Tabular one-hot encoding is lossless on fitted values (partial; Preprocess/OneHotProps). Violated: a column numeric in the fit rows with text elsewhere makes the transform fail; the text "__missing__" collides with a missing value. Encoder, float() and str() by contract.
* C122 PCA learns from the fit rows only and keeps the most variance (proved; Preprocess/PcaProps). Exact arithmetic; np.linalg.svd by contract IsRightSvd.
* C123 ZCA whitening decorrelates the fit rows (proved; Preprocess/PcaProps). Exact arithmetic; np.linalg.eigh by contract IsEigen, sqrt by contract; flattened samples.
* C124 A benchmarked inductive method gets the labels of its labeled examples only (proved; Bench/ProtoProps). Views and augmented inputs as row lists; tensors as lists of rows.
* C125 A benchmarked transductive method cannot see hidden labels (partial; Bench/ProtoProps). Masks exact; labels of unlabeled nodes hidden (partial). Violated: labels of validation and test nodes are visible in the observed labels, and a test label decides whether label propagation succeeds.
* C126 Reported benchmark scores are the metrics of that split's predictions (proved; Bench/ProtoProps). predict as a parameter; metrics as modelled for C12-C14.
* C127 Score columns stand for classes (partial; Bench/ColumnsProps). Labels that are exactly 0..k-1 get k outputs (iff). Violated: labels {0,2} give two outputs; a supervised kNN on classes {1,2} that predicts everything correctly is reported with accuracy 0.
* C128 Configured limits hold in every run of a search (partial; Bench/SearchProps). The final run obeys the limits; trials do when limiting would change nothing. Violated: a trial runs with a value above the limit, and its score is reported for a configuration that is not run.
* C129 An experiment configuration means what its document says, and nothing unknown is accepted (proved; Bench/SchemaErrors, Bench/SchemaSpace). Full equivalence (iff) between the parser and a declarative meaning, given that "torch" is not blank. str(), int(), lower(), strip() and the metric list are parameters; non-string keys are outside the model.
* C130 A valid configuration stays valid in every run derived from it (partial; Bench/SchemaClosed, Bench/SchemaTrials). Sweeps, limits, trials and final runs all proved closed. Partial: the search can be carried out unless it is a grid search over a continuous distribution; violated there (accepted by the schema, fails when the search starts). Dictionaries have distinct keys (Valid).
* C131 A bad configuration is reported as a configuration error (partial; Bench/SchemaErrors). Proved for configurations whose run.seed, if given, is a number or numeric text. Violated: seed null raises TypeError and seed "one" ValueError.
* C132 A benchmark run leaves nothing to be decided at run time (partial; Bench/ContractFit, Bench/ContractProps). The acceptance condition is an equivalence (iff) and the message is exact. Partial for trials: entries left to auto can only appear inside the method parameters chosen by the search; violated there (a search over classifier_backend may pick "auto"), and selection on the test split is accepted.
* C133 Preprocessing never learns from test samples (proved; Bench/ContractFit). For index samplings and graph masks that are valid (parts inside train or val, apart from test). The preprocess computation itself is C32-C38.
* C134 A preprocessing plan is read as it is written (partial; Bench/ContractFit). Full equivalence with a declarative meaning. Violated with respect to intent: a modality given as a text is read as its letters.
* C135 Runs never share a directory (partial; Bench/RunProps). Proved for runs (any number, any schedule) as long as a rename hits a name that is still free; for runs without search nothing is missing. Violated: rename onto an empty directory made meanwhile (POSIX rename), and two sweeps started in the same second share the root. POSIX mkdir/rename semantics are the model.
* C136 Reports and exit codes tell the truth (partial; Bench/RunExit). Single run: proved unless the views entry cannot be iterated; violated there (views: {views: null} makes a directory, writes no report and raises even without fail_fast). Sweeps: full. Writing the report is assumed to succeed; metrics of a run that fails after computing them are not modelled.
* C137 The propagation matrix of a graph network is the documented normalization of the graph (partial; Gnn/PrepProps). Exact over an ordered field; sqrt is a parameter with its law (met by the reals). Violated on directed graphs (in-degree used for both ends).
* C138 Each graph network propagates with the polynomial of its paper (partial; Gnn/PropagateProps). Exact arithmetic. Violated for N-GCN and H-GCN without symmetrize: they propagate along reversed edges.
* C139 Early stopping returns the best model seen (partial; Gnn/TrainProps). train_fullbatch, GRAND and GraFN: full for usable measures, up to the tolerance of the code. GraphHop compares with the epoch before: partial and violated. Also violated: max_epochs = 0 raises, a NaN in the first epoch is kept.
* C140 The seed decides the fitted graph network (partial; Gnn/TrainProps). GraFN and GraphHop seed first: proved. All others create the network before seeding: violated, partial relative to equal initial weights. PyTorch kernels are taken as deterministic.
* C141 Cached graph data is what the dataset contains (partial; Gnn/TrainProps). Proved for histories without later writes; violated by in-place writes.
* C142 Graph networks do not see the labels they are evaluated on (partial; Gnn/TrainProps). Proved up to the largest label; violated through the number of output columns.
* C143 GraphHop averages over the nodes at each distance (partial; Gnn/HopProps). Violated without symmetrize in direction (neighbours are the targets of outgoing edges).
* C144 The transductive SVM uses its data as documented (partial; Transductive/TsvmProps). The gradient step and the decision function are parameters. Partial: labels need two classes among the labeled nodes (else the true labels of unlabeled nodes are read: violated); balancing with all-negative scores is reversed (violated); C_u_max below 1/1000 is exceeded in the first iteration (violated); columns are positions, not labels (violated for labels other than 0 and 1).
* C145 Coarsening a graph loses nothing (proved; Gnn/CoarsenProps). Full for one step, which is applied repeatedly. The scores are a parameter.
* C146 GraFN samples support nodes and targets fairly (partial; Gnn/GrafnProps). Random draws are parameters with the contract of Generator.choice. Violated: when every edge would be dropped (always for p = 1) none is.
* C147 Random walks of node2vec and Planetoid follow the graph (partial; Graph/Node2vecProps). Walks, step law, training pairs and supervised batches are proved. Reproducibility is partial: torch is never seeded by Planetoid and the node2vec step, so the initial weights depend on the global generator (C147_seed_violated). Skip-gram training itself is a parameter.
* C148 Loaded waveforms are cut, padded and resampled as asked (partial; Preprocess/WaveProps). Violated: without target_sample_rate files of different rates end up in one table (C148_rate_violated); mono=False has no effect (C148_mono_violated). Decoding and resampling of files are parameters.
* C149 Scaling, imputing and projecting depend on the fit rows only and do what they promise (partial; Preprocess/ScaleProps). scikit-learn estimators are written out in exact arithmetic. Violated: a column with no value on the fit rows is dropped by the imputer, so later columns move (C149_impute_width_violated). TF-IDF is not modelled.
* C150 An embedding step gives one row per sample, by the encoder asked for (partial; Preprocess/EncodeProps). Networks are parameters that treat the images of a batch independently. Violated: N grey images become one row in OpenCLIP, and in torchvision if N or the width is 1, 3 or 4; negative batch sizes give no rows in OpenCLIP; the stub encoder mixes the position into the row and looks at the first 1024 bytes only; a changed model_id does not reload; lists of lists of numbers are taken for audio.
* C151 SimCLRv2 runs its stages on the right models and keeps the right one (partial; Deep/SimclrProps). Violated: distilling without fine-tuning and student bundle keeps the pretrained model, or none (C151_result_violated); with a student bundle the teacher stays frozen and a second fit fails (C151_refit_violated); modules named in meta keep pointing to the student (C151_teacher_fixed_violated). The stages themselves are parameters.
* C152 Tri-Net trains each head on rows the two other heads agree on (partial; Deep/TrinetProps). Violated: fine_tune_interval=1 with a full first pool never uses unlabeled data (C152_interval_violated); heads with more outputs than labeled classes fail, or with one labeled class are trained towards the uniform prediction (C152_classes_violated, C152_single_class_violated); seeds repeat beyond 99 rounds (C152_seeds_violated). Networks are parameters; optimizer steps are not modelled.
* C153 Adversarial examples stay as close as asked (partial; Deep/AdvProps). Violated: a zero gradient leaves the sample unperturbed (C153_vat_zero_violated, torch semantics); clipping moves data outside the bounds arbitrarily far (C153_fgsm_clip_violated); unsup_warm_up of 1 or more never reaches full weight (C153_warm_full_violated). Gradients and the norm are parameters.
* C154 The summary of a sweep says what its runs reported (partial; Bench/ReportProps). Violated: a metric that is a number in one run and a dictionary in another loses its mean (C154_metric_violated; C154_metric_partial excludes that clash); a run that raises before writing its report is not counted, so the aggregate can say success (C154_status_violated, C154_status_partial).
* C155 Every run leaves a complete report (proved; Bench/ReportProps).
* C156 Placeholders in configuration files are replaced as written (partial; Bench/PlaceProps). Violated: an empty MODSSC_CACHE_ROOT gives a different root than the library uses (C156_root_violated). The escape character before a placeholder stays in the text (C156_escape). YAML parsing is a parameter.
* C157 Augmented views belong to their samples (partial; Bench/AugProps). Violated: swap noise on tensors draws from the global generator, so views depend on the samples before (C157_alone_violated); the modality stated in a plan has no effect (C157_modality_violated); runs with neighbouring seeds share augmentations (C157_second_view). Number types are not modelled.
* C158 Torch nearest neighbours agree with numpy (partial; Supervised/TorchKnnProps). Violated for a negative batch_size, which is accepted and then gives every query the smallest class (C158_batch_size_violated); the other theorems assume a positive one. Ties between equally distant rows may be broken differently (C158_ties_needed). That the classifier keeps the caller's tensor, not a copy, is not modelled.
* C159 Torch classifiers are trained on every sample, reproducibly, or left alone (partial; Supervised/NetProps). Training and answers are proved for all five. Reproducibility holds for the perceptron, for images given with all axes, and for seeded sequence classifiers; it is violated for the logistic regression, whose layer is created before the generator is seeded (C159_logreg_violated), and for flattened images, which are read in the shape of an earlier fit (C159_image_history_violated). A failed fit is harmless only when the network itself never raises (C159_failed_fit_partial); otherwise classes, shape or network are already replaced (C159_failed_fit_violated, C159_image_shape_violated, C159_pretrained_violated, C159_loader_violated). GraphSAGE predicts labels that never occur (C159_sage_violated).
* C160 The dataset adapters accept exactly the consistent datasets and change nothing (partial; Inductive/AdaptProps). Acceptance is characterised for datasets whose features and labels can be read (Readable); the result, idempotence and the numpy adapter need no hypothesis. Violations: with device cuda or mps no dataset is ever accepted, since the resolved device has no number (C160_accelerator_violated); augmentations of another number of rows than X_u are accepted (C160_rows_violated); dictionaries without features, or with numpy features, are accepted (C160_dict_violated); a labeled dictionary without features raises an attribute error instead of the validation error (C160_error_violated).
* C161 Pseudo-label training makes the steps it should, with the loss it should (partial; Deep/FitProps). C161_steps, C161_refused and C161_weights hold for any network with a row of logits per row; C161_fixmatch, C161_uda, C161_cat and C161_accepts for networks that treat rows separately (no batch norm, no dropout). Violations: labels outside the classes are noticed only when their batch comes up, after training on others (C161_label_violated); an unknown tsa_schedule is refused only in the first step (C161_schedule_violated); FlexMatch keeps its state, so a refit on a larger pool fails (C161_history_violated); refitting continues from the trained network (C161_refit_violated).
* C162 A built network scores every batch of data like its sample (partial; Deep/BundleAccept, Deep/BundleProps). Shapes are modelled exactly, weights are not. Proved: C162_refused, C162_bundle, C162_dense (mlp and logreg score a batch exactly if rows have one axis), C162_dense_features, C162_image, C162_audio, C162_text (channels first), C162_tokens (with vocab_size), C162_graph, C162_pretrained_image/audio (backbones as lawful parameters). Violations: single-channel images or sounds given without channel axis build a network that refuses them (C162_image_flat_violated, C162_audio_flat_violated); text_cnn with its default layout refuses what it was built for (C162_text_violated); lstm guesses its vocabulary from the first row (C162_tokens_violated); C162_violated negates the full claim.
* C163 A benchmark gives a method the networks its configuration describes (partial; Bench/InjectProps). Proved: C163_untouched, C163_fields, C163_refused, C163_seeds, C163_networks, C163_trinet_partial (dense, audio and text networks). Violations: with image_cnn TriNet refuses the output of its shared network (C163_trinet_image_violated); with lstm_scratch the heads are built for the scores but used on the hidden state (C163_trinet_tokens_violated); a user factory gets no seed (C163_factory_violated).
* C164 Training and evaluation data reach a method in one representation (partial; Bench/ConvertProps). Proved: C164_strict (exactly when a strict run accepts, and that nothing is changed), C164_converted, C164_followed, C164_kept, C164_labels, C164_becomes_torch, C164_training_torch, C164_evaluation_torch, C164_evaluated and C164_evaluated_torch (when the evaluation finds the device), C164_evaluated_strict, C164_found (exactly when it does), C164_views, C164_views_kept. Violations: methods keeping classifiers in a list (Tri-Training, Democratic Co-Learning) or torch nearest neighbours get numpy arrays in the evaluation after training on tensors (C164_evaluated_violated); 8-bit features are scaled but augmented rows in single precision are not (C164_scale_violated); the report always says nothing was converted (C164_report_violated); training and evaluation disagree on what torch data is (C164_containers_violated). Availability of devices and np.asarray of lists are parameters.
* C165 Consistency training follows every batch with the right targets (partial; Deep/ConsProps). Proved: C165_{pi,teacher,ensemble,vat}_refused (nothing changed), C165_{pi,teacher,ensemble,vat}_steps (any network that logs its steps), C165_{pi,teacher,ensemble,vat}_targets (row-wise networks), C165_{pi,teacher,ensemble}_accepts (exactly when fit returns), C165_first_step. Violations: with one step in total and the default warm-up the unlabeled samples have weight 0 (C165_single_step_violated); a label without a class is found after steps that have changed the network (C165_label_violated); the targets of the first epoch of Temporal Ensembling are zero vectors and are used if there is no warm-up (C165_zero_target_violated). Numbers are exact; gradients, the perturbation search (C153) and batch norm are parameters; graph dictionaries are not modelled.
* C166 A fitted method answers only the kind of data it was trained on (partial; Inductive/DispatchProps). Proved: C166_train (iff), C166_proba (every method), C166_refused and C166_labels (methods that look at the input), C166_unfitted, C166_indicator and C166_label_only (classifiers with classes_), C166_source, C166_flat. Violations: predict of self-training, pseudo-label, SETRED and S4VM never compares the input with the stored backend and hands it to the classifier (C166_labels_violated); without classes_ the columns mean different labels in different calls (C166_columns_violated; what holds is C166_indicator_partial); S4VM fails on an empty array with more than two axes (C166_empty_violated). Dtypes are not modelled; classifiers are parameters. C166_methods: which methods look at the data of a prediction.
* C167 A dataset reference names one dataset and its canonical URI names it again (partial; DataLoader/ProviderNameProps). Proved: C167_hf_reference, C167_tfds_reference, C167_class_reference, C167_openml_reference, C167_openml_options, C167_canonical_round_trip and C167_canonical_injective (Hugging Face, TFDS). Violations: a Hugging Face dataset of an organisation (organisation/name) cannot be requested at all (C167_hf_organisation_violated); all versions of an OpenML dataset share one canonical URI, which resolves to the default version (C167_openml_versions_violated), so garbage collection deletes other versions (C167_gc_removes_version_violated). Modality, task and meta texts are not modelled; digits are ASCII.
* C168 A provider delivers the samples, labels and splits of its source (partial; DataLoader/ProviderLoadProps). Proved: C168_limits, C168_hf, C168_hf_missing, C168_tfds, C168_tfds_dictionaries_fail, C168_openml, C168_tv_objects, C168_torchvision, C168_ta_objects, C168_ta_files, C168_ta_waveforms, C168_torchaudio, C168_toy. Violations: TFDS ignores class filter and limits (C168_tfds_limits_violated), delivers feature names instead of samples for two-feature dictionaries (C168_tfds_dictionaries_violated), and takes any failure of the test split for its absence (second part of C168_tfds). Labels are integers; the libraries themselves are parameters.
* C169 Noisy Student first trains on labels alone, then follows one fixed teacher (partial; Deep/NoisyProps). C169_training: any student, teacher row-wise in evaluation mode. C169_accepts: row-wise networks. Violations proved: an unfit ema_model is rejected only after the network was trained; a given teacher is overwritten.
* C170 Meta Pseudo Labels gives the teacher the feedback of its own pseudo-labels (partial; Deep/MplProps). C170_training, C170_accepts: networks that treat rows by themselves. C170_refused: any networks. C170_parameters_partial: refused parameters leave student and object, but not the teacher, as they were. Violations proved: the teacher is overwritten before the parameters are checked; uda_temperature is only checked in the first step.
* C171 A PyG dataset is loaded as the subgraph on the chosen nodes (partial; DataLoader/PygProps). C171_graph: graphs with one flag per node and mask. Violations proved: a mask with several splits is flattened, so a node gets the flag of another node; the label of a whole graph becomes that of its first node and further graphs are dropped; a graph without features and labels loses its edges.
* C172 load_dataset answers as a cache of what the providers delivered (partial; DataLoader/ServiceProps). C172_provenance: the fingerprint (SHA-256 of canonical JSON) is assumed to tell identities apart; C172_again: equality of metadata for small JSON and datasets without path rebasing. Completed calls of one process; crashes are C27, the lock is C26. Violations proved: lists of more than 50 elements and keys that print alike are lost when metadata passes the cache.
* C173 Deep Co-Training trains both networks together as specified (proved; Deep/DctProps). Networks with batch norm or dropout are covered only by C173_refused. Tensors only (no graph dictionaries); the label -100, which torch ignores, counts as refused; the gradient and the optimizers are parameters.
* C174 MixMatch trains on mixed rows and guesses as specified, and its seed does not fix the training (partial; Deep/MixProps). C174_refused, C174_training, C174_accepts and C174_global prove the first part; C174_seed_violated refutes that the seed fixes the training. Networks with batch norm or dropout are covered by C174_refused and C174_global only. Tensors only (no graph dictionaries); a missing head or features are not modelled; neither is broadcasting of a single class.
* C175 ADSH adapts its thresholds once per epoch, in evaluation mode, and trains with them as specified (proved; Deep/AdshFitProps). C175_refused, C175_accepts, C175_labels, C175_training (row-wise networks) and C175_modes (any network). The threshold formula itself is C116. Exact rationals; tensors only (no graph dictionaries); majority_class is an integer or absent; detach_target is part of the optimizer step.
* C176 DeFixMatch subtracts on the labeled rows exactly what FixMatch adds on the unlabeled ones (partial; Deep/DefixProps). C176_refused, C176_accepts, C176_training, C176_cancel and C176_cat. Violated without a strong labeled view (C176_default_violated): the rows of X_l are then used on both sides, and nothing in the package provides X_l_s, so the default run subtracts a different quantity. Row-wise networks, tensors only, exact rationals.
* C177 The graph of a transductive benchmark is over the samples of that run (partial; Bench/NodeProps). C177_features, C177_well_formed, C177_fits, C177_choice, C177_edges_partial, C177_cache_partial. Violated in three ways: an edge list of exactly two pairs is read as two rows, so other edges result (C177_two_edges_violated); a feature field that no step produced silently falls back to the features of the data set (C177_field_violated); the cache entry of a graph does not depend on whether the test split is included, so a run after one with the official test set gets a graph with too many nodes and fails (C177_cache_violated, for every hash function). The transparency of the cache is proved under the assumption that runs with the same entry have the same input. Dense features, integer edges, one-dimensional labels.
* C178 The fixed-point diffusion solver is truthful and approaches the solution (proved; Transductive/FixedProps). C178_report, C178_labels, C178_rows, C178_approach, C178_approach_sym, C178_error, C178_solution, C178_backends. The solver checks neither alpha nor the weights: without the hypotheses the scores leave [0, 1] (C178_needs_hypotheses). Exact arithmetic.
* C179 Every loss of an adaptive-threshold training follows from the whole history (proved; Deep/AdaptFitProps). C179_flexmatch, C179_freematch, C179_adamatch, C179_softmatch, C179_uda: exact losses of all steps of a first fit, from the history of the training. For a later fit of the same object see C110_refit_violated, C111_refit_violated, C112_refit_violated. FlexMatch: positions within the pool (C110_positions_violated). FreeMatch: at most 10^12 classes. Exact arithmetic, networks without batch norm and dropout.
* C180 CoMatch training: every step has the CoMatch loss, with pseudo-labels that follow from the training so far (proved; Deep/CoFitProps). C180_refused, C180_accepts, C180_training (loss and pseudo-labels of every step, refining C119), C180_fresh, C180_cat, C180_detach. Row-wise networks for accepts, training and cat; tensors only (graph dictionaries are not modelled), exact arithmetic. A label outside the classes is noticed only when its batch comes up (example beside the theorems, cf. C161_label_violated).
* C181 DASO training: every step has the DASO loss, with prototypes and pseudo-labels that follow from the training so far (proved; Deep/DasoFitProps). C181_refused, C181_accepts, C181_training (loss, prototypes, pseudo-labels and averaged parameters of every step, refining C120), C181_cat, C181_pretraining. Row-wise networks for all but refusal; tensors only (graph dictionaries are not modelled), exact arithmetic.
* C182 GraFN training: every epoch has the GraFN loss for its own support set, views and targets; what is accepted and what is predicted (partial; Gnn/GrafnFitProps). Holds: acceptance exactly, the loss, support, views and targets of every epoch, the choice of the network, and that predictions are distributions. Violated: a class that occurs only in hidden labels makes fit fail; after a failed first fit predict_proba answers with an untrained network; predict_proba ignores the graph of the data it is given and uses the graph of the fit. prepare_data and its errors are C141, C160; torch's network, gradients and Adam are parameters.
* C183 GRAND training: every epoch has the GRAND loss under its own augmentations; what is accepted and what is predicted (partial; Gnn/GrandFitProps). Holds: acceptance exactly, augmentations and loss of every epoch, sign of the consistency loss, the choice of the network, and predictions on the graph that is given. Violated: dropnode drops single features, not nodes; fitting without training nodes succeeds with losses that are not numbers; a class that occurs only in hidden labels gets a column; after a failed first fit predict_proba answers with an untrained network. prepare_data and its errors are C141, C160; torch's gradients and Adam are parameters; that the weights become NaN is not modelled, only the loss.
* C184 A split result is accepted exactly if it is sound, and a sound one leaks nothing (partial; Sampling/ValidateProps). Holds: exact acceptance for index arrays and for masks, that accepted results partition as stated, that no sample is in two parts when labeled and unlabeled arrays refer to the training split, and that the sampler's check is the same. Violated: the reference of the labeled array is not looked at, so labeled samples may be test samples; with masks the index arrays are not looked at. Arrays are one-dimensional.
* C185 A benchmark run gives a method the asked device and its defaults with the parameters written over; strict runs leave nothing to be chosen (partial; Bench/ResolveProps). Holds: exactly when a run is prepared and with which settings, for both runners; that strict transductive runs leave neither device nor backend open; that a named backend is the reported one. Violated: the inductive runner itself lets a strict run through whose device or default backend is to be chosen (the configuration check, C132, is what refuses these); with backend 'auto' the report repeats 'auto', and methods without such a setting report nothing although torch computes. Dataclass fields have distinct names and no hooks; injection of networks is C163.
* C186 The graph attention network: attention is a softmax, predictions reach two steps and do not depend on names or order (partial; Gnn/GatProps). Holds: attention equals softmax up to eps, two-step reach, independence of edge order and node names, dependence on the set of edges only with self-loops, distributions, and that a node without edges into it gets a prediction that ignores all features. Violated: weights are ignored, so an edge of weight zero still gets attention; without self-loops an edge listed twice counts twice. Evaluation mode; dropout and training are C139.
* C187 Propagation networks look exactly as far as their depth, and do not depend on names or order (partial; Gnn/NetProps). Holds: reach, order of edges, names of nodes, distributions; predictions are for the given data except for SGC. Violated: SGC predicts for the data it was fitted on and ignores features and edges of the data given, checking only the number of nodes. Evaluation mode; dropout and training are C139.
* C188 H-GCN: a sound hierarchy, and predictions for a node that depend on its part of the given graph (partial; Gnn/HgcnProps). Holds: acceptance, weights count original nodes, embedding lookups and prediction never fail, distributions, and if no coarsened graph has an isolated node predictions depend only on the connected part. Violated: nodes without edges count as equivalent and are merged, so the prediction for one changes with features of another; without symmetrization features flow against the edges; the edges of the data given to prediction are ignored.
* C189 N-GCN: predictions reach as far as powers and layers allow, along the edges of the given graph, whatever the names (partial; Gnn/NgcnProps). Holds: acceptance, what powers of the adjacency contain, reach, renaming, undirected lists of nonnegative edges, distributions. Violated: without symmetrization features flow against the edges; an edge of negative weight listed once disappears when symmetrizing; the edges of the data given to prediction are ignored.
* C190 GraphHop: acceptance, probabilities, labels that count, stored predictions (partial; Gnn/GraphHopProps). Holds: acceptance, row sums, graph invariance, what is optimized, history of stored predictions. Violated: prediction weights that do not add up to one are accepted and rows then do not add up to one; a hidden label of a class without training node makes fit refuse; predictions ignore the data given, and a refused refit leaves the old predictions in place.
* C191 Graph embeddings: accepted inputs, forms of edges, reach, isolated nodes, seed (partial; Preprocess/DgiProps). Holds: acceptance, number of rows, reach, isolated nodes, what the optimization sees. Violated: the networks are created before torch is seeded, so the seed does not decide the embeddings; exactly two edges given as rows are taken for other edges.
* C192 The statistics of a split count what is in it, and classes without labels are reported (partial; Sampling/ReportProps). Holds: counts of index and graph results, sums, warnings for index results, choice of fingerprint. Violated: for graphs no warning is ever given, although a class of the training nodes can be without labeled node.
* C193 Label propagation and spreading give the same result with numpy and with torch (partial; Transductive/TorchProps). Holds exactly (over exact numbers) if the graph has nodes, its edges join nodes, and one of the nodes marked as labeled has a label. Violated: if no node marked as labeled has a label, numpy takes the classes of all nodes and torch only one, so a fit succeeds without torch and is refused with it; torch counts a negative source from the end where numpy refuses it; without nodes and iterations torch gives a result.
* C194 Self-training uses the group ids it is given (partial; Inductive/GroupProps). Holds: named entries, order of the known names, when labels are propagated, refusals. Violated: an entry under a known name with a wrong number of ids is passed over silently, and labels are not propagated.
* C195 Caches are kept where the environment says (partial; Utils/CachePathProps). Holds: precedence of the variables, the closest repository, separation of the five kinds when no directory is named, model directories, flags. Violated: graphs kept in a directory called graph_views share it with their views; the placeholder for views differs from the library's directory when the graphs' directory is named, and placeholders differ for a configuration of another repository; with TORCH_HOME empty torch is not told the reported directory.
* C196 Democratic co-learning gives the same result with numpy and with torch (partial; Inductive/DemTorchProps). Holds in exact arithmetic for classifiers that know and predict only the labels they were trained with: fit, probabilities, predictions; acceptance of class lists. Violated: with torch a predicted label that is no class counts as a vote for the next class above it, so a class no learner predicted can win, where numpy refuses.
* C197 The scikit-learn and faiss backends give every node its k nearest neighbours, or its neighbours within the radius (partial; Graph/NeighborProps). Holds for an exact faiss index, for the radius graph, and for scikit-learn where no other point equals the node; two exact results always have the same distances. Any index: at most k distinct others with true distances. Violated: with equal points scikit-learn can give a node k + 1 neighbours; with the default approximate faiss index a node can be left without any.
* C198 The text CNN classifier uses the kernels that fit, is trained on every text, and answers every text that is long enough (partial; Supervised/TextProps). Holds in exact arithmetic for networks that keep their sizes: acceptance, kernels, training, independence of earlier fits, layouts, answers and refusals, and what the scores depend on. Violated: when a step of a second fit raises, the classifier has the labels of the second fit with the network of the first, and answers with them.
* C199 A built graph has the edges and weights its specification asks for (partial; Graph/WeightProps). Holds in exact arithmetic for all combinations of options; sums to one only where the weights before normalization sum to at least eps. Violated: cosine weights of opposite vectors are negative, and normalized with rw they are multiplied by 1/eps instead of scaled to sum to one.
* C200 Tri-Net trains each head on the data and with the networks it should (partial; Deep/TrinetTrainProps). Networks with their optimizers are abstract; the step functions are parameters. Holds except the last sentence. Violated: fit works on the networks of the specification in place, so a fit that raises in a round has changed them, and a second fit goes on from the first one's networks.
* C201 The pretrained audio classifier trains and answers as described (partial; Supervised/AudioProps). Backbone, head and optimiser are parameters with stated contracts. Holds except the last sentence. Violated: the classes and the backbone are stored before the number of labels is checked, so after a refused fit the old head answers with the new labels.
* C202 The views of co-training are taken, reused and enlarged as described (partial; Inductive/ViewProps). Violated in four ways: tuples accepted for fitting are refused for prediction; a graph that is itself the view is refused for prediction; edge weights are not extended; a view of a graph and an array is accepted but cannot be joined.
* C203 Log levels are chosen and applied as described, however often they are configured (partial; Utils/LoggingProps). Python's logging is modelled as loggers with levels, handler lists and a propagate flag. Violated for blanks: a blank environment variable raises, and the command line refuses a blank option that the library takes as not given.
* C204 The GraphSAGE classifier builds the network its options describe and uses the graph it is given (partial; Supervised/SageProps). Convolutions and activations are parameters; training itself is in NetModel. Violated: num_layers below one gives one layer, hidden_channels is not checked, edge weights are ignored, an unknown activation is refused only by fit, after the classes were replaced.
* C205 Any history of sample calls leaves at each place the last split reported as stored there (partial; Sampling/HistoryProps). Samplers and the hash are parameters; the place theorem assumes that the hash does not collide on the two requests. Violated: a repeated saving call raises instead of returning the stored split; two different datasets with the same fingerprint share a place.
* C206 The manifest of a cached dataset describes its parts and is read back as written (partial; DataLoader/ManifestProps). The json module is trusted; values of another kind than to_dict writes are a type error in the model. Violated: integer mask names come back as text; a manifest does not tell datasets with equal shapes apart.
* C207 Built-in methods are found whatever the program registered or asked for before (partial; Utils/BuiltinProps). The list of built-in methods and the import are parameters. Violated: registering a built-in id with another path before the first use is accepted and makes every later listing and lookup raise; a path with two colons is accepted and cannot be loaded.
<!-- index end -->

## 5. What is modelled and what is not

`COVERAGE.md` (generated by `tools/gen_coverage.py` from the citations in the model) lists, for every source file, the
modules that model it and the cited lines; a file without an entry there is not modelled. In particular the following are
outside the model: the numerical forward and backward passes of neural networks (the losses, masks, thresholds, batches and
state updates around them are modelled), the learned layers of graph networks (their propagation, early stopping, seeding and
caching are modelled), optional provider back ends (HF, TFDS, OpenML, torchvision,
torchaudio, PyG), CLI rendering, logging, timing, GPU memory, and floating-point rounding.
