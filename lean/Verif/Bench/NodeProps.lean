import Verif.Bench.NodeModel
import Verif.Bench.ProtoProps
import Verif.Graph.BuildProps

/-!
# C177 — the graph of a transductive benchmark belongs to the samples
-/

/-! ### Specification -/

namespace ModSSC.Bench.Node.Spec
open ModSSC ModSSC.Graph ModSSC.Bench

/-- A list of edges as an array of two rows. -/
def asColumns (es : List Edge) : EdgeArr := .mat [es.map (·.1), es.map (·.2)] es.length

/-- A list of edges as an array of pairs. -/
def asRows (es : List Edge) : EdgeArr := .mat (es.map fun e => [e.1, e.2]) 2

/-- A graph with these edges can be made of them: endpoints are nodes, and there are as many weights as edges. -/
def GoodEdges (n : Nat) (es : List Edge) (w : Option (List Rat)) : Prop :=
  (∀ e ∈ es, 0 ≤ e.1 ∧ e.1 < n ∧ 0 ≤ e.2 ∧ e.2 < n) ∧ ∀ l, w = some l → l.length = es.length

/-- The features of a split: the artifact of that name, or the features of the split if there is no such artifact. -/
def Feature (art : List (String × List (List Rat))) (X : List (List Rat)) (key : String) (F : List (List Rat)) : Prop :=
  Assoc.get art key = some F ∨ Assoc.get art key = none ∧ F = X

/-- One call of `build`. -/
structure Call where
  ds : String
  pre : Pre
  req : Req
  test : Bool

/-- What the graph is to be built from. -/
def Call.input (c : Call) : Except PyErr BuildInput := (features c.pre c.req.field c.test).map (inputOf c.req)

/-- What its cache entry is named after. -/
def Call.key (c : Call) : Key := ⟨c.ds, c.pre.fp, c.req⟩

/-- The cache directories that any number of benchmark runs can leave behind, each finished or killed after any number of its file
operations. -/
inductive Runs (B : BuildEnv) (fp : Key → String) (listing : Entry → List FName) (U : Call → Prop) : GraphStore → Prop
  | empty : Runs B fp listing U []
  | call {s : GraphStore} (c : Call) (hc : U c) (i : BuildInput) (hi : c.input = .ok i) (killedAfter : Nat) :
      Runs B fp listing U s → Runs B fp listing U (Assoc.set s (fp c.key) (runOps (entryOf s (fp c.key))
        ((B.cached listing none true (entryOf s (fp c.key)) i).1.take killedAfter)))

end ModSSC.Bench.Node.Spec

namespace ModSSC.Bench.Node
open ModSSC ModSSC.Graph ModSSC.Bench Spec

/-! ### Edges of the data set -/

theorem mkArtifact_iff (n : Nat) (es : List Edge) (w : Option (List Rat)) (d : Bool) (g : GraphArtifact) :
    mkArtifact n es w d = .ok g ↔ GoodEdges n es w ∧ g = ⟨n, es, w, d⟩ := by
  constructor
  · intro h
    have hw := mkArtifact_wf h
    have hg : g = ⟨n, es, w, d⟩ := by
      unfold mkArtifact at h
      split_ifs at h
      cases w with
      | none => exact (Except.ok.inj h).symm
      | some l =>
        simp only at h
        split_ifs at h
        exact (Except.ok.inj h).symm
    subst hg
    refine ⟨⟨fun e he => ?_, hw.2⟩, rfl⟩
    have := hw.1 e he
    omega
  · rintro ⟨⟨h1, h2⟩, rfl⟩
    exact mkArtifact_ok (g := ⟨n, es, w, d⟩) ⟨fun e he => by have := h1 e he; omega, h2⟩

theorem artifactOf_columns (n : Nat) (w : Option (List Rat)) (es : List Edge) :
    artifactOf n w (oriented (asColumns es)) = mkArtifact n es w true := by
  unfold asColumns oriented
  simp only
  rw [if_neg (by simp)]
  unfold artifactOf
  simp only
  congr 1
  rw [List.zip_map']
  simp

theorem artifactOf_rows (n : Nat) (w : Option (List Rat)) (es : List Edge) (h : es.length ≠ 2) :
    artifactOf n w (oriented (asRows es)) = mkArtifact n es w true := by
  unfold asRows oriented
  simp only
  rw [if_pos (by simpa using h)]
  have : transposed (es.map fun e => [e.1, e.2]) 2 = [es.map (·.1), es.map (·.2)] := by
    simp [transposed, List.range_succ, List.map_map, Function.comp_def]
  rw [this]
  unfold artifactOf
  simp only
  congr 1
  rw [List.zip_map']
  simp

/-- **C177 (edges of the data set).**  Edges given as an array of two rows, or as an array of any number of pairs but two, alone or in
a mapping with weights, become a directed graph with exactly these edges and weights in this order; `graph_from_dataset` raises exactly
if an endpoint is not a node or the number of weights is wrong.  A graph artifact is used as it is. -/
theorem C177_edges_partial (n : Nat) (es : List Edge) (a : EdgeArr) (ha : a = asColumns es ∨ a = asRows es ∧ es.length ≠ 2) :
    (∀ g, fromDataset n (.array a) = .ok g ↔ GoodEdges n es none ∧ g = ⟨n, es, none, true⟩) ∧
    (∀ w g, fromDataset n (.mapping (some a) w) = .ok g ↔ GoodEdges n es w ∧ g = ⟨n, es, w, true⟩) ∧
    ∀ g, fromDataset n (.artifact g) = .ok g := by
  have key : ∀ w, artifactOf n w (oriented a) = mkArtifact n es w true := by
    intro w
    rcases ha with rfl | ⟨rfl, h⟩
    · exact artifactOf_columns n w es
    · exact artifactOf_rows n w es h
  refine ⟨fun g => ?_, fun w g => ?_, fun g => rfl⟩
  · show artifactOf n none (oriented a) = _ ↔ _
    rw [key, mkArtifact_iff]
  · show artifactOf n w (oriented a) = _ ↔ _
    rw [key, mkArtifact_iff]

/-- Non-vacuity of `C177_edges_partial`: three edges as pairs. -/
example : fromDataset 3 (.array (asRows [(0, 1), (1, 2), (2, 0)])) = .ok ⟨3, [(0, 1), (1, 2), (2, 0)], none, true⟩ ∧
    fromDataset 2 (.array (asRows [(0, 1), (1, 2), (2, 0)])) = .error .validation := by decide +kernel

/-- **C177 (two edges: violated).**  Two edges given as pairs are read as columns: any two edges with endpoints in range silently become
two other ones, unless they happen to fit. -/
theorem C177_two_edges_violated (n : Nat) (a b c d : Int) (h : GoodEdges n [(a, b), (c, d)] none) :
    fromDataset n (.array (asRows [(a, b), (c, d)])) = .ok ⟨n, [(a, c), (b, d)], none, true⟩ := by
  show mkArtifact n [(a, c), (b, d)] none true = _
  rw [mkArtifact_iff]
  refine ⟨⟨?_, by simp⟩, rfl⟩
  have h1 := h.1 (a, b) (by simp)
  have h2 := h.1 (c, d) (by simp)
  simp only at h1 h2
  intro e he
  simp only [List.mem_cons, List.not_mem_nil, or_false] at he
  rcases he with rfl | rfl <;> simp only <;> omega

/-- The case 0 → 1, 2 → 3 of four nodes. -/
example : fromDataset 4 (.array (asRows [(0, 1), (2, 3)])) = .ok ⟨4, [(0, 2), (1, 3)], none, true⟩ := by decide +kernel

/-! ### Features of the nodes -/

theorem trainFeature_iff (p : Pre) (key : String) (F : List (List Rat)) :
    Feature p.trainArt p.trainX key F ↔ F = trainFeature p key := by
  unfold Feature trainFeature
  cases h : Assoc.get p.trainArt key with
  | none => simp
  | some v => simp [eq_comm]

/-- **C177 (features).**  The graph is built on the field asked for: the rows of the training split, then, if the test split is
included and there is one, those of the test split. -/
theorem C177_features (p : Pre) (key : String) (t : Bool) (F : List (List Rat)) (h : features p key t = .ok F) :
    ∃ a, Feature p.trainArt p.trainX key a ∧
      (t = false → F = a) ∧
      (t = true → ∀ x art, p.testX = some x → p.testArt = some art → ∃ b, Feature art x key b ∧ F = a ++ b ∧
        ∀ r ∈ F, ∀ r' ∈ F, r.length = r'.length) ∧
      (t = true → p.testX = none → p.testArt = none → F = a) := by
  refine ⟨trainFeature p key, (trainFeature_iff _ _ _).mpr rfl, fun ht => ?_, fun ht x art hx hart => ?_, fun ht hx hart => ?_⟩
  · subst ht
    exact (Except.ok.inj h).symm
  · subst ht
    unfold features testFeature at h
    rw [if_pos rfl, hart, hx, Option.bind_some] at h
    have fin : ∀ b, concatRows (trainFeature p key) b = .ok F → F = trainFeature p key ++ b ∧
        ∀ r ∈ F, ∀ r' ∈ F, r.length = r'.length := by
      intro b hb
      unfold concatRows at hb
      split_ifs at hb with c
      obtain rfl := Except.ok.inj hb
      rw [List.all_eq_true] at c
      refine ⟨rfl, fun r hr r' hr' => ?_⟩
      rw [of_decide_eq_true (c r hr), of_decide_eq_true (c r' hr')]
    cases hg : Assoc.get art key with
    | none =>
      rw [hg] at h
      exact ⟨x, .inr ⟨hg, rfl⟩, fin x h⟩
    | some v =>
      rw [hg] at h
      exact ⟨v, .inl hg, fin v h⟩
  · subst ht
    unfold features testFeature at h
    rw [if_pos rfl, hart, hx] at h
    exact (Except.ok.inj h).symm

/-- **C177 (unknown field: violated).**  A field that no preprocessing step produced is not refused: the graph is built on the
features of the data set. -/
theorem C177_field_violated (p : Pre) (key : String) (h1 : Assoc.get p.trainArt key = none)
    (h2 : p.testArt.bind (fun a => Assoc.get a key) = none) :
    features p key false = .ok p.trainX ∧ ∀ x, p.testX = some x → features p key true = concatRows p.trainX x := by
  have ht : trainFeature p key = p.trainX := by unfold trainFeature; rw [h1]; rfl
  refine ⟨by unfold features; rw [if_neg (by simp), ht], fun x hx => ?_⟩
  unfold features testFeature
  rw [if_pos rfl, h2, hx, ht]

/-! ### One graph, one sample per node -/

theorem plain_nodes {B : BuildEnv} {i : BuildInput} {g : GraphArtifact} (h : B.plain i = .ok g) :
    g.nNodes = i.X.length ∧ WellFormed g := by
  unfold BuildEnv.plain at h
  cases hv : B.validate i with
  | error e => rw [hv] at h; cases h
  | ok u =>
    rw [hv] at h
    cases hr : B.raw i none false with
    | error e => rw [hr] at h; cases h
    | ok r =>
      rw [hr] at h
      simp only [BuildEnv.finish] at h
      refine ⟨?_, postProcess_wf h⟩
      unfold postProcess at h
      simp only [ebind_ok] at h
      obtain ⟨w, -, g1, -, g2, -, ew, -, h⟩ := h
      exact (((mkArtifact_iff _ _ _ _ _).mp h).2 ▸ rfl)

theorem checkNodes_ok {α : Type} {g : GraphArtifact} {d : NodeData α} : checkNodes g d = .ok () ↔
    d.X.length = g.nNodes ∧ d.y.length = g.nNodes ∧ d.masks.train.length = g.nNodes ∧ d.masks.val.length = g.nNodes ∧
      d.masks.test.length = g.nNodes ∧ d.masks.unlabeled.length = g.nNodes ∧ d.masks.labeled.length = g.nNodes ∧
      d.trainAll.length = g.nNodes := by
  unfold checkNodes
  by_cases c1 : d.X.length ≠ g.nNodes
  · rw [if_pos c1]; simp [c1]
  rw [if_neg c1]
  by_cases c2 : d.y.length ≠ g.nNodes
  · rw [if_pos c2]; simp [c2]
  rw [if_neg c2]
  by_cases c3 : [d.masks.train, d.masks.val, d.masks.test, d.masks.unlabeled, d.masks.labeled, d.trainAll].any
      (fun m => decide (m.length ≠ g.nNodes)) = true
  · rw [if_pos c3]
    simp only [reduceCtorEq, false_iff]
    rintro ⟨-, -, e1, e2, e3, e4, e5, e6⟩
    simp [e1, e2, e3, e4, e5, e6] at c3
  · rw [if_neg c3]
    have c1 := not_not.mp c1
    have c2 := not_not.mp c2
    simp only [ne_eq, decide_not, List.any_cons, List.any_nil, Bool.or_false, Bool.or_eq_true, Bool.not_eq_true',
      decide_eq_false_iff_not, not_or, not_not] at c3
    exact ⟨fun _ => ⟨c1, c2, c3⟩, fun _ => rfl⟩

/-- **C177 (well-formed).**  What a transductive method is fitted on has exactly one row, one observed label and one entry of every
mask per node of its graph; without a graph there is no fit. -/
theorem C177_well_formed {α : Type} (pre : Prepared α) (s : Sampling) (expected : Option Nat) (graph : Option GraphArtifact)
    (d : NodeData α) (g : GraphArtifact) :
    nodeSet pre s expected graph = .ok (d, g) ↔ graph = some g ∧ (∃ m, nodeDataFor pre s expected = .ok (d, m)) ∧
      d.X.length = g.nNodes ∧ d.y.length = g.nNodes ∧ d.masks.train.length = g.nNodes ∧ d.masks.val.length = g.nNodes ∧
      d.masks.test.length = g.nNodes ∧ d.masks.unlabeled.length = g.nNodes ∧ d.masks.labeled.length = g.nNodes ∧
      d.trainAll.length = g.nNodes := by
  unfold nodeSet
  cases graph with
  | none => simp
  | some g0 =>
    simp only [ebind_ok, Except.ok.injEq, Prod.mk.injEq, Option.some.injEq]
    constructor
    · rintro ⟨⟨d0, m⟩, h1, u, h2, rfl, rfl⟩
      exact ⟨rfl, ⟨m, h1⟩, checkNodes_ok.mp h2⟩
    · rintro ⟨rfl, ⟨m, h1⟩, h2⟩
      exact ⟨(d, m), h1, (), checkNodes_ok.mpr h2, rfl, rfl⟩

/-- The preprocessed features and the artifact of the field asked for have the rows of the data set. -/
structure Aligned {α : Type} (pre : Prepared α) (p : Pre) (key : String) : Prop where
  labels : pre.train.X.length = pre.train.y.length
  testLabels : ∀ t, pre.test = some t → t.X.length = t.y.length
  train : (trainFeature p key).length = pre.train.X.length
  test : (testFeature p key).map List.length = pre.test.map (·.X.length)

theorem features_length {α : Type} {pre : Prepared α} {p : Pre} {key : String} (ha : Aligned pre p key) {t : Bool}
    {F : List (List Rat)} (h : features p key t = .ok F) :
    F.length = pre.train.y.length + ((if t then pre.test.map (·.y.length) else none) : Option Nat).getD 0 := by
  unfold features at h
  cases t with
  | false =>
    rw [if_neg (by simp)] at h
    obtain rfl := Except.ok.inj h
    rw [ha.train, ha.labels]; simp
  | true =>
    rw [if_pos rfl] at h ⊢
    have h2 := ha.test
    cases htf : testFeature p key with
    | none =>
      rw [htf] at h h2
      obtain rfl := Except.ok.inj h
      cases hp : pre.test with
      | some t => rw [hp] at h2; cases h2
      | none => rw [ha.train, ha.labels]; simp
    | some x =>
      rw [htf] at h h2
      cases hp : pre.test with
      | none => rw [hp] at h2; cases h2
      | some t =>
        rw [hp] at h2
        simp only [Option.map_some, Option.some.injEq] at h2
        simp only [concatRows] at h
        split_ifs at h
        obtain rfl := Except.ok.inj h
        rw [List.length_append, ha.train, ha.labels, h2, ha.testLabels t hp]
        simp

/-- **C177 (a graph fits its data).**  A graph built without cache for a run over an index split is never refused for its size: the
method is fitted exactly if the node data can be put together.  Node `q` is then a sample of the training split (`q < n_train`) or the
sample `q - n_train` of the test split, in the features of the graph as in the rows of the data. -/
theorem C177_fits {α : Type} (B : BuildEnv) (pre : Prepared α) (p : Pre) (r : Req) (s : IndexSplit) (expected : Option Nat)
    (ha : Aligned pre p r.field) (F : List (List Rat)) (g : GraphArtifact)
    (hF : features p r.field (useTest (.index s)) = .ok F) (hg : B.plain (inputOf r F) = .ok g) (d : NodeData α) :
    (nodeSet pre (.index s) expected (some g) = .ok (d, g) ↔ ∃ m, nodeDataFor pre (.index s) expected = .ok (d, m)) ∧
    (nodeSet pre (.index s) expected (some g) = .ok (d, g) →
      ∀ q, (q < pre.train.X.length → d.X[q]? = pre.train.X[q]? ∧ F[q]? = (trainFeature p r.field)[q]?) ∧
        (pre.train.X.length ≤ q → q < g.nNodes → ∃ t ft, pre.test = some t ∧ testFeature p r.field = some ft ∧
          d.X[q]? = t.X[q - pre.train.X.length]? ∧ F[q]? = ft[q - pre.train.X.length]?)) := by
  have hn : g.nNodes = pre.train.y.length +
      ((if useTest (.index s) then pre.test.map (·.y.length) else none) : Option Nat).getD 0 := by
    rw [(plain_nodes hg).1, inputOf, features_length ha hF]
  constructor
  · rw [C177_well_formed]
    constructor
    · rintro ⟨-, h, -⟩; exact h
    · rintro ⟨m, h⟩
      refine ⟨rfl, ⟨m, h⟩, ?_⟩
      have h0 := h
      obtain ⟨h1, h2, h3, h4, h5⟩ := nodeDataFor_index h
      have hm : ∀ mask name, (mask, name) ∈ [(m.train, "train"), (m.val, "val"), (m.test, "test"), (m.labeled, "train_labeled"),
          (m.unlabeled, "train_unlabeled")] → mask.length = g.nNodes := fun mask name hmem => by
        rw [hn]; exact (C125_masks h1 mask name hmem).1
      have hL := hm m.labeled "train_labeled" (by simp)
      have hU := hm m.unlabeled "train_unlabeled" (by simp)
      have hy := (C125_hidden_partial h).1
      have hyt := yTrue_length h3
      have hall : d.trainAll = m.train := by
        simp only [nodeDataFor, maskMap, nodeData, ebind_ok, pure, Except.pure, Except.ok.injEq, Prod.mk.injEq] at h0
        obtain ⟨m', -, d', ⟨u, -, y, -, rfl⟩, rfl, rfl⟩ := h0
        rfl
      refine ⟨?_, by rw [hy, hyt, hn], ?_⟩
      · rw [h2, hn]
        unfold combine
        cases hu : useTest (.index s) with
        | false => simp [ha.labels]
        | true =>
          cases hp : pre.test with
          | none => simp [ha.labels]
          | some t => simp [ha.labels, ha.testLabels t hp]
      · rw [h5, hall]
        exact ⟨hL, hm _ "val" (by simp), hm _ "test" (by simp), hU, hL, hm _ "train" (by simp)⟩
  · intro h
    obtain ⟨-, ⟨m, hd⟩, -⟩ := (C177_well_formed _ _ _ _ _ _).mp h
    obtain ⟨-, h2, -, -, -⟩ := nodeDataFor_index hd
    have hFe : F = trainFeature p r.field ++
        ((if useTest (.index s) then testFeature p r.field else none) : Option (List (List Rat))).getD [] := by
      unfold features at hF
      cases hx : (if useTest (.index s) then testFeature p r.field else none) with
      | none => rw [hx] at hF; simpa using (Except.ok.inj hF).symm
      | some x =>
        rw [hx] at hF
        simp only [concatRows] at hF
        split_ifs at hF
        exact (Except.ok.inj hF).symm
    have hXe : d.X = pre.train.X ++ ((if useTest (.index s) then pre.test.map (·.X) else none) : Option (List α)).getD [] := by
      rw [h2]
      unfold combine
      cases useTest (.index s) with
      | false => simp
      | true => cases pre.test <;> simp
    intro q
    constructor
    · intro hq
      rw [hXe, hFe, List.getElem?_append_left hq, List.getElem?_append_left (by rw [ha.train]; exact hq)]
      exact ⟨rfl, rfl⟩
    · intro hq hq2
      rw [hn] at hq2
      cases hu : useTest (.index s) with
      | false => rw [hu] at hq2; simp [← ha.labels] at hq2; omega
      | true =>
        rw [hu] at hq2 hFe hXe
        have h2 := ha.test
        cases hp : pre.test with
        | none => rw [hp] at hq2; simp [← ha.labels] at hq2; omega
        | some t =>
          rw [hp] at h2 hXe
          cases hf : testFeature p r.field with
          | none => rw [hf] at h2; cases h2
          | some ft =>
            rw [hf] at hFe
            refine ⟨t, ft, rfl, rfl, ?_, ?_⟩
            · rw [hXe, List.getElem?_append_right hq]; rfl
            · rw [hFe, List.getElem?_append_right (by rw [ha.train]; exact hq), ha.train]; rfl

/-! ### Cache -/

variable {B : BuildEnv} {listing : Entry → List FName}

/-- **C177 (cache).**  Whatever benchmark runs used the cache directory before, finished or killed anywhere, a graph from the cache is the
one that would be built without, provided that runs with the same entry are to build their graphs from the same input (which the
name of the entry does not ensure, `C177_cache_violated`). -/
theorem C177_cache_partial (fp : Key → String) (hl : ∀ e : Entry, ∀ f ∈ Assoc.keys e, f ∈ listing e)
    (hv : ∀ i, B.validate i = .ok () → 0 < i.chunkSize) {U : Call → Prop}
    (hU : ∀ c c', U c → U c' → fp c.key = fp c'.key → c.input = c'.input)
    {s : GraphStore} (h : Runs B fp listing U s) (c : Call) (hc : U c) :
    (build B fp listing true c.ds c.pre c.req c.test s).2 = (build B fp listing false c.ds c.pre c.req c.test s).2 := by
  have inv : ∀ s, Runs B fp listing U s → ∀ c i, U c → c.input = .ok i → EntryOk B i (entryOf s (fp c.key)) := by
    intro s h
    induction h with
    | empty =>
      intro c i _ _
      constructor
      · intro c x hx; simp [entryOf] at hx
      · intro hx; simp [entryOf, entryExists, Assoc.has] at hx
    | call c' hc' i' hi' m _ ih =>
      intro c i hc hi
      unfold entryOf
      rw [Assoc.get_set]
      by_cases e : fp c.key = fp c'.key
      · rw [if_pos e]
        have h1 := hU c c' hc hc' e
        rw [hi, hi'] at h1
        obtain rfl := Except.ok.inj h1
        exact entryOk_call hl (hv i) (by intro k hk; cases hk) true (ih c' i hc' hi') m
      · rw [if_neg e]
        exact ih c i hc hi
  unfold build
  cases hF : features c.pre c.req.field c.test with
  | error e => rfl
  | ok F =>
    simp only [if_true]
    have hi : c.input = .ok (inputOf c.req F) := by unfold Call.input; rw [hF]; rfl
    have hok := inv s h c _ hc hi
    rw [if_neg (by simp)]
    show (B.cached listing none true (entryOf s (fp c.key)) (inputOf c.req F)).2 = B.plain (inputOf c.req F)
    exact cached_plain (hv _) hok none true

/-! ### Examples -/

/-- A data set with three training and one test sample. -/
def demoPre : Pre := ⟨[[0], [1], [3]], some [[7]], [("features.X", [[0], [1], [3]])], some [("features.X", [[7]])], "p"⟩

/-- Its labels. -/
def demoPrepared : Prepared Nat := ⟨⟨[0, 1, 2], [some 0, some 1, some 0]⟩, some ⟨[3], [some 1]⟩, none, none⟩

/-- Nearest neighbours. -/
def demoReq : Req := ⟨.knn 1, .euclidean, 2, ⟨"binary", none, "euclidean", "or", false, "none"⟩, "features.X", 0⟩

/-- A split of the training samples: sample 2 is the test set. -/
def demoSplit : IndexSplit :=
  ⟨[("train", [0, 1]), ("val", []), ("test", [2]), ("train_labeled", [0]), ("train_unlabeled", [1])], [("test", "train")]⟩

/-- The official test set. -/
def demoOfficial : IndexSplit :=
  ⟨[("train", [0, 1, 2]), ("val", []), ("test", [0]), ("train_labeled", [0]), ("train_unlabeled", [1, 2])], [("test", "test")]⟩

/-- The graph on the training samples. -/
def demoG3 : GraphArtifact := ⟨3, [(0, 1), (1, 2), (1, 0), (2, 1)], some [1, 1, 1, 1], false⟩

/-- The graph with the test sample. -/
def demoG4 : GraphArtifact := ⟨4, [(0, 1), (1, 2), (2, 3), (1, 0), (2, 1), (3, 2)], some [1, 1, 1, 1, 1, 1], false⟩

theorem demo_aligned : Aligned demoPrepared demoPre "features.X" :=
  ⟨rfl, by intro t ht; cases ht; rfl, rfl, rfl⟩

theorem demo_features (t : Bool) : features demoPre "features.X" t = .ok ([[0], [1], [3]] ++ if t then [[7]] else []) := by
  cases t <;> decide +kernel

/-- Non-vacuity of `C177_fits`: both splits. -/
example : (∃ d, nodeSet demoPrepared (.index demoSplit) none (some demoG3) = .ok (d, demoG3)) ∧
    (∃ d, nodeSet demoPrepared (.index demoOfficial) none (some demoG4) = .ok (d, demoG4)) ∧
    demoEnv.plain (inputOf demoReq [[0], [1], [3]]) = .ok demoG3 ∧
    demoEnv.plain (inputOf demoReq [[0], [1], [3], [7]]) = .ok demoG4 := by
  refine ⟨⟨_, ((C177_fits demoEnv demoPrepared demoPre demoReq demoSplit none demo_aligned _ demoG3 (demo_features false)
      (by decide +kernel) ⟨[0, 1, 2], [0, -1, 0], ⟨[true, false, false], [false, false, false], [false, false, true],
        [false, true, false], [true, false, false]⟩, [true, true, false], [0, 1, 0]⟩).1).mpr ⟨_, rfl⟩⟩,
    ⟨_, ((C177_fits demoEnv demoPrepared demoPre demoReq demoOfficial none demo_aligned _ demoG4 (demo_features true)
      (by decide +kernel) ⟨[0, 1, 2, 3], [0, -1, -1, 1], ⟨[true, false, false, false], [false, false, false, false],
        [false, false, false, true], [false, true, true, false], [true, false, false, false]⟩, [true, true, true, false],
        [0, 1, 0, 1]⟩).1).mpr ⟨_, rfl⟩⟩, by decide +kernel, by decide +kernel⟩

/-- The graph of a run, with or without the test split. -/
def demoRun (fp : Key → String) (s : GraphStore) (cache t : Bool) : GraphStore × Except PyErr GraphArtifact :=
  build demoEnv fp Assoc.keys cache "d" demoPre demoReq t s

/-- **C177 (cache: violated).**  The name of the cache entry does not depend on whether the test split is included.  So, whatever the
hash function: after a run with the official test set, a run of the same data set, preprocessing, graph spec and seed, whose test set is
split from the training set, gets the graph of the first run from the cache, with more nodes than it has samples, and fails; without the
first run, or without cache, it succeeds. -/
theorem C177_cache_violated (fp : Key → String) :
    let after := (demoRun fp [] true true).1
    useTest (.index demoOfficial) = true ∧ useTest (.index demoSplit) = false ∧
    (demoRun fp after true false).2 = .ok demoG4 ∧ (demoRun fp [] true false).2 = .ok demoG3 ∧ (demoRun fp after false false).2 = .ok demoG3 ∧
    nodeSet demoPrepared (.index demoSplit) none (some demoG4) = .error .validation ∧
    ∃ d, nodeSet demoPrepared (.index demoSplit) none (some demoG3) = .ok (d, demoG3) := by
  have h0 : ∀ f, entryOf [] f = [] := fun _ => rfl
  refine ⟨by decide +kernel, by decide +kernel, ?_, ?_, ?_, rfl, _, rfl⟩
  · have h : ∀ (f : String) (e : Entry), entryOf (Assoc.set [] f e) f = e := by
      intro f e
      unfold entryOf
      rw [Assoc.get_set, if_pos rfl]
      rfl
    unfold demoRun build
    rw [show demoReq.field = "features.X" from rfl, demo_features, demo_features]
    simp only [if_true]
    rw [h, h0]
    decide +kernel
  · unfold demoRun build
    rw [show demoReq.field = "features.X" from rfl, demo_features]
    simp only [if_true]
    rw [h0]
    decide +kernel
  · have hp : ∀ s, (demoRun fp s false false).2 = demoEnv.plain (inputOf demoReq [[0], [1], [3]]) := by
      intro s
      unfold demoRun build
      rw [show demoReq.field = "features.X" from rfl, demo_features]
      rfl
    rw [hp]
    decide +kernel

/-- Non-vacuity of `C177_cache_partial`: runs that all include the test split. -/
example (fp : Key → String) : ∀ c c' : Call, c = ⟨"d", demoPre, demoReq, true⟩ → c' = ⟨"d", demoPre, demoReq, true⟩ →
    fp c.key = fp c'.key → c.input = c'.input := by
  rintro _ _ rfl rfl _; rfl

/-! ### Which graph -/

/-- **C177 (which graph).**  If `graph.enabled` is set, the graph is the one built from its spec, whatever edges the data set has; no
spec is an error.  Otherwise it is the graph of the data set, over the training samples.  A data set with masks but without edges is an
error, one with neither has no graph, and then no transductive method is fitted (`C177_well_formed`). -/
theorem C177_choice (B : BuildEnv) (fp : Key → String) (listing : Entry → List FName) (cfg : Option GraphCfg) (ds : String)
    (p : Pre) (t : Bool) (edges : Option Edges) (hasMasks : Bool) (n : Nat) (s : GraphStore) :
    (∀ c r, cfg = some c → c.enabled = true → c.req = some r →
      chooseGraph B fp listing cfg ds p t edges hasMasks n s =
        ((build B fp listing c.cache ds p r t s).1, (build B fp listing c.cache ds p r t s).2.map some)) ∧
    (∀ c, cfg = some c → c.enabled = true → c.req = none →
      chooseGraph B fp listing cfg ds p t edges hasMasks n s = (s, .error .validation)) ∧
    ((∀ c, cfg = some c → c.enabled = false) →
      chooseGraph B fp listing cfg ds p t edges hasMasks n s = (s, match edges with
        | some e => (fromDataset n e).map some
        | none => if hasMasks then .error .validation else .ok none)) := by
  refine ⟨fun c r h1 h2 h3 => ?_, fun c h1 h2 h3 => ?_, fun h => ?_⟩
  · unfold chooseGraph
    rw [h1, show (some c).filter (·.enabled) = some c by simp [Option.filter, h2]]
    simp only [h3]
  · unfold chooseGraph
    rw [h1, show (some c).filter (·.enabled) = some c by simp [Option.filter, h2]]
    simp only [h3]
  · unfold chooseGraph
    have : cfg.filter (·.enabled) = none := by
      cases cfg with
      | none => rfl
      | some c => simp [Option.filter, h c rfl]
    rw [this]
    cases edges <;> rfl

end ModSSC.Bench.Node
