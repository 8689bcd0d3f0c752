import Verif.Graph.FeatModel
import Verif.Graph.SpecProps

/-!
# C48: the views cache
-/

namespace ModSSC.Graph
open ModSSC ModSSC.Json ModSSC.Json.Spec

/-- A call of `graph_to_views`. -/
structure ViewsCall where
  data : NodeDataset
  spec : FeaturizerSpec
  seed : Int

/-- Cache directories reached by finished or killed calls, one after the other.  `U`: the calls in
use.  Each call works on the entry of its fingerprint and is killed after `m` file operations (or
not at all, if `m` is large). -/
inductive ViewsHistory (E : FeatExt) (U : ViewsCall → Prop) : ViewsStore → Prop
  | empty : ViewsHistory E U []
  | call {s : ViewsStore} (c : ViewsCall) (hc : U c) (npzFirst : Bool) (m : Nat)
      (h : ViewsHistory E U s) :
      ViewsHistory E U (Assoc.set s (E.viewsFp c.data c.spec c.seed)
        (runViewsOps (viewsEntryOf s (E.viewsFp c.data c.spec c.seed))
          ((E.cachedViews npzFirst (viewsEntryOf s (E.viewsFp c.data c.spec c.seed))
            c.data c.spec c.seed).1.take m)))

theorem set_ne_nil {α β : Type} [DecidableEq α] (l : List (α × β)) (k : α) (v : β) :
    Assoc.set l k v ≠ [] := by
  intro h
  have := Assoc.get_set_self l k v
  rw [h] at this
  simp [Assoc.get] at this

theorem view_congr {E : FeatExt} {d d' : NodeDataset} {spec : FeaturizerSpec} {seed : Int}
    (hX : d.X = d'.X) (hg : d.graph = d'.graph) (v : PyVal) :
    E.view d spec seed v = E.view d' spec seed v := by
  unfold FeatExt.view
  rw [hX, hg]

theorem fill_congr {E : FeatExt} {d d' : NodeDataset} {spec : FeaturizerSpec} {seed : Int}
    (hX : d.X = d'.X) (hg : d.graph = d'.graph) (vs : List PyVal) (acc : List (String × Mat)) :
    E.fillViews d spec seed vs acc = E.fillViews d' spec seed vs acc := by
  induction vs generalizing acc with
  | nil => rfl
  | cons v vs ih =>
    simp only [FeatExt.fillViews, view_congr hX hg]
    cases E.view d' spec seed v with
    | error e => rfl
    | ok M => exact ih _

theorem fill_ne_nil {E : FeatExt} {d : NodeDataset} {spec : FeaturizerSpec} {seed : Int}
    {vs : List PyVal} {acc views : List (String × Mat)} (h : vs ≠ [] ∨ acc ≠ [])
    (hf : E.fillViews d spec seed vs acc = .ok views) : views ≠ [] := by
  induction vs generalizing acc with
  | nil =>
    simp only [FeatExt.fillViews, Except.ok.injEq] at hf
    rw [← hf]
    exact h.resolve_left (by simp)
  | cons v vs ih =>
    simp only [FeatExt.fillViews] at hf
    cases hv : E.view d spec seed v with
    | error e => rw [hv] at hf; simp at hf
    | ok M =>
      rw [hv] at hf
      exact ih (.inr (set_ne_nil _ _ _)) hf

/-- The assembled views pass the final checks when the dataset is well formed and every view has a
row per node. -/
theorem checkViews_ok {v : DatasetViews} {n : Nat} (hne : v.views ≠ [])
    (hrows : ∀ p ∈ v.views, p.2.length = n) (hy : v.y.length = n)
    (hm : ∀ m ∈ v.masks, m.2.length = n) : checkViews v = .ok v := by
  unfold checkViews
  cases hv : v.views with
  | nil => exact absurd hv hne
  | cons p rest =>
    obtain ⟨name, M⟩ := p
    have hM : M.length = n := hrows (name, M) (by rw [hv]; simp)
    simp only [hM]
    rw [if_neg, if_neg (not_not.mpr hy), if_neg]
    · simpa using hm
    · rw [← hv]
      simpa using hrows

theorem compute_ok {E : FeatExt} {d : NodeDataset} (hd : d.WellFormed) {spec : FeaturizerSpec}
    (hs : spec.validate = .ok ()) {seed : Int} :
    E.compute d spec seed = match E.fillViews d spec seed spec.views [] with
      | .error e => .error e
      | .ok views => if views.any (fun p => p.2.length ≠ d.graph.nNodes) then .error .validation
        else .ok ⟨views, d.y, d.masks, E.viewsFp d spec seed, E.graphFp d, E.specFp spec, seed⟩ := by
  unfold FeatExt.compute
  have hne := ((C47_accepted_featurizer spec).mp hs).2.2.1
  cases hf : E.fillViews d spec seed spec.views [] with
  | error e => rfl
  | ok views =>
    simp only
    split
    · rfl
    · rename_i hrows
      refine checkViews_ok (n := d.graph.nNodes) (fill_ne_nil (.inl hne) hf) ?_ hd.2.1 hd.2.2.1
      simpa using hrows

/-- Two calls that agree on everything but labels and masks get the same views. -/
theorem compute_transfer {E : FeatExt} {d d' : NodeDataset} (hd : d.WellFormed) (hd' : d'.WellFormed)
    {spec : FeaturizerSpec} (hs : spec.validate = .ok ()) {seed : Int} (hX : d.X = d'.X)
    (hg : d.graph = d'.graph) (hfp : E.graphFp d = E.graphFp d') {v : DatasetViews}
    (h : E.compute d spec seed = .ok v) :
    E.compute d' spec seed = .ok ⟨v.views, d'.y, d'.masks, v.fp, v.graphFp, v.specFp, v.seed⟩ := by
  have hv : E.viewsFp d spec seed = E.viewsFp d' spec seed := by unfold FeatExt.viewsFp; rw [hfp]
  rw [compute_ok hd hs] at h
  rw [compute_ok hd' hs, ← fill_congr hX hg, ← hg, ← hv, ← hfp]
  cases hf : E.fillViews d spec seed spec.views [] with
  | error e => rw [hf] at h; simp at h
  | ok views =>
    rw [hf] at h
    simp only at h ⊢
    split at h
    · simp at h
    · rename_i hrows
      rw [if_neg hrows]
      cases h
      rfl

/-- The entry of a call is absent, unfinished, or holds what the call computes. -/
def ViewsOk (E : FeatExt) (c : ViewsCall) (e : ViewsEntry) : Prop :=
  ∀ m, e.manifest = some m → ∃ v, E.compute c.data c.spec c.seed = .ok v ∧
    e.npz = some (some v.views) ∧ m = ⟨v.fp, v.graphFp, v.specFp, v.seed⟩

theorem viewsOk_save {E : FeatExt} {c : ViewsCall} {e : ViewsEntry} (he : e.manifest = none)
    {v v' : DatasetViews} (hv : E.compute c.data c.spec c.seed = .ok v')
    (hsame : v'.views = v.views ∧ v'.fp = v.fp ∧ v'.graphFp = v.graphFp ∧ v'.specFp = v.specFp ∧
      v'.seed = v.seed) (npzFirst : Bool) (m : Nat) :
    ViewsOk E c (runViewsOps e ((saveViewsOps npzFirst e v).take m)) := by
  obtain ⟨npz, man⟩ := e
  simp only at he
  subst he
  obtain ⟨s1, s2, s3, s4, s5⟩ := hsame
  have key : ∀ (k : Nat) (e : ViewsEntry), e.manifest = none →
      ViewsOk E c (runViewsOps e ([ViewsOp.beginNpz, .finishNpz v.views,
        .manifest ⟨v.fp, v.graphFp, v.specFp, v.seed⟩].take k)) := by
    intro k e he mm hmm
    match k with
    | 0 => simp [runViewsOps, he] at hmm
    | 1 => simp [runViewsOps, ViewsOp.run, he] at hmm
    | 2 => simp [runViewsOps, ViewsOp.run, he] at hmm
    | k + 3 =>
      simp [runViewsOps, ViewsOp.run] at hmm ⊢
      refine ⟨v', hv, s1.symm, ?_⟩
      rw [← hmm, s2, s3, s4, s5]
  cases npz with
  | none =>
    have : saveViewsOps npzFirst ⟨none, none⟩ v = [.beginNpz, .finishNpz v.views,
        .manifest ⟨v.fp, v.graphFp, v.specFp, v.seed⟩] := by cases npzFirst <;> rfl
    rw [this]
    exact key m _ rfl
  | some x =>
    have : saveViewsOps npzFirst ⟨some x, none⟩ v = .unlinkNpz :: [.beginNpz, .finishNpz v.views,
        .manifest ⟨v.fp, v.graphFp, v.specFp, v.seed⟩] := by cases npzFirst <;> rfl
    rw [this]
    cases m with
    | zero => intro mm hmm; simp [runViewsOps] at hmm
    | succ m => exact key m ⟨none, none⟩ rfl

section
variable {E : FeatExt} {U : ViewsCall → Prop}

/-- A spec that is accepted names views by strings. -/
theorem scalar_of_valid {s : FeaturizerSpec} (h : s.validate = .ok ()) : s.Scalar := by
  intro v hv
  rcases ((C47_accepted_featurizer s).mp h).2.2.2.1 v hv with rfl | rfl | rfl <;> trivial

theorem viewsEntryOf_set (s : ViewsStore) (k k' : String) (e : ViewsEntry) :
    viewsEntryOf (Assoc.set s k e) k' = if k' = k then e else viewsEntryOf s k' := by
  unfold viewsEntryOf
  rw [Assoc.get_set]
  by_cases h : k' = k
  · rw [if_pos h, if_pos h]; rfl
  · rw [if_neg h, if_neg h]

theorem history_views (hsha : Function.Injective E.sha) (hf : FloatRepr E.floatText)
    (hwf : ∀ c, U c → c.data.WellFormed)
    (hid : ∀ c c', U c → U c' → E.graphFp c.data = E.graphFp c'.data →
      c.data.X = c'.data.X ∧ c.data.graph = c'.data.graph)
    {s : ViewsStore} (h : ViewsHistory E U s) (c : ViewsCall) (hc : U c)
    (hval : c.spec.validate = .ok ()) :
    ViewsOk E c (viewsEntryOf s (E.viewsFp c.data c.spec c.seed)) := by
  induction h with
  | empty => intro m hm; simp [viewsEntryOf, Assoc.get] at hm
  | @call s j hj npzFirst m _ ih =>
    rw [viewsEntryOf_set]
    by_cases hfp : E.viewsFp c.data c.spec c.seed = E.viewsFp j.data j.spec j.seed
    · rw [if_pos hfp, ← hfp]
      generalize viewsEntryOf s (E.viewsFp c.data c.spec c.seed) = e at ih
      unfold FeatExt.cachedViews
      cases hvj : j.spec.validate with
      | error err => simpa [runViewsOps] using ih
      | ok u =>
        cases hman : e.manifest with
        | some mm => simpa [runViewsOps] using ih
        | none =>
          obtain ⟨e1, e2, e3⟩ := (C47_fingerprint E.sha (ascii := true) hf hsha).2 _ _ _ _ _ _
            (scalar_of_valid hval) (scalar_of_valid (by rw [hvj])) hfp
          cases hcomp : E.compute j.data j.spec j.seed with
          | error err => simpa [runViewsOps] using ih
          | ok v =>
            obtain ⟨hX, hg⟩ := hid c j hc hj e1
            have := compute_transfer (hwf j hj) (hwf c hc) (by rw [hvj]) hX.symm hg.symm e1.symm hcomp
            rw [← e2, ← e3] at this
            exact viewsOk_save hman this ⟨rfl, rfl, rfl, rfl, rfl⟩ _ _
    · rw [if_neg hfp]
      exact ih

/-- **C48, partial.**  Whatever calls were made before with the cache directory, each finished or
killed at any file operation, `graph_to_views` with the cache returns or raises exactly what it does
without -- the views, labels, masks and metadata of the dataset it is given -- provided that datasets
in use with the same graph fingerprint have the same features and the same graph; labels, masks,
specs and seeds may differ.  The hash is collision free.  Missing: datasets that share a graph
fingerprint but differ in features or weights, for which the claim is false (`C48_features_violated`,
`C48_weights_violated`). -/
theorem C48_transparent_partial (hsha : Function.Injective E.sha) (hf : FloatRepr E.floatText)
    (hwf : ∀ c, U c → c.data.WellFormed)
    (hid : ∀ c c', U c → U c' → E.graphFp c.data = E.graphFp c'.data →
      c.data.X = c'.data.X ∧ c.data.graph = c'.data.graph)
    {s : ViewsStore} (h : ViewsHistory E U s) (c : ViewsCall) (hc : U c) (npzFirst : Bool) :
    (E.cachedViews npzFirst (viewsEntryOf s (E.viewsFp c.data c.spec c.seed)) c.data c.spec c.seed).2
      = E.plainViews c.data c.spec c.seed := by
  unfold FeatExt.cachedViews FeatExt.plainViews
  cases hval : c.spec.validate with
  | error err => rfl
  | ok u =>
    have hok := history_views hsha hf hwf hid h c hc hval
    generalize viewsEntryOf s (E.viewsFp c.data c.spec c.seed) = e at hok
    simp only
    cases hman : e.manifest with
    | none =>
      cases hcomp : E.compute c.data c.spec c.seed with
      | error err => rfl
      | ok v => rfl
    | some m =>
      obtain ⟨v, hcomp, hnpz, rfl⟩ := hok m hman
      have ht := compute_transfer (hwf c hc) (hwf c hc) hval rfl rfl rfl hcomp
      rw [hcomp] at ht
      rw [hcomp]
      simp only [loadViews, hnpz]
      have hv := Except.ok.inj ht
      rw [compute_ok (hwf c hc) hval] at hcomp
      cases hfv : E.fillViews c.data c.spec c.seed c.spec.views [] with
      | error err => rw [hfv] at hcomp; simp at hcomp
      | ok views =>
        rw [hfv] at hcomp
        simp only at hcomp
        split at hcomp
        · simp at hcomp
        · rename_i hrows
          have hv' : v = ⟨v.views, c.data.y, c.data.masks, v.fp, v.graphFp, v.specFp, v.seed⟩ := hv
          have hvv : v.views = views := by cases hcomp; rfl
          rw [← hv']
          refine checkViews_ok (n := c.data.graph.nNodes) ?_ ?_ ?_ ?_
          · rw [hvv]
            exact fill_ne_nil (.inl ((C47_accepted_featurizer c.spec).mp hval).2.2.1) hfv
          · rw [hvv]
            simpa using hrows
          · rw [hv']; exact (hwf c hc).2.1
          · rw [hv']; exact (hwf c hc).2.2.1

/-- **C48 (shape).**  Whatever dataset, spec and seed it is given, `graph_to_views` returns at least one view, every view
has one row per node of the graph, and so do the labels and every mask. -/
theorem C48_shape (d : NodeDataset) (spec : FeaturizerSpec) (seed : Int) {v : DatasetViews}
    (h : E.plainViews d spec seed = .ok v) :
    v.views ≠ [] ∧ (∀ p ∈ v.views, p.2.length = d.graph.nNodes) ∧ v.y = d.y ∧ v.masks = d.masks ∧
    d.y.length = d.graph.nNodes ∧ ∀ m ∈ d.masks, m.2.length = d.graph.nNodes := by
  unfold FeatExt.plainViews FeatExt.compute at h
  cases hval : spec.validate with
  | error e => rw [hval] at h; cases h
  | ok u =>
    rw [hval] at h
    simp only at h
    cases hf : E.fillViews d spec seed spec.views [] with
    | error e => rw [hf] at h; cases h
    | ok views =>
      rw [hf] at h
      simp only at h
      split at h
      · cases h
      · rename_i hrows
        have hrows' : ∀ p ∈ views, p.2.length = d.graph.nNodes := by simpa using hrows
        unfold checkViews at h
        cases views with
        | nil => cases h
        | cons p rest =>
          have hM := hrows' p (by simp)
          simp only at h
          split at h
          · cases h
          · split at h
            · cases h
            · rename_i hy
              split at h
              · cases h
              · rename_i hm
                cases h
                refine ⟨by simp, hrows', rfl, rfl, ?_, ?_⟩
                · rw [← hM]; simpa using hy
                · intro m hm'
                  rw [← hM]
                  have := hm
                  simp only [List.any_eq_true, not_exists, not_and, decide_eq_true_eq, not_not] at this
                  exact this m hm'

theorem sameList_ints {l m : List Int} (h : SameList (l.map PyVal.int) (m.map PyVal.int)) : l = m := by
  induction l generalizing m with
  | nil => cases m with
    | nil => rfl
    | cons a m => simp [SameList] at h
  | cons a l ih => cases m with
    | nil => simp [SameList] at h
    | cons b m =>
      simp only [List.map_cons, SameList] at h
      obtain ⟨w, m', e, h1, h2⟩ := h
      obtain ⟨rfl, rfl⟩ := List.cons.inj e
      simp only [Same, PyVal.int.injEq] at h1
      rw [h1, ih h2]

theorem validList_ints (l : List Int) : ValidList (l.map PyVal.int) := by
  induction l with
  | nil => trivial
  | cons a l ih => exact ⟨trivial, ih⟩

/-- **C48 (fallback).**  Graphs without a stored fingerprint are told apart by the number of nodes and the first 1000
edges: the views of two such datasets are shared only if these agree, for a collision-free hash. -/
theorem C48_fallback (hsha : Function.Injective E.sha) (hf : FloatRepr E.floatText) (d d' : NodeDataset)
    (hd : d.metaFp = none) (hd' : d'.metaFp = none) {spec spec' : FeaturizerSpec} (hs : spec.validate = .ok ())
    (hs' : spec'.validate = .ok ()) {seed seed' : Int}
    (h : E.viewsFp d spec seed = E.viewsFp d' spec' seed') :
    d.graph.nNodes = d'.graph.nNodes ∧ d.graph.edgeIndex.take 1000 = d'.graph.edgeIndex.take 1000 ∧
    spec = spec' ∧ seed = seed' := by
  obtain ⟨e1, e2, e3⟩ := (C47_fingerprint E.sha (ascii := true) hf hsha).2 _ _ _ _ _ _
    (scalar_of_valid hs) (scalar_of_valid hs') h
  have hv : ∀ x : NodeDataset, Valid (.dict
    [("n_nodes", .int x.graph.nNodes),
     ("edge_index", .list [.list ((x.graph.edgeIndex.take 1000).map fun e => .int e.1),
       .list ((x.graph.edgeIndex.take 1000).map fun e => .int e.2)])]) := by
    intro x
    refine ⟨by simp, trivial, ⟨?_, ?_, trivial⟩, trivial⟩
    · have := validList_ints ((x.graph.edgeIndex.take 1000).map (·.1))
      rw [List.map_map] at this; exact this
    · have := validList_ints ((x.graph.edgeIndex.take 1000).map (·.2))
      rw [List.map_map] at this; exact this
  unfold FeatExt.graphFp at e1
  rw [hd, hd'] at e1
  simp only [Option.getD_none, if_true] at e1
  have := (C17_fingerprint E.sha hf _ _ (hv d) (hv d')).2 hsha e1
  simp only [Same] at this
  obtain ⟨e, he, -, h⟩ := this
  cases he
  simp only [SameIn, PyVal.lookup] at h
  obtain ⟨⟨w1, l1, e4⟩, ⟨w2, l2, e5⟩, -⟩ := h
  simp at l1 l2
  subst l1 l2
  simp only [Same, PyVal.int.injEq, PyVal.list.injEq] at e4 e5
  obtain ⟨m, rfl, a, m', hm, ha, b, m'', hm', hb, -⟩ := e5
  obtain ⟨rfl, rfl⟩ := List.cons.inj hm
  obtain ⟨rfl, -⟩ := List.cons.inj hm'
  simp only [Same, PyVal.list.injEq] at ha hb
  obtain ⟨_, rfl, ha⟩ := ha
  obtain ⟨_, rfl, hb⟩ := hb
  have k1 := sameList_ints (l := (d.graph.edgeIndex.take 1000).map (·.1)) (m := (d'.graph.edgeIndex.take 1000).map (·.1))
    (by rw [List.map_map, List.map_map]; rw [← List.map_take] at ha; exact ha)
  have k2 := sameList_ints (l := (d.graph.edgeIndex.take 1000).map (·.2)) (m := (d'.graph.edgeIndex.take 1000).map (·.2))
    (by rw [List.map_map, List.map_map]; rw [← List.map_take] at hb; exact hb)
  refine ⟨by omega, ?_, e2, e3⟩
  have : ∀ l l' : List Edge, l.map (·.1) = l'.map (·.1) → l.map (·.2) = l'.map (·.2) → l = l' := by
    intro l
    induction l with
    | nil => intro l' h _; simpa using h.symm
    | cons a l ih =>
      intro l' h1 h2
      cases l' with
      | nil => simp at h1
      | cons b l' =>
        simp only [List.map_cons, List.cons.injEq] at h1 h2
        rw [ih l' h1.2 h2.2, Prod.ext h1.1 h2.1]
  exact this _ _ k1 k2

end

/-! ### counterexamples, for every hash function -/

/-- Two nodes, one edge, no stored fingerprint unless given. -/
def tinyData (x : Rat) (w : Rat) (fp : Option String) : NodeDataset :=
  ⟨[[x], [1]], [0, 1], ⟨2, [(0, 1), (0, 0)], some [w, 1], false⟩, fp, []⟩

/-- The directory entry left by a complete call on an empty cache. -/
def entryAfter (E : FeatExt) (d : NodeDataset) (spec : FeaturizerSpec) : ViewsEntry :=
  runViewsOps ⟨none, none⟩ (E.cachedViews true ⟨none, none⟩ d spec 0).1

/-- Attribute view only. -/
def attrSpec : FeaturizerSpec := defaultFeaturizerSpec
/-- Diffusion view, one step. -/
def diffSpec : FeaturizerSpec := { defaultFeaturizerSpec with views := [.str "diffusion"], diffusionSteps := 1, diffusionAlpha := 0 }

/-- **C48 is false when only the features differ**: after a call with one feature matrix, a call with
another feature matrix on the same graph (same stored fingerprint) returns the views of the first. -/
theorem C48_features_violated (E : FeatExt) :
    let d := tinyData 5 1 (some "g")
    let d' := tinyData 7 1 (some "g")
    E.viewsFp d attrSpec 0 = E.viewsFp d' attrSpec 0 ∧
    ((E.cachedViews true (entryAfter E d attrSpec) d' attrSpec 0).2.map (·.views))
      = .ok [("attr", [[5], [1]])] ∧
    ((E.plainViews d' attrSpec 0).map (·.views)) = .ok [("attr", [[7], [1]])] := by
  have hval : attrSpec.validate = .ok () := by decide +kernel
  refine ⟨rfl, ?_, ?_⟩
  · unfold entryAfter FeatExt.cachedViews
    rw [hval]
    rfl
  · unfold FeatExt.plainViews
    rw [hval]
    rfl

/-- **C48 is false when only the edge weights differ** and the graph carries no fingerprint: the
fallback fingerprint covers the number of nodes and the first 1000 edges, not the weights. -/
theorem C48_weights_violated (E : FeatExt) (hs : E.scipy = true) :
    let d := tinyData 0 1 none
    let d' := tinyData 0 3 none
    E.viewsFp d diffSpec 0 = E.viewsFp d' diffSpec 0 ∧
    ((E.cachedViews true (entryAfter E d diffSpec) d' diffSpec 0).2.map (·.views))
      = .ok [("diffusion", [[1 / 2], [0]])] ∧
    ((E.plainViews d' diffSpec 0).map (·.views)) = .ok [("diffusion", [[3 / 4], [0]])] := by
  have hval : diffSpec.validate = .ok () := by decide +kernel
  have h1 : diffusionView true [[0], [1]] 2 [(0, 1), (0, 0)] (some [1, 1]) 1 0 = .ok [[1 / 2], [0]] := by
    decide +kernel
  have h3 : diffusionView true [[0], [1]] 2 [(0, 1), (0, 0)] (some [3, 1]) 1 0 = .ok [[3 / 4], [0]] := by
    decide +kernel
  have f1 : E.fillViews (tinyData 0 1 none) diffSpec 0 diffSpec.views [] = .ok [("diffusion", [[1 / 2], [0]])] := by
    change (match diffusionView E.scipy [[0], [1]] 2 [(0, 1), (0, 0)] (some [1, 1]) 1 0 with
      | .error e => Except.error e
      | .ok M => Except.ok [("diffusion", M)]) = _
    rw [hs, h1]
  have f3 : E.fillViews (tinyData 0 3 none) diffSpec 0 diffSpec.views [] = .ok [("diffusion", [[3 / 4], [0]])] := by
    change (match diffusionView E.scipy [[0], [1]] 2 [(0, 1), (0, 0)] (some [3, 1]) 1 0 with
      | .error e => Except.error e
      | .ok M => Except.ok [("diffusion", M)]) = _
    rw [hs, h3]
  refine ⟨rfl, ?_, ?_⟩
  · unfold entryAfter FeatExt.cachedViews
    rw [hval]
    simp only [FeatExt.compute, f1]
    rfl
  · unfold FeatExt.plainViews
    rw [hval]
    simp only [FeatExt.compute, f3]
    rfl

/-- An instance of the external functions. -/
def demoFeat : FeatExt := ⟨fun _ _ _ _ => .error .runtimeError, true, String.ofList, demoFloat⟩

/-- The hypotheses of `C48_transparent_partial` are met by a history with a killed and a finished
call, on two datasets with different features. -/
example : ∃ (U : ViewsCall → Prop) (s : ViewsStore), Function.Injective demoFeat.sha ∧
    FloatRepr demoFeat.floatText ∧ ViewsHistory demoFeat U s ∧ s.length = 2 ∧
    (∀ c c', U c → U c' → demoFeat.graphFp c.data = demoFeat.graphFp c'.data →
      c.data.X = c'.data.X ∧ c.data.graph = c'.data.graph) := by
  refine ⟨fun c => c = ⟨tinyData 5 1 (some "g"), attrSpec, 0⟩ ∨ c = ⟨tinyData 7 1 (some "h"), attrSpec, 0⟩,
    _, fun a b h => String.ofList_injective h, demoFloat_ok,
    .call ⟨tinyData 7 1 (some "h"), attrSpec, 0⟩ (.inr rfl) true 1
      (.call ⟨tinyData 5 1 (some "g"), attrSpec, 0⟩ (.inl rfl) true 9 .empty), by decide +kernel, ?_⟩
  rintro c c' (rfl | rfl) (rfl | rfl) h
  · exact ⟨rfl, rfl⟩
  · exact absurd h (by decide)
  · exact absurd h (by decide)
  · exact ⟨rfl, rfl⟩

example : (tinyData 5 1 (some "g")).WellFormed := by
  refine ⟨rfl, rfl, ?_, ?_, ?_⟩
  · simp [tinyData]
  · decide
  · intro w hw; cases hw; rfl

end ModSSC.Graph
