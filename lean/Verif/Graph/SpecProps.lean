import Verif.Graph.SpecModel
import Verif.Utils.JsonProps

/-!
# C47: graph specs survive the dictionary round trip and are identified by their fingerprint
-/

namespace ModSSC.Graph
open ModSSC PyVal ModSSC.Json ModSSC.Json.Spec

/-- **C47 (round trip).**  `from_dict(to_dict(spec))` is the spec, for every builder spec and every
featurizer spec, valid or not. -/
theorem C47_roundtrip (s : BuilderSpec) (t : FeaturizerSpec) :
    BuilderSpec.fromDict s.toDict = .ok s ∧ FeaturizerSpec.fromDict t.toDict = .ok t := by
  constructor
  · simp [BuilderSpec.fromDict, BuilderSpec.toDict, PyVal.getD, PyVal.lookup, WeightsSpec.fromDict,
      WeightsSpec.toDict, asPyDict, PyVal.toStr, PyVal.toInt, PyVal.truthy, bind, Except.bind, pure,
      Except.pure]
  · simp [FeaturizerSpec.fromDict, FeaturizerSpec.toDict, PyVal.getD, PyVal.lookup, asTuple,
      PyVal.toStr, PyVal.toInt, PyVal.toFloat, PyVal.truthy, bind, Except.bind, pure, Except.pure]

/-- A Python scalar: `None`, a bool, a number or a string. -/
def IsScalar : PyVal → Prop
  | .list _ => False
  | .dict _ => False
  | _ => True

theorem same_scalar {v w : PyVal} (h : IsScalar v) (hs : Same v w) : v = w := by
  cases v with
  | list l => exact h.elim
  | dict d => exact h.elim
  | _ => unfold Same at hs; exact hs.symm

theorem valid_scalar {v : PyVal} (h : IsScalar v) : Valid v := by
  cases v with
  | list l => exact h.elim
  | dict d => exact h.elim
  | _ => unfold Valid; trivial

/-- The raw fields of a builder spec are scalars, as their annotations say. -/
def BuilderSpec.Scalar (s : BuilderSpec) : Prop :=
  IsScalar s.k ∧ IsScalar s.radius ∧ IsScalar s.nAnchors ∧ IsScalar s.weights.sigma

/-- The view names of a featurizer spec are scalars, as their annotation says. -/
def FeaturizerSpec.Scalar (s : FeaturizerSpec) : Prop := ∀ v ∈ s.views, IsScalar v

theorem same_scalars {l m : List PyVal} (h : ∀ v ∈ l, IsScalar v) (hs : SameList l m) : l = m := by
  induction l generalizing m with
  | nil => unfold SameList at hs; exact hs.symm
  | cons v l ih =>
    unfold SameList at hs
    obtain ⟨w, m', rfl, h1, h2⟩ := hs
    rw [same_scalar (h v (List.mem_cons_self ..)) h1,
      ih (fun x hx => h x (List.mem_cons_of_mem _ hx)) h2]

theorem validList_scalars {l : List PyVal} (h : ∀ v ∈ l, IsScalar v) : ValidList l := by
  induction l with
  | nil => unfold ValidList; trivial
  | cons v l ih =>
    unfold ValidList
    exact ⟨valid_scalar (h v (List.mem_cons_self ..)), ih fun x hx => h x (List.mem_cons_of_mem _ hx)⟩

theorem same_builder {s t : BuilderSpec} (hs : s.Scalar)
    (h : Same (.dict s.toDict) (.dict t.toDict)) : s = t := by
  unfold Same at h
  obtain ⟨e, he, -, h⟩ := h
  cases he
  obtain ⟨h1, h2, h3, h4⟩ := hs
  obtain ⟨a1, a2, a3, a4, a5, ⟨b1, b2⟩, a7, a8, a9, a10, a11, a12, a13, a14, a15, a16, a17, a18, a19⟩ := s
  obtain ⟨c1, c2, c3, c4, c5, ⟨d1, d2⟩, c7, c8, c9, c10, c11, c12, c13, c14, c15, c16, c17, c18, c19⟩ := t
  simp [BuilderSpec.toDict, WeightsSpec.toDict, SameIn, Same, PyVal.lookup] at h
  obtain ⟨e1, e2, e3, e4, e5, ⟨e6, e7⟩, e8, e9, e10, e11, e12, e13, e14, e15, e16, e17, e18, e19, e20⟩ := h
  have r1 := same_scalar h1 e3
  have r2 := same_scalar h2 e4
  have r3 := same_scalar h3 e13
  have r4 := same_scalar h4 e7
  simp_all

theorem same_featurizer {s t : FeaturizerSpec} (hs : s.Scalar)
    (h : Same (.dict s.toDict) (.dict t.toDict)) : s = t := by
  unfold Same at h
  obtain ⟨e, he, -, h⟩ := h
  cases he
  obtain ⟨a1, a2, a3, a4, a5, a6, a7, a8, a9, a10, a11⟩ := s
  obtain ⟨c1, c2, c3, c4, c5, c6, c7, c8, c9, c10, c11⟩ := t
  simp [FeaturizerSpec.toDict, SameIn, Same, PyVal.lookup] at h
  have r := same_scalars hs h.1
  simp_all

theorem valid_builder {s : BuilderSpec} (hs : s.Scalar) : Valid (.dict s.toDict) := by
  obtain ⟨h1, h2, h3, h4⟩ := hs
  simp [Valid, ValidDict, BuilderSpec.toDict, WeightsSpec.toDict, valid_scalar h1, valid_scalar h2,
    valid_scalar h3, valid_scalar h4]

theorem valid_featurizer {s : FeaturizerSpec} (hs : s.Scalar) : Valid (.dict s.toDict) := by
  simp [Valid, ValidDict, FeaturizerSpec.toDict, validList_scalars hs]

section
variable {H : Type} (hash : List Char → H) {f : Rat → List Char} {ascii : Bool}

/-- **C47 (fingerprints).**  With a collision-free hash the fingerprint of a graph identifies the
dataset fingerprint, the preprocessing fingerprint, the seed and every field of the builder spec; the
fingerprint of a set of views identifies the graph fingerprint, the seed and every field of the
featurizer spec. -/
theorem C47_fingerprint (hf : FloatRepr f) (hh : Function.Injective hash) :
    (∀ (ds ds' : String) (pp pp' : PyVal) (s s' : BuilderSpec) (seed seed' : Int),
      IsScalar pp → IsScalar pp' → s.Scalar → s'.Scalar →
      fingerprint hash f ascii (graphPayload ds pp s seed)
        = fingerprint hash f ascii (graphPayload ds' pp' s' seed') →
      ds = ds' ∧ pp = pp' ∧ s = s' ∧ seed = seed') ∧
    (∀ (g g' : String) (s s' : FeaturizerSpec) (seed seed' : Int), s.Scalar → s'.Scalar →
      fingerprint hash f ascii (viewsPayload g s seed)
        = fingerprint hash f ascii (viewsPayload g' s' seed') →
      g = g' ∧ s = s' ∧ seed = seed') := by
  constructor
  · intro ds ds' pp pp' s s' seed seed' hp hp' hs hs' h
    have v1 : ∀ (d : String) (p : PyVal) (t : BuilderSpec) (n : Int), IsScalar p → t.Scalar →
        Valid (graphPayload d p t n) := by
      intro d p t n h1 h2
      have := valid_builder h2
      simp only [graphPayload, Valid, ValidDict]
      refine ⟨by simp, trivial, valid_scalar h1, ?_, trivial, trivial⟩
      simpa [Valid] using this
    have := (C17_fingerprint hash hf _ _ (v1 ds pp s seed hp hs) (v1 ds' pp' s' seed' hp' hs')).2 hh h
    unfold graphPayload Same at this
    obtain ⟨e, he, -, h⟩ := this
    cases he
    simp only [SameIn, PyVal.lookup] at h
    obtain ⟨⟨w1, l1, e1⟩, ⟨w2, l2, e2⟩, ⟨w3, l3, e3⟩, ⟨w4, l4, e4⟩, -⟩ := h
    simp at l1 l2 l3 l4
    subst l1 l2 l3 l4
    refine ⟨?_, same_scalar hp e2, same_builder hs e3, ?_⟩
    · simpa [Same, eq_comm] using e1
    · simpa [Same, eq_comm] using e4
  · intro g g' s s' seed seed' hs hs' h
    have v1 : ∀ (d : String) (t : FeaturizerSpec) (n : Int), t.Scalar → Valid (viewsPayload d t n) := by
      intro d t n h2
      have := valid_featurizer h2
      simp only [viewsPayload, Valid, ValidDict]
      refine ⟨by simp, trivial, ?_, trivial, trivial⟩
      simpa [Valid] using this
    have := (C17_fingerprint hash hf _ _ (v1 g s seed hs) (v1 g' s' seed' hs')).2 hh h
    unfold viewsPayload Same at this
    obtain ⟨e, he, -, h⟩ := this
    cases he
    simp only [SameIn, PyVal.lookup] at h
    obtain ⟨⟨w1, l1, e1⟩, ⟨w3, l3, e3⟩, ⟨w4, l4, e4⟩, -⟩ := h
    simp at l1 l3 l4
    subst l1 l3 l4
    refine ⟨?_, same_featurizer hs e3, ?_⟩
    · simpa [Same, eq_comm] using e1
    · simpa [Same, eq_comm] using e4

end

/-! ### which specs are accepted -/

/-- A value that `int(..)` turns into a positive number. -/
def PositiveInt (v : PyVal) : Prop := ∃ k, v.toInt = .ok k ∧ 0 < k
/-- A value that `float(..)` turns into a positive number. -/
def PositiveFloat (v : PyVal) : Prop := ∃ r, v.toFloat = .ok r ∧ 0 < r

theorem require_ok {c : Prop} [Decidable c] : require c = .ok () ↔ c := by
  unfold require; split <;> simp_all

theorem checkPositiveInt_ok {v : PyVal} : checkPositiveInt v = .ok () ↔ PositiveInt v := by
  unfold checkPositiveInt PositiveInt
  by_cases hv : v = .none
  · subst hv; simp [PyVal.toInt]
  · rw [if_neg hv]
    cases h : v.toInt with
    | error e => simp
    | ok k => simp only [Except.ok.injEq, exists_eq_left']; split <;> simp <;> omega

theorem checkPositiveFloat_ok {v : PyVal} : checkPositiveFloat v = .ok () ↔ PositiveFloat v := by
  unfold checkPositiveFloat PositiveFloat
  by_cases hv : v = .none
  · subst hv; simp [PyVal.toFloat]
  · rw [if_neg hv]
    cases h : v.toFloat with
    | error e => simp
    | ok k => simp only [Except.ok.injEq, exists_eq_left']; split <;> simp_all

theorem seq_ok {a : Except PyErr Unit} {b : Unit → Except PyErr Unit} :
    (a >>= b) = .ok () ↔ a = .ok () ∧ b () = .ok () := by
  cases a <;> simp [bind, Except.bind]

theorem weights_ok {w : WeightsSpec} {m : String} : w.validate m = .ok () ↔
    w.kind = "binary" ∨ (w.kind = "heat" ∧ PositiveFloat w.sigma) ∨ (w.kind = "cosine" ∧ m = "cosine") := by
  unfold WeightsSpec.validate
  by_cases h1 : w.kind = "heat"
  · have hp : checkSigma w.sigma = .ok () ↔ PositiveFloat w.sigma := by
      unfold checkSigma floatOrZero PositiveFloat
      by_cases ht : w.sigma.truthy = true
      · rw [if_pos ht]
        cases h : w.sigma.toFloat with
        | error e => simp
        | ok k => simp only [Except.ok.injEq, exists_eq_left']; split <;> simp_all
      · rw [if_neg ht]
        have hz : ¬ ∃ r, w.sigma.toFloat = .ok r ∧ 0 < r := by
          rintro ⟨r, h, hr⟩
          cases hs : w.sigma with
          | bool b =>
            rw [hs] at ht h
            cases b
            · simp [PyVal.toFloat] at h; exact absurd hr (by rw [← h]; exact lt_irrefl _)
            · simp [PyVal.truthy] at ht
          | int i =>
            rw [hs] at ht h
            simp [PyVal.truthy] at ht
            subst ht
            simp [PyVal.toFloat] at h
            exact absurd hr (by rw [← h]; exact lt_irrefl _)
          | flt q =>
            rw [hs] at ht h
            simp [PyVal.truthy] at ht
            subst ht
            simp [PyVal.toFloat] at h
            exact absurd hr (by rw [← h]; exact lt_irrefl _)
          | none => rw [hs] at h; simp [PyVal.toFloat] at h
          | str s => rw [hs] at h; simp [PyVal.toFloat] at h
          | list l => rw [hs] at h; simp [PyVal.toFloat] at h
          | dict d => rw [hs] at h; simp [PyVal.toFloat] at h
        simp only [hz, iff_false]
        simp
    simpa [h1] using hp
  · by_cases h2 : w.kind = "binary"
    · simp [h2]
    · by_cases h3 : w.kind = "cosine"
      · by_cases h4 : m = "cosine" <;> simp [h3, h4]
      · simp [h1, h2, h3]

/-- **C47 (validation).**  The builder specs that are accepted: known words for the metric, scheme,
symmetrization, normalization, backend and weight kind; the parameters the scheme and the weights
need are positive; sizes are positive; cosine weights come with the cosine metric and the faiss
backend not with the epsilon scheme. -/
theorem C47_accepted (s : BuilderSpec) : s.validate = .ok () ↔
    (s.metric = "cosine" ∨ s.metric = "euclidean") ∧
    (s.scheme = "knn" ∧ PositiveInt s.k ∨
     s.scheme = "epsilon" ∧ PositiveFloat s.radius ∧ s.backend ≠ "faiss" ∨
     s.scheme = "anchor" ∧ PositiveInt s.k ∧ 0 < s.anchorsK ∧
      (s.nAnchors = .none ∨ PositiveInt s.nAnchors) ∧ 0 < s.candidateLimit ∧
      (s.anchorsMethod = "random" ∨ s.anchorsMethod = "kmeans")) ∧
    (s.symmetrize = "none" ∨ s.symmetrize = "or" ∨ s.symmetrize = "mutual") ∧
    (s.normalize = "none" ∨ s.normalize = "rw" ∨ s.normalize = "sym") ∧
    (s.backend = "auto" ∨ s.backend = "numpy" ∨ s.backend = "sklearn" ∨ s.backend = "faiss") ∧
    0 < s.chunkSize ∧ 0 < s.faissHnswM ∧ 0 < s.faissEfSearch ∧ 0 < s.faissEfConstruction ∧
    (s.weights.kind = "binary" ∨ (s.weights.kind = "heat" ∧ PositiveFloat s.weights.sigma) ∨
      (s.weights.kind = "cosine" ∧ s.metric = "cosine")) := by
  have hsch : s.validateScheme = .ok () ↔
      (s.scheme = "knn" ∧ PositiveInt s.k ∨ s.scheme = "epsilon" ∧ PositiveFloat s.radius ∨
       s.scheme = "anchor" ∧ PositiveInt s.k ∧ 0 < s.anchorsK ∧
        (s.nAnchors = .none ∨ PositiveInt s.nAnchors) ∧ 0 < s.candidateLimit ∧
        (s.anchorsMethod = "random" ∨ s.anchorsMethod = "kmeans")) := by
    unfold BuilderSpec.validateScheme
    by_cases h1 : s.scheme = "knn"
    · simp [h1, checkPositiveInt_ok]
    · by_cases h2 : s.scheme = "epsilon"
      · simp [h2, checkPositiveFloat_ok]
      · by_cases h3 : s.scheme = "anchor"
        · have : (if s.nAnchors = .none then Except.ok () else checkPositiveInt s.nAnchors) = .ok () ↔
              (s.nAnchors = .none ∨ PositiveInt s.nAnchors) := by
            split <;> simp_all [checkPositiveInt_ok]
          simp [h3, seq_ok, require_ok, checkPositiveInt_ok, this]
        · simp [h1, h2, h3]
  unfold BuilderSpec.validate
  simp only [seq_ok, require_ok, hsch, weights_ok]
  constructor
  · rintro ⟨h1, h2, h3, h4, h5, h6, h7, h8, h9, h10, h11⟩
    refine ⟨h1, ?_, h3, h4, h5, h6, h8, h9, h10, h11⟩
    rcases h2 with h | ⟨h, h'⟩ | h
    · exact .inl h
    · exact .inr (.inl ⟨h, h', fun hb => h7 ⟨hb, h⟩⟩)
    · exact .inr (.inr h)
  · rintro ⟨h1, h2, h3, h4, h5, h6, h8, h9, h10, h11⟩
    refine ⟨h1, ?_, h3, h4, h5, h6, ?_, h8, h9, h10, h11⟩
    · rcases h2 with h | ⟨h, h', -⟩ | h
      · exact .inl h
      · exact .inr (.inl ⟨h, h'⟩)
      · exact .inr (.inr h)
    · rintro ⟨hb, he⟩
      rcases h2 with ⟨h, -⟩ | ⟨-, -, h⟩ | ⟨h, -⟩
      · rw [he] at h; exact absurd h (by decide)
      · exact h hb
      · rw [he] at h; exact absurd h (by decide)

/-- **C47 (validation of featurizer specs).** -/
theorem C47_accepted_featurizer (s : FeaturizerSpec) : s.validate = .ok () ↔
    0 ≤ s.diffusionSteps ∧ (0 ≤ s.diffusionAlpha ∧ s.diffusionAlpha ≤ 1) ∧ s.views ≠ [] ∧
    (∀ v ∈ s.views, v = .str "attr" ∨ v = .str "diffusion" ∨ v = .str "struct") ∧
    (s.structMethod = "deepwalk" ∨ s.structMethod = "node2vec") ∧ 0 < s.structDim ∧
    1 < s.walkLength ∧ 0 < s.numWalks ∧ 0 < s.windowSize ∧ 0 < s.p ∧ 0 < s.q := by
  unfold FeaturizerSpec.validate
  simp only [seq_ok, require_ok]

/-- The default spec `GraphBuilderSpec()` (specs.py:78-107). -/
def defaultBuilderSpec : BuilderSpec :=
  ⟨"knn", "cosine", .int 30, .none, "mutual", ⟨"heat", .flt (1 / 2)⟩, "rw", true, "auto", 512,
    "features.X", .none, 5, "random", 1000, false, 32, 64, 200⟩

/-- The default `GraphFeaturizerSpec()` (specs.py:228-243). -/
def defaultFeaturizerSpec : FeaturizerSpec :=
  ⟨[.str "attr"], 5, 1 / 10, "deepwalk", 64, 40, 10, 5, 1, 1, true⟩

/-- Missing keys do not stand for the defaults of the class: the empty dictionary gives a spec without
`k` and with binary weights, which is rejected, whereas the default spec is accepted.  For featurizer
specs the empty dictionary gives the default spec. -/
theorem C47_empty_dict :
    (∃ s, BuilderSpec.fromDict [] = .ok s ∧ s.validate = .error .validation) ∧
    defaultBuilderSpec.validate = .ok () ∧
    FeaturizerSpec.fromDict [] = .ok defaultFeaturizerSpec ∧ defaultFeaturizerSpec.validate = .ok () := by
  refine ⟨⟨_, rfl, by decide +kernel⟩, by decide +kernel, by decide +kernel, by decide +kernel⟩

example : defaultBuilderSpec.Scalar ∧ defaultFeaturizerSpec.Scalar := by
  simp [BuilderSpec.Scalar, FeaturizerSpec.Scalar, defaultBuilderSpec, defaultFeaturizerSpec, IsScalar]

end ModSSC.Graph
