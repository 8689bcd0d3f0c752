import Verif.Bench.InjectModel
import Verif.Deep.BundleProps
import Mathlib.Data.Finset.Card

/-!
# C163: the networks a benchmark gives a method
-/

namespace ModSSC.Bench.Inject
open ModSSC ModSSC.Deep.Bundle ModSSC.Deep.Bundle.Spec

namespace Spec

/-- The fields a method's networks go to, by the fields its specification has. -/
def Targets (fields : List String) (r : List String) : Prop :=
  ("model_bundle" ∈ fields ∧ r = ["model_bundle"]) ∨
  ("model_bundle" ∉ fields ∧
    (("teacher_bundle" ∈ fields ∧ "student_bundle" ∈ fields ∧ r = ["student_bundle", "teacher_bundle"]) ∨
     (¬ ("teacher_bundle" ∈ fields ∧ "student_bundle" ∈ fields) ∧
      (("model_bundle_1" ∈ fields ∧ "model_bundle_2" ∈ fields ∧ r = ["model_bundle_1", "model_bundle_2"]) ∨
       (¬ ("model_bundle_1" ∈ fields ∧ "model_bundle_2" ∈ fields) ∧
        (("pretrain_bundle" ∈ fields ∧ "finetune_bundle" ∈ fields ∧ r = ["pretrain_bundle", "finetune_bundle"]) ∨
         (¬ ("pretrain_bundle" ∈ fields ∧ "finetune_bundle" ∈ fields) ∧ "shared_bundle" ∈ fields ∧
          "head_bundles" ∈ fields ∧ r = ["shared_bundle", "head_bundles", "head_bundles", "head_bundles"])))))))

/-- TriNet can use its networks: the shared network turns a batch into features and every head turns those into one score per
row and class. -/
def Usable (shared : Bundle) (heads : List Bundle) (classes : Nat) (row : List Nat) : Prop :=
  ∀ (n : Nat) (y : Tensor), y.shape = n :: row →
    ∃ f, forwardShared shared y = .ok f ∧ ∀ h ∈ heads, forwardHead h f = .ok [n, classes]

end Spec

open Spec

/-- The number of networks' outputs is the number of different labels. -/
theorem infer_card (y : List Int) : inferNumClasses y = y.toFinset.card := by
  unfold inferNumClasses
  rw [← List.toFinset_card_of_nodup (l := npUnique y) (nodup_npUnique y)]
  congr 1
  ext a
  simp [mem_npUnique]

variable {ext : Ext} {fields : List String} {cfg : ModelCfg} {strict : Bool} {X : Feats} {y : List Int} {mid : String}
  {seed : Int} {r : List (String × Bundle)}

theorem makeBundle_ok {off : Nat} {b : Bundle} (hf : cfg.factory = none)
    (h : makeBundle ext cfg strict X y mid seed off = .ok b) :
    ∃ id sample, cfg.classifierId = some id ∧ sampleOf strict X = .ok sample ∧
      build ext id cfg.classifierBackend cfg.params sample (some (inferNumClasses y : Int)) (seed + off)
        (emaOf cfg mid) = .ok b := by
  unfold makeBundle at h
  simp only [hf] at h
  rw [ebind_ok] at h
  obtain ⟨s, hs, h⟩ := h
  cases hid : cfg.classifierId with
  | none => simp only [hid] at h; exact absurd h (by simp)
  | some id =>
    simp only [hid] at h
    exact ⟨id, s, rfl, hs, h⟩

theorem twoBundles_ok {f1 f2 : String} (h : twoBundles ext cfg strict X y mid seed f1 f2 = .ok r) :
    ∃ a b, makeBundle ext cfg strict X y mid seed 0 = .ok a ∧ makeBundle ext cfg strict X y mid seed 1 = .ok b ∧
      r = [(f1, a), (f2, b)] := by
  unfold twoBundles at h
  rw [ebind_ok] at h
  obtain ⟨a, ha, h⟩ := h
  rw [ebind_ok] at h
  obtain ⟨b, hb, h⟩ := h
  injection h with h
  exact ⟨a, b, ha, hb, h.symm⟩

theorem trinetBundles_ok (h : trinetBundles ext cfg strict X y mid seed = .ok r) :
    cfg.factory = none ∧ ∃ shared x out h1 h2 h3, makeBundle ext cfg strict X y mid seed 0 = .ok shared ∧
      trinetSample X = .ok x ∧ shared.net.forward x = .ok out ∧
      makeHead ext cfg (headSample shared (headShape out)) (headId cfg) y seed 1 = .ok h1 ∧
      makeHead ext cfg (headSample shared (headShape out)) (headId cfg) y seed 2 = .ok h2 ∧
      makeHead ext cfg (headSample shared (headShape out)) (headId cfg) y seed 3 = .ok h3 ∧
      r = [("shared_bundle", shared), ("head_bundles", h1), ("head_bundles", h2), ("head_bundles", h3)] := by
  unfold trinetBundles at h
  cases hf : cfg.factory with
  | some z => simp only [hf] at h; exact absurd h (by simp)
  | none =>
    simp only [hf] at h
    rw [ebind_ok] at h
    obtain ⟨shared, hs, h⟩ := h
    rw [ebind_ok] at h
    obtain ⟨x, hx, h⟩ := h
    rw [ebind_ok] at h
    obtain ⟨out, ho, h⟩ := h
    rw [ebind_ok] at h
    obtain ⟨h1, hh1, h⟩ := h
    rw [ebind_ok] at h
    obtain ⟨h2, hh2, h⟩ := h
    rw [ebind_ok] at h
    obtain ⟨h3, hh3, h⟩ := h
    injection h with h
    exact ⟨rfl, shared, x, out, h1, h2, h3, hs, hx, ho, hh1, hh2, hh3, h.symm⟩

/-- What a successful injection did. -/
theorem inject_ok (h : inject ext (some fields) (some cfg) strict X y mid seed = .ok r) :
    (∃ b, makeBundle ext cfg strict X y mid seed 0 = .ok b ∧ r = [("model_bundle", b)] ∧ "model_bundle" ∈ fields) ∨
    (∃ a b f1 f2, makeBundle ext cfg strict X y mid seed 0 = .ok a ∧ makeBundle ext cfg strict X y mid seed 1 = .ok b ∧
      r = [(f1, a), (f2, b)] ∧ f1 ≠ "head_bundles" ∧ f2 ≠ "head_bundles" ∧ Targets fields [f1, f2]) ∨
    (trinetBundles ext cfg strict X y mid seed = .ok r ∧
      Targets fields ["shared_bundle", "head_bundles", "head_bundles", "head_bundles"]) := by
  unfold inject at h
  simp only [decide_eq_true_eq, Bool.and_eq_true] at h
  by_cases h1 : "model_bundle" ∈ fields
  · rw [if_pos h1, ebind_ok] at h
    obtain ⟨b, hb, h⟩ := h
    injection h with h
    exact .inl ⟨b, hb, h.symm, h1⟩
  rw [if_neg h1] at h
  by_cases h2 : "teacher_bundle" ∈ fields ∧ "student_bundle" ∈ fields
  · rw [if_pos h2] at h
    obtain ⟨a, b, ha, hb, rfl⟩ := twoBundles_ok h
    exact .inr (.inl ⟨a, b, _, _, ha, hb, rfl, by decide, by decide, .inr ⟨h1, .inl ⟨h2.1, h2.2, rfl⟩⟩⟩)
  rw [if_neg h2] at h
  by_cases h3 : "model_bundle_1" ∈ fields ∧ "model_bundle_2" ∈ fields
  · rw [if_pos h3] at h
    obtain ⟨a, b, ha, hb, rfl⟩ := twoBundles_ok h
    exact .inr (.inl ⟨a, b, _, _, ha, hb, rfl, by decide, by decide,
      .inr ⟨h1, .inr ⟨h2, .inl ⟨h3.1, h3.2, rfl⟩⟩⟩⟩)
  rw [if_neg h3] at h
  by_cases h4 : "pretrain_bundle" ∈ fields ∧ "finetune_bundle" ∈ fields
  · rw [if_pos h4] at h
    obtain ⟨a, b, ha, hb, rfl⟩ := twoBundles_ok h
    exact .inr (.inl ⟨a, b, _, _, ha, hb, rfl, by decide, by decide,
      .inr ⟨h1, .inr ⟨h2, .inr ⟨h3, .inl ⟨h4.1, h4.2, rfl⟩⟩⟩⟩⟩)
  rw [if_neg h4] at h
  by_cases h5 : "shared_bundle" ∈ fields ∧ "head_bundles" ∈ fields
  · rw [if_pos h5] at h
    exact .inr (.inr ⟨h, .inr ⟨h1, .inr ⟨h2, .inr ⟨h3, .inr ⟨h4, h5.1, h5.2, rfl⟩⟩⟩⟩⟩)
  rw [if_neg h5] at h
  exact absurd h (by simp)

/-- C163: without a model configuration the specification stays as it is. -/
theorem C163_untouched (ext : Ext) (spec : Option (List String)) (strict : Bool) (X : Feats) (y : List Int) (mid : String)
    (seed : Int) : inject ext spec none strict X y mid seed = .ok [] := rfl

/-- C163: the networks go exactly to the network fields of the method's specification. -/
theorem C163_fields (h : inject ext (some fields) (some cfg) strict X y mid seed = .ok r) :
    Targets fields (r.map (·.1)) := by
  rcases inject_ok h with ⟨b, _, rfl, h1⟩ | ⟨a, b, f1, f2, _, _, rfl, _, _, ht⟩ | ⟨ht, hT⟩
  · exact .inl ⟨h1, rfl⟩
  · exact ht
  · obtain ⟨_, _, _, _, _, _, _, _, _, _, _, _, _, rfl⟩ := trinetBundles_ok ht
    exact hT

/-- C163: a specification without a field for networks, no specification, and no classifier are refused; so are, in benchmark
mode, data that is not in torch, or not floating. -/
theorem C163_refused (h : (∃ fs, fields = fs ∧ ∀ t, ¬ Targets fs t) ∨
      (cfg.factory = none ∧ cfg.classifierId = none) ∨
      (cfg.factory = none ∧ strict = true ∧ ∀ x, X = .torch x ∨ (∃ e, X = .graph x e) → x.floating = false)) :
    (∃ e, inject ext (some fields) (some cfg) strict X y mid seed = .error e) ∧
      inject ext none (some cfg) strict X y mid seed = .error .runtimeError := by
  refine ⟨?_, rfl⟩
  cases hr : inject ext (some fields) (some cfg) strict X y mid seed with
  | error e => exact ⟨e, rfl⟩
  | ok r =>
    exfalso
    rcases h with ⟨fs, rfl, hno⟩ | ⟨hf, hid⟩ | ⟨hf, hs, hx⟩
    · exact hno _ (C163_fields hr)
    · have key : ∀ off b, makeBundle ext cfg strict X y mid seed off ≠ .ok b := by
        intro off b hb
        obtain ⟨id, _, h1, _⟩ := makeBundle_ok hf hb
        rw [hid] at h1
        cases h1
      rcases inject_ok hr with ⟨b, hb, _⟩ | ⟨a, b, _, _, ha, _⟩ | ⟨ht, _⟩
      · exact key _ _ hb
      · exact key _ _ ha
      · obtain ⟨_, _, _, _, _, _, _, hb, _⟩ := trinetBundles_ok ht
        exact key _ _ hb
    · have key : ∀ off b, makeBundle ext cfg strict X y mid seed off ≠ .ok b := by
        intro off b hb
        obtain ⟨id, s, _, h2, _⟩ := makeBundle_ok hf hb
        subst hs
        cases X with
        | numpy => simp [sampleOf] at h2
        | torch x => simp [sampleOf, hx x (.inl rfl)] at h2
        | graph x e => simp [sampleOf, hx x (.inr ⟨e, rfl⟩)] at h2
      rcases inject_ok hr with ⟨b, hb, _⟩ | ⟨a, b, _, _, ha, _⟩ | ⟨ht, _⟩
      · exact key _ _ hb
      · exact key _ _ ha
      · obtain ⟨_, _, _, _, _, _, _, hb, _⟩ := trinetBundles_ok ht
        exact key _ _ hb

/-- C163: the networks of a method have different seeds, counted up from the seed of the run. -/
theorem C163_seeds (h : inject ext (some fields) (some cfg) strict X y mid seed = .ok r) (hf : cfg.factory = none) :
    r.map (·.2.seed) = (List.range r.length).map (fun i => seed + (i : Int)) := by
  have key : ∀ off b, makeBundle ext cfg strict X y mid seed off = .ok b → b.seed = seed + off := by
    intro off b hb
    obtain ⟨id, s, _, _, h3⟩ := makeBundle_ok hf hb
    exact (C162_bundle h3).2.1
  have key2 : ∀ off s b, makeHead ext cfg s (headId cfg) y seed off = .ok b → b.seed = seed + off := by
    intro off s b hb
    exact (C162_bundle hb).2.1
  rcases inject_ok h with ⟨b, hb, rfl, h1⟩ | ⟨a, b, f1, f2, ha, hb, rfl, _⟩ | ⟨ht, hT⟩
  · simp [key _ _ hb, List.range_succ]
  · simp [key _ _ ha, key _ _ hb, List.range_succ]
  · obtain ⟨_, sh, x, out, b1, b2, b3, hs, _, _, hb1, hb2, hb3, rfl⟩ := trinetBundles_ok ht
    simp [key _ _ hs, key2 _ _ _ hb1, key2 _ _ _ hb2, key2 _ _ _ hb3, List.range_succ]

/-- C163: every network but TriNet's heads is the one the factory builds for the configured classifier, the labeled data and
as many classes as occur among the labels, with an averaged copy as configured (by default for Mean Teacher only). -/
theorem C163_networks (h : inject ext (some fields) (some cfg) strict X y mid seed = .ok r) (hf : cfg.factory = none)
    (f : String) (b : Bundle) (hm : (f, b) ∈ r) (hne : f ≠ "head_bundles") :
    ∃ id sample ema, cfg.classifierId = some id ∧ sampleOf strict X = .ok sample ∧
      (ema = true ↔ cfg.ema = some true ∨ (cfg.ema = none ∧ mid = "mean_teacher")) ∧
      build ext id cfg.classifierBackend cfg.params sample (some (y.toFinset.card : Int)) b.seed ema = .ok b := by
  have key : ∀ off b, makeBundle ext cfg strict X y mid seed off = .ok b →
      ∃ id sample ema, cfg.classifierId = some id ∧ sampleOf strict X = .ok sample ∧
      (ema = true ↔ cfg.ema = some true ∨ (cfg.ema = none ∧ mid = "mean_teacher")) ∧
      build ext id cfg.classifierBackend cfg.params sample (some (y.toFinset.card : Int)) b.seed ema = .ok b := by
    intro off b hb
    obtain ⟨id, s, h1, h2, h3⟩ := makeBundle_ok hf hb
    refine ⟨id, s, emaOf cfg mid, h1, h2, ?_, ?_⟩
    · unfold emaOf
      cases cfg.ema with
      | none => simp
      | some z => cases z <;> simp
    · rw [(C162_bundle h3).2.1, ← infer_card]
      exact h3
  rcases inject_ok h with ⟨b', hb, rfl, h1⟩ | ⟨a, b', f1, f2, ha, hb, rfl, _⟩ | ⟨ht, hT⟩
  · simp only [List.mem_singleton] at hm
    injection hm with _ hm
    subst hm
    exact key _ _ hb
  · simp only [List.mem_cons, List.not_mem_nil, or_false] at hm
    rcases hm with hm | hm
    · injection hm with _ hm
      subst hm
      exact key _ _ ha
    · injection hm with _ hm
      subst hm
      exact key _ _ hb
  · obtain ⟨_, sh, x, out, b1, b2, b3, hs, _, _, hb1, hb2, hb3, rfl⟩ := trinetBundles_ok ht
    simp only [List.mem_cons, List.not_mem_nil, or_false] at hm
    rcases hm with hm | hm | hm | hm
    · injection hm with _ hm
      subst hm
      exact key _ _ hs
    all_goals
      injection hm with hm _
      exact absurd hm hne

/-- C163, where the seeds end: a factory of the user's own is called without a seed, so a factory that depends on its
arguments only gives both networks of a method the same start. -/
theorem C163_factory_violated {b : Bundle} (hf : cfg.factory = some (.ok b))
    (h1 : "model_bundle" ∉ fields) (h2 : ¬ ("teacher_bundle" ∈ fields ∧ "student_bundle" ∈ fields))
    (h3 : "model_bundle_1" ∈ fields ∧ "model_bundle_2" ∈ fields) :
    inject ext (some fields) (some cfg) strict X y mid seed = .ok [("model_bundle_1", b), ("model_bundle_2", b)] := by
  have hb : ∀ off, makeBundle ext cfg strict X y mid seed off = .ok b := by
    intro off
    unfold makeBundle
    simp only [hf]
  unfold inject
  simp only [decide_eq_true_eq, Bool.and_eq_true]
  rw [if_neg h1, if_neg h2, if_pos h3]
  unfold twoBundles
  rw [ebind_of_ok (hb 0), ebind_of_ok (hb 1)]
  rfl

/-! ### TriNet -/

theorem headId_cases (cfg : ModelCfg) : headId cfg = "mlp" ∨ headId cfg = "logreg" := by
  unfold headId
  split
  · exact .inl rfl
  · exact .inr rfl
  · exact .inr rfl

/-- A head built for a batch of features scores any number of rows of such features. -/
theorem head_scores {s : Tensor} {m w off : Nat} {b : Bundle} (hs : s.shape = [m, w])
    (h : makeHead ext cfg s (headId cfg) y seed off = .ok b) (n : Nat) :
    forwardHead b [n, w] = .ok [n, y.toFinset.card] := by
  unfold makeHead at h
  rw [infer_card] at h
  obtain ⟨o, ho, hl⟩ := ((C162_dense (headId_cases cfg) h hs).2 rfl) n (headSample b [n, w]) rfl
  unfold forwardHead
  rw [ebind_of_ok ho]
  simp only [hl]
  rfl

/-- A head refuses features of another width. -/
theorem head_refuses {s : Tensor} {m w w' off n : Nat} {b : Bundle} (hs : s.shape = [m, w]) (hw : w' ≠ w)
    (h : makeHead ext cfg s (headId cfg) y seed off = .ok b) : ∃ e, forwardHead b [n, w'] = .error e := by
  unfold makeHead at h
  obtain ⟨_, h⟩ := build_dispatch h
  have hts := takeSample_shape hs
  have key : ∀ forced, buildMlp (takeSample s) (inferNumClasses y) cfg.params (seed + off) false forced
      cfg.params.returnFeatures = .ok b → ∃ e, forwardHead b [n, w'] = .error e := by
    intro forced hb
    obtain ⟨d, hs', ls, o, hd, hl, rfl⟩ := buildMlp_ok hb
    rw [hts] at hd
    have := inputDim_row hd
    subst this
    have hfail : ∀ t, runLayers (ls ++ [.linear o (inferNumClasses y)]) [n, w'] ≠ .ok t := by
      intro t ht
      cases hs' with
      | nil =>
        simp only [hiddenLayers] at hl
        injection hl with hl
        injection hl with h1 h2
        subst h1 h2
        simp only [List.nil_append, runLayers] at ht
        rw [ebind_ok] at ht
        obtain ⟨q, hq, _⟩ := ht
        have := (linear_ok hq).1
        simp at this
        exact hw this
      | cons z zs =>
        simp only [hiddenLayers] at hl
        by_cases hz : z ≤ 0
        · rw [if_pos hz] at hl; exact absurd hl (by simp)
        rw [if_neg hz, ebind_ok] at hl
        obtain ⟨a, _, hl⟩ := hl
        rw [ebind_ok] at hl
        obtain ⟨dr, _, hl⟩ := hl
        rw [ebind_ok] at hl
        obtain ⟨rr, _, hl⟩ := hl
        injection hl with hl
        injection hl with h1 _
        rw [← h1] at ht
        simp only [List.cons_append, runLayers] at ht
        rw [ebind_ok] at ht
        obtain ⟨q, hq, _⟩ := ht
        have := (linear_ok hq).1
        simp at this
        exact hw this
    cases hr : forwardHead
        ⟨if cfg.params.returnFeatures = true then Net.feat ls (.linear o (inferNumClasses y))
          else Net.seq (ls ++ [.linear o (inferNumClasses y)]),
        if false = true then some (if cfg.params.returnFeatures = true then Net.feat ls (.linear o (inferNumClasses y))
          else Net.seq (ls ++ [.linear o (inferNumClasses y)])) else none,
        seed + off, (takeSample s).device, .all, none⟩ [n, w'] with
    | error e => exact ⟨e, rfl⟩
    | ok t =>
      exfalso
      unfold forwardHead at hr
      rw [ebind_ok] at hr
      obtain ⟨out, hout, _⟩ := hr
      cases hrf : cfg.params.returnFeatures with
      | true =>
        simp only [hrf, if_true, Net.forward, headSample] at hout
        rw [ebind_ok] at hout
        obtain ⟨f, hf, hout⟩ := hout
        rw [ebind_ok] at hout
        obtain ⟨q, hq, hout⟩ := hout
        refine hfail q ?_
        rw [runLayers_append, ebind_of_ok hf]
        simp only [runLayers]
        rw [ebind_of_ok hq]
      | false =>
        simp only [hrf, Bool.false_eq_true, if_false, Net.forward, headSample] at hout
        rw [ebind_ok] at hout
        obtain ⟨q, hq, hout⟩ := hout
        exact hfail q hq
  rcases headId_cases cfg with hid | hid
  · rw [hid] at h
    simp only [dispatch, if_true] at h
    exact key _ h
  · rw [hid] at h
    simp only [dispatch, show ("logreg" = "mlp") = False from by simp, if_true, if_false] at h
    exact key _ h

/-- If the shared network returns a tensor, or a mapping with features, of one width for all batches, TriNet can use its
networks. -/
theorem usable_of_regular {shared h1 h2 h3 : Bundle} {out : Output} {x : Tensor} {m w : Nat} {row : List Nat}
    (hx : x.shape = m :: row) (hfe : shared.features = none)
    (hreg : ∀ (n : Nat) (z : Tensor), z.shape = n :: row → ∃ o, shared.net.forward (.tensor z) = .ok o ∧
      (o = .tensor [n, w] ∨ ∃ l, o = .mapping l [n, w]))
    (ho : shared.net.forward (.tensor (takeSample x)) = .ok out)
    (e1 : makeHead ext cfg (headSample shared (headShape out)) (headId cfg) y seed 1 = .ok h1)
    (e2 : makeHead ext cfg (headSample shared (headShape out)) (headId cfg) y seed 2 = .ok h2)
    (e3 : makeHead ext cfg (headSample shared (headShape out)) (headId cfg) y seed 3 = .ok h3) :
    Usable shared [h1, h2, h3] y.toFinset.card row := by
  obtain ⟨o, ho', hcase⟩ := hreg _ _ (takeSample_shape hx)
  rw [ho] at ho'
  injection ho' with ho'
  subst ho'
  have hsh : ∃ m', (headSample shared (headShape out)).shape = [m', w] := by
    rcases hcase with rfl | ⟨l, rfl⟩ <;> exact ⟨_, rfl⟩
  obtain ⟨m', hsh⟩ := hsh
  intro n z hz
  obtain ⟨o, ho2, hcase2⟩ := hreg n z hz
  refine ⟨[n, w], ?_, ?_⟩
  · unfold forwardShared
    simp only [hfe]
    rw [ebind_of_ok ho2]
    rcases hcase2 with rfl | ⟨l, rfl⟩ <;> rfl
  · intro b hb
    simp only [List.mem_cons, List.not_mem_nil, or_false] at hb
    rcases hb with rfl | rfl | rfl
    · exact head_scores hsh e1 n
    · exact head_scores hsh e2 n
    · exact head_scores hsh e3 n

/-- The outputs of the networks that return their scores alone. -/
theorem tensor_of_scores {net : Net} {k : Nat} {row : List Nat} (hS : Scores net k row)
    (hp : ∀ z o, net.forward (.tensor z) = .ok o → ∃ s, o = .tensor s) (n : Nat) (z : Tensor) (hz : z.shape = n :: row) :
    ∃ o, net.forward (.tensor z) = .ok o ∧ (o = .tensor [n, k] ∨ ∃ l, o = .mapping l [n, k]) := by
  obtain ⟨o, ho, hl⟩ := hS n z hz
  obtain ⟨s, rfl⟩ := hp z o ho
  simp only [Output.logits] at hl
  subst hl
  exact ⟨_, ho, .inl rfl⟩

/-- C163: TriNet can use the networks it is given when the shared network is dense (rows of features), a network for sound
(rows with channels) or for text (channels first).  Missing for the full claim: networks for images and for tokens, which
TriNet cannot use (`C163_trinet_image_violated`, `C163_trinet_tokens_violated`). -/
theorem C163_trinet_partial {id : String} {x : Tensor} {m : Nat} {row : List Nat}
    (h : inject ext (some fields) (some cfg) strict (.torch x) y mid seed = .ok r)
    (hT : Targets fields ["shared_bundle", "head_bundles", "head_bundles", "head_bundles"])
    (hid : cfg.classifierId = some id) (hx : x.shape = m :: row)
    (hkind : ((id = "mlp" ∨ id = "logreg") ∧ row.length = 1) ∨
      (id = "audio_cnn" ∧ (∃ c l, row = [c, l] ∧ 0 < c ∧ 0 < l) ∧ 1 ≤ cfg.params.kernelSize.getD 5 ∧
        ∀ q ∈ cfg.params.convChannels.getD [16, 32], 0 < q) ∨
      (id = "text_cnn" ∧ (∃ e l, row = [e, l] ∧ 0 < e) ∧ cfg.params.inputLayout = some "channels_first" ∧
        ∀ q ∈ cfg.params.kernelSizes.getD [3, 4, 5], 1 ≤ q)) :
    ∃ shared h1 h2 h3,
      r = [("shared_bundle", shared), ("head_bundles", h1), ("head_bundles", h2), ("head_bundles", h3)] ∧
      Usable shared [h1, h2, h3] y.toFinset.card row := by
  have ht : trinetBundles ext cfg strict (.torch x) y mid seed = .ok r := by
    rcases inject_ok h with ⟨b, _, rfl, h1⟩ | ⟨a, b, f1, f2, _, _, rfl, _, _, ht⟩ | ⟨ht, _⟩
    · exfalso
      rcases hT with ⟨_, h2⟩ | ⟨h2, _⟩
      · exact absurd h2 (by simp)
      · exact h2 h1
    · exfalso
      simp [Targets] at hT ht
      tauto
    · exact ht
  obtain ⟨hf, shared, x', out, h1, h2, h3, hs, hx', ho, e1, e2, e3, rfl⟩ := trinetBundles_ok ht
  refine ⟨shared, h1, h2, h3, rfl, ?_⟩
  injection hx' with hx'
  subst hx'
  obtain ⟨id', smp, hid', hsmp, hb⟩ := makeBundle_ok hf hs
  rw [hid] at hid'
  injection hid' with hid'
  subst hid'
  have : smp = x := by
    simp only [sampleOf] at hsmp
    split at hsmp
    · exact absurd hsmp (by simp)
    · injection hsmp with hsmp
      exact hsmp.symm
  subst this
  rcases hkind with ⟨hid2, hrow⟩ | ⟨rfl, ⟨c, l, rfl, hc, hl⟩, hk, hch⟩ | ⟨rfl, ⟨e, l, rfl, he⟩, hlay, hks⟩
  · have hfe : shared.features = none := by
      obtain ⟨_, hd⟩ := build_dispatch hb
      rcases hid2 with rfl | rfl
      · simp only [dispatch, if_true] at hd
        obtain ⟨_, _, _, _, _, _, rfl⟩ := buildMlp_ok hd
        rfl
      · simp only [dispatch, show ("logreg" = "mlp") = False from by simp, if_true, if_false] at hd
        obtain ⟨_, _, _, _, _, _, rfl⟩ := buildMlp_ok hd
        rfl
    cases hrf : cfg.params.returnFeatures with
    | true =>
      obtain ⟨d, rfl⟩ := List.length_eq_one_iff.1 hrow
      obtain ⟨_, w, _, _, hall⟩ := C162_dense_features hid2 hb hrf hx
      exact usable_of_regular hx hfe (fun n z hz => ⟨_, hall n z hz, .inr ⟨_, rfl⟩⟩) ho e1 e2 e3
    | false =>
      have hS := (C162_dense hid2 hb hx).2 hrow
      refine usable_of_regular hx hfe (tensor_of_scores hS ?_) ho e1 e2 e3
      intro z o hz
      obtain ⟨_, hd⟩ := build_dispatch hb
      have hform : ∃ ls, shared.net = .seq ls := by
        rcases hid2 with rfl | rfl
        · simp only [dispatch, if_true, hrf] at hd
          obtain ⟨_, _, _, _, _, _, rfl⟩ := buildMlp_ok hd
          exact ⟨_, rfl⟩
        · simp only [dispatch, show ("logreg" = "mlp") = False from by simp, if_true, if_false, hrf] at hd
          obtain ⟨_, _, _, _, _, _, rfl⟩ := buildMlp_ok hd
          exact ⟨_, rfl⟩
      obtain ⟨ls, hls⟩ := hform
      rw [hls] at hz
      simp only [Net.forward] at hz
      rw [ebind_ok] at hz
      obtain ⟨s, _, hz⟩ := hz
      injection hz with hz
      exact ⟨s, hz.symm⟩
  · have hS := C162_audio hb hx hc hk hch hl
    obtain ⟨_, hd⟩ := build_dispatch hb
    obtain ⟨_, _, _, _, _, _, _, _, _, rfl⟩ := buildAudioCnn_ok (dispatch_audio hd)
    refine usable_of_regular hx rfl (tensor_of_scores hS ?_) ho e1 e2 e3
    intro z o hz
    simp only [Net.forward] at hz
    rw [ebind_ok] at hz
    obtain ⟨_, _, hz⟩ := hz
    rw [ebind_ok] at hz
    obtain ⟨_, _, hz⟩ := hz
    rw [ebind_ok] at hz
    obtain ⟨_, _, hz⟩ := hz
    rw [ebind_ok] at hz
    obtain ⟨s, _, hz⟩ := hz
    injection hz with hz
    exact ⟨s, hz.symm⟩
  · have hS := C162_text hb hlay hx he hks (le_refl l)
    obtain ⟨_, hd⟩ := build_dispatch hb
    obtain ⟨_, _, _, _, _, _, _, rfl⟩ := buildTextCnn_ok (dispatch_text hd)
    refine usable_of_regular hx rfl (tensor_of_scores hS ?_) ho e1 e2 e3
    intro z o hz
    simp only [Net.forward] at hz
    rw [ebind_ok] at hz
    obtain ⟨s, _, hz⟩ := hz
    injection hz with hz
    exact ⟨s, hz.symm⟩

/-- C163, the failure: with a convolutional network for images TriNet's networks are built (see the example), but TriNet gets
no features out of the shared one for any batch. -/
theorem C163_trinet_image_violated {shared : Bundle}
    (h : inject ext (some fields) (some cfg) strict X y mid seed = .ok r) (hf : cfg.factory = none)
    (hid : cfg.classifierId = some "image_cnn") (hm : ("shared_bundle", shared) ∈ r) (z : Tensor) :
    ∃ e, forwardShared shared z = .error e := by
  obtain ⟨id, s, ema, h1, _, _, hb⟩ := C163_networks h hf _ _ hm (by decide)
  rw [hid] at h1
  injection h1 with h1
  subst h1
  obtain ⟨_, hd⟩ := build_dispatch hb
  obtain ⟨_, _, _, ls, head, _, _, _, _, hB⟩ := buildImageCnn_ok (dispatch_image hd)
  have hfe : shared.features = none := by rw [hB]
  have hnet : shared.net = .cnn ls .pool2 head true := by rw [hB]
  unfold forwardShared
  simp only [hfe]
  cases ho : shared.net.forward (.tensor z) with
  | error e => exact ⟨e, rfl⟩
  | ok o =>
    refine ⟨.validation, ?_⟩
    rw [ebind_of_ok rfl]
    have : ∃ a b, o = .pair a b := by
      rw [hnet] at ho
      simp only [Net.forward] at ho
      rw [ebind_ok] at ho
      obtain ⟨_, _, ho⟩ := ho
      rw [ebind_ok] at ho
      obtain ⟨_, _, ho⟩ := ho
      rw [ebind_ok] at ho
      obtain ⟨f, _, ho⟩ := ho
      rw [ebind_ok] at ho
      obtain ⟨s, _, ho⟩ := ho
      injection ho with ho
      exact ⟨s, f, ho.symm⟩
    obtain ⟨a, b, rfl⟩ := this
    rfl

/-- C163, the failure: with a recurrent network TriNet's heads are built for its scores, but used on its hidden state: unless
the two happen to have the same width, every head refuses every batch. -/
theorem C163_trinet_tokens_violated {shared hb : Bundle} {x : Tensor} {m l : Nat}
    (h : inject ext (some fields) (some cfg) strict (.torch x) y mid seed = .ok r) (hf : cfg.factory = none)
    (hid : cfg.classifierId = some "lstm_scratch") (hx : x.shape = [m, l])
    (hm : ("shared_bundle", shared) ∈ r) (hm2 : ("head_bundles", hb) ∈ r)
    (hw : ∀ w, lstmHidden cfg.params = .ok w →
      (if cfg.params.bidirectional.getD true then 2 * w else w) ≠ (y.toFinset.card : Int))
    {n l' : Nat} {z : Tensor} (hz : z.shape = [n, l']) {f : List Nat} (hsf : forwardShared shared z = .ok f) :
    ∃ e, forwardHead hb f = .error e := by
  have ht : trinetBundles ext cfg strict (.torch x) y mid seed = .ok r := by
    rcases inject_ok h with ⟨b, _, rfl, h1⟩ | ⟨a, b, f1, f2, _, _, rfl, n1, n2, ht⟩ | ⟨ht, _⟩
    · simp at hm
    · exfalso
      simp only [List.mem_cons, List.not_mem_nil, or_false, Prod.mk.injEq] at hm2
      rcases hm2 with ⟨h1, _⟩ | ⟨h1, _⟩
      · exact n1 h1.symm
      · exact n2 h1.symm
    · exact ht
  obtain ⟨_, shared', x', out, h1, h2, h3, hs, hx', ho, e1, e2, e3, rfl⟩ := trinetBundles_ok ht
  have : shared = shared' := by simpa using hm
  subst this
  injection hx' with hx'
  subst hx'
  obtain ⟨id', smp, hid', hsmp, hbuild⟩ := makeBundle_ok hf hs
  rw [hid] at hid'
  injection hid' with hid'
  subst hid'
  obtain ⟨_, hd⟩ := build_dispatch hbuild
  obtain ⟨v, e, hdn, _, _, hhd, _, hnet, _, _, _, _, hfeat⟩ := buildLstm_ok (dispatch_lstm hd)
  have hwid := hw _ hhd
  -- what the heads were built for
  have hout : ∃ m', headShape out = [m', inferNumClasses y] := by
    rw [hnet] at ho
    simp only [Net.forward] at ho
    rw [ebind_ok] at ho
    obtain ⟨hst, hhs, ho⟩ := ho
    rw [ebind_ok] at ho
    obtain ⟨s, hss, ho⟩ := ho
    injection ho with ho
    have hlen : hst.length = 2 := by
      unfold lstmFeatures at hhs
      rw [ebind_ok] at hhs
      obtain ⟨em, hem, hhs⟩ := hhs
      unfold embedded isEmbedded at hem
      rw [takeSample_shape hx, if_neg (by simp)] at hem
      split at hem
      · injection hem with hem
        rw [← hem] at hhs
        simp only [List.cons_append, List.nil_append, lstmState] at hhs
        split at hhs
        · injection hhs with hhs; rw [← hhs]; rfl
        · exact absurd hhs (by simp)
      · exact absurd hem (by simp)
    obtain ⟨a, b, rfl⟩ := List.length_eq_two.1 hlen
    obtain ⟨_, rfl⟩ := linear_ok hss
    refine ⟨a, ?_⟩
    rw [← ho]
    cases cfg.params.returnFeatures <;> rfl
  obtain ⟨m', hout⟩ := hout
  -- what they are used on
  have hf2 : ∃ w', f = [n, w'] ∧ (w' : Int) = (if cfg.params.bidirectional.getD true then 2 * (hdn : Int) else hdn) := by
    unfold forwardShared at hsf
    simp only [hfeat] at hsf
    unfold lstmFeatures at hsf
    rw [ebind_ok] at hsf
    obtain ⟨em, hem, hsf⟩ := hsf
    unfold embedded isEmbedded at hem
    rw [hz, if_neg (by simp)] at hem
    split at hem
    · injection hem with hem
      rw [← hem] at hsf
      simp only [List.cons_append, List.nil_append, lstmState] at hsf
      split at hsf
      · injection hsf with hsf
        refine ⟨_, hsf.symm, ?_⟩
        split <;> simp
      · exact absurd hsf (by simp)
    · exact absurd hem (by simp)
  obtain ⟨w', rfl, hw'⟩ := hf2
  have hne : w' ≠ inferNumClasses y := by
    rw [infer_card]
    intro heq
    rw [heq] at hw'
    exact hwid hw'.symm
  have hsh : (headSample shared (headShape out)).shape = [m', inferNumClasses y] := hout
  simp only [List.mem_cons, List.not_mem_nil, or_false, Prod.mk.injEq] at hm2
  rcases hm2 with ⟨hc, _⟩ | ⟨_, rfl⟩ | ⟨_, rfl⟩ | ⟨_, rfl⟩
  · exact absurd hc (by decide)
  · exact head_refuses hsh hne e1
  · exact head_refuses hsh hne e2
  · exact head_refuses hsh hne e3

/-! ### The hypotheses are met -/

/-- What an injection gives: per field the seed, whether there is an averaged copy, and the outputs for a batch. -/
def summary (spec : List String) (cfg : ModelCfg) (strict : Bool) (X : Feats) (y : List Int) (mid : String) (z : Tensor) :
    List (String × Int × Bool × List Nat) :=
  ((inject noExt (some spec) (some cfg) strict X y mid 100).map
    (fun r => r.map (fun fb => (fb.1, fb.2.seed, fb.2.ema.isSome, ((fb.2.net.forward (.tensor z)).map Output.logits).toOption.getD [])))).toOption.getD []

/-- Two networks with three outputs for three labels, and the averaged copy of Mean Teacher. -/
example : summary ["teacher_bundle", "student_bundle"] { classifierId := some "mlp" } true (.torch (batch [6, 4]))
      [0, 5, 0, 2, 2, 5] "meta_pseudo_labels" (batch [7, 4]) =
      [("student_bundle", 100, false, [7, 3]), ("teacher_bundle", 101, false, [7, 3])] ∧
    summary ["model_bundle"] { classifierId := some "logreg" } true (.torch (batch [6, 4])) [0, 1, 0, 1, 0, 1]
      "mean_teacher" (batch [7, 4]) = [("model_bundle", 100, true, [7, 2])] := by
  decide +kernel

/-- TriNet with dense networks, with a network for images and with a recurrent network: all are built. -/
example :
    ((inject noExt (some ["shared_bundle", "head_bundles"]) (some { classifierId := some "mlp" }) true
      (.torch (batch [6, 4])) [0, 1, 2, 0, 1, 2] "trinet" 0).map (fun r => r.map (·.1))).toOption =
      some ["shared_bundle", "head_bundles", "head_bundles", "head_bundles"] ∧
    ((inject noExt (some ["shared_bundle", "head_bundles"]) (some { classifierId := some "image_cnn" }) true
      (.torch (batch [6, 1, 8, 8])) [0, 1, 2, 0, 1, 2] "trinet" 0).map (fun r => r.map (·.1))).toOption =
      some ["shared_bundle", "head_bundles", "head_bundles", "head_bundles"] ∧
    ((inject noExt (some ["shared_bundle", "head_bundles"])
      (some { classifierId := some "lstm_scratch", params := { vocabSize := some 9 } }) false
      (.torch ⟨[2, 3], false, [1, 2, 3, 7, 1, 1], "cpu"⟩) [0, 1] "trinet" 0).map (fun r => r.map (·.1))).toOption =
      some ["shared_bundle", "head_bundles", "head_bundles", "head_bundles"] := by
  decide +kernel

/-- The hidden state of the recurrent network is wider than its two scores. -/
example : ∀ w, lstmHidden { vocabSize := some 9 } = .ok w →
    (if (none : Option Bool).getD true then 2 * w else w) ≠ ([0, 1] : List Int).toFinset.card := by
  intro w hw
  injection hw with hw
  subst hw
  decide

end ModSSC.Bench.Inject
