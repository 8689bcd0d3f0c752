import Verif.Preprocess.Model
import Verif.Preprocess.Spec
import Verif.ExceptLemmas

/-!
# Plan resolution (C32)
-/

namespace ModSSC.Preprocess
open ModSSC Spec

variable {V P S : Type}

theorem mem_keys_set {β : Type} {d : List (String × β)} {k k' : String} {v : β} :
    k' ∈ Assoc.keys (Assoc.set d k v) ↔ k' = k ∨ k' ∈ Assoc.keys d := by
  rw [Assoc.keys_set]
  split
  · rename_i h
    constructor
    · exact Or.inr
    · rintro (h' | h')
      · rw [h']; exact h
      · exact h'
  · simp [or_comm]

theorem mem_keys_setMasks {ms : List (String × V)} : ∀ {s : Store V} {k : String},
    k ∈ Assoc.keys (setMasks s ms) ↔ k ∈ Assoc.keys s ∨ ∃ p ∈ ms, k = "graph.mask." ++ p.1 := by
  induction ms with
  | nil => intro s k; simp [setMasks]
  | cons p ms ih =>
    intro s k
    obtain ⟨m, v⟩ := p
    rw [setMasks, ih, mem_keys_set]
    simp only [List.mem_cons, exists_eq_or_imp]
    tauto

theorem mem_initialStore {sp : Split V} {k : String} :
    k ∈ Assoc.keys (initialStore sp) ↔ SplitField sp k := by
  unfold initialStore SplitField
  have h0 : ∀ k, k ∈ Assoc.keys (Assoc.set (Assoc.set ([] : Store V) "raw.X" sp.X) "raw.y" sp.y) ↔
      k = "raw.X" ∨ k = "raw.y" := by
    intro k
    rw [mem_keys_set, mem_keys_set]
    simp [Assoc.keys, or_comm]
  cases he : sp.edges <;> cases hm : sp.masks <;>
    simp only [mem_keys_setMasks, mem_keys_set, h0] <;> simp <;> tauto

theorem mem_initialFields {ds : Dataset V} {k : String} :
    k ∈ initialFields ds ↔ InitialField ds k := by
  unfold initialFields InitialField
  rw [List.mem_append, mem_initialStore]
  cases ds.test <;> simp [mem_initialStore]

/-- The step is taken when these fields are available. -/
def Takes (spec : String → Option StepSpec) (modality : String) (fields : String → Prop)
    (c : StepConfig P) : Prop :=
  c.enabled = true ∧ ∃ sp, spec c.stepId = some sp ∧ ModalityOk modality c sp ∧
    ∀ k ∈ c.requires, fields k

/-- The recorded reason is the right one. -/
def ReasonOk (spec : String → Option StepSpec) (modality : String) (fields : String → Prop)
    (c : StepConfig P) : SkipReason → Prop
  | .disabled => c.enabled = false
  | .modality _ => c.enabled = true ∧ ∃ sp, spec c.stepId = some sp ∧ ¬ ModalityOk modality c sp
  | .missing l => c.enabled = true ∧ l ≠ [] ∧ (∃ sp, spec c.stepId = some sp ∧
      ModalityOk modality c sp) ∧ ∀ k, k ∈ l ↔ k ∈ c.requires ∧ ¬ fields k

theorem modalityOk_iff {modality : String} {c : StepConfig P} {sp : StepSpec} :
    ¬ (¬ (if c.modalities.isEmpty then sp.modalities else c.modalities).isEmpty ∧ modality ≠ "" ∧
      modality ∉ (if c.modalities.isEmpty then sp.modalities else c.modalities)) ↔
      ModalityOk modality c sp := by
  unfold ModalityOk
  cases hc : c.modalities with
  | nil =>
    cases hs : sp.modalities with
    | nil => simp
    | cons a l => simp; tauto
  | cons a l => simp; tauto

theorem resolveLoop_cons {spec : String → Option StepSpec} {modality : String} {i : Nat}
    {fields : List String} {c : StepConfig P} {rest : List (StepConfig P)}
    {res : List (ResolvedStep P)} {skp : List SkippedStep}
    (h : resolveLoop spec modality i fields (c :: rest) = .ok (res, skp)) :
    (∃ reason skp', ¬ Takes spec modality (· ∈ fields) c ∧
        ReasonOk spec modality (· ∈ fields) c reason ∧
        resolveLoop spec modality (i + 1) fields rest = .ok (res, skp') ∧
        skp = ⟨c.stepId, reason, i⟩ :: skp') ∨
    (∃ sp res', Takes spec modality (· ∈ fields) c ∧ spec c.stepId = some sp ∧
        resolveLoop spec modality (i + 1) (fields ++ sp.produces) rest = .ok (res', skp) ∧
        res = ⟨c.stepId, c.params, i, sp⟩ :: res') := by
  have hmap : ∀ {α β : Type} {x : Except PyErr α} {f : α → β} {b : β},
      x.map f = .ok b → ∃ a, x = .ok a ∧ f a = b := by
    intro α β x f b h
    cases x with
    | error e => simp [Except.map] at h
    | ok a => simp only [Except.map, Except.ok.injEq] at h; exact ⟨a, rfl, h⟩
  rw [resolveLoop] at h
  by_cases hen : c.enabled = false
  · rw [if_pos hen] at h
    obtain ⟨⟨r, k⟩, hr, he⟩ := hmap h
    simp only [Prod.mk.injEq] at he
    obtain ⟨rfl, rfl⟩ := he
    exact .inl ⟨.disabled, k, fun ht => by simp [ht.1] at hen, hen, hr, rfl⟩
  · rw [if_neg hen] at h
    have hen' : c.enabled = true := by simpa using hen
    cases hsp : spec c.stepId with
    | none => rw [hsp] at h; simp at h
    | some sp =>
      rw [hsp] at h
      simp only at h
      by_cases hm : ¬ (if c.modalities.isEmpty then sp.modalities else c.modalities).isEmpty ∧
          modality ≠ "" ∧
          modality ∉ (if c.modalities.isEmpty then sp.modalities else c.modalities)
      · rw [if_pos hm] at h
        obtain ⟨⟨r, k⟩, hr, he⟩ := hmap h
        simp only [Prod.mk.injEq] at he
        obtain ⟨rfl, rfl⟩ := he
        have hn : ¬ ModalityOk modality c sp := fun h' => (modalityOk_iff.mpr h') hm
        refine .inl ⟨.modality _, k, ?_, ⟨hen', sp, hsp, hn⟩, hr, rfl⟩
        rintro ⟨-, sp', hsp', hok, -⟩
        rw [hsp, Option.some.injEq] at hsp'
        subst hsp'
        exact hn hok
      · rw [if_neg hm] at h
        have hok := modalityOk_iff.mp hm
        by_cases hmiss : ¬ (c.requires.filter (fun k => decide (k ∉ fields))).isEmpty
        · rw [if_pos hmiss] at h
          obtain ⟨⟨r, k⟩, hr, he⟩ := hmap h
          simp only [Prod.mk.injEq] at he
          obtain ⟨rfl, rfl⟩ := he
          refine .inl ⟨.missing _, k, ?_, ⟨hen', ?_, ⟨sp, hsp, hok⟩, ?_⟩, hr, rfl⟩
          · rintro ⟨-, -, -, -, hreq⟩
            apply hmiss
            rw [List.isEmpty_iff, List.filter_eq_nil_iff]
            intro k hk
            simpa using hreq k hk
          · intro hnil
            apply hmiss
            rw [List.isEmpty_iff]
            exact hnil
          · intro k; simp [List.mem_filter]
        · rw [if_neg hmiss] at h
          obtain ⟨⟨r, k⟩, hr, he⟩ := hmap h
          simp only [Prod.mk.injEq] at he
          obtain ⟨rfl, rfl⟩ := he
          refine .inr ⟨sp, r, ⟨hen', sp, hsp, hok, ?_⟩, rfl, hr, rfl⟩
          intro k hk
          by_contra hkf
          apply hmiss
          rw [List.isEmpty_iff]
          intro hnil
          have : k ∈ c.requires.filter (fun k => decide (k ∉ fields)) := by
            simp [List.mem_filter, hk, hkf]
          rw [hnil] at this
          simp at this

/-- What the loop computes, relative to its starting index and fields. -/
theorem resolveLoop_spec {spec : String → Option StepSpec} {modality : String}
    {cs : List (StepConfig P)} : ∀ {i : Nat} {fields : List String}
    {res : List (ResolvedStep P)} {skp : List SkippedStep},
    resolveLoop spec modality i fields cs = .ok (res, skp) →
    (res.map (·.index)).Pairwise (· < ·) ∧ (∀ s ∈ res, i ≤ s.index) ∧
    (skp.map (·.index)).Pairwise (· < ·) ∧ (∀ s ∈ skp, i ≤ s.index) ∧
    (res.map (·.index) ++ skp.map (·.index)).Perm (List.range' i cs.length) ∧
    (∀ s ∈ res, ∃ c, cs[s.index - i]? = some c ∧ s.stepId = c.stepId ∧ s.params = c.params ∧
      spec c.stepId = some s.spec) ∧
    (∀ j c, cs[j]? = some c → ((∃ s ∈ res, s.index = i + j) ↔
      Takes spec modality (fun k => k ∈ fields ∨ ∃ s ∈ res, s.index < i + j ∧
        k ∈ s.spec.produces) c)) ∧
    (∀ s ∈ skp, ∃ c, cs[s.index - i]? = some c ∧ s.stepId = c.stepId ∧
      ReasonOk spec modality (fun k => k ∈ fields ∨ ∃ s' ∈ res, s'.index < s.index ∧
        k ∈ s'.spec.produces) c s.reason) := by
  induction cs with
  | nil =>
    intro i fields res skp h
    simp only [resolveLoop, Except.ok.injEq, Prod.mk.injEq] at h
    obtain ⟨rfl, rfl⟩ := h
    simp
  | cons c rest ih =>
    intro i fields res skp h
    rcases resolveLoop_cons h with ⟨reason, skp', hnt, hreason, hr, rfl⟩ | ⟨sp, res', ht, hsp, hr, rfl⟩
    · obtain ⟨h1, h2, h3, h4, h5, h6, h7, h8⟩ := ih hr
      have hnone : ∀ k, (k ∈ fields ∨ ∃ s ∈ res, s.index < i ∧ k ∈ s.spec.produces) ↔
          k ∈ fields := by
        intro k
        refine ⟨?_, Or.inl⟩
        rintro (h | ⟨s, hs, hlt, -⟩)
        · exact h
        · have := h2 s hs; omega
      refine ⟨h1, fun s hs => by have := h2 s hs; omega, ?_, ?_, ?_, ?_, ?_, ?_⟩
      · simp only [List.map_cons, List.pairwise_cons]
        refine ⟨?_, h3⟩
        intro a ha
        obtain ⟨s, hs, rfl⟩ := List.mem_map.mp ha
        have := h4 s hs; omega
      · intro s hs
        rcases List.mem_cons.mp hs with rfl | hs
        · exact Nat.le_refl _
        · have := h4 s hs; omega
      · simp only [List.map_cons, List.length_cons, List.range'_succ]
        exact (List.perm_middle).trans (h5.cons i)
      · intro s hs
        obtain ⟨c', hc', hrest⟩ := h6 s hs
        have hge := h2 s hs
        have : s.index - i = (s.index - (i + 1)) + 1 := by omega
        exact ⟨c', by rw [this, List.getElem?_cons_succ]; exact hc', hrest⟩
      · intro j c' hc'
        cases j with
        | zero =>
          simp only [List.getElem?_cons_zero, Option.some.injEq] at hc'
          subst hc'
          constructor
          · rintro ⟨s, hs, he⟩
            have := h2 s hs; omega
          · intro ht
            refine absurd ?_ hnt
            obtain ⟨a, sp, b, d, e⟩ := ht
            exact ⟨a, sp, b, d, fun k hk => (hnone k).mp (e k hk)⟩
        | succ j =>
          simp only [List.getElem?_cons_succ] at hc'
          have := h7 j c' hc'
          rw [show i + (j + 1) = i + 1 + j by omega]
          exact this
      · intro s hs
        rcases List.mem_cons.mp hs with rfl | hs
        · refine ⟨c, by simp, rfl, ?_⟩
          have hfun : (fun k => k ∈ fields ∨ ∃ s' ∈ res, s'.index < i ∧ k ∈ s'.spec.produces) =
              (· ∈ fields) := by funext k; exact propext (hnone k)
          simp only [hfun]
          exact hreason
        · obtain ⟨c', hc', hrest⟩ := h8 s hs
          have hge := h4 s hs
          have : s.index - i = (s.index - (i + 1)) + 1 := by omega
          exact ⟨c', by rw [this, List.getElem?_cons_succ]; exact hc', hrest⟩
    · obtain ⟨h1, h2, h3, h4, h5, h6, h7, h8⟩ := ih hr
      have hshift : ∀ (n : Nat), i < n → ∀ k,
          (k ∈ fields ++ sp.produces ∨ ∃ s ∈ res', s.index < n ∧ k ∈ s.spec.produces) ↔
          (k ∈ fields ∨ ∃ s ∈ ((⟨c.stepId, c.params, i, sp⟩ : ResolvedStep P) :: res'), s.index < n ∧
            k ∈ s.spec.produces) := by
        intro n hn k
        simp only [List.mem_append, List.mem_cons, exists_eq_or_imp]
        constructor
        · rintro ((h | h) | h)
          · exact .inl h
          · exact .inr (.inl ⟨hn, h⟩)
          · exact .inr (.inr h)
        · rintro (h | ⟨-, h⟩ | h)
          · exact .inl (.inl h)
          · exact .inl (.inr h)
          · exact .inr h
      refine ⟨?_, ?_, h3, fun s hs => by have := h4 s hs; omega, ?_, ?_, ?_, ?_⟩
      · simp only [List.map_cons, List.pairwise_cons]
        refine ⟨?_, h1⟩
        intro a ha
        obtain ⟨s, hs, rfl⟩ := List.mem_map.mp ha
        have := h2 s hs; omega
      · intro s hs
        rcases List.mem_cons.mp hs with rfl | hs
        · exact Nat.le_refl _
        · have := h2 s hs; omega
      · simp only [List.map_cons, List.length_cons, List.range'_succ, List.cons_append]
        exact h5.cons i
      · intro s hs
        rcases List.mem_cons.mp hs with rfl | hs
        · exact ⟨c, by simp, rfl, rfl, hsp⟩
        · obtain ⟨c', hc', hrest⟩ := h6 s hs
          have hge := h2 s hs
          have : s.index - i = (s.index - (i + 1)) + 1 := by omega
          exact ⟨c', by rw [this, List.getElem?_cons_succ]; exact hc', hrest⟩
      · intro j c' hc'
        cases j with
        | zero =>
          simp only [List.getElem?_cons_zero, Option.some.injEq] at hc'
          subst hc'
          constructor
          · intro _
            obtain ⟨a, sp', b, d, e⟩ := ht
            exact ⟨a, sp', b, d, fun k hk => .inl (e k hk)⟩
          · intro _
            exact ⟨_, List.mem_cons_self, rfl⟩
        | succ j =>
          simp only [List.getElem?_cons_succ] at hc'
          have := h7 j c' hc'
          rw [show i + (j + 1) = i + 1 + j by omega]
          have hfun : (fun k => k ∈ fields ∨
              ∃ s ∈ ((⟨c.stepId, c.params, i, sp⟩ : ResolvedStep P) :: res'), s.index < i + 1 + j ∧
                k ∈ s.spec.produces) =
              (fun k => k ∈ fields ++ sp.produces ∨ ∃ s ∈ res', s.index < i + 1 + j ∧
                k ∈ s.spec.produces) := by
            funext k; exact propext (hshift _ (by omega) k).symm
          rw [hfun, ← this]
          constructor
          · rintro ⟨s, hs, he⟩
            rcases List.mem_cons.mp hs with rfl | hs
            · exfalso; simp only at he; omega
            · exact ⟨s, hs, he⟩
          · rintro ⟨s, hs, he⟩
            exact ⟨s, List.mem_cons_of_mem _ hs, he⟩
      · intro s hs
        obtain ⟨c', hc', hid, hreason⟩ := h8 s hs
        have hge := h4 s hs
        have : s.index - i = (s.index - (i + 1)) + 1 := by omega
        refine ⟨c', by rw [this, List.getElem?_cons_succ]; exact hc', hid, ?_⟩
        have hfun : (fun k => k ∈ fields ∨
            ∃ s' ∈ ((⟨c.stepId, c.params, i, sp⟩ : ResolvedStep P) :: res'), s'.index < s.index ∧
              k ∈ s'.spec.produces) =
            (fun k => k ∈ fields ++ sp.produces ∨ ∃ s' ∈ res', s'.index < s.index ∧
              k ∈ s'.spec.produces) := by
          funext k; exact propext (hshift _ (by omega) k).symm
        rw [hfun]
        exact hreason

/-- **C32 (exactly the applicable steps, in plan order).**  When resolution succeeds, every plan
step is either resolved or skipped, both lists are in plan order, a resolved step carries the id and
parameters of its plan step and the registered specification, and step `i` is resolved if and only
if it is enabled, its modality is admitted and every required field is an initial field or declared
by an earlier resolved step. -/
theorem C32_resolve {spec : String → Option StepSpec} {ds : Dataset V} {plan : Plan P}
    {res : List (ResolvedStep P)} {skp : List SkippedStep}
    (h : resolvePlan spec ds plan = .ok (res, skp)) :
    (res.map (·.index)).Pairwise (· < ·) ∧ (skp.map (·.index)).Pairwise (· < ·) ∧
    (res.map (·.index) ++ skp.map (·.index)).Perm (List.range plan.steps.length) ∧
    (∀ s ∈ res, ∃ c, plan.steps[s.index]? = some c ∧ s.stepId = c.stepId ∧ s.params = c.params ∧
      spec c.stepId = some s.spec) ∧
    (∀ i c, plan.steps[i]? = some c → ((∃ s ∈ res, s.index = i) ↔
      c.enabled = true ∧ ∃ sp, spec c.stepId = some sp ∧ ModalityOk ds.modality c sp ∧
        ∀ k ∈ c.requires, InitialField ds k ∨ ∃ s ∈ res, s.index < i ∧ k ∈ s.spec.produces)) := by
  obtain ⟨h1, -, h3, -, h5, h6, h7, -⟩ := resolveLoop_spec h
  refine ⟨h1, h3, by rwa [List.range_eq_range'], fun s hs => by simpa using h6 s hs, ?_⟩
  intro i c hc
  have := h7 i c hc
  simp only [Nat.zero_add] at this
  rw [this]
  unfold Takes
  simp only [mem_initialFields]

/-- **C32 (the reported reasons are true).**  A skipped step is reported under its own id and
index: `disabled` if it is, a modality mismatch if the modality is not admitted, and otherwise the
exact list of required fields that were unavailable. -/
theorem C32_skip_reasons {spec : String → Option StepSpec} {ds : Dataset V} {plan : Plan P}
    {res : List (ResolvedStep P)} {skp : List SkippedStep}
    (h : resolvePlan spec ds plan = .ok (res, skp)) {s : SkippedStep} (hs : s ∈ skp) :
    ∃ c, plan.steps[s.index]? = some c ∧ s.stepId = c.stepId ∧
      match s.reason with
      | .disabled => c.enabled = false
      | .modality _ => c.enabled = true ∧ ∃ sp, spec c.stepId = some sp ∧
          ¬ ModalityOk ds.modality c sp
      | .missing l => c.enabled = true ∧ l ≠ [] ∧ (∃ sp, spec c.stepId = some sp ∧
          ModalityOk ds.modality c sp) ∧
          ∀ k, k ∈ l ↔ k ∈ c.requires ∧ ¬ (InitialField ds k ∨
            ∃ s' ∈ res, s'.index < s.index ∧ k ∈ s'.spec.produces) := by
  obtain ⟨-, -, -, -, -, -, -, h8⟩ := resolveLoop_spec h
  obtain ⟨c, hc, hid, hr⟩ := h8 s hs
  refine ⟨c, by simpa using hc, hid, ?_⟩
  cases hreason : s.reason with
  | disabled => rw [hreason] at hr; exact hr
  | modality l => rw [hreason] at hr; exact hr
  | missing l =>
    rw [hreason] at hr
    simp only [ReasonOk, mem_initialFields] at hr
    exact hr

theorem resolveLoop_error {spec : String → Option StepSpec} {modality : String}
    {cs : List (StepConfig P)} : ∀ {i : Nat} {fields : List String} {e : PyErr},
    resolveLoop spec modality i fields cs = .error e ↔
      e = .validation ∧ ∃ c ∈ cs, c.enabled = true ∧ spec c.stepId = none := by
  have hmap : ∀ {α β : Type} {x : Except PyErr α} {f : α → β} {e : PyErr},
      x.map f = .error e ↔ x = .error e := by
    intro α β x f e
    cases x <;> simp [Except.map]
  induction cs with
  | nil => intro i fields e; simp [resolveLoop]
  | cons c rest ih =>
    intro i fields e
    rw [resolveLoop]
    by_cases hen : c.enabled = false
    · rw [if_pos hen, hmap, ih]
      simp [hen]
    · rw [if_neg hen]
      have hen' : c.enabled = true := by simpa using hen
      cases hsp : spec c.stepId with
      | none =>
        simp only [Except.error.injEq, List.mem_cons, exists_eq_or_imp, hen', hsp, true_and,
          true_or, and_true]
        exact eq_comm
      | some sp =>
        simp only
        by_cases hm : ¬ (if c.modalities.isEmpty then sp.modalities else c.modalities).isEmpty ∧
            modality ≠ "" ∧
            modality ∉ (if c.modalities.isEmpty then sp.modalities else c.modalities)
        · rw [if_pos hm, hmap, ih]; simp [hsp]
        · rw [if_neg hm]
          by_cases hmiss : ¬ (c.requires.filter (fun k => decide (k ∉ fields))).isEmpty
          · rw [if_pos hmiss, hmap, ih]; simp [hsp]
          · rw [if_neg hmiss, hmap, ih]; simp [hsp]

/-- **C32 (unknown steps).**  Resolution fails exactly when an enabled step is not registered (a
disabled one is never looked up), and then with the validation error. -/
theorem C32_unknown_step {spec : String → Option StepSpec} {ds : Dataset V} {plan : Plan P}
    {e : PyErr} : resolvePlan spec ds plan = .error e ↔
      e = .validation ∧ ∃ c ∈ plan.steps, c.enabled = true ∧ spec c.stepId = none :=
  resolveLoop_error

/-- Small registry for the examples. -/
def demoSpec (id : String) : Option StepSpec :=
  if id = "core.ensure_2d" then some ⟨.transform, [], ["raw.X"], ["features.X"]⟩
  else if id = "text.tfidf" then some ⟨.fittable, ["text"], ["raw.X"], ["features.X"]⟩
  else if id = "core.pca" then some ⟨.fittable, [], ["features.X"], ["features.X"]⟩
  else none

/-- A plan in which one step is of the wrong modality, one is disabled, one lacks a field when it
comes too early and is resolved later. -/
def demoPlan : Plan Unit where
  steps := [⟨"core.pca", (), [], ["features.X"], true⟩, ⟨"text.tfidf", (), [], [], true⟩,
    ⟨"unknown", (), [], [], false⟩, ⟨"core.ensure_2d", (), [], ["raw.X"], true⟩,
    ⟨"core.pca", (), [], ["features.X"], true⟩]

example : ((resolvePlan demoSpec (⟨⟨0, 0, none, none⟩, none, "vision", none⟩ : Dataset Nat)
    demoPlan).toOption.map (fun r => (r.1.map (·.index), r.2))) =
    some ([3, 4], [⟨"core.pca", .missing ["features.X"], 0⟩,
      ⟨"text.tfidf", .modality ["text"], 1⟩, ⟨"unknown", .disabled, 2⟩]) := by decide +kernel

end ModSSC.Preprocess
