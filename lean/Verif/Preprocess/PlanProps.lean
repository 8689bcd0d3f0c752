import Verif.Preprocess.PlanSpec
import Verif.ExceptLemmas

/-!
# Preprocessing plans survive a round trip through their file (C69)
-/

namespace ModSSC.Preprocess
open ModSSC ModSSC.Preprocess.Spec

theorem strTuple_strs {text : PyVal → String} (ht : TextLaw text) (l : List String) :
    strTuple text (.list (l.map .str)) = .ok l := by
  unfold strTuple
  cases l with
  | nil => rfl
  | cons a l =>
    rw [if_pos (show (PyVal.list (List.map PyVal.str (a :: l))).truthy = true from rfl)]
    simp only [List.map_map]
    congr 1
    conv_rhs => rw [← List.map_id (a :: l)]
    exact List.map_congr_left fun s _ => ht.str s

theorem loadStep_stepDict {text : PyVal → String} (ht : TextLaw text) (s : StepConfig (List (String × PyVal)))
    (hs : s.stepId ≠ "") : loadStep text (stepDict s) = .ok s := by
  have e1 : orElse (.str s.stepId) .none = .str s.stepId := by simp [orElse, PyVal.truthy, hs]
  have e2 : orElse (.dict s.params) (.dict []) = .dict s.params := by
    cases h : s.params <;> simp [orElse, PyVal.truthy]
  have lid : ∀ d, PyVal.getD [("id", .str s.stepId), ("params", .dict s.params), ("modalities", .list (s.modalities.map .str)),
    ("requires_fields", .list (s.requires.map .str)), ("enabled", .bool s.enabled)] "id" d = .str s.stepId := fun d => rfl
  unfold loadStep stepDict
  simp only [PyVal.getD, PyVal.lookup, List.find?, Option.map, Option.getD, beq_self_eq_true, String.reduceBEq]
  rw [e1, ht.str, if_neg hs, e2]
  simp only
  rw [strTuple_strs ht, strTuple_strs ht]
  cases s
  rfl

/-- **C69.**  A plan that was written and read again is the same plan (every step with a non-empty id). -/
theorem C69_roundtrip_partial (Y : Yaml) (text : PyVal → String) (ht : TextLaw text) (p : DataPlan) (hid : ∀ s ∈ p.steps, s.stepId ≠ "")
    (hY : Y.load (Y.dump (planDict p)) = .ok (planDict p)) :
    loadPlan Y text (dumpPlan Y p) = .ok p := by
  unfold loadPlan dumpPlan
  rw [hY]
  show loadData text (planDict p) = .ok p
  unfold planDict loadData
  simp only [PyVal.getD, PyVal.lookup, List.find?, Option.map, Option.getD, beq_self_eq_true, String.reduceBEq, ht.str]
  have h : (p.steps.map stepDict).mapM (loadStep text) = .ok p.steps := by
    have key : ∀ l : List (StepConfig (List (String × PyVal))), (∀ s ∈ l, s.stepId ≠ "") →
        (l.map stepDict).mapM (loadStep text) = .ok l := by
      intro l
      induction l with
      | nil => intro _; rfl
      | cons a l ih =>
        intro h
        rw [List.map_cons, List.mapM_cons, loadStep_stepDict ht a (h a (by simp)), ih fun s hs => h s (by simp [hs])]
        rfl
    exact key _ hid
  rw [h]
  cases p
  rfl

theorem strTuple_names {text : PyVal → String} {v : PyVal} (h : IsNames v) : strTuple text v = .ok (names text v) := by
  unfold strTuple
  rcases h with h | ⟨l, rfl⟩
  · rw [h]
    cases v <;> first | rfl | (rename_i l; cases l <;> first | rfl | simp [PyVal.truthy] at h)
  · cases l with
    | nil => rfl
    | cons a l => rw [if_pos (show (PyVal.list (a :: l)).truthy = true from rfl)]; rfl

/-- **C69.**  A well-formed file is read, and every step means what its entry says, in the order of the file. -/
theorem C69_reads (text : PyVal → String) (ht : TextLaw text) (data : List (String × PyVal)) (l : List PyVal)
    (hl : PyVal.lookup data "steps" = some (.list l)) (hs : ∀ v ∈ l, IsStepEntry v) :
    ∃ p, loadData text (.dict data) = .ok p ∧ List.Forall₂ (Means text) l p.steps ∧
      p.outputKey = (match PyVal.lookup data "output_key" with | some v => text v | none => "features.X") := by
  have one : ∀ v, IsStepEntry v → ∃ s, loadStep text v = .ok s ∧ Means text v s := by
    rintro v ⟨item, rfl, ⟨sid, hid, hne⟩, hp, hm, hr⟩
    have e1 : PyVal.getD item "id" .none = .str sid := hid
    have e2 : orElse (.str sid) (PyVal.getD item "step_id" .none) = .str sid := by simp [orElse, PyVal.truthy, hne]
    have e3 : strTuple text (PyVal.getD item "modalities" .none) = .ok _ := strTuple_names hm
    have e4 : strTuple text (PyVal.getD item "requires_fields" .none) = .ok _ := strTuple_names hr
    have e5 : ∃ d, orElse (PyVal.getD item "params" (.dict [])) (.dict []) = .dict d ∧
        (entry item "params" = .dict d ∨ ((entry item "params").truthy = false ∧ d = [])) := by
      unfold entry at hp ⊢
      unfold PyVal.getD orElse
      cases hq : PyVal.lookup item "params" with
      | none => exact ⟨[], by simp [PyVal.truthy], .inr ⟨rfl, rfl⟩⟩
      | some v =>
        rw [hq] at hp
        simp only [Option.getD_some] at hp ⊢
        rcases hp with hp | ⟨d, rfl⟩
        · exact ⟨[], by simp [hp], .inr ⟨hp, rfl⟩⟩
        · cases d with
          | nil => exact ⟨[], by simp [PyVal.truthy], .inl rfl⟩
          | cons a d => exact ⟨a :: d, by simp [PyVal.truthy], .inl rfl⟩
    obtain ⟨d, e5, hd⟩ := e5
    refine ⟨⟨sid, d, _, _, (PyVal.getD item "enabled" (.bool true)).truthy⟩, ?_, item, rfl, hid, hd, rfl, rfl, ?_⟩
    · unfold loadStep
      simp only
      rw [e1, e2, ht.str, if_neg hne, e5]
      simp only
      rw [e3, e4]
      rfl
    · simp only [entry, PyVal.getD]
      cases hq : PyVal.lookup item "enabled" with
      | none => simp [PyVal.truthy]
      | some v => simp
  have all : ∀ l : List PyVal, (∀ v ∈ l, IsStepEntry v) →
      ∃ ss, l.mapM (loadStep text) = .ok ss ∧ List.Forall₂ (Means text) l ss := by
    intro l
    induction l with
    | nil => intro _; exact ⟨[], rfl, .nil⟩
    | cons a l ih =>
      intro h
      obtain ⟨s, hs, hm⟩ := one a (h a (by simp))
      obtain ⟨ss, hss, hms⟩ := ih fun v hv => h v (by simp [hv])
      refine ⟨s :: ss, ?_, .cons hm hms⟩
      rw [List.mapM_cons, hs, hss]
      rfl
  obtain ⟨ss, h1, h2⟩ := all l hs
  refine ⟨⟨ss, text (PyVal.getD data "output_key" (.str "features.X"))⟩, ?_, h2, ?_⟩
  · unfold loadData
    have : PyVal.getD data "steps" (.list []) = .list l := by unfold PyVal.getD; rw [hl]; rfl
    simp only [this, h1]
    rfl
  · unfold PyVal.getD
    cases PyVal.lookup data "output_key" with
    | none => simp [ht.str]
    | some v => simp

/-- **C69.**  A file whose root is no mapping, whose steps are no list, or with a step that is no mapping is refused. -/
theorem C69_refuses (text : PyVal → String) (data : PyVal)
    (h : (∀ d, data ≠ .dict d) ∨ (∃ d, data = .dict d ∧ ((∃ v, PyVal.lookup d "steps" = some v ∧ (∀ l, v ≠ .list l) ∧ v ≠ .str "") ∨
      ∃ l, PyVal.lookup d "steps" = some (.list l) ∧ ∃ v ∈ l, ∀ item, v ≠ .dict item))) :
    ∃ e, loadData text data = .error e := by
  have hstep : ∀ l : List PyVal, (∃ v ∈ l, ∀ item, v ≠ .dict item) → ∃ e, l.mapM (loadStep text) = .error e := by
    intro l
    induction l with
    | nil => rintro ⟨v, hv, -⟩; simp at hv
    | cons a l ih =>
      rintro ⟨v, hv, hn⟩
      rw [List.mapM_cons]
      cases ha : loadStep text a with
      | error e => exact ⟨e, rfl⟩
      | ok s =>
        rcases List.mem_cons.mp hv with rfl | hv
        · exfalso
          cases v <;> simp [loadStep] at ha hn
        · obtain ⟨e, he⟩ := ih ⟨v, hv, hn⟩
          exact ⟨e, by rw [he]; rfl⟩
  rcases h with h | ⟨d, rfl, ⟨v, hv, hl, hs⟩ | ⟨l, hl, hn⟩⟩
  · cases data with
    | dict d => exact absurd rfl (h d)
    | _ => exact ⟨_, rfl⟩
  · unfold loadData
    have : PyVal.getD d "steps" (.list []) = v := by unfold PyVal.getD; rw [hv]; rfl
    simp only [this]
    cases v with
    | list l => exact absurd rfl (hl l)
    | str s =>
      refine ⟨.valueError, ?_⟩
      simp only
      rw [if_neg]
      rintro rfl
      exact hs rfl
    | _ => exact ⟨_, rfl⟩
  · unfold loadData
    have : PyVal.getD d "steps" (.list []) = .list l := by unfold PyVal.getD; rw [hl]; rfl
    simp only [this]
    obtain ⟨e, he⟩ := hstep l hn
    exact ⟨e, by rw [he]; rfl⟩

/-- **C69 (violated).**  "Each step must define an id": a step without one is accepted and gets the id `None`. -/
theorem C69_id_violated (text : PyVal → String) (ht : TextLaw text) :
    loadData text (.dict [("steps", .list [.dict []])]) = .ok ⟨[⟨"None", [], [], [], true⟩], "features.X"⟩ := by
  have e : loadStep text (.dict []) = .ok ⟨"None", [], [], [], true⟩ := by
    simp [loadStep, PyVal.getD, PyVal.lookup, orElse, PyVal.truthy, ht.none, strTuple, bind, Except.bind]
  have : loadData text (.dict [("steps", .list [.dict []])]) =
      (do let steps ← [PyVal.dict []].mapM (loadStep text); .ok ⟨steps, text (.str "features.X")⟩) := rfl
  rw [this, List.mapM_cons, e, ht.str]
  rfl

/-- **C69 (violated).**  "The modalities of a step are the names given": a single name is read as its letters, so that the
step is skipped for the modality named. -/
theorem C69_modality_violated (text : PyVal → String) (ht : TextLaw text) :
    loadStep text (.dict [("id", .str "core.pca"), ("modalities", .str "text")]) =
      .ok ⟨"core.pca", [], ["t", "e", "x", "t"], [], true⟩ := by
  have e : strTuple text (.str "text") = .ok ["t", "e", "x", "t"] := by
    unfold strTuple; rw [if_pos (by decide)]
    show Except.ok (("text" : String).toList.map fun c => String.ofList [c]) = _
    decide +kernel
  have : loadStep text (.dict [("id", .str "core.pca"), ("modalities", .str "text")]) =
      (if text (.str "core.pca") = "" then .error .valueError else do
        let modalities ← strTuple text (.str "text")
        let requires ← strTuple text .none
        .ok ⟨text (.str "core.pca"), [], modalities, requires, true⟩) := by
    simp [loadStep, PyVal.getD, PyVal.lookup, orElse, PyVal.truthy]
  rw [this, ht.str, if_neg (by decide), e]
  rfl

/-- Texts as wanted by the theorems. -/
def demoText : PyVal → String
  | .str s => s
  | .none => "None"
  | _ => "x"

example : TextLaw demoText where
  str := fun _ => rfl
  none := rfl
  empty := by intro v h; cases v <;> simp_all [demoText]

/-- A plan with two steps. -/
def demoFilePlan : DataPlan := ⟨[⟨"core.ensure_2d", [], [], [], true⟩, ⟨"core.pca", [("n_components", .int 8)], ["tabular"], ["raw.y"], false⟩], "features.X"⟩

example : (∀ s ∈ demoFilePlan.steps, s.stepId ≠ "") ∧
    ∃ Y : Yaml, Y.load (Y.dump (planDict demoFilePlan)) = .ok (planDict demoFilePlan) :=
  ⟨by decide, ⟨fun _ => "plan", fun _ => .ok (planDict demoFilePlan)⟩, rfl⟩

example : IsStepEntry (.dict [("id", .str "core.pca"), ("params", .none), ("modalities", .list [.str "text"])]) :=
  ⟨_, rfl, ⟨"core.pca", rfl, by decide⟩, .inl rfl, .inr ⟨_, rfl⟩, .inl rfl⟩

end ModSSC.Preprocess
