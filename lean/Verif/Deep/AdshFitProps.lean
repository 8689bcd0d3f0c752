import Verif.Deep.AdshFitModel
import Verif.Deep.AdshProps
import Verif.Deep.FitProps

/-!
# C175 — training with ADSH
-/

/-! ### Specification -/

namespace ModSSC.Deep.AdshFit.Spec
open ModSSC ModSSC.Deep ModSSC.Deep.Fit
open ModSSC.Deep.Spec (MostProbable predicted atLeast above majorityShare)

variable {X W V : Type}

/-- The parameters ADSH shares with the methods of `FitModel`. -/
def common (cfg : Cfg) : Fit.Cfg Rat := ⟨cfg.batchSize, cfg.maxEpochs, cfg.lambdaU, 1, cfg.cat, true⟩

/-- What `fit` asks for before it touches the network. -/
structure Acceptable (torch : Bool) (cfg : Cfg) (bundle : Option Bundle) (d : Input X) (xw xs : Feats X) : Prop where
  common : Fit.Spec.Acceptable torch (common cfg) bundle d xw xs
  warm : 0 ≤ cfg.warmUp
  cutoff : 0 < cfg.cutoff ∧ cfg.cutoff ≤ 1

/-- The network and its labels fit together: labels are classes, and so is a majority class that is given. -/
structure Suits (cfg : Cfg) (C : Nat) (y : List Int) : Prop where
  labels : ∀ c ∈ y, 0 ≤ c ∧ c < (C : Int)
  majority : ∀ m, cfg.majority = some m → 0 ≤ m ∧ m < (C : Int)

/-- The majority class: the given one, or a most frequent label. -/
def IsMajority (cfg : Cfg) (C : Nat) (y : List Int) (m : Nat) : Prop :=
  m < C ∧ (∀ c, cfg.majority = some c → c = (m : Int)) ∧
    (cfg.majority = none → ∀ c : Nat, y.count (c : Int) ≤ y.count (m : Int))

/-- The parameters (as far as `view` sees them) do not depend on the mode. -/
structure Modes (N : ANet X W) (view : W → V) (log : W → List (V × Objective X Rat)) : Prop where
  eval : ∀ w, view (N.eval w) = view w
  train : ∀ w, view (N.train w) = view w
  log : ∀ w, log (N.eval w) = log w

/-- Confidence and predicted class. -/
def predict (argmax : List Rat → Nat) (p : List Rat) : Rat × Nat := (rowMax p, argmax p)

/-- New thresholds from the predictions on the pool (see `C116_scores`): the cutoff for the majority class; a class nobody is
predicted as keeps its threshold; any other class gets a threshold of at most the cutoff which as large a share of its predictions
passes as of the majority class passes the cutoff. -/
def Adjusted (cutoff : Rat) (majority : Nat) (preds : List (Rat × Nat)) (old new : List Rat) : Prop :=
  new.length = old.length ∧ ∀ c < old.length, ∃ x, new[c]? = some x ∧
    (c = majority → x = cutoff) ∧
    (c ≠ majority → predicted preds c = 0 → old[c]? = some x) ∧
    (c ≠ majority → 0 < predicted preds c → x ≤ cutoff ∧ (x = cutoff ∨ ∃ p ∈ preds, p.2 = c ∧ x = p.1) ∧
      majorityShare cutoff majority preds * predicted preds c - 1 / 2 ≤ atLeast preds c x ∧ 1 ≤ atLeast preds c x ∧
      (x < cutoff → (above preds c x : Rat) ≤ max 0 (majorityShare cutoff majority preds * predicted preds c - 1 / 2)))

/-- The unlabeled part of the loss: the strong view against the class whose probability on the weak view is largest relative to its
threshold, if some class reaches its threshold; nothing otherwise.  `n` is the size of the batch, `f` gives probabilities. -/
structure AdshTerm (f : X → List Rat) (score : List Rat) (n : Nat) (p : (X × Int) × X) (t : Term X Rat) : Prop where
  weak : t.weak = p.1.1
  strong : t.strong = p.2
  target : ∃ c < score.length, t.target = .hard c ∧
    ∀ c' < score.length, (f p.1.1).getD c' 0 * score.getD c 0 ≤ (f p.1.1).getD c 0 * score.getD c' 0
  used : (∃ c < score.length, score.getD c 0 ≤ (f p.1.1).getD c 0) → t.weight = 1 / (n : Rat)
  unused : (¬ ∃ c < score.length, score.getD c 0 ≤ (f p.1.1).getD c 0) → t.weight = 0

/-- The loss of a step. -/
structure AdshLoss (scale : Rat) (f : X → List Rat) (score : List Rat) (s : Batch X) (o : Objective X Rat) : Prop where
  labeled : o.labeled = (s.xl.zip s.yl).map fun p => (p.1, p.2, 1 / (s.yl.length : Rat))
  unlabeled : List.Forall₂ (AdshTerm f score s.xw.length) (s.xw.zip s.xs) o.unlabeled
  scale : o.scale = scale
  fairness : o.fairness = none

/-- The course of the training from epoch `e` on, with thresholds `old` before it: an epoch up to the warm-up keeps the thresholds,
a later one adjusts them to the predictions, on the whole pool, of the network its first step starts from; all its steps use the
loss with these thresholds. -/
def Course (argmax : List Rat → Nat) (cfg : Cfg) (f : V → X → List Rat) (m : Nat) (pool : List X) :
    Nat → List Rat → List (List (Batch X)) → List (List (V × Objective X Rat)) → Prop
  | _, _, [], [] => True
  | e, old, ep :: eps, ob :: obs =>
    ∃ new v, (ob.head?.map (·.1)) = some v ∧
      (if (e : Int) < cfg.warmUp then new = old
        else Adjusted cfg.cutoff m (pool.map fun x => predict argmax (f v x)) old new) ∧
      List.Forall₂ (fun s p => AdshLoss cfg.lambdaU (f p.1) new s p.2) ep ob ∧
      Course argmax cfg f m pool (e + 1) new eps obs
  | _, _, _, _ => False

/-- What can be done with a network. -/
inductive Event (X : Type)
  /-- logits of these rows, in training mode or not -/
  | look (training : Bool) (rows : List X)
  /-- an optimizer step -/
  | step
deriving DecidableEq

/-- `tr` records what is done with a network. -/
structure Traced (N : ANet X W) (tr : W → List (Event X)) : Prop where
  eval : ∀ w, N.training (N.eval w) = false ∧ tr (N.eval w) = tr w
  train : ∀ w, N.training (N.train w) = true ∧ tr (N.train w) = tr w
  forward : ∀ w xs, N.training (N.forward w xs).2 = N.training w ∧ tr (N.forward w xs).2 = tr w ++ [.look (N.training w) xs]
  step : ∀ w o, N.training (N.step w o) = N.training w ∧ tr (N.step w o) = tr w ++ [.step]

/-- What one batch does: logits in training mode, then the step. -/
def batchEvents (cat : Bool) (s : Batch X) : List (Event X) :=
  if cat then [.look true (s.xl ++ s.xw.map (·.1) ++ s.xs), .step]
  else [.look true s.xl, .look true s.xs, .look true (s.xw.map (·.1)), .step]

/-- `parts` are the rows in order, in parts of `b` and a last one that may be smaller. -/
structure InParts (b : Nat) (rows : List X) (parts : List (List X)) : Prop where
  all : parts.flatten = rows
  small : ∀ p ∈ parts, p ≠ [] ∧ p.length ≤ b

/-- What the epochs do from number `e` on: the pool in evaluation mode, except during warm-up, then the batches. -/
def epochEvents (cfg : Cfg) (parts : List (List X)) : Nat → List (List (Batch X)) → List (Event X)
  | _, [] => []
  | e, ep :: eps => (if (e : Int) < cfg.warmUp then [] else parts.map (.look false ·)) ++ ep.flatMap (batchEvents cfg.cat) ++
      epochEvents cfg parts (e + 1) eps

end ModSSC.Deep.AdshFit.Spec

namespace ModSSC.Deep.AdshFit
open ModSSC ModSSC.Deep ModSSC.Deep.Fit Spec
open ModSSC.Deep.Spec (ArgmaxLaw IsDistN)
open ModSSC.Deep.Fit.Spec (Logs Rowwise Epochs)

variable {X W V σ : Type}

/-! ### Checks -/

theorem index_length (n : Nat) : ((List.range n).map Int.ofNat).length = n := by simp

theorem check_ok {torch : Bool} {cfg : Cfg} {bundle : Option Bundle} {data : Option (Input X)} {r : Ready X} :
    check torch cfg bundle data = .ok r ↔ ∃ d xw xs, data = some d ∧ Acceptable torch cfg bundle d xw xs ∧
      r = ⟨d.xl.rows, d.yl, xw.rows.zip ((List.range xw.rows.length).map Int.ofNat), xs.rows⟩ := by
  unfold check
  rw [Fit.check_ok]
  constructor
  · rintro ⟨d, xw, xs, idx, rfl, hA, hi, rfl⟩
    obtain rfl := Except.ok.inj hi
    have hr := hA.ranges
    simp only [Bool.and_eq_true, decide_eq_true_eq] at hr
    exact ⟨d, xw, xs, rfl, ⟨⟨hA.torch, hA.rows, hA.labels, hA.nonempty, hA.weak, hA.strong, hA.unlabeled, hA.views, hA.floats,
      hA.bundle, hA.batch, hA.epochs, hA.lambda, rfl, hA.temperature⟩, hr.1, hr.2⟩, rfl⟩
  · rintro ⟨d, xw, xs, rfl, hA, rfl⟩
    have hc := hA.common
    exact ⟨d, xw, xs, _, rfl, ⟨hc.torch, hc.rows, hc.labels, hc.nonempty, hc.weak, hc.strong, hc.unlabeled, hc.views, hc.floats,
      hc.bundle, hc.batch, hc.epochs, hc.lambda, by simp [hA.warm, hA.cutoff.1, hA.cutoff.2], hc.temperature⟩, rfl, rfl⟩

/-- **C175 (refused untouched).**  A `fit` whose data, bundle or parameters are not acceptable raises, and leaves network and
object as they were. -/
theorem C175_refused (G : TorchGen σ) (N : ANet X W) (T : Torch Rat) (torch : Bool) (cfg : Cfg) (bundle : Option Bundle)
    (data : Option (Input X)) (seed : Int) (fitted : Bool) (w : W)
    (h : ∀ d xw xs, data = some d → ¬ Acceptable torch cfg bundle d xw xs) :
    ∃ e, fit G N T torch cfg bundle data seed fitted w = ((fitted, w), .error e) := by
  unfold fit
  cases hc : check torch cfg bundle data with
  | error e => exact ⟨e, rfl⟩
  | ok r =>
    obtain ⟨d, xw, xs, hd, hA, -⟩ := check_ok.mp hc
    exact absurd hA (h d xw xs hd)

/-! ### The pool -/

theorem pieces_parts (b : Nat) (hb : 0 < b) (rows : List X) : InParts b rows (pieces b rows) := by
  refine ⟨?_, ?_⟩
  · have key : ∀ m : Nat, ((List.range m).map fun j => (rows.drop (j * b)).take b).flatten = rows.take (m * b) := by
      intro m
      induction m with
      | zero => simp
      | succ m ih =>
        rw [List.range_succ, List.map_append, List.flatten_append, ih]
        simp only [List.map_cons, List.map_nil, List.flatten_cons, List.flatten_nil, List.append_nil]
        rw [Nat.succ_mul, List.take_add]
    unfold pieces
    rw [key, List.take_of_length_le (ceil_mul _ _ hb)]
  · intro p hp
    simp only [pieces, List.mem_map, List.mem_range] at hp
    obtain ⟨k, hk, rfl⟩ := hp
    have := ceil_lt _ _ _ hb hk
    refine ⟨fun h0 => ?_, by simp⟩
    have := congrArg List.length h0
    simp at this
    omega

theorem restore_view {N : ANet X W} {view : W → V} {log : W → List (V × Objective X Rat)} (hM : Modes N view log)
    (hL : Logs N.toNet view log) (w w' : W) : view (restore N w w') = view w' ∧ log (restore N w w') = log w' := by
  unfold restore
  split_ifs
  · exact ⟨hM.train _, hL.train _⟩
  · exact ⟨rfl, rfl⟩

theorem survey_rowwise {N : ANet X W} {T : Torch Rat} {view : W → V} {g : V → X → List Rat} {C : Nat}
    (hN : Rowwise N.toNet view g C) : ∀ (cs : List (List X)) (w : W),
    survey N T C w cs = (.ok (cs.flatten.map fun x => predict T.argmax (T.softmax (g (view w) x))), w)
  | [], w => rfl
  | c :: cs, w => by
    have hF : ∀ w xs, N.forward w xs = (⟨2, C, xs.map (g (view w))⟩, w) := hN
    rw [survey]
    simp only [hF]
    rw [if_neg (by simp), if_neg (by simp), survey_rowwise hN cs w]
    simp [predict, Function.comp_def]

theorem refresh_rowwise {N : ANet X W} {T : Torch Rat} {view : W → V} {log : W → List (V × Objective X Rat)}
    {g : V → X → List Rat} {C : Nat} (hN : Rowwise N.toNet view g C) (hM : Modes N view log) {cfg : Cfg}
    (hb : 0 < cfg.batchSize) (m : Nat) (xw : List X) {score : List Rat} (hs : score.length = C) (w : W) :
    refresh N T cfg m xw score w =
      (.ok (adshScores cfg.cutoff m (xw.map fun x => predict T.argmax (T.softmax (g (view w) x))) score),
        restore N w (N.eval w)) := by
  unfold refresh
  rw [hs, survey_rowwise hN, (pieces_parts _ (by omega) xw).all, hM.eval]

/-- Thresholds stay positive. -/
theorem scores_pos {cutoff : Rat} (h0 : 0 < cutoff) {m : Nat} {preds : List (Rat × Nat)} (hp : ∀ p ∈ preds, 0 < p.1)
    {score : List Rat} (hs : ∀ x ∈ score, 0 < x) : ∀ x ∈ adshScores cutoff m preds score, 0 < x := by
  obtain ⟨h1, h2⟩ := C116_scores cutoff m preds score
  intro x hx
  obtain ⟨c, hc, rfl⟩ := List.getElem_of_mem hx
  obtain ⟨y, e1, e2, e3, e4⟩ := h2 c (by omega)
  rw [List.getElem?_eq_getElem hc] at e1
  rw [Option.some.inj e1]
  by_cases cm : c = m
  · rw [e2 cm]; exact h0
  rcases Nat.eq_zero_or_pos (Spec.predicted preds c) with hz | hz
  · exact hs _ (List.mem_of_getElem? (e3 cm hz))
  · obtain ⟨-, e5, -⟩ := e4 cm hz
    rcases e5 with rfl | ⟨p, hp', -, rfl⟩
    · exact h0
    · exact hp p hp'

/-! ### The steps -/

theorem trainStep_adsh {N : Net X W Rat} {T : Torch Rat} {view : W → V} {g : V → X → List Rat} {C : Nat}
    (hN : Rowwise N view g C) {cat : Bool} {scale : Rat} {score : List Rat} {w : W} {s : Batch X} {st' : List Rat × W}
    (h : trainStep N (adsh T) cat scale (score, w) s = (st', .ok ())) :
    st' = (score, N.step w (objective scale s
      (adshSaid T score ⟨C, s.xl.map (g (view w)), s.yl, (s.xw.map (·.1)).map (g (view w)), s.xw.map (·.2)⟩))) := by
  rw [trainStep_rowwise hN] at h
  unfold plainStep at h
  simp only at h
  cases ha : agree s.yl ⟨2, C, s.xl.map (g (view w))⟩ ⟨2, C, (s.xw.map (·.1)).map (g (view w))⟩
      (⟨2, C, s.xs.map (g (view w))⟩ : Out Rat) with
  | error e => rw [ha] at h; cases h
  | ok u =>
    rw [ha] at h
    simp only [adsh] at h
    by_cases hc : C ≠ score.length
    · rw [if_pos hc] at h; cases h
    · rw [if_neg hc] at h
      simp only [Prod.mk.injEq, and_true] at h
      exact h.symm

theorem trainSteps_adsh {N : Net X W Rat} {T : Torch Rat} {view : W → V} {g : V → X → List Rat} {C : Nat}
    (hN : Rowwise N view g C) {log : W → List (V × Objective X Rat)} (hL : Logs N view log) {cat : Bool} {scale : Rat}
    {score : List Rat} : ∀ {ss : List (Batch X)} {w : W} {st' : List Rat × W},
    trainSteps N (adsh T) cat scale (score, w) ss = (st', .ok ()) →
    st'.1 = score ∧ ∃ obs : List (V × Objective X Rat), log st'.2 = log w ++ obs ∧
      List.Forall₂ (fun (s : Batch X) (p : V × Objective X Rat) => p.2 = objective scale s
        (adshSaid T score ⟨C, s.xl.map (g p.1), s.yl, (s.xw.map (·.1)).map (g p.1), s.xw.map (·.2)⟩)) ss obs ∧
      (ss ≠ [] → obs.head?.map (·.1) = some (view w))
  | [], w, st', h => by
    simp only [trainSteps, Prod.mk.injEq, and_true] at h
    subst h
    exact ⟨rfl, [], by simp, .nil, by simp⟩
  | s :: ss, w, st', h => by
    simp only [trainSteps] at h
    cases h1 : trainStep N (adsh T) cat scale (score, w) s with
    | mk st1 res =>
    rw [h1] at h
    cases res with
    | error e => cases h
    | ok u =>
    simp only at h
    obtain rfl := trainStep_adsh hN h1
    obtain ⟨e1, obs, e2, e3, -⟩ := trainSteps_adsh hN hL h
    refine ⟨e1, (view w, objective scale s
      (adshSaid T score ⟨C, s.xl.map (g (view w)), s.yl, (s.xw.map (·.1)).map (g (view w)), s.xw.map (·.2)⟩)) :: obs, ?_,
      .cons rfl e3, fun _ => rfl⟩
    rw [e2, hL.step]
    simp

theorem forall₂_zip_map {α β γ : Type} {P : α → γ → Prop} (h : β → γ) :
    ∀ {l : List α} {m : List β}, (∀ (i : Nat) a b, l[i]? = some a → m[i]? = some b → P a (h b)) → l.length = m.length →
      List.Forall₂ P l (m.map h)
  | [], [], _, _ => .nil
  | a :: l, b :: m, hp, e => by
    refine .cons (hp 0 a b rfl rfl) (forall₂_zip_map h (fun i x y hx hy => hp (i + 1) x y hx hy) (by simpa using e))

theorem loss_adsh {T : Torch Rat} (ha : ArgmaxLaw T.argmax) {f : X → List Rat} {score : List Rat} (hne : score ≠ [])
    (hs : ∀ x ∈ score, 0 < x) (hf : ∀ x, (T.softmax (f x)).length = score.length) {scale : Rat} {s : Batch X} {C : Nat}
    (h1 : s.xl.length = s.yl.length) (h2 : s.xw.length = s.xs.length) :
    AdshLoss scale (fun x => T.softmax (f x)) score s
      (objective scale s (adshSaid T score ⟨C, s.xl.map f, s.yl, (s.xw.map (·.1)).map f, s.xw.map (·.2)⟩)) := by
  obtain ⟨l1, l2⟩ := C116_select T.argmax ha score hs hne (((s.xw.map (·.1)).map f).map T.softmax) (by
    intro r hr
    simp only [List.map_map, List.mem_map, Function.comp_apply] at hr
    obtain ⟨x, -, rfl⟩ := hr
    exact hf _)
  refine ⟨?_, ?_, rfl, rfl⟩
  · simp only [objective, adshSaid, evenly]
    apply List.ext_getElem?
    intro i
    rw [List.getElem?_zipWith, List.getElem?_map]
    by_cases hi : i < s.yl.length
    · rw [List.getElem?_eq_getElem (by simp [h1, hi]), List.getElem?_replicate, if_pos hi]
      rfl
    · rw [List.getElem?_eq_none (by simp; omega)]
      rfl
  · have hl : (objective scale s (adshSaid T score ⟨C, s.xl.map f, s.yl, (s.xw.map (·.1)).map f, s.xw.map (·.2)⟩)).unlabeled =
        ((s.xw.zip s.xs).zip (adshSelect T.argmax score (((s.xw.map (·.1)).map f).map T.softmax))).map fun p =>
          ⟨p.1.1.1, p.1.2, .hard p.2.1, if p.2.2 then 1 / (s.xw.length : Rat) else 0⟩ := by
      simp only [objective, adshSaid, List.length_map]
      generalize hsel : adshSelect T.argmax score (((s.xw.map (·.1)).map f).map T.softmax) = sel
      apply List.ext_getElem?
      intro i
      simp only [List.getElem?_zipWith, List.getElem?_map, List.zip]
      cases s.xw[i]? <;> cases s.xs[i]? <;> cases sel[i]? <;> rfl
    rw [hl]
    have hlen : (adshSelect T.argmax score (((s.xw.map (·.1)).map f).map T.softmax)).length = s.xw.length := by
      rw [l1]; simp
    refine forall₂_zip_map _ ?_ (by simp only [List.length_zip, hlen]; omega)
    rintro i a ⟨b, c, u⟩ ha' hb
    have hz := List.getElem?_zip_eq_some.mp hb
    obtain ⟨z1, z2⟩ := hz
    rw [ha'] at z1
    obtain rfl := Option.some.inj z1
    have hx := (List.getElem?_zip_eq_some.mp ha').1
    obtain ⟨c', u', e1, e2, e3, e4, e5⟩ := l2 i (T.softmax (f a.1.1)) (by simp [hx])
    rw [z2] at e1
    obtain ⟨rfl, rfl⟩ := Prod.mk.inj (Option.some.inj e1)
    refine ⟨rfl, rfl, ⟨c, e2, rfl, e5⟩, ?_, ?_⟩
    · intro h
      rw [if_pos (e3.mpr h)]
    · intro h
      rw [if_neg (fun hu => h (e3.mp hu))]

/-! ### The start -/

theorem count_toNat : ∀ (y : List Int), (∀ c ∈ y, 0 ≤ c) → ∀ c : Nat, (y.map Int.toNat).count c = y.count (c : Int)
  | [], _, c => rfl
  | a :: y, h, c => by
    have ha := h a (by simp)
    rw [List.map_cons, List.count_cons, List.count_cons, count_toNat y (fun x hx => h x (by simp [hx])) c]
    by_cases e : a = (c : Int)
    · subst e; simp
    · have : a.toNat ≠ c := by omega
      simp [e, this]

theorem majority_ok {T : Torch Rat} (ha : ArgmaxLaw T.argmax) {cfg : Cfg} {C : Nat} {y : List Int} (hne : y ≠ [])
    (hy : ∀ c ∈ y, 0 ≤ c ∧ c < (C : Int)) : (∀ m, adshMajority T.argmax cfg.majority C (y.map Int.toNat) = .ok m →
      Suits cfg C y ∧ IsMajority cfg C y m) ∧
    (Suits cfg C y → ∃ m, adshMajority T.argmax cfg.majority C (y.map Int.toNat) = .ok m) := by
  have hC : 0 < C := by
    obtain ⟨c, hc⟩ := List.exists_mem_of_ne_nil y hne
    have := hy c hc
    omega
  obtain ⟨h1, m0, h2, h3, h4⟩ := C116_majority T.argmax ha C (y.map Int.toNat) (by
    intro c hc
    obtain ⟨a, ha, rfl⟩ := List.mem_map.mp hc
    have := hy a ha
    omega) hC
  cases hm : cfg.majority with
  | none =>
    refine ⟨fun m h => ?_, fun _ => ⟨m0, h2⟩⟩
    rw [h2] at h
    obtain rfl := Except.ok.inj h
    refine ⟨⟨hy, fun m e => (by rw [hm] at e; cases e)⟩, h3, fun c e => (by rw [hm] at e; cases e), fun _ c => ?_⟩
    by_cases hc : c < C
    · have := h4 c hc
      rwa [count_toNat y (fun c hc => (hy c hc).1), count_toNat y (fun c hc => (hy c hc).1)] at this
    · rw [List.count_eq_zero_of_not_mem]
      · omega
      · intro hmem
        have := hy _ hmem
        omega
  | some k =>
    rw [h1 k]
    refine ⟨fun m h => ?_, fun hS => ?_⟩
    · by_cases hk : 0 ≤ k ∧ k < C
      · rw [if_pos hk] at h
        obtain rfl := Except.ok.inj h
        refine ⟨⟨hy, fun m e => ?_⟩, by omega, fun c e => ?_, fun e => (by rw [hm] at e; cases e)⟩
        · rw [hm] at e
          obtain rfl := Option.some.inj e
          exact hk
        · rw [hm] at e
          obtain rfl := Option.some.inj e
          omega
      · rw [if_neg hk] at h; cases h
    · rw [if_pos (hS.majority k hm)]
      exact ⟨_, rfl⟩

theorem begin_ok {N : ANet X W} {T : Torch Rat} (ha : ArgmaxLaw T.argmax) {view : W → V} {g : V → X → List Rat} {C : Nat}
    (hN : Rowwise N.toNet view g C) {cfg : Cfg} {r : Ready X} (hne : r.yl ≠ []) (w : W) :
    (∀ p w', begin N T cfg r w = (.ok p, w') → Suits cfg C r.yl ∧ IsMajority cfg C r.yl p.1 ∧
      p.2 = List.replicate C cfg.cutoff) ∧ (Suits cfg C r.yl → ∃ p w', begin N T cfg r w = (.ok p, w')) ∧
    (begin N T cfg r w).2 = restore N w (N.eval w) := by
  have hF : ∀ w xs, N.forward w xs = (⟨2, C, xs.map (g (view w))⟩, w) := hN
  unfold begin
  simp only [hF]
  rw [if_neg (by simp)]
  by_cases hy : r.yl.any (fun c => decide (c < 0 ∨ (C : Int) ≤ c)) = true
  · rw [if_pos hy]
    refine ⟨fun p w' h => (by cases h), fun hS => ?_, rfl⟩
    obtain ⟨c, hc, hb⟩ := List.any_eq_true.mp hy
    have := hS.labels c hc
    have := of_decide_eq_true hb
    omega
  · rw [if_neg hy]
    have hy' : ∀ c ∈ r.yl, 0 ≤ c ∧ c < (C : Int) := by
      intro c hc
      have h : ¬(c < 0 ∨ (C : Int) ≤ c) := fun hb => hy (List.any_eq_true.mpr ⟨c, hc, decide_eq_true hb⟩)
      omega
    obtain ⟨m1, m2⟩ := majority_ok ha (cfg := cfg) hne hy'
    cases hm : adshMajority T.argmax cfg.majority C (r.yl.map Int.toNat) with
    | error e =>
      refine ⟨fun p w' h => (by simp only at h; cases h), fun hS => ?_, rfl⟩
      obtain ⟨m, h⟩ := m2 hS
      rw [hm] at h
      cases h
    | ok m =>
      refine ⟨fun p w' h => ?_, fun _ => ⟨_, _, rfl⟩, rfl⟩
      simp only [Prod.mk.injEq, Except.ok.injEq] at h
      obtain ⟨rfl, -⟩ := h
      exact ⟨(m1 m hm).1, (m1 m hm).2, rfl⟩

/-! ### The epochs -/

theorem thresholds_rowwise {N : ANet X W} {T : Torch Rat} {view : W → V} {log : W → List (V × Objective X Rat)}
    {g : V → X → List Rat} {C : Nat} (hN : Rowwise N.toNet view g C) (hM : Modes N view log) (hL : Logs N.toNet view log)
    (hs : ∀ v x, IsDistN C (T.softmax (g v x))) {cfg : Cfg}
    (hb : 0 < cfg.batchSize) (h0 : 0 < cfg.cutoff) (m : Nat) (xw : List X) (e : Nat) {score : List Rat} (hl : score.length = C)
    (hp : ∀ x ∈ score, 0 < x) (w : W) :
    ∃ new w', thresholds N T cfg m xw e score w = (.ok new, w') ∧ view w' = view w ∧ log w' = log w ∧ new.length = C ∧
      (∀ x ∈ new, 0 < x) ∧
      (if (e : Int) < cfg.warmUp then new = score
        else Adjusted cfg.cutoff m (xw.map fun x => predict T.argmax (T.softmax (g (view w) x))) score new) := by
  unfold thresholds
  by_cases hw : cfg.warmUp ≤ (e : Int)
  · rw [if_pos hw, refresh_rowwise hN hM hb m xw hl w]
    have hw' : ¬ (e : Int) < cfg.warmUp := by omega
    simp only [if_neg hw']
    obtain ⟨v1, v2⟩ := restore_view hM hL w (N.eval w)
    obtain ⟨a1, a2⟩ := C116_scores cfg.cutoff m (xw.map fun x => predict T.argmax (T.softmax (g (view w) x))) score
    refine ⟨_, _, rfl, by rw [v1, hM.eval], by rw [v2, hM.log], by rw [a1, hl], scores_pos h0 ?_ hp, a1, a2⟩
    intro p hp
    obtain ⟨x, -, rfl⟩ := List.mem_map.mp hp
    have hd := hs (view w) x
    have h1 := (dist_max C _ hd).1
    have hC : 0 < C := by
      rcases Nat.eq_zero_or_pos C with h | h
      · exfalso
        have h2 := hd.2.2
        have h3 := hd.1
        rw [h] at h3
        rw [List.length_eq_zero_iff.mp h3] at h2
        simp at h2
      · exact h
    have : (0 : Rat) < 1 / (C : Rat) := by positivity
    exact lt_of_lt_of_le this h1
  · have hw' : (e : Int) < cfg.warmUp := by omega
    simp only [if_neg hw, if_pos hw']
    exact ⟨_, _, rfl, rfl, rfl, hl, hp, rfl⟩

theorem epochs_course {N : ANet X W} {T : Torch Rat} (ha : ArgmaxLaw T.argmax) {view : W → V}
    {log : W → List (V × Objective X Rat)} {g : V → X → List Rat} {C : Nat} (hC : 0 < C) (hN : Rowwise N.toNet view g C)
    (hM : Modes N view log) (hL : Logs N.toNet view log) (hs : ∀ v x, IsDistN C (T.softmax (g v x))) {cfg : Cfg}
    (hb : 0 < cfg.batchSize) (h0 : 0 < cfg.cutoff) (m : Nat) (xw : List X) :
    ∀ (eps : List (List (Batch X))) (e : Nat) (score : List Rat) (w : W) (st' : List Rat × W),
    (∀ ep ∈ eps, ep ≠ [] ∧ ∀ s ∈ ep, s.xl.length = s.yl.length ∧ s.xw.length = s.xs.length) →
    score.length = C → (∀ x ∈ score, 0 < x) → epochs N T cfg m xw e (score, w) eps = (st', .ok ()) →
    ∃ obs : List (List (V × Objective X Rat)), log st'.2 = log w ++ obs.flatten ∧
      Course T.argmax cfg (fun v x => T.softmax (g v x)) m xw e score eps obs
  | [], e, score, w, st', _, _, _, h => by
    simp only [epochs, Prod.mk.injEq, and_true] at h
    subst h
    exact ⟨[], by simp, trivial⟩
  | ep :: eps, e, score, w, st', hz, hl, hp, h => by
    obtain ⟨new, w1, t1, t2, t3, t4, t5, t6⟩ := thresholds_rowwise hN hM hL hs hb h0 m xw e hl hp w
    rw [epochs] at h
    simp only [t1] at h
    cases h1 : trainSteps N.toNet (adsh T) cfg.cat cfg.lambdaU (new, w1) ep with
    | mk st1 res =>
    rw [h1] at h
    cases res with
    | error er => cases h
    | ok u =>
    simp only at h
    obtain ⟨k1, ob, k2, k3, k4⟩ := trainSteps_adsh hN hL h1
    obtain ⟨sc, w2⟩ := st1
    simp only at k1 k2
    subst k1
    obtain ⟨obs, e1, e2⟩ := epochs_course ha hC hN hM hL hs hb h0 m xw eps (e + 1) sc w2 st'
      (fun x hx => hz x (by simp [hx])) t4 t5 h
    refine ⟨ob :: obs, by rw [e1, k2, t3]; simp, sc, view w, by rw [← t2]; exact k4 (hz ep (by simp)).1, t6, ?_, e2⟩
    refine forall₂_weaken ?_ (hz ep (by simp)).2 k3
    rintro s ⟨v, o⟩ ⟨z1, z2⟩ ho
    simp only at ho ⊢
    rw [ho]
    refine loss_adsh ha ?_ t5 (fun x => by rw [t4]; exact (hs v x).1) z1 z2
    intro hnil
    rw [hnil] at t4
    simp at t4
    omega

theorem Epochs.nonempty {xl : List X} {yl : List Int} {xw : List (X × Int)} {xs : List X} {b e : Int}
    {eps : List (List (Batch X))} (h : Epochs xl yl xw xs b e eps) (hb : 0 < b) (hl : xl ≠ []) :
    ∀ ep ∈ eps, ep ≠ [] ∧ ∀ s ∈ ep, s.xl.length = s.yl.length ∧ s.xw.length = s.xs.length := by
  intro ep hep
  refine ⟨?_, fun s hs => Epochs.sizes h s (List.mem_flatten.mpr ⟨ep, hep, hs⟩)⟩
  rintro rfl
  have h1 := (h.each _ hep).1
  have hn : 0 < xl.length := List.length_pos_iff.mpr hl
  have hq : (0 : ℚ) < (xl.length : ℚ) / b := by
    have : (0 : ℚ) < b := by exact_mod_cast hb
    have : (0 : ℚ) < xl.length := by exact_mod_cast hn
    positivity
  have : 0 < ⌈(xl.length : ℚ) / b⌉ := Int.ceil_pos.mpr hq
  simp only [List.length_nil, Nat.cast_zero] at h1
  omega

/-- **C175 (training).**  A successful `fit` made one optimizer step per batch of its fair epochs.  In every epoch after the
warm-up the thresholds were adjusted once, before its first step, to the predictions of the network on the whole pool; every step
used the ADSH loss over its batch with the thresholds of its epoch and the network as it was at that moment.  The majority class is
the given one or a most frequent label, and before the first epoch all thresholds are `p_cutoff`. -/
theorem C175_training (G : TorchGen σ) (hG : G.Lawful) (N : ANet X W) (T : Torch Rat) (ha : ArgmaxLaw T.argmax)
    (view : W → V) (log : W → List (V × Objective X Rat)) (g : V → X → List Rat) (C : Nat) (hN : Rowwise N.toNet view g C)
    (hM : Modes N view log) (hL : Logs N.toNet view log) (hs : ∀ v x, IsDistN C (T.softmax (g v x)))
    (torch : Bool) (cfg : Cfg) (bundle : Option Bundle) (data : Option (Input X)) (seed : Int) (fitted f' : Bool) (w w' : W)
    (h : fit G N T torch cfg bundle data seed fitted w = ((f', w'), .ok ())) :
    ∃ d xw xs eps m, ∃ obs : List (List (V × Objective X Rat)), data = some d ∧ Acceptable torch cfg bundle d xw xs ∧
      Epochs d.xl.rows d.yl (xw.rows.zip ((List.range xw.rows.length).map Int.ofNat)) xs.rows cfg.batchSize cfg.maxEpochs eps ∧
      IsMajority cfg C d.yl m ∧ log w' = log w ++ obs.flatten ∧ f' = true ∧
      Course T.argmax cfg (fun v x => T.softmax (g v x)) m xw.rows 0 (List.replicate C cfg.cutoff) eps obs := by
  unfold fit at h
  cases hc : check torch cfg bundle data with
  | error e => rw [hc] at h; cases h
  | ok r =>
  rw [hc] at h
  obtain ⟨d, xw, xs, rfl, hA, rfl⟩ := check_ok.mp hc
  have hyne : d.yl ≠ [] := by
    intro h0
    have := hA.common.rows
    rw [h0] at this
    exact hA.common.nonempty (List.length_eq_zero_iff.mp this)
  simp only at h
  cases hbg : begin N T cfg ⟨d.xl.rows, d.yl, xw.rows.zip ((List.range xw.rows.length).map Int.ofNat), xs.rows⟩ w with
  | mk res w1 =>
  obtain ⟨b1, -, b3⟩ := begin_ok ha hN (cfg := cfg)
    (r := ⟨d.xl.rows, d.yl, xw.rows.zip ((List.range xw.rows.length).map Int.ofNat), xs.rows⟩) hyne w
  rw [hbg] at h b3
  simp only at b3
  cases res with
  | error e => cases h
  | ok p =>
  obtain ⟨bS, bM, bp⟩ := b1 p w1 hbg
  simp only at h
  obtain ⟨eps, he, hE⟩ := batches_ok (cfg := common cfg) hG hA.common (index_length xw.rows.length) seed
  have he' : fitBatches G d.xl.rows d.yl (xw.rows.zip ((List.range xw.rows.length).map Int.ofNat)) xs.rows cfg.batchSize
      cfg.maxEpochs seed = .ok eps := he
  rw [he'] at h
  simp only at h
  have hxw : (xw.rows.zip ((List.range xw.rows.length).map Int.ofNat)).map (·.1) = xw.rows :=
    List.map_fst_zip (by simp)
  rw [hxw] at h
  cases hr : epochs N T cfg p.1 xw.rows 0 (p.2, N.train w1) eps with
  | mk st res =>
  rw [hr] at h
  cases res with
  | error e => cases h
  | ok u =>
  simp only [Prod.mk.injEq, and_true] at h
  obtain ⟨rfl, rfl⟩ := h
  have hC : 0 < C := by have := bM.1; omega
  rw [bp] at hr
  obtain ⟨obs, e1, e2⟩ := epochs_course ha hC hN hM hL hs hA.common.batch hA.cutoff.1 p.1 xw.rows eps 0 _ _ _
    (Epochs.nonempty hE hA.common.batch hA.common.nonempty) (by simp) (by
      intro x hx
      rw [(List.mem_replicate.mp hx).2]
      exact hA.cutoff.1) hr
  refine ⟨d, xw, xs, eps, p.1, obs, rfl, hA, hE, bM, ?_, rfl, e2⟩
  rw [e1, hL.train, b3, (restore_view hM hL _ _).2, hM.log]

/-! ### Which fits succeed -/

theorem trainSteps_total {N : Net X W Rat} {T : Torch Rat} {view : W → V} {g : V → X → List Rat} {C : Nat}
    (hN : Rowwise N view g C) {cat : Bool} {scale : Rat} {score : List Rat} (hl : score.length = C) :
    ∀ {ss : List (Batch X)} {w : W}, (∀ s ∈ ss, s.xw.length = s.xs.length) →
    (∀ s ∈ ss, ∀ y ∈ s.yl, 0 ≤ y ∧ y < (C : Int)) → ∃ w', trainSteps N (adsh T) cat scale (score, w) ss = ((score, w'), .ok ())
  | [], w, _, _ => ⟨w, rfl⟩
  | s :: ss, w, h2, hy => by
    simp only [trainSteps]
    rw [trainStep_rowwise hN]
    unfold plainStep
    rw [show agree s.yl ⟨2, C, s.xl.map (g (view w))⟩ ⟨2, C, (s.xw.map (·.1)).map (g (view w))⟩
        (⟨2, C, s.xs.map (g (view w))⟩ : Out Rat) = .ok () from
      agree_ok.mpr ⟨rfl, rfl, rfl, by simpa using h2 s (by simp), rfl, rfl, hy s (by simp)⟩]
    simp only [adsh]
    rw [if_neg (by simp [hl])]
    exact trainSteps_total hN hl (fun x hx => h2 x (by simp [hx])) (fun x hx => hy x (by simp [hx]))

theorem epochs_total {N : ANet X W} {T : Torch Rat} {view : W → V} {log : W → List (V × Objective X Rat)}
    {g : V → X → List Rat} {C : Nat} (hN : Rowwise N.toNet view g C) (hM : Modes N view log) {cfg : Cfg}
    (hb : 0 < cfg.batchSize) (m : Nat) (xw : List X) :
    ∀ (eps : List (List (Batch X))) (e : Nat) (score : List Rat) (w : W), score.length = C →
    (∀ s ∈ eps.flatten, s.xw.length = s.xs.length ∧ ∀ y ∈ s.yl, 0 ≤ y ∧ y < (C : Int)) →
    ∃ st', epochs N T cfg m xw e (score, w) eps = (st', .ok ())
  | [], e, score, w, _, _ => ⟨_, rfl⟩
  | ep :: eps, e, score, w, hl, hz => by
    obtain ⟨new, w1, t1, t4⟩ : ∃ new w1, thresholds N T cfg m xw e score w = (.ok new, w1) ∧ new.length = C := by
      unfold thresholds
      split_ifs
      · rw [refresh_rowwise hN hM hb m xw hl w]
        exact ⟨_, _, rfl, by rw [(C116_scores _ _ _ _).1, hl]⟩
      · exact ⟨_, _, rfl, hl⟩
    rw [epochs]
    simp only [t1]
    obtain ⟨w2, h2⟩ := trainSteps_total hN t4 (T := T) (cat := cfg.cat) (scale := cfg.lambdaU) (ss := ep) (w := w1)
      (fun s hs => (hz s (by simp [hs])).1) (fun s hs => (hz s (by simp [hs])).2)
    rw [h2]
    exact epochs_total hN hM hb m xw eps (e + 1) new w2 t4 (fun s hs => hz s (by
      rw [List.flatten_cons, List.mem_append]; exact .inr hs))

/-- **C175 (which fits succeed).**  With a row-wise network over `C` classes, `fit` succeeds exactly if data, bundle and parameters
are acceptable, every label is a class of the network and a given majority class is one. -/
theorem C175_accepts (G : TorchGen σ) (hG : G.Lawful) (N : ANet X W) (T : Torch Rat) (ha : ArgmaxLaw T.argmax)
    (view : W → V) (log : W → List (V × Objective X Rat)) (g : V → X → List Rat) (C : Nat) (hN : Rowwise N.toNet view g C)
    (hM : Modes N view log) (torch : Bool) (cfg : Cfg) (bundle : Option Bundle) (data : Option (Input X)) (seed : Int)
    (fitted : Bool) (w : W) :
    (fit G N T torch cfg bundle data seed fitted w).2 = .ok () ↔
      ∃ d xw xs, data = some d ∧ Acceptable torch cfg bundle d xw xs ∧ Suits cfg C d.yl := by
  unfold fit
  cases hc : check torch cfg bundle data with
  | error e =>
    refine iff_of_false (by simp) ?_
    rintro ⟨d, xw, xs, rfl, hA, -⟩
    rw [check_ok.mpr ⟨d, xw, xs, rfl, hA, rfl⟩] at hc
    cases hc
  | ok r =>
  obtain ⟨d, xw, xs, rfl, hA, rfl⟩ := check_ok.mp hc
  have hyne : d.yl ≠ [] := by
    intro h0
    have := hA.common.rows
    rw [h0] at this
    exact hA.common.nonempty (List.length_eq_zero_iff.mp this)
  obtain ⟨b1, b2, -⟩ := begin_ok ha hN (cfg := cfg)
    (r := ⟨d.xl.rows, d.yl, xw.rows.zip ((List.range xw.rows.length).map Int.ofNat), xs.rows⟩) hyne w
  obtain ⟨eps, he, hE⟩ := batches_ok (cfg := common cfg) hG hA.common (index_length xw.rows.length) seed
  have he' : fitBatches G d.xl.rows d.yl (xw.rows.zip ((List.range xw.rows.length).map Int.ofNat)) xs.rows cfg.batchSize
      cfg.maxEpochs seed = .ok eps := he
  simp only
  cases hbg : begin N T cfg ⟨d.xl.rows, d.yl, xw.rows.zip ((List.range xw.rows.length).map Int.ofNat), xs.rows⟩ w with
  | mk res w1 =>
  cases res with
  | error e =>
    refine iff_of_false (by simp) ?_
    rintro ⟨d', xw', xs', hd, hA', hS⟩
    obtain rfl := Option.some.inj hd
    obtain ⟨p, w2, h2⟩ := b2 hS
    rw [hbg] at h2
    cases h2
  | ok p =>
    obtain ⟨bS, bM, bp⟩ := b1 p w1 hbg
    refine iff_of_true ?_ ⟨d, xw, xs, rfl, hA, bS⟩
    simp only
    rw [he']
    simp only
    obtain ⟨st', hst⟩ := epochs_total hN hM (T := T) hA.common.batch p.1
      ((xw.rows.zip ((List.range xw.rows.length).map Int.ofNat)).map (·.1)) eps 0 p.2 (N.train w1) (by rw [bp]; simp)
      (fun s hs => ⟨(Epochs.sizes hE s hs).2, fun y hy => bS.labels y (Epochs.sub hE s hs y hy)⟩)
    rw [hst]

/-- **C175 (labels first).**  Unlike the methods of `C161_label_violated`, ADSH notices a label without a class, or a wrong
majority class, before any training: parameters, optimizer steps and mode are as before. -/
theorem C175_labels (G : TorchGen σ) (N : ANet X W) (T : Torch Rat) (ha : ArgmaxLaw T.argmax) (tr : W → List (Event X))
    (hT : Traced N tr)
    (view : W → V) (log : W → List (V × Objective X Rat)) (g : V → X → List Rat) (C : Nat) (hN : Rowwise N.toNet view g C)
    (hM : Modes N view log) (hL : Logs N.toNet view log) (torch : Bool) (cfg : Cfg) (bundle : Option Bundle) (d : Input X)
    (xw xs : Feats X) (seed : Int) (fitted : Bool) (w : W) (hA : Acceptable torch cfg bundle d xw xs) (hS : ¬ Suits cfg C d.yl) :
    ∃ w' e, fit G N T torch cfg bundle (some d) seed fitted w = ((fitted, w'), .error e) ∧ view w' = view w ∧
      log w' = log w ∧ N.training w' = N.training w := by
  unfold fit
  rw [check_ok.mpr ⟨d, xw, xs, rfl, hA, rfl⟩]
  have hyne : d.yl ≠ [] := by
    intro h0
    have := hA.common.rows
    rw [h0] at this
    exact hA.common.nonempty (List.length_eq_zero_iff.mp this)
  obtain ⟨b1, -, b3⟩ := begin_ok ha hN (cfg := cfg)
    (r := ⟨d.xl.rows, d.yl, xw.rows.zip ((List.range xw.rows.length).map Int.ofNat), xs.rows⟩) hyne w
  simp only
  cases hbg : begin N T cfg ⟨d.xl.rows, d.yl, xw.rows.zip ((List.range xw.rows.length).map Int.ofNat), xs.rows⟩ w with
  | mk res w1 =>
  rw [hbg] at b3
  simp only at b3
  cases res with
  | ok p => exact absurd (b1 p w1 hbg).1 hS
  | error e =>
    obtain ⟨r1, r2⟩ := restore_view hM hL w (N.eval w)
    refine ⟨w1, e, rfl, by rw [b3, r1, hM.eval], by rw [b3, r2, hM.log], ?_⟩
    rw [b3]
    unfold restore
    split_ifs with ht
    · rw [(hT.train _).1, ht]
    · rw [(hT.eval _).1]
      simpa using ht

/-! ### Modes -/

theorem look_traced {N : ANet X W} {tr : W → List (Event X)} (hT : Traced N tr) {cat : Bool} {w w' : W} {s : Batch X}
    {o : Out Rat × Out Rat × Out Rat} (ht : N.training w = true) (h : look N.toNet cat w s = (.ok o, w')) :
    N.training w' = true ∧ tr w' ++ [.step] = tr w ++ batchEvents cat s := by
  have f1 := fun w xs => (hT.forward w xs).1
  have f2 := fun w xs => (hT.forward w xs).2
  unfold look at h
  cases cat with
  | true =>
    rw [if_pos rfl] at h
    simp only at h
    split_ifs at h with c1 c2
    · cases h
    · cases h
    · simp only [Prod.mk.injEq] at h
      obtain ⟨-, rfl⟩ := h
      exact ⟨by rw [f1, ht], by simp [f2, ht, batchEvents]⟩
  | false =>
    rw [if_neg (by simp)] at h
    simp only [Prod.mk.injEq] at h
    obtain ⟨-, rfl⟩ := h
    exact ⟨by simp [f1, ht], by simp [f1, f2, ht, batchEvents]⟩

theorem trainSteps_traced {N : ANet X W} {T : Torch Rat} {tr : W → List (Event X)} (hT : Traced N tr) {cat : Bool} {scale : Rat} :
    ∀ {ss : List (Batch X)} {st st' : List Rat × W}, N.training st.2 = true →
    trainSteps N.toNet (adsh T) cat scale st ss = (st', .ok ()) →
    N.training st'.2 = true ∧ tr st'.2 = tr st.2 ++ ss.flatMap (batchEvents cat)
  | [], st, st', ht, h => by
    simp only [trainSteps, Prod.mk.injEq, and_true] at h
    subst h
    exact ⟨ht, by simp⟩
  | s :: ss, st, st', ht, h => by
    simp only [trainSteps] at h
    cases h1 : trainStep N.toNet (adsh T) cat scale st s with
    | mk st1 res =>
    rw [h1] at h
    cases res with
    | error e => cases h
    | ok u =>
    simp only at h
    have key : N.training st1.2 = true ∧ tr st1.2 = tr st.2 ++ batchEvents cat s := by
      unfold trainStep at h1
      cases hl : look N.toNet cat st.2 s with
      | mk res w =>
      rw [hl] at h1
      cases res with
      | error e => cases h1
      | ok o =>
      obtain ⟨k1, k2⟩ := look_traced hT ht hl
      simp only at h1
      cases ha : agree s.yl o.1 o.2.1 o.2.2 with
      | error e => rw [ha] at h1; cases h1
      | ok u =>
      rw [ha] at h1
      simp only [adsh] at h1
      by_cases hc : o.1.classes ≠ st.1.length
      · rw [if_pos hc] at h1; cases h1
      · rw [if_neg hc] at h1
        simp only [Prod.mk.injEq, and_true] at h1
        subst h1
        exact ⟨by rw [(hT.step _ _).1, k1], by rw [(hT.step _ _).2, k2]⟩
    obtain ⟨e1, e2⟩ := trainSteps_traced hT key.1 h
    exact ⟨e1, by rw [e2, key.2]; simp⟩

theorem survey_traced {N : ANet X W} {T : Torch Rat} {tr : W → List (Event X)} (hT : Traced N tr) {C : Nat} :
    ∀ {cs : List (List X)} {w w' : W} {ps : List (Rat × Nat)}, N.training w = false → survey N T C w cs = (.ok ps, w') →
    tr w' = tr w ++ cs.map (.look false ·)
  | [], w, w', ps, ht, h => by
    simp only [survey, Prod.mk.injEq] at h
    rw [← h.2]
    simp
  | c :: cs, w, w', ps, ht, h => by
    rw [survey] at h
    split_ifs at h with c1 c2
    · cases h
    · cases h
    cases hr : survey N T C (N.forward w c).2 cs with
    | mk res w1 =>
    rw [hr] at h
    cases res with
    | error e => cases h
    | ok qs =>
    simp only [Prod.mk.injEq] at h
    obtain ⟨-, rfl⟩ := h
    rw [survey_traced hT (by rw [(hT.forward _ _).1, ht]) hr, (hT.forward _ _).2, ht]
    simp

theorem epochs_traced {N : ANet X W} {T : Torch Rat} {tr : W → List (Event X)} (hT : Traced N tr) {cfg : Cfg} {m : Nat}
    {xw : List X} : ∀ {eps : List (List (Batch X))} {e : Nat} {st st' : List Rat × W}, N.training st.2 = true →
    epochs N T cfg m xw e st eps = (st', .ok ()) →
    N.training st'.2 = true ∧ tr st'.2 = tr st.2 ++ epochEvents cfg (pieces cfg.batchSize.toNat xw) e eps
  | [], e, st, st', ht, h => by
    simp only [epochs, Prod.mk.injEq, and_true] at h
    subst h
    exact ⟨ht, by simp [epochEvents]⟩
  | ep :: eps, e, st, st', ht, h => by
    rw [epochs] at h
    cases h1 : thresholds N T cfg m xw e st.1 st.2 with
    | mk res w1 =>
    rw [h1] at h
    cases res with
    | error er => cases h
    | ok score =>
    simp only at h
    have key : N.training w1 = true ∧ tr w1 = tr st.2 ++
        (if (e : Int) < cfg.warmUp then [] else (pieces cfg.batchSize.toNat xw).map (.look false ·)) := by
      unfold thresholds at h1
      by_cases hw : cfg.warmUp ≤ (e : Int)
      · rw [if_pos hw] at h1
        have hw' : ¬ (e : Int) < cfg.warmUp := by omega
        rw [if_neg hw']
        unfold refresh at h1
        cases hr : survey N T st.1.length (N.eval st.2) (pieces cfg.batchSize.toNat xw) with
        | mk res w2 =>
        rw [hr] at h1
        cases res with
        | error er => cases h1
        | ok ps =>
        simp only [Prod.mk.injEq] at h1
        obtain ⟨-, rfl⟩ := h1
        unfold restore
        rw [if_pos ht]
        refine ⟨(hT.train _).1, ?_⟩
        rw [(hT.train _).2, survey_traced hT (hT.eval _).1 hr, (hT.eval _).2]
      · rw [if_neg hw] at h1
        have hw' : (e : Int) < cfg.warmUp := by omega
        simp only [Prod.mk.injEq] at h1
        rw [if_pos hw', ← h1.2]
        exact ⟨ht, by simp⟩
    cases h2 : trainSteps N.toNet (adsh T) cfg.cat cfg.lambdaU (score, w1) ep with
    | mk st1 res =>
    rw [h2] at h
    cases res with
    | error er => cases h
    | ok u =>
    simp only at h
    obtain ⟨k1, k2⟩ := trainSteps_traced hT (st := (score, w1)) key.1 h2
    obtain ⟨e1, e2⟩ := epochs_traced hT k1 h
    refine ⟨e1, ?_⟩
    rw [e2, k2, key.2]
    simp [epochEvents]

/-- **C175 (modes).**  For any network: a successful `fit` looked once at the first labeled row in evaluation mode; in every epoch
after the warm-up it looked at each row of the weak pool once in evaluation mode, in order and in parts of at most `batch_size`;
everything else it did with the network were the batches, each looked at in training mode and followed by one optimizer step.  It
leaves the network in training mode. -/
theorem C175_modes (G : TorchGen σ) (hG : G.Lawful) (N : ANet X W) (T : Torch Rat) (tr : W → List (Event X)) (hT : Traced N tr)
    (torch : Bool) (cfg : Cfg) (bundle : Option Bundle) (data : Option (Input X)) (seed : Int) (fitted f' : Bool) (w w' : W)
    (h : fit G N T torch cfg bundle data seed fitted w = ((f', w'), .ok ())) :
    ∃ d xw xs eps parts, data = some d ∧ d.xw = some xw ∧ d.xs = some xs ∧
      Epochs d.xl.rows d.yl (xw.rows.zip ((List.range xw.rows.length).map Int.ofNat)) xs.rows cfg.batchSize cfg.maxEpochs eps ∧
      InParts cfg.batchSize.toNat xw.rows parts ∧
      tr w' = tr w ++ [.look false (d.xl.rows.take 1)] ++ epochEvents cfg parts 0 eps ∧ N.training w' = true := by
  unfold fit at h
  cases hc : check torch cfg bundle data with
  | error e => rw [hc] at h; cases h
  | ok r =>
  rw [hc] at h
  obtain ⟨d, xw, xs, rfl, hA, rfl⟩ := check_ok.mp hc
  simp only at h
  cases hbg : begin N T cfg ⟨d.xl.rows, d.yl, xw.rows.zip ((List.range xw.rows.length).map Int.ofNat), xs.rows⟩ w with
  | mk res w1 =>
  rw [hbg] at h
  cases res with
  | error e => cases h
  | ok p =>
  have hw1 : tr w1 = tr w ++ [.look false (d.xl.rows.take 1)] := by
    have h1 : (begin N T cfg ⟨d.xl.rows, d.yl, xw.rows.zip ((List.range xw.rows.length).map Int.ofNat), xs.rows⟩ w).2 =
        restore N w (N.forward (N.eval w) (d.xl.rows.take 1)).2 := by
      unfold begin
      simp only
      split_ifs
      · rfl
      · rfl
      · split <;> rfl
    rw [hbg] at h1
    simp only at h1
    rw [h1]
    have h2 : ∀ w', tr (restore N w w') = tr w' := by
      intro w'
      unfold restore
      split_ifs
      · exact (hT.train _).2
      · rfl
    rw [h2, (hT.forward _ _).2, (hT.eval _).1, (hT.eval _).2]
  simp only at h
  obtain ⟨eps, he, hE⟩ := batches_ok (cfg := common cfg) hG hA.common (index_length xw.rows.length) seed
  have he' : fitBatches G d.xl.rows d.yl (xw.rows.zip ((List.range xw.rows.length).map Int.ofNat)) xs.rows cfg.batchSize
      cfg.maxEpochs seed = .ok eps := he
  rw [he'] at h
  simp only at h
  have hxw : (xw.rows.zip ((List.range xw.rows.length).map Int.ofNat)).map (·.1) = xw.rows :=
    List.map_fst_zip (by simp)
  rw [hxw] at h
  cases hr : epochs N T cfg p.1 xw.rows 0 (p.2, N.train w1) eps with
  | mk st res =>
  rw [hr] at h
  cases res with
  | error e => cases h
  | ok u =>
  simp only [Prod.mk.injEq, and_true] at h
  obtain ⟨rfl, rfl⟩ := h
  obtain ⟨e1, e2⟩ := epochs_traced hT (st := (p.2, N.train w1)) (hT.train _).1 hr
  refine ⟨d, xw, xs, eps, _, rfl, hA.common.weak, hA.common.strong, hE,
    pieces_parts _ (by have := hA.common.batch; simp only [common] at this; omega) _, ?_, e1⟩
  rw [e2, (hT.train _).2, hw1]

/-! ### Examples -/

/-- A network for the examples: its steps, its mode and what was done with it. -/
structure DemoW where
  /-- steps -/
  steps : List (Nat × Objective Nat Rat)
  /-- mode -/
  training : Bool
  /-- everything -/
  trace : List (Event Nat)
deriving DecidableEq

/-- The network. -/
def demoNet : ANet Nat DemoW where
  train w := { w with training := true }
  eval w := { w with training := false }
  training w := w.training
  forward w xs := (⟨2, 2, xs.map (Fit.demoLogits w.steps.length)⟩, { w with trace := w.trace ++ [.look w.training xs] })
  step w o := { w with steps := w.steps ++ [(w.steps.length, o)], trace := w.trace ++ [.step] }

theorem demo_traced : Traced demoNet (·.trace) :=
  ⟨fun _ => ⟨rfl, rfl⟩, fun _ => ⟨rfl, rfl⟩, fun _ _ => ⟨rfl, rfl⟩, fun _ _ => ⟨rfl, rfl⟩⟩

/-- Parameters: one epoch of warm-up. -/
def demoCfg (e : Int) (m : Option Int) : Cfg := ⟨1, 7 / 8, false, 2, e, 1, m⟩

/-- `fit` in the examples. -/
def demoFit (cfg : Cfg) (d : Input Nat) : (Bool × DemoW) × Except PyErr Unit :=
  fit TorchGen.demo demoNet Fit.demoTorch true cfg (some ⟨true, true⟩) (some d) 0 false ⟨[], false, []⟩

/-- Two epochs; in the second one the thresholds are lower for the minority class. -/
example : (demoFit (demoCfg 2 (some 0)) (Fit.demoData [0, 0] [4, 5])).2 = .ok () ∧
    (demoFit (demoCfg 2 (some 0)) (Fit.demoData [0, 0] [4, 5])).1.2.trace =
      [.look false [0], .look true [1, 0], .look true [14, 15], .look true [4, 5], .step,
        .look false [4, 5], .look true [0, 1], .look true [15, 14], .look true [5, 4], .step] ∧
    ((demoFit (demoCfg 2 (some 0)) (Fit.demoData [0, 0] [4, 5])).1.2.steps.map fun p => p.2.unlabeled.map (·.weight)) =
      [[0, 0], [1 / 2, 0]] := by
  decide +kernel

/-- The same network without the trace, which treats rows by themselves. -/
def plainNet : ANet Nat Fit.DemoW where
  toNet := Fit.demoNet
  eval w := { w with training := false }
  training w := w.training

theorem plain_modes : Modes plainNet (fun w => w.steps.length) (fun w => w.steps) :=
  ⟨fun _ => rfl, fun _ => rfl, fun _ => rfl⟩

theorem plain_softmax (v x : Nat) : IsDistN 2 (Fit.demoTorch.softmax (Fit.demoLogits v x)) := by
  refine ⟨?_, (Fit.demo_softmax v x).1⟩
  unfold Fit.demoTorch Fit.demoLogits
  split_ifs <;> rfl

theorem demo_acceptable (e : Int) (he : 0 < e) (m : Option Int) (y : List Int) (hy : y ≠ []) (u : List Nat) (hu : u ≠ []) :
    Acceptable true (demoCfg e m) (some ⟨true, true⟩) (Fit.demoData y u) ⟨u, true⟩ ⟨u.map (· + 10), true⟩ :=
  ⟨⟨rfl, by simp [Fit.demoData], ⟨rfl, rfl⟩, by simpa [Fit.demoData] using hy, rfl, rfl, hu, by simp, ⟨rfl, rfl, rfl⟩,
    ⟨_, rfl, rfl, rfl⟩, by simp [common, demoCfg], he, by norm_num [common, demoCfg], rfl, by norm_num [common, demoCfg]⟩,
    by norm_num [demoCfg], by norm_num [demoCfg]⟩

/-- Non-vacuity of `C175_accepts` and with it of `C175_training`, for any number of epochs. -/
example (e : Int) (he : 0 < e) (y : List Int) (hy : y ≠ []) (hc : ∀ c ∈ y, 0 ≤ c ∧ c < 2) (u : List Nat) (hu : u ≠ []) :
    (fit TorchGen.demo plainNet Fit.demoTorch true (demoCfg e none) (some ⟨true, true⟩) (some (Fit.demoData y u)) 0 false
      Fit.demoW).2 = .ok () :=
  (C175_accepts TorchGen.demo TorchGen.demo_lawful plainNet Fit.demoTorch argmax_law _ _ _ _ Fit.demo_rowwise
    plain_modes true _ _ _ 0 false _).mpr
    ⟨_, _, _, rfl, demo_acceptable e he none y hy u hu, hc, fun m h => by cases h⟩

/-- The hypotheses of `C175_training` are met by `plainNet`. -/
example : Rowwise plainNet.toNet (fun w => w.steps.length) Fit.demoLogits 2 ∧
    Modes plainNet (fun w => w.steps.length) (fun w => w.steps) ∧ Logs plainNet.toNet (fun w => w.steps.length) (fun w => w.steps) ∧
    ∀ v x, IsDistN 2 (Fit.demoTorch.softmax (Fit.demoLogits v x)) :=
  ⟨Fit.demo_rowwise, plain_modes, Fit.demo_logs, plain_softmax⟩

/-- A wrong majority class, `C175_labels`. -/
example : demoFit (demoCfg 2 (some 2)) (Fit.demoData [0, 1] [4, 5]) =
    ((false, ⟨[], false, [.look false [0]]⟩), .error .validation) := by
  decide +kernel

end ModSSC.Deep.AdshFit
