import Verif.Inductive.DemTorchModel
import Verif.Inductive.DemProps

/-!
# C196: democratic co-learning gives the same result with numpy and with torch
-/

namespace ModSSC.Inductive
open ModSSC

/-! ## Helper lemmas -/

theorem hotRow_get {k i c : Nat} (hc : c < k) : (hotRow k i).getD c 0 = if c = i then 1 else 0 := by
  unfold hotRow
  rw [List.getD_eq_getElem _ _ (by simpa using hc)]
  simp

theorem hotSum_eq (k : Nat) (w : List Rat) (votes : List Nat) : hotSum k w votes = voteScores k w votes := by
  unfold hotSum voteScores
  apply List.map_congr_left
  intro c hc
  congr 1
  apply List.map_congr_left
  intro r _
  rw [hotRow_get (List.mem_range.mp hc)]
  by_cases h : r.1 = c
  · rw [if_pos h, if_pos h.symm, one_mul]
  · rw [if_neg h, if_neg (fun e => h e.symm), zero_mul]

theorem majorityT_eq (k : Nat) (w : List Rat) (votes : List Nat) : majorityT k w votes = majority k w votes := by
  unfold majorityT majority
  rw [hotSum_eq]

theorem sum_mask (e : Rat → Bool) (c : Nat) : ∀ (votes : List Nat) (w : List Rat),
    ((votes.zip (w.map fun v => if e v then (1 : Rat) else 0)).map fun r => if r.1 = c then r.2 else 0).sum =
      ((((votes.zip w).filter fun r => e r.2).countP fun r => decide (r.1 = c) : Nat) : Rat)
  | [], w => by simp
  | _ :: _, [] => by simp
  | v :: votes, x :: w => by
    have ih := sum_mask e c votes w
    rw [List.map_cons, List.zip_cons_cons, List.map_cons, List.sum_cons, ih, List.zip_cons_cons, List.filter_cons]
    by_cases he : e x = true
    · rw [if_pos he]
      by_cases hv : v = c
      · simp [he, hv, add_comm]
      · simp [he, hv]
    · simp [he]

theorem sum_weights (e : Rat → Bool) (c : Nat) : ∀ (votes : List Nat) (w : List Rat),
    ((votes.zip (List.zipWith (· * ·) w (w.map fun v => if e v then (1 : Rat) else 0))).map fun r => if r.1 = c then r.2 else 0).sum =
      (((votes.zip w).filter fun r => e r.2).map fun r => if r.1 = c then r.2 else 0).sum
  | [], w => by simp
  | _ :: _, [] => by simp
  | v :: votes, x :: w => by
    have ih := sum_weights e c votes w
    rw [List.map_cons, List.zipWith_cons_cons, List.zip_cons_cons, List.map_cons, List.sum_cons, ih, List.zip_cons_cons,
      List.filter_cons]
    by_cases he : e x = true
    · rw [if_pos he]; simp [he]
    · simp [he]

theorem voteScores_getD {k c : Nat} (hc : c < k) (w : List Rat) (votes : List Nat) :
    (voteScores k w votes).getD c 0 = ((votes.zip w).map fun r => if r.1 = c then r.2 else 0).sum := by
  unfold voteScores
  rw [List.getD_eq_getElem _ _ (by simpa using hc)]
  simp

theorem combineT_eq (minConf : Rat) (k : Nat) (w : List Rat) (votes : List Nat) :
    combineT minConf k w votes = combineScores minConf k w votes := by
  unfold combineT combineScores
  dsimp only
  have hany : (w.map fun v => decide (minConf < v)).any id = w.any fun v => decide (minConf < v) := by
    rw [List.any_map]; rfl
  rw [hany]
  have key : ∀ e : Rat → Bool, ∀ l : List Bool, l = w.map e →
      ((List.range k).map fun c =>
        if (hotSum k (l.map fun b => if b then (1 : Rat) else 0) votes).getD c 0 = 0 then 0
        else (hotSum k (List.zipWith (· * ·) w (l.map fun b => if b then (1 : Rat) else 0)) votes).getD c 0 /
            (if (hotSum k (l.map fun b => if b then (1 : Rat) else 0) votes).getD c 0 = 0 then 1
              else (hotSum k (l.map fun b => if b then (1 : Rat) else 0) votes).getD c 0) *
            (((hotSum k (l.map fun b => if b then (1 : Rat) else 0) votes).getD c 0 + 1 / 2) /
              ((hotSum k (l.map fun b => if b then (1 : Rat) else 0) votes).getD c 0 + 1))) =
      (List.range k).map fun c =>
        if ((((votes.zip w).filter fun r => e r.2).countP fun r => decide (r.1 = c) : Nat) : Rat) = 0 then 0
        else (((votes.zip w).filter fun r => e r.2).map fun r => if r.1 = c then r.2 else 0).sum /
            max ((((votes.zip w).filter fun r => e r.2).countP fun r => decide (r.1 = c) : Nat) : Rat) 1 *
            ((((((votes.zip w).filter fun r => e r.2).countP fun r => decide (r.1 = c) : Nat) : Rat) + 1 / 2) /
              (((((votes.zip w).filter fun r => e r.2).countP fun r => decide (r.1 = c) : Nat) : Rat) + 1)) := by
    rintro e l rfl
    apply List.map_congr_left
    intro c hc
    have hc := List.mem_range.mp hc
    rw [List.map_map, hotSum_eq, hotSum_eq, voteScores_getD hc, voteScores_getD hc]
    have h1 := sum_mask e c votes w
    have h2 := sum_weights e c votes w
    rw [show ((fun b : Bool => if b then (1 : Rat) else 0) ∘ e) = (fun v => if e v then (1 : Rat) else 0) from rfl, h1, h2]
    by_cases h0 : ((((votes.zip w).filter fun r => e r.2).countP fun r => decide (r.1 = c) : Nat) : Rat) = 0
    · rw [if_pos h0, if_pos h0]
    · rw [if_neg h0, if_neg h0, if_neg h0]
      have : (1 : Rat) ≤ ((((votes.zip w).filter fun r => e r.2).countP fun r => decide (r.1 = c) : Nat) : Rat) := by
        have : ((votes.zip w).filter fun r => e r.2).countP (fun r => decide (r.1 = c)) ≠ 0 := fun h => h0 (by rw [h]; rfl)
        exact_mod_cast Nat.one_le_iff_ne_zero.mpr this
      rw [max_eq_left this]
  by_cases h : (w.any fun v => decide (minConf < v)) = true
  · rw [if_pos h, if_pos h]
    exact key (fun v => decide (minConf < v)) _ rfl
  · rw [if_neg h, if_neg h]
    exact key (fun _ => true) _ rfl

/-- In sorted different classes the number of classes below a class is its position (helper). -/
theorem countP_lt_idxOf : ∀ {cs : List Int}, cs.Pairwise (· < ·) → ∀ {v : Int}, v ∈ cs →
    cs.countP (fun c => decide (c < v)) = cs.idxOf v
  | [], _, v, h => absurd h (by simp)
  | c :: cs, hs, v, h => by
    obtain ⟨h1, h2⟩ := List.pairwise_cons.mp hs
    rw [List.countP_cons, List.idxOf_cons]
    by_cases e : c = v
    · subst e
      rw [show cs.countP (fun d => decide (d < c)) = 0 from List.countP_eq_zero.mpr (fun d hd => by
        have := h1 d hd
        simp only [decide_eq_true_eq]; omega)]
      simp
    · have hv : v ∈ cs := (List.mem_cons.mp h).resolve_left (fun e' => e e'.symm)
      rw [countP_lt_idxOf h2 hv]
      rw [if_pos (decide_eq_true (h1 v hv)), show (c == v) = false from beq_eq_false_iff_ne.mpr e]
      rfl

theorem npUnique_strict (y : List Int) : (npUnique y).Pairwise (· < ·) := by
  have h1 := npUnique_sorted y
  have h2 := nodup_npUnique y
  exact List.Pairwise.imp₂ (fun a b hab hne => lt_of_le_of_ne hab hne) h1 h2

theorem encode_eq {y pred : List Int} (h : ∀ v ∈ pred, v ∈ npUnique y) :
    encodeLabels (npUnique y) pred = .ok (encodeT (npUnique y) pred) := by
  rw [encodeLabels_total h]
  unfold encodeT
  congr 1
  apply List.map_congr_left
  intro v hv
  exact (countP_lt_idxOf (npUnique_strict y) (h v hv)).symm

theorem checkHot_ok {y : List Int} {preds : List (List Nat)}
    (h : ∀ p ∈ preds, ∃ q : List Int, (∀ v ∈ q, v ∈ npUnique y) ∧ p = encodeT (npUnique y) q) :
    checkHot (npUnique y).length preds = .ok () := by
  unfold checkHot
  rw [if_neg]
  intro hc
  obtain ⟨p, hp, hi⟩ := List.any_eq_true.mp hc
  obtain ⟨i, hi, hk⟩ := List.any_eq_true.mp hi
  obtain ⟨q, hq, rfl⟩ := h p hp
  unfold encodeT at hi
  obtain ⟨v, hv, rfl⟩ := List.mem_map.mp hi
  have h1 := of_decide_eq_true hk
  rw [countP_lt_idxOf (npUnique_strict y) (hq v hv)] at h1
  exact absurd (List.idxOf_lt_length_of_mem (hq v hv)) (by omega)

/-- Torch classifiers whose `classes_t_`, where present, are the labels they were trained with. -/
def KnowsT {M α : Type} (C : Clf M α) (classesT : M → Option (List Int)) : Prop :=
  ∀ m (X : List α) y m', C.fit m X y = .ok m' → classesT m' = none ∨ classesT m' = some (npUnique y)

theorem resolveT_sound {M : Type} {classesT classesOf : M → Option (List Int)} {y : List Int} {ms : List M}
    (ht : ∀ m ∈ ms, classesT m = none ∨ classesT m = some (npUnique y))
    (hn : ∀ m ∈ ms, classesOf m = none ∨ classesOf m = some (npUnique y)) :
    resolveClassesT (ms.map classesT) (ms.map classesOf) y = .ok (npUnique y) := by
  have hmem : ∀ (f : M → Option (List Int)), (∀ m ∈ ms, f m = none ∨ f m = some (npUnique y)) →
      ∀ c ∈ (ms.map f).filterMap id, c = npUnique y := by
    intro f h c hc
    rw [List.mem_filterMap] at hc
    obtain ⟨o, ho, hoc⟩ := hc
    obtain ⟨m, hm, rfl⟩ := List.mem_map.mp ho
    rcases h m hm with h | h
    · rw [h] at hoc; simp at hoc
    · rw [h] at hoc; simp at hoc; exact hoc.symm
  unfold resolveClassesT
  rw [if_neg]
  · have hn' := hmem _ hn
    split
    · rfl
    · rename_i c rest hcons
      rw [hcons] at hn'
      have hc := hn' c List.mem_cons_self
      rw [if_pos]
      exact ⟨List.all_eq_true.mpr fun c' hc' => decide_eq_true (by rw [hc, hn' c' (List.mem_cons_of_mem _ hc')]), hc⟩
  · intro h
    obtain ⟨c, hc, hne⟩ := List.any_eq_true.mp h
    exact (of_decide_eq_true hne) (hmem _ ht c hc)

theorem refit_soundT {M α : Type} {C : Clf M α} {classesT : M → Option (List Int)} (hT : KnowsT C classesT) {y : List Int}
    {Ls Rs : List (Learner M α)} (hH : ∀ L ∈ Ls, Healthy y L) (hR : Ls.mapM (demRefit C) = .ok Rs) :
    ∀ R ∈ Rs, classesT R.m = none ∨ classesT R.m = some (npUnique y) := by
  intro R hRm
  obtain ⟨nR, hg⟩ := mapM_entry hR
  obtain ⟨i, hi, rfl⟩ := List.getElem_of_mem hRm
  obtain ⟨R', hR', he⟩ := hg i _ (List.getElem?_eq_getElem (by omega : i < Ls.length))
  rw [List.getElem?_eq_getElem hi] at hR'
  simp only [Option.some.injEq] at hR'
  subst hR'
  unfold demRefit at he
  obtain ⟨m, hm, he⟩ := ebind_ok.mp he
  simp only [Except.ok.injEq] at he
  have hL := hH _ (List.getElem_mem (by omega : i < Ls.length))
  rw [← he]
  have := hT _ _ _ _ hm
  rw [npUnique_congr hL.2.2] at this
  exact this

theorem mapM_congr_mem {α β : Type} {f g : α → Except PyErr β} : ∀ {l : List α}, (∀ a ∈ l, f a = g a) → l.mapM f = l.mapM g
  | [], _ => rfl
  | a :: l, h => by
    rw [List.mapM_cons, List.mapM_cons, h a List.mem_cons_self, mapM_congr_mem fun b hb => h b (List.mem_cons_of_mem _ hb)]

/-- Encoded predictions of well-behaved learners agree (helper). -/
theorem preds_eq {M α R : Type} {C : Clf M α} {y : List Int} {pool : List α} {Rs : List R} (g : R → M)
    (h : ∀ r ∈ Rs, ∃ p, C.predict (g r) pool = .ok p ∧ ∀ v ∈ p, v ∈ y) :
    ∃ preds, Rs.mapM (fun r => do let p ← C.predict (g r) pool; encodeLabels (npUnique y) p) = .ok preds ∧
      Rs.mapM (fun r => do let p ← C.predict (g r) pool; (.ok (encodeT (npUnique y) p) : Except PyErr (List Nat))) = .ok preds ∧
      checkHot (npUnique y).length preds = .ok () := by
  have e : Rs.mapM (fun r => do let p ← C.predict (g r) pool; encodeLabels (npUnique y) p) =
      Rs.mapM (fun r => do let p ← C.predict (g r) pool; (.ok (encodeT (npUnique y) p) : Except PyErr (List Nat))) := by
    apply mapM_congr_mem
    intro r hr
    obtain ⟨p, hp, hv⟩ := h r hr
    rw [ebind_of_ok hp, ebind_of_ok hp, encode_eq fun v hv' => mem_npUnique.mpr (hv v hv')]
  obtain ⟨preds, hp⟩ := mapM_total
    (f := fun r => do let p ← C.predict (g r) pool; (.ok (encodeT (npUnique y) p) : Except PyErr (List Nat))) (l := Rs) (by
      intro r hr
      obtain ⟨p, hp, -⟩ := h r hr
      exact ⟨_, by rw [ebind_of_ok hp]⟩)
  refine ⟨preds, e.trans hp, hp, checkHot_ok ?_⟩
  intro q hq
  obtain ⟨nR, hg⟩ := mapM_entry hp
  obtain ⟨i, hi, rfl⟩ := List.getElem_of_mem hq
  obtain ⟨q', hq', he⟩ := hg i _ (List.getElem?_eq_getElem (by omega : i < Rs.length))
  rw [List.getElem?_eq_getElem hi] at hq'
  simp only [Option.some.injEq] at hq'
  subst hq'
  obtain ⟨p, hp, hv⟩ := h _ (List.getElem_mem (by omega : i < Rs.length))
  rw [ebind_of_ok hp] at he
  simp only [Except.ok.injEq] at he
  exact ⟨p, fun v hv' => mem_npUnique.mpr (hv v hv'), he.symm⟩

theorem demRoundT_eq {M α : Type} {C : Clf M α} {classesT classesOf : M → Option (List Int)} (hS : Sound C classesOf)
    (hT : KnowsT C classesT) {N : Normal} {S : DemSpec} {X : List α} {y : List Int} {pool : List α}
    {Ls : List (Learner M α)} (hH : ∀ L ∈ Ls, Healthy y L) :
    demRoundT C classesT classesOf N S X y pool Ls = demRound C classesOf N S X y pool Ls := by
  obtain ⟨Rs, hR, hRs⟩ := refit_sound hS hH
  have hRt := refit_soundT hT hH hR
  unfold demRoundT demRound
  rw [ebind_of_ok hR, ebind_of_ok hR]
  have hcs : resolveClasses (Rs.map fun L => classesOf L.m) y = .ok (npUnique y) := by
    have := resolve_sound (classesOf := classesOf) (ms := Rs.map (·.m)) (y := y) (by
      intro m hm
      obtain ⟨R, hR, rfl⟩ := List.mem_map.mp hm
      exact (hRs R hR).2.1)
    rw [List.map_map] at this
    exact this
  have hct : resolveClassesT (Rs.map fun L => classesT L.m) (Rs.map fun L => classesOf L.m) y = .ok (npUnique y) := by
    have := resolveT_sound (classesT := classesT) (classesOf := classesOf) (ms := Rs.map (·.m)) (y := y) (by
      intro m hm
      obtain ⟨R, hR, rfl⟩ := List.mem_map.mp hm
      exact hRt R hR) (by
      intro m hm
      obtain ⟨R, hR, rfl⟩ := List.mem_map.mp hm
      exact (hRs R hR).2.1)
    rw [List.map_map, List.map_map] at this
    exact this
  obtain ⟨preds, h1, h2, h3⟩ := preds_eq (C := C) (y := y) (pool := pool) (Rs := Rs) (fun L => L.m) (fun R hR => (hRs R hR).2.2 pool)
  congr 1
  funext w
  rw [ebind_of_ok hcs, ebind_of_ok hct, ebind_of_ok h1, ebind_of_ok h2, ebind_of_ok h3]
  simp only [majorityT_eq]

theorem demLoopT_eq {M α : Type} {C : Clf M α} {classesT classesOf : M → Option (List Int)} (hS : Sound C classesOf)
    (hT : KnowsT C classesT) {N : Normal} {S : DemSpec} (hc : 0 < S.confidence ∧ S.confidence < 1) {X : List α} {y : List Int}
    (hy : y ≠ []) {pool : List α} : ∀ (fuel : Nat) {Ls : List (Learner M α)}, (∀ L ∈ Ls, Healthy y L) →
    demLoopT C classesT classesOf N S X y pool fuel Ls = demLoop C classesOf N S X y pool fuel Ls
  | 0, Ls, hH => rfl
  | fuel + 1, Ls, hH => by
    obtain ⟨r, hr, hr2⟩ := demRound_sound (N := N) (pool := pool) (X := X) hS hc hy hH
    unfold demLoopT demLoop
    rw [demRoundT_eq hS hT hH, ebind_of_ok hr, ebind_of_ok hr]
    by_cases h : r.2 = true
    · rw [if_pos h, if_pos h]
      exact demLoopT_eq hS hT hc hy fuel hr2
    · rw [if_neg h, if_neg h]

/-! ## C196 -/

/-- C196: with classifiers that know the labels they were trained with and predict only these, `fit` with torch data keeps the
same classifiers, weights and classes as with numpy data, for every number of learners, rounds and samples (exact numbers). -/
theorem C196_fit {M α : Type} (C : Clf M α) (classesT classesOf : M → Option (List Int)) (hS : Sound C classesOf)
    (hT : KnowsT C classesT) (N : Normal) (S : DemSpec) (hc : 0 < S.confidence ∧ S.confidence < 1) (ms : List M)
    (X : List α) (y : List Int) (Xu : Option (List α)) :
    demFitT C classesT classesOf N S ms X y Xu = demFit C classesOf N S ms X y Xu := by
  unfold demFitT demFit
  by_cases hms : ms.length < 3
  · rw [if_pos hms, if_pos hms]
  · rw [if_neg hms, if_neg hms]
    have hfin : ∀ Ls : List (Learner M α), (∀ L ∈ Ls, Healthy y L) →
        (do let Ls ← Ls.mapM (demRefit C); demFinalizeT C classesT classesOf N S X y (Ls.map fun L : Learner M α => L.m)) =
        (do let Ls ← Ls.mapM (demRefit C); demFinalize C classesOf N S X y (Ls.map fun L : Learner M α => L.m)) := by
      intro Ls hH
      obtain ⟨Rs, hR, hRs⟩ := refit_sound hS hH
      have hRt := refit_soundT hT hH hR
      rw [ebind_of_ok hR, ebind_of_ok hR]
      unfold demFinalizeT demFinalize
      congr 1
      funext w
      rw [resolve_sound (classesOf := classesOf) (ms := Rs.map (·.m)) (y := y) (by
        intro m hm
        obtain ⟨R, hR, rfl⟩ := List.mem_map.mp hm
        exact (hRs R hR).2.1), resolveT_sound (classesT := classesT) (classesOf := classesOf) (ms := Rs.map (·.m)) (y := y) (by
        intro m hm
        obtain ⟨R, hR, rfl⟩ := List.mem_map.mp hm
        exact hRt R hR) (by
        intro m hm
        obtain ⟨R, hR, rfl⟩ := List.mem_map.mp hm
        exact (hRs R hR).2.1)]
    have hcase : (∃ e, checkLabeled X y = .error e) ∨ checkLabeled X y = .ok () := by
      cases checkLabeled X y with
      | error e => exact .inl ⟨e, rfl⟩
      | ok u => exact .inr rfl
    rcases hcase with ⟨e, hk⟩ | hk
    · rw [hk]; rfl
    rw [ebind_of_ok hk, ebind_of_ok hk]
    obtain ⟨hl, hy⟩ := checkLabeled_ok hk
    have hstart : ∀ L ∈ ms.map (fun m => (⟨m, X, y, 0, []⟩ : Learner M α)), Healthy y L := by
      intro L hL
      obtain ⟨m, -, rfl⟩ := List.mem_map.mp hL
      exact ⟨hl, hy, fun v => Iff.rfl⟩
    simp only
    by_cases hu : (Xu.getD []).length = 0
    · rw [if_pos hu, if_pos hu, ebind_of_ok rfl, ebind_of_ok rfl]
      exact hfin _ hstart
    · rw [if_neg hu, if_neg hu, demLoopT_eq hS hT hc hy _ hstart]
      obtain ⟨Ls, h1, h2⟩ := demLoop_sound (N := N) (X := X) (pool := Xu.getD []) hS hc hy S.maxIter.toNat hstart
      rw [ebind_of_ok h1, ebind_of_ok h1]
      exact hfin _ h2

/-- C196: after such a `fit` the probabilities and the predicted labels are the same with torch and with numpy data. -/
theorem C196_predict {M α : Type} (C : Clf M α) (classesOf : M → Option (List Int)) (hS : Sound C classesOf) (N : Normal)
    (S : DemSpec) (hc : 0 < S.confidence ∧ S.confidence < 1) (ms : List M) (X : List α) (y : List Int) (Xu : Option (List α))
    (F : DemFitted M) (hF : demFit C classesOf N S ms X y Xu = .ok F) (Q : List α) :
    demProbaT C S F Q = demProba C S F Q ∧ demPredictT C S F Q = demPredict C S F Q := by
  have hfin : F.classes = npUnique y ∧ ∀ m ∈ F.clfs, ∃ p, C.predict m Q = .ok p ∧ ∀ v ∈ p, v ∈ y := by
    unfold demFit at hF
    split at hF
    · simp at hF
    obtain ⟨u, hk, hF⟩ := ebind_ok.mp hF
    obtain ⟨hl, hy⟩ := checkLabeled_ok hk
    have hstart : ∀ L ∈ ms.map (fun m => (⟨m, X, y, 0, []⟩ : Learner M α)), Healthy y L := by
      intro L hL
      obtain ⟨m, -, rfl⟩ := List.mem_map.mp hL
      exact ⟨hl, hy, fun v => Iff.rfl⟩
    have finish : ∀ Ls : List (Learner M α), (∀ L ∈ Ls, Healthy y L) → (do
        let Ls ← Ls.mapM (demRefit C)
        demFinalize C classesOf N S X y (Ls.map fun L : Learner M α => L.m)) = .ok F →
        F.classes = npUnique y ∧ ∀ m ∈ F.clfs, ∃ p, C.predict m Q = .ok p ∧ ∀ v ∈ p, v ∈ y := by
      intro Ls hH hF
      obtain ⟨Rs, hR, hRs⟩ := refit_sound hS hH
      rw [ebind_of_ok hR] at hF
      unfold demFinalize at hF
      obtain ⟨w, -, hF⟩ := ebind_ok.mp hF
      rw [resolve_sound (classesOf := classesOf) (ms := Rs.map (·.m)) (y := y) (by
        intro m hm
        obtain ⟨R, hR, rfl⟩ := List.mem_map.mp hm
        exact (hRs R hR).2.1)] at hF
      have hF : (⟨Rs.map (·.m), w, npUnique y⟩ : DemFitted M) = F := Except.ok.inj hF
      rw [← hF]
      refine ⟨rfl, fun m hm => ?_⟩
      obtain ⟨R, hR, rfl⟩ := List.mem_map.mp hm
      exact (hRs R hR).2.2 Q
    simp only at hF
    split at hF
    · rw [ebind_of_ok rfl] at hF
      exact finish _ hstart hF
    · obtain ⟨Ls', h1, h2⟩ := demLoop_sound (N := N) (X := X) (pool := Xu.getD []) hS hc hy S.maxIter.toNat hstart
      rw [ebind_of_ok h1] at hF
      exact finish _ h2 hF
  obtain ⟨hcl, hp⟩ := hfin
  have h1 : demProbaT C S F Q = demProba C S F Q := by
    unfold demProbaT demProba
    rw [hcl]
    obtain ⟨preds, h1, h2, h3⟩ := preds_eq (C := C) (y := y) (pool := Q) (Rs := F.clfs) (fun m => m) hp
    rw [ebind_of_ok h1, ebind_of_ok h2, ebind_of_ok h3]
    simp only [combineT_eq]
    rfl
  refine ⟨h1, ?_⟩
  unfold demPredictT demPredict
  rw [h1]

deriving instance DecidableEq for DemFitted

/-- A classifier that predicts the first label it was trained with satisfies the assumptions (helper for examples). -/
def firstLabel : Clf Int Int := ⟨fun _ _ y => .ok (y.headD 0), fun _ X => .ok ⟨1, X.map fun _ => [1]⟩, fun m X => .ok (X.map fun _ => m)⟩

example : Sound firstLabel (fun _ => none) ∧ KnowsT firstLabel (fun _ => none) ∧
    ∃ F, demFitT firstLabel (fun _ => none) (fun _ => none) demoNormal ⟨2, 1 / 2, 1 / 2⟩ [0, 0, 0] [5, 6] [3, 1] (some [7]) = .ok F ∧
      demPredictT firstLabel ⟨2, 1 / 2, 1 / 2⟩ F [4] = .ok [3] := by
  refine ⟨⟨fun m X y _ _ => ⟨_, rfl⟩, fun m X y m' _ => .inl rfl, ?_⟩, fun _ _ _ _ _ => .inl rfl, ?_⟩
  · intro m X y m' h hy Q
    obtain ⟨v, rest, rfl⟩ := List.exists_cons_of_ne_nil hy
    simp only [firstLabel, List.headD_cons, Except.ok.injEq] at h
    subst h
    exact ⟨_, rfl, by simp⟩
  · exact ⟨⟨[3, 3, 3], (demFitT firstLabel (fun _ => none) (fun _ => none) demoNormal ⟨2, 1 / 2, 1 / 2⟩ [0, 0, 0] [5, 6] [3, 1]
        (some [7])).toOption.elim [] (·.weights), [1, 3]⟩, by decide +kernel, by decide +kernel⟩

/-- C196: classes are accepted with torch exactly if every class list a classifier offers is the sorted list of the labels. -/
theorem C196_classes (ts ns : List (Option (List Int))) (y : List Int) :
    (∀ cs, resolveClassesT ts ns y = .ok cs → cs = npUnique y) ∧
      ((∃ cs, resolveClassesT ts ns y = .ok cs) ↔ ∀ c, some c ∈ ts ∨ some c ∈ ns → c = npUnique y) := by
  have hm : ∀ (l : List (Option (List Int))) c, c ∈ l.filterMap id ↔ some c ∈ l := by
    intro l c; simp [List.mem_filterMap]
  unfold resolveClassesT
  by_cases h : ((ts.filterMap id).any fun c => decide (c ≠ npUnique y)) = true
  · rw [if_pos h]
    refine ⟨fun cs h' => by simp at h', ⟨fun ⟨cs, h'⟩ => by simp at h', fun h' => ?_⟩⟩
    obtain ⟨c, hc, hne⟩ := List.any_eq_true.mp h
    exact absurd (h' c (.inl ((hm ts c).mp hc))) (of_decide_eq_true hne)
  · rw [if_neg h]
    have ht : ∀ c, some c ∈ ts → c = npUnique y := by
      intro c hc
      by_contra hne
      exact h (List.any_eq_true.mpr ⟨c, (hm ts c).mpr hc, decide_eq_true hne⟩)
    rcases hn : ns.filterMap id with _ | ⟨c, rest⟩
    · refine ⟨fun cs h' => (Except.ok.inj h').symm, ⟨fun _ c hc => hc.elim (ht c) fun hc => ?_, fun _ => ⟨_, rfl⟩⟩⟩
      have := (hm ns c).mpr hc
      rw [hn] at this; simp at this
    · dsimp only
      by_cases hr : rest.all (fun c' => decide (c' = c)) = true ∧ c = npUnique y
      · rw [if_pos hr]
        refine ⟨fun cs h' => (Except.ok.inj h').symm, ⟨fun _ c' hc => hc.elim (ht c') fun hc => ?_, fun _ => ⟨_, rfl⟩⟩⟩
        have := (hm ns c').mpr hc
        rw [hn] at this
        rcases List.mem_cons.mp this with e | e
        · rw [e]; exact hr.2
        · rw [of_decide_eq_true (List.all_eq_true.mp hr.1 c' e)]; exact hr.2
      · rw [if_neg hr]
        refine ⟨fun cs h' => by simp at h', ⟨fun ⟨cs, h'⟩ => by simp at h', fun h' => ?_⟩⟩
        exfalso
        have hall : ∀ c' ∈ c :: rest, c' = npUnique y := fun c' hc' => h' c' (.inr ((hm ns c').mp (by rw [hn]; exact hc')))
        exact hr ⟨List.all_eq_true.mpr fun c' hc' => decide_eq_true (by rw [hall c' (by simp [hc']), hall c (by simp)]), hall c (by simp)⟩

/-- C196: a label that is no class counts, with torch, as a vote for the next class above it; it is refused only if it lies above all
classes. -/
theorem C196_unknown (y : List Int) (v : Int) :
    (∀ hi : (npUnique y).countP (fun c => decide (c < v)) < (npUnique y).length,
      v ≤ (npUnique y)[(npUnique y).countP fun c => decide (c < v)] ∧
        ∀ c ∈ y, v ≤ c → (npUnique y)[(npUnique y).countP fun c => decide (c < v)] ≤ c) ∧
      (checkHot (npUnique y).length [encodeT (npUnique y) [v]] = .error .runtimeError ↔ ∀ c ∈ y, c < v) := by
  have key : ∀ cs : List Int, cs.Pairwise (· < ·) → ∀ hi : cs.countP (fun c => decide (c < v)) < cs.length,
      v ≤ cs[cs.countP fun c => decide (c < v)] ∧ ∀ c ∈ cs, v ≤ c → cs[cs.countP fun c => decide (c < v)] ≤ c := by
    intro cs
    induction cs with
    | nil => intro _ hi; simp at hi
    | cons d cs ih =>
      intro hs hi
      obtain ⟨h1, h2⟩ := List.pairwise_cons.mp hs
      by_cases hd : d < v
      · have e : (d :: cs).countP (fun c => decide (c < v)) = cs.countP (fun c => decide (c < v)) + 1 := by
          rw [List.countP_cons_of_pos (by simpa using hd)]
        have hi' : cs.countP (fun c => decide (c < v)) < cs.length := by rw [e] at hi; simpa using hi
        obtain ⟨h3, h4⟩ := ih h2 hi'
        have e2 : (d :: cs)[(d :: cs).countP fun c => decide (c < v)] = cs[cs.countP fun c => decide (c < v)] := by
          simp only [e, List.getElem_cons_succ]
        rw [e2]
        refine ⟨h3, fun c hc hv => ?_⟩
        rcases List.mem_cons.mp hc with rfl | hc
        · omega
        · exact h4 c hc hv
      · have e : (d :: cs).countP (fun c => decide (c < v)) = 0 := by
          rw [List.countP_eq_zero]
          intro c hc
          simp only [decide_eq_true_eq]
          rcases List.mem_cons.mp hc with rfl | hc
          · exact hd
          · have := h1 c hc; omega
        have e2 : (d :: cs)[(d :: cs).countP fun c => decide (c < v)] = d := by simp only [e, List.getElem_cons_zero]
        rw [e2]
        refine ⟨by omega, fun c hc _ => ?_⟩
        rcases List.mem_cons.mp hc with rfl | hc
        · exact le_refl _
        · exact le_of_lt (h1 c hc)
  refine ⟨fun hi => ?_, ?_⟩
  · obtain ⟨h1, h2⟩ := key _ (npUnique_strict y) hi
    exact ⟨h1, fun c hc => h2 c (mem_npUnique.mpr hc)⟩
  · unfold checkHot encodeT
    have hle : (npUnique y).countP (fun c => decide (c < v)) ≤ (npUnique y).length := List.countP_le_length
    by_cases h : (npUnique y).length ≤ (npUnique y).countP fun c => decide (c < v)
    · have hall := List.countP_eq_length.mp (le_antisymm hle h)
      simp only [List.map_cons, List.map_nil, List.any_cons, List.any_nil, Bool.or_false, h, decide_true, if_true, true_iff]
      exact fun c hc => of_decide_eq_true (hall c (mem_npUnique.mpr hc))
    · simp only [List.map_cons, List.map_nil, List.any_cons, List.any_nil, Bool.or_false, h, decide_false, Bool.false_eq_true, if_false,
        reduceCtorEq, false_iff]
      intro hall
      exact h (le_of_eq (List.countP_eq_length.mpr fun c hc => decide_eq_true (hall c (mem_npUnique.mp hc))).symm)

/-- A classifier that answers with the sample itself (helper). -/
def echoClf : Clf Unit Int := ⟨fun m _ _ => .ok m, fun _ X => .ok ⟨1, X.map fun _ => [1]⟩, fun _ X => .ok X⟩

/-- C196 violated: when learners predict a label that is no class, numpy refuses, but torch answers with a class that no learner
predicted. -/
theorem C196_unknown_violated : ∃ (C : Clf Unit Int) (F : DemFitted Unit) (S : DemSpec),
    demFitT C (fun _ => none) (fun _ => none) demoNormal S [(), (), ()] [1, 3] [1, 3] none = .ok F ∧
      demFit C (fun _ => none) demoNormal S [(), (), ()] [1, 3] [1, 3] none = .ok F ∧
      (∀ m, C.predict m [2] = .ok [2]) ∧ demPredict C S F [2] = .error .typeError ∧ demPredictT C S F [2] = .ok [3] :=
  ⟨echoClf, ⟨[(), (), ()], [1, 1, 1], [1, 3]⟩, ⟨2, 1 / 2, 1 / 2⟩, by decide +kernel, by decide +kernel, fun _ => rfl, by decide +kernel, by decide +kernel⟩

end ModSSC.Inductive
