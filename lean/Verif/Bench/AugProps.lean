import Verif.Bench.AugModel
import Verif.Bench.ContractFit
import Verif.Bench.SchemaTrials
import Verif.Augment.Props

/-!
# The augmentation stage of a benchmark run (C157)
-/

namespace ModSSC.Bench.Aug
open ModSSC ModSSC.Augment ModSSC.Bench.Spec

/-! ### Specification -/

/-- The same values: the same text or graph, or arrays with the same shape and entries (one of them may be a tensor). -/
inductive SameValues : Sample → Sample → Prop
  | same (x : Sample) : SameValues x x
  | arr (t t' : Bool) (a : NArr) : SameValues (.arr t a) (.arr t' a)

/-- `y` is what the operations make of `x` in the context `c`, whatever the process did before. -/
def Gives {σ W : Type} (E : Env σ W) (ops : List Op) (x : Sample) (c : Ctx) (y : Sample) : Prop :=
  ∀ w : W, applyPipeline E ops x c w = .ok (y, w)

/-- Row `i` of the result is `y`. -/
def RowIs (s : Stack) (i : Nat) (y : Sample) : Prop := ∃ r, s.rows[i]? = some r ∧ SameValues r y

/-- The id of sample `i`: its position if no ids are given. -/
def idOf (ids : Option (List Int)) (i : Nat) : Option Int :=
  match ids with
  | none => some i
  | some l => l[i]?

/-- The operations do not read torch's global generator on this sample. -/
def Fixed (ops : List Op) (x : Sample) : Prop := (∀ op ∈ ops, op.usesGlobal = false) ∨ x.isTensor = false

/-- What kind of value a sample is. -/
inductive Kind where
  | str | strs | arr (t : Bool) | graph (t : Bool)
deriving DecidableEq

def kindOf : Sample → Kind
  | .str _ => .str
  | .strs _ => .strs
  | .arr t _ => .arr t
  | .graph t _ => .graph t

/-- The rows of an array or tensor: all of one kind, tensors exactly in a tensor. -/
def WellFormed (torch : Bool) (xs : List Sample) : Prop :=
  ∃ k, (∀ x ∈ xs, kindOf x = k) ∧ if torch then k = .arr true else ∀ t, k = .arr t → t = false

/-! ### Lemmas -/

theorem sameValues_iff {x y : Sample} : SameValues x y ↔ asKind false x = asKind false y := by
  constructor
  · rintro (_ | _) <;> rfl
  · intro h
    cases x <;> cases y <;> simp [asKind] at h
    · subst h; exact .same _
    · subst h; exact .same _
    · subst h; exact .arr _ _ _
    · obtain ⟨rfl, rfl⟩ := h; exact .same _

theorem asKind_asKind (t t' : Bool) (x : Sample) : asKind t (asKind t' x) = asKind t x := by cases x <;> rfl

theorem npShape_asKind (t : Bool) (x : Sample) : npShape (asKind t x) = npShape x := by cases x <;> rfl

section
variable {σ W : Type} (E : Env σ W)

/-- `v` are the views of the sample `x` with this id. -/
def IsViews (weak strong : List Op) (seed : Int) (two : Bool) (x : Sample) (id : Int) (v : Views) : Prop :=
  Gives E weak x ⟨seed, 0, id⟩ v.1 ∧ Gives E strong x ⟨seed, 0, id⟩ v.2.1 ∧
    if two then ∃ q, v.2.2 = some q ∧ Gives E strong x ⟨seed + 1, 0, id⟩ q else v.2.2 = none

theorem gives_of_ok {ops : List Op} {x y : Sample} {c : Ctx} {w w' : W} (hf : Fixed ops x)
    (h : applyPipeline E ops x c w = .ok (y, w')) : w' = w ∧ Gives E ops x c y := by
  rcases C62_function_partial (W := W) E ops x c hf with ⟨e, he⟩ | ⟨z, hz⟩
  · rw [he] at h; cases h
  · rw [hz] at h
    simp only [Except.ok.injEq, Prod.mk.injEq] at h
    exact ⟨h.2.symm, fun w => by rw [hz, h.1]⟩

theorem viewsOf_ok {weak strong : List Op} {seed : Int} {two : Bool} {x : Sample} {id : Int} {v : Views} {w w' : W}
    (hw : Fixed weak x) (hs : Fixed strong x) :
    viewsOf E weak strong seed two x id w = .ok (v, w') ↔ w' = w ∧ IsViews E weak strong seed two x id v := by
  obtain ⟨a, b, q⟩ := v
  unfold viewsOf applyStrategy IsViews ctxOf
  simp only [add_zero, ebind_ok, pure, Except.pure, Except.ok.injEq]
  constructor
  · rintro ⟨⟨p, w1⟩, ⟨⟨y, w2⟩, h1, ⟨z, w3⟩, h2, h3⟩, h4⟩
    cases h3
    obtain ⟨rfl, g1⟩ := gives_of_ok E hw h1
    obtain ⟨rfl, g2⟩ := gives_of_ok E hs h2
    cases two with
    | false =>
      simp only [Bool.false_eq_true, if_false] at h4 ⊢
      cases h4
      exact ⟨rfl, g1, g2, rfl⟩
    | true =>
      simp only [if_true, ebind_ok] at h4 ⊢
      obtain ⟨⟨q', w4⟩, h5, h6⟩ := h4
      cases h6
      obtain ⟨rfl, g3⟩ := gives_of_ok E hs h5
      exact ⟨rfl, g1, g2, _, rfl, g3⟩
  · rintro ⟨rfl, g1, g2, g3⟩
    refine ⟨((a, b), w'), ⟨(a, w'), g1 w', (b, w'), g2 w', rfl⟩, ?_⟩
    cases two with
    | false =>
      simp only [Bool.false_eq_true, if_false] at g3 ⊢
      subst g3; rfl
    | true =>
      simp only [if_true, ebind_ok] at g3 ⊢
      obtain ⟨q', rfl, g3⟩ := g3
      exact ⟨(q', w'), g3 w', rfl⟩

/-- All later samples in turn. -/
def pushAll : Acc → List Views → Except PyErr Acc
  | acc, [] => .ok acc
  | acc, v :: vs => acc.push v >>= fun a => pushAll a vs

theorem idAt_ok {ids : List Int} {i : Nat} {j : Int} : idAt ids i = .ok j ↔ ids[i]? = some j := by
  unfold idAt
  cases ids[i]? <;> simp

theorem loop_ok {weak strong : List Op} {seed : Int} {two : Bool} {ids : List Int} {xs : List Sample} {i : Nat} {acc acc' : Acc}
    {w w' : W} (hx : ∀ x ∈ xs, Fixed weak x ∧ Fixed strong x) :
    loop E weak strong seed two ids i xs acc w = .ok (acc', w') ↔
      w' = w ∧ ∃ vs, List.Forall₂ (fun (p : Sample × Nat) (v : Views) => ∃ id, ids[p.2]? = some id ∧
        IsViews E weak strong seed two p.1 id v) (xs.zipIdx i) vs ∧ pushAll acc vs = .ok acc' := by
  induction xs generalizing i acc w with
  | nil =>
    simp only [loop, Except.ok.injEq, Prod.mk.injEq, List.zipIdx_nil, List.forall₂_nil_left_iff]
    constructor
    · rintro ⟨rfl, rfl⟩; exact ⟨rfl, _, rfl, rfl⟩
    · rintro ⟨rfl, _, rfl, h⟩; cases h; exact ⟨rfl, rfl⟩
  | cons x xs ih =>
    have hx0 := hx x (by simp)
    simp only [loop, ebind_ok, idAt_ok, List.zipIdx_cons, List.forall₂_cons_left_iff]
    constructor
    · rintro ⟨id, hid, ⟨v, w1⟩, hv, a, ha, h⟩
      obtain ⟨rfl, hv2⟩ := (viewsOf_ok E hx0.1 hx0.2).mp hv
      obtain ⟨rfl, vs, hvs, hp⟩ := (ih (fun y hy => hx y (by simp [hy]))).mp h
      exact ⟨rfl, v :: vs, ⟨v, vs, ⟨id, hid, hv2⟩, hvs, rfl⟩, ebind_ok.mpr ⟨a, ha, hp⟩⟩
    · rintro ⟨rfl, _, ⟨v, vs, ⟨id, hid, hv⟩, hvs, rfl⟩, hp⟩
      obtain ⟨a, ha, hp⟩ := ebind_ok.mp hp
      exact ⟨id, hid, (v, w'), (viewsOf_ok E hx0.1 hx0.2).mpr ⟨rfl, hv⟩, a, ha,
        (ih (fun y hy => hx y (by simp [hy]))).mpr ⟨rfl, vs, hvs, hp⟩⟩

/-- What has been collected: the rows have the values of the views; rows in arrays have one kind and shape. -/
def Holds (two : Bool) (vs : List Views) : Acc → Prop
  | .arr t shW shS sh1 w s s1 =>
    w.map (asKind false) = vs.map (fun v => asKind false v.1) ∧ s.map (asKind false) = vs.map (fun v => asKind false v.2.1) ∧
    (∀ x ∈ w, npShape x = shW ∧ kindOf x = .arr t) ∧ (∀ x ∈ s, npShape x = shS ∧ kindOf x = .arr t) ∧
    if two then ∃ l sh, s1 = some l ∧ sh1 = some sh ∧ l.map (fun x => some (asKind false x)) = vs.map (fun v => v.2.2.map (asKind false)) ∧
      ∀ x ∈ l, npShape x = sh ∧ kindOf x = .arr t
    else s1 = none ∧ sh1 = none
  | .lists w s s1 =>
    w.map (asKind false) = vs.map (fun v => asKind false v.1) ∧ s.map (asKind false) = vs.map (fun v => asKind false v.2.1) ∧
    if two then ∃ l, s1 = some l ∧ l.map (fun x => some (asKind false x)) = vs.map (fun v => v.2.2.map (asKind false)) else s1 = none

theorem kindOf_isArr {t : Bool} {x : Sample} (h : isArr t x = true) : kindOf x = .arr t := by
  cases x <;> simp_all [isArr, kindOf]

theorem kindOf_asKind {t : Bool} {x : Sample} {sh : List Nat} (h : shapeAttr x = .ok sh) :
    npShape (asKind t x) = sh ∧ kindOf (asKind t x) = .arr t := by
  cases x <;> simp_all [shapeAttr, asKind, kindOf, npShape]

/-- The third view is there exactly when two strong views are asked for. -/
def Third (two : Bool) (v : Views) : Prop := if two then ∃ q, v.2.2 = some q else v.2.2 = none

theorem holds_first {two : Bool} {v : Views} (hv : Third two v) : Holds two [v] (firstAcc v) := by
  obtain ⟨a, b, q⟩ := v
  unfold Third at hv
  unfold firstAcc
  split_ifs with h1 h2
  · simp only [Bool.and_eq_true] at h1
    obtain ⟨⟨h1, h2⟩, h3⟩ := h1
    cases two with
    | false =>
      simp only [Bool.false_eq_true, if_false] at hv
      subst hv
      simp [Holds, kindOf_isArr h1, kindOf_isArr h2]
    | true =>
      simp only [if_true] at hv
      obtain ⟨q, rfl⟩ := hv
      simp only [Option.all_some] at h3
      simp [Holds, kindOf_isArr h1, kindOf_isArr h2, kindOf_isArr h3]
  · simp only [Bool.and_eq_true] at h2
    clear h1
    obtain ⟨⟨h1, h2⟩, h3⟩ := h2
    cases two with
    | false =>
      simp only [Bool.false_eq_true, if_false] at hv
      subst hv
      simp [Holds, kindOf_isArr h1, kindOf_isArr h2]
    | true =>
      simp only [if_true] at hv
      obtain ⟨q, rfl⟩ := hv
      simp only [Option.all_some] at h3
      simp [Holds, kindOf_isArr h1, kindOf_isArr h2, kindOf_isArr h3]
  · cases two with
    | false =>
      simp only [Bool.false_eq_true, if_false] at hv
      subst hv
      simp [Holds]
    | true =>
      simp only [if_true] at hv
      obtain ⟨q, rfl⟩ := hv
      simp [Holds]

theorem mismatch_false {shW shS : List Nat} {sh1 : Option (List Nat)} {v : Views} :
    mismatch shW shS sh1 v = .ok false ↔ shapeAttr v.1 = .ok shW ∧ shapeAttr v.2.1 = .ok shS ∧
      ∀ y sh, v.2.2 = some y → sh1 = some sh → shapeAttr y = .ok sh := by
  obtain ⟨a, b, q⟩ := v
  unfold mismatch
  simp only [ebind_ok]
  constructor
  · rintro ⟨sa, h1, h⟩
    split_ifs at h with h2
    · cases h
    · obtain ⟨sb, h3, h'⟩ := ebind_ok.mp h
      clear h
      split_ifs at h' with h4
      · cases h'
      · simp only [not_not] at h2 h4
        subst h2 h4
        refine ⟨h1, h3, ?_⟩
        rintro y sh rfl rfl
        simp only [ebind_ok] at h'
        obtain ⟨c, h5, h6⟩ := h'
        simp only [pure, Except.pure, Except.ok.injEq, decide_eq_false_iff_not, not_not] at h6
        subst h6
        exact h5
  · rintro ⟨h1, h2, h3⟩
    refine ⟨shW, h1, ?_⟩
    rw [if_neg (by simp), ebind_of_ok h2, if_neg (by simp)]
    cases q with
    | none => rfl
    | some y =>
      cases sh1 with
      | none => rfl
      | some sh => simp only [ebind_of_ok (h3 y sh rfl rfl)]; simp [pure, Except.pure]

theorem holds_push {two : Bool} {vs : List Views} {acc acc' : Acc} {v : Views} (hv : Third two v) (h : Holds two vs acc)
    (hp : acc.push v = .ok acc') : Holds two (vs ++ [v]) acc' := by
  obtain ⟨a, b, q⟩ := v
  unfold Third at hv
  cases acc with
  | lists w s s1 =>
    simp only [Acc.push, Except.ok.injEq] at hp
    subst hp
    obtain ⟨h1, h2, h3⟩ := h
    refine ⟨by simp [h1], by simp [h2], ?_⟩
    cases two with
    | false =>
      simp only [Bool.false_eq_true, if_false] at hv h3 ⊢
      rw [h3]; rfl
    | true =>
      simp only [if_true] at hv h3 ⊢
      obtain ⟨q, rfl⟩ := hv
      obtain ⟨l, rfl, h3⟩ := h3
      exact ⟨l ++ [q], rfl, by simp [h3]⟩
  | arr t shW shS sh1 w s s1 =>
    simp only [Acc.push, ebind_ok] at hp
    obtain ⟨m, hm, hp⟩ := hp
    obtain ⟨h1, h2, h4, h5, h3⟩ := h
    cases m with
    | true =>
      simp only [if_true, pure, Except.pure, Except.ok.injEq] at hp
      subst hp
      refine ⟨by simp [h1], by simp [h2], ?_⟩
      cases two with
      | false =>
        simp only [Bool.false_eq_true, if_false] at hv h3 ⊢
        rw [h3.1]; rfl
      | true =>
        simp only [if_true] at hv h3 ⊢
        obtain ⟨q, rfl⟩ := hv
        obtain ⟨l, sh, rfl, _, h3, _⟩ := h3
        exact ⟨l ++ [q], rfl, by simp [h3]⟩
    | false =>
      simp only [Bool.false_eq_true, if_false, pure, Except.pure, Except.ok.injEq] at hp
      subst hp
      obtain ⟨m1, m2, m3⟩ := mismatch_false.mp hm
      refine ⟨by simp [h1, asKind_asKind], by simp [h2, asKind_asKind], ?_, ?_, ?_⟩
      · intro x hx
        rcases List.mem_append.mp hx with hx | hx
        · exact h4 x hx
        · rw [List.mem_singleton.mp hx]; exact kindOf_asKind m1
      · intro x hx
        rcases List.mem_append.mp hx with hx | hx
        · exact h5 x hx
        · rw [List.mem_singleton.mp hx]; exact kindOf_asKind m2
      · cases two with
        | false =>
          simp only [Bool.false_eq_true, if_false] at hv h3 ⊢
          rw [h3.1]; exact ⟨rfl, h3.2⟩
        | true =>
          simp only [if_true] at hv h3 ⊢
          obtain ⟨q, rfl⟩ := hv
          obtain ⟨l, sh, rfl, rfl, h3, h6⟩ := h3
          refine ⟨l ++ [asKind t q], sh, rfl, rfl, by simp [h3, asKind_asKind], ?_⟩
          intro x hx
          rcases List.mem_append.mp hx with hx | hx
          · exact h6 x hx
          · rw [List.mem_singleton.mp hx]; exact kindOf_asKind (m3 q sh rfl rfl)

theorem holds_pushAll {two : Bool} {vs us : List Views} {acc acc' : Acc} (hv : ∀ v ∈ us, Third two v) (h : Holds two vs acc)
    (hp : pushAll acc us = .ok acc') : Holds two (vs ++ us) acc' := by
  induction us generalizing vs acc with
  | nil => cases hp; simpa using h
  | cons u us ih =>
    obtain ⟨a, ha, hp⟩ := ebind_ok.mp hp
    have := ih (fun v hv' => hv v (by simp [hv'])) (holds_push (hv u (by simp)) h ha) hp
    simpa using this

theorem stack_ok {torch : Bool} {l : List Sample} {s : Stack} (h : stack torch l = .ok s) :
    s.rows.map (asKind false) = l.map (asKind false) ∧ (∀ x ∈ s.rows, ∀ y ∈ s.rows, npShape x = npShape y) := by
  have hsh : (l.all fun x => npShape x == npShape (l.headD (.str ""))) = true →
      ∀ x ∈ l, ∀ y ∈ l, npShape x = npShape y := by
    intro h x hx y hy
    simp only [List.all_eq_true, beq_iff_eq] at h
    rw [h x hx, h y hy]
  unfold stack at h
  split_ifs at h with h1 h2 h3 h4
  · cases h; exact ⟨rfl, hsh h3⟩
  · cases h
    refine ⟨by simp [Function.comp_def, asKind_asKind], ?_⟩
    intro x hx y hy
    simp only [List.mem_map] at hx hy
    obtain ⟨x, hx, rfl⟩ := hx
    obtain ⟨y, hy, rfl⟩ := hy
    rw [npShape_asKind, npShape_asKind]
    exact hsh h4 x hx y hy

/-- The rows of a result. -/
def RowsAre (l : List Sample) (ys : List Sample) : Prop :=
  l.map (asKind false) = ys.map (asKind false) ∧ ∀ x ∈ l, ∀ y ∈ l, npShape x = npShape y

theorem finish_ok {two torch : Bool} {vs : List Views} {acc : Acc} {o : Output × Output × Output} (h : Holds two vs acc)
    (hf : acc.finish torch = .ok o) :
    ∃ sw ss, o.1 = .many sw ∧ o.2.1 = .many ss ∧ RowsAre sw.rows (vs.map (·.1)) ∧ RowsAre ss.rows (vs.map (·.2.1)) ∧
      if two then ∃ s1, o.2.2 = .many s1 ∧ s1.rows.map (fun x => some (asKind false x)) = vs.map (fun v => v.2.2.map (asKind false)) ∧
        ∀ x ∈ s1.rows, ∀ y ∈ s1.rows, npShape x = npShape y
      else o.2.2 = .nothing := by
  cases acc with
  | arr t shW shS sh1 w s s1 =>
    simp only [Acc.finish, Except.ok.injEq] at hf
    subst hf
    obtain ⟨h1, h2, h4, h5, h3⟩ := h
    refine ⟨_, _, rfl, rfl, ⟨by simpa [Function.comp_def] using h1, fun x hx y hy => by rw [(h4 x hx).1, (h4 y hy).1]⟩,
      ⟨by simpa [Function.comp_def] using h2, fun x hx y hy => by rw [(h5 x hx).1, (h5 y hy).1]⟩, ?_⟩
    cases two with
    | false =>
      simp only [Bool.false_eq_true, if_false] at h3 ⊢
      rw [h3.1]; rfl
    | true =>
      simp only [if_true] at h3 ⊢
      obtain ⟨l, sh, rfl, _, h3, h6⟩ := h3
      exact ⟨_, rfl, h3, fun x hx y hy => by rw [(h6 x hx).1, (h6 y hy).1]⟩
  | lists w s s1 =>
    obtain ⟨h1, h2, h3⟩ := h
    simp only [Acc.finish, ebind_ok] at hf
    obtain ⟨a, ha, b, hb, hf⟩ := hf
    have ha := stack_ok ha
    have hb := stack_ok hb
    cases two with
    | false =>
      simp only [Bool.false_eq_true, if_false] at h3 ⊢
      subst h3
      simp only [pure, Except.pure, Except.ok.injEq] at hf
      subst hf
      exact ⟨a, b, rfl, rfl, ⟨by rw [ha.1, h1]; simp, ha.2⟩, ⟨by rw [hb.1, h2]; simp, hb.2⟩, rfl⟩
    | true =>
      simp only [if_true] at h3 ⊢
      obtain ⟨l, rfl, h3⟩ := h3
      simp only [ebind_ok, pure, Except.pure, Except.ok.injEq] at hf
      obtain ⟨c, hc, hf⟩ := hf
      subst hf
      have hc := stack_ok hc
      refine ⟨a, b, rfl, rfl, ⟨by rw [ha.1, h1]; simp, ha.2⟩, ⟨by rw [hb.1, h2]; simp, hb.2⟩, c, rfl, ?_, hc.2⟩
      rw [← h3]
      have := congrArg (List.map some) hc.1
      simpa [Function.comp_def] using this

theorem idList_get (ids : Option (List Int)) (n i : Nat) (hi : i < n) :
    (ids.getD ((List.range n).map fun (i : Nat) => (i : Int)))[i]? = idOf ids i := by
  cases ids with
  | none => simp [idOf, hi]
  | some l => rfl

theorem runRows_ok {weak strong : List Op} {seed : Int} {two torch : Bool} {ids : Option (List Int)} {x : Sample} {xs : List Sample}
    {w w' : W} {o : Output × Output × Output} (hx : ∀ y ∈ x :: xs, Fixed weak y ∧ Fixed strong y) :
    runRows E weak strong seed two ids torch x xs w = .ok (o, w') ↔ w' = w ∧
      ∃ v vs acc, List.Forall₂ (fun (p : Sample × Nat) (v : Views) => ∃ id, idOf ids p.2 = some id ∧
        IsViews E weak strong seed two p.1 id v) ((x :: xs).zipIdx) (v :: vs) ∧ pushAll (firstAcc v) vs = .ok acc ∧
        acc.finish torch = .ok o := by
  have h0 := hx x (by simp)
  have hids : ∀ {vs : List Views}, List.Forall₂ (fun (p : Sample × Nat) (v : Views) => ∃ id,
        (ids.getD ((List.range (xs.length + 1)).map fun (i : Nat) => (i : Int)))[p.2]? = some id ∧
        IsViews E weak strong seed two p.1 id v) (xs.zipIdx 1) vs ↔
      List.Forall₂ (fun (p : Sample × Nat) (v : Views) => ∃ id, idOf ids p.2 = some id ∧
        IsViews E weak strong seed two p.1 id v) (xs.zipIdx 1) vs := by
    intro vs
    have hlt : ∀ p ∈ xs.zipIdx 1, p.2 < xs.length + 1 := by
      intro p hp
      have := List.mem_zipIdx hp
      omega
    generalize xs.zipIdx 1 = ps at hlt
    induction ps generalizing vs with
    | nil => simp
    | cons p ps ih =>
      simp only [List.forall₂_cons_left_iff]
      rw [idList_get ids _ _ (hlt p (by simp))]
      simp only [ih (fun q hq => hlt q (by simp [hq]))]
  unfold runRows
  simp only [ebind_ok, idAt_ok, idList_get ids (xs.length + 1) 0 (by omega), List.zipIdx_cons, Nat.zero_add, List.forall₂_cons, pure,
    Except.pure]
  constructor
  · rintro ⟨id, hid, ⟨v, w1⟩, hv, ⟨acc, w2⟩, hl, o', ho, h⟩
    cases h
    obtain ⟨rfl, hv2⟩ := (viewsOf_ok E h0.1 h0.2).mp hv
    obtain ⟨rfl, vs, hvs, hp⟩ := (loop_ok E (fun y hy => hx y (by simp [hy]))).mp hl
    exact ⟨rfl, v, vs, acc, ⟨⟨id, hid, hv2⟩, hids.mp hvs⟩, hp, ho⟩
  · rintro ⟨rfl, v, vs, acc, ⟨⟨id, hid, hv⟩, hvs⟩, hp, ho⟩
    exact ⟨id, hid, (v, w'), (viewsOf_ok E h0.1 h0.2).mpr ⟨rfl, hv⟩, (acc, w'),
      (loop_ok E (fun y hy => hx y (by simp [hy]))).mpr ⟨rfl, vs, hids.mpr hvs, hp⟩, o, ho, rfl⟩

theorem third_of {weak strong : List Op} {seed : Int} {two : Bool} {x : Sample} {id : Int} {v : Views}
    (h : IsViews E weak strong seed two x id v) : Third two v := by
  obtain ⟨_, _, h⟩ := h
  unfold Third
  cases two with
  | false => simpa using h
  | true =>
    simp only [if_true] at h ⊢
    exact ⟨_, h.choose_spec.1⟩

theorem rowsAre_get {l ys : List Sample} (h : RowsAre l ys) {i : Nat} {y : Sample} (hi : ys[i]? = some y) :
    ∃ r, l[i]? = some r ∧ SameValues r y := by
  have := congrArg (fun l => l[i]?) h.1
  simp only [List.getElem?_map, hi, Option.map_some, Option.map_eq_some_iff] at this
  obtain ⟨r, hr, h⟩ := this
  exact ⟨r, hr, sameValues_iff.mpr h⟩

/-- The names of what a run is given. -/
structure Given (σ W : Type) where
  E : Env σ W
  env : SchemaEnv
  build : Option String → List (String × Dict) → Except PyErr (List Op)
  weakPlan : PyVal
  strongPlan : PyVal
  modality : Option String
  weak : List Op
  strong : List Op
  planned : plans env build modality weakPlan strongPlan = .ok (weak, strong)

/-- `run` with these plans, in mode `fixed`. -/
def Given.run (G : Given σ W) (X : Input) (seed : Int) (ids : Option (List Int)) (strongViews : Int) (w : W) :
    Except PyErr ((Output × Output × Output) × W) :=
  Aug.run G.E G.env G.build X G.weakPlan G.strongPlan seed "fixed" G.modality ids strongViews w

theorem run_rows {torch : Bool} {x : Sample} {xs : List Sample} {seed : Int} {ids : Option (List Int)} {strongViews : Int} {w : W}
    {r : (Output × Output × Output) × W} (G : Given σ W) (h : G.run (.rows torch (x :: xs)) seed ids strongViews w = .ok r) :
    (strongViews = 1 ∨ strongViews = 2) ∧
      runRows G.E G.weak G.strong seed (decide (strongViews > 1)) ids torch x xs w = .ok r := by
  unfold Given.run Aug.run at h
  rw [if_neg (by simp)] at h
  by_cases hsv : strongViews ≠ 1 ∧ strongViews ≠ 2
  · rw [if_pos hsv] at h; cases h
  · rw [if_neg hsv] at h
    simp only [ebind_of_ok G.planned] at h
    exact ⟨by omega, h⟩

/-- C157 (partial: swap noise on tensors excluded, see `C157_alone_violated`): the results have one row for every unlabeled sample, in
their order: row `i` of the weak (strong) result is what the weak (strong) plan makes of sample `i` with the run's seed and the
sample's id; a second strong view is made exactly when two are asked for, with the next seed.  Nothing else is read or changed. -/
theorem C157_rows_partial (G : Given σ W) (torch : Bool) (xs : List Sample) (hne : xs ≠ [])
    (hfix : ∀ x ∈ xs, Fixed G.weak x ∧ Fixed G.strong x) (seed : Int) (ids : Option (List Int)) (strongViews : Int) (w w' : W)
    (ow os o1 : Output) (h : G.run (.rows torch xs) seed ids strongViews w = .ok ((ow, os, o1), w')) :
    w' = w ∧ ∃ sw ss, ow = .many sw ∧ os = .many ss ∧ sw.rows.length = xs.length ∧ ss.rows.length = xs.length ∧
      (∀ (i : Nat) (x : Sample), xs[i]? = some x → ∃ id y z, idOf ids i = some id ∧
        Gives G.E G.weak x ⟨seed, 0, id⟩ y ∧ RowIs sw i y ∧ Gives G.E G.strong x ⟨seed, 0, id⟩ z ∧ RowIs ss i z) ∧
      (strongViews = 1 ∧ o1 = .nothing ∨ strongViews = 2 ∧ ∃ s1, o1 = .many s1 ∧ s1.rows.length = xs.length ∧
        ∀ (i : Nat) (x : Sample), xs[i]? = some x → ∃ id q, idOf ids i = some id ∧
          Gives G.E G.strong x ⟨seed + 1, 0, id⟩ q ∧ RowIs s1 i q) := by
  obtain ⟨x, xs, rfl⟩ := List.exists_cons_of_ne_nil hne
  obtain ⟨hsv, h⟩ := run_rows G h
  obtain ⟨rfl, v, vs, acc, hvs, hp, hf⟩ := (runRows_ok G.E hfix).mp h
  have hthird : ∀ u ∈ v :: vs, Third (decide (strongViews > 1)) u := by
    intro u hu
    obtain ⟨i, hi, rfl⟩ := List.getElem_of_mem hu
    obtain ⟨id, _, hv⟩ := (List.forall₂_iff_get.mp hvs).2 i (by rw [hvs.length_eq]; exact hi) hi
    exact third_of G.E hv
  have hH := holds_pushAll (fun u hu => hthird u (by simp [hu])) (holds_first (hthird v (by simp))) hp
  obtain ⟨sw, ss, e1, e2, r1, r2, h3⟩ := finish_ok hH hf
  simp only [List.singleton_append] at r1 r2 h3
  have hlen := hvs.length_eq
  simp only [List.length_zipIdx] at hlen
  have hlen' : vs.length = xs.length := by simpa using hlen.symm
  have hget : ∀ (i : Nat) (y : Sample), (x :: xs)[i]? = some y → ∃ id u, idOf ids i = some id ∧ (v :: vs)[i]? = some u ∧
      IsViews G.E G.weak G.strong seed (decide (strongViews > 1)) y id u := by
    intro i y hi
    obtain ⟨hi', hy⟩ := List.getElem?_eq_some_iff.mp hi
    obtain ⟨id, h1, h2⟩ := (List.forall₂_iff_get.mp hvs).2 i (by simpa using hi') (by rw [← hlen]; exact hi')
    simp only [List.get_eq_getElem, List.getElem_zipIdx, Nat.zero_add] at h1 h2
    rw [hy] at h2
    exact ⟨id, _, h1, List.getElem?_eq_getElem _, h2⟩
  refine ⟨rfl, sw, ss, e1, e2, ?_, ?_, ?_, ?_⟩
  · have := congrArg List.length r1.1
    simpa [hlen'] using this
  · have := congrArg List.length r2.1
    simpa [hlen'] using this
  · intro i y hi
    obtain ⟨id, u, hid, hu, hv⟩ := hget i y hi
    exact ⟨id, u.1, u.2.1, hid, hv.1, rowsAre_get r1 (by rw [List.getElem?_map, hu]; rfl), hv.2.1, rowsAre_get r2 (by rw [List.getElem?_map, hu]; rfl)⟩
  · rcases hsv with rfl | rfl
    · simp at h3
      exact .inl ⟨rfl, h3⟩
    · simp only [show decide ((2 : Int) > 1) = true from rfl, if_true] at h3
      obtain ⟨s1, e3, r3, -⟩ := h3
      refine .inr ⟨rfl, s1, e3, ?_, ?_⟩
      · have := congrArg List.length r3
        simpa [hlen'] using this
      · intro i y hi
        obtain ⟨id, u, hid, hu, hv⟩ := hget i y hi
        obtain ⟨_, _, hv⟩ := hv
        simp only [show decide ((2 : Int) > 1) = true from rfl, if_true] at hv
        obtain ⟨q, hq, hv⟩ := hv
        refine ⟨id, q, hid, hv, ?_⟩
        have := congrArg (fun l => l[i]?) r3
        simp only [List.getElem?_map, hu, Option.map_some, hq, Option.map_eq_some_iff, Option.some.injEq] at this
        obtain ⟨r, hr, h⟩ := this
        exact ⟨r, hr, sameValues_iff.mpr h⟩

/-- C157: every result is rectangular: all its rows have the same shape.  Samples whose views have different shapes are refused. -/
theorem C157_rectangular (G : Given σ W) (torch : Bool) (xs : List Sample) (hfix : ∀ x ∈ xs, Fixed G.weak x ∧ Fixed G.strong x)
    (seed : Int) (ids : Option (List Int)) (strongViews : Int) (w w' : W) (ow os o1 : Output)
    (h : G.run (.rows torch xs) seed ids strongViews w = .ok ((ow, os, o1), w')) :
    ∀ s, (ow = .many s ∨ os = .many s ∨ o1 = .many s) → ∀ r ∈ s.rows, ∀ r' ∈ s.rows, npShape r = npShape r' := by
  cases xs with
  | nil =>
    unfold Given.run Aug.run at h
    rw [if_neg (by simp)] at h
    by_cases hsv : strongViews ≠ 1 ∧ strongViews ≠ 2
    · rw [if_pos hsv] at h; cases h
    · rw [if_neg hsv] at h
      simp only [Except.ok.injEq, Prod.mk.injEq] at h
      obtain ⟨⟨rfl, rfl, rfl⟩, rfl⟩ := h
      rintro s (h | h | h)
      · cases h
      · cases h
      · split_ifs at h
  | cons x xs =>
    obtain ⟨hsv, h⟩ := run_rows G h
    obtain ⟨rfl, v, vs, acc, hvs, hp, hf⟩ := (runRows_ok G.E hfix).mp h
    have hthird : ∀ u ∈ v :: vs, Third (decide (strongViews > 1)) u := by
      intro u hu
      obtain ⟨i, hi, rfl⟩ := List.getElem_of_mem hu
      obtain ⟨id, _, hv⟩ := (List.forall₂_iff_get.mp hvs).2 i (by rw [hvs.length_eq]; exact hi) hi
      exact third_of G.E hv
    have hH := holds_pushAll (fun u hu => hthird u (by simp [hu])) (holds_first (hthird v (by simp))) hp
    obtain ⟨sw, ss, e1, e2, r1, r2, h3⟩ := finish_ok hH hf
    dsimp only at e1 e2 h3
    rintro s (h | h | h)
    · rw [h] at e1; cases e1; exact r1.2
    · rw [h] at e2; cases e2; exact r2.2
    · split_ifs at h3 with h4
      · obtain ⟨s1, e3, -, r3⟩ := h3
        rw [h] at e3; cases e3; exact r3
      · rw [h] at h3; cases h3

theorem onText_kind {f : String → σ → Except PyErr (String × σ)} {x y : Sample} {s s' : σ} (h : onText f x s = .ok (y, s')) :
    kindOf y = kindOf x := by
  cases x <;> simp only [onText, ebind_ok, pure, Except.pure, Except.ok.injEq, reduceCtorEq] at h
  · obtain ⟨a, _, h⟩ := h; cases h; rfl
  · obtain ⟨a, _, h⟩ := h; cases h; rfl

theorem onArr_kind {f : Bool → NArr → Except PyErr (NArr × σ)} {x y : Sample} {s' : σ} (h : onArr f x = .ok (y, s')) :
    kindOf y = kindOf x := by
  cases x <;> simp only [onArr, ebind_ok, pure, Except.pure, Except.ok.injEq, reduceCtorEq] at h
  obtain ⟨a, _, h⟩ := h; cases h; rfl

theorem onGraph_kind {f : GraphS → Except PyErr (GraphS × σ)} {x y : Sample} {s' : σ} (h : onGraph f x = .ok (y, s')) :
    kindOf y = kindOf x := by
  cases x <;> simp only [onGraph, ebind_ok, pure, Except.pure, Except.ok.injEq, reduceCtorEq] at h
  obtain ⟨a, _, h⟩ := h; cases h; rfl

theorem local_kind {op : Op} {x y : Sample} {s s' : σ} (h : op.local E x s = .ok (y, s')) : kindOf y = kindOf x := by
  cases op with
  | identity =>
    simp only [Op.local, Except.ok.injEq, Prod.mk.injEq] at h
    rw [h.1]
  | swapNoise p => simp [Op.local] at h
  | lowercase => exact onText_kind (σ := σ) (f := fun t s => .ok (E.lower t, s)) h
  | wordDropout p => exact onText_kind h
  | randomSwap n => exact onText_kind h
  | edgeDropout p => exact onGraph_kind h
  | featureMask p => exact onGraph_kind h
  | _ => exact onArr_kind h

theorem run_kind {op : Op} {x y : Sample} {s s' : σ} {w w' : W} (h : op.run E x s w = .ok (y, s', w')) : kindOf y = kindOf x := by
  have hloc : (op.local E x s).map (fun r => (r.1, r.2, w)) = .ok (y, s', w') → kindOf y = kindOf x := by
    intro h
    cases hl : op.local E x s with
    | error e => rw [hl] at h; cases h
    | ok r => rw [hl] at h; cases h; exact local_kind E hl
  cases op with
  | swapNoise p =>
    cases x with
    | arr t a =>
      simp only [Op.run] at h
      cases hl : swapNoise E t p a s w with
      | error e => rw [hl] at h; cases h
      | ok r => rw [hl] at h; cases h; rfl
    | _ => exact hloc h
  | _ => exact hloc (by cases x <;> exact h)

theorem runOps_kind {ops : List Op} {x y : Sample} {s : σ} {w w' : W} (h : runOps E ops x s w = .ok (y, w')) : kindOf y = kindOf x := by
  induction ops generalizing x s w with
  | nil => cases h; rfl
  | cons op ops ih =>
    simp only [runOps] at h
    cases hr : op.run E x s w with
    | error e => rw [hr] at h; cases h
    | ok r =>
      rw [hr] at h
      rw [ih h, run_kind E (s' := r.2.1) (w' := r.2.2) (by rw [hr])]

/-- A view is of the kind of the sample. -/
theorem gives_kind {ops : List Op} {x y : Sample} {c : Ctx} (w : W) (h : Gives E ops x c y) : kindOf y = kindOf x :=
  runOps_kind E (h w)

theorem shapeAttr_of {t : Bool} {x : Sample} (h : kindOf x = .arr t) : shapeAttr x = .ok (npShape x) := by
  cases x <;> simp_all [kindOf, shapeAttr, npShape]

theorem isArr_of {t : Bool} {x : Sample} : isArr t x = decide (kindOf x = .arr t) := by
  cases x with
  | arr t' a => cases t <;> cases t' <;> simp [kindOf, isArr]
  | _ => simp [kindOf, isArr]

/-- Views of these kinds and shapes. -/
def Shaped (k : Kind) (A B C : List Nat) (v : Views) : Prop :=
  kindOf v.1 = k ∧ npShape v.1 = A ∧ kindOf v.2.1 = k ∧ npShape v.2.1 = B ∧ ∀ q, v.2.2 = some q → kindOf q = k ∧ npShape q = C

theorem pushAll_arr {t : Bool} {A B C : List Nat} {sh1 : Option (List Nat)} (hsh : ∀ sh, sh1 = some sh → sh = C) {us : List Views}
    (hus : ∀ u ∈ us, Shaped (.arr t) A B C u) (w s : List Sample) (s1 : Option (List Sample)) :
    ∃ w' s' s1', pushAll (.arr t A B sh1 w s s1) us = .ok (.arr t A B sh1 w' s' s1') := by
  induction us generalizing w s s1 with
  | nil => exact ⟨w, s, s1, rfl⟩
  | cons u us ih =>
    obtain ⟨k1, a1, k2, a2, h3⟩ := hus u (by simp)
    have hm : mismatch A B sh1 u = .ok false := mismatch_false.mpr ⟨by rw [shapeAttr_of k1, a1], by rw [shapeAttr_of k2, a2], fun y sh hy hs => by
      rw [shapeAttr_of (h3 y hy).1, (h3 y hy).2, hsh sh hs]⟩
    simp only [pushAll, Acc.push, ebind_of_ok hm]
    exact ih (fun v hv => hus v (by simp [hv])) _ _ _

theorem pushAll_lists (us : List Views) (w s : List Sample) (s1 : Option (List Sample)) :
    ∃ w' s' s1', pushAll (.lists w s s1) us = .ok (.lists w' s' s1') := by
  induction us generalizing w s s1 with
  | nil => exact ⟨w, s, s1, rfl⟩
  | cons u us ih => exact ih _ _ _

theorem stack_total {l : List Sample} {A : List Nat} (h : ∀ x ∈ l, npShape x = A) : ∃ s, stack false l = .ok s := by
  unfold stack
  simp only [Bool.false_eq_true, if_false]
  rw [if_pos]
  · exact ⟨_, rfl⟩
  · simp only [List.all_eq_true, beq_iff_eq]
    intro x hx
    cases l with
    | nil => cases hx
    | cons y l => rw [h x hx]; exact (h y (by simp)).symm

theorem shape_of_map {l : List Sample} {vs : List Views} {f : Views → Sample} {A : List Nat}
    (h : l.map (asKind false) = vs.map (fun v => asKind false (f v))) (hs : ∀ v ∈ vs, npShape (f v) = A) : ∀ x ∈ l, npShape x = A := by
  intro x hx
  have : asKind false x ∈ l.map (asKind false) := List.mem_map_of_mem hx
  rw [h, List.mem_map] at this
  obtain ⟨v, hv, e⟩ := this
  rw [← npShape_asKind false x, ← e, npShape_asKind, hs v hv]

theorem finish_total {k : Kind} {A B C : List Nat} {two torch : Bool} {v : Views} {us : List Views}
    (hk : if torch then k = .arr true else ∀ t, k = .arr t → t = false) (hus : ∀ u ∈ v :: us, Shaped k A B C u)
    (hthird : ∀ u ∈ v :: us, Third two u) : ∃ acc o, pushAll (firstAcc v) us = .ok acc ∧ acc.finish torch = .ok o := by
  have hv := hus v (by simp)
  have ht := hthird v (by simp)
  obtain ⟨k1, a1, k2, a2, h3⟩ := hv
  have hall : ∀ t, v.2.2.all (isArr t) = true ∨ k ≠ .arr t := by
    intro t
    by_cases h : k = .arr t
    · left
      cases hq : v.2.2 with
      | none => rfl
      | some q => simp [isArr_of, (h3 q hq).1, h]
    · exact .inr h
  by_cases hka : ∃ t, k = .arr t
  · obtain ⟨t, rfl⟩ := hka
    have hf : ∃ sh1, (∀ sh, sh1 = some sh → sh = C) ∧ firstAcc v = .arr t A B sh1 [v.1] [v.2.1] (v.2.2.map ([·])) := by
      refine ⟨v.2.2.map npShape, ?_, ?_⟩
      · intro sh h
        rw [Option.map_eq_some_iff] at h
        obtain ⟨q, hq, rfl⟩ := h
        exact (h3 q hq).2
      · unfold firstAcc
        have := (hall t).resolve_right (by simp)
        cases t with
        | true => simp [isArr_of, k1, k2, this, a1, a2]
        | false => simp [isArr_of, k1, k2, this, a1, a2]
    obtain ⟨sh1, hsh, hf⟩ := hf
    obtain ⟨w', s', s1', hp⟩ := pushAll_arr (us := us) hsh (fun u hu => hus u (by simp [hu])) [v.1] [v.2.1] (v.2.2.map ([·]))
    exact ⟨_, _, by rw [hf]; exact hp, rfl⟩
  · have htorch : torch = false := by
      cases torch with
      | false => rfl
      | true => exact absurd ⟨true, by simpa using hk⟩ hka
    subst htorch
    have hne : ∀ t, k ≠ .arr t := fun t h => hka ⟨t, h⟩
    have hf : firstAcc v = .lists [v.1] [v.2.1] (v.2.2.map ([·])) := by
      unfold firstAcc
      simp [isArr_of, k1, hne]
    obtain ⟨w', s', s1', hp⟩ := pushAll_lists us [v.1] [v.2.1] (v.2.2.map ([·]))
    rw [← hf] at hp
    have hH := holds_pushAll (fun u hu => hthird u (by simp [hu])) (holds_first ht) hp
    obtain ⟨h1, h2, h4⟩ := hH
    obtain ⟨a, ha⟩ := stack_total (shape_of_map (f := fun v => v.1) h1 fun u hu => (hus u (by simpa using hu)).2.1)
    obtain ⟨b, hb⟩ := stack_total (shape_of_map (f := fun v => v.2.1) h2 fun u hu => (hus u (by simpa using hu)).2.2.2.1)
    cases two with
    | false =>
      simp only [Bool.false_eq_true, if_false] at h4
      subst h4
      exact ⟨_, _, hp, by simp only [Acc.finish, ebind_of_ok ha, ebind_of_ok hb]; rfl⟩
    | true =>
      simp only [if_true] at h4
      obtain ⟨l, rfl, h4⟩ := h4
      have hl : ∀ x ∈ l, npShape x = C := by
        intro x hx
        have : some (asKind false x) ∈ l.map (fun x => some (asKind false x)) := List.mem_map_of_mem hx
        rw [h4, List.mem_map] at this
        obtain ⟨u, hu, e⟩ := this
        rw [Option.map_eq_some_iff] at e
        obtain ⟨q, hq, e⟩ := e
        rw [← npShape_asKind false x, ← e, npShape_asKind]
        exact ((hus u (by simpa using hu)).2.2.2.2 q hq).2
      obtain ⟨c, hc⟩ := stack_total hl
      exact ⟨_, _, hp, by simp only [Acc.finish, ebind_of_ok ha, ebind_of_ok hb, ebind_of_ok hc]; rfl⟩

theorem forall₂_exists {α β : Type} {R : α → β → Prop} {l : List α} (h : ∀ a ∈ l, ∃ b, R a b) : ∃ r, List.Forall₂ R l r := by
  induction l with
  | nil => exact ⟨[], .nil⟩
  | cons a l ih =>
    obtain ⟨b, hb⟩ := h a (by simp)
    obtain ⟨r, hr⟩ := ih fun x hx => h x (by simp [hx])
    exact ⟨b :: r, .cons hb hr⟩

/-- C157: nothing is refused without a reason: if every sample has an id and its views exist and have the same shapes for all
samples, the stage succeeds. -/
theorem C157_complete (G : Given σ W) (torch : Bool) (xs : List Sample) (hwf : WellFormed torch xs)
    (hfix : ∀ x ∈ xs, Fixed G.weak x ∧ Fixed G.strong x) (seed : Int) (ids : Option (List Int)) (strongViews : Int)
    (hsv : strongViews = 1 ∨ strongViews = 2) (w : W) (A B C : List Nat)
    (hviews : ∀ (i : Nat) (x : Sample), xs[i]? = some x → ∃ id y z, idOf ids i = some id ∧
      Gives G.E G.weak x ⟨seed, 0, id⟩ y ∧ npShape y = A ∧ Gives G.E G.strong x ⟨seed, 0, id⟩ z ∧ npShape z = B ∧
      (strongViews = 2 → ∃ q, Gives G.E G.strong x ⟨seed + 1, 0, id⟩ q ∧ npShape q = C)) :
    ∃ o, G.run (.rows torch xs) seed ids strongViews w = .ok (o, w) := by
  cases xs with
  | nil =>
    unfold Given.run Aug.run
    rw [if_neg (by simp), if_neg (by omega)]
    exact ⟨_, rfl⟩
  | cons x xs =>
    obtain ⟨k, hk, hkt⟩ := hwf
    obtain ⟨vs, hvs⟩ := forall₂_exists (R := fun (p : Sample × Nat) (v : Views) => (∃ id, idOf ids p.2 = some id ∧
        IsViews G.E G.weak G.strong seed (decide (strongViews > 1)) p.1 id v) ∧ Shaped k A B C v) (l := (x :: xs).zipIdx) (by
      rintro ⟨y, i⟩ hy
      rw [List.mk_mem_zipIdx_iff_getElem?] at hy
      obtain ⟨id, a, b, hid, ha, sa, hb, sb, hq⟩ := hviews i y hy
      have hky := hk y (List.mem_of_getElem? hy)
      rcases hsv with rfl | rfl
      · refine ⟨(a, b, none), ⟨id, hid, ha, hb, by simp⟩, (gives_kind G.E w ha).trans hky, sa, (gives_kind G.E w hb).trans hky, sb, ?_⟩
        rintro q ⟨⟩
      · obtain ⟨q, hq, sq⟩ := hq rfl
        refine ⟨(a, b, some q), ⟨id, hid, ha, hb, ?_⟩, (gives_kind G.E w ha).trans hky, sa, (gives_kind G.E w hb).trans hky, sb, ?_⟩
        · simp only [show decide ((2 : Int) > 1) = true from rfl, if_true]
          exact ⟨q, rfl, hq⟩
        · rintro q' ⟨⟩
          exact ⟨(gives_kind G.E w hq).trans hky, sq⟩)
    cases vs with
    | nil => cases hvs
    | cons v vs =>
      have hmem : ∀ u ∈ v :: vs, Shaped k A B C u ∧ Third (decide (strongViews > 1)) u := by
        intro u hu
        obtain ⟨i, hi, rfl⟩ := List.getElem_of_mem hu
        obtain ⟨⟨id, _, hv⟩, hs⟩ := (List.forall₂_iff_get.mp hvs).2 i (by rw [hvs.length_eq]; exact hi) hi
        exact ⟨hs, third_of G.E hv⟩
      obtain ⟨acc, o, hp, hf⟩ := finish_total hkt (fun u hu => (hmem u hu).1) (fun u hu => (hmem u hu).2)
      refine ⟨o, ?_⟩
      unfold Given.run Aug.run
      rw [if_neg (by simp), if_neg (by omega)]
      simp only [ebind_of_ok G.planned]
      exact (runRows_ok G.E hfix).mpr ⟨rfl, v, vs, acc, hvs.imp fun _ _ h => h.1, hp, hf⟩

theorem gives_unique {ops : List Op} {x y z : Sample} {c : Ctx} (w : W) (h1 : Gives E ops x c y) (h2 : Gives E ops x c z) : y = z := by
  have := (h1 w).symm.trans (h2 w)
  cases this; rfl

theorem sameValues_trans {x y z : Sample} (h1 : SameValues x y) (h2 : SameValues z y) : SameValues x z :=
  sameValues_iff.mpr ((sameValues_iff.mp h1).trans (sameValues_iff.mp h2).symm)

/-- Row `i` of a result and the only row of another result have the same values. -/
def SameRow (s : Stack) (i : Nat) (s' : Stack) : Prop :=
  ∃ r r', s.rows[i]? = some r ∧ s'.rows = [r'] ∧ SameValues r r'

theorem sameRow_of {s s' : Stack} {i : Nat} {y : Sample} (h1 : RowIs s i y) (hl : s'.rows.length = 1) (h2 : RowIs s' 0 y) : SameRow s i s' := by
  obtain ⟨r, hr, h1⟩ := h1
  obtain ⟨r', hr', h2⟩ := h2
  obtain ⟨a, ha⟩ := List.length_eq_one_iff.mp hl
  rw [ha, List.getElem?_cons_zero, Option.some.injEq] at hr'
  subst hr'
  exact ⟨r, _, hr, ha, sameValues_trans h1 h2⟩

/-- C157 (partial: swap noise on tensors excluded, see `C157_alone_violated`): the views of a sample do not depend on the other
samples: a run on this sample alone, with the same id, gives the same rows. -/
theorem C157_alone_partial (G : Given σ W) (torch : Bool) (xs : List Sample) (hwf : WellFormed torch xs)
    (hfix : ∀ x ∈ xs, Fixed G.weak x ∧ Fixed G.strong x) (seed : Int) (ids : Option (List Int)) (strongViews : Int) (w w' : W)
    (ow os o1 : Output) (h : G.run (.rows torch xs) seed ids strongViews w = .ok ((ow, os, o1), w')) (i : Nat) (x : Sample)
    (hi : xs[i]? = some x) :
    ∃ id, idOf ids i = some id ∧ ∀ w2 : W, ∃ sw ss sw' ss' o1', ow = .many sw ∧ os = .many ss ∧
      G.run (.rows torch [x]) seed (some [id]) strongViews w2 = .ok ((.many sw', .many ss', o1'), w2) ∧
      SameRow sw i sw' ∧ SameRow ss i ss' ∧
      (o1 = .nothing ∧ o1' = .nothing ∨ ∃ s1 s1', o1 = .many s1 ∧ o1' = .many s1' ∧ SameRow s1 i s1') := by
  have hne : xs ≠ [] := by rintro rfl; simp at hi
  have hmem := List.mem_of_getElem? hi
  obtain ⟨rfl, sw, ss, e1, e2, l1, l2, hrows, hsv⟩ := C157_rows_partial G torch xs hne hfix seed ids strongViews w w' ow os o1 h
  obtain ⟨id, y, z, hid, hy, ry, hz, rz⟩ := hrows i x hi
  refine ⟨id, hid, fun w2 => ?_⟩
  have hfix' : ∀ a ∈ [x], Fixed G.weak a ∧ Fixed G.strong a := by simpa using hfix x hmem
  have hsv' : strongViews = 1 ∨ strongViews = 2 := by
    rcases hsv with h | h
    · exact .inl h.1
    · exact .inr h.1
  have hq : strongViews = 2 → ∃ q, Gives G.E G.strong x ⟨seed + 1, 0, id⟩ q := by
    intro h2
    rcases hsv with h | ⟨_, s1, _, _, hq⟩
    · omega
    · obtain ⟨id', q, hid', hq, _⟩ := hq i x hi
      rw [hid] at hid'; cases hid'
      exact ⟨q, hq⟩
  obtain ⟨C, hC⟩ : ∃ C, strongViews = 2 → ∃ q, Gives G.E G.strong x ⟨seed + 1, 0, id⟩ q ∧ npShape q = C := by
    by_cases h2 : strongViews = 2
    · obtain ⟨q, hq⟩ := hq h2
      exact ⟨npShape q, fun _ => ⟨q, hq, rfl⟩⟩
    · exact ⟨[], fun h => absurd h h2⟩
  obtain ⟨⟨ow', os', o1'⟩, hrun⟩ := C157_complete G torch [x] (by
    obtain ⟨k, hk, hkt⟩ := hwf
    exact ⟨k, by simpa using hk x hmem, hkt⟩) hfix' seed (some [id]) strongViews hsv' w2 (npShape y) (npShape z) C (by
      intro j x' hj
      cases j with
      | succ j => simp at hj
      | zero =>
        simp only [List.getElem?_cons_zero, Option.some.injEq] at hj
        subst hj
        exact ⟨id, y, z, rfl, hy, rfl, hz, rfl, hC⟩)
  obtain ⟨-, sw', ss', rfl, rfl, l1', l2', hrows', hsv2⟩ := C157_rows_partial G torch [x] (by simp) hfix' seed (some [id]) strongViews w2 w2
    ow' os' o1' hrun
  obtain ⟨id', y', z', hid', hy', ry', hz', rz'⟩ := hrows' 0 x rfl
  cases hid'
  refine ⟨sw, ss, sw', ss', o1', e1, e2, hrun, ?_, ?_, ?_⟩
  · exact sameRow_of ry (by simpa using l1') (by rw [gives_unique G.E w2 hy hy']; exact ry')
  · exact sameRow_of rz (by simpa using l2') (by rw [gives_unique G.E w2 hz hz']; exact rz')
  · rcases hsv with ⟨h1, rfl⟩ | ⟨h1, s1, rfl, _, hs⟩
    · rcases hsv2 with ⟨_, rfl⟩ | ⟨h2, _⟩
      · exact .inl ⟨rfl, rfl⟩
      · omega
    · rcases hsv2 with ⟨h2, _⟩ | ⟨_, s1', rfl, l3, hs'⟩
      · omega
      · obtain ⟨id1, q, hid1, hq, rq⟩ := hs i x hi
        obtain ⟨id2, q', hid2, hq', rq'⟩ := hs' 0 x rfl
        rw [hid] at hid1; cases hid1; cases hid2
        exact .inr ⟨s1, s1', rfl, rfl, sameRow_of rq (by simpa using l3) (by rw [gives_unique G.E w2 hq hq']; exact rq')⟩

/-- C157: the second strong view of a run is the first strong view of the run with the next seed: runs with neighbouring seeds share
their augmentations. -/
theorem C157_second_view (G : Given σ W) (torch : Bool) (xs : List Sample) (hne : xs ≠ [])
    (hfix : ∀ x ∈ xs, Fixed G.weak x ∧ Fixed G.strong x) (seed : Int) (ids : Option (List Int)) (w1 w1' w2 w2' : W)
    (ow os o1 ow' os' o1' : Output) (h : G.run (.rows torch xs) seed ids 2 w1 = .ok ((ow, os, o1), w1')) (n : Int)
    (h' : G.run (.rows torch xs) (seed + 1) ids n w2 = .ok ((ow', os', o1'), w2')) :
    ∃ s1 ss', o1 = .many s1 ∧ os' = .many ss' ∧ s1.rows.length = ss'.rows.length ∧
      ∀ (i : Nat) (r r' : Sample), s1.rows[i]? = some r → ss'.rows[i]? = some r' → SameValues r r' := by
  obtain ⟨rfl, sw, ss, e1, e2, l1, l2, hrows, hsv⟩ := C157_rows_partial G torch xs hne hfix seed ids 2 w1 w1' ow os o1 h
  obtain ⟨rfl, sw', ss', e1', e2', l1', l2', hrows', hsv'⟩ := C157_rows_partial G torch xs hne hfix (seed + 1) ids n w2 w2' ow' os' o1' h'
  rcases hsv with ⟨h2, _⟩ | ⟨_, s1, rfl, l3, hs⟩
  · omega
  refine ⟨s1, ss', rfl, e2', by rw [l3, l2'], ?_⟩
  intro i r r' hr hr'
  obtain ⟨x, hx⟩ : ∃ x, xs[i]? = some x := by
    have := (List.getElem?_eq_some_iff.mp hr).1
    rw [l3] at this
    exact ⟨_, List.getElem?_eq_getElem this⟩
  obtain ⟨id, q, hid, hq, a, ha, hs⟩ := hs i x hx
  obtain ⟨id', y, z, hid', _, _, hz, b, hb, hs'⟩ := hrows' i x hx
  rw [hid] at hid'; cases hid'
  rw [hr] at ha; cases ha
  rw [hr'] at hb; cases hb
  rw [gives_unique G.E w1' hq hz] at hs
  exact sameValues_trans hs hs'

/-- C157: within a run different samples and different views hash different texts, so their random draws are unrelated; the texts of
runs with different seeds coincide only for the second view of one and the first view of the next seed. -/
theorem C157_contexts (s s' v v' i i' : Int) :
    payload (ctxOf s v i) = payload (ctxOf s' v' i') ↔ s + v = s' + v' ∧ i = i' := by
  constructor
  · intro h
    have := payload_inj _ _ h
    unfold ctxOf at this
    simp only [Ctx.mk.injEq, true_and] at this
    exact this
  · rintro ⟨h, rfl⟩
    unfold ctxOf
    rw [h]

/-- C157: without unlabeled samples nothing is augmented: no data gives no views, an empty array is returned as it is; the plans are
not looked at. -/
theorem C157_skip (env : SchemaEnv) (build : Option String → List (String × Dict) → Except PyErr (List Op)) (wp sp : PyVal) (seed : Int)
    (m : Option String) (ids : Option (List Int)) (n : Int) (hn : n = 1 ∨ n = 2) (w : W) (torch : Bool) :
    run E env build .missing wp sp seed "fixed" m ids n w = .ok ((.nothing, .nothing, .nothing), w) ∧
    run E env build (.rows torch []) wp sp seed "fixed" m ids n w =
      .ok ((.same (.rows torch []), .same (.rows torch []), if n = 2 then .same (.rows torch []) else .nothing), w) := by
  constructor
  · unfold run; rw [if_neg (by simp), if_neg (by omega)]
  · unfold run; rw [if_neg (by simp), if_neg (by omega)]
    rcases hn with rfl | rfl <;> rfl

/-- C157: other modes and other numbers of strong views are refused, and so are data that are neither an array nor, with modality
`graph`, a graph. -/
theorem C157_refused (env : SchemaEnv) (build : Option String → List (String × Dict) → Except PyErr (List Op)) (X : Input) (wp sp : PyVal)
    (seed : Int) (mode : String) (m : Option String) (ids : Option (List Int)) (n : Int) (w : W)
    (h : mode ≠ "fixed" ∨ (n ≠ 1 ∧ n ≠ 2) ∨ X = .other ∨ (∃ x, X = .graph x) ∧ m ≠ some "graph") :
    ∃ e, run E env build X wp sp seed mode m ids n w = .error e := by
  unfold run
  by_cases h1 : mode = "fixed"
  · rw [if_neg (by simpa using h1)]
    by_cases h2 : n ≠ 1 ∧ n ≠ 2
    · rw [if_pos h2]; exact ⟨_, rfl⟩
    · rw [if_neg h2]
      have key : ∃ e, (do
          let _ ← augPlan env wp
          let _ ← augPlan env sp
          (.error .runtimeError : Except PyErr ((Output × Output × Output) × W))) = .error e := by
        cases augPlan env wp with
        | error e => exact ⟨e, rfl⟩
        | ok a => cases augPlan env sp with
          | error e => exact ⟨e, rfl⟩
          | ok b => exact ⟨_, rfl⟩
      rcases h with h | h | rfl | ⟨⟨x, rfl⟩, h⟩
      · exact absurd h1 h
      · exact absurd h h2
      · exact key
      · simp only [if_neg h]
        exact key
  · rw [if_pos h1]; exact ⟨_, rfl⟩

/-- C157: a run that fails to give an id to some sample is refused. -/
theorem C157_ids (G : Given σ W) (torch : Bool) (xs : List Sample) (hne : xs ≠ []) (hfix : ∀ x ∈ xs, Fixed G.weak x ∧ Fixed G.strong x)
    (seed : Int) (l : List Int) (hl : l.length < xs.length) (n : Int) (w : W) :
    ∃ e, G.run (.rows torch xs) seed (some l) n w = .error e := by
  cases h : G.run (.rows torch xs) seed (some l) n w with
  | error e => exact ⟨e, rfl⟩
  | ok r =>
    obtain ⟨⟨ow, os, o1⟩, w'⟩ := r
    obtain ⟨_, sw, ss, _, _, _, _, hrows, _⟩ := C157_rows_partial G torch xs hne hfix seed (some l) n w w' ow os o1 h
    obtain ⟨id, _, _, hid, _⟩ := hrows l.length xs[l.length] (List.getElem?_eq_getElem hl)
    simp [idOf] at hid

/-- C157: with modality `graph` a graph is one sample; its id is the first given id, or 0. -/
theorem C157_graph (G : Given σ W) (hm : G.modality = some "graph") (x : Sample) (hfix : Fixed G.weak x ∧ Fixed G.strong x) (seed : Int)
    (ids : Option (List Int)) (n : Int) (hn : n = 1 ∨ n = 2) (w w' : W) (ow os o1 : Output) :
    G.run (.graph x) seed ids n w = .ok ((ow, os, o1), w') ↔ w' = w ∧ ∃ y z id,
      ow = .one y ∧ os = .one z ∧ (id = 0 ∧ (ids = none ∨ ids = some []) ∨ ∃ l, ids = some (id :: l)) ∧
      Gives G.E G.weak x ⟨seed, 0, id⟩ y ∧ Gives G.E G.strong x ⟨seed, 0, id⟩ z ∧
      (n = 1 ∧ o1 = .nothing ∨ n = 2 ∧ ∃ q, o1 = .one q ∧ Gives G.E G.strong x ⟨seed + 1, 0, id⟩ q) := by
  have hid : ∀ id : Int, (id = 0 ∧ (ids = none ∨ ids = some []) ∨ ∃ l, ids = some (id :: l)) ↔ id = (ids.getD []).headD 0 := by
    intro id
    rcases ids with _ | _ | ⟨a, l⟩
    · simp
    · simp
    · simp [eq_comm]
  simp only [hid]
  unfold Given.run Aug.run
  rw [if_neg (by simp), if_neg (by omega)]
  have hp := G.planned
  rw [hm] at hp
  simp only [hm, if_true, ebind_of_ok hp, runGraph, ebind_ok, pure, Except.pure]
  constructor
  · rintro ⟨⟨⟨y, z, q⟩, w1⟩, hv, h⟩
    obtain ⟨rfl, g1, g2, g3⟩ := (viewsOf_ok G.E hfix.1 hfix.2).mp hv
    rcases hn with rfl | rfl
    · simp at g3
      subst g3
      cases h
      exact ⟨rfl, y, z, _, rfl, rfl, rfl, g1, g2, .inl ⟨rfl, rfl⟩⟩
    · simp only [show decide ((2 : Int) > 1) = true from rfl, if_true] at g3
      obtain ⟨q, rfl, g3⟩ := g3
      cases h
      exact ⟨rfl, y, z, _, rfl, rfl, rfl, g1, g2, .inr ⟨rfl, q, rfl, g3⟩⟩
  · rintro ⟨rfl, y, z, id, rfl, rfl, rfl, g1, g2, ⟨rfl, rfl⟩ | ⟨rfl, q, rfl, g3⟩⟩
    · exact ⟨((y, z, none), w'), (viewsOf_ok G.E hfix.1 hfix.2).mpr ⟨rfl, g1, g2, by simp⟩, rfl⟩
    · refine ⟨((y, z, some q), w'), (viewsOf_ok G.E hfix.1 hfix.2).mpr ⟨rfl, g1, g2, ?_⟩, rfl⟩
      simp only [show decide ((2 : Int) > 1) = true from rfl, if_true]
      exact ⟨q, rfl, g3⟩

end

/-! ### Plans -/

/-- A step of a plan: only the known entries; `id` or `op_id` names the operation, and they agree if both are given; the parameters
are those given, if any. -/
structure AugStepMeans (env : SchemaEnv) (item : Dict) (s : String × Dict) : Prop where
  keys : OnlyKeys item ["id", "op_id", "params"]
  agree : ∀ a b, Assoc.get item "id" = some a → Assoc.get item "op_id" = some b → pyStr env a = pyStr env b
  id : s.1 ≠ "" ∧ ((∃ v, Assoc.get item "id" = some v ∧ v.truthy = true ∧ s.1 = pyStr env v) ∨
    (∀ v, Assoc.get item "id" = some v → v.truthy = false) ∧ ∃ v, Assoc.get item "op_id" = some v ∧ v.truthy = true ∧ s.1 = pyStr env v)
  params : (∀ v, Assoc.get item "params" = some v → v.truthy = false) ∧ s.2 = [] ∨
    Assoc.get item "params" = some (.dict s.2) ∧ s.2 ≠ []

theorem opIdOf_ne {env : SchemaEnv} {item : Dict} {s : String} :
    (opIdOf env item = s ∧ s ≠ "") ↔ s ≠ "" ∧ ((∃ v, Assoc.get item "id" = some v ∧ v.truthy = true ∧ s = pyStr env v) ∨
      (∀ v, Assoc.get item "id" = some v → v.truthy = false) ∧ ∃ v, Assoc.get item "op_id" = some v ∧ v.truthy = true ∧ s = pyStr env v) := by
  unfold opIdOf getOr
  cases h1 : Assoc.get item "id" with
  | none =>
    cases h2 : Assoc.get item "op_id" with
    | none => simp [truthy_none]
    | some w => cases hw : w.truthy <;> simp [truthy_none, hw] <;> tauto
  | some v =>
    cases hv : v.truthy with
    | true => simp [hv]; tauto
    | false =>
      cases h2 : Assoc.get item "op_id" with
      | none => simp [hv, truthy_none]
      | some w => cases hw : w.truthy <;> simp [hv, hw] <;> tauto

theorem augStep_ok {env : SchemaEnv} {v : PyVal} {s : String × Dict} :
    augStep env v = .ok s ↔ ∃ item, v = .dict item ∧ AugStepMeans env item s := by
  unfold augStep
  cases v with
  | dict item =>
    simp only [PyVal.dict.injEq, exists_eq_left']
    have hu : ∀ {x : Except PyErr Unit} {P : Prop}, (∃ a, x = .ok a ∧ P) ↔ x = .ok () ∧ P := by
      intro x P
      exact ⟨fun ⟨_, h⟩ => h, fun h => ⟨(), h⟩⟩
    have hc : opConflict env item = false ↔
        ∀ a b, Assoc.get item "id" = some a → Assoc.get item "op_id" = some b → pyStr env a = pyStr env b := by
      unfold opConflict
      cases Assoc.get item "id" <;> cases Assoc.get item "op_id" <;> simp
    simp only [ebind_ok, hu, guard_ok, onlyKeys_ok, paramsOf_ok, Bool.not_eq_true, pure, Except.pure, Except.ok.injEq, hc]
    constructor
    · rintro ⟨h1, h2, h3, p, h4, rfl⟩
      exact ⟨h1, h2, opIdOf_ne.mp ⟨rfl, h3⟩, h4⟩
    · rintro ⟨h1, h2, h3, h4⟩
      have h3 := opIdOf_ne.mpr h3
      obtain ⟨i, p⟩ := s
      exact ⟨h1, h2, by rw [h3.1]; exact h3.2, p, h4, by rw [h3.1]⟩
  | _ => simp

/-- C157: a plan is accepted exactly when it has a meaning, and is read as that: its steps in order; unknown entries, steps without a
name, contradictory names and parameters that are no mapping are refused. -/
theorem C157_plan (env : SchemaEnv) (v : PyVal) (steps : List (String × Dict)) :
    augPlan env v = .ok steps ↔ ∃ d, v = .dict d ∧ OnlyKeys d ["steps", "modality"] ∧
      ((∃ l, Assoc.get d "steps" = some (.list l) ∧
        List.Forall₂ (fun v s => ∃ item, v = .dict item ∧ AugStepMeans env item s) l steps) ∨
      Assoc.get d "steps" = none ∧ steps = []) := by
  unfold augPlan
  cases v with
  | dict d =>
    simp only [PyVal.dict.injEq, exists_eq_left', ebind_ok]
    constructor
    · rintro ⟨_, h1, h⟩
      refine ⟨onlyKeys_ok.mp h1, ?_⟩
      unfold getOr at h
      cases hs : Assoc.get d "steps" with
      | none =>
        rw [hs] at h
        simp only [Option.getD_none, List.mapM_nil] at h
        cases h
        exact .inr ⟨rfl, rfl⟩
      | some w =>
        rw [hs] at h
        cases w with
        | list l =>
          simp only [Option.getD_some, mapM_ok] at h
          exact .inl ⟨l, rfl, h.imp fun _ _ hab => augStep_ok.mp hab⟩
        | _ => cases h
    · rintro ⟨h1, h⟩
      refine ⟨(), onlyKeys_ok.mpr h1, ?_⟩
      unfold getOr
      rcases h with ⟨l, hs, hf⟩ | ⟨hs, rfl⟩
      · rw [hs]
        simp only [Option.getD_some]
        exact mapM_ok.mpr (hf.imp fun _ _ hab => augStep_ok.mpr hab)
      · rw [hs]; rfl
  | _ => simp

/-- C157 is violated: a plan may state its modality, but the statement has no effect: with any other modality in the plan the run is
the same. -/
theorem C157_modality_violated {σ W : Type} (E : Env σ W) (env : SchemaEnv)
    (build : Option String → List (String × Dict) → Except PyErr (List Op)) (X : Input) (d : Dict) (m1 m2 : PyVal) (sp : PyVal) (seed : Int)
    (mode : String) (m : Option String) (ids : Option (List Int)) (n : Int) (w : W) :
    run E env build X (.dict (("modality", m1) :: d)) sp seed mode m ids n w =
      run E env build X (.dict (("modality", m2) :: d)) sp seed mode m ids n w := by
  have h : augPlan env (.dict (("modality", m1) :: d)) = augPlan env (.dict (("modality", m2) :: d)) := by
    have hg : ∀ m, getOr (("modality", m) :: d) "steps" (.list []) = getOr d "steps" (.list []) := by
      intro m
      unfold getOr
      rw [Assoc.get_cons]
      simp
    unfold augPlan
    simp only [hg]
    rfl
  unfold run plans
  rw [h]

/-! ### Examples -/

/-- A plan with one step. -/
def demoPlan (op : String) : PyVal := .dict [("steps", .list [.dict [("id", .str op)]])]

/-- Three operations by name. -/
def demoBuild : Option String → List (String × Dict) → Except PyErr (List Op) := fun _ steps =>
  .ok (steps.map fun s => if s.1 = "swap" then .swapNoise (1 / 2) else if s.1 = "noise" then .gaussianNoise 1 else .identity)

/-- The first entries of the rows of a result. -/
def firstEntries : Output → List Rat
  | .many s => s.rows.map fun r => match r with
    | .arr _ a => a.get [0]
    | _ => 0
  | _ => []

/-- Two rows. -/
def demoRows (torch : Bool) : List Sample := [.arr torch ⟨[1], fun _ => 7⟩, .arr torch ⟨[1], fun _ => 9⟩]

/-- C157 is violated for swap noise on tensors: the views of a sample depend on the samples before it. -/
theorem C157_alone_violated :
    let f (X : List Sample) (ids : List Int) := (run demoEnv demoSchemaEnv demoBuild (.rows true X) (demoPlan "identity") (demoPlan "swap")
      0 "fixed" none (some ids) 1 0).map fun r => (firstEntries r.1.1, firstEntries r.1.2.1)
    f (demoRows true) [4, 5] = .ok ([7, 9], [1, 3]) ∧ f [.arr true ⟨[1], fun _ => 9⟩] [5] = .ok ([9], [1]) := by
  decide +kernel

/-- A run with two strong views. -/
example : (run demoEnv demoSchemaEnv demoBuild (.rows false (demoRows false)) (demoPlan "identity") (demoPlan "noise") 0 "fixed" none
    (some [4, 5]) 2 0).map (fun r => (firstEntries r.1.1, firstEntries r.1.2.1, firstEntries r.1.2.2)) = .ok ([7, 9], [7, 9], [7, 9]) := by
  decide +kernel

/-- The hypotheses of the theorems above hold for it. -/
def demoGiven : Given Nat Nat where
  E := demoEnv
  env := demoSchemaEnv
  build := demoBuild
  weakPlan := demoPlan "identity"
  strongPlan := demoPlan "noise"
  modality := none
  weak := [.identity]
  strong := [.gaussianNoise 1]
  planned := rfl

example : (∀ x ∈ demoRows false, Fixed demoGiven.weak x ∧ Fixed demoGiven.strong x) ∧ WellFormed false (demoRows false) := by
  refine ⟨fun x _ => ⟨.inl (by simp [demoGiven, Op.usesGlobal]), .inl (by simp [demoGiven, Op.usesGlobal])⟩, .arr false, ?_, ?_⟩
  · simp [demoRows, kindOf]
  · simp

example : augPlan demoSchemaEnv (demoPlan "noise") = .ok [("noise", [])] := by decide +kernel

example : augPlan demoSchemaEnv (.dict [("steps", .list [.dict [("id", .str "a"), ("op_id", .str "b")]])]) = .error .valueError := by
  decide +kernel

end ModSSC.Bench.Aug
