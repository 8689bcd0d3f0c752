import Verif.Bench.LimitsModel
import Verif.Bench.LimitsSpec
import Mathlib.Data.List.Basic
import Mathlib.Tactic.Linarith

/-!
# Resource limits (C59, C92)
-/

namespace ModSSC.Bench
open ModSSC Spec

/-- The place of a change as a path. -/
def toStep : String ⊕ Nat → Step
  | .inl k => .key k
  | .inr i => .item i

/-- The place of a change as a path. -/
def Change.steps (c : Change) : List Step := c.path.map toStep

variable (parse : String → Option Int)

theorem coerceInt_eq (v : PyVal) : coerceInt parse v = intValue parse v := by
  cases v <;> rfl

/-- What an edit may do: at the places of the table entries are limited, all else stays, and the changes reported are
the entries that changed. -/
structure Sound (S : List (List Pat × Option Int)) (v v' : PyVal) (cs : List Change) : Prop where
  limited : ∀ e ∈ S, ∀ p, Matches e.1 p → Limited parse e.2 (lookup p v) (lookup p v')
  frame : ∀ p, (∀ e ∈ S, ¬ Touches e.1 p) → lookup p v' = lookup p v
  report : ∀ c ∈ cs, ∃ e ∈ S, e.2 = some c.new ∧ Matches e.1 c.steps ∧ lookup c.steps v = c.old ∧
    lookup c.steps v' = some (.int c.new) ∧ c.old ≠ some (.int c.new)
  complete : ∀ e ∈ S, ∀ p, Matches e.1 p → lookup p v' ≠ lookup p v → ∃ c ∈ cs, c.steps = p

theorem limited_refl_none (l : Option Int) : Limited parse l none none := by
  cases l <;> simp [Limited]

theorem Sound.same {S : List (List Pat × Option Int)} {v : PyVal}
    (h : ∀ e ∈ S, ∀ p, Matches e.1 p → lookup p v = none) : Sound parse S v v [] where
  limited e he p hp := by rw [h e he p hp]; exact limited_refl_none parse _
  frame _ _ := rfl
  report c hc := by simp at hc
  complete e he p hp hne := absurd rfl hne

/-- Patterns with no place in common, and none inside the other. -/
def Apart : List Pat → List Pat → Bool
  | [], _ => false
  | _, [] => false
  | .key a :: p, .key b :: q => a ≠ b || Apart p q
  | .any :: p, .any :: q => Apart p q
  | _, _ => true

theorem apart_touches {a b : List Pat} (h : Apart a b = true) {p : List Step} (hm : Matches a p) : ¬ Touches b p := by
  induction a generalizing b p with
  | nil => simp [Apart] at h
  | cons x a ih =>
    cases b with
    | nil => cases x <;> simp [Apart] at h
    | cons y b =>
      cases x with
      | key k =>
        cases p with
        | nil => simp [Matches] at hm
        | cons s p =>
          cases s with
          | item i => simp [Matches] at hm
          | key k2 =>
            simp only [Matches] at hm
            obtain ⟨rfl, hm⟩ := hm
            cases y with
            | any => simp [Touches]
            | key k3 =>
              simp only [Touches, not_and]
              rintro rfl
              simp [Apart] at h
              exact ih h hm
      | any =>
        cases p with
        | nil => simp [Matches] at hm
        | cons s p =>
          cases s with
          | key i => simp [Matches] at hm
          | item i =>
            simp only [Matches] at hm
            cases y with
            | key k3 => simp [Touches]
            | any =>
              simp only [Touches]
              simp only [Apart] at h
              exact ih h hm

theorem apart_symm (a b : List Pat) : Apart a b = Apart b a := by
  induction a generalizing b with
  | nil => cases b <;> simp [Apart]
  | cons x a ih =>
    cases b with
    | nil => cases x <;> simp [Apart]
    | cons y b =>
      cases x <;> cases y <;> simp [Apart, ih b, eq_comm, bne_comm]

theorem Sound.trans {S T : List (List Pat × Option Int)} {a b c : PyVal} {cs ds : List Change}
    (h1 : Sound parse S a b cs) (h2 : Sound parse T b c ds) (hap : ∀ e ∈ S, ∀ f ∈ T, Apart e.1 f.1 = true) :
    Sound parse (S ++ T) a c (cs ++ ds) := by
  have hS : ∀ e ∈ S, ∀ p, Matches e.1 p → lookup p c = lookup p b := fun e he p hp =>
    h2.frame p (fun f hf => apart_touches (hap e he f hf) hp)
  have hT : ∀ f ∈ T, ∀ p, Matches f.1 p → lookup p b = lookup p a := fun f hf p hp =>
    h1.frame p (fun e he => apart_touches (by rw [apart_symm]; exact hap e he f hf) hp)
  refine ⟨?_, ?_, ?_, ?_⟩
  · intro e he p hp
    rcases List.mem_append.mp he with he | he
    · rw [hS e he p hp]; exact h1.limited e he p hp
    · rw [← hT e he p hp]; exact h2.limited e he p hp
  · intro p hp
    rw [h2.frame p (fun e he => hp e (by simp [he])), h1.frame p (fun e he => hp e (by simp [he]))]
  · intro x hx
    rcases List.mem_append.mp hx with hx | hx
    · obtain ⟨e, he, e1, e2, e3, e4, e5⟩ := h1.report x hx
      exact ⟨e, by simp [he], e1, e2, e3, by rw [hS e he _ e2]; exact e4, e5⟩
    · obtain ⟨e, he, e1, e2, e3, e4, e5⟩ := h2.report x hx
      exact ⟨e, by simp [he], e1, e2, by rw [← hT e he _ e2]; exact e3, e4, e5⟩
  · intro e he p hp hne
    rcases List.mem_append.mp he with he | he
    · rw [hS e he p hp] at hne
      obtain ⟨x, hx, e1⟩ := h1.complete e he p hp hne
      exact ⟨x, by simp [hx], e1⟩
    · rw [← hT e he p hp] at hne
      obtain ⟨x, hx, e1⟩ := h2.complete e he p hp hne
      exact ⟨x, by simp [hx], e1⟩

theorem sound_andThen {S T : List (List Pat × Option Int)} {f g : Dict → Dict × List Change} {d : Dict}
    (h1 : Sound parse S (.dict d) (.dict (f d).1) (f d).2)
    (h2 : Sound parse T (.dict (f d).1) (.dict (g (f d).1).1) (g (f d).1).2)
    (hap : ∀ e ∈ S, ∀ f ∈ T, Apart e.1 f.1 = true) :
    Sound parse (S ++ T) (.dict d) (.dict (andThen f g d).1) (andThen f g d).2 :=
  Sound.trans parse h1 h2 hap

/-- The table one step further out. -/
def push (s : Pat) (S : List (List Pat × Option Int)) : List (List Pat × Option Int) := S.map (fun e => (s :: e.1, e.2))

theorem mem_push {s : Pat} {S : List (List Pat × Option Int)} {e : List Pat × Option Int} (h : e ∈ push s S) :
    ∃ e' ∈ S, e = (s :: e'.1, e'.2) := by
  obtain ⟨e', h1, h2⟩ := List.mem_map.mp h
  exact ⟨e', h1, h2.symm⟩

theorem get_modifyKey (key : String) (g : PyVal → PyVal) (d : Dict) (k : String) :
    Assoc.get (modifyKey key g d) k = if k = key then (Assoc.get d key).map g else Assoc.get d k := by
  induction d with
  | nil => simp [modifyKey]
  | cons p d ih =>
    unfold modifyKey
    by_cases hp : p.1 = key
    · rw [if_pos hp]
      simp only [Assoc.get_cons, hp]
      by_cases hk : k = key
      · subst hk; simp
      · rw [if_neg (fun e => hk e.symm), if_neg hk, if_neg (fun e => hk e.symm)]
    · rw [if_neg hp]
      simp only [Assoc.get_cons, ih]
      by_cases hk : k = key
      · subst hk
        rw [if_pos rfl, if_neg hp, if_neg hp]
        simp
      · simp [hk]

theorem matches_key {k : String} {pat : List Pat} {p : List Step} (h : Matches (.key k :: pat) p) :
    ∃ q, p = .key k :: q ∧ Matches pat q := by
  cases p with
  | nil => simp [Matches] at h
  | cons s p =>
    cases s with
    | item i => simp [Matches] at h
    | key k' =>
      simp only [Matches] at h
      obtain ⟨rfl, h⟩ := h
      exact ⟨p, rfl, h⟩

theorem matches_any {pat : List Pat} {p : List Step} (h : Matches (.any :: pat) p) :
    ∃ i q, p = .item i :: q ∧ Matches pat q := by
  cases p with
  | nil => simp [Matches] at h
  | cons s p =>
    cases s with
    | key i => simp [Matches] at h
    | item i => exact ⟨i, p, rfl, h⟩

theorem sound_onKey (key : String) (f : PyVal → PyVal × List Change) (S : List (List Pat × Option Int)) (hS : S ≠ [])
    (d : Dict) (h : ∀ v, Assoc.get d key = some v → Sound parse S v (f v).1 (f v).2) :
    Sound parse (push (.key key) S) (.dict d) (.dict (onKey key f d).1) (onKey key f d).2 := by
  have hlook : ∀ q, lookup (.key key :: q) (.dict (onKey key f d).1)
      = (Assoc.get d key).bind (fun v => lookup q (f v).1) := by
    intro q
    simp only [lookup, onKey, get_modifyKey]
    cases Assoc.get d key <;> simp
  have hlook0 : ∀ q, lookup (.key key :: q) (.dict d) = (Assoc.get d key).bind (fun v => lookup q v) := fun q => rfl
  refine ⟨?_, ?_, ?_, ?_⟩
  · intro e he p hp
    obtain ⟨e', he', rfl⟩ := mem_push he
    obtain ⟨q, rfl, hq⟩ := matches_key hp
    rw [hlook, hlook0]
    cases hg : Assoc.get d key with
    | none => exact limited_refl_none parse _
    | some v => exact (h v hg).limited e' he' q hq
  · intro p hp
    cases p with
    | nil =>
      exfalso
      obtain ⟨e, S', rfl⟩ := List.exists_cons_of_ne_nil hS
      exact hp (.key key :: e.1, e.2) (by simp [push]) (by simp [Touches])
    | cons s p =>
      cases s with
      | item i => simp [lookup]
      | key k =>
        by_cases hk : k = key
        · subst hk
          rw [hlook, hlook0]
          cases hg : Assoc.get d k with
          | none => rfl
          | some v =>
            refine (h v hg).frame p (fun e he ht => ?_)
            exact hp (.key k :: e.1, e.2) (List.mem_map.mpr ⟨e, he, rfl⟩) (by simpa [Touches] using ht)
        · simp only [lookup, onKey, get_modifyKey, if_neg hk]
  · intro c hc
    simp only [onKey] at hc
    cases hg : Assoc.get d key with
    | none => rw [hg] at hc; simp at hc
    | some v =>
      rw [hg] at hc
      simp only [List.mem_map] at hc
      obtain ⟨c', hc', rfl⟩ := hc
      obtain ⟨e, he, e1, e2, e3, e4, e5⟩ := (h v hg).report c' hc'
      have hst : (Change.under (.inl key) c').steps = .key key :: c'.steps := rfl
      refine ⟨(.key key :: e.1, e.2), List.mem_map.mpr ⟨e, he, rfl⟩, e1, ?_, ?_, ?_, e5⟩
      · rw [hst]; exact ⟨rfl, e2⟩
      · rw [hst, hlook0, hg]; exact e3
      · rw [hst, hlook, hg]; exact e4
  · intro e he p hp hne
    obtain ⟨e', he', rfl⟩ := mem_push he
    obtain ⟨q, rfl, hq⟩ := matches_key hp
    rw [hlook, hlook0] at hne
    cases hg : Assoc.get d key with
    | none => rw [hg] at hne; simp at hne
    | some v =>
      rw [hg] at hne
      obtain ⟨c, hc, hcs⟩ := (h v hg).complete e' he' q hq hne
      refine ⟨Change.under (.inl key) c, ?_, ?_⟩
      · simp only [onKey, hg]
        exact List.mem_map_of_mem hc
      · rw [← hcs]; rfl

theorem sound_onDict (f : Dict → Dict × List Change) (S : List (List Pat × Option Int))
    (hS : ∀ e ∈ S, ∃ k r, e.1 = .key k :: r) (v : PyVal)
    (h : ∀ d, v = .dict d → Sound parse S (.dict d) (.dict (f d).1) (f d).2) :
    Sound parse S v (onDict f v).1 (onDict f v).2 := by
  have hsame : (∀ d, v ≠ .dict d) → Sound parse S v v [] := by
    intro hv
    refine Sound.same parse (fun e he p hp => ?_)
    obtain ⟨k, r, hk⟩ := hS e he
    rw [hk] at hp
    obtain ⟨q, rfl, -⟩ := matches_key hp
    cases v <;> first | rfl | exact absurd rfl (hv _)
  cases v with
  | dict d => exact h d rfl
  | none => exact hsame (by simp)
  | bool b => exact hsame (by simp)
  | int i => exact hsame (by simp)
  | flt q => exact hsame (by simp)
  | str s => exact hsame (by simp)
  | list l => exact hsame (by simp)

theorem sound_onItems (f : PyVal → PyVal × List Change) (S : List (List Pat × Option Int)) (hS : S ≠ []) (v : PyVal)
    (h : ∀ x, Sound parse S x (f x).1 (f x).2) :
    Sound parse (push .any S) v (onItems f v).1 (onItems f v).2 := by
  have hsame : (∀ l, v ≠ .list l) → Sound parse (push .any S) v v [] := by
    intro hv
    refine Sound.same parse (fun e he p hp => ?_)
    obtain ⟨e', he', rfl⟩ := mem_push he
    obtain ⟨i, q, rfl, -⟩ := matches_any hp
    cases v <;> first | rfl | exact absurd rfl (hv _)
  cases v with
  | none => exact hsame (by simp)
  | bool b => exact hsame (by simp)
  | int i => exact hsame (by simp)
  | flt q => exact hsame (by simp)
  | str s => exact hsame (by simp)
  | dict d => exact hsame (by simp)
  | list l =>
    have hlook : ∀ i q, lookup (.item i :: q) (onItems f (.list l)).1 = l[i]?.bind (fun x => lookup q (f x).1) := by
      intro i q
      simp only [lookup, onItems, List.getElem?_map]
      cases l[i]? <;> simp
    have hlook0 : ∀ i q, lookup (.item i :: q) (.list l) = l[i]?.bind (fun x => lookup q x) := fun i q => rfl
    refine ⟨?_, ?_, ?_, ?_⟩
    · intro e he p hp
      obtain ⟨e', he', rfl⟩ := mem_push he
      obtain ⟨i, q, rfl, hq⟩ := matches_any hp
      rw [hlook, hlook0]
      cases hg : l[i]? with
      | none => exact limited_refl_none parse _
      | some x => exact (h x).limited e' he' q hq
    · intro p hp
      cases p with
      | nil =>
        exfalso
        obtain ⟨e, S', rfl⟩ := List.exists_cons_of_ne_nil hS
        exact hp (.any :: e.1, e.2) (by simp [push]) (by simp [Touches])
      | cons s p =>
        cases s with
        | key k => simp [lookup, onItems]
        | item i =>
          rw [hlook, hlook0]
          cases hg : l[i]? with
          | none => rfl
          | some x =>
            refine (h x).frame p (fun e he ht => ?_)
            exact hp (.any :: e.1, e.2) (List.mem_map.mpr ⟨e, he, rfl⟩) (by simpa [Touches] using ht)
    · intro c hc
      simp only [onItems, List.mem_flatten, List.mem_mapIdx] at hc
      obtain ⟨cs, ⟨i, hi, rfl⟩, hc⟩ := hc
      obtain ⟨c', hc', rfl⟩ := List.mem_map.mp hc
      obtain ⟨e, he, e1, e2, e3, e4, e5⟩ := (h l[i]).report c' hc'
      have hst : (Change.under (.inr i) c').steps = .item i :: c'.steps := rfl
      refine ⟨(.any :: e.1, e.2), List.mem_map.mpr ⟨e, he, rfl⟩, e1, ?_, ?_, ?_, e5⟩
      · rw [hst]; exact e2
      · rw [hst, hlook0, List.getElem?_eq_getElem hi]; exact e3
      · rw [hst, hlook, List.getElem?_eq_getElem hi]; exact e4
    · intro e he p hp hne
      obtain ⟨e', he', rfl⟩ := mem_push he
      obtain ⟨i, q, rfl, hq⟩ := matches_any hp
      rw [hlook, hlook0] at hne
      cases hg : l[i]? with
      | none => rw [hg] at hne; simp at hne
      | some x =>
        rw [hg] at hne
        obtain ⟨c, hc, hcs⟩ := (h x).complete e' he' q hq hne
        obtain ⟨hi, rfl⟩ := List.getElem?_eq_some_iff.mp hg
        refine ⟨Change.under (.inr i) c, ?_, ?_⟩
        · simp only [onItems, List.mem_flatten, List.mem_mapIdx]
          exact ⟨_, ⟨i, hi, rfl⟩, List.mem_map_of_mem hc⟩
        · rw [← hcs]; rfl

theorem sound_clampKey (key : String) (limit : Option Int) (b : Bool) (d : Dict) :
    Sound parse [([.key key], limit)] (.dict d) (.dict (clampKey parse key limit b d).1)
      (clampKey parse key limit b d).2 := by
  have hmatch : ∀ p, Matches [.key key] p → p = [.key key] := by
    intro p hp
    obtain ⟨q, rfl, hq⟩ := matches_key hp
    cases q with
    | nil => rfl
    | cons s q => simp [Matches] at hq
  have hframe : ∀ d' : Dict, (∀ k, k ≠ key → Assoc.get d' k = Assoc.get d k) →
      ∀ p, (∀ e ∈ [(([.key key] : List Pat), limit)], ¬ Touches e.1 p) → lookup p (.dict d') = lookup p (.dict d) := by
    intro d' hd' p hp
    have := hp _ (List.mem_singleton.mpr rfl)
    cases p with
    | nil => simp [Touches] at this
    | cons s p =>
      cases s with
      | item i => simp [lookup]
      | key k =>
        simp only [Touches, and_true] at this
        simp only [lookup]
        rw [hd' k (fun e => this e.symm)]
  have h1 : ∀ d' : Dict, lookup [.key key] (.dict d') = Assoc.get d' key := by
    intro d'
    simp only [lookup]
    cases Assoc.get d' key <;> rfl
  have hself : Limited parse limit (Assoc.get d key) (Assoc.get d key) →
      Sound parse [([.key key], limit)] (.dict d) (.dict d) [] := by
    intro hl
    refine ⟨?_, fun _ _ => rfl, by simp, ?_⟩
    · intro e he p hp
      rw [List.mem_singleton] at he
      subst he
      rw [hmatch p hp, h1]
      exact hl
    · intro e he p hp hne
      exact absurd rfl hne
  have hset : ∀ (L : Int), limit = some L → Assoc.get d key ≠ some (.int L) →
      Limited parse limit (Assoc.get d key) (some (.int L)) →
      Sound parse [([.key key], limit)] (.dict d) (.dict (Assoc.set d key (.int L)))
        [⟨[.inl key], Assoc.get d key, L⟩] := by
    intro L hL hne hl
    refine ⟨?_, hframe _ (fun k hk => Assoc.get_set_other _ _ hk), ?_, ?_⟩
    · intro e he p hp
      rw [List.mem_singleton] at he
      subst he
      rw [hmatch p hp, h1, h1, Assoc.get_set_self]
      exact hl
    · intro c hc
      rw [List.mem_singleton] at hc
      subst hc
      refine ⟨_, List.mem_singleton.mpr rfl, hL, ?_, ?_, ?_, hne⟩
      · simp [Change.steps, toStep, Matches]
      · exact h1 d
      · refine (h1 _).trans ?_
        rw [Assoc.get_set_self]
    · intro e he p hp _
      rw [List.mem_singleton] at he
      subst he
      exact ⟨_, List.mem_singleton.mpr rfl, by rw [hmatch p hp]; rfl⟩
  unfold clampKey
  cases hlim : limit with
  | none =>
    rw [hlim] at hself
    exact hself rfl
  | some L =>
    rw [hlim] at hself hset
    simp only
    cases hg : Assoc.get d key with
    | none =>
      simp only
      rw [hg] at hself hset
      split
      · exact hset L rfl (by simp) (.inr rfl)
      · exact hself (.inl rfl)
    | some old =>
      simp only
      rw [hg] at hself hset
      cases hc : coerceInt parse old with
      | none =>
        refine hself ⟨fun n hn => ?_, fun _ => rfl⟩
        rw [← coerceInt_eq, hc] at hn
        simp at hn
      | some c =>
        simp only
        by_cases hm : min c L ≠ c
        · rw [if_pos hm]
          have hmin : min c L = L := by omega
          have hlt : L < c := by omega
          rw [hmin]
          refine hset L rfl ?_ ⟨fun n hn hlt => rfl, fun hall => ?_⟩
          · intro he
            obtain rfl := Option.some.inj he
            simp only [coerceInt, Option.some.injEq] at hc
            omega
          · have := hall c (by rw [← coerceInt_eq, hc])
            omega
        · rw [if_neg hm]
          refine hself ⟨fun n hn hlt => ?_, fun _ => rfl⟩
          rw [← coerceInt_eq, hc] at hn
          obtain rfl := Option.some.inj hn
          omega

theorem sound_steps (limit : Option Int) (d : Dict) :
    Sound parse [([.key "steps", .any, .key "params", .key "batch_size"], limit)] (.dict d)
      (.dict (clampSteps parse limit d).1) (clampSteps parse limit d).2 := by
  refine sound_onKey parse "steps" _ [([.any, .key "params", .key "batch_size"], limit)] (by simp) d (fun v _ => ?_)
  refine sound_onItems parse _ [([.key "params", .key "batch_size"], limit)] (by simp) v (fun x => ?_)
  refine sound_onDict parse _ _ (by simp) x (fun d _ => ?_)
  refine sound_onKey parse "params" _ [([.key "batch_size"], limit)] (by simp) d (fun v _ => ?_)
  exact sound_onDict parse _ _ (by simp) v (fun d _ => sound_clampKey parse _ _ _ d)

theorem sound_options (r : Resolved) (d : Dict) :
    Sound parse [([.key "max_train_samples"], r.train), ([.key "max_test_samples"], r.test)] (.dict d)
      (.dict (andThen (clampKey parse "max_train_samples" r.train true) (clampKey parse "max_test_samples" r.test true) d).1)
      (andThen (clampKey parse "max_train_samples" r.train true) (clampKey parse "max_test_samples" r.test true) d).2 :=
  Sound.trans parse (sound_clampKey parse _ _ _ _) (sound_clampKey parse _ _ _ _) (by simp [Apart])

/-- `dataset.options` is what the schema accepts: a mapping, null or missing. -/
def OptionsOk (d : Dict) : Prop :=
  ∀ v, Assoc.get d "options" = some v → v = .none ∨ ∃ o, v = .dict o

theorem sound_dataset (r : Resolved) (d : Dict) (hok : OptionsOk d) :
    Sound parse [([.key "options", .key "max_train_samples"], r.train), ([.key "options", .key "max_test_samples"], r.test)]
      (.dict d) (.dict (limitDataset parse r d).1) (limitDataset parse r d).2 := by
  have hkey : ∀ d1 : Dict, (∀ v, Assoc.get d1 "options" = some v → ∃ o, v = .dict o) →
      Sound parse [([.key "options", .key "max_train_samples"], r.train), ([.key "options", .key "max_test_samples"], r.test)]
        (.dict d1)
        (.dict (onKey "options" (onDict (andThen (clampKey parse "max_train_samples" r.train true)
          (clampKey parse "max_test_samples" r.test true))) d1).1)
        (onKey "options" (onDict (andThen (clampKey parse "max_train_samples" r.train true)
          (clampKey parse "max_test_samples" r.test true))) d1).2 := by
    intro d1 h1
    refine sound_onKey parse "options" _ [([.key "max_train_samples"], r.train), ([.key "max_test_samples"], r.test)]
      (by simp) d1 (fun v _ => ?_)
    exact sound_onDict parse _ _ (by simp) v (fun d _ => sound_options parse r d)
  by_cases hd : ∃ o, Assoc.get d "options" = some (.dict o)
  · obtain ⟨o, ho⟩ := hd
    have he : ensureDict "options" d = d := by unfold ensureDict; rw [ho]
    unfold limitDataset
    rw [he]
    exact hkey d (fun v hv => ⟨o, by rw [ho] at hv; exact (Option.some.inj hv).symm⟩)
  · have he : ensureDict "options" d = Assoc.set d "options" (.dict []) := by
      unfold ensureDict
      split
      · rename_i o ho; exact absurd ⟨o, ho⟩ hd
      · rfl
    unfold limitDataset
    rw [he]
    have key := hkey (Assoc.set d "options" (.dict [])) (fun v hv => by
      rw [Assoc.get_set_self] at hv
      exact ⟨[], (Option.some.inj hv).symm⟩)
    -- below `options` nothing was there before
    have hbefore : ∀ s q, lookup (.key "options" :: s :: q) (.dict d) = none := by
      intro s q
      simp only [lookup]
      cases hg : Assoc.get d "options" with
      | none => rfl
      | some v =>
        rcases hok v hg with rfl | ⟨o, rfl⟩
        · cases s <;> rfl
        · exact absurd ⟨o, hg⟩ hd
    have hmid : ∀ s q, lookup (.key "options" :: s :: q) (.dict (Assoc.set d "options" (.dict []))) = none := by
      intro s q
      simp only [lookup, Assoc.get_set_self]
      cases s <;> simp [lookup]
    have hslot : ∀ e ∈ [(([.key "options", .key "max_train_samples"] : List Pat), r.train),
        ([.key "options", .key "max_test_samples"], r.test)], ∀ p, Matches e.1 p →
        lookup p (.dict (Assoc.set d "options" (.dict []))) = lookup p (.dict d) := by
      intro e he p hp
      simp only [List.mem_cons, List.not_mem_nil, or_false] at he
      rcases he with rfl | rfl
      all_goals
        obtain ⟨q, rfl, hq⟩ := matches_key hp
        obtain ⟨q2, rfl, -⟩ := matches_key hq
        rw [hmid, hbefore]
    refine ⟨?_, ?_, ?_, ?_⟩
    · intro e he p hp
      rw [← hslot e he p hp]
      exact key.limited e he p hp
    · intro p hp
      rw [key.frame p hp]
      have h1 := hp ([.key "options", .key "max_train_samples"], r.train) (by simp)
      cases p with
      | nil => simp [Touches] at h1
      | cons s p =>
        cases s with
        | item i => simp [lookup]
        | key k =>
          by_cases hk : k = "options"
          · subst hk
            cases p with
            | nil => simp [Touches] at h1
            | cons s2 p => rw [hmid, hbefore]
          · simp only [lookup]
            rw [Assoc.get_set_other _ _ hk]
    · intro c hc
      obtain ⟨e, he, e1, e2, e3, e4, e5⟩ := key.report c hc
      exact ⟨e, he, e1, e2, by rw [← hslot e he _ e2]; exact e3, e4, e5⟩
    · intro e he p hp hne
      rw [← hslot e he p hp] at hne
      exact key.complete e he p hp hne

theorem sound_method (r : Resolved) (d : Dict) :
    Sound parse [([.key "params", .key "batch_size"], r.method), ([.key "params", .key "sup_batch_size"], r.sup),
      ([.key "params", .key "classifier_params", .key "batch_size"], r.method),
      ([.key "model", .key "classifier_params", .key "batch_size"], r.method)]
      (.dict d) (.dict (limitMethod parse r d).1) (limitMethod parse r d).2 := by
  have hclf : ∀ d : Dict, Sound parse [([.key "classifier_params", .key "batch_size"], r.method)] (.dict d)
      (.dict (onKey "classifier_params" (onDict (clampKey parse "batch_size" r.method false)) d).1)
      (onKey "classifier_params" (onDict (clampKey parse "batch_size" r.method false)) d).2 := by
    intro d
    refine sound_onKey parse "classifier_params" _ [([.key "batch_size"], r.method)] (by simp) d (fun v _ => ?_)
    exact sound_onDict parse _ _ (by simp) v (fun d _ => sound_clampKey parse _ _ _ d)
  unfold limitMethod
  refine sound_andThen parse (S := [([.key "params", .key "batch_size"], r.method), ([.key "params", .key "sup_batch_size"], r.sup),
      ([.key "params", .key "classifier_params", .key "batch_size"], r.method)])
    (T := [([.key "model", .key "classifier_params", .key "batch_size"], r.method)]) ?_ ?_ (by simp [Apart])
  · refine sound_onKey parse "params" _ [([.key "batch_size"], r.method), ([.key "sup_batch_size"], r.sup),
      ([.key "classifier_params", .key "batch_size"], r.method)] (by simp) d (fun v _ => ?_)
    refine sound_onDict parse _ _ (by simp) v (fun d _ => ?_)
    refine sound_andThen parse (S := [([.key "batch_size"], r.method)]) (T := [([.key "sup_batch_size"], r.sup),
      ([.key "classifier_params", .key "batch_size"], r.method)]) (sound_clampKey parse _ _ _ _) ?_ (by simp [Apart])
    exact sound_andThen parse (S := [([.key "sup_batch_size"], r.sup)])
      (T := [([.key "classifier_params", .key "batch_size"], r.method)]) (sound_clampKey parse _ _ _ _) (hclf _) (by simp [Apart])
  · refine sound_onKey parse "model" _ [([.key "classifier_params", .key "batch_size"], r.method)] (by simp) _ (fun v _ => ?_)
    exact sound_onDict parse _ _ (by simp) v (fun d _ => hclf d)

/-- The limits of the specification. -/
def Resolved.limits (r : Resolved) : Limits := ⟨r.preprocess, r.method, r.sup, r.chunk, r.train, r.test⟩

/-- The dataset section is what the schema accepts. -/
def DatasetOk (raw : Dict) : Prop := ∀ d, Assoc.get raw "dataset" = some (.dict d) → OptionsOk d

theorem sound_apply (r : Resolved) (raw : Dict) (hok : DatasetOk raw) :
    Sound parse (table r.limits) (.dict raw) (.dict (applyResolved parse r raw).1) (applyResolved parse r raw).2 := by
  unfold applyResolved
  refine sound_andThen parse
    (S := [([.key "dataset", .key "options", .key "max_train_samples"], r.train),
      ([.key "dataset", .key "options", .key "max_test_samples"], r.test)])
    (T := [([.key "preprocess", .key "plan", .key "steps", .any, .key "params", .key "batch_size"], r.preprocess),
     ([.key "views", .key "plan", .key "views", .any, .key "preprocess", .key "steps", .any, .key "params",
       .key "batch_size"], r.preprocess),
     ([.key "method", .key "params", .key "batch_size"], r.method),
     ([.key "method", .key "params", .key "sup_batch_size"], r.sup),
     ([.key "method", .key "params", .key "classifier_params", .key "batch_size"], r.method),
     ([.key "method", .key "model", .key "classifier_params", .key "batch_size"], r.method),
     ([.key "graph", .key "spec", .key "chunk_size"], r.chunk)]) ?_ ?_ (by simp [Apart])
  · refine sound_onKey parse "dataset" _ [([.key "options", .key "max_train_samples"], r.train),
      ([.key "options", .key "max_test_samples"], r.test)] (by simp) raw (fun v hv => ?_)
    refine sound_onDict parse _ _ (by simp) v (fun d hd => ?_)
    subst hd
    exact sound_dataset parse r d (hok d hv)
  refine sound_andThen parse
    (S := [([.key "preprocess", .key "plan", .key "steps", .any, .key "params", .key "batch_size"], r.preprocess)])
    (T := [([.key "views", .key "plan", .key "views", .any, .key "preprocess", .key "steps", .any, .key "params",
       .key "batch_size"], r.preprocess),
     ([.key "method", .key "params", .key "batch_size"], r.method),
     ([.key "method", .key "params", .key "sup_batch_size"], r.sup),
     ([.key "method", .key "params", .key "classifier_params", .key "batch_size"], r.method),
     ([.key "method", .key "model", .key "classifier_params", .key "batch_size"], r.method),
     ([.key "graph", .key "spec", .key "chunk_size"], r.chunk)]) ?_ ?_ (by simp [Apart])
  · refine sound_onKey parse "preprocess" _
      [([.key "plan", .key "steps", .any, .key "params", .key "batch_size"], r.preprocess)] (by simp) _ (fun v _ => ?_)
    refine sound_onDict parse _ _ (by simp) v (fun d _ => ?_)
    refine sound_onKey parse "plan" _
      [([.key "steps", .any, .key "params", .key "batch_size"], r.preprocess)] (by simp) _ (fun v _ => ?_)
    exact sound_onDict parse _ _ (by simp) v (fun d _ => sound_steps parse _ d)
  refine sound_andThen parse
    (S := [([.key "views", .key "plan", .key "views", .any, .key "preprocess", .key "steps", .any, .key "params",
       .key "batch_size"], r.preprocess)])
    (T := [([.key "method", .key "params", .key "batch_size"], r.method),
     ([.key "method", .key "params", .key "sup_batch_size"], r.sup),
     ([.key "method", .key "params", .key "classifier_params", .key "batch_size"], r.method),
     ([.key "method", .key "model", .key "classifier_params", .key "batch_size"], r.method),
     ([.key "graph", .key "spec", .key "chunk_size"], r.chunk)]) ?_ ?_ (by simp [Apart])
  · refine sound_onKey parse "views" _
      [([.key "plan", .key "views", .any, .key "preprocess", .key "steps", .any, .key "params", .key "batch_size"], r.preprocess)]
      (by simp) _ (fun v _ => ?_)
    refine sound_onDict parse _ _ (by simp) v (fun d _ => ?_)
    refine sound_onKey parse "plan" _
      [([.key "views", .any, .key "preprocess", .key "steps", .any, .key "params", .key "batch_size"], r.preprocess)]
      (by simp) _ (fun v _ => ?_)
    refine sound_onDict parse _ _ (by simp) v (fun d _ => ?_)
    refine sound_onKey parse "views" _
      [([.any, .key "preprocess", .key "steps", .any, .key "params", .key "batch_size"], r.preprocess)]
      (by simp) _ (fun v _ => ?_)
    refine sound_onItems parse _ [([.key "preprocess", .key "steps", .any, .key "params", .key "batch_size"], r.preprocess)]
      (by simp) v (fun x => ?_)
    refine sound_onDict parse _ _ (by simp) x (fun d _ => ?_)
    refine sound_onKey parse "preprocess" _
      [([.key "steps", .any, .key "params", .key "batch_size"], r.preprocess)] (by simp) _ (fun v _ => ?_)
    exact sound_onDict parse _ _ (by simp) v (fun d _ => sound_steps parse _ d)
  refine sound_andThen parse
    (S := [([.key "method", .key "params", .key "batch_size"], r.method),
     ([.key "method", .key "params", .key "sup_batch_size"], r.sup),
     ([.key "method", .key "params", .key "classifier_params", .key "batch_size"], r.method),
     ([.key "method", .key "model", .key "classifier_params", .key "batch_size"], r.method)])
    (T := [([.key "graph", .key "spec", .key "chunk_size"], r.chunk)]) ?_ ?_ (by simp [Apart])
  · refine sound_onKey parse "method" _ [([.key "params", .key "batch_size"], r.method),
      ([.key "params", .key "sup_batch_size"], r.sup),
      ([.key "params", .key "classifier_params", .key "batch_size"], r.method),
      ([.key "model", .key "classifier_params", .key "batch_size"], r.method)] (by simp) _ (fun v _ => ?_)
    exact sound_onDict parse _ _ (by simp) v (fun d _ => sound_method parse r d)
  · refine sound_onKey parse "graph" _ [([.key "spec", .key "chunk_size"], r.chunk)] (by simp) _ (fun v _ => ?_)
    refine sound_onDict parse _ _ (by simp) v (fun d _ => ?_)
    refine sound_onKey parse "spec" _ [([.key "chunk_size"], r.chunk)] (by simp) _ (fun v _ => ?_)
    exact sound_onDict parse _ _ (by simp) v (fun d _ => sound_clampKey parse _ _ _ d)

/-- **C59 (limits).**  At each limited place of the configuration: a value above the limit is replaced by the limit,
every other value stays, a missing value stays missing or becomes the limit; without a limit nothing changes there. -/
theorem C59_limited (r : Resolved) (raw : Dict) (hok : DatasetOk raw) (pat : List Pat) (limit : Option Int)
    (hpat : (pat, limit) ∈ table r.limits) (p : List Step) (hp : Matches pat p) :
    Limited parse limit (lookup p (.dict raw)) (lookup p (.dict (applyResolved parse r raw).1)) :=
  (sound_apply parse r raw hok).limited _ hpat p hp

/-- **C59 (upper bounds).**  After the limits are applied, the integer at a limited place is at most its limit. -/
theorem C59_bound (r : Resolved) (raw : Dict) (hok : DatasetOk raw) (pat : List Pat) (L : Int)
    (hpat : (pat, some L) ∈ table r.limits) (p : List Step) (hp : Matches pat p) (v : PyVal) (n : Int)
    (hv : lookup p (.dict (applyResolved parse r raw).1) = some v) (hn : intValue parse v = some n) : n ≤ L := by
  have h := C59_limited parse r raw hok pat (some L) hpat p hp
  rw [hv] at h
  unfold Limited at h
  simp only at h
  cases hb : lookup p (.dict raw) with
  | none =>
    rw [hb] at h
    simp only [reduceCtorEq, Option.some.injEq, false_or] at h
    subst h
    simp only [intValue, Option.some.injEq] at hn
    omega
  | some w =>
    rw [hb] at h
    simp only at h
    by_cases hall : ∀ n, intValue parse w = some n → n ≤ L
    · have := h.2 hall
      obtain rfl := Option.some.inj this
      exact hall n hn
    · push Not at hall
      obtain ⟨m, hm, hlt⟩ := hall
      have := h.1 m hm hlt
      obtain rfl := Option.some.inj this
      simp only [intValue, Option.some.injEq] at hn
      omega

/-- **C59 (nothing else).**  Every entry that is not at, on the way to, or inside a limited place is unchanged. -/
theorem C59_others (r : Resolved) (raw : Dict) (hok : DatasetOk raw) (p : List Step)
    (hp : ∀ pat limit, (pat, limit) ∈ table r.limits → ¬ Touches pat p) :
    lookup p (.dict (applyResolved parse r raw).1) = lookup p (.dict raw) :=
  (sound_apply parse r raw hok).frame p (fun e he => hp e.1 e.2 he)

/-- **C59 (report).**  The reported changes are the limited entries that changed, with their old value and the limit
as the new one. -/
theorem C59_report (r : Resolved) (raw : Dict) (hok : DatasetOk raw) :
    (∀ c ∈ (applyResolved parse r raw).2, ∃ pat, (pat, some c.new) ∈ table r.limits ∧ Matches pat c.steps ∧
      lookup c.steps (.dict raw) = c.old ∧
      lookup c.steps (.dict (applyResolved parse r raw).1) = some (.int c.new) ∧ c.old ≠ some (.int c.new)) ∧
    (∀ pat limit, (pat, limit) ∈ table r.limits → ∀ p, Matches pat p →
      lookup p (.dict (applyResolved parse r raw).1) ≠ lookup p (.dict raw) →
      ∃ c ∈ (applyResolved parse r raw).2, c.steps = p) := by
  have h := sound_apply parse r raw hok
  constructor
  · intro c hc
    obtain ⟨⟨pat, l⟩, he, e1, e2, e3, e4, e5⟩ := h.report c hc
    simp only at e1
    subst e1
    exact ⟨pat, he, e2, e3, e4, e5⟩
  · intro pat limit hpat p hp hne
    exact h.complete _ hpat p hp hne

/-! ### Applying the limits twice -/

/-- An edit of a value that has nothing to do on its own result. -/
def IdemV (f : PyVal → PyVal × List Change) : Prop := ∀ v, f (f v).1 = ((f v).1, [])

/-- An edit of a dictionary that looks at and changes the keys `K` only, and has nothing to do on its own result. -/
structure Local (K : List String) (f : Dict → Dict × List Change) : Prop where
  frame : ∀ d k, k ∉ K → Assoc.get (f d).1 k = Assoc.get d k
  settled : ∀ d d', (∀ k ∈ K, Assoc.get d k = Assoc.get d' k) → f d = (d, []) → f d' = (d', [])
  idem : ∀ d, f (f d).1 = ((f d).1, [])

theorem local_andThen {K L : List String} {f g : Dict → Dict × List Change} (hf : Local K f) (hg : Local L g)
    (hd : ∀ k ∈ K, k ∉ L) : Local (K ++ L) (andThen f g) := by
  refine ⟨?_, ?_, ?_⟩
  · intro d k hk
    rw [List.mem_append, not_or] at hk
    simp only [andThen]
    rw [hg.frame _ _ hk.2, hf.frame _ _ hk.1]
  · intro d d' hdd h
    have hnil : (f d).2 = [] ∧ (g (f d).1).2 = [] := by
      have := congrArg Prod.snd h
      simpa [andThen] using this
    have h1 : (g (f d).1).1 = d := congrArg Prod.fst h
    -- the first edit does nothing on `d`, as its keys are untouched by the second
    have hfd : f d = (d, []) := by
      refine hf.settled (f d).1 d ?_ (hf.idem d)
      intro k hk
      conv_rhs => rw [← h1]
      rw [hg.frame _ _ (hd k hk)]
    have hgd : g d = (d, []) := by
      have e : (f d).1 = d := by rw [hfd]
      rw [e] at h1 hnil
      exact Prod.ext h1 hnil.2
    have hf' := hf.settled d d' (fun k hk => hdd k (by simp [hk])) hfd
    have hg' := hg.settled d d' (fun k hk => hdd k (by simp [hk])) hgd
    simp [andThen, hf', hg']
  · intro d
    have h2 : f (g (f d).1).1 = ((g (f d).1).1, []) := by
      refine hf.settled (f d).1 _ ?_ (hf.idem d)
      intro k hk
      rw [hg.frame _ _ (hd k hk)]
    have h3 := hg.idem (f d).1
    simp [andThen, h2, h3]

theorem local_clampKey (key : String) (limit : Option Int) (b : Bool) : Local [key] (clampKey parse key limit b) := by
  refine ⟨?_, ?_, ?_⟩
  · intro d k hk
    simp only [List.mem_singleton] at hk
    unfold clampKey
    split
    · rfl
    · split
      · split
        · exact Assoc.get_set_other _ _ hk
        · rfl
      · split
        · rfl
        · split
          · exact Assoc.get_set_other _ _ hk
          · rfl
  · intro d d' hdd h
    have hk := hdd key (by simp)
    unfold clampKey at h ⊢
    cases limit with
    | none => rfl
    | some L =>
      simp only at h ⊢
      rw [← hk]
      cases hg : Assoc.get d key with
      | none =>
        rw [hg] at h
        simp only at h ⊢
        cases b with
        | false => rfl
        | true => simp at h
      | some old =>
        rw [hg] at h
        simp only at h ⊢
        cases hc : coerceInt parse old with
        | none => rfl
        | some c =>
          rw [hc] at h
          simp only at h ⊢
          by_cases hm : min c L ≠ c
          · rw [if_pos hm] at h
            simp at h
          · rw [if_neg hm]
  · intro d
    unfold clampKey
    cases limit with
    | none => rfl
    | some L =>
      simp only
      cases hg : Assoc.get d key with
      | none =>
        simp only
        cases b with
        | false => simp [hg]
        | true => simp [coerceInt]
      | some old =>
        simp only
        cases hc : coerceInt parse old with
        | none => simp [hg, hc]
        | some c =>
          simp only
          by_cases hm : min c L ≠ c
          · simp only [if_pos hm, Assoc.get_set_self, coerceInt]
            rw [if_neg (by omega)]
          · simp only [if_neg hm, hg, hc]

theorem modifyKey_same {key : String} {g : PyVal → PyVal} {d : Dict}
    (h : ∀ v, Assoc.get d key = some v → g v = v) : modifyKey key g d = d := by
  induction d with
  | nil => rfl
  | cons p d ih =>
    unfold modifyKey
    by_cases hp : p.1 = key
    · rw [if_pos hp, h p.2 (by rw [Assoc.get_cons, if_pos hp])]
    · rw [if_neg hp, ih (fun v hv => h v (by rw [Assoc.get_cons, if_neg hp]; exact hv))]

theorem onKey_settled {key : String} {f : PyVal → PyVal × List Change} {d : Dict}
    (h : ∀ v, Assoc.get d key = some v → f v = (v, [])) : onKey key f d = (d, []) := by
  unfold onKey
  rw [modifyKey_same (fun v hv => by rw [h v hv])]
  cases hg : Assoc.get d key with
  | none => rfl
  | some v => simp [h v hg]

theorem local_onKey (key : String) {f : PyVal → PyVal × List Change} (hf : IdemV f) : Local [key] (onKey key f) := by
  refine ⟨?_, ?_, ?_⟩
  · intro d k hk
    simp only [List.mem_singleton] at hk
    simp only [onKey, get_modifyKey, if_neg hk]
  · intro d d' hdd h
    have hk := hdd key (by simp)
    refine onKey_settled (fun v hv => ?_)
    have h1 : modifyKey key (fun v => (f v).1) d = d := congrArg Prod.fst h
    have h2 : (onKey key f d).2 = [] := congrArg Prod.snd h
    rw [hv] at hk
    simp only [onKey, hk, List.map_eq_nil_iff] at h2
    have h3 := get_modifyKey key (fun v => (f v).1) d key
    rw [h1, if_pos rfl, hk] at h3
    simp only [Option.map_some, Option.some.injEq] at h3
    exact Prod.ext h3.symm h2
  · intro d
    refine onKey_settled (fun v hv => ?_)
    simp only [onKey, get_modifyKey, if_pos] at hv
    cases hg : Assoc.get d key with
    | none => rw [hg] at hv; simp at hv
    | some w =>
      rw [hg] at hv
      simp only [Option.map_some, Option.some.injEq] at hv
      rw [← hv]
      exact hf w

theorem idem_onDict {K : List String} {f : Dict → Dict × List Change} (hf : Local K f) : IdemV (onDict f) := by
  intro v
  cases v <;> simp [onDict, hf.idem]

theorem idem_onItems {f : PyVal → PyVal × List Change} (hf : IdemV f) : IdemV (onItems f) := by
  intro v
  cases v with
  | list l =>
    simp only [onItems, List.map_map]
    refine Prod.ext ?_ ?_
    · simp only [PyVal.list.injEq]
      refine List.map_congr_left (fun x _ => ?_)
      simp [hf x]
    · simp only [List.flatten_eq_nil_iff, List.mem_mapIdx]
      rintro cs ⟨i, hi, rfl⟩
      simp only [List.getElem_map, List.map_eq_nil_iff]
      rw [hf]
  | _ => simp [onItems]

theorem local_steps (limit : Option Int) : Local ["steps"] (clampSteps parse limit) :=
  local_onKey _ (idem_onItems (idem_onDict (local_onKey _ (idem_onDict (local_clampKey parse _ _ _)))))

theorem idem_dataset (r : Resolved) : Local ["options"] (limitDataset parse r) := by
  have hin : IdemV (onDict (andThen (clampKey parse "max_train_samples" r.train true)
      (clampKey parse "max_test_samples" r.test true))) :=
    idem_onDict (local_andThen (local_clampKey parse _ _ _) (local_clampKey parse _ _ _) (by simp))
  have hk := local_onKey "options" hin
  have hens : ∀ d, ∃ o, Assoc.get (ensureDict "options" d) "options" = some (.dict o) := by
    intro d
    unfold ensureDict
    split
    · rename_i o ho; exact ⟨o, ho⟩
    · exact ⟨[], Assoc.get_set_self ..⟩
  have hens2 : ∀ d : Dict, (∃ o, Assoc.get d "options" = some (.dict o)) → ensureDict "options" d = d := by
    rintro d ⟨o, ho⟩
    unfold ensureDict
    rw [ho]
  -- the result has a dictionary under `options`
  have hres : ∀ d, ∃ o, Assoc.get (limitDataset parse r d).1 "options" = some (.dict o) := by
    intro d
    obtain ⟨o, ho⟩ := hens d
    simp only [limitDataset, onKey, get_modifyKey, if_pos, ho]
    exact ⟨_, rfl⟩
  refine ⟨?_, ?_, ?_⟩
  · intro d k hk'
    simp only [limitDataset]
    rw [hk.frame _ _ hk']
    simp only [List.mem_singleton] at hk'
    unfold ensureDict
    split
    · rfl
    · exact Assoc.get_set_other _ _ hk'
  · intro d d' hdd h
    have hd : ∃ o, Assoc.get d "options" = some (.dict o) := by
      have := hres d
      rwa [h] at this
    have hd' : ∃ o, Assoc.get d' "options" = some (.dict o) := by rwa [← hdd "options" (by simp)]
    unfold limitDataset at h ⊢
    rw [hens2 d hd] at h
    rw [hens2 d' hd']
    exact hk.settled d d' hdd h
  · intro d
    have e := hens2 _ (hres d)
    have e2 : ∀ d, limitDataset parse r d = onKey "options" (onDict (andThen
        (clampKey parse "max_train_samples" r.train true) (clampKey parse "max_test_samples" r.test true)))
        (ensureDict "options" d) := fun d => rfl
    rw [e2 (limitDataset parse r d).1, e, e2]
    exact hk.idem (ensureDict "options" d)

theorem local_method (r : Resolved) : Local ["params", "model"] (limitMethod parse r) :=
  local_andThen
    (local_onKey _ (idem_onDict (local_andThen (local_clampKey parse _ _ _) (local_andThen (local_clampKey parse _ _ _)
      (local_onKey _ (idem_onDict (local_clampKey parse _ _ _))) (by simp)) (by simp))))
    (local_onKey _ (idem_onDict (local_onKey _ (idem_onDict (local_clampKey parse _ _ _))))) (by simp)

/-- **C59 (twice is once).**  Applying the limits to their own result changes and reports nothing. -/
theorem C59_idempotent (r : Resolved) (raw : Dict) :
    applyResolved parse r (applyResolved parse r raw).1 = ((applyResolved parse r raw).1, []) := by
  have h : Local (["dataset"] ++ (["preprocess"] ++ (["views"] ++ (["method"] ++ ["graph"])))) (applyResolved parse r) := by
    refine local_andThen (local_onKey _ (idem_onDict (idem_dataset parse r))) ?_ (by simp)
    refine local_andThen (local_onKey _ (idem_onDict (local_onKey _ (idem_onDict (local_steps parse _))))) ?_ (by simp)
    refine local_andThen (local_onKey _ (idem_onDict (local_onKey _ (idem_onDict (local_onKey _ (idem_onItems
      (idem_onDict (local_onKey _ (idem_onDict (local_steps parse _)))))))))) ?_ (by simp)
    refine local_andThen (local_onKey _ (idem_onDict (local_method parse r))) ?_ (by simp)
    exact local_onKey _ (idem_onDict (local_onKey _ (idem_onDict (local_clampKey parse _ _ _))))
  exact h.idem raw

/-! ### Which missing entries are filled in -/

/-- The keys that are filled in if missing. -/
def fillKeys : List String := ["max_train_samples", "max_test_samples", "chunk_size"]

/-- A change that fills in a missing entry is at one of the keys above. -/
def FillOk (c : Change) : Prop := c.path ≠ [] ∧ (c.old = none → ∃ k ∈ fillKeys, c.path.getLast? = some (.inl k))

theorem fillOk_under {c : Change} (h : FillOk c) (s : String ⊕ Nat) : FillOk (c.under s) := by
  obtain ⟨h1, h2⟩ := h
  refine ⟨by simp [Change.under], fun ho => ?_⟩
  obtain ⟨k, hk, hl⟩ := h2 ho
  refine ⟨k, hk, ?_⟩
  simp only [Change.under, List.getLast?_cons]
  rw [hl]
  rfl

theorem fill_clampKey (key : String) (limit : Option Int) (b : Bool) (hb : b = true → key ∈ fillKeys) (d : Dict) :
    ∀ c ∈ (clampKey parse key limit b d).2, FillOk c := by
  intro c hc
  unfold clampKey at hc
  cases limit with
  | none => simp at hc
  | some L =>
    simp only at hc
    cases hg : Assoc.get d key with
    | none =>
      rw [hg] at hc
      cases b with
      | false => simp at hc
      | true =>
        simp only [if_true, List.mem_singleton] at hc
        subst hc
        exact ⟨by simp, fun _ => ⟨key, hb rfl, rfl⟩⟩
    | some old =>
      rw [hg] at hc
      simp only at hc
      cases hco : coerceInt parse old with
      | none => rw [hco] at hc; simp at hc
      | some n =>
        rw [hco] at hc
        simp only at hc
        split at hc
        · simp only [List.mem_singleton] at hc
          subst hc
          exact ⟨by simp, fun h => by simp at h⟩
        · simp at hc

theorem fill_onDict {f : Dict → Dict × List Change} (h : ∀ d, ∀ c ∈ (f d).2, FillOk c) (v : PyVal) :
    ∀ c ∈ (onDict f v).2, FillOk c := by
  intro c hc
  cases v with
  | dict d => exact h d c hc
  | _ => simp [onDict] at hc

theorem fill_onKey (key : String) {f : PyVal → PyVal × List Change} (h : ∀ v, ∀ c ∈ (f v).2, FillOk c) (d : Dict) :
    ∀ c ∈ (onKey key f d).2, FillOk c := by
  intro c hc
  simp only [onKey] at hc
  cases hg : Assoc.get d key with
  | none => rw [hg] at hc; simp at hc
  | some v =>
    rw [hg] at hc
    obtain ⟨c', hc', rfl⟩ := List.mem_map.mp hc
    exact fillOk_under (h v c' hc') _

theorem fill_onItems {f : PyVal → PyVal × List Change} (h : ∀ v, ∀ c ∈ (f v).2, FillOk c) (v : PyVal) :
    ∀ c ∈ (onItems f v).2, FillOk c := by
  intro c hc
  cases v with
  | list l =>
    simp only [onItems, List.mem_flatten, List.mem_mapIdx] at hc
    obtain ⟨cs, ⟨i, hi, rfl⟩, hc⟩ := hc
    obtain ⟨c', hc', rfl⟩ := List.mem_map.mp hc
    exact fillOk_under (h _ c' hc') _
  | _ => simp [onItems] at hc

theorem fill_andThen {f g : Dict → Dict × List Change} (hf : ∀ d, ∀ c ∈ (f d).2, FillOk c)
    (hg : ∀ d, ∀ c ∈ (g d).2, FillOk c) (d : Dict) : ∀ c ∈ (andThen f g d).2, FillOk c := by
  intro c hc
  rcases List.mem_append.mp hc with hc | hc
  · exact hf d c hc
  · exact hg _ c hc

theorem fill_apply (r : Resolved) (raw : Dict) : ∀ c ∈ (applyResolved parse r raw).2, FillOk c := by
  have hsteps : ∀ d, ∀ c ∈ (clampSteps parse r.preprocess d).2, FillOk c :=
    fill_onKey _ (fill_onItems (fill_onDict (fill_onKey _ (fill_onDict (fill_clampKey parse _ _ _ (by simp))))))
  have hclf : ∀ d, ∀ c ∈ (onKey "classifier_params" (onDict (clampKey parse "batch_size" r.method false)) d).2, FillOk c :=
    fill_onKey _ (fill_onDict (fill_clampKey parse _ _ _ (by simp)))
  have hdata : ∀ d, ∀ c ∈ (limitDataset parse r d).2, FillOk c := fun d =>
    fill_onKey _ (fill_onDict (fill_andThen (fill_clampKey parse _ _ _ (by simp [fillKeys]))
      (fill_clampKey parse _ _ _ (by simp [fillKeys])))) _
  exact fill_andThen (fill_onKey _ (fill_onDict hdata))
    (fill_andThen (fill_onKey _ (fill_onDict (fill_onKey _ (fill_onDict hsteps))))
    (fill_andThen (fill_onKey _ (fill_onDict (fill_onKey _ (fill_onDict (fill_onKey _ (fill_onItems (fill_onDict
      (fill_onKey _ (fill_onDict hsteps)))))))))
    (fill_andThen (fill_onKey _ (fill_onDict (fill_andThen
      (fill_onKey _ (fill_onDict (fill_andThen (fill_clampKey parse _ _ _ (by simp)) (fill_andThen
        (fill_clampKey parse _ _ _ (by simp)) hclf))))
      (fill_onKey _ (fill_onDict hclf)))))
      (fill_onKey _ (fill_onDict (fill_onKey _ (fill_onDict (fill_clampKey parse _ _ _ (by simp [fillKeys])))))))))
    raw

theorem matches_last {pat : List Pat} {p : List Step} (h : Matches pat p) (k : String)
    (hl : pat.getLast? = some (.key k)) : p.getLast? = some (.key k) := by
  induction pat generalizing p with
  | nil => simp at hl
  | cons x pat ih =>
    have hstep : ∃ s q, p = s :: q ∧ Matches pat q ∧ (x = .key k → s = .key k) := by
      cases x with
      | key a =>
        obtain ⟨q, rfl, hq⟩ := matches_key h
        exact ⟨.key a, q, rfl, hq, by simp⟩
      | any =>
        obtain ⟨i, q, rfl, hq⟩ := matches_any h
        exact ⟨.item i, q, rfl, hq, by simp⟩
    obtain ⟨s, q, rfl, hq, hs⟩ := hstep
    cases pat with
    | nil =>
      cases q with
      | nil => simp only [List.getLast?_singleton, Option.some.injEq] at hl ⊢; exact hs hl
      | cons t q => simp [Matches] at hq
    | cons y pat =>
      rw [List.getLast?_cons_cons] at hl
      cases q with
      | nil => cases y <;> simp [Matches] at hq
      | cons t q =>
        rw [List.getLast?_cons_cons]
        exact ih hq hl

/-- **C59 (batch sizes are not invented).**  A batch size that the configuration does not set is not set by the
limits: the method or the preprocessing step keeps its own default. -/
theorem C59_missing (r : Resolved) (raw : Dict) (hok : DatasetOk raw) (pat : List Pat) (limit : Option Int)
    (hpat : (pat, limit) ∈ table r.limits)
    (hkey : pat.getLast? = some (.key "batch_size") ∨ pat.getLast? = some (.key "sup_batch_size")) (p : List Step)
    (hp : Matches pat p) (hnone : lookup p (.dict raw) = none) :
    lookup p (.dict (applyResolved parse r raw).1) = none := by
  by_contra hne
  rw [← hnone] at hne
  have h := sound_apply parse r raw hok
  obtain ⟨c, hc, hcs⟩ := h.complete _ hpat p hp hne
  obtain ⟨e, he, e1, e2, e3, e4, e5⟩ := h.report c hc
  obtain ⟨hf1, hf2⟩ := fill_apply parse r raw c hc
  rw [hcs, hnone] at e3
  obtain ⟨k, hk, hlast⟩ := hf2 e3.symm
  have hl : p.getLast? = some (.key k) := by
    rw [← hcs, Change.steps, List.getLast?_map, hlast]
    rfl
  rcases hkey with hkey | hkey
  all_goals
    have := matches_last hp _ hkey
    rw [hl] at this
    simp only [Option.some.injEq, Step.key.injEq] at this
    subst this
    simp [fillKeys] at hk

/-- **C59 (resolution).**  Explicit limits win over the profile, whose presets fill the rest; the sample limits have no
preset.  The result is empty exactly if no limit is set.  An automatic profile is refused in strict mode. -/
theorem C59_resolve (lower : String → String) (detect : Option String) (c : LimitsConfig) (strict : Bool) :
    (strict = true → c.profile.map lower = some "auto" → c.profile ≠ some "" →
      resolveLimits lower detect (some c) strict = .error .validation) ∧
    (∀ r, resolveLimits lower detect (some c) strict = .ok (some r) →
      (∀ x, c.preprocess = some x → r.preprocess = some x) ∧ (∀ x, c.method = some x → r.method = some x) ∧
      (∀ x, c.sup = some x → r.sup = some x) ∧ (∀ x, c.chunk = some x → r.chunk = some x) ∧
      r.train = c.train ∧ r.test = c.test ∧
      (r.profile = some "v100" → c.preprocess = none → r.preprocess = some 32) ∧
      (r.profile = some "v100" → c.method = none → r.method = some 128) ∧
      (r.profile = some "v100" → c.sup = none → r.sup = some 64) ∧
      (r.profile = some "v100" → c.chunk = none → r.chunk = some 512) ∧
      (r.profile = some "h100" → c.preprocess = none → r.preprocess = some 64) ∧
      (r.profile = some "h100" → c.method = none → r.method = some 512) ∧
      (r.profile = some "h100" → c.sup = none → r.sup = some 256) ∧
      (r.profile = some "h100" → c.chunk = none → r.chunk = some 1024) ∧
      (r.profile ≠ some "v100" → r.profile ≠ some "h100" →
        r.preprocess = c.preprocess ∧ r.method = c.method ∧ r.sup = c.sup ∧ r.chunk = c.chunk)) ∧
    (resolveLimits lower detect (some c) strict = .ok none →
      c.preprocess = none ∧ c.method = none ∧ c.sup = none ∧ c.chunk = none ∧ c.train = none ∧ c.test = none) := by
  refine ⟨?_, ?_, ?_⟩
  · intro h1 h2 h3
    simp only [resolveLimits]
    rw [if_pos ⟨h1, h2, h3⟩]
  · intro r hr
    simp only [resolveLimits] at hr
    split at hr
    · simp at hr
    split at hr
    · simp at hr
    · obtain rfl := Option.some.inj (Except.ok.inj hr)
      refine ⟨?_, ?_, ?_, ?_, rfl, rfl, ?_, ?_, ?_, ?_, ?_, ?_, ?_, ?_, ?_⟩
      all_goals simp +contextual [preset]
  · intro hr
    simp only [resolveLimits] at hr
    split at hr
    · simp at hr
    split at hr
    · rename_i h
      obtain ⟨h1, h2, h3, h4, h5, h6⟩ := h
      simp only [Option.or_eq_none_iff] at h1 h2 h3 h4
      exact ⟨h1.1, h2.1, h3.1, h4.1, h5, h6⟩
    · simp at hr

theorem clampKey_present (key : String) (L : Int) (d : Dict) :
    ∃ v, Assoc.get (clampKey parse key (some L) true d).1 key = some v := by
  unfold clampKey
  simp only
  cases hg : Assoc.get d key with
  | none => exact ⟨.int L, by simp⟩
  | some old =>
    simp only
    cases coerceInt parse old with
    | none => exact ⟨old, hg⟩
    | some c =>
      simp only
      split
      · exact ⟨_, Assoc.get_set_self ..⟩
      · exact ⟨old, hg⟩

/-- What is left of the claim once the entry is known to exist. -/
theorem effective_of_present (r : Resolved) (raw : Dict) (hok : DatasetOk raw) (pat : List Pat) (L : Int)
    (hmem : (pat, some L) ∈ table r.limits) (p : List Step) (hm : Matches pat p)
    (hnum : ∀ v, lookup p (.dict raw) = some v → ∃ n, intValue parse v = some n)
    (hex : ∃ v, lookup p (.dict (applyResolved parse r raw).1) = some v) :
    ∃ v n, lookup p (.dict (applyResolved parse r raw).1) = some v ∧ intValue parse v = some n ∧ n ≤ L := by
  obtain ⟨v, hv⟩ := hex
  have hlim := C59_limited parse r raw hok _ _ hmem _ hm
  have hn : ∃ n, intValue parse v = some n := by
    unfold Limited at hlim
    simp only at hlim
    rw [hv] at hlim
    cases hb : lookup p (.dict raw) with
    | none =>
      rw [hb] at hlim
      simp only [reduceCtorEq, Option.some.injEq, false_or] at hlim
      subst hlim
      exact ⟨L, rfl⟩
    | some w =>
      obtain ⟨n, hn⟩ := hnum w hb
      rw [hb] at hlim
      simp only at hlim
      by_cases hle : n ≤ L
      · have := hlim.2 (fun m hm => by rw [hn] at hm; obtain rfl := Option.some.inj hm; exact hle)
        obtain rfl := Option.some.inj this
        exact ⟨n, hn⟩
      · have := hlim.1 n hn (by omega)
        obtain rfl := Option.some.inj this
        exact ⟨L, rfl⟩
  obtain ⟨n, hn⟩ := hn
  exact ⟨v, n, hv, hn, C59_bound parse r raw hok _ L hmem _ hm v n hv hn⟩

theorem present_option (r : Resolved) (raw d : Dict) (hd : Assoc.get raw "dataset" = some (.dict d)) (key : String)
    (h : ∀ o, ∃ v, Assoc.get (andThen (clampKey parse "max_train_samples" r.train true)
      (clampKey parse "max_test_samples" r.test true) o).1 key = some v) :
    ∃ v, lookup [.key "dataset", .key "options", .key key] (.dict (applyResolved parse r raw).1) = some v := by
  -- the dataset section is set by the first edit only
  have hrest : Assoc.get (applyResolved parse r raw).1 "dataset"
      = Assoc.get (onKey "dataset" (onDict (limitDataset parse r)) raw).1 "dataset" := by
    simp only [applyResolved, andThen]
    simp only [onKey, get_modifyKey]
    simp
  simp only [lookup, hrest, onKey, get_modifyKey, hd]
  simp only [if_true, Option.map_some, Option.bind_some, onDict, lookup, limitDataset, onKey, get_modifyKey]
  have hens : ∃ o, Assoc.get (ensureDict "options" d) "options" = some (.dict o) := by
    unfold ensureDict
    split
    · rename_i o ho; exact ⟨o, ho⟩
    · exact ⟨[], Assoc.get_set_self ..⟩
  obtain ⟨o, ho⟩ := hens
  rw [ho]
  simp only [Option.map_some, Option.bind_some, lookup]
  obtain ⟨v, hv⟩ := h o
  exact ⟨v, by rw [hv]; rfl⟩

/-- **C92, partial.**  With a limit on the training (test) samples and a dataset section whose `max_train_samples`
(`max_test_samples`) is not null, boolean or otherwise not a number, the entry exists afterwards and is an integer of
at most the limit; so does the chunk size of a graph specification.
Missing: such entries, see `C92_null_violated`. -/
theorem C92_effective_partial (r : Resolved) (raw : Dict) (hok : DatasetOk raw) :
    (∀ d L, Assoc.get raw "dataset" = some (.dict d) → r.train = some L →
      (∀ v, lookup [.key "dataset", .key "options", .key "max_train_samples"] (.dict raw) = some v →
        ∃ n, intValue parse v = some n) →
      ∃ v n, lookup [.key "dataset", .key "options", .key "max_train_samples"] (.dict (applyResolved parse r raw).1) = some v ∧
        intValue parse v = some n ∧ n ≤ L) ∧
    (∀ d L, Assoc.get raw "dataset" = some (.dict d) → r.test = some L →
      (∀ v, lookup [.key "dataset", .key "options", .key "max_test_samples"] (.dict raw) = some v →
        ∃ n, intValue parse v = some n) →
      ∃ v n, lookup [.key "dataset", .key "options", .key "max_test_samples"] (.dict (applyResolved parse r raw).1) = some v ∧
        intValue parse v = some n ∧ n ≤ L) ∧
    (∀ d L, lookup [.key "graph", .key "spec"] (.dict raw) = some (.dict d) → r.chunk = some L →
      (∀ v, lookup [.key "graph", .key "spec", .key "chunk_size"] (.dict raw) = some v → ∃ n, intValue parse v = some n) →
      ∃ v n, lookup [.key "graph", .key "spec", .key "chunk_size"] (.dict (applyResolved parse r raw).1) = some v ∧
        intValue parse v = some n ∧ n ≤ L) := by
  refine ⟨?_, ?_, ?_⟩
  · intro d L hd hL hnum
    refine effective_of_present parse r raw hok [.key "dataset", .key "options", .key "max_train_samples"] L ?_ _
      ⟨rfl, rfl, rfl, trivial⟩ hnum ?_
    · simp [table, Resolved.limits, hL]
    · refine present_option parse r raw d hd _ (fun o => ?_)
      have hframe := (local_clampKey parse "max_test_samples" r.test true).frame
        (clampKey parse "max_train_samples" r.train true o).1 "max_train_samples" (by simp)
      simp only [andThen]
      rw [hframe, hL]
      exact clampKey_present parse _ _ _
  · intro d L hd hL hnum
    refine effective_of_present parse r raw hok [.key "dataset", .key "options", .key "max_test_samples"] L ?_ _
      ⟨rfl, rfl, rfl, trivial⟩ hnum ?_
    · simp [table, Resolved.limits, hL]
    · refine present_option parse r raw d hd _ (fun o => ?_)
      simp only [andThen]
      rw [hL]
      exact clampKey_present parse _ _ _
  · intro d L hd hL hnum
    refine effective_of_present parse r raw hok [.key "graph", .key "spec", .key "chunk_size"] L ?_ _
      ⟨rfl, rfl, rfl, trivial⟩ hnum ?_
    · simp [table, Resolved.limits, hL]
    · have hrest : Assoc.get (applyResolved parse r raw).1 "graph"
          = (Assoc.get raw "graph").map (fun v => (onDict (onKey "spec" (onDict (clampKey parse "chunk_size" r.chunk true))) v).1) := by
        simp only [applyResolved, andThen]
        simp only [onKey, get_modifyKey]
        simp
      simp only [lookup] at hd
      cases hg : Assoc.get raw "graph" with
      | none => rw [hg] at hd; simp at hd
      | some g =>
        rw [hg] at hd
        cases g with
        | dict g =>
          simp only [Option.bind_some, lookup] at hd
          cases hs : Assoc.get g "spec" with
          | none => rw [hs] at hd; simp at hd
          | some sp =>
            rw [hs] at hd
            simp only [Option.bind_some, Option.some.injEq] at hd
            subst hd
            obtain ⟨v, hv⟩ := clampKey_present parse "chunk_size" L d
            refine ⟨v, ?_⟩
            simp only [lookup, hrest, hg, Option.map_some, Option.bind_some, onDict, onKey, get_modifyKey, if_true, hs, hL, hv]
        | _ => simp [lookup] at hd

/-- A limit of 100 training samples. -/
def demoLimits : Resolved := ⟨none, none, some 64, none, some 512, some 100, none⟩

/-- **C92 is violated.**  A configuration that says `max_train_samples: null`, which the data loaders read as all
samples, is left so by a limit of 100 training samples, and nothing is reported. -/
theorem C92_null_violated :
    let raw : Dict := [("dataset", .dict [("id", .str "x"), ("options", .dict [("max_train_samples", .none)])])]
    (applyResolved (fun _ => none) demoLimits raw).1 = raw ∧ (applyResolved (fun _ => none) demoLimits raw).2.length = 0 ∧
    lookup [.key "dataset", .key "options", .key "max_train_samples"]
      (.dict (applyResolved (fun _ => none) demoLimits raw).1) = some .none := by
  decide +kernel

/-- Non-vacuity: a configuration with a value above, one below and a missing one. -/
example : (applyResolved (fun _ => none) demoLimits
      [("dataset", .dict [("id", .str "x")]), ("method", .dict [("params", .dict [("batch_size", .int 128), ("lr", .flt (1 / 10))])]),
       ("graph", .dict [("spec", .dict [("chunk_size", .int 256)])])]).1
    = [("dataset", .dict [("id", .str "x"), ("options", .dict [("max_train_samples", .int 100)])]),
       ("method", .dict [("params", .dict [("batch_size", .int 64), ("lr", .flt (1 / 10))])]),
       ("graph", .dict [("spec", .dict [("chunk_size", .int 256)])])] := by
  decide +kernel

/-- Non-vacuity: an automatic profile on a machine without a known device. -/
example : resolveLimits id none (some { profile := some "auto", method := some 10 }) false
    = .ok (some ⟨some "v100", some 32, some 10, some 64, some 512, none, none⟩) := by
  decide +kernel

end ModSSC.Bench
