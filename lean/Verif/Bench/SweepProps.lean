import Verif.Bench.SweepModel
import Verif.Bench.LimitsProps
import Verif.IntRepr
import Mathlib.Data.List.Nodup
import Mathlib.Data.List.Range

/-!
# Seed sweeps (C60, C93)
-/

namespace ModSSC.Bench
open ModSSC Spec

theorem get_sections (seed : Int) (S : List String) (hS : S.Nodup) (d : Dict) (k : String) :
    Assoc.get (S.foldl (fun out s => modifyKey s (setSeed seed) out) d) k
      = if k ∈ S then (Assoc.get d k).map (setSeed seed) else Assoc.get d k := by
  induction S generalizing d with
  | nil => simp
  | cons s S ih =>
    rw [List.nodup_cons] at hS
    rw [List.foldl_cons, ih hS.2, get_modifyKey]
    by_cases hk : k = s
    · subst hk
      simp [hS.1]
    · simp [hk]

theorem get_applyGlobalSeed (seed : Int) (name : Option String) (raw : Dict) (k : String) :
    Assoc.get (applyGlobalSeed seed name raw) k
      = if k = "run" then some (.dict (sweepRun seed name (Assoc.get raw "run")))
        else if k ∈ seededSections then (Assoc.get raw k).map (setSeed seed) else Assoc.get raw k := by
  unfold applyGlobalSeed
  rw [get_sections seed seededSections (by decide)]
  by_cases hk : k = "run"
  · subst hk
    rw [if_neg (by decide), if_pos rfl, Assoc.get_set_self]
  · rw [if_neg hk, Assoc.get_set_other _ _ hk]

theorem get_sweepRun (seed : Int) (name : Option String) (r : Dict) (k : String) :
    Assoc.get (sweepRun seed name (some (.dict r))) k
      = if k = "name" then (match name with | some n => some (.str n) | none => Assoc.get r "name")
        else if k = "seed" then some (.int seed) else if k = "seeds" then none else Assoc.get r k := by
  unfold sweepRun
  cases name with
  | none =>
    simp only [Assoc.get_set, Assoc.get_erase]
    by_cases h1 : k = "seed"
    · subst h1; simp
    · by_cases h2 : k = "name"
      · subst h2; simp
      · by_cases h3 : k = "seeds"
        · subst h3; simp
        · simp [h1, h2, h3]
  | some n => simp only [Assoc.get_set, Assoc.get_erase]

theorem get_setSeed (seed : Int) (d : Dict) (k : String) (q : List Step) :
    lookup (.key k :: q) (setSeed seed (.dict d))
      = if k = "seed" then lookup q (.int seed) else lookup (.key k :: q) (.dict d) := by
  simp only [setSeed, lookup, Assoc.get_set]
  by_cases hk : k = "seed"
  · simp [hk]
  · simp [hk]

/-- **C60 (seeds).**  The run of a sweep has the seed of the sweep, no list of seeds, and the name given; every seeded
section that exists has that seed. -/
theorem C60_seeds (seed : Int) (name : Option String) (raw : Dict) :
    lookup [.key "run", .key "seed"] (.dict (applyGlobalSeed seed name raw)) = some (.int seed) ∧
    lookup [.key "run", .key "seeds"] (.dict (applyGlobalSeed seed name raw)) = none ∧
    (∀ n, name = some n → lookup [.key "run", .key "name"] (.dict (applyGlobalSeed seed name raw)) = some (.str n)) ∧
    (∀ s ∈ ["sampling", "preprocess", "views", "graph", "augmentation", "search"], ∀ d,
      lookup [.key s] (.dict raw) = some (.dict d) →
      lookup [.key s, .key "seed"] (.dict (applyGlobalSeed seed name raw)) = some (.int seed)) := by
  have hrun : ∀ r, ∃ r', sweepRun seed name r = sweepRun seed name (some (.dict r')) := by
    intro r
    cases r with
    | none => exact ⟨[], rfl⟩
    | some v => cases v <;> first | exact ⟨[], rfl⟩ | exact ⟨_, rfl⟩
  obtain ⟨r', hr'⟩ := hrun (Assoc.get raw "run")
  refine ⟨?_, ?_, ?_, ?_⟩
  · simp [lookup, get_applyGlobalSeed, hr', get_sweepRun]
  · simp [lookup, get_applyGlobalSeed, hr', get_sweepRun]
  · intro n hn
    subst hn
    simp [lookup, get_applyGlobalSeed, hr', get_sweepRun]
  · intro s hs d hd
    have hne : s ≠ "run" := by rintro rfl; simp at hs
    have hs' : s ∈ seededSections := hs
    have hg : Assoc.get raw s = some (.dict d) := by
      simp only [lookup] at hd
      cases h : Assoc.get raw s with
      | none => rw [h] at hd; simp at hd
      | some v => rw [h] at hd; simpa [lookup] using hd
    have h1 : Assoc.get (applyGlobalSeed seed name raw) s = some (setSeed seed (.dict d)) := by
      rw [get_applyGlobalSeed, if_neg hne, if_pos hs', hg]
      rfl
    show (Assoc.get _ s).bind _ = _
    rw [h1]
    show lookup [.key "seed"] _ = _
    rw [get_setSeed]
    simp [lookup]

/-- The places a sweep writes to. -/
def seedPlaces (named : Bool) : List (List Pat) :=
  [[.key "run", .key "seed"], [.key "run", .key "seeds"]] ++ (if named then [[.key "run", .key "name"]] else []) ++
    ["sampling", "preprocess", "views", "graph", "augmentation", "search"].map (fun s => [.key s, .key "seed"])

/-- **C60 (nothing else).**  Every entry that is not one of the seeds, the list of seeds or (if a name is given) the
name, nor on the way to one, is unchanged.  The configuration has a run section, as the schema requires. -/
theorem C60_others (seed : Int) (name : Option String) (raw r : Dict) (hr : Assoc.get raw "run" = some (.dict r))
    (p : List Step) (hp : ∀ pat ∈ seedPlaces name.isSome, ¬ Touches pat p) :
    lookup p (.dict (applyGlobalSeed seed name raw)) = lookup p (.dict raw) := by
  cases p with
  | nil => exact absurd trivial (hp [.key "run", .key "seed"] (by simp [seedPlaces]))
  | cons s p =>
    cases s with
    | item i => simp [lookup]
    | key k =>
      show (Assoc.get _ k).bind _ = (Assoc.get _ k).bind _
      rw [get_applyGlobalSeed]
      by_cases hk : k = "run"
      · subst hk
        rw [if_pos rfl, hr]
        simp only [Option.bind_some]
        have h1 := hp [.key "run", .key "seed"] (by simp [seedPlaces])
        have h2 := hp [.key "run", .key "seeds"] (by simp [seedPlaces])
        simp only [Touches, true_and] at h1 h2
        cases p with
        | nil => simp [Touches] at h1
        | cons s p =>
          cases s with
          | item i => simp [lookup]
          | key k =>
            simp only [Touches, and_true] at h1 h2
            show (Assoc.get _ k).bind _ = (Assoc.get _ k).bind _
            rw [get_sweepRun]
            by_cases hn : k = "name"
            · subst hn
              rw [if_pos rfl]
              cases name with
              | none => rfl
              | some n =>
                have h3 := hp [.key "run", .key "name"] (by simp [seedPlaces])
                simp [Touches] at h3
            · rw [if_neg hn, if_neg (fun e => h1 e.symm), if_neg (fun e => h2 e.symm)]
      · rw [if_neg hk]
        by_cases hs : k ∈ seededSections
        · rw [if_pos hs]
          have h1 := hp [.key k, .key "seed"] (by
            simp only [seedPlaces, List.mem_append]
            exact .inr (List.mem_map.mpr ⟨k, hs, rfl⟩))
          simp only [Touches, true_and] at h1
          cases hg : Assoc.get raw k with
          | none => rfl
          | some v =>
            simp only [Option.map_some, Option.bind_some]
            cases v with
            | dict d =>
              cases p with
              | nil => simp [Touches] at h1
              | cons s p =>
                cases s with
                | item i => simp [lookup, setSeed]
                | key k2 =>
                  simp only [Touches, and_true] at h1
                  rw [get_setSeed, if_neg (fun e => h1 e.symm)]
            | _ => rfl
        · rw [if_neg hs]

/-- **C60 (missing sections).**  A seeded section that is missing or not a mapping is left as it is. -/
theorem C60_absent (seed : Int) (name : Option String) (raw : Dict) (s : String) (hne : s ≠ "run")
    (h : ∀ d, Assoc.get raw s ≠ some (.dict d)) :
    Assoc.get (applyGlobalSeed seed name raw) s = Assoc.get raw s := by
  rw [get_applyGlobalSeed, if_neg hne]
  split
  · cases hg : Assoc.get raw s with
    | none => rfl
    | some v =>
      cases v with
      | dict d => exact absurd hg (h d)
      | _ => rfl
  · rfl

/-- **C60 (runs of a sweep are independent).**  Applying one seed after another is the same as applying the last one:
no run of a sweep sees the seed of another.  (Stated for every entry of every section.) -/
theorem C60_last (s1 s2 : Int) (n1 : String) (n2 : String) (raw r : Dict) (hr : Assoc.get raw "run" = some (.dict r))
    (p : List Step) (hp : 2 ≤ p.length) :
    lookup p (.dict (applyGlobalSeed s2 (some n2) (applyGlobalSeed s1 (some n1) raw)))
      = lookup p (.dict (applyGlobalSeed s2 (some n2) raw)) := by
  cases p with
  | nil => simp at hp
  | cons s p =>
    cases s with
    | item i => simp [lookup]
    | key k =>
      cases p with
      | nil => simp at hp
      | cons s p =>
        show (Assoc.get _ k).bind _ = (Assoc.get _ k).bind _
        rw [get_applyGlobalSeed, get_applyGlobalSeed s2 (some n2) raw]
        by_cases hk : k = "run"
        · subst hk
          rw [if_pos rfl, if_pos rfl, get_applyGlobalSeed, if_pos rfl, hr]
          simp only [Option.bind_some]
          cases s with
          | item i => simp [lookup]
          | key k2 =>
            show (Assoc.get _ k2).bind _ = (Assoc.get _ k2).bind _
            rw [get_sweepRun, get_sweepRun, get_sweepRun s2 (some n2) r]
            congr 1
            by_cases h1 : k2 = "name"
            · simp [h1]
            · by_cases h2 : k2 = "seed"
              · simp [h2]
              · by_cases h3 : k2 = "seeds"
                · simp [h3]
                · simp [h1, h2, h3, get_sweepRun]
        · rw [if_neg hk, if_neg hk, get_applyGlobalSeed, if_neg hk]
          by_cases hs : k ∈ seededSections
          · rw [if_pos hs, if_pos hs, if_pos hs]
            cases hg : Assoc.get raw k with
            | none => rfl
            | some v =>
              simp only [Option.map_some, Option.bind_some]
              cases v with
              | dict d =>
                cases s with
                | item i => simp [lookup, setSeed]
                | key k2 =>
                  have e : setSeed s1 (.dict d) = .dict (Assoc.set d "seed" (.int s1)) := rfl
                  rw [e, get_setSeed, get_setSeed]
                  by_cases h2 : k2 = "seed"
                  · simp [h2]
                  · rw [if_neg h2, if_neg h2, ← e, get_setSeed, if_neg h2]
              | _ => rfl
          · rw [if_neg hs, if_neg hs, if_neg hs]

theorem seedLoop_ok {l : List PyVal} {out res : List Int} (h : seedLoop l out = .ok res) (hn : out.Nodup) :
    res.Nodup ∧ ∃ t, res = out ++ t ∧ l.map seedItem = t.map some := by
  induction l generalizing out with
  | nil =>
    obtain rfl := Except.ok.inj h
    exact ⟨hn, [], by simp, rfl⟩
  | cons v l ih =>
    simp only [seedLoop] at h
    cases hv : seedItem v with
    | none => rw [hv] at h; simp at h
    | some s =>
      rw [hv] at h
      simp only at h
      split at h
      · simp at h
      · rename_i hs
        obtain ⟨h1, t, h2, h3⟩ := ih h (by
          rw [List.nodup_append]
          refine ⟨hn, by simp, ?_⟩
          intro a ha b hb
          simp only [List.mem_singleton] at hb
          subst hb
          rintro rfl
          exact hs ha)
        exact ⟨h1, s :: t, by simp [h2], by simp [hv, h3]⟩

theorem seedLoop_complete {l : List PyVal} {out t : List Int} (h : l.map seedItem = t.map some) (hn : (out ++ t).Nodup) :
    seedLoop l out = .ok (out ++ t) := by
  induction l generalizing out t with
  | nil =>
    cases t with
    | nil => simp [seedLoop]
    | cons a t => simp at h
  | cons v l ih =>
    cases t with
    | nil => simp at h
    | cons a t =>
      simp only [List.map_cons, List.cons.injEq] at h
      simp only [seedLoop, h.1]
      have hna : a ∉ out := by
        intro hm
        rw [List.nodup_append] at hn
        exact hn.2.2 a hm a (by simp) rfl
      rw [if_neg hna, ih h.2 (by simpa using hn)]
      simp

/-- **C60 (which seeds).**  A list of seeds is accepted exactly if it is a non-empty list of distinct integers (a
boolean counts as one), and then it is used as it is; a number of runs gives consecutive seeds. -/
theorem C60_list (v : PyVal) (hv : v ≠ .none) :
    (∀ res, optionalSeedList (some v) = .ok res → ∃ l t, v = .list l ∧ res = some t ∧ t ≠ [] ∧ t.Nodup ∧
      l.map seedItem = t.map some) ∧
    (∀ l t, v = .list l → t ≠ [] → t.Nodup → l.map seedItem = t.map some → optionalSeedList (some v) = .ok (some t)) := by
  constructor
  · intro res h
    cases v with
    | none => exact absurd rfl hv
    | list l =>
      cases l with
      | nil => simp [optionalSeedList] at h
      | cons a l =>
        simp only [optionalSeedList] at h
        cases hs : seedLoop (a :: l) [] with
        | error e => rw [hs] at h; simp [Except.map] at h
        | ok t =>
          rw [hs] at h
          simp only [Except.map, Except.ok.injEq] at h
          obtain ⟨h1, t', h2, h3⟩ := seedLoop_ok hs (by simp)
          simp only [List.nil_append] at h2
          subst h2
          refine ⟨a :: l, t, rfl, h.symm, ?_, h1, h3⟩
          rintro rfl
          simp at h3
    | _ => simp [optionalSeedList] at h
  · rintro l t rfl hne hnd hm
    cases l with
    | nil =>
      cases t with
      | nil => exact absurd rfl hne
      | cons b t => simp at hm
    | cons a l =>
      simp only [optionalSeedList]
      rw [seedLoop_complete (out := []) hm (by simpa using hnd)]
      rfl

/-- **C60 (one run per seed).**  The runs of a sweep have pairwise different seeds and names: none overwrites another. -/
theorem C60_distinct (numRuns : Option Nat) (seed : Int) (v : Option PyVal) (seeds : Option (List Int))
    (hl : optionalSeedList v = .ok seeds) (base : String) (l : List Int) (h : sweepSeeds numRuns seed seeds = some l) :
    l.Nodup ∧ (l.map (sweepRunName base)).Nodup ∧
    (∀ n, numRuns = some n → l.length = n ∧ ∀ i : Nat, i < n → l[i]? = some (seed + i)) := by
  have hnd : l.Nodup := by
    unfold sweepSeeds at h
    cases numRuns with
    | some n =>
      obtain rfl := Option.some.inj h
      exact List.Nodup.map (fun a b hab => by simpa using hab) List.nodup_range
    | none =>
      simp only at h
      cases seeds with
      | none => simp at h
      | some s =>
        cases s with
        | nil => simp at h
        | cons a s =>
          obtain rfl := Option.some.inj h
          cases v with
          | none => simp [optionalSeedList] at hl
          | some v =>
            have hv : v ≠ .none := by rintro rfl; simp [optionalSeedList] at hl
            obtain ⟨_, t, _, h2, _, h3, _⟩ := (C60_list v hv).1 _ hl
            obtain rfl := Option.some.inj h2
            exact h3
  refine ⟨hnd, List.Nodup.map (fun a b hab => ?_) hnd, ?_⟩
  · unfold sweepRunName at hab
    rw [String.append_right_inj] at hab
    exact intRepr_inj a b hab
  · rintro n rfl
    simp only [sweepSeeds, Option.some.injEq] at h
    subst h
    refine ⟨by simp, fun i hi => ?_⟩
    simp [List.getElem?_range hi]

/-- The seed a section of a configuration uses (main.py:702, 736, 756, 778, 828; schema.py:54-60, 362-412): its own
`seed` if it has one, else one derived from the seed of the run. -/
def sectionSeed (derive : Int → String → Int) (raw : Dict) (runSeed : Int) (s : String) : Int :=
  seedFor derive runSeed s (match lookup [.key s, .key "seed"] (.dict raw) with
    | some (.int v) => some v
    | _ => none)

/-- **C93, partial.**  Whatever the configuration said before, all seeded sections of a sweep run use the seed of the
run itself.  Missing: agreement with a plain run of that seed, see `C93_plain_violated`. -/
theorem C93_sections_partial (derive : Int → String → Int) (seed : Int) (name : Option String) (raw d : Dict) (s : String)
    (hs : s ∈ ["sampling", "preprocess", "views", "graph", "augmentation", "search"])
    (h : Assoc.get raw s = some (.dict d)) :
    sectionSeed derive (applyGlobalSeed seed name raw) seed s = seed := by
  have h1 := (C60_seeds seed name raw).2.2.2 s hs d (by simp [lookup, h])
  unfold sectionSeed
  rw [h1]
  rfl

/-- **C93 is violated.**  A plain run with seed 3 derives the seed of its sampling; a sweep with the single seed 3 (and
nothing else different) samples with seed 3 itself.  So a run of a sweep is not the plain run with its seed, unless
the derived seed happens to be the seed. -/
theorem C93_plain_violated (derive : Int → String → Int) (hd : derive 3 "sampling" ≠ 3) :
    let raw : Dict := [("run", .dict [("name", .str "x"), ("seed", .int 3)]), ("sampling", .dict [("plan", .dict [])])]
    sectionSeed derive raw 3 "sampling" ≠ sectionSeed derive (applyGlobalSeed 3 none raw) 3 "sampling" := by
  intro raw
  rw [C93_sections_partial derive 3 none raw [("plan", .dict [])] "sampling" (by simp) rfl]
  exact hd

/-- Non-vacuity. -/
example : applyGlobalSeed 5 (some "x-seed5")
      [("run", .dict [("name", .str "x"), ("seeds", .list [.int 1, .int 5])]), ("sampling", .dict [("seed", .int 9), ("plan", .dict [])]),
       ("views", .none), ("method", .dict [("seed", .int 7)])]
    = [("run", .dict [("name", .str "x-seed5"), ("seed", .int 5)]), ("sampling", .dict [("seed", .int 5), ("plan", .dict [])]),
       ("views", .none), ("method", .dict [("seed", .int 7)])] := by
  decide +kernel

example : optionalSeedList (some (.list [.int 1, .bool true])) = .error .validation := by rfl
example : optionalSeedList (some (.list [.int 4, .bool true])) = .ok (some [4, 1]) := by rfl
example : sweepSeeds (some 3) 7 none = some [7, 8, 9] := by decide +kernel

end ModSSC.Bench
