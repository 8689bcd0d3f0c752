import Verif.Preprocess.CacheProps

/-!
# A collision-free fingerprint for the examples

The theorems ask for step fingerprints that do not collide.  This file gives one that can be
evaluated, so that the hypotheses are seen to be satisfiable and the counterexamples can be run.
-/

namespace ModSSC.Preprocess
open ModSSC Spec

/-- A string with its length in front. -/
def encStr (l : List Char) : List Char := List.replicate l.length 'x' ++ ':' :: l

theorem replicate_sep {n m : Nat} {r r' : List Char}
    (h : List.replicate n 'x' ++ ':' :: r = List.replicate m 'x' ++ ':' :: r') :
    n = m ∧ r = r' := by
  induction n generalizing m with
  | zero =>
    cases m with
    | zero => simpa using h
    | succ m => simp [List.replicate_succ] at h
  | succ n ih =>
    cases m with
    | zero => simp [List.replicate_succ] at h
    | succ m =>
      simp only [List.replicate_succ, List.cons_append, List.cons.injEq, true_and] at h
      obtain ⟨h1, h2⟩ := ih h
      exact ⟨by rw [h1], h2⟩

theorem encStr_prefix {l l' r r' : List Char} (h : encStr l ++ r = encStr l' ++ r') :
    l = l' ∧ r = r' := by
  unfold encStr at h
  rw [List.append_assoc, List.append_assoc, List.cons_append, List.cons_append] at h
  obtain ⟨h1, h2⟩ := replicate_sep h
  exact List.append_inj h2 h1

/-- A list of strings. -/
def encList (ls : List (List Char)) : List Char :=
  List.replicate ls.length 'x' ++ ':' :: ls.flatMap encStr

theorem encList_prefix {ls ls' : List (List Char)} {r r' : List Char}
    (h : encList ls ++ r = encList ls' ++ r') : ls = ls' ∧ r = r' := by
  unfold encList at h
  rw [List.append_assoc, List.append_assoc, List.cons_append, List.cons_append] at h
  obtain ⟨h1, h2⟩ := replicate_sep h
  induction ls generalizing ls' with
  | nil =>
    cases ls' with
    | nil => exact ⟨rfl, by simpa using h2⟩
    | cons a ls' => simp at h1
  | cons a ls ih =>
    cases ls' with
    | nil => simp at h1
    | cons a' ls' =>
      rw [List.flatMap_cons, List.flatMap_cons, List.append_assoc, List.append_assoc] at h2
      obtain ⟨h3, h4⟩ := encStr_prefix h2
      have h5 : ls.length = ls'.length := by simpa using h1
      obtain ⟨h6, h7⟩ := ih (ls' := ls') (by
        rw [h5, h4]) h5 h4
      exact ⟨by rw [h3, h6], h7⟩

/-- Natural numbers in unary. -/
def encNat (n : Nat) : List Char := List.replicate n 'i'

theorem encNat_inj {n m : Nat} (h : encNat n = encNat m) : n = m := by
  have := congrArg List.length h
  simpa [encNat] using this

/-- Step kinds. -/
def encKind : Kind → List Char
  | .transform => ['t']
  | .fittable => ['f']
  | .featurizer => ['z']

/-- The fingerprint of the examples. -/
def demoFp (κ : StepKey Unit) : String := String.ofList (
  encList [κ.datasetFp.toList, κ.stepId.toList, encNat κ.index, encKind κ.kind, encNat κ.seed] ++
  (encList (κ.fitFp.toList.map String.toList) ++
  (encList (κ.inputsTrain.map (fun p => p.1.toList)) ++
  (encList (κ.inputsTrain.map (fun p => p.2.toList)) ++
  (encList (κ.inputsTest.map (fun p => p.1.toList)) ++
  (encList (κ.inputsTest.map (fun p => p.2.toList)) ++ []))))))

theorem pairs_inj {l l' : List (String × String)}
    (h1 : l.map (fun p => p.1.toList) = l'.map (fun p => p.1.toList))
    (h2 : l.map (fun p => p.2.toList) = l'.map (fun p => p.2.toList)) : l = l' := by
  induction l generalizing l' with
  | nil => cases l' with
    | nil => rfl
    | cons _ _ => simp at h1
  | cons p l ih => cases l' with
    | nil => simp at h1
    | cons p' l' =>
      simp only [List.map_cons, List.cons.injEq] at h1 h2
      rw [ih h1.2 h2.2]
      congr 1
      exact Prod.ext (String.toList_injective h1.1) (String.toList_injective h2.1)

theorem demoFp_inj : Function.Injective demoFp := by
  intro κ κ' h
  have h := congrArg String.toList h
  unfold demoFp at h
  rw [String.toList_ofList, String.toList_ofList] at h
  obtain ⟨h1, h⟩ := encList_prefix h
  obtain ⟨h2, h⟩ := encList_prefix h
  obtain ⟨h3, h⟩ := encList_prefix h
  obtain ⟨h4, h⟩ := encList_prefix h
  obtain ⟨h5, h⟩ := encList_prefix h
  obtain ⟨h6, h⟩ := encList_prefix h
  simp only [List.cons.injEq, and_true] at h1
  obtain ⟨a1, a2, a3, a4, a5⟩ := h1
  have b1 := String.toList_injective a1
  have b2 := String.toList_injective a2
  have b3 := encNat_inj a3
  have b5 := encNat_inj a5
  have b4 : κ.kind = κ'.kind := by
    revert a4
    cases κ.kind <;> cases κ'.kind <;> simp [encKind]
  have b6 : κ.fitFp = κ'.fitFp := by
    revert h2
    cases κ.fitFp <;> cases κ'.fitFp <;> simp
    exact fun h => String.toList_injective h
  have b7 := pairs_inj h3 h4
  have b8 := pairs_inj h5 h6
  cases κ
  cases κ'
  simp_all

theorem demoFp_raw (κ : StepKey Unit) (k : String) : demoFp κ ≠ "fp" ++ ":" ++ k := by
  intro h
  have h := congrArg String.toList h
  unfold demoFp at h
  rw [String.toList_ofList, String.toList_append, String.toList_append] at h
  simp [encList, List.replicate_succ] at h

/-- Fingerprint of fit indices. -/
def demoFitFp (l : List Int) : String := String.ofList (encList (l.map (fun (i : Int) =>
  match i with
  | .ofNat n => '+' :: encNat n
  | .negSucc n => '-' :: encNat n)))

theorem demoFitFp_inj : Function.Injective demoFitFp := by
  intro l l' h
  have h := congrArg String.toList h
  unfold demoFitFp at h
  rw [String.toList_ofList, String.toList_ofList] at h
  have h' := (encList_prefix (r := []) (r' := []) (congrArg (· ++ []) h)).1
  refine List.map_injective_iff.mpr ?_ h'
  intro i j hij
  cases i <;> cases j <;> simp at hij
  · rw [encNat_inj hij]
  · rw [encNat_inj hij]

/-- The demonstration environment with collision-free hashes. -/
def demoE : Env Int Unit Int := { demoEnv demoFp with fitFp := demoFitFp }

theorem demo_cacheOk : CacheOk demoE demoCodec demoDs where
  reads := fun id sp h => demo_reads demoFp h
  outs := by
    intro id sp h obj s outs obj' ht
    obtain ⟨k, v, hp, rfl⟩ := demo_outs demoFp h ht
    exact ⟨by simp [Assoc.keys], by simp [hp], by simp [demoCodec], fun _ _ _ => rfl,
      by simp [DistinctFiles, savedEntries, demoCodec]⟩
  stepFp_inj := demoFp_inj
  stepFp_raw := fun κ k => demoFp_raw κ k
  fitFp_inj := demoFitFp_inj

theorem demo_complete : Complete demoE demoCodec := by
  intro id sp h obj s outs obj' ht
  obtain ⟨k, v, hp, rfl⟩ := demo_outs demoFp h ht
  exact ⟨by simp [hp, Assoc.keys], by simp [demoCodec]⟩

theorem demo_pure : Pure demoE := by
  intro id obj s outs obj' h s'
  have hobj : obj' = obj := by
    have hm : ∀ {src dst : String} {f : Int → Int}, mapStep src dst f obj s = .ok (outs, obj') →
        obj' = obj := by
      intro src dst f h
      unfold mapStep at h
      split at h
      · simp at h
      · simp only [Except.ok.injEq, Prod.mk.injEq] at h
        exact h.2.symm
    simp only [demoE, demoEnv] at h
    split at h
    · exact hm h
    · split at h <;> exact hm h
  rw [hobj]

/-- A call without purging. -/
def demoCall' (out : String) (ids : List String) : Call Unit :=
  ⟨⟨ids.map (fun i => ⟨i, (), [], [], true⟩), out⟩, 0, some [0, 1], false⟩

/-- A completed call extends the history. -/
theorem History.call {V P S : Type} {E : Env V P S} {cdc : Codec V} {ds : Dataset V} {c : Cache V}
    (call : Call P) (h : History E cdc ds c)
    (hr : (preprocess E cdc ds (some c) call).2.toOption.isSome = true) :
    History E cdc ds (applyOps c (preprocess E cdc ds (some c) call).1) := by
  cases hp : (preprocess E cdc ds (some c) call).2 with
  | error e => rw [hp] at hr; simp [Except.toOption] at hr
  | ok r => exact .run call h hp

/-- What the examples look at: features and labels of both splits. -/
def view (x : Except PyErr (Result Int)) : Option ((Int × Int) × Option (Int × Int)) :=
  x.toOption.map (fun r => ((r.train.X, r.train.y), r.test.map (fun t => (t.X, t.y))))

-- A history of one completed run, after which the next call is served from the cache: no file
-- operation, and the same result as without the cache.
example : ∃ c, History demoE demoCodec demoDs c ∧
    (preprocess demoE demoCodec demoDs (some c) (demoCall' "features.X" ["core.copy_raw"])).1.isEmpty
      = true ∧
    view (preprocess demoE demoCodec demoDs (some c) (demoCall' "features.X" ["core.copy_raw"])).2
      = some ((7, 13), some (9, 25)) :=
  ⟨_, .call (demoCall' "features.X" ["core.copy_raw", "core.pca", "labels.encode"]) .empty
    (by decide +kernel), by decide +kernel, by decide +kernel⟩

-- A killed run leaves a half-written step behind (`C34_transparent_after_crash_partial`).
example : ∃ c, CrashHistory demoE demoCodec demoDs c ∧ c.length = 1 ∧
    view (preprocess demoE demoCodec demoDs (some c) (demoCall' "features.X" ["core.copy_raw"])).2
      = some ((7, 13), some (9, 25)) :=
  ⟨_, .stop (demoCall' "features.X" ["core.copy_raw", "labels.encode"]) 2 .empty,
    by decide +kernel, by decide +kernel⟩

/-! ## Violations -/

/-- The label steps with their real declarations: `labels.to_torch` reads `labels.y` when it is
there but declares `raw.y` only (`catalog.py:334-373`, `steps/labels/to_torch.py:48`).  The encoding
is shown as the last digit, a tensor as the value plus 1000. -/
def labelE : Env Int Unit Int where
  spec := fun id =>
    if id = "labels.encode" then
      some ⟨.transform, [], ["raw.y"], ["labels.y", "labels.classes"]⟩
    else if id = "labels.to_numpy" then some ⟨.transform, [], ["raw.y"], ["labels.y"]⟩
    else if id = "labels.to_torch" then some ⟨.transform, [], ["raw.y"], ["labels.y"]⟩
    else none
  start := fun _ _ _ => .ok 0
  fit := fun _ obj _ _ => .ok obj
  transform := fun id obj s =>
    match Assoc.get s "raw.y" with
    | none => .error .keyError
    | some v =>
      if id = "labels.encode" then .ok ([("labels.y", v % 10), ("labels.classes", 10)], obj)
      else if id = "labels.to_numpy" then .ok ([("labels.y", v)], obj)
      else .ok ([("labels.y", (Assoc.get s "labels.y").getD v + 1000)], obj)
  deriveSeed := fun _ _ i => i
  stepFp := demoFp
  fitFp := demoFitFp
  shape := fun _ => some [1]
  structFp := fun _ => "struct"

/-- **C34 is violated by a step that reads an undeclared artifact.**  After a run of
`[labels.encode, labels.to_torch]`, the plan `[labels.to_numpy, labels.to_torch]` gets the encoded
labels from the cache, although without a cache it returns the raw ones. -/
theorem C34_undeclared_read_violated : ∃ c call, History labelE demoCodec demoDs c ∧
    view (preprocess labelE demoCodec demoDs (some c) call).2
      = some ((7, 1003), some (9, 1005)) ∧
    view (preprocess labelE demoCodec demoDs none call).2 = some ((7, 1013), some (9, 1025)) :=
  ⟨_, demoCall' "features.X" ["labels.to_numpy", "labels.to_torch"],
    .call (demoCall' "features.X" ["labels.encode", "labels.to_torch"]) .empty (by decide +kernel),
    by decide +kernel, by decide +kernel⟩

/-- A step that draws from the generator when transforming, as `graph.edge_sparsify` does
(`steps/graph/edge_sparsify.py:29,34`).  The object is the position in the stream. -/
def randomE : Env Int Unit Int where
  spec := fun id =>
    if id = "random" then some ⟨.transform, [], ["raw.X"], ["features.X"]⟩ else none
  start := fun _ _ _ => .ok 0
  fit := fun _ obj _ _ => .ok obj
  transform := fun _ obj s =>
    match Assoc.get s "raw.X" with
    | none => .error .keyError
    | some v => .ok ([("features.X", v + 100 * obj)], obj + 1)
  deriveSeed := fun _ _ i => i
  stepFp := demoFp
  fitFp := demoFitFp
  shape := fun _ => some [1]
  structFp := fun _ => "struct"

theorem random_cacheOk : CacheOk randomE demoCodec demoDs where
  reads := by
    intro id sp h
    simp only [randomE] at h
    split at h
    · simp only [Option.some.injEq] at h
      subst h
      refine ⟨fun obj s s' idx _ => rfl, fun obj s s' ha => ?_⟩
      simp only [randomE]
      rw [ha "raw.X" (by simp)]
    · simp at h
  outs := by
    intro id sp h obj s outs obj' ht
    simp only [randomE] at h ht
    split at h
    · simp only [Option.some.injEq] at h
      subst h
      split at ht
      · simp at ht
      · simp only [Except.ok.injEq, Prod.mk.injEq] at ht
        rw [← ht.1]
        exact ⟨by simp [Assoc.keys], by simp, by simp [demoCodec], fun _ _ _ => rfl,
          by simp [DistinctFiles, savedEntries, demoCodec]⟩
    · simp at h
  stepFp_inj := demoFp_inj
  stepFp_raw := fun κ k => demoFp_raw κ k
  fitFp_inj := demoFitFp_inj

theorem random_complete : Complete randomE demoCodec := by
  intro id sp h obj s outs obj' ht
  simp only [randomE] at h ht
  split at h
  · simp only [Option.some.injEq] at h
    subst h
    split at ht
    · simp at ht
    · simp only [Except.ok.injEq, Prod.mk.injEq] at ht
      rw [← ht.1]
      exact ⟨by simp [Assoc.keys], by simp [demoCodec]⟩
  · simp at h

/-- **C34 is violated by a crash in a step that draws random numbers.**  All the conditions of
`C34_transparent_partial` hold, but the run was killed after the training outputs were saved: the
rerun takes them from the cache, so the test split is transformed with the generator at the wrong
position. -/
theorem C34_crash_random_violated : CacheOk randomE demoCodec demoDs ∧ Complete randomE demoCodec ∧
    ∃ c call, CrashHistory randomE demoCodec demoDs c ∧
    view (preprocess randomE demoCodec demoDs (some c) call).2 = some ((7, 13), some (9, 25)) ∧
    view (preprocess randomE demoCodec demoDs none call).2 = some ((7, 13), some (109, 25)) :=
  ⟨random_cacheOk, random_complete, _, demoCall' "features.X" ["random"],
    .stop (demoCall' "features.X" ["random"]) 4 .empty, by decide +kernel, by decide +kernel⟩

/-- A step that returns the second of its declared artifacts only for some inputs, as
`graph.edge_sparsify` does with `graph.edge_weight` (`steps/graph/edge_sparsify.py:40-44`).
With `rnd` it also draws from the generator. -/
def sparsifyE (rnd : Int) : Env Int Unit Int where
  spec := fun id =>
    if id = "sparsify" then some ⟨.transform, [], ["raw.X"], ["features.X", "features.w"]⟩ else none
  start := fun _ _ _ => .ok 0
  fit := fun _ obj _ _ => .ok obj
  transform := fun _ obj s =>
    match Assoc.get s "raw.X" with
    | none => .error .keyError
    | some v =>
      .ok (("features.X", v + 100 * obj) :: (if v < 8 then [("features.w", 1)] else []), obj + rnd)
  deriveSeed := fun _ _ i => i
  stepFp := demoFp
  fitFp := demoFitFp
  shape := fun _ => some [1]
  structFp := fun _ => "struct"

/-- A codec that stores everything, with the given exception for torn files. -/
def tornCodec (te : PyErr) : Codec Int := ⟨fun _ => some ".npy", fun v => v, te⟩

theorem sparsify_cacheOk (rnd : Int) (te : PyErr) :
    CacheOk (sparsifyE rnd) (tornCodec te) demoDs where
  reads := by
    intro id sp h
    simp only [sparsifyE] at h
    split at h
    · simp only [Option.some.injEq] at h
      subst h
      refine ⟨fun obj s s' idx _ => rfl, fun obj s s' ha => ?_⟩
      simp only [sparsifyE]
      rw [ha "raw.X" (by simp)]
    · simp at h
  outs := by
    intro id sp h obj s outs obj' ht
    simp only [sparsifyE] at h ht
    split at h
    · simp only [Option.some.injEq] at h
      subst h
      split at ht
      · simp at ht
      · simp only [Except.ok.injEq, Prod.mk.injEq] at ht
        rw [← ht.1]
        constructor
        · split <;> simp [Assoc.keys]
        · simp
        · simp [tornCodec]
        · exact fun _ _ _ => rfl
        · split
          · simp only [DistinctFiles, savedEntries, tornCodec, List.filterMap_cons,
              List.filterMap_nil, Option.map_some, List.map_cons, List.map_nil]
            decide +kernel
          · simp [DistinctFiles, savedEntries, tornCodec]
    · simp at h
  stepFp_inj := demoFp_inj
  stepFp_raw := fun κ k => demoFp_raw κ k
  fitFp_inj := demoFitFp_inj

theorem sparsify_pure : Pure (sparsifyE 0) := by
  intro id obj s outs obj' h s'
  simp only [sparsifyE] at h
  split at h
  · simp at h
  · simp only [Except.ok.injEq, Prod.mk.injEq, Int.add_zero] at h
    rw [h.2]

/-- **C34 is violated by a random step that returns less than it declares.**  No crash is needed: on
the second run the training outputs are complete and come from the cache, the test outputs are not
and are computed again, with the generator at the wrong position. -/
theorem C34_incomplete_random_violated : CacheOk (sparsifyE 1) (tornCodec .valueError) demoDs ∧
    ∃ c call, History (sparsifyE 1) (tornCodec .valueError) demoDs c ∧
    view (preprocess (sparsifyE 1) (tornCodec .valueError) demoDs (some c) call).2
      = some ((7, 13), some (9, 25)) ∧
    view (preprocess (sparsifyE 1) (tornCodec .valueError) demoDs none call).2
      = some ((7, 13), some (109, 25)) :=
  ⟨sparsify_cacheOk 1 _, _, demoCall' "features.X" ["sparsify"],
    .call (demoCall' "features.X" ["sparsify"]) .empty (by decide +kernel),
    by decide +kernel, by decide +kernel⟩

/-- The exception raised, if any. -/
def raised (x : Except PyErr (Result Int)) : Option PyErr :=
  match x with
  | .error e => some e
  | .ok _ => none

/-- **C34 is violated by a crash while incomplete outputs are saved again.**  The step draws no
random numbers.  The second run computes the incomplete test outputs again and is killed while
rewriting their file: the manifest of the first run still lists it, so every later run fails to read
it (`cache.py:160-163` turns a `ValueError` into a miss, but an empty `.npy` file raises `EOFError`
and `torch_npy` files are not guarded at all). -/
theorem C34_crash_incomplete_violated :
    CacheOk (sparsifyE 0) (tornCodec .valueError) demoDs ∧ Pure (sparsifyE 0) ∧
    ∃ c call, CrashHistory (sparsifyE 0) (tornCodec .valueError) demoDs c ∧
    raised (preprocess (sparsifyE 0) (tornCodec .valueError) demoDs (some c) call).2 = some .valueError ∧
    view (preprocess (sparsifyE 0) (tornCodec .valueError) demoDs none call).2 = some ((7, 13), some (9, 25)) :=
  ⟨sparsify_cacheOk 0 _, sparsify_pure, _, demoCall' "features.X" ["sparsify"],
    .stop (demoCall' "features.X" ["sparsify"]) 2
      (.stop (demoCall' "features.X" ["sparsify"]) 100 .empty),
    by decide +kernel, by decide +kernel⟩

-- With a codec that recognises torn files the same history is harmless: the hypotheses of
-- `C34_transparent_after_crash_partial` hold for the incomplete step.
example : CacheOk (sparsifyE 0) (tornCodec .cacheError) demoDs ∧
    Pure (sparsifyE 0) ∧ ¬ Complete (sparsifyE 0) (tornCodec .cacheError) := by
  refine ⟨sparsify_cacheOk 0 _, sparsify_pure, ?_⟩
  · intro h
    have := (h "sparsify" _ rfl 0 [("raw.X", 9)] _ _ rfl).1 "features.w" (by decide)
    exact absurd this (by decide +kernel)

end ModSSC.Preprocess
