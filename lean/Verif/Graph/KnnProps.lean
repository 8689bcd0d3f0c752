import Verif.Graph.KnnLemmas

/-!
# Neighbour graphs: properties C42 and C43
-/

namespace ModSSC.Graph
open ModSSC Spec

/-! ## The chunk loop -/

section Chunk
variable {ε : Type}

/-- Every file present holds the rows of its chunk. -/
def FilesOk (row : Nat → List ε) (d : WorkDir ε) : Prop :=
  ∀ c part, Assoc.get d c = some part → part = chunkRows row c

theorem filesOk_saves {row : Nat → List ε} {d saves : WorkDir ε} (h : FilesOk row d)
    (hs : ∀ s ∈ saves, s.2 = chunkRows row s.1) : FilesOk row (applySaves d saves) := by
  unfold applySaves
  induction saves generalizing d with
  | nil => exact h
  | cons s saves ih =>
    refine ih ?_ (fun x hx => hs x (List.mem_cons_of_mem _ hx))
    intro c part hg
    rw [Assoc.get_set] at hg
    split at hg
    · rename_i e
      subst e
      simp only [Option.some.injEq] at hg
      rw [← hg]; exact hs s (by simp)
    · exact h c part hg

theorem runChunks_spec {row : Nat → List ε} {resume : Bool} (cs : List (Nat × Nat)) :
    ∀ wd : Option (WorkDir ε), (∀ d, wd = some d → FilesOk row d) →
      (runChunks row resume wd cs).2 = cs.flatMap (chunkRows row) ∧
      ∀ s ∈ (runChunks row resume wd cs).1, s.2 = chunkRows row s.1 := by
  induction cs with
  | nil => intro wd _; exact ⟨rfl, by simp [runChunks]⟩
  | cons c cs ih =>
    intro wd hwd
    have hpart : (reusable wd resume c).getD (chunkRows row c) = chunkRows row c := by
      cases hr : reusable wd resume c with
      | none => rfl
      | some part =>
        cases wd with
        | none => simp [reusable] at hr
        | some d =>
          cases resume with
          | false => simp [reusable] at hr
          | true =>
            have hr' : Assoc.get d c = some part := by simpa [reusable] using hr
            exact hwd d rfl c part hr'
    have hsv : ∀ s ∈ (if wd.isSome && (reusable wd resume c).isNone then
        [(c, (reusable wd resume c).getD (chunkRows row c))] else []), s.2 = chunkRows row s.1 := by
      intro s hs
      split at hs
      · simp only [List.mem_singleton] at hs
        rw [hs]; exact hpart
      · simp at hs
    have hrest := ih (wd.map (fun d => applySaves d (if wd.isSome && (reusable wd resume c).isNone then
        [(c, (reusable wd resume c).getD (chunkRows row c))] else []))) (by
      intro d hd
      cases wd with
      | none => simp at hd
      | some d0 =>
        simp only [Option.map_some, Option.some.injEq] at hd
        rw [← hd]
        exact filesOk_saves (hwd d0 rfl) hsv)
    refine ⟨?_, ?_⟩
    · show (reusable wd resume c).getD (chunkRows row c) ++ _ = _
      rw [hrest.1, hpart, List.flatMap_cons]
    · intro s hs
      rcases List.mem_append.mp hs with h | h
      · exact hsv s h
      · exact hrest.2 s h

end Chunk

variable {K : Type} [Field K] [LinearOrder K]

/-- What a neighbour computation is called with. -/
inductive Query (K : Type) where
  | knn (X : List (List K)) (k : Int) (m : Metric) (includeSelf : Bool)
  | radius (X : List (List K)) (r : K) (m : Metric) (includeSelf : Bool)

/-- The call with a chunk size, a work directory and the resume flag. -/
def Query.run (ext : NumpyExt K) (eps : K) (q : Query K) (chunkSize : Int)
    (wd : Option (WorkDir (DEdge K))) (resume : Bool) :
    Except PyErr (WorkDir (DEdge K) × List (DEdge K)) :=
  match q with
  | .knn X k m s => knnEdges ext eps X k m s chunkSize wd resume
  | .radius X r m s => epsEdges ext eps X r m s chunkSize wd resume

/-- The contents a work directory can have after any number of calls with the same query, each with
any chunk size and resume flag, each finished or killed after any number of its file writes. -/
inductive WorkHistory (ext : NumpyExt K) (eps : K) (q : Query K) : WorkDir (DEdge K) → Prop where
  | empty : WorkHistory ext eps q []
  | call {d : WorkDir (DEdge K)} {chunkSize : Int} {resume : Bool}
      {saves : WorkDir (DEdge K)} {edges : List (DEdge K)} (killedAfter : Nat) :
      WorkHistory ext eps q d →
      q.run ext eps chunkSize (some d) resume = .ok (saves, edges) →
      WorkHistory ext eps q (applySaves d (saves.take killedAfter))

/-- The function computing one row. -/
def Query.row (ext : NumpyExt K) (eps : K) : Query K → Nat → List (DEdge K)
  | .knn X k m s => knnRow ext eps m s X (kEff X.length k s)
  | .radius X r m s => epsRow ext eps m s X r

/-- Calls that return before looking at chunks. -/
def Query.trivial : Query K → Option (Except PyErr (WorkDir (DEdge K) × List (DEdge K)))
  | .knn X k _ s => if X.length = 0 then some (.ok ([], []))
      else if kEff X.length k s = 0 then some (.ok ([], [])) else none
  | .radius X r _ _ => if X.length = 0 then some (.ok ([], []))
      else if r ≤ 0 then some (.error .valueError) else none

/-- The number of points. -/
def Query.n : Query K → Nat
  | .knn X _ _ _ => X.length
  | .radius X _ _ _ => X.length

theorem Query.run_eq (ext : NumpyExt K) (eps : K) (q : Query K) (c : Int)
    (wd : Option (WorkDir (DEdge K))) (resume : Bool) :
    q.run ext eps c wd resume = q.trivial.getD
      ((allChunks q.n c).map (runChunks (q.row ext eps) resume wd)) := by
  cases q with
  | knn X k m s =>
    simp only [Query.run, knnEdges, Query.trivial]
    by_cases h1 : X.length = 0
    · rw [if_pos h1, if_pos h1]; rfl
    · rw [if_neg h1, if_neg h1]
      by_cases h2 : kEff X.length k s = 0
      · rw [if_pos h2, if_pos h2]; rfl
      · rw [if_neg h2, if_neg h2]; rfl
  | radius X r m s =>
    simp only [Query.run, epsEdges, Query.trivial]
    by_cases h1 : X.length = 0
    · rw [if_pos h1, if_pos h1]; rfl
    · rw [if_neg h1, if_neg h1]
      by_cases h2 : r ≤ 0
      · rw [if_pos h2, if_pos h2]; rfl
      · rw [if_neg h2, if_neg h2]; rfl

theorem trivial_ok {q : Query K} {r} (h : q.trivial = some r) : r = .ok ([], []) ∨ r = .error .valueError := by
  cases q <;> simp only [Query.trivial] at h <;> split at h <;>
    first
      | (simp only [Option.some.injEq] at h; exact .inl h.symm)
      | (split at h
         · simp only [Option.some.injEq] at h; first | exact .inl h.symm | exact .inr h.symm
         · simp at h)

theorem run_saves {ext : NumpyExt K} {eps : K} {q : Query K} {c : Int} {d : WorkDir (DEdge K)}
    {resume : Bool} {saves : WorkDir (DEdge K)} {edges : List (DEdge K)}
    (h : q.run ext eps c (some d) resume = .ok (saves, edges)) (hd : FilesOk (q.row ext eps) d) :
    ∀ s ∈ saves, s.2 = chunkRows (q.row ext eps) s.1 := by
  rw [Query.run_eq] at h
  cases ht : q.trivial with
  | some r =>
    rw [ht] at h
    rcases trivial_ok ht with rfl | rfl
    · simp only [Option.getD_some, Except.ok.injEq, Prod.mk.injEq] at h
      rw [← h.1]; simp
    · simp at h
  | none =>
    rw [ht] at h
    cases ha : allChunks q.n c with
    | error e => rw [ha] at h; simp [Except.map] at h
    | ok cs =>
      rw [ha] at h
      simp only [Option.getD_none, Except.map, Except.ok.injEq] at h
      have := (runChunks_spec (row := q.row ext eps) (resume := resume) cs (some d)
        (fun d' h' => by cases h'; exact hd)).2
      rw [h] at this
      exact this

theorem history_ok {ext : NumpyExt K} {eps : K} {q : Query K} {d : WorkDir (DEdge K)}
    (h : WorkHistory ext eps q d) : FilesOk (q.row ext eps) d := by
  induction h with
  | empty => intro c part h; simp [Assoc.get] at h
  | call m _ hr ih =>
    exact filesOk_saves ih (fun s hs => run_saves hr ih s (List.mem_of_mem_take hs))

theorem run_edges {ext : NumpyExt K} {eps : K} {q : Query K} {c : Int} (hc : 0 < c)
    {wd : Option (WorkDir (DEdge K))} (hwd : ∀ d, wd = some d → FilesOk (q.row ext eps) d)
    (resume : Bool) :
    (q.run ext eps c wd resume).map (·.2) = (q.trivial.map (fun r => r.map (·.2))).getD
      (.ok ((List.range q.n).flatMap (q.row ext eps))) := by
  rw [Query.run_eq]
  cases ht : q.trivial with
  | some r => rfl
  | none =>
    simp only [Option.getD_none, Option.map_none]
    unfold allChunks
    rw [if_neg (by omega), if_neg (by omega)]
    simp only [Except.map]
    rw [(runChunks_spec _ wd hwd).1, chunks_flatMap _ _ _ (by omega)]

/-- **C43.**  For kNN and radius graphs alike: whatever calls with the same inputs were made before in
the work directory, killed or not and with any chunk sizes, a call with any (positive) chunk size,
resumed or not, returns what a call without work directory returns for any chunk size. -/
theorem C43_resume (ext : NumpyExt K) (eps : K) (q : Query K) {d : WorkDir (DEdge K)}
    (h : WorkHistory ext eps q d) {c c' : Int} (hc : 0 < c) (hc' : 0 < c') (resume : Bool) :
    (q.run ext eps c (some d) resume).map (·.2) = (q.run ext eps c' none false).map (·.2) := by
  rw [run_edges hc (fun d' h' => by cases h'; exact history_ok h) resume,
    run_edges hc' (fun d' h' => by cases h') false]

/-- Results of runs can be compared (in two stages, for instance search). -/
instance : DecidableEq (WorkDir (DEdge Rat)) := inferInstance
instance : DecidableEq (WorkDir (DEdge Rat) × List (DEdge Rat)) := inferInstance

/-- A kNN run on the line, killed after two of its three files, resumed with another chunk size. -/
def lineQuery : Query Rat := .knn [[0], [1], [3], [6], [10]] 2 .cosine false

example : ∃ d : WorkDir (DEdge Rat), d.length = 2 ∧
    WorkHistory (stableExt (fun x => x)) (1/1000) lineQuery d ∧
    lineQuery.run (stableExt (fun x => x)) (1/1000) 2 (some d) true
      = (lineQuery.run (stableExt (fun x => x)) (1/1000) 2 none true).map
          (fun r => ([((4, 5), r.2.drop 8)], r.2)) ∧
    (lineQuery.run (stableExt (fun x => x)) (1/1000) 2 none true).map (fun r => r.2.length) = .ok 10 :=
  ⟨applySaves [] (((lineQuery.run (stableExt (fun x => x)) (1/1000) 2 (some []) true).toOption.getD
    ([], [])).1.take 2), by decide +kernel,
    .call (edges := ((lineQuery.run (stableExt (fun x => x)) (1/1000) 2 (some []) true).toOption.getD
      ([], [])).2) 2 .empty (chunkSize := 2) (resume := true) (by decide +kernel),
    by decide +kernel, by decide +kernel⟩

/-- Chunk sizes that are not positive: zero is refused, a negative size gives no edges at all (on an
input on which the call would look at chunks). -/
theorem C43_chunk_size (ext : NumpyExt K) (eps : K) (q : Query K) (h : q.trivial = none)
    (wd : Option (WorkDir (DEdge K))) (resume : Bool) :
    q.run ext eps 0 wd resume = .error .valueError ∧
    ∀ c : Int, c < 0 → q.run ext eps c wd resume = .ok ([], []) := by
  constructor
  · rw [Query.run_eq, h]; rfl
  · intro c hc
    rw [Query.run_eq, h]
    simp only [Option.getD_none, allChunks]
    rw [if_neg (by omega), if_pos hc]; rfl

example : lineQuery.trivial = none := by decide +kernel

/-- The work directory does not record what the files were computed from: a call resumed in the
directory of a call with another `k` returns the other call's edges.  (Not a violation of C43, which
is about resuming the same computation.) -/
theorem C43_other_input :
    ∃ d : WorkDir (DEdge Rat),
      WorkHistory (stableExt (fun x => x)) (1/1000) (.knn [[0], [1], [3]] 1 .cosine false) d ∧
      (knnEdges (K := Rat) (stableExt (fun x => x)) (1/1000) [[0], [1], [3]] 2 .cosine false 3 (some d) true).map
          (fun r => r.2.length) = .ok 3 ∧
      (knnEdges (K := Rat) (stableExt (fun x => x)) (1/1000) [[0], [1], [3]] 2 .cosine false 3 none true).map
          (fun r => r.2.length) = .ok 6 :=
  ⟨applySaves [] ((((knnEdges (stableExt (fun (x : Rat) => x)) (1/1000) [[0], [1], [3]] 1 .cosine false 3
      (some []) true).toOption.getD ([], [])).1).take 1),
    .call (edges := ((knnEdges (stableExt (fun (x : Rat) => x)) (1/1000) [[0], [1], [3]] 1 .cosine false 3
      (some []) true).toOption.getD ([], [])).2) 1 .empty (chunkSize := 3) (resume := true)
      (by decide +kernel),
    by decide +kernel, by decide +kernel⟩

/-! ## C42 -/

variable [IsStrictOrderedRing K]

/-- The neighbours of `i` in an edge list, in order. -/
def nbrs (E : List (DEdge K)) (i : Nat) : List (Nat × K) :=
  (E.filter (fun e => decide (e.1 = i))).map (·.2)

/-- **C42 (kNN).**  For points of equal dimension, every node gets exactly `min(k, number of
candidates)` neighbours (`min(k, n-1)` unless `include_self`), distinct, itself only with
`include_self`, with their true distances, closest first, and no candidate left out is closer. -/
theorem C42_knn {ext : NumpyExt K} (hl : ext.Lawful) (eps : K) {X : List (List K)} {dim : Nat}
    (hX : ∀ x ∈ X, x.length = dim) (k : Int) (m : Metric) (includeSelf : Bool) {c : Int} (hc : 0 < c) :
    ∃ E, (knnEdges ext eps X k m includeSelf c none false).map (·.2) = .ok E ∧
      (∀ e ∈ E, e.1 < X.length) ∧
      ∀ i, i < X.length → IsNearest (fun j d => Dist eps m (X.getD i []) (X.getD j []) d)
        (fun j => j < X.length ∧ (includeSelf = true ∨ j ≠ i))
        (min k ((if includeSelf then X.length else X.length - 1 : Nat) : Int)).toNat (nbrs E i) := by
  have hdim : ∀ i j, i < X.length → j < X.length → (X.getD i []).length = (X.getD j []).length := by
    intro i j hi hj
    rw [List.getD_eq_getElem _ _ hi, List.getD_eq_getElem _ _ hj, hX _ (List.getElem_mem _),
      hX _ (List.getElem_mem _)]
  have hkeff : kEff X.length k includeSelf
      = (min k ((if includeSelf then X.length else X.length - 1 : Nat) : Int)).toNat := by
    unfold kEff; cases includeSelf <;> simp
  have hrun := run_edges (ext := ext) (eps := eps) (q := .knn X k m includeSelf) hc (wd := none)
    (fun d h => by cases h) false
  by_cases ht : X.length = 0 ∨ kEff X.length k includeSelf = 0
  · refine ⟨[], ?_, by simp, ?_⟩
    · refine Eq.trans hrun ?_
      simp only [Query.trivial]
      rcases ht with h | h
      · rw [if_pos h]; rfl
      · by_cases h' : X.length = 0
        · rw [if_pos h']; rfl
        · rw [if_neg h', if_pos h]; rfl
    · intro i hi
      have h0 : kEff X.length k includeSelf = 0 := by
        rcases ht with h | h
        · omega
        · exact h
      rw [← hkeff, h0]
      exact ⟨rfl, by simp [nbrs], by simp [nbrs], by simp [nbrs], by simp [nbrs]⟩
  · have ht1 : X.length ≠ 0 := fun h => ht (.inl h)
    have ht2 : kEff X.length k includeSelf ≠ 0 := fun h => ht (.inr h)
    have htr : (Query.knn X k m includeSelf).trivial = none := by
      simp only [Query.trivial]
      rw [if_neg ht1, if_neg ht2]
    rw [htr] at hrun
    have hk1 : kEff X.length k includeSelf ≤ if includeSelf then X.length else X.length - 1 := by
      rw [hkeff]; cases includeSelf <;> simp
    have hrows := fun i hi => knnRow_eq hl eps m includeSelf X (kEff X.length k includeSelf) i
      (by omega) hk1 hi
    -- rows of nodes outside the graph are never computed; use a total version
    have htag : ∀ i, ∀ e ∈ (if i < X.length then knnRow ext eps m includeSelf X
        (kEff X.length k includeSelf) i else []), e.1 = i := by
      intro i e he
      split at he
      · rename_i hi
        obtain ⟨js, h, -⟩ := hrows i hi
        rw [h] at he
        obtain ⟨j, -, rfl⟩ := List.mem_map.mp he
        rfl
      · simp at he
    refine ⟨(List.range X.length).flatMap (knnRow ext eps m includeSelf X
      (kEff X.length k includeSelf)), hrun, ?_, ?_⟩
    · intro e he
      obtain ⟨i, hi, he⟩ := List.mem_flatMap.mp he
      have hi' : i < X.length := by simpa using hi
      have := htag i e (by rw [if_pos hi']; exact he)
      omega
    · intro i hi
      have hnb : nbrs ((List.range X.length).flatMap (knnRow ext eps m includeSelf X
          (kEff X.length k includeSelf))) i
          = (knnRow ext eps m includeSelf X (kEff X.length k includeSelf) i).map (·.2) := by
        unfold nbrs
        have e1 : (List.range X.length).flatMap (knnRow ext eps m includeSelf X
            (kEff X.length k includeSelf)) = (List.range X.length).flatMap (fun i =>
              if i < X.length then knnRow ext eps m includeSelf X
                (kEff X.length k includeSelf) i else []) := by
          apply List.flatMap_congr
          intro a ha
          rw [if_pos (by simpa using ha)]
        rw [e1, flatMap_filter _ htag, if_pos hi, if_pos hi]
      obtain ⟨js, h1, h2, h3, h4, h5, h6⟩ := hrows i hi
      rw [hnb, h1, ← hkeff]
      have hfst : ((js.map (fun j => (i, j, rep ext eps m (X.getD i []) (X.getD j [])))).map
          (·.2)).map (·.1) = js := by
        rw [List.map_map, List.map_map]
        exact List.map_id'' (fun _ => rfl) js
      refine ⟨by simp [h2], by rw [hfst]; exact h3, ?_, ?_, ?_⟩
      · intro p hp
        simp only [List.map_map, List.mem_map] at hp
        obtain ⟨j, hj, rfl⟩ := hp
        exact ⟨h4 j hj, (dist_iff hl m (hdim i j hi (h4 j hj).1) _).mpr rfl⟩
      · rw [List.pairwise_map, List.pairwise_map]
        exact h5
      · intro j hj hnot d hd p hp
        rw [hfst] at hnot
        simp only [List.map_map, List.mem_map] at hp
        obtain ⟨a, ha, rfl⟩ := hp
        rw [(dist_iff hl m (hdim i j hi hj.1) d).mp hd]
        exact h6 j hj.1 hj.2 hnot a ha

/-- **C42 (radius).**  The graph has exactly the pairs within the radius, once each, with their true
distances; a radius that is not positive is refused. -/
theorem C42_epsilon {ext : NumpyExt K} (hl : ext.Lawful) (eps : K) {X : List (List K)} {dim : Nat}
    (hX : ∀ x ∈ X, x.length = dim) (hne : X ≠ []) (r : K) (m : Metric) (includeSelf : Bool) {c : Int}
    (hc : 0 < c) :
    (r ≤ 0 → (epsEdges ext eps X r m includeSelf c none false).map (·.2) = .error .valueError) ∧
    (0 < r → ∃ E, (epsEdges ext eps X r m includeSelf c none false).map (·.2) = .ok E ∧
      (E.map (fun e => (e.1, e.2.1))).Nodup ∧
      ∀ i j d, (i, j, d) ∈ E ↔ i < X.length ∧ j < X.length ∧ (includeSelf = true ∨ j ≠ i) ∧
        Dist eps m (X.getD i []) (X.getD j []) d ∧ d ≤ r) := by
  have hlen : X.length ≠ 0 := by simpa using hne
  have hdim : ∀ i j, i < X.length → j < X.length → (X.getD i []).length = (X.getD j []).length := by
    intro i j hi hj
    rw [List.getD_eq_getElem _ _ hi, List.getD_eq_getElem _ _ hj, hX _ (List.getElem_mem _),
      hX _ (List.getElem_mem _)]
  have hrun := run_edges (ext := ext) (eps := eps) (q := .radius X r m includeSelf) hc (wd := none)
    (fun d h => by cases h) false
  constructor
  · intro hr
    refine Eq.trans hrun ?_
    simp only [Query.trivial]
    rw [if_neg hlen, if_pos hr]; rfl
  · intro hr
    have htr : (Query.radius X r m includeSelf).trivial = none := by
      simp only [Query.trivial]
      rw [if_neg hlen, if_neg (not_le.mpr hr)]
    rw [htr] at hrun
    -- one entry
    have hentry : ∀ i j, i < X.length → j < X.length →
        ((distRow ext eps m includeSelf X i).getD j ⊤ ≤
          ((radiusBound m r : K) : WithTop K) ↔
          (includeSelf = true ∨ j ≠ i) ∧ rep ext eps m (X.getD i []) (X.getD j []) ≤ r) := by
      intro i j hi hj
      rw [distRow_get _ _ _ _ _ _ _ hj]
      by_cases hs : includeSelf = true ∨ j ≠ i
      · rw [if_neg (by rcases hs with h | h <;> simp [h]), WithTop.coe_le_coe]
        simp only [hs, true_and]
        cases m with
        | cosine => rfl
        | euclidean =>
          have h0 : (0 : K) ≤ rankDist ext eps .euclidean (X.getD i []) (X.getD j []) := by
            simp [rankDist]
          obtain ⟨s1, s2⟩ := hl.sqrt _ h0
          simp only [rep, radiusBound]
          rw [mul_self_le_mul_self_iff s1 hr.le, s2]
      · have hs1 : includeSelf = false := by
          by_contra h; exact hs (.inl (by simpa using h))
        have hs2 : j = i := by
          by_contra h; exact hs (.inr h)
        rw [if_pos (by simp [hs1, hs2])]
        simp [hs]
    have hrowmem : ∀ i, i < X.length → epsRow ext eps m includeSelf X r i =
        ((List.range X.length).filter (fun j => decide ((includeSelf = true ∨ j ≠ i) ∧
          rep ext eps m (X.getD i []) (X.getD j []) ≤ r))).map
          (fun j => (i, j, rep ext eps m (X.getD i []) (X.getD j []))) := by
      intro i hi
      unfold epsRow
      simp only
      rw [← List.filterMap_eq_map, List.filterMap_filter]
      apply List.filterMap_congr
      intro j hj
      have hj' : j < X.length := by simpa using hj
      by_cases h : (includeSelf = true ∨ j ≠ i) ∧ rep ext eps m (X.getD i []) (X.getD j []) ≤ r
      · rw [if_pos ((hentry i j hi hj').mpr h), if_pos (by simpa using h), distRow_get _ _ _ _ _ _ _ hj',
          if_neg (by rcases h.1 with h | h <;> simp [h]), reported_coe, finite?_coe]
        rfl
      · rw [if_neg (fun h' => h ((hentry i j hi hj').mp h')), if_neg (by simpa using h)]
    refine ⟨(List.range X.length).flatMap (epsRow ext eps m includeSelf X r), hrun, ?_, ?_⟩
    · rw [List.map_flatMap, List.nodup_flatMap]
      constructor
      · intro i hi
        rw [hrowmem i (by simpa using hi), List.map_map]
        refine List.Nodup.map_on ?_ (List.nodup_range.filter _)
        intro a _ b _ hab
        simpa using hab
      · refine List.Pairwise.imp_of_mem ?_ (List.nodup_range (n := X.length))
        intro a b ha hb hab
        rw [Function.onFun, hrowmem a (by simpa using ha), hrowmem b (by simpa using hb)]
        intro x hxa hxb
        simp only [List.map_map, List.mem_map] at hxa hxb
        obtain ⟨_, _, rfl⟩ := hxa
        obtain ⟨_, _, h⟩ := hxb
        simp only [Function.comp, Prod.mk.injEq] at h
        exact hab h.1.symm
    · intro i j d
      rw [List.mem_flatMap]
      constructor
      · rintro ⟨i', hi', h⟩
        have hi'' : i' < X.length := by simpa using hi'
        rw [hrowmem i' hi''] at h
        obtain ⟨j', hj', h⟩ := List.mem_map.mp h
        simp only [Prod.mk.injEq] at h
        obtain ⟨rfl, rfl, rfl⟩ := h
        rw [List.mem_filter] at hj'
        have h1 : j' < X.length := by simpa using hj'.1
        have h2 := of_decide_eq_true hj'.2
        exact ⟨hi'', h1, h2.1, (dist_iff hl m (hdim i' j' hi'' h1) _).mpr rfl, h2.2⟩
      · rintro ⟨hi, hj, hs, hd, hle⟩
        refine ⟨i, by simpa using hi, ?_⟩
        rw [hrowmem i hi]
        have := (dist_iff hl m (hdim i j hi hj) d).mp hd
        refine List.mem_map.mpr ⟨j, ?_, by rw [this]⟩
        rw [List.mem_filter]
        exact ⟨by simpa using hj, decide_eq_true ⟨hs, by rw [← this]; exact hle⟩⟩

/-- On the line: `n = 4`, `k = 2`; ties and a duplicate point included (the square root is only
evaluated on the squares 0, 1, 4, 9). -/
def demoSqrt (x : Rat) : Rat := if x = 9 then 3 else if x = 4 then 2 else x

example : (knnEdges (stableExt demoSqrt) (1/1000) [[0], [1], [1], [3]] 2 .euclidean false 3 none false).map
    (·.2) = .ok [(0, 1, 1), (0, 2, 1), (1, 2, 0), (1, 0, 1), (2, 1, 0), (2, 0, 1), (3, 1, 2), (3, 2, 2)] := by
  decide +kernel

example : (epsEdges (stableExt demoSqrt) (1/1000) [[0], [1], [1], [3]] 2 .euclidean false 3 none false).map
    (·.2) = .ok [(0, 1, 1), (0, 2, 1), (1, 0, 1), (1, 2, 0), (1, 3, 2), (2, 0, 1), (2, 1, 0), (2, 3, 2),
      (3, 1, 2), (3, 2, 2)] := by
  decide +kernel

end ModSSC.Graph
