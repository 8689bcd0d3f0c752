import Verif.Graph.BuildModel
import Verif.Graph.CacheProps

/-!
# Cached graph construction is transparent: property C73
-/

namespace ModSSC.Graph
open ModSSC Spec

/-- The cache directories that any number of calls can leave behind: calls with any inputs in `U`,
shard sizes and resume flags, each finished or killed after any number of its file operations. -/
inductive BuildHistory (B : BuildEnv) (listing : Entry → List FName) (U : BuildInput → Prop) :
    GraphStore → Prop where
  | empty : BuildHistory B listing U []
  | call {s : GraphStore} (i : BuildInput) (hi : U i) {shardSize : Option Int} (hs : SizeOk shardSize)
      (resume : Bool) (killedAfter : Nat) : BuildHistory B listing U s →
      BuildHistory B listing U (Assoc.set s (B.fp i) (runOps (entryOf s (B.fp i))
        ((B.cached listing shardSize resume (entryOf s (B.fp i)) i).1.take killedAfter)))

theorem mkArtifact_wf {n : Nat} {ei : List Edge} {ew : Option (List Rat)} {d : Bool} {g : GraphArtifact}
    (h : mkArtifact n ei ew d = .ok g) : WellFormed g := by
  unfold mkArtifact at h
  split at h
  · simp at h
  · rename_i hv
    have hv' : ValidEdges n ei := by
      intro e he
      by_contra hcon
      apply hv
      rw [List.any_eq_true]
      exact ⟨e, he, decide_eq_true (by omega)⟩
    split at h
    · simp only [Except.ok.injEq] at h
      subst h
      exact ⟨hv', by simp⟩
    · split at h
      · simp at h
      · rename_i w hw
        simp only [Except.ok.injEq] at h
        subst h
        refine ⟨hv', ?_⟩
        intro w' h'
        simp only [Option.some.injEq] at h'
        rw [← h']
        simpa using hw

theorem postProcess_wf {exp sqrt : Rat → Rat} {eps : Rat} {s : PostSpec} {n : Nat} {ei : List Edge}
    {dist : List Rat} {g : GraphArtifact} (h : postProcess exp sqrt eps s n ei dist = .ok g) :
    WellFormed g := by
  unfold postProcess at h
  simp only [ebind_ok] at h
  obtain ⟨w, -, g1, -, g2, -, ew, -, h⟩ := h
  exact mkArtifact_wf h

variable {B : BuildEnv} {listing : Entry → List FName}

/-- Chunk files of an entry are those of the input. -/
def ChunksOk (B : BuildEnv) (i : BuildInput) (e : Entry) : Prop :=
  ∀ c x, Assoc.get e (.chunk c) = some x → ∃ q, B.query i = some q ∧
    x = .chunk (chunkRows (q.row B.ext B.eps) c)

/-- The invariant of an entry. -/
def EntryOk (B : BuildEnv) (i : BuildInput) (e : Entry) : Prop :=
  ChunksOk B i e ∧ (entryExists e = true → ∃ g, B.plain i = .ok g ∧ loadEntry e = .ok g)

theorem workOf_get {e : Entry} {c : Nat × Nat} {edges : List (DEdge Rat)}
    (h : Assoc.get (workOf e) c = some edges)
    (hc : ∀ x, Assoc.get e (.chunk c) = some x → ∃ l, x = .chunk l) :
    Assoc.get e (.chunk c) = some (.chunk edges) := by
  induction e with
  | nil => simp [workOf] at h
  | cons p e ih =>
    rw [Assoc.get_cons]
    by_cases hp : p.1 = .chunk c
    · rw [if_pos hp]
      obtain ⟨l, hl⟩ := hc p.2 (by rw [Assoc.get_cons, if_pos hp])
      have : workOf (p :: e) = (c, l) :: workOf e := by
        simp [workOf, hp, hl]
      rw [this, Assoc.get_cons, if_pos rfl] at h
      simp only [Option.some.injEq] at h
      rw [hl, h]
    · rw [if_neg hp]
      apply ih
      · unfold workOf at h
        rw [List.filterMap_cons] at h
        split at h
        · exact h
        · rename_i b hb
          rw [Assoc.get_cons] at h
          split at h
          · rename_i hbc
            exfalso
            split at hb
            · rename_i c' edges' h1 h2
              simp only [Option.some.injEq] at hb
              rw [← hb] at hbc
              simp only at hbc
              rw [hbc] at h1
              exact hp h1
            · simp at hb
          · exact h
      · intro x hx
        exact hc x (by rw [Assoc.get_cons, if_neg hp]; exact hx)

theorem work_filesOk {i : BuildInput} {e : Entry} (h : ChunksOk B i e) {q : Query Rat}
    (hq : B.query i = some q) : FilesOk (q.row B.ext B.eps) (workOf e) := by
  intro c part hg
  have := workOf_get hg (fun x hx => by obtain ⟨q', -, rfl⟩ := h c x hx; exact ⟨_, rfl⟩)
  obtain ⟨q', hq', hx⟩ := h c _ this
  rw [hq] at hq'
  cases hq'
  simpa using hx

/-- The edges do not depend on the work directory. -/
theorem raw_edges {i : BuildInput} (hc : 0 < i.chunkSize) {e : Entry} (h : ChunksOk B i e)
    (resume : Bool) :
    (B.raw i (if resume then some (workOf e) else none) resume).map (·.2)
      = (B.raw i none false).map (·.2) := by
  unfold BuildEnv.raw
  cases hq : B.query i with
  | none => rfl
  | some q =>
    simp only
    rw [run_edges hc (wd := none) (fun d h' => by cases h')]
    cases resume with
    | false =>
      simp only [Bool.false_eq_true, if_false]
      rw [run_edges hc (wd := none) (fun d h' => by cases h')]
    | true =>
      simp only [if_true]
      rw [run_edges hc (wd := some (workOf e)) (fun d h' => by
        simp only [Option.some.injEq] at h'
        rw [← h']; exact work_filesOk h hq)]

theorem raw_saves {i : BuildInput} {e : Entry} (h : ChunksOk B i e) {resume : Bool}
    {r : WorkDir (DEdge Rat) × List (DEdge Rat)}
    (hr : B.raw i (if resume then some (workOf e) else none) resume = .ok r) :
    ∀ s ∈ r.1, ∃ q, B.query i = some q ∧ s.2 = chunkRows (q.row B.ext B.eps) s.1 := by
  unfold BuildEnv.raw at hr
  cases hq : B.query i with
  | none =>
    rw [hq] at hr
    cases ho : B.other i with
    | error err => simp [ho, Except.map] at hr
    | ok es =>
      simp only [ho, Except.map, Except.ok.injEq] at hr
      rw [← hr]; simp
  | some q =>
    rw [hq] at hr
    simp only at hr
    intro s hs
    refine ⟨q, rfl, ?_⟩
    cases resume with
    | true =>
      exact run_saves (d := workOf e) (saves := r.1) (edges := r.2) (by simpa using hr)
        (work_filesOk h hq) s hs
    | false =>
      exfalso
      -- without a work directory nothing is saved
      have hnone : ∀ (row : Nat → List (DEdge Rat)) (cs : List (Nat × Nat)),
          (runChunks row false none cs).1 = [] := by
        intro row cs
        induction cs with
        | nil => rfl
        | cons c cs ih => simp [runChunks, ih]
      simp only [Bool.false_eq_true, if_false] at hr
      rw [Query.run_eq] at hr
      cases ht : q.trivial with
      | some r' =>
        rw [ht] at hr
        rcases trivial_ok ht with rfl | rfl
        · simp only [Option.getD_some, Except.ok.injEq] at hr
          rw [← hr] at hs; simp at hs
        · simp at hr
      | none =>
        rw [ht] at hr
        cases ha : allChunks q.n i.chunkSize with
        | error err => rw [ha] at hr; simp [Except.map] at hr
        | ok cs =>
          rw [ha] at hr
          simp only [Option.getD_none, Except.map, Except.ok.injEq] at hr
          rw [← hr, hnone] at hs
          simp at hs

theorem chunksOk_chunkOps {i : BuildInput} {e : Entry} (h : ChunksOk B i e)
    {saves : WorkDir (DEdge Rat)}
    (hs : ∀ s ∈ saves, ∃ q, B.query i = some q ∧ s.2 = chunkRows (q.row B.ext B.eps) s.1) :
    ChunksOk B i (runOps e (chunkOps saves)) := by
  induction saves generalizing e with
  | nil => exact h
  | cons s saves ih =>
    refine ih ?_ (fun x hx => hs x (List.mem_cons_of_mem _ hx))
    intro c x hx
    have hx : Assoc.get (Assoc.set e (.chunk s.1) (.chunk s.2)) (.chunk c) = some x := hx
    rw [Assoc.get_set] at hx
    split at hx
    · rename_i hc
      simp only [FName.chunk.injEq] at hc
      simp only [Option.some.injEq] at hx
      obtain ⟨q, hq, hq'⟩ := hs s (by simp)
      exact ⟨q, hq, by rw [← hx, hq', hc]⟩
    · exact h c x hx

/-- No operation of a save creates a chunk file. -/
theorem chunksOk_save {i : BuildInput} {e : Entry} (h : ChunksOk B i e) (s : Option Int)
    (g : GraphArtifact) (m : Nat) (e' : Entry) :
    ChunksOk B i (runOps e ((saveOps listing s e' g true).take m)) := by
  have key : ∀ ops : List FOp, (∀ o ∈ ops, ∀ c x, o ≠ .put (.chunk c) x) → ∀ e : Entry,
      ChunksOk B i e → ChunksOk B i (runOps e ops) := by
    intro ops hops
    induction ops with
    | nil => intro e h; exact h
    | cons o ops ih =>
      intro e h
      refine ih (fun o' ho' => hops o' (List.mem_cons_of_mem _ ho')) _ ?_
      intro c x hx
      cases o with
      | unlink f =>
        have hx : Assoc.get (Assoc.erase e f) (.chunk c) = some x := hx
        rw [Assoc.get_erase] at hx
        split at hx
        · simp at hx
        · exact h c x hx
      | put f y =>
        have hx : Assoc.get (Assoc.set e f y) (.chunk c) = some x := hx
        rw [Assoc.get_set, if_neg] at hx
        · exact h c x hx
        · rintro rfl
          exact hops (.put (.chunk c) y) (by simp) c y rfl
  apply key _ _ _ h
  intro o ho c x hcon
  have ho := List.mem_of_mem_take ho
  unfold saveOps at ho
  rcases List.mem_append.mp ho with h | h
  · rcases List.mem_append.mp h with h | h
    · simp only [if_true, clearOps, List.mem_map] at h
      obtain ⟨f, -, rfl⟩ := h
      simp at hcon
    · unfold edgeOps at h
      split at h
      · obtain ⟨j, -, h⟩ := List.mem_flatMap.mp h
        simp only [writeOps, List.mem_cons, List.not_mem_nil, or_false] at h
        rcases h with rfl | rfl <;> simp at hcon
      · rcases List.mem_append.mp h with h | h
        · simp only [writeOps, List.mem_cons, List.not_mem_nil, or_false] at h
          rcases h with rfl | rfl <;> simp at hcon
        · split at h
          · simp only [writeOps, List.mem_cons, List.not_mem_nil, or_false] at h
            rcases h with rfl | rfl <;> simp at hcon
          · simp at h
  · simp only [List.mem_singleton] at h
    rw [h] at hcon
    simp at hcon

theorem exists_false_iff {e : Entry} : entryExists e = false ↔ Assoc.get e .manifest = none := by
  rw [Assoc.get_eq_none_iff, ← Assoc.has_iff]
  unfold entryExists
  simp

theorem chunkOps_manifest (saves : WorkDir (DEdge Rat)) (m : Nat) (e : Entry) :
    Assoc.get (runOps e ((chunkOps saves).take m)) .manifest = Assoc.get e .manifest := by
  apply get_untouched (S := fun f => f ≠ .manifest)
  · intro o ho
    obtain ⟨s, -, rfl⟩ := List.mem_map.mp (List.mem_of_mem_take ho)
    simp
  · simp

/-- One call, killed anywhere, keeps the invariant of its entry. -/
theorem entryOk_call (hl : ∀ e : Entry, ∀ f ∈ Assoc.keys e, f ∈ listing e) {i : BuildInput}
    (hv : B.validate i = .ok () → 0 < i.chunkSize) {s : Option Int} (hs : SizeOk s) (resume : Bool)
    {e : Entry} (h : EntryOk B i e) (m : Nat) :
    EntryOk B i (runOps e ((B.cached listing s resume e i).1.take m)) := by
  have hnil : EntryOk B i (runOps e (([] : List FOp).take m)) := by simpa [runOps] using h
  unfold BuildEnv.cached
  cases hval : B.validate i with
  | error err => exact hnil
  | ok u =>
    simp only
    by_cases hex : entryExists e = true
    · rw [if_pos hex]; exact hnil
    · rw [if_neg hex]
      have hex' : entryExists e = false := by simpa using hex
      have hnoman := exists_false_iff.mp hex'
      cases hraw : B.raw i (if resume then some (workOf e) else none) resume with
      | error err => exact hnil
      | ok r =>
        simp only
        have hsv := raw_saves h.1 hraw
        have hchunk : ∀ m, EntryOk B i (runOps e ((chunkOps r.1).take m)) := by
          intro m
          constructor
          · have : (chunkOps r.1).take m = chunkOps (r.1.take m) := by simp [chunkOps, List.map_take]
            rw [this]
            exact chunksOk_chunkOps h.1 (fun s hs => hsv s (List.mem_of_mem_take hs))
          · intro hcon
            exfalso
            have : entryExists (runOps e ((chunkOps r.1).take m)) = false := by
              rw [exists_false_iff, chunkOps_manifest, hnoman]
            rw [this] at hcon
            simp at hcon
        cases hfin : B.finish i r.2 with
        | error err => exact hchunk m
        | ok g =>
          simp only
          have hplain : B.plain i = .ok g := by
            unfold BuildEnv.plain
            rw [hval]
            have := raw_edges (B := B) (hv (by rw [hval])) h.1 resume
            rw [hraw] at this
            cases hp : B.raw i none false with
            | error err => rw [hp] at this; simp [Except.map] at this
            | ok r' =>
              rw [hp] at this
              simp only [Except.map, Except.ok.injEq] at this
              simp only
              rw [← this, hfin]
          rw [List.take_append, runOps_append]
          by_cases hm : m < (chunkOps r.1).length
          · have : m - (chunkOps r.1).length = 0 := by omega
            rw [this]
            exact hchunk m
          · rw [List.take_of_length_le (by omega)]
            have hfull := hchunk (chunkOps r.1).length
            rw [List.take_length] at hfull
            constructor
            · exact chunksOk_save hfull.1 _ _ _ _
            · intro hcon
              have hno : entryExists (runOps e (chunkOps r.1)) = false := by
                have := chunkOps_manifest r.1 (chunkOps r.1).length e
                rw [List.take_length] at this
                rw [exists_false_iff, this, hnoman]
              rcases C45_new_entry hs (postProcess_wf hfin) (runOps e (chunkOps r.1)) (hl _) hno
                (m - (chunkOps r.1).length) with h1 | h1
              · rw [h1] at hcon; simp at hcon
              · exact ⟨g, hplain, h1⟩

/-- The invariant of the cache directory. -/
theorem history_entries (hl : ∀ e : Entry, ∀ f ∈ Assoc.keys e, f ∈ listing e)
    (hv : ∀ i, B.validate i = .ok () → 0 < i.chunkSize) {U : BuildInput → Prop}
    (hfp : ∀ i j, U i → U j → B.fp i = B.fp j → i = j)
    {s : GraphStore} (h : BuildHistory B listing U s) (i : BuildInput) (hi : U i) :
    EntryOk B i (entryOf s (B.fp i)) := by
  induction h with
  | empty =>
    constructor
    · intro c x hx; simp [entryOf] at hx
    · intro hx; simp [entryOf, entryExists, Assoc.has] at hx
  | call j hj hs resume m _ ih =>
    unfold entryOf
    rw [Assoc.get_set]
    by_cases hij : B.fp i = B.fp j
    · have := hfp _ _ hi hj hij
      subst this
      rw [if_pos rfl]
      exact entryOk_call hl (hv i) hs resume ih m
    · rw [if_neg hij]
      exact ih

/-- **C73 (the searches).**  A graph built with the numpy backend is made of the edges that `knn_edges_numpy` or
`epsilon_edges_numpy` finds for the features, metric and `k` or radius of the request (`C42_knn`, `C42_epsilon` say
which), without self-edges. -/
theorem C73_edges (i : BuildInput) (hval : B.validate i = .ok ()) (hn : B.usesNumpy i = true) :
    (∀ k, i.scheme = .knn k →
      B.plain i = ((knnEdges B.ext B.eps i.X k i.metric false i.chunkSize none false).map (·.2)).bind (B.finish i)) ∧
    (∀ r, i.scheme = .epsilon r →
      B.plain i = ((epsEdges B.ext B.eps i.X r i.metric false i.chunkSize none false).map (·.2)).bind (B.finish i)) := by
  constructor
  · intro k hk
    unfold BuildEnv.plain BuildEnv.raw BuildEnv.query
    rw [hval, hn, hk]
    simp only [if_true, Query.run]
    cases knnEdges B.ext B.eps i.X k i.metric false i.chunkSize none false <;> rfl
  · intro k hk
    unfold BuildEnv.plain BuildEnv.raw BuildEnv.query
    rw [hval, hn, hk]
    simp only [if_true, Query.run]
    cases epsEdges B.ext B.eps i.X k i.metric false i.chunkSize none false <;> rfl

/-- A call on an entry that keeps the invariant. -/
theorem cached_plain {i : BuildInput} (hv : B.validate i = .ok () → 0 < i.chunkSize) {e : Entry} (hok : EntryOk B i e)
    (shardSize : Option Int) (resume : Bool) : (B.cached listing shardSize resume e i).2 = B.plain i := by
  unfold BuildEnv.cached
  cases hval : B.validate i with
  | error err => simp only [BuildEnv.plain, hval]
  | ok u =>
    simp only
    by_cases hex : entryExists e = true
    · rw [if_pos hex]
      obtain ⟨g, h1, h2⟩ := hok.2 hex
      rw [h1, h2]
    · rw [if_neg hex]
      have := raw_edges (B := B) (hv (by rw [hval])) hok.1 resume
      unfold BuildEnv.plain
      rw [hval]
      cases hraw : B.raw i (if resume then some (workOf e) else none) resume with
      | error err =>
        rw [hraw] at this
        cases hp : B.raw i none false with
        | error err' => rw [hp] at this; simp only [Except.map, Except.error.injEq] at this; rw [this]
        | ok r => rw [hp] at this; simp [Except.map] at this
      | ok r =>
        rw [hraw] at this
        cases hp : B.raw i none false with
        | error err' => rw [hp] at this; simp [Except.map] at this
        | ok r' =>
          rw [hp] at this
          simp only [Except.map, Except.ok.injEq] at this
          simp only [← this]
          cases hfin : B.finish i r.2 <;> rfl

/-- **C73.**  Whatever calls were made before with the cache directory -- any inputs, shard sizes and
resume flags, each finished or killed at any file operation -- `build_graph` with the cache returns
or raises exactly what it does without, if the inputs in use (`U`) have different fingerprints and
the specs that are accepted have a positive chunk size. -/
theorem C73_transparent (hl : ∀ e : Entry, ∀ f ∈ Assoc.keys e, f ∈ listing e)
    (hv : ∀ i, B.validate i = .ok () → 0 < i.chunkSize) {U : BuildInput → Prop}
    (hfp : ∀ i j, U i → U j → B.fp i = B.fp j → i = j)
    {s : GraphStore} (h : BuildHistory B listing U s) (i : BuildInput) (hi : U i)
    (shardSize : Option Int)
    (resume : Bool) :
    (B.cached listing shardSize resume (entryOf s (B.fp i)) i).2 = B.plain i := by
  exact cached_plain (hv i) (history_entries hl hv hfp h i hi) shardSize resume

/-! ## A concrete cache -/

/-- An environment: binary weights, numpy backend. -/
def demoEnv : BuildEnv :=
  ⟨stableExt demoSqrt, 1/1000, fun x => x, 1/1000,
   fun i => if i.chunkSize ≤ 0 then .error .validation else .ok (), fun _ => true,
   fun _ => .error .validation, fun i => if i.seed = 0 then "a" else "b"⟩

/-- Three points on a line, nearest neighbour, made symmetric. -/
def demoInput : BuildInput :=
  ⟨[[0], [1], [3]], .knn 1, .euclidean, 2, ⟨"binary", none, "euclidean", "or", true, "none"⟩, 0⟩

/-- The same with two neighbours and another seed. -/
def demoInput2 : BuildInput :=
  ⟨[[0], [1], [3]], .knn 2, .euclidean, 2, ⟨"binary", none, "euclidean", "none", false, "rw"⟩, 1⟩

/-- The operations of the first call. -/
def demoOps : List FOp := (demoEnv.cached Assoc.keys (some 2) true [] demoInput).1

/-- The store left by a call killed after its first chunk file, then by one killed while writing its
second shard. -/
def demoStore : GraphStore :=
  let s1 := Assoc.set [] "a" (runOps [] (demoOps.take 1))
  Assoc.set s1 "a" (runOps (entryOf s1 "a")
    ((demoEnv.cached Assoc.keys (some 2) true (entryOf s1 "a") demoInput).1.take 6))

example : (∀ i, demoEnv.validate i = .ok () → 0 < i.chunkSize) ∧
    (∀ i j, (i = demoInput ∨ i = demoInput2) → (j = demoInput ∨ j = demoInput2) →
      demoEnv.fp i = demoEnv.fp j → i = j) ∧
    BuildHistory demoEnv Assoc.keys (fun i => i = demoInput ∨ i = demoInput2) demoStore ∧
    Assoc.keys (entryOf demoStore "a") = [.shard 0, .shard 1] ∧
    (demoEnv.cached Assoc.keys none true (entryOf demoStore "a") demoInput).2 = demoEnv.plain demoInput ∧
    demoEnv.plain demoInput = .ok ⟨3, [(0, 1), (1, 2), (1, 0), (2, 1), (0, 0), (1, 1), (2, 2)],
      some [1, 1, 1, 1, 1, 1, 1], false⟩ := by
  refine ⟨?_, ?_, ?_, by decide +kernel, by decide +kernel, by decide +kernel⟩
  · intro i h
    by_contra hc
    have : demoEnv.validate i = .error .validation := if_pos (by omega)
    rw [this] at h
    cases h
  · have hne : demoEnv.fp demoInput ≠ demoEnv.fp demoInput2 := by decide +kernel
    rintro i j (rfl | rfl) (rfl | rfl) h
    · rfl
    · exact absurd h hne
    · exact absurd h.symm hne
    · rfl
  · exact .call demoInput (.inl rfl) (shardSize := some 2) (by intro k hk; cases hk; decide) true 6
      (.call demoInput (.inl rfl) (shardSize := some 2) (by intro k hk; cases hk; decide) true 1 .empty)

/-- **C73 does not extend to concurrent calls**: two processes find no entry and build the same graph;
the first finishes; the second, saving over the entry of the first, is killed after deleting one
file.  Every later call raises, although the uncached call succeeds. -/
theorem C73_concurrent_violated :
    ∃ e : Entry,
      e = runOps (runOps [] demoOps)
        ((saveOps Assoc.keys (some 2) (runOps [] demoOps)
          ⟨3, [(0, 1), (1, 2), (1, 0), (2, 1), (0, 0), (1, 1), (2, 2)], some [1, 1, 1, 1, 1, 1, 1],
            false⟩ true).take 1) ∧
      (demoEnv.cached Assoc.keys (some 2) true e demoInput).2 = .error .cacheError ∧
      ∃ g, demoEnv.plain demoInput = .ok g :=
  ⟨_, rfl, by decide +kernel,
    ⟨3, [(0, 1), (1, 2), (1, 0), (2, 1), (0, 0), (1, 1), (2, 2)], some [1, 1, 1, 1, 1, 1, 1], false⟩,
    by decide +kernel⟩

end ModSSC.Graph
