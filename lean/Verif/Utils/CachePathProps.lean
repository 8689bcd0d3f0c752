import Verif.Utils.CachePathModel
import Mathlib.Data.List.Basic

/-!
# C195: caches are kept where the environment says
-/

namespace ModSSC.CachePath
open ModSSC ModSSC.Bench

/-! ## Specification -/

/-- The variable has a value that is not empty. -/
def IsSet (env : Environ) (name : String) (v : List Char) : Prop := v ≠ [] ∧ Assoc.get env name.toList = some v

/-- The variable is missing or empty. -/
def Unset (env : Environ) (name : String) : Prop := Assoc.get env name.toList = none ∨ Assoc.get env name.toList = some []

/-- The directory the search starts in: that of the file if the start is a file. -/
def StartDir (m : Machine) (p d : Path) : Prop := (m.isFile p = false ∧ d = p) ∨ (m.isFile p = true ∧ d = p.dropLast)

/-- `r` is the closest directory at or above `p` with a `pyproject.toml`. -/
def Repo (m : Machine) (p r : Path) : Prop :=
  ∃ d, StartDir m p d ∧ r <+: d ∧ m.exist (r ++ ["pyproject.toml"]) = true ∧
    ∀ r', r' <+: d → m.exist (r' ++ ["pyproject.toml"]) = true → r'.length ≤ r.length

/-- `c` is the cache directory of the repository `r`: `modssc_cache` if that is there, else `cache`. -/
def RepoCache (m : Machine) (r c : Path) : Prop :=
  (m.exist (r ++ ["modssc_cache"]) = true ∧ c = r ++ ["modssc_cache"]) ∨
    (m.exist (r ++ ["modssc_cache"]) = false ∧ c = r ++ ["cache"])

/-- Where the caches are kept together: the root variable, else the repository of the working directory, else the user's cache. -/
inductive Base (m : Machine) (env : Environ) : Path → Prop
  | root {r : List Char} : IsSet env "MODSSC_CACHE_ROOT" r → Base m env (m.norm r)
  | repo {r c : Path} : Unset env "MODSSC_CACHE_ROOT" → Repo m m.cwd r → RepoCache m r c → Base m env c
  | user : Unset env "MODSSC_CACHE_ROOT" → (∀ r, ¬ Repo m m.cwd r) → Base m env m.userCache

/-! ## Helper lemmas -/

theorem truthy_some {env : Environ} {n : String} {v : List Char} : envTruthy env n = some v ↔ IsSet env n v := by
  unfold envTruthy IsSet
  rcases h : Assoc.get env n.toList with _ | w
  · simp
  · rcases w with _ | ⟨c, cs⟩
    · simp only [reduceCtorEq, Option.some.injEq, false_iff, not_and]
      exact fun h1 h2 => h1 h2.symm
    · simp only [Option.some.injEq]
      exact ⟨fun h => ⟨h ▸ List.cons_ne_nil _ _, h⟩, fun h => h.2⟩

theorem truthy_none {env : Environ} {n : String} : envTruthy env n = none ↔ Unset env n := by
  unfold envTruthy Unset
  rcases h : Assoc.get env n.toList with _ | w
  · simp
  · rcases w with _ | ⟨c, cs⟩ <;> simp

theorem mem_upwards {p d : Path} : d ∈ upwards p ↔ d <+: p := by
  unfold upwards
  rw [List.mem_map]
  constructor
  · rintro ⟨i, -, rfl⟩; exact List.take_prefix _ _
  · intro h
    have hl := h.length_le
    refine ⟨p.length - d.length, List.mem_range.mpr (by omega), ?_⟩
    rw [show p.length - (p.length - d.length) = d.length by omega]
    exact (List.prefix_iff_eq_take.mp h).symm

/-- Paths further up come later (helper). -/
theorem upwards_sorted (p : Path) : (upwards p).Pairwise fun a b => b.length ≤ a.length := by
  unfold upwards
  rw [List.pairwise_map]
  refine List.Pairwise.imp ?_ List.pairwise_lt_range
  intro a b h
  rw [List.length_take, List.length_take]
  omega

theorem find_upwards {p r : Path} {f : Path → Bool} :
    (upwards p).find? f = some r ↔ r <+: p ∧ f r = true ∧ ∀ r', r' <+: p → f r' = true → r'.length ≤ r.length := by
  constructor
  · intro h
    refine ⟨mem_upwards.mp (List.mem_of_find?_eq_some h), List.find?_some h, ?_⟩
    intro r' hp hf
    obtain ⟨as, bs, e, hn⟩ := (List.find?_eq_some_iff_append.mp h).2
    have hs := upwards_sorted p
    have hm := mem_upwards.mpr hp
    rw [e] at hs hm
    rcases List.mem_append.mp hm with h1 | h1
    · have := hn r' h1; simp [hf] at this
    · rcases List.mem_cons.mp h1 with h2 | h2
      · rw [h2]
      · exact (List.pairwise_cons.mp (List.pairwise_append.mp hs).2.1).1 r' h2
  · rintro ⟨hp, hf, hmax⟩
    rcases hfd : (upwards p).find? f with _ | q
    · exact absurd hf (by simpa using List.find?_eq_none.mp hfd r (mem_upwards.mpr hp))
    · have hq : q <+: p := mem_upwards.mp (List.mem_of_find?_eq_some hfd)
      obtain ⟨as, bs, e, hn⟩ := (List.find?_eq_some_iff_append.mp hfd).2
      have hs := upwards_sorted p
      have hm := mem_upwards.mpr hp
      rw [e] at hs hm
      have h1 : r.length ≤ q.length := by
        rcases List.mem_append.mp hm with h1 | h1
        · have := hn r h1; simp [hf] at this
        · rcases List.mem_cons.mp h1 with h2 | h2
          · rw [h2]
          · exact (List.pairwise_cons.mp (List.pairwise_append.mp hs).2.1).1 r h2
      have h2 : q.length ≤ r.length := hmax q hq (List.find?_some hfd)
      have : r <+: q := List.prefix_of_prefix_length_le hp hq h1
      rw [this.eq_of_length (by omega)]

theorem findRepo_some {m : Machine} {start : Option Path} {r : Path} :
    findRepoRoot m start = some r ↔ Repo m (start.getD m.cwd) r := by
  unfold findRepoRoot Repo StartDir
  dsimp only
  rw [find_upwards]
  rcases hf : m.isFile (start.getD m.cwd) with _ | _
  · constructor
    · exact fun h => ⟨_, Or.inl ⟨rfl, rfl⟩, h⟩
    · rintro ⟨d, hd | hd, h⟩
      · rw [hd.2] at h; exact h
      · exact absurd hd.1 (by simp)
  · constructor
    · exact fun h => ⟨_, Or.inr ⟨rfl, rfl⟩, h⟩
    · rintro ⟨d, hd | hd, h⟩
      · exact absurd hd.1 (by simp)
      · rw [hd.2] at h; exact h

theorem findRepo_none {m : Machine} {start : Option Path} :
    findRepoRoot m start = none ↔ ∀ r, ¬ Repo m (start.getD m.cwd) r := by
  rw [Option.eq_none_iff_forall_not_mem]
  exact forall_congr' fun r => not_congr findRepo_some

theorem localRoot_some {m : Machine} {start : Option Path} {c : Path} :
    localCacheRoot m start = some c ↔ ∃ r, Repo m (start.getD m.cwd) r ∧ RepoCache m r c := by
  unfold localCacheRoot RepoCache
  rcases hr : findRepoRoot m start with _ | r
  · simp only [reduceCtorEq, false_iff, not_exists, not_and]
    exact fun r h => absurd h (findRepo_none.mp hr r)
  · dsimp only
    have h0 := findRepo_some.mp hr
    have huniq : ∀ r', Repo m (start.getD m.cwd) r' → r' = r := fun r' h' => by
      have := findRepo_some.mpr h'
      rw [hr] at this
      exact (Option.some.inj this).symm
    rcases he : m.exist (r ++ ["modssc_cache"]) with _ | _
    · rw [if_neg (by simp)]
      constructor
      · intro h; exact ⟨r, h0, Or.inr ⟨he, (Option.some.inj h).symm⟩⟩
      · rintro ⟨r', h', h'' | h''⟩
        · rw [huniq r' h'] at h''; exact absurd h''.1 (by simp [he])
        · rw [huniq r' h'] at h''; rw [h''.2]
    · rw [if_pos rfl]
      constructor
      · intro h; exact ⟨r, h0, Or.inl ⟨he, (Option.some.inj h).symm⟩⟩
      · rintro ⟨r', h', h'' | h''⟩
        · rw [huniq r' h'] at h''; rw [h''.2]
        · rw [huniq r' h'] at h''; exact absurd h''.1 (by simp [he])

theorem localRoot_none {m : Machine} {start : Option Path} :
    localCacheRoot m start = none ↔ ∀ r, ¬ Repo m (start.getD m.cwd) r := by
  rw [← findRepo_none]
  unfold localCacheRoot
  rcases findRepoRoot m start with _ | r
  · simp
  · dsimp only; split_ifs <;> simp

/-- The common part of the directory functions (helper). -/
theorem base_of_chain {m : Machine} {env : Environ} {sub : String} {b : Path} (h : Base m env b) :
    (match envTruthy env "MODSSC_CACHE_ROOT" with
      | some r => m.norm r ++ [sub]
      | none => (localCacheSubdir m none sub).getD (m.userCache ++ [sub])) = b ++ [sub] := by
  cases h with
  | root h => rw [truthy_some.mpr h]
  | repo h1 h2 h3 =>
    rw [truthy_none.mpr h1]
    dsimp only
    unfold localCacheSubdir
    rw [localRoot_some.mpr ⟨_, h2, h3⟩]; rfl
  | user h1 h2 =>
    rw [truthy_none.mpr h1]
    dsimp only
    unfold localCacheSubdir
    rw [localRoot_none.mpr h2]; rfl

/-! ## C195 -/

/-- C195: the repository of a place is the closest directory at or above it that holds a `pyproject.toml`; there is none only if no
directory above does. -/
theorem C195_repository (m : Machine) (p : Path) :
    (∀ r, findRepoRoot m (some p) = some r ↔ Repo m p r) ∧ (findRepoRoot m (some p) = none ↔ ∀ r, ¬ Repo m p r) ∧
      findRepoRoot m none = findRepoRoot m (some m.cwd) :=
  ⟨fun _ => findRepo_some, findRepo_none, rfl⟩

/-- C195: every machine and environment has exactly one base directory. -/
theorem C195_base (m : Machine) (env : Environ) : ∃ b, Base m env b ∧ ∀ b', Base m env b' → b' = b := by
  have hex : ∃ b, Base m env b := by
    rcases h : envTruthy env "MODSSC_CACHE_ROOT" with _ | r
    · rcases hl : localCacheRoot m none with _ | c
      · exact ⟨_, .user (truthy_none.mp h) (localRoot_none.mp hl)⟩
      · obtain ⟨r, h1, h2⟩ := localRoot_some.mp hl
        exact ⟨_, .repo (truthy_none.mp h) h1 h2⟩
    · exact ⟨_, .root (truthy_some.mp h)⟩
  obtain ⟨b, hb⟩ := hex
  refine ⟨b, hb, fun b' hb' => ?_⟩
  have h1 := base_of_chain (sub := "x") hb
  have h2 := base_of_chain (sub := "x") hb'
  exact List.append_cancel_right (h2.symm.trans h1)

/-- C195: a directory named by its own variable is used as named, whatever else is set. -/
theorem C195_own (m : Machine) (env : Environ) (v : List Char) :
    (IsSet env "MODSSC_CACHE_DIR" v → datasetsDir m env = m.norm v) ∧
      (IsSet env "MODSSC_PREPROCESS_CACHE_DIR" v → preprocessDir m env = m.norm v) ∧
      (IsSet env "MODSSC_SPLIT_CACHE_DIR" v → splitsDir m env = m.norm v) ∧
      (IsSet env "MODSSC_GRAPH_CACHE_DIR" v → graphsDir m env = m.norm v) ∧
      (IsSet env "MODSSC_GRAPH_VIEWS_CACHE_DIR" v → viewsDir m env = m.norm v) := by
  refine ⟨fun h => ?_, fun h => ?_, fun h => ?_, fun h => ?_, fun h => ?_⟩
  · unfold datasetsDir; rw [truthy_some.mpr h]
  · unfold preprocessDir; rw [truthy_some.mpr h]
  · unfold splitsDir; rw [truthy_some.mpr h]
  · unfold graphsDir; rw [truthy_some.mpr h]
  · unfold viewsDir; rw [truthy_some.mpr h]

/-- C195: without its own variable each directory is the one of its kind in the base directory; the views of graphs are kept
beside the graphs if the directory of the graphs is named. -/
theorem C195_default (m : Machine) (env : Environ) (b : Path) (hb : Base m env b) :
    (Unset env "MODSSC_CACHE_DIR" → datasetsDir m env = b ++ ["datasets"]) ∧
      (Unset env "MODSSC_PREPROCESS_CACHE_DIR" → preprocessDir m env = b ++ ["preprocess"]) ∧
      (Unset env "MODSSC_SPLIT_CACHE_DIR" → splitsDir m env = b ++ ["splits"]) ∧
      (Unset env "MODSSC_GRAPH_CACHE_DIR" → graphsDir m env = b ++ ["graphs"]) ∧
      (Unset env "MODSSC_GRAPH_VIEWS_CACHE_DIR" →
        (Unset env "MODSSC_GRAPH_CACHE_DIR" → viewsDir m env = b ++ ["graph_views"]) ∧
        ∀ g, IsSet env "MODSSC_GRAPH_CACHE_DIR" g → viewsDir m env = (m.norm g).dropLast ++ ["graph_views"]) := by
  have hg : Unset env "MODSSC_GRAPH_CACHE_DIR" → graphsDir m env = b ++ ["graphs"] := fun h => by
    unfold graphsDir; rw [truthy_none.mpr h]; exact base_of_chain hb
  refine ⟨fun h => ?_, fun h => ?_, fun h => ?_, hg, fun h => ⟨fun h' => ?_, fun g h' => ?_⟩⟩
  · unfold datasetsDir; rw [truthy_none.mpr h]; exact base_of_chain hb
  · unfold preprocessDir; rw [truthy_none.mpr h]; exact base_of_chain hb
  · unfold splitsDir; rw [truthy_none.mpr h]; exact base_of_chain hb
  · have hg' := hg h'
    unfold viewsDir
    rw [truthy_none.mpr h, truthy_none.mpr h']
    dsimp only
    rw [hg', List.dropLast_concat]
    cases hb with
    | root h => rw [truthy_some.mpr h]
    | repo h1 h2 h3 =>
      rw [truthy_none.mpr h1]
      dsimp only
      unfold localCacheSubdir
      rw [localRoot_some.mpr ⟨_, h2, h3⟩]; rfl
    | user h1 h2 =>
      rw [truthy_none.mpr h1]
      dsimp only
      unfold localCacheSubdir
      rw [localRoot_none.mpr h2]; rfl
  · unfold viewsDir; rw [truthy_none.mpr h, truthy_some.mpr h']

theorem sub_not_prefix {b : Path} {s t : String} (h : s ≠ t) : ¬ (b ++ [s]) <+: (b ++ [t]) := by
  rw [List.prefix_append_right_inj]
  intro h'
  exact h (by simpa using h')

/-- C195: if no directory is named by its own variable, the five caches are in five directories and none lies in another. -/
theorem C195_separate (m : Machine) (env : Environ)
    (h : ∀ n ∈ ["MODSSC_CACHE_DIR", "MODSSC_PREPROCESS_CACHE_DIR", "MODSSC_SPLIT_CACHE_DIR", "MODSSC_GRAPH_CACHE_DIR",
      "MODSSC_GRAPH_VIEWS_CACHE_DIR"], Unset env n) :
    [datasetsDir m env, preprocessDir m env, splitsDir m env, graphsDir m env, viewsDir m env].Pairwise
      fun a b => ¬ a <+: b ∧ ¬ b <+: a := by
  obtain ⟨b, hb, -⟩ := C195_base m env
  obtain ⟨h1, h2, h3, h4, h5⟩ := C195_default m env b hb
  rw [h1 (h _ (by simp)), h2 (h _ (by simp)), h3 (h _ (by simp)), h4 (h _ (by simp)), (h5 (h _ (by simp))).1 (h _ (by simp))]
  have key : ∀ s t : String, s ≠ t → ¬ (b ++ [s]) <+: (b ++ [t]) ∧ ¬ (b ++ [t]) <+: (b ++ [s]) :=
    fun s t hst => ⟨sub_not_prefix hst, sub_not_prefix hst.symm⟩
  simp only [List.pairwise_cons, List.mem_cons, List.not_mem_nil, or_false, forall_eq_or_imp, forall_eq]
  refine ⟨⟨key _ _ (by decide), key _ _ (by decide), key _ _ (by decide), key _ _ (by decide)⟩,
    ⟨key _ _ (by decide), key _ _ (by decide), key _ _ (by decide)⟩, ⟨key _ _ (by decide), key _ _ (by decide)⟩,
    key _ _ (by decide), fun _ h => h.elim, List.Pairwise.nil⟩

/-- C195: two splits are saved in one directory only if both fingerprints agree. -/
theorem C195_split_dirs (m : Machine) (env : Environ) (root : Option Path) (d s d' s' : String) :
    splitDirFor m env root d s = splitDirFor m env root d' s' ↔ d = d' ∧ s = s' := by
  unfold splitDirFor
  rw [List.append_cancel_left_eq]
  simp

/-- C195: a split is saved below the given directory, without one below that of splits. -/
theorem C195_split_root (m : Machine) (env : Environ) (d s : String) :
    (∀ r, splitDirFor m env (some r) d s = r ++ [d, s]) ∧ splitDirFor m env none d s = splitsDir m env ++ [d, s] := ⟨fun _ => rfl, rfl⟩

/-- A machine with a repository in `/w`, whose working directory is `/w/a` (helper for examples). -/
def demo : Machine where
  cwd := ["w", "a"]
  exist := fun p => p == ["w", "pyproject.toml"] || p == ["v", "pyproject.toml"]
  isFile := fun _ => false
  norm := fun v => ["n", String.ofList v]
  userCache := ["home", "modssc"]

example : Base demo [] ["w", "cache"] ∧ viewsDir demo [] = ["w", "cache", "graph_views"] ∧
    datasetsDir demo [("MODSSC_CACHE_ROOT".toList, "r".toList)] = ["n", "r", "datasets"] ∧
    viewsDir demo [("MODSSC_GRAPH_CACHE_DIR".toList, "r".toList)] = ["n", "graph_views"] := by
  refine ⟨?_, by decide +kernel, by decide +kernel, by decide +kernel⟩
  obtain ⟨r, h1, h2⟩ := localRoot_some.mp (show localCacheRoot demo none = some ["w", "cache"] by decide +kernel)
  exact .repo (Or.inl rfl) h1 h2

/-- C195 violated: with the graphs kept in a directory called `graph_views`, the views are kept in the very same directory. -/
theorem C195_views_violated : ∃ (m : Machine) (env : Environ), Unset env "MODSSC_GRAPH_VIEWS_CACHE_DIR" ∧
    viewsDir m env = graphsDir m env :=
  ⟨demo, [("MODSSC_GRAPH_CACHE_DIR".toList, "graph_views".toList)], Or.inl (by decide +kernel), by decide +kernel⟩

/-- C195 (partial): otherwise graphs and their views are kept in different directories, none in the other. -/
theorem C195_views_partial (m : Machine) (env : Environ) (g : List Char) (p : Path) (last : String)
    (hv : Unset env "MODSSC_GRAPH_VIEWS_CACHE_DIR") (hg : IsSet env "MODSSC_GRAPH_CACHE_DIR" g)
    (hp : m.norm g = p ++ [last]) (hl : last ≠ "graph_views") :
    graphsDir m env = p ++ [last] ∧ viewsDir m env = p ++ ["graph_views"] ∧
      ¬ graphsDir m env <+: viewsDir m env ∧ ¬ viewsDir m env <+: graphsDir m env := by
  obtain ⟨b, hb, -⟩ := C195_base m env
  have h1 : graphsDir m env = p ++ [last] := by rw [(C195_own m env g).2.2.2.1 hg, hp]
  have h2 : viewsDir m env = p ++ ["graph_views"] := by
    rw [((C195_default m env b hb).2.2.2.2 hv).2 g hg, hp, List.dropLast_concat]
  refine ⟨h1, h2, ?_, ?_⟩
  · rw [h1, h2]; exact sub_not_prefix hl
  · rw [h1, h2]; exact sub_not_prefix hl.symm

example : IsSet [("MODSSC_GRAPH_CACHE_DIR".toList, "g".toList)] "MODSSC_GRAPH_CACHE_DIR" "g".toList ∧
    demo.norm "g".toList = ["n"] ++ ["g"] := ⟨⟨by decide, by decide +kernel⟩, by decide +kernel⟩

/-! ### The placeholders of the bench -/

theorem render_child (p : Path) (s : String) : childDir (render p) s = render (p ++ [s]) := by
  unfold childDir render
  rw [List.flatMap_append, List.flatMap_singleton]

/-- C195 (partial): a placeholder of a configuration file stands for the directory the library uses, when its variable is missing
and the file lies in the repository of the working directory or the root is named. -/
theorem C195_placeholder_partial (m : Machine) (env : Environ) (configDir b : Path)
    (hb : (∃ r, IsSet env "MODSSC_CACHE_ROOT" r ∧ b = m.norm r) ∨
      (Unset env "MODSSC_CACHE_ROOT" ∧ ∃ r, Repo m m.cwd r ∧ Repo m configDir r ∧ RepoCache m r b)) :
    (Assoc.get env "MODSSC_CACHE_DIR".toList = none →
      resolveVar (benchEnv m configDir) env "MODSSC_CACHE_DIR".toList = some (render (datasetsDir m env))) ∧
    (Assoc.get env "MODSSC_PREPROCESS_CACHE_DIR".toList = none →
      resolveVar (benchEnv m configDir) env "MODSSC_PREPROCESS_CACHE_DIR".toList = some (render (preprocessDir m env))) ∧
    (Assoc.get env "MODSSC_SPLIT_CACHE_DIR".toList = none →
      resolveVar (benchEnv m configDir) env "MODSSC_SPLIT_CACHE_DIR".toList = some (render (splitsDir m env))) ∧
    (Assoc.get env "MODSSC_GRAPH_CACHE_DIR".toList = none →
      resolveVar (benchEnv m configDir) env "MODSSC_GRAPH_CACHE_DIR".toList = some (render (graphsDir m env))) ∧
    (Assoc.get env "MODSSC_GRAPH_VIEWS_CACHE_DIR".toList = none → Unset env "MODSSC_GRAPH_CACHE_DIR" →
      resolveVar (benchEnv m configDir) env "MODSSC_GRAPH_VIEWS_CACHE_DIR".toList = some (render (viewsDir m env))) := by
  have hbase : Base m env b := by
    rcases hb with ⟨r, h, rfl⟩ | ⟨h, r, h1, -, h2⟩
    · exact .root h
    · exact .repo h h1 h2
  have hroot : cacheRoot (benchEnv m configDir) env = some (render b) := by
    unfold cacheRoot
    rcases hb with ⟨r, h, rfl⟩ | ⟨h, r, -, h1, h2⟩
    · rw [truthy_some.mpr h]; rfl
    · rw [truthy_none.mpr h]
      show (localCacheRoot m (some configDir)).map render = _
      rw [localRoot_some.mpr ⟨r, h1, h2⟩]; rfl
  obtain ⟨h1, h2, h3, h4, h5⟩ := C195_default m env b hbase
  have hdef : defaultEnv (benchEnv m configDir) env =
      [("MODSSC_CACHE_ROOT".toList, render b), ("MODSSC_OUTPUT_DIR".toList, childDir (render b) "output"),
     ("MODSSC_DATASET_CACHE_DIR".toList, datasetDir (benchEnv m configDir) env (render b)),
     ("MODSSC_CACHE_DIR".toList, datasetDir (benchEnv m configDir) env (render b)),
     ("MODSSC_PREPROCESS_CACHE_DIR".toList, childDir (render b) "preprocess"),
     ("MODSSC_SPLIT_CACHE_DIR".toList, childDir (render b) "splits"),
     ("MODSSC_GRAPH_CACHE_DIR".toList, childDir (render b) "graphs"),
     ("MODSSC_GRAPH_VIEWS_CACHE_DIR".toList, childDir (render b) "graph_views")] := by
    unfold defaultEnv; rw [hroot]
  refine ⟨fun h => ?_, fun h => ?_, fun h => ?_, fun h => ?_, fun h h' => ?_⟩
  · have hu : Unset env "MODSSC_CACHE_DIR" := Or.inl h
    unfold resolveVar
    rw [h, hdef, h1 hu, ← render_child]
    have : datasetDir (benchEnv m configDir) env (render b) = childDir (render b) "datasets" := by
      unfold datasetDir; rw [truthy_none.mpr hu]
    rw [this]; rfl
  · unfold resolveVar; rw [h, hdef, h2 (Or.inl h), ← render_child]; rfl
  · unfold resolveVar; rw [h, hdef, h3 (Or.inl h), ← render_child]; rfl
  · unfold resolveVar; rw [h, hdef, h4 (Or.inl h), ← render_child]; rfl
  · unfold resolveVar; rw [h, hdef, (h5 (Or.inl h)).1 h', ← render_child]; rfl

example : resolveVar (benchEnv demo ["w", "c"]) [] "MODSSC_SPLIT_CACHE_DIR".toList = some "/w/cache/splits".toList := by
  decide +kernel

/-- C195 violated: with the directory of the graphs named, the placeholder for the views stands for another directory than the one
the library uses. -/
theorem C195_placeholder_views_violated : ∃ (m : Machine) (env : Environ) (configDir p : Path),
    Assoc.get env "MODSSC_GRAPH_VIEWS_CACHE_DIR".toList = none ∧ p ≠ viewsDir m env ∧ (∃ r, Repo m m.cwd r ∧ Repo m configDir r) ∧
      resolveVar (benchEnv m configDir) env "MODSSC_GRAPH_VIEWS_CACHE_DIR".toList = some (render p) :=
  ⟨demo, [("MODSSC_GRAPH_CACHE_DIR".toList, "g".toList)], ["w"], ["w", "cache", "graph_views"], by decide +kernel,
    by decide +kernel,
    ⟨["w"], (findRepo_some (start := none)).mp (by decide +kernel), (findRepo_some (start := some ["w"])).mp (by decide +kernel)⟩,
    by decide +kernel⟩

/-- C195 violated: a placeholder in a configuration file of another repository stands for a directory there, while the library
keeps the cache in the repository of the working directory. -/
theorem C195_placeholder_repo_violated : ∃ (m : Machine) (configDir p : Path), p ≠ preprocessDir m [] ∧
    resolveVar (benchEnv m configDir) [] "MODSSC_PREPROCESS_CACHE_DIR".toList = some (render p) :=
  ⟨demo, ["v"], ["v", "cache", "preprocess"], by decide +kernel, by decide +kernel⟩

/-! ### Models -/

/-- C195: the root for models is named by its variable, else `models` in the named cache root, else there is none. -/
theorem C195_model_root (m : Machine) (env : Environ) :
    (∀ v, IsSet env "MODSSC_MODEL_CACHE_ROOT" v → modelRoot m env = some (m.norm v)) ∧
      (Unset env "MODSSC_MODEL_CACHE_ROOT" →
        (∀ r, IsSet env "MODSSC_CACHE_ROOT" r → modelRoot m env = some (m.norm r ++ ["models"])) ∧
        (Unset env "MODSSC_CACHE_ROOT" → modelRoot m env = none)) := by
  refine ⟨fun v h => ?_, fun h => ⟨fun r h' => ?_, fun h' => ?_⟩⟩
  · unfold modelRoot; rw [truthy_some.mpr h]
  · unfold modelRoot; rw [truthy_none.mpr h, truthy_some.mpr h']; rfl
  · unfold modelRoot; rw [truthy_none.mpr h, truthy_none.mpr h']; rfl

/-- C195: a model library's own variable wins over the root for models. -/
theorem C195_model_own (m : Machine) (env : Environ) (v : List Char) :
    (IsSet env "HF_HOME" v → hfHome m env = some (m.norm v)) ∧
      (IsSet env "SENTENCE_TRANSFORMERS_HOME" v → sentenceTransformersDir m env = some (m.norm v)) ∧
      (IsSet env "MODSSC_OPENCLIP_CACHE_DIR" v → openclipDir m env = some (m.norm v)) ∧
      (Unset env "MODSSC_OPENCLIP_CACHE_DIR" → IsSet env "OPENCLIP_CACHE_DIR" v → openclipDir m env = some (m.norm v)) ∧
      (IsSet env "TORCH_HOME" v → torchHome m env = some (m.norm v)) ∧
      (Unset env "TORCH_HOME" → IsSet env "MODSSC_TORCH_HOME" v → torchHome m env = some (m.norm v)) := by
  refine ⟨fun h => ?_, fun h => ?_, fun h => ?_, fun h h' => ?_, fun h => ?_, fun h h' => ?_⟩
  · unfold hfHome; rw [truthy_some.mpr h]
  · unfold sentenceTransformersDir; rw [truthy_some.mpr h]
  · unfold openclipDir; rw [truthy_some.mpr h]
  · unfold openclipDir; rw [truthy_none.mpr h, truthy_some.mpr h']
  · unfold torchHome; rw [truthy_some.mpr h]
  · unfold torchHome; rw [truthy_none.mpr h, truthy_some.mpr h']

/-- C195: without such variables the models of each library are in a directory of their own below the root for models, and without
a root the library decides (sentence transformers: `TRANSFORMERS_CACHE`). -/
theorem C195_model_default (m : Machine) (env : Environ) :
    (Unset env "HF_HOME" → hfHome m env = (modelRoot m env).map (· ++ ["hf"])) ∧
      (Unset env "SENTENCE_TRANSFORMERS_HOME" →
        (∀ h, hfHome m env = some h → sentenceTransformersDir m env = some (h ++ ["sentence_transformers"])) ∧
        (hfHome m env = none →
          (∀ v, IsSet env "TRANSFORMERS_CACHE" v → sentenceTransformersDir m env = some (m.norm v)) ∧
          (Unset env "TRANSFORMERS_CACHE" → sentenceTransformersDir m env = none))) ∧
      (Unset env "MODSSC_OPENCLIP_CACHE_DIR" → Unset env "OPENCLIP_CACHE_DIR" →
        openclipDir m env = (modelRoot m env).map (· ++ ["open_clip"])) ∧
      (Unset env "TORCH_HOME" → Unset env "MODSSC_TORCH_HOME" → torchHome m env = (modelRoot m env).map (· ++ ["torch"])) ∧
      torchaudioDir m env = (torchHome m env).map (· ++ ["hub", "checkpoints"]) := by
  refine ⟨fun h => ?_, fun h => ⟨fun p hp => ?_, fun hn => ⟨fun v hv => ?_, fun hv => ?_⟩⟩, fun h h' => ?_, fun h h' => ?_, ?_⟩
  · unfold hfHome; rw [truthy_none.mpr h]
  · unfold sentenceTransformersDir; rw [truthy_none.mpr h, hp]
  · unfold sentenceTransformersDir; rw [truthy_none.mpr h, hn, truthy_some.mpr hv]; rfl
  · unfold sentenceTransformersDir; rw [truthy_none.mpr h, hn, truthy_none.mpr hv]; rfl
  · unfold openclipDir; rw [truthy_none.mpr h, truthy_none.mpr h']
  · unfold torchHome; rw [truthy_none.mpr h, truthy_none.mpr h']
  · unfold torchaudioDir ensureTorchHome
    rcases torchHome m env with _ | p <;> rfl

example : torchaudioDir demo [("MODSSC_CACHE_ROOT".toList, "r".toList)] = some ["n", "r", "models", "torch", "hub", "checkpoints"] ∧
    sentenceTransformersDir demo [("MODSSC_CACHE_ROOT".toList, "r".toList)] = some ["n", "r", "models", "hf", "sentence_transformers"] := by
  constructor <;> decide +kernel

theorem setDefault_get (env : Environ) (n v k : List Char) :
    Assoc.get (setDefault env n v) k = if k = n ∧ Assoc.get env n = none then some v else Assoc.get env k := by
  unfold setDefault
  rcases h : Assoc.get env n with _ | w
  · dsimp only
    have happ : ∀ (d : Environ), Assoc.get (d ++ [(n, v)]) k = (Assoc.get d k).or (if n = k then some v else none) := by
      intro d
      induction d with
      | nil => rw [List.nil_append, Assoc.get_cons]; simp
      | cons p d ih =>
        rw [List.cons_append, Assoc.get_cons, Assoc.get_cons, ih]
        split_ifs <;> simp
    rw [happ]
    by_cases hk : k = n
    · subst hk; rw [h, if_pos rfl, if_pos ⟨rfl, rfl⟩]; rfl
    · rw [if_neg (fun e => hk e.symm), if_neg (fun e => hk e.1), Option.or_none]
  · rw [if_neg (by simp)]

/-- C195: telling torch its directory changes only `TORCH_HOME`, and only if it was missing; the directory told is the one used. -/
theorem C195_torch_told (m : Machine) (env : Environ) :
    (ensureTorchHome m env).1 = torchHome m env ∧
      (∀ k, k ≠ "TORCH_HOME".toList → Assoc.get (ensureTorchHome m env).2 k = Assoc.get env k) ∧
      (∀ v, Assoc.get env "TORCH_HOME".toList = some v → Assoc.get (ensureTorchHome m env).2 "TORCH_HOME".toList = some v) ∧
      (Assoc.get env "TORCH_HOME".toList = none →
        Assoc.get (ensureTorchHome m env).2 "TORCH_HOME".toList = (torchHome m env).map render) := by
  unfold ensureTorchHome
  rcases h : torchHome m env with _ | p
  · exact ⟨rfl, fun k _ => rfl, fun v hv => hv, fun hn => hn⟩
  · dsimp only
    refine ⟨rfl, fun k hk => ?_, fun v hv => ?_, fun hn => ?_⟩
    · rw [setDefault_get, if_neg (fun e => hk e.1)]
    · rw [setDefault_get, if_neg (fun e => by rw [hv] at e; exact absurd e.2 (by simp)), hv]
    · rw [setDefault_get, if_pos ⟨rfl, hn⟩]; rfl

/-- C195: asking again gives the same directory (a resolved path other than the root of the file system resolves to itself). -/
theorem C195_torch_again (m : Machine) (env : Environ) (hn : ∀ p, torchHome m env = some p → p ≠ [] ∧ m.norm (render p) = p) :
    torchHome m (ensureTorchHome m env).2 = torchHome m env := by
  unfold ensureTorchHome
  rcases h : torchHome m env with _ | p
  · exact h
  · dsimp only
    obtain ⟨h0, h1⟩ := hn p h
    rcases hg : Assoc.get env "TORCH_HOME".toList with _ | v
    · have hs : IsSet (setDefault env "TORCH_HOME".toList (render p)) "TORCH_HOME" (render p) := by
        refine ⟨?_, by rw [setDefault_get, if_pos ⟨rfl, hg⟩]⟩
        rcases p with _ | ⟨c, cs⟩
        · exact absurd rfl h0
        · simp [render]
      rw [(C195_model_own m _ _).2.2.2.2.1 hs, h1]
    · unfold setDefault; rw [hg]; exact h

example : ∀ p, torchHome { demo with norm := fun _ => ["t"] } [("MODSSC_TORCH_HOME".toList, "/t".toList)] = some p →
    p ≠ [] ∧ ({ demo with norm := fun _ => ["t"] } : Machine).norm (render p) = p := by
  intro p hp
  have h : torchHome { demo with norm := fun _ => ["t"] } [("MODSSC_TORCH_HOME".toList, "/t".toList)] = some ["t"] := by
    decide +kernel
  rw [h] at hp
  obtain rfl := Option.some.inj hp
  exact ⟨by simp, rfl⟩

/-- C195 violated: with `TORCH_HOME` empty the library reports a directory, but torch itself still reads the empty value. -/
theorem C195_torch_empty_violated : ∃ (m : Machine) (env : Environ) (p : Path), torchHome m env = some p ∧
    (ensureTorchHome m env).1 = some p ∧ Assoc.get (ensureTorchHome m env).2 "TORCH_HOME".toList = some [] :=
  ⟨demo, [("TORCH_HOME".toList, []), ("MODSSC_TORCH_HOME".toList, "t".toList)], ["n", "t"], by decide +kernel, by decide +kernel,
    by decide +kernel⟩

/-! ### Flags -/

theorem takeWhile_mem {p : Char → Bool} {c : Char} {s : List Char} (h : c ∈ s.takeWhile p) : p c = true := by
  induction s with
  | nil => simp at h
  | cons x s ih =>
    rw [List.takeWhile_cons] at h
    split_ifs at h with hx
    · rcases List.mem_cons.mp h with rfl | h
      · exact hx
      · exact ih h
    · simp at h

theorem strip_decomp (s : List Char) : ∃ a b, s = a ++ strip s ++ b ∧ (∀ c ∈ a, c.isWhitespace = true) ∧ (∀ c ∈ b, c.isWhitespace = true) := by
  refine ⟨s.takeWhile Char.isWhitespace, ((s.dropWhile Char.isWhitespace).reverse.takeWhile Char.isWhitespace).reverse, ?_, ?_, ?_⟩
  · unfold strip
    rw [List.append_assoc, ← List.reverse_append, List.takeWhile_append_dropWhile, List.reverse_reverse,
      List.takeWhile_append_dropWhile]
  · intro c hc; exact takeWhile_mem hc
  · intro c hc; exact takeWhile_mem (List.mem_reverse.mp hc)

theorem dropWhile_all {p : Char → Bool} {a r : List Char} (ha : ∀ c ∈ a, p c = true) (hr : ∀ c, r.head? = some c → p c = false) :
    (a ++ r).dropWhile p = r := by
  induction a with
  | nil =>
    rcases r with _ | ⟨c, cs⟩
    · rfl
    · rw [List.nil_append, List.dropWhile_cons_of_neg (by simp [hr c rfl])]
  | cons c a ih =>
    rw [List.cons_append, List.dropWhile_cons_of_pos (ha c (by simp))]
    exact ih fun c' h => ha c' (by simp [h])

theorem strip_app {a w b : List Char} (ha : ∀ c ∈ a, c.isWhitespace = true) (hb : ∀ c ∈ b, c.isWhitespace = true)
    (hw : ∀ c ∈ w, c.isWhitespace = false) : strip (a ++ w ++ b) = w := by
  unfold strip
  rcases w with _ | ⟨c, cs⟩
  · rw [List.append_nil]
    rw [show (a ++ b).dropWhile Char.isWhitespace = [] from by
      rw [← List.append_nil (a ++ b)]
      exact dropWhile_all (fun c hc => (List.mem_append.mp hc).elim (ha c) (hb c)) (by simp)]
    rfl
  · rw [List.append_assoc, dropWhile_all ha (fun x hx => hw x (by simp at hx; simp [hx])), List.reverse_append,
      dropWhile_all (fun x hx => hb x (List.mem_reverse.mp hx)), List.reverse_reverse]
    intro x hx
    exact hw x (List.mem_reverse.mp (List.mem_of_mem_head? hx))

/-- C195: a flag is off exactly if its variable is missing or spells, up to surrounding spaces and case, nothing, `0`, `false`,
`no` or `off`; and only files at hand are used exactly if one of the three flags is on. -/
theorem C195_flags (env : Environ) :
    (∀ n, envFlag env n = false ↔ (∀ v, Assoc.get env n.toList = some v →
      ∃ a w b, v = a ++ w ++ b ∧ (∀ c ∈ a, c.isWhitespace = true) ∧ (∀ c ∈ b, c.isWhitespace = true) ∧
        (∀ c ∈ w, c.isWhitespace = false) ∧ String.ofList (w.map Char.toLower) ∈ ["", "0", "false", "no", "off"])) ∧
    (hfLocalOnly env = true ↔ envFlag env "MODSSC_HF_LOCAL_FILES_ONLY" = true ∨ envFlag env "HF_HUB_OFFLINE" = true ∨
      envFlag env "TRANSFORMERS_OFFLINE" = true) := by
  refine ⟨fun n => ?_, by simp [hfLocalOnly]⟩
  have hmem : ∀ w : List Char, falseValues.contains w = true ↔ String.ofList w ∈ ["", "0", "false", "no", "off"] := by
    intro w
    rw [List.contains_iff_mem]
    unfold falseValues
    simp only [List.mem_cons, List.not_mem_nil, or_false]
    have e : ∀ s : String, String.ofList w = s ↔ w = s.toList := fun s =>
      ⟨fun h => by rw [← h, String.toList_ofList], fun h => by rw [h, String.ofList_toList]⟩
    simp only [e]
  unfold envFlag
  rcases Assoc.get env n.toList with _ | v
  · simp
  · dsimp only
    rw [Bool.not_eq_false', hmem]
    constructor
    · intro h v' hv'
      obtain rfl := Option.some.inj hv'
      obtain ⟨a, b, e, h1, h2⟩ := strip_decomp v
      refine ⟨a, strip v, b, e, h1, h2, ?_, h⟩
      intro c hc
      have hc' : c.toLower ∈ (strip v).map Char.toLower := List.mem_map_of_mem hc
      have hl : (strip v).map Char.toLower = [] ∨ (strip v).map Char.toLower = ['0'] ∨ (strip v).map Char.toLower = "false".toList ∨
          (strip v).map Char.toLower = "no".toList ∨ (strip v).map Char.toLower = "off".toList := by
        have := (hmem _).mpr h
        rw [List.contains_iff_mem] at this
        simpa [falseValues] using this
      have hlow : c.toLower ∈ ['0', 'f', 'a', 'l', 's', 'e', 'n', 'o'] := by
        rcases hl with h | h | h | h | h <;> rw [h] at hc' <;> simp at hc' ⊢ <;> tauto
      cases hw : c.isWhitespace with
      | false => rfl
      | true =>
        exfalso
        have : c = ' ' ∨ c = '\t' ∨ c = '\r' ∨ c = '\n' := by simpa [Char.isWhitespace, or_assoc] using hw
        rcases this with rfl | rfl | rfl | rfl <;> revert hlow <;> decide
    · intro h
      obtain ⟨a, w, b, e, h1, h2, h3, h4⟩ := h v rfl
      rw [e, strip_app h1 h2 h3]
      exact h4

example : envFlag [("X".toList, " OFF\n".toList)] "X" = false ∧ envFlag [("X".toList, "1".toList)] "X" = true := by
  constructor <;> decide +kernel

end ModSSC.CachePath
