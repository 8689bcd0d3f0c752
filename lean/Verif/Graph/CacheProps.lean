import Verif.Graph.CacheModel
import Verif.Graph.OpsSpec
import Verif.ExceptLemmas
import Mathlib.Tactic.Ring

/-!
# Graph cache: properties C44 and C45
-/

namespace ModSSC.Graph
open ModSSC Spec

/-- A graph that `GraphArtifact` accepts: end points are nodes, one weight per edge. -/
def WellFormed (g : GraphArtifact) : Prop :=
  ValidEdges g.nNodes g.edgeIndex ∧ ∀ w, g.edgeWeight = some w → w.length = g.edgeIndex.length

theorem mkArtifact_ok {g : GraphArtifact} (h : WellFormed g) :
    mkArtifact g.nNodes g.edgeIndex g.edgeWeight g.directed = .ok g := by
  unfold mkArtifact
  rw [if_neg]
  · cases hw : g.edgeWeight with
    | none => cases g; simp_all
    | some w =>
      simp only [h.2 w hw, ne_eq, not_true_eq_false, if_false]
      cases g; simp_all
  · simp only [List.any_eq_true, decide_eq_true_eq, not_exists, not_and]
    intro e he
    have := h.1 e he
    omega

theorem runOps_append (e : Entry) (a b : List FOp) : runOps e (a ++ b) = runOps (runOps e a) b := by
  simp [runOps]

theorem runOps_cons (e : Entry) (o : FOp) (b : List FOp) : runOps e (o :: b) = runOps (o.run e) b := rfl

theorem get_write (e : Entry) (f f' : FName) (c : FContent) :
    Assoc.get (runOps e (writeOps f c)) f' = if f = f' then some c else Assoc.get e f' := by
  show Assoc.get (Assoc.set (Assoc.set e f .torn) f c) f' = _
  rw [Assoc.get_set]
  by_cases h : f = f'
  · subst h; simp
  · rw [if_neg h, Assoc.get_set]
    split
    · rename_i h'; exact absurd h'.symm h
    · rfl

/-- The operations touch only the files in `S`. -/
def Touches (S : FName → Prop) (ops : List FOp) : Prop :=
  ∀ o ∈ ops, match o with
    | .unlink f => S f
    | .put f _ => S f

theorem get_untouched {S : FName → Prop} {ops : List FOp} (h : Touches S ops) {f : FName} (hf : ¬ S f)
    (e : Entry) : Assoc.get (runOps e ops) f = Assoc.get e f := by
  induction ops generalizing e with
  | nil => rfl
  | cons o ops ih =>
    rw [runOps_cons, ih (fun o ho => h o (List.mem_cons_of_mem _ ho))]
    have := h o (by simp)
    cases o with
    | unlink f' =>
      show Assoc.get (Assoc.erase e f') f = _
      rw [Assoc.get_erase, if_neg]
      rintro rfl; exact hf this
    | put f' c =>
      show Assoc.get (Assoc.set e f' c) f = _
      rw [Assoc.get_set, if_neg]
      rintro rfl; exact hf this

theorem get_cleared (e : Entry) (l : List FName) (f : FName) :
    Assoc.get (runOps e (l.map .unlink)) f = if f ∈ l then none else Assoc.get e f := by
  induction l generalizing e with
  | nil => simp [runOps]
  | cons a l ih =>
    rw [List.map_cons, runOps_cons, ih]
    show (if f ∈ l then none else Assoc.get (Assoc.erase e a) f) = _
    rw [Assoc.get_erase]
    by_cases h1 : f ∈ l
    · simp [h1]
    · by_cases h2 : f = a
      · simp [h2]
      · simp [h1, h2]

/-- Nothing is left in the entry. -/
def Empty (e : Entry) : Prop := ∀ f, Assoc.get e f = none

theorem cleared_empty {listing : Entry → List FName} {e : Entry}
    (h : ∀ f ∈ Assoc.keys e, f ∈ listing e) : Empty (runOps e (clearOps listing e)) := by
  intro f
  unfold clearOps
  rw [get_cleared]
  by_cases hf : f ∈ listing e
  · rw [if_pos hf]
  · rw [if_neg hf, Assoc.get_eq_none_iff]
    exact fun h' => hf (h f h')

theorem get_shards (g : GraphArtifact) (size : Int) (n : Nat) (e : Entry) (f : FName) :
    Assoc.get (runOps e ((List.range n).flatMap (fun i => writeOps (.shard i) (shardOf g size i)))) f
      = match f with
        | .shard i => if i < n then some (shardOf g size i) else Assoc.get e f
        | _ => Assoc.get e f := by
  induction n with
  | zero => cases f <;> simp [runOps]
  | succ n ih =>
    rw [List.range_succ, List.flatMap_append, runOps_append]
    simp only [List.flatMap_cons, List.flatMap_nil, List.append_nil]
    rw [get_write, ih]
    cases f with
    | shard i =>
      simp only [FName.shard.injEq]
      by_cases h : n = i
      · subst h; simp
      · rw [if_neg h]
        by_cases h' : i < n
        · rw [if_pos h', if_pos (by omega)]
        · rw [if_neg h', if_neg (by omega)]
    | _ => simp

theorem slice_nonneg {α : Type} (l : List α) (a b : Nat) (hb : b ≤ l.length) (ha : a ≤ l.length) :
    pySlice l (a : Int) (b : Int) = (l.take b).drop a := by
  unfold pySlice
  simp only
  rw [if_neg (by omega), if_neg (by omega)]
  congr 1
  · omega
  · congr 1; omega

theorem slices_flat {α : Type} (l : List α) (k n : Nat) (E : Nat) (hE : l.length = E)
    (hn : ∀ i < n, i * k ≤ E) :
    (List.range n).flatMap (fun (i : Nat) => pySlice l ((i : Int) * (k : Int))
      (min (E : Int) (((i : Int) + 1) * (k : Int)))) = l.take (n * k) := by
  induction n with
  | zero => simp
  | succ n ih =>
    rw [List.range_succ, List.flatMap_append, ih (fun i hi => hn i (by omega))]
    simp only [List.flatMap_cons, List.flatMap_nil, List.append_nil]
    have h := hn n (by omega)
    have e1 : ((n : Int) * (k : Int)) = ((n * k : Nat) : Int) := by push_cast; rfl
    have e2 : min (E : Int) (((n : Int) + 1) * (k : Int)) = ((min E ((n + 1) * k) : Nat) : Int) := by
      push_cast; rfl
    rw [e1, e2, slice_nonneg _ _ _ (by omega) (by omega)]
    have e3 : n * k ≤ min E ((n + 1) * k) := by
      have : n * k ≤ (n + 1) * k := Nat.mul_le_mul_right k (by omega)
      omega
    have e4 : l.take ((n + 1) * k) = l.take (min E ((n + 1) * k)) := by
      rw [← hE, Nat.min_comm, ← List.take_eq_take_min]
    have e5 : l.take (n * k) = (l.take (min E ((n + 1) * k))).take (n * k) := by
      rw [List.take_take, Nat.min_eq_left e3]
    rw [e4, e5, List.take_append_drop]

/-- The shards of a positive size. -/
theorem numShards_pos {k E : Nat} (hk : 0 < k) (h : k < E) :
    numShards (some (k : Int)) E = some ((((E + k - 1) / k : Nat) : Int), (k : Int)) := by
  simp only [numShards]
  rw [if_pos ⟨by omega, by omega⟩]
  congr 2
  have : ((E : Int) + (k : Int) - 1) = ((E + k - 1 : Nat) : Int) := by omega
  rw [this, Int.fdiv_eq_ediv_of_nonneg _ (by omega)]
  rfl

/-- A shard size that is accepted: none, zero (no sharding) or positive. -/
def SizeOk (s : Option Int) : Prop := ∀ k, s = some k → 0 ≤ k

theorem numShards_cases {s : Option Int} (hs : SizeOk s) (E : Nat) :
    numShards s E = none ∨ ∃ k : Nat, 0 < k ∧ k < E ∧
      numShards s E = some ((((E + k - 1) / k : Nat) : Int), (k : Int)) := by
  cases s with
  | none => exact .inl rfl
  | some z =>
    obtain ⟨k, rfl⟩ := Int.eq_ofNat_of_zero_le (hs z rfl)
    by_cases h : 0 < k ∧ k < E
    · exact .inr ⟨k, h.1, h.2, numShards_pos h.1 h.2⟩
    · left
      simp only [numShards]
      rw [if_neg]
      intro hh
      exact h ⟨by omega, by omega⟩

/-- What the edge files of a saved graph look like. -/
theorem load_after {s : Option Int} (hs : SizeOk s) {g : GraphArtifact} (hg : WellFormed g) {e : Entry}
    (he : Assoc.get e .edgeWeight = none) :
    loadEntry (runOps e (edgeOps s g ++ [.put .manifest (.manifest (manifestOf s g))])) = .ok g := by
  rw [runOps_append]
  have hman : ∀ d : Entry, Assoc.get (runOps d [.put .manifest (.manifest (manifestOf s g))]) .manifest
      = some (.manifest (manifestOf s g)) := by
    intro d
    show Assoc.get (Assoc.set d _ _) _ = _
    rw [Assoc.get_set_self]
  have hoth : ∀ (d : Entry) (f : FName), f ≠ .manifest →
      Assoc.get (runOps d [.put .manifest (.manifest (manifestOf s g))]) f = Assoc.get d f := by
    intro d f hf
    show Assoc.get (Assoc.set d _ _) _ = _
    rw [Assoc.get_set, if_neg hf]
  unfold loadEntry
  rw [hman]
  rcases numShards_cases hs g.edgeIndex.length with hn | ⟨k, hk, hkE, hn⟩
  · have h1 : (manifestOf s g).storage = .single := by simp [manifestOf, hn]
    have h2 : edgeOps s g = writeOps .edgeIndex (.index g.edgeIndex) ++
        (match g.edgeWeight with
         | some w => writeOps .edgeWeight (.weights w)
         | none => []) := by
      unfold edgeOps
      rw [hn]
      rfl
    simp only [h1]
    have hload : loadSingle (runOps (runOps e (edgeOps s g))
        [.put .manifest (.manifest (manifestOf s g))]) = .ok (g.edgeIndex, g.edgeWeight) := by
      unfold loadSingle
      rw [hoth _ _ (by simp), hoth _ _ (by simp), h2]
      cases hw : g.edgeWeight with
      | none =>
        simp only [List.append_nil]
        rw [get_write, get_write, if_pos rfl, if_neg (by simp), he]
      | some w =>
        simp only [runOps_append]
        rw [get_write, get_write, get_write, if_neg (by simp), if_pos rfl, if_pos rfl]
    rw [hload]
    exact mkArtifact_ok hg
  · set n := (g.edgeIndex.length + k - 1) / k with hndef
    have h1 : (manifestOf s g).storage = .sharded (n : Int) := by simp [manifestOf, hn]
    have h2 : edgeOps s g = (List.range n).flatMap
        (fun i => writeOps (.shard i) (shardOf g k i)) := by
      simp only [edgeOps, hn, Int.toNat_natCast]
    simp only [h1, Int.toNat_natCast]
    have hn1 : g.edgeIndex.length ≤ n * k := by
      have h1 := Nat.div_add_mod (g.edgeIndex.length + k - 1) k
      have h2 := Nat.mod_lt (g.edgeIndex.length + k - 1) hk
      rw [Nat.mul_comm, ← hndef] at h1
      omega
    have hn2 : ∀ i < n, i * k ≤ g.edgeIndex.length := by
      intro i hi
      have h1 : n * k ≤ g.edgeIndex.length + k - 1 := Nat.div_mul_le_self _ _
      have h2 : (i + 1) * k ≤ n * k := Nat.mul_le_mul_right k (by omega)
      rw [Nat.add_mul] at h2
      omega
    have hn0 : 0 < n := by
      rcases Nat.eq_zero_or_pos n with h | h
      · rw [h] at hn1; omega
      · exact h
    have hread : ∀ i < n, readShard (runOps (runOps e (edgeOps s g))
        [.put .manifest (.manifest (manifestOf s g))]) i
        = .ok (pySlice g.edgeIndex ((i : Int) * (k : Int))
            (min (g.edgeIndex.length : Int) (((i : Int) + 1) * (k : Int))),
          g.edgeWeight.map (fun w => pySlice w ((i : Int) * (k : Int))
            (min (g.edgeIndex.length : Int) (((i : Int) + 1) * (k : Int))))) := by
      intro i hi
      unfold readShard
      rw [hoth _ _ (by simp), h2, get_shards]
      simp only [if_pos hi]
      rfl
    have hmap : (List.range n).mapM (readShard (runOps (runOps e (edgeOps s g))
        [.put .manifest (.manifest (manifestOf s g))])) = .ok ((List.range n).map (fun (i : Nat) =>
          (pySlice g.edgeIndex ((i : Int) * (k : Int))
            (min (g.edgeIndex.length : Int) (((i : Int) + 1) * (k : Int))),
          g.edgeWeight.map (fun w => pySlice w ((i : Int) * (k : Int))
            (min (g.edgeIndex.length : Int) (((i : Int) + 1) * (k : Int))))))) := by
      rw [mapM_ok, List.forall₂_map_right_iff, List.forall₂_same]
      intro i hi
      exact hread i (by simpa using hi)
    have hflat := slices_flat g.edgeIndex k n _ rfl hn2
    rw [List.take_of_length_le hn1] at hflat
    have hload : loadSharded (runOps (runOps e (edgeOps s g))
        [.put .manifest (.manifest (manifestOf s g))]) n = .ok (g.edgeIndex, g.edgeWeight) := by
      unfold loadSharded
      rw [hmap]
      have hhead : (((List.range n).map (fun (i : Nat) =>
          (pySlice g.edgeIndex ((i : Int) * (k : Int))
            (min (g.edgeIndex.length : Int) (((i : Int) + 1) * (k : Int))),
          g.edgeWeight.map (fun w => pySlice w ((i : Int) * (k : Int))
            (min (g.edgeIndex.length : Int) (((i : Int) + 1) * (k : Int))))))).head?.map
          (fun s => s.2.isSome)).getD false = g.edgeWeight.isSome := by
        obtain ⟨m, hm⟩ : ∃ m, n = m + 1 := ⟨n - 1, by omega⟩
        rw [hm, List.range_succ_eq_map]
        simp
      simp only [hhead]
      rw [if_neg, if_neg]
      · rw [List.flatMap_map]
        cases hw : g.edgeWeight with
        | none =>
          simp only [Option.isSome_none, Bool.false_eq_true, if_false]
          rw [hflat]
        | some w =>
          have hwl := hg.2 w hw
          have hflat' := slices_flat w k n _ hwl hn2
          rw [List.take_of_length_le (by omega)] at hflat'
          simp only [Option.isSome_some, if_true, List.flatMap_map, Option.map_some, Option.getD_some]
          rw [hflat, hflat']
      · intro hany
        obtain ⟨p, hp, hbad⟩ := List.any_eq_true.mp hany
        obtain ⟨i, hi, rfl⟩ := List.mem_map.mp hp
        have hi := List.mem_range.mp hi
        revert hbad
        cases hw : g.edgeWeight with
        | none => simp
        | some w =>
          have hwl := hg.2 w hw
          have h := hn2 i hi
          have e1 : ((i : Int) * (k : Int)) = ((i * k : Nat) : Int) := by push_cast; rfl
          have e2 : min (g.edgeIndex.length : Int) (((i : Int) + 1) * (k : Int))
              = ((min g.edgeIndex.length ((i + 1) * k) : Nat) : Int) := by push_cast; rfl
          simp only [Option.map_some, Option.any_some, e1, e2]
          rw [slice_nonneg _ _ _ (by omega) (by omega), slice_nonneg _ _ _ (by omega) (by omega)]
          simp [hwl]
      · intro hany
        obtain ⟨p, hp, hbad⟩ := List.any_eq_true.mp hany
        obtain ⟨i, hi, rfl⟩ := List.mem_map.mp hp
        have hi := List.mem_range.mp hi
        revert hbad
        cases g.edgeWeight <;> simp
    rw [hload]
    exact mkArtifact_ok hg

/-- **C44.**  For every well-formed graph and every shard size (none, zero or positive): saving over
an entry with any contents (`overwrite=True`, the default), or into a new entry, and loading returns
the same graph. -/
theorem C44_roundtrip {listing : Entry → List FName} {s : Option Int} (hs : SizeOk s)
    {g : GraphArtifact} (hg : WellFormed g) (e : Entry) (hl : ∀ f ∈ Assoc.keys e, f ∈ listing e) :
    loadEntry (runOps e (saveOps listing s e g true)) = .ok g ∧
    loadEntry (runOps [] (saveOps listing s [] g false)) = .ok g := by
  constructor
  · unfold saveOps
    rw [if_pos rfl, List.append_assoc, runOps_append]
    exact load_after hs hg (cleared_empty hl _)
  · unfold saveOps
    rw [if_neg (by simp), List.nil_append]
    exact load_after hs hg rfl

/-- A weighted graph with five edges in shards of two, over an entry with other files. -/
def demoGraph : GraphArtifact :=
  ⟨3, [(0, 1), (1, 2), (2, 0), (2, 2), (0, 0)], some [1, 2, 3, 4, 5], true⟩

example : WellFormed demoGraph ∧ SizeOk (some 2) ∧
    loadEntry (runOps [(.edgeWeight, .weights [7]), (.shard 9, .torn)]
      (saveOps Assoc.keys (some 2) [(.edgeWeight, .weights [7]), (.shard 9, .torn)] demoGraph true))
      = .ok demoGraph ∧
    (edgeOps (some 2) demoGraph).length = 6 := by
  refine ⟨⟨?_, ?_⟩, ?_, by decide +kernel, by decide +kernel⟩
  · intro e he
    simp only [demoGraph, List.mem_cons, List.not_mem_nil, or_false] at he
    rcases he with rfl | rfl | rfl | rfl | rfl <;> decide
  · intro w hw; cases hw; rfl
  · intro k hk; cases hk; decide

/-- Outside C44: a negative shard size is not refused and loses every edge; saving without overwriting
keeps the weights of the graph that was there before. -/
theorem C44_outside :
    loadEntry (runOps [] (saveOps Assoc.keys (some (-2)) [] demoGraph true)) = .ok ⟨3, [], none, true⟩ ∧
    loadEntry (runOps (runOps [] (saveOps Assoc.keys none [] demoGraph true))
      (saveOps Assoc.keys none (runOps [] (saveOps Assoc.keys none [] demoGraph true))
        ⟨3, demoGraph.edgeIndex, none, true⟩ false)) = .ok demoGraph := by
  decide +kernel

/-! ## C45 -/

theorem edgeOps_touch (s : Option Int) (g : GraphArtifact) :
    Touches (fun f => f ≠ .manifest) (edgeOps s g) := by
  intro o ho
  unfold edgeOps at ho
  split at ho
  · obtain ⟨i, -, h⟩ := List.mem_flatMap.mp ho
    simp only [writeOps, List.mem_cons, List.not_mem_nil, or_false] at h
    rcases h with rfl | rfl <;> simp
  · rcases List.mem_append.mp ho with h | h
    · simp only [writeOps, List.mem_cons, List.not_mem_nil, or_false] at h
      rcases h with rfl | rfl <;> simp
    · split at h
      · simp only [writeOps, List.mem_cons, List.not_mem_nil, or_false] at h
        rcases h with rfl | rfl <;> simp
      · simp at h

theorem touches_take {S : FName → Prop} {ops : List FOp} (h : Touches S ops) (m : Nat) :
    Touches S (ops.take m) := fun o ho => h o (List.mem_of_mem_take ho)

theorem absent_after_clear {e : Entry} (h : Assoc.get e .manifest = none) (l : List FName) :
    Assoc.get (runOps e (l.map .unlink)) .manifest = none := by
  rw [get_cleared]; split
  · rfl
  · exact h

/-- No manifest at the start: none before the last operation. -/
theorem crash_absent {listing : Entry → List FName} {s : Option Int} {g : GraphArtifact} {e : Entry}
    (h : Assoc.get e .manifest = none) (ow : Bool) {m : Nat}
    (hm : m < (saveOps listing s e g ow).length) :
    Assoc.get (runOps e ((saveOps listing s e g ow).take m)) .manifest = none := by
  unfold saveOps at hm ⊢
  rw [List.length_append] at hm
  rw [List.take_append_of_le_length (by simp only [List.length_singleton] at hm; omega),
    List.take_append, runOps_append]
  rw [get_untouched (S := fun f => f ≠ .manifest) (touches_take (edgeOps_touch s g) _) (by simp)]
  cases ow with
  | false => simpa [runOps] using h
  | true =>
    simp only [if_true, clearOps, ← List.map_take]
    exact absent_after_clear h _

/-- **C45 (entries without manifest).**  If a save into an entry that is not complete (no manifest:
new, or left by an interrupted save) is interrupted at any point, the entry is absent or loads the
graph. -/
theorem C45_new_entry {listing : Entry → List FName} {s : Option Int} (hs : SizeOk s)
    {g : GraphArtifact} (hg : WellFormed g) (e : Entry) (hl : ∀ f ∈ Assoc.keys e, f ∈ listing e)
    (h : entryExists e = false) (m : Nat) :
    entryExists (runOps e ((saveOps listing s e g true).take m)) = false ∨
    loadEntry (runOps e ((saveOps listing s e g true).take m)) = .ok g := by
  have h' : Assoc.get e .manifest = none := by
    rw [Assoc.get_eq_none_iff, ← Assoc.has_iff]
    unfold entryExists at h
    simp [h]
  by_cases hm : m < (saveOps listing s e g true).length
  · left
    have := crash_absent (s := s) (g := g) (listing := listing) h' true hm
    unfold entryExists
    rw [Assoc.get_eq_none_iff, ← Assoc.has_iff] at this
    simpa using this
  · right
    rw [List.take_of_length_le (by omega)]
    exact (C44_roundtrip hs hg e hl).1

/-- **C45 (overwriting) -- partial.**  If the directory happens to be listed with the manifest first,
an interrupted overwrite leaves the entry as it was, absent, or loading the new graph.  Nothing
ensures that order: see `C45_overwrite_violated`. -/
theorem C45_overwrite_partial {listing : Entry → List FName} {s : Option Int} (hs : SizeOk s)
    {g : GraphArtifact} (hg : WellFormed g) (e : Entry) (hl : ∀ f ∈ Assoc.keys e, f ∈ listing e)
    (hfirst : ∃ rest, listing e = .manifest :: rest) (m : Nat) :
    runOps e ((saveOps listing s e g true).take m) = e ∨
    entryExists (runOps e ((saveOps listing s e g true).take m)) = false ∨
    loadEntry (runOps e ((saveOps listing s e g true).take m)) = .ok g := by
  obtain ⟨rest, hrest⟩ := hfirst
  cases m with
  | zero => left; rfl
  | succ m =>
    right
    by_cases hm : m + 1 < (saveOps listing s e g true).length
    · left
      have e1 : saveOps listing s e g true = .unlink .manifest ::
          saveOps (fun _ => rest) s (Assoc.erase e .manifest) g true := by
        simp [saveOps, clearOps, hrest]
      rw [e1] at hm ⊢
      simp only [List.length_cons] at hm
      rw [List.take_succ_cons, runOps_cons]
      have h0 : Assoc.get (Assoc.erase e .manifest) FName.manifest = none := by
        rw [Assoc.get_erase, if_pos rfl]
      have := crash_absent (s := s) (g := g) (listing := fun _ => rest) h0 true
        (m := m) (by omega)
      unfold entryExists
      rw [Assoc.get_eq_none_iff, ← Assoc.has_iff] at this
      show Assoc.has (runOps (Assoc.erase e .manifest) _) _ = false
      simpa using this
    · right
      rw [List.take_of_length_le (by omega)]
      exact (C44_roundtrip hs hg e hl).1

/-- **C45 is violated when an existing entry is overwritten**: the old files are deleted in directory
order, so a kill can leave the manifest without the edges, and the entry exists but does not load. -/
theorem C45_overwrite_violated :
    let e := runOps [] (saveOps Assoc.keys none [] demoGraph true)
    loadEntry e = .ok demoGraph ∧
    entryExists (runOps e ((saveOps Assoc.keys none e demoGraph true).take 1)) = true ∧
    loadEntry (runOps e ((saveOps Assoc.keys none e demoGraph true).take 1)) = .error .cacheError := by
  decide +kernel

example : entryExists [(FName.shard 0, .torn), (.chunk (0, 2), .chunk [])] = false ∧
    ∃ rest, (fun _ : Entry => [FName.manifest, .edgeIndex]) [] = .manifest :: rest :=
  ⟨by decide, _, rfl⟩

end ModSSC.Graph
