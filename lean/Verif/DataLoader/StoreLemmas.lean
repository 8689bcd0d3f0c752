import Verif.DataLoader.StoreModel
import Verif.ExceptLemmas

/-!
# Helper lemmas for the dataset store
-/

namespace ModSSC.DataLoader.Store
open ModSSC

variable {A M : Type}

/-! ## File names -/

theorem entry_path_inj {isText : A → Bool} {s t : String} {a b : A}
    (h : (entryOf isText s a).path = (entryOf isText t b).path) : s = t := by
  unfold entryOf at h
  have h2 := congrArg String.toList h
  split at h2 <;> split at h2 <;> simp only [String.toList_append] at h2
  · exact String.toList_inj.mp (List.append_cancel_right h2)
  · have h3 := congrArg List.getLast? h2
    simp at h3
  · have h3 := congrArg List.getLast? h2
    simp at h3
  · exact String.toList_inj.mp (List.append_cancel_right h2)

theorem entry_path_ne_json {isText : A → Bool} {s : String} {a : A} (t : String) :
    (entryOf isText s a).path ≠ t ++ ".json" := by
  intro h
  unfold entryOf at h
  have h2 := congrArg String.toList h
  split at h2 <;> simp only [String.toList_append] at h2 <;>
  · have h3 := congrArg List.getLast? h2
    simp at h3

theorem append_inj_left {n s t : String} (h : n ++ s = n ++ t) : s = t := by
  have h2 := congrArg String.toList h
  simp only [String.toList_append] at h2
  exact String.toList_inj.mp (List.append_cancel_left h2)

/-- Stems of a split's arrays. -/
theorem splitArrays_nodup (name : String) (s : Split A)
    (hm : ∀ ms, s.masks = some ms → (Assoc.keys ms).Nodup) :
    (Assoc.keys (splitArrays name s)).Nodup := by
  have hk : Assoc.keys (splitArrays name s) =
      (["_X", "_y"] ++ (match s.edges with | some _ => ["_edges"] | none => [])
        ++ (match s.masks with
          | some ms => (Assoc.keys ms).map (fun k => "_mask_" ++ k)
          | none => [])).map (fun t => name ++ t) := by
    unfold splitArrays Assoc.keys
    cases s.edges <;> cases s.masks <;> simp [String.append_assoc]
  rw [hk]
  refine List.Nodup.map (fun a b h => append_inj_left h) ?_
  have aux : ∀ ms : List (String × A), (Assoc.keys ms).Nodup →
      ((Assoc.keys ms).map (fun k => "_mask_" ++ k)).Nodup :=
    fun ms h => List.Nodup.map (fun a b h => append_inj_left h) h
  have hne : ∀ (k u : String), u ∈ ["_X", "_y", "_edges"] → "_mask_" ++ k ≠ u := by
    intro k u hu h
    have h2 := congrArg String.toList h
    simp only [List.mem_cons, List.not_mem_nil, or_false] at hu
    rcases hu with rfl | rfl | rfl <;> simp at h2
  cases hE : s.edges <;> cases hM : s.masks
  · simp
  · rename_i ms
    rw [List.nodup_append]
    refine ⟨by simp, aux ms (hm ms hM), ?_⟩
    rintro a ha b hb rfl
    obtain ⟨k, _, rfl⟩ := List.mem_map.mp hb
    exact hne k _ (by simp only [List.mem_append, List.mem_cons, List.not_mem_nil, or_false] at ha ⊢; tauto) rfl
  · simp
  · rename_i ms
    rw [List.nodup_append]
    refine ⟨by simp, aux ms (hm ms hM), ?_⟩
    rintro a ha b hb rfl
    obtain ⟨k, _, rfl⟩ := List.mem_map.mp hb
    exact hne k _ (by simp only [List.mem_append, List.mem_cons, List.not_mem_nil, or_false] at ha ⊢; tauto) rfl

/-- Mask dictionaries have distinct keys (true of every Python dictionary). -/
def Dataset.WF (ds : Dataset A M) : Prop :=
  (∀ ms, ds.train.masks = some ms → (Assoc.keys ms).Nodup) ∧
  (∀ t, ds.test = some t → ∀ ms, t.masks = some ms → (Assoc.keys ms).Nodup)

theorem mem_splitArrays_prefix {name : String} {s : Split A} {p : String × A}
    (h : p ∈ splitArrays name s) : ∃ t, p.1 = name ++ ("_" ++ t) := by
  unfold splitArrays at h
  rcases List.mem_append.mp h with h | h
  · rcases List.mem_append.mp h with h | h
    · simp only [List.mem_cons, List.not_mem_nil, or_false] at h
      rcases h with rfl | rfl
      · exact ⟨"X", rfl⟩
      · exact ⟨"y", rfl⟩
    · split at h
      · simp only [List.mem_singleton] at h
        subst h
        exact ⟨"edges", rfl⟩
      · simp at h
  · split at h
    · obtain ⟨q, _, rfl⟩ := List.mem_map.mp h
      refine ⟨"mask_" ++ q.1, ?_⟩
      apply String.toList_inj.mp
      simp
    · simp at h

theorem dsArrays_nodup {ds : Dataset A M} (h : ds.WF) : (Assoc.keys (dsArrays ds)).Nodup := by
  unfold dsArrays
  cases ht : ds.test with
  | none => simpa using splitArrays_nodup "train" ds.train h.1
  | some t =>
    unfold Assoc.keys
    rw [List.map_append, List.nodup_append]
    refine ⟨splitArrays_nodup "train" ds.train h.1, splitArrays_nodup "test" t (h.2 t ht), ?_⟩
    rintro a ha b hb rfl
    obtain ⟨p, hp, e1⟩ := List.mem_map.mp ha
    obtain ⟨q, hq, e2⟩ := List.mem_map.mp hb
    obtain ⟨u, hu⟩ := mem_splitArrays_prefix hp
    obtain ⟨v, hv⟩ := mem_splitArrays_prefix hq
    have h2 := congrArg String.toList (hu.symm.trans (e1.trans (e2.symm.trans hv)))
    simp at h2

theorem dsFiles_nodup (isText : A → Bool) {ds : Dataset A M} (h : ds.WF) :
    (Assoc.keys (dsFiles isText ds)).Nodup := by
  unfold dsFiles Assoc.keys
  rw [List.map_append, List.nodup_append]
  refine ⟨?_, by simp, ?_⟩
  · have hn := dsArrays_nodup h
    rw [List.map_map]
    unfold Assoc.keys at hn
    generalize dsArrays ds = l at hn
    induction l with
    | nil => simp
    | cons p l ih =>
      rw [List.map_cons, List.nodup_cons] at hn ⊢
      refine ⟨?_, ih hn.2⟩
      intro hmem
      obtain ⟨q, hq, e⟩ := List.mem_map.mp hmem
      exact hn.1 (List.mem_map.mpr ⟨q, hq, entry_path_inj e⟩)
  · rintro a ha b hb rfl
    simp only [List.map_map, List.mem_map, Function.comp] at ha
    obtain ⟨p, _, e⟩ := ha
    simp only [List.map_cons, List.map_nil, List.mem_cons, List.not_mem_nil, or_false] at hb
    rcases hb with rfl | rfl
    · exact entry_path_ne_json "meta" e
    · exact entry_path_ne_json "layout" e

/-! ## Running operations -/

theorem runOps_append (a b : List (Op A M)) (d : Disk A M) :
    runOps (a ++ b) d = runOps b (runOps a d) := by
  simp [runOps]

/-- The writes of a list of files. -/
def writes (l : List (String × File A M)) : List (Op A M) :=
  l.flatMap (fun (p : String × File A M) => [.beginWrite p.1, .endWrite p.1 p.2])

theorem writes_run (l : List (String × File A M)) : ∀ (d : Disk A M) (fs : List (String × File A M)),
    d.dir = some fs → (Assoc.keys l).Nodup →
    ∃ fs', (runOps (writes l) d) = { d with dir := some fs' } ∧
      ∀ k, Assoc.get fs' k = (Assoc.get l k).or (Assoc.get fs k) := by
  induction l with
  | nil =>
    intro d fs h _
    refine ⟨fs, ?_, by simp⟩
    cases d
    simp only [writes, runOps, List.flatMap_nil, List.foldl_nil]
    simp only at h
    rw [h]
  | cons p l ih =>
    intro d fs h hn
    have hn' := hn
    unfold Assoc.keys at hn'
    rw [List.map_cons, List.nodup_cons] at hn'
    let d1 : Disk A M := { d with dir := some (Assoc.set (Assoc.set fs p.1 .torn) p.1 p.2) }
    have e1 : runOps [.beginWrite p.1, .endWrite p.1 p.2] d = d1 := by
      simp [runOps, Op.run, h, d1]
    obtain ⟨fs', h1, h2⟩ := ih d1 _ rfl hn'.2
    refine ⟨fs', ?_, ?_⟩
    · have : writes (p :: l) = [.beginWrite p.1, .endWrite p.1 p.2] ++ writes l := by
        simp [writes]
      rw [this, runOps_append, e1, h1]
    · intro k
      rw [h2, Assoc.get_cons, Assoc.get_set, Assoc.get_set]
      by_cases hk : p.1 = k
      · subst hk
        have : Assoc.get l p.1 = none := Assoc.get_eq_none_iff.mpr hn'.1
        rw [if_pos rfl, if_pos rfl, this]
        rfl
      · have hk' : ¬ k = p.1 := fun e => hk e.symm
        rw [if_neg hk, if_neg hk', if_neg hk']

/-- The directory after a complete `FileStorage.save` into a missing directory. -/
theorem save_run (isText : A → Bool) {ds : Dataset A M} (h : ds.WF) (d : Disk A M) (hd : d.dir = none) :
    ∃ fs', runOps (saveOps isText ds) d = { d with dir := some fs' } ∧
      ∀ k, Assoc.get fs' k = Assoc.get (dsFiles isText ds) k := by
  have e : saveOps isText ds = [.mkdir] ++ writes (dsFiles isText ds) := rfl
  let d1 : Disk A M := { d with dir := some [] }
  have e1 : runOps [.mkdir] d = d1 := by simp [runOps, Op.run, hd, d1]
  obtain ⟨fs', h1, h2⟩ := writes_run (dsFiles isText ds) d1 [] rfl (dsFiles_nodup isText h)
  refine ⟨fs', ?_, ?_⟩
  · rw [e, runOps_append, e1, h1]
  · intro k
    rw [h2]
    simp

/-! ## Loading -/

/-- `g` has every file of `f`. -/
def SubFiles (f g : List (String × File A M)) : Prop :=
  ∀ k c, Assoc.get f k = some c → Assoc.get g k = some c

theorem loadArray_mono {f g : List (String × File A M)} (h : SubFiles f g) {e : Entry} {a : A}
    (hl : loadArray f e = .ok a) : loadArray g e = .ok a := by
  unfold loadArray at hl ⊢
  cases hf : Assoc.get f e.path with
  | none => rw [hf] at hl; simp at hl
  | some c => rw [hf] at hl; rw [h _ _ hf]; exact hl

theorem mapM_mono {α β : Type} {f g : α → Except PyErr β} (h : ∀ a b, f a = .ok b → g a = .ok b)
    {l : List α} {r : List β} (hl : l.mapM f = .ok r) : l.mapM g = .ok r :=
  mapM_ok.mpr ((mapM_ok.mp hl).imp h)

theorem emap_ok {α β : Type} {x : Except PyErr α} {f : α → β} {b : β} :
    (f <$> x) = .ok b ↔ ∃ a, x = .ok a ∧ f a = b := by
  cases x with
  | error e => simp [Functor.map, Except.map]
  | ok a => simp [Functor.map, Except.map]

theorem optM_mono {α β : Type} {f g : α → Except PyErr β} (h : ∀ a b, f a = .ok b → g a = .ok b)
    {o : Option α} {r : Option β} (hl : optM f o = .ok r) : optM g o = .ok r := by
  cases o with
  | none => exact hl
  | some a =>
    obtain ⟨b, hb, hr⟩ := emap_ok.mp hl
    exact emap_ok.mpr ⟨b, h a b hb, hr⟩

theorem loadSplit_mono {f g : List (String × File A M)} (h : SubFiles f g) {l : SplitLayout}
    {s : Split A} (hl : loadSplit f l = .ok s) : loadSplit g l = .ok s := by
  unfold loadSplit at hl ⊢
  rw [ebind_ok] at hl
  obtain ⟨X, hX, hl⟩ := hl
  rw [ebind_ok] at hl
  obtain ⟨y, hy, hl⟩ := hl
  rw [ebind_of_ok (loadArray_mono h hX), ebind_of_ok (loadArray_mono h hy)]
  rw [ebind_ok] at hl ⊢
  obtain ⟨ed, hed, hl⟩ := hl
  refine ⟨ed, ?_, ?_⟩
  · exact optM_mono (fun a b hab => loadArray_mono h hab) hed
  · rw [ebind_ok] at hl ⊢
    obtain ⟨ms, hms, hl⟩ := hl
    refine ⟨ms, ?_, hl⟩
    refine optM_mono (fun a b hab => mapM_mono ?_ hab) hms
    intro p q hp
    obtain ⟨c, hc, hd⟩ := emap_ok.mp hp
    exact emap_ok.mpr ⟨c, loadArray_mono h hc, hd⟩

theorem loadFiles_mono {f g : List (String × File A M)} (h : SubFiles f g) {ds : Dataset A M}
    (hl : loadFiles f = .ok ds) : loadFiles g = .ok ds := by
  unfold loadFiles at hl ⊢
  cases hf : Assoc.get f "layout.json" with
  | none => rw [hf] at hl; simp at hl
  | some c =>
    rw [hf] at hl
    rw [h _ _ hf]
    cases c with
    | layoutJson l =>
      simp only at hl ⊢
      rw [ebind_ok] at hl ⊢
      obtain ⟨tr, htr, hl⟩ := hl
      refine ⟨tr, loadSplit_mono h htr, ?_⟩
      rw [ebind_ok] at hl ⊢
      obtain ⟨te, hte, hl⟩ := hl
      refine ⟨te, ?_, ?_⟩
      · exact optM_mono (fun a b hab => loadSplit_mono h hab) hte
      · cases hmj : Assoc.get f "meta.json" with
        | none => rw [hmj] at hl; simp at hl
        | some m =>
          rw [hmj] at hl
          rw [h _ _ hmj]
          exact hl
    | torn => simp at hl
    | npy _ => simp at hl
    | jsonlGz _ => simp at hl
    | metaJson _ => simp at hl

theorem loadArray_saved {isText : A → Bool} {fs : List (String × File A M)} {stem : String} {a : A}
    (h : Assoc.get fs (entryOf isText stem a).path = some (fileOf isText a)) :
    loadArray fs (entryOf isText stem a) = .ok a := by
  unfold loadArray
  rw [h]
  unfold entryOf fileOf
  cases isText a <;> rfl

theorem loadSplit_saved {isText : A → Bool} {fs : List (String × File A M)} {name : String}
    {s : Split A} (h : ∀ p ∈ splitArrays name s,
      Assoc.get fs (entryOf isText p.1 p.2).path = some (fileOf isText p.2)) :
    loadSplit fs (splitLayout isText name s) = .ok s := by
  unfold loadSplit splitLayout
  rw [ebind_of_ok (loadArray_saved (h (name ++ "_X", s.X) (by simp [splitArrays]))),
    ebind_of_ok (loadArray_saved (h (name ++ "_y", s.y) (by simp [splitArrays])))]
  rw [ebind_ok]
  refine ⟨s.edges, ?_, ?_⟩
  · cases hE : s.edges with
    | none => rfl
    | some e =>
      exact emap_ok.mpr ⟨e, loadArray_saved (h (name ++ "_edges", e) (by simp [splitArrays, hE])), rfl⟩
  · rw [ebind_ok]
    refine ⟨s.masks, ?_, ?_⟩
    · cases hM : s.masks with
      | none => rfl
      | some ms =>
        refine emap_ok.mpr ⟨ms, mapM_ok.mpr ?_, rfl⟩
        have hms : ∀ p ∈ ms, (name ++ "_mask_" ++ p.1, p.2) ∈ splitArrays name s := by
          intro p hp
          simp only [splitArrays, hM, List.mem_append, List.mem_map]
          exact Or.inr ⟨p, hp, rfl⟩
        clear hM
        induction ms with
        | nil => exact .nil
        | cons p ms ih =>
          refine .cons ?_ (ih (fun q hq => hms q (by simp [hq])))
          exact emap_ok.mpr ⟨p.2, loadArray_saved (h _ (hms p (by simp))), rfl⟩
    · rfl

theorem loadFiles_saved {isText : A → Bool} {ds : Dataset A M} (hw : ds.WF)
    {fs : List (String × File A M)}
    (h : ∀ k, Assoc.get fs k = Assoc.get (dsFiles isText ds) k) : loadFiles fs = .ok ds := by
  have hn := dsFiles_nodup isText hw
  have hmem : ∀ p ∈ dsArrays ds, Assoc.get fs (entryOf isText p.1 p.2).path = some (fileOf isText p.2) := by
    intro p hp
    rw [h]
    exact Assoc.get_of_mem hn (by
      unfold dsFiles
      exact List.mem_append_left _ (List.mem_map.mpr ⟨p, hp, rfl⟩))
  have hL : Assoc.get fs "layout.json" = some (.layoutJson (layoutOf isText ds)) := by
    rw [h]
    exact Assoc.get_of_mem hn (by simp [dsFiles])
  have hM : Assoc.get fs "meta.json" = some (.metaJson ds.info) := by
    rw [h]
    exact Assoc.get_of_mem hn (by simp [dsFiles])
  unfold loadFiles
  rw [hL]
  simp only
  rw [ebind_ok]
  refine ⟨ds.train, loadSplit_saved (fun p hp => hmem p (by simp [dsArrays, hp])), ?_⟩
  rw [ebind_ok]
  refine ⟨ds.test, ?_, ?_⟩
  · cases hT : ds.test with
    | none => simp [layoutOf, hT, optM]
    | some t =>
      simp only [layoutOf, hT, Option.map_some]
      exact emap_ok.mpr ⟨t, loadSplit_saved (fun p hp => hmem p (by simp [dsArrays, hT, hp])), rfl⟩
  · rw [hM]
    rfl

/-! ## Crash points -/

/-- The directory has no readable layout. -/
def BadLayout (d : Disk A M) : Prop :=
  ∀ fs, d.dir = some fs → ∀ l, Assoc.get fs "layout.json" ≠ some (.layoutJson l)

theorem load_bad {d : Disk A M} (h : BadLayout d) : ∃ e, load d = .error e := by
  unfold load
  cases hd : d.dir with
  | none => exact ⟨_, rfl⟩
  | some fs =>
    simp only
    have := h fs hd
    unfold loadFiles
    cases hl : Assoc.get fs "layout.json" with
    | none => exact ⟨_, rfl⟩
    | some c =>
      cases c with
      | layoutJson l => exact absurd hl (this l)
      | torn => exact ⟨_, rfl⟩
      | npy _ => exact ⟨_, rfl⟩
      | jsonlGz _ => exact ⟨_, rfl⟩
      | metaJson _ => exact ⟨_, rfl⟩

/-- Operations that cannot complete a layout and are not about manifest or index. -/
def Op.NoLayout : Op A M → Prop
  | .endWrite n _ => n ≠ "layout.json"
  | _ => True

theorem bad_step {op : Op A M} {d : Disk A M} (ho : op.NoLayout) (h : BadLayout d) :
    BadLayout (op.run d) := by
  intro fs hfs l
  cases op with
  | rmFile n =>
    cases hd : d.dir with
    | none => simp [Op.run, hd] at hfs
    | some g =>
      simp only [Op.run, hd, Option.map_some, Option.some.injEq] at hfs
      subst hfs
      rw [Assoc.get_erase]
      split
      · simp
      · exact h g hd l
  | rmDir => simp [Op.run] at hfs
  | mkdir =>
    simp only [Op.run, Option.some.injEq] at hfs
    cases hd : d.dir with
    | none => rw [hd] at hfs; simp at hfs; subst hfs; simp
    | some g => rw [hd] at hfs; simp at hfs; subst hfs; exact h g hd l
  | beginWrite n =>
    cases hd : d.dir with
    | none => simp [Op.run, hd] at hfs
    | some g =>
      simp only [Op.run, hd, Option.map_some, Option.some.injEq] at hfs
      subst hfs
      rw [Assoc.get_set]
      split
      · simp
      · exact h g hd l
  | endWrite n f =>
    cases hd : d.dir with
    | none => simp [Op.run, hd] at hfs
    | some g =>
      simp only [Op.run, hd, Option.map_some, Option.some.injEq] at hfs
      subst hfs
      rw [Assoc.get_set, if_neg (fun e => ho e.symm)]
      exact h g hd l
  | beginManifest => exact h fs hfs l
  | endManifest => exact h fs hfs l
  | indexUpsert => exact h fs hfs l

theorem bad_run (ops : List (Op A M)) : ∀ {d : Disk A M}, (∀ op ∈ ops, op.NoLayout) → BadLayout d →
    BadLayout (runOps ops d) := by
  induction ops with
  | nil => intro d _ h; exact h
  | cons op ops ih =>
    intro d ho h
    exact ih (fun o hm => ho o (by simp [hm])) (bad_step (ho op (by simp)) h)

/-- All operations of `save` but the last, which completes `layout.json`. -/
theorem saveOps_split (isText : A → Bool) (ds : Dataset A M) :
    ∃ pre, saveOps isText ds = pre ++ [.endWrite "layout.json" (.layoutJson (layoutOf isText ds))] ∧
      ∀ op ∈ pre, op.NoLayout := by
  refine ⟨.mkdir :: (writes ((dsArrays ds).map
    (fun (p : String × A) => ((entryOf isText p.1 p.2).path, (fileOf isText p.2 : File A M)))
      ++ [("meta.json", .metaJson ds.info)]) ++ [.beginWrite "layout.json"]), ?_, ?_⟩
  · simp [saveOps, dsFiles, writes]
  · intro op hop
    simp only [List.mem_cons, List.mem_append, writes, List.mem_flatMap, List.not_mem_nil,
      or_false, List.mem_map] at hop
    rcases hop with rfl | ⟨p, ⟨q, _, rfl⟩ | rfl, hp⟩ | rfl
    · exact trivial
    · rcases hp with rfl | rfl
      · exact trivial
      · exact entry_path_ne_json "layout"
    · rcases hp with rfl | rfl
      · exact trivial
      · show "meta.json" ≠ "layout.json"
        decide
    · exact trivial

/-- Deleting files never turns an unreadable directory into a readable one, nor changes what is
read. -/
theorem rmtree_prefix (order : List String) : ∀ (d : Disk A M) (fs : List (String × File A M)),
    d.dir = some fs → ∃ fs', runOps (order.map .rmFile) d = { d with dir := some fs' } ∧ SubFiles fs' fs := by
  induction order with
  | nil =>
    intro d fs h
    refine ⟨fs, ?_, fun k c h => h⟩
    cases d
    simp only at h
    subst h
    rfl
  | cons n order ih =>
    intro d fs h
    obtain ⟨fs', h1, h2⟩ := ih (Op.run (.rmFile n) d) (Assoc.erase fs n) (by simp [Op.run, h])
    refine ⟨fs', ?_, ?_⟩
    · show runOps (order.map .rmFile) (Op.run (.rmFile n) d) = _
      rw [h1]
      rfl
    · intro k c hc
      have := h2 k c hc
      rw [Assoc.get_erase] at this
      split at this
      · simp at this
      · exact this

theorem rmtree_full (order : List String) (d : Disk A M) :
    runOps (rmtreeOps order d) d = { d with dir := none } := by
  unfold rmtreeOps
  cases h : d.dir with
  | none => cases d; simp only at h; subst h; rfl
  | some fs =>
    simp only
    rw [runOps_append]
    obtain ⟨fs', h1, _⟩ := rmtree_prefix order d fs h
    rw [h1]
    rfl

theorem rmtree_take (order : List String) (n : Nat) (d : Disk A M) :
    (∃ e, load (runOps ((rmtreeOps order d).take n) d) = .error e) ∨
      load (runOps ((rmtreeOps order d).take n) d) = load d := by
  unfold rmtreeOps
  cases h : d.dir with
  | none => right; simp [runOps]
  | some fs =>
    simp only
    rw [List.take_append]
    by_cases hn : n ≤ (order.map (Op.rmFile (A := A) (M := M))).length
    · have : n - (order.map (Op.rmFile (A := A) (M := M))).length = 0 := by omega
      rw [this, List.take_zero, List.append_nil, ← List.map_take]
      obtain ⟨fs', h1, h2⟩ := rmtree_prefix (order.take n) d fs h
      rw [h1]
      cases hl : loadFiles fs' with
      | error e => exact Or.inl ⟨e, hl⟩
      | ok v =>
        right
        show loadFiles fs' = load d
        rw [hl]
        unfold load
        rw [h]
        exact (loadFiles_mono h2 hl).symm
    · left
      rw [List.take_of_length_le (by omega : (order.map (Op.rmFile (A := A) (M := M))).length ≤ n),
        List.take_of_length_le (by simp at hn ⊢; omega), runOps_append]
      exact ⟨.fileNotFound, rfl⟩

end ModSSC.DataLoader.Store
