import Verif.DataLoader.ServiceModel
import Verif.DataLoader.StoreProps

/-!
# `load_dataset`: properties
-/

/-! ### Specification -/

namespace ModSSC.DataLoader.Service.Spec
open ModSSC ModSSC.DataLoader.Store ModSSC.DataLoader.Service

variable {V A : Type}

mutual
/-- JSON data that is stored as it is: no list longer than 50, no key twice. -/
def Small : PyVal → Prop
  | .list l => l.length ≤ 50 ∧ SmallList l
  | .dict d => (d.map (·.1)).Nodup ∧ SmallMap d
  | _ => True

/-- The same for all elements of a list. -/
def SmallList : List PyVal → Prop
  | [] => True
  | v :: l => Small v ∧ SmallList l

/-- The same for all values of a dictionary. -/
def SmallMap : List (String × PyVal) → Prop
  | [] => True
  | (_, v) :: l => Small v ∧ SmallMap l
end

/-- The identity a user asks for: all that the fingerprint covers (everything but the name of the pip extra). -/
def payload (i : Identity V) : List Char × List Char × List Char × Option (List Char) × List Char × List Char × List (String × V) :=
  (i.provider, i.uri, i.datasetId, i.version, i.modality, i.task, i.kwargs)

/-- An ideal cache: for every fingerprint the dataset the provider delivered, or nothing. -/
abbrev Held (A : Type) := String → Option (Provided A)

/-- A dataset as it comes back from the cache. -/
def recalled (E : Env V A) (fp : String) (p : Provided A) : Dataset A Meta :=
  let ds := E.rebase fp (fromDisk (onDisk (p.labelled fp)))
  ⟨ds.train, ds.test, withFp fp ds.info⟩

/-- What a request must answer and do, given the identity and fingerprint of its dataset: held datasets are returned unless
`force`; otherwise the provider is asked, once, if `download` allows; only its success changes what is held. -/
def serve (E : Env V A) (i : Identity V) (fp : String) (download force : Bool) (answer : Except PyErr (Provided A))
    (held : Held A) : Except PyErr (Dataset A Meta) × Held A × List (Identity V) :=
  match force, held fp, download, answer with
  | false, some p, _, _ => (.ok (recalled E fp p), held, [])
  | _, _, false, _ => (.error .runtimeError, held, [])
  | _, _, true, .error e => (.error e, held, [i])
  | _, _, true, .ok p => (.ok (p.labelled fp), fun f => if f = fp then some p else held f, [i])

/-- The answers, the datasets held and the provider calls after a history, starting with `held`. -/
def run (E : Env V A) : List (Op V A) → Held A → List (Option (Except PyErr (Dataset A Meta))) × Held A × List (Identity V)
  | [], held => ([], held, [])
  | .purge fps :: l, held =>
    let r := run E l fun f => if f ∈ fps then none else held f
    (none :: r.1, r.2)
  | .load id options download force answer _ :: l, held =>
    match resolveIdentity E id options with
    | .error e => let r := run E l held; (some (.error e) :: r.1, r.2)
    | .ok i =>
      match E.fingerprint i with
      | .error e => let r := run E l held; (some (.error e) :: r.1, r.2)
      | .ok fp =>
        let a := serve E i fp download force (answer i) held
        let r := run E l a.2.1
        (some a.1 :: r.1, r.2.1, a.2.2 ++ r.2.2)

/-- The arrays of a provider can be stored: mask names do not repeat. -/
def Storable (p : Provided A) : Prop :=
  Dataset.WF (⟨p.train, p.test, []⟩ : Dataset A (List (String × PyVal)))

/-- All provider answers of a history can be stored. -/
def AllStorable (ops : List (Op V A)) : Prop :=
  ∀ op ∈ ops, ∀ id o d f answer ord, op = .load id o d f answer ord → ∀ i p, answer i = .ok p → Storable p

end ModSSC.DataLoader.Service.Spec

namespace ModSSC.DataLoader.Service
open ModSSC ModSSC.DataLoader ModSSC.DataLoader.Store Spec
set_option linter.unusedSectionVars false

variable {V A : Type}

/-! ### Refinement -/

/-- The cache directory holds what it should. -/
def Agrees (held : Held A) (w : World V A) : Prop :=
  ∀ fp, match held fp with
    | none => isCached (w.disk fp) = false
    | some p => isCached (w.disk fp) = true ∧ load (w.disk fp) = .ok (onDisk (p.labelled fp))

theorem tryCached_held (E : Env V A) {held : Held A} {w : World V A} (h : Agrees held w) (fp : String) (force : Bool) :
    tryCached E fp force w = (if force = false then (held fp).map fun p => .ok (recalled E fp p) else none, w) := by
  have hf := h fp
  unfold tryCached
  cases force with
  | true => simp
  | false =>
    cases hh : held fp with
    | none => rw [hh] at hf; simp only at hf; simp [hf]
    | some p =>
      rw [hh] at hf
      obtain ⟨h1, h2⟩ := hf
      rw [if_pos ⟨rfl, h1⟩]
      simp [loadProcessed, h2, Except.map, recalled]

theorem storable_wf {p : Provided A} (h : Storable p) (fp : String) : (onDisk (p.labelled fp)).WF := h

theorem serve_ok (E : Env V A) {held : Held A} {w : World V A} (h : Agrees held w) (i : Identity V) (fp : String)
    (download force : Bool) (answer : Identity V → Except PyErr (Provided A)) (order : List String)
    (hs : ∀ p, answer i = .ok p → Storable p) :
    let s := serve E i fp download force (answer i) held
    let r := loadResolved E i fp download force answer order w
    r.1 = s.1 ∧ Agrees s.2.1 r.2 ∧ r.2.calls = w.calls ++ s.2.2 := by
  intro s r
  simp only [s, r]
  unfold loadResolved
  have ht := tryCached_held E h fp force
  by_cases hc : force = false ∧ (held fp).isSome = true
  · obtain ⟨rfl, hp⟩ := hc
    obtain ⟨p, hp⟩ := Option.isSome_iff_exists.mp hp
    rw [ht]
    simp only [hp, serve, if_true, Option.map_some]
    exact ⟨trivial, h, by simp⟩
  · have hn : (if force = false then (held fp).map fun p => (.ok (recalled E fp p) : Except PyErr (Dataset A Meta)) else none) =
        none := by
      cases force with
      | true => rfl
      | false =>
        cases hh : held fp with
        | none => rfl
        | some p => exact absurd ⟨rfl, by simp [hh]⟩ hc
    rw [hn] at ht
    unfold downloadAndStore
    simp only [ht]
    have hserve : serve E i fp download force (answer i) held = (match download, answer i with
        | false, _ => (.error .runtimeError, held, [])
        | true, .error e => (.error e, held, [i])
        | true, .ok p => (.ok (p.labelled fp), fun f => if f = fp then some p else held f, [i])) := by
      unfold serve
      cases force with
      | true => cases download <;> cases answer i <;> rfl
      | false =>
        cases hh : held fp with
        | some p => exact absurd ⟨rfl, by simp [hh]⟩ hc
        | none => cases download <;> cases answer i <;> rfl
    rw [hserve]
    cases download with
    | false => exact ⟨rfl, h, by simp⟩
    | true =>
      cases ha : answer i with
      | error e => exact ⟨rfl, h, by simp⟩
      | ok p =>
        refine ⟨rfl, ?_, by simp [World.put]⟩
        rw [if_neg (by simp)]
        intro f
        obtain ⟨h1, h2, _⟩ := store_full E.isText order (storable_wf (hs p ha) fp) (w.disk fp)
        by_cases hf : f = fp
        · subst hf
          simp only [if_true, World.put]
          exact ⟨h2, h1⟩
        · simp only [hf, if_false, World.put]
          exact h f

theorem purgeAll_disk (fps : List String) (w : World V A) (f : String) :
    (purgeAll fps w).disk f = if f ∈ fps then {} else w.disk f := by
  induction fps generalizing w with
  | nil => rfl
  | cons g l ih =>
    unfold purgeAll at *
    rw [List.foldl_cons, ih]
    by_cases h1 : f ∈ l
    · simp [h1]
    · by_cases h2 : f = g
      · subst h2; simp [h1, World.put, purge]
      · simp [h1, h2, World.put]

theorem purgeAll_calls (fps : List String) (w : World V A) : (purgeAll fps w).calls = w.calls := by
  induction fps generalizing w with
  | nil => rfl
  | cons g l ih => unfold purgeAll at *; rw [List.foldl_cons, ih]; rfl

theorem run_agrees (E : Env V A) (ops : List (Op V A)) : ∀ (held : Held A) (w : World V A), Agrees held w → AllStorable ops →
    (runHistory E ops w).1 = (run E ops held).1 ∧ Agrees (run E ops held).2.1 (runHistory E ops w).2 ∧
      (runHistory E ops w).2.calls = w.calls ++ (run E ops held).2.2 := by
  induction ops with
  | nil => exact fun held w h _ => ⟨rfl, h, by simp [run, runHistory]⟩
  | cons op ops ih =>
    intro held w h hs
    have hs' : AllStorable ops := fun o ho => hs o (List.mem_cons_of_mem _ ho)
    cases op with
    | purge fps =>
      have h' : Agrees (fun f => if f ∈ fps then none else held f) (purgeAll fps w) := by
        intro f
        simp only [purgeAll_disk]
        by_cases hf : f ∈ fps
        · simp [hf, isCached]
        · simpa [hf] using h f
      obtain ⟨a, b, c⟩ := ih _ _ h' hs'
      simp only [runHistory, run]
      exact ⟨by rw [a], b, by rw [c, purgeAll_calls]⟩
    | load id options download force answer order =>
      simp only [runHistory, run, request]
      cases hr : resolveIdentity E id options with
      | error e =>
        obtain ⟨a, b, c⟩ := ih _ _ h hs'
        exact ⟨by simp [a], b, c⟩
      | ok i =>
        simp only
        cases hf : E.fingerprint i with
        | error e =>
          obtain ⟨a, b, c⟩ := ih _ _ h hs'
          exact ⟨by simp [a], b, c⟩
        | ok fp =>
          simp only
          obtain ⟨p, q, r⟩ := serve_ok E h i fp download force answer order
            (hs _ (List.mem_cons_self ..) id options download force answer order rfl i)
          obtain ⟨a, b, c⟩ := ih _ _ q hs'
          refine ⟨by rw [a, p], b, ?_⟩
          rw [c, r, List.append_assoc]

/-- **C172 (history).**  Over every history of requests and purges from an empty cache directory, every request is answered
as by an ideal cache, and the providers are called exactly when the ideal cache calls them. -/
theorem C172_history (E : Env V A) (ops : List (Op V A)) (hs : AllStorable ops) :
    (runHistory E ops World.empty).1 = (run E ops fun _ => none).1 ∧
    (runHistory E ops World.empty).2.calls = (run E ops fun _ => none).2.2 := by
  obtain ⟨a, _, c⟩ := run_agrees E ops (fun _ => none) World.empty (fun _ => rfl) hs
  exact ⟨a, by simpa [World.empty] using c⟩

/-! ### Consequences -/

/-- The request `op` is for the dataset with this identity and fingerprint. -/
def Spec.Asks (E : Env V A) (op : Op V A) (i : Identity V) (fp : String) : Prop :=
  ∃ id o d f answer ord, op = .load id o d f answer ord ∧ resolveIdentity E id o = .ok i ∧ E.fingerprint i = .ok fp

/-- In this operation the provider would answer `p` for identity `i`. -/
def Spec.Offers (op : Op V A) (i : Identity V) (p : Provided A) : Prop :=
  ∃ id o d f answer ord, op = .load id o d f answer ord ∧ answer i = .ok p

theorem serve_cases (E : Env V A) (i : Identity V) (fp : String) (download force : Bool) (answer : Except PyErr (Provided A))
    (held : Held A) : (∀ ds, (serve E i fp download force answer held).1 = .ok ds →
      (∃ p, held fp = some p ∧ ds = recalled E fp p) ∨ (∃ p, answer = .ok p ∧ ds = p.labelled fp)) ∧
    (∀ g p, (serve E i fp download force answer held).2.1 g = some p →
      held g = some p ∨ (g = fp ∧ answer = .ok p)) := by
  unfold serve
  split
  · exact ⟨fun ds h => .inl ⟨_, by assumption, (Except.ok.inj h).symm⟩, fun g p h => .inl h⟩
  · exact ⟨fun ds h => (by cases h), fun g p h => .inl h⟩
  · exact ⟨fun ds h => (by cases h), fun g p h => .inl h⟩
  · rename_i p _
    refine ⟨fun ds h => .inr ⟨p, rfl, (Except.ok.inj h).symm⟩, fun g q h => ?_⟩
    by_cases e : g = fp
    · simp only [e, if_true, Option.some.injEq] at h
      exact .inr ⟨e, by rw [h]⟩
    · simp only [e, if_false] at h
      exact .inl h

theorem run_provenance (E : Env V A) (all : List (Op V A)) : ∀ (ops pre : List (Op V A)) (held : Held A), all = pre ++ ops →
    (∀ fp p, held fp = some p → ∃ op ∈ pre, ∃ i, Asks E op i fp ∧ Offers op i p) →
    ∀ (n : Nat) (ds : Dataset A Meta), (run E ops held).1[n]? = some (some (.ok ds)) →
      ∃ op' i fp, all[pre.length + n]? = some op' ∧ Asks E op' i fp ∧
        ∃ op ∈ all.take (pre.length + n + 1), ∃ j p, Asks E op j fp ∧ Offers op j p ∧
          (ds = p.labelled fp ∨ ds = recalled E fp p) := by
  intro ops
  induction ops with
  | nil => intro pre held _ _ n ds h; simp [run] at h
  | cons op ops ih =>
    intro pre held hall hheld n ds h
    have hall' : all = (pre ++ [op]) ++ ops := by simp [hall]
    have hlen : (pre ++ [op]).length = pre.length + 1 := by simp
    have hop : all[pre.length]? = some op := by simp [hall]
    have htake : all.take (pre.length + 1) = pre ++ [op] := by
      rw [hall', ← hlen, List.take_left']; rfl
    have lift : ∀ (held' : Held A), (∀ fp p, held' fp = some p → ∃ o ∈ pre ++ [op], ∃ i, Asks E o i fp ∧ Offers o i p) →
        ∀ m, (run E ops held').1[m]? = some (some (.ok ds)) → n = m + 1 →
        ∃ op' i fp, all[pre.length + n]? = some op' ∧ Asks E op' i fp ∧
        ∃ op ∈ all.take (pre.length + n + 1), ∃ j p, Asks E op j fp ∧ Offers op j p ∧
          (ds = p.labelled fp ∨ ds = recalled E fp p) := by
      intro held' hh m hm e
      have := ih (pre ++ [op]) held' hall' hh m ds hm
      rw [hlen] at this
      rw [e, show pre.length + (m + 1) = pre.length + 1 + m from by omega]
      exact this
    have weak : ∀ fp p, held fp = some p → ∃ o ∈ pre ++ [op], ∃ i, Asks E o i fp ∧ Offers o i p := fun fp p hp => by
      obtain ⟨o, ho, r⟩ := hheld fp p hp
      exact ⟨o, List.mem_append_left _ ho, r⟩
    cases op with
    | purge fps =>
      simp only [run] at h
      cases n with
      | zero => simp at h
      | succ m =>
        refine lift _ (fun fp p hp => ?_) m (by simpa using h) rfl
        by_cases hf : fp ∈ fps
        · simp [hf] at hp
        · rw [if_neg hf] at hp; exact weak fp p hp
    | load id options download force answer order =>
      simp only [run] at h
      cases hr : resolveIdentity E id options with
      | error e =>
        rw [hr] at h
        cases n with
        | zero => simp at h
        | succ m => exact lift _ weak m (by simpa using h) rfl
      | ok i =>
        simp only [hr] at h
        cases hf : E.fingerprint i with
        | error e =>
          rw [hf] at h
          cases n with
          | zero => simp at h
          | succ m => exact lift _ weak m (by simpa using h) rfl
        | ok fp =>
          simp only [hf] at h
          have hask : Asks E (.load id options download force answer order) i fp :=
            ⟨id, options, download, force, answer, order, rfl, hr, hf⟩
          have hserve : (∀ ds, (serve E i fp download force (answer i) held).1 = .ok ds →
              (∃ p, held fp = some p ∧ ds = recalled E fp p) ∨ (∃ p, answer i = .ok p ∧ ds = p.labelled fp)) ∧
              (∀ g p, (serve E i fp download force (answer i) held).2.1 g = some p →
                held g = some p ∨ (g = fp ∧ answer i = .ok p)) := by
            exact serve_cases E i fp download force (answer i) held
          cases n with
          | zero =>
            simp only [List.getElem?_cons_zero, Option.some.injEq] at h
            refine ⟨_, i, fp, hop, hask, ?_⟩
            rw [Nat.add_zero, htake]
            rcases hserve.1 ds h with ⟨p, hp, e⟩ | ⟨p, hp, e⟩
            · obtain ⟨o, ho, j, h1, h2⟩ := hheld fp p hp
              exact ⟨o, List.mem_append_left _ ho, j, p, h1, h2, .inr e⟩
            · exact ⟨_, by simp, i, p, hask, ⟨id, options, download, force, answer, order, rfl, hp⟩, .inl e⟩
          | succ m =>
            refine lift _ (fun g p hp => ?_) m (by simpa using h) rfl
            rcases hserve.2 g p hp with hg | ⟨rfl, hg⟩
            · exact weak g p hg
            · exact ⟨_, by simp, i, hask, ⟨id, options, download, force, answer, order, rfl, hg⟩⟩

/-- **C172 (provenance).**  If the fingerprint tells identities apart, every dataset a request returns is one that the
provider delivered, in this or an earlier request of the history, for exactly the identity asked for. -/
theorem C172_provenance (E : Env V A) (hE : ∀ i j fp, E.fingerprint i = .ok fp → E.fingerprint j = .ok fp → payload i = payload j)
    (ops : List (Op V A)) (hs : AllStorable ops) (n : Nat) (ds : Dataset A Meta)
    (h : (runHistory E ops World.empty).1[n]? = some (some (.ok ds))) :
    ∃ op i fp, ops[n]? = some op ∧ Asks E op i fp ∧ ∃ op' ∈ ops.take (n + 1), ∃ j p, payload j = payload i ∧
      Asks E op' j fp ∧ Offers op' j p ∧ (ds = p.labelled fp ∨ ds = recalled E fp p) := by
  rw [(C172_history E ops hs).1] at h
  obtain ⟨op, i, fp, h1, h2, o, h3, j, p, h4, h5, h6⟩ := run_provenance E ops ops [] (fun _ => none) rfl (by simp) n ds h
  simp only [List.length_nil, Nat.zero_add] at h1 h3
  have ⟨_, _, _, _, _, _, _, _, hi⟩ := h2
  have ⟨_, _, _, _, _, _, _, _, hj⟩ := h4
  exact ⟨op, i, fp, h1, h2, o, h3, j, p, hE _ _ _ hj hi, h4, h5, h6⟩

/-! ### Metadata -/

theorem set_set {α β : Type} [DecidableEq α] (d : List (α × β)) (k : α) (v : β) :
    Assoc.set (Assoc.set d k v) k v = Assoc.set d k v := by
  have h : Assoc.has (Assoc.set d k v) k = true :=
    Assoc.has_iff.mpr (Assoc.mem_keys_iff.mpr ⟨v, Assoc.get_set_self d k v⟩)
  have key : ∀ d' : List (α × β), Assoc.has d' k = true → Assoc.set d' k v = d'.map (fun p => if p.1 = k then (k, v) else p) :=
    fun d' h => if_pos h
  rw [key _ h]
  by_cases c : Assoc.has d k = true
  · rw [Assoc.set, if_pos c, List.map_map]
    refine List.map_congr_left fun p _ => ?_
    simp only [Function.comp_apply]
    by_cases e : p.1 = k <;> simp [e]
  · have hk : k ∉ Assoc.keys d := fun m => c (Assoc.has_iff.mpr m)
    rw [Assoc.set, if_neg c, List.map_append]
    congr 1
    · conv_rhs => rw [← List.map_id d]
      refine List.map_congr_left fun p hp => ?_
      rw [if_neg fun e => hk (List.mem_map.mpr ⟨p, hp, e⟩)]; rfl
    · simp

mutual
theorem toJ_ofJ : ∀ v : PyVal, Small v → toJ (ofJ v) = v
  | .none, _ => rfl
  | .bool _, _ => rfl
  | .int _, _ => rfl
  | .flt _, _ => rfl
  | .str _, _ => rfl
  | .list l, h => by
    simp only [Small] at h
    rw [ofJ, toJ, ofJList_length, if_neg (by omega), toJList_ofJList l h.2]
  | .dict d, h => by
    simp only [Small] at h
    rw [ofJ, toJ, toJMap_ofJMap d [] h.2 (by simpa using h.1)]
    rfl

theorem ofJList_length : ∀ l : List PyVal, (ofJList l).length = l.length
  | [] => rfl
  | _ :: l => by rw [ofJList, List.length_cons, List.length_cons, ofJList_length l]

theorem toJList_ofJList : ∀ l : List PyVal, SmallList l → toJList (ofJList l) = l
  | [], _ => rfl
  | v :: l, h => by
    simp only [SmallList] at h
    rw [ofJList, toJList, toJ_ofJ v h.1, toJList_ofJList l h.2]

theorem toJMap_ofJMap : ∀ (d acc : List (String × PyVal)), SmallMap d → ((acc ++ d).map (·.1)).Nodup →
    toJMap acc (ofJMap d) = acc ++ d
  | [], acc, _, _ => by rw [ofJMap, toJMap, List.append_nil]
  | (k, v) :: d, acc, h, hn => by
    simp only [SmallMap] at h
    have hk : Assoc.has acc k = false := by
      rw [Bool.eq_false_iff]
      intro c
      have hm := Assoc.has_iff.mp c
      rw [List.map_append, List.nodup_append] at hn
      exact hn.2.2 _ hm _ (by simp) rfl
    rw [ofJMap, toJMap, MKey.text, toJ_ofJ v h.1, Assoc.set, if_neg (by simp [hk]),
      toJMap_ofJMap d _ h.2 (by simpa using hn), List.append_assoc]
    rfl
end

/-- **C172 (metadata).**  JSON metadata without lists of more than 50 elements survives the cache unchanged. -/
theorem C172_meta (v : PyVal) (h : Small v) : toJ (ofJ v) = v := toJ_ofJ v h

/-! ### Single requests -/

/-- **C172 (offline).**  With `download=False` the provider is never asked, whatever the cache holds. -/
theorem C172_offline (E : Env V A) (id : List Char) (o : List (String × V)) (force : Bool)
    (answer : Identity V → Except PyErr (Provided A)) (order : List String) (w : World V A) :
    (request E id o false force answer order w).2.calls = w.calls := by
  have ht : ∀ fp, (tryCached E fp force w).2.calls = w.calls := by
    intro fp
    unfold tryCached
    split
    · split <;> rfl
    · rfl
  unfold request
  split
  · rfl
  · split
    · rfl
    · rename_i fp _
      unfold loadResolved
      have := ht fp
      split
      · rename_i h; rw [h] at this; exact this
      · rename_i h; rw [h] at this; simpa using this

/-- **C172 (isolation).**  A request touches only the files of its own dataset, whatever the cache holds. -/
theorem C172_isolated (E : Env V A) (id : List Char) (o : List (String × V)) (download force : Bool)
    (answer : Identity V → Except PyErr (Provided A)) (order : List String) (w : World V A) (other : String)
    (h : ∀ i fp, resolveIdentity E id o = .ok i → E.fingerprint i = .ok fp → other ≠ fp) :
    (request E id o download force answer order w).2.disk other = w.disk other := by
  unfold request
  split
  · rfl
  · rename_i i hi
    split
    · rfl
    · rename_i fp hf
      have hne := h i fp hi hf
      have hput : ∀ (w : World V A) d, (w.put fp d).disk other = w.disk other := fun w d => by simp [World.put, hne]
      have ht : ∀ (w : World V A), (tryCached E fp force w).2.disk other = w.disk other := by
        intro w
        unfold tryCached
        split
        · split
          · rfl
          · exact hput w _
          · rfl
        · rfl
      unfold loadResolved
      have h0 := ht w
      split
      · rename_i e; rw [e] at h0; exact h0
      · rename_i w1 e
        rw [e] at h0
        split
        · exact h0
        · unfold downloadAndStore
          have h1 := ht w1
          split
          · rename_i e; rw [e] at h1; exact h1.trans h0
          · rename_i w2 e
            rw [e] at h1
            have h2 := ht w2
            split
            · rename_i e; rw [e] at h2; exact h2.trans (h1.trans h0)
            · rename_i w3 e
              rw [e] at h2
              simp only
              split
              · exact h2.trans (h1.trans h0)
              · simp only [hput]; exact h2.trans (h1.trans h0)

theorem reachable (E : Env V A) (ops : List (Op V A)) (hs : AllStorable ops) :
    ∃ held : Held A, Agrees held (runHistory E ops World.empty).2 :=
  ⟨_, (run_agrees E ops (fun _ => none) World.empty (fun _ => rfl) hs).2.1⟩

/-- **C172 (again).**  After any history, when a request returned a dataset, the same request without `force` returns the
same features, labels, edges and masks again, without asking the provider, without changing the cache, and also offline.
If cached paths need no rebasing and the metadata is small JSON, the answer is the same in every respect. -/
theorem C172_again (E : Env V A) (hE : ∀ fp ds, E.rebase fp ds = ds) (ops : List (Op V A)) (hs : AllStorable ops)
    (id : List Char) (o : List (String × V)) (download force : Bool) (answer : Identity V → Except PyErr (Provided A))
    (order : List String) (ha : ∀ i p, answer i = .ok p → Storable p) (ds : Dataset A Meta)
    (h : (request E id o download force answer order (runHistory E ops World.empty).2).1 = .ok ds)
    (download' : Bool) (answer' : Identity V → Except PyErr (Provided A)) (order' : List String) :
    ∃ ds', request E id o download' false answer' order'
        (request E id o download force answer order (runHistory E ops World.empty).2).2 =
      (.ok ds', (request E id o download force answer order (runHistory E ops World.empty).2).2) ∧
      ds'.train = ds.train ∧ ds'.test = ds.test ∧
      (∀ m, ds.info = ofJMap m → (m.map (·.1)).Nodup → SmallMap m → ds' = ds) := by
  obtain ⟨held, hA⟩ := reachable E ops hs
  generalize (runHistory E ops World.empty).2 = w at hA h
  unfold request at h ⊢
  cases hr : resolveIdentity E id o with
  | error e => rw [hr] at h; cases h
  | ok i =>
    simp only [hr] at h ⊢
    cases hf : E.fingerprint i with
    | error e => rw [hf] at h; cases h
    | ok fp =>
      simp only [hf] at h ⊢
      obtain ⟨h1, h2, _⟩ := serve_ok E hA i fp download force answer order (ha i)
      rw [h1] at h
      generalize (loadResolved E i fp download force answer order w).2 = w1 at h2
      have hheld : ∃ p, (serve E i fp download force (answer i) held).2.1 fp = some p ∧
          (ds = p.labelled fp ∨ ds = recalled E fp p) := by
        revert h
        unfold serve
        split
        · exact fun h => ⟨_, by assumption, .inr (Except.ok.inj h).symm⟩
        · exact fun h => by cases h
        · exact fun h => by cases h
        · exact fun h => ⟨_, by simp, .inl (Except.ok.inj h).symm⟩
      obtain ⟨p, hp, hd⟩ := hheld
      have ht := tryCached_held E h2 fp false
      rw [hp] at ht
      simp only [if_true, Option.map_some] at ht
      unfold loadResolved
      rw [ht]
      refine ⟨_, rfl, ?_, ?_, ?_⟩
      · rcases hd with rfl | rfl <;> simp [recalled, hE, fromDisk, onDisk]
      · rcases hd with rfl | rfl <;> simp [recalled, hE, fromDisk, onDisk]
      · intro m hm hn hsm
        rcases hd with rfl | rfl
        · unfold recalled
          simp only [hE, fromDisk, onDisk]
          rw [hm, toJMap_ofJMap m [] hsm (by simpa using hn), List.nil_append, ← hm]
          simp only [Provided.labelled, withFp, set_set]
        · rfl

/-- **C172 (failure).**  After any history, a request that raises leaves the cache as it was. -/
theorem C172_failed (E : Env V A) (ops : List (Op V A)) (hs : AllStorable ops) (id : List Char) (o : List (String × V))
    (download force : Bool) (answer : Identity V → Except PyErr (Provided A)) (order : List String) (e : PyErr)
    (h : (request E id o download force answer order (runHistory E ops World.empty).2).1 = .error e) :
    (request E id o download force answer order (runHistory E ops World.empty).2).2.disk =
      (runHistory E ops World.empty).2.disk := by
  obtain ⟨held, hA⟩ := reachable E ops hs
  generalize (runHistory E ops World.empty).2 = w at hA h
  unfold request at h ⊢
  cases hr : resolveIdentity E id o with
  | error e => rfl
  | ok i =>
    simp only [hr] at h ⊢
    cases hf : E.fingerprint i with
    | error e => rfl
    | ok fp =>
      simp only [hf] at h ⊢
      have ht := tryCached_held E hA fp force
      generalize (if force = false then (held fp).map fun p => (.ok (recalled E fp p) : Except PyErr (Dataset A Meta))
        else none) = c at ht
      unfold loadResolved downloadAndStore at h ⊢
      rw [ht] at h ⊢
      cases c with
      | some r => rfl
      | none =>
        cases download with
        | false => rfl
        | true =>
          simp only [ht, Bool.true_eq_false, if_false] at h ⊢
          cases hans : answer i with
          | error e => rfl
          | ok p => rw [hans] at h; cases h

/-! ### Identities -/

theorem get_mergeDict (a b : List (String × V)) (hb : (b.map (·.1)).Nodup) (k : String) :
    Assoc.get (mergeDict a b) k = (Assoc.get b k).or (Assoc.get a k) := by
  unfold mergeDict
  induction b generalizing a with
  | nil => simp
  | cons p b ih =>
    rw [List.map_cons, List.nodup_cons] at hb
    rw [List.foldl_cons, ih _ hb.2, Assoc.get_cons, Assoc.get_set]
    by_cases e : p.1 = k
    · subst e
      rw [Assoc.get_eq_none_iff.mpr hb.1]
      simp
    · rw [if_neg e, if_neg (fun h => e h.symm)]

theorem isUri_parse (ws : Char → Bool) (s : List Char) :
    (isUri ws s = false ∧ parseUri ws s = .error .runtimeError) ∨ (isUri ws s = true ∧ ∃ p, parseUri ws s = .ok p) := by
  unfold isUri parseUri
  cases splitColon s with
  | none => exact .inl ⟨rfl, rfl⟩
  | some p =>
    simp only
    by_cases h1 : (strip ws p.1).isEmpty = true
    · simp [h1]
    · by_cases h2 : (strip ws p.2).isEmpty = true
      · simp [h2]
      · right
        simp only [h1, h2, or_self, if_false, Bool.not_eq_true] at *
        simp [h1, h2]

/-- **C172 (catalogue).**  A catalogue key is the URI of its entry, with the user's options laid over those of the entry, but
with the modality and the task of the entry.  Any other name must be a URI; it is resolved with the user's options. -/
theorem C172_catalog (E : Env V A) (id : List Char) (options : List (String × V)) (ho : (options.map (·.1)).Nodup) :
    (∀ spec, Assoc.get E.catalog id = some spec → Assoc.get E.catalog spec.uri = none →
      ∃ merged, (∀ k, Assoc.get merged k = ((Assoc.get options k).or (Assoc.get spec.kwargs k))) ∧
        resolveIdentity E id options =
          (resolveIdentity E spec.uri merged).map fun i => { i with modality := spec.modality, task := spec.task }) ∧
    (Assoc.get E.catalog id = none → isUri E.ws id = false → resolveIdentity E id options = .error .runtimeError) ∧
    (∀ p r, Assoc.get E.catalog id = none → parseUri E.ws id = .ok (p, r) → resolveIdentity E id options = E.resolve p r options) := by
  refine ⟨fun spec h h' => ⟨mergeDict spec.kwargs options, get_mergeDict _ _ ho, ?_⟩, fun h hu => ?_, fun p r h hp => ?_⟩
  · unfold resolveIdentity
    rw [h, h']
    simp only
    rcases isUri_parse E.ws spec.uri with ⟨h1, h2⟩ | ⟨h1, p, h2⟩
    · rw [h1, h2]; rfl
    · rw [h1, h2]; rfl
  · unfold resolveIdentity
    rw [h]
    simp [hu]
  · unfold resolveIdentity
    rw [h]
    rcases isUri_parse E.ws id with ⟨h1, h2⟩ | ⟨h1, q, h2⟩
    · rw [h2] at hp; cases hp
    · simp only [h1, hp]
      simp

/-! ### Violations and a concrete history -/

/-- An environment with one catalogue entry and a provider that takes every reference. -/
def demoEnv : Env Int Nat where
  ws := fun c => decide (c = ' ')
  catalog := [("iris".toList, ⟨"toy:flowers".toList, "tabular".toList, "classification".toList, [("seed", 0)]⟩)]
  resolve := fun p r o => .ok ⟨p, p ++ ':' :: r, r, none, "tabular".toList, "classification".toList, none, o⟩
  fingerprint := fun i => .ok (String.ofList (i.uri ++ i.modality ++ (toString ((Assoc.get i.kwargs "seed").getD 0)).toList))
  isText := fun _ => false
  rebase := fun _ ds => ds

/-- A provider answer: two arrays, and the names of 51 classes. -/
def demoProvided : Provided Nat := ⟨⟨1, 2, none, none⟩, none, some [(.str "names", .list (List.replicate 51 (.str "c")))]⟩

example : Storable demoProvided := ⟨fun ms h => by simp [demoProvided] at h, fun t h => by simp [demoProvided] at h⟩

/-- A history: a first load, the same from the cache, offline, a purge, offline again. -/
def demoOps : List (Op Int Nat) :=
  let load := fun download => Op.load "iris".toList [] download false (fun _ => .ok demoProvided) []
  [load true, load true, load false, .purge ["toy:flowerstabular0"], load false]

example : (runHistory demoEnv demoOps World.empty).2.calls.length = 1 := by decide +kernel

/-- **C172 (metadata, violated).**  Metadata with a long list, a tuple or a key that is no string comes back different from
the cache: the first load and the second differ. -/
theorem C172_meta_violated :
    ∃ ds ds', (runHistory demoEnv demoOps World.empty).1[0]? = some (some (.ok ds)) ∧
      (runHistory demoEnv demoOps World.empty).1[1]? = some (some (.ok ds')) ∧
      Assoc.get (toJMap [] ds.info) "names" = some (.dict [("__type__", .str "list"), ("len", .int 51)]) ∧
      Assoc.get ds'.info (.str "names") = some (ofJ (.dict [("__type__", .str "list"), ("len", .int 51)])) ∧
      Assoc.get ds.info (.str "names") = some (.list (List.replicate 51 (.str "c"))) := by
  refine ⟨_, _, rfl, rfl, ?_, ?_, ?_⟩ <;> rfl

/-- **C172 (keys, violated).**  Two entries whose keys print alike become one. -/
theorem C172_keys_violated : toJMap [] [(.other "1", .str "a"), (.str "1", .str "b")] = [("1", .str "b")] := rfl

/-- **C172 (two names).**  If the provider finds the modality and the task of the catalogue entry itself (as the providers of
all built-in entries do), the catalogue key and the URI with the options of the entry are the same dataset. -/
theorem C172_two_names (E : Env V A) (id : List Char) (spec : Spec V) (h : Assoc.get E.catalog id = some spec)
    (h' : Assoc.get E.catalog spec.uri = none)
    (hm : ∀ i, resolveIdentity E spec.uri spec.kwargs = .ok i → i.modality = spec.modality ∧ i.task = spec.task) :
    resolveIdentity E id [] = resolveIdentity E spec.uri spec.kwargs := by
  unfold resolveIdentity at hm ⊢
  rw [h]
  rw [h'] at hm ⊢
  simp only at hm ⊢
  rcases isUri_parse E.ws spec.uri with ⟨e1, e2⟩ | ⟨e1, p, e2⟩
  · rw [e1, e2]; rfl
  · rw [e1, e2]
    simp only [Bool.true_eq_false, if_false, mergeDict, List.foldl_nil]
    cases hr : E.resolve p.1 p.2 spec.kwargs with
    | error e => rfl
    | ok i =>
      obtain ⟨a, b⟩ := hm i (by rw [e1, e2]; exact hr)
      simp [Except.map, ← a, ← b]

end ModSSC.DataLoader.Service
