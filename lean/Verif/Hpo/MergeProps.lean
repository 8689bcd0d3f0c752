import Verif.Hpo.Lemmas

/-!
# C22: merging a patch into a configuration, and flattening a patch
-/

namespace ModSSC.Hpo
open ModSSC Spec

theorem mergeValue_replace {o : Option PyVal} {v : PyVal}
    (h : ¬ IsDict v ∨ ∀ b, o ≠ some (.dict b)) : mergeValue o v = v := by
  rcases h with h | h
  · cases v with
    | dict d => exact absurd ⟨d, rfl⟩ h
    | _ => rcases o with _ | w <;> (try cases w) <;> simp [mergeValue]
  · cases v with
    | dict d =>
      rcases o with _ | w
      · simp [mergeValue]
      · cases w with
        | dict b => exact absurd rfl (h b)
        | _ => simp [mergeValue]
    | _ => rcases o with _ | w <;> (try cases w) <;> simp [mergeValue]

/-- One key of the merged dictionary. -/
theorem get_deepMerge : ∀ (p b : List (String × PyVal)) (k : String), (Assoc.keys p).Nodup →
    Assoc.get (deepMerge b p) k = match Assoc.get p k with
      | none => Assoc.get b k
      | some v => some (mergeValue (Assoc.get b k) v)
  | [], b, k, _ => by simp [deepMerge]
  | (k0, v0) :: p, b, k, hn => by
    unfold Assoc.keys at hn
    rw [List.map_cons, List.nodup_cons] at hn
    have hk0 : Assoc.get p k0 = none := Assoc.get_eq_none_iff.mpr hn.1
    unfold deepMerge
    rw [get_deepMerge p _ k hn.2, Assoc.get_cons]
    by_cases hk : k0 = k
    · subst hk
      rw [hk0, if_pos rfl, Assoc.get_set_self]
    · rw [if_neg hk]
      cases Assoc.get p k with
      | none => simp only; rw [Assoc.get_set_other _ _ (fun e => hk e.symm)]
      | some v => simp only; rw [Assoc.get_set_other _ _ (fun e => hk e.symm)]

theorem valid_get {d : List (String × PyVal)} (hd : ValidDict d) {k : String} {v : PyVal}
    (h : Assoc.get d k = some v) : Valid v := by
  have hm := Assoc.mem_of_get h
  clear h
  induction d with
  | nil => simp at hm
  | cons p d ih =>
    obtain ⟨k0, v0⟩ := p
    unfold ValidDict at hd
    rcases List.mem_cons.mp hm with he | hm
    · obtain ⟨rfl, rfl⟩ := Prod.mk.inj he
      exact hd.1
    · exact ih hd.2 hm

/-- **C22.** Where the patch has a value that is not a mapping, the result has that value. -/
theorem C22_patch_wins : ∀ (q : List String) (base patch : List (String × PyVal)), Valid (.dict patch) →
    ∀ v, getPath (.dict patch) q = some v → ¬ IsDict v →
    getPath (.dict (deepMerge base patch)) q = some v
  | [], base, patch, _, v, h, hv => by
    rw [getPath_nil] at h
    obtain rfl := Option.some.inj h
    exact absurd ⟨_, rfl⟩ hv
  | k :: q, base, patch, hval, v, h, hv => by
    unfold Valid at hval
    rw [getPath_dict_cons] at h ⊢
    rw [get_deepMerge _ _ _ hval.1]
    cases hk : Assoc.get patch k with
    | none => rw [hk] at h; exact absurd h (by simp)
    | some w =>
      rw [hk] at h
      have h : getPath w q = some v := h
      simp only [Option.bind_some]
      by_cases hw : IsDict w ∧ ∃ b, Assoc.get base k = some (.dict b)
      · obtain ⟨⟨pd, rfl⟩, bd, hb⟩ := hw
        rw [hb]
        simp only [mergeValue]
        exact C22_patch_wins q bd pd (valid_get hval.2 hk) v h hv
      · rw [mergeValue_replace]
        · exact h
        · rw [Classical.not_and_iff_not_or_not] at hw
          rcases hw with hw | hw
          · exact Or.inl hw
          · exact Or.inr (fun b hb => hw ⟨b, hb⟩)

/-- **C22.** Where the patch has a mapping and the base has none, the result has the patch's
mapping unchanged. -/
theorem C22_patch_mapping : ∀ (q : List String) (base patch : List (String × PyVal)),
    Valid (.dict patch) → ∀ v, getPath (.dict patch) q = some v →
    (∀ b, getPath (.dict base) q ≠ some (.dict b)) →
    getPath (.dict (deepMerge base patch)) q = some v
  | [], base, patch, _, v, _, hb => absurd rfl (hb base)
  | k :: q, base, patch, hval, v, h, hb => by
    unfold Valid at hval
    rw [getPath_dict_cons] at h ⊢
    rw [get_deepMerge _ _ _ hval.1]
    cases hk : Assoc.get patch k with
    | none => rw [hk] at h; exact absurd h (by simp)
    | some w =>
      rw [hk] at h
      have h : getPath w q = some v := h
      simp only [Option.bind_some]
      by_cases hw : IsDict w ∧ ∃ b, Assoc.get base k = some (.dict b)
      · obtain ⟨⟨pd, rfl⟩, bd, hbd⟩ := hw
        rw [hbd]
        simp only [mergeValue]
        refine C22_patch_mapping q bd pd (valid_get hval.2 hk) v h ?_
        intro b e
        refine hb b ?_
        rw [getPath_dict_cons, hbd]; exact e
      · rw [mergeValue_replace]
        · exact h
        · rw [Classical.not_and_iff_not_or_not] at hw
          rcases hw with hw | hw
          · exact Or.inl hw
          · exact Or.inr (fun b hb => hw ⟨b, hb⟩)

/-- **C22.** Where both have a mapping, the result has a mapping with exactly the keys of both. -/
theorem C22_both_mappings : ∀ (q : List String) (base patch : List (String × PyVal)),
    Valid (.dict patch) → ∀ bd pd, getPath (.dict patch) q = some (.dict pd) →
    getPath (.dict base) q = some (.dict bd) →
    ∃ md, getPath (.dict (deepMerge base patch)) q = some (.dict md) ∧
      ∀ k, k ∈ Assoc.keys md ↔ k ∈ Assoc.keys bd ∨ k ∈ Assoc.keys pd
  | [], base, patch, hval, bd, pd, hp, hb => by
    rw [getPath_nil] at hp hb
    simp only [Option.some.injEq, PyVal.dict.injEq] at hp hb
    subst hp hb
    refine ⟨_, rfl, ?_⟩
    intro k
    unfold Valid at hval
    rw [Assoc.mem_keys_iff, get_deepMerge _ _ _ hval.1, Assoc.mem_keys_iff, Assoc.mem_keys_iff]
    cases Assoc.get patch k <;> simp
  | k :: q, base, patch, hval, bd, pd, hp, hb => by
    unfold Valid at hval
    rw [getPath_dict_cons] at hp hb ⊢
    rw [get_deepMerge _ _ _ hval.1]
    cases hk : Assoc.get patch k with
    | none => rw [hk] at hp; exact absurd hp (by simp)
    | some w =>
      cases hbk : Assoc.get base k with
      | none => rw [hbk] at hb; exact absurd hb (by simp)
      | some u =>
        rw [hk] at hp
        rw [hbk] at hb
        have hp : getPath w q = some (.dict pd) := hp
        have hb : getPath u q = some (.dict bd) := hb
        simp only [Option.bind_some]
        have hw : IsDict w := by
          cases q with
          | nil => rw [getPath_nil] at hp; exact ⟨_, Option.some.inj hp⟩
          | cons a q =>
            by_contra hc
            rw [getPath_not_dict hc] at hp
            exact absurd hp (by simp)
        have hu : IsDict u := by
          cases q with
          | nil => rw [getPath_nil] at hb; exact ⟨_, Option.some.inj hb⟩
          | cons a q =>
            by_contra hc
            rw [getPath_not_dict hc] at hb
            exact absurd hb (by simp)
        obtain ⟨w', rfl⟩ := hw
        obtain ⟨u', rfl⟩ := hu
        simp only [mergeValue]
        exact C22_both_mappings q u' w' (valid_get hval.2 hk) bd pd hp hb

/-- **C22.** Where the patch says nothing — it has no value at the path and none of the values on
the way to it replaces a whole branch — the result has what the base has. -/
theorem C22_base_kept : ∀ (q : List String) (base patch : List (String × PyVal)), Valid (.dict patch) →
    getPath (.dict patch) q = none →
    (∀ r, r <+: q → ∀ v, getPath (.dict patch) r = some v → IsDict v) →
    getPath (.dict (deepMerge base patch)) q = getPath (.dict base) q
  | [], base, patch, _, h, _ => by rw [getPath_nil] at h; exact absurd h (by simp)
  | k :: q, base, patch, hval, h, hpre => by
    unfold Valid at hval
    rw [getPath_dict_cons] at h ⊢
    rw [get_deepMerge _ _ _ hval.1, getPath_dict_cons]
    cases hk : Assoc.get patch k with
    | none => rfl
    | some w =>
      rw [hk] at h
      have h : getPath w q = none := h
      have hw : IsDict w := hpre [k] (by simp) w (by rw [getPath_dict_cons, hk]; simp)
      obtain ⟨pd, rfl⟩ := hw
      simp only [Option.bind_some]
      cases hb : Assoc.get base k with
      | none =>
        rw [mergeValue_replace (Or.inr (by simp)), h]; rfl
      | some u =>
        by_cases hu : IsDict u
        · obtain ⟨bd, rfl⟩ := hu
          simp only [mergeValue, Option.bind_some]
          refine C22_base_kept q bd pd (valid_get hval.2 hk) h ?_
          intro r hr v hv
          refine hpre (k :: r) (by rw [List.cons_prefix_cons]; exact ⟨rfl, hr⟩) v ?_
          rw [getPath_dict_cons, hk]; exact hv
        · rw [mergeValue_replace (Or.inr (by rintro b e; exact hu ⟨b, Option.some.inj e⟩)), h]
          cases q with
          | nil => rw [getPath_nil] at h; exact absurd h (by simp)
          | cons a q => simp only [Option.bind_some]; rw [getPath_not_dict hu]

/-- **C22.** A value in the patch that is not a mapping replaces the whole branch: nothing of the
base survives below it. -/
theorem C22_branch_replaced (p r : List String) (k : String) (base patch : List (String × PyVal))
    (hval : Valid (.dict patch)) (v : PyVal) (h : getPath (.dict patch) p = some v) (hv : ¬ IsDict v) :
    getPath (.dict (deepMerge base patch)) (p ++ k :: r) = none := by
  rw [getPath_append, C22_patch_wins p base patch hval v h hv]
  exact getPath_not_dict hv _ _

theorem set_get_self {d : List (String × PyVal)} {k : String} {v : PyVal} (hn : (Assoc.keys d).Nodup)
    (h : Assoc.get d k = some v) : Assoc.set d k v = d := by
  unfold Assoc.set
  rw [if_pos (Assoc.has_iff.mpr (Assoc.mem_keys_iff.mpr ⟨v, h⟩))]
  conv_rhs => rw [← List.map_id d]
  apply List.map_congr_left
  intro p hp
  split
  · rename_i hk
    have hp' : (k, p.2) ∈ d := by rw [← hk]; exact hp
    have := Assoc.get_of_mem hn hp'
    rw [h] at this
    rw [Option.some.inj this, ← hk]; rfl
  · rfl

theorem keys_deepMerge_nodup : ∀ (p b : List (String × PyVal)), (Assoc.keys b).Nodup →
    (Assoc.keys (deepMerge b p)).Nodup
  | [], b, h => by unfold deepMerge; exact h
  | (k, v) :: p, b, h => by
    unfold deepMerge
    exact keys_deepMerge_nodup p _ (Assoc.nodup_keys_set h k _)

mutual
/-- Merging a value over what it was already merged into changes nothing. -/
theorem mergeValue_idem : ∀ (v : PyVal) (o : Option PyVal), (∀ u, o = some u → Valid u) → Valid v →
    mergeValue (some (mergeValue o v)) v = mergeValue o v
  | .dict p, o, ho, hv => by
    unfold Valid at hv
    by_cases h : ∃ b, o = some (.dict b)
    · obtain ⟨b, rfl⟩ := h
      have hb := ho _ rfl
      unfold Valid at hb
      simp only [mergeValue, PyVal.dict.injEq]
      apply deepMerge_idem p
      · exact keys_deepMerge_nodup _ _ hb.1
      · exact hv.1
      · exact hv.2
      · intro k v hm
        rw [get_deepMerge _ _ _ hv.1, Assoc.get_of_mem hv.1 hm]
        refine ⟨_, ?_, rfl⟩
        intro u hu
        exact valid_get hb.2 hu
    · rw [mergeValue_replace (o := o) (Or.inr (fun b e => h ⟨b, e⟩))]
      simp only [mergeValue, PyVal.dict.injEq]
      apply deepMerge_idem p
      · exact hv.1
      · exact hv.1
      · exact hv.2
      · intro k v hm
        refine ⟨none, by simp, ?_⟩
        rw [Assoc.get_of_mem hv.1 hm, mergeValue_replace (o := none) (Or.inr (by simp))]
  | .none, o, _, _ => by rw [mergeValue_replace (Or.inl (by rintro ⟨_, h⟩; cases h)),
      mergeValue_replace (Or.inl (by rintro ⟨_, h⟩; cases h))]
  | .bool b, o, _, _ => by rw [mergeValue_replace (Or.inl (by rintro ⟨_, h⟩; cases h)),
      mergeValue_replace (Or.inl (by rintro ⟨_, h⟩; cases h))]
  | .int i, o, _, _ => by rw [mergeValue_replace (Or.inl (by rintro ⟨_, h⟩; cases h)),
      mergeValue_replace (Or.inl (by rintro ⟨_, h⟩; cases h))]
  | .flt q, o, _, _ => by rw [mergeValue_replace (Or.inl (by rintro ⟨_, h⟩; cases h)),
      mergeValue_replace (Or.inl (by rintro ⟨_, h⟩; cases h))]
  | .str s, o, _, _ => by rw [mergeValue_replace (Or.inl (by rintro ⟨_, h⟩; cases h)),
      mergeValue_replace (Or.inl (by rintro ⟨_, h⟩; cases h))]
  | .list l, o, _, _ => by rw [mergeValue_replace (Or.inl (by rintro ⟨_, h⟩; cases h)),
      mergeValue_replace (Or.inl (by rintro ⟨_, h⟩; cases h))]

/-- A patch already merged in changes nothing. -/
theorem deepMerge_idem : ∀ (p m : List (String × PyVal)), (Assoc.keys m).Nodup →
    (Assoc.keys p).Nodup → ValidDict p →
    (∀ k v, (k, v) ∈ p → ∃ o : Option PyVal, (∀ u, o = some u → Valid u) ∧
      Assoc.get m k = some (mergeValue o v)) →
    deepMerge m p = m
  | [], m, _, _, _, _ => by simp [deepMerge]
  | (k, v) :: p, m, hm, hp, hv, h => by
    unfold deepMerge
    obtain ⟨o, ho, hg⟩ := h k v (by simp)
    unfold ValidDict at hv
    unfold Assoc.keys at hp
    rw [List.map_cons, List.nodup_cons] at hp
    rw [hg, mergeValue_idem v o ho hv.1, set_get_self hm hg]
    exact deepMerge_idem p m hm hp.2 hv.2 (fun k' v' h' => h k' v' (by simp [h']))
end

/-- **C22.** Merging the same patch twice is merging it once. -/
theorem C22_idempotent (base patch : List (String × PyVal)) (hb : Valid (.dict base))
    (hp : Valid (.dict patch)) :
    deepMerge (deepMerge base patch) patch = deepMerge base patch := by
  unfold Valid at hb hp
  apply deepMerge_idem
  · exact keys_deepMerge_nodup _ _ hb.1
  · exact hp.1
  · exact hp.2
  · intro k v hm
    rw [get_deepMerge _ _ _ hp.1, Assoc.get_of_mem hp.1 hm]
    exact ⟨_, fun u hu => valid_get hb.2 hu, rfl⟩

/-- **C22.** An empty patch changes nothing, and the keys of the base keep their order, with new
keys after them. -/
theorem C22_key_order (base patch : List (String × PyVal)) :
    deepMerge base [] = base ∧ Assoc.keys base <+: Assoc.keys (deepMerge base patch) := by
  refine ⟨by simp [deepMerge], ?_⟩
  induction patch generalizing base with
  | nil => simp [deepMerge]
  | cons p patch ih =>
    obtain ⟨k, v⟩ := p
    unfold deepMerge
    refine List.IsPrefix.trans ?_ (ih _)
    rw [Assoc.keys_set]
    split
    · exact List.prefix_rfl
    · exact List.prefix_append _ _

/-! ### `flatten_patch` -/

/-- Not a non-empty mapping: a value `flatten_patch` reports. -/
def Terminal (v : PyVal) : Prop := ∀ d, v = .dict d → d = []

mutual
theorem mem_flatValue : ∀ (w : PyVal) (pre : List String) (name : String) (v : PyVal), Valid w →
    ((name, v) ∈ flatValue w pre ↔
      ∃ q, name = dotted (pre ++ q) ∧ getPath w q = some v ∧ Terminal v)
  | .dict d, pre, name, v, hv => by
    unfold Valid at hv
    unfold flatValue
    split
    · rename_i h0
      subst h0
      constructor
      · intro h
        simp only [List.mem_singleton, Prod.mk.injEq] at h
        refine ⟨[], by simpa using h.1, by simp [h.2], ?_⟩
        intro e he
        rw [h.2] at he
        simpa using he.symm
      · rintro ⟨q, hn, hg, _⟩
        cases q with
        | nil => simp at hg hn; simp [hn, hg]
        | cons a q => rw [getPath_dict_cons] at hg; simp at hg
    · rename_i h0
      rw [List.mem_flatMap]
      constructor
      · rintro ⟨x, hx, hm⟩
        obtain ⟨k, u, q, hk, hn, hg, hT⟩ := (mem_flatWalk d pre name v hv.2).mp
          ⟨x.1, x.2, (byKey_perm _).mem_iff.mp hx, hm⟩
        refine ⟨k :: q, hn, ?_, hT⟩
        rw [getPath_dict_cons, Assoc.get_of_mem hv.1 hk]
        exact hg
      · rintro ⟨q, hn, hg, hT⟩
        cases q with
        | nil =>
          rw [getPath_nil] at hg
          obtain rfl := Option.some.inj hg
          exact absurd (hT d rfl) h0
        | cons k q =>
          rw [getPath_dict_cons] at hg
          cases hk : Assoc.get d k with
          | none => rw [hk] at hg; exact absurd hg (by simp)
          | some u =>
            rw [hk] at hg
            obtain ⟨a, l, hx, hm⟩ := (mem_flatWalk d pre name v hv.2).mpr
              ⟨k, u, q, Assoc.mem_of_get hk, hn, hg, hT⟩
            exact ⟨(a, l), (byKey_perm _).mem_iff.mpr hx, hm⟩
  | .none, pre, name, v, _ => by unfold flatValue; exact mem_flat_leaf (by rintro ⟨_, h⟩; cases h)
  | .bool b, pre, name, v, _ => by unfold flatValue; exact mem_flat_leaf (by rintro ⟨_, h⟩; cases h)
  | .int i, pre, name, v, _ => by unfold flatValue; exact mem_flat_leaf (by rintro ⟨_, h⟩; cases h)
  | .flt q, pre, name, v, _ => by unfold flatValue; exact mem_flat_leaf (by rintro ⟨_, h⟩; cases h)
  | .str s, pre, name, v, _ => by unfold flatValue; exact mem_flat_leaf (by rintro ⟨_, h⟩; cases h)
  | .list l, pre, name, v, _ => by unfold flatValue; exact mem_flat_leaf (by rintro ⟨_, h⟩; cases h)

theorem mem_flatWalk : ∀ (d : List (String × PyVal)) (pre : List String) (name : String) (v : PyVal),
    ValidDict d →
    ((∃ a l, (a, l) ∈ flatWalk d pre ∧ (name, v) ∈ l) ↔
      ∃ k u q, (k, u) ∈ d ∧ name = dotted (pre ++ k :: q) ∧ getPath u q = some v ∧ Terminal v)
  | [], pre, name, v, _ => by simp [flatWalk]
  | (k0, u0) :: d, pre, name, v, hv => by
    unfold ValidDict at hv
    unfold flatWalk
    have ih1 := mem_flatValue u0 (pre ++ [k0]) name v hv.1
    have ih2 := mem_flatWalk d pre name v hv.2
    constructor
    · rintro ⟨a, l, hx, hm⟩
      rcases List.mem_cons.mp hx with he | hx
      · obtain ⟨rfl, rfl⟩ := Prod.mk.inj he
        obtain ⟨q, hn, hg, hT⟩ := ih1.mp hm
        exact ⟨a, u0, q, by simp, by simpa using hn, hg, hT⟩
      · obtain ⟨k, u, q, hk, rest⟩ := ih2.mp ⟨a, l, hx, hm⟩
        exact ⟨k, u, q, by simp [hk], rest⟩
    · rintro ⟨k, u, q, hk, hn, hg, hT⟩
      rcases List.mem_cons.mp hk with he | hk
      · obtain ⟨rfl, rfl⟩ := Prod.mk.inj he
        exact ⟨k, _, by simp, ih1.mpr ⟨q, by simpa using hn, hg, hT⟩⟩
      · obtain ⟨a, l, hx, hm⟩ := ih2.mpr ⟨k, u, q, hk, hn, hg, hT⟩
        exact ⟨a, l, by simp [hx], hm⟩

theorem mem_flat_leaf {w v : PyVal} {pre : List String} {name : String} (hw : ¬ IsDict w) :
    (name, v) ∈ [(dotted pre, w)] ↔ ∃ q, name = dotted (pre ++ q) ∧ getPath w q = some v ∧ Terminal v := by
  constructor
  · intro h
    simp only [List.mem_singleton, Prod.mk.injEq] at h
    obtain ⟨rfl, rfl⟩ := h
    exact ⟨[], by simp, by simp, fun d hd => absurd ⟨d, hd⟩ hw⟩
  · rintro ⟨q, hn, hg, _⟩
    cases q with
    | nil => simp at hg hn; simp [hn, hg]
    | cons a q => rw [getPath_not_dict hw] at hg; exact absurd hg (by simp)
end

theorem get_foldl_set {name : String} {v : PyVal} : ∀ (l : List (String × PyVal)) (d : List (String × PyVal)),
    (∀ w, (name, w) ∈ l → w = v) → ((name, v) ∈ l ∨ Assoc.get d name = some v) →
    Assoc.get (l.foldl (fun out p => Assoc.set out p.1 p.2) d) name = some v
  | [], d, _, h => by
    rcases h with h | h
    · exact absurd h (by simp)
    · exact h
  | (k, w) :: l, d, hu, h => by
    rw [List.foldl_cons]
    apply get_foldl_set l _ (fun w' hw' => hu w' (by simp [hw']))
    dsimp only
    by_cases hk : k = name
    · subst hk
      right
      rw [Assoc.get_set_self, hu w (by simp)]
    · rcases h with h | h
      · rcases List.mem_cons.mp h with he | h
        · exact absurd (Prod.mk.inj he).1.symm hk
        · exact Or.inl h
      · right
        rw [Assoc.get_set_other _ _ (fun e => hk e.symm)]
        exact h

theorem mem_of_get_foldl_set {name : String} {v : PyVal} :
    ∀ (l : List (String × PyVal)) (d : List (String × PyVal)),
    Assoc.get (l.foldl (fun out p => Assoc.set out p.1 p.2) d) name = some v →
    (name, v) ∈ l ∨ Assoc.get d name = some v
  | [], d, h => Or.inr h
  | (k, w) :: l, d, h => by
    rw [List.foldl_cons] at h
    rcases mem_of_get_foldl_set l _ h with h | h
    · exact Or.inl (by simp [h])
    · dsimp only at h
      rw [Assoc.get_set] at h
      split at h
      · rename_i hk
        left
        rw [hk, ← Option.some.inj h]; simp
      · exact Or.inr h

theorem split_first {c : Char} : ∀ {a b x y : List Char}, c ∉ a → c ∉ b → a ++ c :: x = b ++ c :: y →
    a = b ∧ x = y
  | [], [], x, y, _, _, h => by simpa using h
  | [], d :: b, x, y, _, hb, h => by
    simp only [List.nil_append, List.cons_append, List.cons.injEq] at h
    exact absurd (by simp [h.1]) hb
  | d :: a, [], x, y, ha, _, h => by
    simp only [List.nil_append, List.cons_append, List.cons.injEq] at h
    exact absurd (by simp [h.1]) ha
  | d :: a, e :: b, x, y, ha, hb, h => by
    simp only [List.cons_append, List.cons.injEq] at h
    obtain ⟨h1, h2⟩ := split_first (fun hc => ha (by simp [hc])) (fun hc => hb (by simp [hc])) h.2
    exact ⟨by rw [h.1, h1], h2⟩

theorem dotted_toList (k k' : String) (ks : List String) :
    (dotted (k :: k' :: ks)).toList = k.toList ++ '.' :: (dotted (k' :: ks)).toList := by
  show (k ++ "." ++ dotted (k' :: ks)).toList = _
  rw [String.toList_append, String.toList_append]
  simp

theorem dotted_inj : ∀ (p q : List String), p ≠ [] → q ≠ [] → (∀ k ∈ p, '.' ∉ k.toList) →
    (∀ k ∈ q, '.' ∉ k.toList) → dotted p = dotted q → p = q
  | [], _, h, _, _, _, _ => absurd rfl h
  | _, [], _, h, _, _, _ => absurd rfl h
  | [k], [l], _, _, _, _, h => by simpa [dotted] using h
  | [k], l :: l' :: ls, _, _, hp, _, h => by
    exfalso
    apply hp k (by simp)
    have : k.toList = (dotted (l :: l' :: ls)).toList := by rw [← h]; rfl
    rw [this, dotted_toList]; simp
  | k :: k' :: ks, [l], _, _, _, hq, h => by
    exfalso
    apply hq l (by simp)
    have : l.toList = (dotted (k :: k' :: ks)).toList := by rw [h]; rfl
    rw [this, dotted_toList]; simp
  | k :: k' :: ks, l :: l' :: ls, _, _, hp, hq, h => by
    have h' : (dotted (k :: k' :: ks)).toList = (dotted (l :: l' :: ls)).toList := by rw [h]
    rw [dotted_toList, dotted_toList] at h'
    obtain ⟨h1, h2⟩ := split_first (hp k (by simp)) (hq l (by simp)) h'
    rw [String.toList_inj.mp h1, dotted_inj (k' :: ks) (l' :: ls) (by simp) (by simp)
      (fun x hx => hp x (by simp [hx])) (fun x hx => hq x (by simp [hx])) (String.toList_inj.mp h2)]

theorem mem_flatten (patch : List (String × PyVal)) (hv : Valid (.dict patch)) (name : String) (v : PyVal) :
    (name, v) ∈ (byKey (flatWalk patch [])).flatMap (·.2) ↔
      ∃ q, q ≠ [] ∧ name = dotted q ∧ getPath (.dict patch) q = some v ∧ Terminal v := by
  unfold Valid at hv
  rw [List.mem_flatMap]
  constructor
  · rintro ⟨x, hx, hm⟩
    obtain ⟨k, u, q, hk, hn, hg, hT⟩ := (mem_flatWalk patch [] name v hv.2).mp
      ⟨x.1, x.2, (byKey_perm _).mem_iff.mp hx, hm⟩
    refine ⟨k :: q, by simp, by simpa using hn, ?_, hT⟩
    rw [getPath_dict_cons, Assoc.get_of_mem hv.1 hk]; exact hg
  · rintro ⟨q, h0, hn, hg, hT⟩
    cases q with
    | nil => exact absurd rfl h0
    | cons k q =>
      rw [getPath_dict_cons] at hg
      cases hk : Assoc.get patch k with
      | none => rw [hk] at hg; exact absurd hg (by simp)
      | some u =>
        rw [hk] at hg
        obtain ⟨a, l, hx, hm⟩ := (mem_flatWalk patch [] name v hv.2).mpr
          ⟨k, u, q, Assoc.mem_of_get hk, by simpa using hn, hg, hT⟩
        exact ⟨(a, l), (byKey_perm _).mem_iff.mpr hx, hm⟩

/-- **C22.** The flat view of a patch whose keys contain no dot lists exactly its values: the entry
under a dotted name is the value at that path, and nothing else is listed. -/
theorem C22_flatten (patch : List (String × PyVal)) (hv : Valid (.dict patch))
    (hdot : ∀ q v, getPath (.dict patch) q = some v → ∀ k ∈ q, '.' ∉ k.toList) (name : String) (v : PyVal) :
    Assoc.get (flattenPatch patch) name = some v ↔
      ∃ q, q ≠ [] ∧ name = dotted q ∧ getPath (.dict patch) q = some v ∧ Terminal v := by
  unfold flattenPatch
  constructor
  · intro h
    rcases mem_of_get_foldl_set _ _ h with h | h
    · exact (mem_flatten patch hv name v).mp h
    · exact absurd h (by simp)
  · rintro ⟨q, h0, hn, hg, hT⟩
    apply get_foldl_set
    · intro w hw
      obtain ⟨q', h0', hn', hg', _⟩ := (mem_flatten patch hv name w).mp hw
      have : q' = q := dotted_inj q' q h0' h0 (hdot q' w hg') (hdot q v hg) (hn'.symm.trans hn)
      rw [this, hg] at hg'
      exact (Option.some.inj hg').symm
    · exact Or.inl ((mem_flatten patch hv name v).mpr ⟨q, h0, hn, hg, hT⟩)

/-- With a dot inside a key two different values share a name and one is lost from the flat view
(the patch itself is unaffected). -/
theorem C22_flatten_dot_collision :
    flattenPatch [("a", .dict [("b", .int 1)]), ("a.b", .int 2)] = [("a.b", .int 2)] := by
  decide +kernel

/-! ### The hypotheses are met -/

/-- A base configuration and a patch that exercise every case. -/
def demoBase : List (String × PyVal) :=
  [("method", .dict [("id", .str "x"), ("params", .dict [("lr", .int 1), ("k", .int 2)])]), ("seed", .int 0)]

/-- Changes `lr`, adds `z`. -/
def demoPatch : List (String × PyVal) :=
  [("method", .dict [("params", .dict [("lr", .int 5), ("z", .dict [("w", .int 7)])])])]

example : Valid (.dict demoBase) ∧ Valid (.dict demoPatch) := by
  simp [Valid, ValidDict, demoBase, demoPatch, Assoc.keys]

example : deepMerge demoBase demoPatch =
    [("method", .dict [("id", .str "x"), ("params", .dict [("lr", .int 5), ("k", .int 2),
      ("z", .dict [("w", .int 7)])])]), ("seed", .int 0)] := by decide +kernel

example : getPath (.dict demoPatch) ["method", "params", "lr"] = some (.int 5) ∧ ¬ IsDict (.int 5) :=
  ⟨by decide +kernel, by rintro ⟨_, h⟩; cases h⟩

example : flattenPatch demoPatch = [("method.params.lr", .int 5), ("method.params.z.w", .int 7)] := by
  decide +kernel

end ModSSC.Hpo
