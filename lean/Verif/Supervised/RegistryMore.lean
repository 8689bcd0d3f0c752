import Verif.Supervised.RegistryProps

/-!
# Further properties of the classifier registry

What registering does, what the bootstrap leaves behind, which error an unavailable classifier raises.
-/

namespace ModSSC.Supervised
open ModSSC Spec

/-- **C90 (registering a classifier).**  `register_classifier` succeeds exactly if the name is new or already has the same
description and preferences; a known classifier keeps its entry, a new one has no backends yet; a refused one changes
nothing; other classifiers are never touched. -/
theorem C90_register (key description : String) (preferred : List String) (r : Registry) :
    ((registerClassifier key description preferred r).2 = .ok () ↔
      ∀ e, Assoc.get r.specs key = some e → e.description = description ∧ e.preferred = preferred) ∧
    ((registerClassifier key description preferred r).2 = .ok () →
      Assoc.get (registerClassifier key description preferred r).1.specs key =
        some ((Assoc.get r.specs key).getD ⟨description, [], preferred⟩)) ∧
    ((registerClassifier key description preferred r).2 ≠ .ok () →
      registerClassifier key description preferred r = (r, .error .valueError)) ∧
    (∀ k, k ≠ key → Assoc.get (registerClassifier key description preferred r).1.specs k = Assoc.get r.specs k) ∧
    (registerClassifier key description preferred r).1.bootstrapped = r.bootstrapped := by
  unfold registerClassifier
  cases hg : Assoc.get r.specs key with
  | none =>
    simp only
    exact ⟨⟨fun _ e he => by simp at he, fun _ => trivial⟩, fun _ => by simp, fun h => absurd rfl h,
      fun k hk => Assoc.get_set_other _ _ hk, trivial⟩
  | some e =>
    simp only
    by_cases h : e.description ≠ description ∨ e.preferred ≠ preferred
    · rw [if_pos h]
      refine ⟨⟨fun x => (by cases x), fun x => ?_⟩, fun x => (by cases x), fun _ => rfl, fun _ _ => rfl, rfl⟩
      obtain ⟨h1, h2⟩ := x e rfl
      exact absurd h (by simp [h1, h2])
    · rw [if_neg h]
      push Not at h
      exact ⟨⟨fun _ x hx => by obtain rfl := Option.some.inj hx; exact h, fun _ => rfl⟩, fun _ => by simp [hg],
        fun x => absurd rfl x, fun _ _ => rfl, rfl⟩

/-- **C90 (registering a backend).**  `register_backend` succeeds exactly if the classifier is known and has no backend of
that name; then it has this backend, besides those it had; a refused one changes nothing; other classifiers are never
touched. -/
theorem C90_register_backend (cid backend : String) (b : BackendSpec) (r : Registry) :
    ((registerBackend cid backend b r).2 = .ok () ↔
      ∃ s, Assoc.get r.specs cid = some s ∧ Assoc.get s.backends backend = none) ∧
    (∀ s, Assoc.get r.specs cid = some s → Assoc.get s.backends backend = none →
      ∃ s', Assoc.get (registerBackend cid backend b r).1.specs cid = some s' ∧ s'.description = s.description ∧
        s'.preferred = s.preferred ∧ ∀ n, Assoc.get s'.backends n = if n = backend then some b else Assoc.get s.backends n) ∧
    ((registerBackend cid backend b r).2 ≠ .ok () → (registerBackend cid backend b r).1 = r ∧
      ((registerBackend cid backend b r).2 = .error .unknownClassifier ↔ Assoc.get r.specs cid = none)) ∧
    (∀ k, k ≠ cid → Assoc.get (registerBackend cid backend b r).1.specs k = Assoc.get r.specs k) ∧
    (registerBackend cid backend b r).1.bootstrapped = r.bootstrapped := by
  unfold registerBackend
  cases hg : Assoc.get r.specs cid with
  | none => simp
  | some s =>
    simp only
    by_cases h : Assoc.has s.backends backend = true
    · rw [if_pos h]
      have hn : Assoc.get s.backends backend ≠ none := by
        rw [Ne, Assoc.get_eq_none_iff, not_not]; exact Assoc.has_iff.mp h
      refine ⟨⟨fun x => (by cases x), ?_⟩, ?_, fun _ => ⟨rfl, by simp⟩, fun _ _ => rfl, rfl⟩
      · rintro ⟨s', hs, hb⟩
        obtain rfl := Option.some.inj hs
        exact absurd hb hn
      · rintro s' hs hb
        obtain rfl := Option.some.inj hs
        exact absurd hb hn
    · rw [if_neg h]
      have hn : Assoc.get s.backends backend = none := by
        rw [Assoc.get_eq_none_iff]; exact fun x => h (Assoc.has_iff.mpr x)
      refine ⟨⟨fun _ => ⟨s, rfl, hn⟩, fun _ => rfl⟩, ?_, fun x => absurd rfl x, fun k hk => Assoc.get_set_other _ _ hk, rfl⟩
      rintro s' hs -
      obtain rfl := Option.some.inj hs
      exact ⟨_, Assoc.get_set_self _ _ _, rfl, rfl, fun n => Assoc.get_set _ _ _ _⟩

/-! ### The bootstrap -/

theorem registerBackends_new (cid : String) : ∀ (bs : List (String × BackendSpec)) (r : Registry) (s : ClassifierSpec),
    Assoc.get r.specs cid = some s → (Assoc.keys bs).Nodup → (∀ n ∈ Assoc.keys bs, Assoc.get s.backends n = none) →
    ∃ r' s', registerBackends cid bs r = (r', .ok ()) ∧ Assoc.get r'.specs cid = some s' ∧ s'.description = s.description ∧
      s'.preferred = s.preferred ∧ (∀ n, Assoc.get s'.backends n = (Assoc.get s.backends n).or (Assoc.get bs n)) ∧
      (∀ k, k ≠ cid → Assoc.get r'.specs k = Assoc.get r.specs k) ∧ r'.bootstrapped = r.bootstrapped
  | [], r, s, h, _, _ => ⟨r, s, rfl, h, rfl, rfl, by simp, fun _ _ => rfl, rfl⟩
  | b :: bs, r, s, h, hd, hn => by
    have hkeys : Assoc.keys (b :: bs) = b.1 :: Assoc.keys bs := rfl
    rw [hkeys, List.nodup_cons] at hd
    have hb : Assoc.get s.backends b.1 = none := hn b.1 (by rw [hkeys]; exact List.mem_cons_self)
    obtain ⟨q1, q2, -, q4, q5⟩ := C90_register_backend cid b.1 b.2 r
    obtain ⟨s1, a1, a2, a3, a4⟩ := q2 s h hb
    have hok := q1.mpr ⟨s, h, hb⟩
    obtain ⟨r', s', c1, c2, c3, c4, c5, c6, c7⟩ := registerBackends_new cid bs (registerBackend cid b.1 b.2 r).1 s1 a1 hd.2 (by
      intro n hnn
      have hne : n ≠ b.1 := by rintro rfl; exact hd.1 hnn
      rw [a4, if_neg hne]
      exact hn n (by rw [hkeys]; exact List.mem_cons_of_mem _ hnn))
    refine ⟨r', s', ?_, c2, by rw [c3, a2], by rw [c4, a3], fun n => ?_, fun k hk => by rw [c6 k hk, q4 k hk], by rw [c7, q5]⟩
    · simp only [registerBackends]
      cases hr : registerBackend cid b.1 b.2 r with
      | mk r1 x =>
        rw [hr] at hok c1
        simp only at hok c1
        subst hok
        exact c1
    · rw [c5, a4, Assoc.get_cons]
      by_cases hx : n = b.1
      · subst hx
        simp [hb]
      · simp [hx, Ne.symm hx]

theorem registerEntry_new (e : Entry) (r : Registry) (h : Assoc.get r.specs e.key = none) (hd : (Assoc.keys e.backends).Nodup) :
    ∃ r' s', registerEntry e r = (r', .ok ()) ∧ Assoc.get r'.specs e.key = some s' ∧ s'.description = e.description ∧
      s'.preferred = e.preferred ∧ (∀ n, Assoc.get s'.backends n = Assoc.get e.backends n) ∧
      (∀ k, k ≠ e.key → Assoc.get r'.specs k = Assoc.get r.specs k) ∧ r'.bootstrapped = r.bootstrapped := by
  obtain ⟨q1, q2, -, q4, q5⟩ := C90_register e.key e.description e.preferred r
  have hok := q1.mpr (by rw [h]; simp)
  have hs := q2 hok
  rw [h] at hs
  obtain ⟨r', s', c1, c2, c3, c4, c5, c6, c7⟩ := registerBackends_new e.key e.backends _ _ hs hd (by simp)
  refine ⟨r', s', ?_, c2, by rw [c3]; rfl, by rw [c4]; rfl, fun n => by rw [c5]; simp,
    fun k hk => by rw [c6 k hk, q4 k hk], by rw [c7, q5]⟩
  unfold registerEntry
  cases hr : registerClassifier e.key e.description e.preferred r with
  | mk r1 x =>
    rw [hr] at hok c1
    simp only at hok c1
    subst hok
    exact c1

theorem registerEntries_new : ∀ (es : List Entry) (r : Registry), (es.map (·.key)).Nodup →
    (∀ e ∈ es, Assoc.get r.specs e.key = none ∧ (Assoc.keys e.backends).Nodup) →
    ∃ r', registerEntries es r = (r', .ok ()) ∧ (∀ e ∈ es, ∃ s, Assoc.get r'.specs e.key = some s ∧
      s.description = e.description ∧ s.preferred = e.preferred ∧ ∀ n, Assoc.get s.backends n = Assoc.get e.backends n) ∧
      (∀ k, k ∉ es.map (·.key) → Assoc.get r'.specs k = Assoc.get r.specs k) ∧ r'.bootstrapped = r.bootstrapped
  | [], r, _, _ => ⟨r, rfl, by simp, fun _ _ => rfl, rfl⟩
  | e :: es, r, hd, h => by
    rw [List.map_cons, List.nodup_cons] at hd
    obtain ⟨h1, h2⟩ := h e List.mem_cons_self
    obtain ⟨r1, s1, a1, a2, a3, a4, a5, a6, a7⟩ := registerEntry_new e r h1 h2
    obtain ⟨r2, b1, b2, b3, b4⟩ := registerEntries_new es r1 hd.2 (by
      intro x hx
      obtain ⟨x1, x2⟩ := h x (List.mem_cons_of_mem _ hx)
      refine ⟨?_, x2⟩
      rw [a6 x.key (by rintro e1; exact hd.1 (e1 ▸ List.mem_map_of_mem hx))]
      exact x1)
    refine ⟨r2, ?_, ?_, ?_, by rw [b4, a7]⟩
    · simp only [registerEntries, a1]
      exact b1
    · intro x hx
      rcases List.mem_cons.mp hx with rfl | hx
      · exact ⟨s1, by rw [b3 _ hd.1, a2], a3, a4, a5⟩
      · exact b2 x hx
    · intro k hk
      rw [List.map_cons, List.mem_cons, not_or] at hk
      rw [b3 k hk.2, a6 k hk.1]

/-- **C90 (bootstrap).**  In a new interpreter the bootstrap succeeds whenever the built-in names are distinct, and so are
the backends of each; then exactly the built-in classifiers are known, each with its description, preferences and backends;
further bootstraps change nothing. -/
theorem C90_bootstrap (builtins : List Entry) (hd : (builtins.map (·.key)).Nodup)
    (hb : ∀ e ∈ builtins, (Assoc.keys e.backends).Nodup) :
    ∃ r, ensureBootstrap builtins .empty = (r, .ok ()) ∧
      (∀ e ∈ builtins, ∃ s, Assoc.get r.specs e.key = some s ∧ s.description = e.description ∧ s.preferred = e.preferred ∧
        ∀ n, Assoc.get s.backends n = Assoc.get e.backends n) ∧
      (∀ k, k ∉ builtins.map (·.key) → Assoc.get r.specs k = none) ∧
      ∀ others, ensureBootstrap others r = (r, .ok ()) := by
  obtain ⟨r, h1, h2, h3, -⟩ := registerEntries_new builtins .empty hd (fun e he => ⟨rfl, hb e he⟩)
  refine ⟨{ r with bootstrapped := true }, ?_, h2, fun k hk => h3 k hk, fun _ => rfl⟩
  unfold ensureBootstrap
  rw [if_neg (by decide : ¬ Registry.empty.bootstrapped = true), h1]

example : ∃ r, ensureBootstrap [knnEntry] .empty = (r, .ok ()) ∧ (∃ s, Assoc.get r.specs "knn" = some s) ∧
    Assoc.get r.specs "svm" = none := by
  obtain ⟨r, h1, h2, h3, -⟩ := C90_bootstrap [knnEntry] (by decide) (by decide)
  obtain ⟨s, hs, -⟩ := h2 knnEntry (by simp)
  exact ⟨r, h1, ⟨s, hs⟩, h3 "svm" (by decide)⟩

/-! ### Nothing available -/

theorem chooseBackend_none {installed : String → Bool} {spec : ClassifierSpec} : ∀ {l : List String},
    (∀ b ∈ l, ¬ Available installed spec b) → chooseBackend installed spec l = ""
  | [], _ => rfl
  | b :: l, h => by
    have hl := chooseBackend_none (installed := installed) (spec := spec) (l := l) fun x hx => h x (List.mem_cons_of_mem _ hx)
    have hb := h b List.mem_cons_self
    simp only [chooseBackend]
    cases hg : Assoc.get spec.backends b with
    | none => exact hl
    | some s =>
      simp only
      cases hr : s.requiredExtra with
      | none => exact absurd ⟨s, hg, fun e he => by rw [hr] at he; cases he⟩ hb
      | some x =>
        simp only
        by_cases hm : installed (moduleForExtra x) = true
        · refine absurd ⟨s, hg, fun e he => ?_⟩ hb
          rw [hr] at he
          obtain rfl := Option.some.inj he
          rwa [moduleForExtra_eq] at hm
        · rw [if_neg hm]
          exact hl

/-- **C51 (nothing available).**  If none of the preferred backends can be used, `auto` raises; the error names the extra
that the first preferred backend needs, if there is one. -/
theorem C51_unavailable (builtins : List Entry) (installed : String → Bool) (parse : String → Option Int) (cid : String)
    (params ps : Params) (rt : Runtime) (r r' : Registry) (spec : ClassifierSpec)
    (hspec : getSpec builtins cid r = (r', .ok spec)) (hps : normalizeParams parse cid params = .ok ps)
    (hno : ∀ b ∈ spec.preferred, ¬ Available installed spec b) :
    (∀ b rest s x, spec.preferred = b :: rest → Assoc.get spec.backends b = some s → s.requiredExtra = some x → x ≠ "" →
      (createClassifier builtins installed parse cid "auto" params rt r).2 = .error (.optionalDependency x)) ∧
    (∀ b rest, spec.preferred = b :: rest → Assoc.get spec.backends b = none →
      (createClassifier builtins installed parse cid "auto" params rt r).2 = .error .unknownBackend) ∧
    ∃ e, (createClassifier builtins installed parse cid "auto" params rt r).2 = .error e := by
  have hc : (createClassifier builtins installed parse cid "auto" params rt r).2 = .error (unavailable spec) := by
    unfold createClassifier
    rw [hspec]
    simp only [hps, resolveBackend, if_pos, chooseBackend_none hno]
    rfl
  rw [hc]
  refine ⟨fun b rest s x h1 h2 h3 h4 => ?_, fun b rest h1 h2 => ?_, _, rfl⟩
  · simp [unavailable, h1, h2, h3, h4]
  · simp [unavailable, h1, h2]

example : (createClassifier [⟨"lstm_scratch", "", ["torch"], [("torch", ⟨"m:C", some "supervised-torch"⟩)]⟩]
    (fun _ => false) (fun _ => none) "lstm_scratch" "auto" [] ⟨some 0, none⟩ .empty).2
      = .error (.optionalDependency "supervised-torch") := by
  decide +kernel

end ModSSC.Supervised
