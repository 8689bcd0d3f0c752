import Verif.Supervised.RegistryModel
import Verif.Supervised.RegistrySpec

/-!
# Backend choice (C51) and the classifier registry (C90)
-/

namespace ModSSC.Supervised
open ModSSC Spec

theorem moduleForExtra_eq (extra : String) : moduleForExtra extra = package extra := by
  unfold moduleForExtra extraModules package
  simp only [Assoc.get_cons, Assoc.get_nil]
  simp only [eq_comm (b := extra)]
  split_ifs <;> simp_all

theorem bindOk {α β : Type} {x : Except SupErr α} {f : α → Except SupErr β} {b : β} :
    (x >>= f) = .ok b ↔ ∃ a, x = .ok a ∧ f a = .ok b := by
  cases x with
  | error e => simp [bind, Except.bind]
  | ok a => simp [bind, Except.bind]

theorem chooseBackend_spec (hasModule : String → Bool) (spec : ClassifierSpec) (l : List String) (hne : "" ∉ l) :
    (chooseBackend hasModule spec l = "" ∧ ∀ x ∈ l, ¬ Available hasModule spec x) ∨
    (chooseBackend hasModule spec l ≠ "" ∧ ∃ before after, l = before ++ chooseBackend hasModule spec l :: after ∧
      Available hasModule spec (chooseBackend hasModule spec l) ∧ ∀ x ∈ before, ¬ Available hasModule spec x) := by
  induction l with
  | nil => exact .inl ⟨rfl, by simp⟩
  | cons b bs ih =>
    have hb : b ≠ "" := fun h => hne (by simp [h])
    have hrec := ih (fun h => hne (by simp [h]))
    have skip : ¬ Available hasModule spec b → chooseBackend hasModule spec (b :: bs) = chooseBackend hasModule spec bs →
        (chooseBackend hasModule spec (b :: bs) = "" ∧ ∀ x ∈ b :: bs, ¬ Available hasModule spec x) ∨
        (chooseBackend hasModule spec (b :: bs) ≠ "" ∧ ∃ before after,
          b :: bs = before ++ chooseBackend hasModule spec (b :: bs) :: after ∧
          Available hasModule spec (chooseBackend hasModule spec (b :: bs)) ∧
          ∀ x ∈ before, ¬ Available hasModule spec x) := by
      intro hna heq
      rw [heq]
      rcases hrec with ⟨h1, h2⟩ | ⟨h1, before, after, h2, h3, h4⟩
      · refine .inl ⟨h1, fun x hx => ?_⟩
        rcases List.mem_cons.mp hx with rfl | hx
        · exact hna
        · exact h2 x hx
      · refine .inr ⟨h1, b :: before, after, by rw [List.cons_append, ← h2], h3, fun x hx => ?_⟩
        rcases List.mem_cons.mp hx with rfl | hx
        · exact hna
        · exact h4 x hx
    have take : Available hasModule spec b → chooseBackend hasModule spec (b :: bs) = b →
        (chooseBackend hasModule spec (b :: bs) = "" ∧ ∀ x ∈ b :: bs, ¬ Available hasModule spec x) ∨
        (chooseBackend hasModule spec (b :: bs) ≠ "" ∧ ∃ before after,
          b :: bs = before ++ chooseBackend hasModule spec (b :: bs) :: after ∧
          Available hasModule spec (chooseBackend hasModule spec (b :: bs)) ∧
          ∀ x ∈ before, ¬ Available hasModule spec x) := by
      intro ha heq
      rw [heq]
      exact .inr ⟨hb, [], bs, rfl, ha, by simp⟩
    cases hg : Assoc.get spec.backends b with
    | none =>
      refine skip ?_ (by simp only [chooseBackend, hg])
      rintro ⟨s, hs, -⟩
      rw [hg] at hs
      simp at hs
    | some s =>
      cases he : s.requiredExtra with
      | none =>
        refine take ⟨s, hg, ?_⟩ (by simp only [chooseBackend, hg, he])
        intro e h
        rw [he] at h
        simp at h
      | some extra =>
        by_cases hm : hasModule (moduleForExtra extra) = true
        · refine take ⟨s, hg, ?_⟩ (by simp only [chooseBackend, hg, he, if_pos hm])
          intro e h
          rw [he] at h
          obtain rfl := Option.some.inj h
          rw [← moduleForExtra_eq]
          exact hm
        · refine skip ?_ (by simp only [chooseBackend, hg, he, if_neg hm])
          rintro ⟨s', hs', h⟩
          rw [hg] at hs'
          obtain rfl := Option.some.inj hs'
          have := h extra he
          rw [← moduleForExtra_eq] at this
          exact hm this

theorem first_unique {installed : String → Bool} {spec : ClassifierSpec} {b c : String}
    (hb : FirstAvailable installed spec b) (hc : FirstAvailable installed spec c) : b = c := by
  obtain ⟨p1, q1, e1, a1, n1⟩ := hb
  obtain ⟨p2, q2, e2, a2, n2⟩ := hc
  rw [e1] at e2
  clear e1
  induction p1 generalizing p2 with
  | nil =>
    cases p2 with
    | nil => simpa using (List.cons.inj e2).1
    | cons x p2 =>
      have : b = x := (List.cons.inj e2).1
      exact absurd a1 (n2 b (by simp [this]))
  | cons x p1 ih =>
    cases p2 with
    | nil =>
      have : x = c := (List.cons.inj e2).1
      exact absurd a2 (n1 c (by simp [this]))
    | cons z p2 =>
      exact ih (fun w hw => n1 w (by simp [hw])) _ (List.cons.inj e2).2 (fun w hw => n2 w (by simp [hw]))

/-- **C51 (automatic choice).**  With `backend="auto"`, for a registered classifier whose parameters are accepted:
the factory called is that of the first available backend in the preference order, and the call fails only if no
preferred backend is available. -/
theorem C51_auto (builtins : List Entry) (installed : String → Bool) (parse : String → Option Int) (cid : String)
    (params ps : Params) (rt : Runtime) (r r' : Registry) (spec : ClassifierSpec)
    (hspec : getSpec builtins cid r = (r', .ok spec)) (hne : "" ∉ spec.preferred)
    (hps : normalizeParams parse cid params = .ok ps) :
    (∀ factory kwargs, (createClassifier builtins installed parse cid "auto" params rt r).2 = .ok (factory, kwargs) →
      ∃ b s, FirstAvailable installed spec b ∧ Assoc.get spec.backends b = some s ∧ factory = s.factory) ∧
    ((∃ x, (createClassifier builtins installed parse cid "auto" params rt r).2 = .ok x) ↔
      ∃ b ∈ spec.preferred, Available installed spec b) := by
  have hc : (createClassifier builtins installed parse cid "auto" params rt r).2
      = (do
        let b ← resolveBackend installed spec "auto"
        let bs ← backendSpec spec b
        .ok (bs.factory, inject rt ps)) := by
    unfold createClassifier
    rw [hspec, hps]
    rfl
  rw [hc]
  unfold resolveBackend
  rw [if_pos rfl]
  simp only
  rcases chooseBackend_spec installed spec spec.preferred hne with ⟨h1, h2⟩ | ⟨h1, before, after, h2, h3, h4⟩
  · rw [if_pos h1]
    refine ⟨fun f k h => ?_, ⟨?_, ?_⟩⟩
    · obtain ⟨_, h, -⟩ := bindOk.mp h; simp at h
    · rintro ⟨x, h⟩
      obtain ⟨_, h, -⟩ := bindOk.mp h; simp at h
    · rintro ⟨b, hb, ha⟩
      exact absurd ha (h2 b hb)
  · rw [if_neg h1]
    generalize chooseBackend installed spec spec.preferred = b at h1 h2 h3
    obtain ⟨s, hs, ha⟩ := h3
    have hbs : backendSpec spec b = .ok s := by unfold backendSpec; rw [hs]
    refine ⟨fun f k h => ?_, ⟨fun _ => ⟨b, by rw [h2]; simp, s, hs, ha⟩, fun _ => ?_⟩⟩
    · obtain ⟨b', hb', h⟩ := bindOk.mp h
      obtain rfl := Except.ok.inj hb'
      obtain ⟨s', hs', h⟩ := bindOk.mp h
      rw [hbs] at hs'
      obtain rfl := Except.ok.inj hs'
      obtain ⟨rfl, -⟩ := Prod.mk.inj (Except.ok.inj h)
      exact ⟨b, s, ⟨before, after, h2, ⟨s, hs, ha⟩, h4⟩, hs, rfl⟩
    · refine ⟨(s.factory, inject rt ps), bindOk.mpr ⟨b, rfl, bindOk.mpr ⟨s, hbs, rfl⟩⟩⟩

/-- **C51 (explicit backend).**  A named backend is used as it is, available or not, and fails exactly if it is not
registered. -/
theorem C51_explicit (builtins : List Entry) (installed : String → Bool) (parse : String → Option Int) (cid backend : String)
    (hb : backend ≠ "auto") (params ps : Params) (rt : Runtime) (r r' : Registry) (spec : ClassifierSpec)
    (hspec : getSpec builtins cid r = (r', .ok spec)) (hps : normalizeParams parse cid params = .ok ps) :
    (∀ s, Assoc.get spec.backends backend = some s →
      ∃ kwargs, (createClassifier builtins installed parse cid backend params rt r).2 = .ok (s.factory, kwargs)) ∧
    (Assoc.get spec.backends backend = none →
      (createClassifier builtins installed parse cid backend params rt r).2 = .error .unknownBackend) := by
  have hc : (createClassifier builtins installed parse cid backend params rt r).2
      = (do
        let b ← resolveBackend installed spec backend
        let bs ← backendSpec spec b
        .ok (bs.factory, inject rt ps)) := by
    unfold createClassifier
    rw [hspec, hps]
    rfl
  rw [hc]
  unfold resolveBackend backendSpec
  rw [if_neg hb]
  constructor
  · intro s hs
    refine ⟨inject rt ps, ?_⟩
    simp only [bind, Except.bind, hs]
  · intro hs
    simp only [bind, Except.bind, hs]

theorem get_injectOne (key : String) (v : Option Int) (params : Params) (k : String) :
    Assoc.get (injectOne key v params) k
      = match Assoc.get params k with
        | some x => some x
        | none => if k = key then v.map .int else none := by
  unfold injectOne
  cases v with
  | none =>
    simp only
    cases Assoc.get params k <;> simp
  | some i =>
    simp only
    by_cases h : Assoc.has params key = true
    · rw [if_pos h]
      cases hk : Assoc.get params k with
      | some x => rfl
      | none =>
        simp only
        rw [if_neg]
        rintro rfl
        exact (Assoc.get_eq_none_iff.mp hk) (Assoc.has_iff.mp h)
    · rw [if_neg h, Assoc.get_set]
      by_cases hk : k = key
      · subst hk
        have : Assoc.get params k = none := Assoc.get_eq_none_iff.mpr (fun hm => h (Assoc.has_iff.mpr hm))
        rw [this]
        simp
      · rw [if_neg hk]
        cases Assoc.get params k with
        | some x => rfl
        | none => simp [hk]

theorem get_inject (rt : Runtime) (params : Params) (k : String) :
    Assoc.get (inject rt params) k
      = match Assoc.get params k with
        | some x => some x
        | none => if k = "seed" then rt.seed.map .int else if k = "n_jobs" then rt.nJobs.map .int else none := by
  unfold inject
  rw [get_injectOne, get_injectOne]
  cases Assoc.get params k with
  | some x => rfl
  | none =>
    simp only
    by_cases h : k = "seed"
    · subst h
      rw [if_pos rfl, if_pos rfl]
      cases rt.seed with
      | some i => rfl
      | none => simp
    · rw [if_neg h, if_neg h]

/-- **C51 (parameters).**  For every classifier but `lstm_scratch`: each parameter given by the caller reaches the
constructor as it is, the seed and the number of jobs of the runtime are added only where the caller gave none, and
nothing else is added. -/
theorem C51_params (builtins : List Entry) (installed : String → Bool) (parse : String → Option Int) (cid backend : String)
    (hcid : cid ≠ "lstm_scratch") (params : Params) (rt : Runtime) (r : Registry) (factory : String) (kwargs : Params)
    (h : (createClassifier builtins installed parse cid backend params rt r).2 = .ok (factory, kwargs)) :
    (∀ k v, Assoc.get params k = some v → Assoc.get kwargs k = some v) ∧
    (Assoc.get params "seed" = none → Assoc.get kwargs "seed" = rt.seed.map .int) ∧
    (Assoc.get params "n_jobs" = none → Assoc.get kwargs "n_jobs" = rt.nJobs.map .int) ∧
    (∀ k, k ≠ "seed" → k ≠ "n_jobs" → Assoc.get params k = none → Assoc.get kwargs k = none) := by
  have hk : kwargs = inject rt params := by
    unfold createClassifier at h
    cases hg : getSpec builtins cid r with
    | mk r' x =>
      cases x with
      | error e => rw [hg] at h; simp at h
      | ok spec =>
        rw [hg] at h
        simp only at h
        obtain ⟨ps, hps, h⟩ := bindOk.mp h
        obtain ⟨b, -, h⟩ := bindOk.mp h
        obtain ⟨bs, -, h⟩ := bindOk.mp h
        unfold normalizeParams at hps
        rw [if_neg hcid] at hps
        obtain rfl := Except.ok.inj hps
        exact (Prod.mk.inj (Except.ok.inj h)).2.symm
  subst hk
  refine ⟨fun k v hv => ?_, fun hn => ?_, fun hn => ?_, fun k h1 h2 hn => ?_⟩
  · rw [get_inject, hv]
  · rw [get_inject, hn]; simp
  · rw [get_inject, hn]; simp
  · rw [get_inject, hn]; simp [h1, h2]

/-- **C51 (the aliases of `lstm_scratch`).**  `hidden_dim` given by the caller is kept; without it, `hidden_size` or
the first of `hidden_sizes` takes its place; the two aliases never reach the constructor; other parameters do as they
are. -/
theorem C51_lstm (builtins : List Entry) (installed : String → Bool) (parse : String → Option Int) (backend : String)
    (params : Params) (rt : Runtime) (r : Registry) (factory : String) (kwargs : Params)
    (h : (createClassifier builtins installed parse "lstm_scratch" backend params rt r).2 = .ok (factory, kwargs)) :
    Assoc.get kwargs "hidden_size" = none ∧ Assoc.get kwargs "hidden_sizes" = none ∧
    (∀ k v, k ≠ "hidden_size" → k ≠ "hidden_sizes" → Assoc.get params k = some v → Assoc.get kwargs k = some v) ∧
    (Assoc.get params "hidden_dim" = none → ∀ i : Int, Assoc.get params "hidden_size" = some (.int i) →
      Assoc.get kwargs "hidden_dim" = some (.int i)) ∧
    (Assoc.get params "hidden_dim" = none → Assoc.get params "hidden_size" = none → ∀ (i : Int) l,
      Assoc.get params "hidden_sizes" = some (.list (.int i :: l)) → Assoc.get kwargs "hidden_dim" = some (.int i)) ∧
    (Assoc.get params "hidden_dim" = none → Assoc.get params "hidden_size" = none →
      Assoc.get params "hidden_sizes" = none → Assoc.get kwargs "hidden_dim" = none) := by
  have hk : ∃ ps, normalizeParams parse "lstm_scratch" params = .ok ps ∧ kwargs = inject rt ps := by
    unfold createClassifier at h
    cases hg : getSpec builtins "lstm_scratch" r with
    | mk r' x =>
      cases x with
      | error e => rw [hg] at h; simp at h
      | ok spec =>
        rw [hg] at h
        simp only at h
        obtain ⟨ps, hps, h⟩ := bindOk.mp h
        obtain ⟨b, -, h⟩ := bindOk.mp h
        obtain ⟨bs, -, h⟩ := bindOk.mp h
        exact ⟨ps, hps, (Prod.mk.inj (Except.ok.inj h)).2.symm⟩
  obtain ⟨ps, hps, rfl⟩ := hk
  -- entries of the normalized parameters
  have key : ∃ d : Option PyVal, (∀ k, Assoc.get ps k = if k = "hidden_size" ∨ k = "hidden_sizes" then none
      else if k = "hidden_dim" then d else Assoc.get params k) ∧
      (∀ v, Assoc.get params "hidden_dim" = some v → d = some v) ∧
      (Assoc.get params "hidden_dim" = none → match lstmAlias params with
        | some v => ∃ i, toInt parse v = .ok i ∧ d = some (.int i)
        | none => d = none) := by
    unfold normalizeParams at hps
    rw [if_pos rfl] at hps
    have plain : ps = Assoc.erase (Assoc.erase params "hidden_sizes") "hidden_size" →
        ∀ k, Assoc.get ps k = if k = "hidden_size" ∨ k = "hidden_sizes" then none
          else if k = "hidden_dim" then Assoc.get params "hidden_dim" else Assoc.get params k := by
      rintro rfl k
      rw [Assoc.get_erase, Assoc.get_erase]
      by_cases h1 : k = "hidden_size"
      · simp [h1]
      · by_cases h2 : k = "hidden_sizes"
        · simp [h2]
        · by_cases h3 : k = "hidden_dim"
          · simp [h3]
          · simp [h1, h2, h3]
    cases ha : lstmAlias params with
    | none =>
      rw [ha] at hps
      refine ⟨Assoc.get params "hidden_dim", plain (Except.ok.inj hps).symm, fun v hv => hv, fun hn => hn⟩
    | some v =>
      rw [ha] at hps
      simp only at hps
      by_cases hh : Assoc.has params "hidden_dim" = true
      · rw [if_pos hh] at hps
        refine ⟨Assoc.get params "hidden_dim", plain (Except.ok.inj hps).symm, fun v hv => hv, fun hn => ?_⟩
        exact absurd (Assoc.has_iff.mp hh) (Assoc.get_eq_none_iff.mp hn)
      · rw [if_neg hh] at hps
        cases hi : toInt parse v with
        | error e => rw [hi] at hps; simp at hps
        | ok i =>
          rw [hi] at hps
          obtain rfl := Except.ok.inj hps
          refine ⟨some (.int i), fun k => ?_, fun v hv => ?_, fun _ => ⟨i, hi, rfl⟩⟩
          · rw [Assoc.get_erase, Assoc.get_erase, Assoc.get_set]
            by_cases h1 : k = "hidden_size"
            · simp [h1]
            · by_cases h2 : k = "hidden_sizes"
              · simp [h2]
              · simp [h1, h2]
          · exact absurd (Assoc.has_iff.mpr (Assoc.mem_keys_iff.mpr ⟨v, hv⟩)) hh
  obtain ⟨d, hget, hd1, hd2⟩ := key
  refine ⟨?_, ?_, ?_, ?_, ?_, ?_⟩
  · rw [get_inject, hget]; simp
  · rw [get_inject, hget]; simp
  · intro k v h1 h2 hv
    rw [get_inject, hget, if_neg (by simp [h1, h2])]
    by_cases h3 : k = "hidden_dim"
    · subst h3
      rw [if_pos rfl, hd1 v hv]
    · rw [if_neg h3, hv]
  · intro hn i hi
    have ha : lstmAlias params = some (.int i) := by simp [lstmAlias, hi]
    have := hd2 hn
    rw [ha] at this
    obtain ⟨j, hj, rfl⟩ := this
    obtain rfl : i = j := Except.ok.inj hj
    rw [get_inject, hget]
    simp
  · intro hn hs i l hi
    have ha : lstmAlias params = some (.int i) := by simp [lstmAlias, hs, hi]
    have := hd2 hn
    rw [ha] at this
    obtain ⟨j, hj, rfl⟩ := this
    obtain rfl : i = j := Except.ok.inj hj
    rw [get_inject, hget]
    simp
  · intro hn hs hz
    have ha : lstmAlias params = none := by simp [lstmAlias, hs, hz]
    have := hd2 hn
    rw [ha] at this
    simp only at this
    subst this
    rw [get_inject, hget]
    simp

/-! ### Registration -/

theorem Extends.refl (r : Registry) : Extends r r := fun _ s h => ⟨s, h, rfl, rfl, fun _ _ hb => hb⟩

theorem Extends.trans {a b c : Registry} (h1 : Extends a b) (h2 : Extends b c) : Extends a c := by
  intro cid s hs
  obtain ⟨s1, e1, d1, p1, b1⟩ := h1 cid s hs
  obtain ⟨s2, e2, d2, p2, b2⟩ := h2 cid s1 e1
  exact ⟨s2, e2, d2.trans d1, p2.trans p1, fun b bs hb => b2 b bs (b1 b bs hb)⟩

theorem registerClassifier_extends (key d : String) (p : List String) (r : Registry) :
    Extends r (registerClassifier key d p r).1 := by
  unfold registerClassifier
  cases hg : Assoc.get r.specs key with
  | some e =>
    simp only
    split <;> exact Extends.refl r
  | none =>
    intro cid s hs
    refine ⟨s, ?_, rfl, rfl, fun _ _ hb => hb⟩
    simp only
    rw [Assoc.get_set, if_neg, hs]
    rintro rfl
    rw [hg] at hs
    simp at hs

theorem registerBackend_extends (cid b : String) (s : BackendSpec) (r : Registry) :
    Extends r (registerBackend cid b s r).1 := by
  unfold registerBackend
  cases hg : Assoc.get r.specs cid with
  | none => exact Extends.refl r
  | some spec =>
    simp only
    by_cases h : Assoc.has spec.backends b = true
    · rw [if_pos h]; exact Extends.refl r
    · rw [if_neg h]
      intro c s' hs'
      simp only
      rw [Assoc.get_set]
      by_cases hc : c = cid
      · subst hc
        rw [hg] at hs'
        obtain rfl := Option.some.inj hs'
        rw [if_pos rfl]
        refine ⟨_, rfl, rfl, rfl, fun x bs hx => ?_⟩
        simp only
        rw [Assoc.get_set, if_neg, hx]
        rintro rfl
        exact h (Assoc.has_iff.mpr (Assoc.mem_keys_iff.mpr ⟨bs, hx⟩))
      · rw [if_neg hc]
        exact ⟨s', hs', rfl, rfl, fun _ _ hb => hb⟩

theorem registerBackends_extends (cid : String) (bs : List (String × BackendSpec)) (r : Registry) :
    Extends r (registerBackends cid bs r).1 := by
  induction bs generalizing r with
  | nil => exact Extends.refl r
  | cons b bs ih =>
    have h1 := registerBackend_extends cid b.1 b.2 r
    unfold registerBackends
    cases hb : registerBackend cid b.1 b.2 r with
    | mk r' x =>
      rw [hb] at h1
      cases x with
      | error e => exact h1
      | ok u => exact Extends.trans (b := r') h1 (ih r')

theorem registerEntry_extends (e : Entry) (r : Registry) : Extends r (registerEntry e r).1 := by
  have h1 := registerClassifier_extends e.key e.description e.preferred r
  unfold registerEntry
  cases hb : registerClassifier e.key e.description e.preferred r with
  | mk r' x =>
    rw [hb] at h1
    cases x with
    | error e => exact h1
    | ok u => exact Extends.trans (b := r') h1 (registerBackends_extends _ _ r')

theorem registerEntries_extends (es : List Entry) (r : Registry) : Extends r (registerEntries es r).1 := by
  induction es generalizing r with
  | nil => exact Extends.refl r
  | cons e es ih =>
    have h1 := registerEntry_extends e r
    unfold registerEntries
    cases hb : registerEntry e r with
    | mk r' x =>
      rw [hb] at h1
      cases x with
      | error e => exact h1
      | ok u => exact Extends.trans (b := r') h1 (ih r')

theorem ensureBootstrap_extends (builtins : List Entry) (r : Registry) : Extends r (ensureBootstrap builtins r).1 := by
  unfold ensureBootstrap
  by_cases h : r.bootstrapped = true
  · rw [if_pos h]; exact Extends.refl r
  · rw [if_neg h]
    have h1 := registerEntries_extends builtins r
    cases hb : registerEntries builtins r with
    | mk r' x =>
      rw [hb] at h1
      cases x with
      | error e => exact h1
      | ok u => exact fun c s hs => h1 c s hs

/-- What a program does with the registry. -/
inductive Call where
  | classifier (key description : String) (preferred : List String)
  | backend (cid backend : String) (b : BackendSpec)
  | use

/-- The registry after a call; exceptions are caught by the program. -/
def Call.run (builtins : List Entry) : Call → Registry → Registry
  | .classifier k d p, r => (registerClassifier k d p r).1
  | .backend c b s, r => (registerBackend c b s r).1
  | .use, r => (ensureBootstrap builtins r).1

theorem run_extends (builtins : List Entry) (calls : List Call) (r : Registry) :
    Extends r (calls.foldl (fun r c => c.run builtins r) r) := by
  induction calls generalizing r with
  | nil => exact Extends.refl r
  | cons c cs ih =>
    refine Extends.trans ?_ (ih _)
    cases c with
    | classifier k d p => exact registerClassifier_extends k d p r
    | backend c b s => exact registerBackend_extends c b s r
    | use => exact ensureBootstrap_extends builtins r

/-- **C90 (stability), partial.**  Registrations and uses in any number and order, successful or not, never change
or remove a classifier's metadata or backend that is registered.  Missing: whether a registration succeeds depends on
whether the registry was used before, see `C90_order_violated`. -/
theorem C90_stable_partial (builtins : List Entry) (before after : List Call) :
    Extends (before.foldl (fun r c => c.run builtins r) .empty)
      ((before ++ after).foldl (fun r c => c.run builtins r) .empty) := by
  rw [List.foldl_append]
  exact run_extends builtins after _

/-- The first builtin classifier (registry_data.py:4-30). -/
def knnEntry : Entry where
  key := "knn"
  description := "k-nearest neighbors classifier (classic baseline)."
  preferred := ["sklearn", "numpy"]
  backends :=
    [("numpy", ⟨"modssc.supervised.backends.numpy.knn:NumpyKNNClassifier", none⟩),
     ("torch", ⟨"modssc.supervised.backends.torch.knn:TorchKNNClassifier", some "supervised-torch"⟩),
     ("sklearn", ⟨"modssc.supervised.backends.sklearn.knn:SklearnKNNClassifier", some "sklearn"⟩)]

/-- **C90 is violated.**  Adding a backend to the builtin `knn` classifier is refused when the registry was not used
yet and accepted afterwards.  Registering `knn` with its own numpy backend first makes every later use fail. -/
theorem C90_order_violated :
    (registerBackend "knn" "faiss" ⟨"mine:Knn", none⟩ .empty).2 = .error .unknownClassifier ∧
    (registerBackend "knn" "faiss" ⟨"mine:Knn", none⟩ (ensureBootstrap [knnEntry] .empty).1).2 = .ok () ∧
    (let r1 := (registerClassifier "knn" "k-nearest neighbors classifier (classic baseline)." ["sklearn", "numpy"] .empty).1
     let r2 := (registerBackend "knn" "numpy" ⟨"mine:Knn", none⟩ r1).1
     (registerBackend "knn" "numpy" ⟨"mine:Knn", none⟩ r1).2 = .ok () ∧
     (ensureBootstrap [knnEntry] r2).2 = .error .valueError ∧
     (ensureBootstrap [knnEntry] (ensureBootstrap [knnEntry] r2).1).2 = .error .valueError) := by
  decide +kernel

/-- Non-vacuity: `knn` without scikit-learn falls back to numpy, and keeps the caller's seed. -/
example : (createClassifier [knnEntry] (fun _ => false) (fun _ => none) "knn" "auto" [("k", .int 3), ("seed", .int 7)]
      ⟨some 0, some 4⟩ .empty).2
    = .ok ("modssc.supervised.backends.numpy.knn:NumpyKNNClassifier",
        [("k", .int 3), ("seed", .int 7), ("n_jobs", .int 4)]) ∧
    (createClassifier [knnEntry] (fun m => m == "sklearn") (fun _ => none) "knn" "auto" [] ⟨some 0, none⟩ .empty).2
    = .ok ("modssc.supervised.backends.sklearn.knn:SklearnKNNClassifier", [("seed", .int 0)]) := by
  decide +kernel

/-- Non-vacuity: the aliases of `lstm_scratch`. -/
example : (createClassifier [⟨"lstm_scratch", "", ["torch"], [("torch", ⟨"m:C", some "supervised-torch"⟩)]⟩]
      (fun m => m == "torch") (fun _ => none) "lstm_scratch" "auto" [("hidden_sizes", .list [.int 32, .int 16])]
      ⟨some 0, none⟩ .empty).2 = .ok ("m:C", [("hidden_dim", .int 32), ("seed", .int 0)]) := by
  decide +kernel

end ModSSC.Supervised
