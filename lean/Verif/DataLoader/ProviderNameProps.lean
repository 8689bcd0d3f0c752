import Verif.DataLoader.ProviderModel
import Verif.DataLoader.UriProps
import Verif.DataLoader.IndexProps
import Mathlib.Tactic.IntervalCases
import Mathlib.Data.Nat.Digits.Lemmas

/-!
# C167: a dataset reference names one dataset, and its canonical URI names it again
-/

namespace ModSSC.DataLoader.Provider
open ModSSC ModSSC.DataLoader

/-! ## Lemmas -/

theorem splitOnce_append (d : Char) (p r : List Char) (hp : d ∉ p) :
    splitOnce d (p ++ d :: r) = some (p, r) := by
  induction p with
  | nil => simp [splitOnce]
  | cons c p ih =>
    simp only [List.mem_cons, not_or] at hp
    have hc : ¬ c = d := fun e => hp.1 e.symm
    simp [splitOnce, ih hp.2, hc]

theorem splitOnce_none (d : Char) {s : List Char} : splitOnce d s = none ↔ d ∉ s := by
  induction s with
  | nil => simp [splitOnce]
  | cons c s ih =>
    simp only [splitOnce]
    split
    · rename_i h; simp [h]
    · rename_i h
      rw [Option.map_eq_none_iff, ih]
      have hc : ¬ d = c := fun e => h e.symm
      simp [hc]

theorem splitOnce_some (d : Char) {s p r : List Char} (h : splitOnce d s = some (p, r)) :
    s = p ++ d :: r ∧ d ∉ p := by
  induction s generalizing p with
  | nil => simp [splitOnce] at h
  | cons c s ih =>
    simp only [splitOnce] at h
    split at h
    · rename_i hc
      simp only [Option.some.injEq, Prod.mk.injEq] at h
      obtain ⟨rfl, rfl⟩ := h
      simp [hc]
    · rename_i hc
      obtain ⟨⟨a, b⟩, hab, e⟩ := Option.map_eq_some_iff.mp h
      simp only [Prod.mk.injEq] at e
      obtain ⟨rfl, rfl⟩ := e
      obtain ⟨rfl, hb⟩ := ih hab
      exact ⟨rfl, by simp only [List.mem_cons, not_or]; exact ⟨fun e => hc e.symm, hb⟩⟩

theorem strip_subset (ws : Char → Bool) (s : List Char) : ∀ c ∈ strip ws s, c ∈ s := by
  intro c hc
  unfold strip at hc
  rw [List.mem_reverse] at hc
  have := (List.dropWhile_sublist ws).subset hc
  rw [List.mem_reverse] at this
  exact (List.dropWhile_sublist ws).subset this

/-- Stripping twice is stripping once. -/
theorem strip_strip (ws : Char → Bool) (s : List Char) : strip ws (strip ws s) = strip ws s := by
  by_cases h : NotBlank ws s
  · exact strip_trimmed ws (strip_is_trimmed ws h)
  · have : strip ws s = [] := by
      by_contra hne
      exact h ((strip_ne_nil ws s).mp hne)
    rw [this]; rfl

/-- A stripped text is empty or trimmed. -/
theorem strip_cases (ws : Char → Bool) (s : List Char) : strip ws s = [] ∨ Trimmed ws (strip ws s) := by
  by_cases h : NotBlank ws s
  · exact Or.inr (strip_is_trimmed ws h)
  · left
    by_contra hne
    exact h ((strip_ne_nil ws s).mp hne)

theorem trimmed_joined (ws : Char → Bool) (a b : List Char) (d : Char) (hd : ws d = false)
    (ha : a = [] ∨ Trimmed ws a) (hb : b = [] ∨ Trimmed ws b) : Trimmed ws (a ++ d :: b) := by
  constructor
  · rcases ha with rfl | ⟨⟨c, hc, hw⟩, _⟩
    · exact ⟨d, rfl, hd⟩
    · exact ⟨c, by cases a with | nil => simp at hc | cons x a => simpa using hc, hw⟩
  · rcases hb with rfl | ⟨_, ⟨c, hc, hw⟩⟩
    · exact ⟨d, by simp, hd⟩
    · refine ⟨c, ?_, hw⟩
      rw [List.getLast?_append, List.getLast?_cons]
      simp [hc]

/-! ## Specification -/

/-- What a user writes after the provider's prefix: a name, or a name and a variant. -/
def writeRef (name : List Char) : Option (List Char) → List Char
  | none => name
  | some v => name ++ '/' :: v

/-- A name that can be written: trimmed, without a slash. -/
def PlainName (ws : Char → Bool) (n : List Char) : Prop := Trimmed ws n ∧ '/' ∉ n

/-- A variant (configuration or version) that can be written. -/
def PlainVariant (ws : Char → Bool) : Option (List Char) → Prop
  | none => True
  | some v => Trimmed ws v

theorem trimmed_ne_nil {ws : Char → Bool} {s : List Char} (h : Trimmed ws s) : s ≠ [] := by
  rintro rfl
  obtain ⟨⟨c, hc, _⟩, _⟩ := h
  simp at hc

theorem splitRef_write (ws : Char → Bool) (hs : ws '/' = false) (n : List Char) (v : Option (List Char))
    (hn : PlainName ws n) (hv : PlainVariant ws v) : splitRef ws (writeRef n v) = (n, v) := by
  obtain ⟨hn, hns⟩ := hn
  cases v with
  | none =>
    unfold splitRef writeRef
    rw [strip_trimmed ws hn, (splitOnce_none '/').mpr hns]
  | some c =>
    have hv : Trimmed ws c := hv
    unfold splitRef
    simp only [writeRef]
    rw [strip_trimmed ws (trimmed_joined ws n c '/' hs (Or.inr hn) (Or.inr hv)),
      splitOnce_append '/' n c hns]
    simp only [strip_trimmed ws hn, strip_trimmed ws hv, orNone, if_neg (trimmed_ne_nil hv)]

theorem canonical_write (pre n : List Char) (v : Option (List Char)) (ws : Char → Bool)
    (hv : PlainVariant ws v) : pre ++ n ++ slashed v = pre ++ writeRef n v := by
  cases v with
  | none => simp [slashed, writeRef]
  | some c =>
    have hv : Trimmed ws c := hv
    simp [slashed, writeRef, if_neg (trimmed_ne_nil hv)]

/-- Blanks around a trimmed text do not survive `strip`. -/
theorem strip_padded (ws : Char → Bool) {s a b : List Char} (h : Trimmed ws s) (ha : ∀ c ∈ a, ws c = true)
    (hb : ∀ c ∈ b, ws c = true) : strip ws (a ++ s ++ b) = s := by
  have hdrop : ∀ (p t : List Char), (∀ c ∈ p, ws c = true) → (p ++ t).dropWhile ws = t.dropWhile ws := by
    intro p t hp
    induction p with
    | nil => rfl
    | cons x p ih =>
      rw [List.cons_append, List.dropWhile_cons, if_pos (hp x (by simp)), ih (fun c hc => hp c (by simp [hc]))]
  obtain ⟨⟨c, hc, hw⟩, ⟨d, hd, hw'⟩⟩ := h
  unfold strip
  rw [List.append_assoc, hdrop a _ ha, dropWhile_head ws (s ++ b) c (by cases s <;> simp_all) hw, List.reverse_append,
    hdrop b.reverse _ (fun c hc => hb c (by simpa using hc)), dropWhile_head ws s.reverse d (by simpa using hd) hw',
    List.reverse_reverse]

/-- **C167 (blanks).**  Blanks around the name and around the variant make no difference. -/
theorem C167_reference_blanks (ws : Char → Bool) (hs : ws '/' = false) (n v a b c d : List Char)
    (hn : PlainName ws n) (hv : Trimmed ws v) (ha : ∀ x ∈ a, ws x = true) (hb : ∀ x ∈ b, ws x = true)
    (hc : ∀ x ∈ c, ws x = true) (hd : ∀ x ∈ d, ws x = true) (opt : Option (List Char)) :
    hfResolve ws (a ++ (n ++ b ++ '/' :: (c ++ v)) ++ d) opt = hfResolve ws (n ++ '/' :: v) opt ∧
    tfdsResolve ws (a ++ (n ++ b ++ '/' :: (c ++ v)) ++ d) = tfdsResolve ws (n ++ '/' :: v) ∧
    hfResolve ws (a ++ n ++ b) opt = hfResolve ws n opt ∧ tfdsResolve ws (a ++ n ++ b) = tfdsResolve ws n := by
  have e1 : splitRef ws (a ++ (n ++ b ++ '/' :: (c ++ v)) ++ d) = splitRef ws (n ++ '/' :: v) := by
    rw [show n ++ '/' :: v = writeRef n (some v) from rfl, splitRef_write ws hs n (some v) hn hv]
    have ht : Trimmed ws (n ++ b ++ '/' :: (c ++ v)) := by
      obtain ⟨⟨⟨x, hx, hx'⟩, -⟩, -⟩ := hn
      obtain ⟨-, ⟨y, hy, hy'⟩⟩ := hv
      refine ⟨⟨x, by cases n <;> simp_all, hx'⟩, ⟨y, ?_, hy'⟩⟩
      rw [List.getLast?_append, List.getLast?_cons, List.getLast?_append]
      simp [hy]
    have hns : '/' ∉ n ++ b := by
      rw [List.mem_append]
      rintro (h | h)
      · exact hn.2 h
      · have := hb _ h; rw [hs] at this; cases this
    unfold splitRef
    rw [strip_padded ws ht ha hd, splitOnce_append '/' (n ++ b) (c ++ v) hns]
    have f1 : strip ws (n ++ b) = n := by simpa using strip_padded ws (a := []) hn.1 (by simp) hb
    have f2 : strip ws (c ++ v) = v := by simpa using strip_padded ws (b := []) hv hc (by simp)
    simp only [f1, f2, orNone, if_neg (trimmed_ne_nil hv)]
  have e2 : splitRef ws (a ++ n ++ b) = splitRef ws n := by
    have : strip ws n = n := strip_trimmed ws hn.1
    unfold splitRef
    rw [strip_padded ws hn.1 ha hb, this]
  refine ⟨?_, ?_, ?_, ?_⟩
  · unfold hfResolve; rw [e1]
  · unfold tfdsResolve; rw [e1]
  · unfold hfResolve; rw [e2]
  · unfold tfdsResolve; rw [e2]

/-! ## C167 Hugging Face and TFDS -/

/-- **C167 (Hugging Face references).** A reference `name/config` loads that configuration of that
dataset, whatever `options["config"]` says; a reference `name` loads the configuration given as an
option, or the default one.  The canonical URI is `hf:` followed by the reference of what is loaded. -/
theorem C167_hf_reference (ws : Char → Bool) (hs : ws '/' = false) (n : List Char)
    (v opt : Option (List Char)) (hn : PlainName ws n) (hv : PlainVariant ws v)
    (ho : PlainVariant ws opt) :
    hfResolve ws (writeRef n v) opt =
      { canonical := "hf:".toList ++ writeRef n (v.or opt), name := n, variant := v.or opt } := by
  unfold hfResolve
  rw [splitRef_write ws hs n v hn hv]
  cases v with
  | none => simp only [Option.none_or]; rw [canonical_write _ n opt ws ho]
  | some c => simp only [Option.some_or]; rw [canonical_write _ n (some c) ws hv]

/-- **C167 (TFDS references).** A reference `name/version` loads that version, a reference `name` the
default one; the canonical URI is `tfds:` followed by the reference. -/
theorem C167_tfds_reference (ws : Char → Bool) (hs : ws '/' = false) (n : List Char)
    (v : Option (List Char)) (hn : PlainName ws n) (hv : PlainVariant ws v) :
    tfdsResolve ws (writeRef n v) =
      { canonical := "tfds:".toList ++ writeRef n v, name := n, variant := v } := by
  unfold tfdsResolve
  rw [splitRef_write ws hs n v hn hv, canonical_write _ n v ws hv]

theorem parse_prefix (ws : Char → Bool) (pre ref : List Char) (hp : ':' ∉ pre) (hpt : Trimmed ws pre)
    (hr : Trimmed ws ref) : parseUri ws (pre ++ ':' :: ref) = .ok (pre, ref) := by
  unfold parseUri
  rw [splitColon_append pre ref hp]
  simp only [strip_trimmed ws hpt, strip_trimmed ws hr]
  have h1 : pre.isEmpty = false := by
    cases pre with | nil => exact absurd rfl (trimmed_ne_nil hpt) | cons a l => rfl
  have h2 : ref.isEmpty = false := by
    cases ref with | nil => exact absurd rfl (trimmed_ne_nil hr) | cons a l => rfl
  simp [h1, h2]

theorem writeRef_trimmed (ws : Char → Bool) (hs : ws '/' = false) {n : List Char} {v : Option (List Char)}
    (hn : PlainName ws n) (hv : PlainVariant ws v) : Trimmed ws (writeRef n v) := by
  cases v with
  | none => exact hn.1
  | some c =>
    have hv : Trimmed ws c := hv
    exact trimmed_joined ws n c '/' hs (Or.inr hn.1) (Or.inr hv)

/-- **C167 (canonical URIs name the dataset again).** Parsing the canonical URI of a Hugging Face or
TFDS identity and resolving it once more, without options, gives the same identity: same URI, same
dataset, same configuration or version. -/
theorem C167_canonical_round_trip (ws : Char → Bool) (hs : ws '/' = false)
    (hl : ∀ c ∈ "hftdsorchvisionau".toList, ws c = false) (n : List Char) (v opt : Option (List Char))
    (hn : PlainName ws n) (hv : PlainVariant ws v) (ho : PlainVariant ws opt) :
    (∃ r, parseUri ws (hfResolve ws (writeRef n v) opt).canonical = .ok ("hf".toList, r) ∧
      hfResolve ws r none = hfResolve ws (writeRef n v) opt) ∧
    (∃ r, parseUri ws (tfdsResolve ws (writeRef n v)).canonical = .ok ("tfds".toList, r) ∧
      tfdsResolve ws r = tfdsResolve ws (writeRef n v)) := by
  have hor : PlainVariant ws (v.or opt) := by cases v with | none => exact ho | some c => exact hv
  constructor
  · rw [C167_hf_reference ws hs n v opt hn hv ho]
    refine ⟨writeRef n (v.or opt), ?_, ?_⟩
    · exact parse_prefix ws "hf".toList _ (by decide)
        ⟨⟨'h', rfl, hl _ (by decide)⟩, ⟨'f', rfl, hl _ (by decide)⟩⟩ (writeRef_trimmed ws hs hn hor)
    · rw [C167_hf_reference ws hs n (v.or opt) none hn hor trivial]
      simp
  · rw [C167_tfds_reference ws hs n v hn hv]
    refine ⟨writeRef n v, ?_, C167_tfds_reference ws hs n v hn hv⟩
    exact parse_prefix ws "tfds".toList _ (by decide)
      ⟨⟨'t', rfl, hl _ (by decide)⟩, ⟨'s', rfl, hl _ (by decide)⟩⟩ (writeRef_trimmed ws hs hn hv)

/-- **C167 (different datasets have different URIs).** Two Hugging Face (or two TFDS) requests with the
same canonical URI load the same dataset in the same configuration (version). -/
theorem C167_canonical_injective (ws : Char → Bool) (hs : ws '/' = false) (n n' : List Char)
    (v opt v' opt' : Option (List Char)) (hn : PlainName ws n) (hn' : PlainName ws n')
    (hv : PlainVariant ws v) (ho : PlainVariant ws opt) (hv' : PlainVariant ws v')
    (ho' : PlainVariant ws opt') :
    ((hfResolve ws (writeRef n v) opt).canonical = (hfResolve ws (writeRef n' v') opt').canonical →
      n = n' ∧ v.or opt = v'.or opt') ∧
    ((tfdsResolve ws (writeRef n v)).canonical = (tfdsResolve ws (writeRef n' v')).canonical →
      n = n' ∧ v = v') := by
  have key : ∀ (a b : Option (List Char)), PlainVariant ws a → PlainVariant ws b →
      writeRef n a = writeRef n' b → n = n' ∧ a = b := by
    intro a b ha hb h
    have := congrArg (splitRef ws) h
    rw [splitRef_write ws hs n a hn ha, splitRef_write ws hs n' b hn' hb] at this
    simpa using this
  have hor : PlainVariant ws (v.or opt) := by cases v with | none => exact ho | some c => exact hv
  have hor' : PlainVariant ws (v'.or opt') := by cases v' with | none => exact ho' | some c => exact hv'
  constructor
  · intro h
    rw [C167_hf_reference ws hs n v opt hn hv ho, C167_hf_reference ws hs n' v' opt' hn' hv' ho'] at h
    exact key _ _ hor hor' (List.append_cancel_left h)
  · intro h
    rw [C167_tfds_reference ws hs n v hn hv, C167_tfds_reference ws hs n' v' hn' hv'] at h
    exact key _ _ hv hv' (List.append_cancel_left h)

theorem splitRef_no_slash (ws : Char → Bool) (ref : List Char) : '/' ∉ (splitRef ws ref).1 := by
  unfold splitRef
  split
  · rename_i n c h
    exact fun hm => (splitOnce_some '/' h).2 (strip_subset ws n _ hm)
  · rename_i h
    exact (splitOnce_none '/').mp h

/-- **C167 (violated: datasets of an organisation).** Whatever reference and options are given, the name
handed to the Hugging Face library contains no slash; so a dataset whose name is `organisation/name`
cannot be requested — its reference is read as the configuration `name` of a dataset
`organisation`. -/
theorem C167_hf_organisation_violated (ws : Char → Bool) :
    (∀ ref opt, '/' ∉ (hfResolve ws ref opt).name) ∧
    ∀ org name, ws '/' = false → PlainName ws org → Trimmed ws name → ∀ opt,
      (hfResolve ws (org ++ '/' :: name) opt).name = org ∧
      (hfResolve ws (org ++ '/' :: name) opt).variant = some name := by
  refine ⟨fun ref opt => splitRef_no_slash ws ref, ?_⟩
  intro org name hs ho hn opt
  have := splitRef_write ws hs org (some name) ho hn
  unfold hfResolve
  simp only [writeRef] at this
  rw [this]
  exact ⟨rfl, rfl⟩

/-! ## C167 torchvision and torchaudio -/

/-- **C167 (class names).** torchvision loads the class named by the reference; torchaudio the class
given as an option, or else the one named by the reference.  The canonical URI parses back to a request
for exactly that class. -/
theorem C167_class_reference (ws : Char → Bool)
    (hl : ∀ c ∈ "hftdsorchvisionau".toList, ws c = false) (ref : List Char)
    (hr : Trimmed ws ref) (cls : Option (List Char)) (hc : PlainVariant ws cls) :
    (tvResolve ws ref).name = ref ∧
    (taResolve ws ref cls).name = cls.getD ref ∧
    parseUri ws (tvResolve ws ref).canonical = .ok ("torchvision".toList, ref) ∧
    parseUri ws (taResolve ws ref cls).canonical = .ok ("torchaudio".toList, cls.getD ref) ∧
    taResolve ws (cls.getD ref) none = taResolve ws ref cls := by
  have hta : taResolve ws ref cls =
      { canonical := "torchaudio:".toList ++ cls.getD ref, name := cls.getD ref, variant := none } := by
    unfold taResolve
    cases cls with
    | none => simp only [strip_trimmed ws hr, if_neg (trimmed_ne_nil hr), Option.getD_none]
    | some c =>
      have hc : Trimmed ws c := hc
      simp only [if_neg (trimmed_ne_nil hc), strip_trimmed ws hc, Option.getD_some]
  have hg : Trimmed ws (cls.getD ref) := by
    cases cls with
    | none => exact hr
    | some c => exact hc
  refine ⟨strip_trimmed ws hr, by rw [hta], ?_, ?_, ?_⟩
  · unfold tvResolve
    simp only [strip_trimmed ws hr]
    exact parse_prefix ws "torchvision".toList ref (by decide)
      ⟨⟨'t', rfl, hl _ (by decide)⟩, ⟨'n', rfl, hl _ (by decide)⟩⟩ hr
  · rw [hta]
    exact parse_prefix ws "torchaudio".toList _ (by decide)
      ⟨⟨'t', rfl, hl _ (by decide)⟩, ⟨'o', rfl, hl _ (by decide)⟩⟩ hg
  · rw [hta]
    unfold taResolve
    simp only [strip_trimmed ws hg, if_neg (trimmed_ne_nil hg)]

/-! ## C167 OpenML -/

theorem readNat_showNat (n : Nat) : readNat (showNat n) = some n := by
  unfold showNat
  by_cases h : n = 0
  · subst h; decide
  · rw [if_neg h]
    have hd : ∀ d ∈ Nat.digits 10 n, d < 10 := fun d hd => Nat.digits_lt_base (by norm_num) hd
    have hch : ∀ d < 10, (Char.ofNat (48 + d)).isDigit = true ∧ (Char.ofNat (48 + d)).toNat - 48 = d := by
      intro d hd
      interval_cases d <;> decide
    unfold readNat
    have hne : (Nat.digits 10 n) ≠ [] := Nat.digits_ne_nil_iff_ne_zero.mpr h
    rw [if_pos]
    · rw [List.reverse_reverse, List.foldr_map]
      congr 1
      conv_rhs => rw [← Nat.ofDigits_digits 10 n]
      generalize Nat.digits 10 n = l at hd
      induction l with
      | nil => rfl
      | cons a l ih =>
        rw [List.foldr_cons, ih (fun d h => hd d (List.mem_cons_of_mem _ h)), Nat.ofDigits_cons,
          (hch a (hd a List.mem_cons_self)).2]
    · refine ⟨by simpa using hne, ?_⟩
      rw [List.all_eq_true]
      intro c hc
      rw [List.mem_reverse, List.mem_map] at hc
      obtain ⟨d, hm, rfl⟩ := hc
      exact (hch d (hd d hm)).1

theorem readNat_digits {s : List Char} {n : Nat} (h : readNat s = some n) :
    s ≠ [] ∧ ∀ c ∈ s, c.isDigit = true := by
  unfold readNat at h
  split at h
  · rename_i hc
    exact ⟨hc.1, by simpa using hc.2⟩
  · simp at h

theorem showNat_trimmed (ws : Char → Bool) (hw : ∀ c, c.isDigit = true → ws c = false) (n : Nat) :
    Trimmed ws (showNat n) := by
  obtain ⟨hne, hd⟩ := readNat_digits (readNat_showNat n)
  obtain ⟨a, ha⟩ := Option.isSome_iff_exists.mp (List.isSome_head?.mpr hne)
  obtain ⟨b, hb⟩ := Option.isSome_iff_exists.mp (List.getLast?_isSome.mpr hne)
  exact ⟨⟨a, ha, hw a (hd a (List.mem_of_mem_head? ha))⟩, ⟨b, hb, hw b (hd b (List.mem_of_getLast? hb))⟩⟩

theorem splitAll_none (d : Char) (s : List Char) (h : d ∉ s) : splitAll d s = [s] := by
  induction s with
  | nil => rfl
  | cons c s ih =>
    simp only [List.mem_cons, not_or] at h
    simp only [splitAll, if_neg (fun e => h.1 (Eq.symm e)), ih h.2]

theorem splitAll_append (d : Char) (a b : List Char) (h : d ∉ a) :
    splitAll d (a ++ d :: b) = a :: splitAll d b := by
  induction a with
  | nil => simp [splitAll]
  | cons c a ih =>
    simp only [List.mem_cons, not_or] at h
    rw [List.cons_append]
    simp only [splitAll, if_neg (fun e => h.1 (Eq.symm e)), ih h.2]

/-- A part `key=value` is read as that pair. -/
theorem pair_read (ws : Char → Bool) (k v : List Char) (hk : Trimmed ws k) (hv : Trimmed ws v)
    (hke : '=' ∉ k) (heq : ws '=' = false) :
    strip ws (k ++ '=' :: v) = k ++ '=' :: v ∧ k ++ '=' :: v ≠ [] ∧
    (splitOnce '=' (k ++ '=' :: v)).map (fun kv => (strip ws kv.1, strip ws kv.2)) = some (k, v) := by
  refine ⟨strip_trimmed ws (trimmed_joined ws k v '=' heq (Or.inr hk) (Or.inr hv)), by simp, ?_⟩
  rw [splitOnce_append '=' k v hke]
  simp [strip_trimmed ws hk, strip_trimmed ws hv]

/-- **C167 (OpenML versions).**  A version written with digits is that number; any other text stays a word. -/
theorem C167_openml_version_read (n : Nat) (s : List Char) (c : Char) (hc : c ∈ s) (hd : c.isDigit = false) :
    toVer (showNat n) = .num n ∧ toVer s = .word s := by
  unfold toVer
  rw [readNat_showNat]
  refine ⟨rfl, ?_⟩
  cases h : readNat s with
  | none => rfl
  | some m => have := (readNat_digits h).2 c hc; rw [hd] at this; cases this

/-- **C167 (OpenML keys).**  Of a key written twice the last value counts, and other keys are not affected. -/
theorem C167_openml_last (ps : List (List Char × List Char)) (k v : List Char) :
    omlGet (ps ++ [(k, v)]) k = some v ∧ ∀ k', k' ≠ k → omlGet (ps ++ [(k, v)]) k' = omlGet ps k' := by
  unfold omlGet
  refine ⟨by simp, fun k' h => ?_⟩
  rw [List.reverse_append, List.reverse_singleton, List.singleton_append, List.find?_cons_of_neg]
  simpa using fun e => h e.symm

theorem readNat_none_of_eq (a b : List Char) : readNat (a ++ '=' :: b) = none := by
  cases h : readNat (a ++ '=' :: b) with
  | none => rfl
  | some n => exact absurd ((readNat_digits h).2 '=' (by simp)) (by decide)

/-- How a user writes an OpenML request: by number, by name, or by name and version. -/
inductive OmlReq where
  | id (n : Nat)
  | byName (name : List Char)
  | versioned (name version : List Char)

/-- The reference text of a request. -/
def OmlReq.ref : OmlReq → List Char
  | .id n => showNat n
  | .byName n => "name=".toList ++ n
  | .versioned n v => "name=".toList ++ n ++ ",version=".toList ++ v

/-- The white-space facts about the punctuation and the key names used in references. -/
structure Plain (ws : Char → Bool) : Prop where
  marks : ∀ c ∈ "=,/:".toList, ws c = false
  digits : ∀ c, c.isDigit = true → ws c = false
  letters : ∀ c ∈ "nameversiodp_tl".toList, ws c = false

theorem pairs_name (ws : Char → Bool) (hw : Plain ws) (n : List Char) (hn : Trimmed ws n) (hc : ',' ∉ n) :
    omlPairs ws ("name".toList ++ '=' :: n) = [("name".toList, n)] := by
  have hk : Trimmed ws "name".toList :=
    ⟨⟨'n', rfl, hw.letters _ (by decide)⟩, ⟨'e', rfl, hw.letters _ (by decide)⟩⟩
  obtain ⟨h1, h2, h3⟩ := pair_read ws _ n hk hn (by decide) (hw.marks _ (by decide))
  unfold omlPairs
  rw [splitAll_none ',' _ (by simp only [List.mem_append, List.mem_cons, not_or]
                              exact ⟨by decide, by decide, hc⟩)]
  simp only [List.map_cons, List.map_nil, h1, List.filter_cons, h2, List.filter_nil, ne_eq, not_false_eq_true,
    decide_true, if_true, List.filterMap_cons, h3, List.filterMap_nil]

theorem pairs_versioned (ws : Char → Bool) (hw : Plain ws) (n v : List Char) (hn : Trimmed ws n)
    (hc : ',' ∉ n) (hv : Trimmed ws v) (hcv : ',' ∉ v) :
    omlPairs ws ("name".toList ++ '=' :: n ++ ',' :: ("version".toList ++ '=' :: v)) =
      [("name".toList, n), ("version".toList, v)] := by
  have hk : Trimmed ws "name".toList :=
    ⟨⟨'n', rfl, hw.letters _ (by decide)⟩, ⟨'e', rfl, hw.letters _ (by decide)⟩⟩
  have hk' : Trimmed ws "version".toList :=
    ⟨⟨'v', rfl, hw.letters _ (by decide)⟩, ⟨'n', rfl, hw.letters _ (by decide)⟩⟩
  obtain ⟨h1, h2, h3⟩ := pair_read ws _ n hk hn (by decide) (hw.marks _ (by decide))
  obtain ⟨g1, g2, g3⟩ := pair_read ws _ v hk' hv (by decide) (hw.marks _ (by decide))
  unfold omlPairs
  rw [splitAll_append ',' _ _ (by simp only [List.mem_append, List.mem_cons, not_or]
                                  exact ⟨by decide, by decide, hc⟩),
    splitAll_none ',' _ (by simp only [List.mem_append, List.mem_cons, not_or]
                            exact ⟨by decide, by decide, hcv⟩)]
  simp only [List.map_cons, List.map_nil, h1, g1, List.filter_cons, h2, g2, List.filter_nil, ne_eq,
    not_false_eq_true, decide_true, if_true, List.filterMap_cons, h3, g3, List.filterMap_nil]

/-- **C167 (OpenML references).** A number requests that dataset; `name=n` requests the dataset named
`n`; `name=n,version=v` that version of it.  The arguments handed to the library are exactly those. -/
theorem C167_openml_reference (ws : Char → Bool) (hw : Plain ws) :
    (∀ k, ∃ i, omlResolve ws (OmlReq.id k).ref {} = .ok i ∧ omlFetch i = (.inl k, none)) ∧
    (∀ n, Trimmed ws n → ',' ∉ n →
      ∃ i, omlResolve ws (OmlReq.byName n).ref {} = .ok i ∧ omlFetch i = (.inr n, none) ∧
        i.canonical = "openml:name=".toList ++ n) ∧
    (∀ n v, Trimmed ws n → ',' ∉ n → Trimmed ws v → ',' ∉ v →
      ∃ i, omlResolve ws (OmlReq.versioned n v).ref {} = .ok i ∧
        omlFetch i = (.inr n, some (toVer v)) ∧ i.canonical = "openml:name=".toList ++ n) := by
  have hk : Trimmed ws "name".toList :=
    ⟨⟨'n', rfl, hw.letters _ (by decide)⟩, ⟨'e', rfl, hw.letters _ (by decide)⟩⟩
  have hk' : Trimmed ws "version".toList :=
    ⟨⟨'v', rfl, hw.letters _ (by decide)⟩, ⟨'n', rfl, hw.letters _ (by decide)⟩⟩
  refine ⟨?_, ?_, ?_⟩
  · intro k
    refine ⟨omlIdent (OmlReq.id k).ref { dataId := some k }, ?_, ?_⟩
    · unfold omlResolve omlParse
      simp only [OmlReq.ref]
      rw [strip_trimmed ws (showNat_trimmed ws hw.digits k), readNat_showNat]
      rfl
    · rfl
  · intro n hn hc
    have hr : (OmlReq.byName n).ref = "name".toList ++ '=' :: n := rfl
    have hlab : OmlCfg.label { name := some n } = n := by
      simp [OmlCfg.label, orNone, trimmed_ne_nil hn]
    refine ⟨omlIdent (OmlReq.byName n).ref { name := some n }, ?_, ?_, ?_⟩
    · unfold omlResolve omlParse
      rw [hr, (pair_read ws _ n hk hn (by decide) (hw.marks _ (by decide))).1, readNat_none_of_eq,
        pairs_name ws hw n hn hc]
      rfl
    · simp [omlFetch, omlIdent, orNone, trimmed_ne_nil hn]
    · simp only [omlIdent, hlab, if_neg (trimmed_ne_nil hn)]
  · intro n v hn hc hv hcv
    have hr : (OmlReq.versioned n v).ref = "name".toList ++ '=' :: n ++ ',' :: ("version".toList ++ '=' :: v) := by
      show "name=".toList ++ n ++ ",version=".toList ++ v = _
      simp
    have hlab : OmlCfg.label { name := some n, version := some (toVer v) } = n := by
      simp [OmlCfg.label, orNone, trimmed_ne_nil hn]
    have hstrip : strip ws ("name".toList ++ '=' :: n ++ ',' :: ("version".toList ++ '=' :: v)) =
        "name".toList ++ '=' :: n ++ ',' :: ("version".toList ++ '=' :: v) :=
      strip_trimmed ws (trimmed_joined ws _ _ ',' (hw.marks _ (by decide))
        (Or.inr (trimmed_joined ws _ _ '=' (hw.marks _ (by decide)) (Or.inr hk) (Or.inr hn)))
        (Or.inr (trimmed_joined ws _ _ '=' (hw.marks _ (by decide)) (Or.inr hk') (Or.inr hv))))
    have hnone : readNat ("name".toList ++ '=' :: n ++ ',' :: ("version".toList ++ '=' :: v)) = none := by
      rw [List.append_assoc, List.cons_append]
      exact readNat_none_of_eq _ _
    refine ⟨omlIdent (OmlReq.versioned n v).ref { name := some n, version := some (toVer v) }, ?_, ?_, ?_⟩
    · unfold omlResolve omlParse
      rw [hr, hstrip, hnone, pairs_versioned ws hw n v hn hc hv hcv]
      rfl
    · simp [omlFetch, omlIdent, orNone, trimmed_ne_nil hn]
    · simp only [omlIdent, hlab, if_neg (trimmed_ne_nil hn)]

/-- **C167 (OpenML options win).** Unlike for Hugging Face, an option overrides what the reference
says, field by field. -/
theorem C167_openml_options (ws : Char → Bool) (ref : List Char) (o : OmlCfg) (b : OmlCfg)
    (hb : omlParse ws ref = .ok b) :
    ∃ i, omlResolve ws ref o = .ok i ∧
      (∀ k, o.dataId = some k → (omlFetch i).1 = .inl k) ∧
      (∀ v, o.version = some v → (omlFetch i).2 = some v) ∧
      (∀ n, o.dataId = none → b.dataId = none → o.name = some n → n ≠ [] → (omlFetch i).1 = .inr n) := by
  refine ⟨omlIdent ref (b.over o), by unfold omlResolve; rw [hb]; rfl, ?_, ?_, ?_⟩
  · intro k hk
    simp [omlIdent, OmlCfg.over, hk, omlFetch]
  · intro v hv
    unfold omlIdent omlFetch
    cases h : (b.over o).dataId <;> simp [OmlCfg.over, hv]
  · intro n h1 h2 hn hne
    simp [omlIdent, OmlCfg.over, h1, h2, hn, omlFetch, orNone, hne]

/-- **C167 (violated: OpenML versions share a URI).** Two versions of one OpenML dataset are different
requests to the library, but they have the same canonical URI; resolving that URI again requests
neither of them but the default version. -/
theorem C167_openml_versions_violated (ws : Char → Bool) (hw : Plain ws) (n v w : List Char)
    (hn : Trimmed ws n) (hc : ',' ∉ n) (hv : Trimmed ws v) (hcv : ',' ∉ v) (hw' : Trimmed ws w)
    (hcw : ',' ∉ w) (hne : toVer v ≠ toVer w) :
    ∃ i j k, omlResolve ws (OmlReq.versioned n v).ref {} = .ok i ∧
      omlResolve ws (OmlReq.versioned n w).ref {} = .ok j ∧
      i.canonical = j.canonical ∧ omlFetch i ≠ omlFetch j ∧
      parseUri ws i.canonical = .ok ("openml".toList, (OmlReq.byName n).ref) ∧
      omlResolve ws (OmlReq.byName n).ref {} = .ok k ∧ omlFetch k ≠ omlFetch i := by
  obtain ⟨_, h2, h3⟩ := C167_openml_reference ws hw
  obtain ⟨i, hi, fi, ci⟩ := h3 n v hn hc hv hcv
  obtain ⟨j, hj, fj, cj⟩ := h3 n w hn hc hw' hcw
  obtain ⟨k, hk, fk, _⟩ := h2 n hn hc
  refine ⟨i, j, k, hi, hj, ci.trans cj.symm, ?_, ?_, hk, ?_⟩
  · rw [fi, fj]; intro h; apply hne; simpa using h
  · rw [ci]
    have hk' : Trimmed ws "name".toList :=
      ⟨⟨'n', rfl, hw.letters _ (by decide)⟩, ⟨'e', rfl, hw.letters _ (by decide)⟩⟩
    exact parse_prefix ws "openml".toList ("name".toList ++ '=' :: n) (by decide)
      ⟨⟨'o', rfl, hw.letters _ (by decide)⟩, ⟨'l', rfl, hw.letters _ (by decide)⟩⟩
      (trimmed_joined ws _ _ '=' (hw.marks _ (by decide)) (Or.inr hk') (Or.inr hn))
  · rw [fk, fi]; simp

section Cache
open ModSSC.DataLoader.Index

/-- **C167 (violated: a garbage collection removes another version).** In every cache that holds two
variants stored under one canonical URI — such as two versions of an OpenML dataset, by the theorem
above — garbage collection deletes one of them, and purging one by its URI deletes both. -/
theorem C167_gc_removes_version_violated (S : Sql) (hS : S.Lawful) (c : Cache)
    (hc : (Assoc.keys c.index).Nodup) (fp fp' : String) (hne : fp ≠ fp') (r r' : Row)
    (h : Assoc.get c.index fp = some r) (h' : Assoc.get c.index fp' = some r')
    (hu : r.manifest.uri = r'.manifest.uri) :
    (Assoc.get (gc S c).2.index fp = none ∨ Assoc.get (gc S c).2.index fp' = none) ∧
    Assoc.get (purgeDataset S r.manifest.uri c).2.index fp = none ∧
    Assoc.get (purgeDataset S r.manifest.uri c).2.index fp' = none := by
  have hg := C29_gc_newest S hS c hc
  obtain ⟨_, hm, hd, _⟩ := C29_purge_dataset S hS r.manifest.uri c hc
  refine ⟨?_, (hd fp ((hm fp).mpr ⟨r, h, rfl⟩)).1, (hd fp' ((hm fp').mpr ⟨r', h', hu.symm⟩)).1⟩
  rcases hg.part fp with e | e
  · rcases hg.part fp' with e' | e'
    · exact absurd (hg.unique fp r fp' r' (e.trans h) (e'.trans h') hu) hne
    · exact Or.inr e'
  · exact Or.inl e

end Cache

/-! ## Non-vacuity -/

/-- Only the blank is white space. -/
def blank : Char → Bool := fun c => decide (c = ' ')

theorem blank_plain : Plain blank := by
  refine ⟨by decide, ?_, by decide⟩
  intro c hc
  unfold blank
  by_contra h
  simp only [Bool.not_eq_false, decide_eq_true_eq] at h
  subst h
  exact absurd hc (by decide)

example : PlainName blank "glue".toList ∧ PlainVariant blank (some "sst2".toList) := by
  refine ⟨⟨⟨⟨'g', rfl, by decide⟩, ⟨'e', rfl, by decide⟩⟩, by decide⟩, ⟨'s', rfl, by decide⟩, ⟨'2', rfl, by decide⟩⟩

example : hfResolve blank " glue / sst2 ".toList (some "cola".toList) =
    { canonical := "hf:glue/sst2".toList, name := "glue".toList, variant := some "sst2".toList } := by
  decide +kernel

example : hfResolve blank "stanfordnlp/imdb".toList none =
    { canonical := "hf:stanfordnlp/imdb".toList, name := "stanfordnlp".toList,
      variant := some "imdb".toList } := by decide +kernel

example : (omlResolve blank "name=adult, version=2".toList {}).toOption =
    some { canonical := "openml:name=adult".toList, datasetId := "adult".toList, dataId := none,
           name := some "adult".toList, version := some (.num 2) } := by decide +kernel

example : toVer "1".toList ≠ toVer "2".toList := by decide +kernel

example : omlGet [("version".toList, "1".toList), ("version".toList, "2".toList)] "version".toList = some "2".toList := by
  decide +kernel

example : omlResolve blank "data_id=x".toList {} = .error .valueError := by decide +kernel

end ModSSC.DataLoader.Provider
