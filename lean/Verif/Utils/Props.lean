import Verif.Utils.Model
import Mathlib.Data.String.Basic
import Mathlib.Data.Fintype.EquivFin
import Mathlib.Data.List.Induction

/-!
# C18 (seed mixing), C19 (relative paths), C20 (registries)
-/

namespace ModSSC.Utils
open ModSSC

/-! ### C18 -/

theorem xorshift_inj (k : Nat) (hk : 64 ≤ 3 * k) {x y : BitVec 64}
    (h : x ^^^ (x >>> k) = y ^^^ (y >>> k)) : x = y := by
  have inv : ∀ z : BitVec 64, (z ^^^ (z >>> k)) ^^^ ((z ^^^ (z >>> k)) >>> k)
      ^^^ ((z ^^^ (z >>> k)) >>> (2 * k)) = z := by
    intro z
    apply BitVec.eq_of_getLsbD_eq
    intro i hi
    simp only [BitVec.getLsbD_xor, BitVec.getLsbD_ushiftRight]
    have h3 : z.getLsbD (k + (2 * k + i)) = false := BitVec.getLsbD_of_ge _ _ (by omega)
    have e1 : k + (k + i) = 2 * k + i := by omega
    rw [h3, e1]
    cases z.getLsbD i <;> cases z.getLsbD (k + i) <;> cases z.getLsbD (2 * k + i) <;> rfl
  rw [← inv x, ← inv y, h]

theorem mul_inj (c d : BitVec 64) (hcd : c * d = 1#64) {x y : BitVec 64} (h : x * c = y * c) : x = y := by
  have : x * c * d = y * c * d := by rw [h]
  rw [BitVec.mul_assoc, BitVec.mul_assoc, hcd, BitVec.mul_one, BitVec.mul_one] at this
  exact this

theorem mix64_inj {x y : BitVec 64} (h : mix64 x = mix64 y) : x = y := by
  unfold mix64 at h
  have h1 := xorshift_inj 31 (by norm_num) h
  have h2 := mul_inj _ 0x319642B2D24D8EC3#64 (by decide) h1
  have h3 := xorshift_inj 27 (by norm_num) h2
  have h4 := mul_inj _ 0x96DE1B173F119089#64 (by decide) h3
  exact xorshift_inj 30 (by norm_num) h4

theorem seedStart_eq_iff (s t s' t' : Int) :
    seedStart s t = seedStart s' t' ↔ (s + t) % 2 ^ 64 = (s' + t') % 2 ^ 64 := by
  unfold seedStart
  rw [← BitVec.toInt_inj, BitVec.toInt_ofInt, BitVec.toInt_ofInt]
  constructor
  · intro h
    have := congrArg (· % (2 : Int) ^ 64) h
    simp only [Int.bmod_def] at this
    omega
  · intro h
    have e : (s + 0x9E3779B97F4A7C15 + t) % 2 ^ 64 = (s' + 0x9E3779B97F4A7C15 + t') % 2 ^ 64 := by omega
    simp only [Int.bmod_def]
    norm_num at e ⊢
    rw [e]

/-- **C18 (range).** The derived seed is always in `[0, 2^32)`. -/
theorem C18_range (seed salt : Int) : mixSeed32 seed salt < 2 ^ 32 := by
  unfold mixSeed32
  rw [BitVec.toNat_and]
  have : (mix64 (seedStart seed salt)).toNat &&& (0xFFFFFFFF#64).toNat ≤ (0xFFFFFFFF#64).toNat :=
    Nat.and_le_right
  have h2 : (0xFFFFFFFF#64).toNat = 4294967295 := by decide
  omega

/-- **C18 (bijection).** The 64-bit mixing stage is a bijection. -/
theorem C18_mix_bijective : Function.Bijective mix64 := by
  have hi : Function.Injective mix64 := fun _ _ h => mix64_inj h
  have : Finite (BitVec 64) := Finite.of_injective (fun x => x.toFin) (fun a b h => BitVec.toFin_inj.mp h)
  exact Finite.injective_iff_bijective.mp hi

/-- **C18 (separation).** Two (seed, salt) pairs give the same 64-bit state exactly when their sums
agree modulo 2^64; in particular distinct salts in `[0, 2^64)` are always separated for a fixed
seed. -/
theorem C18_state_eq_iff (s t s' t' : Int) :
    mix64 (seedStart s t) = mix64 (seedStart s' t') ↔ (s + t) % 2 ^ 64 = (s' + t') % 2 ^ 64 :=
  ⟨fun h => (seedStart_eq_iff s t s' t').mp (mix64_inj h), fun h => by
    rw [(seedStart_eq_iff s t s' t').mpr h]⟩

/-- **C18 (only the sum matters).** The derived seed depends on seed and salt only through their sum
(so `(seed, salt+1)` and `(seed+1, salt)` always collide). -/
theorem C18_sum (s t s' t' : Int) (h : (s + t) % 2 ^ 64 = (s' + t') % 2 ^ 64) :
    mixSeed32 s t = mixSeed32 s' t' := by
  unfold mixSeed32
  rw [(C18_state_eq_iff s t s' t').mpr h]

/-- **C18 (no value is lost).** For every salt, every 32-bit value is produced by some seed. -/
theorem C18_surjective (salt : Int) (v : Nat) (hv : v < 2 ^ 32) : ∃ seed, mixSeed32 seed salt = v := by
  obtain ⟨x, hx⟩ := C18_mix_bijective.2 (BitVec.ofNat 64 v)
  refine ⟨(x.toNat : Int) - 0x9E3779B97F4A7C15 - salt, ?_⟩
  have hs : seedStart ((x.toNat : Int) - 0x9E3779B97F4A7C15 - salt) salt = x := by
    unfold seedStart
    have : ((x.toNat : Int) - 0x9E3779B97F4A7C15 - salt + 0x9E3779B97F4A7C15 + salt) = (x.toNat : Int) := by
      ring
    rw [this]
    apply BitVec.eq_of_toNat_eq
    simp
  unfold mixSeed32
  rw [hs, hx, BitVec.toNat_and]
  have h1 : (BitVec.ofNat 64 v).toNat = v := by
    rw [BitVec.toNat_ofNat]; omega
  have h2 : (0xFFFFFFFF#64).toNat = 2 ^ 32 - 1 := by decide
  rw [h1, h2, Nat.and_two_pow_sub_one_eq_mod]
  omega

example : mixSeed32 0 0 ≠ mixSeed32 0 1 ∧ mixSeed32 3 4 = mixSeed32 7 0 := by decide +kernel

/-! ### C19 -/

/-- A path text component that is neither empty, `.` nor `..`. -/
def Plain (c : List Char) : Prop := c ≠ ['.', '.']

theorem resolve_append (a b : List (List Char)) :
    resolve (a ++ b) = b.foldl (fun acc c => if c = ['.', '.'] then acc.dropLast else acc ++ [c]) (resolve a) := by
  unfold resolve
  rw [List.foldl_append]

theorem resolve_plain : ∀ (b acc : List (List Char)), (∀ c ∈ b, c ≠ ['.', '.']) →
    b.foldl (fun acc c => if c = ['.', '.'] then acc.dropLast else acc ++ [c]) acc = acc ++ b := by
  intro b
  induction b with
  | nil => intro acc _; simp
  | cons c b ih =>
    intro acc h
    rw [List.foldl_cons, if_neg (h c (by simp)), ih _ (fun c hc => h c (by simp [hc]))]
    simp

theorem resolve_no_dots : ∀ (l acc : List (List Char)), (∀ c ∈ acc, c ≠ ['.', '.']) →
    ∀ c ∈ l.foldl (fun acc c => if c = ['.', '.'] then acc.dropLast else acc ++ [c]) acc, c ≠ ['.', '.'] := by
  intro l
  induction l with
  | nil => intro acc h; exact h
  | cons d l ih =>
    intro acc h
    rw [List.foldl_cons]
    apply ih
    split
    · intro c hc; exact h c ((List.dropLast_sublist _).subset hc)
    · intro c hc
      rcases List.mem_append.mp hc with hc | hc
      · exact h c hc
      · simp at hc; rw [hc]; assumption

theorem resolve_idem (root : List (List Char)) : resolve (resolve root) = resolve root := by
  have := resolve_plain (resolve root) [] (resolve_no_dots root [] (by simp))
  simpa [resolve] using this

theorem foldl_dots (n : Nat) (acc : List (List Char)) :
    (List.replicate n ['.', '.']).foldl
      (fun (acc : List (List Char)) c => if c = ['.', '.'] then acc.dropLast else acc ++ [c]) acc
      = acc.take (acc.length - n) := by
  induction n generalizing acc with
  | zero => simp
  | succ n ih =>
    rw [List.replicate_succ, List.foldl_cons, if_pos rfl, ih, List.dropLast_eq_take, List.length_take,
      List.take_take]
    congr 1
    omega

/-- **C19 (containment).** Whatever the relative text, a returned path lies inside the (resolved) root:
it is the root followed by zero or more ordinary components, none of them `..`. -/
theorem C19_inside_root (root : List (List Char)) (rel : List Char) (p : List (List Char))
    (h : resolveRelativePath root rel = .ok p) :
    ∃ rest, p = resolve root ++ rest ∧ ∀ c ∈ p, c ≠ ['.', '.'] := by
  unfold resolveRelativePath at h
  simp only at h
  split at h
  · simp at h
  · split at h
    · rename_i hpre
      obtain rfl := Except.ok.inj h
      obtain ⟨rest, hr⟩ := List.isPrefixOf_iff_prefix.mp hpre
      exact ⟨rest, hr.symm, resolve_no_dots _ _ (by simp)⟩
    · simp at h

/-- **C19 (absolute paths).** A text starting with `/` is always rejected. -/
theorem C19_absolute_rejected (root : List (List Char)) (rel : List Char) :
    resolveRelativePath root ('/' :: rel) = .error .valueError := by
  simp [resolveRelativePath]

/-- **C19 (ordinary paths).** A relative text without `..` components is accepted and denotes the path
obtained by descending from the root. -/
theorem C19_plain_accepted (root : List (List Char)) (rel : List Char) (hrel : rel.head? ≠ some '/')
    (h : ∀ c ∈ components rel, c ≠ ['.', '.']) :
    resolveRelativePath root rel = .ok (resolve root ++ components rel) := by
  unfold resolveRelativePath
  simp only
  rw [if_neg hrel, resolve_append, resolve_idem, resolve_plain _ _ h, if_pos]
  simp

/-- **C19 (climbing).** A text of `n ≥ 1` leading `..` followed by ordinary components is accepted
exactly when it comes back into the root, i.e. when the ordinary components start with the root
components that were climbed; otherwise it is rejected. -/
theorem C19_climbing (root : List (List Char)) (rel : List Char) (hrel : rel.head? ≠ some '/')
    (n : Nat) (rest : List (List Char)) (hc : components rel = List.replicate n ['.', '.'] ++ rest)
    (hr : ∀ c ∈ rest, c ≠ ['.', '.']) :
    (∃ p, resolveRelativePath root rel = .ok p) ↔
      (resolve root).drop ((resolve root).length - n) <+: rest := by
  have hval : resolve (resolve root ++ components rel)
      = (resolve root).take ((resolve root).length - n) ++ rest := by
    rw [resolve_append, resolve_idem, hc, List.foldl_append, foldl_dots, resolve_plain _ _ hr]
  have hiff : (resolve root).isPrefixOf ((resolve root).take ((resolve root).length - n) ++ rest) = true
      ↔ (resolve root).drop ((resolve root).length - n) <+: rest := by
    rw [List.isPrefixOf_iff_prefix]
    conv_lhs => rw [← List.take_append_drop ((resolve root).length - n) (resolve root)]
    rw [List.take_append_drop]
    conv_lhs => lhs; rw [← List.take_append_drop ((resolve root).length - n) (resolve root)]
    exact List.prefix_append_right_inj _
  unfold resolveRelativePath
  simp only
  rw [if_neg hrel, hval]
  constructor
  · rintro ⟨p, hp⟩
    split at hp
    · rename_i h; exact hiff.mp h
    · simp at hp
  · intro h
    rw [if_pos (hiff.mpr h)]
    exact ⟨_, rfl⟩

example : resolveRelativePath ["data".toList] "a//./b.npy".toList
    = .ok ["data".toList, "a".toList, "b.npy".toList] := by decide +kernel
example : resolveRelativePath ["data".toList, "x".toList] "a/../../y".toList = .error .valueError := by
  decide +kernel
example : resolveRelativePath ["data".toList, "x".toList] "../x/y".toList
    = .ok ["data".toList, "x".toList, "y".toList] := by decide +kernel

/-! ### C20 -/

/-- A call that would be accepted by an empty registry. -/
def Call.WellFormed (c : Call) : Prop := c.id ≠ "" ∧ ':' ∈ c.path.toList ∧ c.status ≠ .other

instance (c : Call) : Decidable c.WellFormed := by unfold Call.WellFormed; infer_instance

/-- Specification: the import path an id is bound to is the one of its first well-formed call. -/
def firstPath (hist : List Call) (id : String) : Option String :=
  (hist.find? (fun c => decide (c.WellFormed ∧ c.id = id))).map (·.path)

/-- Specification: the calls for `id` that are accepted are the well-formed ones with the bound path;
the status is the one of the last of them. -/
def lastStatus (hist : List Call) (id : String) : Option Status :=
  (hist.reverse.find? (fun c => decide (c.WellFormed ∧ c.id = id ∧ some c.path = firstPath hist id))).map
    (·.status)

/-- What one call does. -/
theorem register_cases (r : Registry) (c : Call) :
    (register r c.id c.path c.status = .ok (Assoc.set r c.id ⟨c.path, c.status⟩) ∧ c.WellFormed ∧
      (∀ ref, Assoc.get r c.id = some ref → ref.importPath = c.path)) ∨
    (∃ e, register r c.id c.path c.status = .error e ∧
      (¬ c.WellFormed ∨ ∃ ref, Assoc.get r c.id = some ref ∧ ref.importPath ≠ c.path)) := by
  unfold register Call.WellFormed
  by_cases h1 : c.id = ""
  · right; exact ⟨_, if_pos h1, Or.inl (fun h => h.1 h1)⟩
  · rw [if_neg h1]
    by_cases h2 : ':' ∉ c.path.toList
    · right; exact ⟨_, if_pos h2, Or.inl (fun h => h2 h.2.1)⟩
    · rw [if_neg h2]
      cases hg : Assoc.get r c.id with
      | some ref =>
        simp only
        by_cases h3 : ref.importPath ≠ c.path
        · right; exact ⟨_, if_pos h3, Or.inr ⟨ref, rfl, h3⟩⟩
        · rw [if_neg h3]
          by_cases h4 : c.status = .other
          · right; exact ⟨_, if_pos h4, Or.inl (fun h => h.2.2 h4)⟩
          · left
            refine ⟨if_neg h4, ⟨h1, not_not.mp h2, h4⟩, ?_⟩
            intro ref' h; obtain rfl := Option.some.inj h; exact not_not.mp h3
      | none =>
        simp only
        by_cases h4 : c.status = .other
        · right; exact ⟨_, if_pos h4, Or.inl (fun h => h.2.2 h4)⟩
        · left
          exact ⟨if_neg h4, ⟨h1, not_not.mp h2, h4⟩, by simp⟩

/-- The registry invariant relative to the calls made so far. -/
theorem runCalls_append (a b : List Call) (r : Registry) : runCalls (a ++ b) r = runCalls b (runCalls a r) := by
  induction a generalizing r with
  | nil => rfl
  | cons c a ih =>
    rw [List.cons_append, runCalls, runCalls]
    split <;> exact ih _

theorem firstPath_snoc (h : List Call) (c : Call) (id : String) :
    firstPath (h ++ [c]) id = (firstPath h id).or (if c.WellFormed ∧ c.id = id then some c.path else none) := by
  unfold firstPath
  rw [List.find?_append]
  cases hf : h.find? (fun c => decide (c.WellFormed ∧ c.id = id)) with
  | some x => simp
  | none =>
    by_cases hc : c.WellFormed ∧ c.id = id
    · simp [hc]
    · simp [hc]

theorem registry_spec (hist : List Call) : ∀ id,
    (Assoc.get (runCalls hist []) id).map (·.importPath) = firstPath hist id ∧
    (Assoc.get (runCalls hist []) id).map (·.status) = lastStatus hist id ∧
    (Assoc.keys (runCalls hist [])).Nodup := by
  induction hist using List.reverseRecOn with
  | nil => intro id; exact ⟨rfl, rfl, List.nodup_nil⟩
  | append_singleton h c ih =>
    intro id
    rw [runCalls_append]
    have hstep : runCalls [c] (runCalls h []) = match register (runCalls h []) c.id c.path c.status with
        | .ok r' => r'
        | .error _ => runCalls h [] := by
      rw [runCalls]; cases register (runCalls h []) c.id c.path c.status <;> rfl
    rw [hstep]
    have hsnoc : ∀ id, lastStatus (h ++ [c]) id =
        if c.WellFormed ∧ c.id = id ∧ some c.path = firstPath (h ++ [c]) id then some c.status
        else (h.reverse.find? (fun c' => decide (c'.WellFormed ∧ c'.id = id ∧
          some c'.path = firstPath (h ++ [c]) id))).map (·.status) := by
      intro id
      unfold lastStatus
      rw [List.reverse_append, List.reverse_singleton, List.singleton_append]
      by_cases hc : c.WellFormed ∧ c.id = id ∧ some c.path = firstPath (h ++ [c]) id
      · rw [if_pos hc, List.find?_cons_of_pos (by simpa using hc)]; rfl
      · rw [if_neg hc, List.find?_cons_of_neg (by simpa using hc)]
    have hsame : ∀ id, (∃ p, firstPath h id = some p) → firstPath (h ++ [c]) id = firstPath h id := by
      rintro id ⟨p, hp⟩
      rw [firstPath_snoc, hp]; rfl
    have hnone : ∀ id, firstPath h id = none → ∀ q : Option String, h.reverse.find? (fun c' =>
        decide (c'.WellFormed ∧ c'.id = id ∧ some c'.path = q)) = none := by
      intro id hn q
      unfold firstPath at hn
      rw [Option.map_eq_none_iff, List.find?_eq_none] at hn
      rw [List.find?_eq_none]
      intro x hx hd
      have := hn x (List.mem_reverse.mp hx)
      simp only [decide_eq_true_eq] at this hd
      exact this ⟨hd.1, hd.2.1⟩
    rcases register_cases (runCalls h []) c with ⟨hok, hwf, hpath⟩ | ⟨e, herr, hbad⟩
    · rw [hok]
      simp only
      refine ⟨?_, ?_, ?_⟩
      · by_cases hid : id = c.id
        · subst hid
          rw [Assoc.get_set_self]
          cases hg : Assoc.get (runCalls h []) c.id with
          | some ref =>
            have h1 := (ih c.id).1
            rw [hg] at h1
            rw [hsame c.id ⟨_, h1.symm⟩, ← h1]
            simp [hpath ref hg]
          | none =>
            have h1 := (ih c.id).1
            rw [hg] at h1
            rw [firstPath_snoc, ← h1, if_pos ⟨hwf, rfl⟩]
            rfl
        · rw [Assoc.get_set_other _ _ hid, (ih id).1, firstPath_snoc, if_neg (fun hc => hid hc.2.symm)]
          simp
      · by_cases hid : id = c.id
        · subst hid
          rw [Assoc.get_set_self, hsnoc, if_pos]
          · rfl
          · refine ⟨hwf, rfl, ?_⟩
            cases hg : Assoc.get (runCalls h []) c.id with
            | some ref =>
              have h1 := (ih c.id).1
              rw [hg] at h1
              rw [hsame c.id ⟨_, h1.symm⟩, ← h1]
              simp [hpath ref hg]
            | none =>
              have h1 := (ih c.id).1
              rw [hg] at h1
              rw [firstPath_snoc, ← h1, if_pos ⟨hwf, rfl⟩]
              rfl
        · rw [Assoc.get_set_other _ _ hid, (ih id).2.1, hsnoc, if_neg (fun hc => hid hc.2.1.symm)]
          have : firstPath (h ++ [c]) id = firstPath h id := by
            rw [firstPath_snoc, if_neg (fun hc => hid hc.2.symm)]; simp
          rw [this]; rfl
      · exact Assoc.nodup_keys_set (ih id).2.2 _ _
    · rw [herr]
      simp only
      have hfp : ∀ id, firstPath (h ++ [c]) id = firstPath h id := by
        intro id
        rw [firstPath_snoc]
        cases hfp : firstPath h id with
        | some p => rfl
        | none =>
          rw [if_neg]
          · rfl
          · rintro ⟨hw, hi⟩
            rcases hbad with hb | ⟨ref, hg, hne⟩
            · exact hb hw
            · have h1 := (ih c.id).1
              rw [hg, hi, hfp] at h1
              simp at h1
      refine ⟨by rw [(ih id).1, hfp], ?_, (ih id).2.2⟩
      rw [(ih id).2.1, hsnoc, if_neg, hfp]
      · rfl
      · rintro ⟨hw, hi, hp⟩
        rcases hbad with hb | ⟨ref, hg, hne⟩
        · exact hb hw
        · have h1 := (ih c.id).1
          rw [hg] at h1
          rw [hfp, ← hi, ← h1] at hp
          simp at hp
          exact hne hp.symm

/-- **C20 (write-once).** After any history of registrations, an id is bound to the import path of its
first well-formed registration, with the status of the last accepted one. -/
theorem C20_write_once (hist : List Call) (id : String) :
    (Assoc.get (runCalls hist []) id).map (·.importPath) = firstPath hist id ∧
    (Assoc.get (runCalls hist []) id).map (·.status) = lastStatus hist id :=
  ⟨(registry_spec hist id).1, (registry_spec hist id).2.1⟩

/-- **C20 (conflicts).** In any reachable registry, a registration is accepted exactly when it is
well-formed and does not contradict the bound path; otherwise it raises (and, being a value, changes
nothing). -/
theorem C20_accept_iff (hist : List Call) (c : Call) :
    (∃ r', register (runCalls hist []) c.id c.path c.status = .ok r') ↔
      c.WellFormed ∧ (firstPath hist c.id = none ∨ firstPath hist c.id = some c.path) := by
  have h1 := (registry_spec hist c.id).1
  rcases register_cases (runCalls hist []) c with ⟨hok, hwf, hpath⟩ | ⟨e, herr, hbad⟩
  · refine ⟨fun _ => ⟨hwf, ?_⟩, fun _ => ⟨_, hok⟩⟩
    cases hg : Assoc.get (runCalls hist []) c.id with
    | some ref => rw [hg] at h1; right; rw [← h1]; simp [hpath ref hg]
    | none => rw [hg] at h1; left; rw [← h1]; rfl
  · refine ⟨fun ⟨r', hr⟩ => ?_, fun ⟨hw, hp⟩ => ?_⟩
    · rw [herr] at hr; simp at hr
    · rcases hbad with hb | ⟨ref, hg, hne⟩
      · exact absurd hw hb
      · rw [hg] at h1
        rcases hp with hp | hp
        · rw [hp] at h1; simp at h1
        · rw [hp] at h1; simp at h1; exact absurd h1 hne

/-- **C20 (idempotence).** Repeating an accepted registration leaves every binding unchanged. -/
theorem C20_reregister_noop (hist : List Call) (c : Call) (id : String) :
    Assoc.get (runCalls (hist ++ [c, c]) []) id = Assoc.get (runCalls (hist ++ [c]) []) id := by
  rw [runCalls_append, runCalls_append, runCalls]
  rcases register_cases (runCalls hist []) c with ⟨hok, hwf, hpath⟩ | ⟨e, herr, hbad⟩
  · rw [hok]
    simp only [runCalls]
    have : register (Assoc.set (runCalls hist []) c.id ⟨c.path, c.status⟩) c.id c.path c.status
        = .ok (Assoc.set (Assoc.set (runCalls hist []) c.id ⟨c.path, c.status⟩) c.id ⟨c.path, c.status⟩) := by
      unfold register
      rw [Assoc.get_set_self, if_neg hwf.1, if_neg (not_not.mpr hwf.2.1)]
      simp [hwf.2.2]
    rw [this, hok]
    simp only
    by_cases hid : id = c.id
    · subst hid; rw [Assoc.get_set_self, Assoc.get_set_self]
    · rw [Assoc.get_set_other _ _ hid]
  · simp only [herr, runCalls]

/-- **C20 (listing).** The listing is strictly increasing (sorted without repetition) and contains an
id exactly when it is registered and, if only available methods are asked for, not merely planned. -/
theorem C20_listing (hist : List Call) (availableOnly : Bool) :
    (availableMethodIds (runCalls hist []) availableOnly).Pairwise (fun a b => a ≤ b ∧ a ≠ b) ∧
    ∀ id, id ∈ availableMethodIds (runCalls hist []) availableOnly ↔
      ((firstPath hist id).isSome = true ∧ (availableOnly = true → lastStatus hist id ≠ some .planned)) := by
  set r := runCalls hist [] with hr
  have hnd : (r.map (·.1)).Nodup := (registry_spec hist "").2.2
  have hsorted : ((r.map (·.1)).insertionSort (· ≤ ·)).Pairwise (fun a b => a ≤ b ∧ a ≠ b) := by
    have h1 : ((r.map (·.1)).insertionSort (· ≤ ·)).Pairwise (· ≤ ·) := List.pairwise_insertionSort _ _
    have h2 : ((r.map (·.1)).insertionSort (· ≤ ·)).Nodup := (List.perm_insertionSort _ _).nodup_iff.mpr hnd
    exact h1.and h2
  have hmem : ∀ id, id ∈ (r.map (·.1)).insertionSort (· ≤ ·) ↔ (firstPath hist id).isSome = true := by
    intro id
    rw [(List.perm_insertionSort _ _).mem_iff, ← (registry_spec hist id).1, Option.isSome_map]
    rw [← not_iff_not]
    change id ∉ Assoc.keys r ↔ _
    rw [← Assoc.get_eq_none_iff, hr]
    cases hg : Assoc.get (runCalls hist []) id <;> simp
  unfold availableMethodIds
  cases availableOnly with
  | false => exact ⟨by simpa using hsorted, fun id => by simpa using hmem id⟩
  | true =>
    simp only [if_true]
    refine ⟨hsorted.filter _, fun id => ?_⟩
    rw [List.mem_filter, hmem]
    have h2 := (registry_spec hist id).2.1
    have h1 := (registry_spec hist id).1
    rw [← h2, ← h1, hr]
    cases hg : Assoc.get (runCalls hist []) id with
    | none => simp
    | some ref => simp

example : availableMethodIds (runCalls [⟨"b", "m:B", .planned⟩, ⟨"a", "m:A", .implemented⟩,
    ⟨"b", "x:B", .implemented⟩] []) false = ["a", "b"] ∧
  firstPath [⟨"b", "m:B", .planned⟩, ⟨"a", "m:A", .implemented⟩, ⟨"b", "x:B", .implemented⟩] "b" = some "m:B" := by
  decide +kernel

end ModSSC.Utils
