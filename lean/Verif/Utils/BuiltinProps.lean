import Verif.Utils.BuiltinModel
import Verif.Utils.Props

/-!
# C207: built-in methods and registrations by the program
-/

namespace ModSSC.Utils.Builtin
open ModSSC ModSSC.Utils

variable {C : Type}

namespace Spec

/-- The registrations in a history. -/
def regs (os : List Op) : List Call :=
  os.filterMap fun o => match o with
    | .reg c => some c
    | _ => none

/-- A usable list of built-in methods: well-formed registrations of different ids. -/
def Usable (bs : List Call) : Prop := (∀ b ∈ bs, b.WellFormed) ∧ (bs.map (·.id)).Nodup

/-- The program registers no built-in id with a path of its own. -/
def NoClash (bs : List Call) (os : List Op) : Prop :=
  ∀ c ∈ regs os, c.WellFormed → ∀ b ∈ bs, b.id = c.id → b.path = c.path

end Spec

/-- The path bound to an id. -/
def pathOf (r : Registry) (id : String) : Option String := (Assoc.get r id).map (·.importPath)

/-- The registry after one registration. -/
def regStep (r : Registry) (c : Call) : Registry :=
  match register r c.id c.path c.status with
  | .ok r' => r'
  | .error _ => r

theorem pathOf_reg (r : Registry) (c : Call) (id : String) :
    pathOf (regStep r c) id = (pathOf r id).or (if c.WellFormed ∧ c.id = id then some c.path else none) := by
  unfold regStep
  rcases register_cases r c with ⟨hok, hwf, hpath⟩ | ⟨e, herr, hbad⟩
  · rw [hok]
    simp only [pathOf]
    by_cases hid : id = c.id
    · subst hid
      rw [Assoc.get_set_self, if_pos ⟨hwf, rfl⟩]
      cases hg : Assoc.get r c.id with
      | none => rfl
      | some ref => simp [hpath ref hg]
    · rw [Assoc.get_set_other _ _ hid, if_neg (fun h => hid h.2.symm)]
      simp
  · rw [herr]
    simp only
    rcases hbad with hb | ⟨ref, hg, -⟩
    · rw [if_neg (fun h => hb h.1)]; simp
    · by_cases hid : c.id = id
      · subst hid; simp [pathOf, hg]
      · rw [if_neg (fun h => hid h.2)]; simp

theorem register_error {r : Registry} {c : Call} {e : PyErr}
    (h : register r c.id c.path c.status = .error e) : e = .valueError := by
  unfold register at h
  repeat' split at h
  all_goals cases h
  all_goals rfl

theorem ensure_path_keep (bs : List Call) : ∀ (r : Registry) (id p : String), pathOf r id = some p →
    pathOf (ensure bs r).1 id = some p := by
  induction bs with
  | nil => intro r id p h; exact h
  | cons b bs ih =>
    intro r id p h
    have hr := pathOf_reg r b id
    unfold regStep at hr
    unfold ensure
    cases hb : register r b.id b.path b.status with
    | error e => exact h
    | ok r' =>
      rw [hb] at hr
      exact ih r' id p (by rw [hr, h]; rfl)

theorem ensure_fail (bs : List Call) : ∀ (r : Registry) (b : Call) (p : String), b ∈ bs →
    pathOf r b.id = some p → p ≠ b.path → (ensure bs r).2 = some .valueError := by
  induction bs with
  | nil => intro r b p hb; cases hb
  | cons b0 bs ih =>
    intro r b p hb hp hne
    unfold ensure
    cases hreg : register r b0.id b0.path b0.status with
    | error e => simp [register_error hreg]
    | ok r' =>
      simp only
      rcases List.mem_cons.1 hb with rfl | hb
      · exfalso
        rcases register_cases r b with ⟨hok, hwf, hpath⟩ | ⟨e, herr, -⟩
        · cases hg : Assoc.get r b.id with
          | none => simp [pathOf, hg] at hp
          | some ref =>
            simp [pathOf, hg] at hp
            exact hne (hp.symm.trans (hpath ref hg))
        · rw [herr] at hreg; cases hreg
      · have hr := pathOf_reg r b0 b.id
        unfold regStep at hr
        rw [hreg] at hr
        exact ih r' b p hb (by rw [hr, hp]; rfl) hne

theorem ensure_ok (bs : List Call) : ∀ (r : Registry), Spec.Usable bs →
    (∀ b ∈ bs, pathOf r b.id = none ∨ pathOf r b.id = some b.path) →
    (ensure bs r).2 = none ∧
    (∀ b ∈ bs, Assoc.get (ensure bs r).1 b.id = some ⟨b.path, b.status⟩) ∧
    (∀ id, id ∉ bs.map (·.id) → Assoc.get (ensure bs r).1 id = Assoc.get r id) := by
  induction bs with
  | nil => intro r _ _; exact ⟨rfl, by simp, fun _ _ => rfl⟩
  | cons b bs ih =>
    intro r hu hp
    obtain ⟨hw, hn⟩ := hu
    rw [List.map_cons, List.nodup_cons] at hn
    have hreg : register r b.id b.path b.status = .ok (Assoc.set r b.id ⟨b.path, b.status⟩) := by
      rcases register_cases r b with ⟨hok, -⟩ | ⟨e, herr, hbad⟩
      · exact hok
      · exfalso
        rcases hbad with h | ⟨ref, hg, hne⟩
        · exact h (hw b List.mem_cons_self)
        · rcases hp b List.mem_cons_self with h | h
          · simp [pathOf, hg] at h
          · simp [pathOf, hg] at h; exact hne h
    have hne : ∀ b' ∈ bs, b'.id ≠ b.id := fun b' hb' e =>
      hn.1 (e ▸ List.mem_map.2 ⟨b', hb', rfl⟩)
    have := ih (Assoc.set r b.id ⟨b.path, b.status⟩)
      ⟨fun b' hb' => hw b' (List.mem_cons_of_mem _ hb'), hn.2⟩
      (fun b' hb' => by
        unfold pathOf
        rw [Assoc.get_set_other _ _ (hne b' hb')]
        exact hp b' (List.mem_cons_of_mem _ hb'))
    obtain ⟨i1, i2, i3⟩ := this
    simp only [ensure, hreg]
    refine ⟨i1, ?_, ?_⟩
    · intro b' hb'
      rcases List.mem_cons.1 hb' with rfl | hb'
      · rw [i3 _ hn.1, Assoc.get_set_self]
      · exact i2 b' hb'
    · intro id hid
      rw [List.map_cons, List.mem_cons, not_or] at hid
      rw [i3 id hid.2, Assoc.get_set_other _ _ hid.1]

theorem step_reg_fst (bs : List Call) (imp : String → String → Except PyErr C) (r : Registry) (c : Call) :
    (step bs imp r (.reg c)).1 = regStep r c := by
  simp only [step, regStep]
  cases register r c.id c.path c.status <;> rfl

theorem step_list_fst (bs : List Call) (imp : String → String → Except PyErr C) (r : Registry) (a : Bool) :
    (step bs imp r (.list a)).1 = (ensure bs r).1 := by
  simp only [step]
  rcases h : ensure bs r with ⟨r', _ | e⟩ <;> rfl

theorem step_load_fst (bs : List Call) (imp : String → String → Except PyErr C) (r : Registry)
    (id : String) : (step bs imp r (.load id)).1 = (ensure bs r).1 := by
  simp only [step]
  rcases h : ensure bs r with ⟨r', _ | e⟩
  · simp only
    cases Assoc.get r' id <;> rfl
  · rfl

theorem after_keep (bs : List Call) (imp : String → String → Except PyErr C) (os : List Op) :
    ∀ (r : Registry) (id p : String), pathOf r id = some p → pathOf (after bs imp os r) id = some p := by
  induction os with
  | nil => intro r id p h; exact h
  | cons o os ih =>
    intro r id p h
    apply ih
    cases o with
    | reg c => rw [step_reg_fst, pathOf_reg, h]; rfl
    | list a => rw [step_list_fst]; exact ensure_path_keep bs r id p h
    | load i => rw [step_load_fst]; exact ensure_path_keep bs r id p h

theorem firstPath_cons (c : Call) (h : List Call) (id : String) :
    firstPath (c :: h) id = (if c.WellFormed ∧ c.id = id then some c.path else none).or (firstPath h id) := by
  unfold firstPath
  by_cases hc : c.WellFormed ∧ c.id = id
  · rw [List.find?_cons_of_pos (by simpa using hc), if_pos hc]; rfl
  · rw [List.find?_cons_of_neg (by simpa using hc), if_neg hc]; rfl

theorem after_spec (bs : List Call) (imp : String → String → Except PyErr C) (hu : Spec.Usable bs)
    (os : List Op) : ∀ (r : Registry), Spec.NoClash bs os →
    (∀ b ∈ bs, pathOf r b.id = none ∨ pathOf r b.id = some b.path) →
    (∀ b ∈ bs, pathOf (after bs imp os r) b.id = none ∨ pathOf (after bs imp os r) b.id = some b.path) ∧
    (∀ id, id ∉ bs.map (·.id) →
      pathOf (after bs imp os r) id = (pathOf r id).or (firstPath (Spec.regs os) id)) := by
  induction os with
  | nil => intro r _ h; exact ⟨h, fun id _ => by simp [after, Spec.regs, firstPath]⟩
  | cons o os ih =>
    intro r hnc hinv
    have huse : (step bs imp r o).1 = (ensure bs r).1 → Spec.regs (o :: os) = Spec.regs os →
        _ := fun e1 e2 => by
      have hnc' : Spec.NoClash bs os := by unfold Spec.NoClash at hnc ⊢; rw [← e2]; exact hnc
      obtain ⟨-, h2, h3⟩ := ensure_ok bs r hu hinv
      have key := ih (ensure bs r).1 hnc' (fun b hb => by right; simp [pathOf, h2 b hb])
      refine (?_ : (∀ b ∈ bs, pathOf (after bs imp (o :: os) r) b.id = none ∨
          pathOf (after bs imp (o :: os) r) b.id = some b.path) ∧
        (∀ id, id ∉ bs.map (·.id) → pathOf (after bs imp (o :: os) r) id =
          (pathOf r id).or (firstPath (Spec.regs (o :: os)) id)))
      simp only [after, e1, e2]
      refine ⟨key.1, fun id hid => ?_⟩
      rw [key.2 id hid]
      simp only [pathOf, h3 id hid]
    cases o with
    | list a => exact huse (step_list_fst bs imp r a) rfl
    | load i => exact huse (step_load_fst bs imp r i) rfl
    | reg c =>
      have hr : Spec.regs (.reg c :: os) = c :: Spec.regs os := rfl
      have hnc' : Spec.NoClash bs os := fun c' hc' => hnc c' (by rw [hr]; exact List.mem_cons_of_mem _ hc')
      have key := ih (regStep r c) hnc' (fun b hb => by
        rw [pathOf_reg]
        rcases hinv b hb with h | h
        · rw [h]
          by_cases hc : c.WellFormed ∧ c.id = b.id
          · right
            rw [if_pos hc, hnc c (by rw [hr]; exact List.mem_cons_self) hc.1 b hb hc.2.symm]
            rfl
          · left; rw [if_neg hc]; rfl
        · right; rw [h]; rfl)
      simp only [after, step_reg_fst]
      refine ⟨key.1, fun id hid => ?_⟩
      rw [key.2 id hid, pathOf_reg, hr, firstPath_cons, Option.or_assoc]

/-- **C207 (every method is found).** If the program gives no built-in id a path of its own, then after
any history of registrations, listings and lookups, asking for a built-in id imports the built-in class,
asking for another id imports the class of its first well-formed registration, and for an id that was
never registered raises a key error. -/
theorem C207_found (bs : List Call) (imp : String → String → Except PyErr C) (os : List Op)
    (hu : Spec.Usable bs) (hn : Spec.NoClash bs os) :
    (∀ b ∈ bs, (step bs imp (after bs imp os []) (.load b.id)).2 = .ofClass (importClass imp b.path)) ∧
    (∀ id, id ∉ bs.map (·.id) → (step bs imp (after bs imp os []) (.load id)).2 =
      match firstPath (Spec.regs os) id with
      | some p => .ofClass (importClass imp p)
      | none => .raised .keyError) := by
  obtain ⟨h1, h2⟩ := after_spec bs imp hu os [] hn (fun b _ => .inl rfl)
  obtain ⟨e1, e2, e3⟩ := ensure_ok bs (after bs imp os []) hu h1
  have he : ensure bs (after bs imp os []) = ((ensure bs (after bs imp os [])).1, none) := by
    rw [← e1]
  refine ⟨fun b hb => ?_, fun id hid => ?_⟩
  · simp only [step]
    rw [he]
    simp only [e2 b hb]
  · have hp := h2 id hid
    simp only [step]
    rw [he]
    simp only [e3 id hid]
    have h0 : pathOf ([] : Registry) id = none := rfl
    rw [h0, Option.none_or] at hp
    rw [← hp]
    unfold pathOf
    cases Assoc.get (after bs imp os []) id <;> rfl

/-- **C207 (a built-in method keeps its status).** Under the same condition a built-in id is in the
listing exactly if all methods are asked for or it is built in as implemented, even if the program
registered it with another status. -/
theorem C207_listed (bs : List Call) (imp : String → String → Except PyErr C) (os : List Op)
    (hu : Spec.Usable bs) (hn : Spec.NoClash bs os) (a : Bool) :
    ∃ l, (step bs imp (after bs imp os []) (.list a)).2 = .ids l ∧
      ∀ b ∈ bs, b.id ∈ l ↔ (a = true → b.status ≠ .planned) := by
  obtain ⟨h1, -⟩ := after_spec bs imp hu os [] hn (fun b _ => .inl rfl)
  obtain ⟨e1, e2, e3⟩ := ensure_ok bs (after bs imp os []) hu h1
  have he : ensure bs (after bs imp os []) = ((ensure bs (after bs imp os [])).1, none) := by
    rw [← e1]
  refine ⟨availableMethodIds (ensure bs (after bs imp os [])).1 a, ?_, ?_⟩
  · simp only [step]
    rw [he]
  · intro b hb
    have hg := e2 b hb
    have hm : b.id ∈ ((ensure bs (after bs imp os [])).1.map (·.1)).insertionSort (· ≤ ·) := by
      rw [(List.perm_insertionSort _ _).mem_iff]
      exact Assoc.mem_keys_iff.2 ⟨_, hg⟩
    unfold availableMethodIds
    cases a with
    | false => simpa using hm
    | true => simp only [if_true, List.mem_filter, hm, true_and, hg, decide_eq_true_eq, forall_const]

/-- **C207 (one registration breaks all, violated).** "A registration concerns its own id" is false: if
the program registers a built-in id with another path before the built-in methods are, that is accepted,
and from then on, whatever the program does, every listing and every lookup of any id raises a value
error. -/
theorem C207_isolated_violated (bs : List Call) (imp : String → String → Except PyErr C) (os : List Op)
    (c b : Call) (hw : c.WellFormed) (hb : b ∈ bs) (hid : b.id = c.id) (hp : b.path ≠ c.path) :
    (step bs imp [] (.reg c)).2 = .done ∧
    (∀ a, (step bs imp (after bs imp (.reg c :: os) []) (.list a)).2 = .raised .valueError) ∧
    (∀ id, (step bs imp (after bs imp (.reg c :: os) []) (.load id)).2 = .raised .valueError) := by
  have hreg : register [] c.id c.path c.status = .ok (Assoc.set [] c.id ⟨c.path, c.status⟩) := by
    rcases register_cases [] c with ⟨hok, -⟩ | ⟨e, -, h⟩
    · exact hok
    · rcases h with h | ⟨ref, hg, -⟩
      · exact absurd hw h
      · cases hg
  have h0 : pathOf (regStep [] c) b.id = some c.path := by
    rw [pathOf_reg, if_pos ⟨hw, hid.symm⟩]; rfl
  have hk : pathOf (after bs imp (.reg c :: os) []) b.id = some c.path := by
    rw [after, step_reg_fst]
    exact after_keep bs imp os _ _ _ h0
  have hf := ensure_fail bs _ b c.path hb hk (fun e => hp e.symm)
  have he : ensure bs (after bs imp (.reg c :: os) []) =
      ((ensure bs (after bs imp (.reg c :: os) [])).1, some .valueError) := by rw [← hf]
  refine ⟨by simp only [step, hreg], fun a => ?_, fun id => ?_⟩
  · simp only [step]; rw [he]
  · simp only [step]; rw [he]

/-- Two built-in methods. -/
def demo : List Call := [⟨"a", "pkg:A", .implemented⟩, ⟨"b", "pkg:B", .planned⟩]

/-- An import that returns the names. -/
def demoImp (m c : String) : Except PyErr (String × String) := .ok (m, c)

/-- **C207 (accepted but not loadable, violated).** "A path that was accepted can be split into module
and class" is false: a path with two colons is registered and fails when the method is asked for. -/
theorem C207_loadable_violated : ∃ c : Call, (step demo demoImp [] (.reg c)).2 = .done ∧
    (step demo demoImp (after demo demoImp [.reg c] []) (.load c.id)).2 = .raised .valueError :=
  ⟨⟨"mine", "x:y:z", .implemented⟩, by decide +kernel⟩

/-- Non-vacuity: a usable list, a history without clash, and what it gives. -/
example : Spec.Usable demo ∧ Spec.NoClash demo [.reg ⟨"mine", "x:Y", .implemented⟩, .list true] ∧
    (step demo demoImp (after demo demoImp [.reg ⟨"mine", "x:Y", .implemented⟩, .list true] [])
      (.load "mine")).2 = .cls ("x", "Y") ∧
    (step demo demoImp (after demo demoImp [.reg ⟨"mine", "x:Y", .implemented⟩, .list true] [])
      (.list true)).2 = .ids ["a", "mine"] := by
  refine ⟨⟨?_, by decide +kernel⟩, ?_, by decide +kernel, by decide +kernel⟩
  · decide +kernel
  · intro c hc _ b hb hid
    simp only [Spec.regs, List.filterMap_cons, List.filterMap_nil, List.mem_singleton] at hc
    subst hc
    simp only [demo, List.mem_cons, List.not_mem_nil, or_false] at hb
    rcases hb with rfl | rfl
    · exact absurd hid (by decide +kernel)
    · exact absurd hid (by decide +kernel)

/-- Non-vacuity of `C207_isolated_violated`. -/
example : (⟨"b", "mine:B", .implemented⟩ : Call).WellFormed ∧
    (step demo demoImp (after demo demoImp [.reg ⟨"b", "mine:B", .implemented⟩] []) (.load "a")).2 =
      .raised .valueError := by
  decide +kernel

end ModSSC.Utils.Builtin
