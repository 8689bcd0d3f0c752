import Verif.Utils.JsonModel
import Verif.Utils.JsonSpec
import Mathlib.Data.Nat.Digits.Lemmas
import Mathlib.Tactic.IntervalCases

/-!
# Lemmas for C17: the canonical text is uniquely decodable
-/

namespace ModSSC.Json
open ModSSC Spec

instance (c : Char) : Decidable (IsNumChar c) := by unfold IsNumChar; infer_instance

/-- The text that can follow a value: nothing, or a separator. -/
def Term (x : List Char) : Prop := x = [] ∨ ∃ c r, x = c :: r ∧ c ∈ [',', ']', '}']

theorem term_nil : Term [] := Or.inl rfl

/-! ### numbers -/

theorem digit_toNat : ∀ d, d < 10 → (Char.ofNat (48 + d)).toNat = 48 + d := by decide

theorem digit_num : ∀ d, d < 10 → Char.ofNat (48 + d) ∈ ['0','1','2','3','4','5','6','7','8','9'] := by
  decide

/-- Value of a decimal text. -/
def natVal (l : List Char) : Nat := l.foldl (fun a c => a * 10 + (c.toNat - 48)) 0

theorem natVal_natText (n : Nat) : natVal (natText n) = n := by
  unfold natText natVal
  split
  · subst_vars; rfl
  · rw [List.foldl_reverse]
    have key : ∀ l : List Nat, (∀ d ∈ l, d < 10) →
        List.foldr (fun (c : Char) a => a * 10 + (c.toNat - 48)) 0 (l.map (fun d => Char.ofNat (48 + d)))
          = Nat.ofDigits 10 l := by
      intro l hl
      induction l with
      | nil => rfl
      | cons d l ih =>
        rw [List.map_cons, List.foldr_cons, ih (fun d hd => hl d (List.mem_cons_of_mem _ hd)),
          digit_toNat d (hl d (by simp)), Nat.ofDigits_cons]
        omega
    rw [key _ (fun d hd => Nat.digits_lt_base (by norm_num) hd), Nat.ofDigits_digits]

theorem natText_inj {a b : Nat} (h : natText a = natText b) : a = b := by
  rw [← natVal_natText a, ← natVal_natText b, h]

theorem natText_chars (n : Nat) : ∀ c ∈ natText n, c ∈ ['0','1','2','3','4','5','6','7','8','9'] := by
  unfold natText
  split
  · intro c hc; simp at hc; subst hc; decide
  · intro c hc
    simp only [List.mem_reverse, List.mem_map] at hc
    obtain ⟨d, hd, rfl⟩ := hc
    exact digit_num d (Nat.digits_lt_base (by norm_num) hd)

theorem natText_ne_nil (n : Nat) : natText n ≠ [] := by
  unfold natText
  split
  · simp
  · rename_i h
    simpa using Nat.digits_ne_nil_iff_ne_zero.mpr h

theorem intText_inj {a b : Int} (h : intText a = intText b) : a = b := by
  unfold intText at h
  have hno : ∀ n m, natText n ≠ '-' :: natText m := by
    intro n m h
    have := natText_chars n '-' (by rw [h]; simp)
    revert this; decide
  split at h <;> split at h
  · have := natText_inj (List.cons.inj h).2; omega
  · exact absurd h.symm (hno _ _)
  · exact absurd h (hno _ _)
  · have := natText_inj h; omega

theorem intText_chars (i : Int) : ∀ c ∈ intText i, c ∈ ['0','1','2','3','4','5','6','7','8','9','-'] := by
  intro c hc
  unfold intText at hc
  have hn : ∀ n, ∀ c ∈ natText n, c ∈ ['0','1','2','3','4','5','6','7','8','9','-'] := by
    intro n c hc
    have := natText_chars n c hc
    simp only [List.mem_cons, List.not_mem_nil, or_false] at this ⊢
    tauto
  split at hc
  · rcases List.mem_cons.mp hc with rfl | hc
    · decide
    · exact hn _ _ hc
  · exact hn _ _ hc

theorem intText_ne_nil (i : Int) : intText i ≠ [] := by
  unfold intText
  split
  · simp
  · exact natText_ne_nil _

theorem num_split : ∀ (a b x y : List Char), (∀ c ∈ a, IsNumChar c) → (∀ c ∈ b, IsNumChar c) →
    Term x → Term y → a ++ x = b ++ y → a = b ∧ x = y := by
  have hsep : ∀ c : Char, c ∈ [',', ']', '}'] → ¬ IsNumChar c := by
    intro c hc
    simp only [List.mem_cons, List.not_mem_nil, or_false] at hc
    rcases hc with rfl | rfl | rfl <;> decide
  have hterm : ∀ (c : Char) (r x : List Char), Term x → IsNumChar c → x ≠ c :: r := by
    rintro c r x (rfl | ⟨d, s, rfl, hd⟩) hc h
    · simp at h
    · obtain ⟨rfl, -⟩ := List.cons.inj h
      exact hsep _ hd hc
  intro a
  induction a with
  | nil =>
    intro b x y _ hb hx hy h
    cases b with
    | nil => exact ⟨rfl, h⟩
    | cons c b => exact absurd h (hterm c (b ++ y) x hx (hb c (by simp)))
  | cons c a ih =>
    intro b x y ha hb hx hy h
    cases b with
    | nil => exact absurd h.symm (hterm c (a ++ x) y hy (ha c (by simp)))
    | cons d b =>
      obtain ⟨rfl, h'⟩ := List.cons.inj h
      obtain ⟨rfl, rfl⟩ := ih b x y (fun c hc => ha c (by simp [hc])) (fun c hc => hb c (by simp [hc])) hx hy h'
      exact ⟨rfl, rfl⟩

/-! ### strings -/

theorem hexDigit_inj : ∀ a, a < 16 → ∀ b, b < 16 → hexDigit a = hexDigit b → a = b := by decide

theorem unicodeEscape_inj {a b : Nat} (ha : a < 65536) (hb : b < 65536) {x y : List Char}
    (h : unicodeEscape a ++ x = unicodeEscape b ++ y) : a = b ∧ x = y := by
  simp only [unicodeEscape, List.cons_append, List.nil_append, List.cons.injEq, true_and] at h
  obtain ⟨h1, h2, h3, h4, h5⟩ := h
  have e1 := hexDigit_inj _ (Nat.mod_lt _ (by norm_num)) _ (Nat.mod_lt _ (by norm_num)) h1
  have e2 := hexDigit_inj _ (Nat.mod_lt _ (by norm_num)) _ (Nat.mod_lt _ (by norm_num)) h2
  have e3 := hexDigit_inj _ (Nat.mod_lt _ (by norm_num)) _ (Nat.mod_lt _ (by norm_num)) h3
  have e4 := hexDigit_inj _ (Nat.mod_lt _ (by norm_num)) _ (Nat.mod_lt _ (by norm_num)) h4
  exact ⟨by omega, h5⟩

/-- The three shapes of an escape. -/
inductive Shape (c : Char) : List Char → Prop
  | short (e : Char) (he : (e, c.toNat) ∈ [('"', 34), ('\\', 92), ('n', 10), ('r', 13), ('t', 9), ('b', 8), ('f', 12)]) :
      Shape c ['\\', e]
  | unit (h : c.toNat < 65536) : Shape c (unicodeEscape c.toNat)
  | pair (h : 65536 ≤ c.toNat) : Shape c
      (unicodeEscape (55296 + (c.toNat - 65536) / 1024) ++ unicodeEscape (56320 + (c.toNat - 65536) % 1024))
  | plain (h : c ≠ '"') (h' : c ≠ '\\') : Shape c [c]

theorem escape_shape (ascii : Bool) (c : Char) : Shape c (escape ascii c) := by
  unfold escape
  split
  · subst_vars; exact .short '"' (by decide)
  · split
    · subst_vars; exact .short '\\' (by decide)
    · split
      · subst_vars; exact .short 'n' (by decide)
      · split
        · subst_vars; exact .short 'r' (by decide)
        · split
          · subst_vars; exact .short 't' (by decide)
          · split
            · rename_i h; exact .short 'b' (by simp [h])
            · split
              · rename_i h; exact .short 'f' (by simp [h])
              · split
                · split
                  · exact .unit ‹_›
                  · exact .pair (by omega)
                · exact .plain ‹_› ‹_›

theorem char_valid (c : Char) : c.toNat < 55296 ∨ (57343 < c.toNat ∧ c.toNat < 1114112) := by
  have := c.valid
  unfold UInt32.isValidChar Nat.isValidChar at this
  exact this

theorem char_ext {c d : Char} (h : c.toNat = d.toNat) : c = d := Char.toNat_inj.mp h

theorem shape_inj {c d : Char} {s t x y : List Char} (hs : Shape c s) (ht : Shape d t)
    (h : s ++ x = t ++ y) : c = d ∧ x = y := by
  have hc := char_valid c
  have hd := char_valid d
  cases hs with
  | short e he =>
    cases ht with
    | short f hf =>
      simp only [List.cons_append, List.nil_append, List.cons.injEq, true_and] at h
      obtain ⟨rfl, h⟩ := h
      refine ⟨char_ext ?_, h⟩
      simp only [List.mem_cons, Prod.mk.injEq, List.not_mem_nil, or_false] at he hf
      rcases he with ⟨rfl, e⟩ | ⟨rfl, e⟩ | ⟨rfl, e⟩ | ⟨rfl, e⟩ | ⟨rfl, e⟩ | ⟨rfl, e⟩ | ⟨rfl, e⟩ <;>
        simp at hf <;> omega
    | unit =>
      exfalso
      simp only [unicodeEscape, List.cons_append, List.nil_append, List.cons.injEq, true_and] at h
      obtain ⟨rfl, h⟩ := h
      simp at he
    | pair =>
      exfalso
      simp only [unicodeEscape, List.cons_append, List.nil_append, List.cons.injEq, true_and] at h
      obtain ⟨rfl, h⟩ := h
      simp at he
    | plain h1 h2 =>
      simp only [List.cons_append, List.nil_append, List.cons.injEq] at h
      exact absurd h.1.symm h2
  | unit hu =>
    cases ht with
    | short f hf =>
      exfalso
      simp only [unicodeEscape, List.cons_append, List.nil_append, List.cons.injEq, true_and] at h
      obtain ⟨rfl, h⟩ := h
      simp at hf
    | unit hv =>
      obtain ⟨e, h'⟩ := unicodeEscape_inj hu hv h
      exact ⟨char_ext e, h'⟩
    | pair hv =>
      rw [List.append_assoc] at h
      obtain ⟨e, -⟩ := unicodeEscape_inj hu (by omega) h
      omega
    | plain h1 h2 =>
      simp only [unicodeEscape, List.cons_append, List.nil_append, List.cons.injEq] at h
      exact absurd h.1.symm h2
  | pair hu =>
    rw [List.append_assoc] at h
    cases ht with
    | short f hf =>
      exfalso
      simp only [unicodeEscape, List.cons_append, List.nil_append, List.cons.injEq, true_and] at h
      obtain ⟨rfl, h⟩ := h
      simp at hf
    | unit hv =>
      obtain ⟨e, -⟩ := unicodeEscape_inj (by omega) hv h
      omega
    | pair hv =>
      rw [List.append_assoc] at h
      obtain ⟨e, h'⟩ := unicodeEscape_inj (by omega) (by omega) h
      obtain ⟨e', h''⟩ := unicodeEscape_inj (by omega) (by omega) h'
      exact ⟨char_ext (by omega), h''⟩
    | plain h1 h2 =>
      simp only [unicodeEscape, List.cons_append, List.nil_append, List.cons.injEq] at h
      exact absurd h.1.symm h2
  | plain h1 h2 =>
    cases ht with
    | short f hf =>
      simp only [List.cons_append, List.nil_append, List.cons.injEq] at h
      exact absurd h.1 h2
    | unit hv =>
      simp only [unicodeEscape, List.cons_append, List.nil_append, List.cons.injEq] at h
      exact absurd h.1 h2
    | pair hv =>
      simp only [unicodeEscape, List.cons_append, List.nil_append, List.cons.injEq] at h
      exact absurd h.1 h2
    | plain h3 h4 =>
      simp only [List.cons_append, List.nil_append, List.cons.injEq] at h
      exact h

theorem shape_not_quote {c : Char} {s x y : List Char} (hs : Shape c s) : s ++ x ≠ '"' :: y := by
  intro h
  cases hs <;> simp_all [unicodeEscape]

theorem chars_inj (ascii : Bool) : ∀ (s t x y : List Char),
    s.flatMap (escape ascii) ++ '"' :: x = t.flatMap (escape ascii) ++ '"' :: y → s = t ∧ x = y := by
  intro s
  induction s with
  | nil =>
    intro t x y h
    cases t with
    | nil => simpa using h
    | cons d t =>
      rw [List.flatMap_cons, List.append_assoc] at h
      exact absurd h.symm (shape_not_quote (escape_shape ascii d))
  | cons c s ih =>
    intro t x y h
    cases t with
    | nil =>
      rw [List.flatMap_cons, List.append_assoc] at h
      exact absurd h (shape_not_quote (escape_shape ascii c))
    | cons d t =>
      rw [List.flatMap_cons, List.flatMap_cons, List.append_assoc, List.append_assoc] at h
      obtain ⟨rfl, h'⟩ := shape_inj (escape_shape ascii c) (escape_shape ascii d) h
      obtain ⟨rfl, rfl⟩ := ih t x y h'
      exact ⟨rfl, rfl⟩

theorem strText_inj {ascii : Bool} {s t : String} {x y : List Char}
    (h : strText ascii s ++ x = strText ascii t ++ y) : s = t ∧ x = y := by
  unfold strText at h
  simp only [List.cons_append, List.cons.injEq, true_and, List.append_assoc, List.nil_append] at h
  obtain ⟨e, h'⟩ := chars_inj ascii _ _ _ _ h
  exact ⟨String.toList_inj.mp e, h'⟩

/-! ### sorting members -/

instance : Std.Total (fun a b : String × List Char => a.1 ≤ b.1) := ⟨fun a b => String.le_total a.1 b.1⟩
instance : IsTrans (String × List Char) (fun a b => a.1 ≤ b.1) := ⟨fun _ _ _ h h' => String.le_trans h h'⟩

theorem keySort_perm (l : List (String × List Char)) : (keySort l).Perm l := List.perm_insertionSort _ _

theorem keySort_sorted (l : List (String × List Char)) : (keySort l).Pairwise (fun a b => a.1 ≤ b.1) :=
  List.pairwise_insertionSort _ _

theorem keySort_congr {l m : List (String × List Char)} (h : l.Perm m) (hk : (l.map (·.1)).Nodup) :
    keySort l = keySort m := by
  have hp : (keySort l).Perm (keySort m) := ((keySort_perm l).trans h).trans (keySort_perm m).symm
  refine hp.eq_of_pairwise ?_ (keySort_sorted l) (keySort_sorted m)
  intro a b ha hb h1 h2
  have ha' : a ∈ l := (keySort_perm l).mem_iff.mp ha
  have hb' : b ∈ l := h.mem_iff.mpr ((keySort_perm m).mem_iff.mp hb)
  exact List.inj_on_of_nodup_map hk ha' hb' (String.le_antisymm h1 h2)

end ModSSC.Json
