import Verif.Bench.PlaceModel
import Mathlib.Tactic.Common
import Mathlib.Data.List.TakeWhile

/-!
# Environment variables in configuration files (C156)
-/

namespace ModSSC.Bench.Spec
open ModSSC

/-- A variable name. -/
structure IsName (n : List Char) : Prop where
  start : ∃ c cs, n = c :: cs ∧ (('A' ≤ c ∧ c ≤ 'Z') ∨ ('a' ≤ c ∧ c ≤ 'z') ∨ c = '_')
  all : ∀ c ∈ n, ('A' ≤ c ∧ c ≤ 'Z') ∨ ('a' ≤ c ∧ c ≤ 'z') ∨ c = '_' ∨ ('0' ≤ c ∧ c ≤ '9')

/-- The text `s` is `pre`, a placeholder for `name` written `raw`, and `post`: `${name}`, or `$name` with the longest name
possible, not directly after a dollar sign or a backslash. -/
structure Occurrence (s pre raw name post : List Char) : Prop where
  split : s = pre ++ raw ++ post
  isName : IsName name
  free : pre.getLast? ≠ some '$' ∧ pre.getLast? ≠ some '\\'
  form : raw = '$' :: '{' :: (name ++ ['}']) ∨
    (raw = '$' :: name ∧ ∀ c, post.head? = some c → ¬ (('A' ≤ c ∧ c ≤ 'Z') ∨ ('a' ≤ c ∧ c ≤ 'z') ∨ c = '_' ∨ ('0' ≤ c ∧ c ≤ '9')))

/-- The value at a path in a document. -/
def docAt : PyVal → List PathStep → Option PyVal
  | v, [] => some v
  | .dict d, .key k :: p => (Assoc.get d k).bind (fun v => docAt v p)
  | .list l, .idx i :: p => (l[i]?).bind (fun v => docAt v p)
  | _, _ :: _ => none

/-- What becomes of the value at a path: strings are expanded (and have no unresolved placeholder), dictionaries keep their
keys, lists their length, everything else is unchanged. -/
inductive Expanded (resolve : List Char → Option (List Char)) : Option PyVal → Option PyVal → Prop
  | absent : Expanded resolve none none
  | str (s : String) (h : ∀ pre raw name post, Occurrence s.toList pre raw name post → (resolve name).isSome) :
      Expanded resolve (some (.str s)) (some (.str (String.ofList (expandText resolve s.toList))))
  | dict (d d' : List (String × PyVal)) (h : Assoc.keys d' = Assoc.keys d) : Expanded resolve (some (.dict d)) (some (.dict d'))
  | list (l l' : List PyVal) (h : l'.length = l.length) : Expanded resolve (some (.list l)) (some (.list l'))
  | none : Expanded resolve (some .none) (some .none)
  | bool (b : Bool) : Expanded resolve (some (.bool b)) (some (.bool b))
  | int (i : Int) : Expanded resolve (some (.int i)) (some (.int i))
  | flt (q : Rat) : Expanded resolve (some (.flt q)) (some (.flt q))

end ModSSC.Bench.Spec

namespace ModSSC.Bench
open ModSSC ModSSC.Bench.Spec

theorem getLast?_app (a r : List Char) (h : r ≠ []) : (a ++ r).getLast? = r.getLast? := by
  rw [List.getLast?_append]
  cases h2 : r.getLast? with
  | none => simp at h2; exact absurd h2 h
  | some x => rfl

theorem nameStart_iff (c : Char) : nameStart c = true ↔ (('A' ≤ c ∧ c ≤ 'Z') ∨ ('a' ≤ c ∧ c ≤ 'z') ∨ c = '_') := by
  unfold nameStart
  simp only [Bool.or_eq_true, Bool.and_eq_true, decide_eq_true_eq, or_assoc]

theorem nameChar_iff (c : Char) :
    nameChar c = true ↔ (('A' ≤ c ∧ c ≤ 'Z') ∨ ('a' ≤ c ∧ c ≤ 'z') ∨ c = '_' ∨ ('0' ≤ c ∧ c ≤ '9')) := by
  unfold nameChar
  simp only [Bool.or_eq_true, nameStart_iff, Bool.and_eq_true, decide_eq_true_eq, or_assoc]

theorem nameChar_of_start {c : Char} (h : nameStart c = true) : nameChar c = true := by
  unfold nameChar; rw [h]; rfl

theorem nameChar_dollar : nameChar '$' = false := by decide
theorem nameStart_dollar : nameStart '$' = false := by decide
theorem nameStart_brace : nameStart '{' = false := by decide
theorem nameChar_close : nameChar '}' = false := by decide

theorem isName_iff (n : List Char) :
    IsName n ↔ ∃ c cs, n = c :: cs ∧ nameStart c = true ∧ ∀ x ∈ cs, nameChar x = true := by
  constructor
  · rintro ⟨⟨c, cs, rfl, hc⟩, hall⟩
    exact ⟨c, cs, rfl, (nameStart_iff c).mpr hc, fun x hx => (nameChar_iff x).mpr (hall x (by simp [hx]))⟩
  · rintro ⟨c, cs, rfl, hc, hall⟩
    refine ⟨⟨c, cs, rfl, (nameStart_iff c).mp hc⟩, ?_⟩
    intro x hx
    rcases List.mem_cons.mp hx with rfl | hx
    · exact (nameChar_iff _).mp (nameChar_of_start hc)
    · exact (nameChar_iff _).mp (hall x hx)

theorem takeWhile_all {p : Char → Bool} {l r : List Char} (h : ∀ x ∈ l, p x = true) (hr : ∀ c, r.head? = some c → p c = false) :
    (l ++ r).takeWhile p = l ∧ (l ++ r).dropWhile p = r := by
  induction l with
  | nil =>
    cases r with
    | nil => simp
    | cons c r => simp [hr c rfl]
  | cons a l ih =>
    have := ih (fun x hx => h x (by simp [hx]))
    simp [h a (by simp), this]

theorem matchName_append (n r : List Char) (hn : IsName n) (hr : ∀ c, r.head? = some c → nameChar c = false) :
    matchName (n ++ r) = some (n, r) := by
  obtain ⟨c, cs, rfl, hc, hall⟩ := (isName_iff n).mp hn
  obtain ⟨h1, h2⟩ := takeWhile_all hall hr
  rw [List.cons_append, matchName, if_pos hc, h1, h2]

theorem dropWhile_head {p : Char → Bool} {l : List Char} {c : Char} (h : (l.dropWhile p).head? = some c) : p c = false := by
  induction l with
  | nil => simp at h
  | cons a l ih =>
    rw [List.dropWhile_cons] at h
    split_ifs at h with hp
    · exact ih h
    · simp at h; subst h; simpa using hp

theorem matchName_some {s n r : List Char} (h : matchName s = some (n, r)) :
    s = n ++ r ∧ IsName n ∧ ∀ c, r.head? = some c → nameChar c = false := by
  cases s with
  | nil => cases h
  | cons c cs =>
    rw [matchName] at h
    split_ifs at h with hc
    simp only [Option.some.injEq, Prod.mk.injEq] at h
    obtain ⟨rfl, rfl⟩ := h
    refine ⟨by simp, (isName_iff _).mpr ⟨c, _, rfl, hc, ?_⟩, fun c h => dropWhile_head h⟩
    intro x hx
    exact List.mem_takeWhile_imp hx

/-- The ways a placeholder is written after the dollar sign (helper). -/
def Body (cs raw name rest : List Char) : Prop :=
  cs = raw ++ rest ∧ IsName name ∧
    (raw = '{' :: (name ++ ['}']) ∨ (raw = name ∧ ∀ c, rest.head? = some c → nameChar c = false))

theorem matchBody_not_brace {cs : List Char} (h : cs.head? ≠ some '{') :
    matchBody cs = (matchName cs).map (fun nr => (nr.1, nr.1, nr.2)) := by
  unfold matchBody
  split
  · simp at h
  · rfl

theorem matchBody_some {cs raw name rest : List Char} : matchBody cs = some (raw, name, rest) ↔ Body cs raw name rest := by
  by_cases hb : cs.head? = some '{'
  · cases cs with
    | nil => simp at hb
    | cons c cs =>
      simp at hb
      subst hb
      rw [matchBody.eq_1]
      constructor
      · intro h
        cases hm : matchName cs with
        | none => rw [hm] at h; simp at h
        | some nr =>
          obtain ⟨n, r⟩ := nr
          rw [hm] at h
          cases r with
          | nil => simp at h
          | cons x r =>
            by_cases hx : x = '}'
            · subst hx
              simp only [Option.some.injEq, Prod.mk.injEq] at h
              obtain ⟨rfl, rfl, rfl⟩ := h
              obtain ⟨h1, h2, -⟩ := matchName_some hm
              exact ⟨by rw [h1]; simp, h2, .inl rfl⟩
            · split at h
              · next heq => simp at heq; exact absurd heq.2.1 hx
              · simp at h
      · rintro ⟨h1, h2, h3 | ⟨h3, -⟩⟩
        · subst h3
          simp only [List.cons_append, List.append_assoc, List.cons.injEq, true_and, List.nil_append] at h1
          subst h1
          rw [matchName_append name _ h2 (by intro c hc; simp at hc; subst hc; decide)]
          rfl
        · subst h3
          obtain ⟨c, cs', rfl, hc, -⟩ := (isName_iff raw).mp h2
          simp only [List.cons_append, List.cons.injEq] at h1
          obtain ⟨rfl, -⟩ := h1
          exact absurd hc (by decide)
  · rw [matchBody_not_brace hb]
    constructor
    · intro h
      rw [Option.map_eq_some_iff] at h
      obtain ⟨⟨n, r⟩, hm, he⟩ := h
      simp only [Prod.mk.injEq] at he
      obtain ⟨rfl, rfl, rfl⟩ := he
      obtain ⟨h1, h2, h3⟩ := matchName_some hm
      exact ⟨h1, h2, .inr ⟨rfl, h3⟩⟩
    · rintro ⟨h1, h2, h3 | ⟨rfl, h3⟩⟩
      · subst h3; subst h1; simp at hb
      · rw [h1, matchName_append raw rest h2 h3]; rfl

theorem body_unique {cs raw name rest raw' name' rest' : List Char} (h : Body cs raw name rest) (h' : Body cs raw' name' rest') :
    raw = raw' ∧ name = name' ∧ rest = rest' := by
  have h1 := matchBody_some.mpr h
  rw [matchBody_some.mpr h'] at h1
  simp only [Option.some.injEq, Prod.mk.injEq] at h1
  exact ⟨h1.1.symm, h1.2.1.symm, h1.2.2.symm⟩

theorem body_raw_last {cs raw name rest : List Char} (h : Body cs raw name rest) :
    blocked raw.getLast? = false ∧ raw ≠ [] := by
  obtain ⟨-, hn, hr⟩ := h
  obtain ⟨c, cs', rfl, hc, hall⟩ := (isName_iff name).mp hn
  rcases hr with rfl | ⟨rfl, -⟩
  · refine ⟨?_, by simp⟩
    rw [show '{' :: ((c :: cs') ++ ['}']) = ('{' :: c :: cs') ++ ['}'] by simp, List.getLast?_append]
    rfl
  · refine ⟨?_, by simp⟩
    have hl : ∃ x ∈ c :: cs', (c :: cs').getLast? = some x ∧ nameChar x = true := by
      refine ⟨(c :: cs').getLast (by simp), List.getLast_mem _, List.getLast?_eq_some_getLast _, ?_⟩
      have := List.getLast_mem (l := c :: cs') (by simp)
      rcases List.mem_cons.mp this with h | h
      · rw [h]; exact nameChar_of_start hc
      · exact hall _ h
    obtain ⟨x, -, hx, hxc⟩ := hl
    rw [hx]
    unfold blocked
    have h1 : x ≠ '$' := by rintro rfl; exact absurd hxc (by decide)
    have h2 : x ≠ '\\' := by rintro rfl; exact absurd hxc (by decide)
    simp [h1, h2]

theorem body_length {cs raw name rest : List Char} (h : Body cs raw name rest) : rest.length < cs.length := by
  obtain ⟨h1, -⟩ := id h
  have := (body_raw_last h).2
  rw [h1, List.length_append]
  have : 0 < raw.length := List.length_pos_iff.mpr this
  omega

/-! ### Fuel -/

theorem scanFrom_fuel : ∀ (n m : Nat) (prev : Option Char) (s : List Char), s.length ≤ n → s.length ≤ m →
    scanFrom n prev s = scanFrom m prev s := by
  intro n
  induction n with
  | zero =>
    intro m prev s h1 _
    have : s = [] := List.length_eq_zero_iff.mp (by omega)
    subst this
    cases m <;> rfl
  | succ n ih =>
    intro m prev s h1 h2
    cases s with
    | nil => cases m <;> rfl
    | cons c cs =>
      cases m with
      | zero => simp at h2
      | succ m =>
        simp only [List.length_cons] at h1 h2
        rw [scanFrom, scanFrom]
        split_ifs with hc
        · cases hb : matchBody cs with
          | none => simp only; rw [ih m _ cs (by omega) (by omega)]
          | some t =>
            obtain ⟨raw, name, rest⟩ := t
            have := body_length (matchBody_some.mp hb)
            simp only
            rw [ih m _ rest (by omega) (by omega)]
        · rw [ih m _ cs (by omega) (by omega)]

/-- The pieces of a text after a given character (helper). -/
def scanP (prev : Option Char) (s : List Char) : List Tok := scanFrom s.length prev s

theorem scanP_nil (prev : Option Char) : scanP prev [] = [] := rfl

theorem scanP_lit {prev : Option Char} {c : Char} {cs : List Char} (h : ¬ (c = '$' ∧ blocked prev = false)) :
    scanP prev (c :: cs) = .lit c :: scanP (some c) cs := by
  unfold scanP; rw [List.length_cons, scanFrom, if_neg h]

theorem scanP_none {prev : Option Char} {c : Char} {cs : List Char} (h : matchBody cs = none) :
    scanP prev (c :: cs) = .lit c :: scanP (some c) cs := by
  unfold scanP
  rw [List.length_cons, scanFrom]
  split_ifs with hc
  · rw [h]
  · rfl

theorem scanP_ph {prev : Option Char} {cs raw name rest : List Char} (hp : blocked prev = false) (h : Body cs raw name rest) :
    scanP prev ('$' :: cs) = .ph ('$' :: raw) name :: scanP raw.getLast? rest := by
  unfold scanP
  rw [List.length_cons, scanFrom, if_pos ⟨rfl, hp⟩, matchBody_some.mpr h]
  simp only
  rw [scanFrom_fuel cs.length rest.length _ rest (body_length h).le (le_refl _)]

/-- Only whether the previous character blocks matters (helper). -/
theorem scanP_prev {prev prev' : Option Char} (h : blocked prev = blocked prev') (s : List Char) : scanP prev s = scanP prev' s := by
  cases s with
  | nil => rfl
  | cons c cs => unfold scanP; rw [List.length_cons, scanFrom, scanFrom, h]

theorem matchName_dollar (cs t : List Char) :
    matchName (cs ++ '$' :: t) = (matchName cs).map (fun nr => (nr.1, nr.2 ++ '$' :: t)) := by
  cases cs with
  | nil => simp [matchName, nameStart_dollar]
  | cons c cs =>
    rw [List.cons_append, matchName, matchName]
    split_ifs with hc
    · have key : (cs ++ '$' :: t).takeWhile nameChar = cs.takeWhile nameChar ∧
          (cs ++ '$' :: t).dropWhile nameChar = cs.dropWhile nameChar ++ '$' :: t := by
        clear hc
        induction cs with
        | nil => simp [nameChar_dollar]
        | cons a cs ih =>
          rw [List.cons_append, List.takeWhile_cons, List.takeWhile_cons, List.dropWhile_cons, List.dropWhile_cons]
          split_ifs
          · exact ⟨by rw [ih.1], ih.2⟩
          · exact ⟨rfl, rfl⟩
      simp [key]
    · rfl

theorem body_dollar {cs t raw name rest' : List Char} (h : Body (cs ++ '$' :: t) raw name rest') :
    ∃ rest, rest' = rest ++ '$' :: t ∧ Body cs raw name rest := by
  have hb := matchBody_some.mpr h
  by_cases hbr : cs.head? = some '{'
  · cases cs with
    | nil => simp at hbr
    | cons c cs =>
      simp at hbr
      subst hbr
      rw [List.cons_append, matchBody.eq_1, matchName_dollar] at hb
      cases hm : matchName cs with
      | none => rw [hm] at hb; simp at hb
      | some nr =>
        obtain ⟨n, r⟩ := nr
        rw [hm] at hb
        simp only [Option.map_some] at hb
        cases r with
        | nil => simp at hb
        | cons x r =>
          by_cases hx : x = '}'
          · subst hx
            simp only [List.cons_append, Option.some.injEq, Prod.mk.injEq] at hb
            obtain ⟨rfl, rfl, rfl⟩ := hb
            refine ⟨r, rfl, ?_⟩
            obtain ⟨h1, h2, -⟩ := matchName_some hm
            exact ⟨by rw [h1]; simp, h2, .inl rfl⟩
          · split at hb
            · next heq => simp at heq; exact absurd heq.2.1 hx
            · simp at hb
  · have hbr' : (cs ++ '$' :: t).head? ≠ some '{' := by
      cases cs with
      | nil => simp
      | cons c cs => simpa using hbr
    rw [matchBody_not_brace hbr', matchName_dollar, Option.map_map, Option.map_eq_some_iff] at hb
    obtain ⟨⟨n, r⟩, hm, he⟩ := hb
    simp only [Function.comp, Prod.mk.injEq] at he
    obtain ⟨rfl, rfl, rfl⟩ := he
    obtain ⟨h1, h2, h3⟩ := matchName_some hm
    exact ⟨r, rfl, h1, h2, .inr ⟨rfl, h3⟩⟩

theorem body_extend {cs t raw name rest : List Char} (h : Body cs raw name rest) :
    Body (cs ++ '$' :: t) raw name (rest ++ '$' :: t) := by
  obtain ⟨h1, h2, h3⟩ := h
  refine ⟨by rw [h1]; simp, h2, ?_⟩
  rcases h3 with h3 | ⟨h3, h4⟩
  · exact .inl h3
  · refine .inr ⟨h3, ?_⟩
    intro c hc
    cases rest with
    | nil => simp at hc; subst hc; decide
    | cons x r => exact h4 c (by simpa using hc)

/-- Scanning a text up to a dollar sign is scanning it alone (helper). -/
theorem scanP_split (t : List Char) : ∀ (n : Nat) (s : List Char), s.length ≤ n → ∀ prev : Option Char,
    scanP prev (s ++ '$' :: t) = scanP prev s ++ scanP (if s = [] then prev else s.getLast?) ('$' :: t) := by
  intro n
  induction n with
  | zero =>
    intro s hs prev
    have : s = [] := List.length_eq_zero_iff.mp (by omega)
    subst this
    simp [scanP_nil]
  | succ n ih =>
    intro s hs prev
    cases s with
    | nil => simp [scanP_nil]
    | cons c cs =>
      simp only [List.length_cons] at hs
      rw [if_neg (by simp)]
      have hlit : ∀ (he : scanP prev ((c :: cs) ++ '$' :: t) = .lit c :: scanP (some c) (cs ++ '$' :: t))
          (he' : scanP prev (c :: cs) = .lit c :: scanP (some c) cs),
          scanP prev ((c :: cs) ++ '$' :: t) = scanP prev (c :: cs) ++ scanP (c :: cs).getLast? ('$' :: t) := by
        intro he he'
        rw [he, he', ih cs (by omega), List.cons_append]
        congr 2
        cases cs with
        | nil => simp
        | cons x cs => simp
      by_cases hc : c = '$' ∧ blocked prev = false
      · obtain ⟨rfl, hp⟩ := hc
        cases hb : matchBody cs with
        | none =>
          apply hlit
          · rw [List.cons_append]
            apply scanP_none
            cases hb' : matchBody (cs ++ '$' :: t) with
            | none => rfl
            | some x =>
              obtain ⟨raw, name, rest'⟩ := x
              obtain ⟨rest, -, hbody⟩ := body_dollar (matchBody_some.mp hb')
              rw [matchBody_some.mpr hbody] at hb
              simp at hb
          · exact scanP_none hb
        | some x =>
          obtain ⟨raw, name, rest⟩ := x
          have hbody := matchBody_some.mp hb
          have hlen := body_length hbody
          rw [List.cons_append, scanP_ph hp (body_extend hbody), scanP_ph hp hbody, ih rest (by omega), List.cons_append]
          congr 2
          apply scanP_prev
          obtain ⟨h1, -⟩ := id hbody
          have hraw := (body_raw_last hbody)
          by_cases hr : rest = []
          · subst hr
            rw [if_pos rfl]
            rw [List.append_nil] at h1
            subst h1
            congr 1
            cases cs with
            | nil => exact absurd rfl hraw.2
            | cons x cs => simp
          · rw [if_neg hr, h1]
            rw [show '$' :: (raw ++ rest) = ('$' :: raw) ++ rest by simp, getLast?_app _ _ hr]
      · apply hlit
        · rw [List.cons_append]; exact scanP_lit hc
        · exact scanP_lit hc

theorem scan_eq (s : List Char) : scan s = scanP none s := rfl

theorem occurrence_body {s pre raw name post : List Char} (h : Occurrence s pre raw name post) :
    ∃ raw', raw = '$' :: raw' ∧ Body (raw' ++ post) raw' name post ∧ blocked pre.getLast? = false ∧
      s = pre ++ '$' :: (raw' ++ post) := by
  obtain ⟨hs, hn, hf, hform⟩ := h
  have hb : blocked pre.getLast? = false := by unfold blocked; simp [hf.1, hf.2]
  rcases hform with rfl | ⟨rfl, hpost⟩
  · exact ⟨_, rfl, ⟨rfl, hn, .inl rfl⟩, hb, by rw [hs]; simp⟩
  · refine ⟨_, rfl, ⟨rfl, hn, .inr ⟨rfl, ?_⟩⟩, hb, by rw [hs]; simp⟩
    intro c hc
    have := hpost c hc
    rw [← nameChar_iff] at this
    simpa using this

/-- The pieces of a text around a placeholder (helper). -/
theorem scan_occurrence {s pre raw name post : List Char} (h : Occurrence s pre raw name post) :
    scan s = scan pre ++ .ph raw name :: scan post := by
  obtain ⟨raw', rfl, hb, hbl, hs⟩ := occurrence_body h
  have hbl' : blocked (if pre = [] then none else pre.getLast?) = false := by
    split_ifs with hp
    · rfl
    · exact hbl
  rw [scan_eq, scan_eq, scan_eq, hs, scanP_split _ pre.length pre (le_refl _), scanP_ph hbl' hb]
  congr 2
  apply scanP_prev
  rw [(body_raw_last hb).1]
  rfl

/-- A placeholder among the pieces is an occurrence (helper). -/
theorem occurrence_of_scan : ∀ (n : Nat) (s : List Char), s.length ≤ n → ∀ (pre0 : List Char) (prev : Option Char),
    blocked prev = blocked pre0.getLast? → ∀ raw name, Tok.ph raw name ∈ scanP prev s →
    ∃ pre post, Occurrence (pre0 ++ s) (pre0 ++ pre) raw name post := by
  intro n
  induction n with
  | zero =>
    intro s hs pre0 prev _ raw name hm
    have : s = [] := List.length_eq_zero_iff.mp (by omega)
    subst this
    simp [scanP_nil] at hm
  | succ n ih =>
    intro s hs pre0 prev hprev raw name hm
    cases s with
    | nil => simp [scanP_nil] at hm
    | cons c cs =>
      simp only [List.length_cons] at hs
      have hlit : scanP prev (c :: cs) = .lit c :: scanP (some c) cs →
          ∃ pre post, Occurrence (pre0 ++ c :: cs) (pre0 ++ pre) raw name post := by
        intro he
        rw [he] at hm
        simp only [List.mem_cons, reduceCtorEq, false_or] at hm
        obtain ⟨pre, post, ho⟩ := ih cs (by omega) (pre0 ++ [c]) (some c) (by rw [List.getLast?_append]; rfl) raw name hm
        refine ⟨c :: pre, post, ?_⟩
        rw [List.append_assoc, List.append_assoc] at ho
        exact ho
      by_cases hc : c = '$' ∧ blocked prev = false
      · obtain ⟨rfl, hp⟩ := hc
        cases hb : matchBody cs with
        | none => exact hlit (scanP_none hb)
        | some x =>
          obtain ⟨raw1, name1, rest⟩ := x
          have hbody := matchBody_some.mp hb
          obtain ⟨h1, h2, h3⟩ := id hbody
          have hlen := body_length hbody
          rw [scanP_ph hp hbody] at hm
          rcases List.mem_cons.mp hm with he | hm
          · simp only [Tok.ph.injEq] at he
            obtain ⟨rfl, rfl⟩ := he
            refine ⟨[], rest, ?_⟩
            rw [hprev] at hp
            unfold blocked at hp
            simp only [Bool.or_eq_false_iff, decide_eq_false_iff_not] at hp
            refine ⟨by rw [h1]; simp, h2, by rw [List.append_nil]; exact hp, ?_⟩
            rcases h3 with rfl | ⟨rfl, h3⟩
            · exact .inl rfl
            · refine .inr ⟨rfl, ?_⟩
              intro c hc
              rw [← nameChar_iff, h3 c hc]
              simp
          · obtain ⟨pre, post, ho⟩ := ih rest (by omega) (pre0 ++ '$' :: raw1) raw1.getLast? (by
              rw [show pre0 ++ '$' :: raw1 = (pre0 ++ ['$']) ++ raw1 by simp, getLast?_app _ _ (body_raw_last hbody).2]) raw name hm
            refine ⟨'$' :: (raw1 ++ pre), post, ?_⟩
            rw [h1]
            simp only [List.append_assoc, List.cons_append] at ho ⊢
            exact ho
      · exact hlit (scanP_lit hc)

/-! ### C156 -/

/-- C156: the placeholders found in a text are exactly those written in it as `${NAME}` or `$NAME`, unless directly after a
dollar sign or a backslash. -/
theorem C156_names (s name : List Char) :
    name ∈ placeholderNames s ↔ ∃ pre raw post, Occurrence s pre raw name post := by
  unfold placeholderNames
  rw [List.mem_filterMap]
  constructor
  · rintro ⟨t, ht, he⟩
    cases t with
    | lit c => simp at he
    | ph raw n =>
      simp only [Option.some.injEq] at he
      subst he
      obtain ⟨pre, post, ho⟩ := occurrence_of_scan s.length s (le_refl _) [] none rfl raw n ht
      exact ⟨_, raw, post, ho⟩
  · rintro ⟨pre, raw, post, ho⟩
    refine ⟨.ph raw name, ?_, rfl⟩
    rw [scan_occurrence ho]
    simp

/-- C156: a placeholder is replaced by the value of its variable, verbatim and once (a value that looks like a placeholder is
not expanded again), and the text before and after it is expanded on its own. -/
theorem C156_replace (resolve : List Char → Option (List Char)) (s pre raw name post : List Char)
    (h : Occurrence s pre raw name post) :
    expandText resolve s = expandText resolve pre ++ (resolve name).getD raw ++ expandText resolve post := by
  unfold expandText
  rw [scan_occurrence h, List.flatMap_append, List.flatMap_cons, List.append_assoc]
  rfl

theorem scan_flat : ∀ (n : Nat) (s : List Char), s.length ≤ n → ∀ prev,
    (scanP prev s).flatMap (Tok.expand (fun _ => none)) = s := by
  intro n
  induction n with
  | zero =>
    intro s hs prev
    have : s = [] := List.length_eq_zero_iff.mp (by omega)
    subst this
    rfl
  | succ n ih =>
    intro s hs prev
    cases s with
    | nil => rfl
    | cons c cs =>
      simp only [List.length_cons] at hs
      have hlit : scanP prev (c :: cs) = .lit c :: scanP (some c) cs →
          (scanP prev (c :: cs)).flatMap (Tok.expand (fun _ => none)) = c :: cs := by
        intro he
        rw [he, List.flatMap_cons, ih cs (by omega)]
        rfl
      by_cases hc : c = '$' ∧ blocked prev = false
      · obtain ⟨rfl, hp⟩ := hc
        cases hb : matchBody cs with
        | none => exact hlit (scanP_none hb)
        | some x =>
          obtain ⟨raw, name, rest⟩ := x
          have hbody := matchBody_some.mp hb
          have hlen := body_length hbody
          obtain ⟨h1, -⟩ := id hbody
          rw [scanP_ph hp hbody, List.flatMap_cons, ih rest (by omega), h1]
          simp [Tok.expand]
      · exact hlit (scanP_lit hc)

/-- C156: a text without placeholders is kept as it is. -/
theorem C156_plain (resolve : List Char → Option (List Char)) (s : List Char)
    (h : ∀ pre raw name post, ¬ Occurrence s pre raw name post) : expandText resolve s = s := by
  have hlit : ∀ t ∈ scan s, ∃ c, t = .lit c := by
    intro t ht
    cases t with
    | lit c => exact ⟨c, rfl⟩
    | ph raw name =>
      obtain ⟨pre, post, ho⟩ := occurrence_of_scan s.length s (le_refl _) [] none rfl raw name ht
      exact absurd ho (h _ _ _ _)
  have : expandText resolve s = (scan s).flatMap (Tok.expand (fun _ => none)) := by
    unfold expandText
    apply List.flatMap_congr
    intro t ht
    obtain ⟨c, rfl⟩ := hlit t ht
    rfl
  rw [this]
  exact scan_flat s.length s (le_refl _) none

example : Occurrence "a/${X}/b".toList "a/".toList "${X}".toList "X".toList "/b".toList :=
  ⟨by decide, (isName_iff _).mpr ⟨'X', [], by decide, by decide, by simp⟩, by decide, .inl (by decide)⟩

example : expandText (fun n => if n = "X".toList then some "$Y".toList else none) "a/${X}/b$X".toList =
    "a/$Y/b$Y".toList := by decide

/-- C156: a string is refused exactly if one of its placeholders cannot be resolved, and the error names exactly those. -/
theorem C156_missing (resolve : List Char → Option (List Char)) (path : List PathStep) (s : String) :
    ((∃ u, expandStr resolve path s = .error u) ↔
      ∃ pre raw name post, Occurrence s.toList pre raw name post ∧ resolve name = none) ∧
    (∀ u, expandStr resolve path s = .error u → u.path = path ∧ ∀ name, name ∈ u.names ↔
      ∃ pre raw post, Occurrence s.toList pre raw name post ∧ resolve name = none) ∧
    (∀ r, expandStr resolve path s = .ok r → r = String.ofList (expandText resolve s.toList)) := by
  have hmem : ∀ name, name ∈ (placeholderNames s.toList).filter (fun n => (resolve n).isNone) ↔
      ∃ pre raw post, Occurrence s.toList pre raw name post ∧ resolve name = none := by
    intro name
    rw [List.mem_filter, C156_names, Option.isNone_iff_eq_none]
    constructor
    · rintro ⟨⟨pre, raw, post, h⟩, hr⟩; exact ⟨pre, raw, post, h, hr⟩
    · rintro ⟨pre, raw, post, h, hr⟩; exact ⟨⟨pre, raw, post, h⟩, hr⟩
  unfold expandStr
  split_ifs with h
  · refine ⟨⟨fun ⟨u, hu⟩ => (by cases hu), ?_⟩, fun u hu => (by cases hu), fun r hr => (by cases hr; rfl)⟩
    rintro ⟨pre, raw, name, post, ho, hr⟩
    have := (hmem name).mpr ⟨pre, raw, post, ho, hr⟩
    rw [h] at this
    simp at this
  · refine ⟨⟨fun _ => ?_, fun _ => ⟨_, rfl⟩⟩, fun u hu => (by cases hu; exact ⟨rfl, hmem⟩), fun r hr => (by cases hr)⟩
    obtain ⟨name, hn⟩ := List.exists_mem_of_ne_nil _ h
    obtain ⟨pre, raw, post, ho, hr⟩ := (hmem name).mp hn
    exact ⟨pre, raw, name, post, ho, hr⟩

theorem uok_bind {α β : Type} (a : α) (f : α → Except Unresolved β) : ((Except.ok a : Except Unresolved α) >>= f) = f a := rfl

theorem uerr_bind {α β : Type} (a : Unresolved) (f : α → Except Unresolved β) :
    ((Except.error a : Except Unresolved α) >>= f) = .error a := rfl

theorem expandDict_ok (resolve : List Char → Option (List Char)) (path : List PathStep) :
    ∀ (d d' : List (String × PyVal)), expandDict resolve path d = .ok d' →
      Assoc.keys d' = Assoc.keys d ∧ ∀ k, (Assoc.get d k = none ∧ Assoc.get d' k = none) ∨
        ∃ w w' path', (k, w) ∈ d ∧ Assoc.get d k = some w ∧ Assoc.get d' k = some w' ∧ expandVal resolve path' w = .ok w' := by
  intro d
  induction d with
  | nil => intro d' h; rw [expandDict] at h; cases h; exact ⟨rfl, fun k => .inl ⟨rfl, rfl⟩⟩
  | cons e d ih =>
    obtain ⟨k0, v⟩ := e
    intro d' h
    rw [expandDict] at h
    cases h1 : expandVal resolve (path ++ [.key k0]) v with
    | error x => rw [h1, uerr_bind] at h; cases h
    | ok v' =>
      rw [h1, uok_bind] at h
      cases h2 : expandDict resolve path d with
      | error x => rw [h2] at h; cases h
      | ok e' =>
        rw [h2] at h
        cases h
        obtain ⟨hk, hg⟩ := ih e' h2
        refine ⟨?_, ?_⟩
        · unfold Assoc.keys at hk ⊢; rw [List.map_cons, List.map_cons, hk]
        · intro k
          rw [Assoc.get_cons, Assoc.get_cons]
          by_cases hkk : k0 = k
          · subst hkk
            exact .inr ⟨v, v', _, by simp, by simp, by simp, h1⟩
          · simp only [hkk, if_false]
            rcases hg k with h | ⟨w, w', p', hm, h⟩
            · exact .inl h
            · exact .inr ⟨w, w', p', by simp [hm], h⟩

theorem expandList_ok (resolve : List Char → Option (List Char)) (path : List PathStep) :
    ∀ (l l' : List PyVal) (i : Nat), expandList resolve path i l = .ok l' →
      l'.length = l.length ∧ ∀ (j : Nat) (w : PyVal), l[j]? = some w → ∃ w' path', l'[j]? = some w' ∧ expandVal resolve path' w = .ok w' := by
  intro l
  induction l with
  | nil => intro l' i h; rw [expandList] at h; cases h; exact ⟨rfl, by simp⟩
  | cons v l ih =>
    intro l' i h
    rw [expandList] at h
    cases h1 : expandVal resolve (path ++ [.idx i]) v with
    | error x => rw [h1, uerr_bind] at h; cases h
    | ok v' =>
      rw [h1, uok_bind] at h
      cases h2 : expandList resolve path (i + 1) l with
      | error x => rw [h2] at h; cases h
      | ok e' =>
        rw [h2] at h
        cases h
        obtain ⟨hk, hg⟩ := ih e' (i + 1) h2
        refine ⟨by simp [hk], ?_⟩
        intro j w hw
        cases j with
        | zero => simp at hw; subst hw; exact ⟨v', _, by simp, h1⟩
        | succ j => simpa using hg j w (by simpa using hw)

/-- C156: an expanded document has the shape of the original; exactly its strings are expanded, its keys are not. -/
theorem C156_document (resolve : List Char → Option (List Char)) (v : PyVal) :
    ∀ (path : List PathStep) (v' : PyVal), expandVal resolve path v = .ok v' →
      ∀ p, Expanded resolve (docAt v p) (docAt v' p) := by
  induction v using PyVal.induct with
  | none => intro path v' h p; simp only [expandVal, Except.ok.injEq] at h; subst h; cases p <;> simp only [docAt] <;> constructor
  | bool b => intro path v' h p; simp only [expandVal, Except.ok.injEq] at h; subst h; cases p <;> simp only [docAt] <;> constructor
  | int i => intro path v' h p; simp only [expandVal, Except.ok.injEq] at h; subst h; cases p <;> simp only [docAt] <;> constructor
  | flt q => intro path v' h p; simp only [expandVal, Except.ok.injEq] at h; subst h; cases p <;> simp only [docAt] <;> constructor
  | str s =>
    intro path v' h p
    rw [expandVal] at h
    obtain ⟨h1, -, h3⟩ := C156_missing resolve path s
    cases hs : expandStr resolve path s with
    | error u => rw [hs] at h; cases h
    | ok r =>
      rw [hs] at h
      cases h
      rw [h3 r hs]
      cases p with
      | nil =>
        simp only [docAt]
        refine .str s ?_
        intro pre raw name post ho
        cases hr : resolve name with
        | some x => rfl
        | none =>
          obtain ⟨u, hu⟩ := h1.mpr ⟨pre, raw, name, post, ho, hr⟩
          rw [hs] at hu
          cases hu
      | cons a p => simp only [docAt]; exact .absent
  | list l ih =>
    intro path v' h p
    rw [expandVal] at h
    cases hl : expandList resolve path 0 l with
    | error u => rw [hl] at h; cases h
    | ok l' =>
      rw [hl] at h
      cases h
      obtain ⟨hlen, hget⟩ := expandList_ok resolve path l l' 0 hl
      cases p with
      | nil => simp only [docAt]; exact .list l l' hlen
      | cons a p =>
        cases a with
        | key k => simp only [docAt]; exact .absent
        | idx i =>
          simp only [docAt]
          cases hi : l[i]? with
          | none =>
            have : l'[i]? = none := by
              rw [List.getElem?_eq_none_iff] at hi ⊢
              omega
            rw [this]
            exact .absent
          | some w =>
            obtain ⟨w', path', hw', he⟩ := hget i w hi
            rw [hw']
            exact ih w (List.mem_of_getElem? hi) path' w' he p
  | dict d ih =>
    intro path v' h p
    rw [expandVal] at h
    cases hl : expandDict resolve path d with
    | error u => rw [hl] at h; cases h
    | ok d' =>
      rw [hl] at h
      cases h
      obtain ⟨hkeys, hget⟩ := expandDict_ok resolve path d d' hl
      cases p with
      | nil => simp only [docAt]; exact .dict d d' hkeys
      | cons a p =>
        cases a with
        | idx i => simp only [docAt]; exact .absent
        | key k =>
          simp only [docAt]
          rcases hget k with ⟨h1, h2⟩ | ⟨w, w', path', hm, h1, h2, he⟩
          · rw [h1, h2]; exact .absent
          · rw [h1, h2]; exact ih (k, w) hm path' w' he p

theorem expandDict_err (resolve : List Char → Option (List Char)) (path : List PathStep) (u : Unresolved) :
    ∀ (d : List (String × PyVal)), expandDict resolve path d = .error u →
      ∃ k w, (k, w) ∈ d ∧ expandVal resolve (path ++ [.key k]) w = .error u := by
  intro d
  induction d with
  | nil => intro h; rw [expandDict] at h; cases h
  | cons e d ih =>
    obtain ⟨k0, v⟩ := e
    intro h
    rw [expandDict] at h
    cases h1 : expandVal resolve (path ++ [.key k0]) v with
    | error x => rw [h1, uerr_bind] at h; cases h; exact ⟨k0, v, by simp, h1⟩
    | ok v' =>
      rw [h1, uok_bind] at h
      cases h2 : expandDict resolve path d with
      | ok x => rw [h2] at h; cases h
      | error e' =>
        rw [h2] at h
        cases h
        obtain ⟨k, w, hm, he⟩ := ih h2
        exact ⟨k, w, by simp [hm], he⟩

theorem expandList_err (resolve : List Char → Option (List Char)) (path : List PathStep) (u : Unresolved) :
    ∀ (l : List PyVal) (i : Nat), expandList resolve path i l = .error u →
      ∃ (j : Nat) (w : PyVal), l[j]? = some w ∧ expandVal resolve (path ++ [.idx (i + j)]) w = .error u := by
  intro l
  induction l with
  | nil => intro i h; rw [expandList] at h; cases h
  | cons v l ih =>
    intro i h
    rw [expandList] at h
    cases h1 : expandVal resolve (path ++ [.idx i]) v with
    | error x => rw [h1, uerr_bind] at h; cases h; exact ⟨0, v, by simp, h1⟩
    | ok v' =>
      rw [h1, uok_bind] at h
      cases h2 : expandList resolve path (i + 1) l with
      | ok x => rw [h2] at h; cases h
      | error e' =>
        rw [h2] at h
        cases h
        obtain ⟨j, w, hm, he⟩ := ih (i + 1) h2
        exact ⟨j + 1, w, by simpa using hm, by rw [show i + (j + 1) = i + 1 + j by omega]; exact he⟩

/-- C156: the error of a refused document gives the path of a string of the document, and names exactly the variables of that
string that cannot be resolved. -/
theorem C156_error_path (resolve : List Char → Option (List Char)) (v : PyVal) :
    ∀ (path : List PathStep) (u : Unresolved), (∀ p d, docAt v p = some (.dict d) → (Assoc.keys d).Nodup) →
      expandVal resolve path v = .error u →
      ∃ q s, u.path = path ++ q ∧ docAt v q = some (.str s) ∧ u.names ≠ [] ∧ ∀ name, name ∈ u.names ↔
        ∃ pre raw post, Occurrence s.toList pre raw name post ∧ resolve name = none := by
  induction v using PyVal.induct with
  | none => intro path u _ h; simp only [expandVal] at h; cases h
  | bool b => intro path u _ h; simp only [expandVal] at h; cases h
  | int i => intro path u _ h; simp only [expandVal] at h; cases h
  | flt q => intro path u _ h; simp only [expandVal] at h; cases h
  | str s =>
    intro path u _ h
    rw [expandVal] at h
    cases hs : expandStr resolve path s with
    | ok r => rw [hs] at h; cases h
    | error x =>
      rw [hs] at h
      cases h
      obtain ⟨h1, h2, -⟩ := C156_missing resolve path s
      obtain ⟨h3, h4⟩ := h2 u hs
      refine ⟨[], s, by rw [h3, List.append_nil], by simp only [docAt], ?_, h4⟩
      obtain ⟨pre, raw, name, post, ho, hr⟩ := h1.mp ⟨u, hs⟩
      exact List.ne_nil_of_mem ((h4 name).mpr ⟨pre, raw, post, ho, hr⟩)
  | list l ih =>
    intro path u hu h
    rw [expandVal] at h
    cases hl : expandList resolve path 0 l with
    | ok x => rw [hl] at h; cases h
    | error x =>
      rw [hl] at h
      cases h
      obtain ⟨j, w, hj, he⟩ := expandList_err resolve path u l 0 hl
      rw [Nat.zero_add] at he
      obtain ⟨q, s, h1, h2, h3⟩ := ih w (List.mem_of_getElem? hj) _ u (by
        intro p d hp
        apply hu (.idx j :: p) d
        simp only [docAt, hj, Option.bind_some]
        exact hp) he
      refine ⟨.idx j :: q, s, by rw [h1]; simp, ?_, h3⟩
      simp only [docAt, hj, Option.bind_some]
      exact h2
  | dict d ih =>
    intro path u hu h
    rw [expandVal] at h
    cases hl : expandDict resolve path d with
    | ok x => rw [hl] at h; cases h
    | error x =>
      rw [hl] at h
      cases h
      obtain ⟨k, w, hm, he⟩ := expandDict_err resolve path u d hl
      have hg : Assoc.get d k = some w := Assoc.get_of_mem (hu [] d (by simp only [docAt])) hm
      obtain ⟨q, s, h1, h2, h3⟩ := ih (k, w) hm _ u (by
        intro p d' hp
        apply hu (.key k :: p) d'
        simp only [docAt, hg, Option.bind_some]
        exact hp) he
      refine ⟨.key k :: q, s, by rw [h1]; simp, ?_, h3⟩
      simp only [docAt, hg, Option.bind_some]
      exact h2

/-- A document with a resolved and an unresolved placeholder (helper for examples). -/
def demoDoc : PyVal := .dict [("a", .list [.int 1, .str "$X/$$X"]), ("b", .str "${Y}")]

example : expandVal (fun n => if n = "X".toList then some "v".toList else none) [] demoDoc =
    .error ⟨[.key "b"], ["Y".toList]⟩ := by decide +kernel

example : (expandVal (fun _ => some "v".toList) [] demoDoc).toOption.bind (fun v => docAt v [.key "a", .idx 1]) =
    some (.str "v/$$X") := by decide +kernel

/-! ### Where the values come from -/

/-- C156: a variable set in the environment is used as it is, even if it is empty; a default is used only otherwise. -/
theorem C156_env_first (P : PathEnv) (env : Environ) (name v : List Char) (h : Assoc.get env name = some v) :
    resolveVar P env name = some v := by
  unfold resolveVar; rw [h]

/-- C156: without a cache root (not in the environment, no repository found) no default exists, so a placeholder for a variable
that is not set is refused. -/
theorem C156_no_default (P : PathEnv) (env : Environ) (name : List Char)
    (h1 : Assoc.get env "MODSSC_CACHE_ROOT".toList = none) (h2 : P.localRoot = none) (h3 : Assoc.get env name = none) :
    resolveVar P env name = none := by
  unfold resolveVar defaultEnv cacheRoot envTruthy
  rw [h1, h2, h3]
  rfl

/-- C156 (partial): the directory placeholders lie in the directory that `${MODSSC_CACHE_ROOT}` stands for, when that variable
is unset or set to a normal path.  Missing: a variable that is empty or not normalised (`C156_root_violated`). -/
theorem C156_root_partial (P : PathEnv) (env : Environ) (root : List Char)
    (hr : resolveVar P env "MODSSC_CACHE_ROOT".toList = some root)
    (hn : ∀ r, Assoc.get env "MODSSC_CACHE_ROOT".toList = some r → r ≠ [] ∧ P.normalise r = r) :
    (∀ v d, (v, d) ∈ [("MODSSC_OUTPUT_DIR", "output"), ("MODSSC_PREPROCESS_CACHE_DIR", "preprocess"),
        ("MODSSC_SPLIT_CACHE_DIR", "splits"), ("MODSSC_GRAPH_CACHE_DIR", "graphs"),
        ("MODSSC_GRAPH_VIEWS_CACHE_DIR", "graph_views")] →
      Assoc.get env v.toList = none → resolveVar P env v.toList = some (root ++ '/' :: d.toList)) ∧
    (Assoc.get env "MODSSC_CACHE_DIR".toList = none → Assoc.get env "MODSSC_DATASET_CACHE_DIR".toList = none →
      resolveVar P env "MODSSC_CACHE_DIR".toList = some (root ++ '/' :: "datasets".toList) ∧
      resolveVar P env "MODSSC_DATASET_CACHE_DIR".toList = some (root ++ '/' :: "datasets".toList)) := by
  have hroot : cacheRoot P env = some root := by
    unfold cacheRoot envTruthy
    unfold resolveVar at hr
    cases hg : Assoc.get env "MODSSC_CACHE_ROOT".toList with
    | some r =>
      rw [hg] at hr
      obtain ⟨h1, h2⟩ := hn r hg
      simp only [Option.some.injEq] at hr
      subst hr
      cases r with
      | nil => exact absurd rfl h1
      | cons c cs => simp only [h2]
    | none =>
      rw [hg] at hr
      simp only at hr ⊢
      unfold defaultEnv cacheRoot envTruthy at hr
      rw [hg] at hr
      cases hl : P.localRoot with
      | none => rw [hl] at hr; simp at hr
      | some l =>
        rw [hl] at hr
        simpa [Assoc.get] using hr
  refine ⟨?_, ?_⟩
  · intro v d hv hg
    unfold resolveVar
    rw [hg]
    unfold defaultEnv
    rw [hroot]
    simp only [List.mem_cons, Prod.mk.injEq, List.not_mem_nil, or_false] at hv
    rcases hv with ⟨rfl, rfl⟩ | ⟨rfl, rfl⟩ | ⟨rfl, rfl⟩ | ⟨rfl, rfl⟩ | ⟨rfl, rfl⟩ <;> simp [Assoc.get, childDir]
  · intro h1 h2
    unfold resolveVar
    rw [h1, h2]
    unfold defaultEnv datasetDir envTruthy
    rw [hroot, h1]
    simp [Assoc.get, childDir]

/-- C156 violated: with `MODSSC_CACHE_ROOT` set to the empty string, `${MODSSC_CACHE_ROOT}` is empty but `${MODSSC_OUTPUT_DIR}`
lies in the repository's cache. -/
theorem C156_root_violated :
    ∃ (P : PathEnv) (env : Environ), resolveVar P env "MODSSC_CACHE_ROOT".toList = some [] ∧
      resolveVar P env "MODSSC_OUTPUT_DIR".toList = some "/r/cache/output".toList :=
  ⟨⟨id, some "/r/cache".toList⟩, [("MODSSC_CACHE_ROOT".toList, [])], by decide +kernel, by decide +kernel⟩

example : resolveVar ⟨id, none⟩ [("MODSSC_CACHE_ROOT".toList, "/c".toList)] "MODSSC_SPLIT_CACHE_DIR".toList =
    some "/c/splits".toList := by decide +kernel

/-- C156: loading a file gives an empty configuration for an empty file, refuses a file that is not a mapping, and otherwise
gives the expanded mapping or the error of the first string that cannot be expanded. -/
theorem C156_load (P : PathEnv) (env : Environ) (v : PyVal) :
    (v = .none → loadYaml P env v = .ok []) ∧
    (v ≠ .none → (∀ d, v ≠ .dict d) → loadYaml P env v = .error .notMapping) ∧
    (∀ d d', v = .dict d → loadYaml P env v = .ok d' → expandVal (resolveVar P env) [] v = .ok (.dict d')) ∧
    (∀ d e, v = .dict d → loadYaml P env v = .error e →
      ∃ u, e = .unresolved u ∧ expandVal (resolveVar P env) [] v = .error u) := by
  refine ⟨?_, ?_, ?_, ?_⟩
  · rintro rfl; rfl
  · intro h1 h2
    cases v with
    | none => exact absurd rfl h1
    | dict d => exact absurd rfl (h2 d)
    | _ => rfl
  · rintro d d' rfl h
    rw [loadYaml] at h
    rw [expandVal]
    cases he : expandDict (resolveVar P env) [] d with
    | error u => rw [he] at h; cases h
    | ok x => rw [he] at h; cases h; rfl
  · rintro d e rfl h
    rw [loadYaml] at h
    rw [expandVal]
    cases he : expandDict (resolveVar P env) [] d with
    | error u => rw [he] at h; cases h; exact ⟨u, rfl, rfl⟩
    | ok x => rw [he] at h; cases h

/-- C156: a doubled or backslashed dollar sign keeps a placeholder from being expanded, and the sign that does so stays in the
text. -/
theorem C156_escape (resolve : List Char → Option (List Char)) (name : List Char) (hn : IsName name) :
    expandText resolve ('$' :: '$' :: name) = '$' :: '$' :: name ∧
    expandText resolve ('\\' :: '$' :: name) = '\\' :: '$' :: name := by
  have hname : ∀ c ∈ name, c ≠ '$' := by
    intro c hc h
    subst h
    have := (nameChar_iff '$').mpr (hn.all '$' hc)
    exact absurd this (by decide)
  have key : ∀ e : Char, ¬ ∃ pre raw n post, Occurrence (e :: '$' :: name) pre raw n post ∧ (e = '$' ∨ e = '\\') := by
    rintro e ⟨pre, raw, n, post, ho, he⟩
    obtain ⟨raw', rfl, hb, hbl, hs⟩ := occurrence_body ho
    cases pre with
    | nil =>
      simp only [List.nil_append, List.cons.injEq] at hs
      obtain ⟨rfl, hs⟩ := hs
      obtain ⟨c, cs, hc, hst, -⟩ := (isName_iff n).mp hb.2.1
      rcases hb.2.2 with h | ⟨h, -⟩
      · rw [h] at hs; simp at hs
      · rw [h, hc] at hs; simp at hs
        rw [← hs.1] at hst
        exact absurd hst (by decide)
    | cons a pre =>
      cases pre with
      | nil =>
        simp only [List.cons_append, List.nil_append, List.cons.injEq] at hs
        obtain ⟨rfl, -⟩ := hs
        simp only [List.getLast?_singleton] at hbl
        rcases he with rfl | rfl <;> exact absurd hbl (by decide)
      | cons b pre =>
        simp only [List.cons_append, List.cons.injEq] at hs
        obtain ⟨-, -, hs⟩ := hs
        exact hname '$' (by rw [hs]; simp) rfl
  constructor
  · exact C156_plain resolve _ (fun pre raw n post ho => key '$' ⟨pre, raw, n, post, ho, .inl rfl⟩)
  · exact C156_plain resolve _ (fun pre raw n post ho => key '\\' ⟨pre, raw, n, post, ho, .inr rfl⟩)

end ModSSC.Bench
