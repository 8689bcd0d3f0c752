import Verif.Base
import Mathlib.Data.List.Forall2

/-!
# Helper lemmas about `Except` computations
-/

namespace ModSSC

theorem ebind_ok {α β : Type} {x : Except PyErr α} {f : α → Except PyErr β} {b : β} :
    (x >>= f) = .ok b ↔ ∃ a, x = .ok a ∧ f a = .ok b := by
  cases x with
  | error e => simp [bind, Except.bind]
  | ok a => simp [bind, Except.bind]

theorem ebind_of_ok {α β : Type} {x : Except PyErr α} {f : α → Except PyErr β} {a : α}
    (h : x = .ok a) : (x >>= f) = f a := by
  subst h; rfl

theorem mapM_ok {α β : Type} {f : α → Except PyErr β} : ∀ {l : List α} {r : List β},
    l.mapM f = .ok r ↔ List.Forall₂ (fun a b => f a = .ok b) l r
  | [], r => by
    cases r <;> simp [pure, Except.pure]
  | a :: l, r => by
    rw [List.mapM_cons, ebind_ok]
    constructor
    · rintro ⟨b, hb, h⟩
      rw [ebind_ok] at h
      obtain ⟨r', hr', h⟩ := h
      simp only [pure, Except.pure, Except.ok.injEq] at h
      subst h
      exact .cons hb (mapM_ok.mp hr')
    · intro h
      cases h with
      | cons hb hr => exact ⟨_, hb, ebind_ok.mpr ⟨_, mapM_ok.mpr hr, rfl⟩⟩

theorem mapM_total {α β : Type} {f : α → Except PyErr β} {l : List α}
    (h : ∀ a ∈ l, ∃ b, f a = .ok b) : ∃ r, l.mapM f = .ok r := by
  induction l with
  | nil => exact ⟨[], rfl⟩
  | cons a l ih =>
    obtain ⟨b, hb⟩ := h a (by simp)
    obtain ⟨r, hr⟩ := ih (fun x hx => h x (by simp [hx]))
    exact ⟨b :: r, mapM_ok.mpr (.cons hb (mapM_ok.mp hr))⟩

/-- Both computations raise the same exception, or both return and the values are related. -/
inductive ERel {α β : Type} (Q : α → β → Prop) : Except PyErr α → Except PyErr β → Prop
  | error (e : PyErr) : ERel Q (.error e) (.error e)
  | ok {a : α} {b : β} (h : Q a b) : ERel Q (.ok a) (.ok b)

theorem ERel.ok_left {α β : Type} {Q : α → β → Prop} {x : Except PyErr α} {y : Except PyErr β}
    (h : ERel Q x y) {a : α} (hx : x = .ok a) : ∃ b, y = .ok b ∧ Q a b := by
  cases h with
  | error e => simp at hx
  | ok h => simp only [Except.ok.injEq] at hx; subst hx; exact ⟨_, rfl, h⟩

theorem ERel.ok_right {α β : Type} {Q : α → β → Prop} {x : Except PyErr α} {y : Except PyErr β}
    (h : ERel Q x y) {b : β} (hy : y = .ok b) : ∃ a, x = .ok a ∧ Q a b := by
  cases h with
  | error e => simp at hy
  | ok h => simp only [Except.ok.injEq] at hy; subst hy; exact ⟨_, rfl, h⟩

theorem ERel.mono {α β : Type} {Q Q' : α → β → Prop} {x : Except PyErr α} {y : Except PyErr β}
    (h : ERel Q x y) (hQ : ∀ a b, Q a b → Q' a b) : ERel Q' x y := by
  cases h with
  | error e => exact .error e
  | ok h => exact .ok (hQ _ _ h)

end ModSSC
