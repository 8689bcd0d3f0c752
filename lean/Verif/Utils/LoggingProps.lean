import Verif.Utils.LoggingModel
import Verif.ExceptLemmas
import Mathlib.Data.List.Nodup

/-!
# Log levels (C203)
-/

namespace ModSSC.Utils.Logging.Spec
open ModSSC

/-- What a cleaned text means. -/
def Means (v : String) (l : Level) : Prop :=
  (l = .none ∧ (v = "none" ∨ v = "quiet")) ∨ (l = .basic ∧ v = "basic") ∨ (l = .detailed ∧ (v = "detailed" ∨ v = "full"))

/-- The format: the given one, unless empty; else the one of the level. -/
def formatFor (l : Level) (fmt : Option String) : String :=
  if fmt.getD "" ≠ "" then fmt.getD "" else
    match l with
    | .detailed => "%(asctime)s %(levelname)s %(name)s %(filename)s:%(lineno)d: %(message)s"
    | _ => "%(levelname)s %(name)s: %(message)s"

end ModSSC.Utils.Logging.Spec

namespace ModSSC.Utils.Logging
open ModSSC Spec

/-- **C203 (names).**  `none`, `quiet`, `basic`, `detailed` and `full` are levels, up to case and surrounding blanks; anything else
raises. -/
theorem C203_names (clean : String → String) (s : String) :
    (∀ l, parse clean s = .ok l ↔ Means (clean s) l) ∧ ((∀ l, ¬ Means (clean s) l) → parse clean s = .error .valueError) := by
  generalize hv : clean s = v
  unfold parse Means
  simp only [hv]
  by_cases h1 : v = "quiet"
  · subst h1
    refine ⟨fun l => ?_, fun h => absurd (.inl ⟨rfl, .inr rfl⟩) (h .none)⟩
    cases l <;> simp
  by_cases h2 : v = "full"
  · subst h2
    refine ⟨fun l => ?_, fun h => absurd (.inr (.inr ⟨rfl, .inr rfl⟩)) (h .detailed)⟩
    cases l <;> simp
  rw [if_neg h1, if_neg h2]
  by_cases h3 : v = "none"
  · subst h3
    refine ⟨fun l => ?_, fun h => absurd (.inl ⟨rfl, .inl rfl⟩) (h .none)⟩
    cases l <;> simp
  by_cases h4 : v = "basic"
  · subst h4
    refine ⟨fun l => ?_, fun h => absurd (.inr (.inl ⟨rfl, rfl⟩)) (h .basic)⟩
    cases l <;> simp
  by_cases h5 : v = "detailed"
  · subst h5
    refine ⟨fun l => ?_, fun h => absurd (.inr (.inr ⟨rfl, .inl rfl⟩)) (h .detailed)⟩
    cases l <;> simp
  rw [if_neg h3, if_neg h4, if_neg h5]
  refine ⟨fun l => ?_, fun _ => rfl⟩
  cases l <;> simp [h1, h2, h3, h4, h5]

/-- **C203 (precedence, partial).**  A given level that is not blank is used; without it a non-empty environment variable; without both
the level is `none`.  Missing: blanks in the environment variable (`C203_blank_env_violated`) and on the command line
(`C203_blank_option_violated`). -/
theorem C203_precedence_partial (clean : String → String) (env value : Option String) :
    (∀ v, value = some v → clean v ≠ "" → resolve clean env value = parse clean v ∧ commandLine clean env value = parse clean v) ∧
    (∀ e, (value = none ∨ ∃ v, value = some v ∧ clean v = "") → env = some e → e ≠ "" → resolve clean env value = parse clean e) ∧
    ((value = none ∨ ∃ v, value = some v ∧ clean v = "") → (env = none ∨ env = some "") → resolve clean env value = .ok .none) ∧
    (value = none → commandLine clean env value = resolve clean env value) := by
  refine ⟨?_, ?_, ?_, ?_⟩
  · rintro v rfl hv
    exact ⟨by simp [resolve, hv], rfl⟩
  · rintro e (rfl | ⟨v, rfl, hv⟩) rfl he
    · simp [resolve, he]
    · simp [resolve, hv, he]
  · rintro (rfl | ⟨v, rfl, hv⟩) (rfl | rfl)
    · rfl
    · simp [resolve]
    · simp [resolve, hv]
    · simp [resolve, hv]
  · rintro rfl
    rfl

/-- **C203 violated (blank variable).**  A blank level counts as not given, but a blank environment variable raises. -/
theorem C203_blank_env_violated (clean : String → String) (e : String) (he : e ≠ "") (hb : clean e = "") :
    resolve clean (some e) none = .error .valueError ∧ resolve clean none (some e) = .ok .none := by
  constructor
  · simp [resolve, he, parse, hb]
  · simp [resolve, hb]

/-- **C203 violated (blank option).**  The library takes a blank level as not given; the command line refuses it. -/
theorem C203_blank_option_violated (clean : String → String) (v : String) (hb : clean v = "") (env : Option String) :
    commandLine clean env (some v) = .error .valueError ∧ resolve clean env (some v) = resolve clean env none := by
  constructor
  · simp [commandLine, parse, hb]
  · simp [resolve, hb]

/-- The library's handlers are on their loggers' account only: known, distinct for distinct loggers, and every logger has each of its
handlers once. -/
structure Inv (w : World) : Prop where
  nodup : ∀ n, (w.logger n).handlers.Nodup
  below : ∀ n, ∀ h ∈ (w.logger n).handlers, h < w.next
  ours_below : ∀ n h, w.ours n = some h → h < w.next
  ours_inj : ∀ n m h, w.ours n = some h → w.ours m = some h → n = m
  ours_own : ∀ n m h, w.ours n = some h → h ∈ (w.logger m).handlers → m = n

theorem inv_configureLogger (name : String) (level : Nat) (fmt : String) (w : World) (hw : Inv w) :
    Inv (configureLogger name level fmt w) := by
  unfold configureLogger
  simp only
  cases ho : w.ours name with
  | some h =>
    have hlt := hw.ours_below _ _ ho
    simp only
    refine ⟨?_, ?_, hw.ours_below, hw.ours_inj, ?_⟩
    · intro n
      by_cases hn : n = name
      · simp only [World.setLogger, if_pos hn]
        by_cases c : h ∈ (w.logger name).handlers
        · rw [if_pos c]; exact hw.nodup name
        · rw [if_neg c]
          exact List.Nodup.append (hw.nodup name) (List.nodup_singleton _) (by simpa using c)
      · simp only [World.setLogger, if_neg hn]
        exact hw.nodup n
    · intro n i hi
      by_cases hn : n = name
      · simp only [World.setLogger, if_pos hn] at hi ⊢
        by_cases c : h ∈ (w.logger name).handlers
        · rw [if_pos c] at hi; exact hw.below name i hi
        · rw [if_neg c] at hi
          rcases List.mem_append.mp hi with hi | hi
          · exact hw.below name i hi
          · rw [List.mem_singleton.mp hi]; exact hlt
      · simp only [World.setLogger, if_neg hn] at hi ⊢
        exact hw.below n i hi
    · intro n m i hi hm
      by_cases hn : m = name
      · simp only [World.setLogger, if_pos hn] at hm hi
        by_cases c : h ∈ (w.logger name).handlers
        · rw [if_pos c] at hm; rw [hn]; exact hw.ours_own n name i hi hm
        · rw [if_neg c] at hm
          rcases List.mem_append.mp hm with hm | hm
          · rw [hn]; exact hw.ours_own n name i hi hm
          · rw [List.mem_singleton.mp hm] at hi
            rw [hn]; exact (hw.ours_inj _ _ _ hi ho).symm
      · simp only [World.setLogger, if_neg hn] at hm hi
        exact hw.ours_own n m i hi hm
  | none =>
    simp only
    by_cases c : (w.logger name).handlers ≠ []
    · rw [if_pos c]
      have hh : ∀ n, ((w.setLogger name { w.logger name with level := some level }).logger n).handlers = (w.logger n).handlers := by
        intro n
        by_cases hn : n = name
        · subst hn; simp only [World.setLogger, if_true]
        · simp only [World.setLogger, if_neg hn]
      exact ⟨fun n => by rw [hh]; exact hw.nodup n, fun n i hi => by rw [hh] at hi; exact hw.below n i hi, hw.ours_below, hw.ours_inj,
        fun n m i hi hm => by rw [hh] at hm; exact hw.ours_own n m i hi hm⟩
    · rw [if_neg c]
      refine ⟨?_, ?_, ?_, ?_, ?_⟩
      · intro n
        by_cases hn : n = name
        · simp only [World.setLogger, if_pos hn]; exact List.nodup_singleton _
        · simp only [World.setLogger, if_neg hn]; exact hw.nodup n
      · intro n i hi
        by_cases hn : n = name
        · simp only [World.setLogger, if_pos hn, List.mem_singleton] at hi ⊢; omega
        · simp only [World.setLogger, if_neg hn] at hi ⊢
          exact Nat.lt_succ_of_lt (hw.below n i hi)
      · intro n i hi
        simp only [World.setLogger] at hi ⊢
        by_cases hn : n = name
        · rw [if_pos hn] at hi; have := Option.some.inj hi; omega
        · rw [if_neg hn] at hi; exact Nat.lt_succ_of_lt (hw.ours_below n i hi)
      · intro n m i hn hm
        simp only [World.setLogger] at hn hm
        by_cases h1 : n = name
        · by_cases h2 : m = name
          · rw [h1, h2]
          · rw [if_pos h1] at hn; rw [if_neg h2] at hm
            have h3 := hw.ours_below m i hm
            have := Option.some.inj hn; omega
        · by_cases h2 : m = name
          · rw [if_neg h1] at hn; rw [if_pos h2] at hm
            have h3 := hw.ours_below n i hn
            have := Option.some.inj hm; omega
          · rw [if_neg h1] at hn; rw [if_neg h2] at hm
            exact hw.ours_inj n m i hn hm
      · intro n m i hn hm
        simp only [World.setLogger] at hn hm
        by_cases h1 : n = name
        · rw [if_pos h1] at hn
          by_cases h2 : m = name
          · rw [h1, h2]
          · rw [if_neg h2] at hm
            have h3 := hw.below m i hm
            have := Option.some.inj hn; omega
        · rw [if_neg h1] at hn
          by_cases h2 : m = name
          · rw [if_pos h2] at hm
            have h3 := hw.ours_below n i hn
            have := List.mem_singleton.mp hm; omega
          · rw [if_neg h2] at hm
            exact hw.ours_own n m i hn hm

theorem inv_step (clean : String → String) (w : World) (hw : Inv w) (e : Event) : Inv (step clean w e) := by
  cases e with
  | configure level fmt =>
    cases h : configure clean level fmt w with
    | error e => simp only [step, h]; exact hw
    | ok w' =>
      simp only [step, h]
      unfold configure at h
      obtain ⟨lv, -, h2⟩ := ebind_ok.mp h
      obtain rfl := Except.ok.inj h2
      exact inv_configureLogger _ _ _ _ (inv_configureLogger _ _ _ _ hw)
  | addOwn name level fmt =>
    unfold step
    simp only
    refine ⟨?_, ?_, fun n i hi => Nat.lt_succ_of_lt (hw.ours_below n i hi), hw.ours_inj, ?_⟩
    · intro n
      by_cases hn : n = name
      · simp only [World.setLogger, if_pos hn]
        refine List.Nodup.append (hw.nodup name) (List.nodup_singleton _) ?_
        intro i hi hj
        have := hw.below name i hi
        have := List.mem_singleton.mp hj
        omega
      · simp only [World.setLogger, if_neg hn]; exact hw.nodup n
    · intro n i hi
      by_cases hn : n = name
      · simp only [World.setLogger, if_pos hn] at hi ⊢
        rcases List.mem_append.mp hi with hi | hi
        · exact Nat.lt_succ_of_lt (hw.below name i hi)
        · have := List.mem_singleton.mp hi; omega
      · simp only [World.setLogger, if_neg hn] at hi ⊢
        exact Nat.lt_succ_of_lt (hw.below n i hi)
    · intro n m i hn hm
      simp only [World.setLogger] at hn hm
      by_cases h2 : m = name
      · rw [if_pos h2] at hm
        rcases List.mem_append.mp hm with hm | hm
        · rw [h2]; exact hw.ours_own n name i hn hm
        · have h3 := hw.ours_below n i hn
          have := List.mem_singleton.mp hm; omega
      · rw [if_neg h2] at hm; exact hw.ours_own n m i hn hm
  | remove name h =>
    unfold step
    simp only
    have hsub : ∀ n i, i ∈ ((w.setLogger name { w.logger name with handlers := (w.logger name).handlers.erase h }).logger n).handlers →
        i ∈ (w.logger n).handlers := by
      intro n i hi
      by_cases hn : n = name
      · simp only [World.setLogger, if_pos hn] at hi
        rw [hn]; exact List.mem_of_mem_erase hi
      · simp only [World.setLogger, if_neg hn] at hi; exact hi
    refine ⟨?_, fun n i hi => hw.below n i (hsub n i hi), hw.ours_below, hw.ours_inj, fun n m i hn hm => hw.ours_own n m i hn (hsub m i hm)⟩
    intro n
    by_cases hn : n = name
    · simp only [World.setLogger, if_pos hn]; exact (hw.nodup name).erase _
    · simp only [World.setLogger, if_neg hn]; exact hw.nodup n

theorem inv_run (clean : String → String) (es : List Event) : Inv (run clean es) := by
  have key : ∀ (es : List Event) w, Inv w → Inv (es.foldl (step clean) w) := by
    intro es
    induction es with
    | nil => exact fun _ h => h
    | cons e es ih => exact fun w h => ih _ (inv_step clean w h e)
  exact key es fresh ⟨fun _ => List.nodup_nil, fun _ _ h => by simp [fresh] at h, fun _ _ h => by simp [fresh] at h,
    fun _ _ _ h => by simp [fresh] at h, fun _ _ _ h => by simp [fresh] at h⟩

/-- **C203 (no record twice).**  Whatever was configured, added and removed before, no logger has a handler twice, and the library's
handler of a logger is on no other logger. -/
theorem C203_once (clean : String → String) (es : List Event) :
    (∀ n, ((run clean es).logger n).handlers.Nodup) ∧
    ∀ n m h, (run clean es).ours n = some h → h ∈ ((run clean es).logger m).handlers → m = n :=
  ⟨(inv_run clean es).nodup, (inv_run clean es).ours_own⟩

theorem configureLogger_other (name : String) (level : Nat) (fmt : String) (w : World) (n : String) (hn : n ≠ name) :
    (configureLogger name level fmt w).logger n = w.logger n ∧ (configureLogger name level fmt w).ours n = w.ours n := by
  unfold configureLogger
  simp only
  split
  · simp [World.setLogger, hn]
  · split
    · simp [World.setLogger, hn]
    · simp [World.setLogger, hn]

/-- What configuring one logger does to it, and to the settings of handlers. -/
theorem configureLogger_own (name : String) (level : Nat) (fmt : String) (w : World) (hw : Inv w) :
    let w' := configureLogger name level fmt w
    (w'.logger name).level = some level ∧
    (((w.logger name).handlers = [] ∨ ∃ h, w.ours name = some h) → ∃ h, w'.ours name = some h ∧ h ∈ (w'.logger name).handlers ∧
      w'.setting h = (level, fmt) ∧ (w'.logger name).handlers ⊆ (w.logger name).handlers ++ [h]) ∧
    ((w.logger name).handlers ≠ [] → w.ours name = none → (w'.logger name).handlers = (w.logger name).handlers ∧ w'.ours name = none) ∧
    (∀ i, w.ours name ≠ some i → i < w.next → w'.setting i = w.setting i) ∧
    (∀ i ∈ (w.logger name).handlers, i ∈ (w'.logger name).handlers) ∧ w.next ≤ w'.next := by
  simp only
  unfold configureLogger
  simp only
  cases ho : w.ours name with
  | some h =>
    simp only [World.setLogger, if_true]
    by_cases c : h ∈ (w.logger name).handlers
    · rw [if_pos c]
      exact ⟨rfl, fun _ => ⟨h, ho, c, if_pos rfl, List.subset_append_left _ _⟩, fun _ h => by simp at h,
        fun i hi _ => if_neg (fun e => hi (by rw [e])), fun i hi => hi, le_rfl⟩
    · rw [if_neg c]
      exact ⟨rfl, fun _ => ⟨h, ho, List.mem_append_right _ (List.mem_singleton_self _), if_pos rfl, List.Subset.refl _⟩, fun _ h => by simp at h,
        fun i hi _ => if_neg (fun e => hi (by rw [e])), fun i hi => List.mem_append_left _ hi, le_rfl⟩
  | none =>
    simp only
    by_cases c : (w.logger name).handlers ≠ []
    · rw [if_pos c]
      simp only [World.setLogger, if_true]
      refine ⟨trivial, fun h => ?_, fun _ _ => ⟨trivial, ho⟩, fun _ _ _ => trivial, fun i hi => hi, le_rfl⟩
      rcases h with h | ⟨h, e⟩
      · exact absurd h c
      · cases e
    · rw [if_neg c]
      simp only [World.setLogger, if_true]
      rw [not_not] at c
      refine ⟨trivial, fun _ => ⟨w.next, rfl, List.mem_singleton_self _, if_pos rfl, List.subset_append_right _ _⟩, fun h => absurd c h,
        fun i _ hi => if_neg (by omega), fun i hi => ?_, Nat.le_succ _⟩
      rw [c] at hi
      cases hi

/-- **C203 (configuring).**  After any history a call with a valid level sets the level of both loggers; a logger without handlers, or
with the library's, has the library's handler then, at that level and with that format; a logger with only other handlers keeps exactly those.
Handlers of others keep their settings and stay. -/
theorem C203_configure (clean : String → String) (es : List Event) (s : String) (fmt : Option String) (l : Level) (hl : Means (clean s) l)
    (name : String) (hname : name = "modssc" ∨ name = "bench") :
    let w := run clean es
    let w' := step clean w (.configure s fmt)
    (w'.logger name).level = some l.number ∧
    (((w.logger name).handlers = [] ∨ ∃ h, w.ours name = some h) → ∃ h, w'.ours name = some h ∧ h ∈ (w'.logger name).handlers ∧
      w'.setting h = (l.number, formatFor l fmt) ∧ ∀ i ∈ (w'.logger name).handlers, i ∈ (w.logger name).handlers ∨ i = h) ∧
    ((w.logger name).handlers ≠ [] → w.ours name = none → (w'.logger name).handlers = (w.logger name).handlers) ∧
    (∀ i ∈ (w.logger name).handlers, i ∈ (w'.logger name).handlers) ∧
    ∀ i, i < w.next → (∀ n, w.ours n ≠ some i) → w'.setting i = w.setting i := by
  have hI := inv_run clean es
  simp only
  generalize run clean es = w at hI ⊢
  have hp := ((C203_names clean s).1 l).mpr hl
  obtain ⟨f, hff, hf⟩ : ∃ f, f = formatFor l fmt ∧
      configure clean s fmt w = .ok (configureLogger "bench" l.number f (configureLogger "modssc" l.number f w)) := by
    unfold configure
    rw [ebind_of_ok hp]
    refine ⟨_, ?_, rfl⟩
    unfold formatFor
    cases fmt with
    | none => cases l <;> rfl
    | some f =>
      by_cases hf : f = ""
      · subst hf; cases l <;> rfl
      · simp [hf]
  have hstep : step clean w (.configure s fmt) = configureLogger "bench" l.number f (configureLogger "modssc" l.number f w) := by
    simp only [step, hf]
  rw [hstep]
  set w1 := configureLogger "modssc" l.number f w with hw1
  have hI1 : Inv w1 := inv_configureLogger _ _ _ _ hI
  obtain ⟨a1, a2, a3, a4, a5, a6⟩ := configureLogger_own "modssc" l.number f w hI
  obtain ⟨b1, b2, b3, b4, b5, b6⟩ := configureLogger_own "bench" l.number f w1 hI1
  obtain ⟨m1, m2⟩ := configureLogger_other "bench" l.number f w1 "modssc" (by decide)
  obtain ⟨n1, n2⟩ := configureLogger_other "modssc" l.number f w "bench" (by decide)
  have hset : ∀ i, i < w.next → (∀ n, w.ours n ≠ some i) → (configureLogger "bench" l.number f w1).setting i = w.setting i := by
    intro i hi ho
    rw [b4 i (by rw [n2]; exact ho _) (lt_of_lt_of_le hi a6)]
    exact a4 i (ho _) hi
  rcases hname with rfl | rfl
  · refine ⟨by rw [m1]; exact a1, ?_, ?_, ?_, hset⟩
    · intro h
      obtain ⟨h', h1, h2, h3, h4⟩ := a2 h
      refine ⟨h', by rw [m2]; exact h1, by rw [m1]; exact h2, ?_, ?_⟩
      · rw [b4 h' ?_ (hI1.ours_below _ _ h1)]
        · rw [h3, hff]
        · intro hb
          have := hI1.ours_inj _ _ _ h1 hb
          revert this
          decide
      · intro i hi
        rw [m1] at hi
        rcases List.mem_append.mp (h4 hi) with h | h
        · exact .inl h
        · exact .inr (List.mem_singleton.mp h)
    · intro h1 h2
      rw [m1]
      exact (a3 h1 h2).1
    · intro i hi
      rw [m1]
      exact a5 i hi
  · refine ⟨b1, ?_, ?_, ?_, hset⟩
    · intro h
      rw [← n1, ← n2] at h
      obtain ⟨h', h1, h2, h3, h4⟩ := b2 h
      refine ⟨h', h1, h2, by rw [h3, hff], ?_⟩
      intro i hi
      rcases List.mem_append.mp (h4 hi) with h | h
      · rw [n1] at h; exact .inl h
      · exact .inr (List.mem_singleton.mp h)
    · intro h1 h2
      rw [← n1] at h1 ⊢
      rw [← n2] at h2
      exact (b3 h1 h2).1
    · intro i hi
      rw [← n1] at hi
      exact b5 i hi

theorem quiet_configureLogger (name : String) (level : Nat) (fmt : String) (w : World)
    (hw : ∀ n h, w.ours n = some h → (w.logger n).propagate = false) :
    ∀ n h, (configureLogger name level fmt w).ours n = some h → ((configureLogger name level fmt w).logger n).propagate = false := by
  intro n h hn
  by_cases e : n = name
  · subst e
    unfold configureLogger at hn ⊢
    simp only at hn ⊢
    cases ho : w.ours n with
    | some i =>
      have := hw n i ho
      by_cases c : i ∈ (w.logger n).handlers
      · simp [World.setLogger, c, this]
      · simp [World.setLogger, c, this]
    | none =>
      rw [ho] at hn
      simp only at hn ⊢
      by_cases c : (w.logger n).handlers ≠ []
      · rw [if_pos c] at hn
        simp only [World.setLogger] at hn
        rw [ho] at hn
        cases hn
      · rw [if_neg c]
        simp [World.setLogger]
  · obtain ⟨h1, h2⟩ := configureLogger_other name level fmt w n e
    rw [h1]
    rw [h2] at hn
    exact hw n h hn

/-- **C203 (not passed on).**  After any history a logger that got the library's handler does not pass its records on to the root
logger. -/
theorem C203_not_passed_on (clean : String → String) (es : List Event) (n : String) (h : Nat) (hn : (run clean es).ours n = some h) :
    ((run clean es).logger n).propagate = false := by
  have key : ∀ (es : List Event) w, (∀ n h, w.ours n = some h → (w.logger n).propagate = false) →
      ∀ n h, (es.foldl (step clean) w).ours n = some h → ((es.foldl (step clean) w).logger n).propagate = false := by
    intro es
    induction es with
    | nil => exact fun _ h => h
    | cons e es ih =>
      intro w hw
      refine ih _ ?_
      cases e with
      | configure level fmt =>
        cases hc : configure clean level fmt w with
        | error e => simp only [step, hc]; exact hw
        | ok w' =>
          simp only [step, hc]
          unfold configure at hc
          obtain ⟨lv, -, h2⟩ := ebind_ok.mp hc
          obtain rfl := Except.ok.inj h2
          exact quiet_configureLogger _ _ _ _ (quiet_configureLogger _ _ _ _ hw)
      | addOwn name level fmt =>
        intro n h hn
        have := hw n h hn
        by_cases e : n = name
        · subst e; simpa [step, World.setLogger] using this
        · simpa [step, World.setLogger, e] using this
      | remove name i =>
        intro n h hn
        have := hw n h hn
        by_cases e : n = name
        · subst e; simpa [step, World.setLogger] using this
        · simpa [step, World.setLogger, e] using this
  exact key es fresh (fun n h hn => by simp [fresh] at hn) n h hn

theorem loud_configureLogger (name : String) (level : Nat) (fmt : String) (w : World)
    (hw : ∀ n, w.ours n = none → (w.logger n).propagate = true) :
    ∀ n, (configureLogger name level fmt w).ours n = none → ((configureLogger name level fmt w).logger n).propagate = true := by
  intro n hn
  by_cases e : n = name
  · subst e
    cases ho : w.ours n with
    | some h => simp [configureLogger, ho, World.setLogger] at hn
    | none =>
      by_cases hh : (w.logger n).handlers = []
      · simp [configureLogger, ho, hh, World.setLogger] at hn
      · simpa [configureLogger, ho, hh, World.setLogger] using hw n ho
  · obtain ⟨h1, h2⟩ := configureLogger_other name level fmt w n e
    rw [h1]
    rw [h2] at hn
    exact hw n hn

/-- **C203 (passed on otherwise).**  After any history a logger that never got the library's handler still passes its records on, and
only the two loggers `modssc` and `bench` ever get one. -/
theorem C203_passed_on (clean : String → String) (es : List Event) (n : String) :
    ((run clean es).ours n = none → ((run clean es).logger n).propagate = true) ∧
    (n ≠ "modssc" → n ≠ "bench" → (run clean es).ours n = none) := by
  have key : ∀ (es : List Event) w, (∀ n, w.ours n = none → (w.logger n).propagate = true) →
      (∀ n, n ≠ "modssc" → n ≠ "bench" → w.ours n = none) →
      (∀ n, (es.foldl (step clean) w).ours n = none → ((es.foldl (step clean) w).logger n).propagate = true) ∧
      (∀ n, n ≠ "modssc" → n ≠ "bench" → (es.foldl (step clean) w).ours n = none) := by
    intro es
    induction es with
    | nil => exact fun _ h h' => ⟨h, h'⟩
    | cons e es ih =>
      intro w hw hw'
      cases e with
      | configure level fmt =>
        cases hc : configure clean level fmt w with
        | error e => exact ih _ (by simp only [step, hc]; exact hw) (by simp only [step, hc]; exact hw')
        | ok w' =>
          refine ih _ ?_ ?_
          · simp only [step, hc]
            unfold configure at hc
            obtain ⟨lv, -, h2⟩ := ebind_ok.mp hc
            obtain rfl := Except.ok.inj h2
            exact loud_configureLogger _ _ _ _ (loud_configureLogger _ _ _ _ hw)
          · simp only [step, hc]
            unfold configure at hc
            obtain ⟨lv, -, h2⟩ := ebind_ok.mp hc
            obtain rfl := Except.ok.inj h2
            intro n hm hb
            rw [(configureLogger_other _ _ _ _ n hb).2, (configureLogger_other _ _ _ _ n hm).2]
            exact hw' n hm hb
      | addOwn name level fmt =>
        refine ih _ (fun n hn => ?_) hw'
        have := hw n hn
        by_cases e : n = name
        · subst e; simpa [step, World.setLogger] using this
        · simpa [step, World.setLogger, e] using this
      | remove name i =>
        refine ih _ (fun n hn => ?_) hw'
        have := hw n hn
        by_cases e : n = name
        · subst e; simpa [step, World.setLogger] using this
        · simpa [step, World.setLogger, e] using this
  obtain ⟨a, b⟩ := key es fresh (fun n _ => rfl) (fun n _ _ => rfl)
  exact ⟨a n, b n⟩

/-- Non-vacuity: after configuring, a logger with a handler of its own still passes records on. -/
example : (run id [.addOwn "bench" 5 "f", .configure "full" none]).ours "bench" = none ∧
    ((run id [.addOwn "bench" 5 "f", .configure "full" none]).logger "bench").propagate = true := by
  decide +kernel

/-- **C203 (refused).**  An unknown level raises and changes nothing. -/
theorem C203_refused (clean : String → String) (w : World) (s : String) (fmt : Option String) (h : ∀ l, ¬ Means (clean s) l) :
    configure clean s fmt w = .error .valueError ∧ step clean w (.configure s fmt) = w := by
  have hp := (C203_names clean s).2 h
  have hc : configure clean s fmt w = .error .valueError := by
    unfold configure
    rw [hp]
    rfl
  refine ⟨hc, ?_⟩
  simp only [step, hc]

example : Means "quiet" .none ∧ ((run id [.configure "full" none, .configure "quiet" none]).logger "modssc").handlers = [0] ∧
    ((run id [.addOwn "bench" 5 "f", .configure "full" none]).logger "bench").handlers = [0] :=
  ⟨.inl ⟨rfl, .inr rfl⟩, by decide +kernel, by decide +kernel⟩

end ModSSC.Utils.Logging
