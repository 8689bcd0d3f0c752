import Verif.Sampling.StorageModel

/-!
# C16: saving and loading splits
-/

namespace ModSSC.Sampling.Storage
open ModSSC

variable {M : Type}

theorem stripPrefix_append (pre k : String) : stripPrefix pre (pre ++ k) = some k := by
  unfold stripPrefix
  rw [if_pos]
  · simp
  · simp

theorem stripPrefix_mask_idx (k : String) : stripPrefix "idx__" ("mask__" ++ k) = none := by
  unfold stripPrefix
  rw [if_neg]
  simp [List.isPrefixOf]

theorem fromArrays_append_idx (l : List (String × List Int)) (rest : List (String × Arr)) :
    fromArrays (l.map (fun p => ("idx__" ++ p.1, Arr.ints p.2)) ++ rest)
      = (l ++ (fromArrays rest).1, (fromArrays rest).2) := by
  induction l with
  | nil => rfl
  | cons a l ih => simp [fromArrays, ih, stripPrefix_append]

theorem fromArrays_masks (l : List (String × List Bool)) :
    fromArrays (l.map (fun p => ("mask__" ++ p.1, Arr.bools p.2))) = ([], l) := by
  induction l with
  | nil => rfl
  | cons a l ih => simp [fromArrays, ih, stripPrefix_append, stripPrefix_mask_idx]

theorem fromArrays_toArrays (r : Result M) : fromArrays (toArrays r) = (r.indices, r.masks) := by
  unfold toArrays
  rw [fromArrays_append_idx, fromArrays_masks]
  simp

/-- **C16 (round trip).** Whatever was in the directory before, once `save_split` has returned,
`load_split` returns exactly the saved result. -/
theorem C16_save_load (r : Result M) (overwrite : Bool) (d d' : Disk M)
    (h : save r overwrite d = .ok d') : load d' = .ok r := by
  unfold save saveCrash at h
  split at h
  · simp at h
  · obtain rfl := Except.ok.inj h
    simp [saveOps, Op.run, load, fromArrays_toArrays]

/-- **C16 (no clobbering).** Without `overwrite` an existing directory is refused before anything is
written, and with it (or for a new directory) saving always succeeds. -/
theorem C16_existing_refused (r : Result M) (overwrite : Bool) (n : Nat) (d : Disk M) :
    saveCrash r overwrite n d = .error .fileExists ↔ (d.dirExists = true ∧ overwrite = false) := by
  unfold saveCrash
  split
  · rename_i h; simp [h]
  · rename_i h; simp [h]

/-- **C16 (crash of a first save, partial).** If a save into a new directory is interrupted after any
number of operations, a later load fails or returns the complete result.  (Partial: overwriting is
missing, where the claim is false, see `C16_overwrite_violated`.) -/
theorem C16_fresh_crash_partial (r : Result M) (n : Nat) (overwrite : Bool) (d' : Disk M)
    (h : saveCrash r overwrite n {} = .ok d') :
    (∃ e, load d' = .error e) ∨ load d' = .ok r := by
  unfold saveCrash at h
  simp only [Bool.false_eq_true, false_and, if_false, Except.ok.injEq] at h
  subst h
  rcases n with _ | _ | _ | _ | _ | n <;>
    simp [saveOps, Op.run, load, fromArrays_toArrays]

/-- **C16 (crash while overwriting, partial).** Interrupting an overwriting save of `new` over a
complete `old` leaves exactly one of: `old`, a directory that fails to load, `new`, or the metadata
of `new` with the arrays of `old`; the last happens exactly between the two files (after three
operations). -/
theorem C16_overwrite_crash_partial (old new : Result M) (n : Nat) (d0 d d' : Disk M)
    (h0 : save old true d0 = .ok d) (h : saveCrash new true n d = .ok d') :
    (n < 3 ∧ load d' = .ok old) ∨ (n = 3 ∧ load d' = .ok { old with info := new.info }) ∨
    (n = 4 ∧ ∃ e, load d' = .error e) ∨ (5 ≤ n ∧ load d' = .ok new) := by
  unfold save saveCrash at h0
  simp only [Bool.true_eq_false, and_false, if_false, Except.ok.injEq] at h0
  subst h0
  unfold saveCrash at h
  simp only [Bool.true_eq_false, and_false, if_false, Except.ok.injEq] at h
  subst h
  rcases n with _ | _ | _ | _ | _ | n <;>
    simp [saveOps, Op.run, load, fromArrays_toArrays]

/-- **C16 violated.** A crash between the two files mixes two splits silently: `load_split` succeeds
and returns a result that is neither the old nor the new one. -/
theorem C16_overwrite_violated :
    ∃ (old new : Result Nat) (d d' : Disk Nat) (mixed : Result Nat), save old false {} = .ok d ∧
      saveCrash new true 3 d = .ok d' ∧ load d' = .ok mixed ∧ mixed ≠ old ∧ mixed ≠ new :=
  ⟨⟨1, [("train", [0, 1])], []⟩, ⟨2, [("train", [2, 3])], []⟩,
    ⟨true, none, some 1, some (.full [("idx__train", .ints [0, 1])])⟩,
    ⟨true, none, some 2, some (.full [("idx__train", .ints [0, 1])])⟩,
    ⟨2, [("train", [0, 1])], []⟩, by decide +kernel⟩

/-- **C16 (recovery).** After any crash, saving again with `overwrite=True` restores a directory that
loads exactly; without it the save is refused as soon as the directory was created. -/
theorem C16_recovery (r r' : Result M) (n : Nat) (hn : 1 ≤ n) (d d' d'' : Disk M) (ov : Bool)
    (h : saveCrash r ov n d = .ok d') :
    save r' false d' = .error .fileExists ∧
      (save r' true d' = .ok d'' → load d'' = .ok r') := by
  refine ⟨?_, C16_save_load r' true d' d''⟩
  unfold saveCrash at h
  split at h
  · simp at h
  · obtain rfl := Except.ok.inj h
    have : ((List.take n (saveOps r)).foldl (fun d op => op.run d) d).dirExists = true := by
      rcases n with _ | _ | _ | _ | _ | n
      · omega
      all_goals simp [saveOps, Op.run]
    unfold save saveCrash
    rw [if_pos ⟨this, rfl⟩]

example : ∃ d, save (M := Nat) ⟨7, [("train", [0, 2]), ("val", [1])], [("m", [true])]⟩ false {} = .ok d ∧
    load d = .ok ⟨7, [("train", [0, 2]), ("val", [1])], [("m", [true])]⟩ :=
  ⟨_, rfl, by decide +kernel⟩

end ModSSC.Sampling.Storage
