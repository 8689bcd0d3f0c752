import Verif.Preprocess.EncodeModel
import Verif.ExceptLemmas
import Verif.IntRepr
import Mathlib.Tactic.Linarith
import Mathlib.Tactic.Tauto
import Mathlib.Data.List.Basic
import Mathlib.Data.List.Range

/-!
# Embedding steps (C150)
-/

namespace ModSSC.Encode
open ModSSC

theorem flatten_batches {A : Type} (xs : List A) (b m : Nat) :
    ((List.range m).map fun i => (xs.drop (i * b)).take b).flatten = xs.take (m * b) := by
  induction m with
  | zero => simp
  | succ m ih =>
    rw [List.range_succ, List.map_append, List.flatten_append, ih, Nat.add_mul, Nat.one_mul, List.take_add]
    simp

theorem batches_pos {A : Type} (bs : Int) (hb : 0 < bs) (xs : List A) :
    ∃ bsl, batches bs xs = .ok bsl ∧ bsl.flatten = xs ∧ (xs ≠ [] → bsl ≠ []) := by
  refine ⟨_, by rw [batches, if_neg (by omega), if_neg (by omega)], ?_, ?_⟩
  · rw [flatten_batches]
    apply List.take_of_length_le
    have hpos : 0 < bs.toNat := by omega
    have h1 := Nat.div_add_mod (xs.length + bs.toNat - 1) bs.toNat
    have h2 := Nat.mod_lt (xs.length + bs.toNat - 1) hpos
    rw [Nat.mul_comm]
    omega
  · intro hne h
    rw [List.map_eq_nil_iff, List.range_eq_nil] at h
    have hpos : 0 < bs.toNat := by omega
    have : 0 < xs.length := List.length_pos_iff.mpr hne
    have := Nat.div_pos (a := xs.length + bs.toNat - 1) (b := bs.toNat) (by omega) hpos
    omega

theorem flatten_map_net {A R : Type} (net : List A → List R) (f : A → R) (hnet : ∀ b, net b = b.map f) (bsl : List (List A)) :
    (bsl.map net).flatten = bsl.flatten.map f := by
  rw [List.map_flatten]
  congr 1
  exact List.map_congr_left fun b _ => hnet b

/-- C150 (partial: lists and arrays with four axes, batch size at least 1): the image encoders give exactly one row per image, in
order, whatever the batch size, provided the network treats the images of a batch independently. -/
theorem C150_rows_partial {A R : Type} (o : ArrOps A) (net : List A → List R) (f : A → R) (hnet : ∀ b, net b = b.map f) (bs : Int) (hb : 0 < bs) :
    (∀ xs, clipEncode o net bs (.list xs) = .ok (xs.map f) ∧ tvEncode o net bs (.list xs) = .ok (xs.map f)) ∧
    (∀ a, (o.shape a).length = 4 →
      clipEncode o net bs (.arr a) = .ok ((o.rows a).map f) ∧ tvEncode o net bs (.arr a) = .ok ((o.rows a).map f)) := by
  have hclip : ∀ X, clipEncode o net bs X = .ok ((clipSamples o X).map f) := by
    intro X
    obtain ⟨bsl, h1, h2, -⟩ := batches_pos bs hb (clipSamples o X)
    unfold clipEncode
    rw [h1]
    change Except.ok (bsl.map net).flatten = _
    rw [flatten_map_net net f hnet, h2]
  have htv : ∀ X, tvEncode o net bs X = .ok ((tvSamples o X).map f) := by
    intro X
    unfold tvEncode
    simp only
    split
    · rename_i h; rw [h]; rfl
    · rename_i h
      obtain ⟨bsl, h1, h2, h3⟩ := batches_pos bs hb (tvSamples o X)
      rw [h1]
      simp only [bind, Except.bind]
      rw [if_neg (h3 h), flatten_map_net net f hnet, h2]
  refine ⟨fun xs => ⟨hclip _, htv _⟩, fun a ha => ⟨?_, ?_⟩⟩
  · rw [hclip]; simp [clipSamples, ha]
  · rw [htv]; simp [tvSamples, ha]

/-- C150 is violated for `N` grey images `(N, H, W)`: OpenCLIP always makes one row of them. -/
theorem C150_grey_clip_violated {A R : Type} (o : ArrOps A) (net : List A → List R) (f : A → R) (hnet : ∀ b, net b = b.map f) (bs : Int)
    (hb : 0 < bs) (a : A) (n h w : Nat) (ha : o.shape a = [n, h, w]) : clipEncode o net bs (.arr a) = .ok [f a] := by
  obtain ⟨bsl, h1, h2, -⟩ := batches_pos bs hb (clipSamples o (.arr a))
  have hs : clipSamples o (.arr a) = [a] := by simp [clipSamples, ha]
  unfold clipEncode
  rw [h1]
  change Except.ok (bsl.map net).flatten = _
  rw [flatten_map_net net f hnet, h2, hs]
  rfl

/-- C150 for `N` grey images: the torchvision encoder makes one row each unless `N` or `W` is 1, 3 or 4; then it is violated, all
are taken for one image. -/
theorem C150_grey_torchvision_violated {A R : Type} (o : ArrOps A) (net : List A → List R) (f : A → R) (hnet : ∀ b, net b = b.map f) (bs : Int)
    (hb : 0 < bs) (a : A) (n h w : Nat) (ha : o.shape a = [n, h, w]) :
    (n ∉ [1, 3, 4] → w ∉ [1, 3, 4] → tvEncode o net bs (.arr a) = .ok ((o.rows a).map f)) ∧
    (n ∈ [1, 3, 4] ∨ w ∈ [1, 3, 4] → tvEncode o net bs (.arr a) = .ok [f a]) := by
  have htv : tvEncode o net bs (.arr a) = .ok ((tvSamples o (.arr a)).map f) := by
    unfold tvEncode
    simp only
    split
    · rename_i h; rw [h]; rfl
    · rename_i h
      obtain ⟨bsl, h1, h2, h3⟩ := batches_pos bs hb (tvSamples o (.arr a))
      rw [h1]
      simp only [bind, Except.bind]
      rw [if_neg (h3 h), flatten_map_net net f hnet, h2]
  rw [htv]
  constructor
  · intro hn hw
    have : isSingle3 [n, h, w] = false := by
      simp only [isSingle3]
      rw [decide_eq_false hn, decide_eq_false hw]; rfl
    simp only [tvSamples, ha, this]
    simp
  · intro hor
    have : isSingle3 [n, h, w] = true := by
      simp only [isSingle3]
      by_cases hw : w ∈ [1, 3, 4]
      · rw [decide_eq_true hw]; simp
      · rw [decide_eq_true (hor.resolve_right hw), decide_eq_false hw]; rfl
    simp only [tvSamples, ha, this]
    simp

/-- C150 is violated for batch sizes below 1: 0 is a `ValueError`, and with a negative one OpenCLIP returns no row at all for
any images, torchvision fails. -/
theorem C150_batch_size_violated {A R : Type} (o : ArrOps A) (net : List A → List R) (xs : List A) (hne : xs ≠ []) (bs : Int) :
    clipEncode o net 0 (.list xs) = .error .valueError ∧ tvEncode o net 0 (.list xs) = .error .valueError ∧
    (bs < 0 → clipEncode o net bs (.list xs) = .ok [] ∧ tvEncode o net bs (.list xs) = .error .valueError) := by
  refine ⟨rfl, by simp [tvEncode, tvSamples, hne, batches, bind, Except.bind], fun h => ?_⟩
  have h0 : ¬ bs = 0 := by omega
  constructor
  · simp [clipEncode, clipSamples, batches, h, h0, bind, Except.bind, pure, Except.pure]
  · simp [tvEncode, tvSamples, hne, batches, h, h0, bind, Except.bind]

theorem toDigits_mem (n : Nat) : ∀ c ∈ Nat.toDigits 10 n, ∃ k < 10, c = Nat.digitChar k := by
  induction n using Nat.strong_induction_on with
  | _ n ih =>
    intro c hc
    by_cases h : n < 10
    · rw [Nat.toDigits_of_lt_base h] at hc
      exact ⟨n, h, by simpa using hc⟩
    · rw [Nat.toDigits_of_base_le (by omega) (by omega)] at hc
      rcases List.mem_append.mp hc with hc | hc
      · exact ih (n / 10) (by omega) c hc
      · exact ⟨n % 10, by omega, by simpa using hc⟩

theorem digitByte : ∀ k < 10, UInt8.ofNat (Nat.digitChar k).toNat ≠ bar := by decide +kernel

theorem digitByte_inj : ∀ a < 10, ∀ b < 10, UInt8.ofNat (Nat.digitChar a).toNat = UInt8.ofNat (Nat.digitChar b).toNat → Nat.digitChar a = Nat.digitChar b := by
  decide +kernel

theorem bar_notMem_digits (i : Nat) : bar ∉ digits i := by
  intro h
  obtain ⟨c, hc, he⟩ := List.mem_map.mp h
  obtain ⟨k, hk, rfl⟩ := toDigits_mem i c hc
  exact digitByte k hk he

theorem map_inj_on {α β : Type} (f : α → β) : ∀ (l l' : List α), (∀ a ∈ l, ∀ b ∈ l', f a = f b → a = b) → l.map f = l'.map f → l = l'
  | [], [], _, _ => rfl
  | [], _ :: _, _, h => by simp at h
  | _ :: _, [], _, h => by simp at h
  | a :: l, b :: l', hi, h => by
    simp only [List.map_cons, List.cons.injEq] at h
    rw [hi a List.mem_cons_self b List.mem_cons_self h.1,
      map_inj_on f l l' (fun x hx y hy => hi x (List.mem_cons_of_mem _ hx) y (List.mem_cons_of_mem _ hy)) h.2]

theorem digits_inj (i j : Nat) (h : digits i = digits j) : i = j := by
  refine toDigits_inj i j (map_inj_on _ _ _ ?_ h)
  intro a ha b hb he
  obtain ⟨k, hk, rfl⟩ := toDigits_mem i a ha
  obtain ⟨l, hl, rfl⟩ := toDigits_mem j b hb
  exact digitByte_inj k hk l hl he

theorem bar_split (a b x y : List UInt8) (hx : bar ∉ x) (hy : bar ∉ y) (h : a ++ bar :: x = b ++ bar :: y) : a = b ∧ x = y := by
  rcases List.append_eq_append_iff.mp h with ⟨c, h1, h2⟩ | ⟨c, h1, h2⟩
  · cases c with
    | nil => simp at h1 h2; exact ⟨h1.symm, h2⟩
    | cons z c =>
      simp only [List.cons_append, List.cons.injEq] at h2
      exact absurd (h2.2 ▸ List.mem_append_right c List.mem_cons_self) hx
  · cases c with
    | nil => simp at h1 h2; exact ⟨h1, h2.symm⟩
    | cons z c =>
      simp only [List.cons_append, List.cons.injEq] at h2
      exact absurd (h2.2 ▸ List.mem_append_right c List.mem_cons_self) hy

/-- C150: the stub encoder gives one row per sample, in order; batch size and generator do not matter; what is hashed for a row
is determined by the sample and its position, and determines both the position and the bytes looked at. -/
theorem C150_stub {R σ : Type} (row : List UInt8 → R) (bs bs' : Int) (g g' : σ) (xs : List Sample) :
    (stubEncode row bs g xs).length = xs.length ∧ stubEncode row bs g xs = stubEncode row bs' g' xs ∧
    (∀ (i : Nat) (s : Sample), xs[i]? = some s → (stubEncode row bs g xs)[i]? = some (row (stubKey i s))) ∧
    ∀ i j s t, stubKey i s = stubKey j t → i = j ∧ sampleBytes s = sampleBytes t := by
  refine ⟨by simp [stubEncode], rfl, ?_, ?_⟩
  · intro i s hi
    simp [stubEncode, List.getElem?_mapIdx, hi]
  · intro i j s t h
    simp only [stubKey, List.append_assoc, List.singleton_append] at h
    obtain ⟨h1, h2⟩ := bar_split _ _ _ _ (bar_notMem_digits i) (bar_notMem_digits j) h
    exact ⟨digits_inj i j h2, h1⟩

/-- C150 is violated by the stub encoder: the same sample gets unrelated rows at different positions (the hashed bytes always
differ), so reordering the samples does not reorder the rows. -/
theorem C150_stub_position_violated (s : Sample) :
    (∀ i j, i ≠ j → stubKey i s ≠ stubKey j s) ∧
    ∃ row : List UInt8 → List UInt8, ∀ bs : Int, ∃ r0 r1, stubEncode row bs () [s, s] = [r0, r1] ∧ r0 ≠ r1 := by
  have h : ∀ i j, i ≠ j → stubKey i s ≠ stubKey j s := by
    intro i j hij h
    simp only [stubKey, List.append_assoc, List.singleton_append] at h
    exact hij (digits_inj i j (bar_split _ _ _ _ (bar_notMem_digits i) (bar_notMem_digits j) h).2)
  exact ⟨h, id, fun _ => ⟨_, _, rfl, h 0 1 (by decide)⟩⟩

/-- C150 is violated by the stub encoder for large arrays: only the first 1024 bytes are looked at. -/
theorem C150_stub_head_violated {R σ : Type} (row : List UInt8 → R) (bs : Int) (g : σ) (h d d' : List UInt8) (hd : d.take 1024 = d'.take 1024)
    (pre post : List Sample) :
    stubEncode row bs g (pre ++ .array h d :: post) = stubEncode row bs g (pre ++ .array h d' :: post) := by
  unfold stubEncode
  rw [List.mapIdx_append, List.mapIdx_append, List.mapIdx_cons, List.mapIdx_cons]
  simp [stubKey, sampleBytes, hd]

/-- How often the device changes in a history that starts with device `d`. -/
def Spec.changes (d : Option String) : List (String × Option String) → Nat
  | [] => 0
  | (_, d') :: cs => (if d = d' then 0 else 1) + Spec.changes d' cs

theorem runCached_some {E : Type} (load : String → Option String → E) (m0 : String) :
    ∀ (cs : List (String × Option String)) (d : Option String), (∀ c ∈ cs, c.1 = m0) →
      (runCached load ⟨some (load m0 d), d⟩ cs).1 = cs.map (fun c => load c.1 c.2) ∧
      (runCached load ⟨some (load m0 d), d⟩ cs).2 = Spec.changes d cs
  | [], d, _ => ⟨rfl, rfl⟩
  | (m, d') :: cs, d, h => by
    have hm : m = m0 := h (m, d') List.mem_cons_self
    subst hm
    have hrest := fun c hc => h c (List.mem_cons_of_mem _ hc)
    by_cases hd : d = d'
    · subst hd
      obtain ⟨i1, i2⟩ := runCached_some load m cs d hrest
      simp [runCached, getCached, Spec.changes, i1, i2]
    · obtain ⟨i1, i2⟩ := runCached_some load m cs d' hrest
      simp [runCached, getCached, Spec.changes, i1, i2, hd]

/-- C150 (partial: the model stays the same): in every history of transforms each uses the encoder of its model and device, and the
encoder is loaded once at the start and once for each change of device. -/
theorem C150_cache_partial {E : Type} (load : String → Option String → E) (m0 : String) (d0 : Option String) (cs : List (String × Option String))
    (h : ∀ c ∈ cs, c.1 = m0) :
    (runCached load ⟨none, none⟩ ((m0, d0) :: cs)).1 = ((m0, d0) :: cs).map (fun c => load c.1 c.2) ∧
    (runCached load ⟨none, none⟩ ((m0, d0) :: cs)).2 = 1 + Spec.changes d0 cs := by
  obtain ⟨i1, i2⟩ := runCached_some load m0 cs d0 h
  simp [runCached, getCached, i1, i2]

/-- C150 is violated when `model_id` changes on a used step: the old encoder goes on being used. -/
theorem C150_cache_model_violated {E : Type} (load : String → Option String → E) (m m' : String) (d : Option String) :
    (runCached load ⟨none, none⟩ [(m, d), (m', d)]).1 = [load m d, load m d] := by
  simp [runCached, getCached]

/-- C150: what `embeddings.auto` takes the input for.  Text: the first value is a string, but not the name of an audio file (or bytes
in a numpy array of bytes).  Images: any other array with 3 or 4 axes.  Audio: the first value names an audio file or is a sequence with
one or two axes.  All else is used as numbers. -/
theorem C150_auto (r : Raw) :
    (autoRoute r = .text ↔ r.first = .str false ∨ (r.isArray = true ∧ r.textDtype = true ∧ r.nonEmpty = true ∧
      (r.first = .other ∨ r.first = .pathLike false ∨ ∃ n, r.first = .seq n))) ∧
    (autoRoute r = .vision ↔ autoRoute r ≠ .text ∧ r.isArray = true ∧ (r.ndim = 3 ∨ r.ndim = 4)) ∧
    (autoRoute r = .audio ↔ autoRoute r ≠ .text ∧ autoRoute r ≠ .vision ∧
      (r.first = .str true ∨ r.first = .pathLike true ∨ r.first = .seq 1 ∨ r.first = .seq 2)) := by
  obtain ⟨ia, nd, td, ne, f⟩ := r
  have hv : looksImages ⟨ia, nd, td, ne, f⟩ = true ↔ ia = true ∧ (nd = 3 ∨ nd = 4) := by simp [looksImages]
  have ha : looksAudio ⟨ia, nd, td, ne, f⟩ = true ↔ (f = .str true ∨ f = .pathLike true ∨ f = .seq 1 ∨ f = .seq 2) := by
    cases f with
    | str b => cases b <;> simp [looksAudio, isAudioPath]
    | pathLike b => cases b <;> simp [looksAudio, isAudioPath]
    | _ => simp [looksAudio, isAudioPath]
  have ht : looksText ⟨ia, nd, td, ne, f⟩ = true ↔ f = .str false ∨ (ia = true ∧ td = true ∧ ne = true ∧
      (f = .other ∨ f = .pathLike false ∨ ∃ n, f = .seq n)) := by
    cases f <;> simp [looksText, isAudioPath]
    all_goals tauto
  unfold autoRoute
  simp only [← ht, ← hv, ← ha]
  cases looksText ⟨ia, nd, td, ne, f⟩ <;> cases looksImages ⟨ia, nd, td, ne, f⟩ <;> cases looksAudio ⟨ia, nd, td, ne, f⟩ <;> simp

/-- C150 is violated for tables of numbers: given as a list of lists (or of rows) they are sent to the audio encoder, given as an
array they are used as they are. -/
theorem C150_auto_table_violated :
    autoRoute ⟨false, 2, false, true, .seq 1⟩ = .audio ∧ autoRoute ⟨true, 2, false, true, .other⟩ = .numeric := by decide

example : batches 2 [1, 2, 3, 4, 5] = .ok [[1, 2], [3, 4], [5]] := by decide +kernel
example : stubKey 12 (.str [65]) = [65, 124, 49, 50] := by decide +kernel
example : clipEncode (A := List Nat) ⟨fun _ => [5, 28, 28], fun a => a.map fun x => [x]⟩ (fun b => b) 2 (.arr [1, 2, 3, 4, 5]) = .ok [[1, 2, 3, 4, 5]] := by
  decide +kernel
example : (runCached (fun m d => (m, d)) ⟨none, none⟩ [("a", none), ("a", none), ("a", some "cuda"), ("a", some "cuda")]).2 = 2 := by decide +kernel

end ModSSC.Encode
