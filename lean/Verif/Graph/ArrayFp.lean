import Verif.Utils.JsonProps

/-!
# C74: what the fallback fingerprint of a feature matrix identifies

Model of `fingerprint_array` (graph/fingerprint.py:56-98), dense branch.
Not modelled: the branch for scipy sparse matrices (lines 69-83); `build_graph` never reaches it, as
it converts its input with `np.asarray` first.

Bytes are represented by the characters with codes 0 to 255; the `shape=..;dtype=..;` text is ASCII,
so its encoding is itself.
-/

namespace ModSSC.Graph
open ModSSC ModSSC.Json

/-- A dense array: its shape, the name of its dtype, and its bytes as seen through
`np.ascontiguousarray(a).view(np.uint8)` (fingerprint.py:85), split along the first axis of that view.
The view keeps the number of dimensions: for a matrix one item per row, for a one-dimensional array
one item per byte. -/
structure NdArray where
  shape : List Nat
  dtype : String
  raw : List (List Char)
deriving DecidableEq

/-- The number of items along the first axis of the byte view, and the bytes in each. -/
def viewDims (itemsize : Nat) : List Nat → Nat × Nat
  | [] => (itemsize, 1)
  | [n] => (n * itemsize, 1)
  | n :: rest => (n, rest.prod * itemsize)

/-- The bytes match the shape. -/
def NdArray.WellFormed (itemsize : String → Nat) (a : NdArray) : Prop :=
  a.raw.length = (viewDims (itemsize a.dtype) a.shape).1 ∧
  ∀ r ∈ a.raw, r.length = (viewDims (itemsize a.dtype) a.shape).2

/-- The rest of a tuple's text, after its first item. -/
def tupleRest : List Nat → List Char
  | [] => [')']
  | m :: l => ',' :: ' ' :: (natText m ++ tupleRest l)

/-- `str(shape)`: `()`, `(3,)`, `(3, 4)`, ... -/
def tupleText : List Nat → List Char
  | [] => ['(', ')']
  | [n] => '(' :: (natText n ++ [',', ')'])
  | n :: l => '(' :: (natText n ++ tupleRest l)

/-- `f"shape={a.shape};dtype={a.dtype};"` (fingerprint.py:84). -/
def metaText (a : NdArray) : List Char :=
  "shape=".toList ++ (tupleText a.shape ++ ';' :: ("dtype=".toList ++ (a.dtype.toList ++ [';'])))

/-- The bytes fed to the hash (fingerprint.py:85-103).  `raw.size` is the number of bytes, but
`raw[:max_bytes]` and `raw[-max_bytes:]` slice the first axis of the view. -/
def hashedBytes (maxBytes : Nat) (a : NdArray) : List Char :=
  if a.raw.flatten.length ≤ maxBytes then a.raw.flatten
  else (a.raw.take maxBytes).flatten ++
    (if maxBytes = 0 then a.raw else a.raw.drop (a.raw.length - maxBytes)).flatten

/-- `fingerprint_array` (fingerprint.py:56-98). -/
def fingerprintArray {H : Type} (hash : List Char → H) (maxBytes : Nat) (a : NdArray) : H :=
  hash (metaText a ++ hashedBytes maxBytes a)

/-! ### proofs -/

theorem natText_no (n : Nat) {c : Char} (hc : c ∉ ['0','1','2','3','4','5','6','7','8','9']) :
    c ∉ natText n := fun h => hc (natText_chars n c h)

/-- Texts of numbers followed by something that is not a digit split uniquely. -/
theorem natText_split {n m : Nat} {x y : List Char}
    (h : natText n ++ ',' :: x = natText m ++ ',' :: y) : n = m ∧ x = y := by
  obtain ⟨h1, h2⟩ := append_sep_inj (natText_no n (by decide)) (natText_no m (by decide)) h
  exact ⟨natText_inj h1, h2⟩

theorem natText_close {n m : Nat} {x y : List Char}
    (h : natText n ++ ')' :: x = natText m ++ ')' :: y) : n = m ∧ x = y := by
  obtain ⟨h1, h2⟩ := append_sep_inj (natText_no n (by decide)) (natText_no m (by decide)) h
  exact ⟨natText_inj h1, h2⟩

theorem natText_mixed {n m : Nat} {x y : List Char}
    (h : natText n ++ ')' :: x = natText m ++ ',' :: y) : False := by
  have aux : ∀ (a b x y : List Char), ')' ∉ b → ',' ∉ a → a ++ ')' :: x = b ++ ',' :: y → False := by
    intro a
    induction a with
    | nil =>
      intro b x y hb _ h
      cases b with
      | nil => simp at h
      | cons c b => obtain ⟨rfl, -⟩ := List.cons.inj h; simp at hb
    | cons d a ih =>
      intro b x y hb ha h
      cases b with
      | nil => obtain ⟨rfl, -⟩ := List.cons.inj h; simp at ha
      | cons c b =>
        exact ih b x y (by simp_all) (by simp_all) (List.cons.inj h).2
  exact aux _ _ _ _ (natText_no m (by decide)) (natText_no n (by decide)) h

theorem tupleRest_inj : ∀ (l m : List Nat), tupleRest l = tupleRest m → l = m
  | [], [], _ => rfl
  | [], _ :: _, h => by simp [tupleRest] at h
  | _ :: _, [], h => by simp [tupleRest] at h
  | a :: l, b :: m, h => by
    simp only [tupleRest, List.cons.injEq, true_and] at h
    cases l with
    | nil =>
      cases m with
      | nil => rw [(natText_close h).1]
      | cons c m => exact (natText_mixed h).elim
    | cons d l =>
      cases m with
      | nil => exact (natText_mixed h.symm).elim
      | cons c m =>
        obtain ⟨rfl, h2⟩ := natText_split h
        rw [tupleRest_inj (d :: l) (c :: m) (by simp [tupleRest] at h2 ⊢; exact h2)]

theorem tupleText_inj (l m : List Nat) (h : tupleText l = tupleText m) : l = m := by
  have hnil : ∀ (n : Nat) (x : List Char), natText n ++ x ≠ [')'] := by
    intro n x h
    have hne := natText_ne_nil n
    cases ht : natText n with
    | nil => exact hne ht
    | cons c t =>
      rw [ht] at h
      have : c ∈ natText n := by rw [ht]; simp
      have hc : c = ')' := by simpa using (List.cons.inj h).1
      exact natText_no n (by decide) (hc ▸ this)
  match l, m, h with
  | [], [], _ => rfl
  | [], [b], h => simp only [tupleText, List.cons.injEq, true_and] at h; exact (hnil _ _ h.symm).elim
  | [], b :: c :: m, h =>
    simp only [tupleText, List.cons.injEq, true_and] at h; exact (hnil _ _ h.symm).elim
  | [a], [], h => simp only [tupleText, List.cons.injEq, true_and] at h; exact (hnil _ _ h).elim
  | a :: d :: l, [], h =>
    simp only [tupleText, List.cons.injEq, true_and] at h; exact (hnil _ _ h).elim
  | [a], [b], h =>
    simp only [tupleText, List.cons.injEq, true_and] at h
    rw [(natText_split h).1]
  | [a], b :: c :: m, h =>
    simp only [tupleText, tupleRest, List.cons.injEq, true_and] at h
    have := (natText_split h).2
    simp at this
  | a :: d :: l, [b], h =>
    simp only [tupleText, tupleRest, List.cons.injEq, true_and] at h
    have := (natText_split h).2
    simp at this
  | a :: d :: l, b :: c :: m, h =>
    simp only [tupleText, List.cons.injEq, true_and] at h
    have h' := h
    simp only [tupleRest] at h'
    obtain ⟨rfl, h2⟩ := natText_split h'
    rw [tupleRest_inj (d :: l) (c :: m) (by simp only [tupleRest]; rw [h2])]

theorem tupleText_no_semicolon (l : List Nat) : ';' ∉ tupleText l := by
  have hr : ∀ l, ';' ∉ tupleRest l := by
    intro l
    induction l with
    | nil => decide
    | cons a l ih =>
      have := natText_no a (c := ';') (by decide)
      simp [tupleRest, ih, this]
  match l with
  | [] => decide
  | [a] =>
    have := natText_no a (c := ';') (by decide)
    simp [tupleText, this]
  | a :: b :: l =>
    have := natText_no a (c := ';') (by decide)
    have := hr (b :: l)
    simp_all [tupleText]

theorem flatten_inj {w : Nat} : ∀ (l m : List (List Char)), (∀ r ∈ l, r.length = w) → (∀ r ∈ m, r.length = w) →
    l.length = m.length → l.flatten = m.flatten → l = m
  | [], [], _, _, _, _ => rfl
  | [], _ :: _, _, _, h, _ => by simp at h
  | _ :: _, [], _, _, h, _ => by simp at h
  | a :: l, b :: m, h1, h2, h3, h4 => by
    simp only [List.flatten_cons] at h4
    obtain ⟨rfl, h5⟩ := List.append_inj h4
      (by rw [h1 a (List.mem_cons_self ..), h2 b (List.mem_cons_self ..)])
    rw [flatten_inj l m (fun r hr => h1 r (List.mem_cons_of_mem _ hr))
      (fun r hr => h2 r (List.mem_cons_of_mem _ hr)) (by simpa using h3) h5]

theorem flatten_length {w : Nat} (l : List (List Char)) (h : ∀ r ∈ l, r.length = w) :
    l.flatten.length = l.length * w := by
  induction l with
  | nil => simp
  | cons a l ih =>
    rw [List.flatten_cons, List.length_append, ih (fun r hr => h r (List.mem_cons_of_mem _ hr)),
      h a (List.mem_cons_self ..), List.length_cons, Nat.succ_mul, Nat.add_comm]

/-- **C74, partial.**  With a collision-free hash, the fingerprint identifies the array -- shape,
dtype and every byte -- if the first axis of its byte view has at most `2 * max_bytes` items: at most
four million rows for a matrix with the default `max_bytes` (for one-dimensional arrays, four million
bytes).  Dtype names contain no semicolon.  Missing: larger arrays, for which the claim is false
(`C74_large_violated`). -/
theorem C74_identifies_partial {H : Type} (hash : List Char → H) (hh : Function.Injective hash)
    (itemsize : String → Nat) (maxBytes : Nat) (a b : NdArray)
    (ha : a.WellFormed itemsize) (hb : b.WellFormed itemsize)
    (hda : ';' ∉ a.dtype.toList) (hdb : ';' ∉ b.dtype.toList)
    (hsmall : a.raw.length ≤ 2 * maxBytes)
    (h : fingerprintArray hash maxBytes a = fingerprintArray hash maxBytes b) : a = b := by
  have h := hh h
  unfold metaText at h
  simp only [List.append_assoc, List.cons_append] at h
  obtain ⟨e1, h⟩ := append_sep_inj (tupleText_no_semicolon _) (tupleText_no_semicolon _)
    (List.append_cancel_left h)
  obtain ⟨e2, h⟩ := append_sep_inj hda hdb (List.append_cancel_left h)
  have f1 := tupleText_inj _ _ e1
  have f2 := String.toList_inj.mp e2
  obtain ⟨sa, da, ra⟩ := a
  obtain ⟨sb, db, rb⟩ := b
  simp only at f1 f2
  subst f1
  subst f2
  obtain ⟨la, wa⟩ := ha
  obtain ⟨lb, wb⟩ := hb
  simp only at la lb wa wb hsmall
  have hlen : ra.length = rb.length := la.trans lb.symm
  have hfl : ra.flatten.length = rb.flatten.length := by
    rw [flatten_length ra wa, flatten_length rb wb, hlen]
  suffices ra = rb by rw [this]
  unfold hashedBytes at h
  simp only [List.nil_append] at h
  by_cases hm : ra.flatten.length ≤ maxBytes
  · rw [if_pos hm, if_pos (by omega)] at h
    exact flatten_inj ra rb wa wb hlen h
  · rw [if_neg hm, if_neg (show ¬ rb.flatten.length ≤ maxBytes by omega)] at h
    by_cases hz : maxBytes = 0
    · subst hz
      have h1 : ra = [] := List.length_eq_zero_iff.mp (by omega)
      have h2 : rb = [] := List.length_eq_zero_iff.mp (by omega)
      rw [h1, h2]
    rw [if_neg hz, if_neg hz] at h
    have t1 : ∀ r ∈ ra.take maxBytes, r.length = _ := fun r hr => wa r (List.mem_of_mem_take hr)
    have t2 : ∀ r ∈ rb.take maxBytes, r.length = _ := fun r hr => wb r (List.mem_of_mem_take hr)
    have d1 : ∀ r ∈ ra.drop (ra.length - maxBytes), r.length = _ :=
      fun r hr => wa r (List.mem_of_mem_drop hr)
    have d2 : ∀ r ∈ rb.drop (rb.length - maxBytes), r.length = _ :=
      fun r hr => wb r (List.mem_of_mem_drop hr)
    have tl : (ra.take maxBytes).length = (rb.take maxBytes).length := by simp [hlen]
    obtain ⟨h1, h2⟩ := List.append_inj h (by rw [flatten_length _ t1, flatten_length _ t2, tl])
    have p1 := flatten_inj _ _ t1 t2 tl h1
    have p2 := flatten_inj _ _ d1 d2 (by simp [hlen]) h2
    refine List.ext_getElem? fun i => ?_
    by_cases hi : i < maxBytes
    · have := congrArg (fun l => l[i]?) p1
      simpa [List.getElem?_take, hi] using this
    · have := congrArg (fun l => l[i - (ra.length - maxBytes)]?) p2
      rw [← hlen] at this
      simp only [List.getElem?_drop] at this
      rw [show ra.length - maxBytes + (i - (ra.length - maxBytes)) = i by omega] at this
      exact this

/-- A single-column matrix of bytes with `2 * max + 1` rows, zero except in the middle row. -/
def spike (maxBytes : Nat) (c : Char) : NdArray :=
  ⟨[2 * maxBytes + 1, 1], "uint8",
    List.replicate maxBytes ['\x00'] ++ [c] :: List.replicate maxBytes ['\x00']⟩

/-- **C74 is false for large arrays**: for every positive `max_bytes` and every hash function there
are two different matrices with `2 * max_bytes + 1` rows, same shape and dtype, with the same
fingerprint (they differ in the middle row, which is not hashed). -/
theorem C74_large_violated {H : Type} (hash : List Char → H) (maxBytes : Nat) (hm : 0 < maxBytes) :
    ∃ a b : NdArray, a.WellFormed (fun _ => 1) ∧ b.WellFormed (fun _ => 1) ∧ a.shape = b.shape ∧
      a.dtype = b.dtype ∧ a.raw.length = 2 * maxBytes + 1 ∧ a ≠ b ∧
      fingerprintArray hash maxBytes a = fingerprintArray hash maxBytes b := by
  have hwf : ∀ c, (spike maxBytes c).WellFormed (fun _ => 1) := by
    intro c
    refine ⟨?_, ?_⟩
    · simp [spike, viewDims]; omega
    · intro r hr
      simp only [spike, List.mem_append, List.mem_cons, List.mem_replicate] at hr
      rcases hr with ⟨-, rfl⟩ | rfl | ⟨-, rfl⟩ <;> simp [spike, viewDims]
  have hbytes : ∀ c, hashedBytes maxBytes (spike maxBytes c)
      = (List.replicate maxBytes ['\x00']).flatten ++ (List.replicate maxBytes ['\x00']).flatten := by
    intro c
    have hlen : (spike maxBytes c).raw.length = 2 * maxBytes + 1 := (hwf c).1
    have hfl : (spike maxBytes c).raw.flatten.length = 2 * maxBytes + 1 := by
      rw [flatten_length _ (hwf c).2, hlen]
      simp [spike, viewDims]
    unfold hashedBytes
    rw [if_neg (by omega), if_neg (by omega), hlen]
    simp only [spike]
    rw [List.take_left' (by simp)]
    congr 2
    rw [show 2 * maxBytes + 1 - maxBytes = maxBytes + 1 by omega, ← List.drop_drop,
      List.drop_left' (by simp)]
    rfl
  refine ⟨spike maxBytes '\x00', spike maxBytes '\x01', hwf _, hwf _, rfl, rfl, (hwf _).1, ?_, ?_⟩
  · intro h
    have := congrArg (fun a => a.raw[maxBytes]?) h
    simp [spike] at this
  · unfold fingerprintArray
    rw [hbytes, hbytes]
    rfl

example : NdArray.WellFormed (fun _ => 2) ⟨[2, 3], "int16", [['a','b','c','d','e','f'], ['g','h','i','j','k','l']]⟩ := by
  refine ⟨rfl, ?_⟩
  decide

example : (⟨[2, 3], "int16", [['a','b','c','d','e','f'], ['g','h','i','j','k','l']]⟩ : NdArray).raw.length
    ≤ 2 * 2000000 ∧ ';' ∉ "int16".toList := by decide

end ModSSC.Graph
