import Verif.Lemmas.ExtremaSpec
import Mathlib.Algebra.Order.Floor.Ring

/-!
# Mirroring of extrema in simple mode
-/

set_option linter.unusedSectionVars false

namespace PyEMD

/-! ## Indexing with integers -/

theorem pyGet_int {β : Type} (l : List β) (i : Int) (d : β) (h0 : 0 ≤ i) (h1 : i < l.length) :
    pyGet l i = .ok (l.getD i.toNat d) := by
  obtain ⟨k, rfl⟩ := Int.eq_ofNat_of_zero_le h0
  rw [pyGet_nat l k (by omega), Int.toNat_natCast, getD_lt _ _ _ (by omega)]

theorem pyGet_cons {β : Type} (a : β) (l : List β) : pyGet (a :: l) 0 = .ok a := by
  rw [pyGet_zero _ (by simp)]; rfl

theorem pyGet_last {β : Type} (l : List β) (h : l ≠ []) : pyGet l (-1) = .ok (l.getLast h) := by
  have hl : 0 < l.length := List.length_pos_of_ne_nil h
  unfold pyGet pyIdx
  rw [if_neg (by omega), if_pos (by omega)]
  have e : (-1 + (l.length : Int)).toNat = l.length - 1 := by omega
  simp only [e]
  rw [List.getElem?_eq_getElem (by omega), List.getLast_eq_getElem]

theorem pyTake_int {β : Type} (l : List β) (idx : List Int) (d : β) (h : ∀ i ∈ idx, 0 ≤ i ∧ i < l.length) :
    pyTake l idx = .ok (idx.map (fun i => l.getD i.toNat d)) := by
  induction idx with
  | nil => rfl
  | cons i is ih =>
    unfold pyTake
    rw [pyGet_int l i d (h i (by simp)).1 (h i (by simp)).2, ih (fun j hj => h j (by simp [hj]))]
    rfl

theorem mem_pySlice {β : Type} {l : List β} {a b : Int} {x : β} (h : x ∈ pySlice l a b) : x ∈ l :=
  List.mem_of_mem_take (List.mem_of_mem_drop h)

theorem mem_pySliceFrom {β : Type} {l : List β} {a : Int} {x : β} (h : x ∈ pySliceFrom l a) : x ∈ l :=
  List.mem_of_mem_drop h

theorem pySlice_sublist {β : Type} (l : List β) (a b : Int) : (pySlice l a b).Sublist l :=
  (List.drop_sublist _ _).trans (List.take_sublist _ _)

theorem pySliceFrom_sublist {β : Type} (l : List β) (a : Int) : (pySliceFrom l a).Sublist l :=
  List.drop_sublist _ _

theorem mem_pySlice_tail {β : Type} {a : β} {l : List β} {b : Int} {x : β} (hb : 0 ≤ b) (h : x ∈ pySlice (a :: l) 1 b) : x ∈ l := by
  unfold pySlice at h
  have : sliceBound (a :: l).length 1 = 1 := by simp [sliceBound]
  rw [this, List.drop_take] at h
  simpa using List.mem_of_mem_take h

theorem mem_pySlice_dropLast {β : Type} {l : List β} {b : Int} {x : β} (h : x ∈ pySlice l b (-1)) : x ∈ l.dropLast := by
  unfold pySlice at h
  have e : sliceBound l.length (-1) = l.length - 1 := by
    unfold sliceBound
    rw [if_pos (by omega)]
    omega
  rw [e] at h
  rw [List.dropLast_eq_take]
  exact List.mem_of_mem_drop h

theorem pySlice_ne_nil {β : Type} {l : List β} {a b : Int} (ha : 0 ≤ a) (hab : a < b) (hb : b ≤ l.length) :
    pySlice l a b ≠ [] := by
  intro h
  have := congrArg List.length h
  unfold pySlice sliceBound at this
  rw [if_neg (by omega), if_neg (by omega)] at this
  simp only [List.length_drop, List.length_take, List.length_nil] at this
  omega

theorem pySlice_dropLast_ne_nil {β : Type} {l : List β} {a : Int} (ha : 0 ≤ a) (hab : a + 1 < l.length) :
    pySlice l a (-1) ≠ [] := by
  intro h
  have := congrArg List.length h
  unfold pySlice sliceBound at this
  rw [if_neg (by omega), if_pos (by omega)] at this
  simp only [List.length_drop, List.length_take, List.length_nil] at this
  omega

theorem pySliceFrom_ne_nil {β : Type} {l : List β} {a : Int} (ha : 0 ≤ a) (hab : a < l.length) :
    pySliceFrom l a ≠ [] := by
  intro h
  have := congrArg List.length h
  unfold pySliceFrom sliceBound at this
  rw [if_neg (by omega)] at this
  simp only [List.length_drop, List.length_nil] at this
  omega

theorem reverse_dec {l m : List Int} (hs : l.Pairwise (· < ·)) (h : m.Sublist l) : m.reverse.Pairwise (· > ·) := by
  rw [List.pairwise_reverse]
  exact hs.sublist h

namespace EMD

variable {K : Type} [Field K] [LinearOrder K] [IsStrictOrderedRing K] [FloorRing K]

/-- The time array 0, 1, ..., n-1. -/
def timeArr (n : Nat) : List K := (List.range n).map (fun k : Nat => (k : K))

theorem timeArr_length (n : Nat) : (timeArr n : List K).length = n := by simp [timeArr]

theorem timeArr_getD (n : Nat) (i : Int) (h0 : 0 ≤ i) (h1 : i < n) : (timeArr n : List K).getD i.toNat 0 = (i : K) := by
  rw [getD_lt _ _ _ (by rw [timeArr_length]; omega)]
  obtain ⟨k, rfl⟩ := Int.eq_ofNat_of_zero_le h0
  simp [timeArr]

theorem pyGet_timeArr (n : Nat) (i : Int) (h0 : 0 ≤ i) (h1 : i < n) : pyGet (timeArr n : List K) i = .ok (i : K) := by
  rw [pyGet_int _ i 0 h0 (by rwa [timeArr_length]), timeArr_getD n i h0 h1]

/-- Mirrored times. -/
def mirT (s : Int) (m : List Int) : List K := m.map (fun i : Int => 2 * (s : K) - (i : K))

theorem mirrorTimes_eq (n : Nat) (s : Int) (m : List Int) (hs : 0 ≤ s ∧ s < n) (h : ∀ i ∈ m, 0 ≤ i ∧ i < (n : Int)) :
    mirrorTimes (timeArr n : List K) s m = .ok (mirT s m) := by
  unfold mirrorTimes
  rw [pyGet_timeArr n s hs.1 hs.2, pyTake_int _ m 0 (by rwa [timeArr_length])]
  simp only [bind, Except.bind, pure, Except.pure, List.map_map, lit_two]
  congr 1
  unfold mirT
  apply List.map_congr_left
  intro i hi
  simp only [Function.comp]
  rw [timeArr_getD n i (h i hi).1 (h i hi).2]

theorem mirT_head {s : Int} {m : List Int} (h : m ≠ []) : pyGet (mirT s m : List K) 0 = .ok (2 * (s : K) - (m.head h : K)) := by
  cases m with
  | nil => exact absurd rfl h
  | cons a m => exact pyGet_cons _ _

theorem mirT_last {s : Int} {m : List Int} (h : m ≠ []) : pyGet (mirT s m : List K) (-1) = .ok (2 * (s : K) - (m.getLast h : K)) := by
  have h' : (mirT s m : List K) ≠ [] := fun hc => h (List.map_eq_nil_iff.1 hc)
  rw [pyGet_last _ h']
  congr 1
  exact List.getLast_map h'

theorem cast_lt_mir (a s i : Int) : ((a : K) < 2 * (s : K) - (i : K)) ↔ a < 2 * s - i := by
  have : 2 * (s : K) - (i : K) = ((2 * s - i : Int) : K) := by push_cast; ring
  rw [this, Int.cast_lt]

theorem cast_mir_lt (a s i : Int) : (2 * (s : K) - (i : K) < (a : K)) ↔ 2 * s - i < a := by
  have : 2 * (s : K) - (i : K) = ((2 * s - i : Int) : K) := by push_cast; ring
  rw [this, Int.cast_lt]

/-! ## Left edge -/

/-- What the left mirroring guarantees for the extrema `X` of one kind. -/
structure LeftOK (X m : List Int) (s : Int) : Prop where
  ne : m ≠ []
  mem : ∀ i ∈ m, i ∈ X ∨ i = 0
  dec : m.Pairwise (· > ·)
  lt : ∀ i ∈ m, ∀ x ∈ X, 2 * s - i < x ∨ (s = 0 ∧ i = 0 ∧ x = 0)
  head : 2 * s - m.head ne ≤ 0

theorem LeftOK.zero {X m : List Int} (ne : m ≠ []) (mem : ∀ i ∈ m, i ∈ X ∨ i = 0) (dec : m.Pairwise (· > ·))
    (hX : ∀ x ∈ X, 0 ≤ x) : LeftOK X m 0 := by
  have h0 : ∀ i ∈ m, 0 ≤ i := fun i hi => (mem i hi).elim (hX i) (fun h => h.ge)
  refine ⟨ne, mem, dec, ?_, ?_⟩
  · intro i hi x hx
    have := h0 i hi
    have := hX x hx
    omega
  · have := h0 _ (List.head_mem ne)
    omega

theorem leftMirror_keep (nb : Int) (n : Nat) (A B : List Int) (m : Mirror) (hn : 0 < n) (hs : 0 ≤ m.sym ∧ m.sym < n)
    (hx : ∀ i ∈ m.mx, 0 ≤ i ∧ i < (n : Int)) (hm : ∀ i ∈ m.mn, 0 ≤ i ∧ i < (n : Int)) (nx : m.mx ≠ []) (nm : m.mn ≠ [])
    (h1 : 2 * m.sym - m.mn.head nm ≤ 0) (h2 : 2 * m.sym - m.mx.head nx ≤ 0) :
    leftMirror nb (timeArr n : List K) A B m = .ok { tmx := mirT m.sym m.mx, tmn := mirT m.sym m.mn, mx := m.mx, mn := m.mn } := by
  unfold leftMirror
  rw [mirrorTimes_eq n _ _ hs hx, mirrorTimes_eq n _ _ hs hm]
  simp only [bind, Except.bind, mirT_head nx, mirT_head nm]
  rw [pyGet_timeArr n 0 (by omega) (by omega)]
  simp only []
  rw [if_neg]
  · rfl
  · rw [cast_lt_mir, cast_lt_mir]
    omega

theorem leftMirror_redo (nb : Int) (n : Nat) (a0 : Int) (A B : List Int) (m m' : Mirror) (hn : 0 < n) (hs : 0 < m.sym ∧ m.sym < n)
    (hx : ∀ i ∈ m.mx, 0 ≤ i ∧ i < (n : Int)) (hm : ∀ i ∈ m.mn, 0 ≤ i ∧ i < (n : Int)) (nx : m.mx ≠ []) (nm : m.mn ≠ [])
    (h : ¬ (2 * m.sym - m.mn.head nm ≤ 0 ∧ 2 * m.sym - m.mx.head nx ≤ 0))
    (hm' : (if m.sym = a0 then { m with mx := (pySlice (a0 :: A) 0 (min ((a0 :: A).length : Int) nb)).reverse }
      else { m with mn := (pySlice B 0 (min (B.length : Int) nb)).reverse } : Mirror) = m')
    (hx' : ∀ i ∈ m'.mx, 0 ≤ i ∧ i < (n : Int)) (hm'' : ∀ i ∈ m'.mn, 0 ≤ i ∧ i < (n : Int)) :
    leftMirror nb (timeArr n : List K) (a0 :: A) B m = .ok { tmx := mirT 0 m'.mx, tmn := mirT 0 m'.mn, mx := m'.mx, mn := m'.mn } := by
  unfold leftMirror
  rw [mirrorTimes_eq n _ _ ⟨hs.1.le, hs.2⟩ hx, mirrorTimes_eq n _ _ ⟨hs.1.le, hs.2⟩ hm]
  simp only [bind, Except.bind, mirT_head nx, mirT_head nm, pyGet_cons]
  rw [pyGet_timeArr n 0 (by omega) (by omega)]
  simp only []
  rw [if_pos]
  · simp only [hm']
    have : m'.sym = m.sym := by rw [← hm']; split <;> rfl
    rw [if_neg (by omega), mirrorTimes_eq n _ _ (by omega) hx', mirrorTimes_eq n _ _ (by omega) hm'']
    rfl
  · rw [cast_lt_mir, cast_lt_mir]
    omega

/-- One kind of extrema comes first. -/
structure Lists (n : Nat) (X : List Int) : Prop where
  sorted : X.Pairwise (· < ·)
  range : ∀ i ∈ X, 0 ≤ i ∧ i + 1 < (n : Int)

theorem Lists.rng {n : Nat} {X m : List Int} (h : Lists n X) (hm : ∀ i ∈ m, i ∈ X ∨ i = 0) (hn : 0 < n) : ∀ i ∈ m, 0 ≤ i ∧ i < (n : Int) := by
  intro i hi
  rcases hm i hi with h' | h'
  · have := h.range i h'; omega
  · omega

theorem Lists.rng' {n : Nat} {X m : List Int} (h : Lists n X) (hm : ∀ i ∈ m, i ∈ X ∨ i = n - 1) (hn : 0 < n) : ∀ i ∈ m, 0 ≤ i ∧ i < (n : Int) := by
  intro i hi
  rcases hm i hi with h' | h'
  · have := h.range i h'; omega
  · omega

/-- Mirroring over the first extremum: the own kind. -/
theorem LeftOK.own {n : Nat} {a : Int} {A : List Int} {b : Int} (hb : 0 ≤ b) (hA : Lists n (a :: A))
    (ne : (pySlice (a :: A) 1 b).reverse ≠ []) (hh : 2 * a - (pySlice (a :: A) 1 b).reverse.head ne ≤ 0) :
    LeftOK (a :: A) (pySlice (a :: A) 1 b).reverse a := by
  refine ⟨ne, ?_, reverse_dec hA.sorted (pySlice_sublist _ _ _), ?_, hh⟩
  · intro i hi
    rw [List.mem_reverse] at hi
    exact .inl (mem_pySlice hi)
  · intro i hi x hx
    rw [List.mem_reverse] at hi
    have hi' := mem_pySlice_tail hb hi
    have := (List.pairwise_cons.1 hA.sorted).1 i hi'
    rcases List.mem_cons.1 hx with rfl | hx
    · omega
    · have := (List.pairwise_cons.1 hA.sorted).1 x hx
      omega

/-- Mirroring over the first extremum: the other kind. -/
theorem LeftOK.other {n : Nat} {a b : Int} {B : List Int} (hB : Lists n (b :: B)) (hab : a < b) {u v : Int}
    (ne : (pySlice (b :: B) u v).reverse ≠ []) (hh : 2 * a - (pySlice (b :: B) u v).reverse.head ne ≤ 0) :
    LeftOK (b :: B) (pySlice (b :: B) u v).reverse a := by
  have hge : ∀ x ∈ b :: B, b ≤ x := by
    intro x hx
    rcases List.mem_cons.1 hx with rfl | hx
    · exact le_refl _
    · exact ((List.pairwise_cons.1 hB.sorted).1 x hx).le
  refine ⟨ne, ?_, reverse_dec hB.sorted (pySlice_sublist _ _ _), ?_, hh⟩
  · intro i hi
    rw [List.mem_reverse] at hi
    exact .inl (mem_pySlice hi)
  · intro i hi x hx
    rw [List.mem_reverse] at hi
    have := hge i (mem_pySlice hi)
    have := hge x hx
    omega

/-- Mirroring over the first sample. -/
theorem LeftOK.slice_zero {n : Nat} {X : List Int} (hX : Lists n X) {u v : Int} (ne : (pySlice X u v).reverse ≠ []) :
    LeftOK X (pySlice X u v).reverse 0 :=
  .zero ne (fun i hi => .inl (mem_pySlice (List.mem_reverse.1 hi))) (reverse_dec hX.sorted (pySlice_sublist _ _ _))
    (fun x hx => (hX.range x hx).1)

/-- Mirroring over the first sample, which becomes a knot. -/
theorem LeftOK.slice_zero' {n : Nat} {X : List Int} (hX : Lists n X) (h0 : ∀ x ∈ X, 0 < x) {u v : Int} :
    LeftOK X ((pySlice X u v).reverse ++ [0]) 0 := by
  refine .zero (by simp) ?_ ?_ (fun x hx => (hX.range x hx).1)
  · intro i hi
    rcases List.mem_append.1 hi with hi | hi
    · exact .inl (mem_pySlice (List.mem_reverse.1 hi))
    · simp at hi; exact .inr hi
  · rw [List.pairwise_append]
    refine ⟨reverse_dec hX.sorted (pySlice_sublist _ _ _), by simp, ?_⟩
    intro i hi j hj
    simp at hj
    subst hj
    exact h0 i (mem_pySlice (List.mem_reverse.1 hi))

theorem fillMissing_id {A B : List Int} {m : Mirror} (nx : m.mx ≠ []) (nm : m.mn ≠ []) : fillMissing A B m = m := by
  unfold fillMissing
  simp only [List.isEmpty_iff, nx, nm, if_false]

/-! ## The rule behind the mirroring -/

theorem pySlice_take {β : Type} (l : List β) (nb : Int) (h : 0 ≤ nb) {e : Int} (he : e = l.length) : pySlice l 0 (min e nb) = l.take nb.toNat := by
  subst he
  unfold pySlice sliceBound
  rw [if_neg (by omega), if_neg (by omega)]
  simp only [Int.toNat_zero, Nat.zero_min, List.drop_zero]
  rcases le_total nb l.length with h' | h'
  · congr 1; omega
  · rw [List.take_of_length_le (by omega), List.take_of_length_le (by omega)]

theorem pySlice_take_tail {β : Type} (a : β) (l : List β) (nb : Int) (h : 0 ≤ nb) {e : Int} (he : e = (l.length : Int) + 1) :
    pySlice (a :: l) 1 (min e (nb + 1)) = l.take nb.toNat := by
  subst he
  unfold pySlice sliceBound
  rw [if_neg (by omega), if_neg (by omega), List.drop_take]
  simp only [List.length_cons, Int.toNat_one, Nat.min_eq_left (Nat.le_add_left 1 l.length), List.drop_one, List.tail_cons]
  rcases le_total nb l.length with h' | h'
  · congr 1; omega
  · rw [List.take_of_length_le (by omega), List.take_of_length_le (by omega)]

theorem pySliceFrom_take {β : Type} (l : List β) (nb : Int) (h : 0 ≤ nb) :
    (pySliceFrom l (max ((l.length : Int) - nb) 0)).reverse = l.reverse.take nb.toNat := by
  unfold pySliceFrom sliceBound
  rw [if_neg (by omega), List.take_reverse]
  congr 2
  omega

theorem pySlice_take_dropLast {β : Type} (l : List β) (nb : Int) (h : 0 ≤ nb) :
    (pySlice l (max ((l.length : Int) - nb - 1) 0) (-1)).reverse = l.reverse.tail.take nb.toNat := by
  unfold pySlice sliceBound
  rw [if_neg (by omega), if_pos (by omega)]
  rcases List.eq_nil_or_concat l with rfl | ⟨l', a, rfl⟩
  · simp
  · simp only [List.concat_eq_append, List.length_append, List.length_cons, List.length_nil, List.reverse_append, List.reverse_cons,
      List.reverse_nil, List.nil_append, List.cons_append, List.tail_cons]
    rw [List.take_reverse, List.take_append_of_le_length (by omega), List.take_of_length_le (by omega)]
    congr 2
    omega

/-- The knots which are mirrored over one edge, by index.  `X` are the extrema of the kind that is nearest to the edge and `Y` those
of the other kind, both counted from the edge `e`; `out` is "at or beyond the edge"; `far` is the condition on the values. -/
def EdgeI (k : Nat) (e : Int) (out : Int → Prop) (far : Prop) (X Y : List Int) (s : Int) (own oth : List Int) : Prop :=
  ∃ x X', X = x :: X' ∧
    ((far ∧ ((∃ i ∈ X'.take k, out (2 * x - i)) ∧ (∃ i ∈ Y.take k, out (2 * x - i))) ∧ s = x ∧ own = X'.take k ∧ oth = Y.take k) ∨
      (far ∧ ¬ ((∃ i ∈ X'.take k, out (2 * x - i)) ∧ (∃ i ∈ Y.take k, out (2 * x - i))) ∧ s = e ∧ own = X.take k ∧ oth = Y.take k) ∨
      (¬ far ∧ s = e ∧ own = X.take k ∧ oth = e :: Y.take (k - 1)))

/-- Both kinds: which of them is nearest to the edge. -/
def StartI (k : Nat) (e : Int) (out : Int → Prop) (S : List K) (near : Int → Int → Prop) (A B : List Int) (s : Int) (mx mn : List Int) : Prop :=
  ∃ a b, A.head? = some a ∧ B.head? = some b ∧
    ((near a b ∧ EdgeI k e out (S.getD b.toNat 0 < S.getD e.toNat 0) A B s mx mn) ∨
      (near b a ∧ EdgeI k e out (S.getD e.toNat 0 < S.getD a.toNat 0) B A s mn mx))

theorem head_least {m : List Int} (hs : m.Pairwise (· > ·)) (ne : m ≠ []) (x : Int) : 2 * x - m.head ne ≤ 0 ↔ ∃ i ∈ m, 2 * x - i ≤ 0 := by
  constructor
  · exact fun h => ⟨_, List.head_mem ne, h⟩
  · rintro ⟨i, hi, h⟩
    match m, hs, hi with
    | a :: m, hs, hi =>
      rcases List.mem_cons.1 hi with rfl | hi
      · exact h
      · have := (List.pairwise_cons.1 hs).1 i hi
        simp only [List.head_cons]
        omega

theorem last_greatest {m : List Int} (hs : m.Pairwise (· > ·)) (ne : m ≠ []) (n x : Int) :
    n ≤ 2 * x - m.getLast ne ↔ ∃ i ∈ m, n ≤ 2 * x - i := by
  constructor
  · exact fun h => ⟨_, List.getLast_mem ne, h⟩
  · rintro ⟨i, hi, h⟩
    have e := List.dropLast_append_getLast ne
    rw [← e, List.pairwise_append] at hs
    rw [← e] at hi
    rcases List.mem_append.1 hi with hi | hi
    · have := hs.2.2 i hi (m.getLast ne) (by simp)
      omega
    · simp at hi
      omega

theorem left_ok (nb : Int) (hnb : 1 ≤ nb) (S : List K) (a b : Int) (A B : List Int)
    (hA : Lists S.length (a :: A)) (hB : Lists S.length (b :: B)) (hne : a ≠ b)
    (lenA : a < b → 1 ≤ A.length) (lenB : b < a → 1 ≤ B.length) :
    ∃ m s mx mn, leftBound nb S (a :: A) (b :: B) = .ok m ∧
      leftMirror nb (timeArr S.length : List K) (a :: A) (b :: B) (fillMissing (a :: A) (b :: B) m) =
        .ok { tmx := mirT s mx, tmn := mirT s mn, mx := mx, mn := mn } ∧
      LeftOK (a :: A) mx s ∧ LeftOK (b :: B) mn s ∧
      StartI nb.toNat 0 (· ≤ 0) S (· < ·) (a :: A) (b :: B) s mx.reverse mn.reverse := by
  have ra := hA.range a (by simp)
  have rb := hB.range b (by simp)
  have hn : 0 < S.length := by omega
  unfold leftBound
  simp only [pyGet_cons, bind, Except.bind]
  rw [pyGet_int S 0 0 (by omega) (by omega), pyGet_int S a 0 (by omega) (by omega), pyGet_int S b 0 (by omega) (by omega)]
  simp only [List.length_cons, Nat.cast_add, Nat.cast_one]
  by_cases hab : a < b
  · have lA := lenA hab
    rw [if_pos hab]
    split
    · next hfar =>
      have nx : (pySlice (a :: A) 1 (min ((A.length : Int) + 1) (nb + 1))).reverse ≠ [] := by
        rw [Ne, List.reverse_eq_nil_iff]
        exact pySlice_ne_nil (by omega) (by omega) (by simp <;> omega)
      have nm : (pySlice (b :: B) 0 (min ((B.length : Int) + 1) (nb + 0))).reverse ≠ [] := by
        rw [Ne, List.reverse_eq_nil_iff]
        exact pySlice_ne_nil (by omega) (by omega) (by simp <;> omega)
      have e1 : pySlice (a :: A) 1 (min ((A.length : Int) + 1) (nb + 1)) = A.take nb.toNat := pySlice_take_tail _ _ _ (by omega) rfl
      have e2 : pySlice (b :: B) 0 (min ((B.length : Int) + 1) (nb + 0)) = (b :: B).take nb.toNat := by
        rw [add_zero]; exact pySlice_take _ _ (by omega) (by simp)
      have hkr : (2 * a - (pySlice (b :: B) 0 (min ((B.length : Int) + 1) (nb + 0))).reverse.head nm ≤ 0 ∧
          2 * a - (pySlice (a :: A) 1 (min ((A.length : Int) + 1) (nb + 1))).reverse.head nx ≤ 0) ↔
          ((∃ i ∈ A.take nb.toNat, 2 * a - i ≤ 0) ∧ (∃ i ∈ (b :: B).take nb.toNat, 2 * a - i ≤ 0)) := by
        rw [head_least (reverse_dec hB.sorted (pySlice_sublist _ _ _)) nm, head_least (reverse_dec hA.sorted (pySlice_sublist _ _ _)) nx, and_comm]
        simp only [List.mem_reverse, e1, e2]
      by_cases hk : 2 * a - (pySlice (b :: B) 0 (min ((B.length : Int) + 1) (nb + 0))).reverse.head nm ≤ 0 ∧
          2 * a - (pySlice (a :: A) 1 (min ((A.length : Int) + 1) (nb + 1))).reverse.head nx ≤ 0
      · have o1 := LeftOK.own (b := min ((A.length : Int) + 1) (nb + 1)) (by omega) hA nx hk.2
        have o2 := LeftOK.other hB hab nm hk.1
        refine ⟨_, _, _, _, rfl, ?_, o1, o2, ?_⟩
        · rw [fillMissing_id nx nm]
          exact leftMirror_keep nb S.length _ _ _ hn (by simp only []; omega) (hA.rng o1.mem hn) (hB.rng o2.mem hn) nx nm hk.1 hk.2
        · exact ⟨a, b, rfl, rfl, .inl ⟨hab, a, A, rfl, .inl ⟨hfar, hkr.1 hk, rfl, by rw [List.reverse_reverse, e1], by rw [List.reverse_reverse, e2]⟩⟩⟩
      · have a0 : 0 < a := by
          by_contra hc
          have r1 := hB.range _ (mem_pySlice (List.mem_reverse.1 (List.head_mem nm)))
          have r2 := hA.range _ (mem_pySlice (List.mem_reverse.1 (List.head_mem nx)))
          omega
        have nx' : (pySlice (a :: A) 0 (min (((a :: A).length : Nat) : Int) nb)).reverse ≠ [] := by
          rw [Ne, List.reverse_eq_nil_iff]
          exact pySlice_ne_nil (by omega) (by simp <;> omega) (by simp <;> omega)
        have o1 := LeftOK.slice_zero hA nx'
        have o2 := LeftOK.slice_zero hB nm
        refine ⟨_, _, _, _, rfl, ?_, o1, o2, ?_⟩
        · rw [fillMissing_id nx nm]
          exact leftMirror_redo nb S.length a A (b :: B) _ ⟨_, _, a⟩ hn ⟨a0, by show a < _; omega⟩
            (fun i hi => hA.rng (fun i hi => .inl (mem_pySlice (List.mem_reverse.1 hi))) hn i hi)
            (fun i hi => hB.rng (fun i hi => .inl (mem_pySlice (List.mem_reverse.1 hi))) hn i hi) nx nm hk (if_pos rfl)
            (hA.rng o1.mem hn) (hB.rng o2.mem hn)
        · exact ⟨a, b, rfl, rfl, .inl ⟨hab, a, A, rfl, .inr (.inl ⟨hfar, fun h => hk (hkr.2 h), rfl, by rw [List.reverse_reverse, pySlice_take _ _ (by omega) rfl],
            by rw [List.reverse_reverse, e2]⟩)⟩⟩
    · next hfar =>
      have nx : (pySlice (a :: A) 0 (min ((A.length : Int) + 1) nb)).reverse ≠ [] := by
        rw [Ne, List.reverse_eq_nil_iff]
        exact pySlice_ne_nil (by omega) (by omega) (by simp <;> omega)
      have o1 := LeftOK.slice_zero hA nx
      have o2 := LeftOK.slice_zero' (u := 0) (v := min ((B.length : Int) + 1) (nb - 1)) hB (by
        intro x hx
        rcases List.mem_cons.1 hx with rfl | hx
        · omega
        · have := (List.pairwise_cons.1 hB.sorted).1 x hx
          omega)
      refine ⟨_, _, _, _, rfl, ?_, o1, o2, ?_⟩
      · rw [fillMissing_id o1.ne o2.ne]
        exact leftMirror_keep nb S.length _ _ _ hn (by simp only []; omega) (hA.rng o1.mem hn) (hB.rng o2.mem hn) o1.ne o2.ne
          o2.head o1.head
      · exact ⟨a, b, rfl, rfl, .inl ⟨hab, a, A, rfl, .inr (.inr ⟨hfar, rfl, by rw [List.reverse_reverse, pySlice_take _ _ (by omega) (by simp)],
          by rw [List.reverse_append, List.reverse_reverse, pySlice_take _ _ (by omega) (by simp)]; simp⟩)⟩⟩
  · have hba : b < a := by omega
    have lB := lenB hba
    rw [if_neg hab]
    split
    · next hfar =>
      have nx : (pySlice (a :: A) 0 (min ((A.length : Int) + 1) (nb + 0))).reverse ≠ [] := by
        rw [Ne, List.reverse_eq_nil_iff]
        exact pySlice_ne_nil (by omega) (by omega) (by simp <;> omega)
      have nm : (pySlice (b :: B) 1 (min ((B.length : Int) + 1) (nb + 1))).reverse ≠ [] := by
        rw [Ne, List.reverse_eq_nil_iff]
        exact pySlice_ne_nil (by omega) (by omega) (by simp <;> omega)
      have e1 : pySlice (b :: B) 1 (min ((B.length : Int) + 1) (nb + 1)) = B.take nb.toNat := pySlice_take_tail _ _ _ (by omega) rfl
      have e2 : pySlice (a :: A) 0 (min ((A.length : Int) + 1) (nb + 0)) = (a :: A).take nb.toNat := by
        rw [add_zero]; exact pySlice_take _ _ (by omega) (by simp)
      have hkr : (2 * b - (pySlice (b :: B) 1 (min ((B.length : Int) + 1) (nb + 1))).reverse.head nm ≤ 0 ∧
          2 * b - (pySlice (a :: A) 0 (min ((A.length : Int) + 1) (nb + 0))).reverse.head nx ≤ 0) ↔
          ((∃ i ∈ B.take nb.toNat, 2 * b - i ≤ 0) ∧ (∃ i ∈ (a :: A).take nb.toNat, 2 * b - i ≤ 0)) := by
        rw [head_least (reverse_dec hB.sorted (pySlice_sublist _ _ _)) nm, head_least (reverse_dec hA.sorted (pySlice_sublist _ _ _)) nx]
        simp only [List.mem_reverse, e1, e2]
      by_cases hk : 2 * b - (pySlice (b :: B) 1 (min ((B.length : Int) + 1) (nb + 1))).reverse.head nm ≤ 0 ∧
          2 * b - (pySlice (a :: A) 0 (min ((A.length : Int) + 1) (nb + 0))).reverse.head nx ≤ 0
      · have o1 := LeftOK.other hA hba nx hk.2
        have o2 := LeftOK.own (b := min ((B.length : Int) + 1) (nb + 1)) (by omega) hB nm hk.1
        refine ⟨_, _, _, _, rfl, ?_, o1, o2, ?_⟩
        · rw [fillMissing_id nx nm]
          exact leftMirror_keep nb S.length _ _ _ hn (by simp only []; omega) (hA.rng o1.mem hn) (hB.rng o2.mem hn) nx nm hk.1 hk.2
        · exact ⟨a, b, rfl, rfl, .inr ⟨hba, b, B, rfl, .inl ⟨hfar, hkr.1 hk, rfl, by rw [List.reverse_reverse, e1], by rw [List.reverse_reverse, e2]⟩⟩⟩
      · have b0 : 0 < b := by
          by_contra hc
          have r1 := hB.range _ (mem_pySlice (List.mem_reverse.1 (List.head_mem nm)))
          have r2 := hA.range _ (mem_pySlice (List.mem_reverse.1 (List.head_mem nx)))
          omega
        have nm' : (pySlice (b :: B) 0 (min (((b :: B).length : Nat) : Int) nb)).reverse ≠ [] := by
          rw [Ne, List.reverse_eq_nil_iff]
          exact pySlice_ne_nil (by omega) (by simp <;> omega) (by simp <;> omega)
        have o1 := LeftOK.slice_zero hA nx
        have o2 := LeftOK.slice_zero hB nm'
        refine ⟨_, _, _, _, rfl, ?_, o1, o2, ?_⟩
        · rw [fillMissing_id nx nm]
          exact leftMirror_redo nb S.length a A (b :: B) _ ⟨_, _, b⟩ hn ⟨b0, by show b < _; omega⟩
            (fun i hi => hA.rng (fun i hi => .inl (mem_pySlice (List.mem_reverse.1 hi))) hn i hi)
            (fun i hi => hB.rng (fun i hi => .inl (mem_pySlice (List.mem_reverse.1 hi))) hn i hi) nx nm hk (if_neg (by simp only []; omega))
            (hA.rng o1.mem hn) (hB.rng o2.mem hn)
        · exact ⟨a, b, rfl, rfl, .inr ⟨hba, b, B, rfl, .inr (.inl ⟨hfar, fun h => hk (hkr.2 h), rfl, by rw [List.reverse_reverse, pySlice_take _ _ (by omega) rfl],
            by rw [List.reverse_reverse, e2]⟩)⟩⟩
    · next hfar =>
      have nm : (pySlice (b :: B) 0 (min ((B.length : Int) + 1) nb)).reverse ≠ [] := by
        rw [Ne, List.reverse_eq_nil_iff]
        exact pySlice_ne_nil (by omega) (by omega) (by simp <;> omega)
      have o2 := LeftOK.slice_zero hB nm
      have o1 := LeftOK.slice_zero' (u := 0) (v := min ((A.length : Int) + 1) (nb - 1)) hA (by
        intro x hx
        rcases List.mem_cons.1 hx with rfl | hx
        · omega
        · have := (List.pairwise_cons.1 hA.sorted).1 x hx
          omega)
      refine ⟨_, _, _, _, rfl, ?_, o1, o2, ?_⟩
      · rw [fillMissing_id o1.ne o2.ne]
        exact leftMirror_keep nb S.length _ _ _ hn (by simp only []; omega) (hA.rng o1.mem hn) (hB.rng o2.mem hn) o1.ne o2.ne
          o2.head o1.head
      · exact ⟨a, b, rfl, rfl, .inr ⟨hba, b, B, rfl, .inr (.inr ⟨hfar, rfl, by rw [List.reverse_reverse, pySlice_take _ _ (by omega) (by simp)],
          by rw [List.reverse_append, List.reverse_reverse, pySlice_take _ _ (by omega) (by simp)]; simp⟩)⟩⟩

/-! ## Right edge -/

/-- What the right mirroring guarantees for the extrema `X` of one kind. -/
structure RightOK (n : Nat) (X m : List Int) (s : Int) : Prop where
  ne : m ≠ []
  mem : ∀ i ∈ m, i ∈ X ∨ i = n - 1
  dec : m.Pairwise (· > ·)
  gt : ∀ i ∈ m, ∀ x ∈ X, x < 2 * s - i
  last : (n : Int) - 1 ≤ 2 * s - m.getLast ne

theorem RightOK.end {n : Nat} {X m : List Int} (hX : Lists n X) (ne : m ≠ []) (mem : ∀ i ∈ m, i ∈ X ∨ i = n - 1)
    (dec : m.Pairwise (· > ·)) : RightOK n X m (n - 1) := by
  have h0 : ∀ i ∈ m, i ≤ n - 1 := fun i hi => (mem i hi).elim (fun h => by have := hX.range i h; omega) (fun h => h.le)
  refine ⟨ne, mem, dec, ?_, ?_⟩
  · intro i hi x hx
    have := h0 i hi
    have := hX.range x hx
    omega
  · have := h0 _ (List.getLast_mem ne)
    omega

theorem rightMirror_keep (nb : Int) (n : Nat) (A B : List Int) (m : Mirror) (hn : 0 < n) (hs : 0 ≤ m.sym ∧ m.sym < n)
    (hx : ∀ i ∈ m.mx, 0 ≤ i ∧ i < (n : Int)) (hm : ∀ i ∈ m.mn, 0 ≤ i ∧ i < (n : Int)) (nx : m.mx ≠ []) (nm : m.mn ≠ [])
    (h1 : (n : Int) - 1 ≤ 2 * m.sym - m.mn.getLast nm) (h2 : (n : Int) - 1 ≤ 2 * m.sym - m.mx.getLast nx) :
    rightMirror nb (timeArr n : List K) n A B m = .ok { tmx := mirT m.sym m.mx, tmn := mirT m.sym m.mn, mx := m.mx, mn := m.mn } := by
  have hTL : pyGet (timeArr n : List K) (-1) = .ok ((((n : Int) - 1 : Int)) : K) := by
    have hl : (timeArr n : List K) ≠ [] := List.ne_nil_of_length_pos (by rwa [timeArr_length])
    rw [pyGet_last _ hl, List.getLast_eq_getElem]
    simp only [timeArr, List.getElem_map, List.getElem_range, List.length_map, List.length_range]
    congr 1
    rw [Nat.cast_sub hn]; push_cast; rfl
  unfold rightMirror
  rw [mirrorTimes_eq n _ _ hs hx, mirrorTimes_eq n _ _ hs hm]
  simp only [bind, Except.bind, mirT_last nx, mirT_last nm]
  rw [hTL]
  simp only []
  rw [if_neg]
  · rfl
  · rw [cast_mir_lt, cast_mir_lt]
    omega

theorem rightMirror_redo (nb : Int) (n : Nat) (A B : List Int) (hA : A ≠ []) (m m' : Mirror) (hn : 0 < n)
    (hs : 0 ≤ m.sym ∧ m.sym < (n : Int) - 1)
    (hx : ∀ i ∈ m.mx, 0 ≤ i ∧ i < (n : Int)) (hm : ∀ i ∈ m.mn, 0 ≤ i ∧ i < (n : Int)) (nx : m.mx ≠ []) (nm : m.mn ≠ [])
    (h : ¬ ((n : Int) - 1 ≤ 2 * m.sym - m.mn.getLast nm ∧ (n : Int) - 1 ≤ 2 * m.sym - m.mx.getLast nx))
    (hm' : (if m.sym = A.getLast hA then { m with mx := (pySliceFrom A (max ((A.length : Int) - nb) 0)).reverse }
      else { m with mn := (pySliceFrom B (max ((B.length : Int) - nb) 0)).reverse } : Mirror) = m')
    (hx' : ∀ i ∈ m'.mx, 0 ≤ i ∧ i < (n : Int)) (hm'' : ∀ i ∈ m'.mn, 0 ≤ i ∧ i < (n : Int)) :
    rightMirror nb (timeArr n : List K) n A B m =
      .ok { tmx := mirT ((n : Int) - 1) m'.mx, tmn := mirT ((n : Int) - 1) m'.mn, mx := m'.mx, mn := m'.mn } := by
  have hTL : pyGet (timeArr n : List K) (-1) = .ok ((((n : Int) - 1 : Int)) : K) := by
    have hl : (timeArr n : List K) ≠ [] := List.ne_nil_of_length_pos (by rwa [timeArr_length])
    rw [pyGet_last _ hl, List.getLast_eq_getElem]
    simp only [timeArr, List.getElem_map, List.getElem_range, List.length_map, List.length_range]
    congr 1
    rw [Nat.cast_sub hn]; push_cast; rfl
  unfold rightMirror
  rw [mirrorTimes_eq n _ _ ⟨hs.1, by omega⟩ hx, mirrorTimes_eq n _ _ ⟨hs.1, by omega⟩ hm]
  simp only [bind, Except.bind, mirT_last nx, mirT_last nm, pyGet_last A hA]
  rw [hTL]
  simp only []
  rw [if_pos]
  · simp only [hm']
    have : m'.sym = m.sym := by rw [← hm']; split <;> rfl
    rw [if_neg (by omega), mirrorTimes_eq n _ _ (by omega) hx', mirrorTimes_eq n _ _ (by omega) hm'']
    rfl
  · rw [cast_mir_lt, cast_mir_lt]
    omega

theorem Lists.le_last {n : Nat} {X : List Int} (h : Lists n X) (ne : X ≠ []) : ∀ x ∈ X, x ≤ X.getLast ne := by
  intro x hx
  have e : X.dropLast ++ [X.getLast ne] = X := List.dropLast_append_getLast ne
  rw [← e] at hx
  have hs := h.sorted
  rw [← e, List.pairwise_append] at hs
  rcases List.mem_append.1 hx with hx | hx
  · exact (hs.2.2 x hx _ (by simp)).le
  · simp at hx; exact hx.le

theorem Lists.lt_last {n : Nat} {X : List Int} (h : Lists n X) (ne : X ≠ []) : ∀ x ∈ X.dropLast, x < X.getLast ne := by
  intro x hx
  have e : X.dropLast ++ [X.getLast ne] = X := List.dropLast_append_getLast ne
  have hs := h.sorted
  rw [← e, List.pairwise_append] at hs
  exact hs.2.2 x hx _ (by simp)

theorem RightOK.own {n : Nat} {A : List Int} (hA : Lists n A) (nA : A ≠ []) {b : Int}
    (ne : (pySlice A b (-1)).reverse ≠ []) (hh : (n : Int) - 1 ≤ 2 * A.getLast nA - (pySlice A b (-1)).reverse.getLast ne) :
    RightOK n A (pySlice A b (-1)).reverse (A.getLast nA) := by
  refine ⟨ne, ?_, reverse_dec hA.sorted (pySlice_sublist _ _ _), ?_, hh⟩
  · intro i hi
    exact .inl (mem_pySlice (List.mem_reverse.1 hi))
  · intro i hi x hx
    have := hA.lt_last nA i (mem_pySlice_dropLast (List.mem_reverse.1 hi))
    have := hA.le_last nA x hx
    omega

theorem RightOK.other {n : Nat} {B : List Int} {a : Int} (hB : Lists n B) (nB : B ≠ []) (hab : B.getLast nB < a) {u : Int}
    (ne : (pySliceFrom B u).reverse ≠ []) (hh : (n : Int) - 1 ≤ 2 * a - (pySliceFrom B u).reverse.getLast ne) :
    RightOK n B (pySliceFrom B u).reverse a := by
  refine ⟨ne, ?_, reverse_dec hB.sorted (pySliceFrom_sublist _ _), ?_, hh⟩
  · intro i hi
    exact .inl (mem_pySliceFrom (List.mem_reverse.1 hi))
  · intro i hi x hx
    have := hB.le_last nB i (mem_pySliceFrom (List.mem_reverse.1 hi))
    have := hB.le_last nB x hx
    omega

theorem RightOK.slice_end {n : Nat} {X : List Int} (hX : Lists n X) {u : Int} (ne : (pySliceFrom X u).reverse ≠ []) :
    RightOK n X (pySliceFrom X u).reverse (n - 1) :=
  .end hX ne (fun i hi => .inl (mem_pySliceFrom (List.mem_reverse.1 hi))) (reverse_dec hX.sorted (pySliceFrom_sublist _ _))

theorem RightOK.slice_end' {n : Nat} {X : List Int} (hX : Lists n X) {u : Int} :
    RightOK n X (pySliceFrom X u ++ [(n : Int) - 1]).reverse (n - 1) := by
  refine .end hX (by simp) ?_ ?_
  · intro i hi
    rcases List.mem_append.1 (List.mem_reverse.1 hi) with hi | hi
    · exact .inl (mem_pySliceFrom hi)
    · simp at hi; exact .inr hi
  · rw [List.pairwise_reverse, List.pairwise_append]
    refine ⟨hX.sorted.sublist (pySliceFrom_sublist _ _), by simp, ?_⟩
    intro i hi j hj
    simp at hj
    subst hj
    have := hX.range i (mem_pySliceFrom hi)
    omega

theorem right_ok (nb : Int) (hnb : 1 ≤ nb) (S : List K) (A B : List Int)
    (hA : Lists S.length A) (hB : Lists S.length B) (nA : A ≠ []) (nB : B ≠ []) (hne : A.getLast nA ≠ B.getLast nB)
    (lenA : B.getLast nB < A.getLast nA → 2 ≤ A.length) (lenB : A.getLast nA < B.getLast nB → 2 ≤ B.length) :
    ∃ m s mx mn, rightBound nb S A B = .ok m ∧
      rightMirror nb (timeArr S.length : List K) S.length A B (fillMissing A B m) =
        .ok { tmx := mirT s mx, tmn := mirT s mn, mx := mx, mn := mn } ∧
      RightOK S.length A mx s ∧ RightOK S.length B mn s ∧
      StartI nb.toNat ((S.length : Int) - 1) (fun i => (S.length : Int) - 1 ≤ i) S (fun i j => j < i) A.reverse B.reverse s mx mn := by
  have ra := hA.range _ (List.getLast_mem nA)
  have rb := hB.range _ (List.getLast_mem nB)
  have hn : 0 < S.length := by omega
  have lA := List.length_pos_of_ne_nil nA
  have lB := List.length_pos_of_ne_nil nB
  have nS : S ≠ [] := List.ne_nil_of_length_pos hn
  unfold rightBound
  simp only [pyGet_last A nA, pyGet_last B nB, pyGet_last S nS, bind, Except.bind]
  rw [pyGet_int S (A.getLast nA) 0 (by omega) (by omega), pyGet_int S (B.getLast nB) 0 (by omega) (by omega)]
  have hSL : S.getLast nS = S.getD ((S.length : Int) - 1).toNat 0 := by
    rw [List.getLast_eq_getElem, getD_lt _ _ _ (by omega)]
    congr 1
    omega
  have hAr : A.reverse = A.getLast nA :: A.reverse.tail := by
    rw [← List.head_reverse (by simpa using nA)]; exact (List.cons_head_tail _).symm
  have hBr : B.reverse = B.getLast nB :: B.reverse.tail := by
    rw [← List.head_reverse (by simpa using nB)]; exact (List.cons_head_tail _).symm
  have hAh : A.reverse.head? = some (A.getLast nA) := by rw [hAr]; rfl
  have hBh : B.reverse.head? = some (B.getLast nB) := by rw [hBr]; rfl
  have hend : ∀ X : List Int, (pySliceFrom X (max ((X.length : Int) - nb + 1) 0) ++ [(S.length : Int) - 1]).reverse =
      ((S.length : Int) - 1) :: X.reverse.take (nb.toNat - 1) := by
    intro X
    rw [List.reverse_append]
    have h := pySliceFrom_take X (nb - 1) (by omega)
    rw [show (X.length : Int) - (nb - 1) = (X.length : Int) - nb + 1 by ring] at h
    rw [h, show (nb - 1).toNat = nb.toNat - 1 by omega]
    rfl
  rw [hSL]
  simp only []
  by_cases hab : A.getLast nA < B.getLast nB
  · have lB := lenB hab
    rw [if_pos hab]
    split
    · next hfar =>
      have nx : (pySliceFrom A (max ((A.length : Int) - nb) 0)).reverse ≠ [] := by
        rw [Ne, List.reverse_eq_nil_iff]
        exact pySliceFrom_ne_nil (by omega) (by omega)
      have nm : (pySlice B (max ((B.length : Int) - nb - 1) 0) (-1)).reverse ≠ [] := by
        rw [Ne, List.reverse_eq_nil_iff]
        exact pySlice_dropLast_ne_nil (by omega) (by omega)
      have e1 : (pySlice B (max ((B.length : Int) - nb - 1) 0) (-1)).reverse = B.reverse.tail.take nb.toNat := pySlice_take_dropLast _ _ (by omega)
      have e2 : (pySliceFrom A (max ((A.length : Int) - nb) 0)).reverse = A.reverse.take nb.toNat := pySliceFrom_take _ _ (by omega)
      have d1 := reverse_dec hB.sorted (pySlice_sublist B (max ((B.length : Int) - nb - 1) 0) (-1))
      have d2 := reverse_dec hA.sorted (pySliceFrom_sublist A (max ((A.length : Int) - nb) 0))
      have hkr : ((S.length : Int) - 1 ≤ 2 * B.getLast nB - (pySlice B (max ((B.length : Int) - nb - 1) 0) (-1)).reverse.getLast nm ∧
          (S.length : Int) - 1 ≤ 2 * B.getLast nB - (pySliceFrom A (max ((A.length : Int) - nb) 0)).reverse.getLast nx) ↔
          ((∃ i ∈ B.reverse.tail.take nb.toNat, (S.length : Int) - 1 ≤ 2 * B.getLast nB - i) ∧ (∃ i ∈ A.reverse.take nb.toNat, (S.length : Int) - 1 ≤ 2 * B.getLast nB - i)) := by
        rw [last_greatest d1 nm, last_greatest d2 nx]
        simp only [e1, e2]
      by_cases hk : ((S.length : Int) - 1 ≤ 2 * B.getLast nB - (pySlice B (max ((B.length : Int) - nb - 1) 0) (-1)).reverse.getLast nm ∧
          (S.length : Int) - 1 ≤ 2 * B.getLast nB - (pySliceFrom A (max ((A.length : Int) - nb) 0)).reverse.getLast nx)
      · have o1 := RightOK.other hA nA hab nx hk.2
        have o2 := RightOK.own hB nB nm hk.1
        refine ⟨_, _, _, _, rfl, ?_, o1, o2, ?_⟩
        · rw [fillMissing_id nx nm]
          exact rightMirror_keep nb S.length _ _ _ hn (by simp only []; omega) (hA.rng' o1.mem hn) (hB.rng' o2.mem hn) nx nm hk.1 hk.2
        · exact ⟨_, _, hAh, hBh, .inr ⟨hab, _, _, hBr, .inl ⟨hfar, hkr.1 hk, rfl, e1, e2⟩⟩⟩
      · have nm' : (pySliceFrom B (max ((B.length : Int) - nb) 0)).reverse ≠ [] := by
          rw [Ne, List.reverse_eq_nil_iff]
          exact pySliceFrom_ne_nil (by omega) (by omega)
        have o1 := RightOK.slice_end hA nx
        have o2 := RightOK.slice_end hB nm'
        refine ⟨_, _, _, _, rfl, ?_, o1, o2, ?_⟩
        · rw [fillMissing_id nx nm]
          exact rightMirror_redo nb S.length A B nA _ ⟨_, _, B.getLast nB⟩ hn ⟨by show 0 ≤ B.getLast nB; omega, by show B.getLast nB < _; omega⟩
            (fun i hi => hA.rng' (fun i hi => .inl (mem_pySliceFrom (List.mem_reverse.1 hi))) hn i hi)
            (fun i hi => hB.rng' (fun i hi => .inl (mem_pySlice (List.mem_reverse.1 hi))) hn i hi) nx nm hk (if_neg (by simp only []; omega))
            (hA.rng' o1.mem hn) (hB.rng' o2.mem hn)
        · exact ⟨_, _, hAh, hBh, .inr ⟨hab, _, _, hBr, .inr (.inl ⟨hfar, fun h => hk (hkr.2 h), rfl, pySliceFrom_take _ _ (by omega), e2⟩)⟩⟩
    · next hfar =>
      have nm : (pySliceFrom B (max ((B.length : Int) - nb) 0)).reverse ≠ [] := by
        rw [Ne, List.reverse_eq_nil_iff]
        exact pySliceFrom_ne_nil (by omega) (by omega)
      have o1 := RightOK.slice_end' (u := max ((A.length : Int) - nb + 1) 0) hA
      have o2 := RightOK.slice_end hB nm
      refine ⟨_, _, _, _, rfl, ?_, o1, o2, ?_⟩
      · rw [fillMissing_id o1.ne o2.ne]
        exact rightMirror_keep nb S.length _ _ _ hn (by simp only []; omega) (hA.rng' o1.mem hn) (hB.rng' o2.mem hn) o1.ne o2.ne
          o2.last o1.last
      · exact ⟨_, _, hAh, hBh, .inr ⟨hab, _, _, hBr, .inr (.inr ⟨hfar, rfl, pySliceFrom_take _ _ (by omega), hend A⟩)⟩⟩
  · have hba : B.getLast nB < A.getLast nA := by omega
    have lA := lenA hba
    rw [if_neg hab]
    split
    · next hfar =>
      have nm : (pySliceFrom B (max ((B.length : Int) - nb) 0)).reverse ≠ [] := by
        rw [Ne, List.reverse_eq_nil_iff]
        exact pySliceFrom_ne_nil (by omega) (by omega)
      have nx : (pySlice A (max ((A.length : Int) - nb - 1) 0) (-1)).reverse ≠ [] := by
        rw [Ne, List.reverse_eq_nil_iff]
        exact pySlice_dropLast_ne_nil (by omega) (by omega)
      have e1 : (pySlice A (max ((A.length : Int) - nb - 1) 0) (-1)).reverse = A.reverse.tail.take nb.toNat := pySlice_take_dropLast _ _ (by omega)
      have e2 : (pySliceFrom B (max ((B.length : Int) - nb) 0)).reverse = B.reverse.take nb.toNat := pySliceFrom_take _ _ (by omega)
      have d1 := reverse_dec hA.sorted (pySlice_sublist A (max ((A.length : Int) - nb - 1) 0) (-1))
      have d2 := reverse_dec hB.sorted (pySliceFrom_sublist B (max ((B.length : Int) - nb) 0))
      have hkr : ((S.length : Int) - 1 ≤ 2 * A.getLast nA - (pySliceFrom B (max ((B.length : Int) - nb) 0)).reverse.getLast nm ∧
          (S.length : Int) - 1 ≤ 2 * A.getLast nA - (pySlice A (max ((A.length : Int) - nb - 1) 0) (-1)).reverse.getLast nx) ↔
          ((∃ i ∈ A.reverse.tail.take nb.toNat, (S.length : Int) - 1 ≤ 2 * A.getLast nA - i) ∧ (∃ i ∈ B.reverse.take nb.toNat, (S.length : Int) - 1 ≤ 2 * A.getLast nA - i)) := by
        rw [last_greatest d2 nm, last_greatest d1 nx, and_comm]
        simp only [e1, e2]
      by_cases hk : ((S.length : Int) - 1 ≤ 2 * A.getLast nA - (pySliceFrom B (max ((B.length : Int) - nb) 0)).reverse.getLast nm ∧
          (S.length : Int) - 1 ≤ 2 * A.getLast nA - (pySlice A (max ((A.length : Int) - nb - 1) 0) (-1)).reverse.getLast nx)
      · have o1 := RightOK.own hA nA nx hk.2
        have o2 := RightOK.other hB nB hba nm hk.1
        refine ⟨_, _, _, _, rfl, ?_, o1, o2, ?_⟩
        · rw [fillMissing_id nx nm]
          exact rightMirror_keep nb S.length _ _ _ hn (by simp only []; omega) (hA.rng' o1.mem hn) (hB.rng' o2.mem hn) nx nm hk.1 hk.2
        · exact ⟨_, _, hAh, hBh, .inl ⟨hba, _, _, hAr, .inl ⟨hfar, hkr.1 hk, rfl, e1, e2⟩⟩⟩
      · have nx' : (pySliceFrom A (max ((A.length : Int) - nb) 0)).reverse ≠ [] := by
          rw [Ne, List.reverse_eq_nil_iff]
          exact pySliceFrom_ne_nil (by omega) (by omega)
        have o1 := RightOK.slice_end hA nx'
        have o2 := RightOK.slice_end hB nm
        refine ⟨_, _, _, _, rfl, ?_, o1, o2, ?_⟩
        · rw [fillMissing_id nx nm]
          exact rightMirror_redo nb S.length A B nA _ ⟨_, _, A.getLast nA⟩ hn ⟨by show 0 ≤ A.getLast nA; omega, by show A.getLast nA < _; omega⟩
            (fun i hi => hA.rng' (fun i hi => .inl (mem_pySlice (List.mem_reverse.1 hi))) hn i hi)
            (fun i hi => hB.rng' (fun i hi => .inl (mem_pySliceFrom (List.mem_reverse.1 hi))) hn i hi) nx nm hk (if_pos rfl)
            (hA.rng' o1.mem hn) (hB.rng' o2.mem hn)
        · exact ⟨_, _, hAh, hBh, .inl ⟨hba, _, _, hAr, .inr (.inl ⟨hfar, fun h => hk (hkr.2 h), rfl, pySliceFrom_take _ _ (by omega), e2⟩)⟩⟩
    · next hfar =>
      have nx : (pySliceFrom A (max ((A.length : Int) - nb) 0)).reverse ≠ [] := by
        rw [Ne, List.reverse_eq_nil_iff]
        exact pySliceFrom_ne_nil (by omega) (by omega)
      have o1 := RightOK.slice_end hA nx
      have o2 := RightOK.slice_end' (u := max ((B.length : Int) - nb + 1) 0) hB
      refine ⟨_, _, _, _, rfl, ?_, o1, o2, ?_⟩
      · rw [fillMissing_id o1.ne o2.ne]
        exact rightMirror_keep nb S.length _ _ _ hn (by simp only []; omega) (hA.rng' o1.mem hn) (hB.rng' o2.mem hn) o1.ne o2.ne
          o2.last o1.last
      · exact ⟨_, _, hAh, hBh, .inl ⟨hba, _, _, hAr, .inr (.inr ⟨hfar, rfl, pySliceFrom_take _ _ (by omega), hend B⟩)⟩⟩

/-! ## Knots -/

/-- Sample by integer index. -/
def sI (S : List K) (i : Int) : K := S.getD i.toNat 0

/-- All knots of one kind before duplicates are removed. -/
def rawKnots (S : List K) (X l r : List Int) (sl sr : Int) : List (K × K) :=
  l.map (fun i : Int => (2 * (sl : K) - (i : K), sI S i)) ++ X.map (fun i : Int => ((i : K), sI S i)) ++
    r.map (fun i : Int => (2 * (sr : K) - (i : K), sI S i))

theorem dropDup_head {p : K × K} {l : List (K × K)} (h : (p :: l).Pairwise (fun p q => p.1 < q.1 ∨ p = q)) :
    ∃ l', dropDupKnots (p :: l) = p :: l' := by
  induction l generalizing p with
  | nil => exact ⟨[], rfl⟩
  | cons q l ih =>
    rw [List.pairwise_cons] at h
    unfold dropDupKnots
    rcases h.1 q (by simp) with hlt | rfl
    · have : (q.1 == p.1) = false := by simpa using hlt.ne'
      simp only [this, Bool.false_eq_true, if_false]
      exact ⟨_, rfl⟩
    · simp only [beq_self_eq_true, if_true]
      exact ih h.2

theorem dropDup_mem {l : List (K × K)} (h : l.Pairwise (fun p q => p.1 < q.1 ∨ p = q)) (x : K × K) :
    x ∈ dropDupKnots l ↔ x ∈ l := by
  induction l with
  | nil => simp [dropDupKnots]
  | cons p l ih =>
    cases l with
    | nil => simp [dropDupKnots]
    | cons q l =>
      rw [List.pairwise_cons] at h
      unfold dropDupKnots
      split
      · next heq =>
        rcases h.1 q (by simp) with hlt | rfl
        · simp only [beq_iff_eq] at heq
          exact absurd heq hlt.ne'
        · rw [ih h.2]; simp
      · rw [List.mem_cons, ih h.2, List.mem_cons (l := q :: l)]

theorem dropDup_sorted {l : List (K × K)} (h : l.Pairwise (fun p q => p.1 < q.1 ∨ p = q)) :
    (dropDupKnots l).Pairwise (fun p q => p.1 < q.1) := by
  induction l with
  | nil => simp [dropDupKnots]
  | cons p l ih =>
    cases l with
    | nil => simp [dropDupKnots]
    | cons q l =>
      rw [List.pairwise_cons] at h
      unfold dropDupKnots
      split
      · exact ih h.2
      · next hne =>
        rw [List.pairwise_cons]
        refine ⟨?_, ih h.2⟩
        intro x hx
        rw [dropDup_mem h.2] at hx
        have hpq : p.1 < q.1 := by
          rcases h.1 q (by simp) with hlt | rfl
          · exact hlt
          · simp at hne
        rcases List.mem_cons.1 hx with rfl | hx
        · exact hpq
        · have h2 := h.2
          rw [List.pairwise_cons] at h2
          rcases h2.1 x hx with h3 | rfl
          · exact hpq.trans h3
          · exact hpq

theorem cast_mir (s i : Int) : 2 * (s : K) - (i : K) = ((2 * s - i : Int) : K) := by push_cast; ring

theorem rawKnots_sorted {S : List K} {X l r : List Int} {sl sr : Int} (hX : Lists S.length X) (nX : X ≠ [])
    (hl : LeftOK X l sl) (hr : RightOK S.length X r sr) :
    (rawKnots S X l r sl sr).Pairwise (fun p q => p.1 < q.1 ∨ p = q) := by
  unfold rawKnots
  rw [List.pairwise_append, List.pairwise_append]
  refine ⟨⟨?_, ?_, ?_⟩, ?_, ?_⟩
  · rw [List.pairwise_map]
    refine hl.dec.imp ?_
    intro a b hab
    left
    simp only [cast_mir, Int.cast_lt]
    omega
  · rw [List.pairwise_map]
    refine hX.sorted.imp ?_
    intro a b hab
    left
    simpa using hab
  · simp only [List.mem_map]
    rintro _ ⟨i, hi, rfl⟩ _ ⟨x, hx, rfl⟩
    rcases hl.lt i hi x hx with h | ⟨rfl, rfl, rfl⟩
    · left
      simp only [cast_mir, Int.cast_lt]
      omega
    · right
      simp
  · rw [List.pairwise_map]
    refine hr.dec.imp ?_
    intro a b hab
    left
    simp only [cast_mir, Int.cast_lt]
    omega
  · simp only [List.mem_append, List.mem_map]
    rintro _ (⟨i, hi, rfl⟩ | ⟨x, hx, rfl⟩) _ ⟨j, hj, rfl⟩
    · left
      simp only [cast_mir, Int.cast_lt]
      have h1 := hl.lt i hi _ (List.head_mem nX)
      have h2 := hr.gt j hj _ (List.head_mem nX)
      omega
    · left
      simp only [cast_mir, Int.cast_lt]
      exact hr.gt j hj x hx

theorem zip_maps {β γ δ : Type} (l : List β) (f : β → γ) (g : β → δ) : (l.map f).zip (l.map g) = l.map (fun x => (f x, g x)) := by
  rw [List.zip_map]
  induction l with
  | nil => rfl
  | cons a l ih => simp [ih]

theorem rawKnots_zip (S : List K) (X l r : List Int) (sl sr : Int) :
    (mirT sl l ++ X.map (fun i : Int => (i : K)) ++ mirT sr r).zip
      (l.map (sI S) ++ X.map (sI S) ++ r.map (sI S)) = rawKnots S X l r sl sr := by
  unfold rawKnots mirT
  rw [List.zip_append (by simp), List.zip_append (by simp), zip_maps, zip_maps, zip_maps]

theorem pyTake_sI (S : List K) (m : List Int) (h : ∀ i ∈ m, 0 ≤ i ∧ i < (S.length : Int)) : pyTake S m = .ok (m.map (sI S)) :=
  pyTake_int S m 0 h

theorem pyTake_timeArr (n : Nat) (m : List Int) (h : ∀ i ∈ m, 0 ≤ i ∧ i < (n : Int)) :
    pyTake (timeArr n : List K) m = .ok (m.map (fun i : Int => (i : K))) := by
  rw [pyTake_int _ m 0 (by rwa [timeArr_length])]
  congr 1
  apply List.map_congr_left
  intro i hi
  exact timeArr_getD n i (h i hi).1 (h i hi).2

theorem toInt_natCast (k : Nat) : toInt (k : K) = (k : Int) := by
  show (if (0 : K) ≤ (k : K) then ⌊(k : K)⌋ else ⌈(k : K)⌉) = (k : Int)
  rw [if_pos (Nat.cast_nonneg k), Int.floor_natCast]

/-- The knots before repeated positions are removed. -/
def rawPoints (nbsym : Int) (T S : List K) (maxPos minPos : List K) : PyM (List (K × K) × List (K × K)) := do
  let ind_min := minPos.map toInt
  let ind_max := maxPos.map toInt
  let l ← leftBound nbsym S ind_max ind_min
  let r ← rightBound nbsym S ind_max ind_min
  let l := fillMissing ind_max ind_min l
  let r := fillMissing ind_max ind_min r
  let l ← leftMirror nbsym T ind_max ind_min l
  let r ← rightMirror nbsym T S.length ind_max ind_min r
  let zlmax ← pyTake S l.mx
  let zlmin ← pyTake S l.mn
  let zrmax ← pyTake S r.mx
  let zrmin ← pyTake S r.mn
  let tcmin ← pyTake T ind_min
  let tcmax ← pyTake T ind_max
  let zcmin ← pyTake S ind_min
  let zcmax ← pyTake S ind_max
  return ((l.tmx ++ tcmax ++ r.tmx).zip (zlmax ++ zcmax ++ zrmax), (l.tmn ++ tcmin ++ r.tmn).zip (zlmin ++ zcmin ++ zrmin))

theorem preparePointsSimple_raw (nbsym : Int) (T S : List K) (maxPos minPos : List K) :
    preparePointsSimple nbsym T S maxPos minPos =
      rawPoints nbsym T S maxPos minPos >>= fun k => .ok (dropDupKnots k.1, dropDupKnots k.2) := by
  unfold preparePointsSimple rawPoints
  simp only [bind_assoc]
  rfl

/-- The knots for index lists as the simple detection reports them. -/
theorem rawPoints_ok (nb : Int) (hnb : 1 ≤ nb) (S : List K) (A B : List Nat)
    (sA : A.Pairwise (· < ·)) (sB : B.Pairwise (· < ·)) (rA : ∀ i ∈ A, i + 1 < S.length) (rB : ∀ i ∈ B, i + 1 < S.length)
    (disj : ∀ i ∈ A, i ∉ B)
    (altA : ∀ a ∈ A, ∀ a' ∈ A, a < a' → ∃ b ∈ B, a < b ∧ b < a')
    (altB : ∀ b ∈ B, ∀ b' ∈ B, b < b' → ∃ a ∈ A, b < a ∧ a < b') (h3 : 3 ≤ A.length + B.length) :
    ∃ lx rx ln rn sl sr,
      rawPoints nb (timeArr S.length) S (A.map (fun k : Nat => (k : K))) (B.map (fun k : Nat => (k : K))) =
        .ok (rawKnots S (A.map (fun k : Nat => (k : Int))) lx rx sl sr, rawKnots S (B.map (fun k : Nat => (k : Int))) ln rn sl sr) ∧
      LeftOK (A.map (fun k : Nat => (k : Int))) lx sl ∧ LeftOK (B.map (fun k : Nat => (k : Int))) ln sl ∧
      RightOK S.length (A.map (fun k : Nat => (k : Int))) rx sr ∧ RightOK S.length (B.map (fun k : Nat => (k : Int))) rn sr ∧
      StartI nb.toNat 0 (· ≤ 0) S (· < ·) (A.map (fun k : Nat => (k : Int))) (B.map (fun k : Nat => (k : Int))) sl lx.reverse ln.reverse ∧
      StartI nb.toNat ((S.length : Int) - 1) (fun i => (S.length : Int) - 1 ≤ i) S (fun i j => j < i)
        (A.map (fun k : Nat => (k : Int))).reverse (B.map (fun k : Nat => (k : Int))).reverse sr rx rn := by
  have hA : Lists S.length (A.map (fun k : Nat => (k : Int))) := by
    constructor
    · rw [List.pairwise_map]; exact sA.imp (fun h => by omega)
    · simp only [List.mem_map]
      rintro _ ⟨k, hk, rfl⟩
      have := rA k hk
      omega
  have hB : Lists S.length (B.map (fun k : Nat => (k : Int))) := by
    constructor
    · rw [List.pairwise_map]; exact sB.imp (fun h => by omega)
    · simp only [List.mem_map]
      rintro _ ⟨k, hk, rfl⟩
      have := rB k hk
      omega
  -- the first and the last extremum have a second one of their kind
  have two : ∀ (X Y : List Nat), X.Pairwise (· < ·) → Y.Pairwise (· < ·) → 3 ≤ X.length + Y.length →
      (∀ b ∈ Y, ∀ b' ∈ Y, b < b' → ∃ a ∈ X, b < a ∧ a < b') →
      ∀ x ∈ X, ((∀ y ∈ Y, x < y) ∨ (∀ y ∈ Y, y < x)) → 2 ≤ X.length := by
    intro X Y sX sY h3 alt x hx hxy
    by_contra hc
    have hX1 : X = [x] := by
      match X, hx, hc with
      | [a], hx, _ => simp at hx; rw [hx]
      | _ :: _ :: _, _, hc => simp at hc
    match Y, sY, h3, alt, hxy with
    | [], _, h3, _, _ => simp [hX1] at h3
    | [_], _, h3, _, _ => simp [hX1] at h3
    | y :: y' :: Y, sY, _, alt, hxy =>
      obtain ⟨a, ha, h1, h2⟩ := alt y (by simp) y' (by simp) ((List.pairwise_cons.1 sY).1 y' (by simp))
      rw [hX1] at ha
      simp at ha
      subst ha
      rcases hxy with h | h
      · have := h y (by simp); omega
      · have := h y' (by simp); omega
  match A, B, hA, hB with
  | [], B, _, _ =>
    exfalso
    match B, h3, sB with
    | b :: b' :: _, _, sB =>
      obtain ⟨a, ha, -⟩ := altB b (by simp) b' (by simp) ((List.pairwise_cons.1 sB).1 b' (by simp))
      cases ha
    | [b], h3, _ => simp at h3
    | [], h3, _ => simp at h3
  | a :: A, [], _, _ =>
    exfalso
    match A, h3, sA with
    | a' :: _, _, sA =>
      obtain ⟨b, hb, -⟩ := altA a (by simp) a' (by simp) ((List.pairwise_cons.1 sA).1 a' (by simp))
      cases hb
    | [], h3, _ => simp at h3
  | a :: A, b :: B, hA, hB =>
    have nA : (a :: A).map (fun k : Nat => (k : Int)) ≠ [] := by simp
    have nB : (b :: B).map (fun k : Nat => (k : Int)) ≠ [] := by simp
    have hdis : ∀ i ∈ (a :: A).map (fun k : Nat => (k : Int)), i ∉ (b :: B).map (fun k : Nat => (k : Int)) := by
      simp only [List.mem_map]
      rintro _ ⟨k, hk, rfl⟩ ⟨k', hk', e⟩
      have : k = k' := by omega
      subst this
      exact disj k hk hk'
    have headA : ∀ x ∈ a :: A, a ≤ x := fun x hx => (List.mem_cons.1 hx).elim (fun h => h.ge) (fun h => ((List.pairwise_cons.1 sA).1 x h).le)
    have headB : ∀ x ∈ b :: B, b ≤ x := fun x hx => (List.mem_cons.1 hx).elim (fun h => h.ge) (fun h => ((List.pairwise_cons.1 sB).1 x h).le)
    obtain ⟨m, sl, lx, ln, e1, e2, o1, o2, o5⟩ := left_ok nb hnb S (a : Int) (b : Int) (A.map (fun k : Nat => (k : Int)))
      (B.map (fun k : Nat => (k : Int))) hA hB (by have := disj a (by simp); simp at this; omega)
      (by
        intro hab
        have := two (a :: A) (b :: B) sA sB h3 altB a (by simp) (.inl (fun y hy => by have := headB y hy; omega))
        simpa using this)
      (by
        intro hab
        have := two (b :: B) (a :: A) sB sA (by omega) altA b (by simp) (.inl (fun y hy => by have := headA y hy; omega))
        simpa using this)
    obtain ⟨m', sr, rx, rn, e3, e4, o3, o4, o6⟩ := right_ok nb hnb S ((a :: A).map (fun k : Nat => (k : Int)))
      ((b :: B).map (fun k : Nat => (k : Int))) hA hB nA nB
      (fun hc => hdis _ (List.getLast_mem nA) (hc ▸ List.getLast_mem nB))
      (by
        intro hab
        obtain ⟨x, hx, hxe⟩ := List.mem_map.1 (List.getLast_mem nA)
        have := two (a :: A) (b :: B) sA sB h3 altB x hx (.inr (fun y hy => by
          have := hB.le_last nB _ (List.mem_map_of_mem hy)
          omega))
        simpa using this)
      (by
        intro hab
        obtain ⟨x, hx, hxe⟩ := List.mem_map.1 (List.getLast_mem nB)
        have := two (b :: B) (a :: A) sB sA (by omega) altA x hx (.inr (fun y hy => by
          have := hA.le_last nA _ (List.mem_map_of_mem hy)
          omega))
        simpa using this)
    refine ⟨lx, rx, ln, rn, sl, sr, ?_, o1, o2, o3, o4, o5, o6⟩
    have hn : 0 < S.length := by have := rA a (by simp); omega
    have iA : ((a :: A).map (fun k : Nat => (k : K))).map toInt = (a :: A).map (fun k : Nat => (k : Int)) := by
      rw [List.map_map]; apply List.map_congr_left; intro k _; exact toInt_natCast k
    have iB : ((b :: B).map (fun k : Nat => (k : K))).map toInt = (b :: B).map (fun k : Nat => (k : Int)) := by
      rw [List.map_map]; apply List.map_congr_left; intro k _; exact toInt_natCast k
    unfold rawPoints
    simp only [iA, iB]
    have e1' : leftBound nb S ((a :: A).map (fun k : Nat => (k : Int))) ((b :: B).map (fun k : Nat => (k : Int))) = .ok m := e1
    have e2' : leftMirror nb (timeArr S.length : List K) ((a :: A).map (fun k : Nat => (k : Int))) ((b :: B).map (fun k : Nat => (k : Int)))
      (fillMissing ((a :: A).map (fun k : Nat => (k : Int))) ((b :: B).map (fun k : Nat => (k : Int))) m) = _ := e2
    simp only [e1', e2', e3, e4, bind, Except.bind]
    rw [pyTake_sI S lx (hA.rng o1.mem hn), pyTake_sI S ln (hB.rng o2.mem hn), pyTake_sI S rx (hA.rng' o3.mem hn),
      pyTake_sI S rn (hB.rng' o4.mem hn), pyTake_sI S _ (hA.rng (fun i hi => .inl hi) hn), pyTake_sI S _ (hB.rng (fun i hi => .inl hi) hn),
      pyTake_timeArr S.length _ (hA.rng (fun i hi => .inl hi) hn), pyTake_timeArr S.length _ (hB.rng (fun i hi => .inl hi) hn)]
    simp only [pure, Except.pure]
    rw [rawKnots_zip, rawKnots_zip]

/-- `prepare_points_simple` for index lists as the simple detection reports them. -/
theorem preparePointsSimple_ok (nb : Int) (hnb : 1 ≤ nb) (S : List K) (A B : List Nat)
    (sA : A.Pairwise (· < ·)) (sB : B.Pairwise (· < ·)) (rA : ∀ i ∈ A, i + 1 < S.length) (rB : ∀ i ∈ B, i + 1 < S.length)
    (disj : ∀ i ∈ A, i ∉ B)
    (altA : ∀ a ∈ A, ∀ a' ∈ A, a < a' → ∃ b ∈ B, a < b ∧ b < a')
    (altB : ∀ b ∈ B, ∀ b' ∈ B, b < b' → ∃ a ∈ A, b < a ∧ a < b') (h3 : 3 ≤ A.length + B.length) :
    ∃ lx rx ln rn sl sr,
      preparePointsSimple nb (timeArr S.length) S (A.map (fun k : Nat => (k : K))) (B.map (fun k : Nat => (k : K))) =
        .ok (dropDupKnots (rawKnots S (A.map (fun k : Nat => (k : Int))) lx rx sl sr),
          dropDupKnots (rawKnots S (B.map (fun k : Nat => (k : Int))) ln rn sl sr)) ∧
      LeftOK (A.map (fun k : Nat => (k : Int))) lx sl ∧ LeftOK (B.map (fun k : Nat => (k : Int))) ln sl ∧
      RightOK S.length (A.map (fun k : Nat => (k : Int))) rx sr ∧ RightOK S.length (B.map (fun k : Nat => (k : Int))) rn sr ∧
      StartI nb.toNat 0 (· ≤ 0) S (· < ·) (A.map (fun k : Nat => (k : Int))) (B.map (fun k : Nat => (k : Int))) sl lx.reverse ln.reverse ∧
      StartI nb.toNat ((S.length : Int) - 1) (fun i => (S.length : Int) - 1 ≤ i) S (fun i j => j < i)
        (A.map (fun k : Nat => (k : Int))).reverse (B.map (fun k : Nat => (k : Int))).reverse sr rx rn := by
  obtain ⟨lx, rx, ln, rn, sl, sr, h, r⟩ := rawPoints_ok nb hnb S A B sA sB rA rB disj altA altB h3
  refine ⟨lx, rx, ln, rn, sl, sr, ?_, r⟩
  rw [preparePointsSimple_raw, h]
  rfl

end EMD
end PyEMD
