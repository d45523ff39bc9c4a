import Verif.Lemmas.Points
import Verif.Spec.Points

/-!
# Mirroring of extrema with arbitrary increasing time stamps
-/

set_option linter.unusedSectionVars false

namespace PyEMD
namespace EMD
open Spec

variable {K : Type} [Field K] [LinearOrder K] [IsStrictOrderedRing K] [FloorRing K]

theorem sI_mono {T : List K} (hT : T.Pairwise (· < ·)) {i j : Int} (h0 : 0 ≤ i) (hij : i < j) (hj : j < (T.length : Int)) :
    sI T i < sI T j := by
  unfold sI
  rw [getD_lt _ _ _ (by omega), getD_lt _ _ _ (by omega)]
  exact List.pairwise_iff_getElem.1 hT _ _ _ _ (by omega)

theorem sI_mono_le {T : List K} (hT : T.Pairwise (· < ·)) {i j : Int} (h0 : 0 ≤ i) (hij : i ≤ j) (hj : j < (T.length : Int)) :
    sI T i ≤ sI T j := by
  rcases hij.eq_or_lt with rfl | h
  · exact le_refl _
  · exact (sI_mono hT h0 h hj).le

/-- Mirrored times. -/
def mirS (T : List K) (s : Int) (m : List Int) : List K := m.map (fun i : Int => 2 * sI T s - sI T i)

theorem mirrorTimes_sI (T : List K) (s : Int) (m : List Int) (hs : 0 ≤ s ∧ s < (T.length : Int))
    (h : ∀ i ∈ m, 0 ≤ i ∧ i < (T.length : Int)) : mirrorTimes T s m = .ok (mirS T s m) := by
  unfold mirrorTimes
  rw [pyGet_int T s 0 hs.1 hs.2, pyTake_int T m 0 h]
  simp only [bind, Except.bind, pure, Except.pure, List.map_map, lit_two]
  rfl

theorem mirS_head {T : List K} {s : Int} {m : List Int} (h : m ≠ []) : pyGet (mirS T s m) 0 = .ok (2 * sI T s - sI T (m.head h)) := by
  cases m with
  | nil => exact absurd rfl h
  | cons a m => exact pyGet_cons _ _

theorem mirS_last {T : List K} {s : Int} {m : List Int} (h : m ≠ []) :
    pyGet (mirS T s m) (-1) = .ok (2 * sI T s - sI T (m.getLast h)) := by
  have h' : mirS T s m ≠ [] := fun hc => h (List.map_eq_nil_iff.1 hc)
  rw [pyGet_last _ h']
  congr 1
  exact List.getLast_map h'

/-! ## Left edge -/

/-- What the left mirroring guarantees for the extrema `X` of one kind. -/
structure LeftT (T : List K) (X m : List Int) (s : Int) : Prop where
  ne : m ≠ []
  mem : ∀ i ∈ m, i ∈ X ∨ i = 0
  dec : m.Pairwise (· > ·)
  lt : ∀ i ∈ m, ∀ x ∈ X, 2 * sI T s - sI T i < sI T x ∨ (s = 0 ∧ i = 0 ∧ x = 0)
  head : 2 * sI T s - sI T (m.head ne) ≤ sI T 0

theorem LeftT.zero {T : List K} (hT : T.Pairwise (· < ·)) {X m : List Int} (hX : Lists T.length X) (hn : 0 < T.length) (ne : m ≠ [])
    (mem : ∀ i ∈ m, i ∈ X ∨ i = 0) (dec : m.Pairwise (· > ·)) : LeftT T X m 0 := by
  have h0 := hX.rng mem hn
  refine ⟨ne, mem, dec, ?_, ?_⟩
  · intro i hi x hx
    have h1 := h0 i hi
    have h2 := hX.range x hx
    rcases h1.1.eq_or_lt with rfl | hi0
    · rcases h2.1.eq_or_lt with rfl | hx0
      · exact .inr ⟨rfl, rfl, rfl⟩
      · have := sI_mono hT (le_refl 0) hx0 (by omega)
        left; linarith
    · have a1 := sI_mono hT (le_refl 0) hi0 h1.2
      have a2 := sI_mono_le hT (le_refl 0) h2.1 (by omega)
      left; linarith
  · have h1 := h0 _ (List.head_mem ne)
    have := sI_mono_le hT (le_refl 0) h1.1 h1.2
    linarith

/-- Mirroring over an extremum. -/
theorem LeftT.over {T : List K} (hT : T.Pairwise (· < ·)) {X m : List Int} {s : Int} (hX : Lists T.length X) (hs : 0 ≤ s) (ne : m ≠ [])
    (mem : ∀ i ∈ m, i ∈ X ∧ s < i) (dec : m.Pairwise (· > ·)) (ge : ∀ x ∈ X, s ≤ x) (hh : 2 * sI T s - sI T (m.head ne) ≤ sI T 0) :
    LeftT T X m s := by
  refine ⟨ne, fun i hi => .inl (mem i hi).1, dec, ?_, hh⟩
  intro i hi x hx
  have h1 := mem i hi
  have h2 := hX.range i h1.1
  have h3 := hX.range x hx
  have a1 := sI_mono hT hs h1.2 (by omega)
  have a2 := sI_mono_le hT hs (ge x hx) (by omega)
  left; linarith

/-- What `leftBound` returns, by index. -/
structure LeftB (X m : List Int) (s : Int) : Prop where
  ne : m ≠ []
  dec : m.Pairwise (· > ·)
  which : (s = 0 ∧ ∀ i ∈ m, i ∈ X ∨ i = 0) ∨ ((∀ i ∈ m, i ∈ X ∧ s < i) ∧ ∀ x ∈ X, s ≤ x)

theorem leftBound_ok (nb : Int) (hnb : 1 ≤ nb) (S : List K) (a b : Int) (A B : List Int)
    (hA : Lists S.length (a :: A)) (hB : Lists S.length (b :: B)) (hne : a ≠ b)
    (lenA : a < b → 1 ≤ A.length) (lenB : b < a → 1 ≤ B.length) :
    ∃ m, leftBound nb S (a :: A) (b :: B) = .ok m ∧ LeftB (a :: A) m.mx m.sym ∧ LeftB (b :: B) m.mn m.sym ∧
      (m.sym = 0 ∨ (a < b ∧ m.sym = a) ∨ (b < a ∧ m.sym = b)) ∧
      (m.sym = 0 → (∀ i ∈ m.mx, i ∈ a :: A ∨ i = 0) ∧ (∀ i ∈ m.mn, i ∈ b :: B ∨ i = 0)) := by
  have ra := hA.range a (by simp)
  have rb := hB.range b (by simp)
  have geA : ∀ x ∈ a :: A, a ≤ x := by
    intro x hx
    rcases List.mem_cons.1 hx with rfl | hx
    · exact le_refl _
    · exact ((List.pairwise_cons.1 hA.sorted).1 x hx).le
  have geB : ∀ x ∈ b :: B, b ≤ x := by
    intro x hx
    rcases List.mem_cons.1 hx with rfl | hx
    · exact le_refl _
    · exact ((List.pairwise_cons.1 hB.sorted).1 x hx).le
  have ap : ∀ {X : List Int} (hX : Lists S.length X) (h0 : ∀ x ∈ X, 0 < x) (u v : Int), LeftB X ((pySlice X u v).reverse ++ [0]) 0 := by
    intro X hX h0 u v
    refine ⟨by simp, ?_, .inl ⟨rfl, ?_⟩⟩
    · rw [List.pairwise_append]
      refine ⟨reverse_dec hX.sorted (pySlice_sublist _ _ _), by simp, ?_⟩
      intro i hi j hj
      simp at hj
      subst hj
      exact h0 i (mem_pySlice (List.mem_reverse.1 hi))
    · intro i hi
      rcases List.mem_append.1 hi with hi | hi
      · exact .inl (mem_pySlice (List.mem_reverse.1 hi))
      · simp at hi; exact .inr hi
  have zr : ∀ {X m : List Int} {s : Int}, LeftB X m s → s = 0 → ∀ i ∈ m, i ∈ X ∨ i = 0 := by
    intro X m s h hs i hi
    rcases h.which with w | w
    · exact w.2 i hi
    · exact .inl (w.1 i hi).1
  unfold leftBound
  simp only [pyGet_cons, bind, Except.bind]
  rw [pyGet_int S 0 0 (by omega) (by omega), pyGet_int S a 0 (by omega) (by omega), pyGet_int S b 0 (by omega) (by omega)]
  simp only [List.length_cons, Nat.cast_add, Nat.cast_one]
  by_cases hab : a < b
  · have lA := lenA hab
    rw [if_pos hab]
    split
    · have nx : (pySlice (a :: A) 1 (min ((A.length : Int) + 1) (nb + 1))).reverse ≠ [] := by
        rw [Ne, List.reverse_eq_nil_iff]
        exact pySlice_ne_nil (by omega) (by omega) (by simp)
      have nm : (pySlice (b :: B) 0 (min ((B.length : Int) + 1) (nb + 0))).reverse ≠ [] := by
        rw [Ne, List.reverse_eq_nil_iff]
        exact pySlice_ne_nil (by omega) (by omega) (by simp)
      have b1 : LeftB (a :: A) (pySlice (a :: A) 1 (min ((A.length : Int) + 1) (nb + 1))).reverse a :=
        ⟨nx, reverse_dec hA.sorted (pySlice_sublist _ _ _), .inr ⟨fun i hi => ⟨mem_pySlice (List.mem_reverse.1 hi),
          (List.pairwise_cons.1 hA.sorted).1 i (mem_pySlice_tail (by omega) (List.mem_reverse.1 hi))⟩, geA⟩⟩
      have b2 : LeftB (b :: B) (pySlice (b :: B) 0 (min ((B.length : Int) + 1) (nb + 0))).reverse a :=
        ⟨nm, reverse_dec hB.sorted (pySlice_sublist _ _ _), .inr ⟨fun i hi => ⟨mem_pySlice (List.mem_reverse.1 hi),
          by have := geB i (mem_pySlice (List.mem_reverse.1 hi)); omega⟩, fun x hx => by have := geB x hx; omega⟩⟩
      exact ⟨_, rfl, b1, b2, .inr (.inl ⟨hab, rfl⟩), fun hs => ⟨zr b1 hs, zr b2 hs⟩⟩
    · have nx : (pySlice (a :: A) 0 (min ((A.length : Int) + 1) nb)).reverse ≠ [] := by
        rw [Ne, List.reverse_eq_nil_iff]
        exact pySlice_ne_nil (by omega) (by omega) (by simp)
      have b1 : LeftB (a :: A) (pySlice (a :: A) 0 (min ((A.length : Int) + 1) nb)).reverse 0 :=
        ⟨nx, reverse_dec hA.sorted (pySlice_sublist _ _ _), .inl ⟨rfl, fun i hi => .inl (mem_pySlice (List.mem_reverse.1 hi))⟩⟩
      have b2 := ap hB (fun x hx => by have := geB x hx; omega) 0 (min ((B.length : Int) + 1) (nb - 1))
      exact ⟨_, rfl, b1, b2, .inl rfl, fun hs => ⟨zr b1 hs, zr b2 hs⟩⟩
  · have hba : b < a := by omega
    have lB := lenB hba
    rw [if_neg hab]
    split
    · have nx : (pySlice (a :: A) 0 (min ((A.length : Int) + 1) (nb + 0))).reverse ≠ [] := by
        rw [Ne, List.reverse_eq_nil_iff]
        exact pySlice_ne_nil (by omega) (by omega) (by simp)
      have nm : (pySlice (b :: B) 1 (min ((B.length : Int) + 1) (nb + 1))).reverse ≠ [] := by
        rw [Ne, List.reverse_eq_nil_iff]
        exact pySlice_ne_nil (by omega) (by omega) (by simp)
      have b1 : LeftB (a :: A) (pySlice (a :: A) 0 (min ((A.length : Int) + 1) (nb + 0))).reverse b :=
        ⟨nx, reverse_dec hA.sorted (pySlice_sublist _ _ _), .inr ⟨fun i hi => ⟨mem_pySlice (List.mem_reverse.1 hi),
          by have := geA i (mem_pySlice (List.mem_reverse.1 hi)); omega⟩, fun x hx => by have := geA x hx; omega⟩⟩
      have b2 : LeftB (b :: B) (pySlice (b :: B) 1 (min ((B.length : Int) + 1) (nb + 1))).reverse b :=
        ⟨nm, reverse_dec hB.sorted (pySlice_sublist _ _ _), .inr ⟨fun i hi => ⟨mem_pySlice (List.mem_reverse.1 hi),
          (List.pairwise_cons.1 hB.sorted).1 i (mem_pySlice_tail (by omega) (List.mem_reverse.1 hi))⟩, geB⟩⟩
      exact ⟨_, rfl, b1, b2, .inr (.inr ⟨hba, rfl⟩), fun hs => ⟨zr b1 hs, zr b2 hs⟩⟩
    · have nm : (pySlice (b :: B) 0 (min ((B.length : Int) + 1) nb)).reverse ≠ [] := by
        rw [Ne, List.reverse_eq_nil_iff]
        exact pySlice_ne_nil (by omega) (by omega) (by simp)
      have b2 : LeftB (b :: B) (pySlice (b :: B) 0 (min ((B.length : Int) + 1) nb)).reverse 0 :=
        ⟨nm, reverse_dec hB.sorted (pySlice_sublist _ _ _), .inl ⟨rfl, fun i hi => .inl (mem_pySlice (List.mem_reverse.1 hi))⟩⟩
      have b1 := ap hA (fun x hx => by have := geA x hx; omega) 0 (min ((A.length : Int) + 1) (nb - 1))
      exact ⟨_, rfl, b1, b2, .inl rfl, fun hs => ⟨zr b1 hs, zr b2 hs⟩⟩

theorem leftTime_ok (nb : Int) (hnb : 1 ≤ nb) (T S : List K) (hT : T.Pairwise (· < ·)) (hl : T.length = S.length) (a b : Int) (A B : List Int)
    (hA : Lists S.length (a :: A)) (hB : Lists S.length (b :: B)) (hne : a ≠ b)
    (lenA : a < b → 1 ≤ A.length) (lenB : b < a → 1 ≤ B.length) :
    ∃ m s mx mn, leftBound nb S (a :: A) (b :: B) = .ok m ∧
      leftMirror nb T (a :: A) (b :: B) (fillMissing (a :: A) (b :: B) m) =
        .ok { tmx := mirS T s mx, tmn := mirS T s mn, mx := mx, mn := mn } ∧
      LeftT T (a :: A) mx s ∧ LeftT T (b :: B) mn s ∧ 0 ≤ s ∧ s < (T.length : Int) := by
  obtain ⟨m, hm, b1, b2, hsym, hz⟩ := leftBound_ok nb hnb S a b A B hA hB hne lenA lenB
  rw [← hl] at hA hB
  have ra := hA.range a (by simp)
  have rb := hB.range b (by simp)
  have hn : 0 < T.length := by omega
  have hs : 0 ≤ m.sym ∧ m.sym < (T.length : Int) := by omega
  have mem1 : ∀ i ∈ m.mx, i ∈ a :: A ∨ i = 0 := by
    rcases b1.which with w | w
    · exact w.2
    · exact fun i hi => .inl (w.1 i hi).1
  have mem2 : ∀ i ∈ m.mn, i ∈ b :: B ∨ i = 0 := by
    rcases b2.which with w | w
    · exact w.2
    · exact fun i hi => .inl (w.1 i hi).1
  have rx := hA.rng mem1 hn
  have rn := hB.rng mem2 hn
  have sl : ∀ (X : List Int) (x : Int), Lists T.length (x :: X) →
      LeftT T (x :: X) (pySlice (x :: X) 0 (min (((x :: X).length : Nat) : Int) nb)).reverse 0 := by
    intro X x hX
    refine LeftT.zero hT hX hn ?_ (fun i hi => .inl (mem_pySlice (List.mem_reverse.1 hi))) (reverse_dec hX.sorted (pySlice_sublist _ _ _))
    rw [Ne, List.reverse_eq_nil_iff]
    exact pySlice_ne_nil (by omega) (by simp <;> omega) (by simp <;> omega)
  have T0 : pyGet T 0 = .ok (sI T 0) := pyGet_int T 0 0 (by omega) (by omega)
  suffices h : ∃ s mx mn, leftMirror nb T (a :: A) (b :: B) (fillMissing (a :: A) (b :: B) m) =
        .ok { tmx := mirS T s mx, tmn := mirS T s mn, mx := mx, mn := mn } ∧
      LeftT T (a :: A) mx s ∧ LeftT T (b :: B) mn s ∧ 0 ≤ s ∧ s < (T.length : Int) by
    obtain ⟨s, mx, mn, h⟩ := h
    exact ⟨m, s, mx, mn, hm, h⟩
  unfold leftMirror
  rw [fillMissing_id b1.ne b2.ne, mirrorTimes_sI T _ _ hs rx, mirrorTimes_sI T _ _ hs rn]
  simp only [bind, Except.bind, mirS_head b1.ne, mirS_head b2.ne, T0, pyGet_cons]
  by_cases hk : sI T 0 < 2 * sI T m.sym - sI T (m.mn.head b2.ne) ∨ sI T 0 < 2 * sI T m.sym - sI T (m.mx.head b1.ne)
  · have hs0 : m.sym ≠ 0 := by
      intro h0
      have e0 : sI T m.sym = sI T 0 := by rw [h0]
      rw [e0] at hk
      have h1 := rn _ (List.head_mem b2.ne)
      have h2 := rx _ (List.head_mem b1.ne)
      have := sI_mono_le hT (le_refl 0) h1.1 h1.2
      have := sI_mono_le hT (le_refl 0) h2.1 h2.2
      rcases hk with hk | hk <;> linarith
    have w1 : LeftT T (a :: A) m.mx 0 := LeftT.zero hT hA hn b1.ne mem1 b1.dec
    have w2 : LeftT T (b :: B) m.mn 0 := LeftT.zero hT hB hn b2.ne mem2 b2.dec
    have hz0 : (0 : Int) ≤ 0 ∧ (0 : Int) < (T.length : Int) := by omega
    rw [if_pos hk]
    by_cases hc : m.sym = a
    · refine ⟨0, _, m.mn, ?_, sl A a hA, w2, by omega, by omega⟩
      rw [if_pos hc]
      simp only []
      rw [if_neg hs0, mirrorTimes_sI T _ _ hz0 (hA.rng (sl A a hA).mem hn), mirrorTimes_sI T _ _ hz0 rn]
      rfl
    · refine ⟨0, m.mx, _, ?_, w1, sl B b hB, by omega, by omega⟩
      rw [if_neg hc]
      simp only []
      rw [if_neg hs0, mirrorTimes_sI T _ _ hz0 rx, mirrorTimes_sI T _ _ hz0 (hB.rng (sl B b hB).mem hn)]
      rfl
  · rw [if_neg hk]
    push Not at hk
    refine ⟨m.sym, m.mx, m.mn, rfl, ?_, ?_, hs.1, hs.2⟩
    · rcases b1.which with w | w
      · rw [w.1]; exact LeftT.zero hT hA hn b1.ne mem1 b1.dec
      · exact LeftT.over hT hA hs.1 b1.ne w.1 b1.dec w.2 hk.2
    · rcases b2.which with w | w
      · rw [w.1]; exact LeftT.zero hT hB hn b2.ne mem2 b2.dec
      · exact LeftT.over hT hB hs.1 b2.ne w.1 b2.dec w.2 hk.1

/-! ## Right edge -/

/-- What the right mirroring guarantees for the extrema `X` of one kind. -/
structure RightT (T : List K) (X m : List Int) (s : Int) : Prop where
  ne : m ≠ []
  mem : ∀ i ∈ m, i ∈ X ∨ i = T.length - 1
  dec : m.Pairwise (· > ·)
  gt : ∀ i ∈ m, ∀ x ∈ X, sI T x < 2 * sI T s - sI T i
  last : sI T (T.length - 1) ≤ 2 * sI T s - sI T (m.getLast ne)

theorem RightT.end {T : List K} (hT : T.Pairwise (· < ·)) {X m : List Int} (hX : Lists T.length X) (hn : 0 < T.length) (ne : m ≠ [])
    (mem : ∀ i ∈ m, i ∈ X ∨ i = T.length - 1) (dec : m.Pairwise (· > ·)) : RightT T X m (T.length - 1) := by
  have h0 := hX.rng' mem hn
  refine ⟨ne, mem, dec, ?_, ?_⟩
  · intro i hi x hx
    have h1 := h0 i hi
    have h2 := hX.range x hx
    have a1 := sI_mono_le hT h1.1 (show i ≤ (T.length : Int) - 1 by omega) (by omega)
    have a2 := sI_mono hT h2.1 (show x < (T.length : Int) - 1 by omega) (by omega)
    linarith
  · have h1 := h0 _ (List.getLast_mem ne)
    have := sI_mono_le hT h1.1 (show m.getLast ne ≤ (T.length : Int) - 1 by omega) (by omega)
    linarith

/-- Mirroring over an extremum. -/
theorem RightT.over {T : List K} (hT : T.Pairwise (· < ·)) {X m : List Int} {s : Int} (hX : Lists T.length X) (hs : s < (T.length : Int))
    (ne : m ≠ []) (mem : ∀ i ∈ m, i ∈ X ∧ i < s) (dec : m.Pairwise (· > ·)) (le : ∀ x ∈ X, x ≤ s)
    (hh : sI T (T.length - 1) ≤ 2 * sI T s - sI T (m.getLast ne)) : RightT T X m s := by
  refine ⟨ne, fun i hi => .inl (mem i hi).1, dec, ?_, hh⟩
  intro i hi x hx
  have h1 := mem i hi
  have h2 := hX.range i h1.1
  have h3 := hX.range x hx
  have a1 := sI_mono hT h2.1 h1.2 hs
  have a2 := sI_mono_le hT h3.1 (le x hx) hs
  linarith

/-- What `rightBound` returns, by index. -/
structure RightB (n : Nat) (X m : List Int) (s : Int) : Prop where
  ne : m ≠ []
  dec : m.Pairwise (· > ·)
  which : (s = n - 1 ∧ ∀ i ∈ m, i ∈ X ∨ i = n - 1) ∨ ((∀ i ∈ m, i ∈ X ∧ i < s) ∧ ∀ x ∈ X, x ≤ s)

theorem rightBound_ok (nb : Int) (hnb : 1 ≤ nb) (S : List K) (A B : List Int)
    (hA : Lists S.length A) (hB : Lists S.length B) (nA : A ≠ []) (nB : B ≠ []) (hne : A.getLast nA ≠ B.getLast nB)
    (lenA : B.getLast nB < A.getLast nA → 2 ≤ A.length) (lenB : A.getLast nA < B.getLast nB → 2 ≤ B.length) :
    ∃ m, rightBound nb S A B = .ok m ∧ RightB S.length A m.mx m.sym ∧ RightB S.length B m.mn m.sym ∧
      (m.sym = S.length - 1 ∨ (B.getLast nB < A.getLast nA ∧ m.sym = A.getLast nA) ∨ (A.getLast nA < B.getLast nB ∧ m.sym = B.getLast nB)) := by
  have ra := hA.range _ (List.getLast_mem nA)
  have rb := hB.range _ (List.getLast_mem nB)
  have hn : 0 < S.length := by omega
  have lA := List.length_pos_of_ne_nil nA
  have lB := List.length_pos_of_ne_nil nB
  have nS : S ≠ [] := List.ne_nil_of_length_pos hn
  have ap : ∀ {X : List Int} (hX : Lists S.length X) (u : Int), RightB S.length X (pySliceFrom X u ++ [(S.length : Int) - 1]).reverse (S.length - 1) := by
    intro X hX u
    refine ⟨by simp, ?_, .inl ⟨rfl, ?_⟩⟩
    · rw [List.pairwise_reverse, List.pairwise_append]
      refine ⟨hX.sorted.sublist (pySliceFrom_sublist _ _), by simp, ?_⟩
      intro i hi j hj
      simp at hj
      subst hj
      have := hX.range i (mem_pySliceFrom hi)
      omega
    · intro i hi
      rcases List.mem_append.1 (List.mem_reverse.1 hi) with hi | hi
      · exact .inl (mem_pySliceFrom hi)
      · simp at hi; exact .inr hi
  have en : ∀ {X : List Int} (hX : Lists S.length X) (nX : X ≠ []), RightB S.length X (pySliceFrom X (max ((X.length : Int) - nb) 0)).reverse (S.length - 1) := by
    intro X hX nX
    have lX := List.length_pos_of_ne_nil nX
    refine ⟨?_, reverse_dec hX.sorted (pySliceFrom_sublist _ _), .inl ⟨rfl, fun i hi => .inl (mem_pySliceFrom (List.mem_reverse.1 hi))⟩⟩
    rw [Ne, List.reverse_eq_nil_iff]
    exact pySliceFrom_ne_nil (by omega) (by omega)
  have ot : ∀ {X : List Int} (hX : Lists S.length X) (nX : X ≠ []) (s : Int), X.getLast nX < s →
      RightB S.length X (pySliceFrom X (max ((X.length : Int) - nb) 0)).reverse s := by
    intro X hX nX s hs
    have lX := List.length_pos_of_ne_nil nX
    refine ⟨?_, reverse_dec hX.sorted (pySliceFrom_sublist _ _), .inr ⟨fun i hi => ⟨mem_pySliceFrom (List.mem_reverse.1 hi), ?_⟩, fun x hx => ?_⟩⟩
    · rw [Ne, List.reverse_eq_nil_iff]
      exact pySliceFrom_ne_nil (by omega) (by omega)
    · have := hX.le_last nX i (mem_pySliceFrom (List.mem_reverse.1 hi)); omega
    · have := hX.le_last nX x hx; omega
  have ow : ∀ {X : List Int} (hX : Lists S.length X) (nX : X ≠ []), 2 ≤ X.length →
      RightB S.length X (pySlice X (max ((X.length : Int) - nb - 1) 0) (-1)).reverse (X.getLast nX) := by
    intro X hX nX lX
    refine ⟨?_, reverse_dec hX.sorted (pySlice_sublist _ _ _), .inr ⟨fun i hi => ⟨mem_pySlice (List.mem_reverse.1 hi), ?_⟩, fun x hx => hX.le_last nX x hx⟩⟩
    · rw [Ne, List.reverse_eq_nil_iff]
      exact pySlice_dropLast_ne_nil (by omega) (by omega)
    · exact hX.lt_last nX i (mem_pySlice_dropLast (List.mem_reverse.1 hi))
  unfold rightBound
  simp only [pyGet_last A nA, pyGet_last B nB, pyGet_last S nS, bind, Except.bind]
  rw [pyGet_int S (A.getLast nA) 0 (by omega) (by omega), pyGet_int S (B.getLast nB) 0 (by omega) (by omega)]
  simp only []
  by_cases hab : A.getLast nA < B.getLast nB
  · rw [if_pos hab]
    split
    · exact ⟨_, rfl, ot hA nA _ hab, ow hB nB (lenB hab), .inr (.inr ⟨hab, rfl⟩)⟩
    · exact ⟨_, rfl, ap hA _, en hB nB, .inl rfl⟩
  · have hba : B.getLast nB < A.getLast nA := by omega
    rw [if_neg hab]
    split
    · exact ⟨_, rfl, ow hA nA (lenA hba), ot hB nB _ hba, .inr (.inl ⟨hba, rfl⟩)⟩
    · exact ⟨_, rfl, en hA nA, ap hB _, .inl rfl⟩

theorem rightTime_ok (nb : Int) (hnb : 1 ≤ nb) (T S : List K) (hT : T.Pairwise (· < ·)) (hl : T.length = S.length) (A B : List Int)
    (hA : Lists S.length A) (hB : Lists S.length B) (nA : A ≠ []) (nB : B ≠ []) (hne : A.getLast nA ≠ B.getLast nB)
    (lenA : B.getLast nB < A.getLast nA → 2 ≤ A.length) (lenB : A.getLast nA < B.getLast nB → 2 ≤ B.length) :
    ∃ m s mx mn, rightBound nb S A B = .ok m ∧
      rightMirror nb T S.length A B (fillMissing A B m) =
        .ok { tmx := mirS T s mx, tmn := mirS T s mn, mx := mx, mn := mn } ∧
      RightT T A mx s ∧ RightT T B mn s ∧ 0 ≤ s ∧ s < (T.length : Int) := by
  obtain ⟨m, hm, b1, b2, hsym⟩ := rightBound_ok nb hnb S A B hA hB nA nB hne lenA lenB
  rw [← hl] at hA hB b1 b2 hsym ⊢
  have ra := hA.range _ (List.getLast_mem nA)
  have rb := hB.range _ (List.getLast_mem nB)
  have hn : 0 < T.length := by omega
  have nT : T ≠ [] := List.ne_nil_of_length_pos hn
  have hs : 0 ≤ m.sym ∧ m.sym < (T.length : Int) := by omega
  have mem1 : ∀ i ∈ m.mx, i ∈ A ∨ i = T.length - 1 := by
    rcases b1.which with w | w
    · exact w.2
    · exact fun i hi => .inl (w.1 i hi).1
  have mem2 : ∀ i ∈ m.mn, i ∈ B ∨ i = T.length - 1 := by
    rcases b2.which with w | w
    · exact w.2
    · exact fun i hi => .inl (w.1 i hi).1
  have rx := hA.rng' mem1 hn
  have rn := hB.rng' mem2 hn
  have sl : ∀ (X : List Int), X ≠ [] → Lists T.length X → RightT T X (pySliceFrom X (max ((X.length : Int) - nb) 0)).reverse (T.length - 1) := by
    intro X nX hX
    have lX := List.length_pos_of_ne_nil nX
    refine RightT.end hT hX hn ?_ (fun i hi => .inl (mem_pySliceFrom (List.mem_reverse.1 hi))) (reverse_dec hX.sorted (pySliceFrom_sublist _ _))
    rw [Ne, List.reverse_eq_nil_iff]
    exact pySliceFrom_ne_nil (by omega) (by omega)
  have TL : pyGet T (-1) = .ok (sI T (T.length - 1)) := by
    rw [pyGet_last T nT, List.getLast_eq_getElem, sI, getD_lt _ _ _ (by omega)]
    congr 2
    omega
  suffices h : ∃ s mx mn, rightMirror nb T T.length A B (fillMissing A B m) =
        .ok { tmx := mirS T s mx, tmn := mirS T s mn, mx := mx, mn := mn } ∧
      RightT T A mx s ∧ RightT T B mn s ∧ 0 ≤ s ∧ s < (T.length : Int) by
    obtain ⟨s, mx, mn, h⟩ := h
    exact ⟨m, s, mx, mn, hm, h⟩
  unfold rightMirror
  rw [fillMissing_id b1.ne b2.ne, mirrorTimes_sI T _ _ hs rx, mirrorTimes_sI T _ _ hs rn]
  simp only [bind, Except.bind, mirS_last b1.ne, mirS_last b2.ne, TL, pyGet_last A nA]
  by_cases hk : 2 * sI T m.sym - sI T (m.mn.getLast b2.ne) < sI T (T.length - 1) ∨ 2 * sI T m.sym - sI T (m.mx.getLast b1.ne) < sI T (T.length - 1)
  · have hs0 : m.sym ≠ (T.length : Int) - 1 := by
      intro h0
      have e0 : sI T m.sym = sI T (T.length - 1) := by rw [h0]
      rw [e0] at hk
      have h1 := rn _ (List.getLast_mem b2.ne)
      have h2 := rx _ (List.getLast_mem b1.ne)
      have := sI_mono_le hT h1.1 (show _ ≤ (T.length : Int) - 1 by omega) (by omega)
      have := sI_mono_le hT h2.1 (show _ ≤ (T.length : Int) - 1 by omega) (by omega)
      rcases hk with hk | hk <;> linarith
    have w1 : RightT T A m.mx (T.length - 1) := RightT.end hT hA hn b1.ne mem1 b1.dec
    have w2 : RightT T B m.mn (T.length - 1) := RightT.end hT hB hn b2.ne mem2 b2.dec
    have hz0 : (0 : Int) ≤ (T.length : Int) - 1 ∧ (T.length : Int) - 1 < (T.length : Int) := by omega
    rw [if_pos hk]
    by_cases hc : m.sym = A.getLast nA
    · refine ⟨_, _, m.mn, ?_, sl A nA hA, w2, hz0.1, hz0.2⟩
      rw [if_pos hc]
      simp only []
      rw [if_neg hs0, mirrorTimes_sI T _ _ hz0 (hA.rng' (sl A nA hA).mem hn), mirrorTimes_sI T _ _ hz0 rn]
      rfl
    · refine ⟨_, m.mx, _, ?_, w1, sl B nB hB, hz0.1, hz0.2⟩
      rw [if_neg hc]
      simp only []
      rw [if_neg hs0, mirrorTimes_sI T _ _ hz0 rx, mirrorTimes_sI T _ _ hz0 (hB.rng' (sl B nB hB).mem hn)]
      rfl
  · rw [if_neg hk]
    push Not at hk
    refine ⟨m.sym, m.mx, m.mn, rfl, ?_, ?_, hs.1, hs.2⟩
    · rcases b1.which with w | w
      · rw [w.1]; exact RightT.end hT hA hn b1.ne mem1 b1.dec
      · exact RightT.over hT hA hs.2 b1.ne w.1 b1.dec w.2 hk.2
    · rcases b2.which with w | w
      · rw [w.1]; exact RightT.end hT hB hn b2.ne mem2 b2.dec
      · exact RightT.over hT hB hs.2 b2.ne w.1 b2.dec w.2 hk.1

/-! ## The knots -/

/-- All knots of one kind before duplicates are removed. -/
def timeKnots (T S : List K) (X l r : List Int) (sl sr : Int) : List (K × K) :=
  l.map (fun i : Int => (2 * sI T sl - sI T i, sI S i)) ++ X.map (fun i : Int => (sI T i, sI S i)) ++
    r.map (fun i : Int => (2 * sI T sr - sI T i, sI S i))

theorem timeKnots_sorted {T S : List K} (hT : T.Pairwise (· < ·)) {X l r : List Int} {sl sr : Int} (hX : Lists T.length X) (nX : X ≠ [])
    (hl : LeftT T X l sl) (hr : RightT T X r sr) :
    (timeKnots T S X l r sl sr).Pairwise (fun p q => p.1 < q.1 ∨ p = q) := by
  have hn : 0 < T.length := by have := hX.range _ (List.head_mem nX); omega
  have rl := hX.rng hl.mem hn
  have rr := hX.rng' hr.mem hn
  unfold timeKnots
  rw [List.pairwise_append, List.pairwise_append]
  refine ⟨⟨?_, ?_, ?_⟩, ?_, ?_⟩
  · rw [List.pairwise_map]
    refine hl.dec.imp_of_mem ?_
    intro a b ha hb hab
    have := sI_mono hT (rl b hb).1 hab (rl a ha).2
    left; simp only; linarith
  · rw [List.pairwise_map]
    refine hX.sorted.imp_of_mem ?_
    intro a b ha hb hab
    exact .inl (sI_mono hT (hX.range a ha).1 hab (by have := hX.range b hb; omega))
  · simp only [List.mem_map]
    rintro _ ⟨i, hi, rfl⟩ _ ⟨x, hx, rfl⟩
    rcases hl.lt i hi x hx with h | ⟨rfl, rfl, rfl⟩
    · exact .inl h
    · right
      simp only [Prod.mk.injEq, and_true]
      ring
  · rw [List.pairwise_map]
    refine hr.dec.imp_of_mem ?_
    intro a b ha hb hab
    have := sI_mono hT (rr b hb).1 hab (rr a ha).2
    left; simp only; linarith
  · simp only [List.mem_append, List.mem_map]
    rintro _ (⟨i, hi, rfl⟩ | ⟨x, hx, rfl⟩) _ ⟨j, hj, rfl⟩
    · left
      have h2 := hr.gt j hj _ (List.head_mem nX)
      rcases hl.lt i hi _ (List.head_mem nX) with h1 | ⟨rfl, rfl, h1⟩
      · exact h1.trans h2
      · rw [h1] at h2
        simp only
        linarith
    · exact .inl (hr.gt j hj x hx)

/-- From the mirroring guarantees to good knots. -/
theorem goodTimeKnots {T S : List K} (hT : T.Pairwise (· < ·)) (hTS : T.length = S.length) {X : List Nat} {l r : List Int} {sl sr : Int}
    (sX : X.Pairwise (· < ·)) (rX : ∀ i ∈ X, i + 1 < S.length) (hpos : ∃ c ∈ X, 0 < c)
    (hl : LeftT T (X.map (fun k : Nat => (k : Int))) l sl) (hr : RightT T (X.map (fun k : Nat => (k : Int))) r sr) :
    GoodKnots T S (X.map (sAt T)) (X.map (sAt S)) (dropDupKnots (timeKnots T S (X.map (fun k : Nat => (k : Int))) l r sl sr)) := by
  have hX : Lists T.length (X.map (fun k : Nat => (k : Int))) := by
    constructor
    · rw [List.pairwise_map]; exact sX.imp (fun h => by omega)
    · simp only [List.mem_map]
      rintro _ ⟨k, hk, rfl⟩
      have := rX k hk
      omega
  obtain ⟨c, hc, hc0⟩ := hpos
  have hn : 0 < T.length := by have := rX c hc; omega
  have nT : T ≠ [] := List.ne_nil_of_length_pos hn
  have nX : X.map (fun k : Nat => (k : Int)) ≠ [] := by
    rintro h
    rw [List.map_eq_nil_iff] at h
    rw [h] at hc; cases hc
  have hsort := timeKnots_sorted (S := S) hT hX nX hl hr
  have hmem := dropDup_mem hsort
  have hinc := dropDup_sorted hsort
  have hraw : timeKnots T S (X.map (fun k : Nat => (k : Int))) l r sl sr =
      (2 * sI T sl - sI T (l.head hl.ne), sI S (l.head hl.ne)) ::
        (l.tail.map (fun i : Int => (2 * sI T sl - sI T i, sI S i)) ++ (X.map (fun k : Nat => (k : Int))).map (fun i : Int => (sI T i, sI S i)) ++
          r.map (fun i : Int => (2 * sI T sr - sI T i, sI S i))) := by
    unfold timeKnots
    conv_lhs => rw [← List.cons_head_tail hl.ne]
    rfl
  obtain ⟨rest, hrest⟩ : ∃ rest, dropDupKnots (timeKnots T S (X.map (fun k : Nat => (k : Int))) l r sl sr) =
      (2 * sI T sl - sI T (l.head hl.ne), sI S (l.head hl.ne)) :: rest := by
    rw [hraw] at hsort ⊢
    exact dropDup_head hsort
  have m2 : (sI T (c : Int), sI S (c : Int)) ∈ timeKnots T S (X.map (fun k : Nat => (k : Int))) l r sl sr := by
    unfold timeKnots
    simp only [List.mem_append]
    exact .inl (.inr (List.mem_map_of_mem (f := fun i : Int => (sI T i, sI S i)) (List.mem_map_of_mem hc)))
  have m3 : ((2 * sI T sr - sI T (r.getLast hr.ne), sI S (r.getLast hr.ne)) : K × K) ∈
      timeKnots T S (X.map (fun k : Nat => (k : Int))) l r sl sr := by
    unfold timeKnots
    simp only [List.mem_append]
    exact .inr (List.mem_map_of_mem (f := fun i : Int => (2 * sI T sr - sI T i, sI S i)) (List.getLast_mem hr.ne))
  have rc := rX c hc
  have l12 : 2 * sI T sl - sI T (l.head hl.ne) < sI T (c : Int) :=
    lt_of_le_of_lt hl.head (sI_mono hT (le_refl 0) (by omega) (by omega))
  have l23 : sI T (c : Int) < 2 * sI T sr - sI T (r.getLast hr.ne) :=
    lt_of_lt_of_le (sI_mono hT (by omega) (show (c : Int) < (T.length : Int) - 1 by omega) (by omega)) hr.last
  constructor
  · have h2 := (hmem _).2 m2
    have h3 := (hmem _).2 m3
    rw [hrest] at h2 h3 ⊢
    have h2' : (sI T (c : Int), sI S (c : Int)) ∈ rest := by
      rcases List.mem_cons.1 h2 with h | h
      · exact absurd (congrArg Prod.fst h) l12.ne'
      · exact h
    have h3' : ((2 * sI T sr - sI T (r.getLast hr.ne), sI S (r.getLast hr.ne)) : K × K) ∈ rest := by
      rcases List.mem_cons.1 h3 with h | h
      · exact absurd (congrArg Prod.fst h) (l12.trans l23).ne'
      · exact h
    match rest, h2', h3' with
    | [x], h2', h3' =>
      simp only [List.mem_singleton] at h2' h3'
      exact absurd (congrArg Prod.fst (h2'.trans h3'.symm)) l23.ne
    | _ :: _ :: _, _, _ => simp
  · exact hinc
  · refine ⟨_, sI T 0, by rw [hrest]; rfl, ?_, hl.head⟩
    match T, nT with
    | _ :: _, _ => rfl
  · have hne : dropDupKnots (timeKnots T S (X.map (fun k : Nat => (k : Int))) l r sl sr) ≠ [] := by rw [hrest]; simp
    refine ⟨_, sI T (T.length - 1), List.getLast?_eq_some_getLast hne, ?_, ?_⟩
    · rw [List.getLast?_eq_some_getLast nT, List.getLast_eq_getElem, sI, getD_lt _ _ _ (by omega)]
      congr 2
      omega
    · have h3 := (hmem _).2 m3
      have hge : 2 * sI T sr - sI T (r.getLast hr.ne) ≤
          ((dropDupKnots (timeKnots T S (X.map (fun k : Nat => (k : Int))) l r sl sr)).getLast hne).1 := by
        have e := List.dropLast_append_getLast hne
        have hi := hinc
        rw [← e] at h3 hi
        rw [List.pairwise_append] at hi
        rcases List.mem_append.1 h3 with h | h
        · exact (hi.2.2 _ h _ (by simp)).le
        · simp only [List.mem_singleton] at h
          exact (congrArg Prod.fst h).le
      exact le_trans hr.last hge
  · intro p hp
    rw [zip_maps, List.mem_map] at hp
    obtain ⟨k, hk, rfl⟩ := hp
    rw [hmem]
    unfold timeKnots
    simp only [List.mem_append]
    refine .inl (.inr ?_)
    rw [List.map_map, List.mem_map]
    exact ⟨k, hk, by simp [sI, sAt]⟩
  · intro p hp
    rw [hmem] at hp
    unfold timeKnots at hp
    simp only [List.mem_append, List.mem_map] at hp
    have sm : ∀ {i : Int}, 0 ≤ i → i < (S.length : Int) → sI S i ∈ S := by
      intro i h0 h1
      rw [sI, getD_lt _ _ _ (by omega)]
      exact List.getElem_mem _
    rcases hp with (⟨i, hi, rfl⟩ | ⟨i, ⟨k, hk, rfl⟩, rfl⟩) | ⟨i, hi, rfl⟩
    · have := hX.rng hl.mem hn i hi
      exact sm this.1 (by omega)
    · have := rX k hk
      exact sm (by omega) (by omega)
    · have := hX.rng' hr.mem hn i hi
      exact sm this.1 (by omega)

end EMD
end PyEMD
