import Mathlib.Analysis.Real.Sqrt
import Verif.Model.Rbf
import Verif.Props.BemdSymmetry
import Verif.Props.BemdNegation

/-!
# C155: BEMD with scipy's `Rbf`
-/

set_option linter.unusedSectionVars false

namespace PyEMD
namespace Scipy
open Img Img.Spec EMD2D

section
variable {K : Type} [Field K]

/-- The surface through points given as pairs of position and value. -/
theorem rbf_points (root : K → K) (P : List ((Nat × Nat) × K)) :
    rbf root (P.map (·.1.1)) (P.map (·.1.2)) (P.map (·.2)) = rbf root ((P.map (·.1)).map (·.1)) ((P.map (·.1)).map (·.2)) (P.map (·.2)) := by
  simp [List.map_map, Function.comp_def]

theorem kernel_solves (root : K → K) (P : List (Nat × Nat)) (z : Fin P.length → K) (h : (kernelMatrix root P).det ≠ 0) :
    (kernelMatrix root P).mulVec ((kernelMatrix root P)⁻¹.mulVec z) = z := by
  rw [Matrix.mulVec_mulVec, Matrix.mul_nonsing_inv _ (isUnit_iff_ne_zero.2 h), Matrix.one_mulVec]

theorem rbf_ok {root : K → K} {X Y : List Nat} {Z : List K} {s : Nat → Nat → K} (h : rbf root X Y Z = .ok s) :
    X.length = Z.length ∧ Y.length = Z.length ∧ (kernelMatrix root (X.zip Y)).det ≠ 0 ∧
      s = fun x y => ∑ j, cubicKernel root (x, y) ((X.zip Y).get j) * (kernelMatrix root (X.zip Y))⁻¹.mulVec (fun i => Z.getD i 0) j := by
  unfold rbf at h
  dsimp only at h
  split at h
  · cases h
  · rename_i hl
    split at h
    · cases h
    · rename_i hd
      rw [not_or, not_not, not_not] at hl
      exact ⟨hl.1, hl.2, hd, (Except.ok.inj h).symm⟩

theorem rbf_passes_at {root : K → K} {X Y : List Nat} {Z : List K} {s : Nat → Nat → K} (h : rbf root X Y Z = .ok s)
    {k x y : Nat} {z : K} (hx : X[k]? = some x) (hy : Y[k]? = some y) (hz : Z[k]? = some z) : s x y = z := by
  obtain ⟨h1, h2, hd, rfl⟩ := rbf_ok h
  have hk : k < (X.zip Y).length := by
    rw [List.length_zip]
    have := (List.getElem?_eq_some_iff.1 hx).1
    have := (List.getElem?_eq_some_iff.1 hy).1
    omega
  have hg : (X.zip Y).get ⟨k, hk⟩ = (x, y) := by
    have : (X.zip Y)[k]? = some (x, y) := by rw [List.getElem?_zip_eq_some]; exact ⟨hx, hy⟩
    rw [List.getElem?_eq_getElem hk] at this
    exact Option.some.inj this
  have := congrFun (kernel_solves root (X.zip Y) (fun i => Z.getD i 0) hd) ⟨k, hk⟩
  dsimp only
  rw [← hg]
  refine Eq.trans ?_ (this.trans ?_)
  · rfl
  · simp [List.getD, hz]

end

section
variable {K : Type} [Field K] [LinearOrder K] [IsStrictOrderedRing K]

/-- **C155**: the surface passes through its points. -/
theorem C155_passes (root : K → K) : PassesWithin 0 (rbf root) := by
  intro X Y Z s _ h k x y z hx hy hz
  rw [rbf_passes_at h hx hy hz, sub_self, abs_zero]

end

section
variable {K : Type} [Field K]

theorem perm_equiv {β : Type} {l l' : List β} (h : l.Perm l') : ∃ σ : Fin l.length ≃ Fin l'.length, ∀ i, l'.get (σ i) = l.get i := by
  induction h with
  | nil => exact ⟨Equiv.refl _, fun i => i.elim0⟩
  | @cons x l l' _ ih =>
    obtain ⟨σ, hσ⟩ := ih
    refine ⟨(finSuccEquiv _).trans ((Equiv.optionCongr σ).trans (finSuccEquiv _).symm), fun i => ?_⟩
    refine Fin.cases ?_ (fun j => ?_) i
    · simp
    · have := hσ j
      simp only [List.get_eq_getElem] at this
      simp [this]
  | swap x y l =>
    refine ⟨Equiv.swap 0 1, fun i => ?_⟩
    refine Fin.cases ?_ (fun j => Fin.cases ?_ (fun k => ?_) j) i
    · rw [Equiv.swap_apply_left]; rfl
    · rw [show Fin.succ (0 : Fin (l.length + 1)) = 1 from rfl, Equiv.swap_apply_right]; rfl
    · rw [Equiv.swap_apply_of_ne_of_ne (by simp [Fin.ext_iff]) (by simp [Fin.ext_iff])]
      rfl
  | trans _ _ ih1 ih2 =>
    obtain ⟨σ, hσ⟩ := ih1
    obtain ⟨τ, hτ⟩ := ih2
    exact ⟨σ.trans τ, fun i => by rw [Equiv.trans_apply, hτ, hσ]⟩

/-- Points moved without change of distances, in any order, give the moved surface. -/
theorem rbf_moves (root : K → K) (dom : Nat × Nat → Prop) (g : Nat × Nat → Nat × Nat)
    (hg : ∀ p q, dom p → dom q → cubicKernel root (g p) (g q) = cubicKernel root p q) : MovesAlong dom g (rbf root) := by
  intro P P' hdom hperm
  obtain ⟨σ, hσ⟩ := perm_equiv hperm
  have hzip : ∀ P : List ((Nat × Nat) × K), (P.map (·.1.1)).zip (P.map (·.1.2)) = P.map (·.1) := by
    intro P
    rw [List.zip_map']
  unfold rbf
  dsimp only
  rw [hzip, hzip]
  simp only [List.length_map, ne_eq, not_true_eq_false, or_self, if_false]
  -- the indices of `P'` correspond to those of `P`
  have hlen : (P'.map (·.1)).length = (P'.map (fun q => (g q.1, q.2))).length := by simp
  have hlen2 : P.length = (P.map (·.1)).length := by simp
  let τ : Fin (P'.map (·.1)).length ≃ Fin (P.map (·.1)).length := (finCongr hlen).trans (σ.trans (finCongr hlen2))
  have hpos : ∀ i, (P.map (·.1)).get (τ i) = g ((P'.map (·.1)).get i) := by
    intro i
    have := hσ (finCongr hlen i)
    simp only [List.get_eq_getElem, List.getElem_map] at this ⊢
    simp only [τ, Equiv.trans_apply, finCongr_apply, Fin.val_cast]
    rw [show P[(σ (Fin.cast hlen i)).val] = P[(σ ((finCongr hlen) i)).val] from rfl, this]
    simp
  have hval : ∀ i, (P.map (·.2)).getD (τ i) 0 = (P'.map (·.2)).getD i 0 := by
    intro i
    have := hσ (finCongr hlen i)
    have hi : (i : Nat) < P'.length := by have := i.2; simpa using this
    have hi2 : (τ i : Nat) < P.length := by have := (τ i).2; simpa using this
    rw [List.getD_eq_getElem?_getD, List.getD_eq_getElem?_getD, List.getElem?_map, List.getElem?_map,
      List.getElem?_eq_getElem hi, List.getElem?_eq_getElem hi2]
    simp only [List.get_eq_getElem, List.getElem_map] at this
    exact (congrArg Prod.snd this :)
  have hd' : ∀ i, dom ((P'.map (·.1)).get i) := by
    intro i
    have hm := List.get_mem (P'.map (·.1)) i
    obtain ⟨q, hq, he⟩ := List.mem_map.1 hm
    rw [← he]
    exact hdom q hq
  have hA : (kernelMatrix root (P.map (·.1))).submatrix τ τ = kernelMatrix root (P'.map (·.1)) := by
    ext i j
    simp only [kernelMatrix, Matrix.submatrix_apply, Matrix.of_apply]
    rw [hpos, hpos, hg _ _ (hd' i) (hd' j)]
  have hdet : (kernelMatrix root (P'.map (·.1))).det = (kernelMatrix root (P.map (·.1))).det := by
    rw [← hA, Matrix.det_submatrix_equiv_self]
  rw [hdet]
  split
  · rfl
  · rename_i hne
    intro p hp
    dsimp only
    rw [← Equiv.sum_comp τ]
    apply Finset.sum_congr rfl
    intro i _
    rw [hpos, ← hA, Matrix.inv_submatrix_equiv, hg _ _ hp (hd' i)]
    congr 1
    rw [Matrix.submatrix_mulVec_equiv]
    simp only [Function.comp_apply]
    congr 2
    funext k
    have := hval (τ.symm k)
    rw [Equiv.apply_symm_apply] at this
    exact this.symm

/-- **C155**: the interpolation prefers no direction and no axis. -/
theorem C155_isotropic [CharZero K] (root : K → K) : Isotropic (rbf root) := by
  refine ⟨fun w => rbf_moves root _ _ ?_, fun w => rbf_moves root _ _ ?_, rbf_moves root _ _ ?_⟩
  · intro p q hp hq
    unfold cubicKernel
    dsimp only at hp hq ⊢
    rw [Nat.cast_sub hp, Nat.cast_sub hq]
    ring_nf
  · intro p q hp hq
    unfold cubicKernel
    dsimp only at hp hq ⊢
    rw [Nat.cast_sub hp, Nat.cast_sub hq]
    ring_nf
  · intro p q _ _
    unfold cubicKernel
    dsimp only
    rw [add_comm]

theorem rbf_neg (root : K → K) (X Y : List Nat) (Z : List K) :
    rbf root X Y (Z.map (fun z => -z)) = (rbf root X Y Z).map (fun s i j => -(s i j)) := by
  unfold rbf
  dsimp only
  rw [List.length_map]
  have hz : (fun i : Fin (X.zip Y).length => (Z.map (fun z => -z)).getD i 0) = -(fun i : Fin (X.zip Y).length => Z.getD i 0) := by
    funext i
    simp only [List.getD, List.getElem?_map, Pi.neg_apply]
    cases Z[(i : Nat)]? <;> simp
  split
  · rfl
  · split
    · rfl
    · show Except.ok _ = Except.ok _
      congr 1
      funext x y
      rw [hz, Matrix.mulVec_neg]
      simp

end

/-- **C155**: the interpolation is odd in the values. -/
theorem C155_odd {K : Type} [Field K] (root : K → K) : BEMD.OddSurface (rbf root) := rbf_neg root

/-- **C155**: for two or three different points the system is not singular. -/
theorem C155_few {K : Type} [Field K] [LinearOrder K] [IsStrictOrderedRing K] (root : K → K) (h0 : root 0 = 0) (h1 : ∀ x, 0 < x → root x ≠ 0)
    (P : List (Nat × Nat)) (hnd : P.Nodup) (hlen : P.length = 2 ∨ P.length = 3) (Z : List K) (hZ : Z.length = P.length) :
    ∃ s, rbf root (P.map (·.1)) (P.map (·.2)) Z = .ok s := by
  have hself : ∀ p, cubicKernel root p p = 0 := by
    intro p
    unfold cubicKernel
    simp [h0]
  have hsymm : ∀ p q, cubicKernel root p q = cubicKernel root q p := by
    intro p q
    unfold cubicKernel
    ring_nf
  have hne : ∀ p q : Nat × Nat, p ≠ q → cubicKernel root p q ≠ 0 := by
    intro p q hpq
    unfold cubicKernel
    have : 0 < ((p.1 : K) - q.1) * (p.1 - q.1) + ((p.2 : K) - q.2) * (p.2 - q.2) := by
      by_cases h : p.1 = q.1
      · have h2 : p.2 ≠ q.2 := fun h2 => hpq (Prod.ext h h2)
        have h3 : (p.2 : K) - q.2 ≠ 0 := by rw [sub_ne_zero]; exact_mod_cast h2
        have := mul_self_pos.2 h3
        have := mul_self_nonneg ((p.1 : K) - q.1)
        linarith
      · have h3 : (p.1 : K) - q.1 ≠ 0 := by rw [sub_ne_zero]; exact_mod_cast h
        have := mul_self_pos.2 h3
        have := mul_self_nonneg ((p.2 : K) - q.2)
        linarith
    have := h1 _ this
    exact mul_ne_zero (mul_ne_zero this this) this
  have hzip : (P.map (·.1)).zip (P.map (·.2)) = P := by
    rw [List.zip_map']
    simp
  have hdet : (kernelMatrix root P).det ≠ 0 := by
    rcases hlen with h | h
    · obtain ⟨p, q, rfl⟩ := List.length_eq_two.1 h
      have hpq : p ≠ q := by simpa using hnd
      have : (kernelMatrix root [p, q]).det = -(cubicKernel root p q * cubicKernel root q p) := by
        refine (Matrix.det_fin_two (A := kernelMatrix root [p, q])).trans ?_
        simp only [kernelMatrix, Matrix.of_apply]
        show cubicKernel root p p * cubicKernel root q q - cubicKernel root p q * cubicKernel root q p = _
        rw [hself p]; ring
      rw [this, neg_ne_zero]
      exact mul_ne_zero (hne _ _ hpq) (hne _ _ hpq.symm)
    · obtain ⟨p, q, r, rfl⟩ := List.length_eq_three.1 h
      have hpq : p ≠ q ∧ p ≠ r ∧ q ≠ r := by simpa [and_assoc] using hnd
      have : (kernelMatrix root [p, q, r]).det = 2 * (cubicKernel root p q * cubicKernel root q r * cubicKernel root p r) := by
        refine (Matrix.det_fin_three (A := kernelMatrix root [p, q, r])).trans ?_
        simp only [kernelMatrix, Matrix.of_apply]
        show cubicKernel root p p * cubicKernel root q q * cubicKernel root r r - cubicKernel root p p * cubicKernel root q r * cubicKernel root r q -
          cubicKernel root p q * cubicKernel root q p * cubicKernel root r r + cubicKernel root p q * cubicKernel root q r * cubicKernel root r p +
          cubicKernel root p r * cubicKernel root q p * cubicKernel root r q - cubicKernel root p r * cubicKernel root q q * cubicKernel root r p = _
        rw [hself p, hself q, hself r, hsymm r p, hsymm q p, hsymm r q]; ring
      rw [this]
      exact mul_ne_zero two_ne_zero (mul_ne_zero (mul_ne_zero (hne _ _ hpq.1) (hne _ _ hpq.2.2)) (hne _ _ hpq.2.1))
  unfold rbf
  dsimp only
  rw [hzip, List.length_map, List.length_map, if_neg (by rw [hZ]; simp), if_neg hdet]
  exact ⟨_, rfl⟩

/-- The square root meets the hypotheses of `C155_few`. -/
example : √(0 : ℝ) = 0 ∧ ∀ x : ℝ, 0 < x → √x ≠ 0 := ⟨Real.sqrt_zero, fun _ h => (Real.sqrt_pos.2 h).ne'⟩

/-- Two points at distance 5. -/
example : cubicKernel Real.sqrt (0, 0) (3, 4) = 125 := by
  have h : √(25 : ℝ) = 5 := by
    rw [show (25 : ℝ) = 5 ^ 2 by norm_num]
    exact Real.sqrt_sq (by norm_num)
  have e : ((((0, 0) : Nat × Nat).1 : ℝ) - ((3, 4) : Nat × Nat).1) * (((0, 0) : Nat × Nat).1 - ((3, 4) : Nat × Nat).1) +
      ((((0, 0) : Nat × Nat).2 : ℝ) - ((3, 4) : Nat × Nat).2) * (((0, 0) : Nat × Nat).2 - ((3, 4) : Nat × Nat).2) = 25 := by norm_num
  unfold cubicKernel
  rw [e, h]
  norm_num

end Scipy

namespace BEMD
open Img Img.Spec Skimage EMD2D

variable {K : Type} [Field K] [LinearOrder K] [IsStrictOrderedRing K] [FloorRing K]

theorem spline_touches {root : K → K} {im : Img K} {n : Nat} (hs : HasShape im n n) {ps : List (Nat × Nat)} (hin : ∀ p ∈ ps, p.1 < n ∧ p.2 < n)
    {env : Img K} (h : splinePoints (ext (Scipy.rbf root)) ps (ps.map (fun p => im.px p.1 p.2)) im.rows im.cols = .ok env)
    {r c : Nat} (hp : (c, r) ∈ ps) : at? env r c = at? im c r := by
  unfold splinePoints at h
  rw [show (ext (Scipy.rbf root)).rbf = Scipy.rbf root from rfl] at h
  cases hr : Scipy.rbf root (ps.map (·.1)) (ps.map (·.2)) (ps.map (fun p => im.px p.1 p.2)) with
  | error e => rw [hr] at h; cases h
  | ok s =>
    rw [hr] at h
    obtain rfl := Except.ok.inj h
    obtain ⟨k, hk⟩ := List.mem_iff_getElem?.1 hp
    have hv := Scipy.rbf_passes_at hr (k := k) (x := c) (y := r) (z := im.px c r) (by simp [hk]) (by simp [hk]) (by simp [hk])
    have hb := hin _ hp
    rw [hs.rows_eq, hs.cols_eq, ofFn_at n n _ r c hb.2 hb.1, at_some im hs.wf c r (by rw [hs.rows_eq]; exact hb.1) (by rw [hs.cols_eq]; exact hb.2), hv]

/-- **C155**: with `Rbf` the upper envelope of a square image has, at the row and column of a maximum, the value of the image at the mirrored
position; the lower envelope likewise at the minima. -/
theorem C155_touches (root : K → K) (im : Img K) (n : Nat) (hs : HasShape im n n) (lower upper : Img K)
    (h : extractMaxMinSpline (ext (Scipy.rbf root)) im (extractMinimaPositions (ext (Scipy.rbf root)) im)
      (extractMaximaPositions (ext (Scipy.rbf root)) im) = .ok (lower, upper)) (r c : Nat) :
    ((c, r) ∈ extractMinimaPositions (ext (Scipy.rbf root)) im → at? lower r c = at? im c r) ∧
    ((c, r) ∈ extractMaximaPositions (ext (Scipy.rbf root)) im → at? upper r c = at? im c r) := by
  have inside : ∀ a : Img K, HasShape a n n → ∀ p ∈ extractMaximaPositions (ext (Scipy.rbf root)) a, p.1 < n ∧ p.2 < n :=
    fun a ha p hp => mem_grid.1 (positions_grid _ ha hp)
  have hmin := inside _ (hs.map (fun x => -x))
  have hmax := inside _ hs
  unfold extractMaxMinSpline at h
  rw [valuesAt_ok im (extractMinimaPositions (ext (Scipy.rbf root)) im) (fun p h => by rw [hs.rows_eq, hs.cols_eq]; exact hmin p h),
    valuesAt_ok im (extractMaximaPositions (ext (Scipy.rbf root)) im) (fun p h => by rw [hs.rows_eq, hs.cols_eq]; exact hmax p h)] at h
  have h : (splinePoints (ext (Scipy.rbf root)) (extractMinimaPositions (ext (Scipy.rbf root)) im) _ im.rows im.cols >>= fun a =>
    splinePoints (ext (Scipy.rbf root)) (extractMaximaPositions (ext (Scipy.rbf root)) im) _ im.rows im.cols >>= fun b => pure (a, b)) = _ := h
  cases h1 : splinePoints (ext (Scipy.rbf root)) (extractMinimaPositions (ext (Scipy.rbf root)) im)
      ((extractMinimaPositions (ext (Scipy.rbf root)) im).map (fun p => im.px p.1 p.2)) im.rows im.cols with
  | error e => rw [h1] at h; cases h
  | ok lo =>
    cases h2 : splinePoints (ext (Scipy.rbf root)) (extractMaximaPositions (ext (Scipy.rbf root)) im)
        ((extractMaximaPositions (ext (Scipy.rbf root)) im).map (fun p => im.px p.1 p.2)) im.rows im.cols with
    | error e =>
      rw [h1] at h
      change (splinePoints _ _ _ _ _ >>= _) = _ at h
      rw [h2] at h
      cases h
    | ok up =>
      rw [h1] at h
      change (splinePoints _ _ _ _ _ >>= _) = _ at h
      rw [h2] at h
      obtain ⟨rfl, rfl⟩ := Prod.mk.inj (Except.ok.inj h)
      exact ⟨spline_touches hs hmin h1, spline_touches hs hmax h2⟩

/-- **C155, partial**: with `Rbf` the envelopes of an image that is symmetric about its diagonal touch it at its extrema.  Missing: other
images, for which it is false (`C155_touches`, `C63_counterexample`). -/
theorem C155_touches_partial (root : K → K) (im : Img K) (n : Nat) (hs : HasShape im n n) (hsym : ∀ r < n, ∀ c < n, at? im r c = at? im c r)
    (lower upper : Img K) (h : extractMaxMinSpline (ext (Scipy.rbf root)) im (extractMinimaPositions (ext (Scipy.rbf root)) im)
      (extractMaximaPositions (ext (Scipy.rbf root)) im) = .ok (lower, upper)) (r c : Nat) :
    ((c, r) ∈ extractMinimaPositions (ext (Scipy.rbf root)) im → at? lower r c = at? im r c) ∧
    ((c, r) ∈ extractMaximaPositions (ext (Scipy.rbf root)) im → at? upper r c = at? im r c) := by
  obtain ⟨h1, h2⟩ := C155_touches root im n hs lower upper h r c
  have inside : ∀ a : Img K, HasShape a n n → (c, r) ∈ extractMaximaPositions (ext (Scipy.rbf root)) a → c < n ∧ r < n :=
    fun a ha hp => mem_grid.1 (positions_grid _ ha hp)
  constructor
  · intro hp
    have := inside _ (hs.map (fun x => -x)) hp
    rw [h1 hp, hsym r this.2 c this.1]
  · intro hp
    have := inside _ hs hp
    rw [h2 hp, hsym r this.2 c this.1]

/-- **C155**: with `Rbf` the transposed image has the transposed components, and the image turned by half a turn the turned ones. -/
theorem C155_directions (root : K → K) (fuel : Nat) (cfg : Cfg2 K) (n : Nat) (a b : Img K) (m : Int) :
    (Shows (fun p => (p.2, p.1)) n n n n a b →
      RelX (List.Forall₂ (Shows (fun p => (p.2, p.1)) n n n n)) (bemd (ext (Scipy.rbf root)) fuel cfg a m) (bemd (ext (Scipy.rbf root)) fuel cfg b m)) ∧
    (Shows (fun p => (n - 1 - p.1, n - 1 - p.2)) n n n n a b →
      RelX (List.Forall₂ (Shows (fun p => (n - 1 - p.1, n - 1 - p.2)) n n n n)) (bemd (ext (Scipy.rbf root)) fuel cfg a m)
        (bemd (ext (Scipy.rbf root)) fuel cfg b m)) :=
  ⟨fun h => C154_transpose_partial _ (Scipy.C155_isotropic root) fuel cfg n a b h m,
    fun h => C154_half_turn_partial _ (Scipy.C155_isotropic root) fuel cfg n a b h m⟩

/-- **C155**: with `Rbf` the negative image has the negatives of the components. -/
theorem C155_negation (root : K → K) (fuel : Nat) (cfg : Cfg2 K) (im : Img K) (m : Int) :
    RelE (fun p q => q = p.map negative) (bemd (ext (Scipy.rbf root)) fuel cfg im m) (bemd (ext (Scipy.rbf root)) fuel cfg (negative im) m) := by
  refine C148_negation (Scipy.C155_odd root) (fun X Y Z => ?_) fuel cfg im m
  show Scipy.rbf root X Y Z ≠ _
  unfold Scipy.rbf
  dsimp only
  split
  · intro h; cases h
  · split
    · intro h; cases h
    · intro h; cases h

/-- An image with two maxima and two minima, symmetric about its diagonal for `v = 9`. -/
def saddle (v : ℚ) : Img ℚ := { rows := 3, cols := 3, data := [0, 4, 9, 4, 5, 3, v, 3, 1] }

/-- With `v = 8` and `v = 9` the envelopes exist and the hypotheses of `C155_touches` are met, with `v = 9` also those of
`C155_touches_partial`. -/
example : ∀ v ∈ ([8, 9] : List ℚ), HasShape (saddle v) 3 3 ∧ extractMaximaPositions (ext (Scipy.rbf (fun x => x))) (saddle v) = [(2, 0), (0, 2)] ∧
    extractMinimaPositions (ext (Scipy.rbf (fun x => x))) (saddle v) = [(0, 0), (2, 2)] ∧
    (v = 9 → ∀ r < 3, ∀ c < 3, at? (saddle v) r c = at? (saddle v) c r) ∧
    ∃ e, extractMaxMinSpline (ext (Scipy.rbf (fun x => x))) (saddle v) (extractMinimaPositions (ext (Scipy.rbf (fun x => x))) (saddle v))
      (extractMaximaPositions (ext (Scipy.rbf (fun x => x))) (saddle v)) = .ok e := by
  intro v hv
  have e1 : extractMaximaPositions (ext (Scipy.rbf (fun x => x))) (saddle v) = [(2, 0), (0, 2)] := by
    revert v; decide +kernel
  have e2 : extractMinimaPositions (ext (Scipy.rbf (fun x => x))) (saddle v) = [(0, 0), (2, 2)] := by
    revert v; decide +kernel
  have v1 : valuesAt (saddle v) [(0, 0), (2, 2)] = .ok [0, 1] := rfl
  have v2 : valuesAt (saddle v) [(2, 0), (0, 2)] = .ok [v, 9] := rfl
  refine ⟨⟨rfl, rfl, rfl⟩, e1, e2, by rintro rfl; decide +kernel, ?_⟩
  rw [e1, e2]
  obtain ⟨s, hs⟩ := Scipy.C155_few (K := ℚ) (fun x => x) rfl (fun x h => h.ne') [(0, 0), (2, 2)] (by decide) (.inl rfl) [0, 1] rfl
  obtain ⟨t, ht⟩ := Scipy.C155_few (K := ℚ) (fun x => x) rfl (fun x h => h.ne') [(2, 0), (0, 2)] (by decide) (.inl rfl) [v, 9] rfl
  unfold extractMaxMinSpline
  rw [v1, v2]
  refine ⟨(Img.ofFn 3 3 (fun j i => s i j), Img.ofFn 3 3 (fun j i => t i j)), ?_⟩
  show (((ext (Scipy.rbf (fun x => x))).rbf _ _ _ >>= fun s => pure (Img.ofFn 3 3 (fun j i => s i j))) >>= fun a =>
    ((ext (Scipy.rbf (fun x => x))).rbf _ _ _ >>= fun t => pure (Img.ofFn 3 3 (fun j i => t i j))) >>= fun b => pure (a, b)) = _
  rw [show (ext (Scipy.rbf (fun x : ℚ => x))).rbf = Scipy.rbf (fun x => x) from rfl, hs, ht]
  rfl

end BEMD
end PyEMD
