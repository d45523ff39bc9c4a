import Verif.Props.Float
import Verif.Props.Ieee
import Verif.Props.Image
import Verif.Props.Jit
import Verif.Lemmas.Matlab

/-!
# Rounding errors in JitEMD, EMD_matlab, BEMD and EMD2D (C137)
-/

set_option linter.unusedSectionVars false

namespace PyEMD

section LawFree
variable {α ρ : Type} [Add α] [Sub α] [Mul α] [Div α] [Neg α] [LT α] [LE α] [BEq α] [DecidableLT α] [DecidableLE α] [NpScalar α]

theorem FloatArith.tolerance_nonneg (F : FloatArith α) : 0 ≤ (1 + F.u) / 100000000 + F.eta := by
  have := F.u_nonneg
  have := F.eta_nonneg
  positivity

/-- Rows with or without their residue, the latter if it is negligible: the sum misses at most the rounding errors and the tolerance. -/
theorem FloatArith.rows_err (F : FloatArith α) {S : List α} {C R : List (List α)} {res : List α} (hr : EMD.Spec.IsResidue S C res)
    (hR : (EMD.Spec.Vanishes res ∧ R = C) ∨ R = C ++ [res]) (hf : ∀ x ∈ res, F.finite x) (i : Nat) (hi : i < S.length) :
    |F.val S[i] - (F.column R i).sum| ≤ F.slack (F.val S[i]) (F.column C i) + ((1 + F.u) / 100000000 + F.eta) ∧
    (R = C ++ [res] → |F.val S[i] - (F.column R i).sum| ≤ F.slack (F.val S[i]) (F.column C i)) := by
  have h4 := F.residue_err hr hf i hi
  have htol := F.tolerance_nonneg
  have happ : (F.column (C ++ [res]) i).sum = (F.column C i).sum + F.val (res.getD i (lit 0)) := by simp [FloatArith.column]
  rcases hR with ⟨hv, rfl⟩ | rfl
  · refine ⟨?_, fun h => by simp at h⟩
    have hmem : res.getD i (lit 0) ∈ res := by
      rw [List.getD_eq_getElem?_getD, List.getElem?_eq_getElem (by rw [hr.1]; exact hi)]
      exact List.getElem_mem _
    have h5 := F.abs_le_of_vanishes (hf _ hmem) (hv _ hmem)
    have h6 := abs_sub_le (F.val S[i]) ((F.column R i).sum + F.val (res.getD i (lit 0))) (F.column R i).sum
    rw [add_sub_cancel_left] at h6
    linarith
  · rw [happ]
    exact ⟨by linarith, fun _ => h4⟩

/-- **C137** (JitEMD) In floating point arithmetic the rows returned by `JitEMD` are components `C`, followed by their residue unless it is
negligible; at every sample they add up to the signal up to the rounding errors of one subtraction and as many additions as there are
components, and the tolerance `1e-8` if there is no residue.  The only assumption on the run is that the residue is finite. -/
theorem C137_jit (F : FloatArith α) (fuel : Nat) (sp : SciPy α) (cfg : EMD.Cfg α) (S T : List α) (m : Int) (R : List (List α))
    (h : Jit.emd fuel sp cfg S T m = .ok R) :
    ∃ C res, EMD.Spec.IsResidue S C res ∧ (R = C ∨ R = C ++ [res]) ∧ ((∀ x ∈ res, F.finite x) → ∀ i (hi : i < S.length),
      |F.val S[i] - (F.column R i).sum| ≤ F.slack (F.val S[i]) (F.column C i) + ((1 + F.u) / 100000000 + F.eta) ∧
      (R = C ++ [res] → |F.val S[i] - (F.column R i).sum| ≤ F.slack (F.val S[i]) (F.column C i))) := by
  obtain ⟨C, hC, hR⟩ := Jit.emd_spec h
  have hres := EMD.isResidue_vsub S C hC
  refine ⟨C, _, hres, ?_, fun hf i hi => F.rows_err hres ?_ hf i hi⟩
  · rcases hR with ⟨-, h⟩ | ⟨-, h⟩
    · exact .inl h
    · exact .inr h
  · rcases hR with ⟨h1, h⟩ | ⟨-, h⟩
    · exact .inl ⟨(EMD.allclose0_iff _).1 h1, h⟩
    · exact .inr h

namespace Matlab

theorem emdLoop_keys {sp : SciPy α} {cfg : Cfg α} {T : List α} {n : Nat} {m : Int} {fuel : Nat} {st st' : State α}
    (hk : Keys st.IMF st.imfNo) (h : emdLoop sp cfg T n m fuel st = .ok st') : Keys st'.IMF st'.imfNo := by
  induction fuel generalizing st with
  | zero => cases h
  | succ fuel ih =>
    unfold emdLoop at h
    obtain ⟨⟨st1, fin⟩, h1, h⟩ := bind_eq_ok.1 h
    have hk1 : Keys st1.IMF st1.imfNo := by
      unfold emdRound at h1
      split at h1
      · cases h1
      · obtain ⟨⟨s, why⟩, -, h1⟩ := bind_eq_ok.1 h1
        have h1 := pure_eq_ok.1 h1
        cases h1
        exact hk.succ _
    simp only at h
    split at h
    · cases h; exact hk1
    · exact ih hk1 h

/-- **C137** (EMD_matlab) Likewise for `EMD_matlab`: the components `C` and their residue add up to the signal up to rounding errors, and the
residue is among the returned components if the sum of its magnitudes exceeds `1e-10`.  Division by and multiplication with `scale = 1.0` are
assumed to do nothing (`C137_unit`). -/
theorem C137_matlab (F : FloatArith α) (hone : ∀ x : α, x / lit 1 = x ∧ x * lit 1 = x) (fuel : Nat) (sp : SciPy α) (cfg : Cfg α)
    (S : List α) (T : Option (List α)) (m : Int) (R : Result α) (h : emd fuel sp cfg S T m = .ok R) :
    ∃ C res, EMD.Spec.IsResidue S C res ∧ R.IMF.map (·.1) = List.range R.imfNo ∧
      ((lit (1 / 10000000000) < npSum (res.map pyAbs) ∧ R.IMF.map (·.2) = C ++ [res]) ∨
        (¬ lit (1 / 10000000000) < npSum (res.map pyAbs) ∧ R.IMF.map (·.2) = C)) ∧
      ((∀ x ∈ res, F.finite x) → ∀ i (hi : i < S.length),
        |F.val S[i] - ((F.column C i).sum + F.val (res.getD i (lit 0)))| ≤ F.slack (F.val S[i]) (F.column C i) ∧
        (R.IMF.map (·.2) = C ++ [res] → |F.val S[i] - (F.column (R.IMF.map (·.2)) i).sum| ≤ F.slack (F.val S[i]) (F.column C i))) := by
  unfold emd at h
  have hS : S.map (fun x => x / lit 1) = S := by simp [fun x => (hone x).1]
  simp only [hS] at h
  split at h
  · cases h
  · obtain ⟨st, hst, h⟩ := bind_eq_ok.1 h
    have hk := emdLoop_keys (by simp [Keys]) hst
    unfold finish at h
    rw [hk.gets] at h
    have hid : ∀ d : List (Nat × List α), d.map (fun p => (p.1, p.2.map (fun x => x * lit 1))) = d := by
      intro d; simp [fun x => (hone x).2]
    simp only [bind, Except.bind, hid] at h
    split at h
    · rename_i hall
      have hC : ∀ r ∈ st.IMF.map (·.2), r.length = S.length := by
        intro r hr
        simpa using List.all_eq_true.1 hall r hr
      have h := pure_eq_ok.1 h
      have hres := EMD.isResidue_vsub S _ hC
      have happ : ∀ (C : List (List α)) res i, (F.column (C ++ [res]) i).sum = (F.column C i).sum + F.val (res.getD i (lit 0)) := by
        intro C res i; simp [FloatArith.column]
      refine ⟨_, _, hres, ?_, ?_, fun hf i hi => ⟨F.residue_err hres hf i hi, fun e => ?_⟩⟩
      · rw [← h]
        simp only
        split
        · exact hk.succ _
        · exact hk
      · rw [← h]
        simp only
        by_cases hm : lit (1 / 10000000000) < npSum ((vsub S (sumRows S.length (st.IMF.map (·.2)))).map pyAbs)
        · left
          refine ⟨hm, ?_⟩
          rw [if_pos (by simpa using hm), hk.set]
          simp
        · right
          refine ⟨hm, ?_⟩
          rw [if_neg (by simpa using hm)]
      · rw [e, happ]
        exact F.residue_err hres hf i hi
    · cases h

end Matlab

namespace FloatArith

/-- What the pixels of the components become at the end of `EMD2D.emd`: scaled, the offset added to the last one. -/
def rescaled (s m : α) : List α → List α
  | [] => []
  | [c] => [c * s + m]
  | c :: cs => c * s :: rescaled s m cs

/-- The bound on the errors of scaling `cs` back and adding the offset. -/
def rescaleSlack (F : FloatArith α) (s m : ℝ) (cs : List ℝ) : ℝ :=
  F.u * (|m| + (2 + F.u) * (cs.map (fun c => |c * s|)).sum) + (cs.length + F.u) * F.eta

theorem rescaled_err (F : FloatArith α) (s m : α) : ∀ l : List α, l ≠ [] → (∀ x ∈ rescaled s m l, F.finite x) →
    F.finite s ∧ |((rescaled s m l).map F.val).sum - ((l.map F.val).sum * F.val s + F.val m)| ≤
      F.rescaleSlack (F.val s) (F.val m) (l.map F.val) := by
  intro l
  have hu := F.u_nonneg
  have he := F.eta_nonneg
  induction l with
  | nil => intro h; exact absurd rfl h
  | cons c l ih =>
    intro _ hf
    cases l with
    | nil =>
      simp only [rescaled, List.mem_singleton, forall_eq] at hf
      obtain ⟨h1, h2, h3⟩ := F.add _ _ hf
      obtain ⟨-, h5, h6⟩ := F.mul _ _ h1
      refine ⟨h5, ?_⟩
      simp only [rescaled, rescaleSlack, List.map_cons, List.map_nil, List.sum_cons, List.sum_nil, add_zero, List.length_cons, List.length_nil,
        zero_add, Nat.cast_one]
      generalize F.val (c * s + m) = w at *
      generalize F.val (c * s) = o at *
      generalize F.val c * F.val s = p at *
      generalize F.val m = m' at *
      have h7 := abs_sub_le w (o + m') (p + m')
      have e : o + m' - (p + m') = o - p := by ring
      rw [e] at h7
      have h8 : |o| ≤ (1 + F.u) * |p| + F.eta := by
        have := abs_sub_abs_le_abs_sub o p
        linarith
      have h9 := mul_le_mul_of_nonneg_left ((abs_add_le o m').trans (add_le_add_left h8 _)) hu
      nlinarith
    | cons d l =>
      have hf' : ∀ x ∈ rescaled s m (d :: l), F.finite x := fun x hx => hf x (by simp only [rescaled]; exact List.mem_cons_of_mem _ hx)
      obtain ⟨h1, h2⟩ := ih (by simp) hf'
      refine ⟨h1, ?_⟩
      obtain ⟨-, -, h3⟩ := F.mul c s (hf _ (by simp [rescaled]))
      have e1 : ((rescaled s m (c :: d :: l)).map F.val).sum = F.val (c * s) + ((rescaled s m (d :: l)).map F.val).sum := by simp [rescaled]
      have e2 : (((c :: d :: l).map F.val).sum) = F.val c + ((d :: l).map F.val).sum := by simp
      have e3 : F.rescaleSlack (F.val s) (F.val m) ((c :: d :: l).map F.val) =
          F.rescaleSlack (F.val s) (F.val m) ((d :: l).map F.val) + F.u * ((2 + F.u) * |F.val c * F.val s|) + F.eta := by
        simp only [rescaleSlack, List.map_cons, List.sum_cons, List.length_cons]
        push_cast
        ring
      rw [e1, e2, e3]
      generalize ((rescaled s m (d :: l)).map F.val).sum = X at *
      generalize ((d :: l).map F.val).sum = Y at *
      have h4 := abs_add_le (F.val (c * s) - F.val c * F.val s) (X - (Y * F.val s + F.val m))
      have e4 : F.val (c * s) + X - ((F.val c + Y) * F.val s + F.val m) =
          F.val (c * s) - F.val c * F.val s + (X - (Y * F.val s + F.val m)) := by ring
      rw [e4]
      have h5 : F.u * |F.val c * F.val s| ≤ F.u * ((2 + F.u) * |F.val c * F.val s|) := by
        apply mul_le_mul_of_nonneg_left _ hu
        nlinarith [abs_nonneg (F.val c * F.val s)]
      linarith

/-- Error of the normalisation `(a - m) / s`, scaled back. -/
theorem normalise_err (F : FloatArith α) (a m s : α) (hs : F.finite s) (h : F.finite ((a - m) / s)) :
    |F.val a - (F.val ((a - m) / s) * F.val s + F.val m)| ≤ (2 * F.u + F.u ^ 2) * |F.val a - F.val m| + F.eta * |F.val s| := by
  obtain ⟨h1, h2, h3⟩ := F.div _ _ h hs
  obtain ⟨-, -, h4⟩ := F.sub _ _ h1
  have hu := F.u_nonneg
  generalize F.val ((a - m) / s) = q at *
  generalize F.val (a - m) = d at *
  generalize F.val s = b at *
  have h6 : |q * b - d| ≤ F.u * |d| + F.eta * |b| := by
    have : q * b - d = (q - d / b) * b := by field_simp
    rw [this, abs_mul]
    have h7 := mul_le_mul_of_nonneg_right h3 (abs_nonneg b)
    have h8 : |d / b| * |b| = |d| := by rw [← abs_mul, div_mul_cancel₀ _ h2]
    nlinarith
  have h7 : |d| ≤ (1 + F.u) * |F.val a - F.val m| := by
    have := abs_sub_abs_le_abs_sub d (F.val a - F.val m)
    linarith
  have e : F.val a - (q * b + F.val m) = -(d - (F.val a - F.val m)) + -(q * b - d) := by ring
  rw [e]
  have h8 := abs_add_le (-(d - (F.val a - F.val m))) (-(q * b - d))
  rw [abs_neg, abs_neg] at h8
  have h9 := mul_le_mul_of_nonneg_left h7 hu
  nlinarith

end FloatArith

open Img Img.Spec

/-- The values of the components at pixel `i`. -/
def Img.pixels (l : List (Img α)) (i : Nat) : List α := l.map (fun im => im.data.getD i (lit 0))

theorem isResidue_img {im : Img α} {R C : Nat} {l : List (Img α)} (hI : HasShape im R C) (hl : ∀ x ∈ l, HasShape x R C) :
    EMD.Spec.IsResidue im.data (l.map (·.data)) (im.sub (Img.sum R C l)).data := by
  have h := EMD.isResidue_vsub im.data (l.map (·.data)) (by
    intro r hr
    obtain ⟨x, hx, rfl⟩ := List.mem_map.1 hr
    rw [(hl x hx).length, hI.length])
  rw [hI.length] at h
  exact h

/-- **C137** (BEMD) Likewise for `BEMD`, at every pixel. -/
theorem BEMD.C137_bemd (F : FloatArith α) (ext : Ext α) (fuel : Nat) (cfg : Cfg2 α) (image : Img α) (m : Int) (out : List (Img α))
    (hw : WF image) (h : bemd ext fuel cfg image m = .ok out) :
    ∃ C res, EMD.Spec.IsResidue image.data (C.map (·.data)) res.data ∧ (out = C ∨ out = C ++ [res]) ∧
      ((∀ x ∈ res.data, F.finite x) → ∀ i (hi : i < image.data.length),
        |F.val image.data[i] - ((pixels out i).map F.val).sum| ≤
          F.slack (F.val image.data[i]) ((pixels C i).map F.val) + ((1 + F.u) / 100000000 + F.eta) ∧
        (out = C ++ [res] → |F.val image.data[i] - ((pixels out i).map F.val).sum| ≤
          F.slack (F.val image.data[i]) ((pixels C i).map F.val))) := by
  have hI : HasShape image image.rows image.cols := ⟨hw, rfl, rfl⟩
  unfold bemd at h
  obtain ⟨C, hl, h⟩ := bind_eq_ok.1 h
  have h := pure_eq_ok.1 h
  obtain ⟨hsh, -, -⟩ := loop_ok hI hl (by simp)
  have hres := isResidue_img hI hsh
  generalize hr : image.sub (Img.sum image.rows image.cols C) = res at *
  have hcol : ∀ l i, (pixels l i).map F.val = F.column (l.map (·.data)) i := by
    intro l i; simp [pixels, FloatArith.column, Function.comp_def]
  have hcase : (EMD.Spec.Vanishes res.data ∧ out = C) ∨ out = C ++ [res] := by
    by_cases hv : allclose0 res.data = true
    · rw [if_pos hv] at h; exact .inl ⟨(EMD.allclose0_iff _).1 hv, h.symm⟩
    · rw [if_neg hv] at h; exact .inr h.symm
  refine ⟨C, res, hres, hcase.imp And.right id, fun hf i hi => ?_⟩
  simp only [hcol]
  have := F.rows_err hres (R := out.map (·.data)) (hcase.imp (fun h => ⟨h.1, by rw [h.2]⟩) (fun h => by rw [h]; simp)) hf i hi
  exact ⟨this.1, fun e => this.2 (by rw [e]; simp)⟩

namespace EMD2D

theorem pixels_addLast (s m : α) : ∀ (l : List (Img α)) (n i : Nat), i < n → (∀ im ∈ l, im.data.length = n) →
    pixels (addLast m (l.map (fun im => im.map (fun x => x * s)))) i = FloatArith.rescaled s m (pixels l i) := by
  intro l
  induction l with
  | nil => intros; rfl
  | cons x xs ih =>
    intro n i hi hl
    have hx : i < x.data.length := by rw [hl x (by simp)]; exact hi
    match xs with
    | [] => simp [addLast, pixels, FloatArith.rescaled, Img.map, List.getD, hx]
    | y :: ys =>
      have := ih n i hi (fun im h => hl im (List.mem_cons_of_mem _ h))
      simp only [List.map_cons, addLast, pixels, FloatArith.rescaled] at this ⊢
      rw [this]
      simp [Img.map, List.getD, hx]

/-- **C137** (EMD2D) `EMD2D` decomposes the image normalised to `[0, 1]` into components `C` and their residue, and scales them back.  At
every pixel the result adds up to the image up to the rounding errors of normalising (`(a - m) / s`), of the residue (times the range of the
image), and of scaling back and adding the offset; plus the tolerance `1e-8` of the range if the residue was left out. -/
theorem C137_emd2d (F : FloatArith α) (sbs : Surface α) (fuel : Nat) (cfg : Cfg2 α) (image : Img α) (maxImf : Int) (out : List (Img α))
    (hw : WF image) (h : emd sbs fuel cfg image maxImf = .ok out) :
    ∃ (mn mx : α) (C : List (Img α)) (res : Img α) (N : List (Img α)), npMinE image.data = .ok mn ∧ npMaxE image.data = .ok mx ∧
      EMD.Spec.IsResidue (image.data.map (fun a => (a - mn) / (mx - mn))) (C.map (·.data)) res.data ∧ (N = C ∨ N = C ++ [res]) ∧
      (∀ i < image.data.length, pixels out i = FloatArith.rescaled (mx - mn) mn (pixels N i)) ∧
      ((∀ x ∈ res.data, F.finite x) → (∀ im ∈ out, ∀ x ∈ im.data, F.finite x) → ∀ i (hi : i < image.data.length),
        let a := image.data[i]
        let err := (2 * F.u + F.u ^ 2) * |F.val a - F.val mn| + F.eta * |F.val (mx - mn)| +
          |F.val (mx - mn)| * F.slack (F.val ((a - mn) / (mx - mn))) ((pixels C i).map F.val) +
          F.rescaleSlack (F.val (mx - mn)) (F.val mn) ((pixels N i).map F.val)
        |F.val a - ((pixels out i).map F.val).sum| ≤ err + |F.val (mx - mn)| * ((1 + F.u) / 100000000 + F.eta) ∧
        (N = C ++ [res] → |F.val a - ((pixels out i).map F.val).sum| ≤ err)) := by
  have hI : HasShape image image.rows image.cols := ⟨hw, rfl, rfl⟩
  unfold emd at h
  obtain ⟨mn, hmn, h⟩ := bind_eq_ok.1 h
  obtain ⟨mx, hmx, h⟩ := bind_eq_ok.1 h
  simp only at h
  split at h
  · cases h
  · generalize hims : image.map (fun x => (x - mn) / (mx - mn)) = ims at *
    have hS : HasShape ims image.rows image.cols := by rw [← hims]; exact hI.map _
    have hd : ims.data = image.data.map (fun a => (a - mn) / (mx - mn)) := by rw [← hims]; rfl
    obtain ⟨C, hl, h⟩ := bind_eq_ok.1 h
    have h := pure_eq_ok.1 h
    obtain ⟨hsh, hlen, -⟩ := loop_ok hI hS hl (by simp)
    have hres := isResidue_img hS hsh
    have hrsh := hS.sub (HasShape.sum image.rows image.cols C hsh)
    generalize hr : ims.sub (Img.sum image.rows image.cols C) = res at *
    rw [hd] at hres
    have hN : ∃ N, addLast mn (N.map (fun im => im.map (fun x => x * (mx - mn)))) = out ∧
        ((EMD.Spec.Vanishes res.data ∧ N = C) ∨ N = C ++ [res]) := by
      by_cases hv : allclose0 res.data = true
      · rw [if_pos hv] at h; exact ⟨C, h, .inl ⟨(EMD.allclose0_iff _).1 hv, rfl⟩⟩
      · rw [if_neg hv] at h; exact ⟨C ++ [res], h, .inr rfl⟩
    obtain ⟨N, hout, hcase⟩ := hN
    have hNsh : ∀ im ∈ N, HasShape im image.rows image.cols := by
      intro im him
      rcases hcase with ⟨-, e⟩ | e
      · exact hsh im (e ▸ him)
      · rw [e] at him
        rcases List.mem_append.1 him with h1 | h1
        · exact hsh im h1
        · rw [List.mem_singleton.1 h1]; exact hrsh
    have hNne : N ≠ [] := by
      rcases hcase with ⟨-, e⟩ | e
      · rw [e]; rintro rfl; simp at hlen
      · rw [e]; simp
    have hpix : ∀ i < image.data.length, pixels out i = FloatArith.rescaled (mx - mn) mn (pixels N i) := by
      intro i hi
      rw [← hout]
      exact pixels_addLast _ _ N image.data.length i hi (fun im him => by rw [(hNsh im him).length, hI.length])
    refine ⟨mn, mx, C, res, N, hmn, hmx, hres, hcase.imp And.right id, hpix, fun hf hfo i hi => ?_⟩
    have hcol : ∀ l i, (pixels l i).map F.val = F.column (l.map (·.data)) i := by
      intro l i; simp [pixels, FloatArith.column, Function.comp_def]
    have hoSh : ∀ im ∈ out, HasShape im image.rows image.cols := by
      rw [← hout]
      apply addLast_shape
      simp only [List.mem_map]
      rintro _ ⟨im, him, rfl⟩
      exact (hNsh im him).map _
    have hfp : ∀ x ∈ FloatArith.rescaled (mx - mn) mn (pixels N i), F.finite x := by
      rw [← hpix i hi]
      intro x hx
      obtain ⟨im, him, rfl⟩ := List.mem_map.1 hx
      have hlt : i < im.data.length := by rw [(hoSh im him).length, ← hI.length]; exact hi
      rw [List.getD_eq_getElem?_getD, List.getElem?_eq_getElem hlt]
      exact hfo im him _ (List.getElem_mem _)
    obtain ⟨hsf, h1⟩ := F.rescaled_err (mx - mn) mn (pixels N i) (by simpa [pixels] using hNne) hfp
    have hi' : i < (image.data.map (fun a => (a - mn) / (mx - mn))).length := by simpa using hi
    have h2 := F.rows_err hres (R := N.map (·.data)) (hcase.imp (fun h => ⟨h.1, by rw [h.2]⟩) (fun h => by rw [h]; simp)) hf i hi'
    rw [← hcol, ← hcol, List.getElem_map] at h2
    have hqf : F.finite ((image.data[i] - mn) / (mx - mn)) := by
      obtain ⟨s, hs1, hs2⟩ := hres.2 i hi'
      have := (F.sub _ _ (hf _ (List.mem_of_getElem? hs2))).1
      rw [List.getElem?_eq_getElem hi', Option.some.injEq, List.getElem_map] at hs1
      rw [hs1]; exact this
    have h3 := F.normalise_err _ _ _ hsf hqf
    rw [← hpix i hi] at h1
    simp only
    generalize F.val ((image.data[i] - mn) / (mx - mn)) = q at *
    generalize ((pixels out i).map F.val).sum = o at *
    generalize hX : ((pixels N i).map F.val).sum = X at *
    generalize F.val image.data[i] = a at *
    generalize F.val (mx - mn) = s at *
    generalize F.val mn = m at *
    have key : ∀ b, |q - X| ≤ b → |a - o| ≤ (2 * F.u + F.u ^ 2) * |a - m| + F.eta * |s| + |s| * b +
        F.rescaleSlack s m ((pixels N i).map F.val) := by
      intro b hb
      have e : a - o = (a - (q * s + m)) + (s * (q - X) + -(o - (X * s + m))) := by ring
      rw [e]
      have h4 := abs_add_le (a - (q * s + m)) (s * (q - X) + -(o - (X * s + m)))
      have h5 := abs_add_le (s * (q - X)) (-(o - (X * s + m)))
      rw [abs_neg, abs_mul] at h5
      have h6 := mul_le_mul_of_nonneg_left hb (abs_nonneg s)
      linarith
    refine ⟨?_, fun e => key _ (h2.2 (by rw [e]; simp))⟩
    have := key _ h2.1
    rw [mul_add] at this
    linarith

end EMD2D
end LawFree

/-! ### The assumptions for IEEE 754 numbers -/

namespace Ieee
variable {f e E : ℕ}

theorem mul_one_div_one (hE : f + 2 ≤ E) (x : Ieee f e E) : x / lit 1 = x ∧ x * lit 1 = x := by
  obtain ⟨h1, hl⟩ : IsInt (lit 1 : Ieee f e E) 1 := by
    have := isInt_lit (f := f) (e := e) (E := E) hE 1 (by simp; exact Nat.one_le_two_pow)
    simpa using this
  have hpos : (0 : ℤ) < 1 * 2 ^ e := by positivity
  rw [hl]
  cases x with
  | nan => exact ⟨rfl, rfl⟩
  | inf s =>
    have h3 : ¬ (1 * 2 ^ e : ℤ) < 0 := by omega
    constructor
    · change Ieee.inf (s != decide ((1 * 2 ^ e : ℤ) < 0)) = _
      rw [decide_eq_false h3, Bool.bne_false]
    · change (if (1 * 2 ^ e : ℤ) = 0 then nan else Ieee.inf (s != decide ((1 * 2 ^ e : ℤ) < 0))) = _
      rw [if_neg (by omega), decide_eq_false h3, Bool.bne_false]
  | num m h =>
    have hr : ∀ (n : ℤ) (d : ℕ) (hd : 0 < d), n = m * d → (round n d hd : Ieee f e E) = num m h := by
      intro n d hd hn
      unfold round
      have : rndInt f n d = m := by rw [hn, rndInt_mul _ _ _ hd, h.1]
      simp only [this]
      rw [dif_pos h.2]
    constructor
    · change (if h0 : (1 * 2 ^ e : ℤ) = 0 then _ else
        round (if (1 * 2 ^ e : ℤ) < 0 then -(m * 2 ^ e) else m * 2 ^ e) (1 * 2 ^ e : ℤ).natAbs _) = _
      rw [dif_neg (by omega), if_neg (by omega)]
      apply hr
      rw [Int.natCast_natAbs, abs_of_pos hpos]
      ring
    · change round (m * (1 * 2 ^ e)) (2 ^ e) (Nat.two_pow_pos e) = _
      apply hr
      push_cast
      ring

end Ieee

/-- C137: dividing by 1.0 and multiplying with 1.0 do nothing in double, single and half precision. -/
theorem C137_unit : (∀ x : F64, x / lit 1 = x ∧ x * lit 1 = x) ∧ (∀ x : F32, x / lit 1 = x ∧ x * lit 1 = x) ∧
    ∀ x : F16, x / lit 1 = x ∧ x * lit 1 = x :=
  ⟨Ieee.mul_one_div_one (by norm_num), Ieee.mul_one_div_one (by norm_num), Ieee.mul_one_div_one (by norm_num)⟩

/-! ### Cases: half precision -/

namespace F16Cases

/-- A signal in half precision that is not made of whole numbers. -/
def wave : List F16 := [0, 3 / 10, -1 / 10, 7 / 10, -3 / 10, 5 / 10, 1 / 10, 9 / 10, 0, 2 / 10].map lit

def stamps : List F16 := (List.range 10).map (fun k => lit (k : ℚ))

def finite (x : F16) : Bool := x.isFinite

/-- The numerator of a number in half precision. -/
def units : F16 → ℤ
  | .num m _ => m
  | _ => 0

/-- JitEMD finds two components and a finite residue; their sum exceeds the last sample by 1024 units. -/
example : okWith (fun R : List (List F16) => R.length == 3 && R.all (fun r => r.all finite) &&
      (R.map (fun r => units (r.getD 9 (lit 0)))).sum - units (wave.getD 9 (lit 0)) == 1024)
    (Jit.emd 20 linSciPy { EMD.Cfg.default with FIXE := 3 } wave stamps 2) = true := by decide +kernel

/-- EMD_matlab finds a component and a residue that miss the last sample by 4096 units. -/
example : okWith (fun R : Matlab.Result F16 => R.imfNo == 2 && R.IMF.all (fun r => r.2.all finite) &&
      (R.IMF.map (fun r => units (r.2.getD 9 (lit 0)))).sum - units (wave.getD 9 (lit 0)) == 4096)
    (Matlab.emd 20 linSciPy { Matlab.Cfg.default with FIXE := 3 } wave none 2) = true := by decide +kernel

/-- A board in half precision of grey levels `1/10` and `7/10`. -/
def greyBoard : Img F16 := Img.ofFn 7 7 (fun r c => if (r + c) % 2 = 0 then lit (7 / 10) else lit (1 / 10))

/-- The surface of constant height `3/10`. -/
def flat : Surface F16 := fun _ _ _ => .ok (fun _ _ => lit (3 / 10))

example : Img.Spec.WF greyBoard := rfl

/-- EMD2D finds two components and the rest; their sum exceeds the first pixel by 3276 units. -/
example : okWith (fun R : List (Img F16) => R.length == 3 && R.all (fun r => r.data.all finite) &&
      ((Img.pixels R 0).map units).sum - units (greyBoard.data.getD 0 (lit 0)) == 3276)
    (EMD2D.emd flat 10 { EMD2D.Cfg.default with FIXE := 1 } greyBoard 2) = true := by decide +kernel

/-- Reconstruction by lowering the highest pixels. -/
def ext : BEMD.Ext F16 :=
  { reconstruction := fun seed mask => mask.map (fun x => if x < npMax mask.data then x else npMax seed.data), rbf := flat }

/-- BEMD finds a component and a residue; their sum exceeds the second pixel by 2048 units. -/
example : okWith (fun R : List (Img F16) => R.length == 2 && R.all (fun r => r.data.all finite) &&
      ((Img.pixels R 1).map units).sum - units (greyBoard.data.getD 1 (lit 0)) == 2048)
    (BEMD.bemd ext 10 BEMD.Cfg.default greyBoard 1) = true := by decide +kernel

end F16Cases

end PyEMD
