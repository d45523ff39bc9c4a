import Verif.Props.BemdExtrema
import Verif.Props.Negation

/-!
# C148: `BEMD` of the negative image
-/

set_option linter.unusedSectionVars false

namespace PyEMD
namespace BEMD

open Img Img.Spec EMD Skimage

variable {K : Type} [Field K] [LinearOrder K] [IsStrictOrderedRing K] [FloorRing K]

/-- The negative of an image. -/
def negative (im : Img K) : Img K := im.map (fun x => -x)

/-- The interpolator gives the negated surface for negated values at the same points. -/
def OddSurface (rbf : Surface K) : Prop :=
  ∀ X Y Z, rbf X Y (vneg Z) = (rbf X Y Z).map (fun s i j => -(s i j))

theorem negative_negative (im : Img K) : negative (negative im) = im := by
  cases im
  simp [negative, Img.map, Function.comp_def]

theorem negative_px (im : Img K) (r c : Nat) : (negative im).px r c = -im.px r c := by
  unfold negative Img.px Img.map
  simp only [lit_zero]
  rw [List.getD_eq_getElem?_getD, List.getD_eq_getElem?_getD, List.getElem?_map]
  cases im.data[r * im.cols + c]? <;> simp

theorem negative_sub (a b : Img K) : (negative a).sub (negative b) = negative (a.sub b) := by
  unfold negative Img.sub Img.map
  congr 1
  exact vsub_vneg a.data b.data

theorem negative_add (a b : Img K) : (negative a).add (negative b) = negative (a.add b) := by
  unfold negative Img.add Img.map
  congr 1
  exact vadd_vneg a.data b.data

theorem negative_sum (R C : Nat) (ims : List (Img K)) : Img.sum R C (ims.map negative) = negative (Img.sum R C ims) := by
  unfold negative Img.sum Img.map
  congr 1
  rw [← vneg, ← sumRows_vneg]
  simp [vneg, Function.comp_def]

theorem negative_mean (a : Img K) : (negative a).mean = -a.mean := by
  unfold negative Img.mean Img.map
  simp only [List.length_map, neg_div']
  congr 1
  rw [npSum_eq, npSum_eq]
  induction a.data with
  | nil => simp
  | cons x l ih => rw [List.map_cons, List.sum_cons, List.sum_cons, ih, neg_add]

theorem negative_allclose (t : ℚ) (a b : Img K) : (negative a).allclose t (negative b) = a.allclose t b := by
  unfold negative Img.allclose Img.map
  rw [List.zip_map, List.all_map]
  congr 1
  funext p
  simp only [Function.comp, Prod.map, pyAbs_neg]
  rw [show -p.1 - -p.2 = -(p.1 - p.2) by ring, pyAbs_neg]

theorem negative_allclose0 (a : Img K) : allclose0 (negative a).data = allclose0 a.data := by
  simp [negative, allclose0, Img.map, Function.comp_def, pyAbs_neg]

theorem negative_check (cfg : Cfg2 K) (a b m : Img K) :
    checkProtoImf cfg (negative a) (negative b) (negative m) = checkProtoImf cfg a b m := by
  unfold checkProtoImf
  rw [negative_allclose, negative_mean]
  have h1 : ((negative m).map (fun x => pyAbs (x - -m.mean))) = m.map (fun x => pyAbs (x - m.mean)) := by
    simp only [negative, Img.map, List.map_map]
    congr 2
    funext x
    simp only [Function.comp]
    rw [show -x - -m.mean = -(x - m.mean) by ring, pyAbs_neg]
  have h2 : (negative a).map pyAbs = a.map pyAbs := by
    simp only [negative, Img.map, List.map_map]
    congr 2
    funext x
    simp only [Function.comp, pyAbs_neg]
  rw [h1, h2]

theorem negative_values (im : Img K) (ps : List (Nat × Nat)) : valuesAt (negative im) ps = (valuesAt im ps).map vneg := by
  induction ps with
  | nil => rfl
  | cons p ps ih =>
    rw [valuesAt, valuesAt, ih]
    show (if im.rows ≤ p.1 ∨ im.cols ≤ p.2 then _ else _) = _
    split
    · rfl
    · cases valuesAt im ps with
      | error e => rfl
      | ok vs => exact congrArg Except.ok (by rw [negative_px]; rfl)

theorem negative_spline {ext : Ext K} (hodd : OddSurface ext.rbf) (ps : List (Nat × Nat)) (vs : List K) (R C : Nat) :
    splinePoints ext ps (vneg vs) R C = (splinePoints ext ps vs R C).map negative := by
  unfold splinePoints
  rw [hodd]
  cases ext.rbf (ps.map (·.1)) (ps.map (·.2)) vs with
  | error e => rfl
  | ok s =>
    refine congrArg Except.ok ?_
    simp only [negative, Img.map, Img.ofFn, List.map_flatMap, List.map_map, Function.comp_def]

theorem values_noFuel (im : Img K) (ps : List (Nat × Nat)) : valuesAt im ps ≠ .error .outOfFuel := by
  induction ps with
  | nil => simp [valuesAt]
  | cons p ps ih =>
    rw [valuesAt]
    split
    · simp
    · cases h : valuesAt im ps with
      | error e => rw [h] at ih; exact fun h' => ih (by cases h'; rfl)
      | ok vs => exact fun h' => by cases h'

theorem spline_noFuel {ext : Ext K} (hfuel : ∀ X Y Z, ext.rbf X Y Z ≠ .error .outOfFuel) (ps : List (Nat × Nat)) (vs : List K) (R C : Nat) :
    splinePoints ext ps vs R C ≠ .error .outOfFuel := by
  unfold splinePoints
  have := hfuel (ps.map (·.1)) (ps.map (·.2)) vs
  cases h : ext.rbf (ps.map (·.1)) (ps.map (·.2)) vs with
  | error e => rw [h] at this; exact fun h' => this (by cases h'; rfl)
  | ok s => exact fun h' => by cases h'

theorem spline_shape {ext : Ext K} {ps : List (Nat × Nat)} {vs : List K} {R C : Nat} {e : Img K} (h : splinePoints ext ps vs R C = .ok e) :
    e.rows = C ∧ e.cols = R := by
  unfold splinePoints at h
  cases hs : ext.rbf (ps.map (·.1)) (ps.map (·.2)) vs with
  | error e => rw [hs] at h; cases h
  | ok s => rw [hs] at h; cases h; exact ⟨rfl, rfl⟩

theorem negative_envelopes {ext : Ext K} (hodd : OddSurface ext.rbf) (hfuel : ∀ X Y Z, ext.rbf X Y Z ≠ .error .outOfFuel) (im : Img K)
    (a b : List (Nat × Nat)) :
    RelE (fun p q => q = (negative p.2, negative p.1) ∧ p.1.rows = p.2.rows ∧ p.1.cols = p.2.cols) (extractMaxMinSpline ext im a b) (extractMaxMinSpline ext (negative im) b a) := by
  unfold extractMaxMinSpline
  rw [negative_values, negative_values]
  have f1 := values_noFuel im a
  have f2 := values_noFuel im b
  show RelE _ _ (((valuesAt im b).map vneg) >>= fun minVal => ((valuesAt im a).map vneg) >>= fun maxVal =>
    splinePoints ext b minVal im.rows im.cols >>= fun minEnv => splinePoints ext a maxVal im.rows im.cols >>= fun maxEnv => pure (minEnv, maxEnv))
  cases h1 : valuesAt im a with
  | error e =>
    rw [h1] at f1
    have he : e ≠ .outOfFuel := fun h => f1 (by rw [h])
    cases h2 : valuesAt im b with
    | error e' =>
      rw [h2] at f2
      have he' : e' ≠ .outOfFuel := fun h => f2 (by rw [h])
      exact iff_of_false he he'
    | ok vb => exact iff_of_false he he
  | ok va =>
    cases h2 : valuesAt im b with
    | error e' =>
      rw [h2] at f2
      have he' : e' ≠ .outOfFuel := fun h => f2 (by rw [h])
      exact iff_of_false he' he'
    | ok vb =>
      show RelE _ (splinePoints ext a va im.rows im.cols >>= fun x => splinePoints ext b vb im.rows im.cols >>= fun y => pure (x, y))
        (splinePoints ext b (vneg vb) im.rows im.cols >>= fun x => splinePoints ext a (vneg va) im.rows im.cols >>= fun y => pure (x, y))
      refine RelE.bind_swap (R₁ := fun p q => q = negative p) (R₂ := fun p q => q = negative p) ?_ ?_
        (RelE.of_eq (f := negative) (fun _ => rfl) (negative_spline hodd _ _ _ _))
        (RelE.of_eq (f := negative) (fun _ => rfl) (negative_spline hodd _ _ _ _)) ?_
      · exact spline_noFuel hfuel _ _ _ _
      · exact spline_noFuel hfuel _ _ _ _
      · rintro x y _ _ hx hy rfl rfl
        obtain ⟨rx, cx⟩ := spline_shape hx
        obtain ⟨ry, cy⟩ := spline_shape hy
        exact ⟨rfl, rx.trans ry.symm, cx.trans cy.symm⟩

theorem negative_sift {ext : Ext K} (hodd : OddSurface ext.rbf) (hfuel : ∀ X Y Z, ext.rbf X Y Z ≠ .error .outOfFuel) (cfg : Cfg2 K) :
    ∀ (k n nH : Nat) (im : Img K),
      RelE (fun p q => q = negative p) (sift ext cfg k n nH im) (sift ext cfg k n nH (negative im)) := by
  intro k
  induction k with
  | zero => intro n nH im; exact (rfl : negative im = negative im)
  | succ k ih =>
    intro n nH im
    have hmin : extractMinimaPositions ext (negative im) = extractMaximaPositions ext im := by
      show extractMaximaPositions ext (negative (negative im)) = _
      rw [negative_negative]
    have hmax : extractMaximaPositions ext (negative im) = extractMinimaPositions ext im := rfl
    rw [sift, sift]
    dsimp only
    rw [hmin, hmax]
    by_cases hc : 1 < (extractMinimaPositions ext im).length ∧ 1 < (extractMaximaPositions ext im).length
    · rw [if_pos hc, if_pos hc.symm]
      refine RelE.bind (negative_envelopes hodd hfuel im _ _) ?_
      rintro ⟨p1, p2⟩ _ - - ⟨rfl, hrows, hcols⟩
      dsimp only at hrows hcols ⊢
      have hm : ((negative p2).add (negative p1)).map (fun x => lit (1 / 2) * x) = negative ((p1.add p2).map (fun x => lit (1 / 2) * x)) := by
        rw [negative_add]
        simp only [negative, Img.map, Img.add, List.map_map, hrows, hcols]
        congr 1
        rw [show vadd p2.data p1.data = vadd p1.data p2.data from List.zipWith_comm_of_comm (fun x y => add_comm x y)]
        congr 1
        funext x
        simp only [Function.comp]
        ring
      rw [hm]
      generalize (p1.add p2).map (fun x => lit (1 / 2) * x) = m
      rw [negative_sub, negative_check]
      show RelE _ (if m.rows ≠ im.rows ∨ m.cols ≠ im.cols then _ else _) (if m.rows ≠ im.rows ∨ m.cols ≠ im.cols then _ else _)
      split
      · exact Iff.rfl
      · split
        · split
          · exact (rfl : negative (im.sub m) = negative (im.sub m))
          · exact ih _ _ _
        · split
          · split
            · exact ih _ _ _
            · generalize (if checkProtoImf cfg (im.sub m) im m = true then nH + 1 else 0) = h
              by_cases hh : cfg.FIXE_H ≤ h
              · rw [if_pos hh, if_pos hh]
                exact (rfl : negative (im.sub m) = negative (im.sub m))
              · rw [if_neg hh, if_neg hh]
                exact ih _ _ _
          · split
            · exact (rfl : negative (im.sub m) = negative (im.sub m))
            · exact ih _ _ _
    · rw [if_neg hc, if_neg (fun h => hc h.symm)]
      exact (rfl : negative im = negative im)

theorem negative_loop {ext : Ext K} (hodd : OddSurface ext.rbf) (hfuel : ∀ X Y Z, ext.rbf X Y Z ≠ .error .outOfFuel) (cfg : Cfg2 K)
    (im : Img K) (m : Int) : ∀ (fuel : Nat) (imfs : List (Img K)),
      RelE (fun p q => q = p.map negative) (loop ext cfg im m fuel imfs) (loop ext cfg (negative im) m fuel (imfs.map negative)) := by
  intro fuel
  induction fuel with
  | zero => intro imfs; exact Iff.rfl
  | succ fuel ih =>
    intro imfs
    rw [loop, loop]
    dsimp only
    have hres : (negative im).sub (Img.sum (negative im).rows (negative im).cols (imfs.map negative)) =
        negative (im.sub (Img.sum im.rows im.cols imfs)) := by
      rw [← negative_sub, ← negative_sum]; rfl
    rw [hres]
    refine RelE.bind (negative_sift hodd hfuel cfg _ _ _ _) ?_
    rintro f _ - - rfl
    have hmap : imfs.map negative ++ [negative f] = (imfs ++ [f]).map negative := by simp
    rw [hmap, show Img.sum (negative im).rows (negative im).cols ((imfs ++ [f]).map negative) =
      negative (Img.sum im.rows im.cols (imfs ++ [f])) from negative_sum _ _ _, negative_allclose, List.length_map]
    split
    · exact (rfl : List.map negative (imfs ++ [f]) = List.map negative (imfs ++ [f]))
    · exact ih _

/-- **C148**: the negative of an image is decomposed into the negatives of its components, or both decompositions fail, for any
reconstruction and any odd interpolator (minima and maxima, lower and upper envelope change places). -/
theorem C148_negation {ext : Ext K} (hodd : OddSurface ext.rbf) (hfuel : ∀ X Y Z, ext.rbf X Y Z ≠ .error .outOfFuel) (fuel : Nat)
    (cfg : Cfg2 K) (im : Img K) (m : Int) :
    RelE (fun p q => q = p.map negative) (bemd ext fuel cfg im m) (bemd ext fuel cfg (negative im) m) := by
  unfold bemd
  refine RelE.bind (negative_loop hodd hfuel cfg im m fuel []) ?_
  rintro imfs _ - - rfl
  have hres : (negative im).sub (Img.sum (negative im).rows (negative im).cols (imfs.map negative)) =
      negative (im.sub (Img.sum im.rows im.cols imfs)) := by
    rw [← negative_sub, ← negative_sum]; rfl
  rw [hres]
  dsimp only
  rw [negative_allclose0]
  refine RelE.pure ?_
  split <;> simp

theorem meanSurface_odd : OddSurface meanSurface := by
  intro X Y Z
  refine congrArg Except.ok ?_
  funext _ _
  have : (vneg Z).sum = -Z.sum := by
    induction Z with
    | nil => simp [vneg]
    | cons z Z ih =>
      rw [vneg, List.map_cons, List.sum_cons, List.sum_cons, neg_add, ← ih]
      rfl
  rw [this, vneg, List.length_map, neg_div]

/-- `C148_negation` applies; there is a component and a remainder, neither of them zero. -/
example : OddSurface (ext meanSurface).rbf ∧ (∀ X Y Z, (ext meanSurface).rbf X Y Z ≠ .error .outOfFuel) ∧
    okWith (fun out => out.length == 2 && out.all (fun im => im.data.any (fun x => x ≠ 0)))
      (bemd (ext meanSurface) 3 Cfg.default hills 1) = true :=
  ⟨meanSurface_odd, (fun _ _ _ h => by simp [ext, meanSurface] at h), by decide +kernel⟩

end BEMD
end PyEMD
