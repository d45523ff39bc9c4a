import Verif.Props.ImageUnits
import Verif.Props.Image2

/-!
# When the decompositions of images stop (C94)
-/

set_option linter.unusedSectionVars false

namespace PyEMD
open Img.Spec

variable {K : Type} [Field K] [LinearOrder K] [IsStrictOrderedRing K] [FloorRing K]

/-- The images add up to `image` within the tolerances of `np.allclose` at every pixel. -/
def AddUp (image : Img K) (comps : List (Img K)) : Prop :=
  ∀ i < image.data.length, |image.data.getD i 0 - (comps.map (fun im => im.data.getD i 0)).sum| ≤
    1 / 100000000 + 1 / 100000 * |(comps.map (fun im => im.data.getD i 0)).sum|

private theorem getD_at {l : List K} {i : Nat} (h : i < l.length) : l.getD i 0 = l[i] := by simp [List.getD, h]

theorem allclose_sum_iff {image : Img K} (hw : WF image) {comps : List (Img K)} (hs : ∀ im ∈ comps, HasShape im image.rows image.cols) :
    image.allclose (1 / 100000) (Img.sum image.rows image.cols comps) = true ↔ AddUp image comps := by
  have hl : (Img.sum image.rows image.cols comps).data.length = image.data.length := by
    rw [(HasShape.sum image.rows image.cols comps hs).length, hw]
  have hsum : ∀ i < image.data.length, (Img.sum image.rows image.cols comps).data.getD i 0 = (comps.map (fun im => im.data.getD i 0)).sum :=
    fun i hi => EMD2D.img_sum_getD _ _ _ hs i (by rw [← hw]; exact hi)
  unfold Img.allclose AddUp
  rw [List.all_eq_true]
  simp only [decide_eq_true_eq, pyAbs_eq, lit_eq]
  constructor
  · intro h i hi
    have := h (image.data[i], (Img.sum image.rows image.cols comps).data[i]'(by omega)) (by
      rw [← List.getElem_zip (h := by rw [List.length_zip]; omega)]
      exact List.getElem_mem _)
    rw [← hsum i hi, getD_at hi, getD_at (by rw [hl]; exact hi)]
    simpa using this
  · intro h p hp
    obtain ⟨i, hi, rfl⟩ := List.getElem_of_mem hp
    rw [List.length_zip] at hi
    have hi' : i < image.data.length := by omega
    have := h i hi'
    rw [← hsum i hi', getD_at hi', getD_at (by rw [hl]; exact hi')] at this
    rw [List.getElem_zip]
    simpa using this

namespace BEMD

theorem loop_stop {ext : Ext K} {cfg : Cfg2 K} {image : Img K} (hw : WF image) {m : Int} : ∀ {fuel : Nat} {imfs out : List (Img K)},
    loop ext cfg image m fuel imfs = .ok out → (∀ im ∈ imfs, HasShape im image.rows image.cols) →
    ∃ new, out = imfs ++ new ∧ new ≠ [] ∧
      (∀ j, imfs.length < j → j < out.length → ¬ AddUp image (out.take j) ∧ ¬ (0 < m ∧ m ≤ j)) ∧
      (AddUp image out ∨ (0 < m ∧ m ≤ out.length)) := by
  intro fuel
  induction fuel with
  | zero => intro imfs out h; simp [loop] at h
  | succ fuel ih =>
    intro imfs out h hall
    have hI : HasShape image image.rows image.cols := ⟨hw, rfl, rfl⟩
    simp only [loop, bind_eq_ok] at h
    obtain ⟨r, hr, h⟩ := h
    have hall' : ∀ im ∈ imfs ++ [r], HasShape im image.rows image.cols := by
      intro im him
      rcases List.mem_append.1 him with h1 | h1
      · exact hall im h1
      · rw [List.mem_singleton.1 h1]
        exact sift_shape hr (hI.sub (HasShape.sum _ _ imfs hall))
    split at h
    · rename_i hc
      rw [allclose_sum_iff hw hall'] at hc
      cases h
      exact ⟨[r], rfl, by simp, fun j h1 h2 => by simp at h2; omega, hc⟩
    · rename_i hc
      rw [allclose_sum_iff hw hall'] at hc
      obtain ⟨new, rfl, -, h2, h3⟩ := ih h hall'
      refine ⟨r :: new, by simp, by simp, fun j h4 h5 => ?_, h3⟩
      by_cases hj : j = imfs.length + 1
      · rw [hj, show imfs.length + 1 = (imfs ++ [r]).length by simp, List.take_left]
        exact not_or.1 hc
      · exact h2 j (by simp; omega) h5

/-- C94 (BEMD): `bemd` returns the components found, followed by the rest of the image if that is not negligible.  No component was looked
for after the components added up to the image or after the limit was reached, and in the end one of these was the case. -/
theorem C94_stop (ext : Ext K) (fuel : Nat) (cfg : Cfg2 K) (image : Img K) (hw : WF image) (m : Int) (out : List (Img K))
    (h : bemd ext fuel cfg image m = .ok out) :
    ∃ n, 1 ≤ n ∧ n ≤ out.length ∧ out.length ≤ n + 1 ∧
      (∀ j, 1 ≤ j → j < n → ¬ AddUp image (out.take j) ∧ ¬ (0 < m ∧ m ≤ j)) ∧
      (AddUp image (out.take n) ∨ (0 < m ∧ m = n)) := by
  unfold bemd at h
  simp only [bind_eq_ok, pure_eq_ok] at h
  obtain ⟨comps, hl, h⟩ := h
  obtain ⟨new, hnew, hne, h1, h2⟩ := loop_stop hw hl (by simp)
  simp only [List.nil_append] at hnew
  subst hnew
  have hpos := List.length_pos_iff.2 hne
  have htake : ∀ j ≤ comps.length, out.take j = comps.take j := by
    intro j hj
    subst h
    split
    · rfl
    · rw [List.take_append_of_le_length hj]
  have hlen : out.length = comps.length ∨ out.length = comps.length + 1 := by
    subst h
    split <;> simp
  refine ⟨comps.length, hpos, by omega, by omega, fun j hj hj' => ?_, ?_⟩
  · rw [htake j hj'.le]
    exact h1 j (by simp; omega) hj'
  · rw [htake _ le_rfl, List.take_length]
    rcases h2 with h2 | ⟨h2, h3⟩
    · exact .inl h2
    · right
      refine ⟨h2, ?_⟩
      rcases Nat.lt_or_ge 1 comps.length with h4 | h4
      · have := (h1 (comps.length - 1) (by simp; omega) (by omega)).2
        have := fun h => this ⟨h2, h⟩
        omega
      · omega

example : WF hills ∧ okWith (fun out => decide (out.length = 3)) (bemd sampleExt 2 Cfg.default hills 2) = true :=
  ⟨by unfold WF; decide, by decide +kernel⟩

end BEMD

namespace EMD2D

/-- At most four minima or at most four maxima. -/
def FewPeaks (im : Img K) : Prop := ∃ e, findExtrema im = .ok e ∧ (e.1.length ≤ 4 ∨ e.2.length ≤ 4)

theorem sift_few {sbs : Surface K} {cfg : Cfg2 K} : ∀ {k n nH : Nat} {imf m : Img K} {x : Img K × Bool},
    sift sbs cfg k n nH imf m = .ok x → x.2 = false → FewPeaks x.1 := by
  intro k
  induction k with
  | zero => intro n nH imf m x h hx; simp only [sift] at h; cases h; cases hx
  | succ k ih =>
    intro n nH imf m x h hx
    simp only [sift, bind_eq_ok] at h
    obtain ⟨e, he, h⟩ := h
    split at h
    · simp only [bind_eq_ok] at h
      obtain ⟨env, -, h⟩ := h
      by_cases hF : cfg.FIXE ≠ 0
      · rw [if_pos hF] at h
        by_cases h1 : cfg.FIXE + 1 ≤ n + 1
        · rw [if_pos h1] at h; cases h; cases hx
        · rw [if_neg h1] at h; exact ih h hx
      · rw [if_neg hF] at h
        by_cases hH : cfg.FIXE_H ≠ 0
        · rw [if_pos hH] at h
          by_cases h1 : n + 1 = 1
          · rw [if_pos h1] at h; exact ih h hx
          · rw [if_neg h1] at h
            generalize (if checkProtoImf cfg _ _ _ = true then nH + 1 else 0) = q at h
            by_cases h2 : cfg.FIXE_H ≤ q
            · rw [if_pos h2] at h; cases h; cases hx
            · rw [if_neg h2] at h; exact ih h hx
        · rw [if_neg hH] at h
          by_cases h1 : checkProtoImf cfg ((imf.sub m).sub ((env.1.add env.2).map (fun x => lit (1 / 2) * x))) (imf.sub m)
              ((env.1.add env.2).map (fun x => lit (1 / 2) * x)) = true
          · rw [if_pos h1] at h; cases h; cases hx
          · rw [if_neg h1] at h; exact ih h hx
    · rename_i hc
      cases h
      exact ⟨e, he, by omega⟩

theorem loop_stop {sbs : Surface K} {cfg : Cfg2 K} {image ims : Img K} (hw : WF image) (hs : HasShape ims image.rows image.cols) {m : Int} :
    ∀ {fuel : Nat} {imfs out : List (Img K)}, loop sbs cfg image ims m fuel imfs = .ok out →
    (∀ im ∈ imfs, HasShape im image.rows image.cols) →
    ∃ new, out = imfs ++ new ∧ new ≠ [] ∧
      (∀ j, imfs.length < j → j < out.length → ¬ AddUp image (out.take j) ∧ ¬ (0 < m ∧ m ≤ j)) ∧
      (AddUp image out ∨ (0 < m ∧ m ≤ out.length) ∨ ∃ last, out.getLast? = some last ∧ FewPeaks last) := by
  intro fuel
  induction fuel with
  | zero => intro imfs out h; simp [loop] at h
  | succ fuel ih =>
    intro imfs out h hall
    simp only [loop, bind_eq_ok] at h
    obtain ⟨r, hr, h⟩ := h
    have hall' : ∀ im ∈ imfs ++ [r.1], HasShape im image.rows image.cols := by
      intro im him
      rcases List.mem_append.1 him with h1 | h1
      · exact hall im h1
      · rw [List.mem_singleton.1 h1]
        exact sift_shape hr (hs.sub (HasShape.sum _ _ imfs hall)) (.zeros _ _)
    unfold endCondition at h
    split at h
    · rename_i hc
      rw [allclose_sum_iff hw hall'] at hc
      cases h
      refine ⟨[r.1], rfl, by simp, fun j h1 h2 => by simp at h2; omega, ?_⟩
      rcases hc with hc | hc
      · exact .inl hc
      · exact .inr (.inl hc)
    · rename_i hc
      rw [allclose_sum_iff hw hall'] at hc
      split at h
      · obtain ⟨new, rfl, -, h2, h3⟩ := ih h hall'
        refine ⟨r.1 :: new, by simp, by simp, fun j h4 h5 => ?_, h3⟩
        by_cases hj : j = imfs.length + 1
        · rw [hj, show imfs.length + 1 = (imfs ++ [r.1]).length by simp, List.take_left]
          exact not_or.1 hc
        · exact h2 j (by simp; omega) h5
      · rename_i hf
        cases h
        refine ⟨[r.1], rfl, by simp, fun j h1 h2 => by simp at h2; omega, .inr (.inr ⟨r.1, by simp, ?_⟩)⟩
        exact sift_few hr (by simpa using hf)

/-- The values of the image lie between 0 and 1 and reach both. -/
def UnitRange (image : Img K) : Prop := (0 : K) ∈ image.data ∧ (1 : K) ∈ image.data ∧ ∀ x ∈ image.data, 0 ≤ x ∧ x ≤ 1

theorem addLast_zero : ∀ l : List (Img K), addLast 0 l = l
  | [] => rfl
  | [x] => by simp [addLast, Img.map]
  | x :: y :: l => by rw [addLast, addLast_zero (y :: l)]; simp

/-- C94 (EMD2D), for images with values from 0 to 1: `emd` returns the components found, followed by the rest of the image if that is not
negligible.  No component was looked for after the components added up to the image or after the limit was reached; in the end one of
these was the case, or the last component has at most four minima or at most four maxima.
Missing: other ranges, for which it is false, see `C94_counterexample`. -/
theorem C94_stop_partial (sbs : Surface K) (fuel : Nat) (cfg : Cfg2 K) (image : Img K) (hw : WF image) (hu : UnitRange image) (m : Int)
    (out : List (Img K)) (h : emd sbs fuel cfg image m = .ok out) :
    ∃ n, 1 ≤ n ∧ n ≤ out.length ∧ out.length ≤ n + 1 ∧
      (∀ j, 1 ≤ j → j < n → ¬ AddUp image (out.take j) ∧ ¬ (0 < m ∧ m ≤ j)) ∧
      (AddUp image (out.take n) ∨ (0 < m ∧ m = n) ∨ ∃ last, (out.take n).getLast? = some last ∧ FewPeaks last) := by
  have hne : image.data ≠ [] := List.ne_nil_of_mem hu.1
  obtain ⟨hm1, hm2⟩ := npMin_spec hne
  obtain ⟨hM1, hM2⟩ := npMax_spec hne
  have hmin : npMin image.data = 0 := le_antisymm (hm2 _ hu.1) (hu.2.2 _ hm1).1
  have hmax : npMax image.data = 1 := le_antisymm (hu.2.2 _ hM1).2 (hM2 _ hu.2.1)
  have hmap : ∀ im : Img K, im.map (fun x => x * (1 - 0)) = im := by
    intro im
    simp [Img.map]
  have hims : image.map (fun x => (x - 0) / (1 - 0)) = image := by simp [Img.map]
  rw [emd_eq sbs fuel cfg image m hne, hmin, hmax, if_neg (by simp), hims] at h
  cases hl : loop sbs cfg image image m fuel [] with
  | error e => rw [hl] at h; cases h
  | ok comps =>
    rw [hl] at h
    simp only [Except.map, Except.ok.injEq] at h
    rw [addLast_zero] at h
    simp only [hmap, List.map_id'] at h
    obtain ⟨new, hnew, hne', h1, h2⟩ := loop_stop hw ⟨hw, rfl, rfl⟩ hl (by simp)
    simp only [List.nil_append] at hnew
    subst hnew
    have hpos := List.length_pos_iff.2 hne'
    have htake : ∀ j ≤ comps.length, out.take j = comps.take j := by
      intro j hj
      subst h
      split
      · rfl
      · rw [List.take_append_of_le_length hj]
    have hlen : out.length = comps.length ∨ out.length = comps.length + 1 := by
      subst h
      split <;> simp
    refine ⟨comps.length, hpos, by omega, by omega, fun j hj hj' => ?_, ?_⟩
    · rw [htake j hj'.le]
      exact h1 j (by simp; omega) hj'
    · rw [htake _ le_rfl, List.take_length]
      rcases h2 with h2 | ⟨h2, h3⟩ | h2
      · exact .inl h2
      · right
        left
        refine ⟨h2, ?_⟩
        rcases Nat.lt_or_ge 1 comps.length with h4 | h4
        · have := (h1 (comps.length - 1) (by simp; omega) (by omega)).2
          have := fun h => this ⟨h2, h⟩
          omega
        · omega
      · exact .inr (.inr h2)

/-- The board has values from 0 to 1; a surface that leaves it whole ends after one component, another one after two. -/
example : WF board ∧ UnitRange board ∧ okWith (fun out => decide (out.length = 1)) (emd zeroSurface 2 Cfg.default board 2) = true ∧
    okWith (fun out => decide (out.length = 3)) (emd flatSurface 2 Cfg.default board 2) = true :=
  ⟨by unfold WF; decide, ⟨by decide, by decide, by decide +kernel⟩, by decide +kernel, by decide +kernel⟩

/-- C94 fails for other ranges: with the values doubled the first component is the whole image, and yet a second one is looked for. -/
theorem C94_counterexample : okWith (fun out => decide (out.length = 2) && out.take 1 == [board.map (fun x => 2 * x)])
    (emd zeroSurface 2 Cfg.default (board.map (fun x => 2 * x)) 2) = true := by decide +kernel

end EMD2D
end PyEMD
