import Verif.Props.Image2
import Verif.Props.Affine

/-!
# C80: units and offsets of images in `EMD2D`
-/

set_option linter.unusedSectionVars false

namespace PyEMD
namespace EMD2D

variable {K : Type} [Field K] [LinearOrder K] [IsStrictOrderedRing K] [FloorRing K]

/-- Two runs of the outer loop that differ in the image given to `end_condition` only find the same components, as far as both go. -/
theorem loop_comparable (sbs : Surface K) (cfg : Cfg2 K) (im im' ims : Img K) (hr : im.rows = im'.rows) (hc : im.cols = im'.cols) (m : Int)
    (fuel fuel' : Nat) : ∀ (imfs a a' : List (Img K)), loop sbs cfg im ims m fuel imfs = .ok a → loop sbs cfg im' ims m fuel' imfs = .ok a' →
    imfs <+: a ∧ imfs <+: a' ∧ (a <+: a' ∨ a' <+: a) := by
  have hpre : ∀ (im : Img K) (fuel : Nat) (imfs a : List (Img K)), loop sbs cfg im ims m fuel imfs = .ok a → imfs <+: a := by
    intro im fuel
    induction fuel with
    | zero => intro imfs a h; cases h
    | succ n ih =>
      intro imfs a h
      unfold loop at h
      obtain ⟨r, -, h⟩ := bind_eq_ok.1 h
      dsimp only at h
      split at h
      · injection h with h; rw [← h]; exact List.prefix_append _ _
      · split at h
        · exact (List.prefix_append _ _).trans (ih _ _ h)
        · injection h with h; rw [← h]; exact List.prefix_append _ _
  induction fuel generalizing fuel' with
  | zero => intro imfs a a' h; cases h
  | succ n ih =>
    intro imfs a a' h h'
    refine ⟨hpre _ _ _ _ h, hpre _ _ _ _ h', ?_⟩
    cases fuel' with
    | zero => cases h'
    | succ n' =>
      unfold loop at h h'
      rw [← hr, ← hc] at h'
      obtain ⟨r, h1, h⟩ := bind_eq_ok.1 h
      obtain ⟨r', h1', h'⟩ := bind_eq_ok.1 h'
      rw [h1] at h1'
      injection h1' with h1'
      subst h1'
      dsimp only at h h'
      cases hb : r.2 with
      | false =>
        rw [hb] at h h'
        simp only [Bool.false_eq_true, if_false, ite_self] at h h'
        rw [h] at h'
        injection h' with h'
        exact .inl (h' ▸ List.prefix_rfl)
      | true =>
        rw [hb] at h h'
        simp only [if_true] at h h'
        have hA : imfs ++ [r.1] <+: a := by
          split at h
          · injection h with h; rw [← h]
          · exact hpre _ _ _ _ h
        have hA' : imfs ++ [r.1] <+: a' := by
          split at h'
          · injection h' with h'; rw [← h']
          · exact hpre _ _ _ _ h'
        split at h
        · injection h with h; rw [← h]; exact .inl hA'
        · split at h'
          · injection h' with h'; rw [← h']; exact .inr hA
          · exact (ih n' _ _ _ h h').2.2

/-- With `max_imf = 1` the loop does not depend on `end_condition`. -/
theorem loop_one (sbs : Surface K) (cfg : Cfg2 K) (im im' ims : Img K) (hr : im.rows = im'.rows) (hc : im.cols = im'.cols) (fuel : Nat) :
    loop sbs cfg im ims 1 fuel [] = loop sbs cfg im' ims 1 fuel [] := by
  cases fuel with
  | zero => rfl
  | succ n =>
    unfold loop
    rw [hr, hc]
    simp

theorem addLast_getElem? (off : K) : ∀ (l : List (Img K)) (k : Nat), k + 1 < l.length → (addLast off l)[k]? = l[k]?
  | [], k, h => by simp at h
  | [x], k, h => by simp at h
  | x :: y :: l, 0, _ => rfl
  | x :: y :: l, k + 1, h => by
    unfold addLast
    rw [List.getElem?_cons_succ, List.getElem?_cons_succ]
    exact addLast_getElem? off (y :: l) k (by simpa using h)

theorem addLast_affine (c b s off : K) : ∀ l : List (Img K),
    addLast (c * off + b) (l.map (fun im => im.map (fun x => x * (c * s)))) =
      (addLast off (l.map (fun im => im.map (fun x => x * s)))).dropLast.map (fun im => im.map (fun x => c * x)) ++
      (addLast off (l.map (fun im => im.map (fun x => x * s)))).getLast?.toList.map (fun im => im.map (fun x => c * x + b))
  | [] => rfl
  | [x] => by
    simp only [List.map_cons, List.map_nil, addLast, List.dropLast_singleton, List.nil_append, List.getLast?_singleton, Option.toList_some,
      Img.map, List.map_map]
    congr 2
    apply List.map_congr_left
    intro y _
    simp only [Function.comp_apply]
    ring
  | x :: y :: l => by
    have ih := addLast_affine c b s off (y :: l)
    simp only [List.map_cons] at ih ⊢
    unfold addLast
    rw [ih]
    have hne : ∀ z : Img K, addLast off (z :: (l.map fun im => im.map (fun x => x * s))) ≠ [] := by
      intro z
      cases l <;> simp [addLast]
    obtain ⟨z, zs, hz⟩ := List.exists_cons_of_ne_nil (hne (y.map (fun x => x * s)))
    rw [hz]
    simp only [List.dropLast_cons_cons, List.map_cons, List.cons_append, List.getLast?_cons_cons]
    congr 1
    simp only [Img.map, List.map_map]
    congr 1
    apply List.map_congr_left
    intro y _
    simp only [Function.comp_apply]
    ring

theorem emd_eq (sbs : Surface K) (fuel : Nat) (cfg : Cfg2 K) (image : Img K) (m : Int) (hne : image.data ≠ []) :
    emd sbs fuel cfg image m =
      if npMax image.data - npMin image.data = 0 then .error .nonFinite
      else (loop sbs cfg image (image.map (fun x => (x - npMin image.data) / (npMax image.data - npMin image.data))) m fuel []).map (fun imfs =>
        let res := (image.map (fun x => (x - npMin image.data) / (npMax image.data - npMin image.data))).sub (Img.sum image.rows image.cols imfs)
        addLast (npMin image.data) ((if allclose0 res.data then imfs else imfs ++ [res]).map
          (fun im => im.map (fun x => x * (npMax image.data - npMin image.data))))) := by
  have hE : image.data.isEmpty = false := by simpa using hne
  unfold emd npMinE npMaxE
  simp only [hE, Bool.false_eq_true, if_false, bind, Except.bind, lit_zero, beq_iff_eq]
  split
  · rfl
  · generalize loop sbs cfg image _ m fuel [] = x
    cases x <;> rfl

/-- What depends on the image only through its shape, minimum and range. -/
theorem scaled_image {c : K} (hc : 0 < c) (b : K) (image : Img K) (hne : image.data ≠ []) :
    (npMin (image.map (fun x => c * x + b)).data = c * npMin image.data + b) ∧
    (npMax (image.map (fun x => c * x + b)).data - npMin (image.map (fun x => c * x + b)).data = c * (npMax image.data - npMin image.data)) ∧
    (npMax image.data - npMin image.data ≠ 0 → (image.map (fun x => c * x + b)).map (fun x => (x - npMin (image.map (fun x => c * x + b)).data) /
        (npMax (image.map (fun x => c * x + b)).data - npMin (image.map (fun x => c * x + b)).data)) =
      image.map (fun x => (x - npMin image.data) / (npMax image.data - npMin image.data))) := by
  have h1 : npMin (image.map (fun x => c * x + b)).data = c * npMin image.data + b := EMD.npMin_vaff hc b hne
  have h2 : npMax (image.map (fun x => c * x + b)).data = c * npMax image.data + b := EMD.npMax_vaff hc b hne
  refine ⟨h1, by rw [h1, h2]; ring, fun h0 => ?_⟩
  rw [h1, h2]
  simp only [Img.map, List.map_map]
  congr 1
  apply List.map_congr_left
  intro x _
  simp only [Function.comp_apply]
  rw [show c * x + b - (c * npMin image.data + b) = c * (x - npMin image.data) by ring,
    show c * npMax image.data + b - (c * npMin image.data + b) = c * (npMax image.data - npMin image.data) by ring, mul_div_mul_left _ _ hc.ne']

/-- C80: for `c * image + b` in place of `image` (`c > 0`) the components that both runs have, the last one excepted, are multiplied by
`c`.  With `max_imf = 1` everything corresponds: the same exception or the same number of rows, the last row taking the offset.
Missing: the same number of components without a limit, which is false (`C80_counterexample`), because `end_condition` compares the
original image with components of the rescaled one. -/
theorem C80_units_partial (sbs : Surface K) (fuel : Nat) (cfg : Cfg2 K) (image : Img K) (c b : K) (hc : 0 < c) :
    (∀ m out out', emd sbs fuel cfg image m = .ok out → emd sbs fuel cfg (image.map (fun x => c * x + b)) m = .ok out' →
      ∀ k, k + 1 < out.length → k + 1 < out'.length → out'[k]? = (out[k]?).map (fun im => im.map (fun x => c * x))) ∧
    emd sbs fuel cfg (image.map (fun x => c * x + b)) 1 =
      (emd sbs fuel cfg image 1).map (fun out => out.dropLast.map (fun im => im.map (fun x => c * x)) ++
        out.getLast?.toList.map (fun im => im.map (fun x => c * x + b))) := by
  by_cases hne : image.data = []
  · have hne' : (image.map (fun x => c * x + b)).data = [] := by simp [Img.map, hne]
    constructor
    · intro m out out' h
      simp [emd, npMinE, hne, bind, Except.bind] at h
    · simp only [emd, npMinE, hne, hne', List.isEmpty_nil, if_true, bind, Except.bind]
      rfl
  have hne' : (image.map (fun x => c * x + b)).data ≠ [] := by simpa [Img.map] using hne
  obtain ⟨e1, e2, e3⟩ := scaled_image hc b image hne
  constructor
  · intro m out out' h h' k hk hk'
    rw [emd_eq _ _ _ _ _ hne] at h
    rw [emd_eq _ _ _ _ _ hne'] at h'
    split at h
    · cases h
    next h0 =>
    split at h'
    · cases h'
    rw [e3 h0, e2, e1] at h'
    generalize image.map (fun x => (x - npMin image.data) / (npMax image.data - npMin image.data)) = ims at h h'
    cases hl : loop sbs cfg image ims m fuel [] with
    | error e => rw [hl] at h; cases h
    | ok a =>
      cases hl' : loop sbs cfg (image.map (fun x => c * x + b)) ims m fuel [] with
      | error e => rw [hl'] at h'; cases h'
      | ok a' =>
        rw [hl] at h
        rw [hl'] at h'
        have hcomp := (loop_comparable sbs cfg image (image.map (fun x => c * x + b)) ims rfl rfl m fuel fuel [] a a' hl hl').2.2
        have h := Except.ok.inj h
        have h' := Except.ok.inj h'
        have row : ∀ (s off : K) (a : List (Img K)) (p : Bool) (res : Img K) (out : List (Img K)),
            addLast off ((if p then a else a ++ [res]).map (fun im => im.map (fun x => x * s))) = out → k + 1 < out.length →
            k < a.length ∧ out[k]? = (a[k]?).map (fun im => im.map (fun x => x * s)) := by
          intro s off a p res out ho hko
          subst ho
          rw [length_addLast, List.length_map] at hko
          have hka : k < a.length := by
            cases p <;> simp at hko <;> omega
          refine ⟨hka, ?_⟩
          rw [addLast_getElem? _ _ _ (by simpa using hko), List.getElem?_map]
          congr 1
          cases p
          · simp [List.getElem?_append_left hka]
          · simp
        obtain ⟨hka, hrow⟩ := row _ _ _ _ _ _ h hk
        obtain ⟨hka', hrow'⟩ := row _ _ _ _ _ _ h' hk'
        have haa : a[k]? = a'[k]? := by
          rcases hcomp with hp | hp
          · rw [List.getElem?_eq_getElem hka, List.IsPrefix.getElem hp hka, List.getElem?_eq_getElem]
          · rw [List.getElem?_eq_getElem hka', List.IsPrefix.getElem hp hka', List.getElem?_eq_getElem]
        rw [hrow', hrow, haa, Option.map_map]
        congr 1
        funext im
        simp only [Function.comp_apply, Img.map, List.map_map]
        congr 1
        apply List.map_congr_left
        intro x _
        simp only [Function.comp_apply]
        ring
  · rw [emd_eq _ _ _ _ _ hne, emd_eq _ _ _ _ _ hne', e2]
    by_cases h0 : npMax image.data - npMin image.data = 0
    · rw [if_pos h0, if_pos (by rw [h0, mul_zero])]
      rfl
    · rw [if_neg h0, if_neg (mul_ne_zero hc.ne' h0)]
      have e3' := e3 h0
      rw [e2] at e3'
      rw [e3', e1]
      generalize image.map (fun x => (x - npMin image.data) / (npMax image.data - npMin image.data)) = ims
      rw [← loop_one sbs cfg image (image.map (fun x => c * x + b)) ims rfl rfl fuel]
      cases loop sbs cfg image ims 1 fuel [] with
      | error e => rfl
      | ok a =>
        show Except.ok _ = Except.ok _
        congr 1
        exact addLast_affine _ _ _ _ _

/-- The board in hundredths: three rows in both runs, and one component with `max_imf = 1`. -/
example : okWith (fun out => decide (out.length = 3)) (emd flatSurface 2 Cfg.default board 2) = true ∧
    okWith (fun out => decide (out.length = 3)) (emd flatSurface 2 Cfg.default (board.map (fun x => 100 * x + 7)) 2) = true ∧
    okWith (fun out => decide (out.length = 2)) (emd flatSurface 1 Cfg.default board 1) = true := by decide +kernel

/-- The surface of height zero. -/
def zeroSurface : Surface ℚ := fun _ _ _ => .ok (fun _ _ => 0)

/-- C80 fails: an image with values between 0 and 1 is recognised as decomposed after one component, the same image in other units is
not. -/
theorem C80_counterexample : ∃ (sbs : Surface ℚ) (fuel : Nat) (image : Img ℚ) (m : Int),
    okWith (fun out => decide (out.length = 1)) (emd sbs fuel Cfg.default image m) = true ∧
    okWith (fun out => decide (out.length = 2)) (emd sbs fuel Cfg.default (image.map (fun x => 2 * x + 0)) m) = true :=
  ⟨zeroSurface, 2, board, 2, by decide +kernel, by decide +kernel⟩

end EMD2D
end PyEMD
