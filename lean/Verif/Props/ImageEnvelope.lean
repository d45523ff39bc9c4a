import Verif.Props.Image2
import Verif.Spec.Surface

/-!
# C89: the envelopes of `EMD2D` touch the image at its extrema
-/

set_option linter.unusedSectionVars false

namespace PyEMD
namespace EMD2D
open Img Img.Spec

variable {K : Type} [Field K] [LinearOrder K] [IsStrictOrderedRing K] [FloorRing K]

theorem mirrored_central (n i : Nat) (h : i < n) : mirrored n (n + i) = i := by
  unfold mirrored; split_ifs <;> omega

theorem central_top {im : Img K} (hw : WF im) {r c : Nat} {x : K} (h : TopInside im r c x) :
    TopAmongNeighbours (prepareImage im) (im.rows + r) (im.cols + c) := by
  obtain ⟨hr, hc, hx, hall⟩ := h
  obtain ⟨e1, e2, -, hb⟩ := C47_mirrored im hw
  refine ⟨x, by rw [(C47_central im hw).1 r hr c hc, hx], fun r' c' y hn hy => ?_⟩
  unfold Near at hn
  rw [hb r' (by omega) c' (by omega)] at hy
  refine hall _ _ y ?_ (mirrored_lt _ _ (by omega)) (mirrored_lt _ _ (by omega)) hy
  unfold Near mirrored
  split_ifs <;> omega

theorem central_bottom {im : Img K} (hw : WF im) {r c : Nat} {x : K} (h : BottomInside im r c x) :
    BottomAmongNeighbours (prepareImage im) (im.rows + r) (im.cols + c) := by
  obtain ⟨hr, hc, hx, hall⟩ := h
  obtain ⟨e1, e2, -, hb⟩ := C47_mirrored im hw
  refine ⟨x, by rw [(C47_central im hw).1 r hr c hc, hx], fun r' c' y hn hy => ?_⟩
  unfold Near at hn
  rw [hb r' (by omega) c' (by omega)] at hy
  refine hall _ _ y ?_ (mirrored_lt _ _ (by omega)) (mirrored_lt _ _ (by omega)) hy
  unfold Near mirrored
  split_ifs <;> omega

theorem peaks_nodup (rows cols : Nat) (mask : Nat → Nat → Bool) : (peaks rows cols mask).Nodup := by
  unfold peaks
  apply List.Nodup.filter
  rw [List.nodup_flatMap]
  constructor
  · intro r _
    exact List.Nodup.map (fun a b h => (Prod.mk.inj h).2) List.nodup_range
  · refine List.nodup_range.imp ?_
    intro a b hab
    rw [Function.onFun, List.disjoint_left]
    intro p hp hq
    obtain ⟨_, -, rfl⟩ := List.mem_map.1 hp
    obtain ⟨_, -, h⟩ := List.mem_map.1 hq
    exact hab (Prod.mk.inj h).1.symm

theorem zip_map_fst_snd (l : List (Nat × Nat)) : (l.map (·.1)).zip (l.map (·.2)) = l := by
  induction l with
  | nil => rfl
  | cons p l ih => simp [ih]

theorem splinePoints_near {ε : K} {sbs : Surface K} (hs : PassesWithin ε sbs) {big env : Img K} {pos : List (Nat × Nat)} (hd : pos.Nodup) {R C : Nat}
    (h : splinePoints sbs big pos R C = .ok env) {r c : Nat} (hr : r < R) (hc : c < C) (hp : (R + r, C + c) ∈ pos) :
    ∃ u, at? env r c = some u ∧ |u - big.px (R + r) (C + c)| ≤ ε := by
  unfold splinePoints at h
  obtain ⟨s, h1, h2⟩ := bind_eq_ok.1 h
  rw [pure_eq_ok] at h2
  subst h2
  obtain ⟨k, hk⟩ := List.mem_iff_getElem?.1 hp
  refine ⟨_, ofFn_at _ _ _ _ _ hr hc, hs _ _ _ _ (by rwa [zip_map_fst_snd]) h1 k _ _ _ ?_ ?_ ?_⟩ <;> rw [List.getElem?_map, hk] <;> rfl

/-- **C89.**  Wherever a pixel is not exceeded by its neighbours inside the image, on the border or not, the upper envelope misses it by
at most as much as the interpolation misses its points; likewise the lower envelope wherever a pixel exceeds none of its neighbours. -/
theorem C89_touch (ε : K) (sbs : Surface K) (hs : PassesWithin ε sbs) (im : Img K) (hw : WF im) (lower upper : Img K)
    (h : extractMaxMinSpline sbs im = .ok (lower, upper)) :
    HasShape lower im.rows im.cols ∧ HasShape upper im.rows im.cols ∧
    (∀ r c x, TopInside im r c x → ∃ u, at? upper r c = some u ∧ |u - x| ≤ ε) ∧
    ∀ r c x, BottomInside im r c x → ∃ u, at? lower r c = some u ∧ |u - x| ≤ ε := by
  obtain ⟨s1, s2⟩ := extract_shape ⟨hw, rfl, rfl⟩ h
  refine ⟨s1, s2, ?_⟩
  unfold extractMaxMinSpline at h
  obtain ⟨e, h1, h⟩ := bind_eq_ok.1 h
  obtain ⟨mn, h2, h⟩ := bind_eq_ok.1 h
  obtain ⟨mx, h3, h⟩ := bind_eq_ok.1 h
  rw [pure_eq_ok, Prod.mk.injEq] at h
  obtain ⟨rfl, rfl⟩ := h
  obtain ⟨e1, e2, hwb, hb⟩ := C47_mirrored im hw
  obtain ⟨m1, m2⟩ := C50_find_extrema _ hwb e.1 e.2 h1
  have hd : e.1.Nodup ∧ e.2.Nodup := by
    unfold findExtrema at h1
    split at h1
    · cases h1
    · injection h1 with h1
      rw [← h1]
      exact ⟨peaks_nodup _ _ _, peaks_nodup _ _ _⟩
  have hv : ∀ r c x, r < im.rows → c < im.cols → at? im r c = some x → (prepareImage im).px (im.rows + r) (im.cols + c) = x :=
    fun r c x hr hc hx => px_eq (by rw [(C47_central im hw).1 r hr c hc, hx])
  constructor
  · intro r c x ht
    have hi : Interior (prepareImage im).rows (prepareImage im).cols (im.rows + r) (im.cols + c) := by
      obtain ⟨hr, hc, -⟩ := ht
      rw [e1, e2]
      unfold Interior
      omega
    have := splinePoints_near hs hd.2 h3 ht.1 ht.2.1 ((m1 _ _).2 ⟨hi, central_top hw ht⟩)
    rwa [hv r c x ht.1 ht.2.1 ht.2.2.1] at this
  · intro r c x ht
    have hi : Interior (prepareImage im).rows (prepareImage im).cols (im.rows + r) (im.cols + c) := by
      obtain ⟨hr, hc, -⟩ := ht
      rw [e1, e2]
      unfold Interior
      omega
    have := splinePoints_near hs hd.1 h2 ht.1 ht.2.1 ((m2 _ _).2 ⟨hi, central_bottom hw ht⟩)
    rwa [hv r c x ht.1 ht.2.1 ht.2.2.1] at this

/-- A surface through all its points: the value at the points, 0 elsewhere. -/
def spikeSurface : Surface ℚ := fun X Y Z => .ok (fun x y => ((List.zip (List.zip X Y) Z).lookup (x, y)).getD 0)

theorem lookup_of_nodup : ∀ (P : List (Nat × Nat)) (Z : List ℚ) (k : Nat) (p : Nat × Nat) (z : ℚ), P.Nodup → P[k]? = some p → Z[k]? = some z →
    (List.zip P Z).lookup p = some z
  | [], _, _, _, _, _, h, _ => by simp at h
  | _ :: _, [], _, _, _, _, _, h => by simp at h
  | q :: P, w :: Z, 0, p, z, _, h, h' => by
    simp only [List.getElem?_cons_zero, Option.some.injEq] at h h'
    subst h h'
    simp
  | q :: P, w :: Z, k + 1, p, z, hd, h, h' => by
    rw [List.getElem?_cons_succ] at h h'
    rw [List.nodup_cons] at hd
    have hne : (p == q) = false := by
      rw [beq_eq_false_iff_ne]
      rintro rfl
      exact hd.1 (List.mem_iff_getElem?.2 ⟨k, h⟩)
    rw [List.zip_cons_cons, List.lookup_cons, hne]
    exact lookup_of_nodup P Z k p z hd.2 h h'

theorem spikeSurface_passes : PassesWithin 0 spikeSurface := by
  intro X Y Z s hd h k x y z hx hy hz
  injection h with h
  subst h
  have : (List.zip X Y)[k]? = some (x, y) := by
    rw [List.getElem?_zip_eq_some]
    exact ⟨hx, hy⟩
  show |((List.zip (List.zip X Y) Z).lookup (x, y)).getD 0 - z| ≤ 0
  rw [lookup_of_nodup _ Z k _ z hd this hz]
  simp

/-- The corner of `hills` with value 7 and the pixel with value 5 are tops; the envelope is there. -/
example : okWith (fun e => e.2.px 3 0 == 7 && e.2.px 1 2 == 5 && e.1.px 0 0 == 0) (extractMaxMinSpline spikeSurface hills) = true ∧
    WF hills := by
  unfold WF
  decide +kernel

example : TopInside hills 3 0 7 := by
  refine ⟨by decide, by decide, by decide +kernel, ?_⟩
  intro r' c' y _ h1 h2 hy
  have h1' : r' < 4 := h1
  have h2' : c' < 4 := h2
  interval_cases r' <;> interval_cases c' <;> simp [at?, hills] at hy <;> subst hy <;> norm_num

end EMD2D
end PyEMD
