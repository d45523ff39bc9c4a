import Verif.Props.ImageSymmetry
import Verif.Props.BemdEnds

/-!
# C154: `BEMD` decomposes a transposed image, or one turned by half a turn, into the moved components, but not a mirrored image
-/

set_option linter.unusedSectionVars false

namespace PyEMD
namespace BEMD
open Img Img.Spec Skimage EMD2D

variable {K : Type} [Field K] [LinearOrder K] [IsStrictOrderedRing K] [FloorRing K]

/-- Row and column exchanged. -/
def swap (p : Nat × Nat) : Nat × Nat := (p.2, p.1)

section
variable {n : Nat} {g : Nat × Nat → Nat × Nat}

theorem hasValue_shows (G : Geo n n n n g) {a b : Img K} (h : Shows g n n n n a b) {p : Nat × Nat} (hp : p ∈ grid n n) {x : K} :
    HasValue b p x ↔ HasValue a (g p) x := by
  have hp' := mem_grid.1 hp
  have hg := mem_grid.1 (G.mem hp)
  unfold HasValue Inside
  rw [h.shape.rows_eq, h.shape.cols_eq, h.shape'.rows_eq, h.shape'.cols_eq, h.at_eq _ hp'.1 _ hp'.2]
  exact ⟨fun h => ⟨hg, h.2⟩, fun h => ⟨hp', h.2⟩⟩

theorem path_shows (G : Geo n n n n g) {a b : Img K} (h : Shows g n n n n a b) {P : K → Prop} {p q : Nat × Nat} (hp : p ∈ grid n n)
    (hpath : Path b P p q) : q ∈ grid n n ∧ Path a P (g p) (g q) := by
  induction hpath with
  | refl => exact ⟨hp, Relation.ReflTransGen.refl⟩
  | @tail u v _ hstep ih =>
    obtain ⟨hn, y, hy, hP⟩ := hstep
    have hv : v ∈ grid n n := by
      have := hy.1
      unfold Inside at this
      rw [h.shape'.rows_eq, h.shape'.cols_eq] at this
      exact mem_grid.2 this
    exact ⟨hv, ih.2.tail ⟨(G.near _ ih.1 _ hv).1 hn, y, (hasValue_shows G h hv).1 hy, hP⟩⟩

theorem path_shows' (G : Geo n n n n g) {a b : Img K} (h : Shows g n n n n a b) {P : K → Prop} {p q : Nat × Nat} (hp : p ∈ grid n n)
    (hpath : Path a P (g p) q) : ∃ q' ∈ grid n n, g q' = q ∧ Path b P p q' := by
  induction hpath with
  | refl => exact ⟨p, hp, rfl, Relation.ReflTransGen.refl⟩
  | @tail u v _ hstep ih =>
    obtain ⟨u', hu', rfl, hpath⟩ := ih
    obtain ⟨hn, y, hy, hP⟩ := hstep
    have hv : v ∈ grid n n := by
      have := hy.1
      unfold Inside at this
      rw [h.shape.rows_eq, h.shape.cols_eq] at this
      exact mem_grid.2 this
    obtain ⟨v', hv', rfl⟩ := G.onto hv
    exact ⟨v', hv', rfl, hpath.tail ⟨(G.near _ hu' _ hv').2 hn, y, (hasValue_shows G h hv').2 hy, hP⟩⟩

/-- A pixel is taken for a maximum exactly if the moved pixel is. -/
theorem reported_shows (G : Geo n n n n g) (rbf : Surface K) {a b : Img K} (h : Shows g n n n n a b) {p : Nat × Nat} (hp : p ∈ grid n n) :
    swap p ∈ extractMaximaPositions (ext rbf) b ↔ swap (g p) ∈ extractMaximaPositions (ext rbf) a := by
  have e1 := C147_reported rbf b h.shape'.wf p.1 p.2
  have e2 := C147_reported rbf a h.shape.wf (g p).1 (g p).2
  unfold swap
  rw [e1, e2]
  constructor
  · rintro ⟨x, hx, H⟩
    refine ⟨x, (hasValue_shows G h hp).1 hx, fun q y hpath hy => ?_⟩
    obtain ⟨q', hq', rfl, hpath'⟩ := path_shows' G h hp hpath
    exact H q' y hpath' ((hasValue_shows G h hq').2 hy)
  · rintro ⟨x, hx, H⟩
    refine ⟨x, (hasValue_shows G h hp).2 hx, fun q y hpath hy => ?_⟩
    obtain ⟨hq, hpath'⟩ := path_shows G h hp hpath
    exact H (g q) y hpath' ((hasValue_shows G h hq).1 hy)

theorem positions_grid (rbf : Surface K) {a : Img K} (h : HasShape a n n) {p : Nat × Nat} (hp : p ∈ extractMaximaPositions (ext rbf) a) :
    p ∈ grid n n := by
  have := mem_maxima hp
  rw [h.rows_eq, h.cols_eq] at this
  exact mem_grid.2 this.symm

theorem geo_inj (G : Geo n n n n g) {p q : Nat × Nat} (hp : p ∈ grid n n) (hq : q ∈ grid n n) (h : g p = g q) : p = q := by
  have hnd : ((grid n n).map g).Nodup := G.perm.symm.nodup_iff.1 (grid_nodup n n)
  exact List.inj_on_of_nodup_map hnd hp hq h

/-- The positions in the moved image, moved, are those of the image, in some order. -/
theorem positions_shows (G : Geo n n n n g) (hsw : ∀ p ∈ grid n n, g (swap p) = swap (g p)) (rbf : Surface K) {a b : Img K}
    (h : Shows g n n n n a b) : ((extractMaximaPositions (ext rbf) b).map g).Perm (extractMaximaPositions (ext rbf) a) := by
  rw [List.perm_ext_iff_of_nodup]
  · intro q
    rw [List.mem_map]
    constructor
    · rintro ⟨p, hp, rfl⟩
      have hpg := positions_grid rbf h.shape' hp
      have hs : swap p ∈ grid n n := mem_grid.2 (mem_grid.1 hpg).symm
      have := (reported_shows G rbf h hs).1 hp
      rw [hsw p hpg] at this
      exact this
    · intro hq
      have hqg := positions_grid rbf h.shape hq
      obtain ⟨p, hpg, rfl⟩ := G.onto hqg
      have hs : swap p ∈ grid n n := mem_grid.2 (mem_grid.1 hpg).symm
      refine ⟨p, (reported_shows G rbf h hs).2 ?_, rfl⟩
      rw [hsw p hpg]
      exact hq
  · refine List.Nodup.map_on ?_ (positions_nodup _ _)
    intro p hp q hq he
    exact geo_inj G (positions_grid rbf h.shape' hp) (positions_grid rbf h.shape' hq) he
  · exact positions_nodup _ _

theorem spline_shows (G : Geo n n n n g) (hsw : ∀ p ∈ grid n n, g (swap p) = swap (g p)) {rbf : Surface K}
    (hs : MovesAlong (· ∈ grid n n) g rbf) {a b : Img K} (h : Shows g n n n n a b) {pos pos' : List (Nat × Nat)}
    (hp : (pos'.map g).Perm pos) (hin : ∀ p ∈ pos', p ∈ grid n n) :
    RelX (Shows g n n n n) (splinePoints (ext rbf) pos (pos.map (fun p => a.px p.1 p.2)) n n)
      (splinePoints (ext rbf) pos' (pos'.map (fun p => b.px p.1 p.2)) n n) := by
  obtain ⟨-, -, h3⟩ := (shows_px G).1 h
  have hr := hs (pos.map (fun p => (p, a.px p.1 p.2))) (pos'.map (fun p => (p, b.px p.1 p.2))) (by
      intro q hq
      obtain ⟨p, hp, rfl⟩ := List.mem_map.1 hq
      exact hin p hp) (by
      rw [List.map_map]
      have : pos'.map ((fun q : (Nat × Nat) × K => (g q.1, q.2)) ∘ fun p => (p, b.px p.1 p.2)) =
          (pos'.map g).map (fun p => (p, a.px p.1 p.2)) := by
        rw [List.map_map]
        exact List.map_congr_left (fun p hp => by simp [h3 p (hin p hp)])
      rw [this]
      exact hp.map _)
  simp only [List.map_map, Function.comp_def] at hr
  unfold splinePoints
  refine hr.bind ?_
  intro s s' _ _ hss
  refine (shows_px G).2 ⟨.ofFn _ _ _, .ofFn _ _ _, fun p hp => ?_⟩
  have hg := mem_grid.1 (G.mem hp)
  have hp' := mem_grid.1 hp
  rw [ofFn_px _ _ _ _ _ hp'.1 hp'.2, ofFn_px _ _ _ _ _ hg.1 hg.2]
  have := hss (swap p) (mem_grid.2 hp'.symm)
  rw [hsw p hp] at this
  exact this

theorem extract_shows (G : Geo n n n n g) (hsw : ∀ p ∈ grid n n, g (swap p) = swap (g p)) {rbf : Surface K}
    (hs : MovesAlong (· ∈ grid n n) g rbf) {a b : Img K} (h : Shows g n n n n a b) :
    RelX (fun e e' => Shows g n n n n e.1 e'.1 ∧ Shows g n n n n e.2 e'.2)
      (extractMaxMinSpline (ext rbf) a (extractMinimaPositions (ext rbf) a) (extractMaximaPositions (ext rbf) a))
      (extractMaxMinSpline (ext rbf) b (extractMinimaPositions (ext rbf) b) (extractMaximaPositions (ext rbf) b)) := by
  have hneg := h.map G (fun x => -x)
  have v : ∀ (im im' : Img K), HasShape im n n → HasShape im' n n → valuesAt im (extractMaximaPositions (ext rbf) im') =
      .ok ((extractMaximaPositions (ext rbf) im').map (fun p => im.px p.1 p.2)) := by
    intro im im' h1 h2
    refine valuesAt_ok im _ (fun p hp => ?_)
    rw [h1.rows_eq, h1.cols_eq]
    exact mem_grid.1 (positions_grid rbf h2 hp)
  unfold extractMaxMinSpline extractMinimaPositions
  rw [v a _ h.shape hneg.shape, v a _ h.shape h.shape, v b _ h.shape' hneg.shape', v b _ h.shape' h.shape']
  rw [h.shape.rows_eq, h.shape.cols_eq, h.shape'.rows_eq, h.shape'.cols_eq]
  show RelX _ (splinePoints (ext rbf) _ _ n n >>= fun x => splinePoints (ext rbf) _ _ n n >>= fun y => pure (x, y))
    (splinePoints (ext rbf) _ _ n n >>= fun x => splinePoints (ext rbf) _ _ n n >>= fun y => pure (x, y))
  refine RelX.bind (spline_shows G hsw hs h (positions_shows G hsw rbf hneg) (fun p hp => positions_grid rbf hneg.shape' hp)) ?_
  intro x x' _ _ hx
  refine (spline_shows G hsw hs h (positions_shows G hsw rbf h) (fun p hp => positions_grid rbf h.shape' hp)).bind ?_
  intro y y' _ _ hy
  exact ⟨hx, hy⟩

theorem checkProtoImf_shows (T : Geo n n n n g) (cfg : Cfg2 K) {a b a' b' m m' : Img K} (h : Shows g n n n n a b)
    (h' : Shows g n n n n a' b') (hm : Shows g n n n n m m') : checkProtoImf cfg b b' m' = checkProtoImf cfg a a' m := by
  unfold checkProtoImf
  rw [mean_shows T hm, all_perm (data_perm T (hm.map T _)), allclose_shows T _ h h', mean_shows T (h.map T _)]

theorem sift_shows (G : Geo n n n n g) (hsw : ∀ p ∈ grid n n, g (swap p) = swap (g p)) {rbf : Surface K}
    (hs : MovesAlong (· ∈ grid n n) g rbf) (cfg : Cfg2 K) : ∀ (k i nH : Nat) (a b : Img K), Shows g n n n n a b →
    RelX (Shows g n n n n) (sift (ext rbf) cfg k i nH a) (sift (ext rbf) cfg k i nH b)
  | 0, _, _, _, _, h => h
  | k + 1, i, nH, a, b, h => by
    unfold sift
    have l1 : (extractMinimaPositions (ext rbf) b).length = (extractMinimaPositions (ext rbf) a).length := by
      have := (positions_shows G hsw rbf (h.map G (fun x => -x))).length_eq
      rw [List.length_map] at this
      exact this
    have l2 : (extractMaximaPositions (ext rbf) b).length = (extractMaximaPositions (ext rbf) a).length := by
      have := (positions_shows G hsw rbf h).length_eq
      rw [List.length_map] at this
      exact this
    dsimp only
    rw [l1, l2]
    split
    · refine (extract_shows G hsw hs h).bind ?_
      rintro env env' _ _ ⟨q1, q2⟩
      have hm := (q1.add G q2).map G (fun x => lit (1 / 2) * x)
      have h2 := h.sub G hm
      have d1 : ¬(((env.1.add env.2).map (fun x => lit (1 / 2) * x)).rows ≠ a.rows ∨
          ((env.1.add env.2).map (fun x => lit (1 / 2) * x)).cols ≠ a.cols) := by
        rw [hm.shape.rows_eq, hm.shape.cols_eq, h.shape.rows_eq, h.shape.cols_eq]; simp
      have d2 : ¬(((env'.1.add env'.2).map (fun x => lit (1 / 2) * x)).rows ≠ b.rows ∨
          ((env'.1.add env'.2).map (fun x => lit (1 / 2) * x)).cols ≠ b.cols) := by
        rw [hm.shape'.rows_eq, hm.shape'.cols_eq, h.shape'.rows_eq, h.shape'.cols_eq]; simp
      rw [if_neg d1, if_neg d2]
      rw [checkProtoImf_shows G cfg h2 h hm]
      split
      · split
        · exact h2
        · exact sift_shows G hsw hs cfg k _ _ _ _ h2
      · split
        · split
          · exact sift_shows G hsw hs cfg k _ _ _ _ h2
          · generalize (if checkProtoImf cfg _ _ _ = true then nH + 1 else 0) = nH'
            split
            · exact h2
            · exact sift_shows G hsw hs cfg k _ _ _ _ h2
        · split
          · exact h2
          · exact sift_shows G hsw hs cfg k _ _ _ _ h2
    · exact h

theorem loop_shows (G : Geo n n n n g) (hsw : ∀ p ∈ grid n n, g (swap p) = swap (g p)) {rbf : Surface K}
    (hs : MovesAlong (· ∈ grid n n) g rbf) (cfg : Cfg2 K) {a b : Img K} (h : Shows g n n n n a b) (m : Int) :
    ∀ (fuel : Nat) (l l' : List (Img K)), List.Forall₂ (Shows g n n n n) l l' →
    RelX (List.Forall₂ (Shows g n n n n)) (loop (ext rbf) cfg a m fuel l) (loop (ext rbf) cfg b m fuel l')
  | 0, _, _, _ => rfl
  | fuel + 1, l, l', hl => by
    unfold loop
    rw [h.shape.rows_eq, h.shape.cols_eq, h.shape'.rows_eq, h.shape'.cols_eq]
    refine (sift_shows G hsw hs cfg _ _ _ _ _ (h.sub G (Shows.sum G hl))).bind ?_
    intro x x' _ _ hx
    have hl2 : List.Forall₂ (Shows g n n n n) (l ++ [x]) (l' ++ [x']) := List.rel_append hl (.cons hx .nil)
    have hlen : (l' ++ [x']).length = (l ++ [x]).length := hl2.length_eq.symm
    dsimp only
    rw [allclose_shows G _ h (Shows.sum G hl2), hlen]
    split
    · exact hl2
    · exact loop_shows G hsw hs cfg h m fuel _ _ hl2

/-- A moved image has the moved components. -/
theorem bemd_shows (G : Geo n n n n g) (hsw : ∀ p ∈ grid n n, g (swap p) = swap (g p)) {rbf : Surface K}
    (hs : MovesAlong (· ∈ grid n n) g rbf) (fuel : Nat) (cfg : Cfg2 K) {a b : Img K} (h : Shows g n n n n a b) (m : Int) :
    RelX (List.Forall₂ (Shows g n n n n)) (bemd (ext rbf) fuel cfg a m) (bemd (ext rbf) fuel cfg b m) := by
  unfold bemd
  refine (loop_shows G hsw hs cfg h m fuel [] [] .nil).bind ?_
  intro x y _ _ hL
  rw [h.shape.rows_eq, h.shape.cols_eq, h.shape'.rows_eq, h.shape'.cols_eq]
  have hr := h.sub G (Shows.sum G hL)
  have hz : allclose0 (b.sub (Img.sum n n y)).data = allclose0 (a.sub (Img.sum n n x)).data := all_perm (data_perm G hr) _
  dsimp only
  rw [hz]
  split
  · exact hL
  · exact List.rel_append hL (.cons hr .nil)

end

theorem geo_half (R C : Nat) : Geo R C R C (fun p => (R - 1 - p.1, C - 1 - p.2)) := by
  refine ⟨perm_of_bij (g' := fun p => (R - 1 - p.1, C - 1 - p.2)) ?_ ?_, ?_, ?_⟩
  · rintro ⟨r, c⟩ h
    simp only [mem_grid, Prod.mk.injEq] at h ⊢
    omega
  · rintro ⟨r, c⟩ h
    simp only [mem_grid, Prod.mk.injEq] at h ⊢
    omega
  · rintro ⟨r, c⟩ h
    simp only [mem_grid, Interior] at h ⊢
    omega
  · rintro ⟨r, c⟩ h ⟨r', c'⟩ h'
    simp only [mem_grid, Near] at h h' ⊢
    omega

theorem relX_trans {β γ δ : Type} {R : β → γ → Prop} {Q : γ → δ → Prop} {S : β → δ → Prop} {x : PyM β} {y : PyM γ} {z : PyM δ}
    (h : RelX R x y) (h' : RelX Q y z) (hS : ∀ a b c, R a b → Q b c → S a c) : RelX S x z := by
  cases x <;> cases y <;> cases z <;> first | exact h.elim | exact h'.elim | exact h.trans h' | exact hS _ _ _ h h'

/-- Mirroring both ways is half a turn. -/
theorem moves_half {rbf : Surface K} (hs : Isotropic rbf) (n : Nat) :
    MovesAlong (· ∈ grid n n) (fun p => (n - 1 - p.1, n - 1 - p.2)) rbf := by
  intro P P' hd hp
  have h1 := hs.lr (n - 1) (P'.map (fun q => ((q.1.1, n - 1 - q.1.2), q.2))) P'
    (fun q hq => by have := mem_grid.1 (hd q hq); omega) (List.Perm.refl _)
  have h2 := hs.ud (n - 1) P (P'.map (fun q => ((q.1.1, n - 1 - q.1.2), q.2)))
    (fun q hq => by
      obtain ⟨q', hq', rfl⟩ := List.mem_map.1 hq
      have := mem_grid.1 (hd q' hq')
      dsimp only
      omega) (by rw [List.map_map]; exact hp)
  refine relX_trans h2 h1 ?_
  intro s t u hst htu p hpg
  have hpg := mem_grid.1 hpg
  rw [htu p (by omega), hst (p.1, n - 1 - p.2) (by dsimp only; omega)]

/-- **C154, partial** (rows and columns) The transpose of a square image has the transposed components; or both calls raise the same
exception.  Missing: mirrored images, see `C154_mirror_counterexample`. -/
theorem C154_transpose_partial (rbf : Surface K) (hs : Isotropic rbf) (fuel : Nat) (cfg : Cfg2 K) (n : Nat) (a b : Img K)
    (h : Shows (fun p => (p.2, p.1)) n n n n a b) (m : Int) :
    RelX (List.Forall₂ (Shows (fun p => (p.2, p.1)) n n n n)) (bemd (ext rbf) fuel cfg a m) (bemd (ext rbf) fuel cfg b m) :=
  bemd_shows (geo_tr n n) (fun _ _ => rfl)
    (fun P P' _ hp => (hs.tr P P' (fun _ _ => trivial) hp).mono (fun _ _ H p _ => H p trivial)) fuel cfg h m

/-- **C154, partial** (half a turn) A square image turned by 180 degrees has the turned components.  Missing: mirrored images, see
`C154_mirror_counterexample`. -/
theorem C154_half_turn_partial (rbf : Surface K) (hs : Isotropic rbf) (fuel : Nat) (cfg : Cfg2 K) (n : Nat) (a b : Img K)
    (h : Shows (fun p => (n - 1 - p.1, n - 1 - p.2)) n n n n a b) (m : Int) :
    RelX (List.Forall₂ (Shows (fun p => (n - 1 - p.1, n - 1 - p.2)) n n n n)) (bemd (ext rbf) fuel cfg a m)
      (bemd (ext rbf) fuel cfg b m) :=
  bemd_shows (geo_half n n) (fun _ _ => rfl) (moves_half hs n) fuel cfg h m

/-- An image without symmetry. -/
def tile : Img ℚ := { rows := 3, cols := 3, data := [5, 0, 9, 1, 0, 2, 7, 0, 0] }
/-- `C154_transpose_partial` and `C154_half_turn_partial` apply to it, and two images come out, none of them symmetric. -/
example : Isotropic kernelSurface ∧
    Shows (fun p => (p.2, p.1)) 3 3 3 3 tile { rows := 3, cols := 3, data := [5, 1, 7, 0, 0, 0, 9, 2, 0] } ∧
    Shows (fun p => (3 - 1 - p.1, 3 - 1 - p.2)) 3 3 3 3 tile { rows := 3, cols := 3, data := [0, 0, 7, 2, 0, 1, 9, 0, 5] } ∧
    okWith (fun out => decide (out.length = 2 ∧ ∀ im ∈ out, im.px 0 1 ≠ im.px 1 0 ∧ im.px 0 0 ≠ im.px 2 2))
      (bemd (ext kernelSurface) 1 Cfg.default tile 1) = true := by
  refine ⟨kernelSurface_isotropic, ⟨⟨by unfold WF; decide, rfl, rfl⟩, ⟨by unfold WF; decide, rfl, rfl⟩, by decide +kernel⟩,
    ⟨⟨by unfold WF; decide, rfl, rfl⟩, ⟨by unfold WF; decide, rfl, rfl⟩, by decide +kernel⟩, by decide +kernel⟩

/-- **C154 in full is violated**: the components of the mirrored image are not the mirrored components. -/
theorem C154_mirror_counterexample : Isotropic kernelSurface ∧ Shows (fun p => (p.1, 3 - 1 - p.2)) 3 3 3 3 tile tile.fliplr ∧
    ∃ out out', bemd (ext kernelSurface) 1 Cfg.default tile 1 = .ok out ∧ bemd (ext kernelSurface) 1 Cfg.default tile.fliplr 1 = .ok out' ∧
      ¬ List.Forall₂ (Shows (fun p => (p.1, 3 - 1 - p.2)) 3 3 3 3) out out' := by
  refine ⟨kernelSurface_isotropic, ⟨⟨by unfold WF; decide, rfl, rfl⟩, .ofFn _ _ _, by decide +kernel⟩, ?_⟩
  have h : okWith (fun out => okWith (fun out' => decide ((out.map (fun im => at? im 0 2)).head? ≠ (out'.map (fun im => at? im 0 0)).head?))
      (bemd (ext kernelSurface) 1 Cfg.default tile.fliplr 1)) (bemd (ext kernelSurface) 1 Cfg.default tile 1) = true := by decide +kernel
  obtain ⟨out, h1, h⟩ := okWith_iff.1 h
  obtain ⟨out', h2, h⟩ := okWith_iff.1 h
  refine ⟨out, out', h1, h2, fun hf => ?_⟩
  rw [decide_eq_true_eq] at h
  apply h
  cases hf with
  | nil => rfl
  | cons ha _ => exact congrArg some (ha.at_eq 0 (by decide) 0 (by decide)).symm

end BEMD
end PyEMD
