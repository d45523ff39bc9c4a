import Verif.Props.ImageSymmetry
import Verif.Props.BemdNegation

/-!
# C162: `EMD2D` of the negative of an image
-/

set_option linter.unusedSectionVars false

namespace PyEMD
namespace EMD2D
open Img Img.Spec BEMD

variable {K : Type} [Field K] [LinearOrder K] [IsStrictOrderedRing K] [FloorRing K]

/-- The image upside down: every value taken from `d`. -/
def inverted (d : K) (im : Img K) : Img K := im.map (fun x => d - x)

/-- The interpolator gives the surface upside down for values upside down at the same points (or fails alike). -/
def InvertsSurface (sbs : Surface K) : Prop :=
  ∀ d X Y Z, sbs X Y (Z.map (fun z => d - z)) = (sbs X Y Z).map (fun s i j => d - s i j)

theorem inverted_zero (im : Img K) : inverted 0 im = negative im := by
  simp [inverted, negative]

theorem inverted_shape {im : Img K} {R C : Nat} (d : K) (h : HasShape im R C) : HasShape (inverted d im) R C := h.map _

theorem inverted_sub (a b : K) (x y : Img K) : (inverted a x).sub (inverted b y) = inverted (a - b) (x.sub y) := by
  unfold inverted Img.sub Img.map vsub
  simp only [List.zipWith_map, List.map_zipWith]
  congr 1
  congr 1
  funext p q
  ring

theorem inverted_px {im : Img K} {R C : Nat} (h : HasShape im R C) (d : K) {r c : Nat} (hr : r < R) (hc : c < C) :
    (inverted d im).px r c = d - im.px r c :=
  px_map h.wf _ (by rw [h.rows_eq]; exact hr) (by rw [h.cols_eq]; exact hc)

/-- Peaks do not depend on a constant added to the image. -/
theorem peaks_lifted {x y : Img K} {R C : Nat} (hx : HasShape x R C) (hy : HasShape y R C) (d : K)
    (h : ∀ p ∈ grid R C, y.px p.1 p.2 = x.px p.1 p.2 + d) : peaks R C (isLocalMax y) = peaks R C (isLocalMax x) := by
  unfold peaks
  apply List.filter_congr
  intro p hp
  have hp' : p ∈ grid R C := hp
  have hg := mem_grid.1 hp'
  by_cases hi : Interior R C p.1 p.2
  · have : isLocalMax y p.1 p.2 = isLocalMax x p.1 p.2 := by
      rw [Bool.eq_iff_iff, isLocalMax_px hx hi, isLocalMax_px hy hi]
      constructor
      · intro g q hq hn
        have := g q hq hn
        rw [h q hq, h p hp'] at this
        exact le_of_add_le_add_right this
      · intro g q hq hn
        rw [h q hq, h p hp']
        exact add_le_add_left (g q hq hn) d
    rw [this]
  · unfold Interior at hi
    have : ((p.1 == 0 || p.1 == R - 1) || (p.2 == 0 || p.2 == C - 1)) = true := by
      simp only [Bool.or_eq_true, beq_iff_eq]
      omega
    rw [Bool.or_eq_true] at this
    rcases this with h' | h' <;> simp [h']

/-- The image upside down has its minima where the image has maxima and the reverse. -/
theorem findExtrema_inverted {im : Img K} {R C : Nat} (h : HasShape im R C) (d : K) :
    findExtrema (inverted d im) = (findExtrema im).map (fun e => (e.2, e.1)) := by
  unfold findExtrema
  have e1 : (inverted d im).rows = R := h.rows_eq
  have e2 : (inverted d im).cols = C := h.cols_eq
  rw [e1, e2, h.rows_eq, h.cols_eq]
  split
  · rfl
  · show Except.ok _ = Except.ok _
    congr 2
    · exact peaks_lifted h ((inverted_shape d h).map _) (-d) (fun p hp => by
        have hp' := mem_grid.1 hp
        rw [px_map (inverted_shape d h).wf _ (by rw [e1]; exact hp'.1) (by rw [e2]; exact hp'.2), inverted_px h d hp'.1 hp'.2]
        ring)
    · exact peaks_lifted (h.map _) (inverted_shape d h) d (fun p hp => by
        have hp' := mem_grid.1 hp
        rw [inverted_px h d hp'.1 hp'.2, px_map h.wf _ (by rw [h.rows_eq]; exact hp'.1) (by rw [h.cols_eq]; exact hp'.2)]
        ring)

theorem prepare_shape {im : Img K} {R C : Nat} (h : HasShape im R C) : HasShape (prepareImage im) (3 * R) (3 * C) := by
  obtain ⟨a1, a2, a3, -⟩ := C47_mirrored im h.wf
  exact ⟨a3, by rw [a1, h.rows_eq], by rw [a2, h.cols_eq]⟩

theorem img_ext_px {x y : Img K} {R C : Nat} (hx : HasShape x R C) (hy : HasShape y R C) (h : ∀ p ∈ grid R C, x.px p.1 p.2 = y.px p.1 p.2) :
    x = y := by
  have hd : x.data = y.data := by
    rw [data_eq hx, data_eq hy]
    exact List.map_congr_left h
  have h1 := hx.rows_eq.trans hy.rows_eq.symm
  have h2 := hx.cols_eq.trans hy.cols_eq.symm
  cases x
  cases y
  simp only at hd h1 h2
  subst hd h1 h2
  rfl

theorem prepare_inverted {im : Img K} {R C : Nat} (h : HasShape im R C) (d : K) :
    prepareImage (inverted d im) = inverted d (prepareImage im) := by
  have h' := inverted_shape d h
  refine img_ext_px (prepare_shape h') (inverted_shape d (prepare_shape h)) ?_
  rintro ⟨r, c⟩ hp
  have hp' := mem_grid.1 hp
  dsimp only at hp' ⊢
  rw [inverted_px (prepare_shape h) d hp'.1 hp'.2]
  have g : ∀ {x : Img K}, HasShape x R C → (prepareImage x).px r c = x.px (mirrored R r) (mirrored C c) := by
    intro x hx
    obtain ⟨-, -, -, a4⟩ := C47_mirrored x hx.wf
    rw [hx.rows_eq, hx.cols_eq] at a4
    have h1 := mirrored_lt R r (by omega)
    have h2 := mirrored_lt C c (by omega)
    exact px_eq (by rw [a4 r hp'.1 c hp'.2, at_some x hx.wf _ _ (by rw [hx.rows_eq]; exact h1) (by rw [hx.cols_eq]; exact h2)])
  rw [g h', g h, inverted_px h d (mirrored_lt R r (by omega)) (mirrored_lt C c (by omega))]

theorem ofFn_inverted (R C : Nat) (d : K) (f : Nat → Nat → K) : Img.ofFn R C (fun i j => d - f i j) = inverted d (Img.ofFn R C f) := by
  simp [inverted, Img.ofFn, Img.map, List.map_flatMap, Function.comp_def]

theorem spline_inverted {sbs : Surface K} (hs : InvertsSurface sbs) {big : Img K} {R C : Nat} (hb : HasShape big R C) (d : K)
    {pos : List (Nat × Nat)} (hp : ∀ p ∈ pos, p ∈ grid R C) (R' C' : Nat) :
    splinePoints sbs (inverted d big) pos R' C' = (splinePoints sbs big pos R' C').map (inverted d) := by
  unfold splinePoints
  have : pos.map (fun p => (inverted d big).px p.1 p.2) = (pos.map (fun p => big.px p.1 p.2)).map (fun z => d - z) := by
    rw [List.map_map]
    exact List.map_congr_left (fun p h => inverted_px hb d (mem_grid.1 (hp p h)).1 (mem_grid.1 (hp p h)).2)
  rw [this, hs]
  cases sbs (pos.map (·.1)) (pos.map (·.2)) (pos.map (fun p => big.px p.1 p.2)) with
  | error e => rfl
  | ok s => exact congrArg Except.ok (ofFn_inverted R' C' d _)

theorem spline_ok_shape {sbs : Surface K} {big : Img K} {pos : List (Nat × Nat)} {R C : Nat} {e : Img K}
    (h : splinePoints sbs big pos R C = .ok e) : HasShape e R C := by
  unfold splinePoints at h
  obtain ⟨s, -, h⟩ := bind_eq_ok.1 h
  injection h with h
  rw [← h]
  exact .ofFn _ _ _

/-- The envelopes of the image upside down are the envelopes of the image upside down, lower and upper exchanged. -/
theorem extract_inverted {sbs : Surface K} (hs : InvertsSurface sbs) (hfuel : ∀ X Y Z, sbs X Y Z ≠ .error .outOfFuel) {im : Img K} {R C : Nat}
    (h : HasShape im R C) (d : K) :
    RelE (fun e e' => e' = (inverted d e.2, inverted d e.1) ∧ HasShape e.1 R C ∧ HasShape e.2 R C) (extractMaxMinSpline sbs im) (extractMaxMinSpline sbs (inverted d im)) := by
  unfold extractMaxMinSpline
  rw [prepare_inverted h d]
  have hb := prepare_shape h
  dsimp only
  rw [findExtrema_inverted hb d]
  cases he : findExtrema (prepareImage im) with
  | error e => exact Iff.rfl
  | ok e =>
    have hin : (∀ p ∈ e.1, p ∈ grid (3 * R) (3 * C)) ∧ ∀ p ∈ e.2, p ∈ grid (3 * R) (3 * C) := by
      unfold findExtrema at he
      rw [hb.rows_eq, hb.cols_eq] at he
      split at he
      · cases he
      · injection he with he
        rw [← he]
        exact ⟨fun p hp => peaks_subset _ _ _ hp, fun p hp => peaks_subset _ _ _ hp⟩
    have nf : ∀ pos, NoFuel (splinePoints sbs (prepareImage im) pos im.rows im.cols) := by
      intro pos
      unfold splinePoints
      have := hfuel (pos.map (·.1)) (pos.map (·.2)) (pos.map (fun p => (prepareImage im).px p.1 p.2))
      cases hx : sbs (pos.map (·.1)) (pos.map (·.2)) (pos.map (fun p => (prepareImage im).px p.1 p.2)) with
      | error e => rw [hx] at this; exact fun h => this (by cases h; rfl)
      | ok s => exact fun h => by cases h
    show RelE _ (splinePoints sbs (prepareImage im) e.1 im.rows im.cols >>= fun x => splinePoints sbs (prepareImage im) e.2 im.rows im.cols >>= fun y => pure (x, y))
      (splinePoints sbs (inverted d (prepareImage im)) e.2 im.rows im.cols >>= fun x => splinePoints sbs (inverted d (prepareImage im)) e.1 im.rows im.cols >>= fun y => pure (x, y))
    refine RelE.bind_swap (R₁ := fun p q => q = inverted d p) (R₂ := fun p q => q = inverted d p) (nf _) (nf _)
      (RelE.of_eq (f := inverted d) (fun _ => rfl) (spline_inverted hs hb d hin.1 _ _))
      (RelE.of_eq (f := inverted d) (fun _ => rfl) (spline_inverted hs hb d hin.2 _ _)) ?_
    rintro x y _ _ hx hy rfl rfl
    have sx := spline_ok_shape hx
    have sy := spline_ok_shape hy
    rw [h.rows_eq, h.cols_eq] at sx sy
    exact ⟨rfl, sx, sy⟩

theorem half_inverted {x y : Img K} {R C : Nat} (hx : HasShape x R C) (hy : HasShape y R C) (d : K) :
    ((inverted d y).add (inverted d x)).map (fun v => lit (1 / 2) * v) = inverted d ((x.add y).map (fun v => lit (1 / 2) * v)) := by
  have h1 := hx.rows_eq.trans hy.rows_eq.symm
  have h2 := hx.cols_eq.trans hy.cols_eq.symm
  cases x
  cases y
  simp only at h1 h2
  subst h1 h2
  unfold inverted Img.add Img.map vadd
  simp only [List.zipWith_map, List.map_zipWith]
  congr 1
  rw [List.zipWith_comm]
  congr 1
  funext p q
  simp only [lit_eq]
  push_cast
  ring

/-! ## The stopping test -/

theorem mean_map_sub {im : Img K} (hne : im.data ≠ []) (d : K) : (inverted d im).mean = d - im.mean := by
  unfold inverted Img.mean Img.map
  have hl : (im.data.length : K) ≠ 0 := by
    rw [Nat.cast_ne_zero]
    exact fun h => hne (List.length_eq_zero_iff.1 h)
  have hs : ∀ l : List K, (l.map (fun x => d - x)).sum = l.length * d - l.sum := by
    intro l
    induction l with
    | nil => simp
    | cons a l ih => simp only [List.map_cons, List.sum_cons, ih, List.length_cons]; push_cast; ring
  simp only [npSum_eq, List.length_map, lit_eq, hs, Rat.cast_natCast]
  field_simp

/-- The first test of `check_proto_imf`: the mean envelope is flat. -/
theorem flat_inverted {cfg : Cfg2 K} {m : Img K} (hne : m.data ≠ []) (d : K) :
    ((inverted d m).map (fun x => pyAbs (x - (inverted d m).mean))).data.all (fun x => decide (x < cfg.meanThr)) =
      (m.map (fun x => pyAbs (x - m.mean))).data.all (fun x => decide (x < cfg.meanThr)) := by
  rw [mean_map_sub hne]
  simp only [inverted, Img.map, List.map_map, List.all_map]
  congr 1
  funext x
  simp only [Function.comp_apply]
  have : pyAbs (d - x - (d - m.mean)) = pyAbs (x - m.mean) := by
    rw [pyAbs_eq, pyAbs_eq, show d - x - (d - m.mean) = -(x - m.mean) by ring, abs_neg]
  simp only [this]

/-- Values within `e` of zero have a mean within `e` of zero. -/
theorem mean_le {im : Img K} {e : K} (he : 0 ≤ e) (h : ∀ v ∈ im.data, |v| ≤ e) : |im.mean| ≤ e := by
  unfold Img.mean
  rw [npSum_eq, lit_eq, Rat.cast_natCast, abs_div]
  have hs : ∀ l : List K, (∀ v ∈ l, |v| ≤ e) → |l.sum| ≤ l.length * e := by
    intro l
    induction l with
    | nil => intro _; simp
    | cons a l ih =>
      intro hl
      have h1 := hl a (by simp)
      have h2 := ih (fun v hv => hl v (by simp [hv]))
      simp only [List.sum_cons, List.length_cons]
      push_cast
      calc |a + l.sum| ≤ |a| + |l.sum| := abs_add_le _ _
        _ ≤ (l.length + 1) * e := by linarith
  rcases Nat.eq_zero_or_pos im.data.length with h0 | h0
  · rw [h0]; simpa using he
  · have : (0 : K) < im.data.length := by exact_mod_cast h0
    rw [abs_of_pos this, div_le_iff₀ this, mul_comm]
    exact hs _ h

theorem mem_zip_sub {x m : List K} {v : K} (hl : x.length = m.length) (hv : v ∈ m) :
    ∃ u, u ∈ x ∧ (u - v, u) ∈ List.zip (vsub x m) x := by
  obtain ⟨i, hi, rfl⟩ := List.getElem_of_mem hv
  refine ⟨x[i], List.getElem_mem _, ?_⟩
  have : (List.zip (vsub x m) x)[i]? = some (x[i] - m[i], x[i]) := by
    rw [List.getElem?_eq_some_iff]
    refine ⟨by simp [vsub]; omega, by simp [vsub]⟩
  exact List.mem_of_getElem? this

/-- For proto-modes within ±401 a change that `np.allclose` overlooks comes from a flat mean envelope. -/
theorem close_flat {cfg : Cfg2 K} (ht : 1 / 100 ≤ cfg.meanThr) {x m : Img K} (hl : x.data.length = m.data.length) (hx : ∀ v ∈ x.data, |v| ≤ 401)
    (hc : (x.sub m).allclose (1 / 100000) x = true) :
    (m.map (fun x => pyAbs (x - m.mean))).data.all (fun x => decide (x < cfg.meanThr)) = true := by
  have hm : ∀ v ∈ m.data, |v| ≤ 402 / 100000 := by
    intro v hv
    obtain ⟨u, hu, hz⟩ := mem_zip_sub hl hv
    unfold Img.allclose at hc
    have := List.all_eq_true.1 hc _ hz
    simp only [decide_eq_true_eq, pyAbs_eq, lit_eq] at this
    rw [show u - v - u = -v by ring, abs_neg] at this
    have h2 := hx u hu
    push_cast at this
    linarith
  have hmean := mean_le (by norm_num) hm
  rw [List.all_eq_true]
  intro w hw
  simp only [Img.map, List.mem_map] at hw
  obtain ⟨v, hv, rfl⟩ := hw
  rw [decide_eq_true_eq, pyAbs_eq]
  calc |v - m.mean| ≤ |v| + |m.mean| := abs_sub _ _
    _ < cfg.meanThr := by linarith [hm v hv]

theorem check_inverted {cfg : Cfg2 K} (ht : 1 / 100 ≤ cfg.meanThr) {x m : Img K} (hl : x.data.length = m.data.length) (hne : m.data ≠ [])
    (hx : ∀ v ∈ x.data, |v| ≤ 400) {d : K} (hd : |d| ≤ 1) :
    checkProtoImf cfg (inverted 0 (x.sub m)) (inverted d x) (inverted d m) = checkProtoImf cfg (x.sub m) x m := by
  unfold checkProtoImf
  rw [flat_inverted hne]
  by_cases hf : (m.map (fun x => pyAbs (x - m.mean))).data.all (fun x => decide (x < cfg.meanThr)) = true
  · rw [if_pos hf, if_pos hf]
  · rw [if_neg hf, if_neg hf]
    have h1 : ¬ (x.sub m).allclose (1 / 100000) x = true := fun h => hf (close_flat ht hl (fun v hv => (hx v hv).trans (by norm_num)) h)
    have h2 : ¬ (inverted 0 (x.sub m)).allclose (1 / 100000) (inverted d x) = true := by
      intro h
      have e : inverted 0 (x.sub m) = (inverted d x).sub (inverted d m) := by rw [inverted_sub, sub_self]
      rw [e] at h
      have := close_flat ht (by simpa [inverted, Img.map] using hl) (by
        intro v hv
        simp only [inverted, Img.map, List.mem_map] at hv
        obtain ⟨u, hu, rfl⟩ := hv
        calc |d - u| ≤ |d| + |u| := abs_sub _ _
          _ ≤ 401 := by linarith [hx u hu]) h
      rw [flat_inverted hne] at this
      exact hf this
    rw [if_neg h1, if_neg h2]
    have e1 : (inverted 0 (x.sub m)).map pyAbs = (x.sub m).map pyAbs := by
      simp [inverted, Img.map, Function.comp_def, pyAbs_eq]
    have e2 : (inverted 0 (x.sub m)).map (fun x => x * x) = (x.sub m).map (fun x => x * x) := by
      simp [inverted, Img.map, Function.comp_def]
    rw [e1, e2]

/-! ## The decomposition -/

/-- The images whose envelopes are taken while one component is sifted out. -/
def protos (sbs : Surface K) (cfg : Cfg2 K) : (k n nH : Nat) → (imf meanEnv : Img K) → List (Img K)
  | 0, _, _, _, _ => []
  | k + 1, n, nH, imf, meanEnv =>
    match findExtrema imf with
    | .error _ => []
    | .ok e =>
      if 4 < e.1.length ∧ 4 < e.2.length then
        imf.sub meanEnv :: match extractMaxMinSpline sbs (imf.sub meanEnv) with
          | .error _ => []
          | .ok env =>
            let m := (env.1.add env.2).map (fun x => lit (1 / 2) * x)
            let x := (imf.sub meanEnv).sub m
            if cfg.FIXE ≠ 0 then
              if cfg.FIXE + 1 ≤ n + 1 then [] else protos sbs cfg k (n + 1) nH x m
            else if cfg.FIXE_H ≠ 0 then
              if n = 0 then protos sbs cfg k (n + 1) nH x m
              else
                let nH := if checkProtoImf cfg x (imf.sub meanEnv) m then nH + 1 else 0
                if cfg.FIXE_H ≤ nH then [] else protos sbs cfg k (n + 1) nH x m
            else
              if checkProtoImf cfg x (imf.sub meanEnv) m then [] else protos sbs cfg k (n + 1) nH x m
      else []

/-- The images whose envelopes are taken during a decomposition. -/
def allProtos (sbs : Surface K) (cfg : Cfg2 K) (image image_s : Img K) (maxImf : Int) : (fuel : Nat) → (imfs : List (Img K)) → List (Img K)
  | 0, _ => []
  | fuel + 1, imfs =>
    let res := image_s.sub (Img.sum image.rows image.cols imfs)
    protos sbs cfg cfg.MAX_ITERATION 0 0 res (Img.zeros image.rows image.cols) ++
      match sift sbs cfg cfg.MAX_ITERATION 0 0 res (Img.zeros image.rows image.cols) with
      | .error _ => []
      | .ok r =>
        if endCondition image (imfs ++ [r.1]) ∨ (0 < maxImf ∧ maxImf ≤ (imfs ++ [r.1]).length) then []
        else if r.2 then allProtos sbs cfg image image_s maxImf fuel (imfs ++ [r.1]) else []

/-- Either the number of iterations is fixed, or the thresholds are not below the default ones and the values stay within 400 times the
range of the image. -/
def Steady (cfg : Cfg2 K) (l : List (Img K)) : Prop :=
  cfg.FIXE ≠ 0 ∨ (1 / 100 ≤ cfg.meanThr ∧ ∀ x ∈ l, ∀ v ∈ x.data, |v| ≤ 400)

theorem Steady.sub {cfg : Cfg2 K} {l l' : List (Img K)} (h : Steady cfg l) (hs : ∀ x ∈ l', x ∈ l) : Steady cfg l' :=
  h.imp id (fun h => ⟨h.1, fun x hx => h.2 x (hs x hx)⟩)

theorem relE_mono {β γ : Type} {P Q : β → γ → Prop} {x : PyM β} {y : PyM γ} (h : RelE P x y) (hpq : ∀ a b, P a b → Q a b) : RelE Q x y := by
  cases x <;> cases y <;> first | exact hpq _ _ h | exact h

/-- Sifting of the image upside down. -/
theorem sift_inverted {sbs : Surface K} (hs : InvertsSurface sbs) (hfuel : ∀ X Y Z, sbs X Y Z ≠ .error .outOfFuel) {cfg : Cfg2 K} {R C : Nat}
    (hRC : 0 < R * C) : ∀ (k n nH : Nat) (imf m : Img K) (a b : K), HasShape imf R C → HasShape m R C → |a - b| ≤ 1 →
    Steady cfg (protos sbs cfg k n nH imf m) →
    RelE (fun p q => q.2 = p.2 ∧ (q.1 = inverted 0 p.1 ∨ (p.1 = imf ∧ q.1 = inverted a imf ∧ (p.2 = false ∨ k = 0))))
      (sift sbs cfg k n nH imf m) (sift sbs cfg k n nH (inverted a imf) (inverted b m)) := by
  intro k
  induction k with
  | zero =>
    intro n nH imf m a b _ _ _ _
    exact ⟨rfl, .inr ⟨rfl, rfl, .inr rfl⟩⟩
  | succ k ih =>
    intro n nH imf m a b hi hm hab ht
    rw [sift, sift, findExtrema_inverted hi a]
    rw [protos] at ht
    cases he : findExtrema imf with
    | error e => exact Iff.rfl
    | ok e =>
      rw [he] at ht
      dsimp only at ht
      show RelE _ (if 4 < e.1.length ∧ 4 < e.2.length then _ else _) (if 4 < e.2.length ∧ 4 < e.1.length then _ else _)
      by_cases hc : 4 < e.1.length ∧ 4 < e.2.length
      · rw [if_pos hc, if_pos hc.symm, inverted_sub]
        rw [if_pos hc] at ht
        have hx := hi.sub hm
        generalize imf.sub m = x at ht hx ⊢
        refine RelE.bind (extract_inverted hs hfuel hx (a - b)) ?_
        rintro env _ henv - ⟨rfl, s1, s2⟩
        rw [henv] at ht
        dsimp only at ht ⊢
        rw [half_inverted s1 s2, inverted_sub, sub_self]
        have hM : HasShape ((env.1.add env.2).map (fun x => lit (1 / 2) * x)) R C := (s1.add s2).map _
        generalize (env.1.add env.2).map (fun x => lit (1 / 2) * x) = M at ht hM ⊢
        have hxM := hx.sub hM
        have step : ∀ nH', Steady cfg (protos sbs cfg k (n + 1) nH' (x.sub M) M) →
            RelE (fun p q => q.2 = p.2 ∧ (q.1 = inverted 0 p.1 ∨ (p.1 = imf ∧ q.1 = inverted a imf ∧ (p.2 = false ∨ k + 1 = 0))))
              (sift sbs cfg k (n + 1) nH' (x.sub M) M) (sift sbs cfg k (n + 1) nH' (inverted 0 (x.sub M)) (inverted (a - b) M)) := by
          intro nH' ht'
          refine relE_mono (ih (n + 1) nH' (x.sub M) M 0 (a - b) hxM hM (by rw [zero_sub, abs_neg]; exact hab) ht') ?_
          rintro p q ⟨h1, h2⟩
          refine ⟨h1, .inl ?_⟩
          rcases h2 with h2 | ⟨h2, h3, -⟩
          · exact h2
          · rw [h2, h3]
        have stop : RelE (fun p q => q.2 = p.2 ∧ (q.1 = inverted 0 p.1 ∨ (p.1 = imf ∧ q.1 = inverted a imf ∧ (p.2 = false ∨ k + 1 = 0))))
            (Except.ok (x.sub M, true) : PyM (Img K × Bool)) (Except.ok (inverted 0 (x.sub M), true)) := ⟨rfl, .inl rfl⟩
        by_cases hF : cfg.FIXE = 0
        · have hcheck : checkProtoImf cfg (inverted 0 (x.sub M)) (inverted (a - b) x) (inverted (a - b) M) = checkProtoImf cfg (x.sub M) x M := by
            rcases ht with h | ⟨h1, h2⟩
            · exact absurd hF h
            · refine check_inverted h1 (by rw [hx.length, hM.length]) ?_ (h2 x (by simp)) hab
              intro h
              have := hM.length
              rw [h] at this
              simp at this
              rcases this with h | h <;> simp [h] at hRC
          have ht' := ht.sub (fun y hy => List.mem_cons_of_mem x hy)
          simp only [hF, ne_eq, not_true, if_false] at ht' ⊢
          rw [hcheck]
          by_cases hH : cfg.FIXE_H = 0
          · simp only [hH, ne_eq, not_true, if_false] at ht' ⊢
            by_cases hk : checkProtoImf cfg (x.sub M) x M = true
            · simp only [hk, if_true]
              exact stop
            · simp only [hk, if_false] at ht' ⊢
              exact step _ ht'
          · simp only [hH, ne_eq, not_false_eq_true, if_true] at ht' ⊢
            by_cases hn : n = 0
            · simp only [hn, if_true, Nat.zero_add] at ht' ⊢
              subst hn
              exact step _ ht'
            · rw [if_neg (show ¬ n + 1 = 1 by omega), if_neg (show ¬ n + 1 = 1 by omega)]
              rw [if_neg hn] at ht'
              generalize (if checkProtoImf cfg (x.sub M) x M = true then nH + 1 else 0) = h at ht' ⊢
              by_cases hh : cfg.FIXE_H ≤ h
              · rw [if_pos hh, if_pos hh]
                exact stop
              · rw [if_neg hh, if_neg hh]
                rw [if_neg hh] at ht'
                exact step _ ht'
        · rw [if_pos hF, if_pos hF]
          split
          · exact stop
          · exact step _ (.inl hF)
      · rw [if_neg hc, if_neg (fun h => hc h.symm)]
        exact ⟨rfl, .inr ⟨rfl, rfl, .inl rfl⟩⟩

theorem inverted_zeros (R C : Nat) : inverted 0 (Img.zeros R C : Img K) = Img.zeros R C := by
  simp [inverted, Img.zeros, Img.map, vzeros]

/-- The outer loop: the components are the negatives, or the last one is what was left and is taken from one. -/
theorem loop_inverted {sbs : Surface K} (hs : InvertsSurface sbs) (hfuel : ∀ X Y Z, sbs X Y Z ≠ .error .outOfFuel) {cfg : Cfg2 K}
    (hmax : cfg.MAX_ITERATION ≠ 0) {image image_s : Img K} {R C : Nat} (hRC : 0 < R * C) (hi : HasShape image R C) (hsS : HasShape image_s R C)
    (m : Int) : ∀ (fuel : Nat) (imfs : List (Img K)), (∀ im ∈ imfs, HasShape im R C) →
    Steady cfg (allProtos sbs cfg image image_s m fuel imfs) →
    RelE (fun out out' => ∃ pre last, out = pre ++ [last] ∧ (∀ im ∈ out, HasShape im R C) ∧ (out' = out.map negative ∨
        (out' = pre.map negative ++ [inverted 1 last] ∧ last = image_s.sub (Img.sum R C pre))))
      (loop sbs cfg image image_s m fuel imfs) (loop sbs cfg (negative image) (inverted 1 image_s) m fuel (imfs.map negative)) := by
  intro fuel
  induction fuel with
  | zero => intro imfs _ _; exact Iff.rfl
  | succ fuel ih =>
    intro imfs hall ht
    rw [loop, loop]
    rw [allProtos] at ht
    dsimp only at ht ⊢
    have hres : (inverted 1 image_s).sub (Img.sum (negative image).rows (negative image).cols (imfs.map negative)) =
        inverted 1 (image_s.sub (Img.sum image.rows image.cols imfs)) := by
      have h1 := inverted_sub 1 0 image_s (Img.sum image.rows image.cols imfs)
      rw [sub_zero, inverted_zero, ← negative_sum] at h1
      exact h1
    have hz : (Img.zeros (negative image).rows (negative image).cols : Img K) = inverted 0 (Img.zeros image.rows image.cols) :=
      (inverted_zeros _ _).symm
    rw [hres, hz]
    rw [hi.rows_eq, hi.cols_eq] at ht ⊢
    have hS := hsS.sub (.sum R C imfs hall)
    refine RelE.bind (sift_inverted hs hfuel hRC _ 0 0 _ _ 1 0 hS (.zeros R C) (by norm_num)
      (ht.sub (fun x hx => List.mem_append_left _ hx))) ?_
    rintro p q hp - ⟨h2, h1⟩
    rw [hp] at ht
    have hps := sift_shape hp hS (.zeros R C)
    have hall' : ∀ im ∈ imfs ++ [p.1], HasShape im R C := by
      intro im him
      rcases List.mem_append.1 him with h | h
      · exact hall im h
      · rw [List.mem_singleton.1 h]; exact hps
    rw [h2]
    rcases h1 with h1 | ⟨h1, h3, h4⟩
    · rw [h1, inverted_zero]
      have hmap : imfs.map negative ++ [negative p.1] = (imfs ++ [p.1]).map negative := by simp
      have hend : endCondition (negative image) ((imfs ++ [p.1]).map negative) = endCondition image (imfs ++ [p.1]) := by
        unfold endCondition
        rw [show Img.sum (negative image).rows (negative image).cols ((imfs ++ [p.1]).map negative) =
          negative (Img.sum image.rows image.cols (imfs ++ [p.1])) from negative_sum _ _ _, negative_allclose]
      rw [hmap, hend, List.length_map]
      have done : RelE (fun out out' => ∃ pre last, out = pre ++ [last] ∧ (∀ im ∈ out, HasShape im R C) ∧ (out' = out.map negative ∨
          (out' = pre.map negative ++ [inverted 1 last] ∧ last = image_s.sub (Img.sum R C pre))))
          (Except.ok (imfs ++ [p.1]) : PyM (List (Img K))) (Except.ok ((imfs ++ [p.1]).map negative)) :=
        ⟨imfs, p.1, rfl, hall', .inl rfl⟩
      have ht' := ht.sub (fun x hx => List.mem_append_right _ hx)
      dsimp only at ht'
      split
      · exact done
      · next hc =>
        rw [if_neg hc] at ht'
        split
        · next hb =>
          rw [if_pos hb] at ht'
          exact ih _ hall' ht'
        · exact done
    · have hb : p.2 = false := h4.resolve_right hmax
      simp only [hb, Bool.false_eq_true, if_false, ite_self]
      refine ⟨imfs, p.1, rfl, hall', .inr ⟨?_, ?_⟩⟩
      · rw [h3, h1]
      · rw [h1]

theorem addLast_concat (off : K) (x : Img K) : ∀ l : List (Img K), addLast off (l ++ [x]) = l ++ [x.map (fun v => v + off)]
  | [] => rfl
  | [y] => rfl
  | y :: z :: l => by
    have := addLast_concat off x (z :: l)
    simp only [List.cons_append] at this ⊢
    unfold addLast
    rw [this]

/-- Rows before the last are the components in the units of the image. -/
theorem finish_row (s off : K) (a : List (Img K)) (p : Bool) (res : Img K) (k : Nat)
    (hk : k + 1 < (addLast off ((if p then a else a ++ [res]).map (fun im => im.map (fun x => x * s)))).length) :
    (addLast off ((if p then a else a ++ [res]).map (fun im => im.map (fun x => x * s))))[k]? = (a[k]?).map (fun im => im.map (fun x => x * s)) := by
  rw [length_addLast, List.length_map] at hk
  have hka : k < a.length := by
    cases p <;> simp at hk <;> omega
  rw [addLast_getElem? _ _ _ (by simpa using hk), List.getElem?_map]
  congr 1
  cases p
  · simp [List.getElem?_append_left hka]
  · simp

theorem negative_units (s : K) (im : Img K) : (negative im).map (fun x => x * s) = negative (im.map (fun x => x * s)) := by
  simp [negative, Img.map, Function.comp_def]

/-- Negated components and a last one taken from one, in units and offset of the negative image. -/
theorem finish_negative (s lo hi : K) (hs : s = hi - lo) (pre : List (Img K)) (last : Img K) :
    addLast (-hi) ((pre.map negative ++ [inverted 1 last]).map (fun im => im.map (fun x => x * s))) =
      (addLast lo ((pre ++ [last]).map (fun im => im.map (fun x => x * s)))).map negative := by
  simp only [List.map_append, List.map_map, List.map_cons, List.map_nil, addLast_concat]
  congr 1
  · apply List.map_congr_left
    intro im _
    exact negative_units s im
  · simp only [List.cons.injEq, and_true, negative, inverted, Img.map, List.map_map]
    congr 1
    apply List.map_congr_left
    intro x _
    simp only [Function.comp_apply]
    rw [hs]
    ring

theorem sub_self_vanishes {x : Img K} : allclose0 (x.sub x).data = true := by
  rw [EMD.allclose0_iff]
  intro v hv
  simp only [Img.sub, vsub, List.zipWith_self, sub_self, List.mem_map] at hv
  obtain ⟨_, _, rfl⟩ := hv
  rw [pyAbs_eq, abs_zero, lit_eq]
  norm_num

theorem sum_concat (R C : Nat) (l : List (Img K)) (x : Img K) : (Img.sum R C (l ++ [x])).data = vadd (Img.sum R C l).data x.data := by
  simp [Img.sum, sumRows]

theorem sub_sum_concat (R C : Nat) (s x : Img K) (l : List (Img K)) :
    s.sub (Img.sum R C (l ++ [x])) = (s.sub (Img.sum R C l)).sub x := by
  unfold Img.sub
  congr 1
  rw [sum_concat]
  generalize (Img.sum R C l).data = y
  unfold vsub vadd
  apply List.ext_getElem
  · simp [Nat.min_assoc]
  · intro i h1 h2
    simp
    ring

/-- The image in units of its range, from its minimum. -/
def standardised (image : Img K) : Img K := image.map (fun x => (x - npMin image.data) / (npMax image.data - npMin image.data))

/-- **C162**: the negative of an image is decomposed into the negatives of the components of the image, if both decompositions have the
same number of rows; in any case both fail or both succeed, the numbers of rows differ by at most one, and the rows before the last are
the negatives.  For interpolators that turn upside down with the values, and if the number of iterations is fixed or the values met
while sifting stay within 400 times the range of the image.  Missing: images met with larger values, where `np.allclose` of two
successive proto-modes can be true for one of the images only, because a constant separates them. -/
theorem C162_negation_partial {sbs : Surface K} (hs : InvertsSurface sbs) (hfuel : ∀ X Y Z, sbs X Y Z ≠ .error .outOfFuel) (fuel : Nat)
    (cfg : Cfg2 K) (hmax : cfg.MAX_ITERATION ≠ 0) (image : Img K) (hw : WF image) (m : Int)
    (ht : Steady cfg (allProtos sbs cfg image (standardised image) m fuel [])) :
    RelE (fun out out' => (out'.length = out.length → out' = out.map negative) ∧ out'.length ≤ out.length + 1 ∧ out.length ≤ out'.length + 1 ∧
        ∀ k, k + 1 < out.length → k + 1 < out'.length → out'[k]? = (out[k]?).map negative)
      (emd sbs fuel cfg image m) (emd sbs fuel cfg (negative image) m) := by
  by_cases hne : image.data = []
  · have hne' : (negative image).data = [] := by simp [negative, Img.map, hne]
    simp only [emd, npMinE, hne, hne', List.isEmpty_nil, if_true, bind, Except.bind]
    exact Iff.rfl
  have hne' : (negative image).data ≠ [] := by simpa [negative, Img.map] using hne
  have e1 : npMin (negative image).data = -npMax image.data := EMD.npMin_vneg hne
  have e2 : npMax (negative image).data = -npMin image.data := EMD.npMax_vneg hne
  have hRC : 0 < image.rows * image.cols := by
    rw [← hw]
    exact List.length_pos_iff.2 hne
  have hi : HasShape image image.rows image.cols := ⟨hw, rfl, rfl⟩
  have hS : HasShape (standardised image) image.rows image.cols := hi.map _
  rw [emd_eq _ _ _ _ _ hne, emd_eq _ _ _ _ _ hne', e1, e2]
  have hscale : -npMin image.data - -npMax image.data = npMax image.data - npMin image.data := by ring
  rw [hscale]
  by_cases h0 : npMax image.data - npMin image.data = 0
  · rw [if_pos h0, if_pos h0]
    exact Iff.rfl
  rw [if_neg h0, if_neg h0]
  have hstd : (negative image).map (fun x => (x - -npMax image.data) / (npMax image.data - npMin image.data)) = inverted 1 (standardised image) := by
    simp only [negative, inverted, standardised, Img.map, List.map_map]
    congr 1
    apply List.map_congr_left
    intro x _
    simp only [Function.comp_apply]
    field_simp
    ring
  rw [hstd, show image.map (fun x => (x - npMin image.data) / (npMax image.data - npMin image.data)) = standardised image from rfl]
  have hloop := loop_inverted hs hfuel hmax hRC hi hS m fuel [] (by simp) ht
  rw [List.map_nil] at hloop
  generalize standardised image = S at hloop hS ⊢
  cases h1 : loop sbs cfg image S m fuel [] with
  | error e =>
    cases h2 : loop sbs cfg (negative image) (inverted 1 S) m fuel [] with
    | error e' => rw [h1, h2] at hloop; exact hloop
    | ok a' => rw [h1, h2] at hloop; exact hloop.elim
  | ok a =>
    cases h2 : loop sbs cfg (negative image) (inverted 1 S) m fuel [] with
    | error e' => rw [h1, h2] at hloop; exact hloop.elim
    | ok a' =>
      rw [h1, h2] at hloop
      obtain ⟨pre, last, rfl, hshape, hcase⟩ := hloop
      show _ ∧ _
      dsimp only
      generalize hlo : npMin image.data = lo at *
      generalize hhi : npMax image.data = hi' at *
      have whole : ∀ (pre : List (Img K)) (last : Img K) (out out' : List (Img K)),
          out = addLast lo ((pre ++ [last]).map (fun im => im.map (fun x => x * (hi' - lo)))) →
          out' = addLast (-hi') ((pre.map negative ++ [inverted 1 last]).map (fun im => im.map (fun x => x * (hi' - lo)))) →
          (out'.length = out.length → out' = out.map negative) ∧ out'.length ≤ out.length + 1 ∧ out.length ≤ out'.length + 1 ∧
            ∀ k, k + 1 < out.length → k + 1 < out'.length → out'[k]? = (out[k]?).map negative := by
        intro pre last out out' ho ho'
        rw [finish_negative _ lo hi' rfl] at ho'
        rw [← ho] at ho'
        subst ho'
        exact ⟨fun _ => rfl, by simp, by simp, fun k _ _ => by simp⟩
      rcases hcase with rfl | ⟨rfl, hlast⟩
      · have hres : (inverted 1 S).sub (Img.sum (negative image).rows (negative image).cols ((pre ++ [last]).map negative)) =
            inverted 1 (S.sub (Img.sum image.rows image.cols (pre ++ [last]))) := by
          have h1 := inverted_sub 1 0 S (Img.sum image.rows image.cols (pre ++ [last]))
          rw [sub_zero, inverted_zero, ← negative_sum] at h1
          exact h1
        rw [hres]
        have hresS := hS.sub (.sum image.rows image.cols (pre ++ [last]) hshape)
        generalize S.sub (Img.sum image.rows image.cols (pre ++ [last])) = res at hresS ⊢
        generalize pre ++ [last] = a at hshape ⊢
        by_cases hv : allclose0 res.data = true ∨ allclose0 (inverted 1 res).data = true
        · have hnot : ¬ (allclose0 res.data = true ∧ allclose0 (inverted 1 res).data = true) := by
            rintro ⟨g1, g2⟩
            have hlen := hresS.length
            obtain ⟨v, hv⟩ := List.exists_mem_of_length_pos (l := res.data) (by rw [hlen]; exact hRC)
            have b1 := (EMD.allclose0_iff _).1 g1 v hv
            have b2 := (EMD.allclose0_iff _).1 g2 (1 - v) (by simp only [inverted, Img.map]; exact List.mem_map_of_mem hv)
            rw [pyAbs_eq, lit_eq] at b1 b2
            push_cast at b1 b2
            have := abs_le.1 b1
            have := abs_le.1 b2
            linarith
          have hlenn : ∀ (p : Bool) (res : Img K) (off : K) (a : List (Img K)),
              (addLast off ((if p then a else a ++ [res]).map (fun im => im.map (fun x => x * (hi' - lo))))).length = if p then a.length else a.length + 1 := by
            intro p res off a
            rw [length_addLast, List.length_map]
            cases p <;> simp
          refine ⟨fun hl => ?_, ?_, ?_, fun k hk hk' => ?_⟩
          · rw [hlenn, hlenn, List.length_map] at hl
            exfalso
            cases g1 : allclose0 res.data <;> cases g2 : allclose0 (inverted 1 res).data <;> rw [g1, g2] at hv hl hnot <;> simp at hv hl hnot
          · rw [hlenn, hlenn, List.length_map]
            split <;> split <;> omega
          · rw [hlenn, hlenn, List.length_map]
            split <;> split <;> omega
          · rw [finish_row _ _ _ _ _ _ hk, finish_row _ _ _ _ _ _ hk', List.getElem?_map, Option.map_map, Option.map_map]
            congr 1
            funext im
            exact negative_units _ im
        · simp only [not_or] at hv
          refine whole a res _ _ ?_ ?_
          · rw [if_neg hv.1]
          · rw [if_neg hv.2]
      · have hr1 : S.sub (Img.sum image.rows image.cols (pre ++ [last])) = last.sub last := by
          rw [sub_sum_concat, ← hlast]
        have hr2 : (inverted 1 S).sub (Img.sum (negative image).rows (negative image).cols (pre.map negative ++ [inverted 1 last])) =
            (inverted 1 last).sub (inverted 1 last) := by
          rw [sub_sum_concat]
          have h1 := inverted_sub 1 0 S (Img.sum image.rows image.cols pre)
          rw [sub_zero, inverted_zero, ← negative_sum, ← hlast] at h1
          rw [← h1]
          rfl
        rw [hr1, hr2, if_pos sub_self_vanishes, if_pos sub_self_vanishes]
        exact whole pre last _ _ rfl rfl

/-- A field of peaks at odd and holes at even positions, one peak lower than the others. -/
def lattice : Img ℚ := Img.ofFn 7 9 (fun r c =>
  if (r, c) = (5, 7) then 1 / 2 else if r % 2 = 1 ∧ c % 2 = 1 then 1 else if r % 2 = 0 ∧ c % 2 = 0 then 0 else 1 / 2)

/-- The tangent at the first point, from the first two points. -/
def firstSurface : Surface ℚ := fun _ _ Z =>
  match Z with
  | a :: b :: _ => .ok (fun _ _ => 2 * a - b)
  | _ => .error .valueError

theorem firstSurface_inverts : InvertsSurface firstSurface := by
  intro d X Y Z
  match Z with
  | [] => rfl
  | [_] => rfl
  | a :: b :: Z =>
    show Except.ok _ = Except.ok _
    congr 1
    funext _ _
    ring

/-- The hypotheses of C162 hold for the board with default options, where two rows come out in both cases. -/
example : InvertsSurface firstSurface ∧ (∀ X Y Z, firstSurface X Y Z ≠ .error .outOfFuel) ∧ WF board ∧
    Steady Cfg.default (allProtos firstSurface Cfg.default board (standardised board) 1 1 []) ∧
    okWith (fun out => out.length == 2) (emd firstSurface 1 Cfg.default board 1) = true ∧
    okWith (fun out => out.length == 2) (emd firstSurface 1 Cfg.default (negative board) 1) = true := by
  refine ⟨firstSurface_inverts, ?_, (HasShape.ofFn _ _ _).wf, .inr ⟨by decide +kernel, ?_⟩, by decide +kernel, by decide +kernel⟩
  · intro X Y Z
    unfold firstSurface
    split <;> simp
  · have : ∀ x ∈ allProtos firstSurface Cfg.default board (standardised board) 1 1 [], ∀ v ∈ x.data, (-400 : ℚ) ≤ v ∧ v ≤ 400 := by decide +kernel
    exact fun x hx v hv => abs_le.2 (this x hx v hv)

/-- C162: the numbers of rows can differ.  The offset of the image is removed before sifting, and a residue of the negative image is one
minus the residue of the image, so one of them can vanish alone: the lattice has one component, its negative has two. -/
theorem C162_counterexample : ∃ (sbs : Surface ℚ) (image : Img ℚ), InvertsSurface sbs ∧ WF image ∧
    Steady Cfg.default (allProtos sbs Cfg.default image (standardised image) (-1) 1 []) ∧
    okWith (fun out => out.length == 1) (emd sbs 1 Cfg.default image (-1)) = true ∧
    okWith (fun out => out.length == 2) (emd sbs 1 Cfg.default (negative image) (-1)) = true := by
  refine ⟨firstSurface, lattice, firstSurface_inverts, (HasShape.ofFn _ _ _).wf, .inr ⟨by decide +kernel, ?_⟩, by decide +kernel, by decide +kernel⟩
  have : ∀ x ∈ allProtos firstSurface Cfg.default lattice (standardised lattice) (-1) 1 [], ∀ v ∈ x.data, (-400 : ℚ) ≤ v ∧ v ≤ 400 := by decide +kernel
  exact fun x hx v hv => abs_le.2 (this x hx v hv)

end EMD2D
end PyEMD
