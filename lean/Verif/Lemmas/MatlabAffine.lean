import Verif.Lemmas.JitTime
import Verif.Lemmas.Matlab

/-!
# `EMD_matlab` under changes of unit and origin of the signal and of time
-/

set_option linter.unusedSectionVars false

namespace PyEMD
namespace Matlab
open EMD (Extrema SplineKind Mirrored vaff kaff vaff_length aff_lt relTakeAff vsub_vaff)
open EMD.Spec
open Jit (kpos mpos TimeFreeAll filter_time leftMirror_time rightMirror_time zip_time cubicSpline3pts_time aff_beq)

variable {K : Type} [Field K] [LinearOrder K] [IsStrictOrderedRing K] [FloorRing K]

/-! ## Detection -/

theorem npDiff_vaff (c b : K) (S : List K) : npDiff (vaff c b S) = vaff c 0 (npDiff S) := by
  unfold npDiff vaff
  rw [← List.map_tail, List.zipWith_map, List.map_zipWith]
  congr 1
  funext x y
  ring

theorem scale_neg {c : K} (hc : 0 < c) (x : K) : c * x + 0 < lit 0 ↔ x < lit 0 := by
  rw [lit_zero, add_zero]
  constructor
  · exact fun h => neg_of_mul_neg_right h hc.le
  · exact mul_neg_of_pos_of_neg hc

theorem scale_pos {c : K} (hc : 0 < c) (x : K) : lit 0 < c * x + 0 ↔ lit 0 < x := by
  rw [lit_zero, add_zero, mul_pos_iff_of_pos_left hc]

theorem scale_mul {c : K} (hc : 0 < c) (x y : K) : (c * x + 0) * (c * y + 0) < lit 0 ↔ x * y < lit 0 := by
  rw [show (c * x + 0) * (c * y + 0) = (c * c) * (x * y) + 0 by ring]
  exact scale_neg (mul_pos hc hc) _

theorem scale_zero {c : K} (hc : 0 < c) (x : K) : (c * x + 0 == lit 0) = (x == lit 0) := by
  rw [lit_zero, add_zero, Bool.eq_iff_iff, beq_iff_eq, beq_iff_eq, mul_eq_zero, or_iff_right hc.ne']

theorem runLoop_scale {c : K} (hc : 0 < c) (d : List K) (R : List (Nat × Nat)) : runLoop (vaff c 0 d) R = runLoop d R := by
  induction R with
  | nil => rfl
  | cons p R ih =>
    obtain ⟨b, f⟩ := p
    unfold runLoop
    rw [ih, show vaff c 0 d = d.map (fun x => c * x + 0) from rfl, pyGet_map, pyGet_map]
    cases pyGet d ((b : Int) - 1) with
    | error e => rfl
    | ok x =>
      cases pyGet d (f : Int) with
      | error e => rfl
      | ok y => simp only [Except.map, bind, Except.bind, scale_neg hc, scale_pos hc]

theorem usedRuns_scale {c : K} (hc : 0 < c) (n : Nat) (d : List K) : usedRuns n (vaff c 0 d) = usedRuns n d := by
  unfold usedRuns vaff
  simp only [List.map_map, Function.comp_def, scale_zero hc]

theorem extremaIdx_vaff {c : K} (hc : 0 < c) (b : K) (S : List K) : extremaIdx (vaff c b S) = extremaIdx S := by
  unfold extremaIdx
  simp only [npDiff_vaff, vaff_length, usedRuns_scale hc, runLoop_scale hc]
  simp only [vaff, ← List.map_dropLast, ← List.map_tail, List.zipWith_map, scale_mul hc, scale_neg hc, scale_pos hc, List.any_map,
    Function.comp_def, scale_zero hc]

/-- Extrema of the transformed signal. -/
def eaff (c b : K) (S : List K) (e : Extrema K) : Extrema K :=
  { maxPos := e.maxPos, maxVal := vaff c b e.maxVal, minPos := e.minPos, minVal := vaff c b e.minVal,
    indzer := EMD.zeroCrossings (vaff c b S) }

theorem findExtrema_vaff {c : K} (hc : 0 < c) (b : K) (T S : List K) :
    RelX (fun e e' => e' = eaff c b S e ∧ e.indzer = EMD.zeroCrossings S) (findExtrema T S) (findExtrema T (vaff c b S)) := by
  unfold findExtrema
  rw [extremaIdx_vaff hc]
  refine (RelX.refl _).bind ?_
  rintro ⟨mx, mn⟩ _ - - rfl
  refine (RelX.refl _).bind ?_
  rintro p1 _ - - rfl
  refine (relTakeAff c b S _).bind ?_
  rintro v1 _ - - rfl
  refine (RelX.refl _).bind ?_
  rintro p2 _ - - rfl
  refine (relTakeAff c b S _).bind ?_
  rintro v2 _ - - rfl
  exact RelX.pure ⟨rfl, rfl⟩

/-- Extrema are counted as before; zero crossings as well if there is no offset. -/
theorem countExt_vaff {c : K} (hc : 0 < c) (b : K) (T S : List K) :
    RelX (fun r r' => r'.1 = r.1 ∧ (b = 0 → r'.2 = r.2)) (countExt T S) (countExt T (vaff c b S)) := by
  unfold countExt
  refine (findExtrema_vaff hc b T S).bind ?_
  rintro e _ - - ⟨rfl, hz⟩
  refine RelX.pure ⟨rfl, ?_⟩
  rintro rfl
  show ((EMD.zeroCrossings (vaff c 0 S)).length : Int) = _
  rw [EMD.zeroCrossings_scale hc, hz]

theorem countExt_vscale {c : K} (hc : 0 < c) (T S : List K) : countExt T (vaff c 0 S) = countExt T S := by
  have h := countExt_vaff hc 0 T S
  cases h1 : countExt T S with
  | error e =>
    cases h2 : countExt T (vaff c 0 S) with
    | error e' => rw [h1, h2] at h; cases h; rfl
    | ok r => rw [h1, h2] at h; exact h.elim
  | ok r =>
    cases h2 : countExt T (vaff c 0 S) with
    | error e' => rw [h1, h2] at h; exact h.elim
    | ok r' =>
      rw [h1, h2] at h
      obtain ⟨a, z⟩ := r
      obtain ⟨a', z'⟩ := r'
      obtain ⟨ha, hz⟩ := h
      have hz := hz rfl
      simp only at ha hz
      rw [ha, hz]

/-! ## Envelopes -/

theorem preparePoints_vaff {c : K} (hc : 0 < c) (b : K) (nb : Int) (S T P Q : List K) :
    RelX (fun r r' => r' = (kaff c b r.1, kaff c b r.2)) (preparePoints id nb S T P Q) (preparePoints id nb (vaff c b S) T P Q) := by
  unfold preparePoints
  simp only [vaff_length, EMD.leftBound_vaff hc, EMD.rightBound_vaff hc, List.map_id]
  refine (RelX.refl _).bind ?_
  rintro i1 _ - - rfl
  refine (RelX.refl _).bind ?_
  rintro i2 _ - - rfl
  refine (RelX.refl _).bind ?_
  rintro l _ - - rfl
  refine (RelX.refl _).bind ?_
  rintro r _ - - rfl
  refine (RelX.refl _).bind ?_
  rintro l' _ - - rfl
  refine (RelX.refl _).bind ?_
  rintro r' _ - - rfl
  refine (relTakeAff c b S _).bind ?_
  rintro z1 _ - - rfl
  refine (relTakeAff c b S _).bind ?_
  rintro z2 _ - - rfl
  refine (relTakeAff c b S _).bind ?_
  rintro z3 _ - - rfl
  refine (relTakeAff c b S _).bind ?_
  rintro z4 _ - - rfl
  refine (RelX.refl _).bind ?_
  rintro t1 _ - - rfl
  refine (RelX.refl _).bind ?_
  rintro t2 _ - - rfl
  refine (relTakeAff c b S _).bind ?_
  rintro z5 _ - - rfl
  refine (relTakeAff c b S _).bind ?_
  rintro z6 _ - - rfl
  apply RelX.pure
  have e : ∀ x y z : List K, vaff c b x ++ (vaff c b y ++ vaff c b z) = vaff c b (x ++ (y ++ z)) := by
    intro x y z; simp [vaff]
  rw [e, e, EMD.zip_vaff, EMD.zip_vaff, EMD.dropDupKnots_kaff, EMD.dropDupKnots_kaff]

theorem splinePoints_vaff {sp : SciPy K} (ho : AffineAll sp) {c : K} (hc : 0 < c) (b : K) (T : List K) (k : List (K × K)) (kind : SplineKind) :
    RelX (fun r r' => r' = (r.1, vaff c b r.2)) (splinePoints id sp T k kind) (splinePoints id sp T (kaff c b k) kind) := by
  obtain ⟨o1, o2, -, -, o5, o6, o7⟩ := ho
  have eX : (kaff c b k).map (·.1) = k.map (·.1) := by simp [kaff, Function.comp_def]
  have eY : (kaff c b k).map (·.2) = vaff c b (k.map (·.2)) := by simp [kaff, vaff, Function.comp_def]
  have eL : (kaff c b k).length = k.length := by simp [kaff]
  unfold splinePoints
  simp only [eX, eY, eL, List.map_id]
  refine (RelX.refl _).bind ?_
  rintro x0 _ - - rfl
  refine (RelX.refl _).bind ?_
  rintro xL _ - - rfl
  have key : ∀ {f : Interp K} (t' t : List K), AffineInterp f →
      RelX (fun r r' : List K × List K => r' = (r.1, vaff c b r.2))
        (ofScipy (f (k.map (·.1)) (k.map (·.2)) t) >>= fun q => Pure.pure (t', q))
        (ofScipy (f (k.map (·.1)) (vaff c b (k.map (·.2))) t) >>= fun q => Pure.pure (t', q)) := by
    intro f t' t hf
    rw [EMD.ofScipy_aff hf hc]
    cases ofScipy (f (k.map (·.1)) (k.map (·.2)) t) <;> rfl
  cases kind with
  | akima => exact key _ _ o1
  | cubic =>
    dsimp only
    split
    · exact key _ _ o2
    · refine (RelX.of_eq (f := fun r : List K × List K => (r.1, vaff c b r.2)) (R := fun r r' => r' = (r.1, vaff c b r.2)) (fun _ => rfl)
        (EMD.cubicSpline3pts_aff c b _ _ _)).bind ?_
      rintro ⟨t, q⟩ _ - - rfl
      exact RelX.pure rfl
  | slinear => exact key _ _ o5
  | quadratic => exact key _ _ o6
  | linear => exact key _ _ o7
  | pchip => rfl
  | cubicHermite => rfl
  | unknown => rfl

theorem extract_vaff {sp : SciPy K} (ho : AffineAll sp) {cfg : Cfg K} (hcv : cfg.convert = id) {c : K} (hc : 0 < c) (b : K) (T S : List K) :
    RelX (fun r r' => r' = r.map (fun p => (vaff c b p.1, vaff c b p.2))) (extractMaxMinSpline sp cfg T S)
      (extractMaxMinSpline sp cfg T (vaff c b S)) := by
  unfold extractMaxMinSpline
  rw [hcv]
  refine (findExtrema_vaff hc b T S).bind ?_
  rintro e _ - - ⟨rfl, -⟩
  rw [show (eaff c b S e).maxPos = e.maxPos from rfl, show (eaff c b S e).minPos = e.minPos from rfl]
  by_cases hlt : e.maxPos.length + e.minPos.length < 3
  · rw [if_pos hlt, if_pos hlt]
    exact RelX.pure rfl
  · rw [if_neg hlt, if_neg hlt]
    refine (preparePoints_vaff hc b cfg.nbsym S T _ _).bind ?_
    rintro ⟨kx, kn⟩ _ - - rfl
    refine (splinePoints_vaff ho hc b T kx cfg.splineKind).bind ?_
    rintro ⟨_, u⟩ _ - - rfl
    refine (splinePoints_vaff ho hc b T kn cfg.splineKind).bind ?_
    rintro ⟨_, v⟩ _ - - rfl
    exact RelX.pure rfl

/-! ## Sifting -/

theorem bcast_map2 {f : K → K → K} {g h k : K → K} (e : ∀ x y, f (g x) (h y) = k (f x y)) (a b : List K) :
    bcast f (a.map g) (b.map h) = (bcast f a b).map (List.map k) := by
  unfold bcast
  rw [List.length_map, List.length_map]
  split
  · simp only [Except.map, List.zipWith_map, List.map_zipWith, e]
  · match a, b with
    | [x], [] => rfl
    | [x], y :: y' :: l => simp only [List.map_cons, List.map_nil, Except.map, List.map_map, Function.comp_def, e]
    | [x], [y] => simp only [List.map_cons, List.map_nil, Except.map, e]
    | [], [y] => rfl
    | x :: x' :: l, [y] => simp only [List.map_cons, List.map_nil, Except.map, List.map_map, Function.comp_def, e]
    | [], [] => rfl
    | [], y :: y' :: l => rfl
    | x :: x' :: l, [] => rfl
    | x :: x' :: l, y :: y' :: l' => rfl

theorem relSub (c b g r : K) (x m : List K) :
    RelX (fun z z' => z' = vaff c (b - r * g) z) (bcast (fun a b => a - b) x (m.map (fun v => r * v)))
      (bcast (fun a b => a - b) (vaff c b x) ((vaff c g m).map (fun v => r * v))) := by
  refine .of_eq (f := vaff c (b - r * g)) (fun _ => rfl) ?_
  have : (vaff c g m).map (fun v => r * v) = (m.map (fun v => r * v)).map (fun v => c * v + r * g) := by
    simp only [vaff, List.map_map]
    apply List.map_congr_left
    intro v _
    simp only [Function.comp_def]
    ring
  rw [this]
  exact bcast_map2 (fun x y => by ring) _ _

theorem relMean (c b : K) (u v : List K) :
    RelX (fun z z' => z'.map (fun x => lit (1 / 2) * x) = vaff c b (z.map (fun x => lit (1 / 2) * x))) (bcast (fun a b => a + b) u v)
      (bcast (fun a b => a + b) (vaff c b u) (vaff c b v)) := by
  refine .of_eq (f := vaff c (b + b)) ?_ (EMD.bcast_vaff c b u v)
  intro s
  simp only [vaff, List.map_map]
  apply List.map_congr_left
  intro y _
  simp only [Function.comp_def, lit_half]
  ring

theorem divGt_scale {c : K} (hc : 0 < c) (a d thr : K) : divGt (c * a) (c * d) thr = divGt a d thr := by
  unfold divGt
  rw [show (c * d == lit 0) = (d == lit 0) by have := scale_zero hc d; rwa [add_zero] at this, mul_div_mul_left _ _ hc.ne',
    show decide (lit 0 < c * a) = decide (lit 0 < a) by have := scale_pos hc a; rw [add_zero] at this; exact decide_eq_decide.2 this]

theorem stopSifting_scale {c : K} (hc : 0 < c) (cfg : Cfg K) (u v m : List K) (e : Int) :
    stopSifting cfg (vaff c 0 u) (vaff c 0 v) (vaff c 0 m) e = stopSifting cfg u v m e := by
  unfold stopSifting
  have hb : bcast (fun a b => a - b) (vaff c 0 u) (vaff c 0 v) = (bcast (fun a b => a - b) u v).map (List.map (fun x => c * x)) :=
    bcast_map2 (fun x y => by ring) _ _
  rw [hb]
  cases bcast (fun a b => a - b) u v with
  | error e => rfl
  | ok d =>
    have ha : ∀ x : K, pyAbs (c * x) / lit 2 = c * (pyAbs x / lit 2) := by
      intro x
      rw [pyAbs_eq, pyAbs_eq, abs_mul, abs_of_pos hc, mul_div_assoc]
    have hm : ∀ x : K, pyAbs (c * x + 0) = c * pyAbs x := by
      intro x
      rw [pyAbs_eq, pyAbs_eq, add_zero, abs_mul, abs_of_pos hc]
    simp only [bind, Except.bind, Except.map, vaff, List.zipWith_map_left, List.zipWith_map_right, List.map_map, Function.comp_def, ha, hm,
      divGt_scale hc]

/-- Outcomes of a pass.  `b`: offset of `imf` before the pass, `b'`: after the subtraction. -/
def StepAff (c b b' : K) (r r' : SiftStep K) : Prop :=
  match r, r' with
  | .brk s why, .brk s' why' => why' = why ∧ s'.n = s.n ∧ s'.extNo = s.extNo ∧
      (s'.imf = vaff c b' s.imf ∨ (why = .trend ∧ s'.imf = vaff c b s.imf))
  | .cont s, .cont s' => s' = { s with imf := vaff c b' s.imf, mean := vaff c b' s.mean }
  | _, _ => False

theorem siftBody_vaff {sp : SciPy K} (ho : AffineAll sp) {cfg : Cfg K} (hcv : cfg.convert = id) {c : K} (hc : 0 < c) (b g : K) (T : List K)
    (s : Sift K) (hm : b - cfg.reduceScale * g = 0 ∨ cfg.FIXE ≠ 0 ∨ (cfg.FIXE_H ≠ 0 ∧ s.n = 0)) :
    RelX (StepAff c b (b - cfg.reduceScale * g)) (siftBody sp cfg T s)
      (siftBody sp cfg T { s with imf := vaff c b s.imf, mean := vaff c g s.mean }) := by
  unfold siftBody
  refine (countExt_vaff hc b T s.imf).bind ?_
  rintro ⟨e, z⟩ ⟨e', z'⟩ - - ⟨he, -⟩
  have he : e' = e := he
  subst he
  dsimp only
  split
  · refine (relSub c b g cfg.reduceScale s.imf s.mean).bind ?_
    rintro x _ - - rfl
    generalize hb : b - cfg.reduceScale * g = b' at *
    refine (extract_vaff ho hcv hc b' T x).bind ?_
    rintro r _ - - rfl
    cases r with
    | none => exact RelX.pure ⟨rfl, rfl, rfl, .inl rfl⟩
    | some p =>
      obtain ⟨u, v⟩ := p
      dsimp only [Option.map_some]
      refine (relMean c b' u v).bind ?_
      intro w w' _ _ hw
      rw [hw]
      split
      · exact RelX.pure ⟨rfl, rfl, rfl, .inl rfl⟩
      · split
        · split
          · exact RelX.pure ⟨rfl, rfl, rfl, .inl rfl⟩
          · exact RelX.pure rfl
        · next hF =>
          have hF : cfg.FIXE = 0 := by simpa using hF
          split
          · refine (countExt_vaff hc b' T x).bind ?_
            rintro ⟨e, z⟩ ⟨e', z'⟩ - - ⟨he, hz⟩
            have he : e' = e := he
            subst he
            dsimp only at hz ⊢
            split
            · exact RelX.pure rfl
            · next hn =>
              have h0 : b' = 0 := by
                rcases hm with h | h | h
                · exact h
                · exact absurd hF h
                · exact absurd (by rw [h.2]; rfl) hn
              rw [hz h0]
              generalize (if |e' - z| > 1 then 0 else s.nh + 1) = nh
              split
              · exact RelX.pure ⟨rfl, rfl, rfl, .inl rfl⟩
              · exact RelX.pure rfl
          · next hH =>
            have h0 : b' = 0 := by
              rcases hm with h | h | h
              · exact h
              · exact absurd hF h
              · exact absurd h.1 (by simpa using hH)
            rw [h0, countExt_vscale hc]
            refine (RelX.refl _).bind ?_
            rintro ⟨e, z⟩ _ - - rfl
            dsimp only
            rw [stopSifting_scale hc]
            refine (RelX.refl _).bind ?_
            rintro f1 _ - - rfl
            split
            · exact RelX.pure ⟨rfl, rfl, rfl, .inl rfl⟩
            · exact RelX.pure rfl
  · exact RelX.pure ⟨rfl, rfl, rfl, .inr ⟨rfl, rfl⟩⟩

/-- Outcomes of the inner loop: an offset is left only in a trend. -/
def LoopAff (c b : K) (r r' : Sift K × SiftEnd) : Prop :=
  r'.2 = r.2 ∧ r'.1.n = r.1.n ∧ r'.1.extNo = r.1.extNo ∧
    ((r.2 ≠ .trend ∧ r'.1.imf = vaff c 0 r.1.imf) ∨ (r.2 = .trend ∧ r'.1.imf = vaff c b r.1.imf))

theorem siftLoop_scale {sp : SciPy K} (ho : AffineAll sp) {cfg : Cfg K} (hcv : cfg.convert = id) {c : K} (hc : 0 < c) (T : List K) (fuel : Nat)
    (s : Sift K) :
    RelX (fun r r' => r'.2 = r.2 ∧ r'.1.n = r.1.n ∧ r'.1.extNo = r.1.extNo ∧ r'.1.imf = vaff c 0 r.1.imf) (siftLoop sp cfg T fuel s)
      (siftLoop sp cfg T fuel { s with imf := vaff c 0 s.imf, mean := vaff c 0 s.mean }) := by
  induction fuel generalizing s with
  | zero => rfl
  | succ fuel ih =>
    unfold siftLoop
    dsimp only
    split
    · refine (siftBody_vaff ho hcv hc 0 0 T s (.inl (by ring))).bind ?_
      intro r r' _ _ hr
      rw [mul_zero, sub_zero] at hr
      match r, r', hr with
      | .brk s1 why, .brk s1' why', hr =>
        obtain ⟨h1, h2, h3, h4⟩ := hr
        exact RelX.pure ⟨h1, h2, h3, h4.elim id (·.2)⟩
      | .cont s1, .cont s1', hr =>
        cases hr
        exact ih s1
    · exact RelX.pure ⟨rfl, rfl, rfl, rfl⟩

/-- Settings for which an offset is removed from every component: the whole mean is subtracted, at least once, and the stopping rule
does not look at amplitudes. -/
structure OffsetMode (cfg : Cfg K) : Prop where
  mode : 0 < cfg.FIXE ∨ (cfg.FIXE = 0 ∧ cfg.FIXE_H ≠ 0)
  whole : cfg.reduceScale = 1
  once : 1 ≤ cfg.maxIteration
  twice : 2 ≤ cfg.MAX_ITERATION

theorem vzeros_vaff (c : K) (n : Nat) : (vzeros n : List K) = vaff c 0 (vzeros n) := by simp [vzeros, vaff]

theorem bcast_zeros (r : K) (x : List K) : bcast (fun a b => a - b) x ((vzeros x.length).map (fun m => r * m)) = .ok x := by
  cases h : bcast (fun a b => a - b) x ((vzeros x.length).map (fun m => r * m)) with
  | error e => unfold bcast at h; rw [if_pos (by simp [vzeros])] at h; cases h
  | ok z => rw [sub_zeros r x z _ h rfl]

/-- The first pass subtracts nothing. -/
theorem first_pass {sp : SciPy K} {cfg : Cfg K} (hO : OffsetMode cfg) {T x : List K} {e : Int} {st : SiftStep K}
    (h : siftBody sp cfg T { n := 0, nh := 0, extNo := e, imf := x, mean := vzeros x.length } = .ok st) :
    (∃ s, st = .brk s .trend) ∨ (∃ s, st = .cont s ∧ s.n = 1) := by
  unfold siftBody at h
  simp only [bind_eq_ok] at h
  obtain ⟨⟨e, z⟩, hE, h⟩ := h
  dsimp only at h
  split at h
  · next h2 =>
    rw [bcast_zeros] at h
    simp only [bind_eq_ok] at h
    obtain ⟨y, hy, r, hr, h⟩ := h
    cases hy
    cases r with
    | none =>
      exfalso
      obtain ⟨E, hE', hlt⟩ := extract_none hr
      obtain ⟨E2, hE2, rfl, -⟩ := countExt_spec hE
      rw [hE'] at hE2
      cases hE2
      omega
    | some p =>
      dsimp only at h
      simp only [bind_eq_ok] at h
      obtain ⟨sum, -, h⟩ := h
      rw [if_neg (by have := hO.once; omega)] at h
      split at h
      · next hF =>
        rw [if_neg (by rcases hO.mode with h | h; omega; exact absurd h.1 hF)] at h
        rw [pure_eq_ok] at h
        exact .inr ⟨_, h.symm, rfl⟩
      · next hF =>
        have hF : cfg.FIXE = 0 := by simpa using hF
        rw [if_pos (by rcases hO.mode with h | h; omega; exact h.2)] at h
        simp only [bind_eq_ok] at h
        obtain ⟨⟨e', z'⟩, -, h⟩ := h
        rw [if_pos (by rfl), pure_eq_ok] at h
        exact .inr ⟨_, h.symm, rfl⟩
  · rw [pure_eq_ok] at h
    exact .inl ⟨_, h.symm⟩

/-- The same without saying that a trend keeps its offset. -/
def LoopWeak (c b : K) (r r' : Sift K × SiftEnd) : Prop :=
  r'.2 = r.2 ∧ r'.1.n = r.1.n ∧ r'.1.extNo = r.1.extNo ∧ (r'.1.imf = vaff c 0 r.1.imf ∨ (r.2 = .trend ∧ r'.1.imf = vaff c b r.1.imf))

theorem siftLoop_weak {sp : SciPy K} (ho : AffineAll sp) {cfg : Cfg K} (hcv : cfg.convert = id) {c : K} (hc : 0 < c) (b : K)
    (hO : b = 0 ∨ OffsetMode cfg) (T : List K) (fuel : Nat) (e : Int) (x : List K) :
    RelX (LoopWeak c b) (siftLoop sp cfg T fuel { n := 0, nh := 0, extNo := e, imf := x, mean := vzeros x.length })
      (siftLoop sp cfg T fuel { n := 0, nh := 0, extNo := e, imf := vaff c b x, mean := vzeros x.length }) := by
  rcases hO with rfl | hO
  · have h := siftLoop_scale ho hcv hc T fuel { n := 0, nh := 0, extNo := e, imf := x, mean := vzeros x.length }
    rw [← vzeros_vaff] at h
    refine h.mono ?_
    rintro r r' ⟨h1, h2, h3, h4⟩
    exact ⟨h1, h2, h3, .inl h4⟩
  cases fuel with
  | zero => rfl
  | succ fuel =>
    unfold siftLoop
    have hM := hO.twice
    rw [if_pos (by show (0 : Int) < _; omega), if_pos (by show (0 : Int) < _; omega)]
    have hbody := siftBody_vaff ho hcv hc b 0 T { n := 0, nh := 0, extNo := e, imf := x, mean := vzeros x.length }
      (by rcases hO.mode with h | h; exact .inr (.inl (by omega)); exact .inr (.inr ⟨h.2, rfl⟩))
    rw [← vzeros_vaff, mul_zero, sub_zero] at hbody
    refine hbody.bind ?_
    intro r r' hr1 _ hr
    match r, r', hr with
    | .brk s1 why, .brk s1' why', hr =>
      obtain ⟨h1, h2, h3, h4⟩ := hr
      rcases first_pass hO hr1 with ⟨s, hs⟩ | ⟨s, hs, -⟩
      · injection hs with hs1 hs2
        exact RelX.pure ⟨h1, h2, h3, .inr ⟨hs2, h4.elim id (·.2)⟩⟩
      · cases hs
    | .cont s1, .cont s1', hr =>
      cases hr
      have hn : s1.n = 1 := by
        rcases first_pass hO hr1 with ⟨s, hs⟩ | ⟨s, hs, hn⟩
        · cases hs
        · injection hs with hs; rw [hs]; exact hn
      cases fuel with
      | zero => rfl
      | succ fuel =>
        unfold siftLoop
        dsimp only
        rw [if_pos (by omega), if_pos (by omega)]
        have hbody := siftBody_vaff ho hcv hc b b T s1 (.inl (by rw [hO.whole]; ring))
        rw [hO.whole, one_mul, sub_self] at hbody
        refine hbody.bind ?_
        intro r r' hr2 _ hr
        match r, r', hr with
        | .brk s2 why, .brk s2' why', hr =>
          obtain ⟨h1, h2, h3, h4⟩ := hr
          exact RelX.pure ⟨h1, h2, h3, h4.elim .inl .inr⟩
        | .cont s2, .cont s2', hr =>
          cases hr
          refine (siftLoop_scale ho hcv hc T fuel s2).mono ?_
          rintro r r' ⟨h1, h2, h3, h4⟩
          exact ⟨h1, h2, h3, .inl h4⟩

theorem siftLoop_vaff {sp : SciPy K} (ho : AffineAll sp) {cfg : Cfg K} (hcv : cfg.convert = id) {c : K} (hc : 0 < c) (b : K)
    (hO : b = 0 ∨ OffsetMode cfg) (T : List K) (fuel : Nat) (e : Int) (x : List K) :
    RelX (LoopAff c b) (siftLoop sp cfg T fuel { n := 0, nh := 0, extNo := e, imf := x, mean := vzeros x.length })
      (siftLoop sp cfg T fuel { n := 0, nh := 0, extNo := e, imf := vaff c b x, mean := vzeros x.length }) := by
  have h := siftLoop_weak ho hcv hc b hO T fuel e x
  cases h1 : siftLoop sp cfg T fuel { n := 0, nh := 0, extNo := e, imf := x, mean := vzeros x.length } with
  | error e1 =>
    cases h2 : siftLoop sp cfg T fuel { n := 0, nh := 0, extNo := e, imf := vaff c b x, mean := vzeros x.length } with
    | error e2 => rw [h1, h2] at h; exact h
    | ok r => rw [h1, h2] at h; exact h.elim
  | ok r =>
    cases h2 : siftLoop sp cfg T fuel { n := 0, nh := 0, extNo := e, imf := vaff c b x, mean := vzeros x.length } with
    | error e2 => rw [h1, h2] at h; exact h.elim
    | ok r' =>
      rw [h1, h2] at h
      obtain ⟨s, why⟩ := r
      obtain ⟨s', why'⟩ := r'
      obtain ⟨a1, a2, a3, a4⟩ := h
      refine ⟨a1, a2, a3, ?_⟩
      simp only at a1 a4 ⊢
      by_cases ht : why = .trend
      · right
        refine ⟨ht, ?_⟩
        rw [← vaff_length c b x] at h2
        rw [((siftLoop_post h1).trend ht).2.1, ((siftLoop_post h2).trend (a1.trans ht)).2.1]
      · exact .inl ⟨ht, a4.elim id (fun h => absurd h.1 ht)⟩

/-! ## The outer loop -/

/-- Entries of a dictionary of components under an affine map. -/
def daff (c b : K) (d : List (Nat × List K)) : List (Nat × List K) := d.map (fun p => (p.1, vaff c b p.2))

theorem daff_keys (c b : K) (d : List (Nat × List K)) : (daff c b d).map (·.1) = d.map (·.1) := by
  simp [daff, Function.comp_def]

theorem daff_vals (c b : K) (d : List (Nat × List K)) : (daff c b d).map (·.2) = (d.map (·.2)).map (vaff c b) := by
  simp [daff, Function.comp_def]

/-- What both runs have in common. -/
structure Same (st st' : State K) : Prop where
  keys : Keys st.IMF st.imfNo
  keysE : Keys st.EXT st.imfNo
  keysI : Keys st.ITER st.imfNo
  number : st.ends.length = st.imfNo
  ext : st'.EXT = st.EXT
  iter : st'.ITER = st.ITER
  imfNo : st'.imfNo = st.imfNo
  extNo : st'.extNo = st.extNo
  ends : st'.ends = st.ends

/-- States before a round. -/
structure Going (c b : K) (n : Nat) (st st' : State K) : Prop extends Same st st' where
  len : st.Res.length = n
  rest : ∃ b1 b2, b1 - b2 = b ∧ st'.Res = vaff c b1 st.Res ∧ st'.imf = vaff c b2 st.imf
  comps : st'.IMF = daff c 0 st.IMF

/-- States after the last round: the offset is in the trend, if there is one. -/
structure Done (c b : K) (st st' : State K) : Prop extends Same st st' where
  comps : (st.ends.getLast? ≠ some .trend ∧ st'.IMF = daff c 0 st.IMF) ∨
    (st.ends.getLast? = some .trend ∧ ∃ d x, st.IMF = d ++ [x] ∧ st'.IMF = daff c 0 d ++ daff c b [x])

theorem emdRound_vaff {sp : SciPy K} (ho : AffineAll sp) {cfg : Cfg K} (hcv : cfg.convert = id) {c : K} (hc : 0 < c) (b : K)
    (hO : b = 0 ∨ OffsetMode cfg) (T : List K) (n : Nat) (mi : Int) {st st' : State K} (hg : Going c b n st st') :
    RelX (fun r r' => r'.2 = r.2 ∧ Done c b r.1 r'.1 ∧ (r.2 = false → Going c b n r.1 r'.1)) (emdRound sp cfg T n mi st)
      (emdRound sp cfg T n mi st') := by
  obtain ⟨b1, b2, hb, hR, hi⟩ := hg.rest
  unfold emdRound
  rw [hR, hi, hg.ext, hg.iter, hg.imfNo, hg.extNo, hg.ends, hg.comps, vaff_length, vaff_length]
  by_cases hl : st.imf.length ≠ st.Res.length
  · rw [if_pos hl, if_pos hl]
    rfl
  · rw [if_neg hl, if_neg hl]
    have hl : st.imf.length = st.Res.length := by simpa using hl
    rw [vsub_vaff, hb]
    generalize hx : vsub st.Res st.imf = x
    have hxn : x.length = n := by rw [← hx, vsub, List.length_zipWith, hl, hg.len, Nat.min_self]
    rw [← hxn]
    refine (siftLoop_vaff ho hcv hc b hO T _ st.extNo x).bind ?_
    rintro ⟨s, why⟩ ⟨s', why'⟩ - - ⟨a1, a2, a3, a4⟩
    simp only at a1 a2 a3 a4
    subst a1
    have hk' : Keys (daff c 0 st.IMF) st.imfNo := by unfold Keys; rw [daff_keys]; exact hg.keys
    refine RelX.pure ⟨rfl, ?_, ?_⟩
    · refine ⟨⟨hg.keys.succ _, hg.keysE.succ _, hg.keysI.succ _, by simp [hg.number], by rw [a3], by rw [a2], rfl, a3, rfl⟩, ?_⟩
      show (List.getLast? (st.ends ++ [why']) ≠ _ ∧ _) ∨ _
      rw [List.getLast?_concat]
      rcases a4 with ⟨h1, h2⟩ | ⟨h1, h2⟩
      · left
        refine ⟨by simpa using h1, ?_⟩
        show dictSet _ _ _ = daff c 0 (dictSet _ _ _)
        rw [hk'.set, hg.keys.set, h2]
        simp [daff]
      · right
        refine ⟨by simp [h1], st.IMF, (st.imfNo, s.imf), hg.keys.set _, ?_⟩
        show dictSet _ _ _ = _
        rw [hk'.set, h2]
        simp [daff]
    · intro hfin
      rw [Bool.or_eq_false_iff, beq_eq_false_iff_ne] at hfin
      rcases a4 with ⟨h1, h2⟩ | ⟨h1, h2⟩
      · refine ⟨⟨hg.keys.succ _, hg.keysE.succ _, hg.keysI.succ _, by simp [hg.number], by rw [a3], by rw [a2], rfl, a3, rfl⟩, rfl, ⟨b, 0, sub_zero b, rfl, h2⟩, ?_⟩
        show dictSet _ _ _ = daff c 0 (dictSet _ _ _)
        rw [hk'.set, hg.keys.set, h2]
        simp [daff]
      · exact absurd h1 hfin.1

theorem emdLoop_vaff {sp : SciPy K} (ho : AffineAll sp) {cfg : Cfg K} (hcv : cfg.convert = id) {c : K} (hc : 0 < c) (b : K)
    (hO : b = 0 ∨ OffsetMode cfg) (T : List K) (n : Nat) (mi : Int) (fuel : Nat) {st st' : State K} (hg : Going c b n st st') :
    RelX (Done c b) (emdLoop sp cfg T n mi fuel st) (emdLoop sp cfg T n mi fuel st') := by
  induction fuel generalizing st st' with
  | zero => rfl
  | succ fuel ih =>
    unfold emdLoop
    refine (emdRound_vaff ho hcv hc b hO T n mi hg).bind ?_
    rintro ⟨s, f⟩ ⟨s', f'⟩ - - ⟨h1, h2, h3⟩
    simp only at h1 h2 h3
    subst h1
    cases f' with
    | true => exact RelX.pure h2
    | false => exact ih (h3 rfl)

/-! ## The result -/

/-- The rows returned for components `comps` and a remainder `rest`: the remainder only if its absolute values sum to more than 1e-10. -/
def rowsOf (comps : List (List K)) (rest : List K) : List (List K) :=
  comps ++ (if 1 / 10000000000 < (rest.map (fun v => |v|)).sum then [rest] else [])

/-- The dictionary returned for it. -/
theorem finish_eq {S : List K} {st : State K} (hk : Keys st.IMF st.imfNo) :
    finish S (lit 1) st = if (st.IMF.map (·.2)).all (fun r => decide (r.length = S.length)) then
      .ok { IMF := (if 1 / 10000000000 < ((vsub S (sumRows S.length (st.IMF.map (·.2)))).map (fun v => |v|)).sum then
              st.IMF ++ [(st.imfNo, vsub S (sumRows S.length (st.IMF.map (·.2))))] else st.IMF)
            EXT := (if 1 / 10000000000 < ((vsub S (sumRows S.length (st.IMF.map (·.2)))).map (fun v => |v|)).sum then
              dictSet st.EXT st.imfNo st.extNo else st.EXT)
            ITER := (if 1 / 10000000000 < ((vsub S (sumRows S.length (st.IMF.map (·.2)))).map (fun v => |v|)).sum then
              dictSet st.ITER st.imfNo 0 else st.ITER)
            imfNo := (if 1 / 10000000000 < ((vsub S (sumRows S.length (st.IMF.map (·.2)))).map (fun v => |v|)).sum then
              st.imfNo + 1 else st.imfNo)
            ends := st.ends }
    else .error .valueError := by
  unfold finish
  rw [hk.gets]
  simp only [bind, Except.bind, lit_one, mul_one, List.map_id', Prod.mk.eta, hk.set]
  have habs : ∀ r : List K, npSum (r.map pyAbs) = (r.map (fun v => |v|)).sum := by
    intro r
    rw [npSum_eq]
    congr 1
    exact List.map_congr_left (fun v _ => pyAbs_eq v)
  rw [habs, lit_eq]
  push_cast
  simp only [decide_eq_true_eq]
  rfl

/-- How the results are related.  The rows of `R` are `comps` and, if it is not negligible, `rest`. -/
def Related (c b : K) (S : List K) (R R' : Result K) : Prop :=
  R'.ends = R.ends ∧ R'.EXT.take R.ends.length = R.EXT.take R.ends.length ∧ R'.ITER.take R.ends.length = R.ITER.take R.ends.length ∧
  ∃ comps rest, comps.length = R.ends.length ∧ IsResidue S comps rest ∧ R.IMF.map (·.2) = rowsOf comps rest ∧
    ((R.ends.getLast? ≠ some .trend ∧ R'.IMF.map (·.2) = rowsOf (comps.map (vaff c 0)) (vaff c b rest)) ∨
      (R.ends.getLast? = some .trend ∧ ∃ d x, comps = d ++ [x] ∧ R'.IMF.map (·.2) = rowsOf (d.map (vaff c 0) ++ [vaff c b x]) (vaff c 0 rest)))

theorem sumRows_concat (n : Nat) (l : List (List K)) (x : List K) : sumRows n (l ++ [x]) = vadd (sumRows n l) x := by
  simp [sumRows]

theorem take_if {β : Type} {d : List (Nat × β)} {n : Nat} (h : Keys d n) (v : β) (p : Prop) [Decidable p] :
    (if p then dictSet d n v else d).take n = d := by
  split
  · rw [h.set, ← h.length, List.take_left]
  · rw [← h.length, List.take_length]

theorem vals_if (d : List (Nat × List K)) (n : Nat) (v : List K) (p : Prop) [Decidable p] :
    (if p then d ++ [(n, v)] else d).map (·.2) = d.map (·.2) ++ (if p then [v] else []) := by
  split <;> simp

theorem finish_vaff (c b : K) (S : List K) {st st' : State K} (h : Done c b st st') :
    RelX (Related c b S) (finish S (lit 1) st) (finish (vaff c b S) (lit 1) st') := by
  have hkeys : Keys st'.IMF st'.imfNo := by
    have h0 := h.keys
    unfold Keys at h0 ⊢
    rw [h.imfNo, ← h0]
    rcases h.comps with ⟨-, e⟩ | ⟨-, d, x, e1, e2⟩
    · rw [e, daff_keys]
    · rw [e1, e2, List.map_append, daff_keys, daff_keys, List.map_append]
  rw [finish_eq h.keys, finish_eq hkeys, vaff_length]
  have hlen : (st'.IMF.map (·.2)).all (fun r => decide (r.length = S.length)) = (st.IMF.map (·.2)).all (fun r => decide (r.length = S.length)) := by
    rcases h.comps with ⟨-, e⟩ | ⟨-, d, x, e1, e2⟩
    · rw [e, daff_vals, List.all_map]
      simp only [Function.comp_def, vaff_length]
    · rw [e1, e2]
      simp [daff, Function.comp_def, vaff_length]
  rw [hlen]
  by_cases hall : (st.IMF.map (·.2)).all (fun r => decide (r.length = S.length)) = true
  · rw [if_pos hall, if_pos hall]
    refine ⟨h.ends, ?_, ?_, st.IMF.map (·.2), vsub S (sumRows S.length (st.IMF.map (·.2))), ?_, ?_, ?_, ?_⟩
    · dsimp only
      rw [h.number, take_if h.keysE, h.ext, h.imfNo, take_if h.keysE]
    · dsimp only
      rw [h.number, take_if h.keysI, h.iter, h.imfNo, take_if h.keysI]
    · dsimp only
      rw [List.length_map, h.keys.length, h.number]
    · apply EMD.isResidue_vsub
      intro r hr
      simpa using List.all_eq_true.1 hall r hr
    · dsimp only
      rw [vals_if]
      rfl
    · dsimp only
      rw [vals_if]
      rcases h.comps with ⟨h1, e⟩ | ⟨h1, d, x, e1, e2⟩
      · refine .inl ⟨h1, ?_⟩
        rw [e, daff_vals, EMD.sumRows_vaff, vsub_vaff, sub_zero]
        rfl
      · refine .inr ⟨h1, d.map (·.2), x.2, by rw [e1]; simp, ?_⟩
        rw [e1, e2, List.map_append, daff_vals, daff_vals, List.map_append]
        simp only [List.map_cons, List.map_nil]
        rw [sumRows_concat, EMD.sumRows_vaff, EMD.vadd_vaff, vsub_vaff, ← sumRows_concat, zero_add, sub_self]
        rfl
  · rw [if_neg hall, if_neg hall]
    rfl

theorem emd_vaff {sp : SciPy K} (ho : AffineAll sp) {cfg : Cfg K} (hcv : cfg.convert = id) {c : K} (hc : 0 < c) (b : K)
    (hO : b = 0 ∨ OffsetMode cfg) (S : List K) (T : Option (List K)) (mi : Int) (fuel : Nat) :
    RelX (Related c b S) (emd fuel sp cfg S T mi) (emd fuel sp cfg (vaff c b S) T mi) := by
  unfold emd
  dsimp only
  rw [vaff_length]
  generalize T.getD ((List.range S.length).map (fun k : Nat => lit (k : ℚ))) = T
  have hd : ∀ l : List K, l.map (fun x => x / lit 1) = l := by intro l; simp [lit_one]
  rw [hd, hd]
  by_cases hl : S.length ≠ T.length
  · rw [if_pos hl, if_pos hl]
    rfl
  · rw [if_neg hl, if_neg hl]
    refine (emdLoop_vaff ho hcv hc b hO T S.length mi fuel (st := { Res := S, imf := vzeros S.length, IMF := [], EXT := [], ITER := [], imfNo := 0, extNo := 0, ends := [] })
      (st' := { Res := vaff c b S, imf := vzeros S.length, IMF := [], EXT := [], ITER := [], imfNo := 0, extNo := 0, ends := [] }) ⟨⟨rfl, rfl, rfl, rfl, rfl, rfl, rfl, rfl, rfl⟩, rfl, ⟨b, 0, sub_zero b, rfl, vzeros_vaff c _⟩, rfl⟩).bind ?_
    intro st st' _ _ h
    exact finish_vaff c b S h

/-! ## Time -/

theorem timeIdx_time {c : K} (hc : 0 < c) (b : K) (T pos : List K) : timeIdx (vaff c b T) (vaff c b pos) = timeIdx T pos := by
  unfold timeIdx vaff
  simp only [List.map_map, Function.comp_def, aff_beq hc]

theorem asBug_rel {β γ : Type} {R : β → γ → Prop} {x : PyM β} {y : PyM γ} (h : RelX R x y) : RelX R (asBug x) (asBug y) := by
  cases x with
  | ok a =>
    cases y with
    | ok b => exact h
    | error e => exact h.elim
  | error e =>
    cases y with
    | ok b => exact h.elim
    | error e' =>
      cases h
      cases e <;> exact rfl

theorem dropDupKnots_time {c : K} (hc : 0 < c) (b : K) (l : List (K × K)) : EMD.dropDupKnots (kpos c b l) = kpos c b (EMD.dropDupKnots l) := by
  induction l with
  | nil => rfl
  | cons p l ih =>
    cases l with
    | nil => rfl
    | cons q l =>
      show (if c * q.1 + b == c * p.1 + b then EMD.dropDupKnots (kpos c b (q :: l)) else (c * p.1 + b, p.2) :: EMD.dropDupKnots (kpos c b (q :: l))) =
        kpos c b (if q.1 == p.1 then EMD.dropDupKnots (q :: l) else p :: EMD.dropDupKnots (q :: l))
      rw [ih, aff_beq hc]
      split <;> rfl

theorem preparePoints_time {c : K} (hc : 0 < c) (b : K) (f : K → K) (nb : Int) (S T P Q : List K) :
    RelX (fun r r' => r' = (kpos c b r.1, kpos c b r.2)) (preparePoints f nb S T P Q)
      (preparePoints f nb S (vaff c b T) (vaff c b P) (vaff c b Q)) := by
  unfold preparePoints
  simp only [timeIdx_time hc]
  refine (RelX.refl _).bind ?_
  rintro i1 _ - - rfl
  refine (RelX.refl _).bind ?_
  rintro i2 _ - - rfl
  refine (RelX.refl _).bind ?_
  rintro l _ - - rfl
  refine (RelX.refl _).bind ?_
  rintro r _ - - rfl
  refine (asBug_rel (leftMirror_time hc b nb T _ _ _)).bind ?_
  rintro l' _ - - rfl
  refine (asBug_rel (rightMirror_time hc b nb T _ _ _ _)).bind ?_
  rintro r' _ - - rfl
  refine (RelX.refl _).bind ?_
  rintro z1 _ - - rfl
  refine (RelX.refl _).bind ?_
  rintro z2 _ - - rfl
  refine (RelX.refl _).bind ?_
  rintro z3 _ - - rfl
  refine (RelX.refl _).bind ?_
  rintro z4 _ - - rfl
  refine (relTakeAff c b T _).bind ?_
  rintro t1 _ - - rfl
  refine (relTakeAff c b T _).bind ?_
  rintro t2 _ - - rfl
  refine (RelX.refl _).bind ?_
  rintro z5 _ - - rfl
  refine (RelX.refl _).bind ?_
  rintro z6 _ - - rfl
  apply RelX.pure
  have e : ∀ x y z : List K, vaff c b x ++ (vaff c b y ++ vaff c b z) = vaff c b (x ++ (y ++ z)) := by
    intro x y z; simp [vaff]
  simp only [mpos]
  rw [e, e, zip_time, zip_time, dropDupKnots_time hc, dropDupKnots_time hc]

theorem splinePoints_time {sp : SciPy K} (hsp : TimeFreeAll sp) {c : K} (hc : 0 < c) (b : K) (f : K → K) (T : List K) (k : List (K × K)) (kind : SplineKind) :
    RelX (fun r r' => r'.2 = r.2) (splinePoints f sp T k kind) (splinePoints f sp (vaff c b T) (kpos c b k) kind) := by
  obtain ⟨s1, s2, s3, s4, s5⟩ := hsp
  have eX : (kpos c b k).map (·.1) = vaff c b (k.map (·.1)) := by simp [kpos, vaff, Function.comp_def]
  have eY : (kpos c b k).map (·.2) = k.map (·.2) := by simp [kpos, Function.comp_def]
  have eL : (kpos c b k).length = k.length := by simp [kpos]
  unfold splinePoints
  simp only [eX, eY, eL]
  refine (Jit.relGet c b _ 0).bind ?_
  rintro x0 _ - - rfl
  refine (Jit.relGet c b _ (-1)).bind ?_
  rintro xL _ - - rfl
  simp only [filter_time hc]
  have key : ∀ {g : Interp K} (h : List K → List K) (t t' : List K), Spec.TimeFree g →
      RelX (fun r r' : List K × List K => r'.2 = r.2)
        (ofScipy (g (k.map (·.1)) (k.map (·.2)) (T.filter (fun τ => decide (x0 ≤ τ) && decide (τ ≤ xL)))) >>= fun q => Pure.pure (t, h q))
        (ofScipy (g (vaff c b (k.map (·.1))) (k.map (·.2)) (vaff c b (T.filter (fun τ => decide (x0 ≤ τ) && decide (τ ≤ xL))))) >>=
          fun q => Pure.pure (t', h q)) := by
    intro g h t t' hf
    have e : g (vaff c b (k.map (·.1))) (k.map (·.2)) (vaff c b (T.filter (fun τ => decide (x0 ≤ τ) && decide (τ ≤ xL)))) =
        g (k.map (·.1)) (k.map (·.2)) (T.filter (fun τ => decide (x0 ≤ τ) && decide (τ ≤ xL))) := hf c b hc _ _ _
    rw [e]
    refine (RelX.refl _).bind ?_
    rintro q _ - - rfl
    exact RelX.pure rfl
  cases kind with
  | akima => exact key id _ _ s1
  | cubic =>
    dsimp only
    split
    · exact key _ _ _ s2
    · refine (RelX.of_eq (f := fun r : List K × List K => (vaff c b r.1, r.2)) (R := fun r r' => r' = (vaff c b r.1, r.2)) (fun _ => rfl)
        (cubicSpline3pts_time hc b _ _ _)).bind ?_
      rintro ⟨t, q⟩ _ - - rfl
      exact RelX.pure rfl
  | slinear => exact key _ _ _ s3
  | quadratic => exact key _ _ _ s4
  | linear => exact key _ _ _ s5
  | pchip => rfl
  | cubicHermite => rfl
  | unknown => rfl

theorem findExtrema_time (c b : K) (T S : List K) :
    RelX (fun e e' => e' = { e with maxPos := vaff c b e.maxPos, minPos := vaff c b e.minPos }) (findExtrema T S) (findExtrema (vaff c b T) S) := by
  unfold findExtrema
  refine (RelX.refl _).bind ?_
  rintro ⟨mx, mn⟩ _ - - rfl
  refine (relTakeAff c b T _).bind ?_
  rintro p1 _ - - rfl
  refine (RelX.refl _).bind ?_
  rintro v1 _ - - rfl
  refine (relTakeAff c b T _).bind ?_
  rintro p2 _ - - rfl
  refine (RelX.refl _).bind ?_
  rintro v2 _ - - rfl
  exact RelX.pure rfl

theorem RelX.eq {β : Type} {x y : PyM β} (h : RelX (fun a b => b = a) x y) : y = x := by
  cases x with
  | ok a =>
    cases y with
    | ok b => exact congrArg _ h
    | error e => exact h.elim
  | error e =>
    cases y with
    | ok b => exact h.elim
    | error e' => exact congrArg _ (Eq.symm h)

theorem countExt_time (c b : K) (T S : List K) : countExt (vaff c b T) S = countExt T S := by
  apply RelX.eq
  unfold countExt
  refine (findExtrema_time c b T S).bind ?_
  rintro e _ - - rfl
  refine RelX.pure ?_
  simp only [vaff_length]

theorem extract_time {sp : SciPy K} (hsp : TimeFreeAll sp) (cfg : Cfg K) {c : K} (hc : 0 < c) (b : K) (T S : List K) :
    extractMaxMinSpline sp cfg (vaff c b T) S = extractMaxMinSpline sp cfg T S := by
  apply RelX.eq
  unfold extractMaxMinSpline
  refine (findExtrema_time c b T S).bind ?_
  rintro e _ - - rfl
  simp only [vaff_length]
  split
  · exact RelX.pure rfl
  · refine (preparePoints_time hc b _ cfg.nbsym S T _ _).bind ?_
    rintro ⟨kx, kn⟩ _ - - rfl
    refine (splinePoints_time hsp hc b _ T kx cfg.splineKind).bind ?_
    rintro ⟨_, u⟩ ⟨_, u'⟩ - - h
    cases h
    refine (splinePoints_time hsp hc b _ T kn cfg.splineKind).bind ?_
    rintro ⟨_, v⟩ ⟨_, v'⟩ - - h
    cases h
    exact RelX.pure rfl

theorem siftLoop_time {sp : SciPy K} (hsp : TimeFreeAll sp) (cfg : Cfg K) {c : K} (hc : 0 < c) (b : K) (T : List K) (fuel : Nat) (s : Sift K) :
    siftLoop sp cfg (vaff c b T) fuel s = siftLoop sp cfg T fuel s := by
  induction fuel generalizing s with
  | zero => rfl
  | succ fuel ih =>
    unfold siftLoop siftBody
    simp only [countExt_time, extract_time hsp cfg hc, ih]

theorem emdLoop_time {sp : SciPy K} (hsp : TimeFreeAll sp) (cfg : Cfg K) {c : K} (hc : 0 < c) (b : K) (T : List K) (n : Nat) (mi : Int) (fuel : Nat)
    (st : State K) : emdLoop sp cfg (vaff c b T) n mi fuel st = emdLoop sp cfg T n mi fuel st := by
  induction fuel generalizing st with
  | zero => rfl
  | succ fuel ih =>
    unfold emdLoop emdRound
    simp only [siftLoop_time hsp cfg hc, ih]

theorem emd_time {sp : SciPy K} (hsp : TimeFreeAll sp) (cfg : Cfg K) {c : K} (hc : 0 < c) (b : K) (S T : List K) (mi : Int) (fuel : Nat) :
    emd fuel sp cfg S (some (vaff c b T)) mi = emd fuel sp cfg S (some T) mi := by
  unfold emd
  simp only [Option.getD_some, vaff_length, emdLoop_time hsp cfg hc]

end Matlab
end PyEMD
