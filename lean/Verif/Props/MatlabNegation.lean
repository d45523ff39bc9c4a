import Verif.Props.MatlabAffine
import Verif.Props.MatlabVsEmd
import Verif.Props.Negation

/-!
# C144: `EMD_matlab` on the negated signal

The detector takes a flat start for a minimum if the signal is also flat at its end (C67), but never for a maximum.  Unless this happens
somewhere in the run, the components of `-S` are those of `S` with the sign changed.
-/

set_option linter.unusedSectionVars false

namespace PyEMD
namespace Matlab
open EMD (Extrema SplineKind vneg kneg vneg_length)
open EMD.Spec (OddAll)

variable {K : Type} [Field K] [LinearOrder K] [IsStrictOrderedRing K] [FloorRing K]

/-! ## Which sequences are searched for extrema -/

/-- `x` is searched for extrema in the inner loop that is at `s`: it is the candidate, or, if that has more than two extrema, the candidate
less the mean, in this pass or a later one. -/
inductive SiftSees (sp : SciPy K) (cfg : Cfg K) (T : List K) : Sift K → List K → Prop
  | now {s : Sift K} (hn : s.n < cfg.MAX_ITERATION) : SiftSees sp cfg T s s.imf
  | reduced {s : Sift K} {x : List K} {c : Int × Int} (hn : s.n < cfg.MAX_ITERATION) (hc : countExt T s.imf = .ok c) (h2 : 2 < c.1)
      (h : bcast (fun a b => a - b) s.imf (s.mean.map (fun m => cfg.reduceScale * m)) = .ok x) :
      SiftSees sp cfg T s x
  | later {s s' : Sift K} {x : List K} (h : siftBody sp cfg T s = .ok (.cont s')) (hx : SiftSees sp cfg T s' x) : SiftSees sp cfg T s x

/-- `x` is searched for extrema in the outer loop that is at `st`. -/
inductive Sees (sp : SciPy K) (cfg : Cfg K) (T : List K) (n : Nat) (mi : Int) : State K → List K → Prop
  | now {st : State K} {x : List K}
      (h : SiftSees sp cfg T { n := 0, nh := 0, extNo := st.extNo, imf := vsub st.Res st.imf, mean := vzeros n } x) : Sees sp cfg T n mi st x
  | later {st st' : State K} {x : List K} (h : emdRound sp cfg T n mi st = .ok (st', false)) (hx : Sees sp cfg T n mi st' x) :
      Sees sp cfg T n mi st x

/-- The state before the first round. -/
def start (S : List K) : State K := { Res := S, imf := vzeros S.length, IMF := [], EXT := [], ITER := [], imfNo := 0, extNo := 0, ends := [] }

/-! ## Extrema and envelopes -/

theorem flatEnds_vneg {x : List K} : FlatEnds (vneg x) → FlatEnds x := by
  unfold FlatEnds vneg
  simp only [List.getElem?_map, List.length_map]
  rintro ⟨a, c, h1, h2, h3, h4⟩
  simp only [Option.map_eq_some_iff] at h1 h2 h3 h4
  obtain ⟨a, h1, rfl⟩ := h1
  obtain ⟨a', h2, e2⟩ := h2
  obtain ⟨c, h3, rfl⟩ := h3
  obtain ⟨c', h4, e4⟩ := h4
  cases neg_injective e2
  cases neg_injective e4
  exact ⟨a, c, h1, h2, h3, h4⟩

theorem findExtrema_vneg {T x : List K} (hx : ¬FlatEnds x) :
    RelE (fun (e e' : Extrema K) => e'.maxPos = e.minPos ∧ e'.minPos = e.maxPos ∧ e'.indzer = e.indzer) (findExtrema T x)
      (findExtrema T (vneg x)) := by
  rw [findExtrema_same hx, findExtrema_same (fun h => hx (flatEnds_vneg h))]
  exact EMD.findExtremaSimple_vneg T x

theorem countExt_vneg {T x : List K} (hx : ¬FlatEnds x) : RelE Eq (countExt T x) (countExt T (vneg x)) := by
  unfold countExt
  refine (findExtrema_vneg hx).bind ?_
  rintro e e' - - ⟨h1, h2, h3⟩
  refine .pure ?_
  rw [h1, h2, h3, Int.add_comm]

theorem timeIdx_noFuel (T P : List K) : NoFuel (timeIdx T P) := by
  unfold timeIdx
  dsimp only
  split <;> simp [NoFuel]

theorem timeIdx_mem {T P : List K} {I : List Int} (h : timeIdx T P = .ok I) : ∀ i ∈ I, ∃ t ∈ P, ∃ k : Nat, i = k ∧ T[k]? = some t := by
  unfold timeIdx at h
  dsimp only at h
  split at h
  · injection h with h
    intro i hi
    rw [← h] at hi
    obtain ⟨k, hk, rfl⟩ := List.mem_map.1 hi
    obtain ⟨r, hr, hk⟩ := List.mem_flatten.1 hk
    obtain ⟨t, ht, rfl⟩ := List.mem_map.1 hr
    have := mem_nonzero.1 hk
    rw [List.getElem?_map, Option.map_eq_some_iff] at this
    obtain ⟨τ, h1, h2⟩ := this
    exact ⟨t, ht, k, rfl, by rw [h1, eq_of_beq h2]⟩
  · cases h

/-- Maxima and minima are at different instants. -/
theorem positions_disjoint {T x : List K} (hT : T.Nodup) (hx : ¬FlatEnds x) {e : Extrema K} (h : findExtrema T x = .ok e) :
    ∀ t ∈ e.maxPos, t ∉ e.minPos := by
  rw [findExtrema_same hx] at h
  unfold EMD.findExtrema EMD.findExtremaSimple at h
  simp only [bind_eq_ok, pure_eq_ok] at h
  obtain ⟨⟨mx, mn⟩, hi, a, ha, b, -, c, hc, d, -, rfl⟩ := h
  have key : ∀ (idx : List Nat) (l : List K), pyTake T (idx.map (fun k : Nat => (k : Int))) = .ok l → ∀ t ∈ l, ∃ k ∈ idx, T[k]? = some t := by
    intro idx l hl t ht
    obtain ⟨k, hk⟩ := List.mem_iff_getElem?.1 ht
    obtain ⟨j, h1, h2⟩ := EMD.pyTake_get hl hk
    rw [List.getElem?_map, Option.map_eq_some_iff] at h1
    obtain ⟨k', h3, rfl⟩ := h1
    exact ⟨k', List.mem_of_getElem? h3, by
      by_cases hlt : k' < T.length
      · rw [pyGet_nat T k' hlt] at h2
        injection h2 with h2
        rw [List.getElem?_eq_getElem hlt, h2]
      · unfold pyGet pyIdx at h2
        rw [if_pos (by omega), if_neg (by omega)] at h2
        cases h2⟩
  intro t h1 h2
  obtain ⟨k, hk, hk1⟩ := key mx a ha t h1
  obtain ⟨k', hk', hk1'⟩ := key mn c hc t h2
  have : k = k' := by
    rw [List.getElem?_eq_some_iff] at hk1 hk1'
    obtain ⟨l1, e1⟩ := hk1
    obtain ⟨l2, e2⟩ := hk1'
    exact (List.Nodup.getElem_inj_iff hT).1 (e1.trans e2.symm)
  subst this
  exact EMD.extremaIdx_disjoint hi k hk hk'

theorem asBug_relE {β γ : Type} {R : β → γ → Prop} {x : PyM β} {y : PyM γ} (h : RelE R x y) : RelE R (asBug x) (asBug y) := by
  cases x with
  | ok a =>
    cases y with
    | ok b => exact h
    | error e => exact h.elim
  | error e =>
    cases y with
    | ok b => exact h.elim
    | error e' =>
      have h : e = .outOfFuel ↔ e' = .outOfFuel := h
      unfold asBug
      cases e <;> cases e' <;> simp_all [RelE]

theorem preparePoints_swap {f : K → K} (hf : ∀ x, f (-x) = -f x) (nb : Int) {T P Q : List K} (S : List K) (hd : ∀ t ∈ P, t ∉ Q) :
    RelE (fun r r' => r' = (kneg r.2, kneg r.1)) (preparePoints f nb S T P Q) (preparePoints f nb (vneg S) T Q P) := by
  unfold preparePoints
  simp only [vneg_length]
  refine RelE.bind_swap (timeIdx_noFuel _ _) (timeIdx_noFuel _ _) (RelE.refl _) (RelE.refl _) ?_
  rintro B A _ _ hB hA rfl rfl
  have hdis : ∀ i ∈ A, i ∉ B := by
    intro i h1 h2
    obtain ⟨t, ht, k, rfl, hk⟩ := timeIdx_mem hA i h1
    obtain ⟨t', ht', k', hkk, hk'⟩ := timeIdx_mem hB _ h2
    have : k = k' := by exact_mod_cast hkk
    subst this
    rw [hk] at hk'
    injection hk' with hk'
    subst hk'
    exact hd t ht ht'
  refine (EMD.leftBound_swap nb S _ _ hdis).bind ?_
  rintro l _ hl - rfl
  refine (EMD.rightBound_swap nb S _ _ hdis).bind ?_
  rintro r _ hr - rfl
  obtain ⟨a, b, ha, hb, hs⟩ := EMD.leftBound_sym hl
  obtain ⟨a', b', ha', hb', hs'⟩ := EMD.rightBound_sym hr
  have hab : a ≠ b := by
    rintro rfl
    match A, B, ha, hb, hdis with
    | x :: _, y :: _, ha, hb, hd =>
      rw [pyGet_cons] at ha hb
      injection ha with ha
      injection hb with hb
      exact hd a (by simp [ha]) (by simp [hb])
    | [], _, ha, _, _ => cases ha
    | _ :: _, [], _, hb, _ => cases hb
  have hab' : a' ≠ b' := by
    rintro rfl
    by_cases nA : A = []
    · rw [nA] at ha'; cases ha'
    · by_cases nB : B = []
      · rw [nB] at hb'; cases hb'
      · rw [pyGet_last _ nA] at ha'
        rw [pyGet_last _ nB] at hb'
        injection ha' with ha'
        injection hb' with hb'
        exact hdis a' (ha' ▸ List.getLast_mem nA) (hb' ▸ List.getLast_mem nB)
  simp only [EMD.fillMissing_swap]
  refine (asBug_relE (EMD.leftMirror_swap nb T _ _ (EMD.fillMissing _ _ l) a b ha hb hab (by exact hs))).bind ?_
  rintro l' _ - - rfl
  refine (asBug_relE (EMD.rightMirror_swap nb T S.length _ _ (EMD.fillMissing _ _ r) a' b' ha' hb' hab' (by exact hs'))).bind ?_
  rintro r' _ - - rfl
  refine RelE.bind_swap (pyTake_noFuel _ _) (pyTake_noFuel _ _) (EMD.relTake S _) (EMD.relTake S _) ?_
  rintro zlmax zlmin _ _ - - rfl rfl
  refine RelE.bind_swap (pyTake_noFuel _ _) (pyTake_noFuel _ _) (EMD.relTake S _) (EMD.relTake S _) ?_
  rintro zrmax zrmin _ _ - - rfl rfl
  refine RelE.bind_swap (pyTake_noFuel _ _) (pyTake_noFuel _ _) (RelE.refl _) (RelE.refl _) ?_
  rintro tcmin tcmax _ _ - - rfl rfl
  refine RelE.bind_swap (pyTake_noFuel _ _) (pyTake_noFuel _ _) (EMD.relTake S _) (EMD.relTake S _) ?_
  rintro zcmin zcmax _ _ - - rfl rfl
  apply RelE.pure
  show (EMD.dropDupKnots (_ : List (K × K)), EMD.dropDupKnots (_ : List (K × K))) = _
  have e : ∀ a b c : List K, (vneg a ++ (vneg b ++ vneg c)).map f = vneg ((a ++ (b ++ c)).map f) := by
    intro a b c; simp [vneg, hf, Function.comp_def]
  rw [e, e, EMD.zip_vneg, EMD.zip_vneg, EMD.dropDupKnots_kneg, EMD.dropDupKnots_kneg]
  rfl

theorem splinePoints_neg {sp : SciPy K} (ho : OddAll sp) {f : K → K} (hf : ∀ x, f (-x) = -f x) (T : List K) (k : List (K × K)) (kind : SplineKind) :
    splinePoints f sp T (kneg k) kind = (splinePoints f sp T k kind).map (fun r => (r.1, vneg r.2)) := by
  obtain ⟨o1, o2, o3, o4, o5, o6, o7⟩ := ho
  have eX : (kneg k).map (·.1) = k.map (·.1) := by simp [kneg, Function.comp_def]
  have eY : (kneg k).map (·.2) = vneg (k.map (·.2)) := by simp [kneg, vneg, Function.comp_def]
  have eL : (kneg k).length = k.length := by simp [kneg]
  have ef : ∀ l : List K, (vneg l).map f = vneg (l.map f) := by intro l; simp [vneg, hf, Function.comp_def]
  unfold splinePoints
  simp only [eX, eY, eL]
  cases pyGet (k.map (·.1)) 0 with
  | error e => rfl
  | ok x0 =>
    cases pyGet (k.map (·.1)) (-1) with
    | error e => rfl
    | ok xL =>
      simp only [EMD.ok_bind]
      have fin : ∀ (g : Interp K) (t T' : List K), EMD.Spec.Odd g →
          (ofScipy (g (k.map (·.1)) (vneg (k.map (·.2))) t) >>= fun v => pure (T', v.map f)) =
          Except.map (fun r => (r.1, vneg r.2)) (ofScipy (g (k.map (·.1)) (k.map (·.2)) t) >>= fun v => (pure (T', v.map f) : PyM (List K × List K))) := by
        intro g t T' hg
        rw [EMD.ofScipy_odd hg]
        cases ofScipy (g (k.map (·.1)) (k.map (·.2)) t) with
        | error e => rfl
        | ok v => simp only [Except.map, EMD.ok_bind, ef]; rfl
      cases kind with
      | akima =>
        dsimp only
        rw [EMD.ofScipy_odd o1]
        cases ofScipy (sp.akima (k.map (·.1)) (k.map (·.2)) _) <;> rfl
      | cubic =>
        dsimp only
        split
        · exact fin _ _ _ o2
        · rw [EMD.cubicSpline3pts_neg]
          cases cubicSpline3pts (k.map (·.1)) (k.map (·.2)) T with
          | error e => rfl
          | ok v => simp only [Except.map, EMD.ok_bind, ef]; rfl
      | slinear => exact fin _ _ _ o5
      | quadratic => exact fin _ _ _ o6
      | linear => exact fin _ _ _ o7
      | pchip => rfl
      | cubicHermite => rfl
      | unknown => rfl

theorem splinePoints_noFuel (f : K → K) (sp : SciPy K) (T : List K) (k : List (K × K)) (kind : SplineKind) : NoFuel (splinePoints f sp T k kind) := by
  unfold splinePoints
  nofuel
  exact cubicSpline3pts_noFuel _ _ _

theorem extract_vneg {sp : SciPy K} (ho : OddAll sp) {cfg : Cfg K} (hf : ∀ x, cfg.convert (-x) = -cfg.convert x) {T x : List K} (hT : T.Nodup)
    (hx : ¬FlatEnds x) :
    RelE (fun r r' => r' = r.map (fun p => (vneg p.2, vneg p.1))) (extractMaxMinSpline sp cfg T x) (extractMaxMinSpline sp cfg T (vneg x)) := by
  unfold extractMaxMinSpline
  refine (findExtrema_vneg hx).bind ?_
  rintro ⟨P, PV, Q, QV, I⟩ ⟨P', PV', Q', QV', I'⟩ he - ⟨h1, h2, h3⟩
  have hdis := positions_disjoint hT hx he
  dsimp only at h1 h2 h3 hdis
  subst h1; subst h2; subst h3
  dsimp only
  by_cases hc : Q'.length + P'.length < 3
  · rw [if_pos hc, if_pos (by omega)]
    exact .pure rfl
  · rw [if_neg hc, if_neg (by omega)]
    refine RelE.bind (R := fun r r' => r' = (kneg r.2, kneg r.1)) (preparePoints_swap hf cfg.nbsym x hdis) ?_
    rintro ⟨kx, kn⟩ _ - - rfl
    dsimp only
    refine RelE.bind_swap (splinePoints_noFuel _ _ _ _ _) (splinePoints_noFuel _ _ _ _ _)
      (.of_eq (f := fun r => (r.1, vneg r.2)) (R := fun r r' => r' = (r.1, vneg r.2)) (fun _ => rfl) (splinePoints_neg ho hf _ _ _))
      (.of_eq (f := fun r => (r.1, vneg r.2)) (R := fun r r' => r' = (r.1, vneg r.2)) (fun _ => rfl) (splinePoints_neg ho hf _ _ _)) ?_
    rintro ⟨t1, q1⟩ ⟨t2, q2⟩ _ _ - - rfl rfl
    exact .pure rfl

/-! ## Sifting -/

/-- The same variables with the sign of the candidate and of the mean changed. -/
def Sift.neg (s : Sift K) : Sift K := { s with imf := vneg s.imf, mean := vneg s.mean }

/-- The same outcome with the sign changed. -/
def SiftStep.neg : SiftStep K → SiftStep K
  | .cont s => .cont s.neg
  | .brk s why => .brk s.neg why

theorem bcast_sub_vneg (a b : List K) : bcast (fun x y => x - y) (vneg a) (vneg b) = (bcast (fun x y => x - y) a b).map vneg :=
  bcast_map2 (g := fun x => -x) (h := fun x => -x) (k := fun x => -x) (fun x y => by ring) a b

theorem bcast_sub_swap (a b : List K) : bcast (fun x y => x - y) (vneg b) (vneg a) = bcast (fun x y => x - y) a b := by
  unfold bcast
  rw [vneg_length, vneg_length]
  by_cases h : a.length = b.length
  · rw [if_pos h, if_pos h.symm]
    simp only [vneg, List.zipWith_map]
    rw [List.zipWith_comm]
    congr 2
    funext x y
    ring
  · rw [if_neg h, if_neg (Ne.symm h)]
    have e1 : ∀ x y : K, -x - -y = y - x := fun x y => by ring
    match a, b, h with
    | [x], [], _ => rfl
    | [x], y :: y' :: b, _ =>
      simp only [vneg, List.map_cons, List.map_nil, List.map_map, Function.comp_def, e1]
    | [x], [y], h => simp at h
    | [], [y], _ => rfl
    | x :: x' :: a, [y], _ =>
      simp only [vneg, List.map_cons, List.map_nil, List.map_map, Function.comp_def, e1]
    | [], [], h => simp at h
    | [], y :: y' :: b, _ => rfl
    | x :: x' :: a, [], _ => rfl
    | x :: x' :: a, y :: y' :: b, _ => rfl

theorem stopSifting_vneg (cfg : Cfg K) (u v m : List K) (e : Int) : stopSifting cfg (vneg v) (vneg u) (vneg m) e = stopSifting cfg u v m e := by
  unfold stopSifting
  rw [bcast_sub_swap]
  simp only [vneg, List.zipWith_map_left, EMD.pyAbs_neg]

theorem siftBody_vneg {sp : SciPy K} (ho : OddAll sp) {cfg : Cfg K} (hf : ∀ x, cfg.convert (-x) = -cfg.convert x) {T : List K} (hT : T.Nodup)
    (s : Sift K) (hn : s.n < cfg.MAX_ITERATION) (hv : ∀ x, SiftSees sp cfg T s x → ¬FlatEnds x) :
    RelE (fun r r' => r' = r.neg) (siftBody sp cfg T s) (siftBody sp cfg T s.neg) := by
  unfold siftBody
  dsimp only [Sift.neg]
  refine (countExt_vneg (hv _ (.now hn))).bind ?_
  rintro ⟨e, z⟩ _ hc - rfl
  dsimp only
  split
  · next h2 =>
    have er : (vneg s.mean).map (fun m => cfg.reduceScale * m) = vneg (s.mean.map (fun m => cfg.reduceScale * m)) := by
      simp [vneg, Function.comp_def]
    rw [er, bcast_sub_vneg]
    refine (RelE.of_eq (f := vneg) (R := fun r r' => r' = vneg r) (fun _ => rfl) rfl).bind ?_
    rintro x _ hx - rfl
    have hxf := hv x (.reduced hn hc h2 hx)
    refine (extract_vneg ho hf hT hxf).bind ?_
    rintro r _ - - rfl
    cases r with
    | none => exact .pure rfl
    | some p =>
      obtain ⟨u, v⟩ := p
      dsimp only [Option.map_some]
      refine (RelE.of_eq (f := vneg) (R := fun r r' => r' = vneg r) (fun _ => rfl) (EMD.bcast_add_swap u v)).bind ?_
      rintro w _ - - rfl
      have ew : (vneg w).map (fun x => lit (1 / 2) * x) = vneg (w.map (fun x => lit (1 / 2) * x)) := by
        simp [vneg, Function.comp_def]
      rw [ew]
      split
      · exact .pure rfl
      · split
        · split
          · exact .pure rfl
          · exact .pure rfl
        · split
          · refine (countExt_vneg hxf).bind ?_
            rintro ⟨e, z⟩ _ - - rfl
            dsimp only
            split
            · exact .pure rfl
            · generalize (if |e - z| > 1 then 0 else s.nh + 1) = nh
              split
              · exact .pure rfl
              · exact .pure rfl
          · refine (countExt_vneg hxf).bind ?_
            rintro ⟨e, z⟩ _ - - rfl
            dsimp only
            rw [stopSifting_vneg]
            refine (RelE.refl _).bind ?_
            rintro f1 _ - - rfl
            split
            · exact .pure rfl
            · exact .pure rfl
  · exact .pure rfl

theorem siftLoop_vneg {sp : SciPy K} (ho : OddAll sp) {cfg : Cfg K} (hf : ∀ x, cfg.convert (-x) = -cfg.convert x) {T : List K} (hT : T.Nodup)
    (fuel : Nat) (s : Sift K) (hv : ∀ x, SiftSees sp cfg T s x → ¬FlatEnds x) :
    RelE (fun r r' => r' = (r.1.neg, r.2)) (siftLoop sp cfg T fuel s) (siftLoop sp cfg T fuel s.neg) := by
  induction fuel generalizing s with
  | zero => exact Iff.rfl
  | succ fuel ih =>
    unfold siftLoop
    show RelE _ (if s.n < _ then _ else _) (if s.n < _ then _ else _)
    split
    · next hn =>
      refine (siftBody_vneg ho hf hT s hn hv).bind ?_
      rintro r _ hr - rfl
      cases r with
      | brk s' why => exact .pure rfl
      | cont s' => exact ih s' (fun x hx => hv x (.later hr hx))
    · exact .pure rfl

/-- The components with the sign changed. -/
def dneg (d : List (Nat × List K)) : List (Nat × List K) := d.map (fun p => (p.1, vneg p.2))

theorem dictSet_dneg (d : List (Nat × List K)) (k : Nat) (v : List K) : dictSet (dneg d) k (vneg v) = dneg (dictSet d k v) := by
  induction d with
  | nil => rfl
  | cons p d ih =>
    show (if p.1 = k then (k, vneg v) :: dneg d else (p.1, vneg p.2) :: dictSet (dneg d) k (vneg v)) =
      dneg (if p.1 = k then (k, v) :: d else p :: dictSet d k v)
    split
    · rfl
    · rw [ih]; rfl

/-- The same state with the sign changed. -/
def State.neg (st : State K) : State K := { st with Res := vneg st.Res, imf := vneg st.imf, IMF := dneg st.IMF }

theorem vzeros_vneg (n : Nat) : vneg (vzeros n : List K) = vzeros n := by simp [vneg, vzeros]

theorem emdRound_vneg {sp : SciPy K} (ho : OddAll sp) {cfg : Cfg K} (hf : ∀ x, cfg.convert (-x) = -cfg.convert x) {T : List K} (hT : T.Nodup)
    (n : Nat) (mi : Int) (st : State K) (hv : ∀ x, Sees sp cfg T n mi st x → ¬FlatEnds x) :
    RelE (fun r r' => r' = (r.1.neg, r.2)) (emdRound sp cfg T n mi st) (emdRound sp cfg T n mi st.neg) := by
  unfold emdRound
  have e1 : st.neg.imf.length = st.imf.length := vneg_length _
  have e2 : st.neg.Res.length = st.Res.length := vneg_length _
  have e3 : vsub st.neg.Res st.neg.imf = vneg (vsub st.Res st.imf) := EMD.vsub_vneg _ _
  simp only [e1, e2, e3]
  split
  · exact Iff.rfl
  · have h := siftLoop_vneg ho hf hT (cfg.MAX_ITERATION.toNat + 1)
      { n := 0, nh := 0, extNo := st.extNo, imf := vsub st.Res st.imf, mean := vzeros n } (fun x hx => hv x (.now hx))
    dsimp only [Sift.neg] at h
    rw [vzeros_vneg] at h
    refine h.bind ?_
    rintro ⟨s, why⟩ _ - - rfl
    refine .pure ?_
    dsimp only [State.neg]
    rw [dictSet_dneg]
    rfl

theorem emdLoop_vneg {sp : SciPy K} (ho : OddAll sp) {cfg : Cfg K} (hf : ∀ x, cfg.convert (-x) = -cfg.convert x) {T : List K} (hT : T.Nodup)
    (n : Nat) (mi : Int) (fuel : Nat) (st : State K) (hv : ∀ x, Sees sp cfg T n mi st x → ¬FlatEnds x) :
    RelE (fun r r' => r' = r.neg) (emdLoop sp cfg T n mi fuel st) (emdLoop sp cfg T n mi fuel st.neg) := by
  induction fuel generalizing st with
  | zero => exact Iff.rfl
  | succ fuel ih =>
    unfold emdLoop
    refine (emdRound_vneg ho hf hT n mi st hv).bind ?_
    rintro ⟨s, f⟩ _ hr - rfl
    cases f with
    | true => exact .pure rfl
    | false => exact ih s (fun x hx => hv x (.later hr hx))

theorem dictGets_dneg (d : List (Nat × List K)) (ks : List Nat) : dictGets (dneg d) ks = (dictGets d ks).map (List.map vneg) := by
  have hl : ∀ k, (dneg d).lookup k = (d.lookup k).map vneg := by
    intro k
    induction d with
    | nil => rfl
    | cons p d ih =>
      show List.lookup k ((p.1, vneg p.2) :: dneg d) = _
      rw [List.lookup_cons, List.lookup_cons]
      cases k == p.1
      · exact ih
      · rfl
  induction ks with
  | nil => rfl
  | cons k ks ih =>
    unfold dictGets
    rw [hl, ih]
    cases d.lookup k with
    | none => rfl
    | some v =>
      dsimp only [Option.map_some]
      cases dictGets d ks <;> rfl

/-- The result with the sign of all rows changed. -/
def Result.neg (R : Result K) : Result K := { R with IMF := R.IMF.map (fun p => (p.1, p.2.map (fun x => -x))) }

theorem finish_vneg (S : List K) (c : K) (st : State K) : finish (vneg S) c st.neg = (finish S c st).map Result.neg := by
  unfold finish
  dsimp only [State.neg]
  rw [dictGets_dneg]
  cases dictGets st.IMF (List.range st.imfNo) with
  | error e => rfl
  | ok rows =>
    simp only [Except.map, EMD.ok_bind, vneg_length, List.all_map, Function.comp_def]
    split
    · rw [EMD.sumRows_vneg, EMD.vsub_vneg]
      have ha : ∀ l : List K, (vneg l).map pyAbs = l.map pyAbs := by
        intro l; simp [vneg, Function.comp_def, EMD.pyAbs_neg]
      rw [ha]
      generalize vsub S (sumRows S.length rows) = Res
      split
      · rw [dictSet_dneg]
        simp [pure, Except.pure, Result.neg, dneg, vneg, Function.comp_def]
      · simp [pure, Except.pure, Result.neg, dneg, vneg, Function.comp_def]
    · rfl

/-- **C144, what holds of it.**  Odd interpolators, distinct instants, and no sequence that `emd` searches for extrema begins and ends flat:
for `-S`, `EMD_matlab.emd` returns the components of `S` with their signs changed, with the same numbers of extrema and iterations and the
same ends of the rounds; it raises if and only if it raises for `S`.  All stopping rules.  Missing: signals flat at both ends, see
`C144_counterexample`. -/
theorem C144_negation_partial (fuel : Nat) (sp : SciPy K) (ho : OddAll sp) (cfg : Cfg K) (hf : ∀ x, cfg.convert (-x) = -cfg.convert x) (S T : List K)
    (hT : T.Nodup) (mi : Int) (hv : ∀ x, Sees sp cfg T S.length mi (start S) x → ¬FlatEnds x) :
    (∀ R, emd fuel sp cfg S (some T) mi = .ok R → emd fuel sp cfg (S.map (fun x => -x)) (some T) mi =
      .ok { R with IMF := R.IMF.map (fun p => (p.1, p.2.map (fun x => -x))) }) ∧
    ((∃ e, e ≠ .outOfFuel ∧ emd fuel sp cfg S (some T) mi = .error e) ↔
      ∃ e, e ≠ .outOfFuel ∧ emd fuel sp cfg (S.map (fun x => -x)) (some T) mi = .error e) := by
  have key : RelE (fun R R' => R' = Result.neg R) (emd fuel sp cfg S (some T) mi) (emd fuel sp cfg (vneg S) (some T) mi) := by
    unfold emd
    dsimp only [Option.getD_some]
    rw [vneg_length]
    have hd : ∀ l : List K, l.map (fun x => x / lit 1) = l := by intro l; simp [lit_one]
    rw [hd, hd]
    split
    · exact Iff.rfl
    · have h := emdLoop_vneg ho hf hT S.length mi fuel (start S) hv
      unfold start State.neg at h
      rw [vzeros_vneg] at h
      refine h.bind ?_
      rintro st _ - - rfl
      exact .of_eq (f := Result.neg) (fun _ => rfl) (finish_vneg S _ st)
  change RelE _ _ (emd fuel sp cfg (S.map (fun x => -x)) (some T) mi) at key
  cases h1 : emd fuel sp cfg S (some T) mi with
  | ok R =>
    cases h2 : emd fuel sp cfg (S.map (fun x => -x)) (some T) mi with
    | error e => rw [h1, h2] at key; exact key.elim
    | ok R' =>
      rw [h1, h2] at key
      refine ⟨?_, ⟨by rintro ⟨e, -, ⟨⟩⟩, by rintro ⟨e, -, ⟨⟩⟩⟩⟩
      rintro _ ⟨⟩
      rw [show R' = Result.neg R from key]
      rfl
  | error e =>
    cases h2 : emd fuel sp cfg (S.map (fun x => -x)) (some T) mi with
    | ok R' => rw [h1, h2] at key; exact key.elim
    | error e' =>
      rw [h1, h2] at key
      have key : e = .outOfFuel ↔ e' = .outOfFuel := key
      refine ⟨by rintro R ⟨⟩, ?_⟩
      constructor
      · rintro ⟨_, h, ⟨⟩⟩
        exact ⟨e', fun hc => h (key.2 hc), rfl⟩
      · rintro ⟨_, h, ⟨⟩⟩
        exact ⟨e, fun hc => h (key.1 hc), rfl⟩

/-! ## Examples -/

/-- Decides `FlatEnds`. -/
def flat (x : List ℚ) : Bool :=
  match x[0]?, x[1]?, x[x.length - 2]?, x[x.length - 1]? with
  | some a, some b, some c, some d => a == b && c == d
  | _, _, _, _ => false

theorem flat_sound {x : List ℚ} (h : flat x = false) : ¬FlatEnds x := by
  rintro ⟨a, c, h1, h2, h3, h4⟩
  unfold flat at h
  rw [h1, h2, h3, h4] at h
  simp at h

/-- Walks through the inner loop. -/
def siftFree (sp : SciPy ℚ) (cfg : Cfg ℚ) (T : List ℚ) : Nat → Sift ℚ → Bool
  | 0, _ => false
  | fuel + 1, s => !flat s.imf &&
      (match bcast (fun a b => a - b) s.imf (s.mean.map (fun m => cfg.reduceScale * m)) with
        | .ok x => !flat x
        | .error _ => true) &&
      match siftBody sp cfg T s with
      | .ok (.cont s') => siftFree sp cfg T fuel s'
      | _ => true

theorem siftFree_sound {sp : SciPy ℚ} {cfg : Cfg ℚ} {T : List ℚ} {s : Sift ℚ} {x : List ℚ} (hx : SiftSees sp cfg T s x) :
    ∀ fuel, siftFree sp cfg T fuel s = true → ¬FlatEnds x := by
  induction hx with
  | now _ =>
    intro fuel h
    match fuel with
    | fuel + 1 =>
      rw [siftFree, Bool.and_eq_true, Bool.and_eq_true] at h
      exact flat_sound (by simpa using h.1.1)
  | reduced _ _ _ hb =>
    intro fuel h
    match fuel with
    | fuel + 1 =>
      rw [siftFree, Bool.and_eq_true, Bool.and_eq_true, hb] at h
      exact flat_sound (by simpa using h.1.2)
  | later hs _ ih =>
    intro fuel h
    match fuel with
    | fuel + 1 =>
      rw [siftFree, Bool.and_eq_true, hs] at h
      exact ih fuel h.2

/-- Walks through the outer loop. -/
def runFree (sp : SciPy ℚ) (cfg : Cfg ℚ) (T : List ℚ) (n : Nat) (mi : Int) : Nat → State ℚ → Bool
  | 0, _ => false
  | fuel + 1, st => siftFree sp cfg T 50 { n := 0, nh := 0, extNo := st.extNo, imf := vsub st.Res st.imf, mean := vzeros n } &&
      match emdRound sp cfg T n mi st with
      | .ok (st', false) => runFree sp cfg T n mi fuel st'
      | _ => true

theorem runFree_sound {sp : SciPy ℚ} {cfg : Cfg ℚ} {T : List ℚ} {n : Nat} {mi : Int} {st : State ℚ} {x : List ℚ} (hx : Sees sp cfg T n mi st x) :
    ∀ fuel, runFree sp cfg T n mi fuel st = true → ¬FlatEnds x := by
  induction hx with
  | now h1 =>
    intro fuel h
    match fuel with
    | fuel + 1 =>
      rw [runFree, Bool.and_eq_true] at h
      exact siftFree_sound h1 _ h.1
  | later hs _ ih =>
    intro fuel h
    match fuel with
    | fuel + 1 =>
      rw [runFree, Bool.and_eq_true, hs] at h
      exact ih fuel h.2

/-- The sample meets the hypotheses with the default settings, and has three or more rows. -/
example : (∀ x, Sees linSciPy (Cfg.default : Cfg ℚ) ((List.range 10).map (fun k : Nat => (k : ℚ))) EMD.sampleS.length (-1) (start EMD.sampleS) x →
      ¬FlatEnds x) ∧
    okWith (fun R => decide (3 ≤ R.IMF.length) && okWith (fun R' => R'.IMF == R.IMF.map (fun p => (p.1, p.2.map (fun x => -x))) && R'.EXT == R.EXT)
        (emd 20 linSciPy Cfg.default (EMD.sampleS.map (fun x => -x)) (some ((List.range 10).map (fun k : Nat => (k : ℚ)))) (-1)))
      (emd 20 linSciPy Cfg.default EMD.sampleS (some ((List.range 10).map (fun k : Nat => (k : ℚ)))) (-1)) = true :=
  ⟨fun _ hx => runFree_sound hx 20 (by decide +kernel), by decide +kernel⟩

/-- **C144 is false for signals flat at both ends**: the first components of `-S` and `S` are not negatives of each other. -/
theorem C144_counterexample : ∃ R R' : Result ℚ, OddAll (linSciPy : SciPy ℚ) ∧ emd 20 linSciPy sampleFixe [1, 1, 3, 0, 2, -1, 4, 1, 1] none (-1) = .ok R ∧
    emd 20 linSciPy sampleFixe ([1, 1, 3, 0, 2, -1, 4, 1, 1].map (fun x => -x)) none (-1) = .ok R' ∧
    R'.IMF.head? ≠ R.IMF.head?.map (fun p => (p.1, p.2.map (fun x => -x))) := by
  have h : okWith (fun R => okWith (fun R' => decide (R'.IMF.head? ≠ R.IMF.head?.map (fun p => (p.1, p.2.map (fun x => -x)))))
        (emd 20 linSciPy sampleFixe ([1, 1, 3, 0, 2, -1, 4, 1, 1].map (fun x => -x)) none (-1)))
      (emd 20 linSciPy sampleFixe [1, 1, 3, 0, 2, -1, 4, 1, (1 : ℚ)] none (-1)) = true := by decide +kernel
  obtain ⟨R, h1, h⟩ := okWith_iff.1 h
  obtain ⟨R', h2, h⟩ := okWith_iff.1 h
  exact ⟨R, R', EMD.linSciPy_odd, h1, h2, of_decide_eq_true h⟩

end Matlab
end PyEMD
