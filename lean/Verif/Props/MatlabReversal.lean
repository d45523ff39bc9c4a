import Verif.Props.MatlabNegation
import Verif.Props.Reversal

/-!
# C165: `EMD_matlab` on the signal run backwards
-/

set_option linter.unusedSectionVars false

namespace PyEMD
namespace Matlab
open EMD (Extrema SplineKind timeArr sAt reported isPos isNeg vsub_reverse sumRows_reverse npSum_reverse bcast_reverse)
open EMD.Spec (ReversibleAll NoTies GoodKnots back)

variable {K : Type} [Field K] [LinearOrder K] [IsStrictOrderedRing K] [FloorRing K]

theorem not_flat_of_noTies {x : List K} (h : NoTies x) : ¬FlatEnds x := by
  rintro ⟨a, c, h0, h1, -, -⟩
  exact h 0 (List.getElem?_eq_some_iff.1 h1).1 (h0.trans h1.symm)

theorem findExtrema_rev {x : List K} (h : NoTies x) :
    ∃ e e', findExtrema (timeArr x.length) x = .ok e ∧ findExtrema (timeArr x.length) x.reverse = .ok e' ∧
      EMD.findExtrema .simple (timeArr x.length) x = .ok e ∧ EMD.findExtrema .simple (timeArr x.length) x.reverse = .ok e' ∧
      e'.maxPos.zip e'.maxVal = back ((x.length : K) - 1) (e.maxPos.zip e.maxVal) ∧
      e'.minPos.zip e'.minVal = back ((x.length : K) - 1) (e.minPos.zip e.minVal) ∧
      e'.maxPos.length = e.maxPos.length ∧ e'.minPos.length = e.minPos.length ∧ e'.indzer.length = e.indzer.length := by
  obtain ⟨e, e', h1, h2, h3⟩ := EMD.findExtrema_reverse h
  exact ⟨e, e', (findExtrema_same (not_flat_of_noTies h)).trans h1, (findExtrema_same (not_flat_of_noTies h.reverse)).trans h2, h1, h2, h3⟩

theorem countExt_rev {x : List K} {n : Nat} (hn : x.length = n) (h : NoTies x) : countExt (timeArr n) x.reverse = countExt (timeArr n) x := by
  subst hn
  obtain ⟨e, e', h1, h2, -, -, -, -, l1, l2, l3⟩ := findExtrema_rev h
  unfold countExt
  rw [h1, h2]
  simp only [bind, Except.bind, pure, Except.pure, l1, l2, l3]

/-- The knots are those of `EMD`. -/
theorem preparePoints_of_emd (nb : Int) (x : List K) {n : Nat} (hn : x.length = n) {e : Extrema K} (he : EMD.findExtrema .simple (timeArr n) x = .ok e)
    {k : List (K × K) × List (K × K)} (h : EMD.preparePoints .simple nb (timeArr n) x e = .ok k) :
    preparePoints id nb x (timeArr n) e.maxPos e.minPos = .ok k := by
  subst hn
  have hE : EMD.findExtrema .simple (timeArr x.length : List K) x = _ := EMD.findExtremaSimple_eq _ x (EMD.timeArr_length _)
  rw [hE] at he
  injection he with he
  subst he
  have tA := timeIdx_sAt (timeArr x.length : List K) (timeArr_sorted x.length) (reported isPos isNeg x)
    (by rw [EMD.timeArr_length]; exact fun i hi => EMD.maxima_lt hi)
  have tB := timeIdx_sAt (timeArr x.length : List K) (timeArr_sorted x.length) (reported isNeg isPos x)
    (by rw [EMD.timeArr_length]; exact fun i hi => EMD.minima_lt hi)
  change EMD.preparePointsSimple nb (timeArr x.length) x _ _ = _ at h
  unfold preparePoints
  rw [tA, tB]
  unfold EMD.preparePointsSimple at h
  rw [toInt_timeArr _ (fun i hi => EMD.maxima_lt hi), toInt_timeArr _ (fun i hi => EMD.minima_lt hi)] at h
  simp only [bind_eq_ok, pure_eq_ok, Except.ok.injEq, exists_eq_left', asBug_eq_ok, List.map_id, List.append_assoc] at h ⊢
  exact h

/-- The kinds of splines that `EMD_matlab` knows. -/
def Known : SplineKind → Prop
  | .akima | .cubic | .slinear | .quadratic | .linear => True
  | _ => False

/-- The curve is that of `EMD`, if the knots cover the time stamps. -/
theorem splinePoints_emd (sp : SciPy K) {kind : SplineKind} (hk : Known kind) {T : List K} {k : List (K × K)}
    (hcov : ∃ p q, k.head? = some p ∧ k.getLast? = some q ∧ ∀ τ ∈ T, p.1 ≤ τ ∧ τ ≤ q.1) :
    splinePoints id sp T k kind = EMD.splinePoints sp kind T k := by
  obtain ⟨p, q, hp, hq, hc⟩ := hcov
  have h0 : pyGet (k.map (·.1)) 0 = .ok p.1 := by
    cases k with
    | nil => cases hp
    | cons a k => cases hp; simp [pyGet, pyIdx]
  have hL : pyGet (k.map (·.1)) (-1) = .ok q.1 := by
    have hne : k ≠ [] := by rintro rfl; cases hp
    rw [EMD.pyGet_last _ (by simpa using hne), List.getLast_map]
    rw [List.getLast?_eq_some_getLast hne] at hq
    rw [Option.some.inj hq]
  have hf : T.filter (fun τ => decide (p.1 ≤ τ) && decide (τ ≤ q.1)) = T := by
    rw [List.filter_eq_self]
    intro τ hτ
    simp [hc τ hτ]
  unfold splinePoints EMD.splinePoints
  simp only [h0, hL, hf, bind, Except.bind, List.map_id]
  cases kind <;> simp only [Known] at hk ⊢
  split
  · rfl
  · cases cubicSpline3pts (k.map (·.1)) (k.map (·.2)) T <;> rfl

theorem splinePoints_unknown (sp : SciPy K) {kind : SplineKind} (hk : ¬Known kind) {T : List K} {k : List (K × K)} (hne : k ≠ []) :
    splinePoints id sp T k kind = .error .valueError := by
  have h0 : pyGet (k.map (·.1)) 0 = .ok (k.head hne).1 := by
    cases k with
    | nil => exact absurd rfl hne
    | cons a k => simp [pyGet, pyIdx]
  have hL : pyGet (k.map (·.1)) (-1) = .ok (k.getLast hne).1 := by
    rw [EMD.pyGet_last _ (by simpa using hne), List.getLast_map]
  unfold splinePoints
  simp only [h0, hL, bind, Except.bind]
  cases kind <;> simp [Known] at hk ⊢

theorem covers_back {n : Nat} {k : List (K × K)}
    (h : ∃ p q, k.head? = some p ∧ k.getLast? = some q ∧ ∀ τ ∈ (timeArr n : List K), p.1 ≤ τ ∧ τ ≤ q.1) :
    ∃ p q, (back ((n : K) - 1) k).head? = some p ∧ (back ((n : K) - 1) k).getLast? = some q ∧ ∀ τ ∈ (timeArr n : List K), p.1 ≤ τ ∧ τ ≤ q.1 := by
  obtain ⟨p, q, hp, hq, hc⟩ := h
  refine ⟨((n : K) - 1 - q.1, q.2), ((n : K) - 1 - p.1, p.2), ?_, ?_, ?_⟩
  · unfold back
    rw [List.head?_reverse, List.getLast?_map, hq]
    rfl
  · unfold back
    rw [List.getLast?_reverse, List.head?_map, hp]
    rfl
  · intro τ hτ
    unfold timeArr at hτ hc
    obtain ⟨i, hi, rfl⟩ := List.mem_map.1 hτ
    rw [List.mem_range] at hi
    obtain ⟨h1, h2⟩ := hc ((n - 1 - i : Nat) : K) (List.mem_map.2 ⟨n - 1 - i, List.mem_range.2 (by omega), rfl⟩)
    have e : ((n - 1 - i : Nat) : K) = (n : K) - 1 - i := by
      rw [Nat.cast_sub (by omega), Nat.cast_sub (by omega)]
      simp
    rw [e] at h1 h2
    constructor
    · show (n : K) - 1 - q.1 ≤ i
      linarith
    · show (i : K) ≤ (n : K) - 1 - p.1
      linarith

theorem splinePoints_rev {sp : SciPy K} (hr : ReversibleAll sp) (kind : SplineKind) {n : Nat} {k : List (K × K)}
    (three : 3 ≤ k.length) (increasing : k.Pairwise (fun p q => p.1 < q.1))
    (hc : ∃ p q, k.head? = some p ∧ k.getLast? = some q ∧ ∀ τ ∈ (timeArr n : List K), p.1 ≤ τ ∧ τ ≤ q.1) :
    RelX (fun r r' => r'.2 = r.2.reverse) (splinePoints id sp (timeArr n) k kind) (splinePoints id sp (timeArr n) (back ((n : K) - 1) k) kind) := by
  by_cases hk : Known kind
  · rw [splinePoints_emd sp hk hc, splinePoints_emd sp hk (covers_back hc)]
    exact EMD.splinePoints_reverse hr kind three increasing hc
  · have hne : k ≠ [] := by rintro rfl; simp at three
    rw [splinePoints_unknown sp hk hne, splinePoints_unknown sp hk (by simpa [back] using hne)]
    rfl

theorem extract_rev {sp : SciPy K} (hr : ReversibleAll sp) {cfg : Cfg K} (hf : cfg.convert = id) (hnb : 1 ≤ cfg.nbsym) {x : List K} {n : Nat}
    (hn : x.length = n) (h : NoTies x) :
    RelX (fun r r' => r' = r.map (fun p => (p.1.reverse, p.2.reverse))) (extractMaxMinSpline sp cfg (timeArr n) x)
      (extractMaxMinSpline sp cfg (timeArr n) x.reverse) := by
  subst hn
  obtain ⟨e, e', h1, h2, m1, m2, hx, hn, l1, l2, -⟩ := findExtrema_rev h
  unfold extractMaxMinSpline
  rw [h1, h2, hf]
  simp only [EMD.ok_bind, l1, l2]
  by_cases hlt : e.maxPos.length + e.minPos.length < 3
  · rw [if_pos hlt, if_pos hlt]
    rfl
  · rw [if_neg hlt, if_neg hlt]
    obtain ⟨kx, kn, p1, p2, g1, g2⟩ := EMD.preparePoints_reverse hnb m1 m2 hx hn (by omega) (by omega)
    rw [preparePoints_of_emd cfg.nbsym x rfl m1 p1, preparePoints_of_emd cfg.nbsym x.reverse List.length_reverse m2 p2]
    simp only [EMD.ok_bind]
    refine (splinePoints_rev hr _ g1.three g1.increasing g1.covers).bind ?_
    rintro ⟨t1, q1⟩ ⟨t1', q1'⟩ - - hq1
    have hq1 : q1' = q1.reverse := hq1
    subst hq1
    refine (splinePoints_rev hr _ g2.three g2.increasing g2.covers).bind ?_
    rintro ⟨t2, q2⟩ ⟨t2', q2'⟩ - - hq2
    have hq2 : q2' = q2.reverse := hq2
    subst hq2
    exact .pure rfl

/-! ## Sifting -/

/-- The same variables run backwards. -/
def Sift.rev (s : Sift K) : Sift K := { s with imf := s.imf.reverse, mean := s.mean.reverse }

/-- The same outcome run backwards. -/
def SiftStep.rev : SiftStep K → SiftStep K
  | .cont s => .cont s.rev
  | .brk s why => .brk s.rev why

/-- The candidate after a pass. -/
def SiftStep.imf : SiftStep K → List K
  | .cont s => s.imf
  | .brk s _ => s.imf

theorem bcast_same_length {f g : K → K → K} {a b c d : List K} (h1 : bcast f a b = .ok c) (h2 : bcast g a b = .ok d) : c.length = d.length := by
  unfold bcast at h1 h2
  split at h1
  · next h =>
    rw [if_pos h] at h2
    cases h1
    cases h2
    simp
  · next h =>
    rw [if_neg h] at h2
    split at h1
    · cases h1; cases h2; simp
    · cases h1
      split at h2 <;> cases h2 <;> simp
    · cases h1

theorem stopSifting_rev (cfg : Cfg K) {u v m : List K} (hm : bcast (fun a b => a + b) u v = .ok m) (c : K) (e : Int) :
    stopSifting cfg u.reverse v.reverse (m.map (fun x => c * x)).reverse e = stopSifting cfg u v (m.map (fun x => c * x)) e := by
  unfold stopSifting
  rw [bcast_reverse]
  cases hd : bcast (fun a b => a - b) u v with
  | error err => rfl
  | ok d =>
    have hl := bcast_same_length hm hd
    simp only [Except.map, EMD.ok_bind, List.map_reverse]
    have hz : ∀ st, List.zipWith (fun m a => divGt (pyAbs m) a st) (m.map (fun x => c * x)).reverse (d.map (fun x => pyAbs x / lit 2)).reverse =
        (List.zipWith (fun m a => divGt (pyAbs m) a st) (m.map (fun x => c * x)) (d.map (fun x => pyAbs x / lit 2))).reverse := by
      intro st
      rw [List.reverse_zipWith (by simp [hl])]
    simp only [hz, List.filter_reverse, List.length_reverse, List.any_reverse]

theorem long_of_count {T x : List K} {c : Int × Int} (hc : countExt T x = .ok c) (h : 2 < c.1) : x.length ≠ 1 := by
  intro hl
  match x, hl with
  | [a], _ =>
    have : countExt T [a] = .ok (0, ((EMD.zeroCrossings [a]).length : Int)) := rfl
    rw [this] at hc
    cases hc
    simp at h

theorem siftBody_rev {sp : SciPy K} (hr : ReversibleAll sp) {cfg : Cfg K} (hf : cfg.convert = id) (hnb : 1 ≤ cfg.nbsym) {n : Nat}
    (s : Sift K) (hl : s.imf.length = n) (hn : s.n < cfg.MAX_ITERATION) (hv : ∀ x, SiftSees sp cfg (timeArr n) s x → NoTies x) :
    RelX (fun r r' => r' = r.rev ∧ r.imf.length = n) (siftBody sp cfg (timeArr n) s) (siftBody sp cfg (timeArr n) s.rev) := by
  unfold siftBody
  dsimp only [Sift.rev]
  rw [countExt_rev hl (hv _ (.now hn))]
  refine (RelX.refl _).bind ?_
  rintro ⟨e, z⟩ _ hc - rfl
  dsimp only
  split
  · next h2 =>
    rw [List.map_reverse, bcast_reverse]
    refine (RelX.of_eq (f := List.reverse) (R := fun r r' => r' = r.reverse) (fun _ => rfl) rfl).bind ?_
    rintro x _ hx - rfl
    have hxf := hv x (.reduced hn hc h2 hx)
    have hxl : x.length = n := (bcast_length hx (long_of_count hc h2)).trans hl
    refine (extract_rev hr hf hnb hxl hxf).bind ?_
    rintro r _ - - rfl
    cases r with
    | none => exact .pure ⟨rfl, hxl⟩
    | some p =>
      obtain ⟨u, v⟩ := p
      dsimp only [Option.map_some]
      rw [bcast_reverse]
      refine (RelX.of_eq (f := List.reverse) (R := fun r r' => r' = r.reverse) (fun _ => rfl) rfl).bind ?_
      rintro w _ hw - rfl
      rw [List.map_reverse]
      split
      · exact .pure ⟨rfl, hxl⟩
      · split
        · split
          · exact .pure ⟨rfl, hxl⟩
          · exact .pure ⟨rfl, hxl⟩
        · split
          · rw [countExt_rev hxl hxf]
            refine (RelX.refl _).bind ?_
            rintro ⟨e, z⟩ _ - - rfl
            dsimp only
            split
            · exact .pure ⟨rfl, hxl⟩
            · generalize (if |e - z| > 1 then 0 else s.nh + 1) = nh
              split
              · exact .pure ⟨rfl, hxl⟩
              · exact .pure ⟨rfl, hxl⟩
          · rw [countExt_rev hxl hxf]
            refine (RelX.refl _).bind ?_
            rintro ⟨e, z⟩ _ - - rfl
            dsimp only
            rw [stopSifting_rev cfg hw]
            refine (RelX.refl _).bind ?_
            rintro f1 _ - - rfl
            split
            · exact .pure ⟨rfl, hxl⟩
            · exact .pure ⟨rfl, hxl⟩
  · exact .pure ⟨rfl, hl⟩

theorem siftLoop_rev {sp : SciPy K} (hr : ReversibleAll sp) {cfg : Cfg K} (hf : cfg.convert = id) (hnb : 1 ≤ cfg.nbsym) {n : Nat} (fuel : Nat)
    (s : Sift K) (hl : s.imf.length = n) (hv : ∀ x, SiftSees sp cfg (timeArr n) s x → NoTies x) :
    RelX (fun r r' => r' = (r.1.rev, r.2) ∧ r.1.imf.length = n) (siftLoop sp cfg (timeArr n) fuel s) (siftLoop sp cfg (timeArr n) fuel s.rev) := by
  induction fuel generalizing s with
  | zero => rfl
  | succ fuel ih =>
    unfold siftLoop
    show RelX _ (if s.n < _ then _ else _) (if s.n < _ then _ else _)
    split
    · next hn =>
      refine (siftBody_rev hr hf hnb s hl hn hv).bind ?_
      rintro r _ h - ⟨rfl, hl'⟩
      cases r with
      | brk s' why => exact .pure ⟨rfl, hl'⟩
      | cont s' => exact ih s' hl' (fun x hx => hv x (.later h hx))
    · exact .pure ⟨rfl, hl⟩

/-- The components run backwards. -/
def drev (d : List (Nat × List K)) : List (Nat × List K) := d.map (fun p => (p.1, p.2.reverse))

theorem dictSet_drev (d : List (Nat × List K)) (k : Nat) (v : List K) : dictSet (drev d) k v.reverse = drev (dictSet d k v) := by
  induction d with
  | nil => rfl
  | cons p d ih =>
    show (if p.1 = k then (k, v.reverse) :: drev d else (p.1, p.2.reverse) :: dictSet (drev d) k v.reverse) =
      drev (if p.1 = k then (k, v) :: d else p :: dictSet d k v)
    split
    · rfl
    · rw [ih]; rfl

/-- The same state run backwards. -/
def State.rev (st : State K) : State K := { st with Res := st.Res.reverse, imf := st.imf.reverse, IMF := drev st.IMF }

theorem emdRound_rev {sp : SciPy K} (hr : ReversibleAll sp) {cfg : Cfg K} (hf : cfg.convert = id) (hnb : 1 ≤ cfg.nbsym) {n : Nat} (mi : Int)
    (st : State K) (hl : st.imf.length = n) (hv : ∀ x, Sees sp cfg (timeArr n) n mi st x → NoTies x) :
    RelX (fun r r' => r' = (r.1.rev, r.2) ∧ r.1.imf.length = n) (emdRound sp cfg (timeArr n) n mi st) (emdRound sp cfg (timeArr n) n mi st.rev) := by
  unfold emdRound
  dsimp only [State.rev]
  simp only [List.length_reverse]
  split
  · rfl
  · next h =>
    have h : st.imf.length = st.Res.length := not_not.1 h
    rw [vsub_reverse h.symm]
    have hz : (vzeros n : List K) = (vzeros n : List K).reverse := by simp [vzeros]
    have hs := siftLoop_rev hr hf hnb (cfg.MAX_ITERATION.toNat + 1)
      { n := 0, nh := 0, extNo := st.extNo, imf := vsub st.Res st.imf, mean := vzeros n } (by simp [vsub, h ▸ hl, hl]) (fun x hx => hv x (.now hx))
    dsimp only [Sift.rev] at hs
    rw [← hz] at hs
    refine hs.bind ?_
    rintro ⟨s, why⟩ _ - - ⟨rfl, hl'⟩
    refine .pure ⟨?_, hl'⟩
    dsimp only
    rw [dictSet_drev]

theorem emdLoop_rev {sp : SciPy K} (hr : ReversibleAll sp) {cfg : Cfg K} (hf : cfg.convert = id) (hnb : 1 ≤ cfg.nbsym) {n : Nat} (mi : Int) (fuel : Nat)
    (st : State K) (hl : st.imf.length = n) (hv : ∀ x, Sees sp cfg (timeArr n) n mi st x → NoTies x) :
    RelX (fun r r' => r' = r.rev) (emdLoop sp cfg (timeArr n) n mi fuel st) (emdLoop sp cfg (timeArr n) n mi fuel st.rev) := by
  induction fuel generalizing st with
  | zero => rfl
  | succ fuel ih =>
    unfold emdLoop
    refine (emdRound_rev hr hf hnb mi st hl hv).bind ?_
    rintro ⟨s, f⟩ _ h - ⟨rfl, hl'⟩
    cases f with
    | true => exact .pure rfl
    | false => exact ih s hl' (fun x hx => hv x (.later h hx))

theorem dictGets_drev (d : List (Nat × List K)) (ks : List Nat) : dictGets (drev d) ks = (dictGets d ks).map (List.map List.reverse) := by
  have hl : ∀ k, (drev d).lookup k = (d.lookup k).map List.reverse := by
    intro k
    induction d with
    | nil => rfl
    | cons p d ih =>
      show List.lookup k ((p.1, p.2.reverse) :: drev d) = _
      rw [List.lookup_cons, List.lookup_cons]
      cases k == p.1
      · exact ih
      · rfl
  induction ks with
  | nil => rfl
  | cons k ks ih =>
    unfold dictGets
    rw [hl, ih]
    cases d.lookup k with
    | none => rfl
    | some v =>
      dsimp only [Option.map_some]
      cases dictGets d ks <;> rfl

/-- The result with all rows run backwards. -/
def Result.rev (R : Result K) : Result K := { R with IMF := R.IMF.map (fun p => (p.1, p.2.reverse)) }

theorem finish_rev (S : List K) (c : K) (st : State K) : finish S.reverse c st.rev = (finish S c st).map Result.rev := by
  unfold finish
  dsimp only [State.rev]
  rw [dictGets_drev]
  cases dictGets st.IMF (List.range st.imfNo) with
  | error e => rfl
  | ok rows =>
    simp only [Except.map, EMD.ok_bind, List.length_reverse, List.all_map, Function.comp_def]
    split
    · next h =>
      have h : ∀ r ∈ rows, r.length = S.length := by simpa using h
      rw [sumRows_reverse h, vsub_reverse (length_sumRows _ _ h).symm]
      generalize vsub S (sumRows S.length rows) = Res
      rw [List.map_reverse, npSum_reverse]
      split
      · rw [dictSet_drev]
        simp [pure, Except.pure, Result.rev, drev, Function.comp_def]
      · simp [pure, Except.pure, Result.rev, drev, Function.comp_def]
    · rfl

/-- **C165** (partial): `EMD_matlab` does not prefer a direction of time.  The signal run backwards has the components run backwards, with the same numbers of
extrema and of iterations and the same ends of the rounds, and it raises exactly the same exceptions.  All stopping rules, kinds of splines and limits.
Missing: signals in which a sequence searched for extrema has two equal neighbouring samples, for which it is false (`C165_counterexample`). -/
theorem C165_reversal_partial (fuel : Nat) (sp : SciPy K) (hr : ReversibleAll sp) (cfg : Cfg K) (hf : cfg.convert = id) (hnb : 1 ≤ cfg.nbsym)
    (S : List K) (mi : Int) (hv : ∀ x, Sees sp cfg ((List.range S.length).map (fun k : Nat => (k : K))) S.length mi (start S) x → NoTies x) :
    (∃ R, emd fuel sp cfg S none mi = .ok R ∧
      emd fuel sp cfg S.reverse none mi = .ok { R with IMF := R.IMF.map (fun p => (p.1, p.2.reverse)) }) ∨
    (∃ e, emd fuel sp cfg S none mi = .error e ∧ emd fuel sp cfg S.reverse none mi = .error e) := by
  have key : RelX (fun R R' => R' = Result.rev R) (emd fuel sp cfg S none mi) (emd fuel sp cfg S.reverse none mi) := by
    unfold emd
    dsimp only [Option.getD_none]
    have hd : ∀ l : List K, l.map (fun x => x / lit 1) = l := by intro l; simp [lit_one]
    have ht : (List.range S.length).map (fun k : Nat => (lit (k : ℚ) : K)) = timeArr S.length := by
      simp [timeArr, lit_eq]
    rw [hd, hd, List.length_reverse, ht]
    split
    · rfl
    · have h := emdLoop_rev hr hf hnb mi fuel (start S) (by simp [start, vzeros]) hv
      have hz : (vzeros S.length : List K).reverse = vzeros S.length := by simp [vzeros]
      unfold start State.rev at h
      rw [hz] at h
      refine h.bind ?_
      rintro st _ - - rfl
      exact .of_eq (f := Result.rev) (fun _ => rfl) (finish_rev S _ st)
  cases h1 : emd fuel sp cfg S none mi with
  | ok R =>
    cases h2 : emd fuel sp cfg S.reverse none mi with
    | error e => rw [h1, h2] at key; exact key.elim
    | ok R' =>
      rw [h1, h2] at key
      exact .inl ⟨R, rfl, congrArg Except.ok key⟩
  | error e =>
    cases h2 : emd fuel sp cfg S.reverse none mi with
    | ok R' => rw [h1, h2] at key; exact key.elim
    | error e' =>
      rw [h1, h2] at key
      exact .inr ⟨e, rfl, congrArg Except.error (Eq.symm key)⟩

/-! ## Examples -/

/-- Decides `NoTies`. -/
def tied (x : List ℚ) : Bool := (List.zipWith (fun a b => a == b) x x.tail).any id

theorem tied_sound {x : List ℚ} (h : tied x = false) : NoTies x := by
  intro i hi he
  unfold tied at h
  rw [List.any_eq_false] at h
  have h1 : x[i]? = some x[i] := List.getElem?_eq_getElem (by omega)
  have h2 : x[i + 1]? = some x[i + 1] := List.getElem?_eq_getElem hi
  have h3 : (List.zipWith (fun a b => a == b) x x.tail)[i]? = some (x[i] == x[i + 1]) := by
    simp [List.getElem?_zipWith, h1, h2, List.getElem?_tail]
  refine h _ (List.mem_of_getElem? h3) ?_
  rw [h1, h2] at he
  simpa using he

/-- Walks through the inner loop. -/
def siftUntied (sp : SciPy ℚ) (cfg : Cfg ℚ) (T : List ℚ) : Nat → Sift ℚ → Bool
  | 0, _ => false
  | fuel + 1, s => !tied s.imf &&
      (match countExt T s.imf, bcast (fun a b => a - b) s.imf (s.mean.map (fun m => cfg.reduceScale * m)) with
        | .ok c, .ok x => decide (c.1 ≤ 2) || !tied x
        | _, _ => true) &&
      match siftBody sp cfg T s with
      | .ok (.cont s') => siftUntied sp cfg T fuel s'
      | _ => true

theorem siftUntied_sound {sp : SciPy ℚ} {cfg : Cfg ℚ} {T : List ℚ} {s : Sift ℚ} {x : List ℚ} (hx : SiftSees sp cfg T s x) :
    ∀ fuel, siftUntied sp cfg T fuel s = true → NoTies x := by
  induction hx with
  | now _ =>
    intro fuel h
    match fuel with
    | fuel + 1 =>
      rw [siftUntied, Bool.and_eq_true, Bool.and_eq_true] at h
      exact tied_sound (by simpa using h.1.1)
  | reduced _ hc h2 hb =>
    intro fuel h
    match fuel with
    | fuel + 1 =>
      rw [siftUntied, Bool.and_eq_true, Bool.and_eq_true, hb, hc] at h
      have := h.1.2
      simp only [Bool.or_eq_true, decide_eq_true_eq] at this
      exact tied_sound (by simpa using this.resolve_left (by omega))
  | later hs _ ih =>
    intro fuel h
    match fuel with
    | fuel + 1 =>
      rw [siftUntied, Bool.and_eq_true, hs] at h
      exact ih fuel h.2

/-- Walks through the outer loop. -/
def runUntied (sp : SciPy ℚ) (cfg : Cfg ℚ) (T : List ℚ) (n : Nat) (mi : Int) : Nat → State ℚ → Bool
  | 0, _ => false
  | fuel + 1, st => siftUntied sp cfg T 50 { n := 0, nh := 0, extNo := st.extNo, imf := vsub st.Res st.imf, mean := vzeros n } &&
      match emdRound sp cfg T n mi st with
      | .ok (st', false) => runUntied sp cfg T n mi fuel st'
      | _ => true

theorem runUntied_sound {sp : SciPy ℚ} {cfg : Cfg ℚ} {T : List ℚ} {n : Nat} {mi : Int} {st : State ℚ} {x : List ℚ} (hx : Sees sp cfg T n mi st x) :
    ∀ fuel, runUntied sp cfg T n mi fuel st = true → NoTies x := by
  induction hx with
  | now h1 =>
    intro fuel h
    match fuel with
    | fuel + 1 =>
      rw [runUntied, Bool.and_eq_true] at h
      exact siftUntied_sound h1 _ h.1
  | later hs _ ih =>
    intro fuel h
    match fuel with
    | fuel + 1 =>
      rw [runUntied, Bool.and_eq_true, hs] at h
      exact ih fuel h.2

/-- The default stopping rule. -/
example := C165_reversal_partial 20 EMD.Spec.strictLinSciPy EMD.strictLinSciPy_reversible (Cfg.default : Cfg ℚ) rfl (by decide) EMD.sampleS (-1)
  (fun _ hx => runUntied_sound hx 20 (by decide +kernel))

example := C165_reversal_partial 20 EMD.Spec.strictLinSciPy EMD.strictLinSciPy_reversible sampleFixe rfl (by decide) EMD.sampleS (-1)
  (fun _ hx => runUntied_sound hx 20 (by decide +kernel))

example : okWith (fun R => decide (3 ≤ R.IMF.length)) (emd 20 EMD.Spec.strictLinSciPy (Cfg.default : Cfg ℚ) EMD.sampleS none (-1)) = true := by decide +kernel

/-- **C165 is false for signals with plateaus.** -/
theorem C165_counterexample : ∃ (S : List ℚ) (R R' : Result ℚ), ReversibleAll (EMD.Spec.strictLinSciPy : SciPy ℚ) ∧
    emd 20 EMD.Spec.strictLinSciPy sampleFixe S none (-1) = .ok R ∧ emd 20 EMD.Spec.strictLinSciPy sampleFixe S.reverse none (-1) = .ok R' ∧
    R'.IMF ≠ R.IMF.map (fun p => (p.1, p.2.reverse)) := by
  have h : okWith (fun R => okWith (fun R' => decide (R'.IMF ≠ R.IMF.map (fun p => (p.1, p.2.reverse))))
        (emd 20 EMD.Spec.strictLinSciPy sampleFixe ([0, 3, -1, 2, 2, -2, 5, 1] : List ℚ).reverse none (-1)))
      (emd 20 EMD.Spec.strictLinSciPy sampleFixe ([0, 3, -1, 2, 2, -2, 5, 1] : List ℚ) none (-1)) = true := by decide +kernel
  obtain ⟨R, h1, h⟩ := okWith_iff.1 h
  obtain ⟨R', h2, h⟩ := okWith_iff.1 h
  exact ⟨_, R, R', EMD.strictLinSciPy_reversible, h1, h2, of_decide_eq_true h⟩

end Matlab
end PyEMD
