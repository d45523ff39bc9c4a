import Verif.Lemmas.Affine
import Verif.Props.NoRaise
import Verif.Props.Negation
import Verif.Spec.Samples

/-!
# Offsets and units of the signal (C74, C75)
-/

set_option linter.unusedSectionVars false

namespace PyEMD
namespace EMD
open Spec

variable {K : Type} [Field K] [LinearOrder K] [IsStrictOrderedRing K] [FloorRing K]

/-- Two configurations that differ in the thresholds of the end condition only, the second in units `c` times larger; the stopping
rule does not look at amplitudes. -/
structure Units (c : K) (cfg cfg' : Cfg K) : Prop where
  simple : cfg.detection = .simple
  simple' : cfg'.detection = .simple
  nbsym : cfg'.nbsym = cfg.nbsym
  kind : cfg'.splineKind = cfg.splineKind
  fixe : cfg'.FIXE = cfg.FIXE
  fixeH : cfg'.FIXE_H = cfg.FIXE_H
  iter : cfg'.MAX_ITERATION = cfg.MAX_ITERATION
  range : cfg'.rangeThr = c * cfg.rangeThr
  power : cfg'.totalPowerThr = c * cfg.totalPowerThr
  mode : cfg.FIXE ≠ 0 ∨ cfg.FIXE_H ≠ 0

/-- Transformed sifting state. -/
def Sift.aff (c b : K) (s : Sift K) : Sift K := { s with imf := vaff c b s.imf }

/-- How the outcomes of a pass over the body are related: the offset survives only when nothing was subtracted. -/
def StepRel (c b : K) (n : Nat) (n0 : Int) (M : Int) (r r' : SiftStep K) : Prop :=
  match r, r' with
  | .brk s why, .brk s' why' => why' = why ∧ s.imf.length = n ∧
      (s' = s.aff c 0 ∨ (s' = s.aff c b ∧ ((why = .trend ∧ s.extNo ≤ 2) ∨ (why = .maxIter ∧ M ≤ n0 + 1))))
  | .cont s, .cont s' => s' = s.aff c 0 ∧ s.imf.length = n ∧ s.n = n0 + 1
  | _, _ => False

theorem siftBody_aff {sp : SciPy K} (ho : AffineAll sp) {c : K} (hc : 0 < c) (b : K) {cfg cfg' : Cfg K} (hu : Units c cfg cfg') (n : Nat) (s : Sift K)
    (hn : s.imf.length = n) :
    RelX (StepRel c b n s.n cfg.MAX_ITERATION) (siftBody sp cfg (timeArr n) s) (siftBody sp cfg' (timeArr n) (s.aff c b)) := by
  subst hn
  have hT : (timeArr s.imf.length : List K).length = s.imf.length := timeArr_length _
  unfold siftBody
  dsimp only [Sift.aff]
  rw [hu.iter, hu.fixe, hu.fixeH]
  split
  · next hM => exact .pure ⟨rfl, rfl, .inr ⟨rfl, .inr ⟨rfl, hM⟩⟩⟩
  · refine (countExt_aff hu.simple hu.simple' hc b _ _ hT).bind ?_
    rintro ⟨e, z⟩ ⟨e', z'⟩ - - he
    have he : e' = e := he
    subst he
    dsimp only
    split
    · refine (siftOnce_vaff ho hu.simple hu.simple' hu.nbsym hu.kind hc b _ s.imf hT).bind ?_
      rintro ⟨y, kx, kn⟩ _ hy - rfl
      have hyl : y.length = s.imf.length := siftOnce_length hy
      dsimp only
      rw [countExt_scale hu.simple hu.simple' hc _ y (by rw [hyl]; exact hT)]
      split
      · split
        · exact .pure ⟨rfl, hyl, .inl rfl⟩
        · exact .pure ⟨rfl, hyl, rfl⟩
      · next hF =>
        rw [if_pos (by rcases hu.mode with h | h; exact absurd h hF; exact h), if_pos (by rcases hu.mode with h | h; exact absurd h hF; exact h)]
        refine (RelX.refl _).bind ?_
        rintro ⟨e', z'⟩ _ - - rfl
        dsimp only
        split
        · exact .pure ⟨rfl, hyl, rfl⟩
        · split <;> split
          · exact .pure ⟨rfl, hyl, .inl rfl⟩
          · exact .pure ⟨rfl, hyl, rfl⟩
          · exact .pure ⟨rfl, hyl, .inl rfl⟩
          · exact .pure ⟨rfl, hyl, rfl⟩
    · next h2 => exact .pure ⟨rfl, rfl, .inr ⟨rfl, .inl ⟨rfl, by show e' ≤ 2; omega⟩⟩⟩

/-- How the outcomes of a sifting are related. -/
def LoopRel (c b : K) (n : Nat) (r r' : Sift K × SiftEnd) : Prop :=
  r'.2 = r.2 ∧ r.1.imf.length = n ∧ (r'.1 = r.1.aff c 0 ∨ (r'.1 = r.1.aff c b ∧ r.2 = .trend ∧ r.1.extNo ≤ 2))

theorem siftLoop_aff {sp : SciPy K} (ho : AffineAll sp) {c : K} (hc : 0 < c) (b : K) {cfg cfg' : Cfg K} (hu : Units c cfg cfg') (n fuel : Nat)
    (s : Sift K) (hn : s.imf.length = n) (hM : b = 0 ∨ s.n + 1 < cfg.MAX_ITERATION) :
    RelX (LoopRel c b n) (siftLoop sp cfg (timeArr n) fuel s) (siftLoop sp cfg' (timeArr n) fuel (s.aff c b)) := by
  induction fuel generalizing s b with
  | zero => rfl
  | succ fuel ih =>
    unfold siftLoop
    refine (siftBody_aff ho hc b hu n s hn).bind ?_
    intro r r' _ _ hr
    match r, r', hr with
    | .brk s1 why, .brk s1' why', hr =>
      obtain ⟨rfl, hl, h⟩ := hr
      refine .pure ⟨rfl, hl, ?_⟩
      rcases h with h | ⟨h, (⟨rfl, h2⟩ | ⟨rfl, h2⟩)⟩
      · exact .inl h
      · exact .inr ⟨h, rfl, h2⟩
      · rcases hM with rfl | hM
        · exact .inl h
        · omega
    | .cont s1, .cont s1', hr =>
      obtain ⟨rfl, hl, -⟩ := hr
      refine (ih 0 s1 hl (.inl rfl)).mono ?_
      rintro a a' ⟨h1, h2, h3⟩
      exact ⟨h1, h2, h3.elim .inl (fun h => .inl h.1)⟩

/-- Range of an array. -/
theorem range_le_sum_abs {l : List K} (h : l ≠ []) : npMax l - npMin l ≤ npSum (l.map pyAbs) := by
  obtain ⟨hM, -⟩ := npMax_spec h
  obtain ⟨hm, -⟩ := npMin_spec h
  have e : npSum (l.map pyAbs) = (l.map (fun x => |x|)).sum := by
    rw [npSum_eq]
    congr 1
    apply List.map_congr_left
    intro x _
    rw [pyAbs_eq]
  rw [e]
  generalize npMax l = M at *
  generalize npMin l = m at *
  have nonneg : ∀ l : List K, 0 ≤ (l.map (fun x => |x|)).sum := by
    intro l
    apply List.sum_nonneg
    intro x hx
    obtain ⟨y, -, rfl⟩ := List.mem_map.1 hx
    exact abs_nonneg y
  have single : ∀ (l : List K) (x : K), x ∈ l → |x| ≤ (l.map (fun x => |x|)).sum := by
    intro l
    induction l with
    | nil => intro x hx; cases hx
    | cons y l ih =>
      intro x hx
      rw [List.map_cons, List.sum_cons]
      rcases List.mem_cons.1 hx with rfl | hx
      · have := nonneg l; linarith
      · have := ih x hx; have := abs_nonneg y; linarith
  clear h e
  induction l with
  | nil => cases hM
  | cons y l ih =>
    rw [List.map_cons, List.sum_cons]
    rcases List.mem_cons.1 hM with rfl | hM'
    · rcases List.mem_cons.1 hm with rfl | hm'
      · have := nonneg l; have := abs_nonneg m; linarith
      · have := single l m hm'; have := le_abs_self M; have := neg_abs_le m; linarith
    · rcases List.mem_cons.1 hm with rfl | hm'
      · have := single l M hM'; have := le_abs_self M; have := neg_abs_le m; linarith
      · have := ih hM' hm'; have := abs_nonneg y; linarith

theorem npMax_vaff {c : K} (hc : 0 < c) (b : K) {l : List K} (h : l ≠ []) : npMax (vaff c b l) = c * npMax l + b := by
  have h' : vaff c b l ≠ [] := by simpa [vaff] using h
  obtain ⟨p, q⟩ := npMax_spec h'
  obtain ⟨r, s⟩ := npMax_spec h
  apply le_antisymm
  · obtain ⟨x, hx, e⟩ := List.mem_map.1 p
    rw [← e]
    have := mul_le_mul_of_nonneg_left (s x hx) hc.le
    linarith
  · exact q _ (List.mem_map_of_mem r)

theorem npMin_vaff {c : K} (hc : 0 < c) (b : K) {l : List K} (h : l ≠ []) : npMin (vaff c b l) = c * npMin l + b := by
  have h' : vaff c b l ≠ [] := by simpa [vaff] using h
  obtain ⟨p, q⟩ := npMin_spec h'
  obtain ⟨r, s⟩ := npMin_spec h
  apply le_antisymm
  · exact q _ (List.mem_map_of_mem r)
  · obtain ⟨x, hx, e⟩ := List.mem_map.1 p
    rw [← e]
    have := mul_le_mul_of_nonneg_left (s x hx) hc.le
    linarith

theorem endCondition_aff {c : K} (hc : 0 < c) (b : K) {cfg cfg' : Cfg K} (hu : Units c cfg cfg')
    (hp : b = 0 ∨ cfg.totalPowerThr ≤ cfg.rangeThr ∨ cfg.totalPowerThr ≤ 0) (S : List K) (IMF : List (List K)) :
    endCondition cfg' (vaff c b S) (IMF.map (vaff c 0)) = endCondition cfg S IMF := by
  unfold endCondition
  rw [vaff_length, sumRows_vaff, vsub_vaff, sub_zero]
  generalize vsub S (sumRows S.length IMF) = r
  cases r with
  | nil => rfl
  | cons x r =>
    have hne : x :: r ≠ [] := by simp
    have hne' : vaff c b (x :: r) ≠ [] := by simp [vaff]
    simp only [npMaxE, npMinE, npMax_vaff hc b hne, npMin_vaff hc b hne]
    have i1 : (vaff c b (x :: r)).isEmpty = false := by simp [vaff]
    have i2 : (x :: r).isEmpty = false := rfl
    simp only [i1, i2, Bool.false_eq_true, if_false, bind, Except.bind]
    have e1 : (c * npMax (x :: r) + b - (c * npMin (x :: r) + b) < cfg'.rangeThr) ↔ npMax (x :: r) - npMin (x :: r) < cfg.rangeThr := by
      rw [hu.range, show c * npMax (x :: r) + b - (c * npMin (x :: r) + b) = c * (npMax (x :: r) - npMin (x :: r)) by ring]
      exact mul_lt_mul_iff_right₀ hc
    simp only [e1]
    split
    · rfl
    · next hr =>
      have key : (npSum ((vaff c b (x :: r)).map pyAbs) < cfg'.totalPowerThr) ↔ (npSum ((x :: r).map pyAbs) < cfg.totalPowerThr) := by
        rcases hp with rfl | hp
        · rw [hu.power]
          have : npSum ((vaff c 0 (x :: r)).map pyAbs) = c * npSum ((x :: r).map pyAbs) := by
            rw [npSum_eq, npSum_eq]
            generalize x :: r = l
            induction l with
            | nil => simp [vaff]
            | cons y l ih =>
              have ih : (List.map pyAbs (vaff c 0 l)).sum = c * (List.map pyAbs l).sum := ih
              show pyAbs (c * y + 0) + (List.map pyAbs (vaff c 0 l)).sum = c * (pyAbs y + (List.map pyAbs l).sum)
              rw [ih, pyAbs_eq, pyAbs_eq, add_zero, abs_mul, abs_of_pos hc]
              ring
          rw [this]
          exact mul_lt_mul_iff_right₀ hc
        · have big := range_le_sum_abs hne
          have big' := range_le_sum_abs hne'
          rw [npMax_vaff hc b hne, npMin_vaff hc b hne] at big'
          have h0 : 0 ≤ npMax (x :: r) - npMin (x :: r) := by
            obtain ⟨p, -⟩ := npMax_spec hne
            obtain ⟨-, q⟩ := npMin_spec hne
            have := q _ p
            linarith
          constructor
          · intro h
            exfalso
            rw [hu.power] at h
            rcases hp with hp | hp
            · have := mul_le_mul_of_nonneg_left hp hc.le
              have := mul_le_mul_of_nonneg_left (not_lt.1 hr) hc.le
              linarith
            · have := mul_nonneg hc.le h0
              have := mul_nonpos_of_nonneg_of_nonpos hc.le hp
              linarith
          · intro h
            exfalso
            rcases hp with hp | hp
            · exact hr (by linarith)
            · linarith
      simp only [key]

/-- Scaled component. -/
def Round.scale (c : K) (r : Round K) : Round K := { r with imf := vaff c 0 r.imf }

/-- How the collected rounds are related: all components are scaled, except that a final trend, which is dropped, may carry the offset. -/
def RoundsRel (c : K) (r r' : List (Round K) × Int) : Prop :=
  r'.2 = r.2 ∧ (r'.1 = r.1.map (Round.scale c) ∨ (r.2 ≤ 2 ∧ r'.1.dropLast = r.1.dropLast.map (Round.scale c)))

theorem emdLoop_aff {sp : SciPy K} (ho : AffineAll sp) {c : K} (hc : 0 < c) (b : K) {cfg cfg' : Cfg K} (hu : Units c cfg cfg')
    (hM : b = 0 ∨ 2 ≤ cfg.MAX_ITERATION) (hp : b = 0 ∨ cfg.totalPowerThr ≤ cfg.rangeThr ∨ cfg.totalPowerThr ≤ 0)
    (S : List K) (m : Int) (fuel : Nat) (rounds : List (Round K)) (h : ∀ r ∈ rounds, r.imf.length = S.length) (e : Int) :
    RelX (RoundsRel c) (emdLoop sp cfg (timeArr S.length) S m fuel rounds e)
      (emdLoop sp cfg' (timeArr S.length) (vaff c b S) m fuel (rounds.map (Round.scale c)) e) := by
  induction fuel generalizing rounds e with
  | zero => rfl
  | succ fuel ih =>
    have hm : ∀ l : List (Round K), (l.map (Round.scale c)).map (fun x : Round K => x.imf) = (l.map (fun x : Round K => x.imf)).map (vaff c 0) := by
      intro l
      simp [Round.scale, Function.comp_def]
    have hrow : ∀ r ∈ rounds.map (fun x : Round K => x.imf), r.length = S.length := by
      simp only [List.mem_map]
      rintro _ ⟨r, hr, rfl⟩
      exact h r hr
    have hround : RelX (LoopRel c b S.length) (emdRound sp cfg (timeArr S.length) S (rounds.map (·.imf)) e)
        (emdRound sp cfg' (timeArr S.length) (vaff c b S) ((rounds.map (·.imf)).map (vaff c 0)) e) := by
      unfold emdRound siftFuel
      rw [vaff_length, sumRows_vaff, vsub_vaff, sub_zero, hu.iter]
      refine siftLoop_aff ho hc b hu S.length _ { n := 0, nh := 0, extNo := e, imf := vsub S (sumRows S.length (rounds.map (·.imf))), subs := 0 } ?_ ?_
      · show (vsub S (sumRows S.length (rounds.map (·.imf)))).length = S.length
        rw [length_vsub, length_sumRows _ _ hrow, Nat.min_self]
      · rcases hM with hM | hM
        · exact .inl hM
        · exact .inr (by show (0 : Int) + 1 < _; omega)
    unfold emdLoop
    rw [hm]
    refine hround.bind ?_
    rintro ⟨s, why⟩ ⟨s', why'⟩ - - ⟨hw, hl, hs⟩
    have hw : why' = why := hw
    subst hw
    dsimp only at hl hs ⊢
    rcases hs with rfl | ⟨rfl, rfl, h2⟩
    · have happ : rounds.map (Round.scale c) ++ [({ imf := (s.aff c 0).imf, why := why', subs := (s.aff c 0).subs, nh := (s.aff c 0).nh } : Round K)] =
          (rounds ++ [({ imf := s.imf, why := why', subs := s.subs, nh := s.nh } : Round K)]).map (Round.scale c) := by simp [Round.scale, Sift.aff]
      rw [happ, hm, endCondition_aff hc b hu hp]
      refine (RelX.refl _).bind ?_
      rintro f _ - - rfl
      rw [List.length_map]
      split
      · exact .pure ⟨rfl, .inl rfl⟩
      · refine ih _ ?_ _
        intro r hr
        rw [List.mem_append, List.mem_singleton] at hr
        rcases hr with hr | rfl
        · exact h r hr
        · exact hl
    · -- a trend: both loops end here
      have hend : RelX (fun _ _ => True) (endCondition cfg S ((rounds ++ [({ imf := s.imf, why := .trend, subs := s.subs, nh := s.nh } : Round K)]).map (fun x : Round K => x.imf)))
          (endCondition cfg' (vaff c b S) ((rounds.map (Round.scale c) ++ [({ imf := (s.aff c b).imf, why := .trend, subs := (s.aff c b).subs, nh := (s.aff c b).nh } : Round K)]).map (fun x : Round K => x.imf))) := by
        have hI : ∀ r ∈ (rounds ++ [({ imf := s.imf, why := .trend, subs := s.subs, nh := s.nh } : Round K)]).map (fun x : Round K => x.imf), r.length = S.length := by
          simp only [List.map_append, List.mem_append, List.map_cons, List.map_nil, List.mem_singleton]
          rintro r (hr | rfl)
          · exact hrow r hr
          · exact hl
        have hI' : ∀ r ∈ (rounds.map (Round.scale c) ++ [({ imf := (s.aff c b).imf, why := .trend, subs := (s.aff c b).subs, nh := (s.aff c b).nh } : Round K)]).map (fun x : Round K => x.imf),
            r.length = (vaff c b S).length := by
          rw [List.map_append, hm]
          simp only [List.mem_append, List.map_cons, List.map_nil, List.mem_singleton, List.mem_map]
          rintro r (⟨q, ⟨q', hq', rfl⟩, rfl⟩ | rfl)
          · rw [vaff_length, vaff_length]; exact h q' hq'
          · rw [Sift.aff, vaff_length, vaff_length]; exact hl
        rcases Nat.eq_zero_or_pos S.length with h0 | h0
        · have hS : S = [] := List.length_eq_zero_iff.1 h0
          subst hS
          rfl
        · obtain ⟨f, hf⟩ := endCondition_total cfg S h0 _ hI
          obtain ⟨f', hf'⟩ := endCondition_total cfg' (vaff c b S) (by rw [vaff_length]; exact h0) _ hI'
          rw [hf, hf']
          trivial
      refine hend.bind ?_
      intro f f' _ _ _
      have e1 : ∀ (f : Bool) (p : Bool), (f || p || (SiftEnd.trend == SiftEnd.trend)) = true := by decide
      rw [if_pos (e1 _ _), if_pos (e1 _ _)]
      exact .pure ⟨rfl, .inr ⟨h2, by simp⟩⟩

theorem emdPure_aff (fuel : Nat) {sp : SciPy K} (ho : AffineAll sp) {c : K} (hc : 0 < c) (b : K) {cfg cfg' : Cfg K} (hu : Units c cfg cfg')
    (hM : b = 0 ∨ 2 ≤ cfg.MAX_ITERATION) (hp : b = 0 ∨ cfg.totalPowerThr ≤ cfg.rangeThr ∨ cfg.totalPowerThr ≤ 0)
    (S : List K) (T : Option (List K)) (m : Int) :
    RelX (fun r r' : Result K => r'.imfs = r.imfs.map (vaff c 0) ∧ r'.residue = vaff c b r.residue)
      (emdPure fuel sp cfg S T m) (emdPure fuel sp cfg' (vaff c b S) T m) := by
  have h1 : prepareTime cfg' (vaff c b S) T = prepareTime cfg S T := by
    unfold prepareTime
    rw [vaff_length, hu.simple, hu.simple']
  have h2 := (prepareTime_cases cfg hu.simple S T).2
  unfold emdPure emdRounds
  rw [h1]
  simp only [bind_assoc]
  refine (RelX.refl _).bind ?_
  rintro T' _ hT - rfl
  rw [h2 T' hT]
  refine (emdLoop_aff ho hc b hu hM hp S m fuel [] (by simp) (-1)).bind ?_
  rintro ⟨rounds, e⟩ ⟨rounds', e'⟩ - - ⟨he, hr⟩
  have he : e' = e := he
  subst he
  dsimp only at hr ⊢
  have hm : ∀ l : List (Round K), (l.map (Round.scale c)).map (fun x : Round K => x.imf) = (l.map (fun x : Round K => x.imf)).map (vaff c 0) := by
    intro l
    simp [Round.scale, Function.comp_def]
  have key : (if e' ≤ 2 then (rounds'.map (fun x : Round K => x.imf)).dropLast else rounds'.map (fun x : Round K => x.imf)) =
      (if e' ≤ 2 then (rounds.map (fun x : Round K => x.imf)).dropLast else rounds.map (fun x : Round K => x.imf)).map (vaff c 0) := by
    rcases hr with rfl | ⟨h2, h3⟩
    · rw [hm]
      split
      · rw [List.map_dropLast]
      · rfl
    · rw [if_pos h2, if_pos h2, ← List.map_dropLast, h3, hm, List.map_dropLast]
  refine .pure ?_
  unfold finish
  dsimp only
  rw [key]
  refine ⟨rfl, ?_⟩
  rw [vaff_length, sumRows_vaff, vsub_vaff, sub_zero]

theorem Obj.emd_of_rel {fuel : Nat} {sp sp' : SciPy K} {o o' : Obj K} {S S' : List K} {T : Option (List K)} {m : Int} {R : Result K → Result K → Prop}
    (h : RelX R (emdPure fuel sp o.cfg S T m) (emdPure fuel sp' o'.cfg S' T m)) :
    (∃ rows rows' r r', Obj.emd fuel sp o S T m = (.ok rows, { o with imfs := some r.imfs, residue := some r.residue }) ∧
      Obj.emd fuel sp' o' S' T m = (.ok rows', { o' with imfs := some r'.imfs, residue := some r'.residue }) ∧ R r r') ∨
    (∃ e, Obj.emd fuel sp o S T m = (.error e, o) ∧ Obj.emd fuel sp' o' S' T m = (.error e, o')) := by
  unfold Obj.emd
  cases h1 : emdPure fuel sp o.cfg S T m with
  | ok r =>
    cases h2 : emdPure fuel sp' o'.cfg S' T m with
    | error e => rw [h1, h2] at h; exact h.elim
    | ok r' => rw [h1, h2] at h; exact .inl ⟨_, _, r, r', rfl, rfl, h⟩
  | error e =>
    cases h2 : emdPure fuel sp' o'.cfg S' T m with
    | ok r' => rw [h1, h2] at h; exact h.elim
    | error e' =>
      rw [h1, h2] at h
      have h : e = e' := h
      subst h
      exact .inr ⟨e, rfl, rfl⟩

/-- C74: a constant added to the signal goes into the residue: the stored IMFs stay the same and the stored residue grows by that
constant; an exception is raised for the one signal iff the same exception is raised for the other.  Proved for simple detection, the
stopping rules that count siftings (`FIXE` or `FIXE_H`), interpolators that commute with affine maps of the ordinates, and a power
threshold that does not exceed the range threshold (or is switched off): the test on the sum of magnitudes sees the offset.  Missing: the
default stopping rule, for which the claim is false (`C74_counterexample`). -/
theorem C74_offset_partial (fuel : Nat) (sp : SciPy K) (ho : AffineAll sp) (o : Obj K) (hd : o.cfg.detection = .simple)
    (hmode : o.cfg.FIXE ≠ 0 ∨ o.cfg.FIXE_H ≠ 0) (hM : 2 ≤ o.cfg.MAX_ITERATION)
    (hthr : o.cfg.totalPowerThr ≤ o.cfg.rangeThr ∨ o.cfg.totalPowerThr ≤ 0)
    (b : K) (S : List K) (T : Option (List K)) (m : Int) :
    (∃ rows rows' imfs residue, Obj.emd fuel sp o S T m = (.ok rows, { o with imfs := some imfs, residue := some residue }) ∧
      Obj.emd fuel sp o (S.map (fun x => x + b)) T m =
        (.ok rows', { o with imfs := some imfs, residue := some (residue.map (fun x => x + b)) })) ∨
    (∃ e, Obj.emd fuel sp o S T m = (.error e, o) ∧ Obj.emd fuel sp o (S.map (fun x => x + b)) T m = (.error e, o)) := by
  have hu : Units (1 : K) o.cfg o.cfg := ⟨hd, hd, rfl, rfl, rfl, rfl, rfl, (one_mul _).symm, (one_mul _).symm, hmode⟩
  have e1 : ∀ (b : K) (l : List K), vaff 1 b l = l.map (fun x => x + b) := by intro b l; simp [vaff]
  have h := emdPure_aff fuel ho one_pos b hu (.inr hM) (.inr hthr) S T m
  rw [e1] at h
  rcases Obj.emd_of_rel h with ⟨rows, rows', r, r', h1, h2, h3, h4⟩ | h
  · refine .inl ⟨rows, rows', r.imfs, r.residue, h1, ?_⟩
    rw [h2, h3, h4, e1]
    have : (r.imfs.map (vaff (1 : K) 0)) = r.imfs := by
      rw [show (vaff (1 : K) 0) = id from funext (fun l => by rw [e1]; simp), List.map_id]
    rw [this]
  · exact .inr h

/-- C75: measuring the signal and the two thresholds of the end condition in units that are `c` times smaller multiplies the stored IMFs
and the stored residue by `c`, and leaves exceptions as they are.  Proved for simple detection, the stopping rules that count siftings,
and interpolators that commute with positive scaling.  Missing: the default stopping rule and fixed thresholds, for which the claim is
false (`C75_counterexample`). -/
theorem C75_scaling_partial (fuel : Nat) (sp : SciPy K) (ho : AffineAll sp) (o : Obj K) (hd : o.cfg.detection = .simple)
    (hmode : o.cfg.FIXE ≠ 0 ∨ o.cfg.FIXE_H ≠ 0) (c : K) (hc : 0 < c) (S : List K) (T : Option (List K)) (m : Int) :
    let o' : Obj K := { o with cfg := { o.cfg with rangeThr := c * o.cfg.rangeThr, totalPowerThr := c * o.cfg.totalPowerThr } }
    (∃ rows rows' imfs residue, Obj.emd fuel sp o S T m = (.ok rows, { o with imfs := some imfs, residue := some residue }) ∧
      Obj.emd fuel sp o' (S.map (fun x => c * x)) T m =
        (.ok rows', { o' with imfs := some (imfs.map (fun r => r.map (fun x => c * x))), residue := some (residue.map (fun x => c * x)) })) ∨
    (∃ e, Obj.emd fuel sp o S T m = (.error e, o) ∧ Obj.emd fuel sp o' (S.map (fun x => c * x)) T m = (.error e, o')) := by
  intro o'
  have hu : Units c o.cfg o'.cfg := ⟨hd, hd, rfl, rfl, rfl, rfl, rfl, rfl, rfl, hmode⟩
  have e1 : (vaff c (0 : K)) = fun l : List K => l.map (fun x => c * x) := by funext l; simp [vaff]
  have h := emdPure_aff fuel ho hc 0 hu (.inl rfl) (.inl rfl) S T m
  rw [e1] at h
  rcases Obj.emd_of_rel h with ⟨rows, rows', r, r', h1, h2, h3, h4⟩ | h
  · refine .inl ⟨rows, rows', r.imfs, r.residue, h1, ?_⟩
    rw [h2, h3, h4]
  · exact .inr h

theorem linAt_aff (c b : K) (k : List (K × K)) (hk : k ≠ []) (t : K) : linAt (kaff c b k) t = c * linAt k t + b := by
  match k with
  | [] => exact absurd rfl hk
  | [p] => rfl
  | p :: q :: r =>
    show (if t ≤ q.1 then c * p.2 + b + (c * q.2 + b - (c * p.2 + b)) / (q.1 - p.1) * (t - p.1) else linAt (kaff c b (q :: r)) t) =
      c * (if t ≤ q.1 then p.2 + (q.2 - p.2) / (q.1 - p.1) * (t - p.1) else linAt (q :: r) t) + b
    rw [linAt_aff c b (q :: r) (by simp) t]
    split
    · rw [show c * q.2 + b - (c * p.2 + b) = c * (q.2 - p.2) by ring, mul_div_assoc]
      ring
    · rfl

/-- Piecewise linear interpolation that rejects an empty set of knots commutes with affine maps. -/
theorem strictLinSciPy_affine : AffineAll (strictLinSciPy : SciPy K) := by
  have key : AffineInterp (strictLin : Interp K) := by
    intro c b _ X Y t
    unfold strictLin
    rw [show X.zip (Y.map (fun y => c * y + b)) = kaff c b (X.zip Y) by simp [kaff, List.zip_map_right, Prod.map]]
    by_cases hk : X.zip Y = []
    · rw [hk]; rfl
    · have hk' : kaff c b (X.zip Y) ≠ [] := by simpa [kaff] using hk
      rw [if_neg (by rw [List.isEmpty_iff]; exact hk'), if_neg (by rw [List.isEmpty_iff]; exact hk), Option.map_some, List.map_map]
      congr 1
      apply List.map_congr_left
      intro τ _
      exact linAt_aff c b _ hk τ
  exact ⟨key, key, key, key, key, key, key⟩

/-- A decomposition with two IMFs to which both theorems apply; the second run checks the claim of C74 by evaluation. -/
example : okWith (fun R : Result ℚ => decide (R.imfs.length = 2) && R.residue == [3/5, 3/8, 3/5, 33/40, 51/40, 69/40, 87/40, 12/5, 21/8, 12/5])
      (emdPure 3 strictLinSciPy { sampleFixe with totalPowerThr := 0 } sampleS none 3) = true ∧
    okWith (fun R : Result ℚ => decide (R.imfs.length = 2) &&
        R.residue == [503/5, 803/8, 503/5, 4033/40, 4051/40, 4069/40, 4087/40, 512/5, 821/8, 512/5])
      (emdPure 3 strictLinSciPy { sampleFixe with totalPowerThr := 0 } (sampleS.map (fun x => x + 100)) none 3) = true := by decide +kernel

example := C74_offset_partial 3 strictLinSciPy strictLinSciPy_affine (⟨{ sampleFixe with totalPowerThr := 0 }, none, none⟩ : Obj ℚ) rfl (by decide) (by decide)
  (.inr (le_refl _)) 100 sampleS none 3

example := C75_scaling_partial 3 strictLinSciPy strictLinSciPy_affine (⟨sampleFixeH, none, none⟩ : Obj ℚ) rfl (by decide) (1 / 1000) (by norm_num)
  sampleS none 3

/-- C74 fails for the default stopping rule: the first sifting is compared with the signal itself, offset included, so that one more
sifting is done and the first IMF changes. -/
theorem C74_counterexample : ∃ (S : List ℚ) (R R' : Result ℚ), emdPure 3 strictLinSciPy (Cfg.default : Cfg ℚ) S none 1 = .ok R ∧
    emdPure 3 strictLinSciPy (Cfg.default : Cfg ℚ) (S.map (fun x => x + 100)) none 1 = .ok R' ∧ R'.imfs ≠ R.imfs := by
  have h1 : okWith (fun R : Result ℚ => R.imfs == [[0, 10, -10, 10, -161/16, 81/8, -161/16, 10, -10, 10, 0]])
      (emdPure 3 strictLinSciPy (Cfg.default : Cfg ℚ) [0, 10, -10, 10, -10, 41/4, -10, 10, -10, 10, 0] none 1) = true := by decide +kernel
  have h2 : okWith (fun R : Result ℚ => R.imfs == [[0, 10, -10, 641/64, -161/16, 323/32, -161/16, 641/64, -10, 10, 0]])
      (emdPure 3 strictLinSciPy (Cfg.default : Cfg ℚ) (([0, 10, -10, 10, -10, 41/4, -10, 10, -10, 10, 0] : List ℚ).map (fun x => x + 100)) none 1) = true := by
    decide +kernel
  obtain ⟨R, e1, p1⟩ := okWith_iff.1 h1
  obtain ⟨R', e2, p2⟩ := okWith_iff.1 h2
  refine ⟨_, R, R', e1, e2, ?_⟩
  rw [eq_of_beq p1, eq_of_beq p2]
  decide +kernel

/-- C75 fails when the thresholds keep their values: a signal with a small amplitude is cut short. -/
theorem C75_counterexample : ∃ (S : List ℚ) (R R' : Result ℚ), emdPure 3 strictLinSciPy sampleFixe S none 3 = .ok R ∧
    emdPure 3 strictLinSciPy sampleFixe (S.map (fun x => 1 / 100000 * x)) none 3 = .ok R' ∧ R'.imfs.length ≠ R.imfs.length := by
  have h1 : okWith (fun R : Result ℚ => R.imfs.length == 2) (emdPure 3 strictLinSciPy sampleFixe sampleS none 3) = true := by decide +kernel
  have h2 : okWith (fun R : Result ℚ => R.imfs.length == 1)
      (emdPure 3 strictLinSciPy sampleFixe (sampleS.map (fun x => 1 / 100000 * x)) none 3) = true := by decide +kernel
  obtain ⟨R, e1, p1⟩ := okWith_iff.1 h1
  obtain ⟨R', e2, p2⟩ := okWith_iff.1 h2
  refine ⟨_, R, R', e1, e2, ?_⟩
  rw [eq_of_beq p1, eq_of_beq p2]
  decide

end EMD
end PyEMD
