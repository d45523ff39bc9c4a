import Verif.Props.JitSymmetry
import Verif.Props.Wave
import Verif.Props.Reversal
import Verif.Props.Affine
import Verif.Props.Scipy

/-!
# C159: `JitEMD` on equidistant time arrays: waves, units, offsets and signals run backwards

What C74, C75, C82 and C108 say about `EMD` holds of `JitEMD`, by C130.
-/

set_option linter.unusedSectionVars false

namespace PyEMD
namespace Jit
open EMD (SplineKind Cfg ConstAll)
open EMD.Spec (AcceptsAll AffineAll ReversibleAll IsResidue Vanishes Wave Occurs NoTies)

variable {K : Type} [Field K] [LinearOrder K] [IsStrictOrderedRing K] [FloorRing K]

/-- The rows are the components, followed by the rest if it does not vanish within tolerance. -/
def Spec.Lists (rows imfs : List (List K)) (rest : List K) : Prop := (Vanishes rest ∧ rows = imfs) ∨ (¬ Vanishes rest ∧ rows = imfs ++ [rest])

theorem emd_eq_obj (fuel : Nat) (sp : SciPy K) (ht : TimeFreeAll sp) (cfg : Cfg K) (hd : cfg.detection = .simple)
    (hnb : 1 ≤ cfg.nbsym) (hk : CommonKind cfg.splineKind) (S T : List K) (hn : 2 ≤ S.length) (hT : T.length = S.length) (c : K) (hc : 0 < c)
    (hE : Equidistant c T) (m : Int) : emd fuel sp cfg S T m = (EMD.Obj.emd fuel sp ⟨cfg, none, none⟩ S (some T) m).1 := by
  rw [C130_equidistant_partial fuel sp sp ⟨rfl, rfl, rfl, rfl, rfl⟩ ht cfg hd hnb hk S hn T hT c hc hE m]
  unfold EMD.Obj.emd
  cases EMD.emdPure fuel sp cfg S (some T) m <;> rfl

/-- **C159, waves.**  A wave whose tops all reach `hi` and whose bottoms all reach `lo`, on an equidistant time array, is decomposed into the wave about zero and,
unless it vanishes within tolerance, the level: for every kind of spline that `JitEMD` offers, every stopping rule and every limit. -/
theorem C159_wave (fuel : Nat) (hf : 1 ≤ fuel) (sp : SciPy K) (ht : TimeFreeAll sp) (ha : AcceptsAll sp) (hcs : ConstAll sp) (cfg : Cfg K)
    (hd : cfg.detection = .simple) (hnb : 1 ≤ cfg.nbsym) (hk : CommonKind cfg.splineKind) (hM : 2 ≤ cfg.MAX_ITERATION) (hr : 0 < cfg.rangeThr)
    (S T : List K) (lo hi : K) (hw : Wave S lo hi) (hn : 2 ≤ S.length) (hT : T.length = S.length) (c : K) (hc : 0 < c) (hE : Equidistant c T) (m : Int) :
    emd fuel sp cfg S T m = .ok (if |(hi + lo) / 2| ≤ 1 / 100000000 then [S.map (fun x => x - (hi + lo) / 2)]
      else [S.map (fun x => x - (hi + lo) / 2), S.map (fun _ => (hi + lo) / 2)]) := by
  have hu : cfg.splineKind ≠ .unknown := by
    rcases hk with h | h | h | h | h <;> rw [h] <;> decide
  obtain ⟨R, h1, h2, h3, h4⟩ := EMD.C108_wave fuel hf sp ha hcs cfg hd hnb hu hM hr S lo hi hw (some T) (by rintro _ ⟨⟩; exact hT) m
  rw [C130_equidistant_partial fuel sp sp ⟨rfl, rfl, rfl, rfl, rfl⟩ ht cfg hd hnb hk S hn T hT c hc hE m, h1]
  show Except.ok R.rows = _
  rw [h4, h2, h3]
  rfl

/-- **C159, direction**, what holds of it: the signal run backwards has the rows run backwards, for decompositions in which no two neighbouring samples of a
proto-IMF are equal.  Missing: plateaus, for which the claim is false (`C159_reversal_counterexample`). -/
theorem C159_reversal_partial (fuel : Nat) (sp : SciPy K) (ht : TimeFreeAll sp) (hrev : ReversibleAll sp) (cfg : Cfg K) (hd : cfg.detection = .simple)
    (hnb : 1 ≤ cfg.nbsym) (hk : CommonKind cfg.splineKind) (S T : List K) (hn : 2 ≤ S.length) (hT : T.length = S.length) (c : K) (hc : 0 < c)
    (hE : Equidistant c T) (m : Int)
    (hv : ∀ x, Occurs sp cfg ((List.range S.length).map (fun k : Nat => (k : K))) S m [] (-1) x → NoTies x) :
    (∃ rows, emd fuel sp cfg S T m = .ok rows ∧ emd fuel sp cfg S.reverse T m = .ok (rows.map List.reverse)) ∨
    (∃ e, emd fuel sp cfg S T m = .error e ∧ emd fuel sp cfg S.reverse T m = .error e) := by
  rw [emd_eq_obj fuel sp ht cfg hd hnb hk S T hn hT c hc hE m,
    emd_eq_obj fuel sp ht cfg hd hnb hk S.reverse T (by simpa using hn) (by simpa using hT) c hc hE m]
  rcases EMD.C82_reversal_partial fuel sp hrev ⟨cfg, none, none⟩ hd hnb S (some T) m hv with ⟨rows, _, _, h1, h2⟩ | ⟨e, h1, h2⟩
  · exact .inl ⟨rows, by rw [h1], by rw [h2]⟩
  · exact .inr ⟨e, by rw [h1], by rw [h2]⟩

/-- **C159, units**, what holds of it: the signal and the thresholds in another unit give the components and the rest in that unit.  Missing: the default stopping
rule and fixed thresholds, for which the claim is false as for `EMD` (`C75_counterexample`). -/
theorem C159_scaling_partial (fuel : Nat) (sp : SciPy K) (ht : TimeFreeAll sp) (ha : AffineAll sp) (cfg : Cfg K) (hd : cfg.detection = .simple)
    (hnb : 1 ≤ cfg.nbsym) (hk : CommonKind cfg.splineKind) (hmode : cfg.FIXE ≠ 0 ∨ cfg.FIXE_H ≠ 0) (S T : List K) (hn : 2 ≤ S.length)
    (hT : T.length = S.length) (c : K) (hc : 0 < c) (hE : Equidistant c T) (m : Int) (a : K) (ha0 : 0 < a) :
    let cfg' : Cfg K := { cfg with rangeThr := a * cfg.rangeThr, totalPowerThr := a * cfg.totalPowerThr }
    (∃ rows rows' imfs rest, emd fuel sp cfg S T m = .ok rows ∧ emd fuel sp cfg' (S.map (fun x => a * x)) T m = .ok rows' ∧
      IsResidue S imfs rest ∧ Spec.Lists rows imfs rest ∧
      Spec.Lists rows' (imfs.map (fun r => r.map (fun x => a * x))) (rest.map (fun x => a * x))) ∨
    (∃ e, emd fuel sp cfg S T m = .error e ∧ emd fuel sp cfg' (S.map (fun x => a * x)) T m = .error e) := by
  intro cfg'
  rw [emd_eq_obj fuel sp ht cfg hd hnb hk S T hn hT c hc hE m,
    emd_eq_obj fuel sp ht cfg' hd hnb hk (S.map (fun x => a * x)) T (by simpa using hn) (by simpa using hT) c hc hE m]
  rcases EMD.C75_scaling_partial fuel sp ha ⟨cfg, none, none⟩ hd hmode a ha0 S (some T) m with ⟨rows, rows', imfs, rest, h1, h2⟩ | ⟨e, h1, h2⟩
  · obtain ⟨i1, r1, g1, g2, g3⟩ := EMD.C03_rows_vs_stored fuel sp _ _ S (some T) m rows h1
    obtain ⟨i2, r2, g4, -, g5⟩ := EMD.C03_rows_vs_stored fuel sp _ _ _ (some T) m rows' h2
    cases g1
    cases g4
    exact .inl ⟨rows, rows', imfs, rest, by rw [h1], by rw [h2], g2, g3, g5⟩
  · exact .inr ⟨e, by rw [h1], by rw [h2]⟩

/-- **C159, offsets**, what holds of it: a constant added to the signal appears in the rest and leaves the components alone.  Missing: the default stopping
rule, for which the claim is false as for `EMD` (`C74_counterexample`). -/
theorem C159_offset_partial (fuel : Nat) (sp : SciPy K) (ht : TimeFreeAll sp) (ha : AffineAll sp) (cfg : Cfg K) (hd : cfg.detection = .simple)
    (hnb : 1 ≤ cfg.nbsym) (hk : CommonKind cfg.splineKind) (hmode : cfg.FIXE ≠ 0 ∨ cfg.FIXE_H ≠ 0) (hM : 2 ≤ cfg.MAX_ITERATION)
    (hthr : cfg.totalPowerThr ≤ cfg.rangeThr ∨ cfg.totalPowerThr ≤ 0) (S T : List K) (hn : 2 ≤ S.length)
    (hT : T.length = S.length) (c : K) (hc : 0 < c) (hE : Equidistant c T) (m : Int) (b : K) :
    (∃ rows rows' imfs rest, emd fuel sp cfg S T m = .ok rows ∧ emd fuel sp cfg (S.map (fun x => x + b)) T m = .ok rows' ∧
      IsResidue S imfs rest ∧ Spec.Lists rows imfs rest ∧ Spec.Lists rows' imfs (rest.map (fun x => x + b))) ∨
    (∃ e, emd fuel sp cfg S T m = .error e ∧ emd fuel sp cfg (S.map (fun x => x + b)) T m = .error e) := by
  rw [emd_eq_obj fuel sp ht cfg hd hnb hk S T hn hT c hc hE m,
    emd_eq_obj fuel sp ht cfg hd hnb hk (S.map (fun x => x + b)) T (by simpa using hn) (by simpa using hT) c hc hE m]
  rcases EMD.C74_offset_partial fuel sp ha ⟨cfg, none, none⟩ hd hmode hM hthr b S (some T) m with ⟨rows, rows', imfs, rest, h1, h2⟩ | ⟨e, h1, h2⟩
  · obtain ⟨i1, r1, g1, g2, g3⟩ := EMD.C03_rows_vs_stored fuel sp _ _ S (some T) m rows h1
    obtain ⟨i2, r2, g4, -, g5⟩ := EMD.C03_rows_vs_stored fuel sp _ _ _ (some T) m rows' h2
    cases g1
    cases g4
    exact .inl ⟨rows, rows', imfs, rest, by rw [h1], by rw [h2], g2, g3, g5⟩
  · exact .inr ⟨e, by rw [h1], by rw [h2]⟩

/-- The interpolators of scipy meet the hypotheses. -/
example : TimeFreeAll (Scipy.scipy : SciPy K) ∧ AcceptsAll (Scipy.scipy : SciPy K) ∧ ConstAll (Scipy.scipy : SciPy K) ∧ AffineAll (Scipy.scipy : SciPy K) ∧
    ReversibleAll (Scipy.scipy : SciPy K) := ⟨scipy_timeFree, Scipy.C98_accepts, EMD.scipy_const, Scipy.C98_affine, Scipy.C98_reversible⟩

/-- Concrete signals, sampled every 1/4: a wave about 3; a signal run backwards; the signal with an offset. -/
example : okWith (fun R => R == [[2, -2, 2, -2, 2, -2, 2, -2, 2, -2], List.replicate 10 3])
      (emd 20 Scipy.scipy EMD.sampleFixe (EMD.zigzag 10 3 2 : List ℚ) ((List.range 10).map (fun k : Nat => (5 + k / 4 : ℚ))) (-1)) = true ∧
    okWith (fun R => R.length == 3 &&
      okWith (fun R' => R' == R.map List.reverse)
        (emd 20 Scipy.scipy EMD.sampleFixe EMD.sampleS.reverse ((List.range 10).map (fun k : Nat => (5 + k / 4 : ℚ))) (-1)) &&
      okWith (fun R' => R'.take 2 == R.take 2)
        (emd 20 Scipy.scipy EMD.sampleFixe (EMD.sampleS.map (fun x => x + 7)) ((List.range 10).map (fun k : Nat => (5 + k / 4 : ℚ))) (-1)))
    (emd 20 Scipy.scipy EMD.sampleFixe EMD.sampleS ((List.range 10).map (fun k : Nat => (5 + k / 4 : ℚ))) (-1)) = true := by
  constructor <;> decide +kernel

/-- The hypothesis of `C159_reversal_partial` for this signal. -/
example (x : List ℚ) (hx : Occurs Scipy.scipy EMD.sampleFixe ((List.range EMD.sampleS.length).map (fun k : Nat => (k : ℚ))) EMD.sampleS (-1) [] (-1) x) :
    NoTies x := EMD.runFree_sound hx 20 (by decide +kernel)

/-- The claim on the direction is false for plateaus. -/
theorem C159_reversal_counterexample : ReversibleAll (Scipy.scipy : SciPy ℚ) ∧
    okWith (fun R => okWith (fun R' => R' != R.map List.reverse)
        (emd 20 Scipy.scipy EMD.sampleFixe ([0, 3, -1, 2, 2, -2, 5, 1] : List ℚ).reverse ((List.range 8).map (fun k : Nat => (k : ℚ))) 1))
      (emd 20 Scipy.scipy EMD.sampleFixe ([0, 3, -1, 2, 2, -2, 5, 1] : List ℚ) ((List.range 8).map (fun k : Nat => (k : ℚ))) 1) = true :=
  ⟨Scipy.C98_reversible, by decide +kernel⟩

end Jit
end PyEMD
