import Verif.Props.Scipy
import Verif.Props.Negation
import Verif.Props.Affine
import Verif.Props.Reversal
import Verif.Props.EemdTotal
import Verif.Props.MatlabTotal

/-!
# The symmetries and the absence of exceptions with the modelled interpolators of scipy (C107)

C14, C74, C75, C82, C91 and C106 are stated for any interpolators meeting a contract.  Here the contracts are discharged: the interpolators are the
ones of `Verif/Model/Scipy.lean`.
-/

set_option linter.unusedSectionVars false

namespace PyEMD
namespace Scipy

variable {K : Type} [Field K] [LinearOrder K] [IsStrictOrderedRing K] [FloorRing K] {ρ : Type}

/-- C107: turning the signal upside down turns all components upside down. -/
theorem C107_negation (fuel : Nat) (o : EMD.Obj K) (hd : o.cfg.detection = .simple) (S : List K) (T : Option (List K)) (m : Int)
    (rows : List (List K)) (o' : EMD.Obj K) (h : EMD.Obj.emd fuel scipy o S T m = (.ok rows, o')) :
    ∃ o'', EMD.Obj.emd fuel scipy o (S.map (fun x => -x)) T m = (.ok (rows.map (fun r => r.map (fun x => -x))), o'') := by
  obtain ⟨o'', h1, -⟩ := (EMD.C14_negation fuel scipy C98_odd o hd S T m).1 rows o' h
  exact ⟨o'', h1⟩

/-- C107: with `FIXE` or `FIXE_H`, an offset of the signal is an offset of the residue. -/
theorem C107_offset (fuel : Nat) (o : EMD.Obj K) (hd : o.cfg.detection = .simple) (hmode : o.cfg.FIXE ≠ 0 ∨ o.cfg.FIXE_H ≠ 0)
    (hM : 2 ≤ o.cfg.MAX_ITERATION) (hthr : o.cfg.totalPowerThr ≤ o.cfg.rangeThr ∨ o.cfg.totalPowerThr ≤ 0)
    (b : K) (S : List K) (T : Option (List K)) (m : Int) (rows : List (List K)) (o' : EMD.Obj K)
    (h : EMD.Obj.emd fuel scipy o S T m = (.ok rows, o')) :
    ∃ rows' o'', EMD.Obj.emd fuel scipy o (S.map (fun x => x + b)) T m = (.ok rows', o'') ∧ o''.imfs = o'.imfs ∧
      o''.residue = o'.residue.map (fun r => r.map (fun x => x + b)) := by
  rcases EMD.C74_offset_partial fuel scipy C98_affine o hd hmode hM hthr b S T m with ⟨rw', rows', imfs, residue, h1, h2⟩ | ⟨e, h1, -⟩
  · rw [h] at h1
    obtain ⟨-, rfl⟩ := Prod.mk.inj h1
    exact ⟨rows', _, h2, rfl, rfl⟩
  · rw [h] at h1
    cases (Prod.mk.inj h1).1

/-- C107: with `FIXE` or `FIXE_H`, a change of the unit of signal and thresholds is a change of the unit of all components. -/
theorem C107_scaling (fuel : Nat) (o : EMD.Obj K) (hd : o.cfg.detection = .simple) (hmode : o.cfg.FIXE ≠ 0 ∨ o.cfg.FIXE_H ≠ 0)
    (c : K) (hc : 0 < c) (S : List K) (T : Option (List K)) (m : Int) (rows : List (List K)) (o' : EMD.Obj K)
    (h : EMD.Obj.emd fuel scipy o S T m = (.ok rows, o')) :
    ∃ rows' o'', EMD.Obj.emd fuel scipy
        { o with cfg := { o.cfg with rangeThr := c * o.cfg.rangeThr, totalPowerThr := c * o.cfg.totalPowerThr } } (S.map (fun x => c * x)) T m
        = (.ok rows', o'') ∧
      o''.imfs = o'.imfs.map (fun l => l.map (fun r => r.map (fun x => c * x))) ∧
      o''.residue = o'.residue.map (fun r => r.map (fun x => c * x)) := by
  rcases EMD.C75_scaling_partial fuel scipy C98_affine o hd hmode c hc S T m with ⟨rw', rows', imfs, residue, h1, h2⟩ | ⟨e, h1, -⟩
  · rw [h] at h1
    obtain ⟨-, rfl⟩ := Prod.mk.inj h1
    exact ⟨rows', _, h2, rfl, rfl⟩
  · rw [h] at h1
    cases (Prod.mk.inj h1).1

/-- C107: `eemd` without separated trends and with a limit on the number of components returns, whatever the noise. -/
theorem C107_eemd_returns (rng : Rng K ρ) (hs : EEMD.Spec.Sized rng) (fuel : Nat) (sched : List Nat)
    (o : EEMD.Obj K ρ) (hd : o.emd.cfg.detection = .simple) (hnb : 1 ≤ o.emd.cfg.nbsym) (hk : o.emd.cfg.splineKind ≠ .unknown)
    (hn : o.cfg.noiseKind ≠ .unknown) (hord : o.cfg.parallel = true → EEMD.Spec.Schedule o.cfg.trials o.cfg.processes sched)
    (hsep : o.cfg.separateTrends = false) (S : List K) (hS : 2 ≤ S.length) (T : Option (List K))
    (hT : ∀ T', T = some T' → T'.length = S.length) (k : Nat) (hk1 : 1 ≤ k) (hf : k ≤ fuel) :
    ∃ E, (o.eemd rng fuel scipy sched S T k).1 = .ok E :=
  EEMD.C91_returns rng hs fuel scipy C98_accepts sched o hd hnb hk hn hord hsep S hS T hT k hk1 hf

/-- C107: `EMD_matlab` with a limit on the number of components returns. -/
theorem C107_matlab_returns (fuel : Nat) (cfg : Matlab.Cfg K) (hnb : 1 ≤ cfg.nbsym) (hk : Matlab.Supported cfg.splineKind)
    (S : List K) (T : Option (List K)) (hT : ∀ T', T = some T' → T'.length = S.length ∧ T'.Pairwise (· < ·)) (k : Nat) (hk2 : 2 ≤ k)
    (hf : k ≤ fuel + 1) : ∃ R, Matlab.emd fuel scipy cfg S T k = .ok R :=
  Matlab.C106_returns fuel scipy C98_accepts cfg hnb hk S T hT k hk2 hf

/-- The hypotheses of `C107_negation`, `C107_offset` and `C107_scaling` are met by the sample signal with two siftings per component. -/
example : ∃ (o o' : EMD.Obj ℚ) (rows : List (List ℚ)), o.cfg.detection = .simple ∧ o.cfg.FIXE ≠ 0 ∧ 2 ≤ o.cfg.MAX_ITERATION ∧
    o.cfg.totalPowerThr ≤ o.cfg.rangeThr ∧ EMD.Obj.emd 3 scipy o EMD.sampleS none (2 : Nat) = (.ok rows, o') := by
  let cfg : EMD.Cfg ℚ := { EMD.sampleFixe with totalPowerThr := 0 }
  obtain ⟨R, hR⟩ := C98_emd_returns 3 cfg rfl (by decide) (by decide) EMD.sampleS (by decide) none (by rintro T ⟨⟩) 2 (by decide) (by decide)
  refine ⟨⟨cfg, none, none⟩, ⟨cfg, some R.imfs, some R.residue⟩, R.rows, rfl, by decide +kernel, by decide, by decide +kernel, ?_⟩
  unfold EMD.Obj.emd
  simp only [hR]

end Scipy
end PyEMD
