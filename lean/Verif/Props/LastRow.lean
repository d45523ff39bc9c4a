import Verif.Props.EmdExact
import Verif.Props.EemdTotal
import Verif.Props.Ceemdan

/-!
# The last row as residue (C133)
-/

set_option linter.unusedSectionVars false

namespace PyEMD

variable {K ρ : Type} [Field K] [LinearOrder K] [IsStrictOrderedRing K] [FloorRing K]

/-- `components[-1]` differs by at most `tol` from the signal minus the sum of `components[:-1]`, sample by sample. -/
def LastIsRest (tol : K) (S : List K) (components : List (List K)) : Prop :=
  ∃ others last, components = others ++ [last] ∧
    ∀ i (hi : i < S.length), |last.getD i 0 - (S[i] - (others.map (fun r => r.getD i 0)).sum)| ≤ tol

theorem lastIsRest_of_sum {tol : K} {S : List K} {C : List (List K)} (hne : C ≠ [])
    (h : ∀ i (hi : i < S.length), |S[i] - (C.map (fun r => r.getD i 0)).sum| ≤ tol) : LastIsRest tol S C := by
  obtain ⟨others, last, rfl⟩ : ∃ others last, C = others ++ [last] := ⟨C.dropLast, C.getLast hne, (List.dropLast_append_getLast hne).symm⟩
  refine ⟨others, last, rfl, fun i hi => ?_⟩
  have := h i hi
  rw [abs_sub_comm] at this
  rw [List.map_append, List.sum_append] at this
  simp only [List.map_cons, List.map_nil, List.sum_cons, List.sum_nil, add_zero] at this
  rw [show last.getD i 0 - (S[i] - (others.map (fun r => r.getD i 0)).sum) = (others.map (fun r => r.getD i 0)).sum + last.getD i 0 - S[i] by ring]
  exact this

/-- C133 for `EMD`: the last row is what the other rows leave of the signal, up to the tolerance `1e-8` of `np.allclose`. -/
theorem C133_emd (fuel : Nat) (sp : SciPy K) (o o' : EMD.Obj K) (S : List K) (T : Option (List K)) (m : Int) (rows : List (List K))
    (hne : rows ≠ []) (h : o.emd fuel sp S T m = (.ok rows, o')) : LastIsRest (1 / 100000000) S rows := by
  obtain ⟨imfs, res, -, -, h1⟩ := EMD.C01_reconstruction fuel sp o o' S T m rows h
  exact lastIsRest_of_sum hne (fun i hi => (h1 i hi).1)

/-- C133 for `CEEMDAN`: the last row is what the other rows leave of the signal. -/
theorem C133_ceemdan (rng : Rng K ρ) (hs : EEMD.Spec.Sized rng) (std : List K → K) (fuel : Nat) (sp : SciPy K) (orderN orderT : List Nat)
    (o o' : CEEMDAN.Obj K ρ) (S : List K) (T : Option (List K)) (m : Int) (C : List (List K))
    (hN : o.cfg.parallel = true → EEMD.Spec.Schedule o.cfg.trials o.cfg.processes orderN)
    (hT : o.cfg.parallel = true → orderT.Perm (List.range o.cfg.trials)) (hne : C ≠ [])
    (h : o.ceemdan rng std fuel sp orderN orderT S T m = (.ok C, o')) : LastIsRest 0 S C := by
  obtain ⟨-, h1, -⟩ := CEEMDAN.C39_complete rng hs std fuel sp orderN orderT o o' S T m C hN hT h
  exact lastIsRest_of_sum hne (fun i hi => by rw [h1 i hi]; simp)

example : okWith (fun rows => decide (rows.length = 3)) ((⟨EMD.sampleCfg, none, none⟩ : EMD.Obj ℚ).emd 20 linSciPy EMD.sampleS none (-1)).1 = true ∧
    okWith (fun C => decide (C.length = 3))
      ((CEEMDAN.sampleObj CEEMDAN.sampleCfg).ceemdan EEMD.sampleRng CEEMDAN.sampleStd 20 linSciPy [] [] EMD.sampleS none (-1)).1 = true ∧
    EEMD.Spec.Sized EEMD.sampleRng := ⟨by decide +kernel, by decide +kernel, EEMD.sampleRng_sized⟩

namespace EEMD
open Spec

/-- C133 for `EEMD` with uniform noise: if all trials have the same number of rows, the last row is what the other rows leave of the signal, up to half the
width of the noise and the tolerance of `np.allclose`.  Missing: trials with different numbers of rows, for which the claim is false no matter
how weak the noise is (`C133_counterexample`). -/
theorem C133_eemd_partial (rng : Rng K ρ) (hb : UniformBounded rng) (fuel : Nat) (sp : SciPy K) (sched : List Nat) (o o' : Obj K ρ) (S : List K)
    (T : Option (List K)) (m : Int) (E : List (List K)) (hs : Sized rng)
    (hord : o.cfg.parallel = true → Schedule o.cfg.trials o.cfg.processes sched) (ht : 1 ≤ o.cfg.trials) (hk : o.cfg.noiseKind = .uniform)
    (hw : 0 ≤ o.cfg.noiseWidth) (h : o.eemd rng fuel sp sched S T m = (.ok E, o')) (hc : ∀ c ∈ ensembleCount o'.allImfs, c = o.cfg.trials)
    (hne : E ≠ []) (a b : K) (ha : ∀ s ∈ S, a ≤ s) (hb' : ∀ s ∈ S, s ≤ b) :
    LastIsRest (o.cfg.noiseWidth * (b - a) / 2 + 1 / 100000000) S E := by
  have h1 := C93_uniform rng hb fuel sp sched o o' S T m E hs hord ht hk hw h a b ha hb'
  obtain ⟨_, _, _, _, -, hl, -⟩ := C77_weighted_sum rng fuel sp sched o o' S T m E hs hord ht h
  refine lastIsRest_of_sum hne (fun i hi => ?_)
  have h2 := h1 i hi
  have hz : ∀ (cs : List Nat) (E : List (List K)), cs.length = E.length → (∀ c ∈ cs, c = o.cfg.trials) →
      (List.zipWith (fun (c : Nat) row => (c : K) / (o.cfg.trials : K) * row.getD i 0) cs E) = E.map (fun r => r.getD i 0) := by
    intro cs
    induction cs with
    | nil => intro E hE _; cases E with
      | nil => rfl
      | cons _ _ => simp at hE
    | cons c cs ih =>
      intro E hE hcs
      cases E with
      | nil => simp at hE
      | cons r E =>
        rw [List.zipWith_cons_cons, List.map_cons, ih E (by simpa using hE) (fun c hc => hcs c (by simp [hc])), hcs c (by simp)]
        have : (o.cfg.trials : K) ≠ 0 := by
          have : o.cfg.trials ≠ 0 := by omega
          exact_mod_cast this
        rw [div_self this, one_mul]
  rw [hz _ _ hl hc, abs_sub_comm] at h2
  simpa [List.getD_eq_getElem?_getD, hi] using h2

/-- Two trials with uniform noise of the relative width `1e-6`. -/
def sampleWeak : Obj ℚ Nat :=
  { sampleObj { sampleCfg with noiseKind := .uniform, noiseWidth := 1 / 1000000, trials := 2 } with emd := ⟨{ EMD.sampleFixe with totalPowerThr := 0 }, none, none⟩ }

/-- Every trial has two rows; the claim by evaluation at the first sample. -/
example : okWith (fun E => decide (E.length = 2) && decide (|E.foldl (fun a r => a + r.getD 0 0) 0 - 0| ≤ 5 / 1000000 / 2 + 1 / 100000000))
      (sampleWeak.eemd sampleRng 20 linSciPy [] sampleS none (-1)).1 = true ∧
    ensembleCount (sampleWeak.eemd sampleRng 20 linSciPy [] sampleS none (-1)).2.allImfs = [2, 2] := by decide +kernel

example (E : List (List ℚ)) (o' : Obj ℚ Nat) (h : sampleWeak.eemd sampleRng 20 linSciPy [] sampleS none (-1) = (.ok E, o'))
    (hc : ∀ c ∈ ensembleCount o'.allImfs, c = 2) (hne : E ≠ []) : LastIsRest (1 / 1000000 * (3 - (-2)) / 2 + 1 / 100000000) sampleS E :=
  C133_eemd_partial sampleRng sampleRng_bounded 20 linSciPy [] sampleWeak o' sampleS none (-1) E sampleRng_sized (fun h => by cases h) (by decide) rfl
    (by decide +kernel) h hc hne (-2) 3 (by decide) (by decide)

/-- **C133 is false for `EEMD`**: the signal lies between 100 and 101, the noise is below `1e-6`, but the last row differs by more than 50 from what the other
row leaves of the signal, because one of the two trials has one row and the other trial two. -/
theorem C133_counterexample : ∃ (o o' : Obj ℚ Nat) (S : List ℚ) (E : List (List ℚ)), o.cfg.noiseKind = .uniform ∧ o.cfg.noiseWidth = 1 / 1000000 ∧
    (∀ s ∈ S, 100 ≤ s ∧ s ≤ 101) ∧ o.eemd sampleRng 20 linSciPy [] S none (-1) = (.ok E, o') ∧ ensembleCount o'.allImfs = [2, 1] ∧
    ¬ LastIsRest 50 S E := by
  have h : okWith (fun E => decide (50 < |(E.getLastD []).getD 0 0 - (100 - (E.dropLast.map (fun r => r.getD 0 0)).sum)|))
      (sampleWeak.eemd sampleRng 20 linSciPy [] [100, 100, 100, 100, 101, 100, 100] none (-1)).1 = true := by
    decide +kernel
  obtain ⟨E, h1, h⟩ := okWith_iff.1 h
  refine ⟨sampleWeak, _, [100, 100, 100, 100, 101, 100, 100], E, rfl, rfl, by decide, Prod.ext h1 rfl, by decide +kernel, ?_⟩
  rintro ⟨others, last, rfl, hl⟩
  have h2 := of_decide_eq_true h
  rw [List.dropLast_concat, List.getLastD_concat] at h2
  have h3 := hl 0 (by decide)
  simp only [List.getElem_cons_zero] at h3
  exact absurd h2 (not_lt.2 h3)

end EEMD
end PyEMD
