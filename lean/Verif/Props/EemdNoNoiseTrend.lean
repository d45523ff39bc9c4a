import Verif.Props.Eemd
import Verif.Props.EmdExact

/-!
# C38 with `separate_trends`: `EEMD` without noise is `EMD` as long as there is a component
-/

set_option linter.unusedSectionVars false

namespace PyEMD
namespace EEMD
open Spec

variable {K ρ : Type} [Field K] [LinearOrder K] [IsStrictOrderedRing K] [FloorRing K]

/-- Without noise all trials give the same. -/
theorem eemd_zero (rng : Rng K ρ) (hz : ZeroScale rng) (fuel : Nat) (sp : SciPy K) (sched : List Nat) (o : Obj K ρ) (S : List K)
    (T : Option (List K)) (m : Int) (hS : S ≠ []) (ht : 1 ≤ o.cfg.trials)
    (hk : o.cfg.noiseKind ≠ .unknown) (hord : o.cfg.parallel = true → Schedule o.cfg.trials o.cfg.processes sched)
    (h0 : o.cfg.noiseWidth = 0 ∨ ∀ x ∈ S, ∀ y ∈ S, x = y) :
    ∃ job, prepare o.cfg S T m = .ok job ∧ ∀ x, trialOut fuel sp o.cfg.separateTrends o.emd.cfg job (List.replicate job.S.length 0) = x →
      (o.eemd rng fuel sp sched S T m).1 = x.map (fun out =>
        ensembleMean S.length (renameTrend ((List.replicate o.cfg.trials out).foldl addTrial []))) := by
  obtain ⟨job, hj⟩ : ∃ job, prepare o.cfg S T m = .ok job := by
    have hl : S.length ≠ 0 := by simpa using hS
    have he : S.isEmpty = false := by simpa using hS
    unfold prepare
    cases T <;> simp [bind, Except.bind, pure, Except.pure, EMD.timeline, hl, npMaxE, npMinE, he]
  obtain ⟨-, hjS, hjT, hjs, hjm⟩ := prepare_ok hj
  have hsc : job.scale = 0 := by
    rw [show job.scale = _ from hjs]
    rcases h0 with h0 | h0
    · rw [h0, zero_mul]
    · rw [npMax_sub_npMin_const S hS h0, pyAbs_eq, abs_zero, mul_zero]
  refine ⟨job, hj, fun x hto => ?_⟩
  unfold Obj.eemd
  rw [hj]
  dsimp only
  cases hp : o.cfg.parallel with
  | false =>
    simp only [Bool.false_eq_true, if_false]
    obtain ⟨hok, herr⟩ := runTrials_zero rng hz fuel sp o.cfg hk job hsc o.cfg.trials { random := o.random, emd := o.emd } []
    cases x with
    | error e =>
      obtain ⟨st', d', h⟩ := herr e hto (by omega)
      rw [h]
      rfl
    | ok out =>
      obtain ⟨st', h⟩ := hok _ hto
      rw [h]
      rfl
  | true =>
    simp only [if_true]
    obtain ⟨hpp, hperm⟩ := hord hp
    have hc : chunkSize o.cfg.trials o.cfg.processes ≠ 0 := chunkSize_ne_zero hpp (by omega)
    have hcov : ∀ i < (chunkLengths o.cfg.trials (chunkSize o.cfg.trials o.cfg.processes)).length, i ∈ sched := by
      intro i hi
      rw [chunkLengths_length _ _ (.inl hc), chunkSize_eq _ _ hpp] at hi
      exact hperm.mem_iff.2 (List.mem_range.2 hi)
    have hpos : ∀ n ∈ chunkLengths o.cfg.trials (chunkSize o.cfg.trials o.cfg.processes), 0 < n := by
      intro n hn
      unfold chunkLengths at hn
      rcases List.mem_append.1 hn with hn | hn
      · rw [(List.mem_replicate.1 hn).2]; omega
      · split at hn
        · cases hn
        · rw [List.mem_singleton.1 hn]; omega
    have hsum := chunkLengths_sum o.cfg.trials (chunkSize o.cfg.trials o.cfg.processes) (.inl hc)
    generalize chunkLengths o.cfg.trials (chunkSize o.cfg.trials o.cfg.processes) = lens at hcov hpos hsum
    cases x with
    | error e =>
      have hall : lens.map (fun n => runChunk rng fuel sp o.cfg job n { random := o.random, emd := o.emd }) =
          lens.map (fun _ => .error e) := by
        apply List.map_congr_left
        intro n hn
        exact (runChunk_zero rng hz fuel sp o.cfg hk job hsc n { random := o.random, emd := o.emd }).2 e hto (hpos n hn)
      have hne : lens ≠ [] := by
        intro h
        rw [h] at hsum
        simp at hsum
        omega
      rw [hall]
      obtain ⟨n, hn⟩ := List.exists_mem_of_ne_nil _ hne
      obtain ⟨e', he', hmem⟩ := poolMap_error (β := List (List K) × Option (List K)) (lens.map (fun _ => .error e)) sched
        (by rw [List.length_map]; exact hcov) e (List.mem_map.2 ⟨n, hn, rfl⟩)
      rw [he']
      obtain ⟨_, -, h⟩ := List.mem_map.1 hmem
      injection h with h
      rw [h]
      rfl
    | ok out =>
      have hall : lens.map (fun n => runChunk rng fuel sp o.cfg job n { random := o.random, emd := o.emd }) =
          (lens.map (fun n => List.replicate n out)).map .ok := by
        rw [List.map_map]
        apply List.map_congr_left
        intro n hn
        exact (runChunk_zero rng hz fuel sp o.cfg hk job hsc n { random := o.random, emd := o.emd }).1 _ hto
      rw [hall, poolMap_ok _ _ (by rw [List.length_map]; exact hcov)]
      have hflat : (lens.map (fun n => List.replicate n out)).flatten = List.replicate lens.sum out := by
        clear hcov hpos hsum hall
        induction lens with
        | nil => rfl
        | cons n lens ih =>
          rw [List.map_cons, List.flatten_cons, ih, List.sum_cons, List.replicate_add]
      rw [hflat, hsum]
      rfl

theorem mean_same_trend (n t : Nat) (ht : 1 ≤ t) (rows : List (List K)) (trend : List K) (hl : ∀ r ∈ rows, r.length = n) (htr : trend.length = n) :
    ensembleMean n (renameTrend ((List.replicate t (rows, some trend)).foldl addTrial [])) = rows ++ [trend] := by
  have hne : List.replicate t (rows, some trend) ≠ [] := by
    intro h
    rw [List.replicate_eq_nil_iff] at h
    omega
  rw [foldl_addTrial_some _ hne (by intro r hr; rw [(List.mem_replicate.1 hr).2]; rfl), renameTrend_cons, List.map_replicate,
    height_replicate t ht]
  have htrends : (List.replicate t (rows, some trend)).filterMap (·.2) = List.replicate t trend := by
    clear hne ht
    induction t with
    | zero => rfl
    | succ t ih => rw [List.replicate_succ, List.filterMap_cons]; simp [ih, List.replicate_succ]
  rw [htrends]
  unfold ensembleMean
  rw [List.map_append]
  congr 1
  · apply List.ext_getElem
    · simp [dictOf]
    · intro k h1 h2
      simp only [dictOf, List.map_map, List.getElem_map, List.getElem_range, Function.comp_apply]
      rw [order_replicate t rows k h2, mean_replicate n _ (hl _ (List.getElem_mem _)) t ht]
  · simp only [List.map_cons, List.map_nil]
    rw [mean_replicate n _ htr t ht]

/-- C38 with separated trends: without noise `eemd` returns exactly what `emd` of its inner `EMD` returns, exceptions included, unless that
is no row at all (signals that vanish): then there is no trend and `IndexError` is raised. -/
theorem C38_separate_trends (rng : Rng K ρ) (hz : ZeroScale rng) (fuel : Nat) (sp : SciPy K) (sched : List Nat) (o : Obj K ρ) (S : List K)
    (T : Option (List K)) (m : Int) (hS : S ≠ []) (ht : 1 ≤ o.cfg.trials) (hsep : o.cfg.separateTrends = true)
    (hk : o.cfg.noiseKind ≠ .unknown) (hord : o.cfg.parallel = true → Schedule o.cfg.trials o.cfg.processes sched)
    (h0 : o.cfg.noiseWidth = 0 ∨ ∀ x ∈ S, ∀ y ∈ S, x = y) :
    ((o.emd.emd fuel sp S T m).1 ≠ .ok [] → (o.eemd rng fuel sp sched S T m).1 = (o.emd.emd fuel sp S T m).1) ∧
    ((o.emd.emd fuel sp S T m).1 = .ok [] → (o.eemd rng fuel sp sched S T m).1 = .error .indexError) := by
  obtain ⟨job, hj, key⟩ := eemd_zero rng hz fuel sp sched o S T m hS ht hk hord h0
  obtain ⟨-, hjS, hjT, hjs, hjm⟩ := prepare_ok hj
  have hv : vadd S (List.replicate S.length 0) = S := zipWith_zero S
  have hto : trialOut fuel sp o.cfg.separateTrends o.emd.cfg job (List.replicate job.S.length 0) =
      match EMD.emdPure fuel sp o.emd.cfg S T m with
      | .error e => .error e
      | .ok R => match EMD.Obj.getImfsAndTrend ⟨o.emd.cfg, some R.imfs, some R.residue⟩ with
        | .error e => .error e
        | .ok (imfs, trend) => .ok (imfs, some trend) := by
    unfold trialOut
    rw [hjS, hv, hjm, emdPure_timeline fuel sp o.emd.cfg S T job.T m hS hjT, hsep]
    rfl
  rw [key _ hto]
  cases hR : EMD.emdPure fuel sp o.emd.cfg S T m with
  | error e =>
    have he : (o.emd.emd fuel sp S T m).1 = .error e := by
      unfold EMD.Obj.emd
      rw [hR]
    rw [he]
    exact ⟨fun _ => rfl, fun h => by cases h⟩
  | ok R =>
    have he : o.emd.emd fuel sp S T m = (.ok R.rows, ⟨o.emd.cfg, some R.imfs, some R.residue⟩) := by
      unfold EMD.Obj.emd
      rw [hR]
    have hlen := (EMD.C02_row_lengths _ _ _ _ _ _ _ _ he).1
    rw [he]
    constructor
    · intro hne
      have hne : R.rows ≠ [] := fun h => hne (by rw [h])
      have hC := EMD.C04_imfs_and_trend_partial fuel sp o.emd _ S T m R.rows he hne
      simp only [hC]
      show Except.ok (ensembleMean S.length (renameTrend
        ((List.replicate o.cfg.trials (R.rows.dropLast, some (R.rows.getLast hne))).foldl addTrial []))) = _
      rw [mean_same_trend S.length o.cfg.trials ht _ _ (fun r hr => hlen r (List.dropLast_subset _ hr))
        (hlen _ (List.getLast_mem hne)), List.dropLast_append_getLast]
    · intro h
      have h : R.rows = [] := Except.ok.inj h
      have hg : EMD.Obj.getImfsAndTrend ⟨o.emd.cfg, some R.imfs, some R.residue⟩ = .error .indexError := by
        obtain ⟨imfs, res, h1, -, ⟨hv, h2⟩ | ⟨hv, h2⟩⟩ := EMD.C03_rows_vs_stored fuel sp o.emd _ S T m R.rows he
        · have himf : imfs = [] := by rw [← h2, h]
          subst himf
          simp only [EMD.Obj.getImfsAndTrend, h1, bind, Except.bind, (EMD.allclose0_iff _).2 hv, if_true, EMD.pyGet_last_nil]
        · rw [h] at h2; simp at h2
      simp only [hg]
      rfl

/-- A call without noise that gives a component and a trend, a constant signal whose only row is the trend, and a signal that vanishes. -/
example : okWith (fun E => E.length == 2)
      ((sampleObj { sampleCfg with noiseWidth := 0, separateTrends := true }).eemd sampleRng 20 linSciPy [] sampleS none (-1)).1 = true ∧
    okWith (fun E => E == [[3, 3, 3]])
      ((sampleObj { sampleCfg with separateTrends := true }).eemd sampleRng 20 linSciPy [] [3, 3, 3] none (-1)).1 = true ∧
    okWith (fun E => E == []) ((sampleObj sampleCfg).emd.emd 20 linSciPy [0, 0, 0] none (-1)).1 = true ∧
    errIs .indexError ((sampleObj { sampleCfg with separateTrends := true }).eemd sampleRng 20 linSciPy [] [0, 0, 0] none (-1)).1 = true ∧
    ZeroScale sampleRng :=
  ⟨by decide +kernel, by decide +kernel, by decide +kernel, by decide +kernel, sampleRng_zero⟩

end EEMD
end PyEMD
