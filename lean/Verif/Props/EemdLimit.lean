import Verif.Props.EemdTotal

/-!
# C156: `EEMD` respects `max_imf`
-/

set_option linter.unusedSectionVars false

namespace PyEMD
namespace EEMD
open Spec

variable {α ρ : Type} [Add α] [Sub α] [Mul α] [Div α] [Neg α] [LT α] [LE α] [BEq α]
  [DecidableLT α] [DecidableLE α] [NpScalar α]

theorem height_le {cs : List (List (List α))} {n : Nat} (h : ∀ c ∈ cs, c.length ≤ n) : height cs ≤ n := by
  by_contra hn
  obtain ⟨c, hc, hk⟩ := lt_height.1 (Nat.lt_of_not_le hn)
  exact absurd (h c hc) (by omega)

theorem le_height {cs : List (List (List α))} {c : List (List α)} (h : c ∈ cs) : c.length ≤ height cs := by
  by_contra hn
  exact absurd (lt_height.2 ⟨c, h, Nat.lt_of_not_le hn⟩) (lt_irrefl _)

theorem height_mem {cs : List (List (List α))} (h : cs ≠ []) : ∃ c ∈ cs, c.length = height cs := by
  rcases Nat.eq_zero_or_pos (height cs) with h0 | h0
  · obtain ⟨c, hc⟩ := List.exists_mem_of_ne_nil _ h
    exact ⟨c, hc, by have := le_height hc; omega⟩
  · obtain ⟨c, hc, hk⟩ := lt_height.1 (show height cs - 1 < height cs by omega)
    exact ⟨c, hc, by have := le_height hc; omega⟩

/-- The rows of a trial, its trend included. -/
def rowsIn (out : List (List α) × Option (List α)) : Nat := out.1.length + if out.2.isSome then 1 else 0

theorem TrialOf.rows {fuel : Nat} {sp : SciPy α} {sep : Bool} {ecfg : EMD.Cfg α} {S T : List α} {m : Int} {noise : List α}
    {out : List (List α) × Option (List α)} (h : TrialOf fuel sp sep ecfg S T m noise out) :
    ∃ R, EMD.emdPure fuel sp ecfg (List.zipWith (fun s x => s + x) S noise) (some T) m = .ok R ∧ R.rows.length = rowsIn out := by
  obtain ⟨R, hR, h0, h1⟩ := h
  refine ⟨R, hR, ?_⟩
  cases sep with
  | false => rw [h0 rfl]; rfl
  | true =>
    obtain ⟨imfs, trend, hg, rfl⟩ := h1 rfl
    have hemd : (⟨ecfg, none, none⟩ : EMD.Obj α).emd fuel sp (List.zipWith (fun s x => s + x) S noise) (some T) m =
        (.ok R.rows, ⟨ecfg, some R.imfs, some R.residue⟩) := by
      unfold EMD.Obj.emd
      rw [hR]
    by_cases hne : R.rows = []
    · obtain ⟨i, res, h1, -, ⟨hv, h2⟩ | ⟨hv, h2⟩⟩ := EMD.C03_rows_vs_stored _ _ _ _ _ _ _ _ hemd
      · have himf : i = [] := by rw [← h2, hne]
        subst himf
        simp only [EMD.Obj.getImfsAndTrend, h1, bind, Except.bind, (EMD.allclose0_iff _).2 hv, if_true, EMD.pyGet_last_nil] at hg
        cases hg
      · rw [hne] at h2; simp at h2
    · rw [EMD.C04_imfs_and_trend_partial _ _ _ _ _ _ _ _ hemd hne] at hg
      simp only [Except.ok.injEq, Prod.mk.injEq] at hg
      obtain ⟨rfl, rfl⟩ := hg
      have : 0 < R.rows.length := List.length_pos_iff.2 hne
      simp only [rowsIn, List.length_dropLast, Option.isSome_some, if_true]
      omega

/-- **C156 (number of rows).**  `eemd` returns as many rows as the largest decomposition among its trials has, whether or not trends are separated:
no trial has more, and some trial has as many.  Law-free. -/
theorem C156_rows (rng : Rng α ρ) (fuel : Nat) (sp : SciPy α) (sched : List Nat) (o o' : Obj α ρ) (S : List α)
    (T : Option (List α)) (m : Int) (E : List (List α)) (ht : 1 ≤ o.cfg.trials)
    (hord : o.cfg.parallel = true → Schedule o.cfg.trials o.cfg.processes sched)
    (h : o.eemd rng fuel sp sched S T m = (.ok E, o')) :
    ∃ T' scale noises outs, Ran rng fuel sp o o' S T m T' scale noises outs ∧
      (∀ noise ∈ noises, ∃ R, EMD.emdPure fuel sp o.emd.cfg (List.zipWith (fun s x => s + x) S noise) (some T') m = .ok R ∧
        R.rows.length ≤ E.length) ∧
      (∃ noise ∈ noises, ∃ R, EMD.emdPure fuel sp o.emd.cfg (List.zipWith (fun s x => s + x) S noise) (some T') m = .ok R ∧
        R.rows.length = E.length) := by
  obtain ⟨T', scale, noises, outs, hr, h1, h2, -⟩ := Obj.eemd_ran hord h
  have hne : outs ≠ [] := by
    intro h0
    have := hr.count
    rw [h0] at this
    simp at this
    omega
  have hE : E.length = height (outs.map (·.1)) + (if o.cfg.separateTrends then 1 else 0) ∧
      ∀ out ∈ outs, rowsIn out = out.1.length + (if o.cfg.separateTrends then 1 else 0) := by
    cases hsep : o.cfg.separateTrends with
    | false =>
      have hn := hr.none hsep
      rw [foldl_addTrial_none outs hn, renameTrend_dictOf] at h1
      refine ⟨by rw [h2, h1]; simp [ensembleMean, dictOf], fun out hout => ?_⟩
      have := hn out hout
      simp_all [rowsIn]
    | true =>
      have hn := hr.some hsep
      rw [foldl_addTrial_some outs hne hn, renameTrend_cons] at h1
      refine ⟨by rw [h2, h1]; simp [ensembleMean, dictOf], fun out hout => ?_⟩
      simp [rowsIn, hn out hout]
  have hl := hr.trial.length_eq
  refine ⟨T', scale, noises, outs, hr, fun noise hnoise => ?_, ?_⟩
  · obtain ⟨i, hi, rfl⟩ := List.getElem_of_mem hnoise
    obtain ⟨R, hR, hlen⟩ := TrialOf.rows ((List.forall₂_iff_get.1 hr.trial).2 i hi (by omega))
    refine ⟨R, hR, ?_⟩
    have hmem : outs.get ⟨i, by omega⟩ ∈ outs := List.get_mem _ _
    rw [hlen, hE.2 _ hmem, hE.1]
    have := le_height (List.mem_map.2 ⟨_, hmem, rfl⟩ : (outs.get ⟨i, by omega⟩).1 ∈ outs.map (·.1))
    omega
  · obtain ⟨c, hc, hcl⟩ := height_mem (cs := outs.map (·.1)) (by simpa using hne)
    obtain ⟨out, hout, rfl⟩ := List.mem_map.1 hc
    obtain ⟨i, hi, rfl⟩ := List.getElem_of_mem hout
    obtain ⟨R, hR, hlen⟩ := TrialOf.rows ((List.forall₂_iff_get.1 hr.trial).2 i (by omega) hi)
    refine ⟨_, List.get_mem _ ⟨i, by omega⟩, R, hR, ?_⟩
    rw [hlen, List.get_eq_getElem, hE.2 _ hout, hE.1, hcl]

theorem eemd_row_lengths {rng : Rng α ρ} (hs : Sized rng) {fuel : Nat} {sp : SciPy α} {sched : List Nat} {o o' : Obj α ρ} {S : List α}
    {T : Option (List α)} {m : Int} {E : List (List α)}
    (hord : o.cfg.parallel = true → Schedule o.cfg.trials o.cfg.processes sched)
    (h : o.eemd rng fuel sp sched S T m = (.ok E, o')) : ∀ row ∈ E, row.length = S.length := by
  obtain ⟨T', scale, noises, outs, hr, h1, h2, h3, h4, -⟩ := Obj.eemd_ran hord h
  have hlen := hr.lengths hs
  have hord' : ∀ k, ∀ r ∈ order (outs.map (·.1)) k, r.length = S.length := by
    intro k r hr'
    obtain ⟨c, hc, hck⟩ := List.mem_filterMap.1 hr'
    obtain ⟨out, hout, rfl⟩ := List.mem_map.1 hc
    exact (hlen out hout).1 r (List.mem_of_getElem? hck)
  have hmean : ∀ rows : List (List α), (∀ r ∈ rows, r.length = S.length) → (meanRows S.length rows).length = S.length := by
    intro rows hrows
    rw [meanRows, List.length_map, length_sumRows _ _ hrows]
  rw [h2, h1]
  intro e he
  cases hsep : o.cfg.separateTrends with
  | false =>
    rw [foldl_addTrial_none outs (hr.none hsep), renameTrend_dictOf] at he
    simp only [ensembleMean, dictOf, List.map_map, List.mem_map] at he
    obtain ⟨k, -, rfl⟩ := he
    exact hmean _ (hord' k)
  | true =>
    by_cases hne : outs = []
    · subst hne
      simp [ensembleMean, renameTrend] at he
    · rw [foldl_addTrial_some outs hne (hr.some hsep), renameTrend_cons] at he
      simp only [ensembleMean, dictOf, List.map_map, List.map_append, List.mem_append, List.mem_map] at he
      rcases he with ⟨k, -, rfl⟩ | ⟨p, hp, rfl⟩
      · exact hmean _ (hord' k)
      · rw [List.mem_singleton.1 hp]
        apply hmean
        intro t ht
        obtain ⟨out, hout, hot⟩ := List.mem_filterMap.1 ht
        exact (hlen out hout).2 t hot

/-- **C156 (limit).**  With `max_imf = k ≥ 1` at most `k + 1` rows are returned, each with as many samples as the signal. -/
theorem C156_max_imf (rng : Rng α ρ) (hs : Sized rng) (fuel : Nat) (sp : SciPy α) (sched : List Nat) (o o' : Obj α ρ) (S : List α)
    (T : Option (List α)) (k : Nat) (hk : 1 ≤ k) (E : List (List α)) (ht : 1 ≤ o.cfg.trials)
    (hord : o.cfg.parallel = true → Schedule o.cfg.trials o.cfg.processes sched)
    (h : o.eemd rng fuel sp sched S T k = (.ok E, o')) :
    E.length ≤ k + 1 ∧ ∀ row ∈ E, row.length = S.length := by
  obtain ⟨T', scale, noises, outs, hr, -, noise, hn, R, hR, hlen⟩ := C156_rows rng fuel sp sched o o' S T k E ht hord h
  have := (EMD.C07_max_imf_bound _ _ _ _ _ k hk R hR).2.2
  exact ⟨by omega, eemd_row_lengths hs hord h⟩

/-- **C156 (the call ends).**  With `max_imf = k ≥ 1` every trial ends after `k` rounds: the call returns or raises. -/
theorem C156_terminates (rng : Rng α ρ) (fuel : Nat) (sp : SciPy α) (sched : List Nat) (o : Obj α ρ) (S : List α)
    (T : Option (List α)) (k : Nat) (hk : 1 ≤ k) (hf : k ≤ fuel)
    (hord : o.cfg.parallel = true → Schedule o.cfg.trials o.cfg.processes sched) :
    (o.eemd rng fuel sp sched S T k).1 ≠ .error .outOfFuel := by
  cases hj : prepare o.cfg S T k with
  | error e =>
    have : (o.eemd rng fuel sp sched S T k).1 = .error e := by
      unfold Obj.eemd
      rw [hj]
    rw [this]
    rintro h
    injection h with h
    subst h
    by_cases hS : S = []
    · subst hS
      cases T <;> cases hj
    · have he : S.isEmpty = false := by simpa using hS
      have hl : S.length ≠ 0 := by simpa using hS
      unfold prepare at hj
      cases T <;> simp [bind, Except.bind, pure, Except.pure, EMD.timeline, hl, npMaxE, npMinE, he] at hj
  | ok job =>
    obtain ⟨-, hjS, hjT, hjs, hjm⟩ := prepare_ok hj
    intro h
    refine Obj.eemd_err (P := fun e => e ≠ .outOfFuel) hj hord ?_ _ h rfl
    rintro st hst e he rfl
    unfold trialUpdate at he
    split at he
    · rename_i e' r' hg
      injection he with he
      subst he
      unfold generateNoise at hg
      split at hg <;> simp_all
    · rename_i noise r' hg
      rw [hjm] at he
      have hem : (st.emd.emd fuel sp (vadd job.S noise) (some job.T) k).1 ≠ .error .outOfFuel := by
        unfold EMD.Obj.emd
        intro hx
        have := EMD.C07_max_imf_terminates fuel sp st.emd.cfg (vadd job.S noise) (some job.T) k hk hf
        cases hR : EMD.emdPure fuel sp st.emd.cfg (vadd job.S noise) (some job.T) k with
        | error e2 =>
          rw [hR] at hx this
          injection hx with hx
          exact this (by rw [hx])
        | ok R => rw [hR] at hx; cases hx
      split at he
      · rename_i e2 o2 hx
        rw [hx] at hem
        injection he with he
        exact hem (by rw [he])
      · rename_i imfs o2 hx
        split at he
        · split at he
          · rename_i e3 hy
            injection he with he
            subst he
            refine (?_ : NoFuel o2.getImfsAndTrend) hy
            unfold EMD.Obj.getImfsAndTrend
            refine NoFuel.bind ?_ fun x _ => ?_
            · unfold EMD.Obj.getImfsAndResidue NoFuel
              split <;> simp
            · obtain ⟨imfs, residue⟩ := x
              dsimp only
              split
              · refine NoFuel.bind ?_ fun _ _ => .pure _
                unfold pyGet NoFuel
                split
                · simp
                · split <;> simp
              · exact .pure _
          · cases he
        · cases he

/-- The bound is attained, with and without separated trends; the random generator of the samples is `Sized`. -/
example : okWith (fun E => E.length == 2)
      ((sampleObj sampleCfg).eemd sampleRng 1 linSciPy [] sampleS none (1 : Nat)).1 = true ∧
    okWith (fun E => E.length == 2)
      ((sampleObj { sampleCfg with separateTrends := true }).eemd sampleRng 1 linSciPy [] sampleS none (1 : Nat)).1 = true ∧
    Sized sampleRng ∧ 1 ≤ sampleCfg.trials :=
  ⟨by decide +kernel, by decide +kernel, sampleRng_sized, by decide⟩

end EEMD
end PyEMD
