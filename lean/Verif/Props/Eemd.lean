import Verif.Lemmas.Eemd
import Verif.Props.EmdExact
import Verif.Spec.EemdSamples

/-!
# C31 – C38: `EEMD`
-/

set_option linter.unusedSectionVars false

namespace PyEMD
namespace EEMD
open Spec

section LawFree

variable {α ρ : Type} [Add α] [Sub α] [Mul α] [Div α] [Neg α] [LT α] [LE α] [BEq α]
  [DecidableLT α] [DecidableLE α] [NpScalar α]

theorem prepare_ok {cfg : Cfg α} {S : List α} {T : Option (List α)} {m : Int} {job : Job α} (h : prepare cfg S T m = .ok job) :
    S ≠ [] ∧ job.S = S ∧ TimeFor S T job.T ∧ ScaleFor cfg.noiseWidth S job.scale ∧ job.maxImf = m := by
  by_cases hS : S = []
  · subst hS
    exfalso
    unfold prepare at h
    cases T <;> simp [bind, Except.bind, pure, Except.pure, EMD.timeline, npMaxE] at h
  · have hl : S.length ≠ 0 := by simpa using hS
    have he : S.isEmpty = false := by simpa using hS
    unfold prepare at h
    cases T <;>
    · simp [bind, Except.bind, pure, Except.pure, EMD.timeline, hl, npMaxE, npMinE, he] at h
      subst h
      exact ⟨hS, rfl, rfl, rfl, rfl⟩

/-- Rows of a trial have as many samples as the signal. -/
theorem TrialOf.lengths {fuel : Nat} {sp : SciPy α} {sep : Bool} {ecfg : EMD.Cfg α} {S T : List α} {m : Int} {noise : List α}
    {out : List (List α) × Option (List α)} (h : TrialOf fuel sp sep ecfg S T m noise out) (hn : noise.length = S.length) :
    (∀ r ∈ out.1, r.length = S.length) ∧ ∀ t ∈ out.2, t.length = S.length := by
  obtain ⟨R, hR, h0, h1⟩ := h
  have hemd : (EMD.Obj.mk ecfg none none).emd fuel sp (List.zipWith (fun s x => s + x) S noise) (some T) m =
      (.ok R.rows, ⟨ecfg, some R.imfs, some R.residue⟩) := by simp only [EMD.Obj.emd, hR]
  obtain ⟨hrows, imfs, res, hacc, himfs, hres⟩ := EMD.C02_row_lengths _ _ _ _ _ _ _ _ hemd
  have hlen : (List.zipWith (fun s x => s + x) S noise).length = S.length := by simp [hn]
  rw [hlen] at hrows himfs hres
  cases sep with
  | false =>
    rw [h0 rfl]
    exact ⟨hrows, by simp⟩
  | true =>
    obtain ⟨i, t, hit, rfl⟩ := h1 rfl
    by_cases hne : R.rows = []
    · exfalso
      have := (EMD.C04_trend_error_iff _ _ _ _ _ _ _ _ hemd).2
      have h2 : ∃ e, EMD.Obj.getImfsAndTrend ⟨ecfg, some R.imfs, some R.residue⟩ = .error e := by
        obtain ⟨imfs', res', g1, -, ⟨hv, h2⟩ | ⟨hv, h2⟩⟩ := EMD.C03_rows_vs_stored _ _ _ _ _ _ _ _ hemd
        · have himf : imfs' = [] := by rw [← h2, hne]
          subst himf
          exact ⟨.indexError, by
            simp only [EMD.Obj.getImfsAndTrend, g1, bind, Except.bind, (EMD.allclose0_iff _).2 hv, if_true, EMD.pyGet_last_nil]⟩
        · rw [hne] at h2; simp at h2
      obtain ⟨e, he⟩ := h2
      rw [he] at hit
      cases hit
    · rw [EMD.C04_imfs_and_trend_partial _ _ _ _ _ _ _ _ hemd hne] at hit
      simp only [Except.ok.injEq, Prod.mk.injEq] at hit
      obtain ⟨rfl, rfl⟩ := hit
      refine ⟨fun r hr => hrows r (List.mem_of_mem_dropLast hr), ?_⟩
      intro t ht
      simp only [Option.mem_def, Option.some.injEq] at ht
      subst ht
      exact hrows _ (List.getLast_mem hne)

theorem Obj.eemd_ran {rng : Rng α ρ} {fuel : Nat} {sp : SciPy α} {sched : List Nat} {o o' : Obj α ρ} {S : List α} {T : Option (List α)}
    {m : Int} {E : List (List α)} (hord : o.cfg.parallel = true → Schedule o.cfg.trials o.cfg.processes sched)
    (h : o.eemd rng fuel sp sched S T m = (.ok E, o')) :
    ∃ T' scale noises outs, Ran rng fuel sp o o' S T m T' scale noises outs ∧ o'.allImfs = renameTrend (outs.foldl addTrial []) ∧
      E = ensembleMean S.length o'.allImfs ∧ o'.E_IMF = some E ∧ o'.residue = some (vsub S (sumRows S.length E)) ∧
      o'.cfg = o.cfg ∧ o'.emd.cfg = o.emd.cfg := by
  obtain ⟨job, noises, outs, hj, h1, h2, h3, h4, h5, h6, h7, h8, h9, h10, h11⟩ := Obj.eemd_post hord h
  obtain ⟨hS, hjS, hT, hsc, hm⟩ := prepare_ok hj
  subst hjS
  subst hm
  exact ⟨job.T, job.scale, noises, outs, ⟨hS, hT, hsc, h1, h2.imp (fun _ _ h => trialOut_ok h), h10, h11, h9⟩, h3, h4, h5, h6, h7, h8⟩

theorem Spec.Ran.lengths {rng : Rng α ρ} {fuel : Nat} {sp : SciPy α} {o o' : Obj α ρ} {S : List α} {T : Option (List α)}
    {m : Int} {T' : List α} {scale : α} {noises : List (List α)} {outs : List (List (List α) × Option (List α))}
    (h : Ran rng fuel sp o o' S T m T' scale noises outs) (hs : Sized rng) :
    ∀ out ∈ outs, (∀ r ∈ out.1, r.length = S.length) ∧ ∀ t ∈ out.2, t.length = S.length := by
  intro out hout
  obtain ⟨i, hi, rfl⟩ := List.getElem_of_mem hout
  have hl := (List.forall₂_iff_get.1 h.trial).1
  have ht := (List.forall₂_iff_get.1 h.trial).2 i (by rw [hl]; exact hi) hi
  exact TrialOf.lengths ht (h.sized hs _ (List.get_mem _ _))

theorem Spec.Ran.none {rng : Rng α ρ} {fuel : Nat} {sp : SciPy α} {o o' : Obj α ρ} {S : List α} {T : Option (List α)}
    {m : Int} {T' : List α} {scale : α} {noises : List (List α)} {outs : List (List (List α) × Option (List α))}
    (h : Ran rng fuel sp o o' S T m T' scale noises outs) (hsep : o.cfg.separateTrends = false) : ∀ out ∈ outs, out.2 = none := by
  intro out hout
  obtain ⟨i, hi, rfl⟩ := List.getElem_of_mem hout
  have hl := (List.forall₂_iff_get.1 h.trial).1
  obtain ⟨R, -, h0, -⟩ := (List.forall₂_iff_get.1 h.trial).2 i (by rw [hl]; exact hi) hi
  have := h0 hsep
  rw [List.get_eq_getElem] at this
  rw [this]

theorem Spec.Ran.some {rng : Rng α ρ} {fuel : Nat} {sp : SciPy α} {o o' : Obj α ρ} {S : List α} {T : Option (List α)}
    {m : Int} {T' : List α} {scale : α} {noises : List (List α)} {outs : List (List (List α) × Option (List α))}
    (h : Ran rng fuel sp o o' S T m T' scale noises outs) (hsep : o.cfg.separateTrends = true) : ∀ out ∈ outs, out.2.isSome = true := by
  intro out hout
  obtain ⟨i, hi, rfl⟩ := List.getElem_of_mem hout
  have hl := (List.forall₂_iff_get.1 h.trial).1
  obtain ⟨R, -, -, h0⟩ := (List.forall₂_iff_get.1 h.trial).2 i (by rw [hl]; exact hi) hi
  obtain ⟨a, b, -, this⟩ := h0 hsep
  rw [List.get_eq_getElem] at this
  rw [this]
  rfl

theorem order_length {β : Type} (cs : List (List β)) (k : Nat) : (order cs k).length = cs.countP (fun c => k < c.length) := by
  induction cs with
  | nil => rfl
  | cons c cs ih =>
    unfold order at ih ⊢
    by_cases h : k < c.length
    · simp [ih, h]
    · simp [ih, h]

/-- C32: without separated trends, `all_imfs` has the keys `0, ..., K-1` in this order, `K` being the number of returned
rows; `ensemble_count()[k]` is the number of trials with more than `k` components; it starts with the number of trials
that have any component and never increases.  Law-free. -/
theorem C32_ensemble_count (rng : Rng α ρ) (fuel : Nat) (sp : SciPy α) (sched : List Nat) (o o' : Obj α ρ) (S : List α)
    (T : Option (List α)) (m : Int) (E : List (List α))
    (hord : o.cfg.parallel = true → Schedule o.cfg.trials o.cfg.processes sched) (hsep : o.cfg.separateTrends = false)
    (h : o.eemd rng fuel sp sched S T m = (.ok E, o')) :
    ∃ T' scale noises outs, Ran rng fuel sp o o' S T m T' scale noises outs ∧
      o'.allImfs.map (·.1) = (List.range E.length).map (fun k : Nat => (k : Int)) ∧
      ensembleCount o'.allImfs = (List.range E.length).map (fun k => outs.countP (fun r => k < r.1.length)) ∧
      (ensembleCount o'.allImfs).Pairwise (· ≥ ·) := by
  obtain ⟨T', scale, noises, outs, hr, h1, h2, -⟩ := Obj.eemd_ran hord h
  rw [foldl_addTrial_none outs (hr.none hsep), renameTrend_dictOf] at h1
  have hE : E.length = height (outs.map (·.1)) := by rw [h2, h1]; simp [ensembleMean, dictOf]
  have hc : ensembleCount o'.allImfs = (List.range E.length).map (fun k => outs.countP (fun r => k < r.1.length)) := by
    rw [h1, hE]
    simp only [ensembleCount, dictOf, List.map_map]
    apply List.map_congr_left
    intro k _
    simp only [Function.comp_apply]
    rw [order_length, List.countP_map]
    rfl
  refine ⟨T', scale, noises, outs, hr, ?_, hc, ?_⟩
  · rw [h1, hE]
    simp [dictOf, Function.comp_def]
  · rw [hc, List.pairwise_map]
    refine (List.pairwise_lt_range (n := E.length)).imp ?_
    intro a b hab
    apply List.countP_mono_left
    intro c _ hc
    simp only [decide_eq_true_eq] at hc ⊢
    omega

/-- Three trials, of which two have a second component. -/
example : ensembleCount ((sampleObj sampleCfg).eemd sampleRng 20 linSciPy [] sampleS none (-1)).2.allImfs = [3, 2] ∧
    okWith (fun E => E.length == 2) ((sampleObj sampleCfg).eemd sampleRng 20 linSciPy [] sampleS none (-1)).1 = true := by
  decide +kernel

/-- C34: after `eemd(S)` returned `E`, `get_imfs_and_residue()` is `(E, S - sum(E))`, sample by sample.  Law-free. -/
theorem C34_residue (rng : Rng α ρ) (fuel : Nat) (sp : SciPy α) (sched : List Nat) (o o' : Obj α ρ) (S : List α)
    (T : Option (List α)) (m : Int) (E : List (List α)) (hs : Sized rng)
    (hord : o.cfg.parallel = true → Schedule o.cfg.trials o.cfg.processes sched)
    (h : o.eemd rng fuel sp sched S T m = (.ok E, o')) :
    ∃ res, o'.getImfsAndResidue = .ok (E, res) ∧ EMD.Spec.IsResidue S E res := by
  obtain ⟨T', scale, noises, outs, hr, h1, h2, h3, h4, -⟩ := Obj.eemd_ran hord h
  refine ⟨vsub S (sumRows S.length E), by simp only [Obj.getImfsAndResidue, h3, h4], EMD.isResidue_vsub S E ?_⟩
  have hlen := hr.lengths hs
  have hord' : ∀ k, ∀ r ∈ order (outs.map (·.1)) k, r.length = S.length := by
    intro k r hr'
    obtain ⟨c, hc, hck⟩ := List.mem_filterMap.1 hr'
    obtain ⟨out, hout, rfl⟩ := List.mem_map.1 hc
    exact (hlen out hout).1 r (List.mem_of_getElem? hck)
  have hmean : ∀ rows : List (List α), (∀ r ∈ rows, r.length = S.length) → (meanRows S.length rows).length = S.length := by
    intro rows hrows
    rw [meanRows, List.length_map, length_sumRows _ _ hrows]
  rw [h2, h1]
  intro e he
  cases hsep : o.cfg.separateTrends with
  | false =>
    rw [foldl_addTrial_none outs (hr.none hsep), renameTrend_dictOf] at he
    simp only [ensembleMean, dictOf, List.map_map, List.mem_map] at he
    obtain ⟨k, -, rfl⟩ := he
    exact hmean _ (hord' k)
  | true =>
    by_cases hne : outs = []
    · subst hne
      simp [ensembleMean, renameTrend] at he
    · rw [foldl_addTrial_some outs hne (hr.some hsep), renameTrend_cons] at he
      simp only [ensembleMean, dictOf, List.map_map, List.map_append, List.mem_append, List.mem_map] at he
      rcases he with ⟨k, -, rfl⟩ | ⟨p, hp, rfl⟩
      · exact hmean _ (hord' k)
      · rw [List.mem_singleton.1 hp]
        apply hmean
        intro t ht
        obtain ⟨out, hout, hot⟩ := List.mem_filterMap.1 ht
        exact (hlen out hout).2 t hot

/-- The hypotheses hold for a sequential and for a parallel call. -/
example : okWith (fun E => E.length == 2) ((sampleObj sampleCfg).eemd sampleRng 20 linSciPy [] sampleS none (-1)).1 = true ∧
    okWith (fun E => E.length == 1) ((sampleObj { sampleCfg with parallel := true }).eemd sampleRng 20 linSciPy [2, 0, 1] sampleS none
      (-1)).1 = true ∧ Sized sampleRng ∧ Schedule 3 1 [2, 0, 1] :=
  ⟨by decide +kernel, by decide +kernel, sampleRng_sized, by decide, by decide⟩

/-! ## C35 -/

/-- C35, sequential mode: the trials of a call use consecutive draws of the random stream, one each, and leave the
generator after the last of them, so that a second call continues with fresh draws.  Law-free.
Missing: the same in parallel mode, where it is false, see `C35_parallel_repeats` and `C35_counterexample`. -/
theorem C35_fresh_noise_partial (rng : Rng α ρ) (fuel : Nat) (sp : SciPy α) (sched : List Nat) (o o' : Obj α ρ) (S : List α)
    (T : Option (List α)) (m : Int) (E : List (List α)) (hp : o.cfg.parallel = false)
    (h : o.eemd rng fuel sp sched S T m = (.ok E, o')) :
    ∃ T' scale noises outs, TimeFor S T T' ∧ ScaleFor o.cfg.noiseWidth S scale ∧ outs.length = o.cfg.trials ∧
      List.Forall₂ (TrialOf fuel sp o.cfg.separateTrends o.emd.cfg S T' m) noises outs ∧
      Stream rng o.cfg.noiseKind scale S.length o.random noises o'.random := by
  obtain ⟨T', scale, noises, outs, hr, -⟩ := Obj.eemd_ran (by simp [hp]) h
  exact ⟨T', scale, noises, outs, hr.time, hr.width, hr.count, hr.trial, hr.sequential hp⟩

example : okWith (fun E => E.length == 2) ((sampleObj sampleCfg).eemd sampleRng 20 linSciPy [] sampleS none (-1)).1 = true ∧
    ((sampleObj sampleCfg).eemd sampleRng 20 linSciPy [] sampleS none (-1)).2.random = 1 + 3 * 7 := by
  decide +kernel

/-- C35, parallel mode: the opposite of the claim.  With chunks of `c = ceil(trials / (4 processes))` trials, trial `t + c`
uses the same noise as trial `t`, and the generator of the object is not advanced, so that the next call repeats the noise
of this one.  Law-free. -/
theorem C35_parallel_repeats (rng : Rng α ρ) (fuel : Nat) (sp : SciPy α) (sched : List Nat) (o o' : Obj α ρ) (S : List α)
    (T : Option (List α)) (m : Int) (E : List (List α)) (hp : o.cfg.parallel = true)
    (hord : Schedule o.cfg.trials o.cfg.processes sched)
    (h : o.eemd rng fuel sp sched S T m = (.ok E, o')) :
    o'.random = o.random ∧
    ∃ T' scale noises outs, TimeFor S T T' ∧ ScaleFor o.cfg.noiseWidth S scale ∧ outs.length = o.cfg.trials ∧
      List.Forall₂ (TrialOf fuel sp o.cfg.separateTrends o.emd.cfg S T' m) noises outs ∧
      ∀ t, t + o.cfg.trials ⌈/⌉ (4 * o.cfg.processes) < o.cfg.trials →
        noises[t + o.cfg.trials ⌈/⌉ (4 * o.cfg.processes)]? = noises[t]? := by
  obtain ⟨T', scale, noises, outs, hr, -⟩ := Obj.eemd_ran (fun _ => hord) h
  obtain ⟨h1, first, r', hst, hl, hn⟩ := hr.parallel hp
  refine ⟨h1, T', scale, noises, outs, hr.time, hr.width, hr.count, hr.trial, fun t ht => ?_⟩
  rw [hn _ ht, hn t (by omega), ← hl, Nat.add_mod_right]

/-- C35 fails in parallel mode: three trials on one process return exactly what a single trial returns, while the three
sequential trials return something else. -/
theorem C35_counterexample : ∃ E E',
    ((sampleObj { sampleCfg with parallel := true }).eemd sampleRng 20 linSciPy [0, 1, 2] sampleS none (-1)).1 = .ok E ∧
    ((sampleObj { sampleCfg with trials := 1 }).eemd sampleRng 20 linSciPy [] sampleS none (-1)).1 = .ok E ∧
    ((sampleObj sampleCfg).eemd sampleRng 20 linSciPy [] sampleS none (-1)).1 = .ok E' ∧ E ≠ E' ∧ Schedule 3 1 [0, 1, 2] := by
  have h : okWith (fun E => okWith (fun E1 => E1 == E)
        ((sampleObj { sampleCfg with trials := 1 }).eemd sampleRng 20 linSciPy [] sampleS none (-1)).1 &&
      okWith (fun E' => E != E') ((sampleObj sampleCfg).eemd sampleRng 20 linSciPy [] sampleS none (-1)).1)
      ((sampleObj { sampleCfg with parallel := true }).eemd sampleRng 20 linSciPy [0, 1, 2] sampleS none (-1)).1 = true := by
    decide +kernel
  obtain ⟨E, hE, h⟩ := okWith_iff.1 h
  rw [Bool.and_eq_true] at h
  obtain ⟨E1, hE1, h1⟩ := okWith_iff.1 h.1
  obtain ⟨E', hE', h2⟩ := okWith_iff.1 h.2
  rw [beq_iff_eq] at h1
  subst h1
  exact ⟨_, E', hE, hE1, hE', by simpa using h2, by decide, by decide⟩

/-! ## C36 -/

/-- C36: for any two schedules of the chunks the parallel call either succeeds with both and returns the same rows and
leaves the same object, or raises with both (the exception of one of the failing chunks).  Law-free. -/
theorem C36_schedule_independent (rng : Rng α ρ) (fuel : Nat) (sp : SciPy α) (sched sched' : List Nat) (o : Obj α ρ) (S : List α)
    (T : Option (List α)) (m : Int) (hp : o.cfg.parallel = true)
    (h : Schedule o.cfg.trials o.cfg.processes sched) (h' : Schedule o.cfg.trials o.cfg.processes sched') :
    o.eemd rng fuel sp sched S T m = o.eemd rng fuel sp sched' S T m ∨
    ∃ e e', o.eemd rng fuel sp sched S T m = (.error e, o) ∧ o.eemd rng fuel sp sched' S T m = (.error e', o) := by
  unfold Obj.eemd
  cases hj : prepare o.cfg S T m with
  | error e => exact .inl rfl
  | ok job =>
    simp only [hp, if_true]
    have hc : chunkSize o.cfg.trials o.cfg.processes ≠ 0 ∨ o.cfg.trials = 0 := by
      rcases Nat.eq_zero_or_pos o.cfg.trials with h0 | h0
      · exact .inr h0
      · exact .inl (chunkSize_ne_zero h.1 h0)
    have hcov : ∀ s, Schedule o.cfg.trials o.cfg.processes s →
        ∀ i < (chunkLengths o.cfg.trials (chunkSize o.cfg.trials o.cfg.processes)).length, i ∈ s := by
      intro s hs i hi
      rw [chunkLengths_length _ _ hc, chunkSize_eq _ _ h.1] at hi
      exact hs.2.mem_iff.2 (List.mem_range.2 hi)
    rcases all_ok_or ((chunkLengths o.cfg.trials (chunkSize o.cfg.trials o.cfg.processes)).map
        (fun n => runChunk rng fuel sp o.cfg job n { random := o.random, emd := o.emd })) with ⟨vals, hv⟩ | ⟨e, he⟩
    · left
      have hlen : vals.length = (chunkLengths o.cfg.trials (chunkSize o.cfg.trials o.cfg.processes)).length := by
        have := congrArg List.length hv
        simpa using this.symm
      rw [hv, poolMap_ok vals _ (by rw [hlen]; exact hcov _ h), poolMap_ok vals _ (by rw [hlen]; exact hcov _ h')]
    · right
      obtain ⟨e1, he1, -⟩ := poolMap_error _ sched (by rw [List.length_map]; exact hcov _ h) e he
      obtain ⟨e2, he2, -⟩ := poolMap_error _ sched' (by rw [List.length_map]; exact hcov _ h') e he
      exact ⟨e1, e2, by rw [he1], by rw [he2]⟩

/-- Twelve trials on two processes: six chunks of two, finishing in two different orders. -/
example : Schedule 12 2 [0, 1, 2, 3, 4, 5] ∧ Schedule 12 2 [3, 5, 0, 4, 2, 1] ∧
    okWith (fun E => E.length == 2) ((sampleObj { sampleCfg with parallel := true, trials := 12, processes := 2 }).eemd sampleRng 20 linSciPy
      [3, 5, 0, 4, 2, 1] sampleS none (-1)).1 = true :=
  ⟨⟨by decide, by decide⟩, ⟨by decide, by decide⟩, by decide +kernel⟩

/-! ## C37 -/

/-- Equality of everything that a call reads. -/
def Same (o₁ o₂ : Obj α ρ) : Prop := o₁.cfg = o₂.cfg ∧ o₁.random = o₂.random ∧ o₁.emd.cfg = o₂.emd.cfg

theorem trialUpdate_same (rng : Rng α ρ) (fuel : Nat) (sp : SciPy α) (cfg : Cfg α) (job : Job α) (s₁ s₂ : TrialState α ρ)
    (hr : s₁.random = s₂.random) (hc : s₁.emd.cfg = s₂.emd.cfg) :
    (trialUpdate rng fuel sp cfg job s₁).1 = (trialUpdate rng fuel sp cfg job s₂).1 ∧
    (trialUpdate rng fuel sp cfg job s₁).2.random = (trialUpdate rng fuel sp cfg job s₂).2.random ∧
    (trialUpdate rng fuel sp cfg job s₁).2.emd.cfg = (trialUpdate rng fuel sp cfg job s₂).2.emd.cfg := by
  obtain ⟨o₁, h₁, e₁⟩ := trialUpdate_eq rng fuel sp cfg job s₁
  obtain ⟨o₂, h₂, e₂⟩ := trialUpdate_eq rng fuel sp cfg job s₂
  rw [e₁, e₂, hr, hc]
  exact ⟨rfl, rfl, by rw [h₁, h₂, hc]⟩

theorem runTrials_same (rng : Rng α ρ) (fuel : Nat) (sp : SciPy α) (cfg : Cfg α) (job : Job α) (n : Nat) (s₁ s₂ : TrialState α ρ)
    (d : Dict (List (List α))) (hr : s₁.random = s₂.random) (hc : s₁.emd.cfg = s₂.emd.cfg) :
    (runTrials rng fuel sp cfg job n s₁ d).1 = (runTrials rng fuel sp cfg job n s₂ d).1 ∧
    (runTrials rng fuel sp cfg job n s₁ d).2.1.random = (runTrials rng fuel sp cfg job n s₂ d).2.1.random ∧
    (runTrials rng fuel sp cfg job n s₁ d).2.1.emd.cfg = (runTrials rng fuel sp cfg job n s₂ d).2.1.emd.cfg ∧
    (runTrials rng fuel sp cfg job n s₁ d).2.2 = (runTrials rng fuel sp cfg job n s₂ d).2.2 := by
  induction n generalizing s₁ s₂ d with
  | zero => exact ⟨rfl, hr, hc, rfl⟩
  | succ n ih =>
    obtain ⟨h1, h2, h3⟩ := trialUpdate_same rng fuel sp cfg job s₁ s₂ hr hc
    unfold runTrials
    cases e1 : trialUpdate rng fuel sp cfg job s₁ with
    | mk x1 t1 =>
      cases e2 : trialUpdate rng fuel sp cfg job s₂ with
      | mk x2 t2 =>
        rw [e1, e2] at h1 h2 h3
        simp only at h1 h2 h3
        subst h1
        cases x1 with
        | error e => exact ⟨rfl, h2, h3, rfl⟩
        | ok r => exact ih t1 t2 _ h2 h3

theorem runChunk_same (rng : Rng α ρ) (fuel : Nat) (sp : SciPy α) (cfg : Cfg α) (job : Job α) (n : Nat) (s₁ s₂ : TrialState α ρ)
    (hr : s₁.random = s₂.random) (hc : s₁.emd.cfg = s₂.emd.cfg) :
    runChunk rng fuel sp cfg job n s₁ = runChunk rng fuel sp cfg job n s₂ := by
  induction n generalizing s₁ s₂ with
  | zero => rfl
  | succ n ih =>
    obtain ⟨h1, h2, h3⟩ := trialUpdate_same rng fuel sp cfg job s₁ s₂ hr hc
    unfold runChunk
    cases e1 : trialUpdate rng fuel sp cfg job s₁ with
    | mk x1 t1 =>
      cases e2 : trialUpdate rng fuel sp cfg job s₂ with
      | mk x2 t2 =>
        rw [e1, e2] at h1 h2 h3
        simp only at h1 h2 h3
        subst h1
        cases x1 with
        | error e => rfl
        | ok r => simp only [ih t1 t2 h2 h3]

theorem eemd_same (rng : Rng α ρ) (fuel : Nat) (sp : SciPy α) (sched : List Nat) (o₁ o₂ : Obj α ρ) (S : List α)
    (T : Option (List α)) (m : Int) (h : Same o₁ o₂) :
    (o₁.eemd rng fuel sp sched S T m).1 = (o₂.eemd rng fuel sp sched S T m).1 ∧
    Same (o₁.eemd rng fuel sp sched S T m).2 (o₂.eemd rng fuel sp sched S T m).2 := by
  obtain ⟨hcfg, hr, hc⟩ := h
  unfold Obj.eemd
  rw [hcfg]
  cases hj : prepare o₂.cfg S T m with
  | error e => exact ⟨rfl, hcfg, hr, hc⟩
  | ok job =>
    dsimp only
    cases hp : o₂.cfg.parallel with
    | true =>
      simp only [if_true]
      have e : ∀ n, runChunk rng fuel sp o₂.cfg job n { random := o₁.random, emd := o₁.emd } =
          runChunk rng fuel sp o₂.cfg job n { random := o₂.random, emd := o₂.emd } := fun n =>
        runChunk_same rng fuel sp o₂.cfg job n _ _ hr hc
      simp only [e]
      cases poolMap _ sched with
      | error e => exact ⟨rfl, hcfg, hr, hc⟩
      | ok rs => exact ⟨rfl, hcfg, hr, hc⟩
    | false =>
      simp only [Bool.false_eq_true, if_false]
      obtain ⟨a, b, c, d⟩ := runTrials_same rng fuel sp o₂.cfg job o₂.cfg.trials { random := o₁.random, emd := o₁.emd }
        { random := o₂.random, emd := o₂.emd } [] hr hc
      cases e1 : runTrials rng fuel sp o₂.cfg job o₂.cfg.trials { random := o₁.random, emd := o₁.emd } [] with
      | mk x1 p1 =>
        cases e2 : runTrials rng fuel sp o₂.cfg job o₂.cfg.trials { random := o₂.random, emd := o₂.emd } [] with
        | mk x2 p2 =>
          obtain ⟨t1, d1⟩ := p1
          obtain ⟨t2, d2⟩ := p2
          rw [e1, e2] at a b c d
          simp only at a b c d
          subst a; subst d
          cases x1 with
          | error e => exact ⟨rfl, rfl, b, c⟩
          | ok u => exact ⟨rfl, rfl, b, c⟩

/-- Outputs of a sequence of calls `eemd(S, T, max_imf)`, exceptions included. -/
def outputs (rng : Rng α ρ) (fuel : Nat) (sp : SciPy α) (o : Obj α ρ) :
    List (List α × Option (List α) × Int × List Nat) → List (PyM (List (List α)))
  | [] => []
  | (S, T, m, sched) :: calls =>
    (o.eemd rng fuel sp sched S T m).1 :: outputs rng fuel sp (o.eemd rng fuel sp sched S T m).2 calls

/-- C37: two objects with the same configuration, whatever they did before, return the same rows (or raise the same
exceptions) for the same sequence of calls after the same `noise_seed`.  Law-free; in parallel mode for the same
schedules. -/
theorem C37_reproducible (rng : Rng α ρ) (fuel : Nat) (sp : SciPy α) (o₁ o₂ : Obj α ρ) (hcfg : o₁.cfg = o₂.cfg)
    (hemd : o₁.emd.cfg = o₂.emd.cfg) (s : Int) (calls : List (List α × Option (List α) × Int × List Nat)) :
    outputs rng fuel sp (o₁.noiseSeed rng s) calls = outputs rng fuel sp (o₂.noiseSeed rng s) calls := by
  have key : ∀ (calls : List (List α × Option (List α) × Int × List Nat)) (o₁ o₂ : Obj α ρ), Same o₁ o₂ →
      outputs rng fuel sp o₁ calls = outputs rng fuel sp o₂ calls := by
    intro calls
    induction calls with
    | nil => intro _ _ _; rfl
    | cons c calls ih =>
      intro o₁ o₂ h
      obtain ⟨S, T, m, sched⟩ := c
      obtain ⟨h1, h2⟩ := eemd_same rng fuel sp sched o₁ o₂ S T m h
      simp only [outputs]
      rw [h1, ih _ _ h2]
  exact key calls _ _ ⟨hcfg, rfl, hemd⟩

/-- Two calls after the same seed: both succeed and return different numbers of rows. -/
example : (outputs sampleRng 20 linSciPy ((sampleObj sampleCfg).noiseSeed sampleRng 4) [(sampleS, none, -1, []), (sampleS, none, -1, [])]).map
      (okWith (fun E => E.length == 2)) = [true, false] ∧
    (outputs sampleRng 20 linSciPy ((sampleObj sampleCfg).noiseSeed sampleRng 4) [(sampleS, none, -1, []), (sampleS, none, -1, [])]).map
      (okWith (fun E => E.length == 3)) = [false, true] := by
  decide +kernel

end LawFree

section Exact

variable {K ρ : Type} [Field K] [LinearOrder K] [IsStrictOrderedRing K] [FloorRing K]

theorem isMean_meanRows (n : Nat) (rows : List (List K)) (h : ∀ r ∈ rows, r.length = n) : IsMean n rows (meanRows n rows) := by
  refine ⟨by rw [meanRows, List.length_map, length_sumRows _ _ h], fun i hi => ?_⟩
  rw [meanRows, List.getElem?_map, sumRows_getElem? n rows h i hi, colSum_eq]
  simp

theorem averages_dictOf (n : Nat) (cs : List (List (List K))) (h : ∀ c ∈ cs, ∀ r ∈ c, r.length = n) :
    Averages n cs (ensembleMean n (dictOf (height cs) (order cs))) := by
  have hl : (ensembleMean n (dictOf (height cs) (order cs))).length = height cs := by simp [ensembleMean, dictOf]
  refine ⟨fun k => by rw [hl, lt_height], fun k row hk => ?_⟩
  have hk' : k < height cs := by
    rw [← hl]
    exact (List.getElem?_eq_some_iff.1 hk).1
  simp only [ensembleMean, dictOf, List.map_map, List.getElem?_map, List.getElem?_range hk', Option.map_some, Function.comp_apply,
    Option.some.injEq] at hk
  rw [← hk]
  apply isMean_meanRows
  intro r hr
  obtain ⟨c, hc, hck⟩ := List.mem_filterMap.1 hr
  exact h c hc r (List.mem_of_getElem? hck)

/-- C31: `eemd` returns one row for each order that occurs in a trial; row `k` is the arithmetic mean of the `k`-th component
over exactly those trials that produced more than `k` components. -/
theorem C31_averages (rng : Rng K ρ) (fuel : Nat) (sp : SciPy K) (sched : List Nat) (o o' : Obj K ρ) (S : List K)
    (T : Option (List K)) (m : Int) (E : List (List K)) (hs : Sized rng)
    (hord : o.cfg.parallel = true → Schedule o.cfg.trials o.cfg.processes sched) (hsep : o.cfg.separateTrends = false)
    (h : o.eemd rng fuel sp sched S T m = (.ok E, o')) :
    ∃ T' scale noises outs, Ran rng fuel sp o o' S T m T' scale noises outs ∧ Averages S.length (outs.map (·.1)) E := by
  obtain ⟨T', scale, noises, outs, hr, h1, h2, -⟩ := Obj.eemd_ran hord h
  refine ⟨T', scale, noises, outs, hr, ?_⟩
  rw [foldl_addTrial_none outs (hr.none hsep), renameTrend_dictOf] at h1
  rw [h2, h1]
  apply averages_dictOf
  intro c hc
  obtain ⟨out, hout, rfl⟩ := List.mem_map.1 hc
  exact (hr.lengths hs out hout).1

/-- Two rows; the second one averages the two trials that have it. -/
example : okWith (fun E => E.map (fun r => r.getD 0 0) == [-1 / 18, -13 / 24])
      ((sampleObj sampleCfg).eemd sampleRng 20 linSciPy [] sampleS none (-1)).1 = true ∧ Sized sampleRng :=
  ⟨by decide +kernel, sampleRng_sized⟩

/-- C33: with separated trends and at least one trial, the last returned row is the mean over all trials of the trend and
the other rows average the remaining components; the keys are `0, ..., K` in this order, the trends under the last one. -/
theorem C33_separate_trends (rng : Rng K ρ) (fuel : Nat) (sp : SciPy K) (sched : List Nat) (o o' : Obj K ρ) (S : List K)
    (T : Option (List K)) (m : Int) (E : List (List K)) (hs : Sized rng)
    (hord : o.cfg.parallel = true → Schedule o.cfg.trials o.cfg.processes sched) (hsep : o.cfg.separateTrends = true)
    (ht : 1 ≤ o.cfg.trials) (h : o.eemd rng fuel sp sched S T m = (.ok E, o')) :
    ∃ T' scale noises outs trends Ei trend, Ran rng fuel sp o o' S T m T' scale noises outs ∧ E = Ei ++ [trend] ∧
      outs.map (·.2) = trends.map some ∧ Averages S.length (outs.map (·.1)) Ei ∧ IsMean S.length trends trend ∧
      o'.allImfs.map (·.1) = (List.range E.length).map (fun k : Nat => (k : Int)) ∧
      o'.allImfs.getLast? = some ((Ei.length : Int), trends) ∧
      ensembleCount o'.allImfs = (List.range Ei.length).map (fun k => outs.countP (fun r => k < r.1.length)) ++ [o.cfg.trials] := by
  obtain ⟨T', scale, noises, outs, hr, h1, h2, -⟩ := Obj.eemd_ran hord h
  have hsome := hr.some hsep
  have hne : outs ≠ [] := by
    intro h0
    have := hr.count
    rw [h0] at this
    simp at this
    omega
  rw [foldl_addTrial_some outs hne hsome, renameTrend_cons] at h1
  have htr : outs.map (·.2) = (outs.filterMap (·.2)).map some := by
    clear h1 h2 hr hne
    induction outs with
    | nil => rfl
    | cons r outs ih =>
      obtain ⟨t, ht⟩ := Option.isSome_iff_exists.1 (hsome r (by simp))
      simp only [List.map_cons, List.filterMap_cons, ht]
      rw [ih (fun q hq => hsome q (by simp [hq]))]
  have hlen : (outs.filterMap (·.2)).length = o.cfg.trials := by
    have := congrArg List.length htr
    simp only [List.length_map] at this
    rw [← this, hr.count]
  refine ⟨T', scale, noises, outs, outs.filterMap (·.2), ensembleMean S.length (dictOf (height (outs.map (·.1))) (order (outs.map (·.1)))),
    meanRows S.length (outs.filterMap (·.2)), hr, ?_, htr, ?_, ?_, ?_, ?_, ?_⟩
  · rw [h2, h1]
    simp [ensembleMean]
  · apply averages_dictOf
    intro c hc
    obtain ⟨out, hout, rfl⟩ := List.mem_map.1 hc
    exact (hr.lengths hs out hout).1
  · apply isMean_meanRows
    intro t ht
    obtain ⟨out, hout, hot⟩ := List.mem_filterMap.1 ht
    exact (hr.lengths hs out hout).2 t hot
  · rw [h2, h1]
    simp [ensembleMean, dictOf, List.range_succ, Function.comp_def]
  · rw [h1]
    simp [ensembleMean, dictOf]
  · rw [h1]
    simp only [ensembleCount, List.map_append, List.map_cons, List.map_nil, hlen]
    congr 1
    simp only [ensembleMean, dictOf, List.map_map, List.length_map, List.length_range]
    apply List.map_congr_left
    intro k _
    simp only [Function.comp_apply]
    rw [order_length, List.countP_map]
    rfl

example : okWith (fun E => E.length == 2)
      ((sampleObj { sampleCfg with separateTrends := true }).eemd sampleRng 20 linSciPy [] sampleS none (-1)).1 = true ∧
    (((sampleObj { sampleCfg with separateTrends := true }).eemd sampleRng 20 linSciPy [] sampleS none (-1)).2.allImfs.map
      (fun p => (p.1, p.2.length))) = [(0, 2), (1, 3)] := by
  decide +kernel

/-! ## C38 -/

theorem zipWith_zero (S : List K) : List.zipWith (fun s x => s + x) S (List.replicate S.length 0) = S := by
  induction S with
  | nil => rfl
  | cons a S ih => simp [List.replicate_succ, ih]

theorem emdPure_timeline (fuel : Nat) (sp : SciPy K) (cfg : EMD.Cfg K) (S : List K) (T : Option (List K)) (T' : List K) (m : Int)
    (hS : S ≠ []) (h : TimeFor S T T') : EMD.emdPure fuel sp cfg S (some T') m = EMD.emdPure fuel sp cfg S T m := by
  cases T with
  | some t => rw [show T' = t from h]
  | none =>
    have h' : T' = (List.range S.length).map (fun k : Nat => lit (k : ℚ)) := h
    have hl : S.length ≠ 0 := by simpa using hS
    have : EMD.prepareTime cfg S (some T') = EMD.prepareTime cfg S none := by
      subst h'
      simp only [EMD.prepareTime, EMD.timeline, hl, if_false, List.length_map, List.length_range, ne_eq, not_true_eq_false,
        bind, Except.bind]
      split <;> rfl
    simp only [EMD.emdPure, EMD.emdRounds, this]

theorem generateNoise_zero (rng : Rng K ρ) (hz : ZeroScale rng) (kind : NoiseKind) (hk : kind ≠ .unknown) (r : ρ) (n : Nat) :
    (generateNoise rng kind r 0 n).1 = .ok (List.replicate n 0) := by
  unfold generateNoise
  cases kind with
  | normal =>
    have := hz.1 r n
    simp only [lit_zero] at this
    simp only [this]
  | uniform =>
    have := hz.2 r n
    simp only [lit_zero] at this
    simp only [neg_zero, zero_div, this]
  | unknown => exact absurd rfl hk

theorem trialUpdate_zero (rng : Rng K ρ) (hz : ZeroScale rng) (fuel : Nat) (sp : SciPy K) (cfg : Cfg K) (hk : cfg.noiseKind ≠ .unknown)
    (job : Job K) (hsc : job.scale = 0) (st : TrialState K ρ) :
    ∃ st', st'.emd.cfg = st.emd.cfg ∧ trialUpdate rng fuel sp cfg job st =
      (trialOut fuel sp cfg.separateTrends st.emd.cfg job (List.replicate job.S.length 0), st') := by
  obtain ⟨o, ho, e⟩ := trialUpdate_eq rng fuel sp cfg job st
  rw [hsc, generateNoise_zero rng hz _ hk] at e
  exact ⟨_, ho, e⟩

theorem runTrials_zero (rng : Rng K ρ) (hz : ZeroScale rng) (fuel : Nat) (sp : SciPy K) (cfg : Cfg K) (hk : cfg.noiseKind ≠ .unknown)
    (job : Job K) (hsc : job.scale = 0) (n : Nat) (st : TrialState K ρ) (d : Dict (List (List K))) :
    (∀ out, trialOut fuel sp cfg.separateTrends st.emd.cfg job (List.replicate job.S.length 0) = .ok out →
      ∃ st', runTrials rng fuel sp cfg job n st d = (.ok (), st', (List.replicate n out).foldl addTrial d)) ∧
    (∀ e, trialOut fuel sp cfg.separateTrends st.emd.cfg job (List.replicate job.S.length 0) = .error e → 0 < n →
      ∃ st' d', runTrials rng fuel sp cfg job n st d = (.error e, st', d')) := by
  induction n generalizing st d with
  | zero => exact ⟨fun out _ => ⟨st, rfl⟩, fun e _ h => absurd h (by omega)⟩
  | succ n ih =>
    obtain ⟨st1, hc, e1⟩ := trialUpdate_zero rng hz fuel sp cfg hk job hsc st
    constructor
    · intro out hout
      obtain ⟨st', h'⟩ := (ih st1 (addTrial d out)).1 out (by rw [hc]; exact hout)
      refine ⟨st', ?_⟩
      unfold runTrials
      rw [e1, hout]
      exact h'
    · intro e he _
      refine ⟨st1, d, ?_⟩
      unfold runTrials
      rw [e1, he]

theorem runChunk_zero (rng : Rng K ρ) (hz : ZeroScale rng) (fuel : Nat) (sp : SciPy K) (cfg : Cfg K) (hk : cfg.noiseKind ≠ .unknown)
    (job : Job K) (hsc : job.scale = 0) (n : Nat) (st : TrialState K ρ) :
    (∀ out, trialOut fuel sp cfg.separateTrends st.emd.cfg job (List.replicate job.S.length 0) = .ok out →
      runChunk rng fuel sp cfg job n st = .ok (List.replicate n out)) ∧
    (∀ e, trialOut fuel sp cfg.separateTrends st.emd.cfg job (List.replicate job.S.length 0) = .error e → 0 < n →
      runChunk rng fuel sp cfg job n st = .error e) := by
  induction n generalizing st with
  | zero => exact ⟨fun out _ => rfl, fun e _ h => absurd h (by omega)⟩
  | succ n ih =>
    obtain ⟨st1, hc, e1⟩ := trialUpdate_zero rng hz fuel sp cfg hk job hsc st
    constructor
    · intro out hout
      unfold runChunk
      rw [e1, hout]
      simp only [(ih st1).1 out (by rw [hc]; exact hout)]
      rfl
    · intro e he _
      unfold runChunk
      rw [e1, he]

theorem mean_replicate (n : Nat) (row : List K) (h : row.length = n) (t : Nat) (ht : 1 ≤ t) : meanRows n (List.replicate t row) = row := by
  have hrows : ∀ r ∈ List.replicate t row, r.length = n := by
    intro r hr
    rw [(List.mem_replicate.1 hr).2, h]
  obtain ⟨h1, h2⟩ := isMean_meanRows n (List.replicate t row) hrows
  apply List.ext_getElem?
  intro i
  by_cases hi : i < n
  · rw [h2 i hi, List.map_replicate, List.sum_replicate, List.length_replicate, lit_nat, nsmul_eq_mul]
    have : (t : K) ≠ 0 := by
      rw [Nat.cast_ne_zero]; omega
    rw [mul_div_cancel_left₀ _ this, List.getD_eq_getElem?_getD, List.getElem?_eq_getElem (h.symm ▸ hi), Option.getD_some]
  · rw [List.getElem?_eq_none (by omega), List.getElem?_eq_none (by omega)]

theorem order_replicate {β : Type} (t : Nat) (c : List β) (k : Nat) (hk : k < c.length) : order (List.replicate t c) k = List.replicate t c[k] := by
  induction t with
  | zero => rfl
  | succ t ih =>
    unfold order at ih ⊢
    rw [List.replicate_succ, List.filterMap_cons, List.getElem?_eq_getElem hk, ih, List.replicate_succ]

theorem height_replicate (t : Nat) (ht : 1 ≤ t) (c : List (List K)) : height (List.replicate t c) = c.length := by
  obtain ⟨t, rfl⟩ : ∃ u, t = u + 1 := ⟨t - 1, by omega⟩
  induction t with
  | zero => simp [height]
  | succ t ih =>
    have e : height (List.replicate (t + 1 + 1) c) = max c.length (height (List.replicate (t + 1) c)) := rfl
    rw [e, ih (by omega), max_self]

theorem mean_same (n t : Nat) (ht : 1 ≤ t) (rows : List (List K)) (hl : ∀ r ∈ rows, r.length = n) :
    ensembleMean n (renameTrend ((List.replicate t (rows, (none : Option (List K)))).foldl addTrial [])) = rows := by
  rw [foldl_addTrial_none _ (by intro r hr; rw [(List.mem_replicate.1 hr).2]), renameTrend_dictOf, List.map_replicate,
    height_replicate t ht]
  apply List.ext_getElem
  · simp [ensembleMean, dictOf]
  · intro k h1 h2
    simp only [ensembleMean, dictOf, List.map_map, List.getElem_map, List.getElem_range, Function.comp_apply]
    rw [order_replicate t rows k h2, mean_replicate n _ (hl _ (List.getElem_mem _)) t ht]

theorem npMax_sub_npMin_const (S : List K) (hS : S ≠ []) (hc : ∀ x ∈ S, ∀ y ∈ S, x = y) : npMax S - npMin S = 0 := by
  rw [hc _ (npMax_spec hS).1 _ (npMin_spec hS).1, sub_self]

/-- C38: without noise (`noise_width = 0` or a constant signal, and a generator that returns zeros for width zero), `eemd`
returns exactly what `emd` of its inner `EMD` returns, exceptions included, for every positive number of trials, sequential
or parallel. -/
theorem C38_no_noise (rng : Rng K ρ) (hz : ZeroScale rng) (fuel : Nat) (sp : SciPy K) (sched : List Nat) (o : Obj K ρ) (S : List K)
    (T : Option (List K)) (m : Int) (hS : S ≠ []) (ht : 1 ≤ o.cfg.trials) (hsep : o.cfg.separateTrends = false)
    (hk : o.cfg.noiseKind ≠ .unknown) (hord : o.cfg.parallel = true → Schedule o.cfg.trials o.cfg.processes sched)
    (h0 : o.cfg.noiseWidth = 0 ∨ ∀ x ∈ S, ∀ y ∈ S, x = y) :
    (o.eemd rng fuel sp sched S T m).1 = (o.emd.emd fuel sp S T m).1 := by
  obtain ⟨job, hj⟩ : ∃ job, prepare o.cfg S T m = .ok job := by
    have hl : S.length ≠ 0 := by simpa using hS
    have he : S.isEmpty = false := by simpa using hS
    unfold prepare
    cases T <;> simp [bind, Except.bind, pure, Except.pure, EMD.timeline, hl, npMaxE, npMinE, he]
  obtain ⟨-, hjS, hjT, hjs, hjm⟩ := prepare_ok hj
  have hsc : job.scale = 0 := by
    rw [show job.scale = _ from hjs]
    rcases h0 with h0 | h0
    · rw [h0, zero_mul]
    · rw [npMax_sub_npMin_const S hS h0, pyAbs_eq, abs_zero, mul_zero]
  have hv : vadd S (List.replicate S.length 0) = S := zipWith_zero S
  have hto : trialOut fuel sp o.cfg.separateTrends o.emd.cfg job (List.replicate job.S.length 0) =
      match EMD.emdPure fuel sp o.emd.cfg S T m with
      | .error e => .error e
      | .ok R => .ok (R.rows, none) := by
    unfold trialOut
    rw [hjS, hv, hjm, emdPure_timeline fuel sp o.emd.cfg S T job.T m hS hjT]
    cases EMD.emdPure fuel sp o.emd.cfg S T m with
    | error e => rfl
    | ok R => simp only [hsep, Bool.false_eq_true, if_false]
  have hemd : (o.emd.emd fuel sp S T m).1 =
      match EMD.emdPure fuel sp o.emd.cfg S T m with
      | .error e => .error e
      | .ok R => .ok R.rows := by
    unfold EMD.Obj.emd
    cases EMD.emdPure fuel sp o.emd.cfg S T m <;> rfl
  rw [hemd]
  have hlen : ∀ R, EMD.emdPure fuel sp o.emd.cfg S T m = .ok R → ∀ r ∈ R.rows, r.length = S.length := by
    intro R hR
    have : (EMD.Obj.mk o.emd.cfg none none).emd fuel sp S T m = (.ok R.rows, ⟨o.emd.cfg, some R.imfs, some R.residue⟩) := by
      simp only [EMD.Obj.emd, hR]
    exact (EMD.C02_row_lengths _ _ _ _ _ _ _ _ this).1
  unfold Obj.eemd
  rw [hj]
  dsimp only
  cases hp : o.cfg.parallel with
  | false =>
    simp only [Bool.false_eq_true, if_false]
    obtain ⟨hok, herr⟩ := runTrials_zero rng hz fuel sp o.cfg hk job hsc o.cfg.trials { random := o.random, emd := o.emd } []
    cases hR : EMD.emdPure fuel sp o.emd.cfg S T m with
    | error e =>
      rw [hR] at hto
      obtain ⟨st', d', h⟩ := herr e hto (by omega)
      rw [h]
    | ok R =>
      rw [hR] at hto
      obtain ⟨st', h⟩ := hok _ hto
      rw [h]
      simp only [finish]
      rw [mean_same S.length _ ht _ (hlen R hR)]
  | true =>
    simp only [if_true]
    obtain ⟨hpp, hperm⟩ := hord hp
    have hc : chunkSize o.cfg.trials o.cfg.processes ≠ 0 := chunkSize_ne_zero hpp (by omega)
    have hcov : ∀ i < (chunkLengths o.cfg.trials (chunkSize o.cfg.trials o.cfg.processes)).length, i ∈ sched := by
      intro i hi
      rw [chunkLengths_length _ _ (.inl hc), chunkSize_eq _ _ hpp] at hi
      exact hperm.mem_iff.2 (List.mem_range.2 hi)
    have hpos : ∀ n ∈ chunkLengths o.cfg.trials (chunkSize o.cfg.trials o.cfg.processes), 0 < n := by
      intro n hn
      unfold chunkLengths at hn
      rcases List.mem_append.1 hn with hn | hn
      · rw [(List.mem_replicate.1 hn).2]; omega
      · split at hn
        · cases hn
        · rw [List.mem_singleton.1 hn]; omega
    have hsum := chunkLengths_sum o.cfg.trials (chunkSize o.cfg.trials o.cfg.processes) (.inl hc)
    generalize chunkLengths o.cfg.trials (chunkSize o.cfg.trials o.cfg.processes) = lens at hcov hpos hsum
    cases hR : EMD.emdPure fuel sp o.emd.cfg S T m with
    | error e =>
      rw [hR] at hto
      have hall : lens.map (fun n => runChunk rng fuel sp o.cfg job n { random := o.random, emd := o.emd }) =
          lens.map (fun _ => .error e) := by
        apply List.map_congr_left
        intro n hn
        exact (runChunk_zero rng hz fuel sp o.cfg hk job hsc n { random := o.random, emd := o.emd }).2 e hto (hpos n hn)
      have hne : lens ≠ [] := by
        intro h
        rw [h] at hsum
        simp at hsum
        omega
      rw [hall]
      obtain ⟨n, hn⟩ := List.exists_mem_of_ne_nil _ hne
      obtain ⟨e', he', hmem⟩ := poolMap_error (β := List (List K) × Option (List K)) (lens.map (fun _ => .error e)) sched
        (by rw [List.length_map]; exact hcov) e (List.mem_map.2 ⟨n, hn, rfl⟩)
      rw [he']
      obtain ⟨_, -, h⟩ := List.mem_map.1 hmem
      injection h with h
      rw [h]
    | ok R =>
      rw [hR] at hto
      have hall : lens.map (fun n => runChunk rng fuel sp o.cfg job n { random := o.random, emd := o.emd }) =
          (lens.map (fun n => List.replicate n (R.rows, (none : Option (List K))))).map .ok := by
        rw [List.map_map]
        apply List.map_congr_left
        intro n hn
        exact (runChunk_zero rng hz fuel sp o.cfg hk job hsc n { random := o.random, emd := o.emd }).1 _ hto
      rw [hall, poolMap_ok _ _ (by rw [List.length_map]; exact hcov)]
      have hflat : (lens.map (fun n => List.replicate n (R.rows, (none : Option (List K))))).flatten =
          List.replicate lens.sum (R.rows, none) := by
        clear hcov hpos hsum hall
        induction lens with
        | nil => rfl
        | cons n lens ih =>
          rw [List.map_cons, List.flatten_cons, ih, List.sum_cons, List.replicate_add]
      rw [hflat, hsum]
      simp only [finish]
      rw [mean_same S.length _ ht _ (hlen R hR)]

/-- A call without noise, and a constant signal with noise. -/
example : okWith (fun E => E.length == 2) ((sampleObj { sampleCfg with noiseWidth := 0 }).eemd sampleRng 20 linSciPy [] sampleS none (-1)).1 = true ∧
    okWith (fun E => E == [[3, 3, 3]]) ((sampleObj sampleCfg).eemd sampleRng 20 linSciPy [] [3, 3, 3] none (-1)).1 = true ∧
    ZeroScale sampleRng :=
  ⟨by decide +kernel, by decide +kernel, sampleRng_zero⟩

end Exact

end EEMD
end PyEMD
