import Verif.Props.Ensemble
import Verif.Props.NoRaise
import Mathlib.Data.Real.Sqrt

/-!
# When `eemd` raises, and the spread of the ensemble

C91: which exceptions `eemd` can raise.  C92: `ensemble_std()`.  C93: uniform noise moves the sum of the components by at most half its width.
-/

set_option linter.unusedSectionVars false

namespace PyEMD
namespace EEMD
open Spec

section LawFree

variable {α ρ : Type} [Add α] [Sub α] [Mul α] [Div α] [Neg α] [LT α] [LE α] [BEq α]
  [DecidableLT α] [DecidableLE α] [NpScalar α]

theorem trialUpdate_cfg (rng : Rng α ρ) (fuel : Nat) (sp : SciPy α) (cfg : Cfg α) (job : Job α) (st : TrialState α ρ) :
    (trialUpdate rng fuel sp cfg job st).2.emd.cfg = st.emd.cfg := by
  obtain ⟨o, ho, e⟩ := trialUpdate_eq rng fuel sp cfg job st
  rw [e]
  exact ho

/-- Exceptions of the trials in sequential mode. -/
theorem runTrials_err {rng : Rng α ρ} {fuel : Nat} {sp : SciPy α} {cfg : Cfg α} {job : Job α} {ecfg : EMD.Cfg α} {P : PyErr → Prop}
    (hP : ∀ st : TrialState α ρ, st.emd.cfg = ecfg → ∀ e, (trialUpdate rng fuel sp cfg job st).1 = .error e → P e) (n : Nat) :
    ∀ (st : TrialState α ρ), st.emd.cfg = ecfg → ∀ d e, (runTrials rng fuel sp cfg job n st d).1 = .error e → P e := by
  induction n with
  | zero => intro st _ d e h; cases h
  | succ n ih =>
    intro st hst d e h
    have h1 := hP st hst
    have h2 := trialUpdate_cfg rng fuel sp cfg job st
    unfold runTrials at h
    cases ht : trialUpdate rng fuel sp cfg job st with
    | mk x st' =>
      rw [ht] at h h1 h2
      cases x with
      | error e' =>
        injection h with h
        exact h1 e (by rw [h])
      | ok r => exact ih st' (h2.trans hst) _ e h

/-- Exceptions of a chunk in parallel mode. -/
theorem runChunk_err {rng : Rng α ρ} {fuel : Nat} {sp : SciPy α} {cfg : Cfg α} {job : Job α} {ecfg : EMD.Cfg α} {P : PyErr → Prop}
    (hP : ∀ st : TrialState α ρ, st.emd.cfg = ecfg → ∀ e, (trialUpdate rng fuel sp cfg job st).1 = .error e → P e) (n : Nat) :
    ∀ (st : TrialState α ρ), st.emd.cfg = ecfg → ∀ e, runChunk rng fuel sp cfg job n st = .error e → P e := by
  induction n with
  | zero => intro st _ e h; cases h
  | succ n ih =>
    intro st hst e h
    have h1 := hP st hst
    have h2 := trialUpdate_cfg rng fuel sp cfg job st
    unfold runChunk at h
    cases ht : trialUpdate rng fuel sp cfg job st with
    | mk x st' =>
      rw [ht] at h h1 h2
      cases x with
      | error e' =>
        injection h with h
        exact h1 e (by rw [h])
      | ok r =>
        dsimp only at h
        cases hc : runChunk rng fuel sp cfg job n st' with
        | error e' =>
          rw [hc] at h
          injection h with h
          exact ih st' (h2.trans hst) e (by rw [hc, h])
        | ok rs => rw [hc] at h; cases h

/-- Exceptions of a call are those of its trials. -/
theorem Obj.eemd_err {rng : Rng α ρ} {fuel : Nat} {sp : SciPy α} {order : List Nat} {o : Obj α ρ} {S : List α} {T : Option (List α)} {m : Int}
    {job : Job α} (hj : prepare o.cfg S T m = .ok job) (hord : o.cfg.parallel = true → Schedule o.cfg.trials o.cfg.processes order)
    {P : PyErr → Prop}
    (hP : ∀ st : TrialState α ρ, st.emd.cfg = o.emd.cfg → ∀ e, (trialUpdate rng fuel sp o.cfg job st).1 = .error e → P e) :
    ∀ e, (o.eemd rng fuel sp order S T m).1 = .error e → P e := by
  intro e h
  unfold Obj.eemd at h
  rw [hj] at h
  dsimp only at h
  cases hp : o.cfg.parallel with
  | false =>
    rw [hp] at h
    simp only [Bool.false_eq_true, if_false] at h
    have := runTrials_err hP o.cfg.trials { random := o.random, emd := o.emd } rfl []
    cases hr : runTrials rng fuel sp o.cfg job o.cfg.trials { random := o.random, emd := o.emd } [] with
    | mk x p =>
      obtain ⟨st, d⟩ := p
      rw [hr] at h this
      cases x with
      | error e' =>
        injection h with h
        exact this e (by rw [h])
      | ok u => simp [finish] at h
  | true =>
    rw [hp] at h
    simp only [if_true] at h
    obtain ⟨hpp, hperm⟩ := hord hp
    have hc : chunkSize o.cfg.trials o.cfg.processes ≠ 0 ∨ o.cfg.trials = 0 := by
      rcases Nat.eq_zero_or_pos o.cfg.trials with h0 | h0
      · exact .inr h0
      · exact .inl (chunkSize_ne_zero hpp h0)
    have hcov : ∀ i < (chunkLengths o.cfg.trials (chunkSize o.cfg.trials o.cfg.processes)).length, i ∈ order := by
      intro i hi
      rw [chunkLengths_length _ _ hc, chunkSize_eq _ _ hpp] at hi
      exact hperm.mem_iff.2 (List.mem_range.2 hi)
    rcases all_ok_or ((chunkLengths o.cfg.trials (chunkSize o.cfg.trials o.cfg.processes)).map
      (fun n => runChunk rng fuel sp o.cfg job n { random := o.random, emd := o.emd })) with ⟨vals, hv⟩ | ⟨e', he'⟩
    · have hlen : vals.length = (chunkLengths o.cfg.trials (chunkSize o.cfg.trials o.cfg.processes)).length := by
        have := congrArg List.length hv
        simpa using this.symm
      rw [hv, poolMap_ok vals order (by rw [hlen]; exact hcov)] at h
      simp [finish] at h
    · obtain ⟨e'', h1, h2⟩ := poolMap_error _ order (by rw [List.length_map]; exact hcov) e' he'
      rw [h1] at h
      injection h with h
      subst h
      obtain ⟨n, -, hn⟩ := List.mem_map.1 h2
      exact runChunk_err hP n { random := o.random, emd := o.emd } rfl _ hn

/-- C91: a noise kind other than "normal" and "uniform" is refused with `ValueError` as soon as there is a trial, sequentially and in
parallel. -/
theorem C91_noise_kind (rng : Rng α ρ) (fuel : Nat) (sp : SciPy α) (sched : List Nat) (o : Obj α ρ) (S : List α) (T : Option (List α))
    (m : Int) (hS : S ≠ []) (ht : 1 ≤ o.cfg.trials) (hk : o.cfg.noiseKind = .unknown)
    (hord : o.cfg.parallel = true → Schedule o.cfg.trials o.cfg.processes sched) :
    (o.eemd rng fuel sp sched S T m).1 = .error .valueError := by
  obtain ⟨job, hj⟩ : ∃ job, prepare o.cfg S T m = .ok job := by
    have hl : S.length ≠ 0 := by simpa using hS
    have he : S.isEmpty = false := by simpa using hS
    unfold prepare
    cases T <;> simp [bind, Except.bind, pure, Except.pure, EMD.timeline, hl, npMaxE, npMinE, he]
  have ht1 : ∀ st : TrialState α ρ, trialUpdate rng fuel sp o.cfg job st = (.error .valueError, st) := by
    intro st
    simp [trialUpdate, generateNoise, hk]
  cases hx : (o.eemd rng fuel sp sched S T m).1 with
  | error e =>
    congr 1
    exact Obj.eemd_err hj hord (P := fun e => e = .valueError) (fun st _ e h => by rw [ht1] at h; injection h with h; exact h.symm) e hx
  | ok E =>
    exfalso
    obtain ⟨job', noises, outs, hj', h1, h2, -⟩ := Obj.eemd_post (o' := (o.eemd rng fuel sp sched S T m).2) hord (Prod.ext hx rfl)
    unfold Obj.eemd at hx
    rw [hj] at hx
    dsimp only at hx
    cases hp : o.cfg.parallel with
    | false =>
      rw [hp] at hx
      obtain ⟨t, ht⟩ := Nat.exists_eq_add_of_le' ht
      simp [ht, runTrials, ht1] at hx
    | true =>
      rw [hp] at hx
      simp only [if_true] at hx
      obtain ⟨hpp, hperm⟩ := hord hp
      have hc : chunkSize o.cfg.trials o.cfg.processes ≠ 0 := chunkSize_ne_zero hpp (by omega)
      have hcov : ∀ i < (chunkLengths o.cfg.trials (chunkSize o.cfg.trials o.cfg.processes)).length, i ∈ sched := by
        intro i hi
        rw [chunkLengths_length _ _ (.inl hc), chunkSize_eq _ _ hpp] at hi
        exact hperm.mem_iff.2 (List.mem_range.2 hi)
      have hq : chunkSize o.cfg.trials o.cfg.processes ∈ chunkLengths o.cfg.trials (chunkSize o.cfg.trials o.cfg.processes) := by
        have := chunkSize_le (trials := o.cfg.trials) hpp
        have hq : 0 < o.cfg.trials / chunkSize o.cfg.trials o.cfg.processes := Nat.div_pos this (Nat.pos_of_ne_zero hc)
        unfold chunkLengths
        simp only [List.mem_append, List.mem_replicate]
        left
        exact ⟨by omega, trivial⟩
      obtain ⟨c, hc'⟩ := Nat.exists_eq_succ_of_ne_zero hc
      have hrun : runChunk rng fuel sp o.cfg job (chunkSize o.cfg.trials o.cfg.processes) { random := o.random, emd := o.emd } =
          .error .valueError := by
        rw [hc']
        simp [runChunk, ht1]
      obtain ⟨e'', h1, -⟩ := poolMap_error ((chunkLengths o.cfg.trials (chunkSize o.cfg.trials o.cfg.processes)).map
        (fun n => runChunk rng fuel sp o.cfg job n { random := o.random, emd := o.emd })) sched (by rw [List.length_map]; exact hcov)
        .valueError (List.mem_map.2 ⟨_, hq, hrun⟩)
      rw [h1] at hx
      cases hx

/-- Three trials in two processes. -/
example : errIs .valueError ((sampleObj { sampleCfg with noiseKind := .unknown }).eemd sampleRng 20 linSciPy [] sampleS none (-1)).1 = true ∧
    errIs .valueError ((sampleObj { sampleCfg with noiseKind := .unknown, parallel := true }).eemd sampleRng 20 linSciPy [2, 0, 1] sampleS
      none (-1)).1 = true := by
  decide +kernel

end LawFree

section Exact

variable {K ρ : Type} [Field K] [LinearOrder K] [IsStrictOrderedRing K] [FloorRing K]

theorem prepare_total (cfg : Cfg K) (S : List K) (hS : S ≠ []) (T : Option (List K)) (m : Int) : ∃ job, prepare cfg S T m = .ok job := by
  have hl : S.length ≠ 0 := by simpa using hS
  have he : S.isEmpty = false := by simpa using hS
  unfold prepare
  cases T <;> simp [bind, Except.bind, pure, Except.pure, EMD.timeline, hl, npMaxE, npMinE, he]

/-- An exception of `get_imfs_and_trend` after a decomposition: the signal vanishes. -/
theorem trend_error {fuel : Nat} {sp : SciPy K} {cfg : EMD.Cfg K} {S : List K} {T : Option (List K)} {m : Int} {R : EMD.Result K}
    (hR : EMD.emdPure fuel sp cfg S T m = .ok R) {e : PyErr}
    (he : EMD.Obj.getImfsAndTrend ⟨cfg, some R.imfs, some R.residue⟩ = .error e) : e = .indexError ∧ EMD.Spec.Vanishes S := by
  have hemd : (EMD.Obj.mk cfg none none).emd fuel sp S T m = (.ok R.rows, ⟨cfg, some R.imfs, some R.residue⟩) := by
    simp only [EMD.Obj.emd, hR]
  obtain ⟨hr, he'⟩ := (EMD.C04_trend_error_iff fuel sp _ _ S T m R.rows hemd).1 ⟨e, he⟩
  refine ⟨by rw [he'] at he; injection he with he; exact he.symm, ?_⟩
  obtain ⟨imfs, res, h1, h2, ⟨hv, h3⟩ | ⟨-, h3⟩⟩ := EMD.C03_rows_vs_stored fuel sp _ _ S T m R.rows hemd
  · rw [hr] at h3
    subst h3
    intro x hx
    obtain ⟨i, hi, rfl⟩ := List.getElem_of_mem hx
    obtain ⟨s, hs, hres⟩ := h2.2 i hi
    rw [List.getElem?_eq_getElem hi] at hs
    injection hs with hs
    rw [hs]
    apply hv
    apply List.mem_of_getElem? (i := i)
    rw [hres]
    simp [colSum_eq]
  · rw [hr] at h3
    simp at h3

/-- C91: under the conditions of C22 (accepting interpolation, simple detection, `nbsym ≥ 1`, known spline kind, at least two samples, positions
of the right length) and with a supported noise kind, `eemd` raises nothing, sequentially or in parallel, except that with
`separate_trends` a noisy copy of the signal that vanishes makes it raise `IndexError`. -/
theorem C91_no_exception (rng : Rng K ρ) (hs : Sized rng) (fuel : Nat) (sp : SciPy K) (hsp : EMD.Spec.AcceptsAll sp) (sched : List Nat)
    (o : Obj K ρ) (hd : o.emd.cfg.detection = .simple) (hnb : 1 ≤ o.emd.cfg.nbsym) (hk : o.emd.cfg.splineKind ≠ .unknown)
    (hn : o.cfg.noiseKind ≠ .unknown) (hord : o.cfg.parallel = true → Schedule o.cfg.trials o.cfg.processes sched)
    (S : List K) (hS : 2 ≤ S.length) (T : Option (List K)) (hT : ∀ T', T = some T' → T'.length = S.length) (m : Int) :
    (∃ E, (o.eemd rng fuel sp sched S T m).1 = .ok E) ∨ (o.eemd rng fuel sp sched S T m).1 = .error .outOfFuel ∨
      ((o.eemd rng fuel sp sched S T m).1 = .error .indexError ∧ o.cfg.separateTrends = true ∧
        ∃ scale noise r r', ScaleFor o.cfg.noiseWidth S scale ∧ Draw rng o.cfg.noiseKind scale S.length r noise r' ∧
          EMD.Spec.Vanishes (List.zipWith (fun s x => s + x) S noise)) := by
  obtain ⟨job, hj⟩ := prepare_total o.cfg S (by rintro rfl; simp at hS) T m
  obtain ⟨-, hjS, hjT, hjs, hjm⟩ := prepare_ok hj
  have hlT : job.T.length = S.length := by
    cases T with
    | none => rw [show job.T = _ from hjT]; simp
    | some t => rw [show job.T = t from hjT]; exact hT t rfl
  have hP : ∀ st : TrialState K ρ, st.emd.cfg = o.emd.cfg → ∀ e, (trialUpdate rng fuel sp o.cfg job st).1 = .error e →
      e = .outOfFuel ∨ (e = .indexError ∧ o.cfg.separateTrends = true ∧
        ∃ scale noise r r', ScaleFor o.cfg.noiseWidth S scale ∧ Draw rng o.cfg.noiseKind scale S.length r noise r' ∧
          EMD.Spec.Vanishes (List.zipWith (fun s x => s + x) S noise)) := by
    intro st hst e he
    obtain ⟨o', -, hu⟩ := trialUpdate_eq rng fuel sp o.cfg job st
    rw [hu] at he
    dsimp only at he
    cases hg : (generateNoise rng o.cfg.noiseKind st.random job.scale job.S.length).1 with
    | error e' =>
      exfalso
      unfold generateNoise at hg
      cases hkk : o.cfg.noiseKind with
      | normal => rw [hkk] at hg; cases hg
      | uniform => rw [hkk] at hg; cases hg
      | unknown => exact hn hkk
    | ok noise =>
      rw [hg] at he
      dsimp only at he
      have hdraw := generateNoise_ok hg
      have hlen : noise.length = S.length := by
        rw [← hjS]
        rcases hdraw with ⟨-, h⟩ | ⟨-, h⟩
        · have := hs.1 st.random job.scale job.S.length; rw [h] at this; exact this
        · have := hs.2 st.random (-job.scale / lit 2) (job.scale / lit 2) job.S.length; rw [h] at this; exact this
      have hvl : (vadd job.S noise).length = S.length := by
        rw [hjS]; simp [vadd, hlen]
      unfold trialOut at he
      rcases EMD.C22_no_exception fuel sp hsp o.emd.cfg hd hnb hk (vadd job.S noise) (by omega) (some job.T)
        (by intro T' h; injection h with h; rw [← h, hlT, hvl]) job.maxImf with ⟨R, hR⟩ | hR
      · rw [hst, hR] at he
        dsimp only at he
        cases hsep : o.cfg.separateTrends with
        | false => rw [hsep] at he; simp at he
        | true =>
          rw [hsep] at he
          simp only [if_true] at he
          right
          cases hg' : EMD.Obj.getImfsAndTrend ⟨o.emd.cfg, some R.imfs, some R.residue⟩ with
          | ok p => rw [hg'] at he; cases he
          | error e' =>
            rw [hg'] at he
            injection he with he
            subst he
            obtain ⟨h1, h2⟩ := trend_error hR hg'
            refine ⟨h1, rfl, job.scale, noise, st.random, _, hjs, by rw [← hjS]; exact hdraw, ?_⟩
            rw [hjS] at h2
            exact h2
      · rw [hst, hR] at he
        injection he with he
        exact .inl he.symm
  have := Obj.eemd_err hj hord hP
  cases hx : (o.eemd rng fuel sp sched S T m).1 with
  | ok E => exact .inl ⟨E, rfl⟩
  | error e =>
    right
    rcases this e hx with rfl | ⟨rfl, h⟩
    · exact .inl rfl
    · exact .inr ⟨rfl, h⟩

/-- C91, with a limit on the number of components and without separated trends: `eemd` returns. -/
theorem C91_returns (rng : Rng K ρ) (hs : Sized rng) (fuel : Nat) (sp : SciPy K) (hsp : EMD.Spec.AcceptsAll sp) (sched : List Nat)
    (o : Obj K ρ) (hd : o.emd.cfg.detection = .simple) (hnb : 1 ≤ o.emd.cfg.nbsym) (hk : o.emd.cfg.splineKind ≠ .unknown)
    (hn : o.cfg.noiseKind ≠ .unknown) (hord : o.cfg.parallel = true → Schedule o.cfg.trials o.cfg.processes sched)
    (hsep : o.cfg.separateTrends = false) (S : List K) (hS : 2 ≤ S.length) (T : Option (List K))
    (hT : ∀ T', T = some T' → T'.length = S.length) (k : Nat) (hk1 : 1 ≤ k) (hf : k ≤ fuel) :
    ∃ E, (o.eemd rng fuel sp sched S T k).1 = .ok E := by
  rcases C91_no_exception rng hs fuel sp hsp sched o hd hnb hk hn hord S hS T hT k with h | h | ⟨-, h, -⟩
  · exact h
  · exfalso
    obtain ⟨job, hj⟩ := prepare_total o.cfg S (by rintro rfl; simp at hS) T k
    obtain ⟨-, hjS, hjT, hjs, hjm⟩ := prepare_ok hj
    refine Obj.eemd_err hj hord (P := fun e => e ≠ .outOfFuel) (fun st hst e he => ?_) _ h rfl
    rintro rfl
    obtain ⟨o', -, hu⟩ := trialUpdate_eq rng fuel sp o.cfg job st
    rw [hu] at he
    dsimp only at he
    cases hg : (generateNoise rng o.cfg.noiseKind st.random job.scale job.S.length).1 with
    | error e' =>
      unfold generateNoise at hg
      cases hkk : o.cfg.noiseKind with
      | normal => rw [hkk] at hg; cases hg
      | uniform => rw [hkk] at hg; cases hg
      | unknown => exact hn hkk
    | ok noise =>
      rw [hg] at he
      dsimp only at he
      unfold trialOut at he
      rw [hsep, hjm] at he
      cases hR : EMD.emdPure fuel sp st.emd.cfg (vadd job.S noise) (some job.T) k with
      | ok R => rw [hR] at he; simp at he
      | error e =>
        rw [hR] at he
        injection he with he
        subst he
        exact EMD.C07_max_imf_terminates fuel sp st.emd.cfg _ _ k hk1 hf hR
  · rw [hsep] at h; cases h

/-- The hypotheses are satisfiable, sequentially and in two processes. -/
example : (∃ E, ((sampleObj sampleCfg).eemd sampleRng 3 linSciPy [] sampleS none (3 : Nat)).1 = .ok E) ∧
    ∃ E, ((sampleObj { sampleCfg with parallel := true, processes := 2 }).eemd sampleRng 3 linSciPy [2, 0, 1] sampleS none (3 : Nat)).1 = .ok E :=
  ⟨C91_returns sampleRng sampleRng_sized 3 linSciPy EMD.linSciPy_accepts [] (sampleObj sampleCfg) rfl (by decide) (by decide) (by decide)
      (by intro h; cases h) rfl sampleS (by decide) none (by simp) 3 (by decide) (by decide),
    C91_returns sampleRng sampleRng_sized 3 linSciPy EMD.linSciPy_accepts [2, 0, 1] (sampleObj { sampleCfg with parallel := true, processes := 2 })
      rfl (by decide) (by decide) (by decide) (by intro _; exact ⟨by decide, by decide⟩) rfl sampleS (by decide) none (by simp) 3 (by decide)
      (by decide)⟩

/-- The exception with separated trends occurs: the zero signal. -/
theorem C91_zero_signal : errIs .indexError
    ((sampleObj { sampleCfg with separateTrends := true }).eemd sampleRng 5 linSciPy [] [0, 0, 0] none (-1)).1 = true := by
  decide +kernel

/-! ## C92 -/

/-- Assumption about `np.sqrt`: the nonnegative root of every nonnegative number. -/
def IsSqrt (sqrt : K → K) : Prop := ∀ x, 0 ≤ x → 0 ≤ sqrt x ∧ sqrt x * sqrt x = x

/-- `row` is the pointwise standard deviation of `rows`: nonnegative, and its square is the mean squared distance from the mean. -/
def IsStd (n : Nat) (rows : List (List K)) (row : List K) : Prop :=
  row.length = n ∧ ∀ i < n, ∃ s, row[i]? = some s ∧ 0 ≤ s ∧
    s * s * (rows.length : K) = (rows.map (fun r => (r.getD i 0 - (rows.map (fun r => r.getD i 0)).sum / (rows.length : K)) ^ 2)).sum

theorem isStd_stdRows {sqrt : K → K} (hq : IsSqrt sqrt) (n : Nat) (rows : List (List K)) (hne : rows ≠ []) (h : ∀ r ∈ rows, r.length = n) :
    IsStd n rows (stdRows sqrt n rows) := by
  obtain ⟨hl, hm⟩ := isMean_meanRows n rows h
  have hsq : ∀ r ∈ rows.map (fun r => List.zipWith (fun x y => (x - y) * (x - y)) r (meanRows n rows)), r.length = n := by
    intro r hr
    obtain ⟨r', hr', rfl⟩ := List.mem_map.1 hr
    simp [h r' hr', hl]
  obtain ⟨hl2, hm2⟩ := isMean_meanRows n _ hsq
  have hpos : (0 : K) < (rows.length : K) := by exact_mod_cast List.length_pos_iff.2 hne
  refine ⟨by simp [stdRows, hl2], fun i hi => ?_⟩
  have hv : (rows.map (fun r => List.zipWith (fun x y => (x - y) * (x - y)) r (meanRows n rows))).map (fun r => r.getD i (lit 0)) =
      rows.map (fun r => (r.getD i 0 - (rows.map (fun r => r.getD i 0)).sum / (rows.length : K)) ^ 2) := by
    rw [List.map_map]
    apply List.map_congr_left
    intro r hr
    have h1 : r[i]? = some (r.getD i 0) := by
      rw [List.getD_eq_getElem?_getD, List.getElem?_eq_getElem (by rw [h r hr]; exact hi)]
      rfl
    simp only [Function.comp_apply]
    rw [List.getD_eq_getElem?_getD, List.getElem?_zipWith, h1, hm i hi]
    simp [lit_zero, lit_nat]
    ring
  refine ⟨_, by rw [stdRows]; simp only [List.getElem?_map, hm2 i hi, Option.map_some]; rfl, ?_⟩
  rw [hv]
  have hnn : 0 ≤ (rows.map (fun r => (r.getD i 0 - (rows.map (fun r => r.getD i 0)).sum / (rows.length : K)) ^ 2)).sum := by
    apply List.sum_nonneg
    intro x hx
    obtain ⟨r, -, rfl⟩ := List.mem_map.1 hx
    positivity
  have hcast : (lit (((rows.map (fun r => List.zipWith (fun x y => (x - y) * (x - y)) r (meanRows n rows))).length : Nat) : ℚ) : K) =
      (rows.length : K) := by rw [List.length_map, lit_nat]
  rw [hcast]
  obtain ⟨a, b⟩ := hq _ (div_nonneg hnn hpos.le)
  refine ⟨a, ?_⟩
  rw [b, div_mul_cancel₀ _ hpos.ne']

/-- The spread is zero exactly where all rows agree. -/
theorem IsStd.zero_iff {n : Nat} {rows : List (List K)} {row : List K} (h : IsStd n rows row) (hne : rows ≠ []) {i : Nat} (hi : i < n) :
    row[i]? = some 0 ↔ ∀ r ∈ rows, ∀ r' ∈ rows, r.getD i 0 = r'.getD i 0 := by
  obtain ⟨s, h1, -, h2⟩ := h.2 i hi
  have hpos : (0 : K) < (rows.length : K) := by exact_mod_cast List.length_pos_iff.2 hne
  rw [h1]
  constructor
  · rintro ⟨⟩
    rw [zero_mul, zero_mul] at h2
    have hz : ∀ x ∈ rows.map (fun r => (r.getD i 0 - (rows.map (fun r => r.getD i 0)).sum / (rows.length : K)) ^ 2), x = 0 := by
      intro x hx
      have hnn : ∀ y ∈ rows.map (fun r => (r.getD i 0 - (rows.map (fun r => r.getD i 0)).sum / (rows.length : K)) ^ 2), 0 ≤ y := by
        intro y hy
        obtain ⟨r, -, rfl⟩ := List.mem_map.1 hy
        positivity
      exact le_antisymm (h2 ▸ List.single_le_sum hnn x hx) (hnn x hx)
    have hm : ∀ r ∈ rows, r.getD i 0 = (rows.map (fun r => r.getD i 0)).sum / (rows.length : K) := by
      intro r hr
      have := hz _ (List.mem_map.2 ⟨r, hr, rfl⟩)
      exact sub_eq_zero.1 (pow_eq_zero_iff (two_ne_zero)|>.1 this)
    intro r hr r' hr'
    rw [hm r hr, hm r' hr']
  · intro hall
    obtain ⟨r₀, hr₀⟩ := List.exists_mem_of_ne_nil _ hne
    have e : rows.map (fun r => r.getD i 0) = List.replicate rows.length (r₀.getD i 0) := by
      rw [List.eq_replicate_iff]
      refine ⟨by simp, fun x hx => ?_⟩
      obtain ⟨r, hr, rfl⟩ := List.mem_map.1 hx
      exact hall r hr r₀ hr₀
    have hs : s * s * (rows.length : K) = 0 := by
      rw [h2]
      apply List.sum_eq_zero
      intro x hx
      obtain ⟨r, hr, rfl⟩ := List.mem_map.1 hx
      rw [e, List.sum_replicate, hall r hr r₀ hr₀, nsmul_eq_mul, mul_div_cancel_left₀ _ hpos.ne', sub_self]
      simp
    rcases mul_eq_zero.1 hs with hs | hs
    · rw [mul_self_eq_zero.1 hs]
    · exact absurd hs hpos.ne'

/-- No row is further from the mean than the spread times the root of the number of rows. -/
theorem IsStd.spread {n : Nat} {rows : List (List K)} {row mean : List K} (h : IsStd n rows row) (hm : IsMean n rows mean) {i : Nat}
    (hi : i < n) : ∀ r ∈ rows, (r.getD i 0 - mean.getD i 0) ^ 2 ≤ (rows.length : K) * row.getD i 0 ^ 2 := by
  obtain ⟨s, h1, -, h2⟩ := h.2 i hi
  have h3 := hm.2 i hi
  intro r hr
  rw [List.getD_eq_getElem?_getD (l := row), h1, List.getD_eq_getElem?_getD (l := mean), h3]
  simp only [Option.getD_some, lit_zero, lit_nat]
  have hnn : ∀ y ∈ rows.map (fun r => (r.getD i 0 - (rows.map (fun r => r.getD i 0)).sum / (rows.length : K)) ^ 2), 0 ≤ y := by
    intro y hy
    obtain ⟨r, -, rfl⟩ := List.mem_map.1 hy
    positivity
  have := List.single_le_sum hnn _ (List.mem_map.2 ⟨r, hr, rfl⟩)
  rw [← h2] at this
  linarith [this, sq s]

/-- C92: after `eemd` returned `E` (without separated trends), `ensemble_std()` has one row per row of `E`; row `k` is the standard
deviation of the `k`-th component over exactly those trials that have one.  So it is zero exactly where these trials agree, and no trial
is further from `E` than `sqrt(ensemble_count()[k])` times the spread. -/
theorem C92_std {sqrt : K → K} (hq : IsSqrt sqrt) (rng : Rng K ρ) (fuel : Nat) (sp : SciPy K) (sched : List Nat) (o o' : Obj K ρ) (S : List K)
    (T : Option (List K)) (m : Int) (E : List (List K)) (hs : Sized rng)
    (hord : o.cfg.parallel = true → Schedule o.cfg.trials o.cfg.processes sched) (hsep : o.cfg.separateTrends = false)
    (h : o.eemd rng fuel sp sched S T m = (.ok E, o')) :
    ∃ T' scale noises outs, Ran rng fuel sp o o' S T m T' scale noises outs ∧ (ensembleStd sqrt S.length o'.allImfs).length = E.length ∧
      ∀ k row, (ensembleStd sqrt S.length o'.allImfs)[k]? = some row → IsStd S.length (order (outs.map (·.1)) k) row ∧
        ∀ i < S.length, (row[i]? = some 0 ↔ ∀ r ∈ order (outs.map (·.1)) k, ∀ r' ∈ order (outs.map (·.1)) k, r.getD i 0 = r'.getD i 0) ∧
          ∀ mean, E[k]? = some mean → ∀ r ∈ order (outs.map (·.1)) k,
            (r.getD i 0 - mean.getD i 0) ^ 2 ≤ ((order (outs.map (·.1)) k).length : K) * row.getD i 0 ^ 2 := by
  obtain ⟨T', scale, noises, outs, hr, h1, h2, -⟩ := Obj.eemd_ran hord h
  refine ⟨T', scale, noises, outs, hr, by rw [h2]; simp [ensembleStd, ensembleMean], fun k row hk => ?_⟩
  rw [foldl_addTrial_none outs (hr.none hsep), renameTrend_dictOf] at h1
  have hrows : ∀ k, ∀ r ∈ order (outs.map (·.1)) k, r.length = S.length := by
    intro k r hr'
    obtain ⟨c, hc, hck⟩ := List.mem_filterMap.1 hr'
    obtain ⟨out, hout, rfl⟩ := List.mem_map.1 hc
    exact (hr.lengths hs out hout).1 r (List.mem_of_getElem? hck)
  rw [h1] at hk
  have hk' : k < height (outs.map (·.1)) := by
    have := (List.getElem?_eq_some_iff.1 hk).1
    simpa [ensembleStd, dictOf] using this
  have hne : order (outs.map (·.1)) k ≠ [] := by
    obtain ⟨c, hc, hkc⟩ := lt_height.1 hk'
    intro h0
    have : c[k] ∈ order (outs.map (·.1)) k := List.mem_filterMap.2 ⟨c, hc, List.getElem?_eq_getElem hkc⟩
    rw [h0] at this
    cases this
  simp only [ensembleStd, dictOf, List.map_map, List.getElem?_map, List.getElem?_range hk', Option.map_some, Function.comp_apply,
    Option.some.injEq] at hk
  have hstd : IsStd S.length (order (outs.map (·.1)) k) row := hk ▸ isStd_stdRows hq _ _ hne (hrows k)
  refine ⟨hstd, fun i hi => ⟨hstd.zero_iff hne hi, fun mean hmean => ?_⟩⟩
  rw [h2, h1] at hmean
  simp only [ensembleMean, dictOf, List.map_map, List.getElem?_map, List.getElem?_range hk', Option.map_some, Function.comp_apply,
    Option.some.injEq] at hmean
  exact hstd.spread (hmean ▸ isMean_meanRows _ _ (hrows k)) hi

/-- C92, with separated trends: the last row of `ensemble_std()` is the spread of the trends over all trials. -/
theorem C92_std_trend {sqrt : K → K} (hq : IsSqrt sqrt) (rng : Rng K ρ) (fuel : Nat) (sp : SciPy K) (sched : List Nat) (o o' : Obj K ρ)
    (S : List K) (T : Option (List K)) (m : Int) (E : List (List K)) (hs : Sized rng)
    (hord : o.cfg.parallel = true → Schedule o.cfg.trials o.cfg.processes sched) (hsep : o.cfg.separateTrends = true)
    (ht : 1 ≤ o.cfg.trials) (h : o.eemd rng fuel sp sched S T m = (.ok E, o')) :
    ∃ T' scale noises outs trends rows last, Ran rng fuel sp o o' S T m T' scale noises outs ∧ outs.map (·.2) = trends.map some ∧
      ensembleStd sqrt S.length o'.allImfs = rows ++ [last] ∧ rows.length + 1 = E.length ∧ IsStd S.length trends last ∧
      ∀ k row, rows[k]? = some row → IsStd S.length (order (outs.map (·.1)) k) row := by
  obtain ⟨T', scale, noises, outs, hr, h1, h2, -⟩ := Obj.eemd_ran hord h
  have hsome := hr.some hsep
  have hne' : outs ≠ [] := by
    intro h0
    have := hr.count
    rw [h0] at this
    simp at this
    omega
  rw [foldl_addTrial_some outs hne' hsome, renameTrend_cons] at h1
  have htr : outs.map (·.2) = (outs.filterMap (·.2)).map some := by
    clear h1 h2 hr hne'
    induction outs with
    | nil => rfl
    | cons out outs ih =>
      obtain ⟨t, ht⟩ := Option.isSome_iff_exists.1 (hsome out (by simp))
      simp [List.filterMap_cons, ht]
      simpa using ih (fun q hq => hsome q (by simp [hq]))
  have hrows : ∀ k, ∀ r ∈ order (outs.map (·.1)) k, r.length = S.length := by
    intro k r hr'
    obtain ⟨c, hc, hck⟩ := List.mem_filterMap.1 hr'
    obtain ⟨out, hout, rfl⟩ := List.mem_map.1 hc
    exact (hr.lengths hs out hout).1 r (List.mem_of_getElem? hck)
  refine ⟨T', scale, noises, outs, outs.filterMap (·.2),
    ensembleStd sqrt S.length (dictOf (height (outs.map (·.1))) (order (outs.map (·.1)))), stdRows sqrt S.length (outs.filterMap (·.2)), hr, htr,
    by rw [h1]; simp [ensembleStd], by rw [h2, h1]; simp [ensembleStd, ensembleMean], ?_, fun k row hk => ?_⟩
  · apply isStd_stdRows hq
    · intro h0
      rw [h0] at htr
      simp at htr
      exact hne' htr
    · intro r hr'
      obtain ⟨out, hout, hot⟩ := List.mem_filterMap.1 hr'
      exact (hr.lengths hs out hout).2 r hot
  · have hk' : k < height (outs.map (·.1)) := by
      have := (List.getElem?_eq_some_iff.1 hk).1
      simpa [ensembleStd, dictOf] using this
    simp only [ensembleStd, dictOf, List.map_map, List.getElem?_map, List.getElem?_range hk', Option.map_some, Function.comp_apply,
      Option.some.injEq] at hk
    rw [← hk]
    refine isStd_stdRows hq _ _ ?_ (hrows k)
    obtain ⟨c, hc, hkc⟩ := lt_height.1 hk'
    intro h0
    have : c[k] ∈ order (outs.map (·.1)) k := List.mem_filterMap.2 ⟨c, hc, List.getElem?_eq_getElem hkc⟩
    rw [h0] at this
    cases this

/-- A call to which the theorem applies (the squares of the spread, with the identity in place of the root). -/
example : (ensembleStd id 7 ((sampleObj sampleCfg).eemd sampleRng 20 linSciPy [] sampleS none (-1)).2.allImfs).map (·.length) = [7, 7] ∧
    (ensembleStd id 7 ((sampleObj sampleCfg).eemd sampleRng 20 linSciPy [] sampleS none (-1)).2.allImfs).map (fun r => decide (0 < r.getD 0 0)) =
      [true, true] := by
  decide +kernel

/-- The assumption on the root can be met. -/
example : IsSqrt Real.sqrt := fun x hx => ⟨Real.sqrt_nonneg x, Real.mul_self_sqrt hx⟩

/-! ## C93 -/

/-- Assumption about `np.random.uniform(low, high)`: samples between the bounds. -/
def UniformBounded (rng : Rng K ρ) : Prop := ∀ r a b n, a ≤ b → ∀ x ∈ (rng.uniform r a b n).1, a ≤ x ∧ x ≤ b

theorem Stream.forall {rng : Rng K ρ} {kind : NoiseKind} {scale : K} {n : Nat} {P : List K → Prop}
    (hP : ∀ r x r', Draw rng kind scale n r x r' → P x) {r r' : ρ} {xs : List (List K)} (h : Stream rng kind scale n r xs r') :
    ∀ x ∈ xs, P x := by
  induction h with
  | nil => simp
  | cons h _ ih =>
    intro x hx
    rcases List.mem_cons.1 hx with rfl | hx
    · exact hP _ _ _ h
    · exact ih x hx

/-- What holds of every draw holds of every noise of a call. -/
theorem Spec.Ran.noise {rng : Rng K ρ} {fuel : Nat} {sp : SciPy K} {o o' : Obj K ρ} {S : List K} {T : Option (List K)} {m : Int} {T' : List K}
    {scale : K} {noises : List (List K)} {outs : List (List (List K) × Option (List K))}
    (h : Ran rng fuel sp o o' S T m T' scale noises outs) {P : List K → Prop}
    (hP : ∀ r x r', Draw rng o.cfg.noiseKind scale S.length r x r' → P x) : ∀ x ∈ noises, P x := by
  cases hp : o.cfg.parallel with
  | false => exact Stream.forall hP (h.sequential hp)
  | true =>
    obtain ⟨-, first, r', h1, -, h2⟩ := h.parallel hp
    intro x hx
    obtain ⟨t, ht, rfl⟩ := List.getElem_of_mem hx
    have hlt : t < o.cfg.trials := by rw [← h.count, ← h.trial.length_eq]; exact ht
    have := h2 t hlt
    rw [List.getElem?_eq_getElem ht] at this
    exact Stream.forall hP h1 _ (List.mem_of_getElem? this.symm)

theorem abs_sum_le (l : List K) (b : K) (h : ∀ x ∈ l, |x| ≤ b) : |l.sum| ≤ (l.length : K) * b := by
  induction l with
  | nil => simp
  | cons x l ih =>
    rw [List.sum_cons, List.length_cons]
    push_cast
    have h1 := h x (by simp)
    have h2 := ih (fun y hy => h y (by simp [hy]))
    have := abs_add_le x l.sum
    linarith

theorem noise_bound {rng : Rng K ρ} (hb : UniformBounded rng) {fuel : Nat} {sp : SciPy K} {o o' : Obj K ρ} {S : List K} {T : Option (List K)}
    {m : Int} {T' : List K} {scale : K} {noises : List (List K)} {outs : List (List (List K) × Option (List K))}
    (h : Ran rng fuel sp o o' S T m T' scale noises outs) (hk : o.cfg.noiseKind = .uniform) (hw : 0 ≤ o.cfg.noiseWidth) (i : Nat) :
    |(noises.map (fun x => x.getD i 0)).sum| ≤ (o.cfg.trials : K) * (scale / 2) := by
  have hsc : 0 ≤ scale := by
    rw [show scale = _ from h.width]
    rw [pyAbs_eq]
    positivity
  have := abs_sum_le (noises.map (fun x => x.getD i 0)) (scale / 2) (by
    intro x hx
    obtain ⟨x', hx', rfl⟩ := List.mem_map.1 hx
    refine h.noise (P := fun x => |x.getD i 0| ≤ scale / 2) ?_ x' hx'
    rintro r y r' (⟨h0, -⟩ | ⟨-, h0⟩)
    · rw [hk] at h0; cases h0
    · have hy := hb r (-scale / lit 2) (scale / lit 2) S.length (by simp only [lit_two]; linarith)
      rw [h0] at hy
      simp only [lit_two] at hy
      rw [List.getD_eq_getElem?_getD]
      cases hi : y[i]? with
      | none => simp; linarith
      | some v =>
        obtain ⟨a, b⟩ := hy v (List.mem_of_getElem? hi)
        simp only [Option.getD_some]
        rw [abs_le]
        constructor <;> linarith)
  rw [List.length_map, h.trial.length_eq, h.count] at this
  exact this

/-- C93: with uniform noise, the components weighted by their share of the trials add up to the signal within half the width of the noise,
`noise_width * (max S - min S) / 2`, plus the tolerance of `np.allclose`: with and without separated trends, sequentially and in
parallel. -/
theorem C93_uniform (rng : Rng K ρ) (hb : UniformBounded rng) (fuel : Nat) (sp : SciPy K) (sched : List Nat) (o o' : Obj K ρ) (S : List K)
    (T : Option (List K)) (m : Int) (E : List (List K)) (hs : Sized rng)
    (hord : o.cfg.parallel = true → Schedule o.cfg.trials o.cfg.processes sched) (ht : 1 ≤ o.cfg.trials) (hk : o.cfg.noiseKind = .uniform)
    (hw : 0 ≤ o.cfg.noiseWidth) (h : o.eemd rng fuel sp sched S T m = (.ok E, o')) (a b : K) (ha : ∀ s ∈ S, a ≤ s) (hb' : ∀ s ∈ S, s ≤ b) :
    ∀ i < S.length,
      |(List.zipWith (fun (c : Nat) row => (c : K) / (o.cfg.trials : K) * row.getD i 0) (ensembleCount o'.allImfs) E).sum - S.getD i 0| ≤
        o.cfg.noiseWidth * (b - a) / 2 + 1 / 100000000 := by
  obtain ⟨T', scale, noises, outs, hr, -, hsum⟩ := C77_weighted_sum rng fuel sp sched o o' S T m E hs hord ht h
  intro i hi
  have h1 := hsum i hi
  have h2 := noise_bound hb hr hk hw i
  have ht' : (0 : K) < (o.cfg.trials : K) := by exact_mod_cast ht
  have hsc : scale ≤ o.cfg.noiseWidth * (b - a) := by
    rw [show scale = _ from hr.width, pyAbs_eq]
    apply mul_le_mul_of_nonneg_left _ hw
    obtain ⟨hM, -⟩ := npMax_spec hr.signal
    obtain ⟨hm, -⟩ := npMin_spec hr.signal
    have := ha _ hM
    have := hb' _ hM
    have := ha _ hm
    have := hb' _ hm
    rw [abs_le]
    constructor <;> linarith
  have e : (List.zipWith (fun (c : Nat) row => (c : K) / (o.cfg.trials : K) * row.getD i 0) (ensembleCount o'.allImfs) E).sum =
      (List.zipWith (fun (c : Nat) row => (c : K) * row.getD i 0) (ensembleCount o'.allImfs) E).sum / (o.cfg.trials : K) := by
    generalize ensembleCount o'.allImfs = cs
    clear h hsum h1 hr
    induction cs generalizing E with
    | nil => simp
    | cons c cs ih =>
      cases E with
      | nil => simp
      | cons row E =>
        simp only [List.zipWith_cons_cons, List.sum_cons, ih, add_div]
        ring
  rw [e]
  generalize (List.zipWith (fun (c : Nat) row => (c : K) * row.getD i 0) (ensembleCount o'.allImfs) E).sum = x at *
  generalize (noises.map (fun x => x.getD i 0)).sum = y at *
  generalize (o.cfg.trials : K) = t at *
  have e2 : x / t - S.getD i 0 = (x - (t * S.getD i 0 + y) + y) / t := by field_simp; ring
  rw [e2, abs_div, abs_of_pos ht', div_le_iff₀ ht']
  have := abs_add_le (x - (t * S.getD i 0 + y)) y
  have h3 : t * (scale / 2) ≤ t * (o.cfg.noiseWidth * (b - a) / 2) := by
    apply mul_le_mul_of_nonneg_left _ ht'.le
    linarith
  linarith

/-- C93: when all trials have the same number of components, the rows themselves add up to the signal within this distance. -/
theorem C93_uniform_plain (rng : Rng K ρ) (hb : UniformBounded rng) (fuel : Nat) (sp : SciPy K) (sched : List Nat) (o o' : Obj K ρ)
    (S : List K) (T : Option (List K)) (m : Int) (E : List (List K)) (hs : Sized rng)
    (hord : o.cfg.parallel = true → Schedule o.cfg.trials o.cfg.processes sched) (ht : 1 ≤ o.cfg.trials) (hk : o.cfg.noiseKind = .uniform)
    (hw : 0 ≤ o.cfg.noiseWidth) (h : o.eemd rng fuel sp sched S T m = (.ok E, o')) (a b : K) (ha : ∀ s ∈ S, a ≤ s) (hb' : ∀ s ∈ S, s ≤ b)
    (heq : ∀ c ∈ ensembleCount o'.allImfs, c = o.cfg.trials) :
    ∀ i < S.length, |(E.map (fun row => row.getD i 0)).sum - S.getD i 0| ≤ o.cfg.noiseWidth * (b - a) / 2 + 1 / 100000000 := by
  intro i hi
  have h1 := C93_uniform rng hb fuel sp sched o o' S T m E hs hord ht hk hw h a b ha hb' i hi
  obtain ⟨-, -, -, -, -, hl, -⟩ := C77_weighted_sum rng fuel sp sched o o' S T m E hs hord ht h
  have ht' : (o.cfg.trials : K) ≠ 0 := by
    have : (0 : K) < (o.cfg.trials : K) := by exact_mod_cast ht
    exact this.ne'
  have e : (List.zipWith (fun (c : Nat) row => (c : K) / (o.cfg.trials : K) * row.getD i 0) (ensembleCount o'.allImfs) E).sum =
      (E.map (fun row => row.getD i 0)).sum := by
    generalize ensembleCount o'.allImfs = cs at *
    clear h h1
    induction cs generalizing E with
    | nil =>
      cases E with
      | nil => rfl
      | cons row E => simp at hl
    | cons c cs ih =>
      cases E with
      | nil => simp at hl
      | cons row E =>
        rw [List.zipWith_cons_cons, List.sum_cons, List.map_cons, List.sum_cons, ih E (fun c hc => heq c (by simp [hc])) (by simpa using hl),
          heq c (by simp), div_self ht', one_mul]
  rw [e] at h1
  exact h1

/-- The sample generator is bounded. -/
theorem sampleRng_bounded : UniformBounded sampleRng := by
  intro r a b n hab x hx
  simp only [sampleRng] at hx
  obtain ⟨i, -, rfl⟩ := List.mem_map.1 hx
  have h1 : (r + i) * (r + i) % 5 < 5 := Nat.mod_lt _ (by decide)
  have h2 : ((((r + i) * (r + i) % 5 : Nat)) : ℚ) ≤ 4 := by exact_mod_cast Nat.lt_succ_iff.1 h1
  have h3 : (0 : ℚ) ≤ (((r + i) * (r + i) % 5 : Nat) : ℚ) := by positivity
  have h4 : 0 ≤ b - a := by linarith
  constructor
  · have : 0 ≤ (b - a) * (((r + i) * (r + i) % 5 : Nat) : ℚ) / 4 := by positivity
    linarith
  · have : (b - a) * (((r + i) * (r + i) % 5 : Nat) : ℚ) / 4 ≤ b - a := by
      rw [div_le_iff₀ (by norm_num)]
      exact mul_le_mul_of_nonneg_left h2 h4
    linarith

/-- A call with uniform noise: the sum of the rows differs from the signal, by less than the bound `1/4 * 5 / 2`. -/
example : okWith (fun E => (E.map (fun r => r.getD 1 0)).sum != sampleS.getD 1 0 &&
      decide (|(E.map (fun r => r.getD 1 0)).sum - sampleS.getD 1 0| ≤ 5 / 8))
    ((sampleObj { sampleCfg with noiseKind := .uniform }).eemd sampleRng 20 linSciPy [] sampleS none (-1)).1 = true := by
  decide +kernel

end Exact

end EEMD
end PyEMD
