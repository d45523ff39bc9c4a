import Verif.Props.NoRaise
import Verif.Props.Eemd
import Verif.Props.Ceemdan

/-!
# C73: unsupported option values are refused
-/

set_option linter.unusedSectionVars false

namespace PyEMD

namespace EMD
open Spec PyEMD.Spec

section LawFree

variable {α : Type} [Add α] [Sub α] [Mul α] [Div α] [Neg α] [LT α] [LE α] [BEq α]
  [DecidableLT α] [DecidableLE α] [NpScalar α]

/-- C73: an object for an unsupported detection mode cannot be constructed; every other configuration can. -/
theorem C73_constructor (cfg : Cfg α) :
    (cfg.detection = .unknown → Obj.new cfg = .error .assertionError) ∧
    (cfg.detection ≠ .unknown → Obj.new cfg = .ok { cfg, imfs := none, residue := none }) := by
  unfold Obj.new
  constructor
  · intro h
    rw [h, if_neg (by simp)]
  · intro h
    rw [if_pos]
    cases hd : cfg.detection with
    | unknown => exact absurd hd h
    | simple => exact .inl rfl
    | parabol => exact .inr rfl

theorem splinePoints_unknown (sp : SciPy α) (T : List α) (k : List (α × α)) (r : List α × List α) :
    splinePoints sp .unknown T k ≠ .ok r := by
  unfold splinePoints
  simp only [bind, Except.bind]
  intro h
  split at h
  · cases h
  · split at h <;> cases h

theorem siftOnce_unknown (sp : SciPy α) (cfg : Cfg α) (hk : cfg.splineKind = .unknown) (T x : List α)
    (r : List α × List (α × α) × List (α × α)) : siftOnce sp cfg T x ≠ .ok r := by
  intro h
  unfold siftOnce extractMaxMinSpline at h
  rw [hk] at h
  simp only [bind_eq_ok] at h
  obtain ⟨env, ⟨e, -, h2⟩, h3⟩ := h
  split at h2
  · rw [pure_eq_ok] at h2
    subst h2
    cases h3
  · simp only [bind_eq_ok] at h2
    obtain ⟨_, -, _, h4, -⟩ := h2
    exact splinePoints_unknown _ _ _ _ h4

/-- A pass through the sifting loop that succeeds with an unsupported spline does not depend on the spline. -/
theorem siftBody_unknown (sp : SciPy α) (cfg : Cfg α) (hk : cfg.splineKind = .unknown) (kind : SplineKind) (T : List α) (s : Sift α)
    (r : SiftStep α) (h : siftBody sp cfg T s = .ok r) :
    siftBody sp { cfg with splineKind := kind } T s = .ok r ∧ ∃ s' why, r = .brk s' why ∧ s'.imf = s.imf := by
  unfold siftBody at h ⊢
  dsimp only at h ⊢
  split at h
  · next h0 =>
    rw [pure_eq_ok] at h
    subst h
    exact ⟨by rw [if_pos h0]; rfl, _, _, rfl, rfl⟩
  · next h0 =>
    rw [if_neg h0]
    rw [bind_eq_ok] at h
    obtain ⟨⟨e, z⟩, h1, h2⟩ := h
    dsimp only at h2
    have h1' : countExt { cfg with splineKind := kind } T s.imf = .ok (e, z) := h1
    rw [h1']
    simp only [bind, Except.bind]
    split at h2
    · rw [bind_eq_ok] at h2
      obtain ⟨_, h3, -⟩ := h2
      exact absurd h3 (siftOnce_unknown _ _ hk _ _ _)
    · next h4 =>
      rw [pure_eq_ok] at h2
      subst h2
      rw [if_neg h4]
      exact ⟨rfl, _, _, rfl, rfl⟩

theorem emdLoop_unknown (sp : SciPy α) (cfg : Cfg α) (hk : cfg.splineKind = .unknown) (kind : SplineKind) (T S : List α) (m : Int)
    (fuel : Nat) (rounds : List (Round α)) (e : Int) (r : List (Round α) × Int)
    (h : emdLoop sp cfg T S m fuel rounds e = .ok r) : emdLoop sp { cfg with splineKind := kind } T S m fuel rounds e = .ok r := by
  induction fuel generalizing rounds e with
  | zero => cases h
  | succ fuel ih =>
    unfold emdLoop at h ⊢
    rw [bind_eq_ok] at h
    obtain ⟨⟨s, why⟩, h1, h2⟩ := h
    have h1' : emdRound sp { cfg with splineKind := kind } T S (rounds.map (·.imf)) e = .ok (s, why) := by
      unfold emdRound siftFuel at h1 ⊢
      unfold siftLoop at h1 ⊢
      rw [bind_eq_ok] at h1
      obtain ⟨st, h3, h4⟩ := h1
      obtain ⟨h5, s', why', rfl, -⟩ := siftBody_unknown sp cfg hk kind _ _ _ h3
      simp only [h5]
      exact h4
    rw [h1']
    dsimp only at h2 ⊢
    rw [bind_eq_ok] at h2
    obtain ⟨b, h6, h7⟩ := h2
    have h6' : endCondition { cfg with splineKind := kind } S
        ((rounds ++ [({ imf := s.imf, why := why, subs := s.subs, nh := s.nh } : Round α)]).map (fun x : Round α => x.imf)) = .ok b := h6
    simp only [bind, Except.bind, h6']
    split at h7
    · next h8 => rw [if_pos h8]; exact h7
    · next h8 => rw [if_neg h8]; exact ih _ _ h7

/-- C73: a decomposition that succeeds although `spline_kind` is not a supported name has not used any spline: its result
is the one obtained with every other kind.  Law-free. -/
theorem C73_unused_spline (fuel : Nat) (sp : SciPy α) (cfg : Cfg α) (hk : cfg.splineKind = .unknown) (kind : SplineKind) (S : List α)
    (T : Option (List α)) (m : Int) (R : Result α) (h : emdPure fuel sp cfg S T m = .ok R) :
    emdPure fuel sp { cfg with splineKind := kind } S T m = .ok R := by
  unfold emdPure emdRounds at h ⊢
  simp only [bind_eq_ok] at h
  obtain ⟨⟨rounds, e⟩, ⟨T', h1, h2⟩, h3⟩ := h
  have h1' : prepareTime { cfg with splineKind := kind } S T = .ok T' := h1
  rw [h1']
  simp only [bind, Except.bind]
  rw [emdLoop_unknown sp cfg hk kind T' S m fuel [] (-1) _ h2]
  exact h3

end LawFree

variable {K : Type} [Field K] [LinearOrder K] [IsStrictOrderedRing K] [FloorRing K]

/-- C73: with an unsupported `spline_kind`, a signal that has more than two extrema is refused with `ValueError`, and the
object keeps the results it had. -/
theorem C73_spline (fuel : Nat) (hfuel : 1 ≤ fuel) (sp : SciPy K) (o : Obj K) (hd : o.cfg.detection = .simple) (hnb : 1 ≤ o.cfg.nbsym)
    (hk : o.cfg.splineKind = .unknown) (hM : 2 ≤ o.cfg.MAX_ITERATION) (S : List K) (hS : 2 ≤ S.length) (T : Option (List K))
    (hT : ∀ T', T = some T' → T'.length = S.length) (m : Int) (hmany : ¬ FewExtrema o.cfg ((List.range S.length).map (fun k : Nat => (k : K))) S) :
    o.emd fuel sp S T m = (.error .valueError, o) := by
  obtain ⟨fuel, rfl⟩ : ∃ f, fuel = f + 1 := ⟨fuel - 1, by omega⟩
  obtain ⟨e, z, hc⟩ := countExt_ok hd S
  have he : e > 2 := by
    by_contra hcon
    exact hmany (fewExtrema_of_countExt hc (by omega))
  have hz : vsub S (sumRows S.length []) = S := vsub_vzeros (fun x => by rw [lit_zero, sub_zero]) S
  have hsift : siftOnce sp o.cfg (timeArr S.length) S = .error .valueError := by
    obtain ⟨r, hr, rfl, rfl⟩ := countExt_spec hc
    rw [hd] at hr
    obtain ⟨kmax, kmin, h1, g1, g2⟩ := C21_knots o.cfg.nbsym hnb S (timeArr S.length) rfl r hr (by omega)
    have hsp : splinePoints sp .unknown (timeArr S.length) kmax = .error .valueError := by
      have hne : kmax ≠ [] := by rintro rfl; have := g1.three; simp at this
      have hX0 : (kmax.map (·.1)) ≠ [] := by simpa using hne
      unfold splinePoints
      have e0 : ∃ p, pyGet (kmax.map (·.1)) 0 = .ok p := by
        match kmax, hne with
        | a :: l, _ => exact ⟨_, pyGet_cons _ _⟩
      obtain ⟨p, e0⟩ := e0
      simp only [e0, pyGet_last _ hX0, bind, Except.bind]
    unfold siftOnce extractMaxMinSpline
    simp only [hd, hr, bind, Except.bind, hk]
    rw [if_neg (by omega)]
    simp only [h1, hsp]
  have hround : emdRound sp o.cfg (timeArr S.length) S [] (-1) = .error .valueError := by
    unfold emdRound siftFuel
    rw [siftLoop, hz]
    unfold siftBody
    simp only [hc, bind, Except.bind, hsift]
    rw [if_neg (by simp only [Int.zero_add]; omega), if_pos he]
  have : emdPure (fuel + 1) sp o.cfg S T m = .error .valueError := by
    unfold emdPure emdRounds
    rw [prepareTime_simple o.cfg hd S hS T hT]
    simp only [bind, Except.bind]
    rw [emdLoop]
    simp only [List.map_nil, show (List.range S.length).map (fun k : Nat => (k : K)) = timeArr S.length from rfl, hround, bind, Except.bind]
  unfold Obj.emd
  rw [this]

/-- An unsupported name with the sample signal, which has eight extrema. -/
example : (⟨{ (Cfg.default : Cfg ℚ) with splineKind := .unknown }, none, some [1]⟩ : Obj ℚ).emd 5 linSciPy sampleS none (-1) =
    (.error .valueError, ⟨{ (Cfg.default : Cfg ℚ) with splineKind := .unknown }, none, some [1]⟩) := by
  refine C73_spline 5 (by decide) linSciPy _ rfl (by decide) rfl (by decide) sampleS (by decide) none (by simp) (-1) ?_
  rintro ⟨e, h1, h2⟩
  have h3 : okWith (fun e : Extrema ℚ => decide (2 < e.maxPos.length + e.minPos.length))
    (findExtrema .simple ((List.range 10).map (fun k : Nat => (k : ℚ))) sampleS) = true := by decide +kernel
  obtain ⟨e', h4, h5⟩ := okWith_iff.1 h3
  have h1 : findExtrema .simple ((List.range 10).map (fun k : Nat => (k : ℚ))) sampleS = .ok e := h1
  rw [h1] at h4
  injection h4 with h4
  subst h4
  simp only [decide_eq_true_eq] at h5
  omega

/-- A monotone signal is decomposed with an unsupported name, as with any other. -/
example : okWith (fun R : Result ℚ => decide (R.rows = [[0, 1, 3]]))
    (emdPure 5 linSciPy { (Cfg.default : Cfg ℚ) with splineKind := .unknown } [0, 1, 3] none (-1)) = true := by decide +kernel

/-- C73: when the attribute `extrema_detection` is set to an unsupported value after construction, `emd` raises `ValueError`
(with `MAX_ITERATION ≥ 2`; otherwise nothing is detected at all) and the object keeps its results. -/
theorem C73_detection (fuel : Nat) (hfuel : 1 ≤ fuel) (sp : SciPy K) (o : Obj K) (hd : o.cfg.detection = .unknown)
    (hM : 2 ≤ o.cfg.MAX_ITERATION) (S : List K) (hS : 2 ≤ S.length) (m : Int) :
    o.emd fuel sp S none m = (.error .valueError, o) := by
  obtain ⟨fuel, rfl⟩ : ∃ f, fuel = f + 1 := ⟨fuel - 1, by omega⟩
  have hp : prepareTime o.cfg S none = prepareTime { o.cfg with detection := .simple } S none := rfl
  have hround : ∀ T', emdRound sp o.cfg T' S [] (-1) = .error .valueError := by
    intro T'
    unfold emdRound siftFuel
    rw [siftLoop]
    unfold siftBody countExt
    rw [hd]
    simp only [findExtrema, bind, Except.bind]
    rw [if_neg (by simp only [Int.zero_add]; omega)]
  have : emdPure (fuel + 1) sp o.cfg S none m = .error .valueError := by
    unfold emdPure emdRounds
    rw [hp, prepareTime_simple { o.cfg with detection := .simple } rfl S hS none (by simp)]
    simp only [bind, Except.bind]
    rw [emdLoop]
    simp only [List.map_nil, hround, bind, Except.bind]
  unfold Obj.emd
  rw [this]

example : (⟨{ (Cfg.default : Cfg ℚ) with detection := .unknown }, some [[2]], some [1]⟩ : Obj ℚ).emd 5 linSciPy sampleS none 2 =
    (.error .valueError, ⟨{ (Cfg.default : Cfg ℚ) with detection := .unknown }, some [[2]], some [1]⟩) :=
  C73_detection 5 (by decide) linSciPy _ rfl (by decide) sampleS (by decide) 2

end EMD

section Noise
open EMD.Spec

variable {α ρ : Type} [Add α] [Sub α] [Mul α] [Div α] [Neg α] [LT α] [LE α] [BEq α]
  [DecidableLT α] [DecidableLE α] [NpScalar α]

/-- C73: an ensemble with an unsupported `noise_kind` raises `ValueError` for every non-empty signal, whatever the mode and the
order in which the workers finish; earlier results and the random generator are untouched. -/
theorem EEMD.C73_noise_kind (rng : Rng α ρ) (fuel : Nat) (sp : SciPy α) (sched : List Nat) (o : EEMD.Obj α ρ)
    (hk : o.cfg.noiseKind = .unknown) (ht : 1 ≤ o.cfg.trials)
    (hs : o.cfg.parallel = true → EEMD.Spec.Schedule o.cfg.trials o.cfg.processes sched) (S : List α) (hS : S ≠ []) (T : Option (List α)) (m : Int) :
    ∃ o', o.eemd rng fuel sp sched S T m = (.error .valueError, o') ∧ o'.E_IMF = o.E_IMF ∧ o'.residue = o.residue ∧
      o'.random = o.random ∧ o'.emd = o.emd := by
  have hj : ∃ job, EEMD.prepare o.cfg S T m = .ok job := by
    unfold EEMD.prepare npMaxE npMinE EMD.timeline
    have he : S.isEmpty = false := by simpa using hS
    have hl : S.length ≠ 0 := by simpa using hS
    cases T <;> simp [he, hl, bind, Except.bind, pure, Except.pure]
  obtain ⟨job, hj⟩ := hj
  have htrial : ∀ st, EEMD.trialUpdate rng fuel sp o.cfg job st = (.error .valueError, st) := by
    intro st
    simp only [EEMD.trialUpdate, EEMD.generateNoise, hk]
  obtain ⟨t, ht'⟩ : ∃ t, o.cfg.trials = t + 1 := ⟨o.cfg.trials - 1, by omega⟩
  unfold EEMD.Obj.eemd
  rw [hj]
  dsimp only
  by_cases hp : o.cfg.parallel = true
  · rw [if_pos hp]
    have hch : ∀ n, EEMD.runChunk rng fuel sp o.cfg job (n + 1) { random := o.random, emd := o.emd } = .error .valueError := by
      intro n
      simp only [EEMD.runChunk, htrial]
    have hs := hs hp
    have hc := EEMD.chunkSize_ne_zero (trials := o.cfg.trials) hs.1 (by omega)
    have hcov : ∀ i < (EEMD.chunkLengths o.cfg.trials (EEMD.chunkSize o.cfg.trials o.cfg.processes)).length, i ∈ sched := by
      intro i hi
      rw [EEMD.chunkLengths_length _ _ (.inl hc), EEMD.chunkSize_eq _ _ hs.1] at hi
      exact hs.2.mem_iff.2 (List.mem_range.2 hi)
    have hpos : ∀ n ∈ EEMD.chunkLengths o.cfg.trials (EEMD.chunkSize o.cfg.trials o.cfg.processes), n ≠ 0 := by
      intro n hn
      unfold EEMD.chunkLengths at hn
      rcases List.mem_append.1 hn with h | h
      · rw [(List.mem_replicate.1 h).2]; exact hc
      · split at h
        · cases h
        · next h0 => rw [List.mem_singleton.1 h]; exact h0
    have hall : ∀ r ∈ (EEMD.chunkLengths o.cfg.trials (EEMD.chunkSize o.cfg.trials o.cfg.processes)).map
        (fun n => EEMD.runChunk rng fuel sp o.cfg job n { random := o.random, emd := o.emd }), r = .error .valueError := by
      intro r hr
      obtain ⟨n, hn, rfl⟩ := List.mem_map.1 hr
      obtain ⟨k, rfl⟩ : ∃ k, n = k + 1 := ⟨n - 1, by have := hpos n hn; omega⟩
      exact hch k
    have hne : EEMD.chunkLengths o.cfg.trials (EEMD.chunkSize o.cfg.trials o.cfg.processes) ≠ [] := by
      intro h
      have := EEMD.chunkLengths_sum o.cfg.trials _ (.inl hc)
      rw [h] at this
      simp at this
      omega
    obtain ⟨n0, hn0⟩ := List.exists_mem_of_ne_nil _ hne
    have hin : (.error .valueError : PyM (List (List (List α) × Option (List α)))) ∈ (EEMD.chunkLengths o.cfg.trials (EEMD.chunkSize o.cfg.trials o.cfg.processes)).map
        (fun n => EEMD.runChunk rng fuel sp o.cfg job n { random := o.random, emd := o.emd }) := by
      have h := List.mem_map_of_mem (f := fun n => EEMD.runChunk rng fuel sp o.cfg job n { random := o.random, emd := o.emd }) hn0
      rwa [hall _ h] at h
    obtain ⟨e, he, hmem⟩ := EEMD.poolMap_error _ sched (by rw [List.length_map]; exact hcov) _ hin
    have := hall _ hmem
    injection this with this
    subst this
    rw [he]
    exact ⟨_, rfl, rfl, rfl, rfl, rfl⟩
  · rw [if_neg hp]
    rw [ht']
    simp only [EEMD.runTrials, htrial]
    exact ⟨_, rfl, rfl, rfl, rfl, rfl⟩

/-- Sequential and parallel. -/
example : errIs .valueError ((EEMD.sampleObj { EEMD.sampleCfg with noiseKind := .unknown }).eemd EEMD.sampleRng 20 linSciPy [] EMD.sampleS none (-1)).1 = true ∧
    errIs .valueError ((EEMD.sampleObj { EEMD.sampleCfg with noiseKind := .unknown, parallel := true, trials := 12, processes := 2 }).eemd
      EEMD.sampleRng 20 linSciPy [3, 5, 0, 4, 2, 1] EMD.sampleS none (-1)).1 = true := ⟨by decide +kernel, by decide +kernel⟩

/-- C73: `CEEMDAN` with an unsupported `noise_kind` raises `ValueError` for every signal whose standard deviation does not vanish,
and leaves the object as it was. -/
theorem CEEMDAN.C73_noise_kind (rng : Rng α ρ) (std : List α → α) (fuel : Nat) (sp : SciPy α) (orderN orderT : List Nat) (o : CEEMDAN.Obj α ρ)
    (hk : o.cfg.noiseKind = .unknown) (S : List α) (hs : (std S == lit 0) = false) (T : Option (List α)) (m : Int) :
    o.ceemdan rng std fuel sp orderN orderT S T m = (.error .valueError, o) := by
  unfold CEEMDAN.Obj.ceemdan CEEMDAN.noises EEMD.generateNoise
  simp only [hs, hk, Bool.false_eq_true, if_false]

example : (CEEMDAN.sampleObj { CEEMDAN.sampleCfg with noiseKind := .unknown }).ceemdan EEMD.sampleRng CEEMDAN.sampleStd 20 linSciPy [] [] EEMD.sampleS none (-1) =
    (.error .valueError, CEEMDAN.sampleObj { CEEMDAN.sampleCfg with noiseKind := .unknown }) :=
  CEEMDAN.C73_noise_kind _ _ _ _ _ _ _ rfl _ (by decide +kernel) _ _

end Noise
end PyEMD
