import Verif.Props.Eemd
import Verif.Props.Ceemdan

/-!
# C76, C77: units of the signal in `CEEMDAN`, reconstruction in `EEMD`
-/

set_option linter.unusedSectionVars false

namespace PyEMD

namespace CEEMDAN

variable {K ρ : Type} [Field K] [LinearOrder K] [IsStrictOrderedRing K] [FloorRing K]

/-- C76: `CEEMDAN` works on the signal divided by its standard deviation, so that the unit of the signal is immaterial: for a signal
multiplied by a constant `c > 0` the components (returned and stored) and the residue are multiplied by `c`; the random generator and the
noises are the same, and so is the exception, if one is raised (earlier results then stay).  About `np.std` only its homogeneity on the
signal is assumed. -/
theorem C76_units (rng : Rng K ρ) (std : List K → K) (fuel : Nat) (sp : SciPy K) (orderN orderT : List Nat) (o : Obj K ρ) (S : List K)
    (T : Option (List K)) (m : Int) (c : K) (hc : 0 < c) (hstd : std (S.map (fun x => c * x)) = c * std S) :
    (∃ (C : List (List K)) (res : List K) (o1 : Obj K ρ), o.ceemdan rng std fuel sp orderN orderT S T m = (.ok C, { o1 with C_IMF := some C, residue := some res }) ∧
      o.ceemdan rng std fuel sp orderN orderT (S.map (fun x => c * x)) T m =
        (.ok (C.map (fun r => r.map (fun x => c * x))),
          { o1 with C_IMF := some (C.map (fun r => r.map (fun x => c * x))), residue := some (res.map (fun x => c * x)) })) ∨
    (∃ (e : PyErr) (o1 : Obj K ρ), o1.C_IMF = o.C_IMF ∧ o1.residue = o.residue ∧ o.ceemdan rng std fuel sp orderN orderT S T m = (.error e, o1) ∧
      o.ceemdan rng std fuel sp orderN orderT (S.map (fun x => c * x)) T m = (.error e, o1)) := by
  have hd : std S ≠ 0 → vdiv (S.map (fun x => c * x)) (c * std S) = vdiv S (std S) := by
    intro hs
    unfold vdiv
    rw [List.map_map]
    apply List.map_congr_left
    intro x _
    show c * x / (c * std S) = x / std S
    rw [mul_div_mul_left _ _ hc.ne']
  have hv : ∀ l : List K, vscale (c * std S) l = (vscale (std S) l).map (fun x => c * x) := by
    intro l
    unfold vscale
    rw [List.map_map]
    apply List.map_congr_left
    intro x _
    show x * (c * std S) = c * (x * std S)
    ring
  have hsum : ∀ (n : Nat) (rows : List (List K)), sumRows n (rows.map (fun r => r.map (fun x => c * x))) = (sumRows n rows).map (fun x => c * x) := by
    intro n rows
    unfold sumRows
    have key : ∀ (rows : List (List K)) (z : List K), (rows.map (fun r => r.map (fun x => c * x))).foldl vadd (z.map (fun x => c * x)) =
        (rows.foldl vadd z).map (fun x => c * x) := by
      intro rows
      induction rows with
      | nil => intro z; rfl
      | cons r rows ih =>
        intro z
        rw [List.map_cons, List.foldl_cons, List.foldl_cons, ← ih]
        congr 1
        unfold vadd
        rw [List.zipWith_map, List.map_zipWith]
        congr 1
        funext a b
        ring
    have hz : (vzeros n : List K).map (fun x => c * x) = vzeros n := by simp [vzeros, lit_zero]
    rw [← key, hz]
  have hsub : ∀ a b : List K, vsub (a.map (fun x => c * x)) (b.map (fun x => c * x)) = (vsub a b).map (fun x => c * x) := by
    intro a b
    unfold vsub
    rw [List.zipWith_map, List.map_zipWith]
    congr 1
    funext a b
    ring
  unfold Obj.ceemdan
  simp only [hstd]
  by_cases hs : std S = 0
  · right
    refine ⟨.nonFinite, o, rfl, rfl, ?_, ?_⟩
    · rw [if_pos (by rw [hs, lit_zero]; simp)]
    · rw [if_pos (by rw [hs, mul_zero, lit_zero]; simp)]
  · have e1 : (std S == lit 0) = false := by rw [lit_zero]; simpa using hs
    have e2 : (c * std S == lit 0) = false := by rw [lit_zero]; simpa using ⟨hc.ne', hs⟩
    rw [hd hs]
    simp only [e1, e2, Bool.false_eq_true, if_false]
    split
    · next e r _ => exact .inr ⟨e, { o with random := r }, rfl, rfl, rfl, rfl⟩
    · next x r _ =>
      split
      · next e _ => exact .inr ⟨e, { o with random := r, allNoises := x }, rfl, rfl, rfl, rfl⟩
      · next ne _ =>
        split
        · next e _ => exact .inr ⟨e, { o with random := r, allNoises := x, allNoiseEMD := ne }, rfl, rfl, rfl, rfl⟩
        · next cimfs _ =>
          refine .inl ⟨_, _, { o with random := r, allNoises := x, allNoiseEMD := [] }, rfl, ?_⟩
          have hC : cimfs.map (vscale (c * std S)) = (cimfs.map (vscale (std S))).map (fun r => r.map (fun x => c * x)) := by
            rw [List.map_map]
            apply List.map_congr_left
            intro l _
            exact hv l
          rw [hC, hv, hsum, hsub]

theorem sampleStd_scale (c : ℚ) (hc : 0 < c) (l : List ℚ) (h : l ≠ []) : sampleStd (l.map (fun x => c * x)) = c * sampleStd l := by
  have h' : l.map (fun x => c * x) ≠ [] := by simpa using h
  obtain ⟨a1, a2⟩ := npMax_spec h
  obtain ⟨b1, b2⟩ := npMin_spec h
  obtain ⟨c1, c2⟩ := npMax_spec h'
  obtain ⟨d1, d2⟩ := npMin_spec h'
  have e1 : npMax (l.map (fun x => c * x)) = c * npMax l := by
    apply le_antisymm
    · obtain ⟨x, hx, e⟩ := List.mem_map.1 c1
      rw [← e]
      exact mul_le_mul_of_nonneg_left (a2 x hx) hc.le
    · exact c2 _ (List.mem_map_of_mem a1)
  have e2 : npMin (l.map (fun x => c * x)) = c * npMin l := by
    apply le_antisymm
    · exact d2 _ (List.mem_map_of_mem b1)
    · obtain ⟨x, hx, e⟩ := List.mem_map.1 d1
      rw [← e]
      exact mul_le_mul_of_nonneg_left (b2 x hx) hc.le
  unfold sampleStd
  rw [e1, e2]
  ring

/-- The run of the sample signal with three components, in units of one hundredth. -/
example := C76_units EEMD.sampleRng sampleStd 20 linSciPy [] [] (sampleObj sampleCfg) EMD.sampleS none (-1) 100 (by norm_num)
  (sampleStd_scale 100 (by norm_num) EMD.sampleS (by decide))

example : okWith (fun C => C.length == 3)
    ((sampleObj sampleCfg).ceemdan EEMD.sampleRng sampleStd 20 linSciPy [] [] (EMD.sampleS.map (fun x => 100 * x)) none (-1)).1 = true := by
  decide +kernel

end CEEMDAN

namespace EEMD
open Spec

variable {K ρ : Type} [Field K] [LinearOrder K] [IsStrictOrderedRing K] [FloorRing K]

/-- The components of one trial (and its trend) add up to the signal plus the noise, within the tolerance of `np.allclose`. -/
theorem TrialOf.adds_up {fuel : Nat} {sp : SciPy K} {sep : Bool} {ecfg : EMD.Cfg K} {S T : List K} {m : Int} {noise : List K}
    {out : List (List K) × Option (List K)} (h : TrialOf fuel sp sep ecfg S T m noise out) (hn : noise.length = S.length) (i : Nat)
    (hi : i < S.length) :
    |(out.1.map (fun r => r.getD i 0)).sum + (out.2.toList.map (fun r => r.getD i 0)).sum - (S.getD i 0 + noise.getD i 0)| ≤ 1 / 100000000 := by
  obtain ⟨R, hR, h0, h1⟩ := h
  have hemd : (EMD.Obj.mk ecfg none none).emd fuel sp (List.zipWith (fun s x => s + x) S noise) (some T) m =
      (.ok R.rows, ⟨ecfg, some R.imfs, some R.residue⟩) := by simp only [EMD.Obj.emd, hR]
  have hl : i < (List.zipWith (fun s x => s + x) S noise).length := by simp; omega
  obtain ⟨_, _, _, _, hrec⟩ := EMD.C01_reconstruction _ _ _ _ _ _ _ _ hemd
  have hrec := (hrec i hl).1
  rw [List.getElem_zipWith, abs_sub_comm] at hrec
  have e1 : S.getD i 0 = S[i] := CEEMDAN.getD_lt _ _ hi
  have e2 : noise.getD i 0 = noise[i] := CEEMDAN.getD_lt _ _ (by omega)
  rw [e1, e2]
  cases sep with
  | false =>
    rw [h0 rfl]
    simpa using hrec
  | true =>
    obtain ⟨imfs, trend, hit, rfl⟩ := h1 rfl
    by_cases hne : R.rows = []
    · exfalso
      have h4 := (EMD.C04_trend_error_iff _ _ _ _ _ _ _ _ hemd)
      obtain ⟨imfs', res', g1, -, ⟨hv, h2⟩ | ⟨hv, h2⟩⟩ := EMD.C03_rows_vs_stored _ _ _ _ _ _ _ _ hemd
      · have himf : imfs' = [] := by rw [← h2, hne]
        subst himf
        simp only [EMD.Obj.getImfsAndTrend, g1, bind, Except.bind, (EMD.allclose0_iff _).2 hv, if_true, EMD.pyGet_last_nil] at hit
        cases hit
      · rw [hne] at h2; simp at h2
    · rw [EMD.C04_imfs_and_trend_partial _ _ _ _ _ _ _ _ hemd hne] at hit
      injection hit with hit
      obtain ⟨rfl, rfl⟩ := Prod.mk.inj hit
      have e : (R.rows.map (fun r => r.getD i 0)).sum = (R.rows.dropLast.map (fun r => r.getD i 0)).sum + (R.rows.getLast hne).getD i 0 := by
        conv_lhs => rw [← List.dropLast_append_getLast hne]
        simp
      rw [e] at hrec
      simpa using hrec

theorem sum_range_getElem? (f : List K → K) (c : List (List K)) (n : Nat) (h : c.length ≤ n) :
    ((List.range n).map (fun k => ((c[k]?).toList.map f).sum)).sum = (c.map f).sum := by
  induction c generalizing n with
  | nil => simp
  | cons r c ih =>
    obtain ⟨n, rfl⟩ : ∃ k, n = k + 1 := ⟨n - 1, by simp at h; omega⟩
    rw [List.range_succ_eq_map, List.map_cons, List.sum_cons, List.map_map]
    have := ih n (by simpa using h)
    simp only [Function.comp_def, List.getElem?_cons_succ, List.getElem?_cons_zero, Nat.succ_eq_add_one] at this ⊢
    rw [this]
    simp

/-- Summing over the orders, then over the trials that have it, is summing over all components of all trials. -/
theorem sum_orders (f : List K → K) (cs : List (List (List K))) (n : Nat) (h : ∀ c ∈ cs, c.length ≤ n) :
    ((List.range n).map (fun k => ((order cs k).map f).sum)).sum = (cs.map (fun c => (c.map f).sum)).sum := by
  induction cs with
  | nil => simp [order]
  | cons c cs ih =>
    rw [List.map_cons, List.sum_cons, ← ih (fun d hd => h d (by simp [hd])), ← sum_range_getElem? f c n (h c (by simp)), ← List.sum_map_add]
    congr 1
    apply List.map_congr_left
    intro k _
    unfold order
    rw [List.filterMap_cons]
    cases hk : c[k]? with
    | none => simp
    | some r => simp

theorem sum_zipWith_mean (n : Nat) (d : Dict (List (List K))) (hd : ∀ p ∈ d, p.2 ≠ [] ∧ ∀ r ∈ p.2, r.length = n) (i : Nat) (hi : i < n) :
    (List.zipWith (fun (c : Nat) row => (c : K) * row.getD i 0) (ensembleCount d) (ensembleMean n d)).sum =
      (d.map (fun p => (p.2.map (fun r => r.getD i 0)).sum)).sum := by
  induction d with
  | nil => rfl
  | cons p d ih =>
    have ih := ih (fun q hq => hd q (by simp [hq]))
    obtain ⟨hp, hp'⟩ := hd p (by simp)
    unfold ensembleCount ensembleMean at ih ⊢
    rw [List.map_cons, List.map_cons, List.zipWith_cons_cons, List.sum_cons, ih, List.map_cons, List.sum_cons]
    congr 1
    have h2 := (isMean_meanRows n p.2 hp').2 i hi
    rw [List.getD_eq_getElem?_getD, h2, Option.getD_some, lit_zero, lit_eq, Rat.cast_natCast]
    have : ((p.2.length : ℕ) : K) ≠ 0 := by
      rw [Nat.cast_ne_zero]
      simpa using hp
    rw [mul_div_cancel₀ _ this]

theorem sum_trials {fuel : Nat} {sp : SciPy K} {sep : Bool} {ecfg : EMD.Cfg K} {S T : List K} {m : Int} {noises : List (List K)}
    {outs : List (List (List K) × Option (List K))} (h : List.Forall₂ (TrialOf fuel sp sep ecfg S T m) noises outs)
    (hn : ∀ x ∈ noises, x.length = S.length) (i : Nat) (hi : i < S.length) :
    |(outs.map (fun out => (out.1.map (fun r => r.getD i 0)).sum + (out.2.toList.map (fun r => r.getD i 0)).sum)).sum -
      ((outs.length : K) * S.getD i 0 + (noises.map (fun x => x.getD i 0)).sum)| ≤ (outs.length : K) / 100000000 := by
  induction h with
  | nil => simp
  | @cons x out noises outs hx _ ih =>
    have h1 := TrialOf.adds_up hx (hn x (by simp)) i hi
    have h2 := ih (fun y hy => hn y (by simp [hy]))
    simp only [List.map_cons, List.sum_cons, List.length_cons, Nat.cast_add, Nat.cast_one]
    rw [abs_le] at h1 h2 ⊢
    constructor
    · linarith [h1.1, h2.1]
    · linarith [h1.2, h2.2]

/-- C77: what `eemd` returns, weighted by `ensemble_count()`, adds up to the signal plus the average noise: the sum over the rows of
count times row is `trials * S` plus the sum of all noises, within `trials` times the tolerance of `np.allclose`.  This holds with and
without separated trends, sequentially and in parallel. -/
theorem C77_weighted_sum (rng : Rng K ρ) (fuel : Nat) (sp : SciPy K) (sched : List Nat) (o o' : Obj K ρ) (S : List K)
    (T : Option (List K)) (m : Int) (E : List (List K)) (hs : Sized rng)
    (hord : o.cfg.parallel = true → Schedule o.cfg.trials o.cfg.processes sched) (ht : 1 ≤ o.cfg.trials)
    (h : o.eemd rng fuel sp sched S T m = (.ok E, o')) :
    ∃ T' scale noises outs, Ran rng fuel sp o o' S T m T' scale noises outs ∧ (ensembleCount o'.allImfs).length = E.length ∧
      ∀ i < S.length,
        |(List.zipWith (fun (c : Nat) row => (c : K) * row.getD i 0) (ensembleCount o'.allImfs) E).sum -
          ((o.cfg.trials : K) * S.getD i 0 + (noises.map (fun x => x.getD i 0)).sum)| ≤ (o.cfg.trials : K) / 100000000 := by
  obtain ⟨T', scale, noises, outs, hr, h1, h2, -⟩ := Obj.eemd_ran hord h
  refine ⟨T', scale, noises, outs, hr, by rw [h2]; simp [ensembleCount, ensembleMean], fun i hi => ?_⟩
  have htr := sum_trials hr.trial (hr.sized hs) i hi
  rw [hr.count] at htr
  have hrows : ∀ k, ∀ r ∈ order (outs.map (·.1)) k, r.length = S.length := by
    intro k r hr'
    obtain ⟨c, hc, hck⟩ := List.mem_filterMap.1 hr'
    obtain ⟨out, hout, rfl⟩ := List.mem_map.1 hc
    exact (hr.lengths hs out hout).1 r (List.mem_of_getElem? hck)
  have hne : ∀ k, k < height (outs.map (·.1)) → order (outs.map (·.1)) k ≠ [] := by
    intro k hk
    obtain ⟨c, hc, hkc⟩ := lt_height.1 hk
    intro h0
    have : c[k] ∈ order (outs.map (·.1)) k := List.mem_filterMap.2 ⟨c, hc, List.getElem?_eq_getElem hkc⟩
    rw [h0] at this
    cases this
  have hbound : ∀ c ∈ outs.map (·.1), c.length ≤ height (outs.map (·.1)) := by
    intro c hc
    by_contra hlt
    exact absurd (lt_height.2 ⟨c, hc, not_le.1 hlt⟩) (lt_irrefl _)
  have hdict : ∀ p ∈ dictOf (height (outs.map (·.1))) (order (outs.map (·.1))), p.2 ≠ [] ∧ ∀ r ∈ p.2, r.length = S.length := by
    intro p hp
    obtain ⟨k, hk, rfl⟩ := List.mem_map.1 hp
    exact ⟨hne k (List.mem_range.1 hk), hrows k⟩
  have hsumd : ((dictOf (height (outs.map (·.1))) (order (outs.map (·.1)))).map (fun p => (p.2.map (fun r => r.getD i 0)).sum)).sum =
      (outs.map (fun out => (out.1.map (fun r => r.getD i 0)).sum)).sum := by
    have := sum_orders (fun r => r.getD i 0) (outs.map (·.1)) _ hbound
    rw [List.map_map] at this
    refine Eq.trans ?_ this
    simp [dictOf, Function.comp_def]
  rw [h2]
  cases hsep : o.cfg.separateTrends with
  | false =>
    have hnone := hr.none hsep
    rw [foldl_addTrial_none outs hnone, renameTrend_dictOf] at h1
    rw [h1, sum_zipWith_mean S.length _ hdict i hi, hsumd]
    have : outs.map (fun out => (out.1.map (fun r => r.getD i 0)).sum + (out.2.toList.map (fun r => r.getD i 0)).sum) =
        outs.map (fun out => (out.1.map (fun r => r.getD i 0)).sum) := by
      apply List.map_congr_left
      intro out hout
      rw [hnone out hout]
      simp
    rw [this] at htr
    exact htr
  | true =>
    have hsome := hr.some hsep
    have hne' : outs ≠ [] := by
      intro h0
      have := hr.count
      rw [h0] at this
      simp at this
      omega
    rw [foldl_addTrial_some outs hne' hsome, renameTrend_cons] at h1
    have hd2 : ∀ p ∈ o'.allImfs, p.2 ≠ [] ∧ ∀ r ∈ p.2, r.length = S.length := by
      rw [h1]
      intro p hp
      rcases List.mem_append.1 hp with hp | hp
      · exact hdict p hp
      · rw [List.mem_singleton.1 hp]
        constructor
        · intro h0
          obtain ⟨out, outs', rfl⟩ := List.exists_cons_of_ne_nil hne'
          obtain ⟨t, ht⟩ := Option.isSome_iff_exists.1 (hsome out (by simp))
          simp [List.filterMap_cons, ht] at h0
        · intro r hr'
          obtain ⟨out, hout, hot⟩ := List.mem_filterMap.1 hr'
          exact (hr.lengths hs out hout).2 r hot
    rw [sum_zipWith_mean S.length _ hd2 i hi, h1, List.map_append, List.sum_append, hsumd]
    have : (outs.map (fun out => (out.1.map (fun r => r.getD i 0)).sum + (out.2.toList.map (fun r => r.getD i 0)).sum)).sum =
        (outs.map (fun out => (out.1.map (fun r => r.getD i 0)).sum)).sum + ((outs.filterMap (·.2)).map (fun r => r.getD i 0)).sum := by
      rw [List.sum_map_add]
      congr 1
      clear h1 hne' hd2 hsumd hdict hbound hne hrows htr hr h2
      induction outs with
      | nil => rfl
      | cons out outs ih =>
        obtain ⟨t, ht⟩ := Option.isSome_iff_exists.1 (hsome out (by simp))
        simp [List.filterMap_cons, ht]
        simpa using ih (fun q hq => hsome q (by simp [hq]))
    rw [this] at htr
    simpa using htr

theorem sum_zipWith_const (t : Nat) (cs : List Nat) (E : List (List K)) (i : Nat) (hl : cs.length = E.length) (h : ∀ c ∈ cs, c = t) :
    (List.zipWith (fun (c : Nat) row => (c : K) * row.getD i 0) cs E).sum = (t : K) * (E.map (fun r => r.getD i 0)).sum := by
  induction cs generalizing E with
  | nil =>
    cases E with
    | nil => simp
    | cons r E => simp at hl
  | cons c cs ih =>
    cases E with
    | nil => simp at hl
    | cons r E =>
      rw [List.zipWith_cons_cons, List.sum_cons, ih E (by simpa using hl) (fun c' hc' => h c' (by simp [hc'])), h c (by simp), List.map_cons,
        List.sum_cons]
      ring

/-- C77: when every trial produced the same number of components, the rows themselves add up to the signal plus the average noise, within
the tolerance of `np.allclose`. -/
theorem C77_plain_sum (rng : Rng K ρ) (fuel : Nat) (sp : SciPy K) (sched : List Nat) (o o' : Obj K ρ) (S : List K)
    (T : Option (List K)) (m : Int) (E : List (List K)) (hs : Sized rng)
    (hord : o.cfg.parallel = true → Schedule o.cfg.trials o.cfg.processes sched) (ht : 1 ≤ o.cfg.trials)
    (h : o.eemd rng fuel sp sched S T m = (.ok E, o')) (heq : ∀ c ∈ ensembleCount o'.allImfs, c = o.cfg.trials) :
    ∃ T' scale noises outs, Ran rng fuel sp o o' S T m T' scale noises outs ∧
      ∀ i < S.length, |(E.map (fun r => r.getD i 0)).sum - (S.getD i 0 + (noises.map (fun x => x.getD i 0)).sum / (o.cfg.trials : K))| ≤
        1 / 100000000 := by
  obtain ⟨T', scale, noises, outs, hr, hl, hsum⟩ := C77_weighted_sum rng fuel sp sched o o' S T m E hs hord ht h
  refine ⟨T', scale, noises, outs, hr, fun i hi => ?_⟩
  have := hsum i hi
  rw [sum_zipWith_const o.cfg.trials _ E i hl heq] at this
  have ht' : (0 : K) < (o.cfg.trials : K) := by exact_mod_cast ht
  generalize (o.cfg.trials : K) = t at *
  generalize (E.map (fun r => r.getD i 0)).sum = a at *
  generalize (noises.map (fun x => x.getD i 0)).sum = b at *
  generalize S.getD i 0 = c at *
  have e : a - (c + b / t) = (t * a - (t * c + b)) / t := by field_simp
  rw [e, abs_div, abs_of_pos ht', div_le_iff₀ ht']
  calc _ ≤ t / 100000000 := this
    _ = _ := by ring

/-- Three trials of which two have a second component: the weights matter. -/
example : okWith (fun E => E.length == 2) ((sampleObj sampleCfg).eemd sampleRng 20 linSciPy [] sampleS none (-1)).1 = true ∧
    ensembleCount ((sampleObj sampleCfg).eemd sampleRng 20 linSciPy [] sampleS none (-1)).2.allImfs = [3, 2] ∧ sampleCfg.trials = 3 := by
  decide +kernel

/-- One trial: all counts are equal. -/
example : okWith (fun E => E.length == 2) ((sampleObj { sampleCfg with trials := 1 }).eemd sampleRng 20 linSciPy [] EMD.sampleS none (-1)).1 = true ∧
    (ensembleCount ((sampleObj { sampleCfg with trials := 1 }).eemd sampleRng 20 linSciPy [] EMD.sampleS none (-1)).2.allImfs).all (· == 1) = true := by
  decide +kernel

end EEMD
end PyEMD

/-! ## C78 -/

namespace PyEMD
namespace EEMD
open Spec

variable {α ρ : Type} [Add α] [Sub α] [Mul α] [Div α] [Neg α] [LT α] [LE α] [BEq α]
  [DecidableLT α] [DecidableLE α] [NpScalar α]

/-- One operation of a user: `noise_seed(seed)` or `eemd(S, T, max_imf)` (with the completion order of the pool). -/
inductive Op (α : Type) where
  | seed (s : Int)
  | eemd (fuel : Nat) (order : List Nat) (S : List α) (T : Option (List α)) (m : Int)

/-- The object after a history of operations. -/
def Obj.run (rng : Rng α ρ) (sp : SciPy α) (o : Obj α ρ) : List (Op α) → Obj α ρ
  | [] => o
  | .seed s :: ops => Obj.run rng sp (o.noiseSeed rng s) ops
  | .eemd fuel order S T m :: ops => Obj.run rng sp (o.eemd rng fuel sp order S T m).2 ops

/-- Signal and rows of the last successful `eemd` of a history. -/
def lastSuccess (rng : Rng α ρ) (sp : SciPy α) (o : Obj α ρ) : List (Op α) → Option (List α × List (List α)) → Option (List α × List (List α))
  | [], r => r
  | .seed s :: ops, r => lastSuccess rng sp (o.noiseSeed rng s) ops r
  | .eemd fuel order S T m :: ops, r =>
    lastSuccess rng sp (o.eemd rng fuel sp order S T m).2 ops
      (match (o.eemd rng fuel sp order S T m).1 with
        | .ok E => some (S, E)
        | .error _ => r)

theorem Obj.eemd_result {rng : Rng α ρ} {fuel : Nat} {sp : SciPy α} {order : List Nat} {o : Obj α ρ} {S : List α} {T : Option (List α)} {m : Int} :
    (∃ e, (o.eemd rng fuel sp order S T m).1 = .error e ∧ (o.eemd rng fuel sp order S T m).2.E_IMF = o.E_IMF ∧
      (o.eemd rng fuel sp order S T m).2.residue = o.residue ∧ (o.eemd rng fuel sp order S T m).2.cfg = o.cfg ∧
      (o.cfg.parallel = true → (o.eemd rng fuel sp order S T m).2.allImfs = o.allImfs)) ∨
    (∃ E, (o.eemd rng fuel sp order S T m).1 = .ok E ∧ (o.eemd rng fuel sp order S T m).2.E_IMF = some E ∧
      (o.eemd rng fuel sp order S T m).2.residue = some (vsub S (sumRows S.length E)) ∧ (o.eemd rng fuel sp order S T m).2.cfg = o.cfg ∧
      ensembleMean S.length (o.eemd rng fuel sp order S T m).2.allImfs = E) := by
  unfold Obj.eemd
  split
  · exact .inl ⟨_, rfl, rfl, rfl, rfl, fun _ => rfl⟩
  · split
    · dsimp only
      split
      · exact .inl ⟨_, rfl, rfl, rfl, rfl, fun _ => rfl⟩
      · exact .inr ⟨_, rfl, rfl, rfl, rfl, rfl⟩
    · next hp =>
      split
      · exact .inl ⟨_, rfl, rfl, rfl, rfl, fun h => absurd h hp⟩
      · exact .inr ⟨_, rfl, rfl, rfl, rfl, rfl⟩

/-- A new object.  /repo/PyEMD/EEMD.py:82-108. -/
def Obj.fresh (cfg : Cfg α) (emd : EMD.Obj α) (r : ρ) : Obj α ρ := { cfg, random := r, emd, E_IMF := none, residue := none, allImfs := [] }

/-- C78: after any history of `noise_seed` and `eemd` calls on a new object, failed calls included, `get_imfs_and_residue()` raises
`ValueError` if no call has succeeded, and otherwise returns the rows and the residue of the latest successful call.  Law-free. -/
theorem C78_accessor (rng : Rng α ρ) (sp : SciPy α) (cfg : Cfg α) (emd : EMD.Obj α) (r : ρ) (ops : List (Op α)) :
    match lastSuccess rng sp (Obj.fresh cfg emd r) ops none with
    | none => ((Obj.fresh cfg emd r).run rng sp ops).getImfsAndResidue = .error .valueError
    | some (S, E) => ((Obj.fresh cfg emd r).run rng sp ops).getImfsAndResidue = .ok (E, vsub S (sumRows S.length E)) := by
  have key : ∀ (ops : List (Op α)) (o : Obj α ρ) (prev : Option (List α × List (List α))),
      (match prev with
        | none => o.getImfsAndResidue = .error .valueError
        | some (S, E) => o.getImfsAndResidue = .ok (E, vsub S (sumRows S.length E))) →
      match lastSuccess rng sp o ops prev with
      | none => (o.run rng sp ops).getImfsAndResidue = .error .valueError
      | some (S, E) => (o.run rng sp ops).getImfsAndResidue = .ok (E, vsub S (sumRows S.length E)) := by
    intro ops
    induction ops with
    | nil => exact fun o prev h => h
    | cons op ops ih =>
      intro o prev h
      cases op with
      | seed s => exact ih _ _ h
      | eemd fuel order S T m =>
        unfold lastSuccess Obj.run
        apply ih
        rcases Obj.eemd_result (rng := rng) (fuel := fuel) (sp := sp) (order := order) (o := o) (S := S) (T := T) (m := m) with
          ⟨e, h1, h2, h3, -⟩ | ⟨E, h1, h2, h3, -⟩
        · rw [h1]
          have : (o.eemd rng fuel sp order S T m).2.getImfsAndResidue = o.getImfsAndResidue := by
            simp only [Obj.getImfsAndResidue, h2, h3]
          simp only [this]
          exact h
        · rw [h1]
          simp only [Obj.getImfsAndResidue, h2, h3]
  exact key ops _ none rfl

/-- C78 for the statistics of the ensemble: `ensemble_mean()` is what the latest successful call returned.  Proved when the latest call
succeeded, and in parallel mode for every history.  Missing: sequential mode after a failed call, for which the claim is false
(`C78_counterexample`).  Law-free. -/
theorem C78_statistics_partial (rng : Rng α ρ) (sp : SciPy α) (cfg : Cfg α) (emd : EMD.Obj α) (r : ρ) (ops : List (Op α)) :
    (cfg.parallel = true → ∀ S E, lastSuccess rng sp (Obj.fresh cfg emd r) ops none = some (S, E) →
      ensembleMean S.length ((Obj.fresh cfg emd r).run rng sp ops).allImfs = E) ∧
    (∀ fuel order S T m E, (((Obj.fresh cfg emd r).run rng sp ops).eemd rng fuel sp order S T m).1 = .ok E →
      ensembleMean S.length (((Obj.fresh cfg emd r).run rng sp ops).eemd rng fuel sp order S T m).2.allImfs = E) := by
  constructor
  · intro hp
    have key : ∀ (ops : List (Op α)) (o : Obj α ρ) (prev : Option (List α × List (List α))), o.cfg.parallel = true →
        (∀ S E, prev = some (S, E) → ensembleMean S.length o.allImfs = E) →
        ∀ S E, lastSuccess rng sp o ops prev = some (S, E) → ensembleMean S.length (o.run rng sp ops).allImfs = E := by
      intro ops
      induction ops with
      | nil => exact fun o prev _ h => h
      | cons op ops ih =>
        intro o prev hp h
        cases op with
        | seed s => exact ih (o.noiseSeed rng s) prev hp h
        | eemd fuel order S T m =>
          unfold lastSuccess Obj.run
          rcases Obj.eemd_result (rng := rng) (fuel := fuel) (sp := sp) (order := order) (o := o) (S := S) (T := T) (m := m) with
            ⟨e, h1, -, -, h4, h5⟩ | ⟨E, h1, -, -, h4, h5⟩
          · apply ih _ _ (by rw [h4]; exact hp)
            rw [h1, h5 hp]
            exact h
          · apply ih _ _ (by rw [h4]; exact hp)
            rw [h1]
            rintro S' E' hh
            injection hh with hh
            obtain ⟨rfl, rfl⟩ := Prod.mk.inj hh
            exact h5
    exact key ops _ none hp (by simp)
  · intro fuel order S T m E h
    rcases Obj.eemd_result (rng := rng) (fuel := fuel) (sp := sp) (order := order) (o := (Obj.fresh cfg emd r).run rng sp ops) (S := S) (T := T)
      (m := m) with ⟨e, h1, -⟩ | ⟨E', h1, -, -, -, h5⟩
    · rw [h1] at h; cases h
    · rw [h1] at h
      injection h with h
      subst h
      exact h5

/-- A success, a reseed and a failed call (time array of a wrong length): the accessor still describes the success. -/
example : okWith (fun p => p.1.length == 2) (((sampleObj sampleCfg).run sampleRng linSciPy
      [.eemd 20 [] sampleS none (-1), .seed 4, .eemd 20 [] sampleS (some [0, 1]) (-1)]).getImfsAndResidue) = true := by decide +kernel

/-- C78 fails in sequential mode after a failed call: the rows are those of the first call, but the collected ensemble is empty, so that
`ensemble_count()` and `ensemble_mean()` are. -/
theorem C78_counterexample : ∃ ops : List (Op ℚ),
    okWith (fun p => p.1.length == 2) (((sampleObj sampleCfg).run sampleRng linSciPy ops).getImfsAndResidue) = true ∧
    ensembleCount ((sampleObj sampleCfg).run sampleRng linSciPy ops).allImfs = [] := by
  refine ⟨[.eemd 20 [] sampleS none (-1), .eemd 20 [] sampleS (some [0, 1]) (-1)], ?_⟩
  decide +kernel

end EEMD
end PyEMD
