import Verif.Props.CeemdanStop
import Verif.Props.NoRaise

/-!
# When `ceemdan` returns (C102)
-/

set_option linter.unusedSectionVars false

namespace PyEMD
namespace CEEMDAN
open EEMD (NoiseKind)
open EEMD.Spec (Schedule Draw Sized TimeFor)
open Spec

variable {K ρ : Type} [Field K] [LinearOrder K] [IsStrictOrderedRing K] [FloorRing K]

namespace Spec

/-- A noise that CEEMDAN can use: EMD comes to an end on it and finds something, the first component is not constant (needed for the division by its
standard deviation), and no component, scaled by `eps`, ranges over more than 1/2. -/
def Usable (std : List K → K) (fuel : Nat) (sp : SciPy K) (ecfg : EMD.Cfg K) (beta : Bool) (eps : K) (w : List K) : Prop :=
  ∃ (R : EMD.Result K) (i : List K), EMD.emdPure fuel sp ecfg w none (-1) = .ok R ∧ R.rows.head? = some i ∧ (beta = true → std i ≠ 0) ∧
    ∀ y ∈ R.rows, ∀ a ∈ y, ∀ b ∈ y, eps * ((a - b) / (if beta then std i else 1)) ≤ 1 / 2

/-- What is used of `np.std`: it is not negative and not larger than the range. -/
def StdLike (std : List K → K) : Prop :=
  ∀ l : List K, 0 ≤ std l ∧ ∀ r, (∀ a ∈ l, ∀ b ∈ l, a - b ≤ r) → l ≠ [] → std l ≤ r

end Spec

theorem rows_nil_vanishes {fuel : Nat} {sp : SciPy K} {cfg : EMD.Cfg K} {S : List K} {T : Option (List K)} {m : Int} {R : EMD.Result K}
    (hR : EMD.emdPure fuel sp cfg S T m = .ok R) (hr : R.rows = []) : EMD.Spec.Vanishes S := by
  have hemd : (EMD.Obj.mk cfg none none).emd fuel sp S T m = (.ok R.rows, ⟨cfg, some R.imfs, some R.residue⟩) := by
    simp only [EMD.Obj.emd, hR]
  obtain ⟨imfs, res, h1, h2, ⟨hv, h3⟩ | ⟨-, h3⟩⟩ := EMD.C03_rows_vs_stored fuel sp _ _ S T m R.rows hemd
  · rw [hr] at h3
    subst h3
    intro x hx
    obtain ⟨i, hi, rfl⟩ := List.getElem_of_mem hx
    obtain ⟨s, hs, hres⟩ := h2.2 i hi
    rw [List.getElem?_eq_getElem hi] at hs
    injection hs with hs
    rw [hs]
    apply hv
    apply List.mem_of_getElem? (i := i)
    rw [hres]
    simp [colSum_eq]
  · rw [hr] at h3
    simp at h3

/-- The conditions of C22. -/
structure Fine (sp : SciPy K) (ecfg : EMD.Cfg K) : Prop where
  accepts : EMD.Spec.AcceptsAll sp
  simple : ecfg.detection = .simple
  nbsym : 1 ≤ ecfg.nbsym
  kind : ecfg.splineKind ≠ .unknown

theorem emd_one {fuel : Nat} {sp : SciPy K} {ecfg : EMD.Cfg K} (hF : Fine sp ecfg) (hf : 1 ≤ fuel) (x : List K) (hx : 2 ≤ x.length)
    (T : Option (List K)) (hT : ∀ T', T = some T' → T'.length = x.length) :
    ∃ rows, emd fuel sp ecfg x T 1 = .ok rows ∧ (rows = [] → EMD.Spec.Vanishes x) := by
  obtain ⟨R, hR⟩ := EMD.C22_returns fuel sp hF.accepts ecfg hF.simple hF.nbsym hF.kind x hx T hT 1 le_rfl hf
  refine ⟨R.rows, ?_, fun h => rows_nil_vanishes hR h⟩
  unfold emd
  rw [show ((1 : ℕ) : ℤ) = 1 from rfl] at hR
  rw [hR]

theorem mapE_total {β γ : Type} {f : β → PyM γ} {l : List β} (h : ∀ x ∈ l, ∃ y, f x = .ok y) : ∃ ys, mapE f l = .ok ys := by
  cases hm : mapE f l with
  | ok ys => exact ⟨ys, rfl⟩
  | error e =>
    obtain ⟨x, hx, e', he⟩ := mapE_error.1 ⟨e, hm⟩
    obtain ⟨y, hy⟩ := h x hx
    rw [hy] at he
    cases he

/-- The noises are decomposed. -/
theorem decomposeNoise_total {std : List K → K} {fuel : Nat} {sp : SciPy K} {cfg : Cfg K} {ecfg : EMD.Cfg K} {x : List (List K)} {eps : K}
    (hp : cfg.parallel = false) (hx : ∀ w ∈ x, Usable std fuel sp ecfg cfg.betaProgress eps w) :
    ∃ noiseEMD, decomposeNoise std fuel sp cfg ecfg [] x = .ok noiseEMD ∧
      ∀ imfs ∈ noiseEMD, imfs ≠ [] ∧ ∀ y ∈ imfs, ∀ a ∈ y, ∀ b ∈ y, eps * (a - b) ≤ 1 / 2 := by
  have hmem : ∀ w ∈ x, ∃ rows, emd fuel sp ecfg w none (-1) = .ok rows := by
    intro w hw
    obtain ⟨R, i, hR, -⟩ := hx w hw
    exact ⟨R.rows, by unfold emd; rw [hR]⟩
  obtain ⟨raw, hraw⟩ := mapE_total hmem
  have hfrom : ∀ rows ∈ raw, ∃ w ∈ x, emd fuel sp ecfg w none (-1) = .ok rows := fun rows hr => mem_of_forall₂ (mapE_ok.1 hraw) hr
  have hrow : ∀ rows ∈ raw, ∃ i, rows.head? = some i ∧ (cfg.betaProgress = true → std i ≠ 0) ∧
      ∀ y ∈ rows, ∀ a ∈ y, ∀ b ∈ y, eps * ((a - b) / (if cfg.betaProgress then std i else 1)) ≤ 1 / 2 := by
    intro rows hr
    obtain ⟨w, hw, hwr⟩ := hfrom rows hr
    obtain ⟨R, i, hR, h1, h2, h3⟩ := hx w hw
    unfold emd at hwr
    rw [hR] at hwr
    injection hwr with hwr
    subst hwr
    exact ⟨i, h1, h2, h3⟩
  unfold decomposeNoise
  simp only [hp, Bool.false_eq_true, if_false, hraw]
  cases hb : cfg.betaProgress with
  | false =>
    simp only [Bool.false_eq_true, if_false]
    refine ⟨raw, rfl, fun imfs hi => ?_⟩
    obtain ⟨i, h1, -, h3⟩ := hrow imfs hi
    rw [hb] at h3
    refine ⟨fun h0 => (by rw [h0] at h1; cases h1), fun y hy a ha b hb' => ?_⟩
    have := h3 y hy a ha b hb'
    simpa using this
  | true =>
    simp only [if_true]
    have hn : ∀ rows ∈ raw, ∃ out, normalise std rows = .ok out := by
      intro rows hr
      obtain ⟨i, h1, h2, -⟩ := hrow rows hr
      cases rows with
      | nil => cases h1
      | cons j t =>
        injection h1 with h1
        subst h1
        unfold normalise
        simp [h2 hb]
    obtain ⟨ys, hys⟩ := mapE_total hn
    refine ⟨ys, hys, fun imfs hi => ?_⟩
    obtain ⟨rows, hr, hro⟩ := mem_of_forall₂ (mapE_ok.1 hys) hi
    obtain ⟨i, h1, h2, h3⟩ := hrow rows hr
    rw [hb] at h3
    cases rows with
    | nil => cases h1
    | cons j t =>
      injection h1 with h1
      subst h1
      have h2 := h2 hb
      unfold normalise at hro
      simp only [beq_iff_eq, lit_zero, h2, if_false, Except.ok.injEq] at hro
      subst hro
      refine ⟨by simp, fun y hy a ha b hb' => ?_⟩
      obtain ⟨y0, hy0, rfl⟩ := List.mem_map.1 hy
      obtain ⟨a0, ha0, rfl⟩ := List.mem_map.1 ha
      obtain ⟨b0, hb0, rfl⟩ := List.mem_map.1 hb'
      have := h3 y0 hy0 a0 ha0 b0 hb0
      rw [if_pos rfl, sub_div] at this
      exact this

theorem endCondition_total {fuel : Nat} {sp : SciPy K} {cfg : Cfg K} {ecfg : EMD.Cfg K} (hF : Fine sp ecfg) (hf : 1 ≤ fuel) {S : List K}
    (hS : 2 ≤ S.length) {cs : List (List K)} (hc : ∀ r ∈ cs, r.length = S.length) (m : Int) :
    ∃ b, endCondition fuel sp cfg ecfg S cs m = .ok b := by
  have hl : (vsub S (sumRows S.length cs)).length = S.length := by rw [length_vsub, length_sumRows _ _ hc, Nat.min_self]
  obtain ⟨rows, hr, -⟩ := emd_one hF hf (vsub S (sumRows S.length cs)) (by omega) none (by simp)
  have hne : (vsub S (sumRows S.length cs)).isEmpty = false := by
    rw [List.isEmpty_eq_false_iff]
    intro h
    rw [h] at hl
    simp at hl
    omega
  unfold endCondition
  simp only [hr, bind, Except.bind, npMaxE, npMinE, hne, pure, Except.pure]
  split
  · exact ⟨_, rfl⟩
  · split
    · exact ⟨_, rfl⟩
    · simp only [Bool.false_eq_true, if_false]
      split
      · exact ⟨_, rfl⟩
      · split <;> exact ⟨_, rfl⟩

/-- A residue which still ranges over more than 4e-8 does not vanish when a usable noise is added. -/
theorem perturbed {std : List K → K} (hstd : StdLike std) {eps : K} (he : 0 ≤ eps) {prev y : List K} (hl : y.length = prev.length)
    (hy : ∀ a ∈ y, ∀ b ∈ y, eps * (a - b) ≤ 1 / 2) {r : K} (hr : 4 / 100000000 < r) (hp : prev ≠ [])
    (hbig : ¬ ∀ a ∈ prev, ∀ b ∈ prev, a - b < r) : ¬ EMD.Spec.Vanishes (vadd prev (vscale (eps * std prev) y)) := by
  intro hv
  obtain ⟨m1, m2⟩ := npMax_spec hp
  obtain ⟨n1, n2⟩ := npMin_spec hp
  have hrange : r ≤ npMax prev - npMin prev := by
    by_contra h
    push Not at h
    exact hbig fun a ha b hb => lt_of_le_of_lt (sub_le_sub (m2 a ha) (n2 b hb)) h
  obtain ⟨s0, s1⟩ := hstd prev
  have s1 := s1 (npMax prev - npMin prev) (fun a ha b hb => sub_le_sub (m2 a ha) (n2 b hb)) hp
  obtain ⟨i, hi, ei⟩ := List.getElem_of_mem m1
  obtain ⟨j, hj, ej⟩ := List.getElem_of_mem n1
  have hval : ∀ k (hk : k < prev.length), |prev[k] + y[k]'(by omega) * (eps * std prev)| ≤ 1 / 100000000 := by
    intro k hk
    have hmem : prev[k] + y[k]'(by omega) * (eps * std prev) ∈ vadd prev (vscale (eps * std prev) y) := by
      rw [List.mem_iff_getElem]
      exact ⟨k, by simp [vadd, vscale, hl, hk], by simp [vadd, vscale]⟩
    have := hv _ hmem
    rw [pyAbs_eq, lit_eq] at this
    push_cast at this
    exact this
  have vi := abs_le.1 (hval i hi)
  have vj := abs_le.1 (hval j hj)
  have hyy := hy (y[j]'(by omega)) (List.getElem_mem _) (y[i]'(by omega)) (List.getElem_mem _)
  rw [ei] at vi
  rw [ej] at vj
  have hmul := mul_le_mul_of_nonneg_right hyy s0
  nlinarith [vi.2, vj.1]

/-- One stage. -/
theorem localMean_total {std : List K → K} {fuel : Nat} {sp : SciPy K} {cfg : Cfg K} {ecfg : EMD.Cfg K} (hF : Fine sp ecfg) (hf : 1 ≤ fuel)
    (hstd : StdLike std) (he : 0 ≤ cfg.epsilon) {noiseEMD : List (List (List K))} {prev : List K} (hn : Lens prev.length noiseEMD)
    (hy : ∀ imfs ∈ noiseEMD, ∀ y ∈ imfs, ∀ a ∈ y, ∀ b ∈ y, cfg.epsilon * (a - b) ≤ 1 / 2) (hl : 2 ≤ prev.length)
    (T : Option (List K)) (hT : ∀ T', T = some T' → T'.length = prev.length) (hr : 4 / 100000000 < cfg.rangeThr)
    (hbig : ¬ ∀ a ∈ prev, ∀ b ∈ prev, a - b < cfg.rangeThr) (k : Nat) : ∃ L, localMean std fuel sp cfg ecfg noiseEMD prev T k = .ok L := by
  have hp : prev ≠ [] := by rintro rfl; simp at hl
  have hall : ∀ imfs ∈ noiseEMD.take cfg.trials, ∃ r, stageTrial fuel sp ecfg prev T (cfg.epsilon * std prev) k imfs = .ok r := by
    intro imfs himfs
    have himfs := List.mem_of_mem_take himfs
    have key : ∀ res : List K, res.length = prev.length → ¬ EMD.Spec.Vanishes res →
        ∃ r, (match emd fuel sp ecfg res T 1 with
          | .error e => (.error e : PyM (List K))
          | .ok imfs => match imfs.getLast? with
            | none => .error .indexError
            | some r => .ok r) = .ok r := by
      intro res hres hnv
      obtain ⟨rows, h1, h2⟩ := emd_one hF hf res (by omega) T (by intro T' h; rw [hT T' h, hres])
      rw [h1]
      cases hrows : rows.getLast? with
      | none => exact absurd (h2 (List.getLast?_eq_none_iff.1 hrows)) hnv
      | some r => exact ⟨r, by simp [hrows]⟩
    unfold stageTrial
    cases hk : imfs[k]? with
    | none =>
      apply key prev rfl
      have := perturbed (y := prev.map (fun _ => 0)) hstd (le_refl (0 : K)) (by simp) (by simp) hr hp hbig
      intro hv
      apply this
      intro v hvm
      obtain ⟨i, hi, e⟩ := List.getElem_of_mem hvm
      have hi' : i < prev.length := by simpa [vadd, vscale] using hi
      have : v = prev[i] := by rw [← e]; simp [vadd, vscale]
      rw [this]
      exact hv _ (List.getElem_mem _)
    | some y =>
      have hym := List.mem_of_getElem? hk
      have hyl := hn imfs himfs y hym
      exact key _ (by simp [vadd, vscale, hyl]) (perturbed hstd he hyl (hy imfs himfs y hym) hr hp hbig)
  obtain ⟨rs, hrs⟩ := mapE_total hall
  unfold localMean
  dsimp only
  rw [hrs]
  exact ⟨_, rfl⟩

theorem stages_total {std : List K → K} {fuel : Nat} {sp : SciPy K} {cfg : Cfg K} {ecfg : EMD.Cfg K} (hF : Fine sp ecfg) (hf : 1 ≤ fuel)
    (hstd : StdLike std) (he : 0 ≤ cfg.epsilon) {noiseEMD : List (List (List K))} {S : List K} (hn : Lens S.length noiseEMD)
    (ht : noiseEMD.length = cfg.trials)
    (hy : ∀ imfs ∈ noiseEMD, ∀ y ∈ imfs, ∀ a ∈ y, ∀ b ∈ y, cfg.epsilon * (a - b) ≤ 1 / 2) (hl : 2 ≤ S.length)
    (T : Option (List K)) (hT : ∀ T', T = some T' → T'.length = S.length) (hr : 4 / 100000000 < cfg.rangeThr) (m : Int) (n : Nat)
    {cimfs : List (List K)} {prev : List K} (hc : ∀ r ∈ cimfs, r.length = S.length) (hp : vsub S (sumRows S.length cimfs) = prev) :
    ∃ c, stages std fuel sp cfg ecfg noiseEMD S T m n cimfs prev = .ok c := by
  induction n generalizing cimfs prev with
  | zero => exact ⟨_, rfl⟩
  | succ n ih =>
    have hpl : prev.length = S.length := by rw [← hp, length_vsub, length_sumRows _ _ hc, Nat.min_self]
    obtain ⟨b, hb⟩ := endCondition_total (cfg := cfg) hF hf hl hc m
    unfold stages
    rw [hb]
    cases b with
    | true => exact ⟨_, rfl⟩
    | false =>
      have hend := endCondition_ok hb
      have hbig : ¬ ∀ a ∈ prev, ∀ b ∈ prev, a - b < cfg.rangeThr := by
        intro h
        have := hend.2 (.inr (.inr (.inl ⟨by rw [hp]; rintro rfl; simp at hpl; omega, by rw [hp]; exact h⟩)))
        cases this
      obtain ⟨lm, hlm⟩ := localMean_total hF hf hstd he (by rw [hpl]; exact hn) hy (by omega) T (by intro T' h; rw [hT T' h, hpl]) hr hbig cimfs.length
      have hm := localMean_ok (by rw [hpl]; exact hn) ht hlm
      have hll : lm.length = S.length := by
        obtain ⟨xs, -, hx⟩ := hm
        rw [← hpl]
        exact hx.1
      dsimp only
      rw [hlm]
      refine ih ?_ (residue_step S cimfs prev lm hc hll hp)
      intro r hr
      rcases List.mem_append.1 hr with hr | hr
      · exact hc r hr
      · rw [List.mem_singleton.1 hr, length_vsub, hpl, hll, Nat.min_self]

/-- The first component. -/
theorem eemd_total {fuel : Nat} {sp : SciPy K} {cfg : Cfg K} {ecfg : EMD.Cfg K} (hF : Fine sp ecfg) (hf : 1 ≤ fuel)
    {noiseEMD : List (List (List K))} {S : List K} (hn : Lens S.length noiseEMD) (ht : noiseEMD.length = cfg.trials) (ht0 : 1 ≤ cfg.trials)
    (hne : ∀ imfs ∈ noiseEMD, imfs ≠ []) (hl : 2 ≤ S.length) (hp : cfg.parallel = false)
    (T : Option (List K)) (hT : ∀ T', T = some T' → T'.length = S.length) :
    ∃ E, eemd fuel sp cfg ecfg noiseEMD [] S T 1 = .ok E := by
  have key : ∀ T' : List K, T'.length = S.length → ∃ rs, mapE (trialUpdate fuel sp cfg ecfg noiseEMD S T' 1) (List.range cfg.trials) = .ok rs := by
    intro T' hT'
    apply mapE_total
    intro t htm
    rw [List.mem_range] at htm
    unfold trialUpdate
    rw [List.getElem?_eq_getElem (by omega)]
    dsimp only
    have hmem := List.getElem_mem (l := noiseEMD) (n := t) (by omega)
    cases himfs : noiseEMD[t] with
    | nil => exact absurd himfs (hne _ hmem)
    | cons i rest =>
      have hi : i.length = S.length := hn _ hmem i (by rw [himfs]; simp)
      obtain ⟨rows, hr, -⟩ := emd_one hF hf (vadd S (vscale cfg.epsilon i)) (by simp [vadd, vscale, hi]; omega) (some T')
        (by intro T'' h; injection h with h; rw [← h, hT']; simp [vadd, vscale, hi])
      exact ⟨rows, hr⟩
  unfold eemd
  simp only [hp, Bool.false_eq_true, if_false]
  cases T with
  | some T' =>
    obtain ⟨rs, hrs⟩ := key T' (hT T' rfl)
    simp only [hrs, show ¬ cfg.trials = 0 by omega, if_false]
    exact ⟨_, rfl⟩
  | none =>
    obtain ⟨rs, hrs⟩ := key ((List.range S.length).map (fun k : Nat => lit (k : ℚ))) (by simp)
    simp only [hrs, show ¬ cfg.trials = 0 by omega, if_false]
    exact ⟨_, rfl⟩

theorem reshape_flatten {n : Nat} (x : List (List K)) (h : ∀ w ∈ x, w.length = n) : reshape n x.length x.flatten = x := by
  induction x with
  | nil => rfl
  | cons w x ih =>
    have hw := h w (by simp)
    simp only [List.length_cons, reshape, List.flatten_cons]
    rw [List.take_left' hw, List.drop_left' hw, ih (fun w hw => h w (by simp [hw]))]

theorem draw_det {rng : Rng K ρ} {kind : NoiseKind} {scale : K} {n : Nat} {r r' r'' : ρ} {x y : List K}
    (h : Draw rng kind scale n r x r') (h' : Draw rng kind scale n r y r'') : x = y := by
  rcases h with ⟨h1, h⟩ | ⟨h1, h⟩ <;> rcases h' with ⟨h2, h'⟩ | ⟨h2, h'⟩
  · rw [h] at h'; injection h'
  · rw [h1] at h2; cases h2
  · rw [h1] at h2; cases h2
  · rw [h] at h'; injection h'

/-- C102: with accepting interpolation, simple detection, `nbsym ≥ 1`, known spline and noise kinds, at least one trial, `range_thr > 4e-8` and usable
noises, `ceemdan` returns for every signal of at least two samples whose standard deviation is not zero, sequentially and in parallel, whatever
the other thresholds and limits. -/
theorem C102_returns (rng : Rng K ρ) (hs : Sized rng) (std : List K → K) (hstd : StdLike std) (fuel : Nat) (hf : 1 ≤ fuel) (sp : SciPy K)
    (hsp : EMD.Spec.AcceptsAll sp) (orderN orderT : List Nat) (o : Obj K ρ) (hd : o.emd.detection = .simple) (hnb : 1 ≤ o.emd.nbsym)
    (hk : o.emd.splineKind ≠ .unknown) (hnk : o.cfg.noiseKind ≠ .unknown) (ht : 1 ≤ o.cfg.trials) (he : 0 ≤ o.cfg.epsilon)
    (hr : 4 / 100000000 < o.cfg.rangeThr) (hN : o.cfg.parallel = true → Schedule o.cfg.trials o.cfg.processes orderN)
    (hT' : o.cfg.parallel = true → orderT.Perm (List.range o.cfg.trials)) (S : List K) (hS : 2 ≤ S.length) (hne : std S ≠ 0)
    (hw : ∃ (x : List (List K)) (r' : ρ), Draw rng o.cfg.noiseKind o.cfg.noiseScale (o.cfg.trials * S.length) o.random x.flatten r' ∧
      x.length = o.cfg.trials ∧ ∀ w ∈ x, w.length = S.length ∧ Usable std fuel sp o.emd o.cfg.betaProgress o.cfg.epsilon w)
    (T : Option (List K)) (hT : ∀ T', T = some T' → T'.length = S.length) (m : Int) :
    ∃ C, (o.ceemdan rng std fuel sp orderN orderT S T m).1 = .ok C := by
  have main : ∀ o : Obj K ρ, o.cfg.parallel = false → o.emd.detection = .simple → 1 ≤ o.emd.nbsym → o.emd.splineKind ≠ .unknown →
      o.cfg.noiseKind ≠ .unknown → 1 ≤ o.cfg.trials → 0 ≤ o.cfg.epsilon → 4 / 100000000 < o.cfg.rangeThr →
      (∃ (x : List (List K)) (r' : ρ), Draw rng o.cfg.noiseKind o.cfg.noiseScale (o.cfg.trials * S.length) o.random x.flatten r' ∧
        x.length = o.cfg.trials ∧ ∀ w ∈ x, w.length = S.length ∧ Usable std fuel sp o.emd o.cfg.betaProgress o.cfg.epsilon w) →
      ∃ C, (o.ceemdan rng std fuel sp [] [] S T m).1 = .ok C := by
    intro o hp hd hnb hk hnk ht he hr hw
    have hF : Fine sp o.emd := ⟨hsp, hd, hnb, hk⟩
    have hlen : (vdiv S (std S)).length = S.length := by simp [vdiv]
    unfold Obj.ceemdan
    dsimp only
    rw [if_neg (by rw [beq_iff_eq, lit_zero]; exact hne), hlen]
    cases hx : noises rng o.cfg o.random S.length with
    | mk x r =>
      cases x with
      | error e =>
        exfalso
        unfold noises at hx
        cases hg : EEMD.generateNoise rng o.cfg.noiseKind o.random o.cfg.noiseScale (o.cfg.trials * S.length) with
        | mk y r1 =>
          rw [hg] at hx
          cases y with
          | ok flat => simp at hx
          | error e =>
            unfold EEMD.generateNoise at hg
            cases hkk : o.cfg.noiseKind with
            | normal => rw [hkk] at hg; injection hg with h1 h2; cases h1
            | uniform => rw [hkk] at hg; injection hg with h1 h2; cases h1
            | unknown => exact hnk hkk
      | ok x =>
        dsimp only
        obtain ⟨flat, hdraw, rfl⟩ := noises_ok hx
        have hfl := draw_length hs hdraw
        have hxl := length_reshape S.length o.cfg.trials flat
        have hxr := reshape_rows S.length o.cfg.trials flat hfl
        obtain ⟨x, r', hdx, hxt, hxu⟩ := hw
        have hxe : reshape S.length o.cfg.trials flat = x := by
          rw [draw_det hdraw hdx, ← hxt]
          exact reshape_flatten x (fun w h => (hxu w h).1)
        obtain ⟨noiseEMD, hdn, huse⟩ := decomposeNoise_total (cfg := o.cfg) hp (fun w h => (hxu w (by rw [← hxe]; exact h)).2)
        rw [hdn]
        dsimp only
        have hnoise := decomposeNoise_ok hxl (by rw [hp]; simp) hdn
        have hL : Lens S.length noiseEMD := by
          intro imfs himfs r hr
          obtain ⟨y, hy, hyi⟩ := mem_of_forall₂ hnoise himfs
          rw [NoiseImfs.lengths hyi r hr, hxr y hy]
        have hnl : noiseEMD.length = o.cfg.trials := by rw [← hnoise.length_eq, hxl]
        have hL' : Lens (vdiv S (std S)).length noiseEMD := by rw [hlen]; exact hL
        have hTl : ∀ T', T = some T' → T'.length = (vdiv S (std S)).length := by intro T' h; rw [hT T' h, hlen]
        obtain ⟨E, hE⟩ := eemd_total (cfg := o.cfg) hF hf hL' hnl ht (fun imfs h => (huse imfs h).1) (by omega) hp T hTl
        obtain ⟨T', rs, E', -, -, hrl, -, rfl⟩ := eemd_ok hL' hE
        unfold body
        rw [hE]
        dsimp only
        generalize hfirst : vdiv (sumRows (vdiv S (std S)).length (heads (vdiv S (std S)).length rs)) (o.cfg.trials : K) = first
        have hfl' : first.length = (vdiv S (std S)).length := by
          rw [← hfirst, vdiv, List.length_map, length_sumRows _ _ (heads_length hrl)]
        have hsum : sumRows (vdiv S (std S)).length [first] = first := by
          simp only [sumRows, List.foldl_cons, List.foldl_nil]
          rw [← hfl']
          simp only [vadd, vzeros, lit_zero]
          apply List.ext_getElem (by simp)
          intro i _ _
          simp
        obtain ⟨c, hc⟩ := stages_total (cfg := o.cfg) hF hf hstd he hL' hnl (fun imfs h => (huse imfs h).2) (by omega) T hTl hr m o.cfg.maxStages
          (cimfs := [first]) (prev := vsub (vdiv S (std S)) first) (by simpa using hfl') (by rw [hsum])
        rw [hc]
        exact ⟨_, rfl⟩
  cases hp : o.cfg.parallel with
  | false =>
    obtain ⟨C, hC⟩ := main o hp hd hnb hk hnk ht he hr hw
    refine ⟨C, ?_⟩
    rw [← hC]
    unfold Obj.ceemdan decomposeNoise body eemd
    simp only [hp, Bool.false_eq_true, if_false]
  | true =>
    obtain ⟨C, hC⟩ := main o.sequential rfl hd hnb hk hnk ht he hr hw
    exact ⟨C, ((C41_parallel_eq_sequential rng hs std fuel sp orderN orderT o S T m hp (hN hp) (hT' hp)).1 C).2 hC⟩

/-- `Usable`, decided by running the decomposition. -/
def usableB (std : List ℚ → ℚ) (fuel : Nat) (sp : SciPy ℚ) (ecfg : EMD.Cfg ℚ) (beta : Bool) (eps : ℚ) (w : List ℚ) : Bool :=
  match EMD.emdPure fuel sp ecfg w none (-1) with
  | .error _ => false
  | .ok R =>
    match R.rows.head? with
    | none => false
    | some i => (!beta || std i != 0) &&
      R.rows.all (fun y => y.all (fun a => y.all (fun b => decide (eps * ((a - b) / (if beta then std i else 1)) ≤ 1 / 2))))

theorem usable_of {std : List ℚ → ℚ} {fuel : Nat} {sp : SciPy ℚ} {ecfg : EMD.Cfg ℚ} {beta : Bool} {eps : ℚ} {w : List ℚ}
    (h : usableB std fuel sp ecfg beta eps w = true) : Usable std fuel sp ecfg beta eps w := by
  unfold usableB at h
  cases hR : EMD.emdPure fuel sp ecfg w none (-1) with
  | error e => rw [hR] at h; cases h
  | ok R =>
    rw [hR] at h
    dsimp only at h
    cases hi : R.rows.head? with
    | none => rw [hi] at h; cases h
    | some i =>
      rw [hi] at h
      simp only [Bool.and_eq_true, Bool.or_eq_true, Bool.not_eq_true', bne_iff_ne, ne_eq, List.all_eq_true, decide_eq_true_eq] at h
      refine ⟨R, i, hR, hi, ?_, h.2⟩
      intro hb
      rcases h.1 with h1 | h1
      · rw [hb] at h1; cases h1
      · exact h1

theorem sampleStd_like : StdLike sampleStd := by
  intro l
  unfold sampleStd
  constructor
  · by_cases h : l = []
    · subst h; decide +kernel
    · have := (npMax_spec h).2 _ (npMin_spec h).1
      linarith
  · intro r hr hl
    exact hr _ (npMax_spec hl).1 _ (npMin_spec hl).1

/-- The sample noises are usable. -/
example : StdLike sampleStd ∧ Sized EEMD.sampleRng ∧ EMD.Spec.AcceptsAll (linSciPy (α := ℚ)) ∧ sampleStd EMD.sampleS ≠ 0 ∧
    ∃ (x : List (List ℚ)) (r' : Nat), Draw EEMD.sampleRng sampleCfg.noiseKind sampleCfg.noiseScale (3 * EMD.sampleS.length) 1 x.flatten r' ∧
      x.length = 3 ∧ ∀ w ∈ x, w.length = EMD.sampleS.length ∧ Usable sampleStd 20 linSciPy EMD.sampleFixe true sampleCfg.epsilon w := by
  refine ⟨sampleStd_like, EEMD.sampleRng_sized, EMD.linSciPy_accepts, by decide +kernel,
    reshape 10 3 (EEMD.sampleRng.normal 1 sampleCfg.noiseScale 30).1, (EEMD.sampleRng.normal 1 sampleCfg.noiseScale 30).2, ?_, ?_, ?_⟩
  · refine .inl ⟨rfl, ?_⟩
    decide +kernel
  · rfl
  · have h : (reshape 10 3 (EEMD.sampleRng.normal 1 sampleCfg.noiseScale 30).1).all (fun w => w.length == EMD.sampleS.length &&
        usableB sampleStd 20 linSciPy EMD.sampleFixe true sampleCfg.epsilon w) = true := by decide +kernel
    intro w hw
    have := List.all_eq_true.1 h w hw
    simp only [Bool.and_eq_true, beq_iff_eq] at this
    exact ⟨this.1, usable_of this.2⟩

/-! ## C103 -/

theorem emd_zero {fuel : Nat} (sp : SciPy K) (ecfg : EMD.Cfg K) (hd : ecfg.detection = .simple) (hM : 2 ≤ ecfg.MAX_ITERATION) (hf : 1 ≤ fuel)
    (n : Nat) (hn : 2 ≤ n) : emd fuel sp ecfg (List.replicate n 0) none (-1) = .ok [] := by
  obtain ⟨rows, o', h, -, h2⟩ := EMD.C20_monotone_emd fuel sp (EMD.Obj.mk ecfg none none) (List.replicate n 0) none (-1) hd hM hf
    (by simpa using hn) (by simp) (.inl (by rw [List.pairwise_replicate]; simp))
  rcases h2 with ⟨-, rfl⟩ | ⟨h3, -⟩
  · unfold EMD.Obj.emd at h
    unfold emd
    dsimp only at h
    cases hR : EMD.emdPure fuel sp ecfg (List.replicate n 0) none (-1) with
    | error e => rw [hR] at h; cases h
    | ok R =>
      rw [hR] at h
      injection h with h
  · exfalso
    apply h3
    intro x hx
    rw [(List.mem_replicate.1 hx).2, pyAbs_eq, abs_zero, lit_eq]
    norm_num

theorem reshape_replicate (a : K) (n t : Nat) : reshape n t (List.replicate (t * n) a) = List.replicate t (List.replicate n a) := by
  have := reshape_flatten (List.replicate t (List.replicate n a)) (n := n) (by intro w hw; rw [(List.mem_replicate.1 hw).2]; simp)
  rw [List.length_replicate, List.flatten_replicate_replicate] at this
  exact this

theorem mapE_const {β γ : Type} {f : β → PyM γ} {b : β} {c : γ} (h : f b = .ok c) (n : Nat) : mapE f (List.replicate n b) = .ok (List.replicate n c) := by
  induction n with
  | zero => rfl
  | succ n ih => simp only [List.replicate_succ, mapE, h, ih]

/-- C103: without noise (`noise_scale = 0`) `ceemdan` raises `IndexError`, whatever the signal: the decomposition of a zero noise has no first component.
The parallel mode raises as well (C41). -/
theorem C103_silent (rng : Rng K ρ) (hz : EEMD.Spec.ZeroScale rng) (std : List K → K) (fuel : Nat) (hf : 1 ≤ fuel) (sp : SciPy K) (orderN orderT : List Nat)
    (o : Obj K ρ) (hd : o.emd.detection = .simple) (hM : 2 ≤ o.emd.MAX_ITERATION) (hnk : o.cfg.noiseKind ≠ .unknown) (ht : 1 ≤ o.cfg.trials)
    (h0 : o.cfg.noiseScale = 0) (hp : o.cfg.parallel = false) (S : List K) (hS : 2 ≤ S.length) (hne : std S ≠ 0) (T : Option (List K)) (m : Int) :
    (o.ceemdan rng std fuel sp orderN orderT S T m).1 = .error .indexError := by
  have hlen : (vdiv S (std S)).length = S.length := by simp [vdiv]
  have hdn : ∀ t, 1 ≤ t → mapE (fun x => emd fuel sp o.emd x none (-1)) (List.replicate t (List.replicate S.length 0)) = .ok (List.replicate t []) :=
    fun t _ => mapE_const (f := fun x => emd fuel sp o.emd x none (-1)) (emd_zero sp o.emd hd hM hf S.length hS) t
  have hns : ∃ r, noises rng o.cfg o.random S.length = (.ok (List.replicate o.cfg.trials (List.replicate S.length 0)), r) := by
    unfold noises
    have hg := EEMD.generateNoise_zero rng hz o.cfg.noiseKind hnk o.random (o.cfg.trials * S.length)
    rw [h0]
    cases hgn : EEMD.generateNoise rng o.cfg.noiseKind o.random 0 (o.cfg.trials * S.length) with
    | mk y r =>
      rw [hgn] at hg
      dsimp only at hg
      subst hg
      exact ⟨r, by dsimp only; rw [reshape_replicate]⟩
  obtain ⟨r, hns⟩ := hns
  obtain ⟨t, hte⟩ : ∃ t, o.cfg.trials = t + 1 := ⟨o.cfg.trials - 1, by omega⟩
  unfold Obj.ceemdan
  dsimp only
  rw [if_neg (by rw [beq_iff_eq, lit_zero]; exact hne), hlen, hns]
  dsimp only
  unfold decomposeNoise
  simp only [hp, Bool.false_eq_true, if_false, hdn _ ht]
  cases hb : o.cfg.betaProgress with
  | true => simp [hte, List.replicate_succ, mapE, normalise]
  | false =>
    have key : ∀ T' : List K, mapE (trialUpdate fuel sp o.cfg o.emd (List.replicate o.cfg.trials []) (vdiv S (std S)) T' 1) (List.range o.cfg.trials) =
        .error .indexError := by
      intro T'
      rw [hte, List.range_succ_eq_map, mapE]
      simp [trialUpdate, List.replicate_succ]
    simp only [Bool.false_eq_true, if_false, body, eemd, hp, key]

/-- C103 in parallel mode: `ceemdan` without noise does not return. -/
theorem C103_parallel (rng : Rng K ρ) (hs : Sized rng) (hz : EEMD.Spec.ZeroScale rng) (std : List K → K) (fuel : Nat) (hf : 1 ≤ fuel) (sp : SciPy K)
    (orderN orderT : List Nat) (o : Obj K ρ) (hd : o.emd.detection = .simple) (hM : 2 ≤ o.emd.MAX_ITERATION) (hnk : o.cfg.noiseKind ≠ .unknown)
    (ht : 1 ≤ o.cfg.trials) (h0 : o.cfg.noiseScale = 0) (hp : o.cfg.parallel = true) (hN : Schedule o.cfg.trials o.cfg.processes orderN)
    (hT : orderT.Perm (List.range o.cfg.trials)) (S : List K) (hS : 2 ≤ S.length) (hne : std S ≠ 0) (T : Option (List K)) (m : Int) :
    ∀ C, (o.ceemdan rng std fuel sp orderN orderT S T m).1 ≠ .ok C := by
  intro C hC
  have h1 := ((C41_parallel_eq_sequential rng hs std fuel sp orderN orderT o S T m hp hN hT).1 C).1 hC
  rw [C103_silent rng hz std fuel hf sp [] [] o.sequential hd hM hnk ht h0 rfl S hS hne T m] at h1
  cases h1

/-- The same signal with noise and without. -/
example : okWith (fun E => E.length == 3) ((sampleObj sampleCfg).ceemdan EEMD.sampleRng sampleStd 20 linSciPy [] [] EMD.sampleS none (-1)).1 = true ∧
    errIs .indexError ((sampleObj { sampleCfg with noiseScale := 0 }).ceemdan EEMD.sampleRng sampleStd 20 linSciPy [] [] EMD.sampleS none (-1)).1 = true ∧
    EEMD.Spec.ZeroScale EEMD.sampleRng ∧ sampleStd EMD.sampleS ≠ 0 :=
  ⟨by decide +kernel, by decide +kernel, EEMD.sampleRng_zero, by decide +kernel⟩

end CEEMDAN
end PyEMD
