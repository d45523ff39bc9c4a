import Verif.Props.Affine
import Verif.Props.EemdTotal

/-!
# Offsets and units of the signal in `EEMD` (C132)
-/

set_option linter.unusedSectionVars false

namespace PyEMD
namespace EEMD
open Spec
open EMD (vaff vaff_length npMax_vaff npMin_vaff)

variable {K ρ : Type} [Field K] [LinearOrder K] [IsStrictOrderedRing K] [FloorRing K]

/-- Noise of a `c` times larger width is `c` times the noise. -/
def ScalesBy (c : K) (rng : Rng K ρ) : Prop :=
  (∀ r s n, rng.normal r (c * s) n = ((rng.normal r s n).1.map (fun x => c * x), (rng.normal r s n).2)) ∧
  (∀ r a b n, rng.uniform r (c * a) (c * b) n = ((rng.uniform r a b n).1.map (fun x => c * x), (rng.uniform r a b n).2))

theorem scalesBy_one (rng : Rng K ρ) : ScalesBy 1 rng := by
  constructor <;> intros <;> simp

theorem sampleRng_scales (c : ℚ) : ScalesBy c sampleRng := by
  constructor
  · intro r s n
    simp [sampleRng, mul_assoc]
  · intro r a b n
    simp only [sampleRng, List.map_map, Prod.mk.injEq, and_true]
    apply List.map_congr_left
    intro i _
    simp only [Function.comp_apply]
    ring

theorem Draw.scale {c : K} {rng : Rng K ρ} (hr : ScalesBy c rng) {kind : NoiseKind} {s : K} {n : Nat} {r r' : ρ} {x : List K}
    (h : Draw rng kind s n r x r') : Draw rng kind (c * s) n r (x.map (fun y => c * y)) r' := by
  rcases h with ⟨hk, h⟩ | ⟨hk, h⟩
  · left
    refine ⟨hk, ?_⟩
    rw [hr.1, h]
  · right
    refine ⟨hk, ?_⟩
    rw [show -(c * s) / lit 2 = c * (-s / lit 2) by ring, show c * s / lit 2 = c * (s / lit 2) by ring, hr.2, h]

theorem Stream.scale {c : K} {rng : Rng K ρ} (hr : ScalesBy c rng) {kind : NoiseKind} {s : K} {n : Nat} {r r' : ρ} {xs : List (List K)}
    (h : Stream rng kind s n r xs r') : Stream rng kind (c * s) n r (xs.map (fun x => x.map (fun y => c * y))) r' := by
  induction h with
  | nil => exact .nil _
  | cons hd _ ih => exact .cons (Draw.scale hr hd) ih

/-- The noises of the run in other units. -/
theorem Ran.noises_scale {c : K} (hc : 0 < c) (b : K) {rng : Rng K ρ} (hr : ScalesBy c rng) {fuel : Nat} {sp : SciPy K} {o o₂ o' o₂' : Obj K ρ}
    (hcfg : o₂.cfg = o.cfg) (hrand : o₂.random = o.random) {S : List K} {T : Option (List K)} {m : Int} {T' T'' : List K} {s s' : K}
    {noises noises' : List (List K)} {outs outs' : List (List (List K) × Option (List K))}
    (h : Ran rng fuel sp o o' S T m T' s noises outs) (h' : Ran rng fuel sp o₂ o₂' (vaff c b S) T m T'' s' noises' outs') :
    s' = c * s ∧ T'' = T' ∧ noises' = noises.map (fun x => x.map (fun y => c * y)) := by
  have hs : s' = c * s := by
    have h1 := h.width
    have h2 := h'.width
    unfold ScaleFor at h1 h2
    rw [h2, h1, hcfg, npMax_vaff hc b h.signal, npMin_vaff hc b h.signal]
    rw [show c * npMax S + b - (c * npMin S + b) = c * (npMax S - npMin S) by ring]
    rw [pyAbs_eq, pyAbs_eq, abs_mul, abs_of_pos hc]
    ring
  have hl : ∀ xs ys : List (List K), xs.length = ys.length → xs <+: ys → xs = ys := fun xs ys hl hp => hp.eq_of_length hl
  have hn : noises.length = o.cfg.trials := h.trial.length_eq.trans h.count
  have hn' : noises'.length = o.cfg.trials := by rw [← hcfg]; exact h'.trial.length_eq.trans h'.count
  refine ⟨hs, ?_, ?_⟩
  · have h1 := h.time
    have h2 := h'.time
    unfold TimeFor at h1 h2
    cases T with
    | some t => exact h2.trans h1.symm
    | none =>
      rw [h2, h1, vaff_length]
  · cases hp : o.cfg.parallel with
    | false =>
      have h1 := Stream.scale hr (h.sequential hp)
      have h2 := h'.sequential (by rw [hcfg]; exact hp)
      rw [hcfg, hrand, hs, vaff_length] at h2
      exact hl _ _ (by simp [hn, hn']) (Stream.prefix_of h2 h1 (by simp [hn, hn']))
    | true =>
      obtain ⟨-, first, r, h1, h2, h3⟩ := h.parallel hp
      obtain ⟨-, first', r', h1', h2', h3'⟩ := h'.parallel (by rw [hcfg]; exact hp)
      rw [hcfg] at h1' h2' h3'
      rw [hrand, hs, vaff_length] at h1'
      have hf : first' = first.map (fun x => x.map (fun y => c * y)) :=
        hl _ _ (by simp [h2, h2']) (Stream.prefix_of h1' (Stream.scale hr h1) (by simp [h2, h2']))
      apply List.ext_getElem?
      intro t
      by_cases ht : t < o.cfg.trials
      · rw [h3' t ht, List.getElem?_map, h3 t ht, hf]
        simp
      · rw [List.getElem?_eq_none (by omega), List.getElem?_eq_none (by simp; omega)]

/-- What a change of units and origin does to the result of one trial. -/
def TrialAff (c b : K) (sep : Bool) (out out' : List (List K) × Option (List K)) : Prop :=
  ∃ imfs residue, (sep = true → out = (imfs, some residue) ∧ out' = (imfs.map (vaff c 0), some (vaff c b residue))) ∧
    (sep = false → out = (imfs ++ [residue], none) ∧ out' = (imfs.map (vaff c 0) ++ [vaff c b residue], none))

theorem trialOf_ok {fuel : Nat} {sp : SciPy K} {sep : Bool} {cfg : EMD.Cfg K} {S T : List K} {m : Int} {noise : List K}
    {out : List (List K) × Option (List K)} {R : EMD.Result K} (h : TrialOf fuel sp sep cfg S T m noise out)
    (hR : EMD.emdPure fuel sp cfg (List.zipWith (fun s x => s + x) S noise) (some T) m = .ok R) (hv : ¬ EMD.Spec.Vanishes R.residue) :
    (sep = true → out = (R.imfs, some R.residue)) ∧ (sep = false → out = (R.imfs ++ [R.residue], none)) := by
  obtain ⟨R', h0, h1, h2⟩ := h
  rw [hR] at h0
  injection h0 with h0
  subst h0
  have hrow : R.rows = R.imfs ++ [R.residue] := by
    have hobj : EMD.Obj.emd fuel sp ⟨cfg, none, none⟩ (List.zipWith (fun s x => s + x) S noise) (some T) m =
        (.ok R.rows, ⟨cfg, some R.imfs, some R.residue⟩) := by
      simp [EMD.Obj.emd, hR]
    obtain ⟨imfs, res, g1, -, ⟨gv, -⟩ | ⟨-, g2⟩⟩ := EMD.C03_rows_vs_stored fuel sp _ _ _ _ m R.rows hobj
    · simp only [EMD.Obj.getImfsAndResidue, Except.ok.injEq, Prod.mk.injEq] at g1
      exact absurd (g1.2 ▸ gv) hv
    · simp only [EMD.Obj.getImfsAndResidue, Except.ok.injEq, Prod.mk.injEq] at g1
      rw [g2, g1.1, g1.2]
  refine ⟨fun hs => ?_, fun hs => ?_⟩
  · obtain ⟨imfs, trend, g1, g2⟩ := h2 hs
    have hc : allclose0 R.residue = false := by
      rw [← Bool.not_eq_true, EMD.allclose0_iff]
      exact hv
    simp only [EMD.Obj.getImfsAndTrend, EMD.Obj.getImfsAndResidue, bind, Except.bind, hc, pure, Except.pure] at g1
    simp only [Bool.false_eq_true, if_false, Except.ok.injEq, Prod.mk.injEq] at g1
    rw [g2, g1.1, g1.2]
  · rw [h1 hs, hrow]

theorem zipWith_vaff (c b : K) (S x : List K) :
    List.zipWith (fun s x => s + x) (vaff c b S) (x.map (fun y => c * y)) = vaff c b (List.zipWith (fun s x => s + x) S x) := by
  induction S generalizing x with
  | nil => rfl
  | cons s S ih =>
    cases x with
    | nil => rfl
    | cons y x =>
      have := ih x
      simp only [vaff, List.map_cons, List.zipWith_cons_cons] at this ⊢
      rw [this]
      congr 1
      ring

/-- No trial ends with a residue within the tolerance of `np.allclose(residue, 0)`, neither before nor after the change. -/
def NoFlatTrial (c b : K) (fuel : Nat) (sp : SciPy K) (cfg : EMD.Cfg K) (S T : List K) (m : Int) (noises : List (List K)) : Prop :=
  ∀ noise ∈ noises, ∀ R, EMD.emdPure fuel sp cfg (List.zipWith (fun s x => s + x) S noise) (some T) m = .ok R →
    ¬ EMD.Spec.Vanishes R.residue ∧ ¬ EMD.Spec.Vanishes (R.residue.map (fun x => c * x + b))

theorem trials_aff {c : K} (hc : 0 < c) (b : K) {fuel : Nat} {sp : SciPy K} (ho : EMD.Spec.AffineAll sp) {cfg cfg' : EMD.Cfg K} (hu : EMD.Units c cfg cfg')
    (hM : b = 0 ∨ 2 ≤ cfg.MAX_ITERATION) (hp : b = 0 ∨ cfg.totalPowerThr ≤ cfg.rangeThr ∨ cfg.totalPowerThr ≤ 0) {sep : Bool}
    {S T : List K} {m : Int} {noises : List (List K)} {outs outs' : List (List (List K) × Option (List K))}
    (hv : NoFlatTrial c b fuel sp cfg S T m noises)
    (h : List.Forall₂ (TrialOf fuel sp sep cfg S T m) noises outs)
    (h' : List.Forall₂ (TrialOf fuel sp sep cfg' (vaff c b S) T m) (noises.map (fun x => x.map (fun y => c * y))) outs') :
    List.Forall₂ (TrialAff c b sep) outs outs' := by
  induction h generalizing outs' with
  | nil => cases h'; exact .nil
  | @cons noise out noises outs ht _ ih =>
    cases h' with
    | @cons _ out' _ outs' ht' h' =>
      refine .cons ?_ (ih (fun n hn => hv n (by simp [hn])) h')
      have ha := EMD.emdPure_aff fuel ho hc b hu hM hp (List.zipWith (fun s x => s + x) S noise) (some T) m
      obtain ⟨R, hR, -⟩ := id ht
      obtain ⟨R', hR', -⟩ := id ht'
      have hR'' := hR'
      rw [zipWith_vaff] at hR'
      rw [hR, hR'] at ha
      obtain ⟨h1, h2⟩ := hv noise (by simp) R hR
      have ha1 : R'.imfs = R.imfs.map (vaff c 0) := ha.1
      have ha2 : R'.residue = vaff c b R.residue := ha.2
      have g := trialOf_ok ht hR h1
      have g' := trialOf_ok ht' hR'' (by rw [ha2]; exact h2)
      rw [ha1, ha2] at g'
      exact ⟨R.imfs, R.residue, fun hs => ⟨g.1 hs, g'.1 hs⟩, fun hs => ⟨g.2 hs, g'.2 hs⟩⟩

theorem IsMean.unique {n : Nat} {rows : List (List K)} {r r' : List K} (h : IsMean n rows r) (h' : IsMean n rows r') : r = r' := by
  apply List.ext_getElem?
  intro i
  by_cases hi : i < n
  · rw [h.2 i hi, h'.2 i hi]
  · rw [List.getElem?_eq_none (by rw [h.1]; omega), List.getElem?_eq_none (by rw [h'.1]; omega)]

theorem sum_aff (c b : K) (l : List K) : (l.map (fun x => c * x + b)).sum = c * l.sum + b * l.length := by
  induction l with
  | nil => simp
  | cons x l ih => simp only [List.map_cons, List.sum_cons, ih, List.length_cons, Nat.cast_add, Nat.cast_one]; ring

theorem getD_vaff (c b : K) {l : List K} {i : Nat} (hi : i < l.length) : (vaff c b l).getD i 0 = c * l.getD i 0 + b := by
  simp [vaff, List.getD_eq_getElem?_getD, hi]

theorem IsMean.aff {n : Nat} {rows : List (List K)} {r : List K} (h : IsMean n rows r) (c b : K) (hne : rows ≠ [])
    (hl : ∀ x ∈ rows, x.length = n) : IsMean n (rows.map (vaff c b)) (vaff c b r) := by
  refine ⟨by rw [vaff_length, h.1], fun i hi => ?_⟩
  have h1 := h.2 i hi
  rw [vaff, List.getElem?_map, h1]
  simp only [Option.map_some, lit_eq, Rat.cast_natCast, Rat.cast_zero, List.length_map]
  congr 1
  have : (rows.map (vaff c b)).map (fun r => r.getD i 0) = (rows.map (fun r => r.getD i 0)).map (fun x => c * x + b) := by
    rw [List.map_map, List.map_map]
    apply List.map_congr_left
    intro x hx
    exact getD_vaff c b (by rw [hl x hx]; exact hi)
  rw [this, sum_aff, List.length_map]
  have hp : (rows.length : K) ≠ 0 := by
    have := List.length_pos_iff.2 hne
    exact_mod_cast this.ne'
  field_simp

/-- Two lists of trials that all differ by a relation have the same orders, up to the relation. -/
theorem order_forall₂ {β γ : Type} {f : β → γ} {cs : List (List β)} {cs' : List (List γ)} (h : cs' = cs.map (fun c => c.map f)) (k : Nat) :
    order cs' k = (order cs k).map f := by
  subst h
  induction cs with
  | nil => rfl
  | cons c cs ih =>
    unfold order at ih ⊢
    simp only [List.map_cons, List.filterMap_cons, List.getElem?_map]
    cases c[k]? with
    | none => simpa using ih
    | some x => simpa using ih

theorem averages_ext {n : Nat} {cs : List (List (List K))} {E E' : List (List K)} (h : Averages n cs E) (h' : Averages n cs E') : E = E' := by
  have hl : E.length = E'.length := by
    have : ∀ k, k < E.length ↔ k < E'.length := fun k => (h.1 k).trans (h'.1 k).symm
    have h1 := this E.length
    have h2 := this E'.length
    omega
  apply List.ext_getElem hl
  intro k hk hk'
  exact IsMean.unique (h.2 k _ (List.getElem?_eq_getElem hk)) (h'.2 k _ (List.getElem?_eq_getElem hk'))

theorem Averages.scale {n : Nat} {cs : List (List (List K))} {E : List (List K)} (h : Averages n cs E) (c : K)
    (hl : ∀ t ∈ cs, ∀ r ∈ t, r.length = n) : Averages n (cs.map (fun t => t.map (vaff c 0))) (E.map (vaff c 0)) := by
  constructor
  · intro k
    rw [List.length_map, h.1 k]
    constructor
    · rintro ⟨t, ht, hk⟩
      exact ⟨t.map (vaff c 0), List.mem_map.2 ⟨t, ht, rfl⟩, by simpa using hk⟩
    · rintro ⟨t, ht, hk⟩
      obtain ⟨u, hu, rfl⟩ := List.mem_map.1 ht
      exact ⟨u, hu, by simpa using hk⟩
  · intro k row hrow
    rw [List.getElem?_map] at hrow
    cases he : E[k]? with
    | none => rw [he] at hrow; cases hrow
    | some r =>
      rw [he] at hrow
      simp only [Option.map_some, Option.some.injEq] at hrow
      subst hrow
      rw [order_forall₂ rfl]
      apply IsMean.aff (h.2 k r he)
      · intro h0
        obtain ⟨t, ht, hk⟩ := (h.1 k).1 (by have := List.getElem?_eq_some_iff.1 he; exact this.1)
        have : t[k] ∈ order cs k := List.mem_filterMap.2 ⟨t, ht, List.getElem?_eq_getElem hk⟩
        rw [h0] at this
        cases this
      · intro x hx
        obtain ⟨t, ht, hk⟩ := List.mem_filterMap.1 hx
        exact hl t ht x (List.mem_of_getElem? hk)

/-- The object with another configuration of its decomposer. -/
def Obj.withEmd (o : Obj K ρ) (cfg : EMD.Cfg K) : Obj K ρ := { o with emd := { o.emd with cfg := cfg } }

/-- C132: with separated trends, `EEMD` follows a change of the units and of the origin of the signal: when signal, thresholds
and noise are measured in units `c` times smaller and `b` is added, every row but the last is multiplied by `c` and the last row, the trend,
becomes `c * trend + b`.  Proved for simple detection, the stopping rules that count siftings, interpolators that commute with affine maps,
calls that return, and trials whose residue is outside the tolerance of `np.allclose`.  Missing: `separate_trends=False`, where the offset is
spread over several rows (`C132_spread_partial`, `C132_counterexample`), and the default stopping rule (`C74_counterexample`,
`C75_counterexample`). -/
theorem C132_trend_partial (rng : Rng K ρ) (hs : Sized rng) (fuel : Nat) (sp : SciPy K) (ho : EMD.Spec.AffineAll sp) (sched : List Nat)
    (o : Obj K ρ) (cfg' : EMD.Cfg K) (c : K) (hc : 0 < c) (b : K) (hr : ScalesBy c rng) (hu : EMD.Units c o.emd.cfg cfg')
    (hM : b = 0 ∨ 2 ≤ o.emd.cfg.MAX_ITERATION) (hp : b = 0 ∨ o.emd.cfg.totalPowerThr ≤ o.emd.cfg.rangeThr ∨ o.emd.cfg.totalPowerThr ≤ 0)
    (hord : o.cfg.parallel = true → Schedule o.cfg.trials o.cfg.processes sched) (hsep : o.cfg.separateTrends = true)
    (ht : 1 ≤ o.cfg.trials) (S : List K) (T : Option (List K)) (m : Int) (E E' : List (List K)) (o₁ o₂ : Obj K ρ)
    (h : o.eemd rng fuel sp sched S T m = (.ok E, o₁))
    (h' : (o.withEmd cfg').eemd rng fuel sp sched (S.map (fun x => c * x + b)) T m = (.ok E', o₂)) :
    ∃ T' scale noises outs, Ran rng fuel sp o o₁ S T m T' scale noises outs ∧
      (NoFlatTrial c b fuel sp o.emd.cfg S T' m noises →
        ∃ rows trend, E = rows ++ [trend] ∧ E' = rows.map (fun r => r.map (fun x => c * x)) ++ [trend.map (fun x => c * x + b)]) := by
  obtain ⟨T', scale, noises, outs, trends, Ei, trend, h1, h2, h3, h4, h5, -⟩ :=
    C33_separate_trends rng fuel sp sched o o₁ S T m E hs hord hsep ht h
  obtain ⟨T'', scale', noises', outs', trends', Ei', trend', h1', h2', h3', h4', h5', -⟩ :=
    C33_separate_trends rng fuel sp sched (o.withEmd cfg') o₂ (S.map (fun x => c * x + b)) T m E' hs hord hsep ht h'
  refine ⟨T', scale, noises, outs, h1, fun hv => ⟨Ei, trend, h2, ?_⟩⟩
  obtain ⟨-, hT, hn⟩ := Ran.noises_scale hc b hr (o := o) (o₂ := o.withEmd cfg') rfl rfl h1 h1'
  subst hT
  subst hn
  have ha : List.Forall₂ (TrialAff c b true) outs outs' := by
    have g := h1.trial
    have g' := h1'.trial
    rw [hsep] at g
    rw [show (o.withEmd cfg').cfg.separateTrends = true from hsep] at g'
    exact trials_aff hc b ho hu hM hp hv g g'
  have hlen := h1.lengths hs
  have e1 : outs'.map (·.1) = (outs.map (·.1)).map (fun t => t.map (vaff c 0)) := by
    clear h1 h1' h3 h3' h4 h4' hv hlen
    induction ha with
    | nil => rfl
    | cons hx _ ih =>
      obtain ⟨imfs, residue, hx, -⟩ := hx
      obtain ⟨rfl, rfl⟩ := hx rfl
      simp [ih]
  have e2 : outs'.map (·.2) = (outs.map (·.2)).map (fun t => t.map (vaff c b)) := by
    clear h1 h1' h3 h3' h4 h4' hv hlen e1
    induction ha with
    | nil => rfl
    | cons hx _ ih =>
      obtain ⟨imfs, residue, hx, -⟩ := hx
      obtain ⟨rfl, rfl⟩ := hx rfl
      simp [ih]
  have e3 : trends' = trends.map (vaff c b) := by
    rw [h3, h3', List.map_map] at e2
    have : trends'.map some = (trends.map (vaff c b)).map some := by
      rw [e2, List.map_map]
      rfl
    exact List.map_injective_iff.2 (Option.some_injective _) this
  have hS : (S.map (fun x => c * x + b)).length = S.length := by simp
  rw [hS] at h4' h5'
  have e4 : Ei' = Ei.map (vaff c 0) := by
    rw [e1] at h4'
    refine averages_ext h4' (Averages.scale h4 c ?_)
    intro t htm r hrm
    obtain ⟨out, hout, rfl⟩ := List.mem_map.1 htm
    exact (hlen out hout).1 r hrm
  have e5 : trend' = vaff c b trend := by
    rw [e3] at h5'
    refine IsMean.unique h5' (IsMean.aff h5 c b ?_ ?_)
    · rintro rfl
      have := congrArg List.length h3
      simp only [List.length_map, List.length_nil, h1.count] at this
      omega
    · intro x hx
      have : some x ∈ outs.map (·.2) := by rw [h3]; exact List.mem_map.2 ⟨x, hx, rfl⟩
      obtain ⟨out, hout, he⟩ := List.mem_map.1 this
      exact (hlen out hout).2 x he
  rw [h2', e4, e5]
  congr 1
  · apply List.map_congr_left
    intro r _
    simp [vaff]

theorem order_spread (c b : K) (n : Nat) {cs cs' : List (List (List K))} (k i : Nat) (hi : i < n)
    (h : List.Forall₂ (fun t t' => ∃ init last, t = init ++ [last] ∧ t' = init.map (vaff c 0) ++ [vaff c b last] ∧
      ∀ r ∈ t, r.length = n) cs cs') :
    (order cs' k).length = (order cs k).length ∧
    ((order cs' k).map (fun r => r.getD i 0)).sum =
      c * ((order cs k).map (fun r => r.getD i 0)).sum + b * (cs.countP (fun t => t.length = k + 1) : K) := by
  induction h with
  | nil => simp [order]
  | @cons t t' cs cs' ht _ ih =>
    obtain ⟨init, last, rfl, rfl, hl⟩ := ht
    obtain ⟨ih1, ih2⟩ := ih
    unfold order at ih1 ih2 ⊢
    rcases lt_trichotomy k init.length with hk | hk | hk
    · have e1 : (init ++ [last])[k]? = some init[k] := by rw [List.getElem?_append_left hk, List.getElem?_eq_getElem hk]
      have e2 : (init.map (vaff c 0) ++ [vaff c b last])[k]? = some (vaff c 0 init[k]) := by
        rw [List.getElem?_append_left (by simpa using hk), List.getElem?_map, List.getElem?_eq_getElem hk]; rfl
      have e3 : decide ((init ++ [last]).length = k + 1) = false := by simp; omega
      rw [List.filterMap_cons, List.filterMap_cons, e1, e2, List.countP_cons, e3]
      simp only [List.length_cons, List.map_cons, List.sum_cons, ih1, ih2]
      rw [getD_vaff c 0 (by rw [hl _ (List.mem_append_left _ (List.getElem_mem hk))]; exact hi)]
      refine ⟨trivial, ?_⟩
      simp only [Bool.false_eq_true, if_false, add_zero]
      ring
    · subst hk
      have e1 : (init ++ [last])[init.length]? = some last := by simp
      have e2 : (init.map (vaff c 0) ++ [vaff c b last])[init.length]? = some (vaff c b last) := by
        rw [List.getElem?_append_right (by simp)]; simp
      have e3 : decide ((init ++ [last]).length = init.length + 1) = true := by simp
      rw [List.filterMap_cons, List.filterMap_cons, e1, e2, List.countP_cons, e3]
      simp only [List.length_cons, List.map_cons, List.sum_cons, ih1, ih2]
      rw [getD_vaff c b (by rw [hl _ (by simp)]; exact hi)]
      refine ⟨trivial, ?_⟩
      simp only [if_true, Nat.cast_add, Nat.cast_one]
      ring
    · have e1 : (init ++ [last])[k]? = none := by rw [List.getElem?_eq_none]; simp; omega
      have e2 : (init.map (vaff c 0) ++ [vaff c b last])[k]? = none := by rw [List.getElem?_eq_none]; simp; omega
      have e3 : decide ((init ++ [last]).length = k + 1) = false := by simp; omega
      rw [List.filterMap_cons, List.filterMap_cons, e1, e2, List.countP_cons, e3]
      exact ⟨ih1, by simpa using ih2⟩

/-- C132, without separated trends: the offset appears in row `k` with the weight with which trials end at row `k`, i.e. the number of
trials with exactly `k + 1` rows divided by the number of trials with more than `k` rows. -/
theorem C132_spread_partial (rng : Rng K ρ) (hs : Sized rng) (fuel : Nat) (sp : SciPy K) (ho : EMD.Spec.AffineAll sp) (sched : List Nat)
    (o : Obj K ρ) (cfg' : EMD.Cfg K) (c : K) (hc : 0 < c) (b : K) (hr : ScalesBy c rng) (hu : EMD.Units c o.emd.cfg cfg')
    (hM : b = 0 ∨ 2 ≤ o.emd.cfg.MAX_ITERATION) (hp : b = 0 ∨ o.emd.cfg.totalPowerThr ≤ o.emd.cfg.rangeThr ∨ o.emd.cfg.totalPowerThr ≤ 0)
    (hord : o.cfg.parallel = true → Schedule o.cfg.trials o.cfg.processes sched) (hsep : o.cfg.separateTrends = false)
    (S : List K) (T : Option (List K)) (m : Int) (E E' : List (List K)) (o₁ o₂ : Obj K ρ)
    (h : o.eemd rng fuel sp sched S T m = (.ok E, o₁))
    (h' : (o.withEmd cfg').eemd rng fuel sp sched (S.map (fun x => c * x + b)) T m = (.ok E', o₂)) :
    ∃ T' scale noises outs, Ran rng fuel sp o o₁ S T m T' scale noises outs ∧
      (NoFlatTrial c b fuel sp o.emd.cfg S T' m noises →
        E'.length = E.length ∧ ∀ (k : Nat) (row : List K), E[k]? = some row → E'[k]? = some (row.map (fun x => c * x + b *
          ((outs.countP (fun out => out.1.length = k + 1) : K) / (outs.countP (fun out => k < out.1.length) : K))))) := by
  obtain ⟨T', scale, noises, outs, h1, h4⟩ := C31_averages rng fuel sp sched o o₁ S T m E hs hord hsep h
  obtain ⟨T'', scale', noises', outs', h1', h4'⟩ :=
    C31_averages rng fuel sp sched (o.withEmd cfg') o₂ (S.map (fun x => c * x + b)) T m E' hs hord hsep h'
  refine ⟨T', scale, noises, outs, h1, fun hv => ?_⟩
  obtain ⟨-, hT, hn⟩ := Ran.noises_scale hc b hr (o := o) (o₂ := o.withEmd cfg') rfl rfl h1 h1'
  subst hT
  subst hn
  have ha : List.Forall₂ (TrialAff c b false) outs outs' := by
    have g := h1.trial
    have g' := h1'.trial
    rw [hsep] at g
    rw [show (o.withEmd cfg').cfg.separateTrends = false from hsep] at g'
    exact trials_aff hc b ho hu hM hp hv g g'
  have hlen := h1.lengths hs
  have hS : (S.map (fun x => c * x + b)).length = S.length := by simp
  rw [hS] at h4'
  have hf : List.Forall₂ (fun t t' : List (List K) => ∃ init last, t = init ++ [last] ∧ t' = init.map (vaff c 0) ++ [vaff c b last] ∧
      ∀ r ∈ t, r.length = S.length) (outs.map (·.1)) (outs'.map (·.1)) := by
    clear h1 h1' h4 h4' hv
    induction ha with
    | nil => exact .nil
    | @cons out out' _ _ hx _ ih =>
      refine .cons ?_ (ih (fun q hq => hlen q (by simp [hq])))
      obtain ⟨imfs, residue, -, hx⟩ := hx
      obtain ⟨h1, h2⟩ := hx rfl
      exact ⟨imfs, residue, by rw [h1], by rw [h2], (hlen out (by simp)).1⟩
  have hl : E'.length = E.length := by
    have : ∀ k, k < E'.length ↔ k < E.length := by
      intro k
      rw [h4.1 k, h4'.1 k]
      clear h1 h1' h4 h4' hv ha hlen
      generalize outs.map (·.1) = cs, outs'.map (·.1) = cs' at hf ⊢
      induction hf with
      | nil => simp
      | cons hx _ ih =>
        obtain ⟨init, last, rfl, rfl, -⟩ := hx
        simp [ih]
    have h1 := this E.length
    have h2 := this E'.length
    omega
  refine ⟨hl, fun k row hrow => ?_⟩
  have hk : k < E'.length := by rw [hl]; exact (List.getElem?_eq_some_iff.1 hrow).1
  rw [List.getElem?_eq_getElem hk]
  congr 1
  obtain ⟨g1, g2⟩ := h4.2 k row hrow
  obtain ⟨g1', g2'⟩ := h4'.2 k _ (List.getElem?_eq_getElem hk)
  apply List.ext_getElem?
  intro i
  by_cases hi : i < S.length
  · rw [g2' i hi, List.getElem?_map, g2 i hi]
    obtain ⟨e1, e2⟩ := order_spread c b S.length k i hi hf
    simp only [Option.map_some, lit_eq, Rat.cast_natCast, Rat.cast_zero]
    rw [e1, e2, order_length, List.countP_map, List.countP_map]
    congr 1
    simp only [Function.comp_def]
    rw [add_div, mul_div_assoc, mul_div_assoc]
  · rw [List.getElem?_eq_none (by rw [g1']; omega), List.getElem?_eq_none (by simp [g1]; omega)]

/-! ## Concrete cases -/

/-- Three trials with a fixed number of siftings. -/
def sampleAff (sep : Bool) : Obj ℚ Nat :=
  { sampleObj { sampleCfg with separateTrends := sep } with emd := ⟨{ EMD.sampleFixe with totalPowerThr := 0 }, none, none⟩ }

/-- The same decomposer with the range threshold in units of one half. -/
def sampleAffCfg : EMD.Cfg ℚ := { EMD.sampleFixe with totalPowerThr := 2 * 0, rangeThr := 2 * EMD.sampleFixe.rangeThr }

theorem sampleAff_units (sep : Bool) : EMD.Units 2 (sampleAff sep).emd.cfg sampleAffCfg :=
  ⟨rfl, rfl, rfl, rfl, rfl, rfl, rfl, rfl, rfl, .inl (by show (EMD.sampleFixe : EMD.Cfg ℚ).FIXE ≠ 0; decide)⟩

/-- The noises of the three trials, and the check that no trial has a flat residue. -/
def sampleAffTest (c b : ℚ) (S : List ℚ) : Bool :=
  ([1, 8, 15].map (fun r => (sampleRng.normal r ((1 / 4 : ℚ) * 5) 7).1)).all (fun noise =>
    okWith (fun R : EMD.Result ℚ => !allclose0 R.residue && !allclose0 (R.residue.map (fun x => c * x + b)))
      (EMD.emdPure 20 EMD.Spec.strictLinSciPy (sampleAff true).emd.cfg (List.zipWith (fun s x => s + x) S noise)
        (some ((List.range 7).map (fun k : Nat => (k : ℚ)))) (-1)))

/-- Both calls return, with a first row and a trend; the signal is doubled and shifted by 100, and so is the trend. -/
example : sampleAffTest 2 100 sampleS = true ∧
    okWith (fun E => E.map (fun r => r.getD 0 0) == [13 / 24, -7 / 9])
      ((sampleAff true).eemd sampleRng 20 EMD.Spec.strictLinSciPy [] sampleS none (-1)).1 = true ∧
    okWith (fun E => E.map (fun r => r.getD 0 0) == [13 / 12, 886 / 9])
      (((sampleAff true).withEmd sampleAffCfg).eemd sampleRng 20 EMD.Spec.strictLinSciPy [] (sampleS.map (fun x => 2 * x + 100)) none (-1)).1 = true := by
  decide +kernel

example := C132_trend_partial sampleRng sampleRng_sized 20 EMD.Spec.strictLinSciPy EMD.strictLinSciPy_affine [] (sampleAff true) sampleAffCfg 2
  (by norm_num) 100 (sampleRng_scales 2) (sampleAff_units true) (.inr (by decide)) (.inr (.inr (le_refl _))) (fun h => by cases h) rfl (by decide) sampleS none (-1)

/-- The residues of the three trials end at the first row once and at the second row twice. -/
example : sampleAffTest 1 100 sampleS = true ∧
    okWith (fun E => E.map (fun r => r.getD 0 0) == [-1 / 18, -13 / 24])
      ((sampleAff false).eemd sampleRng 20 EMD.Spec.strictLinSciPy [] sampleS none (-1)).1 = true ∧
    okWith (fun E => E.map (fun r => r.getD 0 0) == [-1 / 18 + 100 * (1 / 3), -13 / 24 + 100 * (2 / 2)])
      (((sampleAff false)).eemd sampleRng 20 EMD.Spec.strictLinSciPy [] (sampleS.map (fun x => 1 * x + 100)) none (-1)).1 = true := by
  decide +kernel

example := C132_spread_partial sampleRng sampleRng_sized 20 EMD.Spec.strictLinSciPy EMD.strictLinSciPy_affine [] (sampleAff false)
  (sampleAff false).emd.cfg 1 one_pos 100 (scalesBy_one _)
  ⟨rfl, rfl, rfl, rfl, rfl, rfl, rfl, (one_mul _).symm, (one_mul _).symm, .inl (by decide)⟩ (.inr (by decide)) (.inr (.inr (le_refl _)))
  (fun h => by cases h) rfl sampleS none (-1)

/-- **C132 is false for `separate_trends=False`**, the default: adding a constant changes the first of two rows too. -/
theorem C132_counterexample : ∃ (o : Obj ℚ Nat) (S : List ℚ) (E E' : List (List ℚ)), o.cfg.separateTrends = false ∧
    (o.eemd sampleRng 20 EMD.Spec.strictLinSciPy [] S none (-1)).1 = .ok E ∧
    (o.eemd sampleRng 20 EMD.Spec.strictLinSciPy [] (S.map (fun x => x + 100)) none (-1)).1 = .ok E' ∧ E.length = 2 ∧ E'.length = 2 ∧
    E'.dropLast ≠ E.dropLast := by
  have h : okWith (fun E => okWith (fun E' => decide (E.length = 2 ∧ E'.length = 2 ∧ E'.dropLast ≠ E.dropLast))
      ((sampleAff false).eemd sampleRng 20 EMD.Spec.strictLinSciPy [] (sampleS.map (fun x => x + 100)) none (-1)).1)
      ((sampleAff false).eemd sampleRng 20 EMD.Spec.strictLinSciPy [] sampleS none (-1)).1 = true := by decide +kernel
  obtain ⟨E, h1, h⟩ := okWith_iff.1 h
  obtain ⟨E', h2, h⟩ := okWith_iff.1 h
  obtain ⟨h3, h4, h5⟩ := of_decide_eq_true h
  exact ⟨sampleAff false, sampleS, E, E', rfl, h1, h2, h3, h4, h5⟩

end EEMD
end PyEMD
