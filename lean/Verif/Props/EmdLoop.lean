import Verif.Lemmas.EmdLoop
import Verif.Spec.History
import Verif.Spec.Samples

/-!
# C02, C03, C05 – C12: the loops of `EMD.emd` and the `EMD` object

All theorems in this file are law-free: they hold for every scalar type, IEEE floats included.
-/

set_option linter.unusedSectionVars false

namespace PyEMD
namespace EMD
open Spec

variable {α : Type} [Add α] [Sub α] [Mul α] [Div α] [Neg α] [LT α] [LE α] [BEq α]
  [DecidableLT α] [DecidableLE α] [NpScalar α]

/-- Inversion of a successful method call. -/
theorem Obj.emd_ok {fuel : Nat} {sp : SciPy α} {o o' : Obj α} {S : List α} {T : Option (List α)} {m : Int}
    {rows : List (List α)} (h : o.emd fuel sp S T m = (.ok rows, o')) :
    ∃ r, emdPure fuel sp o.cfg S T m = .ok r ∧ r.rows = rows ∧ o'.imfs = some r.imfs ∧ o'.residue = some r.residue ∧
      o'.cfg = o.cfg := by
  unfold Obj.emd at h
  split at h
  next r hr =>
    simp only [Prod.mk.injEq, Except.ok.injEq] at h
    obtain ⟨h1, rfl⟩ := h
    exact ⟨r, hr, h1, rfl, rfl, rfl⟩
  · simp at h

/-! ## C02 -/

/-- C02: every returned row, every stored component and the stored residue have exactly `len(S)` samples. -/
theorem C02_row_lengths (fuel : Nat) (sp : SciPy α) (o o' : Obj α) (S : List α) (T : Option (List α)) (m : Int)
    (rows : List (List α)) (h : o.emd fuel sp S T m = (.ok rows, o')) :
    (∀ r ∈ rows, r.length = S.length) ∧
    ∃ imfs res, o'.getImfsAndResidue = .ok (imfs, res) ∧ (∀ r ∈ imfs, r.length = S.length) ∧
      res.length = S.length := by
  obtain ⟨r, hr, rfl, h1, h2, -⟩ := Obj.emd_ok h
  have hl := emdPure_imfs_length hr
  obtain ⟨T', rounds, extNo, -, -, hp, rfl⟩ := emdPure_post hr
  have hres : (finish S (rounds.map (·.imf)) extNo).residue.length = S.length := by
    rw [finish_residue, length_vsub, length_sumRows _ _ hl, Nat.min_self]
  refine ⟨fun x hx => ?_, _, _, by simp only [Obj.getImfsAndResidue, h1, h2], hl, hres⟩
  rw [finish_rows] at hx
  split at hx
  · exact hl x hx
  · rcases List.mem_append.1 hx with hx | hx
    · exact hl x hx
    · rw [List.mem_singleton.1 hx]; exact hres

/-! ## C03 -/

/-- C03: the accessor gives `(imfs, res)` with `res = S - sum(imfs)` sample by sample, and the returned rows are
`imfs` when `res` vanishes within tolerance and `imfs` followed by `res` otherwise. -/
theorem C03_rows_vs_stored (fuel : Nat) (sp : SciPy α) (o o' : Obj α) (S : List α) (T : Option (List α)) (m : Int)
    (rows : List (List α)) (h : o.emd fuel sp S T m = (.ok rows, o')) :
    ∃ imfs res, o'.getImfsAndResidue = .ok (imfs, res) ∧ IsResidue S imfs res ∧
      ((Vanishes res ∧ rows = imfs) ∨ (¬ Vanishes res ∧ rows = imfs ++ [res])) := by
  obtain ⟨r, hr, rfl, h1, h2, -⟩ := Obj.emd_ok h
  have hl := emdPure_imfs_length hr
  obtain ⟨T', rounds, extNo, -, -, hp, rfl⟩ := emdPure_post hr
  have hr' := finish_residue S (rounds.map (·.imf)) extNo
  have hrows := finish_rows S (rounds.map (·.imf)) extNo
  generalize finish S (rounds.map (·.imf)) extNo = R at *
  refine ⟨R.imfs, R.residue, by simp only [Obj.getImfsAndResidue, h1, h2], hr' ▸ isResidue_vsub S _ hl, ?_⟩
  rw [hrows]
  by_cases hv : Vanishes R.residue
  · exact .inl ⟨hv, if_pos ((allclose0_iff _).2 hv)⟩
  · exact .inr ⟨hv, if_neg (fun hc => hv ((allclose0_iff _).1 hc))⟩

/-- The hypotheses of C02 and C03 are met, with two stored components and an appended residue. -/
example : ∃ rows o', (Obj.mk sampleCfg none none).emd 20 linSciPy sampleS none (-1) = (.ok rows, o') ∧
    rows.length = 3 ∧ ∃ imfs res, o'.getImfsAndResidue = .ok (imfs, res) ∧ imfs.length = 2 := by
  have h : okWith (fun r => r.rows.length == 3 && r.imfs.length == 2)
      (emdPure 20 linSciPy sampleCfg sampleS none (-1)) = true := by decide +kernel
  obtain ⟨r, hr, h⟩ := okWith_iff.1 h
  simp only [Bool.and_eq_true, beq_iff_eq] at h
  exact ⟨r.rows, ⟨sampleCfg, some r.imfs, some r.residue⟩, by simp only [Obj.emd, hr], h.1, _, _, rfl, h.2⟩

/-! ## C05 -/

theorem cfg_run (sp : SciPy α) (o : Obj α) (h : List (Op α)) : (o.run sp h).cfg = cfgAfter o.cfg h := by
  induction h generalizing o with
  | nil => rfl
  | cons op h ih =>
    have hrun : o.run sp (op :: h) = ((o.step sp op).2).run sp h := rfl
    rw [hrun, ih]
    cases op with
    | emd fuel S T m =>
      simp only [Obj.step, cfgAfter]
      congr 1
      unfold Obj.emd
      split <;> rfl
    | setCfg c => rfl
    | getImfsAndResidue => rfl
    | getImfsAndTrend => rfl

theorem run_append (sp : SciPy α) (o : Obj α) (h1 h2 : List (Op α)) :
    o.run sp (h1 ++ h2) = (o.run sp h1).run sp h2 := by
  simp [Obj.run]

theorem Spec.NoSuccess.cons {sp : SciPy α} {cfg : Cfg α} {op : Op α} {h : List (Op α)} (hn : NoSuccess sp cfg (op :: h)) :
    NoSuccess sp (cfgAfter cfg [op]) h := by
  intro h1 fuel S T m h2 heq r hr
  refine hn (op :: h1) fuel S T m h2 (by simp [heq]) r ?_
  cases op <;> simpa [cfgAfter] using hr

theorem run_noSuccess (sp : SciPy α) (o : Obj α) (h : List (Op α)) (hn : NoSuccess sp o.cfg h) :
    (o.run sp h).imfs = o.imfs ∧ (o.run sp h).residue = o.residue := by
  induction h generalizing o with
  | nil => exact ⟨rfl, rfl⟩
  | cons op h ih =>
    have hrun : o.run sp (op :: h) = ((o.step sp op).2).run sp h := rfl
    have hc : ((o.step sp op).2).cfg = cfgAfter o.cfg [op] := cfg_run sp o [op]
    obtain ⟨h1, h2⟩ := ih (o.step sp op).2 (hc ▸ Spec.NoSuccess.cons hn)
    rw [hrun, h1, h2]
    cases op with
    | emd fuel S T m =>
      have := hn [] fuel S T m h rfl
      simp only [Obj.step]
      unfold Obj.emd
      split
      next r hr => exact absurd hr (this r)
      next => exact ⟨rfl, rfl⟩
    | setCfg c => exact ⟨rfl, rfl⟩
    | getImfsAndResidue => exact ⟨rfl, rfl⟩
    | getImfsAndTrend => exact ⟨rfl, rfl⟩

/-- C05, first half: as long as no decomposition has succeeded, both accessors raise `ValueError`. -/
theorem C05_accessors_before_success (sp : SciPy α) (cfg : Cfg α) (o : Obj α) (hnew : Obj.new cfg = .ok o)
    (h : List (Op α)) (hn : NoSuccess sp cfg h) :
    (o.run sp h).getImfsAndResidue = .error .valueError ∧ (o.run sp h).getImfsAndTrend = .error .valueError := by
  unfold Obj.new at hnew
  split at hnew
  · cases hnew
    obtain ⟨h1, h2⟩ := run_noSuccess sp { cfg, imfs := none, residue := none } h hn
    have : (Obj.run sp { cfg, imfs := none, residue := none } h).getImfsAndResidue = .error .valueError := by
      simp [Obj.getImfsAndResidue, h1]
    refine ⟨this, ?_⟩
    simp only [Obj.getImfsAndTrend, this]
    rfl
  · cases hnew

/-- C05, second half: after any history in which a decomposition succeeded with result `R` and no later one
succeeded, `get_imfs_and_residue` reports the components of `R`, and `get_imfs_and_trend` does not raise
`ValueError` and depends on `R` only. -/
theorem C05_accessors_after_success (sp : SciPy α) (o : Obj α) (h1 h2 : List (Op α)) (fuel : Nat) (S : List α)
    (T : Option (List α)) (m : Int) (R : Result α)
    (hR : emdPure fuel sp (cfgAfter o.cfg h1) S T m = .ok R) (hn : NoSuccess sp (cfgAfter o.cfg h1) h2) :
    (o.run sp (h1 ++ Op.emd fuel S T m :: h2)).getImfsAndResidue = .ok (R.imfs, R.residue) ∧
    (o.run sp (h1 ++ Op.emd fuel S T m :: h2)).getImfsAndTrend =
      (Obj.mk o.cfg (some R.imfs) (some R.residue)).getImfsAndTrend ∧
    (o.run sp (h1 ++ Op.emd fuel S T m :: h2)).getImfsAndTrend ≠ .error .valueError := by
  have hstep : (o.run sp (h1 ++ Op.emd fuel S T m :: h2)) =
      (Obj.mk (cfgAfter o.cfg h1) (some R.imfs) (some R.residue)).run sp h2 := by
    rw [run_append]
    show Obj.run sp (((o.run sp h1).step sp (.emd fuel S T m)).2) h2 = _
    congr 1
    simp only [Obj.step, Obj.emd, cfg_run, hR]
  obtain ⟨h3, h4⟩ := run_noSuccess sp (Obj.mk (cfgAfter o.cfg h1) (some R.imfs) (some R.residue)) h2 hn
  have h5 : (o.run sp (h1 ++ Op.emd fuel S T m :: h2)).getImfsAndResidue = .ok (R.imfs, R.residue) := by
    rw [hstep]; simp [Obj.getImfsAndResidue, h3, h4]
  have h6 : (Obj.mk o.cfg (some R.imfs) (some R.residue)).getImfsAndResidue = .ok (R.imfs, R.residue) := rfl
  refine ⟨h5, by unfold Obj.getImfsAndTrend; rw [h5, h6], ?_⟩
  unfold Obj.getImfsAndTrend
  rw [h5]
  intro hc
  simp only [bind, Except.bind] at hc
  split at hc
  · split at hc
    next e he =>
      cases hc
      unfold pyGet at he
      split at he
      · cases he
      · split at he <;> cases he
    · cases hc
  · cases hc

/-- A history with a success, a configuration change, and a raising call after it. -/
example : ∃ R, emdPure 20 linSciPy (cfgAfter sampleFixe [Op.setCfg sampleCfg]) sampleS none (-1) = .ok R ∧
    NoSuccess linSciPy (cfgAfter sampleFixe [Op.setCfg sampleCfg])
      [Op.getImfsAndTrend, Op.emd 20 sampleS (some [1]) 3] := by
  have h : okWith (fun _ => true) (emdPure 20 linSciPy sampleCfg sampleS none (-1)) = true := by decide +kernel
  obtain ⟨r, hr, -⟩ := okWith_iff.1 h
  refine ⟨r, hr, ?_⟩
  intro h1 fuel S T m h2 heq r' hr'
  have he : errIs .valueError (emdPure 20 linSciPy sampleCfg sampleS (some [1]) 3) = true := by decide +kernel
  rw [errIs_iff] at he
  match h1, heq with
  | [_], heq =>
    simp only [List.cons_append, List.nil_append, List.cons.injEq, Op.emd.injEq] at heq
    obtain ⟨rfl, ⟨rfl, rfl, rfl, rfl⟩, rfl⟩ := heq
    simp only [cfgAfter] at hr'
    rw [he] at hr'
    cases hr'
  | _ :: _ :: _, heq => simp at heq
  | [], heq => simp at heq

/-! ## C06 -/

/-- C06: what `emd(S, T, max_imf)` returns (rows or exception) after any history on any object is what a freshly
configured decomposition returns: it depends on the arguments and on the current configuration only. -/
theorem C06_history_independent (sp : SciPy α) (o : Obj α) (h : List (Op α)) (fuel : Nat) (S : List α)
    (T : Option (List α)) (m : Int) :
    ((o.run sp h).emd fuel sp S T m).1 = ((Obj.mk (cfgAfter o.cfg h) none none).emd fuel sp S T m).1 := by
  unfold Obj.emd
  rw [cfg_run]
  dsimp only
  split <;> rfl

example : ((Obj.mk sampleFixe none none).run linSciPy [.emd 20 sampleS none 1, .setCfg sampleCfg]).emd 20 linSciPy
    sampleS none (-1) |>.1 |> okWith (fun r => r.length == 3) := by decide +kernel

/-! ## C07 -/

/-- C07: with `max_imf = k ≥ 1` at most `k` components are extracted (rounds of the outer loop), at most `k` are
stored and at most `k + 1` rows are returned. -/
theorem C07_max_imf_bound (fuel : Nat) (sp : SciPy α) (cfg : Cfg α) (S : List α) (T : Option (List α)) (k : Nat)
    (hk : 1 ≤ k) (R : Result α) (h : emdPure fuel sp cfg S T k = .ok R) :
    (∃ rounds e, emdRounds fuel sp cfg S T k = .ok (rounds, e) ∧ rounds.length ≤ k) ∧
    R.imfs.length ≤ k ∧ R.rows.length ≤ k + 1 := by
  obtain ⟨T', rounds, extNo, -, hr, hp, rfl⟩ := emdPure_post h
  have hle := hp.length_le (by omega)
  have h1 : (finish S (rounds.map (·.imf)) extNo).imfs.length ≤ k := by
    have := (finish_imfs_prefix S (rounds.map (·.imf)) extNo).2
    rw [List.length_map] at this
    omega
  refine ⟨⟨rounds, extNo, hr, by omega⟩, h1, ?_⟩
  rw [finish_rows]
  split
  · omega
  · rw [List.length_append, List.length_singleton]; omega

/-- C07, termination: `k` rounds of the outer loop always suffice, i.e. the call returns or raises. -/
theorem C07_max_imf_terminates (fuel : Nat) (sp : SciPy α) (cfg : Cfg α) (S : List α) (T : Option (List α)) (k : Nat)
    (hk : 1 ≤ k) (hf : k ≤ fuel) : emdPure fuel sp cfg S T k ≠ .error .outOfFuel := by
  unfold emdPure emdRounds
  refine NoFuel.bind (NoFuel.bind (prepareTime_noFuel _ _ _) fun T' _ => ?_) fun _ _ => .pure _
  exact emdLoop_noFuel sp cfg T' S k fuel [] (-1) (by simp; omega) (by simp; omega)

/-- The bound is attained: two rows for `max_imf = 1`. -/
example : okWith (fun R => R.imfs.length == 1 && R.rows.length == 2)
    (emdPure 1 linSciPy sampleCfg sampleS none (1 : Nat)) = true := by decide +kernel

/-! ## C08 -/

/-- C08: the `j`-th extracted component is the result of `m` envelope-mean subtractions, starting from what the
components before it leave over, with `m ≤ MAX_ITERATION - 1` (and `m = 0` when `MAX_ITERATION ≤ 1`). -/
theorem C08_sift_bound (fuel : Nat) (sp : SciPy α) (cfg : Cfg α) (S : List α) (T : Option (List α)) (mi : Int)
    (rounds : List (Round α)) (e : Int) (h : emdRounds fuel sp cfg S T mi = .ok (rounds, e)) :
    ∃ T', prepareTime cfg S T = .ok T' ∧ ∀ j r, rounds[j]? = some r →
      ∃ x seq m, IsResidue S ((rounds.take j).map (·.imf)) x ∧ SiftPath sp cfg T' m x r.imf seq ∧
        (m : Int) ≤ max 0 (cfg.MAX_ITERATION - 1) := by
  obtain ⟨T', hT, hp⟩ := emdRounds_post h
  refine ⟨T', hT, fun j r hr => ?_⟩
  obtain ⟨e', ⟨s, seq, r', h1, h2, h3, h4, h5⟩, -⟩ := hp.ok j (List.getElem?_eq_some_iff.1 hr).1
  rw [hr] at h1
  cases h1
  refine ⟨_, seq, s.subs, isResidue_vsub S _ ?_, h3 ▸ h2.path, ?_⟩
  · intro x hx
    obtain ⟨r'', hr'', rfl⟩ := List.mem_map.1 hx
    exact hp.length r'' (List.mem_of_mem_take hr'')
  · rcases h2.bound with h | h <;> omega

/-- C08, termination: extracting one component never needs more than `MAX_ITERATION` passes of the loop, whatever
the signal and the components extracted before. -/
theorem C08_sift_terminates (sp : SciPy α) (cfg : Cfg α) (T x : List α) (passes : Nat) (e : Int)
    (hp : max 1 cfg.MAX_ITERATION ≤ (passes : Int)) :
    siftLoop sp cfg T passes { n := 0, nh := 0, extNo := e, imf := x, subs := 0 } ≠ .error .outOfFuel := by
  exact siftLoop_terminates sp cfg T x passes _ _ (siftInv_start _ _ _ _ _) (by simp only; omega) (by omega)

example : okWith (fun p => p.1.length == 3) (emdRounds 20 linSciPy sampleCfg sampleS none (-1)) = true := by
  decide +kernel

/-! ## C09, C10 -/

/-- Everything known about a stored component. -/
theorem stored_component {fuel : Nat} {sp : SciPy α} {cfg : Cfg α} {S : List α} {T : Option (List α)} {mi : Int}
    {R : Result α} (h : emdPure fuel sp cfg S T mi = .ok R) :
    ∃ T', prepareTime cfg S T = .ok T' ∧ ∀ j c, R.imfs[j]? = some c →
      ∃ x s why seq, IsResidue S (R.imfs.take j) x ∧ s.imf = c ∧ SiftPost sp cfg T' x s why seq ∧ why ≠ .trend := by
  have hl := emdPure_imfs_length h
  obtain ⟨T', rounds, extNo, hT, -, hp, rfl⟩ := emdPure_post h
  refine ⟨T', hT, fun j c hc => ?_⟩
  have hjlt := (List.getElem?_eq_some_iff.1 hc).1
  have hres : IsResidue S ((finish S (rounds.map (·.imf)) extNo).imfs.take j)
      (vsub S (sumRows S.length ((finish S (rounds.map (·.imf)) extNo).imfs.take j))) :=
    isResidue_vsub S _ (fun x hx => hl x (List.mem_of_mem_take hx))
  have hlen := finish_imfs_length S (rounds.map (·.imf)) extNo
  rw [(finish_imfs_prefix _ _ _).1, List.getElem?_take, if_pos hjlt, List.getElem?_map, Option.map_eq_some_iff] at hc
  obtain ⟨r, hr, rfl⟩ := hc
  have hj := (List.getElem?_eq_some_iff.1 hr).1
  obtain ⟨e', ⟨s, seq, r', h1, h2, h3, h4, h5⟩, -⟩ := hp.ok j hj
  rw [hr] at h1
  cases h1
  rw [(finish_imfs_prefix _ _ _).1, List.take_take, Nat.min_eq_left hjlt.le] at hres ⊢
  rw [← List.map_take] at hres ⊢
  refine ⟨_, s, r.why, seq, hres, h3.symm, h2, fun ht => ?_⟩
  obtain ⟨h6, h7⟩ := hp.trend_last hr ht
  rw [if_pos h7, List.length_map] at hlen
  omega

/-- C09: with `FIXE = k`, `0 < k < MAX_ITERATION`, every reported component is obtained from what the components
before it leave over by exactly `k` envelope-mean subtractions. -/
theorem C09_fixe_exact (fuel : Nat) (sp : SciPy α) (cfg : Cfg α) (S : List α) (T : Option (List α)) (mi : Int)
    (R : Result α) (k : Nat) (hk : 0 < k) (hF : cfg.FIXE = k) (hM : (k : Int) < cfg.MAX_ITERATION)
    (h : emdPure fuel sp cfg S T mi = .ok R) :
    ∃ T', prepareTime cfg S T = .ok T' ∧ ∀ j c, R.imfs[j]? = some c →
      ∃ x seq, IsResidue S (R.imfs.take j) x ∧ SiftPath sp cfg T' k x c seq := by
  obtain ⟨T', hT, hs⟩ := stored_component h
  refine ⟨T', hT, fun j c hc => ?_⟩
  obtain ⟨x, s, why, seq, h1, rfl, h2, h3⟩ := hs j c hc
  suffices hsub : s.subs = k from ⟨x, seq, h1, hsub ▸ h2.path⟩
  cases why with
  | maxIter =>
    have := h2.maxIter rfl
    have := h2.fixe' (by omega)
    omega
  | fixe =>
    have := (h2.fixe rfl).2 (by omega)
    omega
  | fixeH => have := (h2.fixeH rfl).1; omega
  | converged => have := (h2.converged rfl).1; omega
  | trend => exact absurd rfl h3

example : okWith (fun R => R.imfs.length == 2) (emdPure 20 linSciPy sampleFixe sampleS none (-1)) = true ∧
    sampleFixe.FIXE = (2 : Nat) ∧ ((2 : Nat) : Int) < sampleFixe.MAX_ITERATION := by decide +kernel

/-- C10: with `FIXE = 0` every reported component comes from a series of `m` envelope-mean subtractions that either
ran into `MAX_ITERATION`, or (default mode) ended with numbers of extrema and zero crossings differing by at most
one, or (`FIXE_H = k > 0`) the last `k` proto-components were all like that. -/
theorem C10_exit_condition (fuel : Nat) (sp : SciPy α) (cfg : Cfg α) (S : List α) (T : Option (List α)) (mi : Int)
    (R : Result α) (hF : cfg.FIXE = 0) (hH : 0 ≤ cfg.FIXE_H) (h : emdPure fuel sp cfg S T mi = .ok R) :
    ∃ T', prepareTime cfg S T = .ok T' ∧ ∀ j c, R.imfs[j]? = some c →
      ∃ x seq m, IsResidue S (R.imfs.take j) x ∧ SiftPath sp cfg T' m x c seq ∧
        (cfg.MAX_ITERATION ≤ (m : Int) + 1 ∨
         (cfg.FIXE_H = 0 ∧ 1 ≤ m ∧ ImfLike cfg T' c) ∨
         (0 < cfg.FIXE_H ∧ cfg.FIXE_H + 1 ≤ (m : Int) ∧ ∀ z ∈ seq.take cfg.FIXE_H.toNat, ImfLike cfg T' z)) := by
  obtain ⟨T', hT, hs⟩ := stored_component h
  refine ⟨T', hT, fun j c hc => ?_⟩
  obtain ⟨x, s, why, seq, h1, rfl, h2, h3⟩ := hs j c hc
  refine ⟨x, seq, s.subs, h1, h2.path, ?_⟩
  cases why with
  | maxIter => exact .inl (h2.maxIter rfl)
  | fixe => exact absurd hF (h2.fixe rfl).1
  | fixeH =>
    obtain ⟨_, h4, h5⟩ := h2.fixeH rfl
    have : 0 < cfg.FIXE_H := by omega
    exact .inr (.inr ⟨this, h5 this⟩)
  | converged =>
    obtain ⟨_, h4, h5, h6, -⟩ := h2.converged rfl
    exact .inr (.inl ⟨h4, h5, h6⟩)
  | trend => exact absurd rfl h3

/-- Default mode and `FIXE_H = 2`, both ending before the iteration limit. -/
example : okWith (fun R => R.imfs.length == 2) (emdPure 20 linSciPy sampleCfg sampleS none (-1)) = true ∧
    okWith (fun R => R.imfs.length == 2) (emdPure 20 linSciPy sampleFixeH sampleS none (-1)) = true ∧
    sampleFixeH.FIXE = 0 ∧ 0 < sampleFixeH.FIXE_H := by decide +kernel

/-- C60: with `FIXE = FIXE_H = 0`, every reported component `c` whose sifting did not run into `MAX_ITERATION` was accepted by
`check_imf`, which had been given `c`, the proto-component `old` one subtraction before it, and the envelope knots of the
maxima and of the minima of `old`, in this order.  Law-free. -/
theorem C60_accepted_by_check (fuel : Nat) (sp : SciPy α) (cfg : Cfg α) (S : List α) (T : Option (List α)) (mi : Int)
    (R : Result α) (hF : cfg.FIXE = 0) (hH : cfg.FIXE_H = 0) (h : emdPure fuel sp cfg S T mi = .ok R) :
    ∃ T', prepareTime cfg S T = .ok T' ∧ ∀ j c, R.imfs[j]? = some c →
      ∃ x seq m, IsResidue S (R.imfs.take j) x ∧ SiftPath sp cfg T' m x c seq ∧
        (cfg.MAX_ITERATION ≤ (m : Int) + 1 ∨
         ∃ old rest e kmax kmin, seq = c :: old :: rest ∧ findExtrema cfg.detection T' old = .ok e ∧
          preparePoints cfg.detection cfg.nbsym T' old e = .ok (kmax, kmin) ∧ checkImf cfg c old kmax kmin = .ok true) := by
  obtain ⟨T', hT, hs⟩ := stored_component h
  refine ⟨T', hT, fun j c hc => ?_⟩
  obtain ⟨x, s, why, seq, h1, rfl, h2, h3⟩ := hs j c hc
  refine ⟨x, seq, s.subs, h1, h2.path, ?_⟩
  cases why with
  | maxIter => exact .inl (h2.maxIter rfl)
  | fixe => exact absurd hF (h2.fixe rfl).1
  | fixeH => exact absurd hH (h2.fixeH rfl).2.1
  | converged =>
    obtain ⟨_, h4, h5, h6, h7⟩ := h2.converged rfl
    exact .inr h7
  | trend => exact absurd rfl h3

/-- Both components of the sample are accepted within the limit of six iterations. -/
example : okWith (fun R => R.imfs.length == 2) (emdPure 20 linSciPy sampleCfg sampleS none (-1)) = true ∧
    sampleCfg.FIXE = 0 ∧ sampleCfg.FIXE_H = 0 := by decide +kernel

/-! ## C11 -/

theorem vsub_vzeros (hsub : ∀ x : α, x - lit 0 = x) (S : List α) : vsub S (vzeros S.length) = S := by
  apply List.ext_getElem
  · simp
  · intro i h1 h2
    simp [vsub, vzeros, hsub]

theorem endCondition_ok (cfg : Cfg α) (S : List α) (hS : S ≠ []) (IMF : List (List α))
    (h : ∀ x ∈ IMF, x.length = S.length) : ∃ b, endCondition cfg S IMF = .ok b := by
  unfold endCondition
  have hne : (vsub S (sumRows S.length IMF)).isEmpty = false := by
    rw [List.isEmpty_eq_false_iff, ← List.length_pos_iff, length_vsub, length_sumRows _ _ h, Nat.min_self]
    exact List.length_pos_iff.2 hS
  simp only [npMaxE, npMinE, hne, Bool.false_eq_true, if_false]
  simp only [bind, Except.bind]
  split
  · exact ⟨_, rfl⟩
  · split
    · exact ⟨_, rfl⟩
    · exact ⟨_, rfl⟩

theorem prepareTime_ne_nil {cfg : Cfg α} {S : List α} {T : Option (List α)} {T' : List α}
    (h : prepareTime cfg S T = .ok T') : S ≠ [] := by
  rintro rfl
  unfold prepareTime at h
  split at h
  next T0 =>
    split at h
    · cases h
    next hl =>
      have hT0 : T0 = [] := by
        simp only [ne_eq, Decidable.not_not, List.length_nil] at hl
        exact List.eq_nil_of_length_eq_zero hl.symm
      subst hT0
      split at h
      · rw [bind_eq_ok] at h; obtain ⟨_, h1, _⟩ := h; simp [timeline] at h1
      · unfold normalizeTime at h
        dsimp only at h
        split at h
        · rw [bind_eq_ok] at h; obtain ⟨_, h1, _⟩ := h; simp [pyGet, pyIdx] at h1
        · cases h
  · rw [bind_eq_ok] at h; obtain ⟨_, h1, _⟩ := h; simp [timeline] at h1

/-- C11: a signal with at most two extrema is returned untouched: no component, residue `S`, and the only row is `S`
(no row if `S` vanishes within tolerance).  `hsub` (`x - 0 = x`) holds in exact and in IEEE arithmetic. -/
theorem C11_few_extrema (hsub : ∀ x : α, x - lit 0 = x) (fuel : Nat) (sp : SciPy α) (o : Obj α) (S : List α)
    (T : Option (List α)) (T' : List α) (mi : Int) (hfuel : 1 ≤ fuel) (hM : 2 ≤ o.cfg.MAX_ITERATION)
    (hT : prepareTime o.cfg S T = .ok T') (hfew : FewExtrema o.cfg T' S) :
    ∃ rows o', o.emd fuel sp S T mi = (.ok rows, o') ∧ o'.getImfsAndResidue = .ok ([], S) ∧
      ((Vanishes S ∧ rows = []) ∨ (¬ Vanishes S ∧ rows = [S])) := by
  obtain ⟨fuel, rfl⟩ : ∃ f, fuel = f + 1 := ⟨fuel - 1, by omega⟩
  obtain ⟨e, he, hle⟩ := hfew
  have hz : vsub S (sumRows S.length []) = S := vsub_vzeros hsub S
  have hround : emdRound sp o.cfg T' S [] (-1) =
      .ok ({ n := 1, nh := 0, extNo := (e.minPos.length : Int) + (e.maxPos.length : Int), imf := S, subs := 0 },
        .trend) := by
    unfold emdRound siftFuel
    rw [siftLoop]
    have hb : siftBody sp o.cfg T' { n := 0, nh := 0, extNo := -1, imf := S, subs := 0 } =
        .ok (.brk { n := 1, nh := 0, extNo := (e.minPos.length : Int) + (e.maxPos.length : Int), imf := S, subs := 0 }
          .trend) := by
      unfold siftBody
      simp only [countExt, he, bind, Except.bind, pure, Except.pure]
      rw [if_neg (by simp only [Int.zero_add]; omega)]
      simp only [Int.zero_add]
      rw [if_neg (by omega)]
    rw [hz, hb]
    rfl
  have hne := prepareTime_ne_nil hT
  obtain ⟨b, hb⟩ := endCondition_ok o.cfg S hne [S] (by simp)
  have hrounds : emdRounds (fuel + 1) sp o.cfg S T mi = .ok ([{ imf := S, why := .trend, subs := 0, nh := 0 }],
      (e.minPos.length : Int) + (e.maxPos.length : Int)) := by
    unfold emdRounds
    rw [hT]
    simp only [bind, Except.bind]
    rw [emdLoop]
    simp only [List.map_nil, hround, bind, Except.bind, List.nil_append, List.map_cons, hb]
    simp [pure, Except.pure]
  have hfin : emdPure (fuel + 1) sp o.cfg S T mi =
      .ok { rows := if allclose0 S then [] else [S], imfs := [], residue := S } := by
    unfold emdPure
    rw [hrounds]
    simp only [bind, Except.bind, pure, Except.pure, finish]
    have hle' : (e.minPos.length : Int) + (e.maxPos.length : Int) ≤ 2 := by omega
    simp [hle', hz]
  refine ⟨if allclose0 S then [] else [S], ⟨o.cfg, some [], some S⟩, by simp only [Obj.emd, hfin], rfl, ?_⟩
  by_cases hv : Vanishes S
  · exact .inl ⟨hv, if_pos ((allclose0_iff _).2 hv)⟩
  · exact .inr ⟨hv, if_neg (fun hc => hv ((allclose0_iff _).1 hc))⟩

/-- A signal with one maximum and one minimum, in both detection modes. -/
example : (∃ T', prepareTime (Cfg.default : Cfg ℚ) [0, 2, 1, 3] none = .ok T' ∧
      FewExtrema Cfg.default T' [0, 2, 1, 3]) ∧
    (∃ T', prepareTime { (Cfg.default : Cfg ℚ) with detection := .parabol } [0, 2, 1, 3] (some [0, 1, 3, 4]) = .ok T' ∧
      FewExtrema { Cfg.default with detection := .parabol } T' [0, 2, 1, 3]) := by
  have h1 : prepareTime (Cfg.default : Cfg ℚ) [0, 2, 1, 3] none = .ok [0, 1, 2, 3] := by decide +kernel
  have h2 : prepareTime { (Cfg.default : Cfg ℚ) with detection := .parabol } [0, 2, 1, 3] (some [0, 1, 3, 4]) =
      .ok [0, 1, 3, 4] := by decide +kernel
  have h3 : okWith (fun e => decide (e.maxPos.length + e.minPos.length ≤ 2) && e.maxPos.length == 1)
    (findExtrema .simple [0, 1, 2, 3] ([0, 2, 1, 3] : List ℚ)) = true := by decide +kernel
  have h4 : okWith (fun e => decide (e.maxPos.length + e.minPos.length ≤ 2) && e.maxPos.length == 1)
    (findExtrema .parabol [0, 1, 3, 4] ([0, 2, 1, 3] : List ℚ)) = true := by decide +kernel
  obtain ⟨e3, h3, h3'⟩ := okWith_iff.1 h3
  obtain ⟨e4, h4, h4'⟩ := okWith_iff.1 h4
  simp only [Bool.and_eq_true, decide_eq_true_eq] at h3' h4'
  exact ⟨⟨_, h1, e3, h3, h3'.1⟩, ⟨_, h2, e4, h4, h4'.1⟩⟩

/-! ## C12 -/

/-- C12: with simple detection the time array does not matter: rows, exceptions and the stored results are those of
`T = None`, for every time array of the right length. -/
theorem C12_simple_ignores_time (fuel : Nat) (sp : SciPy α) (o : Obj α) (S T : List α) (mi : Int)
    (hd : o.cfg.detection = .simple) (hl : T.length = S.length) :
    o.emd fuel sp S (some T) mi = o.emd fuel sp S none mi := by
  have : prepareTime o.cfg S (some T) = prepareTime o.cfg S none := by
    simp [prepareTime, hd, hl]
  unfold Obj.emd emdPure emdRounds
  rw [this]

/-- A time array of the wrong length is refused in every mode, and the object is left as it was. -/
theorem C12_wrong_length (fuel : Nat) (sp : SciPy α) (o : Obj α) (S T : List α) (mi : Int)
    (hl : T.length ≠ S.length) : o.emd fuel sp S (some T) mi = (.error .valueError, o) := by
  have : prepareTime o.cfg S (some T) = .error .valueError := by
    simp [prepareTime, Ne.symm hl]
  unfold Obj.emd emdPure emdRounds
  rw [this]
  rfl

/-- An unsorted time array with repetitions. -/
example : okWith (fun r => r.rows.length == 3)
    (emdPure 20 linSciPy sampleCfg sampleS (some [5, 5, 3, 0, 0, 9, 1, 1, 2, 8]) (-1)) = true := by decide +kernel

end EMD
end PyEMD
