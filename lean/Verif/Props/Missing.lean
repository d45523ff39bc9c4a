import Verif.Spec.Missing
import Verif.Props.EmdLoop
import Verif.Props.Eemd
import Verif.Model.Scipy
import Verif.Lemmas.Runs
import Verif.Spec.EemdSamples

/-!
# C111: missing samples
-/

set_option linter.unusedSectionVars false

namespace PyEMD

variable {α ρ : Type} [Add α] [Sub α] [Mul α] [Div α] [Neg α] [LT α] [LE α] [BEq α]
  [DecidableLT α] [DecidableLE α] [NpScalar α]

namespace EMD
open Spec

theorem missing_sift {z : α} (hz : ∀ x, z - x = z) {sp : SciPy α} {cfg : Cfg α} {T x : List α} {seq : List (List α)}
    (h : SiftSeq sp cfg T seq) (i : Nat) (hx : seq.getLast? = some x) (hi : x[i]? = some z) : ∀ y ∈ seq, y[i]? = some z := by
  induction h with
  | start a => simp at hx; simp [hx, hi]
  | step h1 h2 ih =>
    rw [List.getLast?_cons_cons] at hx
    have := ih hx
    intro y hy
    rcases List.mem_cons.1 hy with rfl | hy
    · obtain ⟨env, -, -, hv⟩ := h2
      have hx' := this _ List.mem_cons_self
      obtain ⟨xi, u, l, e1, -, -, e2⟩ := hv i (List.getElem?_eq_some_iff.1 hx').1
      rw [hx'] at e1
      cases e1
      rw [e2, hz]
    · exact this _ hy

theorem missing_residue {z : α} (hz : ∀ x, z - x = z) {S : List α} {rows : List (List α)} {r : List α} (h : IsResidue S rows r) {i : Nat}
    (hi : S[i]? = some z) : r[i]? = some z := by
  obtain ⟨s, e1, e2⟩ := h.2 i (List.getElem?_eq_some_iff.1 hi).1
  rw [hi] at e1
  cases e1
  rw [e2, hz]

theorem missing_stored {z : α} (hz : ∀ x, z - x = z) {fuel : Nat} {sp : SciPy α} {cfg : Cfg α} {S : List α} {T : Option (List α)} {m : Int}
    {R : Result α} (h : emdPure fuel sp cfg S T m = .ok R) {i : Nat} (hi : S[i]? = some z) : ∀ c ∈ R.imfs, c[i]? = some z := by
  obtain ⟨T', -, hs⟩ := stored_component h
  intro c hc
  obtain ⟨j, hj⟩ := List.getElem?_of_mem hc
  obtain ⟨x, s, why, seq, h1, rfl, h2, -⟩ := hs j c hj
  obtain ⟨p1, -, p3, p4⟩ := h2.path
  exact missing_sift hz p1 i p4 (missing_residue hz h1 hi) _ (List.mem_of_mem_head? p3)

/-- **C111, what holds of `EMD`.**  A missing sample is missing in every row, in every stored component and in the residue: `EMD` never fills a gap.
The only law needed is `NaN - x = NaN`. -/
theorem C111_kept_partial {z : α} (hz : ∀ x, z - x = z) (fuel : Nat) (sp : SciPy α) (o o' : Obj α) (S : List α) (T : Option (List α)) (m : Int)
    (rows : List (List α)) (h : o.emd fuel sp S T m = (.ok rows, o')) (i : Nat) (hi : S[i]? = some z) :
    (∀ r ∈ rows, r[i]? = some z) ∧
    ∃ imfs res, o'.getImfsAndResidue = .ok (imfs, res) ∧ (∀ c ∈ imfs, c[i]? = some z) ∧ res[i]? = some z := by
  obtain ⟨imfs, res, h1, h2, h3⟩ := C03_rows_vs_stored fuel sp o o' S T m rows h
  obtain ⟨R, hR, -, hi1, hi2, -⟩ := Obj.emd_ok h
  have hst : ∀ c ∈ imfs, c[i]? = some z := by
    have := missing_stored hz hR hi
    have e := h1
    simp only [Obj.getImfsAndResidue, hi1, hi2, Except.ok.injEq, Prod.mk.injEq] at e
    rwa [e.1] at this
  have hres := missing_residue hz h2 hi
  refine ⟨?_, imfs, res, h1, hst, hres⟩
  rcases h3 with ⟨-, rfl⟩ | ⟨-, rfl⟩
  · exact hst
  · intro r hr
    rcases List.mem_append.1 hr with hr | hr
    · exact hst r hr
    · rw [List.mem_singleton] at hr
      subst hr
      exact hres

/-- A wave with one missing sample. -/
def gapWave : List Gappy :=
  [.num 0, .num 3, .num (-1), .num 2, .num (-2), .num 1, .num (-3), .num 4, .nan, .num 2, .num 1, .num 3, .num (-1), .num 1]

/-- Three pulses of height one on a base line whose lowest samples are missing. -/
def gapPulses : List Gappy := [.num 0, .num 1, .num 0, .nan, .num 0, .num 1, .num 0, .nan, .num 0, .num 1, .num 0]

/-- One sifting per component. -/
def gapCfg : Cfg Gappy := { Cfg.default with FIXE := 1 }

/-- A call that returns: two components and a residue, in which sample 8 is missing. -/
example : okWith (fun r => r.rows.length == 3 && r.imfs.length == 2 && r.rows.all (fun c => c[8]? = some .nan && c[2]? ≠ some .nan))
    (emdPure 2 Scipy.scipy gapCfg gapWave none 2) = true := by decide +kernel

/-- **C111, violated.**  "A signal with missing samples can be decomposed": next to a missing sample there is no extremum, so a signal can have three
maxima and no minimum; `_prepare_points_simple` then reads `ind_min[0]` of an empty array. -/
theorem C111_counterexample : errIs .indexError (emdPure 2 Scipy.scipy gapCfg gapPulses none 2) = true := by decide +kernel

end EMD

namespace EEMD
open Spec

theorem nonzero_false {β γ : Type} (f : β → γ → Bool) (a : List β) (b : List γ) (h : ∀ x ∈ a, ∀ y ∈ b, f x y = false) : nonzero (List.zipWith f a b) = [] := by
  rw [List.eq_nil_iff_forall_not_mem]
  intro i hi
  rw [mem_nonzero, List.getElem?_zipWith] at hi
  rcases ha : a[i]? with _ | x
  · simp [ha] at hi
  · rcases hb : b[i]? with _ | y
    · simp [ha, hb] at hi
    · simp [ha, hb, h x (List.mem_of_getElem? ha) y (List.mem_of_getElem? hb)] at hi

theorem few_missing {z : α} (hz : NotANumber z) (n : Nat) (T : List α) : ∃ e, EMD.findExtremaSimple T (List.replicate n z) = .ok e ∧ e.maxPos = [] ∧ e.minPos = [] := by
  have hd : ∀ x ∈ npDiff (List.replicate n z), x = z := by
    intro x hx
    unfold npDiff at hx
    obtain ⟨i, hi, rfl⟩ := List.getElem_of_mem hx
    simp [hz.sub_left]
  have hany : (npDiff (List.replicate n z)).any (fun x => x == lit 0) = false := by
    rw [List.any_eq_false]
    intro x hx
    rw [hd x hx, hz.not_beq]
    simp
  have hsc : ∀ f : α → Prop, ∀ [DecidablePred f], nonzero (List.zipWith (fun sc a => sc && decide (f a))
      (List.zipWith (fun a b => decide (a * b < lit 0)) (npDiff (List.replicate n z)).dropLast (npDiff (List.replicate n z)).tail)
      (npDiff (List.replicate n z)).dropLast) = [] := by
    intro f _
    refine nonzero_false _ _ _ fun x hx y _ => ?_
    obtain ⟨i, hi, rfl⟩ := List.getElem_of_mem hx
    rw [List.getElem_zipWith, hd _ (List.mem_of_mem_dropLast (List.getElem_mem _)), hz.mul_left]
    simp [hz.not_lt_left]
  unfold EMD.findExtremaSimple EMD.extremaIdx
  simp only [hany, hsc (fun a => a < lit 0), hsc (fun a => lit 0 < a)]
  exact ⟨_, rfl, rfl, rfl⟩

theorem emd_missing {z : α} (hz : NotANumber z) {fuel : Nat} {sp : SciPy α} {cfg : EMD.Cfg α} {n : Nat} {T : Option (List α)} {m : Int}
    (hn : n ≠ 0) (hM : 2 ≤ cfg.MAX_ITERATION) (hd : cfg.detection = .simple) {R : EMD.Result α}
    (h : EMD.emdPure fuel sp cfg (List.replicate n z) T m = .ok R) : R.rows = [List.replicate n z] := by
  have hf : 1 ≤ fuel := by
    cases fuel with
    | zero =>
      unfold EMD.emdPure EMD.emdRounds at h
      simp only [bind_eq_ok] at h
      obtain ⟨_, ⟨_, _, h⟩, _⟩ := h
      simp [EMD.emdLoop] at h
    | succ f => omega
  obtain ⟨T', rounds, e, hT, -⟩ := EMD.emdPure_post h
  obtain ⟨ex, he, e1, e2⟩ := few_missing hz n T'
  have hfew : EMD.Spec.FewExtrema cfg T' (List.replicate n z) := ⟨ex, by rw [hd]; exact he, by simp [e1, e2]⟩
  obtain ⟨rows, o', ho, -, hr⟩ := EMD.C11_few_extrema hz.sub_zero fuel sp ⟨cfg, none, none⟩ (List.replicate n z) T T' m hf hM hT hfew
  have hrow : rows = [List.replicate n z] := by
    rcases hr with ⟨hv, -⟩ | ⟨-, hr⟩
    · have := hv z (by simp [hn])
      unfold pyAbs at this
      rw [if_neg (hz.not_lt_left _)] at this
      exact absurd this (hz.not_le_left _)
    · exact hr
  obtain ⟨R', hR', hr', -⟩ := EMD.Obj.emd_ok ho
  rw [show (EMD.Obj.mk cfg none none).cfg = cfg from rfl, h] at hR'
  cases hR'
  rw [← hrow, hr']

/-- The noise of a signal with a missing sample. -/
theorem noise_missing {z : α} {rng : Rng α ρ} (hr : SpoiledBy rng z) {n : Nat} {r r' : ρ} {xs : List (List α)}
    (h : Stream rng .normal z n r xs r') : ∀ x ∈ xs, x = List.replicate n z := by
  induction h with
  | nil r => simp
  | cons hd _ ih =>
    intro x hx
    rcases List.mem_cons.1 hx with rfl | hx
    · rcases hd with ⟨-, hd⟩ | ⟨hk, -⟩
      · rw [← hr, hd]
      · cases hk
    · exact ih x hx

/-- **C111, violated by `EEMD`.**  One missing sample spoils everything: the width of the noise is derived from the largest and the smallest sample, so all
noise is missing, and the only row that `EEMD` returns has no sample at all. -/
theorem C111_eemd_spoiled {z : α} (hz : NotANumber z) (rng : Rng α ρ) (hr : SpoiledBy rng z) (fuel : Nat) (sp : SciPy α) (sched : List Nat) (o o' : Obj α ρ)
    (S : List α) (T : Option (List α)) (m : Int) (E : List (List α)) (hord : o.cfg.parallel = true → Schedule o.cfg.trials o.cfg.processes sched)
    (ht : 1 ≤ o.cfg.trials) (hk : o.cfg.noiseKind = .normal) (hsep : o.cfg.separateTrends = false) (hM : 2 ≤ o.emd.cfg.MAX_ITERATION)
    (hd : o.emd.cfg.detection = .simple) (hmem : z ∈ S) (h : o.eemd rng fuel sp sched S T m = (.ok E, o')) :
    E = [List.replicate S.length z] ∧ o'.getImfsAndResidue = .ok (E, List.replicate S.length z) := by
  obtain ⟨T', scale, noises, outs, hran, hall, hE, hEI, hres, -, -⟩ := Obj.eemd_ran hord h
  have hn : S.length ≠ 0 := by
    intro h0
    exact hran.signal (List.length_eq_zero_iff.1 h0)
  have hscale : scale = z := by
    rw [hran.width, hz.max_mem S hmem, hz.sub_left]
    unfold pyAbs
    rw [if_neg (hz.not_lt_left _), hz.mul_right]
  have hlen := (List.forall₂_iff_get.1 hran.trial).1
  have hno : ∀ x ∈ noises, x = List.replicate S.length z := by
    cases hp : o.cfg.parallel with
    | false =>
      have := hran.sequential hp
      rw [hscale, hk] at this
      exact noise_missing hr this
    | true =>
      obtain ⟨-, first, r', hst, -, hidx⟩ := hran.parallel hp
      rw [hscale, hk] at hst
      intro x hx
      obtain ⟨t, ht'⟩ := List.getElem?_of_mem hx
      have hlt := (List.getElem?_eq_some_iff.1 ht').1
      rw [hidx t (by rw [← hran.count, ← hlen]; exact hlt)] at ht'
      exact noise_missing hr hst x (List.mem_of_getElem? ht')
  have hout : ∀ out ∈ outs, out = ([List.replicate S.length z], none) := by
    intro out hout
    obtain ⟨i, hi, rfl⟩ := List.getElem_of_mem hout
    obtain ⟨R, hR, h0, -⟩ := (List.forall₂_iff_get.1 hran.trial).2 i (by rw [hlen]; exact hi) hi
    rw [List.get_eq_getElem] at hR h0
    rw [hno _ (List.getElem_mem _)] at hR
    have hsum : List.zipWith (fun s x => s + x) S (List.replicate S.length z) = List.replicate S.length z := by
      apply List.ext_getElem
      · simp
      · intro k _ _
        simp [hz.add_right]
    rw [hsum] at hR
    rw [h0 hsep, emd_missing hz hn hM hd hR]
  have houts : outs = List.replicate o.cfg.trials ([List.replicate S.length z], none) := by
    rw [List.eq_replicate_iff]
    exact ⟨hran.count, hout⟩
  have hfold : ∀ (t : Nat) (rs : List (List α)), (List.replicate t (([List.replicate S.length z], none) : List (List α) × Option (List α))).foldl
      addTrial [(0, rs)] = [(0, rs ++ List.replicate t (List.replicate S.length z))] := by
    intro t
    induction t with
    | zero => simp
    | succ t ih =>
      intro rs
      rw [List.replicate_succ, List.foldl_cons]
      have : addTrial [(0, rs)] (([List.replicate S.length z], none) : List (List α) × Option (List α)) =
          [(0, rs ++ [List.replicate S.length z])] := by
        simp [addTrial, addImfs, Dict.append]
      rw [this, ih]
      simp [List.replicate_succ]
  have hdict : o'.allImfs = [(0, List.replicate o.cfg.trials (List.replicate S.length z))] := by
    obtain ⟨t, ht'⟩ : ∃ t, o.cfg.trials = t + 1 := ⟨o.cfg.trials - 1, by omega⟩
    rw [hall, houts, ht', List.replicate_succ, List.foldl_cons]
    have : addTrial ([] : Dict (List (List α))) (([List.replicate S.length z], none) : List (List α) × Option (List α)) = [(0, [List.replicate S.length z])] := by
      simp [addTrial, addImfs, Dict.append]
    rw [this, hfold]
    simp [renameTrend, List.replicate_succ, List.lookup]
  have hsumz : ∀ (t : Nat) (a : List α), a.length = S.length → 1 ≤ t →
      (List.replicate t (List.replicate S.length z)).foldl vadd a = List.replicate S.length z := by
    intro t
    induction t with
    | zero => intro a _ h; omega
    | succ t ih =>
      intro a ha _
      have : vadd a (List.replicate S.length z) = List.replicate S.length z := by
        unfold vadd
        apply List.ext_getElem
        · simp [ha]
        · intro k _ _
          simp [hz.add_right]
      rw [List.replicate_succ, List.foldl_cons, this]
      rcases Nat.eq_zero_or_pos t with rfl | hpos
      · rfl
      · exact ih _ (by simp) hpos
  have hE' : E = [List.replicate S.length z] := by
    rw [hE, hdict]
    simp only [ensembleMean, meanRows, List.map_cons, List.map_nil, sumRows]
    rw [hsumz _ _ (by simp [vzeros]) ht]
    simp [hz.div_left]
  refine ⟨hE', ?_⟩
  simp only [Obj.getImfsAndResidue, hEI, hres]
  rw [hE']
  simp only [sumRows, List.foldl_cons, List.foldl_nil]
  congr 2
  unfold vsub vadd vzeros
  apply List.ext_getElem
  · simp
  · intro k _ _
    simp [hz.add_right, hz.sub_right]

/-- Noise that depends on the seed and scales with the width. -/
def gapRng : Rng Gappy Nat where
  normal r s n := ((List.range n).map (fun i => s * .num (((r + i) * (r + i) % 5 : Nat) - 2)), r + n)
  uniform r a b n := ((List.range n).map (fun i => a + (b - a) * .num (((r + i) * (r + i) % 5 : Nat) / 4)), r + n)
  seed s := s.toNat

theorem gapRng_spoiled : SpoiledBy gapRng .nan := by
  intro r n
  simp only [gapRng]
  rw [List.eq_replicate_iff]
  refine ⟨by simp, fun b hb => ?_⟩
  obtain ⟨i, -, rfl⟩ := List.mem_map.1 hb
  rfl

/-- Two trials, otherwise the defaults. -/
def gapObj : Obj Gappy Nat :=
  { cfg := { trials := 2, noiseWidth := .num (1 / 20), separateTrends := false, noiseKind := .normal, parallel := false, processes := 1 },
    random := 1, emd := ⟨EMD.gapCfg, none, none⟩, E_IMF := none, residue := none, allImfs := [] }

/-- The call returns, and one missing sample in fourteen leaves none. -/
example : okWith (fun E => decide (E = [List.replicate 14 Gappy.nan])) (gapObj.eemd gapRng 2 Scipy.scipy [] EMD.gapWave none 2).1 = true := by
  decide +kernel

example (E : List (List Gappy)) (o' : Obj Gappy Nat) (h : gapObj.eemd gapRng 2 Scipy.scipy [] EMD.gapWave none 2 = (.ok E, o')) :
    E = [List.replicate 14 .nan] :=
  (C111_eemd_spoiled Gappy.notANumber gapRng gapRng_spoiled 2 Scipy.scipy [] gapObj o' EMD.gapWave none 2 E (by simp [gapObj]) (by simp [gapObj]) rfl rfl
    (by decide) rfl (by simp [EMD.gapWave]) h).1

end EEMD
end PyEMD
