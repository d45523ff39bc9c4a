import Verif.Lemmas.MatlabAffine
import Verif.Props.Affine
import Verif.Props.Matlab
import Verif.Props.MatlabVsEmd
import Verif.Props.Scipy
import Verif.Props.JitEnsemble

/-!
# Units and origins of signal and time in `EMD_matlab` (C140)
-/

set_option linter.unusedSectionVars false

namespace PyEMD
namespace Matlab
open EMD.Spec (AffineAll IsResidue strictLinSciPy)
open EMD (vaff)
open Jit (TimeFreeAll)

variable {K : Type} [Field K] [LinearOrder K] [IsStrictOrderedRing K] [FloorRing K]

/-- The result with `f` applied to all components but the last, `g` to the last. -/
def Result.mapRows (f g : List K → List K) (R : Result K) : Result K :=
  { R with IMF := R.IMF.dropLast.map (fun p => (p.1, f p.2)) ++ (R.IMF.drop (R.IMF.length - 1)).map (fun p => (p.1, g p.2)) }

theorem rest_zero {S x rest : List K} {d : List (List K)} (h : IsResidue S (d ++ [x]) rest) (hx : IsResidue S d x) : ∀ v ∈ rest, v = 0 := by
  intro v hv
  obtain ⟨i, hi, rfl⟩ := List.getElem_of_mem hv
  have hi' : i < S.length := by rw [← h.1]; exact hi
  obtain ⟨s, hs, hr⟩ := h.2 i hi'
  obtain ⟨s', hs', hx'⟩ := hx.2 i hi'
  obtain rfl : s = s' := Option.some.inj (hs.symm.trans hs')
  rw [List.getElem?_eq_getElem hi, Option.some.injEq] at hr
  rw [hr, colSum_concat, List.getD_eq_getElem?_getD, hx']
  simp

theorem rowsOf_zero {comps : List (List K)} {rest : List K} (h : ∀ v ∈ rest, v = 0) : rowsOf comps rest = comps := by
  unfold rowsOf
  rw [if_neg, List.append_nil]
  have : (rest.map (fun v => |v|)).sum = 0 := by
    apply List.sum_eq_zero
    intro w hw
    obtain ⟨v, hv, rfl⟩ := List.mem_map.1 hw
    rw [h v hv, abs_zero]
  rw [this]
  norm_num

theorem zip_keys {β : Type} (d : List (Nat × β)) : d = (d.map (·.1)).zip (d.map (·.2)) := by
  rw [List.zip_map']
  exact (List.map_id d).symm

theorem dict_ext {β : Type} {d d' : List (Nat × β)} (h1 : d.map (·.1) = d'.map (·.1)) (h2 : d.map (·.2) = d'.map (·.2)) : d = d' := by
  rw [zip_keys d, zip_keys d', h1, h2]

theorem ends_trend {sp : SciPy K} {cfg : Cfg K} {S : List K} {T : Option (List K)} {mi : Int} {fuel : Nat} {R : Result K}
    (hmi : mi ≤ 1) (h : emd fuel sp cfg S T mi = .ok R) : R.ends.getLast? = some .trend := by
  obtain ⟨recs, r, res, more, ok⟩ := emd_ok h
  rw [ok.ends, List.map_append, List.map_cons, List.map_nil, List.getLast?_concat]
  rcases ok.last with h | h
  · rw [h]
  · omega

/-- Without a limit the whole result is transformed. -/
theorem unlimited {sp : SciPy K} (ho : AffineAll sp) {cfg : Cfg K} (hcv : cfg.convert = id) {c : K} (hc : 0 < c) (b : K)
    (hO : b = 0 ∨ OffsetMode cfg) (S : List K) (T : Option (List K)) {mi : Int} (hmi : mi ≤ 1) (fuel : Nat) :
    emd fuel sp cfg (vaff c b S) T mi = (emd fuel sp cfg S T mi).map (Result.mapRows (vaff c 0) (vaff c b)) := by
  have h := emd_vaff ho hcv hc b hO S T mi fuel
  cases h1 : emd fuel sp cfg S T mi with
  | error e =>
    cases h2 : emd fuel sp cfg (vaff c b S) T mi with
    | error e' => rw [h1, h2] at h; cases h; rfl
    | ok R => rw [h1, h2] at h; exact h.elim
  | ok R =>
    cases h2 : emd fuel sp cfg (vaff c b S) T mi with
    | error e' => rw [h1, h2] at h; exact h.elim
    | ok R' =>
      rw [h1, h2] at h
      obtain ⟨a1, a2, a3, comps, rest, a4, a5, a6, a7⟩ := h
      obtain ⟨k1, k2, k3, -, -⟩ := C54_sum h1
      obtain ⟨k1', k2', k3', -, -⟩ := C54_sum h2
      obtain ⟨rows, trend, b1, b2, -, -, b5, -⟩ := C71_trend hmi h1
      obtain ⟨-, -, -, -, -, -, b5', -⟩ := C71_trend hmi h2
      have hno : R'.imfNo = R.imfNo := by rw [b5, b5', a1]
      rcases a7 with ⟨hn, -⟩ | ⟨-, d, x, rfl, a7⟩
      · exact absurd (ends_trend hmi h1) hn
      have hcl : (R.IMF.map (·.2)).length = (d ++ [x]).length := by
        rw [a4, ← b5, List.length_map]
        have := congrArg List.length k1
        simpa using this
      have hrow : R.IMF.map (·.2) = d ++ [x] := by
        rw [a6] at hcl ⊢
        unfold rowsOf at hcl ⊢
        split at hcl
        · simp at hcl
        · next hneg => rw [if_neg hneg, List.append_nil]
      rw [hrow] at b1
      obtain ⟨hd, hx⟩ := List.append_inj' b1 rfl
      have hx : x = trend := by simpa using hx
      subst hd
      subst hx
      have hz := rest_zero a5 b2
      rw [rowsOf_zero (by
        intro v hv
        obtain ⟨w, hw, rfl⟩ := List.mem_map.1 hv
        rw [hz w hw]
        ring)] at a7
      have hlen : ∀ {β : Type} {e : List (Nat × β)}, e.map (·.1) = List.range R.imfNo → e.take R.ends.length = e := by
        intro β e he
        have := congrArg List.length he
        rw [← b5]
        apply List.take_of_length_le
        simp only [List.length_map, List.length_range] at this
        omega
      rw [hlen k2, hlen (hno ▸ k2')] at a2
      rw [hlen k3, hlen (hno ▸ k3')] at a3
      show Except.ok R' = Except.ok (R.mapRows (vaff c 0) (vaff c b))
      congr 1
      obtain ⟨I, E, N, m, ends⟩ := R
      obtain ⟨I', E', N', m', ends'⟩ := R'
      simp only at a1 a2 a3 hno hrow k1 k1' a7
      subst a1 a2 a3 hno
      unfold Result.mapRows
      simp only
      congr 1
      apply dict_ext
      · rw [k1', ← k1, List.map_append, List.map_map, List.map_map]
        show I.map (·.1) = I.dropLast.map (·.1) ++ (I.drop (I.length - 1)).map (·.1)
        rw [← List.map_append, List.dropLast_eq_take, List.take_append_drop]
      · rw [a7, List.map_append, List.map_map, List.map_map]
        show _ = I.dropLast.map ((vaff c 0) ∘ (·.2)) ++ (I.drop (I.length - 1)).map ((vaff c b) ∘ (·.2))
        have hI : I.length = d.length + 1 := by simpa using congrArg List.length hrow
        rw [← List.map_map, ← List.map_map, List.map_dropLast, List.map_drop, hrow, hI]
        simp

/-- The sum of the row and a constant. -/
def plus (b : K) (r : List K) : List K := r.map (fun x => x + b)

/-- The multiple of the row. -/
def times (c : K) (r : List K) : List K := r.map (fun x => c * x)

theorem vaff_times (c : K) : vaff c 0 = times c := by funext r; simp [vaff, times]

theorem vaff_plus (b : K) : vaff 1 b = plus b := by funext r; simp [vaff, plus]

/-- **C140, units of the signal.**  Without a limit on their number, the components of `c * S` are those of `S` times `c`, with the same
numbers of iterations and extrema; an exception is raised in both cases or in none.  All stopping rules, the default one included. -/
theorem C140_unit (fuel : Nat) (sp : SciPy K) (ho : AffineAll sp) (cfg : Cfg K) (hcv : cfg.convert = id) (S : List K) (T : Option (List K)) (mi : Int)
    (hmi : mi ≤ 1) (c : K) (hc : 0 < c) :
    emd fuel sp cfg (times c S) T mi = (emd fuel sp cfg S T mi).map (Result.mapRows (times c) (times c)) := by
  have h := unlimited ho hcv hc 0 (.inl rfl) S T hmi fuel
  rwa [vaff_times] at h

/-- The default settings meet the hypotheses, also with scipy's interpolators; the result has two IMFs and a trend. -/
example : AffineAll (strictLinSciPy : SciPy ℚ) ∧ AffineAll (Scipy.scipy : SciPy ℚ) ∧ (Cfg.default : Cfg ℚ).convert = id ∧
    okWith (fun R => R.ends == [.converged, .converged, .trend]) (emd 20 strictLinSciPy Cfg.default EMD.sampleS none (-1)) = true :=
  ⟨EMD.strictLinSciPy_affine, Scipy.C98_affine, rfl, by decide +kernel⟩

/-- **C140, offsets, what holds of it.**  With `FIXE` or `FIXE_H` the components of `S + b` are those of `S`, but for the last one, the
trend, which is increased by `b`. -/
theorem C140_offset_partial (fuel : Nat) (sp : SciPy K) (ho : AffineAll sp) (cfg : Cfg K) (hcv : cfg.convert = id) (hO : OffsetMode cfg) (S : List K)
    (T : Option (List K)) (mi : Int) (hmi : mi ≤ 1) (b : K) :
    emd fuel sp cfg (plus b S) T mi = (emd fuel sp cfg S T mi).map (Result.mapRows id (plus b)) := by
  have h := unlimited ho hcv one_pos b (.inr hO) S T hmi fuel
  rwa [vaff_plus, show vaff (1 : K) 0 = id by rw [vaff_plus]; funext r; simp [plus]] at h

example : OffsetMode sampleFixe ∧ sampleFixe.convert = id ∧
    okWith (fun R => R.ends == [.fixe, .fixe, .trend]) (emd 20 strictLinSciPy sampleFixe EMD.sampleS none (-1)) = true :=
  ⟨⟨.inl (by decide), by simp [sampleFixe, Cfg.default, lit_one], by decide, by decide⟩, rfl, by decide +kernel⟩

/-- **C140 is false for offsets with the default stopping rule**: the wave `0, 10, -10, 10, -10, 11, -10, 10, -10, 0` is a component as it
is, but after adding 100 it is sifted once more. -/
theorem C140_offset_counterexample : ∃ R R' : Result ℚ, emd 20 strictLinSciPy Cfg.default [0, 10, -10, 10, -10, 11, -10, 10, -10, 0] none (-1) = .ok R ∧
    emd 20 strictLinSciPy Cfg.default (plus 100 [0, 10, -10, 10, -10, 11, -10, 10, -10, 0]) none (-1) = .ok R' ∧
    (R.IMF.map (·.2)).head? = some [0, 10, -10, 10, -10, 11, -10, 10, -10, 0] ∧
    (R'.IMF.map (·.2)).head? = some [0, 10, -10, 10, -41 / 4, 21 / 2, -41 / 4, 10, -10, 0] := by
  have h : okWith (fun R : Result ℚ => (R.IMF.map (·.2)).head? == some [0, 10, -10, 10, -10, 11, -10, 10, -10, 0])
      (emd 20 strictLinSciPy Cfg.default [0, 10, -10, 10, -10, 11, -10, 10, -10, 0] none (-1)) = true := by decide +kernel
  have h' : okWith (fun R : Result ℚ => (R.IMF.map (·.2)).head? == some [0, 10, -10, 10, -41 / 4, 21 / 2, -41 / 4, 10, -10, 0])
      (emd 20 strictLinSciPy Cfg.default (plus 100 [0, 10, -10, 10, -10, 11, -10, 10, -10, 0]) none (-1)) = true := by decide +kernel
  obtain ⟨R, hR, h⟩ := okWith_iff.1 h
  obtain ⟨R', hR', h'⟩ := okWith_iff.1 h'
  exact ⟨R, R', hR, hR', by simpa using h, by simpa using h'⟩

/-- **C140, with a limit, what holds of it.**  The sifted components of `c * S` are those of `S` times `c`, with the same numbers of
iterations; what is left over is `c` times what `S` leaves, and is returned as a row if its absolute values sum to more than `1e-10`. -/
theorem C140_limit_partial (fuel : Nat) (sp : SciPy K) (ho : AffineAll sp) (cfg : Cfg K) (hcv : cfg.convert = id) (S : List K) (T : Option (List K))
    (mi : Int) (c : K) (hc : 0 < c) :
    RelX (fun R R' => R'.ends = R.ends ∧ R'.ITER.take R.ends.length = R.ITER.take R.ends.length ∧
        R'.EXT.take R.ends.length = R.EXT.take R.ends.length ∧
        ∃ comps rest, comps.length = R.ends.length ∧ IsResidue S comps rest ∧ R.IMF.map (·.2) = rowsOf comps rest ∧
          R'.IMF.map (·.2) = rowsOf (comps.map (times c)) (times c rest))
      (emd fuel sp cfg S T mi) (emd fuel sp cfg (times c S) T mi) := by
  rw [← vaff_times]
  refine (emd_vaff ho hcv hc 0 (.inl rfl) S T mi fuel).mono ?_
  rintro R R' ⟨a1, a2, a3, comps, rest, a4, a5, a6, a7⟩
  refine ⟨a1, a3, a2, comps, rest, a4, a5, a6, ?_⟩
  rcases a7 with ⟨-, h⟩ | ⟨-, d, x, rfl, h⟩
  · exact h
  · rw [h, List.map_append]
    rfl

example : okWith (fun R => R.ends == [.fixe] && R.IMF.length == 2) (emd 20 strictLinSciPy sampleFixe EMD.sampleS none 2) = true := by
  decide +kernel

/-- **C140 is false with a limit**: in a unit `1e13` times larger the remainder of the same signal is not returned. -/
theorem C140_limit_counterexample : ∃ R R' : Result ℚ, emd 20 strictLinSciPy sampleFixe EMD.sampleS none 2 = .ok R ∧
    emd 20 strictLinSciPy sampleFixe (times (1 / 10000000000000) EMD.sampleS) none 2 = .ok R' ∧ R.IMF.length = 2 ∧ R'.IMF.length = 1 := by
  have h : okWith (fun R : Result ℚ => R.IMF.length == 2) (emd 20 strictLinSciPy sampleFixe EMD.sampleS none 2) = true := by decide +kernel
  have h' : okWith (fun R : Result ℚ => R.IMF.length == 1)
      (emd 20 strictLinSciPy sampleFixe (times (1 / 10000000000000) EMD.sampleS) none 2) = true := by decide +kernel
  obtain ⟨R, hR, h⟩ := okWith_iff.1 h
  obtain ⟨R', hR', h'⟩ := okWith_iff.1 h'
  exact ⟨R, R', hR, hR', by simpa using h, by simpa using h'⟩

/-- **C140, time.**  Unit and origin of time have no influence. -/
theorem C140_time (fuel : Nat) (sp : SciPy K) (hsp : TimeFreeAll sp) (cfg : Cfg K) (S T : List K) (mi : Int) (c b : K) (hc : 0 < c) :
    emd fuel sp cfg S (some (T.map (fun t => c * t + b))) mi = emd fuel sp cfg S (some T) mi :=
  emd_time hsp cfg hc b S T mi fuel

/-- **C140, equidistant time stamps** lead to the result of a call without time array. -/
theorem C140_equidistant (fuel : Nat) (sp : SciPy K) (hsp : TimeFreeAll sp) (cfg : Cfg K) (S : List K) (mi : Int) (c b : K) (hc : 0 < c) :
    emd fuel sp cfg S (some ((List.range S.length).map (fun k : Nat => c * (k : K) + b))) mi = emd fuel sp cfg S none mi := by
  have e : (List.range S.length).map (fun k : Nat => c * (k : K) + b) = vaff c b ((List.range S.length).map (fun k : Nat => lit (k : ℚ))) := by
    simp [vaff, lit_eq, Function.comp_def]
  rw [e, emd_time hsp cfg hc]
  rfl

/-- scipy's interpolators meet the hypothesis of the last two theorems; with these stamps `sampleS` has two IMFs and a trend. -/
example : TimeFreeAll (Scipy.scipy : SciPy ℚ) ∧
    okWith (fun R => R.ends == [.fixe, .fixe, .trend]) (emd 20 Scipy.scipy { sampleFixe with splineKind := .slinear } EMD.sampleS
      (some ((List.range 10).map (fun k : Nat => 1 / 2 * (k : ℚ) + 3))) (-1)) = true :=
  ⟨Jit.scipy_timeFree, by decide +kernel⟩

end Matlab
end PyEMD
