import Verif.Props.Ieee
import Verif.Props.Negation
import Verif.Props.Jit
import Verif.Lemmas.IeeeSymmetric

/-!
# Negating the signal negates the decomposition in floating point (C14)
-/

set_option linter.unusedSectionVars false

namespace PyEMD
namespace Ieee
open EMD EMD.Spec
variable {f e E : ℕ}

/-- With simple detection the time array does not depend on the given one. -/
theorem prepareTime_simple' (cfg : Cfg (Ieee f e E)) (hd : cfg.detection = .simple) (S : List (Ieee f e E)) (T : Option (List (Ieee f e E)))
    (T' : List (Ieee f e E)) (h : prepareTime cfg S T = .ok T') : prepareTime cfg S none = .ok T' := by
  unfold prepareTime at h ⊢
  cases T with
  | none => exact h
  | some t =>
    dsimp only at h
    by_cases hl : S.length ≠ t.length
    · rw [if_pos hl] at h
      cases h
    · rw [if_neg hl, if_pos hd] at h
      exact h

/-- Time stamps are distinct whole numbers, whenever there are time stamps. -/
theorem stamps_nodup (hf : 1 ≤ f) (hE : f + 2 ≤ E) (cfg : Cfg (Ieee f e E)) (hd : cfg.detection = .simple) (S : List (Ieee f e E))
    (T : Option (List (Ieee f e E))) (T' : List (Ieee f e E)) (h : prepareTime cfg S T = .ok T') : (T'.map toInt).Nodup := by
  have h := prepareTime_simple' cfg hd S T T' h
  by_cases h2 : 2 ≤ S.length
  · by_cases hn : S.length ≤ 2 ^ (f + 1) + 1
    · rw [prepareTime_eq hE cfg S h2 hn] at h
      injection h with h
      subst h
      have : (stamps S.length : List (Ieee f e E)).map toInt = (List.range S.length).map (fun k : Nat => (k : Int)) := by
        unfold stamps
        rw [List.map_map]
        apply List.map_congr_left
        intro k hk
        exact (stamp_isInt hE k (by have := List.mem_range.1 hk; omega)).toInt
      rw [this]
      exact List.nodup_range.map (fun a b h => by exact_mod_cast h)
    · rw [prepareTime_too_long hf hE cfg S (by omega)] at h
      cases h
  · exfalso
    have key : ∀ l : List (Ieee f e E), (timeline S.length >>= normalizeTime) ≠ .ok l := by
      intro l
      rcases (by omega : S.length = 0 ∨ S.length = 1) with e | e
      · rw [e]; simp [timeline, bind, Except.bind]
      · rw [e]; simp [timeline, bind, Except.bind, normalizeTime, npDiff, pyGet, pyIdx, npMinE]
    exact key T' h

/-- **C14 in floating point.**  In every IEEE 754 format (rounding to nearest, overflow, underflow, infinities and NaN included), with simple detection and
interpolators that are odd in it: decomposing `-S` gives, number by number, the negated rows, stores the negated IMFs and the negated residue, and raises
exactly when decomposing `S` raises. -/
theorem C14_floating_point (hf : 1 ≤ f) (hE : f + 2 ≤ E) (fuel : Nat) (sp : SciPy (Ieee f e E)) (ho : OddAll sp) (o : Obj (Ieee f e E))
    (hd : o.cfg.detection = .simple) (S : List (Ieee f e E)) (T : Option (List (Ieee f e E))) (m : Int) :
    (∀ rows o', Obj.emd fuel sp o S T m = (.ok rows, o') → ∃ o'', Obj.emd fuel sp o (S.map (fun x => -x)) T m =
        (.ok (rows.map (fun r => r.map (fun x => -x))), o'') ∧
      o''.cfg = o'.cfg ∧ o''.imfs = o'.imfs.map (fun l => l.map (fun r => r.map (fun x => -x))) ∧
      o''.residue = o'.residue.map (fun r => r.map (fun x => -x))) ∧
    ((∃ e, e ≠ .outOfFuel ∧ (Obj.emd fuel sp o S T m).1 = .error e) ↔
      (∃ e, e ≠ .outOfFuel ∧ (Obj.emd fuel sp o (S.map (fun x => -x)) T m).1 = .error e)) :=
  emd_vneg fuel sp ho o hd S T (stamps_nodup hf hE o.cfg hd S T) m

/-- A case in double precision: tenths, which are not binary numbers; linear interpolation is odd in floating point. -/
def tenths : List F64 := [1, 7, -4, 9, -6, 3, -8, 5, -2, 6].map (fun k : ℤ => lit (k / 10))

example : okWith (fun R : Result F64 => decide (3 ≤ R.rows.length)) (emdPure 3 linSciPy (Cfg.default : Cfg F64) tenths none 3) = true := by
  decide +kernel

example (rows : List (List F64)) (o' : Obj F64) (h : Obj.emd 3 linSciPy ⟨Cfg.default, none, none⟩ tenths none 3 = (.ok rows, o')) :
    ∃ o'', Obj.emd 3 linSciPy (⟨Cfg.default, none, none⟩ : Obj F64) (tenths.map (fun x => -x)) none 3 =
      (.ok (rows.map (List.map (fun x => -x))), o'') := by
  obtain ⟨o'', h1, -⟩ := (C14_floating_point (by norm_num) (by norm_num) 3 linSciPy linSciPy_odd ⟨Cfg.default, none, none⟩ rfl tenths none 3).1 rows o' h
  exact ⟨o'', h1⟩

/-- **C56 in floating point.**  In every IEEE 754 format, on the timeline `0, 1, ...`, the compiled simple detection returns number by number what the
reference returns, for every signal: NaN, infinities, overflowing differences and underflowing products included. -/
theorem C56_floating_point (T S : List (Ieee f e E)) : Jit.findExtrema .simple T S = EMD.findExtrema .simple (stamps S.length) S :=
  Jit.C56_same_extrema (fun x => Symmetric.lt_asymm _ x) T S

/-- A signal with a plateau in double precision; two maxima and two minima are found. -/
example : okWith (fun r : Extrema F64 => decide (r.maxPos.length = 2 ∧ r.minPos.length = 2))
    (Jit.findExtrema .simple [] ([1, 7, 7, -4, 9, 9, 9, -6, -6, 3, -8].map (fun k : ℤ => lit (k / 10)))) = true := by
  decide +kernel

end Ieee
end PyEMD
