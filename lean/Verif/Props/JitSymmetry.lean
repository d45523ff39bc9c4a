import Verif.Props.JitEnsemble
import Verif.Props.Negation
import Verif.Props.NoRaise
import Verif.Props.Recursion

/-!
# C143: `JitEMD` on equidistant time arrays: no exception, mirrored signals, residues

What C14, C22 and C88 say about `EMD` holds of `JitEMD`, by C130.
-/

set_option linter.unusedSectionVars false

namespace PyEMD
namespace Jit
open EMD (SplineKind Cfg limitAfter)
open EMD.Spec (OddAll AcceptsAll IsResidue)

variable {K : Type} [Field K] [LinearOrder K] [IsStrictOrderedRing K] [FloorRing K]

/-- **C143, negation.**  Simple detection, equidistant time array, odd interpolators: for `-S`, `JitEMD` returns the negated rows of `S`. -/
theorem C143_negation (fuel : Nat) (sp : SciPy K) (ht : TimeFreeAll sp) (ho : OddAll sp) (cfg : Cfg K) (hd : cfg.detection = .simple)
    (hnb : 1 ≤ cfg.nbsym) (hk : CommonKind cfg.splineKind) (S T : List K) (hn : 2 ≤ S.length) (hT : T.length = S.length) (c : K) (hc : 0 < c)
    (hE : Equidistant c T) (m : Int) (rows : List (List K)) :
    emd fuel sp cfg (S.map (fun x => -x)) T m = .ok (rows.map (fun r => r.map (fun x => -x))) ↔ emd fuel sp cfg S T m = .ok rows := by
  have hs : SameScipy sp sp := ⟨rfl, rfl, rfl, rfl, rfl⟩
  have key : ∀ S : List K, 2 ≤ S.length → T.length = S.length → ∀ rows, emd fuel sp cfg S T m = .ok rows →
      emd fuel sp cfg (S.map (fun x => -x)) T m = .ok (rows.map (fun r => r.map (fun x => -x))) := by
    intro S hn hT rows h
    rw [C130_equidistant_partial fuel sp sp hs ht cfg hd hnb hk S hn T hT c hc hE m] at h
    rw [C130_equidistant_partial fuel sp sp hs ht cfg hd hnb hk _ (by simpa using hn) T (by simpa using hT) c hc hE m]
    have h14 := (EMD.C14_negation fuel sp ho ⟨cfg, none, none⟩ hd S (some T) m).1
    unfold EMD.Obj.emd at h14
    cases h1 : EMD.emdPure fuel sp cfg S (some T) m with
    | error e => rw [h1] at h; cases h
    | ok R =>
      rw [h1] at h h14
      cases h
      obtain ⟨o'', h2, -⟩ := h14 R.rows _ rfl
      cases h3 : EMD.emdPure fuel sp cfg (S.map (fun x => -x)) (some T) m with
      | error e => rw [h3] at h2; cases h2
      | ok R' =>
        rw [h3] at h2
        have h4 : R'.rows = R.rows.map (fun r => r.map (fun x => -x)) := by
          have := congrArg Prod.fst h2
          injection this
        show Except.ok R'.rows = _
        rw [h4]
  constructor
  · intro h
    have := key _ (by simpa using hn) (by simpa using hT) _ h
    simpa [Function.comp_def] using this
  · exact key S hn hT rows

/-- **C143, no exception.**  Simple detection, equidistant time array, at least two samples, interpolators that accept increasing knots: a
limited call returns. -/
theorem C143_returns (fuel : Nat) (sp : SciPy K) (ht : TimeFreeAll sp) (ha : AcceptsAll sp) (cfg : Cfg K) (hd : cfg.detection = .simple)
    (hnb : 1 ≤ cfg.nbsym) (hk : CommonKind cfg.splineKind) (S T : List K) (hn : 2 ≤ S.length) (hT : T.length = S.length) (c : K) (hc : 0 < c)
    (hE : Equidistant c T) (k : Nat) (hk1 : 1 ≤ k) (hf : k ≤ fuel) : ∃ rows, emd fuel sp cfg S T k = .ok rows := by
  rw [C130_equidistant_partial fuel sp sp ⟨rfl, rfl, rfl, rfl, rfl⟩ ht cfg hd hnb hk S hn T hT c hc hE k]
  have hu : cfg.splineKind ≠ .unknown := by
    rcases hk with h | h | h | h | h <;> rw [h] <;> decide
  obtain ⟨R, h⟩ := EMD.C22_returns fuel sp ha cfg hd hnb hu S hn (some T) (by rintro _ ⟨⟩; exact hT) k hk1 hf
  exact ⟨R.rows, by rw [h]; rfl⟩

/-- **C143, no exception.**  An unlimited call returns or does not end. -/
theorem C143_no_exception (fuel : Nat) (sp : SciPy K) (ht : TimeFreeAll sp) (ha : AcceptsAll sp) (cfg : Cfg K) (hd : cfg.detection = .simple)
    (hnb : 1 ≤ cfg.nbsym) (hk : CommonKind cfg.splineKind) (S T : List K) (hn : 2 ≤ S.length) (hT : T.length = S.length) (c : K) (hc : 0 < c)
    (hE : Equidistant c T) (m : Int) : (∃ rows, emd fuel sp cfg S T m = .ok rows) ∨ emd fuel sp cfg S T m = .error .outOfFuel := by
  rw [C130_equidistant_partial fuel sp sp ⟨rfl, rfl, rfl, rfl, rfl⟩ ht cfg hd hnb hk S hn T hT c hc hE m]
  have hu : cfg.splineKind ≠ .unknown := by
    rcases hk with h | h | h | h | h <;> rw [h] <;> decide
  rcases EMD.C22_no_exception fuel sp ha cfg hd hnb hu S hn (some T) (by rintro _ ⟨⟩; exact hT) m with ⟨R, h⟩ | h
  · exact .inl ⟨R.rows, by rw [h]; rfl⟩
  · exact .inr (by rw [h]; rfl)

/-- **C143, recursion.**  Take the first `j` rows away from the signal: `JitEMD` decomposes what is left into the other rows, provided
two or more of them remain.  The limit is smaller by `j`. -/
theorem C143_recursion (fuel : Nat) (sp : SciPy K) (ht : TimeFreeAll sp) (cfg : Cfg K) (hM : 2 ≤ cfg.MAX_ITERATION) (hd : cfg.detection = .simple)
    (hnb : 1 ≤ cfg.nbsym) (hk : CommonKind cfg.splineKind) (S T : List K) (hn : 2 ≤ S.length) (hT : T.length = S.length) (c : K) (hc : 0 < c)
    (hE : Equidistant c T) (m : Int) (rows : List (List K)) (h : emd fuel sp cfg S T m = .ok rows) (j : Nat) (hj : j + 1 < rows.length)
    (S' : List K) (hS : IsResidue S (rows.take j) S') : emd fuel sp cfg S' T (limitAfter m j) = .ok (rows.drop j) := by
  have hs : SameScipy sp sp := ⟨rfl, rfl, rfl, rfl, rfl⟩
  have hl : S'.length = S.length := hS.1
  rw [C130_equidistant_partial fuel sp sp hs ht cfg hd hnb hk S hn T hT c hc hE m] at h
  rw [C130_equidistant_partial fuel sp sp hs ht cfg hd hnb hk S' (by omega) T (by omega) c hc hE _]
  cases h1 : EMD.emdPure fuel sp cfg S (some T) m with
  | error e => rw [h1] at h; cases h
  | ok R =>
    rw [h1] at h
    cases h
    have hrows : R.rows = R.imfs ∨ R.rows = R.imfs ++ [R.residue] := by
      obtain ⟨T', rs, e1, -, -, -, rfl⟩ := EMD.emdPure_post h1
      unfold EMD.finish
      dsimp only
      generalize (if e1 ≤ 2 then _ else _ : List (List K)) = l
      split
      · exact .inl rfl
      · exact .inr rfl
    have hji : j < R.imfs.length := by
      rcases hrows with e | e <;> rw [e] at hj
      · omega
      · rw [List.length_append, List.length_singleton] at hj
        omega
    have ht : R.rows.take j = R.imfs.take j := by
      rcases hrows with e | e <;> rw [e]
      rw [List.take_append_of_le_length hji.le]
    rw [ht] at hS
    rw [EMD.C88_recursion fuel sp cfg hM S (some T) m R h1 j hji S' hS]
    rfl

/-- The four theorems on a sampling interval of 1/4: three rows, and the decomposition of the mirrored signal and of the residue. -/
example : okWith (fun R => R.length == 3 &&
      okWith (fun R' => R' == R.map (List.map (fun x => -x)))
        (emd 20 Scipy.scipy EMD.sampleFixe (EMD.sampleS.map (fun x => -x)) ((List.range 10).map (fun k : Nat => (5 + k / 4 : ℚ))) (-1)) &&
      okWith (fun R' => R' == R.drop 1)
        (emd 20 Scipy.scipy EMD.sampleFixe (vsub EMD.sampleS (sumRows 10 (R.take 1))) ((List.range 10).map (fun k : Nat => (5 + k / 4 : ℚ))) (-1)))
    (emd 20 Scipy.scipy EMD.sampleFixe EMD.sampleS ((List.range 10).map (fun k : Nat => (5 + k / 4 : ℚ))) (-1)) = true := by decide +kernel

/-- scipy's interpolators meet the hypotheses. -/
example : TimeFreeAll (Scipy.scipy : SciPy K) ∧ OddAll (Scipy.scipy : SciPy K) ∧ AcceptsAll (Scipy.scipy : SciPy K) :=
  ⟨scipy_timeFree, Scipy.C98_odd, Scipy.C98_accepts⟩

end Jit
end PyEMD
