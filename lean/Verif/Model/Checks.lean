import Verif.Model.Py

/-!
# `PyEMD/checks.py`

`math.log`, `math.exp`, `math.sqrt`, `scipy.stats.norm.ppf`, the number of peaks found by `scipy.signal.find_peaks` and
`np.isnan` are parameters.
-/

namespace PyEMD
namespace Checks

/-- External functions.  `log` and `exp` may raise (`ValueError: math domain error`, `OverflowError`).
/repo/PyEMD/checks.py:4-8, 14, 27-28, 99. -/
structure MathFns (α : Type) where
  log : α → PyM α
  exp : α → PyM α
  sqrt : α → α
  /-- `scipy.stats.norm.ppf` -/
  ppf : α → α
  /-- `len(find_peaks(data, height=0)[0])` -/
  peaks : List α → Nat
  isnan : α → Bool

/-- An argument whose type the function checks: a value of the expected type or anything else.
/repo/PyEMD/checks.py:87, 93, 96. -/
inductive Arg (β : Type)
  | val (x : β)
  | wrongType

variable {α : Type} [Add α] [Sub α] [Mul α] [Div α] [Neg α] [LT α] [LE α] [BEq α]
  [DecidableLT α] [DecidableLE α] [NpScalar α]

/-- `mean_period(data)`.  /repo/PyEMD/checks.py:12-15. -/
def meanPeriod (M : MathFns α) (data : List α) : α :=
  let peaks := M.peaks data
  if 0 < peaks then lit (data.length : ℚ) / lit (peaks : ℚ) else lit (data.length : ℚ)

/-- `energy(data)`: Python's `sum` starts from 0.  /repo/PyEMD/checks.py:19-21. -/
def energy (data : List α) : α := (data.map (fun x => x * x)).foldl (· + ·) (lit 0)

/-- `k = abs(stats.norm.ppf((1 - alpha) / 2))`.  /repo/PyEMD/checks.py:27, 37, 118. -/
def quantile (M : MathFns α) (alpha : α) : α := pyAbs (M.ppf ((lit 1 - alpha) / lit 2))

/-- `significance_apriori(energy_density, T, N, alpha)`.  /repo/PyEMD/checks.py:25-31. -/
def significanceApriori (M : MathFns α) (energy_density T : α) (N : Nat) (alpha : α) : PyM Bool := do
  let k := quantile M alpha
  let e ← M.exp (T / lit 2)
  let upper_limit := -T + (k * (M.sqrt (lit 2 / lit (N : ℚ)) * e))
  let lower_limit := -T - (k * (M.sqrt (lit 2 / lit (N : ℚ)) * e))
  pure (!(decide (lower_limit ≤ energy_density) && decide (energy_density ≤ upper_limit)))

/-- `significance_aposteriori(scaled_energy_density, T, N, alpha)`.  /repo/PyEMD/checks.py:35-39. -/
def significanceAposteriori (M : MathFns α) (scaled_energy_density T : α) (N : Nat) (alpha : α) : PyM Bool := do
  let k := quantile M alpha
  let e ← M.exp (T / lit 2)
  let upper_limit := -T + (k * (M.sqrt (lit 2 / lit (N : ℚ)) * e))
  pure (!(decide (scaled_energy_density ≤ upper_limit)))

/-- The flag of a component in the a-priori test.  /repo/PyEMD/checks.py:107-112. -/
def aprioriFlag (M : MathFns α) (N : Nat) (alpha : α) (imf : List α) : PyM Int := do
  let log_T ← M.log (meanPeriod M imf)
  let energy_density ← M.log (energy imf / lit (N : ℚ))
  let sig ← significanceApriori M energy_density log_T N alpha
  pure (b2i sig)

/-- `scaling_factor` of the a-posteriori test; `scaling_imf_energy_density` is computed and not used.
/repo/PyEMD/checks.py:115-121. -/
def scalingFactor (M : MathFns α) (N : Nat) (alpha : α) (imf : List α) : PyM α := do
  let scaling_imf_mean_period ← M.log (meanPeriod M imf)
  let _ ← M.log (energy imf / lit (N : ℚ))
  let k := quantile M alpha
  let e ← M.exp scaling_imf_mean_period
  let up_limit := -scaling_imf_mean_period + (k * M.sqrt (lit 2 / lit (N : ℚ)) * e / lit 2)
  M.exp up_limit

/-- The flag of component `idx` in the a-posteriori test.  /repo/PyEMD/checks.py:123-132. -/
def aposterioriFlag (M : MathFns α) (N : Nat) (alpha scaling_factor : α) (rescaling_imf : Int) (idx : Nat) (imf : List α) :
    PyM Int := do
  let log_T ← M.log (meanPeriod M imf)
  let scaled ← if (idx : Int) ≠ rescaling_imf - 1 then M.log ((energy imf / lit (N : ℚ)) / scaling_factor)
    else M.log scaling_factor
  let sig ← significanceAposteriori M scaled log_T N alpha
  pure (b2i sig)

/-- `for idx, imf in enumerate(IMFs): output[idx + 1] = flag(idx, imf)`, starting at `idx`.
/repo/PyEMD/checks.py:107-112, 123-132. -/
def collect (flag : Nat → List α → PyM Int) : Nat → List (List α) → PyM (List (Nat × Int))
  | _, [] => .ok []
  | idx, imf :: imfs => do
    let f ← flag idx imf
    let rest ← collect flag (idx + 1) imfs
    pure ((idx + 1, f) :: rest)

/-- `whitenoise_check(IMFs, test_name, rescaling_imf, alpha)`.  The result is `None` or the items of the dictionary in the order
of insertion.  /repo/PyEMD/checks.py:42-137. -/
def whitenoiseCheck (M : MathFns α) (IMFs : Arg (List (List α))) (test_name : String) (rescaling_imf : Arg Int) (alpha : Arg α) :
    PyM (Option (List (Nat × Int))) :=
  match IMFs with
  | .wrongType => .error .assertionError
  | .val IMFs =>
    if IMFs.length = 0 ∨ (IMFs.headD []).length = 0 then .ok none
    else match alpha with
      | .wrongType => .error .assertionError
      | .val alpha =>
        if ¬ (lit 0 < alpha ∧ alpha < lit 1) then .error .assertionError
        else if ¬ (test_name = "apriori" ∨ test_name = "aposteriori") then .error .assertionError
        else match rescaling_imf with
          | .wrongType => .error .assertionError
          | .val rescaling_imf =>
            if ¬ (0 < rescaling_imf ∧ rescaling_imf ≤ IMFs.length) then .error .assertionError
            else if IMFs.any (fun imf => imf.any M.isnan) then .ok none
            else do
              let N := (IMFs.headD []).length
              if test_name = "apriori" then do
                let output ← collect (fun _ imf => aprioriFlag M N alpha imf) 0 IMFs
                pure (some output)
              else do
                let ref ← pyGet IMFs (rescaling_imf - 1)
                let scaling_factor ← scalingFactor M N alpha ref
                let output ← collect (aposterioriFlag M N alpha scaling_factor rescaling_imf) 0 IMFs
                pure (some output)

end Checks
end PyEMD
