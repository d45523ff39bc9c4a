import Verif.Model.Eemd

/-!
# `CEEMDAN`

Transcription of /repo/PyEMD/CEEMDAN.py:116-399.  The pseudo random generator and `np.std` are parameters.  Simplifications:

* The inner `EMD` object is represented by its configuration: `EMD.emd` depends on nothing else (`C06_history_independent`),
  and the components that it remembers are not visible through `CEEMDAN`.
* A division by zero (a constant signal, a noise component without variance, `trials = 0`), after which numpy continues with
  inf or NaN, ends the model with the pseudo-error `nonFinite`.
* The progress bar and logging are left out.
-/

namespace PyEMD
namespace CEEMDAN
open EEMD (NoiseKind generateNoise poolMap chunkSize chunkLengths)

variable {α ρ : Type} [Add α] [Sub α] [Mul α] [Div α] [Neg α] [LT α] [LE α] [BEq α]
  [DecidableLT α] [DecidableLE α] [NpScalar α]

/-- Configuration attributes.  /repo/PyEMD/CEEMDAN.py:116-135; `maxStages` is `_max_imf` (line 128, default 100). -/
structure Cfg (α : Type) where
  trials : Nat
  epsilon : α
  noiseScale : α
  rangeThr : α
  totalPowerThr : α
  betaProgress : Bool
  noiseKind : NoiseKind
  maxStages : Nat
  parallel : Bool
  processes : Nat

/-- The attributes `random`, `EMD`, `all_noises`, `all_noise_EMD`, `C_IMF`, `residue`.  /repo/PyEMD/CEEMDAN.py:116-146, 224. -/
structure Obj (α ρ : Type) where
  cfg : Cfg α
  random : ρ
  emd : EMD.Cfg α
  allNoises : List (List α)
  allNoiseEMD : List (List (List α))
  C_IMF : Option (List (List α))
  residue : Option (List α)

/-- `a / c` for an array and a scalar.  /repo/PyEMD/CEEMDAN.py:221, 339, 372. -/
def vdiv (a : List α) (c : α) : List α := a.map (fun x => x / c)

/-- `a * c`, `c * a` for an array and a scalar.  /repo/PyEMD/CEEMDAN.py:255, 268, 274, 377. -/
def vscale (c : α) (a : List α) : List α := a.map (fun x => x * c)

/-- A comprehension that may raise, evaluated from left to right. -/
def mapE {β γ : Type} (f : β → PyM γ) : List β → PyM (List γ)
  | [] => .ok []
  | x :: xs =>
    match f x with
    | .error e => .error e
    | .ok y =>
      match mapE f xs with
      | .error e => .error e
      | .ok ys => .ok (y :: ys)

/-- A flat array of `rows * cols` samples as a 2-D array (numpy fills row by row). -/
def reshape (cols : Nat) : Nat → List α → List (List α)
  | 0, _ => []
  | rows + 1, l => l.take cols :: reshape cols rows (l.drop cols)

/-- `generate_noise(noise_scale, (trials, S.size))`.  /repo/PyEMD/CEEMDAN.py:159-193, 224. -/
def noises (rng : Rng α ρ) (cfg : Cfg α) (r : ρ) (n : Nat) : PyM (List (List α)) × ρ :=
  match generateNoise rng cfg.noiseKind r cfg.noiseScale (cfg.trials * n) with
  | (.error e, r') => (.error e, r')
  | (.ok flat, r') => (.ok (reshape n cfg.trials flat), r')

/-- `CEEMDAN.emd`: the rows of the inner decomposition.  /repo/PyEMD/CEEMDAN.py:380-386. -/
def emd (fuel : Nat) (sp : SciPy α) (ecfg : EMD.Cfg α) (S : List α) (T : Option (List α)) (maxImf : Int) : PyM (List (List α)) :=
  match EMD.emdPure fuel sp ecfg S T maxImf with
  | .error e => .error e
  | .ok R => .ok R.rows

/-- Cut a list into consecutive pieces (the chunks of `pool.map`).  /repo/PyEMD/CEEMDAN.py:331. -/
def pieces {β : Type} : List Nat → List β → List (List β)
  | [], _ => []
  | n :: ns, l => l.take n :: pieces ns (l.drop n)

/-- `imfs / np.std(imfs[0])`.  /repo/PyEMD/CEEMDAN.py:337-339. -/
def normalise (std : List α → α) (imfs : List (List α)) : PyM (List (List α)) :=
  match imfs with
  | [] => .error .indexError
  | i :: _ => if std i == lit 0 then .error .nonFinite else .ok (imfs.map (fun r => vdiv r (std i)))

/-- `CEEMDAN._decompose_noise()`; `order` is the order in which the chunks of the pool finish.
/repo/PyEMD/CEEMDAN.py:328-341. -/
def decomposeNoise (std : List α → α) (fuel : Nat) (sp : SciPy α) (cfg : Cfg α) (ecfg : EMD.Cfg α) (order : List Nat)
    (allNoises : List (List α)) : PyM (List (List (List α))) :=
  let run := fun x => emd fuel sp ecfg x none (-1)
  let raw :=
    if cfg.parallel then
      poolMap ((pieces (chunkLengths cfg.trials (chunkSize cfg.trials cfg.processes)) allNoises).map (fun chunk => mapE run chunk)) order
    else mapE run allNoises
  match raw with
  | .error e => .error e
  | .ok l => if cfg.betaProgress then mapE (normalise std) l else .ok l

/-- `CEEMDAN._trial_update(trial)`.  /repo/PyEMD/CEEMDAN.py:374-378. -/
def trialUpdate (fuel : Nat) (sp : SciPy α) (cfg : Cfg α) (ecfg : EMD.Cfg α) (noiseEMD : List (List (List α))) (S T : List α)
    (maxImf : Int) (trial : Nat) : PyM (List (List α)) :=
  match noiseEMD[trial]? with
  | none => .error .indexError
  | some imfs =>
    match imfs with
    | [] => .error .indexError
    | i :: _ => emd fuel sp ecfg (vadd S (vscale cfg.epsilon i)) (some T) maxImf

/-- Body of the collecting loop: append rows of zeros, then add.  /repo/PyEMD/CEEMDAN.py:363-367. -/
def accumulate (n : Nat) (E IMFs : List (List α)) : List (List α) :=
  let E := E ++ List.replicate (IMFs.length - E.length) (vzeros n)
  List.zipWith (fun a b => vadd a b) (E.take IMFs.length) IMFs ++ E.drop IMFs.length

/-- `CEEMDAN._eemd(S, T, max_imf)`; `order` is the order in which the trials finish: `range(trials)` for `map`, any order for
`imap_unordered`.  /repo/PyEMD/CEEMDAN.py:343-372. -/
def eemd (fuel : Nat) (sp : SciPy α) (cfg : Cfg α) (ecfg : EMD.Cfg α) (noiseEMD : List (List (List α))) (order : List Nat)
    (S : List α) (T : Option (List α)) (maxImf : Int) : PyM (List (List α)) :=
  let T := match T with
    | some T => T
    | none => (List.range S.length).map (fun k : Nat => lit (k : ℚ))
  let order := if cfg.parallel then order else List.range cfg.trials
  match mapE (trialUpdate fuel sp cfg ecfg noiseEMD S T maxImf) order with
  | .error e => .error e
  | .ok rs =>
    if cfg.trials = 0 then .error .nonFinite
    else .ok ((rs.foldl (accumulate S.length) [vzeros S.length]).map (fun r => vdiv r (lit (cfg.trials : ℚ))))

/-- `CEEMDAN.end_condition(S, cIMFs, max_imf)`.  /repo/PyEMD/CEEMDAN.py:278-326. -/
def endCondition (fuel : Nat) (sp : SciPy α) (cfg : Cfg α) (ecfg : EMD.Cfg α) (S : List α) (cIMFs : List (List α)) (maxImf : Int) :
    PyM Bool := do
  if 0 < maxImf ∧ maxImf ≤ (cIMFs.length : Int) then return true
  let R := vsub S (sumRows S.length cIMFs)
  let test ← emd fuel sp ecfg R none 1
  if test.length = 1 then return true
  let mx ← npMaxE R
  let mn ← npMinE R
  if mx - mn < cfg.rangeThr then return true
  if npSum (R.map pyAbs) < cfg.totalPowerThr then return true
  return false

/-- One trial of a stage: `imfs[-1]` of the residue plus scaled noise.  /repo/PyEMD/CEEMDAN.py:250-259. -/
def stageTrial (fuel : Nat) (sp : SciPy α) (ecfg : EMD.Cfg α) (prev : List α) (T : Option (List α)) (beta : α) (k : Nat)
    (noiseImf : List (List α)) : PyM (List α) :=
  let res := match noiseImf[k]? with
    | some x => vadd prev (vscale beta x)
    | none => prev
  match emd fuel sp ecfg res T 1 with
  | .error e => .error e
  | .ok imfs =>
    match imfs.getLast? with
    | none => .error .indexError
    | some r => .ok r

/-- `local_mean` of one stage.  /repo/PyEMD/CEEMDAN.py:246-259. -/
def localMean (std : List α → α) (fuel : Nat) (sp : SciPy α) (cfg : Cfg α) (ecfg : EMD.Cfg α) (noiseEMD : List (List (List α)))
    (prev : List α) (T : Option (List α)) (k : Nat) : PyM (List α) :=
  let beta := cfg.epsilon * std prev
  match mapE (stageTrial fuel sp ecfg prev T beta k) (noiseEMD.take cfg.trials) with
  | .error e => .error e
  | .ok rs => .ok (sumRows prev.length (rs.map (fun r => vdiv r (lit (cfg.trials : ℚ)))))

/-- The stage loop `for _ in range(self._max_imf)`.  /repo/PyEMD/CEEMDAN.py:240-263. -/
def stages (std : List α → α) (fuel : Nat) (sp : SciPy α) (cfg : Cfg α) (ecfg : EMD.Cfg α) (noiseEMD : List (List (List α)))
    (S : List α) (T : Option (List α)) (maxImf : Int) : Nat → List (List α) → List α → PyM (List (List α))
  | 0, cimfs, _ => .ok cimfs
  | n + 1, cimfs, prev =>
    match endCondition fuel sp cfg ecfg S cimfs maxImf with
    | .error e => .error e
    | .ok true => .ok cimfs
    | .ok false =>
      match localMean std fuel sp cfg ecfg noiseEMD prev T cimfs.length with
      | .error e => .error e
      | .ok lm => stages std fuel sp cfg ecfg noiseEMD S T maxImf n (cimfs ++ [vsub prev lm]) lm

/-- Everything between the noise decomposition and the final scaling; `S` is the normalised signal.
/repo/PyEMD/CEEMDAN.py:230-267. -/
def body (std : List α → α) (fuel : Nat) (sp : SciPy α) (cfg : Cfg α) (ecfg : EMD.Cfg α) (noiseEMD : List (List (List α)))
    (order : List Nat) (S : List α) (T : Option (List α)) (maxImf : Int) : PyM (List (List α)) :=
  match eemd fuel sp cfg ecfg noiseEMD order S T 1 with
  | .error e => .error e
  | .ok E =>
    match E with
    | [] => .error .indexError
    | first :: _ =>
      match stages std fuel sp cfg ecfg noiseEMD S T maxImf cfg.maxStages [first] (vsub S first) with
      | .error e => .error e
      | .ok cimfs => .ok (cimfs ++ [vsub S (sumRows S.length cimfs)])

/-- `CEEMDAN.ceemdan(S, T, max_imf)`; `orderN` and `orderT` are the orders in which the chunks of the noise decomposition and
the trials of the first stage finish (parallel mode only).  /repo/PyEMD/CEEMDAN.py:199-276. -/
def Obj.ceemdan (rng : Rng α ρ) (std : List α → α) (fuel : Nat) (sp : SciPy α) (orderN orderT : List Nat) (o : Obj α ρ)
    (S : List α) (T : Option (List α)) (maxImf : Int) : PyM (List (List α)) × Obj α ρ :=
  let scale := std S
  if scale == lit 0 then (.error .nonFinite, o)
  else
    let S := vdiv S scale
    match noises rng o.cfg o.random S.length with
    | (.error e, r) => (.error e, { o with random := r })
    | (.ok x, r) =>
      let o := { o with random := r, allNoises := x }
      match decomposeNoise std fuel sp o.cfg o.emd orderN x with
      | .error e => (.error e, o)
      | .ok noiseEMD =>
        match body std fuel sp o.cfg o.emd noiseEMD orderT S T maxImf with
        | .error e => (.error e, { o with allNoiseEMD := noiseEMD })
        | .ok cimfs =>
          let C := cimfs.map (vscale scale)
          (.ok C, { o with
            allNoiseEMD := []
            C_IMF := some C
            residue := some (vsub (vscale scale S) (sumRows S.length C)) })

/-- `CEEMDAN.noise_seed(seed)`.  /repo/PyEMD/CEEMDAN.py:195-197. -/
def Obj.noiseSeed (rng : Rng α ρ) (o : Obj α ρ) (s : Int) : Obj α ρ := { o with random := rng.seed s }

/-- A new object.  /repo/PyEMD/CEEMDAN.py:116-146. -/
def Obj.new (cfg : Cfg α) (ecfg : EMD.Cfg α) (r : ρ) : Obj α ρ :=
  { cfg, random := r, emd := ecfg, allNoises := [], allNoiseEMD := [], C_IMF := none, residue := none }

/-- `CEEMDAN.get_imfs_and_residue()`.  /repo/PyEMD/CEEMDAN.py:388-395. -/
def Obj.getImfsAndResidue (o : Obj α ρ) : PyM (List (List α) × List α) :=
  match o.C_IMF, o.residue with
  | some c, some r => .ok (c, r)
  | _, _ => .error .valueError

end CEEMDAN
end PyEMD
