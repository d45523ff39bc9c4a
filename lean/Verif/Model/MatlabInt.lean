import Verif.Model.Matlab

/-!
# `EMD_matlab` on integer samples

Without a time array `EMD_matlab.emd` makes one of the dtype of the signal and does not normalise it
(/repo/PyEMD/EMD_matlab.py:464-471), so that `self.DTYPE` is the integer type of the samples.  The proto-IMFs are floating
arrays all the same (division by `scale`, 475), but knots and envelopes are converted to `self.DTYPE`:
`np.array([tmax, zmax], dtype=self.DTYPE)` (217-218) and `interp1d(...)(t).astype(self.DTYPE)` (254, 259, 303).
-/

namespace PyEMD
namespace Matlab

variable {α : Type} [Add α] [Sub α] [Mul α] [Div α] [Neg α] [LT α] [LE α] [BEq α]
  [DecidableLT α] [DecidableLE α] [NpScalar α]

/-- Conversion to a signed integer type that holds the values: the fraction is cut off.
/repo/PyEMD/EMD_matlab.py:217-218, 254, 259, 303. -/
def cut (x : α) : α := lit (NpScalar.toInt x : ℚ)

/-- `emd(S, maxImf=maxImf)` for samples of a signed integer type wide enough for samples, stamps and their mirror images.
/repo/PyEMD/EMD_matlab.py:431-623. -/
def emdInt (fuel : Nat) (sp : SciPy α) (cfg : Cfg α) (S : List α) (maxImf : Int) : PyM (Result α) :=
  emd fuel sp { cfg with convert := cut } S none maxImf

/-- Arithmetic of `uint8` stamps: it wraps around.  /repo/PyEMD/EMD_matlab.py:465, 175-205. -/
instance byteScalar : NpScalar UInt8 where
  lit q := UInt8.ofNat (q.floor % 256).toNat
  toInt x := x.toNat
  npSum l := l.foldl (· + ·) 0
  npMax l := l.foldl (fun a b => if a < b then b else a) 0
  npMin l := l.foldl (fun a b => if b < a then b else a) 255

/-- `np.arange(n, dtype=np.uint8)`.  /repo/PyEMD/EMD_matlab.py:465. -/
def byteTimes (n : Nat) : List UInt8 := (List.range n).map UInt8.ofNat

end Matlab
end PyEMD
