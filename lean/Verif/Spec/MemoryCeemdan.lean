import Verif.Spec.Memory
import Verif.Model.MemoryCeemdan

/-!
# What the caller of `CEEMDAN` can see of the arrays in memory
-/

namespace PyEMD
namespace Mem
namespace Spec

variable {α ρ : Type}

/-- A `CEEMDAN` object as it presents itself. -/
def shownC (h : Heap α) (o : CEEMDAN.Obj α ρ) : PyEMD.CEEMDAN.Obj α ρ :=
  { cfg := o.cfg, random := o.random, emd := o.emd
    allNoises := o.allNoises.map (fun a => h.vecs[a]?.getD [])
    allNoiseEMD := o.allNoiseEMD.map (contents h)
    C_IMF := o.C_IMF.map (fun a => h.mats[a]?.getD [])
    residue := o.residue.map (fun a => h.vecs[a]?.getD []) }

/-- The arrays of a `CEEMDAN` object exist. -/
def ValidC (h : Heap α) (o : CEEMDAN.Obj α ρ) : Prop :=
  (∀ a ∈ o.allNoises, a < h.vecs.length) ∧ (∀ r ∈ o.allNoiseEMD, r.addr < h.mats.length) ∧
  (∀ a, o.C_IMF = some a → a < h.mats.length) ∧ (∀ a, o.residue = some a → a < h.vecs.length)

/-- What the call leaves, compared with the computation on values. -/
structure SameC (h : Heap α) (out : PyM Nat × CEEMDAN.Obj α ρ × Heap α)
    (pure : PyM (List (List α)) × PyEMD.CEEMDAN.Obj α ρ) : Prop where
  untouched : Untouched h out.2.2
  result : (match out.1 with
    | .ok a => .ok (out.2.2.mats[a]?.getD [])
    | .error e => .error e) = pure.1
  object : shownC out.2.2 out.2.1 = pure.2
  valid : ValidC out.2.2 out.2.1

/-- The assignment goes to none of the one-dimensional arrays `vs` and none of the two-dimensional arrays `ms`. -/
def Write.Spares (vs ms : List Nat) : Write α → Prop
  | .vec a _ => a ∉ vs
  | .mat a _ => a ∉ ms

/-- What a user may do between two calls: seed, decompose whatever is there, make new arrays, and write into arrays, but not
into the arrays `vs` and `ms`.  `call` is the call of the decomposition, `seed` that of `noise_seed`. -/
inductive Session {O R : Type} (call : O → Nat → Option Nat → Int → Heap α → R × O × Heap α) (seed : O → Int → O) (vs ms : List Nat) :
    O → Heap α → O → Heap α → Prop
  | done (o : O) (h : Heap α) : Session call seed vs ms o h o h
  | seed (k : Int) {o o' : O} {h h' : Heap α} (rest : Session call seed vs ms (seed o k) h o' h') :
      Session call seed vs ms o h o' h'
  | call (S : Nat) (T : Option Nat) (maxImf : Int) {o o' : O} {h h' : Heap α} (hS : S < h.vecs.length)
      (hT : ∀ a, T = some a → a < h.vecs.length)
      (rest : Session call seed vs ms (call o S T maxImf h).2.1 (call o S T maxImf h).2.2 o' h') :
      Session call seed vs ms o h o' h'
  | newVec (v : List α) {o o' : O} {h h' : Heap α}
      (rest : Session call seed vs ms o { h with vecs := h.vecs ++ [v] } o' h') : Session call seed vs ms o h o' h'
  | newMat (m : List (List α)) {o o' : O} {h h' : Heap α}
      (rest : Session call seed vs ms o { h with mats := h.mats ++ [m] } o' h') : Session call seed vs ms o h o' h'
  | write (w : Write α) {o o' : O} {h h' : Heap α} (hw : w.Spares vs ms) (rest : Session call seed vs ms o (w.apply h) o' h') :
      Session call seed vs ms o h o' h'

end Spec
end Mem
end PyEMD
