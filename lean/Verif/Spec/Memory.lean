import Verif.Model.Memory
import Verif.Model.MemoryEemd

/-!
# What the caller of a function that works on arrays in memory can see
-/

namespace PyEMD
namespace Mem
namespace Spec

variable {α : Type}

/-- Every array that existed in `h` has the same contents in `h'`. -/
def Untouched (h h' : Heap α) : Prop :=
  (∀ (a : Nat) v, h.vecs[a]? = some v → h'.vecs[a]? = some v) ∧ (∀ (a : Nat) v, h.mats[a]? = some v → h'.mats[a]? = some v)

/-- The contents behind a reference. -/
def contents (h : Heap α) (r : MatRef) : List (List α) := (h.mats[r.addr]?.getD []).take r.rows

/-- The object as it presents itself: the contents of its arrays. -/
def shown (h : Heap α) (o : Obj α) : EMD.Obj α :=
  { cfg := o.cfg, imfs := o.imfs.map (fun a => h.mats[a]?.getD []), residue := o.residue.map (fun a => h.vecs[a]?.getD []) }

/-- The arrays of the object exist. -/
def Valid (h : Heap α) (o : Obj α) : Prop :=
  (∀ a, o.imfs = some a → a < h.mats.length) ∧ (∀ a, o.residue = some a → a < h.vecs.length)

/-- An assignment into an array, by whoever holds a reference to it. -/
inductive Write (α : Type)
  | vec (a : Nat) (v : List α)
  | mat (a : Nat) (m : List (List α))

/-- The memory after an assignment. -/
def Write.apply (h : Heap α) : Write α → Heap α
  | .vec a v => { h with vecs := h.vecs.set a v }
  | .mat a m => { h with mats := h.mats.set a m }

/-- The assignment goes to an array that existed in `h`, or to the two-dimensional array `out`. -/
def Write.Within (h : Heap α) (out : Nat) : Write α → Prop
  | .vec a _ => a < h.vecs.length
  | .mat a _ => a < h.mats.length ∨ a = out

/-- An `EEMD` object as it presents itself. -/
def shownE {ρ : Type} (h : Heap α) (o : EEMD.Obj α ρ) : PyEMD.EEMD.Obj α ρ :=
  { cfg := o.cfg, random := o.random, emd := shown h o.emd
    E_IMF := o.E_IMF.map (fun a => h.mats[a]?.getD [])
    residue := o.residue.map (fun a => h.vecs[a]?.getD [])
    allImfs := o.allImfs.map (fun p => (p.1, p.2.map (EEMD.RowRef.read h))) }

/-- The array behind a row exists. -/
def ValidRow (h : Heap α) : EEMD.RowRef → Prop
  | .row a _ => a < h.mats.length
  | .vec a => a < h.vecs.length

/-- The arrays of an `EEMD` object exist. -/
def ValidE {ρ : Type} (h : Heap α) (o : EEMD.Obj α ρ) : Prop :=
  Valid h o.emd ∧ (∀ a, o.E_IMF = some a → a < h.mats.length) ∧ (∀ a, o.residue = some a → a < h.vecs.length) ∧
  (∀ p ∈ o.allImfs, ∀ r ∈ p.2, ValidRow h r)

/-- What the call leaves, compared with the computation on values. -/
structure Same {ρ : Type} (h : Heap α) (out : PyM Nat × EEMD.Obj α ρ × Heap α) (pure : PyM (List (List α)) × PyEMD.EEMD.Obj α ρ) : Prop where
  untouched : Untouched h out.2.2
  result : (match out.1 with
    | .ok a => .ok (out.2.2.mats[a]?.getD [])
    | .error e => .error e) = pure.1
  object : shownE out.2.2 out.2.1 = pure.2
  valid : ValidE out.2.2 out.2.1

/-- The assignment goes to an array that existed in `h`. -/
def Write.Before (h : Heap α) : Write α → Prop
  | .vec a _ => a < h.vecs.length
  | .mat a _ => a < h.mats.length

end Spec
end Mem
end PyEMD
