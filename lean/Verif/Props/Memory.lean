import Verif.Lemmas.Memory
import Verif.Spec.Memory
import Verif.Model.Scipy
import Mathlib.Data.Rat.Floor

/-!
# Properties C114, C115: arrays in memory
-/

set_option linter.unusedSectionVars false

namespace PyEMD
namespace Mem
open Spec

section
variable {α : Type} [Add α] [Sub α] [Mul α] [Div α] [Neg α] [LT α] [LE α] [BEq α]
  [DecidableLT α] [DecidableLE α] [NpScalar α]

theorem Keeps.untouched {h h' : Heap α} (k : Keeps h.vecs.length h.mats.length h h') : Untouched h h' :=
  ⟨fun a v e => (k.1 a (lt_of_cell e)).trans e, fun a v e => (k.2.1 a (lt_of_cell e)).trans e⟩

/-- What `emd` leaves behind, in terms of the computation on values. -/
theorem emd_cases {fuel : Nat} {sp : SciPy α} {o : Obj α} {S : Nat} {T : Option Nat} {max_imf : Int} {s : List α}
    {h : Heap α} (hS : h.vecs[S]? = some s) :
    Untouched h (o.emd fuel sp S T max_imf h).2.2 ∧
    ((∃ e, EMD.emdPure fuel sp o.cfg s (T.map (fun a => h.vecs[a]?.getD [])) max_imf = .error e ∧
        (o.emd fuel sp S T max_imf h).1 = .error e ∧ (o.emd fuel sp S T max_imf h).2.1 = o) ∨
     (∃ c ref i d, EMD.emdPure fuel sp o.cfg s (T.map (fun a => h.vecs[a]?.getD [])) max_imf = .ok c ∧
        (o.emd fuel sp S T max_imf h).1 = .ok ref ∧
        (o.emd fuel sp S T max_imf h).2.1 = { o with imfs := some i, residue := some d } ∧
        contents (o.emd fuel sp S T max_imf h).2.2 ref = c.rows ∧
        (o.emd fuel sp S T max_imf h).2.2.mats[i]? = some c.imfs ∧
        (o.emd fuel sp S T max_imf h).2.2.vecs[d]? = some c.residue ∧
        ref.addr ≠ i ∧ h.mats.length ≤ ref.addr ∧ h.mats.length ≤ i ∧ h.vecs.length ≤ d ∧
        (∃ m, (o.emd fuel sp S T max_imf h).2.2.mats[ref.addr]? = some m ∧ ref.rows ≤ m.length))) := by
  have hs := emd_sim (fuel := fuel) (sp := sp) (cfg := o.cfg) (T := T) (max_imf := max_imf) hS
  unfold Obj.emd
  obtain ⟨k, hs⟩ := hs
  cases hr : Mem.emd fuel sp o.cfg S T max_imf h with
  | mk r h' =>
    rw [hr] at k hs
    cases r with
    | error e =>
      refine ⟨k.untouched, Or.inl ⟨e, ?_, rfl, rfl⟩⟩
      cases hp : EMD.emdPure fuel sp o.cfg s (T.map (fun a => h.vecs[a]?.getD [])) max_imf with
      | error e' => rw [hp] at hs; exact congrArg _ hs.symm
      | ok c => rw [hp] at hs; exact hs.elim
    | ok b =>
      refine ⟨k.untouched, Or.inr ?_⟩
      cases hp : EMD.emdPure fuel sp o.cfg s (T.map (fun a => h.vecs[a]?.getD [])) max_imf with
      | error e' => rw [hp] at hs; exact hs.elim
      | ok c =>
        rw [hp] at hs
        obtain ⟨a1, a2, a3, a4, a5, a6, a7, a8⟩ := hs
        exact ⟨c, b.rows, b.imfs, b.residue, rfl, rfl, rfl, a1, a2, a3, a4, a5, a6, a7, a8⟩

/-- **C114 (arguments).**  `EMD.emd` changes none of the arrays that existed before the call: not the signal, not the time
array, not the results of earlier calls; also when it raises. -/
theorem C114_arguments_untouched (fuel : Nat) (sp : SciPy α) (o : Obj α) (S : Nat) (T : Option Nat) (max_imf : Int)
    (s : List α) (h : Heap α) (hS : h.vecs[S]? = some s) : Untouched h (o.emd fuel sp S T max_imf h).2.2 :=
  (emd_cases hS).1

/-- **C114 (values).**  What is returned, raised and stored depends on the contents of the arguments only and is what the
decomposition computes from them as values (`EMD.Obj.emd`, the subject of the other properties): assignments into `residue`,
`mean` and `imf` do not interfere, and it does not matter whether `S` and `T` are the same array. -/
theorem C114_values (fuel : Nat) (sp : SciPy α) (o : Obj α) (S : Nat) (T : Option Nat) (max_imf : Int)
    (s : List α) (h : Heap α) (hS : h.vecs[S]? = some s) (ho : Valid h o) :
    (match (o.emd fuel sp S T max_imf h).1 with
      | .ok ref => .ok (contents (o.emd fuel sp S T max_imf h).2.2 ref)
      | .error e => .error e) =
      ((shown h o).emd fuel sp s (T.map (fun a => h.vecs[a]?.getD [])) max_imf).1 ∧
    shown (o.emd fuel sp S T max_imf h).2.2 (o.emd fuel sp S T max_imf h).2.1 =
      ((shown h o).emd fuel sp s (T.map (fun a => h.vecs[a]?.getD [])) max_imf).2 ∧
    Valid (o.emd fuel sp S T max_imf h).2.2 (o.emd fuel sp S T max_imf h).2.1 := by
  obtain ⟨hu, hc⟩ := emd_cases (fuel := fuel) (sp := sp) (o := o) (T := T) (max_imf := max_imf) hS
  have hcfg : (shown h o).cfg = o.cfg := rfl
  rcases hc with ⟨e, h1, h2, h3⟩ | ⟨c, ref, i, d, h1, h2, h3, h4, h5, h6, _⟩
  · rw [h2, h3]
    unfold EMD.Obj.emd
    rw [hcfg, h1]
    have gm : ∀ a, o.imfs = some a → (o.emd fuel sp S T max_imf h).2.2.mats[a]? = h.mats[a]? := fun a ha => by
      have hl := ho.1 a ha
      rw [List.getElem?_eq_getElem hl]
      exact hu.2 a _ (List.getElem?_eq_getElem hl)
    have gv : ∀ a, o.residue = some a → (o.emd fuel sp S T max_imf h).2.2.vecs[a]? = h.vecs[a]? := fun a ha => by
      have hl := ho.2 a ha
      rw [List.getElem?_eq_getElem hl]
      exact hu.1 a _ (List.getElem?_eq_getElem hl)
    refine ⟨rfl, ?_, fun a ha => ?_, fun a ha => ?_⟩
    · unfold shown
      congr 1
      · cases hi : o.imfs with
        | none => rfl
        | some a => simp [gm a hi]
      · cases hi : o.residue with
        | none => rfl
        | some a => simp [gv a hi]
    · have hl := ho.1 a ha
      exact lt_of_cell ((gm a ha).trans (List.getElem?_eq_getElem hl))
    · have hl := ho.2 a ha
      exact lt_of_cell ((gv a ha).trans (List.getElem?_eq_getElem hl))
  · rw [h2, h3]
    unfold EMD.Obj.emd
    rw [hcfg, h1]
    refine ⟨congrArg Except.ok h4, by simp [shown, h5, h6], fun a ha => ?_, fun a ha => ?_⟩
    · cases ha; exact lt_of_cell h5
    · cases ha; exact lt_of_cell h6

/-- **C114 (the result is the caller's).**  After a successful call the caller may overwrite the arguments, every other array
that existed before, and the returned array, any number of times: what the object stores, and so what its accessors show,
stays the result of the call. -/
theorem C114_result_is_own (fuel : Nat) (sp : SciPy α) (o : Obj α) (S : Nat) (T : Option Nat) (max_imf : Int)
    (s : List α) (h : Heap α) (hS : h.vecs[S]? = some s) (ref : MatRef)
    (hok : (o.emd fuel sp S T max_imf h).1 = .ok ref) (ws : List (Write α)) (hw : ∀ w ∈ ws, w.Within h ref.addr) :
    shown (ws.foldl Write.apply (o.emd fuel sp S T max_imf h).2.2) (o.emd fuel sp S T max_imf h).2.1 =
      shown (o.emd fuel sp S T max_imf h).2.2 (o.emd fuel sp S T max_imf h).2.1 := by
  obtain ⟨_, hc⟩ := emd_cases (fuel := fuel) (sp := sp) (o := o) (T := T) (max_imf := max_imf) hS
  rcases hc with ⟨e, h1, h2, h3⟩ | ⟨c, ref', i, d, h1, h2, h3, h4, h5, h6, h7, h8, h9, h10, _⟩
  · rw [h2] at hok; cases hok
  · rw [h2] at hok
    cases hok
    rw [h3]
    have key : ∀ (ws : List (Write α)) (g : Heap α), (∀ w ∈ ws, w.Within h ref.addr) →
        (ws.foldl Write.apply g).mats[i]? = g.mats[i]? ∧ (ws.foldl Write.apply g).vecs[d]? = g.vecs[d]? := by
      intro ws
      induction ws with
      | nil => exact fun g _ => ⟨rfl, rfl⟩
      | cons w ws ih =>
        intro g hw
        have hh := hw w List.mem_cons_self
        obtain ⟨i1, i2⟩ := ih (w.apply g) (fun w' hw' => hw w' (List.mem_cons_of_mem _ hw'))
        rw [List.foldl_cons, i1, i2]
        cases w with
        | vec a v =>
          refine ⟨rfl, ?_⟩
          have : a < h.vecs.length := hh
          exact List.getElem?_set_ne (by omega)
        | mat a m =>
          refine ⟨?_, rfl⟩
          have : a < h.mats.length ∨ a = ref.addr := hh
          refine List.getElem?_set_ne ?_
          rcases this with h' | h'
          · omega
          · rw [h']; exact h7
    obtain ⟨k1, k2⟩ := key ws _ hw
    unfold shown
    simp only [Option.map_some]
    rw [k1, k2]

/-- **C115 (partial).**  If the residue vanishes, `get_imfs_and_trend` hands out new arrays: overwriting them changes nothing
the object stores.

Full claim: *what the accessors hand out is the caller's, so that writing into it does not change what the object answers
later*.  It fails for `get_imfs_and_residue` always, and for `get_imfs_and_trend` if the residue does not vanish
(`C115_counterexample`): these hand out the stored arrays. -/
theorem C115_copies_partial (o : Obj α) (h : Heap α) (ho : Valid h o) (d : Nat) (hd : o.residue = some d)
    (r : List α) (hr : h.vecs[d]? = some r) (hz : allclose0 r = true) (i t : Nat)
    (hok : (o.getImfsAndTrend h).1 = .ok (i, t)) (m : List (List α)) (v : List α) :
    shown (Write.apply (Write.apply (o.getImfsAndTrend h).2 (.mat i m)) (.vec t v)) o = shown h o := by
  obtain ⟨cfg, oi, od⟩ := o
  cases hd
  cases oi with
  | none => cases hok
  | some a =>
    have ha : a < h.mats.length := ho.1 a rfl
    have hdl := lt_of_cell hr
    have e : Obj.getImfsAndTrend { cfg, imfs := some a, residue := some d } h =
        (do
          let last ← py (pyGet (h.mats[a]?.getD []) (-1))
          return (← newMat (h.mats[a]?.getD []).dropLast, ← newVec last) : MemM α (Nat × Nat)) h := by
      unfold Obj.getImfsAndTrend
      have e0 : Obj.getImfsAndResidue { cfg, imfs := some a, residue := some d } h = (.ok (a, d), h) := rfl
      refine (run_bind e0).trans ?_
      refine (run_bind (readVec_eq hr)).trans ?_
      refine (congrFun (if_pos hz) h).trans ?_
      rfl
    rw [e] at hok ⊢
    cases hg : pyGet (h.mats[a]?.getD []) (-1) with
    | error err => rw [hg] at hok; cases hok
    | ok last =>
      rw [hg] at hok
      simp only [bind, pure, py, newMat, newVec] at hok ⊢
      injection hok with hok
      injection hok with h1 h2
      subst h1 h2
      simp only [Write.apply, shown, Option.map_some]
      rw [List.getElem?_set_ne (by omega), List.getElem?_set_ne (by omega),
        List.getElem?_append_left ha, List.getElem?_append_left hdl]

end

/-! ### Concrete cases -/

/-- A memory with one array, the signal 0, 1, 2, and an object that has not been used. -/
def heap0 : Heap ℚ := { vecs := [[0, 1, 2]], mats := [] }
def obj0 : Obj ℚ := { cfg := EMD.Cfg.default, imfs := none, residue := none }
/-- A memory with a signal that has four inner extrema. -/
def heap1 : Heap ℚ := { vecs := [[0, 2, -1, 3, -2, 1, 0]], mats := [] }
def obj1 : Obj ℚ := { cfg := { EMD.Cfg.default with FIXE := 1, splineKind := .slinear }, imfs := none, residue := none }

/-- C114 on a signal with extrema: `S` is read back unchanged, two rows are returned, and overwriting the returned array and
the signal leaves the stored component. -/
example :
    let out := obj1.emd 5 Scipy.scipy 0 none 1 heap1
    out.2.2.vecs[0]? = some ([0, 2, -1, 3, -2, 1, 0] : List ℚ) ∧
    (match out.1 with
      | .ok ref => (contents out.2.2 ref).length == 2 && (ref.addr != 0) &&
          (((shown (Write.apply (Write.apply out.2.2 (.mat ref.addr [])) (.vec 0 [])) out.2.1).imfs.getD []).length == 1)
      | .error _ => false) = true := by decide +kernel

/-- The hypothesis of C114 is met by both memories. -/
example : heap0.vecs[0]? = some ([0, 1, 2] : List ℚ) ∧ Valid heap0 obj0 :=
  ⟨rfl, fun _ h => (by cases h), fun _ h => (by cases h)⟩

/-- C114 when the signal is its own time array. -/
example : (match (obj1.emd 5 Scipy.scipy 0 (some 0) 1 heap1).1 with | .ok _ => true | .error _ => false) = true := by
  decide +kernel

/-- **C115 (counterexample).**  Decompose 0, 1, 2, ask for imfs and residue, set the residue obtained to zero:
`get_imfs_and_residue` now shows a zero residue, and `get_imfs_and_trend`, which returned the trend 0, 1, 2 before, raises
`IndexError`. -/
theorem C115_counterexample :
    let out := obj0.emd 5 Scipy.scipy 0 none (-1) heap0
    let got := out.2.1.getImfsAndResidue out.2.2
    (match got.1 with
      | .ok (_, d) =>
        let h' := Write.apply out.2.2 (.vec d [0, 0, 0])
        ((shown out.2.2 out.2.1).residue == some ([0, 1, 2] : List ℚ)) && ((shown h' out.2.1).residue == some ([0, 0, 0] : List ℚ)) &&
        (match (out.2.1.getImfsAndTrend out.2.2).1 with | .ok (_, t) => out.2.2.vecs[t]? == some ([0, 1, 2] : List ℚ) | .error _ => false) &&
        (match (out.2.1.getImfsAndTrend h').1 with | .ok _ => false | .error e => decide (e = .indexError))
      | .error _ => false) = true := by
  decide +kernel

/-- C115: an object with one component and a vanishing residue meets the hypotheses. -/
example : allclose0 ([0, 0, 0] : List ℚ) = true ∧
    (match (Obj.getImfsAndTrend ({ obj0 with imfs := some 0, residue := some 0 } : Obj ℚ)
      { vecs := [[0, 0, 0]], mats := [[[1, -1, 1]]] }).1 with | .ok (1, 1) => true | _ => false) = true := by
  decide +kernel

end Mem
end PyEMD
