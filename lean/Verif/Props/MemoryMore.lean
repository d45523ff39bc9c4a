import Verif.Lemmas.MemoryMatlab
import Verif.Props.Memory

/-!
# Properties C138, C139: `JitEMD` and `EMD_matlab` with arrays in memory
-/

set_option linter.unusedSectionVars false

namespace PyEMD
namespace Mem
open Spec

namespace Spec
variable {α : Type}

/-- A `JitEMD` object as it presents itself: the rows seen through its views. -/
def shownJ (h : Heap α) (o : Jit.Obj α) : PyEMD.Jit.Obj α :=
  { cfg := o.cfg, imfs := o.imfs.map (Jit.View.read h), residue := o.residue.map (Jit.View.read h) }

/-- The arrays behind the views of the object exist. -/
def ValidJ (h : Heap α) (o : Jit.Obj α) : Prop :=
  (∀ v, o.imfs = some v → v.addr < h.mats.length) ∧ (∀ v, o.residue = some v → v.addr < h.mats.length)

/-- The result of `EMD_matlab.emd` with the contents of its arrays. -/
def shownM (h : Heap α) (r : Matlab.Result) : PyEMD.Matlab.Result α :=
  { IMF := r.IMF.map (fun p => (p.1, h.vecs[p.2]?.getD [])), EXT := r.EXT, ITER := r.ITER, imfNo := r.imfNo, ends := r.ends }

end Spec

section
variable {α : Type} [Add α] [Sub α] [Mul α] [Div α] [Neg α] [LT α] [LE α] [BEq α]
  [DecidableLT α] [DecidableLE α] [NpScalar α]

/-! ### JitEMD -/

theorem slice_init (R : List (List α)) : pySlice R 0 (-1) = R.dropLast := by
  rcases R with _ | ⟨a, R⟩
  · rfl
  · have h1 : sliceBound (R.length + 1) 0 = 0 := by simp [sliceBound]
    have h2 : sliceBound (R.length + 1) (-1) = R.length := by simp [sliceBound]
    simp [pySlice, h1, h2, List.dropLast_eq_take]

theorem slice_last (R : List (List α)) : pySliceFrom R (-1) = R.drop (R.length - 1) := by
  rcases R with _ | ⟨a, R⟩
  · rfl
  · have h2 : sliceBound (R.length + 1) (-1) = R.length := by simp [sliceBound]
    simp [pySliceFrom, h2]

/-- What `JitEMD.emd` leaves behind, in terms of the computation on values. -/
theorem jit_cases {fuel : Nat} {sp : SciPy α} {o : Jit.Obj α} {S T : Nat} {max_imf : Int} {s t : List α}
    {h : Heap α} (hS : h.vecs[S]? = some s) (hT : h.vecs[T]? = some t) :
    Untouched h (o.emd fuel sp S T max_imf h).2.2 ∧
    ((∃ e, PyEMD.Jit.emd fuel sp o.cfg s t max_imf = .error e ∧
        (o.emd fuel sp S T max_imf h).1 = .error e ∧ (o.emd fuel sp S T max_imf h).2.1 = o) ∨
     (∃ R ref M, PyEMD.Jit.emd fuel sp o.cfg s t max_imf = .ok R ∧ (o.emd fuel sp S T max_imf h).1 = .ok ref ∧
        (o.emd fuel sp S T max_imf h).2.1 = { o with imfs := some ⟨ref.addr, 0, ref.rows - 1⟩, residue := some ⟨ref.addr, ref.rows - 1, ref.rows⟩ } ∧
        h.mats.length ≤ ref.addr ∧ ref.rows = R.length ∧ (o.emd fuel sp S T max_imf h).2.2.mats[ref.addr]? = some M ∧ M.take ref.rows = R)) := by
  obtain ⟨k, hs⟩ := Jit.emd_sim (fuel := fuel) (sp := sp) (cfg := o.cfg) (max_imf := max_imf) hS hT
  unfold Jit.Obj.emd
  cases hr : Jit.emd fuel sp o.cfg S T max_imf h with
  | mk r h' =>
    rw [hr] at k hs
    cases r with
    | error e =>
      cases hp : PyEMD.Jit.emd fuel sp o.cfg s t max_imf with
      | error e' =>
        rw [hp] at hs
        exact ⟨k.untouched, .inl ⟨e', rfl, by rw [hs], rfl⟩⟩
      | ok R => rw [hp] at hs; exact hs.elim
    | ok ref =>
      cases hp : PyEMD.Jit.emd fuel sp o.cfg s t max_imf with
      | error e' => rw [hp] at hs; exact hs.elim
      | ok R =>
        rw [hp] at hs
        obtain ⟨h1, h2, M, h3, h4⟩ := hs
        exact ⟨k.untouched, .inr ⟨R, ref, M, rfl, rfl, rfl, h1, h2, h3, h4⟩⟩

/-- **C138 (JitEMD, arguments).**  `JitEMD.emd` leaves every array that existed before as it was, also when it raises. -/
theorem C138_jit_untouched (fuel : Nat) (sp : SciPy α) (o : Jit.Obj α) (S T : Nat) (max_imf : Int) (s t : List α) (h : Heap α)
    (hS : h.vecs[S]? = some s) (hT : h.vecs[T]? = some t) : Untouched h (o.emd fuel sp S T max_imf h).2.2 :=
  (jit_cases hS hT).1

/-- **C138 (JitEMD, values).**  What is returned, raised and stored is what the decomposition computes from the contents of the arguments
(`Jit.Obj.emd`, the subject of the other properties); `S` and `T` may be the same array. -/
theorem C138_jit_values (fuel : Nat) (sp : SciPy α) (o : Jit.Obj α) (S T : Nat) (max_imf : Int) (s t : List α) (h : Heap α)
    (hS : h.vecs[S]? = some s) (hT : h.vecs[T]? = some t) (ho : ValidJ h o) :
    (match (o.emd fuel sp S T max_imf h).1 with
      | .ok ref => .ok (contents (o.emd fuel sp S T max_imf h).2.2 ref)
      | .error e => .error e) = ((shownJ h o).emd fuel sp s t max_imf).1 ∧
    shownJ (o.emd fuel sp S T max_imf h).2.2 (o.emd fuel sp S T max_imf h).2.1 = ((shownJ h o).emd fuel sp s t max_imf).2 ∧
    ValidJ (o.emd fuel sp S T max_imf h).2.2 (o.emd fuel sp S T max_imf h).2.1 := by
  obtain ⟨hu, hc⟩ := jit_cases (fuel := fuel) (sp := sp) (o := o) (max_imf := max_imf) hS hT
  have hcfg : (shownJ h o).cfg = o.cfg := rfl
  rcases hc with ⟨e, h1, h2, h3⟩ | ⟨R, ref, M, h1, h2, h3, h4, h5, h6, h7⟩
  · rw [h2, h3]
    unfold PyEMD.Jit.Obj.emd
    rw [hcfg, h1]
    have gm : ∀ a < h.mats.length, (o.emd fuel sp S T max_imf h).2.2.mats[a]? = h.mats[a]? := fun a hl => by
      rw [List.getElem?_eq_getElem hl]
      exact hu.2 a _ (List.getElem?_eq_getElem hl)
    refine ⟨rfl, ?_, fun v hv => ?_, fun v hv => ?_⟩
    · unfold shownJ
      congr 1
      · cases hi : o.imfs with
        | none => rfl
        | some v => simp [Jit.View.read, gm _ (ho.1 v hi)]
      · cases hi : o.residue with
        | none => rfl
        | some v => simp [Jit.View.read, gm _ (ho.2 v hi)]
    · have hl := ho.1 v hv
      exact lt_of_cell ((gm _ hl).trans (List.getElem?_eq_getElem hl))
    · have hl := ho.2 v hv
      exact lt_of_cell ((gm _ hl).trans (List.getElem?_eq_getElem hl))
  · rw [h2, h3]
    unfold PyEMD.Jit.Obj.emd
    rw [hcfg, h1]
    refine ⟨?_, ?_, fun v hv => ?_, fun v hv => ?_⟩
    · simp only [contents, h6, Option.getD_some, h7]
    · have e1 : M.take (ref.rows - 1) = R.dropLast := by
        rw [List.dropLast_eq_take, ← h5, ← h7, List.take_take, h5, Nat.min_eq_left (by omega)]
      rw [h5] at e1 h7
      simp only [shownJ, Jit.View.read, h6, slice_init, slice_last, Option.map_some, Option.getD_some, h5, h7, e1, List.drop_zero]
    · cases hv; exact lt_of_cell h6
    · cases hv; exact lt_of_cell h6

/-- **C138 (JitEMD, accessor).**  What `get_imfs_and_trend` hands out or raises, read from memory, is what `Jit.Obj.getImfsAndTrend` (the subject of
the other properties) computes from what the object shows; every array that existed before stays as it was. -/
theorem C138_jit_accessor (o : Jit.Obj α) (h : Heap α) :
    (match (o.getImfsAndTrend h).1 with
      | .ok (i, t) => .ok (i.read (o.getImfsAndTrend h).2, t.read (o.getImfsAndTrend h).2)
      | .error e => .error e) = (shownJ h o).getImfsAndTrend ∧
    Untouched h (o.getImfsAndTrend h).2 := by
  obtain ⟨cfg, oi, od⟩ := o
  cases oi with
  | none => exact ⟨rfl, fun _ _ e => e, fun _ _ e => e⟩
  | some v =>
    cases od with
    | none => exact ⟨rfl, fun _ _ e => e, fun _ _ e => e⟩
    | some r =>
      by_cases hz : (r.read h).all allclose0 = true
      · have e : Jit.Obj.getImfsAndTrend { cfg, imfs := some v, residue := some r } h =
            (do
              let m := v.read h
              let last ← py (pyGet m (-1))
              let a ← newMat (pySlice m 0 (-1))
              let b ← newMat [last]
              return (⟨a, 0, (pySlice m 0 (-1)).length⟩, ⟨b, 0, 1⟩) : MemM α (Jit.View × Jit.View)) h :=
          congrFun (if_pos hz) h
        have e' : (shownJ h { cfg, imfs := some v, residue := some r }).getImfsAndTrend =
            (do
              let last ← pyGet (v.read h) (-1)
              return (pySlice (v.read h) 0 (-1), [last])) := if_pos hz
        rw [e, e']
        cases hg : pyGet (v.read h) (-1) with
        | error err =>
          simp only [bind, pure, py, hg, Except.bind]
          exact ⟨trivial, fun _ _ e => e, fun _ _ e => e⟩
        | ok last =>
          generalize v.read h = m at hg
          simp only [bind, pure, py, newMat, hg, Except.bind, Except.pure]
          refine ⟨?_, fun _ _ e => e, fun a m ha => ?_⟩
          · simp [Jit.View.read]
          · have hl := lt_of_cell ha
            rw [List.append_assoc, List.getElem?_append_left hl]
            exact ha
      · have e : Jit.Obj.getImfsAndTrend { cfg, imfs := some v, residue := some r } h = (.ok (v, r), h) := congrFun (if_neg hz) h
        have e' : (shownJ h { cfg, imfs := some v, residue := some r }).getImfsAndTrend = .ok (v.read h, r.read h) := if_neg hz
        rw [e, e']
        exact ⟨rfl, fun _ _ e => e, fun _ _ e => e⟩

/-- **C139 (partial: the arguments).**  After a successful call the caller may overwrite the arguments and every other array that existed
before: what the object shows stays. -/
theorem C139_arguments_partial (fuel : Nat) (sp : SciPy α) (o : Jit.Obj α) (S T : Nat) (max_imf : Int) (s t : List α) (h : Heap α)
    (hS : h.vecs[S]? = some s) (hT : h.vecs[T]? = some t) (ref : MatRef) (hok : (o.emd fuel sp S T max_imf h).1 = .ok ref)
    (ws : List (Write α)) (hw : ∀ w ∈ ws, w.Before h) :
    shownJ (ws.foldl Write.apply (o.emd fuel sp S T max_imf h).2.2) (o.emd fuel sp S T max_imf h).2.1 =
      shownJ (o.emd fuel sp S T max_imf h).2.2 (o.emd fuel sp S T max_imf h).2.1 := by
  obtain ⟨_, hc⟩ := jit_cases (fuel := fuel) (sp := sp) (o := o) (max_imf := max_imf) hS hT
  rcases hc with ⟨e, h1, h2, h3⟩ | ⟨R, ref', M, h1, h2, h3, h4, h5, h6, h7⟩
  · rw [h2] at hok; cases hok
  · rw [h2] at hok
    cases hok
    rw [h3]
    have key : ∀ (ws : List (Write α)) (g : Heap α), (∀ w ∈ ws, w.Before h) →
        (ws.foldl Write.apply g).mats[ref.addr]? = g.mats[ref.addr]? := by
      intro ws
      induction ws with
      | nil => exact fun g _ => rfl
      | cons w ws ih =>
        intro g hw
        have hh := hw w List.mem_cons_self
        rw [List.foldl_cons, ih (w.apply g) (fun w' hw' => hw w' (List.mem_cons_of_mem _ hw'))]
        cases w with
        | vec a v => rfl
        | mat a m =>
          have : a < h.mats.length := hh
          exact List.getElem?_set_ne (by omega)
    simp only [shownJ, Jit.View.read, Option.map_some, key ws _ hw]

/-- **C139 (the array returned is shared).**  After every successful call the object stores nothing of its own: whatever array `M` of the same
shape the caller writes into the array returned, the object shows all rows of `M` but the last as components and the last one as residue. -/
theorem C139_shared (fuel : Nat) (sp : SciPy α) (o : Jit.Obj α) (S T : Nat) (max_imf : Int) (s t : List α) (h : Heap α)
    (hS : h.vecs[S]? = some s) (hT : h.vecs[T]? = some t) (ref : MatRef) (hok : (o.emd fuel sp S T max_imf h).1 = .ok ref)
    (M : List (List α)) (hM : M.length = ref.rows) :
    shownJ (Write.apply (o.emd fuel sp S T max_imf h).2.2 (.mat ref.addr M)) (o.emd fuel sp S T max_imf h).2.1 =
      { cfg := o.cfg, imfs := some M.dropLast, residue := some (M.drop (M.length - 1)) } := by
  obtain ⟨_, hc⟩ := jit_cases (fuel := fuel) (sp := sp) (o := o) (max_imf := max_imf) hS hT
  rcases hc with ⟨e, h1, h2, h3⟩ | ⟨R, ref', M', h1, h2, h3, h4, h5, h6, h7⟩
  · rw [h2] at hok; cases hok
  · rw [h2] at hok
    cases hok
    rw [h3]
    simp only [shownJ, Jit.View.read, Option.map_some, Write.apply]
    rw [List.getElem?_set_self (lt_of_cell h6)]
    simp only [Option.getD_some, ← hM, List.take_length, List.drop_zero, List.dropLast_eq_take]

/-- **C139 (partial: copies).**  If the residue vanishes, `get_imfs_and_trend` hands out new arrays: overwriting them changes nothing the object
shows.

Full claim: *what JitEMD returns and hands out is the caller's, so that writing into it does not change what the object answers later*.  It fails
for the array returned by `emd` always (`C139_shared`), and for `get_imfs_and_trend` if the residue does not vanish
(`C139_counterexample`). -/
theorem C139_copies_partial (o : Jit.Obj α) (h : Heap α) (ho : ValidJ h o) (r : Jit.View) (hr : o.residue = some r)
    (hz : (r.read h).all allclose0 = true) (i t : Jit.View) (hok : (o.getImfsAndTrend h).1 = .ok (i, t)) (m m' : List (List α)) :
    shownJ (Write.apply (Write.apply (o.getImfsAndTrend h).2 (.mat i.addr m)) (.mat t.addr m')) o = shownJ h o := by
  obtain ⟨cfg, oi, od⟩ := o
  cases hr
  cases oi with
  | none => cases hok
  | some v =>
    have hv : v.addr < h.mats.length := ho.1 v rfl
    have hd : r.addr < h.mats.length := ho.2 r rfl
    have e : Jit.Obj.getImfsAndTrend { cfg, imfs := some v, residue := some r } h =
        (do
          let m := v.read h
          let last ← py (pyGet m (-1))
          let a ← newMat (pySlice m 0 (-1))
          let b ← newMat [last]
          return (⟨a, 0, (pySlice m 0 (-1)).length⟩, ⟨b, 0, 1⟩) : MemM α (Jit.View × Jit.View)) h :=
      congrFun (if_pos hz) h
    rw [e] at hok ⊢
    cases hg : pyGet (v.read h) (-1) with
    | error err =>
      simp only [bind, pure, py, hg] at hok
      cases hok
    | ok last =>
      simp only [bind, pure, py, newMat, hg] at hok ⊢
      injection hok with hok
      injection hok with h1 h2
      subst h1 h2
      simp only [Write.apply, shownJ, Option.map_some, Jit.View.read, List.length_append]
      have key : ∀ a < h.mats.length, ((((h.mats ++ [pySlice (v.read h) 0 (-1)]) ++ [[last]]).set h.mats.length m).set
          (h.mats.length + [pySlice (v.read h) 0 (-1)].length) m')[a]? = h.mats[a]? := by
        intro a ha
        rw [List.getElem?_set_ne (by simp; omega), List.getElem?_set_ne (by omega), List.append_assoc, List.getElem?_append_left ha]
      simp only [Jit.View.read] at key
      rw [key _ hv, key _ hd]

/-! ### EMD_matlab -/

theorem Matlab.Holds.shown {h : Heap α} {d : List (Nat × Nat)} {p : List (Nat × List α)} (hd : Matlab.Holds h d p) :
    d.map (fun q => (q.1, h.vecs[q.2]?.getD [])) = p := by
  induction hd with
  | nil => rfl
  | @cons x y d p hx _ ih =>
    rw [List.map_cons, ih, hx.1, hx.2]
    rfl

/-- **C138 (EMD_matlab, arguments).**  `EMD_matlab.emd` leaves every array that existed before as it was, also when it raises: `Res -= imf` and
`IMF[key] *= scale` write into arrays of its own. -/
theorem C138_matlab_untouched (fuel : Nat) (sp : SciPy α) (cfg : PyEMD.Matlab.Cfg α) (S : Nat) (T : Option Nat) (maxImf : Int) (s : List α)
    (h : Heap α) (hS : h.vecs[S]? = some s) (hT : ∀ a, T = some a → a < h.vecs.length) :
    Untouched h (Matlab.emd fuel sp cfg S T maxImf h).2 :=
  (Matlab.emd_sim hS hT).1.untouched

/-- **C138 (EMD_matlab, values).**  What is returned or raised is what the decomposition computes from the contents of the arguments
(`Matlab.emd`, the subject of the other properties). -/
theorem C138_matlab_values (fuel : Nat) (sp : SciPy α) (cfg : PyEMD.Matlab.Cfg α) (S : Nat) (T : Option Nat) (maxImf : Int) (s : List α)
    (h : Heap α) (hS : h.vecs[S]? = some s) (hT : ∀ a, T = some a → a < h.vecs.length) :
    (match (Matlab.emd fuel sp cfg S T maxImf h).1 with
      | .ok r => .ok (shownM (Matlab.emd fuel sp cfg S T maxImf h).2 r)
      | .error e => .error e) = PyEMD.Matlab.emd fuel sp cfg s (T.map (fun a => h.vecs[a]?.getD [])) maxImf := by
  obtain ⟨-, hs⟩ := Matlab.emd_sim (fuel := fuel) (sp := sp) (cfg := cfg) (maxImf := maxImf) hS hT
  cases hr : (Matlab.emd fuel sp cfg S T maxImf h).1 with
  | error e =>
    cases hp : PyEMD.Matlab.emd fuel sp cfg s (T.map (fun a => h.vecs[a]?.getD [])) maxImf with
    | error e' => rw [hr, hp] at hs; exact congrArg _ hs
    | ok R => rw [hr, hp] at hs; exact hs.elim
  | ok r =>
    cases hp : PyEMD.Matlab.emd fuel sp cfg s (T.map (fun a => h.vecs[a]?.getD [])) maxImf with
    | error e' => rw [hr, hp] at hs; exact hs.elim
    | ok R =>
      rw [hr, hp] at hs
      obtain ⟨h1, -, -, h2, h3, h4, h5⟩ := hs
      simp only [shownM, h1.shown, h2, h3, h4, h5]

/-- **C138 (EMD_matlab, every component is an array of its own).**  Overwriting a component that was returned, or an array that existed before,
changes no other component. -/
theorem C138_matlab_own (fuel : Nat) (sp : SciPy α) (cfg : PyEMD.Matlab.Cfg α) (S : Nat) (T : Option Nat) (maxImf : Int) (s : List α)
    (h : Heap α) (hS : h.vecs[S]? = some s) (hT : ∀ a, T = some a → a < h.vecs.length) (r : Matlab.Result)
    (hok : (Matlab.emd fuel sp cfg S T maxImf h).1 = .ok r) (i : Nat) (k a : Nat) (hi : r.IMF[i]? = some (k, a)) (b : Nat) (v : List α)
    (hb : b < h.vecs.length ∨ ∃ j, j ≠ i ∧ (r.IMF[j]?).map (·.2) = some b) :
    (Write.apply (Matlab.emd fuel sp cfg S T maxImf h).2 (.vec b v)).vecs[a]? = (Matlab.emd fuel sp cfg S T maxImf h).2.vecs[a]? := by
  obtain ⟨-, hs⟩ := Matlab.emd_sim (fuel := fuel) (sp := sp) (cfg := cfg) (maxImf := maxImf) hS hT
  rw [hok] at hs
  cases hp : PyEMD.Matlab.emd fuel sp cfg s (T.map (fun a => h.vecs[a]?.getD [])) maxImf with
  | error e' => rw [hp] at hs; exact hs.elim
  | ok R =>
    rw [hp] at hs
    obtain ⟨-, hn, hf, -⟩ := hs
    have hia : (r.IMF.map (·.2))[i]? = some a := by rw [List.getElem?_map, hi]; rfl
    refine List.getElem?_set_ne ?_
    rcases hb with hb | ⟨j, hj, hjb⟩
    · have := hf a (List.mem_of_getElem? hia)
      omega
    · rintro rfl
      rw [← List.getElem?_map] at hjb
      exact hj ((List.getElem?_inj (lt_of_cell hjb) hn).1 (hjb.trans hia.symm))

end

/-! ### Concrete cases -/

/-- A memory with a signal that has four inner extrema and its time array. -/
def heap2 : Heap ℚ := { vecs := [[0, 2, -1, 3, -2, 1, 0], [0, 1, 2, 3, 4, 5, 6]], mats := [] }
def jit2 : Jit.Obj ℚ := { cfg := { EMD.Cfg.default with FIXE := 1 }, imfs := none, residue := none }

/-- C138 and C139 on a signal with extrema: two rows are returned in an array of its own, the signal is read back unchanged. -/
example :
    let out := jit2.emd 5 Scipy.scipy 0 1 1 heap2
    out.2.2.vecs[0]? = some ([0, 2, -1, 3, -2, 1, 0] : List ℚ) ∧
    (match out.1 with
      | .ok ref => (contents out.2.2 ref).length == 2 && ref.rows == 2 && (((shownJ out.2.2 out.2.1).imfs.getD []).length == 1)
      | .error _ => false) = true := by decide +kernel

example : heap2.vecs[0]? = some ([0, 2, -1, 3, -2, 1, 0] : List ℚ) ∧ heap2.vecs[1]? = some ([0, 1, 2, 3, 4, 5, 6] : List ℚ) ∧ ValidJ heap2 jit2 :=
  ⟨rfl, rfl, fun _ h => (by cases h), fun _ h => (by cases h)⟩

/-- **C139 (counterexample).**  Decompose, ask for components and trend, set the trend obtained to zero: the next call of
`get_imfs_and_trend` takes the component for the trend and reports no component, and the last row of the array `emd` returned is zero. -/
theorem C139_counterexample :
    let out := jit2.emd 5 Scipy.scipy 0 1 1 heap2
    let got := out.2.1.getImfsAndTrend out.2.2
    (match out.1, got.1 with
      | .ok ref, .ok (i, t) =>
        let h' := Write.apply got.2 (.mat t.addr ((i.read got.2) ++ [[0, 0, 0, 0, 0, 0, 0]]))
        let again := out.2.1.getImfsAndTrend h'
        (i.read got.2).length == 1 && (t.read got.2).length == 1 && (t.addr == ref.addr) &&
        i.read got.2 ++ t.read got.2 == contents out.2.2 ref &&
        (match again.1 with
          | .ok (i', t') => (i'.read again.2).length == 0 && t'.read again.2 == i.read got.2
          | .error _ => false) &&
        (contents h' ref)[1]? == some ([0, 0, 0, 0, 0, 0, 0] : List ℚ)
      | _, _ => false) = true := by
  decide +kernel

/-- C139: an object with one component and a vanishing residue meets the hypotheses of `C139_copies_partial`. -/
example : ((Jit.View.mk 0 1 2).read ({ vecs := [], mats := [[[1, -1, 1], [0, 0, 0]]] } : Heap ℚ)).all allclose0 = true ∧
    (match (Jit.Obj.getImfsAndTrend ({ jit2 with imfs := some ⟨0, 0, 1⟩, residue := some ⟨0, 1, 2⟩ } : Jit.Obj ℚ)
      { vecs := [], mats := [[[1, -1, 1], [0, 0, 0]]] }).1 with | .ok (⟨1, 0, 0⟩, ⟨2, 0, 1⟩) => true | _ => false) = true := by
  decide +kernel

/-- C138 for EMD_matlab: two components in arrays of their own, signal and time array unchanged. -/
example :
    let out := Matlab.emd 20 Scipy.scipy ({ PyEMD.Matlab.Cfg.default with FIXE := 1 } : PyEMD.Matlab.Cfg ℚ) 0 (some 1) 2 heap2
    out.2.vecs[0]? = heap2.vecs[0]? ∧ out.2.vecs[1]? = heap2.vecs[1]? ∧
    (match out.1 with | .ok r => r.imfNo == 2 && (r.IMF.map (·.2)).all (fun a => decide (2 ≤ a)) | .error _ => false) = true := by
  decide +kernel

end Mem
end PyEMD
