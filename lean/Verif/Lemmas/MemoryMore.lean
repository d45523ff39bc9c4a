import Verif.Model.MemoryMore
import Verif.Lemmas.Memory
import Verif.Lemmas.Jit

/-!
# `JitEMD` and `EMD_matlab` with memory against the models without
-/

set_option linter.unusedSectionVars false

namespace PyEMD
namespace Mem

variable {α : Type} [Add α] [Sub α] [Mul α] [Div α] [Neg α] [LT α] [LE α] [BEq α]
  [DecidableLT α] [DecidableLE α] [NpScalar α]

theorem newVec_at {h : Heap α} (v : List α) {a : Nat} {x : List α} (e : h.vecs[a]? = some x) : (h.vecs ++ [v])[a]? = some x := by
  rw [List.getElem?_append_left (lt_of_cell e)]; exact e

theorem newMat_at {h : Heap α} (v : List (List α)) {a : Nat} {x : List (List α)} (e : h.mats[a]? = some x) : (h.mats ++ [v])[a]? = some x := by
  rw [List.getElem?_append_left (lt_of_cell e)]; exact e

/-- The last visible computation. -/
theorem Sim.pyTail {β γ : Type} {n m : Nat} {h : Heap α} {p : PyM γ} {f : γ → MemM α β} {R : β → γ → Heap α → Prop}
    (h2 : ∀ c, p = .ok c → Sim n m h (.ok c) (f c h) R) : Sim n m h p ((py p >>= f) h) R := by
  cases p with
  | error e => exact ⟨Keeps.refl, rfl⟩
  | ok c => exact h2 c rfl

namespace Jit
open PyEMD.EMD (Cfg)

theorem emdRound_sim {sp : SciPy α} {cfg : Cfg α} {T S residue IMF n m : Nat} {t s : List α} {rows : List (List α)}
    {h : Heap α} {extNo : Int} (ho : Outer T S residue t s h) (hI : h.mats[IMF]? = some rows)
    (hrow : ∀ r ∈ rows, r.length = s.length) (hT : T < n) (hS : S < n) (hn : n ≤ residue) (hm : m ≤ h.mats.length) :
    Sim n m h (PyEMD.Jit.emdRound sp cfg t s rows extNo) (emdRound sp cfg T S residue IMF extNo h)
      (fun b c h' => b.2.1 = c.1.extNo ∧ h'.vecs[b.1]? = some c.1.imf ∧
        b.2.2 = (c.2 == EMD.SiftEnd.trend) ∧ Outer T S residue t s h' ∧ h'.mats[IMF]? = some rows) := by
  obtain ⟨v, hv, hvl⟩ := ho.res
  have hR := lt_of_cell hv
  have hl : (vsub s (sumRows s.length rows)).length = s.length := by simp [length_sumRows _ _ hrow]
  unfold emdRound PyEMD.Jit.emdRound
  dsimp only
  generalize hv0 : vsub s (sumRows s.length rows) = v0 at hl ⊢
  refine Sim.step (readVec_eq ho.sig) Keeps.refl ?_
  refine Sim.step (readMat_eq hI) Keeps.refl ?_
  rw [hv0]
  refine Sim.step (setVec_eq hv (hl.trans hvl.symm)) (keeps_set _ hn) ?_
  have e1 : (h.vecs.set residue v0)[residue]? = some v0 := List.getElem?_set_self hR
  have eT : (h.vecs.set residue v0)[T]? = some t := by rw [List.getElem?_set_ne (by omega)]; exact ho.time
  have eS : (h.vecs.set residue v0)[S]? = some s := by rw [List.getElem?_set_ne (by omega)]; exact ho.sig
  refine Sim.step (copyVec_eq (h := { h with vecs := h.vecs.set residue v0 }) e1) (keeps_newVec _ (by simp; omega)) ?_
  have eI : (h.vecs.set residue v0 ++ [v0])[(h.vecs.set residue v0).length]? = some v0 := by simp
  refine Sim.step (readVec_eq (h := { h with vecs := h.vecs.set residue v0 ++ [v0] })
    (newVec_at (h := { h with vecs := h.vecs.set residue v0 }) v0 eT)) Keeps.refl ?_
  refine Sim.step (readVec_eq (h := { h with vecs := h.vecs.set residue v0 ++ [v0] }) eI) Keeps.refl ?_
  refine Sim.pyTail (fun c hc => ?_)
  obtain ⟨r, why⟩ := c
  dsimp only
  refine Sim.step (b := (h.vecs.set residue v0 ++ [v0]).length) rfl (keeps_newVec _ (by simp; omega)) ?_
  refine Sim.pure ⟨rfl, by simp, rfl, ⟨?_, ?_, ⟨v0, ?_, hl⟩⟩, hI⟩
  · exact newVec_at (h := { h with vecs := h.vecs.set residue v0 ++ [v0] }) _ (newVec_at (h := { h with vecs := h.vecs.set residue v0 }) v0 eT)
  · exact newVec_at (h := { h with vecs := h.vecs.set residue v0 ++ [v0] }) _ (newVec_at (h := { h with vecs := h.vecs.set residue v0 }) v0 eS)
  · exact newVec_at (h := { h with vecs := h.vecs.set residue v0 ++ [v0] }) _ (newVec_at (h := { h with vecs := h.vecs.set residue v0 }) v0 e1)

theorem vstack_rows {n : Nat} {IMF R : List (List α)} {row : List α} (h : PyEMD.Jit.vstack n IMF row = .ok R)
    (hr : ∀ r ∈ IMF, r.length = n) : ∀ r ∈ R, r.length = n := by
  unfold PyEMD.Jit.vstack at h
  split at h
  · cases h
    intro r hx
    rcases List.mem_append.1 hx with hx | hx
    · exact hr r hx
    · rw [List.mem_singleton.1 hx]; assumption
  · cases h

theorem emdLoop_sim {sp : SciPy α} {cfg : Cfg α} {T S residue n m : Nat} {t s : List α} {max_imf : Int} (hT : T < n)
    (hS : S < n) (hn : n ≤ residue) (fuel : Nat) {IMF : Nat} {rows : List (List α)} {h : Heap α} {extNo : Int}
    (ho : Outer T S residue t s h) (hI : h.mats[IMF]? = some rows)
    (hrow : ∀ r ∈ rows, r.length = s.length) (hm : m ≤ IMF) :
    Sim n m h (PyEMD.Jit.emdLoop sp cfg t s max_imf fuel rows extNo) (emdLoop sp cfg T S residue max_imf fuel IMF extNo h)
      (fun b c h' => b.2 = c.2 ∧ h'.mats[b.1]? = some c.1 ∧ h'.vecs[S]? = some s ∧ m ≤ b.1) := by
  induction fuel generalizing IMF rows h extNo with
  | zero => exact ⟨Keeps.refl, rfl⟩
  | succ fuel ih =>
    have hM := lt_of_cell hI
    unfold emdLoop PyEMD.Jit.emdLoop
    refine Sim.bind (emdRound_sim ho hI hrow hT hS hn (by omega)) (fun b c h1 k1 hr => ?_)
    obtain ⟨imf, ext, tr⟩ := b
    obtain ⟨cs, why⟩ := c
    obtain ⟨r1, r2, r4, ho1, hI1⟩ := hr
    dsimp only at r1 r2 r4 ⊢
    subst r4 r1
    refine Sim.step (readVec_eq ho1.sig) Keeps.refl ?_
    refine Sim.step (readMat_eq hI1) Keeps.refl ?_
    refine Sim.step (readVec_eq r2) Keeps.refl ?_
    refine Sim.pyBind (fun R hR => ?_)
    have hM1 := lt_of_cell hI1
    refine Sim.step (b := h1.mats.length) rfl (keeps_newMat _ (by omega)) ?_
    have e2 : (h1.mats ++ [R])[h1.mats.length]? = some R := by simp
    have ho2 : Outer T S residue t s { h1 with mats := h1.mats ++ [R] } := ⟨ho1.time, ho1.sig, ho1.res⟩
    refine Sim.step (readMat_eq (h := { h1 with mats := h1.mats ++ [R] }) e2) Keeps.refl ?_
    refine Sim.pyBind (fun fin _ => ?_)
    by_cases hc : (fin || decide ((R.length : Int) = max_imf) || why == EMD.SiftEnd.trend) = true
    · rw [if_pos hc, if_pos hc]
      exact Sim.pure ⟨rfl, e2, ho1.sig, by dsimp only; omega⟩
    · rw [if_neg hc, if_neg hc]
      exact ih ho2 e2 (vstack_rows hR hrow) (by omega)

theorem finish_sim {S IMF n m : Nat} {s : List α} {rows : List (List α)} {h : Heap α} {extNo : Int}
    (hS : h.vecs[S]? = some s) (hI : h.mats[IMF]? = some rows) (hn : n ≤ h.vecs.length) (hm : m ≤ IMF) :
    Sim n m h (if !allclose0 (vsub s (sumRows s.length (if extNo ≤ 2 then rows.dropLast else rows))) then
        PyEMD.Jit.vstack s.length (if extNo ≤ 2 then rows.dropLast else rows)
          (vsub s (sumRows s.length (if extNo ≤ 2 then rows.dropLast else rows)))
      else .ok (if extNo ≤ 2 then rows.dropLast else rows)) (finish S IMF extNo h)
      (fun b c h' => m ≤ b.addr ∧ b.rows = c.length ∧ ∃ M, h'.mats[b.addr]? = some M ∧ M.take b.rows = c) := by
  have hM := lt_of_cell hI
  have htake : rows.take (if extNo ≤ 2 then rows.length - 1 else rows.length) =
      if extNo ≤ 2 then rows.dropLast else rows := by
    split
    · rw [List.dropLast_eq_take]
    · simp
  have hle : (if extNo ≤ 2 then rows.length - 1 else rows.length) = (if extNo ≤ 2 then rows.dropLast else rows).length := by
    split <;> simp
  unfold finish
  refine Sim.step (readMat_eq hI) Keeps.refl ?_
  dsimp only
  rw [htake]
  generalize hK : (if extNo ≤ 2 then rows.dropLast else rows) = top at htake hle ⊢
  refine Sim.step (b := h.mats.length) rfl (keeps_newMat _ (by omega)) ?_
  refine Sim.step (readVec_eq (h := { h with mats := h.mats ++ [top] }) hS) Keeps.refl ?_
  have e1 : (h.mats ++ [top])[h.mats.length]? = some top := by simp
  refine Sim.step (readMat_eq (h := { h with mats := h.mats ++ [top] }) e1) Keeps.refl ?_
  generalize vsub s (sumRows s.length top) = res
  refine Sim.step (b := h.vecs.length) rfl (keeps_newVec _ hn) ?_
  have e2 : (h.vecs ++ [res])[h.vecs.length]? = some res := by simp
  have e3 : (h.mats ++ [top])[IMF]? = some rows := newMat_at top hI
  refine Sim.step (readVec_eq (h := { vecs := h.vecs ++ [res], mats := h.mats ++ [top] }) e2) Keeps.refl ?_
  by_cases hc : (!allclose0 res) = true
  · rw [if_pos hc, if_pos hc]
    refine Sim.step (readMat_eq (h := { vecs := h.vecs ++ [res], mats := h.mats ++ [top] }) e3) Keeps.refl ?_
    refine Sim.step (readVec_eq (h := { vecs := h.vecs ++ [res], mats := h.mats ++ [top] }) e2) Keeps.refl ?_
    rw [htake]
    refine Sim.pyTail (fun R hR => ?_)
    have hRl : R = top ++ [res] := by
      unfold PyEMD.Jit.vstack at hR
      split at hR
      · cases hR; rfl
      · cases hR
    refine Sim.step (b := h.mats.length + 1)
      (h' := { vecs := h.vecs ++ [res], mats := h.mats ++ [top] ++ [R] }) (by simp [newMat])
      (keeps_newMat (h := { vecs := h.vecs ++ [res], mats := h.mats ++ [top] }) _ (by simp; omega)) ?_
    have e4 : (h.mats ++ [top] ++ [R])[h.mats.length + 1]? = some R := by
      rw [List.getElem?_append_right (by simp)]; simp
    refine Sim.pure ⟨by dsimp only; omega, by simp [hRl], R, e4, ?_⟩
    exact List.take_of_length_le (by simp [hRl])
  · rw [if_neg hc, if_neg hc]
    exact Sim.pure ⟨hm, hle, rows, e3, htake⟩

theorem emd_sim {fuel : Nat} {sp : SciPy α} {cfg : Cfg α} {S T : Nat} {max_imf : Int} {s t : List α} {h : Heap α}
    (hS : h.vecs[S]? = some s) (hT : h.vecs[T]? = some t) :
    Sim h.vecs.length h.mats.length h (PyEMD.Jit.emd fuel sp cfg s t max_imf) (emd fuel sp cfg S T max_imf h)
      (fun b c h' => h.mats.length ≤ b.addr ∧ b.rows = c.length ∧ ∃ M, h'.mats[b.addr]? = some M ∧ M.take b.rows = c) := by
  have hLS := lt_of_cell hS
  have hLT := lt_of_cell hT
  unfold emd PyEMD.Jit.emd
  refine Sim.step (copyVec_eq hS) (keeps_newVec _ le_rfl) ?_
  have e1 : (h.vecs ++ [s])[S]? = some s := newVec_at s hS
  have e2 : (h.vecs ++ [s])[T]? = some t := newVec_at s hT
  refine Sim.step (readVec_eq (h := { h with vecs := h.vecs ++ [s] }) e1) Keeps.refl ?_
  refine Sim.step (readVec_eq (h := { h with vecs := h.vecs ++ [s] }) e2) Keeps.refl ?_
  by_cases hc : s.length ≠ t.length
  · rw [if_pos hc, if_pos hc]
    exact ⟨Keeps.refl, rfl⟩
  · rw [if_neg hc, if_neg hc]
    refine Sim.step (b := h.mats.length) rfl (keeps_newMat (h := { h with vecs := h.vecs ++ [s] }) _ le_rfl) ?_
    have ho : Outer T S h.vecs.length t s { vecs := h.vecs ++ [s], mats := h.mats ++ [[]] } :=
      ⟨e2, e1, ⟨s, by simp, rfl⟩⟩
    have hl := emdLoop_sim (sp := sp) (cfg := cfg) (n := h.vecs.length) (m := h.mats.length) (max_imf := max_imf)
      (rows := []) (IMF := h.mats.length) (extNo := -1) hLT hLS le_rfl fuel ho (by simp) (by simp) le_rfl
    refine Sim.bind hl (fun b c h1 k hr => ?_)
    obtain ⟨bI, be⟩ := b
    obtain ⟨rows, ce⟩ := c
    obtain ⟨r1, r2, r3, r4⟩ := hr
    dsimp only at r1 r2 r3 r4 ⊢
    subst r1
    have := finish_sim (extNo := be) (n := h.vecs.length) r3 r2 (by have := k.2.2.1; simp at this; omega) r4
    exact this

end Jit
end Mem
end PyEMD
