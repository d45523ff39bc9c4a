import Verif.Props.MemoryCeemdan
import Verif.Props.EemdTotal

/-!
# Property C120 for `EEMD`

The theorem for `CEEMDAN` is in `Verif/Props/MemoryCeemdan.lean`.
-/

set_option linter.unusedSectionVars false

namespace PyEMD
namespace Mem
namespace EEMD
open Spec
open CEEMDAN (KeptFor keptFor_untouched keptFor_write)

section
variable {α ρ : Type} [Add α] [Sub α] [Mul α] [Div α] [Neg α] [LT α] [LE α] [BEq α]
  [DecidableLT α] [DecidableLE α] [NpScalar α]

theorem runTrials_cfg (rng : Rng α ρ) (fuel : Nat) (sp : SciPy α) (cfg : PyEMD.EEMD.Cfg α) (job : PyEMD.EEMD.Job α) (n : Nat)
    (st : PyEMD.EEMD.TrialState α ρ) (d : PyEMD.EEMD.Dict (List (List α))) :
    (PyEMD.EEMD.runTrials rng fuel sp cfg job n st d).2.1.emd.cfg = st.emd.cfg := by
  induction n generalizing st d with
  | zero => rfl
  | succ n ih =>
    have c := PyEMD.EEMD.trialUpdate_cfg rng fuel sp cfg job st
    unfold PyEMD.EEMD.runTrials
    cases hr : PyEMD.EEMD.trialUpdate rng fuel sp cfg job st with
    | mk x st' =>
      rw [hr] at c
      cases x with
      | error e => exact c
      | ok r => exact (ih _ _).trans c

theorem pure_eemd_cfg (rng : Rng α ρ) (fuel : Nat) (sp : SciPy α) (order : List Nat) (o : PyEMD.EEMD.Obj α ρ) (S : List α)
    (T : Option (List α)) (m : Int) (hp : o.cfg.parallel = false) :
    (o.eemd rng fuel sp order S T m).2.cfg = o.cfg ∧ (o.eemd rng fuel sp order S T m).2.emd.cfg = o.emd.cfg := by
  unfold PyEMD.EEMD.Obj.eemd
  cases PyEMD.EEMD.prepare o.cfg S T m with
  | error e => exact ⟨rfl, rfl⟩
  | ok job =>
    dsimp only
    rw [if_neg (by simp [hp])]
    have c := runTrials_cfg rng fuel sp o.cfg job o.cfg.trials { random := o.random, emd := o.emd } []
    cases hr : PyEMD.EEMD.runTrials rng fuel sp o.cfg job o.cfg.trials { random := o.random, emd := o.emd } [] with
    | mk x p =>
      obtain ⟨st, d⟩ := p
      rw [hr] at c
      cases x with
      | error e => exact ⟨rfl, c⟩
      | ok u => exact ⟨rfl, c⟩

theorem write_validE {h : Heap α} {o : Obj α ρ} (w : Write α) (v : ValidE h o) : ValidE (w.apply h) o := by
  have e1 : (w.apply h).vecs.length = h.vecs.length := by cases w <;> simp [Write.apply]
  have e2 : (w.apply h).mats.length = h.mats.length := by cases w <;> simp [Write.apply]
  have e3 : ∀ r, ValidRow (w.apply h) r = ValidRow h r := by
    intro r
    cases r <;> simp only [ValidRow, e1, e2]
  unfold ValidE Valid
  rw [e1, e2]
  simp only [e3]
  exact v

/-- What a session leaves as it was. -/
theorem session_keeps {rng : Rng α ρ} {fuel : Nat} {sp : SciPy α} {vs ms : List Nat} {o o' : Obj α ρ} {h h' : Heap α}
    (hs : Session (fun o S T m h => Obj.eemd rng fuel sp o S T m h) (fun o k => o.noiseSeed rng k) vs ms o h o' h')
    (hp : o.cfg.parallel = false) (ho : ValidE h o) :
    ValidE h' o' ∧ o'.cfg = o.cfg ∧ o'.emd.cfg = o.emd.cfg ∧ KeptFor vs ms h h' := by
  induction hs with
  | done o h => exact ⟨ho, rfl, rfl, keptFor_untouched Untouched.rfl'⟩
  | seed k rest ih => exact ih hp ho
  | @call S T m o o' h h' hS hT rest ih =>
    have q := C116_values rng fuel sp [] o S T m h _ (List.getElem?_eq_getElem hS) hT ho hp
    have c := pure_eemd_cfg rng fuel sp [] (shownE h o) h.vecs[S] (T.map (fun a => h.vecs[a]?.getD [])) m hp
    rw [← q.object] at c
    have hc : (Obj.eemd rng fuel sp o S T m h).2.1.cfg = o.cfg := c.1
    obtain ⟨i1, i2, i3, i4⟩ := ih (by rw [hc]; exact hp) q.valid
    exact ⟨i1, i2.trans c.1, i3.trans c.2, (keptFor_untouched q.untouched).trans i4⟩
  | @newVec v o o' h h' rest ih =>
    have u := untouched_vec h v
    obtain ⟨i1, i2, i3, i4⟩ := ih hp (validE_untouched u ho)
    exact ⟨i1, i2, i3, (keptFor_untouched u).trans i4⟩
  | @newMat m o o' h h' rest ih =>
    have u := untouched_mat h m
    obtain ⟨i1, i2, i3, i4⟩ := ih hp (validE_untouched u ho)
    exact ⟨i1, i2, i3, (keptFor_untouched u).trans i4⟩
  | write w hw rest ih =>
    obtain ⟨i1, i2, i3, i4⟩ := ih hp (write_validE w ho)
    exact ⟨i1, i2, i3, (keptFor_write hw).trans i4⟩

/-- **C120 (`EEMD`).**  Seed, decompose, go on working with the object in any way - other signals, other seeds, calls that
raise, new arrays, assignments into any array but the signal, the time array and the result - then seed with the same number
and decompose the same arrays again: the second call succeeds too, returns a new array with the contents of the first one,
and the first one still has them. -/
theorem C120_repeatable_eemd (rng : Rng α ρ) (fuel : Nat) (sp : SciPy α) (o : Obj α ρ) (k : Int) (S : Nat)
    (T : Option Nat) (maxImf : Int) (h : Heap α) (hS : S < h.vecs.length) (hT : ∀ a, T = some a → a < h.vecs.length)
    (hp : o.cfg.parallel = false) (ho : ValidE h o) (a : Nat) (o₁ o₂ : Obj α ρ) (h₁ h₂ : Heap α)
    (hok : (o.noiseSeed rng k).eemd rng fuel sp S T maxImf h = (.ok a, o₁, h₁))
    (hs : Session (fun o S T m h => Obj.eemd rng fuel sp o S T m h) (fun o k => o.noiseSeed rng k) (S :: T.toList) [a]
      o₁ h₁ o₂ h₂) :
    ∃ b o₃ h₃, (o₂.noiseSeed rng k).eemd rng fuel sp S T maxImf h₂ = (.ok b, o₃, h₃) ∧ b ≠ a ∧
      h₃.mats[b]? = h₁.mats[a]? ∧ h₃.mats[a]? = h₁.mats[a]? := by
  have hS' := List.getElem?_eq_getElem hS
  have hv0 : ValidE h (o.noiseSeed rng k) := ho
  have q1 := C116_values rng fuel sp [] (o.noiseSeed rng k) S T maxImf h _ hS' hT hv0 hp
  have c1 := pure_eemd_cfg rng fuel sp [] (shownE h (o.noiseSeed rng k)) h.vecs[S] (T.map (fun a => h.vecs[a]?.getD [])) maxImf hp
  have f1 := eemd_fresh (rng := rng) (fuel := fuel) (sp := sp) (maxImf := maxImf) (a := a) hS' hT (o := o.noiseSeed rng k) ho (by rw [hok])
  rw [← q1.object] at c1
  rw [hok] at q1 c1 f1
  dsimp only at c1 f1
  obtain ⟨i1, i2, i3, i4⟩ := session_keeps hs (by rw [show o₁.cfg = _ from c1.1]; exact hp) q1.valid
  have ha : a < h₁.mats.length := q1.valid.2.1 a f1.1
  have hS2 : h₂.vecs[S]? = some h.vecs[S] := i4.1 S (by simp) _ (q1.untouched.1 S _ hS')
  have hT2 : ∀ t, T = some t → h₂.vecs[t]? = h.vecs[t]? := by
    intro t ht
    rw [List.getElem?_eq_getElem (hT t ht)]
    exact i4.1 t (by simp [ht]) _ (q1.untouched.1 t _ (List.getElem?_eq_getElem (hT t ht)))
  have hTlt : ∀ t, T = some t → t < h₂.vecs.length := by
    intro t ht
    have := hT2 t ht
    rw [List.getElem?_eq_getElem (hT t ht)] at this
    exact lt_of_cell this
  have hp2 : (o₂.noiseSeed rng k).cfg.parallel = false := by
    show o₂.cfg.parallel = false
    rw [i2, show o₁.cfg = _ from c1.1]; exact hp
  have q2 := C116_values rng fuel sp [] (o₂.noiseSeed rng k) S T maxImf h₂ _ hS2 hTlt i1 hp2
  have eT : T.map (fun a => h₂.vecs[a]?.getD []) = T.map (fun a => h.vecs[a]?.getD []) := by
    cases T with
    | none => rfl
    | some t => simp [hT2 t rfl]
  rw [eT] at q2
  have ec := (PyEMD.EEMD.eemd_same rng fuel sp [] (shownE h (o.noiseSeed rng k)) (shownE h₂ (o₂.noiseSeed rng k)) h.vecs[S]
    (T.map (fun a => h.vecs[a]?.getD [])) maxImf
    ⟨by show o.cfg = o₂.cfg; rw [i2]; exact c1.1.symm, rfl, by show o.emd.cfg = o₂.emd.cfg; rw [i3]; exact c1.2.symm⟩).1
  have r1 := q1.result
  have r2 := q2.result
  rw [← ec, ← r1] at r2
  have f2 := fun b hb => eemd_fresh (rng := rng) (fuel := fuel) (sp := sp) (maxImf := maxImf) (a := b) hS2 hTlt
    (o := o₂.noiseSeed rng k) i1 hb
  have hu := q2.untouched
  have hva := q2.valid
  generalize (o₂.noiseSeed rng k).eemd rng fuel sp S T maxImf h₂ = out at r2 f2 hu hva ⊢
  obtain ⟨x, o₃, h₃⟩ := out
  cases x with
  | error e => cases r2
  | ok b =>
    have f2 := f2 b rfl
    have hb : b < h₃.mats.length := hva.2.1 b f2.1
    have ha1 : h₁.mats[a]? = some h₁.mats[a] := List.getElem?_eq_getElem ha
    have ha2 : h₂.mats[a]? = some h₁.mats[a] := i4.2 a (by simp) _ ha1
    refine ⟨b, o₃, h₃, rfl, ?_, ?_, ?_⟩
    · have := lt_of_cell ha2
      have := f2.2.1
      omega
    · dsimp only at r2
      injection r2 with r2
      rw [List.getElem?_eq_getElem hb, ha1] at r2
      rw [List.getElem?_eq_getElem hb, ha1]
      exact congrArg some r2
    · rw [hu.2 a _ ha2, ha1]

end

/-! ### Concrete case -/

/-- C120: a session in which the object decomposes another signal under another seed, raises on an empty signal, and the caller
overwrites an array.  Without the second `noise_seed` the result would differ: the noise goes on. -/
example :
    let call := fun (o : Obj ℚ Nat) (S : Nat) (h : Heap ℚ) => o.eemd PyEMD.EEMD.sampleRng 20 linSciPy S none (-1) h
    let r₁ := call ((objE PyEMD.EEMD.sampleCfg).noiseSeed PyEMD.EEMD.sampleRng 4) 0 { heapE with vecs := heapE.vecs ++ [EMD.sampleS] }
    let r₂ := call (r₁.2.1.noiseSeed PyEMD.EEMD.sampleRng 10) 1 r₁.2.2
    let r₃ := call r₂.2.1 r₂.2.2.vecs.length { r₂.2.2 with vecs := r₂.2.2.vecs ++ [[]] }
    let h₃ := Write.apply r₃.2.2 (.vec 1 [])
    let r₄ := call (r₃.2.1.noiseSeed PyEMD.EEMD.sampleRng 4) 0 h₃
    let r₅ := call r₃.2.1 0 h₃
    (match r₁, r₂, r₃, r₄, r₅ with
      | (.ok a, _, h₁), (.ok _, _, _), (.error _, _, _), (.ok b, _, h₄), (.ok c, _, h₅) =>
        h₁.mats[a]? == h₄.mats[b]? && h₁.mats[a]? != h₅.mats[c]?
      | _, _, _, _, _ => false) = true := by decide +kernel

end EEMD
end Mem
end PyEMD
