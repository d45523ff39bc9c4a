import Verif.Lemmas.MemoryImage
import Verif.Spec.ImageSamples

/-!
# C157: `EMD2D` and `BEMD` do not touch the caller's arrays, and what they return is the caller's
-/

set_option linter.unusedSectionVars false

namespace PyEMD
namespace MemImg
namespace Spec

variable {α : Type}

/-- Every array that existed in `h` has the same contents in `h'`. -/
def Untouched (h h' : Heap α) : Prop :=
  (∀ (a : Nat) v, h.imgs[a]? = some v → h'.imgs[a]? = some v) ∧ (∀ (a : Nat) v, h.cubes[a]? = some v → h'.cubes[a]? = some v)

/-- An assignment into an image or a stack of images, by whoever holds a reference to it. -/
inductive Write (α : Type)
  | img (a : Nat) (v : Img α)
  | cube (a : Nat) (m : List (Img α))

/-- The memory after an assignment. -/
def Write.apply (h : Heap α) : Write α → Heap α
  | .img a v => { h with imgs := h.imgs.set a v }
  | .cube a m => { h with cubes := h.cubes.set a m }

/-- The assignment goes to an array that existed in `h`. -/
def Write.Before (h : Heap α) : Write α → Prop
  | .img a _ => a < h.imgs.length
  | .cube a _ => a < h.cubes.length

/-- What a call of a decomposition, started in memory `h`, has to do: leave the arrays of the caller alone, also when it raises; return what the
decomposition `p` on values returns, or raise the same; and return an array of its own, so that neither assignments to the arrays of the caller change
the result nor assignments to the result change the arrays of the caller. -/
structure Clean (h : Heap α) (x : PyM Nat × Heap α) (p : PyM (List (Img α))) : Prop where
  untouched : Untouched h x.2
  values : (match x.1 with
    | .ok b => .ok (x.2.cubes[b]?.getD [])
    | .error e => .error e) = p
  result_stays : ∀ b, x.1 = .ok b → ∀ ws : List (Write α), (∀ w ∈ ws, w.Before h) → (ws.foldl Write.apply x.2).cubes[b]? = x.2.cubes[b]?
  caller_stays : ∀ b, x.1 = .ok b → ∀ m, Untouched h (Write.apply x.2 (.cube b m))

end Spec
open Spec

section
variable {α : Type}

theorem Grows.untouched {h h' : Heap α} (e : Grows h h') : Untouched h h' := ⟨fun _ _ => e.img, fun _ _ => e.cube⟩

theorem Sim.clean {h : Heap α} {x : MemM α Nat} {p : PyM (List (Img α))}
    (hx : Sim h x p (fun h' b c => h'.cubes[b]? = some c ∧ h.cubes.length ≤ b)) : Clean h (x h) p := by
  obtain ⟨he, hr⟩ := hx
  have hfresh : ∀ b, (x h).1 = .ok b → h.cubes.length ≤ b := by
    intro b hb
    rw [hb] at hr
    cases p with
    | error e => exact hr.elim
    | ok c => exact hr.2
  refine ⟨he.untouched, ?_, ?_, ?_⟩
  · cases hx1 : (x h).1 with
    | error e =>
      rw [hx1] at hr
      cases p with
      | error e' => exact congrArg _ hr
      | ok c => exact hr.elim
    | ok b =>
      rw [hx1] at hr
      cases p with
      | error e' => exact hr.elim
      | ok c => simp only [hr.1, Option.getD_some]
  · intro b hb
    have hl := hfresh b hb
    have key : ∀ (ws : List (Write α)) (g : Heap α), (∀ w ∈ ws, w.Before h) → (ws.foldl Write.apply g).cubes[b]? = g.cubes[b]? := by
      intro ws
      induction ws with
      | nil => exact fun g _ => rfl
      | cons w ws ih =>
        intro g hw
        have hh := hw w List.mem_cons_self
        rw [List.foldl_cons, ih (w.apply g) (fun w' hw' => hw w' (List.mem_cons_of_mem _ hw'))]
        cases w with
        | img a v => rfl
        | cube a m =>
          have : a < h.cubes.length := hh
          exact List.getElem?_set_ne (by omega)
    exact fun ws hw => key ws _ hw
  · intro b hb m
    have hl := hfresh b hb
    refine ⟨fun a v hv => he.img hv, fun a v hv => ?_⟩
    have := (List.getElem?_eq_some_iff.1 hv).1
    show ((x h).2.cubes.set b m)[a]? = some v
    rw [List.getElem?_set_ne (by omega)]
    exact he.cube hv

end

variable {α : Type} [Add α] [Sub α] [Mul α] [Div α] [Neg α] [LT α] [LE α] [BEq α]
  [DecidableLT α] [DecidableLE α] [NpScalar α]

/-- **C157 (EMD2D).**  `EMD2D.emd` leaves every array of the caller alone, also when it raises, computes `EMD2D.emd` on values (the subject of the
other properties) and returns an array of its own: `IMF[-1] += offset` writes into it only.  Law-free. -/
theorem C157_emd2d (sbs : Surface α) (fuel : Nat) (cfg : Cfg2 α) (image : Nat) (im : Img α) (maxImf : Int) (h : Heap α)
    (hi : h.imgs[image]? = some im) :
    Clean h (EMD2D.emd sbs fuel cfg image maxImf h) (PyEMD.EMD2D.emd sbs fuel cfg im maxImf) :=
  (EMD2D.emd_sim sbs fuel cfg image im maxImf h hi).clean

/-- **C157 (BEMD).**  The same for `BEMD.bemd`. -/
theorem C157_bemd (ext : PyEMD.BEMD.Ext α) (fuel : Nat) (cfg : Cfg2 α) (image : Nat) (im : Img α) (maxImf : Int) (h : Heap α)
    (hi : h.imgs[image]? = some im) :
    Clean h (BEMD.bemd ext fuel cfg image maxImf h) (PyEMD.BEMD.bemd ext fuel cfg im maxImf) :=
  (BEMD.bemd_sim ext fuel cfg image im maxImf h hi).clean

/-- **C157 (repeated calls).**  Decomposing the same image again gives the same, whatever the caller wrote into the first result in between, and the
second result is another array: the first one keeps its contents. -/
theorem C157_repeated (sbs : Surface α) (fuel : Nat) (cfg : Cfg2 α) (image : Nat) (im : Img α) (maxImf : Int) (h : Heap α)
    (hi : h.imgs[image]? = some im) (b : Nat) (m : List (Img α)) (hb : (EMD2D.emd sbs fuel cfg image maxImf h).1 = .ok b) :
    let h1 := Write.apply (EMD2D.emd sbs fuel cfg image maxImf h).2 (.cube b m)
    let again := EMD2D.emd sbs fuel cfg image maxImf h1
    (∃ b', again.1 = .ok b' ∧ again.2.cubes[b']? = (EMD2D.emd sbs fuel cfg image maxImf h).2.cubes[b]?) ∧ again.2.cubes[b]? = some m := by
  intro h1 again
  have c := C157_emd2d sbs fuel cfg image im maxImf h hi
  have hi1 : h1.imgs[image]? = some im := (c.caller_stays b hb m).1 _ _ hi
  have c1 := C157_emd2d sbs fuel cfg image im maxImf h1 hi1
  have s := EMD2D.emd_sim sbs fuel cfg image im maxImf h hi
  have s1 := EMD2D.emd_sim sbs fuel cfg image im maxImf h1 hi1
  have hsr := s.2
  rw [hb] at hsr
  have hs1r := s1.2
  cases hp : PyEMD.EMD2D.emd sbs fuel cfg im maxImf with
  | error e => rw [hp] at hsr; exact hsr.elim
  | ok out =>
    rw [hp] at hsr hs1r
    refine ⟨?_, ?_⟩
    · cases ha : (EMD2D.emd sbs fuel cfg image maxImf h1).1 with
      | error e => rw [ha] at hs1r; exact hs1r.elim
      | ok b' =>
        rw [ha] at hs1r
        exact ⟨b', rfl, hs1r.1.trans hsr.1.symm⟩
    · refine c1.untouched.2 b m ?_
      exact List.getElem?_set_self (List.getElem?_eq_some_iff.1 hsr.1).1

/-- A board in memory: two calls return three components each in arrays of their own (the addresses depend on what was created before), the board stays. -/
example :
    let h : Heap ℚ := { imgs := [board], cubes := [] }
    let out := EMD2D.emd flatSurface 2 PyEMD.EMD2D.Cfg.default 0 2 h
    let out2 := EMD2D.emd flatSurface 2 PyEMD.EMD2D.Cfg.default 0 2 out.2
    h.imgs[0]? = some board ∧ out2.2.imgs[0]? = some board ∧
    (match out.1, out2.1 with
      | .ok b, .ok b' => b != b' && (out2.2.cubes[b]?.getD []).length == 3 && out2.2.cubes[b]? == out2.2.cubes[b']?
      | _, _ => false) = true := by
  decide +kernel

/-- The same for BEMD. -/
example :
    let h : Heap ℚ := { imgs := [hills], cubes := [] }
    let out := BEMD.bemd sampleExt 2 PyEMD.BEMD.Cfg.default 0 2 h
    h.imgs[0]? = some hills ∧ out.2.imgs[0]? = some hills ∧
    (match out.1 with | .ok b => (out.2.cubes[b]?.getD []).length == 3 | _ => false) = true := by
  decide +kernel

end MemImg
end PyEMD
