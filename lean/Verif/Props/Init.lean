import Verif.Spec.Init
import Verif.Lemmas.Basic
import Verif.Props.Ceemdan
import Verif.Props.Eemd

/-!
# C121-C125: what the constructors do with their options
-/

set_option linter.unusedSectionVars false

namespace PyEMD
namespace Init
open Spec PyEMD.Spec

section LawFree

variable {α ρ : Type} [Add α] [Sub α] [Mul α] [Div α] [Neg α] [LT α] [LE α] [BEq α]
  [DecidableLT α] [DecidableLE α] [NpScalar α]

/-- The value `a'` of a field whose old value is `a`, after the keyword `name`. -/
def Field {β : Type} (conv : Value α → PyM β) (kw : Kwargs α) (name : String) (a a' : β) : Prop :=
  match kw.lookup name with
  | none => a' = a
  | some v => conv v = .ok a'

/-- The conversion of the detection mode. -/
def detectionE (v : Value α) : PyM EMD.Detection := if detection v = .unknown then .error .assertionError else .ok (detection v)

/-- All fields. -/
structure Fields (py : PyStr α) (c : EMD.Cfg α) (kw : Kwargs α) (c' : EMD.Cfg α) : Prop where
  energyRatioThr : Field (pyFloat py) kw "energy_ratio_thr" c.energyRatioThr c'.energyRatioThr
  stdThr : Field (pyFloat py) kw "std_thr" c.stdThr c'.stdThr
  svarThr : Field (pyFloat py) kw "svar_thr" c.svarThr c'.svarThr
  totalPowerThr : Field (pyFloat py) kw "total_power_thr" c.totalPowerThr c'.totalPowerThr
  rangeThr : Field (pyFloat py) kw "range_thr" c.rangeThr c'.rangeThr
  nbsym : Field (pyInt py) kw "nbsym" c.nbsym c'.nbsym
  scale : ∃ x y, Field (pyFloat py) kw "scale_factor" x y
  detection : Field detectionE kw "extrema_detection" c.detection c'.detection
  FIXE : Field (pyInt py) kw "FIXE" c.FIXE c'.FIXE
  FIXE_H : Field (pyInt py) kw "FIXE_H" c.FIXE_H c'.FIXE_H
  MAX_ITERATION : Field (pyInt py) kw "MAX_ITERATION" c.MAX_ITERATION c'.MAX_ITERATION
  splineKind : Field (fun v => .ok (splineKind py v)) kw "spline_kind" c.splineKind c'.splineKind

theorem field_get {β : Type} {conv : Value α → PyM β} {kw : Kwargs α} {name : String} {d : Value α} {a a' : β}
    (hd : conv d = .ok a) : conv (get kw name d) = .ok a' ↔ Field conv kw name a a' := by
  unfold get Field
  cases kw.lookup name with
  | none =>
    simp only [Option.getD_none]
    rw [hd]
    constructor
    · intro h
      injection h with h
      exact h.symm
    · rintro rfl
      rfl
  | some v => simp only [Option.getD_some]

theorem float_get {py : PyStr α} {kw : Kwargs α} {name : String} {x a' : α} :
    pyFloat py (get kw name (.num x)) = .ok a' ↔ Field (pyFloat py) kw name x a' := field_get (conv := pyFloat py) rfl

theorem int_get {py : PyStr α} {kw : Kwargs α} {name : String} {z a' : Int} :
    pyInt py (get kw name (.int z)) = .ok a' ↔ Field (pyInt py) kw name z a' := field_get (conv := pyInt py) rfl

theorem field_nil {β : Type} {conv : Value α → PyM β} {name : String} {a a' : β} : Field conv [] name a a' ↔ a' = a := by
  simp [Field]

theorem field_same {β : Type} {conv : Value α → PyM β} {kw : Kwargs α} {name : String} {v : Value α} {a a' : β}
    (hn : kw.lookup name = none) :
    Field conv ((name, v) :: kw) name a a' ↔ ∃ b, conv v = .ok b ∧ Field conv kw name b a' := by
  simp [Field, List.lookup_cons, hn]

theorem field_other {β : Type} {conv : Value α → PyM β} {kw : Kwargs α} {name n : String} {v : Value α} {a a' : β}
    (hn : n ≠ name) : Field conv ((n, v) :: kw) name a a' ↔ Field conv kw name a a' := by
  have : (name == n) = false := by simpa using fun h => hn h.symm
  simp [Field, List.lookup_cons, this]

theorem emd_ok_iff (py : PyStr α) (hpy : py.lower "cubic" = "cubic") (kw : Kwargs α) (o : EMD.Obj α) :
    emd py kw = .ok o ↔ Fields py EMD.Cfg.default kw o.cfg ∧ o.imfs = none ∧ o.residue = none := by
  have hk : (.ok (splineKind py (.str "cubic")) : PyM EMD.SplineKind) = .ok .cubic := by
    simp [splineKind, hpy]
  unfold emd
  simp only [bind_eq_ok]
  constructor
  · rintro ⟨a1, h1, a2, h2, a3, h3, a4, h4, a5, h5, a6, h6, a7, h7, h⟩
    by_cases hd : detection (get kw "extrema_detection" (.str "simple")) = .unknown
    · rw [if_pos hd] at h
      cases h
    · rw [if_neg hd] at h
      simp only [bind_eq_ok] at h
      obtain ⟨a8, h8, a9, h9, a10, h10, h⟩ := h
      injection h with h
      subst h
      refine ⟨⟨?_, ?_, ?_, ?_, ?_, ?_, ?_, ?_, ?_, ?_, ?_, ?_⟩, rfl, rfl⟩
      · exact float_get.1 h1
      · exact float_get.1 h2
      · exact float_get.1 h3
      · exact float_get.1 h4
      · exact float_get.1 h5
      · exact int_get.1 h6
      · exact ⟨_, _, float_get.1 h7⟩
      · exact (field_get (conv := detectionE) (d := .str "simple") (by simp [detectionE, detection, EMD.Cfg.default])).1
          (by unfold detectionE; rw [if_neg hd])
      · exact int_get.1 h8
      · exact int_get.1 h9
      · exact int_get.1 h10
      · exact (field_get (conv := fun v => .ok (splineKind py v)) hk).1 rfl
  · rintro ⟨⟨h1, h2, h3, h4, h5, h6, ⟨x, a7, h7⟩, hd, h8, h9, h10, hs⟩, hi, hr⟩
    have hd' := (field_get (conv := detectionE) (d := .str "simple")
      (by simp [detectionE, detection, EMD.Cfg.default])).2 hd
    have hs' := (field_get (conv := fun v => .ok (splineKind py v)) (d := .str "cubic") hk).2 hs
    have h7' : ∃ y, pyFloat py (get kw "scale_factor" (.num (lit 1))) = .ok y := by
      unfold Field at h7
      unfold get
      cases h : kw.lookup "scale_factor" with
      | none => exact ⟨_, rfl⟩
      | some v =>
        rw [h] at h7
        exact ⟨_, h7⟩
    obtain ⟨y, h7'⟩ := h7'
    refine ⟨_, float_get.2 h1, _, float_get.2 h2, _, float_get.2 h3, _, float_get.2 h4,
      _, float_get.2 h5, _, int_get.2 h6, _, h7', ?_⟩
    unfold detectionE at hd'
    by_cases hu : detection (get kw "extrema_detection" (.str "simple")) = .unknown
    · rw [if_pos hu] at hd'
      cases hd'
    · rw [if_neg hu] at hd' ⊢
      injection hd' with hd'
      injection hs' with hs'
      simp only [bind_eq_ok]
      refine ⟨_, int_get.2 h8, _, int_get.2 h9, _, int_get.2 h10, ?_⟩
      rw [hd', hs']
      obtain ⟨c, i, r⟩ := o
      simp only at hi hr
      rw [hi, hr]

theorem map_ok_iff {β γ : Type} {x : PyM β} {f : β → γ} {c : γ} : x.map f = .ok c ↔ ∃ b, x = .ok b ∧ f b = c := by
  cases x <;> simp [Except.map]

theorem field_none {β : Type} {conv : Value α → PyM β} {kw : Kwargs α} {name : String} {a : β}
    (hn : kw.lookup name = none) : Field conv kw name a a := by
  simp [Field, hn]

theorem scale_none {py : PyStr α} {kw : Kwargs α} (hn : kw.lookup "scale_factor" = none) :
    ∃ x y, Field (pyFloat py) kw "scale_factor" x y := ⟨lit 1, lit 1, field_none hn⟩

theorem scale_other {py : PyStr α} {kw : Kwargs α} {n : String} {v : Value α} (hn : n ≠ "scale_factor")
    (h : ∃ x y, Field (pyFloat py) ((n, v) :: kw) "scale_factor" x y) : ∃ x y, Field (pyFloat py) kw "scale_factor" x y := by
  obtain ⟨x, y, h⟩ := h
  exact ⟨x, y, (field_other hn).1 h⟩

theorem scale_other' {py : PyStr α} {kw : Kwargs α} {n : String} {v : Value α} (hn : n ≠ "scale_factor")
    (h : ∃ x y, Field (pyFloat py) kw "scale_factor" x y) : ∃ x y, Field (pyFloat py) ((n, v) :: kw) "scale_factor" x y := by
  obtain ⟨x, y, h⟩ := h
  exact ⟨x, y, (field_other hn).2 h⟩

/-- An assignment, then the rest. -/
theorem fields_cons (py : PyStr α) (c c' : EMD.Cfg α) (n : String) (v : Value α) (kw : Kwargs α) (hn : kw.lookup n = none) :
    Fields py c ((n, v) :: kw) c' ↔ ∃ c1, setOption py c (n, v) = .ok c1 ∧ Fields py c1 kw c' := by
  by_cases h : n = "energy_ratio_thr"
  · subst h
    constructor
    · intro F
      obtain ⟨b, hb, hF⟩ := (field_same hn).1 F.energyRatioThr
      refine ⟨{ c with energyRatioThr := b }, map_ok_iff.2 ⟨b, hb, rfl⟩, ?_⟩
      exact ⟨hF, (field_other (by decide)).1 F.stdThr, (field_other (by decide)).1 F.svarThr,
        (field_other (by decide)).1 F.totalPowerThr, (field_other (by decide)).1 F.rangeThr,
        (field_other (by decide)).1 F.nbsym, scale_other (by decide) F.scale, (field_other (by decide)).1 F.detection,
        (field_other (by decide)).1 F.FIXE, (field_other (by decide)).1 F.FIXE_H,
        (field_other (by decide)).1 F.MAX_ITERATION, (field_other (by decide)).1 F.splineKind⟩
    · rintro ⟨c1, h1, F⟩
      obtain ⟨b, hb, rfl⟩ := map_ok_iff.1 h1
      exact ⟨(field_same hn).2 ⟨_, hb, F.energyRatioThr⟩, (field_other (by decide)).2 F.stdThr,
        (field_other (by decide)).2 F.svarThr, (field_other (by decide)).2 F.totalPowerThr,
        (field_other (by decide)).2 F.rangeThr, (field_other (by decide)).2 F.nbsym, scale_other' (by decide) F.scale,
        (field_other (by decide)).2 F.detection, (field_other (by decide)).2 F.FIXE, (field_other (by decide)).2 F.FIXE_H,
        (field_other (by decide)).2 F.MAX_ITERATION, (field_other (by decide)).2 F.splineKind⟩
  by_cases h : n = "std_thr"
  · subst h
    constructor
    · intro F
      obtain ⟨b, hb, hF⟩ := (field_same hn).1 F.stdThr
      refine ⟨{ c with stdThr := b }, map_ok_iff.2 ⟨b, hb, rfl⟩, ?_⟩
      exact ⟨(field_other (by decide)).1 F.energyRatioThr, hF, (field_other (by decide)).1 F.svarThr,
        (field_other (by decide)).1 F.totalPowerThr, (field_other (by decide)).1 F.rangeThr,
        (field_other (by decide)).1 F.nbsym, scale_other (by decide) F.scale, (field_other (by decide)).1 F.detection,
        (field_other (by decide)).1 F.FIXE, (field_other (by decide)).1 F.FIXE_H,
        (field_other (by decide)).1 F.MAX_ITERATION, (field_other (by decide)).1 F.splineKind⟩
    · rintro ⟨c1, h1, F⟩
      obtain ⟨b, hb, rfl⟩ := map_ok_iff.1 h1
      exact ⟨(field_other (by decide)).2 F.energyRatioThr, (field_same hn).2 ⟨_, hb, F.stdThr⟩,
        (field_other (by decide)).2 F.svarThr, (field_other (by decide)).2 F.totalPowerThr,
        (field_other (by decide)).2 F.rangeThr, (field_other (by decide)).2 F.nbsym, scale_other' (by decide) F.scale,
        (field_other (by decide)).2 F.detection, (field_other (by decide)).2 F.FIXE, (field_other (by decide)).2 F.FIXE_H,
        (field_other (by decide)).2 F.MAX_ITERATION, (field_other (by decide)).2 F.splineKind⟩
  by_cases h : n = "svar_thr"
  · subst h
    constructor
    · intro F
      obtain ⟨b, hb, hF⟩ := (field_same hn).1 F.svarThr
      refine ⟨{ c with svarThr := b }, map_ok_iff.2 ⟨b, hb, rfl⟩, ?_⟩
      exact ⟨(field_other (by decide)).1 F.energyRatioThr, (field_other (by decide)).1 F.stdThr, hF,
        (field_other (by decide)).1 F.totalPowerThr, (field_other (by decide)).1 F.rangeThr,
        (field_other (by decide)).1 F.nbsym, scale_other (by decide) F.scale, (field_other (by decide)).1 F.detection,
        (field_other (by decide)).1 F.FIXE, (field_other (by decide)).1 F.FIXE_H,
        (field_other (by decide)).1 F.MAX_ITERATION, (field_other (by decide)).1 F.splineKind⟩
    · rintro ⟨c1, h1, F⟩
      obtain ⟨b, hb, rfl⟩ := map_ok_iff.1 h1
      exact ⟨(field_other (by decide)).2 F.energyRatioThr, (field_other (by decide)).2 F.stdThr, (field_same hn).2 ⟨_, hb,
        F.svarThr⟩, (field_other (by decide)).2 F.totalPowerThr, (field_other (by decide)).2 F.rangeThr,
        (field_other (by decide)).2 F.nbsym, scale_other' (by decide) F.scale, (field_other (by decide)).2 F.detection,
        (field_other (by decide)).2 F.FIXE, (field_other (by decide)).2 F.FIXE_H,
        (field_other (by decide)).2 F.MAX_ITERATION, (field_other (by decide)).2 F.splineKind⟩
  by_cases h : n = "total_power_thr"
  · subst h
    constructor
    · intro F
      obtain ⟨b, hb, hF⟩ := (field_same hn).1 F.totalPowerThr
      refine ⟨{ c with totalPowerThr := b }, map_ok_iff.2 ⟨b, hb, rfl⟩, ?_⟩
      exact ⟨(field_other (by decide)).1 F.energyRatioThr, (field_other (by decide)).1 F.stdThr,
        (field_other (by decide)).1 F.svarThr, hF, (field_other (by decide)).1 F.rangeThr,
        (field_other (by decide)).1 F.nbsym, scale_other (by decide) F.scale, (field_other (by decide)).1 F.detection,
        (field_other (by decide)).1 F.FIXE, (field_other (by decide)).1 F.FIXE_H,
        (field_other (by decide)).1 F.MAX_ITERATION, (field_other (by decide)).1 F.splineKind⟩
    · rintro ⟨c1, h1, F⟩
      obtain ⟨b, hb, rfl⟩ := map_ok_iff.1 h1
      exact ⟨(field_other (by decide)).2 F.energyRatioThr, (field_other (by decide)).2 F.stdThr,
        (field_other (by decide)).2 F.svarThr, (field_same hn).2 ⟨_, hb, F.totalPowerThr⟩,
        (field_other (by decide)).2 F.rangeThr, (field_other (by decide)).2 F.nbsym, scale_other' (by decide) F.scale,
        (field_other (by decide)).2 F.detection, (field_other (by decide)).2 F.FIXE, (field_other (by decide)).2 F.FIXE_H,
        (field_other (by decide)).2 F.MAX_ITERATION, (field_other (by decide)).2 F.splineKind⟩
  by_cases h : n = "range_thr"
  · subst h
    constructor
    · intro F
      obtain ⟨b, hb, hF⟩ := (field_same hn).1 F.rangeThr
      refine ⟨{ c with rangeThr := b }, map_ok_iff.2 ⟨b, hb, rfl⟩, ?_⟩
      exact ⟨(field_other (by decide)).1 F.energyRatioThr, (field_other (by decide)).1 F.stdThr,
        (field_other (by decide)).1 F.svarThr, (field_other (by decide)).1 F.totalPowerThr, hF,
        (field_other (by decide)).1 F.nbsym, scale_other (by decide) F.scale, (field_other (by decide)).1 F.detection,
        (field_other (by decide)).1 F.FIXE, (field_other (by decide)).1 F.FIXE_H,
        (field_other (by decide)).1 F.MAX_ITERATION, (field_other (by decide)).1 F.splineKind⟩
    · rintro ⟨c1, h1, F⟩
      obtain ⟨b, hb, rfl⟩ := map_ok_iff.1 h1
      exact ⟨(field_other (by decide)).2 F.energyRatioThr, (field_other (by decide)).2 F.stdThr,
        (field_other (by decide)).2 F.svarThr, (field_other (by decide)).2 F.totalPowerThr, (field_same hn).2 ⟨_, hb,
        F.rangeThr⟩, (field_other (by decide)).2 F.nbsym, scale_other' (by decide) F.scale,
        (field_other (by decide)).2 F.detection, (field_other (by decide)).2 F.FIXE, (field_other (by decide)).2 F.FIXE_H,
        (field_other (by decide)).2 F.MAX_ITERATION, (field_other (by decide)).2 F.splineKind⟩
  by_cases h : n = "nbsym"
  · subst h
    constructor
    · intro F
      obtain ⟨b, hb, hF⟩ := (field_same hn).1 F.nbsym
      refine ⟨{ c with nbsym := b }, map_ok_iff.2 ⟨b, hb, rfl⟩, ?_⟩
      exact ⟨(field_other (by decide)).1 F.energyRatioThr, (field_other (by decide)).1 F.stdThr,
        (field_other (by decide)).1 F.svarThr, (field_other (by decide)).1 F.totalPowerThr,
        (field_other (by decide)).1 F.rangeThr, hF, scale_other (by decide) F.scale, (field_other (by decide)).1 F.detection,
        (field_other (by decide)).1 F.FIXE, (field_other (by decide)).1 F.FIXE_H,
        (field_other (by decide)).1 F.MAX_ITERATION, (field_other (by decide)).1 F.splineKind⟩
    · rintro ⟨c1, h1, F⟩
      obtain ⟨b, hb, rfl⟩ := map_ok_iff.1 h1
      exact ⟨(field_other (by decide)).2 F.energyRatioThr, (field_other (by decide)).2 F.stdThr,
        (field_other (by decide)).2 F.svarThr, (field_other (by decide)).2 F.totalPowerThr,
        (field_other (by decide)).2 F.rangeThr, (field_same hn).2 ⟨_, hb, F.nbsym⟩, scale_other' (by decide) F.scale,
        (field_other (by decide)).2 F.detection, (field_other (by decide)).2 F.FIXE, (field_other (by decide)).2 F.FIXE_H,
        (field_other (by decide)).2 F.MAX_ITERATION, (field_other (by decide)).2 F.splineKind⟩
  by_cases h : n = "scale_factor"
  · subst h
    constructor
    · intro F
      obtain ⟨x, y, hxy⟩ := F.scale
      obtain ⟨b, hb, -⟩ := (field_same hn).1 hxy
      refine ⟨c, map_ok_iff.2 ⟨b, hb, rfl⟩, ?_⟩
      exact ⟨(field_other (by decide)).1 F.energyRatioThr, (field_other (by decide)).1 F.stdThr,
        (field_other (by decide)).1 F.svarThr, (field_other (by decide)).1 F.totalPowerThr,
        (field_other (by decide)).1 F.rangeThr, (field_other (by decide)).1 F.nbsym, scale_none hn,
        (field_other (by decide)).1 F.detection, (field_other (by decide)).1 F.FIXE, (field_other (by decide)).1 F.FIXE_H,
        (field_other (by decide)).1 F.MAX_ITERATION, (field_other (by decide)).1 F.splineKind⟩
    · rintro ⟨c1, h1, F⟩
      obtain ⟨b, hb, rfl⟩ := map_ok_iff.1 h1
      exact ⟨(field_other (by decide)).2 F.energyRatioThr, (field_other (by decide)).2 F.stdThr,
        (field_other (by decide)).2 F.svarThr, (field_other (by decide)).2 F.totalPowerThr,
        (field_other (by decide)).2 F.rangeThr, (field_other (by decide)).2 F.nbsym, ⟨b, b, (field_same hn).2 ⟨_, hb,
        field_none hn⟩⟩, (field_other (by decide)).2 F.detection, (field_other (by decide)).2 F.FIXE,
        (field_other (by decide)).2 F.FIXE_H, (field_other (by decide)).2 F.MAX_ITERATION,
        (field_other (by decide)).2 F.splineKind⟩
  by_cases h : n = "spline_kind"
  · subst h
    constructor
    · intro F
      obtain ⟨b, hb, hF⟩ := (field_same hn).1 F.splineKind
      refine ⟨{ c with splineKind := b }, by
          injection hb with hb
          simp only [setOption]
          rw [hb], ?_⟩
      exact ⟨(field_other (by decide)).1 F.energyRatioThr, (field_other (by decide)).1 F.stdThr,
        (field_other (by decide)).1 F.svarThr, (field_other (by decide)).1 F.totalPowerThr,
        (field_other (by decide)).1 F.rangeThr, (field_other (by decide)).1 F.nbsym, scale_other (by decide) F.scale,
        (field_other (by decide)).1 F.detection, (field_other (by decide)).1 F.FIXE, (field_other (by decide)).1 F.FIXE_H,
        (field_other (by decide)).1 F.MAX_ITERATION, hF⟩
    · rintro ⟨c1, h1, F⟩
      simp only [setOption] at h1
      injection h1 with h1
      subst h1
      have hb : (.ok (splineKind py v) : PyM EMD.SplineKind) = .ok (splineKind py v) := rfl
      exact ⟨(field_other (by decide)).2 F.energyRatioThr, (field_other (by decide)).2 F.stdThr,
        (field_other (by decide)).2 F.svarThr, (field_other (by decide)).2 F.totalPowerThr,
        (field_other (by decide)).2 F.rangeThr, (field_other (by decide)).2 F.nbsym, scale_other' (by decide) F.scale,
        (field_other (by decide)).2 F.detection, (field_other (by decide)).2 F.FIXE, (field_other (by decide)).2 F.FIXE_H,
        (field_other (by decide)).2 F.MAX_ITERATION, (field_same hn).2 ⟨_, hb, F.splineKind⟩⟩
  by_cases h : n = "extrema_detection"
  · subst h
    constructor
    · intro F
      obtain ⟨b, hb, hF⟩ := (field_same hn).1 F.detection
      refine ⟨{ c with detection := b }, by
          unfold detectionE at hb
          simp only [setOption]
          split at hb
          · cases hb
          · rename_i hu
            injection hb with hb
            rw [if_neg hu, hb], ?_⟩
      exact ⟨(field_other (by decide)).1 F.energyRatioThr, (field_other (by decide)).1 F.stdThr,
        (field_other (by decide)).1 F.svarThr, (field_other (by decide)).1 F.totalPowerThr,
        (field_other (by decide)).1 F.rangeThr, (field_other (by decide)).1 F.nbsym, scale_other (by decide) F.scale, hF,
        (field_other (by decide)).1 F.FIXE, (field_other (by decide)).1 F.FIXE_H,
        (field_other (by decide)).1 F.MAX_ITERATION, (field_other (by decide)).1 F.splineKind⟩
    · rintro ⟨c1, h1, F⟩
      simp only [setOption] at h1
      split at h1
      · cases h1
      rename_i hu
      injection h1 with h1
      subst h1
      have hb : detectionE v = .ok (detection v) := by unfold detectionE; rw [if_neg hu]
      exact ⟨(field_other (by decide)).2 F.energyRatioThr, (field_other (by decide)).2 F.stdThr,
        (field_other (by decide)).2 F.svarThr, (field_other (by decide)).2 F.totalPowerThr,
        (field_other (by decide)).2 F.rangeThr, (field_other (by decide)).2 F.nbsym, scale_other' (by decide) F.scale,
        (field_same hn).2 ⟨_, hb, F.detection⟩, (field_other (by decide)).2 F.FIXE, (field_other (by decide)).2 F.FIXE_H,
        (field_other (by decide)).2 F.MAX_ITERATION, (field_other (by decide)).2 F.splineKind⟩
  by_cases h : n = "FIXE"
  · subst h
    constructor
    · intro F
      obtain ⟨b, hb, hF⟩ := (field_same hn).1 F.FIXE
      refine ⟨{ c with FIXE := b }, map_ok_iff.2 ⟨b, hb, rfl⟩, ?_⟩
      exact ⟨(field_other (by decide)).1 F.energyRatioThr, (field_other (by decide)).1 F.stdThr,
        (field_other (by decide)).1 F.svarThr, (field_other (by decide)).1 F.totalPowerThr,
        (field_other (by decide)).1 F.rangeThr, (field_other (by decide)).1 F.nbsym, scale_other (by decide) F.scale,
        (field_other (by decide)).1 F.detection, hF, (field_other (by decide)).1 F.FIXE_H,
        (field_other (by decide)).1 F.MAX_ITERATION, (field_other (by decide)).1 F.splineKind⟩
    · rintro ⟨c1, h1, F⟩
      obtain ⟨b, hb, rfl⟩ := map_ok_iff.1 h1
      exact ⟨(field_other (by decide)).2 F.energyRatioThr, (field_other (by decide)).2 F.stdThr,
        (field_other (by decide)).2 F.svarThr, (field_other (by decide)).2 F.totalPowerThr,
        (field_other (by decide)).2 F.rangeThr, (field_other (by decide)).2 F.nbsym, scale_other' (by decide) F.scale,
        (field_other (by decide)).2 F.detection, (field_same hn).2 ⟨_, hb, F.FIXE⟩, (field_other (by decide)).2 F.FIXE_H,
        (field_other (by decide)).2 F.MAX_ITERATION, (field_other (by decide)).2 F.splineKind⟩
  by_cases h : n = "FIXE_H"
  · subst h
    constructor
    · intro F
      obtain ⟨b, hb, hF⟩ := (field_same hn).1 F.FIXE_H
      refine ⟨{ c with FIXE_H := b }, map_ok_iff.2 ⟨b, hb, rfl⟩, ?_⟩
      exact ⟨(field_other (by decide)).1 F.energyRatioThr, (field_other (by decide)).1 F.stdThr,
        (field_other (by decide)).1 F.svarThr, (field_other (by decide)).1 F.totalPowerThr,
        (field_other (by decide)).1 F.rangeThr, (field_other (by decide)).1 F.nbsym, scale_other (by decide) F.scale,
        (field_other (by decide)).1 F.detection, (field_other (by decide)).1 F.FIXE, hF,
        (field_other (by decide)).1 F.MAX_ITERATION, (field_other (by decide)).1 F.splineKind⟩
    · rintro ⟨c1, h1, F⟩
      obtain ⟨b, hb, rfl⟩ := map_ok_iff.1 h1
      exact ⟨(field_other (by decide)).2 F.energyRatioThr, (field_other (by decide)).2 F.stdThr,
        (field_other (by decide)).2 F.svarThr, (field_other (by decide)).2 F.totalPowerThr,
        (field_other (by decide)).2 F.rangeThr, (field_other (by decide)).2 F.nbsym, scale_other' (by decide) F.scale,
        (field_other (by decide)).2 F.detection, (field_other (by decide)).2 F.FIXE, (field_same hn).2 ⟨_, hb, F.FIXE_H⟩,
        (field_other (by decide)).2 F.MAX_ITERATION, (field_other (by decide)).2 F.splineKind⟩
  by_cases h : n = "MAX_ITERATION"
  · subst h
    constructor
    · intro F
      obtain ⟨b, hb, hF⟩ := (field_same hn).1 F.MAX_ITERATION
      refine ⟨{ c with MAX_ITERATION := b }, map_ok_iff.2 ⟨b, hb, rfl⟩, ?_⟩
      exact ⟨(field_other (by decide)).1 F.energyRatioThr, (field_other (by decide)).1 F.stdThr,
        (field_other (by decide)).1 F.svarThr, (field_other (by decide)).1 F.totalPowerThr,
        (field_other (by decide)).1 F.rangeThr, (field_other (by decide)).1 F.nbsym, scale_other (by decide) F.scale,
        (field_other (by decide)).1 F.detection, (field_other (by decide)).1 F.FIXE, (field_other (by decide)).1 F.FIXE_H,
        hF, (field_other (by decide)).1 F.splineKind⟩
    · rintro ⟨c1, h1, F⟩
      obtain ⟨b, hb, rfl⟩ := map_ok_iff.1 h1
      exact ⟨(field_other (by decide)).2 F.energyRatioThr, (field_other (by decide)).2 F.stdThr,
        (field_other (by decide)).2 F.svarThr, (field_other (by decide)).2 F.totalPowerThr,
        (field_other (by decide)).2 F.rangeThr, (field_other (by decide)).2 F.nbsym, scale_other' (by decide) F.scale,
        (field_other (by decide)).2 F.detection, (field_other (by decide)).2 F.FIXE, (field_other (by decide)).2 F.FIXE_H,
        (field_same hn).2 ⟨_, hb, F.MAX_ITERATION⟩, (field_other (by decide)).2 F.splineKind⟩
  have hs : setOption py c (n, v) = .ok c := by
    unfold setOption
    split <;> first | rfl | (rename_i heq; injection heq with heq _; exact absurd heq (by assumption))
  rw [hs]
  constructor
  · intro F
    exact ⟨c, rfl, (field_other (by assumption)).1 F.energyRatioThr, (field_other (by assumption)).1 F.stdThr,
      (field_other (by assumption)).1 F.svarThr, (field_other (by assumption)).1 F.totalPowerThr,
      (field_other (by assumption)).1 F.rangeThr, (field_other (by assumption)).1 F.nbsym,
      scale_other (by assumption) F.scale, (field_other (by assumption)).1 F.detection,
      (field_other (by assumption)).1 F.FIXE, (field_other (by assumption)).1 F.FIXE_H,
      (field_other (by assumption)).1 F.MAX_ITERATION, (field_other (by assumption)).1 F.splineKind⟩
  · rintro ⟨c1, h1, F⟩
    injection h1 with h1
    subst h1
    exact ⟨(field_other (by assumption)).2 F.energyRatioThr, (field_other (by assumption)).2 F.stdThr,
      (field_other (by assumption)).2 F.svarThr, (field_other (by assumption)).2 F.totalPowerThr,
      (field_other (by assumption)).2 F.rangeThr, (field_other (by assumption)).2 F.nbsym,
      scale_other' (by assumption) F.scale, (field_other (by assumption)).2 F.detection,
      (field_other (by assumption)).2 F.FIXE, (field_other (by assumption)).2 F.FIXE_H,
      (field_other (by assumption)).2 F.MAX_ITERATION, (field_other (by assumption)).2 F.splineKind⟩

theorem lookup_none {kw : Kwargs α} {n : String} (h : n ∉ kw.map Prod.fst) : kw.lookup n = none := by
  induction kw with
  | nil => rfl
  | cons p kw ih =>
    simp only [List.map_cons, List.mem_cons, not_or] at h
    rw [List.lookup_cons, ih h.2]
    have : (n == p.1) = false := by simpa using h.1
    rw [this]

theorem fields_iff (py : PyStr α) (kw : Kwargs α) (hn : (kw.map Prod.fst).Nodup) (c c' : EMD.Cfg α) :
    Fields py c kw c' ↔ setOptions py c kw = .ok c' := by
  induction kw generalizing c with
  | nil =>
    have he : setOptions py c [] = .ok c := rfl
    rw [he]
    constructor
    · intro F
      obtain ⟨h1, h2, h3, h4, h5, h6, -, h7, h8, h9, h10, h11⟩ := F
      rw [field_nil] at *
      obtain ⟨_, _, _, _, _, _, _, _, _, _, _⟩ := c
      obtain ⟨_, _, _, _, _, _, _, _, _, _, _⟩ := c'
      simp only at h1 h2 h3 h4 h5 h6 h7 h8 h9 h10 h11
      subst h1 h2 h3 h4 h5 h6 h7 h8 h9 h10 h11
      rfl
    · intro h
      injection h with h
      subst h
      exact ⟨field_nil.2 rfl, field_nil.2 rfl, field_nil.2 rfl, field_nil.2 rfl, field_nil.2 rfl, field_nil.2 rfl,
        scale_none rfl, field_nil.2 rfl, field_nil.2 rfl, field_nil.2 rfl, field_nil.2 rfl, field_nil.2 rfl⟩
  | cons p kw ih =>
    obtain ⟨n, v⟩ := p
    rw [List.map_cons, List.nodup_cons] at hn
    rw [fields_cons py c c' n v kw (lookup_none hn.1)]
    unfold setOptions
    rw [List.foldlM_cons, bind_eq_ok]
    constructor
    · rintro ⟨c1, h1, h2⟩
      exact ⟨c1, h1, (ih hn.2 c1).1 h2⟩
    · rintro ⟨c1, h1, h2⟩
      exact ⟨c1, h1, (ih hn.2 c1).2 h2⟩

/-! ## C121 -/

/-- C121: making an `EMD` object with keyword options succeeds with an object `o` exactly when assigning the options one after
another to the attributes of a default object succeeds and gives the attributes of `o`; a name that is no documented option
changes nothing.  Law-free. -/
theorem C121_options (py : PyStr α) (hpy : py.lower "cubic" = "cubic") (kw : Kwargs α) (hn : (kw.map Prod.fst).Nodup)
    (o : EMD.Obj α) :
    emd py kw = .ok o ↔ setOptions py EMD.Cfg.default kw = .ok o.cfg ∧ o.imfs = none ∧ o.residue = none := by
  rw [emd_ok_iff py hpy, fields_iff py kw hn]

/-- A decidable class of options agrees. -/
theorem emd_congr (py : PyStr α) {kw kw' : Kwargs α} (h : ∀ n ∈ emdOptions, kw.lookup n = kw'.lookup n) :
    emd py kw = emd py kw' := by
  have g : ∀ n ∈ emdOptions, ∀ d, get kw n d = get kw' n d := fun n hn d => by unfold get; rw [h n hn]
  unfold emd
  rw [g "energy_ratio_thr" (by decide), g "std_thr" (by decide), g "svar_thr" (by decide), g "total_power_thr" (by decide),
    g "range_thr" (by decide), g "nbsym" (by decide), g "scale_factor" (by decide), g "extrema_detection" (by decide),
    g "FIXE" (by decide), g "FIXE_H" (by decide), g "MAX_ITERATION" (by decide), g "spline_kind" (by decide)]

theorem lookup_filter {kw : Kwargs α} {p : String → Bool} {n : String} (h : p n = true) :
    (kw.filter (fun q => p q.1)).lookup n = kw.lookup n := by
  induction kw with
  | nil => rfl
  | cons q kw ih =>
    rw [List.filter_cons]
    by_cases hq : p q.1 = true
    · rw [if_pos hq, List.lookup_cons, List.lookup_cons, ih]
    · rw [if_neg hq, ih, List.lookup_cons]
      have : (n == q.1) = false := by
        rw [beq_eq_false_iff_ne]
        rintro rfl
        exact hq h
      rw [this]

/-- C121: a misspelt option is not noticed: the constructor does the same as without it (the same object or the same
exception).  Law-free. -/
theorem C121_ignored (py : PyStr α) (kw : Kwargs α) :
    emd py kw = emd py (kw.filter (fun p => decide (p.1 ∈ emdOptions))) :=
  emd_congr py (fun _ hn => (lookup_filter (p := fun m => decide (m ∈ emdOptions)) (by simpa using hn)).symm)

/-! ## C122 -/

theorem lookup_append_left {kw kw' : Kwargs α} {n : String} (h : n ∉ kw'.map Prod.fst) :
    (kw ++ kw').lookup n = kw.lookup n := by
  rw [List.lookup_append, lookup_none h, Option.or_none]

theorem lookup_append_right {kw kw' : Kwargs α} {n : String} (h : n ∉ kw.map Prod.fst) :
    (kw ++ kw').lookup n = kw'.lookup n := by
  rw [List.lookup_append, lookup_none h, Option.none_or]

/-- C122: options of the inner `EMD` given to `EEMD` do what they do in an `EMD` object made with them and given as `ext_EMD`
(the same object or the same exception).  Law-free. -/
theorem C122_eemd (py : PyStr α) (cpus : Nat) (fresh : ρ) (trials : Nat) (noiseWidth : α) (parallel : Bool) (kw kw' : Kwargs α)
    (hk : ∀ n ∈ kw.map Prod.fst, n ∈ emdOptions) (hk' : ∀ n ∈ kw'.map Prod.fst, n ∉ emdOptions) :
    eemd py cpus fresh trials noiseWidth none parallel (kw ++ kw') =
      emd py kw >>= fun e => eemd py cpus fresh trials noiseWidth (some e) parallel kw' := by
  have he : emd py (kw ++ kw') = emd py kw := emd_congr py (fun n hn => lookup_append_left (fun h => hk' n h hn))
  have g : ∀ n, n ∉ emdOptions → ∀ d, get (kw ++ kw') n d = get kw' n d := fun n hn d => by
    unfold get
    rw [lookup_append_right (fun h => hn (hk n h))]
  unfold eemd
  simp only [he]
  rw [g "separate_trends" (by decide), g "noise_kind" (by decide), g "processes" (by decide)]
  cases emd py kw <;> rfl

/-- C122, what holds for `CEEMDAN`: the same when none of the options is called `range_thr` or `total_power_thr`; missing are these
two names, which `CEEMDAN` reads itself and gives to the inner `EMD` as well.  Law-free. -/
theorem C122_ceemdan_partial (py : PyStr α) (rng : Rng α ρ) (cpus : Nat) (fresh : ρ) (trials : Nat) (epsilon : α) (parallel : Bool)
    (kw kw' : Kwargs α) (hk : ∀ n ∈ kw.map Prod.fst, n ∈ emdOptions ∧ n ≠ "range_thr" ∧ n ≠ "total_power_thr")
    (hk' : ∀ n ∈ kw'.map Prod.fst, n ∉ emdOptions) (o : CEEMDAN.Obj α ρ) :
    ceemdan py rng cpus fresh trials epsilon none parallel (kw ++ kw') = .ok o ↔
      ∃ e, emd py kw = .ok e ∧ ceemdan py rng cpus fresh trials epsilon (some e.cfg) parallel kw' = .ok o := by
  have he : emd py (kw ++ kw') = emd py kw := emd_congr py (fun n hn => lookup_append_left (fun h => hk' n h hn))
  have g : ∀ n, (n ∉ emdOptions ∨ n = "range_thr" ∨ n = "total_power_thr") → ∀ d, get (kw ++ kw') n d = get kw' n d := fun n hn d => by
    unfold get
    rw [lookup_append_right (fun h => by
      obtain ⟨h1, h2, h3⟩ := hk n h
      rcases hn with hn | hn | hn
      · exact hn h1
      · exact h2 hn
      · exact h3 hn)]
  unfold ceemdan
  simp only [he]
  rw [g "noise_scale" (by decide), g "range_thr" (by decide), g "total_power_thr" (by decide), g "seed" (by decide),
    g "max_imf" (by decide), g "beta_progress" (by decide), g "noise_kind" (by decide), g "processes" (by decide)]
  simp only [bind_eq_ok, map_ok_iff]
  constructor
  · rintro ⟨a1, h1, a2, h2, a3, h3, a4, h4, a5, h5, a6, ⟨e, h6, rfl⟩, h⟩
    exact ⟨e, h6, a1, h1, a2, h2, a3, h3, a4, h4, a5, h5, e.cfg, rfl, h⟩
  · rintro ⟨e, h6, a1, h1, a2, h2, a3, h3, a4, h4, a5, h5, a6, h7, h⟩
    injection h7 with h7
    subst h7
    exact ⟨a1, h1, a2, h2, a3, h3, a4, h4, a5, h5, _, ⟨e, h6, rfl⟩, h⟩

/-! ## C123 -/

theorem get_cons_other {kw : Kwargs α} {n name : String} {v d : Value α} (h : n ≠ name) : get ((n, v) :: kw) name d = get kw name d := by
  have : (name == n) = false := by simpa using fun e => h e.symm
  unfold get
  rw [List.lookup_cons, this]

theorem emd_cons_other (py : PyStr α) {kw : Kwargs α} {n : String} {v : Value α} (h : n ∉ emdOptions) :
    emd py ((n, v) :: kw) = emd py kw :=
  emd_congr py (fun m hm => by
    have : (m == n) = false := by
      rw [beq_eq_false_iff_ne]
      rintro rfl
      exact h hm
    rw [List.lookup_cons, this])

/-- C123: `CEEMDAN(..., seed=s)` is `CEEMDAN(...)` followed by `noise_seed(s)`, whatever states the operating system would have
given the two generators: the same object (hence the same decompositions), or the same exception.  Law-free. -/
theorem C123_ceemdan (py : PyStr α) (rng : Rng α ρ) (cpus : Nat) (fresh fresh' : ρ) (trials : Nat) (epsilon : α)
    (ext : Option (EMD.Cfg α)) (parallel : Bool) (kw : Kwargs α) (hs : "seed" ∉ kw.map Prod.fst) (s : Int) :
    ceemdan py rng cpus fresh trials epsilon ext parallel (("seed", .int s) :: kw) =
      (ceemdan py rng cpus fresh' trials epsilon ext parallel kw).map (fun o => o.noiseSeed rng s) := by
  have h1 : get (("seed", Value.int s) :: kw) "seed" .none = .int s := by simp [get]
  have h2 : get kw "seed" .none = .none := by unfold get; rw [lookup_none hs]; rfl
  unfold ceemdan
  rw [h1, h2, emd_cons_other py (by decide)]
  rw [get_cons_other (name := "noise_scale") (by decide), get_cons_other (name := "range_thr") (by decide),
    get_cons_other (name := "total_power_thr") (by decide), get_cons_other (name := "max_imf") (by decide),
    get_cons_other (name := "beta_progress") (by decide), get_cons_other (name := "noise_kind") (by decide),
    get_cons_other (name := "processes") (by decide)]
  simp only [randomState]
  cases pyFloat py (get kw "noise_scale" (.num (lit 1))) with
  | error e => rfl
  | ok a1 =>
  cases pyFloat py (get kw "range_thr" (.num (lit (1 / 100)))) with
  | error e => rfl
  | ok a2 =>
  cases pyFloat py (get kw "total_power_thr" (.num (lit (5 / 100)))) with
  | error e => rfl
  | ok a3 =>
  cases pyInt py (get kw "max_imf" (.int 100)) with
  | error e => rfl
  | ok a5 =>
  cases ext with
  | some e => rfl
  | none => cases emd py kw <;> rfl

/-- C123, what happens with `EEMD`: a `seed` is ignored, so is every name that is neither an option of `EEMD` nor one of `EMD`.
Law-free. -/
theorem C123_eemd_ignored (py : PyStr α) (cpus : Nat) (fresh : ρ) (trials : Nat) (noiseWidth : α) (ext : Option (EMD.Obj α))
    (parallel : Bool) (kw : Kwargs α) (n : String) (hn : n ∉ emdOptions) (hn' : n ∉ eemdOptions) (v : Value α) :
    eemd py cpus fresh trials noiseWidth ext parallel ((n, v) :: kw) = eemd py cpus fresh trials noiseWidth ext parallel kw := by
  have g : ∀ m ∈ eemdOptions, ∀ d, get ((n, v) :: kw) m d = get kw m d := fun m hm d =>
    get_cons_other (fun e => hn' (e ▸ hm))
  unfold eemd
  rw [emd_cons_other py hn, g "separate_trends" (by decide), g "noise_kind" (by decide), g "processes" (by decide)]

/-! ## C124 -/

/-- C124, what holds: `CEEMDAN(max_imf=k)` limits every later call to `k + 2` components.  Missing: the documentation promises the
number given (`C124_ceemdan_counterexample`), and for `EEMD` too, where the option is ignored (`C124_eemd_counterexample`).
Law-free. -/
theorem C124_ceemdan_partial (py : PyStr α) (rng rng' : Rng α ρ) (cpus : Nat) (fresh : ρ) (trials : Nat) (epsilon : α)
    (ext : Option (EMD.Cfg α)) (parallel : Bool) (kw : Kwargs α) (k : Nat) (hk : kw.lookup "max_imf" = some (.int k))
    (o o' : CEEMDAN.Obj α ρ) (ho : ceemdan py rng cpus fresh trials epsilon ext parallel kw = .ok o)
    (std : List α → α) (fuel : Nat) (sp : SciPy α) (orderN orderT : List Nat) (S : List α) (T : Option (List α)) (m : Int)
    (C : List (List α)) (h : o.ceemdan rng' std fuel sp orderN orderT S T m = (.ok C, o')) : C.length ≤ k + 2 := by
  have hm : o.cfg.maxStages = k := by
    unfold ceemdan at ho
    simp only [bind_eq_ok] at ho
    obtain ⟨a1, h1, a2, h2, a3, h3, a4, h4, a5, h5, h6⟩ := ho
    unfold get at h5
    rw [hk] at h5
    injection h5 with h5
    subst h5
    cases ext with
    | none =>
      simp only [bind_eq_ok] at h6
      obtain ⟨e, -, h6⟩ := h6
      rw [pure_eq_ok] at h6
      subst h6
      simp [CEEMDAN.Obj.new]
    | some e =>
      simp only [bind_eq_ok] at h6
      obtain ⟨e, -, h6⟩ := h6
      rw [pure_eq_ok] at h6
      subst h6
      simp [CEEMDAN.Obj.new]
  rw [← hm]
  exact (CEEMDAN.C40_max_imf _ _ _ _ _ _ _ _ _ _ _ _ h).2.1

end LawFree

/-! ## Concrete cases -/

/-- Python's string functions on the strings used below. -/
def samplePy : PyStr ℚ where
  floatOf s := if s = "0.5" then some (1 / 2) else none
  intOf s := if s = "3" then some 3 else none
  lower s := if s = "Akima" then "akima" else s

/-- C121 at a list of keywords with a string, a float used as a count, and an unknown name: the documented attributes are set. -/
example : emd samplePy [("FIXE", .num (5 / 2)), ("std_thr", .str "0.5"), ("fixe", .int 9), ("spline_kind", .str "Akima")] =
    .ok ⟨{ EMD.Cfg.default with FIXE := 2, stdThr := 1 / 2, splineKind := .akima }, none, none⟩ := by
  rw [C121_options samplePy rfl _ (by decide)]
  refine ⟨?_, rfl, rfl⟩
  have h : (toInt (5 / 2 : ℚ)) = 2 := by decide +kernel
  simp [setOptions, setOption, List.foldlM, pyInt, pyFloat, samplePy, splineKind, Except.map, bind, Except.bind, pure, Except.pure, h]

/-- C121: refused values. -/
example : emd samplePy [("FIXE", .str "two")] = .error .valueError ∧ emd samplePy [("std_thr", .none)] = .error .typeError ∧
    emd samplePy [("extrema_detection", .str "Simple")] = .error .assertionError := by
  refine ⟨errIs_iff.1 ?_, errIs_iff.1 ?_, errIs_iff.1 ?_⟩ <;> decide +kernel

/-- C121: a misspelt name goes unnoticed. -/
example : emd samplePy [("MAX_ITERATIONS", .int 5)] = emd samplePy [] := C121_ignored _ _

/-- A generator over the rationals whose streams do not repeat early. -/
def sampleRng : Rng ℚ Nat where
  normal r s n := ((List.range n).map (fun i => s * (((r + i) * (r + i) * (r + i) % 11 : Nat) - 5)), r + n)
  uniform r a b n := ((List.range n).map (fun i => a + (b - a) * ((r + i) * (r + i) % 5 : Nat) / 4), r + n)
  seed s := s.toNat

/-- A stand-in for `np.std`. -/
def sampleStd (l : List ℚ) : ℚ := (npMax l - npMin l) / 10

/-- `CEEMDAN(trials=3, epsilon=1/20, ext_EMD=ext, parallel=False, **kw)(S)`. -/
def runCeemdan (fresh : Nat) (ext : Option (EMD.Cfg ℚ)) (kw : Kwargs ℚ) (m : Int) : PyM (List (List ℚ)) :=
  ceemdan samplePy sampleRng 4 fresh 3 (1 / 20) ext false kw >>= fun o =>
    (o.ceemdan sampleRng sampleStd 20 linSciPy [] [] EMD.sampleS none m).1

/-- `EEMD(trials=3, noise_width=1/4, ext_EMD=ext, parallel=False, **kw)(S)`. -/
def runEemd (fresh : Nat) (ext : Option (EMD.Obj ℚ)) (kw : Kwargs ℚ) : PyM (List (List ℚ)) :=
  eemd samplePy 4 fresh 3 (1 / 4) ext false kw >>= fun o => (o.eemd sampleRng 20 linSciPy [] EMD.sampleS none (-1)).1

/-- C122 at the call recommended by the documentation, `EEMD(spline_kind='akima')`, and with an option of each class. -/
example (fresh : Nat) :
    eemd samplePy 4 fresh 3 (1 / 4) none false [("spline_kind", .str "akima"), ("FIXE", .int 2), ("noise_kind", .str "uniform")] =
      emd samplePy [("spline_kind", .str "akima"), ("FIXE", .int 2)] >>= fun e =>
        eemd samplePy 4 fresh 3 (1 / 4) (some e) false [("noise_kind", .str "uniform")] :=
  C122_eemd _ _ _ _ _ _ [("spline_kind", .str "akima"), ("FIXE", .int 2)] [("noise_kind", .str "uniform")] (by decide) (by decide)

/-- C122: such an `EEMD` object decomposes. -/
example : okWith (fun E => E.length == 3) (runEemd 1 none [("spline_kind", .str "akima"), ("FIXE", .int 2)]) = true := by
  decide +kernel

/-- C122 for `CEEMDAN` at options of both classes. -/
example (fresh : Nat) (o : CEEMDAN.Obj ℚ Nat) :
    ceemdan samplePy sampleRng 4 fresh 3 (1 / 20) none false [("FIXE", .int 2), ("noise_scale", .int 2)] = .ok o ↔
      ∃ e, emd samplePy [("FIXE", .int 2)] = .ok e ∧
        ceemdan samplePy sampleRng 4 fresh 3 (1 / 20) (some e.cfg) false [("noise_scale", .int 2)] = .ok o :=
  C122_ceemdan_partial _ _ _ _ _ _ _ [("FIXE", .int 2)] [("noise_scale", .int 2)] (by decide) (by decide) o

/-- C122, counterexample for the full claim: `CEEMDAN(FIXE=2, range_thr=3)` and `CEEMDAN(ext_EMD=EMD(FIXE=2), range_thr=3)` return
different components for one signal, for the inner `EMD` of the former has the threshold 3 in place of the 0.001 documented for
`EMD`. -/
theorem C122_counterexample :
    okWith (fun e => runCeemdan 1 none [("FIXE", .int 2), ("range_thr", .int 3)] (-1) !=
      runCeemdan 1 (some e.cfg) [("range_thr", .int 3)] (-1)) (emd samplePy [("FIXE", .int 2)]) = true ∧
    okWith (fun o => o.emd.rangeThr == 3)
      (ceemdan samplePy sampleRng 4 1 3 (1 / 20) none false [("range_thr", .int 3)]) = true := by
  decide +kernel

/-- C123 at a seed: the state of the operating system does not matter, and the call succeeds. -/
example : runCeemdan 1 none [("seed", .int 7), ("FIXE", .int 2)] (-1) = runCeemdan 2 none [("seed", .int 7), ("FIXE", .int 2)] (-1) ∧
    okWith (fun C => C.length == 3) (runCeemdan 2 none [("seed", .int 7), ("FIXE", .int 2)] (-1)) = true ∧
    (runCeemdan 1 none [("FIXE", .int 2)] (-1) != runCeemdan 2 none [("FIXE", .int 2)] (-1)) = true := by
  refine ⟨?_, by decide +kernel, by decide +kernel⟩
  unfold runCeemdan
  rw [C123_ceemdan samplePy sampleRng 4 1 2 3 _ none false [("FIXE", .int 2)] (by decide),
    ← C123_ceemdan samplePy sampleRng 4 2 2 3 _ none false [("FIXE", .int 2)] (by decide)]

/-- C123, counterexample for the full claim: two objects `EEMD(seed=7)` return different components for one signal, as their
generators start from different states of the operating system. -/
theorem C123_eemd_counterexample :
    (runEemd 1 none [("seed", .int 7), ("FIXE", .int 2)] != runEemd 2 none [("seed", .int 7), ("FIXE", .int 2)]) = true ∧
    okWith (fun _ => true) (runEemd 1 none [("seed", .int 7), ("FIXE", .int 2)]) = true ∧
    okWith (fun _ => true) (runEemd 2 none [("seed", .int 7), ("FIXE", .int 2)]) = true := by
  decide +kernel

/-- C124: a call that meets the hypotheses. -/
example : okWith (fun C => C.length == 3) (runCeemdan 1 none [("FIXE", .int 2), ("max_imf", .int 1)] (-1)) = true ∧
    (List.lookup "max_imf" [("FIXE", Value.int 2), ("max_imf", (Value.int (1 : Nat) : Value ℚ))]) = some (.int (1 : Nat)) := by
  decide +kernel

/-- C124, counterexample for the full claim: `CEEMDAN(max_imf=1)` returns three components. -/
theorem C124_ceemdan_counterexample :
    okWith (fun C => C.length == 3) (runCeemdan 1 none [("FIXE", .int 2), ("max_imf", .int 1)] (-1)) = true := by
  decide +kernel

/-- C124, counterexample for the full claim: the call of the documentation, `EEMD(max_imfs=2)`, and the same with `max_imf`, return
three components. -/
theorem C124_eemd_counterexample :
    okWith (fun E => E.length == 3) (runEemd 1 none [("FIXE", .int 2), ("max_imfs", .int 2)]) = true ∧
    okWith (fun E => E.length == 3) (runEemd 1 none [("FIXE", .int 2), ("max_imf", .int 2)]) = true := by
  decide +kernel

end Init

/-! ## C125 -/

namespace JitConfig
open EMD (Cfg)

section LawFree

variable {α : Type} [Add α] [Sub α] [Mul α] [Div α] [Neg α] [LT α] [LE α] [BEq α]
  [DecidableLT α] [DecidableLE α] [NpScalar α]

/-- Every object refers to a dictionary that exists. -/
def World.Valid (w : World α) : Prop := 0 < w.dicts.length ∧ ∀ o ∈ w.objs, o.config < w.dicts.length

theorem start_valid : (World.start : World α).Valid := ⟨by simp [World.start], fun _ h => by simp [World.start] at h⟩

theorem step_valid {w : World α} (h : w.Valid) (op : Op α) : (w.step op).Valid := by
  cases op with
  | set d name x => exact ⟨by simpa [World.step] using h.1, fun o ho => by simpa [World.step] using h.2 o ho⟩
  | copy d =>
    refine ⟨by simp [World.step], fun o ho => ?_⟩
    have := h.2 o ho
    simp only [World.step, List.length_append, List.length_singleton]
    omega
  | new config kind detection =>
    refine ⟨h.1, fun o ho => ?_⟩
    simp only [World.step, List.mem_append, List.mem_singleton] at ho
    rcases ho with ho | rfl
    · exact h.2 o ho
    · show w.pick config < w.dicts.length
      unfold World.pick
      cases config with
      | none => exact h.1
      | some d =>
        simp only
        split
        · exact h.1
        · rename_i hd
          by_contra hlt
          apply hd
          rw [List.getD_eq_getElem?_getD, List.getElem?_eq_none (by omega)]
          rfl

theorem run_valid {w : World α} (h : w.Valid) (ops : List (Op α)) : (w.run ops).Valid := by
  induction ops generalizing w with
  | nil => exact h
  | cons op ops ih => exact ih (step_valid h op)

theorem step_keeps {w : World α} {o : Ref} (ho : o.config < w.dicts.length) {op : Op α}
    (hop : ∀ name x, op ≠ .set o.config name x) :
    (w.step op).dicts.getD o.config [] = w.dicts.getD o.config [] ∧ o.config < (w.step op).dicts.length := by
  cases op with
  | set d name x =>
    have hd : d ≠ o.config := by
      rintro rfl
      exact hop name x rfl
    refine ⟨?_, by simpa [World.step] using ho⟩
    simp only [World.step, List.getD_eq_getElem?_getD, List.getElem?_modify, if_neg hd]
    simp
  | copy d =>
    refine ⟨?_, by simp only [World.step, List.length_append, List.length_singleton]; omega⟩
    simp only [World.step, List.getD_eq_getElem?_getD, List.getElem?_append_left ho]
  | new config kind detection => exact ⟨rfl, ho⟩

theorem step_objs {w : World α} {i : Nat} {o : Ref} (h : w.objs[i]? = some o) (op : Op α) : (w.step op).objs[i]? = some o := by
  cases op with
  | set d name x => exact h
  | copy d => exact h
  | new config kind detection =>
    simp only [World.step]
    rw [List.getElem?_append_left (List.getElem?_eq_some_iff.1 h).1]
    exact h

theorem run_keeps {w : World α} {i : Nat} {o : Ref} (h : w.objs[i]? = some o) (ho : o.config < w.dicts.length) (ops : List (Op α))
    (hops : ∀ op ∈ ops, ∀ name x, op ≠ .set o.config name x) :
    (w.run ops).objs[i]? = some o ∧ (w.run ops).dicts.getD o.config [] = w.dicts.getD o.config [] := by
  induction ops generalizing w with
  | nil => exact ⟨h, rfl⟩
  | cons op ops ih =>
    obtain ⟨h1, h2⟩ := step_keeps ho (hops op (by simp))
    obtain ⟨h3, h4⟩ := ih (step_objs h op) h2 (fun op' hm => hops op' (by simp [hm]))
    exact ⟨h3, h4.trans h1⟩

/-- C125, what holds: whatever else is done - dictionaries copied and changed, objects made - an existing `JitEMD` object returns
(or raises) what it did before, as long as nothing is assigned to the very dictionary it refers to.  Missing: an object made
without a configuration refers to `default_emd_config` itself (`C125_counterexample`).  Law-free. -/
theorem C125_partial (before later : List (Op α)) (i : Nat) (o : Ref)
    (hi : ((World.start : World α).run before).objs[i]? = some o) (hl : ∀ op ∈ later, ∀ name x, op ≠ .set o.config name x)
    (fuel : Nat) (sp : SciPy α) (S T : List α) (m : Int) :
    ((World.start : World α).run (before ++ later)).emd fuel sp i S T m = ((World.start : World α).run before).emd fuel sp i S T m := by
  have hv := run_valid (start_valid (α := α)) before
  have hr : (World.start : World α).run (before ++ later) = ((World.start : World α).run before).run later := List.foldl_append
  obtain ⟨h1, h2⟩ := run_keeps hi (hv.2 o (List.mem_of_getElem? hi)) later hl
  unfold World.emd
  rw [hr, h1, hi]
  simp only
  rw [h2]

/-- C125, what an object made with a dictionary does: it decomposes with the settings the dictionary had when the object was made, whatever
is done later, as long as nothing is assigned to this dictionary.  Law-free. -/
theorem C125_own (before later : List (Op α)) (d : Nat) (kind : EMD.SplineKind) (detection : EMD.Detection)
    (hd : d < ((World.start : World α).run before).dicts.length) (hne : ((World.start : World α).run before).dicts.getD d [] ≠ [])
    (hl : ∀ op ∈ later, ∀ name x, op ≠ .set d name x) (fuel : Nat) (sp : SciPy α) (S T : List α) (m : Int) :
    ((World.start : World α).run (before ++ .new (some d) kind detection :: later)).emd fuel sp
        ((World.start : World α).run before).objs.length S T m =
      ((((World.start : World α).run before).dicts.getD d []).cfg kind detection >>= fun cfg => Jit.emd fuel sp cfg S T m) := by
  have hr : (World.start : World α).run (before ++ .new (some d) kind detection :: later) =
      (((World.start : World α).run before).step (.new (some d) kind detection)).run later := List.foldl_append
  have hp : ((World.start : World α).run before).pick (some d) = d := by
    simp only [World.pick]
    rw [if_neg (by simpa using hne)]
  generalize (World.start : World α).run before = w at *
  have hi : (w.step (.new (some d) kind detection)).objs[w.objs.length]? = some ⟨d, kind, detection⟩ := by
    simp [World.step, hp]
  obtain ⟨h1, h2⟩ := run_keeps hi (by simpa [World.step] using hd) later hl
  unfold World.emd
  rw [hr, h1]
  simp only
  rw [h2]
  rfl

end LawFree

section Exact
variable {K : Type} [Field K] [LinearOrder K] [IsStrictOrderedRing K] [FloorRing K]

/-- C125, the unaltered dictionary: it holds the defaults documented for `EMD`. -/
theorem C125_default (kind : EMD.SplineKind) (detection : EMD.Detection) :
    (defaultDict : Dict K).cfg kind detection = .ok { Cfg.default with splineKind := kind, detection := detection } := by
  simp [Dict.cfg, Dict.read, defaultDict, List.lookup, bind, Except.bind, pure, Except.pure, Cfg.default, toInt, lit]

/-- C125, a copy of the default dictionary with one entry changed: the object made with it has this setting and the documented
defaults otherwise. -/
theorem C125_recipe (kind : EMD.SplineKind) (detection : EMD.Detection) (fuel : Nat) (sp : SciPy K) (S T : List K) (m : Int) (x : K) :
    let made := fun name => ((World.start : World K).run [.copy 0, .set 1 name x, .new (some 1) kind detection]).emd fuel sp 0 S T m
    let base : EMD.Cfg K := { Cfg.default with splineKind := kind, detection := detection }
    made "FIXE" = Jit.emd fuel sp { base with FIXE := toInt x } S T m ∧
    made "FIXE_H" = Jit.emd fuel sp { base with FIXE_H := toInt x } S T m ∧
    made "MAX_ITERATION" = Jit.emd fuel sp { base with MAX_ITERATION := toInt x } S T m ∧
    made "nbsym" = Jit.emd fuel sp { base with nbsym := toInt x } S T m ∧
    made "svar_thr" = Jit.emd fuel sp { base with svarThr := x } S T m ∧
    made "std_thr" = Jit.emd fuel sp { base with stdThr := x } S T m ∧
    made "energy_ratio_thr" = Jit.emd fuel sp { base with energyRatioThr := x } S T m ∧
    made "range_thr" = Jit.emd fuel sp { base with rangeThr := x } S T m ∧
    made "total_power_thr" = Jit.emd fuel sp { base with totalPowerThr := x } S T m := by
  refine ⟨?_, ?_, ?_, ?_, ?_, ?_, ?_, ?_, ?_⟩ <;>
  simp [World.run, World.step, World.start, World.emd, World.pick, Dict.set, Dict.cfg, Dict.read, defaultDict, List.lookup, bind,
    Except.bind, pure, Except.pure, Cfg.default, toInt, lit, List.modify]

end Exact

/-- C125: the hypotheses of `C125_own` at a history with a copy of the default dictionary. -/
example : 1 < ((World.start : World ℚ).run [.new none .cubic .simple, .copy 0, .set 1 "FIXE" 4]).dicts.length ∧
    (((World.start : World ℚ).run [.new none .cubic .simple, .copy 0, .set 1 "FIXE" 4]).dicts.getD 1 []).isEmpty = false ∧
    ∀ op ∈ [Op.set 0 "FIXE" (1 : ℚ), .new none .akima .simple], ∀ name x, op ≠ .set 1 name x := by
  refine ⟨by decide +kernel, by decide +kernel, ?_⟩
  simp

/-- C125: the hypotheses at a history in which the second object has a copy of its own. -/
example : ((World.start : World ℚ).run [.new none .cubic .simple, .copy 0, .set 1 "FIXE" 4, .new (some 1) .akima .simple]).objs[1]?.map
      (fun o => o.config) = some 1 ∧
    okWith (fun R => R.length == 3) (((World.start : World ℚ).run [.copy 0, .set 1 "FIXE" 2, .new (some 1) .akima .simple]).emd 20
      linSciPy 0 EMD.sampleS [0, 1, 2, 3, 4, 5, 6, 7, 8, 9] (-1)) = true := by
  decide +kernel

/-- C125, counterexample for the full claim: an object `JitEMD()` exists; then the recipe of the documentation is followed
(`config = default_emd_config; config["FIXE"] = 1; JitEMD(config=config, ...)`).  The older object now decomposes differently. -/
theorem C125_counterexample :
    (((World.start : World ℚ).run [.new none .cubic .simple]).emd 20 linSciPy 0 EMD.sampleS [0, 1, 2, 3, 4, 5, 6, 7, 8, 9] (-1) !=
      ((World.start : World ℚ).run [.new none .cubic .simple, .set 0 "FIXE" 1, .new (some 0) .akima .simple]).emd 20 linSciPy 0
        EMD.sampleS [0, 1, 2, 3, 4, 5, 6, 7, 8, 9] (-1)) = true := by
  decide +kernel

end JitConfig
end PyEMD
