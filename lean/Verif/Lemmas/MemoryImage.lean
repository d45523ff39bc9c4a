import Verif.Model.MemoryImage
import Verif.Lemmas.Basic

/-!
# Simulation of the image decompositions with memory by those on values
-/

set_option linter.unusedSectionVars false

namespace PyEMD
namespace MemImg

/-- Nothing was overwritten, arrays were only added. -/
def Grows {α : Type} (h h' : Heap α) : Prop := h.imgs <+: h'.imgs ∧ h.cubes <+: h'.cubes

/-- The memory only grows, and the outcome corresponds to that on values. -/
def Sim {α β γ : Type} (h : Heap α) (x : MemM α β) (p : PyM γ) (R : Heap α → β → γ → Prop) : Prop :=
  Grows h (x h).2 ∧ match (x h).1, p with
    | .ok b, .ok c => R (x h).2 b c
    | .error e, .error e' => e = e'
    | _, _ => False

section
variable {α β γ δ ε : Type} {h h' : Heap α}

theorem Grows.refl (h : Heap α) : Grows h h := ⟨List.prefix_rfl, List.prefix_rfl⟩

theorem Grows.trans {h'' : Heap α} (a : Grows h h') (b : Grows h' h'') : Grows h h'' := ⟨a.1.trans b.1, a.2.trans b.2⟩

theorem getElem?_of_prefix {l l' : List β} (hl : l <+: l') {a : Nat} {v : β} (hv : l[a]? = some v) : l'[a]? = some v := by
  obtain ⟨t, rfl⟩ := hl
  rw [List.getElem?_append_left (List.getElem?_eq_some_iff.1 hv).1]
  exact hv

theorem Grows.img (e : Grows h h') {a : Nat} {v : Img α} (hv : h.imgs[a]? = some v) : h'.imgs[a]? = some v := getElem?_of_prefix e.1 hv

theorem Grows.cube (e : Grows h h') {a : Nat} {v : List (Img α)} (hv : h.cubes[a]? = some v) : h'.cubes[a]? = some v := getElem?_of_prefix e.2 hv

theorem Sim.pure {b : β} {c : γ} {R : Heap α → β → γ → Prop} (hr : R h b c) : Sim h (pure b : MemM α β) (.ok c) R := ⟨Grows.refl h, hr⟩

theorem Sim.error {e : PyErr} {R : Heap α → β → γ → Prop} : Sim h (py (.error e) : MemM α β) (.error e) R := ⟨Grows.refl h, rfl⟩

theorem Sim.bind {x : MemM α β} {p : PyM γ} {R : Heap α → β → γ → Prop} {f : β → MemM α δ} {g : γ → PyM ε} {Q : Heap α → δ → ε → Prop}
    (hx : Sim h x p R) (hf : ∀ h' b c, Grows h h' → R h' b c → Sim h' (f b) (g c) Q) : Sim h (x >>= f) (p >>= g) Q := by
  obtain ⟨he, hr⟩ := hx
  have hb : (x >>= f) h = match x h with
    | (.ok b, h') => f b h'
    | (.error e, h') => (.error e, h') := rfl
  unfold Sim
  rw [hb]
  cases hxh : x h with
  | mk r h' =>
    rw [hxh] at he hr
    cases r with
    | error e =>
      cases p with
      | error e' => exact ⟨he, hr⟩
      | ok c => exact hr.elim
    | ok b =>
      cases p with
      | error e' => exact hr.elim
      | ok c =>
        obtain ⟨h1, h2⟩ := hf h' b c he hr
        exact ⟨he.trans h1, h2⟩

theorem Sim.mono {x : MemM α β} {p : PyM γ} {R Q : Heap α → β → γ → Prop} (hx : Sim h x p R) (hi : ∀ h' b c, R h' b c → Q h' b c) :
    Sim h x p Q := by
  obtain ⟨he, hr⟩ := hx
  refine ⟨he, ?_⟩
  split at hr
  · exact hi _ _ _ hr
  · exact hr
  · exact hr.elim

theorem Sim.py {p : PyM β} {f : β → MemM α δ} {g : β → PyM ε} {Q : Heap α → δ → ε → Prop}
    (hf : ∀ c, Sim h (f c) (g c) Q) : Sim h (py p >>= f) (p >>= g) Q := by
  cases p with
  | error e => exact ⟨Grows.refl h, rfl⟩
  | ok c => exact hf c

theorem Sim.pureBind {b : β} {f : β → MemM α δ} {p : PyM ε} {Q : Heap α → δ → ε → Prop} (hf : Sim h (f b) p Q) :
    Sim h ((Pure.pure b : MemM α β) >>= f) p Q := hf

theorem Sim.readImg {a : Nat} {v : Img α} {f : Img α → MemM α δ} {p : PyM ε} {Q : Heap α → δ → ε → Prop} (hv : h.imgs[a]? = some v)
    (hf : Sim h (f v) p Q) : Sim h (readImg a >>= f) p Q := by
  have : (MemImg.readImg a >>= f) h = f v h := by
    show f (h.imgs[a]?.getD ⟨0, 0, []⟩) h = _
    rw [hv]
    rfl
  unfold Sim
  rw [this]
  exact hf

theorem Sim.readStack {a : Nat} {v : List (Img α)} {f : List (Img α) → MemM α δ} {p : PyM ε} {Q : Heap α → δ → ε → Prop}
    (hv : h.cubes[a]? = some v) (hf : Sim h (f v) p Q) : Sim h (readStack a >>= f) p Q := by
  have : (MemImg.readStack a >>= f) h = f v h := by
    show f (h.cubes[a]?.getD []) h = _
    rw [hv]
    rfl
  unfold Sim
  rw [this]
  exact hf

theorem ext_newImg (h : Heap α) (v : Img α) : Grows h { h with imgs := h.imgs ++ [v] } := ⟨List.prefix_append _ _, List.prefix_rfl⟩

theorem ext_newStack (h : Heap α) (v : List (Img α)) : Grows h { h with cubes := h.cubes ++ [v] } := ⟨List.prefix_rfl, List.prefix_append _ _⟩

theorem Sim.newImg {v : Img α} {f : Nat → MemM α δ} {p : PyM ε} {Q : Heap α → δ → ε → Prop}
    (hf : ∀ h' a, Grows h h' → h'.imgs[a]? = some v → Sim h' (f a) p Q) : Sim h (newImg v >>= f) p Q := by
  obtain ⟨h1, h2⟩ := hf { h with imgs := h.imgs ++ [v] } h.imgs.length (ext_newImg h v) (by simp)
  exact ⟨(ext_newImg h v).trans h1, h2⟩

theorem Sim.newStack {v : List (Img α)} {f : Nat → MemM α δ} {p : PyM ε} {Q : Heap α → δ → ε → Prop}
    (hf : ∀ h' a, Grows h h' → h.cubes.length ≤ a → h'.cubes[a]? = some v → Sim h' (f a) p Q) : Sim h (newStack v >>= f) p Q := by
  obtain ⟨h1, h2⟩ := hf { h with cubes := h.cubes ++ [v] } h.cubes.length (ext_newStack h v) le_rfl (by simp)
  exact ⟨(ext_newStack h v).trans h1, h2⟩

theorem Sim.copyImg {a : Nat} {v : Img α} {f : Nat → MemM α δ} {p : PyM ε} {Q : Heap α → δ → ε → Prop} (hv : h.imgs[a]? = some v)
    (hf : ∀ h' b, Grows h h' → h'.imgs[b]? = some v → Sim h' (f b) p Q) : Sim h (copyImg a >>= f) p Q := by
  have : (MemImg.copyImg a >>= f) h = (MemImg.newImg v >>= f) h := by
    show f h.imgs.length { h with imgs := h.imgs ++ [h.imgs[a]?.getD ⟨0, 0, []⟩] } = _
    rw [hv]
    rfl
  unfold Sim
  rw [this]
  exact Sim.newImg hf

/-- An array written right after its creation. -/
theorem Sim.newWritten {v : List (Img α)} {w : List (Img α) → List (Img α)} {p : PyM ε} {Q : Heap α → Nat → ε → Prop}
    (hf : Sim h (MemImg.newStack (w v) >>= fun a => (Pure.pure a : MemM α Nat)) p Q) :
    Sim h (MemImg.newStack v >>= fun a => MemImg.readStack a >>= fun u => writeStack a (w u) >>= fun _ => (Pure.pure a : MemM α Nat)) p Q := by
  have : (MemImg.newStack v >>= fun a => MemImg.readStack a >>= fun u => writeStack a (w u) >>= fun _ => (Pure.pure a : MemM α Nat)) h =
      (MemImg.newStack (w v) >>= fun a => (Pure.pure a : MemM α Nat)) h := by
    show ((.ok h.cubes.length, { h with cubes := (h.cubes ++ [v]).set h.cubes.length (w ((h.cubes ++ [v])[h.cubes.length]?.getD [])) }) :
      PyM Nat × Heap α) = (.ok h.cubes.length, { h with cubes := h.cubes ++ [w v] })
    simp
  unfold Sim
  rw [this]
  exact hf

theorem Sim.ext {x : MemM α β} {p : PyM γ} {R : Heap α → β → γ → Prop} (hx : Sim h x p R) : Grows h (x h).2 := hx.1

end

variable {α : Type} [Add α] [Sub α] [Mul α] [Div α] [Neg α] [LT α] [LE α] [BEq α]
  [DecidableLT α] [DecidableLE α] [NpScalar α]

namespace EMD2D
open PyEMD.EMD2D

theorem sift_sim (sbs : Surface α) (cfg : Cfg2 α) (k : Nat) : ∀ (n nH imf mean : Nat) (h : Heap α) (v w : Img α), h.imgs[imf]? = some v →
    h.imgs[mean]? = some w →
    Sim h (sift sbs cfg k n nH imf mean) (PyEMD.EMD2D.sift sbs cfg k n nH v w) (fun h' b c => h'.imgs[b.1]? = some c.1 ∧ b.2 = c.2) := by
  induction k with
  | zero => exact fun n nH imf mean h v w hv hw => Sim.pure ⟨hv, rfl⟩
  | succ k ih =>
    intro n nH imf mean h v w hv hw
    unfold sift PyEMD.EMD2D.sift
    refine Sim.readImg hv (Sim.py fun e => ?_)
    by_cases h4 : 4 < e.1.length ∧ 4 < e.2.length
    · rw [if_pos h4, if_pos h4]
      refine Sim.copyImg hv fun h1 _ e1 _ => ?_
      refine Sim.readImg (e1.img hv) (Sim.readImg (e1.img hw) (Sim.newImg fun h2 i2 e2 v2 => ?_))
      refine Sim.readImg v2 (Sim.py fun env => ?_)
      refine Sim.newImg fun h3 m3 e3 w3 => ?_
      refine Sim.copyImg (e3.img v2) fun h4 o4 e4 u4 => ?_
      refine Sim.readImg (e4.img (e3.img v2)) (Sim.readImg (e4.img w3) (Sim.newImg fun h5 i5 e5 v5 => ?_))
      have w5 := e5.img (e4.img w3)
      have u5 := e5.img u4
      by_cases hF : cfg.FIXE ≠ 0
      · rw [if_pos hF, if_pos hF]
        by_cases hn : cfg.FIXE + 1 ≤ n + 1
        · rw [if_pos hn, if_pos hn]
          exact Sim.pure ⟨v5, rfl⟩
        · rw [if_neg hn, if_neg hn]
          exact ih _ _ _ _ _ _ _ v5 w5
      · rw [if_neg hF, if_neg hF]
        by_cases hH : cfg.FIXE_H ≠ 0
        · rw [if_pos hH, if_pos hH]
          by_cases hn : n + 1 = 1
          · rw [if_pos hn, if_pos hn]
            exact ih _ _ _ _ _ _ _ v5 w5
          · rw [if_neg hn, if_neg hn]
            refine Sim.readImg v5 (Sim.readImg u5 (Sim.readImg w5 ?_))
            dsimp only
            generalize (if checkProtoImf cfg _ _ _ = true then nH + 1 else 0) = nH'
            split
            · exact Sim.pure ⟨v5, rfl⟩
            · exact ih _ _ _ _ _ _ _ v5 w5
        · rw [if_neg hH, if_neg hH]
          refine Sim.readImg v5 (Sim.readImg u5 (Sim.readImg w5 ?_))
          split
          · exact Sim.pure ⟨v5, rfl⟩
          · exact ih _ _ _ _ _ _ _ v5 w5
    · rw [if_neg h4, if_neg h4]
      exact Sim.pure ⟨hv, rfl⟩

theorem loop_sim (sbs : Surface α) (cfg : Cfg2 α) (image image_s : Nat) (im ims : Img α) (maxImf : Int) (N : Nat) (fuel : Nat) :
    ∀ (IMF : Nat) (h : Heap α) (l : List (Img α)), h.imgs[image]? = some im → h.imgs[image_s]? = some ims → h.cubes[IMF]? = some l →
    N ≤ h.cubes.length →
    Sim h (loop sbs cfg image image_s maxImf fuel IMF) (PyEMD.EMD2D.loop sbs cfg im ims maxImf fuel l)
      (fun h' b c => h'.cubes[b]? = some c ∧ N ≤ b) := by
  induction fuel with
  | zero => exact fun IMF h l _ _ _ _ => Sim.error
  | succ fuel ih =>
    intro IMF h l hi hs hl hN
    unfold loop PyEMD.EMD2D.loop
    refine Sim.readImg hi (Sim.readImg hs (Sim.readStack hl (Sim.newImg fun h1 a1 e1 v1 => ?_)))
    refine Sim.copyImg v1 fun h2 a2 e2 v2 => ?_
    refine Sim.newImg fun h3 a3 e3 v3 => ?_
    refine (sift_sim sbs cfg cfg.MAX_ITERATION 0 0 a2 a3 h3 _ _ (e3.img v2) v3).bind ?_
    rintro h4 ⟨b1, b2⟩ ⟨c1, c2⟩ e4 ⟨v4, rfl⟩
    have e := e1.trans (e2.trans (e3.trans e4))
    refine Sim.copyImg v4 fun h5 a5 e5 v5 => ?_
    refine Sim.readStack (e5.cube (e.cube hl)) (Sim.readImg v5 (Sim.newStack fun h6 a6 e6 g6 v6 => ?_))
    have e' := e.trans (e5.trans e6)
    have hN5 : N ≤ h5.cubes.length := hN.trans (e.trans e5).2.length_le
    refine Sim.readImg (e'.img hi) (Sim.readStack v6 ?_)
    dsimp only
    split
    · exact Sim.pure ⟨v6, by omega⟩
    · split
      · exact ih _ _ _ (e'.img hi) (e'.img hs) v6 (hN.trans e'.2.length_le)
      · exact Sim.pure ⟨v6, by omega⟩

theorem emd_sim (sbs : Surface α) (fuel : Nat) (cfg : Cfg2 α) (image : Nat) (im : Img α) (maxImf : Int) (h : Heap α)
    (hi : h.imgs[image]? = some im) :
    Sim h (emd sbs fuel cfg image maxImf) (PyEMD.EMD2D.emd sbs fuel cfg im maxImf)
      (fun h' b c => h'.cubes[b]? = some c ∧ h.cubes.length ≤ b) := by
  unfold emd PyEMD.EMD2D.emd
  refine Sim.readImg hi (Sim.py fun mn => Sim.py fun mx => ?_)
  dsimp only
  split
  · exact Sim.error
  · refine Sim.newImg fun h1 a1 e1 v1 => Sim.newImg fun h2 a2 e2 v2 => Sim.copyImg v2 fun h3 a3 e3 v3 => ?_
    refine Sim.newStack fun h4 a4 e4 g4 v4 => ?_
    have e := e1.trans (e2.trans (e3.trans e4))
    refine (loop_sim sbs cfg image a1 im _ maxImf h.cubes.length fuel a4 h4 [] (e.img hi) (e4.img (e3.img (e2.img v1))) v4 e.2.length_le).bind ?_
    rintro h5 b c e5 ⟨v5, g5⟩
    have e' := e.trans e5
    unfold finish
    refine Sim.readImg (e'.img hi) (Sim.readImg (e5.img (e4.img (e3.img (e2.img v1)))) (Sim.readStack v5 (Sim.newImg fun h6 a6 e6 v6 => ?_)))
    refine Sim.readImg v6 ?_
    have hl : h.cubes.length ≤ h6.cubes.length := (e'.trans e6).2.length_le
    dsimp only
    split
    · refine Sim.pureBind (Sim.readStack (e6.cube v5) (Sim.newWritten ?_))
      exact Sim.newStack fun h7 a7 e7 g7 v7 => Sim.pure ⟨v7, by omega⟩
    · refine Sim.readStack (e6.cube v5) (Sim.newStack fun h7 a7 e7 g7 v7 => Sim.readStack v7 (Sim.newWritten ?_))
      have := e7.2.length_le
      exact Sim.newStack fun h8 a8 e8 g8 v8 => Sim.pure ⟨v8, by omega⟩

end EMD2D

namespace BEMD
open PyEMD.BEMD

theorem sift_sim (ext : Ext α) (cfg : Cfg2 α) (k : Nat) : ∀ (n nH imf : Nat) (h : Heap α) (v : Img α), h.imgs[imf]? = some v →
    Sim h (sift ext cfg k n nH imf) (PyEMD.BEMD.sift ext cfg k n nH v) (fun h' b c => h'.imgs[b]? = some c) := by
  induction k with
  | zero => exact fun n nH imf h v hv => Sim.pure hv
  | succ k ih =>
    intro n nH imf h v hv
    unfold sift PyEMD.BEMD.sift
    refine Sim.readImg hv (Sim.readImg hv ?_)
    dsimp only
    split
    · refine Sim.readImg hv (Sim.py fun env => ?_)
      refine Sim.newImg fun h3 m3 e3 w3 => Sim.readImg w3 (Sim.readImg (e3.img hv) ?_)
      split
      · exact Sim.error
      · refine Sim.copyImg (e3.img hv) fun h4 o4 e4 u4 => ?_
        refine Sim.readImg (e4.img (e3.img hv)) (Sim.readImg (e4.img w3) (Sim.newImg fun h5 i5 e5 v5 => ?_))
        have w5 := e5.img (e4.img w3)
        have u5 := e5.img u4
        by_cases hF : cfg.FIXE ≠ 0
        · rw [if_pos hF, if_pos hF]
          by_cases hn : cfg.FIXE + 1 ≤ n + 1
          · rw [if_pos hn, if_pos hn]
            exact Sim.pure v5
          · rw [if_neg hn, if_neg hn]
            exact ih _ _ _ _ _ v5
        · rw [if_neg hF, if_neg hF]
          by_cases hH : cfg.FIXE_H ≠ 0
          · rw [if_pos hH, if_pos hH]
            by_cases hn : n + 1 = 1
            · rw [if_pos hn, if_pos hn]
              exact ih _ _ _ _ _ v5
            · rw [if_neg hn, if_neg hn]
              refine Sim.readImg v5 (Sim.readImg u5 (Sim.readImg w5 ?_))
              generalize (if checkProtoImf cfg _ _ _ = true then nH + 1 else 0) = nH'
              split
              · exact Sim.pure v5
              · exact ih _ _ _ _ _ v5
          · rw [if_neg hH, if_neg hH]
            refine Sim.readImg v5 (Sim.readImg u5 (Sim.readImg w5 ?_))
            split
            · exact Sim.pure v5
            · exact ih _ _ _ _ _ v5
    · exact Sim.pure hv

theorem loop_sim (ext : Ext α) (cfg : Cfg2 α) (image image_s : Nat) (im : Img α) (maxImf : Int) (N : Nat) (fuel : Nat) :
    ∀ (IMF : Nat) (h : Heap α) (l : List (Img α)), h.imgs[image]? = some im → h.imgs[image_s]? = some im → h.cubes[IMF]? = some l →
    N ≤ h.cubes.length →
    Sim h (loop ext cfg image image_s maxImf fuel IMF) (PyEMD.BEMD.loop ext cfg im maxImf fuel l)
      (fun h' b c => h'.cubes[b]? = some c ∧ N ≤ b) := by
  induction fuel with
  | zero => exact fun IMF h l _ _ _ _ => Sim.error
  | succ fuel ih =>
    intro IMF h l hi hs hl hN
    unfold loop PyEMD.BEMD.loop
    refine Sim.readImg hi (Sim.readImg hs (Sim.readStack hl (Sim.newImg fun h1 a1 e1 v1 => ?_)))
    refine Sim.copyImg v1 fun h2 a2 e2 v2 => ?_
    refine Sim.newImg fun h3 a3 e3 v3 => ?_
    refine (sift_sim ext cfg cfg.MAX_ITERATION 0 0 a2 h3 _ (e3.img v2)).bind ?_
    rintro h4 b1 c1 e4 v4
    have e := e1.trans (e2.trans (e3.trans e4))
    refine Sim.copyImg v4 fun h5 a5 e5 v5 => ?_
    refine Sim.readStack (e5.cube (e.cube hl)) (Sim.readImg v5 (Sim.newStack fun h6 a6 e6 g6 v6 => ?_))
    have e' := e.trans (e5.trans e6)
    have hN5 : N ≤ h5.cubes.length := hN.trans (e.trans e5).2.length_le
    refine Sim.readImg (e'.img hi) (Sim.readStack v6 ?_)
    dsimp only
    split
    · exact Sim.pure ⟨v6, by omega⟩
    · exact ih _ _ _ (e'.img hi) (e'.img hs) v6 (hN.trans e'.2.length_le)

theorem bemd_sim (ext : Ext α) (fuel : Nat) (cfg : Cfg2 α) (image : Nat) (im : Img α) (maxImf : Int) (h : Heap α)
    (hi : h.imgs[image]? = some im) :
    Sim h (bemd ext fuel cfg image maxImf) (PyEMD.BEMD.bemd ext fuel cfg im maxImf)
      (fun h' b c => h'.cubes[b]? = some c ∧ h.cubes.length ≤ b) := by
  unfold bemd PyEMD.BEMD.bemd
  refine Sim.copyImg hi fun h1 a1 e1 v1 => Sim.readImg (e1.img hi) (Sim.newImg fun h2 a2 e2 v2 => Sim.copyImg v2 fun h3 a3 e3 v3 => ?_)
  refine Sim.newStack fun h4 a4 e4 g4 v4 => ?_
  have e := e1.trans (e2.trans (e3.trans e4))
  have s4 := e4.img (e3.img (e2.img v1))
  refine (loop_sim ext cfg image a1 im maxImf h.cubes.length fuel a4 h4 [] (e.img hi) s4 v4 e.2.length_le).bind ?_
  rintro h5 b c e5 ⟨v5, g5⟩
  have e' := e.trans e5
  refine Sim.readImg (e'.img hi) (Sim.readImg (e5.img s4) (Sim.readStack v5 (Sim.newImg fun h6 a6 e6 v6 => ?_)))
  refine Sim.readImg v6 ?_
  have hl : h.cubes.length ≤ h6.cubes.length := (e'.trans e6).2.length_le
  dsimp only
  split
  · exact Sim.pure ⟨e6.cube v5, g5⟩
  · refine Sim.readStack (e6.cube v5) ?_
    have := Sim.newStack (h := h6) (v := c ++ [im.sub (Img.sum im.rows im.cols c)]) (f := fun a => (pure a : MemM α Nat))
      (p := (.ok (c ++ [im.sub (Img.sum im.rows im.cols c)]) : PyM (List (Img α))))
      (Q := fun h' b c => h'.cubes[b]? = some c ∧ h.cubes.length ≤ b) (fun h7 a7 e7 g7 v7 => Sim.pure ⟨v7, by omega⟩)
    exact this

end BEMD
end MemImg
end PyEMD
