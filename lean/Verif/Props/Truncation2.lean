import Verif.Props.Truncation
import Verif.Props.Negation
import Verif.Props.Ceemdan
import Verif.Props.Matlab
import Verif.Props.Image2

set_option linter.unusedSectionVars false

/-! # C84: the other decompositions: a limited run returns a prefix of the unlimited one -/

namespace PyEMD

namespace CEEMDAN
variable {α ρ : Type} [Add α] [Sub α] [Mul α] [Div α] [Neg α] [LT α] [LE α] [BEq α]
  [DecidableLT α] [DecidableLE α] [NpScalar α]

theorem stages_prefix {std : List α → α} {fuel : Nat} {sp : SciPy α} {cfg : Cfg α} {ecfg : EMD.Cfg α}
    {noiseEMD : List (List (List α))} {S : List α} {T : Option (List α)} {m : Int} (n : Nat) {cimfs rs : List (List α)} {prev : List α}
    (h : stages std fuel sp cfg ecfg noiseEMD S T m n cimfs prev = .ok rs) : cimfs <+: rs := by
  induction n generalizing cimfs prev with
  | zero => injection h with h; subst h; exact List.prefix_refl _
  | succ n ih =>
    unfold stages at h
    split at h
    · cases h
    · injection h with h; subst h; exact List.prefix_refl _
    · split at h
      · cases h
      · exact (List.prefix_append _ _).trans (ih h)

theorem endCondition_limit {fuel : Nat} {sp : SciPy α} {cfg : Cfg α} {ecfg : EMD.Cfg α} {S : List α} {c : List (List α)} {m k : Int}
    (hm : ¬ (0 < m ∧ m ≤ (c.length : Int))) (hk : ¬ (0 < k ∧ k ≤ (c.length : Int))) :
    endCondition fuel sp cfg ecfg S c k = endCondition fuel sp cfg ecfg S c m := by
  unfold endCondition
  rw [if_neg hm, if_neg hk]

theorem endCondition_reached {fuel : Nat} {sp : SciPy α} {cfg : Cfg α} {ecfg : EMD.Cfg α} {S : List α} {c : List (List α)} {m : Int}
    (hm : 0 < m ∧ m ≤ (c.length : Int)) : endCondition fuel sp cfg ecfg S c m = .ok true := by
  unfold endCondition
  rw [if_pos hm]
  rfl

theorem stages_trunc {std : List α → α} {fuel : Nat} {sp : SciPy α} {cfg : Cfg α} {ecfg : EMD.Cfg α}
    {noiseEMD : List (List (List α))} {S : List α} {T : Option (List α)} {m : Int} {k : Nat} (hk : 1 ≤ k) (hm : m ≤ 0 ∨ (k : Int) ≤ m)
    (n : Nat) {cimfs rs : List (List α)} {prev : List α} (hl : cimfs.length ≤ k)
    (h : stages std fuel sp cfg ecfg noiseEMD S T m n cimfs prev = .ok rs) :
    stages std fuel sp cfg ecfg noiseEMD S T k n cimfs prev = .ok (rs.take k) := by
  induction n generalizing cimfs prev with
  | zero =>
    injection h with h
    subst h
    rw [List.take_of_length_le hl]
    rfl
  | succ n ih =>
    rcases Nat.lt_or_eq_of_le hl with hlt | heq
    · unfold stages at h ⊢
      by_cases hmm : 0 < m ∧ m ≤ (cimfs.length : Int)
      · omega
      · rw [endCondition_limit hmm (by omega)]
        split at h
        · cases h
        · injection h with h
          subst h
          rw [List.take_of_length_le hl]
        · split at h
          · cases h
          · exact ih (by simp; omega) h
    · have hp := stages_prefix _ h
      unfold stages
      rw [endCondition_reached (by omega)]
      obtain ⟨t, rfl⟩ := hp
      simp [← heq]

/-- **C84 (CEEMDAN).**  `ceemdan(S, T, max_imf=k)` succeeds whenever `ceemdan(S, T)` (or a call with a larger limit) does, from the
same state of the random generator.  If the unlimited call returns at most `k` rows the two results are the same; otherwise the
limited call returns exactly `k + 1` rows: the first `k` rows of the unlimited call, and a residue. -/
theorem C84_ceemdan (rng : Rng α ρ) (std : List α → α) (fuel : Nat) (sp : SciPy α) (orderN orderT : List Nat) (o o' : Obj α ρ)
    (S : List α) (T : Option (List α)) (m : Int) (k : Nat) (hk : 1 ≤ k) (hm : m ≤ 0 ∨ (k : Int) ≤ m) (C : List (List α))
    (h : o.ceemdan rng std fuel sp orderN orderT S T m = (.ok C, o')) :
    ∃ C' o'', o.ceemdan rng std fuel sp orderN orderT S T k = (.ok C', o'') ∧
      (C.length ≤ k → C' = C) ∧ (k < C.length → C'.length = k + 1 ∧ C'.take k = C.take k) := by
  obtain ⟨x, noiseEMD, cimfs, h1, h2, h3, hb, rfl, -⟩ := Obj.ceemdan_ok h
  unfold body at hb
  split at hb
  · cases hb
  · rename_i E hE
    split at hb
    · cases hb
    · rename_i first rest
      split at hb
      · cases hb
      · rename_i cs hcs
        injection hb with hb
        subst hb
        have ht := stages_trunc hk hm _ (by simpa using hk) hcs
        have key : body std fuel sp o.cfg o.emd noiseEMD orderT (vdiv S (std S)) T k =
            .ok (cs.take k ++ [vsub (vdiv S (std S)) (sumRows (vdiv S (std S)).length (cs.take k))]) := by
          unfold body
          rw [hE]
          simp only [ht]
        refine ⟨(cs.take k ++ [vsub (vdiv S (std S)) (sumRows (vdiv S (std S)).length (cs.take k))]).map (vscale (std S)), _,
          by unfold Obj.ceemdan; simp only [h1, h2, h3, key]; rfl, ?_, ?_⟩
        · intro hc
          simp only [List.length_map, List.length_append, List.length_singleton] at hc
          rw [List.take_of_length_le (by omega)]
        · intro hc
          simp only [List.length_map, List.length_append, List.length_singleton] at hc ⊢
          refine ⟨by simp; omega, ?_⟩
          rw [← List.map_take, ← List.map_take, List.take_append_of_le_length (by simp; omega), List.take_take, Nat.min_self,
            List.take_append_of_le_length (by omega)]

example : okWith (fun C => C.length == 3)
      ((sampleObj sampleCfg).ceemdan EEMD.sampleRng sampleStd 20 linSciPy [] [] EMD.sampleS none (-1)).1 = true ∧
    okWith (fun C => C.length == 2)
      ((sampleObj sampleCfg).ceemdan EEMD.sampleRng sampleStd 20 linSciPy [] [] EMD.sampleS none 1).1 = true := by
  decide +kernel

end CEEMDAN

namespace BEMD
variable {α : Type} [Add α] [Sub α] [Mul α] [Div α] [Neg α] [LT α] [LE α] [BEq α]
  [DecidableLT α] [DecidableLE α] [NpScalar α]

theorem loop_prefix {ext : Ext α} {cfg : Cfg2 α} {image : Img α} {m : Int} (fuel : Nat) {imfs out : List (Img α)}
    (h : loop ext cfg image m fuel imfs = .ok out) : imfs <+: out := by
  induction fuel generalizing imfs with
  | zero => cases h
  | succ n ih =>
    unfold loop at h
    simp only [bind_eq_ok] at h
    obtain ⟨r, -, h⟩ := h
    split at h
    · injection h with h; subst h; exact List.prefix_append _ _
    · exact (List.prefix_append _ _).trans (ih h)

theorem loop_trunc {ext : Ext α} {cfg : Cfg2 α} {image : Img α} {m : Int} {k : Nat} (hk : 1 ≤ k) (hm : m ≤ 0 ∨ (k : Int) ≤ m)
    (fuel : Nat) {imfs out : List (Img α)} (hl : imfs.length < k) (h : loop ext cfg image m fuel imfs = .ok out) :
    loop ext cfg image k fuel imfs = .ok (out.take k) := by
  induction fuel generalizing imfs with
  | zero => cases h
  | succ n ih =>
    unfold loop at h ⊢
    simp only [bind_eq_ok] at h ⊢
    obtain ⟨r, hr, h⟩ := h
    refine ⟨r, hr, ?_⟩
    split at h
    · injection h with h
      subst h
      rw [List.take_of_length_le (by simp; omega)]
      rw [if_pos]
      rename_i hc
      rcases hc with hc | hc
      · exact .inl hc
      · right
        simp only [List.length_append, List.length_singleton] at hc ⊢
        omega
    · rename_i hc
      have hc' := not_or.1 hc
      by_cases hkk : imfs.length + 1 = k
      · rw [if_pos (.inr (by simp; omega))]
        obtain ⟨t, rfl⟩ := loop_prefix _ h
        rw [List.take_append_of_le_length (by simp; omega), List.take_of_length_le (by simp; omega)]
      · rw [if_neg]
        · exact ih (by simp; omega) h
        · rintro (h' | h')
          · exact hc'.1 h'
          · simp only [List.length_append, List.length_singleton] at h'
            omega

/-- **C84 (BEMD).**  `bemd(image, max_imf=k)` succeeds whenever `bemd(image)` does; its first `k` images are the first `k` of the
unlimited call, and if that call returns at most `k` images the results are the same. -/
theorem C84_bemd (ext : Ext α) (fuel : Nat) (cfg : Cfg2 α) (image : Img α) (m : Int) (k : Nat) (hk : 1 ≤ k) (hm : m ≤ 0 ∨ (k : Int) ≤ m)
    (L : List (Img α)) (h : bemd ext fuel cfg image m = .ok L) :
    ∃ L', bemd ext fuel cfg image k = .ok L' ∧ L'.take k = L.take k ∧ (L.length ≤ k → L' = L) := by
  unfold bemd at h
  obtain ⟨out, ho, h⟩ := bind_eq_ok.1 h
  injection h with h
  have ht := loop_trunc hk hm fuel (imfs := []) (by simp only [List.length_nil]; omega) ho
  refine ⟨_, by unfold bemd; rw [ht]; rfl, ?_, ?_⟩
  · rw [← h]
    rcases Nat.lt_or_ge k out.length with hl | hl
    · have e1 : ∀ x : List (Img α), (out.take k ++ x).take k = out.take k := by
        intro x
        rw [List.take_append_of_le_length (by simp; omega), List.take_take, Nat.min_self]
      have e2 : ∀ x : List (Img α), (out ++ x).take k = out.take k := by
        intro x
        rw [List.take_append_of_le_length (by omega)]
      split <;> split <;> first | rw [e1, e2] | rw [e1] | rw [e2, List.take_take, Nat.min_self] | rw [List.take_take, Nat.min_self]
    · rw [List.take_of_length_le hl]
  · intro hl
    have : out.length ≤ k := by
      rw [← h] at hl
      split at hl
      · exact hl
      · simp at hl; omega
    rw [List.take_of_length_le this]
    exact h

example : okWith (fun out => decide (out.length = 3)) (bemd sampleExt 3 Cfg.default hills 2) = true ∧
    okWith (fun out => decide (out.length = 2)) (bemd sampleExt 3 Cfg.default hills 1) = true := by decide +kernel

end BEMD

namespace EMD2D
variable {α : Type} [Add α] [Sub α] [Mul α] [Div α] [Neg α] [LT α] [LE α] [BEq α]
  [DecidableLT α] [DecidableLE α] [NpScalar α]

theorem loop_prefix {sbs : Surface α} {cfg : Cfg2 α} {image image_s : Img α} {m : Int} (fuel : Nat) {imfs out : List (Img α)}
    (h : loop sbs cfg image image_s m fuel imfs = .ok out) : imfs <+: out := by
  induction fuel generalizing imfs with
  | zero => cases h
  | succ n ih =>
    unfold loop at h
    simp only [bind_eq_ok] at h
    obtain ⟨r, -, h⟩ := h
    split at h
    · injection h with h; subst h; exact List.prefix_append _ _
    · split at h
      · exact (List.prefix_append _ _).trans (ih h)
      · injection h with h; subst h; exact List.prefix_append _ _

theorem loop_trunc {sbs : Surface α} {cfg : Cfg2 α} {image image_s : Img α} {m : Int} {k : Nat} (hk : 1 ≤ k)
    (hm : m ≤ 0 ∨ (k : Int) ≤ m) (fuel : Nat) {imfs out : List (Img α)} (hl : imfs.length < k)
    (h : loop sbs cfg image image_s m fuel imfs = .ok out) : loop sbs cfg image image_s k fuel imfs = .ok (out.take k) := by
  induction fuel generalizing imfs with
  | zero => cases h
  | succ n ih =>
    unfold loop at h ⊢
    simp only [bind_eq_ok] at h ⊢
    obtain ⟨r, hr, h⟩ := h
    refine ⟨r, hr, ?_⟩
    split at h
    · injection h with h
      subst h
      rw [List.take_of_length_le (by simp; omega)]
      rw [if_pos]
      rename_i hc
      rcases hc with hc | hc
      · exact .inl hc
      · right
        simp only [List.length_append, List.length_singleton] at hc ⊢
        omega
    · rename_i hc
      have hc' := not_or.1 hc
      by_cases hkk : imfs.length + 1 = k
      · rw [if_pos (.inr (by simp; omega))]
        have hp : (imfs ++ [r.1]) <+: out := by
          split at h
          · exact loop_prefix _ h
          · injection h with h; subst h; exact List.prefix_refl _
        obtain ⟨t, rfl⟩ := hp
        rw [List.take_append_of_le_length (by simp; omega), List.take_of_length_le (by simp; omega)]
      · rw [if_neg]
        · split at h
          · rw [if_pos (by assumption)]
            exact ih (by simp; omega) h
          · rw [if_neg (by assumption)]
            injection h with h
            subst h
            rw [List.take_of_length_le (by simp; omega)]
        · rintro (h' | h')
          · exact hc'.1 h'
          · simp only [List.length_append, List.length_singleton] at h'
            omega

theorem addLast_len (c : α) : ∀ l : List (Img α), (addLast c l).length = l.length
  | [] => rfl
  | [_] => rfl
  | x :: y :: l => by simp [addLast, addLast_len c (y :: l)]

theorem addLast_getElem_init (c : α) : ∀ (l : List (Img α)) (i : Nat), i + 1 < l.length → (addLast c l)[i]? = l[i]?
  | [], i, h => by simp at h
  | [_], i, h => by simp at h
  | x :: y :: l, 0, _ => rfl
  | x :: y :: l, i + 1, h => by
    have := addLast_getElem_init c (y :: l) i (by simpa using h)
    simpa [addLast] using this

/-- **C84 (EMD2D).**  `emd(image, max_imf=k)` succeeds whenever `emd(image)` does.  If the unlimited call returns at most `k` images
the results are the same.  Every image of the limited call but its last is the image of the unlimited call at the same place (the
last one carries the offset and is the residue). -/
theorem C84_emd2d (sbs : Surface α) (fuel : Nat) (cfg : Cfg2 α) (image : Img α) (m : Int) (k : Nat) (hk : 1 ≤ k)
    (hm : m ≤ 0 ∨ (k : Int) ≤ m) (L : List (Img α)) (h : emd sbs fuel cfg image m = .ok L) :
    ∃ L', emd sbs fuel cfg image k = .ok L' ∧ L'.length ≤ k + 1 ∧ L'.length ≤ L.length + 1 ∧ (L.length ≤ k → L' = L) ∧
      ∀ i, i + 1 < L'.length → L'[i]? = L[i]? := by
  unfold emd at h
  simp only [bind_eq_ok] at h
  obtain ⟨mn, hmn, mx, hmx, h⟩ := h
  split at h
  · cases h
  · rename_i hs
    simp only [bind_eq_ok] at h
    obtain ⟨out, ho, h⟩ := h
    injection h with h
    have ht := loop_trunc hk hm fuel (imfs := []) (by simp only [List.length_nil]; omega) ho
    refine ⟨_, by unfold emd; rw [hmn, hmx]; simp only [EMD.ok_bind, if_neg hs, ht]; rfl, ?_, ?_, ?_, ?_⟩
    · rw [addLast_len, List.length_map]
      split <;> simp <;> omega
    · rw [← h, addLast_len, List.length_map, addLast_len, List.length_map]
      split <;> split <;> simp <;> omega
    · intro hl
      have : out.length ≤ k := by
        rw [← h, addLast_len, List.length_map] at hl
        split at hl
        · exact hl
        · simp at hl; omega
      rw [List.take_of_length_le this]
      exact h
    · intro i hi
      rcases Nat.lt_or_ge k out.length with hl | hl
      · rw [addLast_len, List.length_map] at hi
        have hik : i < k := by
          split at hi <;> simp at hi <;> omega
        rw [← h, addLast_getElem_init _ _ _ (by rw [List.length_map]; exact hi), addLast_getElem_init, List.getElem?_map, List.getElem?_map]
        · congr 1
          have e1 : ∀ x : List (Img α), (out.take k ++ x)[i]? = out[i]? := by
            intro x
            rw [List.getElem?_append_left (by simp; omega), List.getElem?_take_of_lt hik]
          have e2 : ∀ x : List (Img α), (out ++ x)[i]? = out[i]? := by
            intro x
            rw [List.getElem?_append_left (by omega)]
          have e3 : (out.take k)[i]? = out[i]? := List.getElem?_take_of_lt hik
          split <;> split <;> simp only [e1, e2, e3]
        · rw [List.length_map]
          split
          · omega
          · simp; omega
      · rw [List.take_of_length_le hl]
        rw [h]

example : okWith (fun out => decide (out.length = 3)) (emd flatSurface 2 Cfg.default board 2) = true ∧
    okWith (fun out => decide (out.length = 2)) (emd flatSurface 2 Cfg.default board 1) = true := by decide +kernel

end EMD2D

namespace Matlab
variable {α : Type} [Add α] [Sub α] [Mul α] [Div α] [Neg α] [LT α] [LE α] [BEq α]
  [DecidableLT α] [DecidableLE α] [NpScalar α]

/-- The three dictionaries have the keys `0 … imfNo - 1`. -/
def AllKeys (st : State α) : Prop := Keys st.IMF st.imfNo ∧ Keys st.EXT st.imfNo ∧ Keys st.ITER st.imfNo

/-- The dictionaries of `st'` extend those of `st`. -/
def Extends (st st' : State α) : Prop := st.IMF <+: st'.IMF ∧ st.EXT <+: st'.EXT ∧ st.ITER <+: st'.ITER

theorem Extends.trans {a b c : State α} (h : Extends a b) (h' : Extends b c) : Extends a c :=
  ⟨h.1.trans h'.1, h.2.1.trans h'.2.1, h.2.2.trans h'.2.2⟩

theorem Extends.refl (a : State α) : Extends a a := ⟨List.prefix_refl _, List.prefix_refl _, List.prefix_refl _⟩

theorem emdRound_keys {sp : SciPy α} {cfg : Cfg α} {T : List α} {n : Nat} {m : Int} {st st' : State α} {b : Bool}
    (h : emdRound sp cfg T n m st = .ok (st', b)) (hk : AllKeys st) :
    AllKeys st' ∧ Extends st st' ∧ st'.imfNo = st.imfNo + 1 ∧ ∃ c : Bool, b = (c || decide ((st'.imfNo : Int) = m - 1)) ∧
      ∀ m', emdRound sp cfg T n m' st = .ok (st', c || decide ((st'.imfNo : Int) = m' - 1)) := by
  unfold emdRound at h ⊢
  split at h
  · cases h
  · rename_i hl
    simp only [bind_eq_ok, pure_eq_ok] at h
    obtain ⟨⟨s, why⟩, hs, h⟩ := h
    obtain ⟨h1, h2⟩ := Prod.mk.inj h
    subst h1
    refine ⟨⟨hk.1.succ _, hk.2.1.succ _, hk.2.2.succ _⟩, ⟨?_, ?_, ?_⟩, rfl, (why == .trend), h2.symm, ?_⟩
    · rw [hk.1.set]; exact List.prefix_append _ _
    · rw [hk.2.1.set]; exact List.prefix_append _ _
    · rw [hk.2.2.set]; exact List.prefix_append _ _
    · intro m'
      rw [if_neg hl]
      simp only [bind_eq_ok, pure_eq_ok]
      exact ⟨_, hs, rfl⟩

theorem emdLoop_extends' {sp : SciPy α} {cfg : Cfg α} {T : List α} {n : Nat} {m : Int} (fuel : Nat) {st st' : State α}
    (hk : AllKeys st) (h : emdLoop sp cfg T n m fuel st = .ok st') : AllKeys st' ∧ Extends st st' := by
  induction fuel generalizing st with
  | zero => cases h
  | succ f ih =>
    unfold emdLoop at h
    simp only [bind_eq_ok] at h
    obtain ⟨⟨s, b⟩, hr, h⟩ := h
    obtain ⟨h1, h2, -⟩ := emdRound_keys hr hk
    simp only at h
    split at h
    · injection h with h
      subst h
      exact ⟨h1, h2⟩
    · obtain ⟨h3, h4⟩ := ih h1 h
      exact ⟨h3, h2.trans h4⟩

theorem emdLoop_trunc {sp : SciPy α} {cfg : Cfg α} {T : List α} {n : Nat} {m : Int} {k : Nat} (hm : m ≤ 1 ∨ (k : Int) ≤ m)
    (fuel : Nat) {st st2 : State α} (hK : AllKeys st) (hl : st.imfNo + 1 < k) (h : emdLoop sp cfg T n m fuel st = .ok st2) :
    ∃ st1, emdLoop sp cfg T n k fuel st = .ok st1 ∧ AllKeys st1 ∧ AllKeys st2 ∧ Extends st1 st2 ∧ st1.imfNo + 1 ≤ k ∧
      (st1 = st2 ∨ st1.imfNo + 1 = k) := by
  induction fuel generalizing st with
  | zero => cases h
  | succ f ih =>
    unfold emdLoop at h ⊢
    simp only [bind_eq_ok] at h ⊢
    obtain ⟨⟨s, b⟩, hr, h⟩ := h
    obtain ⟨h1, h2, h3, c, hb, hr'⟩ := emdRound_keys hr hK
    simp only at h
    by_cases hc : c = true
    · subst hc
      rw [hb, Bool.true_or, if_pos rfl] at h
      injection h with h
      subst h
      exact ⟨s, ⟨_, hr' k, by simp; rfl⟩, h1, h1, Extends.refl _, by omega, .inl rfl⟩
    · replace hc : c = false := by simpa using hc
      subst hc
      rw [Bool.false_or] at hb
      by_cases hkk : s.imfNo + 1 = k
      · refine ⟨s, ⟨_, hr' k, ?_⟩, h1, ?_⟩
        · simp only [Bool.false_or]
          rw [if_pos (by simp; omega)]
          rfl
        · split at h
          · injection h with h
            subst h
            exact ⟨h1, Extends.refl _, by omega, .inl rfl⟩
          · obtain ⟨h4, h5⟩ := emdLoop_extends' f h1 h
            exact ⟨h4, h5, by omega, .inr hkk⟩
      · rw [hb, if_neg (by simp; omega)] at h
        obtain ⟨st1, h4, h5⟩ := ih h1 (by omega) h
        refine ⟨st1, ⟨_, hr' k, ?_⟩, h5⟩
        simp only [Bool.false_or]
        rw [if_neg (by simp; omega)]
        exact h4

theorem finish_dicts {scaledS : List α} {scale : α} {st : State α} {R : Result α} (hK : AllKeys st) (h : finish scaledS scale st = .ok R) :
    (∀ r ∈ st.IMF.map (·.2), r.length = scaledS.length) ∧ st.imfNo ≤ R.imfNo ∧ R.imfNo ≤ st.imfNo + 1 ∧
      st.IMF.map (fun p => (p.1, p.2.map (fun x => x * scale))) <+: R.IMF ∧ st.EXT <+: R.EXT ∧ st.ITER <+: R.ITER := by
  unfold finish at h
  rw [hK.1.gets] at h
  simp only [EMD.ok_bind] at h
  split at h
  · rename_i hall
    injection h with h
    subst h
    refine ⟨?_, ?_, ?_, ?_⟩
    · intro r hr
      have := List.all_eq_true.1 hall r hr
      simpa using this
    · dsimp only; split <;> omega
    · dsimp only; split <;> omega
    · dsimp only
      split
      · rw [hK.1.set, hK.2.1.set, hK.2.2.set, List.map_append]
        exact ⟨List.prefix_append _ _, List.prefix_append _ _, List.prefix_append _ _⟩
      · exact ⟨List.prefix_refl _, List.prefix_refl _, List.prefix_refl _⟩
  · cases h

theorem finish_runs {scaledS : List α} {scale : α} {st : State α} (hK : AllKeys st)
    (hl : ∀ r ∈ st.IMF.map (·.2), r.length = scaledS.length) : ∃ R, finish scaledS scale st = .ok R := by
  unfold finish
  rw [hK.1.gets]
  simp only [EMD.ok_bind]
  rw [if_pos]
  · exact ⟨_, rfl⟩
  · apply List.all_eq_true.2
    intro r hr
    simpa using hl r hr

/-- **C84 (EMD_matlab).**  For `k ≥ 2` the call `emd(S, T, maxImf=k)` succeeds whenever the unlimited one (or one with a larger limit)
does; the entries `0 … k-2` of the dictionaries `IMF`, `EXT` and `ITER` are those of the unlimited call, and if that call returns
fewer than `k` components everything is the same. -/
theorem C84_matlab (fuel : Nat) (sp : SciPy α) (cfg : Cfg α) (S : List α) (T : Option (List α)) (m : Int) (k : Nat) (hk : 2 ≤ k)
    (hm : m ≤ 1 ∨ (k : Int) ≤ m) (R : Result α) (h : emd fuel sp cfg S T m = .ok R) :
    ∃ R', emd fuel sp cfg S T k = .ok R' ∧ R'.imfNo ≤ k ∧ R'.IMF.take (k - 1) = R.IMF.take (k - 1) ∧
      R'.EXT.take (k - 1) = R.EXT.take (k - 1) ∧ R'.ITER.take (k - 1) = R.ITER.take (k - 1) ∧ (R.imfNo + 1 < k → R' = R) := by
  unfold emd at h
  simp only at h
  split at h
  · cases h
  · rename_i hT
    simp only [bind_eq_ok] at h
    obtain ⟨st2, hst, h⟩ := h
    obtain ⟨st1, h1, k1, k2, he, hle, hor⟩ := emdLoop_trunc hm fuel
      (st := { Res := S.map (fun x => x / lit 1), imf := vzeros S.length, IMF := [], EXT := [], ITER := [], imfNo := 0, extNo := 0,
               ends := [] }) ⟨rfl, rfl, rfl⟩ (by simp only; omega) hst
    rcases hor with rfl | hor
    · refine ⟨R, ?_, ?_, rfl, rfl, rfl, fun _ => rfl⟩
      · unfold emd
        simp only
        rw [if_neg hT, h1]
        exact h
      · have := (finish_dicts k1 h).2.2.1
        omega
    · obtain ⟨d1, d2, d3, d4, d5, d6⟩ := finish_dicts k2 h
      obtain ⟨R', hR'⟩ := finish_runs (scale := lit 1) (scaledS := S.map (fun x => x / lit 1)) k1 (by
        intro r hr
        exact d1 r ((he.1.map _).subset hr))
      obtain ⟨-, e2, e3, e4, e5, e6⟩ := finish_dicts k1 hR'
      refine ⟨R', ?_, by omega, ?_, ?_, ?_, ?_⟩
      · unfold emd
        simp only
        rw [if_neg hT, h1]
        exact hR'
      · have hlen := k1.1.length
        have l1 : (st1.IMF.map (fun p => (p.1, p.2.map (fun x => x * (lit 1 : α))))).length = k - 1 := by rw [List.length_map]; omega
        obtain ⟨t, ht⟩ := e4
        obtain ⟨t', ht'⟩ := (he.1.map _).trans d4
        rw [← ht, ← ht', List.take_append_of_le_length (by omega), List.take_append_of_le_length (by omega)]
      · have hlen := k1.2.1.length
        obtain ⟨t, ht⟩ := e5
        obtain ⟨t', ht'⟩ := he.2.1.trans d5
        rw [← ht, ← ht', List.take_append_of_le_length (by omega), List.take_append_of_le_length (by omega)]
      · have hlen := k1.2.2.length
        obtain ⟨t, ht⟩ := e6
        obtain ⟨t', ht'⟩ := he.2.2.trans d6
        rw [← ht, ← ht', List.take_append_of_le_length (by omega), List.take_append_of_le_length (by omega)]
      · intro hlt
        have a := k1.1.length
        have b := k2.1.length
        have c := he.1.length_le
        omega

example : okWith (fun R => R.imfNo == 3 && R.ends.length == 3) (emd 20 linSciPy sampleCfg EMD.sampleS none (-1)) = true ∧
    okWith (fun R => R.imfNo == 2 && R.ends.length == 1) (emd 20 linSciPy sampleCfg EMD.sampleS none 2) = true := by
  constructor <;> decide +kernel

end Matlab
end PyEMD
