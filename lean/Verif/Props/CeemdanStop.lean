import Verif.Props.Ceemdan

/-!
# C79: when `CEEMDAN` stops
-/

set_option linter.unusedSectionVars false

namespace PyEMD
namespace CEEMDAN
open EEMD.Spec (Schedule Sized)
open Spec

namespace Spec

variable {K : Type} [Field K] [LinearOrder K] [IsStrictOrderedRing K] [FloorRing K]

/-- What is left of the signal, in units of `sd`, after the first `j` rows of `C`. -/
def Left (S : List K) (sd : K) (C : List (List K)) (j : Nat) : List K :=
  (List.range S.length).map (fun i => (S.getD i 0 - ((C.take j).map (fun r => r.getD i 0)).sum) / sd)

/-- The documented reasons to stop after `j` components with `R` left: `max_imf` components, nothing more that EMD can split off,
a range below `range_thr`, a total power below `total_power_thr`. -/
def Finished (fuel : Nat) (sp : SciPy K) (ecfg : EMD.Cfg K) (rangeThr powerThr : K) (m : Int) (j : Nat) (R : List K) : Prop :=
  (0 < m ∧ m ≤ (j : Int)) ∨ (∃ D, EMD.emdPure fuel sp ecfg R none 1 = .ok D ∧ D.rows.length = 1) ∨
    (R ≠ [] ∧ ∀ a ∈ R, ∀ b ∈ R, a - b < rangeThr) ∨ (R.map (fun x => |x|)).sum < powerThr

end Spec

variable {K ρ : Type} [Field K] [LinearOrder K] [IsStrictOrderedRing K] [FloorRing K]

theorem endCondition_ok {fuel : Nat} {sp : SciPy K} {cfg : Cfg K} {ecfg : EMD.Cfg K} {S : List K} {cs : List (List K)} {m : Int} {b : Bool}
    (h : endCondition fuel sp cfg ecfg S cs m = .ok b) :
    b = true ↔ Finished fuel sp ecfg cfg.rangeThr cfg.totalPowerThr m cs.length (vsub S (sumRows S.length cs)) := by
  unfold endCondition at h
  generalize vsub S (sumRows S.length cs) = R at h ⊢
  split at h
  · next hm =>
    injection h with h
    exact ⟨fun _ => .inl hm, fun _ => h.symm⟩
  · next hm =>
    obtain ⟨t, ht, h⟩ := bind_eq_ok.1 h
    have hemd : ∃ D, EMD.emdPure fuel sp ecfg R none 1 = .ok D ∧ t = D.rows := by
      unfold emd at ht
      split at ht
      · cases ht
      · next D hD =>
        injection ht with ht
        exact ⟨D, hD, ht.symm⟩
    obtain ⟨D, hD, rfl⟩ := hemd
    split at h
    · next h1 =>
      injection h with h
      exact ⟨fun _ => .inr (.inl ⟨D, hD, h1⟩), fun _ => h.symm⟩
    · next h1 =>
      obtain ⟨mx, hmx, h⟩ := bind_eq_ok.1 h
      obtain ⟨mn, hmn, h⟩ := bind_eq_ok.1 h
      have hne : R ≠ [] := by
        rintro rfl
        cases hmx
      have emx : mx = npMax R := by
        cases hR : R with
        | nil => exact absurd hR hne
        | cons a l => rw [hR] at hmx; injection hmx with hmx; exact hmx.symm
      have emn : mn = npMin R := by
        cases hR : R with
        | nil => exact absurd hR hne
        | cons a l => rw [hR] at hmn; injection hmn with hmn; exact hmn.symm
      obtain ⟨a1, a2⟩ := npMax_spec hne
      obtain ⟨b1, b2⟩ := npMin_spec hne
      have hrange : mx - mn < cfg.rangeThr ↔ (R ≠ [] ∧ ∀ a ∈ R, ∀ b ∈ R, a - b < cfg.rangeThr) := by
        rw [emx, emn]
        constructor
        · exact fun hlt => ⟨hne, fun a ha b hb => lt_of_le_of_lt (sub_le_sub (a2 a ha) (b2 b hb)) hlt⟩
        · exact fun hall => hall.2 _ a1 _ b1
      have hpow : npSum (R.map pyAbs) < cfg.totalPowerThr ↔ (R.map (fun x => |x|)).sum < cfg.totalPowerThr := by
        rw [npSum_eq]
        have : R.map pyAbs = R.map (fun x => |x|) := List.map_congr_left (fun x _ => pyAbs_eq x)
        rw [this]
      split at h
      · next h2 =>
        injection h with h
        exact ⟨fun _ => .inr (.inr (.inl (hrange.1 h2))), fun _ => h.symm⟩
      · next h2 =>
        split at h
        · next h3 =>
          injection h with h
          exact ⟨fun _ => .inr (.inr (.inr (hpow.1 h3))), fun _ => h.symm⟩
        · next h3 =>
          injection h with h
          refine ⟨fun hb => (by rw [← h] at hb; cases hb), ?_⟩
          rintro (hf | ⟨D', hD', hl⟩ | hf | hf)
          · exact absurd hf hm
          · rw [hD] at hD'
            injection hD' with hD'
            subst hD'
            exact absurd hl h1
          · exact absurd (hrange.2 hf) h2
          · exact absurd (hpow.2 hf) h3

theorem stages_stop {std : List K → K} {fuel : Nat} {sp : SciPy K} {cfg : Cfg K} {ecfg : EMD.Cfg K} {noiseEMD : List (List (List K))}
    {S : List K} {T : Option (List K)} {m : Int} (n : Nat) {cimfs c : List (List K)} {prev : List K}
    (h : stages std fuel sp cfg ecfg noiseEMD S T m n cimfs prev = .ok c) :
    cimfs <+: c ∧ (∀ j, cimfs.length ≤ j → j < c.length → endCondition fuel sp cfg ecfg S (c.take j) m = .ok false) ∧
      (c.length = cimfs.length + n ∨ endCondition fuel sp cfg ecfg S c m = .ok true) := by
  induction n generalizing cimfs prev with
  | zero =>
    unfold stages at h
    injection h with h
    subst h
    exact ⟨List.prefix_rfl, fun j h1 h2 => absurd h2 (by omega), .inl rfl⟩
  | succ n ih =>
    unfold stages at h
    split at h
    · cases h
    · next he =>
      injection h with h
      subst h
      exact ⟨List.prefix_rfl, fun j h1 h2 => absurd h2 (by omega), .inr he⟩
    · next he =>
      split at h
      · cases h
      · next lm _ =>
        obtain ⟨h1, h2, h3⟩ := ih h
        have hp : cimfs <+: c := (List.prefix_append _ _).trans h1
        refine ⟨hp, fun j hj hjc => ?_, ?_⟩
        · rcases hj.eq_or_lt with rfl | hlt
          · rw [← List.prefix_iff_eq_take.1 hp]
            exact he
          · exact h2 j (by simp; omega) hjc
        · rcases h3 with h3 | h3
          · left
            rw [h3]
            simp
            omega
          · exact .inr h3

/-- C79: the components are all rows but the last.  Extraction went on after every proper, non-empty initial part of them because
none of the documented reasons to stop held for what was left; and it stopped either because one of them holds now or because the
built-in limit of stages was reached. -/
theorem C79_stop (rng : Rng K ρ) (hs : Sized rng) (std : List K → K) (fuel : Nat) (sp : SciPy K) (orderN orderT : List Nat)
    (o o' : Obj K ρ) (S : List K) (T : Option (List K)) (m : Int) (C : List (List K))
    (hN : o.cfg.parallel = true → Schedule o.cfg.trials o.cfg.processes orderN)
    (hT : o.cfg.parallel = true → orderT.Perm (List.range o.cfg.trials))
    (h : o.ceemdan rng std fuel sp orderN orderT S T m = (.ok C, o')) :
    (∀ j, 1 ≤ j → j + 1 < C.length →
      ¬ Finished fuel sp o.emd o.cfg.rangeThr o.cfg.totalPowerThr m j (Left S (std S) C j)) ∧
    (C.length = o.cfg.maxStages + 2 ∨ ∃ j, C.length = j + 1 ∧ 1 ≤ j ∧
      Finished fuel sp o.emd o.cfg.rangeThr o.cfg.totalPowerThr m j (Left S (std S) C j)) := by
  have hlens := (C39_complete rng hs std fuel sp orderN orderT o o' S T m C hN hT h).1
  obtain ⟨x, noiseEMD, cimfs, hstd, -, -, hb, hC, -⟩ := Obj.ceemdan_ok h
  have hlen : (vdiv S (std S)).length = S.length := by simp [vdiv]
  have hstd0 : std S ≠ 0 := by
    have : ¬ (std S == lit 0) = true := by rw [hstd]; simp
    rwa [beq_iff_eq, lit_zero] at this
  have hcl : ∀ r ∈ cimfs, r.length = S.length := by
    intro r hr
    have := hlens (vscale (std S) r) (by rw [hC]; exact List.mem_map_of_mem hr)
    simpa [vscale] using this
  unfold body at hb
  split at hb
  · cases hb
  next E hE =>
    split at hb
    · cases hb
    next first E' =>
      split at hb
      · cases hb
      next c hc =>
        injection hb with hb
        obtain ⟨⟨t, hct⟩, hgo, hstop⟩ := stages_stop _ hc
        have hclen : C.length = c.length + 1 := by rw [hC, ← hb]; simp
        have hc1 : 1 ≤ c.length := by rw [← hct]; simp
        have hleft : ∀ j ≤ c.length, vsub (vdiv S (std S)) (sumRows (vdiv S (std S)).length (c.take j)) = Left S (std S) C j := by
          intro j hj
          have hcl' : ∀ r ∈ c.take j, r.length = S.length := fun r hr => hcl r (by rw [← hb]; simp [List.mem_of_mem_take hr])
          have hsl := length_sumRows S.length _ hcl'
          rw [hlen]
          apply list_ext_getD S.length _ _ (by rw [length_vsub, hlen, hsl, Nat.min_self]) (by simp [Left])
          intro i hi
          rw [vsub_getD _ _ _ (by omega) (by omega), sumRows_getD _ _ hcl' i hi, getD_lt (vdiv S (std S)) _ (by omega),
            getD_lt (Left S (std S) C j) _ (by simpa [Left] using hi)]
          have e1 : C.take j = (c.take j).map (vscale (std S)) := by
            rw [hC, ← hb, ← List.map_take, List.take_append_of_le_length hj]
          have e2 : (fun r : List K => r.getD i 0) ∘ vscale (std S) = fun r => r.getD i 0 * std S := by
            funext r
            exact vscale_getD _ _ _
          simp only [Left, List.getElem_map, List.getElem_range, vdiv]
          rw [e1, List.map_map, e2, sum_map_mul, getD_lt S i hi]
          field_simp
        constructor
        · intro j h1 h2
          have := endCondition_ok (hgo j (by simpa using h1) (by omega))
          rw [hleft j (by omega), List.length_take, min_eq_left (by omega)] at this
          intro hf
          exact absurd (this.2 hf) (by simp)
        · rcases hstop with hstop | hstop
          · left
            rw [hclen, hstop]
            simp
            omega
          · right
            refine ⟨c.length, hclen, hc1, ?_⟩
            have := (endCondition_ok hstop).1 rfl
            rwa [← List.take_length (l := c), hleft _ (by simp), List.length_take, min_self] at this

/-- Two components: extraction went on after the first one and stopped after the second. -/
example : okWith (fun C => C.length == 3)
      ((sampleObj sampleCfg).ceemdan EEMD.sampleRng sampleStd 20 linSciPy [] [] EMD.sampleS none (-1)).1 = true ∧
    Sized EEMD.sampleRng ∧ sampleCfg.parallel = false := ⟨by decide +kernel, EEMD.sampleRng_sized, rfl⟩

end CEEMDAN
end PyEMD
