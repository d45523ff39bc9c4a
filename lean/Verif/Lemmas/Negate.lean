import Verif.Lemmas.EmdLoop
import Verif.Lemmas.Points
import Verif.Props.Extrema
import Verif.Spec.Contract
import Verif.Spec.Symmetric

/-!
# Behaviour of the decomposition under negation of the signal
-/

set_option linter.unusedSectionVars false

namespace PyEMD

/-! ## Related computations -/

/-- Both computations succeed with related values, or both fail (and both or none for lack of fuel). -/
def RelE {β γ : Type} (R : β → γ → Prop) : PyM β → PyM γ → Prop
  | .ok a, .ok b => R a b
  | .error e, .error e' => e = .outOfFuel ↔ e' = .outOfFuel
  | _, _ => False

theorem RelE.pure {β γ : Type} {R : β → γ → Prop} {a : β} {b : γ} (h : R a b) : RelE R (Pure.pure a) (Pure.pure b) := h

theorem RelE.of_eq {β γ : Type} {R : β → γ → Prop} {f : β → γ} {x : PyM β} {y : PyM γ} (hR : ∀ a, R a (f a)) (h : y = x.map f) :
    RelE R x y := by
  subst h
  cases x with
  | ok a => exact hR a
  | error e => exact Iff.rfl

theorem RelE.refl {β : Type} (x : PyM β) : RelE Eq x x := by
  cases x with
  | ok a => rfl
  | error e => exact Iff.rfl

theorem RelE.bind {β γ β' γ' : Type} {R : β → γ → Prop} {Q : β' → γ' → Prop} {x : PyM β} {y : PyM γ} {f : β → PyM β'} {g : γ → PyM γ'}
    (h : RelE R x y) (hf : ∀ a b, x = .ok a → y = .ok b → R a b → RelE Q (f a) (g b)) : RelE Q (x >>= f) (y >>= g) := by
  cases x with
  | ok a =>
    cases y with
    | ok b => exact hf a b rfl rfl h
    | error e => exact h.elim
  | error e =>
    cases y with
    | ok b => exact h.elim
    | error e' => exact h

theorem RelE.bind_swap {β₁ β₂ γ₁ γ₂ β' γ' : Type} {R₁ : β₁ → γ₁ → Prop} {R₂ : β₂ → γ₂ → Prop} {Q : β' → γ' → Prop}
    {x₁ : PyM β₁} {x₂ : PyM β₂} {y₁ : PyM γ₁} {y₂ : PyM γ₂} {f : β₁ → β₂ → PyM β'} {g : γ₂ → γ₁ → PyM γ'}
    (n₁ : NoFuel x₁) (n₂ : NoFuel x₂)
    (h₁ : RelE R₁ x₁ y₁) (h₂ : RelE R₂ x₂ y₂)
    (hf : ∀ a b c d, x₁ = .ok a → x₂ = .ok b → R₁ a c → R₂ b d → RelE Q (f a b) (g d c)) :
    RelE Q (x₁ >>= fun a => x₂ >>= fun b => f a b) (y₂ >>= fun d => y₁ >>= fun c => g d c) := by
  cases x₁ with
  | ok a =>
    cases y₁ with
    | error e => exact h₁.elim
    | ok c =>
      cases x₂ with
      | ok b =>
        cases y₂ with
        | ok d => exact hf a b c d rfl rfl h₁ h₂
        | error e => exact h₂.elim
      | error e =>
        cases y₂ with
        | ok d => exact h₂.elim
        | error e' => exact h₂
  | error e =>
    cases y₁ with
    | ok c => exact h₁.elim
    | error e' =>
      cases x₂ with
      | ok b =>
        cases y₂ with
        | ok d => exact h₁
        | error e => exact h₂.elim
      | error e₂ =>
        cases y₂ with
        | ok d => exact h₂.elim
        | error e₂' =>
          have a1 : e ≠ .outOfFuel := fun hc => n₁ (by rw [hc])
          have a2 : e₂ ≠ .outOfFuel := fun hc => n₂ (by rw [hc])
          have h2 : e₂ = .outOfFuel ↔ e₂' = .outOfFuel := h₂
          have a3 : e₂' ≠ .outOfFuel := fun hc => a2 (h2.2 hc)
          exact ⟨fun hc => absurd hc a1, fun hc => absurd hc a3⟩

theorem pyGet_map {β γ : Type} (f : β → γ) (l : List β) (i : Int) : pyGet (l.map f) i = (pyGet l i).map f := by
  unfold pyGet
  rw [List.length_map]
  cases pyIdx l.length i with
  | none => rfl
  | some k =>
    simp only [List.getElem?_map]
    cases l[k]? <;> rfl

theorem pyTake_mapf {β γ : Type} (f : β → γ) (l : List β) (idx : List Int) : pyTake (l.map f) idx = (pyTake l idx).map (List.map f) := by
  induction idx with
  | nil => rfl
  | cons i is ih =>
    unfold pyTake
    rw [pyGet_map, ih]
    cases pyGet l i with
    | error e => rfl
    | ok x => cases pyTake l is <;> rfl

namespace EMD

variable {α : Type} [Add α] [Sub α] [Mul α] [Div α] [Neg α] [LT α] [LE α] [BEq α] [DecidableLT α] [DecidableLE α] [NpScalar α]

/-- Negated array. -/
def vneg (l : List α) : List α := l.map (fun x => -x)
/-- Knots with negated values. -/
def kneg (l : List (α × α)) : List (α × α) := l.map (fun p => (p.1, -p.2))

theorem vneg_length (l : List α) : (vneg l).length = l.length := by simp [vneg]

theorem relGet (S : List α) (i : Int) : RelE (fun x y => y = -x) (pyGet S i) (pyGet (vneg S) i) :=
  .of_eq (f := fun x => -x) (fun _ => rfl) (pyGet_map _ _ _)

theorem relTake (S : List α) (idx : List Int) : RelE (fun x y => y = vneg x) (pyTake S idx) (pyTake (vneg S) idx) :=
  .of_eq (f := vneg) (fun _ => rfl) (pyTake_mapf _ _ _)

/-! ## Knots -/

/-- Maxima and minima exchanged. -/
def Mirror.swap (m : Mirror) : Mirror := { mx := m.mn, mn := m.mx, sym := m.sym }

theorem leftBound_swap [Symmetric α] (nb : Int) (S : List α) (A B : List Int) (hd : ∀ i ∈ A, i ∉ B) :
    RelE (fun m m' => m' = m.swap) (leftBound nb S A B) (leftBound nb (vneg S) B A) := by
  unfold leftBound
  refine RelE.bind_swap (pyGet_noFuel _ _) (pyGet_noFuel _ _) (RelE.refl _) (RelE.refl _) ?_
  rintro a b _ _ ha hb rfl rfl
  have hab : a ≠ b := by
    rintro rfl
    cases A with
    | nil => cases ha
    | cons x A =>
      cases B with
      | nil => cases hb
      | cons y B =>
        rw [pyGet_cons] at ha hb
        injection ha with ha
        injection hb with hb
        exact hd a (by simp [ha]) (by simp [hb])
  by_cases h : a < b
  · rw [if_pos h, if_neg (by omega)]
    refine (relGet S 0).bind ?_
    rintro s0 _ - - rfl
    refine (relGet S b).bind ?_
    rintro sm _ - - rfl
    by_cases hc : sm < s0
    · rw [if_pos hc, if_pos (by exact (Symmetric.neg_lt_neg _ _).2 hc)]
      exact .pure rfl
    · rw [if_neg hc, if_neg (by rwa [Symmetric.neg_lt_neg])]
      exact .pure rfl
  · rw [if_neg h, if_pos (by omega)]
    refine (relGet S 0).bind ?_
    rintro s0 _ - - rfl
    refine (relGet S a).bind ?_
    rintro sm _ - - rfl
    by_cases hc : s0 < sm
    · rw [if_pos hc, if_pos (by exact (Symmetric.neg_lt_neg _ _).2 hc)]
      exact .pure rfl
    · rw [if_neg hc, if_neg (by rwa [Symmetric.neg_lt_neg])]
      exact .pure rfl

theorem rightBound_swap [Symmetric α] (nb : Int) (S : List α) (A B : List Int) (hd : ∀ i ∈ A, i ∉ B) :
    RelE (fun m m' => m' = m.swap) (rightBound nb S A B) (rightBound nb (vneg S) B A) := by
  unfold rightBound
  rw [vneg_length]
  refine RelE.bind_swap (pyGet_noFuel _ _) (pyGet_noFuel _ _) (RelE.refl _) (RelE.refl _) ?_
  rintro a b _ _ ha hb rfl rfl
  have hab : a ≠ b := by
    rintro rfl
    by_cases nA : A = []
    · subst nA; cases ha
    · by_cases nB : B = []
      · subst nB; cases hb
      · rw [pyGet_last _ nA] at ha
        rw [pyGet_last _ nB] at hb
        injection ha with ha
        injection hb with hb
        exact hd a (ha ▸ List.getLast_mem nA) (hb ▸ List.getLast_mem nB)
  by_cases h : a < b
  · rw [if_pos h, if_neg (by omega)]
    refine (relGet S (-1)).bind ?_
    rintro s0 _ - - rfl
    refine (relGet S a).bind ?_
    rintro sm _ - - rfl
    by_cases hc : s0 < sm
    · rw [if_pos hc, if_pos (by exact (Symmetric.neg_lt_neg _ _).2 hc)]
      exact .pure rfl
    · rw [if_neg hc, if_neg (by rwa [Symmetric.neg_lt_neg])]
      exact .pure rfl
  · rw [if_neg h, if_pos (by omega)]
    refine (relGet S (-1)).bind ?_
    rintro s0 _ - - rfl
    refine (relGet S b).bind ?_
    rintro sm _ - - rfl
    by_cases hc : sm < s0
    · rw [if_pos hc, if_pos (by exact (Symmetric.neg_lt_neg _ _).2 hc)]
      exact .pure rfl
    · rw [if_neg hc, if_neg (by rwa [Symmetric.neg_lt_neg])]
      exact .pure rfl

theorem fillMissing_swap (A B : List Int) (m : Mirror) : fillMissing B A m.swap = (fillMissing A B m).swap := rfl

/-- Maxima and minima exchanged. -/
def Mirrored.swap (m : Mirrored α) : Mirrored α := { tmx := m.tmn, tmn := m.tmx, mx := m.mn, mn := m.mx }

theorem mirrorTimes_noFuel' (T : List α) (s : Int) (l : List Int) : NoFuel (mirrorTimes T s l) := by
  unfold mirrorTimes
  refine .bind (pyGet_noFuel _ _) fun _ _ => ?_
  refine .bind (pyTake_noFuel _ _) fun _ _ => .pure _

/-- Symmetry points used by the mirroring. -/
theorem leftBound_sym {nb : Int} {S : List α} {A B : List Int} {m : Mirror} (h : leftBound nb S A B = .ok m) :
    (∃ a b, pyGet A 0 = .ok a ∧ pyGet B 0 = .ok b ∧ (m.sym = a ∨ m.sym = b ∨ m.sym = 0)) := by
  unfold leftBound at h
  simp only [bind_eq_ok] at h
  obtain ⟨a, ha, b, hb, h⟩ := h
  refine ⟨a, b, ha, hb, ?_⟩
  split at h
  · simp only [bind_eq_ok] at h
    obtain ⟨_, -, _, -, h⟩ := h
    split at h <;> (rw [pure_eq_ok] at h; subst h; simp)
  · simp only [bind_eq_ok] at h
    obtain ⟨_, -, _, -, h⟩ := h
    split at h <;> (rw [pure_eq_ok] at h; subst h; simp)

theorem rightBound_sym {nb : Int} {S : List α} {A B : List Int} {m : Mirror} (h : rightBound nb S A B = .ok m) :
    (∃ a b, pyGet A (-1) = .ok a ∧ pyGet B (-1) = .ok b ∧ (m.sym = a ∨ m.sym = b ∨ m.sym = (S.length : Int) - 1)) := by
  unfold rightBound at h
  simp only [bind_eq_ok] at h
  obtain ⟨a, ha, b, hb, h⟩ := h
  refine ⟨a, b, ha, hb, ?_⟩
  split at h
  · simp only [bind_eq_ok] at h
    obtain ⟨_, -, _, -, h⟩ := h
    split at h <;> (rw [pure_eq_ok] at h; subst h; simp)
  · simp only [bind_eq_ok] at h
    obtain ⟨_, -, _, -, h⟩ := h
    split at h <;> (rw [pure_eq_ok] at h; subst h; simp)

theorem leftMirror_swap (nb : Int) (T : List α) (A B : List Int) (m : Mirror) (a b : Int) (ha : pyGet A 0 = .ok a) (hb : pyGet B 0 = .ok b)
    (hab : a ≠ b) (hs : m.sym = a ∨ m.sym = b ∨ m.sym = 0) :
    RelE (fun r r' => r' = r.swap) (leftMirror nb T A B m) (leftMirror nb T B A m.swap) := by
  unfold leftMirror
  refine RelE.bind_swap (mirrorTimes_noFuel' _ _ _) (mirrorTimes_noFuel' _ _ _) (RelE.refl _) (RelE.refl _) ?_
  rintro tmn tmx _ _ - - rfl rfl
  rw [ha, hb]
  have key : ∀ tmn0 T0 tmx0 : α, RelE (fun r r' => r' = Mirrored.swap r)
      (if T0 < tmn0 ∨ T0 < tmx0 then
        (let m := if m.sym = a then { m with mx := (pySlice A 0 (min (A.length : Int) nb)).reverse }
          else { m with mn := (pySlice B 0 (min (B.length : Int) nb)).reverse }
        if m.sym = 0 then .error (.exception "Left edge BUG")
        else do
          let tmn ← mirrorTimes T 0 m.mn
          let tmx ← mirrorTimes T 0 m.mx
          return { tmx, tmn, mx := m.mx, mn := m.mn })
      else return { tmx, tmn, mx := m.mx, mn := m.mn })
      (if T0 < tmx0 ∨ T0 < tmn0 then
        (let m := if m.swap.sym = b then { m.swap with mx := (pySlice B 0 (min (B.length : Int) nb)).reverse }
          else { m.swap with mn := (pySlice A 0 (min (A.length : Int) nb)).reverse }
        if m.sym = 0 then .error (.exception "Left edge BUG")
        else do
          let tmn ← mirrorTimes T 0 m.mn
          let tmx ← mirrorTimes T 0 m.mx
          return { tmx, tmn, mx := m.mx, mn := m.mn })
      else return { tmx := tmn, tmn := tmx, mx := m.mn, mn := m.mx }) := by
    intro tmn0 T0 tmx0
    by_cases hc : T0 < tmn0 ∨ T0 < tmx0
    · rw [if_pos hc, if_pos hc.symm]
      by_cases h0 : m.sym = 0
      · have e1 : (if m.sym = a then ({ m with mx := (pySlice A 0 (min (A.length : Int) nb)).reverse } : Mirror)
          else { m with mn := (pySlice B 0 (min (B.length : Int) nb)).reverse }).sym = 0 := by split <;> exact h0
        have e2 : (if m.swap.sym = b then ({ m.swap with mx := (pySlice B 0 (min (B.length : Int) nb)).reverse } : Mirror)
          else { m.swap with mn := (pySlice A 0 (min (A.length : Int) nb)).reverse }).sym = 0 := by split <;> exact h0
        simp only [e1, e2, if_true]
        exact Iff.rfl
      · have e : (if m.swap.sym = b then ({ m.swap with mx := (pySlice B 0 (min (B.length : Int) nb)).reverse } : Mirror)
            else { m.swap with mn := (pySlice A 0 (min (A.length : Int) nb)).reverse }) =
            (if m.sym = a then ({ m with mx := (pySlice A 0 (min (A.length : Int) nb)).reverse } : Mirror)
            else { m with mn := (pySlice B 0 (min (B.length : Int) nb)).reverse }).swap := by
          rcases hs with hs | hs | hs
          · rw [if_pos hs, if_neg (by show m.sym ≠ b; omega)]; rfl
          · rw [if_pos (show m.swap.sym = b from hs), if_neg (by omega : ¬ m.sym = a)]; rfl
          · exact absurd hs h0
        rw [e]
        generalize hm' : (if m.sym = a then ({ m with mx := (pySlice A 0 (min (A.length : Int) nb)).reverse } : Mirror)
            else { m with mn := (pySlice B 0 (min (B.length : Int) nb)).reverse }) = m'
        have hs' : m'.sym ≠ 0 := by rw [← hm']; split <;> exact h0
        have hs'' : m'.swap.sym ≠ 0 := hs'
        simp only [hs', hs'', if_false]
        refine RelE.bind_swap (mirrorTimes_noFuel' _ _ _) (mirrorTimes_noFuel' _ _ _) (RelE.refl _) (RelE.refl _) ?_
        rintro _ _ _ _ - - rfl rfl
        exact .pure rfl
    · rw [if_neg hc, if_neg (fun h => hc h.symm)]
      exact .pure rfl
  -- reading the three scalars in either order
  cases h1 : pyGet tmn 0 with
  | error e =>
    cases h2 : pyGet tmx 0 with
    | error e' =>
      have a1 : e ≠ .outOfFuel := fun hc => pyGet_noFuel tmn 0 (by rw [h1, hc])
      have a2 : e' ≠ .outOfFuel := fun hc => pyGet_noFuel tmx 0 (by rw [h2, hc])
      exact ⟨fun h => absurd h a1, fun h => absurd h a2⟩
    | ok x =>
      have a1 : e ≠ .outOfFuel := fun hc => pyGet_noFuel tmn 0 (by rw [h1, hc])
      cases h3 : pyGet T 0 with
      | error e' =>
        have a2 : e' ≠ .outOfFuel := fun hc => pyGet_noFuel T 0 (by rw [h3, hc])
        exact ⟨fun h => absurd h a1, fun h => absurd h a2⟩
      | ok t => exact Iff.rfl
  | ok x =>
    cases h3 : pyGet T 0 with
    | error e =>
      have a1 : e ≠ .outOfFuel := fun hc => pyGet_noFuel T 0 (by rw [h3, hc])
      cases h2 : pyGet tmx 0 with
      | error e' =>
        have a2 : e' ≠ .outOfFuel := fun hc => pyGet_noFuel tmx 0 (by rw [h2, hc])
        exact ⟨fun h => absurd h a1, fun h => absurd h a2⟩
      | ok y => exact Iff.rfl
    | ok t =>
      cases h2 : pyGet tmx 0 with
      | error e => exact Iff.rfl
      | ok y => exact key x t y

theorem rightMirror_swap (nb : Int) (T : List α) (n : Nat) (A B : List Int) (m : Mirror) (a b : Int) (ha : pyGet A (-1) = .ok a)
    (hb : pyGet B (-1) = .ok b) (hab : a ≠ b) (hs : m.sym = a ∨ m.sym = b ∨ m.sym = (n : Int) - 1) :
    RelE (fun r r' => r' = r.swap) (rightMirror nb T n A B m) (rightMirror nb T n B A m.swap) := by
  unfold rightMirror
  refine RelE.bind_swap (mirrorTimes_noFuel' _ _ _) (mirrorTimes_noFuel' _ _ _) (RelE.refl _) (RelE.refl _) ?_
  rintro tmn tmx _ _ - - rfl rfl
  rw [ha, hb]
  have key : ∀ tmn0 T0 tmx0 : α, RelE (fun r r' => r' = Mirrored.swap r)
      (if tmn0 < T0 ∨ tmx0 < T0 then
        (let m := if m.sym = a then { m with mx := (pySliceFrom A (max ((A.length : Int) - nb) 0)).reverse }
          else { m with mn := (pySliceFrom B (max ((B.length : Int) - nb) 0)).reverse }
        if m.sym = (n : Int) - 1 then .error (.exception "Right edge BUG")
        else do
          let tmn ← mirrorTimes T ((n : Int) - 1) m.mn
          let tmx ← mirrorTimes T ((n : Int) - 1) m.mx
          return { tmx, tmn, mx := m.mx, mn := m.mn })
      else return { tmx, tmn, mx := m.mx, mn := m.mn })
      (if tmx0 < T0 ∨ tmn0 < T0 then
        (let m := if m.swap.sym = b then { m.swap with mx := (pySliceFrom B (max ((B.length : Int) - nb) 0)).reverse }
          else { m.swap with mn := (pySliceFrom A (max ((A.length : Int) - nb) 0)).reverse }
        if m.sym = (n : Int) - 1 then .error (.exception "Right edge BUG")
        else do
          let tmn ← mirrorTimes T ((n : Int) - 1) m.mn
          let tmx ← mirrorTimes T ((n : Int) - 1) m.mx
          return { tmx, tmn, mx := m.mx, mn := m.mn })
      else return { tmx := tmn, tmn := tmx, mx := m.mn, mn := m.mx }) := by
    intro tmn0 T0 tmx0
    by_cases hc : tmn0 < T0 ∨ tmx0 < T0
    · rw [if_pos hc, if_pos hc.symm]
      by_cases h0 : m.sym = (n : Int) - 1
      · have e1 : (if m.sym = a then ({ m with mx := (pySliceFrom A (max ((A.length : Int) - nb) 0)).reverse } : Mirror)
          else { m with mn := (pySliceFrom B (max ((B.length : Int) - nb) 0)).reverse }).sym = (n : Int) - 1 := by split <;> exact h0
        have e2 : (if m.swap.sym = b then ({ m.swap with mx := (pySliceFrom B (max ((B.length : Int) - nb) 0)).reverse } : Mirror)
          else { m.swap with mn := (pySliceFrom A (max ((A.length : Int) - nb) 0)).reverse }).sym = (n : Int) - 1 := by split <;> exact h0
        simp only [e1, e2, if_true]
        exact Iff.rfl
      · have e : (if m.swap.sym = b then ({ m.swap with mx := (pySliceFrom B (max ((B.length : Int) - nb) 0)).reverse } : Mirror)
            else { m.swap with mn := (pySliceFrom A (max ((A.length : Int) - nb) 0)).reverse }) =
            (if m.sym = a then ({ m with mx := (pySliceFrom A (max ((A.length : Int) - nb) 0)).reverse } : Mirror)
            else { m with mn := (pySliceFrom B (max ((B.length : Int) - nb) 0)).reverse }).swap := by
          rcases hs with hs | hs | hs
          · rw [if_pos hs, if_neg (by show m.sym ≠ b; omega)]; rfl
          · rw [if_pos (show m.swap.sym = b from hs), if_neg (by omega : ¬ m.sym = a)]; rfl
          · exact absurd hs h0
        rw [e]
        generalize hm' : (if m.sym = a then ({ m with mx := (pySliceFrom A (max ((A.length : Int) - nb) 0)).reverse } : Mirror)
            else { m with mn := (pySliceFrom B (max ((B.length : Int) - nb) 0)).reverse }) = m'
        have hs' : m'.sym ≠ (n : Int) - 1 := by rw [← hm']; split <;> exact h0
        have hs'' : m'.swap.sym ≠ (n : Int) - 1 := hs'
        simp only [hs', hs'', if_false]
        refine RelE.bind_swap (mirrorTimes_noFuel' _ _ _) (mirrorTimes_noFuel' _ _ _) (RelE.refl _) (RelE.refl _) ?_
        rintro _ _ _ _ - - rfl rfl
        exact .pure rfl
    · rw [if_neg hc, if_neg (fun h => hc h.symm)]
      exact .pure rfl
  cases h1 : pyGet tmn (-1) with
  | error e =>
    cases h2 : pyGet tmx (-1) with
    | error e' =>
      have a1 : e ≠ .outOfFuel := fun hc => pyGet_noFuel tmn (-1) (by rw [h1, hc])
      have a2 : e' ≠ .outOfFuel := fun hc => pyGet_noFuel tmx (-1) (by rw [h2, hc])
      exact ⟨fun h => absurd h a1, fun h => absurd h a2⟩
    | ok x =>
      have a1 : e ≠ .outOfFuel := fun hc => pyGet_noFuel tmn (-1) (by rw [h1, hc])
      cases h3 : pyGet T (-1) with
      | error e' =>
        have a2 : e' ≠ .outOfFuel := fun hc => pyGet_noFuel T (-1) (by rw [h3, hc])
        exact ⟨fun h => absurd h a1, fun h => absurd h a2⟩
      | ok t => exact Iff.rfl
  | ok x =>
    cases h3 : pyGet T (-1) with
    | error e =>
      have a1 : e ≠ .outOfFuel := fun hc => pyGet_noFuel T (-1) (by rw [h3, hc])
      cases h2 : pyGet tmx (-1) with
      | error e' =>
        have a2 : e' ≠ .outOfFuel := fun hc => pyGet_noFuel tmx (-1) (by rw [h2, hc])
        exact ⟨fun h => absurd h a1, fun h => absurd h a2⟩
      | ok y => exact Iff.rfl
    | ok t =>
      cases h2 : pyGet tmx (-1) with
      | error e => exact Iff.rfl
      | ok y => exact key x t y

theorem dropDupKnots_kneg (l : List (α × α)) : dropDupKnots (kneg l) = kneg (dropDupKnots l) := by
  induction l with
  | nil => rfl
  | cons p l ih =>
    cases l with
    | nil => rfl
    | cons q l =>
      show (if q.1 == p.1 then dropDupKnots (kneg (q :: l)) else (p.1, -p.2) :: dropDupKnots (kneg (q :: l))) = kneg (if q.1 == p.1 then dropDupKnots (q :: l) else p :: dropDupKnots (q :: l))
      rw [ih]
      split <;> rfl

theorem zip_vneg (t z : List α) : t.zip (vneg z) = kneg (t.zip z) := by
  unfold vneg kneg
  rw [List.zip_map_right]
  rfl

theorem preparePointsSimple_swap [Symmetric α] (nb : Int) (T S P Q : List α) (hd : ∀ i ∈ P.map toInt, i ∉ Q.map toInt) :
    RelE (fun r r' => r' = (kneg r.2, kneg r.1)) (preparePointsSimple nb T S P Q) (preparePointsSimple nb T (vneg S) Q P) := by
  unfold preparePointsSimple
  simp only [vneg_length]
  refine (leftBound_swap nb S _ _ hd).bind ?_
  rintro l _ hl - rfl
  refine (rightBound_swap nb S _ _ hd).bind ?_
  rintro r _ hr - rfl
  obtain ⟨a, b, ha, hb, hs⟩ := leftBound_sym hl
  obtain ⟨a', b', ha', hb', hs'⟩ := rightBound_sym hr
  have hab : a ≠ b := by
    rintro rfl
    match P.map toInt, Q.map toInt, ha, hb, hd with
    | x :: _, y :: _, ha, hb, hd =>
      rw [pyGet_cons] at ha hb
      injection ha with ha
      injection hb with hb
      exact hd a (by simp [ha]) (by simp [hb])
    | [], _, ha, _, _ => cases ha
    | _ :: _, [], _, hb, _ => cases hb
  have hab' : a' ≠ b' := by
    rintro rfl
    by_cases nA : P.map toInt = []
    · rw [nA] at ha'; cases ha'
    · by_cases nB : Q.map toInt = []
      · rw [nB] at hb'; cases hb'
      · rw [pyGet_last _ nA] at ha'
        rw [pyGet_last _ nB] at hb'
        injection ha' with ha'
        injection hb' with hb'
        exact hd a' (ha' ▸ List.getLast_mem nA) (hb' ▸ List.getLast_mem nB)
  simp only [fillMissing_swap]
  refine (leftMirror_swap nb T _ _ (fillMissing _ _ l) a b ha hb hab (by exact hs)).bind ?_
  rintro l' _ - - rfl
  refine (rightMirror_swap nb T S.length _ _ (fillMissing _ _ r) a' b' ha' hb' hab' (by exact hs')).bind ?_
  rintro r' _ - - rfl
  refine RelE.bind_swap (pyTake_noFuel _ _) (pyTake_noFuel _ _) (relTake S _) (relTake S _) ?_
  rintro zlmax zlmin _ _ - - rfl rfl
  refine RelE.bind_swap (pyTake_noFuel _ _) (pyTake_noFuel _ _) (relTake S _) (relTake S _) ?_
  rintro zrmax zrmin _ _ - - rfl rfl
  refine RelE.bind_swap (pyTake_noFuel _ _) (pyTake_noFuel _ _) (RelE.refl _) (RelE.refl _) ?_
  rintro tcmin tcmax _ _ - - rfl rfl
  refine RelE.bind_swap (pyTake_noFuel _ _) (pyTake_noFuel _ _) (relTake S _) (relTake S _) ?_
  rintro zcmin zcmax _ _ - - rfl rfl
  apply RelE.pure
  show (dropDupKnots (_ : List (α × α)), dropDupKnots (_ : List (α × α))) = _
  have e : ∀ a b c : List α, vneg a ++ vneg b ++ vneg c = vneg (a ++ b ++ c) := by
    intro a b c; simp [vneg]
  rw [e, e, zip_vneg, zip_vneg, dropDupKnots_kneg, dropDupKnots_kneg]
  rfl

end EMD
end PyEMD
