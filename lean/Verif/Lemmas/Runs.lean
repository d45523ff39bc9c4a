import Verif.Model.Py
import Mathlib.Data.List.Sort
import Mathlib.Data.List.Range
import Mathlib.Tactic.Ring

/-!
# `np.nonzero` and the runs of a boolean mask
-/

namespace PyEMD

theorem mem_nonzero {m : List Bool} {i : Nat} : i ∈ nonzero m ↔ m[i]? = some true := by
  unfold nonzero
  rw [List.mem_filter, List.mem_range]
  constructor
  · rintro ⟨h, h'⟩
    rw [List.getElem?_eq_getElem h] at h' ⊢
    simpa using h'
  · intro h
    obtain ⟨hi, -⟩ := List.getElem?_eq_some_iff.1 h
    exact ⟨hi, by rw [h]; rfl⟩

theorem nonzero_sorted (m : List Bool) : (nonzero m).Pairwise (· < ·) := by
  unfold nonzero
  exact List.Pairwise.filter _ List.pairwise_lt_range

/-- Recursive form of `nonzero` with an offset. -/
def nz : Nat → List Bool → List Nat
  | _, [] => []
  | i, b :: m => if b then i :: nz (i + 1) m else nz (i + 1) m

theorem mem_nz {m : List Bool} {o i : Nat} : i ∈ nz o m ↔ o ≤ i ∧ m[i - o]? = some true := by
  induction m generalizing o with
  | nil => simp [nz]
  | cons b m ih =>
    have hstep : i ∈ nz (o + 1) m ↔ o + 1 ≤ i ∧ m[i - (o + 1)]? = some true := ih
    have key : (o ≤ i ∧ (b :: m)[i - o]? = some true) ↔ (i = o ∧ b = true) ∨ (o + 1 ≤ i ∧ m[i - (o + 1)]? = some true) := by
      rcases Nat.lt_trichotomy i o with h | h | h
      · constructor
        · rintro ⟨h1, -⟩; omega
        · rintro (⟨h1, -⟩ | ⟨h1, -⟩) <;> omega
      · subst h; simp
      · have : i - o = (i - (o + 1)) + 1 := by omega
        rw [this, List.getElem?_cons_succ]
        constructor
        · rintro ⟨-, h2⟩; exact .inr ⟨h, h2⟩
        · rintro (⟨h1, -⟩ | ⟨-, h2⟩)
          · omega
          · exact ⟨by omega, h2⟩
    rw [key]
    cases b <;> simp [nz, hstep]

theorem nz_sorted (o : Nat) (m : List Bool) : (nz o m).Pairwise (· < ·) := by
  induction m generalizing o with
  | nil => simp [nz]
  | cons b m ih =>
    cases b
    · simpa [nz] using ih _
    · simp only [nz, if_true, List.pairwise_cons]
      refine ⟨fun x hx => ?_, ih _⟩
      have := (mem_nz.1 hx).1
      omega

/-- Strictly sorted lists with the same elements are equal. -/
theorem sorted_ext {l₁ l₂ : List Nat} (h₁ : l₁.Pairwise (· < ·)) (h₂ : l₂.Pairwise (· < ·))
    (h : ∀ x, x ∈ l₁ ↔ x ∈ l₂) : l₁ = l₂ := by
  induction l₁ generalizing l₂ with
  | nil =>
    cases l₂ with
    | nil => rfl
    | cons b l₂ => exact absurd ((h b).2 (by simp)) (by simp)
  | cons a l₁ ih =>
    cases l₂ with
    | nil => exact absurd ((h a).1 (by simp)) (by simp)
    | cons b l₂ =>
      rw [List.pairwise_cons] at h₁ h₂
      have hab : a = b := by
        rcases List.mem_cons.1 ((h a).1 (by simp)) with e | ha
        · exact e
        · rcases List.mem_cons.1 ((h b).2 (by simp)) with e | hb
          · exact e.symm
          · have := h₂.1 a ha
            have := h₁.1 b hb
            omega
      subst hab
      congr 1
      apply ih h₁.2 h₂.2
      intro x
      constructor
      · intro hx
        rcases List.mem_cons.1 ((h x).1 (List.mem_cons_of_mem _ hx)) with e | hx'
        · subst e; exact absurd (h₁.1 x hx) (by omega)
        · exact hx'
      · intro hx
        rcases List.mem_cons.1 ((h x).2 (List.mem_cons_of_mem _ hx)) with e | hx'
        · subst e; exact absurd (h₂.1 x hx) (by omega)
        · exact hx'

theorem nonzero_eq_nz (m : List Bool) : nonzero m = nz 0 m := by
  apply sorted_ext (nonzero_sorted m) (nz_sorted 0 m)
  intro x
  rw [mem_nonzero, mem_nz]
  simp

/-- Half-open runs `[s, e)` of `true`, left to right.  `st` is the start of a run that is still open. -/
def runsFrom : Nat → Option Nat → List Bool → List (Nat × Nat)
  | _, none, [] => []
  | i, some s, [] => [(s, i)]
  | i, none, b :: m => if b then runsFrom (i + 1) (some i) m else runsFrom (i + 1) none m
  | i, some s, b :: m => if b then runsFrom (i + 1) (some s) m else (s, i) :: runsFrom (i + 1) none m

/-- Runs of a mask. -/
def runs (m : List Bool) : List (Nat × Nat) := runsFrom 0 none m

/-- `np.diff` of the mask with a trailing `0`, starting after the value `p`. -/
def diffFrom : Bool → List Bool → List Int
  | p, [] => [0 - b2i p]
  | p, b :: m => (b2i b - b2i p) :: diffFrom b m

theorem runDiff_eq (m : List Bool) : runDiff m = diffFrom false m := by
  have key : ∀ (p : Bool), npDiff ([b2i p] ++ m.map b2i ++ [0]) = diffFrom p m := by
    induction m with
    | nil => intro p; simp [npDiff, diffFrom]
    | cons b m ih =>
      intro p
      have := ih b
      simp only [npDiff, List.cons_append, List.nil_append, List.tail_cons, List.map_cons, List.zipWith_cons_cons,
        diffFrom] at this ⊢
      rw [← this]
  exact key false

theorem starts_eq (m : List Bool) (i : Nat) :
    nz i ((diffFrom false m).map (fun x => x == 1)) = (runsFrom i none m).map (·.1) ∧
    ∀ s, s :: nz i ((diffFrom true m).map (fun x => x == 1)) = (runsFrom i (some s) m).map (·.1) := by
  induction m generalizing i with
  | nil => simp [diffFrom, nz, runsFrom, b2i]
  | cons b m ih =>
    obtain ⟨h1, h2⟩ := ih (i + 1)
    cases b
    · refine ⟨?_, fun s => ?_⟩
      · simpa [diffFrom, nz, runsFrom, b2i] using h1
      · simpa [diffFrom, nz, runsFrom, b2i] using h1
    · refine ⟨?_, fun s => ?_⟩
      · simpa [diffFrom, nz, runsFrom, b2i] using h2 i
      · simpa [diffFrom, nz, runsFrom, b2i] using h2 s

theorem ends_eq (m : List Bool) (i : Nat) :
    nz i ((diffFrom false m).map (fun x => x == -1)) = (runsFrom i none m).map (·.2) ∧
    ∀ s, nz i ((diffFrom true m).map (fun x => x == -1)) = (runsFrom i (some s) m).map (·.2) := by
  induction m generalizing i with
  | nil => simp [diffFrom, nz, runsFrom, b2i]
  | cons b m ih =>
    obtain ⟨h1, h2⟩ := ih (i + 1)
    cases b
    · refine ⟨?_, fun s => ?_⟩
      · simpa [diffFrom, nz, runsFrom, b2i] using h1
      · simpa [diffFrom, nz, runsFrom, b2i] using h1
    · refine ⟨?_, fun s => ?_⟩
      · simpa [diffFrom, nz, runsFrom, b2i] using h2 i
      · simpa [diffFrom, nz, runsFrom, b2i] using h2 s

/-- The arrays of run starts and of (exclusive) run ends, as numpy computes them. -/
theorem runDiff_starts (m : List Bool) : nonzero ((runDiff m).map (fun x => x == 1)) = (runs m).map (·.1) := by
  rw [nonzero_eq_nz, runDiff_eq]; exact (starts_eq m 0).1

theorem runDiff_ends (m : List Bool) : nonzero ((runDiff m).map (fun x => x == -1)) = (runs m).map (·.2) := by
  rw [nonzero_eq_nz, runDiff_eq]; exact (ends_eq m 0).1

/-- `[s, e)` is a maximal interval on which `b` is true. -/
structure IsRun (b : Nat → Bool) (s e : Nat) : Prop where
  lt : s < e
  all : ∀ j, s ≤ j → j < e → b j = true
  left : s = 0 ∨ b (s - 1) = false
  right : b e = false

theorem IsRun.unique {b : Nat → Bool} {s e s' e' : Nat} (h : IsRun b s e) (h' : IsRun b s' e') (hlt : s ≤ s')
    (hov : s' ≤ e) : s = s' ∧ e = e' := by
  have hs : s = s' := by
    by_contra hne
    rcases h'.left with h0 | h0
    · omega
    · have := h.all (s' - 1) (by omega) (by have := h'.lt; omega)
      rw [h0] at this; cases this
  subst hs
  refine ⟨rfl, ?_⟩
  rcases Nat.lt_trichotomy e e' with hl | hl | hl
  · have := h'.all e (by omega) hl
    rw [h.right] at this; cases this
  · exact hl
  · have := h.all e' (by have := h'.lt; omega) hl
    rw [h'.right] at this; cases this

theorem mem_runsFrom (b : Nat → Bool) (m : List Bool) (i : Nat) (st : Option Nat)
    (hm : ∀ j (h : j < m.length), m[j] = b (i + j)) (hend : b (i + m.length) = false)
    (hst : match st with
      | none => i = 0 ∨ b (i - 1) = false
      | some s => s < i ∧ (∀ j, s ≤ j → j < i → b j = true) ∧ (s = 0 ∨ b (s - 1) = false)) (s e : Nat) :
    (s, e) ∈ runsFrom i st m ↔ IsRun b s e ∧ i ≤ e ∧ e ≤ i + m.length := by
  induction m generalizing i st with
  | nil =>
    cases st with
    | none =>
      simp only [runsFrom, List.not_mem_nil, false_iff, List.length_nil]
      rintro ⟨h, h1, h2⟩
      have : e = i := by omega
      subst this
      rcases hst with h0 | h0
      · have := h.lt; omega
      · have := h.all (e - 1) (by have := h.lt; omega) (by have := h.lt; omega)
        rw [h0] at this; cases this
    | some s0 =>
      obtain ⟨hlt, hall, hl⟩ := hst
      have hrun : IsRun b s0 i := ⟨hlt, hall, hl, by simpa using hend⟩
      simp only [runsFrom, List.mem_singleton, Prod.mk.injEq, List.length_nil]
      constructor
      · rintro ⟨rfl, rfl⟩; exact ⟨hrun, by omega, by omega⟩
      · rintro ⟨h, h1, h2⟩
        have : e = i := by omega
        subst this
        rcases Nat.le_total s s0 with hh | hh
        · exact (h.unique hrun hh (by omega))
        · exact ((hrun.unique h hh (by have := h.lt; omega)).imp Eq.symm Eq.symm)
  | cons x m ih =>
    have hx : x = b i := hm 0 (by simp)
    have hm' : ∀ j (h : j < m.length), m[j] = b (i + 1 + j) := by
      intro j h
      have := hm (j + 1) (by simpa using h)
      rw [List.getElem_cons_succ] at this
      rw [this]; congr 1; omega
    have hend' : b (i + 1 + m.length) = false := by
      rw [← hend]; congr 1; simp; omega
    have hlen : i + (x :: m).length = i + 1 + m.length := by simp; omega
    rw [hlen]
    cases hb : x with
    | false =>
      have hbi : b i = false := by rw [← hx, hb]
      have ih' := ih (i + 1) none hm' hend' (.inr (by simpa using hbi))
      cases st with
      | none =>
        simp only [runsFrom, Bool.false_eq_true, if_false, ih']
        constructor
        · rintro ⟨h, h1, h2⟩; exact ⟨h, by omega, h2⟩
        · rintro ⟨h, h1, h2⟩
          refine ⟨h, ?_, h2⟩
          by_contra hc
          have : e = i := by omega
          subst this
          rcases hst with h0 | h0
          · have := h.lt; omega
          · have := h.all (e - 1) (by have := h.lt; omega) (by have := h.lt; omega)
            rw [h0] at this; cases this
      | some s0 =>
        obtain ⟨hlt, hall, hl⟩ := hst
        have hrun : IsRun b s0 i := ⟨hlt, hall, hl, hbi⟩
        simp only [runsFrom, Bool.false_eq_true, if_false, List.mem_cons, Prod.mk.injEq, ih']
        constructor
        · rintro (⟨rfl, rfl⟩ | ⟨h, h1, h2⟩)
          · exact ⟨hrun, by omega, by omega⟩
          · exact ⟨h, by omega, h2⟩
        · rintro ⟨h, h1, h2⟩
          by_cases he : e = i
          · subst he
            left
            rcases Nat.le_total s s0 with hh | hh
            · exact (h.unique hrun hh (by omega))
            · exact ((hrun.unique h hh (by have := h.lt; omega)).imp Eq.symm Eq.symm)
          · exact .inr ⟨h, by omega, h2⟩
    | true =>
      have hbi : b i = true := by rw [← hx, hb]
      have hcut : ∀ s e, IsRun b s e → i ≤ e → i + 1 ≤ e := by
        intro s e h h1
        by_contra hc
        have : e = i := by omega
        subst this
        rw [h.right] at hbi; cases hbi
      cases st with
      | none =>
        have ih' := ih (i + 1) (some i) hm' hend' ⟨by omega, fun j h1 h2 => by
          have : j = i := by omega
          rw [this]; exact hbi, hst⟩
        simp only [runsFrom, if_true, ih']
        exact ⟨fun ⟨h, h1, h2⟩ => ⟨h, by omega, h2⟩, fun ⟨h, h1, h2⟩ => ⟨h, hcut _ _ h h1, h2⟩⟩
      | some s0 =>
        obtain ⟨hlt, hall, hl⟩ := hst
        have ih' := ih (i + 1) (some s0) hm' hend' ⟨by omega, fun j h1 h2 => by
          by_cases hj : j = i
          · rw [hj]; exact hbi
          · exact hall j h1 (by omega), hl⟩
        simp only [runsFrom, if_true, ih']
        exact ⟨fun ⟨h, h1, h2⟩ => ⟨h, by omega, h2⟩, fun ⟨h, h1, h2⟩ => ⟨h, hcut _ _ h h1, h2⟩⟩

/-- Runs are listed left to right and separated by at least one `false`. -/
theorem runsFrom_sorted (m : List Bool) (i : Nat) (st : Option Nat) :
    (runsFrom i st m).Pairwise (fun p q => p.2 < q.1) ∧ ∀ p ∈ runsFrom i none m, i ≤ p.1 := by
  have hlow : ∀ (m : List Bool) (i : Nat), (∀ p ∈ runsFrom i none m, i ≤ p.1) ∧
      ∀ s, s ≤ i → ∀ p ∈ runsFrom i (some s) m, s ≤ p.1 := by
    intro m
    induction m with
    | nil => intro i; simp [runsFrom]
    | cons b m ih =>
      intro i
      obtain ⟨h1, h2⟩ := ih (i + 1)
      cases b
      · simp only [runsFrom, Bool.false_eq_true, if_false, List.mem_cons]
        refine ⟨fun p hp => by have := h1 p hp; omega, ?_⟩
        rintro s hs p (rfl | hp)
        · exact le_refl _
        · have := h1 p hp; omega
      · simp only [runsFrom, if_true]
        exact ⟨fun p hp => h2 i (by omega) p hp, fun s hs p hp => h2 s (by omega) p hp⟩
  refine ⟨?_, (hlow m i).1⟩
  induction m generalizing i st with
  | nil => cases st <;> simp [runsFrom]
  | cons b m ih =>
    cases st <;> cases b
    · simpa [runsFrom] using ih (i + 1) none
    · simpa [runsFrom] using ih (i + 1) (some i)
    · simp only [runsFrom, Bool.false_eq_true, if_false, List.pairwise_cons]
      exact ⟨fun p hp => (by have := (hlow m (i + 1)).1 p hp; show i < p.1; omega), ih (i + 1) none⟩
    · simpa [runsFrom] using ih (i + 1) (some _)

theorem runs_sorted (m : List Bool) : (runs m).Pairwise (fun p q => p.2 < q.1) := (runsFrom_sorted m 0 none).1

theorem mem_runs (m : List Bool) (s e : Nat) :
    (s, e) ∈ runs m ↔ IsRun (fun j => m[j]?.getD false) s e := by
  have h := mem_runsFrom (fun j => m[j]?.getD false) m 0 none (fun j hj => by simp [hj]) (by simp) (.inl rfl) s e
  rw [runs, h]
  constructor
  · exact fun h => h.1
  · intro h
    refine ⟨h, by omega, ?_⟩
    by_contra hc
    have := h.all (e - 1) (by have := h.lt; omega) (by have := h.lt; omega)
    rw [List.getElem?_eq_none (by omega)] at this
    cases this

end PyEMD
