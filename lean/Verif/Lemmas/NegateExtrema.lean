import Verif.Lemmas.Negate

/-!
# Extremum detection and negation, for symmetric arithmetic
-/

set_option linter.unusedSectionVars false

namespace PyEMD
namespace EMD

variable {α : Type} [Add α] [Sub α] [Mul α] [Div α] [Neg α] [LT α] [LE α] [BEq α] [DecidableLT α] [DecidableLE α] [NpScalar α] [Symmetric α]

theorem sub_neg_neg (a b : α) : -a - -b = -(a - b) := by rw [Symmetric.neg_sub_neg, Symmetric.neg_sub]

theorem mul_neg_neg (a b : α) : -a * -b = a * b := by rw [Symmetric.neg_mul, Symmetric.mul_neg, Symmetric.neg_neg]

theorem lt_irrefl' (a : α) : ¬ a < a := fun h => Symmetric.lt_asymm a a h h

theorem neg_lit_zero : -(lit 0 : α) = lit 0 := Symmetric.neg_eq _ (lt_irrefl' _) (lt_irrefl' _)

theorem neg_lt_zero' (a : α) : -a < lit 0 ↔ lit 0 < a := by
  conv_lhs => rw [← neg_lit_zero]
  exact Symmetric.neg_lt_neg _ _

theorem zero_lt_neg' (a : α) : lit 0 < -a ↔ a < lit 0 := by
  conv_lhs => rw [← neg_lit_zero]
  exact Symmetric.neg_lt_neg _ _

theorem npDiff_vneg (S : List α) : npDiff (vneg S) = vneg (npDiff S) := by
  unfold npDiff vneg
  rw [← List.map_tail, List.zipWith_map, List.map_zipWith]
  simp only [sub_neg_neg]

theorem pyTake_vneg (l : List α) (idx : List Int) : pyTake (vneg l) idx = (pyTake l idx).map vneg := pyTake_mapf _ _ _

/-- Negation exchanges maxima and minima. -/
theorem extremaIdx_vneg (S : List α) : extremaIdx (vneg S) = (extremaIdx S).map Prod.swap := by
  have hs : List.zipWith (fun a b : α => decide (a * b < lit 0)) (vneg (npDiff S)).dropLast (vneg (npDiff S)).tail =
      List.zipWith (fun a b => decide (a * b < lit 0)) (npDiff S).dropLast (npDiff S).tail := by
    unfold vneg
    rw [← List.map_dropLast, ← List.map_tail, List.zipWith_map]
    simp only [mul_neg_neg]
  have hz : (vneg (npDiff S)).map (fun x => x == lit 0) = (npDiff S).map (fun x => x == lit 0) := by
    simp only [vneg, List.map_map, Function.comp_def, Symmetric.neg_beq]
  have hany : (vneg (npDiff S)).any (fun x => x == lit 0) = (npDiff S).any (fun x => x == lit 0) := by
    simp only [vneg, List.any_map, Function.comp_def, Symmetric.neg_beq]
  have hruns : flatRuns (vneg (npDiff S)) = flatRuns (npDiff S) := by
    unfold flatRuns
    rw [hz]
  have hd : (vneg (npDiff S)).dropLast = vneg (npDiff S).dropLast := by
    unfold vneg
    rw [List.map_dropLast]
  have hmin : ∀ (sc : List Bool) (d : List α), List.zipWith (fun sc a => sc && decide (a < lit 0)) sc (vneg d) =
      List.zipWith (fun sc a => sc && decide (lit 0 < a)) sc d := by
    intro sc d
    simp only [vneg, List.zipWith_map_right, neg_lt_zero']
  have hmax : ∀ (sc : List Bool) (d : List α), List.zipWith (fun sc a => sc && decide (lit 0 < a)) sc (vneg d) =
      List.zipWith (fun sc a => sc && decide (a < lit 0)) sc d := by
    intro sc d
    simp only [vneg, List.zipWith_map_right, zero_lt_neg']
  unfold extremaIdx
  dsimp only
  rw [npDiff_vneg, hs, hany, hruns, hd, hmin, hmax, vneg_length]
  split
  · generalize dropLastRun S.length (dropFirstRun (flatRuns (npDiff S))) = df
    obtain ⟨debs, fins⟩ := df
    dsimp only
    split
    · rw [pyTake_vneg, pyTake_vneg]
      cases pyTake (npDiff S) (debs.map (fun k : Nat => (k : Int) - 1)) with
      | error e => rfl
      | ok u =>
        cases pyTake (npDiff S) (fins.map (fun k : Nat => (k : Int))) with
        | error e => rfl
        | ok v =>
          simp only [bind, Except.bind, Except.map, pure, Except.pure, vneg, List.zipWith_map, neg_lt_zero', zero_lt_neg', Prod.swap]
    · rfl
  · rfl

theorem zeroCrossings_vneg (S : List α) : zeroCrossings (vneg S) = zeroCrossings S := by
  have e1 : List.zipWith (fun a b => decide (a * b < lit 0)) (vneg S).dropLast (vneg S).tail =
      List.zipWith (fun a b => decide (a * b < lit 0)) S.dropLast S.tail := by
    unfold vneg
    rw [← List.map_dropLast, ← List.map_tail, List.zipWith_map]
    simp only [mul_neg_neg]
  have e2 : (vneg S).map (fun s => s == lit 0) = S.map (fun s => s == lit 0) := by
    simp only [vneg, List.map_map, Function.comp_def, Symmetric.neg_beq]
  unfold zeroCrossings
  simp only [e1, e2]

/-! ## No sample is both a maximum and a minimum -/

/-- The flat runs considered by the detection. -/
def consideredRuns (n : Nat) (m : List Bool) : List (Nat × Nat) :=
  ((runs m).filter (fun p => p.1 != 1)).filter (fun p => p.2 != n - 1)

theorem consideredRuns_eq (n : Nat) (d : List α) (hd : d.length = n - 1) : dropLastRun n (dropFirstRun (flatRuns d)) =
    ((consideredRuns n (d.map (fun x => x == lit 0))).map (·.1), (consideredRuns n (d.map (fun x => x == lit 0))).map (·.2)) := by
  have h0 : flatRuns d = ((runs (d.map (fun x => x == lit 0))).map (·.1), (runs (d.map (fun x => x == lit 0))).map (·.2)) := by
    unfold flatRuns
    simp only [runDiff_starts, runDiff_ends]
  generalize hm : d.map (fun x => x == lit 0) = m at h0 ⊢
  have hl : m.length = n - 1 := by rw [← hm, List.length_map, hd]
  have hlt : ∀ p ∈ runs m, p.1 < p.2 := fun p hp => ((mem_runs m p.1 p.2).1 hp).1
  have hn : ∀ p ∈ runs m, p.2 ≤ n - 1 := fun p hp => by
    obtain ⟨h1, h2, -⟩ := (mem_runs m p.1 p.2).1 hp
    by_contra hc
    have := h2 (p.2 - 1) (by omega) (by omega)
    rw [List.getElem?_eq_none (by omega)] at this
    cases this
  have hs : (runs m).Pairwise (fun p q => p.2 < q.1) := runs_sorted _
  rw [h0, dropFirstRun_eq _ hs hlt, dropLastRun_eq]
  · rfl
  · exact hs.filter _
  · exact fun p hp => hlt p (List.mem_of_mem_filter hp)
  · exact fun p hp => hn p (List.mem_of_mem_filter hp)

theorem mem_maskSel {β : Type} {l : List β} {m : List Bool} {x : β} (h : x ∈ maskSel l m) :
    ∃ k : Nat, l[k]? = some x ∧ m[k]? = some true := by
  induction l generalizing m with
  | nil => simp [maskSel] at h
  | cons a l ih =>
    cases m with
    | nil => simp [maskSel] at h
    | cons b m =>
      unfold maskSel at h
      cases b with
      | true =>
        simp only [if_true, List.mem_cons] at h
        rcases h with rfl | h
        · exact ⟨0, rfl, rfl⟩
        · obtain ⟨k, h1, h2⟩ := ih h
          exact ⟨k + 1, h1, h2⟩
      | false =>
        simp only [Bool.false_eq_true, if_false] at h
        obtain ⟨k, h1, h2⟩ := ih h
        exact ⟨k + 1, h1, h2⟩

theorem npDiff_len {β : Type} [Sub β] (S : List β) : (npDiff S).length = S.length - 1 := by
  unfold npDiff
  rw [List.length_zipWith, List.length_tail]
  omega

/-- A sign change has no flat step next to it. -/
theorem jump_steps {S : List α} {sc : List Bool} {g : α → Bool} {m : Nat}
    (hsc : sc = List.zipWith (fun a b => decide (a * b < lit 0)) (npDiff S).dropLast (npDiff S).tail)
    (h : m ∈ (nonzero (List.zipWith (fun s a => s && g a) sc (npDiff S).dropLast)).map (· + 1)) :
    1 ≤ m ∧ ∃ a b, (npDiff S)[m - 1]? = some a ∧ (npDiff S)[m]? = some b ∧ a * b < lit 0 ∧ g a = true := by
  obtain ⟨i, hi, rfl⟩ := List.mem_map.1 h
  rw [mem_nonzero, hsc, List.getElem?_zipWith, List.getElem?_zipWith] at hi
  refine ⟨by omega, ?_⟩
  have e1 : i + 1 - 1 = i := rfl
  rw [e1]
  cases h1 : (npDiff S).dropLast[i]? with
  | none => rw [h1] at hi; simp at hi
  | some a =>
    cases h2 : (npDiff S).tail[i]? with
    | none => rw [h1, h2] at hi; simp at hi
    | some b =>
      rw [h1, h2] at hi
      simp only [Option.some.injEq, Bool.and_eq_true, decide_eq_true_eq] at hi
      refine ⟨a, b, ?_, ?_, hi.1, hi.2⟩
      · rw [List.getElem?_dropLast] at h1
        split at h1
        · exact h1
        · cases h1
      · rw [List.getElem?_tail] at h2
        exact h2

/-- A reported sample is next to a sign change or in the middle of a considered flat run, and the steps around have the right signs. -/
def Reported (P Q : α → Bool) (S : List α) (m : Nat) : Prop :=
  (1 ≤ m ∧ ∃ a b, (npDiff S)[m - 1]? = some a ∧ (npDiff S)[m]? = some b ∧ a * b < lit 0 ∧ P a = true) ∨
  ∃ (k s e : Nat) (a b : α), (consideredRuns S.length ((npDiff S).map (fun x => x == lit 0)))[k]? = some (s, e) ∧ m = roundHalf (e + s) ∧
    pyGet (npDiff S) ((s : Int) - 1) = .ok a ∧ pyGet (npDiff S) (e : Int) = .ok b ∧ P a = true ∧ Q b = true

theorem pyTake_get {β : Type} {l : List β} {idx : List Int} {u : List β} (h : pyTake l idx = .ok u) {k : Nat} {x : β} (hx : u[k]? = some x) :
    ∃ i, idx[k]? = some i ∧ pyGet l i = .ok x := by
  induction idx generalizing u k with
  | nil =>
    unfold pyTake at h
    injection h with h
    subst h
    simp at hx
  | cons i is ih =>
    unfold pyTake at h
    simp only [bind_eq_ok, pure_eq_ok] at h
    obtain ⟨y, hy, ys, hys, rfl⟩ := h
    cases k with
    | zero =>
      simp only [List.getElem?_cons_zero, Option.some.injEq] at hx
      subst hx
      exact ⟨i, rfl, hy⟩
    | succ k =>
      rw [List.getElem?_cons_succ] at hx
      obtain ⟨j, h1, h2⟩ := ih hys hx
      exact ⟨j, by rw [List.getElem?_cons_succ]; exact h1, h2⟩

theorem mem_npSort {l : List Nat} {m : Nat} : m ∈ npSort l ↔ m ∈ l := (npSort_perm l).mem_iff

theorem extremaIdx_reported {S : List α} {mx mn : List Nat} (h : extremaIdx S = .ok (mx, mn)) :
    (∀ m ∈ mx, Reported (fun a => decide (lit 0 < a)) (fun a => decide (a < lit 0)) S m) ∧
    ∀ m ∈ mn, Reported (fun a => decide (a < lit 0)) (fun a => decide (lit 0 < a)) S m := by
  unfold extremaIdx at h
  dsimp only at h
  have hj : ∀ (g : α → Bool) (m : Nat), m ∈ (nonzero (List.zipWith (fun s a => s && g a)
      (List.zipWith (fun a b => decide (a * b < lit 0)) (npDiff S).dropLast (npDiff S).tail) (npDiff S).dropLast)).map (· + 1) →
      1 ≤ m ∧ ∃ a b, (npDiff S)[m - 1]? = some a ∧ (npDiff S)[m]? = some b ∧ a * b < lit 0 ∧ g a = true :=
    fun g m hm => jump_steps rfl hm
  split at h
  · rw [consideredRuns_eq S.length (npDiff S) (npDiff_len S)] at h
    generalize hR : consideredRuns S.length ((npDiff S).map (fun x => x == lit 0)) = R at h
    dsimp only at h
    split at h
    · simp only [bind_eq_ok, pure_eq_ok] at h
      obtain ⟨u, hu, v, hv, h⟩ := h
      have key : ∀ (P Q : α → Bool) (m : Nat), m ∈ maskSel (List.zipWith (fun f b => roundHalf (f + b)) (R.map (·.2)) (R.map (·.1)))
          (List.zipWith (fun b a => P b && Q a) u v) →
          ∃ (k s e : Nat) (a b : α), R[k]? = some (s, e) ∧ m = roundHalf (e + s) ∧
            pyGet (npDiff S) ((s : Int) - 1) = .ok a ∧ pyGet (npDiff S) (e : Int) = .ok b ∧ P a = true ∧ Q b = true := by
        intro P Q m hm
        obtain ⟨k, h1, h2⟩ := mem_maskSel hm
        rw [List.zipWith_map, List.zipWith_self, List.getElem?_map] at h1
        cases hk : R[k]? with
        | none => rw [hk] at h1; cases h1
        | some p =>
          rw [hk] at h1
          simp only [Option.map_some, Option.some.injEq] at h1
          rw [List.getElem?_zipWith] at h2
          cases ha : u[k]? with
          | none => rw [ha] at h2; simp at h2
          | some a =>
            cases hb : v[k]? with
            | none => rw [ha, hb] at h2; simp at h2
            | some b =>
              rw [ha, hb] at h2
              simp only [Option.some.injEq, Bool.and_eq_true] at h2
              obtain ⟨i, hi, hi'⟩ := pyTake_get hu ha
              obtain ⟨j, hj, hj'⟩ := pyTake_get hv hb
              rw [List.map_map, List.getElem?_map, hk] at hi hj
              simp only [Option.map_some, Option.some.injEq, Function.comp] at hi hj
              subst hi; subst hj
              exact ⟨k, p.1, p.2, a, b, hk, h1.symm, hi', hj', h2.1, h2.2⟩
      injection h with h1 h2
      subst h1; subst h2
      constructor
      · intro m hm
        split at hm
        · rw [mem_npSort, List.mem_append] at hm
          rcases hm with hm | hm
          · exact Or.inl (hj _ m hm)
          · right; rw [hR]; exact key _ _ m hm
        · exact Or.inl (hj _ m hm)
      · intro m hm
        split at hm
        · rw [mem_npSort, List.mem_append] at hm
          rcases hm with hm | hm
          · exact Or.inl (hj _ m hm)
          · right; rw [hR]; exact key _ _ m hm
        · exact Or.inl (hj _ m hm)
    · rw [pure_eq_ok] at h
      injection h with h1 h2
      subst h1; subst h2
      exact ⟨fun m hm => Or.inl (hj _ m hm), fun m hm => Or.inl (hj _ m hm)⟩
  · rw [pure_eq_ok] at h
    injection h with h1 h2
    subst h1; subst h2
    exact ⟨fun m hm => Or.inl (hj _ m hm), fun m hm => Or.inl (hj _ m hm)⟩

theorem considered_sorted (n : Nat) (m : List Bool) : (consideredRuns n m).Pairwise (fun p q => p.2 < q.1) :=
  ((runs_sorted _).filter _).filter _

theorem considered_mid {n : Nat} {m : List Bool} {s e : Nat} (h : (s, e) ∈ consideredRuns n m) :
    s ≤ roundHalf (e + s) ∧ roundHalf (e + s) ≤ e ∧
      (m[roundHalf (e + s)]? = some true ∨ (1 ≤ roundHalf (e + s) ∧ m[roundHalf (e + s) - 1]? = some true)) := by
  have h' : (s, e) ∈ runs m := List.mem_of_mem_filter (List.mem_of_mem_filter h)
  obtain ⟨h1, h2, -⟩ := (mem_runs m s e).1 h'
  have hm := roundHalf_mem h1.le
  rw [Nat.add_comm] at hm
  have get : ∀ j, s ≤ j → j < e → m[j]? = some true := by
    intro j hj hj'
    have := h2 j hj hj'
    cases hmj : m[j]? with
    | none => rw [hmj] at this; cases this
    | some b => rw [hmj] at this; rw [show b = true from this]
  refine ⟨hm.1, hm.2, ?_⟩
  by_cases he : roundHalf (e + s) < e
  · exact .inl (get _ hm.1 he)
  · exact .inr ⟨by omega, get _ (by omega) (by omega)⟩

/-- A sign change is not in the middle of a flat run. -/
theorem jump_not_mid {S : List α} {m : Nat} {a b : α} (h1 : 1 ≤ m) (ha : (npDiff S)[m - 1]? = some a) (hb : (npDiff S)[m]? = some b)
    (hab : a * b < lit 0) {s e : Nat} (h : (s, e) ∈ consideredRuns S.length ((npDiff S).map (fun x => x == lit 0))) : m ≠ roundHalf (e + s) := by
  rintro rfl
  obtain ⟨-, -, hz⟩ := considered_mid h
  rw [List.getElem?_map, List.getElem?_map, ha, hb] at hz
  simp only [Option.map_some, Option.some.injEq] at hz
  rcases hz with hz | ⟨-, hz⟩
  · exact (Symmetric.zero_mul b a hz).2 hab
  · exact (Symmetric.zero_mul a b hz).1 hab

theorem extremaIdx_disjoint {S : List α} {mx mn : List Nat} (h : extremaIdx S = .ok (mx, mn)) : ∀ m ∈ mx, m ∉ mn := by
  intro m h1 h2
  obtain ⟨hx, hn⟩ := extremaIdx_reported h
  have sgn : ∀ a : α, decide (lit 0 < a) = true → decide (a < lit 0) = true → False := by
    intro a h1 h2
    rw [decide_eq_true_eq] at h1 h2
    exact Symmetric.lt_asymm _ _ h1 h2
  rcases hx m h1 with ⟨hm, a, b, ha, hb, hab, hp⟩ | ⟨k, s, e, a, b, hk, hm, ha, hb, hp, hq⟩
  · rcases hn m h2 with ⟨-, a', b', ha', -, -, hp'⟩ | ⟨k', s', e', a', b', hk', hm', -⟩
    · rw [ha] at ha'
      injection ha' with ha'
      subst ha'
      exact sgn a hp hp'
    · exact jump_not_mid hm ha hb hab (List.mem_of_getElem? hk') hm'
  · rcases hn m h2 with ⟨hm', a', b', ha', hb', hab', -⟩ | ⟨k', s', e', a', b', hk', hm', ha', -, hp', -⟩
    · exact jump_not_mid hm' ha' hb' hab' (List.mem_of_getElem? hk) hm
    · have hkk : k = k' := by
        have i1 := considered_mid (List.mem_of_getElem? hk)
        have i2 := considered_mid (List.mem_of_getElem? hk')
        obtain ⟨l1, g1⟩ := List.getElem?_eq_some_iff.1 hk
        obtain ⟨l2, g2⟩ := List.getElem?_eq_some_iff.1 hk'
        have hs := List.pairwise_iff_getElem.1 (considered_sorted S.length ((npDiff S).map (fun x => x == lit 0)))
        rcases Nat.lt_trichotomy k k' with hlt | heq | hlt
        · have := hs k k' l1 l2 hlt
          rw [g1, g2] at this
          dsimp only at this
          omega
        · exact heq
        · have := hs k' k l2 l1 hlt
          rw [g1, g2] at this
          dsimp only at this
          omega
      subst hkk
      rw [hk] at hk'
      injection hk' with hk'
      injection hk' with e1 e2
      subst e1; subst e2
      rw [ha] at ha'
      injection ha' with ha'
      subst ha'
      exact sgn a hp hp'

end EMD
end PyEMD
