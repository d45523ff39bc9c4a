import Verif.Spec.Image
import Verif.Lemmas.Ceemdan

/-!
# Images: indexing, shapes
-/

set_option linter.unusedSectionVars false

namespace PyEMD

theorem flatMap_range_getElem? {β : Type} (g : Nat → List β) (n m : Nat) (hg : ∀ r < m, (g r).length = n) :
    ((List.range m).flatMap g).length = m * n ∧ ∀ r < m, ∀ c < n, ((List.range m).flatMap g)[r * n + c]? = (g r)[c]? := by
  induction m with
  | zero => simp
  | succ m ih =>
    obtain ⟨h1, h2⟩ := ih (fun r hr => hg r (by omega))
    rw [List.range_succ, List.flatMap_append]
    simp only [List.flatMap_cons, List.flatMap_nil, List.append_nil]
    refine ⟨by rw [List.length_append, h1, hg m (by omega)]; ring, ?_⟩
    intro r hr c hc
    by_cases hrm : r < m
    · have : r * n + c < m * n := by
        have : (r + 1) * n ≤ m * n := Nat.mul_le_mul_right n hrm
        have : (r + 1) * n = r * n + n := by ring
        omega
      rw [List.getElem?_append_left (by rw [h1]; exact this), h2 r hrm c hc]
    · have hr' : r = m := by omega
      subst hr'
      rw [List.getElem?_append_right (by rw [h1]; omega), h1]
      congr 1
      omega

namespace Img

open Spec

section Gen
variable {α : Type} [Add α] [Sub α] [Mul α] [Div α] [Neg α] [LT α] [LE α] [BEq α]
  [DecidableLT α] [DecidableLE α] [NpScalar α]

theorem ofFn_wf (rows cols : Nat) (f : Nat → Nat → α) : WF (ofFn rows cols f) := by
  unfold WF ofFn
  exact (flatMap_range_getElem? _ cols rows (by simp)).1

theorem ofFn_at (rows cols : Nat) (f : Nat → Nat → α) (r c : Nat) (hr : r < rows) (hc : c < cols) :
    at? (ofFn rows cols f) r c = some (f r c) := by
  unfold at? ofFn
  simp only
  rw [(flatMap_range_getElem? _ cols rows (by simp)).2 r hr c hc]
  simp [hc]

theorem at_some (im : Img α) (h : WF im) (r c : Nat) (hr : r < im.rows) (hc : c < im.cols) : at? im r c = some (im.px r c) := by
  unfold at? px
  have : r * im.cols + c < im.data.length := by
    rw [h]
    have h1 : (r + 1) * im.cols ≤ im.rows * im.cols := Nat.mul_le_mul_right _ hr
    have h2 : (r + 1) * im.cols = r * im.cols + im.cols := by ring
    omega
  simp [this, List.getD]

theorem px_eq {im : Img α} {r c : Nat} {x : α} (h : at? im r c = some x) : im.px r c = x := by
  unfold at? at h
  simp [px, List.getD, h]

theorem ofFn_px (rows cols : Nat) (f : Nat → Nat → α) (r c : Nat) (hr : r < rows) (hc : c < cols) :
    (ofFn rows cols f).px r c = f r c := px_eq (ofFn_at rows cols f r c hr hc)

theorem sub_wf {a b : Img α} (ha : WF a) (hb : WF b) (hr : b.rows = a.rows) (hc : b.cols = a.cols) : WF (a.sub b) := by
  unfold WF at *
  simp only [sub, vsub, List.length_zipWith, ha, hb, hr, hc, Nat.min_self]

theorem add_wf {a b : Img α} (ha : WF a) (hb : WF b) (hr : b.rows = a.rows) (hc : b.cols = a.cols) : WF (a.add b) := by
  unfold WF at *
  simp only [add, vadd, List.length_zipWith, ha, hb, hr, hc, Nat.min_self]

theorem map_wf {a : Img α} (f : α → α) (ha : WF a) : WF (a.map f) := by
  unfold WF at *
  simpa [map] using ha

end Gen
end Img
end PyEMD

namespace PyEMD

open Img Img.Spec

section Gen
variable {α : Type} [Add α] [Sub α] [Mul α] [Div α] [Neg α] [LT α] [LE α] [BEq α]
  [DecidableLT α] [DecidableLE α] [NpScalar α]

theorem HasShape.length {im : Img α} {R C : Nat} (h : HasShape im R C) : im.data.length = R * C := by
  have := h.wf
  unfold WF at this
  rw [this, h.rows_eq, h.cols_eq]

theorem HasShape.sub {a b : Img α} {R C : Nat} (ha : HasShape a R C) (hb : HasShape b R C) : HasShape (a.sub b) R C :=
  ⟨sub_wf ha.wf hb.wf (hb.rows_eq.trans ha.rows_eq.symm) (hb.cols_eq.trans ha.cols_eq.symm), ha.rows_eq, ha.cols_eq⟩

theorem HasShape.add {a b : Img α} {R C : Nat} (ha : HasShape a R C) (hb : HasShape b R C) : HasShape (a.add b) R C :=
  ⟨add_wf ha.wf hb.wf (hb.rows_eq.trans ha.rows_eq.symm) (hb.cols_eq.trans ha.cols_eq.symm), ha.rows_eq, ha.cols_eq⟩

theorem HasShape.map {a : Img α} {R C : Nat} (f : α → α) (ha : HasShape a R C) : HasShape (a.map f) R C :=
  ⟨map_wf f ha.wf, ha.rows_eq, ha.cols_eq⟩

theorem HasShape.ofFn (R C : Nat) (f : Nat → Nat → α) : HasShape (Img.ofFn R C f) R C := ⟨ofFn_wf R C f, rfl, rfl⟩

theorem HasShape.zeros (R C : Nat) : HasShape (Img.zeros R C : Img α) R C := ⟨by simp [WF, Img.zeros, vzeros], rfl, rfl⟩

theorem HasShape.sum (R C : Nat) (ims : List (Img α)) (h : ∀ im ∈ ims, HasShape im R C) : HasShape (Img.sum R C ims) R C := by
  refine ⟨?_, rfl, rfl⟩
  unfold WF Img.sum
  apply length_sumRows
  simp only [List.mem_map]
  rintro r ⟨im, him, rfl⟩
  exact (h im him).length

namespace EMD2D

theorem extract_shape {sbs : Surface α} {im : Img α} {R C : Nat} (h : HasShape im R C) {e : Img α × Img α}
    (he : extractMaxMinSpline sbs im = .ok e) : HasShape e.1 R C ∧ HasShape e.2 R C := by
  unfold extractMaxMinSpline splinePoints at he
  simp only [bind_eq_ok, pure_eq_ok] at he
  obtain ⟨_, _, _, ⟨_, _, rfl⟩, _, ⟨_, _, rfl⟩, rfl⟩ := he
  rw [h.rows_eq, h.cols_eq]
  exact ⟨.ofFn _ _ _, .ofFn _ _ _⟩

theorem sift_shape {sbs : Surface α} {cfg : Cfg2 α} {R C : Nat} : ∀ {k n nH : Nat} {imf m : Img α} {x : Img α × Bool},
    sift sbs cfg k n nH imf m = .ok x → HasShape imf R C → HasShape m R C → HasShape x.1 R C := by
  intro k
  induction k with
  | zero =>
    intro n nH imf m x h hi _
    simp only [sift, Except.ok.injEq] at h
    rw [← h]; exact hi
  | succ k ih =>
    intro n nH imf m x h hi hm
    simp only [sift, bind_eq_ok] at h
    obtain ⟨e, -, h⟩ := h
    split at h
    · obtain ⟨env, henv, h⟩ := bind_eq_ok.1 h
      have h1 := hi.sub hm
      obtain ⟨h2, h3⟩ := extract_shape h1 henv
      have h4 := (h2.add h3).map (fun x => lit (1 / 2) * x)
      have h5 := h1.sub h4
      split at h
      · split at h
        · cases h; exact h5
        · exact ih h h5 h4
      · split at h
        · split at h
          · exact ih h h5 h4
          · split at h <;> split at h <;> first | (cases h; exact h5) | exact ih h h5 h4
        · split at h
          · cases h; exact h5
          · exact ih h h5 h4
    · cases h; exact hi

theorem loop_ok {sbs : Surface α} {cfg : Cfg2 α} {image image_s : Img α} {maxImf : Int} {R C : Nat} (hi : HasShape image R C)
    (hs : HasShape image_s R C) : ∀ {fuel : Nat} {imfs out : List (Img α)}, loop sbs cfg image image_s maxImf fuel imfs = .ok out →
    (∀ im ∈ imfs, HasShape im R C) →
    (∀ im ∈ out, HasShape im R C) ∧ imfs.length < out.length ∧
      (0 < maxImf → (out.length : Int) ≤ max ((imfs.length : Int) + 1) maxImf) := by
  intro fuel
  induction fuel with
  | zero => intro imfs out h; simp [loop] at h
  | succ fuel ih =>
    intro imfs out h hall
    simp only [loop, bind_eq_ok] at h
    obtain ⟨r, hr, h⟩ := h
    have hsum := HasShape.sum R C imfs hall
    rw [hi.rows_eq, hi.cols_eq] at hr
    have hr' := sift_shape hr (hs.sub hsum) (.zeros R C)
    have hall' : ∀ im ∈ imfs ++ [r.1], HasShape im R C := by
      intro im him
      rcases List.mem_append.1 him with h1 | h1
      · exact hall im h1
      · rw [List.mem_singleton.1 h1]; exact hr'
    have hlen : (imfs ++ [r.1]).length = imfs.length + 1 := by simp
    split at h
    · cases h
      exact ⟨hall', by omega, fun _ => by omega⟩
    · rename_i hc
      split at h
      · obtain ⟨h1, h2, h3⟩ := ih h hall'
        refine ⟨h1, by omega, fun hm => ?_⟩
        have := h3 hm
        have : ¬ (maxImf ≤ ((imfs ++ [r.1]).length : Int)) := fun h' => hc (.inr ⟨hm, h'⟩)
        omega
      · cases h
        exact ⟨hall', by omega, fun _ => by omega⟩

theorem extract_noFuel {sbs : Surface α} (h : ∀ X Y Z, NoFuel (sbs X Y Z)) (im : Img α) : NoFuel (extractMaxMinSpline sbs im) := by
  have h' := fun X Y Z => h X Y Z
  unfold extractMaxMinSpline splinePoints findExtrema
  nofuel
  all_goals exact h' _ _ _

theorem sift_noFuel {sbs : Surface α} (h : ∀ X Y Z, NoFuel (sbs X Y Z)) (cfg : Cfg2 α) : ∀ (k n nH : Nat) (imf m : Img α),
    NoFuel (sift sbs cfg k n nH imf m) := by
  intro k
  induction k with
  | zero => intro n nH imf m; exact .ok _
  | succ k ih =>
    intro n nH imf m
    have he := extract_noFuel h
    simp only [sift]
    unfold findExtrema
    nofuel
    all_goals first | exact he _ | exact ih _ _ _ _

/-- With `max_imf = k ≥ 1` the outer loop ends within `k` rounds. -/
theorem loop_noFuel {sbs : Surface α} (h : ∀ X Y Z, NoFuel (sbs X Y Z)) (cfg : Cfg2 α) (image image_s : Img α) (maxImf : Int)
    (hm : 0 < maxImf) : ∀ (fuel : Nat) (imfs : List (Img α)), maxImf ≤ imfs.length + fuel → 0 < fuel →
    NoFuel (loop sbs cfg image image_s maxImf fuel imfs) := by
  intro fuel
  induction fuel with
  | zero => intro _ _ h0; omega
  | succ fuel ih =>
    intro imfs hf _
    simp only [loop]
    refine NoFuel.bind (sift_noFuel h _ _ _ _ _ _) (fun r _ => ?_)
    split
    · exact .ok _
    · rename_i hc
      split
      · have hlen : (imfs ++ [r.1]).length = imfs.length + 1 := by simp
        have : ¬ (maxImf ≤ ((imfs ++ [r.1]).length : Int)) := fun h' => hc (.inr ⟨hm, h'⟩)
        exact ih _ (by omega) (by omega)
      · exact .ok _

theorem length_addLast (offset : α) (l : List (Img α)) : (addLast offset l).length = l.length := by
  induction l with
  | nil => rfl
  | cons x xs ih =>
    match xs with
    | [] => rfl
    | y :: ys => simp only [addLast, List.length_cons] at *; omega

theorem addLast_shape (offset : α) (l : List (Img α)) (R C : Nat) (h : ∀ im ∈ l, HasShape im R C) :
    ∀ im ∈ addLast offset l, HasShape im R C := by
  induction l with
  | nil => simp [addLast]
  | cons x xs ih =>
    match xs with
    | [] =>
      simp only [addLast, List.mem_singleton]
      rintro im rfl
      exact (h x (by simp)).map _
    | y :: ys =>
      intro im him
      simp only [addLast, List.mem_cons] at him
      rcases him with rfl | him
      · exact h _ (by simp)
      · exact ih (fun im h' => h im (List.mem_cons_of_mem _ h')) im him

end EMD2D

namespace BEMD

theorem extract_shape {ext : Ext α} {im : Img α} {mn mx : List (Nat × Nat)} {e : Img α × Img α}
    (he : extractMaxMinSpline ext im mn mx = .ok e) : HasShape e.1 im.cols im.rows ∧ HasShape e.2 im.cols im.rows := by
  unfold extractMaxMinSpline splinePoints at he
  simp only [bind_eq_ok, pure_eq_ok] at he
  obtain ⟨_, _, _, _, _, ⟨_, _, rfl⟩, _, ⟨_, _, rfl⟩, rfl⟩ := he
  exact ⟨.ofFn _ _ _, .ofFn _ _ _⟩

theorem sift_shape {ext : Ext α} {cfg : Cfg2 α} {R C : Nat} : ∀ {k n nH : Nat} {imf x : Img α},
    sift ext cfg k n nH imf = .ok x → HasShape imf R C → HasShape x R C := by
  intro k
  induction k with
  | zero =>
    intro n nH imf x h hi
    simp only [sift, Except.ok.injEq] at h
    rw [← h]; exact hi
  | succ k ih =>
    intro n nH imf x h hi
    simp only [sift] at h
    split at h
    · obtain ⟨env, henv, h⟩ := bind_eq_ok.1 h
      obtain ⟨h2, h3⟩ := extract_shape henv
      have h4 := (h2.add h3).map (fun x => lit (1 / 2) * x)
      split at h
      · cases h
      · rename_i hsh
        have e1 := h4.rows_eq
        have e2 := h4.cols_eq
        have e3 := hi.rows_eq
        have e4 := hi.cols_eq
        have h4' : HasShape ((env.1.add env.2).map (fun x => lit (1 / 2) * x)) R C :=
          ⟨h4.wf, by omega, by omega⟩
        have h5 := hi.sub h4'
        split at h
        · split at h
          · cases h; exact h5
          · exact ih h h5
        · split at h
          · split at h
            · exact ih h h5
            · split at h <;> split at h <;> first | (cases h; exact h5) | exact ih h h5
          · split at h
            · cases h; exact h5
            · exact ih h h5
    · cases h; exact hi

theorem loop_ok {ext : Ext α} {cfg : Cfg2 α} {image : Img α} {maxImf : Int} {R C : Nat} (hi : HasShape image R C) :
    ∀ {fuel : Nat} {imfs out : List (Img α)}, loop ext cfg image maxImf fuel imfs = .ok out → (∀ im ∈ imfs, HasShape im R C) →
    (∀ im ∈ out, HasShape im R C) ∧ imfs.length < out.length ∧
      (0 < maxImf → (out.length : Int) ≤ max ((imfs.length : Int) + 1) maxImf) := by
  intro fuel
  induction fuel with
  | zero => intro imfs out h; simp [loop] at h
  | succ fuel ih =>
    intro imfs out h hall
    simp only [loop, bind_eq_ok] at h
    obtain ⟨r, hr, h⟩ := h
    have hsum := HasShape.sum R C imfs hall
    rw [hi.rows_eq, hi.cols_eq] at hr
    have hr' := sift_shape hr (hi.sub hsum)
    have hall' : ∀ im ∈ imfs ++ [r], HasShape im R C := by
      intro im him
      rcases List.mem_append.1 him with h1 | h1
      · exact hall im h1
      · rw [List.mem_singleton.1 h1]; exact hr'
    have hlen : (imfs ++ [r]).length = imfs.length + 1 := by simp
    split at h
    · cases h
      exact ⟨hall', by omega, fun _ => by omega⟩
    · rename_i hc
      obtain ⟨h1, h2, h3⟩ := ih h hall'
      refine ⟨h1, by omega, fun hm => ?_⟩
      have := h3 hm
      have : ¬ (maxImf ≤ ((imfs ++ [r]).length : Int)) := fun h' => hc (.inr ⟨hm, h'⟩)
      omega

theorem valuesAt_noFuel (im : Img α) (ps : List (Nat × Nat)) : NoFuel (valuesAt im ps) := by
  induction ps with
  | nil => exact .ok _
  | cons p ps ih => unfold valuesAt; nofuel

theorem extract_noFuel {ext : Ext α} (h : ∀ X Y Z, NoFuel (ext.rbf X Y Z)) (im : Img α) (a b : List (Nat × Nat)) :
    NoFuel (extractMaxMinSpline ext im a b) := by
  have h' := fun X Y Z => h X Y Z
  have hv := fun im ps => valuesAt_noFuel (α := α) im ps
  unfold extractMaxMinSpline splinePoints
  nofuel
  all_goals first | exact h' _ _ _ | exact hv _ _

theorem sift_noFuel {ext : Ext α} (h : ∀ X Y Z, NoFuel (ext.rbf X Y Z)) (cfg : Cfg2 α) : ∀ (k n nH : Nat) (imf : Img α),
    NoFuel (sift ext cfg k n nH imf) := by
  intro k
  induction k with
  | zero => intro n nH imf; exact .ok _
  | succ k ih =>
    intro n nH imf
    have he := extract_noFuel h
    simp only [sift]
    nofuel
    all_goals first | exact he _ _ _ | exact ih _ _ _

/-- With `max_imf = k ≥ 1` the outer loop ends within `k` rounds. -/
theorem loop_noFuel {ext : Ext α} (h : ∀ X Y Z, NoFuel (ext.rbf X Y Z)) (cfg : Cfg2 α) (image : Img α) (maxImf : Int)
    (hm : 0 < maxImf) : ∀ (fuel : Nat) (imfs : List (Img α)), maxImf ≤ imfs.length + fuel → 0 < fuel →
    NoFuel (loop ext cfg image maxImf fuel imfs) := by
  intro fuel
  induction fuel with
  | zero => intro _ _ h0; omega
  | succ fuel ih =>
    intro imfs hf _
    simp only [loop]
    refine NoFuel.bind (sift_noFuel h _ _ _ _ _) (fun r _ => ?_)
    split
    · exact .ok _
    · rename_i hc
      have hlen : (imfs ++ [r]).length = imfs.length + 1 := by simp
      have : ¬ (maxImf ≤ ((imfs ++ [r]).length : Int)) := fun h' => hc (.inr ⟨hm, h'⟩)
      exact ih _ (by omega) (by omega)

end BEMD
end Gen
end PyEMD
