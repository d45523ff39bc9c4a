import Verif.Lemmas.MemoryMore
import Verif.Lemmas.Matlab

/-!
# `EMD_matlab` with memory against the model without
-/

set_option linter.unusedSectionVars false

namespace PyEMD
namespace Mem
namespace Matlab
open PyEMD.Matlab

variable {α : Type} [Add α] [Sub α] [Mul α] [Div α] [Neg α] [LT α] [LE α] [BEq α]
  [DecidableLT α] [DecidableLE α] [NpScalar α]

/-- A dictionary of addresses holds the entries of a dictionary of arrays. -/
def Holds (h : Heap α) (d : List (Nat × Nat)) (p : List (Nat × List α)) : Prop :=
  List.Forall₂ (fun a b => a.1 = b.1 ∧ h.vecs[a.2]? = some b.2) d p

theorem Holds.mono {h h' : Heap α} {d : List (Nat × Nat)} {p : List (Nat × List α)} (hd : Holds h d p)
    (k : ∀ a ∈ d.map (·.2), ∀ v, h.vecs[a]? = some v → h'.vecs[a]? = some v) : Holds h' d p := by
  induction hd with
  | nil => exact .nil
  | cons hx _ ih =>
    exact .cons ⟨hx.1, k _ (by simp) _ hx.2⟩ (ih (fun a ha => k a (by simp only [List.map_cons, List.mem_cons]; exact .inr ha)))

theorem Holds.set {h : Heap α} {d : List (Nat × Nat)} {p : List (Nat × List α)} (hd : Holds h d p) (k a : Nat) {v : List α}
    (hv : h.vecs[a]? = some v) : Holds h (dictSet d k a) (dictSet p k v) := by
  induction hd with
  | nil => exact .cons ⟨rfl, hv⟩ .nil
  | @cons x y d p hx hd ih =>
    unfold dictSet
    rw [hx.1]
    split
    · exact .cons ⟨rfl, hv⟩ hd
    · exact .cons hx ih

theorem mem_dictSet {d : List (Nat × Nat)} {k a x : Nat} (hx : x ∈ (dictSet d k a).map (·.2)) : x ∈ d.map (·.2) ∨ x = a := by
  induction d with
  | nil => simp [dictSet] at hx; exact .inr hx
  | cons p d ih =>
    unfold dictSet at hx
    split at hx
    · simp only [List.map_cons, List.mem_cons] at hx ⊢
      rcases hx with rfl | hx
      · exact .inr rfl
      · exact .inl (.inr hx)
    · simp only [List.map_cons, List.mem_cons] at hx ⊢
      rcases hx with rfl | hx
      · exact .inl (.inl rfl)
      · rcases ih hx with h | h
        · exact .inl (.inr h)
        · exact .inr h

theorem nodup_dictSet {d : List (Nat × Nat)} {k a : Nat} (hd : (d.map (·.2)).Nodup) (ha : a ∉ d.map (·.2)) :
    ((dictSet d k a).map (·.2)).Nodup := by
  induction d with
  | nil => simp [dictSet]
  | cons p d ih =>
    simp only [List.map_cons, List.nodup_cons, List.mem_cons, not_or] at hd ha
    unfold dictSet
    split
    · simp only [List.map_cons, List.nodup_cons]
      exact ⟨ha.2, hd.2⟩
    · simp only [List.map_cons, List.nodup_cons]
      refine ⟨fun hx => ?_, ih hd.2 ha.2⟩
      rcases mem_dictSet hx with h | h
      · exact hd.1 h
      · exact ha.1 h.symm

theorem Holds.lookup {h : Heap α} {d : List (Nat × Nat)} {p : List (Nat × List α)} (hd : Holds h d p) (k : Nat) :
    (d.lookup k = none ∧ p.lookup k = none) ∨ ∃ a v, d.lookup k = some a ∧ p.lookup k = some v ∧ h.vecs[a]? = some v := by
  induction hd with
  | nil => exact .inl ⟨rfl, rfl⟩
  | @cons x y d p hx hd ih =>
    obtain ⟨x1, x2⟩ := x
    obtain ⟨y1, y2⟩ := y
    obtain ⟨h1, h2⟩ := hx
    dsimp only at h1 h2
    subst h1
    by_cases e : k == x1
    · right
      exact ⟨x2, y2, by simp [List.lookup, e], by simp [List.lookup, e], h2⟩
    · simpa [List.lookup, e] using ih

theorem gets_sim {h : Heap α} {d : List (Nat × Nat)} {p : List (Nat × List α)} (hd : Holds h d p) (ks : List Nat) :
    (∃ e, dictGets d ks = .error e ∧ dictGets p ks = .error e) ∨
    ∃ as vs, dictGets d ks = .ok as ∧ dictGets p ks = .ok vs ∧ readVecs as h = (.ok vs, h) := by
  induction ks with
  | nil => exact .inr ⟨[], [], rfl, rfl, rfl⟩
  | cons k ks ih =>
    unfold dictGets
    rcases hd.lookup k with ⟨h1, h2⟩ | ⟨a, v, h1, h2, h3⟩
    · rw [h1, h2]
      exact .inl ⟨_, rfl, rfl⟩
    · rw [h1, h2]
      rcases ih with ⟨e, h4, h5⟩ | ⟨as, vs, h4, h5, h6⟩
      · rw [h4, h5]
        exact .inl ⟨e, rfl, rfl⟩
      · rw [h4, h5]
        refine .inr ⟨a :: as, v :: vs, rfl, rfl, ?_⟩
        unfold readVecs
        rw [run_bind (readVec_eq h3), run_bind h6]
        rfl

/-- In-place scaling of distinct arrays. -/
theorem scaleAll_eq (scale : α) {n m : Nat} : ∀ {d : List (Nat × Nat)} {p : List (Nat × List α)} {h : Heap α}, Holds h d p →
    (d.map (·.2)).Nodup → (∀ a ∈ d.map (·.2), n ≤ a) →
    ∃ h', scaleAll scale d h = (.ok (), h') ∧ Keeps n m h h' ∧
      Holds h' d (p.map (fun q => (q.1, q.2.map (fun x => x * scale)))) ∧
      (∀ a, a ∉ d.map (·.2) → h'.vecs[a]? = h.vecs[a]?) ∧ h'.vecs.length = h.vecs.length ∧ h'.mats = h.mats := by
  intro d
  induction d with
  | nil =>
    intro p h hd _ _
    cases hd
    exact ⟨h, rfl, Keeps.refl, .nil, fun _ _ => rfl, rfl, rfl⟩
  | cons x d ih =>
    intro p h hd hn hb
    cases hd with
    | @cons _ y _ p hx hd =>
      simp only [List.map_cons, List.nodup_cons] at hn
      have hd' : Holds { h with vecs := h.vecs.set x.2 (y.2.map (fun x => x * scale)) } d p := by
        refine Holds.mono (h := h) hd (fun a ha v hv => ?_)
        dsimp only
        rw [List.getElem?_set_ne (by rintro rfl; exact hn.1 ha)]; exact hv
      obtain ⟨h', e1, e2, e3, e4, e5, e6⟩ := ih hd' hn.2 (fun a ha => hb a (by simp only [List.map_cons, List.mem_cons]; exact .inr ha))
      refine ⟨h', ?_, (keeps_set _ (hb _ (by simp))).trans e2, .cons ⟨hx.1, ?_⟩ e3, fun a ha => ?_, ?_, e6⟩
      · unfold scaleAll
        refine (run_bind (readVec_eq hx.2)).trans ?_
        exact (run_bind (prog := writeVec x.2 (y.2.map (fun x => x * scale))) (f := fun _ => scaleAll scale d) rfl).trans e1
      · rw [e4 _ hn.1]
        exact List.getElem?_set_self (lt_of_cell hx.2)
      · simp only [List.map_cons, List.mem_cons, not_or] at ha
        rw [e4 a ha.2]
        exact List.getElem?_set_ne (fun e => ha.1 e.symm)
      · rw [e5]; simp

/-- Variables of the outer loop with and without memory; `n` separates what existed before the call. -/
structure Rel (n T scaledS Res : Nat) (t ss : List α) (st : State) (p : PyEMD.Matlab.State α) (h : Heap α) : Prop where
  time : h.vecs[T]? = some t
  sig : h.vecs[scaledS]? = some ss
  resA : st.Res = Res
  res : h.vecs[Res]? = some p.Res
  imf : h.vecs[st.imf]? = some p.imf
  dict : Holds h st.IMF p.IMF
  nodup : (st.IMF.map (·.2)).Nodup
  fresh : ∀ a ∈ st.IMF.map (·.2), n ≤ a ∧ a ≠ Res ∧ a ≠ scaledS ∧ a < h.vecs.length
  ext : st.EXT = p.EXT
  iter : st.ITER = p.ITER
  no : st.imfNo = p.imfNo
  extNo : st.extNo = p.extNo
  ends : st.ends = p.ends

theorem emdRound_sim {sp : SciPy α} {cfg : Cfg α} {n m T scaledS Res N : Nat} {t ss : List α} {maxImf : Int} {st : State}
    {p : PyEMD.Matlab.State α} {h : Heap α} (hr : Rel n T scaledS Res t ss st p h) (hn : n ≤ Res) (hT : T ≠ Res) (hs : scaledS ≠ Res) :
    Sim n m h (PyEMD.Matlab.emdRound sp cfg t N maxImf p) (emdRound sp cfg T N maxImf st h)
      (fun b c h' => Rel n T scaledS Res t ss b.1 c.1 h' ∧ b.2 = c.2) := by
  obtain ⟨r1, r2, rfl, r3, r4, r5, r6, r7, r8, r9, r10, r11, r12⟩ := hr
  have hRl := lt_of_cell r3
  have hsl := lt_of_cell r2
  unfold emdRound PyEMD.Matlab.emdRound
  refine Sim.step (readVec_eq r3) Keeps.refl ?_
  refine Sim.step (readVec_eq r4) Keeps.refl ?_
  by_cases hc : p.imf.length ≠ p.Res.length
  · rw [if_pos hc, if_pos hc]
    exact ⟨Keeps.refl, rfl⟩
  rw [if_neg hc, if_neg hc]
  generalize vsub p.Res p.imf = v0
  refine Sim.step (b := ()) rfl (keeps_set v0 hn) ?_
  have hne : ∀ {a : Nat} {v : List α}, h.vecs[a]? = some v → a ≠ st.Res → (h.vecs.set st.Res v0)[a]? = some v := by
    intro a v e ha
    rw [List.getElem?_set_ne (Ne.symm ha)]; exact e
  have e1 : (h.vecs.set st.Res v0)[st.Res]? = some v0 := List.getElem?_set_self hRl
  refine Sim.step (copyVec_eq (h := { h with vecs := h.vecs.set st.Res v0 }) e1) (keeps_newVec _ (by simp; omega)) ?_
  have hone : ∀ {a : Nat} {v : List α}, (h.vecs.set st.Res v0)[a]? = some v → (h.vecs.set st.Res v0 ++ [v0])[a]? = some v :=
    fun e => newVec_at (h := { h with vecs := h.vecs.set st.Res v0 }) v0 e
  have e2 : (h.vecs.set st.Res v0 ++ [v0])[(h.vecs.set st.Res v0).length]? = some v0 := by simp
  refine Sim.step (readVec_eq (h := { h with vecs := h.vecs.set st.Res v0 ++ [v0] }) (hone (hne r1 hT))) Keeps.refl ?_
  refine Sim.step (readVec_eq (h := { h with vecs := h.vecs.set st.Res v0 ++ [v0] }) e2) Keeps.refl ?_
  rw [r11]
  refine Sim.pyBind (fun c hc' => ?_)
  obtain ⟨s, why⟩ := c
  dsimp only
  generalize hV : h.vecs.set st.Res v0 ++ [v0] = V at *
  have hVl : V.length = h.vecs.length + 1 := by rw [← hV]; simp
  have two : ∀ {a : Nat} {v : List α}, V[a]? = some v → (V ++ [s.imf] ++ [s.imf])[a]? = some v := by
    intro a v e
    have := lt_of_cell e
    rw [List.append_assoc, List.getElem?_append_left this]; exact e
  refine Sim.step (b := V.length) (h' := { h with vecs := V ++ [s.imf] }) rfl (keeps_newVec (h := { h with vecs := V }) _ (by dsimp only; omega)) ?_
  have e3 : (V ++ [s.imf])[V.length]? = some s.imf := by simp
  refine Sim.step (copyVec_eq (h := { h with vecs := V ++ [s.imf] }) e3)
    (keeps_newVec (h := { h with vecs := V ++ [s.imf] }) _ (by simp; omega)) ?_
  have e4 : (V ++ [s.imf] ++ [s.imf])[(V ++ [s.imf]).length]? = some s.imf := by simp
  have hnot : (V ++ [s.imf]).length ∉ st.IMF.map (·.2) := by
    intro hx
    have := (r7 _ hx).2.2.2
    simp at this; omega
  refine Sim.pure ⟨⟨two (hone (hne r1 hT)), two (hone (hne r2 hs)), rfl, two (hone e1), ?_, ?_, nodup_dictSet r6 hnot, ?_, ?_, ?_, ?_, rfl, ?_⟩, ?_⟩
  · dsimp only
    rw [List.getElem?_append_left (by simp)]; exact e3
  · dsimp only
    rw [r10]
    refine Holds.set (r5.mono (fun a ha v hv => ?_)) _ _ e4
    exact two (hone (hne hv (r7 a ha).2.1))
  · intro a ha
    dsimp only at ha ⊢
    rcases mem_dictSet ha with ha | rfl
    · obtain ⟨q1, q2, q3, q4⟩ := r7 a ha
      exact ⟨q1, q2, q3, by simp; omega⟩
    · refine ⟨?_, ?_, ?_, ?_⟩ <;> simp <;> omega
  · dsimp only; rw [r8, r10]
  · dsimp only; rw [r9, r10]
  · dsimp only; rw [r10]
  · dsimp only; rw [r12]
  · dsimp only; rw [r10]

theorem emdLoop_sim {sp : SciPy α} {cfg : Cfg α} {n m T scaledS Res N : Nat} {t ss : List α} {maxImf : Int} (hn : n ≤ Res) (hT : T ≠ Res)
    (hs : scaledS ≠ Res) (fuel : Nat) {st : State} {p : PyEMD.Matlab.State α} {h : Heap α} (hr : Rel n T scaledS Res t ss st p h) :
    Sim n m h (PyEMD.Matlab.emdLoop sp cfg t N maxImf fuel p) (emdLoop sp cfg T N maxImf fuel st h)
      (fun b c h' => Rel n T scaledS Res t ss b c h') := by
  induction fuel generalizing st p h with
  | zero => exact ⟨Keeps.refl, rfl⟩
  | succ fuel ih =>
    unfold emdLoop PyEMD.Matlab.emdLoop
    refine Sim.bind (emdRound_sim hr hn hT hs) (fun b c h1 k1 hr1 => ?_)
    obtain ⟨st1, fin⟩ := b
    obtain ⟨p1, fin'⟩ := c
    obtain ⟨hr1, e⟩ := hr1
    dsimp only at hr1 e ⊢
    subst e
    by_cases hf : fin = true
    · rw [if_pos hf, if_pos hf]
      exact Sim.pure hr1
    · rw [if_neg hf, if_neg hf]
      exact ih hr1

theorem finish_sim {n m T scaledS Res : Nat} {t ss : List α} {scale : α} {st : State} {p : PyEMD.Matlab.State α} {h : Heap α}
    (hr : Rel n T scaledS Res t ss st p h) (hn : n ≤ h.vecs.length) :
    Sim n m h (PyEMD.Matlab.finish ss scale p) (finish scaledS scale st h)
      (fun b c h' => Holds h' b.IMF c.IMF ∧ (b.IMF.map (·.2)).Nodup ∧ (∀ a ∈ b.IMF.map (·.2), n ≤ a) ∧
        b.EXT = c.EXT ∧ b.ITER = c.ITER ∧ b.imfNo = c.imfNo ∧ b.ends = c.ends) := by
  obtain ⟨r1, r2, rfl, r3, r4, r5, r6, r7, r8, r9, r10, r11, r12⟩ := hr
  unfold finish PyEMD.Matlab.finish
  refine Sim.step (readVec_eq r2) Keeps.refl ?_
  rw [r10]
  rcases gets_sim r5 (List.range p.imfNo) with ⟨e, h1, h2⟩ | ⟨as, vs, h1, h2, h3⟩
  · rw [h1, h2]
    exact ⟨Keeps.refl, rfl⟩
  rw [h1, h2]
  refine Sim.step (b := as) rfl Keeps.refl ?_
  refine Sim.step h3 Keeps.refl ?_
  change Sim n m h (if vs.all (fun r => decide (r.length = ss.length)) then _ else _) _ _
  by_cases hc : vs.all (fun r => decide (r.length = ss.length)) = true
  swap
  · rw [if_neg hc, if_neg hc]
    exact ⟨Keeps.refl, rfl⟩
  rw [if_pos hc, if_pos hc]
  generalize vsub ss (sumRows ss.length vs) = v0
  refine Sim.step (b := h.vecs.length) rfl (keeps_newVec v0 hn) ?_
  have e1 : (h.vecs ++ [v0])[h.vecs.length]? = some v0 := by simp
  refine Sim.step (readVec_eq (h := { h with vecs := h.vecs ++ [v0] }) e1) Keeps.refl ?_
  generalize hmore : decide (lit (1 / 10000000000) < npSum (v0.map pyAbs)) = more
  have hd : Holds { h with vecs := h.vecs ++ [v0] } st.IMF p.IMF := r5.mono (fun a _ v hv => newVec_at v0 hv)
  have hnot : h.vecs.length ∉ st.IMF.map (·.2) := fun hx => by
    have := (r7 _ hx).2.2.2; omega
  have key : Holds { h with vecs := h.vecs ++ [v0] } (if more then dictSet st.IMF p.imfNo h.vecs.length else st.IMF)
        (if more then dictSet p.IMF p.imfNo v0 else p.IMF) ∧
      ((if more then dictSet st.IMF p.imfNo h.vecs.length else st.IMF).map (·.2)).Nodup ∧
      ∀ a ∈ (if more then dictSet st.IMF p.imfNo h.vecs.length else st.IMF).map (·.2), n ≤ a := by
    cases more with
    | false => exact ⟨hd, r6, fun a ha => (r7 a ha).1⟩
    | true =>
      refine ⟨hd.set _ _ e1, nodup_dictSet r6 hnot, fun a ha => ?_⟩
      rcases mem_dictSet ha with ha | rfl
      · exact (r7 a ha).1
      · exact hn
  obtain ⟨k1, k2, k3⟩ := key
  generalize (if more then dictSet st.IMF p.imfNo h.vecs.length else st.IMF) = D at *
  generalize (if more then dictSet p.IMF p.imfNo v0 else p.IMF) = P at *
  obtain ⟨h', s1, s2, s3, -⟩ := scaleAll_eq scale (m := m) k1 k2 k3
  refine Sim.step s1 s2 ?_
  exact Sim.pure ⟨s3, k2, k3, by rw [r8, r11], by rw [r9], rfl, r12⟩

theorem emd_sim {fuel : Nat} {sp : SciPy α} {cfg : Cfg α} {S : Nat} {T : Option Nat} {maxImf : Int} {s : List α} {h : Heap α}
    (hS : h.vecs[S]? = some s) (hT : ∀ a, T = some a → a < h.vecs.length) :
    Sim h.vecs.length h.mats.length h (PyEMD.Matlab.emd fuel sp cfg s (T.map (fun a => h.vecs[a]?.getD [])) maxImf)
      (emd fuel sp cfg S T maxImf h)
      (fun b c h' => Holds h' b.IMF c.IMF ∧ (b.IMF.map (·.2)).Nodup ∧ (∀ a ∈ b.IMF.map (·.2), h.vecs.length ≤ a) ∧
        b.EXT = c.EXT ∧ b.ITER = c.ITER ∧ b.imfNo = c.imfNo ∧ b.ends = c.ends) := by
  -- the time array, new or the caller's
  have main : ∀ (V : List (List α)) (tA : Nat) (t : List α), h.vecs.length ≤ V.length → tA < V.length → V[tA]? = some t → V[S]? = some s →
      Sim h.vecs.length h.mats.length { h with vecs := V }
        (if s.length ≠ t.length then .error .valueError else
          PyEMD.Matlab.emdLoop sp cfg t s.length maxImf fuel
            { Res := s.map (fun x => x / lit 1), imf := vzeros s.length, IMF := [], EXT := [], ITER := [], imfNo := 0, extNo := 0, ends := [] } >>=
          PyEMD.Matlab.finish (s.map (fun x => x / lit 1)) (lit 1))
        ((do
          let res0 ← copyVec S
          let scale : α := lit 1
          let Res ← newVec ((← readVec res0).map (fun x => x / scale))
          let scaledS ← newVec ((← readVec S).map (fun x => x / scale))
          let imf ← newVec (vzeros s.length)
          if s.length ≠ (← readVec tA).length then py (.error .valueError)
          else
            let st ← emdLoop sp cfg tA s.length maxImf fuel { Res, imf, IMF := [], EXT := [], ITER := [], imfNo := 0, extNo := 0, ends := [] }
            finish scaledS scale st : MemM α Result) { h with vecs := V })
        (fun b c h' => Holds h' b.IMF c.IMF ∧ (b.IMF.map (·.2)).Nodup ∧ (∀ a ∈ b.IMF.map (·.2), h.vecs.length ≤ a) ∧
          b.EXT = c.EXT ∧ b.ITER = c.ITER ∧ b.imfNo = c.imfNo ∧ b.ends = c.ends) := by
    intro V tA t hV htA ht hs
    have hSl := lt_of_cell hs
    generalize hq : s.map (fun x => x / lit 1) = q
    refine Sim.step (copyVec_eq (h := { h with vecs := V }) hs) (keeps_newVec (h := { h with vecs := V }) _ hV) ?_
    have e1 : (V ++ [s])[V.length]? = some s := by simp
    refine Sim.step (readVec_eq (h := { h with vecs := V ++ [s] }) e1) Keeps.refl ?_
    rw [hq]
    refine Sim.step (b := (V ++ [s]).length) (h' := { h with vecs := V ++ [s] ++ [q] }) rfl
      (keeps_newVec (h := { h with vecs := V ++ [s] }) _ (by simp; omega)) ?_
    have e2 : (V ++ [s] ++ [q])[S]? = some s := by
      rw [List.append_assoc, List.getElem?_append_left hSl]; exact hs
    refine Sim.step (readVec_eq (h := { h with vecs := V ++ [s] ++ [q] }) e2) Keeps.refl ?_
    rw [hq]
    refine Sim.step (b := (V ++ [s] ++ [q]).length) (h' := { h with vecs := V ++ [s] ++ [q] ++ [q] }) rfl
      (keeps_newVec (h := { h with vecs := V ++ [s] ++ [q] }) _ (by simp; omega)) ?_
    refine Sim.step (b := (V ++ [s] ++ [q] ++ [q]).length) (h' := { h with vecs := V ++ [s] ++ [q] ++ [q] ++ [vzeros s.length] }) rfl
      (keeps_newVec (h := { h with vecs := V ++ [s] ++ [q] ++ [q] }) _ (by simp; omega)) ?_
    have e3 : (V ++ [s] ++ [q] ++ [q] ++ [vzeros s.length])[tA]? = some t := by
      simp only [List.append_assoc]
      rw [List.getElem?_append_left htA]; exact ht
    refine Sim.step (readVec_eq (h := { h with vecs := V ++ [s] ++ [q] ++ [q] ++ [vzeros s.length] }) e3) Keeps.refl ?_
    by_cases hc : s.length ≠ t.length
    · rw [if_pos hc, if_pos hc]
      exact ⟨Keeps.refl, rfl⟩
    rw [if_neg hc, if_neg hc]
    have hrel : Rel h.vecs.length tA (V ++ [s] ++ [q]).length (V ++ [s]).length t q
        { Res := (V ++ [s]).length, imf := (V ++ [s] ++ [q] ++ [q]).length, IMF := [], EXT := [], ITER := [], imfNo := 0, extNo := 0, ends := [] }
        { Res := q, imf := vzeros s.length, IMF := [], EXT := [], ITER := [], imfNo := 0, extNo := 0, ends := [] }
        { h with vecs := V ++ [s] ++ [q] ++ [q] ++ [vzeros s.length] } := by
      refine ⟨e3, ?_, rfl, ?_, ?_, .nil, by simp, by simp, rfl, rfl, rfl, rfl, rfl⟩ <;> simp
    refine Sim.bind (emdLoop_sim (by simp; omega) (by simp; omega) (by simp) fuel hrel) (fun b c h1 k1 hr1 => ?_)
    have hl := k1.2.2.1
    exact finish_sim hr1 (by simp at hl; omega)
  have hL := lt_of_cell hS
  unfold emd PyEMD.Matlab.emd
  refine Sim.step (readVec_eq hS) Keeps.refl ?_
  cases T with
  | none =>
    refine Sim.step (b := h.vecs.length) (h' := { h with vecs := h.vecs ++ [(List.range s.length).map (fun k : Nat => lit (k : ℚ))] }) rfl
      (keeps_newVec _ le_rfl) ?_
    exact main _ _ _ (by simp) (by simp) (by simp) (newVec_at _ hS)
  | some a =>
    have ha := hT a rfl
    refine Sim.step (b := a) (h' := h) rfl Keeps.refl ?_
    have : h.vecs[a]? = some (h.vecs[a]?.getD []) := by rw [List.getElem?_eq_getElem ha]; rfl
    exact main h.vecs a _ le_rfl ha this hS

end Matlab
end Mem
end PyEMD
