import Verif.Props.Memory
import Verif.Props.Eemd

/-!
# Property C116: `EEMD` and arrays in memory
-/

set_option linter.unusedSectionVars false

namespace PyEMD
namespace Mem
namespace EEMD
open Spec
open PyEMD.EEMD (Cfg Dict NoiseKind generateNoise meanRows renameTrend)

section
variable {α ρ : Type} [Add α] [Sub α] [Mul α] [Div α] [Neg α] [LT α] [LE α] [BEq α]
  [DecidableLT α] [DecidableLE α] [NpScalar α]

theorem Untouched.rfl' {h : Heap α} : Untouched h h := ⟨fun _ _ e => e, fun _ _ e => e⟩

theorem Untouched.trans' {h h' h'' : Heap α} (a : Untouched h h') (b : Untouched h' h'') : Untouched h h'' :=
  ⟨fun x v e => b.1 x v (a.1 x v e), fun x v e => b.2 x v (a.2 x v e)⟩

theorem untouched_vec (h : Heap α) (v : List α) : Untouched h { h with vecs := h.vecs ++ [v] } :=
  ⟨fun a w e => by
    have := lt_of_cell e
    dsimp only
    rw [List.getElem?_append_left this]; exact e, fun _ _ e => e⟩

theorem untouched_mat (h : Heap α) (m : List (List α)) : Untouched h { h with mats := h.mats ++ [m] } :=
  ⟨fun _ _ e => e, fun a w e => by
    have := lt_of_cell e
    dsimp only
    rw [List.getElem?_append_left this]; exact e⟩

theorem Untouched.vec {h h' : Heap α} (u : Untouched h h') {a : Nat} (ha : a < h.vecs.length) :
    h'.vecs[a]? = h.vecs[a]? := by
  rw [List.getElem?_eq_getElem ha]; exact u.1 a _ (List.getElem?_eq_getElem ha)

theorem Untouched.mat {h h' : Heap α} (u : Untouched h h') {a : Nat} (ha : a < h.mats.length) :
    h'.mats[a]? = h.mats[a]? := by
  rw [List.getElem?_eq_getElem ha]; exact u.2 a _ (List.getElem?_eq_getElem ha)

theorem Untouched.vec_lt {h h' : Heap α} (u : Untouched h h') {a : Nat} (ha : a < h.vecs.length) : a < h'.vecs.length :=
  lt_of_cell (u.1 a _ (List.getElem?_eq_getElem ha))

theorem Untouched.mat_lt {h h' : Heap α} (u : Untouched h h') {a : Nat} (ha : a < h.mats.length) : a < h'.mats.length :=
  lt_of_cell (u.2 a _ (List.getElem?_eq_getElem ha))

theorem Untouched.valid {h h' : Heap α} (u : Untouched h h') {o : Mem.Obj α} (v : Valid h o) : Valid h' o :=
  ⟨fun a e => Untouched.mat_lt u (v.1 a e), fun a e => Untouched.vec_lt u (v.2 a e)⟩

theorem Untouched.shown {h h' : Heap α} (u : Untouched h h') {o : Mem.Obj α} (v : Valid h o) :
    Spec.shown h' o = Spec.shown h o := by
  unfold Spec.shown
  congr 1
  · cases hi : o.imfs with
    | none => rfl
    | some a => simp [Untouched.mat u (v.1 a hi)]
  · cases hi : o.residue with
    | none => rfl
    | some a => simp [Untouched.vec u (v.2 a hi)]

theorem Untouched.validRow {h h' : Heap α} (u : Untouched h h') {r : RowRef} (v : ValidRow h r) : ValidRow h' r := by
  cases r with
  | row a i => exact Untouched.mat_lt u v
  | vec a => exact Untouched.vec_lt u v

theorem Untouched.read {h h' : Heap α} (u : Untouched h h') {r : RowRef} (v : ValidRow h r) : r.read h' = r.read h := by
  cases r with
  | row a i => simp only [RowRef.read]; rw [Untouched.mat u v]
  | vec a => simp only [RowRef.read]; rw [Untouched.vec u v]

/-- The values behind the references of a dictionary. -/
def readDict (h : Heap α) (d : Dict (List RowRef)) : Dict (List (List α)) := d.map (fun p => (p.1, p.2.map (RowRef.read h)))

def ValidDict (h : Heap α) (d : Dict (List RowRef)) : Prop := ∀ p ∈ d, ∀ r ∈ p.2, ValidRow h r

theorem Untouched.dict {h h' : Heap α} (u : Untouched h h') {d : Dict (List RowRef)} (v : ValidDict h d) :
    readDict h' d = readDict h d := by
  unfold readDict
  refine List.map_congr_left (fun p hp => ?_)
  rw [List.map_congr_left (fun r hr => Untouched.read u (v p hp r hr))]

theorem Untouched.validDict {h h' : Heap α} (u : Untouched h h') {d : Dict (List RowRef)} (v : ValidDict h d) :
    ValidDict h' d := fun p hp r hr => Untouched.validRow u (v p hp r hr)

theorem readDict_append (h : Heap α) (d : Dict (List RowRef)) (k : Int) (r : RowRef) :
    readDict h (d.append k r) = (readDict h d).append k (r.read h) := by
  induction d with
  | nil => rfl
  | cons p d ih =>
    obtain ⟨k', v⟩ := p
    simp only [Dict.append, readDict, List.map_cons] at ih ⊢
    by_cases hk : k' = k
    · rw [if_pos hk, if_pos hk]; simp
    · rw [if_neg hk, if_neg hk, List.map_cons, ih]

theorem validDict_append {h : Heap α} {d : Dict (List RowRef)} (v : ValidDict h d) {k : Int} {r : RowRef}
    (hr : ValidRow h r) : ValidDict h (d.append k r) := by
  induction d with
  | nil =>
    intro p hp x hx
    simp only [Dict.append, List.mem_singleton] at hp
    subst hp
    simp only [List.mem_singleton] at hx
    subst hx; exact hr
  | cons p d ih =>
    obtain ⟨k', w⟩ := p
    have v1 := fun x hx => v (k', w) List.mem_cons_self x hx
    have v2 : ValidDict h d := fun q hq => v q (List.mem_cons_of_mem _ hq)
    intro q hq x hx
    simp only [Dict.append] at hq
    by_cases hk : k' = k
    · rw [if_pos hk] at hq
      rcases List.mem_cons.1 hq with rfl | hq
      · rcases List.mem_append.1 hx with hx | hx
        · exact v1 x hx
        · rw [List.mem_singleton] at hx; subst hx; exact hr
      · exact v2 q hq x hx
    · rw [if_neg hk] at hq
      rcases List.mem_cons.1 hq with rfl | hq
      · exact v1 x hx
      · exact ih v2 q hq x hx

theorem addImfs_read (h : Heap α) (a : Nat) (m : List (List α)) (hm : h.mats[a]? = some m) (k : Nat) (d : Dict (List RowRef))
    (i : Nat) (hk : i + k ≤ m.length) (v : ValidDict h d) :
    readDict h (addImfs a d i k) = PyEMD.EEMD.addImfs (readDict h d) i ((m.drop i).take k) ∧
    ValidDict h (addImfs a d i k) := by
  induction k generalizing d i with
  | zero => exact ⟨by simp [addImfs, PyEMD.EEMD.addImfs], v⟩
  | succ k ih =>
    have hi : i < m.length := by omega
    have hv : ValidRow h (.row a i) := lt_of_cell hm
    obtain ⟨i1, i2⟩ := ih (d.append i (.row a i)) (i + 1) (by omega) (validDict_append v hv)
    refine ⟨?_, i2⟩
    rw [addImfs, i1, readDict_append, List.drop_eq_getElem_cons hi, List.take_succ_cons]
    simp [PyEMD.EEMD.addImfs, RowRef.read, hm, hi]

/-- A trial result with and without memory. -/
def TrialRel (h : Heap α) (r : MatRef × Option Nat) (p : List (List α) × Option (List α)) : Prop :=
  (∃ m, h.mats[r.1.addr]? = some m ∧ r.1.rows ≤ m.length ∧ m.take r.1.rows = p.1) ∧
  p.2 = r.2.map (fun a => h.vecs[a]?.getD []) ∧ (∀ a, r.2 = some a → a < h.vecs.length)

theorem addTrial_read {h : Heap α} {d : Dict (List RowRef)} {r : MatRef × Option Nat}
    {p : List (List α) × Option (List α)} (hr : TrialRel h r p) (v : ValidDict h d) :
    readDict h (addTrial d r) = PyEMD.EEMD.addTrial (readDict h d) p ∧ ValidDict h (addTrial d r) := by
  obtain ⟨⟨m, hm, hk, ht⟩, h2, h3⟩ := hr
  obtain ⟨ref, t⟩ := r
  obtain ⟨rows, tr⟩ := p
  dsimp only at hm hk ht h2 h3
  subst ht h2
  cases t with
  | none =>
    obtain ⟨a1, a2⟩ := addImfs_read h ref.addr m hm ref.rows d 0 (by omega) v
    refine ⟨?_, a2⟩
    simpa [addTrial, PyEMD.EEMD.addTrial] using a1
  | some t =>
    have hv : ValidRow h (.vec t) := h3 t rfl
    obtain ⟨a1, a2⟩ := addImfs_read h ref.addr m hm ref.rows (d.append (-1) (.vec t)) 0 (by omega) (validDict_append v hv)
    refine ⟨?_, a2⟩
    rw [readDict_append] at a1
    simpa [addTrial, PyEMD.EEMD.addTrial, RowRef.read] using a1

/-- Agreement of a computation with memory and one without. -/
def Agree {β γ : Type} (R : β → γ → Prop) (x : PyM β) (y : PyM γ) : Prop :=
  match x, y with
  | .ok b, .ok c => R b c
  | .error e, .error e' => e = e'
  | _, _ => False

theorem separate_rel {o : Mem.Obj α} {h : Heap α} (v : Valid h o) :
    Untouched h (separate o h).2 ∧
    Agree (TrialRel (separate o h).2) (separate o h).1
      (match (shown h o).getImfsAndTrend with
        | .error e => .error e
        | .ok (imfs, trend) => .ok (imfs, some trend)) := by
  obtain ⟨cfg, oi, od⟩ := o
  cases oi with
  | none => exact ⟨Untouched.rfl', rfl⟩
  | some i =>
    cases od with
    | none => exact ⟨Untouched.rfl', rfl⟩
    | some d =>
      have hi : i < h.mats.length := v.1 i rfl
      have hd : d < h.vecs.length := v.2 d rfl
      obtain ⟨m, hm⟩ : ∃ m, h.mats[i]? = some m := ⟨_, List.getElem?_eq_getElem hi⟩
      obtain ⟨r, hr⟩ : ∃ r, h.vecs[d]? = some r := ⟨_, List.getElem?_eq_getElem hd⟩
      have e0 : Mem.Obj.getImfsAndResidue { cfg, imfs := some i, residue := some d } h = (.ok (i, d), h) := rfl
      have es : shown h { cfg, imfs := some i, residue := some d } = { cfg, imfs := some m, residue := some r } := by
        simp [shown, hm, hr]
      rw [es]
      by_cases hz : allclose0 r = true
      · have ep : EMD.Obj.getImfsAndTrend { cfg, imfs := some m, residue := some r } =
            (do let last ← pyGet m (-1); return (m.dropLast, last)) := by
          simp [EMD.Obj.getImfsAndTrend, EMD.Obj.getImfsAndResidue, hz, bind, Except.bind, pure, Except.pure]
        have eg : Mem.Obj.getImfsAndTrend { cfg, imfs := some i, residue := some d } h =
            (match pyGet m (-1) with
              | .error e => (.error e, h)
              | .ok last => (.ok (h.mats.length, h.vecs.length),
                  { vecs := h.vecs ++ [last], mats := h.mats ++ [m.dropLast] })) := by
          unfold Mem.Obj.getImfsAndTrend
          refine (run_bind e0).trans ?_
          refine (run_bind (readVec_eq hr)).trans ?_
          refine (congrFun (if_pos hz) h).trans ?_
          refine (run_bind (readMat_eq hm)).trans ?_
          cases pyGet m (-1) <;> rfl
        unfold separate
        rw [eg, ep]
        cases hg : pyGet m (-1) with
        | error e => exact ⟨Untouched.rfl', rfl⟩
        | ok last =>
          refine ⟨Untouched.trans' (untouched_vec h last) (untouched_mat _ m.dropLast), ?_⟩
          refine ⟨⟨m.dropLast, by simp, by simp, by simp⟩, by simp, fun a ha => ?_⟩
          dsimp only at ha
          cases ha; simp
      · have ep : EMD.Obj.getImfsAndTrend { cfg, imfs := some m, residue := some r } = .ok (m, r) := by
          simp [EMD.Obj.getImfsAndTrend, EMD.Obj.getImfsAndResidue, hz, bind, Except.bind, pure, Except.pure]
        have eg : Mem.Obj.getImfsAndTrend { cfg, imfs := some i, residue := some d } h = (.ok (i, d), h) := by
          unfold Mem.Obj.getImfsAndTrend
          refine (run_bind e0).trans ?_
          refine (run_bind (readVec_eq hr)).trans ?_
          exact congrFun (if_neg hz) h
        unfold separate
        rw [eg, ep]
        refine ⟨Untouched.rfl', ⟨m, hm, by simp [hm], by simp [hm]⟩, by simp [hr], fun a ha => ?_⟩
        dsimp only at ha
        cases ha; exact hd

theorem trialUpdate_rel {rng : Rng α ρ} {fuel : Nat} {sp : SciPy α} {cfg : Cfg α} {job : Job α} {st : TrialState α ρ}
    {h : Heap α} {s t : List α} (hS : h.vecs[job.S]? = some s) (hT : h.vecs[job.T]? = some t) (v : Valid h st.emd) :
    Untouched h (trialUpdate rng fuel sp cfg job st h).2.2 ∧
    Valid (trialUpdate rng fuel sp cfg job st h).2.2 (trialUpdate rng fuel sp cfg job st h).2.1.emd ∧
    (PyEMD.EEMD.trialUpdate rng fuel sp cfg { S := s, T := t, scale := job.scale, maxImf := job.maxImf }
        { random := st.random, emd := shown h st.emd }).2 =
      { random := (trialUpdate rng fuel sp cfg job st h).2.1.random,
        emd := shown (trialUpdate rng fuel sp cfg job st h).2.2 (trialUpdate rng fuel sp cfg job st h).2.1.emd } ∧
    Agree (TrialRel (trialUpdate rng fuel sp cfg job st h).2.2) (trialUpdate rng fuel sp cfg job st h).1
      (PyEMD.EEMD.trialUpdate rng fuel sp cfg { S := s, T := t, scale := job.scale, maxImf := job.maxImf }
        { random := st.random, emd := shown h st.emd }).1 := by
  unfold trialUpdate PyEMD.EEMD.trialUpdate
  rw [hS, Option.getD_some]
  cases hg : generateNoise rng cfg.noiseKind st.random job.scale s.length with
  | mk x r =>
    cases x with
    | error e => exact ⟨Untouched.rfl', v, rfl, rfl⟩
    | ok noise =>
      dsimp only
      have u1 := untouched_vec h (vadd s noise)
      have hX : ({ h with vecs := h.vecs ++ [vadd s noise] } : Heap α).vecs[h.vecs.length]? = some (vadd s noise) := by simp
      have v1 := Untouched.valid u1 v
      have hT1 : ({ h with vecs := h.vecs ++ [vadd s noise] } : Heap α).vecs[job.T]? = some t := u1.1 _ _ hT
      obtain ⟨cu, cc⟩ := emd_cases (fuel := fuel) (sp := sp) (o := st.emd) (T := some job.T) (max_imf := job.maxImf) hX
      obtain ⟨c1, c2, c3⟩ := C114_values fuel sp st.emd h.vecs.length (some job.T) job.maxImf _ _ hX v1
      rw [Untouched.shown u1 v, Option.map_some, hT1, Option.getD_some] at c1 c2
      rw [Option.map_some, hT1, Option.getD_some] at cc
      generalize hm : st.emd.emd fuel sp h.vecs.length (some job.T) job.maxImf
        { h with vecs := h.vecs ++ [vadd s noise] } = out at cu cc c1 c2 c3 ⊢
      generalize hp : (shown h st.emd).emd fuel sp (vadd s noise) (some t) job.maxImf = pout at c1 c2 ⊢
      obtain ⟨o1, o2, h'⟩ := out
      obtain ⟨p1, p2⟩ := pout
      dsimp only at cu cc c1 c2 c3 ⊢
      have u2 := Untouched.trans' u1 cu
      cases o1 with
      | error e =>
        dsimp only at c1
        subst c1 c2
        exact ⟨u2, c3, rfl, rfl⟩
      | ok ref =>
        dsimp only at c1
        subst c1 c2
        dsimp only
        have hrel : TrialRel h' (ref, none) (contents h' ref, none) := by
          rcases cc with ⟨e, _, h2, _⟩ | ⟨c, ref', i, d, _, h2, h3, h4, h5, _, _, h8, _, _, h11⟩
          · cases h2
          · cases h2
            refine ⟨?_, rfl, fun a ha => by cases ha⟩
            obtain ⟨m, hm, hl⟩ := h11
            exact ⟨m, hm, hl, by simp [contents, hm]⟩
        by_cases hc : cfg.separateTrends = true
        · rw [if_pos hc, if_pos hc]
          obtain ⟨s1, s2⟩ := separate_rel c3
          refine ⟨Untouched.trans' u2 s1, Untouched.valid s1 c3, ?_, ?_⟩
          · dsimp only
            rw [Untouched.shown s1 c3]
            cases (shown h' o2).getImfsAndTrend <;> rfl
          · cases hgt : (shown h' o2).getImfsAndTrend with
            | error e => rw [hgt] at s2; exact s2
            | ok q => rw [hgt] at s2; exact s2
        · rw [if_neg hc, if_neg hc]
          exact ⟨u2, c3, rfl, hrel⟩

theorem runTrials_rel {rng : Rng α ρ} {fuel : Nat} {sp : SciPy α} {cfg : Cfg α} {job : Job α} {s t : List α} (n : Nat)
    {st : TrialState α ρ} {d : Dict (List RowRef)} {h : Heap α} (hS : h.vecs[job.S]? = some s)
    (hT : h.vecs[job.T]? = some t) (v : Valid h st.emd) (vd : ValidDict h d) :
    Untouched h (runTrials rng fuel sp cfg job n st d h).2.2.2 ∧
    Valid (runTrials rng fuel sp cfg job n st d h).2.2.2 (runTrials rng fuel sp cfg job n st d h).2.1.emd ∧
    ValidDict (runTrials rng fuel sp cfg job n st d h).2.2.2 (runTrials rng fuel sp cfg job n st d h).2.2.1 ∧
    PyEMD.EEMD.runTrials rng fuel sp cfg { S := s, T := t, scale := job.scale, maxImf := job.maxImf } n
        { random := st.random, emd := shown h st.emd } (readDict h d) =
      ((runTrials rng fuel sp cfg job n st d h).1,
        { random := (runTrials rng fuel sp cfg job n st d h).2.1.random,
          emd := shown (runTrials rng fuel sp cfg job n st d h).2.2.2 (runTrials rng fuel sp cfg job n st d h).2.1.emd },
        readDict (runTrials rng fuel sp cfg job n st d h).2.2.2 (runTrials rng fuel sp cfg job n st d h).2.2.1) := by
  induction n generalizing st d h with
  | zero => exact ⟨Untouched.rfl', v, vd, rfl⟩
  | succ n ih =>
    obtain ⟨t1, t2, t3, t4⟩ := trialUpdate_rel (rng := rng) (fuel := fuel) (sp := sp) (cfg := cfg) hS hT v
    unfold runTrials PyEMD.EEMD.runTrials
    generalize trialUpdate rng fuel sp cfg job st h = out at t1 t2 t3 t4 ⊢
    generalize PyEMD.EEMD.trialUpdate rng fuel sp cfg { S := s, T := t, scale := job.scale, maxImf := job.maxImf }
        { random := st.random, emd := shown h st.emd } = pout at t3 t4 ⊢
    obtain ⟨x, st', h'⟩ := out
    obtain ⟨y, pst⟩ := pout
    dsimp only at t1 t2 t3 t4 ⊢
    subst t3
    cases x with
    | error e =>
      cases y with
      | error e' =>
        have t4 : e = e' := t4
        subst t4
        exact ⟨t1, t2, Untouched.validDict t1 vd, by dsimp only; rw [Untouched.dict t1 vd]⟩
      | ok p => exact t4.elim
    | ok r =>
      cases y with
      | error e' => exact t4.elim
      | ok p =>
        dsimp only
        obtain ⟨a1, a2⟩ := addTrial_read t4 (Untouched.validDict t1 vd)
        obtain ⟨i1, i2, i3, i4⟩ := ih (t1.1 _ _ hS) (t1.1 _ _ hT) t2 a2
        refine ⟨Untouched.trans' t1 i1, i2, i3, ?_⟩
        rw [← i4, a1, Untouched.dict t1 vd]

theorem toArrays_rel (d : Dict (List RowRef)) (h : Heap α) (vd : ValidDict h d) :
    Untouched h (toArrays d h).2 ∧ (toArrays d h).2.vecs = h.vecs ∧ ValidDict (toArrays d h).2 (toArrays d h).1 ∧
    readDict (toArrays d h).2 (toArrays d h).1 = readDict h d := by
  induction d generalizing h with
  | nil => exact ⟨Untouched.rfl', rfl, vd, rfl⟩
  | cons p d ih =>
    obtain ⟨k, refs⟩ := p
    have u := untouched_mat h (refs.map (RowRef.read h))
    have vd' : ValidDict h d := fun q hq => vd q (List.mem_cons_of_mem _ hq)
    obtain ⟨i1, i2, i3, i4⟩ := ih { h with mats := h.mats ++ [refs.map (RowRef.read h)] } (Untouched.validDict u vd')
    unfold toArrays
    dsimp only
    have ha : h.mats.length < (h.mats ++ [refs.map (RowRef.read h)]).length := by simp
    have hcell : (toArrays d { h with mats := h.mats ++ [refs.map (RowRef.read h)] }).2.mats[h.mats.length]? =
        some (refs.map (RowRef.read h)) := by
      rw [Untouched.mat i1 ha]; simp
    refine ⟨Untouched.trans' u i1, i2, ?_, ?_⟩
    · intro q hq x hx
      rcases List.mem_cons.1 hq with rfl | hq
      · obtain ⟨i, _, rfl⟩ := List.mem_map.1 hx
        exact Untouched.mat_lt i1 ha
      · exact i3 q hq x hx
    · have i4' := i4
      unfold readDict at i4' ⊢
      rw [List.map_cons, List.map_cons, i4']
      congr 1
      · dsimp only
        congr 1
        apply List.ext_getElem (by simp)
        intro i h1 h2
        simp only [List.length_map, List.length_range] at h1
        simp [RowRef.read, hcell, h1]
      · exact Untouched.dict u vd'

theorem readDict_rename (h : Heap α) (d : Dict (List RowRef)) :
    readDict h (renameTrend d) = renameTrend (readDict h d) := by
  have hl : List.lookup (-1) (readDict h d) = (List.lookup (-1) d).map (List.map (RowRef.read h)) := by
    induction d with
    | nil => rfl
    | cons p d ih =>
      obtain ⟨k, v⟩ := p
      unfold readDict at ih ⊢
      simp only [List.map_cons, List.lookup_cons]
      cases (-1 == k) with
      | true => rfl
      | false => exact ih
  have hf : (readDict h d).filter (fun p => p.1 != -1) = readDict h (d.filter (fun p => p.1 != -1)) := by
    unfold readDict
    rw [List.filter_map]
    rfl
  unfold renameTrend
  rw [hl]
  cases List.lookup (-1) d with
  | none => rfl
  | some v =>
    dsimp only [Option.map_some]
    rw [hf]
    unfold readDict
    simp

theorem renameTrend_valid {h : Heap α} {d : Dict (List RowRef)} (vd : ValidDict h d) : ValidDict h (renameTrend d) := by
  unfold renameTrend
  split
  · exact vd
  · rename_i v hv
    intro p hp r hr
    rcases List.mem_append.1 hp with hp | hp
    · exact vd p (List.mem_filter.1 hp).1 r hr
    · rw [List.mem_singleton] at hp
      subst hp
      have hmem : ∃ p ∈ d, p.2 = v := by
        clear vd hp hr
        induction d with
        | nil => cases hv
        | cons q d ih =>
          obtain ⟨k, w⟩ := q
          rw [List.lookup_cons] at hv
          cases hk : (-1 == k) with
          | true => rw [hk] at hv; cases hv; exact ⟨_, List.mem_cons_self, rfl⟩
          | false =>
            rw [hk] at hv
            obtain ⟨p, hp, he⟩ := ih hv
            exact ⟨p, List.mem_cons_of_mem _ hp, he⟩
      obtain ⟨p, hp, he⟩ := hmem
      exact vd p hp r (he ▸ hr)

theorem finish_rel {S : Nat} {s : List α} {o : Obj α ρ} {d : Dict (List RowRef)} {h : Heap α} (hS : h.vecs[S]? = some s)
    (v : Valid h o.emd) (vd : ValidDict h d) :
    Untouched h (finish S o d h).2.2 ∧ ValidE (finish S o d h).2.2 (finish S o d h).2.1 ∧
    (finish S o d h).1 = .ok ((finish S o d h).2.1.E_IMF.getD 0) ∧
    (PyEMD.EEMD.finish s (shownE h o) (readDict h d)) =
      (.ok ((finish S o d h).2.2.mats[(finish S o d h).2.1.E_IMF.getD 0]?.getD []),
        shownE (finish S o d h).2.2 (finish S o d h).2.1) := by
  obtain ⟨t1, t2, t3, t4⟩ := toArrays_rel (renameTrend d) h (renameTrend_valid vd)
  rw [readDict_rename] at t4
  unfold finish PyEMD.EEMD.finish
  generalize toArrays (renameTrend d) h = out at t1 t2 t3 t4 ⊢
  obtain ⟨d', h'⟩ := out
  dsimp only at t1 t2 t3 t4 ⊢
  have hS' : h'.vecs[S]? = some s := t1.1 _ _ hS
  rw [hS', Option.getD_some]
  have hE : d'.map (fun p => meanRows s.length (p.2.map (RowRef.read h'))) =
      PyEMD.EEMD.ensembleMean s.length (renameTrend (readDict h d)) := by
    rw [← t4]
    unfold readDict PyEMD.EEMD.ensembleMean
    rw [List.map_map]
    rfl
  rw [hE]
  generalize PyEMD.EEMD.ensembleMean s.length (renameTrend (readDict h d)) = E
  have u2 : Untouched h' { vecs := h'.vecs ++ [vsub s (sumRows s.length E)], mats := h'.mats ++ [E] } :=
    Untouched.trans' (untouched_vec h' _) (untouched_mat _ E)
  have u3 := Untouched.trans' t1 u2
  refine ⟨u3, ⟨Untouched.valid u3 v, fun a ha => ?_, fun a ha => ?_, Untouched.validDict u2 t3⟩, rfl, ?_⟩
  · cases ha; simp
  · cases ha; simp
  · unfold shownE
    simp only [Option.map_some, Option.getD_some, List.length_append, List.getElem?_concat_length]
    rw [Untouched.shown u3 v]
    congr 2
    have := Untouched.dict u2 t3
    unfold readDict at this t4 ⊢
    rw [this, t4]

theorem validE_untouched {o : Obj α ρ} {h h' : Heap α} (u : Untouched h h') (v : ValidE h o) : ValidE h' o :=
  ⟨Untouched.valid u v.1, fun a ha => Untouched.mat_lt u (v.2.1 a ha), fun a ha => Untouched.vec_lt u (v.2.2.1 a ha),
    Untouched.validDict u v.2.2.2⟩

theorem shownE_untouched {o : Obj α ρ} {h h' : Heap α} (u : Untouched h h') (v : ValidE h o) : shownE h' o = shownE h o := by
  obtain ⟨v1, v2, v3, v4⟩ := v
  have d := Untouched.dict u v4
  unfold readDict at d
  unfold shownE
  rw [Untouched.shown u v1, d]
  have e : o.E_IMF.map (fun a => h'.mats[a]?.getD []) = o.E_IMF.map (fun a => h.mats[a]?.getD []) := by
    cases he : o.E_IMF with
    | none => rfl
    | some a => simp only [Option.map_some]; rw [Untouched.mat u (v2 a he)]
  have r : o.residue.map (fun a => h'.vecs[a]?.getD []) = o.residue.map (fun a => h.vecs[a]?.getD []) := by
    cases he : o.residue with
    | none => rfl
    | some a => simp only [Option.map_some]; rw [Untouched.vec u (v3 a he)]
  rw [e, r]

/-- The part of `eemd` after the time array. -/
theorem eemd_rest {rng : Rng α ρ} {fuel : Nat} {sp : SciPy α} {o : Obj α ρ} {S T : Nat} {s t : List α} {sc : α} {maxImf : Int}
    {h : Heap α} (hS : h.vecs[S]? = some s) (hT : h.vecs[T]? = some t) (ho : ValidE h o) :
    Same h
      (match runTrials rng fuel sp o.cfg { S, T, scale := sc, maxImf } o.cfg.trials
          { random := o.random, emd := o.emd } [] h with
      | (.error e, st, d, h) => (.error e, { o with random := st.random, emd := st.emd, allImfs := d }, h)
      | (.ok (), st, d, h) => finish S { o with random := st.random, emd := st.emd } d h)
      (match PyEMD.EEMD.runTrials rng fuel sp o.cfg { S := s, T := t, scale := sc, maxImf } o.cfg.trials
          { random := o.random, emd := shown h o.emd } [] with
      | (.error e, st, d) => (.error e, { shownE h o with random := st.random, emd := st.emd, allImfs := d })
      | (.ok (), st, d) => PyEMD.EEMD.finish s { shownE h o with random := st.random, emd := st.emd } d) := by
  obtain ⟨r1, r2, r3, r4⟩ := runTrials_rel (rng := rng) (fuel := fuel) (sp := sp) (cfg := o.cfg)
    (job := { S, T, scale := sc, maxImf }) o.cfg.trials (st := { random := o.random, emd := o.emd }) (d := []) hS hT ho.1
    (fun p hp => nomatch hp)
  have r4' : PyEMD.EEMD.runTrials rng fuel sp o.cfg { S := s, T := t, scale := sc, maxImf } o.cfg.trials
      { random := o.random, emd := shown h o.emd } [] = _ := r4
  rw [r4']
  clear r4 r4'
  generalize runTrials rng fuel sp o.cfg { S, T, scale := sc, maxImf } o.cfg.trials
          { random := o.random, emd := o.emd } [] h = out at r1 r2 r3 ⊢
  obtain ⟨x, st, d, h'⟩ := out
  dsimp only at r1 r2 r3 ⊢
  have ho' := validE_untouched r1 ho
  have hsh := shownE_untouched r1 ho
  cases x with
  | error e =>
    refine ⟨r1, rfl, ?_, ⟨r2, ho'.2.1, ho'.2.2.1, r3⟩⟩
    rw [← hsh]
    rfl
  | ok u =>
    obtain ⟨f1, f2, f3, f4⟩ := finish_rel (o := { o with random := st.random, emd := st.emd }) (r1.1 _ _ hS) r2 r3
    dsimp only
    have he : ({ shownE h o with random := st.random, emd := shown h' st.emd } : PyEMD.EEMD.Obj α ρ) =
        shownE h' { o with random := st.random, emd := st.emd } := by
      rw [← hsh]; rfl
    rw [he, f4]
    exact ⟨Untouched.trans' r1 f1, by rw [f3], rfl, f2⟩

/-- **C116.**  `EEMD.eemd` (sequential mode) changes no array that existed before the call, also when it raises; what it
returns, raises and stores is what the computation on values gives (`EEMD.Obj.eemd`).  In particular the references to the
results of earlier trials, among them the arrays the inner `EMD` object stores, still hold those results when they are averaged. -/
theorem C116_values (rng : Rng α ρ) (fuel : Nat) (sp : SciPy α) (order : List Nat) (o : Obj α ρ) (S : Nat) (T : Option Nat)
    (maxImf : Int) (h : Heap α) (s : List α) (hS : h.vecs[S]? = some s) (hT : ∀ a, T = some a → a < h.vecs.length)
    (ho : ValidE h o) (hp : o.cfg.parallel = false) :
    Same h (o.eemd rng fuel sp S T maxImf h)
      ((shownE h o).eemd rng fuel sp order s (T.map (fun a => h.vecs[a]?.getD [])) maxImf) := by
  have hpar : (shownE h o).cfg.parallel = false := hp
  have hcfg : (shownE h o).cfg = o.cfg := rfl
  unfold Obj.eemd PyEMD.EEMD.Obj.eemd PyEMD.EEMD.prepare timeArray
  rw [hpar]
  cases T with
  | some a =>
    have ha := hT a rfl
    have hTa : h.vecs[a]? = some (h.vecs[a]?.getD []) := by rw [List.getElem?_eq_getElem ha]; rfl
    dsimp only [Option.map_some, bind, Except.bind, pure, Except.pure]
    rw [hS, Option.getD_some]
    cases hmx : npMaxE s with
    | error e => cases hmn : npMinE s <;> exact ⟨Untouched.rfl', rfl, rfl, ho⟩
    | ok mx =>
      cases hmn : npMinE s with
      | error e => exact ⟨Untouched.rfl', rfl, rfl, ho⟩
      | ok mn => exact eemd_rest hS hTa ho
  | none =>
    dsimp only [Option.map_none, bind, Except.bind, pure, Except.pure]
    rw [hS, Option.getD_some]
    cases htl : EMD.timeline (α := α) s.length with
    | error e => exact ⟨Untouched.rfl', rfl, rfl, ho⟩
    | ok t =>
      dsimp only
      have u := untouched_vec h t
      have hS' := u.1 _ _ hS
      rw [hS', Option.getD_some]
      have ho' := validE_untouched u ho
      have hsh := shownE_untouched u ho
      have lift : ∀ {out : PyM Nat × Obj α ρ × Heap α} {p : PyM (List (List α)) × PyEMD.EEMD.Obj α ρ},
          Same { h with vecs := h.vecs ++ [t] } out p → Same h out p :=
        fun q => ⟨Untouched.trans' u q.1, q.2, q.3, q.4⟩
      rw [← hsh]
      apply lift
      cases hmx : npMaxE s with
      | error e => cases hmn : npMinE s <;> exact ⟨Untouched.rfl', rfl, rfl, ho'⟩
      | ok mx =>
        cases hmn : npMinE s with
        | error e => exact ⟨Untouched.rfl', rfl, rfl, ho'⟩
        | ok mn => exact eemd_rest hS' (by simp) ho'

theorem toArrays_fresh (d : Dict (List RowRef)) (h : Heap α) :
    ∀ p ∈ (toArrays d h).1, ∀ r ∈ p.2, ∃ a i, r = .row a i ∧ h.mats.length ≤ a := by
  induction d generalizing h with
  | nil => exact fun p hp => nomatch hp
  | cons q d ih =>
    obtain ⟨k, refs⟩ := q
    intro p hp r hr
    unfold toArrays at hp
    dsimp only at hp
    rcases List.mem_cons.1 hp with rfl | hp
    · obtain ⟨i, _, rfl⟩ := List.mem_map.1 hr
      exact ⟨_, i, rfl, le_rfl⟩
    · obtain ⟨a, i, e, hl⟩ := ih _ p hp r hr
      refine ⟨a, i, e, ?_⟩
      simp only [List.length_append, List.length_singleton] at hl
      omega

/-- The arrays a successful call stores are new, and the one it returns is the stored one. -/
theorem eemd_fresh {rng : Rng α ρ} {fuel : Nat} {sp : SciPy α} {o : Obj α ρ} {S : Nat} {T : Option Nat} {maxImf : Int}
    {h : Heap α} {s : List α} (hS : h.vecs[S]? = some s) (hT : ∀ a, T = some a → a < h.vecs.length) (ho : ValidE h o)
    {a : Nat} (hok : (o.eemd rng fuel sp S T maxImf h).1 = .ok a) :
    (o.eemd rng fuel sp S T maxImf h).2.1.E_IMF = some a ∧ h.mats.length ≤ a ∧
    (∃ d, (o.eemd rng fuel sp S T maxImf h).2.1.residue = some d ∧ h.vecs.length ≤ d) ∧
    (∀ p ∈ (o.eemd rng fuel sp S T maxImf h).2.1.allImfs, ∀ r ∈ p.2, ∃ a i, r = .row a i ∧ h.mats.length ≤ a) := by
  have key : ∀ {T : Nat} {t : List α} {h0 : Heap α} {sc : α} (_ : Untouched h h0) (_ : h0.vecs[T]? = some t)
      (_ : h.mats.length ≤ h0.mats.length) (_ : h.vecs.length ≤ h0.vecs.length) {out : PyM Nat × Obj α ρ × Heap α},
      (match runTrials rng fuel sp o.cfg { S, T, scale := sc, maxImf } o.cfg.trials
          { random := o.random, emd := o.emd } [] h0 with
      | (.error e, st, d, h) => (.error e, { o with random := st.random, emd := st.emd, allImfs := d }, h)
      | (.ok (), st, d, h) => finish S { o with random := st.random, emd := st.emd } d h) = out → out.1 = .ok a →
      out.2.1.E_IMF = some a ∧ h.mats.length ≤ a ∧ (∃ d, out.2.1.residue = some d ∧ h.vecs.length ≤ d) ∧
      (∀ p ∈ out.2.1.allImfs, ∀ r ∈ p.2, ∃ a i, r = .row a i ∧ h.mats.length ≤ a) := by
    intro T t h0 sc u hT' hm hv out hout hok
    obtain ⟨r1, r2, r3, r4⟩ := runTrials_rel (rng := rng) (fuel := fuel) (sp := sp) (cfg := o.cfg)
      (job := { S, T, scale := sc, maxImf }) o.cfg.trials (st := { random := o.random, emd := o.emd }) (d := [])
      (u.1 _ _ hS) hT' (Untouched.valid u ho.1) (fun p hp => nomatch hp)
    clear r4
    generalize runTrials rng fuel sp o.cfg { S, T, scale := sc, maxImf } o.cfg.trials
          { random := o.random, emd := o.emd } [] h0 = run at r1 r2 r3 hout
    obtain ⟨x, st, d, h'⟩ := run
    cases x with
    | error e => subst hout; cases hok
    | ok un =>
      dsimp only at r1 r2 r3 hout
      obtain ⟨t1, t2, -, -⟩ := toArrays_rel (renameTrend d) h' (renameTrend_valid r3)
      have tf := toArrays_fresh (renameTrend d) h'
      have l1 : h0.mats.length ≤ h'.mats.length := by
        by_contra hc
        exact absurd (Untouched.mat_lt r1 (a := h'.mats.length) (by omega)) (lt_irrefl _)
      have l2 : h0.vecs.length ≤ h'.vecs.length := by
        by_contra hc
        exact absurd (Untouched.vec_lt r1 (a := h'.vecs.length) (by omega)) (lt_irrefl _)
      have l3 : h'.mats.length ≤ (toArrays (renameTrend d) h').2.mats.length := by
        by_contra hc
        exact absurd (Untouched.mat_lt t1 (a := (toArrays (renameTrend d) h').2.mats.length) (by omega)) (lt_irrefl _)
      subst hout
      unfold finish at hok ⊢
      generalize toArrays (renameTrend d) h' = ta at *
      obtain ⟨d', h''⟩ := ta
      dsimp only at *
      injection hok with hok
      subst hok
      refine ⟨rfl, by omega, ⟨_, rfl, by rw [t2]; omega⟩, fun p hp r hr => ?_⟩
      obtain ⟨a, i, e, hl⟩ := tf p hp r hr
      exact ⟨a, i, e, by omega⟩
  unfold Obj.eemd timeArray at hok ⊢
  cases T with
  | some b =>
    have hb := hT b rfl
    dsimp only at hok ⊢
    rw [hS, Option.getD_some] at hok ⊢
    cases hmx : npMaxE s with
    | error e => rw [hmx] at hok; cases hmn : npMinE s <;> (rw [hmn] at hok; cases hok)
    | ok mx =>
      cases hmn : npMinE s with
      | error e => rw [hmx, hmn] at hok; cases hok
      | ok mn =>
        rw [hmx, hmn] at hok
        exact key Untouched.rfl' (List.getElem?_eq_getElem hb) le_rfl le_rfl rfl hok
  | none =>
    dsimp only at hok ⊢
    rw [hS, Option.getD_some] at hok ⊢
    cases htl : EMD.timeline (α := α) s.length with
    | error e => rw [htl] at hok; cases hok
    | ok t =>
      rw [htl] at hok
      dsimp only at hok ⊢
      have u := untouched_vec h t
      rw [u.1 _ _ hS, Option.getD_some] at hok ⊢
      cases hmx : npMaxE s with
      | error e => rw [hmx] at hok; cases hmn : npMinE s <;> (rw [hmn] at hok; cases hok)
      | ok mx =>
        cases hmn : npMinE s with
        | error e => rw [hmx, hmn] at hok; cases hok
        | ok mn =>
          rw [hmx, hmn] at hok
          exact key (h0 := { h with vecs := h.vecs ++ [t] }) (t := t) u (by simp) le_rfl (by simp) rfl hok

/-- Assignments into older arrays leave the newer ones. -/
theorem writes_before {h : Heap α} (ws : List (Write α)) (g : Heap α) (hw : ∀ w ∈ ws, w.Before h) :
    (∀ i, h.mats.length ≤ i → (ws.foldl Write.apply g).mats[i]? = g.mats[i]?) ∧
    (∀ i, h.vecs.length ≤ i → (ws.foldl Write.apply g).vecs[i]? = g.vecs[i]?) := by
  induction ws generalizing g with
  | nil => exact ⟨fun _ _ => rfl, fun _ _ => rfl⟩
  | cons w ws ih =>
    have hh := hw w List.mem_cons_self
    obtain ⟨i1, i2⟩ := ih (w.apply g) (fun w' hw' => hw w' (List.mem_cons_of_mem _ hw'))
    rw [List.foldl_cons]
    refine ⟨fun i hi => (i1 i hi).trans ?_, fun i hi => (i2 i hi).trans ?_⟩
    · cases w with
      | vec b v => rfl
      | mat b m =>
        have : b < h.mats.length := hh
        exact List.getElem?_set_ne (by omega)
    · cases w with
      | vec b v =>
        have : b < h.vecs.length := hh
        exact List.getElem?_set_ne (by omega)
      | mat b m => rfl

/-- **C117 (partial).**  After a successful `eemd` the caller may overwrite the signal, the time array and every other array
that existed before the call, any number of times: the ensemble mean, the residue and the ensembles the object shows stay.

Full claim: *the array `eemd` returns is the caller's: post-processing it in place does not change what
`get_imfs_and_residue` answers*.  It fails (`C117_counterexample`): the returned array is the stored one. -/
theorem C117_arguments_free_partial (rng : Rng α ρ) (fuel : Nat) (sp : SciPy α) (o : Obj α ρ) (S : Nat) (T : Option Nat)
    (maxImf : Int) (h : Heap α) (s : List α) (hS : h.vecs[S]? = some s) (hT : ∀ a, T = some a → a < h.vecs.length)
    (ho : ValidE h o) (a : Nat) (hok : (o.eemd rng fuel sp S T maxImf h).1 = .ok a) (ws : List (Write α))
    (hw : ∀ w ∈ ws, w.Before h) :
    let out := o.eemd rng fuel sp S T maxImf h
    (shownE (ws.foldl Write.apply out.2.2) out.2.1).getImfsAndResidue = (shownE out.2.2 out.2.1).getImfsAndResidue ∧
    (shownE (ws.foldl Write.apply out.2.2) out.2.1).allImfs = (shownE out.2.2 out.2.1).allImfs := by
  obtain ⟨f1, f2, ⟨d, f3, f4⟩, f5⟩ := eemd_fresh hS hT ho hok
  dsimp only
  generalize o.eemd rng fuel sp S T maxImf h = out at *
  obtain ⟨k1, k2⟩ := writes_before ws out.2.2 hw
  constructor
  · unfold shownE PyEMD.EEMD.Obj.getImfsAndResidue
    dsimp only
    rw [f1, f3]
    simp only [Option.map_some]
    rw [k1 a f2, k2 d f4]
  · unfold shownE
    dsimp only
    refine List.map_congr_left (fun p hp => ?_)
    congr 1
    refine List.map_congr_left (fun r hr => ?_)
    obtain ⟨b, i, rfl, hb⟩ := f5 p hp r hr
    simp only [RowRef.read]
    rw [k1 b hb]

end

/-! ### Concrete cases -/

/-- The signal of the examples of `Verif/Props/Eemd.lean` at address 0, and an object that has not been used. -/
def heapE : Heap ℚ := { vecs := [PyEMD.EEMD.sampleS], mats := [] }
def objE (cfg : Cfg ℚ) : Obj ℚ Nat :=
  { cfg, random := (PyEMD.EEMD.sampleObj cfg).random, emd := { cfg := (PyEMD.EEMD.sampleObj cfg).emd.cfg, imfs := none, residue := none }
    E_IMF := none, residue := none, allImfs := [] }

theorem objE_valid (cfg : Cfg ℚ) : ValidE heapE (objE cfg) :=
  ⟨⟨fun _ h => (by cases h), fun _ h => (by cases h)⟩, fun _ h => (by cases h), fun _ h => (by cases h), fun _ h => nomatch h⟩

/-- C116, C117: the calls succeed, also with the trend separated, and the hypotheses are met.  The mean has the two rows of
the computation on values. -/
example : heapE.vecs[0]? = some PyEMD.EEMD.sampleS ∧ PyEMD.EEMD.sampleCfg.parallel = false ∧
    (match (objE PyEMD.EEMD.sampleCfg).eemd PyEMD.EEMD.sampleRng 20 linSciPy 0 none (-1) heapE with
      | (.ok a, _, h) => (h.mats[a]?.getD []).length == 2 && okWith (fun E => E == h.mats[a]?.getD [])
          ((PyEMD.EEMD.sampleObj PyEMD.EEMD.sampleCfg).eemd PyEMD.EEMD.sampleRng 20 linSciPy [] PyEMD.EEMD.sampleS none (-1)).1
      | _ => false) = true ∧
    (match (objE { PyEMD.EEMD.sampleCfg with separateTrends := true }).eemd PyEMD.EEMD.sampleRng 20 linSciPy 0 (some 0) (-1)
        heapE with
      | (.ok a, _, h) => (h.mats[a]?.getD []).length != 0
      | _ => false) = true :=
  ⟨rfl, rfl, by decide +kernel, by decide +kernel⟩

/-- **C117 (counterexample).**  Overwriting the array `eemd` returned changes what `get_imfs_and_residue` answers. -/
theorem C117_counterexample :
    (match (objE PyEMD.EEMD.sampleCfg).eemd PyEMD.EEMD.sampleRng 20 linSciPy 0 none (-1) heapE with
      | (.ok a, o, h) =>
        okWith (fun p => p.1.length == 2) (shownE h o).getImfsAndResidue &&
        okWith (fun p => p.1.length == 0) (shownE (Write.apply h (.mat a [])) o).getImfsAndResidue
      | _ => false) = true := by decide +kernel

end EEMD
end Mem
end PyEMD
