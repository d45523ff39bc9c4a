import Verif.Model.Memory
import Verif.Lemmas.EmdLoop

/-!
# Programs with memory against programs without
-/

namespace PyEMD
namespace Mem

/-- Everything below the two bounds is as before and the memory has not shrunk. -/
def Keeps {α : Type} (n m : Nat) (h h' : Heap α) : Prop :=
  (∀ a < n, h'.vecs[a]? = h.vecs[a]?) ∧ (∀ a < m, h'.mats[a]? = h.mats[a]?) ∧
  h.vecs.length ≤ h'.vecs.length ∧ h.mats.length ≤ h'.mats.length

section Keeps
variable {α : Type} {n m : Nat} {h h' h'' : Heap α}

theorem Keeps.refl : Keeps n m h h := ⟨fun _ _ => rfl, fun _ _ => rfl, le_rfl, le_rfl⟩

theorem Keeps.trans (a : Keeps n m h h') (b : Keeps n m h' h'') : Keeps n m h h'' :=
  ⟨fun x hx => (b.1 x hx).trans (a.1 x hx), fun x hx => (b.2.1 x hx).trans (a.2.1 x hx),
    a.2.2.1.trans b.2.2.1, a.2.2.2.trans b.2.2.2⟩

theorem Keeps.mono {n' m' : Nat} (a : Keeps n m h h') (hn : n' ≤ n) (hm : m' ≤ m) : Keeps n' m' h h' :=
  ⟨fun x hx => a.1 x (hx.trans_le hn), fun x hx => a.2.1 x (hx.trans_le hm), a.2.2⟩

end Keeps

/-- The run `out` of a program from memory `h` does what the computation `p` without memory does: same exception, or results in
the relation `R`; arrays below the bounds are kept. -/
def Sim {α β γ : Type} (n m : Nat) (h : Heap α) (p : PyM γ) (out : PyM β × Heap α) (R : β → γ → Heap α → Prop) : Prop :=
  Keeps n m h out.2 ∧
    match out.1, p with
    | .ok b, .ok c => R b c out.2
    | .error e, .error e' => e = e'
    | _, _ => False

section Sim
variable {α β γ β' γ' : Type} {n m : Nat} {h : Heap α}

theorem Sim.bind {p : PyM γ} {prog : MemM α β} {f : β → MemM α β'} {g : γ → PyM γ'} {R : β → γ → Heap α → Prop}
    {R' : β' → γ' → Heap α → Prop} (h1 : Sim n m h p (prog h) R)
    (h2 : ∀ b c h', Keeps n m h h' → R b c h' → Sim n m h' (g c) (f b h') R') :
    Sim n m h (p >>= g) ((prog >>= f) h) R' := by
  have e : (prog >>= f) h = match prog h with | (.ok b, h') => f b h' | (.error e, h') => (.error e, h') := rfl
  rw [e]
  obtain ⟨k, h1⟩ := h1
  cases hp : prog h with
  | mk o h' =>
    rw [hp] at h1 k
    cases o with
    | error e1 =>
      cases p with
      | error e2 => exact ⟨k, h1⟩
      | ok c => exact h1.elim
    | ok b =>
      cases p with
      | error e2 => exact h1.elim
      | ok c =>
        obtain ⟨k2, h3⟩ := h2 b c h' k h1
        exact ⟨k.trans k2, h3⟩

theorem run_bind {prog : MemM α β} {f : β → MemM α β'} {b : β} {h' : Heap α} (e : prog h = (.ok b, h')) :
    (prog >>= f) h = f b h' := by
  change (match prog h with | (.ok b, h') => f b h' | (.error e, h') => (.error e, h')) = _
  rw [e]

/-- A statement of the program that is not visible without memory. -/
theorem Sim.step {p : PyM γ} {prog : MemM α β} {f : β → MemM α β'} {R' : β' → γ → Heap α → Prop} {b : β} {h' : Heap α}
    (e : prog h = (.ok b, h')) (k : Keeps n m h h') (h2 : Sim n m h' p (f b h') R') :
    Sim n m h p ((prog >>= f) h) R' := by
  rw [run_bind e]
  exact ⟨k.trans h2.1, h2.2⟩

/-- Reading and computing without touching the memory. -/
theorem Sim.pyBind {p : PyM γ} {f : γ → MemM α β'} {g : γ → PyM γ'} {R' : β' → γ' → Heap α → Prop}
    (h2 : ∀ c, p = .ok c → Sim n m h (g c) (f c h) R') : Sim n m h (p >>= g) ((py p >>= f) h) R' := by
  cases p with
  | error e => exact ⟨Keeps.refl, rfl⟩
  | ok c => exact h2 c rfl

theorem Sim.pure {b : β} {c : γ} {R : β → γ → Heap α → Prop} (hr : R b c h) :
    Sim n m h (.ok c) ((Pure.pure b : MemM α β) h) R := ⟨Keeps.refl, hr⟩

theorem Sim.mono {p : PyM γ} {out : PyM β × Heap α} {R R' : β → γ → Heap α → Prop} (h1 : Sim n m h p out R)
    (hr : ∀ b c, Keeps n m h out.2 → R b c out.2 → R' b c out.2) : Sim n m h p out R' := by
  obtain ⟨k, h1⟩ := h1
  refine ⟨k, ?_⟩
  obtain ⟨o, h'⟩ := out
  cases o <;> cases p <;> first | exact h1 | exact hr _ _ k h1

theorem Sim.mono' {n' m' : Nat} {p : PyM γ} {out : PyM β × Heap α} {R R' : β → γ → Heap α → Prop}
    (h1 : Sim n m h p out R) (k : Keeps n' m' h out.2)
    (hr : ∀ b c, Keeps n' m' h out.2 → R b c out.2 → R' b c out.2) : Sim n m h p out R' :=
  h1.mono (fun b c _ r => hr b c k r)

theorem Sim.bounds {n' m' : Nat} {p : PyM γ} {out : PyM β × Heap α} {R : β → γ → Heap α → Prop} (h1 : Sim n' m' h p out R)
    (hn : n ≤ n') (hm : m ≤ m') : Sim n m h p out R := ⟨h1.1.mono hn hm, h1.2⟩

end Sim

section Cells
variable {α : Type} {n m : Nat} {h : Heap α}

theorem keeps_newVec (v : List α) (hn : n ≤ h.vecs.length) :
    Keeps n m h { h with vecs := h.vecs ++ [v] } := by
  refine ⟨fun a ha => ?_, fun _ _ => rfl, by simp, le_rfl⟩
  exact List.getElem?_append_left (ha.trans_le hn)

theorem keeps_newMat (v : List (List α)) (hm : m ≤ h.mats.length) :
    Keeps n m h { h with mats := h.mats ++ [v] } := by
  refine ⟨fun _ _ => rfl, fun a ha => ?_, le_rfl, by simp⟩
  exact List.getElem?_append_left (ha.trans_le hm)

theorem keeps_set {a : Nat} (v : List α) (ha : n ≤ a) : Keeps n m h { h with vecs := h.vecs.set a v } := by
  refine ⟨fun b hb => ?_, fun _ _ => rfl, by simp, le_rfl⟩
  exact List.getElem?_set_ne (by omega)

theorem readVec_eq {a : Nat} {v : List α} (e : h.vecs[a]? = some v) : readVec a h = (.ok v, h) := by
  simp [readVec, e]

theorem readMat_eq {a : Nat} {v : List (List α)} (e : h.mats[a]? = some v) : readMat a h = (.ok v, h) := by
  simp [readMat, e]

theorem copyVec_eq {a : Nat} {v : List α} (e : h.vecs[a]? = some v) :
    copyVec a h = (.ok h.vecs.length, { h with vecs := h.vecs ++ [v] }) := by
  simp [copyVec, bind, readVec, newVec, e]

theorem assignAll_len {k : Nat} {v w : List α} (e : assignAll k v = .ok w) : w.length = k := by
  unfold assignAll at e
  split at e
  · cases e; assumption
  · split at e
    · cases e; simp
    · cases e

theorem setVec_eq {a : Nat} {d v : List α} (e : h.vecs[a]? = some d) (hl : v.length = d.length) :
    setVec a v h = (.ok (), { h with vecs := h.vecs.set a v }) := by
  simp [setVec, bind, readVec, writeVec, py, e, assignAll, hl]

theorem setVec_sim {a : Nat} {d v : List α} (e : h.vecs[a]? = some d) (ha : n ≤ a) :
    Sim n m h (assignAll d.length v) (setVec a v h)
      (fun _ w h' => w.length = d.length ∧ h' = { h with vecs := h.vecs.set a w }) := by
  have e1 : setVec a v h = (match assignAll d.length v with
      | .ok u => (.ok (), { h with vecs := h.vecs.set a u })
      | .error e => (.error e, h)) := by
    simp only [setVec, bind, readVec, writeVec, py, e, Option.getD_some]
    cases assignAll d.length v <;> rfl
  rw [e1]
  cases hu : assignAll d.length v with
  | error e => exact ⟨Keeps.refl, rfl⟩
  | ok u => exact ⟨keeps_set _ ha, assignAll_len hu, rfl⟩

theorem lt_of_cell {β : Type} {l : List β} {a : Nat} {v : β} (e : l[a]? = some v) : a < l.length :=
  (List.getElem?_eq_some_iff.1 e).1

end Cells

open EMD

section
variable {α : Type} [Add α] [Sub α] [Mul α] [Div α] [Neg α] [LT α] [LE α] [BEq α]
  [DecidableLT α] [DecidableLE α] [NpScalar α]

/-- `siftOnce` as two steps: the mean envelope, and its assignment. -/
theorem siftOnce_split (sp : SciPy α) (cfg : Cfg α) (T imf : List α) :
    EMD.siftOnce sp cfg T imf = (do
      let r ← meanEnv sp cfg T imf
      let mean ← assignAll imf.length r.1
      return (vsub imf mean, r.2.1, r.2.2)) := by
  unfold EMD.siftOnce meanEnv
  cases extractMaxMinSpline sp cfg.detection cfg.splineKind cfg.nbsym T imf with
  | error e => rfl
  | ok o =>
    cases o with
    | none => rfl
    | some env =>
      dsimp only [bind, Except.bind]
      cases bcast (fun a b => a + b) env.maxEnv env.minEnv <;> rfl

/-- What the addresses of the inner loop hold. -/
structure Inv (N T imf mean : Nat) (t x : List α) (h : Heap α) : Prop where
  len : x.length = N
  time : h.vecs[T]? = some t
  imf : h.vecs[imf]? = some x
  mean : ∃ v : List α, h.vecs[mean]? = some v ∧ v.length = x.length

theorem siftOnce_sim {sp : SciPy α} {cfg : Cfg α} {N T imf mean n m : Nat} {t x : List α} {h : Heap α}
    (hi : Inv N T imf mean t x h) (hT : T < n) (hn : n ≤ imf) (hn' : n ≤ mean) (hne : imf ≠ mean) (hm : m ≤ h.mats.length) :
    Sim n m h (EMD.siftOnce sp cfg t x) (siftOnce sp cfg T imf mean h)
      (fun b c h' => Inv N T imf mean t c.1 h' ∧ h'.vecs[b.1]? = some x ∧ b.2 = c.2) := by
  obtain ⟨v, hv, hvl⟩ := hi.mean
  rw [siftOnce_split]
  unfold siftOnce
  refine Sim.step (readVec_eq hi.time) Keeps.refl ?_
  refine Sim.step (readVec_eq hi.imf) Keeps.refl ?_
  refine Sim.pyBind (fun r hr => ?_)
  obtain ⟨w, eMax, eMin⟩ := r
  dsimp only
  have hmean := lt_of_cell hv
  have himf := lt_of_cell hi.imf
  have hs := setVec_sim (m := m) (v := w) hv hn'
  rw [hvl] at hs
  refine Sim.bind hs (fun _ u h1 _ hr => ?_)
  obtain ⟨hu, rfl⟩ := hr
  have hx1 : (h.vecs.set mean u)[imf]? = some x := by
    rw [List.getElem?_set_ne (by omega)]; exact hi.imf
  refine Sim.step (copyVec_eq (h := { h with vecs := h.vecs.set mean u }) hx1) (keeps_newVec _ (by simp; omega)) ?_
  have hx2 : ((h.vecs.set mean u) ++ [x])[imf]? = some x := by
    rw [List.getElem?_append_left (by simpa using himf)]; exact hx1
  have hm2 : ((h.vecs.set mean u) ++ [x])[mean]? = some u := by
    rw [List.getElem?_append_left (by simpa using hmean), List.getElem?_set_self hmean]
  refine Sim.step (readVec_eq (h := { h with vecs := h.vecs.set mean u ++ [x] }) hx2) Keeps.refl ?_
  refine Sim.step (readVec_eq (h := { h with vecs := h.vecs.set mean u ++ [x] }) hm2) Keeps.refl ?_
  refine Sim.step (b := ()) rfl (keeps_set _ hn) ?_
  refine Sim.pure ⟨⟨by simp [hu, hi.len], ?_, ?_, ?_⟩, ?_, rfl⟩
  · dsimp only
    rw [List.getElem?_set_ne (by omega), List.getElem?_append_left (by simp; omega), List.getElem?_set_ne (by omega)]
    exact hi.time
  · dsimp only
    rw [List.getElem?_set_self (by simp; omega)]
  · refine ⟨u, ?_, by simp [vsub, hu]⟩
    dsimp only
    rw [List.getElem?_set_ne hne]; exact hm2
  · dsimp only
    rw [List.getElem?_set_ne (by simp; omega)]
    simp

/-- Variables of the inner loop with and without memory. -/
structure Rel (N T imf mean : Nat) (t : List α) (s : Sift) (p : EMD.Sift α) (h : Heap α) : Prop where
  n : s.n = p.n
  nh : s.nh = p.nh
  extNo : s.extNo = p.extNo
  imfA : s.imf = imf
  meanA : s.mean = mean
  inv : Inv N T imf mean t p.imf h

theorem counts_eq {cfg : Cfg α} {N T imf mean : Nat} {t x : List α} {h : Heap α} (hi : Inv N T imf mean t x h) :
    counts cfg T imf h = (countExt cfg t x, h) := by
  simp [counts, bind, readVec, py, hi.time, hi.imf]

theorem check_eq {cfg : Cfg α} {imf old : Nat} {x y : List α} {a b : List (α × α)} {h : Heap α}
    (hx : h.vecs[imf]? = some x) (hy : h.vecs[old]? = some y) :
    check cfg imf old a b h = (checkImf cfg x y a b, h) := by
  simp [check, bind, readVec, py, hx, hy]

/-- A program that only reads. -/
theorem Sim.readBind {β β' γ' : Type} {n m : Nat} {h : Heap α} {p : PyM β} {prog : MemM α β} {f : β → MemM α β'}
    {g : β → PyM γ'} {R' : β' → γ' → Heap α → Prop} (e : prog h = (p, h))
    (h2 : ∀ c, p = .ok c → Sim n m h (g c) (f c h) R') : Sim n m h (p >>= g) ((prog >>= f) h) R' := by
  have h1 : Sim n m h p (prog h) (fun b c h' => b = c ∧ p = .ok c ∧ h' = h) := by
    rw [e]
    cases p with
    | error e => exact ⟨Keeps.refl, rfl⟩
    | ok c => exact ⟨Keeps.refl, rfl, rfl, rfl⟩
  refine Sim.bind h1 (fun b c h' _ hr => ?_)
  obtain ⟨rfl, e2, rfl⟩ := hr
  exact h2 _ e2

theorem siftBody_sim {sp : SciPy α} {cfg : Cfg α} {N T imf mean n m : Nat} {t : List α} {h : Heap α} {s : Sift}
    {p : EMD.Sift α} (hr : Rel N T imf mean t s p h) (hT : T < n) (hn : n ≤ imf) (hn' : n ≤ mean) (hne : imf ≠ mean)
    (hm : m ≤ h.mats.length) :
    Sim n m h (EMD.siftBody sp cfg t p) (siftBody sp cfg T s h)
      (fun b c h' => match b, c with
        | .brk s' tr, .brk p' why => Rel N T imf mean t s' p' h' ∧ tr = (why == SiftEnd.trend)
        | .cont s', .cont p' => Rel N T imf mean t s' p' h'
        | _, _ => False) := by
  obtain ⟨sn, snh, sext, simf, smean⟩ := s
  obtain ⟨pn, pnh, pext, x, psubs⟩ := p
  obtain ⟨h1, h2, h3, h4, h5, hi⟩ := hr
  dsimp only at h1 h2 h3 h4 h5 hi
  subst h1 h2 h3 h4 h5
  unfold siftBody EMD.siftBody
  dsimp only
  by_cases c1 : cfg.MAX_ITERATION ≤ sn + 1
  · rw [if_pos c1, if_pos c1]
    exact Sim.pure ⟨⟨rfl, rfl, rfl, rfl, rfl, hi⟩, rfl⟩
  rw [if_neg c1, if_neg c1]
  refine Sim.readBind (counts_eq hi) (fun c _ => ?_)
  obtain ⟨ext, zer⟩ := c
  dsimp only
  by_cases c2 : ext > 2
  swap
  · rw [if_neg c2, if_neg c2]
    exact Sim.pure ⟨⟨rfl, rfl, rfl, rfl, rfl, hi⟩, rfl⟩
  rw [if_pos c2, if_pos c2]
  refine Sim.bind (siftOnce_sim hi hT hn hn' hne hm) (fun b c h' k hr => ?_)
  obtain ⟨old, eMax, eMin⟩ := b
  obtain ⟨y, eMax', eMin'⟩ := c
  obtain ⟨hi', ho, he⟩ := hr
  cases he
  dsimp only at hi' ho ⊢
  by_cases c3 : cfg.FIXE ≠ 0
  · rw [if_pos c3, if_pos c3]
    by_cases c4 : cfg.FIXE ≤ sn + 1
    · rw [if_pos c4, if_pos c4]
      exact Sim.pure ⟨⟨rfl, rfl, rfl, rfl, rfl, hi'⟩, rfl⟩
    · rw [if_neg c4, if_neg c4]
      exact Sim.pure ⟨rfl, rfl, rfl, rfl, rfl, hi'⟩
  rw [if_neg c3, if_neg c3]
  by_cases c5 : cfg.FIXE_H ≠ 0
  · rw [if_pos c5, if_pos c5]
    refine Sim.readBind (counts_eq hi') (fun c _ => ?_)
    obtain ⟨ext', zer'⟩ := c
    dsimp only
    by_cases c6 : sn + 1 = 1
    · rw [if_pos c6, if_pos c6]
      exact Sim.pure ⟨rfl, rfl, rfl, rfl, rfl, hi'⟩
    rw [if_neg c6, if_neg c6]
    by_cases c7 : cfg.FIXE_H ≤ (if |ext' - zer'| < 2 then snh + 1 else 0)
    · rw [if_pos c7, if_pos c7]
      exact Sim.pure ⟨⟨rfl, rfl, rfl, rfl, rfl, hi'⟩, rfl⟩
    · rw [if_neg c7, if_neg c7]
      exact Sim.pure ⟨rfl, rfl, rfl, rfl, rfl, hi'⟩
  rw [if_neg c5, if_neg c5]
  refine Sim.readBind (counts_eq hi') (fun c _ => ?_)
  obtain ⟨ext', zer'⟩ := c
  dsimp only
  refine Sim.readBind (check_eq hi'.imf ho) (fun f1 _ => ?_)
  by_cases c8 : (f1 && decide (|ext' - zer'| < 2)) = true
  · rw [if_pos c8, if_pos c8]
    exact Sim.pure ⟨⟨rfl, rfl, rfl, rfl, rfl, hi'⟩, rfl⟩
  · rw [if_neg c8, if_neg c8]
    exact Sim.pure ⟨rfl, rfl, rfl, rfl, rfl, hi'⟩

theorem siftLoop_sim {sp : SciPy α} {cfg : Cfg α} {N T imf mean n m : Nat} {t : List α} (hT : T < n) (hn : n ≤ imf)
    (hn' : n ≤ mean) (hne : imf ≠ mean) (fuel : Nat) {h : Heap α} {s : Sift} {p : EMD.Sift α}
    (hr : Rel N T imf mean t s p h) (hm : m ≤ h.mats.length) :
    Sim n m h (EMD.siftLoop sp cfg t fuel p) (siftLoop sp cfg T fuel s h)
      (fun b c h' => Rel N T imf mean t b.1 c.1 h' ∧ b.2 = (c.2 == SiftEnd.trend)) := by
  induction fuel generalizing h s p with
  | zero => exact ⟨Keeps.refl, rfl⟩
  | succ fuel ih =>
    unfold siftLoop EMD.siftLoop
    refine Sim.bind (siftBody_sim hr hT hn hn' hne hm) (fun b c h' k hr' => ?_)
    cases b with
    | brk s' tr =>
      cases c with
      | brk p' why => exact Sim.pure hr'
      | cont p' => exact hr'.elim
    | cont s' =>
      cases c with
      | brk p' why => exact hr'.elim
      | cont p' => exact ih hr' (hm.trans k.2.2.2)

/-- What the addresses of the outer loop hold. -/
structure Outer (T S residue : Nat) (t s : List α) (h : Heap α) : Prop where
  time : h.vecs[T]? = some t
  sig : h.vecs[S]? = some s
  res : ∃ v : List α, h.vecs[residue]? = some v ∧ v.length = s.length

theorem emdRound_sim {sp : SciPy α} {cfg : Cfg α} {T S residue IMF n m : Nat} {t s : List α} {rows : List (List α)}
    {h : Heap α} {extNo : Int} (ho : Outer T S residue t s h) (hI : h.mats[IMF]? = some rows)
    (hrow : ∀ r ∈ rows, r.length = s.length) (hT : T < n) (hS : S < n) (hn : n ≤ residue) (hm : m ≤ h.mats.length) :
    Sim n m h (EMD.emdRound sp cfg t s rows extNo) (emdRound sp cfg T S residue IMF extNo h)
      (fun b c h' => b.1.extNo = c.1.extNo ∧ h'.vecs[b.1.imf]? = some c.1.imf ∧ c.1.imf.length = s.length ∧
        b.2 = (c.2 == SiftEnd.trend) ∧ Outer T S residue t s h' ∧ h'.mats[IMF]? = some rows) := by
  obtain ⟨v, hv, hvl⟩ := ho.res
  have hR := lt_of_cell hv
  have hM := lt_of_cell hI
  have hl : (vsub s (sumRows s.length rows)).length = s.length := by simp [length_sumRows _ _ hrow]
  unfold emdRound EMD.emdRound
  dsimp only
  generalize hv0 : vsub s (sumRows s.length rows) = v0 at hl ⊢
  refine Sim.step (readVec_eq ho.sig) Keeps.refl ?_
  refine Sim.step (readMat_eq hI) Keeps.refl ?_
  rw [hv0]
  refine Sim.step (setVec_eq hv (hl.trans hvl.symm)) (keeps_set _ hn) ?_
  have e1 : (h.vecs.set residue v0)[residue]? = some v0 := List.getElem?_set_self hR
  refine Sim.step (copyVec_eq (h := { h with vecs := h.vecs.set residue v0 }) e1) (keeps_newVec _ (by simp; omega)) ?_
  refine Sim.step (b := h.vecs.length + 1)
    (h' := { h with vecs := h.vecs.set residue v0 ++ [v0] ++ [List.replicate s.length (lit 0)] })
    (by simp [newVec]) (keeps_newVec _ (by simp; omega)) ?_
  have hT3 : T < h.vecs.length := by omega
  have hS3 : S < h.vecs.length := by omega
  have hh : ∀ a < h.vecs.length, (h.vecs.set residue v0 ++ [v0] ++ [List.replicate s.length (lit 0 : α)])[a]? =
      (h.vecs.set residue v0)[a]? := fun a ha => by
    rw [List.getElem?_append_left (by simp; omega), List.getElem?_append_left (by simpa using ha)]
  have hrel : Rel s.length T h.vecs.length (h.vecs.length + 1) t
      { n := 0, nh := 0, extNo, imf := h.vecs.length, mean := h.vecs.length + 1 }
      { n := 0, nh := 0, extNo, imf := v0, subs := 0 }
      { h with vecs := h.vecs.set residue v0 ++ [v0] ++ [List.replicate s.length (lit 0)] } := by
    refine ⟨rfl, rfl, rfl, rfl, rfl, ⟨hl, ?_, ?_, ⟨List.replicate s.length (lit 0), ?_, by simp [hl]⟩⟩⟩
    · dsimp only
      rw [hh T hT3, List.getElem?_set_ne (by omega)]; exact ho.time
    · dsimp only
      rw [List.getElem?_append_left (by simp), List.getElem?_append_right (by simp)]; simp
    · dsimp only
      rw [List.getElem?_append_right (by simp)]; simp
  have hsim := siftLoop_sim (sp := sp) (cfg := cfg) (n := h.vecs.length) (m := h.mats.length) hT3 le_rfl
    (Nat.le_succ _) (by omega) (siftFuel cfg) hrel le_rfl
  simp only [List.length_set] at hsim ⊢
  refine (hsim.bounds (by omega) hm).mono' hsim.1 (fun b c k hr => ?_)
  refine ⟨hr.1.extNo, hr.1.imfA ▸ hr.1.inv.imf, hr.1.inv.len, hr.2, ⟨hr.1.inv.time, ?_, ⟨v0, ?_, hl⟩⟩, ?_⟩
  · rw [k.1 S hS3]; dsimp only
    rw [hh S hS3, List.getElem?_set_ne (by omega)]; exact ho.sig
  · rw [k.1 residue hR]; dsimp only
    rw [hh residue hR]; exact e1
  · rw [k.2.1 IMF hM]; exact hI

theorem emdLoop_sim {sp : SciPy α} {cfg : Cfg α} {T S residue n m : Nat} {t s : List α} {max_imf : Int} (hT : T < n)
    (hS : S < n) (hn : n ≤ residue) (fuel : Nat) {IMF : Nat} {rounds : List (Round α)} {h : Heap α} {extNo : Int}
    (ho : Outer T S residue t s h) (hI : h.mats[IMF]? = some (rounds.map (·.imf)))
    (hrow : ∀ r ∈ rounds.map (·.imf), r.length = s.length) (hm : m ≤ IMF) :
    Sim n m h (EMD.emdLoop sp cfg t s max_imf fuel rounds extNo) (emdLoop sp cfg T S residue max_imf fuel IMF extNo h)
      (fun b c h' => b.2 = c.2 ∧ h'.mats[b.1]? = some (c.1.map (·.imf)) ∧ h'.vecs[S]? = some s ∧ m ≤ b.1) := by
  induction fuel generalizing IMF rounds h extNo with
  | zero => exact ⟨Keeps.refl, rfl⟩
  | succ fuel ih =>
    have hM := lt_of_cell hI
    unfold emdLoop EMD.emdLoop
    refine Sim.bind (emdRound_sim ho hI hrow hT hS hn (by omega)) (fun b c h1 k1 hr => ?_)
    obtain ⟨bs, btr⟩ := b
    obtain ⟨cs, why⟩ := c
    obtain ⟨r1, r2, r3, r4, ho1, hI1⟩ := hr
    dsimp only at r1 r2 r3 r4 ⊢
    subst r4
    refine Sim.step (readMat_eq hI1) Keeps.refl ?_
    refine Sim.step (readVec_eq r2) Keeps.refl ?_
    have hM1 := lt_of_cell hI1
    refine Sim.step (b := h1.mats.length) rfl (keeps_newMat _ (by omega)) ?_
    have e2 : (h1.mats ++ [rounds.map (·.imf) ++ [cs.imf]])[h1.mats.length]? =
        some ((rounds ++ [({ imf := cs.imf, why, subs := cs.subs, nh := cs.nh } : Round α)]).map (·.imf)) := by
      simp
    have ho2 : Outer T S residue t s { h1 with mats := h1.mats ++ [rounds.map (·.imf) ++ [cs.imf]] } :=
      ⟨ho1.time, ho1.sig, ho1.res⟩
    refine Sim.step (readVec_eq (h := { h1 with mats := h1.mats ++ [rounds.map (·.imf) ++ [cs.imf]] }) ho2.sig)
      Keeps.refl ?_
    refine Sim.step (readMat_eq (h := { h1 with mats := h1.mats ++ [rounds.map (·.imf) ++ [cs.imf]] }) e2)
      Keeps.refl ?_
    refine Sim.pyBind (fun fin _ => ?_)
    refine Sim.step (readMat_eq (h := { h1 with mats := h1.mats ++ [rounds.map (·.imf) ++ [cs.imf]] }) e2)
      Keeps.refl ?_
    rw [List.length_map]
    by_cases hc : (fin || decide (((rounds ++ [({ imf := cs.imf, why, subs := cs.subs, nh := cs.nh } : Round α)]).length : Int)
        = max_imf) || why == SiftEnd.trend) = true
    · rw [if_pos hc, if_pos hc]
      exact Sim.pure ⟨r1, e2, ho1.sig, by omega⟩
    · rw [if_neg hc, if_neg hc]
      rw [r1]
      refine ih ho2 e2 ?_ (by omega)
      intro r hr
      simp only [List.map_append, List.map_cons, List.map_nil, List.mem_append, List.mem_singleton] at hr
      rcases hr with hr | rfl
      · exact hrow r hr
      · exact r3

theorem finish_sim {S IMF n m : Nat} {s : List α} {rows : List (List α)} {h : Heap α} {extNo : Int}
    (hS : h.vecs[S]? = some s) (hI : h.mats[IMF]? = some rows) (hn : n ≤ h.vecs.length) (hm : m ≤ IMF) :
    Sim n m h (.ok (EMD.finish s rows extNo)) (finish S IMF extNo h)
      (fun b c h' => (h'.mats[b.rows.addr]?.getD []).take b.rows.rows = c.rows ∧ h'.mats[b.imfs]? = some c.imfs ∧
        h'.vecs[b.residue]? = some c.residue ∧ b.rows.addr ≠ b.imfs ∧ m ≤ b.rows.addr ∧ m ≤ b.imfs ∧ n ≤ b.residue ∧
        (∃ m, h'.mats[b.rows.addr]? = some m ∧ b.rows.rows ≤ m.length)) := by
  have hM := lt_of_cell hI
  have htake : rows.take (if extNo ≤ 2 then rows.length - 1 else rows.length) =
      if extNo ≤ 2 then rows.dropLast else rows := by
    split
    · rw [List.dropLast_eq_take]
    · simp
  unfold finish
  refine Sim.step (readMat_eq hI) Keeps.refl ?_
  dsimp only
  refine Sim.step (readMat_eq hI) Keeps.refl ?_
  rw [htake]
  unfold EMD.finish
  dsimp only
  generalize hK : (if extNo ≤ 2 then rows.dropLast else rows) = top at htake ⊢
  refine Sim.step (b := h.mats.length) rfl (keeps_newMat _ (by omega)) ?_
  refine Sim.step (readVec_eq (h := { h with mats := h.mats ++ [top] }) hS) Keeps.refl ?_
  have e1 : (h.mats ++ [top])[h.mats.length]? = some top := by simp
  refine Sim.step (readMat_eq (h := { h with mats := h.mats ++ [top] }) e1) Keeps.refl ?_
  generalize vsub s (sumRows s.length top) = res
  refine Sim.step (b := h.vecs.length) rfl (keeps_newVec _ hn) ?_
  have e2 : (h.vecs ++ [res])[h.vecs.length]? = some res := by simp
  have e3 : (h.mats ++ [top])[IMF]? = some rows := by rw [List.getElem?_append_left hM]; exact hI
  refine Sim.step (readVec_eq (h := { vecs := h.vecs ++ [res], mats := h.mats ++ [top] }) e2) Keeps.refl ?_
  by_cases hc : allclose0 res = true
  · rw [if_pos hc, if_pos hc]
    refine Sim.pure ⟨?_, e1, e2, by dsimp only; omega, hm, by dsimp only; omega, hn, ?_⟩
    · dsimp only; rw [e3, Option.getD_some, htake]
    · exact ⟨rows, e3, by dsimp only; split <;> omega⟩
  · rw [if_neg hc, if_neg hc]
    refine Sim.step (readMat_eq (h := { vecs := h.vecs ++ [res], mats := h.mats ++ [top] }) e3) Keeps.refl ?_
    refine Sim.step (readVec_eq (h := { vecs := h.vecs ++ [res], mats := h.mats ++ [top] }) e2) Keeps.refl ?_
    rw [htake]
    refine Sim.step (b := h.mats.length + 1)
      (h' := { vecs := h.vecs ++ [res], mats := h.mats ++ [top] ++ [top ++ [res]] }) (by simp [newMat])
      (keeps_newMat (h := { vecs := h.vecs ++ [res], mats := h.mats ++ [top] }) _ (by simp; omega)) ?_
    have e4 : (h.mats ++ [top] ++ [top ++ [res]])[h.mats.length + 1]? = some (top ++ [res]) := by
      rw [List.getElem?_append_right (by simp)]; simp
    refine Sim.pure ⟨?_, ?_, e2, by dsimp only; omega, by dsimp only; omega, by dsimp only; omega, hn, ?_⟩
    · dsimp only; rw [e4, Option.getD_some]; exact List.take_of_length_le (by simp)
    · dsimp only; rw [List.getElem?_append_left (by simp)]; exact e1
    · exact ⟨_, e4, by simp⟩

theorem emd_sim {fuel : Nat} {sp : SciPy α} {cfg : Cfg α} {S : Nat} {T : Option Nat} {max_imf : Int} {s : List α}
    {h : Heap α} (hS : h.vecs[S]? = some s) :
    Sim h.vecs.length h.mats.length h (EMD.emdPure fuel sp cfg s (T.map (fun a => h.vecs[a]?.getD [])) max_imf)
      (emd fuel sp cfg S T max_imf h)
      (fun b c h' => (h'.mats[b.rows.addr]?.getD []).take b.rows.rows = c.rows ∧ h'.mats[b.imfs]? = some c.imfs ∧
        h'.vecs[b.residue]? = some c.residue ∧ b.rows.addr ≠ b.imfs ∧ h.mats.length ≤ b.rows.addr ∧
        h.mats.length ≤ b.imfs ∧ h.vecs.length ≤ b.residue ∧
        (∃ m, h'.mats[b.rows.addr]? = some m ∧ b.rows.rows ≤ m.length)) := by
  have hL := lt_of_cell hS
  unfold emd EMD.emdPure EMD.emdRounds
  refine Sim.step (readVec_eq hS) Keeps.refl ?_
  have e0 : readOpt T h = (.ok (T.map (fun a => h.vecs[a]?.getD [])), h) := by cases T <;> rfl
  refine Sim.step e0 Keeps.refl ?_
  rw [bind_assoc]
  refine Sim.pyBind (fun t _ => ?_)
  refine Sim.step (b := h.vecs.length) rfl (keeps_newVec _ le_rfl) ?_
  have e1 : (h.vecs ++ [t])[S]? = some s := by rw [List.getElem?_append_left hL]; exact hS
  refine Sim.step (copyVec_eq (h := { h with vecs := h.vecs ++ [t] }) e1)
    (keeps_newVec (h := { h with vecs := h.vecs ++ [t] }) _ (by simp)) ?_
  refine Sim.step (b := h.mats.length) rfl (keeps_newMat (h := { h with vecs := h.vecs ++ [t] ++ [s] }) _ le_rfl) ?_
  have ho : Outer h.vecs.length S (h.vecs ++ [t]).length t s
      { vecs := h.vecs ++ [t] ++ [s], mats := h.mats ++ [[]] } := by
    refine ⟨?_, ?_, ⟨s, ?_, rfl⟩⟩
    · dsimp only; rw [List.getElem?_append_left (by simp)]; simp
    · dsimp only; rw [List.getElem?_append_left (by simp; omega)]; exact e1
    · dsimp only; rw [List.getElem?_append_right le_rfl]; simp
  have hl := emdLoop_sim (sp := sp) (cfg := cfg) (n := h.vecs.length + 1) (m := h.mats.length) (max_imf := max_imf)
    (rounds := []) (IMF := h.mats.length) (extNo := -1) (Nat.lt_succ_self _) (by omega) (by simp) fuel ho
    (by simp) (by simp) le_rfl
  refine Sim.bind (hl.bounds (Nat.le_succ _) le_rfl) (fun b c h1 k hr => ?_)
  obtain ⟨bI, be⟩ := b
  obtain ⟨rounds, ce⟩ := c
  obtain ⟨r1, r2, r3, r4⟩ := hr
  dsimp only at r1 r2 r3 r4 ⊢
  subst r1
  exact finish_sim r3 r2 (by have := k.2.2.1; simp at this; omega) r4

end

end Mem
end PyEMD
