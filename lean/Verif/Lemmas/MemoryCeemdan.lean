import Verif.Lemmas.Memory
import Verif.Model.MemoryCeemdan

/-!
# `CEEMDAN` with memory against `CEEMDAN` without
-/

set_option linter.unusedSectionVars false

namespace PyEMD
namespace Mem
namespace CEEMDAN
open PyEMD.CEEMDAN (Cfg vdiv vscale mapE)

section
variable {α ρ : Type} [Add α] [Sub α] [Mul α] [Div α] [Neg α] [LT α] [LE α] [BEq α]
  [DecidableLT α] [DecidableLE α] [NpScalar α]

/-- The rows `c` lie behind the reference, in an array below the bound. -/
structure Holds (m : Nat) (h : Heap α) (r : MatRef) (c : List (List α)) : Prop where
  lt : r.addr < m
  rows : (h.mats[r.addr]?.getD []).take r.rows = c

theorem Holds.keeps {n m m' : Nat} {h h' : Heap α} {r : MatRef} {c : List (List α)} (a : Holds m h r c) (k : Keeps n m h h')
    (hm : m ≤ m') : Holds m' h' r c := ⟨a.lt.trans_le hm, by rw [k.2.1 _ a.lt]; exact a.rows⟩

theorem Holds.read {m : Nat} {h : Heap α} {r : MatRef} {c : List (List α)} (a : Holds m h r c) :
    readRef r h = (.ok c, h) := by rw [readRef, a.rows]

/-- The same for a list of references. -/
abbrev HoldsAll (m : Nat) (h : Heap α) : List MatRef → List (List (List α)) → Prop := List.Forall₂ (Holds m h)

theorem HoldsAll.keeps {n m m' : Nat} {h h' : Heap α} {rs : List MatRef} {cs : List (List (List α))} (a : HoldsAll m h rs cs)
    (k : Keeps n m h h') (hm : m ≤ m') : HoldsAll m' h' rs cs :=
  List.Forall₂.imp (fun _ _ b => Holds.keeps b k hm) a

/-- The time array, if there is one. -/
inductive TimeIs (n : Nat) (h : Heap α) : Option Nat → Option (List α) → Prop
  | none : TimeIs n h none none
  | some {a : Nat} {t : List α} (ha : a < n) (e : h.vecs[a]? = .some t) : TimeIs n h (.some a) (.some t)

theorem TimeIs.map {n : Nat} {h : Heap α} {T : Option Nat} {t : Option (List α)} (a : TimeIs n h T t) :
    T.map (fun a => h.vecs[a]?.getD []) = t := by
  cases a with
  | none => rfl
  | some ha e => simp [e]

theorem TimeIs.keeps {n n' m : Nat} {h h' : Heap α} {T : Option Nat} {t : Option (List α)} (a : TimeIs n h T t)
    (k : Keeps n m h h') (hn : n ≤ n') : TimeIs n' h' T t := by
  cases a with
  | none => exact .none
  | some ha e => exact .some (ha.trans_le hn) ((k.1 _ ha).trans e)

/-- Everything that existed before is kept. -/
abbrev Full {β γ : Type} (h : Heap α) (p : PyM γ) (out : PyM β × Heap α) (R : β → γ → Heap α → Prop) : Prop :=
  Sim h.vecs.length h.mats.length h p out R

theorem Full.bind {β γ β' γ' : Type} {h : Heap α} {p : PyM γ} {prog : MemM α β} {f : β → MemM α β'} {g : γ → PyM γ'}
    {R : β → γ → Heap α → Prop} {R' : β' → γ' → Heap α → Prop} (h1 : Full h p (prog h) R)
    (h2 : ∀ b c h', Keeps h.vecs.length h.mats.length h h' → R b c h' → Full h' (g c) (f b h') R') :
    Full h (p >>= g) ((prog >>= f) h) R' :=
  Sim.bind h1 (fun b c h' k r => Sim.bounds (h2 b c h' k r) k.2.2.1 k.2.2.2)

theorem Full.step {β γ β' : Type} {h : Heap α} {p : PyM γ} {prog : MemM α β} {f : β → MemM α β'} {R' : β' → γ → Heap α → Prop}
    {b : β} {h' : Heap α} (e : prog h = (.ok b, h')) (k : Keeps h.vecs.length h.mats.length h h') (h2 : Full h' p (f b h') R') :
    Full h p ((prog >>= f) h) R' := Sim.step e k (Sim.bounds h2 k.2.2.1 k.2.2.2)

theorem Sim.mapOk {β γ δ : Type} {n m : Nat} {h : Heap α} {p : PyM γ} {out : PyM β × Heap α} {f : γ → δ}
    {R : β → δ → Heap α → Prop} (h1 : Sim n m h p out (fun b c h' => R b (f c) h')) :
    Sim n m h (p >>= fun c => .ok (f c)) out R := by
  obtain ⟨k, h1⟩ := h1
  refine ⟨k, ?_⟩
  obtain ⟨o, h'⟩ := out
  cases o <;> cases p <;> exact h1

theorem inner_sim {fuel : Nat} {sp : SciPy α} {ecfg : EMD.Cfg α} {S n : Nat} {T : Option Nat} {t : Option (List α)} {maxImf : Int}
    {s : List α} {h : Heap α} (hS : h.vecs[S]? = some s) (hT : TimeIs n h T t) :
    Full h (PyEMD.CEEMDAN.emd fuel sp ecfg s t maxImf) (inner fuel sp ecfg S T maxImf h)
      (fun b c h' => Holds h'.mats.length h' b c) := by
  have e := emd_sim (fuel := fuel) (sp := sp) (cfg := ecfg) (T := T) (max_imf := maxImf) hS
  rw [hT.map] at e
  have hp : PyEMD.CEEMDAN.emd fuel sp ecfg s t maxImf = (EMD.emdPure fuel sp ecfg s t maxImf) >>= fun R => .ok R.rows := by
    unfold PyEMD.CEEMDAN.emd
    cases EMD.emdPure fuel sp ecfg s t maxImf <;> rfl
  rw [hp]
  unfold inner
  refine Full.bind e (fun b c h' k hr => ?_)
  obtain ⟨a1, _, _, _, _, _, _, mm, a8, _⟩ := hr
  exact Sim.pure ⟨lt_of_cell a8, a1⟩

/-- `mapE` as a loop in the monad. -/
theorem mapE_cons {β γ : Type} (f : β → PyM γ) (x : β) (xs : List β) :
    mapE f (x :: xs) = (f x >>= fun y => mapE f xs >>= fun ys => .ok (y :: ys)) := by
  simp only [mapE, bind, Except.bind]
  cases f x with
  | error e => rfl
  | ok y => dsimp only; cases mapE f xs <;> rfl

theorem bind_ok {β : Type} (p : PyM β) : (p >>= fun x => .ok x) = p := by cases p <;> rfl

/-- One-dimensional arrays with given contents. -/
abbrev VecsAre (h : Heap α) : List Nat → List (List α) → Prop := List.Forall₂ (fun (a : Nat) x => h.vecs[a]? = some x)

theorem VecsAre.keeps {h h' : Heap α} {as : List Nat} {xs : List (List α)} (a : VecsAre h as xs)
    (k : Keeps h.vecs.length h.mats.length h h') : VecsAre h' as xs :=
  List.Forall₂.imp (fun _ _ e => (k.1 _ (lt_of_cell e)).trans e) a

theorem cell_keeps {h h' : Heap α} {a : Nat} {x : List α} (e : h.vecs[a]? = some x)
    (k : Keeps h.vecs.length h.mats.length h h') : h'.vecs[a]? = some x := (k.1 _ (lt_of_cell e)).trans e

theorem decomposeAll_sim {fuel : Nat} {sp : SciPy α} {ecfg : EMD.Cfg α} (as : List Nat) {xs : List (List α)} {h : Heap α}
    (ha : VecsAre h as xs) :
    Full h (mapE (fun x => PyEMD.CEEMDAN.emd fuel sp ecfg x none (-1)) xs) (decomposeAll fuel sp ecfg as h)
      (fun b c h' => HoldsAll h'.mats.length h' b c) := by
  induction as generalizing xs h with
  | nil => cases ha; exact Sim.pure .nil
  | cons a as ih =>
    obtain _ | @⟨_, x, _, xs, hx, ha⟩ := ha
    rw [mapE_cons]
    unfold decomposeAll
    refine Full.bind (inner_sim hx (n := 0) .none) (fun b c h' k hb => ?_)
    refine Full.bind (ih (VecsAre.keeps ha k)) (fun b2 c2 h2 k2 hb2 => ?_)
    exact Sim.pure (.cons (hb.keeps k2 k2.2.2.2) hb2)

theorem normalise_sim {std : List α → α} {r : MatRef} {c : List (List α)} {h : Heap α} (hc : Holds h.mats.length h r c) :
    Full h (PyEMD.CEEMDAN.normalise std c) (normalise std r h) (fun b c h' => Holds h'.mats.length h' b c) := by
  rw [← bind_ok (PyEMD.CEEMDAN.normalise std c)]
  unfold normalise
  refine Full.step hc.read Keeps.refl ?_
  refine Sim.pyBind (fun m' _ => ?_)
  refine Full.step (b := h.mats.length) rfl (keeps_newMat _ le_rfl) ?_
  exact Sim.pure ⟨by simp, by simp⟩

theorem normaliseAll_sim {std : List α → α} (rs : List MatRef) {cs : List (List (List α))} {h : Heap α}
    (ha : HoldsAll h.mats.length h rs cs) :
    Full h (mapE (PyEMD.CEEMDAN.normalise std) cs) (normaliseAll std rs h)
      (fun b c h' => HoldsAll h'.mats.length h' b c) := by
  induction rs generalizing cs h with
  | nil => cases ha; exact Sim.pure .nil
  | cons r rs ih =>
    obtain _ | @⟨_, c, _, cs, hc, ha⟩ := ha
    rw [mapE_cons]
    unfold normaliseAll
    refine Full.bind (normalise_sim hc) (fun b c h' k hb => ?_)
    refine Full.bind (ih (HoldsAll.keeps ha k k.2.2.2)) (fun b2 c2 h2 k2 hb2 => ?_)
    exact Sim.pure (.cons (hb.keeps k2 k2.2.2.2) hb2)

theorem decomposeNoise_sim {std : List α → α} {fuel : Nat} {sp : SciPy α} {cfg : Cfg α} {ecfg : EMD.Cfg α} {order : List Nat}
    (hp : cfg.parallel = false) (as : List Nat) {xs : List (List α)} {h : Heap α} (ha : VecsAre h as xs) :
    Full h (PyEMD.CEEMDAN.decomposeNoise std fuel sp cfg ecfg order xs) (decomposeNoise std fuel sp cfg ecfg as h)
      (fun b c h' => HoldsAll h'.mats.length h' b c) := by
  have e : PyEMD.CEEMDAN.decomposeNoise std fuel sp cfg ecfg order xs =
      (mapE (fun x => PyEMD.CEEMDAN.emd fuel sp ecfg x none (-1)) xs >>= fun l =>
        if cfg.betaProgress then mapE (PyEMD.CEEMDAN.normalise std) l else .ok l) := by
    unfold PyEMD.CEEMDAN.decomposeNoise
    rw [hp]
    dsimp only [bind, Except.bind]
    rw [if_neg (by simp)]
    cases mapE (fun x => PyEMD.CEEMDAN.emd fuel sp ecfg x none (-1)) xs <;> rfl
  rw [e]
  unfold decomposeNoise
  refine Full.bind (decomposeAll_sim as ha) (fun b c h' k hb => ?_)
  by_cases hc : cfg.betaProgress = true
  · rw [if_pos hc, if_pos hc]; exact normaliseAll_sim b hb
  · rw [if_neg hc, if_neg hc]; exact Sim.pure hb

theorem trialUpdate_sim {fuel : Nat} {sp : SciPy α} {cfg : Cfg α} {ecfg : EMD.Cfg α} {noise : List MatRef}
    {cs : List (List (List α))} {S T : Nat} {s t : List α} {maxImf : Int} {trial : Nat} {h : Heap α}
    (hn : HoldsAll h.mats.length h noise cs) (hS : h.vecs[S]? = some s) (hT : h.vecs[T]? = some t) :
    Full h (PyEMD.CEEMDAN.trialUpdate fuel sp cfg ecfg cs s t maxImf trial)
      (trialUpdate fuel sp cfg ecfg noise S T maxImf trial h) (fun b c h' => Holds h'.mats.length h' b c) := by
  unfold trialUpdate PyEMD.CEEMDAN.trialUpdate noiseOf
  have key : (noise[trial]? = none ∧ cs[trial]? = none) ∨
      ∃ r c, noise[trial]? = some r ∧ cs[trial]? = some c ∧ Holds h.mats.length h r c := by
    have hl := hn.length_eq
    by_cases ht : trial < noise.length
    · refine Or.inr ⟨_, _, List.getElem?_eq_getElem ht, List.getElem?_eq_getElem (hl ▸ ht), ?_⟩
      exact List.Forall₂.get hn ht (hl ▸ ht)
    · exact Or.inl ⟨List.getElem?_eq_none (by omega), List.getElem?_eq_none (by omega)⟩
  rcases key with ⟨e1, e2⟩ | ⟨r, c, e1, e2, hr⟩
  · rw [e1, e2]; exact ⟨Keeps.refl, rfl⟩
  · rw [e1, e2]
    refine Full.step (b := r) rfl Keeps.refl ?_
    refine Full.step hr.read Keeps.refl ?_
    cases c with
    | nil => exact ⟨Keeps.refl, rfl⟩
    | cons i is =>
      refine Full.step (b := i) rfl Keeps.refl ?_
      refine Full.step (readVec_eq hS) Keeps.refl ?_
      refine Full.step (b := h.vecs.length) rfl (keeps_newVec _ le_rfl) ?_
      refine inner_sim (n := h.vecs.length) (by simp) (.some (lt_of_cell hT) ?_)
      dsimp only
      rw [List.getElem?_append_left (lt_of_cell hT)]; exact hT

theorem keeps_setMat {n m : Nat} {h : Heap α} {a : Nat} (v : List (List α)) (ha : m ≤ a) :
    Keeps n m h { h with mats := h.mats.set a v } := by
  refine ⟨fun _ _ => rfl, fun b hb => ?_, le_rfl, by simp⟩
  exact List.getElem?_set_ne (by omega)

/-- The accumulator is above the bound. -/
theorem accumulate_run {n m N E : Nat} {r : MatRef} {h : Heap α} {e c : List (List α)} (hE : h.mats[E]? = some e) (hmE : m ≤ E)
    {m' : Nat} (hr : Holds m' h r c) :
    ∃ E' h', accumulate N E r h = (.ok E', h') ∧ Keeps n m h h' ∧ h'.mats[E']? = some (PyEMD.CEEMDAN.accumulate N e c) ∧ m ≤ E' := by
  have hl := lt_of_cell hE
  by_cases hc : e.length < c.length
  · refine ⟨h.mats.length, Heap.mk h.vecs ((h.mats ++ [e ++ List.replicate (c.length - e.length) (vzeros N)]).set
      h.mats.length (PyEMD.CEEMDAN.accumulate N e c)), ?_, ?_, ?_, by omega⟩
    · unfold accumulate
      refine (run_bind hr.read).trans ?_
      have g : grow N E c.length h = (.ok h.mats.length,
          { h with mats := h.mats ++ [e ++ List.replicate (c.length - e.length) (vzeros N)] }) := by
        unfold grow
        refine (run_bind (readMat_eq hE)).trans ?_
        exact (congrFun (if_pos hc) h).trans rfl
      refine (run_bind g).trans ?_
      refine (run_bind (readMat_eq (v := e ++ List.replicate (c.length - e.length) (vzeros N)) (by simp))).trans ?_
      rfl
    · exact Keeps.trans (h' := { h with mats := h.mats ++ [e ++ List.replicate (c.length - e.length) (vzeros N)] })
        (keeps_newMat _ (by omega)) (keeps_setMat _ (by omega))
    · dsimp only
      rw [List.getElem?_set_self (by simp)]
  · refine ⟨E, { h with mats := h.mats.set E (PyEMD.CEEMDAN.accumulate N e c) }, ?_, keeps_setMat _ hmE, ?_, hmE⟩
    · unfold accumulate
      refine (run_bind hr.read).trans ?_
      have g : grow N E c.length h = (.ok E, h) := by
        unfold grow
        refine (run_bind (readMat_eq hE)).trans ?_
        exact (congrFun (if_neg hc) h).trans rfl
      refine (run_bind g).trans ?_
      refine (run_bind (readMat_eq hE)).trans ?_
      have h0 : c.length - e.length = 0 := by omega
      have ha : PyEMD.CEEMDAN.accumulate N e c =
          List.zipWith (fun a b => vadd a b) (e.take c.length) c ++ e.drop c.length := by
        unfold PyEMD.CEEMDAN.accumulate
        rw [h0, List.replicate_zero, List.append_nil]
      rw [ha]
      rfl
    · dsimp only
      rw [List.getElem?_set_self hl]

theorem collect_sim {fuel : Nat} {sp : SciPy α} {cfg : Cfg α} {ecfg : EMD.Cfg α} {noise : List MatRef}
    {cs : List (List (List α))} {S T N n m : Nat} {s t : List α} {maxImf : Int} (ts : List Nat) {E : Nat} {e : List (List α)}
    {h : Heap α} (hN : HoldsAll m h noise cs) (hS : h.vecs[S]? = some s) (hT : h.vecs[T]? = some t) (hSn : S < n) (hTn : T < n)
    (hn : n ≤ h.vecs.length) (hE : h.mats[E]? = some e) (hm : m ≤ E) :
    Sim n m h (mapE (PyEMD.CEEMDAN.trialUpdate fuel sp cfg ecfg cs s t maxImf) ts >>= fun rs =>
        .ok (rs.foldl (PyEMD.CEEMDAN.accumulate N) e)) (collect fuel sp cfg ecfg noise S T N maxImf ts E h)
      (fun b c h' => h'.mats[b]? = some c ∧ m ≤ b) := by
  induction ts generalizing E e h with
  | nil => exact Sim.pure ⟨hE, hm⟩
  | cons x ts ih =>
    have hl := lt_of_cell hE
    have e0 : (mapE (PyEMD.CEEMDAN.trialUpdate fuel sp cfg ecfg cs s t maxImf) (x :: ts) >>= fun rs =>
        (.ok (rs.foldl (PyEMD.CEEMDAN.accumulate N) e) : PyM _)) =
        (PyEMD.CEEMDAN.trialUpdate fuel sp cfg ecfg cs s t maxImf x >>= fun r =>
          mapE (PyEMD.CEEMDAN.trialUpdate fuel sp cfg ecfg cs s t maxImf) ts >>= fun rs =>
            .ok (rs.foldl (PyEMD.CEEMDAN.accumulate N) (PyEMD.CEEMDAN.accumulate N e r))) := by
      rw [mapE_cons, bind_assoc]
      congr 1
      funext r
      rw [bind_assoc]
      rfl
    rw [e0]
    unfold collect
    have h1 := trialUpdate_sim (fuel := fuel) (sp := sp) (cfg := cfg) (ecfg := ecfg) (maxImf := maxImf) (trial := x)
      (HoldsAll.keeps (n := 0) hN Keeps.refl (by omega : m ≤ h.mats.length)) hS hT
    have h1' := (h1.bounds hn (by omega : m ≤ h.mats.length)).mono'
      (R' := fun b c h' => Holds h'.mats.length h' b c ∧ Keeps h.vecs.length h.mats.length h h') h1.1 (fun _ _ k r => ⟨r, k⟩)
    refine Sim.bind h1' (fun b c h' k hr => ?_)
    obtain ⟨hb, kf⟩ := hr
    have hE' : h'.mats[E]? = some e := (kf.2.1 _ hl).trans hE
    obtain ⟨E', h'', r1, r2, r3, r4⟩ := accumulate_run (n := n) (N := N) hE' hm hb
    refine Sim.step r1 r2 ?_
    have k2 := k.trans r2
    exact ih (HoldsAll.keeps hN k2 le_rfl) ((k2.1 _ hSn).trans hS) ((k2.1 _ hTn).trans hT) (hn.trans k2.2.2.1) r3 r4

/-- `_eemd` after the time array. -/
theorem eemd_rest {fuel : Nat} {sp : SciPy α} {cfg : Cfg α} {ecfg : EMD.Cfg α} {noise : List MatRef} {cs : List (List (List α))}
    {S T : Nat} {s t : List α} {maxImf : Int} {h : Heap α}
    (hN : HoldsAll h.mats.length h noise cs) (hS : h.vecs[S]? = some s) (hT : h.vecs[T]? = some t) :
    Full h (mapE (PyEMD.CEEMDAN.trialUpdate fuel sp cfg ecfg cs s t maxImf) (List.range cfg.trials) >>= fun rs =>
        if cfg.trials = 0 then .error .nonFinite
        else .ok ((rs.foldl (PyEMD.CEEMDAN.accumulate s.length) [vzeros s.length]).map (fun r => vdiv r (lit (cfg.trials : ℚ)))))
      ((do
        let E ← newMat [vzeros s.length]
        let E ← collect fuel sp cfg ecfg noise S T s.length maxImf (List.range cfg.trials) E
        if cfg.trials = 0 then py (.error .nonFinite)
        else
          let e ← readMat E
          newMat (e.map (fun r => vdiv r (lit (cfg.trials : ℚ)))) : MemM α Nat) h)
      (fun b c h' => h'.mats[b]? = some c) := by
  refine Sim.step (b := h.mats.length) rfl (keeps_newMat _ le_rfl) ?_
  have hc := collect_sim (fuel := fuel) (sp := sp) (cfg := cfg) (ecfg := ecfg) (maxImf := maxImf) (N := s.length)
    (n := h.vecs.length) (m := h.mats.length) (List.range cfg.trials) (E := h.mats.length) (e := [vzeros s.length])
    (h := { h with mats := h.mats ++ [[vzeros s.length]] })
    (HoldsAll.keeps (n := 0) hN (keeps_newMat _ le_rfl) le_rfl) hS hT (lt_of_cell hS) (lt_of_cell hT) le_rfl (by simp) le_rfl
  have e0 : ∀ p : PyM (List (List (List α))), (p >>= fun rs =>
        if cfg.trials = 0 then .error .nonFinite
        else .ok ((rs.foldl (PyEMD.CEEMDAN.accumulate s.length) [vzeros s.length]).map (fun r => vdiv r (lit (cfg.trials : ℚ))))) =
      ((p >>= fun rs => (.ok (rs.foldl (PyEMD.CEEMDAN.accumulate s.length) [vzeros s.length]) : PyM _)) >>= fun E =>
        if cfg.trials = 0 then .error .nonFinite else .ok (E.map (fun r => vdiv r (lit (cfg.trials : ℚ))))) := by
    intro p; cases p <;> rfl
  rw [e0]
  refine Sim.bind hc (fun b c h' k hr => ?_)
  by_cases hz : cfg.trials = 0
  · rw [if_pos hz, if_pos hz]
    exact ⟨Keeps.refl, rfl⟩
  · rw [if_neg hz, if_neg hz]
    refine Sim.step (readMat_eq hr.1) Keeps.refl ?_
    refine ⟨keeps_newMat _ ?_, by simp [newMat]⟩
    exact Nat.le_of_lt (lt_of_le_of_lt hr.2 (lt_of_cell hr.1))

theorem eemd_sim {fuel : Nat} {sp : SciPy α} {cfg : Cfg α} {ecfg : EMD.Cfg α} {noise : List MatRef} {cs : List (List (List α))}
    {S : Nat} {T : Option Nat} {s : List α} {t : Option (List α)} {maxImf : Int} {order : List Nat} {h : Heap α}
    (hp : cfg.parallel = false) (hN : HoldsAll h.mats.length h noise cs) (hS : h.vecs[S]? = some s)
    (hT : TimeIs h.vecs.length h T t) :
    Full h (PyEMD.CEEMDAN.eemd fuel sp cfg ecfg cs order s t maxImf) (eemd fuel sp cfg ecfg noise S T maxImf h)
      (fun b c h' => h'.mats[b]? = some c) := by
  have e0 : PyEMD.CEEMDAN.eemd fuel sp cfg ecfg cs order s t maxImf =
      (mapE (PyEMD.CEEMDAN.trialUpdate fuel sp cfg ecfg cs s
        (t.getD ((List.range s.length).map (fun k : Nat => lit (k : ℚ)))) maxImf) (List.range cfg.trials) >>= fun rs =>
        if cfg.trials = 0 then .error .nonFinite
        else .ok ((rs.foldl (PyEMD.CEEMDAN.accumulate s.length) [vzeros s.length]).map (fun r => vdiv r (lit (cfg.trials : ℚ))))) := by
    clear hT
    unfold PyEMD.CEEMDAN.eemd
    rw [hp]
    dsimp only
    rw [if_neg (by simp)]
    cases t with
    | none =>
      dsimp only [Option.getD]
      cases mapE (PyEMD.CEEMDAN.trialUpdate fuel sp cfg ecfg cs s
        ((List.range s.length).map (fun k : Nat => lit (k : ℚ))) maxImf) (List.range cfg.trials) <;> rfl
    | some t =>
      dsimp only [Option.getD]
      cases mapE (PyEMD.CEEMDAN.trialUpdate fuel sp cfg ecfg cs s t maxImf) (List.range cfg.trials) <;> rfl
  rw [e0]
  unfold eemd
  refine Full.step (readVec_eq hS) Keeps.refl ?_
  cases hT with
  | none =>
    have k := keeps_newVec (h := h) (m := h.mats.length) ((List.range s.length).map (fun k : Nat => (lit (k : ℚ) : α))) le_rfl
    refine Full.step (b := h.vecs.length) rfl k ?_
    exact eemd_rest (HoldsAll.keeps hN k k.2.2.2) (cell_keeps hS k) (by simp)
  | some ha e =>
    refine Full.step (b := _) rfl Keeps.refl ?_
    exact eemd_rest hN hS e

theorem firstRow_head {c : List (List α)} {i : List α} (e : firstRow c = .ok i) : c.take 1 = [i] := by
  cases c with
  | nil => cases e
  | cons x xs => cases e; rfl

theorem endCondition_sim {fuel : Nat} {sp : SciPy α} {cfg : Cfg α} {ecfg : EMD.Cfg α} {S : Nat} {r : MatRef} {s : List α}
    {c : List (List α)} {maxImf : Int} {h : Heap α} (hS : h.vecs[S]? = some s) (hr : Holds h.mats.length h r c) :
    Full h (PyEMD.CEEMDAN.endCondition fuel sp cfg ecfg s c maxImf) (endCondition fuel sp cfg ecfg S r maxImf h)
      (fun b c _ => b = c) := by
  have e0 : PyEMD.CEEMDAN.endCondition fuel sp cfg ecfg s c maxImf =
      if 0 < maxImf ∧ maxImf ≤ (c.length : Int) then .ok true
      else PyEMD.CEEMDAN.emd fuel sp ecfg (vsub s (sumRows s.length c)) none 1 >>= fun test =>
        if test.length = 1 then .ok true else thresholds cfg (vsub s (sumRows s.length c)) := by
    unfold PyEMD.CEEMDAN.endCondition
    by_cases hc : 0 < maxImf ∧ maxImf ≤ (c.length : Int)
    · rw [if_pos hc, if_pos hc]; rfl
    · rw [if_neg hc, if_neg hc]
      dsimp only [bind, Except.bind, pure, Except.pure]
      cases PyEMD.CEEMDAN.emd fuel sp ecfg (vsub s (sumRows s.length c)) none 1 with
      | error e => rfl
      | ok test =>
        dsimp only
        by_cases ht : test.length = 1
        · rw [if_pos ht, if_pos ht]
        · rw [if_neg ht, if_neg ht]; rfl
  rw [e0]
  unfold endCondition
  refine Full.step hr.read Keeps.refl ?_
  by_cases hc : 0 < maxImf ∧ maxImf ≤ (c.length : Int)
  · rw [if_pos hc, if_pos hc]; exact Sim.pure rfl
  · rw [if_neg hc, if_neg hc]
    refine Full.step (readVec_eq hS) Keeps.refl ?_
    refine Full.step (b := h.vecs.length) rfl (keeps_newVec _ le_rfl) ?_
    have hR : (h.vecs ++ [vsub s (sumRows s.length c)])[h.vecs.length]? = some (vsub s (sumRows s.length c)) := by simp
    refine Full.bind (inner_sim (n := 0) hR .none) (fun b test h' k hb => ?_)
    refine Full.step hb.read Keeps.refl ?_
    by_cases ht : test.length = 1
    · rw [if_pos ht, if_pos ht]; exact Sim.pure rfl
    · rw [if_neg ht, if_neg ht]
      refine Full.step (readVec_eq (cell_keeps hR k)) Keeps.refl ?_
      refine ⟨Keeps.refl, ?_⟩
      unfold py
      cases thresholds cfg (vsub s (sumRows s.length c)) <;> rfl

theorem stageTrial_sim {fuel : Nat} {sp : SciPy α} {cfg : Cfg α} {ecfg : EMD.Cfg α} {prev k lm n m : Nat} {T : Option Nat}
    {t : Option (List α)} {beta : α} {r : MatRef} {p l : List α} {c : List (List α)} {h : Heap α}
    (hp : h.vecs[prev]? = some p) (hT : TimeIs h.vecs.length h T t) (hr : Holds h.mats.length h r c) (hl : h.vecs[lm]? = some l)
    (hn : n ≤ lm) (hm : m ≤ h.mats.length) :
    Sim n m h (PyEMD.CEEMDAN.stageTrial fuel sp ecfg p t beta k c) (stageTrial fuel sp cfg ecfg prev T beta k lm r h)
      (fun _ last h' => h'.vecs[lm]? = some (vadd l (vdiv last (lit (cfg.trials : ℚ))))) := by
  have hll := lt_of_cell hl
  have hpl := lt_of_cell hp
  have e0 : PyEMD.CEEMDAN.stageTrial fuel sp ecfg p t beta k c =
      (PyEMD.CEEMDAN.emd fuel sp ecfg (match c[k]? with | some x => vadd p (vscale beta x) | none => p) t 1 >>= fun imfs =>
        lastRow imfs >>= fun last => .ok last) := by
    unfold PyEMD.CEEMDAN.stageTrial
    dsimp only
    simp only [bind_ok]
    cases PyEMD.CEEMDAN.emd fuel sp ecfg (match c[k]? with | some x => vadd p (vscale beta x) | none => p) t 1 <;> rfl
  rw [e0]
  unfold stageTrial
  refine Sim.step (copyVec_eq hp) (keeps_newVec _ (by omega)) ?_
  -- the noise
  have hadd : ∃ h1, addNoise h.vecs.length beta k r { h with vecs := h.vecs ++ [p] } = (.ok (), h1) ∧
      Keeps h.vecs.length h.mats.length { h with vecs := h.vecs ++ [p] } h1 ∧
      h1.vecs[h.vecs.length]? = some (match c[k]? with | some x => vadd p (vscale beta x) | none => p) := by
    have hr1 : Holds h.mats.length { h with vecs := h.vecs ++ [p] } r c := ⟨hr.lt, hr.rows⟩
    cases hx : c[k]? with
    | none =>
      refine ⟨_, ?_, Keeps.refl, by simp⟩
      unfold addNoise
      refine (run_bind hr1.read).trans ?_
      rw [hx]; rfl
    | some x =>
      refine ⟨{ h with vecs := (h.vecs ++ [p]).set h.vecs.length (vadd p (vscale beta x)) }, ?_, keeps_set _ le_rfl, ?_⟩
      · unfold addNoise
        refine (run_bind hr1.read).trans ?_
        rw [hx]
        dsimp only
        refine (run_bind (readVec_eq (v := p) (by simp))).trans ?_
        rfl
      · dsimp only
        rw [List.getElem?_set_self (by simp)]
  obtain ⟨h1, a1, a2, a3⟩ := hadd
  refine Sim.step a1 (a2.mono (by omega) hm) ?_
  have k1 : Keeps h.vecs.length h.mats.length h h1 := (keeps_newVec _ le_rfl).trans a2
  have hI := inner_sim (fuel := fuel) (sp := sp) (ecfg := ecfg) (maxImf := 1) a3 (hT.keeps k1 le_rfl)
  have hb1 : n ≤ h1.vecs.length := (hn.trans hll.le).trans k1.2.2.1
  have hI' := (hI.bounds hb1 (hm.trans k1.2.2.2)).mono'
    (R' := fun b c h' => Holds h'.mats.length h' b c ∧ Keeps h1.vecs.length h1.mats.length h1 h') hI.1 (fun _ _ k r => ⟨r, k⟩)
  refine Sim.bind hI' (fun b imfs h2 k2 hb => ?_)
  obtain ⟨hb, k2⟩ := hb
  refine Sim.step hb.read Keeps.refl ?_
  refine Sim.pyBind (fun last _ => ?_)
  have hl2 : h2.vecs[lm]? = some l := cell_keeps (cell_keeps hl k1) k2
  refine Sim.step (readVec_eq hl2) Keeps.refl ?_
  refine ⟨keeps_set _ hn, ?_⟩
  exact List.getElem?_set_self (lt_of_cell hl2)

theorem stageTrials_sim {fuel : Nat} {sp : SciPy α} {cfg : Cfg α} {ecfg : EMD.Cfg α} {prev k lm n m : Nat} {T : Option Nat}
    {t : Option (List α)} {beta : α} (rs : List MatRef) {p l : List α} {cs : List (List (List α))} {h : Heap α}
    (hp : h.vecs[prev]? = some p) (hpn : prev < n) (hT : TimeIs n h T t) (hr : HoldsAll m h rs cs) (hl : h.vecs[lm]? = some l)
    (hn : n ≤ lm) (hm : m ≤ h.mats.length) :
    Sim n m h (mapE (PyEMD.CEEMDAN.stageTrial fuel sp ecfg p t beta k) cs) (stageTrials fuel sp cfg ecfg prev T beta k lm rs h)
      (fun _ c h' => h'.vecs[lm]? = some ((c.map (fun r => vdiv r (lit (cfg.trials : ℚ)))).foldl vadd l)) := by
  induction rs generalizing cs h l with
  | nil => cases hr; exact Sim.pure hl
  | cons r rs ih =>
    obtain _ | @⟨_, c, _, cs, hc, hr⟩ := hr
    have hll := lt_of_cell hl
    rw [mapE_cons]
    unfold stageTrials
    refine Sim.bind (stageTrial_sim hp (hT.keeps (m := 0) Keeps.refl (by omega)) (hc.keeps (n := 0) Keeps.refl hm) hl hn hm)
      (fun _ last h' k hb => ?_)
    have i := ih ((k.1 _ hpn).trans hp) (hT.keeps k le_rfl) (HoldsAll.keeps hr k le_rfl) hb (hm.trans k.2.2.2)
    exact Sim.mapOk i

theorem localMean_sim {std : List α → α} {fuel : Nat} {sp : SciPy α} {cfg : Cfg α} {ecfg : EMD.Cfg α} {noise : List MatRef}
    {cs : List (List (List α))} {prev k : Nat} {T : Option Nat} {t : Option (List α)} {p : List α} {h : Heap α}
    (hN : HoldsAll h.mats.length h noise cs) (hp : h.vecs[prev]? = some p) (hT : TimeIs h.vecs.length h T t) :
    Full h (PyEMD.CEEMDAN.localMean std fuel sp cfg ecfg cs p t k) (localMean std fuel sp cfg ecfg noise prev T k h)
      (fun b c h' => h'.vecs[b]? = some c) := by
  have e0 : PyEMD.CEEMDAN.localMean std fuel sp cfg ecfg cs p t k =
      (mapE (PyEMD.CEEMDAN.stageTrial fuel sp ecfg p t (cfg.epsilon * std p) k) (cs.take cfg.trials) >>= fun rs =>
        .ok (sumRows p.length (rs.map (fun r => vdiv r (lit (cfg.trials : ℚ)))))) := by
    unfold PyEMD.CEEMDAN.localMean
    dsimp only
    cases mapE (PyEMD.CEEMDAN.stageTrial fuel sp ecfg p t (cfg.epsilon * std p) k) (cs.take cfg.trials) <;> rfl
  rw [e0]
  unfold localMean
  refine Full.step (readVec_eq hp) Keeps.refl ?_
  have k0 := keeps_newVec (h := h) (m := h.mats.length) (vzeros p.length) le_rfl
  refine Sim.step (b := h.vecs.length) rfl k0 ?_
  have ht := stageTrials_sim (fuel := fuel) (sp := sp) (cfg := cfg) (ecfg := ecfg) (k := k) (beta := cfg.epsilon * std p)
    (n := h.vecs.length) (m := h.mats.length) (lm := h.vecs.length) (l := vzeros p.length) (noise.take cfg.trials)
    (cs := cs.take cfg.trials) (cell_keeps hp k0) (lt_of_cell hp) (hT.keeps k0 le_rfl)
    (List.forall₂_take cfg.trials (HoldsAll.keeps hN k0 le_rfl)) (by simp) le_rfl le_rfl
  refine Sim.bind ht (fun _ c h' k1 hr => ?_)
  exact Sim.pure hr

theorem stages_sim {std : List α → α} {fuel : Nat} {sp : SciPy α} {cfg : Cfg α} {ecfg : EMD.Cfg α} {noise : List MatRef}
    {cs : List (List (List α))} {S : Nat} {s : List α} {T : Option Nat} {t : Option (List α)} {maxImf : Int} (n : Nat)
    {r : MatRef} {c : List (List α)} {prev : Nat} {p : List α} {h : Heap α}
    (hN : HoldsAll h.mats.length h noise cs) (hS : h.vecs[S]? = some s) (hT : TimeIs h.vecs.length h T t)
    (hr : Holds h.mats.length h r c) (hp : h.vecs[prev]? = some p) :
    Full h (PyEMD.CEEMDAN.stages std fuel sp cfg ecfg cs s t maxImf n c p)
      (stages std fuel sp cfg ecfg noise S T maxImf n r prev h) (fun b c h' => Holds h'.mats.length h' b c) := by
  induction n generalizing r c prev p h with
  | zero => exact Sim.pure hr
  | succ n ih =>
    have e0 : PyEMD.CEEMDAN.stages std fuel sp cfg ecfg cs s t maxImf (n + 1) c p =
        (PyEMD.CEEMDAN.endCondition fuel sp cfg ecfg s c maxImf >>= fun fin =>
          if fin then .ok c
          else PyEMD.CEEMDAN.localMean std fuel sp cfg ecfg cs p t c.length >>= fun lm =>
            PyEMD.CEEMDAN.stages std fuel sp cfg ecfg cs s t maxImf n (c ++ [vsub p lm]) lm) := by
      rw [PyEMD.CEEMDAN.stages]
      cases PyEMD.CEEMDAN.endCondition fuel sp cfg ecfg s c maxImf with
      | error e => rfl
      | ok fin =>
        cases fin with
        | true => rfl
        | false =>
          dsimp only [bind, Except.bind]
          rw [if_neg (by simp)]
          cases PyEMD.CEEMDAN.localMean std fuel sp cfg ecfg cs p t c.length <;> rfl
    rw [e0]
    unfold stages
    refine Full.bind (endCondition_sim hS hr) (fun fin fin' h1 k1 hf => ?_)
    subst hf
    have hr1 := hr.keeps k1 k1.2.2.2
    by_cases hc : fin = true
    · rw [if_pos hc, if_pos hc]; exact Sim.pure hr1
    · rw [if_neg hc, if_neg hc]
      refine Full.step hr1.read Keeps.refl ?_
      refine Full.bind (localMean_sim (HoldsAll.keeps hN k1 k1.2.2.2) (cell_keeps hp k1) (hT.keeps k1 k1.2.2.1))
        (fun b lm h2 k2 hb => ?_)
      have k12 := k1.trans (k2.mono k1.2.2.1 k1.2.2.2)
      have hp2 := cell_keeps hp k12
      refine Full.step (readVec_eq hp2) Keeps.refl ?_
      refine Full.step (readVec_eq hb) Keeps.refl ?_
      have k3 := keeps_newVec (h := h2) (m := h2.mats.length) (vsub p lm) le_rfl
      refine Full.step (b := h2.vecs.length) rfl k3 ?_
      refine Full.step (readVec_eq (v := vsub p lm) (by simp)) Keeps.refl ?_
      have k4 := keeps_newMat (h := { h2 with vecs := h2.vecs ++ [vsub p lm] }) (n := (h2.vecs ++ [vsub p lm]).length)
        (c ++ [vsub p lm]) le_rfl
      refine Full.step (b := h2.mats.length) rfl k4 ?_
      have hb4 := cell_keeps (cell_keeps hb k3) k4
      have k5 := keeps_newVec (h := { vecs := h2.vecs ++ [vsub p lm], mats := h2.mats ++ [c ++ [vsub p lm]] })
        (m := (h2.mats ++ [c ++ [vsub p lm]]).length) lm le_rfl
      refine Full.step (copyVec_eq hb4) k5 ?_
      have K := ((k12.trans (k3.mono k12.2.2.1 k12.2.2.2)).trans
        (k4.mono (k12.2.2.1.trans k3.2.2.1) (k12.2.2.2.trans k3.2.2.2))).trans
        (k5.mono ((k12.2.2.1.trans k3.2.2.1).trans k4.2.2.1) ((k12.2.2.2.trans k3.2.2.2).trans k4.2.2.2))
      refine ih (HoldsAll.keeps hN K K.2.2.2) (cell_keeps hS K) (hT.keeps K K.2.2.1)
        ⟨by simp, by simp [List.take_of_length_le]⟩ ?_
      simp

theorem body_sim {std : List α → α} {fuel : Nat} {sp : SciPy α} {cfg : Cfg α} {ecfg : EMD.Cfg α} {noise : List MatRef}
    {cs : List (List (List α))} {order : List Nat} {S : Nat} {s : List α} {T : Option Nat} {t : Option (List α)} {maxImf : Int}
    {h : Heap α} (hpar : cfg.parallel = false)
    (hN : HoldsAll h.mats.length h noise cs) (hS : h.vecs[S]? = some s) (hT : TimeIs h.vecs.length h T t) :
    Full h (PyEMD.CEEMDAN.body std fuel sp cfg ecfg cs order s t maxImf)
      (body std fuel sp cfg ecfg noise S T maxImf h) (fun b c h' => h'.mats[b]? = some c) := by
  have e0 : PyEMD.CEEMDAN.body std fuel sp cfg ecfg cs order s t maxImf =
      (PyEMD.CEEMDAN.eemd fuel sp cfg ecfg cs order s t 1 >>= fun E =>
        firstRow E >>= fun first =>
        PyEMD.CEEMDAN.stages std fuel sp cfg ecfg cs s t maxImf cfg.maxStages [first] (vsub s first) >>= fun c =>
        .ok (c ++ [vsub s (sumRows s.length c)])) := by
    unfold PyEMD.CEEMDAN.body
    cases PyEMD.CEEMDAN.eemd fuel sp cfg ecfg cs order s t 1 with
    | error e => rfl
    | ok E =>
      cases E with
      | nil => rfl
      | cons first es =>
        dsimp only [bind, Except.bind, firstRow]
        cases PyEMD.CEEMDAN.stages std fuel sp cfg ecfg cs s t maxImf cfg.maxStages [first] (vsub s first) <;> rfl
  rw [e0]
  unfold body
  refine Full.bind (eemd_sim hpar hN hS hT) (fun b E h1 k1 hb => ?_)
  refine Full.step (readMat_eq hb) Keeps.refl ?_
  refine Sim.pyBind (fun first hf => ?_)
  have hS1 := cell_keeps hS k1
  refine Full.step (readVec_eq hS1) Keeps.refl ?_
  have k2 := keeps_newVec (h := h1) (m := h1.mats.length) (vsub s first) le_rfl
  refine Full.step (b := h1.vecs.length) rfl k2 ?_
  have K := k1.trans (k2.mono k1.2.2.1 k1.2.2.2)
  have hE : Holds h1.mats.length { h1 with vecs := h1.vecs ++ [vsub s first] } { addr := b, rows := 1 } [first] :=
    ⟨lt_of_cell hb, by dsimp only; rw [hb, Option.getD_some]; exact firstRow_head hf⟩
  refine Full.bind (stages_sim cfg.maxStages (HoldsAll.keeps hN K K.2.2.2) (cell_keeps hS K) (hT.keeps K K.2.2.1) hE (by simp))
    (fun r c h3 k3 hr => ?_)
  refine Full.step hr.read Keeps.refl ?_
  refine ⟨keeps_newMat _ le_rfl, ?_⟩
  simp [newMat]

theorem newVecs_run (xs : List (List α)) (h : Heap α) :
    ∃ as h', newVecs xs h = (.ok as, h') ∧ Keeps h.vecs.length h.mats.length h h' ∧ VecsAre h' as xs := by
  induction xs generalizing h with
  | nil => exact ⟨[], h, rfl, Keeps.refl, .nil⟩
  | cons x xs ih =>
    have k0 := keeps_newVec (h := h) (m := h.mats.length) x le_rfl
    obtain ⟨as, h', r1, r2, r3⟩ := ih { h with vecs := h.vecs ++ [x] }
    refine ⟨h.vecs.length :: as, h', ?_, k0.trans (r2.mono k0.2.2.1 k0.2.2.2), .cons ?_ r3⟩
    · unfold newVecs
      refine (run_bind (prog := newVec x) (b := h.vecs.length) (h' := { h with vecs := h.vecs ++ [x] }) rfl).trans ?_
      exact (run_bind r1).trans rfl
    · exact cell_keeps (by simp) r2

end

end CEEMDAN
end Mem
end PyEMD
