import Verif.Lemmas.MemoryCeemdan
import Verif.Spec.MemoryCeemdan
import Verif.Props.MemoryEemd
import Verif.Props.Ceemdan

/-!
# Properties C118, C119: `CEEMDAN` and arrays in memory
-/

set_option linter.unusedSectionVars false

namespace PyEMD
namespace Mem
namespace CEEMDAN
open Spec
open EEMD (Untouched.rfl' Untouched.trans' Untouched.vec Untouched.mat Untouched.vec_lt Untouched.mat_lt untouched_vec untouched_mat)
open PyEMD.CEEMDAN (Cfg vdiv vscale mapE)

section
variable {α ρ : Type} [Add α] [Sub α] [Mul α] [Div α] [Neg α] [LT α] [LE α] [BEq α]
  [DecidableLT α] [DecidableLE α] [NpScalar α]

theorem untouched_of_keeps {h h' : Heap α} (k : Keeps h.vecs.length h.mats.length h h') : Untouched h h' :=
  ⟨fun _ _ e => (k.1 _ (lt_of_cell e)).trans e, fun _ _ e => (k.2.1 _ (lt_of_cell e)).trans e⟩

theorem validC_untouched {h h' : Heap α} (u : Untouched h h') {o : Obj α ρ} (v : ValidC h o) : ValidC h' o :=
  ⟨fun a ha => Untouched.vec_lt u (v.1 a ha), fun r hr => Untouched.mat_lt u (v.2.1 r hr),
   fun a e => Untouched.mat_lt u (v.2.2.1 a e), fun a e => Untouched.vec_lt u (v.2.2.2 a e)⟩

theorem shownC_untouched {h h' : Heap α} (u : Untouched h h') {o : Obj α ρ} (v : ValidC h o) : shownC h' o = shownC h o := by
  unfold shownC
  congr 1
  · exact List.map_congr_left (fun a ha => by rw [Untouched.vec u (v.1 a ha)])
  · exact List.map_congr_left (fun r hr => by unfold contents; rw [Untouched.mat u (v.2.1 r hr)])
  · cases hi : o.C_IMF with
    | none => rfl
    | some a => simp [Untouched.mat u (v.2.2.1 a hi)]
  · cases hi : o.residue with
    | none => rfl
    | some a => simp [Untouched.vec u (v.2.2.2 a hi)]

theorem holdsAll_contents {m : Nat} {h : Heap α} {rs : List MatRef} {cs : List (List (List α))} (a : HoldsAll m h rs cs) :
    rs.map (contents h) = cs := by
  induction a with
  | nil => rfl
  | cons x _ ih => rw [List.map_cons, ih]; congr 1; exact x.rows

theorem holdsAll_lt {m : Nat} {h : Heap α} {rs : List MatRef} {cs : List (List (List α))} (a : HoldsAll m h rs cs) :
    ∀ r ∈ rs, r.addr < m := by
  induction a with
  | nil => exact fun _ hr => nomatch hr
  | cons x _ ih =>
    intro r hr
    rcases List.mem_cons.1 hr with rfl | hr
    · exact x.lt
    · exact ih r hr

theorem vecsAre_read {h : Heap α} {as : List Nat} {xs : List (List α)} (a : VecsAre h as xs) :
    as.map (fun a => h.vecs[a]?.getD []) = xs := by
  induction a with
  | nil => rfl
  | cons x _ ih => rw [List.map_cons, ih, x]; rfl

theorem vecsAre_lt {h : Heap α} {as : List Nat} {xs : List (List α)} (a : VecsAre h as xs) : ∀ b ∈ as, b < h.vecs.length := by
  induction a with
  | nil => exact fun _ hr => nomatch hr
  | cons x _ ih =>
    intro r hr
    rcases List.mem_cons.1 hr with rfl | hr
    · exact lt_of_cell x
    · exact ih r hr

theorem newVecs_fresh (xs : List (List α)) {h h' : Heap α} {as : List Nat} (e : newVecs xs h = (.ok as, h')) :
    ∀ a ∈ as, h.vecs.length ≤ a := by
  induction xs generalizing h as with
  | nil => cases e; exact fun _ ha => nomatch ha
  | cons x xs ih =>
    obtain ⟨bs, h1, r1, -, -⟩ := newVecs_run xs { h with vecs := h.vecs ++ [x] }
    have e1 : newVecs (x :: xs) h = (.ok (h.vecs.length :: bs), h1) := by
      unfold newVecs
      refine (run_bind (prog := newVec x) (b := h.vecs.length) (h' := { h with vecs := h.vecs ++ [x] }) rfl).trans ?_
      exact (run_bind r1).trans rfl
    rw [e1] at e
    cases e
    intro a ha
    rcases List.mem_cons.1 ha with rfl | ha
    · exact le_rfl
    · have := ih r1 a ha
      simp only [List.length_append, List.length_singleton] at this
      omega

/-- **C118.**  `CEEMDAN.ceemdan` in sequential mode on arrays in memory.  Whatever the call does - also when it raises - no array
that existed before it is written to; the array returned, the exception raised and everything the object shows afterwards are
those of the computation on values. -/
theorem C118_values (rng : Rng α ρ) (std : List α → α) (fuel : Nat) (sp : SciPy α) (o : Obj α ρ) (S : Nat) (T : Option Nat)
    (maxImf : Int) (h : Heap α) (s : List α) (orderN orderT : List Nat) (hS : h.vecs[S]? = some s)
    (hT : ∀ a, T = some a → a < h.vecs.length) (hp : o.cfg.parallel = false) (ho : ValidC h o) :
    SameC h (o.ceemdan rng std fuel sp S T maxImf h)
      ((shownC h o).ceemdan rng std fuel sp orderN orderT s (T.map (fun a => h.vecs[a]?.getD [])) maxImf) := by
  have hcfg : (shownC h o).cfg = o.cfg := rfl
  have hrnd : (shownC h o).random = o.random := rfl
  have hemd : (shownC h o).emd = o.emd := rfl
  have hTI : TimeIs h.vecs.length h T (T.map (fun a => h.vecs[a]?.getD [])) := by
    cases T with
    | none => exact .none
    | some a => exact .some (hT a rfl) (by simp [List.getElem?_eq_getElem (hT a rfl)])
  generalize T.map (fun a => h.vecs[a]?.getD []) = t at hTI
  unfold Obj.ceemdan PyEMD.CEEMDAN.Obj.ceemdan
  rw [hS, Option.getD_some, hcfg, hrnd, hemd]
  dsimp only
  by_cases hz : (std s == lit 0) = true
  · rw [if_pos hz, if_pos hz]
    exact ⟨Untouched.rfl', rfl, rfl, ho⟩
  rw [if_neg hz, if_neg hz]
  have k0 := keeps_newVec (h := h) (m := h.mats.length) (vdiv s (std s)) le_rfl
  have hS0 : ({ h with vecs := h.vecs ++ [vdiv s (std s)] } : Heap α).vecs[h.vecs.length]? = some (vdiv s (std s)) := by simp
  have hT0 := hTI.keeps k0 k0.2.2.1
  have u0 := untouched_of_keeps k0
  generalize ({ h with vecs := h.vecs ++ [vdiv s (std s)] } : Heap α) = h0 at hS0 hT0 u0 ⊢
  clear k0
  generalize vdiv s (std s) = q at hS0 ⊢
  generalize h.vecs.length = S0 at hS0 ⊢
  have hv0 := validC_untouched u0 ho
  have hs0 := shownC_untouched u0 ho
  cases hn : PyEMD.CEEMDAN.noises rng o.cfg o.random q.length with
  | mk x r =>
  cases x with
  | error e => exact ⟨u0, rfl, by rw [← hs0]; rfl, hv0⟩
  | ok x =>
    obtain ⟨as, h1, e1, k1, v1⟩ := newVecs_run x h0
    have u1 := Untouched.trans' u0 (untouched_of_keeps k1)
    have hv1 := validC_untouched u1 ho
    have hs1 := shownC_untouched u1 ho
    dsimp only
    rw [e1]
    dsimp only
    have hd := decomposeNoise_sim (std := std) (fuel := fuel) (sp := sp) (ecfg := o.emd) (order := orderN) hp as v1
    have hS1 := cell_keeps hS0 k1
    have hT1 := hT0.keeps k1 k1.2.2.1
    obtain ⟨k2, hd⟩ := hd
    have u2 := Untouched.trans' u1 (untouched_of_keeps k2)
    have hv2 := validC_untouched u2 ho
    have hs2 := shownC_untouched u2 ho
    have ea : as.map (fun a => (decomposeNoise std fuel sp o.cfg o.emd as h1).2.vecs[a]?.getD []) = x := by
      rw [← vecsAre_read v1]
      exact List.map_congr_left (fun a ha => by rw [k2.1 a (vecsAre_lt v1 a ha)])
    have la : ∀ a ∈ as, a < (decomposeNoise std fuel sp o.cfg o.emd as h1).2.vecs.length :=
      fun a ha => (vecsAre_lt v1 a ha).trans_le k2.2.2.1
    have hS2 := cell_keeps hS1 k2
    have hT2 := hT1.keeps k2 k2.2.2.1
    clear k2
    generalize decomposeNoise std fuel sp o.cfg o.emd as h1 = dm at hd u2 hv2 hs2 ea la hS2 hT2 ⊢
    generalize PyEMD.CEEMDAN.decomposeNoise std fuel sp o.cfg o.emd orderN x = dp at hd ⊢
    obtain ⟨dm, h2⟩ := dm
    cases dm with
    | error e =>
      cases dp with
      | ok c => exact hd.elim
      | error e' =>
        cases hd
        refine ⟨u2, rfl, ?_, la, hv2.2⟩
        rw [← hs2]
        unfold shownC
        dsimp only at ea ⊢
        rw [ea]
    | ok noise =>
      cases dp with
      | error e' => exact hd.elim
      | ok cs =>
        dsimp only at hd u2 hv2 hs2 ea la hS2 hT2 ⊢
        have hb := body_sim (std := std) (fuel := fuel) (sp := sp) (ecfg := o.emd) (order := orderT) (maxImf := maxImf) hp hd hS2 hT2
        obtain ⟨k3, hb⟩ := hb
        have u3 := Untouched.trans' u2 (untouched_of_keeps k3)
        have hv3 := validC_untouched u3 ho
        have hs3 := shownC_untouched u3 ho
        have hS3 := cell_keeps hS2 k3
        have hd3 := HoldsAll.keeps hd k3 k3.2.2.2
        have ea3 : as.map (fun a => (body std fuel sp o.cfg o.emd noise S0 T maxImf h2).2.vecs[a]?.getD []) = x := by
          rw [← ea]
          exact List.map_congr_left (fun a ha => by rw [k3.1 a (la a ha)])
        have la3 : ∀ a ∈ as, a < (body std fuel sp o.cfg o.emd noise S0 T maxImf h2).2.vecs.length :=
          fun a ha => (la a ha).trans_le k3.2.2.1
        clear k3
        generalize body std fuel sp o.cfg o.emd noise S0 T maxImf h2 = bm at hb u3 hv3 hs3 hS3 hd3 ea3 la3 ⊢
        generalize PyEMD.CEEMDAN.body std fuel sp o.cfg o.emd cs orderT q t maxImf = bp at hb ⊢
        obtain ⟨bm, h3⟩ := bm
        cases bm with
        | error e =>
          cases bp with
          | ok c => exact hb.elim
          | error e' =>
            cases hb
            refine ⟨u3, rfl, ?_, la3, holdsAll_lt hd3, hv3.2.2⟩
            rw [← hs3]
            unfold shownC
            dsimp only at ea3 ⊢
            rw [ea3, holdsAll_contents hd3]
        | ok a =>
          cases bp with
          | error e' => exact hb.elim
          | ok c =>
            dsimp only at hb u3 hv3 hs3 hS3 hd3 ea3 la3 ⊢
            unfold finish
            rw [hS3, hb, Option.getD_some, Option.getD_some]
            dsimp only
            have u4 := Untouched.trans' (untouched_vec h3 (vsub (vscale (std s) q) (sumRows q.length (c.map (vscale (std s))))))
              (untouched_mat _ (c.map (vscale (std s))))
            refine ⟨Untouched.trans' u3 u4, ?_, ?_, fun a ha => Untouched.vec_lt u4 (la3 a ha), fun _ hr => (nomatch hr), ?_, ?_⟩
            · simp
            · unfold shownC
              dsimp only
              congr 1
              · rw [← ea3]
                exact List.map_congr_left (fun a ha => by rw [Untouched.vec u4 (la3 a ha)])
              · simp
              · simp
            · intro a ha
              cases ha
              simp
            · intro a ha
              cases ha
              simp

/-- The arrays a successful call stores are new, and the one it returns is the stored one. -/
theorem ceemdan_fresh {rng : Rng α ρ} {std : List α → α} {fuel : Nat} {sp : SciPy α} {o : Obj α ρ} {S : Nat} {T : Option Nat}
    {maxImf : Int} {h : Heap α} {s : List α} (hS : h.vecs[S]? = some s) (hT : ∀ a, T = some a → a < h.vecs.length)
    (hp : o.cfg.parallel = false) {a : Nat} (hok : (o.ceemdan rng std fuel sp S T maxImf h).1 = .ok a) :
    (o.ceemdan rng std fuel sp S T maxImf h).2.1.C_IMF = some a ∧ h.mats.length ≤ a ∧
    (∃ d, (o.ceemdan rng std fuel sp S T maxImf h).2.1.residue = some d ∧ h.vecs.length ≤ d) ∧
    (∀ d ∈ (o.ceemdan rng std fuel sp S T maxImf h).2.1.allNoises, h.vecs.length ≤ d) := by
  have hTI : TimeIs h.vecs.length h T (T.map (fun a => h.vecs[a]?.getD [])) := by
    cases T with
    | none => exact .none
    | some a => exact .some (hT a rfl) (by simp [List.getElem?_eq_getElem (hT a rfl)])
  generalize T.map (fun a => h.vecs[a]?.getD []) = t at hTI
  unfold Obj.ceemdan at hok ⊢
  rw [hS, Option.getD_some] at hok ⊢
  dsimp only at hok ⊢
  by_cases hz : (std s == lit 0) = true
  · rw [if_pos hz] at hok; cases hok
  rw [if_neg hz] at hok ⊢
  have k0 := keeps_newVec (h := h) (m := h.mats.length) (vdiv s (std s)) le_rfl
  have hS0 : ({ h with vecs := h.vecs ++ [vdiv s (std s)] } : Heap α).vecs[h.vecs.length]? = some (vdiv s (std s)) := by simp
  have hT0 := hTI.keeps k0 k0.2.2.1
  have l0 := k0.2.2.1
  have m0 := k0.2.2.2
  generalize ({ h with vecs := h.vecs ++ [vdiv s (std s)] } : Heap α) = h0 at hS0 hT0 l0 m0 hok ⊢
  clear k0
  generalize vdiv s (std s) = q at hS0 hok ⊢
  generalize hS0' : h.vecs.length = S0 at hS0 hok l0 ⊢
  cases hn : PyEMD.CEEMDAN.noises rng o.cfg o.random q.length with
  | mk x r =>
  rw [hn] at hok
  cases x with
  | error e => cases hok
  | ok x =>
    obtain ⟨as, h1, e1, k1, v1⟩ := newVecs_run x h0
    have f1 := newVecs_fresh x e1
    dsimp only at hok ⊢
    rw [e1] at hok ⊢
    dsimp only at hok ⊢
    have hd := decomposeNoise_sim (std := std) (fuel := fuel) (sp := sp) (ecfg := o.emd) (order := []) hp as v1
    have hS1 := cell_keeps hS0 k1
    have hT1 := hT0.keeps k1 k1.2.2.1
    obtain ⟨k2, hd⟩ := hd
    have hS2 := cell_keeps hS1 k2
    have hT2 := hT1.keeps k2 k2.2.2.1
    have l2 := l0.trans (k1.2.2.1.trans k2.2.2.1)
    have m2 := m0.trans (k1.2.2.2.trans k2.2.2.2)
    clear k2
    generalize decomposeNoise std fuel sp o.cfg o.emd as h1 = dm at hd hS2 hT2 l2 m2 hok ⊢
    generalize PyEMD.CEEMDAN.decomposeNoise std fuel sp o.cfg o.emd [] x = dp at hd
    obtain ⟨dm, h2⟩ := dm
    cases dm with
    | error e => cases hok
    | ok noise =>
      cases dp with
      | error e' => exact hd.elim
      | ok cs =>
        dsimp only at hd hS2 hT2 l2 m2 hok ⊢
        have hb := body_sim (std := std) (fuel := fuel) (sp := sp) (ecfg := o.emd) (order := []) (maxImf := maxImf) hp hd hS2 hT2
        obtain ⟨k3, -⟩ := hb
        have l3 := l2.trans k3.2.2.1
        have m3 := m2.trans k3.2.2.2
        clear k3
        generalize body std fuel sp o.cfg o.emd noise S0 T maxImf h2 = bm at l3 m3 hok ⊢
        obtain ⟨bm, h3⟩ := bm
        cases bm with
        | error e => cases hok
        | ok b =>
          injection hok with hok
          subst hok
          exact ⟨rfl, m3, ⟨_, rfl, l3⟩, fun d hd => l0.trans (f1 d hd)⟩

/-- **C119 (partial).**  After a successful `ceemdan` the caller may overwrite the signal, the time array and every other array
that existed before the call, any number of times: the components and the residue the object shows stay.

Full claim: *the array `ceemdan` returns is the caller's: post-processing it in place does not change what
`get_imfs_and_residue` answers*.  It fails (`C119_counterexample`): the returned array is the stored one. -/
theorem C119_arguments_free_partial (rng : Rng α ρ) (std : List α → α) (fuel : Nat) (sp : SciPy α) (o : Obj α ρ) (S : Nat)
    (T : Option Nat) (maxImf : Int) (h : Heap α) (s : List α) (hS : h.vecs[S]? = some s)
    (hT : ∀ a, T = some a → a < h.vecs.length) (hp : o.cfg.parallel = false) (a : Nat)
    (hok : (o.ceemdan rng std fuel sp S T maxImf h).1 = .ok a) (ws : List (Write α)) (hw : ∀ w ∈ ws, w.Before h) :
    let out := o.ceemdan rng std fuel sp S T maxImf h
    (shownC (ws.foldl Write.apply out.2.2) out.2.1).getImfsAndResidue = (shownC out.2.2 out.2.1).getImfsAndResidue ∧
    (shownC (ws.foldl Write.apply out.2.2) out.2.1).allNoises = (shownC out.2.2 out.2.1).allNoises := by
  obtain ⟨f1, f2, ⟨d, f3, f4⟩, f5⟩ := ceemdan_fresh hS hT hp hok
  dsimp only
  generalize o.ceemdan rng std fuel sp S T maxImf h = out at *
  obtain ⟨k1, k2⟩ := EEMD.writes_before ws out.2.2 hw
  constructor
  · unfold shownC PyEMD.CEEMDAN.Obj.getImfsAndResidue
    dsimp only
    rw [f1, f3]
    simp only [Option.map_some]
    rw [k1 a f2, k2 d f4]
  · unfold shownC
    exact List.map_congr_left (fun a ha => by rw [k2 a (f5 a ha)])

/-! ## C120 -/

theorem write_valid {h : Heap α} {o : Obj α ρ} (w : Write α) (v : ValidC h o) : ValidC (w.apply h) o := by
  have e1 : (w.apply h).vecs.length = h.vecs.length := by cases w <;> simp [Write.apply]
  have e2 : (w.apply h).mats.length = h.mats.length := by cases w <;> simp [Write.apply]
  unfold ValidC
  rw [e1, e2]
  exact v

/-- The arrays `vs`, `ms` keep their contents. -/
def KeptFor (vs ms : List Nat) (h h' : Heap α) : Prop :=
  (∀ a ∈ vs, ∀ v, h.vecs[a]? = some v → h'.vecs[a]? = some v) ∧ (∀ a ∈ ms, ∀ v, h.mats[a]? = some v → h'.mats[a]? = some v)

theorem keptFor_untouched {vs ms : List Nat} {h h' : Heap α} (u : Untouched h h') : KeptFor vs ms h h' :=
  ⟨fun a _ => u.1 a, fun a _ => u.2 a⟩

theorem KeptFor.trans {vs ms : List Nat} {h h' h'' : Heap α} (a : KeptFor vs ms h h') (b : KeptFor vs ms h' h'') :
    KeptFor vs ms h h'' := ⟨fun x hx v e => b.1 x hx v (a.1 x hx v e), fun x hx v e => b.2 x hx v (a.2 x hx v e)⟩

theorem keptFor_write {vs ms : List Nat} {h : Heap α} {w : Write α} (hw : w.Spares vs ms) : KeptFor vs ms h (w.apply h) := by
  cases w with
  | vec b v =>
    refine ⟨fun a ha x e => ?_, fun _ _ _ e => e⟩
    have : b ≠ a := fun q => hw (q ▸ ha)
    exact (List.getElem?_set_ne this).trans e
  | mat b v =>
    refine ⟨fun _ _ _ e => e, fun a ha x e => ?_⟩
    have : b ≠ a := fun q => hw (q ▸ ha)
    exact (List.getElem?_set_ne this).trans e

theorem pure_ceemdan_cfg (rng : Rng α ρ) (std : List α → α) (fuel : Nat) (sp : SciPy α) (orderN orderT : List Nat)
    (o : PyEMD.CEEMDAN.Obj α ρ) (S : List α) (T : Option (List α)) (m : Int) :
    (o.ceemdan rng std fuel sp orderN orderT S T m).2.cfg = o.cfg ∧ (o.ceemdan rng std fuel sp orderN orderT S T m).2.emd = o.emd := by
  cases hc : o.ceemdan rng std fuel sp orderN orderT S T m with
  | mk x o' =>
    cases x with
    | ok C =>
      obtain ⟨_, _, _, -, -, -, -, -, ho'⟩ := PyEMD.CEEMDAN.Obj.ceemdan_ok hc
      rw [ho']
      exact ⟨rfl, rfl⟩
    | error e => exact ⟨(PyEMD.CEEMDAN.Obj.ceemdan_error hc).1, (PyEMD.CEEMDAN.Obj.ceemdan_error hc).2.1⟩

/-- What a session leaves as it was. -/
theorem session_keeps {rng : Rng α ρ} {std : List α → α} {fuel : Nat} {sp : SciPy α} {vs ms : List Nat} {o o' : Obj α ρ} {h h' : Heap α}
    (hs : Session (fun o S T m h => Obj.ceemdan rng std fuel sp o S T m h) (fun o k => o.noiseSeed rng k) vs ms o h o' h')
    (hp : o.cfg.parallel = false) (ho : ValidC h o) : ValidC h' o' ∧ o'.cfg = o.cfg ∧ o'.emd = o.emd ∧ KeptFor vs ms h h' := by
  induction hs with
  | done o h => exact ⟨ho, rfl, rfl, keptFor_untouched Untouched.rfl'⟩
  | seed k rest ih => exact ih hp ho
  | @call S T m o o' h h' hS hT rest ih =>
    have q := C118_values rng std fuel sp o S T m h _ [] [] (List.getElem?_eq_getElem hS) hT hp ho
    have c := pure_ceemdan_cfg rng std fuel sp [] [] (shownC h o) h.vecs[S] (T.map (fun a => h.vecs[a]?.getD [])) m
    rw [← q.object] at c
    have hc : (Obj.ceemdan rng std fuel sp o S T m h).2.1.cfg = o.cfg := c.1
    obtain ⟨i1, i2, i3, i4⟩ := ih (by rw [hc]; exact hp) q.valid
    exact ⟨i1, i2.trans c.1, i3.trans c.2, (keptFor_untouched q.untouched).trans i4⟩
  | @newVec v o o' h h' rest ih =>
    have u := untouched_vec h v
    obtain ⟨i1, i2, i3, i4⟩ := ih hp (validC_untouched u ho)
    exact ⟨i1, i2, i3, (keptFor_untouched u).trans i4⟩
  | @newMat m o o' h h' rest ih =>
    have u := untouched_mat h m
    obtain ⟨i1, i2, i3, i4⟩ := ih hp (validC_untouched u ho)
    exact ⟨i1, i2, i3, (keptFor_untouched u).trans i4⟩
  | write w hw rest ih =>
    obtain ⟨i1, i2, i3, i4⟩ := ih hp (write_valid w ho)
    exact ⟨i1, i2, i3, (keptFor_write hw).trans i4⟩

theorem pure_ceemdan_congr {rng : Rng α ρ} {std : List α → α} {fuel : Nat} {sp : SciPy α} {orderN orderT : List Nat}
    {o₁ o₂ : PyEMD.CEEMDAN.Obj α ρ} {S : List α} {T : Option (List α)} {m : Int} (hc : o₁.cfg = o₂.cfg) (he : o₁.emd = o₂.emd)
    (hr : o₁.random = o₂.random) :
    (o₁.ceemdan rng std fuel sp orderN orderT S T m).1 = (o₂.ceemdan rng std fuel sp orderN orderT S T m).1 := by
  have a := (PyEMD.CEEMDAN.C43_history_independent rng std sp o₁ [] fuel orderN orderT S T m).1
  have b := (PyEMD.CEEMDAN.C43_history_independent rng std sp o₂ [] fuel orderN orderT S T m).1
  have e₁ : o₁.run rng std sp [] = o₁ := rfl
  have e₂ : o₂.run rng std sp [] = o₂ := rfl
  rw [e₁, hc, he, hr] at a
  rw [e₂] at b
  exact a.trans b.symm

/-- **C120 (`CEEMDAN`).**  Seed, decompose, go on working with the object in any way - other signals, other seeds, calls that
raise, new arrays, assignments into any array but the signal, the time array and the result - then seed with the same number
and decompose the same arrays again: the second call succeeds too, returns a new array with the contents of the first one,
and the first one still has them. -/
theorem C120_repeatable (rng : Rng α ρ) (std : List α → α) (fuel : Nat) (sp : SciPy α) (o : Obj α ρ) (k : Int) (S : Nat)
    (T : Option Nat) (maxImf : Int) (h : Heap α) (hS : S < h.vecs.length) (hT : ∀ a, T = some a → a < h.vecs.length)
    (hp : o.cfg.parallel = false) (ho : ValidC h o) (a : Nat) (o₁ o₂ : Obj α ρ) (h₁ h₂ : Heap α)
    (hok : (o.noiseSeed rng k).ceemdan rng std fuel sp S T maxImf h = (.ok a, o₁, h₁))
    (hs : Session (fun o S T m h => Obj.ceemdan rng std fuel sp o S T m h) (fun o k => o.noiseSeed rng k) (S :: T.toList) [a]
      o₁ h₁ o₂ h₂) :
    ∃ b o₃ h₃, (o₂.noiseSeed rng k).ceemdan rng std fuel sp S T maxImf h₂ = (.ok b, o₃, h₃) ∧ b ≠ a ∧
      h₃.mats[b]? = h₁.mats[a]? ∧ h₃.mats[a]? = h₁.mats[a]? := by
  have hS' := List.getElem?_eq_getElem hS
  have hv0 : ValidC h (o.noiseSeed rng k) := ho
  have q1 := C118_values rng std fuel sp (o.noiseSeed rng k) S T maxImf h _ [] [] hS' hT hp hv0
  have c1 := pure_ceemdan_cfg rng std fuel sp [] [] (shownC h (o.noiseSeed rng k)) h.vecs[S] (T.map (fun a => h.vecs[a]?.getD [])) maxImf
  have f1 := ceemdan_fresh (a := a) hS' hT (o := o.noiseSeed rng k) hp (by rw [hok])
  rw [← q1.object] at c1
  rw [hok] at q1 c1 f1
  dsimp only at c1 f1
  obtain ⟨i1, i2, i3, i4⟩ := session_keeps hs (by rw [show o₁.cfg = _ from c1.1]; exact hp) q1.valid
  have ha : a < h₁.mats.length := q1.valid.2.2.1 a f1.1
  have hS2 : h₂.vecs[S]? = some h.vecs[S] := i4.1 S (by simp) _ (q1.untouched.1 S _ hS')
  have hT2 : ∀ t, T = some t → h₂.vecs[t]? = h.vecs[t]? := by
    intro t ht
    rw [List.getElem?_eq_getElem (hT t ht)]
    exact i4.1 t (by simp [ht]) _ (q1.untouched.1 t _ (List.getElem?_eq_getElem (hT t ht)))
  have hTlt : ∀ t, T = some t → t < h₂.vecs.length := by
    intro t ht
    have := hT2 t ht
    rw [List.getElem?_eq_getElem (hT t ht)] at this
    exact lt_of_cell this
  have hp2 : (o₂.noiseSeed rng k).cfg.parallel = false := by
    show o₂.cfg.parallel = false
    rw [i2, show o₁.cfg = _ from c1.1]; exact hp
  have q2 := C118_values rng std fuel sp (o₂.noiseSeed rng k) S T maxImf h₂ _ [] [] hS2 hTlt hp2 i1
  have eT : T.map (fun a => h₂.vecs[a]?.getD []) = T.map (fun a => h.vecs[a]?.getD []) := by
    cases T with
    | none => rfl
    | some t => simp [hT2 t rfl]
  rw [eT] at q2
  have ec := pure_ceemdan_congr (rng := rng) (std := std) (fuel := fuel) (sp := sp) (orderN := []) (orderT := []) (S := h.vecs[S])
    (T := T.map (fun a => h.vecs[a]?.getD [])) (m := maxImf) (o₁ := shownC h (o.noiseSeed rng k))
    (o₂ := shownC h₂ (o₂.noiseSeed rng k)) (by show o.cfg = o₂.cfg; rw [i2]; exact c1.1.symm)
    (by show o.emd = o₂.emd; rw [i3]; exact c1.2.symm) rfl
  have r1 := q1.result
  have r2 := q2.result
  rw [← ec, ← r1] at r2
  have f2 := fun b hb => ceemdan_fresh (rng := rng) (std := std) (fuel := fuel) (sp := sp) (maxImf := maxImf) (a := b) hS2 hTlt
    (o := o₂.noiseSeed rng k) hp2 hb
  have hu := q2.untouched
  have hva := q2.valid
  generalize (o₂.noiseSeed rng k).ceemdan rng std fuel sp S T maxImf h₂ = out at r2 f2 hu hva ⊢
  obtain ⟨x, o₃, h₃⟩ := out
  cases x with
  | error e => cases r2
  | ok b =>
    have f2 := f2 b rfl
    have hb : b < h₃.mats.length := hva.2.2.1 b f2.1
    have ha1 : h₁.mats[a]? = some h₁.mats[a] := List.getElem?_eq_getElem ha
    have ha2 : h₂.mats[a]? = some h₁.mats[a] := i4.2 a (by simp) _ ha1
    refine ⟨b, o₃, h₃, rfl, ?_, ?_, ?_⟩
    · have := lt_of_cell ha2
      have := f2.2.1
      omega
    · dsimp only at r2
      injection r2 with r2
      rw [List.getElem?_eq_getElem hb, ha1] at r2
      rw [List.getElem?_eq_getElem hb, ha1]
      exact congrArg some r2
    · rw [hu.2 a _ ha2, ha1]

end

/-! ### Concrete cases -/

/-- The signal of the examples of `Verif/Props/Ceemdan.lean` at address 0, and an object that has not been used. -/
def heapC : Heap ℚ := { vecs := [PyEMD.EEMD.sampleS], mats := [] }
def objC (cfg : Cfg ℚ) : Obj ℚ Nat :=
  { cfg, random := 1, emd := EMD.sampleFixe, allNoises := [], allNoiseEMD := [], C_IMF := none, residue := none }

theorem objC_valid (cfg : Cfg ℚ) : ValidC heapC (objC cfg) :=
  ⟨fun _ h => (nomatch h), fun _ h => (nomatch h), fun _ h => (by cases h), fun _ h => (by cases h)⟩

/-- C118, C119: the calls succeed, without and with a time array, and the hypotheses are met. -/
example : heapC.vecs[0]? = some PyEMD.EEMD.sampleS ∧ PyEMD.CEEMDAN.sampleCfg.parallel = false ∧
    shownC heapC (objC PyEMD.CEEMDAN.sampleCfg) = PyEMD.CEEMDAN.sampleObj PyEMD.CEEMDAN.sampleCfg ∧
    (match (objC PyEMD.CEEMDAN.sampleCfg).ceemdan PyEMD.EEMD.sampleRng PyEMD.CEEMDAN.sampleStd 20 linSciPy 0 none (-1) heapC with
      | (.ok a, _, h) => decide (2 ≤ (h.mats[a]?.getD []).length)
      | _ => false) = true ∧
    (match (objC PyEMD.CEEMDAN.sampleCfg).ceemdan PyEMD.EEMD.sampleRng PyEMD.CEEMDAN.sampleStd 20 linSciPy 0 (some 0) (-1) heapC with
      | (.ok a, _, h) => decide (2 ≤ (h.mats[a]?.getD []).length)
      | _ => false) = true :=
  ⟨rfl, rfl, rfl, by decide +kernel, by decide +kernel⟩

/-- C120: a session in which the object decomposes another signal under another seed, raises on an empty signal, and the caller
overwrites an array.  Without the second `noise_seed` the result would differ: the noise goes on. -/
example :
    let call := fun (o : Obj ℚ Nat) (S : Nat) (h : Heap ℚ) =>
      o.ceemdan PyEMD.EEMD.sampleRng PyEMD.CEEMDAN.sampleStd 20 linSciPy S none (-1) h
    let r₁ := call ((objC PyEMD.CEEMDAN.sampleCfg).noiseSeed PyEMD.EEMD.sampleRng 4) 0 { heapC with vecs := heapC.vecs ++ [EMD.sampleS] }
    let r₂ := call (r₁.2.1.noiseSeed PyEMD.EEMD.sampleRng 10) 1 r₁.2.2
    let r₃ := call r₂.2.1 r₂.2.2.vecs.length { r₂.2.2 with vecs := r₂.2.2.vecs ++ [[]] }
    let h₃ := Write.apply r₃.2.2 (.vec 1 [])
    let r₄ := call (r₃.2.1.noiseSeed PyEMD.EEMD.sampleRng 4) 0 h₃
    let r₅ := call r₃.2.1 0 h₃
    (match r₁, r₂, r₃, r₄, r₅ with
      | (.ok a, _, h₁), (.ok _, _, _), (.error _, _, _), (.ok b, _, h₄), (.ok c, _, h₅) =>
        h₁.mats[a]? == h₄.mats[b]? && h₁.mats[a]? != h₅.mats[c]?
      | _, _, _, _, _ => false) = true := by decide +kernel

/-- **C119 (counterexample).**  Overwriting the array `ceemdan` returned changes what `get_imfs_and_residue` answers. -/
theorem C119_counterexample :
    (match (objC PyEMD.CEEMDAN.sampleCfg).ceemdan PyEMD.EEMD.sampleRng PyEMD.CEEMDAN.sampleStd 20 linSciPy 0 none (-1) heapC with
      | (.ok a, o, h) =>
        okWith (fun p => p.1.length != 0) (shownC h o).getImfsAndResidue &&
        okWith (fun p => p.1.length == 0) (shownC (Write.apply h (.mat a [])) o).getImfsAndResidue
      | _ => false) = true := by decide +kernel

end CEEMDAN
end Mem
end PyEMD
