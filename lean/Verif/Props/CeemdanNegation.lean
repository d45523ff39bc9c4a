import Verif.Props.EemdNegation
import Verif.Props.Ceemdan

/-!
# C151: the negated signal with the negated noise in `CEEMDAN`
-/

set_option linter.unusedSectionVars false

namespace PyEMD
namespace CEEMDAN
open EMD (vneg vneg_length vneg_vneg vadd_vneg vsub_vneg sumRows_vneg npMax_vneg npMin_vneg pyAbs_neg neg_lit_zero)
open EMD.Spec (OddAll)
open EEMD (Mirrored NegatesAll noise_neg poolMap_rel poolMap generateNoise chunkSize chunkLengths)

section
variable {α ρ : Type} [Add α] [Sub α] [Mul α] [Div α] [Neg α] [LT α] [LE α] [BEq α] [DecidableLT α] [DecidableLE α] [NpScalar α] [Symmetric α]

/-- Two runs that end alike, the rows of the second being those of the first with the opposite sign. -/
abbrev NegRows (x y : PyM (List (List α))) : Prop := RelE (fun a b => b = a.map vneg) x y

theorem vdiv_neg (a : List α) (c : α) : vdiv (vneg a) c = vneg (vdiv a c) := by
  simp [vdiv, vneg, Function.comp_def, Symmetric.neg_div]

theorem vscale_neg (c : α) (a : List α) : vscale c (vneg a) = vneg (vscale c a) := by
  simp [vscale, vneg, Function.comp_def, Symmetric.neg_mul]

theorem vzeros_neg (n : Nat) : vneg (vzeros n : List α) = vzeros n := by
  simp [vneg, vzeros, neg_lit_zero]

theorem mapE_rel {β γ β' γ' : Type} {f : β → PyM γ} {f' : β' → PyM γ'} {h : β → β'} {g : γ → γ'} (hf : ∀ x, RelE (fun a b => b = g a) (f x) (f' (h x))) :
    ∀ l, RelE (fun a b => b = a.map g) (mapE f l) (mapE f' (l.map h)) := by
  intro l
  induction l with
  | nil => exact (rfl : ([] : List γ') = [].map g)
  | cons x l ih =>
    have h1 := hf x
    rw [List.map_cons, mapE, mapE]
    cases hx : f x with
    | error e =>
      cases hy : f' (h x) with
      | error e' => rw [hx, hy] at h1; exact h1
      | ok b => rw [hx, hy] at h1; exact h1.elim
    | ok a =>
      cases hy : f' (h x) with
      | error e' => rw [hx, hy] at h1; exact h1.elim
      | ok b =>
        rw [hx, hy] at h1
        have h1 : b = g a := h1
        subst h1
        dsimp only
        cases hx' : mapE f l with
        | error e =>
          cases hy' : mapE f' (l.map h) with
          | error e' => rw [hx', hy'] at ih; exact ih
          | ok b => rw [hx', hy'] at ih; exact ih.elim
        | ok as =>
          cases hy' : mapE f' (l.map h) with
          | error e' => rw [hx', hy'] at ih; exact ih.elim
          | ok bs =>
            rw [hx', hy'] at ih
            have ih : bs = as.map g := ih
            subst ih
            exact (rfl : g a :: as.map g = (a :: as).map g)

theorem reshape_neg (cols : Nat) : ∀ (rows : Nat) (l : List α), reshape cols rows (vneg l) = (reshape cols rows l).map vneg := by
  intro rows
  induction rows with
  | zero => intro l; rfl
  | succ n ih =>
    intro l
    rw [reshape, reshape, List.map_cons, ← ih]
    simp [vneg]

theorem noises_neg {rng rng' : Rng α ρ} (hr : Mirrored rng rng') (cfg : Cfg α) (r : ρ) (n : Nat) :
    noises rng' cfg r n = ((noises rng cfg r n).1.map (List.map vneg), (noises rng cfg r n).2) := by
  unfold noises
  rw [noise_neg hr]
  cases generateNoise rng cfg.noiseKind r cfg.noiseScale (cfg.trials * n) with
  | mk x r' =>
    cases x with
    | error e => rfl
    | ok flat =>
      show ((Except.ok (reshape n cfg.trials (vneg flat)) : PyM _), r') = (Except.ok ((reshape n cfg.trials flat).map vneg), r')
      rw [reshape_neg]

theorem emd_neg {fuel : Nat} {sp : SciPy α} {ecfg : EMD.Cfg α} (hE : NegatesAll fuel sp ecfg) (S : List α) (T : Option (List α)) (m : Int) :
    NegRows (emd fuel sp ecfg S T m) (emd fuel sp ecfg (vneg S) T m) := by
  have h := hE S T m
  unfold emd
  cases hx : EMD.emdPure fuel sp ecfg S T m with
  | error e =>
    cases hy : EMD.emdPure fuel sp ecfg (vneg S) T m with
    | error e' => rw [hx, hy] at h; exact h
    | ok b => rw [hx, hy] at h; exact h.elim
  | ok a =>
    cases hy : EMD.emdPure fuel sp ecfg (vneg S) T m with
    | error e' => rw [hx, hy] at h; exact h.elim
    | ok b =>
      rw [hx, hy] at h
      have h : b = _ := h
      subst h
      exact (rfl : a.rows.map vneg = _)

theorem pieces_map {β γ : Type} (f : β → γ) : ∀ (ns : List Nat) (l : List β), pieces ns (l.map f) = (pieces ns l).map (List.map f) := by
  intro ns
  induction ns with
  | nil => intro l; rfl
  | cons n ns ih => intro l; rw [pieces, pieces, List.map_cons, ← ih]; simp

theorem normalise_neg {std : List α → α} (hs : ∀ l, std (vneg l) = std l) (imfs : List (List α)) :
    NegRows (normalise std imfs) (normalise std (imfs.map vneg)) := by
  cases imfs with
  | nil => exact Iff.rfl
  | cons i imfs =>
    rw [List.map_cons, normalise, normalise, hs]
    by_cases h : (std i == lit 0) = true
    · rw [if_pos h, if_pos h]; exact Iff.rfl
    · rw [if_neg h, if_neg h]
      show (_ : List (List α)) = _
      rw [← List.map_cons, List.map_map, List.map_map]
      apply List.map_congr_left
      intro r _
      exact vdiv_neg r _

theorem decomposeNoise_neg {std : List α → α} (hs : ∀ l, std (vneg l) = std l) {fuel : Nat} {sp : SciPy α} {ecfg : EMD.Cfg α} (hE : NegatesAll fuel sp ecfg)
    (cfg : Cfg α) (order : List Nat) (x : List (List α)) :
    RelE (fun a b => b = a.map (List.map vneg)) (decomposeNoise std fuel sp cfg ecfg order x) (decomposeNoise std fuel sp cfg ecfg order (x.map vneg)) := by
  have hrun : ∀ l : List (List α), RelE (fun a b => b = a.map (List.map vneg)) (mapE (fun x => emd fuel sp ecfg x none (-1)) l)
      (mapE (fun x => emd fuel sp ecfg x none (-1)) (l.map vneg)) := mapE_rel (fun x => emd_neg hE x none (-1))
  have hraw : RelE (fun a b => b = a.map (List.map vneg))
      (if cfg.parallel then
        poolMap ((pieces (chunkLengths cfg.trials (chunkSize cfg.trials cfg.processes)) x).map (fun c => mapE (fun x => emd fuel sp ecfg x none (-1)) c)) order
      else mapE (fun x => emd fuel sp ecfg x none (-1)) x)
      (if cfg.parallel then
        poolMap ((pieces (chunkLengths cfg.trials (chunkSize cfg.trials cfg.processes)) (x.map vneg)).map
          (fun c => mapE (fun x => emd fuel sp ecfg x none (-1)) c)) order
      else mapE (fun x => emd fuel sp ecfg x none (-1)) (x.map vneg)) := by
    cases cfg.parallel with
    | false => exact hrun x
    | true =>
      rw [if_pos rfl, if_pos rfl]
      apply poolMap_rel
      rw [pieces_map, List.map_map, List.forall₂_map_left_iff, List.forall₂_map_right_iff]
      exact List.forall₂_same.2 (fun c _ => hrun c)
  unfold decomposeNoise
  dsimp only
  revert hraw
  generalize (if cfg.parallel then
        poolMap ((pieces (chunkLengths cfg.trials (chunkSize cfg.trials cfg.processes)) x).map (fun c => mapE (fun x => emd fuel sp ecfg x none (-1)) c)) order
      else mapE (fun x => emd fuel sp ecfg x none (-1)) x) = u
  generalize (if cfg.parallel then
        poolMap ((pieces (chunkLengths cfg.trials (chunkSize cfg.trials cfg.processes)) (x.map vneg)).map
          (fun c => mapE (fun x => emd fuel sp ecfg x none (-1)) c)) order
      else mapE (fun x => emd fuel sp ecfg x none (-1)) (x.map vneg)) = v
  intro h
  cases u with
  | error e =>
    cases v with
    | error e' => exact h
    | ok b => exact h.elim
  | ok a =>
    cases v with
    | error e' => exact h.elim
    | ok b =>
      have h : b = a.map (List.map vneg) := h
      subst h
      dsimp only
      cases cfg.betaProgress with
      | false => exact (rfl : a.map (List.map vneg) = _)
      | true => exact mapE_rel (normalise_neg hs) a

theorem trialUpdate_neg {fuel : Nat} {sp : SciPy α} {ecfg : EMD.Cfg α} (hE : NegatesAll fuel sp ecfg) (cfg : Cfg α) (noise : List (List (List α)))
    (S T : List α) (m : Int) (t : Nat) :
    NegRows (trialUpdate fuel sp cfg ecfg noise S T m t) (trialUpdate fuel sp cfg ecfg (noise.map (List.map vneg)) (vneg S) T m t) := by
  unfold trialUpdate
  rw [List.getElem?_map]
  cases noise[t]? with
  | none => exact Iff.rfl
  | some imfs =>
    cases imfs with
    | nil => exact Iff.rfl
    | cons i imfs =>
      show NegRows _ (emd fuel sp ecfg (vadd (vneg S) (vscale cfg.epsilon (vneg i))) (some T) m)
      rw [vscale_neg, vadd_vneg]
      exact emd_neg hE _ _ _

theorem accumulate_neg (n : Nat) (E I : List (List α)) : accumulate n (E.map vneg) (I.map vneg) = (accumulate n E I).map vneg := by
  unfold accumulate
  have h : E.map vneg ++ List.replicate ((I.map vneg).length - (E.map vneg).length) (vzeros n) =
      (E ++ List.replicate (I.length - E.length) (vzeros n)).map vneg := by
    rw [List.map_append, List.map_replicate, vzeros_neg, List.length_map, List.length_map]
  dsimp only
  rw [h, List.length_map]
  generalize E ++ List.replicate (I.length - E.length) (vzeros n) = P
  rw [List.map_append, List.map_drop, ← List.map_take]
  congr 1
  rw [List.zipWith_map, List.map_zipWith]
  congr 1
  funext a b
  exact vadd_vneg a b

theorem foldl_accumulate_neg (n : Nat) : ∀ (rs : List (List (List α))) (E : List (List α)),
    (rs.map (List.map vneg)).foldl (accumulate n) (E.map vneg) = (rs.foldl (accumulate n) E).map vneg := by
  intro rs
  induction rs with
  | nil => intro E; rfl
  | cons r rs ih => intro E; rw [List.map_cons, List.foldl_cons, List.foldl_cons, accumulate_neg, ih]

theorem eemd_neg {fuel : Nat} {sp : SciPy α} {ecfg : EMD.Cfg α} (hE : NegatesAll fuel sp ecfg) (cfg : Cfg α) (noise : List (List (List α)))
    (order : List Nat) (S : List α) (T : Option (List α)) (m : Int) :
    NegRows (eemd fuel sp cfg ecfg noise order S T m) (eemd fuel sp cfg ecfg (noise.map (List.map vneg)) order (vneg S) T m) := by
  have key : ∀ (T' : List α) (ord : List Nat), NegRows
      (match mapE (trialUpdate fuel sp cfg ecfg noise S T' m) ord with
        | .error e => .error e
        | .ok rs =>
          if cfg.trials = 0 then .error .nonFinite
          else .ok ((rs.foldl (accumulate S.length) [vzeros S.length]).map (fun r => vdiv r (lit (cfg.trials : ℚ)))))
      (match mapE (trialUpdate fuel sp cfg ecfg (noise.map (List.map vneg)) (vneg S) T' m) ord with
        | .error e => .error e
        | .ok rs =>
          if cfg.trials = 0 then .error .nonFinite
          else .ok ((rs.foldl (accumulate S.length) [vzeros S.length]).map (fun r => vdiv r (lit (cfg.trials : ℚ))))) := by
    intro T' ord
    have h := mapE_rel (h := id) (g := List.map vneg) (fun t => trialUpdate_neg hE cfg noise S T' m t) ord
    rw [List.map_id] at h
    cases hx : mapE (trialUpdate fuel sp cfg ecfg noise S T' m) ord with
    | error e =>
      cases hy : mapE (trialUpdate fuel sp cfg ecfg (noise.map (List.map vneg)) (vneg S) T' m) ord with
      | error e' => rw [hx, hy] at h; exact h
      | ok b => rw [hx, hy] at h; exact h.elim
    | ok a =>
      cases hy : mapE (trialUpdate fuel sp cfg ecfg (noise.map (List.map vneg)) (vneg S) T' m) ord with
      | error e' => rw [hx, hy] at h; exact h.elim
      | ok b =>
        rw [hx, hy] at h
        have h : b = a.map (List.map vneg) := h
        subst h
        dsimp only
        by_cases ht : cfg.trials = 0
        · rw [if_pos ht, if_pos ht]; exact Iff.rfl
        · rw [if_neg ht, if_neg ht]
          show (_ : List (List α)) = _
          have hz : [(vzeros S.length : List α)] = [vzeros S.length].map vneg := by rw [List.map_cons, vzeros_neg, List.map_nil]
          conv_lhs => rw [hz]
          rw [foldl_accumulate_neg, List.map_map, List.map_map]
          apply List.map_congr_left
          intro r _
          exact vdiv_neg r _
  unfold eemd
  rw [vneg_length]
  cases T with
  | none => exact key _ _
  | some T => exact key _ _

theorem endCondition_neg {fuel : Nat} {sp : SciPy α} {ecfg : EMD.Cfg α} (hE : NegatesAll fuel sp ecfg) (cfg : Cfg α) (S : List α) (c : List (List α))
    (m : Int) : RelE Eq (endCondition fuel sp cfg ecfg S c m) (endCondition fuel sp cfg ecfg (vneg S) (c.map vneg) m) := by
  unfold endCondition
  rw [List.length_map, vneg_length, sumRows_vneg, vsub_vneg]
  dsimp only
  by_cases h1 : 0 < m ∧ m ≤ (c.length : Int)
  · rw [if_pos h1, if_pos h1]; exact RelE.pure rfl
  rw [if_neg h1, if_neg h1]
  generalize vsub S (sumRows S.length c) = R
  refine RelE.bind (emd_neg hE R none 1) (fun a b _ _ hab => ?_)
  have hab : b = a.map vneg := hab
  subst hab
  rw [List.length_map]
  by_cases h2 : a.length = 1
  · rw [if_pos h2, if_pos h2]; exact RelE.pure rfl
  rw [if_neg h2, if_neg h2]
  by_cases he : R = []
  · subst he; exact Iff.rfl
  have h3 : npMaxE R = .ok (npMax R) := by simp [npMaxE, he]
  have h4 : npMinE R = .ok (npMin R) := by simp [npMinE, he]
  have he' : vneg R ≠ [] := by simpa [vneg] using he
  have h5 : npMaxE (vneg R) = .ok (-npMin R) := by rw [← npMax_vneg he]; simp [npMaxE, he']
  have h6 : npMinE (vneg R) = .ok (-npMax R) := by rw [← npMin_vneg he]; simp [npMinE, he']
  have h7 : (vneg R).map pyAbs = R.map pyAbs := by simp [vneg, Function.comp_def, pyAbs_neg]
  rw [h3, h4, h5, h6, h7]
  show RelE Eq (if npMax R - npMin R < cfg.rangeThr then _ else _) (if -npMin R - -npMax R < cfg.rangeThr then _ else _)
  rw [Symmetric.neg_sub_neg]
  exact RelE.refl _

theorem stageTrial_neg {fuel : Nat} {sp : SciPy α} {ecfg : EMD.Cfg α} (hE : NegatesAll fuel sp ecfg) (prev : List α) (T : Option (List α)) (beta : α)
    (k : Nat) (noise : List (List α)) :
    RelE (fun a b => b = vneg a) (stageTrial fuel sp ecfg prev T beta k noise) (stageTrial fuel sp ecfg (vneg prev) T beta k (noise.map vneg)) := by
  unfold stageTrial
  rw [List.getElem?_map]
  have key : ∀ res : List α, RelE (fun a b => b = vneg a)
      (match emd fuel sp ecfg res T 1 with
        | .error e => .error e
        | .ok imfs =>
          match imfs.getLast? with
          | none => .error .indexError
          | some r => .ok r)
      (match emd fuel sp ecfg (vneg res) T 1 with
        | .error e => .error e
        | .ok imfs =>
          match imfs.getLast? with
          | none => .error .indexError
          | some r => .ok r) := by
    intro res
    have h := emd_neg hE res T 1
    cases hx : emd fuel sp ecfg res T 1 with
    | error e =>
      cases hy : emd fuel sp ecfg (vneg res) T 1 with
      | error e' => rw [hx, hy] at h; exact h
      | ok b => rw [hx, hy] at h; exact h.elim
    | ok a =>
      cases hy : emd fuel sp ecfg (vneg res) T 1 with
      | error e' => rw [hx, hy] at h; exact h.elim
      | ok b =>
        rw [hx, hy] at h
        have h : b = a.map vneg := h
        subst h
        dsimp only
        rw [List.getLast?_map]
        cases a.getLast? with
        | none => exact Iff.rfl
        | some r => exact (rfl : vneg r = _)
  cases noise[k]? with
  | none => exact key prev
  | some x =>
    have := key (vadd prev (vscale beta x))
    rw [← vadd_vneg, ← vscale_neg] at this
    exact this

theorem localMean_neg {std : List α → α} (hs : ∀ l, std (vneg l) = std l) {fuel : Nat} {sp : SciPy α} {ecfg : EMD.Cfg α} (hE : NegatesAll fuel sp ecfg)
    (cfg : Cfg α) (noise : List (List (List α))) (prev : List α) (T : Option (List α)) (k : Nat) :
    RelE (fun a b => b = vneg a) (localMean std fuel sp cfg ecfg noise prev T k)
      (localMean std fuel sp cfg ecfg (noise.map (List.map vneg)) (vneg prev) T k) := by
  unfold localMean
  rw [hs, vneg_length, ← List.map_take]
  dsimp only
  have h := mapE_rel (fun x => stageTrial_neg hE prev T (cfg.epsilon * std prev) k x) (noise.take cfg.trials)
  cases hx : mapE (stageTrial fuel sp ecfg prev T (cfg.epsilon * std prev) k) (noise.take cfg.trials) with
  | error e =>
    cases hy : mapE (stageTrial fuel sp ecfg (vneg prev) T (cfg.epsilon * std prev) k) ((noise.take cfg.trials).map (List.map vneg)) with
    | error e' => rw [hx, hy] at h; exact h
    | ok b => rw [hx, hy] at h; exact h.elim
  | ok a =>
    cases hy : mapE (stageTrial fuel sp ecfg (vneg prev) T (cfg.epsilon * std prev) k) ((noise.take cfg.trials).map (List.map vneg)) with
    | error e' => rw [hx, hy] at h; exact h.elim
    | ok b =>
      rw [hx, hy] at h
      have h : b = a.map vneg := h
      subst h
      show (_ : List α) = _
      rw [← sumRows_vneg, List.map_map, List.map_map]
      congr 1
      apply List.map_congr_left
      intro r _
      exact vdiv_neg r _

theorem stages_neg {std : List α → α} (hs : ∀ l, std (vneg l) = std l) {fuel : Nat} {sp : SciPy α} {ecfg : EMD.Cfg α} (hE : NegatesAll fuel sp ecfg)
    (cfg : Cfg α) (noise : List (List (List α))) (S : List α) (T : Option (List α)) (m : Int) : ∀ (n : Nat) (c : List (List α)) (prev : List α),
    NegRows (stages std fuel sp cfg ecfg noise S T m n c prev)
      (stages std fuel sp cfg ecfg (noise.map (List.map vneg)) (vneg S) T m n (c.map vneg) (vneg prev)) := by
  intro n
  induction n with
  | zero => intro c prev; exact (rfl : c.map vneg = _)
  | succ n ih =>
    intro c prev
    rw [stages, stages]
    have h := endCondition_neg hE cfg S c m
    cases hx : endCondition fuel sp cfg ecfg S c m with
    | error e =>
      cases hy : endCondition fuel sp cfg ecfg (vneg S) (c.map vneg) m with
      | error e' => rw [hx, hy] at h; exact h
      | ok b => rw [hx, hy] at h; exact h.elim
    | ok a =>
      cases hy : endCondition fuel sp cfg ecfg (vneg S) (c.map vneg) m with
      | error e' => rw [hx, hy] at h; exact h.elim
      | ok b =>
        rw [hx, hy] at h
        have h : a = b := h
        subst h
        cases a with
        | true => exact (rfl : c.map vneg = _)
        | false =>
          dsimp only
          rw [List.length_map]
          have h := localMean_neg hs hE cfg noise prev T c.length
          cases hx : localMean std fuel sp cfg ecfg noise prev T c.length with
          | error e =>
            cases hy : localMean std fuel sp cfg ecfg (noise.map (List.map vneg)) (vneg prev) T c.length with
            | error e' => rw [hx, hy] at h; exact h
            | ok b => rw [hx, hy] at h; exact h.elim
          | ok a =>
            cases hy : localMean std fuel sp cfg ecfg (noise.map (List.map vneg)) (vneg prev) T c.length with
            | error e' => rw [hx, hy] at h; exact h.elim
            | ok b =>
              rw [hx, hy] at h
              have h : b = vneg a := h
              subst h
              have := ih (c ++ [vsub prev a]) a
              rw [List.map_append, List.map_cons, List.map_nil, ← vsub_vneg] at this
              exact this

theorem body_neg {std : List α → α} (hs : ∀ l, std (vneg l) = std l) {fuel : Nat} {sp : SciPy α} {ecfg : EMD.Cfg α} (hE : NegatesAll fuel sp ecfg)
    (cfg : Cfg α) (noise : List (List (List α))) (order : List Nat) (S : List α) (T : Option (List α)) (m : Int) :
    NegRows (body std fuel sp cfg ecfg noise order S T m) (body std fuel sp cfg ecfg (noise.map (List.map vneg)) order (vneg S) T m) := by
  unfold body
  have h := eemd_neg hE cfg noise order S T 1
  cases hx : eemd fuel sp cfg ecfg noise order S T 1 with
  | error e =>
    cases hy : eemd fuel sp cfg ecfg (noise.map (List.map vneg)) order (vneg S) T 1 with
    | error e' => rw [hx, hy] at h; exact h
    | ok b => rw [hx, hy] at h; exact h.elim
  | ok a =>
    cases hy : eemd fuel sp cfg ecfg (noise.map (List.map vneg)) order (vneg S) T 1 with
    | error e' => rw [hx, hy] at h; exact h.elim
    | ok b =>
      rw [hx, hy] at h
      have h : b = a.map vneg := h
      subst h
      cases a with
      | nil => exact Iff.rfl
      | cons first rest =>
        rw [List.map_cons]
        dsimp only
        have h := stages_neg hs hE cfg noise S T m cfg.maxStages [first] (vsub S first)
        rw [List.map_cons, List.map_nil, ← vsub_vneg] at h
        cases hx : stages std fuel sp cfg ecfg noise S T m cfg.maxStages [first] (vsub S first) with
        | error e =>
          cases hy : stages std fuel sp cfg ecfg (noise.map (List.map vneg)) (vneg S) T m cfg.maxStages [vneg first] (vsub (vneg S) (vneg first)) with
          | error e' => rw [hx, hy] at h; exact h
          | ok b => rw [hx, hy] at h; exact h.elim
        | ok a =>
          cases hy : stages std fuel sp cfg ecfg (noise.map (List.map vneg)) (vneg S) T m cfg.maxStages [vneg first] (vsub (vneg S) (vneg first)) with
          | error e' => rw [hx, hy] at h; exact h.elim
          | ok b =>
            rw [hx, hy] at h
            have h : b = a.map vneg := h
            subst h
            show (_ : List (List α)) = _
            rw [vneg_length, sumRows_vneg, vsub_vneg, List.map_append]
            rfl

/-- Statement of C151 for one object: what the run with the negated noise on the negated signal gives. -/
def MirrorRun (rng rng' : Rng α ρ) (std : List α → α) (fuel : Nat) (sp : SciPy α) (orderN orderT : List Nat) (o : Obj α ρ) (S : List α)
    (T : Option (List α)) (m : Int) : Prop :=
  (∀ C o₁, o.ceemdan rng std fuel sp orderN orderT S T m = (.ok C, o₁) → ∃ o₂,
    o.ceemdan rng' std fuel sp orderN orderT (S.map (fun x => -x)) T m = (.ok (C.map (fun r => r.map (fun x => -x))), o₂) ∧
    o₂.random = o₁.random ∧
    o₂.C_IMF = o₁.C_IMF.map (fun C => C.map (fun r => r.map (fun x => -x))) ∧
    o₂.residue = o₁.residue.map (fun r => r.map (fun x => -x))) ∧
  ((∃ e, e ≠ .outOfFuel ∧ (o.ceemdan rng std fuel sp orderN orderT S T m).1 = .error e) ↔
    (∃ e, e ≠ .outOfFuel ∧ (o.ceemdan rng' std fuel sp orderN orderT (S.map (fun x => -x)) T m).1 = .error e))

theorem mirrorRun {rng rng' : Rng α ρ} (hr : Mirrored rng rng') {std : List α → α} (hs : ∀ l, std (vneg l) = std l) {fuel : Nat} {sp : SciPy α}
    (o : Obj α ρ) (hE : NegatesAll fuel sp o.emd) (orderN orderT : List Nat) (S : List α) (T : Option (List α)) (m : Int) :
    MirrorRun rng rng' std fuel sp orderN orderT o S T m := by
  have hv : ∀ l : List α, l.map (fun x => -x) = vneg l := fun _ => rfl
  have hvv : ∀ l : List (List α), l.map (fun r => r.map (fun x => -x)) = l.map vneg := fun _ => rfl
  have err : ∀ {x y : PyM (List (List α)) × Obj α ρ} {e e' : PyErr}, x.1 = .error e → y.1 = .error e' → (e = .outOfFuel ↔ e' = .outOfFuel) →
      (∀ C o₁, x = (.ok C, o₁) → ∃ o₂, y = (.ok (C.map (fun r => r.map (fun x => -x))), o₂) ∧ o₂.random = o₁.random ∧
        o₂.C_IMF = o₁.C_IMF.map (fun C => C.map (fun r => r.map (fun x => -x))) ∧ o₂.residue = o₁.residue.map (fun r => r.map (fun x => -x))) ∧
      ((∃ e, e ≠ .outOfFuel ∧ x.1 = .error e) ↔ (∃ e, e ≠ .outOfFuel ∧ y.1 = .error e)) := by
    intro x y e e' hx hy h
    refine ⟨fun C o₁ hc => ?_, ?_⟩
    · rw [hc] at hx; cases hx
    · rw [hx, hy]
      constructor
      · rintro ⟨e₁, hn, he⟩
        injection he with he
        subst he
        exact ⟨e', fun hc => hn (h.2 hc), rfl⟩
      · rintro ⟨e₁, hn, he⟩
        injection he with he
        subst he
        exact ⟨e, fun hc => hn (h.1 hc), rfl⟩
  unfold MirrorRun Obj.ceemdan
  rw [hv, hs]
  dsimp only
  by_cases h0 : (std S == lit 0) = true
  · rw [if_pos h0, if_pos h0]
    exact err rfl rfl Iff.rfl
  rw [if_neg h0, if_neg h0, vdiv_neg, vneg_length, noises_neg hr]
  cases hn : noises rng o.cfg o.random (vdiv S (std S)).length with
  | mk x r =>
    cases x with
    | error e => exact err rfl rfl Iff.rfl
    | ok x =>
      dsimp only [Except.map]
      have h := decomposeNoise_neg hs hE o.cfg orderN x
      cases hx : decomposeNoise std fuel sp o.cfg o.emd orderN x with
      | error e =>
        cases hy : decomposeNoise std fuel sp o.cfg o.emd orderN (x.map vneg) with
        | error e' => rw [hx, hy] at h; exact err rfl rfl h
        | ok b => rw [hx, hy] at h; exact h.elim
      | ok a =>
        cases hy : decomposeNoise std fuel sp o.cfg o.emd orderN (x.map vneg) with
        | error e' => rw [hx, hy] at h; exact h.elim
        | ok b =>
          rw [hx, hy] at h
          have h : b = a.map (List.map vneg) := h
          subst h
          dsimp only
          have h := body_neg hs hE o.cfg a orderT (vdiv S (std S)) T m
          cases hx : body std fuel sp o.cfg o.emd a orderT (vdiv S (std S)) T m with
          | error e =>
            cases hy : body std fuel sp o.cfg o.emd (a.map (List.map vneg)) orderT (vneg (vdiv S (std S))) T m with
            | error e' => rw [hx, hy] at h; exact err rfl rfl h
            | ok b => rw [hx, hy] at h; exact h.elim
          | ok c =>
            cases hy : body std fuel sp o.cfg o.emd (a.map (List.map vneg)) orderT (vneg (vdiv S (std S))) T m with
            | error e' => rw [hx, hy] at h; exact h.elim
            | ok b =>
              rw [hx, hy] at h
              have h : b = c.map vneg := h
              subst h
              have hc : (c.map vneg).map (vscale (std S)) = (c.map (vscale (std S))).map vneg := by
                rw [List.map_map, List.map_map]
                apply List.map_congr_left
                intro r _
                exact vscale_neg _ r
              refine ⟨?_, by simp⟩
              intro C o₁ hh
              obtain ⟨h1, h2⟩ := Prod.mk.inj hh
              injection h1 with h1
              subst h1
              subst h2
              refine ⟨_, Prod.ext (congrArg Except.ok hc) rfl, rfl, congrArg some hc, ?_⟩
              show some _ = some _
              congr 1
              rw [hc, vscale_neg, sumRows_vneg, vsub_vneg]
              rfl

/-- `np.std` written out with sums from left to right; `sqrt` is a parameter.  /repo/PyEMD/CEEMDAN.py:220, 254, 339. -/
def npStd (sqrt : α → α) (l : List α) : α :=
  let n : α := lit (l.length : ℚ)
  let m := l.foldl (· + ·) (lit 0) / n
  sqrt ((l.map (fun x => (x - m) * (x - m))).foldl (· + ·) (lit 0) / n)

theorem npStd_neg (sqrt : α → α) (l : List α) : npStd sqrt (l.map (fun x => -x)) = npStd sqrt l := by
  have key : ∀ (l : List α) (a : α), (l.map (fun x => -x)).foldl (· + ·) (-a) = -(l.foldl (· + ·) a) := by
    intro l
    induction l with
    | nil => intro a; rfl
    | cons x l ih => intro a; rw [List.foldl_cons, ← ih, ← Symmetric.neg_add_neg]; rfl
  have := key l (lit 0)
  rw [neg_lit_zero] at this
  unfold npStd
  dsimp only
  rw [this, Symmetric.neg_div, List.length_map, List.map_map]
  simp only [Function.comp_def, EMD.sub_neg_neg, EMD.mul_neg_neg]

end

section
variable {K ρ : Type} [Field K] [LinearOrder K] [IsStrictOrderedRing K] [FloorRing K]

/-- **C151**: `CEEMDAN` of the negated signal with the negated noise gives the negated rows, remembers the negated components and residue, leaves the
generator in the same state and raises exactly when the original run raises: sequentially or in parallel, for any order in which the trials finish. -/
theorem C151_negation (rng rng' : Rng K ρ) (hr : Mirrored rng rng') (std : List K → K) (hs : ∀ l, std (l.map (fun x => -x)) = std l) (fuel : Nat)
    (sp : SciPy K) (ho : OddAll sp) (orderN orderT : List Nat) (o : Obj K ρ) (hd : o.emd.detection = .simple) (S : List K) (T : Option (List K)) (m : Int) :
    MirrorRun rng rng' std fuel sp orderN orderT o S T m :=
  mirrorRun hr hs o (EEMD.negatesAll fuel ho hd) orderN orderT S T m

end

open Ieee in
/-- **C151 in floating point**: the same, number by number, in every IEEE 754 format, for `np.std` computed in that format. -/
theorem C151_floating_point {f e E : Nat} {ρ : Type} (hf : 1 ≤ f) (hE : f + 2 ≤ E) (rng rng' : Rng (Ieee f e E) ρ) (hr : Mirrored rng rng')
    (sqrt : Ieee f e E → Ieee f e E) (fuel : Nat) (sp : SciPy (Ieee f e E)) (ho : OddAll sp) (orderN orderT : List Nat) (o : Obj (Ieee f e E) ρ)
    (hd : o.emd.detection = .simple) (S : List (Ieee f e E)) (T : Option (List (Ieee f e E))) (m : Int) :
    MirrorRun rng rng' (npStd sqrt) fuel sp orderN orderT o S T m :=
  mirrorRun hr (npStd_neg sqrt) o (fun S T m => EMD.emdPure_vneg fuel ho hd S T (stamps_nodup hf hE o.emd hd S T) m) orderN orderT S T m

/-- Three trials with noise, two stages. -/
example : Mirrored EEMD.sampleRng (EEMD.mirror EEMD.sampleRng) ∧ OddAll (linSciPy : SciPy ℚ) ∧
    (∀ l, sampleStd (l.map (fun x => -x)) = sampleStd l) ∧ (sampleObj sampleCfg).emd.detection = .simple ∧
    okWith (fun E => E.length == 3) ((sampleObj sampleCfg).ceemdan EEMD.sampleRng sampleStd 20 linSciPy [] [] EMD.sampleS none (-1)).1 = true := by
  refine ⟨EEMD.mirrored_mirror _, EMD.linSciPy_odd, fun l => ?_, rfl, by decide +kernel⟩
  by_cases h : l = []
  · subst h; rfl
  · unfold sampleStd
    have h1 := npMax_vneg h
    have h2 := npMin_vneg h
    unfold vneg at h1 h2
    rw [h1, h2]
    ring

end CEEMDAN
end PyEMD
