import Verif.Model.Emd

/-!
# Basic lemmas: the exception monad, array shapes
-/

namespace PyEMD

theorem bind_eq_ok {β γ : Type} {x : PyM β} {f : β → PyM γ} {c : γ} :
    (x >>= f) = .ok c ↔ ∃ a, x = .ok a ∧ f a = .ok c := by
  cases x with
  | error e => simp [bind, Except.bind]
  | ok a => simp [bind, Except.bind]

theorem pure_eq_ok {β : Type} {a b : β} : (pure a : PyM β) = .ok b ↔ a = b := by
  simp [pure, Except.pure]

/-- A computation that does not use up loop fuel. -/
def NoFuel {β : Type} (x : PyM β) : Prop := x ≠ .error .outOfFuel

theorem NoFuel.ok {β : Type} (a : β) : NoFuel (.ok a : PyM β) := by simp [NoFuel]

theorem NoFuel.pure {β : Type} (a : β) : NoFuel (pure a : PyM β) := by
  simp [NoFuel, Pure.pure, Except.pure]

theorem NoFuel.error {β : Type} {e : PyErr} (h : e ≠ .outOfFuel) : NoFuel (.error e : PyM β) := by
  simp [NoFuel, h]

theorem NoFuel.bind {β γ : Type} {x : PyM β} {f : β → PyM γ} (hx : NoFuel x)
    (hf : ∀ a, x = .ok a → NoFuel (f a)) : NoFuel (x >>= f) := by
  cases x with
  | error e => simpa [NoFuel, Bind.bind, Except.bind] using hx
  | ok a => simpa [Bind.bind, Except.bind] using hf a rfl

section
variable {β : Type}

theorem pyGet_noFuel (l : List β) (i : Int) : NoFuel (pyGet l i) := by
  unfold pyGet
  split
  · exact .error (by decide)
  · split
    · exact .error (by decide)
    · exact .ok _

theorem pyTake_noFuel (l : List β) (is : List Int) : NoFuel (pyTake l is) := by
  induction is with
  | nil => exact .ok _
  | cons i is ih =>
    unfold pyTake
    exact (pyGet_noFuel _ _).bind fun _ _ => ih.bind fun _ _ => .pure _

end

theorem bcast_noFuel {α : Type} (f : α → α → α) (a b : List α) : NoFuel (bcast f a b) := by
  unfold bcast
  split
  · exact .ok _
  · split
    · exact .ok _
    · exact .ok _
    · exact .error (by decide)

theorem assignAll_noFuel {α : Type} (n : Nat) (a : List α) : NoFuel (assignAll n a) := by
  unfold assignAll
  split
  · exact .ok _
  · split
    · exact .ok _
    · exact .error (by decide)

theorem ofScipy_noFuel {β : Type} (x : Option β) : NoFuel (ofScipy x) := by
  cases x
  · exact .error (by decide)
  · exact .ok _

/-- Discharges `NoFuel` goals about loop-free code. -/
macro "nofuel" : tactic => `(tactic| repeat' (first
  | with_reducible exact NoFuel.ok _ | with_reducible exact NoFuel.pure _
  | with_reducible exact NoFuel.error (by simp)
  | with_reducible exact pyGet_noFuel _ _ | with_reducible exact pyTake_noFuel _ _
  | with_reducible exact bcast_noFuel _ _ _ | with_reducible exact assignAll_noFuel _ _
  | with_reducible exact ofScipy_noFuel _ | with_reducible assumption
  | with_reducible refine NoFuel.bind ?_ (fun _ _ => ?_)
  | dsimp only
  | split))

section
variable {α : Type} [Add α] [Sub α] [Mul α] [Div α] [Neg α] [LT α] [LE α] [BEq α]
  [DecidableLT α] [DecidableLE α] [NpScalar α]

omit [Add α] [Sub α] [Mul α] [Div α] [Neg α] [LT α] [LE α] [BEq α] [DecidableLT α] [DecidableLE α] in
theorem npMaxE_noFuel (l : List α) : NoFuel (npMaxE l) := by unfold npMaxE; nofuel

omit [Add α] [Sub α] [Mul α] [Div α] [Neg α] [LT α] [LE α] [BEq α] [DecidableLT α] [DecidableLE α] in
theorem npMinE_noFuel (l : List α) : NoFuel (npMinE l) := by unfold npMinE; nofuel

omit [Add α] [Sub α] [Mul α] [Div α] [Neg α] [LE α] [BEq α] [DecidableLE α] [NpScalar α] in
theorem pyMax_noFuel (l : List α) : NoFuel (pyMax l) := by unfold pyMax; nofuel

omit [Add α] [Sub α] [Mul α] [Div α] [Neg α] [LE α] [BEq α] [DecidableLE α] [NpScalar α] in
theorem pyMin_noFuel (l : List α) : NoFuel (pyMin l) := by unfold pyMin; nofuel

end
end PyEMD
