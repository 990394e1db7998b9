import Mathlib.Logic.Basic

/-!
# Runs of transition systems
-/

namespace Verif

/-- Whatever steps are taken from a state, after finitely many of them a state is reached from which
there is no step, and in which `P` holds: all runs end, and all of them end well. -/
inductive Inevitable {σ : Type} (step : σ → σ → Prop) (P : σ → Prop) : σ → Prop where
  | here (x : σ) (hP : P x) (hend : ∀ y, ¬ step x y) : Inevitable step P x
  | step (x : σ) (hex : ∃ y, step x y) (h : ∀ y, step x y → Inevitable step P y) :
      Inevitable step P x

/-- If `act` is a step that stays possible, with the same effect, whatever other step is taken, then it
may be taken first. -/
theorem Inevitable.back {σ : Type} {step : σ → σ → Prop} {P : σ → Prop} (act : σ → Option σ)
    (hact : ∀ x y, act x = some y → step x y)
    (hcomm : ∀ x y z, act x = some y → step x z → z = y ∨ ∃ w, act z = some w ∧ step y w)
    {x y : σ} (hxy : act x = some y) (h : Inevitable step P y) : Inevitable step P x := by
  induction h generalizing x with
  | here y hP hend =>
    refine .step x ⟨y, hact x y hxy⟩ fun z hz => ?_
    rcases hcomm x y z hxy hz with rfl | ⟨w, -, hw⟩
    · exact .here _ hP hend
    · exact absurd hw (hend w)
  | step y hex hall ih =>
    refine .step x ⟨y, hact x y hxy⟩ fun z hz => ?_
    rcases hcomm x y z hxy hz with rfl | ⟨w, hw, hstep⟩
    · exact .step _ hex hall
    · exact ih w hstep hw

/-- If two things are inevitable, then some state has both. -/
theorem Inevitable.both {σ : Type} {step : σ → σ → Prop} {P Q : σ → Prop} {x : σ}
    (h : Inevitable step P x) (h' : Inevitable step Q x) : ∃ y, P y ∧ Q y := by
  induction h with
  | here x hP hend =>
    cases h' with
    | here _ hQ _ => exact ⟨x, hP, hQ⟩
    | step _ hex _ => exact absurd hex.choose_spec (hend _)
  | step x hex hall ih =>
    cases h' with
    | here _ _ hend => exact absurd hex.choose_spec (hend _)
    | step _ _ hall' =>
      obtain ⟨y, hy⟩ := hex
      exact ih y hy (hall' y hy)

/-- States reached by finitely many steps. -/
inductive Reaches {σ : Type} (step : σ → σ → Prop) : σ → σ → Prop where
  | refl (x : σ) : Reaches step x x
  | tail (x y z : σ) (h : step x y) (t : Reaches step y z) : Reaches step x z

theorem Reaches.mono {σ : Type} {step step' : σ → σ → Prop} {x y : σ} (h : Reaches step x y)
    (hs : ∀ a b, step a b → step' a b) : Reaches step' x y := by
  induction h with
  | refl x => exact .refl x
  | tail x y z hxy _ ih => exact .tail x y z (hs x y hxy) ih

theorem Inevitable.of_reaches {σ : Type} {step : σ → σ → Prop} {P : σ → Prop} {x y : σ}
    (h : Inevitable step P x) (hr : Reaches step x y) : Inevitable step P y := by
  induction hr with
  | refl x => exact h
  | tail x y z hxy _ ih =>
    cases h with
    | here _ _ hend => exact absurd hxy (hend y)
    | step _ _ hall => exact ih (hall y hxy)

/-- In a state without further steps, `P` holds. -/
theorem Inevitable.final {σ : Type} {step : σ → σ → Prop} {P : σ → Prop} {x y : σ}
    (h : Inevitable step P x) (hr : Reaches step x y) (hend : ∀ z, ¬ step y z) : P y := by
  cases h.of_reaches hr with
  | here _ hP _ => exact hP
  | step _ hex _ => exact absurd hex.choose_spec (hend _)

end Verif
