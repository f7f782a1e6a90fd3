import Verif.Lifetime

/-!
# Weakest preconditions for calls with element operations

`wp x w s Q E T`: the call `x` in state `s`, with element operations failing as `w` says, ends
normally with `Q`, or throws in a state satisfying `E`, or terminates the program if `T` holds;
it has no undefined behaviour.
-/
namespace Gul14.LM
variable {V σ α β : Type}

def wp (x : LM V σ α) (w : Fail V) (s : σ) (Q : α → σ → Prop) (E : σ → Prop) (T : Prop) : Prop :=
  ∀ n, match x w s n with
    | .ok a s' _ => Q a s'
    | .throw s' _ => E s'
    | .terminate => T
    | .ub => False

variable {w : Fail V} {s : σ} {E : σ → Prop} {T : Prop}

theorem wp_pure {a : α} {Q : α → σ → Prop} (h : Q a s) : wp (Pure.pure a) w s Q E T :=
  fun _ => h

theorem wp_bind {x : LM V σ α} {f : α → LM V σ β} {Q : β → σ → Prop}
    (h : wp x w s (fun a s' => wp (f a) w s' Q E T) E T) : wp (x >>= f) w s Q E T := by
  intro n
  have h1 := h n
  rw [bind_apply]
  cases hx : x w s n with
  | ok a s' n' => rw [hx] at h1; exact h1 n'
  | throw s' n' => rw [hx] at h1; exact h1
  | terminate => rw [hx] at h1; exact h1
  | ub => rw [hx] at h1; exact h1

theorem wp_mono {x : LM V σ α} {Q Q' : α → σ → Prop} {E E' : σ → Prop} {T T' : Prop}
    (h : wp x w s Q E T) (hQ : ∀ a s', Q a s' → Q' a s') (hE : ∀ s', E s' → E' s') (hT : T → T') :
    wp x w s Q' E' T' := by
  intro n
  have h1 := h n
  cases hx : x w s n with
  | ok a s' n' => rw [hx] at h1; exact hQ _ _ h1
  | throw s' n' => rw [hx] at h1; exact hE _ h1
  | terminate => rw [hx] at h1; exact hT h1
  | ub => rw [hx] at h1; exact h1

theorem wp_onThrow {x : LM V σ α} {h : LM V σ Unit} {Q : α → σ → Prop}
    (hx : wp x w s Q (fun s' => wp h w s' (fun _ s'' => E s'') E T) T) :
    wp (onThrow x h) w s Q E T := by
  intro n
  have h1 := hx n
  unfold onThrow
  cases hc : x w s n with
  | ok a s' n' => rw [hc] at h1; exact h1
  | throw s' n' =>
      rw [hc] at h1
      have h2 := h1 n'
      simp only
      cases hd : h w s' n' with
      | ok a s'' n'' => rw [hd] at h2; exact h2
      | throw s'' n'' => rw [hd] at h2; exact h2
      | terminate => rw [hd] at h2; exact h2
      | ub => rw [hd] at h2; exact h2
  | terminate => rw [hc] at h1; exact h1
  | ub => rw [hc] at h1; exact h1

theorem wp_noexcept {x : LM V σ α} {Q : α → σ → Prop} (hx : wp x w s Q (fun _ => T) T) :
    wp (noexcept x) w s Q E T := by
  intro n
  have h1 := hx n
  unfold noexcept
  cases hc : x w s n with
  | ok a s' n' => rw [hc] at h1; exact h1
  | throw s' n' => rw [hc] at h1; exact h1
  | terminate => rw [hc] at h1; exact h1
  | ub => rw [hc] at h1; exact h1

theorem wp_elem {good : σ → σ} {bad : V → σ → σ} {Q : Unit → σ → Prop} (hQ : Q () (good s))
    (hE : w.at? ≠ none → E (bad w.left s)) : wp (elem good bad) w s Q E T := by
  intro n
  unfold elem
  by_cases h : w.at? = some n
  · simp only [h, if_true]; exact hE (by rw [h]; simp)
  · simp only [h, if_false]; exact hQ

theorem wp_elemIf {nt : Bool} {good : σ → σ} {bad : V → σ → σ} {Q : Unit → σ → Prop}
    (hQ : Q () (good s)) (hE : nt = false → w.at? ≠ none → E (bad w.left s)) :
    wp (elemIf nt good bad) w s Q E T := by
  unfold elemIf
  cases nt with
  | true => exact fun _ => hQ
  | false => exact wp_elem hQ (hE rfl)

theorem wp_raise {Q : α → σ → Prop} (h : E s) : wp (raise : LM V σ α) w s Q E T := fun _ => h

theorem wp_ite {c : Prop} [Decidable c] {x y : LM V σ α} {Q : α → σ → Prop}
    (hx : c → wp x w s Q E T) (hy : ¬ c → wp y w s Q E T) : wp (if c then x else y) w s Q E T := by
  by_cases h : c
  · rw [if_pos h]; exact hx h
  · rw [if_neg h]; exact hy h

theorem wp_getState {Q : σ → σ → Prop} (h : Q s s) : wp (getState : LM V σ σ) w s Q E T := fun _ => h
theorem wp_setState {t : σ} {Q : Unit → σ → Prop} (h : Q () t) :
    wp (setState t : LM V σ Unit) w s Q E T := fun _ => h

/-- From a weakest precondition to the outcome of the call. -/
theorem wp_elim {x : LM V σ α} {Q : α → σ → Prop} (h : wp x w s Q E T) (n : Nat) :
    (∃ a s' n', x w s n = .ok a s' n' ∧ Q a s') ∨ (∃ s' n', x w s n = .throw s' n' ∧ E s') ∨
    (x w s n = .terminate ∧ T) := by
  have h1 := h n
  cases hx : x w s n with
  | ok a s' n' => rw [hx] at h1; exact Or.inl ⟨a, s', n', rfl, h1⟩
  | throw s' n' => rw [hx] at h1; exact Or.inr (Or.inl ⟨s', n', rfl, h1⟩)
  | terminate => rw [hx] at h1; exact Or.inr (Or.inr ⟨rfl, h1⟩)
  | ub => rw [hx] at h1; exact h1.elim

end Gul14.LM
