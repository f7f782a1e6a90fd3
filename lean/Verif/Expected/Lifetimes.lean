import Verif.Expected.Base

/-! # Lifetimes in expected: calls without exceptions -/
namespace Gul14.Exp
open Spec Spec.Expd

variable {T E : Type}

theorem meetsOk_noexcept {mvT : T → T} {mvE : E → E} {f : Fail (T × E)} {a : Results T E}
    {op : Op T E} {x : M T E Unit} {s : Store T E} {n : Nat} (h : MeetsOk mvT mvE a op (x f s n)) :
    MeetsOk mvT mvE a op (LM.noexcept x f s n) := by
  unfold LM.noexcept
  cases hx : x f s n with
  | ok a s' n' => rw [hx] at h; exact h
  | throw s' n' => rw [hx] at h; exact h.elim
  | terminate => rw [hx] at h; exact h
  | ub => rw [hx] at h; exact h

set_option maxHeartbeats 1000000 in
theorem ok_swap (tr : Tr) (mvT : T → T) (mvE : E → E) (i j : Nat) (l : T × E)
    (s : Store T E) (n : Nat) (hs : Inv s) (hl : Legal (abs s) (.swap i j)) :
    MeetsOk mvT mvE (abs s) (.swap i j) (exec tr mvT mvE (.swap i j) ⟨none, l⟩ s n) := by
  suffices h : MeetsOk mvT mvE (abs s) (.swap i j) (swapBody tr mvT mvE i j ⟨none, l⟩ s n) by
    simp only [exec, swap]
    split
    · exact meetsOk_noexcept h
    · exact h
  obtain ⟨b1, b2, b3, b4, b5, b6, b7, b8, b9, b10⟩ := tr
  by_cases hij : j = i
  · subst hij
    rcases inv_cases hs hl.2 with ⟨u, h1, h2⟩ | ⟨e, h1, h2⟩
    · cases b2 <;> cases b4 <;> exp_simp [h1, h2, inv_v hs] <;> fin j j hs
    · cases b8 <;> cases b10 <;> exp_simp [h1, h2, inv_e hs] <;> fin j j hs
  · have hij' : i ≠ j := fun h => hij h.symm
    rcases inv_cases hs hl.1 with ⟨u, h1, h2⟩ | ⟨e, h1, h2⟩ <;>
    rcases inv_cases hs hl.2 with ⟨u', h3, h4⟩ | ⟨e', h3, h4⟩
    · cases b2 <;> cases b4 <;>
        exp_simp [h1, h2, h3, h4, set_other, hij, hij', inv_v hs] <;> fin i j hs
    · cases b2 <;> cases b8 <;>
        exp_simp [h1, h2, h3, h4, set_other, hij, hij', inv_v hs] <;> fin i j hs
    · cases b2 <;> cases b8 <;>
        exp_simp [h1, h2, h3, h4, set_other, hij, hij', inv_v hs] <;> fin i j hs
    · cases b8 <;> cases b10 <;>
        exp_simp [h1, h2, h3, h4, set_other, hij, hij', inv_v hs] <;> fin i j hs

theorem step_ok (tr : Tr) (mvT : T → T) (mvE : E → E) (op : Op T E) (l : T × E)
    (s : Store T E) (n : Nat) (hs : Inv s) (hl : Legal (abs s) op) :
    MeetsOk mvT mvE (abs s) op (exec tr mvT mvE op ⟨none, l⟩ s n) := by
  obtain ⟨b1, b2, b3, b4, b5, b6, b7, b8, b9, b10⟩ := tr
  cases op with
  | ctorVal i t => cases b5 <;> exp_simp [inv_v hs]
  | ctorErr i e => cases b7 <;> exp_simp [inv_e hs]
  | dtor i =>
    rcases inv_cases hs hl with ⟨t, h1, h2⟩ | ⟨e, h1, h2⟩ <;> exp_simp [h1, h2, inv_n hs]
  | assignVal i t =>
    rcases inv_cases hs hl with ⟨u, h1, h2⟩ | ⟨e, h1, h2⟩
    · cases b6 <;> exp_simp [h1, h2, inv_v hs]
    · cases b5 <;> cases b8 <;> exp_simp [h1, h2, inv_v hs]
  | assignErr i e =>
    rcases inv_cases hs hl with ⟨u, h1, h2⟩ | ⟨e, h1, h2⟩
    · cases b7 <;> exp_simp [h1, h2, inv_e hs]
    · cases b9 <;> exp_simp [h1, h2, inv_e hs]
  | assignErrMove i e =>
    rcases inv_cases hs hl with ⟨u, h1, h2⟩ | ⟨e, h1, h2⟩
    · cases b8 <;> exp_simp [h1, h2, inv_e hs]
    · cases b10 <;> exp_simp [h1, h2, inv_e hs]
  | emplace i t =>
    rcases inv_cases hs hl with ⟨u, h1, h2⟩ | ⟨e, h1, h2⟩
    · cases b5 <;> exp_simp [h1, h2, inv_v hs]
    · cases b5 <;> cases b8 <;> exp_simp [h1, h2, inv_v hs]
  | emplaceList i t =>
    rcases inv_cases hs hl with ⟨u, h1, h2⟩ | ⟨e, h1, h2⟩
    · cases b5 <;> cases b4 <;> exp_simp [h1, h2, inv_v hs]
    · cases b5 <;> cases b8 <;> exp_simp [h1, h2, inv_v hs]
  | ctorCopy i j =>
    have hij : j ≠ i := by rintro rfl; exact hl.2 hl.1
    have hij' : i ≠ j := fun h => hij h.symm
    rcases inv_cases hs hl.2 with ⟨u, h1, h2⟩ | ⟨e, h1, h2⟩
    · cases b1 <;> exp_simp [h1, h2, set_other, hij, inv_v hs]
    · cases b7 <;> exp_simp [h1, h2, set_other, hij, inv_e hs]
  | ctorMove i j =>
    have hij : j ≠ i := by rintro rfl; exact hl.2 hl.1
    have hij' : i ≠ j := fun h => hij h.symm
    rcases inv_cases hs hl.2 with ⟨u, h1, h2⟩ | ⟨e, h1, h2⟩
    · cases b2 <;> exp_simp [h1, h2, set_other, hij, hij', inv_v hs] <;> fin i j hs
    · cases b8 <;> exp_simp [h1, h2, set_other, hij, hij', inv_e hs] <;> fin i j hs
  | assignCopy i j =>
    by_cases hij : j = i
    · subst hij
      rcases inv_cases hs hl.2 with ⟨u, h1, h2⟩ | ⟨e, h1, h2⟩
      · cases b1 <;> cases b2 <;> cases b3 <;> exp_simp [h1, h2, inv_v hs]
      · cases b1 <;> cases b2 <;> cases b9 <;> exp_simp [h1, h2, inv_e hs]
    · have hij' : i ≠ j := fun h => hij h.symm
      rcases inv_cases hs hl.1 with ⟨u, h1, h2⟩ | ⟨e, h1, h2⟩ <;>
      rcases inv_cases hs hl.2 with ⟨u', h3, h4⟩ | ⟨e', h3, h4⟩
      · cases b1 <;> cases b2 <;> cases b3 <;> exp_simp [h1, h2, h3, h4, inv_v hs] <;> fin i j hs
      · cases b1 <;> cases b2 <;> cases b7 <;>
          exp_simp [h1, h2, h3, h4, inv_e hs, set_other, hij, hij'] <;> fin i j hs
      · cases b1 <;> cases b2 <;> cases b8 <;>
          exp_simp [h1, h2, h3, h4, inv_v hs, set_other, hij, hij'] <;> fin i j hs
      · cases b1 <;> cases b2 <;> cases b9 <;>
          exp_simp [h1, h2, h3, h4, inv_e hs, set_other, hij, hij'] <;> fin i j hs
  | assignMove i j =>
    by_cases hij : j = i
    · subst hij
      rcases inv_cases hs hl.2 with ⟨u, h1, h2⟩ | ⟨e, h1, h2⟩
      · cases b2 <;> cases b4 <;> exp_simp [h1, h2, inv_v hs] <;> fin j j hs
      · cases b2 <;> cases b10 <;> exp_simp [h1, h2, inv_e hs] <;> fin j j hs
    · have hij' : i ≠ j := fun h => hij h.symm
      rcases inv_cases hs hl.1 with ⟨u, h1, h2⟩ | ⟨e, h1, h2⟩ <;>
      rcases inv_cases hs hl.2 with ⟨u', h3, h4⟩ | ⟨e', h3, h4⟩
      · cases b2 <;> cases b4 <;>
          exp_simp [h1, h2, h3, h4, set_other, hij, hij', inv_v hs] <;> fin i j hs
      · cases b2 <;> cases b8 <;>
          exp_simp [h1, h2, h3, h4, set_other, hij, hij', inv_v hs] <;> fin i j hs
      · cases b2 <;> cases b8 <;>
          exp_simp [h1, h2, h3, h4, set_other, hij, hij', inv_v hs] <;> fin i j hs
      · cases b2 <;> cases b10 <;>
          exp_simp [h1, h2, h3, h4, set_other, hij, hij', inv_v hs] <;> fin i j hs
  | swap i j => exact ok_swap _ mvT mvE i j l s n hs hl

end Gul14.Exp
