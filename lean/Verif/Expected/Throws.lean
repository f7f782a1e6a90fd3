import Verif.Expected.Base

/-! # Lifetimes in expected: calls in which element operations throw -/
namespace Gul14.Exp
open Spec Spec.Expd

variable {T E : Type}

theorem thr_ctorVal (tr : Tr) (mvT : T → T) (mvE : E → E) (f : Fail (T × E)) (i : Nat) (t : T)
    (s : Store T E) (n : Nat) (hs : Inv s) (hl : Legal (abs s) (.ctorVal i t))
    (ha : Available (T := T) (E := E) tr (.ctorVal i t)) (hsafe : Safe tr (abs s) (.ctorVal i t)) :
    Meets tr mvT mvE f (abs s) (.ctorVal i t) (exec tr mvT mvE (.ctorVal i t) f s n) := by
  obtain ⟨b1, b2, b3, b4, b5, b6, b7, b8, b9, b10⟩ := tr
  by_cases hf : f.at? = some n <;> cases b5 <;> exp_simp [hf, inv_v hs, hs] <;> fin i i hs

theorem thr_ctorErr (tr : Tr) (mvT : T → T) (mvE : E → E) (f : Fail (T × E)) (i : Nat) (e : E)
    (s : Store T E) (n : Nat) (hs : Inv s) (hl : Legal (abs s) (.ctorErr i e))
    (ha : Available (T := T) (E := E) tr (.ctorErr i e)) (hsafe : Safe tr (abs s) (.ctorErr i e)) :
    Meets tr mvT mvE f (abs s) (.ctorErr i e) (exec tr mvT mvE (.ctorErr i e) f s n) := by
  obtain ⟨b1, b2, b3, b4, b5, b6, b7, b8, b9, b10⟩ := tr
  by_cases hf : f.at? = some n <;> cases b7 <;> exp_simp [hf, inv_e hs, hs] <;> fin i i hs

theorem thr_dtor (tr : Tr) (mvT : T → T) (mvE : E → E) (f : Fail (T × E)) (i : Nat)
    (s : Store T E) (n : Nat) (hs : Inv s) (hl : Legal (abs s) (.dtor i))
    (ha : Available (T := T) (E := E) tr (.dtor i)) (hsafe : Safe tr (abs s) (.dtor i)) :
    Meets tr mvT mvE f (abs s) (.dtor i) (exec tr mvT mvE (.dtor i) f s n) := by
  obtain ⟨b1, b2, b3, b4, b5, b6, b7, b8, b9, b10⟩ := tr
  rcases inv_cases hs hl with ⟨t, h1, h2⟩ | ⟨e, h1, h2⟩ <;> exp_simp [h1, h2, inv_n hs]

theorem thr_assignVal (tr : Tr) (mvT : T → T) (mvE : E → E) (f : Fail (T × E)) (i : Nat) (t : T)
    (s : Store T E) (n : Nat) (hs : Inv s) (hl : Legal (abs s) (.assignVal i t))
    (ha : Available (T := T) (E := E) tr (.assignVal i t)) (hsafe : Safe tr (abs s) (.assignVal i t)) :
    Meets tr mvT mvE f (abs s) (.assignVal i t) (exec tr mvT mvE (.assignVal i t) f s n) := by
  obtain ⟨b1, b2, b3, b4, b5, b6, b7, b8, b9, b10⟩ := tr
  simp only [Available, Safe] at ha hsafe
  rcases inv_cases hs hl with ⟨u, h1, h2⟩ | ⟨e, h1, h2⟩
  · by_cases hf : f.at? = some n <;> cases b6 <;> exp_simp [h1, h2, hf, inv_v hs] <;> fin i i hs
  · simp only [h2, kind] at hsafe
    simp only [Option.some.injEq, Bool.false_eq_true, or_false] at hsafe
    subst hsafe
    by_cases hf : f.at? = some n <;> exp_simp [h1, h2, hf, inv_v hs]

theorem thr_assignErr (tr : Tr) (mvT : T → T) (mvE : E → E) (f : Fail (T × E)) (i : Nat) (e : E)
    (s : Store T E) (n : Nat) (hs : Inv s) (hl : Legal (abs s) (.assignErr i e))
    (ha : Available (T := T) (E := E) tr (.assignErr i e)) (hsafe : Safe tr (abs s) (.assignErr i e)) :
    Meets tr mvT mvE f (abs s) (.assignErr i e) (exec tr mvT mvE (.assignErr i e) f s n) := by
  obtain ⟨b1, b2, b3, b4, b5, b6, b7, b8, b9, b10⟩ := tr
  simp only [Available] at ha
  subst ha
  rcases inv_cases hs hl with ⟨u, h1, h2⟩ | ⟨e, h1, h2⟩
  · by_cases hf : f.at? = some n <;> exp_simp [h1, h2, hf, inv_e hs] <;> fin i i hs
  · by_cases hf : f.at? = some n <;> cases b9 <;> exp_simp [h1, h2, hf, inv_e hs] <;> fin i i hs

theorem thr_assignErrMove (tr : Tr) (mvT : T → T) (mvE : E → E) (f : Fail (T × E)) (i : Nat) (e : E)
    (s : Store T E) (n : Nat) (hs : Inv s) (hl : Legal (abs s) (.assignErrMove i e))
    (ha : Available (T := T) (E := E) tr (.assignErrMove i e)) (hsafe : Safe tr (abs s) (.assignErrMove i e)) :
    Meets tr mvT mvE f (abs s) (.assignErrMove i e) (exec tr mvT mvE (.assignErrMove i e) f s n) := by
  obtain ⟨b1, b2, b3, b4, b5, b6, b7, b8, b9, b10⟩ := tr
  simp only [Available] at ha
  subst ha
  rcases inv_cases hs hl with ⟨u, h1, h2⟩ | ⟨e, h1, h2⟩
  · by_cases hf : f.at? = some n <;> exp_simp [h1, h2, hf, inv_e hs] <;> fin i i hs
  · by_cases hf : f.at? = some n <;> cases b10 <;> exp_simp [h1, h2, hf, inv_e hs] <;> fin i i hs

theorem thr_emplace (tr : Tr) (mvT : T → T) (mvE : E → E) (f : Fail (T × E)) (i : Nat) (t : T)
    (s : Store T E) (n : Nat) (hs : Inv s) (hl : Legal (abs s) (.emplace i t))
    (ha : Available (T := T) (E := E) tr (.emplace i t)) (hsafe : Safe tr (abs s) (.emplace i t)) :
    Meets tr mvT mvE f (abs s) (.emplace i t) (exec tr mvT mvE (.emplace i t) f s n) := by
  obtain ⟨b1, b2, b3, b4, b5, b6, b7, b8, b9, b10⟩ := tr
  simp only [Safe] at hsafe
  subst hsafe
  rcases inv_cases hs hl with ⟨u, h1, h2⟩ | ⟨e, h1, h2⟩ <;> exp_simp [h1, h2, inv_v hs]

theorem thr_emplaceList (tr : Tr) (mvT : T → T) (mvE : E → E) (f : Fail (T × E)) (i : Nat) (t : T)
    (s : Store T E) (n : Nat) (hs : Inv s) (hl : Legal (abs s) (.emplaceList i t))
    (ha : Available (T := T) (E := E) tr (.emplaceList i t)) (hsafe : Safe tr (abs s) (.emplaceList i t)) :
    Meets tr mvT mvE f (abs s) (.emplaceList i t) (exec tr mvT mvE (.emplaceList i t) f s n) := by
  obtain ⟨b1, b2, b3, b4, b5, b6, b7, b8, b9, b10⟩ := tr
  simp only [Safe] at hsafe
  rcases inv_cases hs hl with ⟨u, h1, h2⟩ | ⟨e, h1, h2⟩
  · by_cases hf : f.at? = some n <;> by_cases hf1 : f.at? = some (n + 1) <;> cases b5 <;>
      cases b4 <;> exp_simp [h1, h2, hf, hf1, hs, inv_v hs] <;> fin i i hs
  · simp only [h2, kind] at hsafe
    simp only [Option.some.injEq, Bool.false_eq_true, or_false] at hsafe
    subst hsafe
    by_cases hf : f.at? = some n <;> exp_simp [h1, h2, hf, inv_v hs]

theorem thr_ctorCopy (tr : Tr) (mvT : T → T) (mvE : E → E) (f : Fail (T × E)) (i j : Nat)
    (s : Store T E) (n : Nat) (hs : Inv s) (hl : Legal (abs s) (.ctorCopy i j))
    (ha : Available (T := T) (E := E) tr (.ctorCopy i j)) (hsafe : Safe tr (abs s) (.ctorCopy i j)) :
    Meets tr mvT mvE f (abs s) (.ctorCopy i j) (exec tr mvT mvE (.ctorCopy i j) f s n) := by
  obtain ⟨b1, b2, b3, b4, b5, b6, b7, b8, b9, b10⟩ := tr
  have hij : j ≠ i := by rintro rfl; exact hl.2 hl.1
  have hij' : i ≠ j := fun h => hij h.symm
  rcases inv_cases hs hl.2 with ⟨u, h1, h2⟩ | ⟨e, h1, h2⟩
  · by_cases hf : f.at? = some n <;> cases b1 <;>
      exp_simp [h1, h2, hf, set_other, hij, inv_v hs] <;> fin i j hs
  · by_cases hf : f.at? = some n <;> cases b7 <;>
      exp_simp [h1, h2, hf, set_other, hij, inv_e hs] <;> fin i j hs

theorem thr_ctorMove (tr : Tr) (mvT : T → T) (mvE : E → E) (f : Fail (T × E)) (i j : Nat)
    (s : Store T E) (n : Nat) (hs : Inv s) (hl : Legal (abs s) (.ctorMove i j))
    (ha : Available (T := T) (E := E) tr (.ctorMove i j)) (hsafe : Safe tr (abs s) (.ctorMove i j)) :
    Meets tr mvT mvE f (abs s) (.ctorMove i j) (exec tr mvT mvE (.ctorMove i j) f s n) := by
  obtain ⟨b1, b2, b3, b4, b5, b6, b7, b8, b9, b10⟩ := tr
  have hij : j ≠ i := by rintro rfl; exact hl.2 hl.1
  have hij' : i ≠ j := fun h => hij h.symm
  rcases inv_cases hs hl.2 with ⟨u, h1, h2⟩ | ⟨e, h1, h2⟩
  · by_cases hf : f.at? = some n <;> cases b2 <;>
      exp_simp [h1, h2, hf, set_other, hij, hij', inv_v hs] <;> fin i j hs
  · by_cases hf : f.at? = some n <;> cases b8 <;>
      exp_simp [h1, h2, hf, set_other, hij, hij', inv_e hs] <;> fin i j hs

set_option maxHeartbeats 2000000 in
theorem thr_assignCopy (tr : Tr) (mvT : T → T) (mvE : E → E) (f : Fail (T × E)) (i j : Nat)
    (s : Store T E) (n : Nat) (hs : Inv s) (hl : Legal (abs s) (.assignCopy i j))
    (ha : Available (T := T) (E := E) tr (.assignCopy i j)) (hsafe : Safe tr (abs s) (.assignCopy i j)) :
    Meets tr mvT mvE f (abs s) (.assignCopy i j) (exec tr mvT mvE (.assignCopy i j) f s n) := by
  obtain ⟨b1, b2, b3, b4, b5, b6, b7, b8, b9, b10⟩ := tr
  by_cases hij : j = i
  · subst hij
    rcases inv_cases hs hl.2 with ⟨u, h1, h2⟩ | ⟨e, h1, h2⟩
    · by_cases hf : f.at? = some n <;> cases b1 <;> cases b2 <;> cases b3 <;>
        exp_simp [h1, h2, hf, inv_v hs] <;> fin j j hs
    · by_cases hf : f.at? = some n <;> cases b1 <;> cases b2 <;> cases b9 <;>
        exp_simp [h1, h2, hf, inv_e hs] <;> fin j j hs
  · have hij' : i ≠ j := fun h => hij h.symm
    rcases inv_cases hs hl.1 with ⟨u, h1, h2⟩ | ⟨e, h1, h2⟩ <;>
    rcases inv_cases hs hl.2 with ⟨u', h3, h4⟩ | ⟨e', h3, h4⟩
    · by_cases hf : f.at? = some n <;> cases b1 <;> cases b2 <;> cases b3 <;>
        exp_simp [h1, h2, h3, h4, hf, inv_v hs] <;> fin i j hs
    · by_cases hf : f.at? = some n <;> cases b1 <;> cases b2 <;> cases b7 <;>
        exp_simp [h1, h2, h3, h4, hf, inv_e hs, set_other, hij, hij'] <;> fin i j hs
    · by_cases hf : f.at? = some n <;> by_cases hf1 : f.at? = some (n + 1) <;>
        cases b1 <;> cases b2 <;> cases b8 <;>
        exp_simp [h1, h2, h3, h4, hf, hf1, inv_v hs, inv_e hs, set_other, hij, hij'] <;> fin i j hs
    · by_cases hf : f.at? = some n <;> cases b1 <;> cases b2 <;> cases b9 <;>
        exp_simp [h1, h2, h3, h4, hf, inv_e hs, set_other, hij, hij'] <;> fin i j hs

set_option maxHeartbeats 2000000 in
theorem thr_assignMove (tr : Tr) (mvT : T → T) (mvE : E → E) (f : Fail (T × E)) (i j : Nat)
    (s : Store T E) (n : Nat) (hs : Inv s) (hl : Legal (abs s) (.assignMove i j))
    (ha : Available (T := T) (E := E) tr (.assignMove i j)) (hsafe : Safe tr (abs s) (.assignMove i j)) :
    Meets tr mvT mvE f (abs s) (.assignMove i j) (exec tr mvT mvE (.assignMove i j) f s n) := by
  obtain ⟨b1, b2, b3, b4, b5, b6, b7, b8, b9, b10⟩ := tr
  by_cases hij : j = i
  · subst hij
    rcases inv_cases hs hl.2 with ⟨u, h1, h2⟩ | ⟨e, h1, h2⟩
    · by_cases hf : f.at? = some n <;> cases b2 <;> cases b4 <;>
        exp_simp [h1, h2, hf, inv_v hs] <;> fin j j hs
    · by_cases hf : f.at? = some n <;> cases b2 <;> cases b10 <;>
        exp_simp [h1, h2, hf, inv_e hs] <;> fin j j hs
  · have hij' : i ≠ j := fun h => hij h.symm
    rcases inv_cases hs hl.1 with ⟨u, h1, h2⟩ | ⟨e, h1, h2⟩ <;>
    rcases inv_cases hs hl.2 with ⟨u', h3, h4⟩ | ⟨e', h3, h4⟩
    · by_cases hf : f.at? = some n <;> cases b2 <;> cases b4 <;>
        exp_simp [h1, h2, h3, h4, hf, set_other, hij, hij', inv_v hs] <;> fin i j hs
    · by_cases hf : f.at? = some n <;> cases b2 <;> cases b8 <;>
        exp_simp [h1, h2, h3, h4, hf, set_other, hij, hij', inv_v hs] <;> fin i j hs
    · by_cases hf : f.at? = some n <;> by_cases hf1 : f.at? = some (n + 1) <;>
        cases b2 <;> cases b8 <;>
        exp_simp [h1, h2, h3, h4, hf, hf1, set_other, hij, hij', inv_v hs, inv_e hs] <;> fin i j hs
    · by_cases hf : f.at? = some n <;> cases b2 <;> cases b10 <;>
        exp_simp [h1, h2, h3, h4, hf, set_other, hij, hij', inv_v hs] <;> fin i j hs

theorem add_two_ne (n : Nat) : (n + 1 + 1 = n) = False := by simp; omega

/-- The index of the failing operation is one of the next three, or does not matter. -/
theorem fail_cases (f : Fail (T × E)) (n : Nat) :
    (f.at? = some n ∧ ¬ f.at? = some (n + 1) ∧ ¬ f.at? = some (n + 1 + 1)) ∨
    (¬ f.at? = some n ∧ f.at? = some (n + 1) ∧ ¬ f.at? = some (n + 1 + 1)) ∨
    (¬ f.at? = some n ∧ ¬ f.at? = some (n + 1) ∧ f.at? = some (n + 1 + 1)) ∨
    (¬ f.at? = some n ∧ ¬ f.at? = some (n + 1) ∧ ¬ f.at? = some (n + 1 + 1)) := by
  cases f.at? with
  | none => simp
  | some m => simp; omega

/-- If nothing can throw, swap is declared noexcept and nothing throws. -/
theorem swap_nothrow (tr : Tr) (mvT : T → T) (mvE : E → E) (f : Fail (T × E)) (i j : Nat)
    (s : Store T E) (n : Nat) (hs : Inv s) (hl : Legal (abs s) (.swap i j))
    (hne : (tr.tMove && tr.tMoveAssign && tr.eMove && tr.eMoveAssign) = true) :
    Meets tr mvT mvE f (abs s) (.swap i j) (exec tr mvT mvE (.swap i j) f s n) := by
  obtain ⟨b1, b2, b3, b4, b5, b6, b7, b8, b9, b10⟩ := tr
  simp only [Bool.and_eq_true] at hne
  obtain ⟨⟨⟨rfl, rfl⟩, rfl⟩, rfl⟩ := hne
  by_cases hij : j = i
  · subst hij
    rcases inv_cases hs hl.2 with ⟨u, h1, h2⟩ | ⟨e, h1, h2⟩ <;>
      exp_simp [h1, h2, inv_v hs, inv_e hs] <;> fin j j hs
  · have hij' : i ≠ j := fun h => hij h.symm
    rcases inv_cases hs hl.1 with ⟨u, h1, h2⟩ | ⟨e, h1, h2⟩ <;>
    rcases inv_cases hs hl.2 with ⟨u', h3, h4⟩ | ⟨e', h3, h4⟩ <;>
      exp_simp [h1, h2, h3, h4, set_other, hij, hij', inv_v hs, inv_e hs] <;> fin i j hs

set_option maxHeartbeats 1000000 in
theorem thr_swap (tr : Tr) (mvT : T → T) (mvE : E → E) (f : Fail (T × E)) (i j : Nat)
    (s : Store T E) (n : Nat) (hs : Inv s) (hl : Legal (abs s) (.swap i j))
    (hsafe : Safe tr (abs s) (.swap i j)) :
    Meets tr mvT mvE f (abs s) (.swap i j) (exec tr mvT mvE (.swap i j) f s n) := by
  by_cases hne : tr.tMove && tr.tMoveAssign && tr.eMove && tr.eMoveAssign
  · exact swap_nothrow tr mvT mvE f i j s n hs hl hne
  rw [show exec tr mvT mvE (.swap i j) f s n = swapBody tr mvT mvE i j f s n by
    simp only [exec, swap, if_neg hne]]
  obtain ⟨b1, b2, b3, b4, b5, b6, b7, b8, b9, b10⟩ := tr
  by_cases hij : j = i
  · subst hij
    rcases inv_cases hs hl.2 with ⟨u, h1, h2⟩ | ⟨e, h1, h2⟩
    · rcases fail_cases f n with ⟨hf, hf1, hf2⟩ | ⟨hf, hf1, hf2⟩ | ⟨hf, hf1, hf2⟩ | ⟨hf, hf1, hf2⟩ <;>
        cases b2 <;> cases b4 <;> exp_simp [h1, h2, hf, hf1, hf2, add_two_ne, inv_v hs] <;> fin j j hs
    · rcases fail_cases f n with ⟨hf, hf1, hf2⟩ | ⟨hf, hf1, hf2⟩ | ⟨hf, hf1, hf2⟩ | ⟨hf, hf1, hf2⟩ <;>
        cases b8 <;> cases b10 <;> exp_simp [h1, h2, hf, hf1, hf2, add_two_ne, inv_e hs] <;> fin j j hs
  · have hij' : i ≠ j := fun h => hij h.symm
    simp only [Safe] at hsafe
    rcases inv_cases hs hl.1 with ⟨u, h1, h2⟩ | ⟨e, h1, h2⟩ <;>
    rcases inv_cases hs hl.2 with ⟨u', h3, h4⟩ | ⟨e', h3, h4⟩
    · rcases fail_cases f n with ⟨hf, hf1, hf2⟩ | ⟨hf, hf1, hf2⟩ | ⟨hf, hf1, hf2⟩ | ⟨hf, hf1, hf2⟩ <;>
        cases b2 <;> cases b4 <;>
        exp_simp [h1, h2, h3, h4, hf, hf1, hf2, add_two_ne, set_other, hij, hij', inv_v hs] <;> fin i j hs
    · simp [h2, h4, kind] at hsafe
      obtain ⟨rfl, rfl⟩ := hsafe
      exp_simp [h1, h2, h3, h4, set_other, hij, hij'] <;> fin i j hs
    · simp [h2, h4, kind] at hsafe
      obtain ⟨rfl, rfl⟩ := hsafe
      exp_simp [h1, h2, h3, h4, set_other, hij, hij'] <;> fin i j hs
    · rcases fail_cases f n with ⟨hf, hf1, hf2⟩ | ⟨hf, hf1, hf2⟩ | ⟨hf, hf1, hf2⟩ | ⟨hf, hf1, hf2⟩ <;>
        cases b8 <;> cases b10 <;>
        exp_simp [h1, h2, h3, h4, hf, hf1, hf2, add_two_ne, set_other, hij, hij', inv_e hs] <;> fin i j hs

theorem step_meets (tr : Tr) (mvT : T → T) (mvE : E → E) (op : Op T E) (f : Fail (T × E))
    (s : Store T E) (n : Nat) (hs : Inv s) (hl : Legal (abs s) op) (ha : Available tr op)
    (hsafe : Safe tr (abs s) op) :
    Meets tr mvT mvE f (abs s) op (exec tr mvT mvE op f s n) := by
  cases op with
  | ctorVal i t => exact thr_ctorVal tr mvT mvE f i t s n hs hl ha hsafe
  | ctorErr i e => exact thr_ctorErr tr mvT mvE f i e s n hs hl ha hsafe
  | ctorCopy i j => exact thr_ctorCopy tr mvT mvE f i j s n hs hl ha hsafe
  | ctorMove i j => exact thr_ctorMove tr mvT mvE f i j s n hs hl ha hsafe
  | dtor i => exact thr_dtor tr mvT mvE f i s n hs hl ha hsafe
  | assignCopy i j => exact thr_assignCopy tr mvT mvE f i j s n hs hl ha hsafe
  | assignMove i j => exact thr_assignMove tr mvT mvE f i j s n hs hl ha hsafe
  | assignVal i t => exact thr_assignVal tr mvT mvE f i t s n hs hl ha hsafe
  | assignErr i e => exact thr_assignErr tr mvT mvE f i e s n hs hl ha hsafe
  | assignErrMove i e => exact thr_assignErrMove tr mvT mvE f i e s n hs hl ha hsafe
  | emplace i t => exact thr_emplace tr mvT mvE f i t s n hs hl ha hsafe
  | emplaceList i t => exact thr_emplaceList tr mvT mvE f i t s n hs hl ha hsafe
  | swap i j => exact thr_swap tr mvT mvE f i j s n hs hl hsafe

end Gul14.Exp
