import Verif.StringView.Lemmas

namespace Gul14.SV
open Gul14.Spec

/-- The comparison as a structural recursion. -/
def cmp : Str → Str → Int
  | [], [] => 0
  | [], _ :: _ => -1
  | _ :: _, [] => 1
  | a :: s, b :: t => if a < b then -1 else if b < a then 1 else cmp s t

theorem compare_eq_cmp (a x : Str) : compare a x = some (cmp a x) := by
  induction a generalizing x with
  | nil => cases x <;> simp [compare, traitsCompare, cmp]
  | cons c a ih =>
    cases x with
    | nil => simp [compare, traitsCompare, cmp]
    | cons d x =>
      have := ih x
      simp only [compare] at this ⊢
      simp only [List.length_cons, Nat.add_min_add_right, traitsCompare, cmp]
      by_cases h1 : c < d
      · simp [h1]
      · by_cases h2 : d < c
        · simp [h1, h2]
        · simpa [h1, h2] using this

theorem cmp_range (a b : Str) : cmp a b = -1 ∨ cmp a b = 0 ∨ cmp a b = 1 := by
  fun_induction cmp a b <;> simp_all

theorem cmp_neg_iff (a b : Str) : cmp a b < 0 ↔ LexLt a b := by
  induction a generalizing b with
  | nil =>
    cases b with
    | nil => simp [cmp, LexLt]
    | cons d b => simp [cmp, LexLt]
  | cons c a ih =>
    cases b with
    | nil => simp [cmp, LexLt]
    | cons d b =>
      simp only [cmp]
      by_cases h1 : c < d
      · simp only [if_pos h1, LexLt]
        refine ⟨fun _ => Or.inr ⟨[], c, d, a, b, by simp, by simp, h1⟩, fun _ => by decide⟩
      · rw [if_neg h1]
        by_cases h2 : d < c
        · rw [if_pos h2]
          refine ⟨fun h => absurd h (by decide), ?_⟩
          rintro (⟨e, t, h⟩ | ⟨p, x, y, s, t, h3, h4, h5⟩)
          · simp only [List.cons_append, List.cons.injEq] at h
            rw [h.1] at h2; simp at h2
          · cases p with
            | nil =>
              simp at h3 h4
              rw [h3.1, h4.1] at h1; exact absurd h5 h1
            | cons q p =>
              simp at h3 h4
              rw [h3.1, h4.1] at h2; simp at h2
        · rw [if_neg h2, ih]
          have := u8_eq_of_not_lt h1 h2
          subst this
          constructor
          · rintro (⟨e, t, h⟩ | ⟨p, x, y, s, t, h3, h4, h5⟩)
            · exact Or.inl ⟨e, t, by simp [h]⟩
            · exact Or.inr ⟨c :: p, x, y, s, t, by simp [h3], by simp [h4], h5⟩
          · rintro (⟨e, t, h⟩ | ⟨p, x, y, s, t, h3, h4, h5⟩)
            · exact Or.inl ⟨e, t, by simpa using h⟩
            · cases p with
              | nil =>
                simp at h3 h4
                rw [h3.1] at h4
                rw [h4.1] at h5; simp at h5
              | cons q p =>
                simp at h3 h4
                exact Or.inr ⟨p, x, y, s, t, h3.2, h4.2, h5⟩

theorem cmp_zero_iff (a b : Str) : cmp a b = 0 ↔ a = b := by
  induction a generalizing b with
  | nil => cases b <;> simp [cmp]
  | cons c a ih =>
    cases b with
    | nil => simp [cmp]
    | cons d b =>
      simp only [cmp, List.cons.injEq]
      by_cases h1 : c < d
      · have : c ≠ d := by rintro rfl; simp at h1
        simp [h1, this]
      · by_cases h2 : d < c
        · have : c ≠ d := by rintro rfl; simp at h2
          simp [h1, h2, this]
        · simp [ih, u8_eq_of_not_lt h1 h2]

theorem cmp_antisymm (a b : Str) : cmp b a = - cmp a b := by
  induction a generalizing b with
  | nil => cases b <;> simp [cmp]
  | cons c a ih =>
    cases b with
    | nil => simp [cmp]
    | cons d b =>
      simp only [cmp]
      by_cases h1 : c < d
      · have : ¬ d < c := by rw [UInt8.lt_iff_toNat_lt] at *; omega
        simp [h1, this]
      · by_cases h2 : d < c
        · simp [h1, h2]
        · simp [h1, h2, ih]

theorem cmp_trans (a b c : Str) (h1 : cmp a b ≤ 0) (h2 : cmp b c ≤ 0) : cmp a c ≤ 0 := by
  induction a generalizing b c with
  | nil => cases c <;> simp [cmp]
  | cons x a ih =>
    cases b with
    | nil => simp [cmp] at h1
    | cons y b =>
      cases c with
      | nil => simp [cmp] at h2
      | cons z c =>
        simp only [cmp, UInt8.lt_iff_toNat_lt] at *
        split at h1
        · split at h2
          · rw [if_pos (by omega)]; decide
          · split at h2
            · omega
            · rw [if_pos (by omega)]; decide
        · split at h1
          · omega
          · split at h2
            · rw [if_pos (by omega)]; decide
            · split at h2
              · omega
              · rw [if_neg (by omega), if_neg (by omega)]
                exact ih _ _ h1 h2

end Gul14.SV
