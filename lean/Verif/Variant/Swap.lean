import Verif.Variant.Steps

/-! # Lifetimes in variant: swap -/
namespace Gul14.Var
open Spec.Vari LM

variable {V : Type} {c : Cfg} {mv : V → V} {w : Fail V} {s : Store V}

/-- The content can be moved without exceptions. -/
def nm (c : Cfg) : Content V → Bool
  | none => true
  | some (i, _) => c.ntMoveC i

theorem wp_moveNothrow (h : WellFormed c mv) {l : Loc} {x : Content V} (hl : s l = some (mk c x))
    (hx : Fits c x) {Q : Bool → Store V → Prop} {E : Store V → Prop} {T : Prop}
    (hQ : Q (nm c x) s) : wp (moveNothrow c l : M V Bool) w s Q E T := by
  unfold moveNothrow
  apply wp_bind
  apply wp_get hl
  cases x with
  | none => rw [valueless_none]; exact wp_pure hQ
  | some p =>
    obtain ⟨i, v⟩ := p
    have hi : i < c.length := hx _ rfl
    rw [valueless_some h hi, index_some h hi]
    simp only [Bool.false_eq_true, if_false, List.getElem?_eq_getElem hi]
    apply wp_pure
    simpa [nm, Cfg.ntMoveC, hi] using hQ

theorem three (s : Store V) {l r : Loc} (htl : Loc.tmp ≠ l) (htr : Loc.tmp ≠ r) (hlr : l ≠ r)
    (ht : s .tmp = none) {s' : Store V} {x y : Option (Obj V)} (h0 : s' .tmp = none)
    (h1 : s' l = x) (h2 : s' r = y) (h3 : ∀ k, k ≠ .tmp → k ≠ l → k ≠ r → s' k = s k) :
    s' = (s.set l x).set r y := by
  funext k
  by_cases hk : k = r
  · subst hk; rw [set_self, h2]
  · rw [set_other _ _ hk]
    by_cases hk' : k = l
    · subst hk'; rw [set_self, h1]
    · rw [set_other _ _ hk']
      by_cases hk'' : k = .tmp
      · subst hk''; rw [h0, ht]
      · exact h3 k hk'' hk' hk

theorem wp_swapTmp (h : WellFormed c mv) (hm : c.moveC ≠ .unavailable) {l r : Loc}
    {x y : Content V} (htl : Loc.tmp ≠ l) (htr : Loc.tmp ≠ r) (hlr : l ≠ r) (ht : s .tmp = none)
    (hl : s l = some (mk c x)) (hx : Fits c x) (hr : s r = some (mk c y)) (hy : Fits c y)
    (hn : nm c x = true → nm c y = true)
    {Q : Unit → Store V → Prop} {E : Store V → Prop} {T : Prop}
    (hQ : Q () ((s.set l (some (mk c y))).set r (some (mk c x))))
    (hE1 : ∀ i' u', y = some (i', u') → i' < c.length → nm c x = false → nm c y = false →
      E (s.set r (some (mk c (some (i', w.left))))))
    (hE2 : ∀ i u, x = some (i, u) → i < c.length → nm c x = false → nm c y = true →
      E (s.set l (some (mk c (some (i, w.left))))))
    (hE3 : ∀ i u, x = some (i, u) → i < c.length → nm c x = false → nm c y = false →
      E ((s.set l (some (mk c (some (i, w.left))))).set r (some (mk c none))))
    (hE4 : nm c x = false → nm c y = false →
      E ((s.set l (some (mk c none))).set r (some (mk c x)))) :
    wp (swapTmp c mv l r) w s Q E T := by
  have hrl : r ≠ l := fun h => hlr h.symm
  have hlt : l ≠ .tmp := fun h => htl h.symm
  have hrt : r ≠ .tmp := fun h => htr h.symm
  unfold swapTmp
  apply wp_bind
  apply wp_ctorMove h hm ht hr hy
  · apply wp_bind
    apply wp_onThrow
    apply wp_bind
    apply wp_onThrow
    -- *rhs from *lhs
    apply wp_genericConstruct h (l := r) (r := l) (x := after mv true y) (y := x) hrl
      (set_self _ _ _) (fits_after hy) (by rw [set_other _ _ hlr, set_other _ _ hlt]; exact hl) hx
    · -- *lhs from tmp
      apply wp_genericConstruct h (l := l) (r := .tmp) (x := after mv true x) (y := y) hlt
        (set_self _ _ _) (fits_after hx)
        (by rw [set_other _ _ htl, set_other _ _ htr, set_other _ _ htr, set_self]) hy
      · apply wp_dtor h (set_self _ _ _) (fits_after hy)
        refine (congrArg (Q ()) (three s htl htr hlr ht ?_ ?_ ?_ ?_)).mpr hQ
        · simp [set_self]
        · simp [Store.set, hlt]
        · simp [Store.set, hrt, hrl]
        · intro k h1 h2 h3; simp [Store.set, h1, h2, h3]
      · intro i v he hi hnt
        apply wp_dtor h (set_self _ _ _) (fits_some hi _)
        have hny : nm c y = false := by rw [he]; simpa [nm] using hnt
        have hnx : nm c x = false := by
          cases hc : nm c x with
          | false => rfl
          | true => rw [hn hc] at hny; cases hny
        refine (congrArg E (three s htl htr hlr ht ?_ ?_ ?_ ?_)).mpr (hE4 hnx hny)
        · simp [set_self]
        · simp [Store.set, hlt]
        · simp [Store.set, hrt, hrl]
        · intro k h1 h2 h3; simp [Store.set, h1, h2, h3]
    · intro i v he hi hnt
      have hnx : nm c x = false := by rw [he]; simpa [nm] using hnt
      apply wp_bind
      apply wp_moveNothrow h (x := y)
        (by rw [set_other _ _ htl, set_other _ _ htr, set_other _ _ htr, set_self]) hy
      apply wp_ite
      · intro hny
        apply wp_genericConstruct h (l := r) (r := .tmp) (x := none) (y := y) hrt
          (by rw [set_other _ _ hrl, set_self]) (fits_none c)
          (by rw [set_other _ _ htl, set_other _ _ htr, set_other _ _ htr, set_self]) hy
        · apply wp_dtor h (set_self _ _ _) (fits_after hy)
          have := hE2 i v he hi hnx hny
          rw [← set_noop s hr, set_comm s hrl] at this
          refine (congrArg E (three s htl htr hlr ht ?_ ?_ ?_ ?_)).mpr this
          · simp [set_self]
          · simp [Store.set, hlt, hlr]
          · simp [Store.set, hrt]
          · intro k h1 h2 h3; simp [Store.set, h1, h2, h3]
        · intro i' v' he' hi' hnt'
          rw [he'] at hny
          simp [nm] at hny
          simp [hny] at hnt'
      · intro hny
        apply wp_pure
        apply wp_dtor h (x := y)
          (by rw [set_other _ _ htl, set_other _ _ htr, set_other _ _ htr, set_self]) hy
        have := hE3 i v he hi hnx (by simpa using hny)
        refine (congrArg E (three s htl htr hlr ht ?_ ?_ ?_ ?_)).mpr this
        · simp [set_self]
        · simp [Store.set, hlt]
        · simp [Store.set, hrt, hrl]
        · intro k h1 h2 h3; simp [Store.set, h1, h2, h3]
  · intro i v he hi hnt
    have hny : nm c y = false := by rw [he]; simpa [nm] using hnt
    have hnx : nm c x = false := by
      cases hc : nm c x with
      | false => rfl
      | true => rw [hn hc] at hny; cases hny
    exact hE1 i v he hi hnx hny

theorem nothrowMove_of {x : Content V} (h : nm c x = true) : NothrowMove c (some x) := by
  intro i hi
  cases x with
  | none => simp [alternative] at hi
  | some p =>
    obtain ⟨i', u⟩ := p
    simp only [alternative, Option.bind_some, Option.map_some, Option.some.injEq] at hi
    subst hi
    exact h

theorem some_of_nm {x : Content V} (h : nm c x = false) : ∃ i u, x = some (i, u) ∧ c.ntMoveC i = false := by
  cases x with
  | none => simp [nm] at h
  | some p => exact ⟨p.1, p.2, rfl, h⟩

theorem cset_comm (a : Contents V) {k j : Nat} (h : k ≠ j) (x y : Option (Content V)) :
    (a.set k x).set j y = (a.set j y).set k x := by
  funext i; unfold Contents.set
  by_cases h1 : i = k <;> by_cases h2 : i = j <;> simp_all

theorem wp_swapBody (h : WellFormed c mv) (hs : Inv c s) {k j : Nat}
    (hl : Legal c (abs s) (.swap k j)) :
    wp (swapBody c mv (.obj k) (.obj j)) w s
      (fun _ s' => Inv c s' ∧ abs s' = effect mv (abs s) (.swap k j))
      (fun s' => Inv c s' ∧ (∃ i, i < c.length ∧ (c.ntMoveC i && c.ntSwap i) = false) ∧
        Thrown c (abs s) (abs s') (.swap k j)) False := by
  obtain ⟨x, hx, h1, h2⟩ := inv_some hs hl.1
  obtain ⟨y, hy, h3, h4⟩ := inv_some hs hl.2.1
  have hm := moveC_ne hl.2.2
  unfold swapBody
  apply wp_bind
  apply wp_get h1
  apply wp_bind
  apply wp_get h3
  by_cases hboth : x = none ∧ y = none
  · obtain ⟨rfl, rfl⟩ := hboth
    simp only [valueless_none, Bool.and_self, if_true]
    apply wp_pure
    refine ⟨hs, ?_⟩
    simp only [effect, h2, h4]
    rw [cset_noop (abs s) h2, cset_noop (abs s) h4]
  · have hv : (valueless c (mk c x) && valueless c (mk c y)) = false := by
      cases x with
      | none =>
        cases y with
        | none => exact (hboth ⟨rfl, rfl⟩).elim
        | some p => obtain ⟨i, v⟩ := p; rw [valueless_some h (hy _ rfl)]; simp
      | some p => obtain ⟨i, v⟩ := p; rw [valueless_some h (hx _ rfl)]; simp
    simp only [hv, Bool.false_eq_true, if_false]
    by_cases hsame : ∃ i u u', x = some (i, u) ∧ y = some (i, u')
    · obtain ⟨i, u, u', rfl, rfl⟩ := hsame
      have hi : i < c.length := hx _ rfl
      simp only [index_some h hi, if_true]
      apply wp_bind
      apply wp_visitAt hi
      unfold swapValues
      apply wp_bind
      apply wp_readAlt h1
      apply wp_bind
      apply wp_readAlt h3
      have hset : ∀ z z' : V, setMem (setMem s (.obj k) (some (i, z))) (.obj j) (some (i, z')) =
          (s.set (.obj k) (some (mk c (some (i, z))))).set (.obj j) (some (mk c (some (i, z')))) := by
        intro z z'
        by_cases hkj : Loc.obj j = Loc.obj k
        · simp only [setMem, h1, hkj, set_self]; rfl
        · simp only [setMem, h1, set_other _ _ hkj, h3]; rfl
      apply wp_elemIf
      · simp only [hset]
        refine ⟨inv_set (inv_set hs hy k) hx j, ?_⟩
        rw [abs_set, abs_set]
        simp only [effect, h2, h4]
      · intro hn _
        simp only [hset]
        refine ⟨inv_set (inv_set hs (fits_some hi _) k) (fits_some hi _) j,
          ⟨i, hi, by simp [hn]⟩, .inl ⟨i, alt_some h2, alt_some h4, hn, w.left, ?_⟩⟩
        rw [abs_set, abs_set]
    · have hidx : index c (mk c x) ≠ index c (mk c y) := by
        cases x with
        | none =>
          cases y with
          | none => exact (hboth ⟨rfl, rfl⟩).elim
          | some p =>
            obtain ⟨i, v⟩ := p
            rw [index_none, index_some h (hy _ rfl)]
            exact fun h' => (index_bound h.bound (hy _ rfl)).2.2 h'.symm
        | some p =>
          obtain ⟨i, v⟩ := p
          rw [index_some h (hx _ rfl)]
          cases y with
          | none =>
            rw [index_none]
            exact fun h' => (index_bound h.bound (hx _ rfl)).2.2 h'
          | some q =>
            obtain ⟨i', v'⟩ := q
            rw [index_some h (hy _ rfl)]
            rintro rfl
            exact hsame ⟨i, v, v', rfl, rfl⟩
      have hkj : k ≠ j := by
        rintro rfl
        rw [h2] at h4
        cases h4
        exact hidx rfl
      have hjk : j ≠ k := fun h => hkj h.symm
      have hlkj : Loc.obj k ≠ Loc.obj j := by simpa using hkj
      have hljk : Loc.obj j ≠ Loc.obj k := by simpa using hjk
      rw [if_neg hidx]
      apply wp_bind
      apply wp_moveNothrow h h1 hx
      apply wp_bind
      apply wp_moveNothrow h h3 hy
      have hbad : ∀ z : Content V, nm c z = false → Fits c z →
          ∃ i, i < c.length ∧ (c.ntMoveC i && c.ntSwap i) = false := by
        intro z hz hf
        obtain ⟨i, u, rfl, hn⟩ := some_of_nm hz
        exact ⟨i, hf _ rfl, by simp [hn]⟩
      apply wp_ite
      · intro hb
        simp only [Bool.and_eq_true, Bool.not_eq_true'] at hb
        obtain ⟨hnx, hny⟩ := hb
        apply wp_swapTmp h hm (l := .obj j) (r := .obj k) (x := y) (y := x) (by simp) (by simp)
          hljk hs.tmp h3 hy h1 hx (by rw [hny]; intro h; cases h)
        · refine ⟨inv_set (inv_set hs hx j) hy k, ?_⟩
          rw [abs_set, abs_set, cset_comm _ hjk]
          simp only [effect, h2, h4]
        · intro _ _ _ _ _ hn; rw [hnx] at hn; cases hn
        · intro i u he hi hn _
          refine ⟨inv_set hs (fits_some hi _) j, hbad y hny hy, .inr (.inr (.inl
            ⟨i, by rw [h4, he]; rfl, ?_, ?_, w.left, abs_set (c := c) s j (some (i, w.left))⟩))⟩
          · rw [he] at hn; exact hn
          · rw [h2]; exact nothrowMove_of hnx
        · intro _ _ _ _ _ hn; rw [hnx] at hn; cases hn
        · intro _ hn; rw [hnx] at hn; cases hn
      · intro hb
        have himp : nm c x = true → nm c y = true := by
          intro h1
          simp only [h1, Bool.true_and, Bool.not_eq_true', Bool.not_eq_false] at hb
          exact hb
        apply wp_swapTmp h hm (l := .obj k) (r := .obj j) (x := x) (y := y) (by simp) (by simp)
          hlkj hs.tmp h1 hx h3 hy himp
        · refine ⟨inv_set (inv_set hs hy k) hx j, ?_⟩
          rw [abs_set, abs_set]
          simp only [effect, h2, h4]
        · intro i' u' he' hi' hnx hny
          obtain ⟨i, u, he, hn⟩ := some_of_nm hnx
          obtain ⟨_, _, he'', hn'⟩ := some_of_nm hny
          rw [he'] at he''
          cases he''
          refine ⟨inv_set hs (fits_some hi' _) j, hbad x hnx hx, .inr (.inr (.inr
            ⟨i, i', by rw [h2, he]; rfl, by rw [h4, he']; rfl, ?_, hn, hn',
              .inl ⟨w.left, abs_set (c := c) s j (some (i', w.left))⟩⟩))⟩
          rintro rfl
          exact hsame ⟨i, u, _, he, he'⟩
        · intro i u he hi hnx hny
          refine ⟨inv_set hs (fits_some hi _) k, hbad x hnx hx, .inr (.inl
            ⟨i, by rw [h2, he]; rfl, ?_, ?_, w.left, abs_set (c := c) s k (some (i, w.left))⟩)⟩
          · rw [he] at hnx; exact hnx
          · rw [h4]; exact nothrowMove_of hny
        · intro i u he hi hnx hny
          obtain ⟨i', u', he', hn'⟩ := some_of_nm hny
          refine ⟨inv_set (inv_set hs (fits_some hi _) k) (fits_none c) j, hbad x hnx hx,
            .inr (.inr (.inr ⟨i, i', by rw [h2, he]; rfl, by rw [h4, he']; rfl, ?_, ?_, hn',
              .inr (.inl ⟨w.left, ?_⟩)⟩))⟩
          · rintro rfl; exact hsame ⟨i, u, u', he, he'⟩
          · rw [he] at hnx; exact hnx
          · rw [abs_set, abs_set, cset_comm _ hkj]
        · intro hnx hny
          obtain ⟨i, u, he, hn⟩ := some_of_nm hnx
          obtain ⟨i', u', he', hn'⟩ := some_of_nm hny
          refine ⟨inv_set (inv_set hs (fits_none c) k) hx j, hbad x hnx hx,
            .inr (.inr (.inr ⟨i, i', by rw [h2, he]; rfl, by rw [h4, he']; rfl, ?_, hn, hn',
              .inr (.inr ?_)⟩))⟩
          · rintro rfl; exact hsame ⟨i, u, u', he, he'⟩
          · rw [abs_set, abs_set, h2]

theorem meets_swap (h : WellFormed c mv) (hs : Inv c s) {k j : Nat}
    (hl : Legal c (abs s) (.swap k j)) : Meets c mv w s (.swap k j) := by
  have hm := wp_swapBody (w := w) h hs hl
  unfold Meets
  simp only [exec, swap]
  apply wp_ite
  · intro hb
    apply wp_noexcept
    apply wp_mono hm (fun _ _ q => q) _ id
    rintro s' ⟨_, ⟨i, hi, hn⟩, _⟩
    have := List.all_eq_true.mp hb _ (List.getElem_mem hi)
    simp [Cfg.ntMoveC, Cfg.ntSwap, hi] at hn this
    simp [this] at hn
  · intro _
    exact wp_mono hm (fun _ _ q => q) (fun _ q => ⟨q.1, q.2.2⟩) id

/-- Every operation meets its specification. -/
theorem meets (h : WellFormed c mv) (hs : Inv c s) (op : Op V) (hl : Legal c (abs s) op) :
    Meets c mv w s op := by
  cases op with
  | ctorAt k i v nt => exact meets_ctorAt h hs hl
  | ctorCopy k j => exact meets_ctorCopy h hs hl
  | ctorMove k j => exact meets_ctorMove h hs hl
  | dtor k => exact meets_dtor h hs hl
  | assignCopy k j => exact meets_assignCopy h hs hl
  | assignMove k j => exact meets_assignMove h hs hl
  | assignVal k i v nt nta => exact meets_assignVal h hs hl
  | emplace k i v nt => exact meets_emplace h hs hl
  | swap k j => exact meets_swap h hs hl

end Gul14.Var
