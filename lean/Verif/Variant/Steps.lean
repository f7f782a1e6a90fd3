import Verif.Variant.Lemmas

/-! # Lifetimes in variant: every operation -/
namespace Gul14.Var
open Spec.Vari LM

variable {V : Type} {c : Cfg} {mv : V → V} {w : Fail V} {s : Store V}

/-- What is seen of the variants of the program. -/
def abs (s : Store V) : Contents V := fun k => (s (.obj k)).map Obj.mem

/-- Every variant holds exactly the alternative that its index says, or nothing. -/
structure Inv (c : Cfg) (s : Store V) : Prop where
  tmp : s .tmp = none
  obj : ∀ k o, s (.obj k) = some o → ∃ x, Fits c x ∧ o = mk c x

theorem mk_mem (c : Cfg) (x : Content V) : (mk c x).mem = x := by
  cases x <;> rfl

theorem inv_some (h : Inv c s) {k : Nat} (hk : abs s k ≠ none) :
    ∃ x, Fits c x ∧ s (.obj k) = some (mk c x) ∧ abs s k = some x := by
  unfold abs at *
  cases ho : s (.obj k) with
  | none => simp [ho] at hk
  | some o =>
    obtain ⟨x, h1, rfl⟩ := h.obj k o ho
    exact ⟨x, h1, rfl, by simp [mk_mem]⟩

theorem inv_none {k : Nat} (hk : abs s k = none) : s (.obj k) = none := by
  unfold abs at hk
  cases ho : s (.obj k) with
  | none => rfl
  | some o => simp [ho] at hk

theorem inv_set (h : Inv c s) {x : Content V} (hx : Fits c x) (k : Nat) :
    Inv c (s.set (.obj k) (some (mk c x))) := by
  refine ⟨by rw [set_other _ _ (by simp)]; exact h.tmp, ?_⟩
  intro j o hj
  unfold Store.set at hj
  split at hj
  · exact ⟨x, hx, (Option.some.inj hj).symm⟩
  · exact h.obj j o hj

theorem inv_unset (h : Inv c s) (k : Nat) : Inv c (s.set (.obj k) none) := by
  refine ⟨by rw [set_other _ _ (by simp)]; exact h.tmp, ?_⟩
  intro j o hj
  unfold Store.set at hj
  split at hj
  · cases hj
  · exact h.obj j o hj

theorem abs_set (s : Store V) (k : Nat) (x : Content V) :
    abs (s.set (.obj k) (some (mk c x))) = (abs s).set k (some x) := by
  funext j
  unfold abs Store.set Contents.set
  by_cases h : j = k <;> simp [h, mk_mem]

theorem abs_unset (s : Store V) (k : Nat) :
    abs (s.set (.obj k) none) = (abs s).set k none := by
  funext j
  unfold abs Store.set Contents.set
  by_cases h : j = k <;> simp [h]

theorem abs_tmp (s : Store V) (o : Option (Obj V)) : abs (s.set .tmp o) = abs s := by
  funext j
  unfold abs Store.set
  simp

theorem cset_same (a : Contents V) (k : Nat) : a.set k (a k) = a := by
  funext j; unfold Contents.set; split <;> simp_all

theorem cset_noop (a : Contents V) {k : Nat} {x : Option (Content V)} (h : a k = x) :
    a.set k x = a := by rw [← h, cset_same]

theorem alt_some {a : Contents V} {k i : Nat} {v : V} (h : a k = some (some (i, v))) :
    alternative (a k) = some i := by rw [h]; rfl

theorem alt_none {a : Contents V} {k : Nat} (h : a k = some none) :
    alternative (a k) = none := by rw [h]; rfl

/-- The outcome of one operation. -/
def Meets (c : Cfg) (mv : V → V) (w : Fail V) (s : Store V) (op : Op V) : Prop :=
  wp (exec c mv op) w s (fun _ s' => Inv c s' ∧ abs s' = effect mv (abs s) op)
    (fun s' => Inv c s' ∧ Thrown c (abs s) (abs s') op) False

theorem meets_ctorAt (h : WellFormed c mv) (hs : Inv c s) {k i : Nat} {v : V} {nt : Bool}
    (hl : Legal c (abs s) (.ctorAt k i v nt)) : Meets c mv w s (.ctorAt k i v nt) := by
  unfold Meets
  simp only [exec, ctorAt]
  apply wp_bind
  apply wp_elemIf
  · apply wp_create (inv_none hl.1)
    rw [(index_bound h.bound hl.2).2.1]
    exact ⟨inv_set hs (fits_some hl.2 v) k, abs_set (c := c) s k (some (i, v))⟩
  · intro hn _
    exact ⟨hs, hn, rfl⟩

theorem wp_dtor (h : WellFormed c mv) {l : Loc} {x : Content V} (hl : s l = some (mk c x))
    (hx : Fits c x) {Q : Unit → Store V → Prop} {E : Store V → Prop} {T : Prop}
    (hQ : Q () (s.set l none)) : wp (dtor c l : M V Unit) w s Q E T := by
  unfold dtor
  have hd := dtor_ne h
  cases hc : c.dtor with
  | unavailable => exact (hd hc).elim
  | trivially =>
    simp only
    apply wp_bind
    apply wp_get hl
    apply wp_bind
    apply wp_put
    apply wp_release (set_self _ _ _)
    rw [set_set]; exact hQ
  | available =>
    simp only
    apply wp_bind
    apply wp_destroy h hl hx
    apply wp_release (set_self _ _ _)
    rw [set_set]; exact hQ

theorem meets_dtor (h : WellFormed c mv) (hs : Inv c s) {k : Nat}
    (hl : Legal c (abs s) (.dtor k)) : Meets c mv w s (.dtor k) := by
  unfold Meets
  obtain ⟨x, hx, h1, h2⟩ := inv_some hs hl
  exact wp_dtor h h1 hx ⟨inv_unset hs k, abs_unset s k⟩

/-- Construction of a new variant from another one. -/
theorem wp_ctorBody (h : WellFormed c mv) {m : Bool} {l r : Loc} {y : Content V} (hl : s l = none)
    (hr : s r = some (mk c y)) (hy : Fits c y) {Q : Unit → Store V → Prop} {E : Store V → Prop}
    {T : Prop} (hQ : Q () ((s.set l (some (mk c y))).set r (some (mk c (after mv m y)))))
    (hE : ∀ i v, y = some (i, v) → i < c.length →
      (if m then c.ntMoveC i = false else c.ntCopyC i = false) →
      E (s.set r (some (mk c (some (i, if m then w.left else v)))))) :
    wp (ctorBody c mv m l r) w s Q E T := by
  have hrl : r ≠ l := by rintro rfl; rw [hl] at hr; cases hr
  have hlr : l ≠ r := fun h => hrl h.symm
  unfold ctorBody
  apply wp_bind
  apply wp_create hl
  apply wp_onThrow
  apply wp_genericConstruct h hlr (x := none) (set_self _ _ _) (fits_none c)
    (by rw [set_other _ _ hrl]; exact hr) hy
  · rw [set_set]; exact hQ
  · intro i v hi hc hn
    rw [set_set]
    apply wp_dtor h (x := none) (by rw [set_other _ _ hlr, set_self]) (fits_none c)
    rw [set_comm _ hrl, set_set, set_noop s hl]
    exact hE i v hi hc hn

theorem after_triv {x : Content V} (h : ∀ v, mv v = v) (m : Bool) : after mv m x = x := by
  cases x with
  | none => rfl
  | some p => obtain ⟨i, v⟩ := p; cases m <;> simp [after, h]

theorem after_false (x : Content V) : after mv false x = x := by
  cases x <;> simp [after]

theorem not_nt_of_all {i : Nat} (hi : i < c.length) (h : c.all Alt.ntMoveC = true) :
    c.ntMoveC i = true := by
  have := List.all_eq_true.mp h _ (List.getElem_mem hi)
  simp [Cfg.ntMoveC, hi, this]

theorem wp_ctorMove (h : WellFormed c mv) (hm : c.moveC ≠ .unavailable) {l r : Loc}
    {y : Content V} (hl : s l = none)
    (hr : s r = some (mk c y)) (hy : Fits c y) {Q : Unit → Store V → Prop} {E : Store V → Prop}
    {T : Prop} (hQ : Q () ((s.set l (some (mk c y))).set r (some (mk c (after mv true y)))))
    (hE : ∀ i v, y = some (i, v) → i < c.length → c.ntMoveC i = false →
      E (s.set r (some (mk c (some (i, w.left)))))) :
    wp (ctorMove c mv l r) w s Q E T := by
  have hrl : r ≠ l := by rintro rfl; rw [hl] at hr; cases hr
  unfold ctorMove
  cases hc : c.moveC with
  | unavailable => exact (hm hc).elim
  | trivially =>
    simp only
    apply wp_bind
    apply wp_get hr
    apply wp_create hl
    rwa [after_triv (moveC_triv h hc).2, set_noop] at hQ
    rw [set_other _ _ hrl]; exact hr
  | available =>
    simp only
    apply wp_ite
    · intro ha
      apply wp_noexcept
      apply wp_ctorBody h hl hr hy hQ
      intro i v _ hi hn
      rw [not_nt_of_all hi ha] at hn
      simp at hn
    · intro _
      exact wp_ctorBody h hl hr hy hQ (by simpa using hE)

theorem movedFrom_some (mv : V → V) (y : Content V) :
    movedFrom mv (some y) = some (after mv true y) := by
  cases y <;> rfl

theorem meets_ctorCopy (h : WellFormed c mv) (hs : Inv c s) {k j : Nat}
    (hl : Legal c (abs s) (.ctorCopy k j)) : Meets c mv w s (.ctorCopy k j) := by
  obtain ⟨y, hy, h1, h2⟩ := inv_some hs hl.2.1
  have h3 := inv_none hl.1
  have hkj : j ≠ k := by rintro rfl; exact hl.2.1 hl.1
  unfold Meets
  simp only [exec, ctorCopy]
  have hne := copyC_ne hl.2.2
  cases hc : c.copyC with
  | unavailable => exact (hne hc).elim
  | trivially =>
    simp only
    apply wp_bind
    apply wp_get h1
    apply wp_create h3
    exact ⟨inv_set hs hy k, by rw [abs_set]; simp only [effect, h2]⟩
  | available =>
    apply wp_ctorBody h h3 h1 hy
    · rw [after_false, set_noop]
      · exact ⟨inv_set hs hy k, by rw [abs_set]; simp only [effect, h2]⟩
      · rw [set_other _ _ (by simpa using hkj)]; exact h1
    · intro i v he hi hn
      simp only [Bool.false_eq_true, if_false] at hn ⊢
      rw [set_noop _ (by rw [h1, he])]
      exact ⟨hs, i, by rw [h2, he]; rfl, hn, rfl⟩

theorem meets_ctorMove (h : WellFormed c mv) (hs : Inv c s) {k j : Nat}
    (hl : Legal c (abs s) (.ctorMove k j)) : Meets c mv w s (.ctorMove k j) := by
  obtain ⟨y, hy, h1, h2⟩ := inv_some hs hl.2.1
  have h3 := inv_none hl.1
  unfold Meets
  simp only [exec]
  apply wp_ctorMove h (moveC_ne hl.2.2) h3 h1 hy
  · refine ⟨inv_set (inv_set hs hy k) (fits_after hy) j, ?_⟩
    rw [abs_set, abs_set]
    simp only [effect, h2, movedFrom_some]
  · intro i v he hi hn
    refine ⟨inv_set hs (fits_some hi _) j, i, by rw [h2, he]; rfl, hn, w.left, ?_⟩
    rw [abs_set]

theorem meets_emplace (h : WellFormed c mv) (hs : Inv c s) {k i : Nat} {v : V} {nt : Bool}
    (hl : Legal c (abs s) (.emplace k i v nt)) : Meets c mv w s (.emplace k i v nt) := by
  obtain ⟨x, hx, h1, h2⟩ := inv_some hs hl.1
  unfold Meets
  simp only [exec, emplaceVal, emplace]
  apply wp_bind
  apply wp_destroy h h1 hx
  apply wp_bind
  apply wp_constructAlt_val (set_self _ _ _)
  · apply wp_setIndex (set_self _ _ _)
    rw [(index_bound h.bound hl.2).2.1, set_set, set_set]
    exact ⟨inv_set hs (fits_some hl.2 v) k, abs_set (c := c) s k (some (i, v))⟩
  · intro hn
    exact ⟨inv_set hs (fits_none c) k, hn, abs_set (c := c) s k none⟩

/-- assign_alt from an outside value. -/
theorem wp_assignAlt_val (h : WellFormed c mv) (hs : Inv c s) {k i : Nat} {v : V} {nt nta : Bool}
    (hl : Legal c (abs s) (.assignVal k i v nt nta)) :
    wp (assignAlt c mv (.obj k) i (.val v nt nta)) w s
      (fun _ s' => Inv c s' ∧ abs s' = effect mv (abs s) (.assignVal k i v nt nta))
      (fun s' => Inv c s' ∧ (nt && nta) = false ∧
        Thrown c (abs s) (abs s') (.assignVal k i v nt nta)) False := by
  obtain ⟨x, hx, h1, h2⟩ := inv_some hs hl.1
  have hfit := fits_some hl.2 v
  have hemp : ∀ (nt' : Bool) (E : Store V → Prop),
      (nt' = false → E (s.set (.obj k) (some (mk c none)))) →
      wp (emplace c mv (.obj k) i (.val v nt' nta)) w s
        (fun _ s' => Inv c s' ∧ abs s' = effect mv (abs s) (.assignVal k i v nt nta)) E False := by
    intro nt' E hE
    unfold emplace
    apply wp_bind
    apply wp_destroy h h1 hx
    apply wp_bind
    apply wp_constructAlt_val (set_self _ _ _)
    · apply wp_setIndex (set_self _ _ _)
      rw [(index_bound h.bound hl.2).2.1, set_set, set_set]
      exact ⟨inv_set hs hfit k, abs_set (c := c) s k (some (i, v))⟩
    · exact hE
  have hemp' : ∀ (nt' : Bool) (E : Store V → Prop),
      (nt' = false → E (s.set (.obj k) (some (mk c none)))) →
      wp (emplace c mv (.obj k) i (.val v nt' false)) w s
        (fun _ s' => Inv c s' ∧ abs s' = effect mv (abs s) (.assignVal k i v nt nta)) E False := by
    intro nt' E hE
    unfold emplace
    apply wp_bind
    apply wp_destroy h h1 hx
    apply wp_bind
    apply wp_constructAlt_val (set_self _ _ _)
    · apply wp_setIndex (set_self _ _ _)
      rw [(index_bound h.bound hl.2).2.1, set_set, set_set]
      exact ⟨inv_set hs hfit k, abs_set (c := c) s k (some (i, v))⟩
    · exact hE
  unfold assignAlt
  apply wp_bind
  apply wp_get h1
  by_cases hsame : ∃ u, x = some (i, u)
  · obtain ⟨u, rfl⟩ := hsame
    rw [index_some h hl.2, if_pos rfl]
    unfold assignValue
    apply wp_bind
    apply wp_readAlt h1
    have ha := alt_some h2
    apply wp_elemIf
    · simp only [setMem, h1]
      exact ⟨inv_set hs hfit k, abs_set (c := c) s k (some (i, v))⟩
    · intro hn _
      simp only [setMem, h1]
      refine ⟨inv_set hs (fits_some hl.2 w.left) k, by simp [hn], ?_⟩
      simp only [Thrown, AssignThrown, ha, if_true]
      exact ⟨hn, w.left, abs_set (c := c) s k (some (i, w.left))⟩
  · have hne : index c (mk c x) ≠ i := by
      cases x with
      | none => rw [index_none]; exact fun h' => (index_bound h.bound hl.2).2.2 h'.symm
      | some p =>
        obtain ⟨i', u⟩ := p
        rw [index_some h (hx _ rfl)]
        rintro rfl
        exact hsame ⟨u, rfl⟩
    have ha : alternative (abs s k) ≠ some i := by
      rw [h2]
      cases x with
      | none => simp [alternative]
      | some p =>
        obtain ⟨i', u⟩ := p
        simp only [alternative, Option.bind_some, Option.map_some, ne_eq, Option.some.injEq]
        rintro rfl
        exact hsame ⟨u, rfl⟩
    rw [if_neg hne]
    apply wp_ite
    · intro hb
      apply hemp
      intro hn
      refine ⟨inv_set hs (fits_none c) k, by simp [hn], ?_⟩
      simp only [ntConstructible, hn, Bool.false_or, Bool.not_eq_true'] at hb
      simp only [Thrown, AssignThrown, ha, if_false, hb, Bool.false_eq_true]
      exact ⟨hn, by rw [abs_set]⟩
    · intro hb
      simp only [ntConstructible, Bool.or_eq_true, Bool.not_eq_true', not_or,
        Bool.not_eq_true, Bool.not_eq_false] at hb
      apply wp_bind
      unfold temporary
      apply wp_bind
      apply wp_elemIf
      · apply wp_pure
        apply hemp'
        intro hn
        rw [hb.2] at hn; cases hn
      · intro hn _
        refine ⟨hs, by simp [hn], ?_⟩
        simp only [Thrown, AssignThrown, ha, if_false, hb.2, if_true]
        exact ⟨hn, trivial⟩

theorem meets_assignVal (h : WellFormed c mv) (hs : Inv c s) {k i : Nat} {v : V} {nt nta : Bool}
    (hl : Legal c (abs s) (.assignVal k i v nt nta)) : Meets c mv w s (.assignVal k i v nt nta) := by
  have hm := wp_assignAlt_val (w := w) h hs hl
  unfold Meets
  simp only [exec, assignVal]
  apply wp_ite
  · intro hb
    apply wp_noexcept
    apply wp_mono hm (fun _ _ q => q) _ id
    rintro s' ⟨_, hn, _⟩
    simp only [Bool.and_eq_true] at hb
    simp [hb] at hn
  · intro _
    exact wp_mono hm (fun _ _ q => q) (fun _ q => ⟨q.1, q.2.2⟩) id

/-- What is left of a source from which alternative `i` was moved or copied and that had the value
`v`, if the operation threw. -/
def leftOver (w : Fail V) (m : Bool) (v : V) : V := if m then w.left else v

theorem set_set_same (s : Store V) {l : Loc} (o o' : Option (Obj V)) :
    (s.set l o).set l o' = s.set l o' := set_set s l o o'

/-- emplace from the alternative of another variant. -/
theorem wp_emplace_from (h : WellFormed c mv) {m : Bool} {l r : Loc} {x : Content V} {i : Nat}
    {v : V} (hlr : l ≠ r) (hl : s l = some (mk c x)) (hx : Fits c x)
    (hr : s r = some (mk c (some (i, v)))) (hi : i < c.length)
    {Q : Unit → Store V → Prop} {E : Store V → Prop} {T : Prop}
    (hQ : Q () ((s.set l (some (mk c (some (i, v))))).set r
      (some (mk c (after mv m (some (i, v)))))))
    (hE : (if m then c.ntMoveC i = false else c.ntCopyC i = false) →
      E ((s.set l (some (mk c none))).set r (some (mk c (some (i, leftOver w m v)))))) :
    wp (emplace c mv l i (if m then .move r else .copy r)) w s Q E T := by
  have hrl : r ≠ l := fun h => hlr h.symm
  unfold emplace
  apply wp_bind
  apply wp_destroy h hl hx
  have hr' : (s.set l (some (mk c none))) r = some (mk c (some (i, v))) := by
    rw [set_other _ _ hrl]; exact hr
  have hl' : (s.set l (some (mk c none))) l = some ⟨c.noIndex, none⟩ := set_self _ _ _
  have him := (index_bound h.bound hi).2.1
  apply wp_bind
  cases m with
  | true =>
    simp only [if_true] at *
    apply wp_constructAlt_move hl' (by rw [hr']; rfl)
    · apply wp_setIndex (by rw [set_other _ _ hlr, set_self])
      rw [him, set_comm _ hrl, set_set, set_set]
      exact hQ
    · exact hE
  | false =>
    simp only [Bool.false_eq_true, if_false, after, leftOver] at *
    apply wp_constructAlt_copy hl' (by rw [hr']; rfl)
    · apply wp_setIndex (set_self _ _ _)
      rw [him, set_set, set_set]
      rwa [set_noop (s.set l _) (by rw [set_other _ _ hrl]; exact hr)] at hQ
    · intro hn
      have := hE hn
      rwa [set_noop _ hr'] at this

theorem alt_ne {a : Contents V} {k i : Nat} {x : Content V} (h2 : a k = some x)
    (hne : ∀ u, x ≠ some (i, u)) : alternative (a k) ≠ some i := by
  rw [h2]
  cases x with
  | none => simp [alternative]
  | some p =>
    obtain ⟨i', u⟩ := p
    simp only [alternative, Option.bind_some, Option.map_some, ne_eq, Option.some.injEq]
    rintro rfl
    exact hne u rfl

theorem index_ne (h : WellFormed c mv) {i : Nat} (hi : i < c.length) {x : Content V}
    (hx : Fits c x) (hne : ∀ u, x ≠ some (i, u)) : index c (mk c x) ≠ i := by
  cases x with
  | none => rw [index_none]; exact fun h' => (index_bound h.bound hi).2.2 h'.symm
  | some p =>
    obtain ⟨i', u⟩ := p
    rw [index_some h (hx _ rfl)]
    rintro rfl
    exact hne u rfl

theorem wp_assignCopy (h : WellFormed c mv) (hs : Inv c s) {k j : Nat}
    (hl : Legal c (abs s) (.assignCopy k j)) :
    wp (genericAssign c mv false (.obj k) (.obj j)) w s
      (fun _ s' => Inv c s' ∧ abs s' = effect mv (abs s) (.assignCopy k j))
      (fun s' => Inv c s' ∧ Thrown c (abs s) (abs s') (.assignCopy k j)) False := by
  obtain ⟨x, hx, h1, h2⟩ := inv_some hs hl.1
  obtain ⟨y, hy, h3, h4⟩ := inv_some hs hl.2.1
  unfold genericAssign
  apply wp_bind
  apply wp_get h1
  apply wp_bind
  apply wp_get h3
  cases y with
  | none =>
    rw [valueless_none]
    apply wp_ite
    · intro hb
      apply wp_pure
      refine ⟨hs, ?_⟩
      simp only [effect]
      have : x = none := by
        cases x with
        | none => rfl
        | some p =>
          obtain ⟨i, v⟩ := p
          rw [valueless_some h (hx _ rfl)] at hb
          cases hb
      rw [h4, cset_noop]
      rw [h2, this]
    · intro _
      simp only [if_true]
      apply wp_destroy h h1 hx
      exact ⟨inv_set hs (fits_none c) k, by rw [abs_set]; simp only [effect, h4]⟩
  | some p =>
    obtain ⟨i, v⟩ := p
    have hi : i < c.length := hy _ rfl
    rw [valueless_some h hi, index_some h hi]
    simp only [Bool.and_false, Bool.false_eq_true, if_false]
    apply wp_bind
    apply wp_visitAt hi
    unfold assignAlt
    apply wp_bind
    apply wp_get h1
    have halt := alt_some h4
    by_cases hsame : ∃ u, x = some (i, u)
    · obtain ⟨u, rfl⟩ := hsame
      rw [index_some h hi, if_pos rfl]
      unfold assignValue
      simp only
      apply wp_bind
      apply wp_readAlt h1
      apply wp_bind
      apply wp_readAlt h3
      have ha := alt_some h2
      apply wp_elemIf
      · simp only [setMem, h1]
        refine ⟨inv_set hs hy k, ?_⟩
        simp only [effect, h4]
        exact abs_set (c := c) s k (some (i, v))
      · intro hn _
        simp only [setMem, h1]
        refine ⟨inv_set hs (fits_some hi w.left) k, i, halt, ?_⟩
        simp only [AssignThrown, ha, if_true]
        exact ⟨hn, w.left, abs_set (c := c) s k (some (i, w.left))⟩
    · have hne' : ∀ u, x ≠ some (i, u) := fun u hu => hsame ⟨u, hu⟩
      have hkj : (Loc.obj k) ≠ .obj j := by
        intro hk
        rw [Loc.obj.injEq] at hk
        subst hk
        rw [h2] at h4
        exact hne' v (Option.some.inj h4)
      have hjk : (Loc.obj j) ≠ .obj k := fun h => hkj h.symm
      rw [if_neg (index_ne h hi hx hne')]
      have ha := alt_ne h2 hne'
      apply wp_ite
      · intro hb
        apply wp_emplace_from h (m := false) hkj h1 hx h3 hi
        · simp only [after, Bool.false_eq_true, if_false]
          rw [set_noop (s.set _ _) (by rw [set_other _ _ hjk]; exact h3)]
          refine ⟨inv_set hs hy k, ?_⟩
          rw [abs_set]
          simp only [effect, h4]
        · intro hn
          simp only [Bool.false_eq_true, if_false] at hn
          simp only [leftOver, Bool.false_eq_true, if_false]
          rw [set_noop (s.set _ _) (by rw [set_other _ _ hjk]; exact h3)]
          refine ⟨inv_set hs (fits_none c) k, i, halt, ?_⟩
          simp only [ntConstructible, hn, Bool.false_or, Bool.not_eq_true'] at hb
          simp only [AssignThrown, ha, if_false, hb, Bool.false_eq_true]
          exact ⟨hn, abs_set (c := c) s k none⟩
      · intro hb
        simp only [ntConstructible, Bool.or_eq_true, Bool.not_eq_true', not_or,
          Bool.not_eq_true, Bool.not_eq_false] at hb
        apply wp_bind
        unfold temporary
        simp only
        apply wp_bind
        apply wp_readAlt h3
        apply wp_bind
        apply wp_elemIf
        · apply wp_pure
          unfold emplace
          apply wp_bind
          apply wp_destroy h h1 hx
          apply wp_bind
          apply wp_constructAlt_val (set_self _ _ _)
          · apply wp_setIndex (set_self _ _ _)
            rw [(index_bound h.bound hi).2.1, set_set, set_set]
            refine ⟨inv_set hs hy k, ?_⟩
            simp only [effect, h4]
            exact abs_set (c := c) s k (some (i, v))
          · intro hn
            rw [hb.2] at hn; cases hn
        · intro hn _
          refine ⟨hs, i, halt, ?_⟩
          simp only [AssignThrown, ha, if_false, hb.2, if_true]
          exact ⟨hn, trivial⟩

theorem meets_assignCopy (h : WellFormed c mv) (hs : Inv c s) {k j : Nat}
    (hl : Legal c (abs s) (.assignCopy k j)) : Meets c mv w s (.assignCopy k j) := by
  unfold Meets
  simp only [exec, assignCopy]
  have hne := copyA_ne hl.2.2
  cases hc : c.copyA with
  | unavailable => exact (hne hc).elim
  | trivially =>
    obtain ⟨x, hx, h1, h2⟩ := inv_some hs hl.1
    obtain ⟨y, hy, h3, h4⟩ := inv_some hs hl.2.1
    simp only
    apply wp_bind
    apply wp_get h1
    apply wp_bind
    apply wp_get h3
    apply wp_put
    exact ⟨inv_set hs hy k, by rw [abs_set]; simp only [effect, h4]⟩
  | available => exact wp_assignCopy h hs hl

theorem wp_assignMove (h : WellFormed c mv) (hs : Inv c s) {k j : Nat}
    (hl : Legal c (abs s) (.assignMove k j)) :
    wp (genericAssign c mv true (.obj k) (.obj j)) w s
      (fun _ s' => Inv c s' ∧ abs s' = effect mv (abs s) (.assignMove k j))
      (fun s' => Inv c s' ∧ (∃ i, i < c.length ∧ (c.ntMoveC i && c.ntMoveA i) = false) ∧
        Thrown c (abs s) (abs s') (.assignMove k j)) False := by
  obtain ⟨x, hx, h1, h2⟩ := inv_some hs hl.1
  obtain ⟨y, hy, h3, h4⟩ := inv_some hs hl.2.1
  unfold genericAssign
  apply wp_bind
  apply wp_get h1
  apply wp_bind
  apply wp_get h3
  cases y with
  | none =>
    rw [valueless_none]
    have he : effect mv (abs s) (.assignMove k j) = (abs s).set k (some none) := by
      simp only [effect, h4, movedFrom]
      apply cset_noop
      unfold Contents.set
      split
      · rfl
      · exact h4
    rw [he]
    apply wp_ite
    · intro hb
      apply wp_pure
      refine ⟨hs, ?_⟩
      have : x = none := by
        cases x with
        | none => rfl
        | some p =>
          obtain ⟨i, v⟩ := p
          rw [valueless_some h (hx _ rfl)] at hb
          cases hb
      rw [cset_noop]
      rw [h2, this]
    · intro _
      simp only [if_true]
      apply wp_destroy h h1 hx
      exact ⟨inv_set hs (fits_none c) k, by rw [abs_set]⟩
  | some p =>
    obtain ⟨i, v⟩ := p
    have hi : i < c.length := hy _ rfl
    rw [valueless_some h hi, index_some h hi]
    simp only [Bool.and_false, Bool.false_eq_true, if_false]
    apply wp_bind
    apply wp_visitAt hi
    unfold assignAlt
    apply wp_bind
    apply wp_get h1
    have halt := alt_some h4
    by_cases hsame : ∃ u, x = some (i, u)
    · obtain ⟨u, rfl⟩ := hsame
      rw [index_some h hi, if_pos rfl]
      unfold assignValue
      simp only [if_true]
      apply wp_bind
      apply wp_readAlt h1
      apply wp_bind
      apply wp_readAlt h3
      have ha := alt_some h2
      have hset : ∀ z z' : V, setMem (setMem s (.obj k) (some (i, z))) (.obj j) (some (i, z')) =
          (s.set (.obj k) (some (mk c (some (i, z))))).set (.obj j) (some (mk c (some (i, z')))) := by
        intro z z'
        by_cases hkj : Loc.obj j = Loc.obj k
        · simp only [setMem, h1, hkj, set_self]; rfl
        · simp only [setMem, h1, set_other _ _ hkj, h3]; rfl
      apply wp_elemIf
      · simp only [hset]
        refine ⟨inv_set (inv_set hs hy k) (fits_some hi _) j, ?_⟩
        rw [abs_set, abs_set]
        simp only [effect, h4, movedFrom]
      · intro hn _
        simp only [hset]
        refine ⟨inv_set (inv_set hs (fits_some hi _) k) (fits_some hi _) j,
          ⟨i, hi, by simp [hn]⟩, i, halt, ?_⟩
        simp only [ha, if_true]
        exact ⟨hn, w.left, by rw [abs_set, abs_set]⟩
    · have hne' : ∀ u, x ≠ some (i, u) := fun u hu => hsame ⟨u, hu⟩
      have hkj : (Loc.obj k) ≠ .obj j := by
        intro hk
        rw [Loc.obj.injEq] at hk
        subst hk
        rw [h2] at h4
        exact hne' v (Option.some.inj h4)
      rw [if_neg (index_ne h hi hx hne')]
      have ha := alt_ne h2 hne'
      have hcond : (ntConstructible c i (Src.move (V := V) (.obj j)) || !c.ntMoveC i) = true := by
        simp only [ntConstructible]
        cases c.ntMoveC i <;> rfl
      simp only [if_true, hcond]
      apply wp_emplace_from h (m := true) hkj h1 hx h3 hi
      · refine ⟨inv_set (inv_set hs hy k) (fits_after hy) j, ?_⟩
        rw [abs_set, abs_set]
        simp only [effect, h4, movedFrom_some]
      · intro hn
        simp only [if_true] at hn
        refine ⟨inv_set (inv_set hs (fits_none c) k) (fits_some hi _) j,
          ⟨i, hi, by simp [hn]⟩, i, halt, ?_⟩
        simp only [ha, if_false]
        exact ⟨hn, w.left, by rw [abs_set, abs_set]; rfl⟩

theorem meets_assignMove (h : WellFormed c mv) (hs : Inv c s) {k j : Nat}
    (hl : Legal c (abs s) (.assignMove k j)) : Meets c mv w s (.assignMove k j) := by
  unfold Meets
  simp only [exec, assignMove]
  have hne := moveA_ne hl.2.2
  cases hc : c.moveA with
  | unavailable => exact (hne hc).elim
  | trivially =>
    obtain ⟨x, hx, h1, h2⟩ := inv_some hs hl.1
    obtain ⟨y, hy, h3, h4⟩ := inv_some hs hl.2.1
    simp only
    apply wp_bind
    apply wp_get h1
    apply wp_bind
    apply wp_get h3
    apply wp_put
    refine ⟨inv_set hs hy k, ?_⟩
    rw [abs_set]
    simp only [effect, h4, movedFrom_some, after_triv (moveC_triv h (moveA_triv hc)).2]
    symm
    apply cset_noop
    unfold Contents.set
    split
    · rfl
    · exact h4
  | available =>
    have hm := wp_assignMove (w := w) h hs hl
    simp only
    apply wp_ite
    · intro hb
      apply wp_noexcept
      apply wp_mono hm (fun _ _ q => q) _ id
      rintro s' ⟨_, ⟨i, hi, hn⟩, _⟩
      have := List.all_eq_true.mp hb _ (List.getElem_mem hi)
      simp [Cfg.ntMoveC, Cfg.ntMoveA, hi] at hn this
      simp [this] at hn
    · intro _
      exact wp_mono hm (fun _ _ q => q) (fun _ q => ⟨q.1, q.2.2⟩) id

end Gul14.Var
