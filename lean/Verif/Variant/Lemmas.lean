import Verif.Variant.Spec
import Verif.LifetimeWp

/-! # Lifetimes in variant: invariant and the building blocks of the operations -/
namespace Gul14.Var
open Spec.Vari LM

variable {V : Type}

/-! ## Traits -/

theorem fold_trait (ts : List Trait) : ∀ r : Trait,
    let z := ts.foldl (fun r t => if t.toNat > r.toNat then t else r) r
    (z = r ∨ z ∈ ts) ∧ r.toNat ≤ z.toNat ∧ ∀ t ∈ ts, t.toNat ≤ z.toNat := by
  induction ts with
  | nil => intro r; simp
  | cons t ts ih =>
    intro r
    have h := ih (if t.toNat > r.toNat then t else r)
    simp only [List.foldl_cons] at *
    generalize List.foldl _ _ ts = z at h
    obtain ⟨h1, h2, h3⟩ := h
    by_cases hc : t.toNat > r.toNat
    · simp only [hc, if_true] at h1 h2
      refine ⟨?_, by omega, ?_⟩
      · rcases h1 with h1 | h1
        · exact .inr (by simp [h1])
        · exact .inr (by simp [h1])
      · intro u hu
        rcases List.mem_cons.mp hu with rfl | hu
        · exact h2
        · exact h3 u hu
    · simp only [hc, if_false] at h1 h2
      refine ⟨?_, h2, ?_⟩
      · rcases h1 with h1 | h1
        · exact .inl h1
        · exact .inr (by simp [h1])
      · intro u hu
        rcases List.mem_cons.mp hu with rfl | hu
        · omega
        · exact h3 u hu

theorem commonTrait_ne {ts : List Trait} (h : ∀ t ∈ ts, t ≠ .unavailable) :
    commonTrait ts ≠ .unavailable := by
  rcases (fold_trait ts .trivially).1 with h1 | h1
  · unfold commonTrait; rw [h1]; simp
  · exact h _ h1

theorem commonTrait_triv {ts : List Trait} (h : commonTrait ts = .trivially) :
    ∀ t ∈ ts, t = .trivially := by
  intro t ht
  have h1 := (fold_trait ts .trivially).2.2 t ht
  unfold commonTrait at h
  rw [h] at h1
  cases t <;> simp_all [Trait.toNat]

theorem triv_commonTrait {ts : List Trait} (h : ∀ t ∈ ts, t = .trivially) :
    commonTrait ts = .trivially := by
  rcases (fold_trait ts .trivially).1 with h1 | h1
  · exact h1
  · exact h _ h1

theorem dtor_ne {c : Cfg} {mv : V → V} (h : WellFormed c mv) : c.dtor ≠ .unavailable := by
  apply commonTrait_ne
  intro t ht
  obtain ⟨a, ha, rfl⟩ := List.mem_map.mp ht
  exact h.dtor a ha

theorem copyC_triv {c : Cfg} {mv : V → V} (h : WellFormed c mv) (hc : c.copyC = .trivially) :
    c.dtor = .trivially := by
  apply triv_commonTrait
  intro t ht
  obtain ⟨a, ha, rfl⟩ := List.mem_map.mp ht
  exact h.copy a ha (commonTrait_triv hc _ (List.mem_map.mpr ⟨a, ha, rfl⟩))

theorem moveC_triv {c : Cfg} {mv : V → V} (h : WellFormed c mv) (hc : c.moveC = .trivially) :
    c.dtor = .trivially ∧ ∀ v, mv v = v := by
  refine ⟨?_, h.moved fun a ha => commonTrait_triv hc _ (List.mem_map.mpr ⟨a, ha, rfl⟩)⟩
  apply triv_commonTrait
  intro t ht
  obtain ⟨a, ha, rfl⟩ := List.mem_map.mp ht
  exact h.move a ha (commonTrait_triv hc _ (List.mem_map.mpr ⟨a, ha, rfl⟩))

theorem copyC_ne {c : Cfg} (h : ∀ t ∈ c, t.copyC ≠ .unavailable) : c.copyC ≠ .unavailable := by
  apply commonTrait_ne
  intro t ht
  obtain ⟨a, ha, rfl⟩ := List.mem_map.mp ht
  exact h a ha

theorem moveC_ne {c : Cfg} (h : ∀ t ∈ c, t.moveC ≠ .unavailable) : c.moveC ≠ .unavailable := by
  apply commonTrait_ne
  intro t ht
  obtain ⟨a, ha, rfl⟩ := List.mem_map.mp ht
  exact h a ha

theorem copyA_ne {c : Cfg} (h : ∀ t ∈ c, t.copyC ≠ .unavailable ∧ t.copyA ≠ .unavailable) :
    c.copyA ≠ .unavailable := by
  apply commonTrait_ne
  intro t ht
  rcases List.mem_cons.mp ht with rfl | ht
  · exact copyC_ne fun t ht => (h t ht).1
  · obtain ⟨a, ha, rfl⟩ := List.mem_map.mp ht
    exact (h a ha).2

theorem moveA_ne {c : Cfg} (h : ∀ t ∈ c, t.moveC ≠ .unavailable ∧ t.moveA ≠ .unavailable) :
    c.moveA ≠ .unavailable := by
  apply commonTrait_ne
  intro t ht
  rcases List.mem_cons.mp ht with rfl | ht
  · exact moveC_ne fun t ht => (h t ht).1
  · obtain ⟨a, ha, rfl⟩ := List.mem_map.mp ht
    exact (h a ha).2

theorem copyA_triv {c : Cfg} (hc : c.copyA = .trivially) : c.copyC = .trivially :=
  commonTrait_triv hc _ (by simp)

theorem moveA_triv {c : Cfg} (hc : c.moveA = .trivially) : c.moveC = .trivially :=
  commonTrait_triv hc _ (by simp)

/-! ## The index -/

theorem index_bound {c : Cfg} (h : c.length < 2 ^ 32 - 1) {i : Nat} (hi : i < c.length) :
    i < c.noIndex ∧ i % c.indexMod = i ∧ i ≠ npos := by
  unfold Cfg.noIndex Cfg.indexMod
  have hn : npos = 18446744073709551615 := rfl
  rw [hn]
  split
  · refine ⟨by omega, Nat.mod_eq_of_lt (by omega), by omega⟩
  · split
    · refine ⟨by omega, Nat.mod_eq_of_lt (by omega), by omega⟩
    · refine ⟨by omega, Nat.mod_eq_of_lt (by omega), by omega⟩

theorem dispatchAt_eq (size i : Nat) (hi : i < size) : ∀ fuel B, B ≤ i → size < B + fuel →
    dispatchAt size fuel B i = some i := by
  intro fuel
  induction fuel with
  | zero => intro B h1 h2; omega
  | succ f ih =>
    intro B h1 h2
    unfold dispatchAt
    by_cases hc : B ≤ i ∧ i < B + 32
    · rw [if_pos hc, if_pos hi]
    · rw [if_neg hc, if_pos (by omega)]
      exact ih _ (by omega) (by omega)

/-- A variant object with a given content. -/
def mk (c : Cfg) : Content V → Obj V
  | none => ⟨c.noIndex, none⟩
  | some (i, v) => ⟨i, some (i, v)⟩

/-- The content is one of the alternatives. -/
def Fits (c : Cfg) (x : Content V) : Prop := ∀ p, x = some p → p.1 < c.length

theorem fits_none (c : Cfg) : Fits c (none : Content V) := by intro p h; cases h
theorem fits_some {c : Cfg} {i : Nat} (h : i < c.length) (v : V) : Fits c (some (i, v)) := by
  intro p hp; cases hp; exact h

variable {c : Cfg} {mv : V → V} {w : Fail V} {s : Store V}

theorem valueless_none : valueless c (mk c (none : Content V)) = true := by
  simp [valueless, mk]

theorem valueless_some (h : WellFormed c mv) {i : Nat} (hi : i < c.length) (v : V) :
    valueless c (mk c (some (i, v))) = false := by
  have := (index_bound h.bound hi).1
  simp only [valueless, mk]
  exact beq_eq_false_iff_ne.mpr (by omega)

theorem index_none : index c (mk c (none : Content V)) = npos := by
  simp [index, valueless_none]

theorem index_some (h : WellFormed c mv) {i : Nat} (hi : i < c.length) (v : V) :
    index c (mk c (some (i, v))) = i := by
  simp [index, valueless_some h hi]; rfl

theorem wp_visitAt {i : Nat} (hi : i < c.length) {Q : Nat → Store V → Prop} {E : Store V → Prop}
    {T : Prop} (h : Q i s) : wp (visitAt c i : M V Nat) w s Q E T := by
  unfold visitAt
  rw [dispatchAt_eq c.length i hi _ 0 (by omega) (by omega)]
  exact wp_pure h

theorem wp_get {l : Loc} {o : Obj V} (hl : s l = some o) {Q : Obj V → Store V → Prop}
    {E : Store V → Prop} {T : Prop} (h : Q o s) : wp (get l) w s Q E T := by
  intro n; simp only [get, hl]; exact h

theorem wp_put {l : Loc} {o : Obj V} {Q : Unit → Store V → Prop}
    {E : Store V → Prop} {T : Prop} (h : Q () (s.set l (some o))) : wp (put l o) w s Q E T := by
  intro n; exact h

theorem wp_create {l : Loc} {o : Obj V} (hl : s l = none) {Q : Unit → Store V → Prop}
    {E : Store V → Prop} {T : Prop} (h : Q () (s.set l (some o))) : wp (create l o) w s Q E T := by
  intro n; simp only [create, hl]; exact h

theorem wp_release {l : Loc} {i : Nat} (hl : s l = some ⟨i, none⟩) {Q : Unit → Store V → Prop}
    {E : Store V → Prop} {T : Prop} (h : Q () (s.set l none)) : wp (release l) w s Q E T := by
  intro n; simp only [release, hl]; exact h

theorem wp_readAlt {l : Loc} {i k : Nat} {v : V} (hl : s l = some ⟨k, some (i, v)⟩)
    {Q : V → Store V → Prop} {E : Store V → Prop} {T : Prop} (h : Q v s) :
    wp (readAlt l i) w s Q E T := by
  unfold readAlt
  apply wp_bind
  apply wp_get hl
  simp only [if_true]
  exact wp_pure h

theorem wp_fresh {l : Loc} {k : Nat} (hl : s l = some ⟨k, none⟩)
    {Q : Unit → Store V → Prop} {E : Store V → Prop} {T : Prop} (h : Q () s) :
    wp (fresh l) w s Q E T := by
  unfold fresh
  apply wp_bind
  apply wp_get hl
  exact wp_pure h

theorem set_self (s : Store V) (l : Loc) (o : Option (Obj V)) : s.set l o l = o := by
  simp [Store.set]
theorem set_other (s : Store V) {l k : Loc} (o : Option (Obj V)) (h : k ≠ l) :
    s.set l o k = s k := by simp [Store.set, h]
theorem set_set (s : Store V) (l : Loc) (o o' : Option (Obj V)) :
    (s.set l o).set l o' = s.set l o' := by
  funext k; unfold Store.set; split <;> rfl
theorem set_comm (s : Store V) {l k : Loc} (h : l ≠ k) (o o' : Option (Obj V)) :
    (s.set l o).set k o' = (s.set k o').set l o := by
  funext j; unfold Store.set
  by_cases h1 : j = k <;> by_cases h2 : j = l <;> simp_all
theorem set_same (s : Store V) (l : Loc) : s.set l (s l) = s := by
  funext k; unfold Store.set; split <;> simp_all

theorem set_noop (s : Store V) {l : Loc} {o : Option (Obj V)} (h : s l = o) : s.set l o = s := by
  rw [← h, set_same]

theorem wp_destroy (h : WellFormed c mv) {l : Loc} {x : Content V} (hl : s l = some (mk c x))
    (hx : Fits c x) {Q : Unit → Store V → Prop} {E : Store V → Prop} {T : Prop}
    (hQ : Q () (s.set l (some (mk c none)))) : wp (destroy c l : M V Unit) w s Q E T := by
  unfold destroy
  have hd := dtor_ne h
  cases hc : c.dtor with
  | unavailable => exact (hd hc).elim
  | trivially => exact wp_put hQ
  | available =>
    simp only
    apply wp_bind
    apply wp_get hl
    cases x with
    | none =>
      rw [valueless_none]
      exact wp_put hQ
    | some p =>
      obtain ⟨i, v⟩ := p
      have hi : i < c.length := hx _ rfl
      rw [valueless_some h hi, index_some h hi]
      simp only [Bool.false_eq_true, if_false]
      apply wp_bind
      apply wp_visitAt hi
      apply wp_bind
      apply wp_readAlt (by rw [hl]; rfl)
      exact wp_put hQ

/-- Construction of an alternative in an empty variant. -/
theorem wp_constructAlt_val {l : Loc} {k i : Nat} {v : V} {nt nta : Bool}
    (hl : s l = some ⟨k, none⟩) {Q : Unit → Store V → Prop} {E : Store V → Prop} {T : Prop}
    (hQ : Q () (s.set l (some ⟨k, some (i, v)⟩))) (hE : nt = false → E s) :
    wp (constructAlt c mv l i (.val v nt nta)) w s Q E T := by
  unfold constructAlt
  apply wp_bind
  apply wp_fresh hl
  apply wp_elemIf
  · simpa [setMem, hl] using hQ
  · intro h _; exact hE h

theorem wp_constructAlt_copy {l r : Loc} {k k' i : Nat} {v : V}
    (hl : s l = some ⟨k, none⟩) (hr : s r = some ⟨k', some (i, v)⟩)
    {Q : Unit → Store V → Prop} {E : Store V → Prop} {T : Prop}
    (hQ : Q () (s.set l (some ⟨k, some (i, v)⟩))) (hE : c.ntCopyC i = false → E s) :
    wp (constructAlt c mv l i (.copy r)) w s Q E T := by
  unfold constructAlt
  apply wp_bind
  apply wp_readAlt hr
  apply wp_bind
  apply wp_fresh hl
  apply wp_elemIf
  · simpa [setMem, hl] using hQ
  · intro h _; exact hE h

theorem wp_constructAlt_move {l r : Loc} {k k' i : Nat} {v : V}
    (hl : s l = some ⟨k, none⟩) (hr : s r = some ⟨k', some (i, v)⟩)
    {Q : Unit → Store V → Prop} {E : Store V → Prop} {T : Prop}
    (hQ : Q () ((s.set l (some ⟨k, some (i, v)⟩)).set r (some ⟨k', some (i, mv v)⟩)))
    (hE : c.ntMoveC i = false → E (s.set r (some ⟨k', some (i, w.left)⟩))) :
    wp (constructAlt c mv l i (.move r)) w s Q E T := by
  have hlr : r ≠ l := by rintro rfl; rw [hl] at hr; cases hr
  unfold constructAlt
  apply wp_bind
  apply wp_readAlt hr
  apply wp_bind
  apply wp_fresh hl
  apply wp_elemIf
  · simpa [setMem, hl, hr, set_other _ _ hlr] using hQ
  · intro h _; simpa [setMem, hr] using hE h

theorem wp_setIndex {l : Loc} {k i : Nat} {m : Option (Nat × V)} (hl : s l = some ⟨k, m⟩)
    {Q : Unit → Store V → Prop} {E : Store V → Prop} {T : Prop}
    (hQ : Q () (s.set l (some ⟨i % c.indexMod, m⟩))) : wp (setIndex c l i : M V Unit) w s Q E T := by
  unfold setIndex
  apply wp_bind
  apply wp_get hl
  exact wp_put hQ

/-- Content after a construction from it. -/
def after (mv : V → V) (m : Bool) : Content V → Content V
  | some (i, v) => some (i, if m then mv v else v)
  | none => none

theorem fits_after {x : Content V} {m : Bool} (h : Fits c x) : Fits c (after mv m x) := by
  intro p hp
  cases x with
  | none => cases hp
  | some q =>
    obtain ⟨i, v⟩ := q
    simp only [after, Option.some.injEq] at hp
    rw [← hp]
    exact h (i, v) rfl

theorem wp_genericConstruct (h : WellFormed c mv) {m : Bool} {l r : Loc} {x y : Content V}
    (hlr : l ≠ r) (hl : s l = some (mk c x)) (hx : Fits c x) (hr : s r = some (mk c y))
    (hy : Fits c y) {Q : Unit → Store V → Prop} {E : Store V → Prop} {T : Prop}
    (hQ : Q () ((s.set l (some (mk c y))).set r (some (mk c (after mv m y)))))
    (hE : ∀ i v, y = some (i, v) → i < c.length →
      (if m then c.ntMoveC i = false else c.ntCopyC i = false) →
      E ((s.set l (some (mk c none))).set r (some (mk c (some (i, if m then w.left else v)))))) :
    wp (genericConstruct c mv m l r) w s Q E T := by
  have hrl : r ≠ l := fun h => hlr h.symm
  unfold genericConstruct
  apply wp_bind
  apply wp_destroy h hl hx
  apply wp_bind
  have hr' : (s.set l (some (mk c none))) r = some (mk c y) := by rw [set_other _ _ hrl]; exact hr
  apply wp_get hr'
  cases y with
  | none =>
    rw [valueless_none]
    simp only [if_true]
    apply wp_pure
    simp only [after] at hQ
    rwa [set_noop _ hr'] at hQ
  | some p =>
    obtain ⟨i, v⟩ := p
    have hi : i < c.length := hy _ rfl
    rw [valueless_some h hi, index_some h hi]
    simp only [Bool.false_eq_true, if_false]
    apply wp_bind
    apply wp_visitAt hi
    apply wp_bind
    have hl' : (s.set l (some (mk c none))) l = some ⟨c.noIndex, none⟩ := set_self _ _ _
    have him := (index_bound h.bound hi).2.1
    cases m with
    | true =>
      simp only [if_true] at *
      apply wp_constructAlt_move hl' (by rw [hr']; rfl)
      · apply wp_bind
        apply wp_get (set_self _ _ _)
        apply wp_setIndex (by rw [set_other _ _ hlr, set_self])
        simp only [him]
        rw [set_comm _ hrl, set_set, set_set]
        exact hQ
      · intro hn
        exact hE i v rfl hi hn
    | false =>
      simp only [Bool.false_eq_true, if_false] at *
      apply wp_constructAlt_copy hl' (by rw [hr']; rfl)
      · apply wp_bind
        apply wp_get (by rw [set_other _ _ hrl, set_other _ _ hrl]; exact hr)
        apply wp_setIndex (set_self _ _ _)
        simp only [mk, him, set_set]
        have : (s.set l (some (mk c (some (i, v))))).set r (some (mk c (after mv false (some (i, v)))))
            = s.set l (some (mk c (some (i, v)))) := by
          funext k
          unfold Store.set
          split
          · rename_i hk; subst hk; rw [if_neg hrl, hr]; rfl
          · rfl
        rw [this] at hQ
        exact hQ
      · intro hn
        have := hE i v rfl hi hn
        rwa [set_noop _ hr'] at this

end Gul14.Var
