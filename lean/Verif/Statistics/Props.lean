import Verif.Statistics.Model
import Mathlib.Data.List.Sort
import Mathlib.Tactic.Ring
import Mathlib.Tactic.FieldSimp
import Mathlib.Analysis.Real.Sqrt

/-! # Properties of the statistics functions (C45 - C48) -/
namespace Gul14.Spec

/-- `s` is the data in ascending order. -/
def SortedOf {K : Type} [LinearOrder K] (s data : List K) : Prop :=
  s.Perm data ∧ s.Pairwise (· ≤ ·)

/-- `k` times, one element of maximal distance from the mean of the present elements is taken out,
the others staying in place; nothing happens to an empty list. -/
inductive Removed {K ε : Type} [Field K] [LinearOrder K] (acc : ε → K) :
    Nat → List ε → List ε → Prop
  | none (l) : Removed acc 0 l l
  | empty (k) : Removed acc k [] []
  | step {k : Nat} {pre : List ε} {x : ε} {post l' : List ε} (m : K)
      (mean : m * ((pre ++ x :: post).length : K) = ((pre ++ x :: post).map acc).sum)
      (far : ∀ y ∈ pre ++ x :: post, |acc y - m| ≤ |acc x - m|)
      (rest : Removed acc k (pre ++ post) l') : Removed acc (k + 1) (pre ++ x :: post) l'

/-- std::sqrt as far as it is used: the non-negative square root. -/
def IsSqrt {K : Type} [Field K] [LinearOrder K] (sqrt : K → K) : Prop :=
  ∀ x, 0 ≤ x → 0 ≤ sqrt x ∧ sqrt x * sqrt x = x

end Gul14.Spec

namespace Gul14.Statistics
open Spec

variable {K ε : Type} [Field K] [LinearOrder K]

omit [LinearOrder K] in
theorem foldl_add (f : ε → K) (l : List ε) (a : K) :
    l.foldl (fun accu el => accu + f el) a = a + (l.map f).sum := by
  induction l generalizing a with
  | nil => simp
  | cons x r ih => simp [ih, add_assoc]

omit [LinearOrder K] in
theorem sum_eq (acc : ε → K) (l : List ε) : sum acc l = (l.map acc).sum := by
  unfold sum; rw [foldl_add]; simp

variable [IsStrictOrderedRing K]

/-! ## C45: mean and median -/

/-- The mean is the sum divided by the number of elements; NaN for no elements. -/
theorem c45_mean (acc : ε → K) (l : List ε) :
    (l = [] → mean acc l = none) ∧
    (l ≠ [] → ∃ m, mean acc l = some m ∧ m * (l.length : K) = (l.map acc).sum) := by
  constructor
  · rintro rfl; rfl
  · intro h
    have hl : l.length ≠ 0 := by simpa using h
    refine ⟨_, by unfold mean; rw [if_neg hl], ?_⟩
    rw [sum_eq]
    have : (l.length : K) ≠ 0 := by exact_mod_cast hl
    field_simp

theorem sum_bounds (acc : ε → K) (l : List ε) (lo hi : K)
    (h : ∀ x ∈ l, lo ≤ acc x ∧ acc x ≤ hi) :
    lo * (l.length : K) ≤ (l.map acc).sum ∧ (l.map acc).sum ≤ hi * (l.length : K) := by
  induction l with
  | nil => simp
  | cons x r ih =>
    obtain ⟨i1, i2⟩ := ih fun y hy => h y (List.mem_cons_of_mem _ hy)
    obtain ⟨h1, h2⟩ := h x List.mem_cons_self
    simp only [List.map_cons, List.sum_cons, List.length_cons]
    push_cast
    constructor <;> linarith

/-- The mean lies between the bounds of the data and does not depend on their order. -/
theorem c45_mean_bounds (acc : ε → K) (l l' : List ε) (m lo hi : K)
    (hm : mean acc l = some m) :
    ((∀ x ∈ l, lo ≤ acc x ∧ acc x ≤ hi) → lo ≤ m ∧ m ≤ hi) ∧
    (l.Perm l' → mean acc l' = some m) := by
  have hne : l ≠ [] := by rintro rfl; simp [mean] at hm
  obtain ⟨m', h1, h2⟩ := (c45_mean acc l).2 hne
  rw [hm] at h1
  cases h1
  have hpos : (0 : K) < l.length := by
    have : 0 < l.length := List.length_pos_iff.2 hne
    exact_mod_cast this
  constructor
  · intro h
    obtain ⟨b1, b2⟩ := sum_bounds acc l lo hi h
    rw [← h2] at b1 b2
    exact ⟨le_of_mul_le_mul_right b1 hpos, le_of_mul_le_mul_right b2 hpos⟩
  · intro hp
    have hne' : l' ≠ [] := by
      rintro rfl
      exact hne (List.Perm.eq_nil hp)
    obtain ⟨m', h1', h2'⟩ := (c45_mean acc l').2 hne'
    rw [h1']
    congr 1
    have e : (l'.map acc).sum = (l.map acc).sum := (hp.map acc).sum_eq.symm
    rw [e, ← h2, hp.length_eq] at h2'
    rw [hp.length_eq] at hpos
    exact mul_right_cancel₀ hpos.ne' h2'

omit [Field K] [IsStrictOrderedRing K] in
theorem nth_sorted (N : NthElement K) (l s : List K) (n : Nat) (hn : n < l.length)
    (hs : SortedOf s l) : (N.run l n)[n]? = s[n]? := by
  obtain ⟨hp, hsort⟩ := hs
  have hperm := N.perm l n
  have hlen := hperm.length_eq
  have hn' : n < (N.run l n).length := by omega
  have hx : (N.run l n)[n]? = some (N.run l n)[n] := List.getElem?_eq_getElem hn'
  have lo := N.lower l n _ hx
  have up := N.upper l n _ hx
  generalize N.run l n = d at *
  have hsplit : d = d.take n ++ d[n] :: d.drop (n + 1) := by
    rw [List.getElem_cons_drop, List.take_append_drop]
  -- the sorted list put together from the sorted parts
  let u := (d.take n).mergeSort (· ≤ ·) ++ d[n] :: (d.drop (n + 1)).mergeSort (· ≤ ·)
  have hu : u.Perm s := by
    refine List.Perm.trans ?_ (hperm.trans hp.symm)
    conv => rhs; rw [hsplit]
    exact (List.mergeSort_perm _ _).append ((List.mergeSort_perm _ _).cons _)
  have sortedPart : ∀ w : List K, (w.mergeSort (· ≤ ·)).Pairwise (· ≤ ·) := by
    intro w
    have := List.pairwise_mergeSort (le := fun a b : K => decide (a ≤ b))
      (by simp only [decide_eq_true_eq]; exact fun a b c => le_trans)
      (by intro a b; simp [le_total]) w
    simpa using this
  have hus : u.Pairwise (· ≤ ·) := by
    rw [List.pairwise_append]
    refine ⟨sortedPart _, ?_, ?_⟩
    · rw [List.pairwise_cons]
      refine ⟨?_, sortedPart _⟩
      intro y hy
      exact up y ((List.mergeSort_perm _ _).mem_iff.1 hy)
    · intro a ha b hb
      have ha' := lo a ((List.mergeSort_perm _ _).mem_iff.1 ha)
      rcases List.mem_cons.1 hb with rfl | hb
      · exact ha'
      · exact le_trans ha' (up b ((List.mergeSort_perm _ _).mem_iff.1 hb))
  have e : u = s := List.Perm.eq_of_pairwise (fun _ _ _ _ => le_antisymm) hus hsort hu
  rw [hx, ← e]
  have : ((d.take n).mergeSort (· ≤ ·)).length = n := by
    rw [List.length_mergeSort, List.length_take]; omega
  rw [List.getElem?_append_right (by omega), this]
  simp

/-- The median of any data, sorted into `s`: NaN for no data, the middle element for an odd
number, the mean of the two middle elements for an even number. -/
theorem c45_median (N : NthElement K) (acc : ε → K) (l : List ε) (s : List K)
    (hs : SortedOf s (l.map acc)) :
    let r := median N id (· / 2) (· + ·) acc l
    (l = [] → r = none) ∧
    (∀ k, l.length = 2 * k + 1 → r = s[k]?) ∧
    (∀ k a b, l.length = 2 * k + 2 → s[k]? = some a → s[k + 1]? = some b →
      r = some ((a + b) / 2)) := by
  intro r
  refine ⟨?_, ?_, ?_⟩
  · rintro rfl; rfl
  · intro k hk
    have hk2 : l.length / 2 = k := by omega
    have hsort := nth_sorted N (l.map acc) s k (by simp; omega) hs
    have hlt : k < s.length := by have := hs.1.length_eq; simp at this; omega
    show median N id (· / 2) (· + ·) acc l = _
    unfold median
    simp only
    rw [if_neg (by omega), hk2, hsort, List.getElem?_eq_getElem hlt]
    simp only [Option.bind_some, id]
    rw [if_neg (by omega)]
  · intro k a b hk ha hb
    have hk2 : l.length / 2 = k + 1 := by omega
    have hsort := nth_sorted N (l.map acc) s (k + 1) (by simp; omega) hs
    have hp := N.perm (l.map acc) (k + 1)
    have hsort2 := nth_sorted N (N.run (l.map acc) (k + 1)) s k
      (by rw [hp.length_eq]; simp; omega) ⟨hs.1.trans hp.symm, hs.2⟩
    show median N id (· / 2) (· + ·) acc l = _
    unfold median
    simp only
    rw [if_neg (by omega), hk2, hsort, hb]
    simp only [Option.bind_some, id]
    rw [if_pos (by omega), show k + 1 - 1 = k from rfl, hsort2, ha]
    simp only [Option.map_some]
    congr 1
    ring

/-- The median does not depend on the order of the data (nor on how nth_element works), and lies
between the bounds of the data. -/
theorem c45_median_perm (N N' : NthElement K) (acc : ε → K) (l l' : List ε) (h : l.Perm l') :
    median N id (· / 2) (· + ·) acc l = median N' id (· / 2) (· + ·) acc l' := by
  have hs : SortedOf ((l.map acc).mergeSort (· ≤ ·)) (l.map acc) := by
    refine ⟨List.mergeSort_perm _ _, ?_⟩
    have := List.pairwise_mergeSort (le := fun a b : K => decide (a ≤ b))
      (by simp only [decide_eq_true_eq]; exact fun a b c => le_trans)
      (by intro a b; simp [le_total]) (l.map acc)
    simpa using this
  have hs' : SortedOf ((l.map acc).mergeSort (· ≤ ·)) (l'.map acc) :=
    ⟨hs.1.trans (h.map acc), hs.2⟩
  obtain ⟨e1, o1, v1⟩ := c45_median N acc l _ hs
  obtain ⟨e2, o2, v2⟩ := c45_median N' acc l' _ hs'
  have hlen := h.length_eq
  have hsl := hs.1.length_eq
  rw [List.length_map] at hsl
  generalize (l.map acc).mergeSort (· ≤ ·) = s at *
  rcases Nat.even_or_odd' l.length with ⟨k, hk | hk⟩
  · cases k with
    | zero =>
      have h1 : l = [] := List.length_eq_zero_iff.1 (by omega)
      have h2 : l' = [] := List.length_eq_zero_iff.1 (by omega)
      rw [e1 h1, e2 h2]
    | succ k =>
      have ha : s[k]? = some s[k] := List.getElem?_eq_getElem (by omega)
      have hb : s[k + 1]? = some s[k + 1] := List.getElem?_eq_getElem (by omega)
      rw [v1 k _ _ (by omega) ha hb, v2 k _ _ (by omega) ha hb]
  · rw [o1 k hk, o2 k (by omega)]

theorem c45_median_bounds (N : NthElement K) (acc : ε → K) (l : List ε) (lo hi : K)
    (hl : l ≠ []) (h : ∀ x ∈ l, lo ≤ acc x ∧ acc x ≤ hi) :
    ∃ m, median N id (· / 2) (· + ·) acc l = some m ∧ lo ≤ m ∧ m ≤ hi := by
  have hs : SortedOf ((l.map acc).mergeSort (· ≤ ·)) (l.map acc) := by
    refine ⟨List.mergeSort_perm _ _, ?_⟩
    have := List.pairwise_mergeSort (le := fun a b : K => decide (a ≤ b))
      (by simp only [decide_eq_true_eq]; exact fun a b c => le_trans)
      (by intro a b; simp [le_total]) (l.map acc)
    simpa using this
  obtain ⟨-, o1, v1⟩ := c45_median N acc l _ hs
  have hsl := hs.1.length_eq
  rw [List.length_map] at hsl
  have hb : ∀ y ∈ (l.map acc).mergeSort (· ≤ ·), lo ≤ y ∧ y ≤ hi := by
    intro y hy
    obtain ⟨x, hx, rfl⟩ := List.mem_map.1 (hs.1.mem_iff.1 hy)
    exact h x hx
  generalize (l.map acc).mergeSort (· ≤ ·) = s at *
  have hpos : 0 < l.length := List.length_pos_iff.2 hl
  rcases Nat.even_or_odd' l.length with ⟨k, hk | hk⟩
  · obtain ⟨k, rfl⟩ : ∃ j, k = j + 1 := ⟨k - 1, by omega⟩
    have e1 : s[k]? = some s[k] := List.getElem?_eq_getElem (by omega)
    have e2 : s[k + 1]? = some s[k + 1] := List.getElem?_eq_getElem (by omega)
    refine ⟨_, v1 k _ _ (by omega) e1 e2, ?_⟩
    have b1 := hb s[k] (List.getElem_mem _)
    have b2 := hb s[k + 1] (List.getElem_mem _)
    constructor <;> linarith
  · have e1 : s[k]? = some s[k] := List.getElem?_eq_getElem (by omega)
    exact ⟨s[k], by rw [o1 k hk, e1], hb _ (List.getElem_mem _)⟩

/-- An implementation of nth_element: sort everything. -/
def sortAll (α : Type) [LinearOrder α] : NthElement α where
  run l _ := l.insertionSort (· ≤ ·)
  perm l _ := List.perm_insertionSort _ _
  lower l n x hx y hy := by
    have hp : (l.insertionSort (· ≤ ·)).Pairwise (· ≤ ·) :=
      List.pairwise_insertionSort _ l
    generalize l.insertionSort (· ≤ ·) = d at *
    obtain ⟨hn, rfl⟩ := List.getElem?_eq_some_iff.1 hx
    obtain ⟨i, hi, rfl⟩ := List.mem_iff_getElem.1 hy
    rw [List.length_take] at hi
    rw [List.getElem_take]
    exact List.pairwise_iff_getElem.1 hp i n (by omega) hn (by omega)
  upper l n x hx y hy := by
    have hp : (l.insertionSort (· ≤ ·)).Pairwise (· ≤ ·) :=
      List.pairwise_insertionSort _ l
    generalize l.insertionSort (· ≤ ·) = d at *
    obtain ⟨hn, rfl⟩ := List.getElem?_eq_some_iff.1 hx
    obtain ⟨i, hi, rfl⟩ := List.mem_iff_getElem.1 hy
    rw [List.length_drop] at hi
    rw [List.getElem_drop]
    exact List.pairwise_iff_getElem.1 hp n (n + 1 + i) hn (by omega) (by omega)

/-- Documented, but false for integer result types: the two middle elements are halved before they
are added, so the median of {3, 3} is 2 and that of {1, 1} is 0. -/
theorem c45_integer_result_violated :
    median (sortAll Int) id (·.tdiv 2) (· + ·) id [3, 3] = some 2 ∧
    median (sortAll Int) id (·.tdiv 2) (· + ·) id [1, 1] = some 0 := by
  decide +kernel

example : median (sortAll ℚ) id (· / 2) (· + ·) id [5, 1, 4] = some 4 ∧
    median (sortAll ℚ) id (· / 2) (· + ·) id [7, 1, 4, 2] = some 3 ∧
    mean id ([1, 2, 6] : List ℚ) = some 3 := by decide +kernel

/-! ## C46: minimum, maximum, min_max -/

section MinMax
variable {α : Type}

omit [Field K] [LinearOrder K] [IsStrictOrderedRing K]

/-- What the proofs need of `<=`: on the values that are not NaN it is a total order, and it is
false if one of its operands is NaN. -/
structure Lawful (o : Ordered α) : Prop where
  nanL : ∀ x y, o.le x x = false → o.le x y = false
  nanR : ∀ x y, o.le y y = false → o.le x y = false
  total : ∀ x y, o.le x x = true → o.le y y = true → o.le x y = true ∨ o.le y x = true
  trans : ∀ x y z, o.le x y = true → o.le y z = true → o.le x z = true

/-- The greatest of the elements that are not NaN. -/
def IsMaximum (o : Ordered α) (data : List α) (m : α) : Prop :=
  m ∈ data ∧ o.le m m = true ∧ ∀ x ∈ data, o.le x x = true → o.le x m = true

/-- The least of the elements that are not NaN. -/
def IsMinimum (o : Ordered α) (data : List α) (m : α) : Prop :=
  m ∈ data ∧ o.le m m = true ∧ ∀ x ∈ data, o.le x x = true → o.le m x = true

theorem lawful_floats : Lawful floats where
  nanL x y h := by cases x <;> simp_all [floats, NumUtil.FV.le]
  nanR x y h := by cases y <;> cases x <;> simp_all [floats, NumUtil.FV.le]
  total x y hx hy := by
    cases x <;> cases y <;> simp_all [floats, NumUtil.FV.le]
    exact le_total _ _
  trans x y z h1 h2 := by
    cases x <;> cases y <;> cases z <;> simp_all [floats, NumUtil.FV.le]
    exact le_trans h1 h2

theorem lawful_ints (t : IntTy) : Lawful (ints t) where
  nanL x y h := by simp [ints] at h
  nanR x y h := by simp [ints] at h
  total x y _ _ := by simp only [ints, decide_eq_true_eq]; omega
  trans x y z := by simp only [ints, decide_eq_true_eq]; omega

def maxStep (o : Ordered α) (accu val : α) : α :=
  if o.le val val then (if !(o.le val accu) then val else accu) else accu

def minStep (o : Ordered α) (accu val : α) : α :=
  if o.le val val then (if !(o.le accu val) then val else accu) else accu

theorem maximum_eq (o : Ordered α) (acc : ε → α) (l : List ε) :
    maximum o acc l = (l.map acc).foldl (maxStep o) o.bottom := by
  unfold maximum; rw [List.foldl_map]; rfl

theorem minimum_eq (o : Ordered α) (acc : ε → α) (l : List ε) :
    minimum o acc l = (l.map acc).foldl (minStep o) o.top := by
  unfold minimum; rw [List.foldl_map]; rfl

theorem minMax_eq (o : Ordered α) (acc : ε → α) (l : List ε) :
    minMax o acc l = (minimum o acc l, maximum o acc l) := by
  have : ∀ (l : List ε) (a b : α), l.foldl (fun out el =>
      let val := acc el
      if o.le val val then
        let out := if !(o.le out.1 val) then (val, out.2) else out
        if !(o.le val out.2) then (out.1, val) else out
      else out) (a, b) =
      ((l.map acc).foldl (minStep o) a, (l.map acc).foldl (maxStep o) b) := by
    intro l
    induction l with
    | nil => intro a b; rfl
    | cons x r ih =>
      intro a b
      simp only [List.foldl_cons, List.map_cons]
      rw [← ih]
      congr 1
      simp only [minStep, maxStep]
      by_cases h1 : o.le (acc x) (acc x) = true
      · by_cases h2 : o.le a (acc x) = true <;> by_cases h3 : o.le (acc x) b = true <;>
          simp [h1, h2, h3]
      · simp [h1]
  rw [maximum_eq, minimum_eq]
  exact this l _ _

/-- Folding from an accumulator that is not NaN. -/
theorem foldMax_some {o : Ordered α} (w : Lawful o) : ∀ (d : List α) (a : α), o.le a a = true →
    IsMaximum o (a :: d) (d.foldl (maxStep o) a) := by
  intro d
  induction d with
  | nil =>
    intro a ha
    exact ⟨List.mem_cons_self, ha, by intro x hx _; rw [List.mem_singleton.1 hx]; exact ha⟩
  | cons x r ih =>
    intro a ha
    rw [List.foldl_cons]
    by_cases hx : o.le x x = true
    · by_cases hxa : o.le x a = true
      · have e : maxStep o a x = a := by simp [maxStep, hx, hxa]
        rw [e]
        obtain ⟨m1, m2, m3⟩ := ih a ha
        refine ⟨?_, m2, ?_⟩
        · rcases List.mem_cons.1 m1 with h | h
          · rw [h]; exact List.mem_cons_self
          · exact List.mem_cons_of_mem _ (List.mem_cons_of_mem _ h)
        · intro y hy hyy
          rcases List.mem_cons.1 hy with rfl | hy
          · exact m3 _ List.mem_cons_self hyy
          · rcases List.mem_cons.1 hy with rfl | hy
            · exact w.trans _ _ _ hxa (m3 a List.mem_cons_self ha)
            · exact m3 y (List.mem_cons_of_mem _ hy) hyy
      · have e : maxStep o a x = x := by simp [maxStep, hx, hxa]
        rw [e]
        obtain ⟨m1, m2, m3⟩ := ih x hx
        refine ⟨List.mem_cons_of_mem _ m1, m2, ?_⟩
        intro y hy hyy
        rcases List.mem_cons.1 hy with rfl | hy
        · have : o.le y x = true := by
            rcases w.total x y hx hyy with h | h
            · exact absurd h hxa
            · exact h
          exact w.trans _ _ _ this (m3 x List.mem_cons_self hx)
        · exact m3 y hy hyy
    · have e : maxStep o a x = a := by simp [maxStep, hx]
      rw [e]
      obtain ⟨m1, m2, m3⟩ := ih a ha
      refine ⟨?_, m2, ?_⟩
      · rcases List.mem_cons.1 m1 with h | h
        · rw [h]; exact List.mem_cons_self
        · exact List.mem_cons_of_mem _ (List.mem_cons_of_mem _ h)
      · intro y hy hyy
        rcases List.mem_cons.1 hy with rfl | hy
        · exact m3 _ List.mem_cons_self hyy
        · rcases List.mem_cons.1 hy with rfl | hy
          · exact absurd hyy hx
          · exact m3 y (List.mem_cons_of_mem _ hy) hyy

/-- Folding from a NaN. -/
theorem foldMax_nan {o : Ordered α} (w : Lawful o) : ∀ (d : List α) (a : α), o.le a a = false →
    ((∀ x ∈ d, o.le x x = false) ∧ d.foldl (maxStep o) a = a) ∨
    IsMaximum o d (d.foldl (maxStep o) a) := by
  intro d
  induction d with
  | nil => intro a _; left; simp
  | cons x r ih =>
    intro a ha
    rw [List.foldl_cons]
    by_cases hx : o.le x x = true
    · right
      have e : maxStep o a x = x := by simp [maxStep, hx, w.nanR x a ha]
      rw [e]
      exact foldMax_some w r x hx
    · have e : maxStep o a x = a := by simp [maxStep, hx]
      rw [e]
      rcases ih a ha with ⟨h1, h2⟩ | ⟨h1, h2, h3⟩
      · left
        refine ⟨?_, h2⟩
        intro y hy
        rcases List.mem_cons.1 hy with rfl | hy
        · simpa using hx
        · exact h1 y hy
      · right
        refine ⟨List.mem_cons_of_mem _ h1, h2, ?_⟩
        intro y hy hyy
        rcases List.mem_cons.1 hy with rfl | hy
        · exact absurd hyy hx
        · exact h3 y hy hyy

/-- Reversing the order turns minimum into maximum. -/
def Ordered.flip (o : Ordered α) : Ordered α := ⟨fun a b => o.le b a, o.top, o.bottom⟩

theorem lawful_flip {o : Ordered α} (w : Lawful o) : Lawful o.flip where
  nanL x y h := w.nanR y x h
  nanR x y h := w.nanL y x h
  total x y hx hy := w.total y x hy hx
  trans x y z h1 h2 := w.trans z y x h2 h1

theorem minimum_flip (o : Ordered α) (acc : ε → α) (l : List ε) :
    minimum o acc l = maximum o.flip acc l := rfl

theorem isMinimum_flip (o : Ordered α) (d : List α) (m : α) :
    IsMinimum o d m ↔ IsMaximum o.flip d m := Iff.rfl

/-- Floating-point data: the greatest and the least element that is not NaN; NaN if all elements
are NaN or there is none. -/
theorem c46_float (acc : ε → NumUtil.FV) (l : List ε) :
    (((∀ x ∈ l, acc x = .nan) ∧ maximum floats acc l = .nan) ∨
      IsMaximum floats (l.map acc) (maximum floats acc l)) ∧
    (((∀ x ∈ l, acc x = .nan) ∧ minimum floats acc l = .nan) ∨
      IsMinimum floats (l.map acc) (minimum floats acc l)) := by
  have isnan : ∀ y, floats.le y y = false → y = .nan := by
    intro y hy; cases y <;> simp_all [floats, NumUtil.FV.le]
  constructor
  · rcases foldMax_nan lawful_floats (l.map acc) .nan rfl with ⟨h1, h2⟩ | h
    · left
      refine ⟨fun x hx => isnan _ (h1 _ (List.mem_map_of_mem hx)), ?_⟩
      rw [maximum_eq]; exact h2
    · right; rw [maximum_eq]; exact h
  · rcases foldMax_nan (lawful_flip lawful_floats) (l.map acc) .nan rfl with ⟨h1, h2⟩ | h
    · left
      refine ⟨fun x hx => isnan _ (h1 _ (List.mem_map_of_mem hx)), ?_⟩
      rw [minimum_flip, maximum_eq]; exact h2
    · right
      rw [isMinimum_flip, minimum_flip, maximum_eq]; exact h

/-- Integer data: the greatest and the least element; the lowest and the highest value of the type
if there is none. -/
theorem c46_integer (t : IntTy) (acc : ε → Int) (l : List ε) (h : ∀ x ∈ l, t.Has (acc x)) :
    (l = [] → maximum (ints t) acc l = t.minVal ∧ minimum (ints t) acc l = t.maxVal) ∧
    (l ≠ [] → (∃ x ∈ l, acc x = maximum (ints t) acc l) ∧
      (∃ x ∈ l, acc x = minimum (ints t) acc l) ∧
      ∀ x ∈ l, minimum (ints t) acc l ≤ acc x ∧ acc x ≤ maximum (ints t) acc l) := by
  constructor
  · rintro rfl; exact ⟨rfl, rfl⟩
  · intro hl
    have hmax := foldMax_some (lawful_ints t) (l.map acc) t.minVal (by simp [ints])
    have hmin := foldMax_some (lawful_flip (lawful_ints t)) (l.map acc) t.maxVal
      (by simp [ints, Ordered.flip])
    have e1 : maximum (ints t) acc l = (l.map acc).foldl (maxStep (ints t)) t.minVal :=
      maximum_eq _ _ _
    have e2 : minimum (ints t) acc l = (l.map acc).foldl (maxStep (ints t).flip) t.maxVal := by
      rw [minimum_flip, maximum_eq]; rfl
    rw [← e1] at hmax
    rw [← e2] at hmin
    obtain ⟨a1, -, a3⟩ := hmax
    obtain ⟨b1, -, b3⟩ := hmin
    obtain ⟨x0, hx0⟩ := List.exists_mem_of_ne_nil l hl
    have le1 : ∀ x ∈ l, acc x ≤ maximum (ints t) acc l := by
      intro x hx
      have := a3 (acc x) (List.mem_cons_of_mem _ (List.mem_map_of_mem hx)) (by simp [ints])
      simpa [ints] using this
    have le2 : ∀ x ∈ l, minimum (ints t) acc l ≤ acc x := by
      intro x hx
      have := b3 (acc x) (List.mem_cons_of_mem _ (List.mem_map_of_mem hx))
        (by simp [ints, Ordered.flip])
      simpa [ints, Ordered.flip] using this
    refine ⟨?_, ?_, fun x hx => ⟨le2 x hx, le1 x hx⟩⟩
    · rcases List.mem_cons.1 a1 with he | hm
      · refine ⟨x0, hx0, ?_⟩
        have := le1 x0 hx0
        have := (h x0 hx0).1
        omega
      · obtain ⟨x, hx, e⟩ := List.mem_map.1 hm
        exact ⟨x, hx, e⟩
    · rcases List.mem_cons.1 b1 with he | hm
      · refine ⟨x0, hx0, ?_⟩
        have := le2 x0 hx0
        have := (h x0 hx0).2
        omega
      · obtain ⟨x, hx, e⟩ := List.mem_map.1 hm
        exact ⟨x, hx, e⟩

/-- min_max returns what minimum and maximum return, for all types. -/
theorem c46_min_max (o : Ordered α) (acc : ε → α) (l : List ε) :
    minMax o acc l = (minimum o acc l, maximum o acc l) := minMax_eq o acc l

example : maximum floats id [.nan, .fin 2, .nan, .fin 5, .ninf] = .fin 5 ∧
    minimum floats id [.nan, .fin 2, .nan, .fin 5, .ninf] = .ninf ∧
    minMax floats id [.nan] = (.nan, .nan) ∧
    minMax (ints IntTy.int8) id [3, -7, 12] = (-7, 12) := by decide +kernel

end MinMax

/-! ## C47: remove_outliers -/

section
omit [Field K] [LinearOrder K] [IsStrictOrderedRing K]

theorem maxElementFrom_spec (lt : ε → ε → Bool) (key : ε → K) [LinearOrder K]
    (hlt : ∀ a b, lt a b = decide (key a < key b)) (r : List ε) :
    ∀ (full pre : List ε) (best : ε) (bi : Nat), full = pre ++ r → full[bi]? = some best →
      (∀ y ∈ pre, key y ≤ key best) →
      ∃ x, full[maxElementFrom lt best bi pre.length r]? = some x ∧
        ∀ y ∈ full, key y ≤ key x := by
  induction r with
  | nil =>
    intro full pre best bi hf hb hle
    refine ⟨best, hb, ?_⟩
    rw [hf, List.append_nil]
    exact hle
  | cons z r ih =>
    intro full pre best bi hf hb hle
    have hf' : full = (pre ++ [z]) ++ r := by rw [hf]; simp
    have hlen : (pre ++ [z]).length = pre.length + 1 := by simp
    unfold maxElementFrom
    by_cases h : lt best z = true
    · rw [if_pos h, ← hlen]
      have h' : key best < key z := by rw [hlt] at h; simpa using h
      refine ih full (pre ++ [z]) z pre.length hf' (by rw [hf]; simp) ?_
      intro y hy
      rcases List.mem_append.1 hy with hy | hy
      · exact le_trans (hle y hy) h'.le
      · rw [List.mem_singleton.1 hy]
    · rw [if_neg h, ← hlen]
      have h' : key z ≤ key best := by rw [hlt] at h; simpa using h
      refine ih full (pre ++ [z]) best bi hf' hb ?_
      intro y hy
      rcases List.mem_append.1 hy with hy | hy
      · exact hle y hy
      · rw [List.mem_singleton.1 hy]; exact h'

end

omit [Field K] [IsStrictOrderedRing K] in
theorem maxElement_spec (key : ε → K) (l : List ε) (hl : l ≠ []) :
    ∃ x, l[maxElement (fun a b => decide (key a < key b)) l]? = some x ∧
      ∀ y ∈ l, key y ≤ key x := by
  cases l with
  | nil => exact absurd rfl hl
  | cons x r =>
    refine maxElementFrom_spec _ key (fun _ _ => rfl) r (x :: r) [x] x 0 rfl rfl ?_
    intro y hy
    rw [List.mem_singleton.1 hy]

/-- remove_outliers takes out, one by one, elements of maximal distance from the mean of the
present elements. -/
theorem c47_removed (acc : ε → K) (k : Nat) (l : List ε) :
    Removed acc k l (removeOutliers acc k l) := by
  induction k generalizing l with
  | zero => exact .none l
  | succ k ih =>
    unfold removeOutliers
    by_cases hl : l = []
    · subst hl; exact .empty _
    · obtain ⟨m, h1, h2⟩ := (c45_mean acc l).2 hl
      rw [h1]
      simp only
      obtain ⟨x, hx, hfar⟩ := maxElement_spec (fun a => |acc a - m|) l hl
      generalize maxElement (fun a b => decide (|acc a - m| < |acc b - m|)) l = i at *
      obtain ⟨hi, rfl⟩ := List.getElem?_eq_some_iff.1 hx
      have hsplit : l = l.take i ++ l[i] :: l.drop (i + 1) := by
        rw [List.getElem_cons_drop, List.take_append_drop]
      rw [List.eraseIdx_eq_take_drop_succ]
      have := Removed.step (acc := acc) (k := k) (pre := l.take i) (x := l[i])
        (post := l.drop (i + 1)) m (by rw [← hsplit]; exact h2) (by rw [← hsplit]; exact hfar)
        (ih (l.take i ++ l.drop (i + 1)))
      rw [← hsplit] at this
      exact this

/-- It removes `min(k, size)` elements and keeps the order of the others. -/
theorem c47_count (acc : ε → K) (k : Nat) (l : List ε) :
    (removeOutliers acc k l).length = l.length - min k l.length ∧
    (removeOutliers acc k l).Sublist l := by
  have : ∀ (k : Nat) (l l' : List ε), Removed acc k l l' →
      l'.length = l.length - min k l.length ∧ l'.Sublist l := by
    intro k l l' h
    induction h with
    | none l => exact ⟨by simp, List.Sublist.refl _⟩
    | empty k => exact ⟨by simp, List.Sublist.refl _⟩
    | @step k pre x post l' m _ _ _ ih =>
      obtain ⟨i1, i2⟩ := ih
      constructor
      · rw [i1]; simp only [List.length_append, List.length_cons]; omega
      · exact i2.trans ((List.Sublist.refl pre).append (List.sublist_cons_self x post))
  exact this k l _ (c47_removed acc k l)

example : removeOutliers (id : ℚ → ℚ) 2 [1, 2, 100, 3, -50] = [1, 2, 3] := by decide +kernel

/-! ## C48: standard deviation and rms -/

theorem sum_sq_nonneg (f : ε → K) (l : List ε) : 0 ≤ (l.map fun x => f x ^ 2).sum := by
  induction l with
  | nil => simp
  | cons x r ih =>
    simp only [List.map_cons, List.sum_cons]
    have := sq_nonneg (f x)
    linarith

theorem sum_sq_zero (f : ε → K) (l : List ε) :
    (l.map fun x => f x ^ 2).sum = 0 ↔ ∀ x ∈ l, f x = 0 := by
  induction l with
  | nil => simp
  | cons x r ih =>
    simp only [List.map_cons, List.sum_cons, List.forall_mem_cons]
    rw [← ih]
    have h1 := sq_nonneg (f x)
    have h2 := sum_sq_nonneg f r
    constructor
    · intro h
      have h3 : f x ^ 2 = 0 := by linarith
      exact ⟨by simpa using h3, by linarith⟩
    · rintro ⟨h3, h4⟩
      rw [h3, h4]; simp

/-- The standard deviation of at least two elements is the square root of the sum of the squared
deviations from the mean divided by n - 1. -/
theorem c48_standard_deviation (sqrt : K → K) (hsq : IsSqrt sqrt) (acc : ε → K) (l : List ε)
    (hl : 2 ≤ l.length) :
    ∃ s m, standardDeviation sqrt acc l = (some s, some m) ∧ mean acc l = some m ∧
      m * (l.length : K) = (l.map acc).sum ∧
      0 ≤ s ∧ s * s * ((l.length : K) - 1) = (l.map fun x => (acc x - m) ^ 2).sum := by
  have hne : l ≠ [] := by rintro rfl; simp at hl
  obtain ⟨m, h1, h2⟩ := (c45_mean acc l).2 hne
  have hn : (1 : K) ≤ (l.length : K) - 1 := by
    have : ((2 : Nat) : K) ≤ (l.length : K) := by exact_mod_cast hl
    push_cast at this
    linarith
  have hc : ((l.length - 1 : Nat) : K) = (l.length : K) - 1 := by
    rw [Nat.cast_sub (by omega)]; simp
  have hs0 := sum_sq_nonneg (fun x => acc x - m) l
  refine ⟨sqrt (l.foldl (fun accu el => accu + (acc el - m) ^ 2) 0 / ((l.length - 1 : Nat) : K)),
    m, ?_, h1, h2, ?_⟩
  · unfold standardDeviation
    rw [if_neg (by omega), h1]
    simp only
    rw [if_neg (by omega)]
  · rw [foldl_add, hc, zero_add]
    obtain ⟨q1, q2⟩ := hsq ((l.map fun x => (acc x - m) ^ 2).sum / ((l.length : K) - 1))
      (div_nonneg hs0 (by linarith))
    refine ⟨q1, ?_⟩
    rw [q2]
    have : (l.length : K) - 1 ≠ 0 := by
      intro h; rw [h] at hn; linarith
    field_simp

omit [LinearOrder K] [IsStrictOrderedRing K] in
/-- NaN for no data; NaN and the element for a single element. -/
theorem c48_small (sqrt : K → K) (acc : ε → K) (x : ε) :
    standardDeviation sqrt acc [] = (none, none) ∧
    standardDeviation sqrt acc [x] = (none, some (acc x)) := by
  refine ⟨rfl, ?_⟩
  unfold standardDeviation mean
  simp [sum]

/-- Shifting all data shifts the mean and leaves the standard deviation unchanged. -/
theorem c48_translation (sqrt : K → K) (acc : ε → K) (c : K) (l : List ε) :
    standardDeviation sqrt (fun x => acc x + c) l =
      ((standardDeviation sqrt acc l).1, (standardDeviation sqrt acc l).2.map (· + c)) := by
  by_cases hl : l = []
  · subst hl; rfl
  · obtain ⟨m, h1, h2⟩ := (c45_mean acc l).2 hl
    obtain ⟨m', h1', h2'⟩ := (c45_mean (fun x => acc x + c) l).2 hl
    have hpos : (0 : K) < l.length := by
      have : 0 < l.length := List.length_pos_iff.2 hl
      exact_mod_cast this
    have hsum : (l.map fun x => acc x + c).sum = (l.map acc).sum + c * (l.length : K) := by
      clear h1 h2 h1' h2' hpos hl
      induction l with
      | nil => simp
      | cons y r ih => simp only [List.map_cons, List.sum_cons, List.length_cons]; rw [ih]; push_cast; ring
    have hm : m' = m + c := by
      rw [hsum, ← h2, ← add_mul] at h2'
      exact mul_right_cancel₀ hpos.ne' h2'
    have hz : l.length ≠ 0 := by
      intro h; exact hl (List.length_eq_zero_iff.1 h)
    unfold standardDeviation
    rw [if_neg hz, if_neg hz, h1, h1']
    simp only
    subst hm
    split
    · rfl
    · simp only [add_sub_add_right_eq_sub, Option.map_some]

/-- The standard deviation is zero exactly if all elements are equal. -/
theorem c48_zero (sqrt : K → K) (hsq : IsSqrt sqrt) (acc : ε → K) (l : List ε)
    (hl : 2 ≤ l.length) :
    (standardDeviation sqrt acc l).1 = some 0 ↔ ∀ x ∈ l, ∀ y ∈ l, acc x = acc y := by
  obtain ⟨s, m, h1, h2, h3, h4, h5⟩ := c48_standard_deviation sqrt hsq acc l hl
  have hn : (1 : K) ≤ (l.length : K) - 1 := by
    have : ((2 : Nat) : K) ≤ (l.length : K) := by exact_mod_cast hl
    push_cast at this
    linarith
  have key : s = 0 ↔ ∀ x ∈ l, acc x - m = 0 := by
    rw [← sum_sq_zero, ← h5]
    constructor
    · rintro rfl; simp
    · intro h
      rcases mul_eq_zero.1 h with h | h
      · simpa using h
      · rw [h] at hn; linarith
  rw [h1]
  simp only [Option.some.injEq]
  rw [key]
  constructor
  · intro h x hx y hy
    have := h x hx
    have := h y hy
    linarith
  · intro h x hx
    obtain ⟨b1, b2⟩ := (c45_mean_bounds acc l l m (acc x) (acc x) h2).1
      (fun y hy => ⟨(h x hx y hy).le, (h y hy x hx).le⟩)
    linarith

/-- The square of the rms is the mean of the squares; NaN for no data. -/
theorem c48_rms (sqrt : K → K) (hsq : IsSqrt sqrt) (acc : ε → K) (l : List ε) :
    (l = [] → rms sqrt acc l = none) ∧
    (l ≠ [] → ∃ r, rms sqrt acc l = some r ∧ 0 ≤ r ∧
      r * r * (l.length : K) = (l.map fun x => acc x ^ 2).sum) := by
  constructor
  · rintro rfl; rfl
  · intro h
    have hl : l.length ≠ 0 := by simpa using h
    have hne : (l.length : K) ≠ 0 := by exact_mod_cast hl
    have hs0 := sum_sq_nonneg acc l
    refine ⟨_, by unfold rms; rw [if_neg hl], ?_⟩
    rw [foldl_add, zero_add]
    obtain ⟨q1, q2⟩ := hsq ((l.map fun x => acc x ^ 2).sum / (l.length : K))
      (div_nonneg hs0 (Nat.cast_nonneg _))
    refine ⟨q1, ?_⟩
    rw [q2]
    field_simp

/-- The hypothesis on the square root is met by the real square root. -/
example : IsSqrt Real.sqrt := fun x hx => ⟨Real.sqrt_nonneg x, Real.mul_self_sqrt hx⟩

example : standardDeviation (fun q : ℚ => if q = 4 then 2 else 0) id [1, 3, 5] =
    (some 2, some 3) := by decide +kernel

end Gul14.Statistics
