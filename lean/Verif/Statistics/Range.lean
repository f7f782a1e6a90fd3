import Verif.Statistics.Props
import Mathlib.Algebra.Order.Field.Rat

/-!
# statistics.h: containers, two iterators, lvalues and rvalues

The functions of statistics.h are called with a container or with two iterators.  The second form makes a
ContainerView of the iterators and calls the first.  Here the functions work on what the code asks of a container:
`cbegin()`, `cend()` and `size()`, with iterators that are positions in memory.  Reading a position outside of the
memory, or writing outside of a copy, is undefined behaviour.  That a call compiles depends on the member functions
that the class of the argument has, and on the overload that is chosen.
-/
namespace Gul14.Statistics.Range
open Spec (Removed)

variable {K ε β : Type}

/-- A container as the functions see it: the memory that its iterators walk through, cbegin() and cend() as positions
in it, and size().  The members used in statistics.h:167-610. -/
structure Cont (ε : Type) where
  mem : List ε
  first : Nat
  last : Nat
  size : Nat
  deriving DecidableEq, Repr

/-- A container with its own memory, as std::vector. -/
def own (l : List ε) : Cont ε := ⟨l, 0, l.length, l.length⟩

/-- make_view and ContainerView, statistics.h:620-654; size() is std::distance as std::size_t. -/
def makeView (mem : List ε) (i j : Nat) : Cont ε := ⟨mem, i, j, (((j : Int) - i) % sizeMod).toNat⟩

/-- std::accumulate from `it` to `last`, statistics.h:169-174 and others. -/
def accumulateFrom (f : β → ε → β) (mem : List ε) (last : Nat) : Nat → Nat → β → Res β
  | 0, _, _ => .diverge
  | fuel + 1, it, a =>
      if it = last then .ok a
      else match mem[it]? with
        | none => .ub
        | some x => accumulateFrom f mem last fuel (it + 1) (f a x)

/-- std::accumulate(c.cbegin(), c.cend(), a, f). -/
def fold (f : β → ε → β) (a : β) (c : Cont ε) : Res β :=
  accumulateFrom f c.mem c.last (c.mem.length + 1) c.first a

/-- accumulate, statistics.h:598-614. -/
def accumulate {α : Type} (zero : β) (op : β → α → β) (acc : ε → α) (c : Cont ε) : Res β :=
  fold (fun accu el => op accu (acc el)) zero c

section Field
variable [Field K] [LinearOrder K]

/-- mean, statistics.h:160-175. -/
def mean (acc : ε → K) (c : Cont ε) : Res (Option K) :=
  (fold (fun accu el => accu + acc el) 0 c).map fun s =>
    if c.size = 0 then none else some (s / (c.size : K))

/-- rms, statistics.h:198-213. -/
def rms (sqrt : K → K) (acc : ε → K) (c : Cont ε) : Res (Option K) :=
  (fold (fun accu el => accu + (acc el) ^ 2) 0 c).map fun s =>
    if c.size = 0 then none else some (sqrt (s / (c.size : K)))

/-- standard_deviation, statistics.h:545-572. -/
def standardDeviation (sqrt : K → K) (acc : ε → K) (c : Cont ε) : Res (Option K × Option K) :=
  if c.size = 0 then .ok (none, none)
  else (mean acc c).bind fun m =>
    match m with
    | none => .ok (none, none)
    | some m =>
      if c.size = 1 then .ok (none, some m)
      else (fold (fun accu el => accu + (acc el - m) ^ 2) 0 c).map fun s =>
        (some (sqrt (s / ((c.size - 1 : Nat) : K))), some m)

end Field

/-- The loops that copy to a vector of `dest.length` elements: statistics.h:253-260 (with the accessor) and std::copy,
503. -/
def copyFrom {α : Type} (f : ε → α) (mem : List ε) (last : Nat) : Nat → Nat → Nat → List α → Res (List α)
  | 0, _, _, _ => .diverge
  | fuel + 1, it, out, dest =>
      if it = last then .ok dest
      else match mem[it]? with
        | none => .ub
        | some x =>
            if out < dest.length then copyFrom f mem last fuel (it + 1) (out + 1) (dest.set out (f x))
            else .ub

/-- The copy of a container that the two places make: `size()` default constructed elements, then the loop. -/
def copy {α : Type} (dflt : α) (f : ε → α) (c : Cont ε) : Res (List α) :=
  copyFrom f c.mem c.last (c.mem.length + 1) c.first 0 (List.replicate c.size dflt)

/-- median, statistics.h:239-276. -/
def median {R : Type} [LinearOrder K] (N : NthElement K) (dflt : K) (conv : K → R) (half : R → R) (add : R → R → R)
    (acc : ε → K) (c : Cont ε) : Res (Option R) :=
  if c.size = 0 then .ok none
  else (copy dflt acc c).map fun data =>
    let d := N.run data (c.size / 2)
    d[c.size / 2]?.bind fun m =>
    if c.size % 2 = 0 then
      let d := N.run d (c.size / 2 - 1)
      d[c.size / 2 - 1]?.map fun m' => add (half (conv m)) (half (conv m'))
    else some (conv m)

/-- maximum, statistics.h:308-330. -/
def maximum {α : Type} (o : Ordered α) (acc : ε → α) (c : Cont ε) : Res α :=
  fold (fun accu el => if o.le (acc el) (acc el) then (if !(o.le (acc el) accu) then acc el else accu) else accu)
    o.bottom c

/-- minimum, statistics.h:362-384. -/
def minimum {α : Type} (o : Ordered α) (acc : ε → α) (c : Cont ε) : Res α :=
  fold (fun accu el => if o.le (acc el) (acc el) then (if !(o.le accu (acc el)) then acc el else accu) else accu)
    o.top c

/-- min_max, statistics.h:421-447. -/
def minMax {α : Type} (o : Ordered α) (acc : ε → α) (c : Cont ε) : Res (α × α) :=
  fold (fun out el =>
    if o.le (acc el) (acc el) then
      (if !(o.le out.1 (acc el)) then acc el else out.1, if !(o.le (acc el) out.2) then acc el else out.2)
    else out) (o.top, o.bottom) c

/-! ## Which calls compile -/

/-- What the functions ask of the class of the container. -/
inductive Member where
  | valueType | cbegin | cend | size | begin_ | end_ | erase
  deriving DecidableEq, Repr

/-- The functions with two iterators. -/
inductive Fn where
  | mean | rms | median | maximum | minimum | minMax | standardDeviation | accumulate
  deriving DecidableEq, Repr

/-- The type of an argument. -/
structure Ty where
  has : Member → Bool
  isConst : Bool
  rvalue : Bool

/-- IsContainerLike, traits.h:46-57. -/
def Ty.containerLike (t : Ty) : Bool := t.has .cbegin && t.has .cend && t.has .valueType

/-- The members that the bodies use (besides cbegin(), cend() and value_type, which all use): statistics.h:174, 212,
249, 555 for size(). -/
def Fn.needsSize : Fn → Bool
  | .mean | .rms | .median | .standardDeviation => true
  | _ => false

/-- Whether a call of one of the functions that take `ContainerT const&` compiles. -/
def Fn.compiles (f : Fn) (t : Ty) : Bool := t.containerLike && (!f.needsSize || t.has .size)

/-- ContainerView, statistics.h:620-648, as make_view (650-654) returns it: a constant rvalue. -/
def viewTy : Ty where
  has := fun
    | .valueType | .cbegin | .cend | .size => true
    | .begin_ | .end_ | .erase => false
  isConst := true
  rvalue := true

/-- The two overloads of remove_outliers for containers. -/
inductive Overload where
  /-- `ContainerT&&`, statistics.h:469-485 -/
  | inPlace
  /-- `ContainerT const&`, statistics.h:493-505 -/
  | copying
  deriving DecidableEq, Repr

/-- Overload resolution.  For an lvalue, `ContainerT` of the first overload is a reference type, which has no
value_type; for an rvalue, binding `ContainerT&&` is better than binding `ContainerT const&`. -/
def resolve (t : Ty) : Option Overload :=
  if t.containerLike then some (if t.rvalue then .inPlace else .copying) else none

/-- Whether the body compiles.  First overload: size(), begin(), end(), mean (which needs size()) and erase, which is
not a constant member function.  Second overload: size(), and the first overload for std::vector. -/
def Overload.compiles (t : Ty) : Overload → Bool
  | .inPlace => t.has .size && t.has .begin_ && t.has .end_ && t.has .erase && !t.isConst
  | .copying => t.has .size

/-- The argument after the call, and the result. -/
structure Effect (ε : Type) where
  arg : List ε
  result : List ε
  deriving DecidableEq, Repr

section Field
variable [Field K] [LinearOrder K]

/-- The bodies of remove_outliers. -/
def Overload.run (dflt : ε) (acc : ε → K) (k : Nat) (c : Cont ε) : Overload → Res (Effect ε)
  | .inPlace => let l := removeOutliers acc k c.mem; .ok ⟨l, l⟩
  | .copying => (copy dflt id c).map fun l => ⟨c.mem, removeOutliers acc k l⟩

/-- A call remove_outliers(c, k, acc) with an argument of type `t`; `none`: it does not compile. -/
def remove (t : Ty) (dflt : ε) (acc : ε → K) (k : Nat) (c : Cont ε) : Option (Res (Effect ε)) :=
  (resolve t).bind fun o => if o.compiles t then some (o.run dflt acc k c) else none

/-- A call remove_outliers(begin, end, k, acc), statistics.h:785-794. -/
def removeRange (dflt : ε) (acc : ε → K) (k : Nat) (mem : List ε) (i j : Nat) : Option (Res (Effect ε)) :=
  remove viewTy dflt acc k (makeView mem i j)

end Field

/-! ## Lemmas -/

theorem accumulateFrom_eq (f : β → ε → β) (mem : List ε) (last : Nat) (hl : last ≤ mem.length) :
    ∀ (fuel it : Nat) (a : β), it ≤ last → last - it < fuel →
      accumulateFrom f mem last fuel it a = .ok (((mem.drop it).take (last - it)).foldl f a) := by
  intro fuel
  induction fuel with
  | zero => intro it a h1 h2; omega
  | succ fuel ih =>
    intro it a h1 h2
    unfold accumulateFrom
    by_cases he : it = last
    · subst he; simp
    · have hlt : it < mem.length := by omega
      have e : last - it = (last - (it + 1)) + 1 := by omega
      rw [if_neg he, List.getElem?_eq_getElem hlt, List.drop_eq_getElem_cons hlt, e, List.take_succ_cons]
      simp only [List.foldl_cons]
      exact ih (it + 1) _ (by omega) (by omega)

theorem copyFrom_eq {α : Type} (f : ε → α) (mem : List ε) (last : Nat) (hl : last ≤ mem.length) :
    ∀ (fuel it : Nat) (done rest : List α), it ≤ last → last - it < fuel → rest.length = last - it →
      copyFrom f mem last fuel it done.length (done ++ rest) =
        .ok (done ++ ((mem.drop it).take (last - it)).map f) := by
  intro fuel
  induction fuel with
  | zero => intro it done rest h1 h2; omega
  | succ fuel ih =>
    intro it done rest h1 h2 h3
    unfold copyFrom
    by_cases he : it = last
    · subst he
      have : rest = [] := List.eq_nil_of_length_eq_zero (by omega)
      simp [this]
    · have hlt : it < mem.length := by omega
      have e : last - it = (last - (it + 1)) + 1 := by omega
      obtain ⟨r, rs, rfl⟩ : ∃ r rs, rest = r :: rs := by
        cases rest with
        | nil => simp at h3; omega
        | cons r rs => exact ⟨r, rs, rfl⟩
      have hset : (done ++ r :: rs).set done.length (f mem[it]) = (done ++ [f mem[it]]) ++ rs := by simp
      have hd : done.length < (done ++ r :: rs).length := by simp
      simp only [if_neg he, List.getElem?_eq_getElem hlt, if_pos hd, hset]
      rw [e, List.drop_eq_getElem_cons hlt, List.take_succ_cons, List.map_cons]
      have := ih (it + 1) (done ++ [f mem[it]]) rs (by omega) (by omega) (by simp at h3; omega)
      simp only [List.length_append, List.length_singleton, List.append_assoc, List.singleton_append] at this ⊢
      exact this

/-- The elements of a valid range. -/
def slice (mem : List ε) (i j : Nat) : List ε := (mem.drop i).take (j - i)

theorem slice_length (mem : List ε) (i j : Nat) (hj : j ≤ mem.length) :
    (slice mem i j).length = j - i := by simp [slice]; omega

/-- A container whose positions and size fit its memory. -/
structure Good (c : Cont ε) : Prop where
  order : c.first ≤ c.last
  inside : c.last ≤ c.mem.length
  size_eq : c.size = c.last - c.first

theorem good_own (l : List ε) : Good (own l) := ⟨by simp [own], by simp [own], by simp [own]⟩

theorem good_view (mem : List ε) (i j : Nat) (hij : i ≤ j) (hj : j ≤ mem.length) (hm : mem.length < sizeMod) :
    Good (makeView mem i j) := by
  refine ⟨hij, hj, ?_⟩
  have e : ((j : Int) - i) = ((j - i : Nat) : Int) := by omega
  have h : j - i < sizeMod := by omega
  simp only [makeView, e]
  have h2 : (((j - i : Nat) : Int) % ((sizeMod : Nat) : Int)).toNat = (j - i) % sizeMod := by
    rw [← Int.natCast_mod, Int.toNat_natCast]
  rw [h2, Nat.mod_eq_of_lt h]

theorem fold_good (f : β → ε → β) (a : β) (c : Cont ε) (h : Good c) :
    fold f a c = .ok ((slice c.mem c.first c.last).foldl f a) := by
  unfold fold slice
  exact accumulateFrom_eq f c.mem c.last h.inside _ _ a h.order (by have := h.inside; omega)

theorem copy_good {α : Type} (dflt : α) (f : ε → α) (c : Cont ε) (h : Good c) :
    copy dflt f c = .ok ((slice c.mem c.first c.last).map f) := by
  unfold copy slice
  have := copyFrom_eq f c.mem c.last h.inside (c.mem.length + 1) c.first [] (List.replicate c.size dflt) h.order
    (by have := h.inside; omega) (by simp [h.size_eq])
  simpa using this

theorem slice_own (l : List ε) : slice (own l).mem (own l).first (own l).last = l := by simp [slice, own]

theorem size_good (c : Cont ε) (h : Good c) : c.size = (slice c.mem c.first c.last).length := by
  rw [slice_length _ _ _ h.inside, h.size_eq]

section Field
variable [Field K] [LinearOrder K]

omit [LinearOrder K] in
theorem mean_good (acc : ε → K) (c : Cont ε) (h : Good c) :
    mean acc c = .ok (Statistics.mean acc (slice c.mem c.first c.last)) := by
  unfold mean Statistics.mean Statistics.sum
  rw [fold_good _ _ _ h, size_good c h]
  rfl

omit [LinearOrder K] in
theorem rms_good (sqrt : K → K) (acc : ε → K) (c : Cont ε) (h : Good c) :
    rms sqrt acc c = .ok (Statistics.rms sqrt acc (slice c.mem c.first c.last)) := by
  unfold rms Statistics.rms
  rw [fold_good _ _ _ h, size_good c h]
  rfl

omit [LinearOrder K] in
theorem sd_good (sqrt : K → K) (acc : ε → K) (c : Cont ε) (h : Good c) :
    standardDeviation sqrt acc c = .ok (Statistics.standardDeviation sqrt acc (slice c.mem c.first c.last)) := by
  unfold standardDeviation Statistics.standardDeviation
  rw [mean_good _ _ h, size_good c h]
  by_cases h0 : (slice c.mem c.first c.last).length = 0
  · simp [h0]
  · rw [if_neg h0, if_neg h0]
    simp only [Res.bind]
    cases Statistics.mean acc (slice c.mem c.first c.last) with
    | none => rfl
    | some m =>
      by_cases h1 : (slice c.mem c.first c.last).length = 1
      · simp [h1]
      · simp only [if_neg h1]
        rw [fold_good _ _ _ h]
        rfl

omit [Field K] in
theorem median_good {R : Type} (N : NthElement K) (dflt : K) (conv : K → R) (half : R → R)
    (add : R → R → R) (acc : ε → K) (c : Cont ε) (h : Good c) :
    median N dflt conv half add acc c =
      .ok (Statistics.median N conv half add acc (slice c.mem c.first c.last)) := by
  unfold median Statistics.median
  rw [copy_good _ _ _ h, size_good c h]
  by_cases h0 : (slice c.mem c.first c.last).length = 0
  · simp [h0]
  · simp only [if_neg h0]
    rfl

end Field

theorem maximum_good {α : Type} (o : Ordered α) (acc : ε → α) (c : Cont ε) (h : Good c) :
    maximum o acc c = .ok (Statistics.maximum o acc (slice c.mem c.first c.last)) := by
  unfold maximum Statistics.maximum
  rw [fold_good _ _ _ h]

theorem minimum_good {α : Type} (o : Ordered α) (acc : ε → α) (c : Cont ε) (h : Good c) :
    minimum o acc c = .ok (Statistics.minimum o acc (slice c.mem c.first c.last)) := by
  unfold minimum Statistics.minimum
  rw [fold_good _ _ _ h]

theorem minMax_good {α : Type} (o : Ordered α) (acc : ε → α) (c : Cont ε) (h : Good c) :
    minMax o acc c = .ok (Statistics.minMax o acc (slice c.mem c.first c.last)) := by
  unfold minMax Statistics.minMax
  rw [fold_good _ _ _ h]
  congr 2
  funext out el
  dsimp only
  split <;> (try rfl)
  split <;> split <;> rfl

/-! ## The property -/

/-- What the functions of statistics.h give for the elements `r`: the values of C44 to C48, and the fold of the
operator for accumulate. -/
def Agrees (c : Cont ε) (r : List ε) : Prop :=
  (∀ (K : Type) [Field K] [LinearOrder K] (acc : ε → K) (sqrt : K → K),
    mean acc c = .ok (Statistics.mean acc r) ∧
    rms sqrt acc c = .ok (Statistics.rms sqrt acc r) ∧
    standardDeviation sqrt acc c = .ok (Statistics.standardDeviation sqrt acc r)) ∧
  (∀ (K R : Type) [LinearOrder K] (N : NthElement K) (dflt : K) (conv : K → R) (half : R → R) (add : R → R → R)
    (acc : ε → K), median N dflt conv half add acc c = .ok (Statistics.median N conv half add acc r)) ∧
  (∀ (α : Type) (o : Ordered α) (acc : ε → α),
    maximum o acc c = .ok (Statistics.maximum o acc r) ∧
    minimum o acc c = .ok (Statistics.minimum o acc r) ∧
    minMax o acc c = .ok (Statistics.minMax o acc r)) ∧
  (∀ (α β : Type) (zero : β) (op : β → α → β) (acc : ε → α),
    accumulate zero op acc c = .ok ((r.map acc).foldl op zero))

theorem agrees_good (c : Cont ε) (h : Good c) : Agrees c (slice c.mem c.first c.last) := by
  refine ⟨fun K _ _ acc sqrt => ⟨mean_good acc c h, rms_good sqrt acc c h, sd_good sqrt acc c h⟩,
    fun K R _ N dflt conv half add acc => median_good N dflt conv half add acc c h,
    fun α o acc => ⟨maximum_good o acc c h, minimum_good o acc c h, minMax_good o acc c h⟩,
    fun α β zero op acc => ?_⟩
  unfold accumulate
  rw [fold_good _ _ _ h, List.foldl_map]

theorem slice_append (pre r post : List ε) :
    slice (pre ++ r ++ post) pre.length (pre.length + r.length) = r := by
  simp [slice]

/-- With a container, the functions see its elements, and all of them. -/
theorem c125_container (l : List ε) : Agrees (own l) l := by
  have := agrees_good (own l) (good_own l)
  rwa [slice_own] at this

/-- With two iterators, they see the elements between the iterators: no others, in this order, whatever is before and
after them in memory. -/
theorem c125_range (pre r post : List ε) (hm : (pre ++ r ++ post).length < sizeMod) :
    Agrees (makeView (pre ++ r ++ post) pre.length (pre.length + r.length)) r := by
  have h := agrees_good _ (good_view (pre ++ r ++ post) pre.length (pre.length + r.length) (by omega)
    (by simp) hm)
  have e : slice (makeView (pre ++ r ++ post) pre.length (pre.length + r.length)).mem
      (makeView (pre ++ r ++ post) pre.length (pre.length + r.length)).first
      (makeView (pre ++ r ++ post) pre.length (pre.length + r.length)).last = r := slice_append pre r post
  rwa [e] at h

/-- These calls compile with two iterators, and with every class that has value_type, cbegin(), cend() and size(),
constant or not, lvalue or rvalue; and with no other class, but that maximum, minimum, min_max and accumulate do not need
size(). -/
theorem c125_compiles (f : Fn) (t : Ty) :
    f.compiles viewTy = true ∧
    (f.compiles t = true ↔ t.has .valueType = true ∧ t.has .cbegin = true ∧ t.has .cend = true ∧
      (t.has .size = true ∨ f = .maximum ∨ f = .minimum ∨ f = .minMax ∨ f = .accumulate)) := by
  refine ⟨by cases f <;> rfl, ?_⟩
  cases f <;> simp [Fn.compiles, Fn.needsSize, Ty.containerLike] <;> tauto

section Remove
variable [Field K] [LinearOrder K] [IsStrictOrderedRing K]

/-- remove_outliers of an lvalue (constant or not, with erase() or without): the argument is not changed, the result
is its elements without the outliers. -/
theorem c125_remove_lvalue (t : Ty) (hc : t.containerLike = true) (hs : t.has .size = true) (hl : t.rvalue = false)
    (dflt : ε) (acc : ε → K) (k : Nat) (l : List ε) :
    ∃ r, remove t dflt acc k (own l) = some (.ok ⟨l, r⟩) ∧ Removed acc k l r ∧ r.Sublist l ∧
      r.length = l.length - min k l.length := by
  refine ⟨removeOutliers acc k l, ?_, c47_removed acc k l, (c47_count acc k l).2, (c47_count acc k l).1⟩
  unfold remove resolve
  have e := copy_good dflt id (own l) (good_own l)
  rw [slice_own, List.map_id] at e
  simp only [hc, hl, Overload.compiles, hs, Overload.run, e]
  rfl

/-- remove_outliers of an rvalue that is not constant and has erase(): the argument itself loses its outliers, and it
is what is returned. -/
theorem c125_remove_rvalue (t : Ty) (hc : t.containerLike = true) (hs : t.has .size = true) (hr : t.rvalue = true)
    (hb : t.has .begin_ = true) (he : t.has .end_ = true) (hx : t.has .erase = true) (hk : t.isConst = false)
    (dflt : ε) (acc : ε → K) (k : Nat) (l : List ε) :
    ∃ r, remove t dflt acc k (own l) = some (.ok ⟨r, r⟩) ∧ Removed acc k l r ∧ r.Sublist l ∧
      r.length = l.length - min k l.length := by
  refine ⟨removeOutliers acc k l, ?_, c47_removed acc k l, (c47_count acc k l).2, (c47_count acc k l).1⟩
  unfold remove resolve
  simp [hc, hr, Overload.compiles, hs, hb, he, hx, hk, Overload.run, own]

omit [IsStrictOrderedRing K] in
/-- Violated: remove_outliers(begin, end, k) never compiles, for no elements and no kind of iterator: the view is an
rvalue, so the overload that wants to erase elements of it is chosen. -/
theorem c125_remove_range_violated (dflt : ε) (acc : ε → K) (k : Nat) (mem : List ε) (i j : Nat) :
    removeRange dflt acc k mem i j = none := by
  simp [removeRange, remove, resolve, viewTy, Ty.containerLike, Overload.compiles]

/-- What is left of it: the other overload would compile for the view and do what is promised. -/
theorem c125_remove_range_partial (dflt : ε) (acc : ε → K) (k : Nat) (pre r post : List ε)
    (hm : (pre ++ r ++ post).length < sizeMod) :
    Overload.copying.compiles viewTy = true ∧
    ∃ q, Overload.copying.run dflt acc k (makeView (pre ++ r ++ post) pre.length (pre.length + r.length)) =
        .ok ⟨pre ++ r ++ post, q⟩ ∧ Removed acc k r q ∧ q.Sublist r := by
  refine ⟨rfl, removeOutliers acc k r, ?_, c47_removed acc k r, (c47_count acc k r).2⟩
  have e := copy_good dflt id _ (good_view (pre ++ r ++ post) pre.length (pre.length + r.length) (by omega)
    (by simp) hm)
  have e2 : slice (makeView (pre ++ r ++ post) pre.length (pre.length + r.length)).mem
      (makeView (pre ++ r ++ post) pre.length (pre.length + r.length)).first
      (makeView (pre ++ r ++ post) pre.length (pre.length + r.length)).last = r := slice_append pre r post
  rw [e2, List.map_id] at e
  simp only [Overload.run, e]
  rfl

omit [IsStrictOrderedRing K] in
/-- Violated: for an rvalue that is constant or has no erase() (a constant std::vector that a function returns, a
temporary std::array) the call does not compile, although the one with an lvalue of the same type does. -/
theorem c125_remove_rvalue_violated (t : Ty) (hc : t.containerLike = true) (hs : t.has .size = true)
    (hr : t.rvalue = true) (hx : t.has .erase = false ∨ t.isConst = true) (dflt : ε) (acc : ε → K) (k : Nat)
    (l : List ε) :
    remove t dflt acc k (own l) = none ∧
    (remove { t with rvalue := false } dflt acc k (own l)).isSome = true := by
  constructor
  · unfold remove resolve
    rcases hx with hx | hx <;> simp [hc, hr, Overload.compiles, hx]
  · unfold remove resolve
    have hc' : Ty.containerLike { t with rvalue := false } = true := hc
    simp [hc', Overload.compiles, hs]

end Remove

/-! ## Examples -/

/-- std::vector as an lvalue, as an rvalue, and constant -/
def vectorTy (rvalue isConst : Bool) : Ty := ⟨fun _ => true, isConst, rvalue⟩

/-- std::array: no erase() -/
def arrayTy (rvalue : Bool) : Ty := ⟨fun m => m != .erase, false, rvalue⟩

example : mean (fun x : ℚ => x) (makeView [100, 1, 2, 6, 100] 1 4) = .ok (some 3) := by decide +kernel
example : mean (fun x : ℚ => x) (makeView [100, 1] 1 1) = .ok none := by decide +kernel
example : mean (fun x : ℚ => x) (makeView [1, 2] 1 4) = .ub := by decide +kernel
example : minMax (ints IntTy.int8) (fun x : Int => x) (makeView [100, 1, 2, 6, 100] 1 4) = .ok (1, 6) := by decide +kernel
example : accumulate 0 (fun a (x : Int) => a + x) (fun x => x * 2) (makeView [100, 1, 2, 6, 100] 1 4) = .ok 18 := by
  decide +kernel
example : ([100] ++ [1, 2, 6] ++ [100] : List ℚ).length < sizeMod := by decide +kernel
example : remove (vectorTy false false) 0 (fun x : ℚ => x) 1 (own [1, 2, 9]) = some (.ok ⟨[1, 2, 9], [1, 2]⟩) := by
  decide +kernel
example : remove (vectorTy true false) 0 (fun x : ℚ => x) 1 (own [1, 2, 9]) = some (.ok ⟨[1, 2], [1, 2]⟩) := by
  decide +kernel
example : remove (vectorTy true true) 0 (fun x : ℚ => x) 1 (own [1, 2, 9]) = none := by decide +kernel
example : remove (arrayTy true) 0 (fun x : ℚ => x) 1 (own [1, 2, 9]) = none := by decide +kernel
example : remove (arrayTy false) 0 (fun x : ℚ => x) 1 (own [1, 2, 9]) = some (.ok ⟨[1, 2, 9], [1, 2]⟩) := by
  decide +kernel
example : (vectorTy false false).containerLike = true ∧ (arrayTy true).has .erase = false := by decide +kernel

end Gul14.Statistics.Range
