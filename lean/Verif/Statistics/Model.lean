import Verif.Integer.NumUtil
import Mathlib.Algebra.Order.Field.Basic

/-!
# Model of include/gul14/statistics.h

Floating-point arithmetic is idealised: `K` is any linearly ordered field (for instance the real
numbers), rounding is not modelled.  `Option K` is a result that can be NaN (`none`).  The data are
not NaN, except for minimum, maximum and min_max, which are modelled on values with NaN and
infinities (no rounding is involved there).  `acc` is the accessor that is applied to each element.
The iterator overloads (statistics.h:666-837), which call the container versions on a view of the range,
are in Verif/Statistics/Range.lean.
-/
namespace Gul14.Statistics

variable {K ε : Type} [Field K] [LinearOrder K]

/-- std::accumulate with the lambda of mean, statistics.h:168-173. -/
def sum (acc : ε → K) (l : List ε) : K := l.foldl (fun accu el => accu + acc el) 0

/-- mean, statistics.h:160-175.  For an empty container the division 0.0 / 0.0 gives NaN. -/
def mean (acc : ε → K) (l : List ε) : Option K :=
  if l.length = 0 then none else some (sum acc l / (l.length : K))

/-- rms, statistics.h:198-213; `sqrt` is std::sqrt. -/
def rms (sqrt : K → K) (acc : ε → K) (l : List ε) : Option K :=
  if l.length = 0 then none
  else some (sqrt (l.foldl (fun accu el => accu + (acc el) ^ 2) 0 / (l.length : K)))

/-- standard_deviation, statistics.h:545-572: sigma and mean. -/
def standardDeviation (sqrt : K → K) (acc : ε → K) (l : List ε) : Option K × Option K :=
  if l.length = 0 then (none, none)
  else match mean acc l with
    | none => (none, none)
    | some m =>
      if l.length = 1 then (none, some m)
      else
        let s := l.foldl (fun accu el => accu + (acc el - m) ^ 2) 0
        (some (sqrt (s / ((l.length - 1 : Nat) : K))), some m)

/-- std::nth_element: any function that permutes the range so that the elements before position `n` are
not greater and those after it not less than the one at `n`. std::nth_element, statistics.h:265, 271. -/
structure NthElement (K : Type) [LinearOrder K] where
  run : List K → Nat → List K
  perm : ∀ l n, (run l n).Perm l
  lower : ∀ l n x, (run l n)[n]? = some x → ∀ y ∈ (run l n).take n, y ≤ x
  upper : ∀ l n x, (run l n)[n]? = some x → ∀ y ∈ (run l n).drop (n + 1), x ≤ y

omit [Field K] in
/-- median, statistics.h:239-276, for a result type `R` with its conversion, halving and addition.
`none` is the NaN returned for an empty container. -/
def median {R : Type} (N : NthElement K) (conv : K → R) (half : R → R) (add : R → R → R)
    (acc : ε → K) (l : List ε) : Option R :=
  let len := l.length
  if len = 0 then none
  else
    let d := N.run (l.map acc) (len / 2)
    d[len / 2]?.bind fun m =>
    let med := conv m
    if len % 2 = 0 then
      let d := N.run d (len / 2 - 1)
      d[len / 2 - 1]?.map fun m' => add (half med) (half (conv m'))
    else some med

/-- std::max_element after the first element: `best` is the largest so far, at index `bi`.
std::max_element, statistics.h:479. -/
def maxElementFrom {ε : Type} (lt : ε → ε → Bool) (best : ε) (bi i : Nat) : List ε → Nat
  | [] => bi
  | x :: r => if lt best x then maxElementFrom lt x i (i + 1) r
      else maxElementFrom lt best bi (i + 1) r

/-- std::max_element: index of the first largest element (the length if there is none).
std::max_element, statistics.h:479. -/
def maxElement {ε : Type} (lt : ε → ε → Bool) : List ε → Nat
  | [] => 0
  | x :: r => maxElementFrom lt x 0 1 r

/-- remove_outliers, statistics.h:469-481.  The overload for constant containers
(statistics.h:495-505) does the same on a copy. -/
def removeOutliers (acc : ε → K) : Nat → List ε → List ε
  | 0, cont => cont
  | outliers + 1, cont =>
      match mean acc cont with
      | none => cont
      | some m =>
        let i := maxElement (fun a b => decide (|acc a - m| < |acc b - m|)) cont
        removeOutliers acc outliers (cont.eraseIdx i)

/-- Arithmetic values as far as minimum and maximum see them: `le` is `<=`. -/
structure Ordered (α : Type) where
  le : α → α → Bool
  /-- the initial value of maximum: NaN if there is one, otherwise the lowest value -/
  bottom : α
  /-- the initial value of minimum -/
  top : α

/-- Values of a floating-point type. -/
def floats : Ordered NumUtil.FV := ⟨NumUtil.FV.le, .nan, .nan⟩

/-- Values of an integer type. -/
def ints (t : IntTy) : Ordered Int := ⟨fun a b => decide (a ≤ b), t.minVal, t.maxVal⟩

variable {α : Type}

/-- maximum, statistics.h:308-330.  `val == val` is true unless val is NaN, as is `val <= val`. -/
def maximum (o : Ordered α) (acc : ε → α) (l : List ε) : α :=
  l.foldl (fun accu el =>
    let val := acc el
    if o.le val val then (if !(o.le val accu) then val else accu) else accu) o.bottom

/-- minimum, statistics.h:362-384. -/
def minimum (o : Ordered α) (acc : ε → α) (l : List ε) : α :=
  l.foldl (fun accu el =>
    let val := acc el
    if o.le val val then (if !(o.le accu val) then val else accu) else accu) o.top

/-- min_max, statistics.h:421-447, with the initial values of MinMax, statistics.h:76-86. -/
def minMax (o : Ordered α) (acc : ε → α) (l : List ε) : α × α :=
  l.foldl (fun out el =>
    let val := acc el
    if o.le val val then
      let out := if !(o.le out.1 val) then (val, out.2) else out
      if !(o.le val out.2) then (out.1, val) else out
    else out) (o.top, o.bottom)

end Gul14.Statistics
