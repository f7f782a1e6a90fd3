import Verif.Statistics.Model
import Verif.Ieee.Sqrt
import Verif.NumUtil.Ulp

/-!
# Model of include/gul14/statistics.h in IEEE 754 arithmetic

`f` is the format of the result type `ResultT` (float, double or long double), `acc` gives the
value of an element; it may be of another floating-point format or an integer (its exact value).
`static_cast<ResultT>` rounds it to the format.
-/
namespace Gul14.Statistics
open Ieee

variable {ε : Type}

/-- std::accumulate with the lambda of mean, statistics.h:168-173. -/
def fsum (f : Format) (acc : ε → Fl) (l : List ε) : Fl :=
  l.foldl (fun accu el => f.add accu (f.conv (acc el))) (.num 0)

/-- mean, statistics.h:160-175. -/
def fmean (f : Format) (acc : ε → Fl) (l : List ε) : Fl :=
  f.div (fsum f acc l) (f.conv (.num l.length))

/-- `std::pow(x, 2)` in a format: any function whose result is within one unit in the last place
(correct rounding is not demanded by the standard). std::pow(x, 2), statistics.h:211, 567. -/
structure Square (g : Format) where
  run : Fl → Fl
  /-- the result is finite and accurate if it does not overflow -/
  num : ∀ x, g.Rep x → (1 + 2 / 2 ^ g.p) * x ^ 2 + (2 : ℚ) ^ g.emin ≤ g.max →
    ∃ s, run (.num x) = .num s ∧ |s - x ^ 2| ≤ 2 / 2 ^ g.p * x ^ 2 + (2 : ℚ) ^ g.emin
  /-- a square is a number of the format that is not negative, or positive infinity -/
  range : ∀ x, run (.num x) = .inf false ∨ ∃ s, run (.num x) = .num s ∧ 0 ≤ s ∧ g.Rep s
  zero : run (.num 0) = .num 0
  inf : ∀ b, run (.inf b) = .inf false
  nan : run .nan = .nan

/-- `accu + std::pow(x, 2)`, assigned to the accumulator. With the integer exponent std::pow computes in
the format `g`, which is that of double if `f` is that of float and `f` otherwise; the sum is then
computed in `g` and rounded to `f` when it is assigned (std::accumulate). statistics.h:211, 567. -/
def addSq (f g : Format) (sq : Square g) (accu x : Fl) : Fl := f.conv (g.add accu (sq.run x))

/-- rms, statistics.h:198-213. -/
def frms (f g : Format) (sq : Square g) (acc : ε → Fl) (l : List ε) : Fl :=
  f.sqrt (f.div (l.foldl (fun accu el => addSq f g sq accu (f.conv (acc el))) (.num 0))
    (f.conv (.num l.length)))

/-- standard_deviation, statistics.h:545-572: sigma and mean. -/
def fstandardDeviation (f g : Format) (sq : Square g) (acc : ε → Fl) (l : List ε) : Fl × Fl :=
  if l.length = 0 then (.nan, .nan)
  else
    let m := fmean f acc l
    if l.length = 1 then (.nan, m)
    else
      let s := l.foldl (fun accu el => addSq f g sq accu (f.sub (f.conv (acc el)) m)) (.num 0)
      (f.sqrt (f.div s (f.conv (.num ((l.length - 1 : Nat) : ℚ)))), m)

/-- median, statistics.h:239-276, of data that are not NaN and not infinite. -/
def fmedian (N : NthElement ℚ) (f : Format) (acc : ε → ℚ) (l : List ε) : Option Fl :=
  median N (fun x => f.conv (.num x)) (fun x => f.div x (.num 2)) f.add acc l

/-- remove_outliers, statistics.h:469-481; `f` is the format of double, the result type of mean,
and of `accessor(a) - mean` (data of type long double are not covered). -/
def fremoveOutliers (f : Format) (acc : ε → Fl) : Nat → List ε → List ε
  | 0, cont => cont
  | outliers + 1, cont =>
      if cont.length = 0 then cont
      else
        let m := fmean f acc cont
        let i := maxElement (fun a b => Fl.lt (f.sub (f.conv (acc a)) m).abs
          (f.sub (f.conv (acc b)) m).abs) cont
        fremoveOutliers f acc outliers (cont.eraseIdx i)

end Gul14.Statistics
