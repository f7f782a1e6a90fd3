import Verif.Date.ParseNamesProps
import Verif.Date.ParseWordsProps

/-!
# Names without std::locale (ONLY_C_LOCALE), date.h:4403-4584

If the macro ONLY_C_LOCALE is set, names of weekdays, of months and of the halves of a day come from tables, and they are
read by scan_keyword: "While there might be a match, test keywords against the next character".
-/
namespace Gul14.Date.Keyword
open Gul14.Spec.DateFormat Gul14.Spec.DateParse

/-! ## The tables -/

/-- weekday_names, date.h:4408-4430. -/
def weekdayNames : List (List Char) :=
  ["Sunday", "Monday", "Tuesday", "Wednesday", "Thursday", "Friday", "Saturday",
   "Sun", "Mon", "Tue", "Wed", "Thu", "Fri", "Sat"].map String.toList

/-- month_names, date.h:4432-4464. -/
def monthNames : List (List Char) :=
  ["January", "February", "March", "April", "May", "June", "July", "August", "September", "October", "November",
   "December", "Jan", "Feb", "Mar", "Apr", "May", "Jun", "Jul", "Aug", "Sep", "Oct", "Nov", "Dec"].map String.toList

/-- ampm_names, date.h:4466-4476. -/
def ampmNames : List (List Char) := ["AM", "PM"].map String.toList

/-! ## scan_keyword -/

/-- The status of a keyword: doesnt_match, might_match, does_match, date.h:4483-4485. -/
inductive Status where
  | no | might | does
  deriving DecidableEq, Repr

/-- The initial statuses and the counters n_might_match and n_does_match, date.h:4495-4510. -/
def start : List (List Char) → Nat → Nat → List (List Char × Status) × Nat × Nat
  | [], nm, nd => ([], nm, nd)
  | k :: r, nm, nd =>
      if k ≠ [] then
        let (t, nm, nd) := start r nm nd
        ((k, .might) :: t, nm, nd)
      else
        let (t, nm, nd) := start r (nm - 1) (nd + 1)
        ((k, .does) :: t, nm, nd)

/-- The loop over the keywords for the character `c`, already converted by toupper (of the C locale), date.h:4529-4550.
Reading behind the end of a keyword is `ub`.  (In C++ the character just behind the end may be read; this is not used.) -/
def test (c : Char) (indx : Nat) : List (List Char × Status) → Bool → Nat → Nat →
    Res (List (List Char × Status) × Bool × Nat × Nat)
  | [], consume, nm, nd => .ok ([], consume, nm, nd)
  | (k, .might) :: r, consume, nm, nd =>
      match k[indx]? with
      | none => .ub
      | some x =>
          if c = x.toUpper then
            if k.length = indx + 1 then
              (test c indx r true (nm - 1) (nd + 1)).map fun (t, rest) => ((k, .does) :: t, rest)
            else (test c indx r true nm nd).map fun (t, rest) => ((k, .might) :: t, rest)
          else (test c indx r consume (nm - 1) nd).map fun (t, rest) => ((k, .no) :: t, rest)
  | (k, s) :: r, consume, nm, nd => (test c indx r consume nm nd).map fun (t, rest) => ((k, s) :: t, rest)

/-- Keywords that matched before are marked as not matching, date.h:4560-4568. -/
def unmark (indx : Nat) : List (List Char × Status) → Nat → List (List Char × Status) × Nat
  | [], nd => ([], nd)
  | (k, s) :: r, nd =>
      if s = .does ∧ k.length ≠ indx + 1 then
        let (t, nd) := unmark indx r (nd - 1)
        ((k, .no) :: t, nd)
      else
        let (t, nd) := unmark indx r nd
        ((k, s) :: t, nd)

/-- The loop over the characters, date.h:4511-4571. -/
def loop : Nat → Nat → IStream → List (List Char × Status) → Nat → Nat → Res (IStream × List (List Char × Status))
  | 0, _, _, _, _, _ => .diverge
  | fuel + 1, indx, is, t, nm, nd =>
      if !is.fail && nm > 0 then
        match is.peek with
        | (none, is) => .ok ({ is with eof := true }, t)
        | (some c, is) =>
            (test c.toUpper indx t false nm nd).bind fun (t, consume, nm, nd) =>
              if consume then
                let is := is.get.2
                if nm + nd > 1 then
                  let (t, nd) := unmark indx t nd
                  loop fuel (indx + 1) is t nm nd
                else loop fuel (indx + 1) is t nm nd
              else loop fuel (indx + 1) is t nm nd
      else .ok (is, t)

/-- The first keyword that matches, date.h:4574-4576. -/
def firstMatch : List (List Char × Status) → Nat
  | [] => 0
  | (_, s) :: r => if s = .does then 0 else firstMatch r + 1

/-- scan_keyword, date.h:4478-4580: the position of the keyword (the number of keywords if none matches) and the stream.
The array for the statuses is large enough (date.h:4486-4494); it is not modelled. -/
def scanKeyword (kws : List (List Char)) (is : IStream) : Res (Nat × IStream) :=
  let (t, nm, nd) := start kws kws.length 0
  (loop (is.rest.length + 2) 0 is t nm nd).map fun (is, t) =>
    let i := firstMatch t
    (i, if i = kws.length then is.setFail else is)

/-! ## The conversions -/

/-- `%a` and `%A` in from_stream, date.h:6197-6200, 6252-6253. -/
def readWeekday (st : PState) : Res PState :=
  (scanKeyword weekdayNames st.is).map fun (i, is) =>
    let st := { st with is := is }
    let trial : Int := if is.fail then 8 else (i % 7 : Nat)
    if trial ≠ 8 then setwd trial st else st

/-- `%b`, `%B` and `%h` in from_stream, date.h:6268, 6276-6281. -/
def readMonth (st : PState) : Res PState :=
  (scanKeyword monthNames st.is).map fun (i, is) =>
    let st := { st with is := is }
    setm (if is.fail then 0 else (i % 12 + 1 : Nat)) st

/-- `%p` in from_stream, date.h:6728-6732. -/
def readHalf (st : PState) : Res PState :=
  (scanKeyword ampmNames st.is).map fun (i, is) => setp i { st with is := is }

/-- A name from a table; an index outside of it is `ub`. -/
def name (table : List (List Char)) (i : Int) : Res (List Char) :=
  if i < 0 then .ub else match table[i.toNat]? with
    | some s => .ok s
    | none => .ub

/-- `%a` and `%A` in to_stream, date.h:4634, for the weekday that extract_weekday returned. -/
def writeWeekday (wday : Int) (c : Char) : Res (List Char) :=
  name weekdayNames (wday + 7 * (if c = 'a' then 1 else 0))

/-- `%b`, `%B` and `%h` in to_stream, date.h:4654 and 4659, for the month `m`; extract_month (date.h:4389-4399) returns 0
for an invalid one and sets failbit, which is not tested. -/
def writeMonth (m : Nat) (c : Char) : Res (List Char) :=
  name monthNames ((if 1 ≤ m ∧ m ≤ 12 then (m : Int) else 0) - 1 + 12 * (if c ≠ 'B' then 1 else 0))

/-- `%p` in to_stream, date.h:5094-5097, with is_am, date.h:3727-3732. -/
def writeHalf (hour : Int) : Res (List Char) := name ampmNames (if 0 ≤ hour ∧ hour < 12 then 0 else 1)

end Gul14.Date.Keyword
