import Verif.Date.TextPartsProps
import Verif.Date.Format

/-!
# C123: the state of the stream to which dates and times are written

`os << x` for the calendar classes, times of day, points in time and durations, on a stream with any flags, fill
character, width, precision and locale.  The stream is good and its buffer takes every character.
-/
namespace Gul14.Date.Out
open Gul14.Date.Parts Gul14.Spec.DateText

/-! ### The stream -/

/-- `std::ios::basefield`; no code in /repo. -/
inductive Base where
  | none | dec | hex | oct
  deriving DecidableEq, Repr

/-- `std::ios::adjustfield`; no code in /repo. -/
inductive Adjust where
  | none | left | right | internal
  deriving DecidableEq, Repr

/-- The flags of a stream; `other` are those that play no role for integers and text. Library; no code in /repo. -/
structure Flags where
  base : Base
  adjust : Adjust
  showpos : Bool
  showbase : Bool
  uppercase : Bool
  other : Nat
  deriving DecidableEq, Repr

/-- What is used of a locale: how digits are grouped, the decimal point, the names of months and weekdays. Library; no
code in /repo. -/
structure Loc where
  group : List Char → List Char
  point : Char
  names : Names

/-- An output stream: what has been written and the state of formatting. Library; no code in /repo. -/
structure OS where
  out : List Char
  fill : Char
  flags : Flags
  width : Nat
  precision : Nat
  loc : Loc

/-- The names of the classic locale; no code in /repo. -/
def classicNames : Names where
  mon m := (["Jan", "Feb", "Mar", "Apr", "May", "Jun", "Jul", "Aug", "Sep", "Oct", "Nov", "Dec"].getD (m - 1) "").toList
  wd w := (["Sun", "Mon", "Tue", "Wed", "Thu", "Fri", "Sat"].getD w "").toList

/-- `std::locale::classic()`; no code in /repo. -/
def classic : Loc := ⟨id, '.', classicNames⟩

/-- Padding to the width, which is zero afterwards; with `internal` the fill characters follow the first `cut` characters. Library; no
code in /repo. -/
def OS.insert (os : OS) (s : List Char) (cut : Nat) : OS :=
  let k := List.replicate (os.width - s.length) os.fill
  let t := match os.flags.adjust with
    | .left => s ++ k
    | .internal => s.take cut ++ (k ++ s.drop cut)
    | _ => k ++ s
  { os with out := os.out ++ t, width := 0 }

/-- `os << s` for a string or character: `internal` pads on the left. Library; no code in /repo. -/
def OS.text (os : OS) (s : List Char) : OS := os.insert s 0

/-- A hexadecimal or octal digit. Library; no code in /repo. -/
def digitIn (up : Bool) (n : Nat) : Char :=
  if n < 10 then Char.ofNat (48 + n) else Char.ofNat ((if up then 55 else 87) + n)

/-- A number in a base. Library; no code in /repo. -/
def digitsIn (b : Nat) (up : Bool) : Nat → Nat → List Char
  | 0, n => [digitIn up (n % b)]
  | fuel + 1, n => if n < b then [digitIn up n] else digitsIn b up fuel (n / b) ++ [digitIn up (n % b)]

/-- The characters of an integer of a type with that many bits, and how many of them are a sign or 0x (std::num_put). Library; no code in
/repo. -/
def numeral (f : Flags) (l : Loc) (signed : Bool) (bits : Nat) (n : Int) : List Char × Nat :=
  let m := (n % 2 ^ bits).toNat
  match f.base with
  | .hex =>
    let d := l.group (digitsIn 16 f.uppercase m m)
    if f.showbase && m ≠ 0 then ('0' :: (if f.uppercase then 'X' else 'x') :: d, 2) else (d, 0)
  | .oct =>
    let d := l.group (digitsIn 8 false m m)
    if f.showbase && m ≠ 0 then ('0' :: d, 0) else (d, 0)
  | _ =>
    let d := l.group (dec n.natAbs)
    if n < 0 then ('-' :: d, 1) else if f.showpos && signed then ('+' :: d, 1) else (d, 0)

/-- `os << n` for an int (32 bits) or the count of a duration (64 bits). Library; no code in /repo. -/
def OS.int (os : OS) (bits : Nat) (n : Int) : OS :=
  let t := numeral os.flags os.loc true bits n
  os.insert t.1 t.2

/-- `os << n` for an unsigned int. Library; no code in /repo. -/
def OS.nat (os : OS) (n : Nat) : OS :=
  let t := numeral os.flags os.loc false 32 n
  os.insert t.1 t.2

/-- An object of class save_ostream that exists while `f` runs, date.h:964-1032: the width is set to zero, and everything is
set back in the end.  The tied stream and `unitbuf` are not modelled. -/
def OS.saving (os : OS) (f : OS → OS) : OS :=
  let os' := f { os with width := 0 }
  { os' with fill := os.fill, flags := os.flags, precision := os.precision, width := os.width, loc := os.loc }

/-- `std::ios::dec | std::ios::right`, date.h:1429. -/
def decRight : Flags := ⟨.dec, .right, false, false, false, 0⟩

/-! ### The calendar classes -/

/-- low_level_fmt(day), date.h:1423-1433. -/
def dayOut (os : OS) (d : UInt8) : OS :=
  os.saving fun os => ({ os with fill := '0', flags := decRight, width := 2 }).nat d.toNat

/-- low_level_fmt(month), date.h:1539-1551: the name in the locale of the stream. -/
def monthOut (os : OS) (m : UInt8) : OS := if monthOk m then os.text (os.loc.names.mon m.toNat) else os.nat m.toNat

/-- low_level_fmt(year), date.h:1655-1667. -/
def yearOut (os : OS) (y : Int16) : OS :=
  os.saving fun os =>
    ({ os with fill := '0', flags := ⟨.dec, .internal, false, false, false, 0⟩, width := 4 + (if y.toInt < 0 then 1 else 0), loc := classic }).int 32 y.toInt

/-- low_level_fmt(weekday), date.h:1780-1792: the name in the global locale `G`. -/
def weekdayOut (G : Names) (os : OS) (w : UInt8) : OS := if weekdayOk w then os.text (G.wd w.toNat) else os.nat w.toNat

/-- low_level_fmt(weekday_indexed), date.h:1909-1914. -/
def wiOut (G : Names) (os : OS) (x : WI) : OS := (((weekdayOut G os x.weekday).text ['[']).nat x.idx.toNat).text [']']

/-- low_level_fmt(weekday_last), date.h:1968-1973. -/
def wlOut (G : Names) (os : OS) (w : UInt8) : OS := (weekdayOut G os w).text "[last]".toList

/-- The first lines of operator<<(year_month_day), date.h:2753-2761, with `note` for 2762-2763. -/
def ymdOut (os : OS) (y : Int16) (m d : UInt8) (note : List Char) : OS :=
  os.saving fun os =>
    let os := { os with fill := '0', flags := decRight, loc := classic }
    let os := (os.int 32 y.toInt).text ['-']
    let os := (({ os with width := 2 }).nat m.toNat).text ['-']
    let os := ({ os with width := 2 }).nat d.toNat
    if note = [] then os else os.text note

/-- low_level_fmt of the classes other than year_month_day, and the first lines of operator<< of year_month_weekday and
year_month_weekday_last; date.h:2127-2133, 2213-2219, 2279-2284, 2337-2343, 2396-2402, 2539-2545, 2972-2974 and
3131-3133. -/
def baseOut (G : Names) (os : OS) : Obj → OS
  | .int n => os.int 32 n
  | .last => os.text "last".toList
  | .day d => dayOut os d
  | .month m => monthOut os m
  | .year y => yearOut os y
  | .wi x => wiOut G os x
  | .wl w => wlOut G os w
  | .ym y m => monthOut ((yearOut os y).text ['/']) m
  | .md m d => dayOut ((monthOut os m).text ['/']) d
  | .ml m => (monthOut os m).text "/last".toList
  | .mw m x => wiOut G ((monthOut os m).text ['/']) x
  | .mwl m w => wlOut G ((monthOut os m).text ['/']) w
  | .ymd y m d => ymdOut os y m d []
  | .yml y m => (monthOut ((yearOut os y).text ['/']) m).text "/last".toList
  | .ymw y m x => wiOut G ((monthOut ((yearOut os y).text ['/']) m).text ['/']) x
  | .ymwl y m w => wlOut G ((monthOut ((yearOut os y).text ['/']) m).text ['/']) w

/-- operator<< of the calendar classes, date.h:1437-1445, 1555-1563, 1671-1679, 1918-1926, 1977-1985, 2137-2145, 2223-2231,
2288-2296, 2347-2355, 2406-2414, 2549-2557, 2748-2765, 2967-2978, 3126-3137: the note is written with the state that the
stream has then; for year_month_day it is written before the state is set back. -/
def objOut (G : Names) (os : OS) (o : Obj) : Res OS := do
  let ok ← objOk o
  let note := if ok then [] else (" is not a valid " ++ className o).toList
  match o with
  | .ymd y m d => pure (ymdOut os y m d note)
  | o => pure (if ok then baseOut G os o else (baseOut G os o).text note)

/-- operator<<(weekday), date.h:1796-1805. -/
def weekdayObjOut (G : Names) (os : OS) (w : UInt8) : OS :=
  if weekdayOk w then weekdayOut G os w else (weekdayOut G os w).text " is not a valid weekday".toList

/-! ### Times -/

/-- decimal_format_seconds::print, date.h:3599-3621. -/
def secOut (T : Nat) (os : OS) (x : HMS) : OS :=
  os.saving fun os =>
    let os := ({ os with fill := '0', flags := decRight, width := 2 }).int 64 x.s
    if fractionalWidth T > 0 then
      (os.text [os.loc.point]).saving fun os => ({ os with loc := classic, width := fractionalWidth T }).int 64 x.sub
    else os

/-- operator<<(hh_mm_ss), date.h:3696-3710. -/
def hmsOut (T : Nat) (os : OS) (x : HMS) : OS :=
  let os := if x.neg then os.text ['-'] else os
  let os := if x.h < 10 then os.text ['0'] else os
  let os := (os.int 64 x.h).text [':']
  let os := if x.m < 10 then os.text ['0'] else os
  let os := (os.int 64 x.m).text [':']
  secOut T os x

/-- operator<< of sys_days, date.h:3796-3802. -/
def sysDaysOut (os : OS) (n : Int) : Res OS := do
  let x ← fromDays n
  objOut classicNames os (.ymd x.y x.m x.d)

/-- operator<< of sys_time and local_time, date.h:3783-3794 and 3804-3810. -/
def sysOut (T : Nat) (os : OS) (c : Int) : Res OS := do
  let dp := floorTo 1 (86400 * T) c
  let os ← sysDaysOut os dp
  pure (hmsOut T (os.text [' ']) (hhmmss T (c - dp * (86400 * T))))

/-- operator<< of a duration, date.h:7748-7757: one string. -/
def durOut (os : OS) (count : Int) (n d : Nat) : OS := os.text (durText count n d)

/-- to_stream with a format string, date.h:4577-5305: the state is saved, then fill character, flags and width are set (4606-4609), and the
conversions write in this state what Format.lean says (with the facets of the locale of the stream, `put`).  If a conversion fails, the
characters before it have been written; this is not modelled. -/
def toStreamOut (put : Loc → Spec.DateFormat.TimePut) (os : OS) (f : Fields) (fmt : List Char) : Res OS := do
  let t ← formatFields (put os.loc) f fmt
  pure (os.saving fun os =>
    let os := { os with fill := ' ', flags := ⟨.dec, .none, false, false, false, 1⟩, width := 0 }
    os.text t)

end Gul14.Date.Out

/-! ### Specification -/

namespace Gul14.Spec.DateStream
open Gul14.Date.Out

/-- The same stream after it has received these characters: nothing else has changed. -/
def Appended (os : OS) (t : List Char) (os' : OS) : Prop :=
  os'.out = os.out ++ t ∧ os'.fill = os.fill ∧ os'.flags = os.flags ∧ os'.width = os.width ∧ os'.precision = os.precision ∧ os'.loc = os.loc

/-- The state of formatting but for the width is the same. -/
def SameState (os os' : OS) : Prop :=
  os'.fill = os.fill ∧ os'.flags = os.flags ∧ os'.precision = os.precision ∧ os'.loc = os.loc

/-- Digits are grouped by three or more, if at all. -/
def GroupsOfThree (l : Loc) : Prop := ∀ s : List Char, s.length ≤ 3 → l.group s = s

/-- Integers are written in base ten. -/
def Decimal (f : Flags) : Prop := f.base = .dec ∨ f.base = .none

/-- What the text `t` becomes if it is padded to a width: fill characters after it (`left`) or before it. -/
def Filled (os : OS) (t s : List Char) : Prop :=
  ∃ k, k = os.width - t.length ∧
    s = if os.flags.adjust = .left then t ++ List.replicate k os.fill else List.replicate k os.fill ++ t

end Gul14.Spec.DateStream

/-! ### Lemmas -/

namespace Gul14.Date.Out
open Gul14.Date.Parts Gul14.Spec.DateText Gul14.Spec.DateStream

/-- The stream with more characters. -/
def OS.add (os : OS) (t : List Char) : OS := { os with out := os.out ++ t }

theorem appended_iff {os os' : OS} {t : List Char} : Appended os t os' ↔ os' = os.add t := by
  obtain ⟨a, b, c, d, e, f⟩ := os
  obtain ⟨a', b', c', d', e', f'⟩ := os'
  simp only [Appended, OS.add, OS.mk.injEq]

theorem add_add (os : OS) (s t : List Char) : (os.add s).add t = os.add (s ++ t) := by simp [OS.add]

theorem insert_zero {os : OS} (h : os.width = 0) (s : List Char) (cut : Nat) : os.insert s cut = os.add s := by
  obtain ⟨a, b, c, d, e, f⟩ := os
  simp only at h
  subst h
  simp only [OS.insert, OS.add, Nat.zero_sub, List.replicate_zero, List.append_nil, List.nil_append, List.take_append_drop]
  split <;> rfl

theorem text_zero {os : OS} (h : os.width = 0) (s : List Char) : os.text s = os.add s := insert_zero h s 0

theorem numeral_dec {f : Flags} {l : Loc} (hf : Decimal f) (hl : GroupsOfThree l) (n : Nat) (hn : (dec n).length ≤ 3) :
    numeral f l false 32 n = (dec n, 0) := by
  unfold numeral
  rcases hf with h | h <;> simp [h, hl _ hn]

theorem dec_u8 : ∀ d : UInt8, (dec d.toNat).length ≤ 3 := by
  intro d
  have h : ∀ n : Fin 256, (dec n.val).length ≤ 3 := by decide +kernel
  exact h ⟨d.toNat, d.toNat_lt⟩

theorem nat_zero {os : OS} (h : os.width = 0) (hf : Decimal os.flags) (hl : GroupsOfThree os.loc) (d : UInt8) :
    os.nat d.toNat = os.add (dec d.toNat) := by
  unfold OS.nat
  rw [numeral_dec hf hl _ (dec_u8 d)]
  exact insert_zero h _ _

theorem groups_classic : GroupsOfThree classic := fun _ _ => rfl

theorem numeral_classic (f : Flags) (hf : f.base = .dec) (hp : f.showpos = false) (b : Bool) (k : Nat) (n : Int) :
    numeral f classic b k n = (decInt n, if n < 0 then 1 else 0) := by
  unfold numeral decInt
  simp only [hf, hp, classic, id, Bool.false_and, Bool.false_eq_true, if_false]
  split <;> rfl

theorem dayOut_eq {os : OS} (hl : GroupsOfThree os.loc) (d : UInt8) : dayOut os d = os.add (dayBase d) := by
  unfold dayOut OS.saving OS.nat
  simp only
  rw [numeral_dec (Or.inl rfl) hl _ (dec_u8 d)]
  rfl

theorem yearOut_eq (os : OS) (y : Int16) : yearOut os y = os.add (yearBase y) := by
  unfold yearOut OS.saving OS.int
  simp only
  rw [numeral_classic _ rfl rfl]
  unfold yearBase decInt OS.insert OS.add pad
  by_cases h : y.toInt < 0
  · simp only [h, if_true, List.length_cons, List.take_succ_cons, List.take_zero, List.drop_succ_cons, List.drop_zero]
    rw [show 4 + 1 - ((dec y.toInt.natAbs).length + 1) = 4 - (dec y.toInt.natAbs).length by omega]
    rfl
  · simp only [h, if_false, List.take_zero, List.drop_zero, List.nil_append]

theorem int_dec {os : OS} (hw : os.width = 0) (hf : os.flags.base = .dec) (hp : os.flags.showpos = false) (hl : os.loc = classic) (k : Nat) (n : Int) :
    os.int k n = os.add (decInt n) := by
  unfold OS.int
  rw [hl, numeral_classic _ hf hp]
  exact insert_zero hw _ _

theorem nat_two {os : OS} (hw : os.width = 0) (hc : os.fill = '0') (hf : os.flags = decRight) (hl : GroupsOfThree os.loc) (d : UInt8) :
    ({ os with width := 2 } : OS).nat d.toNat = os.add (pad 2 (dec d.toNat)) := by
  obtain ⟨a, b, c, w, e, f⟩ := os
  simp only at hw hc hf hl
  subst hw hc hf
  unfold OS.nat
  simp only
  rw [numeral_dec (Or.inl rfl) hl _ (dec_u8 d)]
  rfl

theorem ymdOut_eq (os : OS) (y : Int16) (m d : UInt8) (note : List Char) :
    ymdOut os y m d note = os.add (decInt y.toInt ++ '-' :: (pad 2 (dec m.toNat) ++ '-' :: pad 2 (dec d.toNat)) ++ note) := by
  have key : ∀ o : OS, o.width = 0 → o.fill = '0' → o.flags = decRight → o.loc = classic →
      (let o := (o.int 32 y.toInt).text ['-']
       let o := (({ o with width := 2 } : OS).nat m.toNat).text ['-']
       let o := ({ o with width := 2 } : OS).nat d.toNat
       if note = [] then o else o.text note) =
      o.add (decInt y.toInt ++ '-' :: (pad 2 (dec m.toNat) ++ '-' :: pad 2 (dec d.toNat)) ++ note) := by
    intro o hw hc hf hl
    have hg : GroupsOfThree o.loc := by rw [hl]; exact groups_classic
    have e1 : (o.int 32 y.toInt).text ['-'] = o.add (decInt y.toInt ++ ['-']) := by
      rw [int_dec hw (by rw [hf]; rfl) (by rw [hf]; rfl) hl, text_zero (os := o.add _) hw, add_add]
    simp only [e1]
    rw [nat_two (os := o.add _) hw hc hf hg, text_zero (by exact hw), add_add]
    rw [nat_two (os := (o.add _).add _) hw hc hf hg, add_add, add_add]
    by_cases h : note = []
    · simp [h]
    · rw [if_neg h, text_zero (by exact hw), add_add]
      simp
  exact congrArg (fun o : OS => ({ o with fill := os.fill, flags := os.flags, precision := os.precision, width := os.width, loc := os.loc } : OS))
    (key { os with width := 0, fill := '0', flags := decRight, loc := classic } rfl rfl rfl rfl)

/-- A stream on which all numbers of up to three digits are written as usual. -/
structure Plain (os : OS) : Prop where
  width : os.width = 0
  dec : Decimal os.flags
  groups : GroupsOfThree os.loc

theorem Plain.add {os : OS} (h : Plain os) (t : List Char) : Plain (os.add t) := ⟨h.width, h.dec, h.groups⟩

theorem text_plain {os : OS} (h : Plain os) (s : List Char) : os.text s = os.add s := text_zero h.width s

theorem monthOut_eq {os : OS} (h : Plain os) (N : Names) (hN : os.loc.names.mon = N.mon) (m : UInt8) : monthOut os m = os.add (monthBase N m) := by
  unfold monthOut monthBase
  split
  · rw [text_plain h, hN]
  · exact nat_zero h.width h.dec h.groups m

theorem weekdayOut_eq {os : OS} (h : Plain os) (G N : Names) (hN : G.wd = N.wd) (w : UInt8) : weekdayOut G os w = os.add (weekdayBase N w) := by
  unfold weekdayOut weekdayBase
  split
  · rw [text_plain h, hN]
  · exact nat_zero h.width h.dec h.groups w

theorem wiOut_eq {os : OS} (h : Plain os) (G N : Names) (hN : G.wd = N.wd) (x : WI) : wiOut G os x = os.add (wiBase N x) := by
  unfold wiOut wiBase
  rw [weekdayOut_eq h G N hN, text_plain (h.add _), add_add, nat_zero (os := os.add _) h.width h.dec h.groups, add_add,
    text_plain (h.add _), add_add]
  simp

theorem wlOut_eq {os : OS} (h : Plain os) (G N : Names) (hN : G.wd = N.wd) (w : UInt8) : wlOut G os w = os.add (wlBase N w) := by
  unfold wlOut wlBase
  rw [weekdayOut_eq h G N hN, text_plain (h.add _), add_add]

theorem baseOut_eq {os : OS} (h : Plain os) (G N : Names) (hN : G.wd = N.wd) (hm : os.loc.names.mon = N.mon) (o : Obj) (ho : o.isClass = true) :
    baseOut G os o = os.add (base N o) := by
  have D := fun t => dayOut_eq (os := os.add t) h.groups
  have Mo := fun t => monthOut_eq (h.add t) N hm
  have T := fun t => text_plain (h.add t)
  have WI := fun t => wiOut_eq (h.add t) G N hN
  have WL := fun t => wlOut_eq (h.add t) G N hN
  cases o with
  | int n => cases ho
  | last => cases ho
  | day d => exact dayOut_eq h.groups d
  | month m => exact monthOut_eq h N hm m
  | year y => exact yearOut_eq os y
  | wi x => exact wiOut_eq h G N hN x
  | wl w => exact wlOut_eq h G N hN w
  | ym y m => simp only [baseOut, base, yearOut_eq, T, add_add, Mo]; simp
  | md m d => simp only [baseOut, base, monthOut_eq h N hm, T, add_add, D]; simp
  | ml m => simp only [baseOut, base, monthOut_eq h N hm, T, add_add]
  | mw m x => simp only [baseOut, base, monthOut_eq h N hm, T, add_add, WI]; simp
  | mwl m w => simp only [baseOut, base, monthOut_eq h N hm, T, add_add, WL]; simp
  | ymd y m d => simp only [baseOut, base, ymdOut_eq]; simp
  | yml y m => simp only [baseOut, base, yearOut_eq, T, add_add, Mo]; simp
  | ymw y m x => simp only [baseOut, base, yearOut_eq, T, add_add, Mo, WI]; simp
  | ymwl y m w => simp only [baseOut, base, yearOut_eq, T, add_add, Mo, WL]; simp

theorem objOut_eq {os : OS} (h : Plain os) (G N : Names) (hN : G.wd = N.wd) (hm : os.loc.names.mon = N.mon) (o : Obj) (ho : o.isClass = true)
    {t : List Char} (ht : objText N o = .ok t) : objOut G os o = .ok (os.add t) := by
  unfold objText at ht
  unfold objOut
  cases hk : objOk o with
  | ok b =>
    rw [hk] at ht
    simp only [Res.ok_bind, Res.pure_eq, Res.ok.injEq] at ht ⊢
    subst ht
    by_cases hy : ∃ y m d, o = .ymd y m d
    · obtain ⟨y, m, d, rfl⟩ := hy
      simp only [ymdOut_eq, base]
    · have : baseOut G os o = os.add (base N o) := baseOut_eq h G N hN hm o ho
      cases o
      case ymd y m d => exact absurd ⟨y, m, d, rfl⟩ hy
      all_goals
        cases b
        · simp only [this, Bool.false_eq_true, if_false]
          rw [text_plain (h.add _), add_add]
        · simp only [this, if_true, List.append_nil]
  | throw _ => rw [hk] at ht; cases ht
  | terminate => rw [hk] at ht; cases ht
  | ub => rw [hk] at ht; cases ht
  | diverge => rw [hk] at ht; cases ht

/-! ### Times -/

theorem dec_small {n : Nat} (h : n < 1000) : (dec n).length ≤ 3 := by
  have key : ∀ k : Fin 1000, (dec k.val).length ≤ 3 := by decide +kernel
  exact key ⟨n, h⟩

theorem int_plain {os : OS} (hw : os.width = 0) (hf : Decimal os.flags) (hp : os.flags.showpos = false) {n : Int} (k : Nat)
    (hl : os.loc.group (dec n.natAbs) = dec n.natAbs) : os.int k n = os.add (decInt n) := by
  unfold OS.int
  have : (numeral os.flags os.loc true k n).1 = decInt n := by
    unfold numeral decInt
    rcases hf with h | h <;> simp only [h, hp, hl, Bool.false_and, Bool.false_eq_true, if_false] <;> split <;> rfl
  rw [insert_zero hw, this]

theorem int_pad {os : OS} (hc : os.fill = '0') (hf : os.flags = decRight) {n : Int} (k : Nat)
    (hl : os.loc.group (dec n.natAbs) = dec n.natAbs) : os.int k n = ({ os with width := 0 } : OS).add (pad os.width (decInt n)) := by
  have : (numeral os.flags os.loc true k n).1 = decInt n := by
    unfold numeral decInt
    simp only [hf, decRight, hl, Bool.false_and, Bool.false_eq_true, if_false]
    split <;> rfl
  unfold OS.int OS.insert
  simp only [this]
  simp only [hf, decRight, OS.add, pad, hc]

theorem secOut_eq (T : Nat) (os : OS) (x : HMS) (hl : os.loc.group (dec x.s.natAbs) = dec x.s.natAbs) (hp : os.loc.point = '.') :
    secOut T os x = os.add (x.secText T) := by
  have e1 : (({ { os with width := 0 } with fill := '0', flags := decRight, width := 2 } : OS).int 64 x.s) =
      ({ os with width := 0, fill := '0', flags := decRight } : OS).add (pad 2 (decInt x.s)) := int_pad rfl rfl 64 hl
  unfold secOut HMS.secText
  by_cases hT : fractionalWidth T > 0
  · have e2 : (({ os with width := 0, fill := '0', flags := decRight } : OS).add (pad 2 (decInt x.s))).text ['.'] =
        ({ os with width := 0, fill := '0', flags := decRight } : OS).add (pad 2 (decInt x.s) ++ ['.']) := by
      rw [text_zero rfl, add_add]
    have e3 : ∀ o : OS, o.fill = '0' → o.flags = decRight → o.loc = classic → o.int 64 x.sub = ({ o with width := 0 } : OS).add (pad o.width (decInt x.sub)) :=
      fun o h1 h2 h3 => int_pad h1 h2 64 (by rw [h3]; rfl)
    unfold OS.saving
    simp only [e1, if_pos hT]
    rw [show (({ os with width := 0, fill := '0', flags := decRight } : OS).add (pad 2 (decInt x.s))).loc.point = '.' from hp, e2]
    rw [e3 _ rfl rfl rfl]
    simp [OS.add]
  · unfold OS.saving
    simp only [e1, if_neg hT]
    simp [OS.add]

theorem hmsOut_eq (T : Nat) {os : OS} (hw : os.width = 0) (hf : Decimal os.flags) (hs : os.flags.showpos = false) (hp : os.loc.point = '.') (x : HMS)
    (h1 : os.loc.group (dec x.h.natAbs) = dec x.h.natAbs) (h2 : os.loc.group (dec x.m.natAbs) = dec x.m.natAbs)
    (h3 : os.loc.group (dec x.s.natAbs) = dec x.s.natAbs) : hmsOut T os x = os.add (x.text T) := by
  have a : (if x.neg = true then os.text ['-'] else os) = os.add (if x.neg = true then ['-'] else []) := by
    split
    · exact text_zero hw _
    · simp [OS.add]
  have b : ∀ (p : Prop) [Decidable p] (t : List Char), (if p then (os.add t).text ['0'] else os.add t) = os.add (t ++ if p then ['0'] else []) := by
    intro p _ t
    split
    · rw [text_zero (os := os.add t) hw, add_add]
    · simp
  have c : ∀ t n, os.loc.group (dec n.natAbs) = dec n.natAbs → ((os.add t).int 64 n).text [':'] = os.add (t ++ (decInt n ++ [':'])) := by
    intro t n h
    rw [int_plain (os := os.add t) hw hf hs 64 h, text_zero (os := (os.add t).add _) hw, add_add, add_add]
  unfold hmsOut
  simp only [a, b, c _ _ h1, c _ _ h2]
  rw [secOut_eq T (os.add _) x h3 hp, add_add]
  unfold HMS.text
  congr 1
  simp only [List.append_assoc, List.singleton_append, List.cons_append, List.nil_append]

/-! ### State -/

theorem same_refl (os : OS) : SameState os os := ⟨rfl, rfl, rfl, rfl⟩

theorem same_insert {a os : OS} (h : SameState a os) (s : List Char) (c : Nat) : SameState a (os.insert s c) := h
theorem same_text {a os : OS} (h : SameState a os) (s : List Char) : SameState a (os.text s) := h
theorem same_nat {a os : OS} (h : SameState a os) (n : Nat) : SameState a (os.nat n) := h
theorem same_int {a os : OS} (h : SameState a os) (k : Nat) (n : Int) : SameState a (os.int k n) := h
theorem same_saving {a os : OS} (h : SameState a os) (f : OS → OS) : SameState a (os.saving f) := h

theorem same_month {a os : OS} (h : SameState a os) (m : UInt8) : SameState a (monthOut os m) := by
  unfold monthOut; split <;> exact h

theorem same_weekday {a os : OS} (h : SameState a os) (G : Names) (w : UInt8) : SameState a (weekdayOut G os w) := by
  unfold weekdayOut; split <;> exact h

theorem same_wi {a os : OS} (h : SameState a os) (G : Names) (x : WI) : SameState a (wiOut G os x) :=
  same_weekday h G x.weekday

theorem same_wl {a os : OS} (h : SameState a os) (G : Names) (w : UInt8) : SameState a (wlOut G os w) :=
  same_weekday h G w

theorem same_base {a os : OS} (h : SameState a os) (G : Names) (o : Obj) : SameState a (baseOut G os o) := by
  have hm : ∀ m, SameState a ((monthOut os m).text ['/']) := same_month h
  have hym : ∀ y m, SameState a (monthOut ((yearOut os y).text ['/']) m) := fun y m => same_month (os := (yearOut os y).text ['/']) h m
  cases o with
  | int n => exact h
  | last => exact h
  | day d => exact h
  | month m => exact same_month h m
  | year y => exact h
  | wi x => exact same_wi h G x
  | wl w => exact same_wl h G w
  | ym y m => exact hym y m
  | md m d => exact hm m
  | ml m => exact hm m
  | mw m x => exact same_wi (hm m) G x
  | mwl m w => exact same_wl (hm m) G w
  | ymd y m d => exact h
  | yml y m => exact hym y m
  | ymw y m x => exact same_wi (os := (monthOut ((yearOut os y).text ['/']) m).text ['/']) (hym y m) G x
  | ymwl y m w => exact same_wl (os := (monthOut ((yearOut os y).text ['/']) m).text ['/']) (hym y m) G w

theorem same_obj {a os os' : OS} (h : SameState a os) (G : Names) (o : Obj) (he : objOut G os o = .ok os') : SameState a os' := by
  unfold objOut at he
  cases hk : objOk o with
  | ok b =>
    rw [hk] at he
    simp only [Res.ok_bind, Res.pure_eq] at he
    have := same_base h G o
    cases o <;> simp only [Res.ok.injEq] at he <;> subst he
    case ymd => exact h
    all_goals split <;> exact this
  | throw _ => rw [hk] at he; cases he
  | terminate => rw [hk] at he; cases he
  | ub => rw [hk] at he; cases he
  | diverge => rw [hk] at he; cases he

theorem same_if {a os : OS} (p : Prop) [Decidable p] (h : SameState a os) (t : List Char) : SameState a (if p then os.text t else os) := by
  split <;> exact h

theorem same_hms (T : Nat) {a os : OS} (h : SameState a os) (x : HMS) : SameState a (hmsOut T os x) :=
  same_if (x.m < 10) (os := ((if x.h < 10 then (if x.neg then os.text ['-'] else os).text ['0'] else (if x.neg then os.text ['-'] else os)).int 64 x.h).text [':'])
    (same_if (x.h < 10) (same_if (x.neg = true) h ['-']) ['0']) ['0']

end Gul14.Date.Out
