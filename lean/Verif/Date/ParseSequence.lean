import Verif.Date.ParseTotalProps

/-!
# C122: parse takes its own text from a stream and nothing else

Values that were written one after the other with format are read back one after the other with parse: `>>
parse(fmt, x)` leaves what follows in the stream.
-/
namespace Gul14.Spec.DateSequence
open Gul14.Spec.Calendar Gul14.Spec.DateText Gul14.Spec.DateFormat Gul14.Spec.DateParse

/-- The format ends with white space. -/
def EndsWhite (fmt : List Char) : Prop := ∃ c, (items fmt).getLast? = some (.lit c) ∧ White c

/-- What is left in a stream before which the text `u` lies: all of it, or (if `skip`) all but the white space at its
beginning; the end of the stream has been seen only if nothing remains. -/
def Left (skip : Prop) (u rest : List Char) (eof : Bool) : Prop :=
  (rest = u ∧ eof = false) ∨
  (skip ∧ ∃ w, u = w ++ rest ∧ (∀ c ∈ w, White c) ∧ (∀ c, rest.head? = some c → ¬ White c) ∧ eof = rest.isEmpty)

/-- The point in time of `k` ticks of pn/T seconds can be written and read in this format: the year fits, and the
format says all of the time of day. -/
def Legible (fmt : List Char) (pn T : Nat) (k : Int) : Prop :=
  ∃ n d, n * (86400 * T) ≤ k * pn ∧ k * pn < (n + 1) * (86400 * T) ∧ DayOf n d ∧
    YearReadable (letters (items fmt)) n d.year ∧ Writable (letters (items fmt)) d.year ∧
    told (letters (items fmt)) T (k * pn - n * (86400 * T)) = k * pn - n * (86400 * T)

end Gul14.Spec.DateSequence

namespace Gul14.Date.Sequence
open Gul14.Spec.Calendar Gul14.Spec.DateText Gul14.Spec.DateFormat Gul14.Spec.DateParse Gul14.Spec.DateSequence

/-- A caller's loop `while (in >> parse(fmt, x)) v.push_back(x);` around one of the parse functions (date.h:7652-7658 for
`operator>>`). -/
def readWhile {α : Type} (parse : IStream → Res (IStream × Option α)) : Nat → IStream → Res (IStream × List α)
  | 0, _ => .diverge
  | fuel + 1, is => do
    let (is, r) ← parse is
    match r with
    | none => pure (is, [])
    | some x =>
      let (is, xs) ← readWhile parse fuel is
      pure (is, x :: xs)

/-! ### The stream -/

theorem at_iff {is : IStream} {t : List Char} : At is t ↔ is.fail = false ∧ Left True t is.rest is.eof := by
  constructor
  · rintro (rfl | rfl)
    · exact ⟨rfl, Or.inl ⟨rfl, rfl⟩⟩
    · refine ⟨rfl, Or.inr ⟨trivial, t.takeWhile isSpace, (List.takeWhile_append_dropWhile).symm, ?_, ?_, rfl⟩⟩
      · intro c hc
        rw [white_iff]
        induction t with
        | nil => cases hc
        | cons y t ih =>
          rw [List.takeWhile_cons] at hc
          split at hc
          · rcases List.mem_cons.mp hc with rfl | hc
            · assumption
            · exact ih hc
          · cases hc
      · intro c hc hw
        have h := (white_iff c).mp hw
        induction t with
        | nil => cases hc
        | cons y t ih =>
          rw [List.dropWhile_cons] at hc
          split at hc
          · exact ih hc
          · rename_i hy
            cases hc
            exact hy h
  · obtain ⟨r, e, f⟩ := is
    simp only
    rintro ⟨rfl, ⟨rfl, rfl⟩ | ⟨-, w, rfl, h1, h2, rfl⟩⟩
    · exact Or.inl rfl
    · right
      have : (w ++ r).dropWhile isSpace = r := by
        induction w with
        | nil =>
          rcases r with _ | ⟨y, r⟩
          · rfl
          · have := h2 y rfl
            rw [white_iff] at this
            simp [List.dropWhile_cons, this]
        | cons y w ih =>
          have := (white_iff y).mp (h1 y List.mem_cons_self)
          simp only [List.cons_append, List.dropWhile_cons, this, if_true]
          exact ih (fun c hc => h1 c (List.mem_cons_of_mem _ hc))
      simp only [this]

theorem leaves_left {fmt u : List Char} {is : IStream} (h : Leaves fmt u is) :
    is.fail = false ∧ Left (EndsWhite fmt) u is.rest is.eof := by
  obtain ⟨h1, h2, h3⟩ := h
  refine ⟨h2, ?_⟩
  by_cases hw : EndsWhite fmt
  · obtain ⟨-, g | ⟨-, g⟩⟩ := at_iff.mp h1
    · exact Or.inl g
    · exact Or.inr ⟨hw, g⟩
  · rw [h3 (fun c hc => by
      by_contra hs
      exact hw ⟨c, hc, (white_iff c).mpr (by simpa using hs)⟩)]
    exact Or.inl ⟨rfl, rfl⟩

/-! ### An empty stream -/

theorem num_nil {M v : Nat} (h : Num M v []) : False := h.1 rfl

theorem snum_nil {M : Nat} {v : Int} (h : SNum M v []) : False := by
  obtain ⟨t, k, h1, ⟨-, h | h⟩ | ⟨-, h⟩⟩ := h
  · exact h1.1 h.symm
  · cases h
  · cases h

theorem agreeV_nil {T : Nat} {v : PVars} {md : Option Char} {c : Char} (h : AgreeV T v md c []) : False := by
  unfold AgreeV at h
  split at h
  all_goals try (obtain ⟨x, h, -⟩ := h; first | exact snum_nil h | exact num_nil h)
  · obtain ⟨x, m, d, ⟨x', ys, a, b, -, e, h, -⟩, -⟩ := h
    obtain ⟨rfl, -⟩ := List.append_eq_nil_iff.mp e.symm
    exact snum_nil h
  · obtain ⟨x, m, d, ⟨x', ys, a, b, -, e, h, -⟩, -⟩ := h
    obtain ⟨rfl, -⟩ := List.append_eq_nil_iff.mp e.symm
    exact num_nil h
  · obtain ⟨x, m, ⟨x', ys, a, b, -, e, h, -⟩, -⟩ := h
    obtain ⟨rfl, -⟩ := List.append_eq_nil_iff.mp e.symm
    exact num_nil h
  · obtain ⟨S, s, ⟨i, f, k, h, -⟩, -⟩ := h
    exact h.1 rfl
  · obtain ⟨x, m, S, s, ⟨x', ys, a, b, -, e, h, -⟩, -⟩ := h
    obtain ⟨rfl, -⟩ := List.append_eq_nil_iff.mp e.symm
    exact num_nil h
  · obtain ⟨o, ⟨g, a, b, h, m, e, -, h1, -⟩, -⟩ := h
    obtain ⟨-, e⟩ := List.append_eq_nil_iff.mp e.symm
    obtain ⟨rfl, rfl⟩ := List.append_eq_nil_iff.mp e
    exact num_nil h1
  · cases h
  · exact h

theorem split_nil {T : Nat} {v : PVars} (its : List Item) : ∀ t r, t = [] → Split (AgreeV T v) its t r → letters its = [] := by
  induction its with
  | nil => intros; rfl
  | cons i its ih =>
    intro t r ht h
    cases i with
    | lit c =>
      obtain ⟨a, b, e, -, h⟩ := h
      exact ih b r (List.append_eq_nil_iff.mp (e.symm.trans ht)).2 h
    | conv md c =>
      obtain ⟨a, b, e, h, -⟩ := h
      obtain ⟨rfl, -⟩ := List.append_eq_nil_iff.mp (e.symm.trans ht)
      exact absurd (agreeV_nil h) not_false

theorem fromStream_end {e : PEnv} (hT : e.T ∣ 10 ^ 16) {fmt : List Char} {fds : Fields} (hr : ∀ i ∈ items fmt, Readable i)
    (hn : letters (items fmt) ≠ []) {i0 : IStream} (h0 : At i0 []) : ∃ is, fromStream e i0 fmt fds = .ok (is, none) := by
  rcases h0 with rfl | rfl
  · have hw := width_le hT (by omega)
    obtain ⟨is, r, h⟩ := fromStream_total (e := e) (fmt := fmt) (fds := fds) (text := []) hT hr
      ⟨fun _ a b c h _ _ => by
        obtain ⟨-, h⟩ := List.append_eq_nil_iff.mp h.symm
        obtain ⟨rfl, -⟩ := List.append_eq_nil_iff.mp h
        simp; omega, fun _ a b h => by simp at h⟩
    rcases r with _ | r
    · exact ⟨is, h⟩
    · obtain ⟨v, h1, -⟩ := fromStream_sound hw hr h
      exact absurd (split_nil _ _ _ rfl h1) hn
  · exact ⟨_, rfl⟩

/-! ### Theorems -/

/-- A point in time that was written by format is read back whatever follows it, and what follows stays. -/
theorem c122_sys_time (pn T : Nat) (hpn : 0 < pn) (hT : Decimal T) (get : TimeGet) (loc : TimePut) (fmt : List Char)
    (hr : ∀ i ∈ items fmt, Readable i) (hdet : Determined (letters (items fmt))) (k : Int) (hk : Legible fmt pn T k) :
    ∃ text, formatSys T loc (k * pn) fmt = .ok text ∧ ∀ (u : List Char) (before : IStream), before.fail = false →
      Left True (text ++ u) before.rest before.eof →
      ∃ after p, parseSys pn T get fmt 0 before = .ok (after, some (k, p)) ∧ after.fail = false ∧
        Left (EndsWhite fmt) u after.rest after.eof := by
  obtain ⟨n, d, h1, h2, hd, hy, hw, ht⟩ := hk
  obtain ⟨text, b1, b2⟩ := sys_time_reads pn T hpn hT get loc k n d fmt h1 h2 hd hr hdet hy hw
  refine ⟨text, b1, fun u i0 hf hl => ?_⟩
  obtain ⟨is, r, p, c1, c2, -, c3⟩ := b2 u i0 (at_iff.mpr ⟨hf, hl⟩)
  rw [c3 ht] at c1
  exact ⟨is, p, c1, leaves_left c2⟩

/-- The same for local time, with the offset from UTC (in minutes) if the format mentions it. -/
theorem c122_local_time (pn T : Nat) (hpn : 0 < pn) (hT : Decimal T) (get : TimeGet) (loc : TimePut) (fmt : List Char)
    (hr : ∀ i ∈ items fmt, Readable i) (hdet : Determined (letters (items fmt))) (k : Int) (hk : Legible fmt pn T k)
    (zone : Option (List Char)) (off : Option Int) (ho : ∀ o, off = some o → -6000 < o ∧ o < 6000)
    (hz : 'z' ∈ letters (items fmt) → off ≠ none) :
    ∃ text, formatLocal T loc (k * pn) zone (off.map (· * 60)) fmt = .ok text ∧ ∀ (u : List Char) (before : IStream), before.fail = false →
      Left True (text ++ u) before.rest before.eof →
      ∃ after p, parseLocal pn T get fmt before = .ok (after, some (k, p)) ∧ after.fail = false ∧
        p.offset = (if 'z' ∈ letters (items fmt) then off else none) ∧ Left (EndsWhite fmt) u after.rest after.eof := by
  obtain ⟨n, d, h1, h2, hd, hy, hw, ht⟩ := hk
  obtain ⟨text, b1, b2⟩ := local_time_reads pn T hpn hT get loc k n d zone off fmt h1 h2 hd ho hz hr hdet hy hw
  refine ⟨text, b1, fun u i0 hf hl => ?_⟩
  obtain ⟨is, r, p, c1, c2, c4, -, c3⟩ := b2 u i0 (at_iff.mpr ⟨hf, hl⟩)
  rw [c3 ht] at c1
  exact ⟨is, p, c1, (leaves_left c2).1, c4, (leaves_left c2).2⟩

/-- A date. -/
theorem c122_date (get : TimeGet) (loc : TimePut) (x : YMD) (hok : x.ok = true) (n : Int)
    (hd : DayOf n ⟨x.y.toInt, x.m.toNat, x.d.toNat⟩) (fmt : List Char)
    (hr : ∀ i ∈ items fmt, Readable i) (hdet : Determined (letters (items fmt)))
    (ht : ∀ c ∈ letters (items fmt), c ∉ ['H', 'M', 'S', 'T', 'R', 'z'])
    (hy : YearReadable (letters (items fmt)) n x.y.toInt) (hw : Writable (letters (items fmt)) x.y.toInt) :
    ∃ text, formatFields loc (fieldsDate x) fmt = .ok text ∧ ∀ (u : List Char) (before : IStream), before.fail = false →
      Left True (text ++ u) before.rest before.eof →
      ∃ after, parseDate get fmt before = .ok (after, some x) ∧ after.fail = false ∧
        Left (EndsWhite fmt) u after.rest after.eof := by
  obtain ⟨text, b1, b2⟩ := date_reads get loc x hok n hd fmt hr hdet ht hy hw
  refine ⟨text, b1, fun u i0 hf hl => ?_⟩
  obtain ⟨is, c1, c2⟩ := b2 u i0 (at_iff.mpr ⟨hf, hl⟩)
  exact ⟨is, c1, leaves_left c2⟩

/-- A duration of less than a hundred hours. -/
theorem c122_duration (pn T : Nat) (hpn : 0 < pn) (hT : Decimal T) (get : TimeGet) (loc : TimePut) (k : Int)
    (fmt : List Char) (h0 : 0 ≤ k * pn) (h1 : k * pn < 360000 * T) (hr : ∀ i ∈ items fmt, Readable i)
    (hL : ∀ c ∈ letters (items fmt), c ∈ ['H', 'M', 'S', 'T', 'R', '%'])
    (hne : ∃ c ∈ letters (items fmt), c ≠ '%') (ht : told (letters (items fmt)) T (k * pn) = k * pn) :
    ∃ text, formatDuration T loc (k * pn) fmt = .ok text ∧ ∀ (u : List Char) (before : IStream), before.fail = false →
      Left True (text ++ u) before.rest before.eof →
      ∃ after p, parseDuration pn T get fmt before = .ok (after, some (k, p)) ∧ after.fail = false ∧
        Left (EndsWhite fmt) u after.rest after.eof := by
  obtain ⟨text, b1, b2⟩ := duration_reads pn T hpn hT get loc k fmt h0 h1 hr hL hne
  refine ⟨text, b1, fun u i0 hf hl => ?_⟩
  obtain ⟨is, r, p, c1, c2, -, c3⟩ := b2 u i0 (at_iff.mpr ⟨hf, hl⟩)
  rw [c3 ht] at c1
  exact ⟨is, p, c1, leaves_left c2⟩

/-- A file of points in time, written one after the other in the same format, is read by a loop that goes on until
parse fails: it finds all of them, in this order, and nothing else. -/
theorem c122_file (pn T : Nat) (hpn : 0 < pn) (hT : Decimal T) (hT' : T ∣ 10 ^ 16) (get : TimeGet) (loc : TimePut) (fmt : List Char)
    (hr : ∀ i ∈ items fmt, Readable i) (hdet : Determined (letters (items fmt))) (ks : List Int)
    (hk : ∀ k ∈ ks, Legible fmt pn T k) :
    ∃ texts : List (List Char), List.Forall₂ (fun k text => formatSys T loc (k * pn) fmt = .ok text) ks texts ∧
      ∀ fuel, ks.length < fuel → ∃ after xs, readWhile (parseSys pn T get fmt 0) fuel ⟨texts.flatten, false, false⟩ = .ok (after, xs) ∧
        xs.map (·.1) = ks := by
  have key : ∃ texts : List (List Char), List.Forall₂ (fun k text => formatSys T loc (k * pn) fmt = .ok text) ks texts ∧
      ∀ fuel i0, ks.length < fuel → At i0 texts.flatten → ∃ after xs, readWhile (parseSys pn T get fmt 0) fuel i0 = .ok (after, xs) ∧
        xs.map (·.1) = ks := by
    induction ks with
    | nil =>
      refine ⟨[], List.Forall₂.nil, fun fuel i0 hf h0 => ?_⟩
      obtain ⟨m, rfl⟩ : ∃ m, fuel = m + 1 := ⟨fuel - 1, by simp at hf; omega⟩
      obtain ⟨is, h⟩ := fromStream_end (e := ⟨T, get⟩) (fds := { hasTod := true }) hT' hr (letters_ne hdet) h0
      refine ⟨is.setFail, [], ?_, rfl⟩
      unfold readWhile parseSys
      rw [h]
      rfl
    | cons k ks ih =>
      obtain ⟨texts, t1, t2⟩ := ih (fun k hk' => hk k (List.mem_cons_of_mem _ hk'))
      obtain ⟨n, d, h1, h2, hd, hy, hw, ht⟩ := hk k List.mem_cons_self
      obtain ⟨text, b1, b2⟩ := sys_time_reads pn T hpn hT get loc k n d fmt h1 h2 hd hr hdet hy hw
      refine ⟨text :: texts, List.Forall₂.cons b1 t1, fun fuel i0 hf h0 => ?_⟩
      obtain ⟨m, rfl⟩ : ∃ m, fuel = m + 1 := ⟨fuel - 1, by omega⟩
      obtain ⟨is, r, p, c1, c2, -, c3⟩ := b2 texts.flatten i0 h0
      rw [c3 ht] at c1
      obtain ⟨after, xs, d1, d2⟩ := t2 m is (by simpa using hf) c2.1
      refine ⟨after, (k, p) :: xs, ?_, by simp [d2]⟩
      rw [readWhile, c1]
      simp only [Res.ok_bind, d1, Res.pure_eq]
  obtain ⟨texts, t1, t2⟩ := key
  exact ⟨texts, t1, fun fuel hf => t2 fuel _ hf (Or.inl rfl)⟩

/-! ### Examples -/

/-- 2023-01-01 12:34:56 and 1969-12-31 23:59:59, nothing between them: "20230101123456" "19691231235959". -/
example : ∃ texts after xs, List.Forall₂ (fun k text => formatSys 1 put0 (k * (1 : Nat)) ("%Y%m%d%H%M%S".toList) = .ok text) [1672576496, -1] texts ∧
    readWhile (parseSys 1 1 get0 ("%Y%m%d%H%M%S".toList) 0) 3 ⟨texts.flatten, false, false⟩ = .ok (after, xs) ∧
    xs.map (·.1) = [1672576496, -1] := by
  obtain ⟨texts, h1, h2⟩ := c122_file 1 1 (by omega) ⟨by decide, 0, by decide, by decide⟩ (by norm_num) get0 put0 ("%Y%m%d%H%M%S".toList)
    (by decide) (by decide) [1672576496, -1] (by
      intro k hk
      simp only [List.mem_cons, List.not_mem_nil, or_false] at hk
      rcases hk with rfl | rfl
      · exact ⟨19358, ⟨2023, 1, 1⟩, by decide, by decide, Calc.dayOf_iff.mpr ⟨by decide, by decide⟩,
          ⟨by decide, by decide, fun h => absurd h (by decide), by decide, by decide⟩, ⟨by decide, by decide⟩, by decide⟩
      · exact ⟨-1, ⟨1969, 12, 31⟩, by decide, by decide, Calc.dayOf_iff.mpr ⟨by decide, by decide⟩,
          ⟨by decide, by decide, fun h => absurd h (by decide), by decide, by decide⟩, ⟨by decide, by decide⟩, by decide⟩)
  obtain ⟨after, xs, h3, h4⟩ := h2 3 (by decide)
  exact ⟨texts, after, xs, h1, h3, h4⟩

/-- A date that is followed by a number. -/
example : ∃ text, formatFields put0 (fieldsDate ⟨2023, 1, 5⟩) ("%j/%Y".toList) = .ok text ∧
    ∃ after, parseDate get0 ("%j/%Y".toList) ⟨text ++ ['7', '7'], false, false⟩ = .ok (after, some ⟨2023, 1, 5⟩) ∧ after = ⟨['7', '7'], false, false⟩ := by
  obtain ⟨text, h1, h2⟩ := c122_date get0 put0 ⟨2023, 1, 5⟩ (by decide +kernel) 19362 (Calc.dayOf_iff.mpr ⟨by decide, by decide⟩) ("%j/%Y".toList)
    (by decide) (by decide) (by decide) ⟨by decide, by decide, fun h => absurd h (by decide), by decide, by decide⟩ ⟨by decide, by decide⟩
  refine ⟨text, h1, ?_⟩
  obtain ⟨after, h3, h4, h5⟩ := h2 ['7', '7'] ⟨text ++ ['7', '7'], false, false⟩ rfl (Or.inl ⟨rfl, rfl⟩)
  refine ⟨after, h3, ?_⟩
  rcases h5 with ⟨a, b⟩ | ⟨⟨c, hc, -⟩, -⟩
  · obtain ⟨r, e, f⟩ := after
    simp only at a b h4
    rw [a, b, h4]
  · rw [show (items "%j/%Y".toList).getLast? = some (.conv none 'Y') from rfl] at hc
    cases hc

end Gul14.Date.Sequence
