import Verif.Date.ParseProps
import Verif.Date.ParseNamesSpec

/-! # The loop of parse on formats with names -/
namespace Gul14.Date.Names
open Gul14.Spec.Calendar Gul14.Spec.DateText Gul14.Spec.DateFormat Gul14.Spec.DateParse

/-! ### Frame: variables that the numeric conversions do not touch -/

/-- The variables that the numeric conversions do not touch. -/
structure Extra where
  I : Int
  p : Int
  z : List Char
  tm : Tm

/-- The same with other values of these variables. -/
def fr (x : Extra) (v : PVars) : PVars := { v with I := x.I, p := x.p, abbr := x.z, tm := x.tm }

def frs (x : Extra) (st : PState) : PState := { st with v := fr x st.v }

theorem number_fr (x : Extra) (st : PState) (a : RArg) (nt : Int) (set : Int → PState → PState)
    (h : ∀ y st, set y (frs x st) = frs x (set y st)) :
    (frs x st).number a nt set = (st.number a nt set).map (frs x) := by
  unfold PState.number
  have : (frs x st).is = st.is := rfl
  rw [this]
  cases readSeq [a] st.is with
  | ok r =>
    obtain ⟨xs, l, is⟩ := r
    simp only [Res.ok_bind, Res.pure_eq, Res.map]
    rw [← h]; rfl
  | _ => rfl

theorem bind_map {α β γ : Type} (x : Res α) (f : α → Res β) (g : β → γ) : (x >>= f).map g = x >>= fun a => (f a).map g := by
  cases x <;> rfl

theorem offset_fr (x : Extra) (st : PState) : pconvOffset (frs x st) = (pconvOffset st).map (frs x) := by
  unfold pconvOffset
  have : (frs x st).is = st.is := rfl
  have h2 : (frs x st).modified = st.modified := rfl
  rw [this, h2]
  rcases st.is.peek with ⟨ic, is⟩
  simp only
  cases readSeq [.rs (if st.modified = none then 2 else 1) 2] is with
  | ok r =>
    obtain ⟨xs, l, is⟩ := r
    simp only [Res.ok_bind]
    generalize (if is.fail = true then (-9223372036854775808 : Int) else ((xs.getD 0 0).natAbs : Int) * 60) = toff
    by_cases hg : is.good = true
    · simp only [hg, if_true]
      cases offsetMinutes st.modified toff is with
      | ok r =>
        obtain ⟨t, is⟩ := r
        simp only [Res.ok_bind]
        split <;> rfl
      | _ => rfl
    · simp only [Bool.not_eq_true] at hg
      simp only [hg, Bool.false_eq_true, if_false, Res.pure_eq, Res.ok_bind]
      split <;> rfl
  | _ => rfl

theorem pconv_fr (e : PEnv) (x : Extra) (st : PState) (md : Option Char) (c : Char) (hmd : st.modified = md)
    (hr : Readable (.conv md c)) : pconv e (frs x st) c = (pconv e st c).map (frs x) := by
  have hi : (frs x st).is = st.is := rfl
  have hm : (frs x st).modified = st.modified := rfl
  have hx : ∀ k, (frs x st).max k = st.max k := fun _ => rfl
  rcases hr with ⟨rfl, hc⟩ | ⟨rfl, -⟩
  · simp only [plain, List.mem_cons, List.not_mem_nil, or_false] at hc
    rcases hc with rfl | rfl | rfl | rfl | rfl | rfl | rfl | rfl | rfl | rfl | rfl | rfl | rfl | rfl | rfl | rfl | rfl |
      rfl | rfl | rfl <;> simp only [pconv, hm, hmd, if_true, hx, hi]
    all_goals first
      | exact number_fr x st _ _ _ (fun _ _ => rfl)
      | rfl
      | skip
    all_goals
      generalize readSeq _ _ = q
      rcases q with ⟨xs, S, is⟩ | _ | _ | _ | _ <;> try rfl
    all_goals simp only [Res.ok_bind, Res.pure_eq]
    all_goals first
      | rfl
      | skip
    · cases roundTicks e.T S <;> rfl
    · cases roundTicks e.T S <;> rfl
    all_goals
      repeat' split
      all_goals rfl
  · exact offset_fr x st

theorem pstep_fr (e : PEnv) (x : Extra) (is : IStream) (v : PVars) (cmd : List Char) (md : Option Char) (c : Char)
    (hr : Readable (.conv md c)) :
    pstep e ⟨is, fr x v, some cmd, md, -1⟩ c = (pstep e ⟨is, v, some cmd, md, -1⟩ c).map (frs x) := by
  by_cases hp : c = '%'
  · subst hp
    rcases hr with ⟨rfl, -⟩ | ⟨h, -⟩
    · rfl
    · exact absurd h (by decide)
  · have hc : c ∈ pconvChars := by
      rcases hr with ⟨-, h⟩ | ⟨rfl, -⟩
      · have : ∀ c ∈ plain, c ≠ '%' → c ∈ pconvChars := by decide
        exact this c h hp
      · decide
    rw [pstep_conv rfl hc, pstep_conv rfl hc,
      show (⟨is, fr x v, some cmd, md, -1⟩ : PState) = frs x ⟨is, v, some cmd, md, -1⟩ from rfl,
      pconv_fr e x _ md c rfl hr]
    cases pconv e ⟨is, v, some cmd, md, -1⟩ c <;> rfl

/-! ### The variables after some conversions -/

/-- The true values of the other variables. -/
structure More where
  I : Int
  p : Int
  z : List Char

/-- The other variables after the conversions `L`. -/
def extra (X : More) (L : List Char) (tm : Tm) : Extra :=
  ⟨if 'I' ∈ L then X.I else 0, if 'p' ∈ L then X.p else -1, if 'Z' ∈ L then X.z else [], tm⟩

/-- The variables after the conversions `L`. -/
def xvars (F : Facts) (X : More) (L : List Char) (tm : Tm) : PVars := fr (extra X L tm) (vars F (L.map sameAs))

/-- What remains in the stream; `sk`: white space has been skipped. -/
def Pos (sk : Bool) (is : IStream) (t : List Char) : Prop :=
  if sk then is = ⟨t.dropWhile isSpace, (t.dropWhile isSpace).isEmpty, false⟩
  else ∃ eo, (eo = true → t = []) ∧ is = ⟨t, eo, false⟩

/-- The conversion reads its text. -/
def XReads (e : PEnv) (F : Facts) (X : More) (sk : Bool) (md : Option Char) (c : Char) (a b : List Char) : Prop :=
  ∀ is L tm, Pos sk is (a ++ b) → is.fail = false ∧ is.eof = false ∧ ∃ is' tm', Pos false is' b ∧
    pstep e ⟨is, xvars F X L tm, some ('%' :: md.toList), md, -1⟩ c =
      .ok ⟨is', xvars F X (c :: L) tm', none, none, -1⟩

theorem pos_start {sk : Bool} {is : IStream} {c : Char} {r : List Char} (h : Pos sk is (c :: r)) (hc : isSpace c = false) :
    is = ⟨c :: r, false, false⟩ := by
  cases sk
  · obtain ⟨eo, h1, rfl⟩ := h
    cases eo
    · rfl
    · cases h1 rfl
  · rw [show is = _ from h, List.dropWhile_cons, if_neg (by simp [hc])]; rfl

theorem pos_exact {is : IStream} {c : Char} {r : List Char} (h : Pos false is (c :: r)) : is = ⟨c :: r, false, false⟩ := by
  obtain ⟨eo, h1, rfl⟩ := h
  cases eo
  · rfl
  · cases h1 rfl

theorem pos_of (b : List Char) (eo : Bool) (h : eo = true → b = []) : Pos false ⟨b, eo, false⟩ b := ⟨eo, h, rfl⟩

/-- The letters that stand for themselves. -/
theorem sameAs_readable {md : Option Char} {c : Char} (h : Readable (.conv md c)) : sameAs c = c ∧ c ≠ 'I' ∧ c ≠ 'p' ∧ c ≠ 'Z' := by
  rcases h with ⟨-, h⟩ | ⟨rfl, -⟩
  · have : ∀ c ∈ plain, sameAs c = c ∧ c ≠ 'I' ∧ c ≠ 'p' ∧ c ≠ 'Z' := by decide
    exact this c h
  · decide

theorem xreads_readable {e : PEnv} {F : Facts} (X : More) (sk : Bool) {md : Option Char} {c : Char} {a : List Char} (b : List Char)
    (hr : Readable (.conv md c)) (h : Reads e F md c a) : XReads e F X sk md c a b := by
  obtain ⟨⟨y, a', rfl, hy⟩, h⟩ := h
  intro is L tm hp
  obtain rfl := pos_start (by simpa using hp) hy
  refine ⟨rfl, rfl, ⟨b, false, false⟩, tm, pos_of b false (by simp), ?_⟩
  have h := h b (L.map sameAs)
  obtain ⟨s1, s2, s3, s4⟩ := sameAs_readable hr
  unfold xvars
  rw [pstep_fr e _ _ _ _ _ _ hr, show y :: (a' ++ b) = y :: a' ++ b from rfl, h]
  simp only [Res.map, frs, List.map_cons, s1]
  have : extra X (c :: L) tm = extra X L tm := by
    unfold extra
    simp [s2.symm, s3.symm, s4.symm]
  rw [this]

theorem checkedSet_at (p : Prop) [Decidable p] (a n : Int) (r : List Char) (eo : Bool) :
    checkedSet (if p then a else n) a n ⟨r, eo, false⟩ = (a, ⟨r, eo, false⟩) := by
  unfold checkedSet
  simp only [Bool.not_false, if_true]
  split <;> split <;> simp_all

theorem white_iff (c : Char) : White c ↔ isSpace c = true := by
  simp [White, isSpace]

theorem not_white {c : Char} (h : ¬ White c) : isSpace c = false := by
  rw [white_iff] at h; simpa using h

section
variable {e : PEnv} {F : Facts} {X : More} {sk : Bool} {b : List Char} {loc : TimePut}

theorem same_a : sameAs 'a' = 'w' := rfl
theorem same_A : sameAs 'A' = 'w' := rfl
theorem same_b : sameAs 'b' = 'm' := rfl
theorem same_B : sameAs 'B' = 'm' := rfl
theorem same_h : sameAs 'h' = 'm' := rfl
theorem same_p : sameAs 'p' = 'p' := rfl
theorem same_I : sameAs 'I' = 'I' := rfl
theorem same_e : sameAs 'e' = 'd' := rfl
theorem same_n : sameAs 'n' = 'n' := rfl
theorem same_t : sameAs 't' = 't' := rfl
theorem same_Z : sameAs 'Z' = 'Z' := rfl

local macro "fin" : tactic => `(tactic| (
  simp only [xvars, List.map_cons, same_a, same_A, same_b, same_B, same_h, same_p, same_I, same_e, same_n, same_t, same_Z]
  generalize List.map sameAs _ = L'
  simp [fr, extra, vars]))

theorem xreads_weekday {c : Char} (hc : c ∈ ['a', 'A']) (hl : ReadsNames loc e.loc.get) {n : Int} (hF : F.wd = dayOfWeek n)
    {tm : Tm} (ht : tm.wday = dayOfWeek n) (hb : NameEnds b) : XReads e F X sk none c (loc.put tm none c) b := by
  have hw := dow_lt n
  obtain ⟨⟨y, s, h1, h2⟩, h3⟩ := hl.weekday c hc tm (by omega) (by omega)
  intro is L tm0 hp
  rw [h1] at hp
  obtain rfl := pos_start (by simpa using hp) (not_white h2)
  obtain ⟨new, eo, g1, g2, g3⟩ := h3 tm0 b hb
  refine ⟨rfl, rfl, ⟨b, eo, false⟩, new, pos_of b eo g2, ?_⟩
  rw [← List.cons_append, ← h1]
  have hx : (xvars F X L tm0).tm = tm0 := rfl
  have h8 : ¬ (F.wd = 8) := by omega
  have hwd : (xvars F X L tm0).wd = if 'u' ∈ L.map sameAs ∨ 'w' ∈ L.map sameAs then F.wd else 8 := rfl
  rw [pstep_conv rfl (by revert hc; have : ∀ c ∈ ['a', 'A'], c ∈ pconvChars := by decide
                         exact this c)]
  simp only [List.mem_cons, List.not_mem_nil, or_false] at hc
  rcases hc with rfl | rfl <;>
  · simp only [pconv, if_true, PState.facet, Option.getD_some, Option.toList, List.cons_append, List.nil_append, hx, g1,
      IStream.set, Bool.or_false, Bool.false_or, Bool.false_eq_true, if_false, g3, ht, ← hF, h8, ne_eq, not_false_eq_true, Res.pure_eq, Res.ok_bind,
      setwd, hwd, checkedSet_at, PState.reset]
    fin

theorem xreads_month {c : Char} (hc : c ∈ ['b', 'B', 'h']) (hl : ReadsNames loc e.loc.get) {m : Nat} (h1m : 1 ≤ m) (h12 : m ≤ 12)
    (hF : F.m = m) {tm : Tm} (ht : tm.mon = m - 1) (hb : NameEnds b) : XReads e F X sk none c (loc.put tm none c) b := by
  obtain ⟨⟨y, s, h1, h2⟩, h3⟩ := hl.month c hc tm (by omega) (by omega)
  intro is L tm0 hp
  rw [h1] at hp
  obtain rfl := pos_start (by simpa using hp) (not_white h2)
  obtain ⟨new, eo, g1, g2, g3⟩ := h3 tm0 b hb
  refine ⟨rfl, rfl, ⟨b, eo, false⟩, new, pos_of b eo g2, ?_⟩
  rw [← List.cons_append, ← h1]
  have hx : (xvars F X L tm0).tm = tm0 := rfl
  have hint : int (new.mon + 1) = .ok F.m := by
    unfold int
    rw [if_pos (by omega), g3, ht, hF]; simp
  have hm : (xvars F X L tm0).m = if 'm' ∈ L.map sameAs ∨ 'F' ∈ L.map sameAs ∨ 'D' ∈ L.map sameAs then F.m else 0 := rfl
  rw [pstep_conv rfl (by revert hc; have : ∀ c ∈ ['b', 'B', 'h'], c ∈ pconvChars := by decide
                         exact this c)]
  simp only [List.mem_cons, List.not_mem_nil, or_false] at hc
  rcases hc with rfl | rfl | rfl <;>
  · simp only [pconv, if_true, PState.facet, Option.getD_some, Option.toList, List.cons_append, List.nil_append, hx, g1,
      IStream.set, Bool.or_false, Bool.false_or, Bool.not_false, hint, Res.pure_eq, Res.ok_bind,
      setm, hm, checkedSet_at, PState.reset]
    fin

theorem xreads_half (hl : ReadsNames loc e.loc.get) {h : Nat} (h23 : h < 24) (hX : X.p = if h < 12 then 0 else 1)
    {tm : Tm} (ht : tm.hour = h) (hb : NameEnds b) : XReads e F X sk none 'p' (loc.put tm none 'p') b := by
  obtain ⟨⟨y, s, h1, h2⟩, h3⟩ := hl.half tm (by omega) (by omega)
  intro is L tm0 hp
  rw [h1] at hp
  obtain rfl := pos_start (by simpa using hp) (not_white h2)
  obtain ⟨new, eo, g1, g2, g3⟩ := h3 { hour := 1 } b hb rfl
  refine ⟨rfl, rfl, ⟨b, eo, false⟩, new, pos_of b eo g2, ?_⟩
  rw [← List.cons_append, ← h1]
  have hh : (if new.hour = 1 then (0 : Int) else if new.hour = 13 then 1 else -1) = X.p := by
    rw [hX, g3, ht]
    by_cases h12 : h < 12
    · simp [h12]
    · have : ¬ ((h : Int) < 12) := by omega
      simp [h12, this]
  have hm : (xvars F X L tm0).p = if 'p' ∈ L then X.p else -1 := rfl
  rw [pstep_conv rfl (by decide)]
  simp only [pconv, if_true, PState.facet, Option.getD_some, Option.toList, List.cons_append, List.nil_append, g1,
      IStream.set, Bool.or_false, Bool.false_or, hh, Res.pure_eq, Res.ok_bind,
      setp, hm, checkedSet_at, PState.reset]
  fin

theorem xreads_I {h : Nat} {a : List Char} (hX : X.I = hour12 h) (ha : Digits 2 (hour12 h) a) : XReads e F X sk none 'I' a b := by
  obtain ⟨y, s, rfl, hy⟩ := starts_digits ha (by omega)
  intro is L tm0 hp
  obtain rfl := pos_start (by simpa using hp) hy
  refine ⟨rfl, rfl, ⟨b, false, false⟩, tm0, pos_of b false (by simp), ?_⟩
  have hr : 1 ≤ hour12 h ∧ hour12 h ≤ 12 := by unfold hour12; split <;> omega
  have hm : (xvars F X L tm0).I = if 'I' ∈ L then X.I else 0 := rfl
  rw [pstep_conv rfl (by decide), ← List.cons_append]
  have h1 : (1 : Int) ≤ X.I := by omega
  have h2 : X.I ≤ 12 := by omega
  simp only [pconv, if_true, PState.max, seq_rs_nat ha (show 1 ≤ 2 by omega) (by omega) (show 1 ≤ 2 by omega), seq_nil, Res.ok_bind, Res.pure_eq,
    List.getD_cons_zero, ← hX, h1, h2, decide_true, Bool.and_self, if_true, setI, hm, checkedSet_at, PState.reset]
  fin

theorem readSigned_one {d : Nat} {s : List Char} (h : Digits 1 d s) (hb : ∀ c r, b = c :: r → isDigit c = false) :
    readSigned ⟨s ++ b, false, false⟩ 1 2 = .ok (d, ⟨b, b.isEmpty, false⟩) := by
  obtain ⟨c, s', rfl, hc⟩ := digits_cons h (by omega)
  obtain ⟨h1, h2, h3⟩ := h
  have : s' = [] := by simpa using h1
  subst this
  have hd := dig_le hc
  have n1 : c ≠ '-' := by rintro rfl; revert hd; decide
  have n2 : c ≠ '+' := by rintro rfl; revert hd; decide
  have hv : digVal c = d := by rw [← h3]; simp [value, digVal]
  have h9 : d ≤ 9 := by rw [← hv]; unfold digVal; omega
  have hr : readDigits 2 0 0 (c :: b) = (1, d, b, b.isEmpty) := by
    have hm : digVal c % 4294967296 = d := by rw [hv]; omega
    cases b with
    | nil => simp [readDigits, isDig_eq, hc, hm]
    | cons y r => simp [readDigits, isDig_eq, hc, hm, hb y r rfl]
  have ha : asInt (d : Int) = d := by unfold asInt; rw [if_pos (by omega)]
  rw [List.cons_append, List.nil_append, readSigned_cons]
  simp [isDig_eq, hc, n1, n2, readUnsigned, hr, ha, IStream.good]

theorem xreads_e {d : Nat} {a : List Char} (hF : F.d = d) (h : if d < 10 then ∃ s, a = ' ' :: s ∧ Digits 1 d s else Digits 2 d a)
    (hs : 10 ≤ d ∨ (sk = true ∧ ∀ c r, b = c :: r → isDigit c = false)) : XReads e F X sk none 'e' a b := by
  have step : ∀ is eo L tm, (eo = true → b = []) → readSigned is 1 2 = .ok (F.d, ⟨b, eo, false⟩) →
      pstep e ⟨is, xvars F X L tm, some ('%' :: Option.toList none), none, -1⟩ 'e' =
        .ok ⟨⟨b, eo, false⟩, xvars F X ('e' :: L) tm, none, none, -1⟩ := by
    intro is eo L tm _ hr
    have hm : (xvars F X L tm).d = if 'd' ∈ L.map sameAs ∨ 'F' ∈ L.map sameAs ∨ 'D' ∈ L.map sameAs then F.d else 0 := rfl
    rw [pstep_conv rfl (by decide)]
    simp only [pconv, if_true, PState.max, PState.number, readSeq, hr, Res.ok_bind, Bool.false_eq_true, if_false, Res.pure_eq,
      List.getD_cons_zero, setd, hm, checkedSet_at, PState.reset]
    fin
  intro is L tm hp
  by_cases hd : d < 10
  · rw [if_pos hd] at h
    obtain ⟨s, rfl, h⟩ := h
    obtain ⟨rfl, hb⟩ : sk = true ∧ ∀ c r, b = c :: r → isDigit c = false := by
      rcases hs with hs | hs
      · omega
      · exact hs
    have hr := readSigned_one h hb
    obtain ⟨y, s', rfl, hy⟩ := starts_digits h (by omega)
    have e1 : (' ' :: y :: s' ++ b).dropWhile isSpace = y :: s' ++ b := by
      simp [List.dropWhile_cons, hy, show isSpace ' ' = true from rfl]
    obtain rfl : is = ⟨y :: s' ++ b, false, false⟩ := by
      rw [show is = _ from hp, e1]; rfl
    refine ⟨rfl, rfl, _, tm, pos_of b b.isEmpty (by simp), step _ _ L tm (by simp) (by rw [hr, hF])⟩
  · rw [if_neg hd] at h
    obtain ⟨y, s', rfl, hy⟩ := starts_digits h (by omega)
    obtain rfl := pos_start (by simpa using hp) hy
    refine ⟨rfl, rfl, _, tm, pos_of b false (by simp), step _ _ L tm (by simp) ?_⟩
    have := readSigned_exact (v := (d : Int)) (m := 1) (M := 2) (s := y :: s') (by simpa using h) (by omega) (by omega) (by omega) b
    rw [signed, if_neg (by omega)] at this
    rw [hF]; exact this

theorem xreads_nt {c y : Char} (hc : (c = 'n' ∧ y = '\n') ∨ (c = 't' ∧ y = '\t')) : XReads e F X false none c [y] b := by
  intro is L tm hp
  obtain rfl := pos_exact (by simpa using hp)
  refine ⟨rfl, rfl, ⟨b, false, false⟩, tm, pos_of b false (by simp), ?_⟩
  have hx : ∀ c, sameAs c = c → (c = 'n' ∨ c = 't') → xvars F X (c :: L) tm = xvars F X L tm := by
    intro c h1 h2
    simp only [xvars, List.map_cons, h1]
    generalize List.map sameAs _ = L'
    rcases h2 with rfl | rfl <;> simp [fr, extra, vars]
  rcases hc with ⟨rfl, rfl⟩ | ⟨rfl, rfl⟩ <;>
  · rw [hx _ rfl (by decide)]
    rfl

theorem zone_iff (c : Char) : isZoneChar c = ZoneLetter c := by
  unfold isZoneChar ZoneLetter isAlnum
  have hl : ∀ a b : Char, (a ≤ b) = (a.toNat ≤ b.toNat) := fun _ _ => rfl
  have he : ∀ a b : Char, (a = b) = (a.toNat = b.toNat) := fun a b => by
    simp [Char.toNat_inj]
  simp only [hl, he]
  rw [Bool.eq_iff_iff]
  simp only [Bool.and_eq_true, Bool.or_eq_true, decide_eq_true_eq, show ('0' : Char).toNat = 48 from rfl, show ('9' : Char).toNat = 57 from rfl,
    show ('a' : Char).toNat = 97 from rfl, show ('z' : Char).toNat = 122 from rfl, show ('A' : Char).toNat = 65 from rfl,
    show ('Z' : Char).toNat = 90 from rfl, show ('_' : Char).toNat = 95 from rfl, show ('/' : Char).toNat = 47 from rfl,
    show ('-' : Char).toNat = 45 from rfl, show ('+' : Char).toNat = 43 from rfl]
  omega

theorem takeWhile_zone (p : Char → Bool) (z : List Char) (hz : ∀ c ∈ z, p c = true) (hb : ∀ c r, b = c :: r → p c = false) :
    (z ++ b).takeWhile p = z ∧ (z ++ b).dropWhile p = b := by
  induction z with
  | nil =>
    cases b with
    | nil => simp
    | cons c r => simp [hb c r rfl]
  | cons c z ih =>
    have := ih (fun c hc => hz c (List.mem_cons_of_mem _ hc))
    simp [hz c List.mem_cons_self, this]

theorem xreads_Z (hz : ZoneName X.z) (hb : ∀ c r, b = c :: r → ZoneLetter c = false) : XReads e F X sk none 'Z' X.z b := by
  obtain ⟨h1, h2⟩ := hz
  obtain ⟨y, s, hy⟩ := List.exists_cons_of_ne_nil h1
  have hsp : isSpace y = false := by
    have := h2 y (by rw [hy]; simp)
    cases hs : isSpace y
    · rfl
    · exfalso
      simp only [ZoneLetter, isSpace, Bool.or_eq_true, Bool.and_eq_true, decide_eq_true_eq] at this hs
      rcases hs with rfl | hs
      · revert this; decide
      · rcases this with (((((h | h) | h) | h) | h) | h) | h
        · omega
        · omega
        · omega
        all_goals
          subst h
          revert hs; decide
  intro is L tm hp
  obtain ⟨t1, t2⟩ := takeWhile_zone (b := b) isZoneChar X.z (fun c hc => by rw [zone_iff]; exact h2 c hc)
    (fun c r h => by rw [zone_iff]; exact hb c r h)
  have hp' : Pos sk is (y :: (s ++ b)) := by rw [hy] at hp; exact hp
  obtain rfl := pos_start hp' hsp
  refine ⟨rfl, rfl, ⟨b, b.isEmpty, false⟩, tm, pos_of b _ (by simp), ?_⟩
  rw [← List.cons_append, ← hy]
  have hne : X.z.isEmpty = false := by rw [hy]; rfl
  have hm : (xvars F X L tm).abbr = if 'Z' ∈ L then X.z else [] := rfl
  have hcs : ∀ is : IStream, is.fail = false → checkedSet (if 'Z' ∈ L then X.z else []) X.z [] is = (X.z, is) := by
    intro is h
    unfold checkedSet
    simp only [h, Bool.not_false, if_true]
    split <;> split <;> simp_all
  rw [pstep_conv rfl (by decide)]
  simp only [pconv, if_true, good_mk, Bool.not_false, Bool.and_self, t1, t2, hne, Bool.false_or, Res.pure_eq, Res.ok_bind, setAbbrev, hm,
    hcs, PState.reset]
  fin

end

/-! ### The loop -/

theorem pos_fail {is : IStream} {sk : Bool} {t : List Char} (h : Pos sk is t) : is.fail = false := by
  cases sk
  · obtain ⟨eo, -, rfl⟩ := h; rfl
  · rw [show is = _ from h]

theorem pos_nil {is : IStream} {sk : Bool} (h : Pos sk is []) : is.rest = [] := by
  cases sk
  · obtain ⟨eo, -, rfl⟩ := h; rfl
  · rw [show is = _ from h]; rfl

theorem step_lit {e : PEnv} {is : IStream} {v : PVars} {c : Char} {t : List Char} {sk : Bool} (hc : c ≠ '%') (h : Pos sk is (c :: t)) :
    ∃ is', pstep e ⟨is, v, none, none, -1⟩ c = .ok ⟨is', v, none, none, -1⟩ ∧ Pos (isSpace c) is' t := by
  unfold pstep
  simp only [if_neg hc]
  by_cases hs : isSpace c = true
  · simp only [hs, if_true]
    cases sk
    · obtain rfl := pos_exact h
      refine ⟨_, rfl, ?_⟩
      simp [Pos, IStream.ws, List.dropWhile_cons, hs]
    · have h : is = ⟨t.dropWhile isSpace, (t.dropWhile isSpace).isEmpty, false⟩ := by
        have : is = _ := h
        rw [this, List.dropWhile_cons, if_pos hs]
      subst h
      split
      · refine ⟨_, rfl, ?_⟩
        simp [Pos, IStream.ws, dropWhile_idem]
      · exact ⟨_, rfl, rfl⟩
  · have hs : isSpace c = false := by simpa using hs
    obtain rfl := pos_start h hs
    simp only [hs, Bool.false_eq_true, if_false, readChar_exact]
    exact ⟨_, rfl, false, by simp, rfl⟩

theorem step_conv {e : PEnv} {F : Facts} {X : More} {is : IStream} {L : List Char} {tm : Tm} {md : Option Char} {c : Char}
    {a b : List Char} {sk : Bool} (hmd : md = none ∨ md = some 'E' ∨ md = some 'O') (hc : isDig c = false)
    (h : Pos sk is (a ++ b)) (hr : XReads e F X sk md c a b) (r : List Char) (fuel : Nat)
    (hf : (source (.conv md c) ++ r).length ≤ fuel) :
    ∃ fuel' is' tm', r.length ≤ fuel' ∧ Pos false is' b ∧
      ploop e fuel (source (.conv md c) ++ r) ⟨is, xvars F X L tm, none, none, -1⟩ =
      ploop e fuel' r ⟨is', xvars F X (c :: L) tm', none, none, -1⟩ := by
  obtain ⟨h1, h2, is', tm', h3, hr⟩ := hr is L tm h
  have pct : ∀ r fuel, ploop e (fuel + 1) ('%' :: r) ⟨is, xvars F X L tm, none, none, -1⟩ =
      ploop e fuel r ⟨is, xvars F X L tm, some ['%'], none, -1⟩ := by
    intro r fuel
    rw [ploop_cons _ _ _ _ h1 (Or.inr rfl)]
    rfl
  rcases hmd with rfl | rfl | rfl
  · simp only [source, Option.toList, List.nil_append, List.cons_append, List.length_cons] at hf ⊢
    obtain ⟨k, rfl⟩ : ∃ k, fuel = k + 1 + 1 := ⟨fuel - 2, by omega⟩
    refine ⟨k, is', tm', by omega, h3, ?_⟩
    rw [pct, ploop_cons _ _ _ _ h1 (Or.inl hc), show (['%'] : List Char) = '%' :: Option.toList none from rfl, hr]
    rfl
  · simp only [source, Option.toList, List.nil_append, List.cons_append, List.length_cons] at hf ⊢
    obtain ⟨k, rfl⟩ : ∃ k, fuel = k + 1 + 1 + 1 := ⟨fuel - 3, by omega⟩
    refine ⟨k, is', tm', by omega, h3, ?_⟩
    rw [pct, ploop_cons _ _ _ _ h1 (Or.inl (by decide))]
    have : pstep e ⟨is, xvars F X L tm, some ['%'], none, -1⟩ 'E' =
      .ok ⟨is, xvars F X L tm, some ('%' :: Option.toList (some 'E')), some 'E', -1⟩ := rfl
    rw [this]
    simp only [Res.ok_bind]
    rw [ploop_cons _ _ _ _ h1 (Or.inl hc), hr]
    rfl
  · simp only [source, Option.toList, List.nil_append, List.cons_append, List.length_cons] at hf ⊢
    obtain ⟨k, rfl⟩ : ∃ k, fuel = k + 1 + 1 + 1 := ⟨fuel - 3, by omega⟩
    refine ⟨k, is', tm', by omega, h3, ?_⟩
    rw [pct, ploop_cons _ _ _ _ h1 (Or.inl (by decide))]
    have : pstep e ⟨is, xvars F X L tm, some ['%'], none, -1⟩ 'O' =
      .ok ⟨is, xvars F X L tm, some ('%' :: Option.toList (some 'O')), some 'O', -1⟩ := rfl
    rw [this]
    simp only [Res.ok_bind]
    rw [ploop_cons _ _ _ _ h1 (Or.inl hc), hr]
    rfl

/-- What is known about the texts. -/
structure XKnown (F : Facts) (X : More) (e : PEnv) (loc : TimePut) (day : Nat) (x : Subject) : Prop where
  known : Known F e.T x
  names : ReadsNames loc e.loc.get
  date : ∀ n d, x.date = some (n, d) → 1 ≤ d.month ∧ d.month ≤ 12 ∧ d.day = day
  time : ∀ t, x.time = some t → t.hour < 24 ∧ X.I = hour12 t.hour ∧ X.p = if t.hour < 12 then 0 else 1
  zone : ∀ z, x.zone = some z → X.z = z

/-- A number begins with a digit, a sign or `%`. -/
def Num0 (a : List Char) : Prop := ∃ y r, a = y :: r ∧ Letter y = false

theorem num0_digits {M v : Nat} {s : List Char} (h : Digits M v s) (h1 : 1 ≤ M) : Num0 s := by
  obtain ⟨c, s', rfl, hc⟩ := digits_cons h h1
  have := dig_le hc
  refine ⟨c, s', rfl, ?_⟩
  simp only [Letter, Bool.or_eq_false_iff, Bool.and_eq_false_iff, decide_eq_false_iff_not]
  omega

theorem num0_atLeast {k : Nat} {v : Int} {s : List Char} (h : AtLeast k v s) (h1 : 1 ≤ k) : Num0 s := by
  obtain ⟨s, j, h2, h3, -, rfl⟩ := h
  split
  · exact ⟨_, _, rfl, by decide⟩
  · exact num0_digits h3 (by omega)

theorem num0_year {v : Int} {s : List Char} (h : YearText v s) : Num0 s := by
  obtain ⟨s, j, h2, h3, -, rfl⟩ := h
  split
  · exact ⟨_, _, rfl, by decide⟩
  · exact num0_digits h3 (by omega)

theorem Num0.append {s t : List Char} (h : Num0 s) : Num0 (s ++ t) := by
  obtain ⟨y, r, rfl, h⟩ := h
  exact ⟨y, r ++ t, rfl, h⟩

theorem num0_seconds {w : Nat} {x : Time} {s : List Char} (h : Seconds w x s) : Num0 s := by
  obtain ⟨a, b, rfl, h, -⟩ := h
  exact (num0_digits h (by omega)).append

theorem num0_readable {loc : TimePut} {x : Subject} {md : Option Char} {c : Char} {a : List Char} (hr : Readable (.conv md c))
    (h : Says loc x (.conv md c) a) : Num0 a := by
  rcases hr with ⟨rfl, hc⟩ | ⟨rfl, hmd⟩
  · simp only [plain, List.mem_cons, List.not_mem_nil, or_false] at hc
    rcases hc with rfl | rfl | rfl | rfl | rfl | rfl | rfl | rfl | rfl | rfl | rfl | rfl | rfl | rfl | rfl | rfl | rfl |
      rfl | rfl | rfl <;> simp [Says, usesDate, usesTime] at h
    · obtain ⟨n, d, -, h⟩ := h; exact num0_year h
    · obtain ⟨n, d, -, h⟩ := h; exact num0_digits h (by omega)
    · obtain ⟨n, d, -, h⟩ := h; exact num0_atLeast h (by omega)
    · obtain ⟨n, d, -, h⟩ := h; exact num0_digits h (by omega)
    · obtain ⟨n, d, -, h⟩ := h; exact num0_digits h (by omega)
    · obtain ⟨n, d, -, a, b, c, rfl, h, -⟩ := h; exact (num0_digits h (by omega)).append
    · obtain ⟨n, d, -, a, b, c, rfl, h, -⟩ := h; exact (num0_year h).append
    · rcases h with ⟨n, d, -, ny, -, h⟩ | ⟨-, t, -, h⟩
      · exact num0_digits h (by omega)
      · exact num0_atLeast h (by omega)
    · obtain ⟨t, -, h⟩ := h; exact num0_atLeast h (by omega)
    · obtain ⟨t, -, h⟩ := h; exact num0_digits h (by omega)
    · obtain ⟨t, -, h⟩ := h; exact num0_seconds h
    · obtain ⟨t, -, a, b, c, rfl, h, -⟩ := h; exact (num0_atLeast h (by omega)).append
    · obtain ⟨t, -, a, b, rfl, h, -⟩ := h; exact (num0_atLeast h (by omega)).append
    · obtain ⟨n, d, -, h⟩ := h; exact num0_digits h (by omega)
    · obtain ⟨n, d, -, h⟩ := h; exact num0_digits h (by omega)
    · obtain ⟨n, d, -, g, v, -, h⟩ := h; exact num0_year h
    · obtain ⟨n, d, -, g, v, -, h⟩ := h; exact num0_digits h (by omega)
    · obtain ⟨n, d, -, ny, -, h⟩ := h; exact num0_digits h (by omega)
    · obtain ⟨n, d, -, ny, -, h⟩ := h; exact num0_digits h (by omega)
    · subst h; exact ⟨_, _, rfl, by decide⟩
  · have hh : ∃ o, x.offset = some o ∧ OffsetText md.isSome o a := by
      rcases hmd with rfl | rfl | rfl <;> simpa [Says, usesDate, usesTime] using h
    obtain ⟨o, -, p, q, -, -, rfl⟩ := hh
    exact ⟨_, _, rfl, by split <;> decide⟩

/-- What follows a name. -/
theorem ends_name {loc : TimePut} {x : Subject} {day : Nat} {its : List Item} {b : List Char} (h : EndsName its) (hf : Legible day false its)
    (hs : SaysAll loc x its b) : NameEnds b := by
  rintro y r rfl
  rcases its with _ | ⟨_ | ⟨md, c⟩, its⟩
  · cases hs
  · obtain ⟨a, b, h1, h2, -⟩ := hs
    simp only [Says] at h2
    subst h2
    simp only [List.cons_append, List.nil_append, List.cons.injEq] at h1
    rw [h1.1]; exact h
  · obtain ⟨a, b, h1, h2, -⟩ := hs
    have fin : Num0 a → Letter y = false := by
      rintro ⟨z, r', rfl, hz⟩
      simp only [List.cons_append, List.cons.injEq] at h1
      rw [h1.1]; exact hz
    apply fin
    obtain ⟨hf | ⟨-, h3, -⟩ | ⟨rfl, rfl⟩ | ⟨rfl, rfl, h3⟩ | ⟨rfl, rfl | rfl, -⟩ | ⟨-, h3, -⟩, -⟩ := hf
    · exact num0_readable hf h2
    · exact absurd h3 h.1
    · simp [Says, usesDate, usesTime] at h2
      obtain ⟨t, -, h2⟩ := h2
      exact num0_digits h2 (by omega)
    · simp [Says, usesDate, usesTime] at h2
      obtain ⟨n, d, -, h2⟩ := h2
      simp only [SaysDate] at h2
      split at h2
      · obtain ⟨s, rfl, -⟩ := h2
        exact ⟨_, _, rfl, by decide⟩
      · exact num0_digits h2 (by omega)
    · simp [Says, usesDate, usesTime] at h2
      subst h2; exact ⟨_, _, rfl, by decide⟩
    · simp [Says, usesDate, usesTime] at h2
      subst h2; exact ⟨_, _, rfl, by decide⟩
    · exact absurd h3 h.2

theorem ends_lit {loc : TimePut} {x : Subject} {its : List Item} {b : List Char} (P : Char → Bool)
    (h : its = [] ∨ ∃ c r, its = .lit c :: r ∧ P c = false) (hs : SaysAll loc x its b) : ∀ c r, b = c :: r → P c = false := by
  rintro y r rfl
  rcases h with rfl | ⟨c, r', rfl, h⟩
  · cases hs
  · obtain ⟨a, b, h1, h2, -⟩ := hs
    simp only [Says] at h2
    subst h2
    simp only [List.cons_append, List.nil_append, List.cons.injEq] at h1
    rw [h1.1]; exact h

theorem ends_zone {its : List Item} (h : EndsZone its) : its = [] ∨ ∃ c r, its = .lit c :: r ∧ ZoneLetter c = false := by
  rcases its with _ | ⟨c | ⟨md, c⟩, its⟩
  · exact Or.inl rfl
  · exact Or.inr ⟨c, its, rfl, h⟩
  · exact absurd h id

theorem ends_number {its : List Item} (h : EndsNumber its) : its = [] ∨ ∃ c r, its = .lit c :: r ∧ isDigit c = false := by
  rcases its with _ | ⟨c | ⟨md, c⟩, its⟩
  · exact Or.inl rfl
  · exact Or.inr ⟨c, its, rfl, h⟩
  · exact absurd h id

theorem legible_conv {day : Nat} {sk : Bool} {md : Option Char} {c : Char} {its : List Item} (h : Legible day sk (.conv md c :: its)) :
    (md = none ∨ md = some 'E' ∨ md = some 'O') ∧ isDig c = false := by
  obtain ⟨h | ⟨rfl, h, -⟩ | ⟨rfl, rfl⟩ | ⟨rfl, rfl, -⟩ | ⟨rfl, rfl | rfl, -⟩ | ⟨rfl, rfl, -⟩, -⟩ := h
  · exact readable_conv h
  · refine ⟨Or.inl rfl, ?_⟩
    have : ∀ c ∈ nameLetters, isDig c = false := by decide
    exact this c h
  all_goals exact ⟨Or.inl rfl, by decide⟩

theorem xreads_of_says {e : PEnv} {F : Facts} {X : More} {loc : TimePut} {day : Nat} {x : Subject} (K : XKnown F X e loc day x) {sk : Bool}
    {md : Option Char} {c : Char} {its : List Item} {a b : List Char} (hl : Legible day sk (.conv md c :: its)) (hb : Bounds F c)
    (hj : c = 'j' → x.date ≠ none) (hz : c = 'Z' → ∀ z, x.zone = some z → ZoneName z) (h : Says loc x (.conv md c) a) (hs : SaysAll loc x its b) : XReads e F X sk md c a b := by
  obtain ⟨hl, hr⟩ := hl
  rcases hl with hl | ⟨rfl, hc, hl⟩ | ⟨rfl, rfl⟩ | ⟨rfl, rfl, hl⟩ | ⟨rfl, hc, rfl⟩ | ⟨rfl, rfl, hl⟩
  · exact xreads_readable X sk b hl (reads_of_says K.known hl hb hj h)
  · have hn := ends_name hl hr hs
    simp only [nameLetters, List.mem_cons, List.not_mem_nil, or_false] at hc
    rcases hc with rfl | rfl | rfl | rfl | rfl | rfl <;> simp [Says, usesDate, usesTime] at h
    · obtain ⟨n, d, h1, tm, h2, rfl⟩ := h
      exact xreads_weekday (by decide) K.names (K.known.date n d h1).2.2.2.2.2.1 h2 hn
    · obtain ⟨n, d, h1, tm, h2, rfl⟩ := h
      exact xreads_weekday (by decide) K.names (K.known.date n d h1).2.2.2.2.2.1 h2 hn
    · obtain ⟨n, d, h1, tm, h2, rfl⟩ := h
      obtain ⟨k1, k2, -⟩ := K.date n d h1
      exact xreads_month (by decide) K.names k1 k2 (K.known.date n d h1).2.2.2.1 h2 hn
    · obtain ⟨n, d, h1, tm, h2, rfl⟩ := h
      obtain ⟨k1, k2, -⟩ := K.date n d h1
      exact xreads_month (by decide) K.names k1 k2 (K.known.date n d h1).2.2.2.1 h2 hn
    · obtain ⟨n, d, h1, tm, h2, rfl⟩ := h
      obtain ⟨k1, k2, -⟩ := K.date n d h1
      exact xreads_month (by decide) K.names k1 k2 (K.known.date n d h1).2.2.2.1 h2 hn
    · obtain ⟨t, h1, tm, h2, rfl⟩ := h
      obtain ⟨k1, -, k2⟩ := K.time t h1
      exact xreads_half K.names k1 k2 h2 hn
  · simp [Says, usesDate, usesTime] at h
    obtain ⟨t, h1, h2⟩ := h
    exact xreads_I (K.time t h1).2.1 h2
  · simp [Says, usesDate, usesTime] at h
    obtain ⟨n, d, h1, h2⟩ := h
    obtain ⟨-, -, k⟩ := K.date n d h1
    refine xreads_e (K.known.date n d h1).2.2.2.2.1 h2 ?_
    rw [k]
    exact hl.imp id (fun h => ⟨h.1, ends_lit isDigit (ends_number h.2) hs⟩)
  · rcases hc with rfl | rfl <;> simp [Says, usesDate, usesTime] at h <;> subst h
    · exact xreads_nt (Or.inl ⟨rfl, rfl⟩)
    · exact xreads_nt (Or.inr ⟨rfl, rfl⟩)
  · simp [Says, usesDate, usesTime] at h
    have := K.zone a h
    subst this
    exact xreads_Z (hz rfl _ h) (ends_lit ZoneLetter (ends_zone hl) hs)

theorem xvars_congr (F : Facts) (X : More) {L L' : List Char} (tm : Tm) (h : ∀ c, c ∈ L ↔ c ∈ L') : xvars F X L tm = xvars F X L' tm := by
  unfold xvars
  rw [vars_congr F (L' := L'.map sameAs) (by simp [h])]
  unfold extra
  simp [h]

theorem ploop_items {e : PEnv} {F : Facts} {X : More} {loc : TimePut} {day : Nat} {x : Subject} (K : XKnown F X e loc day x)
    (its : List Item) : ∀ (t : List Char) (is : IStream) (L : List Char) (tm : Tm) (sk : Bool) (fuel : Nat), Legible day sk its →
    (∀ c ∈ letters its, Bounds F c ∧ (c = 'j' → x.date ≠ none) ∧ (c = 'Z' → ∀ z, x.zone = some z → ZoneName z)) → SaysAll loc x its t → Pos sk is t →
    (its.flatMap source).length ≤ fuel →
    ∃ is' tm', ploop e fuel (its.flatMap source) ⟨is, xvars F X L tm, none, none, -1⟩ =
      .ok ⟨is', xvars F X (letters its ++ L) tm', none, none, -1⟩ ∧ is'.rest = [] ∧ is'.fail = false := by
  induction its with
  | nil =>
    intro t is L tm sk fuel _ _ h ha _
    cases h
    exact ⟨is, tm, by simp [ploop, letters], pos_nil ha, pos_fail ha⟩
  | cons i its ih =>
    intro t is L tm sk fuel hr hb h ha hl
    have h0 := h
    obtain ⟨a, b, rfl, h1, h2⟩ := h
    rw [List.flatMap_cons] at hl ⊢
    cases i with
    | lit c =>
      simp only [Says] at h1
      subst h1
      obtain ⟨hc, -, hr⟩ := hr
      have hr : Legible day (isSpace c) its := by
        rcases hr with ⟨hw, hr⟩ | ⟨hw, hr⟩
        · rw [(white_iff c).mp hw]; exact hr
        · rw [not_white hw]; exact hr
      obtain ⟨is', g1, g2⟩ := step_lit (e := e) (v := xvars F X L tm) hc ha
      simp only [source, List.cons_append, List.nil_append, List.length_cons] at hl ⊢
      obtain ⟨k, rfl⟩ : ∃ k, fuel = k + 1 := ⟨fuel - 1, by omega⟩
      obtain ⟨is'', tm', e1, e2⟩ := ih b is' L tm _ k hr hb h2 g2 (by omega)
      refine ⟨is'', tm', ?_, e2⟩
      rw [ploop_cons _ _ _ _ (pos_fail ha) (Or.inr rfl), g1]
      exact e1
    | conv md c =>
      obtain ⟨hmd, hcd⟩ := legible_conv hr
      obtain ⟨b1, b2, b3⟩ := hb c (by simp [letters])
      have hR := xreads_of_says (e := e) K hr b1 b2 b3 h1 h2
      obtain ⟨k, is', tm1, k1, k2, k3⟩ := step_conv (L := L) (tm := tm) hmd hcd ha hR _ fuel hl
      obtain ⟨is'', tm', e1, e2⟩ := ih b is' (c :: L) tm1 false k hr.2
        (fun c' hc' => hb c' (by simp only [letters, List.filterMap_cons, List.mem_cons]; exact Or.inr hc'))
        h2 k2 k1
      refine ⟨is'', tm', ?_, e2⟩
      rw [k3, e1]
      rw [xvars_congr F X (L' := letters (.conv md c :: its) ++ L)]
      intro c'
      simp only [letters, List.filterMap_cons, List.mem_append, List.mem_cons]
      tauto

/-- The loop on a format. -/
theorem ploop_fmt {e : PEnv} {F : Facts} {X : More} {loc : TimePut} {day : Nat} {x : Subject} (K : XKnown F X e loc day x)
    {fmt t : List Char} (hr : Legible day false (items fmt))
    (hb : ∀ c ∈ letters (items fmt), Bounds F c ∧ (c = 'j' → x.date ≠ none) ∧ (c = 'Z' → ∀ z, x.zone = some z → ZoneName z))
    (h : SaysAll loc x (items fmt) t) :
    ∃ is' tm, ploop e fmt.length fmt ⟨⟨t, false, false⟩, {}, none, none, -1⟩ =
      .ok ⟨is', xvars F X (letters (items fmt)) tm, none, none, -1⟩ ∧ is'.rest = [] ∧ is'.fail = false := by
  obtain ⟨is', tm, h1, h2⟩ := ploop_items (e := e) K (items fmt) t ⟨t, false, false⟩ [] {} false fmt.length hr hb h
    ⟨false, by simp, rfl⟩ (by rw [items_source])
  rw [items_source, List.append_nil] at h1
  exact ⟨is', tm, h1, h2⟩

/-! ### Putting the parts together -/

/-- The hour is the one of the format. -/
theorem theHour_xvars {F : Facts} {X : More} {L : List Char} {h : Nat} (hF : F.H = h) (hI : X.I = hour12 h) (hp : X.p = if h < 12 then 0 else 1)
    (h24 : h < 24) (hL : 'I' ∈ L → 'p' ∈ L) (tm : Tm) (v : PVars) (hvI : v.I = (xvars F X L tm).I) (hvp : v.p = (xvars F X L tm).p)
    (hvH : v.H = (xvars F X L tm).H) : theHour v = .ok (vars F (meaning L)).H := by
  have e1 : (xvars F X L tm).I = if 'I' ∈ L then X.I else 0 := rfl
  have e2 : (xvars F X L tm).p = if 'p' ∈ L then X.p else -1 := rfl
  have e3 : (xvars F X L tm).H = (vars F (L.map sameAs)).H := rfl
  by_cases h1 : 'I' ∈ L
  · have hm : (vars F (meaning L)).H = F.H := by simp [vars, meaning, h1]
    have h2 := hL h1
    rw [if_pos h1] at e1
    rw [if_pos h2] at e2
    have hH : v.H = -2147483648 ∨ v.H = F.H := by
      rw [hvH, e3]
      simp only [vars]
      split
      · exact Or.inr rfl
      · exact Or.inl rfl
    have hr : 1 ≤ X.I ∧ X.I ≤ 12 := by rw [hI]; unfold hour12; split <;> omega
    have hp1 : X.p ≠ -1 := by rw [hp]; split <;> decide
    have hh : X.I + (if X.I = 12 then X.p - 1 else X.p) * 12 = F.H := by
      rw [hI, hp, hF]; unfold hour12; split <;> split <;> split <;> omega
    rw [hm]
    unfold theHour
    rw [hvI, hvp, e1, e2]
    simp only [show ¬ X.I = 0 by omega, hr.1, hr.2, if_false, decide_true, Bool.and_self, Bool.not_true, Bool.false_eq_true, hp1, ne_eq,
      not_false_eq_true, if_true, hh, Res.pure_eq]
    rcases hH with hH | hH
    · simp [hH]
    · rw [hH]; simp
  · rw [if_neg h1] at e1
    unfold theHour
    rw [hvI, e1, if_pos rfl, hvH, e3]
    simp [meaning, h1]

end Gul14.Date.Names
