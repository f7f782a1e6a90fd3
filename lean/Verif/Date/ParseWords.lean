import Verif.Date.ParseClaims
import Verif.Date.ParseWordsSpec

/-! # What parse has read: formats with names, twelve-hour clock and zone -/
namespace Gul14.Date.Words
open Gul14.Spec.Calendar Gul14.Spec.DateText Gul14.Spec.DateFormat Gul14.Spec.DateParse

/-- The numeric conversion that may set the same variables. -/
def trc (c : Char) : Char :=
  if c = 'a' ∨ c = 'A' then 'w' else if c = 'b' ∨ c = 'B' ∨ c = 'h' then 'm' else if c = 'e' then 'd'
  else if c = 'I' then 'H' else if c = 'p' ∨ c = 'Z' ∨ c = 'n' then '%' else c

/-- What the text `a` of a conversion has to do with the variables. -/
def AgreeW (W : Words) (T : Nat) (v : PVars) (md : Option Char) (c : Char) (a : List Char) : Prop :=
  if c = 'a' ∨ c = 'A' then ∃ w : Nat, W.weekday w a ∧ w ≤ 6 ∧ Has v .wd w
  else if c = 'b' ∨ c = 'B' ∨ c = 'h' then ∃ m : Nat, W.month m a ∧ 1 ≤ m ∧ m ≤ 12 ∧ Has v .m m
  else if c = 'e' then ∃ x, SNum 2 x a ∧ Has v .d x
  else if c = 'I' then ∃ x, SNum 2 x a ∧ 1 ≤ x ∧ x ≤ 12 ∧ v.I = x
  else if c = 'p' then ∃ b : Bool, W.half b a ∧ v.p = if b then 1 else 0
  else if c = 'Z' then ZoneName a ∧ v.abbr = a
  else if c = 'n' then ∃ s, a = [s] ∧ White s
  else AgreeV T v md c a

/-- Each variable is unchanged, or it was unset and one of the conversions `L` has set it. -/
structure StepW (L : List Char) (v v' : PVars) : Prop where
  fld : ∀ f, get v' f = get v f ∨ (get v f = unset f ∧ InRange f (get v' f) ∧ ∃ c ∈ L, f ∈ fieldsOf (trc c))
  g : v'.g = v.g
  I : v'.I = v.I ∨ (v.I = 0 ∧ 1 ≤ v'.I ∧ v'.I ≤ 12 ∧ 'I' ∈ L)
  p : v'.p = v.p ∨ (v.p = -1 ∧ (v'.p = 0 ∨ v'.p = 1) ∧ 'p' ∈ L)
  abbr : v'.abbr = v.abbr ∨ (v.abbr = [] ∧ 'Z' ∈ L)

theorem StepW.refl (L : List Char) (v : PVars) : StepW L v v := ⟨fun _ => Or.inl rfl, rfl, Or.inl rfl, Or.inl rfl, Or.inl rfl⟩

theorem StepW.keeps {L : List Char} {v v' : PVars} (h : StepW L v v') : Keeps v v' := fun f => (h.fld f).imp id And.left

theorem StepW.mono {L L' : List Char} {v v' : PVars} (h : StepW L v v') (hl : ∀ c ∈ L, c ∈ L') : StepW L' v v' :=
  ⟨fun f => (h.fld f).imp id fun ⟨a, b, c, d, e⟩ => ⟨a, b, c, hl c d, e⟩, h.g,
    h.I.imp id fun ⟨a, b, c, d⟩ => ⟨a, b, c, hl _ d⟩, h.p.imp id fun ⟨a, b, d⟩ => ⟨a, b, hl _ d⟩, h.abbr.imp id fun ⟨a, d⟩ => ⟨a, hl _ d⟩⟩

theorem StepW.trans {L : List Char} {v v' v'' : PVars} (h : StepW L v v') (h' : StepW L v' v'') : StepW L v v'' := by
  refine ⟨fun f => ?_, h'.g.trans h.g, ?_, ?_, ?_⟩
  · rcases h.fld f with a | ⟨a, b⟩ <;> rcases h'.fld f with c | ⟨c, d⟩
    · exact Or.inl (c.trans a)
    · exact Or.inr ⟨a ▸ c, d⟩
    · exact Or.inr ⟨a, c ▸ b⟩
    · exact Or.inr ⟨a, d⟩
  · rcases h.I with a | ⟨a, b⟩ <;> rcases h'.I with c | ⟨c, d⟩
    · exact Or.inl (c.trans a)
    · exact Or.inr ⟨a ▸ c, d⟩
    · exact Or.inr ⟨a, c ▸ b⟩
    · exact Or.inr ⟨a, d⟩
  · rcases h.p with a | ⟨a, b⟩ <;> rcases h'.p with c | ⟨c, d⟩
    · exact Or.inl (c.trans a)
    · exact Or.inr ⟨a ▸ c, d⟩
    · exact Or.inr ⟨a, c ▸ b⟩
    · exact Or.inr ⟨a, d⟩
  · rcases h.abbr with a | ⟨a, b⟩ <;> rcases h'.abbr with c | ⟨c, d⟩
    · exact Or.inl (c.trans a)
    · exact Or.inr ⟨a ▸ c, d⟩
    · exact Or.inr ⟨a, b⟩
    · exact Or.inr ⟨a, d⟩

theorem AgreeW.step {W : Words} {T : Nat} {L : List Char} {v v' : PVars} {md : Option Char} {c : Char} {a : List Char}
    (h : AgreeW W T v md c a) (hs : StepW L v v') : AgreeW W T v' md c a := by
  unfold AgreeW at *
  split
  · rename_i e; rw [if_pos e] at h
    obtain ⟨w, h1, h2, h3⟩ := h; exact ⟨w, h1, h2, h3.keep hs.keeps⟩
  rename_i e; rw [if_neg e] at h; clear e
  split
  · rename_i e; rw [if_pos e] at h
    obtain ⟨w, h1, h2, h3, h4⟩ := h; exact ⟨w, h1, h2, h3, h4.keep hs.keeps⟩
  rename_i e; rw [if_neg e] at h; clear e
  split
  · rename_i e; rw [if_pos e] at h
    obtain ⟨w, h1, h2⟩ := h; exact ⟨w, h1, h2.keep hs.keeps⟩
  rename_i e; rw [if_neg e] at h; clear e
  split
  · rename_i e; rw [if_pos e] at h
    obtain ⟨x, h1, h2, h3, h4⟩ := h
    refine ⟨x, h1, h2, h3, ?_⟩
    rcases hs.I with h | h <;> omega
  rename_i e; rw [if_neg e] at h; clear e
  split
  · rename_i e; rw [if_pos e] at h
    obtain ⟨b, h1, h2⟩ := h
    refine ⟨b, h1, ?_⟩
    rcases hs.p with h | h
    · exact h.trans h2
    · rw [h.1] at h2; cases b <;> simp at h2
  rename_i e; rw [if_neg e] at h; clear e
  split
  · rename_i e; rw [if_pos e] at h
    refine ⟨h.1, ?_⟩
    rcases hs.abbr with h' | h'
    · exact h'.trans h.2
    · exact absurd (h.2.symm.trans h'.1) h.1.1
  rename_i e; rw [if_neg e] at h; clear e
  split
  · rename_i e; rw [if_pos e] at h
    exact h
  rename_i e; rw [if_neg e] at h
  exact h.keep hs.keeps

theorem trc_plain {md : Option Char} {c : Char} (h : Readable (.conv md c)) : trc c = c ∧ ∀ W T v a, AgreeW W T v md c a = AgreeV T v md c a := by
  have : trc c = c ∧ ¬ (c = 'a' ∨ c = 'A') ∧ ¬ (c = 'b' ∨ c = 'B' ∨ c = 'h') ∧ c ≠ 'e' ∧ c ≠ 'I' ∧ c ≠ 'p' ∧ c ≠ 'Z' ∧ c ≠ 'n' := by
    rcases h with ⟨-, h⟩ | ⟨rfl, -⟩
    · revert c; decide
    · decide
  obtain ⟨h0, h1, h2, h3, h4, h5, h6, h7⟩ := this
  refine ⟨h0, fun W T v a => ?_⟩
  unfold AgreeW
  rw [if_neg h1, if_neg h2, if_neg h3, if_neg h4, if_neg h5, if_neg h6, if_neg h7]

theorem stepW_of {md : Option Char} {c : Char} (h : Readable (.conv md c)) {v v' : PVars} (hs : Step [c] v v') : StepW [c] v v' := by
  obtain ⟨h1, h2, h3, h4, h5⟩ := hs
  refine ⟨fun f => (h1 f).imp id fun ⟨a, b, x, hx, d⟩ => ⟨a, b, x, hx, ?_⟩, h2, Or.inl h3, Or.inl h4, Or.inl h5⟩
  rw [List.mem_singleton] at hx
  subst hx
  rw [(trc_plain h).1]
  exact d

/-! ### The conversions -/

theorem stepW_put {c : Char} {v : PVars} {f : Fld} {x : Int} (h : get v f = unset f ∨ get v f = x) (hx : InRange f x)
    (hc : f ∈ fieldsOf (trc c)) (tm : Tm) : StepW [c] v { put f x v with tm := tm } := by
  have e : ∀ g, get { put f x v with tm := tm } g = get (put f x v) g := fun g => by cases g <;> rfl
  refine ⟨fun g => ?_, ?_, ?_, ?_, ?_⟩
  · rw [e, get_put]
    split
    · rename_i e
      subst e
      rcases h with h | h
      · exact Or.inr ⟨h, hx, c, List.mem_singleton_self c, hc⟩
      · exact Or.inl h.symm
    · exact Or.inl rfl
  · cases f <;> rfl
  · left; cases f <;> rfl
  · left; cases f <;> rfl
  · left; cases f <;> rfl

variable {W : Words} {e : PEnv} {is : IStream} {v : PVars}

theorem set_fail {is : IStream} {a b : Bool} (h : (is.set a b).fail = false) : is.fail = false ∧ b = false := by
  unfold IStream.set at h
  simpa using h

/-- The state after a conversion. -/
def Done (W : Words) (T : Nat) (is : IStream) (v : PVars) (c : Char) (st' : PState) : Prop :=
  ∃ a, is.rest = a ++ st'.is.rest ∧ AgreeW W T st'.v none c a ∧ StepW [c] v st'.v

theorem done_weekday (hW : KnowsWords W e.loc.get) {c : Char} (hc : c = 'a' ∨ c = 'A') {st' : PState}
    (h : pconv e ⟨is, v, some ['%'], none, -1⟩ c = .ok st') (hf : st'.is.fail = false) : Done W e.T is v c st' := by
  have hcm : c ∈ ['a', 'A'] := by rcases hc with rfl | rfl <;> decide
  have h' : (let (i, tm, eo, fa) := PState.facet e ⟨is, v, some ['%'], none, -1⟩ c
      let st : PState := { (⟨is, v, some ['%'], none, -1⟩ : PState) with is := i.set eo fa, v := { v with tm := tm } }
      let trial := if st.is.fail then 8 else tm.wday
      (if trial ≠ 8 then setwd trial st else st)) = st' := by
    rcases hc with rfl | rfl <;> (simp only [pconv, if_true, Res.pure_eq, Res.ok.injEq] at h; exact h)
  rcases hg : e.loc.get v.tm ['%', c] is.rest with ⟨tm, r, eo, fa⟩
  simp only [PState.facet, Option.getD_some, List.cons_append, List.nil_append, hg] at h'
  rcases hff : (IStream.set { is with rest := r } eo fa).fail with _ | _
  · obtain ⟨-, rfl⟩ := set_fail hff
    obtain ⟨a, w, h1, h2, h3, h4⟩ := hW.weekday c hcm _ _ _ _ _ hg
    rw [hff] at h'
    simp only [Bool.false_eq_true, if_false, h4] at h'
    rw [if_pos (by omega)] at h'
    subst h'
    obtain ⟨s1, s2, s3⟩ := setter_wd _ _ hf
    rw [s2]
    refine ⟨a, h1, ?_, ?_⟩
    · unfold AgreeW
      rw [if_pos hc]
      exact ⟨w, h2, h3, has_put _ _ _⟩
    · exact stepW_put (v := v) (f := .wd) s3 (by simp only [InRange]; omega) (by rcases hc with rfl | rfl <;> decide) tm
  · rw [hff] at h'
    simp only [if_true, ne_eq, not_true_eq_false, if_false] at h'
    subst h'
    rw [hf] at hff; cases hff

theorem done_month (hW : KnowsWords W e.loc.get) {c : Char} (hc : c = 'b' ∨ c = 'B' ∨ c = 'h') {st' : PState}
    (h : pconv e ⟨is, v, some ['%'], none, -1⟩ c = .ok st') (hf : st'.is.fail = false) : Done W e.T is v c st' := by
  have hcm : c ∈ ['b', 'B', 'h'] := by rcases hc with rfl | rfl | rfl <;> decide
  have h' : (do
      let (i, tm, eo, fa) := PState.facet e ⟨is, v, some ['%'], none, -1⟩ c
      let x ← if !fa then int (tm.mon + 1) else pure 0
      let st : PState := { (⟨is, v, some ['%'], none, -1⟩ : PState) with is := i.set eo fa, v := { v with tm := tm } }
      pure (setm x st) : Res PState) = .ok st' := by
    rcases hc with rfl | rfl | rfl <;> (simp only [pconv, if_true] at h ⊢; exact h)
  rcases hg : e.loc.get v.tm ['%', c] is.rest with ⟨tm, r, eo, fa⟩
  simp only [PState.facet, Option.getD_some, List.cons_append, List.nil_append, hg] at h'
  rcases fa with _ | _
  · obtain ⟨a, m, h1, h2, h3, h4, h5⟩ := hW.month c hcm _ _ _ _ _ hg
    simp only [Bool.not_false, if_true, h5] at h'
    rw [int_ok (by omega) (by omega)] at h'
    simp only [Res.ok_bind, Res.pure_eq, Res.ok.injEq] at h'
    subst h'
    obtain ⟨s1, s2, s3⟩ := setter_m _ _ hf
    rw [s2]
    refine ⟨a, h1, ?_, ?_⟩
    · unfold AgreeW
      rw [if_neg (by rcases hc with rfl | rfl | rfl <;> decide), if_pos hc]
      refine ⟨m, h2, h3, h4, ?_⟩
      have := has_put { v with tm := tm } .m ((m : Int) - 1 + 1)
      rwa [show (m : Int) - 1 + 1 = m by omega] at this ⊢
    · exact stepW_put (v := v) (f := .m) s3 (by simp only [InRange]; omega) (by rcases hc with rfl | rfl | rfl <;> decide) tm
  · simp only [Bool.not_true, Bool.false_eq_true, if_false, Res.pure_eq, Res.ok_bind, Res.ok.injEq] at h'
    subst h'
    have := (set_fail (setter_m _ _ hf).1).2
    cases this

theorem checkedSet_any {α : Type} [DecidableEq α] {value new nv : α} {is : IStream} (h : (checkedSet value new nv is).2.fail = false) :
    is.fail = false ∧ checkedSet value new nv is = (new, is) ∧ (value = nv ∨ value = new) := by
  unfold checkedSet at *
  rcases hf : is.fail with _ | _ <;> simp only [hf, Bool.not_false, Bool.not_true, if_true, Bool.false_eq_true, if_false] at h ⊢
  · by_cases h1 : value = nv
    · simp [h1]
    · simp only [h1, if_false] at h ⊢
      by_cases h2 : value = new
      · simp [h2]
      · simp [h2, IStream.setFail] at h
  · cases h

theorem done_half (hW : KnowsWords W e.loc.get) {st' : PState}
    (h : pconv e ⟨is, v, some ['%'], none, -1⟩ 'p' = .ok st') (hf : st'.is.fail = false) : Done W e.T is v 'p' st' := by
  simp only [pconv, if_true, PState.facet, Option.getD_some, List.cons_append, List.nil_append, Res.pure_eq, Res.ok.injEq] at h
  rcases hg : e.loc.get { hour := 1 } ['%', 'p'] is.rest with ⟨tm, r, eo, fa⟩
  simp only [hg] at h
  subst h
  obtain ⟨h1, h2, h3⟩ := checkedSet_any hf
  obtain ⟨-, rfl⟩ := set_fail h1
  obtain ⟨a, b, a1, a2, a3⟩ := hW.half _ _ _ _ _ hg rfl
  have hp : (if tm.hour = 1 then (0 : Int) else if tm.hour = 13 then 1 else -1) = if b then 1 else 0 := by
    rw [a3]; cases b <;> simp
  simp only [hp] at h2 h3
  refine ⟨a, ?_, ?_, ?_⟩
  · simp only [setp, hp, h2]; exact a1
  · unfold AgreeW
    rw [if_neg (by decide), if_neg (by decide), if_neg (by decide), if_neg (by decide), if_pos rfl]
    exact ⟨b, a2, by simp only [setp, hp, h2]⟩
  · refine ⟨fun f => Or.inl ?_, rfl, Or.inl rfl, ?_, Or.inl rfl⟩
    · cases f <;> rfl
    · simp only [setp, hp, h2]
      rcases h3 with h3 | h3
      · exact Or.inr ⟨h3, by cases b <;> simp, by decide⟩
      · exact Or.inl h3.symm

theorem done_e {st' : PState} (h : pconv e ⟨is, v, some ['%'], none, -1⟩ 'e' = .ok st') (hf : st'.is.fail = false) :
    Done W e.T is v 'e' st' := by
  simp only [pconv, if_true, PState.max] at h
  obtain ⟨a, x, h1, h2, h3, h4⟩ := number_rs (c := 'd') setter_d (by omega) (by omega) (by decide) (by simp [InRange]; omega) h hf
  refine ⟨a, h1, ?_, ?_⟩
  · unfold AgreeW
    rw [if_neg (by decide), if_neg (by decide), if_pos rfl]
    exact ⟨x, h2, h3⟩
  · obtain ⟨g1, g2, g3, g4, g5⟩ := h4
    refine ⟨fun f => (g1 f).imp id fun ⟨a, b, x, hx, d⟩ => ⟨a, b, 'e', by simp, ?_⟩, g2, Or.inl g3, Or.inl g4, Or.inl g5⟩
    rw [List.mem_singleton] at hx
    subst hx
    exact d

theorem done_I {st' : PState} (h : pconv e ⟨is, v, some ['%'], none, -1⟩ 'I' = .ok st') (hf : st'.is.fail = false) :
    Done W e.T is v 'I' st' := by
  simp only [pconv, if_true, PState.max] at h
  obtain ⟨⟨xs, S, i1⟩, hq, h⟩ := bind_ok h
  simp only [Res.pure_eq, Res.ok.injEq] at h
  subst h
  obtain ⟨h1, h2, h3⟩ := checkedSet_any hf
  simp only at h1
  have hx : (1 ≤ xs.getD 0 0 ∧ xs.getD 0 0 ≤ 12) ∧ i1.fail = false := by
    split at h1
    · rename_i hh; exact ⟨by simpa using hh, h1⟩
    · simp [IStream.setFail] at h1
  obtain ⟨a, a1, a2⟩ := readSeq_sound _ _ _ _ _ (by simp [RArg.Small]) hq hx.2
  obtain ⟨x, ys, a', b, rfl, rfl, b3, rfl, -, rfl⟩ := a2
  simp only [List.getD_cons_zero] at h2 h3 hx
  have hd : (decide (1 ≤ x) && decide (x ≤ 12)) = true := by simp [hx.1]
  simp only [hd, if_true] at h2
  refine ⟨a', ?_, ?_, ?_⟩
  · simp only [setI, List.getD_cons_zero, hd, if_true, h2]
    simpa using a1
  · unfold AgreeW
    rw [if_neg (by decide), if_neg (by decide), if_neg (by decide), if_pos rfl]
    exact ⟨x, b3, hx.1.1, hx.1.2, by simp only [setI, List.getD_cons_zero, hd, if_true, h2]⟩
  · refine ⟨fun f => Or.inl ?_, rfl, ?_, Or.inl rfl, Or.inl rfl⟩
    · cases f <;> rfl
    · simp only [setI, List.getD_cons_zero, hd, if_true, h2]
      rcases h3 with h3 | h3
      · exact Or.inr ⟨h3, hx.1.1, hx.1.2, by decide⟩
      · exact Or.inl h3.symm

theorem zoneChar {c : Char} (h : isZoneChar c = true) : ZoneLetter c = true := by
  unfold isZoneChar isAlnum at h
  unfold ZoneLetter
  simp only [Bool.and_eq_true, Bool.or_eq_true, decide_eq_true_eq] at h ⊢
  obtain ⟨-, h⟩ := h
  tauto

theorem done_Z {st' : PState} (h : pconv e ⟨is, v, some ['%'], none, -1⟩ 'Z' = .ok st') (hf : st'.is.fail = false) :
    Done W e.T is v 'Z' st' := by
  simp only [pconv, if_true, Res.pure_eq, Res.ok.injEq] at h
  subst h
  obtain ⟨h1, h2, h3⟩ := checkedSet_any hf
  simp only [Bool.or_eq_false_iff] at h1
  have hg : is.good = true := by
    by_contra hg
    simp [hg] at h1
  simp only [hg, if_true] at h1 h2 h3 ⊢
  refine ⟨is.rest.takeWhile isZoneChar, ?_, ?_, ?_⟩
  · simp only [setAbbrev, h2]; simp
  · unfold AgreeW
    rw [if_neg (by decide), if_neg (by decide), if_neg (by decide), if_neg (by decide), if_neg (by decide), if_pos rfl]
    refine ⟨⟨by simpa using h1.2, fun c hc => ?_⟩, by simp only [setAbbrev, h2]⟩
    have := List.all_takeWhile (p := isZoneChar) (l := is.rest)
    rw [List.all_eq_true] at this
    exact zoneChar (this c hc)
  · refine ⟨fun f => Or.inl ?_, rfl, Or.inl rfl, Or.inl rfl, ?_⟩
    · cases f <;> rfl
    · simp only [setAbbrev, h2]
      rcases h3 with h3 | h3
      · exact Or.inr ⟨h3, by decide⟩
      · exact Or.inl h3.symm

/-! ### The loop -/

/-- The characters of a conversion with a word. -/
theorem word_sound (hW : KnowsWords W e.loc.get) {c : Char} (hc : c ∈ wordLetters) (r : List Char) (fuel : Nat)
    (hl : (source (.conv none c) ++ r).length ≤ fuel) {st' : PState}
    (h : ploop e fuel (source (.conv none c) ++ r) ⟨is, v, none, none, -1⟩ = .ok st') (hf : st'.is.fail = false) :
    ∃ fuel' is' v' a, r.length ≤ fuel' ∧ ploop e fuel' r ⟨is', v', none, none, -1⟩ = .ok st' ∧
      is.rest = a ++ is'.rest ∧ AgreeW W e.T v' none c a ∧ StepW [c] v v' := by
  have hf0 := ploop_fails h hf
  simp only at hf0
  have hcd : isDig c = false := (show ∀ c ∈ wordLetters, isDig c = false by decide) c hc
  simp only [source, Option.toList, List.nil_append, List.cons_append, List.length_cons] at hl h
  obtain ⟨k, rfl⟩ : ∃ k, fuel = k + 1 + 1 := ⟨fuel - 2, by omega⟩
  rw [ploop_cons _ _ _ _ hf0 (Or.inr rfl),
    show pstep e ⟨is, v, none, none, -1⟩ '%' = .ok ⟨is, v, some ['%'], none, -1⟩ from rfl] at h
  simp only [Res.ok_bind] at h
  rw [ploop_cons _ _ _ _ hf0 (Or.inl hcd)] at h
  by_cases hn : c = 'n'
  · subst hn
    have hp : pstep e ⟨is, v, some ['%'], none, -1⟩ 'n' = match is.peek with
        | (none, is) => .ok ⟨is.set true true, v, some ['%', 'n'], none, -1⟩
        | (some x, is) => .ok ⟨if isSpace x then is.get.2 else is.setFail, v, none, none, -1⟩ := by
      unfold pstep
      simp only [show ('n' ∈ pconvChars) = False by simp [pconvChars], if_false, true_or, if_true]
      rcases is.peek with ⟨_ | x, i⟩ <;> simp [PState.reset]
    rw [hp] at h
    rcases hpk : is.peek with ⟨_ | x, i⟩ <;> rw [hpk] at h <;> simp only [Res.ok_bind] at h
    · have := ploop_fails h hf
      simp [IStream.set] at this
    · have hf1 := ploop_fails h hf
      simp only at hf1
      obtain ⟨rfl, hg, r', hr'⟩ := peek_some hpk
      split at hf1
      · rename_i hx
        rw [if_pos hx] at h
        rw [get_good hg hr'] at h
        refine ⟨k, _, v, [x], by omega, h, hr', ?_, StepW.refl _ _⟩
        unfold AgreeW
        rw [if_neg (by decide), if_neg (by decide), if_neg (by decide), if_neg (by decide), if_neg (by decide), if_neg (by decide), if_pos rfl]
        exact ⟨x, rfl, (white_iff x).mpr hx⟩
      · simp [IStream.setFail] at hf1
  · have hpc : c ∈ pconvChars := (show ∀ c ∈ wordLetters, ¬ c = 'n' → c ∈ pconvChars by decide) c hc hn
    rw [pstep_conv rfl hpc] at h
    obtain ⟨st1', hp0, h⟩ := bind_ok h
    obtain ⟨st1, hp, hp'⟩ := bind_ok hp0
    cases hp'
    have hf1 := ploop_fails h hf
    change st1.is.fail = false at hf1
    have key : Done W e.T is v c st1 := by
      simp only [wordLetters, List.mem_cons, List.not_mem_nil, or_false] at hc
      rcases hc with rfl | rfl | rfl | rfl | rfl | rfl | rfl | rfl | rfl | rfl
      · exact done_weekday hW (by simp) hp hf1
      · exact done_weekday hW (by simp) hp hf1
      · exact done_month hW (by simp) hp hf1
      · exact done_month hW (by simp) hp hf1
      · exact done_month hW (by simp) hp hf1
      · exact done_e hp hf1
      · exact done_I hp hf1
      · exact done_half hW hp hf1
      · exact done_Z hp hf1
      · exact absurd rfl hn
    obtain ⟨a, a1, a2, a3⟩ := key
    exact ⟨k, st1.is, st1.v, a, by omega, h, a1, a2, a3⟩

theorem ploop_words (hW : KnowsWords W e.loc.get) (hT : fractionalWidth e.T ≤ 16) (its : List Item) : ∀ (is : IStream) (v : PVars) (fuel : Nat)
    (st' : PState), (∀ i ∈ its, Wordy i) → (its.flatMap source).length ≤ fuel →
    ploop e fuel (its.flatMap source) ⟨is, v, none, none, -1⟩ = .ok st' → st'.is.fail = false →
    Split (AgreeW W e.T st'.v) its is.rest st'.is.rest ∧ StepW (letters its) v st'.v ∧ st' = ⟨st'.is, st'.v, none, none, -1⟩ := by
  induction its with
  | nil =>
    intro is v fuel st' _ _ h _
    simp only [List.flatMap_nil, ploop] at h
    cases h
    exact ⟨rfl, StepW.refl _ v, rfl⟩
  | cons i its ih =>
    intro is v fuel st' hr hl h hf
    rw [List.flatMap_cons] at hl h
    have hr' := fun i hi => hr i (List.mem_cons_of_mem _ hi)
    cases i with
    | lit c =>
      have hf0 := ploop_fails h hf
      obtain ⟨hc, -⟩ := hr _ List.mem_cons_self
      simp only [source, List.cons_append, List.nil_append, List.length_cons] at hl h
      obtain ⟨k, rfl⟩ : ∃ k, fuel = k + 1 := ⟨fuel - 1, by omega⟩
      obtain ⟨is', g1, g2⟩ := lit_sound (e := e) (is := is) (v := v) hc
      rw [ploop_cons _ _ _ _ hf0 (Or.inr rfl), g1] at h
      simp only [Res.ok_bind] at h
      obtain ⟨a, a1, a2⟩ := g2 (ploop_fails h hf)
      obtain ⟨b1, b2, b3⟩ := ih is' v k st' hr' (by omega) h hf
      exact ⟨⟨a, is'.rest, a1, a2, b1⟩, b2.mono (by simp [letters]), b3⟩
    | conv md c =>
      have key : ∃ fuel' is' v' a, (its.flatMap source).length ≤ fuel' ∧ ploop e fuel' (its.flatMap source) ⟨is', v', none, none, -1⟩ = .ok st' ∧
          is.rest = a ++ is'.rest ∧ AgreeW W e.T v' md c a ∧ StepW [c] v v' := by
        rcases hr _ List.mem_cons_self with h1 | ⟨rfl, h1⟩
        · obtain ⟨k, is', v', a, k1, k2, a1, a2, a3⟩ := conv_sound hT h1 _ fuel hl h hf
          exact ⟨k, is', v', a, k1, k2, a1, by rw [(trc_plain h1).2]; exact a2, stepW_of h1 a3⟩
        · exact word_sound hW h1 _ fuel hl h hf
      obtain ⟨k, is', v', a, k1, k2, a1, a2, a3⟩ := key
      obtain ⟨b1, b2, b3⟩ := ih is' v' k st' hr' k1 k2 hf
      exact ⟨⟨a, is'.rest, a1, a2.step b2, b1⟩, (a3.mono (by simp [letters])).trans (b2.mono (by simp [letters]; tauto)), b3⟩

/-- A successful call. -/
theorem fromStream_words (hW : KnowsWords W e.loc.get) (hT : fractionalWidth e.T ≤ 16) {fmt text : List Char} {fds : Fields} {is : IStream} {r : Parsed}
    (hr : ∀ i ∈ items fmt, Wordy i) (h : fromStream e ⟨text, false, false⟩ fmt fds = .ok (is, some r)) :
    ∃ v, Split (AgreeW W e.T v) (items fmt) text is.rest ∧ StepW (letters (items fmt)) {} v ∧ combine e v fds = .ok r := by
  have hg : (IStream.good ⟨text, false, false⟩) = true := rfl
  unfold fromStream at h
  simp only [hg, Bool.not_true, Bool.false_eq_true, if_false] at h
  rcases hp : ploop e fmt.length fmt { is := ⟨text, false, false⟩, v := {} } with st | _ | _ | _ | _ <;> rw [hp] at h
  · simp only [Res.ok_bind] at h
    generalize hi : (if (st.is.good && st.command.isSome) = true then
      readLit ('%' :: ((if st.width = -1 then [] else dec st.width.toNat) ++ st.modified.toList)) st.is else st.is) = i1 at h
    have key : st.is.fail = false → ∃ v, Split (AgreeW W e.T v) (items fmt) text st.is.rest ∧ StepW (letters (items fmt)) {} v ∧ st = ⟨st.is, v, none, none, -1⟩ := by
      intro hf
      have := ploop_words hW hT (items fmt) ⟨text, false, false⟩ {} fmt.length st hr (by rw [items_source]) (by rw [items_source]; exact hp) hf
      exact ⟨st.v, this⟩
    rcases hf : st.is.fail with _ | _
    · obtain ⟨v, k1, k2, k3⟩ := key hf
      have hc : st.command = none := by rw [k3]
      have hv : st.v = v := by rw [k3]
      simp only [hc, Option.isSome_none, Bool.and_false, Bool.false_eq_true, if_false] at hi
      subst hi
      simp only [hf, Bool.false_eq_true, if_false, hv] at h
      rcases hcm : combine e v fds with r' | _ | _ | _ | _ <;> rw [hcm] at h <;> simp only [Res.pure_eq] at h
      · simp only [Res.ok.injEq, Prod.mk.injEq, Option.some.injEq] at h
        obtain ⟨rfl, rfl⟩ := h
        exact ⟨v, k1, k2, hcm⟩
      · simp only [Res.ok.injEq, Prod.mk.injEq] at h
        cases h.2
      all_goals cases h
    · exfalso
      have : st.is.good = false := by unfold IStream.good; simp [hf]
      simp only [this, Bool.false_and, Bool.false_eq_true, if_false] at hi
      subst hi
      simp only [hf, if_true, Res.pure_eq, Res.ok.injEq, Prod.mk.injEq] at h
      cases h.2
  all_goals cases h

end Gul14.Date.Words
