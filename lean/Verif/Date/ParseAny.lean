import Verif.Date.ParseAnyCombine

/-! # The loop of parse ends without undefined behaviour, for every format -/
namespace Gul14.Date.AnyFormat
open Gul14.Spec.Calendar Gul14.Spec.DateText Gul14.Spec.DateFormat Gul14.Spec.DateParse Gul14.Spec.DateParse.AnyFormat
open Gul14.Ieee

/-- What holds before and after each conversion. -/
structure Inv (text : List Char) (st : PState) : Prop where
  sfx : st.is.fail = false → ∃ pre, text = pre ++ st.is.rest
  wide : Wide st.v
  tm : Usual st.v.tm

theorem in_num {M k : Nat} {s : List Char} (hM : M ≤ 7) (h : Num M k s) : In (k : Int) := by
  have h1 := num_lt h
  have h2 : 10 ^ M ≤ 10 ^ 7 := Nat.pow_le_pow_right (by omega) hM
  unfold In
  omega

theorem in_snum {M : Nat} {k : Int} {s : List Char} (hM : M ≤ 7) (h : SNum M k s) : In k := by
  have h1 := snum_lt h
  have h2 : 10 ^ M ≤ 10 ^ 7 := Nat.pow_le_pow_right (by omega) hM
  unfold In
  omega

/-! ### The stream -/

section
variable {text : List Char} {st : PState}

/-- Some characters are taken from the stream. -/
theorem Inv.stream (h : Inv text st) (hf : st.is.fail = false) {i : IStream} (hi : i.fail = false → ∃ a, st.is.rest = a ++ i.rest) :
    Inv text { st with is := i } := by
  refine ⟨fun hf' => ?_, h.wide, h.tm⟩
  obtain ⟨pre, hp⟩ := h.sfx hf
  obtain ⟨a, ha⟩ := hi hf'
  exact ⟨pre ++ a, by rw [hp, ha]; simp⟩

theorem Inv.set (h : Inv text st) (eo fa : Bool) : Inv text { st with is := st.is.set eo fa } := by
  refine ⟨fun hf => ?_, h.wide, h.tm⟩
  simp only [IStream.set, Bool.or_eq_false_iff] at hf
  exact h.sfx hf.1

/-- The other members do not matter. -/
theorem Inv.other (h : Inv text st) (cmd : Option (List Char)) (md : Option Char) (w : Int) : Inv text ⟨st.is, st.v, cmd, md, w⟩ :=
  ⟨h.sfx, h.wide, h.tm⟩

theorem checkedSet_any {α : Type} [DecidableEq α] (value new nav : α) (is : IStream) :
    ((checkedSet value new nav is).1 = value ∨ ((checkedSet value new nav is).1 = new ∧ is.fail = false)) ∧
    (checkedSet value new nav is).2.rest = is.rest ∧ ((checkedSet value new nav is).2.fail = false → is.fail = false) := by
  unfold checkedSet
  split
  · rename_i hf
    have hf : is.fail = false := by simpa using hf
    split
    · exact ⟨Or.inr ⟨rfl, hf⟩, rfl, fun _ => hf⟩
    · split
      · exact ⟨Or.inl rfl, rfl, fun _ => hf⟩
      · exact ⟨Or.inl rfl, rfl, fun _ => hf⟩
  · exact ⟨Or.inl rfl, rfl, fun h => h⟩

theorem sfx_set {α : Type} [DecidableEq α] (h : Inv text st) (value new nav : α) :
    (checkedSet value new nav st.is).2.fail = false → ∃ pre, text = pre ++ (checkedSet value new nav st.is).2.rest := by
  intro hf
  obtain ⟨-, a2, a3⟩ := checkedSet_any value new nav st.is
  rw [a2]
  exact h.sfx (a3 hf)

theorem val_set (value new nav : Int) (is : IStream) (P : Int → Prop) (h1 : P value) (h2 : is.fail = false → P new) :
    P (checkedSet value new nav is).1 := by
  obtain ⟨a1, -⟩ := checkedSet_any value new nav is
  rcases a1 with a | ⟨a, b⟩ <;> rw [a]
  · exact h1
  · exact h2 b

/-! ### The variables that are used in sums -/

theorem inv_Y (h : Inv text st) {x : Int} (hx : st.is.fail = false → In x) : Inv text (setY x st) :=
  ⟨sfx_set h _ _ _, ⟨val_set _ _ _ _ In h.wide.Y hx, h.wide.C, h.wide.G, h.wide.U, h.wide.V, h.wide.W, h.wide.j, h.wide.H⟩, h.tm⟩
theorem inv_C (h : Inv text st) {x : Int} (hx : st.is.fail = false → In x) : Inv text (setC x st) :=
  ⟨sfx_set h _ _ _, ⟨h.wide.Y, val_set _ _ _ _ In h.wide.C hx, h.wide.G, h.wide.U, h.wide.V, h.wide.W, h.wide.j, h.wide.H⟩, h.tm⟩
theorem inv_G (h : Inv text st) {x : Int} (hx : st.is.fail = false → In x) : Inv text (setG x st) :=
  ⟨sfx_set h _ _ _, ⟨h.wide.Y, h.wide.C, val_set _ _ _ _ In h.wide.G hx, h.wide.U, h.wide.V, h.wide.W, h.wide.j, h.wide.H⟩, h.tm⟩
theorem inv_U (h : Inv text st) {x : Int} (hx : st.is.fail = false → In x) : Inv text (setU x st) :=
  ⟨sfx_set h _ _ _, ⟨h.wide.Y, h.wide.C, h.wide.G, val_set _ _ _ _ In h.wide.U hx, h.wide.V, h.wide.W, h.wide.j, h.wide.H⟩, h.tm⟩
theorem inv_V (h : Inv text st) {x : Int} (hx : st.is.fail = false → In x) : Inv text (setV x st) :=
  ⟨sfx_set h _ _ _, ⟨h.wide.Y, h.wide.C, h.wide.G, h.wide.U, val_set _ _ _ _ In h.wide.V hx, h.wide.W, h.wide.j, h.wide.H⟩, h.tm⟩
theorem inv_W (h : Inv text st) {x : Int} (hx : st.is.fail = false → In x) : Inv text (setW x st) :=
  ⟨sfx_set h _ _ _, ⟨h.wide.Y, h.wide.C, h.wide.G, h.wide.U, h.wide.V, val_set _ _ _ _ In h.wide.W hx, h.wide.j, h.wide.H⟩, h.tm⟩
theorem inv_j (h : Inv text st) {x : Int} (hx : st.is.fail = false → In x) : Inv text (setj x st) :=
  ⟨sfx_set h _ _ _, ⟨h.wide.Y, h.wide.C, h.wide.G, h.wide.U, h.wide.V, h.wide.W, val_set _ _ _ _ In h.wide.j hx, h.wide.H⟩, h.tm⟩
theorem inv_H (h : Inv text st) {x : Int} (hx : st.is.fail = false → In x) : Inv text (setH x st) :=
  ⟨sfx_set h _ _ _, ⟨h.wide.Y, h.wide.C, h.wide.G, h.wide.U, h.wide.V, h.wide.W, h.wide.j,
    val_set _ _ _ _ (fun y => y = -2147483648 ∨ In y) h.wide.H fun hf => Or.inr (hx hf)⟩, h.tm⟩

/-! ### The other variables -/

theorem Wide.same {v v' : PVars} (h : Wide v) (e : v'.Y = v.Y ∧ v'.C = v.C ∧ v'.G = v.G ∧ v'.U = v.U ∧ v'.V = v.V ∧ v'.W = v.W ∧
    v'.j = v.j ∧ v'.H = v.H) : Wide v' := by
  obtain ⟨e1, e2, e3, e4, e5, e6, e7, e8⟩ := e
  exact ⟨e1 ▸ h.Y, e2 ▸ h.C, e3 ▸ h.G, e4 ▸ h.U, e5 ▸ h.V, e6 ▸ h.W, e7 ▸ h.j, e8 ▸ h.H⟩

theorem inv_y (h : Inv text st) (x : Int) : Inv text (sety x st) :=
  ⟨sfx_set h _ _ _, h.wide.same ⟨rfl, rfl, rfl, rfl, rfl, rfl, rfl, rfl⟩, h.tm⟩
theorem inv_g (h : Inv text st) (x : Int) : Inv text (setg x st) :=
  ⟨sfx_set h _ _ _, h.wide.same ⟨rfl, rfl, rfl, rfl, rfl, rfl, rfl, rfl⟩, h.tm⟩
theorem inv_m (h : Inv text st) (x : Int) : Inv text (setm x st) :=
  ⟨sfx_set h _ _ _, h.wide.same ⟨rfl, rfl, rfl, rfl, rfl, rfl, rfl, rfl⟩, h.tm⟩
theorem inv_d (h : Inv text st) (x : Int) : Inv text (setd x st) :=
  ⟨sfx_set h _ _ _, h.wide.same ⟨rfl, rfl, rfl, rfl, rfl, rfl, rfl, rfl⟩, h.tm⟩
theorem inv_wd (h : Inv text st) (x : Int) : Inv text (setwd x st) :=
  ⟨sfx_set h _ _ _, h.wide.same ⟨rfl, rfl, rfl, rfl, rfl, rfl, rfl, rfl⟩, h.tm⟩
theorem inv_I (h : Inv text st) (x : Int) : Inv text (setI x st) :=
  ⟨sfx_set h _ _ _, h.wide.same ⟨rfl, rfl, rfl, rfl, rfl, rfl, rfl, rfl⟩, h.tm⟩
theorem inv_p (h : Inv text st) (x : Int) : Inv text (setp x st) :=
  ⟨sfx_set h _ _ _, h.wide.same ⟨rfl, rfl, rfl, rfl, rfl, rfl, rfl, rfl⟩, h.tm⟩
theorem inv_M (h : Inv text st) (x : Int) : Inv text (setM x st) :=
  ⟨sfx_set h _ _ _, h.wide.same ⟨rfl, rfl, rfl, rfl, rfl, rfl, rfl, rfl⟩, h.tm⟩
theorem inv_s (h : Inv text st) (x : Int) : Inv text (sets x st) :=
  ⟨sfx_set h _ _ _, h.wide.same ⟨rfl, rfl, rfl, rfl, rfl, rfl, rfl, rfl⟩, h.tm⟩
theorem inv_abbrev (h : Inv text st) (x : List Char) : Inv text (setAbbrev x st) :=
  ⟨sfx_set h _ _ _, h.wide.same ⟨rfl, rfl, rfl, rfl, rfl, rfl, rfl, rfl⟩, h.tm⟩
theorem inv_offset (h : Inv text st) (x : Int) : Inv text (setOffset x st) :=
  ⟨sfx_set h _ _ _, h.wide.same ⟨rfl, rfl, rfl, rfl, rfl, rfl, rfl, rfl⟩, h.tm⟩

/-! ### Numbers -/

/-- A conversion that ends in a state of this kind. -/
def Fine (text : List Char) (r : Res PState) : Prop := ∃ st', r = .ok st' ∧ Inv text st'

theorem Fine.pure (h : Inv text st) : Fine text (Pure.pure st) := ⟨st, rfl, h⟩

theorem number_any (h : Inv text st) (hf : st.is.fail = false) {M : Nat} (h1 : 1 ≤ M) (h7 : M ≤ 7) {a : RArg} (ha : a = .rs 1 M ∨ a = .ru 1 M)
    (nt : Int) {set : Int → PState → PState}
    (hset : ∀ x st, Inv text st → (st.is.fail = false → In x) → Inv text (set x st)) : Fine text (st.number a nt set) := by
  have hs : RArg.Small a := by rcases ha with rfl | rfl <;> simp [RArg.Small] <;> omega
  obtain ⟨⟨xs, S, is⟩, hr⟩ := readSeq_total [a] st.is (by simpa using hs)
  unfold PState.number
  rw [hr]
  refine ⟨_, rfl, ?_⟩
  have hsound := fun hf' => readSeq_sound [a] st.is is xs S (by simpa using hs) hr hf'
  refine hset _ _ (h.stream hf fun hf' => ?_) fun hf' => ?_
  · obtain ⟨s, s1, -⟩ := hsound hf'
    exact ⟨s, s1⟩
  · obtain ⟨s, -, s2⟩ := hsound hf'
    rcases ha with rfl | rfl
    · obtain ⟨x, ys, p, q, rfl, -, hx, -⟩ := s2
      exact in_snum h7 hx
    · obtain ⟨x, ys, p, q, rfl, -, hx, -⟩ := s2
      exact in_num h7 hx

theorem max_any {st : PState} (hw : st.width = -1 ∨ (1 ≤ st.width ∧ st.width ≤ 7)) {k : Nat} (h1 : 1 ≤ k) (h4 : k ≤ 4) :
    1 ≤ st.max k ∧ st.max k ≤ 7 := by
  unfold PState.max
  split <;> omega

/-! ### Texts of the format -/

theorem readChar_fail {c : Char} {is : IStream} (h : (readChar c is).fail = false) : is.fail = false := by
  unfold readChar at h
  unfold IStream.peek IStream.good at h
  rcases hf : is.fail with _ | _
  · rfl
  · simp [hf] at h

theorem readLit_any (l : List Char) : ∀ (is : IStream), (readLit l is).fail = false → ∃ a, is.rest = a ++ (readLit l is).rest := by
  induction l with
  | nil => intro is _; exact ⟨[], rfl⟩
  | cons c l ih =>
    intro is h
    unfold readLit at h ⊢
    simp only at h ⊢
    split at h
    · rename_i h'; rw [h'] at h; cases h
    · rename_i h'
      rw [if_neg h']
      obtain ⟨a, ha⟩ := ih _ h
      have := readChar_sound (c := c) (is := is) (by simpa using h')
      exact ⟨c :: a, by rw [this, ha]; rfl⟩

theorem verbatim_any (h : Inv text st) (hf : st.is.fail = false) (c : Char) : Inv text (st.verbatim c) :=
  h.stream hf (readLit_any _ _)

/-! ### The facet -/

theorem facet_any {e : PEnv} (hg : Sensible e.loc.get) (h : Inv text st) (hf : st.is.fail = false) (c : Char) (hc : c = 'p' → st.v.tm.hour = 1) {is : IStream} {tm : Tm} {eo fa : Bool}
    (hq : st.facet e c = (is, tm, eo, fa)) : Inv text { st with is := is, v := { st.v with tm := tm } } ∧ Usual tm ∧
    ∀ a b, Inv text { st with is := is.set a b, v := { st.v with tm := tm } } := by
  unfold PState.facet at hq
  rcases hq' : e.loc.get st.v.tm (st.command.getD [] ++ [c]) st.is.rest with ⟨tm', r, eo', fa'⟩
  rw [hq'] at hq
  simp only [Prod.mk.injEq] at hq
  obtain ⟨rfl, rfl, rfl, rfl⟩ := hq
  obtain ⟨g1, t, g2⟩ := hg st.v.tm (st.command.getD [] ++ [c]) st.is.rest
  rw [hq'] at g1 g2
  simp only at g1 g2
  replace g1 := fun hu => g1 hu (by simpa using hc)
  have i1 := h.stream hf (i := { st.is with rest := r }) fun _ => ⟨t, g2⟩
  have i2 : Inv text { st with is := { st.is with rest := r }, v := { st.v with tm := tm' } } :=
    ⟨i1.sfx, i1.wide.same ⟨rfl, rfl, rfl, rfl, rfl, rfl, rfl, rfl⟩, g1 h.tm⟩
  exact ⟨i2, g1 h.tm, fun a b => i2.set a b⟩

theorem facetSet_any {e : PEnv} (hg : Sensible e.loc.get) (h : Inv text st) (hf : st.is.fail = false) {c : Char} (hc : c ≠ 'p')
    {f : Tm → PState → Res PState} (hF : ∀ tm st, Usual tm → Inv text st → Fine text (f tm st)) : Fine text (st.facetSet e c f) := by
  unfold PState.facetSet
  rcases hq : st.facet e c with ⟨is, tm, eo, fa⟩
  obtain ⟨h1, h2, -⟩ := facet_any hg h hf c (fun h => absurd h hc) hq
  simp only
  cases fa
  · simp only [Bool.not_false, if_true]
    obtain ⟨st', g1, g2⟩ := hF tm _ h2 h1
    rw [g1]
    exact ⟨_, rfl, g2.set eo false⟩
  · simp only [Bool.not_true, Bool.false_eq_true, if_false]
    exact ⟨_, rfl, h1.set eo true⟩

/-! ### Seconds -/

/-- The number of ticks, for seconds of up to `M` characters. -/
theorem ticks_any {T : Nat} (hT : T ∣ 10 ^ 16) {pre rest : List Char} (hs : SecondsFit (fractionalWidth T) (pre ++ rest)) {S : Fl} {a b : List Char}
    {M : Nat} (hM : M ≤ 7 ∨ M ≤ 3 + fractionalWidth T) (h : LdText M S a) (hr : rest = a ++ b) : ∃ s, roundTicks T S = .ok s := by
  obtain ⟨hw, hw'⟩ := fractionalWidth_le hT
  obtain ⟨i, f, k, hd, rfl⟩ := h
  obtain ⟨h1, h2, x, y, h3, h4, h5, h6, h7, h8⟩ := hd
  have lx : x.length ≤ M ∧ y.length ≤ 19 ∧ ∃ r, rest = x ++ r := by
    rcases h8 with ⟨rfl, rfl⟩ | rfl
    · exact ⟨h2, by simp, b, hr⟩
    · refine ⟨by simp at h2; omega, by simp at h2; omega, '.' :: y ++ b, by simp [hr]⟩
  obtain ⟨l1, l2, r, hx⟩ := lx
  have hfit : x.length + fractionalWidth T ≤ 18 := by
    by_cases hl : x.length ≤ 3 + fractionalWidth T
    · exact hs pre x r (by rw [hx]) h3 hl
    · omega
  have hi : i + 1 ≤ 10 ^ x.length := by
    rcases x with _ | ⟨c, x⟩
    · rw [← h5]; simp [value]
    · exact num_lt ⟨by simp, le_rfl, h3, h5⟩
  have hf : f < 10 ^ k := by
    rcases y with _ | ⟨c, y⟩
    · rw [← h6, ← h7]; simp [value]
    · exact num_lt ⟨by simp, by rw [h7], h4, h6⟩
  obtain ⟨s, s1, -⟩ : ∃ s, roundTicks T (extended.add (extended.round i) (extended.div (extended.round f) (extended.round ((10 : ℚ) ^ k)))) = .ok s ∧
      0 ≤ s ∧ s ≤ (T * 10 ^ x.length : Nat) + 1 := by
    refine roundTicks_fits (pos_of_dvd hT) hi ?_ hf (by omega)
    calc T * 10 ^ x.length ≤ 10 ^ fractionalWidth T * 10 ^ x.length :=
          Nat.mul_le_mul_right _ (Nat.le_of_dvd (by positivity) hw')
      _ = 10 ^ (x.length + fractionalWidth T) := by rw [Nat.pow_add, Nat.mul_comm]
      _ ≤ 10 ^ 18 := Nat.pow_le_pow_right (by omega) hfit
  exact ⟨s, s1⟩

/-- `%S` with a width. -/
theorem seconds_any {T : Nat} (hT : T ∣ 10 ^ 16) {pre : List Char} {is is' : IStream} (hs : SecondsFit (fractionalWidth T) (pre ++ is.rest))
    {M : Nat} (h1 : 1 ≤ M) (hM : M ≤ 7 ∨ M ≤ 3 + fractionalWidth T) {xs : List Int} {S : Fl}
    (h : readSeq [.rld 1 M] is = .ok (xs, S, is')) : ∃ s, roundTicks T S = .ok s := by
  have hw := (fractionalWidth_le hT).1
  have hT18 : T ≤ 10 ^ 18 := le_trans (Nat.le_of_dvd (by norm_num) hT) (by norm_num)
  rcases hf : is'.fail with _ | _
  · obtain ⟨t, t1, t2⟩ := readSeq_sound _ is is' xs S (by simp only [List.mem_singleton, forall_eq, RArg.Small]; exact ⟨trivial, h1, by omega⟩) h hf
    obtain ⟨S', a, b, rfl, b1, -, -, rfl⟩ := t2
    exact ticks_any hT hs hM b1 (b := is'.rest) (by simpa using t1)
  · have hS : S = .num 0 := ld_failed _ is is' xs S (by simp [LdLast]) h hf
    rw [hS]
    exact roundTicks_zero (pos_of_dvd hT) hT18

/-! ### Offsets -/

theorem offset_frame {st' : PState} (h : pconvOffset st = .ok st') : ∃ x i, st' = setOffset x { st with is := i } := by
  unfold pconvOffset at h
  rcases st.is.peek with ⟨ic, is⟩
  simp only at h
  obtain ⟨⟨xs, l, is⟩, -, h⟩ := bind_ok h
  simp only at h
  generalize (if is.fail = true then (-9223372036854775808 : Int) else ((xs.getD 0 0).natAbs : Int) * 60) = toff at h
  by_cases hg : is.good = true
  · simp only [hg, if_true] at h
    obtain ⟨⟨t, i⟩, -, h⟩ := bind_ok h
    simp only at h
    split at h
    · cases h
    · cases h; exact ⟨_, _, rfl⟩
  · simp only [Bool.not_eq_true] at hg
    simp only [hg, Bool.false_eq_true, if_false, Res.pure_eq, Res.ok_bind] at h
    split at h
    · cases h
    · cases h; exact ⟨_, _, rfl⟩

theorem offset_any {e : PEnv} (h : Inv text st) (hf : st.is.fail = false) (ho : OffsetsComplete text) : Fine text (pconvOffset st) := by
  obtain ⟨pre, hp⟩ := h.sfx hf
  obtain ⟨st', hs⟩ := offset_total (st := st) (pre := pre) (hp ▸ ho)
  refine ⟨st', hs, ?_⟩
  obtain ⟨x, i, rfl⟩ := offset_frame hs
  refine ⟨fun hf' => ?_, h.wide.same ⟨rfl, rfl, rfl, rfl, rfl, rfl, rfl, rfl⟩, h.tm⟩
  obtain ⟨a, ha, -⟩ := done_z (e := e) hf' hs
  exact ⟨pre ++ a, by rw [hp, ha]; simp⟩

end

end Gul14.Date.AnyFormat
