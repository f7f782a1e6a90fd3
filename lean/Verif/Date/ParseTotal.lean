import Verif.Date.ParseCalm

/-! # The loop of parse ends without undefined behaviour -/
namespace Gul14.Date
open Gul14.Spec.Calendar Gul14.Spec.DateText Gul14.Spec.DateFormat Gul14.Spec.DateParse
open Gul14.Ieee

/-! ### Seconds -/

/-- If there are at most 10^18 ticks, then the conversion is defined. -/
theorem roundTicks_fits {T i f k N : Nat} (hT0 : 0 < T) (hN : i + 1 ≤ N) (hTN : T * N ≤ 10 ^ 18) (hf : f < 10 ^ k) (hk : k ≤ 19) :
    ∃ s, roundTicks T (extended.add (extended.round i) (extended.div (extended.round f) (extended.round ((10 : ℚ) ^ k)))) = .ok s ∧
      0 ≤ s ∧ s ≤ (T * N : Nat) + 1 := by
  have hTle : T ≤ 10 ^ 18 := le_trans (Nat.le_mul_of_pos_right T (by omega)) hTN
  have hNle : N ≤ 10 ^ 18 := le_trans (Nat.le_mul_of_pos_left N hT0) hTN
  have hp : (0 : ℚ) < 10 ^ k := by positivity
  have hpw : (10 : ℚ) ^ k ≤ 10 ^ 19 := pow_le_pow_right₀ (by norm_num) hk
  have hff : (f : ℚ) < 10 ^ k := by exact_mod_cast hf
  have hT1 : (1 : ℚ) ≤ T := by exact_mod_cast hT0
  have nat_grid : ∀ n : Nat, n < 2 ^ 64 → extended.near n = n := fun n hn => by
    have := near_exact extended ext_p (ext_int (m := (n : Int)) (by rw [abs_of_nonneg (by omega)]; exact_mod_cast hn))
    simpa using this
  have nat_round : ∀ n : Nat, n < 2 ^ 64 → extended.round n = .num n := fun n hn => by
    have := ext_round_int (m := (n : Int)) (by rw [abs_of_nonneg (by omega)]; exact_mod_cast hn)
    simpa using this
  have hf64 : f < 2 ^ 64 := by
    have : (f : ℚ) < (2 : ℚ) ^ 64 := lt_of_lt_of_le hff (le_trans hpw (by norm_num))
    exact_mod_cast this
  have r10 : extended.round ((10 : ℚ) ^ k) = .num ((10 : ℚ) ^ k) := by
    have h : |(10 : ℚ) ^ k| ≤ 2 ^ 80 := by rw [abs_of_pos hp]; exact le_trans hpw (by norm_num)
    rw [ext_round h, near_exact extended ext_p (grid_pow10 extended ext_0 (by decide) (by omega))]
  rw [nat_round i (by omega), nat_round f hf64, r10]
  have hq0 : 0 ≤ (f : ℚ) / 10 ^ k := by positivity
  have hq1 : (f : ℚ) / 10 ^ k ≤ 1 := by rw [div_le_one hp]; exact hff.le
  have ediv : extended.div (.num f) (.num ((10 : ℚ) ^ k)) = .num (extended.near (f / 10 ^ k)) := by
    show (if (10 : ℚ) ^ k = 0 then _ else _) = _
    rw [if_neg (by positivity)]
    exact ext_round (by rw [abs_of_nonneg hq0]; exact le_trans hq1 (by norm_num))
  rw [ediv]
  have hQ0 : 0 ≤ extended.near ((f : ℚ) / 10 ^ k) := near_nonneg extended ext_p hq0
  have hQ1 : extended.near ((f : ℚ) / 10 ^ k) ≤ 1 := by
    have := near_mono extended ext_p hq1
    rwa [show extended.near 1 = 1 by simpa using nat_grid 1 (by norm_num)] at this
  generalize extended.near ((f : ℚ) / 10 ^ k) = Q at *
  have hi0 : (0 : ℚ) ≤ i := by positivity
  have hNq : (i : ℚ) + 1 ≤ N := by exact_mod_cast hN
  have hNq' : (N : ℚ) ≤ 10 ^ 18 := by exact_mod_cast hNle
  have n80 : (10 : ℚ) ^ 18 ≤ 2 ^ 80 := by norm_num
  have eadd : extended.add (.num i) (.num Q) = .num (extended.near (i + Q)) :=
    ext_round (by rw [abs_of_nonneg (by linarith)]; linarith)
  rw [eadd]
  have hS0 : 0 ≤ extended.near (i + Q) := near_nonneg extended ext_p (by linarith)
  have hS1 : extended.near (i + Q) ≤ N := by
    have := near_mono extended ext_p (show (i : ℚ) + Q ≤ N by linarith)
    rwa [nat_grid N (by omega)] at this
  generalize extended.near ((i : ℚ) + Q) = S at *
  have hTNq : (T : ℚ) * N ≤ 10 ^ 18 := by exact_mod_cast hTN
  have hST0 : 0 ≤ S * T := mul_nonneg hS0 (by linarith)
  have hST1 : S * T ≤ 10 ^ 18 := by
    have := mul_le_mul_of_nonneg_right hS1 (show (0 : ℚ) ≤ T by linarith)
    linarith
  have hm : extended.mul (.num S) (extended.round T) = .num (extended.near (S * T)) := by
    rw [nat_round T (by omega)]
    exact ext_round (by rw [abs_of_nonneg hST0]; linarith)
  have hP0 : 0 ≤ extended.near (S * T) := near_nonneg extended ext_p hST0
  have hP1 : extended.near (S * T) ≤ (T * N : Nat) := by
    have := near_mono extended ext_p (show S * T ≤ ((T * N : Nat) : ℚ) by push_cast; rw [mul_comm]; gcongr)
    rwa [nat_grid (T * N) (by omega)] at this
  have hP2 : ((T * N : Nat) : ℚ) ≤ 10 ^ 18 := by exact_mod_cast hTN
  unfold roundTicks
  rw [hm]
  generalize extended.near (S * T) = P at *
  simp only
  rw [if_pos ⟨by linarith, by linarith⟩]
  have f0 : 0 ≤ ⌊P⌋ := Int.floor_nonneg.mpr hP0
  have f1 : ⌊P⌋ ≤ (T * N : Nat) := by
    have : ⌊P⌋ < ((T * N : Nat) : Int) + 1 := Int.floor_lt.mpr (by push_cast at hP1 ⊢; linarith)
    omega
  split
  · refine ⟨_, rfl, ?_, ?_⟩ <;> split <;> omega
  · refine ⟨_, rfl, ?_, ?_⟩ <;> split <;> omega

theorem roundTicks_zero {T : Nat} (h0 : 0 < T) (h : T ≤ 10 ^ 18) : ∃ s, roundTicks T (.num 0) = .ok s := by
  have hr : extended.round T = .num T := by
    have := ext_round_int (m := (T : Int)) (by rw [abs_of_nonneg (by omega)]; exact_mod_cast (by omega))
    simpa using this
  have hz : extended.near 0 = 0 := by
    have := near_exact extended ext_p (ext_int (m := 0) (by norm_num))
    simpa using this
  have hm : extended.mul (.num 0) (extended.round T) = .num 0 := by
    rw [hr]
    show extended.round (0 * T) = _
    rw [zero_mul, ext_round (by norm_num), hz]
  unfold roundTicks
  rw [hm]
  simp only
  rw [if_pos (by norm_num)]
  split <;> exact ⟨_, rfl⟩

/-- The number of ticks, for seconds from a text of this kind. -/
theorem ticks_fit {T : Nat} (hT : T ∣ 10 ^ 16) {pre rest : List Char} (hs : SecondsFit (fractionalWidth T) (pre ++ rest)) {S : Fl} {a b : List Char}
    (h : LdText (secWidth T) S a) (hr : rest = a ++ b) : ∃ s, roundTicks T S = .ok s ∧ 0 ≤ s ∧ s ≤ (T * 10 ^ (18 - fractionalWidth T) : Nat) + 1 := by
  obtain ⟨hw, hw'⟩ := fractionalWidth_le hT
  obtain ⟨i, f, k, hd, rfl⟩ := h
  obtain ⟨h1, h2, x, y, h3, h4, h5, h6, h7, h8⟩ := hd
  have hM : secWidth T ≤ 3 + fractionalWidth T := by unfold secWidth; split <;> omega
  have lx : x.length ≤ secWidth T ∧ y.length ≤ 19 ∧ ∃ r, rest = x ++ r := by
    rcases h8 with ⟨rfl, rfl⟩ | rfl
    · exact ⟨h2, by simp, b, hr⟩
    · refine ⟨by simp at h2; omega, by simp at h2; omega, '.' :: y ++ b, by simp [hr]⟩
  obtain ⟨l1, l2, r, hx⟩ := lx
  have hfit := hs pre x r (by rw [hx]) h3 (by omega)
  have hi : i + 1 ≤ 10 ^ x.length := by
    rcases x with _ | ⟨c, x⟩
    · rw [← h5]; simp [value]
    · exact num_lt ⟨by simp, le_rfl, h3, h5⟩
  have hf : f < 10 ^ k := by
    rcases y with _ | ⟨c, y⟩
    · rw [← h6, ← h7]; simp [value]
    · exact num_lt ⟨by simp, by rw [h7], h4, h6⟩
  have hle : 10 ^ x.length ≤ 10 ^ (18 - fractionalWidth T) := Nat.pow_le_pow_right (by omega) (by omega)
  have hle' := Nat.mul_le_mul_left T hle
  obtain ⟨s, s1, s2, s3⟩ : ∃ s, roundTicks T (extended.add (extended.round i) (extended.div (extended.round f) (extended.round ((10 : ℚ) ^ k)))) = .ok s ∧
      0 ≤ s ∧ s ≤ (T * 10 ^ x.length : Nat) + 1 := by
    refine roundTicks_fits (pos_of_dvd hT) hi ?_ hf (by omega)
    calc T * 10 ^ x.length ≤ 10 ^ fractionalWidth T * 10 ^ x.length :=
          Nat.mul_le_mul_right _ (Nat.le_of_dvd (by positivity) hw')
      _ = 10 ^ (x.length + fractionalWidth T) := by rw [Nat.pow_add, Nat.mul_comm]
      _ ≤ 10 ^ 18 := Nat.pow_le_pow_right (by omega) hfit
  exact ⟨s, s1, s2, by omega⟩

/-! ### Conversions -/

theorem number_total (st : PState) (a : RArg) (ha : RArg.Small a) (nt : Int) (set : Int → PState → PState) :
    ∃ st', st.number a nt set = .ok st' := by
  obtain ⟨⟨xs, S, is⟩, h⟩ := readSeq_total [a] st.is (by simpa using ha)
  unfold PState.number
  rw [h]
  exact ⟨_, rfl⟩

/-- A floating-point number is read last. -/
def LdLast : List RArg → Prop
  | [] => True
  | .rld _ _ :: r => r = []
  | _ :: r => LdLast r

/-- No number is stored if reading fails. -/
theorem ld_failed (as : List RArg) : ∀ (is is' : IStream) (xs : List Int) (S : Fl), LdLast as →
    readSeq as is = .ok (xs, S, is') → is'.fail = true → S = .num 0 := by
  induction as with
  | nil => intro is is' xs S _ h _; cases h; rfl
  | cons a as ih =>
    intro is is' xs S hl h hf
    cases a with
    | ch c =>
      unfold readSeq at h
      simp only at h
      split at h
      · cases h; rfl
      · exact ih _ _ _ _ hl h hf
    | rs m M =>
      unfold readSeq at h
      obtain ⟨⟨x, i1⟩, -, h⟩ := bind_ok h
      simp only at h
      split at h
      · cases h; rfl
      · obtain ⟨⟨ys, S', i2⟩, h2, h⟩ := bind_ok h
        cases h
        exact ih _ _ _ _ hl h2 hf
    | ru m M =>
      unfold readSeq at h
      simp only at h
      split at h
      · cases h; rfl
      · obtain ⟨⟨ys, S', i2⟩, h2, h⟩ := bind_ok h
        cases h
        exact ih _ _ _ _ hl h2 hf
    | rld m M =>
      have hl : as = [] := hl
      subst hl
      unfold readSeq at h
      simp only at h
      split at h
      · cases h; rfl
      · rename_i hg
        obtain ⟨⟨ys, S', i2⟩, h2, h⟩ := bind_ok h
        cases h2
        cases h
        exact absurd hf hg

/-- Reading seconds: the conversion to ticks is defined. -/
theorem seconds_total {T : Nat} (hT : T ∣ 10 ^ 16) {pre : List Char} {is is' : IStream} (hs : SecondsFit (fractionalWidth T) (pre ++ is.rest))
    {as : List RArg} {xs : List Int} {S : Fl} (ha : as = [.rld 1 (secWidth T)] ∨ as = [.ru 1 2, .ch ':', .ru 1 2, .ch ':', .rld 1 (secWidth T)])
    (h : readSeq as is = .ok (xs, S, is')) : ∃ s, roundTicks T S = .ok s := by
  have hw := (fractionalWidth_le hT).1
  have hM : 1 ≤ secWidth T ∧ secWidth T ≤ 19 := by unfold secWidth; split <;> omega
  have hT18 : T ≤ 10 ^ 18 := le_trans (Nat.le_of_dvd (by norm_num) hT) (by norm_num)
  have hsm : ∀ a ∈ as, RArg.Small a := by
    rcases ha with rfl | rfl <;> simp [RArg.Small, hM]
  rcases hf : is'.fail with _ | _
  · obtain ⟨t, t1, t2⟩ := readSeq_sound as is is' xs S hsm h hf
    rcases ha with rfl | rfl
    · obtain ⟨S', a, b, rfl, b1, -, -, rfl⟩ := t2
      obtain ⟨s, hs, -⟩ := ticks_fit hT hs b1 (b := is'.rest) (by simpa using t1)
      exact ⟨s, hs⟩
    · obtain ⟨x, ys, p1, q1, rfl, rfl, b1, q2, rfl, m, zs, p2, q3, rfl, rfl, b2, q4, rfl, S', p3, q5, rfl, b3, rfl, -, rfl⟩ := t2
      have e : pre ++ is.rest = (pre ++ (p1 ++ ':' :: (p2 ++ [':']))) ++ (p3 ++ is'.rest) := by rw [t1]; simp
      rw [e] at hs
      obtain ⟨s, hs, -⟩ := ticks_fit hT hs b3 (b := is'.rest) rfl
      exact ⟨s, hs⟩
  · have hS : S = .num 0 := by
      refine ld_failed as is is' xs S ?_ h hf
      rcases ha with rfl | rfl <;> simp [LdLast]
    rw [hS]
    exact roundTicks_zero (pos_of_dvd hT) hT18

/-- `%z` -/
theorem offset_total {st : PState} {pre : List Char} (ho : OffsetsComplete (pre ++ st.is.rest)) : ∃ st', pconvOffset st = .ok st' := by
  unfold pconvOffset
  rcases hpk : st.is.peek with ⟨ic, i0⟩
  simp only
  obtain ⟨⟨xs, S, i1⟩, hq⟩ := readSeq_total [.rs (if st.modified = none then 2 else 1) 2] i0 (by
    simp only [List.mem_singleton, forall_eq, RArg.Small]; split <;> omega)
  rw [hq]
  simp only [Res.ok_bind]
  -- a minus sign is followed by a number
  have hneg : ic = some '-' → i1.fail = false := by
    rintro rfl
    obtain ⟨rfl, hg, r, hr⟩ := peek_some hpk
    obtain ⟨x, y, r', rfl, hx, hy⟩ := ho pre r (by rw [hr])
    have hi : st.is = ⟨'-' :: ([x, y] ++ r'), false, false⟩ := by
      have := good_fail hg
      rcases hst : st.is with ⟨a, b, c⟩
      rw [hst] at hr this
      simp_all
    have hn : Digits 2 (value [x, y]) [x, y] := ⟨rfl, by simp [hx, hy], rfl⟩
    have hm := readSigned_minus (m := if st.modified = none then 2 else 1) hn (by omega) (by omega) (by split <;> omega) r'
    rw [hi] at hq
    simp only [readSeq, hm, Res.ok_bind, Bool.false_eq_true, if_false, Res.pure_eq, Res.ok.injEq, Prod.mk.injEq] at hq
    rw [← hq.2.2]
  generalize hto : (if i1.fail = true then (-9223372036854775808 : Int) else ((xs.getD 0 0).natAbs : Int) * 60) = toff
  have two : ∀ i : IStream, ∃ t2 i2, (do
        let (ys, _, is) ← readSeq [.ru 2 2] i
        pure (if is.fail then toff else toff + ys.getD 0 0, is) : Res (Int × IStream)) = .ok (t2, i2) ∧ toff ≤ t2 := by
    intro i
    obtain ⟨⟨ys, S', i2⟩, h2⟩ := readSeq_total [.ru 2 2] i (by simp [RArg.Small])
    rw [h2]
    simp only [Res.ok_bind]
    refine ⟨_, _, rfl, ?_⟩
    split
    · omega
    · rename_i hf
      obtain ⟨t, -, k, zs, a, b, rfl, -, -, -⟩ := readSeq_sound _ _ _ _ _ (by simp [RArg.Small]) h2 (by simpa using hf)
      simp
  have hmin : ∃ t2 i2, offsetMinutes st.modified toff i1 = .ok (t2, i2) ∧ toff ≤ t2 := by
    unfold offsetMinutes
    rcases i1.peek with ⟨_ | c, i2⟩ <;> simp only
    · exact ⟨_, _, rfl, by omega⟩
    · split
      · split
        · exact two _
        · exact ⟨_, _, rfl, by omega⟩
      · split
        · exact two _
        · exact ⟨_, _, rfl, by omega⟩
  have fin : ∀ t2 i2, toff ≤ t2 → ∃ st', (if (decide (ic = some '-') && decide (t2 = -9223372036854775808)) = true then Res.ub
          else pure (setOffset (if ic = some '-' then -t2 else t2) { st with is := i2 })) = Res.ok st' := by
    intro t2 i2 ht
    rw [if_neg]
    · exact ⟨_, rfl⟩
    · simp only [Bool.and_eq_true, decide_eq_true_eq, not_and]
      intro h h'
      rw [if_neg (by simp [hneg h])] at hto
      omega
  rcases hg : i1.good with _ | _ <;> simp only [if_true, Bool.false_eq_true, if_false]
  · exact fin _ _ (by omega)
  · obtain ⟨t2, i2, h1, h2⟩ := hmin
    rw [h1]
    simp only [Res.ok_bind]
    exact fin _ _ h2

/-- A conversion. -/
theorem pconv_total {e : PEnv} (hT : e.T ∣ 10 ^ 16) {st : PState} {md : Option Char} {c : Char} (hr : Readable (.conv md c)) (hc : c ≠ '%')
    (hm : st.modified = md) (hw : st.width = -1) {pre : List Char} (hs : Safe [c] (fractionalWidth e.T) (pre ++ st.is.rest)) :
    ∃ st', pconv e st c = .ok st' := by
  have hmax : ∀ k, st.max k = k := fun k => by unfold PState.max; rw [if_pos hw]
  have hM : 1 ≤ secWidth e.T ∧ secWidth e.T ≤ 19 := by
    have := (fractionalWidth_le hT).1
    unfold secWidth; split <;> omega
  rcases hr with ⟨rfl, hp⟩ | ⟨rfl, -⟩
  · simp only [plain, List.mem_cons, List.not_mem_nil, or_false] at hp
    have hu : ∀ {p : List Int × Fl × IStream → Res PState} (as : List RArg), (∀ a ∈ as, RArg.Small a) → (∀ r, ∃ st', p r = .ok st') →
        ∃ st', (readSeq as st.is).bind p = .ok st' := by
      intro p as ha hp
      obtain ⟨r, hr⟩ := readSeq_total as st.is ha
      rw [hr]
      exact hp r
    rcases hp with rfl | rfl | rfl | rfl | rfl | rfl | rfl | rfl | rfl | rfl | rfl | rfl | rfl | rfl | rfl | rfl | rfl |
      rfl | rfl | rfl <;> simp only [pconv, hm, if_true, hmax]
    · exact number_total _ _ (by simp [RArg.Small]) _ _
    · exact number_total _ _ (by simp [RArg.Small]) _ _
    · exact number_total _ _ (by simp [RArg.Small]) _ _
    · exact number_total _ _ (by simp [RArg.Small]) _ _
    · exact number_total _ _ (by simp [RArg.Small]) _ _
    · exact hu _ (by simp [RArg.Small]) fun r => ⟨_, rfl⟩
    · exact hu _ (by simp [RArg.Small]) fun r => ⟨_, rfl⟩
    · exact number_total _ _ (by simp [RArg.Small]) _ _
    · exact number_total _ _ (by simp [RArg.Small]) _ _
    · exact number_total _ _ (by simp [RArg.Small]) _ _
    · obtain ⟨⟨xs, S, i1⟩, h1⟩ := readSeq_total [.rld 1 (secWidth e.T)] st.is (by simp [RArg.Small, hM])
      obtain ⟨s, h2⟩ := seconds_total hT (hs.1 (Or.inl (by simp))) (Or.inl rfl) h1
      rw [h1]
      simp only [Res.ok_bind]
      rw [h2]
      exact ⟨_, rfl⟩
    · obtain ⟨⟨xs, S, i1⟩, h1⟩ := readSeq_total [.ru 1 2, .ch ':', .ru 1 2, .ch ':', .rld 1 (secWidth e.T)] st.is (by simp [RArg.Small, hM])
      obtain ⟨s, h2⟩ := seconds_total hT (hs.1 (Or.inr (by simp))) (Or.inr rfl) h1
      rw [h1]
      simp only [Res.ok_bind]
      rw [h2]
      exact ⟨_, rfl⟩
    · exact hu _ (by simp [RArg.Small]) fun r => ⟨_, rfl⟩
    · refine hu _ (by simp [RArg.Small]) fun ⟨xs, S, i1⟩ => ?_
      simp only
      repeat' (first | exact ⟨_, rfl⟩ | split)
    · refine hu _ (by simp [RArg.Small]) fun ⟨xs, S, i1⟩ => ?_
      simp only
      repeat' (first | exact ⟨_, rfl⟩ | split)
    · exact number_total _ _ (by simp [RArg.Small]) _ _
    · exact number_total _ _ (by simp [RArg.Small]) _ _
    · exact number_total _ _ (by simp [RArg.Small]) _ _
    · exact number_total _ _ (by simp [RArg.Small]) _ _
    · exact absurd rfl hc
  · exact offset_total (hs.2 (by simp))

theorem ploop_failed (e : PEnv) (fuel : Nat) (f : List Char) (st : PState) (hl : f.length ≤ fuel) (hf : st.is.fail = true) :
    ploop e fuel f st = .ok st := by
  cases f with
  | nil => cases fuel <;> rfl
  | cons c r =>
    obtain ⟨k, rfl⟩ : ∃ k, fuel = k + 1 := ⟨fuel - 1, by simp at hl; omega⟩
    simp only [ploop, hf, if_true]
    rfl

theorem safe_mono {L L' : List Char} {w : Nat} {t : List Char} (h : Safe L w t) (hl : ∀ c ∈ L', c ∈ L) : Safe L' w t :=
  ⟨fun h' => h.1 (h'.imp (hl _) (hl _)), fun h' => h.2 (hl _ h')⟩

/-- The loop. -/
theorem ploop_total {e : PEnv} (hT : e.T ∣ 10 ^ 16) (its : List Item) : ∀ (pre : List Char) (is : IStream) (v : PVars) (fuel : Nat),
    (∀ i ∈ its, Readable i) → (its.flatMap source).length ≤ fuel → Safe (letters its) (fractionalWidth e.T) (pre ++ is.rest) →
    ∃ st', ploop e fuel (its.flatMap source) ⟨is, v, none, none, -1⟩ = .ok st' := by
  induction its with
  | nil =>
    intro pre is v fuel _ _ _
    cases fuel <;> exact ⟨_, rfl⟩
  | cons i its ih =>
    intro pre is v fuel hr hl hs
    have hr' := fun i hi => hr i (List.mem_cons_of_mem _ hi)
    rcases hf0 : is.fail with _ | _
    · rw [List.flatMap_cons] at hl ⊢
      cases i with
      | lit c =>
        obtain ⟨hc, -⟩ := hr _ List.mem_cons_self
        simp only [source, List.cons_append, List.nil_append, List.length_cons] at hl ⊢
        obtain ⟨k, rfl⟩ : ∃ k, fuel = k + 1 := ⟨fuel - 1, by omega⟩
        obtain ⟨is', g1, g2⟩ := lit_sound (e := e) (is := is) (v := v) hc
        rw [ploop_cons _ _ _ _ hf0 (Or.inr rfl), g1]
        simp only [Res.ok_bind]
        rcases hf1 : is'.fail with _ | _
        · obtain ⟨a, a1, -⟩ := g2 hf1
          refine ih (pre ++ a) is' v k hr' (by omega) ?_
          rw [List.append_assoc, ← a1]
          exact safe_mono hs (by simp [letters])
        · exact ⟨_, ploop_failed e k _ _ (by omega) hf1⟩
      | conv md c =>
        have hri := hr _ List.mem_cons_self
        obtain ⟨hmd, hcd⟩ := readable_conv hri
        have pct : ∀ r fuel, ploop e (fuel + 1) ('%' :: r) ⟨is, v, none, none, -1⟩ =
            ploop e fuel r ⟨is, v, some ['%'], none, -1⟩ := by
          intro r fuel
          rw [ploop_cons _ _ _ _ hf0 (Or.inr rfl)]
          rfl
        have last : ∀ cmd fuel, (its.flatMap source).length ≤ fuel →
            ∃ st', ploop e (fuel + 1) (c :: its.flatMap source) ⟨is, v, some cmd, md, -1⟩ = .ok st' := by
          intro cmd fuel hl'
          rw [ploop_cons _ _ _ _ hf0 (Or.inl hcd)]
          have step : ∃ is' v', pstep e ⟨is, v, some cmd, md, -1⟩ c = .ok ⟨is', v', none, none, -1⟩ ∧
              (is'.fail = false → ∃ a, is.rest = a ++ is'.rest) := by
            by_cases hc : c = '%'
            · subst hc
              rcases hri with ⟨rfl, -⟩ | ⟨h', -⟩
              · refine ⟨readChar '%' is, v, ?_, fun hf => ⟨['%'], readChar_sound hf⟩⟩
                unfold pstep
                simp [pconvChars, PState.reset]
              · exact absurd h' (by decide)
            · rw [pstep_conv rfl (readable_mem hri hc)]
              obtain ⟨st1, hp⟩ := pconv_total hT (st := ⟨is, v, some cmd, md, -1⟩) hri hc rfl rfl (pre := pre) (safe_mono hs (by simp [letters]))
              rw [hp]
              refine ⟨st1.is, st1.v, rfl, fun hf => ?_⟩
              obtain ⟨-, a, a1, -⟩ := done_conv (fractionalWidth_le hT).1 (st := ⟨is, v, some cmd, md, -1⟩) hri hc rfl rfl hf hp
              exact ⟨a, a1⟩
          obtain ⟨is', v', g1, g2⟩ := step
          rw [g1]
          simp only [Res.ok_bind]
          rcases hf1 : is'.fail with _ | _
          · obtain ⟨a, a1⟩ := g2 hf1
            refine ih (pre ++ a) is' v' fuel hr' hl' ?_
            rw [List.append_assoc, ← a1]
            exact safe_mono hs (by simp [letters]; tauto)
          · exact ⟨_, ploop_failed e fuel _ _ hl' hf1⟩
        rcases hmd with rfl | rfl | rfl
        · simp only [source, Option.toList, List.nil_append, List.cons_append, List.length_cons] at hl ⊢
          obtain ⟨k, rfl⟩ : ∃ k, fuel = k + 1 + 1 := ⟨fuel - 2, by omega⟩
          rw [pct]
          exact last _ k (by omega)
        · simp only [source, Option.toList, List.nil_append, List.cons_append, List.length_cons] at hl ⊢
          obtain ⟨k, rfl⟩ : ∃ k, fuel = k + 1 + 1 + 1 := ⟨fuel - 3, by omega⟩
          rw [pct, ploop_cons _ _ _ _ hf0 (Or.inl (by decide)),
            show pstep e ⟨is, v, some ['%'], none, -1⟩ 'E' = .ok ⟨is, v, some ['%', 'E'], some 'E', -1⟩ from rfl]
          exact last _ k (by omega)
        · simp only [source, Option.toList, List.nil_append, List.cons_append, List.length_cons] at hl ⊢
          obtain ⟨k, rfl⟩ : ∃ k, fuel = k + 1 + 1 + 1 := ⟨fuel - 3, by omega⟩
          rw [pct, ploop_cons _ _ _ _ hf0 (Or.inl (by decide)),
            show pstep e ⟨is, v, some ['%'], none, -1⟩ 'O' = .ok ⟨is, v, some ['%', 'O'], some 'O', -1⟩ from rfl]
          exact last _ k (by omega)
    · exact ⟨_, ploop_failed e fuel _ _ hl hf0⟩

/-- from_stream. -/
theorem fromStream_total {e : PEnv} (hT : e.T ∣ 10 ^ 16) {fmt text : List Char} {fds : Fields} (hr : ∀ i ∈ items fmt, Readable i)
    (hs : Safe (letters (items fmt)) (fractionalWidth e.T) text) : ∃ is r, fromStream e ⟨text, false, false⟩ fmt fds = .ok (is, r) := by
  have hw := (fractionalWidth_le hT).1
  have hg : (IStream.good ⟨text, false, false⟩) = true := rfl
  unfold fromStream
  simp only [hg, Bool.not_true, Bool.false_eq_true, if_false]
  obtain ⟨st, hp⟩ := ploop_total hT (items fmt) [] ⟨text, false, false⟩ {} fmt.length hr (by rw [items_source]) hs
  rw [items_source] at hp
  rw [hp]
  simp only [Res.ok_bind]
  generalize hi : (if (st.is.good && st.command.isSome) = true then
      readLit ('%' :: ((if st.width = -1 then [] else dec st.width.toNat) ++ st.modified.toList)) st.is else st.is) = i1
  rcases hf : st.is.fail with _ | _
  · obtain ⟨-, hst, -⟩ := ploop_sound hw (items fmt) ⟨text, false, false⟩ {} fmt.length st hr (by rw [items_source])
      (by rw [items_source]; exact hp) hf
    split
    · exact ⟨_, _, rfl⟩
    · rcases combine_calm (e := e) (fds := fds) hst.bounded with ⟨r, h⟩ | ⟨x, h⟩ <;> rw [h] <;> exact ⟨_, _, rfl⟩
  · have : st.is.good = false := by unfold IStream.good; simp [hf]
    simp only [this, Bool.false_and, Bool.false_eq_true, if_false] at hi
    subst hi
    simp only [hf, if_true]
    exact ⟨_, _, rfl⟩

end Gul14.Date
