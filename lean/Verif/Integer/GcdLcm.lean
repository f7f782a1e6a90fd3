import Verif.Integer.CInt

/-! # gcd and lcm (include/gul14/gcd_lcm.h): model, specification, properties -/

namespace Gul14.Spec

/-- `g` is the non-negative greatest common divisor. -/
def IsGcd (g a b : Int) : Prop :=
  0 ≤ g ∧ g ∣ a ∧ g ∣ b ∧ ∀ d : Int, d ∣ a → d ∣ b → d ∣ g

/-- `m` is the non-negative least common multiple. -/
def IsLcm (m a b : Int) : Prop :=
  0 ≤ m ∧ a ∣ m ∧ b ∣ m ∧ ∀ k : Int, a ∣ k → b ∣ k → m ∣ k

end Gul14.Spec

namespace Gul14.Integer
open IntTy Spec

/-- The loop of gcd, gcd_lcm.h:84-89, in the common type `t`.  The fuel bounds the number of
iterations. -/
def gcdLoop (t : IntTy) : Nat → Int → Int → Res Int
  | fuel, c, d =>
      if d = 0 then .ok c
      else match fuel with
        | 0 => .diverge
        | fuel + 1 => (t.promote.rem c d).bind fun r => gcdLoop t fuel d (t.cast r)

/-- gcd, gcd_lcm.h:69-92, for arguments of types `ta` and `tb` (of the same signedness). -/
def gcd (ta tb : IntTy) (a b : Int) : Res Int :=
  let t := common ta tb
  (t.gulAbs (t.cast a)).bind fun c =>
  (t.gulAbs (t.cast b)).bind fun d =>
  gcdLoop t (d.natAbs + 1) c d

/-- lcm, gcd_lcm.h:123-139. -/
def lcm (ta tb : IntTy) (a b : Int) : Res Int :=
  let t := common ta tb
  if a = 0 ∧ b = 0 then .ok 0
  else
    (gcd ta tb a b).bind fun g =>
    let t1 := usual ta t
    (t1.div (t1.cast a) (t1.cast g)).bind fun q =>
    let t2 := usual t1 tb
    (t2.arith (t2.cast q * t2.cast b)).bind fun p =>
    (t2.gulAbs p).map t.cast

/-- The argument types are allowed and the arguments are values of them. -/
structure Args (ta tb : IntTy) (a b : Int) : Prop where
  ea : ta.Exists
  eb : tb.Exists
  sign : ta.signed = tb.signed
  a : ta.Has a
  b : tb.Has b

theorem common_exists {ta tb : IntTy} (h1 : ta.Exists) (h2 : tb.Exists) :
    (common ta tb).Exists := by
  have hp : ∀ t : IntTy, t.Exists → t.promote.Exists := by
    intro t ht; unfold promote; split
    · right; right; left; rfl
    · exact ht
  have hu : (usual ta tb).Exists := by
    unfold usual
    simp only
    split
    · exact hp _ h1
    split
    · exact hp _ h2
    split
    · exact hp _ h1
    · exact hp _ h1
  unfold common
  split
  · exact h1
  · exact hu

/-- Both arguments can be represented in the common type. -/
theorem common_has {ta tb : IntTy} {a b : Int} (h : Args ta tb a b) :
    (common ta tb).Has a ∧ (common ta tb).Has b := by
  obtain ⟨ea, eb, hs, ha, hb⟩ := h
  obtain ⟨wa, sa⟩ := ta
  obtain ⟨wb, sb⟩ := tb
  simp only at hs
  subst hs
  unfold common
  by_cases he : (⟨wa, sa⟩ : IntTy) = ⟨wb, sa⟩
  · rw [if_pos he]
    refine ⟨ha, ?_⟩
    rw [he]; exact hb
  · rw [if_neg he]
    unfold IntTy.Exists at ea eb
    simp only at ea eb
    unfold Has minVal maxVal at *
    rcases ea with rfl | rfl | rfl | rfl <;> rcases eb with rfl | rfl | rfl | rfl <;>
      cases sa <;> simp [usual, promote, int] at * <;> omega

theorem gulAbs_eq {t : IntTy} (ht : t.Exists) {x : Int} (hx : t.Has x)
    (hm : t.signed = true → x ≠ t.minVal) :
    t.gulAbs x = .ok (x.natAbs : Int) ∧ t.Has (x.natAbs : Int) := by
  have h0 := ht.pos
  have hpos := pow_pos' (t.bits - 1)
  by_cases hs : t.signed = true
  · have hm := hm hs
    have hn : t.Has (x.natAbs : Int) := by
      unfold Has minVal maxVal at *
      simp only [hs, if_true] at *
      omega
    refine ⟨?_, hn⟩
    unfold gulAbs stdAbs
    rw [if_pos hs]
    by_cases hx0 : x < 0
    · have e : -x = (x.natAbs : Int) := by omega
      rw [if_pos hx0, e, arith]
      have hps : t.promote.signed = true := by
        unfold promote; split
        · rfl
        · exact hs
      rw [if_pos hps, if_pos (has_promote hn (by omega))]
      simp only [Res.map_ok]
      rw [cast_of_has (by omega) hn]
    · rw [if_neg hx0]
      simp only [Res.map_ok]
      rw [cast_of_has (by omega) hx]
      congr 1
      omega
  · have hx0 : 0 ≤ x := by
      unfold Has minVal at hx
      simp only [hs] at hx
      simp at hx
      exact hx.1
    have e : (x.natAbs : Int) = x := by omega
    rw [e]
    refine ⟨?_, hx⟩
    unfold gulAbs
    rw [if_neg hs]

theorem has_le {t : IntTy} {m n : Nat} (h : t.Has (m : Int)) (hn : n ≤ m) : t.Has (n : Int) := by
  unfold Has at *
  refine ⟨?_, by omega⟩
  unfold minVal
  have hpos := pow_pos' (t.bits - 1)
  split <;> omega

theorem gcdLoop_eq {t : IntTy} (ht : t.Exists) : ∀ (fuel m n : Nat), t.Has (m : Int) →
    t.Has (n : Int) → n < fuel → gcdLoop t fuel m n = .ok (Nat.gcd m n : Nat) := by
  have h0 := ht.pos
  intro fuel
  induction fuel with
  | zero => intro m n _ _ h; omega
  | succ fuel ih =>
    intro m n hm hn hf
    unfold gcdLoop
    by_cases hz : n = 0
    · subst hz; simp
    · have hz' : (n : Int) ≠ 0 := by omega
      have hlt : m % n < n := Nat.mod_lt _ (by omega)
      have hr : t.promote.rem (m : Int) (n : Int) = .ok ((m % n : Nat) : Int) := by
        unfold rem
        rw [if_neg hz']
        have hd : t.promote.Has ((m : Int).tdiv (n : Int)) := by
          have : (m : Int).tdiv (n : Int) = ((m / n : Nat) : Int) := by
            rw [Int.tdiv_eq_ediv_of_nonneg (by omega)]; simp
          rw [this]
          exact has_promote (has_le hm (Nat.div_le_self _ _)) (by omega)
        rw [if_neg (fun hc => hc.2 hd)]
        congr 1
      rw [if_neg hz', hr]
      simp only [Res.bind_ok]
      have hh : t.Has ((m % n : Nat) : Int) := has_le hn (by omega)
      rw [cast_of_has (by omega) hh, ih n (m % n) hn hh (by omega)]
      congr 2
      rw [Nat.gcd_comm m n, Nat.gcd_rec n m, Nat.gcd_comm]

theorem gcd_eq {ta tb : IntTy} {a b : Int} (h : Args ta tb a b)
    (hm : (common ta tb).signed = true →
      a ≠ (common ta tb).minVal ∧ b ≠ (common ta tb).minVal) :
    gcd ta tb a b = .ok (Int.gcd a b : Nat) ∧ (common ta tb).Has (Int.gcd a b : Nat) ∨
      (a = 0 ∧ b = 0 ∧ gcd ta tb a b = .ok 0) := by
  have ht := common_exists h.ea h.eb
  have h0 := ht.pos
  obtain ⟨ha, hb⟩ := common_has h
  unfold gcd
  simp only
  rw [cast_of_has (by omega) ha, cast_of_has (by omega) hb]
  obtain ⟨ea, na⟩ := gulAbs_eq ht ha (fun hs => (hm hs).1)
  obtain ⟨eb, nb⟩ := gulAbs_eq ht hb (fun hs => (hm hs).2)
  rw [ea, eb]
  simp only [Res.bind_ok]
  rw [gcdLoop_eq ht _ _ _ na nb (by simp)]
  by_cases hz : a = 0 ∧ b = 0
  · right
    refine ⟨hz.1, hz.2, ?_⟩
    rw [hz.1, hz.2]; rfl
  · left
    refine ⟨rfl, ?_⟩
    unfold Int.gcd
    by_cases ha0 : a = 0
    · subst ha0; simpa using nb
    · exact has_le na (Nat.gcd_le_left _ (by omega))

theorem isGcd_intGcd (a b : Int) : IsGcd (Int.gcd a b : Nat) a b :=
  ⟨by omega, Int.gcd_dvd_left .., Int.gcd_dvd_right .., fun d h1 h2 => Int.dvd_coe_gcd h1 h2⟩

/-- gcd returns the non-negative greatest common divisor, for all integer types and all arguments
but the most negative value of the signed common type. -/
theorem c40_gcd_partial (ta tb : IntTy) (a b : Int) (h : Args ta tb a b)
    (hm : (common ta tb).signed = true →
      a ≠ (common ta tb).minVal ∧ b ≠ (common ta tb).minVal) :
    ∃ g, gcd ta tb a b = .ok g ∧ IsGcd g a b ∧ (common ta tb).Has g ∧
      (g = 0 ↔ a = 0 ∧ b = 0) := by
  have ht := common_exists h.ea h.eb
  have hz : (Int.gcd a b : Int) = 0 ↔ a = 0 ∧ b = 0 := by
    rw [Int.ofNat_eq_zero]
    exact Int.gcd_eq_zero_iff
  rcases gcd_eq h hm with ⟨h1, h2⟩ | ⟨rfl, rfl, h1⟩
  · exact ⟨_, h1, isGcd_intGcd a b, h2, hz⟩
  · refine ⟨0, h1, isGcd_intGcd 0 0, ?_, by simp⟩
    unfold Has minVal maxVal
    have := pow_pos' ((common ta tb).bits - 1)
    have := pow_pos' ((common ta tb).bits)
    split <;> omega

/-- For unsigned types there is no exception. -/
theorem c40_gcd_unsigned (ta tb : IntTy) (a b : Int) (h : Args ta tb a b)
    (hu : ta.signed = false) :
    ∃ g, gcd ta tb a b = .ok g ∧ IsGcd g a b ∧ (g = 0 ↔ a = 0 ∧ b = 0) := by
  have ha : 0 ≤ a := by
    have := h.a.1; unfold minVal at this; simpa [hu] using this
  have hb : 0 ≤ b := by
    have := h.b.1; unfold minVal at this; rw [← h.sign] at this; simpa [hu] using this
  obtain ⟨g, h1, h2, -, h4⟩ := c40_gcd_partial ta tb a b h (by
    intro hs
    have := pow_pos' ((common ta tb).bits - 1)
    unfold minVal
    rw [if_pos hs]
    omega)
  exact ⟨g, h1, h2, h4⟩

theorem gcdLoop_terminates {t : IntTy} (ht : t.Exists) : ∀ (fuel : Nat) (c d : Int),
    (t.signed = false → 0 ≤ c ∧ 0 ≤ d) → t.Has d → d.natAbs < fuel →
    gcdLoop t fuel c d ≠ .diverge := by
  have h0 := ht.pos
  intro fuel
  induction fuel with
  | zero => intro c d _ _ h; omega
  | succ fuel ih =>
    intro c d hs hd hf
    unfold gcdLoop
    by_cases hz : d = 0
    · simp [hz]
    · rw [if_neg hz]
      simp only
      unfold rem
      rw [if_neg hz]
      split
      · simp
      · simp only [Res.bind_ok]
        have hlt : (c.tmod d).natAbs < d.natAbs := by
          rw [Int.natAbs_tmod]
          exact Nat.mod_lt _ (by omega)
        have hh : t.Has (c.tmod d) := by
          unfold Has minVal maxVal at *
          have hpos := pow_pos' (t.bits - 1)
          by_cases hsg : t.signed = true
          · simp only [hsg, if_true] at *
            omega
          · have hsf : t.signed = false := by simpa using hsg
            obtain ⟨hc0, hd0⟩ := hs hsf
            simp only [hsf] at *
            have h1 : 0 ≤ c.tmod d := Int.tmod_nonneg _ hc0
            have h2 := hd.2
            refine ⟨by simpa using h1, ?_⟩
            simp only [Bool.false_eq_true, if_false] at *
            omega
        rw [cast_of_has (by omega) hh]
        apply ih
        · intro hsf
          obtain ⟨hc0, hd0⟩ := hs hsf
          exact ⟨hd0, Int.tmod_nonneg _ hc0⟩
        · exact hh
        · omega

/-- gcd terminates for all arguments (also where its result is wrong or undefined). -/
theorem c40_terminates (ta tb : IntTy) (a b : Int) (h : Args ta tb a b) :
    gcd ta tb a b ≠ .diverge := by
  have ht := common_exists h.ea h.eb
  have h0 := ht.pos
  obtain ⟨ha, hb⟩ := common_has h
  have habs : ∀ x, (common ta tb).Has x → ∀ r, (common ta tb).gulAbs x = r → r ≠ .diverge ∧
      ∀ y, r = .ok y → (common ta tb).Has y ∧ ((common ta tb).signed = false → 0 ≤ y) := by
    intro x hx r hr
    by_cases hm : (common ta tb).signed = true → x ≠ (common ta tb).minVal
    · obtain ⟨e, n⟩ := gulAbs_eq ht hx hm
      rw [e] at hr
      subst hr
      refine ⟨by simp, ?_⟩
      intro y hy
      cases hy
      exact ⟨n, fun _ => by omega⟩
    · simp only [Classical.not_imp, Decidable.not_not] at hm
      obtain ⟨hs, rfl⟩ := hm
      generalize common ta tb = t at *
      unfold gulAbs stdAbs arith at hr
      rw [if_pos hs] at hr
      have hps : t.promote.signed = true := by
        unfold promote; split
        · rfl
        · exact hs
      have hneg : t.minVal < 0 := by
        have := pow_pos' (t.bits - 1)
        unfold minVal; rw [if_pos hs]; omega
      rw [if_pos hneg, if_pos hps] at hr
      split at hr
      · subst hr
        refine ⟨by simp, ?_⟩
        intro y hy
        cases hy
        refine ⟨?_, by simp [hs]⟩
        have e : t.cast (-t.minVal) = t.minVal := by
          have hp := pow_split (show 0 < t.bits by omega)
          unfold IntTy.cast minVal
          rw [if_pos hs, if_pos hs, Int.bmod_def]
          have e : ((2 ^ t.bits : Nat) : Int) = 2 ^ t.bits := by simp
          have hpos := pow_pos' (t.bits - 1)
          rw [e, Int.emod_eq_of_lt (by omega) (by omega)]
          split <;> omega
        rw [e]
        exact hx
      · subst hr
        exact ⟨by simp, by intro y hy; simp at hy⟩
  unfold gcd
  simp only
  rw [cast_of_has (by omega) ha, cast_of_has (by omega) hb]
  obtain ⟨a1, a2⟩ := habs a ha _ rfl
  obtain ⟨b1, b2⟩ := habs b hb _ rfl
  cases hca : (common ta tb).gulAbs a with
  | ok c =>
    cases hcb : (common ta tb).gulAbs b with
    | ok d =>
      simp only [Res.bind_ok]
      exact gcdLoop_terminates ht _ _ _
        (fun hs => ⟨(a2 c hca).2 hs, (b2 d hcb).2 hs⟩) (b2 d hcb).1 (by omega)
    | diverge => exact absurd hcb b1
    | _ => simp
  | diverge => exact absurd hca a1
  | _ => simp

/-- Documented, but false: the result is representable, but taking the absolute value of the most
negative argument is undefined for `int` and gives a negative result for `signed char`. -/
theorem c40_most_negative_violated :
    gcd int int (-2 ^ 31) 1 = .ub ∧ Args int int (-2 ^ 31) 1 ∧
    gcd int8 int8 (-128) 6 = .ok (-2) ∧ Args int8 int8 (-128) 6 := by
  refine ⟨by decide, ⟨?_, ?_, rfl, by decide, by decide⟩, by decide,
    ⟨?_, ?_, rfl, by decide, by decide⟩⟩ <;> simp [IntTy.Exists, int, int8]

example : gcd int16 int64 (-12) 18 = .ok 6 ∧ Args int16 int64 (-12) 18 := by
  refine ⟨by decide, ?_, ?_, rfl, by decide, by decide⟩ <;> simp [IntTy.Exists, int16, int64]

/-! ## lcm -/

theorem usual_common {ta tb : IntTy} (h1 : ta.Exists) (h2 : tb.Exists)
    (hs : ta.signed = tb.signed) :
    usual ta (common ta tb) = (common ta tb).promote ∧
    usual (common ta tb).promote tb = (common ta tb).promote := by
  obtain ⟨wa, sa⟩ := ta
  obtain ⟨wb, sb⟩ := tb
  simp only at hs
  subst hs
  unfold IntTy.Exists at h1 h2
  simp only at h1 h2
  rcases h1 with rfl | rfl | rfl | rfl <;> rcases h2 with rfl | rfl | rfl | rfl <;>
    cases sa <;> decide

theorem lcm_eq (ta tb : IntTy) (a b : Int) (h : Args ta tb a b)
    (hm : (common ta tb).signed = true →
      a ≠ (common ta tb).minVal ∧ b ≠ (common ta tb).minVal)
    (hrep : ∀ m, IsLcm m a b → (common ta tb).Has m) :
    ∃ m, lcm ta tb a b = .ok m ∧ IsLcm m a b ∧ (a ≠ 0 → b ≠ 0 → 0 < m) := by
  have isL : IsLcm (Int.lcm a b : Nat) a b :=
    ⟨by omega, Int.dvd_lcm_left .., Int.dvd_lcm_right .., fun k h1 h2 => Int.coe_lcm_dvd h1 h2⟩
  have hL := hrep _ isL
  have ht := common_exists h.ea h.eb
  have h0 := ht.pos
  refine ⟨(Int.lcm a b : Nat), ?_, isL, ?_⟩
  · unfold lcm
    simp only
    by_cases hz : a = 0 ∧ b = 0
    · rw [if_pos hz, hz.1]; simp
    · rw [if_neg hz]
      rcases gcd_eq h hm with ⟨hg, hgHas⟩ | ⟨r1, r2, -⟩
      · rw [hg]
        simp only [Res.bind_ok]
        obtain ⟨u1, u2⟩ := usual_common h.ea h.eb h.sign
        rw [u1, u2]
        obtain ⟨ha, hb⟩ := common_has h
        generalize common ta tb = t at *
        have hpb : 0 < t.promote.bits := by
          unfold promote; split
          · decide
          · omega
        have ha' := has_promote ha (by omega)
        have hb' := has_promote hb (by omega)
        have hg' := has_promote hgHas (by omega)
        have hL' := has_promote hL (by omega)
        rw [cast_of_has hpb ha', cast_of_has hpb hg']
        have hg0 : (Int.gcd a b : Int) ≠ 0 := by
          intro he
          rw [Int.ofNat_eq_zero] at he
          exact hz (Int.gcd_eq_zero_iff.1 he)
        -- the exact quotient
        obtain ⟨q, hq⟩ : (Int.gcd a b : Int) ∣ a := Int.gcd_dvd_left ..
        have hdiv : a.tdiv (Int.gcd a b : Int) = q := by
          have := Int.mul_tdiv_cancel_left q hg0
          rw [← hq] at this
          exact this
        have hqa : q.natAbs ≤ a.natAbs := by
          have : a.natAbs = Int.gcd a b * q.natAbs := by
            have := congrArg Int.natAbs hq
            rw [Int.natAbs_mul] at this
            simpa using this
          rw [this]
          exact Nat.le_mul_of_pos_left _ (by omega)
        have hlcm : (q * b).natAbs = Int.lcm a b := by
          have h1 : Int.gcd a b * Int.lcm a b = a.natAbs * b.natAbs := Int.gcd_mul_lcm a b
          have h2 : a.natAbs = Int.gcd a b * q.natAbs := by
            have := congrArg Int.natAbs hq
            rw [Int.natAbs_mul] at this
            simpa using this
          rw [h2, Nat.mul_assoc] at h1
          rw [Int.natAbs_mul]
          exact (Nat.eq_of_mul_eq_mul_left (by omega) h1).symm
        have pneg : t.signed = false → 0 ≤ a ∧ 0 ≤ b := by
          intro hs
          unfold Has minVal at ha hb
          simp [hs] at ha hb
          exact ⟨ha.1, hb.1⟩
        have psig : t.promote.signed = false → t.signed = false := by
          unfold promote; split
          · simp [int]
          · exact id
        have sgnHas : ∀ (x : Int) (y : Nat), t.promote.Has (y : Int) → x.natAbs ≤ y →
            (t.promote.signed = false → 0 ≤ x) → t.promote.Has x := by
          intro x y hy hxy hx0
          unfold Has minVal maxVal at *
          have := pow_pos' (t.promote.bits - 1)
          split at hy
          · rename_i hs; simp only [hs, if_true] at *; omega
          · rename_i hs
            have hs' : t.promote.signed = false := by simpa using hs
            have := hx0 hs'
            simp only [hs'] at *
            simp at *
            omega
        have qnn : 0 ≤ a → 0 ≤ q := by
          intro ha0
          rw [← hdiv]
          exact Int.tdiv_nonneg ha0 (by omega)
        -- |a| is representable because a is not the most negative value
        have hqHas : t.promote.Has q := by
          have haN := (gulAbs_eq ht ha (fun hs => (hm hs).1)).2
          exact sgnHas q a.natAbs (has_promote haN (by omega)) hqa
            (fun hs => qnn (pneg (psig hs)).1)
        have arithEq : ∀ x, t.promote.Has x → t.promote.arith x = .ok x := by
          intro x hx
          unfold arith
          split
          · first | rfl | rw [if_pos hx]
          · rename_i hs
            have := cast_of_has hpb hx
            unfold IntTy.cast at this
            rw [if_neg hs] at this
            rw [this]
        unfold div
        rw [if_neg hg0, hdiv, arithEq q hqHas]
        simp only [Res.bind_ok]
        rw [cast_of_has hpb hqHas, cast_of_has hpb hb']
        have hpHas : t.promote.Has (q * b) := by
          refine sgnHas (q * b) (Int.lcm a b) hL' (by omega) ?_
          intro hs
          obtain ⟨n1, n2⟩ := pneg (psig hs)
          exact Int.mul_nonneg (qnn n1) n2
        rw [arithEq _ hpHas]
        simp only [Res.bind_ok]
        have pex : t.promote.Exists := by
          unfold promote; split
          · right; right; left; rfl
          · exact ht
        have hpm : t.promote.signed = true → q * b ≠ t.promote.minVal := by
          intro hs he
          have hl : (Int.lcm a b : Int) ≤ t.promote.maxVal := hL'.2
          have hpos := pow_pos' (t.promote.bits - 1)
          unfold minVal at he
          unfold maxVal at hl
          rw [if_pos hs] at he hl
          omega
        rw [(gulAbs_eq pex hpHas hpm).1]
        simp only [Res.map_ok]
        rw [hlcm, cast_of_has (by omega) hL]
      · exact absurd ⟨r1, r2⟩ hz
  · intro ha0 hb0
    have : Int.lcm a b ≠ 0 := by
      intro he
      rcases Int.lcm_eq_zero_iff.1 he with h | h
      · exact ha0 h
      · exact hb0 h
    omega

/-- lcm returns the least common multiple whenever that is representable in the common type,
unless one argument is the most negative value of the signed common type and the other is zero. -/
theorem c41_lcm_partial (ta tb : IntTy) (a b : Int) (h : Args ta tb a b)
    (hm : (common ta tb).signed = true →
      ¬(a = (common ta tb).minVal ∧ b = 0) ∧ ¬(a = 0 ∧ b = (common ta tb).minVal))
    (hrep : ∃ m, IsLcm m a b ∧ (common ta tb).Has m) :
    ∃ m, lcm ta tb a b = .ok m ∧ IsLcm m a b ∧ (a ≠ 0 → b ≠ 0 → 0 < m) := by
  obtain ⟨m, hmL, hmH⟩ := hrep
  have huniq : ∀ m', IsLcm m' a b → m' = m := by
    intro m' h'
    exact Int.dvd_antisymm h'.1 hmL.1 (h'.2.2.2 m hmL.2.1 hmL.2.2.1)
      (hmL.2.2.2 m' h'.2.1 h'.2.2.1)
  refine lcm_eq ta tb a b h ?_ (fun m' h' => by rw [huniq m' h']; exact hmH)
  intro hs
  obtain ⟨n1, n2⟩ := hm hs
  have hpos := pow_pos' ((common ta tb).bits - 1)
  have hmax : m < 2 ^ ((common ta tb).bits - 1) := by
    have := hmH.2
    unfold maxVal at this
    rw [if_pos hs] at this
    omega
  -- a non-zero multiple of the most negative value is not representable
  have key : ∀ x y : Int, x = (common ta tb).minVal → y ≠ 0 → x ∣ m → (m = 0 → y = 0 ∨ x = 0) →
      False := by
    intro x y hx hy hd h0
    have hxe : x = -(2 ^ ((common ta tb).bits - 1)) := by
      rw [hx]; unfold minVal; rw [if_pos hs]
    have hm0 : m ≠ 0 := fun e => by rcases h0 e with h | h <;> omega
    have := Int.le_of_dvd (by have := hmL.1; omega) (Int.neg_dvd.2 hd)
    omega
  have zero : m = 0 → b = 0 ∨ a = 0 := by
    intro e
    have := hmL.2.2.2 (a * b) (Int.dvd_mul_right ..) (Int.dvd_mul_left ..)
    rw [e, Int.zero_dvd] at this
    rcases Int.mul_eq_zero.1 this with h | h
    · exact .inr h
    · exact .inl h
  constructor
  · intro ha
    exact key a b ha (fun hb => n1 ⟨ha, hb⟩) hmL.2.1 zero
  · intro hb
    exact key b a hb (fun ha => n2 ⟨ha, hb⟩) hmL.2.2.1 (fun e => (zero e).symm)

/-- Documented, but false: `lcm(0, 5)` is zero although not both numbers are zero. -/
theorem c41_zero_violated : lcm int int 0 5 = .ok 0 ∧ Args int int 0 5 := by
  refine ⟨by decide, ?_, ?_, rfl, by decide, by decide⟩ <;> simp [IntTy.Exists, int]

/-- Documented, but false: the least common multiple of the most negative number and zero is
zero, but computing it is undefined. -/
theorem c41_most_negative_violated :
    lcm int int (-2 ^ 31) 0 = .ub ∧ Args int int (-2 ^ 31) 0 ∧ IsLcm 0 (-2 ^ 31) 0 := by
  refine ⟨by decide, ⟨?_, ?_, rfl, by decide, by decide⟩, by omega, ⟨0, rfl⟩, ⟨0, rfl⟩, ?_⟩
  · simp [IntTy.Exists, int]
  · simp [IntTy.Exists, int]
  · intro k _ hk; exact hk

example : lcm int8 int8 (-12) 18 = .ok 36 ∧ lcm uint8 uint16 200 60000 = .ok 60000 ∧
    lcm int64 int (-6) 4 = .ok 12 := by decide

end Gul14.Integer
