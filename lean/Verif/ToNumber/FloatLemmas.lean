import Verif.ToNumber.Lemmas
import Verif.StringView.Props
import Verif.Substring.Props

namespace Gul14.ToNumber
open Gul14.Spec Gul14.SV Gul14.Substring

theorem stripZeros_eq (s : Str) : stripZeros s = s.dropWhile (fun c => c = 48) := by
  induction s with
  | nil => rfl
  | cons c s ih =>
    unfold stripZeros
    by_cases h : c = 48
    · simp [h, ih]
    · simp [h]

theorem stripZeros_append (b a : Str) :
    stripZeros (b ++ a) = if stripZeros b = [] then stripZeros a else stripZeros b ++ a := by
  induction b with
  | nil => simp [stripZeros]
  | cons c b ih =>
    rw [List.cons_append, stripZeros, stripZeros]
    by_cases h : c = 48
    · simp only [h, if_true, ih]
    · simp [h]

theorem stripZeros_split (s : Str) :
    ∃ k, s = List.replicate k 48 ++ stripZeros s ∧ k + (stripZeros s).length = s.length := by
  induction s with
  | nil => exact ⟨0, rfl, rfl⟩
  | cons c s ih =>
    unfold stripZeros
    by_cases h : c = 48
    · obtain ⟨k, h1, h2⟩ := ih
      refine ⟨k + 1, ?_, ?_⟩
      · rw [if_pos h, h, List.replicate_succ, List.cons_append, ← h1]
      · rw [if_pos h, List.length_cons]; omega
    · exact ⟨0, by simp [h], by simp [h]⟩

theorem stripZeros_head (s : Str) (d : UInt8) (t : Str) (h : stripZeros s = d :: t) : d ≠ 48 := by
  induction s with
  | nil => simp [stripZeros] at h
  | cons c s ih =>
    unfold stripZeros at h
    split at h
    · exact ih h
    · rename_i hc
      simp at h
      rw [← h.1]; exact hc

theorem val_zeros (k : Nat) (s : Str) : val 0 (List.replicate k 48 ++ s) = val 0 s := by
  induction k with
  | zero => rfl
  | succ k ih => rw [List.replicate_succ, List.cons_append, ← ih]; rfl

theorem digits_zeros (k : Nat) : Digits (List.replicate k 48) := by
  intro c hc
  have := List.eq_of_mem_replicate hc
  subst this; decide

/-- The computation after the digits before and after the point have been separated. -/
def core (fin : Finish) (before after : Str) (exponent : Int) : Res (Option FVal) :=
  if before.isEmpty ∧ after.isEmpty then .ok none
  else
    let before := stripZeros before
    if before.isEmpty then
      let oldDigits := after.length
      match stripZeros after with
      | [] => .ok (some (.num 0))
      | d :: after =>
          (int32 (exponent - castInt (oldDigits - after.length))).bind fun exponent =>
          match toNormalizedFloat [d] after with
          | none => .ok none
          | some q => (fin exponent q.1 q.2).map some
    else
      (int32 (exponent + castInt (before.length - 1))).bind fun exponent =>
      match toNormalizedFloat before after with
      | none => .ok none
      | some q => (fin exponent q.1 q.2).map some

theorem mantissa_core (fin : Finish) (s : Str) (e : Int) (hmax : s.length < npos) :
    (46 ∉ s ∧ mantissa fin s e = core fin s [] e) ∨
    ∃ b a, s = b ++ [46] ++ a ∧ 46 ∉ b ∧ mantissa fin s e = core fin b a e := by
  unfold mantissa
  rcases find_first s [46] 0 hmax with ⟨h1, h2⟩ | ⟨h1, ⟨-, h2⟩, h3⟩
  · left
    refine ⟨?_, ?_⟩
    · intro hm
      obtain ⟨a, b, rfl⟩ := List.append_of_mem hm
      exact h2 a.length ⟨Nat.zero_le _, a, b, by simp, rfl⟩
    · simp only [h1, ne_eq, not_true_eq_false, if_false, Res.bind_ok]
      rfl
  · right
    obtain ⟨b, a, hs, hb⟩ := h2
    refine ⟨b, a, hs, ?_, ?_⟩
    · intro hm
      obtain ⟨x, y, rfl⟩ := List.append_of_mem hm
      have := h3 x.length ⟨Nat.zero_le _, x, y ++ [46] ++ a, by rw [hs]; simp, rfl⟩
      rw [← hb] at this
      simp at this
    · simp only [h1, ne_eq, not_false_eq_true, if_true]
      rw [← hb]
      have hl : s.length = b.length + 1 + a.length := by rw [hs]; simp; omega
      rw [Strings.substr_ok s 0 b.length (by omega) hmax,
        Strings.substr_npos s (b.length + 1) (by omega)]
      simp only [Res.bind_ok]
      have e1 : List.take b.length (List.drop 0 s) = b := by rw [hs]; simp
      have e2 : List.drop (b.length + 1) s = a := by rw [hs]; simp
      rw [e1, e2]
      rfl

theorem castInt_small (n : Nat) (h : n < 2 ^ 31) : castInt n = n := by
  unfold castInt
  rw [Int.emod_eq_of_lt] <;> omega

/-- The value of the computation in terms of the whole digit string. -/
theorem core_spec (fin : Finish) (b a : Str) (e : Int) (hne : b ++ a ≠ []) (hlen : (b ++ a).length < 2 ^ 31) :
    (stripZeros (b ++ a) = [] → core fin b a e = .ok (some (.num 0))) ∧
    (stripZeros (b ++ a) ≠ [] → core fin b a e =
      (int32 (e + b.length - 1 - ((b ++ a).length - (stripZeros (b ++ a)).length))).bind fun E =>
        if (List.all ((stripZeros (b ++ a)).take 19) isDigit) then
          (fin E (val 0 ((stripZeros (b ++ a)).take 19))
            (10 ^ (((stripZeros (b ++ a)).take 19).length - 1))).map some
        else .ok none) := by
  have hnb : ¬ (b.isEmpty ∧ a.isEmpty) := by
    rintro ⟨h1, h2⟩
    rw [List.isEmpty_iff] at h1 h2
    subst h1; subst h2; exact hne rfl
  unfold core
  rw [if_neg hnb]
  simp only
  have hdig : ∀ s : Str, List.all s isDigit = true ↔ Digits s := by
    intro s; simp [Digits]
  obtain ⟨kb, hb1, hb2⟩ := stripZeros_split b
  rw [stripZeros_append]
  have hlab : (b ++ a).length = b.length + a.length := by simp
  by_cases hb : stripZeros b = []
  · simp only [hb, if_true, List.isEmpty_nil]
    have hkb : kb = b.length := by rw [hb] at hb2; simpa using hb2
    cases ha : stripZeros a with
    | nil => exact ⟨fun _ => rfl, fun h => absurd rfl h⟩
    | cons d t =>
      refine ⟨fun h => by simp at h, fun _ => ?_⟩
      obtain ⟨ka, ha1, ha2⟩ := stripZeros_split a
      rw [ha] at ha2
      simp at ha2
      have hexp : e - castInt (a.length - t.length) =
          e + b.length - 1 - ((b ++ a).length - (d :: t).length) := by
        rw [castInt_small _ (by omega), hlab, List.length_cons]
        push_cast
        omega
      simp only [hexp]
      congr 1
      funext E
      have hn := toNormalizedFloat_spec [d] t (by simp)
      rw [List.singleton_append] at hn
      by_cases hd : Digits ((d :: t).take 19)
      · rw [hn.1 hd, if_pos ((hdig _).2 hd)]
      · rw [hn.2 hd, if_neg (fun h => hd ((hdig _).1 h))]
  · rw [if_neg hb]
    have hbe : (stripZeros b).isEmpty = false := by
      cases h : stripZeros b with
      | nil => exact absurd h hb
      | cons => rfl
    refine ⟨fun h => by simp at h; exact absurd h.1 hb, fun _ => ?_⟩
    simp only [hbe, Bool.false_eq_true, if_false]
    have hpos : 0 < (stripZeros b).length := List.length_pos_iff.2 hb
    have hexp : e + castInt ((stripZeros b).length - 1) =
          e + b.length - 1 - ((b ++ a).length - (stripZeros b ++ a).length) := by
      rw [castInt_small _ (by omega), hlab, List.length_append]
      push_cast
      omega
    simp only [hexp]
    congr 1
    funext E
    have hn := toNormalizedFloat_spec (stripZeros b) a hb
    by_cases hd : Digits ((stripZeros b ++ a).take 19)
    · rw [hn.1 hd, if_pos ((hdig _).2 hd)]
    · rw [hn.2 hd, if_neg (fun h => hd ((hdig _).1 h))]

theorem core_spec_exact (b a : Str) (e : Int) (hne : b ++ a ≠ [])
    (hlen : (b ++ a).length < 2 ^ 31) :
    (stripZeros (b ++ a) = [] → core exactFinish b a e = .ok (some (.num 0))) ∧
    (stripZeros (b ++ a) ≠ [] → core exactFinish b a e =
      (int32 (e + b.length - 1 - ((b ++ a).length - (stripZeros (b ++ a)).length))).bind fun E =>
        if (List.all ((stripZeros (b ++ a)).take 19) isDigit) then
          (pow10 E).map fun p => some (p.mul ((val 0 ((stripZeros (b ++ a)).take 19) : ℚ) /
            10 ^ (((stripZeros (b ++ a)).take 19).length - 1)))
        else .ok none) := by
  obtain ⟨h1, h2⟩ := core_spec exactFinish b a e hne hlen
  refine ⟨h1, fun h => ?_⟩
  rw [h2 h]
  congr 1
  funext E
  split
  · unfold exactFinish
    cases pow10 E <;> simp [Res.map]
  · rfl

/-- Leading non-zero digit: the value is at least the power of ten of its position. -/
theorem val_ge (d : UInt8) (t : Str) (hd : Digits (d :: t)) (h0 : d ≠ 48) :
    10 ^ t.length ≤ val 0 (d :: t) := by
  have hdd := (isDigit_iff d).1 (hd d (by simp))
  have hne : d.toNat ≠ 48 := fun e => h0 (UInt8.toNat.inj e)
  have e : val 0 (d :: t) = val (10 * 0 + (d.toNat - 48)) t := rfl
  rw [e, val_eq]
  have : 1 * 10 ^ t.length ≤ (10 * 0 + (d.toNat - 48)) * 10 ^ t.length :=
    Nat.mul_le_mul_right _ (by omega)
  omega

/-- Position of the exponent letter. -/
theorem split_e (s : Str) (hmax : s.length < npos) :
    (findFirstOf s (bytes "eE") 0 = npos ∧ ∀ c ∈ s, c ≠ 101 ∧ c ≠ 69) ∨
    ∃ m c x, s = m ++ c :: x ∧ (c = 101 ∨ c = 69) ∧ (∀ c ∈ m, c ≠ 101 ∧ c ≠ 69) ∧
      findFirstOf s (bytes "eE") 0 = m.length ∧ m.length ≠ npos := by
  have hmem : ∀ c : UInt8, c ∈ bytes "eE" ↔ c = 101 ∨ c = 69 := by
    intro c
    have : bytes "eE" = [101, 69] := by decide
    rw [this]; simp
  rcases findFirstOf_first s (bytes "eE") 0 hmax with ⟨h1, h2⟩ | ⟨h1, ⟨-, c, h2, h3⟩, h4⟩
  · left
    refine ⟨h1, fun c hc => ?_⟩
    obtain ⟨i, hi, rfl⟩ := List.getElem_of_mem hc
    have := h2 i
    by_contra hcon
    exact this ⟨Nat.zero_le _, s[i], by simp [hi], (hmem _).2 (by tauto)⟩
  · right
    generalize hp : findFirstOf s (bytes "eE") 0 = p at *
    have hlt : p < s.length := by
      by_contra hcon
      rw [List.getElem?_eq_none (by omega)] at h2
      simp at h2
    refine ⟨s.take p, c, s.drop (p + 1), ?_, (hmem _).1 h3, ?_, ?_, ?_⟩
    · rw [List.getElem?_eq_getElem hlt] at h2
      simp at h2
      rw [← h2]
      simp
    · intro x hx
      obtain ⟨i, hi, rfl⟩ := List.getElem_of_mem hx
      have hi' : i < p := by simp at hi; omega
      by_contra hcon
      have := h4 i ⟨Nat.zero_le _, s[i], by simp, (hmem _).2 (by
        rw [List.getElem_take] at hcon; tauto)⟩
      omega
    · simp; omega
    · simp; omega

theorem mantissaPart_none (s : Str) (h : ∀ c ∈ s, c ≠ 101 ∧ c ≠ 69) : mantissaPart s = s := by
  unfold mantissaPart
  induction s with
  | nil => rfl
  | cons c s ih =>
    rw [List.takeWhile_cons_of_pos (by simpa using h c (by simp)),
      ih fun x hx => h x (by simp [hx])]

theorem mantissaPart_cons (m x : Str) (c : UInt8) (h : ∀ c ∈ m, c ≠ 101 ∧ c ≠ 69)
    (hc : c = 101 ∨ c = 69) : mantissaPart (m ++ c :: x) = m := by
  unfold mantissaPart
  rw [List.takeWhile_append_of_pos (by intro a ha; simpa using h a ha)]
  rcases hc with rfl | rfl <;> simp

/-- parse_exponent reads exactly the exponent parts whose digits fit in an int. -/
theorem parseExponent_spec (x : Str) (hx : x ≠ []) (c : UInt8) (hc : c = 101 ∨ c = 69) :
    (∃ e, parseExponent x = .ok (some e) ∧ ExpPart (c :: x) e ∧ -intMax ≤ e ∧ e ≤ intMax) ∨
    (parseExponent x = .ok none ∧
      ∀ e, ExpPart (c :: x) e → e < -intMax ∨ intMax < e) := by
  have him : (intMax.toNat : Int) = intMax := by decide
  match x, hx with
  | d :: rest, _ =>
    unfold parseExponent
    simp only
    by_cases h1 : d = 43
    · subst h1
      simp only [if_true]
      cases h : toUnsignedInteger intMax.toNat rest with
      | some n =>
        left
        rw [toUnsignedInteger_iff] at h
        refine ⟨n, rfl, .plus hc h.1 h.2.1, ?_, ?_⟩
        · unfold intMax; omega
        · have := h.2.2; omega
      | none =>
        right
        refine ⟨rfl, fun e he => ?_⟩
        cases he with
        | plain _ hne hd =>
          rw [decNumeral_iff] at hd
          have := hd.1 43 (by simp)
          simp [isDigit] at this
        | @plus _ _ n _ hne hd =>
          right
          by_contra hcon
          have : toUnsignedInteger intMax.toNat rest = some n := by
            rw [toUnsignedInteger_iff]
            exact ⟨hne, hd, by omega⟩
          rw [h] at this; simp at this
    · by_cases h2 : d = 45
      · subst h2
        simp only [show ¬ ((45 : UInt8) = 43) by decide, if_false, if_true]
        cases h : toUnsignedInteger intMax.toNat rest with
        | some n =>
          left
          rw [toUnsignedInteger_iff] at h
          refine ⟨-(n : Int), rfl, .minus hc h.1 h.2.1, ?_, ?_⟩
          · have := h.2.2; omega
          · unfold intMax; omega
        | none =>
          right
          refine ⟨rfl, fun e he => ?_⟩
          cases he with
          | plain _ hne hd => exact absurd rfl (decNumeral_head hd)
          | @minus _ _ n _ hne hd =>
            left
            by_contra hcon
            have : toUnsignedInteger intMax.toNat rest = some n := by
              rw [toUnsignedInteger_iff]
              exact ⟨hne, hd, by omega⟩
            rw [h] at this; simp at this
      · simp only [h1, h2, if_false]
        cases h : toUnsignedInteger intMax.toNat (d :: rest) with
        | some n =>
          left
          rw [toUnsignedInteger_iff] at h
          refine ⟨n, rfl, .plain hc h.1 h.2.1, ?_, ?_⟩
          · unfold intMax; omega
          · have := h.2.2; omega
        | none =>
          right
          refine ⟨rfl, fun e he => ?_⟩
          cases he with
          | @plain _ _ n _ hne hd =>
            right
            by_contra hcon
            have : toUnsignedInteger intMax.toNat (d :: rest) = some n := by
              rw [toUnsignedInteger_iff]
              exact ⟨hne, hd, by omega⟩
            rw [h] at this; simp at this
          | plus => exact absurd rfl h1
          | minus => exact absurd rfl h2

/-- Reading a string that is not a spelling of infinity or NaN: separate the exponent part. -/
theorem toUnsignedFloat_cases (fin : Finish) (s : Str) (hmax : s.length < npos) (hin : parseInfNan s = none) :
    ∃ ex, s = mantissaPart s ++ ex ∧
      ((∃ e, ExpPart ex e ∧ -intMax ≤ e ∧ e ≤ intMax ∧
          toUnsignedFloatWith fin s = mantissa fin (mantissaPart s) e) ∨
       (toUnsignedFloatWith fin s = .ok none ∧ ∀ e, ExpPart ex e → e < -intMax ∨ intMax < e)) := by
  unfold toUnsignedFloatWith
  rw [hin]
  simp only
  rcases split_e s hmax with ⟨h1, h2⟩ | ⟨m, c, x, rfl, hc, hm, h1, h2⟩
  · refine ⟨[], by rw [mantissaPart_none s h2]; simp, Or.inl ⟨0, .none, by decide, by decide, ?_⟩⟩
    rw [h1]
    simp only [ne_eq, not_true_eq_false, if_false]
    rw [mantissaPart_none s h2]
  · rw [mantissaPart_cons m x c hm hc]
    refine ⟨c :: x, rfl, ?_⟩
    rw [h1]
    simp only [ne_eq, h2, not_false_eq_true, if_true]
    by_cases hx : x = []
    · subst hx
      right
      refine ⟨by simp, fun e he => ?_⟩
      cases he with
      | plain _ hne _ => exact absurd rfl hne
    · have hxl : 0 < x.length := List.length_pos_iff.2 hx
      rw [if_neg (by simp; exact hx), Strings.substr_npos _ _ (by simp),
        Strings.substr_ok _ _ _ (by simp) hmax]
      simp only [Res.bind_ok]
      have e1 : List.drop (m.length + 1) (m ++ c :: x) = x := by simp
      have e2 : List.take m.length (List.drop 0 (m ++ c :: x)) = m := by simp
      rw [e1, e2]
      rcases parseExponent_spec x hx c hc with ⟨e, g1, g2, g3, g4⟩ | ⟨g1, g2⟩
      · left
        refine ⟨e, g2, g3, g4, ?_⟩
        rw [g1]; rfl
      · right
        exact ⟨by rw [g1]; rfl, g2⟩

/-- Separate the digits before and after the decimal point. -/
theorem mantissa_split (fin : Finish) (m : Str) (e : Int) (hmax : m.length < npos) :
    ∃ b a, m.erase 46 = b ++ a ∧ ((m = b ∧ a = []) ∨ m = b ++ [46] ++ a) ∧
      mantissa fin m e = core fin b a e := by
  rcases mantissa_core fin m e hmax with ⟨h1, h2⟩ | ⟨b, a, h1, h2, h3⟩
  · exact ⟨m, [], by rw [List.erase_of_not_mem h1]; simp, .inl ⟨rfl, rfl⟩, h2⟩
  · refine ⟨b, a, ?_, .inr h1, h3⟩
    rw [h1, List.append_assoc, List.erase_append_right _ h2]
    simp

theorem core_empty (fin : Finish) (e : Int) : core fin [] [] e = .ok none := rfl

/-- A numeral's mantissa is what the reader takes as mantissa. -/
theorem mantissaPart_numeral (m ex : Str) (e : Int) (hm : ∀ c ∈ m, c = 46 ∨ isDigit c = true)
    (he : ExpPart ex e) : mantissaPart (m ++ ex) = m := by
  have hm' : ∀ c ∈ m, c ≠ 101 ∧ c ≠ 69 := by
    intro c hc
    rcases hm c hc with rfl | h
    · decide
    · have := (isDigit_iff c).1 h
      constructor <;> rintro rfl <;> simp at this
  cases he with
  | none => rw [List.append_nil]; exact mantissaPart_none m hm'
  | plain hc _ _ => exact mantissaPart_cons m _ _ hm' hc
  | plus hc _ _ => exact mantissaPart_cons m _ _ hm' hc
  | minus hc _ _ => exact mantissaPart_cons m _ _ hm' hc

theorem expPart_unique {s e} (h : ExpPart s e) : ∀ e', ExpPart s e' → e = e' := by
  intro e' h'
  have hu : ∀ {d n n'}, DecNumeral d n → DecNumeral d n' → n = n' := by
    intro d n n' h1 h2
    rw [decNumeral_iff] at h1 h2
    rw [← h1.2, h2.2]
  have hnd : ∀ {c d n}, DecNumeral (c :: d) n → c ≠ 43 ∧ c ≠ 45 := by
    intro c d n h
    rw [decNumeral_iff] at h
    have := (isDigit_iff c).1 (h.1 c (by simp))
    constructor <;> rintro rfl <;> simp at this
  cases h with
  | none => cases h'; rfl
  | plain _ _ h1 =>
    cases h' with
    | plain _ _ h2 => rw [hu h1 h2]
    | plus => exact absurd rfl (hnd h1).1
    | minus => exact absurd rfl (hnd h1).2
  | plus _ _ h1 =>
    cases h' with
    | plain _ _ h2 => exact absurd rfl (hnd h2).1
    | plus _ _ h2 => rw [hu h1 h2]
  | minus _ _ h1 =>
    cases h' with
    | plain _ _ h2 => exact absurd rfl (hnd h2).2
    | minus _ _ h2 => rw [hu h1 h2]

theorem startsWithNocase_head {s p : Str} {c d : UInt8}
    (h : startsWithNocase (c :: s) (d :: p) = true) : asciiLower c = asciiLower d := by
  unfold startsWithNocase at h
  by_contra hcon
  rw [c21_lower, c21_lower, if_pos hcon] at h
  simp at h

/-- A numeral is not mistaken for infinity or NaN. -/
theorem parseInfNan_numeral (c : UInt8) (s : Str) (hc : c = 46 ∨ isDigit c = true) :
    parseInfNan (c :: s) = none := by
  have key : ∀ c : UInt8, c = 46 ∨ isDigit c = true → asciiLower c ≠ 105 ∧ asciiLower c ≠ 110 := by
    apply Text.forall_u8; decide +kernel
  obtain ⟨k1, k2⟩ := key c hc
  have b1 : bytes "inf" = 105 :: bytes "nf" := by decide
  have b2 : bytes "nan" = 110 :: bytes "an" := by decide
  unfold parseInfNan
  rw [if_neg (by simp), b1, b2, if_neg, if_neg]
  · intro h
    exact k2 (startsWithNocase_head h)
  · intro h
    exact k1 (startsWithNocase_head h)

end Gul14.ToNumber
