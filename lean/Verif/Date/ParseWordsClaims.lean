import Verif.Date.ParseWords
import Verif.Date.ParseSoundProps

/-! # From the variables of parse to what the text says: formats with names, twelve-hour clock and zone

The variables are also those of a text of numbers only, so that what is known about these can be used. -/
namespace Gul14.Date.Words
open Gul14.Spec.Calendar Gul14.Spec.DateText Gul14.Spec.DateFormat Gul14.Spec.DateParse

variable {W : Words} {e : PEnv} {v : PVars}

/-- The format of numbers. -/
def tr : Item → Item
  | .lit c => .lit c
  | .conv md c => .conv md (trc c)

theorem letters_tr (its : List Item) : letters (its.map tr) = (letters its).map trc := by
  induction its with
  | nil => rfl
  | cons i its ih =>
    cases i with
    | lit c => exact ih
    | conv md c =>
      simp only [List.map_cons, tr, letters, List.filterMap_cons_some] at ih ⊢
      exact congrArg _ ih

theorem trc_of_mem {c : Char} (h : c ∈ ['C', 'y', 'D', 'U', 'W', 'G', 'V', 'T', 'R', 'M', 'S', 'z']) (x : Char) : trc x = c ↔ x = c := by
  constructor
  · intro e
    unfold trc at e
    split at e
    · exact absurd (e ▸ h) (by decide)
    split at e
    · exact absurd (e ▸ h) (by decide)
    split at e
    · exact absurd (e ▸ h) (by decide)
    split at e
    · exact absurd (e ▸ h) (by decide)
    split at e
    · exact absurd (e ▸ h) (by decide)
    · exact e
  · rintro rfl
    exact (show ∀ c ∈ ['C', 'y', 'D', 'U', 'W', 'G', 'V', 'T', 'R', 'M', 'S', 'z'], trc c = c by decide) _ h

theorem mem_map_trc {c : Char} (h : c ∈ ['C', 'y', 'D', 'U', 'W', 'G', 'V', 'T', 'R', 'M', 'S', 'z']) (L : List Char) : c ∈ L.map trc ↔ c ∈ L := by
  rw [List.mem_map]
  constructor
  · rintro ⟨x, h1, h2⟩
    exact ((trc_of_mem h x).mp h2) ▸ h1
  · intro h'
    exact ⟨c, h', (trc_of_mem h c).mpr rfl⟩

theorem trc_H (x : Char) : trc x = 'H' ↔ x = 'H' ∨ x = 'I' := by
  constructor
  · intro e
    unfold trc at e
    split at e
    · exact absurd e (by decide)
    split at e
    · exact absurd e (by decide)
    split at e
    · exact absurd e (by decide)
    split at e
    · exact Or.inr ‹_›
    split at e
    · exact absurd e (by decide)
    · exact Or.inl e
  · rintro (rfl | rfl) <;> decide

theorem mem_map_H (L : List Char) : 'H' ∈ L.map trc ↔ 'H' ∈ L ∨ 'I' ∈ L := by
  rw [List.mem_map]
  constructor
  · rintro ⟨x, h1, h2⟩
    rcases (trc_H x).mp h2 with rfl | rfl
    · exact Or.inl h1
    · exact Or.inr h1
  · rintro (h | h)
    · exact ⟨_, h, rfl⟩
    · exact ⟨_, h, rfl⟩

theorem coherent_tr {L : List Char} (h : Coherent L) : Coherent (L.map trc) := by
  unfold Coherent at *
  simp only [mem_map_trc (c := 'C') (by decide), mem_map_trc (c := 'y') (by decide), mem_map_trc (c := 'D') (by decide),
    mem_map_trc (c := 'U') (by decide), mem_map_trc (c := 'W') (by decide), mem_map_trc (c := 'G') (by decide), mem_map_trc (c := 'V') (by decide)]
  exact h

theorem two_digits (k : Nat) (h : k < 100) : Num 2 k [Char.ofNat (48 + k / 10), Char.ofNat (48 + k % 10)] := by
  have : ∀ k < 100, [Char.ofNat (48 + k / 10), Char.ofNat (48 + k % 10)].all isDigit = true ∧
      value [Char.ofNat (48 + k / 10), Char.ofNat (48 + k % 10)] = k := by decide +kernel
  obtain ⟨h1, h2⟩ := this k h
  exact ⟨by simp, by simp, h1, h2⟩

theorem one_digit (k : Nat) (h : k < 10) : Num 1 k [Char.ofNat (48 + k)] := by
  have : ∀ k < 10, [Char.ofNat (48 + k)].all isDigit = true ∧ value [Char.ofNat (48 + k)] = k := by decide +kernel
  obtain ⟨h1, h2⟩ := this k h
  exact ⟨by simp, by simp, h1, h2⟩

/-! ### The hour -/

/-- What the hour has to do with the variables. -/
structure HourFits (v : PVars) (H : Int) : Prop where
  same : v.I = 0 → H = v.H
  range : v.I ≠ 0 → 0 ≤ H ∧ H ≤ 23 ∧ (v.H = -2147483648 ∨ v.H = H) ∧ v.I = hour12 H.toNat ∧ (v.p ≠ -1 → (v.p = 1 ↔ 12 ≤ H))

theorem hour12_of {H : Int} {I : Int} (h0 : 0 ≤ H) (h1 : H ≤ 23) (hI : 1 ≤ I) (h : H = I ∨ H = I + 12 ∧ I < 12 ∨ H = I - 12) (hI' : I ≤ 12)
    : I = hour12 H.toNat := by
  unfold hour12
  split <;> omega

theorem theHour_fits {H : Int} (bH : v.H = -2147483648 ∨ (0 ≤ v.H ∧ v.H ≤ 99)) (bI : v.I = 0 ∨ (1 ≤ v.I ∧ v.I ≤ 12))
    (bp : v.p = -1 ∨ v.p = 0 ∨ v.p = 1) (h : theHour v = .ok H) : HourFits v H := by
  unfold theHour at h
  by_cases hI : v.I = 0
  · rw [if_pos hI] at h
    cases h
    exact ⟨fun _ => rfl, fun h => absurd hI h⟩
  · rw [if_neg hI] at h
    have hI' := bI.resolve_left hI
    rw [if_neg (by simp [hI'])] at h
    refine ⟨fun h => absurd h hI, fun _ => ?_⟩
    by_cases hp : v.p = -1
    · rw [if_neg (by simp [hp])] at h
      split at h
      · rename_i hH
        have bH' := bH.resolve_left hH
        have key : H = v.H ∧ ((v.I = 12 ∧ (v.H = 0 ∨ v.H = 12)) ∨ (v.I ≠ 12 ∧ v.I = v.H)) := by
          split at h
          · rename_i h12
            split at h
            · cases h
            · rename_i hh
              cases h
              refine ⟨rfl, Or.inl ⟨h12, ?_⟩⟩
              simp only [Bool.and_eq_true, decide_eq_true_eq, not_and, Decidable.not_not] at hh
              omega
          · rename_i h12
            split at h
            · rename_i hh
              cases h
              exact ⟨rfl, Or.inr ⟨h12, hh⟩⟩
            · obtain ⟨x, hx, h⟩ := bind_ok h
              rw [int_ok (by omega) (by omega)] at hx
              cases hx
              split at h
              · omega
              · cases h
        obtain ⟨rfl, key⟩ := key
        refine ⟨by omega, by omega, Or.inr rfl, ?_, fun h => absurd hp h⟩
        unfold hour12
        split <;> omega
      · cases h
    · rw [if_pos hp] at h
      have bp' := bp.resolve_left hp
      simp only at h
      generalize hq : v.I + (if v.I = 12 then v.p - 1 else v.p) * 12 = q at h
      have hq' : q = if v.I = 12 then v.p * 12 else v.I + v.p * 12 := by
        split
        · rename_i h12; rw [if_pos h12] at hq; omega
        · rename_i h12; rw [if_neg h12] at hq; omega
      have key : H = q ∧ (v.H = -2147483648 ∨ v.H = H) := by
        split at h
        · cases h; exact ⟨rfl, Or.inl ‹_›⟩
        · split at h
          · cases h
          · rename_i hh
            cases h
            exact ⟨by omega, Or.inr rfl⟩
      obtain ⟨rfl, k2⟩ := key
      have r1 : 0 ≤ H ∧ H ≤ 23 := by
        split at hq' <;> omega
      refine ⟨r1.1, r1.2, k2, ?_, fun _ => ?_⟩
      · unfold hour12
        split at hq' <;> split <;> omega
      · split at hq' <;> omega

/-- The variables, with the hour. -/
def withHour (v : PVars) (H : Int) : PVars := { v with H := H, I := 0, p := -1, abbr := [] }

theorem keeps_withHour {H : Int} (h : HourFits v H) : Keeps v (withHour v H) := by
  intro f
  by_cases hf : f = .H
  · subst hf
    show H = v.H ∨ v.H = _
    by_cases hI : v.I = 0
    · exact Or.inl (h.same hI)
    · rcases (h.range hI).2.2.1 with h | h
      · exact Or.inr h
      · exact Or.inl h.symm
  · left
    cases f <;> first | rfl | exact absurd rfl hf

theorem step_withHour {L : List Char} {H : Int} (hst : StepW L {} v) (h : HourFits v H) : Step (L.map trc) {} (withHour v H) := by
  refine ⟨fun f => ?_, hst.g, rfl, rfl, rfl⟩
  by_cases hf : f = .H
  · subst hf
    show H = _ ∨ _
    by_cases hI : v.I = 0
    · rw [h.same hI]
      refine (hst.fld .H).imp id fun ⟨a, b, c, c1, c2⟩ => ⟨a, ?_, trc c, List.mem_map_of_mem c1, c2⟩
      exact b
    · obtain ⟨r1, r2, -⟩ := h.range hI
      refine Or.inr ⟨rfl, ?_, 'H', (mem_map_H L).mpr (Or.inr ?_), by decide⟩
      · show InRange .H H
        simp only [InRange]
        omega
      · rcases hst.I with h | h
        · exact absurd h hI
        · exact h.2.2.2
  · have e : get (withHour v H) f = get v f := by
      cases f <;> first | rfl | exact absurd rfl hf
    rw [e]
    exact (hst.fld f).imp id fun ⟨a, b, c, c1, c2⟩ => ⟨a, b, trc c, List.mem_map_of_mem c1, c2⟩

/-- A text of numbers. -/
theorem split_tr {H : Int} (h : HourFits v H) {T : Nat} (its : List Item) : ∀ t r, (∀ i ∈ its, Wordy i) →
    Split (AgreeW W T v) its t r → ∃ t', Split (AgreeV T (withHour v H)) (its.map tr) t' [] := by
  induction its with
  | nil => intro t r _ _; exact ⟨[], rfl⟩
  | cons i its ih =>
    intro t r hr hs
    have hr' := fun i hi => hr i (List.mem_cons_of_mem _ hi)
    cases i with
    | lit c =>
      obtain ⟨a, b, -, h2, h3⟩ := hs
      obtain ⟨t', ht'⟩ := ih _ _ hr' h3
      exact ⟨a ++ t', a, t', rfl, h2, ht'⟩
    | conv md c =>
      obtain ⟨a, b, -, h2, h3⟩ := hs
      obtain ⟨t', ht'⟩ := ih _ _ hr' h3
      have key : ∃ a', AgreeV T (withHour v H) md (trc c) a' := by
        rcases hr _ List.mem_cons_self with h1 | ⟨rfl, h1⟩
        · obtain ⟨e1, e2⟩ := trc_plain h1
          rw [e1]
          rw [e2] at h2
          exact ⟨a, h2.keep (keeps_withHour h)⟩
        · unfold AgreeW at h2
          split at h2
          · rename_i hc
            obtain ⟨w, -, w1, w2⟩ := h2
            rw [show trc c = 'w' by rcases hc with rfl | rfl <;> rfl]
            exact ⟨_, w, one_digit w (by omega), w1, w2.keep (keeps_withHour h)⟩
          split at h2
          · rename_i hc
            obtain ⟨m, -, m1, m2, m3⟩ := h2
            rw [show trc c = 'm' by rcases hc with rfl | rfl | rfl <;> rfl]
            exact ⟨_, m, ⟨_, m, two_digits m (by omega), Or.inl ⟨rfl, Or.inl rfl⟩⟩, m3.keep (keeps_withHour h)⟩
          split at h2
          · rename_i hc
            subst hc
            obtain ⟨x, x1, x2⟩ := h2
            exact ⟨a, x, x1, x2.keep (keeps_withHour h)⟩
          split at h2
          · rename_i hc
            subst hc
            obtain ⟨x, x1, x2, x3, x4⟩ := h2
            obtain ⟨r1, r2, -⟩ := h.range (by omega)
            refine ⟨_, H.toNat, two_digits H.toNat (by omega), Or.inr ?_⟩
            show H = _
            omega
          split at h2
          · rename_i hc; subst hc; exact ⟨['%'], rfl⟩
          split at h2
          · rename_i hc; subst hc; exact ⟨['%'], rfl⟩
          split at h2
          · rename_i hc; subst hc; exact ⟨['%'], rfl⟩
          · rename_i n1 n2 n3 n4 n5 n6 n7
            simp only [wordLetters, List.mem_cons, List.not_mem_nil, or_false] at h1
            tauto
      obtain ⟨a', ha'⟩ := key
      exact ⟨a' ++ t', a', t', rfl, ha', ht'⟩

theorem StepW.bounds {L : List Char} (hst : StepW L {} v) (f : Fld) : get v f = unset f ∨ InRange f (get v f) := by
  rcases hst.fld f with h | h
  · exact Or.inl (h.trans (by cases f <;> rfl))
  · exact Or.inr h.2.1

/-- A piece of text and its conversion. -/
theorem agreesWords_of {T : Nat} {L : List Char} {x : Claim} (hT0 : 0 < T) (hT : T ≤ 10 ^ 15) (hw : fractionalWidth T ≤ 16) {H : Int}
    (hH : HourFits v H) (ht : TimeFits (withHour v H) x) (hd : DateFits L (withHour v H) x) {md : Option Char} {c : Char} {a : List Char}
    (hc : Wordy (.conv md c)) (hpI : c = 'p' → v.I ≠ 0) (h : AgreeW W T v md c a) : AgreesWords W v.abbr T (fractionalWidth T) x md c a := by
  have hxh : v.I ≠ 0 → (x.h : Int) = H := by
    intro hI
    have h1 : (x.h : Int) = if H = -2147483648 then 0 else H := ht.1
    have h2 := hH.range hI
    rw [if_neg (by omega)] at h1
    exact h1
  rcases hc with h1 | ⟨rfl, h1⟩
  · obtain ⟨e1, e2⟩ := trc_plain h1
    rw [e2] at h
    have := agrees_of hT0 hT hw ht hd (h.keep (keeps_withHour hH))
    have e : ∀ c, Readable (.conv md c) → AgreesWords W v.abbr T (fractionalWidth T) x md c a = Agrees T (fractionalWidth T) x md c a := by
      intro c hc
      rcases hc with ⟨-, hc⟩ | ⟨rfl, -⟩
      · have : c ∉ wordLetters := fun h => (show ∀ c ∈ wordLetters, c ∉ plain by decide) c h hc
        unfold AgreesWords
        split <;> first | rfl | exact absurd (by decide) this
      · rfl
    rw [e c h1]
    exact this
  · have hdow := dow_lt x.n
    unfold AgreeW at h
    split at h
    · rename_i hc
      obtain ⟨w, w0, w1, w2⟩ := h
      have e : v.wd = w := w2.eq (by simp only [unset]; omega)
      have : w = dayOfWeek x.n := by have := hd.wd; simp only [withHour] at this; omega
      subst this
      rcases hc with rfl | rfl <;> exact w0
    split at h
    · rename_i hc
      obtain ⟨m, w0, w1, w2, w3⟩ := h
      have e : v.m = m := w3.eq (by simp only [unset]; omega)
      have : m = x.d.month := by have := hd.m; simp only [withHour] at this; omega
      subst this
      rcases hc with rfl | rfl | rfl <;> exact w0
    split at h
    · rename_i hc
      subst hc
      obtain ⟨y, y1, y2⟩ := h
      refine ⟨y, y1, ?_⟩
      rcases y2 with y2 | y2
      · exact Or.inl y2
      · change v.d = y at y2
        have := hd.dd
        simp only [withHour] at this
        omega
    split at h
    · rename_i hc
      subst hc
      obtain ⟨y, y1, y2, y3, y4⟩ := h
      have hI : v.I ≠ 0 := by omega
      have := (hH.range hI).2.2.2.1
      have hx := hxh hI
      show SNum 2 (hour12 x.h) a
      rw [show x.h = H.toNat by omega, ← this, y4]
      exact y1
    split at h
    · rename_i hc
      subst hc
      obtain ⟨b, b1, b2⟩ := h
      have hI := hpI rfl
      have := (hH.range hI).2.2.2.2 (by rw [b2]; cases b <;> simp)
      have hx := hxh hI
      show W.half (12 ≤ x.h) a
      have : b = decide (12 ≤ x.h) := by
        cases b
        · simp at b2
          have h1 : ¬ (12 ≤ H) := fun h => by have := this.mpr h; omega
          simp; omega
        · simp at b2
          have h1 := this.mp b2
          simp; omega
      rw [← this]
      exact b1
    split at h
    · rename_i hc
      subst hc
      exact ⟨h.1, h.2.symm⟩
    split at h
    · rename_i hc
      subst hc
      exact h
    · rename_i n1 n2 n3 n4 n5 n6 n7
      simp only [wordLetters, List.mem_cons, List.not_mem_nil, or_false] at h1
      tauto

/-- A successful call, for a text with a date. -/
theorem fromStream_words_claim (hT0 : 0 < e.T) (hT : e.T ≤ 10 ^ 15) (hw : fractionalWidth e.T ≤ 16) (hW : KnowsWords W e.loc.get)
    {fmt text : List Char} {has : Bool} {ymd0 : YMD} {wd0 : UInt8} {is : IStream} {r : Parsed} (hr : ∀ i ∈ items fmt, Wordy i)
    (hc : CoherentWords (letters (items fmt)))
    (h : fromStream e ⟨text, false, false⟩ fmt ⟨ymd0, wd0, ⟨0, 0, 0, 0, false⟩, has⟩ = .ok (is, some r)) (hok : r.fds.ymd.ok = true) :
    ∃ x : Claim, x.Consistent ∧ x.RestWords (letters (items fmt)) ∧
      Split (AgreesWords W r.abbr e.T (fractionalWidth e.T) x) (items fmt) text is.rest ∧ ('Z' ∉ letters (items fmt) → r.abbr = []) ∧
      r.fds.ymd.date = x.d ∧ r.fds.ymd.toDays = .ok x.n ∧
      r.fds.tod = ⟨x.h, x.m, x.s / e.T, x.s % e.T * 10 ^ fractionalWidth e.T / e.T, false⟩ ∧ 0 ≤ x.s ∧
      r.offset = if 'z' ∈ letters (items fmt) then some x.o else none := by
  obtain ⟨v, hs, hst, hcm⟩ := fromStream_words hW hw hr h
  obtain ⟨H, n, Y, hH, hab, d1, d2, F, hy, ht, ho⟩ := combine_inv_hour hst.bounds hst.g hok hcm
  have bH := hst.bounds .H
  simp only [get, unset, InRange] at bH
  have bI : v.I = 0 ∨ (1 ≤ v.I ∧ v.I ≤ 12) := hst.I.imp id fun h => ⟨h.2.1, h.2.2.1⟩
  have bp : v.p = -1 ∨ v.p = 0 ∨ v.p = 1 := hst.p.imp id fun h => h.2.1
  have hF := theHour_fits (by omega) bI bp hH
  obtain ⟨t', ht'⟩ := split_tr hF (items fmt) text is.rest hr hs
  have hst' := step_withHour hst hF
  rw [← letters_tr] at hst'
  have hc' : Coherent (letters ((items fmt).map tr)) := by rw [letters_tr]; exact coherent_tr hc.1
  obtain ⟨x, a1, a2, a3, a4, a5, a6, a7, a8, a9⟩ := claim_of (e := e) (v := withHour v H) hT0 hT hw hc' ht' hst' d1 d2 ⟨F.Y, F.m, F.dd, F.wd, F.U, F.W, F.iso, F.j⟩ hy ht ho
  have hpI : 'p' ∈ letters (items fmt) → v.I ≠ 0 := by
    intro hp
    obtain ⟨md, hm⟩ := letters_mem (hc.2 hp)
    obtain ⟨a, ha⟩ := split_mem _ _ _ hs hm
    unfold AgreeW at ha
    rw [if_neg (by decide), if_neg (by decide), if_neg (by decide), if_pos rfl] at ha
    obtain ⟨y, -, y2, -, y4⟩ := ha
    omega
  refine ⟨x, a1, ?_, ?_, ?_, a5, a6, a7, a8, ?_⟩
  · rw [letters_tr] at a2
    unfold Claim.Rest at a2
    simp only [mem_map_H, mem_map_trc (c := 'T') (by decide), mem_map_trc (c := 'R') (by decide), mem_map_trc (c := 'M') (by decide),
      mem_map_trc (c := 'S') (by decide)] at a2
    exact ⟨fun h1 h2 h3 h4 => a2.1 (by tauto) h2 h3, a2.2⟩
  · rw [hab]
    refine split_mono _ _ _ (fun md c a hm ha => ?_) hs
    exact agreesWords_of hT0 hT hw hF a3 a4 (hr _ hm) (fun h => hpI (by
      subst h
      unfold letters
      rw [List.mem_filterMap]
      exact ⟨_, hm, rfl⟩)) ha
  · intro hz
    rw [hab]
    rcases hst.abbr with h | h
    · exact h
    · exact absurd h.2 hz
  · rw [a9, letters_tr]
    simp only [mem_map_trc (c := 'z') (by decide)]

end Gul14.Date.Words
