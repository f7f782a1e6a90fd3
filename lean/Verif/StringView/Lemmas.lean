import Verif.StringView.Model
import Verif.StringView.Spec

namespace Gul14.SV
open Gul14.Spec

theorem u8_lt_irrefl (a : UInt8) : ¬ a < a := by simp

theorem u8_eq_of_not_lt {a b : UInt8} (h1 : ¬ a < b) (h2 : ¬ b < a) : a = b := by
  rw [UInt8.lt_iff_toNat_lt] at h1 h2
  exact UInt8.toNat_inj.mp (by omega)

theorem traitsFind_eq (s : Str) (c : UInt8) : traitsFind s c = s.contains c := by
  induction s with
  | nil => rfl
  | cons a s ih =>
    simp only [traitsFind, List.contains_cons]
    by_cases h : a = c
    · simp [h]
    · rw [if_neg h, ih]
      have : (c == a) = false := by simpa using fun e => h e.symm
      simp [this]

/-- `traitsCompare a s s.length = 0` says that `s` is a prefix of `a`. -/
theorem traitsCompare_zero_iff (a s : Str) :
    traitsCompare a s s.length = some 0 ↔ s <+: a := by
  induction s generalizing a with
  | nil => simp [traitsCompare]
  | cons y s ih =>
    cases a with
    | nil => simp [traitsCompare]
    | cons x a =>
      simp only [List.length_cons, traitsCompare]
      by_cases h1 : x < y
      · have : x ≠ y := by rintro rfl; exact u8_lt_irrefl _ h1
        simp [h1, List.cons_prefix_cons, this.symm]
      · by_cases h2 : y < x
        · have : y ≠ x := by rintro rfl; exact u8_lt_irrefl _ h2
          simp [h1, h2, List.cons_prefix_cons, this]
        · have := u8_eq_of_not_lt h1 h2
          subst this
          simp [ih, List.cons_prefix_cons]

theorem occursAt_iff (h s : Str) (i : Nat) :
    OccursAt h s i ↔ i ≤ h.length ∧ s <+: h.drop i := by
  constructor
  · rintro ⟨a, b, rfl, rfl⟩
    simp
  · rintro ⟨hi, t, ht⟩
    refine ⟨h.take i, t, ?_, by simp; omega⟩
    rw [List.append_assoc, ht, List.take_append_drop]

theorem occ_le {h s : Str} {i : Nat} (o : OccursAt h s i) : i + s.length ≤ h.length := by
  obtain ⟨a, b, rfl, rfl⟩ := o
  simp

theorem sizeSub_eq {a b : Nat} (h1 : b ≤ a) (h2 : a < sizeMod) : sizeSub a b = a - b := by
  unfold sizeSub
  rw [Nat.mod_eq_of_lt (by omega : b < sizeMod), show a + sizeMod - b = (a - b) + sizeMod by omega,
    Nat.add_mod_right, Nat.mod_eq_of_lt (by omega)]

theorem traitsCompare_defined : ∀ (a b : Str) (n : Nat), n ≤ a.length → n ≤ b.length →
    ∃ c, traitsCompare a b n = some c
  | _, _, 0, _, _ => ⟨0, by unfold traitsCompare; rfl⟩
  | [], _, n + 1, h, _ => by simp at h
  | _ :: _, [], n + 1, _, h => by simp at h
  | x :: a, y :: b, n + 1, h1, h2 => by
    unfold traitsCompare
    split
    · exact ⟨_, rfl⟩
    · split
      · exact ⟨_, rfl⟩
      · exact traitsCompare_defined a b n (by simpa using h1) (by simpa using h2)

/-- Loop of find with values only (not part of the model). -/
def findLoop (h s : Str) (cur : Nat) : Nat → Nat
  | 0 => npos
  | k + 1 =>
      if traitsCompare (h.drop cur) s s.length = some 0 then cur
      else findLoop h s (cur + 1) k

theorem findLoopM_eq (h s : Str) (n cur : Nat) (hn : cur + n ≤ h.length - s.length + 1)
    (hlen : s.length ≤ h.length) : findLoopM h s cur n = some (findLoop h s cur n) := by
  induction n generalizing cur with
  | zero => rfl
  | succ n ih =>
    obtain ⟨c, hc⟩ := traitsCompare_defined (h.drop cur) s s.length
      (by rw [List.length_drop]; omega) (Nat.le_refl _)
    unfold findLoopM findLoop
    rw [hc]
    simp only [Option.some.injEq]
    split
    · rfl
    · exact ih (cur + 1) (by omega)

theorem findM_eq (h s : Str) (pos : Nat) (hmax : h.length < npos) :
    findM h s pos = some (if pos > h.length then npos
      else if s.length = 0 then pos
      else if h.length < s.length then npos
      else findLoop h s pos (h.length - s.length + 1 - pos)) := by
  have hs : sizeMod = npos + 1 := by decide
  unfold findM
  split
  · rfl
  · split
    · rfl
    · split
      · rfl
      · simp only [sizeSub_eq (by omega : s.length ≤ h.length) (by omega)]
        by_cases hp : pos ≤ h.length - s.length + 1
        · exact findLoopM_eq h s _ pos (by omega) (by omega)
        · rw [show h.length - s.length + 1 - pos = 0 by omega]
          rfl

theorem find_eq (h s : Str) (pos : Nat) (hmax : h.length < npos) :
    find h s pos = if pos > h.length then npos
      else if s.length = 0 then pos
      else if h.length < s.length then npos
      else findLoop h s pos (h.length - s.length + 1 - pos) := by
  unfold find; rw [findM_eq h s pos hmax]; rfl

theorem findLoop_first (h s : Str) (n cur : Nat)
    (hn : cur + n = h.length - s.length + 1) (hlen : s.length ≤ h.length)
    (hmax : h.length < npos) :
    IsFirst (fun i => cur ≤ i ∧ OccursAt h s i) (findLoop h s cur n) := by
  induction n generalizing cur with
  | zero =>
    left
    refine ⟨rfl, fun i ⟨h1, h2⟩ => ?_⟩
    have := occ_le h2
    omega
  | succ n ih =>
    unfold findLoop
    by_cases hc : traitsCompare (h.drop cur) s s.length = some 0
    · rw [if_pos hc]
      rw [traitsCompare_zero_iff] at hc
      right
      refine ⟨by omega, ⟨Nat.le_refl _, (occursAt_iff ..).2 ⟨by omega, hc⟩⟩, fun i hi => hi.1⟩
    · rw [if_neg hc]
      rw [traitsCompare_zero_iff] at hc
      have hno : ¬ OccursAt h s cur := fun o => hc ((occursAt_iff ..).1 o).2
      rcases ih (cur + 1) (by omega) with ⟨h1, h2⟩ | ⟨h1, h2, h3⟩
      · left
        refine ⟨h1, fun i ⟨hi1, hi2⟩ => ?_⟩
        rcases Nat.lt_or_ge cur i with h | h
        · exact h2 i ⟨h, hi2⟩
        · have : i = cur := by omega
          subst this; exact hno hi2
      · right
        refine ⟨h1, ⟨by omega, h2.2⟩, fun i ⟨hi1, hi2⟩ => ?_⟩
        rcases Nat.lt_or_ge cur i with h | h
        · exact h3 i ⟨h, hi2⟩
        · have : i = cur := by omega
          subst this; exact absurd hi2 hno

theorem find_first (h s : Str) (pos : Nat) (hmax : h.length < npos) :
    IsFirst (fun i => pos ≤ i ∧ OccursAt h s i) (find h s pos) := by
  rw [find_eq h s pos hmax]
  split
  · rename_i hp
    left
    refine ⟨rfl, fun i ⟨h1, h2⟩ => ?_⟩
    have := occ_le h2; omega
  · rename_i hp
    split
    · rename_i h0
      have hs : s = [] := List.length_eq_zero_iff.mp h0
      subst hs
      right
      refine ⟨by omega, ⟨Nat.le_refl _, (occursAt_iff ..).2 ⟨by omega, by simp⟩⟩,
        fun i hi => hi.1⟩
    · rename_i h0
      split
      · left
        refine ⟨rfl, fun i ⟨h1, h2⟩ => ?_⟩
        have := occ_le h2; omega
      · rename_i hl
        by_cases hp2 : pos ≤ h.length - s.length + 1
        · exact findLoop_first h s _ pos (by omega) (by omega) hmax
        · have : h.length - s.length + 1 - pos = 0 := by omega
          rw [this]
          left
          refine ⟨rfl, fun i ⟨h1, h2⟩ => ?_⟩
          have := occ_le h2; omega

/-- Loop of rfind with values only (not part of the model). -/
def rfindLoop (h s : Str) : Nat → Nat
  | 0 => if traitsCompare h s s.length = some 0 then 0 else npos
  | cur + 1 =>
      if traitsCompare (h.drop (cur + 1)) s s.length = some 0 then cur + 1
      else rfindLoop h s cur

theorem rfindLoopM_eq (h s : Str) (cur : Nat) (hc : cur + s.length ≤ h.length) :
    rfindLoopM h s cur = some (rfindLoop h s cur) := by
  induction cur with
  | zero =>
    obtain ⟨c, hc⟩ := traitsCompare_defined h s s.length (by omega) (Nat.le_refl _)
    unfold rfindLoopM rfindLoop
    rw [hc]
    simp only [Option.some.injEq]
    split <;> rfl
  | succ n ih =>
    obtain ⟨c, hc⟩ := traitsCompare_defined (h.drop (n + 1)) s s.length
      (by rw [List.length_drop]; omega) (Nat.le_refl _)
    unfold rfindLoopM rfindLoop
    rw [hc]
    simp only [Option.some.injEq]
    split
    · rfl
    · exact ih (by omega)

theorem rfindM_eq (h s : Str) (pos : Nat) (hmax : h.length < npos) :
    rfindM h s pos = some (if h.length < s.length then npos
      else
        let pos := if pos > h.length - s.length then h.length - s.length else pos
        if s.length = 0 then pos else rfindLoop h s pos) := by
  have hs : sizeMod = npos + 1 := by decide
  unfold rfindM
  split
  · rfl
  · simp only [sizeSub_eq (by omega : s.length ≤ h.length) (by omega)]
    generalize hq : (if pos > h.length - s.length then h.length - s.length else pos) = q
    split
    · rfl
    · exact rfindLoopM_eq h s q (by split at hq <;> omega)

theorem rfind_eq (h s : Str) (pos : Nat) (hmax : h.length < npos) :
    rfind h s pos = if h.length < s.length then npos
      else
        let pos := if pos > h.length - s.length then h.length - s.length else pos
        if s.length = 0 then pos else rfindLoop h s pos := by
  unfold rfind; rw [rfindM_eq h s pos hmax]; rfl

theorem rfindLoop_last (h s : Str) (hmax : h.length < npos)
    (cur : Nat) (hcur : cur ≤ h.length) :
    IsLast (fun i => i ≤ cur ∧ OccursAt h s i) (rfindLoop h s cur) := by
  induction cur with
  | zero =>
    unfold rfindLoop
    by_cases hc : traitsCompare h s s.length = some 0
    · rw [if_pos hc]
      rw [traitsCompare_zero_iff] at hc
      right
      refine ⟨by decide, ⟨Nat.le_refl _, (occursAt_iff ..).2 ⟨by omega, by simpa using hc⟩⟩,
        fun i hi => hi.1⟩
    · rw [if_neg hc]
      rw [traitsCompare_zero_iff] at hc
      left
      refine ⟨rfl, fun i ⟨h1, h2⟩ => hc ?_⟩
      have : i = 0 := by omega
      subst this
      simpa using ((occursAt_iff ..).1 h2).2
  | succ cur ih =>
    unfold rfindLoop
    by_cases hc : traitsCompare (h.drop (cur + 1)) s s.length = some 0
    · rw [if_pos hc]
      rw [traitsCompare_zero_iff] at hc
      right
      exact ⟨by omega, ⟨Nat.le_refl _, (occursAt_iff ..).2 ⟨by omega, hc⟩⟩, fun i hi => hi.1⟩
    · rw [if_neg hc]
      rw [traitsCompare_zero_iff] at hc
      have hno : ¬ OccursAt h s (cur + 1) := fun o => hc ((occursAt_iff ..).1 o).2
      rcases ih (by omega) with ⟨h1, h2⟩ | ⟨h1, h2, h3⟩
      · left
        refine ⟨h1, fun i ⟨hi1, hi2⟩ => ?_⟩
        rcases Nat.lt_or_ge cur i with h | h
        · have : i = cur + 1 := by omega
          subst this; exact hno hi2
        · exact h2 i ⟨h, hi2⟩
      · right
        refine ⟨h1, ⟨by omega, h2.2⟩, fun i ⟨hi1, hi2⟩ => ?_⟩
        rcases Nat.lt_or_ge cur i with h | h
        · have : i = cur + 1 := by omega
          subst this; exact absurd hi2 hno
        · exact h3 i ⟨h, hi2⟩

theorem rfind_last (h s : Str) (pos : Nat) (hmax : h.length < npos) :
    IsLast (fun i => i ≤ pos ∧ OccursAt h s i) (rfind h s pos) := by
  rw [rfind_eq h s pos hmax]
  split
  · left
    refine ⟨rfl, fun i ⟨h1, h2⟩ => ?_⟩
    have := occ_le h2; omega
  · rename_i hl
    have key : ∀ q, q = (if pos > h.length - s.length then h.length - s.length else pos) →
        IsLast (fun i => i ≤ q ∧ OccursAt h s i) (if s.length = 0 then q else rfindLoop h s q) := by
      intro q hq
      have hql : q ≤ h.length := by subst hq; split <;> omega
      split
      · rename_i h0
        have hs : s = [] := List.length_eq_zero_iff.mp h0
        subst hs
        right
        exact ⟨by omega, ⟨Nat.le_refl _, (occursAt_iff ..).2 ⟨hql, by simp⟩⟩, fun i hi => hi.1⟩
      · exact rfindLoop_last h s hmax q hql
    have h1 := key _ rfl
    simp only
    generalize hq : (if pos > h.length - s.length then h.length - s.length else pos) = q at h1 ⊢
    have heq : ∀ i, (i ≤ q ∧ OccursAt h s i) ↔ (i ≤ pos ∧ OccursAt h s i) := by
      intro i
      constructor
      · rintro ⟨a, b⟩
        refine ⟨?_, b⟩
        split at hq <;> omega
      · rintro ⟨a, b⟩
        refine ⟨?_, b⟩
        have := occ_le b
        split at hq <;> omega
    simpa only [heq] using h1

/-! ### character set searches -/

/-- Common form of the two forward scans. -/
def scan (p : UInt8 → Bool) : Str → Nat
  | [] => 0
  | c :: h => if p c then 0 else scan p h + 1

theorem stdFindFirstOf_eq (h s : Str) : stdFindFirstOf h s = scan (fun c => s.contains c) h := by
  induction h with
  | nil => rfl
  | cons c h ih => simp [stdFindFirstOf, scan, ih]

theorem findNotOf_eq (h s : Str) : findNotOf h s = scan (fun c => !s.contains c) h := by
  induction h with
  | nil => rfl
  | cons c h ih => simp [findNotOf, scan, ih, traitsFind_eq]

theorem scan_le (p) (h : Str) : scan p h ≤ h.length := by
  induction h with
  | nil => simp [scan]
  | cons c h ih => simp only [scan]; split <;> simp <;> omega

theorem scan_lt_not (p) (h : Str) (i : Nat) (c : UInt8) (hi : i < scan p h)
    (hc : h[i]? = some c) : p c = false := by
  induction h generalizing i with
  | nil => simp at hc
  | cons d h ih =>
    simp only [scan] at hi
    split at hi
    · omega
    · rename_i hd
      cases i with
      | zero => simp at hc; subst hc; simpa using hd
      | succ i => exact ih i (by omega) (by simpa using hc)

theorem scan_at (p) (h : Str) (hlt : scan p h < h.length) :
    ∃ c, h[scan p h]? = some c ∧ p c = true := by
  induction h with
  | nil => simp at hlt
  | cons d h ih =>
    simp only [scan] at hlt ⊢
    split
    · rename_i hd; exact ⟨d, by simp, hd⟩
    · rename_i hd
      rw [if_neg hd] at hlt
      simpa using ih (by simpa using hlt)

theorem scan_first (p : UInt8 → Bool) (h : Str) (pos : Nat) (hp : pos < h.length)
    (hmax : h.length < npos) :
    IsFirst (fun i => pos ≤ i ∧ CharAt h (fun c => p c = true) i)
      (if pos + scan p (h.drop pos) = h.length then npos else pos + scan p (h.drop pos)) := by
  have hle := scan_le p (h.drop pos)
  rw [List.length_drop] at hle
  split
  · rename_i he
    left
    refine ⟨rfl, ?_⟩
    rintro i ⟨h1, c, hc, hpc⟩
    have hil : i < h.length := by
      rw [List.getElem?_eq_some_iff] at hc; exact hc.1
    have := scan_lt_not p (h.drop pos) (i - pos) c (by omega)
      (by rw [List.getElem?_drop, Nat.add_sub_cancel' h1]; exact hc)
    simp [this] at hpc
  · rename_i he
    right
    have hlt : scan p (h.drop pos) < (h.drop pos).length := by rw [List.length_drop]; omega
    obtain ⟨c, hc, hpc⟩ := scan_at p _ hlt
    rw [List.getElem?_drop] at hc
    refine ⟨by omega, ⟨by omega, c, hc, hpc⟩, ?_⟩
    rintro i ⟨h1, d, hd, hpd⟩
    rcases Nat.lt_or_ge i (pos + scan p (h.drop pos)) with h2 | h2
    · have := scan_lt_not p (h.drop pos) (i - pos) d (by omega)
        (by rw [List.getElem?_drop, Nat.add_sub_cancel' h1]; exact hd)
      simp [this] at hpd
    · exact h2

theorem scan_last (p : UInt8 → Bool) (h : Str) (rpos : Nat) (hp : rpos ≤ h.length)
    (hmax : h.length < npos) :
    IsLast (fun i => i < h.length - rpos ∧ CharAt h (fun c => p c = true) i)
      (if rpos + scan p (h.reverse.drop rpos) = h.length then npos
       else h.length - 1 - (rpos + scan p (h.reverse.drop rpos))) := by
  have hle := scan_le p (h.reverse.drop rpos)
  rw [List.length_drop, List.length_reverse] at hle
  have key : ∀ i c, i < h.length - rpos → h[i]? = some c → p c = true →
      i + (rpos + scan p (h.reverse.drop rpos)) ≤ h.length - 1 := by
    intro i c h1 hc hpc
    rcases Nat.lt_or_ge (h.length - 1) (i + (rpos + scan p (h.reverse.drop rpos))) with h2 | h2
    · exfalso
      have := scan_lt_not p (h.reverse.drop rpos) (h.length - 1 - i - rpos) c (by omega)
        (by
          rw [List.getElem?_drop, List.getElem?_reverse (by omega)]
          rw [show h.length - 1 - (rpos + (h.length - 1 - i - rpos)) = i by omega]
          exact hc)
      simp [this] at hpc
    · exact h2
  split
  · rename_i he
    left
    refine ⟨rfl, ?_⟩
    rintro i ⟨h1, c, hc, hpc⟩
    have := key i c h1 hc hpc
    omega
  · rename_i he
    right
    have hlt : scan p (h.reverse.drop rpos) < (h.reverse.drop rpos).length := by
      rw [List.length_drop, List.length_reverse]; omega
    obtain ⟨c, hc, hpc⟩ := scan_at p _ hlt
    rw [List.getElem?_drop, List.getElem?_reverse (by omega)] at hc
    refine ⟨by omega, ⟨by omega, c, hc, hpc⟩, ?_⟩
    rintro i ⟨h1, d, hd, hpd⟩
    have := key i d h1 hd hpd
    omega

theorem findFirstOfM_eq (h s : Str) (pos : Nat) :
    findFirstOfM h s pos = some (if pos ≥ h.length ∨ s.length = 0 then npos
      else if pos + stdFindFirstOf (h.drop pos) s = h.length then npos
      else pos + stdFindFirstOf (h.drop pos) s) := by
  unfold findFirstOfM rangeFrom
  split
  · rfl
  · rw [if_pos (by omega)]; rfl

theorem findFirstNotOfM_eq (h s : Str) (pos : Nat) :
    findFirstNotOfM h s pos = some (if pos ≥ h.length then npos
      else if s.length = 0 then pos
      else if pos + findNotOf (h.drop pos) s = h.length then npos
      else pos + findNotOf (h.drop pos) s) := by
  unfold findFirstNotOfM rangeFrom
  split
  · rfl
  · split
    · rfl
    · rw [if_pos (by omega)]; rfl

theorem stdFindFirstOf_le (h s : Str) : stdFindFirstOf h s ≤ h.length := by
  induction h with
  | nil => exact Nat.le_refl _
  | cons c h ih => unfold stdFindFirstOf; split <;> simp <;> omega

theorem findNotOf_le (h s : Str) : findNotOf h s ≤ h.length := by
  induction h with
  | nil => exact Nat.le_refl _
  | cons c h ih => unfold findNotOf; split <;> simp <;> omega

theorem index_back {h : Str} {d r : Nat} (hmax : h.length < npos) (hr : r ≤ h.length)
    (hd : d ≤ (h.reverse.drop r).length) :
    (if r + d = h.length then npos else sizeSub (sizeSub h.length 1) (r + d)) =
      if r + d = h.length then npos else h.length - 1 - (r + d) := by
  have hs : sizeMod = npos + 1 := by decide
  rw [List.length_drop, List.length_reverse] at hd
  split
  · rfl
  · have e : sizeSub h.length 1 = h.length - 1 := sizeSub_eq (by omega) (by omega)
    rw [e, sizeSub_eq (by omega) (by omega)]

theorem findLastOfM_eq (h s : Str) (pos : Nat) (hmax : h.length < npos) :
    findLastOfM h s pos = some (if s.length = 0 then npos
      else
        let rpos := if pos ≥ h.length then 0 else h.length - (pos + 1)
        if rpos + stdFindFirstOf (h.reverse.drop rpos) s = h.length then npos
        else h.length - 1 - (rpos + stdFindFirstOf (h.reverse.drop rpos) s)) := by
  have hs : sizeMod = npos + 1 := by decide
  unfold findLastOfM rangeFrom
  split
  · rfl
  · have e : (if pos ≥ h.length then 0 else sizeSub h.length (pos + 1)) =
        if pos ≥ h.length then 0 else h.length - (pos + 1) := by
      split
      · rfl
      · exact sizeSub_eq (by omega) (by omega)
    simp only [e]
    generalize hr : (if pos ≥ h.length then 0 else h.length - (pos + 1)) = r
    have hrl : r ≤ h.length := by split at hr <;> omega
    rw [if_pos (by rw [List.length_reverse]; exact hrl)]
    simp only [Option.map_some, index_back hmax hrl (stdFindFirstOf_le _ _)]

theorem findLastNotOfM_eq (h s : Str) (pos : Nat) (hmax : h.length < npos) :
    findLastNotOfM h s pos = some (
      let pos := if pos ≥ h.length then (h.length + sizeMod - 1) % sizeMod else pos
      if s.length = 0 then pos
      else
        let rpos := h.length - (pos + 1) % sizeMod
        if rpos + findNotOf (h.reverse.drop rpos) s = h.length then npos
        else h.length - 1 - (rpos + findNotOf (h.reverse.drop rpos) s)) := by
  have hs : sizeMod = npos + 1 := by decide
  unfold findLastNotOfM rangeFrom
  have e : sizeSub h.length 1 = (h.length + sizeMod - 1) % sizeMod := rfl
  simp only [e]
  generalize hq : (if pos ≥ h.length then (h.length + sizeMod - 1) % sizeMod else pos) = q
  split
  · rfl
  · have hq1 : (q + 1) % sizeMod ≤ h.length := by
      split at hq
      · subst hq
        by_cases h0 : h.length = 0
        · rw [h0]; decide
        · rw [show h.length + sizeMod - 1 = (h.length - 1) + sizeMod by omega,
            Nat.add_mod_right, Nat.mod_eq_of_lt (by omega : h.length - 1 < sizeMod),
            Nat.mod_eq_of_lt (by omega)]
          omega
      · rw [Nat.mod_eq_of_lt (by omega)]; omega
    have e2 : sizeSub h.length (q + 1) = h.length - (q + 1) % sizeMod := by
      rw [← sizeSub_eq hq1 (by omega)]
      unfold sizeSub
      rw [Nat.mod_mod]
    rw [e2]
    generalize hr : h.length - (q + 1) % sizeMod = r
    have hrl : r ≤ h.length := by omega
    rw [if_pos (by rw [List.length_reverse]; exact hrl)]
    have := index_back (d := findNotOf (h.reverse.drop r) s) hmax hrl (findNotOf_le _ _)
    rw [e] at this
    simp only [Option.map_some, this]

theorem findFirstOf_first (h s : Str) (pos : Nat) (hmax : h.length < npos) :
    IsFirst (fun i => pos ≤ i ∧ CharAt h (fun c => c ∈ s) i) (findFirstOf h s pos) := by
  rw [findFirstOf, findFirstOfM_eq h s pos, Option.getD_some]
  split
  · rename_i hc
    left
    refine ⟨rfl, ?_⟩
    rintro i ⟨h1, c, hc1, hc2⟩
    rw [List.getElem?_eq_some_iff] at hc1
    obtain ⟨hl, -⟩ := hc1
    rcases hc with hc | hc
    · omega
    · have : s = [] := List.length_eq_zero_iff.mp hc
      subst this; simp at hc2
  · rename_i hc
    have := scan_first (fun c => s.contains c) h pos (by omega) hmax
    simp only [stdFindFirstOf_eq]
    simpa only [List.contains_iff_mem] using this

theorem findLastOf_last (h s : Str) (pos : Nat) (hmax : h.length < npos) :
    IsLast (fun i => i ≤ pos ∧ CharAt h (fun c => c ∈ s) i) (findLastOf h s pos) := by
  rw [findLastOf, findLastOfM_eq h s pos hmax, Option.getD_some]
  split
  · rename_i hc
    left
    refine ⟨rfl, ?_⟩
    rintro i ⟨h1, c, hc1, hc2⟩
    have : s = [] := List.length_eq_zero_iff.mp hc
    subst this; simp at hc2
  · simp only [stdFindFirstOf_eq]
    generalize hr : (if pos ≥ h.length then 0 else h.length - (pos + 1)) = r
    have := scan_last (fun c => s.contains c) h r (by split at hr <;> omega) hmax
    have heq : ∀ i, (i < h.length - r ∧ CharAt h (fun c => s.contains c = true) i) ↔
        (i ≤ pos ∧ CharAt h (fun c => c ∈ s) i) := by
      intro i
      simp only [List.contains_iff_mem]
      constructor
      · rintro ⟨a, b⟩
        refine ⟨?_, b⟩
        split at hr <;> omega
      · rintro ⟨a, b⟩
        refine ⟨?_, b⟩
        obtain ⟨c, hc, -⟩ := b
        rw [List.getElem?_eq_some_iff] at hc
        obtain ⟨hl, -⟩ := hc
        split at hr <;> omega
    simpa only [heq] using this

theorem findFirstNotOf_first (h s : Str) (pos : Nat) (hmax : h.length < npos) :
    IsFirst (fun i => pos ≤ i ∧ CharAt h (fun c => c ∉ s) i) (findFirstNotOf h s pos) := by
  rw [findFirstNotOf, findFirstNotOfM_eq h s pos, Option.getD_some]
  split
  · rename_i hc
    left
    refine ⟨rfl, ?_⟩
    rintro i ⟨h1, c, hc1, hc2⟩
    rw [List.getElem?_eq_some_iff] at hc1
    obtain ⟨hl, -⟩ := hc1
    omega
  · rename_i hp
    split
    · rename_i hc
      have : s = [] := List.length_eq_zero_iff.mp hc
      subst this
      right
      refine ⟨by omega, ⟨Nat.le_refl _, h[pos]'(by omega), by simp, by simp⟩, fun i hi => hi.1⟩
    · have := scan_first (fun c => !s.contains c) h pos (by omega) hmax
      simp only [findNotOf_eq]
      simpa using this

theorem findLastNotOf_last (h s : Str) (pos : Nat)
    (hmax : h.length < npos) :
    IsLast (fun i => i ≤ pos ∧ CharAt h (fun c => c ∉ s) i) (findLastNotOf h s pos) := by
  have hs : sizeMod = npos + 1 := by decide
  rw [findLastNotOf, findLastNotOfM_eq h s pos hmax, Option.getD_some]
  by_cases hh : h = []
  · subst hh
    have hq : (if pos ≥ ([] : Str).length then (([] : Str).length + sizeMod - 1) % sizeMod
        else pos) = npos := by simp; rfl
    simp only [hq]
    left
    constructor
    · split
      · rfl
      · have : (npos + 1) % sizeMod = 0 := by decide
        simp [this, findNotOf]
    · rintro i ⟨h1, c, hc1, hc2⟩
      simp at hc1
  · have hl0 : 0 < h.length := List.length_pos_iff.mpr hh
    generalize hq : (if pos ≥ h.length then (h.length + sizeMod - 1) % sizeMod else pos) = q
    have hq1 : q < h.length := by
      split at hq
      · subst hq
        rw [show h.length + sizeMod - 1 = (h.length - 1) + sizeMod by omega,
          Nat.add_mod_right, Nat.mod_eq_of_lt (by omega)]
        omega
      · omega
    have hq2 : ∀ i, i < h.length → (i ≤ q ↔ i ≤ pos) := by
      intro i hi
      split at hq
      · rw [show h.length + sizeMod - 1 = (h.length - 1) + sizeMod by omega,
          Nat.add_mod_right, Nat.mod_eq_of_lt (by omega)] at hq
        omega
      · omega
    simp only
    split
    · rename_i hc
      have : s = [] := List.length_eq_zero_iff.mp hc
      subst this
      right
      refine ⟨by omega, ⟨(hq2 q hq1).1 (Nat.le_refl _), h[q]'hq1, by simp, by simp⟩, ?_⟩
      rintro i ⟨h1, c, hc1, hc2⟩
      rw [List.getElem?_eq_some_iff] at hc1
      exact (hq2 i hc1.1).2 h1
    · rw [Nat.mod_eq_of_lt (by omega : q + 1 < sizeMod)]
      have := scan_last (fun c => !s.contains c) h (h.length - (q + 1)) (by omega) hmax
      simp only [findNotOf_eq]
      have heq : ∀ i, (i < h.length - (h.length - (q + 1)) ∧
          CharAt h (fun c => (!s.contains c) = true) i) ↔
          (i ≤ pos ∧ CharAt h (fun c => c ∉ s) i) := by
        intro i
        simp only [Bool.not_eq_true', List.contains_eq_mem, decide_eq_false_iff_not]
        constructor
        · rintro ⟨a, b⟩
          exact ⟨(hq2 i (by omega)).1 (by omega), b⟩
        · rintro ⟨a, b⟩
          refine ⟨?_, b⟩
          obtain ⟨c, hc, -⟩ := b
          rw [List.getElem?_eq_some_iff] at hc
          obtain ⟨hl, -⟩ := hc
          have := (hq2 i hl).2 a
          omega
      simpa only [heq] using this

end Gul14.SV
