import Verif.Date.Keyword

/-!
# C130: names without std::locale
-/
namespace Gul14.Date.Keyword
open Gul14.Spec.Calendar Gul14.Spec.DateText Gul14.Spec.DateFormat Gul14.Spec.DateParse

/-! ## Specification of scan_keyword -/
namespace Spec

/-- Upper and lower case do not matter. -/
def fold (s : List Char) : List Char := s.map Char.toUpper

/-- `p` is the beginning of a keyword, or is empty. -/
def Begins (kws : List (List Char)) (p : List Char) : Prop := p = [] ∨ ∃ k ∈ kws, fold p <+: fold k

/-- `p` is the longest beginning of the text `p ++ rest` that is the beginning of a keyword. -/
def Longest (kws : List (List Char)) (p rest : List Char) : Prop :=
  Begins kws p ∧ ∀ c r, rest = c :: r → ¬ Begins kws (p ++ [c])

/-- The keyword at `i` is the text `p`, and no earlier one is. -/
def FirstEqual (kws : List (List Char)) (p : List Char) (i : Nat) : Prop :=
  (∃ k, kws[i]? = some k ∧ fold k = fold p) ∧ ∀ j k, j < i → kws[j]? = some k → fold k ≠ fold p

end Spec
open Gul14.Date.Keyword.Spec

/-! ## Lemmas -/

/-- The status of a keyword after the text `p` was read. -/
def status (p k : List Char) : Status :=
  if fold p <+: fold k then (if k.length = p.length then .does else .might) else .no

def countMight (t : List (List Char × Status)) : Nat := t.countP (·.2 = .might)
def countDoes (t : List (List Char × Status)) : Nat := t.countP (·.2 = .does)

theorem start_eq (kws : List (List Char)) : ∀ nm nd, kws.length ≤ nm →
    start kws nm nd = (kws.map fun k => (k, status [] k),
      nm - kws.countP (· = []), nd + kws.countP (· = [])) := by
  induction kws with
  | nil => intro nm nd _; simp [start]
  | cons k r ih =>
      intro nm nd h
      simp only [List.length_cons] at h
      by_cases hk : k = []
      · subst hk
        simp only [start, ne_eq, not_true_eq_false, if_false, ih (nm - 1) (nd + 1) (by omega)]
        have hs : status [] [] = .does := by simp [status, fold]
        have hc : (([] : List Char) :: r).countP (· = []) = r.countP (· = []) + 1 := by simp
        rw [hc, List.map_cons, hs]
        have := List.countP_le_length (p := fun k : List Char => decide (k = [])) (l := r)
        refine Prod.ext rfl (Prod.ext ?_ ?_) <;> simp <;> omega
      · simp only [start, ne_eq, hk, not_false_eq_true, if_true, ih nm nd (by omega)]
        have hs : status [] k = .might := by simp [status, fold, hk]
        have hc : (k :: r).countP (· = []) = r.countP (· = []) := by simp [hk]
        rw [hc, List.map_cons, hs]

theorem prefix_snoc {p k : List Char} {c : Char} :
    fold (p ++ [c]) <+: fold k ↔ fold p <+: fold k ∧ ∃ x, k[p.length]? = some x ∧ c.toUpper = x.toUpper := by
  have hl : (fold p).length = p.length := by simp [fold]
  constructor
  · rintro ⟨t, ht⟩
    have ht' : fold k = fold p ++ (c.toUpper :: t) := by rw [← ht]; simp [fold]
    refine ⟨⟨_, ht'.symm⟩, ?_⟩
    have : (fold k)[p.length]? = some c.toUpper := by
      rw [ht', List.getElem?_append_right (by omega)]; simp [hl]
    simp only [fold, List.getElem?_map, Option.map_eq_some_iff] at this
    obtain ⟨x, h1, h2⟩ := this
    exact ⟨x, h1, h2.symm⟩
  · rintro ⟨⟨t, ht⟩, x, hx, hc⟩
    have : (fold k)[p.length]? = some c.toUpper := by simp [fold, hx, hc]
    rw [← ht, List.getElem?_append_right (by omega), hl, Nat.sub_self] at this
    cases t with
    | nil => simp at this
    | cons y t =>
        simp at this
        subst this
        exact ⟨t, by rw [← ht]; simp [fold]⟩

theorem prefix_length {p k : List Char} (h : fold p <+: fold k) : p.length ≤ k.length := by
  have := h.length_le
  simpa [fold] using this

/-- What `test` makes of the status of a keyword. -/
def after (p : List Char) (c : Char) (k : List Char) : Status :=
  if status p k = .does then .does else status (p ++ [c]) k

theorem test_eq (p : List Char) (c : Char) : ∀ (kws : List (List Char)) (consume : Bool) (nm nd : Nat),
    countMight (kws.map fun k => (k, status p k)) ≤ nm →
    ∃ nm' nd', test c.toUpper p.length (kws.map fun k => (k, status p k)) consume nm nd =
      .ok (kws.map fun k => (k, after p c k), consume || kws.any (fun k => decide (fold (p ++ [c]) <+: fold k)), nm', nd') ∧
      nm' + countMight (kws.map fun k => (k, status p k)) = nm + countMight (kws.map fun k => (k, after p c k)) ∧
      nd' + countDoes (kws.map fun k => (k, status p k)) = nd + countDoes (kws.map fun k => (k, after p c k)) := by
  intro kws
  induction kws with
  | nil => intro consume nm nd _; exact ⟨nm, nd, by simp [test], rfl, rfl⟩
  | cons k r ih =>
      intro consume nm nd hnm
      by_cases hp : fold p <+: fold k
      · by_cases hl : k.length = p.length
        · -- does
          have hs : status p k = .does := by simp [status, hp, hl]
          have ha : after p c k = .does := by simp [after, hs]
          have hc : ¬ fold (p ++ [c]) <+: fold k := fun h => by
            have := prefix_length h; simp at this; omega
          have hm : countMight (r.map fun k => (k, status p k)) ≤ nm := by
            simpa [countMight, hs] using hnm
          obtain ⟨nm', nd', h1, h2, h3⟩ := ih consume nm nd hm
          refine ⟨nm', nd', ?_, ?_, ?_⟩
          · simp [test, hs, h1, Res.map, ha, hc]
          · simpa [countMight, hs, ha] using h2
          · simp only [countDoes, List.map_cons, hs, ha] at h3 ⊢
            simp only [List.countP_cons]
            simp only [decide_true, if_true]
            omega
        · -- might
          have hlt : p.length < k.length := by have := prefix_length hp; omega
          have hs : status p k = .might := by simp [status, hp, hl]
          have ha : after p c k = status (p ++ [c]) k := by simp [after, hs]
          have hm : countMight (r.map fun k => (k, status p k)) + 1 ≤ nm := by
            simp only [countMight, List.map_cons, hs, List.countP_cons, decide_true, if_true] at hnm
            exact hnm
          have hg : k[p.length]? = some k[p.length] := List.getElem?_eq_getElem hlt
          by_cases hx : c.toUpper = k[p.length].toUpper
          · have hc : fold (p ++ [c]) <+: fold k := prefix_snoc.mpr ⟨hp, _, hg, hx⟩
            by_cases hl' : k.length = p.length + 1
            · have hs' : status (p ++ [c]) k = .does := by simp [status, hc, hl']
              obtain ⟨nm', nd', h1, h2, h3⟩ := ih true (nm - 1) (nd + 1) (by omega)
              refine ⟨nm', nd', ?_, ?_, ?_⟩
              · simp only [List.map_cons, hs, test, hg, if_pos hx, if_pos hl', h1, Res.map, ha, hs']
                simp [hc]
              · simp only [countMight, List.map_cons, hs, ha, hs', List.countP_cons] at h2 ⊢
                simp at h2 ⊢
                simp only [countMight] at hm
                omega
              · simp only [countDoes, List.map_cons, hs, ha, hs', List.countP_cons] at h3 ⊢
                simp at h3 ⊢
                omega
            · have hs' : status (p ++ [c]) k = .might := by simp [status, hc, hl']
              obtain ⟨nm', nd', h1, h2, h3⟩ := ih true nm nd (by omega)
              refine ⟨nm', nd', ?_, ?_, ?_⟩
              · simp only [List.map_cons, hs, test, hg, if_pos hx, if_neg hl', h1, Res.map, ha, hs']
                simp [hc]
              · simp only [countMight, List.map_cons, hs, ha, hs', List.countP_cons] at h2 ⊢
                simp at h2 ⊢
                omega
              · simp only [countDoes, List.map_cons, hs, ha, hs', List.countP_cons] at h3 ⊢
                simp at h3 ⊢
                omega
          · have hc : ¬ fold (p ++ [c]) <+: fold k := fun h => by
              obtain ⟨-, x, h1, h2⟩ := prefix_snoc.mp h
              rw [hg] at h1
              cases h1
              exact hx h2
            have hs' : status (p ++ [c]) k = .no := by simp [status, hc]
            obtain ⟨nm', nd', h1, h2, h3⟩ := ih consume (nm - 1) nd (by omega)
            refine ⟨nm', nd', ?_, ?_, ?_⟩
            · simp only [List.map_cons, hs, test, hg, if_neg hx, h1, Res.map, ha, hs']
              simp [hc]
            · simp only [countMight, List.map_cons, hs, ha, hs', List.countP_cons] at h2 ⊢
              simp at h2 ⊢
              simp only [countMight] at hm
              omega
            · simp only [countDoes, List.map_cons, hs, ha, hs', List.countP_cons] at h3 ⊢
              simp at h3 ⊢
              omega
      · -- no
        have hs : status p k = .no := by simp [status, hp]
        have hc : ¬ fold (p ++ [c]) <+: fold k := fun h => hp (prefix_snoc.mp h).1
        have ha : after p c k = .no := by
          rw [after, hs, if_neg (by simp)]; simp [status, hc]
        have hm : countMight (r.map fun k => (k, status p k)) ≤ nm := by simpa [countMight, hs] using hnm
        obtain ⟨nm', nd', h1, h2, h3⟩ := ih consume nm nd hm
        refine ⟨nm', nd', ?_, ?_, ?_⟩
        · simp [test, hs, h1, Res.map, ha, hc]
        · simpa [countMight, hs, ha] using h2
        · simpa [countDoes, hs, ha] using h3

theorem unmark_eq (p : List Char) (c : Char) : ∀ (kws : List (List Char)) (nd : Nat),
    countDoes (kws.map fun k => (k, after p c k)) ≤ nd →
    ∃ nd', unmark p.length (kws.map fun k => (k, after p c k)) nd = (kws.map fun k => (k, status (p ++ [c]) k), nd') ∧
      nd' + countDoes (kws.map fun k => (k, after p c k)) = nd + countDoes (kws.map fun k => (k, status (p ++ [c]) k)) := by
  intro kws
  induction kws with
  | nil => intro nd _; exact ⟨nd, rfl, rfl⟩
  | cons k r ih =>
      intro nd hnd
      by_cases hs : status p k = .does
      · have ha : after p c k = .does := by simp [after, hs]
        have hl : k.length = p.length := by
          unfold status at hs; split at hs
          · split at hs
            · assumption
            · cases hs
          · cases hs
        have hn : status (p ++ [c]) k = .no := by
          have : ¬ fold (p ++ [c]) <+: fold k := fun h => by
            have := prefix_length h; simp at this; omega
          simp [status, this]
        simp only [countDoes, List.map_cons, ha, List.countP_cons, decide_true, if_true] at hnd
        obtain ⟨nd', h1, h2⟩ := ih (nd - 1) (by simp only [countDoes]; omega)
        refine ⟨nd', ?_, ?_⟩
        · have : Status.does = Status.does ∧ k.length ≠ p.length + 1 := ⟨rfl, by omega⟩
          simp only [List.map_cons, hn]
          rw [unmark, ha, if_pos this, h1]
        · simp only [countDoes, List.map_cons, ha, hn, List.countP_cons] at h2 ⊢
          simp at h2 ⊢
          omega
      · have ha : after p c k = status (p ++ [c]) k := by simp [after, hs]
        have hcond : ¬ (status (p ++ [c]) k = .does ∧ k.length ≠ p.length + 1) := by
          rintro ⟨h1, h2⟩
          unfold status at h1
          split at h1
          · split at h1
            · rename_i h; simp at h; exact h2 h
            · cases h1
          · cases h1
        have hm : countDoes (r.map fun k => (k, after p c k)) ≤ nd := by
          simp only [countDoes, List.map_cons, List.countP_cons] at hnd
          simp only [countDoes]
          omega
        obtain ⟨nd', h1, h2⟩ := ih nd hm
        refine ⟨nd', ?_, ?_⟩
        · simp only [List.map_cons, unmark, ha, if_neg hcond, h1]
        · simp only [countDoes, List.map_cons, ha, List.countP_cons] at h2 ⊢
          omega

theorem status_does {p k : List Char} : status p k = .does ↔ fold k = fold p := by
  unfold status
  constructor
  · intro h
    split at h
    · rename_i hp
      split at h
      · rename_i hl
        exact (hp.eq_of_length (by simp [fold, hl])).symm
      · cases h
    · cases h
  · intro h
    have hl : k.length = p.length := by
      have := congrArg List.length h
      simpa [fold] using this
    rw [h, if_pos (List.prefix_refl _), if_pos hl]

theorem status_might {p k : List Char} : status p k = .might ↔ fold p <+: fold k ∧ fold k ≠ fold p := by
  by_cases hp : fold p <+: fold k
  · have := @status_does p k
    by_cases h : fold k = fold p
    · rw [this.mpr h]; simp [h]
    · have h' : status p k ≠ .does := fun e => h (this.mp e)
      unfold status at h' ⊢
      rw [if_pos hp] at h' ⊢
      split at h'
      · exact absurd rfl h'
      · rename_i hl; simp [hl, hp, h]
  · simp [status, hp]

theorem two_le_countP {α : Type} {P : α → Bool} {l : List α} {a b : α} (ha : a ∈ l) (hb : b ∈ l) (hab : a ≠ b)
    (pa : P a = true) (pb : P b = true) : 2 ≤ l.countP P := by
  rw [List.countP_eq_length_filter]
  have h1 : a ∈ l.filter P := List.mem_filter.mpr ⟨ha, pa⟩
  have h2 : b ∈ l.filter P := List.mem_filter.mpr ⟨hb, pb⟩
  match h : l.filter P with
  | [] => rw [h] at h1; cases h1
  | [x] => rw [h] at h1 h2; simp at h1 h2; exact absurd (h1.trans h2.symm) hab
  | _ :: _ :: _ => simp

theorem count_sum (t : List (List Char × Status)) : countMight t + countDoes t = t.countP (·.2 ≠ .no) := by
  induction t with
  | nil => rfl
  | cons x r ih =>
      obtain ⟨k, s⟩ := x
      simp only [countMight, countDoes, List.countP_cons] at ih ⊢
      cases s <;> simp at ih ⊢ <;> omega

theorem countMight_after (p : List Char) (c : Char) (kws : List (List Char)) :
    countMight (kws.map fun k => (k, after p c k)) = countMight (kws.map fun k => (k, status (p ++ [c]) k)) := by
  unfold countMight
  rw [List.countP_map, List.countP_map]
  apply List.countP_congr
  intro k _
  simp only [Function.comp, decide_eq_true_eq]
  unfold after
  split
  · rename_i h
    have hl : fold k = fold p := status_does.mp h
    have : status (p ++ [c]) k ≠ .might := fun e => by
      have := (status_might.mp e).1.length_le
      rw [hl] at this
      simp [fold] at this
    simp [this]
  · exact Iff.rfl

theorem not_begins {kws : List (List Char)} {p : List Char} {c : Char}
    (h : ∀ k ∈ kws, ¬ fold (p ++ [c]) <+: fold k) : ¬ Begins kws (p ++ [c]) := by
  rintro (h' | ⟨k, hk, h'⟩)
  · simp at h'
  · exact h k hk h'

/-- What the loop leaves. -/
structure Left (kws : List (List Char)) (q r : List Char) (e : Bool) (t : List (List Char × Status)) : Prop where
  longest : Longest kws q r
  eof : e = true ↔ r = [] ∧ ∃ k ∈ kws, fold q <+: fold k ∧ fold k ≠ fold q
  table : ∃ f : List Char → Status, t = kws.map (fun k => (k, f k)) ∧ ∀ k ∈ kws, (f k = .does ↔ fold k = fold q)

theorem loop_eq (kws : List (List Char)) : ∀ (rest p : List Char) (fuel : Nat), rest.length + 2 ≤ fuel → Begins kws p →
    ∃ q r e t, p ++ rest = q ++ r ∧
      loop fuel p.length ⟨rest, false, false⟩ (kws.map fun k => (k, status p k))
        (countMight (kws.map fun k => (k, status p k))) (countDoes (kws.map fun k => (k, status p k))) =
        .ok (⟨r, e, false⟩, t) ∧ Left kws q r e t := by
  intro rest
  induction rest with
  | nil =>
      intro p fuel hf hb
      obtain ⟨fuel, rfl⟩ : ∃ f, fuel = f + 1 := ⟨fuel - 1, by omega⟩
      have hlong : Longest kws p [] := ⟨hb, fun c r h => by cases h⟩
      by_cases h0 : countMight (kws.map fun k => (k, status p k)) > 0
      · refine ⟨p, [], true, kws.map fun k => (k, status p k), rfl, ?_, hlong, ?_, _, rfl, fun k _ => status_does⟩
        · simp [loop, h0, IStream.peek, IStream.good]
        · simp only [true_iff, true_and]
          obtain ⟨x, hx, hx'⟩ := List.countP_pos_iff.mp h0
          obtain ⟨k, hk, rfl⟩ := List.mem_map.mp hx
          exact ⟨k, hk, status_might.mp (by simpa using hx')⟩
      · refine ⟨p, [], false, kws.map fun k => (k, status p k), rfl, ?_, hlong, ?_, _, rfl, fun k _ => status_does⟩
        · simp only [loop, Bool.not_false, Bool.true_and, decide_eq_true_eq, if_neg h0]
        · simp only [Bool.false_eq_true, true_and, false_iff, not_exists, not_and]
          intro k hk h1 h2
          apply h0
          exact List.countP_pos_iff.mpr ⟨(k, status p k), List.mem_map.mpr ⟨k, hk, rfl⟩, by simp [status_might.mpr ⟨h1, h2⟩]⟩
  | cons c rest ih =>
      intro p fuel hf hb
      simp only [List.length_cons] at hf
      obtain ⟨fuel, rfl⟩ : ∃ f, fuel = f + 2 := ⟨fuel - 2, by omega⟩
      by_cases h0 : countMight (kws.map fun k => (k, status p k)) > 0
      · obtain ⟨nm', nd', h1, h2, h3⟩ := test_eq p c kws false _ (countDoes (kws.map fun k => (k, status p k))) (le_refl _)
        have hnm : nm' = countMight (kws.map fun k => (k, status (p ++ [c]) k)) := by
          rw [← countMight_after]; omega
        have hnd : nd' = countDoes (kws.map fun k => (k, after p c k)) := by omega
        have step : loop (fuel + 2) p.length ⟨c :: rest, false, false⟩ (kws.map fun k => (k, status p k))
            (countMight (kws.map fun k => (k, status p k))) (countDoes (kws.map fun k => (k, status p k))) =
            if (kws.any fun k => decide (fold (p ++ [c]) <+: fold k)) = true then
              if nm' + nd' > 1 then
                loop (fuel + 1) (p.length + 1) ⟨rest, false, false⟩
                  (unmark p.length (kws.map fun k => (k, after p c k)) nd').1 nm'
                  (unmark p.length (kws.map fun k => (k, after p c k)) nd').2
              else loop (fuel + 1) (p.length + 1) ⟨rest, false, false⟩ (kws.map fun k => (k, after p c k)) nm' nd'
            else loop (fuel + 1) (p.length + 1) ⟨c :: rest, false, false⟩ (kws.map fun k => (k, after p c k)) nm' nd' := by
          rw [loop]
          simp only [Bool.not_false, Bool.true_and, decide_eq_true_eq, if_pos h0, IStream.peek, IStream.good,
            Bool.not_true, Bool.false_eq_true, if_false, h1, Res.bind, IStream.get, Bool.false_or]
        rw [step]
        by_cases hc : (kws.any fun k => decide (fold (p ++ [c]) <+: fold k)) = true
        · rw [if_pos hc]
          obtain ⟨k1, hk1, hk1'⟩ := List.any_eq_true.mp hc
          simp only [decide_eq_true_eq] at hk1'
          have hb' : Begins kws (p ++ [c]) := .inr ⟨k1, hk1, hk1'⟩
          obtain ⟨q, r, e, t, a1, a2, a3⟩ := ih (p ++ [c]) (fuel + 1) (by omega) hb'
          refine ⟨q, r, e, t, by rw [← a1]; simp, ?_, a3⟩
          have hl : (p ++ [c]).length = p.length + 1 := by simp
          rw [hl] at a2
          by_cases h5 : nm' + nd' > 1
          · rw [if_pos h5]
            obtain ⟨nd'', b1, b2⟩ := unmark_eq p c kws nd' (by omega)
            rw [b1, hnm]
            have : nd'' = countDoes (kws.map fun k => (k, status (p ++ [c]) k)) := by omega
            rw [this]
            exact a2
          · rw [if_neg h5]
            have hsame : ∀ k ∈ kws, after p c k = status (p ++ [c]) k := by
              intro k hk
              by_contra hne
              have hd : status p k = .does := by
                by_contra h
                exact hne (by simp [after, h])
              apply h5
              have hs1 : after p c k1 ≠ .no := by
                unfold after
                split
                · simp
                · unfold status; rw [if_pos hk1']; split <;> simp
              have hkk : (k, after p c k) ≠ (k1, after p c k1) := by
                intro h
                have h : k = k1 := congrArg Prod.fst h
                subst h
                have := (prefix_snoc.mp hk1').2
                have hl := hk1'.length_le
                rw [status_does.mp hd] at hl
                simp [fold] at hl
              have := two_le_countP (P := fun x : List Char × Status => decide (x.2 ≠ .no))
                (List.mem_map.mpr ⟨k, hk, rfl⟩ : (k, after p c k) ∈ kws.map fun k => (k, after p c k))
                (List.mem_map.mpr ⟨k1, hk1, rfl⟩) hkk (by simp [after, hd]) (by simpa using hs1)
              rw [← count_sum, countMight_after] at this
              omega
            have : (kws.map fun k => (k, after p c k)) = kws.map fun k => (k, status (p ++ [c]) k) :=
              List.map_congr_left fun k hk => by rw [hsame k hk]
            rw [hnd, hnm, this]
            exact a2
        · rw [if_neg hc]
          have hc' : ∀ k ∈ kws, ¬ fold (p ++ [c]) <+: fold k := by
            intro k hk h
            exact hc (List.any_eq_true.mpr ⟨k, hk, by simpa using h⟩)
          have hz : nm' = 0 := by
            rw [hnm]
            unfold countMight
            rw [List.countP_eq_zero]
            intro x hx
            obtain ⟨k, hk, rfl⟩ := List.mem_map.mp hx
            simp only [decide_eq_true_eq]
            intro h
            exact hc' k hk (status_might.mp h).1
          refine ⟨p, c :: rest, false, kws.map fun k => (k, after p c k), rfl, ?_, ⟨hb, ?_⟩, by simp, after p c, rfl, ?_⟩
          · simp [loop, hz]
          · rintro c' r' ⟨⟩
            exact not_begins hc'
          · intro k hk
            unfold after
            split
            · rename_i h; simp [status_does.mp h]
            · rename_i h
              constructor
              · intro h'
                rw [status_does] at h'
                exact absurd (h' ▸ List.prefix_refl _) (hc' k hk)
              · intro h'; exact absurd (status_does.mpr h') h
      · refine ⟨p, c :: rest, false, kws.map fun k => (k, status p k), rfl, ?_, ⟨hb, ?_⟩, by simp, _, rfl,
          fun k _ => status_does⟩
        · simp only [loop, Bool.not_false, Bool.true_and, decide_eq_true_eq, if_neg h0]
        · rintro c' r' ⟨⟩
          apply not_begins
          intro k hk h
          apply h0
          have h1 := (prefix_snoc.mp h).1
          have h2 : fold k ≠ fold p := fun e => by
            have := h.length_le
            rw [e] at this
            simp [fold] at this
          exact List.countP_pos_iff.mpr ⟨(k, status p k), List.mem_map.mpr ⟨k, hk, rfl⟩, by simp [status_might.mpr ⟨h1, h2⟩]⟩

theorem start_counts (kws : List (List Char)) :
    start kws kws.length 0 = (kws.map fun k => (k, status [] k), countMight (kws.map fun k => (k, status [] k)),
      countDoes (kws.map fun k => (k, status [] k))) := by
  rw [start_eq kws _ _ (le_refl _)]
  have h : countDoes (kws.map fun k => (k, status [] k)) = kws.countP (· = []) ∧
      countMight (kws.map fun k => (k, status [] k)) + kws.countP (· = []) = kws.length := by
    induction kws with
    | nil => exact ⟨rfl, rfl⟩
    | cons k r ih =>
        simp only [countDoes, countMight, List.map_cons, List.countP_cons, List.length_cons] at ih ⊢
        by_cases hk : k = []
        · subst hk
          have : status [] [] = .does := by simp [status, fold]
          rw [this]
          simp at ih ⊢
          omega
        · have : status [] k = .might := by simp [status, fold, hk]
          rw [this]
          simp [hk] at ih ⊢
          omega
  refine Prod.ext rfl (Prod.ext ?_ ?_) <;> simp only <;> omega

theorem firstMatch_map (f : List Char → Status) (kws : List (List Char)) :
    firstMatch (kws.map fun k => (k, f k)) = kws.findIdx fun k => decide (f k = .does) := by
  induction kws with
  | nil => rfl
  | cons k r ih =>
      simp only [List.map_cons, firstMatch, List.findIdx_cons]
      by_cases h : f k = .does <;> simp [h, ih]

theorem longest_unique {kws : List (List Char)} {q r w r' : List Char} (h1 : Longest kws q r) (h2 : Longest kws w r')
    (h : q ++ r = w ++ r') : q = w ∧ r = r' := by
  have aux : ∀ {q r w r' : List Char}, Longest kws q r → Longest kws w r' → q ++ r = w ++ r' → w.length ≤ q.length := by
    intro q r w r' h1 h2 h
    by_contra hl
    rcases List.append_eq_append_iff.mp h with ⟨a, ha, hb⟩ | ⟨a, ha, hb⟩
    · cases a with
      | nil => simp at ha; subst ha; omega
      | cons c a =>
          refine h1.2 c (a ++ r') (by simpa using hb) ?_
          rcases h2.1 with h' | ⟨k, hk, hp⟩
          · subst h'; simp at ha
          · refine .inr ⟨k, hk, List.IsPrefix.trans ?_ hp⟩
            rw [ha]
            exact ⟨fold a, by simp [fold]⟩
    · rw [ha] at hl
      simp at hl
  have e : q.length = w.length := le_antisymm (aux h2 h1 h.symm) (aux h1 h2 h)
  exact List.append_inj h e

/-! ## scan_keyword -/

/-- **C130**: scan_keyword reads the longest beginning of the text that is the beginning of a keyword, whatever upper and
lower case; and it returns the first keyword that is this text, or fails if there is none.  It never reads behind the end
of a keyword and it ends.  eofbit is set exactly if the text ends where a longer keyword could still follow. -/
theorem c130_scan (kws : List (List Char)) (text : List Char) :
    ∃ q r i e f, text = q ++ r ∧ Longest kws q r ∧
      scanKeyword kws ⟨text, false, false⟩ = .ok (i, ⟨r, e, f⟩) ∧
      (e = true ↔ r = [] ∧ ∃ k ∈ kws, fold q <+: fold k ∧ fold k ≠ fold q) ∧
      (f = false → FirstEqual kws q i) ∧
      (f = true → i = kws.length ∧ ∀ k ∈ kws, fold k ≠ fold q) := by
  obtain ⟨q, r, e, t, h1, h2, h3, h4, g, rfl, h5⟩ := loop_eq kws text [] (text.length + 2) (le_refl _) (.inl rfl)
  simp only [List.nil_append] at h1
  refine ⟨q, r, kws.findIdx fun k => decide (g k = .does), e,
    decide ((kws.findIdx fun k => decide (g k = .does)) = kws.length), h1, h3, ?_, h4, ?_, ?_⟩
  · unfold scanKeyword
    rw [start_counts]
    simp only [List.length_nil] at h2
    simp only [h2, Res.map, firstMatch_map]
    by_cases h : (kws.findIdx fun k => decide (g k = .does)) = kws.length <;> simp [h, IStream.setFail]
  · intro hf
    simp only [decide_eq_false_iff_not] at hf
    have hlt : (kws.findIdx fun k => decide (g k = .does)) < kws.length :=
      lt_of_le_of_ne List.findIdx_le_length hf
    refine ⟨⟨kws[kws.findIdx fun k => decide (g k = .does)], List.getElem?_eq_getElem hlt, ?_⟩, ?_⟩
    · have := List.findIdx_getElem (w := hlt)
      simp only [decide_eq_true_eq] at this
      exact (h5 _ (List.getElem_mem hlt)).mp this
    · intro j k hj hk he
      obtain ⟨hj', rfl⟩ := List.getElem?_eq_some_iff.mp hk
      have := List.not_of_lt_findIdx hj
      simp only [decide_eq_false_iff_not] at this
      exact this ((h5 _ (List.getElem_mem hj')).mpr he)
  · intro hf
    simp only [decide_eq_true_eq] at hf
    refine ⟨hf, fun k hk he => ?_⟩
    have := List.findIdx_eq_length.mp hf k hk
    simp only [decide_eq_false_iff_not] at this
    exact this ((h5 k hk).mpr he)

/-- A text that begins with a keyword that is not continued by another one. -/
theorem scan_word {kws : List (List Char)} {w r : List Char} (hw : ∃ k ∈ kws, fold k = fold w)
    (hr : ∀ c r', r = c :: r' → ∀ k ∈ kws, ¬ fold (w ++ [c]) <+: fold k) :
    ∃ i e, scanKeyword kws ⟨w ++ r, false, false⟩ = .ok (i, ⟨r, e, false⟩) ∧ (e = true → r = []) ∧ FirstEqual kws w i := by
  obtain ⟨k, hk, hkw⟩ := hw
  obtain ⟨q, r', i, e, f, h1, h2, h3, h4, h5, h6⟩ := c130_scan kws (w ++ r)
  have hl : Longest kws w r := ⟨.inr ⟨k, hk, by rw [hkw]⟩, fun c r' h => not_begins (hr c r' h)⟩
  obtain ⟨rfl, rfl⟩ := longest_unique hl h2 h1
  cases f with
  | true => exact absurd hkw ((h6 rfl).2 k hk)
  | false => exact ⟨i, e, h3, fun h => (h4.mp h).1, h5 rfl⟩

/-! ## The names as facets -/

/-- What to_stream writes for names, as a facet. -/
def cPut : TimePut := ⟨fun tm _ c =>
  let text (x : Res (List Char)) := match x with
    | .ok s => s
    | _ => []
  if c = 'a' ∨ c = 'A' then text (writeWeekday tm.wday c)
  else if c = 'b' ∨ c = 'B' ∨ c = 'h' then text (writeMonth (tm.mon + 1).toNat c)
  else if c = 'p' then text (writeHalf tm.hour)
  else []⟩

/-- What from_stream reads for names, as a facet. -/
def cGet : TimeGet := ⟨fun tm f s =>
  let c := f.getLastD ' '
  let scan (kws : List (List Char)) (set : Nat → Tm) : Tm × List Char × Bool × Bool :=
    match scanKeyword kws ⟨s, false, false⟩ with
    | .ok (i, is) => (if is.fail then tm else set i, is.rest, is.eof, is.fail)
    | _ => (tm, s, false, true)
  if c = 'a' ∨ c = 'A' then scan weekdayNames fun i => { tm with wday := (i % 7 : Nat) }
  else if c = 'b' ∨ c = 'B' ∨ c = 'h' then scan monthNames fun i => { tm with mon := (i % 12 : Nat) }
  else if c = 'p' then scan ampmNames fun i => { tm with hour := tm.hour + 12 * i }
  else (tm, s, false, true)⟩

theorem toUpper_val (c : Char) : c.toUpper.toNat = if 97 ≤ c.toNat ∧ c.toNat ≤ 122 then c.toNat - 32 else c.toNat := by
  unfold Char.toUpper
  simp only [Char.toNat]
  split
  · rename_i h
    have h1 : 97 ≤ c.val.toNat ∧ c.val.toNat ≤ 122 := by
      obtain ⟨a, b⟩ := h
      exact ⟨by simpa [UInt32.le_iff_toNat_le] using a, by simpa [UInt32.le_iff_toNat_le] using b⟩
    rw [if_pos h1]
    simp only [UInt32.toNat_add]
    rw [show ('A'.val - 'a'.val).toNat = 4294967264 from rfl]
    omega
  · rename_i h
    rw [if_neg]
    rintro ⟨a, b⟩
    apply h
    exact ⟨by simpa [UInt32.le_iff_toNat_le] using a, by simpa [UInt32.le_iff_toNat_le] using b⟩

/-- A character that is no letter does not continue a name. -/
theorem ends_word {kws : List (List Char)} {w r : List Char}
    (hk : ∀ k ∈ kws, ∀ x ∈ k, 65 ≤ x.toUpper.toNat ∧ x.toUpper.toNat ≤ 90) (hr : NameEnds r) :
    ∀ c r', r = c :: r' → ∀ k ∈ kws, ¬ fold (w ++ [c]) <+: fold k := by
  intro c r' h k hk' hp
  obtain ⟨-, x, hx, hxc⟩ := prefix_snoc.mp hp
  have hx' := hk k hk' x (List.mem_of_getElem? hx)
  have hl := hr c r' h
  rw [← hxc, toUpper_val] at hx'
  simp [Letter] at hl
  split at hx' <;> omega

theorem letters_ok : (∀ k ∈ weekdayNames ++ monthNames ++ ampmNames, ∀ x ∈ k,
    65 ≤ x.toUpper.toNat ∧ x.toUpper.toNat ≤ 90) := by decide +kernel

theorem same_weekday : ∀ i < 14, ∀ j < 14, fold (weekdayNames.getD i []) = fold (weekdayNames.getD j []) → i % 7 = j % 7 := by
  decide +kernel

theorem same_month : ∀ i < 24, ∀ j < 24, fold (monthNames.getD i []) = fold (monthNames.getD j []) → i % 12 = j % 12 := by
  decide +kernel

theorem same_half : ∀ i < 2, ∀ j < 2, fold (ampmNames.getD i []) = fold (ampmNames.getD j []) → i = j := by
  decide +kernel

/-- Reading a name of a table, in any case, that is not continued by a letter. -/
theorem scan_name {kws : List (List Char)} (n : Nat) (hn : kws.length = n)
    (hk : ∀ k ∈ kws, ∀ x ∈ k, 65 ≤ x.toUpper.toNat ∧ x.toUpper.toNat ≤ 90) (j : Nat) (hj : j < n) (w r : List Char)
    (hw : fold w = fold (kws.getD j [])) (hr : NameEnds r) :
    ∃ i e, scanKeyword kws ⟨w ++ r, false, false⟩ = .ok (i, ⟨r, e, false⟩) ∧ (e = true → r = []) ∧ i < n ∧
      fold (kws.getD i []) = fold (kws.getD j []) := by
  subst hn
  have hg : kws.getD j [] = kws[j] := by simp [List.getD, List.getElem?_eq_getElem hj]
  obtain ⟨i, e, h1, h2, ⟨k, h3, h4⟩, -⟩ := scan_word (kws := kws) (w := w) (r := r)
    ⟨kws[j], List.getElem_mem hj, by rw [hw, hg]⟩ (ends_word hk hr)
  obtain ⟨hi, rfl⟩ := List.getElem?_eq_some_iff.mp h3
  refine ⟨i, e, h1, h2, hi, ?_⟩
  rw [← hw, ← h4]
  simp [List.getD, List.getElem?_eq_getElem hi]

theorem weekday_letters : ∀ k ∈ weekdayNames, ∀ x ∈ k, 65 ≤ x.toUpper.toNat ∧ x.toUpper.toNat ≤ 90 :=
  fun k hk => letters_ok k (by simp [hk])
theorem month_letters : ∀ k ∈ monthNames, ∀ x ∈ k, 65 ≤ x.toUpper.toNat ∧ x.toUpper.toNat ≤ 90 :=
  fun k hk => letters_ok k (by simp [hk])
theorem ampm_letters : ∀ k ∈ ampmNames, ∀ x ∈ k, 65 ≤ x.toUpper.toNat ∧ x.toUpper.toNat ≤ 90 :=
  fun k hk => letters_ok k (by simp [hk])

/-- **C130**: a weekday, month or half of the day, written in full or with three letters and in any mixture of upper and
lower case, is understood if no letter follows. -/
theorem c130_names (w r : List Char) (hr : NameEnds r) :
    (∀ i n, Names.weekdays[i]? = some n → fold w = fold n ∨ fold w = fold (n.take 3) →
      ∃ j e, scanKeyword weekdayNames ⟨w ++ r, false, false⟩ = .ok (j, ⟨r, e, false⟩) ∧ j % 7 = i) ∧
    (∀ i n, Names.months[i]? = some n → fold w = fold n ∨ fold w = fold (n.take 3) →
      ∃ j e, scanKeyword monthNames ⟨w ++ r, false, false⟩ = .ok (j, ⟨r, e, false⟩) ∧ j % 12 = i) ∧
    (∀ i n, Names.halves[i]? = some n → fold w = fold n →
      ∃ e, scanKeyword ampmNames ⟨w ++ r, false, false⟩ = .ok (i, ⟨r, e, false⟩)) := by
  refine ⟨?_, ?_, ?_⟩
  · intro i n hn hw
    have hi : i < 7 := (List.getElem?_eq_some_iff.mp hn).1
    have key : ∀ i (h : i < 7), Names.weekdays.getD i [] = weekdayNames.getD i [] ∧
        (Names.weekdays.getD i []).take 3 = weekdayNames.getD (i + 7) [] := by decide +kernel
    obtain ⟨k1, k2⟩ := key i hi
    rw [show Names.weekdays.getD i [] = n by simp [List.getD, hn]] at k1 k2
    rcases hw with hw | hw
    · rw [k1] at hw
      obtain ⟨j, e, h1, -, h2, h3⟩ := scan_name 14 rfl weekday_letters i (by omega) w r hw hr
      exact ⟨j, e, h1, by rw [same_weekday j h2 i (by omega) h3]; omega⟩
    · rw [k2] at hw
      obtain ⟨j, e, h1, -, h2, h3⟩ := scan_name 14 rfl weekday_letters (i + 7) (by omega) w r hw hr
      exact ⟨j, e, h1, by rw [same_weekday j h2 (i + 7) (by omega) h3]; omega⟩
  · intro i n hn hw
    have hi : i < 12 := (List.getElem?_eq_some_iff.mp hn).1
    have key : ∀ i (h : i < 12), Names.months.getD i [] = monthNames.getD i [] ∧
        (Names.months.getD i []).take 3 = monthNames.getD (i + 12) [] := by decide +kernel
    obtain ⟨k1, k2⟩ := key i hi
    rw [show Names.months.getD i [] = n by simp [List.getD, hn]] at k1 k2
    rcases hw with hw | hw
    · rw [k1] at hw
      obtain ⟨j, e, h1, -, h2, h3⟩ := scan_name 24 rfl month_letters i (by omega) w r hw hr
      exact ⟨j, e, h1, by rw [same_month j h2 i (by omega) h3]; omega⟩
    · rw [k2] at hw
      obtain ⟨j, e, h1, -, h2, h3⟩ := scan_name 24 rfl month_letters (i + 12) (by omega) w r hw hr
      exact ⟨j, e, h1, by rw [same_month j h2 (i + 12) (by omega) h3]; omega⟩
  · intro i n hn hw
    have hi : i < 2 := (List.getElem?_eq_some_iff.mp hn).1
    have hg : ampmNames.getD i [] = n := by
      show Names.halves.getD i [] = _
      simp [List.getD, hn]
    rw [← hg] at hw
    obtain ⟨j, e, h1, -, h2, h3⟩ := scan_name 2 rfl ampm_letters i hi w r hw hr
    obtain rfl := same_half j h2 i hi h3
    exact ⟨e, h1⟩


/-- Every name that is written is a name of the calendar, and it can be read again.  This is what the theorems about format
and parse assume of the facets of a locale (`ReadsNames`); without std::locale there is nothing to assume. -/
theorem c130_reads : ReadsNames cPut cGet.get := by
  have hL : ∀ x : Char, 65 ≤ x.toUpper.toNat ∧ x.toUpper.toNat ≤ 90 → ¬ White x := by
    intro x hx
    rw [toUpper_val] at hx
    simp only [White]
    rintro (rfl | h)
    · revert hx; decide
    · split at hx <;> omega
  have hne : ∀ k ∈ weekdayNames ++ monthNames ++ ampmNames, k ≠ [] := by decide +kernel
  have first : ∀ k ∈ weekdayNames ++ monthNames ++ ampmNames, ∃ x s, k = x :: s ∧ ¬ White x := by
    intro k hk
    obtain ⟨x, s, e⟩ := List.exists_cons_of_ne_nil (hne k hk)
    exact ⟨x, s, e, hL x (letters_ok k hk x (by simp [e]))⟩
  refine ⟨?_, ?_, ?_⟩
  · intro c hc tm h0 h6
    obtain ⟨i, hi, hi'⟩ : ∃ i < 7, tm.wday = (i : Nat) := ⟨tm.wday.toNat, by omega, by omega⟩
    obtain ⟨j, hj, hij, hput⟩ : ∃ j < 14, j % 7 = i ∧ cPut.put tm none c = weekdayNames.getD j [] := by
      have key : ∀ c ∈ ['a', 'A'], ∀ i < 7, ∃ j < 14, j % 7 = i ∧ cPut.put { wday := (i : Nat) } none c = weekdayNames.getD j [] := by
        decide +kernel
      obtain ⟨j, a, b, h⟩ := key c hc i hi
      refine ⟨j, a, b, ?_⟩
      rw [← h]
      have hc' : c = 'a' ∨ c = 'A' := by simpa using hc
      simp [cPut, hc', hi']
    rw [hput]
    have hmem : weekdayNames.getD j [] ∈ weekdayNames := by
      rw [List.getD, List.getElem?_eq_getElem (show j < weekdayNames.length from hj)]
      exact List.getElem_mem _
    refine ⟨first _ (List.mem_append_left _ (List.mem_append_left _ hmem)), fun old r hr => ?_⟩
    obtain ⟨k, e, h1, h2, h3, h4⟩ := scan_name 14 rfl weekday_letters j hj _ r rfl hr
    have hc' : c = 'a' ∨ c = 'A' := by simpa using hc
    refine ⟨{ old with wday := (k % 7 : Nat) }, e, ?_, h2, ?_⟩
    · simp only [cGet, List.getLastD_cons, List.getLastD_nil, if_pos hc', h1]
      simp
    · simp only [same_weekday k h3 j hj h4, hij, hi']
  · intro c hc tm h0 h6
    obtain ⟨i, hi, hi'⟩ : ∃ i < 12, tm.mon = (i : Nat) := ⟨tm.mon.toNat, by omega, by omega⟩
    have hc' : c = 'b' ∨ c = 'B' ∨ c = 'h' := by simpa using hc
    have hn : ¬ (c = 'a' ∨ c = 'A') := by rcases hc' with rfl | rfl | rfl <;> decide
    obtain ⟨j, hj, hij, hput⟩ : ∃ j < 24, j % 12 = i ∧ cPut.put tm none c = monthNames.getD j [] := by
      have key : ∀ c ∈ ['b', 'B', 'h'], ∀ i < 12, ∃ j < 24, j % 12 = i ∧ cPut.put { mon := (i : Nat) } none c = monthNames.getD j [] := by
        decide +kernel
      obtain ⟨j, a, b, h⟩ := key c hc i hi
      refine ⟨j, a, b, ?_⟩
      rw [← h]
      simp [cPut, hc', hn, hi']
    rw [hput]
    have hmem : monthNames.getD j [] ∈ monthNames := by
      rw [List.getD, List.getElem?_eq_getElem (show j < monthNames.length from hj)]
      exact List.getElem_mem _
    refine ⟨first _ (List.mem_append_left _ (List.mem_append_right _ hmem)), fun old r hr => ?_⟩
    obtain ⟨k, e, h1, h2, h3, h4⟩ := scan_name 24 rfl month_letters j hj _ r rfl hr
    refine ⟨{ old with mon := (k % 12 : Nat) }, e, ?_, h2, ?_⟩
    · simp only [cGet, List.getLastD_cons, List.getLastD_nil, if_neg hn, if_pos hc', h1]
      simp
    · simp only [same_month k h3 j hj h4, hij, hi']
  · intro tm h0 h23
    have hput : cPut.put tm none 'p' = ampmNames.getD (if tm.hour < 12 then 0 else 1) [] := by
      by_cases hh : tm.hour < 12
      · simp [cPut, writeHalf, hh, h0, name, ampmNames]
      · simp [cPut, writeHalf, hh, name, ampmNames]
    rw [hput]
    have hj : (if tm.hour < 12 then 0 else 1) < 2 := by split <;> omega
    generalize hjj : (if tm.hour < 12 then 0 else 1) = j at hj
    have hmem : ampmNames.getD j [] ∈ ampmNames := by
      rw [List.getD, List.getElem?_eq_getElem (show j < ampmNames.length from hj)]
      exact List.getElem_mem _
    refine ⟨first _ (List.mem_append_right _ hmem), fun old r hr ho => ?_⟩
    obtain ⟨k, e, h1, h2, h3, h4⟩ := scan_name 2 rfl ampm_letters j hj _ r rfl hr
    obtain rfl := same_half k h3 j hj h4
    refine ⟨{ old with hour := old.hour + 12 * (k : Nat) }, e, ?_, h2, ?_⟩
    · simp only [cGet, List.getLastD_cons, List.getLastD_nil]
      rw [if_neg (by decide), if_neg (by decide), if_pos trivial, h1]
      simp
    · simp only [ho, ← hjj]
      split <;> simp

/-- The words that mean a weekday, a month or a half of the day: the names of the calendar in full or with three letters,
in any mixture of upper and lower case. -/
def cWords : Words where
  weekday w a := ∃ n, Names.weekdays[w]? = some n ∧ (fold a = fold n ∨ fold a = fold (n.take 3))
  month m a := 1 ≤ m ∧ ∃ n, Names.months[m - 1]? = some n ∧ (fold a = fold n ∨ fold a = fold (n.take 3))
  half b a := fold a = if b then ['P', 'M'] else ['A', 'M']

theorem scan_found {kws : List (List Char)} {text : List Char} {i : Nat} {is : IStream}
    (h : scanKeyword kws ⟨text, false, false⟩ = .ok (i, is)) (hf : is.fail = false) :
    ∃ a, text = a ++ is.rest ∧ i < kws.length ∧ fold a = fold (kws.getD i []) := by
  obtain ⟨q, r, j, e, f, h1, -, h3, -, h5, -⟩ := c130_scan kws text
  rw [h3] at h
  simp only [Res.ok.injEq, Prod.mk.injEq] at h
  obtain ⟨rfl, rfl⟩ := h
  simp only at hf
  subst hf
  obtain ⟨⟨k, hk, hkq⟩, -⟩ := h5 rfl
  obtain ⟨hj, rfl⟩ := List.getElem?_eq_some_iff.mp hk
  exact ⟨q, h1, hj, by rw [← hkq]; simp [List.getD, List.getElem?_eq_getElem hj]⟩

theorem scan_total (kws : List (List Char)) (text : List Char) :
    ∃ i is, scanKeyword kws ⟨text, false, false⟩ = .ok (i, is) := by
  obtain ⟨q, r, j, e, f, -, -, h3, -⟩ := c130_scan kws text
  exact ⟨_, _, h3⟩

/-- Only names are accepted (`KnowsWords`). -/
theorem c130_knows : KnowsWords cWords cGet.get := by
  refine ⟨?_, ?_, ?_⟩
  · intro c hc old new t r e h
    have hc' : c = 'a' ∨ c = 'A' := by simpa using hc
    obtain ⟨i, is, hs⟩ := scan_total weekdayNames t
    simp only [cGet, List.getLastD_cons, List.getLastD_nil, if_pos hc', hs, Prod.mk.injEq] at h
    obtain ⟨rfl, rfl, -, hf⟩ := h
    obtain ⟨a, ha, hi, hfa⟩ := scan_found hs hf
    have key : ∀ i < 14, ∃ n, Names.weekdays[i % 7]? = some n ∧
        (fold (weekdayNames.getD i []) = fold n ∨ fold (weekdayNames.getD i []) = fold (n.take 3)) := by
      intro i hi
      refine ⟨Names.weekdays.getD (i % 7) [], ?_, ?_⟩
      · rw [List.getD, List.getElem?_eq_getElem (show i % 7 < Names.weekdays.length from Nat.mod_lt _ (by decide))]
        rfl
      · revert i; decide +kernel
    obtain ⟨n, hn, hw⟩ := key i hi
    refine ⟨a, i % 7, ha, ⟨n, hn, by rw [hfa]; exact hw⟩, by omega, by simp [hf]⟩
  · intro c hc old new t r e h
    have hc' : c = 'b' ∨ c = 'B' ∨ c = 'h' := by simpa using hc
    have hn : ¬ (c = 'a' ∨ c = 'A') := by rcases hc' with rfl | rfl | rfl <;> decide
    obtain ⟨i, is, hs⟩ := scan_total monthNames t
    simp only [cGet, List.getLastD_cons, List.getLastD_nil, if_neg hn, if_pos hc', hs, Prod.mk.injEq] at h
    obtain ⟨rfl, rfl, -, hf⟩ := h
    obtain ⟨a, ha, hi, hfa⟩ := scan_found hs hf
    have key : ∀ i < 24, ∃ n, Names.months[i % 12]? = some n ∧
        (fold (monthNames.getD i []) = fold n ∨ fold (monthNames.getD i []) = fold (n.take 3)) := by
      intro i hi
      refine ⟨Names.months.getD (i % 12) [], ?_, ?_⟩
      · rw [List.getD, List.getElem?_eq_getElem (show i % 12 < Names.months.length from Nat.mod_lt _ (by decide))]
        rfl
      · revert i; decide +kernel
    obtain ⟨n, hn, hw⟩ := key i hi
    refine ⟨a, i % 12 + 1, ha, ⟨by omega, n, by simpa using hn, by rw [hfa]; exact hw⟩, by omega, by omega, by simp [hf]⟩
  · intro old new t r e h ho
    obtain ⟨i, is, hs⟩ := scan_total ampmNames t
    simp only [cGet, List.getLastD_cons, List.getLastD_nil] at h
    rw [if_neg (by decide), if_neg (by decide), if_pos trivial, hs] at h
    simp only [Prod.mk.injEq] at h
    obtain ⟨rfl, rfl, -, hf⟩ := h
    obtain ⟨a, ha, hi, hfa⟩ := scan_found hs hf
    have hi : i < 2 := hi
    refine ⟨a, decide (i = 1), ha, ?_, ?_⟩
    · show fold a = _
      rw [hfa]
      have key : ∀ i < 2, fold (ampmNames.getD i []) = if decide (i = 1) = true then ['P', 'M'] else ['A', 'M'] := by
        decide +kernel
      exact key i hi
    · rw [if_neg (by simp [hf])]
      by_cases h1 : i = 1
      · simp [h1, ho]
      · have : i = 0 := by omega
        simp [this, ho]

/-- Reading with the tables, as from_stream does without std::locale, and reading with this facet give the same stream and
the same values of all variables (but for the tm object, which does not exist without std::locale). -/
theorem c130_same (T : Nat) (st : PState) (hf : st.is.fail = false) (he : st.is.eof = true → st.is.rest = [])
    (hm : st.modified = none) :
    (∀ c ∈ ['a', 'A'], ∃ x tm, readWeekday st = .ok x ∧ pconv ⟨T, cGet⟩ st c = .ok { x with v := { x.v with tm := tm } }) ∧
    (∀ c ∈ ['b', 'B', 'h'], ∃ x tm, readMonth st = .ok x ∧ pconv ⟨T, cGet⟩ st c = .ok { x with v := { x.v with tm := tm } }) ∧
    (∃ x tm, readHalf st = .ok x ∧ pconv ⟨T, cGet⟩ st 'p' = .ok { x with v := { x.v with tm := tm } }) := by
  have e3 : scanKeyword weekdayNames ⟨[], true, false⟩ = .ok (14, ⟨[], true, true⟩) ∧
      scanKeyword monthNames ⟨[], true, false⟩ = .ok (24, ⟨[], true, true⟩) ∧
      scanKeyword ampmNames ⟨[], true, false⟩ = .ok (2, ⟨[], true, true⟩) ∧
      scanKeyword weekdayNames ⟨[], false, false⟩ = .ok (14, ⟨[], true, true⟩) ∧
      scanKeyword monthNames ⟨[], false, false⟩ = .ok (24, ⟨[], true, true⟩) ∧
      scanKeyword ampmNames ⟨[], false, false⟩ = .ok (2, ⟨[], true, true⟩) := by decide +kernel
  obtain ⟨⟨rest, eof, fail⟩, v, cmd, md, w⟩ := st
  simp only at hf he hm
  subst hf hm
  have both : ∀ kws n, scanKeyword kws ⟨[], true, false⟩ = .ok (n, ⟨[], true, true⟩) →
      scanKeyword kws ⟨[], false, false⟩ = .ok (n, ⟨[], true, true⟩) →
      ∃ i r e f, scanKeyword kws ⟨rest, eof, false⟩ = .ok (i, ⟨r, e, f⟩) ∧
        scanKeyword kws ⟨rest, false, false⟩ = .ok (i, ⟨r, e, f⟩) ∧ (eof || e) = e := by
    intro kws n h1 h2
    rcases eof with _ | _
    · obtain ⟨i, ⟨r, e, f⟩, h'⟩ := scan_total kws rest
      exact ⟨i, r, e, f, h', h', by simp⟩
    · obtain rfl := he rfl
      exact ⟨_, _, _, _, h1, h2, rfl⟩
  refine ⟨?_, ?_, ?_⟩
  · intro c hc
    have hc' : c = 'a' ∨ c = 'A' := by simpa using hc
    obtain ⟨i, r, e, f, hs, hs', hl⟩ := both weekdayNames 14 e3.1 e3.2.2.2.1
    obtain ⟨k, hk, h8⟩ : ∃ k : Int, ((i % 7 : Nat) : Int) = k ∧ k ≠ 8 := ⟨_, rfl, by omega⟩
    have hg : ∀ tm, cGet.get tm (cmd.getD [] ++ [c]) rest = (if f then tm else { tm with wday := k }, r, e, f) := by
      intro tm
      simp only [cGet, List.getLastD_concat, if_pos hc', hs', hk]
    have hp : pconv ⟨T, cGet⟩ ⟨⟨rest, eof, false⟩, v, cmd, none, w⟩ c =
        (let st : PState := ⟨⟨r, e, f⟩, { v with tm := if f then v.tm else { v.tm with wday := k } }, cmd, none, w⟩
         .ok (if f then st else setwd k st)) := by
      have : ∀ c, c = 'a' ∨ c = 'A' → pconv ⟨T, cGet⟩ ⟨⟨rest, eof, false⟩, v, cmd, none, w⟩ c =
        (let q := cGet.get v.tm (cmd.getD [] ++ [c]) rest
         let st : PState := ⟨⟨q.2.1, eof || q.2.2.1, q.2.2.2⟩, { v with tm := q.1 }, cmd, none, w⟩
         .ok (if (if q.2.2.2 then 8 else q.1.wday) ≠ 8 then setwd (if q.2.2.2 then 8 else q.1.wday) st else st)) := by
        intro c hc
        rcases hc with rfl | rfl <;> simp [pconv, PState.facet, IStream.set]
      rw [this c hc', hg]
      simp only [hl]
      cases f
      · simp [h8]
      · simp
    rw [hp]
    cases f
    · refine ⟨setwd k ⟨⟨r, e, false⟩, v, cmd, none, w⟩, { v.tm with wday := k }, ?_, ?_⟩
      · simp only [readWeekday, hs, Res.map, hk]
        simp [h8]
      · simp only [setwd, checkedSet]
        by_cases h1 : v.wd = 8
        · simp [h1]
        · by_cases h2 : v.wd = k <;> simp [h1, h2, IStream.setFail]
    · refine ⟨⟨⟨r, e, true⟩, v, cmd, none, w⟩, v.tm, ?_, by simp⟩
      simp only [readWeekday, hs, Res.map]
      simp
  · intro c hc
    have hc' : c = 'b' ∨ c = 'B' ∨ c = 'h' := by simpa using hc
    have hn : ¬ (c = 'a' ∨ c = 'A') := by rcases hc' with rfl | rfl | rfl <;> decide
    obtain ⟨i, r, e, f, hs, hs', hl⟩ := both monthNames 24 e3.2.1 e3.2.2.2.2.1
    obtain ⟨k, hk, h8⟩ : ∃ k : Int, ((i % 12 : Nat) : Int) = k ∧ 0 ≤ k ∧ k < 12 := ⟨_, rfl, by omega⟩
    have hg : ∀ tm, cGet.get tm (cmd.getD [] ++ [c]) rest = (if f then tm else { tm with mon := k }, r, e, f) := by
      intro tm
      simp only [cGet, List.getLastD_concat, if_neg hn, if_pos hc', hs', hk]
    have hp : pconv ⟨T, cGet⟩ ⟨⟨rest, eof, false⟩, v, cmd, none, w⟩ c =
        (let st : PState := ⟨⟨r, e, f⟩, { v with tm := if f then v.tm else { v.tm with mon := k } }, cmd, none, w⟩
         .ok (setm (if f then 0 else k + 1) st)) := by
      have : ∀ c, c = 'b' ∨ c = 'B' ∨ c = 'h' → pconv ⟨T, cGet⟩ ⟨⟨rest, eof, false⟩, v, cmd, none, w⟩ c =
        (let q := cGet.get v.tm (cmd.getD [] ++ [c]) rest
         let st : PState := ⟨⟨q.2.1, eof || q.2.2.1, q.2.2.2⟩, { v with tm := q.1 }, cmd, none, w⟩
         if q.2.2.2 = false then (int (q.1.mon + 1)).bind fun x => .ok (setm x st) else .ok (setm 0 st)) := by
        intro c hc
        rcases hc with rfl | rfl | rfl <;> simp [pconv, PState.facet, IStream.set] <;> rfl
      rw [this c hc', hg]
      simp only [hl]
      cases f
      · simp [int, Res.bind]
        rw [if_pos (by omega)]
      · simp [Res.bind]
    rw [hp]
    have hk' : ((i % 12 + 1 : Nat) : Int) = k + 1 := by rw [← hk]; push_cast; rfl
    cases f
    · refine ⟨setm (k + 1) ⟨⟨r, e, false⟩, v, cmd, none, w⟩, { v.tm with mon := k }, ?_, ?_⟩
      · simp only [readMonth, hs, Res.map, hk']
        simp
      · simp only [setm, checkedSet]
        by_cases h1 : v.m = 0
        · simp [h1]
        · by_cases h2 : v.m = k + 1 <;> simp [h1, h2, IStream.setFail]
    · refine ⟨⟨⟨r, e, true⟩, v, cmd, none, w⟩, v.tm, ?_, by simp [setm, checkedSet]⟩
      simp only [readMonth, hs, Res.map]
      simp [setm, checkedSet]
  · obtain ⟨i, r, e, f, hs, hs', hl⟩ := both ampmNames 2 e3.2.2.1 e3.2.2.2.2.2
    have hg : ∀ tm, cGet.get tm (cmd.getD [] ++ ['p']) rest = (if f then tm else { tm with hour := tm.hour + 12 * i }, r, e, f) := by
      intro tm
      simp only [cGet, List.getLastD_concat]
      rw [if_neg (by decide), if_neg (by decide), if_pos trivial, hs']
    have hp : pconv ⟨T, cGet⟩ ⟨⟨rest, eof, false⟩, v, cmd, none, w⟩ 'p' =
        (let q := cGet.get { hour := 1 } (cmd.getD [] ++ ['p']) rest
         .ok (setp (if q.1.hour = 1 then 0 else if q.1.hour = 13 then 1 else -1)
           ⟨⟨q.2.1, eof || q.2.2.1, q.2.2.2⟩, { v with tm := q.1 }, cmd, none, w⟩)) := by
      simp [pconv, PState.facet, IStream.set]
    rw [hp, hg]
    simp only [hl]
    cases f
    · obtain ⟨-, -, hi, -⟩ := scan_found hs' rfl
      have hi : i < 2 := hi
      have hset : (if (1 + 12 * (i : Int)) = 1 then (0 : Int) else if 1 + 12 * (i : Int) = 13 then 1 else -1) = i := by
        have : i = 0 ∨ i = 1 := by omega
        rcases this with rfl | rfl <;> rfl
      refine ⟨setp i ⟨⟨r, e, false⟩, v, cmd, none, w⟩, { hour := 1 + 12 * (i : Int) }, ?_, ?_⟩
      · simp only [readHalf, hs, Res.map]
      · simp only [Bool.false_eq_true, if_false, hset]
        simp only [setp, checkedSet]
    · refine ⟨⟨⟨r, e, true⟩, v, cmd, none, w⟩, { hour := 1 }, ?_, by simp [setp, checkedSet]⟩
      simp only [readHalf, hs, Res.map]
      simp [setp, checkedSet]


/-! ## Writing -/

/-- **C130**: the names that are written. -/
theorem c130_write_partial :
    (∀ w : Nat, w ≤ 6 → ∃ n, Names.weekdays[w]? = some n ∧ writeWeekday w 'A' = .ok n ∧ writeWeekday w 'a' = .ok (n.take 3)) ∧
    (∀ m : Nat, 1 ≤ m → m ≤ 12 → ∃ n, Names.months[m - 1]? = some n ∧ writeMonth m 'B' = .ok n ∧
      writeMonth m 'b' = .ok (n.take 3) ∧ writeMonth m 'h' = .ok (n.take 3)) ∧
    (∀ h : Nat, h ≤ 23 → writeHalf h = .ok (if h < 12 then ['A', 'M'] else ['P', 'M'])) := by
  have a1 : ∀ w < 7, writeWeekday (w : Nat) 'A' = .ok (Names.weekdays.getD w []) ∧
      writeWeekday (w : Nat) 'a' = .ok ((Names.weekdays.getD w []).take 3) := by decide +kernel
  have a2 : ∀ m < 12, writeMonth (m + 1) 'B' = .ok (Names.months.getD m []) ∧
      writeMonth (m + 1) 'b' = .ok ((Names.months.getD m []).take 3) ∧
      writeMonth (m + 1) 'h' = .ok ((Names.months.getD m []).take 3) := by decide +kernel
  refine ⟨?_, ?_, ?_⟩
  · intro w hw
    obtain ⟨n, hn⟩ : ∃ n, Names.weekdays[w]? = some n :=
      ⟨_, List.getElem?_eq_getElem (show w < Names.weekdays.length from Nat.lt_succ_of_le hw)⟩
    obtain ⟨h1, h2⟩ := a1 w (by omega)
    rw [List.getD, hn] at h1 h2
    exact ⟨n, hn, h1, h2⟩
  · intro m h1 h12
    obtain ⟨m, rfl⟩ : ∃ k, m = k + 1 := ⟨m - 1, by omega⟩
    have hm : m < 12 := by omega
    obtain ⟨n, hn⟩ : ∃ n, Names.months[m]? = some n :=
      ⟨_, List.getElem?_eq_getElem (show m < Names.months.length from hm)⟩
    obtain ⟨h1, h2, h3⟩ := a2 m hm
    rw [List.getD, hn] at h1 h2 h3
    exact ⟨n, hn, h1, h2, h3⟩
  · have : ∀ h < 24, writeHalf (h : Nat) = .ok (if h < 12 then ['A', 'M'] else ['P', 'M']) := by decide +kernel
    intro h hh
    exact this h (by omega)

/-- Writing the full name of a month that is not valid, to a stream that throws no exception, reads the table before its
beginning.  (extract_month returns 0 and sets failbit; the code goes on.)  The short name does not: it is that of December
in full. -/
theorem c130_invalid_month_violated (m : Nat) (hm : m = 0 ∨ 12 < m) :
    writeMonth m 'B' = .ub ∧ writeMonth m 'b' = .ok "December".toList ∧ writeMonth m 'h' = .ok "December".toList := by
  have : ¬ (1 ≤ m ∧ m ≤ 12) := by omega
  simp only [writeMonth, this, if_false]
  decide +kernel

/-! ## Formatting and parsing -/

/-- **C130**: a date that is written without std::locale, with a format that tells the date and may have names, is read
again. -/
theorem c130_round_trip_date_partial (x : YMD) (hok : x.ok = true) (n : Int) (hd : DayOf n ⟨x.y.toInt, x.m.toNat, x.d.toNat⟩)
    (fmt : List Char) (hr : Legible x.d.toNat false (items fmt)) (hdet : Determined (meaning (letters (items fmt))))
    (ht : ∀ c ∈ letters (items fmt), c ∉ ['H', 'M', 'S', 'T', 'R', 'I', 'p', 'z', 'Z'])
    (hy : YearReadable (meaning (letters (items fmt))) n x.y.toInt) (hw : Writable (letters (items fmt)) x.y.toInt) :
    ∃ text is, formatFields cPut (fieldsDate x) fmt = .ok text ∧
      parseDate cGet fmt ⟨text, false, false⟩ = .ok (is, some x) ∧ is.rest = [] ∧ is.fail = false :=
  Names.c92_names_date_partial cGet cPut c130_reads x hok n hd fmt hr hdet ht hy hw

/-- **C130**: the same for points in time. -/
theorem c130_round_trip_sys_time_partial (pn T : Nat) (hpn : 0 < pn) (hT : Decimal T) (k n : Int)
    (d : Date) (fmt : List Char) (h1 : n * (86400 * T) ≤ k * pn) (h2 : k * pn < (n + 1) * (86400 * T)) (hd : DayOf n d)
    (hr : Legible d.day false (items fmt)) (hdet : Determined (meaning (letters (items fmt))))
    (hIp : 'I' ∈ letters (items fmt) → 'p' ∈ letters (items fmt))
    (hy : YearReadable (meaning (letters (items fmt))) n d.year) (hw : Writable (letters (items fmt)) d.year) :
    ∃ text is r p, formatSys T cPut (k * pn) fmt = .ok text ∧
      parseSys pn T cGet fmt 0 ⟨text, false, false⟩ = .ok (is, some (r, p)) ∧ is.rest = [] ∧ is.fail = false ∧
      Nearest pn (n * (86400 * T) + told (meaning (letters (items fmt))) T (k * pn - n * (86400 * T))) r ∧
      (told (meaning (letters (items fmt))) T (k * pn - n * (86400 * T)) = k * pn - n * (86400 * T) → r = k) :=
  Names.c92_names_sys_time_partial pn T hpn hT cGet cPut c130_reads k n d fmt h1 h2 hd hr hdet hIp hy hw

/-- **C130**: a date that is read from any text, without std::locale, is what the text says. -/
theorem c130_accepted_date_partial (fmt text : List Char) (is : IStream) (ymd : YMD) (hr : ∀ i ∈ items fmt, Wordy i)
    (hc : CoherentWords (letters (items fmt))) (h : parseDate cGet fmt ⟨text, false, false⟩ = .ok (is, some ymd)) :
    ∃ x z, Claim.Consistent x ∧ Split (AgreesWords cWords z 1 0 x) (items fmt) text is.rest ∧
      x.d = ⟨ymd.y.toInt, ymd.m.toNat, ymd.d.toNat⟩ :=
  _root_.Gul14.Date.Words.c93_names_date_partial cWords cGet c130_knows fmt text is ymd hr hc h

/-- **C130**: the same for points in time, with the offset that the text says. -/
theorem c130_accepted_sys_time_partial (pn T : Nat) (hpn : 0 < pn) (hT : T ≤ 10 ^ 15) (hT' : T ∣ 10 ^ 16) (off : Int) (fmt text : List Char)
    (is : IStream) (r : Int) (p : Parsed) (hr : ∀ i ∈ items fmt, Wordy i) (hc : CoherentWords (letters (items fmt)))
    (h : parseSys pn T cGet fmt off ⟨text, false, false⟩ = .ok (is, some (r, p))) :
    ∃ x : Claim, x.Consistent ∧ x.RestWords (letters (items fmt)) ∧ Split (AgreesWords cWords p.abbr T (fractionalWidth T) x) (items fmt) text is.rest ∧
      ('Z' ∉ letters (items fmt) → p.abbr = []) ∧ x.h < 24 ∧ x.m < 60 ∧ 0 ≤ x.s ∧ x.s < 60 * T ∧ p.offset = (if 'z' ∈ letters (items fmt) then some x.o else none) ∧
      Nearest pn (x.n * (86400 * T) + x.h * (3600 * T) + x.m * (60 * T) + x.s -
        (if 'z' ∈ letters (items fmt) then x.o else off) * (60 * T)) r :=
  _root_.Gul14.Date.Words.c93_names_sys_time_partial pn T hpn hT hT' cWords cGet c130_knows off fmt text is r p hr hc h

/-- **C130**: and for local time. -/
theorem c130_accepted_local_time_partial (pn T : Nat) (hpn : 0 < pn) (hT : T ≤ 10 ^ 15) (hT' : T ∣ 10 ^ 16) (fmt text : List Char)
    (is : IStream) (r : Int) (p : Parsed) (hr : ∀ i ∈ items fmt, Wordy i) (hc : CoherentWords (letters (items fmt)))
    (h : parseLocal pn T cGet fmt ⟨text, false, false⟩ = .ok (is, some (r, p))) :
    ∃ x : Claim, x.Consistent ∧ x.RestWords (letters (items fmt)) ∧ Split (AgreesWords cWords p.abbr T (fractionalWidth T) x) (items fmt) text is.rest ∧
      ('Z' ∉ letters (items fmt) → p.abbr = []) ∧ x.h < 24 ∧ x.m < 60 ∧ 0 ≤ x.s ∧ x.s < 60 * T ∧ p.offset = (if 'z' ∈ letters (items fmt) then some x.o else none) ∧
      Nearest pn (x.n * (86400 * T) + x.h * (3600 * T) + x.m * (60 * T) + x.s) r :=
  _root_.Gul14.Date.Words.c93_names_local_time_partial pn T hpn hT hT' cWords cGet c130_knows fmt text is r p hr hc h

/-! ## Examples -/

example : scanKeyword monthNames ⟨"jUNE 5".toList, false, false⟩ = .ok (5, ⟨" 5".toList, false, false⟩) := by decide +kernel
example : scanKeyword monthNames ⟨"JUN 5".toList, false, false⟩ = .ok (17, ⟨" 5".toList, false, false⟩) := by decide +kernel
/-- More than the short name has been read, but it is no name: reading fails. -/
example : scanKeyword monthNames ⟨"Janus".toList, false, false⟩ = .ok (24, ⟨"s".toList, false, true⟩) := by decide +kernel
example : scanKeyword weekdayNames ⟨"thu".toList, false, false⟩ = .ok (11, ⟨[], true, false⟩) := by decide +kernel
example : scanKeyword ["".toList, "ab".toList] ⟨"x".toList, false, false⟩ = .ok (0, ⟨"x".toList, false, false⟩) := by decide +kernel
example : NameEnds " 5".toList := by intro c r h; cases h; decide
example : parseDate cGet "%d. %B %Y (%a)".toList ⟨"5. jAN 2023 (thursday)".toList, false, false⟩ =
    .ok (⟨[], false, false⟩, some ⟨2023, 1, 5⟩) := by decide +kernel
example : formatFields cPut (fieldsDate ⟨2023, 1, 5⟩) "%A, %d. %b %Y".toList = .ok "Thursday, 05. Jan 2023".toList := by decide +kernel

end Gul14.Date.Keyword
