import Verif.Date.ParseAny

/-! # The loop of parse ends without undefined behaviour, for every format: the loop -/
namespace Gul14.Date.AnyFormat
open Gul14.Spec.Calendar Gul14.Spec.DateText Gul14.Spec.DateFormat Gul14.Spec.DateParse Gul14.Spec.DateParse.AnyFormat
open Gul14.Ieee

section
variable {text : List Char} {st : PState}

/-- Several numbers, of which the first is `In`. -/
theorem seq_any (h : Inv text st) (hf : st.is.fail = false) {a : RArg} {r : List RArg} {M : Nat} (h7 : M ≤ 7) (ha : a = .rs 1 M ∨ a = .ru 1 M)
    (hs : ∀ x ∈ a :: r, RArg.Small x) : ∃ xs S is, readSeq (a :: r) st.is = .ok (xs, S, is) ∧ Inv text { st with is := is } ∧
      (∀ d, is.fail = false → In (xs.getD 0 d)) := by
  obtain ⟨⟨xs, S, is⟩, hr⟩ := readSeq_total (a :: r) st.is hs
  have hsound := fun hf' => readSeq_sound (a :: r) st.is is xs S hs hr hf'
  refine ⟨xs, S, is, hr, h.stream hf fun hf' => ?_, fun d hf' => ?_⟩
  · obtain ⟨s, s1, -⟩ := hsound hf'
    exact ⟨s, s1⟩
  · obtain ⟨s, -, s2⟩ := hsound hf'
    rcases ha with rfl | rfl
    · obtain ⟨x, ys, p, q, rfl, -, hx, -⟩ := s2
      exact in_snum h7 hx
    · obtain ⟨x, ys, p, q, rfl, -, hx, -⟩ := s2
      exact in_num h7 hx

theorem usual_year {tm : Tm} (h : Usual tm) : int (tm.year + 1900) = .ok (tm.year + 1900) ∧ In (tm.year + 1900) ∧ 0 ≤ tm.year + 1900 := by
  obtain ⟨-, -, -, -, -, h6, -⟩ := h
  exact ⟨int_ok (by omega) (by omega), by unfold In; omega, by omega⟩

theorem usual_month {tm : Tm} (h : Usual tm) : int (tm.mon + 1) = .ok (tm.mon + 1) := by
  obtain ⟨-, -, -, -, h5, -, -⟩ := h
  exact int_ok (by omega) (by omega)

theorem usual_hour {tm : Tm} (h : Usual tm) : In tm.hour := by
  obtain ⟨-, -, h3, -⟩ := h
  unfold In; omega

/-- The weekday from the facet. -/
theorem dayname_any {e : PEnv} (hg : Sensible e.loc.get) (h : Inv text st) (hf : st.is.fail = false) {c : Char} (hc : c ≠ 'p') :
    Fine text (let (is, tm, eo, fa) := st.facet e c
      let st : PState := { st with is := is.set eo fa, v := { st.v with tm := tm } }
      let trial := if st.is.fail then 8 else tm.wday
      pure (if trial ≠ 8 then setwd trial st else st)) := by
  rcases hq : st.facet e c with ⟨is, tm, eo, fa⟩
  obtain ⟨-, -, h3⟩ := facet_any hg h hf c (fun h => absurd h hc) hq
  simp only
  generalize (if (is.set eo fa).fail = true then 8 else tm.wday) = t
  refine Fine.pure ?_
  split
  · exact inv_wd (h3 _ _) _
  · exact h3 _ _

theorem digit_any (h : Inv text st) (hf : st.is.fail = false) (c : Char) {M : Nat} (h1 : 1 ≤ M) (h7 : M ≤ 7) :
    Fine text (do
      let (xs, _, is) ← readSeq [.ru 1 M] st.is
      let x := xs.getD 0 8
      if is.fail then pure (if x ≠ 8 then setwd x { st with is := is } else { st with is := is })
      else if c = 'u' then
        if !(1 ≤ x && x ≤ 7) then pure { st with is := is.setFail }
        else pure (setwd (if x = 7 then 0 else x) { st with is := is })
      else if !(0 ≤ x && x ≤ 6) then pure { st with is := is.setFail }
      else pure (setwd x { st with is := is })) := by
  obtain ⟨xs, S, is, g1, g2, -⟩ := seq_any h hf (r := []) h7 (Or.inr rfl) (by simp only [List.mem_singleton, forall_eq, RArg.Small]; omega)
  have hfail : Inv text { st with is := is.setFail } := ⟨fun hf' => by simp [IStream.setFail] at hf', h.wide, h.tm⟩
  rw [g1]
  simp only [Res.ok_bind]
  generalize xs.getD 0 8 = x
  split
  · refine Fine.pure ?_
    split
    · exact inv_wd g2 _
    · exact g2
  · split
    · split
      · exact Fine.pure hfail
      · exact Fine.pure (inv_wd g2 _)
    · split
      · exact Fine.pure hfail
      · exact Fine.pure (inv_wd g2 _)

theorem clock_any {T : Nat} {tm : Tm} (ht : Usual tm) (h : Inv text st) :
    Fine text (pure (sets (tm.sec * T) (setM tm.min (setH tm.hour st)))) :=
  Fine.pure (inv_s (inv_M (inv_H h fun _ => usual_hour ht) _) _)

/-- One conversion. -/
theorem pconv_any {e : PEnv} (hT : e.T ∣ 10 ^ 16) (hg : Sensible e.loc.get) (h : Inv text st) (hf : st.is.fail = false)
    (hw : st.width = -1 ∨ (1 ≤ st.width ∧ st.width ≤ 7)) {c : Char} (hc : c ∈ pconvChars) (hs : SafeFor [c] (fractionalWidth e.T) text) :
    Fine text (pconv e st c) := by
  have vb : Fine text (pure (st.verbatim c)) := Fine.pure (verbatim_any h hf c)
  have hm1 := max_any hw (k := 1) (by omega) (by omega)
  have hm2 := max_any hw (k := 2) (by omega) (by omega)
  have hm3 := max_any hw (k := 3) (by omega) (by omega)
  have hm4 := max_any hw (k := 4) (by omega) (by omega)
  have hW := (fractionalWidth_le hT).1
  have hM : 1 ≤ secWidth e.T ∧ secWidth e.T ≤ 3 + fractionalWidth e.T := by
    unfold secWidth; split <;> omega
  simp only [pconvChars, List.mem_cons, List.not_mem_nil, or_false] at hc
  rcases hc with rfl | rfl | rfl | rfl | rfl | rfl | rfl | rfl | rfl | rfl | rfl | rfl | rfl | rfl | rfl | rfl | rfl |
      rfl | rfl | rfl | rfl | rfl | rfl | rfl | rfl | rfl | rfl | rfl | rfl | rfl | rfl | rfl | rfl | rfl <;> simp only [pconv]
  -- a A
  · split
    · exact dayname_any hg h hf (by decide)
    · exact vb
  · split
    · exact dayname_any hg h hf (by decide)
    · exact vb
  -- u w
  · split
    · exact digit_any h hf 'u' hm1.1 hm1.2
    · split
      · exact dayname_any hg h hf (by decide)
      · exact vb
  · split
    · exact digit_any h hf 'w' hm1.1 hm1.2
    · split
      · exact dayname_any hg h hf (by decide)
      · exact vb
  -- b B h
  iterate 3
    · split
      · rcases hq : st.facet e _ with ⟨is, tm, eo, fa⟩
        obtain ⟨-, h2, h3⟩ := facet_any hg h hf _ (fun h => absurd h (by decide)) hq
        simp only
        cases fa
        · simp only [Bool.not_false, if_true]
          rw [usual_month h2]
          exact ⟨_, rfl, inv_m (h3 _ _) _⟩
        · simp only [Bool.not_true, Bool.false_eq_true, if_false]
          exact ⟨_, rfl, inv_m (h3 _ _) _⟩
      · exact vb
  -- c
  · split
    · refine facetSet_any hg h hf (by decide) fun tm st ht hi => ?_
      obtain ⟨y1, y2, -⟩ := usual_year ht
      rw [y1]
      simp only [Res.ok_bind]
      rw [usual_month ht]
      exact ⟨_, rfl, inv_s (inv_M (inv_H (inv_d (inv_m (inv_Y hi fun _ => y2) _) _) fun _ => usual_hour ht) _) _⟩
    · exact vb
  -- x
  · split
    · refine facetSet_any hg h hf (by decide) fun tm st ht hi => ?_
      obtain ⟨y1, y2, -⟩ := usual_year ht
      rw [y1]
      simp only [Res.ok_bind]
      rw [usual_month ht]
      exact ⟨_, rfl, inv_d (inv_m (inv_Y hi fun _ => y2) _) _⟩
    · exact vb
  -- X
  · split
    · exact facetSet_any hg h hf (by decide) fun tm st ht hi => clock_any ht hi
    · exact vb
  -- C
  · split
    · exact number_any h hf hm2.1 hm2.2 (Or.inl rfl) _ fun x st hi hx => inv_C hi hx
    · rcases hq : st.facet e _ with ⟨is, tm, eo, fa⟩
      obtain ⟨-, h2, h3⟩ := facet_any hg h hf _ (fun h => absurd h (by decide)) hq
      simp only
      obtain ⟨y1, y2, y3⟩ := usual_year h2
      cases fa
      · simp only [Bool.not_false, if_true]
        rw [y1]
        simp only [Res.ok_bind]
        rw [if_pos y3]
        refine ⟨_, rfl, inv_C (h3 _ _) fun _ => ?_⟩
        rw [Int.tdiv_eq_ediv_of_nonneg y3]
        unfold In at *
        omega
      · simp only [Bool.not_true, Bool.false_eq_true, if_false]
        exact ⟨_, rfl, inv_C (h3 _ _) fun _ => by unfold In; omega⟩
  -- D
  · split
    · obtain ⟨xs, S, is, g1, g2, -⟩ := seq_any h hf (M := 2) (r := [.ch '/', .ru 1 2, .ch '/', .rs 1 2]) (by omega) (Or.inr rfl)
        (by simp [RArg.Small])
      rw [g1]
      exact ⟨_, rfl, inv_d (inv_m (inv_y g2 _) _) _⟩
    · exact vb
  -- F
  · split
    · obtain ⟨xs, S, is, g1, g2, g3⟩ := seq_any h hf (r := [.ch '-', .ru 1 2, .ch '-', .ru 1 2]) hm4.2 (Or.inl rfl)
        (by simp [RArg.Small]; omega)
      rw [g1]
      exact ⟨_, rfl, inv_d (inv_m (inv_Y g2 fun hf' => g3 _ hf') _) _⟩
    · exact vb
  -- d e
  iterate 2
    · split
      · exact number_any h hf hm2.1 hm2.2 (Or.inl rfl) _ fun x st hi hx => inv_d hi x
      · split
        · exact facetSet_any hg h hf (by decide) fun tm st ht hi => Fine.pure (inv_d hi _)
        · exact vb
  -- H
  · split
    · exact number_any h hf hm2.1 hm2.2 (Or.inr rfl) _ fun x st hi hx => inv_H hi hx
    · split
      · exact facetSet_any hg h hf (by decide) fun tm st ht hi => Fine.pure (inv_H hi fun _ => usual_hour ht)
      · exact vb
  -- I
  · split
    · obtain ⟨xs, S, is, g1, g2, -⟩ := seq_any h hf (r := []) hm2.2 (Or.inl rfl)
        (by simp only [List.mem_singleton, forall_eq, RArg.Small]; omega)
      rw [g1]
      refine ⟨_, rfl, inv_I ?_ _⟩
      split
      · exact g2
      · exact ⟨fun hf' => by simp [IStream.setFail] at hf', h.wide, h.tm⟩
    · exact vb
  -- j
  · split
    · exact number_any h hf hm3.1 hm3.2 (Or.inr rfl) _ fun x st hi hx => inv_j hi hx
    · exact vb
  -- M
  · split
    · exact number_any h hf hm2.1 hm2.2 (Or.inr rfl) _ fun x st hi hx => inv_M hi x
    · split
      · exact facetSet_any hg h hf (by decide) fun tm st ht hi => Fine.pure (inv_M hi _)
      · exact vb
  -- m
  · split
    · exact number_any h hf hm2.1 hm2.2 (Or.inl rfl) _ fun x st hi hx => inv_m hi x
    · split
      · refine facetSet_any hg h hf (by decide) fun tm st ht hi => ?_
        rw [usual_month ht]
        exact ⟨_, rfl, inv_m hi _⟩
      · exact vb
  -- p
  · split
    · have h0 : Inv text { st with v := { st.v with tm := { hour := 1 } } } :=
        ⟨h.sfx, h.wide.same ⟨rfl, rfl, rfl, rfl, rfl, rfl, rfl, rfl⟩, by simp [Usual]⟩
      rcases hq : PState.facet e { st with v := { st.v with tm := { hour := 1 } } } 'p' with ⟨is, tm, eo, fa⟩
      obtain ⟨-, -, h3⟩ := facet_any hg h0 hf _ (fun _ => rfl) hq
      exact Fine.pure (inv_p (h3 _ _) _)
    · exact vb
  -- r
  · split
    · exact facetSet_any hg h hf (by decide) fun tm st ht hi => clock_any ht hi
    · exact vb
  -- R
  · split
    · obtain ⟨xs, S, is, g1, g2, g3⟩ := seq_any h hf (M := 2) (r := [.ch ':', .ru 1 2]) (by omega) (Or.inr rfl) (by simp [RArg.Small])
      rw [g1]
      exact ⟨_, rfl, inv_M (inv_H g2 fun hf' => g3 _ hf') _⟩
    · exact vb
  -- S
  · split
    · obtain ⟨pre, hp⟩ := h.sfx hf
      have hm : 1 ≤ st.max (secWidth e.T) ∧ (st.max (secWidth e.T) ≤ 7 ∨ st.max (secWidth e.T) ≤ 3 + fractionalWidth e.T) := by
        unfold PState.max; split <;> omega
      have hsm : ∀ a ∈ [RArg.rld 1 (st.max (secWidth e.T))], RArg.Small a := by
        simp only [List.mem_singleton, forall_eq, RArg.Small]
        exact ⟨trivial, hm.1, by omega⟩
      obtain ⟨⟨xs, S, is⟩, hr⟩ := readSeq_total _ st.is hsm
      obtain ⟨s, h2⟩ := seconds_any hT (pre := pre) (hp ▸ hs.1 (Or.inl (by simp))) hm.1 hm.2 hr
      rw [hr]
      simp only [Res.ok_bind]
      rw [h2]
      refine ⟨_, rfl, inv_s (h.stream hf fun hf' => ?_) _⟩
      obtain ⟨t, t1, -⟩ := readSeq_sound _ st.is is xs S hsm hr hf'
      exact ⟨t, t1⟩
    · split
      · exact facetSet_any hg h hf (by decide) fun tm st ht hi => Fine.pure (inv_s hi _)
      · exact vb
  -- T
  · split
    · obtain ⟨pre, hp⟩ := h.sfx hf
      obtain ⟨xs, S, is, g1, g2, g3⟩ := seq_any h hf (M := 2) (r := [.ch ':', .ru 1 2, .ch ':', .rld 1 (secWidth e.T)]) (by omega) (Or.inr rfl)
        (by simp [RArg.Small]; omega)
      obtain ⟨s, h2⟩ := seconds_total hT (pre := pre) (hp ▸ hs.1 (Or.inr (by simp))) (Or.inr rfl) g1
      rw [g1]
      simp only [Res.ok_bind]
      rw [h2]
      exact ⟨_, rfl, inv_s (inv_M (inv_H g2 fun hf' => g3 _ hf') _) _⟩
    · exact vb
  -- Y
  · split
    · exact number_any h hf hm4.1 hm4.2 (Or.inl rfl) _ fun x st hi hx => inv_Y hi hx
    · split
      · refine facetSet_any hg h hf (by decide) fun tm st ht hi => ?_
        obtain ⟨y1, y2, -⟩ := usual_year ht
        rw [y1]
        exact ⟨_, rfl, inv_Y hi fun _ => y2⟩
      · exact vb
  -- y
  · split
    · exact number_any h hf hm2.1 hm2.2 (Or.inr rfl) _ fun x st hi hx => inv_y hi x
    · refine facetSet_any hg h hf (by decide) fun tm st ht hi => ?_
      obtain ⟨y1, y2, -⟩ := usual_year ht
      rw [y1]
      exact ⟨_, rfl, inv_Y hi fun _ => y2⟩
  -- g
  · split
    · exact number_any h hf hm2.1 hm2.2 (Or.inr rfl) _ fun x st hi hx => inv_g hi x
    · exact vb
  -- G
  · split
    · exact number_any h hf hm4.1 hm4.2 (Or.inl rfl) _ fun x st hi hx => inv_G hi hx
    · exact vb
  -- U V W
  · split
    · exact number_any h hf hm2.1 hm2.2 (Or.inr rfl) _ fun x st hi hx => inv_U hi hx
    · exact vb
  · split
    · exact number_any h hf hm2.1 hm2.2 (Or.inr rfl) _ fun x st hi hx => inv_V hi hx
    · exact vb
  · split
    · exact number_any h hf hm2.1 hm2.2 (Or.inr rfl) _ fun x st hi hx => inv_W hi hx
    · exact vb
  -- z
  · exact offset_any (e := e) h hf (hs.2 (by simp))
  -- Z
  · split
    · refine Fine.pure (inv_abbrev (h.stream hf fun _ => ?_) _)
      split
      · exact ⟨_, (List.takeWhile_append_dropWhile ..).symm⟩
      · exact ⟨[], rfl⟩
    · exact vb

/-! ### One character of the format -/

theorem Inv.reset (h : Inv text st) : Inv text st.reset := h.other _ _ _

/-- What is known about the rest `r` of the format while a conversion is pending. -/
def Pending (fmt r : List Char) (st : PState) : Prop :=
  st.is.fail = false → st.command.isSome = true → st.width = -1 → st.modified = none →
    ∃ a t, fmt = a ++ '%' :: (t ++ r) ∧ ∀ x ∈ t, x = 't'

theorem pending_reset {fmt r : List Char} (st : PState) : Pending fmt r st.reset := fun _ h => by cases h

theorem ws_any {is : IStream} : ∃ a, is.rest = a ++ is.ws.rest := ⟨_, (List.takeWhile_append_dropWhile ..).symm⟩

theorem pstep_any {e : PEnv} (hT : e.T ∣ 10 ^ 16) (hg : Sensible e.loc.get) (h : Inv text st) (hf : st.is.fail = false)
    (hw : st.width = -1 ∨ (1 ≤ st.width ∧ st.width ≤ 7)) {fmt r : List Char} {c : Char} (hfmt : ∃ a, fmt = a ++ c :: r)
    (hs : SafeFor fmt (fractionalWidth e.T) text) (hp : Pending fmt (c :: r) st)
    (hd : (st.command.isSome && st.width == -1 && st.modified == none && isDig c) = false) :
    ∃ st', pstep e st c = .ok st' ∧ Inv text st' ∧ (st'.width = -1 ∨ (1 ≤ st'.width ∧ st'.width ≤ 7)) ∧ Pending fmt r st' := by
  have hin : c ∈ fmt := by obtain ⟨a, rfl⟩ := hfmt; simp
  have hm : ∀ x, x ∈ [c] → x ∈ fmt := by intro x hx; rw [List.mem_singleton.mp hx]; exact hin
  have hs' : SafeFor [c] (fractionalWidth e.T) text := ⟨fun h => hs.1 (h.imp (hm _) (hm _)), fun h => hs.2 (hm _ h)⟩
  have vb : ∃ st', (pure (st.verbatim c).reset : Res PState) = .ok st' ∧ Inv text st' ∧
      (st'.width = -1 ∨ (1 ≤ st'.width ∧ st'.width ≤ 7)) ∧ Pending fmt r st' :=
    ⟨_, rfl, (verbatim_any h hf c).reset, Or.inl rfl, pending_reset _⟩
  have hread : Inv text { st with is := readChar c st.is } := h.stream hf fun hf' => ⟨[c], by rw [readChar_sound hf']; rfl⟩
  unfold pstep
  rcases hcmd : st.command with _ | cmd <;> simp only
  · split
    · rename_i hc
      subst hc
      refine ⟨_, rfl, h.other _ _ _, hw, fun _ _ _ _ => ?_⟩
      obtain ⟨a, ha⟩ := hfmt
      exact ⟨a, [], ha, by simp⟩
    · split
      · split
        · exact ⟨_, rfl, (h.stream hf (i := st.is.ws) fun _ => ws_any).other none _ _, hw, fun _ h => by cases h⟩
        · exact ⟨_, rfl, h, hw, fun _ h => by rw [hcmd] at h; cases h⟩
      · exact ⟨_, rfl, hread.other none _ _, hw, fun _ h => by cases h⟩
  · split
    · rename_i hc
      obtain ⟨st', g1, g2⟩ := pconv_any hT hg h hf hw hc hs'
      rw [g1]
      exact ⟨_, rfl, g2.reset, Or.inl rfl, pending_reset _⟩
    · split
      · rename_i hnt
        split
        · rename_i hmd
          rcases hpk : st.is.peek with ⟨_ | x, i⟩ <;> simp only
          · have hi : i.rest = st.is.rest := by
              unfold IStream.peek at hpk
              split at hpk
              · cases hpk; rfl
              · split at hpk
                · cases hpk; rfl
                · cases hpk
            refine ⟨_, rfl, (h.stream hf fun _ => ⟨[], hi.symm⟩).set _ _ |>.other _ _ _, hw, fun hf' _ hw' _ => ?_⟩
            have hct : c = 't' := by
              rcases hnt with rfl | rfl
              · simp [IStream.set] at hf'
              · rfl
            subst hct
            obtain ⟨a, t, h1, h2⟩ := hp hf (by rw [hcmd]; rfl) hw' hmd
            refine ⟨a, t ++ ['t'], by rw [h1]; simp, ?_⟩
            intro x hx
            rcases List.mem_append.mp hx with hx | hx
            · exact h2 x hx
            · simpa using hx
          · obtain ⟨rfl, hgd, q, hq⟩ := peek_some hpk
            refine ⟨_, rfl, (h.stream hf (i := if isSpace x = true then st.is.get.2 else if c = 'n' then st.is.setFail else st.is)
              fun _ => ?_).reset, Or.inl rfl, pending_reset _⟩
            split
            · rw [get_good hgd hq]; exact ⟨[x], by rw [hq]; rfl⟩
            · split <;> exact ⟨[], rfl⟩
        · exact vb
      · split
        · split
          · exact ⟨_, rfl, h.other _ _ _, hw, fun _ _ _ h => by cases h⟩
          · exact vb
        · split
          · split
            · exact ⟨_, rfl, hread.reset, Or.inl rfl, pending_reset _⟩
            · exact vb
          · split
            · rename_i hdg
              simp [hcmd, hdg] at hd
            · exact vb

end

/-! ### Widths -/

theorem accum_ge (s : List Char) : ∀ x, x ≤ accum x s := by
  induction s with
  | nil => intro x; exact Nat.le_refl _
  | cons c s ih =>
    intro x
    have h := ih (10 * x + (c.toNat - 48))
    have e : accum x (c :: s) = accum (10 * x + (c.toNat - 48)) s := rfl
    rw [e]
    omega

/-- The digits of a small width. -/
theorem readWidth_any (r : List Char) : ∀ (st : PState) (w : Nat), st.width = w → accum w (r.takeWhile isDigit) ≤ 7 →
    ∃ cmd, readWidth r st = .ok (r.dropWhile isDigit, { st with command := cmd, width := accum w (r.takeWhile isDigit) }) ∧
      (cmd.isSome = st.command.isSome) := by
  induction r with
  | nil =>
    intro st w hw _
    refine ⟨st.command, ?_, rfl⟩
    have e : accum w (([] : List Char).takeWhile isDigit) = w := rfl
    rw [e, ← hw]
    rfl
  | cons c r ih =>
    intro st w hw h7
    unfold readWidth
    rcases hc : isDigit c with _ | _
    · simp only [isDig_eq, hc, Bool.false_eq_true, if_false, List.takeWhile_cons, List.dropWhile_cons]
      refine ⟨st.command, ?_, rfl⟩
      rw [show accum w [] = w from rfl, ← hw]
      rfl
    · simp only [isDig_eq, hc, if_true, List.takeWhile_cons, List.dropWhile_cons] at h7 ⊢
      have hd := dig_le hc
      have hge := accum_ge (r.takeWhile isDigit) (10 * w + (c.toNat - 48))
      have e : accum w (c :: r.takeWhile isDigit) = accum (10 * w + (c.toNat - 48)) (r.takeWhile isDigit) := rfl
      rw [e] at h7 ⊢
      rw [hw, int_ok (by omega) (by omega)]
      simp only [Res.ok_bind]
      rw [int_ok (by omega) (by omega)]
      simp only [Res.ok_bind]
      obtain ⟨cmd, h1, h2⟩ := ih { st with width := 10 * (w : Int) + (c.toNat : Int) - 48, command := st.command.map (· ++ [c]) }
        (10 * w + (c.toNat - 48)) (by simp only; omega) h7
      rw [h1]
      exact ⟨cmd, rfl, by rw [h2]; cases st.command <;> rfl⟩

/-! ### The loop -/

theorem ploop_any {e : PEnv} (hT : e.T ∣ 10 ^ 16) (hg : Sensible e.loc.get) {fmt text : List Char} (hs : SafeFor fmt (fractionalWidth e.T) text)
    (hw : Widths fmt) (fuel : Nat) : ∀ (r : List Char) (st : PState), r.length ≤ fuel → Inv text st →
    (st.width = -1 ∨ (1 ≤ st.width ∧ st.width ≤ 7)) → (∃ a, fmt = a ++ r) → Pending fmt r st → Fine text (ploop e fuel r st) := by
  induction fuel with
  | zero =>
    intro r st hl h _ _ _
    have : r = [] := List.length_eq_zero_iff.mp (by omega)
    subst this
    exact Fine.pure h
  | succ fuel ih =>
    intro r st hl h hwd hfmt hp
    rcases r with _ | ⟨c, r⟩
    · exact Fine.pure h
    rcases hf : st.is.fail with _ | _
    · have hfmt' : ∃ a, fmt = a ++ r := by
        obtain ⟨a, ha⟩ := hfmt
        exact ⟨a ++ [c], by rw [ha]; simp⟩
      simp only [List.length_cons] at hl
      simp only [ploop, hf, Bool.false_eq_true, if_false]
      rcases hd : (st.command.isSome && st.width == -1 && st.modified == none && isDig c) with _ | _
      · obtain ⟨st', g1, g2, g3, g4⟩ := pstep_any hT hg h hf hwd hfmt hs hp hd
        rw [g1]
        simp only [Res.ok_bind, Bool.false_eq_true, if_false]
        exact ih r st' (by omega) g2 g3 hfmt' g4
      · simp only [Bool.and_eq_true, beq_iff_eq] at hd
        obtain ⟨⟨⟨d1, d2⟩, d3⟩, d4⟩ := hd
        obtain ⟨a, t, a1, a2⟩ := hp hf d1 d2 d3
        obtain ⟨cmd, hcmd⟩ := Option.isSome_iff_exists.mp d1
        have d4' : isDigit c = true := d4
        have hn := hw a t (c :: r) a1 a2
        unfold Narrow at hn
        simp only [List.takeWhile_cons, d4', if_true, reduceCtorEq, false_or] at hn
        have ev : value (c :: r.takeWhile isDigit) = accum (digVal c) (r.takeWhile isDigit) := by
          simp [value, accum, digVal]
        rw [ev] at hn
        have hnc : ∀ x ∈ pconvChars ++ ['n', 't', 'E', 'O', '%'], isDigit x = false := by decide
        have hstep : pstep e st c = .ok { st with width := digVal c, command := some (cmd ++ [c]) } := by
          have n1 : c ∉ pconvChars := fun h => by
            have := hnc c (List.mem_append_left _ h); rw [d4'] at this; cases this
          have n2 : ∀ x ∈ ['n', 't', 'E', 'O', '%'], c ≠ x := by
            rintro x hx rfl
            have := hnc c (List.mem_append_right _ hx); rw [d4'] at this; cases this
          unfold pstep
          rw [hcmd]
          simp only
          rw [if_neg n1, if_neg (by have a := n2 'n' (by simp); have b := n2 't' (by simp); tauto),
            if_neg (by have a := n2 'E' (by simp); have b := n2 'O' (by simp); tauto), if_neg (n2 '%' (by simp)), if_pos ⟨d2, d3, d4⟩]
          rfl
        rw [hstep]
        simp only [Res.ok_bind, if_true]
        obtain ⟨cmd', h1, h2⟩ := readWidth_any r { st with width := digVal c, command := some (cmd ++ [c]) } (digVal c) rfl hn.2
        rw [h1]
        simp only [Res.ok_bind]
        refine ih _ _ ?_ (h.other _ _ _) ?_ ?_ ?_
        · have := (List.dropWhile_sublist isDigit (l := r)).length_le
          omega
        · simp only; omega
        · obtain ⟨a', ha'⟩ := hfmt'
          exact ⟨a' ++ r.takeWhile isDigit, by rw [List.append_assoc, List.takeWhile_append_dropWhile, ha']⟩
        · intro _ _ hw' _
          simp only at hw'
          omega
    · rw [ploop_failed e _ _ _ hl hf]
      exact Fine.pure h

theorem usual_zero : Usual {} := by simp [Usual]

theorem wide_start : Wide {} := by
  refine ⟨?_, ?_, ?_, ?_, ?_, ?_, ?_, Or.inl rfl⟩ <;> simp [In]

/-- from_stream. -/
theorem fromStream_any {e : PEnv} (hT : e.T ∣ 10 ^ 16) (hg : Sensible e.loc.get) {fmt text : List Char} (fds : Fields)
    (hs : SafeFor fmt (fractionalWidth e.T) text) (hw : Widths fmt) : ∃ is r, fromStream e ⟨text, false, false⟩ fmt fds = .ok (is, r) := by
  have hgood : (IStream.good ⟨text, false, false⟩) = true := rfl
  unfold fromStream
  simp only [hgood, Bool.not_true, Bool.false_eq_true, if_false]
  obtain ⟨st, hp, hi⟩ := ploop_any hT hg hs hw fmt.length fmt { is := ⟨text, false, false⟩, v := {} } (Nat.le_refl _)
    ⟨fun _ => ⟨[], rfl⟩, wide_start, usual_zero⟩ (Or.inl rfl) ⟨[], rfl⟩ (fun _ h => by cases h)
  rw [hp]
  simp only [Res.ok_bind]
  generalize (if (st.is.good && st.command.isSome) = true then
      readLit ('%' :: ((if st.width = -1 then [] else dec st.width.toNat) ++ st.modified.toList)) st.is else st.is) = i1
  split
  · exact ⟨_, _, rfl⟩
  · rcases combine_any (e := e) (fds := fds) hi.wide with ⟨r, h⟩ | ⟨x, h⟩ <;> rw [h] <;> exact ⟨_, _, rfl⟩

end Gul14.Date.AnyFormat
