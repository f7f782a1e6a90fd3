import Verif.SmallVector.Grow

/-! Functions that shift elements: insert, emplace, erase. -/
namespace Gul14.SmallVector
open LM hiding pure bind
variable {V : Type} {w : Fail V} {s : St V} {E : St V → Prop} {T : Prop} {t : Traits V}
variable {A : World V} {i j : Nat} {a b : AV V}

theorem wp_moveBackward {b : Blk} {i j L : Nat} (hij : i < j) (cnt : Nat) :
    ∀ {s : St V} {c : Nat → Cell V} {Q : Unit → St V → Prop}, s.mem b = some ⟨L, c⟩ → j + cnt ≤ L →
    (∀ k, i ≤ k → k < j + cnt → Alive (c k)) →
    (∀ c', (∀ k, k < cnt → c' (j + k) = c (i + k)) → (∀ k, k < i ∨ j + cnt ≤ k → c' k = c k) →
      (∀ k, i ≤ k → k < j + cnt → Alive (c' k)) → Q () (s.setMem b (some ⟨L, c'⟩))) →
    (t.nothrowMoveAssign = false → w.at? ≠ none → ∀ c', (∀ k, k < i ∨ j + cnt ≤ k → c' k = c k) →
      (∀ k, i ≤ k → k < j + cnt → Alive (c' k)) → E (s.setMem b (some ⟨L, c'⟩))) →
    wp (moveBackward t b i j cnt) w s Q E T := by
  induction cnt with
  | zero =>
      intro s c Q hb hL hl hQ _
      refine wp_pure ?_
      have := hQ c (fun k hk => absurd hk (by omega)) (fun _ _ => rfl) hl
      rwa [setMem_self hb] at this
  | succ cnt ih =>
      intro s c Q hb hL hl hQ hE
      obtain ⟨v, hv⟩ := hl (i + cnt) (by omega) (by omega)
      have alive1 : ∀ (x y : V) k, i ≤ k → k < j + (cnt + 1) →
          Alive (upd (upd c (j + cnt) (.live x)) (i + cnt) (.live y) k) := by
        intro x y k h1 h2
        by_cases h3 : k = i + cnt
        · subst h3; rw [upd_same]; exact alive_live _
        · rw [upd_other h3]
          by_cases h4 : k = j + cnt
          · subst h4; rw [upd_same]; exact alive_live _
          · rw [upd_other h4]; exact hl k h1 h2
      refine wp_bind (wp_moveAssignElem_same hb (by omega) hv (by omega) (hl _ (by omega) (by omega))
        ?_ ?_)
      · refine ih (setMem_mem _ _ _) (by omega) (fun k h1 h2 => alive1 _ _ k h1 (by omega)) ?_ ?_
        · intro c' h1 h2 h3
          rw [setMem_setMem]
          refine hQ c' ?_ ?_ ?_
          · intro k hk
            by_cases hk2 : k = cnt
            · subst hk2
              rw [h2 _ (by omega), upd_other (by omega), upd_same, hv]
            · rw [h1 k (by omega), upd_other (by omega), upd_other (by omega)]
          · intro k hk
            rw [h2 k (by omega), upd_other (by omega), upd_other (by omega)]
          · intro k h4 h5
            by_cases h6 : k < j + cnt
            · exact h3 k h4 h6
            · rw [h2 k (by omega)]; exact alive1 _ _ k h4 h5
        · intro h1 h2 c' h3 h4
          rw [setMem_setMem]
          refine hE h1 h2 c' ?_ ?_
          · intro k hk
            rw [h3 k (by omega), upd_other (by omega), upd_other (by omega)]
          · intro k h5 h6
            by_cases h7 : k < j + cnt
            · exact h4 k h5 h7
            · rw [h3 k (by omega)]; exact alive1 _ _ k h5 h6
      · intro h1 h2
        refine hE h1 h2 _ ?_ (alive1 _ _)
        intro k hk
        rw [upd_other (by omega), upd_other (by omega)]

theorem wp_moveForward {b : Blk} {L : Nat} (cnt : Nat) :
    ∀ {s : St V} {i j : Nat} {c : Nat → Cell V} {Q : Unit → St V → Prop}, j < i ∨ cnt = 0 →
    s.mem b = some ⟨L, c⟩ → i + cnt ≤ L →
    (∀ k, j ≤ k → k < i + cnt → Alive (c k)) →
    (∀ c', (∀ k, k < cnt → c' (j + k) = c (i + k)) → (∀ k, k < j ∨ i + cnt ≤ k → c' k = c k) →
      (∀ k, j ≤ k → k < i + cnt → Alive (c' k)) → Q () (s.setMem b (some ⟨L, c'⟩))) →
    (t.nothrowMoveAssign = false → w.at? ≠ none → ∀ c', (∀ k, k < j ∨ i + cnt ≤ k → c' k = c k) →
      (∀ k, j ≤ k → k < i + cnt → Alive (c' k)) → E (s.setMem b (some ⟨L, c'⟩))) →
    wp (moveForward t b i j cnt) w s Q E T := by
  induction cnt with
  | zero =>
      intro s i j c Q _ hb hL hl hQ _
      refine wp_pure ?_
      have := hQ c (fun k hk => absurd hk (by omega)) (fun _ _ => rfl) hl
      rwa [setMem_self hb] at this
  | succ cnt ih =>
      intro s i j c Q hij hb hL hl hQ hE
      obtain ⟨v, hv⟩ := hl i (by omega) (by omega)
      have alive1 : ∀ (x y : V) k, j ≤ k → k < i + (cnt + 1) →
          Alive (upd (upd c j (.live x)) i (.live y) k) := by
        intro x y k h1 h2
        by_cases h3 : k = i
        · subst h3; rw [upd_same]; exact alive_live _
        · rw [upd_other h3]
          by_cases h4 : k = j
          · subst h4; rw [upd_same]; exact alive_live _
          · rw [upd_other h4]; exact hl k h1 h2
      refine wp_bind (wp_moveAssignElem_same hb (by omega) hv (by omega) (hl _ (by omega) (by omega))
        ?_ ?_)
      · refine ih (i := i + 1) (j := j + 1) (by omega) (setMem_mem _ _ _) (by omega)
          (fun k h1 h2 => alive1 _ _ k (by omega) (by omega)) ?_ ?_
        · intro c' h1 h2 h3
          rw [setMem_setMem]
          refine hQ c' ?_ ?_ ?_
          · intro k hk
            cases k with
            | zero => rw [Nat.add_zero, Nat.add_zero, h2 _ (by omega), upd_other (by omega), upd_same, hv]
            | succ k =>
                have := h1 k (by omega)
                rw [show j + (k + 1) = j + 1 + k by omega, show i + (k + 1) = i + 1 + k by omega, this,
                  upd_other (by omega), upd_other (by omega)]
          · intro k hk
            rw [h2 k (by omega), upd_other (by omega), upd_other (by omega)]
          · intro k h4 h5
            by_cases h6 : j + 1 ≤ k
            · exact h3 k h6 (by omega)
            · rw [h2 k (by omega)]; exact alive1 _ _ k h4 h5
        · intro h1 h2 c' h3 h4
          rw [setMem_setMem]
          refine hE h1 h2 c' ?_ ?_
          · intro k hk
            rw [h3 k (by omega), upd_other (by omega), upd_other (by omega)]
          · intro k h5 h6
            by_cases h7 : j + 1 ≤ k
            · exact h4 k h7 (by omega)
            · rw [h3 k (by omega)]; exact alive1 _ _ k h5 h6
      · intro h1 h2
        refine hE h1 h2 _ ?_ (alive1 _ _)
        intro k hk
        rw [upd_other (by omega), upd_other (by omega)]

/-- The cells after inserting `ys` at index `idx`. -/
theorem splice_cells {c : Nat → Cell V} {xs ys : List V} {idx : Nat} (hidx : idx ≤ xs.length)
    (h1 : ∀ k, k < idx → c k = cellsOf xs k) (h2 : ∀ k (h : k < ys.length), c (idx + k) = .live ys[k])
    (h3 : ∀ k, idx + ys.length ≤ k → c k = cellsOf xs (k - ys.length)) :
    c = cellsOf (xs.take idx ++ ys ++ xs.drop idx) := by
  have hlen : (xs.take idx ++ ys ++ xs.drop idx).length = xs.length + ys.length := by
    simp only [List.length_append, List.length_take, List.length_drop]; omega
  have htl : (xs.take idx).length = idx := by rw [List.length_take]; omega
  refine eq_cellsOf ?_ ?_
  · intro k hk
    rw [hlen] at hk
    by_cases h4 : k < idx
    · rw [h1 k h4, cellsOf_lt (by omega), List.getElem_append_left (by rw [List.length_append]; omega),
        List.getElem_append_left (by omega), List.getElem_take]
    · by_cases h5 : k < idx + ys.length
      · have := h2 (k - idx) (by omega)
        rw [show idx + (k - idx) = k by omega] at this
        rw [this, List.getElem_append_left (by rw [List.length_append]; omega),
          List.getElem_append_right (by omega)]
        simp only [htl]
      · rw [h3 k (by omega), cellsOf_lt (by omega), List.getElem_append_right (by rw [List.length_append]; omega),
          List.getElem_drop]
        congr 2
        rw [List.length_append, htl]; omega
  · intro k hk
    rw [hlen] at hk
    rw [h3 k (by omega), cellsOf_ge (by omega)]

theorem splice_length {xs ys : List V} {idx : Nat} :
    (xs.take idx ++ ys ++ xs.drop idx).length = xs.length + ys.length := by
  simp only [List.length_append, List.length_take, List.length_drop]; omega

/-- If shifting elements cannot throw, then nothing is lost when anything else throws. -/
theorem wp_insertSingle {rv : Bool} {v : V} {idx : Nat} {Q : Nat → St V → Prop} (h : Rel t s A)
    (hi : A i = some a) (hidx : idx ≤ a.xs.length)
    (hsafe : w.at? ≠ none → t.nothrowMoveAssign = true)
    (hQ : ∀ s' a', Rel t s' (A.set i (some a')) → a'.xs = a.xs.take idx ++ [v] ++ a.xs.drop idx →
      a'.cap = (if a.xs.length < a.cap then a.cap else growCap a.cap) →
      (a.xs.length < a.cap → a'.loc = a.loc) → Q idx s')
    (hE : w.at? ≠ none ∨ a.xs.length = sizeLim - 1 → ∀ s' a', Rel t s' (A.set i (some a')) →
      (w.at? = none ∧ Strong t → a'.xs = a.xs) → E s') :
    wp (insertSingle t rv i idx (.val v)) w s Q E T := by
  refine wp_bind (wp_getVec (h.vec hi) ?_)
  refine wp_ite ?_ ?_
  · intro hc
    simp only at hc
    refine wp_bind (wp_pushBack h hi ?_ (fun h1 s' a' h2 h3 h4 => hE h1 s' a' h2 (fun h => h4 h.2)))
    intro s' a' h1 h2 h3 h4
    refine wp_bind (wp_getVec (h1.vec (World.set_same _ _ _)) (wp_pure ?_))
    have : a'.xs.length - 1 = idx := by rw [h2, List.length_append, hc]; simp
    simp only
    rw [this]
    refine hQ s' a' h1 ?_ h3 h4
    rw [h2, hc]; simp
  · intro hc
    simp only at hc
    have hlt : idx < a.xs.length := by omega
    refine wp_bind (wp_growIfFull h hi ?_ (fun h1 s' xs h2 h3 h4 => hE h1 s' _ h2 (fun h => h4 h.2)))
    intro s' a' h1 h2 h3 h4 h5
    have hi' := World.set_same A i (some a')
    refine wp_bind (wp_getVec (h1.vec hi') (wp_bind ?_))
    simp only
    have hlen : a'.xs.length = a.xs.length := by rw [h2]
    have hpos : 0 < a'.xs.length := by omega
    refine wp_moveConstruct_same (h1.mem hi') (by omega) (cellsOf_lt (by omega)) (by omega)
      (cellsOf_ge (Nat.le_refl _)) ?_ ?_
    · refine wp_bind (wp_moveBackward (by omega) _ (setMem_mem _ _ _) (by omega) ?_ ?_ ?_)
      · intro k h6 h7
        rw [upd_other (by omega)]
        by_cases h8 : k = a'.xs.length - 1
        · subst h8; rw [upd_same]; exact alive_live _
        · rw [upd_other h8]; exact cellsOf_alive (by omega)
      · intro c' h6 h7 h8
        rw [setMem_setMem]
        refine wp_bind (wp_setVec (wp_bind ?_))
        -- after the final assignment
        have hcell : ∀ u : V, upd c' idx (.live u) =
            cellsOf (a'.xs.take idx ++ [u] ++ a'.xs.drop idx) := by
          intro u
          refine splice_cells (by omega) ?_ ?_ ?_
          · intro k hk
            rw [upd_other (by omega), h7 k (by omega), upd_other (by omega), upd_other (by omega)]
          · intro k hk
            simp only [List.length_singleton] at hk
            have : k = 0 := by omega
            subst this
            rw [Nat.add_zero, upd_same]; simp
          · intro k hk
            simp only [List.length_singleton] at hk ⊢
            rw [upd_other (by omega)]
            by_cases h9 : k < a'.xs.length
            · have h10 := h6 (k - idx - 1) (by omega)
              rw [show idx + 1 + (k - idx - 1) = k by omega, show idx + (k - idx - 1) = k - 1 by omega] at h10
              rw [h10, upd_other (by omega), upd_other (by omega)]
            · rw [h7 k (by omega)]
              by_cases h10 : k = a'.xs.length
              · subst h10; rw [upd_same, cellsOf_lt (by omega)]
              · rw [upd_other h10, upd_other (by omega), cellsOf_ge (by omega), cellsOf_ge (by omega)]
        have hrel : ∀ u : V, Rel t ((s'.setMem (a'.data i) (some ⟨a'.cap, upd c' idx (.live u)⟩)).setVec i
            (some ⟨a'.data i, a'.cap, a'.xs.length + 1⟩))
            (A.set i (some { a' with xs := a'.xs.take idx ++ [u] ++ a'.xs.drop idx })) := by
          intro u
          have hr := h1.inplace hi' (a'.xs.take idx ++ [u] ++ a'.xs.drop idx)
            (by rw [splice_length]; simp only [List.length_singleton]; omega)
          rw [World.set_set, splice_length] at hr
          rw [hcell u]
          exact hr
        have hmem : ((s'.setMem (a'.data i) (some ⟨a'.cap, c'⟩)).setVec i
            (some ⟨a'.data i, a'.cap, a'.xs.length + 1⟩)).mem (a'.data i) = some ⟨a'.cap, c'⟩ := by
          rw [setVec_mem]; simp
        have good : wp (pure idx : M V Nat) w (((s'.setMem (a'.data i) (some ⟨a'.cap, c'⟩)).setVec i
            (some ⟨a'.data i, a'.cap, a'.xs.length + 1⟩)).setMem (a'.data i)
            (some ⟨a'.cap, upd c' idx (.live v)⟩)) Q E T := by
          rw [setMem_setVec_comm, setMem_setMem]
          exact wp_pure (hQ _ _ (hrel v) (by simp only; rw [h2]) h3 (fun h => by rw [← h5 h]))
        have bad : w.at? ≠ none → E (((s'.setMem (a'.data i) (some ⟨a'.cap, c'⟩)).setVec i
            (some ⟨a'.data i, a'.cap, a'.xs.length + 1⟩)).setMem (a'.data i)
            (some ⟨a'.cap, upd c' idx (.live w.left)⟩)) := by
          intro hw
          rw [setMem_setVec_comm, setMem_setMem]
          exact hE (Or.inl hw) _ _ (hrel w.left) (fun h => absurd h.1 hw)
        have hal : Alive (c' idx) := h8 idx (by omega) (by omega)
        refine wp_ite ?_ ?_
        · intro _
          exact wp_moveAssignElem_val hmem (by omega) hal good (fun _ => bad)
        · intro _
          exact wp_copyAssignElem_val hmem (by omega) hal good (fun _ => bad)
      · intro h6 h7
        rw [hsafe h7] at h6; cases h6
    · intro h6 hw
      obtain ⟨xs, hxl, hxc⟩ := exists_cellsOf a'.xs.length
        (upd (cellsOf a'.xs) (a'.xs.length - 1) (.live w.left))
        (fun k hk => by
          by_cases h8 : k = a'.xs.length - 1
          · subst h8; rw [upd_same]; exact alive_live _
          · rw [upd_other h8]; exact cellsOf_alive (by omega))
        (fun k hk => by rw [upd_other (by omega), cellsOf_ge hk])
      rw [hxc]
      have hr := h1.values hi' xs hxl
      rw [World.set_set] at hr
      exact hE (Or.inl hw) _ _ hr (fun h => absurd h.1 hw)

theorem wp_emplace {v : V} {idx : Nat} {Q : Nat → St V → Prop} (h : Rel t s A)
    (hi : A i = some a) (hidx : idx ≤ a.xs.length)
    (hsafe : w.at? ≠ none → t.nothrowMoveAssign = true)
    (hQ : ∀ s' a', Rel t s' (A.set i (some a')) → a'.xs = a.xs.take idx ++ [v] ++ a.xs.drop idx →
      a'.cap = (if a.xs.length < a.cap then a.cap else growCap a.cap) →
      (a.xs.length < a.cap → a'.loc = a.loc) → Q idx s')
    (hE : w.at? ≠ none ∨ a.xs.length = sizeLim - 1 → ∀ s' a', Rel t s' (A.set i (some a')) →
      (w.at? = none ∧ Strong t → a'.xs = a.xs) → E s') :
    wp (emplace t i idx (.val v)) w s Q E T := by
  refine wp_bind (wp_getVec (h.vec hi) ?_)
  refine wp_ite ?_ ?_
  · intro hc
    simp only at hc
    refine wp_bind (wp_emplaceBack h hi ?_ (fun h1 s' a' h2 h3 h4 => hE h1 s' a' h2 (fun h => h4 h.2)))
    intro s' a' h1 h2 h3 h4
    refine wp_bind (wp_getVec (h1.vec (World.set_same _ _ _)) (wp_pure ?_))
    have : a'.xs.length - 1 = idx := by rw [h2, List.length_append, hc]; simp
    simp only
    rw [this]
    refine hQ s' a' h1 ?_ h3 h4
    rw [h2, hc]; simp
  · intro hc
    refine wp_bind (wp_pure (wp_bind (wp_elem ?_ ?_)))
    · exact wp_insertSingle h hi hidx hsafe hQ hE
    · intro hw
      refine hE (Or.inl hw) s a ?_ (fun _ => rfl)
      rw [World.set_self hi]; exact h

/-- The loop of make_space_at_idx_for_n_elements that constructs elements behind the end. -/
theorem wp_shiftOut {b : Blk} {src dst cnt L : Nat} {c : Nat → Cell V} {Q : Unit → St V → Prop}
    (hb : s.mem b = some ⟨L, c⟩) (hdis : src + cnt ≤ dst) (hL : dst + cnt ≤ L)
    (hl : ∀ k, src ≤ k → k < src + cnt → Alive (c k)) (hr : ∀ k, dst ≤ k → k < dst + cnt → c k = .raw)
    (hsafe : w.at? ≠ none → t.nothrowMove = true)
    (hQ : ∀ c', (∀ k, k < cnt → c' (dst + k) = c (src + k)) →
      (∀ k, src ≤ k → k < src + cnt → Alive (c' k)) →
      (∀ k, (k < src ∨ src + cnt ≤ k) → (k < dst ∨ dst + cnt ≤ k) → c' k = c k) →
      Q () (s.setMem b (some ⟨L, c'⟩))) :
    wp (build (fun k => moveConstruct t (.at b (src + k)) b (dst + k)) 0 cnt) w s Q E T := by
  refine wp_build (total := cnt) (fun k s' => ∃ c', s' = s.setMem b (some ⟨L, c'⟩) ∧
      (∀ m, m < k → c' (dst + m) = c (src + m)) ∧ (∀ m, src ≤ m → m < src + cnt → Alive (c' m)) ∧
      (∀ m, (m < src ∨ src + k ≤ m) → (m < dst ∨ dst + k ≤ m) → c' m = c m)) ?_ ?_ cnt 0 s
    (by omega) ?_
  · rintro k s' hk ⟨c', rfl, h1, h2, h3⟩
    obtain ⟨v, hv⟩ := hl (src + k) (by omega) (by omega)
    refine wp_moveConstruct_same (setMem_mem _ _ _) (by omega)
      (by rw [h3 _ (by omega) (by omega)]; exact hv) (by omega)
      (by rw [h3 _ (by omega) (by omega)]; exact hr _ (by omega) (by omega)) ?_ ?_
    · refine ⟨_, setMem_setMem _ _ _ _, ?_, ?_, ?_⟩
      · intro m hm
        by_cases hmk : m = k
        · subst hmk; rw [upd_same, hv]
        · rw [upd_other (by omega), upd_other (by omega)]; exact h1 m (by omega)
      · intro m h4 h5
        rw [upd_other (by omega)]
        by_cases h6 : m = src + k
        · subst h6; rw [upd_same]; exact alive_live _
        · rw [upd_other h6]; exact h2 m h4 h5
      · intro m h4 h5
        rw [upd_other (by omega), upd_other (by omega)]; exact h3 m (by omega) (by omega)
    · intro h4 h5
      rw [hsafe h5] at h4; cases h4
  · rintro s' ⟨c', rfl, h1, h2, h3⟩
    exact hQ c' h1 h2 h3
  · exact ⟨c, (setMem_self hb).symm, fun m hm => absurd hm (by omega), hl, fun _ _ _ => rfl⟩

/-- A gap of `n` cells at index `idx`, of which the first min(size - idx, n) are alive. -/
theorem wp_makeSpace {n idx : Nat} {Q : Nat → St V → Prop} (h : Rel t s A) (hi : A i = some a)
    (hidx : idx ≤ a.xs.length) (hn : 0 < n) (hlim : a.xs.length + n < sizeLim)
    (hsafe : w.at? ≠ none → t.nothrowMove = true ∧ t.nothrowMoveAssign = true)
    (hQ : ∀ s' a' c', Rel t s' (A.set i (some a')) → a'.xs = a.xs →
      a'.cap = max a.cap (a.xs.length + n) → (a.xs.length + n ≤ a.cap → a' = a) →
      (∀ k, k < idx → c' k = cellsOf a.xs k) →
      (∀ k, idx ≤ k → k < idx + min (a.xs.length - idx) n → Alive (c' k)) →
      (∀ k, idx + min (a.xs.length - idx) n ≤ k → k < idx + n → c' k = .raw) →
      (∀ k, idx + n ≤ k → c' k = cellsOf a.xs (k - n)) →
      Q (min (a.xs.length - idx) n) (s'.setMem (a'.data i) (some ⟨a'.cap, c'⟩)))
    (hE : w.at? ≠ none → ∀ s' xs, Rel t s' (A.set i (some { a with xs := xs })) →
      xs.length = a.xs.length → (Strong t → xs = a.xs) → E s') :
    wp (makeSpace t i idx n) w s Q E T := by
  refine wp_bind (wp_getVec (h.vec hi) ?_)
  simp only [Nat.mod_eq_of_lt hlim]
  have main : ∀ s' a', Rel t s' (A.set i (some a')) → a'.xs = a.xs →
      a'.cap = max a.cap (a.xs.length + n) → (a.xs.length + n ≤ a.cap → a' = a) →
      wp (do
        let v ← getVec i
        let numShifted := v.size - idx
        let numMoveInit := min numShifted n
        let numMoved := numShifted - numMoveInit
        let fromIdx := v.size - numMoveInit
        let toIdx := fromIdx + n
        build (fun k => moveConstruct t (.at v.data (fromIdx + k)) v.data (toIdx + k)) 0 numMoveInit
        moveBackward t v.data idx (toIdx - numMoved) numMoved
        pure numMoveInit) w s' Q E T := by
    intro s' a' h1 h2 h3 h4
    have hi' := World.set_same A i (some a')
    refine wp_bind (wp_getVec (h1.vec hi') ?_)
    simp only
    have hlen : a'.xs.length = a.xs.length := by rw [h2]
    generalize hm : min (a'.xs.length - idx) n = m
    rw [hlen] at hm
    rw [hm] at hQ
    refine wp_bind (wp_shiftOut (h1.mem hi') (by omega) (by omega)
      (fun k h5 h6 => cellsOf_alive (by omega)) (fun k h5 h6 => cellsOf_ge (by omega))
      (fun hw => (hsafe hw).1) ?_)
    intro c1 g1 g2 g3
    refine wp_bind ?_
    by_cases hz : a'.xs.length - idx - m = 0
    · -- nothing left to move
      rw [hz]
      refine wp_pure (wp_pure (hQ s' a' c1 h1 h2 h3 h4 ?_ ?_ ?_ ?_))
      · intro k hk; rw [g3 k (by omega) (by omega), h2]
      · intro k h5 h6
        by_cases h7 : k < a'.xs.length - m
        · rw [g3 k (by omega) (by omega)]; exact cellsOf_alive (by omega)
        · exact g2 k (by omega) (by omega)
      · intro k h5 h6
        rw [g3 k (by omega) (by omega)]; exact cellsOf_ge (by omega)
      · intro k h5
        by_cases h6 : k < a'.xs.length + n
        · have h7 := g1 (k - (a'.xs.length - m + n)) (by omega)
          rw [show a'.xs.length - m + n + (k - (a'.xs.length - m + n)) = k by omega,
            show a'.xs.length - m + (k - (a'.xs.length - m + n)) = k - n by omega] at h7
          rw [h7, h2]
        · rw [g3 k (by omega) (by omega), cellsOf_ge (by omega), cellsOf_ge (by omega)]
    · have hmn : m = n := by omega
      subst hmn
      refine wp_moveBackward (by omega) _ (setMem_mem _ _ _) (by omega) ?_ ?_ ?_
      · intro k h5 h6
        by_cases h7 : k < a'.xs.length - m
        · rw [g3 k (by omega) (by omega)]; exact cellsOf_alive (by omega)
        · exact g2 k (by omega) (by omega)
      · intro c' e1 e2 e3
        rw [setMem_setMem]
        refine wp_pure (hQ s' a' c' h1 h2 h3 h4 ?_ ?_ ?_ ?_)
        · intro k hk; rw [e2 k (by omega), g3 k (by omega) (by omega), h2]
        · intro k h5 h6; exact e3 k h5 (by omega)
        · intro k h5 h6; omega
        · intro k h5
          by_cases h6 : k < a'.xs.length
          · have h7 := e1 (k - (a'.xs.length - m + m - (a'.xs.length - idx - m))) (by omega)
            rw [show a'.xs.length - m + m - (a'.xs.length - idx - m) +
              (k - (a'.xs.length - m + m - (a'.xs.length - idx - m))) = k by omega,
              show idx + (k - (a'.xs.length - m + m - (a'.xs.length - idx - m))) = k - m by omega] at h7
            rw [h7, g3 _ (by omega) (by omega), h2]
          · rw [e2 k (by omega)]
            by_cases h8 : k < a'.xs.length + m
            · have h7 := g1 (k - (a'.xs.length - m + m)) (by omega)
              rw [show a'.xs.length - m + m + (k - (a'.xs.length - m + m)) = k by omega,
                show a'.xs.length - m + (k - (a'.xs.length - m + m)) = k - m by omega] at h7
              rw [h7, h2]
            · rw [g3 k (by omega) (by omega), cellsOf_ge (by omega), cellsOf_ge (by omega)]
      · intro h5 h6
        rw [(hsafe h6).2] at h5; cases h5
  refine wp_bind (wp_ite ?_ ?_)
  · intro hc
    exact wp_reserve h hi hlim main hE
  · intro hc
    refine wp_pure (main s a ?_ rfl (by omega) (fun _ => rfl))
    rw [World.set_self hi]; exact h

theorem wp_fillN {b : Blk} {L : Nat} {v : V} (hsafe : w.at? ≠ none → t.nothrowCopyAssign = true)
    (cnt : Nat) : ∀ {s : St V} {i : Nat}
    {c : Nat → Cell V} {Q : Unit → St V → Prop}, s.mem b = some ⟨L, c⟩ → i + cnt ≤ L →
    (∀ k, i ≤ k → k < i + cnt → Alive (c k)) →
    Q () (s.setMem b (some ⟨L, fill c i cnt (fun _ => v)⟩)) →
    wp (fillN t b (.val v) i cnt) w s Q E T := by
  induction cnt with
  | zero =>
      intro s i c Q hb hL hl hQ
      refine wp_pure ?_
      rwa [fill_zero, setMem_self hb] at hQ
  | succ cnt ih =>
      intro s i c Q hb hL hl hQ
      refine wp_bind (wp_copyAssignElem_val hb (by omega) (hl i (by omega) (by omega)) ?_
        (fun h1 h2 => by rw [hsafe h2] at h1; cases h1))
      refine ih (setMem_mem _ _ _) (by omega) (fun k h1 h2 => ?_) ?_
      · rw [upd_other (by omega)]; exact hl k (by omega) (by omega)
      · rw [setMem_setMem]
        have : fill (upd c i (.live v)) (i + 1) cnt (fun _ => v) = fill c i (cnt + 1) (fun _ => v) := by
          funext k
          simp only [fill, upd]
          by_cases h1 : k = i
          · rw [if_neg (by omega), if_pos h1, if_pos (by omega)]
          · by_cases h2 : i + 1 ≤ k ∧ k < i + 1 + cnt
            · rw [if_pos h2, if_pos (by omega)]
            · rw [if_neg h2, if_neg h1, if_neg (by omega)]
        rw [this]; exact hQ

theorem wp_copyN {b : Blk} {L : Nat} (hsafe : w.at? ≠ none → t.nothrowCopyAssign = true)
    (cnt : Nat) : ∀ {s : St V} {i : Nat} {xs : List V}
    {c : Nat → Cell V} {Q : Unit → St V → Prop}, s.mem b = some ⟨L, c⟩ → i + cnt ≤ L →
    (∀ k, i ≤ k → k < i + cnt → Alive (c k)) → cnt ≤ xs.length →
    Q () (s.setMem b (some ⟨L, fill c i cnt (vals t xs)⟩)) →
    wp (copyN t b xs i cnt) w s Q E T := by
  induction cnt with
  | zero =>
      intro s i xs c Q hb hL hl _ hQ
      rw [fill_zero, setMem_self hb] at hQ
      cases xs <;> exact wp_pure hQ
  | succ cnt ih =>
      intro s i xs c Q hb hL hl hx hQ
      cases xs with
      | nil => simp at hx
      | cons x xs =>
          refine wp_bind (wp_copyAssignElem_val hb (by omega) (hl i (by omega) (by omega)) ?_
            (fun h1 h2 => by rw [hsafe h2] at h1; cases h1))
          refine ih (setMem_mem _ _ _) (by omega) (fun k h1 h2 => ?_) (by simpa using hx) ?_
          · rw [upd_other (by omega)]; exact hl k (by omega) (by omega)
          · rw [setMem_setMem]
            have : fill (upd c i (.live x)) (i + 1) cnt (vals t xs) =
                fill c i (cnt + 1) (vals t (x :: xs)) := by
              funext k
              simp only [fill, upd]
              by_cases h1 : k = i
              · rw [if_neg (by omega), if_pos h1, if_pos (by omega), h1, Nat.sub_self]; rfl
              · by_cases h2 : i + 1 ≤ k ∧ k < i + 1 + cnt
                · rw [if_pos h2, if_pos (by omega), show k - i = (k - (i + 1)) + 1 by omega]
                  simp [vals]
                · rw [if_neg h2, if_neg h1, if_neg (by omega)]
            rw [this]; exact hQ

/-- No element operation used by insert(pos, n, value) except copying into new memory can throw. -/
def ShiftSafe (t : Traits V) : Prop :=
  t.nothrowMove = true ∧ t.nothrowMoveAssign = true ∧ t.nothrowCopyAssign = true ∧ t.nothrowCopy = true

theorem wp_insertN {v : V} {idx n : Nat} {Q : Nat → St V → Prop} (h : Rel t s A)
    (hi : A i = some a) (hidx : idx ≤ a.xs.length) (hlim : a.xs.length + n < sizeLim)
    (hsafe : w.at? ≠ none → ShiftSafe t)
    (hQ : ∀ s' a', Rel t s' (A.set i (some a')) →
      a'.xs = a.xs.take idx ++ List.replicate n v ++ a.xs.drop idx →
      a'.cap = max a.cap (a.xs.length + n) → (a.xs.length + n ≤ a.cap → a'.loc = a.loc) → Q idx s')
    (hE : w.at? ≠ none → ∀ s' xs, Rel t s' (A.set i (some { a with xs := xs })) →
      xs.length = a.xs.length → (Strong t → xs = a.xs) → E s') :
    wp (insertN t i idx n (.val v)) w s Q E T := by
  have hlen0 := h.len hi
  refine wp_ite ?_ ?_
  · intro hc
    have hn : n = 0 := by omega
    subst hn
    refine wp_pure (hQ s a ?_ (by simp) (by omega) (fun _ => rfl))
    rw [World.set_self hi]; exact h
  · intro hc
    refine wp_bind (wp_makeSpace h hi hidx (by omega) hlim
      (fun hw => ⟨(hsafe hw).1, (hsafe hw).2.1⟩) ?_ hE)
    intro s' a' c' h1 h2 h3 h4 g1 g2 g3 g4
    have hi' := World.set_same A i (some a')
    refine wp_bind (wp_getVec (by rw [setMem_vec]; exact h1.vec hi') (wp_bind ?_))
    simp only
    have hlen : a'.xs.length = a.xs.length := by rw [h2]
    generalize hm : min (a.xs.length - idx) n = m at *
    refine wp_fillN (fun hw => (hsafe hw).2.2.1) _ (setMem_mem _ _ _) (by omega) g2 ?_
    rw [setMem_setMem]
    refine wp_bind (wp_copyValueInto (setMem_mem _ _ _) (by omega) ?_ ?_
      (fun h5 h6 => by rw [(hsafe h6).2.2.2] at h5; cases h5))
    · intro k h5 h6
      rw [fill_other (by omega)]; exact g3 k (by omega) (by omega)
    · rw [setMem_setMem]
      refine wp_bind (wp_setVec (wp_pure ?_))
      have hcell : fill (fill c' idx m fun _ => v) a'.xs.length (n - m) (fun _ => v) =
          cellsOf (a'.xs.take idx ++ List.replicate n v ++ a'.xs.drop idx) := by
        refine splice_cells (by omega) ?_ ?_ ?_
        · intro k hk
          rw [fill_other (by omega), fill_other (by omega), g1 k hk, h2]
        · intro k hk
          rw [List.length_replicate] at hk
          rw [List.getElem_replicate]
          by_cases h5 : k < m
          · by_cases h6 : idx + k < a'.xs.length
            · rw [fill_other (by omega), fill_in (by omega) (by omega)]
            · rw [fill_in (by omega) (by omega)]
          · rw [fill_in (by omega) (by omega)]
        · intro k hk
          rw [List.length_replicate] at hk ⊢
          rw [fill_other (by omega), fill_other (by omega), g4 k hk, h2]
      have hr := h1.inplace hi' (a'.xs.take idx ++ List.replicate n v ++ a'.xs.drop idx)
        (by rw [splice_length, List.length_replicate]; omega)
      rw [World.set_set, splice_length, List.length_replicate] at hr
      rw [hcell, Nat.mod_eq_of_lt (by omega)]
      exact hQ _ _ hr (by simp only; rw [h2]) h3 (fun h => by rw [← h4 h])

theorem wp_insertRange {ys : List V} {idx : Nat} {Q : Nat → St V → Prop} (h : Rel t s A)
    (hi : A i = some a) (hidx : idx ≤ a.xs.length) (hlim : a.xs.length + ys.length < sizeLim)
    (hsafe : w.at? ≠ none → ShiftSafe t)
    (hQ : ∀ s' a', Rel t s' (A.set i (some a')) →
      a'.xs = a.xs.take idx ++ ys ++ a.xs.drop idx →
      a'.cap = max a.cap (a.xs.length + ys.length) → (a.xs.length + ys.length ≤ a.cap → a'.loc = a.loc) →
      Q idx s')
    (hE : w.at? ≠ none → ∀ s' xs, Rel t s' (A.set i (some { a with xs := xs })) →
      xs.length = a.xs.length → (Strong t → xs = a.xs) → E s') :
    wp (insertRange t i idx ys) w s Q E T := by
  have hlen0 := h.len hi
  have hmod : ys.length % sizeLim = ys.length := Nat.mod_eq_of_lt (by omega)
  unfold insertRange
  simp only [hmod]
  refine wp_ite ?_ ?_
  · intro hc
    have hn : ys = [] := List.length_eq_zero_iff.1 (by omega)
    subst hn
    refine wp_pure (hQ s a ?_ (by simp) (by simp; omega) (fun _ => rfl))
    rw [World.set_self hi]; exact h
  · intro hc
    refine wp_bind (wp_makeSpace h hi hidx (by omega) hlim
      (fun hw => ⟨(hsafe hw).1, (hsafe hw).2.1⟩) ?_ hE)
    intro s' a' c' h1 h2 h3 h4 g1 g2 g3 g4
    have hi' := World.set_same A i (some a')
    refine wp_bind (wp_getVec (by rw [setMem_vec]; exact h1.vec hi') (wp_bind ?_))
    simp only
    have hlen : a'.xs.length = a.xs.length := by rw [h2]
    generalize hm : min (a.xs.length - idx) ys.length = m at *
    refine wp_copyN (fun hw => (hsafe hw).2.2.1) _ (setMem_mem _ _ _) (by omega) g2 (by omega) ?_
    rw [setMem_setMem]
    refine wp_bind ?_
    have key : ∀ (u : Nat → V), (∀ k (h : k < (ys.drop m).length), u k = (ys.drop m)[k]) →
        wp (do
          setVec i ⟨a'.data i, a'.cap, (a'.xs.length + ys.length) % sizeLim⟩
          pure idx) w (s'.setMem (a'.data i) (some ⟨a'.cap,
            fill (fill c' idx m (vals t ys)) a'.xs.length (ys.drop m).length u⟩)) Q E T := by
      intro u hu
      refine wp_bind (wp_setVec (wp_pure ?_))
      have hcell : fill (fill c' idx m (vals t ys)) a'.xs.length (ys.drop m).length u =
          cellsOf (a'.xs.take idx ++ ys ++ a'.xs.drop idx) := by
        have hdl : (ys.drop m).length = ys.length - m := List.length_drop
        refine splice_cells (by omega) ?_ ?_ ?_
        · intro k hk
          rw [fill_other (by omega), fill_other (by omega), g1 k hk, h2]
        · intro k hk
          by_cases h5 : k < m
          · rw [fill_other (by omega), fill_in (by omega) (by omega), vals_lt (by omega)]
            congr 2; omega
          · rw [fill_in (by omega) (by omega), hu _ (by omega), List.getElem_drop]
            congr 2; omega
        · intro k hk
          rw [fill_other (by omega), fill_other (by omega), g4 k hk, h2]
      have hr := h1.inplace hi' (a'.xs.take idx ++ ys ++ a'.xs.drop idx)
        (by rw [splice_length]; omega)
      rw [World.set_set, splice_length] at hr
      rw [hcell, Nat.mod_eq_of_lt (by omega)]
      exact hQ _ _ hr (by simp only; rw [h2]) h3 (fun h => by rw [← h4 h])
    refine wp_copyRangeInto (setMem_mem _ _ _) (by rw [List.length_drop]; omega) ?_ ?_
      (fun h5 h6 => by rw [(hsafe h6).2.2.2] at h5; cases h5)
    · intro k h5 h6
      rw [List.length_drop] at h6
      rw [fill_other (by omega)]; exact g3 k (by omega) (by omega)
    · intro u hu
      rw [setMem_setMem]
      exact key u hu

/-- Cells after erasing [first, last). -/
theorem erase_cells {c : Nat → Cell V} {xs : List V} {first last : Nat} (hfl : first ≤ last)
    (hl : last ≤ xs.length) (h1 : ∀ k, k < first → c k = cellsOf xs k)
    (h2 : ∀ k, k < xs.length - last → c (first + k) = cellsOf xs (last + k))
    (h3 : ∀ k, xs.length - (last - first) ≤ k → c k = .raw) :
    c = cellsOf (xs.take first ++ xs.drop last) := by
  have hlen : (xs.take first ++ xs.drop last).length = xs.length - (last - first) := by
    simp only [List.length_append, List.length_take, List.length_drop]; omega
  refine eq_cellsOf ?_ ?_
  · intro k hk
    rw [hlen] at hk
    by_cases h4 : k < first
    · rw [h1 k h4, cellsOf_lt (by omega), List.getElem_append_left (by rw [List.length_take]; omega),
        List.getElem_take]
    · have := h2 (k - first) (by omega)
      rw [show first + (k - first) = k by omega] at this
      rw [this, cellsOf_lt (by omega), List.getElem_append_right (by rw [List.length_take]; omega),
        List.getElem_drop]
      congr 2
      rw [List.length_take]; omega
  · intro k hk
    rw [hlen] at hk
    exact h3 k hk

theorem wp_erase {first last : Nat} {Q : Nat → St V → Prop} (h : Rel t s A) (hi : A i = some a)
    (hl : last ≤ a.xs.length) (hfl : first < last ∨ first = last ∧ last = a.xs.length)
    (hQ : ∀ s', Rel t s' (A.set i (some { a with xs := a.xs.take first ++ a.xs.drop last })) →
      Q first s')
    (hE : w.at? ≠ none → ∀ s' xs, Rel t s' (A.set i (some { a with xs := xs })) →
      xs.length = a.xs.length → E s') :
    wp (erase t i first last) w s Q E T := by
  have hlen := h.len hi
  refine wp_bind (wp_getVec (h.vec hi) (wp_bind ?_))
  simp only
  refine wp_moveForward _ (by omega) (h.mem hi) (by omega) (fun k h1 h2 => cellsOf_alive (by omega)) ?_ ?_
  · intro c' h1 h2 h3
    refine wp_bind (wp_destroyRange _ (setMem_mem _ _ _) (by omega) ?_ ?_)
    · intro k h4 h5
      exact h3 k (by omega) (by omega)
    · rw [setMem_setMem]
      refine wp_bind (wp_setVec (wp_pure ?_))
      have hcell : wipe c' (a.xs.length - (last - first)) (last - first) =
          cellsOf (a.xs.take first ++ a.xs.drop last) := by
        refine erase_cells (by omega) hl ?_ ?_ ?_
        · intro k hk
          simp only [wipe]
          rw [if_neg (by omega), h2 k (by omega)]
        · intro k hk
          simp only [wipe]
          rw [if_neg (by omega), h1 k hk]
        · intro k hk
          simp only [wipe]
          by_cases h4 : k < a.xs.length
          · rw [if_pos (by omega)]
          · rw [if_neg (by omega), h2 k (by omega), cellsOf_ge (by omega)]
      rw [hcell]
      have hl2 : (a.xs.take first ++ a.xs.drop last).length = a.xs.length - (last - first) := by
        simp only [List.length_append, List.length_take, List.length_drop]; omega
      have hr := h.inplace hi (a.xs.take first ++ a.xs.drop last) (by omega)
      rw [hl2] at hr
      exact hQ _ hr
  · intro _ hw c' h1 h2
    obtain ⟨xs, hxl, hxc⟩ := exists_cellsOf a.xs.length c'
      (fun k hk => by
        by_cases h3 : k < first
        · rw [h1 k (by omega)]; exact cellsOf_alive hk
        · exact h2 k (by omega) (by omega))
      (fun k hk => by rw [h1 k (by omega), cellsOf_ge hk])
    rw [hxc]
    exact hE hw _ xs (h.values hi xs hxl) hxl

end Gul14.SmallVector
