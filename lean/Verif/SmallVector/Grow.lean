import Verif.SmallVector.Rel

/-! Reallocation and the functions that work at the end of the vector. -/
namespace Gul14.SmallVector
open LM hiding pure bind
variable {V : Type} {w : Fail V} {s : St V} {E : St V → Prop} {T : Prop} {t : Traits V}
variable {A : World V} {i j : Nat} {a b : AV V}

/-- The elements as a function of the index. -/
def vals (t : Traits V) (xs : List V) : Nat → V := fun k => (xs[k]?).getD t.dflt

theorem vals_lt {xs : List V} {k : Nat} (h : k < xs.length) : vals t xs k = xs[k] := by
  simp [vals, List.getElem?_eq_getElem h]

theorem cellsOf_vals {xs : List V} {k : Nat} (h : k < xs.length) : cellsOf xs k = .live (vals t xs k) := by
  rw [cellsOf_lt h, vals_lt h]

/-- Appending elements. -/
theorem fill_append (xs ys : List V) {n : Nat} {v : Nat → V} (hn : n = ys.length)
    (hv : ∀ k (h : k < ys.length), v k = ys[k]) :
    fill (cellsOf xs) xs.length n v = cellsOf (xs ++ ys) := by
  subst hn
  refine eq_cellsOf ?_ ?_
  · intro k h
    rw [List.length_append] at h
    by_cases hk : k < xs.length
    · rw [fill_other (Or.inl hk), cellsOf_lt hk, List.getElem_append_left hk]
    · rw [fill_in (by omega) (by omega), hv _ (by omega), List.getElem_append_right (by omega)]
  · intro k h
    rw [List.length_append] at h
    rw [fill_other (by omega), cellsOf_ge (by omega)]

theorem fill_raw (xs : List V) {n : Nat} {v : Nat → V} (hn : n = xs.length)
    (hv : ∀ k (h : k < xs.length), v k = xs[k]) : fill (fun _ => .raw) 0 n v = cellsOf xs := by
  have := fill_append ([] : List V) xs hn hv
  rwa [cellsOf_nil] at this

/-- Removing elements at the end. -/
theorem wipe_take (xs : List V) {n m : Nat} (h : n + m = xs.length) :
    wipe (cellsOf xs) n m = cellsOf (xs.take n) := by
  refine eq_cellsOf ?_ ?_
  · intro k hk
    rw [List.length_take] at hk
    simp only [wipe]
    rw [if_neg (by omega), cellsOf_lt (by omega), List.getElem_take]
  · intro k hk
    rw [List.length_take] at hk
    simp only [wipe]
    split
    · rfl
    · rw [cellsOf_ge (by omega)]

/-- All elements destroyed. -/
theorem wipe_all {c : Nat → Cell V} {n : Nat} (h : ∀ k, n ≤ k → c k = .raw) :
    wipe c 0 n = fun _ => .raw := by
  funext k
  simp only [wipe]
  split
  · rfl
  · exact h k (by omega)

/-- Elements are copied unless their move constructor is noexcept or they cannot be copied. -/
def Strong (t : Traits V) : Prop := t.nothrowMove = true ∨ t.copyable = true

theorem wp_clear {Q : Unit → St V → Prop} (h : Rel t s A) (hi : A i = some a)
    (hQ : ∀ s', Rel t s' (A.set i (some { a with xs := [] })) → s'.nxt = s.nxt → Q () s') :
    wp (clear i) w s Q E T := by
  refine wp_bind (wp_getVec (h.vec hi) (wp_bind ?_))
  refine wp_destroyRange _ (h.mem hi) (by rw [Nat.zero_add]; exact h.len hi)
    (fun k _ hk => cellsOf_alive (by simp only at hk; omega)) (wp_setVec (hQ _ ?_ rfl))
  simp only
  rw [wipe_take a.xs (by omega)]
  exact h.inplace hi [] (by simp)

/-- The elements move to a larger heap block. -/
theorem wp_reserve {n : Nat} {Q : Unit → St V → Prop} (h : Rel t s A) (hi : A i = some a)
    (hn : n < sizeLim)
    (hQ : ∀ s' a', Rel t s' (A.set i (some a')) → a'.xs = a.xs → a'.cap = max a.cap n →
      (n ≤ a.cap → a' = a) → Q () s')
    (hE : w.at? ≠ none → ∀ s' xs, Rel t s' (A.set i (some { a with xs := xs })) →
      xs.length = a.xs.length → (Strong t → xs = a.xs) → E s') :
    wp (reserve t i n) w s Q E T := by
  refine wp_bind (wp_getVec (h.vec hi) ?_)
  refine wp_ite ?_ ?_
  · intro hc
    simp only at hc
    refine wp_pure (hQ s a ?_ rfl (by omega) (fun _ => rfl))
    rw [World.set_self hi]; exact h
  · intro hc
    simp only at hc ⊢
    have hlen := h.len hi
    refine wp_bind (wp_alloc ?_ (fun hw => hE hw s a.xs (by rw [World.set_self hi]; exact h) rfl
      (fun _ => rfl)))
    have hne : a.data i ≠ .heap s.nxt := h.data_fresh hi
    refine wp_bind (wp_onThrow ?_)
    refine wp_uninitMoveOrCopy (L := a.cap) (M := n) (c := cellsOf a.xs) (d := fun _ => .raw)
      (v := vals t a.xs) hne ?_ (by omega) ?_ ?_ (by omega) (fun _ _ _ => rfl) ?_ ?_
    · show (s.setMem _ _).mem _ = _
      rw [setMem_mem_other hne, h.mem hi]
    · intro k hk; rw [Nat.zero_add]; exact cellsOf_vals hk
    · show (s.setMem _ _).mem _ = _
      simp
    · intro c' h1 h2
      have hraw : ∀ k, a.xs.length ≤ k → c' k = .raw := fun k hk => by
        rw [h2 k (by omega), cellsOf_ge hk]
      refine wp_bind (wp_destroyRange (L := a.cap) (c := c') _ ?_ (by omega) (fun k h3 h4 => h1 k h3 h4) ?_)
      · rw [setMem_mem_other hne]; simp
      rw [wipe_all hraw, fill_raw a.xs rfl (fun k hk => vals_lt hk)]
      -- the final state, with the old block raw or freed
      have key : ∀ x : Option (Block V),
          (a.loc = none → x = some ⟨a.cap, fun _ => .raw⟩) → (a.loc ≠ none → x = none) →
          ∀ s', s'.mem = (fun k => if k = .heap s.nxt then some ⟨n, cellsOf a.xs⟩ else
            if k = a.data i then x else s.mem k) → s'.nxt = s.nxt + 1 →
          s'.vec = upd s.vec i (some ⟨.heap s.nxt, n, a.xs.length⟩) →
          Rel t s' (A.set i (some ⟨a.xs, some s.nxt, n⟩)) := by
        intro x hx1 hx2 s' hm hnx hv
        refine h.update (a' := ⟨a.xs, some s.nxt, n⟩) hi ?_ ?_ ?_ ?_ (Or.inr (by simp)) (by omega)
          (by simp; omega) ⟨by simp only; omega, hn, by simp, fun _ => by
            have := h.inCap_le hi; simp only; omega⟩
        · intro j; rw [hv]; rfl
        · rw [hm]
          simp only [reduceCtorEq, if_false]
          by_cases hl : a.loc = none
          · rw [hx1 hl]
            simp only [AV.data, hl, if_true]
            rw [(h.wf i a hi).2.2.1 hl]
          · have : Blk.inner i ≠ a.data i := by
              unfold AV.data
              cases hl' : a.loc with
              | none => exact absurd hl' hl
              | some k => simp
            rw [if_neg this, h.inner, hi]
            simp [hl]
        · intro j hj
          rw [hm]
          have : Blk.inner j ≠ a.data i := by
            unfold AV.data
            cases hl' : a.loc with
            | none => simp [hj]
            | some k => simp
          simp [this]
        · intro k
          rw [hm]
          by_cases hk : k = s.nxt
          · subst hk; simp
          · have hk' : s.nxt ≠ k := fun h => hk h.symm
            simp only [Blk.heap.injEq, hk, Option.some.injEq, hk', if_false]
            unfold AV.data
            cases hl : a.loc with
            | none => simp
            | some m =>
                simp only [Blk.heap.injEq, Option.some.injEq]
                by_cases hmk : k = m
                · subst hmk; simp [hx2 (by rw [hl]; simp)]
                · have : m ≠ k := fun h => hmk h.symm
                  simp [hmk, this]
      refine wp_bind (wp_ite ?_ ?_)
      · intro hal
        have hl : a.loc ≠ none := (allocated_iff a i _).1 hal
        have hd : ∃ k, a.data i = .heap k := by
          unfold AV.data
          cases hl' : a.loc with
          | none => exact absurd hl' hl
          | some k => exact ⟨k, rfl⟩
        obtain ⟨k, hd⟩ := hd
        simp only [hd] at hne ⊢
        refine wp_free (L := a.cap) (c := fun _ => .raw) (setMem_mem _ _ _) (fun _ _ => rfl) ?_
        refine wp_setVec (hQ _ ⟨a.xs, some s.nxt, n⟩ ?_ rfl (by simp only; omega) (by omega))
        refine key none (fun h => absurd h hl) (fun _ => rfl) _ ?_ rfl rfl
        rw [hd]
        funext q
        simp only [St.setMem, St.setVec]
        by_cases h3 : q = .heap s.nxt
        · subst h3; simp [hne.symm]
        · by_cases h4 : q = .heap k <;> simp_all
      · intro hal
        have hl : a.loc = none := by
          have := mt (allocated_iff a i a.xs.length).2 hal
          simpa using this
        refine wp_pure (wp_setVec (hQ _ ⟨a.xs, some s.nxt, n⟩ ?_ rfl (by simp only; omega) (by omega)))
        refine key (some ⟨a.cap, fun _ => .raw⟩) (fun _ => rfl) (fun h => absurd hl h) _ ?_ rfl rfl
        funext q
        simp only [St.setMem, St.setVec]
        by_cases h3 : q = .heap s.nxt
        · subst h3; simp [hne.symm]
        · by_cases h4 : q = a.data i <;> simp [h3, h4, hne]
    · intro hw hm c' h1 h2 h3
      refine wp_free (L := n) (c := fun _ => .raw) ?_ (fun _ _ => rfl) ?_
      · rw [setMem_mem_other hne.symm]; simp [St.setMem]
      obtain ⟨xs, hxl, hxc⟩ := exists_cellsOf a.xs.length c' (fun k hk => h1 k (by omega) (by omega))
        (fun k hk => by rw [h2 k (by omega), cellsOf_ge hk])
      refine hE hw _ xs ?_ hxl ?_
      · have hr := h.values hi xs hxl
        -- the same state except for the counter
        have hst : ∀ s' : St V, s'.mem = (s.setMem (a.data i) (some ⟨a.cap, cellsOf xs⟩)).mem →
            s'.vec = s.vec → s'.nxt = s.nxt + 1 →
            Rel t s' (A.set i (some { a with xs := xs })) := by
          intro s' hm' hv' hn'
          refine ⟨?_, ?_, ?_, ?_, hr.uniq, ?_, hr.wf⟩
          · intro q; rw [hv']; exact hr.vecs q
          · intro q; rw [hm']; exact hr.inner q
          · intro q; rw [hm']; exact hr.heap q
          · intro q; rw [hm']; exact hr.owned q
          · intro q hq; rw [hm']; exact hr.fresh q (by simp only [setMem_nxt]; omega)
        refine hst _ ?_ rfl rfl
        rw [hxc]
        funext q
        simp only [St.setMem]
        by_cases h5 : q = .heap s.nxt
        · subst h5; simp [hne.symm, h.fresh s.nxt (Nat.le_refl _)]
        · by_cases h4 : q = a.data i <;> simp [h5, h4, hne]
      · intro hs
        rcases hs with hs | hs
        · rw [hm] at hs; cases hs
        · exact cellsOf_inj (by rw [← hxc, h3 hs])

/-- The capacity after growing. -/
def growCap (cap : Nat) : Nat := min (sizeLim - 1) (cap + max 1 (cap / 2))

theorem wp_grow {Q : Unit → St V → Prop} (h : Rel t s A) (hi : A i = some a)
    (hQ : ∀ s' a', a.cap < sizeLim - 1 → Rel t s' (A.set i (some a')) → a'.xs = a.xs →
      a'.cap = growCap a.cap → Q () s')
    (hE : w.at? ≠ none ∨ a.cap = sizeLim - 1 → ∀ s' xs, Rel t s' (A.set i (some { a with xs := xs })) →
      xs.length = a.xs.length → (Strong t → xs = a.xs) → E s') :
    wp (grow t i) w s Q E T := by
  have hlim := h.lim hi
  refine wp_bind (wp_getVec (h.vec hi) ?_)
  refine wp_ite ?_ ?_
  · intro hc
    refine wp_raise (hE (Or.inr (by simp only at hc; omega)) s a.xs ?_ rfl (fun _ => rfl))
    rw [World.set_self hi]; exact h
  · intro hc
    simp only at hc ⊢
    have key : ∀ m, m = growCap a.cap → wp (reserve t i m) w s Q E T := by
      intro m hm
      refine wp_reserve h hi ?_ ?_ (fun hw => hE (Or.inl hw))
      · rw [hm, growCap]; have : 0 < sizeLim := by decide
        omega
      · intro s' a' h1 h2 h3 _
        refine hQ s' a' (by omega) h1 h2 ?_
        rw [h3, hm, growCap]; omega
    refine key _ ?_
    unfold growCap
    split
    · omega
    · split <;> omega

/-- At least one free cell. -/
theorem wp_growIfFull {Q : Unit → St V → Prop} (h : Rel t s A) (hi : A i = some a)
    (hQ : ∀ s' a', Rel t s' (A.set i (some a')) → a'.xs = a.xs →
      a'.cap = (if a.xs.length < a.cap then a.cap else growCap a.cap) → a'.xs.length < a'.cap →
      (a.xs.length < a.cap → a' = a) → Q () s')
    (hE : w.at? ≠ none ∨ a.xs.length = sizeLim - 1 → ∀ s' xs,
      Rel t s' (A.set i (some { a with xs := xs })) →
      xs.length = a.xs.length → (Strong t → xs = a.xs) → E s') :
    wp (if a.xs.length = a.cap then grow t i else pure ()) w s Q E T := by
  have hlen := h.len hi
  refine wp_ite ?_ ?_
  · intro hc
    refine wp_grow h hi ?_ ?_
    · intro s' a' h1 h2 h3 h4
      refine hQ s' a' h2 h3 (by rw [h4, if_neg (by omega)]) ?_ (by omega)
      rw [h3, h4, growCap]; omega
    · intro h1
      exact hE (h1.imp id (fun h1 => by omega))
  · intro hc
    refine wp_pure (hQ s a ?_ rfl ?_ (by omega) (fun _ => rfl))
    · rw [World.set_self hi]; exact h
    · rw [if_pos (by omega)]

theorem upd_append (xs : List V) (v : V) :
    upd (cellsOf xs) xs.length (.live v) = cellsOf (xs ++ [v]) := by
  have := upd_fill (cellsOf xs) xs.length 0 (fun _ => v)
  rw [fill_zero, Nat.add_zero] at this
  rw [this]
  exact fill_append xs [v] rfl (by intro k hk; simp)

theorem wp_pushBack {rv : Bool} {v : V} {Q : Unit → St V → Prop} (h : Rel t s A) (hi : A i = some a)
    (hQ : ∀ s' a', Rel t s' (A.set i (some a')) → a'.xs = a.xs ++ [v] →
      a'.cap = (if a.xs.length < a.cap then a.cap else growCap a.cap) →
      (a.xs.length < a.cap → a'.loc = a.loc) → Q () s')
    (hE : w.at? ≠ none ∨ a.xs.length = sizeLim - 1 → ∀ s' a', Rel t s' (A.set i (some a')) →
      a'.xs.length = a.xs.length → (Strong t → a'.xs = a.xs) → E s') :
    wp (pushBack t rv i (.val v)) w s Q E T := by
  refine wp_bind (wp_getVec (h.vec hi) (wp_bind ?_))
  refine wp_growIfFull h hi ?_ (fun h1 s' xs h2 h3 h4 => hE h1 s' _ h2 h3 h4)
  intro s' a' h1 h2 h3 h4 h5
  have hi' := World.set_same A i (some a')
  refine wp_bind (wp_getVec (h1.vec hi') (wp_bind ?_))
  have fin : wp (setVec i ⟨a'.data i, a'.cap, a'.xs.length + 1⟩) w
      (s'.setMem (a'.data i) (some ⟨a'.cap, upd (cellsOf a'.xs) a'.xs.length (.live v)⟩)) Q E T := by
    refine wp_setVec (hQ _ { a' with xs := a'.xs ++ [v] } ?_ (by rw [h2]) h3 (fun h => by rw [← h5 h]))
    have hr := h1.inplace hi' (a'.xs ++ [v]) (by rw [List.length_append]; simp only [List.length_singleton]; omega)
    rw [World.set_set] at hr
    rw [upd_append]
    simpa using hr
  have bad : w.at? ≠ none → E s' := fun hw =>
    hE (Or.inl hw) s' a' h1 (by rw [h2]) (fun _ => h2)
  refine wp_ite ?_ ?_
  · intro _
    exact wp_moveConstruct_val (h1.mem hi') (by simp only; omega) (cellsOf_ge (by simp)) fin (fun _ => bad)
  · intro _
    exact wp_copyConstruct_val (h1.mem hi') (by simp only; omega) (cellsOf_ge (by simp)) fin (fun _ => bad)

theorem wp_emplaceBack {v : V} {Q : Unit → St V → Prop} (h : Rel t s A) (hi : A i = some a)
    (hQ : ∀ s' a', Rel t s' (A.set i (some a')) → a'.xs = a.xs ++ [v] →
      a'.cap = (if a.xs.length < a.cap then a.cap else growCap a.cap) →
      (a.xs.length < a.cap → a'.loc = a.loc) → Q () s')
    (hE : w.at? ≠ none ∨ a.xs.length = sizeLim - 1 → ∀ s' a', Rel t s' (A.set i (some a')) →
      a'.xs.length = a.xs.length → (Strong t → a'.xs = a.xs) → E s') :
    wp (emplaceBack t i (.val v)) w s Q E T := by
  refine wp_bind (wp_getVec (h.vec hi) (wp_bind ?_))
  refine wp_growIfFull h hi ?_ (fun h1 s' xs h2 h3 h4 => hE h1 s' _ h2 h3 h4)
  intro s' a' h1 h2 h3 h4 h5
  have hi' := World.set_same A i (some a')
  refine wp_bind (wp_getVec (h1.vec hi') (wp_bind (wp_pure (wp_bind ?_))))
  have fin : wp (setVec i ⟨a'.data i, a'.cap, a'.xs.length + 1⟩) w
      (s'.setMem (a'.data i) (some ⟨a'.cap, upd (cellsOf a'.xs) a'.xs.length (.live v)⟩)) Q E T := by
    refine wp_setVec (hQ _ { a' with xs := a'.xs ++ [v] } ?_ (by rw [h2]) h3 (fun h => by rw [← h5 h]))
    have hr := h1.inplace hi' (a'.xs ++ [v]) (by rw [List.length_append]; simp only [List.length_singleton]; omega)
    rw [World.set_set] at hr
    rw [upd_append]
    simpa using hr
  have bad : w.at? ≠ none → E s' := fun hw =>
    hE (Or.inl hw) s' a' h1 (by rw [h2]) (fun _ => h2)
  exact wp_construct (h1.mem hi') (by simp only; omega) (cellsOf_ge (by simp)) fin (fun _ => bad)

theorem wp_popBack {Q : Unit → St V → Prop} (h : Rel t s A) (hi : A i = some a) (hne : a.xs ≠ [])
    (hQ : ∀ s', Rel t s' (A.set i (some { a with xs := a.xs.dropLast })) → Q () s') :
    wp (popBack i) w s Q E T := by
  have hpos : 0 < a.xs.length := List.length_pos_iff.2 hne
  have hlen := h.len hi
  have hlim := h.lim hi
  refine wp_bind (wp_getVec (h.vec hi) ?_)
  have hsz : (a.xs.length + sizeLim - 1) % sizeLim = a.xs.length - 1 := by
    rw [show a.xs.length + sizeLim - 1 = (a.xs.length - 1) + sizeLim by omega, Nat.add_mod_right,
      Nat.mod_eq_of_lt (by omega)]
  simp only [hsz]
  refine wp_bind (wp_setVec ?_)
  refine wp_destroyElem (L := a.cap) (c := cellsOf a.xs) (by rw [setVec_mem]; exact h.mem hi) (by omega)
    (cellsOf_alive (by omega)) (hQ _ ?_)
  have hr := h.inplace hi a.xs.dropLast (by simp; omega)
  have hc : upd (cellsOf a.xs) (a.xs.length - 1) .raw = cellsOf a.xs.dropLast := by
    rw [List.dropLast_eq_take, ← wipe_take a.xs (m := 1) (by omega)]
    funext k
    simp only [upd, wipe]
    by_cases hk : k = a.xs.length - 1
    · rw [if_pos hk, if_pos (by omega)]
    · rw [if_neg hk, if_neg (by omega)]
  rw [hc, setMem_setVec_comm]
  simpa using hr

theorem wp_resize {n : Nat} {Q : Unit → St V → Prop} (h : Rel t s A) (hi : A i = some a)
    (hn : n < sizeLim)
    (hQ : ∀ s' a', Rel t s' (A.set i (some a')) →
      a'.xs = a.xs.take n ++ List.replicate (n - a.xs.length) t.dflt → a'.cap = max a.cap n →
      (n ≤ a.cap → a'.loc = a.loc) → Q () s')
    (hE : w.at? ≠ none → ∀ s' a', Rel t s' (A.set i (some a')) →
      a'.xs.length = a.xs.length → (Strong t → a'.xs = a.xs) → E s') :
    wp (resize t i n) w s Q E T := by
  have hlen := h.len hi
  refine wp_bind (wp_getVec (h.vec hi) (wp_bind ?_))
  refine wp_ite ?_ ?_
  · intro hc
    simp only at hc
    refine wp_destroyRange _ (h.mem hi) (by simp only; omega) (fun k _ hk => cellsOf_alive (by simp only at hk; omega)) ?_
    rw [wipe_take a.xs (by simp only; omega)]
    refine wp_bind (wp_getVec (by rw [setMem_vec]; exact h.vec hi) (wp_setVec ?_))
    refine hQ _ { a with xs := a.xs.take n } ?_ ?_ (by simp only; omega) (fun _ => rfl)
    · have hr := h.inplace hi (a.xs.take n) (by simp; omega)
      rw [List.length_take, Nat.min_eq_left (by omega)] at hr
      exact hr
    · rw [show n - a.xs.length = 0 by omega]; simp
  · intro hc
    simp only at hc
    refine wp_ite ?_ ?_
    · intro hc2
      simp only at hc2
      refine wp_bind (wp_reserve h hi hn ?_ (fun hw s' xs h1 h2 h3 => hE hw s' _ h1 h2 h3))
      intro s' a' h1 h2 h3 h4
      have hi' := World.set_same A i (some a')
      refine wp_bind (wp_getVec (h1.vec hi') ?_)
      refine wp_fillDefault (h1.mem hi') (by simp only [h2]; omega)
        (fun k hk _ => cellsOf_ge hk) ?_ (fun hw => hE hw s' a' h1 (by rw [h2]) (fun _ => h2))
      refine wp_bind (wp_getVec (by rw [setMem_vec]; exact h1.vec hi') (wp_setVec ?_))
      simp only
      rw [fill_append a'.xs (List.replicate (n - a.xs.length) t.dflt) (by simp [h2])
        (by intro k hk; simp)]
      have hr := h1.inplace hi' (a'.xs ++ List.replicate (n - a.xs.length) t.dflt)
        (by simp [h2]; omega)
      rw [World.set_set, List.length_append, List.length_replicate,
        show a'.xs.length + (n - a.xs.length) = n by rw [h2]; omega] at hr
      refine hQ _ _ hr ?_ h3 (fun hle => by rw [← h4 hle])
      simp only
      rw [h2, List.take_of_length_le (by omega)]
    · intro hc2
      simp only at hc2
      have hnn : n = a.xs.length := by omega
      refine wp_pure (wp_bind (wp_getVec (h.vec hi) (wp_setVec ?_)))
      simp only
      refine hQ _ a ?_ ?_ (by omega) (fun _ => rfl)
      · rw [hnn, setVec_self (h.vec hi), World.set_self hi]; exact h
      · rw [hnn]; simp

/-- The nothrowCopy condition: otherwise elements leak if a copy throws. -/
theorem wp_resizeWith {n : Nat} {v : V} {Q : Unit → St V → Prop} (h : Rel t s A) (hi : A i = some a)
    (hn : n < sizeLim) (hsafe : w.at? ≠ none → t.nothrowCopy = true)
    (hQ : ∀ s' a', Rel t s' (A.set i (some a')) →
      a'.xs = a.xs.take n ++ List.replicate (n - a.xs.length) v → a'.cap = max a.cap n →
      (n ≤ a.cap → a'.loc = a.loc) → Q () s')
    (hE : w.at? ≠ none → ∀ s' a', Rel t s' (A.set i (some a')) →
      a'.xs.length = a.xs.length → (Strong t → a'.xs = a.xs) → E s') :
    wp (resizeWith t i n (.val v)) w s Q E T := by
  have hlen := h.len hi
  refine wp_bind (wp_getVec (h.vec hi) (wp_bind ?_))
  refine wp_ite ?_ ?_
  · intro hc
    simp only at hc
    refine wp_destroyRange _ (h.mem hi) (by simp only; omega) (fun k _ hk => cellsOf_alive (by simp only at hk; omega)) ?_
    rw [wipe_take a.xs (by simp only; omega)]
    refine wp_bind (wp_getVec (by rw [setMem_vec]; exact h.vec hi) (wp_setVec ?_))
    refine hQ _ { a with xs := a.xs.take n } ?_ ?_ (by simp only; omega) (fun _ => rfl)
    · have hr := h.inplace hi (a.xs.take n) (by simp; omega)
      rw [List.length_take, Nat.min_eq_left (by omega)] at hr
      exact hr
    · rw [show n - a.xs.length = 0 by omega]; simp
  · intro hc
    simp only at hc
    refine wp_ite ?_ ?_
    · intro hc2
      simp only at hc2
      refine wp_bind (wp_reserve h hi hn ?_ (fun hw s' xs h1 h2 h3 => hE hw s' _ h1 h2 h3))
      intro s' a' h1 h2 h3 h4
      have hi' := World.set_same A i (some a')
      refine wp_bind (wp_getVec (h1.vec hi') ?_)
      refine wp_copyValueInto (h1.mem hi') (by simp only [h2]; omega)
        (fun k hk _ => cellsOf_ge hk) ?_ (fun h5 hw => by rw [hsafe hw] at h5; cases h5)
      refine wp_bind (wp_getVec (by rw [setMem_vec]; exact h1.vec hi') (wp_setVec ?_))
      simp only
      rw [fill_append a'.xs (List.replicate (n - a.xs.length) v) (by simp [h2])
        (by intro k hk; simp)]
      have hr := h1.inplace hi' (a'.xs ++ List.replicate (n - a.xs.length) v)
        (by simp [h2]; omega)
      rw [World.set_set, List.length_append, List.length_replicate,
        show a'.xs.length + (n - a.xs.length) = n by rw [h2]; omega] at hr
      refine hQ _ _ hr ?_ h3 (fun hle => by rw [← h4 hle])
      simp only
      rw [h2, List.take_of_length_le (by omega)]
    · intro hc2
      simp only at hc2
      have hnn : n = a.xs.length := by omega
      refine wp_pure (wp_bind (wp_getVec (h.vec hi) (wp_setVec ?_)))
      simp only
      refine hQ _ a ?_ ?_ (by omega) (fun _ => rfl)
      · rw [hnn, setVec_self (h.vec hi), World.set_self hi]; exact h
      · rw [hnn]; simp

end Gul14.SmallVector
