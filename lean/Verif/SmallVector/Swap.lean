import Verif.SmallVector.Whole

/-! Constructors, destructor, move assignment, swap, shrink_to_fit. -/
namespace Gul14.SmallVector
open LM hiding pure bind
variable {V : Type} {w : Fail V} {s : St V} {E : St V → Prop} {T : Prop} {t : Traits V}
variable {A : World V} {i j : Nat} {a b : AV V}

theorem wp_newVec {Q : Unit → St V → Prop} (h : Rel t s A) (hi : A i = none) (hin : t.inCap < sizeLim)
    (hQ : ∀ s', Rel t s' (A.set i (some ⟨[], none, t.inCap⟩)) → Q () s') :
    wp (newVec t i) w s Q E T := by
  intro n
  have : s.vec i = none := by rw [h.vecs, hi]; rfl
  simp only [newVec, this]
  exact hQ _ (h.add hi hin)

/-- The members of an empty vector without heap block vanish. -/
theorem wp_dropVec {Q : Unit → St V → Prop} (h : Rel t s A) (hi : A i = some a) (hl : a.loc = none)
    (he : a.xs = []) (hQ : ∀ s', Rel t s' (A.set i none) → Q () s') : wp (dropVec i) w s Q E T := by
  intro n
  have h1 := h.vec hi
  have h2 := h.mem hi
  rw [data_none hl, he, cellsOf_nil] at h2
  have hraw : (⟨a.cap, fun _ => .raw⟩ : Block V).allRaw = true := (allRaw_iff _).2 (fun _ _ => rfl)
  simp only [dropVec, h1, h2, hraw, if_true]
  refine hQ _ (h.remove hi ?_ ?_ ?_ rfl)
  · intro k; simp [St.setVec, upd]
  · intro k; simp [St.setVec, St.setMem]
  · intro k; rw [hl]; simp [St.setVec, St.setMem]

/-- A constructor whose body leaves no heap block when it throws. -/
theorem wp_ctor {body : M V Unit} {Q : Unit → St V → Prop} (h : Rel t s A) (hi : A i = none)
    (hin : t.inCap < sizeLim)
    (hb : ∀ s', Rel t s' (A.set i (some ⟨[], none, t.inCap⟩)) → wp body w s' Q
      (fun s'' => ∃ A' a, Rel t s'' A' ∧ A' i = some a ∧ a.loc = none ∧ a.xs = [] ∧
        ∀ s3, Rel t s3 (A'.set i none) → E s3) T) :
    wp (ctor t i body) w s Q E T := by
  refine wp_bind (wp_newVec h hi hin ?_)
  intro s' h1
  refine wp_onThrow (wp_mono (hb s' h1) (fun _ _ h => h) ?_ id)
  rintro s'' ⟨A', a, h2, h3, h4, h5, h6⟩
  exact wp_dropVec h2 h3 h4 h5 h6

theorem set_none {a : Option (AV V)} (hi : A i = none) : (A.set i a).set i none = A := by
  rw [World.set_set, World.set_self hi]

theorem wp_ctorN {n : Nat} {Q : Unit → St V → Prop} (h : Rel t s A) (hi : A i = none)
    (hin : t.inCap < sizeLim) (hn : n < sizeLim) (hsafe : w.at? = none)
    (hQ : ∀ s' a', Rel t s' (A.set i (some a')) → a'.xs = List.replicate n t.dflt →
      a'.cap = max t.inCap n → Q () s') :
    wp (ctorN t i n) w s Q E T := by
  refine wp_ctor h hi hin ?_
  intro s1 h1
  refine wp_bind (wp_reserve h1 (World.set_same _ _ _) hn ?_ (fun hw => absurd hsafe hw))
  intro s' a' h2 h3 h4 h5
  rw [World.set_set] at h2
  have hi' := World.set_same A i (some a')
  have hz : a'.xs.length = 0 := by rw [h3]; rfl
  refine wp_bind (wp_getVec (h2.vec hi') (wp_bind ?_))
  simp only at h4
  refine wp_build (total := n) (fun k s'' => s'' = s'.setMem (a'.data i)
    (some ⟨a'.cap, fill (cellsOf a'.xs) 0 k (fun _ => t.dflt)⟩)) ?_ ?_ n 0 s' (by omega) ?_
  · rintro k s'' hk rfl
    refine wp_construct (setMem_mem _ _ _) (by omega) ?_ ?_ (fun _ hw => absurd hsafe hw)
    · rw [fill_other (by omega), cellsOf_ge (by omega)]
    · rw [setMem_setMem]
      have := upd_fill (cellsOf a'.xs) 0 k (fun _ => t.dflt)
      rw [Nat.zero_add] at this
      rw [this]
  · rintro s'' rfl
    refine wp_setVec (hQ _ { a' with xs := List.replicate n t.dflt } ?_ rfl h4)
    have hc : cellsOf a'.xs = fun _ => .raw := by rw [h3, cellsOf_nil]
    have hr := h2.inplace hi' (List.replicate n t.dflt) (by rw [List.length_replicate]; omega)
    rw [World.set_set, List.length_replicate] at hr
    rw [hc, fill_raw (List.replicate n t.dflt) (by simp) (by intro k hk; simp)]
    exact hr
  · rw [fill_zero, setMem_self (h2.mem hi')]

theorem wp_ctorNV {n : Nat} {v : V} {Q : Unit → St V → Prop} (h : Rel t s A) (hi : A i = none)
    (hin : t.inCap < sizeLim) (hn : n < sizeLim) (hsafe : w.at? ≠ none → t.nothrowCopy = true)
    (hQ : ∀ s' a', Rel t s' (A.set i (some a')) → a'.xs = List.replicate n v →
      a'.cap = max t.inCap n → Q () s')
    (hE : w.at? ≠ none → ∀ s', Rel t s' A → E s') :
    wp (ctorNV t i n (.val v)) w s Q E T := by
  refine wp_ctor h hi hin ?_
  intro s1 h1
  refine wp_fillValue h1 (World.set_same _ _ _) rfl hn hsafe ?_ ?_
  · intro s' a' h2 h3 h4 _
    rw [World.set_set] at h2
    exact hQ s' a' h2 h3 h4
  · intro hw s' h2
    refine ⟨_, _, h2, World.set_same _ _ _, rfl, rfl, ?_⟩
    intro s3 h3
    rw [set_none hi] at h3
    exact hE hw s3 h3

theorem wp_ctorRange {ys : List V} {Q : Unit → St V → Prop} (h : Rel t s A) (hi : A i = none)
    (hin : t.inCap < sizeLim) (hn : ys.length < sizeLim)
    (hsafe : w.at? ≠ none → t.nothrowCopy = true ∨ ys.length ≤ t.inCap)
    (hQ : ∀ s' a', Rel t s' (A.set i (some a')) → a'.xs = ys →
      a'.cap = max t.inCap ys.length → Q () s')
    (hE : w.at? ≠ none → ∀ s', Rel t s' A → E s') :
    wp (ctorRange t i ys) w s Q E T := by
  refine wp_ctor h hi hin ?_
  intro s1 h1
  refine wp_fillRange h1 (World.set_same _ _ _) rfl hn ?_ ?_
  · intro s' a' h2 h3 h4 _
    rw [World.set_set] at h2
    exact hQ s' a' h2 h3 h4
  · intro hw s' a' h2 h3 h4
    refine ⟨_, _, h2, World.set_same _ _ _, by rw [h4 (hsafe hw)], h3, ?_⟩
    intro s3 h5
    rw [World.set_set, set_none hi] at h5
    exact hE hw s3 h5

theorem wp_ctorCopy {Q : Unit → St V → Prop} (h : Rel t s A) (hi : A i = none) (hj : A j = some b)
    (hin : t.inCap < sizeLim)
    (hsafe : w.at? ≠ none → t.nothrowCopy = true ∨ b.xs.length ≤ t.inCap)
    (hQ : ∀ s' a', Rel t s' (A.set i (some a')) → a'.xs = b.xs →
      a'.cap = max t.inCap b.xs.length → Q () s')
    (hE : t.nothrowCopy = false → w.at? ≠ none → ∀ s', Rel t s' A → E s')
    (hT : t.nothrowCopy = true → w.at? ≠ none → T) :
    wp (ctorCopy t i j) w s Q E T := by
  have hij : i ≠ j := by rintro rfl; rw [hi] at hj; cases hj
  refine wp_noexceptIf (wp_ctor h hi hin ?_)
  intro s1 h1
  refine wp_fillFrom h1 (World.set_same _ _ _) (by rw [World.set_other hij.symm]; exact hj) hij rfl ?_ ?_
  · intro s' a' h2 h3 h4 _
    rw [World.set_set] at h2
    exact hQ s' a' h2 h3 h4
  · intro hw s' a' h2 h3 h4
    refine ⟨_, _, h2, World.set_same _ _ _, by rw [h4 (hsafe hw)], h3, ?_⟩
    intro s3 h5
    rw [World.set_set, set_none hi] at h5
    exact ⟨fun hc => hT hc hw, fun hc => hE hc hw s3 h5⟩

theorem wp_ctorMove {Q : Unit → St V → Prop} (h : Rel t s A) (hi : A i = none) (hj : A j = some b)
    (hin : t.inCap < sizeLim)
    (hQ : ∀ s', Rel t s' ((A.set i (some b)).set j (some ⟨[], none, t.inCap⟩)) → Q () s')
    (hE : t.nothrowMove = false → w.at? ≠ none → ∀ s' xs, Rel t s' (A.set j (some { b with xs := xs })) →
      xs.length = b.xs.length → (Strong t → xs = b.xs) → E s') :
    wp (ctorMove t i j) w s Q E T := by
  have hij : i ≠ j := by rintro rfl; rw [hi] at hj; cases hj
  refine wp_noexceptIf (wp_ctor h hi hin ?_)
  intro s1 h1
  have hi1 := World.set_same A i (some ⟨[], none, t.inCap⟩)
  have hv1 := h1.vec hi1
  refine wp_stealAll (A := A.set i (some ⟨[], none, t.inCap⟩)) (v := ⟨.inner i, t.inCap, 0⟩) ?_ hi1 hv1 rfl
    (by rw [World.set_other hij.symm]; exact hj) hij ?_ ?_
  · have : s1.setVec i (some ⟨.inner i, t.inCap, 0⟩) = s1 := setVec_self hv1
    rw [this]; exact h1
  · intro s' h2
    rw [World.set_set] at h2
    exact hQ s' h2
  · intro hm hw s' xs h2 h3 h4
    refine ⟨_, ⟨[], none, t.inCap⟩, h2, ?_, rfl, rfl, ?_⟩
    · rw [World.set_other hij]; exact hi1
    · intro s3 h5
      rw [World.set_comm hij, World.set_set, World.set_comm hij.symm] at h5
      have : (A.set i none).set j (some { b with xs := xs }) = A.set j (some { b with xs := xs }) := by
        rw [World.set_self hi]
      refine ⟨fun hc => (by rw [hm] at hc; cases hc), fun _ => hE hm hw s3 xs ?_ h3 h4⟩
      rw [this] at h5
      exact h5

theorem wp_moveAssign {Q : Unit → St V → Prop} (h : Rel t s A) (hi : A i = some a) (hj : A j = some b)
    (hin : t.inCap < sizeLim)
    (hQ : ∀ s', Rel t s' (if i = j then A else (A.set i (some b)).set j (some ⟨[], none, t.inCap⟩)) →
      Q () s')
    (hE : t.nothrowMove = false → w.at? ≠ none → ∀ s' xs, i ≠ j →
      Rel t s' ((A.set i (some ⟨[], none, t.inCap⟩)).set j (some { b with xs := xs })) →
      xs.length = b.xs.length → (Strong t → xs = b.xs) → E s') :
    wp (moveAssign t i j) w s Q E T := by
  refine wp_noexceptIf (wp_ite ?_ ?_)
  · intro hij
    exact wp_pure (hQ s (by rw [if_pos hij]; exact h))
  · intro hij
    refine wp_bind (wp_clear h hi ?_)
    intro s1 h1 _
    have hi1 := World.set_same A i (some { a with xs := [] })
    refine wp_bind (wp_getVec (h1.vec hi1) (wp_bind ?_))
    simp only
    have steal : ∀ (s2 : St V) (v : Vec), s2.vec i = some v → v.size = 0 →
        Rel t (s2.setVec i (some ⟨.inner i, t.inCap, 0⟩)) (A.set i (some ⟨[], none, t.inCap⟩)) →
        wp (stealAll t i j) w s2 Q
          (fun s' => (t.nothrowMove = true → T) ∧ (t.nothrowMove = false → E s')) T := by
      intro s2 v h2 h3 h4
      refine wp_stealAll h4 (World.set_same _ _ _) h2 h3 (by rw [World.set_other (Ne.symm hij)]; exact hj)
        hij ?_ ?_
      · intro s' h5
        rw [World.set_set] at h5
        exact hQ s' (by rw [if_neg hij]; exact h5)
      · intro hm hw s' xs h5 h6 h7
        exact ⟨fun hc => (by rw [hm] at hc; cases hc), fun _ => hE hm hw s' xs hij h5 h6 h7⟩
    refine wp_ite ?_ ?_
    · intro hal
      have hl : a.loc ≠ none := (allocated_iff { a with xs := [] } i _).1 hal
      obtain ⟨k, hk⟩ : ∃ k, a.loc = some k := by
        cases hb : a.loc with
        | none => exact absurd hb hl
        | some k => exact ⟨k, rfl⟩
      have hm1 := h1.mem hi1
      have hd : AV.data ({ a with xs := [] } : AV V) i = .heap k := data_some hk i
      rw [hd] at hm1 ⊢
      refine wp_free hm1 (fun m _ => cellsOf_ge (Nat.zero_le _)) ?_
      refine steal _ _ (by rw [setMem_vec]; exact h1.vec hi1) rfl ?_
      have hup := h1.update (s' := (s1.setMem (.heap k) none).setVec i (some ⟨.inner i, t.inCap, 0⟩))
        (a' := ⟨[], none, t.inCap⟩) hi1 ?_ ?_ ?_ ?_ (Or.inr (by simp)) (Nat.le_refl _) (by simp)
        ⟨Nat.zero_le _, hin, fun _ => rfl, fun h => absurd rfl h⟩
      · rw [World.set_set] at hup; exact hup
      · intro m; simp [St.setVec, upd, AV.data]
      · have := h1.inner i
        rw [hi1] at this
        rw [setVec_mem, setMem_mem_other (by simp), this]
        simp [cellsOf_nil]
      · intro m _
        rw [setVec_mem, setMem_mem_other (by simp)]
      · intro m
        rw [setVec_mem]
        simp only [hk, reduceCtorEq, if_false, Option.some.injEq]
        by_cases hmk : m = k
        · subst hmk; simp
        · rw [setMem_mem_other (by simp [hmk]), if_neg (Ne.symm hmk)]
    · intro hal
      have hl : a.loc = none := by
        have := mt (allocated_iff ({ a with xs := [] } : AV V) i 0).2 hal
        simpa using this
      have hc : a.cap = t.inCap := (h.wf i a hi).2.2.1 hl
      have e : ({ a with xs := [] } : AV V) = ⟨[], none, t.inCap⟩ := by rw [← hl, ← hc]
      rw [e] at h1 hi1
      refine wp_pure (steal s1 _ (h1.vec hi1) rfl ?_)
      have : s1.setVec i (some ⟨.inner i, t.inCap, 0⟩) = s1 := setVec_self (h1.vec hi1)
      rw [this]; exact h1

theorem wp_dtor {Q : Unit → St V → Prop} (h : Rel t s A) (hi : A i = some a)
    (hQ : ∀ s', Rel t s' (A.set i none) → Q () s') : wp (dtor i) w s Q E T := by
  refine wp_bind (wp_clear h hi ?_)
  intro s1 h1 _
  have hi1 := World.set_same A i (some { a with xs := [] })
  refine wp_bind (wp_getVec (h1.vec hi1) (wp_bind ?_))
  simp only
  refine wp_ite ?_ ?_
  · intro hal
    have hl : a.loc ≠ none := (allocated_iff { a with xs := [] } i _).1 hal
    obtain ⟨k, hk⟩ : ∃ k, a.loc = some k := by
      cases hb : a.loc with
      | none => exact absurd hb hl
      | some k => exact ⟨k, rfl⟩
    have hm1 := h1.mem hi1
    have hd : AV.data ({ a with xs := [] } : AV V) i = .heap k := data_some hk i
    rw [hd] at hm1 ⊢
    refine wp_free hm1 (fun m _ => cellsOf_ge (Nat.zero_le _)) ?_
    intro n
    have g1 : (s1.setMem (.heap k) none).vec i = some ⟨.heap k, a.cap, 0⟩ := by
      rw [setMem_vec, h1.vec hi1, hd]; rfl
    have g2 : (s1.setMem (.heap k) none).mem (.inner i) = some ⟨t.inCap, fun _ => .raw⟩ := by
      rw [setMem_mem_other (by simp), h1.inner, hi1]
      simp [hl]
    have hraw : (⟨t.inCap, fun _ => .raw⟩ : Block V).allRaw = true := (allRaw_iff _).2 (fun _ _ => rfl)
    simp only [dropVec, g1, g2, hraw, if_true]
    refine hQ _ ?_
    have hrem := h1.remove (s' := ((s1.setMem (.heap k) none).setMem (.inner i) none).setVec i none)
      hi1 ?_ ?_ ?_ rfl
    · rw [World.set_set] at hrem; exact hrem
    · intro m; simp [St.setVec, upd]
    · intro m; simp [St.setVec, St.setMem]
    · intro m
      simp only [setVec_mem, hk, Option.some.injEq]
      rw [setMem_mem_other (by simp)]
      by_cases hmk : m = k
      · subst hmk; simp
      · rw [setMem_mem_other (by simp [hmk]), if_neg (Ne.symm hmk)]
  · intro hal
    have hl : a.loc = none := by
      have := mt (allocated_iff ({ a with xs := [] } : AV V) i 0).2 hal
      simpa using this
    refine wp_pure (wp_dropVec h1 hi1 hl rfl ?_)
    intro s' h2
    rw [World.set_set] at h2
    exact hQ s' h2

/-! ### swap -/

theorem wp_swapHeapInternal {Q : Unit → St V → Prop} (h : Rel t s A) (hi : A i = some a)
    (hj : A j = some b) (hla : a.loc ≠ none) (hlb : b.loc = none)
    (hQ : ∀ s', Rel t s' ((A.set i (some b)).set j (some a)) → Q () s')
    (hE : w.at? ≠ none → ∀ s' xs, Rel t s' (A.set j (some { b with xs := xs })) →
      xs.length = b.xs.length → (Strong t → xs = b.xs) → E s') :
    wp (swapHeapInternal t i j) w s Q E T := by
  have hij : i ≠ j := by rintro rfl; rw [hi] at hj; cases hj; exact hla hlb
  have hcap : b.cap = t.inCap := (h.wf j b hj).2.2.1 hlb
  have hbl := h.len hj
  refine wp_bind (wp_getVec (h.vec hi) (wp_bind (wp_getVec (h.vec hj) (wp_bind ?_))))
  simp only [data_none hlb]
  have hne : Blk.inner j ≠ Blk.inner i := by simp [hij.symm]
  have hmj := h.mem hj
  rw [data_none hlb] at hmj
  have hmi : s.mem (.inner i) = some ⟨t.inCap, fun _ => .raw⟩ := by
    rw [h.inner, hi]; simp [hla]
  refine wp_uninitMoveOrCopy (v := vals t b.xs) hne hmj (by omega)
    (fun k hk => by rw [Nat.zero_add]; exact cellsOf_vals hk) hmi (by omega) (fun _ _ _ => rfl) ?_ ?_
  · intro c' h1 h2
    rw [fill_raw b.xs rfl (fun k hk => vals_lt hk)]
    refine wp_bind (wp_destroyRange (c := c') (L := b.cap) _ ?_ (by omega) h1 ?_)
    · rw [setMem_mem_other hne]; simp
    rw [wipe_all (fun k hk => by rw [h2 k (by omega), cellsOf_ge hk])]
    refine wp_bind (wp_setVec (wp_setVec (hQ _ ?_)))
    refine h.exchange (a' := b) (b' := a) hi hj hij rfl rfl ?_ ?_ ?_ ?_ ?_ (Nat.le_refl _)
      (h.wf j b hj) (h.wf i a hi)
    · intro m
      simp only [St.setVec, upd, setMem_vec]
      by_cases h3 : m = i
      · subst h3; simp [data_none hlb]
      · by_cases h4 : m = j
        · subst h4
          obtain ⟨k, hk⟩ : ∃ k, a.loc = some k := by
            cases hb : a.loc with
            | none => exact absurd hb hla
            | some k => exact ⟨k, rfl⟩
          simp [h3, AV.data, hk]
        · simp [h3, h4]
    · rw [setVec_mem, setVec_mem, setMem_mem_other hne.symm]
      simp [hlb]
    · rw [setVec_mem, setVec_mem]
      simp [hla, hcap]
    · intro m h3 h4
      rw [setVec_mem, setVec_mem, setMem_mem_other (by simp [h4]), setMem_mem_other (by simp [h3]),
        setMem_mem_other (by simp [h4])]
    · intro m
      rw [setVec_mem, setVec_mem, setMem_mem_other (by simp), setMem_mem_other (by simp),
        setMem_mem_other (by simp), hlb]
      simp only [reduceCtorEq, if_false]
      by_cases h3 : a.loc = some m
      · rw [if_pos h3]; exact h.owned i a m hi h3
      · rw [if_neg h3]
  · intro hw hm c' h1 h2 h3
    obtain ⟨xs, hxl, hxc⟩ := exists_cellsOf b.xs.length c' (fun k hk => h1 k (by omega) (by omega))
      (fun k hk => by rw [h2 k (by omega), cellsOf_ge hk])
    have hr := h.values hj xs hxl
    rw [data_none hlb, ← hxc] at hr
    refine hE hw _ xs hr hxl ?_
    intro hs
    rcases hs with hs | hs
    · rw [hm] at hs; cases hs
    · exact cellsOf_inj (by rw [← hxc, h3 hs])

theorem wp_swapElem {p q : Blk} {k L M : Nat} {c d : Nat → Cell V} {x y : V} {Q : Unit → St V → Prop}
    (hne : p ≠ q) (hp : s.mem p = some ⟨L, c⟩) (hk : k < L) (hx : c k = .live x)
    (hq : s.mem q = some ⟨M, d⟩) (hm : k < M) (hy : d k = .live y)
    (hQ : Q () ((s.setMem p (some ⟨L, upd c k (.live y)⟩)).setMem q (some ⟨M, upd d k (.live x)⟩)))
    (hE : w.at? ≠ none → ∀ u v, E ((s.setMem p (some ⟨L, upd c k (.live u)⟩)).setMem q
      (some ⟨M, upd d k (.live v)⟩))) :
    wp (swapElem t p q k) w s Q E T := by
  have hd : ∀ {c : Nat → Cell V} {v : V}, c k = .live v → upd c k (.live v) = c := by
    intro c v h; funext m; simp only [upd]
    split
    · rename_i h1; rw [h1, h]
    · rfl
  have uu : ∀ (c : Nat → Cell V) (u v : Cell V), upd (upd c k u) k v = upd c k v := by
    intro c u v; funext m; simp only [upd]; split <;> rfl
  refine wp_bind (wp_getCell hp hk hx (wp_bind (wp_elemIf ?_ ?_)))
  · rw [put_eq hp]
    refine wp_bind (wp_moveAssignElem_other hne.symm (L := M) (c := d) (by rw [setMem_mem_other hne.symm]; exact hq)
      hm hy (setMem_mem _ _ _) hk (by rw [upd_same]; exact alive_live _) ?_ ?_)
    · rw [setMem_setMem, uu]
      refine wp_moveAssignElem_val (setMem_mem _ _ _) hm (by rw [upd_same]; exact alive_live _) ?_ ?_
      · rw [setMem_setMem, uu]; exact hQ
      · intro _ hw
        rw [setMem_setMem, uu]; exact hE hw _ _
    · intro _ hw
      rw [setMem_setMem, uu]; exact hE hw _ _
  · intro _ hw
    rw [put_eq hp]
    have := hE hw w.left y
    rw [hd hy, setMem_self (b := q) (by rw [setMem_mem_other hne.symm, hq])] at this
    exact this

/-- The loop over the common indices. -/
theorem wp_swapLoop {p q : Blk} {n L M : Nat} {c d : Nat → Cell V} {Q : Unit → St V → Prop}
    (hne : p ≠ q) (hp : s.mem p = some ⟨L, c⟩) (hL : n ≤ L) (hc : ∀ k, k < n → Alive (c k))
    (hq : s.mem q = some ⟨M, d⟩) (hM : n ≤ M) (hd : ∀ k, k < n → Alive (d k))
    (hQ : ∀ c' d', (∀ k, k < n → c' k = d k ∧ d' k = c k) → (∀ k, n ≤ k → c' k = c k ∧ d' k = d k) →
      Q () ((s.setMem p (some ⟨L, c'⟩)).setMem q (some ⟨M, d'⟩)))
    (hE : w.at? ≠ none → ∀ c' d', (∀ k, k < n → Alive (c' k) ∧ Alive (d' k)) →
      (∀ k, n ≤ k → c' k = c k ∧ d' k = d k) →
      E ((s.setMem p (some ⟨L, c'⟩)).setMem q (some ⟨M, d'⟩))) :
    wp (build (fun k => swapElem t p q k) 0 n) w s Q E T := by
  refine wp_build (total := n) (fun k s' => ∃ c' d', s' = (s.setMem p (some ⟨L, c'⟩)).setMem q
      (some ⟨M, d'⟩) ∧ (∀ m, m < k → c' m = d m ∧ d' m = c m) ∧ (∀ m, k ≤ m → c' m = c m ∧ d' m = d m))
    ?_ ?_ n 0 s (by omega) ?_
  · rintro k s' hk ⟨c', d', rfl, h1, h2⟩
    obtain ⟨x, hx⟩ := hc k hk
    obtain ⟨y, hy⟩ := hd k hk
    refine wp_swapElem hne (L := L) (c := c') (by rw [setMem_mem_other hne]; simp) (by omega)
      (by rw [(h2 k (Nat.le_refl _)).1]; exact hx) (setMem_mem _ _ _) (by omega)
      (by rw [(h2 k (Nat.le_refl _)).2]; exact hy) ?_ ?_
    · refine ⟨upd c' k (.live y), upd d' k (.live x), ?_, ?_, ?_⟩
      · rw [setMem_comm (b := q) (c := p) hne.symm, setMem_setMem, setMem_setMem]
      · intro m hm
        by_cases hmk : m = k
        · subst hmk; rw [upd_same, upd_same, hx, hy]; exact ⟨rfl, rfl⟩
        · rw [upd_other hmk, upd_other hmk]; exact h1 m (by omega)
      · intro m hm
        rw [upd_other (by omega), upd_other (by omega)]; exact h2 m (by omega)
    · intro hw u v
      rw [setMem_comm (b := q) (c := p) hne.symm, setMem_setMem, setMem_setMem]
      refine hE hw _ _ ?_ ?_
      · intro m hm
        by_cases hmk : m = k
        · subst hmk; rw [upd_same, upd_same]; exact ⟨alive_live _, alive_live _⟩
        · rw [upd_other hmk, upd_other hmk]
          by_cases h3 : m < k
          · rw [(h1 m h3).1, (h1 m h3).2]; exact ⟨hd m hm, hc m hm⟩
          · rw [(h2 m (by omega)).1, (h2 m (by omega)).2]; exact ⟨hc m hm, hd m hm⟩
      · intro m hm
        rw [upd_other (by omega), upd_other (by omega)]; exact h2 m (by omega)
  · rintro s' ⟨c', d', rfl, h1, h2⟩
    exact hQ c' d' h1 h2
  · exact ⟨c, d, by rw [setMem_self hp, setMem_self hq], fun m hm => absurd hm (by omega),
      fun _ _ => ⟨rfl, rfl⟩⟩

/-- Two vectors without heap blocks with new elements. -/
theorem Rel.values2 {p q : Blk} (h : Rel t s A) (hi : A i = some a) (hj : A j = some b) (hij : i ≠ j)
    (hp : a.data i = p) (hq : b.data j = q) {c d : Nat → Cell V}
    (h1 : ∀ k, k < a.xs.length → Alive (c k)) (h2 : ∀ k, a.xs.length ≤ k → c k = .raw)
    (h3 : ∀ k, k < b.xs.length → Alive (d k)) (h4 : ∀ k, b.xs.length ≤ k → d k = .raw) :
    ∃ xs ys, Rel t ((s.setMem p (some ⟨a.cap, c⟩)).setMem q (some ⟨b.cap, d⟩))
      ((A.set i (some { a with xs := xs })).set j (some { b with xs := ys })) ∧
      xs.length = a.xs.length ∧ ys.length = b.xs.length := by
  obtain ⟨xs, hx1, hx2⟩ := exists_cellsOf _ c h1 h2
  obtain ⟨ys, hy1, hy2⟩ := exists_cellsOf _ d h3 h4
  have r1 := h.values hi xs hx1
  have hj1 : A.set i (some { a with xs := xs }) j = some b := by
    rw [World.set_other hij.symm]; exact hj
  have r2 := r1.values hj1 ys hy1
  rw [hp, hq, ← hx2, ← hy2] at r2
  exact ⟨xs, ys, r2, hx1, hy1⟩

theorem wp_swapInternal {Q : Unit → St V → Prop} (h : Rel t s A) (hi : A i = some a)
    (hj : A j = some b) (hij : i ≠ j) (hla : a.loc = none) (hlb : b.loc = none)
    (hQ : ∀ s', Rel t s' ((A.set i (some b)).set j (some a)) → Q () s')
    (hE : w.at? ≠ none → ∀ s' xs ys,
      Rel t s' ((A.set i (some { a with xs := xs })).set j (some { b with xs := ys })) →
      xs.length = a.xs.length → ys.length = b.xs.length → E s') :
    wp (swapInternal t i j) w s Q E T := by
  have hca : a.cap = t.inCap := (h.wf i a hi).2.2.1 hla
  have hcb : b.cap = t.inCap := (h.wf j b hj).2.2.1 hlb
  have hal := h.len hi
  have hbl := h.len hj
  refine wp_bind (wp_getVec (h.vec hi) (wp_bind (wp_getVec (h.vec hj) (wp_bind ?_))))
  simp only [data_none hla, data_none hlb]
  have hne : Blk.inner i ≠ Blk.inner j := by simp [hij]
  have hmi := h.mem hi
  have hmj := h.mem hj
  rw [data_none hla] at hmi
  rw [data_none hlb] at hmj
  -- the end of the function
  have fin : ∀ s1 : St V, s1.vec = s.vec → s1.nxt = s.nxt →
      s1.mem = ((s.setMem (.inner i) (some ⟨a.cap, cellsOf b.xs⟩)).setMem (.inner j)
        (some ⟨b.cap, cellsOf a.xs⟩)).mem →
      wp (do
        setVec i { data := .inner i, cap := a.cap, size := b.xs.length }
        let b' ← getVec j
        setVec j { b' with size := a.xs.length }) w s1 Q E T := by
    intro s1 hv hn hm
    refine wp_bind (wp_setVec (wp_bind (wp_getVec (v := ⟨.inner j, b.cap, b.xs.length⟩) ?_ (wp_setVec (hQ _ ?_)))))
    · simp only [St.setVec, upd, if_neg hij.symm, hv]
      rw [h.vec hj, data_none hlb]
    · refine h.exchange (a' := b) (b' := a) hi hj hij (by rw [hlb]) (by rw [hla]) ?_ ?_ ?_ ?_ ?_ ?_
        (h.wf j b hj) (h.wf i a hi)
      · intro m
        simp only [St.setVec, upd, hv]
        by_cases h3 : m = i
        · subst h3; simp [hij, data_none hlb, hca, hcb]
        · by_cases h4 : m = j
          · subst h4; simp [h3, data_none hla, hca, hcb]
          · simp [h3, h4]
      · rw [setVec_mem, setVec_mem, hm, setMem_mem_other hne]
        simp [hlb, hca]
      · rw [setVec_mem, setVec_mem, hm]
        simp [hla, hcb]
      · intro m h3 h4
        rw [setVec_mem, setVec_mem, hm, setMem_mem_other (by simp [h4]), setMem_mem_other (by simp [h3])]
      · intro m
        rw [setVec_mem, setVec_mem, hm, setMem_mem_other (by simp), setMem_mem_other (by simp), hla, hlb]
        simp
      · show s.nxt ≤ s1.nxt
        omega
  refine wp_ite ?_ ?_
  · intro hle
    refine wp_bind (wp_swapLoop hne hmi hal (fun k hk => cellsOf_alive hk) hmj (by omega)
      (fun k hk => cellsOf_alive (by omega)) ?_ ?_)
    · intro c' d' h1 h2
      refine wp_bind (wp_uninitMoveOrCopy (v := fun k => vals t b.xs (a.xs.length + k)) hne.symm (setMem_mem _ _ _)
        (by omega) ?_ (M := a.cap) (d := c') (by rw [setMem_mem_other hne]; simp) (by omega) ?_ ?_ ?_)
      · intro k hk
        rw [(h2 _ (by omega)).2, cellsOf_vals (by omega)]
      · intro k h3 h4
        rw [(h2 k h3).1, cellsOf_ge h3]
      · intro d'' h3 h4
        rw [setMem_setMem]
        refine wp_destroyRange (L := b.cap) (c := d'') _ ?_ (by omega) h3 ?_
        · rw [setMem_mem_other hne.symm]; simp
        · refine fin _ rfl rfl ?_
          have e1 : fill c' a.xs.length (b.xs.length - a.xs.length)
              (fun k => vals t b.xs (a.xs.length + k)) = cellsOf b.xs := by
            refine eq_cellsOf ?_ ?_
            · intro k hk
              by_cases h5 : k < a.xs.length
              · rw [fill_other (by omega), (h1 k h5).1, cellsOf_lt hk]
              · rw [fill_in (by omega) (by omega), show a.xs.length + (k - a.xs.length) = k by omega, vals_lt hk]
            · intro k hk
              rw [fill_other (by omega), (h2 k (by omega)).1, cellsOf_ge (by omega)]
          have e2 : wipe d'' a.xs.length (b.xs.length - a.xs.length) = cellsOf a.xs := by
            refine eq_cellsOf ?_ ?_
            · intro k hk
              simp only [wipe]
              rw [if_neg (by omega), h4 k (by omega), (h1 k hk).2, cellsOf_lt hk]
            · intro k hk
              simp only [wipe]
              by_cases h5 : k < b.xs.length
              · rw [if_pos (by omega)]
              · rw [if_neg (by omega), h4 k (by omega), (h2 k (by omega)).2, cellsOf_ge (by omega)]
          rw [e1, e2]
          funext m
          simp only [St.setMem]
          by_cases h5 : m = .inner j
          · simp [h5]
          · by_cases h6 : m = .inner i <;> simp [h5, h6, hij]
      · intro hw _ d'' h3 h4 _
        rw [setMem_setMem]
        obtain ⟨xs, ys, hr, e1, e2⟩ := h.values2 hi hj hij (data_none hla i) (data_none hlb j)
          (c := c') (d := d'')
          (fun k hk => by rw [(h1 k hk).1]; exact cellsOf_alive (by omega))
          (fun k hk => by rw [(h2 k hk).1]; exact cellsOf_ge hk)
          (fun k hk => by
            by_cases h5 : k < a.xs.length
            · rw [h4 k (by omega), (h1 k h5).2]; exact cellsOf_alive h5
            · exact h3 k (by omega) (by omega))
          (fun k hk => by rw [h4 k (by omega), (h2 k (by omega)).2]; exact cellsOf_ge hk)
        exact hE hw _ xs ys hr e1 e2
    · intro hw c' d' h1 h2
      obtain ⟨xs, ys, hr, e1, e2⟩ := h.values2 hi hj hij (data_none hla i) (data_none hlb j)
        (c := c') (d := d') (fun k hk => (h1 k hk).1)
        (fun k hk => by rw [(h2 k hk).1]; exact cellsOf_ge hk)
        (fun k hk => by
          by_cases h5 : k < a.xs.length
          · exact (h1 k h5).2
          · rw [(h2 k (by omega)).2]; exact cellsOf_alive hk)
        (fun k hk => by rw [(h2 k (by omega)).2]; exact cellsOf_ge hk)
      exact hE hw _ xs ys hr e1 e2
  · intro hle
    refine wp_bind (wp_swapLoop hne hmi (by omega) (fun k hk => cellsOf_alive (by omega)) hmj hbl
      (fun k hk => cellsOf_alive hk) ?_ ?_)
    · intro c' d' h1 h2
      refine wp_bind (wp_uninitMoveOrCopy (v := fun k => vals t a.xs (b.xs.length + k)) hne
        (L := a.cap) (c := c') (by rw [setMem_mem_other hne]; simp)
        (by omega) ?_ (setMem_mem _ _ _) (by omega) ?_ ?_ ?_)
      · intro k hk
        rw [(h2 _ (by omega)).1, cellsOf_vals (by omega)]
      · intro k h3 h4
        rw [(h2 k h3).2, cellsOf_ge h3]
      · intro c'' h3 h4
        refine wp_destroyRange (L := a.cap) (c := c'') _ ?_ (by omega) h3 ?_
        · rw [setMem_mem_other hne]; simp
        · refine fin _ rfl rfl ?_
          have e1 : fill d' b.xs.length (a.xs.length - b.xs.length)
              (fun k => vals t a.xs (b.xs.length + k)) = cellsOf a.xs := by
            refine eq_cellsOf ?_ ?_
            · intro k hk
              by_cases h5 : k < b.xs.length
              · rw [fill_other (by omega), (h1 k h5).2, cellsOf_lt hk]
              · rw [fill_in (by omega) (by omega), show b.xs.length + (k - b.xs.length) = k by omega, vals_lt hk]
            · intro k hk
              rw [fill_other (by omega), (h2 k (by omega)).2, cellsOf_ge (by omega)]
          have e2 : wipe c'' b.xs.length (a.xs.length - b.xs.length) = cellsOf b.xs := by
            refine eq_cellsOf ?_ ?_
            · intro k hk
              simp only [wipe]
              rw [if_neg (by omega), h4 k (by omega), (h1 k hk).1, cellsOf_lt hk]
            · intro k hk
              simp only [wipe]
              by_cases h5 : k < a.xs.length
              · rw [if_pos (by omega)]
              · rw [if_neg (by omega), h4 k (by omega), (h2 k (by omega)).1, cellsOf_ge (by omega)]
          rw [e1, e2]
          funext m
          simp only [St.setMem]
          by_cases h5 : m = .inner i
          · simp [h5, hij]
          · by_cases h6 : m = .inner j <;> simp [h5, h6, hij.symm]
      · intro hw _ c'' h3 h4 _
        obtain ⟨xs, ys, hr, e1, e2⟩ := h.values2 hi hj hij (data_none hla i) (data_none hlb j)
          (c := c'') (d := d')
          (fun k hk => by
            by_cases h5 : k < b.xs.length
            · rw [h4 k (by omega), (h1 k h5).1]; exact cellsOf_alive h5
            · exact h3 k (by omega) (by omega))
          (fun k hk => by rw [h4 k (by omega), (h2 k (by omega)).1]; exact cellsOf_ge hk)
          (fun k hk => by rw [(h1 k hk).2]; exact cellsOf_alive (by omega))
          (fun k hk => by rw [(h2 k hk).2]; exact cellsOf_ge hk)
        have e : ((s.setMem (Blk.inner i) (some ⟨a.cap, c'⟩)).setMem (Blk.inner j) (some ⟨b.cap, d'⟩)).setMem
            (Blk.inner i) (some ⟨a.cap, c''⟩) =
            (s.setMem (Blk.inner i) (some ⟨a.cap, c''⟩)).setMem (Blk.inner j) (some ⟨b.cap, d'⟩) := by
          rw [setMem_comm hne.symm, setMem_setMem]
        rw [e]
        exact hE hw _ xs ys hr e1 e2
    · intro hw c' d' h1 h2
      obtain ⟨xs, ys, hr, e1, e2⟩ := h.values2 hi hj hij (data_none hla i) (data_none hlb j)
        (c := c') (d := d')
        (fun k hk => by
          by_cases h5 : k < b.xs.length
          · exact (h1 k h5).1
          · rw [(h2 k (by omega)).1]; exact cellsOf_alive hk)
        (fun k hk => by rw [(h2 k (by omega)).1]; exact cellsOf_ge hk)
        (fun k hk => (h1 k hk).2)
        (fun k hk => by rw [(h2 k hk).2]; exact cellsOf_ge hk)
      exact hE hw _ xs ys hr e1 e2

/-- Swapping a vector with itself. -/
theorem wp_swapSelf {Q : Unit → St V → Prop} (h : Rel t s A) (hi : A i = some a)
    (hQ : Q () s) (hE : w.at? ≠ none → ∀ s' xs, Rel t s' (A.set i (some { a with xs := xs })) →
      xs.length = a.xs.length → E s') :
    wp (swap t i i) w s Q E T := by
  have hv := h.vec hi
  refine wp_bind (wp_getVec hv (wp_bind (wp_getVec hv (wp_ite ?_ ?_))))
  · intro hal
    rw [if_pos hal]
    refine wp_bind (wp_setVec (wp_setVec ?_))
    rw [setVec_setVec, setVec_self hv]; exact hQ
  · intro hal
    rw [if_neg hal]
    have hal' := h.len hi
    refine wp_bind (wp_getVec hv (wp_bind (wp_getVec hv (wp_bind ?_))))
    simp only
    rw [if_pos (Nat.le_refl _)]
    have uu : ∀ (c : Nat → Cell V) (k : Nat) (u v : Cell V), upd (upd c k u) k v = upd c k v := by
      intro c k u v; funext m; simp only [upd]; split <;> rfl
    have bad : w.at? ≠ none → ∀ k v, k < a.xs.length →
        E (s.setMem (a.data i) (some ⟨a.cap, upd (cellsOf a.xs) k (.live v)⟩)) := by
      intro hw k v hk
      obtain ⟨xs, hxl, hxc⟩ := exists_cellsOf a.xs.length (upd (cellsOf a.xs) k (.live v))
        (fun m hm => by
          by_cases h8 : m = k
          · subst h8; rw [upd_same]; exact alive_live _
          · rw [upd_other h8]; exact cellsOf_alive hm)
        (fun m hm => by rw [upd_other (by omega), cellsOf_ge hm])
      rw [hxc]
      exact hE hw _ xs (h.values hi xs hxl) hxl
    refine wp_bind (wp_build (total := a.xs.length) (fun _ s' => s' = s) ?_ ?_ a.xs.length 0 s (by omega) rfl)
    · rintro k s' hk rfl
      refine wp_bind (wp_getCell (h.mem hi) (by omega) (cellsOf_lt hk) (wp_bind (wp_elemIf ?_ ?_)))
      · rw [put_eq (h.mem hi)]
        refine wp_bind (wp_moveAssignElem_same (setMem_mem _ _ _) (by omega) (upd_same _ _ _) (by omega)
          (by rw [upd_same]; exact alive_live _) ?_ ?_)
        · rw [setMem_setMem, uu, uu]
          refine wp_moveAssignElem_val (setMem_mem _ _ _) (by omega) (by rw [upd_same]; exact alive_live _) ?_ ?_
          · rw [setMem_setMem, uu]
            have : upd (cellsOf a.xs) k (.live a.xs[k]) = cellsOf a.xs := by
              funext m
              by_cases hm : m = k
              · subst hm; rw [upd_same, cellsOf_lt hk]
              · rw [upd_other hm]
            rw [this, setMem_self (h.mem hi)]
          · intro _ hw
            rw [setMem_setMem, uu]; exact bad hw k _ hk
        · intro _ hw
          rw [setMem_setMem, uu, uu]; exact bad hw k _ hk
      · intro _ hw
        rw [put_eq (h.mem hi)]; exact bad hw k _ hk
    · rintro s' rfl
      rw [Nat.sub_self]
      refine wp_bind ?_
      have hz : uninitMoveOrCopy t (a.data i) a.xs.length (a.data i) a.xs.length 0 = pure () := by
        unfold uninitMoveOrCopy
        split
        · rfl
        · split <;> rfl
      rw [hz]
      refine wp_pure (wp_pure (wp_bind (wp_setVec ?_)))
      have hs : s'.setVec i (some ⟨a.data i, a.cap, a.xs.length⟩) = s' := setVec_self hv
      rw [hs]
      refine wp_bind (wp_getVec hv (wp_setVec ?_))
      simp only
      rw [hs]; exact hQ

theorem wp_swap {Q : Unit → St V → Prop} (h : Rel t s A) (hi : A i = some a) (hj : A j = some b)
    (hQ : ∀ s', Rel t s' ((A.set i (some b)).set j (some a)) → Q () s')
    (hE : w.at? ≠ none → ∀ s' xs ys,
      Rel t s' ((A.set i (some { a with xs := xs })).set j (some { b with xs := ys })) →
      xs.length = a.xs.length → ys.length = b.xs.length → E s') :
    wp (swap t i j) w s Q E T := by
  by_cases hij : i = j
  · subst hij
    rw [hi] at hj; cases hj
    refine wp_swapSelf h hi (hQ s ?_) ?_
    · rw [World.set_set, World.set_self hi]; exact h
    · intro hw s' xs h1 h2
      refine hE hw s' xs xs ?_ h2 h2
      rw [World.set_set]; exact h1
  · refine wp_bind (wp_getVec (h.vec hi) (wp_bind (wp_getVec (h.vec hj) (wp_ite ?_ ?_))))
    · intro h1
      have hla : a.loc ≠ none := (allocated_iff a i _).1 h1
      refine wp_ite ?_ ?_
      · intro h2
        have hlb : b.loc ≠ none := (allocated_iff b j _).1 h2
        obtain ⟨ka, hka⟩ : ∃ k, a.loc = some k := by
          cases hb : a.loc with
          | none => exact absurd hb hla
          | some k => exact ⟨k, rfl⟩
        obtain ⟨kb, hkb⟩ : ∃ k, b.loc = some k := by
          cases hb : b.loc with
          | none => exact absurd hb hlb
          | some k => exact ⟨k, rfl⟩
        refine wp_bind (wp_setVec (wp_setVec (hQ _ ?_)))
        refine h.exchange (a' := b) (b' := a) hi hj hij rfl rfl ?_ ?_ ?_ (fun _ _ _ => rfl) ?_ (Nat.le_refl _)
          (h.wf j b hj) (h.wf i a hi)
        · intro m
          simp only [St.setVec, upd]
          by_cases h3 : m = i
          · subst h3; simp [hij, AV.data, hkb]
          · by_cases h4 : m = j
            · subst h4; simp [h3, AV.data, hka]
            · simp [h3, h4]
        · rw [setVec_mem, setVec_mem, h.inner, hi]; simp [hla, hlb]
        · rw [setVec_mem, setVec_mem, h.inner, hj]; simp [hla, hlb]
        · intro m
          rw [setVec_mem, setVec_mem]
          by_cases h3 : b.loc = some m
          · rw [if_pos h3]; exact h.owned j b m hj h3
          · rw [if_neg h3]
            by_cases h4 : a.loc = some m
            · rw [if_pos h4]; exact h.owned i a m hi h4
            · rw [if_neg h4]
      · intro h2
        have hlb : b.loc = none := by
          have := mt (allocated_iff b j b.xs.length).2 h2
          simpa using this
        refine wp_swapHeapInternal h hi hj hla hlb hQ ?_
        intro hw s' xs h3 h4 _
        refine hE hw s' a.xs xs ?_ rfl h4
        have : A.set i (some { a with xs := a.xs }) = A := World.set_self hi
        rw [this]; exact h3
    · intro h1
      have hla : a.loc = none := by
        have := mt (allocated_iff a i a.xs.length).2 h1
        simpa using this
      refine wp_ite ?_ ?_
      · intro h2
        have hlb : b.loc ≠ none := (allocated_iff b j _).1 h2
        refine wp_swapHeapInternal h hj hi hlb hla ?_ ?_
        · intro s' h3
          rw [World.set_comm (Ne.symm hij)] at h3
          exact hQ s' h3
        · intro hw s' xs h3 h4 _
          refine hE hw s' xs b.xs ?_ h4 rfl
          rw [World.set_self (by rw [World.set_other (Ne.symm hij)]; exact hj)]; exact h3
      · intro h2
        have hlb : b.loc = none := by
          have := mt (allocated_iff b j b.xs.length).2 h2
          simpa using this
        exact wp_swapInternal h hi hj hij hla hlb hQ hE

/-! ### shrink_to_fit -/

/-- The elements leave heap block `k` for block `nb`. -/
theorem wp_relocate {hdl : M V Unit} {s s1 : St V} {nb : Blk} {n k : Nat} {Q : Unit → St V → Prop}
    (h : Rel t s A) (hi : A i = some a) (hk : a.loc = some k) (hne : Blk.heap k ≠ nb)
    (hnb : s1.mem nb = some ⟨n, fun _ => .raw⟩) (hmem : ∀ q, q ≠ nb → s1.mem q = s.mem q)
    (hn : a.xs.length ≤ n)
    (hQ : ∀ s', s'.mem = (fun q => if q = nb then some ⟨n, cellsOf a.xs⟩ else
        if q = .heap k then none else s.mem q) → s'.nxt = s1.nxt →
        s'.vec = upd s1.vec i (some ⟨nb, n, a.xs.length⟩) → Q () s')
    (hE : w.at? ≠ none → ∀ xs, xs.length = a.xs.length → (Strong t → xs = a.xs) →
      wp hdl w (s1.setMem (.heap k) (some ⟨a.cap, cellsOf xs⟩)) (fun _ s' => E s') E T) :
    wp (do
      onThrow (uninitMoveOrCopy t (a.data i) 0 nb 0 a.xs.length) hdl
      destroyRange (a.data i) 0 a.xs.length
      (if allocated i ⟨a.data i, a.cap, a.xs.length⟩ then free (a.data i) else pure ())
      setVec i ⟨nb, n, a.xs.length⟩) w s1 Q E T := by
  have hlen := h.len hi
  have hal : allocated i ⟨a.data i, a.cap, a.xs.length⟩ = true :=
    (allocated_iff a i _).2 (by rw [hk]; simp)
  have hm := h.mem hi
  rw [data_some hk] at hm hal ⊢
  rw [if_pos hal]
  refine wp_bind (wp_onThrow (wp_uninitMoveOrCopy (v := vals t a.xs) hne (by rw [hmem _ hne]; exact hm)
    (by omega) (fun k hk => by rw [Nat.zero_add]; exact cellsOf_vals hk) hnb (by omega)
    (fun _ _ _ => rfl) ?_ ?_))
  · intro c' h1 h2
    refine wp_bind (wp_destroyRange (L := a.cap) (c := c') _ (by rw [setMem_mem_other hne]; simp)
      (by omega) h1 ?_)
    rw [wipe_all (fun k hk => by rw [h2 k (by omega), cellsOf_ge hk]),
      fill_raw a.xs rfl (fun k hk => vals_lt hk)]
    refine wp_bind (wp_free (setMem_mem _ _ _) (fun _ _ => rfl) (wp_setVec (hQ _ ?_ rfl rfl)))
    funext q
    simp only [St.setMem, St.setVec]
    by_cases h3 : q = nb
    · subst h3; simp [hne.symm]
    · by_cases h4 : q = .heap k
      · simp [h4, hne]
      · simp [h3, h4, hmem q h3]
  · intro hw hm2 c' h1 h2 h3
    obtain ⟨xs, hxl, hxc⟩ := exists_cellsOf a.xs.length c' (fun k hk => h1 k (by omega) (by omega))
      (fun k hk => by rw [h2 k (by omega), cellsOf_ge hk])
    rw [hxc]
    refine hE hw xs hxl ?_
    intro hs
    rcases hs with hs | hs
    · rw [hm2] at hs; cases hs
    · exact cellsOf_inj (by rw [← hxc, h3 hs])

theorem wp_shrinkToFit {Q : Unit → St V → Prop} (h : Rel t s A) (hi : A i = some a)
    (hQ : ∀ s' a', Rel t s' (A.set i (some a')) → a'.xs = a.xs → a'.cap = max t.inCap a.xs.length →
      (max t.inCap a.xs.length = a.cap → a' = a) → Q () s')
    (hE : w.at? ≠ none → ∀ s' xs, Rel t s' (A.set i (some { a with xs := xs })) →
      xs.length = a.xs.length → (Strong t → xs = a.xs) → E s') :
    wp (shrinkToFit t i) w s Q E T := by
  have hlen := h.len hi
  have hin := h.inCap_le hi
  have hlim := h.lim hi
  refine wp_bind (wp_getVec (h.vec hi) (wp_ite ?_ ?_))
  · intro hc
    simp only at hc
    refine wp_pure (hQ s a (by rw [World.set_self hi]; exact h) rfl hc.symm (fun _ => rfl))
  · intro hc
    simp only at hc ⊢
    have hl : a.loc ≠ none := by
      intro hl
      have := (h.wf i a hi).2.2.1 hl
      omega
    obtain ⟨k, hk⟩ : ∃ k, a.loc = some k := by
      cases hb : a.loc with
      | none => exact absurd hb hl
      | some k => exact ⟨k, rfl⟩
    have bad : w.at? ≠ none → ∀ xs, xs.length = a.xs.length → (Strong t → xs = a.xs) →
        ∀ s', s'.mem = (s.setMem (.heap k) (some ⟨a.cap, cellsOf xs⟩)).mem → s'.vec = s.vec →
        s.nxt ≤ s'.nxt → E s' := by
      intro hw xs h1 h2 s' h3 h4 h5
      have hr := h.values hi xs h1
      rw [data_some hk] at hr
      exact hE hw s' xs (hr.nxt h3 h4 h5) h1 h2
    by_cases hz : max t.inCap a.xs.length = t.inCap
    · simp only [if_pos hz]
      refine wp_bind (wp_pure ?_)
      have hmi : s.mem (.inner i) = some ⟨t.inCap, fun _ => .raw⟩ := by
        rw [h.inner, hi]; simp [hl]
      rw [hz]
      refine wp_relocate h hi hk (by simp) hmi (fun _ _ => rfl) (by omega) ?_ ?_
      · intro s' h1 h2 h3
        refine hQ s' ⟨a.xs, none, t.inCap⟩ ?_ rfl (by simp only; omega) (by omega)
        refine h.update hi ?_ ?_ ?_ ?_ (Or.inr (by simp)) (by omega) (by simp)
          ⟨by simp only; omega, by simp only; omega, fun _ => rfl, fun h => absurd rfl h⟩
        · intro m; rw [h3]; rfl
        · rw [h1]; simp
        · intro m hm; rw [h1]; simp [hm]
        · intro m
          rw [h1, hk]
          by_cases hmk : m = k
          · subst hmk; simp
          · simp [hmk, Ne.symm hmk]
      · intro hw xs h1 h2
        exact wp_pure (bad hw xs h1 h2 _ rfl rfl (Nat.le_refl _))
    · simp only [if_neg hz]
      refine wp_bind (wp_alloc ?_ ?_)
      · have hkn : k ≠ s.nxt := Nat.ne_of_lt (h.loc_lt hi hk)
        refine wp_relocate h hi hk (by simp [hkn]) (by simp [St.setMem]) ?_ (by omega) ?_ ?_
        · intro q hq; simp [St.setMem, hq]
        · intro s' h1 h2 h3
          refine hQ s' ⟨a.xs, some s.nxt, max t.inCap a.xs.length⟩ ?_ rfl rfl (by omega)
          refine h.update hi ?_ ?_ ?_ ?_ (Or.inr (by simp)) (by rw [h2]; simp) ?_
            ⟨by simp only; omega, by simp only; omega, by simp, fun _ => by simp only; omega⟩
          · intro m; rw [h3]; rfl
          · rw [h1, ]; simp only [reduceCtorEq, if_false]; rw [h.inner, hi]; simp [hl]
          · intro m hm; rw [h1]; simp
          · intro m
            rw [h1, hk]
            by_cases hmn : m = s.nxt
            · subst hmn; simp
            · by_cases hmk : m = k
              · subst hmk; simp [hmn, Ne.symm hmn]
              · simp [hmk, Ne.symm hmk, hmn, Ne.symm hmn]
          · intro m hm
            simp only [Option.some.injEq] at hm
            rw [h2]; simp only; omega
        · intro hw xs h1 h2
          refine wp_free (L := max t.inCap a.xs.length) (c := fun _ => .raw) ?_ (fun _ _ => rfl) ?_
          · rw [setMem_mem_other (by simp [hkn.symm])]; simp [St.setMem]
          · refine bad hw xs h1 h2 _ ?_ rfl (by simp)
            funext q
            simp only [St.setMem]
            by_cases h3 : q = .heap s.nxt
            · subst h3; simp [hkn.symm, h.fresh s.nxt (Nat.le_refl _)]
            · by_cases h4 : q = .heap k
              · simp [h3, h4, hkn]
              · simp [h3, h4]
      · intro hw
        refine hE hw s a.xs ?_ rfl (fun _ => rfl)
        have : A.set i (some { a with xs := a.xs }) = A := World.set_self hi
        rw [this]; exact h

end Gul14.SmallVector
