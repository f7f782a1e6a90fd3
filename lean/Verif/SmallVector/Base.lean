import Verif.SmallVector.Model
import Verif.LifetimeWp

/-! Cells, blocks and loops. -/
namespace Gul14.SmallVector
open LM hiding pure bind
variable {V : Type} {w : Fail V} {s : St V} {E : St V → Prop} {T : Prop} {t : Traits V}

theorem upd_same {α : Type} (f : Nat → α) (i : Nat) (a : α) : upd f i a i = a := by simp [upd]
theorem upd_other {α : Type} {f : Nat → α} {i k : Nat} {a : α} (h : k ≠ i) : upd f i a k = f k := by
  simp [upd, h]

@[simp] theorem setMem_mem (s : St V) (b : Blk) (x : Option (Block V)) : (s.setMem b x).mem b = x := by
  simp [St.setMem]
theorem setMem_mem_other {s : St V} {b c : Blk} {x : Option (Block V)} (h : c ≠ b) :
    (s.setMem b x).mem c = s.mem c := by simp [St.setMem, h]
@[simp] theorem setMem_setMem (s : St V) (b : Blk) (x y : Option (Block V)) :
    (s.setMem b x).setMem b y = s.setMem b y := by
  simp only [St.setMem]; congr 1; funext k; split <;> rfl
theorem setMem_self {s : St V} {b : Blk} {x : Option (Block V)} (h : s.mem b = x) :
    s.setMem b x = s := by
  cases s; simp only [St.setMem] at *; congr 1; funext k
  split
  · rename_i hk; rw [hk, h]
  · rfl
theorem setMem_comm {s : St V} {b c : Blk} {x y : Option (Block V)} (h : b ≠ c) :
    (s.setMem b x).setMem c y = (s.setMem c y).setMem b x := by
  simp only [St.setMem]; congr 1; funext k
  by_cases h1 : k = b <;> by_cases h2 : k = c <;> simp_all
@[simp] theorem setMem_vec (s : St V) (b : Blk) (x : Option (Block V)) : (s.setMem b x).vec = s.vec := rfl
@[simp] theorem setMem_nxt (s : St V) (b : Blk) (x : Option (Block V)) : (s.setMem b x).nxt = s.nxt := rfl
@[simp] theorem setVec_mem (s : St V) (i : Nat) (v : Option Vec) : (s.setVec i v).mem = s.mem := rfl
@[simp] theorem setVec_nxt (s : St V) (i : Nat) (v : Option Vec) : (s.setVec i v).nxt = s.nxt := rfl
@[simp] theorem setVec_vec (s : St V) (i : Nat) (v : Option Vec) : (s.setVec i v).vec i = v := by
  simp [St.setVec, upd]
@[simp] theorem setVec_setVec (s : St V) (i : Nat) (v u : Option Vec) :
    (s.setVec i v).setVec i u = s.setVec i u := by
  simp only [St.setVec]; congr 1; funext k; simp only [upd]; split <;> rfl
theorem put_eq {b : Blk} {L : Nat} {c : Nat → Cell V} (hb : s.mem b = some ⟨L, c⟩) (i : Nat)
    (x : Cell V) : s.put b i x = s.setMem b (some ⟨L, upd c i x⟩) := by
  simp [St.put, hb]

/-- The cell is alive. -/
def Alive (c : Cell V) : Prop := ∃ v, c = .live v

theorem alive_live (v : V) : Alive (.live v) := ⟨v, rfl⟩

theorem wp_getCell {b : Blk} {i L : Nat} {c : Nat → Cell V} {v : V} {Q : V → St V → Prop}
    (hb : s.mem b = some ⟨L, c⟩) (hi : i < L) (hv : c i = .live v) (hQ : Q v s) :
    wp (getCell b i) w s Q E T := by
  intro n
  simp only [getCell, hb, hi, if_true, hv]
  exact hQ

theorem wp_checkRaw {b : Blk} {i L : Nat} {c : Nat → Cell V} {Q : Unit → St V → Prop}
    (hb : s.mem b = some ⟨L, c⟩) (hi : i < L) (hv : c i = .raw) (hQ : Q () s) :
    wp (checkRaw b i) w s Q E T := by
  intro n
  simp only [checkRaw, hb, hi, if_true, hv]
  exact hQ

theorem wp_construct {nt : Bool} {b : Blk} {i L : Nat} {c : Nat → Cell V} {v : V}
    {Q : Unit → St V → Prop} (hb : s.mem b = some ⟨L, c⟩) (hi : i < L) (hv : c i = .raw)
    (hQ : Q () (s.setMem b (some ⟨L, upd c i (.live v)⟩))) (hE : nt = false → w.at? ≠ none → E s) :
    wp (construct nt b i v) w s Q E T := by
  refine wp_bind (wp_checkRaw hb hi hv ?_)
  refine wp_elemIf ?_ hE
  rw [put_eq hb]; exact hQ

theorem wp_copyConstruct_val {b : Blk} {i L : Nat} {c : Nat → Cell V} {v : V}
    {Q : Unit → St V → Prop} (hb : s.mem b = some ⟨L, c⟩) (hi : i < L) (hv : c i = .raw)
    (hQ : Q () (s.setMem b (some ⟨L, upd c i (.live v)⟩))) (hE : t.nothrowCopy = false → w.at? ≠ none → E s) :
    wp (copyConstruct t (.val v) b i) w s Q E T :=
  wp_bind (wp_pure (wp_construct hb hi hv hQ hE))

/-- Copying from an element of any block. -/
theorem wp_copyConstruct_at {sb db : Blk} {i j L M : Nat} {c d : Nat → Cell V} {v : V}
    {Q : Unit → St V → Prop} (hs : s.mem sb = some ⟨L, c⟩) (hi : i < L) (hv : c i = .live v)
    (hd : s.mem db = some ⟨M, d⟩) (hj : j < M) (hr : d j = .raw)
    (hQ : Q () (s.setMem db (some ⟨M, upd d j (.live v)⟩))) (hE : t.nothrowCopy = false → w.at? ≠ none → E s) :
    wp (copyConstruct t (.at sb i) db j) w s Q E T :=
  wp_bind (wp_getCell hs hi hv (wp_construct hd hj hr hQ hE))

theorem wp_moveConstruct_val {b : Blk} {i L : Nat} {c : Nat → Cell V} {v : V}
    {Q : Unit → St V → Prop} (hb : s.mem b = some ⟨L, c⟩) (hi : i < L) (hv : c i = .raw)
    (hQ : Q () (s.setMem b (some ⟨L, upd c i (.live v)⟩))) (hE : t.nothrowMove = false → w.at? ≠ none → E s) :
    wp (moveConstruct t (.val v) b i) w s Q E T := by
  refine wp_bind (wp_pure (wp_bind (wp_checkRaw hb hi hv ?_)))
  refine wp_elemIf ?_ hE
  simp only [Src.set]
  rw [put_eq hb]; exact hQ

/-- Moving from a block to another one. -/
theorem wp_moveConstruct_other {sb db : Blk} {i j L M : Nat} {c d : Nat → Cell V} {v : V}
    {Q : Unit → St V → Prop} (hne : sb ≠ db) (hs : s.mem sb = some ⟨L, c⟩) (hi : i < L)
    (hv : c i = .live v) (hd : s.mem db = some ⟨M, d⟩) (hj : j < M) (hr : d j = .raw)
    (hQ : Q () ((s.setMem sb (some ⟨L, upd c i (.live (t.moved v))⟩)).setMem db
      (some ⟨M, upd d j (.live v)⟩)))
    (hE : t.nothrowMove = false → w.at? ≠ none →
      E (s.setMem sb (some ⟨L, upd c i (.live w.left)⟩))) :
    wp (moveConstruct t (.at sb i) db j) w s Q E T := by
  refine wp_bind (wp_getCell hs hi hv (wp_bind (wp_checkRaw hd hj hr ?_)))
  refine wp_elemIf ?_ ?_
  · simp only [Src.set]
    rw [put_eq hs, put_eq (L := M) (c := d) (by rw [setMem_mem_other hne.symm, hd])]
    exact hQ
  · intro h1 h2
    simp only [Src.set]
    rw [put_eq hs]
    exact hE h1 h2

/-- Moving within a block. -/
theorem wp_moveConstruct_same {b : Blk} {i j L : Nat} {c : Nat → Cell V} {v : V}
    {Q : Unit → St V → Prop} (hs : s.mem b = some ⟨L, c⟩) (hi : i < L)
    (hv : c i = .live v) (hj : j < L) (hr : c j = .raw)
    (hQ : Q () (s.setMem b (some ⟨L, upd (upd c i (.live (t.moved v))) j (.live v)⟩)))
    (hE : t.nothrowMove = false → w.at? ≠ none → E (s.setMem b (some ⟨L, upd c i (.live w.left)⟩))) :
    wp (moveConstruct t (.at b i) b j) w s Q E T := by
  refine wp_bind (wp_getCell hs hi hv (wp_bind (wp_checkRaw hs hj hr ?_)))
  refine wp_elemIf ?_ ?_
  · simp only [Src.set]
    rw [put_eq hs, put_eq (L := L) (setMem_mem _ _ _), setMem_setMem]
    exact hQ
  · intro h1 h2
    simp only [Src.set]
    rw [put_eq hs]
    exact hE h1 h2

theorem wp_copyAssignElem_val {b : Blk} {i L : Nat} {c : Nat → Cell V} {v : V}
    {Q : Unit → St V → Prop} (hb : s.mem b = some ⟨L, c⟩) (hi : i < L) (hl : Alive (c i))
    (hQ : Q () (s.setMem b (some ⟨L, upd c i (.live v)⟩)))
    (hE : t.nothrowCopyAssign = false → w.at? ≠ none → E (s.setMem b (some ⟨L, upd c i (.live w.left)⟩))) :
    wp (copyAssignElem t (.val v) b i) w s Q E T := by
  obtain ⟨u, hu⟩ := hl
  refine wp_bind (wp_pure (wp_bind (wp_getCell hb hi hu ?_)))
  refine wp_elemIf ?_ ?_
  · rw [put_eq hb]; exact hQ
  · intro h1 h; rw [put_eq hb]; exact hE h1 h

theorem wp_moveAssignElem_val {b : Blk} {i L : Nat} {c : Nat → Cell V} {v : V}
    {Q : Unit → St V → Prop} (hb : s.mem b = some ⟨L, c⟩) (hi : i < L) (hl : Alive (c i))
    (hQ : Q () (s.setMem b (some ⟨L, upd c i (.live v)⟩)))
    (hE : t.nothrowMoveAssign = false → w.at? ≠ none → E (s.setMem b (some ⟨L, upd c i (.live w.left)⟩))) :
    wp (moveAssignElem t (.val v) b i) w s Q E T := by
  obtain ⟨u, hu⟩ := hl
  refine wp_bind (wp_pure (wp_bind (wp_getCell hb hi hu ?_)))
  refine wp_elemIf ?_ ?_
  · simp only [Src.set]; rw [put_eq hb]; exact hQ
  · intro h1 h; simp only [Src.set]; rw [put_eq hb]; exact hE h1 h

/-- Move assignment within a block. -/
theorem wp_moveAssignElem_same {b : Blk} {i j L : Nat} {c : Nat → Cell V} {v : V}
    {Q : Unit → St V → Prop} (hb : s.mem b = some ⟨L, c⟩) (hi : i < L) (hv : c i = .live v)
    (hj : j < L) (hl : Alive (c j))
    (hQ : Q () (s.setMem b (some ⟨L, upd (upd c j (.live v)) i (.live (t.moved v))⟩)))
    (hE : t.nothrowMoveAssign = false → w.at? ≠ none → E (s.setMem b (some ⟨L, upd (upd c j (.live w.left)) i (.live w.left)⟩))) :
    wp (moveAssignElem t (.at b i) b j) w s Q E T := by
  obtain ⟨u, hu⟩ := hl
  refine wp_bind (wp_getCell hb hi hv (wp_bind (wp_getCell hb hj hu ?_)))
  refine wp_elemIf ?_ ?_
  · simp only [Src.set]
    rw [put_eq hb, put_eq (L := L) (setMem_mem _ _ _), setMem_setMem]; exact hQ
  · intro h1 h2
    simp only [Src.set]
    rw [put_eq hb, put_eq (L := L) (setMem_mem _ _ _), setMem_setMem]; exact hE h1 h2

/-- Move assignment from another block. -/
theorem wp_moveAssignElem_other {sb db : Blk} {i j L M : Nat} {c d : Nat → Cell V} {v : V}
    {Q : Unit → St V → Prop} (hne : sb ≠ db) (hs : s.mem sb = some ⟨L, c⟩) (hi : i < L)
    (hv : c i = .live v) (hd : s.mem db = some ⟨M, d⟩) (hj : j < M) (hl : Alive (d j))
    (hQ : Q () ((s.setMem db (some ⟨M, upd d j (.live v)⟩)).setMem sb
      (some ⟨L, upd c i (.live (t.moved v))⟩)))
    (hE : t.nothrowMoveAssign = false → w.at? ≠ none → E ((s.setMem db (some ⟨M, upd d j (.live w.left)⟩)).setMem sb
      (some ⟨L, upd c i (.live w.left)⟩))) :
    wp (moveAssignElem t (.at sb i) db j) w s Q E T := by
  obtain ⟨u, hu⟩ := hl
  refine wp_bind (wp_getCell hs hi hv (wp_bind (wp_getCell hd hj hu ?_)))
  refine wp_elemIf ?_ ?_
  · simp only [Src.set]
    rw [put_eq hd, put_eq (L := L) (c := c) (by rw [setMem_mem_other hne, hs])]; exact hQ
  · intro h1 h
    simp only [Src.set]
    rw [put_eq hd, put_eq (L := L) (c := c) (by rw [setMem_mem_other hne, hs])]; exact hE h1 h

theorem wp_destroyElem {b : Blk} {i L : Nat} {c : Nat → Cell V} {Q : Unit → St V → Prop}
    (hb : s.mem b = some ⟨L, c⟩) (hi : i < L) (hl : Alive (c i))
    (hQ : Q () (s.setMem b (some ⟨L, upd c i .raw⟩))) : wp (destroyElem b i) w s Q E T := by
  obtain ⟨u, hu⟩ := hl
  refine wp_bind (wp_getCell hb hi hu (wp_bind (wp_getState (wp_setState ?_))))
  rw [put_eq hb]; exact hQ

/-- A range of cells becomes raw. -/
def wipe (c : Nat → Cell V) (i cnt : Nat) : Nat → Cell V :=
  fun k => if i ≤ k ∧ k < i + cnt then .raw else c k

theorem wp_destroyRange {b : Blk} (cnt : Nat) : ∀ {s : St V} {i L : Nat} {c : Nat → Cell V}
    {Q : Unit → St V → Prop}, s.mem b = some ⟨L, c⟩ → i + cnt ≤ L →
    (∀ k, i ≤ k → k < i + cnt → Alive (c k)) →
    Q () (s.setMem b (some ⟨L, wipe c i cnt⟩)) → wp (destroyRange b i cnt) w s Q E T := by
  induction cnt with
  | zero =>
      intro s i L c Q hb hL hl hQ
      refine wp_pure ?_
      have : wipe c i 0 = c := by
        funext k; simp only [wipe]; rw [if_neg (by omega)]
      rw [this, setMem_self hb] at hQ
      exact hQ
  | succ cnt ih =>
      intro s i L c Q hb hL hl hQ
      refine wp_bind (wp_destroyElem hb (by omega) (hl i (by omega) (by omega)) ?_)
      refine ih (setMem_mem _ _ _) (by omega) ?_ ?_
      · intro k h1 h2
        rw [upd_other (by omega)]
        exact hl k (by omega) (by omega)
      · rw [setMem_setMem]
        have : wipe (upd c i .raw) (i + 1) cnt = wipe c i (cnt + 1) := by
          funext k
          simp only [wipe, upd]
          by_cases h1 : k = i
          · rw [if_neg (by omega), if_pos h1, if_pos (by omega)]
          · by_cases h2 : i + 1 ≤ k ∧ k < i + 1 + cnt
            · rw [if_pos h2, if_pos (by omega)]
            · rw [if_neg h2, if_neg h1, if_neg (by omega)]
        rw [this]; exact hQ

/-- Loops that construct elements, with clean-up. -/
theorem wp_buildOrUndo {mk : Nat → M V Unit} {b : Blk} {d total : Nat} (I : Nat → St V → Prop)
    {Q : Unit → St V → Prop}
    (hstep : ∀ k s, k < total → I k s → wp (mk k) w s (fun _ s' => I (k + 1) s')
      (fun s' => wp (destroyRange b d k) w s' (fun _ s'' => E s'') E T) T)
    (hQ : ∀ s, I total s → Q () s) (cnt : Nat) : ∀ (k : Nat) (s : St V), k + cnt = total → I k s →
    wp (buildOrUndo mk b d k cnt) w s Q E T := by
  induction cnt with
  | zero => intro k s h1 h2; exact wp_pure (hQ s (by rwa [← h1, Nat.add_zero]))
  | succ cnt ih =>
      intro k s h1 h2
      refine wp_bind (wp_onThrow ?_)
      exact wp_mono (hstep k s (by omega) h2) (fun _ s' h => ih (k + 1) s' (by omega) h)
        (fun _ h => h) id

/-- Loops that construct elements, without clean-up. -/
theorem wp_build {mk : Nat → M V Unit} {total : Nat} (I : Nat → St V → Prop)
    {Q : Unit → St V → Prop}
    (hstep : ∀ k s, k < total → I k s → wp (mk k) w s (fun _ s' => I (k + 1) s') E T)
    (hQ : ∀ s, I total s → Q () s) (cnt : Nat) : ∀ (k : Nat) (s : St V), k + cnt = total → I k s →
    wp (build mk k cnt) w s Q E T := by
  induction cnt with
  | zero => intro k s h1 h2; exact wp_pure (hQ s (by rwa [← h1, Nat.add_zero]))
  | succ cnt ih =>
      intro k s h1 h2
      refine wp_bind ?_
      exact wp_mono (hstep k s (by omega) h2) (fun _ s' h => ih (k + 1) s' (by omega) h)
        (fun _ h => h) id

/-- A range of cells filled with values. -/
def fill (c : Nat → Cell V) (i cnt : Nat) (v : Nat → V) : Nat → Cell V :=
  fun k => if i ≤ k ∧ k < i + cnt then .live (v (k - i)) else c k

theorem fill_zero (c : Nat → Cell V) (i : Nat) (v : Nat → V) : fill c i 0 v = c := by
  funext k; simp only [fill]; rw [if_neg (by omega)]

theorem upd_fill (c : Nat → Cell V) (i cnt : Nat) (v : Nat → V) :
    upd (fill c i cnt v) (i + cnt) (.live (v cnt)) = fill c i (cnt + 1) v := by
  funext k
  simp only [upd, fill]
  by_cases h1 : k = i + cnt
  · subst h1
    rw [if_pos rfl, if_pos (by omega)]; congr 2; omega
  · rw [if_neg h1]
    by_cases h2 : i ≤ k ∧ k < i + cnt
    · rw [if_pos h2, if_pos (by omega)]
    · rw [if_neg h2, if_neg (by omega)]

theorem fill_other {c : Nat → Cell V} {i cnt k : Nat} {v : Nat → V} (h : k < i ∨ i + cnt ≤ k) :
    fill c i cnt v k = c k := by simp only [fill]; rw [if_neg (by omega)]

theorem fill_in {c : Nat → Cell V} {i cnt k : Nat} {v : Nat → V} (h : i ≤ k) (h2 : k < i + cnt) :
    fill c i cnt v k = .live (v (k - i)) := by simp only [fill]; rw [if_pos ⟨h, h2⟩]

theorem wipe_fill {c : Nat → Cell V} {i cnt : Nat} {v : Nat → V}
    (h : ∀ k, i ≤ k → k < i + cnt → c k = .raw) : wipe (fill c i cnt v) i cnt = c := by
  funext k
  simp only [wipe, fill]
  by_cases h1 : i ≤ k ∧ k < i + cnt
  · rw [if_pos h1, h k h1.1 h1.2]
  · rw [if_neg h1, if_neg h1]

/-- Undoing the construction of `cnt` elements. -/
theorem wp_undo {b : Blk} {i cnt L : Nat} {c : Nat → Cell V} {v : Nat → V} {Q : Unit → St V → Prop}
    (hb : s.mem b = some ⟨L, fill c i cnt v⟩) (hL : i + cnt ≤ L)
    (hr : ∀ k, i ≤ k → k < i + cnt → c k = .raw) (hQ : Q () (s.setMem b (some ⟨L, c⟩))) :
    wp (destroyRange b i cnt) w s Q E T := by
  refine wp_destroyRange cnt hb hL ?_ (by rw [wipe_fill hr]; exact hQ)
  intro k h1 h2
  rw [fill_in h1 h2]
  exact alive_live _

/-- copy_range_into_uninitialized_cells and the other loops that construct elements from values. -/
theorem wp_fillCells {P : Prop} {mk : Nat → M V Unit} {b : Blk} {d cnt L : Nat} {c : Nat → Cell V} {v : Nat → V}
    {Q : Unit → St V → Prop} (hb : s.mem b = some ⟨L, c⟩) (hL : d + cnt ≤ L)
    (hr : ∀ k, d ≤ k → k < d + cnt → c k = .raw)
    (hmk : ∀ k (s' : St V) (Q' : Unit → St V → Prop) (E' : St V → Prop) (c' : Nat → Cell V),
      k < cnt → s'.mem b = some ⟨L, c'⟩ → (∀ sb, sb ≠ b → s'.mem sb = s.mem sb) → c' (d + k) = .raw →
      Q' () (s'.setMem b (some ⟨L, upd c' (d + k) (.live (v k))⟩)) → (P → E' s') →
      wp (mk k) w s' Q' E' T)
    (hQ : Q () (s.setMem b (some ⟨L, fill c d cnt v⟩))) (hE : P → E s) :
    wp (buildOrUndo mk b d 0 cnt) w s Q E T := by
  refine wp_buildOrUndo (total := cnt) (fun k s' => s' = s.setMem b (some ⟨L, fill c d k v⟩)) ?_ ?_ cnt 0 s
    (by omega) ?_
  · rintro k s' hk rfl
    refine hmk k _ _ _ _ hk (setMem_mem _ _ _) (fun sb h => setMem_mem_other h) ?_ ?_ ?_
    · rw [fill_other (by omega)]; exact hr _ (by omega) (by omega)
    · rw [setMem_setMem, upd_fill]
    · intro hi
      refine wp_undo (setMem_mem _ _ _) (by omega) (fun j h1 h2 => hr j h1 (by omega)) ?_
      rw [setMem_setMem, setMem_self hb]
      exact hE hi
  · rintro s' rfl; exact hQ
  · rw [fill_zero, setMem_self hb]

theorem wp_copyRangeInto {b : Blk} {pos L : Nat} {c : Nat → Cell V} {xs : List V}
    {Q : Unit → St V → Prop} (hb : s.mem b = some ⟨L, c⟩) (hL : pos + xs.length ≤ L)
    (hr : ∀ k, pos ≤ k → k < pos + xs.length → c k = .raw)
    (hQ : ∀ v : Nat → V, (∀ k (h : k < xs.length), v k = xs[k]) →
      Q () (s.setMem b (some ⟨L, fill c pos xs.length v⟩)))
    (hE : t.nothrowCopy = false → w.at? ≠ none → E s) : wp (copyRangeInto t b pos xs) w s Q E T := by
  rcases Nat.eq_zero_or_pos xs.length with h0 | hpos
  · unfold copyRangeInto
    have hx : xs = [] := List.length_eq_zero_iff.1 h0
    subst hx
    refine wp_pure ?_
    have h1 := hQ (fun k => by
      exact (t.dflt)) (by intro k h; simp at h)
    rw [List.length_nil, fill_zero, setMem_self hb] at h1
    exact h1
  · refine wp_fillCells (v := fun k => (xs[k]?).getD xs[0]) hb hL hr ?_ ?_ (P := t.nothrowCopy = false ∧ w.at? ≠ none)
      (fun h => hE h.1 h.2)
    · intro k s' Q' E' c' hk hb' _ hr' hQ' hE'
      simp only [List.getElem?_eq_getElem hk, Option.getD_some] at hQ' ⊢
      exact wp_copyConstruct_val hb' (by omega) hr' hQ' (fun h1 h2 => hE' ⟨h1, h2⟩)
    · refine hQ _ ?_
      intro k h
      simp [List.getElem?_eq_getElem h]

theorem wp_fillDefault {b : Blk} {pos cnt L : Nat} {c : Nat → Cell V}
    {Q : Unit → St V → Prop} (hb : s.mem b = some ⟨L, c⟩) (hL : pos + cnt ≤ L)
    (hr : ∀ k, pos ≤ k → k < pos + cnt → c k = .raw)
    (hQ : Q () (s.setMem b (some ⟨L, fill c pos cnt (fun _ => t.dflt)⟩)))
    (hE : w.at? ≠ none → E s) : wp (fillDefault t b pos cnt) w s Q E T := by
  refine wp_fillCells hb hL hr ?_ hQ hE
  intro k s' Q' E' c' hk hb' _ hr' hQ' hE'
  exact wp_construct hb' (by omega) hr' hQ' (fun _ => hE')

theorem wp_uninitCopy {sb db : Blk} {cnt L M : Nat} {c d : Nat → Cell V} {v : Nat → V}
    {Q : Unit → St V → Prop} (hne : sb ≠ db) (hs : s.mem sb = some ⟨L, c⟩) (hL : cnt ≤ L)
    (hv : ∀ k, k < cnt → c k = .live (v k)) (hd : s.mem db = some ⟨M, d⟩) (hM : cnt ≤ M)
    (hr : ∀ k, k < cnt → d k = .raw)
    (hQ : Q () (s.setMem db (some ⟨M, fill d 0 cnt v⟩))) (hE : t.nothrowCopy = false → w.at? ≠ none → E s) :
    wp (uninitCopy t sb db cnt) w s Q E T := by
  refine wp_fillCells (d := 0) hd (by omega) (fun k _ h => hr k (by omega)) ?_ hQ
    (P := t.nothrowCopy = false ∧ w.at? ≠ none) (fun h => hE h.1 h.2)
  intro k s' Q' E' c' hk hb' ho hr' hQ' hE'
  rw [Nat.zero_add] at hr' hQ'
  exact wp_copyConstruct_at (by rw [ho sb hne]; exact hs) (by omega) (hv k hk) hb' (by omega) hr' hQ' (fun h1 h2 => hE' ⟨h1, h2⟩)

/-- Copies of one value without clean-up: the caller must know what remains if this throws. -/
theorem wp_copyValueInto {b : Blk} {pos cnt L : Nat} {c : Nat → Cell V} {v : V}
    {Q : Unit → St V → Prop} (hb : s.mem b = some ⟨L, c⟩) (hL : pos + cnt ≤ L)
    (hr : ∀ k, pos ≤ k → k < pos + cnt → c k = .raw)
    (hQ : Q () (s.setMem b (some ⟨L, fill c pos cnt (fun _ => v)⟩)))
    (hE : t.nothrowCopy = false → w.at? ≠ none → ∀ k, k < cnt → E (s.setMem b (some ⟨L, fill c pos k (fun _ => v)⟩))) :
    wp (copyValueInto t b pos cnt (.val v)) w s Q E T := by
  refine wp_build (total := cnt) (fun k s' => s' = s.setMem b (some ⟨L, fill c pos k (fun _ => v)⟩)) ?_ ?_ cnt 0 s
    (by omega) ?_
  · rintro k s' hk rfl
    refine wp_copyConstruct_val (setMem_mem _ _ _) (by omega) ?_ ?_ (fun h1 h => hE h1 h k hk)
    · rw [fill_other (by omega)]; exact hr _ (by omega) (by omega)
    · rw [setMem_setMem, upd_fill c pos k (fun _ => v)]
  · rintro s' rfl; exact hQ
  · rw [fill_zero, setMem_self hb]

/-- uninitialized_move_or_copy between different blocks.  The source cells stay alive, and they are
unchanged if the elements are copied. -/
theorem wp_uninitMoveOrCopy {sb db : Blk} {si di cnt L M : Nat} {c d : Nat → Cell V} {v : Nat → V}
    {Q : Unit → St V → Prop} (hne : sb ≠ db) (hs : s.mem sb = some ⟨L, c⟩) (hL : si + cnt ≤ L)
    (hv : ∀ k, k < cnt → c (si + k) = .live (v k)) (hd : s.mem db = some ⟨M, d⟩)
    (hM : di + cnt ≤ M) (hr : ∀ k, di ≤ k → k < di + cnt → d k = .raw)
    (hQ : ∀ c', (∀ k, si ≤ k → k < si + cnt → Alive (c' k)) →
      (∀ k, k < si ∨ si + cnt ≤ k → c' k = c k) →
      Q () ((s.setMem sb (some ⟨L, c'⟩)).setMem db (some ⟨M, fill d di cnt v⟩)))
    (hE : w.at? ≠ none → t.nothrowMove = false → ∀ c',
      (∀ k, si ≤ k → k < si + cnt → Alive (c' k)) →
      (∀ k, k < si ∨ si + cnt ≤ k → c' k = c k) → (t.copyable = true → c' = c) →
      E (s.setMem sb (some ⟨L, c'⟩))) :
    wp (uninitMoveOrCopy t sb si db di cnt) w s Q E T := by
  have hlive : ∀ k, si ≤ k → k < si + cnt → Alive (c k) := by
    intro k h1 h2
    have := hv (k - si) (by omega)
    rw [show si + (k - si) = k by omega] at this
    exact ⟨_, this⟩
  -- the invariant of the moving loops
  let I : Nat → St V → Prop := fun k s' => ∃ c', s' = (s.setMem sb (some ⟨L, c'⟩)).setMem db
      (some ⟨M, fill d di k v⟩) ∧ (∀ j, si ≤ j → j < si + cnt → Alive (c' j)) ∧
      (∀ j, j < si ∨ si + k ≤ j → c' j = c j)
  have hstepMove : ∀ k s' (E' : St V → Prop), k < cnt → I k s' →
      (t.nothrowMove = false → w.at? ≠ none → ∀ c', (∀ j, si ≤ j → j < si + cnt → Alive (c' j)) →
        (∀ j, j < si ∨ si + cnt ≤ j → c' j = c j) →
        E' ((s.setMem sb (some ⟨L, c'⟩)).setMem db (some ⟨M, fill d di k v⟩))) →
      wp (moveConstruct t (.at sb (si + k)) db (di + k)) w s' (fun _ s'' => I (k + 1) s'') E' T := by
    rintro k s' E' hk ⟨c', rfl, h1, h2⟩ hE'
    have hmem : ((s.setMem sb (some ⟨L, c'⟩)).setMem db (some ⟨M, fill d di k v⟩)).mem sb =
        some ⟨L, c'⟩ := by rw [setMem_mem_other hne]; simp
    refine wp_moveConstruct_other hne hmem (by omega) (by rw [h2 _ (by omega)]; exact hv k hk)
      (setMem_mem _ _ _) (by omega) (by rw [fill_other (by omega)]; exact hr _ (by omega) (by omega))
      ?_ ?_
    · refine ⟨upd c' (si + k) (.live (t.moved (v k))), ?_, ?_, ?_⟩
      · rw [setMem_comm (c := sb) hne.symm, setMem_setMem, setMem_setMem, upd_fill]
      · intro j h3 h4
        by_cases hj : j = si + k
        · subst hj; rw [upd_same]; exact alive_live _
        · rw [upd_other hj]; exact h1 j h3 h4
      · intro j h3
        rw [upd_other (by omega)]; exact h2 j (by omega)
    · intro h3 h4
      rw [setMem_comm (c := sb) hne.symm, setMem_setMem]
      refine hE' h3 h4 _ ?_ ?_
      · intro j h5 h6
        by_cases hj : j = si + k
        · subst hj; rw [upd_same]; exact alive_live _
        · rw [upd_other hj]; exact h1 j h5 h6
      · intro j h5
        rw [upd_other (by omega)]; exact h2 j (by omega)
  have hI0 : I 0 s := by
    refine ⟨c, ?_, hlive, fun _ _ => rfl⟩
    rw [fill_zero, setMem_self hs, setMem_self hd]
  have hIend : ∀ s', I cnt s' → Q () s' := by
    rintro s' ⟨c', rfl, h1, h2⟩
    exact hQ c' h1 h2
  unfold uninitMoveOrCopy
  by_cases hm : t.nothrowMove = true
  · rw [if_pos hm]
    refine wp_build I ?_ hIend cnt 0 s (by omega) hI0
    intro k s' hk hI
    exact hstepMove k s' E hk hI (by rw [hm]; intro h; cases h)
  · have hm' : t.nothrowMove = false := by simpa using hm
    rw [if_neg hm]
    by_cases hc : t.copyable = true
    · rw [if_pos hc]
      refine wp_fillCells (P := w.at? ≠ none) (v := v) hd hM hr ?_ ?_ ?_
      · intro k s' Q' E' c' hk hb' ho hr' hQ' hE'
        exact wp_copyConstruct_at (by rw [ho sb hne]; exact hs) (by omega) (hv k hk) hb' (by omega)
          hr' hQ' (fun _ => hE')
      · have := hQ c hlive (fun _ _ => rfl)
        rwa [setMem_self hs] at this
      · intro h
        have := hE h hm' c hlive (fun _ _ => rfl) (fun _ => rfl)
        rwa [setMem_self hs] at this
    · rw [if_neg hc]
      refine wp_buildOrUndo I ?_ hIend cnt 0 s (by omega) hI0
      intro k s' hk hI
      refine hstepMove k s' _ hk hI ?_
      intro h1 h2 c' h3 h4
      refine wp_undo (setMem_mem _ _ _) (by omega) (fun j h5 h6 => hr j h5 (by omega)) ?_
      rw [setMem_setMem, setMem_self (b := db) (by rw [setMem_mem_other hne.symm, hd])]
      exact hE h2 hm' c' h3 h4 (fun h => absurd h hc)

theorem wp_alloc {len : Nat} {Q : Blk → St V → Prop}
    (hQ : Q (.heap s.nxt)
      { s.setMem (.heap s.nxt) (some ⟨len, fun _ => .raw⟩) with nxt := s.nxt + 1 })
    (hE : w.at? ≠ none → E s) : wp (alloc len) w s Q E T := by
  intro n
  unfold alloc
  by_cases h : w.at? = some n
  · rw [if_pos h]; exact hE (by rw [h]; simp)
  · rw [if_neg h]; exact hQ

theorem allRaw_iff (x : Block V) : x.allRaw = true ↔ ∀ i, i < x.len → x.cell i = .raw := by
  simp only [Block.allRaw, List.all_eq_true, List.mem_range]
  constructor
  · intro h i hi
    have := h i hi
    split at this
    · assumption
    · cases this
  · intro h i hi
    rw [h i hi]

theorem wp_free {k L : Nat} {c : Nat → Cell V} {Q : Unit → St V → Prop}
    (hb : s.mem (.heap k) = some ⟨L, c⟩) (hr : ∀ i, i < L → c i = .raw)
    (hQ : Q () (s.setMem (.heap k) none)) : wp (free (.heap k)) w s Q E T := by
  intro n
  have : (⟨L, c⟩ : Block V).allRaw = true := (allRaw_iff _).2 hr
  simp only [free, hb, this, if_true]
  exact hQ

theorem wp_getVec {i : Nat} {v : Vec} {Q : Vec → St V → Prop} (h : s.vec i = some v) (hQ : Q v s) :
    wp (getVec i) w s Q E T := by
  intro n; simp only [getVec, h]; exact hQ

theorem wp_setVec {i : Nat} {v : Vec} {Q : Unit → St V → Prop} (hQ : Q () (s.setVec i (some v))) :
    wp (setVec i v) w s Q E T := fun _ => hQ

end Gul14.SmallVector
