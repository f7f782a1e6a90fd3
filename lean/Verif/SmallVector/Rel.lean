import Verif.SmallVector.Base

/-!
# Well-formed states

`Rel t s A`: the state `s` consists of the vectors described by `A`, with all elements alive, all
other cells raw, and no other blocks.
-/
namespace Gul14.SmallVector
open LM hiding pure bind
variable {V : Type} {w : Fail V} {s : St V} {E : St V → Prop} {T : Prop} {t : Traits V}

/-- A vector: its elements, its heap block if it has one, its capacity. -/
structure AV (V : Type) where
  xs : List V
  loc : Option Nat
  cap : Nat

abbrev World (V : Type) := Nat → Option (AV V)

def World.set (A : World V) (i : Nat) (a : Option (AV V)) : World V := fun k => if k = i then a else A k

theorem World.set_same (A : World V) (i : Nat) (a : Option (AV V)) : A.set i a i = a := by
  simp [World.set]
theorem World.set_other {A : World V} {i j : Nat} {a : Option (AV V)} (h : j ≠ i) :
    A.set i a j = A j := by simp [World.set, h]
@[simp] theorem World.set_set (A : World V) (i : Nat) (a b : Option (AV V)) :
    (A.set i a).set i b = A.set i b := by
  funext k; simp only [World.set]; split <;> rfl
theorem World.set_self {A : World V} {i : Nat} {a : Option (AV V)} (h : A i = a) : A.set i a = A := by
  funext k; simp only [World.set]
  split
  · rename_i h1; rw [h1, h]
  · rfl
theorem World.set_comm {A : World V} {i j : Nat} {a b : Option (AV V)} (h : i ≠ j) :
    (A.set i a).set j b = (A.set j b).set i a := by
  funext k; simp only [World.set]
  by_cases h1 : k = i <;> by_cases h2 : k = j <;> simp_all

def AV.data (a : AV V) (i : Nat) : Blk := match a.loc with
  | none => .inner i
  | some k => .heap k

/-- The cells of a block that contains the elements `xs`. -/
def cellsOf (xs : List V) : Nat → Cell V := fun k => match xs[k]? with
  | some v => .live v
  | none => .raw

theorem cellsOf_lt {xs : List V} {k : Nat} (h : k < xs.length) : cellsOf xs k = .live xs[k] := by
  simp [cellsOf, List.getElem?_eq_getElem h]
theorem cellsOf_ge {xs : List V} {k : Nat} (h : xs.length ≤ k) : cellsOf xs k = .raw := by
  simp [cellsOf, List.getElem?_eq_none h]
theorem cellsOf_nil : cellsOf ([] : List V) = fun _ => .raw := by funext k; simp [cellsOf]

theorem cellsOf_alive {xs : List V} {k : Nat} (h : k < xs.length) : Alive (cellsOf xs k) :=
  ⟨_, cellsOf_lt h⟩

/-- Equality with the cells of a list. -/
theorem eq_cellsOf {c : Nat → Cell V} {xs : List V}
    (h1 : ∀ k (h : k < xs.length), c k = .live xs[k]) (h2 : ∀ k, xs.length ≤ k → c k = .raw) :
    c = cellsOf xs := by
  funext k
  rcases Nat.lt_or_ge k xs.length with h | h
  · rw [h1 k h, cellsOf_lt h]
  · rw [h2 k h, cellsOf_ge h]

theorem cellsOf_inj {xs ys : List V} (h : cellsOf xs = cellsOf ys) : xs = ys := by
  apply List.ext_getElem?
  intro k
  have := congrFun h k
  simp only [cellsOf] at this
  cases hx : xs[k]? <;> cases hy : ys[k]? <;> rw [hx, hy] at this <;> simp at this ⊢
  exact this

/-- Cells that are alive up to an index are those of some list. -/
theorem exists_cellsOf (n : Nat) : ∀ (c : Nat → Cell V), (∀ k, k < n → Alive (c k)) →
    (∀ k, n ≤ k → c k = .raw) → ∃ xs : List V, xs.length = n ∧ c = cellsOf xs := by
  induction n with
  | zero =>
      intro c _ h2
      exact ⟨[], rfl, by rw [cellsOf_nil]; funext k; exact h2 k (by omega)⟩
  | succ n ih =>
      intro c h1 h2
      obtain ⟨v, hv⟩ := h1 n (by omega)
      obtain ⟨xs, hl, hc⟩ := ih (upd c n .raw)
        (fun k hk => by rw [upd_other (by omega)]; exact h1 k (by omega))
        (fun k hk => by
          by_cases h : k = n
          · subst h; rw [upd_same]
          · rw [upd_other h]; exact h2 k (by omega))
      refine ⟨xs ++ [v], by simp [hl], ?_⟩
      refine eq_cellsOf ?_ ?_
      · intro k h
        simp only [List.length_append, List.length_singleton] at h
        by_cases hk : k < n
        · have := congrFun hc k
          rw [upd_other (by omega), cellsOf_lt (by omega)] at this
          rw [this, List.getElem_append_left (by omega)]
        · have : k = n := by omega
          subst this
          rw [hv, List.getElem_append_right (by omega)]
          simp
      · intro k h
        simp only [List.length_append, List.length_singleton] at h
        exact h2 k (by omega)

structure Rel (t : Traits V) (s : St V) (A : World V) : Prop where
  vecs : ∀ i, s.vec i = (A i).map fun a => ⟨a.data i, a.cap, a.xs.length⟩
  inner : ∀ i, s.mem (.inner i) = (A i).map fun a =>
    ⟨t.inCap, if a.loc = none then cellsOf a.xs else fun _ => .raw⟩
  heap : ∀ k b, s.mem (.heap k) = some b → ∃ i a, A i = some a ∧ a.loc = some k
  owned : ∀ i a k, A i = some a → a.loc = some k → s.mem (.heap k) = some ⟨a.cap, cellsOf a.xs⟩
  uniq : ∀ i j a b k, A i = some a → A j = some b → a.loc = some k → b.loc = some k → i = j
  fresh : ∀ k, s.nxt ≤ k → s.mem (.heap k) = none
  wf : ∀ i a, A i = some a → a.xs.length ≤ a.cap ∧ a.cap < sizeLim ∧
    (a.loc = none → a.cap = t.inCap) ∧ (a.loc ≠ none → t.inCap < a.cap)

variable {A : World V} {i j : Nat} {a b : AV V}

theorem Rel.vec (h : Rel t s A) (hi : A i = some a) :
    s.vec i = some ⟨a.data i, a.cap, a.xs.length⟩ := by rw [h.vecs, hi]; rfl

theorem Rel.mem (h : Rel t s A) (hi : A i = some a) :
    s.mem (a.data i) = some ⟨a.cap, cellsOf a.xs⟩ := by
  unfold AV.data
  cases hl : a.loc with
  | none =>
      simp only
      rw [h.inner, hi]
      simp only [Option.map_some, hl, if_true]
      rw [(h.wf i a hi).2.2.1 hl]
  | some k => exact h.owned i a k hi hl

theorem Rel.len (h : Rel t s A) (hi : A i = some a) : a.xs.length ≤ a.cap := (h.wf i a hi).1
theorem Rel.lim (h : Rel t s A) (hi : A i = some a) : a.cap < sizeLim := (h.wf i a hi).2.1
theorem Rel.inCap_le (h : Rel t s A) (hi : A i = some a) : t.inCap ≤ a.cap := by
  cases hl : a.loc with
  | none => exact Nat.le_of_eq ((h.wf i a hi).2.2.1 hl).symm
  | some k => exact Nat.le_of_lt ((h.wf i a hi).2.2.2 (by rw [hl]; simp))
theorem Rel.loc_none_iff (h : Rel t s A) (hi : A i = some a) : a.loc = none ↔ a.cap = t.inCap := by
  constructor
  · exact (h.wf i a hi).2.2.1
  · intro hc
    cases hl : a.loc with
    | none => rfl
    | some k => have := (h.wf i a hi).2.2.2 (by rw [hl]; simp); omega

theorem Rel.loc_lt (h : Rel t s A) (hi : A i = some a) {k : Nat} (hk : a.loc = some k) : k < s.nxt := by
  have h1 := h.owned i a k hi hk
  rcases Nat.lt_or_ge k s.nxt with h2 | h2
  · exact h2
  · rw [h.fresh k h2] at h1; cases h1

theorem Rel.data_ne (h : Rel t s A) (hi : A i = some a) (hj : A j = some b) (hne : i ≠ j) :
    a.data i ≠ b.data j := by
  unfold AV.data
  cases hl : a.loc with
  | none => cases hm : b.loc <;> simp [hne]
  | some k =>
      cases hm : b.loc with
      | none => simp
      | some m =>
          intro he
          simp only [Blk.heap.injEq] at he
          subst he
          exact hne (h.uniq i j a b k hi hj hl hm)

theorem Rel.data_fresh (h : Rel t s A) (hi : A i = some a) : a.data i ≠ .heap s.nxt := by
  intro he
  have h1 := h.mem hi
  rw [he, h.fresh _ (Nat.le_refl _)] at h1
  cases h1

theorem allocated_iff (a : AV V) (i n : Nat) : allocated i ⟨a.data i, a.cap, n⟩ = true ↔ a.loc ≠ none := by
  rw [allocated, decide_eq_true_iff]
  unfold AV.data
  cases hl : a.loc <;> simp

/-- Replacing one vector by another description. -/
theorem Rel.update {s' : St V} {a' : AV V} (h : Rel t s A) (hi : A i = some a)
    (hvec : ∀ j, s'.vec j = if j = i then some ⟨a'.data i, a'.cap, a'.xs.length⟩ else s.vec j)
    (hin : s'.mem (.inner i) =
      some ⟨t.inCap, if a'.loc = none then cellsOf a'.xs else fun _ => .raw⟩)
    (hino : ∀ j, j ≠ i → s'.mem (.inner j) = s.mem (.inner j))
    (hheap : ∀ k, s'.mem (.heap k) = if a'.loc = some k then some ⟨a'.cap, cellsOf a'.xs⟩
      else if a.loc = some k then none else s.mem (.heap k))
    (hloc : a'.loc = a.loc ∨ ∀ k, a'.loc = some k → k = s.nxt)
    (hn : s.nxt ≤ s'.nxt) (hnk : ∀ k, a'.loc = some k → k < s'.nxt)
    (hwf : a'.xs.length ≤ a'.cap ∧ a'.cap < sizeLim ∧
      (a'.loc = none → a'.cap = t.inCap) ∧ (a'.loc ≠ none → t.inCap < a'.cap)) :
    Rel t s' (A.set i (some a')) := by
  have hfree : ∀ j b k, j ≠ i → A j = some b → b.loc = some k → a'.loc ≠ some k ∧ a.loc ≠ some k := by
    intro j b k hj hb hk
    have h1 : a.loc ≠ some k := fun he => hj (h.uniq j i b a k hb hi hk he)
    refine ⟨?_, h1⟩
    intro he
    rcases hloc with h2 | h2
    · exact h1 (h2 ▸ he)
    · have h3 := h2 k he
      have h4 := h.loc_lt hb hk
      omega
  refine ⟨?_, ?_, ?_, ?_, ?_, ?_, ?_⟩
  · intro j
    rw [hvec]
    by_cases hj : j = i
    · subst hj; simp [World.set]
    · rw [if_neg hj, World.set_other hj, h.vecs]
  · intro j
    by_cases hj : j = i
    · subst hj; rw [hin]; simp [World.set]
    · rw [hino j hj, World.set_other hj, h.inner]
  · intro k b hb
    rw [hheap] at hb
    by_cases h1 : a'.loc = some k
    · exact ⟨i, a', World.set_same _ _ _, h1⟩
    · rw [if_neg h1] at hb
      by_cases h2 : a.loc = some k
      · rw [if_pos h2] at hb; cases hb
      · rw [if_neg h2] at hb
        obtain ⟨j, c, hj, hc⟩ := h.heap k b hb
        have hji : j ≠ i := by
          intro he; subst he
          rw [hi] at hj; cases hj; exact h2 hc
        exact ⟨j, c, by rw [World.set_other hji]; exact hj, hc⟩
  · intro j c k hj hc
    by_cases hji : j = i
    · subst hji
      rw [World.set_same] at hj
      cases hj
      rw [hheap, if_pos hc]
    · rw [World.set_other hji] at hj
      obtain ⟨h1, h2⟩ := hfree j c k hji hj hc
      rw [hheap, if_neg h1, if_neg h2]
      exact h.owned j c k hj hc
  · intro p q c d k hp hq hc hd
    by_cases hpi : p = i <;> by_cases hqi : q = i
    · rw [hpi, hqi]
    · subst hpi
      rw [World.set_same] at hp; cases hp
      rw [World.set_other hqi] at hq
      exact absurd hc (hfree q d k hqi hq hd).1
    · subst hqi
      rw [World.set_same] at hq; cases hq
      rw [World.set_other hpi] at hp
      exact absurd hd (hfree p c k hpi hp hc).1
    · rw [World.set_other hpi] at hp
      rw [World.set_other hqi] at hq
      exact h.uniq p q c d k hp hq hc hd
  · intro k hk
    rw [hheap, if_neg (fun he => by have := hnk k he; omega)]
    split
    · rfl
    · exact h.fresh k (by omega)
  · intro j c hj
    by_cases hji : j = i
    · subst hji
      rw [World.set_same] at hj
      cases hj
      exact hwf
    · rw [World.set_other hji] at hj
      exact h.wf j c hj

/-- Changing the elements in place. -/
theorem Rel.inplace (h : Rel t s A) (hi : A i = some a) (xs : List V) (hx : xs.length ≤ a.cap) :
    Rel t ((s.setMem (a.data i) (some ⟨a.cap, cellsOf xs⟩)).setVec i
      (some ⟨a.data i, a.cap, xs.length⟩)) (A.set i (some { a with xs := xs })) := by
  refine h.update (a' := { a with xs := xs }) hi ?_ ?_ ?_ ?_ (Or.inl rfl) (Nat.le_refl _)
    (fun k hk => h.loc_lt hi hk) ⟨hx, (h.wf i a hi).2⟩
  · intro j
    simp only [St.setVec, upd, setMem_vec]
    rfl
  · simp only [setVec_mem, AV.data]
    cases hl : a.loc with
    | none =>
        simp only [setMem_mem, if_true]
        rw [(h.wf i a hi).2.2.1 hl]
    | some k =>
        rw [setMem_mem_other (by simp), h.inner, hi]
        simp [hl]
  · intro j hj
    simp only [setVec_mem, AV.data]
    cases hl : a.loc with
    | none => simp only; rw [setMem_mem_other (by simp [hj])]
    | some k => simp only; rw [setMem_mem_other (by simp)]
  · intro k
    simp only [setVec_mem, AV.data]
    cases hl : a.loc with
    | none => simp only; rw [setMem_mem_other (by simp)]; simp
    | some m =>
        simp only
        by_cases hk : k = m
        · subst hk; simp
        · rw [setMem_mem_other (by simp [hk])]
          have : m ≠ k := fun h => hk h.symm
          simp [this]

theorem setVec_self {v : Vec} (h : s.vec i = some v) : s.setVec i (some v) = s := by
  cases s; simp only [St.setVec] at *; congr 1; funext k
  simp only [upd]
  split
  · rename_i hk; rw [hk, h]
  · rfl

theorem setMem_setVec_comm (s : St V) (b : Blk) (x : Option (Block V)) (i : Nat) (v : Option Vec) :
    (s.setVec i v).setMem b x = (s.setMem b x).setVec i v := rfl

/-- Changing the values of the elements. -/
theorem Rel.values (h : Rel t s A) (hi : A i = some a) (xs : List V) (hx : xs.length = a.xs.length) :
    Rel t (s.setMem (a.data i) (some ⟨a.cap, cellsOf xs⟩)) (A.set i (some { a with xs := xs })) := by
  have := h.inplace hi xs (by rw [hx]; exact h.len hi)
  rwa [setVec_self (by rw [setMem_vec, h.vec hi, hx])] at this

end Gul14.SmallVector
