import Verif.SmallVector.Step

/-!
# C28, C29, C30, C32: SmallVector

The statements use `Shows` (what the member functions size, capacity and iteration return), `Reach`
(states reached by calls whose preconditions are met, with exceptions thrown by element operations and
allocations at any point of the calls listed in `Safe`), and the specification.
-/
namespace Gul14.SmallVector
open LM hiding pure bind
open Spec.Sv (Op Shown Vars legal result returns changes alter put room grown splice History)
variable {V : Type} {w : Fail V} {s : St V} {t : Traits V} {A : World V}

/-- A call that reports `a` and changes nothing, wherever failures are injected. -/
def Reports {α : Type} (s : St V) (x : M V α) (a : α) : Prop := ∀ w n, x w s n = .ok a s n

/-- The vectors that exist, and what they show to their users, is `B`. -/
def Shows (s : St V) (B : Vars V) : Prop := ∀ i, match B i with
  | none => s.vec i = none
  | some x => Reports s (size i) x.elems.length ∧ Reports s (capacity i) x.cap ∧
      Reports s (elements i) x.elems

/-- No vectors, no memory. -/
def start : St V := ⟨fun _ => none, 0, fun _ => none⟩

/-- The states that can be reached. -/
inductive Reach (t : Traits V) : St V → Vars V → Prop
  | start : Reach t start fun _ => none
  | returned {s s' : St V} {B : Vars V} {op : Op V} {w : Fail V} {n n' : Nat} {r : Option Nat}
      (h : Reach t s B) (hl : legal B op) (hs : w.at? = none ∨ Safe t B op)
      (hr : run t op w s n = .ok r s' n') : Reach t s' (result t.inCap t.dflt B op)
  | threw {s s' : St V} {B B' : Vars V} {op : Op V} {w : Fail V} {n n' : Nat}
      (h : Reach t s B) (hl : legal B op) (hs : w.at? = none ∨ Safe t B op)
      (hr : run t op w s n = .throw s' n') (hB : Shows s' B') : Reach t s' B'

/-! ### observers -/

theorem reports_getVec {i : Nat} {a : AV V} (h : Rel t s A) (hi : A i = some a) :
    Reports s (getVec i) ⟨a.data i, a.cap, a.xs.length⟩ := by
  intro w n; unfold getVec; rw [h.vec hi]

theorem reports_bind {α β : Type} {x : M V α} {f : α → M V β} {a : α} {b : β} (h1 : Reports s x a)
    (h2 : Reports s (f a) b) : Reports s (x >>= f) b := by
  intro w n; rw [bind_apply, h1 w n]; exact h2 w n

theorem reports_pure {α : Type} (a : α) : Reports s (Pure.pure a : M V α) a := fun _ _ => rfl

theorem reports_getCell {i k : Nat} {a : AV V} (h : Rel t s A) (hi : A i = some a) (hk : k < a.xs.length) :
    Reports s (getCell (a.data i) k) a.xs[k] := by
  intro w n
  unfold getCell
  rw [h.mem hi]
  have := h.len hi
  simp only [cellsOf_lt hk]
  rw [if_pos (by omega)]

theorem reports_readFrom {i : Nat} {a : AV V} (h : Rel t s A) (hi : A i = some a) :
    ∀ cnt k, k + cnt = a.xs.length → Reports s (readFrom (a.data i) k cnt) (a.xs.drop k) := by
  intro cnt
  induction cnt with
  | zero =>
      intro k hk
      rw [List.drop_eq_nil_of_le (by omega)]
      exact reports_pure _
  | succ cnt ih =>
      intro k hk
      rw [List.drop_eq_getElem_cons (by omega)]
      exact reports_bind (reports_getCell h hi (by omega))
        (reports_bind (ih (k + 1) (by omega)) (reports_pure _))

theorem reports_elements {i : Nat} {a : AV V} (h : Rel t s A) (hi : A i = some a) :
    Reports s (elements i) a.xs := by
  have := reports_readFrom h hi a.xs.length 0 (by omega)
  exact reports_bind (reports_getVec h hi) this

theorem shows_of_rel (h : Rel t s A) : Shows s (view A) := by
  intro i
  cases hA : A i with
  | none => simp only [view, hA, Option.map_none]; rw [h.vecs, hA]; rfl
  | some a =>
      simp only [view, hA, Option.map_some]
      exact ⟨reports_bind (reports_getVec h hA) (reports_pure _),
        reports_bind (reports_getVec h hA) (reports_pure _), reports_elements h hA⟩

/-- What the vectors show is determined by the state. -/
theorem shows_unique [Inhabited V] {B B' : Vars V} (h : Shows s B) (h' : Shows s B') : B = B' := by
  funext i
  have h1 := h i
  have h2 := h' i
  let w : Fail V := ⟨none, default⟩
  have key : ∀ (B : Vars V) x, B i = some x → Shows s B → s.vec i ≠ none := by
    intro B x hx hs hv
    have h3 := hs i
    rw [hx] at h3
    have := h3.1 w 0
    unfold size at this
    rw [bind_apply] at this
    unfold getVec at this
    rw [hv] at this
    cases this
  cases hB : B i with
  | none =>
      cases hB' : B' i with
      | none => rfl
      | some y => rw [hB] at h1; exact absurd h1 (key B' y hB' h')
  | some x =>
      cases hB' : B' i with
      | none => rw [hB'] at h2; exact absurd h2 (key B x hB h)
      | some y =>
          rw [hB] at h1
          rw [hB'] at h2
          have e1 := (h1.2.1 w 0).symm.trans (h2.2.1 w 0)
          have e2 := (h1.2.2 w 0).symm.trans (h2.2.2 w 0)
          injection e1 with e1
          injection e2 with e2
          congr
          cases x; cases y
          simp_all

theorem rel_start : Rel t (start : St V) fun _ => none where
  vecs _ := rfl
  inner _ := rfl
  heap _ _ h := by cases h
  owned _ _ _ h := by cases h
  uniq _ _ _ _ _ h := by cases h
  fresh _ _ := rfl
  wf _ _ h := by cases h

theorem safe_of {op : Op V} {B : Vars V} (h : w.at? = none ∨ Safe t B op) : w.at? ≠ none → Safe t B op :=
  fun hw => h.resolve_left hw

/-- The invariant holds in every reachable state. -/
theorem reach_rel [Inhabited V] {B : Vars V} (hin : t.inCap < sizeLim) (h : Reach t s B) :
    ∃ A, Rel t s A ∧ view A = B := by
  induction h with
  | start => exact ⟨fun _ => none, rel_start, rfl⟩
  | @returned s s' B op w n n' r h hl hs hr ih =>
      obtain ⟨A, hA, hv⟩ := ih
      subst hv
      have := step op hA hin hl (safe_of hs) n
      rw [hr] at this
      obtain ⟨_, A', h1, h2, _⟩ := this
      exact ⟨A', h1, h2⟩
  | @threw s s' B B' op w n n' h hl hs hr hB ih =>
      obtain ⟨A, hA, hv⟩ := ih
      subst hv
      have := step op hA hin hl (safe_of hs) n
      rw [hr] at this
      obtain ⟨_, A', h1, _, _⟩ := this
      exact ⟨A', h1, shows_unique (shows_of_rel h1) hB⟩

/-! ### C28 -/

variable [Inhabited V]

/-- **C28.**  In every reachable state the vectors show what the specification says. -/
theorem c28_shows {B : Vars V} (hin : t.inCap < 2 ^ 32) (h : Reach t s B) : Shows s B := by
  obtain ⟨A, hA, hv⟩ := reach_rel hin h
  subst hv
  exact shows_of_rel hA

/-- **C28.**  Every call whose preconditions are met returns, with the effect of the specification on
all vectors, unless an element operation or an allocation throws; in this case the exception comes out
and all vectors the call is not about stay as they were (or the program ends, but only in the two
calls listed in `EndsProgram`, see `c28_noexcept_allocation_violated`). -/
theorem c28_call {B : Vars V} {op : Op V} (hin : t.inCap < 2 ^ 32) (h : Reach t s B) (hl : legal B op)
    (hs : w.at? = none ∨ Safe t B op) (n : Nat) :
    (∃ s' n', run t op w s n = .ok (returns op) s' n' ∧
        Shows s' (result t.inCap t.dflt B op)) ∨
    (w.at? ≠ none ∧ ∃ s' n' B', run t op w s n = .throw s' n' ∧ Shows s' B' ∧
        (∀ i, B' i = none ↔ B i = none) ∧ ∀ i, i ∉ changes op → B' i = B i) ∨
    (w.at? ≠ none ∧ EndsProgram t op ∧ run t op w s n = .terminate) := by
  obtain ⟨A, hA, hv⟩ := reach_rel hin h
  subst hv
  rcases wp_elim (step op hA hin hl (safe_of hs)) n with ⟨r, s', n', hr, hd⟩ | ⟨s', n', hr, hw, hd⟩ | ⟨hr, hw⟩
  · obtain ⟨h1, A', h2, h3, _⟩ := hd
    subst h1
    exact Or.inl ⟨s', n', hr, by rw [← h3]; exact shows_of_rel h2⟩
  · obtain ⟨A', h2, h3, h4⟩ := hd
    refine Or.inr (Or.inl ⟨hw, s', n', view A', hr, shows_of_rel h2, ?_, ?_⟩)
    · intro i
      have := h3 i
      simp only [view, Option.map_eq_none_iff]
      exact this
    · intro i hi
      simp only [view, h4 i hi]
  · exact Or.inr (Or.inr ⟨hw.1, hw.2, hr⟩)

/-- A program: a list of calls. -/
def runAll (t : Traits V) : List (Op V) → M V Unit
  | [] => pure ()
  | op :: ops => do
      let _ ← run t op
      runAll t ops

/-- **C28.**  Every history of calls (whose arguments do not refer to elements of vectors) leads to the
vectors one gets by carrying out the same operations on lists. -/
theorem c28_history {B : Vars V} {ops : List (Op V)} (hin : t.inCap < 2 ^ 32)
    (h : History t.inCap t.dflt (fun _ => none) ops B) (left : V) (n : Nat) :
    ∃ s n', runAll t ops ⟨none, left⟩ start n = .ok () s n' ∧ Shows s B ∧ Reach t s B := by
  have key : ∀ {B0 : Vars V} {ops}, History t.inCap t.dflt B0 ops B → ∀ (s0 : St V) n, Reach t s0 B0 →
      ∃ s n', runAll t ops ⟨none, left⟩ s0 n = .ok () s n' ∧ Reach t s B := by
    clear h
    intro B0 ops h
    induction h with
    | nil B => intro s0 n hr; exact ⟨s0, n, rfl, hr⟩
    | @cons B B' op ops hl ht ih =>
        intro s0 n hr
        rcases c28_call (w := ⟨none, left⟩) hin hr hl (Or.inl rfl) n with ⟨s', n', h1, h2⟩ | ⟨hw, _⟩ | ⟨hw, _⟩
        · obtain ⟨s, n'', h3, h4⟩ := ih s' n' (Reach.returned hr hl (Or.inl rfl) h1)
          refine ⟨s, n'', ?_, h4⟩
          simp only [runAll, bind_apply, h1, h3]
        · exact absurd rfl hw
        · exact absurd rfl hw
  obtain ⟨s, n', h1, h2⟩ := key h start n Reach.start
  exact ⟨s, n', h1, c28_shows hin h2, h2⟩

/-- **C28.**  Element access and comparison. -/
theorem c28_access {B : Vars V} {i : Nat} {x : Shown V} (hin : t.inCap < 2 ^ 32) (h : Reach t s B)
    (hi : B i = some x) :
    (∀ k (hk : k < x.elems.length), Reports s (index i k) x.elems[k]) ∧
    (∀ k (hk : k < x.elems.length), Reports s (at_ i k) x.elems[k]) ∧
    (∀ k, x.elems.length ≤ k → ∀ w n, (at_ i k : M V V) w s n = .throw s n) ∧
    (∀ hne : x.elems ≠ [], Reports s (front i) (x.elems.head hne) ∧ Reports s (back i) (x.elems.getLast hne)) ∧
    Reports s (empty i) x.elems.isEmpty := by
  obtain ⟨A, hA, hv⟩ := reach_rel hin h
  subst hv
  obtain ⟨a, ha, e1, e2⟩ := view_some hi
  cases x
  subst e1 e2
  have hg := reports_getVec hA ha
  refine ⟨?_, ?_, ?_, ?_, ?_⟩
  · intro k hk
    exact reports_bind hg (reports_getCell hA ha hk)
  · intro k hk
    refine reports_bind hg ?_
    simp only
    rw [if_neg (by simp only at hk; omega)]
    exact reports_getCell hA ha hk
  · intro k hk w n
    unfold at_
    rw [bind_apply, hg w n]
    simp only
    rw [if_pos (by simp only at hk; omega)]
    rfl
  · intro hne
    simp only at hne
    have hl : 0 < a.xs.length := List.length_pos_iff.mpr hne
    refine ⟨reports_bind hg ?_, reports_bind hg ?_⟩
    · simp only
      rw [List.head_eq_getElem]
      exact reports_getCell hA ha hl
    · simp only
      rw [if_neg (by omega), List.getLast_eq_getElem]
      exact reports_getCell hA ha (by omega)
  · refine reports_bind hg ?_
    simp only
    have : a.xs.isEmpty = decide (a.xs.length = 0) := by cases a.xs <;> simp
    rw [this]
    exact reports_pure _

/-- **C28.**  operator== compares the sizes and the elements one by one. -/
theorem c28_equal {B : Vars V} {i j : Nat} {x y : Shown V} (hin : t.inCap < 2 ^ 32) (h : Reach t s B)
    (hi : B i = some x) (hj : B j = some y) (eq : V → V → Bool) :
    ∃ r, Reports s (equal eq i j) r ∧ (r = true ↔ x.elems.length = y.elems.length ∧
      ∀ k (h1 : k < x.elems.length) (h2 : k < y.elems.length), eq x.elems[k] y.elems[k] = true) := by
  obtain ⟨A, hA, hv⟩ := reach_rel hin h
  subst hv
  obtain ⟨a, ha, e1, e2⟩ := view_some hi
  obtain ⟨b, hb, e3, e4⟩ := view_some hj
  cases x; cases y
  subst e1 e2 e3 e4
  refine ⟨_, reports_bind (reports_elements hA ha) (reports_bind (reports_elements hA hb) (reports_pure _)), ?_⟩
  simp only [Bool.and_eq_true, beq_iff_eq, List.all_eq_true]
  refine and_congr_right fun hl => ?_
  constructor
  · intro h k h1 h2
    refine h (a.xs[k], b.xs[k]) ?_
    rw [List.mem_iff_getElem]
    exact ⟨k, by rw [List.length_zip]; omega, by simp⟩
  · intro h p hp
    obtain ⟨k, hk, rfl⟩ := List.mem_iff_getElem.mp hp
    rw [List.length_zip] at hk
    rw [List.getElem_zip]
    exact h k (by omega) (by omega)

/-! ### C29 -/

/-- **C29.**  No call whose preconditions are met has undefined behaviour: it accesses no dead element,
constructs over no live element, frees no memory twice or with live elements in it.  (For calls during
which an exception is thrown this is shown for those listed in `Safe`; the others leak, see the
theorems with the suffix `_violated`.) -/
theorem c29_no_dead_access_partial {B : Vars V} {op : Op V} (hin : t.inCap < 2 ^ 32) (h : Reach t s B)
    (hl : legal B op) (hs : w.at? = none ∨ Safe t B op) (n : Nat) : run t op w s n ≠ .ub := by
  rcases c28_call hin h hl hs n with ⟨s', n', h1, _⟩ | ⟨_, s', n', B', h1, _⟩ | ⟨_, _, h1⟩ <;> rw [h1] <;> simp

/-- **C29.**  In every reachable state the live elements are exactly the elements of the vectors, the
memory blocks are exactly the internal arrays of the vectors and the blocks the vectors use, and no two
vectors share a block: nothing has leaked. -/
theorem c29_balance {B : Vars V} (hin : t.inCap < 2 ^ 32) (h : Reach t s B) :
    (∀ b x k, s.mem b = some x → ((∃ v, x.cell k = .live v) ↔
      ∃ i y, B i = some y ∧ Reports s (data i) b ∧ k < y.elems.length)) ∧
    (∀ b, s.mem b ≠ none ↔ ∃ i y, B i = some y ∧ (b = .inner i ∨ Reports s (data i) b)) ∧
    (∀ i j b, B i ≠ none → B j ≠ none → Reports s (data i) b → Reports s (data j) b → i = j) := by
  obtain ⟨A, hA, hv⟩ := reach_rel hin h
  subst hv
  have hdata : ∀ i a, A i = some a → Reports s (data i) (a.data i) := fun i a ha =>
    reports_bind (reports_getVec hA ha) (reports_pure _)
  let w0 : Fail V := ⟨none, default⟩
  have hinj : ∀ i a b, A i = some a → Reports s (data i) b → b = a.data i := by
    intro i a b ha hb
    have := (hb w0 0).symm.trans (hdata i a ha w0 0)
    injection this
  have hdi : ∀ i j (a : AV V), a.data i = .inner j → i = j ∧ a.loc = none := by
    intro i j a h
    unfold AV.data at h
    cases hl : a.loc <;> rw [hl] at h <;> cases h
    exact ⟨rfl, rfl⟩
  have hdh : ∀ i k (a : AV V), a.data i = .heap k → a.loc = some k := by
    intro i k a h
    unfold AV.data at h
    cases hl : a.loc <;> rw [hl] at h <;> cases h
    rfl
  have hown : ∀ i a, A i = some a → ∀ x k, s.mem (a.data i) = some x →
      ((∃ v, x.cell k = .live v) ↔ k < a.xs.length) := by
    intro i a ha x k hx
    rw [hA.mem ha] at hx
    cases hx
    simp only
    constructor
    · rintro ⟨v, hv⟩
      rcases Nat.lt_or_ge k a.xs.length with h | h
      · exact h
      · rw [cellsOf_ge h] at hv; cases hv
    · intro hk; exact ⟨_, cellsOf_lt hk⟩
  have huniq : ∀ i j a b, A i = some a → A j = some b → a.data i = b.data j → i = j := by
    intro i j a b ha hb hab
    cases hl : b.data j with
    | inner k => rw [hl] at hab; have := hdi i k a hab; have := hdi j k b hl; omega
    | heap k => rw [hl] at hab; exact hA.uniq i j a b k ha hb (hdh _ _ _ hab) (hdh _ _ _ hl)
  refine ⟨?_, ?_, ?_⟩
  · intro b x k hb
    constructor
    · intro hv
      cases b with
      | inner i =>
          have h1 := hA.inner i
          rw [hb] at h1
          cases ha : A i with
          | none => rw [ha] at h1; cases h1
          | some a =>
              rw [ha] at h1
              simp only [Option.map_some, Option.some.injEq] at h1
              cases hl : a.loc with
              | none =>
                  have hd : a.data i = .inner i := by simp [AV.data, hl]
                  refine ⟨i, ⟨a.xs, a.cap⟩, by simp [view, ha], by rw [← hd]; exact hdata i a ha, ?_⟩
                  exact (hown i a ha x k (by rw [hd]; exact hb)).mp hv
              | some m =>
                  obtain ⟨v, hv⟩ := hv
                  rw [h1, hl] at hv
                  simp at hv
      | heap m =>
          obtain ⟨i, a, ha, hl⟩ := hA.heap m x hb
          have hd : a.data i = .heap m := by simp [AV.data, hl]
          refine ⟨i, ⟨a.xs, a.cap⟩, by simp [view, ha], by rw [← hd]; exact hdata i a ha, ?_⟩
          exact (hown i a ha x k (by rw [hd]; exact hb)).mp hv
    · rintro ⟨i, y, hy, hd, hk⟩
      obtain ⟨a, ha, e1, e2⟩ := view_some hy
      rw [hinj i a b ha hd] at hb
      exact (hown i a ha x k hb).mpr (by rw [e1]; exact hk)
  · intro b
    constructor
    · intro hb
      cases b with
      | inner i =>
          have h1 := hA.inner i
          cases ha : A i with
          | none => rw [ha] at h1; exact absurd h1 hb
          | some a => exact ⟨i, ⟨a.xs, a.cap⟩, by simp [view, ha], Or.inl rfl⟩
      | heap m =>
          cases hm : s.mem (.heap m) with
          | none => exact absurd hm hb
          | some x =>
              obtain ⟨i, a, ha, hl⟩ := hA.heap m x hm
              have hd : a.data i = .heap m := by simp [AV.data, hl]
              exact ⟨i, ⟨a.xs, a.cap⟩, by simp [view, ha], Or.inr (by rw [← hd]; exact hdata i a ha)⟩
    · rintro ⟨i, y, hy, hb⟩
      obtain ⟨a, ha, e1, e2⟩ := view_some hy
      rcases hb with rfl | hb
      · rw [hA.inner, ha]; simp
      · rw [hinj i a b ha hb, hA.mem ha]; simp
  · intro i j b hi hj h1 h2
    cases hi' : view A i with
    | none => exact absurd hi' hi
    | some x =>
        cases hj' : view A j with
        | none => exact absurd hj' hj
        | some y =>
            obtain ⟨a, ha, _⟩ := view_some hi'
            obtain ⟨a', ha', _⟩ := view_some hj'
            exact huniq i j a a' ha ha' ((hinj i a b ha h1).symm.trans (hinj j a' b ha' h2))

/-- **C29.**  When all vectors have been destroyed no memory is left. -/
theorem c29_all_freed {B : Vars V} (hin : t.inCap < 2 ^ 32) (h : Reach t s B) (hB : ∀ i, B i = none)
    (b : Blk) : s.mem b = none := by
  have h1 := (c29_balance hin h).2.1 b
  cases hm : s.mem b with
  | none => rfl
  | some x =>
      obtain ⟨i, y, hy, _⟩ := h1.mp (by rw [hm]; simp)
      rw [hB i] at hy; cases hy

/-! ### C30 -/

/-- **C30.**  Sizes and capacities in every reachable state, and where the elements are. -/
theorem c30_bounds {B : Vars V} {i : Nat} {x : Shown V} (hin : t.inCap < 2 ^ 32) (h : Reach t s B)
    (hi : B i = some x) :
    innerCapacity t ≤ x.cap ∧ x.elems.length ≤ x.cap ∧ x.cap ≤ maxSize ∧
    (Reports s (data i) (.inner i) ↔ x.cap = innerCapacity t) := by
  obtain ⟨A, hA, hv⟩ := reach_rel hin h
  subst hv
  obtain ⟨a, ha, e1, e2⟩ := view_some hi
  cases x
  subst e1 e2
  have h1 := hA.lim ha
  refine ⟨hA.inCap_le ha, hA.len ha, by unfold maxSize; simp only; omega, ?_⟩
  have hd : Reports s (data i) (a.data i) := reports_bind (reports_getVec hA ha) (reports_pure _)
  unfold innerCapacity
  rw [← hA.loc_none_iff ha]
  constructor
  · intro hr
    have := (hd ⟨none, default⟩ 0).symm.trans (hr ⟨none, default⟩ 0)
    injection this with this
    unfold AV.data at this
    cases hl : a.loc with
    | none => rfl
    | some k => rw [hl] at this; cases this
  · intro hl
    have : a.data i = .inner i := by simp [AV.data, hl]
    rw [← this]; exact hd

/-- Calls that exchange the memory of vectors. -/
def Exchanges : Op V → Prop
  | .newMove _ _ | .moveAssign _ _ | .swap _ _ => True
  | _ => False

/-- **C30.**  A vector that keeps its capacity during a call (other than swap and move) keeps its
memory: pointers to its elements remain pointers to its elements. -/
theorem c30_stable {B : Vars V} {op : Op V} {i : Nat} {x x' : Shown V} {s' : St V} {n n' : Nat}
    {r : Option Nat} {b : Blk} (hin : t.inCap < 2 ^ 32)
    (h : Reach t s B) (hl : legal B op) (hs : w.at? = none ∨ Safe t B op)
    (hr : run t op w s n = .ok r s' n') (hx : ¬ Exchanges op) (hi : B i = some x)
    (hi' : result t.inCap t.dflt B op i = some x') (hc : x'.cap = x.cap) (hd : Reports s (data i) b) :
    Reports s' (data i) b := by
  obtain ⟨A, hA, hv⟩ := reach_rel hin h
  subst hv
  have := step op hA hin hl (safe_of hs) n
  rw [hr] at this
  obtain ⟨_, A', h1, h2, h3⟩ := this
  rw [← h2] at hi'
  obtain ⟨a, ha, e1, e2⟩ := view_some hi
  obtain ⟨a', ha', e3, e4⟩ := view_some hi'
  have hloc := h3 (fun i j => ⟨by rintro rfl; exact hx trivial, by rintro rfl; exact hx trivial,
    by rintro rfl; exact hx trivial⟩) i a a' ha ha' (by omega)
  have hd0 : Reports s (data i) (a.data i) := reports_bind (reports_getVec hA ha) (reports_pure _)
  have hd1 : Reports s' (data i) (a'.data i) := reports_bind (reports_getVec h1 ha') (reports_pure _)
  have e : b = a.data i := by
    have := (hd ⟨none, default⟩ 0).symm.trans (hd0 ⟨none, default⟩ 0)
    injection this
  have e' : a'.data i = a.data i := by simp [AV.data, hloc]
  rw [e, ← e']; exact hd1

/-- Calls that may reduce the capacity of a vector or replace its memory. -/
def Shrinks : Op V → Prop
  | .shrinkToFit _ | .delete _ | .newMove _ _ | .moveAssign _ _ | .swap _ _ => True
  | _ => False

omit [Inhabited V] in
theorem alter_self {B : Vars V} {i : Nat} {x x' : Shown V} {f : Shown V → Shown V} (hi : B i = some x)
    (h : alter B i f i = some x') : x' = f x := by
  simp only [alter, if_true, hi, Option.map_some, Option.some.injEq] at h
  exact h.symm

/-- **C30.**  As long as the size does not exceed the capacity (for example one obtained by reserve), no
call except shrink_to_fit, move and swap changes the capacity. -/
theorem c30_no_reallocation {B : Vars V} {op : Op V} {i : Nat} {x x' : Shown V} (hin : t.inCap < 2 ^ 32)
    (h : Reach t s B) (hl : legal B op) (hx : ¬ Shrinks op) (hres : ∀ m, op = .reserve i m → m ≤ x.cap)
    (hi : B i = some x) (hi' : result t.inCap t.dflt B op i = some x')
    (hfit : x'.elems.length ≤ x.cap) : x'.cap = x.cap := by
  have hb := c30_bounds hin h hi
  have hput : ∀ {j : Nat} {y : Option (Shown V)}, B j = none → put B j y i = some x' → x' = x := by
    intro j y hj hp
    unfold put at hp
    by_cases hij : i = j
    · subst hij; rw [hj] at hi; cases hi
    · rw [if_neg hij, hi] at hp; cases hp; rfl
  have halt : ∀ {j : Nat} {f : Shown V → Shown V}, alter B j f i = some x' →
      (j = i → (f x).elems.length ≤ x.cap → (f x).cap = x.cap) → x'.cap = x.cap := by
    intro j f ha hf
    by_cases hij : i = j
    · subst hij
      have := alter_self hi ha
      subst this
      exact hf rfl hfit
    · unfold alter at ha
      rw [if_neg hij, hi] at ha
      cases ha; rfl
  cases op with
  | new j => rw [hput hl hi']
  | newN j n => rw [hput hl.1 hi']
  | newNV j n v => rw [hput hl.1 hi']
  | newRange j ys => rw [hput hl.1 hi']
  | newCopy j k => rw [hput hl.1 hi']
  | newMove j k => exact absurd trivial hx
  | delete j => exact absurd trivial hx
  | clear j => exact halt hi' (fun _ _ => rfl)
  | reserve j n =>
      refine halt hi' ?_
      rintro rfl _
      have := hres n rfl
      simp only; omega
  | pushBack j rv v =>
      refine halt hi' (fun _ hf => ?_)
      simp only [List.length_append, List.length_singleton] at hf
      simp only [room]; rw [if_pos (by omega)]
  | emplaceBack j v =>
      refine halt hi' (fun _ hf => ?_)
      simp only [List.length_append, List.length_singleton] at hf
      simp only [room]; rw [if_pos (by omega)]
  | popBack j => exact halt hi' (fun _ _ => rfl)
  | insert j idx rv v =>
      obtain ⟨y, hy, h1, _⟩ := hl
      refine halt hi' (fun e hf => ?_)
      subst e; rw [hi] at hy; cases hy
      simp only [splice, List.length_append, List.length_singleton, List.length_take, List.length_drop] at hf
      simp only [room]; rw [if_pos (by omega)]
  | emplace j idx v =>
      obtain ⟨y, hy, h1, _⟩ := hl
      refine halt hi' (fun e hf => ?_)
      subst e; rw [hi] at hy; cases hy
      simp only [splice, List.length_append, List.length_singleton, List.length_take, List.length_drop] at hf
      simp only [room]; rw [if_pos (by omega)]
  | insertN j idx n v =>
      obtain ⟨y, hy, h1, _⟩ := hl
      refine halt hi' (fun e hf => ?_)
      subst e; rw [hi] at hy; cases hy
      simp only [splice, List.length_append, List.length_replicate, List.length_take, List.length_drop] at hf
      simp only; omega
  | insertRange j idx ys =>
      obtain ⟨y, hy, h1, _⟩ := hl
      refine halt hi' (fun e hf => ?_)
      subst e; rw [hi] at hy; cases hy
      simp only [splice, List.length_append, List.length_take, List.length_drop] at hf
      simp only; omega
  | erase j a b => exact halt hi' (fun _ _ => rfl)
  | resize j n =>
      refine halt hi' (fun _ hf => ?_)
      simp only [List.length_append, List.length_replicate, List.length_take] at hf
      simp only; omega
  | resizeWith j n v =>
      refine halt hi' (fun _ hf => ?_)
      simp only [List.length_append, List.length_replicate, List.length_take] at hf
      simp only; omega
  | shrinkToFit j => exact absurd trivial hx
  | assignN j n v =>
      refine halt hi' (fun _ hf => ?_)
      simp only [List.length_replicate] at hf
      simp only; omega
  | assignRange j ys =>
      refine halt hi' (fun _ hf => ?_)
      simp only at hf ⊢; omega
  | assignInit j ys =>
      refine halt hi' (fun _ hf => ?_)
      simp only at hf ⊢; omega
  | copyAssign j k =>
      simp only [result] at hi'
      split at hi'
      · rw [hi] at hi'; cases hi'; rfl
      · obtain ⟨_, y, hy⟩ := hl
        refine halt hi' (fun _ hf => ?_)
        simp only [hy] at hf ⊢; omega
  | moveAssign j k => exact absurd trivial hx
  | swap j k => exact absurd trivial hx

/-- **C30.**  reserve and shrink_to_fit. -/
theorem c30_reserve_shrink {B : Vars V} {i n : Nat} {x : Shown V} (hin : t.inCap < 2 ^ 32)
    (h : Reach t s B) (hi : B i = some x) (hn : n ≤ maxSize) (left : V) (c : Nat) :
    (∃ s' c', run t (.reserve i n) ⟨none, left⟩ s c = .ok none s' c' ∧ Reports s' (capacity i) (max x.cap n) ∧
      Reports s' (elements i) x.elems) ∧
    (∃ s' c', run t (.shrinkToFit i) ⟨none, left⟩ s c = .ok none s' c' ∧
      Reports s' (capacity i) (max (innerCapacity t) x.elems.length) ∧ Reports s' (elements i) x.elems) := by
  constructor
  · rcases c28_call (w := ⟨none, left⟩) (op := .reserve i n) hin h ⟨⟨x, hi⟩, hn⟩ (Or.inl rfl) c with
      ⟨s', c', h1, h2⟩ | ⟨hw, _⟩ | ⟨hw, _⟩
    · have := h2 i
      simp only [result, alter, if_true, hi, Option.map_some] at this
      exact ⟨s', c', h1, this.2.1, this.2.2⟩
    · exact absurd rfl hw
    · exact absurd rfl hw
  · rcases c28_call (w := ⟨none, left⟩) (op := .shrinkToFit i) hin h ⟨x, hi⟩ (Or.inl rfl) c with
      ⟨s', c', h1, h2⟩ | ⟨hw, _⟩ | ⟨hw, _⟩
    · have := h2 i
      simp only [result, alter, if_true, hi, Option.map_some] at this
      exact ⟨s', c', h1, this.2.1, this.2.2⟩
    · exact absurd rfl hw
    · exact absurd rfl hw

/-- **C30.**  Growth is geometric: the capacity grows by at least one half (rounded down) and at least
one, or to the maximum; it never exceeds the maximum, and grows unless it is the maximum. -/
theorem c30_geometric (cap : Nat) (h : cap ≤ maxSize) :
    (3 * cap ≤ 2 * grown cap + 1 ∨ grown cap = maxSize) ∧ grown cap ≤ maxSize ∧
    (cap < maxSize → cap < grown cap) := by
  have h1 : maxSize = Spec.Sv.maxSize := rfl
  rw [h1] at *
  unfold grown
  omega

/-- The number of elements moved to a new block by `n` calls of push_back, beginning with a vector of
the given size and capacity. -/
def movesFor (size cap : Nat) : Nat → Nat
  | 0 => 0
  | n + 1 =>
      if size < cap then movesFor (size + 1) cap n
      else size + movesFor (size + 1) (grown cap) n

/-- **C30.**  Geometric growth makes push_back cheap: `n` calls move at most four times as many elements
as the vector contains in the end, however it began. -/
theorem c30_amortized (n size cap : Nat) (h1 : size ≤ cap) (h2 : size + n ≤ maxSize) (h3 : cap ≤ maxSize) :
    movesFor size cap n ≤ 4 * (size + n) := by
  have none' : ∀ n size cap, size + n ≤ cap → movesFor size cap n = 0 := by
    intro n
    induction n with
    | zero => intros; rfl
    | succ n ih =>
        intro size cap h
        unfold movesFor
        rw [if_pos (by omega)]
        exact ih _ _ (by omega)
  have key : ∀ n size cap, size ≤ cap → size + n ≤ maxSize → cap ≤ maxSize →
      movesFor size cap n = 0 ∨ movesFor size cap n + 3 * cap ≤ 4 * (size + n) := by
    have hm : maxSize = Spec.Sv.maxSize := rfl
    intro n
    induction n with
    | zero => intro size cap h1 h2 h3; exact Or.inl rfl
    | succ n ih =>
        intro size cap h1 h2 h3
        unfold movesFor
        by_cases hc : size < cap
        · rw [if_pos hc]
          have := ih (size + 1) cap (by omega) (by omega) h3
          have e : size + 1 + n = size + (n + 1) := by omega
          rw [e] at this; exact this
        · rw [if_neg hc]
          have hsc : size = cap := by omega
          subst hsc
          have hg := c30_geometric size h3
          have hlt := hg.2.2 (by omega)
          right
          rcases ih (size + 1) (grown size) (by omega) (by omega) hg.2.1 with h | h
          · rw [h]; omega
          · by_cases hmax : grown size = maxSize
            · rw [none' n (size + 1) (grown size) (by omega)]; omega
            · have hgd : grown size = size + max 1 (size / 2) := by
                unfold grown at hmax ⊢; omega
              omega
  rcases key n size cap h1 h2 h3 with h | h
  · rw [h]; omega
  · omega

/-- **C30.**  At the maximum size push_back, emplace_back, insert and emplace throw and change
nothing. -/
theorem c30_length_error {B : Vars V} {i idx : Nat} {x : Shown V} (hin : t.inCap < 2 ^ 32) (h : Reach t s B)
    (hi : B i = some x) (hmax : x.elems.length = maxSize) (hidx : idx ≤ x.elems.length)
    (hst : t.nothrowMove = true ∨ t.copyable = true) (v left : V) (rv : Bool) (n : Nat) :
    ∀ op, op = .pushBack i rv v ∨ op = .emplaceBack i v ∨ op = .insert i idx rv v ∨ op = .emplace i idx v →
    ∃ s' n', run t op ⟨none, left⟩ s n = .throw s' n' ∧ Shows s' B := by
  obtain ⟨A, hA, hv⟩ := reach_rel hin h
  subst hv
  obtain ⟨a, ha, e1, e2⟩ := view_some hi
  have hlen := hA.len ha
  have hlim := hA.lim ha
  have hz : maxSize + 1 = sizeLim := by decide
  have fin : ∀ op, wp (run t op) ⟨none, left⟩ s (fun _ _ => False) (fun s' => Shows s' (view A)) False →
      ∃ s' n', run t op ⟨none, left⟩ s n = .throw s' n' ∧ Shows s' (view A) := by
    intro op hw
    rcases wp_elim hw n with ⟨_, _, _, _, h⟩ | h | ⟨_, h⟩
    · exact h.elim
    · exact h
    · exact h.elim
  have no : ∀ {s' : St V} {a' : AV V}, Rel t s' (A.set i (some a')) → a.xs.length + 1 ≤ a'.xs.length → False := by
    intro s' a' hr hl
    have h1 := hr.len (World.set_same _ _ _)
    have h2 := hr.lim (World.set_same _ _ _)
    rw [e1] at hl
    omega
  have yes : ∀ {s' : St V} {a' : AV V}, Rel t s' (A.set i (some a')) → a'.xs = a.xs → Shows s' (view A) := by
    intro s' a' hr hx
    have h1 := hr.len (World.set_same _ _ _)
    have h2 := hr.lim (World.set_same _ _ _)
    have : view A = view (A.set i (some a')) := by
      rw [view_put]
      funext k
      simp only [put]
      split
      · rename_i hk; subst hk
        simp only [Option.map_some, view, ha]
        rw [hx] at h1 ⊢
        rw [e1] at h1 hlen
        have : a.cap = a'.cap := by omega
        rw [this]
      · rfl
    rw [this]; exact shows_of_rel hr
  rintro op (rfl | rfl | rfl | rfl)
  · refine fin _ (wp_then (wp_pushBack hA ha (fun s' a' h1 h2 _ _ => no h1 (by rw [h2]; simp))
      (fun _ s' a' h1 _ h3 => yes h1 (h3 hst))))
  · refine fin _ (wp_then (wp_emplaceBack hA ha (fun s' a' h1 h2 _ _ => no h1 (by rw [h2]; simp))
      (fun _ s' a' h1 _ h3 => yes h1 (h3 hst))))
  · refine fin _ (wp_thenSome (wp_insertSingle hA ha (by rw [e1]; exact hidx) (fun hw => absurd rfl hw)
      (fun s' a' h1 h2 _ _ => no h1 (by rw [h2]; simp; omega))
      (fun _ s' a' h1 h3 => yes h1 (h3 ⟨rfl, hst⟩))))
  · refine fin _ (wp_thenSome (wp_emplace hA ha (by rw [e1]; exact hidx) (fun hw => absurd rfl hw)
      (fun s' a' h1 h2 _ _ => no h1 (by rw [h2]; simp; omega))
      (fun _ s' a' h1 h3 => yes h1 (h3 ⟨rfl, hst⟩))))

/-! ### C32 -/

/-- **C32.**  If push_back, emplace_back or reserve throws, no element of any vector changes (only the
capacity may have grown), and the state is again one in which all calls work and nothing has leaked.
This needs a noexcept move constructor or a copy constructor (as for std::vector). -/
theorem c32_strong_partial {B : Vars V} {i m : Nat} {v : V} {rv : Bool} {op : Op V} {s' : St V} {n n' : Nat}
    (hin : t.inCap < 2 ^ 32) (hst : t.nothrowMove = true ∨ t.copyable = true) (h : Reach t s B)
    (hl : legal B op) (hop : op = .pushBack i rv v ∨ op = .emplaceBack i v ∨ op = .reserve i m)
    (hr : run t op w s n = .throw s' n') :
    ∃ B', Shows s' B' ∧ Reach t s' B' ∧ (∀ j, (B' j).map Shown.elems = (B j).map Shown.elems) ∧
      ∀ j, j ≠ i → B' j = B j := by
  obtain ⟨A, hA, hv⟩ := reach_rel hin h
  subst hv
  have hlegal := hl
  have fin : wp (run t op) w s (fun _ _ => True) (fun s' => ∃ a a', A i = some a ∧
      Rel t s' (A.set i (some a')) ∧ a'.xs = a.xs) True → ∃ B', Shows s' B' ∧ Reach t s' B' ∧
      (∀ j, (B' j).map Shown.elems = (view A j).map Shown.elems) ∧ ∀ j, j ≠ i → B' j = view A j := by
    intro hw
    have := hw n
    rw [hr] at this
    obtain ⟨a, a', ha, h1, h2⟩ := this
    refine ⟨view (A.set i (some a')), shows_of_rel h1, ?_, ?_, ?_⟩
    · refine Reach.threw h hlegal (Or.inr ?_) hr (shows_of_rel h1)
      rcases hop with rfl | rfl | rfl <;> trivial
    · intro j
      by_cases hj : j = i
      · subst hj; simp [view, World.set_same, ha, h2]
      · simp [view, World.set_other hj]
    · intro j hj
      simp [view, World.set_other hj]
  apply fin
  rcases hop with rfl | rfl | rfl
  · obtain ⟨x, hx, _⟩ := hl
    obtain ⟨a, ha, e1, e2⟩ := view_some hx
    exact wp_then (wp_pushBack hA ha (fun _ _ _ _ _ _ => trivial)
      (fun _ s' a' h1 _ h3 => ⟨a, a', ha, h1, h3 hst⟩))
  · obtain ⟨x, hx, _⟩ := hl
    obtain ⟨a, ha, e1, e2⟩ := view_some hx
    exact wp_then (wp_emplaceBack hA ha (fun _ _ _ _ _ _ => trivial)
      (fun _ s' a' h1 _ h3 => ⟨a, a', ha, h1, h3 hst⟩))
  · obtain ⟨⟨x, hx⟩, hn⟩ := hl
    obtain ⟨a, ha, e1, e2⟩ := view_some hx
    exact wp_then (wp_reserve hA ha (by have := lim_eq; omega) (fun _ _ _ _ _ _ => trivial)
      (fun _ s' xs h1 _ h3 => ⟨a, _, ha, h1, h3 hst⟩))

end Gul14.SmallVector
