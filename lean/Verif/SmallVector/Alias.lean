import Verif.SmallVector.Props

/-! # C31: passing elements of a vector to its own member functions -/
namespace Gul14.SmallVector
open LM hiding pure bind
open Spec.Sv (Op Shown Vars legal result returns changes alter put room grown splice History)
variable {V : Type} {w : Fail V} {s : St V} {t : Traits V} {A : World V}

theorem bind_reports {α β : Type} {x : M V α} {f : α → M V β} {a : α} {n : Nat} (h : Reports s x a) :
    (x >>= f) w s n = f a w s n := by rw [bind_apply, h w n]

theorem pushBack_at {i k n : Nat} {a : AV V} (h : Rel t s A) (hi : A i = some a) (hk : k < a.xs.length)
    (hc : a.xs.length < a.cap) :
    pushBack t false i (.at (a.data i) k) w s n = pushBack t false i (.val a.xs[k]) w s n := by
  have hg := reports_getVec h hi
  unfold pushBack
  rw [bind_reports hg, bind_reports hg]
  simp only
  rw [if_neg (by omega)]
  rw [bind_reports (reports_pure ()), bind_reports (reports_pure ()), bind_reports hg, bind_reports hg]
  simp only [Bool.false_eq_true, if_false]
  rw [bind_apply, bind_apply]
  have : copyConstruct t (.at (a.data i) k) (a.data i) a.xs.length w s n =
      copyConstruct t (.val a.xs[k]) (a.data i) a.xs.length w s n := by
    unfold copyConstruct
    rw [bind_reports (x := Src.get (.at (a.data i) k)) (reports_getCell h hi hk),
      bind_reports (x := Src.get (.val a.xs[k])) (reports_pure _)]
  rw [this]

theorem emplaceBack_at {i k n : Nat} {a : AV V} (h : Rel t s A) (hi : A i = some a) (hk : k < a.xs.length)
    (hc : a.xs.length < a.cap) :
    emplaceBack t i (.at (a.data i) k) w s n = emplaceBack t i (.val a.xs[k]) w s n := by
  have hg := reports_getVec h hi
  unfold emplaceBack
  rw [bind_reports hg, bind_reports hg]
  simp only
  rw [if_neg (by omega)]
  rw [bind_reports (reports_pure ()), bind_reports (reports_pure ()), bind_reports hg, bind_reports hg]
  rw [bind_reports (x := Src.get (.at (a.data i) k)) (reports_getCell h hi hk),
      bind_reports (x := Src.get (.val a.xs[k])) (reports_pure _)]

theorem emplace_at {i k idx n : Nat} {a : AV V} (h : Rel t s A) (hi : A i = some a) (hk : k < a.xs.length)
    (hc : idx < a.xs.length ∨ a.xs.length < a.cap) :
    emplace t i idx (.at (a.data i) k) w s n = emplace t i idx (.val a.xs[k]) w s n := by
  have hg := reports_getVec h hi
  unfold emplace
  rw [bind_reports hg, bind_reports hg]
  simp only
  by_cases he : idx = a.xs.length
  · rw [if_pos he, if_pos he, bind_apply, bind_apply, emplaceBack_at h hi hk (by omega)]
  · rw [if_neg he, if_neg he]
    rw [bind_reports (x := Src.get (.at (a.data i) k)) (reports_getCell h hi hk),
      bind_reports (x := Src.get (.val a.xs[k])) (reports_pure _)]

theorem insertEnd_at {i k n : Nat} {a : AV V} (h : Rel t s A) (hi : A i = some a) (hk : k < a.xs.length)
    (hc : a.xs.length < a.cap) :
    insertSingle t false i a.xs.length (.at (a.data i) k) w s n =
      insertSingle t false i a.xs.length (.val a.xs[k]) w s n := by
  have hg := reports_getVec h hi
  unfold insertSingle
  rw [bind_reports hg, bind_reports hg]
  simp only [if_true]
  rw [bind_apply, bind_apply, pushBack_at h hi hk hc]

theorem getCell_put {b : Blk} {k p : Nat} {v : V} {c : Cell V} (h : Reports s (getCell b k) v) (hp : p ≠ k) :
    Reports (s.put b p c) (getCell b k) v := by
  intro w n
  have h1 := h w n
  unfold getCell at h1 ⊢
  unfold St.put
  cases hm : s.mem b with
  | none => rw [hm] at h1; cases h1
  | some x =>
      rw [hm] at h1
      simp only at h1
      simp only [St.setMem, if_true]
      by_cases hk : k < x.len
      · rw [if_pos hk] at h1 ⊢
        have : upd x.cell p c k = x.cell k := upd_other (Ne.symm hp)
        rw [this]
        cases hc : x.cell k with
        | raw => rw [hc] at h1; cases h1
        | live u => rw [hc] at h1; simp only at h1; injection h1 with h1 h2; rw [h1]
      · rw [if_neg hk] at h1; cases h1

theorem construct_ok {nt : Bool} {b : Blk} {p : Nat} {v : V} {s' : St V} {n n' : Nat}
    (h : construct nt b p v w s n = .ok () s' n') : s' = s.put b p (.live v) := by
  unfold construct at h
  rw [bind_apply] at h
  have hcr : ∀ u s1 n1, checkRaw b p w s n = .ok u s1 n1 → s1 = s := by
    intro u s1 n1 h
    unfold checkRaw at h
    split at h
    · split at h
      · split at h
        · injection h with _ h; exact h.symm
        · cases h
      · cases h
    · cases h
  cases hc : checkRaw b p w s n with
  | ok u s1 n1 =>
      rw [hc] at h
      have := hcr u s1 n1 hc
      subst this
      cases nt with
      | true =>
          have h : Out.ok () (s1.put b p (.live v)) n1 = Out.ok () s' n' := h
          injection h with _ h; exact h.symm
      | false =>
          have h : (if w.at? = some n1 then Out.throw s1 (n1 + 1)
            else Out.ok () (s1.put b p (.live v)) (n1 + 1)) = Out.ok () s' n' := h
          split at h
          · cases h
          · injection h with _ h; exact h.symm
  | throw s1 n1 => rw [hc] at h; cases h
  | terminate => rw [hc] at h; cases h
  | ub => rw [hc] at h; cases h

theorem copyValueInto_at {b : Blk} {k pos : Nat} {v : V} (hk : k < pos) : ∀ cnt j (s : St V) n,
    Reports s (getCell b k) v →
    build (fun m => copyConstruct t (.at b k) b (pos + m)) j cnt w s n =
      build (fun m => copyConstruct t (.val v) b (pos + m)) j cnt w s n := by
  intro cnt
  induction cnt with
  | zero => intros; rfl
  | succ cnt ih =>
      intro j s n hr
      unfold build
      rw [bind_apply, bind_apply]
      have e : copyConstruct t (.at b k) b (pos + j) w s n = construct t.nothrowCopy b (pos + j) v w s n := by
        unfold copyConstruct; rw [bind_reports (x := Src.get (.at b k)) hr]
      have e' : copyConstruct t (.val v) b (pos + j) w s n = construct t.nothrowCopy b (pos + j) v w s n := by
        unfold copyConstruct; rw [bind_reports (x := Src.get (.val v)) (reports_pure _)]
      rw [e, e']
      cases hc : construct t.nothrowCopy b (pos + j) v w s n with
      | ok u s' n' =>
          simp only
          refine ih _ _ _ ?_
          rw [construct_ok hc]
          exact getCell_put hr (by omega)
      | throw _ _ => rfl
      | terminate => rfl
      | ub => rfl

theorem resizeWith_at {i k m n : Nat} {a : AV V} (h : Rel t s A) (hi : A i = some a) (hk : k < a.xs.length)
    (hc : m ≤ a.cap) :
    resizeWith t i m (.at (a.data i) k) w s n = resizeWith t i m (.val a.xs[k]) w s n := by
  have hg := reports_getVec h hi
  unfold resizeWith
  rw [bind_reports hg, bind_reports hg]
  simp only
  by_cases h1 : m < a.xs.length
  · rw [if_pos h1, if_pos h1]
  · rw [if_neg h1, if_neg h1]
    by_cases h2 : m > a.xs.length
    · rw [if_pos h2, if_pos h2]
      have hres : Reports s (reserve t i m) () := by
        unfold reserve
        refine reports_bind hg ?_
        simp only
        rw [if_pos hc]
        exact reports_pure _
      have e : ∀ src : Src V, (do
          reserve t i m
          let v ← getVec i
          copyValueInto t v.data v.size (m - v.size) src : M V Unit) w s n =
          build (fun p => copyConstruct t src (a.data i) (a.xs.length + p)) 0 (m - a.xs.length) w s n := by
        intro src
        rw [bind_reports hres, bind_reports hg]
        rfl
      rw [bind_apply]
      rw [e (.at (a.data i) k), copyValueInto_at hk _ _ _ _ (reports_getCell h hi hk), ← e (.val a.xs[k]),
        ← bind_apply]
    · rw [if_neg h2, if_neg h2]

variable [Inhabited V]

/-- **C31** (part).  With a reference to the vector's own element `v[k]`, these calls behave as if the
element had been copied first: push_back, emplace_back, insert at the end and emplace at the end if the
capacity need not grow; emplace before the end always; resize(n, v[k]) if the capacity need not grow.
In the other cases the statement is false (`c31_push_back_violated` and following). -/
theorem c31_own_element_partial {B : Vars V} {i k : Nat} {x : Shown V} {b : Blk} (hin : t.inCap < 2 ^ 32)
    (h : Reach t s B) (hi : B i = some x) (hb : Reports s (data i) b) (hk : k < x.elems.length) (n : Nat) :
    (x.elems.length < x.cap →
      pushBack t false i (.at b k) w s n = pushBack t false i (.val x.elems[k]) w s n ∧
      emplaceBack t i (.at b k) w s n = emplaceBack t i (.val x.elems[k]) w s n ∧
      insertSingle t false i x.elems.length (.at b k) w s n =
        insertSingle t false i x.elems.length (.val x.elems[k]) w s n) ∧
    (∀ idx, idx < x.elems.length ∨ x.elems.length < x.cap →
      emplace t i idx (.at b k) w s n = emplace t i idx (.val x.elems[k]) w s n) ∧
    (∀ m, m ≤ x.cap →
      resizeWith t i m (.at b k) w s n = resizeWith t i m (.val x.elems[k]) w s n) := by
  obtain ⟨A, hA, hv⟩ := reach_rel hin h
  subst hv
  obtain ⟨a, ha, e1, e2⟩ := view_some hi
  cases x
  subst e1 e2
  have hd : Reports s (data i) (a.data i) := reports_bind (reports_getVec hA ha) (reports_pure _)
  have : b = a.data i := by
    have := (hb ⟨none, default⟩ 0).symm.trans (hd ⟨none, default⟩ 0)
    injection this
  subst this
  exact ⟨fun hc => ⟨pushBack_at hA ha hk hc, emplaceBack_at hA ha hk hc, insertEnd_at hA ha hk hc⟩,
    fun idx hc => emplace_at hA ha hk hc, fun m hc => resizeWith_at hA ha hk hc⟩

end Gul14.SmallVector
