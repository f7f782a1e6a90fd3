import Verif.ThreadPool.Spec

/-! # Lemmas about events and lists -/
namespace Gul14.Pool
open Spec.Pool

theorem setW_same (s : St) (w : Nat) (p : Wpc) : (s.setW w p).wpc w = p := by simp [St.setW]
theorem setW_other {s : St} {w k : Nat} {p : Wpc} (h : k ≠ w) : (s.setW w p).wpc k = s.wpc k := by
  simp [St.setW, h]
theorem setC_same (s : St) (c : Who) (p : Cpc) : (s.setC c p).cpc c = p := by simp [St.setC]
theorem setC_other {s : St} {c k : Who} {p : Cpc} (h : k ≠ c) : (s.setC c p).cpc k = s.cpc k := by
  simp [St.setC, h]

theorem accepted_append (es : List Ev) (e : Ev) : accepted (es ++ [e]) = accepted es ++ accepted [e] := by
  induction es with
  | nil => rfl
  | cons x xs ih => cases x <;> simp [accepted, ih]

theorem startedIds_append (es : List Ev) (e : Ev) :
    startedIds (es ++ [e]) = startedIds es ++ startedIds [e] := by
  induction es with
  | nil => rfl
  | cons x xs ih => cases x <;> simp [startedIds, ih]

theorem lifeFrom_append (id : Nat) (f : Fate) (es : List Ev) (e : Ev) :
    lifeFrom id f (es ++ [e]) = (lifeFrom id f es).bind (fun f => next id f e) := by
  induction es generalizing f with
  | nil =>
      simp only [List.nil_append, lifeFrom, Option.bind_some]
      cases next id f e <;> rfl
  | cons x xs ih =>
      simp only [List.cons_append, lifeFrom]
      cases next id f x with
      | none => rfl
      | some f' => exact ih f'

theorem fate_append (es : List Ev) (e : Ev) (id : Nat) :
    fate (es ++ [e]) id = (fate es id).bind (fun f => next id f e) := lifeFrom_append _ _ _ _

theorem shut_append (es : List Ev) (e : Ev) : shut (es ++ [e]) = (shut es || shut [e]) := by
  induction es with
  | nil => simp [shut]
  | cons x xs ih => cases x <;> simp [shut, ih]

theorem clockAfter_append (t : Int) (es : List Ev) (e : Ev) :
    clockAfter t (es ++ [e]) = clockAfter (clockAfter t es) [e] := by
  induction es generalizing t with
  | nil => rfl
  | cons x xs ih => cases x <;> simp [clockAfter, ih]

theorem consumed_append (id : Nat) (es : List Ev) (e : Ev) :
    consumed id (es ++ [e]) = (consumed id es || consumed id [e]) := by
  induction es with
  | nil => simp [consumed]
  | cons x xs ih =>
      cases x with
      | result c i r => cases r <;> simp [consumed, ih, Bool.or_assoc]
      | _ => simp [consumed, ih, Bool.or_assoc]

theorem small_of_append {es : List Ev} {e : Ev} (h : Small (es ++ [e])) : Small es := by
  unfold Small at *
  rw [accepted_append, List.length_append] at h
  omega

/-- Events that do not concern the life of tasks. -/
def neutral : Ev → Bool
  | .added _ _ | .started _ _ _ | .ended _ _ _ | .retired _ _ | .canceled _ _ _ | .cleared _ _
  | .destroyed _ => false
  | _ => true

theorem fate_neutral {es : List Ev} {e : Ev} (h : neutral e = true) (id : Nat) :
    fate (es ++ [e]) id = fate es id := by
  rw [fate_append]
  cases fate es id with
  | none => rfl
  | some f => cases e <;> first | rfl | simp [neutral] at h

theorem accepted_neutral {es : List Ev} {e : Ev} (h : ∀ c t, e ≠ .added c t) :
    accepted (es ++ [e]) = accepted es := by
  rw [accepted_append]
  cases e <;> first | exact absurd rfl (h _ _) | simp [accepted]

theorem startedIds_neutral {es : List Ev} {e : Ev} (h : ∀ w i n, e ≠ .started w i n) :
    startedIds (es ++ [e]) = startedIds es := by
  rw [startedIds_append]
  cases e <;> first | exact absurd rfl (h _ _ _) | simp [startedIds]

theorem shut_neutral {es : List Ev} {e : Ev} (h : ∀ c, e ≠ .shutdown c) : shut (es ++ [e]) = shut es := by
  rw [shut_append]
  cases e <;> first | exact absurd rfl (h _) | simp [shut]

/-! ### Lists -/

theorem filter_of_sublist {α : Type} {l' l : List α} {p : α → Bool} (hs : l'.Sublist l) (hn : l.Nodup)
    (h : ∀ x, x ∈ l → (x ∈ l' ↔ p x = true)) : l' = l.filter p := by
  induction hs with
  | slnil => rfl
  | @cons l1 l2 a hs ih =>
      rw [List.nodup_cons] at hn
      have ha : p a = false := by
        cases hp : p a with
        | false => rfl
        | true =>
            exact absurd (hs.subset ((h a (by simp)).mpr hp)) hn.1
      rw [List.filter_cons_of_neg (by simp [ha])]
      exact ih hn.2 (fun x hx => h x (by simp [hx]))
  | @cons_cons l1 l2 a hs ih =>
      rw [List.nodup_cons] at hn
      have ha : p a = true := (h a (by simp)).mp (by simp)
      rw [List.filter_cons_of_pos ha]
      congr 1
      refine ih hn.2 (fun x hx => ?_)
      rw [← h x (by simp [hx])]
      constructor
      · intro h1; simp [h1]
      · intro h1
        rcases List.mem_cons.mp h1 with rfl | h1
        · exact absurd hx hn.1
        · exact h1

theorem pick_none {now : Int} {l : List Task} (h : pick now l = none) : ∀ t, t ∈ l → now < t.start := by
  induction l with
  | nil => simp
  | cons a as ih =>
      simp only [pick] at h
      split at h
      · cases h
      · rename_i h1
        split at h
        · rename_i h2
          intro t ht
          rcases List.mem_cons.mp ht with rfl | ht
          · omega
          · exact ih h2 t ht
        · cases h

theorem pick_some {now : Int} {l r : List Task} {t : Task} (h : pick now l = some (t, r)) :
    ∃ a b, l = a ++ t :: b ∧ r = a ++ b ∧ t.start ≤ now ∧ ∀ x, x ∈ a → now < x.start := by
  induction l generalizing r with
  | nil => cases h
  | cons x xs ih =>
      simp only [pick] at h
      split at h
      · rename_i h1
        cases h
        exact ⟨[], _, rfl, rfl, h1, by simp⟩
      · rename_i h1
        split at h
        · cases h
        · rename_i y r' h2
          cases h
          obtain ⟨a, b, h3, h4, h5, h6⟩ := ih h2
          refine ⟨x :: a, b, by rw [h3]; rfl, by rw [h4]; rfl, h5, ?_⟩
          intro z hz
          rcases List.mem_cons.mp hz with rfl | hz
          · omega
          · exact h6 z hz

theorem foldl_min (l : List Task) (m : Int) :
    (l.foldl (fun m x => if x.start < m then x.start else m) m) ≤ m ∧
    (∀ x, x ∈ l → (l.foldl (fun m x => if x.start < m then x.start else m) m) ≤ x.start) ∧
    ((l.foldl (fun m x => if x.start < m then x.start else m) m) = m ∨
      ∃ x, x ∈ l ∧ (l.foldl (fun m x => if x.start < m then x.start else m) m) = x.start) := by
  induction l generalizing m with
  | nil => simp
  | cons a as ih =>
      simp only [List.foldl_cons]
      obtain ⟨h1, h2, h3⟩ := ih (if a.start < m then a.start else m)
      refine ⟨?_, ?_, ?_⟩
      · by_cases hc : a.start < m <;> simp only [hc, if_true, if_false] at h1 ⊢ <;> omega
      · intro x hx
        rcases List.mem_cons.mp hx with rfl | hx
        · by_cases hc : x.start < m <;> simp only [hc, if_true, if_false] at h1 ⊢ <;> omega
        · exact h2 x hx
      · rcases h3 with h3 | ⟨x, hx, h3⟩
        · by_cases hc : a.start < m
          · right
            refine ⟨a, by simp, ?_⟩
            rw [h3]; simp [hc]
          · left
            rw [h3]; simp [hc]
        · exact Or.inr ⟨x, by simp [hx], h3⟩

/-- min_element finds the earliest start time. -/
theorem earliest_spec {l : List Task} (h : l ≠ []) :
    ∃ d, earliest l = some d ∧ (∀ x, x ∈ l → d ≤ x.start) ∧ ∃ x, x ∈ l ∧ d = x.start := by
  cases l with
  | nil => exact absurd rfl h
  | cons a as =>
      obtain ⟨h1, h2, h3⟩ := foldl_min as a.start
      refine ⟨_, rfl, ?_, ?_⟩
      · intro x hx
        rcases List.mem_cons.mp hx with rfl | hx
        · exact h1
        · exact h2 x hx
      · rcases h3 with h3 | ⟨x, hx, h3⟩
        · exact ⟨a, by simp, h3⟩
        · exact ⟨x, by simp [hx], h3⟩

/-- Removing an id and the name at the same index. -/
theorem retire_spec {id : Nat} {l : List Task} (h : id ∈ l.map Task.id) :
    ∃ a t b, l = a ++ t :: b ∧ t.id = id ∧ id ∉ a.map Task.id ∧
      retire id (l.map Task.id) (l.map Task.name) = ((a ++ b).map Task.id, (a ++ b).map Task.name) := by
  induction l with
  | nil => simp at h
  | cons x xs ih =>
      by_cases hx : x.id = id
      · refine ⟨[], x, xs, rfl, hx, by simp, ?_⟩
        simp [retire, List.findIdx?_cons, hx]
      · have h' : id ∈ xs.map Task.id := by
          simp only [List.map_cons, List.mem_cons] at h
          rcases h with h | h
          · exact absurd h.symm hx
          · exact h
        obtain ⟨a, t, b, h1, h2, h3, h4⟩ := ih h'
        refine ⟨x :: a, t, b, by rw [h1]; rfl, h2, by simp [h3, Ne.symm hx], ?_⟩
        simp only [retire] at h4 ⊢
        simp only [List.map_cons, List.findIdx?_cons, beq_iff_eq, hx, if_false]
        cases hf : List.findIdx? (· == id) (xs.map Task.id) with
        | none =>
            rw [List.findIdx?_eq_none_iff] at hf
            have := hf id h'
            simp at this
        | some i =>
            rw [hf] at h4
            simp only [Prod.mk.injEq] at h4
            simp [h4]

end Gul14.Pool
