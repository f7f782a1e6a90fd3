import Verif.Variant.Props

/-! # Exception guarantees of assignment and swap of variants (C81, C82) -/
namespace Gul14.Var
open Spec.Vari LM
variable {V : Type} {c : Cfg} {mv : V → V}

/-- A state of the program's variants that some history leads to. -/
def Reachable (c : Cfg) (mv : V → V) (s : Store V) : Prop :=
  ∃ hist, LegalHistory c mv (fun _ => none) hist ∧ runAll c mv (fun _ => none) hist = .running s

/-- The contents of the variants of a state. -/
def contents (s : Store V) : Contents V := fun k => (s (.obj k)).map Obj.mem

theorem reachable_inv (h : WellFormed c mv) {s : Store V} (hr : Reachable c mv s) : Inv c s := by
  obtain ⟨hist, hl, hrun⟩ := hr
  obtain ⟨s', h1, h2, _⟩ := run_all h hist (fun _ => none) ⟨rfl, fun k o ho => by cases ho⟩ hl
  rw [hrun] at h1
  cases h1
  exact h2

/-- In every reachable state every legal call either has its effect or throws and leaves the
contents that the specification of the thrown call allows, and the latter only if an element
operation throws. -/
theorem c81_call (h : WellFormed c mv) {s : Store V} (hr : Reachable c mv s) (op : Op V)
    (hl : Legal c (contents s) op) (f : Fail V) :
    (∃ s' n, exec c mv op f s 0 = .ok () s' n ∧ contents s' = effect mv (contents s) op) ∨
    (∃ s' n, exec c mv op f s 0 = .throw s' n ∧ f.at? ≠ none ∧
      Thrown c (contents s) (contents s') op) := by
  have hm := meets (w := f) h (reachable_inv h hr) op hl 0
  cases he : exec c mv op f s 0 with
  | ok a s' n => rw [he] at hm; exact .inl ⟨s', n, rfl, hm.2⟩
  | throw s' n =>
    rw [he] at hm
    exact .inr ⟨s', n, rfl, fun h0 => quiet_exec c mv op f s 0 h0 _ _ he, hm.2⟩
  | terminate => rw [he] at hm; exact hm.elim
  | ub => rw [he] at hm; exact hm.elim

/-- Strong guarantee of the assignment of a value that changes the alternative: if the new
alternative can be moved without exceptions and the assignment throws, all variants are as before. -/
theorem c81_value_strong (h : WellFormed c mv) {s : Store V} (hr : Reachable c mv s) (k i : Nat)
    (v : V) (nt nta : Bool) (hk : contents s k ≠ none) (hi : i < c.length)
    (hne : alternative (contents s k) ≠ some i) (hnt : c.ntMoveC i = true) (f : Fail V)
    (s' : Store V) (n : Nat) (he : exec c mv (.assignVal k i v nt nta) f s 0 = .throw s' n) :
    contents s' = contents s := by
  rcases c81_call h hr (.assignVal k i v nt nta) ⟨hk, hi⟩ f with ⟨s₁, n₁, h1, _⟩ | ⟨s₁, n₁, h1, _, h3⟩
  · rw [he] at h1; cases h1
  · rw [he] at h1
    cases h1
    simp only [Thrown, AssignThrown, hne, if_false, hnt, if_true] at h3
    exact h3.2

/-- Strong guarantee of a copy assignment that changes the alternative. -/
theorem c81_copy_strong (h : WellFormed c mv) {s : Store V} (hr : Reachable c mv s) (k j : Nat)
    (hl : Legal c (contents s) (.assignCopy k j))
    (hne : alternative (contents s k) ≠ alternative (contents s j))
    (hnt : ∀ i, alternative (contents s j) = some i → c.ntMoveC i = true) (f : Fail V)
    (s' : Store V) (n : Nat) (he : exec c mv (.assignCopy k j) f s 0 = .throw s' n) :
    contents s' = contents s := by
  rcases c81_call h hr (.assignCopy k j) hl f with ⟨s₁, n₁, h1, _⟩ | ⟨s₁, n₁, h1, _, i, h3, h4⟩
  · rw [he] at h1; cases h1
  · rw [he] at h1
    cases h1
    rw [h3] at hne
    simp only [AssignThrown, hne, if_false, hnt i h3, if_true] at h4
    exact h4.2

/-- Whatever throws: an assignment or a swap never changes a variant that it is not applied to, and
never creates or destroys a variant. -/
theorem c81_frame (h : WellFormed c mv) {s : Store V} (hr : Reachable c mv s) (op : Op V)
    (hl : Legal c (contents s) op) (f : Fail V) (s' : Store V) (n : Nat)
    (he : exec c mv op f s 0 = .throw s' n) (k : Nat) :
    (contents s' k = none ↔ contents s k = none) ∧
    (k ∉ touched op → contents s' k = contents s k) := by
  rcases c81_call h hr op hl f with ⟨s₁, n₁, h1, _⟩ | ⟨s₁, n₁, h1, _, ht⟩
  · rw [he] at h1; cases h1
  · rw [he] at h1
    cases h1
    generalize contents s' = b at *
    generalize contents s = a at *
    have hset : ∀ (a : Contents V) j x, a j ≠ none → x ≠ none →
        ∀ k, ((a.set j x) k = none ↔ a k = none) := by
      intro a j x h1 h2 k
      unfold Contents.set
      split
      · rename_i hk; subst hk; exact ⟨fun h => (h2 h).elim, fun h => (h1 h).elim⟩
      · exact Iff.rfl
    have hfr : ∀ (a : Contents V) j x, k ≠ j → (a.set j x) k = a k := by
      intro a j x hk; simp [Contents.set, hk]
    have hset2 : ∀ (a : Contents V) i x j y, a i ≠ none → x ≠ none → a j ≠ none → y ≠ none →
        ∀ k, (((a.set i x).set j y) k = none ↔ a k = none) := by
      intro a i x j y h1 h2 h3 h4 k
      rw [hset (a.set i x) j y ((not_congr (hset a i x h1 h2 j)).mpr h3) h4 k]
      exact hset a i x h1 h2 k
    cases op with
    | ctorAt k' i v nt => rw [ht.2]; exact ⟨Iff.rfl, fun _ => rfl⟩
    | ctorCopy k' j => obtain ⟨i, _, _, rfl⟩ := ht; exact ⟨Iff.rfl, fun _ => rfl⟩
    | ctorMove k' j =>
      obtain ⟨i, h1, _, v, rfl⟩ := ht
      exact ⟨hset _ _ _ hl.2.1 (by simp) k, fun hk => hfr _ _ _ (by simpa [touched] using hk)⟩
    | dtor k' => exact ht.elim
    | assignCopy k' j =>
      obtain ⟨i, h1, h2⟩ := ht
      unfold AssignThrown at h2
      split at h2
      · obtain ⟨_, v, rfl⟩ := h2
        exact ⟨hset _ _ _ hl.1 (by simp) k, fun hk => hfr _ _ _ (by simpa [touched] using hk)⟩
      · obtain ⟨_, h2⟩ := h2
        split at h2
        · rw [h2]; exact ⟨Iff.rfl, fun _ => rfl⟩
        · rw [h2]; exact ⟨hset _ _ _ hl.1 (by simp) k, fun hk => hfr _ _ _ (by simpa [touched] using hk)⟩
    | assignMove k' j =>
      obtain ⟨i, h1, h2⟩ := ht
      split at h2
      · obtain ⟨_, v, rfl⟩ := h2
        exact ⟨hset2 _ _ _ _ _ hl.1 (by simp) hl.2.1 (by simp) k,
          fun hk => by
            simp only [touched, List.mem_cons, List.not_mem_nil, or_false, not_or] at hk
            rw [hfr _ _ _ hk.2, hfr _ _ _ hk.1]⟩
      · obtain ⟨_, v, rfl⟩ := h2
        exact ⟨hset2 _ _ _ _ _ hl.1 (by simp) hl.2.1 (by simp) k,
          fun hk => by
            simp only [touched, List.mem_cons, List.not_mem_nil, or_false, not_or] at hk
            rw [hfr _ _ _ hk.2, hfr _ _ _ hk.1]⟩
    | assignVal k' i v nt nta =>
      simp only [Thrown, AssignThrown] at ht
      split at ht
      · obtain ⟨_, v, rfl⟩ := ht
        exact ⟨hset _ _ _ hl.1 (by simp) k, fun hk => hfr _ _ _ (by simpa [touched] using hk)⟩
      · obtain ⟨_, h2⟩ := ht
        split at h2
        · rw [h2]; exact ⟨Iff.rfl, fun _ => rfl⟩
        · rw [h2]; exact ⟨hset _ _ _ hl.1 (by simp) k, fun hk => hfr _ _ _ (by simpa [touched] using hk)⟩
    | emplace k' i v nt =>
      rw [ht.2]; exact ⟨hset _ _ _ hl.1 (by simp) k, fun hk => hfr _ _ _ (by simpa [touched] using hk)⟩
    | swap k' j =>
      rcases ht with ⟨i, _, _, _, x, rfl⟩ | ⟨i, _, _, _, v, rfl⟩ | ⟨i, _, _, _, v, rfl⟩ |
        ⟨i, i', _, _, _, _, _, ⟨v, rfl⟩ | ⟨v, rfl⟩ | rfl⟩
      · exact ⟨hset2 _ _ _ _ _ hl.1 (by simp) hl.2.1 (by simp) k,
          fun hk => by
            simp only [touched, List.mem_cons, List.not_mem_nil, or_false, not_or] at hk
            rw [hfr _ _ _ hk.2, hfr _ _ _ hk.1]⟩
      · exact ⟨hset _ _ _ hl.1 (by simp) k, fun hk => hfr _ _ _ (by simp [touched] at hk; exact hk.1)⟩
      · exact ⟨hset _ _ _ hl.2.1 (by simp) k, fun hk => hfr _ _ _ (by simp [touched] at hk; exact hk.2)⟩
      · exact ⟨hset _ _ _ hl.2.1 (by simp) k, fun hk => hfr _ _ _ (by simp [touched] at hk; exact hk.2)⟩
      · exact ⟨hset2 _ _ _ _ _ hl.2.1 (by simp) hl.1 (by simp) k,
          fun hk => by
            simp only [touched, List.mem_cons, List.not_mem_nil, or_false, not_or] at hk
            rw [hfr _ _ _ hk.1, hfr _ _ _ hk.2]⟩
      · exact ⟨hset2 _ _ _ _ _ hl.1 (by simp) hl.2.1 hl.1 k,
          fun hk => by
            simp only [touched, List.mem_cons, List.not_mem_nil, or_false, not_or] at hk
            rw [hfr _ _ _ hk.2, hfr _ _ _ hk.1]⟩

/-- The operation is not emplace. -/
def NotEmplace : Op V → Prop
  | .emplace _ _ _ _ => False
  | _ => True

/-- If all alternatives can be moved without exceptions, only emplace makes a variant valueless:
without it, no variant is ever valueless, whatever throws. -/
theorem c81_only_emplace (h : WellFormed c mv) (hall : ∀ i, i < c.length → c.ntMoveC i = true)
    (hist : History V) (hne : ∀ x ∈ hist, NotEmplace x.1)
    (hl : LegalHistory c mv (fun _ => none) hist) :
    ∃ s', runAll c mv (fun _ => none) hist = .running s' ∧
      ∀ k o, s' (.obj k) = some o → valueless c o = false := by
  have hset : ∀ (b : Contents V) (j : Nat) (x : Option (Content V)), (∀ k, b k ≠ some none) →
      x ≠ some none → ∀ k, (b.set j x) k ≠ some none := by
    intro b j x hb hx k
    unfold Contents.set
    split
    · exact hx
    · exact hb k
  have hmv : ∀ x : Option (Content V), x ≠ some none → movedFrom mv x ≠ some none := by
    intro x hx
    match x, hx with
    | some (some (i, v)), _ => simp [movedFrom]
    | none, _ => simp [movedFrom]
  have key : ∀ (hist : History V), (∀ x ∈ hist, NotEmplace x.1) → ∀ s : Store V, Inv c s →
      LegalHistory c mv (abs s) hist → (∀ k, abs s k ≠ some none) →
      ∃ s', runAll c mv s hist = .running s' ∧ Inv c s' ∧ ∀ k, abs s' k ≠ some none := by
    intro hist
    induction hist with
    | nil => intro _ s hs _ ha; exact ⟨s, rfl, hs, ha⟩
    | cons x hist ih =>
      obtain ⟨op, f⟩ := x
      intro hne s hs hl ha
      have hm := meets (w := f) h hs op hl.1 0
      have hnop : NotEmplace op := hne (op, f) (by simp)
      unfold runAll
      cases he : exec c mv op f s 0 with
      | ok a s' n =>
        rw [he] at hm
        obtain ⟨h1, h2⟩ := hm
        apply ih (fun x hx => hne x (by simp [hx])) s' h1 (by rw [h2]; exact hl.2.1)
        rw [h2]
        cases op <;> simp only [effect]
        case ctorAt => exact hset _ _ _ ha (by simp)
        case ctorCopy j => exact hset _ _ _ ha (ha _)
        case ctorMove j => exact hset _ _ _ (hset _ _ _ ha (ha _)) (hmv _ (ha _))
        case dtor => exact hset _ _ _ ha (by simp)
        case assignCopy j => exact hset _ _ _ ha (ha _)
        case assignMove j => exact hset _ _ _ (hset _ _ _ ha (ha _)) (hmv _ (ha _))
        case assignVal => exact hset _ _ _ ha (by simp)
        case emplace => exact hset _ _ _ ha (by simp)
        case swap j => exact hset _ _ _ (hset _ _ _ ha (ha _)) (ha _)
      | throw s' n =>
        rw [he] at hm
        obtain ⟨h1, h2⟩ := hm
        have hf : f.at? ≠ none := fun h0 => quiet_exec c mv op f s 0 h0 _ _ he
        apply ih (fun x hx => hne x (by simp [hx])) s' h1 (hl.2.2 _ hf h2)
        have hb : ∀ k i, alternative (abs s k) = some i → c.ntMoveC i = true := by
          intro k i hi
          apply hall
          have hk : abs s k ≠ none := by intro h0; rw [h0] at hi; cases hi
          obtain ⟨x, hx, _, h4⟩ := inv_some hs hk
          rw [h4] at hi
          cases x with
          | none => cases hi
          | some p =>
            simp only [alternative, Option.bind_some, Option.map_some, Option.some.injEq] at hi
            rw [← hi]
            exact hx _ rfl
        have hlg := hl.1
        generalize abs s' = b at *
        generalize abs s = a at *
        cases op with
        | ctorAt k' i v nt => rw [h2.2]; exact ha
        | ctorCopy k' j => obtain ⟨i, _, _, rfl⟩ := h2; exact ha
        | ctorMove k' j =>
          obtain ⟨i, _, _, v, rfl⟩ := h2
          exact hset _ _ _ ha (by simp)
        | dtor k' => exact h2.elim
        | assignCopy k' j =>
          obtain ⟨i, h3, h4⟩ := h2
          unfold AssignThrown at h4
          rw [hb j i h3] at h4
          split at h4
          · obtain ⟨_, v, rfl⟩ := h4; exact hset _ _ _ ha (by simp)
          · simp only [if_true] at h4; rw [h4.2]; exact ha
        | assignMove k' j =>
          obtain ⟨i, h3, h4⟩ := h2
          rw [hb j i h3] at h4
          split at h4
          · obtain ⟨_, v, rfl⟩ := h4; exact hset _ _ _ (hset _ _ _ ha (by simp)) (by simp)
          · exact absurd h4.1 (by simp)
        | assignVal k' i v nt nta =>
          simp only [Thrown, AssignThrown] at h2
          rw [hall i hlg.2] at h2
          split at h2
          · obtain ⟨_, v, rfl⟩ := h2; exact hset _ _ _ ha (by simp)
          · simp only [if_true] at h2; rw [h2.2]; exact ha
        | emplace k' i v nt => exact hnop.elim
        | swap k' j =>
          rcases h2 with ⟨i, _, _, _, x, rfl⟩ | ⟨i, h3, h4, _⟩ | ⟨i, h3, h4, _⟩ |
            ⟨i, i', h3, _, _, h4, _⟩
          · exact hset _ _ _ (hset _ _ _ ha (by simp)) (by simp)
          · rw [hb _ _ h3] at h4; cases h4
          · rw [hb _ _ h3] at h4; cases h4
          · rw [hb _ _ h3] at h4; cases h4
      | terminate => rw [he] at hm; exact hm.elim
      | ub => rw [he] at hm; exact hm.elim
  obtain ⟨s', h1, h2, h3⟩ := key hist hne (fun _ => none) ⟨rfl, fun k o ho => by cases ho⟩ hl
    (by intro k h; cases h)
  refine ⟨s', h1, ?_⟩
  intro k o ho
  obtain ⟨x, hx, rfl⟩ := h2.obj k o ho
  cases x with
  | none => exact (h3 k (by simp [abs, ho, mk])).elim
  | some p =>
    obtain ⟨i, v⟩ := p
    exact valueless_some h (hx _ rfl) v

/-- swap exchanges the contents of two variants (of any two: equal, different or no alternatives, or
one variant with itself), or throws because an element operation throws. -/
theorem c82_swap (h : WellFormed c mv) {s : Store V} (hr : Reachable c mv s) (k j : Nat)
    (hl : Legal c (contents s) (.swap k j)) (f : Fail V) :
    (∃ s' n, exec c mv (.swap k j) f s 0 = .ok () s' n ∧ contents s' k = contents s j ∧
      contents s' j = contents s k ∧ ∀ i, i ≠ k → i ≠ j → contents s' i = contents s i) ∨
    (f.at? ≠ none ∧ ∃ s' n, exec c mv (.swap k j) f s 0 = .throw s' n) := by
  rcases c81_call h hr (.swap k j) hl f with ⟨s', n, h1, h2⟩ | ⟨s', n, h1, h2, _⟩
  · refine .inl ⟨s', n, h1, ?_⟩
    rw [h2]
    simp only [effect]
    refine ⟨?_, by simp [Contents.set], ?_⟩
    · by_cases hkj : k = j
      · subst hkj; simp [Contents.set]
      · simp [Contents.set, hkj]
    · intro i h3 h4; simp [Contents.set, h3, h4]
  · exact .inr ⟨h2, s', n, h1⟩

/-- If a swap throws although the content of at least one of the two variants can be moved without
exceptions, or both hold the same alternative, both still hold the alternatives they held before; in
the first case the one that can be moved without exceptions is unchanged. -/
theorem c82_swap_throws (h : WellFormed c mv) {s : Store V} (hr : Reachable c mv s) (k j : Nat)
    (hl : Legal c (contents s) (.swap k j)) (f : Fail V) (s' : Store V) (n : Nat)
    (he : exec c mv (.swap k j) f s 0 = .throw s' n)
    (hor : NothrowMove c (contents s k) ∨ NothrowMove c (contents s j) ∨
      alternative (contents s k) = alternative (contents s j)) :
    alternative (contents s' k) = alternative (contents s k) ∧
    alternative (contents s' j) = alternative (contents s j) ∧
    (alternative (contents s k) ≠ alternative (contents s j) →
      (NothrowMove c (contents s k) → contents s' k = contents s k) ∧
      (NothrowMove c (contents s j) → contents s' j = contents s j)) := by
  rcases c81_call h hr (.swap k j) hl f with ⟨s₁, n₁, h1, _⟩ | ⟨s₁, n₁, h1, _, ht⟩
  · rw [he] at h1; cases h1
  rw [he] at h1
  cases h1
  generalize contents s' = b at *
  generalize contents s = a at *
  have hcontra : ∀ {x : Option (Content V)} {i : Nat}, alternative x = some i →
      c.ntMoveC i = false → ¬ NothrowMove c x := by
    intro x i h1 h2 h3
    rw [h3 i h1] at h2
    cases h2
  rcases ht with ⟨i, h1, h2, _, x, rfl⟩ | ⟨i, h1, h2, h3, x, rfl⟩ | ⟨i, h1, h2, h3, x, rfl⟩ |
    ⟨i, i', h1, h2, h3, h4, h5, _⟩
  · rw [h1, h2]
    refine ⟨?_, by simp [Contents.set, alternative], fun h => (h rfl).elim⟩
    unfold Contents.set
    split
    · rfl
    · simp [alternative]
  · by_cases hkj : j = k
    · subst hkj
      refine ⟨by simp [Contents.set, alternative] at h1 ⊢; exact h1.symm ▸ rfl, ?_, fun h => (h rfl).elim⟩
      rw [h1]; simp [Contents.set, alternative]
    · refine ⟨by rw [h1]; simp [Contents.set, alternative], by simp [Contents.set, hkj], ?_⟩
      intro _
      exact ⟨fun hn => (hcontra h1 h2 hn).elim, fun _ => by simp [Contents.set, hkj]⟩
  · by_cases hkj : k = j
    · subst hkj
      refine ⟨by rw [h1]; simp [Contents.set, alternative], ?_, fun h => (h rfl).elim⟩
      rw [h1]; simp [Contents.set, alternative]
    · refine ⟨by simp [Contents.set, hkj], by rw [h1]; simp [Contents.set, alternative], ?_⟩
      intro _
      exact ⟨fun _ => by simp [Contents.set, hkj], fun hn => (hcontra h1 h2 hn).elim⟩
  · rcases hor with hn | hn | hn
    · exact (hcontra h1 h4 hn).elim
    · exact (hcontra h2 h5 hn).elim
    · rw [h1, h2] at hn
      exact (h3 (Option.some.inj hn)).elim

/-! ## Examples -/

/-- std::string-like: everything available, moves do not throw. -/
def strAlt : Alt := ⟨.available, .available, .available, .available, .available,
  false, true, false, true, true⟩
/-- int-like: everything trivial. -/
def intAlt : Alt := ⟨.trivially, .trivially, .trivially, .trivially, .trivially,
  true, true, true, true, true⟩
/-- A type whose moves can throw. -/
def badAlt : Alt := ⟨.available, .available, .available, .available, .available,
  false, false, false, false, false⟩

example : WellFormed [intAlt, strAlt, badAlt] (fun _ : Nat => 0) :=
  ⟨by decide, by decide, by decide, by decide, by decide, fun h => absurd (h strAlt (by simp)) (by decide)⟩

example : LegalHistory [intAlt, strAlt] (fun _ : Nat => 0) (fun _ => none)
    [(.ctorAt 0 0 5 true, ⟨none, 0⟩), (.assignVal 0 1 7 false false, ⟨some 0, 0⟩)] := by
  refine ⟨⟨rfl, by decide⟩, ⟨⟨by simp [effect, Contents.set], by decide⟩, trivial, ?_⟩, ?_⟩
  · intros; trivial
  · intro b hb; simp at hb

/-- The content of variant `k` after a history. -/
def shows (r : Final (Store Nat)) (k : Nat) : Option (Option (Nat × Nat)) :=
  match r with
  | .running s => contents s k
  | _ => none

-- the failed assignment of a string leaves the int
example : shows (runAll [intAlt, strAlt] (fun _ : Nat => 0) (fun _ => none)
    [(.ctorAt 0 0 5 true, ⟨none, 0⟩), (.assignVal 0 1 7 false false, ⟨some 0, 0⟩)]) 0 =
      some (some (0, 5)) := by decide +kernel
-- the failed emplace leaves nothing
example : shows (runAll [intAlt, strAlt] (fun _ : Nat => 0) (fun _ => none)
    [(.ctorAt 0 0 5 true, ⟨none, 0⟩), (.emplace 0 1 7 false, ⟨some 0, 0⟩)]) 0 =
      some none := by decide +kernel
-- a swap in which the move of the alternative 2 throws restores the string
example : (shows (runAll [intAlt, strAlt, badAlt] (fun _ : Nat => 0) (fun _ => none)
    [(.ctorAt 0 1 5 true, ⟨none, 0⟩), (.ctorAt 1 2 7 true, ⟨none, 0⟩),
      (.swap 0 1, ⟨some 0, 99⟩)]) 0,
    shows (runAll [intAlt, strAlt, badAlt] (fun _ : Nat => 0) (fun _ => none)
    [(.ctorAt 0 1 5 true, ⟨none, 0⟩), (.ctorAt 1 2 7 true, ⟨none, 0⟩),
      (.swap 0 1, ⟨some 0, 99⟩)]) 1) = (some (some (1, 5)), some (some (2, 99))) := by
  decide +kernel

end Gul14.Var
