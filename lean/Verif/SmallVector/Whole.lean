import Verif.SmallVector.Shift

/-! Functions that deal with whole vectors: construction, destruction, assignment, swap. -/
namespace Gul14.SmallVector
open LM hiding pure bind
variable {V : Type} {w : Fail V} {s : St V} {E : St V → Prop} {T : Prop} {t : Traits V}
variable {A : World V} {i j : Nat} {a b : AV V}

theorem setMem_nxt_mem (s : St V) (n : Nat) (b : Blk) (x : Option (Block V)) :
    ({ s with nxt := n } : St V).setMem b x = { s.setMem b x with nxt := n } := rfl

/-- Only the counter of blocks differs. -/
theorem Rel.nxt {s s' : St V} (h : Rel t s A) (hm : s'.mem = s.mem) (hv : s'.vec = s.vec)
    (hn : s.nxt ≤ s'.nxt) : Rel t s' A := by
  refine ⟨?_, ?_, ?_, ?_, h.uniq, ?_, h.wf⟩
  · intro q; rw [hv]; exact h.vecs q
  · intro q; rw [hm]; exact h.inner q
  · intro q; rw [hm]; exact h.heap q
  · intro q; rw [hm]; exact h.owned q
  · intro q hq; rw [hm]; exact h.fresh q (by omega)

theorem Rel.add (h : Rel t s A) (hi : A i = none) (hin : t.inCap < sizeLim) :
    Rel t ((s.setMem (.inner i) (some ⟨t.inCap, fun _ => .raw⟩)).setVec i
      (some ⟨.inner i, t.inCap, 0⟩)) (A.set i (some ⟨[], none, t.inCap⟩)) := by
  refine ⟨?_, ?_, ?_, ?_, ?_, ?_, ?_⟩
  · intro j
    by_cases hj : j = i
    · subst hj; simp [World.set, AV.data]
    · rw [World.set_other hj, ← h.vecs]; simp [St.setVec, upd, hj]
  · intro j
    rw [setVec_mem]
    by_cases hj : j = i
    · subst hj; simp [World.set, cellsOf_nil]
    · rw [World.set_other hj, ← h.inner, setMem_mem_other (by simp [hj])]
  · intro k b hb
    rw [setVec_mem, setMem_mem_other (by simp)] at hb
    obtain ⟨j, c, hj, hc⟩ := h.heap k b hb
    exact ⟨j, c, by rw [World.set_other (by intro he; subst he; rw [hi] at hj; cases hj)]; exact hj, hc⟩
  · intro j c k hj hc
    rw [setVec_mem, setMem_mem_other (by simp)]
    by_cases hji : j = i
    · subst hji; rw [World.set_same] at hj; cases hj; cases hc
    · rw [World.set_other hji] at hj; exact h.owned j c k hj hc
  · intro p q c d k hp hq hc hd
    by_cases hpi : p = i
    · subst hpi; rw [World.set_same] at hp; cases hp; cases hc
    · by_cases hqi : q = i
      · subst hqi; rw [World.set_same] at hq; cases hq; cases hd
      · rw [World.set_other hpi] at hp; rw [World.set_other hqi] at hq
        exact h.uniq p q c d k hp hq hc hd
  · intro k hk
    rw [setVec_mem, setMem_mem_other (by simp)]
    exact h.fresh k hk
  · intro j c hj
    by_cases hji : j = i
    · subst hji; rw [World.set_same] at hj; cases hj
      exact ⟨Nat.zero_le _, hin, fun _ => rfl, fun h => absurd rfl h⟩
    · rw [World.set_other hji] at hj; exact h.wf j c hj

theorem Rel.remove {s' : St V} (h : Rel t s A) (hi : A i = some a)
    (hvec : ∀ j, s'.vec j = if j = i then none else s.vec j)
    (hin : ∀ j, s'.mem (.inner j) = if j = i then none else s.mem (.inner j))
    (hheap : ∀ k, s'.mem (.heap k) = if a.loc = some k then none else s.mem (.heap k))
    (hn : s'.nxt = s.nxt) : Rel t s' (A.set i none) := by
  refine ⟨?_, ?_, ?_, ?_, ?_, ?_, ?_⟩
  · intro j
    rw [hvec]
    by_cases hj : j = i
    · subst hj; simp [World.set]
    · rw [World.set_other hj, if_neg hj, h.vecs]
  · intro j
    rw [hin]
    by_cases hj : j = i
    · subst hj; simp [World.set]
    · rw [World.set_other hj, if_neg hj, h.inner]
  · intro k b hb
    rw [hheap] at hb
    split at hb
    · cases hb
    · rename_i hk
      obtain ⟨j, c, hj, hc⟩ := h.heap k b hb
      have : j ≠ i := by intro he; subst he; rw [hi] at hj; cases hj; exact hk hc
      exact ⟨j, c, by rw [World.set_other this]; exact hj, hc⟩
  · intro j c k hj hc
    by_cases hji : j = i
    · subst hji; rw [World.set_same] at hj; cases hj
    · rw [World.set_other hji] at hj
      rw [hheap, if_neg (fun he => hji (h.uniq j i c a k hj hi hc he))]
      exact h.owned j c k hj hc
  · intro p q c d k hp hq hc hd
    by_cases hpi : p = i
    · subst hpi; rw [World.set_same] at hp; cases hp
    · by_cases hqi : q = i
      · subst hqi; rw [World.set_same] at hq; cases hq
      · rw [World.set_other hpi] at hp; rw [World.set_other hqi] at hq
        exact h.uniq p q c d k hp hq hc hd
  · intro k hk
    rw [hheap]
    split
    · rfl
    · exact h.fresh k (by omega)
  · intro j c hj
    by_cases hji : j = i
    · subst hji; rw [World.set_same] at hj; cases hj
    · rw [World.set_other hji] at hj; exact h.wf j c hj

/-- Two vectors exchange their heap blocks. -/
theorem Rel.exchange {s' : St V} {a' b' : AV V} (h : Rel t s A) (hi : A i = some a) (hj : A j = some b)
    (hij : i ≠ j) (hla : a'.loc = b.loc) (hlb : b'.loc = a.loc)
    (hvec : ∀ k, s'.vec k = if k = i then some ⟨a'.data i, a'.cap, a'.xs.length⟩ else
      if k = j then some ⟨b'.data j, b'.cap, b'.xs.length⟩ else s.vec k)
    (hini : s'.mem (.inner i) =
      some ⟨t.inCap, if a'.loc = none then cellsOf a'.xs else fun _ => .raw⟩)
    (hinj : s'.mem (.inner j) =
      some ⟨t.inCap, if b'.loc = none then cellsOf b'.xs else fun _ => .raw⟩)
    (hino : ∀ k, k ≠ i → k ≠ j → s'.mem (.inner k) = s.mem (.inner k))
    (hheap : ∀ k, s'.mem (.heap k) = if a'.loc = some k then some ⟨a'.cap, cellsOf a'.xs⟩
      else if b'.loc = some k then some ⟨b'.cap, cellsOf b'.xs⟩ else s.mem (.heap k))
    (hn : s.nxt ≤ s'.nxt)
    (hwa : a'.xs.length ≤ a'.cap ∧ a'.cap < sizeLim ∧
      (a'.loc = none → a'.cap = t.inCap) ∧ (a'.loc ≠ none → t.inCap < a'.cap))
    (hwb : b'.xs.length ≤ b'.cap ∧ b'.cap < sizeLim ∧
      (b'.loc = none → b'.cap = t.inCap) ∧ (b'.loc ≠ none → t.inCap < b'.cap)) :
    Rel t s' ((A.set i (some a')).set j (some b')) := by
  have hB : ∀ k, ((A.set i (some a')).set j (some b')) k =
      if k = j then some b' else if k = i then some a' else A k := fun k => rfl
  have hcases : ∀ k c, ((A.set i (some a')).set j (some b')) k = some c →
      (k = i ∧ c = a') ∨ (k = j ∧ c = b') ∨ (k ≠ i ∧ k ≠ j ∧ A k = some c) := by
    intro k c hk
    rw [hB] at hk
    by_cases h1 : k = j
    · rw [if_pos h1] at hk; cases hk; exact Or.inr (Or.inl ⟨h1, rfl⟩)
    · rw [if_neg h1] at hk
      by_cases h2 : k = i
      · rw [if_pos h2] at hk; cases hk; exact Or.inl ⟨h2, rfl⟩
      · rw [if_neg h2] at hk; exact Or.inr (Or.inr ⟨h2, h1, hk⟩)
  have hdis : ∀ m, a.loc = some m → b.loc = some m → False := fun m h1 h2 =>
    hij (h.uniq i j a b m hi hj h1 h2)
  have hoth : ∀ k c m, k ≠ i → k ≠ j → A k = some c → c.loc = some m → a.loc ≠ some m ∧ b.loc ≠ some m :=
    fun k c m h1 h2 h3 h4 => ⟨fun he => h1 (h.uniq k i c a m h3 hi h4 he),
      fun he => h2 (h.uniq k j c b m h3 hj h4 he)⟩
  refine ⟨?_, ?_, ?_, ?_, ?_, ?_, ?_⟩
  · intro k
    rw [hvec, hB]
    by_cases h1 : k = j
    · subst h1; rw [if_neg hij.symm, if_pos rfl, if_pos rfl]; rfl
    · by_cases h2 : k = i
      · subst h2; rw [if_pos rfl, if_neg h1, if_pos rfl]; rfl
      · rw [if_neg h2, if_neg h1, if_neg h1, if_neg h2, h.vecs]
  · intro k
    rw [hB]
    by_cases h1 : k = j
    · subst h1; rw [if_pos rfl, hinj]; rfl
    · by_cases h2 : k = i
      · subst h2; rw [if_neg h1, if_pos rfl, hini]; rfl
      · rw [if_neg h1, if_neg h2, hino k h2 h1, h.inner]
  · intro k c hc
    rw [hheap] at hc
    by_cases h1 : a'.loc = some k
    · exact ⟨i, a', by rw [hB, if_neg hij, if_pos rfl], h1⟩
    · rw [if_neg h1] at hc
      by_cases h2 : b'.loc = some k
      · exact ⟨j, b', by rw [hB, if_pos rfl], h2⟩
      · rw [if_neg h2] at hc
        obtain ⟨m, d, hm, hd⟩ := h.heap k c hc
        have hmi : m ≠ i := by
          intro he; subst he; rw [hi] at hm; cases hm; exact h2 (hlb ▸ hd)
        have hmj : m ≠ j := by
          intro he; subst he; rw [hj] at hm; cases hm; exact h1 (hla ▸ hd)
        exact ⟨m, d, by rw [hB, if_neg hmj, if_neg hmi]; exact hm, hd⟩
  · intro k c m hk hc
    rw [hheap]
    rcases hcases k c hk with ⟨rfl, rfl⟩ | ⟨rfl, rfl⟩ | ⟨h1, h2, h3⟩
    · rw [if_pos hc]
    · rw [if_neg (fun he => hdis m (hlb ▸ hc) (hla ▸ he)), if_pos hc]
    · obtain ⟨h4, h5⟩ := hoth k c m h1 h2 h3 hc
      rw [if_neg (hla ▸ h5), if_neg (hlb ▸ h4)]
      exact h.owned k c m h3 hc
  · intro p q c d m hp hq hc hd
    rcases hcases p c hp with ⟨rfl, rfl⟩ | ⟨rfl, rfl⟩ | ⟨h1, h2, h3⟩ <;>
      rcases hcases q d hq with ⟨rfl, rfl⟩ | ⟨rfl, rfl⟩ | ⟨g1, g2, g3⟩
    · rfl
    · exact (hdis m (hlb ▸ hd) (hla ▸ hc)).elim
    · exact absurd (hla ▸ hc) (hoth q d m g1 g2 g3 hd).2
    · exact (hdis m (hlb ▸ hc) (hla ▸ hd)).elim
    · rfl
    · exact absurd (hlb ▸ hc) (hoth q d m g1 g2 g3 hd).1
    · exact absurd (hla ▸ hd) (hoth p c m h1 h2 h3 hc).2
    · exact absurd (hlb ▸ hd) (hoth p c m h1 h2 h3 hc).1
    · exact h.uniq p q c d m h3 g3 hc hd
  · intro k hk
    rw [hheap, if_neg, if_neg]
    · exact h.fresh k (by omega)
    · rw [hlb]; intro he; have := h.loc_lt hi he; omega
    · rw [hla]; intro he; have := h.loc_lt hj he; omega
  · intro k c hk
    rcases hcases k c hk with ⟨rfl, rfl⟩ | ⟨rfl, rfl⟩ | ⟨h1, h2, h3⟩
    · exact hwa
    · exact hwb
    · exact h.wf k c h3

theorem data_none {a : AV V} (h : a.loc = none) (i : Nat) : a.data i = .inner i := by
  simp [AV.data, h]

theorem data_some {a : AV V} {k : Nat} (h : a.loc = some k) (i : Nat) : a.data i = .heap k := by
  simp [AV.data, h]

/-! ### filling an empty vector -/

theorem wp_fillValue {n : Nat} {v : V} {Q : Unit → St V → Prop} (h : Rel t s A) (hi : A i = some a)
    (he : a.xs = []) (hn : n < sizeLim) (hsafe : w.at? ≠ none → t.nothrowCopy = true)
    (hQ : ∀ s' a', Rel t s' (A.set i (some a')) → a'.xs = List.replicate n v → a'.cap = max a.cap n →
      (n ≤ a.cap → a'.loc = a.loc) → Q () s')
    (hE : w.at? ≠ none → ∀ s', Rel t s' A → E s') : wp (fillValue t i n (.val v)) w s Q E T := by
  refine wp_bind (wp_reserve h hi hn ?_ ?_)
  · intro s' a' h1 h2 h3 h4
    have hi' := World.set_same A i (some a')
    have hz : a'.xs.length = 0 := by rw [h2, he]; rfl
    refine wp_bind (wp_getVec (h1.vec hi') (wp_bind ?_))
    refine wp_copyValueInto (h1.mem hi') (by omega) (fun k _ _ => cellsOf_ge (by omega)) ?_
      (fun h5 h6 => by rw [hsafe h6] at h5; cases h5)
    refine wp_setVec (hQ _ { a' with xs := List.replicate n v } ?_ rfl h3 (fun h => by rw [← h4 h]))
    have hc : cellsOf a'.xs = fun _ => .raw := by rw [h2, he, cellsOf_nil]
    have hr := h1.inplace hi' (List.replicate n v) (by rw [List.length_replicate]; omega)
    rw [World.set_set, List.length_replicate] at hr
    rw [hc, fill_raw (List.replicate n v) (by simp) (by intro k hk; simp)]
    exact hr
  · intro hw s' xs h1 h2 _
    have : ({ a with xs := xs } : AV V) = a := by
      have : xs = [] := List.length_eq_zero_iff.1 (by rw [h2, he]; rfl)
      rw [this, ← he]
    rw [this, World.set_self hi] at h1
    exact hE hw s' h1

theorem wp_fillRange {ys : List V} {Q : Unit → St V → Prop} (h : Rel t s A) (hi : A i = some a)
    (he : a.xs = []) (hn : ys.length < sizeLim)
    (hQ : ∀ s' a', Rel t s' (A.set i (some a')) → a'.xs = ys → a'.cap = max a.cap ys.length →
      (ys.length ≤ a.cap → a'.loc = a.loc) → Q () s')
    (hE : w.at? ≠ none → ∀ s' a', Rel t s' (A.set i (some a')) → a'.xs = [] →
      (t.nothrowCopy = true ∨ ys.length ≤ a.cap → a' = a) → E s') :
    wp (fillRange t i ys) w s Q E T := by
  unfold fillRange
  simp only [Nat.mod_eq_of_lt hn]
  refine wp_bind (wp_reserve h hi hn ?_ ?_)
  · intro s' a' h1 h2 h3 h4
    have hi' := World.set_same A i (some a')
    have hz : a'.xs.length = 0 := by rw [h2, he]; rfl
    refine wp_bind (wp_getVec (h1.vec hi') (wp_bind ?_))
    refine wp_copyRangeInto (h1.mem hi') (by omega) (fun k _ _ => cellsOf_ge (by omega)) ?_
      (fun h5 h6 => hE h6 s' a' h1 (by rw [h2, he]) (fun h7 => ?_))
    · intro u hu
      refine wp_setVec (hQ _ { a' with xs := ys } ?_ rfl h3 (fun h => by rw [← h4 h]))
      have hc : cellsOf a'.xs = fun _ => .raw := by rw [h2, he, cellsOf_nil]
      have hr := h1.inplace hi' ys (by omega)
      rw [World.set_set] at hr
      rw [hc, fill_raw ys rfl hu]
      exact hr
    · rcases h7 with h7 | h7
      · rw [h7] at h5; cases h5
      · exact h4 h7
  · intro hw s' xs h1 h2 _
    have hx : xs = [] := List.length_eq_zero_iff.1 (by rw [h2, he]; rfl)
    exact hE hw s' _ h1 hx (fun _ => by rw [hx, ← he])

theorem wp_fillFrom {Q : Unit → St V → Prop} (h : Rel t s A) (hi : A i = some a) (hj : A j = some b)
    (hij : i ≠ j) (he : a.xs = [])
    (hQ : ∀ s' a', Rel t s' (A.set i (some a')) → a'.xs = b.xs → a'.cap = max a.cap b.xs.length →
      (b.xs.length ≤ a.cap → a'.loc = a.loc) → Q () s')
    (hE : w.at? ≠ none → ∀ s' a', Rel t s' (A.set i (some a')) → a'.xs = [] →
      (t.nothrowCopy = true ∨ b.xs.length ≤ a.cap → a' = a) → E s') :
    wp (fillFrom t i j) w s Q E T := by
  have hbl := h.len hj
  refine wp_bind (wp_getVec (h.vec hj) ?_)
  simp only
  refine wp_bind (wp_reserve h hi (by have := h.lim hj; omega) ?_ ?_)
  · intro s' a' h1 h2 h3 h4
    have hi' := World.set_same A i (some a')
    have hj' : A.set i (some a') j = some b := by rw [World.set_other hij.symm]; exact hj
    have hz : a'.xs.length = 0 := by rw [h2, he]; rfl
    refine wp_bind (wp_getVec (h1.vec hi') (wp_bind ?_))
    refine wp_uninitCopy (v := vals t b.xs) (h1.data_ne hj' hi' hij.symm) (h1.mem hj') hbl
      (fun k hk => cellsOf_vals hk) (h1.mem hi') (by omega) (fun k _ => cellsOf_ge (by omega)) ?_
      (fun h5 h6 => hE h6 s' a' h1 (by rw [h2, he]) (fun h7 => ?_))
    · refine wp_setVec (hQ _ { a' with xs := b.xs } ?_ rfl h3 (fun h => by rw [← h4 h]))
      have hc : cellsOf a'.xs = fun _ => .raw := by rw [h2, he, cellsOf_nil]
      have hr := h1.inplace hi' b.xs (by omega)
      rw [World.set_set] at hr
      rw [hc, fill_raw b.xs rfl (fun k hk => vals_lt hk)]
      exact hr
    · rcases h7 with h7 | h7
      · rw [h7] at h5; cases h5
      · exact h4 h7
  · intro hw s' xs h1 h2 _
    have hx : xs = [] := List.length_eq_zero_iff.1 (by rw [h2, he]; rfl)
    exact hE hw s' _ h1 hx (fun _ => by rw [hx, ← he])

/-! ### assignment -/

theorem wp_assignN {n : Nat} {v : V} {Q : Unit → St V → Prop} (h : Rel t s A) (hi : A i = some a)
    (hn : n < sizeLim) (hsafe : w.at? ≠ none → t.nothrowCopy = true)
    (hQ : ∀ s' a', Rel t s' (A.set i (some a')) → a'.xs = List.replicate n v → a'.cap = max a.cap n →
      (n ≤ a.cap → a'.loc = a.loc) → Q () s')
    (hE : w.at? ≠ none → ∀ s' a', Rel t s' (A.set i (some a')) → E s') :
    wp (assignN t i n (.val v)) w s Q E T := by
  refine wp_bind (wp_clear h hi ?_)
  intro s' h1 _
  refine wp_fillValue h1 (World.set_same _ _ _) rfl hn hsafe ?_ ?_
  · intro s'' a' h2 h3 h4 h5
    rw [World.set_set] at h2
    exact hQ s'' a' h2 h3 h4 h5
  · intro hw s'' h2
    exact hE hw s'' _ h2

theorem wp_assignRange {ys : List V} {Q : Unit → St V → Prop} (h : Rel t s A) (hi : A i = some a)
    (hn : ys.length < sizeLim)
    (hQ : ∀ s' a', Rel t s' (A.set i (some a')) → a'.xs = ys → a'.cap = max a.cap ys.length →
      (ys.length ≤ a.cap → a'.loc = a.loc) → Q () s')
    (hE : w.at? ≠ none → ∀ s' a', Rel t s' (A.set i (some a')) → E s') :
    wp (assignRange t i ys) w s Q E T := by
  refine wp_bind (wp_clear h hi ?_)
  intro s' h1 _
  refine wp_fillRange h1 (World.set_same _ _ _) rfl hn ?_ ?_
  · intro s'' a' h2 h3 h4 h5
    rw [World.set_set] at h2
    exact hQ s'' a' h2 h3 h4 h5
  · intro hw s'' a' h2 _ _
    rw [World.set_set] at h2
    exact hE hw s'' _ h2

theorem assignInit_eq (ys : List V) : assignInit t i ys = assignRange t i ys := rfl

/-- noexcept(cond): if an exception would leave a noexcept function, the program terminates. -/
theorem wp_noexceptIf {α : Type} {c : Bool} {x : M V α} {Q : α → St V → Prop}
    (hx : wp x w s Q (fun s' => (c = true → T) ∧ (c = false → E s')) T) :
    wp (noexceptIf c x) w s Q E T := by
  unfold noexceptIf
  cases c with
  | true => exact wp_noexcept (wp_mono hx (fun _ _ h => h) (fun _ h => h.1 rfl) id)
  | false => exact wp_mono hx (fun _ _ h => h) (fun _ h => h.2 rfl) id

theorem wp_copyAssign {Q : Unit → St V → Prop} (h : Rel t s A) (hi : A i = some a) (hj : A j = some b)
    (hQ : ∀ s' a', Rel t s' (A.set i (some a')) → a'.xs = b.xs →
      a'.cap = (if i = j then a.cap else max a.cap b.xs.length) →
      (b.xs.length ≤ a.cap → a'.loc = a.loc) → Q () s')
    (hE : t.nothrowCopyAssign = false → w.at? ≠ none → ∀ s' a', Rel t s' (A.set i (some a')) → E s')
    (hT : t.nothrowCopyAssign = true → w.at? ≠ none → T) :
    wp (copyAssign t i j) w s Q E T := by
  refine wp_noexceptIf (wp_ite ?_ ?_)
  · intro hij
    subst hij
    rw [hi] at hj; cases hj
    refine wp_pure (hQ s a ?_ rfl (by simp) (fun _ => rfl))
    rw [World.set_self hi]; exact h
  · intro hij
    refine wp_bind (wp_clear h hi ?_)
    intro s' h1 _
    refine wp_fillFrom h1 (World.set_same _ _ _) (by rw [World.set_other (Ne.symm hij)]; exact hj) hij rfl
      ?_ ?_
    · intro s'' a' h2 h3 h4 h5
      rw [World.set_set] at h2
      exact hQ s'' a' h2 h3 (by rw [if_neg hij]; exact h4) h5
    · intro hw s'' a' h2 _ _
      rw [World.set_set] at h2
      exact ⟨fun hc => hT hc hw, fun hc => hE hc hw s'' a' h2⟩

/-- move_or_copy_all_elements_from into a vector without elements and without heap block (its data
pointer and capacity are not valid yet). -/
theorem wp_stealAll {v : Vec} {Q : Unit → St V → Prop}
    (h : Rel t (s.setVec i (some ⟨.inner i, t.inCap, 0⟩)) A) (hi : A i = some ⟨[], none, t.inCap⟩)
    (hv : s.vec i = some v) (hsz : v.size = 0) (hj : A j = some b) (hij : i ≠ j)
    (hQ : ∀ s', Rel t s' ((A.set i (some b)).set j (some ⟨[], none, t.inCap⟩)) → Q () s')
    (hE : t.nothrowMove = false → w.at? ≠ none → ∀ s' xs, Rel t s' (A.set j (some { b with xs := xs })) →
      xs.length = b.xs.length → (Strong t → xs = b.xs) → E s') :
    wp (stealAll t i j) w s Q E T := by
  have hvj : s.vec j = some ⟨b.data j, b.cap, b.xs.length⟩ := by
    have := h.vec hj
    simpa [St.setVec, upd, hij.symm] using this
  have hin : t.inCap < sizeLim := h.lim hi
  refine wp_bind (wp_getVec hvj (wp_ite ?_ ?_))
  · intro hal
    have hl : b.loc ≠ none := (allocated_iff b j _).1 hal
    refine wp_bind (wp_setVec (wp_setVec (hQ _ ?_)))
    obtain ⟨k, hk⟩ : ∃ k, b.loc = some k := by
      cases hb : b.loc with
      | none => exact absurd hb hl
      | some k => exact ⟨k, rfl⟩
    refine h.exchange (a' := b) (b' := ⟨[], none, t.inCap⟩) hi hj hij rfl rfl ?_ ?_ ?_ ?_ ?_ (Nat.le_refl _)
      (h.wf j b hj) ⟨Nat.zero_le _, hin, fun _ => rfl, fun h => absurd rfl h⟩
    · intro m
      simp only [St.setVec, upd]
      by_cases h1 : m = j
      · subst h1; simp [hij.symm, AV.data]
      · by_cases h2 : m = i
        · subst h2; simp [h1, AV.data, hk]
        · simp [h1, h2]
    · have := h.inner i
      rw [hi] at this
      simp only [setVec_mem] at this ⊢
      rw [this, if_neg hl]
      simp [cellsOf_nil]
    · have := h.inner j
      rw [hj] at this
      simp only [setVec_mem] at this ⊢
      rw [this]
      simp [cellsOf_nil, hl]
    · intro m _ _; rfl
    · intro m
      simp only [setVec_mem]
      by_cases h1 : b.loc = some m
      · have := h.owned j b m hj h1
        rw [if_pos h1]; exact this
      · rw [if_neg h1]; simp
  · intro hal
    have hl : b.loc = none := by
      have := mt (allocated_iff b j b.xs.length).2 hal
      simpa using this
    have hcap : b.cap = t.inCap := (h.wf j b hj).2.2.1 hl
    refine wp_bind (wp_getVec hv (wp_bind (wp_setVec ?_)))
    simp only [hsz, data_none hl]
    have hne : Blk.inner j ≠ Blk.inner i := by simp [hij.symm]
    have hmj := h.mem hj
    have hmi := h.mem hi
    rw [data_none hl] at hmj
    rw [data_none rfl] at hmi
    refine wp_bind (wp_uninitMoveOrCopy (v := vals t b.xs) hne hmj (by have := h.len hj; omega)
      (fun k hk => by rw [Nat.zero_add]; exact cellsOf_vals hk) hmi (by have := h.len hj; simp only; omega)
      (fun k _ _ => cellsOf_ge (Nat.zero_le _)) ?_ ?_)
    · intro c' h1 h2
      refine wp_bind (wp_setVec ?_)
      obtain ⟨xs, hxl, hxc⟩ := exists_cellsOf b.xs.length c' (fun k hk => h1 k (by omega) (by omega))
        (fun k hk => by rw [h2 k (by omega), cellsOf_ge hk])
      have hr := h.values hj xs hxl
      rw [data_none hl, ← hxc] at hr
      have hr2 := hr.inplace (i := i) (by rw [World.set_other hij]; exact hi) b.xs
        (by have := h.len hj; simp only; omega)
      rw [data_none rfl] at hr2
      simp only [cellsOf_nil]
      rw [fill_raw b.xs rfl (fun k hk => vals_lt hk)]
      refine wp_clear (a := { b with xs := xs }) hr2 ?_ ?_
      · rw [World.set_other hij.symm, World.set_same]
      · intro s' h3 _
        refine hQ s' ?_
        rw [World.set_comm hij, World.set_set, World.set_comm hij.symm] at h3
        have e1 : (⟨b.xs, none, t.inCap⟩ : AV V) = b := by rw [← hl, ← hcap]
        have e2 : (⟨[], b.loc, b.cap⟩ : AV V) = ⟨[], none, t.inCap⟩ := by rw [hl, hcap]
        simp only [e1, e2] at h3
        exact h3
    · intro hw hm c' h1 h2 h3
      obtain ⟨xs, hxl, hxc⟩ := exists_cellsOf b.xs.length c' (fun k hk => h1 k (by omega) (by omega))
        (fun k hk => by rw [h2 k (by omega), cellsOf_ge hk])
      have hr := h.values hj xs hxl
      rw [data_none hl, ← hxc] at hr
      refine hE hm hw _ xs hr hxl ?_
      intro hs
      rcases hs with hs | hs
      · rw [hm] at hs; cases hs
      · exact cellsOf_inj (by rw [← hxc, h3 hs])

end Gul14.SmallVector
