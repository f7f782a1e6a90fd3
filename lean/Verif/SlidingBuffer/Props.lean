import Verif.SlidingBuffer.Lemmas

namespace Gul14.SlidingBuffer
open Spec

variable {α : Type}

theorem subscript_some {st : List α} {i : Nat} {x : α} (h : st[i]? = some x) :
    subscript st i = .ok x := by unfold subscript; rw [h]

theorem Rep.index {b : Buf α} {l} (h : Rep b l) (i : Nat) (x : α) (hx : l[i]? = some x) :
    index b i = .ok x := by
  have hs : sizeMod = 2 ^ 64 := rfl
  have hi := (List.getElem?_eq_some_iff.1 hx).1
  have hle := h.le
  have hc := h.cap
  have hib := h.ib (by omega)
  have hg := h.get i hi
  unfold SlidingBuffer.index capacity
  have e : (i + b.idxBegin) % sizeMod = b.idxBegin + i := by
    rw [hs, Nat.mod_eq_of_lt (by omega)]; omega
  simp only [e]
  unfold wrap at hg
  split at hg
  · rename_i hw; rw [if_pos hw]; exact subscript_some (hg.trans hx)
  · rename_i hw; rw [if_neg hw]; exact subscript_some (hg.trans hx)

theorem walk_eq {b : Buf α} {l} (h : Rep b l) : ∀ (n i fuel : Nat), i + n = l.length → n ≤ fuel →
    walk b (end' b) fuel ⟨i⟩ = .ok (l.drop i) := by
  have hs : sizeMod = 2 ^ 64 := rfl
  have hle := h.le
  have hc := h.cap
  intro n
  induction n with
  | zero =>
    intro i fuel hi _
    unfold walk
    have : i = l.length := by omega
    simp [Iter.eq, end', h.size_eq, this]
  | succ n ih =>
    intro i fuel hi hfu
    obtain ⟨fuel, rfl⟩ : ∃ f, fuel = f + 1 := ⟨fuel - 1, by omega⟩
    unfold walk
    have hne : i ≠ l.length := by omega
    have hx : l[i]? = some l[i] := List.getElem?_eq_getElem (by omega)
    have hinc : (⟨i⟩ : Iter).inc = ⟨i + 1⟩ := by
      simp only [Iter.inc]; rw [hs, Nat.mod_eq_of_lt (by omega)]
    simp only [Iter.eq, end', h.size_eq]
    rw [if_neg (by simpa using hne)]
    simp only [Iter.deref, h.index i _ hx, Res.bind_ok, hinc]
    have := ih (i + 1) fuel (by omega) (by omega)
    simp only [end', h.size_eq] at this
    rw [this]
    simp only [Res.map_ok]
    rw [List.drop_eq_getElem_cons (by omega : i < l.length)]

theorem walkBack_eq {b : Buf α} {l} (h : Rep b l) : ∀ (i fuel : Nat), i ≤ l.length → i ≤ fuel →
    walkBack b (begin' b) fuel ⟨i⟩ = .ok (l.take i).reverse := by
  have hs : sizeMod = 2 ^ 64 := rfl
  have hle := h.le
  have hc := h.cap
  intro i
  induction i with
  | zero => intro fuel _ _; unfold walkBack; simp [Iter.eq, begin']
  | succ i ih =>
    intro fuel hi hfu
    obtain ⟨fuel, rfl⟩ : ∃ f, fuel = f + 1 := ⟨fuel - 1, by omega⟩
    unfold walkBack
    have hx : l[i]? = some l[i] := List.getElem?_eq_getElem (by omega)
    have hdec : (⟨i + 1⟩ : Iter).dec = ⟨i⟩ := by
      have e : (i + 1 + sizeMod - 1) % sizeMod = i := by rw [hs]; omega
      simp only [Iter.dec, e]
    rw [if_neg (by simp [Iter.eq, begin'])]
    simp only [hdec, Iter.deref, h.index i _ hx, Res.bind_ok, ih fuel (by omega) (by omega),
      Res.map_ok]
    have ht : l.take (i + 1) = l.take i ++ [l[i]] := by rw [List.take_add_one, hx]; rfl
    rw [ht, List.reverse_append]
    rfl

theorem Rep.shows {b : Buf α} {l} (h : Rep b l) : Shows b ⟨b.storage.length, l⟩ := by
  have hs : sizeMod = 2 ^ 64 := rfl
  have hle := h.le
  have hc := h.cap
  have hsz := h.size_eq
  refine ⟨hsz, rfl, ?_, ?_, ?_, ?_, ?_, ?_, ?_, ?_⟩
  · unfold SlidingBuffer.empty
    simp only [Bool.and_eq_true, Bool.not_eq_true', beq_iff_eq]
    rw [← List.length_eq_zero_iff]
    have hf := h.full
    have hie := h.ie
    by_cases h0 : b.storage.length = 0
    · obtain ⟨z1, z2⟩ := h.zero h0
      have : b.full = false := by
        cases hb : b.full
        · rfl
        · exact absurd h0 (hf.1 hb).2
      simp [z1, z2, this]
      have : l.length = 0 := by omega
      exact List.length_eq_zero_iff.1 this
    · have hib := h.ib (by omega)
      constructor
      · rintro ⟨h1, h2⟩
        have : l.length ≠ b.storage.length := by
          intro he; have := hf.2 ⟨he, h0⟩; rw [h1] at this; exact absurd this (by simp)
        rw [hie] at h2
        unfold wrap at h2
        split at h2 <;> omega
      · intro hz
        refine ⟨?_, ?_⟩
        · cases hb : b.full
          · rfl
          · have := (hf.1 hb).1; omega
        · rw [hie, hz]; unfold wrap; split <;> omega
  · exact h.full
  · intro i
    unfold at'
    rw [hsz]
    simp only
    split
    · rename_i hi
      rw [List.getElem?_eq_none hi]
    · rename_i hi
      have hx : l[i]? = some l[i] := List.getElem?_eq_getElem (by omega)
      rw [hx, h.index i _ hx]
  · exact h.index
  · intro x hx
    simp only at hx
    have hx0 : l[0]? = some x := by rw [← hx]; exact List.head?_eq_getElem?.symm
    have hl := (List.getElem?_eq_some_iff.1 hx0).1
    have hib := h.ib (by omega)
    have := h.get 0 hl
    unfold wrap at this
    rw [if_neg (by omega)] at this
    exact subscript_some (this.trans hx0)
  · intro x hx
    simp only at hx
    rw [List.getLast?_eq_getElem?] at hx
    have hl := (List.getElem?_eq_some_iff.1 hx).1
    have hib := h.ib (by omega)
    have hg := (h.get _ hl).trans hx
    have hie := h.ie
    unfold SlidingBuffer.back capacity
    split
    · have e : (b.storage.length + sizeMod - 1) % sizeMod =
          wrap b.storage.length (b.idxBegin + (l.length - 1)) := by
        rw [hs]
        unfold wrap at hie ⊢
        split at hie <;> split <;> omega
      rw [e]
      exact subscript_some hg
    · have e : b.idxEnd - 1 = wrap b.storage.length (b.idxBegin + (l.length - 1)) := by
        unfold wrap at hie ⊢
        split at hie <;> split <;> omega
      rw [e]
      exact subscript_some hg
  · exact walk_eq h l.length 0 _ (by omega) hle
  · have := walkBack_eq h l.length (capacity b) (Nat.le_refl _) hle
    unfold elementsReverse
    simp only [end', hsz]
    rw [this, List.take_length]

/-- One allowed call keeps buffer and deque in step. -/
theorem step_rep (exposed : Bool) (dflt : α) (b : Buf α) (d d' : Deque α) (op : Op α)
    (hd : d.cap = b.storage.length) (h : Rep b d.items) (hop : ∀ n s, op = .resize n s → Possible n)
    (ha : d.apply op = some d') :
    ∃ b', step exposed dflt b op = .ok b' ∧ d'.cap = b'.storage.length ∧ Rep b' d'.items := by
  cases op with
  | pushBack x =>
    simp only [Deque.apply] at ha
    by_cases h0 : d.cap = 0
    · rw [if_pos h0] at ha; cases ha
    rw [if_neg h0] at ha
    obtain ⟨b', h1, h2, h3⟩ := h.pushBack x (by omega)
    refine ⟨b', h1, ?_⟩
    rw [← hd] at h3
    split at ha
    · rename_i he; rw [if_pos he] at h3; cases ha; exact ⟨by rw [h2]; exact hd, h3⟩
    · rename_i he; rw [if_neg he] at h3; cases ha; exact ⟨by rw [h2]; exact hd, h3⟩
  | pushFront x =>
    simp only [Deque.apply] at ha
    by_cases h0 : d.cap = 0
    · rw [if_pos h0] at ha; cases ha
    rw [if_neg h0] at ha
    obtain ⟨b', h1, h2, h3⟩ := h.pushFront x (by omega)
    refine ⟨b', h1, ?_⟩
    rw [← hd] at h3
    split at ha
    · rename_i he; rw [if_pos he] at h3; cases ha; exact ⟨by rw [h2]; exact hd, h3⟩
    · rename_i he; rw [if_neg he] at h3; cases ha; exact ⟨by rw [h2]; exact hd, h3⟩
  | popBack =>
    simp only [Deque.apply] at ha
    split at ha
    · cases ha
    · rename_i hne
      cases ha
      obtain ⟨h1, h2⟩ := h.popBack hne
      exact ⟨_, rfl, by rw [h1]; exact hd, h2⟩
  | popFront =>
    simp only [Deque.apply] at ha
    split at ha
    · cases ha
    · rename_i hne
      cases ha
      obtain ⟨h1, h2⟩ := h.popFront hne
      exact ⟨_, rfl, by rw [h1]; exact hd, h2⟩
  | clear =>
    cases ha
    obtain ⟨h1, h2⟩ := Rep.clear (b := b) h.cap dflt rfl
    exact ⟨_, rfl, by rw [h1]; exact hd, h2⟩
  | resize n s =>
    have hn := hop n s rfl
    have key : ∃ b', step exposed dflt b (.resize n s) = .ok b' ∧ b'.storage.length = n ∧
        Rep b' (match (generalizing := false) s with
          | .keepFront => d.items.take n
          | .keepBack => d.items.drop (d.items.length - n)) := by
      cases exposed with
      | true => exact h.resizeExposed dflt n hn s
      | false => exact h.changeCapacity dflt n hn s
    obtain ⟨b', h1, h2, h3⟩ := key
    refine ⟨b', h1, ?_⟩
    cases s <;> (cases ha; exact ⟨h2.symm, h3⟩)

theorem run_rep (exposed : Bool) (dflt : α) (ops : List (Op α)) : ∀ (b : Buf α) (d d' : Deque α),
    d.cap = b.storage.length → Rep b d.items → OpsPossible ops → d.run ops = some d' →
    ∃ b', run exposed dflt b ops = .ok b' ∧ d'.cap = b'.storage.length ∧ Rep b' d'.items := by
  induction ops with
  | nil => intro b d d' hd h _ hr; cases hr; exact ⟨b, rfl, hd, h⟩
  | cons op ops ih =>
    intro b d d' hd h hop hr
    simp only [Deque.run] at hr
    cases ha : d.apply op with
    | none => rw [ha] at hr; cases hr
    | some d1 =>
      rw [ha] at hr
      obtain ⟨b1, h1, h2, h3⟩ := step_rep exposed dflt b d d1 op hd h
        (fun n s he => hop n s (by simp [he])) ha
      obtain ⟨b', h4, h5⟩ := ih b1 d1 d' h2 h3
        (fun n s hm => hop n s (List.mem_cons_of_mem _ hm)) hr
      exact ⟨b', by simp only [run, h1, Res.bind_ok, h4], h5⟩

theorem Reachable.rep {exposed : Bool} {dflt : α} {b : Buf α} {d : Deque α}
    (h : Reachable exposed dflt b d) : d.cap = b.storage.length ∧ Rep b d.items := by
  obtain ⟨c, ops, h1, h2, h3, h4⟩ := h
  obtain ⟨b', h5, h6, h7⟩ := run_rep exposed dflt ops (new dflt c) ⟨c, []⟩ d
    (by simp [new]) (Rep.new dflt c h1) h2 h3
  rw [h4] at h5
  cases h5
  exact ⟨h6, h7⟩

/-! ## C23 -/

/-- After any history of allowed calls on a new buffer (of either class) every observer reports
what the same history makes of a bounded deque; in particular no call is undefined. -/
theorem c23_deque (exposed : Bool) (dflt : α) (c : Nat) (hc : Possible c) (ops : List (Op α))
    (hops : OpsPossible ops) (d : Deque α) (hd : Deque.run ⟨c, []⟩ ops = some d) :
    ∃ b, run exposed dflt (new dflt c) ops = .ok b ∧ Shows b d := by
  obtain ⟨b, h1, h2, h3⟩ := run_rep exposed dflt ops (new dflt c) ⟨c, []⟩ d
    (by simp [new]) (Rep.new dflt c hc) hops hd
  refine ⟨b, h1, ?_⟩
  have := h3.shows
  rw [← h2] at this
  exact this

/-- The size never exceeds the capacity. -/
theorem c23_bounded (exposed : Bool) (dflt : α) (b : Buf α) (d : Deque α)
    (h : Reachable exposed dflt b d) : size b ≤ capacity b := by
  obtain ⟨h1, h2⟩ := Reachable.rep h
  rw [h2.size_eq]
  exact h2.le

/-- Pushing into a buffer of capacity zero is undefined, as documented. -/
theorem c23_push_zero_capacity (x : α) (ib ie : Nat) (f : Bool) :
    pushBack (⟨ib, ie, f, []⟩ : Buf α) x = .ub ∧ pushFront (⟨ib, ie, f, []⟩ : Buf α) x = .ub := by
  constructor
  · rfl
  · unfold pushFront store
    cases f <;> simp only [Bool.false_eq_true, if_false, if_true]
    · split <;> simp
    · simp

example : Deque.run ⟨3, []⟩ [.pushBack 1, .pushBack 2, .pushFront 0, .pushBack 3, .popFront,
      .pushFront 9, .resize 2 .keepBack] = some ⟨2, [2, 3]⟩ ∧
    (run false 0 (new 0 3) [.pushBack 1, .pushBack 2, .pushFront 0, .pushBack 3, .popFront,
      .pushFront 9, .resize 2 .keepBack]).bind elements = .ok [2, 3] := by decide +kernel

/-! ## C24 -/

/-- resize(n) on any reachable buffer keeps the promised elements and sets the capacity. -/
theorem c24_resize (exposed : Bool) (dflt : α) (b : Buf α) (d : Deque α)
    (h : Reachable exposed dflt b d) (n : Nat) (hn : Possible n) (s : Shrink) :
    ∃ b', step exposed dflt b (.resize n s) = .ok b' ∧ capacity b' = n ∧
      size b' = min (size b) n ∧
      (∀ i, i < size b' → at' b' i = at' b (match s with
        | .keepFront => i
        | .keepBack => size b - size b' + i)) := by
  obtain ⟨h1, h2⟩ := Reachable.rep h
  have hex : ∃ d', d.apply (.resize n s) = some d' ∧ d'.cap = n ∧ d'.items = (match s with
        | .keepFront => d.items.take n
        | .keepBack => d.items.drop (d.items.length - n)) := by
    cases s <;> exact ⟨_, rfl, rfl, rfl⟩
  obtain ⟨d', ha, hcap, hit⟩ := hex
  obtain ⟨b', k1, k2, k3⟩ := step_rep exposed dflt b d d' (.resize n s) h1 h2
    (by intro n' s' he; cases he; exact hn) ha
  have sz := h2.size_eq
  have sz' := k3.size_eq
  have hlen : d'.items.length = min d.items.length n := by
    rw [hit]; cases s <;> simp <;> omega
  refine ⟨b', k1, by rw [← hcap, k2]; rfl, by rw [sz, sz', hlen], ?_⟩
  intro i hi
  rw [(k3.shows).at_ i, (h2.shows).at_]
  simp only
  rw [sz, sz', hit]
  cases s with
  | keepFront =>
    simp only
    rw [List.getElem?_take, if_pos (by omega)]
  | keepBack =>
    simp only
    rw [List.getElem?_drop, List.length_drop]
    have : d.items.length - n + i = d.items.length - (d.items.length - (d.items.length - n)) + i := by
      omega
    rw [← this]

example : ∃ b, run true 0 (new 0 3) [.pushFront 1, .pushFront 2] = .ok b ∧
    (step true 0 b (.resize 5 .keepFront)).bind (at' · 1) = .ok 1 ∧
    (step true 0 b (.resize 1 .keepBack)).bind (at' · 0) = .ok 1 ∧
    (step true 0 b (.resize 1 .keepFront)).bind (at' · 0) = .ok 2 := ⟨_, rfl, by decide +kernel⟩

/-! ## C25 -/

/-- at(i) is checked, and its value agrees with []. -/
theorem c25_at (exposed : Bool) (dflt : α) (b : Buf α) (d : Deque α)
    (h : Reachable exposed dflt b d) (i : Nat) :
    (i < size b → ∃ x, at' b i = .ok x ∧ index b i = .ok x) ∧
    (size b ≤ i → at' b i = .throw .outOfRange) := by
  obtain ⟨h1, h2⟩ := Reachable.rep h
  rw [h2.size_eq, (h2.shows).at_ i]
  constructor
  · intro hi
    have hx : d.items[i]? = some d.items[i] := List.getElem?_eq_getElem hi
    simp only [hx]
    exact ⟨_, rfl, h2.index i _ hx⟩
  · intro hi
    simp only
    rw [List.getElem?_eq_none hi]

/-- [] stays inside the storage for every index below the capacity. -/
theorem c25_index_in_capacity (exposed : Bool) (dflt : α) (b : Buf α) (d : Deque α)
    (h : Reachable exposed dflt b d) (i : Nat) (hi : i < capacity b) :
    ∃ x, index b i = .ok x := by
  have hs : sizeMod = 2 ^ 64 := rfl
  obtain ⟨h1, h2⟩ := Reachable.rep h
  unfold capacity at hi
  have hib := h2.ib (by omega)
  have hc := h2.cap
  unfold SlidingBuffer.index capacity
  have e : (i + b.idxBegin) % sizeMod = b.idxBegin + i := by
    rw [hs, Nat.mod_eq_of_lt (by omega)]; omega
  simp only [e]
  split
  · exact ⟨_, subscript_some (List.getElem?_eq_getElem (by omega))⟩
  · exact ⟨_, subscript_some (List.getElem?_eq_getElem (by omega))⟩

/-- Documented, but false: after a pop, [] beyond size() yields the old element instead of a
default-constructed one. -/
theorem c25_beyond_size_violated :
    ∃ b : Buf Nat, Reachable false 0 b ⟨3, [7]⟩ ∧ size b = 1 ∧ 1 < capacity b ∧
      index b 1 = .ok 8 :=
  ⟨_, ⟨3, [.pushBack 7, .pushBack 8, .popBack], by unfold Possible; decide,
    by intro n s h; simp at h, rfl, rfl⟩, rfl, by decide, rfl⟩

/-- Documented, but false: the same happens without any pop when a SlidingBufferExposed filled
with push_front() is enlarged. -/
theorem c25_beyond_size_exposed_violated :
    ∃ b : Buf Nat, Reachable true 0 b ⟨4, [7]⟩ ∧ size b = 1 ∧ 3 < capacity b ∧
      index b 3 = .ok 7 :=
  ⟨_, ⟨3, [.pushFront 7, .resize 4 .keepFront], by unfold Possible; decide,
    by intro n s h; simp at h; obtain ⟨rfl, -⟩ := h; unfold Possible; decide, rfl, rfl⟩,
    rfl, by decide, rfl⟩

/-- All storage positions that hold no element hold the default value. -/
def Clean (dflt : α) (b : Buf α) (l : List α) : Prop :=
  ∀ i, l.length ≤ i → i < b.storage.length →
    b.storage[wrap b.storage.length (b.idxBegin + i)]? = some dflt

theorem clean_step (dflt : α) (b b' : Buf α) (d d' : Deque α) (op : Op α) (hp : NoPop op)
    (hd : d.cap = b.storage.length) (h : Rep b d.items) (hn : ∀ n s, op = .resize n s → Possible n)
    (ha : d.apply op = some d') (hs : step false dflt b op = .ok b') (hc : Clean dflt b d.items) :
    Clean dflt b' d'.items := by
  have hib := h.ib
  have hle := h.le
  have hiew := h.ie
  have hcap := h.cap
  obtain ⟨b'', g1, g2, g3⟩ := step_rep false dflt b d d' op hd h hn ha
  rw [hs] at g1; cases g1
  by_cases hfull' : d'.items.length = b'.storage.length
  · intro i h1 h2; omega
  cases op with
  | popBack => exact hp.elim
  | popFront => exact hp.elim
  | clear =>
    cases ha
    cases hs
    intro i _ hi
    simp only [clear, List.length_map] at hi ⊢
    have : wrap b.storage.length (0 + i) = i := by unfold wrap; rw [if_neg (by omega)]; omega
    rw [this]
    simp [hi]
  | pushBack x =>
    simp only [Deque.apply] at ha
    split at ha
    · cases ha
    rename_i h0
    have hie := h.ie_lt (by omega)
    have hib := hib (by omega)
    simp only [step, pushBack, store, if_pos hie, Res.bind_ok] at hs
    by_cases hf : b.full = true
    · obtain ⟨hl, -⟩ := h.full.1 hf
      rw [if_pos (by omega)] at ha
      cases ha
      simp only at g2 hfull'
      exfalso
      apply hfull'
      simp
      omega
    · have hne : d.items.length ≠ d.cap := fun he => hf (h.full.2 ⟨by omega, by omega⟩)
      rw [if_neg hne] at ha
      cases ha
      have hb' : b'.idxBegin = b.idxBegin ∧ b'.storage = b.storage.set b.idxEnd x := by
        simp only [hf, Bool.false_eq_true, if_false] at hs
        split at hs <;> (cases hs; exact ⟨rfl, rfl⟩)
      intro i h1 h2
      rw [hb'.1, hb'.2]
      simp only [hb'.2, List.length_set, List.length_append, List.length_cons,
        List.length_nil] at h1 h2 ⊢
      rw [List.getElem?_set_ne, hc i (by omega) h2]
      rw [hiew]; unfold wrap; split <;> split <;> omega
  | pushFront x =>
    simp only [Deque.apply] at ha
    split at ha
    · cases ha
    rename_i h0
    have hib := hib (by omega)
    simp only [step, pushFront, store, decreaseIdx_eq h _ (by omega : 0 < b.storage.length)] at hs
    by_cases hf : b.full = true
    · obtain ⟨hl, -⟩ := h.full.1 hf
      rw [if_pos (by omega)] at ha
      cases ha
      simp only at g2 hfull'
      exfalso
      apply hfull'
      simp
      omega
    · have hne : d.items.length ≠ d.cap := fun he => hf (h.full.2 ⟨by omega, by omega⟩)
      rw [if_neg hne] at ha
      cases ha
      have hb' : b'.idxBegin = (if b.idxBegin = 0 then b.storage.length - 1 else b.idxBegin - 1) ∧
          b'.storage = b.storage.set b'.idxBegin x := by
        have hlt : (if b.idxBegin = 0 then b.storage.length - 1 else b.idxBegin - 1) <
          b.storage.length := by split <;> omega
        simp only [hf, Bool.false_eq_true, if_false] at hs
        generalize (if b.idxBegin = 0 then b.storage.length - 1 else b.idxBegin - 1) = nb at *
        by_cases he : b.idxEnd = nb
        · simp only [he, if_true, hlt, Res.map_ok] at hs
          cases hs; exact ⟨rfl, rfl⟩
        · simp only [he, if_false, hlt, if_true, Res.map_ok] at hs
          cases hs; exact ⟨rfl, rfl⟩
      intro i h1 h2
      rw [hb'.2, hb'.1] at h2 ⊢
      simp only [List.length_set, List.length_cons] at h1 h2 ⊢
      have key : wrap b.storage.length
          ((if b.idxBegin = 0 then b.storage.length - 1 else b.idxBegin - 1) + i) =
          wrap b.storage.length (b.idxBegin + (i - 1)) := by
        unfold wrap; split <;> split <;> split <;> omega
      rw [List.getElem?_set_ne, key, hc (i - 1) (by omega) (by omega)]
      unfold wrap; split <;> split <;> omega
  | resize n s =>
    have hib' : b.idxBegin ≤ b.storage.length := by
      by_cases h0 : 0 < b.storage.length
      · have := h.ib h0; omega
      · have := h.zero (by omega); omega
    have hcap' : d'.cap = n := by cases s <;> (cases ha; rfl)
    have hlen' : d'.items.length = min d.items.length n := by
      cases s <;> (cases ha; simp <;> omega)
    simp only [step, Bool.false_eq_true, if_false, resize, changeCapacity, capacity, h.size_eq]
      at hs
    split at hs
    · rename_i he
      cases hs
      intro i h1 h2
      exact hc i (by omega) h2
    · split at hs
      · cases hs
        intro i h1 h2
        simp at h2
      · have fits : (rotate b.storage b.idxBegin).map (fun st =>
            (⟨0, d.items.length, false, vectorResize dflt st n⟩ : Buf α)) = .ok b' →
            d.items.length < n → Clean dflt b' d'.items := by
          intro hs hlt
          rw [rotate, if_pos hib'] at hs
          cases hs
          intro i h1 h2
          simp only [vectorResize_length, Nat.zero_add] at h2 ⊢
          have hw : wrap n i = i := by unfold wrap; rw [if_neg (by omega)]
          rw [hw]
          have hlen : (b.storage.drop b.idxBegin ++ b.storage.take b.idxBegin).length =
            b.storage.length := by simp; omega
          by_cases hi : i < b.storage.length
          · rw [vectorResize_get _ _ _ _ h2 (by omega), rotate_get _ _ _ hib' hi,
              hc i (by omega) hi]
          · unfold vectorResize
            rw [List.getElem?_append_right (by rw [List.length_take, hlen]; omega),
              List.getElem?_replicate, if_pos (by rw [List.length_take, hlen]; omega)]
        split at hs
        · exact fits hs (by omega)
        · split at hs
          · rename_i hlt; exact fits hs hlt
          · exfalso
            apply hfull'
            omega

theorem clean_run (dflt : α) (ops : List (Op α)) : ∀ (b b' : Buf α) (d d' : Deque α),
    (∀ op ∈ ops, NoPop op) → d.cap = b.storage.length → Rep b d.items → OpsPossible ops →
    d.run ops = some d' → run false dflt b ops = .ok b' → Clean dflt b d.items →
    Clean dflt b' d'.items := by
  induction ops with
  | nil => intro b b' d d' _ _ _ _ hr hs hc; cases hr; cases hs; exact hc
  | cons op ops ih =>
    intro b b' d d' hp hd h hop hr hs hc
    simp only [Deque.run] at hr
    cases ha : d.apply op with
    | none => rw [ha] at hr; cases hr
    | some d1 =>
      rw [ha] at hr
      have hop1 : ∀ n s, op = .resize n s → Possible n := fun n s he => hop n s (by simp [he])
      obtain ⟨b1, h1, h2, h3⟩ := step_rep false dflt b d d1 op hd h hop1 ha
      simp only [run, h1, Res.bind_ok] at hs
      exact ih b1 b' d1 d' (fun o ho => hp o (List.mem_cons_of_mem _ ho)) h2 h3
        (fun n s hm => hop n s (List.mem_cons_of_mem _ hm)) hr hs
        (clean_step dflt b b1 d d1 op (hp op (by simp)) hd h hop1 ha h1 hc)

/-- What is missing: histories with pops, and SlidingBufferExposed.  Without them [] beyond
size() (and inside the capacity) yields a default-constructed element, as documented. -/
theorem c25_beyond_size_partial (dflt : α) (c : Nat) (hc : Possible c) (ops : List (Op α))
    (hops : OpsPossible ops) (hpop : ∀ op ∈ ops, NoPop op) (d : Deque α)
    (hd : Deque.run ⟨c, []⟩ ops = some d) (b : Buf α)
    (hb : run false dflt (new dflt c) ops = .ok b) (i : Nat) (h1 : size b ≤ i)
    (h2 : i < capacity b) : index b i = .ok dflt := by
  have hs : sizeMod = 2 ^ 64 := rfl
  obtain ⟨h3, h4⟩ := Reachable.rep ⟨c, ops, hc, hops, hd, hb⟩
  have hcl := clean_run dflt ops (new dflt c) b ⟨c, []⟩ d hpop (by simp [new])
    (Rep.new dflt c hc) hops hd hb (by
      intro i _ hi
      simp [new] at hi ⊢
      unfold wrap
      rw [if_neg (by omega), List.getElem?_replicate, if_pos hi])
  rw [h4.size_eq] at h1
  unfold capacity at h2
  have hg := hcl i h1 h2
  have hib := h4.ib (by omega)
  have hc := h4.cap
  unfold SlidingBuffer.index capacity
  have e : (i + b.idxBegin) % sizeMod = b.idxBegin + i := by
    rw [hs, Nat.mod_eq_of_lt (by omega)]; omega
  simp only [e]
  unfold wrap at hg
  split at hg
  · rename_i hw; rw [if_pos hw]; exact subscript_some hg
  · rename_i hw; rw [if_neg hw]; exact subscript_some hg

example : (run false 0 (new 0 4) [.pushBack 1, .pushFront 2]).bind (index · 2) = .ok 0 := by
  decide +kernel

/-! ## C26 -/

/-- Forward and backward iteration visit exactly the elements, in order. -/
theorem c26_iteration (exposed : Bool) (dflt : α) (b : Buf α) (d : Deque α)
    (h : Reachable exposed dflt b d) :
    ∃ l, elements b = .ok l ∧ elementsReverse b = .ok l.reverse ∧ l.length = size b ∧
      ∀ i x, l[i]? = some x → at' b i = .ok x ∧ ((begin' b).add i).deref b = .ok x := by
  have hs : sizeMod = 2 ^ 64 := rfl
  obtain ⟨h1, h2⟩ := Reachable.rep h
  refine ⟨d.items, h2.shows.forward, h2.shows.backward, h2.size_eq.symm, ?_⟩
  intro i x hx
  constructor
  · rw [h2.shows.at_ i]; simp only [hx]
  · have hi := (List.getElem?_eq_some_iff.1 hx).1
    have hle := h2.le
    have hc := h2.cap
    have : (begin' b).add i = ⟨i⟩ := by
      have e : ((((0 : Nat) : Int) + (i : Int)) % (sizeMod : Int)).toNat = i := by
        rw [hs]; omega
      simp only [begin', Iter.add, e]
    rw [this]
    exact h2.index i x hx

/-- Jumps and differences are integer arithmetic on positions, as long as the positions stay in
the range that a container can have. -/
theorem c26_arithmetic (p q d : Int) (hp : 0 ≤ p ∧ p < 2 ^ 62) (hq : 0 ≤ q ∧ q < 2 ^ 62)
    (hd : 0 ≤ p + d ∧ p + d < 2 ^ 62) :
    let it (x : Int) : Iter := ⟨x.toNat⟩
    (it p).add d = it (p + d) ∧ (it (p + d)).sub d = it p ∧
    (it p).inc = it (p + 1) ∧ (it (p + 1)).dec = it p ∧ (it p).diff (it q) = p - q ∧
    ((it p).eq (it q) = decide (p = q)) ∧ ((it p).lt (it q) = decide (p < q)) ∧
    ((it p).le (it q) = decide (p ≤ q)) ∧ ((it p).gt (it q) = decide (p > q)) ∧
    ((it p).ge (it q) = decide (p ≥ q)) := by
  have hs : sizeMod = 2 ^ 64 := rfl
  have hs' : (sizeMod : Int) = 2 ^ 64 := by rw [hs]; rfl
  intro it
  refine ⟨?_, ?_, ?_, ?_, ?_, ?_, ?_, ?_, ?_, ?_⟩
  · simp only [it, Iter.add, hs', Iter.mk.injEq]; omega
  · simp only [it, Iter.sub, hs', Iter.mk.injEq]; omega
  · simp only [it, Iter.inc, hs, Iter.mk.injEq]; omega
  · simp only [it, Iter.dec, hs, Iter.mk.injEq]; omega
  · simp only [it, Iter.diff, toPtrdiff, Int.bmod, hs']; omega
  · simp only [it, Iter.eq]; rw [Bool.eq_iff_iff]; simp; omega
  · simp only [it, Iter.lt]; congr 1; apply propext; omega
  · simp only [it, Iter.le]; congr 1; apply propext; omega
  · simp only [it, Iter.gt]; congr 1; apply propext; omega
  · simp only [it, Iter.ge]; congr 1; apply propext; omega

/-! ## C27 -/

theorem rep_content {b : Buf α} {l} (h : Rep b l) :
    l = (b.storage.drop b.idxBegin ++ b.storage.take b.idxBegin).take l.length := by
  have hle := h.le
  have hib' : b.idxBegin ≤ b.storage.length := by
    by_cases h0 : 0 < b.storage.length
    · have := h.ib h0; omega
    · have := h.zero (by omega); omega
  apply List.ext_getElem?
  intro i
  by_cases hi : i < l.length
  · rw [List.getElem?_take, if_pos hi, rotate_get _ _ _ hib' (by omega), h.get i hi]
  · rw [List.getElem?_eq_none (by omega), List.getElem?_eq_none (by simp; omega)]

/-- The raw range always lies inside the storage and contains every element. -/
theorem c27_contains_all (exposed : Bool) (dflt : α) (b : Buf α) (d : Deque α)
    (h : Reachable exposed dflt b d) :
    exposedBegin b ≤ exposedEnd b ∧ exposedEnd b ≤ capacity b ∧
    ∃ rest, (exposedRange b).Perm (d.items ++ rest) := by
  obtain ⟨-, h2⟩ := Reachable.rep h
  have hle := h2.le
  have hcont := rep_content h2
  have hie := h2.ie
  have hib' : b.idxBegin ≤ b.storage.length := by
    by_cases h0 : 0 < b.storage.length
    · have := h2.ib h0; omega
    · have := h2.zero (by omega); omega
  unfold capacity
  by_cases h0 : b.storage.length = 0
  · obtain ⟨z1, z2⟩ := h2.zero h0
    have hl : d.items = [] := List.length_eq_zero_iff.1 (by omega)
    have hst : b.storage = [] := List.length_eq_zero_iff.1 h0
    unfold exposedRange exposedBegin exposedEnd
    rw [hl, z1, z2, hst]
    refine ⟨by split <;> simp, by split <;> simp, [], by simp⟩
  have hib := h2.ib (by omega)
  unfold exposedRange
  by_cases hf : b.full = true
  · have e1 : exposedBegin b = 0 := by unfold exposedBegin; simp [hf]
    have e2 : exposedEnd b = b.storage.length := by unfold exposedEnd; simp [hf]
    rw [e1, e2]
    refine ⟨by omega, by omega, [], ?_⟩
    have hl := (h2.full.1 hf).1
    rw [hl, List.take_of_length_le (by simp; omega)] at hcont
    rw [List.take_length, List.drop_zero, List.append_nil, hcont]
    calc b.storage.Perm (b.storage.take b.idxBegin ++ b.storage.drop b.idxBegin) := by
          rw [List.take_append_drop]
      _ |>.Perm _ := List.perm_append_comm
  · have hne : d.items.length ≠ b.storage.length := fun he => hf (h2.full.2 ⟨he, h0⟩)
    have hf' : b.full = false := by simpa using hf
    by_cases hlin : b.idxEnd = 0 ∨ b.idxEnd ≥ b.idxBegin
    · have e1 : exposedBegin b = b.idxBegin := by unfold exposedBegin; simp [hf', hlin]
      have hend : b.idxBegin + d.items.length ≤ b.storage.length := by
        unfold wrap at hie; split at hie <;> omega
      have e2 : b.idxBegin + d.items.length ≤ exposedEnd b ∧ exposedEnd b ≤ b.storage.length := by
        unfold exposedEnd
        unfold wrap at hie
        split
        · omega
        · rename_i hx
          simp [hf'] at hx
          split at hie <;> omega
      rw [e1]
      refine ⟨by omega, by omega, (b.storage.take (exposedEnd b)).drop (b.idxBegin + d.items.length), ?_⟩
      have hc2 : d.items = (b.storage.drop b.idxBegin).take d.items.length := by
        rw [List.take_append_of_le_length (by simp; omega)] at hcont
        exact hcont
      have : (b.storage.take (exposedEnd b)).drop b.idxBegin =
          d.items ++ (b.storage.take (exposedEnd b)).drop (b.idxBegin + d.items.length) := by
        rw [← List.drop_drop]
        conv => lhs; rw [← List.take_append_drop d.items.length
          (List.drop b.idxBegin (List.take (exposedEnd b) b.storage))]
        congr 1
        rw [List.drop_take, List.take_take, Nat.min_eq_left (by omega)]
        exact hc2.symm
      rw [this]
    · have e1 : exposedBegin b = 0 := by unfold exposedBegin; simp [hlin]
      have e2 : exposedEnd b = b.storage.length := by
        unfold exposedEnd
        rw [if_pos (.inr (by omega))]
      rw [e1, e2]
      refine ⟨by omega, by omega,
        (b.storage.drop b.idxBegin ++ b.storage.take b.idxBegin).drop d.items.length, ?_⟩
      rw [List.take_length, List.drop_zero]
      conv => rhs; arg 1; rw [hcont]
      rw [List.take_append_drop]
      calc b.storage.Perm (b.storage.take b.idxBegin ++ b.storage.drop b.idxBegin) := by
            rw [List.take_append_drop]
        _ |>.Perm _ := List.perm_append_comm

/-- In a filled buffer the raw range is a rotation of the elements. -/
theorem c27_filled (exposed : Bool) (dflt : α) (b : Buf α) (d : Deque α)
    (h : Reachable exposed dflt b d) (hf : filled b = true) :
    IsRotation d.items (exposedRange b) := by
  obtain ⟨-, h2⟩ := Reachable.rep h
  have hcont := rep_content h2
  unfold filled at hf
  obtain ⟨hl, h0⟩ := h2.full.1 hf
  have hib := h2.ib (by omega)
  have e1 : exposedBegin b = 0 := by unfold exposedBegin; simp [hf]
  have e2 : exposedEnd b = b.storage.length := by unfold exposedEnd; simp [hf]
  unfold exposedRange
  rw [e1, e2, List.take_length, List.drop_zero]
  rw [hl, List.take_of_length_le (by simp; omega)] at hcont
  exact ⟨b.idxBegin, by omega, hcont⟩

theorem exposed_linear {b : Buf α} {l} (h : Rep b l) (hlin : b.full = true ∨ b.idxBegin = 0 ∨
    b.idxEnd = 0 ∧ b.idxBegin + l.length = b.storage.length) :
    IsRotation l (exposedRange b) ∧ (exposedRange b = [] ↔ l = []) := by
  have hcont := rep_content h
  have hle := h.le
  have lenR : (exposedRange b).length = l.length → (exposedRange b = [] ↔ l = []) := by
    intro he
    rw [← List.length_eq_zero_iff, he, List.length_eq_zero_iff]
  by_cases hf : b.full = true
  · obtain ⟨hl, h0⟩ := h.full.1 hf
    have hib := h.ib (by omega)
    have e1 : exposedBegin b = 0 := by unfold exposedBegin; simp [hf]
    have e2 : exposedEnd b = b.storage.length := by unfold exposedEnd; simp [hf]
    have e3 : exposedRange b = b.storage := by
      unfold exposedRange; rw [e1, e2, List.take_length, List.drop_zero]
    rw [hl, List.take_of_length_le (by simp; omega)] at hcont
    refine ⟨?_, lenR (by rw [e3]; exact hl.symm)⟩
    rw [e3]
    exact ⟨b.idxBegin, by omega, hcont⟩
  · have hf' : b.full = false := by simpa using hf
    have hne : l.length ≠ b.storage.length ∨ b.storage.length = 0 := by
      by_cases h0 : b.storage.length = 0
      · exact .inr h0
      · exact .inl fun he => hf (h.full.2 ⟨he, h0⟩)
    have key : exposedRange b = l := by
      rcases hlin with hx | hb0 | ⟨hz, hx⟩
      · exact absurd hx hf
      · have hie := h.ie
        rw [hb0] at hie
        have e1 : exposedBegin b = 0 := by unfold exposedBegin; simp [hb0]
        have e2 : exposedEnd b = l.length := by
          unfold exposedEnd
          simp only [hf', hb0]
          simp
          unfold wrap at hie
          split at hie <;> omega
        unfold exposedRange
        rw [e1, e2, List.drop_zero]
        rw [hb0] at hcont
        simpa using hcont.symm
      · have e1 : exposedBegin b = b.idxBegin := by unfold exposedBegin; simp [hf', hz]
        by_cases hb0 : b.idxBegin = 0
        · have : b.storage.length = 0 := by omega
          have hl : l = [] := List.length_eq_zero_iff.1 (by omega)
          have hst : b.storage = [] := List.length_eq_zero_iff.1 this
          unfold exposedRange
          rw [hl, hst]; simp
        · have e2 : exposedEnd b = b.storage.length := by
            unfold exposedEnd; rw [if_pos (.inr hb0)]
          unfold exposedRange
          rw [e1, e2, List.take_length]
          rw [List.take_append_of_le_length (by simp; omega),
            List.take_of_length_le (by simp; omega)] at hcont
          exact hcont.symm
    rw [key]
    exact ⟨⟨0, by omega, by simp⟩, Iff.rfl⟩

theorem backOnly_step (dflt : α) (exposed : Bool) (b b' : Buf α) (l : List α) (op : Op α)
    (h : Rep b l) (hop : BackOnly op) (hn : ∀ n s, op = .resize n s → Possible n)
    (hb : b.full = true ∨ b.idxBegin = 0)
    (hs : step exposed dflt b op = .ok b') : b'.full = true ∨ b'.idxBegin = 0 := by
  have chg : ∀ n s, changeCapacity dflt b n s = .ok b' → b'.full = true ∨ b'.idxBegin = 0 := by
    intro n s hs
    unfold changeCapacity at hs
    simp only at hs
    split at hs
    · cases hs; exact hb
    split at hs
    · cases hs; exact .inr rfl
    have fin : ∀ (r : Res (List α)) (f : List α → Buf α), (∀ st, (f st).idxBegin = 0) →
        r.map f = .ok b' → b'.full = true ∨ b'.idxBegin = 0 := by
      intro r f hf hr
      cases r with
      | ok st => cases hr; exact .inr (hf st)
      | throw => cases hr
      | terminate => cases hr
      | ub => cases hr
      | diverge => cases hr
    split at hs
    · exact fin _ _ (fun _ => rfl) hs
    split at hs
    · exact fin _ _ (fun _ => rfl) hs
    · exact fin _ _ (fun _ => rfl) hs
  cases op with
  | pushBack x =>
    simp only [step, pushBack, store] at hs
    split at hs
    · simp only [Res.bind_ok] at hs
      rcases hb with hb | hb
      · rw [if_pos hb] at hs
        cases hs
        exact .inl hb
      · split at hs
        · rename_i hf; cases hs; exact .inl hf
        · split at hs
          · cases hs; exact .inl rfl
          · cases hs; exact .inr hb
    · cases hs
  | clear => cases hs; exact .inr rfl
  | resize n s =>
    simp only [step] at hs
    split at hs
    · unfold resizeExposed at hs
      simp only at hs
      rw [if_pos] at hs
      · exact chg n s hs
      · rintro ⟨-, -, -, h4, -, h6⟩
        rcases hb with hb | hb
        · rw [hb] at h4; cases h4
        · exact h6 hb
    · exact chg n s hs
  | pushFront _ => exact hop.elim
  | popBack => exact hop.elim
  | popFront => exact hop.elim

theorem backOnly_run (dflt : α) (exposed : Bool) (ops : List (Op α)) :
    ∀ (b b' : Buf α) (d d' : Deque α), (∀ op ∈ ops, BackOnly op) → d.cap = b.storage.length →
    Rep b d.items → OpsPossible ops → d.run ops = some d' → run exposed dflt b ops = .ok b' →
    (b.full = true ∨ b.idxBegin = 0) → b'.full = true ∨ b'.idxBegin = 0 := by
  induction ops with
  | nil => intro b b' d d' _ _ _ _ hr hs hc; cases hs; exact hc
  | cons op ops ih =>
    intro b b' d d' hp hd h hop hr hs hc
    simp only [Deque.run] at hr
    cases ha : d.apply op with
    | none => rw [ha] at hr; cases hr
    | some d1 =>
      rw [ha] at hr
      have hop1 : ∀ n s, op = .resize n s → Possible n := fun n s he => hop n s (by simp [he])
      obtain ⟨b1, h1, h2, h3⟩ := step_rep exposed dflt b d d1 op hd h hop1 ha
      simp only [run, h1, Res.bind_ok] at hs
      exact ih b1 b' d1 d' (fun o ho => hp o (List.mem_cons_of_mem _ ho)) h2 h3
        (fun n s hm => hop n s (List.mem_cons_of_mem _ hm)) hr hs
        (backOnly_step dflt exposed b b1 d.items op h (hp op (by simp)) hop1 hc h1)

/-- What is missing: mixed pushes and pops.  If elements are only added with push_back(), the raw
range consists of exactly the elements, in their order up to rotation, and it is empty iff the
buffer is. -/
theorem c27_push_back_partial (dflt : α) (exposed : Bool) (c : Nat) (hc : Possible c)
    (ops : List (Op α)) (hops : OpsPossible ops) (hpush : ∀ op ∈ ops, BackOnly op) (d : Deque α)
    (hd : Deque.run ⟨c, []⟩ ops = some d) (b : Buf α)
    (hb : run exposed dflt (new dflt c) ops = .ok b) :
    IsRotation d.items (exposedRange b) ∧ (exposedRange b = [] ↔ d.items = []) := by
  obtain ⟨h3, h4⟩ := Reachable.rep ⟨c, ops, hc, hops, hd, hb⟩
  have := backOnly_run dflt exposed ops (new dflt c) b ⟨c, []⟩ d hpush (by simp [new])
    (Rep.new dflt c hc) hops hd hb (.inr rfl)
  exact exposed_linear h4 (this.elim .inl fun h => .inr (.inl h))

theorem frontOnly_run (dflt : α) (exposed : Bool) (ops : List (Op α)) :
    ∀ (b b' : Buf α) (d d' : Deque α), (∀ op ∈ ops, FrontOnly op) → d.cap = b.storage.length →
    Rep b d.items → OpsPossible ops → d.run ops = some d' → run exposed dflt b ops = .ok b' →
    (b.full = true ∨ b.idxEnd = 0) → b'.full = true ∨ b'.idxEnd = 0 := by
  induction ops with
  | nil => intro b b' d d' _ _ _ _ hr hs hc; cases hs; exact hc
  | cons op ops ih =>
    intro b b' d d' hp hd h hop hr hs hc
    simp only [Deque.run] at hr
    cases ha : d.apply op with
    | none => rw [ha] at hr; cases hr
    | some d1 =>
      rw [ha] at hr
      have hop1 : ∀ n s, op = .resize n s → Possible n := fun n s he => hop n s (by simp [he])
      obtain ⟨b1, h1, h2, h3⟩ := step_rep exposed dflt b d d1 op hd h hop1 ha
      simp only [run, h1, Res.bind_ok] at hs
      refine ih b1 b' d1 d' (fun o ho => hp o (List.mem_cons_of_mem _ ho)) h2 h3
        (fun n s hm => hop n s (List.mem_cons_of_mem _ hm)) hr hs ?_
      have hfo := hp op (by simp)
      cases op with
      | pushFront x =>
        simp only [step, pushFront] at h1
        by_cases hf : b.full = true
        · simp only [hf, if_true, store] at h1
          split at h1
          · cases h1; exact .inl rfl
          · cases h1
        · have hz : b.idxEnd = 0 := hc.resolve_left hf
          simp only [hf, Bool.false_eq_true, if_false, store] at h1
          split at h1
          · split at h1
            · cases h1; exact .inl rfl
            · cases h1
          · split at h1
            · cases h1; exact .inr hz
            · cases h1
      | clear => cases h1; exact .inr rfl
      | pushBack _ => exact hfo.elim
      | popBack => exact hfo.elim
      | popFront => exact hfo.elim
      | resize _ _ => exact hfo.elim

/-- What is missing: mixed pushes, pops, resize().  If elements are only added with push_front(),
the raw range consists of exactly the elements. -/
theorem c27_push_front_partial (dflt : α) (exposed : Bool) (c : Nat) (hc : Possible c)
    (ops : List (Op α)) (hpush : ∀ op ∈ ops, FrontOnly op) (d : Deque α)
    (hd : Deque.run ⟨c, []⟩ ops = some d) (b : Buf α)
    (hb : run exposed dflt (new dflt c) ops = .ok b) :
    IsRotation d.items (exposedRange b) ∧ (exposedRange b = [] ↔ d.items = []) := by
  have hops : OpsPossible ops := by
    intro n s hm
    exact (hpush _ hm).elim
  obtain ⟨h3, h4⟩ := Reachable.rep ⟨c, ops, hc, hops, hd, hb⟩
  have := frontOnly_run dflt exposed ops (new dflt c) b ⟨c, []⟩ d hpush (by simp [new])
    (Rep.new dflt c hc) hops hd hb (.inr rfl)
  refine exposed_linear h4 ?_
  by_cases hf : b.full = true
  · exact .inl hf
  · have hz := this.resolve_left hf
    have hle := h4.le
    have hie := h4.ie
    rw [hz] at hie
    right
    by_cases h0 : b.storage.length = 0
    · exact .inl (h4.zero h0).1
    · have hib := h4.ib (by omega)
      unfold wrap at hie
      split at hie
      · exact .inr ⟨hz, by omega⟩
      · exact .inl (by omega)

/-- Documented, but false: the range of an empty buffer is not always empty. -/
theorem c27_empty_violated :
    ∃ b : Buf Nat, Reachable true 0 b ⟨3, []⟩ ∧ empty b = true ∧ exposedRange b ≠ [] :=
  ⟨_, ⟨3, [.pushBack 7, .popFront], by unfold Possible; decide,
    by intro n s h; simp at h, rfl, rfl⟩, rfl, by decide +kernel⟩

/-- Documented, but false: with push_front() only, the range can contain unused slots if the
filled buffer is enlarged in between. -/
theorem c27_push_front_violated :
    ∃ b : Buf Nat, Reachable true 0 b ⟨4, [3, 2, 1]⟩ ∧ exposedRange b = [2, 1, 0, 3] :=
  ⟨_, ⟨2, [.pushFront 1, .pushFront 2, .resize 4 .keepFront, .pushFront 3],
    by unfold Possible; decide,
    by intro n s h; simp at h; obtain ⟨rfl, -⟩ := h; unfold Possible; decide, rfl, rfl⟩,
    by decide +kernel⟩

example : (run true 0 (new 0 3) [.pushBack 1, .pushBack 2]).map exposedRange = .ok [1, 2] ∧
    (run true 0 (new 0 3) [.pushFront 1, .pushFront 2]).map exposedRange = .ok [2, 1] ∧
    (run true 0 (new 0 2) [.pushBack 1, .pushBack 2, .pushBack 3]).map exposedRange =
      .ok [3, 2] := by decide +kernel

/-! ## C66: moved-from buffers -/

/-- A moved-from buffer is not in a valid state: it claims to hold a huge number of elements
although its capacity is zero, at() is undefined instead of throwing, and so is resize(). -/
theorem c66_moved_from_violated :
    ∃ b : Buf Nat, Reachable false 0 b ⟨3, [7, 8]⟩ ∧ size (movedFrom b) = 2 ^ 64 - 1 ∧
      capacity (movedFrom b) = 0 ∧ at' (movedFrom b) 0 = .ub ∧
      resize 0 (movedFrom b) 5 .keepFront = .ub :=
  ⟨⟨1, 0, false, [6, 7, 8]⟩, ⟨3, [.pushBack 6, .pushBack 7, .pushBack 8, .popFront],
    by unfold Possible; decide, by intro n s h; simp at h, by decide +kernel, by decide +kernel⟩,
    by decide +kernel, by decide +kernel, by decide +kernel, by decide +kernel⟩

/-- After clear() a moved-from buffer behaves as an empty one of capacity zero again. -/
theorem c66_moved_from_clear_partial (exposed : Bool) (dflt : α) (b : Buf α) (ops : List (Op α))
    (hops : OpsPossible ops) (d : Deque α) (hd : Deque.run ⟨0, []⟩ ops = some d) :
    ∃ b', run exposed dflt (clear dflt (movedFrom b)) ops = .ok b' ∧ Shows b' d := by
  have h0 : (movedFrom b).storage.length < 2 ^ 62 := by simp [movedFrom]
  obtain ⟨-, h2⟩ := Rep.clear (b := movedFrom b) h0 dflt rfl
  obtain ⟨b', h1, h2, h3⟩ := run_rep exposed dflt ops _ ⟨0, []⟩ d
    (by simp [clear, movedFrom]) h2 hops hd
  refine ⟨b', h1, ?_⟩
  have := h3.shows
  rw [← h2] at this
  exact this

example : (run false 0 (clear 0 (movedFrom (new 0 3))) [.resize 2 .keepFront, .pushBack 5]).bind
    elements = .ok [5] := by decide +kernel

end Gul14.SlidingBuffer
