import Verif.SlidingBuffer.Spec

namespace Gul14.SlidingBuffer
open Spec

variable {α : Type}

/-- Physical position of a logical one. -/
def wrap (cap i : Nat) : Nat := if i ≥ cap then i - cap else i

/-- The buffer represents the list `l`. -/
structure Rep (b : Buf α) (l : List α) : Prop where
  cap : b.storage.length < 2 ^ 62
  zero : b.storage.length = 0 → b.idxBegin = 0 ∧ b.idxEnd = 0
  ib : 0 < b.storage.length → b.idxBegin < b.storage.length
  le : l.length ≤ b.storage.length
  full : b.full = true ↔ l.length = b.storage.length ∧ b.storage.length ≠ 0
  ie : b.idxEnd = wrap b.storage.length (b.idxBegin + l.length)
  get : ∀ i, i < l.length → b.storage[wrap b.storage.length (b.idxBegin + i)]? = l[i]?

theorem sizeMod_big : (2 : Nat) ^ 64 = sizeMod := rfl

theorem wrap_lt {cap a i : Nat} (h0 : 0 < cap) (h1 : a < cap) (h2 : i ≤ cap) :
    wrap cap (a + i) < cap := by
  unfold wrap; split <;> omega

theorem Rep.ie_lt {b : Buf α} {l} (h : Rep b l) (h0 : 0 < b.storage.length) :
    b.idxEnd < b.storage.length := by
  rw [h.ie]; exact wrap_lt h0 (h.ib h0) h.le

theorem Rep.size_eq {b : Buf α} {l} (h : Rep b l) : size b = l.length := by
  have hs : sizeMod = 2 ^ 64 := rfl
  have hc := h.cap
  have hie := h.ie
  have hle := h.le
  unfold size capacity
  by_cases h0 : b.storage.length = 0
  · have hf : b.full = false := by
      cases hb : b.full
      · rfl
      · exact absurd h0 (h.full.1 hb).2
    obtain ⟨h1, h2⟩ := h.zero h0
    simp [hf, h1, h2]; omega
  · have hib := h.ib (by omega)
    by_cases hf : b.full = true
    · simp [hf, (h.full.1 hf).1]
    · have hne : l.length ≠ b.storage.length := fun he => hf (h.full.2 ⟨he, h0⟩)
      simp only [hf]
      unfold wrap at hie
      rw [hs]
      split at hie
      · simp
        split
        · omega
        · have : b.idxEnd + b.storage.length + 18446744073709551616 - b.idxBegin =
            l.length + 18446744073709551616 := by omega
          rw [this]; omega
      · simp
        split
        · omega
        · omega

theorem Rep.new (dflt : α) (c : Nat) (hc : Possible c) : Rep (new dflt c) ([] : List α) := by
  unfold Possible at hc
  constructor <;> simp [SlidingBuffer.new, wrap]
  · exact hc
  · omega

theorem decreaseIdx_eq {b : Buf α} {l} (h : Rep b l) (i : Nat) (h0 : 0 < b.storage.length) :
    decreaseIdx b i = if i = 0 then b.storage.length - 1 else i - 1 := by
  have hs : sizeMod = 2 ^ 64 := rfl
  have hc := h.cap
  unfold decreaseIdx capacity
  split
  · rw [hs]; omega
  · rfl

theorem increaseIdx_eq {b : Buf α} {c} (hlen : b.storage.length = c) (hc : c < 2 ^ 62) (i : Nat)
    (hi : i < c) :
    increaseIdx b i = wrap c (i + 1) := by
  have hs : sizeMod = 2 ^ 64 := rfl
  unfold increaseIdx capacity wrap
  rw [hlen, hs]
  have : (i + 1) % 2 ^ 64 = i + 1 := Nat.mod_eq_of_lt (by omega)
  rw [this]
  split <;> omega

theorem Rep.pushBack {b : Buf α} {l} (h : Rep b l) (x : α) (h0 : 0 < b.storage.length) :
    ∃ b', pushBack b x = .ok b' ∧ b'.storage.length = b.storage.length ∧
      Rep b' (if l.length = b.storage.length then l.tail ++ [x] else l ++ [x]) := by
  have hib := h.ib h0
  have hie := h.ie_lt h0
  have hle := h.le
  have hc := h.cap
  have hiew := h.ie
  unfold SlidingBuffer.pushBack store
  rw [if_pos hie]
  simp only [Res.bind_ok]
  have inc : ∀ (ib ie : Nat) (f : Bool) (i : Nat), i < b.storage.length →
      increaseIdx (⟨ib, ie, f, b.storage.set b.idxEnd x⟩ : Buf α) i =
        wrap b.storage.length (i + 1) := by
    intro ib ie f i hi
    exact increaseIdx_eq (by simp) hc i hi
  rw [inc _ _ _ _ hie]
  by_cases hf : b.full = true
  · obtain ⟨hl, -⟩ := h.full.1 hf
    rw [if_pos hf, if_pos hl, inc _ _ _ _ hib]
    have e1 : b.idxEnd = b.idxBegin := by
      rw [hiew]; unfold wrap; rw [if_pos (by omega)]; omega
    refine ⟨_, rfl, by simp, ?_⟩
    constructor
    · simpa using hc
    · intro hz; simp only [List.length_set] at hz; omega
    · intro _; simp; exact wrap_lt h0 hib (by omega)
    · simp; omega
    · simp only [hf, List.length_set, List.length_append, List.length_tail, List.length_cons, List.length_nil, List.length_dropLast,
        true_iff]
      omega
    · simp only [List.length_set, List.length_append, List.length_tail, List.length_cons,
        List.length_nil]
      rw [e1]
      unfold wrap
      split <;> split <;> omega
    · intro i hi
      simp only [List.length_append, List.length_tail, List.length_cons, List.length_nil] at hi
      simp only [List.length_set]
      have key : wrap b.storage.length (wrap b.storage.length (b.idxBegin + 1) + i) =
          wrap b.storage.length (b.idxBegin + (i + 1)) := by
        unfold wrap; split <;> split <;> split <;> omega
      rw [key]
      by_cases hil : i + 1 < l.length
      · rw [List.getElem?_append_left (by simp; omega)]
        rw [List.getElem?_set_ne (by unfold wrap; split <;> omega), h.get (i + 1) hil]
        simp
      · have : i = l.length - 1 := by omega
        have e2 : wrap b.storage.length (b.idxBegin + (i + 1)) = b.idxEnd := by
          unfold wrap; split <;> omega
        rw [e2, List.getElem?_set_self hie, List.getElem?_append_right (by simp; omega)]
        simp [this]
  · have hne : l.length ≠ b.storage.length := fun he => hf (h.full.2 ⟨he, by omega⟩)
    rw [if_neg hf, if_neg hne]
    have core : ∀ f : Bool, (f = true ↔ l.length + 1 = b.storage.length) →
        Rep (⟨b.idxBegin, wrap b.storage.length (b.idxEnd + 1), f, b.storage.set b.idxEnd x⟩ :
          Buf α) (l ++ [x]) := by
      intro f hff
      constructor
      · simpa using hc
      · intro hz; simp only [List.length_set] at hz; omega
      · intro _; simpa using hib
      · simp; omega
      · simp only [hff, List.length_set, List.length_append, List.length_tail, List.length_cons, List.length_nil, List.length_dropLast,
          true_iff]
        omega
      · simp only [List.length_set, List.length_append, List.length_cons, List.length_nil]
        rw [hiew]
        unfold wrap
        split <;> split <;> split <;> omega
      · intro i hi
        simp at hi
        simp only [List.length_set]
        by_cases hil : i < l.length
        · rw [List.getElem?_set_ne, h.get i hil, List.getElem?_append_left hil]
          rw [hiew]; unfold wrap; split <;> split <;> omega
        · have : i = l.length := by omega
          subst this
          rw [← hiew, List.getElem?_set_self hie]
          simp
    have e3 : wrap b.storage.length (b.idxEnd + 1) = b.idxBegin ↔
        l.length + 1 = b.storage.length := by
      rw [hiew]; unfold wrap; split <;> split <;> omega
    by_cases he : wrap b.storage.length (b.idxEnd + 1) = b.idxBegin
    · rw [if_pos he]
      exact ⟨_, rfl, by simp, core true (by simp [← e3, he])⟩
    · rw [if_neg he]
      refine ⟨_, rfl, by simp, core b.full ?_⟩
      simp [hf, ← e3, he]

theorem Rep.pushFront {b : Buf α} {l} (h : Rep b l) (x : α) (h0 : 0 < b.storage.length) :
    ∃ b', pushFront b x = .ok b' ∧ b'.storage.length = b.storage.length ∧
      Rep b' (if l.length = b.storage.length then x :: l.dropLast else x :: l) := by
  have hib := h.ib h0
  have hie := h.ie_lt h0
  have hle := h.le
  have hc := h.cap
  have hiew := h.ie
  unfold SlidingBuffer.pushFront
  rw [decreaseIdx_eq h _ h0]
  set_option linter.unusedVariables false in
  have dec : ∀ (ib ie : Nat) (f : Bool) (i : Nat),
      decreaseIdx (⟨ib, ie, f, b.storage⟩ : Buf α) i =
        if i = 0 then b.storage.length - 1 else i - 1 := by
    intro ib ie f i
    exact decreaseIdx_eq (b := b) h i h0
  generalize hnb : (if b.idxBegin = 0 then b.storage.length - 1 else b.idxBegin - 1) = nb
  have hnb1 : nb < b.storage.length := by subst hnb; split <;> omega
  have hnb2 : wrap b.storage.length (nb + 1) = b.idxBegin := by
    subst hnb; unfold wrap; split <;> split <;> omega
  by_cases hf : b.full = true
  · obtain ⟨hl, -⟩ := h.full.1 hf
    simp only [hf, if_true, dec]
    rw [if_pos hl]
    simp only [store, hnb1, if_true, Res.map_ok]
    have e1 : b.idxEnd = b.idxBegin := by
      rw [hiew]; unfold wrap; rw [if_pos (by omega)]; omega
    rw [e1, hnb]
    refine ⟨_, rfl, by simp, ?_⟩
    constructor
    · simpa using hc
    · intro hz; simp only [List.length_set] at hz; omega
    · intro _; simpa using hnb1
    · simp; omega
    · simp only [List.length_set, List.length_append, List.length_tail, List.length_cons, List.length_nil, List.length_dropLast,
        true_iff]
      omega
    · simp only [List.length_set, List.length_cons, List.length_dropLast]
      unfold wrap; split <;> omega
    · intro i hi
      simp at hi
      simp only [List.length_set]
      cases i with
      | zero =>
        have : wrap b.storage.length (nb + 0) = nb := by unfold wrap; split <;> omega
        rw [this, List.getElem?_set_self hnb1]; rfl
      | succ i =>
        have key : wrap b.storage.length (nb + (i + 1)) = wrap b.storage.length (b.idxBegin + i) := by
          rw [← hnb2]; unfold wrap; split <;> split <;> split <;> omega
        rw [key, List.getElem?_set_ne, h.get i (by omega)]
        · simp only [List.getElem?_cons_succ]
          rw [List.getElem?_dropLast, if_pos (by omega)]
        · rw [← key]; unfold wrap; split <;> omega
  · have hne : l.length ≠ b.storage.length := fun he => hf (h.full.2 ⟨he, by omega⟩)
    rw [if_neg hne]
    have core : ∀ f : Bool, (f = true ↔ l.length + 1 = b.storage.length) →
        Rep (⟨nb, b.idxEnd, f, b.storage.set nb x⟩ : Buf α) (x :: l) := by
      intro f hff
      constructor
      · simpa using hc
      · intro hz; simp only [List.length_set] at hz; omega
      · intro _; simpa using hnb1
      · simp; omega
      · simp only [hff, List.length_set, List.length_append, List.length_tail, List.length_cons, List.length_nil, List.length_dropLast,
          true_iff]
        omega
      · simp only [List.length_set, List.length_cons]
        rw [hiew, ← hnb2]
        unfold wrap
        split <;> split <;> split <;> omega
      · intro i hi
        simp at hi
        simp only [List.length_set]
        cases i with
        | zero =>
          have : wrap b.storage.length (nb + 0) = nb := by unfold wrap; split <;> omega
          rw [this, List.getElem?_set_self hnb1]; rfl
        | succ i =>
          have key : wrap b.storage.length (nb + (i + 1)) = wrap b.storage.length (b.idxBegin + i) := by
            rw [← hnb2]; unfold wrap; split <;> split <;> split <;> omega
          rw [key, List.getElem?_set_ne, h.get i (by omega)]
          · simp
          · rw [← key]; unfold wrap; split <;> omega
    have e3 : b.idxEnd = nb ↔ l.length + 1 = b.storage.length := by
      rw [hiew, ← hnb2]; unfold wrap; split <;> split <;> omega
    simp only [hf, Bool.false_eq_true, if_false]
    by_cases he : b.idxEnd = nb
    · simp only [he, if_true]
      simp only [store, hnb1, if_true, Res.map_ok]
      refine ⟨_, rfl, by simp, ?_⟩
      have := core true (by simp [← e3, he])
      rw [he] at this
      simpa using this
    · simp only [he, if_false]
      simp only [store, hnb1, if_true, Res.map_ok]
      refine ⟨_, rfl, by simp, ?_⟩
      have := core b.full (by simp [hf, ← e3, he])
      simpa [hf] using this

theorem Rep.popBack {b : Buf α} {l} (h : Rep b l) (hl : l ≠ []) :
    (popBack b).storage.length = b.storage.length ∧ Rep (popBack b) l.dropLast := by
  have hl' : 0 < l.length := List.length_pos_iff.2 hl
  have hle := h.le
  have h0 : 0 < b.storage.length := by omega
  have hib := h.ib h0
  have hie := h.ie_lt h0
  have hc := h.cap
  have hiew := h.ie
  refine ⟨rfl, ?_⟩
  unfold SlidingBuffer.popBack
  rw [decreaseIdx_eq h _ h0]
  constructor
  · exact hc
  · intro hz; simp only at hz; omega
  · intro _; exact hib
  · simp; omega
  · simp; omega
  · simp only [List.length_dropLast]
    rw [hiew]
    unfold wrap
    split <;> split <;> split <;> omega
  · intro i hi
    simp at hi
    simp only
    rw [h.get i (by omega), List.getElem?_dropLast, if_pos (by omega)]

theorem Rep.popFront {b : Buf α} {l} (h : Rep b l) (hl : l ≠ []) :
    (popFront b).storage.length = b.storage.length ∧ Rep (popFront b) l.tail := by
  have hl' : 0 < l.length := List.length_pos_iff.2 hl
  have hle := h.le
  have h0 : 0 < b.storage.length := by omega
  have hib := h.ib h0
  have hie := h.ie_lt h0
  have hc := h.cap
  have hiew := h.ie
  refine ⟨rfl, ?_⟩
  unfold SlidingBuffer.popFront
  rw [increaseIdx_eq rfl hc _ hib]
  constructor
  · exact hc
  · intro hz; simp only at hz; omega
  · intro _; exact wrap_lt h0 hib (by omega)
  · simp; omega
  · simp; omega
  · simp only [List.length_tail]
    rw [hiew]
    unfold wrap
    split <;> split <;> split <;> omega
  · intro i hi
    simp at hi
    simp only
    have key : wrap b.storage.length (wrap b.storage.length (b.idxBegin + 1) + i) =
        wrap b.storage.length (b.idxBegin + (i + 1)) := by
      unfold wrap; split <;> split <;> split <;> omega
    rw [key, h.get (i + 1) (by omega)]
    simp

theorem Rep.clear {b : Buf α} {l} (h : b.storage.length < 2 ^ 62) (dflt : α) (_ : l = ([] : List α)) :
    (clear dflt b).storage.length = b.storage.length ∧ Rep (clear dflt b) l := by
  subst l
  refine ⟨by simp [SlidingBuffer.clear], ?_⟩
  constructor <;> simp [SlidingBuffer.clear, wrap]
  · exact h
  · intro h1; exact List.length_eq_zero_iff.1 h1.symm

/-- Rotating so that logical position `k` comes first, then resizing. -/
theorem rotate_get (st : List α) (n i : Nat) (hn : n ≤ st.length) (hi : i < st.length) :
    (st.drop n ++ st.take n)[i]? = st[wrap st.length (n + i)]? := by
  unfold wrap
  by_cases h : i < st.length - n
  · rw [List.getElem?_append_left (by simpa using h), List.getElem?_drop, if_neg (by omega)]
  · rw [List.getElem?_append_right (by simp; omega), List.length_drop, if_pos (by omega),
      List.getElem?_take, if_pos (by omega)]
    congr 1
    omega

theorem vectorResize_get (dflt : α) (st : List α) (n i : Nat) (h1 : i < n) (h2 : i < st.length) :
    (vectorResize dflt st n)[i]? = st[i]? := by
  unfold vectorResize
  rw [List.getElem?_append_left (by simp; omega), List.getElem?_take, if_pos h1]

theorem vectorResize_length (dflt : α) (st : List α) (n : Nat) :
    (vectorResize dflt st n).length = n := by
  unfold vectorResize; simp; omega

/-- A buffer that has just been rearranged to start at physical position 0. -/
theorem Rep.zeroed {st l : List α} (f : Bool) (ie : Nat) (hc : st.length < 2 ^ 62)
    (hl : l.length ≤ st.length) (hf : f = true ↔ l.length = st.length ∧ st.length ≠ 0)
    (hie : ie = wrap st.length l.length)
    (hg : ∀ i, i < l.length → st[i]? = l[i]?) : Rep (⟨0, ie, f, st⟩ : Buf α) l := by
  constructor
  · exact hc
  · intro h0
    simp only at h0
    simp only [true_and]
    subst hie; unfold wrap; split <;> omega
  · intro h; exact h
  · exact hl
  · exact hf
  · simpa using hie
  · intro i hi
    simp only [Nat.zero_add]
    rw [← hg i hi]
    unfold wrap
    rw [if_neg (by omega)]

theorem Rep.changeCapacity {b : Buf α} {l} (h : Rep b l) (dflt : α) (n : Nat) (hn : Possible n)
    (s : Shrink) :
    ∃ b', changeCapacity dflt b n s = .ok b' ∧ b'.storage.length = n ∧
      Rep b' (match s with | .keepFront => l.take n | .keepBack => l.drop (l.length - n)) := by
  have hle := h.le
  have hc := h.cap
  have hiew := h.ie
  have hsz := h.size_eq
  unfold Possible at hn
  have hib' : b.idxBegin ≤ b.storage.length := by
    by_cases h0 : 0 < b.storage.length
    · have := h.ib h0; omega
    · have := h.zero (by omega); omega
  unfold SlidingBuffer.changeCapacity
  simp only [capacity, hsz]
  by_cases c1 : n = b.storage.length
  · rw [if_pos c1]
    refine ⟨b, rfl, c1.symm, ?_⟩
    cases s
    · simp only; rw [List.take_of_length_le (by omega)]; exact h
    · simp only
      have : l.length - n = 0 := by omega
      rw [this]; exact h
  rw [if_neg c1]
  by_cases c2 : n = 0
  · rw [if_pos c2]
    subst c2
    refine ⟨_, rfl, rfl, ?_⟩
    have : (match s with | .keepFront => l.take 0 | .keepBack => l.drop (l.length - 0)) = [] := by
      cases s <;> simp
    rw [this]
    constructor <;> simp [wrap]
  rw [if_neg c2]
  have fits : ∀ l', l' = l → l.length < n →
      ∃ b', (rotate b.storage b.idxBegin).map (fun st =>
        (⟨0, l.length, false, vectorResize dflt st n⟩ : Buf α)) = .ok b' ∧
        b'.storage.length = n ∧ Rep b' l' := by
    intro l' hl' hlt
    subst hl'
    rw [rotate, if_pos hib']
    refine ⟨_, rfl, by simp [vectorResize_length], ?_⟩
    apply Rep.zeroed
    · rw [vectorResize_length]; exact hn
    · rw [vectorResize_length]; omega
    · rw [vectorResize_length]; simp; omega
    · rw [vectorResize_length]; unfold wrap; rw [if_neg (by omega)]
    · intro i hi
      have hlen : (b.storage.drop b.idxBegin ++ b.storage.take b.idxBegin).length =
        b.storage.length := by simp; omega
      rw [vectorResize_get _ _ _ _ (by omega) (by omega), rotate_get _ _ _ hib' (by omega),
        h.get i hi]
  have unch : l.length < n →
      (match s with | .keepFront => l.take n | .keepBack => l.drop (l.length - n)) = l := by
    intro hlt
    cases s
    · simp only; rw [List.take_of_length_le (by omega)]
    · simp only
      have : l.length - n = 0 := by omega
      rw [this]; rfl
  by_cases c3 : n > b.storage.length
  · rw [if_pos c3]
    exact fits _ (unch (by omega)) (by omega)
  rw [if_neg c3]
  by_cases c4 : l.length < n
  · rw [if_pos c4]
    exact fits _ (unch c4) c4
  rw [if_neg c4]
  have hib := h.ib (by omega)
  have shrunk : ∀ (nf k : Nat), nf < b.storage.length → k + n ≤ l.length →
      (∀ i, i < n → wrap b.storage.length (nf + i) =
        wrap b.storage.length (b.idxBegin + (k + i))) →
      ∃ b', (rotate b.storage nf).map (fun st =>
        (⟨0, 0, true, vectorResize dflt st n⟩ : Buf α)) = .ok b' ∧
        b'.storage.length = n ∧ Rep b' ((l.drop k).take n) := by
    intro nf k h1 h2 h3
    rw [rotate, if_pos (by omega)]
    refine ⟨_, rfl, by simp [vectorResize_length], ?_⟩
    have hll : ((l.drop k).take n).length = n := by simp; omega
    apply Rep.zeroed
    · rw [vectorResize_length]; exact hn
    · rw [vectorResize_length]; omega
    · rw [vectorResize_length, hll]; simp; omega
    · rw [vectorResize_length, hll]; unfold wrap; simp
    · intro i hi
      rw [hll] at hi
      have hlen : (b.storage.drop nf ++ b.storage.take nf).length =
        b.storage.length := by simp; omega
      rw [vectorResize_get _ _ _ _ (by omega) (by omega), rotate_get _ _ _ (by omega) (by omega),
        h3 i hi, h.get (k + i) (by omega), List.getElem?_take, if_pos hi, List.getElem?_drop]
  cases s with
  | keepFront =>
    have := shrunk b.idxBegin 0 hib (by omega) (by intro i _; simp)
    simpa using this
  | keepBack =>
    simp only
    have hie := h.ie_lt (by omega)
    have hnf : (b.idxEnd + b.storage.length - n) % b.storage.length =
        wrap b.storage.length (b.idxEnd + b.storage.length - n) := by
      unfold wrap
      split
      · rename_i hge
        rw [Nat.mod_eq_sub_mod hge, Nat.mod_eq_of_lt (by omega)]
      · exact Nat.mod_eq_of_lt (by omega)
    rw [hnf]
    have e : (l.drop (l.length - n)).take n = l.drop (l.length - n) := by
      apply List.take_of_length_le; simp; omega
    rw [← e]
    apply shrunk
    · unfold wrap; split <;> omega
    · omega
    · intro i hi
      rw [hiew]
      unfold wrap
      split <;> split <;> split <;> (try split) <;> omega

theorem Rep.resizeExposed {b : Buf α} {l} (h : Rep b l) (dflt : α) (n : Nat) (hn : Possible n)
    (s : Shrink) :
    ∃ b', resizeExposed dflt b n s = .ok b' ∧ b'.storage.length = n ∧
      Rep b' (match s with | .keepFront => l.take n | .keepBack => l.drop (l.length - n)) := by
  unfold SlidingBuffer.resizeExposed
  simp only
  split
  · exact h.changeCapacity dflt n hn s
  rename_i hra
  simp only [Decidable.not_not] at hra
  obtain ⟨rfl, hn0, hnc, hf, hie0, hib0⟩ := hra
  simp only [capacity] at *
  have hle := h.le
  have hc := h.cap
  have hiew := h.ie
  have hsz := h.size_eq
  unfold Possible at hn
  have h0 : 0 < b.storage.length := by
    refine Nat.pos_of_ne_zero fun h0 => ?_
    have := h.zero h0; omega
  have hib := h.ib h0
  have hnl : l.length ≠ b.storage.length := by
    intro he
    have := h.full.2 ⟨he, by omega⟩
    rw [hf] at this; exact absurd this (by simp)
  have hll : b.idxBegin + l.length = b.storage.length := by
    rw [hie0] at hiew
    unfold wrap at hiew
    split at hiew <;> omega
  by_cases hgrow : n > b.storage.length
  · simp only [hgrow, if_true]
    rw [moveBackward, if_pos ⟨by omega, by rw [vectorResize_length]; omega⟩]
    have e1 : (vectorResize dflt b.storage n).take b.storage.length = b.storage := by
      unfold vectorResize
      rw [List.take_of_length_le (l := b.storage) (i := n) (by omega), List.take_left]
    have e2 : (vectorResize dflt b.storage n).length = n := vectorResize_length _ _ _
    rw [e1, e2]
    have e3 : (List.take (n - (b.storage.length - b.idxBegin)) (vectorResize dflt b.storage n) ++
        List.drop b.idxBegin b.storage).length = n := by
      simp [e2]; omega
    have e4 : (List.take (n - (b.storage.length - b.idxBegin)) (vectorResize dflt b.storage n)).length
        = n - (b.storage.length - b.idxBegin) := by simp [e2]
    refine ⟨_, rfl, e3, ?_⟩
    simp only
    rw [List.take_of_length_le (l := l) (i := n) (by omega)]
    constructor
    · simp only; rw [e3]; exact hn
    · simp only; omega
    · simp only; omega
    · simp only; omega
    · simp only; rw [hf, e3]; simp; omega
    · simp only; rw [e3, hie0]; unfold wrap; split <;> omega
    · intro i hi
      simp only
      rw [e3]
      have : wrap n (b.idxBegin + (n - b.storage.length) + i) =
          b.idxBegin + (n - b.storage.length) + i := by
        unfold wrap; rw [if_neg (by omega)]
      rw [this, List.getElem?_append_right (by rw [e4]; omega), e4, List.getElem?_drop, ← h.get i hi]
      unfold wrap
      rw [if_neg (by omega)]
      congr 1
      omega
  · simp only [hgrow, if_false]
    rw [hsz]
    have hmin : min (b.storage.length - n) b.idxBegin ≤ b.storage.length := by omega
    rw [rotate, if_pos hmin]
    refine ⟨_, rfl, by simp [vectorResize_length], ?_⟩
    simp only
    have hlen : (b.storage.drop (min (b.storage.length - n) b.idxBegin) ++
        b.storage.take (min (b.storage.length - n) b.idxBegin)).length =
        b.storage.length := by simp; omega
    have tl : (l.take n).length = min n l.length := by simp
    have vl := vectorResize_length dflt (b.storage.drop (min (b.storage.length - n) b.idxBegin) ++
        b.storage.take (min (b.storage.length - n) b.idxBegin)) n
    constructor
    · simp only; rw [vl]; exact hn
    · simp only; omega
    · simp only; omega
    · simp only; omega
    · simp only; rw [vl, tl]; simp; omega
    · simp only; rw [vl, tl, hie0]; unfold wrap; split <;> omega
    · intro i hi
      simp only
      rw [tl] at hi
      rw [vl]
      have e : wrap n (b.idxBegin - min (b.storage.length - n) b.idxBegin + i) =
          b.idxBegin - min (b.storage.length - n) b.idxBegin + i := by
        unfold wrap; rw [if_neg (by omega)]
      rw [e, vectorResize_get _ _ _ _ (by omega) (by omega),
        rotate_get _ _ _ hmin (by omega), List.getElem?_take, if_pos (by omega), ← h.get i (by omega)]
      congr 1
      unfold wrap
      split <;> split <;> omega

end Gul14.SlidingBuffer
