import Verif.SlidingBuffer.Props

/-! # C95: SlidingBuffer and exceptions; C26: output to a stream, stability of iterators -/
namespace Gul14.SlidingBuffer
open Spec

variable {α : Type}

/-! ## Model -/

/-- The condition `right_align` of SlidingBufferExposed::resize, SlidingBuffer.h:1276-1282. -/
def rightAlign (b : Buf α) (n : Nat) (s : Shrink) : Bool :=
  decide (s = .keepFront ∧ n > 0 ∧ n ≠ capacity b ∧ b.full = false ∧ b.idxEnd = 0 ∧ b.idxBegin ≠ 0)

/-- `Fails exposed b op b'`: the call `op` on `b` can end with an exception and leave `b'`.  Exceptions come from operations of the elements
(construction, assignment, swap) and from the allocation of memory.  An element whose assignment throws has any value afterwards; if a
standard algorithm is left by an exception, all elements that it works on have any values.  std::vector::resize has no effect if it throws, and
does not throw if it makes the vector smaller. -/
inductive Fails (exposed : Bool) : Buf α → Op α → Buf α → Prop
  /-- SlidingBuffer.h:308, 322: the assignment of the element throws. -/
  | pushBack (b : Buf α) (x junk : α) (h : b.idxEnd < b.storage.length) :
      Fails exposed b (.pushBack x) { b with storage := b.storage.set b.idxEnd junk }
  /-- SlidingBuffer.h:353, 368: the assignment throws, after the members have been changed as in 346-351 and 361-366. -/
  | pushFront (b b' : Buf α) (x junk : α) (h : pushFront b junk = .ok b') : Fails exposed b (.pushFront x) b'
  /-- SlidingBuffer.h:533: std::fill throws. -/
  | clear (b : Buf α) (st : List α) (h : st.length = b.storage.length) : Fails exposed b .clear ⟨0, 0, false, st⟩
  /-- SlidingBuffer.h:997, 1008 and 1019: std::rotate throws. -/
  | rotate (b : Buf α) (n : Nat) (s : Shrink) (st : List α) (h : st.length = b.storage.length) (h0 : n ≠ 0) (hn : n ≠ capacity b)
      (hr : exposed = true → rightAlign b n s = false) : Fails exposed b (.resize n s) { b with storage := st }
  /-- SlidingBuffer.h:998: there is no memory for the larger vector; std::rotate is done already. -/
  | alloc (b : Buf α) (n : Nat) (s : Shrink) (st : List α) (h : rotate b.storage b.idxBegin = .ok st) (hn : n > capacity b)
      (hr : exposed = true → rightAlign b n s = false) : Fails exposed b (.resize n s) { b with storage := st }
  /-- SlidingBuffer.h:1290: the same for the right-aligned data of SlidingBufferExposed. -/
  | allocRight (b : Buf α) (n : Nat) (s : Shrink) (he : exposed = true) (hn : n > capacity b) (hr : rightAlign b n s = true) :
      Fails exposed b (.resize n s) b
  /-- SlidingBuffer.h:1291: std::move_backward throws. -/
  | moveRight (b : Buf α) (n : Nat) (s : Shrink) (st : List α) (he : exposed = true) (hn : n > capacity b) (hr : rightAlign b n s = true)
      (h : st.length = n) : Fails exposed b (.resize n s) { b with storage := st }
  /-- SlidingBuffer.h:1301: std::rotate throws; the flag has been changed already (1299). -/
  | rotateRight (b : Buf α) (n : Nat) (s : Shrink) (st : List α) (he : exposed = true) (hn : n < capacity b) (hr : rightAlign b n s = true)
      (h : st.length = b.storage.length) : Fails exposed b (.resize n s) { b with storage := st, full := decide (size b ≥ n) }

/-- The calls that the documentation allows (SlidingBuffer.h:262-264, 281-283, 300-302, 338-340), for capacities that a container can have. -/
def Allowed (b : Buf α) : Op α → Prop
  | .pushBack _ | .pushFront _ => capacity b ≠ 0
  | .popBack | .popFront => size b ≠ 0
  | .clear => True
  | .resize n _ => Possible n

/-- The buffers that result from allowed calls, each of which returns or ends with an exception. -/
inductive Reach (exposed : Bool) (dflt : α) (fails : Buf α → Op α → Buf α → Prop) : Buf α → Prop
  | new (c : Nat) (h : Possible c) : Reach exposed dflt fails (new dflt c)
  | returns (b b' : Buf α) (op : Op α) (h : Reach exposed dflt fails b) (ha : Allowed b op) (hs : step exposed dflt b op = .ok b') :
      Reach exposed dflt fails b'
  | throws (b b' : Buf α) (op : Op α) (h : Reach exposed dflt fails b) (ha : Allowed b op) (hf : fails b op b') : Reach exposed dflt fails b'

/-- push_back(buf[i]), SlidingBuffer.h:306-315: the argument is a reference to a slot of the container. -/
def pushBackOwn (b : Buf α) (slot : Nat) : Res (Buf α) :=
  (subscript b.storage slot).bind fun x => pushBack b x

/-- push_front(buf[i]), SlidingBuffer.h:344-354: the reference is read after the change of the members. -/
def pushFrontOwn (b : Buf α) (slot : Nat) : Res (Buf α) :=
  let b := { b with idxBegin := decreaseIdx b b.idxBegin }
  let b :=
    if b.full then { b with idxEnd := decreaseIdx b b.idxEnd }
    else if b.idxEnd = b.idxBegin then { b with full := true }
    else b
  (subscript b.storage slot).bind fun x => (store b.storage b.idxBegin x).map fun st => { b with storage := st }

/-- The slot that operator[] refers to, SlidingBuffer.h:381-396. -/
def slot (b : Buf α) (idx : Nat) : Nat :=
  let idx := (idx + b.idxBegin) % sizeMod
  if idx ≥ capacity b then idx - capacity b else idx

/-- The loop of operator<<, SlidingBuffer.h:595-596; `wr` is what the stream writes for an element. -/
def dumpFrom (wr : α → Str) (b : Buf α) (n : Nat) : Nat → Nat → Res Str
  | fuel, i =>
      if i < n then match fuel with
        | 0 => .diverge
        | fuel + 1 => (index b i).bind fun x => (dumpFrom wr b n fuel (i + 1)).map fun r => wr x ++ [32, 32] ++ r
      else .ok []

/-- operator<<, SlidingBuffer.h:590-598. -/
def dump (wr : α → Str) (b : Buf α) : Res Str := (dumpFrom wr b (size b) (size b) 0).map fun r => r ++ [10]

/-! ## Lemmas -/

theorem rep_of {ib ie k : Nat} {f : Bool} {st : List α} (hc : st.length < 2 ^ 62) (hz : st.length = 0 → ib = 0 ∧ ie = 0)
    (hib : 0 < st.length → ib < st.length) (hk : k ≤ st.length) (hf : f = true ↔ k = st.length ∧ st.length ≠ 0)
    (hie : ie = wrap st.length (ib + k)) : Rep (⟨ib, ie, f, st⟩ : Buf α) ((st.drop ib ++ st.take ib).take k) := by
  have hib' : ib ≤ st.length := by
    rcases Nat.eq_zero_or_pos st.length with h | h
    · have := hz h; omega
    · have := hib h; omega
  have hl : ((st.drop ib ++ st.take ib).take k).length = k := by simp; omega
  constructor
  · exact hc
  · exact hz
  · exact hib
  · rw [hl]; exact hk
  · rw [hl]; exact hf
  · rw [hl]; exact hie
  · intro i hi
    rw [hl] at hi
    rw [List.getElem?_take, if_pos hi, rotate_get st ib i hib' (by omega)]

theorem rep_any {b : Buf α} {l st : List α} (h : Rep b l) (hs : st.length = b.storage.length) :
    ∃ l', l'.length = l.length ∧ Rep { b with storage := st } l' := by
  obtain ⟨h1, h2, h3, h4, h5, h6, -⟩ := h
  rw [← hs] at h1 h2 h3 h4 h5 h6
  refine ⟨_, ?_, rep_of h1 h2 h3 h4 h5 h6⟩
  have : b.idxBegin ≤ st.length := by
    rcases Nat.eq_zero_or_pos st.length with h | h
    · have := h2 h; omega
    · have := h3 h; omega
  simp; omega

theorem rep_junk {b : Buf α} {l : List α} (h : Rep b l) (h0 : b.idxEnd < b.storage.length) (junk : α) :
    Rep { b with storage := b.storage.set b.idxEnd junk } (if b.full then junk :: l.tail else l) := by
  have hib := h.ib (by omega)
  have hle := h.le
  have hiew := h.ie
  by_cases hf : b.full = true
  · obtain ⟨hl, -⟩ := h.full.1 hf
    rw [if_pos hf]
    have e1 : b.idxEnd = b.idxBegin := by rw [hiew]; unfold wrap; rw [if_pos (by omega)]; omega
    have e2 : (junk :: l.tail).length = l.length := by simp; omega
    constructor
    · simpa using h.cap
    · simpa using h.zero
    · simpa using h.ib
    · rw [e2]; simpa using h.le
    · rw [e2]; simpa using h.full
    · rw [e2]; simpa using h.ie
    · intro i hi
      rw [e2] at hi
      simp only [List.length_set]
      rcases i with _ | i
      · have : wrap b.storage.length (b.idxBegin + 0) = b.idxEnd := by unfold wrap; rw [if_neg (by omega)]; omega
        rw [this, List.getElem?_set_self h0]
        rfl
      · rw [List.getElem?_set_ne (by unfold wrap; split <;> omega), h.get (i + 1) hi]
        simp
  · have hne : l.length ≠ b.storage.length := fun he => hf (h.full.2 ⟨he, by omega⟩)
    rw [if_neg hf]
    constructor
    · simpa using h.cap
    · simpa using h.zero
    · simpa using h.ib
    · simpa using h.le
    · simpa using h.full
    · simpa using h.ie
    · intro i hi
      simp only [List.length_set]
      rw [List.getElem?_set_ne (by rw [hiew]; unfold wrap; split <;> split <;> omega), h.get i hi]

theorem store_lt {st st' : List α} {i : Nat} {x : α} (h : store st i x = .ok st') : i < st.length := by
  unfold store at h
  split at h
  · assumption
  · cases h

theorem rep_pushFront {b b' : Buf α} {l : List α} (h : Rep b l) (junk : α) (hp : pushFront b junk = .ok b') :
    b'.storage.length = b.storage.length ∧ Rep b' (junk :: if b.full then l.dropLast else l) := by
  have h0 : 0 < b.storage.length := by
    rcases Nat.eq_zero_or_pos b.storage.length with hz | hz
    · have : b.storage = [] := List.length_eq_zero_iff.mp hz
      have he := (c23_push_zero_capacity junk b.idxBegin b.idxEnd b.full).2
      rw [← this, hp] at he
      cases he
    · exact hz
  obtain ⟨b'', h1, h2, h3⟩ := h.pushFront junk h0
  rw [hp] at h1
  cases h1
  refine ⟨h2, ?_⟩
  by_cases hf : b.full = true
  · rw [if_pos (h.full.1 hf).1] at h3
    rw [if_pos hf]; exact h3
  · rw [if_neg (fun he => hf (h.full.2 ⟨he, by omega⟩))] at h3
    rw [if_neg hf]; exact h3

/-- Everything but one failure leaves a valid buffer. -/
theorem fails_rep {exposed : Bool} {b b' : Buf α} {op : Op α} {l : List α} (h : Rep b l) (ha : Allowed b op) (hf : Fails exposed b op b')
    (hx : exposed = true → ∀ n s, op = .resize n s → capacity b ≤ n) : ∃ l', Rep b' l' := by
  cases hf with
  | pushBack x junk h0 => exact ⟨_, rep_junk h h0 junk⟩
  | pushFront _ x junk hp => exact ⟨_, (rep_pushFront h junk hp).2⟩
  | clear st hs =>
    refine ⟨[], Rep.zeroed false 0 (by rw [hs]; exact h.cap) (by simp) ?_ ?_ (by simp)⟩
    · simp only [Bool.false_eq_true, List.length_nil, ne_eq, false_iff]
      omega
    · unfold wrap; split <;> simp <;> omega
  | rotate n s st hs => exact ⟨_, (rep_any h hs).choose_spec.2⟩
  | alloc n s st hs =>
    refine ⟨_, (rep_any h (st := st) ?_).choose_spec.2⟩
    unfold rotate at hs
    split at hs
    · cases hs; simp; omega
    · cases hs
  | allocRight n s he hn hr => exact ⟨_, h⟩
  | moveRight n s st he hn hr hs =>
    simp only [rightAlign, decide_eq_true_eq] at hr
    obtain ⟨-, h1, h2, h3, h4, h5⟩ := hr
    unfold capacity at hn h2
    have hib : b.idxBegin < b.storage.length := by
      rcases Nat.eq_zero_or_pos b.storage.length with hz | hz
      · exact absurd (h.zero hz).1 h5
      · exact h.ib hz
    subst hs
    have hp : Possible st.length := ha
    refine ⟨_, rep_of (k := st.length - b.idxBegin) hp (by omega) (by omega) (by omega) ?_ ?_⟩
    · rw [h3]; simp; omega
    · rw [h4]; unfold wrap; split <;> omega
  | rotateRight n s st he hn => exact absurd (hx he n s rfl) (by omega)

theorem apply_some {b : Buf α} {l : List α} (h : Rep b l) {op : Op α} (ha : Allowed b op) :
    ∃ d', Deque.apply ⟨b.storage.length, l⟩ op = some d' := by
  cases op with
  | pushBack x =>
    simp only [Deque.apply]
    rw [if_neg (show ¬ b.storage.length = 0 from ha)]
    split <;> exact ⟨_, rfl⟩
  | pushFront x =>
    simp only [Deque.apply]
    rw [if_neg (show ¬ b.storage.length = 0 from ha)]
    split <;> exact ⟨_, rfl⟩
  | popBack =>
    have : size b ≠ 0 := ha
    rw [h.size_eq] at this
    simp only [Deque.apply]
    rw [if_neg (by intro h; rw [h] at this; exact this rfl)]
    exact ⟨_, rfl⟩
  | popFront =>
    have : size b ≠ 0 := ha
    rw [h.size_eq] at this
    simp only [Deque.apply]
    rw [if_neg (by intro h; rw [h] at this; exact this rfl)]
    exact ⟨_, rfl⟩
  | clear => exact ⟨_, rfl⟩
  | resize n s => cases s <;> exact ⟨_, rfl⟩

/-- The failures that leave a valid buffer: all of SlidingBuffer, and those of SlidingBufferExposed but for resize to a smaller capacity. -/
def Harmless (exposed : Bool) (b : Buf α) (op : Op α) (b' : Buf α) : Prop :=
  Fails exposed b op b' ∧ (exposed = true → ∀ n s, op = .resize n s → capacity b ≤ n)

theorem reach_rep {exposed : Bool} {dflt : α} {b : Buf α} (h : Reach exposed dflt (Harmless exposed) b) : ∃ l, Rep b l := by
  induction h with
  | new c hc => exact ⟨_, Rep.new dflt c hc⟩
  | returns b b' op _ ha hs ih =>
    obtain ⟨l, hl⟩ := ih
    obtain ⟨d', hd⟩ := apply_some hl ha
    obtain ⟨b'', h1, -, h3⟩ := step_rep exposed dflt b ⟨_, l⟩ d' op rfl hl (by rintro n s rfl; exact ha) hd
    rw [hs] at h1
    cases h1
    exact ⟨_, h3⟩
  | throws b b' op _ ha hf ih =>
    obtain ⟨l, hl⟩ := ih
    exact fails_rep hl ha hf.1 hf.2

/-! ## C95 -/

/-- After any history of allowed calls, each of which returns or throws, every observer reports one bounded deque: the buffer is valid.
(Also for SlidingBufferExposed, if resize to a smaller capacity does not throw.) -/
theorem c95_valid_partial (exposed : Bool) (dflt : α) (b : Buf α) (h : Reach exposed dflt (Harmless exposed) b) : ∃ d, Shows b d := by
  obtain ⟨l, hl⟩ := reach_rep h
  exact ⟨_, hl.shows⟩

/-- No allowed call on such a buffer is undefined. -/
theorem c95_usable_partial (exposed : Bool) (dflt : α) (b : Buf α) (h : Reach exposed dflt (Harmless exposed) b) (op : Op α)
    (ha : Allowed b op) : ∃ b', step exposed dflt b op = .ok b' := by
  obtain ⟨l, hl⟩ := reach_rep h
  obtain ⟨d', hd⟩ := apply_some hl ha
  obtain ⟨b', h1, -⟩ := step_rep exposed dflt b ⟨_, l⟩ d' op rfl hl (by rintro n s rfl; exact ha) hd
  exact ⟨b', h1⟩

/-- If push_back throws, then the size is that before; the elements are, too, but for the first one if the buffer was filled. -/
theorem c95_push_back_partial (exposed : Bool) (dflt : α) (b b' : Buf α) (h : Reach exposed dflt (Harmless exposed) b) (x : α)
    (hf : Fails exposed b (.pushBack x) b') :
    capacity b' = capacity b ∧ ∃ l l', elements b = .ok l ∧ elements b' = .ok l' ∧ l'.length = l.length ∧ l'.tail = l.tail ∧
      (filled b = false → l' = l) := by
  obtain ⟨l, hl⟩ := reach_rep h
  cases hf with
  | pushBack x junk h0 =>
    have hl' := rep_junk hl h0 junk
    refine ⟨by simp [capacity], l, _, hl.shows.forward, hl'.shows.forward, ?_⟩
    by_cases hf : b.full = true
    · rw [if_pos hf]
      have := (hl.full.1 hf).1
      refine ⟨by simp; omega, by simp, ?_⟩
      intro h; rw [filled, hf] at h; cases h
    · rw [if_neg hf]; exact ⟨rfl, rfl, fun _ => rfl⟩

/-- If push_front throws, then there is a new first element of any value; the rest is as if push_front had returned. -/
theorem c95_push_front_partial (exposed : Bool) (dflt : α) (b b' : Buf α) (h : Reach exposed dflt (Harmless exposed) b) (x : α)
    (hf : Fails exposed b (.pushFront x) b') :
    capacity b' = capacity b ∧ ∃ l junk, elements b = .ok l ∧ elements b' = .ok (junk :: if filled b then l.dropLast else l) := by
  obtain ⟨l, hl⟩ := reach_rep h
  cases hf with
  | pushFront _ x junk hp =>
    obtain ⟨h1, h2⟩ := rep_pushFront hl junk hp
    exact ⟨h1, l, junk, hl.shows.forward, h2.shows.forward⟩

/-- If clear throws, then the buffer is empty nevertheless. -/
theorem c95_clear (exposed : Bool) (b b' : Buf α) (hf : Fails exposed b .clear b') : size b' = 0 ∧ capacity b' = capacity b := by
  cases hf with
  | clear st hs => exact ⟨rfl, hs⟩

/-- If resize throws, then capacity and size are those before. -/
theorem c95_resize_partial (dflt : α) (b b' : Buf α) (h : Reach false dflt (Harmless false) b) (n : Nat) (s : Shrink)
    (hf : Fails false b (.resize n s) b') : size b' = size b ∧ capacity b' = capacity b := by
  obtain ⟨l, hl⟩ := reach_rep h
  have key : ∀ st : List α, st.length = b.storage.length → size { b with storage := st } = size b ∧ capacity { b with storage := st } = capacity b := by
    intro st hs
    obtain ⟨l', h1, h2⟩ := rep_any hl hs
    exact ⟨by rw [h2.size_eq, h1, hl.size_eq], hs⟩
  cases hf with
  | rotate n s st hs => exact key st hs
  | alloc n s st hs =>
    refine key st ?_
    unfold rotate at hs
    split at hs
    · cases hs; simp; omega
    · cases hs
  | allocRight _ _ he => cases he
  | moveRight _ _ _ he => cases he
  | rotateRight _ _ _ he => cases he

/-- The general statement fails: if there is no memory to enlarge a buffer, its elements are in another order afterwards; if push_front throws,
there is one element more; if the element type throws while SlidingBufferExposed is made smaller, back() is not the last element. -/
theorem c95_violated :
    (∃ b b' : Buf Nat, Reach false 0 (Harmless false) b ∧ elements b = .ok [2, 3, 4] ∧ Fails false b (.resize (2 ^ 61) .keepFront) b' ∧
      elements b' = .ok [3, 4, 2]) ∧
    (∃ b b' : Buf Nat, Reach false 0 (Harmless false) b ∧ elements b = .ok [] ∧ Fails false b (.pushFront 1) b' ∧ elements b' = .ok [99]) ∧
    (∃ b b' : Buf Nat, Reach true 0 (Harmless true) b ∧ elements b = .ok [2, 1] ∧ Fails true b (.resize 2 .keepFront) b' ∧
      size b' = 3 ∧ at' b' 2 = .ok 0 ∧ back b' = .ok 1) := by
  refine ⟨⟨⟨1, 1, true, [4, 2, 3]⟩, ⟨1, 1, true, [2, 3, 4]⟩, ?_, by decide +kernel, .alloc _ _ _ _ (by decide) (by decide) (by simp), by decide +kernel⟩,
    ⟨⟨0, 0, false, [0, 0, 0]⟩, ⟨2, 0, false, [0, 0, 99]⟩, .new 3 (by unfold Possible; decide), by decide +kernel,
      .pushFront _ _ 1 99 (by decide +kernel), by decide +kernel⟩,
    ⟨⟨1, 0, false, [0, 2, 1]⟩, ⟨1, 0, true, [0, 2, 1]⟩, ?_, by decide +kernel, .rotateRight ⟨1, 0, false, [0, 2, 1]⟩ _ _ [0, 2, 1] rfl (by decide) (by decide) (by decide),
      by decide +kernel, by decide +kernel, by decide +kernel⟩⟩
  · refine .returns ⟨0, 0, true, [1, 2, 3]⟩ _ (.pushBack 4) ?_ (by show _ ≠ _; decide) (by decide +kernel)
    refine .returns ⟨0, 2, false, [1, 2, 0]⟩ _ (.pushBack 3) ?_ (by show _ ≠ _; decide) (by decide +kernel)
    refine .returns ⟨0, 1, false, [1, 0, 0]⟩ _ (.pushBack 2) ?_ (by show _ ≠ _; decide) (by decide +kernel)
    exact .returns _ _ (.pushBack 1) (.new 3 (by unfold Possible; decide)) (by show _ ≠ _; decide) (by decide +kernel)
  · refine .returns ⟨2, 0, false, [0, 0, 1]⟩ _ (.pushFront 2) ?_ (by show _ ≠ _; decide) (by decide +kernel)
    exact .returns _ _ (.pushFront 1) (.new 3 (by unfold Possible; decide)) (by show _ ≠ _; decide) (by decide +kernel)

/-- Pushing an element of the buffer itself is pushing a copy of it. -/
theorem c95_own_element (exposed : Bool) (dflt : α) (b : Buf α) (h : Reach exposed dflt (Harmless exposed) b) (i : Nat) (x : α)
    (hx : at' b i = .ok x) : pushBackOwn b (slot b i) = pushBack b x ∧ pushFrontOwn b (slot b i) = pushFront b x := by
  obtain ⟨l, hl⟩ := reach_rep h
  have hi : index b i = .ok x := by
    unfold at' at hx
    split at hx
    · cases hx
    · exact hx
  have hs : subscript b.storage (slot b i) = .ok x := by
    unfold index at hi
    unfold slot
    simp only at hi ⊢
    split at hi
    · rename_i hh; rw [if_pos hh]; exact hi
    · rename_i hh; rw [if_neg hh]; exact hi
  constructor
  · unfold pushBackOwn; rw [hs]; rfl
  · unfold pushFrontOwn pushFront
    simp only
    split
    · simp only [hs]; rfl
    · split
      · simp only [hs]; rfl
      · simp only [hs]; rfl

/-! ## C26 -/

theorem dumpFrom_eq {b : Buf α} {l : List α} (h : Rep b l) (wr : α → Str) : ∀ k i, i + k = l.length →
    dumpFrom wr b l.length k i = .ok ((l.drop i).map fun x => wr x ++ [32, 32]).flatten := by
  intro k
  induction k with
  | zero =>
    intro i hi
    unfold dumpFrom
    rw [if_neg (by omega), List.drop_eq_nil_of_le (by omega)]
    rfl
  | succ k ih =>
    intro i hi
    unfold dumpFrom
    rw [if_pos (by omega)]
    have hg : l[i]? = some l[i] := List.getElem?_eq_getElem (by omega)
    simp only [h.index i _ hg, Res.bind_ok, ih (i + 1) (by omega)]
    rw [List.drop_eq_getElem_cons (by omega : i < l.length), List.map_cons, List.flatten_cons]
    rfl

/-- operator<< writes the elements from the first to the last one, each followed by two blanks, and the end of the line. -/
theorem c26_stream (exposed : Bool) (dflt : α) (b : Buf α) (d : Deque α) (h : Reachable exposed dflt b d) (wr : α → Str) :
    dump wr b = .ok ((d.items.map fun x => wr x ++ [32, 32]).flatten ++ [10]) := by
  obtain ⟨-, h2⟩ := Reachable.rep h
  unfold dump
  rw [h2.size_eq, dumpFrom_eq h2 wr _ 0 (by simp)]
  rfl

theorem deref_same {b b' : Buf α} {l l' : List α} (h : Rep b l) (h' : Rep b' l') {i j : Nat} (hi : i < l'.length) (he : l'[i]? = l[j]?) :
    Iter.deref b' ⟨i⟩ = Iter.deref b ⟨j⟩ := by
  have hg : l'[i]? = some l'[i] := List.getElem?_eq_getElem hi
  show index b' i = index b j
  rw [h'.index i _ hg, h.index j _ (he ▸ hg)]

/-- Iterators stay valid: as long as the buffer is not filled, push_back leaves all elements where they are; resize to a larger capacity does, too;
once it is filled, an iterator refers to the same index after push_back (now the element that followed) and push_front (the one before). -/
theorem c26_stable (exposed : Bool) (dflt : α) (b b' : Buf α) (d : Deque α) (h : Reachable exposed dflt b d) (i : Nat) (hi : i < size b) (x : α) :
    (filled b = false → pushBack b x = .ok b' → Iter.deref b' ⟨i⟩ = Iter.deref b ⟨i⟩) ∧
    (∀ n s, Possible n → capacity b ≤ n → step exposed dflt b (.resize n s) = .ok b' → Iter.deref b' ⟨i⟩ = Iter.deref b ⟨i⟩) ∧
    (filled b = true → pushBack b x = .ok b' → Iter.deref b' ⟨i⟩ = if i + 1 = size b then .ok x else Iter.deref b ⟨i + 1⟩) ∧
    (filled b = true → pushFront b x = .ok b' → Iter.deref b' ⟨i⟩ = if i = 0 then .ok x else Iter.deref b ⟨i - 1⟩) := by
  obtain ⟨h1, h2⟩ := Reachable.rep h
  rw [h2.size_eq] at hi ⊢
  have hle := h2.le
  have h0 : 0 < b.storage.length := by omega
  obtain ⟨b1, p1, -, p3⟩ := h2.pushBack x h0
  obtain ⟨b2, q1, -, q3⟩ := h2.pushFront x h0
  refine ⟨fun hf hp => ?_, fun n s hn hc hs => ?_, fun hf hp => ?_, fun hf hp => ?_⟩
  · rw [hp] at p1; cases p1
    rw [if_neg (fun he => by rw [filled, h2.full.2 ⟨he, by omega⟩] at hf; cases hf)] at p3
    exact deref_same h2 p3 (by simp; omega) (List.getElem?_append_left hi)
  · unfold capacity at hc
    obtain ⟨b3, r1, -, r3⟩ := step_rep exposed dflt b d ⟨n, d.items⟩ (.resize n s) h1 h2 (by rintro _ _ ⟨⟩; exact hn) (by
      cases s
      · simp only [Deque.apply, List.take_of_length_le (show d.items.length ≤ n by omega)]
      · simp only [Deque.apply, show d.items.length - n = 0 by omega, List.drop_zero])
    rw [hs] at r1; cases r1
    exact deref_same h2 r3 hi rfl
  · rw [hp] at p1; cases p1
    have he := (h2.full.1 hf).1
    rw [if_pos he] at p3
    split
    · rename_i hl
      refine p3.index i x ?_
      rw [List.getElem?_append_right (by simp; omega)]
      simp [hl.symm]
    · refine deref_same h2 p3 (by simp; omega) ?_
      rw [List.getElem?_append_left (by simp; omega)]
      simp
  · rw [hp] at q1; cases q1
    have he := (h2.full.1 hf).1
    rw [if_pos he] at q3
    rcases i with _ | i
    · exact q3.index 0 x rfl
    · rw [if_neg (by omega)]
      refine deref_same h2 q3 (by simp; omega) ?_
      simp only [List.getElem?_cons_succ, Nat.add_sub_cancel]
      rw [List.dropLast_eq_take, List.getElem?_take, if_pos (by omega)]

/-! ## Examples -/

example : Allowed (⟨0, 1, false, [7, 0, 0]⟩ : Buf Nat) (.pushBack 8) ∧ Fails false (⟨0, 1, false, [7, 0, 0]⟩ : Buf Nat) (.pushBack 8) ⟨0, 1, false, [7, 99, 0]⟩ ∧
    elements (⟨0, 1, false, [7, 99, 0]⟩ : Buf Nat) = .ok [7] :=
  ⟨by show _ ≠ _; decide, .pushBack ⟨0, 1, false, [7, 0, 0]⟩ 8 99 (by decide), by decide +kernel⟩

example : dump (fun n : Nat => [48 + n.toUInt8]) ⟨2, 1, false, [3, 0, 2]⟩ = .ok [50, 32, 32, 51, 32, 32, 10] := by decide +kernel

end Gul14.SlidingBuffer
